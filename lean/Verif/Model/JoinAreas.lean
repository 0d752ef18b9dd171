import Verif.Model.Site
import Mathlib.Data.Sym.Sym2
import Mathlib.Algebra.Field.Defs
import Mathlib.Algebra.Order.Field.Basic

/-!
# Model of the joining of unconnected areas (site.py:30-39, 138-191)

The function is part of the code but not called by `align_site_responses` in this version
(site.py:213-217).  Coordinates and distances are elements of an ordered field; Qhull, the distance on
the earth and the orders in which Python iterates over sets are parameters (`Geo`).
-/

namespace Qopen.Join

variable {K : Type} [Field K] [LinearOrder K]

/-- Station of an inventory: code, coordinates, coordinates of the channels (site.py:33-38). -/
structure InvSta (K : Type) where
  code : String
  lat : K
  lon : K
  channels : List (K × K)

/-- Network of an inventory (site.py:30-39). -/
structure InvNet (K : Type) where
  code : String
  stations : List (InvSta K)

/-- `x or y` for numbers (site.py:35-36). -/
def orElse (x y : K) : K := if x = 0 then y else x

/-- site.py:33-38, one station. -/
def addStation (net : String) (coords : Dict String (K × K)) (sta : InvSta K) :
    Py (Dict String (K × K)) :=
  match sta.channels with
  | [] => .error .indexError
  | cha :: _ =>
    .ok (Dict.set coords (net ++ "." ++ sta.code) (orElse cha.1 sta.lat, orElse cha.2 sta.lon))

/-- site.py:33-38, stations of a network. -/
def addStations (net : String) : Dict String (K × K) → List (InvSta K) → Py (Dict String (K × K))
  | coords, [] => .ok coords
  | coords, sta :: l => do
    let coords ← addStation net coords sta
    addStations net coords l

/-- site.py:30-39 `_collect_station_coordinates`. -/
def collectCoordinates : Dict String (K × K) → List (InvNet K) → Py (Dict String (K × K))
  | coords, [] => .ok coords
  | coords, net :: l => do
    let coords ← addStations net.code coords net.stations
    collectCoordinates coords l

/-- What the function takes from elsewhere: the corners of the convex hull of points (site.py:147,
149), the distance in metres (site.py:162), the order of the elements of a set and of a pair. -/
structure Geo (K : Type) where
  hull : List (K × K) → Py (List (K × K))
  dist : K × K → K × K → K
  iter : Finset String → List String
  pair : Sym2 String → String × String

/-- `d[k]` (site.py:146-190). -/
def lookup {κ α : Type} [DecidableEq κ] (d : Dict κ α) (k : κ) : Py α :=
  match Dict.get? d k with
  | some v => .ok v
  | none => .error .keyError

/-- site.py:143 `{c: sta for sta, c in coordinates.items()}`. -/
def byCoordinate (coords : Dict String (K × K)) : Dict (K × K) String :=
  coords.foldl (fun d p => Dict.set d p.2 p.1) []

/-- site.py:146-149, one area: stations at the corners of the convex hull. -/
def hullOf (geo : Geo K) (coords : Dict String (K × K)) (area : Finset String) :
    Py (Finset String) := do
  let points ← mapExc (lookup coords) (geo.iter area)
  let corners ← geo.hull points
  let names ← mapExc (lookup (byCoordinate coords)) corners
  .ok names.toFinset

/-- site.py:144-149 `hulls`. -/
def hullsOf (geo : Geo K) (coords : Dict String (K × K)) :
    Dict String (Finset String) → Py (Dict String (Finset String))
  | [] => .ok []
  | (name, area) :: l => do
    let h ← hullOf geo coords area
    let r ← hullsOf geo coords l
    .ok ((name, h) :: r)

/-- Python's `min` over the items of a dictionary for an order of the values: the first smallest
(site.py:164, 169). -/
def minItem {κ α : Type} (lt : α → α → Bool) : List (κ × α) → Option (κ × α)
  | [] => none
  | a :: l => some (l.foldl (fun m b => if lt b.2 m.2 then b else m) a)

/-- Distance in kilometres and the two stations, an entry of `distance` (site.py:152-165). -/
abbrev Entry (K : Type) := K × String × String

/-- Order of the tuples `(dist, (sta1, sta2))` (site.py:169). -/
def entryLt (x y : Entry K) : Bool :=
  decide (x.1 < y.1 ∨ x.1 = y.1 ∧ (x.2.1 < y.2.1 ∨ x.2.1 = y.2.1 ∧ x.2.2 < y.2.2))

/-- site.py:160-163, one pair of stations. -/
def stationDist (geo : Geo K) (coords : Dict String (K × K)) (p : String × String) :
    Py ((String × String) × K) := do
  let c1 ← lookup coords p.1
  let c2 ← lookup coords p.2
  .ok (p, geo.dist c1 c2)

/-- site.py:157-165: nearest stations of two hulls. -/
def nearest (geo : Geo K) (coords : Dict String (K × K)) (h1 h2 : Finset String) : Py (Entry K) := do
  let dists ← mapExc (stationDist geo coords)
    ((geo.iter h1).flatMap (fun s1 => (geo.iter h2).map (fun s2 => (s1, s2))))
  match minItem (fun x y => decide (x < y)) dists with
  | none => .error .valueError
  | some (mink, d) => .ok (d / 1000, mink)

/-- site.py:152-165: distances between areas, for the pairs of names of the two loops. -/
def distances (geo : Geo K) (coords : Dict String (K × K)) (hulls : Dict String (Finset String)) :
    Dict (Sym2 String) (Entry K) → List (String × String) → Py (Dict (Sym2 String) (Entry K))
  | d, [] => .ok d
  | d, (a1, a2) :: l =>
    if (Dict.get? d s(a1, a2)).isSome ∨ a1 = a2 then distances geo coords hulls d l
    else do
      let h1 ← lookup hulls a1
      let h2 ← lookup hulls a2
      let e ← nearest geo coords h1 h2
      distances geo coords hulls (Dict.set d s(a1, a2) e) l

/-- Variables of the while loop (site.py:167-190). -/
structure St (K : Type) where
  areas : Dict String (Finset String)
  hulls : Dict String (Finset String)
  distance : Dict (Sym2 String) (Entry K)
  near : Dict String String

/-- site.py:182-190: distances from the joined area `a1`; those from `a2` are removed. -/
def mergeDist (a1 a2 : String) :
    Dict (Sym2 String) (Entry K) → List String → Py (Dict (Sym2 String) (Entry K))
  | d, [] => .ok d
  | d, a3 :: l =>
    if a3 = a1 ∨ a3 = a2 then mergeDist a1 a2 d l
    else do
      let dist1 ← lookup d s(a1, a3)
      let dist2 ← lookup d s(a2, a3)
      let d := Dict.pop d s(a2, a3)
      mergeDist a1 a2 (if dist2.1 < dist1.1 then Dict.set d s(a1, a3) dist2 else d) l

/-- `d[a1] |= d.pop(a2)` (site.py:180-181). -/
def absorbKey (d : Dict String (Finset String)) (a1 a2 : String) :
    Py (Dict String (Finset String)) := do
  let x ← lookup d a1
  let y ← lookup d a2
  .ok (Dict.set (Dict.pop d a2) a1 (x ∪ y))

/-- site.py:168-190, one pass of the while loop; `none` if the loop ends. -/
def joinStep (geo : Geo K) (maxDistance : K) (st : St K) : Py (Option (St K)) :=
  match minItem entryLt st.distance with
  | none => .ok none
  | some (p, e) =>
    if maxDistance < e.1 then .ok none
    else do
      let areas ← absorbKey st.areas (geo.pair p).1 (geo.pair p).2
      let hulls ← absorbKey st.hulls (geo.pair p).1 (geo.pair p).2
      let distance ← mergeDist (geo.pair p).1 (geo.pair p).2 (Dict.pop st.distance p) (Dict.keys areas)
      .ok (some { areas := areas, hulls := hulls, distance := distance,
                  near := Dict.set (Dict.set st.near e.2.1 e.2.2) e.2.2 e.2.1 })

theorem minItem_mem {κ α : Type} {lt : α → α → Bool} {l : List (κ × α)} {m : κ × α}
    (h : minItem lt l = some m) : m ∈ l := by
  cases l with
  | nil => simp [minItem] at h
  | cons a l =>
    simp only [minItem, Option.some.injEq] at h
    subst h
    have : ∀ (l : List (κ × α)) (a : κ × α),
        l.foldl (fun m b => if lt b.2 m.2 then b else m) a ∈ a :: l := by
      intro l
      induction l with
      | nil => simp
      | cons b l ih =>
        intro a
        rw [List.foldl_cons]
        split
        · exact List.mem_cons_of_mem _ (ih b)
        · rcases List.mem_cons.1 (ih a) with h | h
          · rw [h]; simp
          · simp [h]
    exact this l a

theorem pop_length {κ α : Type} [DecidableEq κ] {d : Dict κ α} {k : κ} {v : α} (h : (k, v) ∈ d) :
    (Dict.pop d k).length + 1 = d.length := by
  induction d with
  | nil => simp at h
  | cons a d ih =>
    obtain ⟨k', v'⟩ := a
    simp only [Dict.pop]
    split
    · simp
    · next hk =>
      rcases List.mem_cons.1 h with h | h
      · simp only [Prod.mk.injEq] at h; exact absurd h.1.symm hk
      · simp [ih h]

theorem set_length {κ α : Type} [DecidableEq κ] {d : Dict κ α} {k : κ} (v : α) :
    (Dict.set d k v).length ≤ d.length + 1 := by
  induction d with
  | nil => simp [Dict.set]
  | cons a d ih =>
    obtain ⟨k', v'⟩ := a
    simp only [Dict.set]
    split <;> simp [ih]

theorem lookup_ok {κ α : Type} [DecidableEq κ] {d : Dict κ α} {k : κ} {v : α} :
    lookup d k = .ok v ↔ Dict.get? d k = some v := by
  unfold lookup
  cases Dict.get? d k <;> simp

omit [Field K] in
theorem mergeDist_length {a1 a2 : String} {l : List String} {d d' : Dict (Sym2 String) (Entry K)}
    (h : mergeDist a1 a2 d l = .ok d') : d'.length ≤ d.length := by
  induction l generalizing d with
  | nil => simp only [mergeDist, Except.ok.injEq] at h; rw [h]
  | cons a3 l ih =>
    rw [mergeDist] at h
    split at h
    · exact ih h
    · rw [bind_ok] at h
      obtain ⟨d1, -, h⟩ := h
      rw [bind_ok] at h
      obtain ⟨d2, h2, h⟩ := h
      have hp := pop_length (Dict.mem_of_get? (lookup_ok.1 h2))
      refine (ih h).trans ?_
      split
      · have := set_length (d := Dict.pop d s(a2, a3)) (k := s(a1, a3)) d2
        omega
      · omega

omit [Field K] in
theorem joinStep_length {geo : Geo K} {maxDistance : K} {st st' : St K}
    (h : joinStep geo maxDistance st = .ok (some st')) : st'.distance.length < st.distance.length := by
  unfold joinStep at h
  split at h
  · simp at h
  · next p e he =>
    split at h
    · simp at h
    · rw [bind_ok] at h
      obtain ⟨ar, -, h⟩ := h
      rw [bind_ok] at h
      obtain ⟨hu, -, h⟩ := h
      rw [bind_ok] at h
      obtain ⟨di, hd, h⟩ := h
      simp only [Except.ok.injEq, Option.some.injEq] at h
      subst h
      have := pop_length (minItem_mem he)
      have := mergeDist_length hd
      simp only
      omega

/-- site.py:167-190, the while loop. -/
def joinLoop (geo : Geo K) (maxDistance : K) (st : St K) : Py (St K) :=
  match hs : joinStep geo maxDistance st with
  | .error e => .error e
  | .ok none => .ok st
  | .ok (some st') => joinLoop geo maxDistance st'
termination_by st.distance.length
decreasing_by exact joinStep_length hs

/-- site.py:138-191 `_join_unconnected_areas`. -/
def joinAreas (geo : Geo K) (areas : Dict String (Finset String)) (maxDistance : K)
    (inventory : List (InvNet K)) : Py (Dict String (Finset String) × Dict String String) := do
  let coords ← collectCoordinates [] inventory
  let hulls ← hullsOf geo coords areas
  let distance ← distances geo coords hulls []
    ((Dict.keys areas).flatMap (fun a1 => (Dict.keys areas).map (fun a2 => (a1, a2))))
  let st ← joinLoop geo maxDistance { areas := areas, hulls := hulls, distance := distance, near := [] }
  .ok (st.areas, st.near)

end Qopen.Join
