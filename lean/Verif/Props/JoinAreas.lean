import Verif.Lemmas.JoinStart
import Mathlib.Data.List.Sort
import Mathlib.Data.String.Basic
import Mathlib.Algebra.Order.Ring.Rat
import Mathlib.Algebra.Field.Rat

/-!
# C142: joining of unconnected areas
-/

namespace Qopen

open Join Spec

section
variable {K : Type} [Field K] [LinearOrder K] [IsStrictOrderedRing K] {geo : Geo K}
  {coords : Dict String (K × K)} {A B : Dict String (Finset String)} {near : Dict String String}
  {maxDistance : K} {inventory : List (InvNet K)}

private theorem mem_pairs {A : Dict String (Finset String)} {a b : String} :
    (a, b) ∈ (Dict.keys A).flatMap (fun a1 => (Dict.keys A).map (fun a2 => (a1, a2))) ↔
      a ∈ Dict.keys A ∧ b ∈ Dict.keys A := by
  simp only [List.mem_flatMap, List.mem_map, Prod.mk.injEq]
  constructor
  · rintro ⟨x, hx, y, hy, rfl, rfl⟩; exact ⟨hx, hy⟩
  · rintro ⟨hx, hy⟩; exact ⟨a, hx, b, hy, rfl, rfl⟩

omit [LinearOrder K] [IsStrictOrderedRing K] [Field K] in
private theorem key_get {α : Type} {A : Dict String α} {a : String} (h : a ∈ Dict.keys A) :
    ∃ X, Dict.get? A a = some X := Option.isSome_iff_exists.1 ((Dict.get?_isSome _ _).2 h)

omit [LinearOrder K] [IsStrictOrderedRing K] [Field K] in
private theorem get_key {α : Type} {A : Dict String α} {a : String} {X : α}
    (h : Dict.get? A a = some X) : a ∈ Dict.keys A := (Dict.get?_isSome _ _).1 (by rw [h]; rfl)

/-- Everything before the loop. -/
private theorem start (hg : GoodGeo geo coords) (hw : Dict.WF coords) (hA : Dict.WF A)
    {hulls : Dict String (Finset String)} {init : Dict (Sym2 String) (Entry K)}
    (hh : hullsOf geo coords A = .ok hulls)
    (hd : distances geo coords hulls []
      ((Dict.keys A).flatMap (fun a1 => (Dict.keys A).map (fun a2 => (a1, a2)))) = .ok init) :
    Inv A init maxDistance ⟨A, hulls, init, []⟩ (fun n => {n}) ∧
    (∀ a b, Linked init maxDistance a b ↔ Near geo coords A maxDistance a b) ∧
    ∀ a b e, Dict.get? init s(a, b) = some e → e.1 ≤ maxDistance →
      NearestPair geo coords A maxDistance e.2.1 e.2.2 := by
  obtain ⟨hk, hH⟩ := hullsOf_get hh
  obtain ⟨d1, d2, d3, -⟩ := distances_spec hd
  have hget : ∀ a H, Dict.get? hulls a = some H → ∃ X, Dict.get? A a = some X ∧
      H.Nonempty ∧ ∀ s, s ∈ H ↔ ∃ c, Corner geo coords X s c := by
    intro a H h
    obtain ⟨X, hX⟩ := key_get (A := A) (a := a) (by rw [← hk]; exact get_key h)
    obtain ⟨H', h1, h2⟩ := hH a X hX
    rw [h, Option.some.injEq] at h1
    subst h1
    exact ⟨X, hX, hullOf_corner hg hw h2⟩
  have hent : ∀ p e, Dict.get? init p = some e → ∃ a b X Y c c', a ≠ b ∧ p = s(a, b) ∧
      Dict.get? A a = some X ∧ Dict.get? A b = some Y ∧ Corner geo coords X e.2.1 c ∧
      Corner geo coords Y e.2.2 c' ∧ e.1 = geo.dist c c' / 1000 ∧
      ∀ t t' d d', Corner geo coords X t d → Corner geo coords Y t' d' →
        e.1 ≤ geo.dist d d' / 1000 := by
    intro p e he
    rcases d2 p e he with h | ⟨a, b, H1, H2, -, hne, rfl, g1, g2, hn⟩
    · simp at h
    obtain ⟨X, hX, -, cX⟩ := hget a H1 g1
    obtain ⟨Y, hY, -, cY⟩ := hget b H2 g2
    obtain ⟨m1, m2, ⟨c1, c2, q1, q2, q3⟩, hmin⟩ := nearest_spec hg.iter hn
    obtain ⟨c, hc⟩ := (cX _).1 m1
    obtain ⟨c', hc'⟩ := (cY _).1 m2
    have e1 : c = c1 := by have := hc.2.1; rw [q1] at this; exact (Option.some.inj this).symm
    have e2 : c' = c2 := by have := hc'.2.1; rw [q2] at this; exact (Option.some.inj this).symm
    subst e1 e2
    refine ⟨a, b, X, Y, c, c', hne, rfl, hX, hY, hc, hc', q3, ?_⟩
    intro t t' d d' ht ht'
    exact hmin t ((cX t).2 ⟨d, ht⟩) t' ((cY t').2 ⟨d', ht'⟩) d d' ht.2.1 ht'.2.1
  refine ⟨?_, ?_, ?_⟩
  · refine
      { wf := hA, hwf := by unfold Dict.WF; rw [hk]; exact hA, hkeys := fun n => by simp [hk],
        self := fun n _ => rfl, sub := ?_, cover := fun a ha => ⟨a, ha, rfl⟩, disj := ?_,
        conn := ?_, sets := ?_, dwf := d1 (by simp [Dict.WF]), dist := ?_, all := ?_,
        near := by simp }
    · rintro n hn a rfl; exact hn
    · rintro n _ n' _ a rfl h; exact h
    · rintro n _ a rfl; exact .refl
    · intro n X hX s
      constructor
      · intro hs; exact ⟨n, rfl, X, hX, hs⟩
      · rintro ⟨a, rfl, Y, hY, hs⟩
        rw [show Dict.get? A a = some X from hX, Option.some.injEq] at hY
        rw [hY]; exact hs
    · intro p e he
      obtain ⟨a, b, X, Y, c, c', hne, rfl, hX, hY, -⟩ := hent p e he
      refine ⟨a, get_key hX, b, get_key hY, hne, rfl, ⟨a, rfl, b, rfl, he⟩, ?_⟩
      rintro x rfl y rfl e' he'
      rw [show Dict.get? init s(x, y) = some e from he, Option.some.injEq] at he'
      rw [he']
    · intro n hn n' hn' hne
      exact Option.isSome_iff_exists.1 (d3 n n' (mem_pairs.2 ⟨hn, hn'⟩) hne)
  · intro a b
    constructor
    · rintro ⟨e, he, hle⟩
      obtain ⟨a', b', X, Y, c, c', hne, hp, hX, hY, hc, hc', hd, -⟩ := hent _ e he
      rw [hd] at hle
      rcases Sym2.eq_iff.1 hp with ⟨rfl, rfl⟩ | ⟨rfl, rfl⟩
      · exact ⟨hne, X, Y, _, _, c, c', hX, hY, hc, hc', hle⟩
      · exact ⟨hne.symm, Y, X, _, _, c', c, hY, hX, hc', hc, by rw [hg.symm]; exact hle⟩
    · rintro ⟨hne, X, Y, s, s', c, c', hX, hY, hc, hc', hle⟩
      obtain ⟨e, he⟩ := Option.isSome_iff_exists.1
        (d3 a b (mem_pairs.2 ⟨get_key hX, get_key hY⟩) hne)
      obtain ⟨a', b', X', Y', -, -, -, hp, hX', hY', -, -, -, hmin⟩ := hent _ e he
      refine ⟨e, he, ?_⟩
      rcases Sym2.eq_iff.1 hp with ⟨rfl, rfl⟩ | ⟨rfl, rfl⟩
      · rw [hX, Option.some.injEq] at hX'; rw [hY, Option.some.injEq] at hY'
        subst hX' hY'
        exact (hmin _ _ _ _ hc hc').trans hle
      · rw [hY, Option.some.injEq] at hX'; rw [hX, Option.some.injEq] at hY'
        subst hX' hY'
        refine (hmin _ _ _ _ hc' hc).trans ?_
        rw [hg.symm]; exact hle
  · intro a b e he hle
    obtain ⟨a', b', X, Y, c, c', hne, -, hX, hY, hc, hc', hd, hmin⟩ := hent _ e he
    refine ⟨a', b', X, Y, c, c', hne, hX, hY, hc, hc', by rw [← hd]; exact hle, ?_⟩
    intro t t' d d' ht ht'
    rw [← hd]; exact hmin t t' d d' ht ht'

omit [IsStrictOrderedRing K] in
private theorem near_iff_linked {init : Dict (Sym2 String) (Entry K)}
    (h : ∀ a b, Linked init maxDistance a b ↔ Near geo coords A maxDistance a b) :
    Relation.ReflTransGen (Linked init maxDistance) = Together geo coords A maxDistance := by
  unfold Together
  congr 1
  funext a b
  exact propext (h a b)

private theorem joined (hc : collectCoordinates [] inventory = .ok coords)
    (hg : GoodGeo geo coords) (hA : Dict.WF A)
    {hulls : Dict String (Finset String)} {init : Dict (Sym2 String) (Entry K)}
    (hh : hullsOf geo coords A = .ok hulls)
    (hd : distances geo coords hulls []
      ((Dict.keys A).flatMap (fun a1 => (Dict.keys A).map (fun a2 => (a1, a2)))) = .ok init) :
    ∃ st M, joinAreas geo A maxDistance inventory = .ok (st.areas, st.near) ∧
      Inv A init maxDistance st M ∧
      ∀ p e, Dict.get? st.distance p = some e → maxDistance < e.1 := by
  have hw : Dict.WF coords := collectCoordinates_WF (by simp [Dict.WF]) hc
  obtain ⟨hi, -⟩ := start (maxDistance := maxDistance) hg hw hA hh hd
  obtain ⟨st, M, h1, h2, h3⟩ := hi.loop hg.pair
  exact ⟨st, M, by simp only [joinAreas, hc, hh, hd, h1, bind, Except.bind], h2, h3⟩

omit [IsStrictOrderedRing K] in
private theorem joined_of_ok (hc : collectCoordinates [] inventory = .ok coords)
    (h : joinAreas geo A maxDistance inventory = .ok (B, near)) :
    ∃ hulls init, hullsOf geo coords A = .ok hulls ∧ distances geo coords hulls []
      ((Dict.keys A).flatMap (fun a1 => (Dict.keys A).map (fun a2 => (a1, a2)))) = .ok init := by
  unfold joinAreas at h
  rw [hc] at h
  rw [bind_ok] at h
  obtain ⟨c, h1, h⟩ := h
  obtain rfl := Except.ok.inj h1
  rw [bind_ok] at h
  obtain ⟨hulls, h1, h⟩ := h
  rw [bind_ok] at h
  obtain ⟨init, h2, h⟩ := h
  exact ⟨hulls, init, h1, h2⟩

/-- **C142**: the areas which are returned are the unions of the given areas which belong together,
named after one of them: a chain of areas in which each one is near to the next one. -/
theorem C142_joined (hc : collectCoordinates [] inventory = .ok coords) (hg : GoodGeo geo coords)
    (hA : Dict.WF A) (h : joinAreas geo A maxDistance inventory = .ok (B, near)) :
    Dict.WF B ∧
    (∀ n X, Dict.get? B n = some X → n ∈ Dict.keys A ∧ ∀ s, s ∈ X ↔
      ∃ a Y, Dict.get? A a = some Y ∧ Together geo coords A maxDistance n a ∧ s ∈ Y) ∧
    ∀ a ∈ Dict.keys A, ∃! n, n ∈ Dict.keys B ∧ Together geo coords A maxDistance a n := by
  have hw : Dict.WF coords := collectCoordinates_WF (by simp [Dict.WF]) hc
  obtain ⟨hulls, init, hh, hd⟩ := joined_of_ok hc h
  obtain ⟨-, hnl, -⟩ := start (maxDistance := maxDistance) hg hw hA hh hd
  obtain ⟨st, M, h1, hi, hend⟩ := joined (maxDistance := maxDistance) hc hg hA hh hd
  rw [h] at h1
  simp only [Except.ok.injEq, Prod.mk.injEq] at h1
  obtain ⟨rfl, rfl⟩ := h1
  rw [← near_iff_linked hnl]
  -- a step does not leave an area
  have hstep : ∀ n ∈ Dict.keys st.areas, ∀ a b, a ∈ M n → Linked init maxDistance a b → b ∈ M n := by
    intro n hn a b ha hab
    have hb : b ∈ Dict.keys A := by
      obtain ⟨-, X, Y, _, _, _, _, _, hY, _⟩ := (hnl a b).1 hab
      exact get_key hY
    obtain ⟨n', hn', hb'⟩ := hi.cover b hb
    by_cases hnn : n = n'
    · rw [hnn]; exact hb'
    · obtain ⟨e, he⟩ := hi.all n hn n' hn' hnn
      obtain ⟨-, -, -, -, hmin⟩ := hi.dist_at he
      obtain ⟨e', he', hle⟩ := hab
      exact absurd ((hmin a ha b hb' e' he').trans hle) (not_le.2 (hend _ _ he))
  have hclass : ∀ n ∈ Dict.keys st.areas, ∀ a,
      Relation.ReflTransGen (Linked init maxDistance) n a → a ∈ M n := by
    intro n hn a h
    induction h with
    | refl => exact hi.self n hn
    | tail _ h ih => exact hstep n hn _ _ ih h
  refine ⟨hi.wf, ?_, ?_⟩
  · intro n X hX
    have hn := get_key hX
    refine ⟨hi.sub n hn n (hi.self n hn), fun s => ?_⟩
    rw [hi.sets n X hX s]
    constructor
    · rintro ⟨a, ha, Y, hY, hs⟩
      exact ⟨a, Y, hY, hi.conn n hn a ha, hs⟩
    · rintro ⟨a, Y, hY, ht, hs⟩
      exact ⟨a, hclass n hn a ht, Y, hY, hs⟩
  · intro a ha
    obtain ⟨n, hn, han⟩ := hi.cover a ha
    refine ⟨n, ⟨hn, Linked.rtg_symm (hi.conn n hn a han)⟩, ?_⟩
    rintro m ⟨hm, hma⟩
    exact hi.disj m hm n hn a (hclass m hm a (Linked.rtg_symm hma)) han

/-- **C142**: each entry of the second return value is a nearest pair of corners of two areas which are
near to each other. -/
theorem C142_near_stations_partial (hc : collectCoordinates [] inventory = .ok coords)
    (hg : GoodGeo geo coords) (hA : Dict.WF A)
    (h : joinAreas geo A maxDistance inventory = .ok (B, near)) {s s' : String}
    (hs : Dict.get? near s = some s') :
    NearestPair geo coords A maxDistance s s' ∨ NearestPair geo coords A maxDistance s' s := by
  have hw : Dict.WF coords := collectCoordinates_WF (by simp [Dict.WF]) hc
  obtain ⟨hulls, init, hh, hd⟩ := joined_of_ok hc h
  obtain ⟨-, -, hnp⟩ := start (maxDistance := maxDistance) hg hw hA hh hd
  obtain ⟨st, M, h1, hi, -⟩ := joined (maxDistance := maxDistance) hc hg hA hh hd
  rw [h] at h1
  simp only [Except.ok.injEq, Prod.mk.injEq] at h1
  obtain ⟨rfl, rfl⟩ := h1
  obtain ⟨a, b, e, he, hle, hpair⟩ := hi.near s s' hs
  have := hnp a b e he hle
  rcases hpair with hp | hp <;> rw [hp] at this
  · exact .inl this
  · exact .inr this

/-- **C142**: the areas are joined without exception exactly if the inventory contains all stations and
Qhull finds the hull of each area. -/
theorem C142_returns (hc : collectCoordinates [] inventory = .ok coords) (hg : GoodGeo geo coords)
    (hA : Dict.WF A) :
    (∃ r, joinAreas geo A maxDistance inventory = .ok r) ↔
      ∀ a X, Dict.get? A a = some X → (∀ s ∈ X, s ∈ Dict.keys coords) ∧
        ∃ cs, geo.hull ((geo.iter X).filterMap (Dict.get? coords)) = .ok cs := by
  have hw : Dict.WF coords := collectCoordinates_WF (by simp [Dict.WF]) hc
  constructor
  · rintro ⟨⟨B, near⟩, h⟩ a X hX
    obtain ⟨hulls, init, hh, hd⟩ := joined_of_ok hc h
    obtain ⟨H, -, h2⟩ := (hullsOf_get hh).2 a X hX
    unfold hullOf at h2
    rw [bind_ok] at h2
    obtain ⟨pts, q1, h2⟩ := h2
    rw [bind_ok] at h2
    obtain ⟨cs, q2, -⟩ := h2
    obtain ⟨e1, k1⟩ := mapExc_lookup q1
    refine ⟨fun s hs => ?_, cs, by rw [← e1]; exact q2⟩
    obtain ⟨v, hv⟩ := k1 s ((hg.iter _ _).2 hs)
    exact get_key hv
  · intro h
    obtain ⟨hulls, hh⟩ := hullsOf_ok (geo := geo) (coords := coords) (A := A) (fun a X hm => by
      obtain ⟨h1, h2⟩ := h a X (Dict.get?_of_mem hA hm)
      exact hullOf_ok hg hw h1 h2)
    obtain ⟨hk, hH⟩ := hullsOf_get hh
    have hget : ∀ a ∈ Dict.keys A, ∃ H, Dict.get? hulls a = some H ∧ H.Nonempty ∧
        ∀ s ∈ H, ∃ c, Dict.get? coords s = some c := by
      intro a ha
      obtain ⟨X, hX⟩ := key_get ha
      obtain ⟨H, h1, h2⟩ := hH a X hX
      obtain ⟨n, hcor⟩ := hullOf_corner hg hw h2
      refine ⟨H, h1, n, fun s hs => ?_⟩
      obtain ⟨c, hcc⟩ := (hcor s).1 hs
      exact ⟨c, hcc.2.1⟩
    obtain ⟨init, hd⟩ := distances_ok (geo := geo) (coords := coords) (hulls := hulls)
      (l := (Dict.keys A).flatMap (fun a1 => (Dict.keys A).map (fun a2 => (a1, a2)))) (by
        intro a1 a2 hm
        obtain ⟨m1, m2⟩ := mem_pairs.1 hm
        obtain ⟨H1, g1, n1, c1⟩ := hget a1 m1
        obtain ⟨H2, g2, n2, c2⟩ := hget a2 m2
        obtain ⟨e, he⟩ := nearest_ok hg.iter n1 n2 c1 c2
        exact ⟨H1, H2, e, g1, g2, he⟩) []
    obtain ⟨st, M, h1, -⟩ := joined (maxDistance := maxDistance) hc hg hA hh hd
    exact ⟨_, h1⟩

end

/-! ## Coordinates -/

section
variable {K : Type} [Field K] [LinearOrder K]

private theorem addStations_spec {net : String} {l : List (InvSta K)} :
    ∀ {d d' : Dict String (K × K)}, addStations net d l = .ok d' →
    (l.map (fun s => net ++ "." ++ s.code)).Nodup →
    (∀ sta ∈ l, ∃ cha r, sta.channels = cha :: r ∧ Dict.get? d' (net ++ "." ++ sta.code) =
      some (if cha.1 = 0 then sta.lat else cha.1, if cha.2 = 0 then sta.lon else cha.2)) ∧
    ∀ k, k ∉ l.map (fun s => net ++ "." ++ s.code) → Dict.get? d' k = Dict.get? d k := by
  induction l with
  | nil =>
    intro d d' h _
    simp only [addStations, Except.ok.injEq] at h
    subst h
    simp
  | cons s l ih =>
    intro d d' h hn
    rw [List.map_cons, List.nodup_cons] at hn
    rw [addStations, bind_ok] at h
    obtain ⟨d1, h1, h⟩ := h
    obtain ⟨i1, i2⟩ := ih h hn.2
    unfold addStation at h1
    cases hcha : s.channels with
    | nil => rw [hcha] at h1; cases h1
    | cons cha r =>
      rw [hcha] at h1
      simp only [Except.ok.injEq] at h1
      subst h1
      refine ⟨?_, ?_⟩
      · intro sta hs
        rcases List.mem_cons.1 hs with rfl | hs
        · exact ⟨cha, r, hcha, by rw [i2 _ hn.1, Dict.get?_set_self]; rfl⟩
        · exact i1 sta hs
      · intro k hk
        simp only [List.map_cons, List.mem_cons, not_or] at hk
        rw [i2 k hk.2, Dict.get?_set_ne _ _ (Ne.symm hk.1)]

private theorem collect_spec {l : List (InvNet K)} :
    ∀ {d d' : Dict String (K × K)}, collectCoordinates d l = .ok d' →
    (l.flatMap (fun n => n.stations.map (fun s => n.code ++ "." ++ s.code))).Nodup →
    (∀ net ∈ l, ∀ sta ∈ net.stations, ∃ cha r, sta.channels = cha :: r ∧
      Dict.get? d' (net.code ++ "." ++ sta.code) =
        some (if cha.1 = 0 then sta.lat else cha.1, if cha.2 = 0 then sta.lon else cha.2)) ∧
    ∀ k, k ∉ l.flatMap (fun n => n.stations.map (fun s => n.code ++ "." ++ s.code)) →
      Dict.get? d' k = Dict.get? d k := by
  induction l with
  | nil =>
    intro d d' h _
    simp only [collectCoordinates, Except.ok.injEq] at h
    subst h
    simp
  | cons n l ih =>
    intro d d' h hn
    rw [List.flatMap_cons, List.nodup_append] at hn
    rw [collectCoordinates, bind_ok] at h
    obtain ⟨d1, h1, h⟩ := h
    obtain ⟨i1, i2⟩ := ih h hn.2.1
    obtain ⟨j1, j2⟩ := addStations_spec h1 hn.1
    refine ⟨?_, ?_⟩
    · intro net hnet sta hs
      rcases List.mem_cons.1 hnet with rfl | hnet
      · obtain ⟨cha, r, e1, e2⟩ := j1 sta hs
        refine ⟨cha, r, e1, ?_⟩
        rw [i2 _ (fun hm => hn.2.2 _ (List.mem_map.2 ⟨sta, hs, rfl⟩) _ hm rfl), e2]
      · exact i1 net hnet sta hs
    · intro k hk
      rw [List.flatMap_cons, List.mem_append, not_or] at hk
      rw [i2 k hk.2, j2 k hk.1]

/-- **C142**: the coordinates of a station are those of its first channel, or of the station where the
channel has none (or lies on the equator or the zero meridian); other stations have no coordinates. -/
theorem C142_coordinates {inventory : List (InvNet K)} {coords : Dict String (K × K)}
    (h : collectCoordinates [] inventory = .ok coords)
    (hn : (inventory.flatMap (fun n => n.stations.map (fun s => n.code ++ "." ++ s.code))).Nodup) :
    (∀ net ∈ inventory, ∀ sta ∈ net.stations, ∃ cha r, sta.channels = cha :: r ∧
      Dict.get? coords (net.code ++ "." ++ sta.code) =
        some (if cha.1 = 0 then sta.lat else cha.1, if cha.2 = 0 then sta.lon else cha.2)) ∧
    ∀ k c, Dict.get? coords k = some c →
      ∃ net ∈ inventory, ∃ sta ∈ net.stations, k = net.code ++ "." ++ sta.code := by
  obtain ⟨h1, h2⟩ := collect_spec h hn
  refine ⟨h1, fun k c hk => ?_⟩
  by_contra hcon
  rw [h2 k] at hk
  · simp at hk
  · intro hm
    simp only [List.mem_flatMap, List.mem_map] at hm
    obtain ⟨n, hn, s, hs, rfl⟩ := hm
    exact hcon ⟨n, hn, s, hs, rfl⟩

end

/-! ## Examples -/

namespace JoinExample

/-- Loop with a bound on the number of passes, for the examples. -/
def runN (geo : Geo ℚ) (m : ℚ) : ℕ → St ℚ → Option (Dict String (Finset String) × Dict String String)
  | 0, _ => none
  | n + 1, st =>
    match joinStep geo m st with
    | .error _ => none
    | .ok none => some (st.areas, st.near)
    | .ok (some st') => runN geo m n st'

theorem runN_loop {geo : Geo ℚ} {m : ℚ} {r : Dict String (Finset String) × Dict String String} :
    ∀ {n : ℕ} {st : St ℚ}, runN geo m n st = some r →
      ∃ st', joinLoop geo m st = .ok st' ∧ (st'.areas, st'.near) = r := by
  intro n
  induction n with
  | zero => intro st h; simp [runN] at h
  | succ n ih =>
    intro st h
    rw [runN] at h
    rw [joinLoop]
    split at h
    · cases h
    · next he =>
      refine ⟨st, ?_, Option.some.inj h⟩
      split
      · next e he' => rw [he] at he'; cases he'
      · rfl
      · next s he' => rw [he] at he'; cases he'
    · next s he =>
      obtain ⟨st', h1, h2⟩ := ih h
      refine ⟨st', ?_, h2⟩
      split
      · next e he' => rw [he] at he'; cases he'
      · next he' => rw [he] at he'; cases he'
      · next s' he' =>
        rw [he] at he'
        simp only [Except.ok.injEq, Option.some.injEq] at he'
        rw [← he']; exact h1

/-- The function with a bound on the number of passes, for the examples. -/
def joinN (geo : Geo ℚ) (A : Dict String (Finset String)) (m : ℚ) (inv : List (InvNet ℚ)) :
    Option (Dict String (Finset String) × Dict String String) :=
  match collectCoordinates [] inv with
  | .error _ => none
  | .ok coords =>
    match hullsOf geo coords A with
    | .error _ => none
    | .ok hulls =>
      match distances geo coords hulls []
        ((Dict.keys A).flatMap (fun a1 => (Dict.keys A).map (fun a2 => (a1, a2)))) with
      | .error _ => none
      | .ok d => runN geo m 10 ⟨A, hulls, d, []⟩

theorem joinN_ok {geo : Geo ℚ} {A : Dict String (Finset String)} {m : ℚ}
    {inv : List (InvNet ℚ)} {r : Dict String (Finset String) × Dict String String}
    (h : joinN geo A m inv = some r) : joinAreas geo A m inv = .ok r := by
  unfold joinN at h
  split at h
  · cases h
  · next coords h1 =>
    split at h
    · cases h
    · next hulls h2 =>
      split at h
      · cases h
      · next d h3 =>
        obtain ⟨st, h4, h5⟩ := runN_loop h
        simp only [joinAreas, h1, h2, h3, h4, bind, Except.bind, h5]

/-- Order of the elements of a set. -/
def sorted (X : Finset String) : List String :=
  Quotient.liftOn X.val (fun l => l.insertionSort (· ≤ ·)) (fun l l' h =>
    List.Perm.eq_of_pairwise (le := (· ≤ ·)) (fun _ _ _ _ h1 h2 => le_antisymm h1 h2)
      (List.pairwise_insertionSort _ l) (List.pairwise_insertionSort _ l')
      (((List.perm_insertionSort _ l).trans h).trans (List.perm_insertionSort _ l').symm))

theorem mem_sorted (X : Finset String) (s : String) : s ∈ sorted X ↔ s ∈ X := by
  rw [← Finset.mem_val]
  unfold sorted
  induction X.val using Quotient.inductionOn with
  | _ l => exact (List.perm_insertionSort _ l).mem_iff

/-- Order of the elements of a pair. -/
def minMax : Sym2 String → String × String :=
  Sym2.lift ⟨fun a b => (min a b, max a b), fun a b => by simp only [min_comm a b, max_comm a b]⟩

theorem minMax_pair (p : Sym2 String) : s((minMax p).1, (minMax p).2) = p := by
  induction p using Sym2.ind with
  | _ a b =>
    show s(min a b, max a b) = s(a, b)
    rcases le_total a b with h | h
    · rw [min_eq_left h, max_eq_right h]
    · rw [min_eq_right h, max_eq_left h, Sym2.eq_swap]

/-- Plane with the sum of the coordinate differences in kilometres as distance.  All areas of the
examples are triangles, or a square with a point in the middle at the origin. -/
def plane : Geo ℚ where
  hull pts :=
    let cs := if pts.length = 3 then pts else pts.filter (fun p => p ≠ (0, 0))
    if pts.length < 3 ∨ cs = [] then .error .other else .ok cs
  dist c c' := 1000 * (|c.1 - c'.1| + |c.2 - c'.2|)
  iter := sorted
  pair := minMax

def net (l : List (String × ℚ × ℚ)) : List (InvNet ℚ) :=
  [⟨"N", l.map (fun p => ⟨p.1, p.2.1, p.2.2, [(p.2.1, p.2.2)]⟩)⟩]

set_option maxRecDepth 100000

/-- Four triangles in a row. -/
def row : List (InvNet ℚ) :=
  net [("P0", -2, 0), ("P1", -20, 1), ("P2", -20, -1), ("Q0", 0, 0), ("Q1", -1, 40), ("Q2", 1, 40),
    ("R0", 1, 0), ("R1", 0, -40), ("R2", 2, -40), ("S0", 4, 0), ("S1", 20, 1), ("S2", 20, -1)]

def rowAreas : Dict String (Finset String) :=
  [("N.P0", {"N.P0", "N.P1", "N.P2"}), ("N.Q0", {"N.Q0", "N.Q1", "N.Q2"}),
   ("N.R0", {"N.R0", "N.R1", "N.R2"}), ("N.S0", {"N.S0", "N.S1", "N.S2"})]

/-- What is expected of the geometry holds, if all coordinates are different. -/
theorem plane_good {coords : Dict String (ℚ × ℚ)} (h : (coords.map Prod.snd).Nodup) :
    GoodGeo plane coords where
  hull pts cs hcs := by
    have hf : ∀ l : List (ℚ × ℚ), (∀ c ∈ l, c ∈ pts) →
        (if pts.length < 3 ∨ l = [] then (.error .other : Py (List (ℚ × ℚ))) else .ok l) = .ok cs →
        cs ≠ [] ∧ ∀ c ∈ cs, c ∈ pts := by
      intro l hl h
      split at h
      · cases h
      · next hn =>
        rw [not_or] at hn
        obtain rfl := Except.ok.inj h
        exact ⟨hn.2, hl⟩
    refine hf _ (fun c hc => ?_) hcs
    split at hc
    · exact hc
    · exact (List.mem_filter.1 hc).1
  symm c c' := by simp only [plane]; rw [abs_sub_comm c.1, abs_sub_comm c.2]
  iter := mem_sorted
  pair := minMax_pair
  distinct s s' c hs hs' := by
    have h1 := Dict.mem_of_get? hs
    have h2 := Dict.mem_of_get? hs'
    have := List.inj_on_of_nodup_map h h1 h2 rfl
    exact (Prod.mk.inj this).1

end JoinExample

open JoinExample

/-- Not all pairs of near stations are kept: here all four areas are joined to one, but the returned
pairs of stations do not connect the first two areas with the other two, as a station has only one
partner. -/
theorem C142_links_counterexample :
    ∃ X near, joinAreas plane rowAreas 10 row = .ok ([("N.P0", X)], near) ∧
      "N.P0" ∈ X ∧ "N.Q0" ∈ X ∧ "N.R0" ∈ X ∧ "N.S0" ∈ X ∧
      ∀ s s', Dict.get? near s = some s' →
        ((s = "N.P0" ∨ s = "N.Q0") ∧ (s' = "N.P0" ∨ s' = "N.Q0")) ∨
        ((s = "N.R0" ∨ s = "N.S0") ∧ (s' = "N.R0" ∨ s' = "N.S0")) := by
  have h : joinN plane rowAreas 10 row = some ([("N.P0", {"N.P0", "N.P1", "N.P2", "N.Q0", "N.Q1",
      "N.Q2", "N.R0", "N.R1", "N.R2", "N.S0", "N.S1", "N.S2"})],
      [("N.Q0", "N.P0"), ("N.R0", "N.S0"), ("N.P0", "N.Q0"), ("N.S0", "N.R0")]) := by decide +kernel
  refine ⟨_, _, joinN_ok h, by decide, by decide, by decide, by decide, ?_⟩
  intro s s' hs
  have := Dict.mem_of_get? hs
  simp only [List.mem_cons, Prod.mk.injEq, List.not_mem_nil, or_false] at this
  rcases this with ⟨rfl, rfl⟩ | ⟨rfl, rfl⟩ | ⟨rfl, rfl⟩ | ⟨rfl, rfl⟩ <;> simp

/-- The hypotheses are met for these areas, and with a smaller distance the two areas in the middle are
joined, the other two stay as they are. -/
example : ∃ coords B near, collectCoordinates [] row = .ok coords ∧ GoodGeo plane coords ∧
    Dict.WF rowAreas ∧ joinAreas plane rowAreas (3 / 2) row = .ok (B, near) ∧
    Dict.keys B = ["N.P0", "N.Q0", "N.S0"] ∧
    Dict.get? B "N.Q0" = some {"N.Q0", "N.Q1", "N.Q2", "N.R0", "N.R1", "N.R2"} ∧
    Dict.get? near "N.Q0" = some "N.R0" ∧ Together plane coords rowAreas (3 / 2) "N.R0" "N.Q0" := by
  have hc : collectCoordinates [] row = .ok [("N.P0", -2, 0), ("N.P1", -20, 1), ("N.P2", -20, -1),
      ("N.Q0", 0, 0), ("N.Q1", -1, 40), ("N.Q2", 1, 40), ("N.R0", 1, 0), ("N.R1", 0, -40),
      ("N.R2", 2, -40), ("N.S0", 4, 0), ("N.S1", 20, 1), ("N.S2", 20, -1)] := by decide +kernel
  have hg : GoodGeo plane [("N.P0", (-2 : ℚ), (0 : ℚ)), ("N.P1", -20, 1), ("N.P2", -20, -1),
      ("N.Q0", 0, 0), ("N.Q1", -1, 40), ("N.Q2", 1, 40), ("N.R0", 1, 0), ("N.R1", 0, -40),
      ("N.R2", 2, -40), ("N.S0", 4, 0), ("N.S1", 20, 1), ("N.S2", 20, -1)] :=
    plane_good (by decide +kernel)
  have hA : Dict.WF rowAreas := by unfold Dict.WF; decide +kernel
  have h : joinN plane rowAreas (3 / 2) row = some ([("N.P0", {"N.P0", "N.P1", "N.P2"}),
      ("N.Q0", {"N.Q0", "N.Q1", "N.Q2", "N.R0", "N.R1", "N.R2"}),
      ("N.S0", {"N.S0", "N.S1", "N.S2"})], [("N.Q0", "N.R0"), ("N.R0", "N.Q0")]) := by decide +kernel
  refine ⟨_, _, _, hc, hg, hA, joinN_ok h, by decide, by decide, by decide, ?_⟩
  obtain ⟨-, -, h3⟩ := C142_joined hc hg hA (joinN_ok h)
  obtain ⟨n, ⟨hn, ht⟩, -⟩ := h3 "N.R0" (by decide)
  obtain ⟨-, h2, h3⟩ := C142_joined hc hg hA (joinN_ok h)
  obtain ⟨-, hq⟩ := h2 "N.Q0" _ rfl
  obtain ⟨a, Y, hY, hta, hs⟩ := (hq "N.R0").1 (by decide)
  have ha : a = "N.R0" := by
    have := Dict.mem_of_get? hY
    simp only [rowAreas, List.mem_cons, Prod.mk.injEq, List.not_mem_nil, or_false] at this
    rcases this with ⟨rfl, rfl⟩ | ⟨rfl, rfl⟩ | ⟨rfl, rfl⟩ | ⟨rfl, rfl⟩ <;> revert hs <;> decide
  subst ha
  obtain ⟨m, ⟨hm, hm'⟩, huniq⟩ := h3 "N.Q0" (by decide)
  have e1 := huniq "N.Q0" ⟨by decide, .refl⟩
  have e2 := huniq n ⟨hn, hta.trans ht⟩
  rwa [e2.trans e1.symm] at ht

/-- Square with a station in the middle, and a triangle near to this station. -/
def JoinExample.square : List (InvNet ℚ) :=
  net [("A", 10, 10), ("B", -10, 10), ("C", -10, -10), ("D", 10, -10), ("M", 0, 0), ("X", 0, 1),
    ("Y", 1, 2), ("Z", -1, 2)]

/-- The pair of areas with stations which are near to each other need not be joined: only corners are
considered.  Here stations `N.M` and `N.X` are one kilometre apart and `maxDistance` is five
kilometres. -/
theorem C142_corner_counterexample :
    plane.dist (0, 0) (0, 1) / 1000 = 1 ∧
    joinAreas plane [("N.A", {"N.A", "N.B", "N.C", "N.D", "N.M"}), ("N.X", {"N.X", "N.Y", "N.Z"})] 5
      square = .ok ([("N.A", {"N.A", "N.B", "N.C", "N.D", "N.M"}),
        ("N.X", {"N.X", "N.Y", "N.Z"})], []) :=
  ⟨by decide +kernel, joinN_ok (by decide +kernel)⟩

/-- If two stations have the same coordinates, one of them is taken for the other: here the areas are
joined by a pair which consists twice of the same station. -/
theorem C142_site_counterexample :
    ∃ X, joinAreas plane [("N.A", {"N.A", "N.B", "N.C"}), ("N.X", {"N.X", "N.Y", "N.Z"})] 5
      (net [("A", 1, 1), ("B", 2, 50), ("C", 3, 50), ("X", 1, 1), ("Y", 1, -60), ("Z", 2, -60)])
      = .ok ([("N.A", X)], [("N.X", "N.X")]) :=
  ⟨{"N.A", "N.B", "N.C", "N.X", "N.Y", "N.Z"}, joinN_ok (by decide +kernel)⟩

/-- An area with two stations has no hull, the call fails. -/
theorem C142_small_area_counterexample :
    ¬ ∃ r, joinAreas plane [("N.A", {"N.A", "N.B"})] 5 (net [("A", 1, 1), ("B", 2, 50)]) = .ok r := by
  have hc : collectCoordinates [] (net [("A", 1, 1), ("B", 2, 50)])
      = .ok [("N.A", 1, 1), ("N.B", 2, 50)] := by decide +kernel
  rw [C142_returns hc (plane_good (by decide +kernel)) (by unfold Dict.WF; decide)]
  intro h
  obtain ⟨-, cs, hcs⟩ := h "N.A" {"N.A", "N.B"} rfl
  have : plane.hull ((plane.iter {"N.A", "N.B"}).filterMap
      (Dict.get? [("N.A", (1 : ℚ), (1 : ℚ)), ("N.B", 2, 50)])) = .error .other := by decide +kernel
  rw [this] at hcs
  cases hcs

end Qopen
