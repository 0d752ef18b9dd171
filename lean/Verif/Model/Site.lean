import Verif.Model.Source
import Mathlib.Data.Finset.Basic
import Mathlib.Data.Finset.Card
import Mathlib.Data.List.Sort
import Mathlib.Data.List.Infix
import Mathlib.Order.Basic

/-!
# Model of `qopen/site.py`

`_collect_station_coordinates` and `_join_unconnected_areas` are not called here
(`join_unconnected = None`, site.py:213), see `Verif/Model/JoinAreas.lean`; `_Rstd` only produces a
log message, see `Verif/Model/SiteScatter.lean`; `_Rmean` is not called.
-/

namespace Qopen.Site

open Real Util Source

/-! ## Unconnected areas (site.py:104-135) -/

section Merge
variable {α : Type} [DecidableEq α]

/-- site.py:110-115: join `aset` with the first set in `newsets` that shares an
element, otherwise append it.  The update in place of a set that is also an element
of the list under iteration is harmless: it has been visited already. -/
def absorb (newsets : List (Finset α)) (aset : Finset α) : List (Finset α) :=
  match newsets with
  | [] => [aset]
  | e :: rest => if Disjoint aset e then e :: absorb rest aset else (e ∪ aset) :: rest

/-- site.py:108-115, one pass of the while loop. -/
def mergePass (sets : List (Finset α)) : List (Finset α) := sets.foldl absorb []

theorem absorb_length (l : List (Finset α)) (a : Finset α) :
    (absorb l a).length = l.length ∨ (absorb l a).length = l.length + 1 := by
  induction l with
  | nil => right; rfl
  | cons e l ih =>
    simp only [absorb]
    split
    · rcases ih with h | h <;> simp [h]
    · simp

theorem foldl_absorb_length (sets acc : List (Finset α)) :
    (sets.foldl absorb acc).length ≤ acc.length + sets.length := by
  induction sets generalizing acc with
  | nil => simp
  | cons a sets ih =>
    have := ih (absorb acc a)
    rcases absorb_length acc a with h | h <;> simp only [List.foldl_cons, List.length_cons] at * <;>
      omega

theorem mergePass_length (sets : List (Finset α)) : (mergePass sets).length ≤ sets.length := by
  have := foldl_absorb_length sets []
  simpa [mergePass] using this

/-- site.py:105-116 `_merge_sets`: passes until the number of sets does not change
any more. -/
def mergeSets (sets : List (Finset α)) : List (Finset α) :=
  if (mergePass sets).length = sets.length then mergePass sets
  else mergeSets (mergePass sets)
termination_by sets.length
decreasing_by
  have := mergePass_length sets
  omega

end Merge

/-- `Rsta[i]`, `none` if it is `None` or NaN.  Line 228 raises `IndexError` for lists
that are too short (see `align`), later accesses are in range.
See site.py:78, 83, 124, 228-229, 289-290. -/
def cellAt (l : List Cell) (i : ℕ) : Option ℝ := (l.getD i .none).val?

/-- site.py:125: `ignore_stations is None or sta not in ignore_stations`. -/
def considered (ignore : Option (List String)) (sta : String) : Bool :=
  match ignore with
  | none => true
  | some l => !l.contains sta

/-- site.py:123-125: stations of one event with a response in band `i`. -/
def eventStations (ignore : Option (List String)) (i : ℕ) (ev : EvRes) : Finset String :=
  ((ev.R.filter (fun p => (cellAt p.2 i).isSome && considered ignore p.1)).map Prod.fst).toFinset

/-- site.py:119-135 `_find_unconnected_areas`; the result of the code is the dictionary
`{list(a)[0]: a}`; the sets are disjoint and not empty (see C06), so no set gets lost
and the dictionary has the order of the list. -/
def findAreas (events : Dict String EvRes) (i : ℕ) (ignore : Option (List String)) :
    List (Finset String) :=
  mergeSets ((events.map (fun e => eventStations ignore i e.2)).filter (fun a => 0 < a.card))

/-- site.py:265 `max(areas, key=lambda k: len(areas[k]))`: the first largest one. -/
def largest : List (Finset String) → Option (Finset String)
  | [] => none
  | a :: l => some (l.foldl (fun m b => if m.card < b.card then b else m) a)

/-! ## Equations (site.py:233-322) -/

/-- Argument `station` of `align_site_responses` (site.py:194, 292). -/
inductive StationSel
  | all
  | name (s : String)
  | names (l : List String)

/-- site.py:292: `station is None or sta == station or sta in station`.  For a text
`station` the last test is a substring test. -/
def selected (sel : StationSel) (sta : String) : Bool :=
  match sel with
  | .all => true
  | .name s => sta == s || decide (sta.toList <:+: s.toList)
  | .names l => l.contains sta

/-- Argument `response`: a number or one number per band (site.py:194, 248, 319). -/
inductive Response
  | scalar (x : ℝ)
  | perBand (l : List ℝ)

/-- site.py:248 and 319 `reponse_freqs[i]`. -/
def responseAt (r : Response) (i : ℕ) : Py ℝ :=
  match r with
  | .scalar x => .ok x
  | .perBand l => pyGet l i

/-- The variables `b`, `Arepr` and `row` (site.py:272-277): right hand side, sparse
representation (values, row numbers, column numbers) or dense rows. -/
structure Ols where
  b : List ℝ := []
  data : List ℝ := []
  rowIdx : List ℕ := []
  colIdx : List ℕ := []
  dense : List (List ℝ) := []
  row : ℕ := 0

/-- site.py:242-244: a dense row; later entries for a column overwrite earlier ones. -/
def denseRow (Ne : ℕ) (coldata : List (ℕ × ℝ)) : List ℝ :=
  coldata.foldl (fun r cd => r.set cd.1 cd.2) (List.replicate Ne 0)

/-- site.py:233-246 `construct_ols`. -/
def constructOls (useSparse : Bool) (Ne : ℕ) (o : Ols) (coldata : List (ℕ × ℝ)) (bval : ℝ) : Ols :=
  if useSparse then
    { o with
      b := o.b ++ [bval]
      data := o.data ++ coldata.map Prod.snd
      rowIdx := o.rowIdx ++ coldata.map (fun _ => o.row)
      colIdx := o.colIdx ++ coldata.map Prod.fst
      row := o.row + 1 }
  else
    { o with b := o.b ++ [bval], dense := o.dense ++ [denseRow Ne coldata], row := o.row + 1 }

/-- `scipy.sparse.csr_matrix((data, (row, col)), shape=(nrow, Ne))`: entries with the
same position are added (site.py:328). -/
def csr (o : Ols) (Ne : ℕ) : List (List ℝ) :=
  (List.range o.row).map (fun r => (List.range Ne).map (fun c =>
    (((o.data.zip (o.rowIdx.zip o.colIdx)).filter (fun e => e.2.1 = r ∧ e.2.2 = c)).map
      Prod.fst).sum))

/-- site.py:327-332: the coefficient matrix. -/
def matrix (useSparse : Bool) (Ne : ℕ) (o : Ols) : List (List ℝ) :=
  if useSparse then csr o Ne else o.dense

/-- The variables of the loop over events and stations (site.py:272-282).  (`first` is
never used.) -/
structure LoopState where
  ols : Ols := {}
  normA : Dict ℕ ℝ := []
  normB : ℝ := 0
  last : Dict String (ℕ × ℝ) := []
  used : List String := []

/-- site.py:224-231: number of events with a response of the station in band `i`. -/
def nStations (events : Dict String EvRes) (i : ℕ) (sta : String) : ℕ :=
  (events.flatMap (fun e => e.2.R)).countP (fun p => p.1 == sta && (cellAt p.2 i).isSome)

/-- `d[k] += x` on a `defaultdict(float)` (site.py:278, 296). -/
noncomputable def ddAdd (d : Dict ℕ ℝ) (k : ℕ) (x : ℝ) : Dict ℕ ℝ :=
  d.set k ((d.get? k).getD 0 + x)

/-- site.py:292-297: information for the normalisation. -/
noncomputable def normStep (count : String → ℕ) (sel : StationSel) (st : LoopState) (k : ℕ)
    (sta : String) (R : ℝ) : LoopState :=
  if selected sel sta then
    { st with
      used := if st.used.contains sta then st.used else st.used ++ [sta]
      normA := ddAdd st.normA k (1 / count sta)
      normB := st.normB - log R * (1 / count sta) }
  else st

/-- site.py:298-315: equation for two consecutive observations of a station. -/
noncomputable def diffStep (useSparse : Bool) (Ne : ℕ) (st : LoopState) (k : ℕ) (sta : String)
    (R : ℝ) : LoopState :=
  match st.last.get? sta with
  | some (kl, Rl) =>
    { st with
      ols := constructOls useSparse Ne st.ols [(k, 1), (kl, -1)] (log Rl - log R)
      last := st.last.set sta (k, R) }
  | none => { st with last := st.last.set sta (k, R) }

/-- site.py:286-315, one iteration of the inner loop.  `np.log` of a response that is
not positive (minus infinity or NaN in numpy) is the logarithm of Mathlib here; the
theorems assume positive responses. -/
noncomputable def visit (useSparse : Bool) (Ne : ℕ) (count : String → ℕ) (area : Finset String)
    (sel : StationSel) (st : LoopState) (k : ℕ) (sta : String) (val : Option ℝ) : LoopState :=
  if sta ∉ area then st
  else match val with
    | none => st
    | some R => diffStep useSparse Ne (normStep count sel st k sta R) k sta R

/-- site.py:284-315, the loop over events and stations. -/
noncomputable def loop (useSparse : Bool) (events : Dict String EvRes) (i : ℕ)
    (area : Finset String) (sel : StationSel) : LoopState :=
  events.zipIdx.foldl (fun st p =>
    p.1.2.R.foldl (fun st q =>
      visit useSparse events.length (nStations events i) area sel st p.2 q.1 (cellAt q.2 i)) st) {}

/-- site.py:272-331: coefficient matrix and right hand side of the system of a band. -/
noncomputable def bandSystem (useSparse : Bool) (events : Dict String EvRes) (i : ℕ)
    (area : Finset String) (sel : StationSel) (response : Response) :
    Py (List (List ℝ) × List ℝ) := do
  let st := loop useSparse events i area sel
  let n := st.used.length
  if n = 0 then throw .zeroDivision                                     -- 319
  let resp ← responseAt response i
  let normB := st.normB / n + log resp                                  -- 319
  let normA : Dict ℕ ℝ := st.normA.mapVals (fun x => x / (n : ℝ))       -- 320-321
  let o := constructOls useSparse events.length st.ols normA normB      -- 322
  return (matrix useSparse events.length o, o.b)

/-- site.py:253-333, one band: the largest area and the factor of each event.
`solve n A b` stands for `lsmr(A, b)[0]` or `lstsq(A, b)[0]` (`n` columns). -/
noncomputable def alignBand (solve : Bool → ℕ → List (List ℝ) → List ℝ → List ℝ)
    (useSparse : Bool) (events : Dict String EvRes) (i : ℕ) (sel : StationSel)
    (response : Response) (ignore : Option (List String)) :
    Py (Option (Finset String) × List ℝ) :=
  match largest (findAreas events i ignore) with
  | none => .ok (none, List.replicate events.length 1)                  -- 261-264, 249
  | some area => do
    let sys ← bandSystem useSparse events i area sel response
    return (some area, (solve useSparse events.length sys.1 sys.2).map exp)

/-! ## Rescaling (site.py:56-85) -/

/-- site.py:59-62, one event: the number of bands must not change. -/
def freqStep (Nf : Option ℕ) (e : String × EvRes) : Py (Option ℕ) :=
  match Nf with
  | none => .ok (some e.2.W.length)
  | some n => if n = e.2.W.length then .ok (some n) else .error .assertion

/-- site.py:56-63 `_get_number_of_freqs`. -/
def numberOfFreqs (events : Dict String EvRes) : Py (Option ℕ) := events.foldlM freqStep none

/-- site.py:77-82, one station: rescale and drop if not in the area.  (`only[i]` is
`None` for a band without area, then `sta not in None` raises `TypeError`.) -/
noncomputable def rescaleStation (i : ℕ) (area : Option (Finset String)) (f : ℝ)
    (p : String × List Cell) : Py (String × List Cell) :=
  match cellAt p.2 i with
  | none => .ok p
  | some R =>
    match area with
    | none => .error .typeError
    | some a =>
      if p.1 ∉ a then .ok (p.1, p.2.set i .none) else .ok (p.1, p.2.set i (.num (R * f)))

/-- site.py:72-85, one event and one band. -/
noncomputable def rescaleEvent (i : ℕ) (area : Option (Finset String)) (f : ℝ) (ev : EvRes) :
    Py EvRes :=
  match cellAt ev.W i with
  | none => .ok ev                                                      -- 73-74
  | some w => do
    let R ← mapExc (rescaleStation i area f) ev.R
    let W := ev.W.set i (.num (w / f))                                  -- 75
    if R.all (fun p => (cellAt p.2 i).isNone) then                      -- 83-85
      return { ev with W := W.set i .none, R := R }
    else
      return { ev with W := W, R := R }

/-- site.py:70-85, one band; `factors` is the column of the band. -/
noncomputable def rescaleBand (events : Dict String EvRes) (i : ℕ)
    (bf : Option (Finset String) × List ℝ) : Py (Dict String EvRes) :=
  mapExc (fun p => do
    let e ← rescaleEvent i bf.1 (bf.2.getD p.2 1) p.1.2
    return (p.1.1, e)) events.zipIdx

/-- site.py:66-85 `_rescale_results`; `bands` are area and factors of each band. -/
noncomputable def rescaleResults (events : Dict String EvRes)
    (bands : List (Option (Finset String) × List ℝ)) : Py (Dict String EvRes) :=
  bands.zipIdx.foldlM (fun evs p => rescaleBand evs p.2 p.1) events

/-! ## The complete function (site.py:194-353) -/

/-- Result dictionary as read from a JSON file (site.py:194-353). -/
structure Results where
  events : Dict String (Option EvRes)
  freq : List ℝ
  R : Option (Dict String (List Cell))
  config : Config

/-- site.py:210-212: drop `None`, sort by event id. -/
def sortedEvents (events : Dict String (Option EvRes)) : Dict String EvRes :=
  (events.filterMap (fun p => p.2.map (fun e => (p.1, e)))).mergeSort
    (fun a b => decide (a.1 ≤ b.1))

/-- Rows of the responses of a station in all events (`_collectR(results, freqi=None)`)
(site.py:42-50, 343). -/
def stationRows (events : Dict String EvRes) (sta : String) : List (List Cell) :=
  events.filterMap (fun e => e.2.R.get? sta)

/-- Stations in order of first occurrence (site.py:42-50, 343). -/
def stationList (events : Dict String EvRes) : List String :=
  (events.flatMap (fun e => e.2.R.keys)).reverse.dedup.reverse

/-- site.py:342-345: new means of site responses.  Rows of different length make
`np.array` raise `ValueError`. -/
noncomputable def updateMeanR (rlm : List ℝ → ℝ × ℝ) (events : Dict String EvRes)
    (R : Dict String (List Cell)) : Py (Dict String (List Cell)) :=
  (stationList events).foldlM (fun R sta =>
    let rows := stationRows events sta
    let nf := (rows.headD []).length
    if rows.any (fun r => r.length != nf) then .error .valueError
    else if rows.all (fun r => r.all (fun c => c.val?.isNone)) then .ok R
    else do
      let m ← gmeanlist rlm rows nf (robust := true)
      return R.set sta m) R

/-- site.py:209-336: events after alignment. -/
noncomputable def alignEvents (solve : Bool → ℕ → List (List ℝ) → List ℝ → List ℝ)
    (events : Dict String EvRes) (sel : StationSel) (response : Response) (useSparse : Bool)
    (ignore : Option (List String)) : Py (Dict String EvRes) := do
  let useSparse := useSparse && events.length != 1                      -- 219-220
  match ← numberOfFreqs events with
  | none => throw .typeError                                            -- 224 range(None)
  | some Nf =>
    if events.any (fun e => e.2.R.any (fun p => decide (p.2.length < Nf))) then
      throw .indexError                                                 -- 228
    let bands ← mapExc (fun i => alignBand solve useSparse events i sel response ignore)
      (List.range Nf)                                                   -- 253-333
    rescaleResults events bands                                         -- 336

/-- site.py:194-353 `align_site_responses`. -/
noncomputable def align (orc : Oracle) (rlm : List ℝ → ℝ × ℝ)
    (solve : Bool → ℕ → List (List ℝ) → List ℝ → List ℝ)
    (results : Results) (sel : StationSel := .all) (response : Response := .scalar 1)
    (useSparse : Bool := true) (smm : Option Method := none) (smo : Option Opts := none)
    (ignore : Option (List String) := none) : Py Results := do
  let events ← alignEvents solve (sortedEvents results.events) sel response useSparse ignore
  let events ← calculateSourceProperties orc results.config results.freq events none none smm smo
  let R ← updateMeanR rlm events (results.R.getD [])                    -- 342-345
  return { results with
    events := events.map (fun p => (p.1, some p.2)), R := some R }

end Qopen.Site
