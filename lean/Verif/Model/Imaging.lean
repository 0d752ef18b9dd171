import Verif.Py.Basic
import Verif.Model.InvertFb
import Mathlib.Analysis.SpecialFunctions.Pow.Real
import Mathlib.Analysis.SpecialFunctions.Trigonometric.Basic

/-!
# Model of the numerical parts of the plotting functions (imaging.py)

Only the values and the arrangement of the panels are modelled, not the drawing.
-/

namespace Qopen.Imaging

open Real

/-! ## Derived quantities (imaging.py:50-80) -/

/-- Argument `v0` of `calc_dependent`: missing, a number or an array with an entry per event
(imaging.py:50-71). -/
inductive V0
  | none
  | num (v : ℝ)
  | arr (l : List ℝ)

/-- Argument `value` of `calc_dependent`: one value per band, or a table of events and bands
(imaging.py:50-71). -/
inductive Value
  | row (l : List Cell)
  | table (l : List (List Cell))

/-- Values returned by `calc_dependent`; `none` is NaN or infinite.  See imaging.py:50-71. -/
inductive Derived
  | row (l : List (Option ℝ))
  | table (l : List (List (Option ℝ)))

/-- imaging.py:62 -/
def plain : List String := ["g0", "b", "W", "", "error"]

/-- imaging.py:62-71, one number; `freq` and `v0` are only used if needed. -/
noncomputable def dependOne (q : String) (x f v : ℝ) : Option ℝ :=
  if q ∈ plain then some x
  else if q = "lsc" then (if x = 0 then none else some (1 / x / 1000))
  else if q = "Qsc" then (if f = 0 then none else some (x * v / (2 * π * f)))
  else if q = "li" then (if x = 0 then none else some (v / x / 1000))
  else if q = "Qi" then (if f = 0 then none else some (x / (2 * π * f)))
  else none

/-- The quantity depends on the frequency (imaging.py:50-71). -/
def needsFreq (q : String) : Bool := decide (q = "Qsc" ∨ q = "Qi")

/-- The quantity depends on the velocity (imaging.py:66-69). -/
def needsV0 (q : String) : Bool := decide (q = "Qsc" ∨ q = "li")

/-- A row of values, `None` is NaN (imaging.py:59). -/
noncomputable def dependRow (q : String) (freq : List ℝ) (v : ℝ) (row : List Cell) :
    List (Option ℝ) :=
  List.zipWith (fun c f => c.val?.bind (fun x => dependOne q x f v)) row freq

/-- Rows of a table with velocities (imaging.py:62-71). -/
noncomputable def dependTable (q : String) (freq : List ℝ) (vs : List ℝ) (rows : List (List Cell)) :
    List (List (Option ℝ)) :=
  List.zipWith (fun row v => dependRow q freq v row) rows vs

/-- Frequencies for all bands; a missing frequency or shapes which do not fit raise an error.  A
single frequency for many bands (broadcasting) is not modelled.  See imaging.py:50-71. -/
def freqsFor (q : String) (freq : Option (List ℝ)) (n : ℕ) : Py (List ℝ) :=
  if needsFreq q then
    match freq with
    | none => .error .typeError
    | some f => if f.length = n then .ok f
      else if f.length = 1 ∨ n = 1 then .error .other else .error .valueError
  else .ok (List.replicate n 1)

/-- imaging.py:60-61, 66, 68: velocities of the rows of a table. -/
def v0For (q : String) (v0 : V0) (n : ℕ) : Py (List ℝ) :=
  match v0 with
  | .none => .error .typeError                                                -- 61
  | .num v => .ok (List.replicate n v)
  | .arr l =>
    if needsV0 q then
      (if l.length = n then .ok l
       else if l.length = 1 ∨ n = 1 then .error .other else .error .valueError)
    else .ok (List.replicate n 1)

/-- imaging.py:50-71 `calc_dependent`; `none` is Python's `None` for an unknown quantity.  Tables
are rectangular.  A row of values with an array of velocities is not modelled. -/
noncomputable def calcDependent (q : String) (value : Value) (freq : Option (List ℝ)) (v0 : V0) :
    Py (Option Derived) :=
  match value with
  | .row l =>
    match v0 with
    | .none => .error .typeError
    | .arr _ => .error .other
    | .num v =>
      if q ∈ plain ++ ["lsc", "Qsc", "li", "Qi"] then do
        let f ← freqsFor q freq l.length
        return some (.row (dependRow q f v l))
      else .ok none
  | .table rows => do
    let nf := (rows.headD []).length
    if rows.any (fun r => r.length != nf) then .error .valueError              -- 59
    else
      let vs ← v0For q v0 rows.length
      if q ∈ plain ++ ["lsc", "Qsc", "li", "Qi"] then
        let f ← freqsFor q freq nf
        return some (.table (dependTable q f vs rows))
      else return none

/-- imaging.py:74-80 `freqlim`. -/
noncomputable def freqlim (freq : List ℝ) : Option (ℝ × ℝ) :=
  if freq.length < 2 then none
  else
    let f := fun i => freq.getD i 0
    let n := freq.length
    some (f 0 ^ (1.5 : ℝ) / f 1 ^ (0.5 : ℝ), f (n - 1) ^ (1.5 : ℝ) / f (n - 2) ^ (0.5 : ℝ))

/-! ## Arrangement of panels -/

/-- `GridSpec(ny, nx)` rejects empty grids (imaging.py:298, 478, 510, 543, 686). -/
def gridSpec (nx ny : ℕ) : Py (ℕ × ℕ) :=
  if nx = 0 ∨ ny = 0 then .error .valueError else .ok (nx, ny)

/-- imaging.py:681-687 `_get_grid`: number of columns and rows.  With `nx=None` also the grids of
`plot_fits`, `plot_eventresult`, `plot_eventsites` and `plot_results` (imaging.py:295-298,
475-478, 507-510, 540-543). -/
noncomputable def getGrid (N : ℕ) (nx : Option ℕ) : Py (ℕ × ℕ) :=
  match nx with
  | none => gridSpec ⌈sqrt N⌉₊ ⌈sqrt N⌉₊
  | some nx =>
    if nx = 0 then .error .zeroDivision
    else gridSpec nx (if N = 0 then 0 else 1 + (N - 1) / nx)

/-- `gs[row, col]` (imaging.py:311, 481, 515, 556, 635, 732). -/
def cellOf (grid : ℕ × ℕ) (row col : ℕ) : Py (ℕ × ℕ) :=
  if row < grid.2 ∧ col < grid.1 then .ok (row, col) else .error .indexError

/-- `gs[i // nx, i % nx]` (imaging.py:311, 481, 515, 556, 635, 732). -/
def panel (grid : ℕ × ℕ) (i : ℕ) : Py (ℕ × ℕ) := cellOf grid (i / grid.1) (i % grid.1)

/-- Cells of the panels and of the colour bar (imaging.py:613-635, 669-670, 717-721, 732, 751-754). -/
structure Layout where
  grid : ℕ × ℕ
  panels : List (ℕ × ℕ)
  bar : Option (ℕ × ℕ)

/-- Position of the colour bar (imaging.py:670, 754). -/
def barCell (grid : ℕ × ℕ) (bar : Bool) (N : ℕ) : Py (Option (ℕ × ℕ)) :=
  if bar then do
    let c ← panel grid (N - 1)
    return some c
  else .ok none

/-- imaging.py:613-635, 669-670: `plot_sites` for `n` stations with data, `bar` for more than one
observation. -/
noncomputable def sitesLayout (n : ℕ) (bar : Bool) (nx : Option ℕ) : Py Layout := do
  let N := n + bar.toNat
  let grid ← getGrid N nx
  let ps ← mapExc (panel grid) (List.range n)
  let b ← barCell grid bar N
  return ⟨grid, ps, b⟩

/-- imaging.py:717-721, 732, 751-754: `plot_all_sds` for `n` events; the colour bar moves one
cell further to make room for the label of the x axis. -/
noncomputable def spectraLayout (n : ℕ) (bar : Bool) (nx : Option ℕ) (xlabel : Bool) : Py Layout := do
  let N := n + bar.toNat
  let grid ← getGrid N nx
  let ps ← mapExc (panel grid) (List.range n)
  let b ← barCell grid bar (if (N - 1) % grid.1 = (grid.1 - 1) / 2 ∧ xlabel then N + 1 else N)
  return ⟨grid, ps, b⟩

/-- imaging.py:100-101: the panel carries the label of the y axis. -/
def hasYlabel (grid : ℕ × ℕ) (i : ℕ) : Prop := i % grid.1 = 0 ∧ i / grid.1 = (grid.2 - 1) / 2

/-- imaging.py:104-105: the panel carries the label of the x axis, for `n` panels. -/
def hasXlabel (grid : ℕ × ℕ) (n i : ℕ) : Prop := i % grid.1 = (grid.1 - 1) / 2 ∧ i + grid.1 ≥ n

/-! ## Steps of the optimisation -/

/-- imaging.py:213-216, 237-248: cell of the `i`-th of the `num` fits in `plot_optimization`; row and
column in a square grid with `n` rows. -/
def optPanel (num i : ℕ) : ℕ × ℕ :=
  let n := (num + 1) / 2
  if i < n then (0, i)
  else if i < num - 1 then (i - n + 1, n - 1)
  else (n - 1, n - 1)

/-- A call of `lstsq`: value of g0, called by the optimiser or not (core.py:832, 897-902). -/
structure Call where
  g0 : ℝ
  opt : Bool

open Classical in
/-- core.py:899-902, recording of a fit (represented by its g0) with `plot_optimization`. -/
noncomputable def recordStep (num : ℕ) (record : List ℝ) (c : Call) : List ℝ :=
  if c.g0 ∉ record ∧ (record.length < num - 1 ∨ c.opt = false) then record ++ [c.g0] else record

/-- core.py:938-939: all calls of the optimiser followed by the call for the result. -/
noncomputable def recordAll (num : ℕ) (tried : List ℝ) (best : ℝ) : List ℝ :=
  recordStep num (tried.foldl (fun r g => recordStep num r ⟨g, true⟩) []) ⟨best, false⟩

/-- imaging.py:224-228: the entry of `record_g0` (misfit and g0 for all calls of the optimiser) drawn
in blue as the best value. -/
def markedBest (record : List (ℝ × ℝ)) : Option (ℝ × ℝ) := record.getLast?

/-! ## Plotted fits -/

/-- imaging.py:185-190 (coda) and 191-198 (bulk): plotted value of a sample with energy `E`, Green's
function `G` at a station with response `R` for an event with energy `W`; `W0` is the energy of
the first event. -/
noncomputable def plottedSample (E G R W W0 base : ℝ) : ℝ :=
  (log E - log G - log (R * W / W0)) / log base

/-- imaging.py:201, plotted line at time `t`. -/
noncomputable def plottedLine (W0 b t base : ℝ) : ℝ := (log W0 - b * t) / log base

/-- imaging.py:318-319 `get_Emod`. -/
noncomputable def modelled (R W G b t : ℝ) : ℝ := R * W * G * exp (-b * t)

/-- imaging.py:283-285, 325: time axis of the whole trace in `plot_fits`. -/
noncomputable def fitTimes (start sr origin sonset distance v0 : ℝ) (n : ℕ) : List ℝ :=
  (List.range n).map (fun i : ℕ => i / sr + (start - origin) + distance / v0 - (sonset - origin))

end Qopen.Imaging
