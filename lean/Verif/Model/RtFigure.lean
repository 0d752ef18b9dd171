import Verif.Model.Rt
import Mathlib.Analysis.SpecialFunctions.Log.Base

/-!
# Model of the figures and the commands of the tool `qopen-rt` (rt.py)

A figure is the data handed to matplotlib.  Option `scale` of the plot functions is never set by the
command line and left out.
-/

namespace Qopen.Rt

open Real

/-- `np.linspace(0, x, N)` (rt.py:248, 277-278). -/
noncomputable def linspace (x : ℝ) (n : ℕ) : List ℝ :=
  (List.range n).map (fun i : ℕ => (i : ℝ) * (x / ((n : ℝ) - 1)))

/-- `np.logspace(-3, e, N)` (rt.py:222). -/
noncomputable def logspace (e : ℝ) (n : ℕ) : List ℝ :=
  (List.range n).map (fun i : ℕ => (10 : ℝ) ^ (-3 + (i : ℝ) * ((e - -3) / ((n : ℝ) - 1))))

/-- Data of a figure (rt.py:213-295). -/
inductive Drawing
  /-- line with label `type` and mean free path, values over an axis which ends at `limit` -/
  | curve (axis : List ℝ) (values : List (Option ℝ)) (type : String) (l limit : ℝ) (log : Bool)
  /-- image with one row for each time and one column for each distance -/
  | image (rs ts : List ℝ) (values : List (Option ℝ)) (type : String)

/-- Samples of a value of `G` (rt.py:223, 249, 284). -/
def samples (v : GVal) : Py (List (Option ℝ)) :=
  match v with
  | .arr l => .ok l
  | .num _ => .error .other

/-- rt.py:217-221, distance and end of `plot_t`. -/
noncomputable def rangeT (c g0 : ℝ) (r t : Option ℝ) : ℝ × ℝ :=
  let r := r.getD (10 / g0)
  (r, t.getD (10 * r / c))

/-- rt.py:222, times of `plot_t`. -/
noncomputable def timesT (r t c : ℝ) (n : ℕ) : List ℝ :=
  ([-0.01 * r / c, 0] ++ logspace (logb 10 (t - r / c)) n).map (fun x => r / c + x)

/-- rt.py:213-235 `plot_t`.  A figure which ends before the arrival of the wave (logarithm of a
negative number) or a negative distance is not modelled (`other`). -/
noncomputable def figureT (c g0 : ℝ) (r t : Option ℝ) (n : ℕ) (log includeDirect : Bool)
    (la : Option ℝ) (type : String) : Py Drawing := do
  let (r, t) := rangeT c g0 r t
  if r < 0 ∨ t - r / c ≤ 0 then .error .other
  else
    let ts := timesT r t c n
    let v ← G (.num r) (.arr ts) c g0 type includeDirect                      -- 223
    let l ← samples v
    return .curve ts (l.map (absorb la c t)) type (1 / g0) t log              -- 224-235

/-- rt.py:242-247, time and end of `plot_r`; the time can be missing. -/
noncomputable def rangeR (c g0 : ℝ) (t r : Option ℝ) : Option ℝ × ℝ :=
  match r, t with
  | none, none => (some (10 / g0 / 1.1 / c), 10 / g0)
  | none, some t => (some t, 1.1 * c * t)
  | some r, t => (t, r)

/-- rt.py:238-261 `plot_r`; without time `c * t` raises (rt.py:157). -/
noncomputable def figureR (c g0 : ℝ) (t r : Option ℝ) (n : ℕ) (log includeDirect : Bool)
    (la : Option ℝ) (type : String) : Py Drawing :=
  match rangeR c g0 t r with
  | (none, _) => .error .typeError
  | (some t, r) => do
    let rs := linspace r n                                                    -- 248
    let v ← G (.arr rs) (.num t) c g0 type includeDirect                      -- 249
    let l ← samples v
    return .curve rs (l.map (absorb la c t)) type (1 / g0) r log              -- 250-261

/-- rt.py:268-276, ends of the axes of `plot_rt`: distance and time. -/
noncomputable def rangeRt (c g0 : ℝ) (t r : Option ℝ) : ℝ × ℝ :=
  let r := match t, r with
    | none, none => some (10 / g0)
    | _, r => r
  let t := t.getD (10 * r.getD 0 / c)
  (r.getD (1.1 * c * t), t)

/-- `np.log`, not finite for zero (rt.py:290). -/
noncomputable def logValue (x : Option ℝ) : Option ℝ :=
  match x with
  | some x => if 0 < x then some (Real.log x) else none
  | none => none

/-- rt.py:264-295 `plot_rt`; the mesh is flattened row by row.  The direct wave is ignored.  The
replacement of NaN by zero (rt.py:287) is left out: values at the wave front are not modelled
(`none`). -/
noncomputable def figureRt (c g0 : ℝ) (t r : Option ℝ) (n : ℕ) (log _includeDirect : Bool)
    (la : Option ℝ) (type : String) : Py Drawing := do
  let (r, t) := rangeRt c g0 t r
  let ts := linspace t n                                                      -- 277
  let rs := linspace r n                                                      -- 278
  let mr := ts.flatMap (fun _ => rs)                                          -- 279
  let mt := ts.flatMap (fun t => rs.map (fun _ => t))
  let v ← G (.arr mr) (.arr mt) c g0 type false                               -- 284
  let l ← samples v
  let l := List.zipWith (fun t x => absorb la c t x) mt l                     -- 285-286
  return .image rs ts (if log then l.map logValue else l) type                -- 289-291

/-- Arguments of the command line (rt.py:302-320). -/
structure RtArgs where
  command : String
  c : ℝ
  ls : List ℝ
  r : Option ℝ := none
  t : Option ℝ := none
  absorption : Option ℝ := none
  log : Bool := false
  noDirect : Bool := false
  types : List String := ["rt3d"]

/-- What the tool shows (rt.py:323-361). -/
inductive RtOut
  | printed (values : List (Option ℝ))
  | figure (drawings : List Drawing) (legend : Bool)

/-- rt.py:332-346, the commands `calc` and `calc-direct`: without distance or time `t - r / c` or
`-c * t` raises. -/
noncomputable def calcMain (a : RtArgs) : Py RtOut :=
  match a.r, a.t with
  | some r, some t => do
    let l ← calcCmd (decide (a.command ≠ "calc")) r t a.c a.ls a.absorption a.types
    return .printed l
  | none, some t =>
    if a.command = "calc" then .error .typeError
    else do
      let l ← calcCmd true 0 t a.c a.ls a.absorption a.types
      return .printed l
  | _, none => .error .typeError

/-- rt.py:352-358, a drawing of a plot command for mean free path `l` and a type; option `N` has its
default. -/
noncomputable def drawOne (a : RtArgs) (l : ℝ) (type : String) : Py Drawing :=
  if l = 0 then .error .zeroDivision
  else if a.command = "plot-t" then
    figureT a.c (1 / l) a.r a.t 1000 a.log (!a.noDirect) a.absorption type
  else if a.command = "plot-r" then
    figureR a.c (1 / l) a.t a.r 1000 a.log (!a.noDirect) a.absorption type
  else figureRt a.c (1 / l) a.t a.r 1000 a.log (!a.noDirect) a.absorption type

/-- rt.py:323-361 `main` for parsed arguments (rt.py:302-320 restricts command and types to the
documented ones; other ones are not modelled, `other`).  What is printed or drawn before an
exception is left out. -/
noncomputable def rtMain (a : RtArgs) : Py RtOut :=
  if a.command ∉ ["calc", "calc-direct", "plot-t", "plot-r", "plot-rt"] then .error .other
  else if a.command ∈ ["calc", "plot-rt"] ∧ a.types.length ≠ 1 then .error .valueError
  else if a.command ∈ ["calc", "calc-direct"] then calcMain a
  else do
    let ds ← mapExc (fun l => mapExc (drawOne a l) a.types) a.ls              -- 349-358
    return .figure ds.flatten (decide (a.types.length > 1 ∨ a.ls.length > 1)) -- 359-361

end Qopen.Rt
