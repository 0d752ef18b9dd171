import Verif.Model.FigureBand

/-!
# Model of the figure of the optimisation (core.py:825-835, 896-905, 938-939; imaging.py:207-280)

An optimiser is any strategy which asks for the misfit at some values of g0 one after the other, each
choice depending on the misfits returned so far, and which returns a value of g0 in the end.
-/

namespace Qopen.FigBand

open Real Util Tr InvertFb Imaging

/-! ## Optimiser and records -/

/-- A run of `scipy.optimize.minimize_scalar` (core.py:938) seen from outside: it returns a value or
calls the function and goes on with the returned misfit. -/
inductive Search
  | done (x : ℝ)
  | ask (x : ℝ) (next : WithTop ℝ → Search)

/-- The optimiser together with the function it calls; exceptions of the function pass through.
See core.py:938-939. -/
noncomputable def Search.run (f : ℝ → Py (WithTop ℝ)) : Search → Py ℝ
  | .done x => .ok x
  | .ask x next => do
    let e ← f x
    (next e).run f

/-- A recorded fit (core.py:902). -/
structure Rec where
  fit : Fit
  info : Info

/-- core.py:825-827: the lists `record` (fits shown in panels) and `record_g0` (misfits and values of
g0 of all calls of the optimiser). -/
structure Records where
  record : List Rec := []
  tried : List (WithTop ℝ × ℝ) := []

/-- The check of the bounds at the beginning of `lstsq` (core.py:834). -/
def outOfBounds (cfg : Cfg) (g0 : ℝ) : Prop :=
  ∃ gb, cfg.g0Bounds = some gb ∧ ¬ (gb.1 ≤ g0 ∧ g0 ≤ gb.2)

open Classical in
/-- core.py:896-905 with `plot_optimization`: recording of a fit, `num` is the option `num` of the
figure (core.py:828). -/
noncomputable def recordFit (num : ℕ) (rs : Records) (f : Fit) (info : Info) (opt : Bool) : Records :=
  { tried := if opt then rs.tried ++ [(f.err, f.g0)] else rs.tried            -- 897-898
    record :=
      if f.g0 ∉ rs.record.map (fun r => r.fit.g0) ∧
          (rs.record.length < num - 1 ∨ opt = false) then                     -- 899-900
        rs.record ++ [⟨f, info⟩]                                              -- 902
      else rs.record }

open Classical in
/-- core.py:832-905 with `plot_optimization` and `opt=True`: misfit and records after the call. -/
noncomputable def callOpt (wls : List ℝ → List (List ℝ) → List ℝ → List ℝ × ℝ) (G : Greens)
    (cfg : Cfg) (bd : Band) (num : ℕ) (rs : Records) (g0 : ℝ) : Py (WithTop ℝ × Records) :=
  if outOfBounds cfg g0 then .ok (⊤, rs)                                      -- 834-835
  else do
    let f ← lstsq wls G cfg bd g0 none false
    let info ← infoOf G cfg bd g0
    return (f.err, recordFit num rs f info true)

/-- core.py:938 with `plot_optimization`: all calls of the optimiser. -/
noncomputable def searchRec (wls : List ℝ → List (List ℝ) → List ℝ → List ℝ × ℝ) (G : Greens)
    (cfg : Cfg) (bd : Band) (num : ℕ) : Search → Records → Py (ℝ × Records)
  | .done x, rs => .ok (x, rs)
  | .ask x next, rs => do
    let er ← callOpt wls G cfg bd num rs x
    searchRec wls G cfg bd num (next er.1) er.2

/-- core.py:938-939 with `plot_optimization`: the fit for the result of the optimiser and the records
handed to the figure. -/
noncomputable def optimiseRec (wls : List ℝ → List (List ℝ) → List ℝ → List ℝ × ℝ) (G : Greens)
    (cfg : Cfg) (bd : Band) (num : ℕ) (s : Search) : Py (Fit × Records) := do
  let xr ← searchRec wls G cfg bd num s {}
  let f ← lstsq wls G cfg bd xr.1 none false
  let info ← infoOf G cfg bd xr.1
  return (f, recordFit num xr.2 f info false)

/-! ## Figure -/

/-- A panel: cell in the grid, label (`none` is 'best'), regression, the printed values of g0, b and
the source energy of the first event, and the point at which the label is repeated in the main axes
(imaging.py:238-273). -/
structure OptPanel where
  cell : ℕ × ℕ
  label : Option ℕ
  plot : LstsqPlot
  text : ℝ × ℝ × ℝ
  mark : Option (ℝ × WithTop ℝ)

/-- The figure: black crosses, blue cross and red crosses of the main axes, panels
(imaging.py:207-280). -/
structure OptFigure where
  black : List (ℝ × ℝ)
  blue : Option (ℝ × ℝ)
  red : List (ℝ × ℝ)
  panels : List OptPanel

/-- `err == np.inf` (imaging.py:230-231, 235). -/
def isInf (e : WithTop ℝ) : Bool :=
  match e with
  | some _ => false
  | none => true

/-- A point of the misfit curve; infinite misfits are not drawn by matplotlib.
See imaging.py:207-280. -/
def finitePoint (p : WithTop ℝ × ℝ) : Option (ℝ × ℝ) :=
  match p.1 with
  | some e => some (p.2, e)
  | none => none

/-- imaging.py:234-236: the misfit of a recorded fit, infinite ones are replaced by the height of the
red crosses if there are any. -/
def shownErr (tried : List (WithTop ℝ × ℝ)) (errInf : ℝ) (e : WithTop ℝ) : WithTop ℝ :=
  match e with
  | some x => ((x : ℝ) : WithTop ℝ)
  | none => if (tried.map Prod.fst).any isInf then (errInf : WithTop ℝ) else ⊤

/-- imaging.py:238-273, one pass of the loop over the recorded fits. -/
noncomputable def optPanelOf (num : ℕ) (pairs : List (String × String))
    (shown : WithTop ℝ → WithTop ℝ) (p : Rec × ℕ) : Py OptPanel := do
  let r := p.1
  let label := if p.2 < (num + 1) / 2 ∨ p.2 < num - 1 then some (p.2 + 1) else none -- 240-248
  let plot ← plotLstsq pairs r.fit r.info                                     -- 250
  let w0 ← pyGet r.fit.W 0                                                    -- 254
  return ⟨optPanel num p.2, label, plot, (r.fit.g0, r.fit.b, w0),
    if label.isSome then some (r.fit.g0, shown r.fit.err) else none⟩          -- 258-260

/-- imaging.py:207-280 `plot_optimization`.  `ylim` are the limits which matplotlib chooses for the
drawn points.  For `num = 2` the grid has a single cell and no space for the main axes
(`IndexError` of matplotlib). -/
noncomputable def plotOptimization (num : ℕ) (ylim : List (ℝ × ℝ) → ℝ × ℝ)
    (pairs : List (String × String)) (rs : Records) : Py OptFigure := do
  if num = 2 then throw .indexError                                           -- 216
  if rs.tried = [] then throw .valueError                                     -- 224
  let black := rs.tried.filterMap finitePoint                                 -- 226
  let blue := (rs.tried.getLast?).bind finitePoint                            -- 228
  let errInf := ((ylim black).1 + (ylim black).2) / 2                         -- 232
  let red := (rs.tried.filter (fun p => isInf p.1)).map (fun p => (p.2, errInf)) -- 231, 233
  if num ≤ 1 then return ⟨black, blue, red, []⟩
  if rs.record = [] then throw .unboundLocal                                  -- 274
  let panels ← mapExc (optPanelOf num pairs (shownErr rs.tried errInf)) rs.record.zipIdx
  return ⟨black, blue, red, panels⟩

end Qopen.FigBand
