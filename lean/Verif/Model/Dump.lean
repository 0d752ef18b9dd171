import Verif.Model.FigureOpt

/-!
# Model of the dumps for external plotting (core.py:962-974; 825-905, 907-944)

A dumped file is represented by its name and the dumped objects.
-/

namespace Qopen.FigBand

open Real Util Tr InvertFb Imaging

/-! ## File names -/

/-- core.py:966 `'%s_%05.2fHz-%05.2fHz' % (eventid, freq_band[0], freq_band[1])`. -/
noncomputable def dumpLabel (evid : String) (band : ℝ × ℝ) : List Char :=
  evid.toList ++ '_' :: show2 (hundredths band.1) ++ "Hz-".toList ++ show2 (hundredths band.2) ++
    "Hz".toList

/-- The parts of a template of the operator `%`: characters and conversions (`none`).
Simplification: the only conversion is `%s`, all others are errors (core.py:968, 971). -/
def parsePercent : List Char → Py (List (Option Char))
  | [] => .ok []
  | [c] => if c = '%' then .error .valueError else .ok [some c]
  | c :: d :: r =>
    if c = '%' then
      if d = 's' then do
        let l ← parsePercent r
        return none :: l
      else if d = '%' then do
        let l ← parsePercent r
        return some '%' :: l
      else .error .valueError
    else do
      let l ← parsePercent (d :: r)
      return some c :: l

/-- A character or, for a conversion, the text (core.py:968, 971). -/
def fillPart (l : List Char) : Option Char → List Char
  | some c => [c]
  | none => l

/-- core.py:968, 971 `template % l` for a text `l`: `TypeError` if there is not exactly one
conversion. -/
def percent (tpl l : List Char) : Py (List Char) := do
  let ps ← parsePercent tpl
  if ps.count none = 1 then
    return ps.flatMap (fillPart l)
  else .error .typeError

/-! ## Files -/

/-- Dumped objects (core.py:969, 972-973); of the fit the options of the smoothing are left out. -/
inductive Dumped
  | opt (record : List Rec) (tried : List (WithTop ℝ × ℝ)) (pairs : List (String × String))
  | fit (energies : List FitTrace) (g0 b : ℝ) (W R : Dict String ℝ) (v0 : ℝ) (info : Info)

/-- Options of `invert_fb` for the dumps and for the recording of the optimisation (core.py:508-509,
828); an empty text is like `None` (core.py:963). -/
structure DumpCfg where
  optpkl : List Char := []
  fitpkl : List Char := []
  plotOptimization : Bool := false
  num : ℕ := 7

/-- core.py:896-905: the records after a single call of `lstsq` without optimiser. -/
noncomputable def recordOnce (dc : DumpCfg) (f : Fit) (info : Info) : Records :=
  if dc.plotOptimization then recordFit dc.num {} f info false else {}

/-- core.py:907-939: the fit with `info` and the records; `none` is a skipped band.  The lists are
filled only with `plot_optimization` (core.py:897-900). -/
noncomputable def fitRec (wls : List ℝ → List (List ℝ) → List ℝ → List ℝ × ℝ) (G : Greens)
    (s : Search) (cfg : Cfg) (bd : Band) (dc : DumpCfg) : Py (Option (Fit × Info × Records)) :=
  if cfg.fix then
    match cfg.fixParams.1, cfg.fixParams.2 with                               -- 909-913
    | some g0f, some bf => do
      let f ← lstsq wls G cfg bd g0f (some bf) cfg.fixSites                   -- 915
      let info ← infoOf G cfg bd g0f
      return some (f, info, recordOnce dc f info)
    | _, _ => .ok none
  else if cfg.optimize then
    if dc.plotOptimization then do
      let fr ← optimiseRec wls G cfg bd dc.num s                              -- 938-939
      let info ← infoOf G cfg bd fr.1.g0
      return some (fr.1, info, fr.2)
    else do
      let x ← s.run (objective wls G cfg bd)                                  -- 938
      let f ← lstsq wls G cfg bd x none false                                 -- 939
      let info ← infoOf G cfg bd x
      return some (f, info, {})
  else
    match cfg.g0Bounds with                                                   -- 922
    | some gb => do
      let f ← lstsq wls G cfg bd ((gb.1 + gb.2) / 2) none false               -- 923
      let info ← infoOf G cfg bd ((gb.1 + gb.2) / 2)
      return some (f, info, recordOnce dc f info)
    | none => .error .typeError

/-- core.py:967-973: a file is written if it is requested; `io` says which files can be opened. -/
def dumpFile (io : List Char → Py Unit) (tpl l : List Char) (d : Dumped) :
    Py (List (List Char × Dumped)) :=
  if tpl = [] then .ok []
  else do
    let name ← percent tpl l
    io name
    return [(name, d)]

/-- core.py:963-974: the written files and the exception, if there is one.  The dumps are not inside of
the `try` block of the figures.  The event of the first trace names the files, without traces there is
an `IndexError` (core.py:965). -/
noncomputable def dumpAll (io : List Char → Py Unit) (dc : DumpCfg) (cfg : Cfg) (bd : Band)
    (es : List FitTrace) (band : ℝ × ℝ) (f : Fit) (info : Info) (rs : Records) :
    List (List Char × Dumped) × Py Unit :=
  if dc.optpkl = [] ∧ dc.fitpkl = [] then ([], .ok ())                        -- 963
  else
    match bd.pairs with
    | [] => ([], .error .indexError)                                          -- 965
    | p :: _ =>
      match dumpFile io dc.optpkl (dumpLabel p.1 band) (.opt rs.record rs.tried bd.pairs) with
      | .error e => ([], .error e)
      | .ok files =>
        match dumpFile io dc.fitpkl (dumpLabel p.1 band)
            (.fit es f.g0 f.b ((eventids bd).zip f.W) ((stations bd).zip f.R) cfg.v0 info) with
        | .error e => (files, .error e)
        | .ok files' => (files ++ files', .ok ())

/-- core.py:907-1024 with the dumps: written files and result of the band.  The files are written
before the check of the bounds. -/
noncomputable def solveBandDump (wls : List ℝ → List (List ℝ) → List ℝ → List ℝ × ℝ) (G : Greens)
    (s : Search) (cfg : Cfg) (bd : Band) (dc : DumpCfg) (io : List Char → Py Unit)
    (es : List FitTrace) (band : ℝ × ℝ) : List (List Char × Dumped) × Py (Option BandResult) :=
  match fitRec wls G s cfg bd dc with
  | .error e => ([], .error e)
  | .ok none => ([], .ok none)                                                -- 913
  | .ok (some (f, info, rs)) =>
    match dumpAll io dc cfg bd es band f info rs with
    | (files, .error e) => (files, .error e)
    | (files, .ok _) => (files, .ok (report cfg bd f))

end Qopen.FigBand
