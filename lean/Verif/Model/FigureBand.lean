import Verif.Model.Imaging
import Verif.Model.Window
import Mathlib.Data.Nat.Digits.Defs

/-!
# Model of the figures of a frequency band (imaging.py:83-93, 108-204, 283-372; core.py:975-1018)

A figure is represented by the numbers which are drawn, a label by its contents.  Colours, marker
sizes, ticks and sharing of axes are left out.
-/

namespace Qopen.FigBand

open Real Util Tr InvertFb Imaging

/-! ## File names (core.py:975-985) -/

/-- Decimal digits of a number, at least two of them (core.py:982). -/
def intDigits (n : ℕ) : List Char :=
  (Nat.digits 10 n ++ List.replicate (2 - (Nat.digits 10 n).length) 0).reverse.map Nat.digitChar

/-- `'{:05.2f}'` for a number of hundredths (core.py:982). -/
def show2 (c : ℕ) : List Char :=
  intDigits (c / 100) ++ '.' :: [Nat.digitChar (c / 10 % 10), Nat.digitChar (c % 10)]

/-- The number of hundredths of a frequency after rounding.  Simplification: frequencies are not
negative, ties are rounded up.  See core.py:982. -/
noncomputable def hundredths (f : ℝ) : ℕ := (round (100 * f)).toNat

/-- Parts of the option `fname`; the only modelled format of frequencies is `05.2f`.
See core.py:977-985. -/
inductive Piece
  | lit (s : List Char)
  | evid | f1 | f2

/-- core.py:982 `fname.format(evid=evid, f1=..., f2=...)`. -/
noncomputable def format (tpl : List Piece) (evid : List Char) (band : ℝ × ℝ) : List Char :=
  tpl.flatMap (fun p => match p with
    | .lit s => s
    | .evid => evid
    | .f1 => show2 (hundredths band.1)
    | .f2 => show2 (hundredths band.2))

/-- `s.replace('__', '_')` (core.py:983-984). -/
def replaceUnderscores : List Char → List Char
  | [] => []
  | [c] => [c]
  | c :: d :: r =>
    if c = '_' ∧ d = '_' then '_' :: replaceUnderscores r else c :: replaceUnderscores (d :: r)

/-- core.py:977-985 `fname_and_title`, the file name; `eventids` are the events of the band and
`first` is the event of the first trace. -/
noncomputable def figName (eventids : List String) (first : String) (band : ℝ × ℝ)
    (tpl : List Piece) : List Char :=
  if eventids.length = 1 then format tpl first.toList band
  else replaceUnderscores (format tpl [] band)

/-- The three figures of a band (core.py:987-1018). -/
inductive Kind
  | energies | optimization | fits
  deriving DecidableEq

/-- First part of the default file names (core.py:991, 1001, 1010). -/
def Kind.head : Kind → List Char
  | .energies => "energies_".toList
  | .optimization => "optimization_".toList
  | .fits => "fits_".toList

/-- core.py:991, 1001, 1010, the default of `fname`. -/
def defaultTpl (k : Kind) : List Piece :=
  [.lit k.head, .evid, .lit ['_'], .f1, .lit "Hz-".toList, .f2, .lit "Hz.png".toList]

/-- The options of `invert_fb` which switch figures on, with the file names of the options
(core.py:504-506, 988, 997, 1007). -/
structure FigCfg where
  plotEnergies : Bool := false
  plotOptimization : Bool := false
  plotFits : Bool := false
  tpl : Kind → List Piece := defaultTpl

/-- Conditions core.py:988, 997, 1007; `nE` is the number of traces. -/
def requested (fc : FigCfg) (cfg : Cfg) (nE : ℕ) : List Kind :=
  (if fc.plotEnergies && nE > 0 then [.energies] else []) ++
  (if fc.plotOptimization && !cfg.fix && cfg.optimize then [.optimization] else []) ++
  (if fc.plotFits then [.fits] else [])

/-- core.py:987-1018: the figures are drawn one after the other, the first exception ends the `try`
block.  Returned are the written files. -/
def drawAll (draw : Kind → Py Unit) (name : Kind → List Char) : List Kind → List (List Char)
  | [] => []
  | k :: ks =>
    match draw k with
    | .ok _ => name k :: drawAll draw name ks
    | .error _ => []

/-- core.py:907-1024: `solveBand` with the figures.  `draw` draws a figure for the fit; figures are
drawn before the check of the bounds.  Returned are the written files and the result. -/
noncomputable def solveBandFigs (wls : List ℝ → List (List ℝ) → List ℝ → List ℝ × ℝ) (G : Greens)
    (minimize : (ℝ → Py (WithTop ℝ)) → Py ℝ) (cfg : Cfg) (bd : Band) (fc : FigCfg) (band : ℝ × ℝ)
    (draw : Fit → Kind → Py Unit) : Py (List (List Char) × Option BandResult) := do
  let fit ← bandFit wls G minimize cfg bd
  match fit with
  | none => return ([], none)                                                 -- 913
  | some f =>
    return (drawAll (draw f)
      (fun k => figName (eventids bd) ((bd.pairs.map Prod.fst).headD "") band (fc.tpl k))
      (requested fc cfg bd.pairs.length), report cfg bd f)

/-! ## Observed energies (imaging.py:108-168) -/

/-- A panel row of `plot_energies`: the two labels, the drawn samples, the lines of the onsets and
the spans of bulk and coda window (imaging.py:118-153). -/
structure EnergyPanel where
  station : String
  event : String
  points : List (ℝ × ℝ)
  ponset : ℝ
  sonset : ℝ
  spans : List (ℝ × ℝ)

/-- imaging.py:125-126, the time axis. -/
noncomputable def energyTimes (tr : Trace) : List ℝ :=
  (List.range tr.data.length).map (fun i : ℕ => i / tr.sr - (tr.origin - tr.start))

/-- imaging.py:148-153, windows of the pair relative to origin time. -/
noncomputable def spansOf (bulkw codaw : Dict (String × String) (ℝ × ℝ)) (tr : Trace) :
    Py (List (ℝ × ℝ)) :=
  if bulkw = [] ∨ codaw = [] then .ok []                                      -- 148
  else do
    let b ← dictGet bulkw tr.pair
    let c ← dictGet codaw tr.pair
    return [(b.1 - tr.origin, b.2 - tr.origin), (c.1 - tr.origin, c.2 - tr.origin)]

/-- imaging.py:118-153, one pass of the loop.  With `downsample_to` the step of the slices is a
float, `TypeError`.  Energy traces always have both onsets. -/
noncomputable def energyPanel (bulkw codaw : Dict (String × String) (ℝ × ℝ))
    (downsampleTo : Option ℝ) (tr : Trace) : Py EnergyPanel :=
  match downsampleTo with
  | some _ => .error .typeError                                               -- 124, 135
  | none => do
    let spans ← spansOf bulkw codaw tr
    return ⟨tr.station, tr.event, (energyTimes tr).zip tr.data, tr.ponset - tr.origin,
      tr.sonset - tr.origin, spans⟩

/-- imaging.py:108-168 `plot_energies`. -/
noncomputable def plotEnergies (bulkw codaw : Dict (String × String) (ℝ × ℝ))
    (downsampleTo : Option ℝ) (trs : List Trace) : Py (List EnergyPanel) :=
  mapExc (energyPanel bulkw codaw downsampleTo) trs

/-! ## Linear regression (imaging.py:171-204) -/

/-- `info` (core.py:896): windows with observed energies and Green's function. -/
structure Info where
  tcoda : List (List ℝ)
  tbulk : List ℝ
  Ecoda : List (List ℝ)
  Ebulk : List ℝ
  Gcoda : List (List ℝ)
  Gbulk : List ℝ

/-- core.py:836-848, 896: `info` for a value of g0. -/
noncomputable def infoOf (G : Greens) (cfg : Cfg) (bd : Band) (g0 : ℝ) : Py Info := do
  let gs ← mapExc (greensOfPair G cfg bd g0) bd.pairs.zipIdx
  return ⟨bd.tcoda, bd.tbulk, bd.Ecoda, bd.Ebulk, gs.map Prod.fst, (gs.map Prod.snd).flatten⟩

/-- Drawn numbers of `plot_lstsq` (imaging.py:171-204). -/
structure LstsqPlot where
  coda : List (List (ℝ × ℝ))
  bulk : List (ℝ × ℝ)
  line : List (ℝ × ℝ)
  right : ℝ

/-- imaging.py:186, 193 `R[stations.index(sta)]`, `W[eventids.index(ev)]` and `W[0]`. -/
noncomputable def factors (pairs : List (String × String)) (f : Fit) (p : String × String) :
    Py (ℝ × ℝ × ℝ) := do
  let r ← pyGet f.R ((fromKeys (pairs.map Prod.snd)).idxOf p.2)
  let w ← pyGet f.W ((fromKeys (pairs.map Prod.fst)).idxOf p.1)
  let w0 ← pyGet f.W 0
  return (r, w, w0)

/-- imaging.py:184-190, samples of a coda window. -/
noncomputable def lstsqCoda (pairs : List (String × String)) (f : Fit) (info : Info) (i : ℕ) :
    Py (List (ℝ × ℝ)) := do
  let p ← pyGet pairs i
  let q ← factors pairs f p
  let t ← pyGet info.tcoda i
  let E ← pyGet info.Ecoda i
  let G ← pyGet info.Gcoda i
  return t.zip (List.zipWith (fun e g => plottedSample e g q.1 q.2.1 q.2.2 (exp 1)) E G)

/-- imaging.py:191-199, value of a bulk window. -/
noncomputable def lstsqBulk (pairs : List (String × String)) (f : Fit) (info : Info) (i : ℕ) :
    Py (ℝ × ℝ) := do
  let p ← pyGet pairs i
  let q ← factors pairs f p
  let t ← pyGet info.tbulk i
  let E ← pyGet info.Ebulk i
  let G ← pyGet info.Gbulk i
  return (t, plottedSample E G q.1 q.2.1 q.2.2 (exp 1))

/-- `min` of a list of numbers, `ValueError` if it is empty (imaging.py:182, 199, 354, 371). -/
noncomputable def minOf : List ℝ → Py ℝ
  | [] => .error .valueError
  | x :: l => .ok (l.foldl min x)

/-- `max` of a list of numbers, `ValueError` if it is empty (imaging.py:183, 353, 370-371). -/
noncomputable def maxOf : List ℝ → Py ℝ
  | [] => .error .valueError
  | x :: l => .ok (l.foldl max x)

/-- imaging.py:171-204 `plot_lstsq` with `base=np.e`. -/
noncomputable def plotLstsq (pairs : List (String × String)) (f : Fit) (info : Info) :
    Py LstsqPlot := do
  let firsts ← mapExc (fun l : List ℝ => pyGet l 0) info.tcoda                -- 182
  let lasts ← mapExc (fun l : List ℝ => pyGet l (l.length - 1)) info.tcoda    -- 183
  let tmin ← minOf firsts
  let tmax ← maxOf lasts
  let coda ← mapExc (lstsqCoda pairs f info) (List.range info.tcoda.length)
  let bulk ← mapExc (lstsqBulk pairs f info) (List.range info.tbulk.length)
  let tmin := info.tbulk.foldl min tmin                                       -- 199
  let w0 ← pyGet f.W 0
  return ⟨coda, bulk, (linspace tmin tmax 100).map (fun t => (t, plottedLine w0 f.b t (exp 1))),
    tmax⟩

/-! ## Fits (imaging.py:283-372) -/

/-- A trace with the data before smoothing (core.py:675-677). -/
structure FitTrace where
  tr : Trace
  unsmoothed : List ℝ

/-- A panel of `plot_fits`: cell, label (event, station, distance in km without decimals), and the
curves (imaging.py:309-354). -/
structure FitPanel where
  cell : ℕ × ℕ
  event : String
  station : String
  km : ℤ
  unsmoothed : List (ℝ × ℝ)
  observed : List (ℝ × ℝ)
  model : List (ℝ × ℝ)
  coda : List (ℝ × ℝ)
  codaModel : List (ℝ × ℝ)
  bulk : List (ℝ × ℝ)
  bulkModel : List (ℝ × ℝ)

/-- The figure: panels and limits of the axes (imaging.py:288-372). -/
structure FitsPlot where
  panels : List FitPanel
  xlim : ℝ × ℝ
  ylim : ℝ × ℝ

/-- `int` of a number (`'%d'`), towards zero (imaging.py:347). -/
noncomputable def trunc (x : ℝ) : ℤ := if 0 ≤ x then ⌊x⌋ else ⌈x⌉

/-- imaging.py:296 `int(np.ceil(np.sqrt(N)))`. -/
noncomputable def gridSize (N : ℕ) : ℕ := ⌈sqrt (N : ℝ)⌉₊

/-- imaging.py:318-319 `get_Emod` for arrays. -/
noncomputable def emod (r w b : ℝ) (G t : List ℝ) : List ℝ :=
  List.zipWith (fun g t => modelled r w g b t) G t

/-- imaging.py:283-285, 325, times of the samples of the whole trace. -/
noncomputable def traceTimes (tr : Trace) (v0 : ℝ) : List ℝ :=
  fitTimes tr.start tr.sr tr.origin tr.sonset tr.distance v0 tr.data.length

/-- What a pass of the loop leaves: the panel and entries of `tmaxs`, `ymaxs`, `ymins`
(imaging.py:309-354). -/
structure FitStep where
  panel : FitPanel
  tmax : ℝ
  ymax : ℝ
  ymin : ℝ

/-- imaging.py:340-345, points of the bulk window. -/
noncomputable def fitBulk (r w b : ℝ) (info : Info) (i : ℕ) :
    Py (List (ℝ × ℝ) × List (ℝ × ℝ)) :=
  if info.tbulk = [] then .ok ([], [])
  else do
    let t ← pyGet info.tbulk i
    let E ← pyGet info.Ebulk i
    let G ← pyGet info.Gbulk i
    return ([(t, E)], [(t, modelled r w G b t)])

/-- imaging.py:318-354, the panel of trace `i` with site response `r`. -/
noncomputable def fitStep (G : Greens) (cfg : Cfg) (g0 b : ℝ) (W : Dict String ℝ) (info : Info)
    (N : ℕ) (e : FitTrace) (i : ℕ) (r : ℝ) : Py FitStep := do
  let t := traceTimes e.tr cfg.v0                                             -- 325
  let g ← gsmooth G cfg e.tr.distance t g0                                    -- 330-331
  let w ← dictGet W e.tr.event
  let m := (emod r w b g t).map (fun x => max x (1e-30))                      -- 332-334
  let tc ← pyGet info.tcoda i
  let Ec ← pyGet info.Ecoda i
  let Gc ← pyGet info.Gcoda i
  let mc := emod r w b Gc tc                                                  -- 337
  let bulk ← fitBulk r w b info i
  let tmax ← pyGet t (t.length - 1)                                           -- 352
  let m1 ← maxOf m
  let m2 ← maxOf e.tr.data                                                    -- 353
  let m3 ← minOf mc
  let m4 ← maxOf Ec                                                           -- 354
  return ⟨⟨(i / gridSize N, i % gridSize N), e.tr.event, e.tr.station, trunc (e.tr.distance / 1000),
    (match cfg.smooth with
      | some s => if s ≠ 0 then t.zip e.unsmoothed else []
      | none => []),                                                          -- 327-328
    t.zip e.tr.data, t.zip m, tc.zip Ec, tc.zip mc, bulk.1, bulk.2⟩, tmax, max m1 m2, min m3 m4⟩

/-- imaging.py:309-316, one pass of the loop; `none` in `R` is NaN, such a station is left out. -/
noncomputable def fitPass (G : Greens) (cfg : Cfg) (g0 b : ℝ) (W : Dict String ℝ)
    (R : Dict String (Option ℝ)) (info : Info) (N : ℕ) (p : FitTrace × ℕ) : Py (Option FitStep) := do
  let r ← dictGet R p.1.tr.station
  match r with
  | none => return none
  | some r => do
    let s ← fitStep G cfg g0 b W info N p.1 p.2 r
    return some s

/-- imaging.py:370, limits of the time axis; the option `xlim` has priority. -/
noncomputable def xLimits (xlim : Option (ℝ × ℝ)) (steps : List FitStep) : Py (ℝ × ℝ) :=
  match xlim with
  | some l => .ok l
  | none => do
    let m ← maxOf (steps.map FitStep.tmax)
    return (0, m)

/-- imaging.py:371, limits of the energy axis; the option `ylim` has priority. -/
noncomputable def yLimits (ylim : Option (ℝ × ℝ)) (steps : List FitStep) : Py (ℝ × ℝ) :=
  match ylim with
  | some l => .ok l
  | none => do
    let a ← minOf (steps.map FitStep.ymin)
    let c ← maxOf (steps.map FitStep.ymax)
    return (0.1 * a, 1.5 * c)

/-- imaging.py:288-372 `plot_fits`. -/
noncomputable def plotFits (G : Greens) (cfg : Cfg) (es : List FitTrace) (g0 : ℝ) (b : Option ℝ)
    (W : Dict String ℝ) (R : Dict String (Option ℝ)) (info : Info)
    (xlim ylim : Option (ℝ × ℝ)) : Py FitsPlot := do
  let steps ← mapExc (fitPass G cfg g0 (b.getD 0) W R info es.length) es.zipIdx
  let xl ← xLimits xlim (steps.filterMap id)
  let yl ← yLimits ylim (steps.filterMap id)
  return ⟨(steps.filterMap id).map FitStep.panel, xl, yl⟩

end Qopen.FigBand
