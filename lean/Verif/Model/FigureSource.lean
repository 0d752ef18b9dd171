import Verif.Model.Figures
import Verif.Model.InvertFb

/-!
# Model of the data in the figures of source spectra, magnitudes and single events
(imaging.py:375-532, 690-805)

As in `Verif.Model.Figures` the functions return the drawn numbers.  Text is represented by the
numbers it is made of.  The entries of an event are `Dict String Val`.
-/

namespace Qopen.Figures

open Util Imaging Source

/-! ## Source displacement spectra -/

/-- Colours of the points: all the same, or by the number of stations in each band on a scale
(imaging.py:383-400). -/
inductive Colour
  | uniform
  | counts (n : List Cell) (vmin vmax : ℝ)

/-- A panel of `plot_sds`: points, colours, curve of the source model, dashed level, numbers in the
annotation (imaging.py:375-459). -/
structure SdsPanel where
  points : List (ℝ × ℝ)
  colour : Colour
  curve : List (ℝ × Option ℝ)
  level : Option ℝ
  label : List (String × Cell)

/-- `result.get(k)` for a number (imaging.py:409, 443, 778-780). -/
def numberOf (res : Dict String Val) (k : String) : Py Cell :=
  match res.get? k with
  | none => .ok .none
  | some (.cell c) => .ok c
  | some (.cells _) => .error .other

/-- imaging.py:409-410 `_get`: `smo.get(k) or result.get(k)`. -/
noncomputable def getParam (smo : Dict String Cell) (res : Dict String Val) (k : String) : Py Cell :=
  match smo.get? k with
  | some c => if c.truthy then .ok c else numberOf res k
  | none => numberOf res k

/-- `np.array(result['sds'], dtype=float)`: `None` is NaN, i.e. `none`.  See imaging.py:402. -/
def spectrumOf (res : Dict String Val) : Py (List (Option ℝ)) :=
  match res.get? "sds" with
  | none => .error .keyError
  | some (.cells l) => .ok (l.map Cell.val?)
  | some (.cell _) => .error .typeError

/-- The largest entry of `nstations` (`np.max`; `ValueError` for an empty list).
See imaging.py:390, 716. -/
noncomputable def largest (n : List Cell) : Py ℝ :=
  match n.filterMap Cell.val? with
  | [] => .error .valueError
  | x :: xs => if n.any (fun c => c.val?.isNone) then .error .typeError else .ok (xs.foldl max x)

/-- imaging.py:389-390: the largest number of stations. -/
noncomputable def scaleEnd (n : List Cell) (maxNobs : Option ℝ) : Py ℝ :=
  match maxNobs with
  | some m => .ok m
  | none => largest n

/-- imaging.py:385-400: colours; `cmap` and `color` say whether these are given. -/
noncomputable def colourOf (res : Dict String Val) (cmap color : Bool) (vmin vmax maxNobs : Option ℝ) :
    Py Colour :=
  match color, res.get? "nstations", cmap with
  | false, some (.cells n), true => do
    let m ← scaleEnd n maxNobs
    return .counts n (vmin.getD 0.5) (vmax.getD (m + 0.5))
  | false, some (.cell _), true => .error .other
  | _, _, _ => .ok .uniform

/-- A positional default of `source_model` (source.py:33). -/
def orDefault (c : Cell) (x : ℝ) : Cell :=
  match c with
  | .none => .num x
  | c => c

/-- `source_model(f, **smo)` (imaging.py:429): NaN if any parameter is NaN. -/
noncomputable def modelAt (M0 fc n gamma : Cell) (f : ℝ) : Option ℝ :=
  match M0, fc, orDefault n 2, orDefault gamma 1 with
  | .num M0, .num fc, .num n, .num gamma => some (sourceModel f M0 fc n gamma)
  | _, _, _, _ => none

/-- imaging.py:427-430: the curve. -/
noncomputable def modelCurve (freq : List ℝ) (M0 fc n gamma : Cell) : List (ℝ × Option ℝ) :=
  if M0.truthy ∧ fc.truthy then
    (InvertFb.linspace (freq.headD 0 / 1.5) (freq.getLastD 0 * 1.5) 100).map
      (fun f => (f, modelAt M0 fc n gamma f))
  else []

/-- Keys of the annotation (imaging.py:438-442). -/
def labelKeys : List String := ["M0", "fc", "n", "gamma", "fit_error"]

/-- imaging.py:443-444: `None` cannot be formatted (`TypeError`). -/
def labelOf (res : Dict String Val) : Py (List (String × Cell)) :=
  mapExc (fun k => do
    let c ← numberOf res k
    match c with
    | .none => .error .typeError
    | c => return (k, c)) (labelKeys.filter (fun k => (res.get? k).isSome))

/-- imaging.py:419-424, method `'mean'`: `freq < None` raises `TypeError`; `nobs` is not assigned for
uniform colours, otherwise it is a list, which cannot be indexed with an array. -/
def meanPanel {α : Type} (fc : Cell) (colour : Colour) : Py α :=
  match fc with
  | .none => .error .typeError
  | _ =>
    match colour with
    | .uniform => .error .unboundLocal
    | .counts _ _ _ => .error .typeError

/-- imaging.py:426, 433: frequencies and values must have the same number; missing values are not
drawn. -/
def sdsPoints (freq : List ℝ) (spec : List (Option ℝ)) : Py (List (ℝ × ℝ)) :=
  if freq.length = spec.length then
    .ok ((freq.zip spec).filterMap (fun p => p.2.map (fun x => (p.1, x))))
  else .error .valueError

/-- One colour for each point (imaging.py:400, 426, 433). -/
def checkColours (colour : Colour) (nf : ℕ) : Py Unit :=
  match colour with
  | .counts n _ _ => if n.length = nf then .ok () else .error .valueError
  | .uniform => .ok ()

/-- The dashed line (imaging.py:435-436). -/
noncomputable def levelOf (M0 : Cell) : Option ℝ := if M0.truthy then M0.val? else none

/-- imaging.py:375-459 `plot_sds` with an automatic annotation; `none` if nothing is drawn.
`scatter` with colours for another number of points raises `ValueError`. -/
noncomputable def plotSds (freq : List ℝ) (res : Dict String Val) (smm : Option Method)
    (smo : Dict String Cell) (cmap : Bool := true) (color : Bool := false)
    (vmin vmax maxNobs : Option ℝ := none) : Py (Option SdsPanel) := do
  let colour ← colourOf res cmap color vmin vmax maxNobs
  let spec ← spectrumOf res
  if spec.all Option.isNone then return none                                        -- 403-404
  else
    let M0 ← getParam smo res "M0"
    let fc ← getParam smo res "fc"
    let n ← getParam smo res "n"
    let gamma ← getParam smo res "gamma"
    match smm with
    | some .mean => meanPanel fc colour
    | _ =>
      let pts ← sdsPoints freq spec
      let _ ← checkColours colour freq.length
      let curve := if smm = some .fit ∨ smm = some .robustFit then modelCurve freq M0 fc n gamma
        else []
      let label ← labelOf res
      return some ⟨pts, colour, curve, levelOf M0, label⟩

/-- A figure of all source spectra: panels, and the colours explained by the colour bar, if any; the
bar has no scale (`some none`) if there are no points in the last panel.  See imaging.py:690-758. -/
structure SdsFig where
  panels : List (String × Option SdsPanel)
  bar : Option (Option Colour)

/-- A result with source spectra: frequencies, recorded options and events (imaging.py:703-708). -/
structure SdsRes where
  freq : List ℝ
  smm : Option Method := none
  smo : Dict String Cell := []
  events : Dict String (Dict String Val)

/-- `evres['nstations']` (imaging.py:715). -/
def stationsOf (e : Dict String Val) : Py (List Cell) :=
  match e.get? "nstations" with
  | none => .error .keyError
  | some (.cells n) => .ok n
  | some (.cell _) => .error .other

/-- imaging.py:711-716: the largest number of stations over all events, 1 for uniform colours. -/
noncomputable def maxStations (events : Dict String (Dict String Val)) (cmap colors : Bool) : Py ℝ :=
  match events with
  | [] => .error .indexError
  | (_, first) :: _ =>
    if (first.get? "nstations").isNone ∨ cmap = false ∨ colors = true then .ok 1
    else do
      let ns ← mapExc (fun e : String × Dict String Val => stationsOf e.2) events
      largest ns.flatten

open Classical in
/-- imaging.py:690-758 `plot_all_sds`. -/
noncomputable def plotAllSds (res : SdsRes) (smm : Option Method) (smo : Dict String Cell)
    (only : List String := []) (cmap : Bool := true) (colors : Bool := false)
    (vmin vmax : Option ℝ := none) : Py SdsFig := do
  let smm := smm.or res.smm                                                          -- 705
  let smo := if smo.length = 0 then res.smo else smo                                     -- 706
  let events := if only = [] then res.events
    else res.events.filter (fun e => decide (e.1 ∈ only))                            -- 709-710
  let m ← maxStations events cmap colors
  let panels ← mapExc (fun e : String × Dict String Val => do
    let p ← plotSds res.freq e.2 smm smo cmap colors vmin vmax (some m)
    return (e.1, p)) events
  return ⟨panels, if m = 1 then none
    else some ((panels.getLast?.bind Prod.snd).map SdsPanel.colour)⟩                 -- 751-757

/-! ## Magnitudes -/

/-- The figure of magnitudes: points, regression line (slope, intercept) with its range
(imaging.py:771-805). -/
structure MagFig where
  points : List (Cell × Cell)
  line : Option (ℝ × ℝ)
  range : ℝ × ℝ

/-- Both magnitudes of an event, if it has both (imaging.py:778-780). -/
def magsOf (ev : Dict String Val) : Py (Option (Cell × Cell)) := do
  let a ← numberOf ev "Mcat"
  let b ← numberOf ev "Mw"
  match a, b with
  | .none, _ => return none
  | _, .none => return none
  | a, b => return some (a, b)

/-- The numbers of a list of cells (imaging.py:778-788). -/
def numbers (l : List Cell) : Py (List ℝ) :=
  mapExc (fun c => match c with
    | .num x => .ok x
    | _ => .error .other) l

/-- imaging.py:771-805 `plot_mags`; `none` if nothing is drawn.  `only = none` is `None`.  NaN as
magnitude is not modelled (`other`) except for `Mw` in the points of up to three events. -/
noncomputable def plotMags (fit2 : List ℝ → List (ℝ × ℝ) → ℝ × ℝ)
    (events : Dict String (Dict String Val)) (xlim : Option (ℝ × ℝ)) (only : Option (List String)) :
    Py (Option MagFig) := do
  let sel := match only with
    | none => events
    | some l => events.filter (fun e => decide (e.1 ∈ l))
  let ms ← mapExc (fun e : String × Dict String Val => magsOf e.2) sel
  match ms.filterMap id with
  | [] => return none                                                                -- 781-782
  | temp =>
    let Mcat ← numbers (temp.map Prod.fst)
    let range := xlim.getD (Mcat.foldl min (Mcat.headD 0), Mcat.foldl max (Mcat.headD 0))  -- 785-788
    if 3 < temp.length then
      let Mw ← numbers (temp.map Prod.snd)
      return some ⟨temp, some (linearFit fit2 (fun _ => 0) Mw Mcat none), range⟩      -- 791-793
    else return some ⟨temp, none, range⟩

/-- imaging.py:761-768 `_secondary_yaxis_seismic_moment`: value of the second axis at height `y` of the
first (first function), and back (second function). -/
noncomputable def secondaryAxis (inverse : Bool) : (ℝ → ℝ) × (ℝ → ℝ) :=
  if inverse then (momentMagnitude, momentMagnitudeInv) else (momentMagnitudeInv, momentMagnitude)

/-! ## Figures of a single event -/

/-- The result of one `invert` call (core.py:1370-1426). -/
structure OneRes where
  freq : List ℝ
  v0 : Option ℝ := none
  confV0 : Option ℝ := none
  top : Dict String Val := []
  R : Option (Dict String (List Cell)) := none
  events : Dict String (Dict String Val)

/-- A panel of `plot_eventresult` (imaging.py:480-491). -/
inductive EventPanel
  | sds (p : Option SdsPanel)
  | curve (v : List (Option ℝ))

/-- imaging.py:469-474: the entries of the only event (the first) go over those of the result. -/
def mergedRes (res : OneRes) (quantities : List String) : Py (Dict String Val) :=
  if "W" ∈ quantities ∨ "sds" ∈ quantities then
    match res.events with
    | [] => .error .indexError
    | (_, e) :: _ => .ok (Dict.update res.top e)
  else .ok res.top

/-- imaging.py:482-491, one panel. -/
noncomputable def eventPanel (freq : List ℝ) (v0 : Option ℝ) (res : Dict String Val)
    (smm : Option Method) (smo : Dict String Cell) (q : String) : Py EventPanel :=
  if q = "sds" then do
    let p ← plotSds freq res smm smo
    return .sds p
  else
    match depMap.get? q with
    | none => .error .keyError
    | some key =>
      match res.get? key with
      | none => .error .keyError
      | some (.cell _) => .error .other
      | some (.cells l) =>
        if l.length ≠ freq.length then .error .valueError
        else do
          let d ← calcDependent q (.row l) (some freq) (match v0 with
            | some v => .num v
            | none => .none)
          match d with
          | some (.row r) => return .curve r
          | _ => .error .valueError

/-- imaging.py:462-497 `plot_eventresult`. -/
noncomputable def plotEventresult (res : OneRes) (v0 : Option ℝ) (quantities : List String)
    (smm : Option Method) (smo : Dict String Cell) : Py (List (String × EventPanel)) := do
  let v := pyOr (pyOr v0 res.v0) res.confV0                                          -- 467
  let r ← mergedRes res quantities
  mapExc (fun q => do
    let p ← eventPanel res.freq v r smm smo q
    return (q, p)) quantities

/-- Figure of the site responses of an event: panels (`none`: without a curve), range of the axis
(imaging.py:500-532). -/
structure EventSites where
  panels : List (String × Option (List (Option ℝ)))
  ylim : Option (ℝ × ℝ)

/-- imaging.py:514-518: the panel of a station. -/
def eventSite (R : Dict String (List Cell)) (nf : ℕ) (s : String) :
    Py (String × Option (List (Option ℝ))) :=
  match R.get? s with
  | none => .error .keyError
  | some l =>
    if l.all (fun c => c.val?.isNone) then .ok (s, none)                             -- 517
    else if l.length ≠ nf then .error .valueError
    else .ok (s, some (l.map Cell.val?))

/-- imaging.py:500-532 `plot_eventsites`.  `np.min` of nothing raises `ValueError`. -/
noncomputable def plotEventsites (res : OneRes) : Py EventSites :=
  match res.R with
  | none => .error .keyError
  | some R =>
    if R.length = 0 then .error .valueError
    else do
      let panels ← mapExc (eventSite R res.freq.length) (sortedKeys R)
      match (R.map Prod.snd).flatten.filterMap Cell.val? with
      | [] => .error .valueError                                                     -- 529
      | x :: xs =>
        return ⟨panels, if xs.foldl min x ≠ xs.foldl max x
          then some (xs.foldl min x, xs.foldl max x) else none⟩

end Qopen.Figures
