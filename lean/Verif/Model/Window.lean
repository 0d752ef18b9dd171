import Verif.Model.Energy
import Verif.Model.InvertFb

/-!
# Model of the data preparation in `invert_fb` (core.py:528-766)

Filtering, filter width and Hilbert transform are parameters.  `energies.remove(energy)` removes
the entry of the same pair (obspy compares header and data; the pairs of a call are different).
Log messages and the data kept for plots are left out.
-/

namespace Qopen.Window

open Real Util Tr Energy InvertFb

/-- Arguments of `Stream.filter` set by the code (core.py:560-563). -/
inductive FilterSpec
  | highpass (freq : ℝ)
  | bandpass (freqmin freqmax : ℝ)

/-- `weight[1]` (core.py:743-752). -/
inductive WeightUnit
  | codawindow | bulkwindow | samples | other
  deriving DecidableEq

/-- Option `cut_coda` (a dictionary; `True` means the default values).  See core.py:500, 696-707. -/
structure CutCoda where
  smooth : Option ℝ := none
  ratio : ℝ := 5
  window : Option Window := none

/-- Option `free_surface` (core.py:494, 568). -/
inductive FreeSurface
  | one (fs : ℝ)
  | two (surface borehole : ℝ)

/-- Options of `invert_fb` which are used in the data preparation (core.py:493-511). -/
structure WCfg where
  freqBand : ℝ × ℝ
  rho0 : ℝ
  freeSurface : FreeSurface := .one 4
  codaNorm : Option (ℝ × ℝ) := none
  fixSites : Bool := false
  fixSitesParams : Dict String ℝ := []
  noiseWindows : List Tw := []
  /-- `getattr(np, noise_windows_func)` -/
  noiseFunc : List ℝ → ℝ
  removeNoise : Bool := false
  /-- `adjust_sonset == "maximum"`, with the window for the search -/
  adjustWindow : Option Tw := none
  v0 : Option ℝ := none
  bulkWindow : Option Tw := none
  weight : ℝ × WeightUnit := (1, .codawindow)
  smooth : Option ℝ := none
  smoothWindow : Window := .flat
  codaWindow : Tw
  skipCoda : ℝ := 0.05
  skipMaximum : Option Tw := none
  numPairs : ℝ := 1
  cutCoda : Option CutCoda := none

/-- Numerical routines of scipy and obspy (core.py:546-731). -/
structure Lib where
  float : PyStr → Option ℝ
  hilbert : List ℝ → List ℝ
  /-- linear detrend and filter of one trace with sampling rate -/
  filt : FilterSpec → ℝ → List ℝ → List ℝ
  /-- `filter_width` -/
  width : ℝ → FilterSpec → ℝ

open Classical in
/-- core.py:559-564. -/
noncomputable def filterSpec (cfg : WCfg) (sr : ℝ) : FilterSpec :=
  if cfg.freqBand.2 > 0.495 * sr then .highpass cfg.freqBand.1
  else .bandpass cfg.freqBand.1 cfg.freqBand.2

/-- core.py:568-573. -/
def freeSurfaceOf (cfg : WCfg) (s : Stream) : ℝ :=
  match cfg.freeSurface with
  | .one fs => fs
  | .two a b => if s.borehole then b else a

open Classical in
/-- core.py:546-582, one pass of the loop over the streams; `none` is a skipped pair.  All
exceptions of `observed_energy` are caught (`other` stands for NaN data and is passed on). -/
noncomputable def energyOf (lib : Lib) (cfg : WCfg) (s : Stream) : Py (Option Trace) :=
  if cfg.freqBand.1 + cfg.freqBand.2 > s.sr then .ok none                     -- 548-552
  else if cfg.fixSites && (cfg.fixSitesParams.get? s.station).isNone then .ok none -- 553-558
  else
    let spec := filterSpec cfg s.sr
    let s' := { s with channels := s.channels.map (lib.filt spec s.sr) }      -- 565-566
    match observedEnergy lib.hilbert s' cfg.rho0 (lib.width s.sr spec) cfg.codaNorm
        (freeSurfaceOf cfg s) with                                            -- 575-576
    | .ok tr => .ok (some tr)
    | .error .other => .error .other
    | .error _ => .ok none                                                    -- 577-582

/-- core.py:594-601, the noise level of one window; `none` if it cannot be used.  Data are
finite. -/
noncomputable def noiseLevel (lib : Lib) (tr : Trace) (nw : Tw) : Py (Option ℝ) := do
  let w ← tw2utc lib.float nw tr
  match tr.slice w.1 w.2 with
  | .error _ => return none
  | .ok sl => return if sl.data.length = 0 then none else some (mean sl.data)

/-- core.py:617-619. -/
noncomputable def removeNoise (nl : ℝ) (data : List ℝ) : List ℝ :=
  data.map (fun x => if x - nl < nl / 100 then nl / 100 else x - nl)

/-- `np.argmax`; `ValueError` for an empty array.  See core.py:631, 723. -/
noncomputable def argmax (d : List ℝ) : Py ℕ :=
  match d with
  | [] => .error .valueError
  | x :: l => .ok ((x :: l).idxOf (l.foldl max x))

/-- core.py:620-637. -/
noncomputable def adjust (lib : Lib) (cfg : WCfg) (tr : Trace) : Py Trace :=
  match cfg.adjustWindow with
  | none => .ok tr
  | some w => do
    let mw ← tw2utc lib.float w tr
    let sl ← tr.slice mw.1 mw.2
    let imax ← argmax sl.data
    return { tr with sonset := mw.1 + imax / tr.sr }

/-- core.py:588-637, one pass of the loop over the energies; `none` is a removed trace. -/
noncomputable def noiseStep (lib : Lib) (cfg : WCfg) (tr : Trace) : Py (Option Trace) := do
  let levels ← mapExc (noiseLevel lib tr) cfg.noiseWindows
  let levels := levels.filterMap id
  if levels.length = 0 then                                                   -- 602
    if cfg.removeNoise then return none                                       -- 608-610
    else
      let tr ← adjust lib cfg tr
      return some tr
  else
    let nl := cfg.noiseFunc levels                                            -- 612-613
    let tr := { tr with noise := some nl }
    let tr := if cfg.removeNoise then { tr with data := removeNoise nl tr.data } else tr
    let tr ← adjust lib cfg tr
    return some tr

/-- core.py:640-643.  Simplification: an S-onset at the origin time counts as velocity 0 (division by
zero), in the code it raises `ZeroDivisionError`; the search window of `adjust_sonset` and picks
which are not after the origin can lead to it. -/
noncomputable def velocity (cfg : WCfg) (trs : List Trace) : Option ℝ :=
  match cfg.v0 with
  | some v => some v
  | none => if trs = [] then none
    else some (mean (trs.map (fun tr => tr.distance / (tr.sonset - tr.origin))))

/-- Local lists of the loop core.py:652-755; `energies` by their pairs. -/
structure WState where
  energies : List (String × String)
  distances : Dict (String × String) ℝ := []
  tcoda : List (List ℝ) := []
  Ecoda : List (List ℝ) := []
  tbulk : List ℝ := []
  Ebulk : List ℝ := []
  weightsBulk : List ℝ := []
  tbulkWindow : Dict (String × String) (ℝ × ℝ) := []

/-- `energies.remove(energy)` (core.py:490, 609, 693, 718, 730). -/
def WState.remove (st : WState) (tr : Trace) : WState :=
  { st with energies := st.energies.erase tr.pair }

/-- `np.arange(N) / sr + distance / v0 + (start - sonset)` (core.py:669-670, 739). -/
noncomputable def timeAxis (tr : Trace) (v0 start : ℝ) (n : ℕ) : List ℝ :=
  (List.range n).map (fun i : ℕ => i / tr.sr + tr.distance / v0 + (start - tr.sonset))

/-- Values of the bulk window (core.py:666-671): number of samples, energy, balanced time. -/
structure Bulk where
  N : ℕ
  E : ℝ
  t : ℝ

/-- core.py:743-752. -/
noncomputable def weightUnit (u : WeightUnit) (Nc Nb : ℕ) : Py ℝ :=
  match u with
  | .codawindow => .ok Nc
  | .bulkwindow => .ok Nb
  | .samples => .ok 1
  | .other => .error .other

/-- core.py:732-755, get the data of the coda window. -/
noncomputable def collect (cfg : WCfg) (v0 : ℝ) (st : WState) (tr : Trace) (bulk : Option Bulk)
    (codaw : ℝ × ℝ) : Py WState :=
  match getSlice tr codaw with                                                -- 733
  | none => .ok (st.remove tr)
  | some esl =>
    let data := esl.data
    let tc := timeAxis tr v0 codaw.1 data.length                              -- 739
    let st := { st with tcoda := st.tcoda ++ [tc], Ecoda := st.Ecoda ++ [data] } -- 740-741
    match bulk with
    | none => .ok st
    | some b => do
      let unit ← weightUnit cfg.weight.2 data.length b.N
      return { st with weightsBulk := st.weightsBulk ++ [cfg.weight.1 * unit]  -- 753
                       tbulk := st.tbulk ++ [b.t]                              -- 754
                       Ebulk := st.Ebulk ++ [b.E] }                            -- 755

/-- core.py:720-731, position of the maximum. -/
noncomputable def checkMaximum (lib : Lib) (cfg : WCfg) (v0 : ℝ) (st : WState) (tr : Trace)
    (bulk : Option Bulk) (codaw : ℝ × ℝ) : Py WState :=
  match cfg.skipMaximum with
  | none => collect cfg v0 st tr bulk codaw
  | some w => do
    let mw ← tw2utc lib.float w tr
    let imax ← argmax tr.data
    let tmax := tr.start + imax / tr.sr
    if mw.1 < tmax ∧ tmax < mw.2 then collect cfg v0 st tr bulk codaw
    else .ok (st.remove tr)                                                   -- 730-731

/-- core.py:707-711, shortening of the coda window at a local minimum. -/
noncomputable def cutWindow (codaw : ℝ × ℝ) (tmin : Option ℝ) : ℝ × ℝ :=
  match tmin with
  | some t => (min codaw.1 t, t)
  | none => codaw

/-- core.py:699-702, window for the search of the minimum. -/
noncomputable def seamWindow (c : CutCoda) (codaw : ℝ × ℝ) : ℝ × ℝ :=
  match c.smooth with
  | none => codaw
  | some s => if s = 0 then codaw else (codaw.1 - 0.5 * s, codaw.2 + 0.5 * s)

/-- core.py:696-719, optional cut of the coda window. -/
noncomputable def cutCoda (lib : Lib) (cfg : WCfg) (v0 : ℝ) (st : WState) (tr : Trace)
    (bulk : Option Bulk) (codaw : ℝ × ℝ) : Py WState :=
  match cfg.cutCoda with
  | none => checkMaximum lib cfg v0 st tr bulk codaw
  | some c =>
    match getSlice tr (seamWindow c codaw) with                               -- 703
    | none => .ok (st.remove tr)
    | some esl =>
      let codaw := cutWindow codaw
        (localMinimum esl c.smooth c.ratio (c.window.getD cfg.smoothWindow))  -- 706-711
      if codaw.2 - codaw.1 < cfg.skipCoda then .ok (st.remove tr)             -- 713-719
      else checkMaximum lib cfg v0 st tr bulk codaw

/-- core.py:675-679. -/
noncomputable def smoothTrace (cfg : WCfg) (tr : Trace) : Py Trace :=
  match cfg.smooth with
  | none => .ok tr
  | some s =>
    if s = 0 then .ok tr
    else do
      let d ← smooth tr.data (some (pyRound (tr.sr * s))) cfg.smoothWindow .zeros
      return { tr with data := d }

/-- core.py:674-694, smoothing and coda window. -/
noncomputable def codaPart (lib : Lib) (cfg : WCfg) (v0 : ℝ) (st : WState) (tr : Trace)
    (bulk : Option Bulk) : Py WState := do
  let tr ← smoothTrace cfg tr
  let codaw ← tw2utc lib.float cfg.codaWindow tr                              -- 681
  if codaw.2 - codaw.1 < cfg.skipCoda then .ok (st.remove tr)                 -- 688-694
  else cutCoda lib cfg v0 st tr bulk codaw

/-- core.py:652-755, one pass of the loop.  An empty bulk window makes `t_[0]` fail; data in it
have a positive sum (otherwise the balanced time is NaN, which is not modelled). -/
noncomputable def step (lib : Lib) (cfg : WCfg) (v0 : ℝ) (st : WState) (tr : Trace) : Py WState :=
  let st := { st with distances := st.distances.set tr.pair tr.distance }     -- 656
  match cfg.bulkWindow with                                                   -- 661
  | none => codaPart lib cfg v0 st tr none
  | some bw => do
    let w ← tw2utc lib.float bw tr                                            -- 662
    match getSlice tr w with                                                  -- 663
    | none => .ok (st.remove tr)
    | some esl =>
      let t_ := timeAxis tr v0 w.1 esl.data.length                            -- 669-670
      if esl.data = [] then .error .indexError
      else if esl.data.sum ≤ 0 then .error .other
      else
        let b : Bulk := ⟨esl.data.length, mean esl.data,
          (List.zipWith (· * ·) esl.data t_).sum / esl.data.sum⟩              -- 667, 671
        let st := { st with tbulkWindow :=
          st.tbulkWindow.set tr.pair (t_.headD 0, t_.getLastD 0) }            -- 672
        codaPart lib cfg v0 st tr (some b)

/-- core.py:645-755, the loop over the energies. -/
noncomputable def windows (lib : Lib) (cfg : WCfg) (v0 : ℝ) (trs : List Trace) : Py WState :=
  trs.foldlM (step lib cfg v0) { energies := trs.map Trace.pair }

/-- core.py:770-773: the input of the inversion. -/
def WState.band (st : WState) : Band where
  pairs := st.energies
  distances := st.distances
  tcoda := st.tcoda
  Ecoda := st.Ecoda
  tbulk := st.tbulk
  Ebulk := st.Ebulk
  weightsBulk := st.weightsBulk
  tbulkWindow := st.tbulkWindow

/-- core.py:544-637, energies of all streams which were not skipped. -/
noncomputable def energies (lib : Lib) (cfg : WCfg) (streams : List Stream) : Py (List Trace) := do
  let es ← mapExc (energyOf lib cfg) streams
  let es ← mapExc (noiseStep lib cfg) (es.filterMap id)
  return es.filterMap id

/-- The options of the inversion (Model/InvertFb.lean): options which are also used in the data
preparation are taken from there, the velocity is the one determined from the data
(core.py:493-511, 643). -/
def fullCfg (cfg : WCfg) (inv : Cfg) (v0 : ℝ) : Cfg :=
  { inv with
    codaNorm := cfg.codaNorm.isSome, fixSites := cfg.fixSites, bulk := cfg.bulkWindow.isSome,
    smooth := cfg.smooth, smoothWindow := cfg.smoothWindow, v0 := v0,
    fixSitesParams := cfg.fixSitesParams }

open Classical in
/-- core.py:493-1025 `invert_fb`. -/
noncomputable def invertFb (lib : Lib) (wls : List ℝ → List (List ℝ) → List ℝ → List ℝ × ℝ)
    (G : Greens) (minimize : (ℝ → Py (WithTop ℝ)) → Py ℝ) (cfg : WCfg) (inv : Cfg)
    (streams : List Stream) : Py (Option BandResult) :=
  if streams = [] then .ok none                                               -- 529-533
  else do
    let trs ← energies lib cfg streams
    match velocity cfg trs with
    | none => return none                                                     -- 763-766: no pair left
    | some v0 =>
      let st ← windows lib cfg v0 trs
      if st.Ecoda.length = 0 ∨ (st.Ecoda.length : ℝ) < cfg.numPairs then return none -- 763-766
      else solveBand wls G minimize (fullCfg cfg inv v0) st.band

end Qopen.Window
