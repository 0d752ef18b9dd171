import Verif.Props.RtPlugin
import Verif.Props.PlainWindows
import Verif.Props.Truth
import Verif.Lemmas.Totality
import Verif.Props.SourceTotal
import Verif.Props.BandSteps

/-!
# Inputs with which an inversion returns
-/

namespace Qopen

open Real Util Tr Energy Spec InvertFb Window RtPlugin Plain Total

namespace Spec

/-- Green's function returns one non-negative value per time for increasing times.  It is positive at
each sample after a sample which is not before the arrival of the direct wave. -/
def SoundGreens (G : Greens) : Prop :=
  ∀ r ts v g, 0 < r → 0 < v → 0 < g → 2 ≤ ts.length → ts.Pairwise (· < ·) →
    ∃ ys, G r ts v g = .ok ys ∧ ys.length = ts.length ∧ (∀ y ∈ ys, 0 ≤ y) ∧
      ∀ (j : ℕ) t y, ts[j]? = some t → ys[j + 1]? = some y → r ≤ v * t → 0 < y

/-- A trace (after removal of noise and adjustment of the onset) which can be inverted or skipped: positive
energies, at least as many samples as the smoothing window, which has at least three samples; the coda
window can be evaluated and begins after the S-onset (at least one sampling interval); the bulk window
can be evaluated, lasts at least a second and lies mainly after the S-onset. -/
structure SoundTrace (lib : Lib) (cfg : WCfg) (tr : Trace) : Prop where
  distance : 0 < tr.distance
  rate : 1 / 2 ≤ tr.sr
  positive : ∀ x ∈ tr.data, 0 < x
  smooth : ∃ s M, cfg.smooth = some s ∧ NearestInt (tr.sr * s) M ∧ 3 ≤ M ∧ M ≤ tr.data.length
  coda : ∀ d, ∃ w, tw2utc lib.float cfg.codaWindow { tr with data := d } = .ok w ∧
    tr.sonset + 1 / tr.sr ≤ w.1
  bulk : ∀ bw, cfg.bulkWindow = some bw → ∃ w, tw2utc lib.float bw tr = .ok w ∧ 1 ≤ w.2 - w.1 ∧
    tr.sonset + 1 / 2 ≤ (w.1 + w.2) / 2
  maximum : ∀ mw, cfg.skipMaximum = some mw →
    ∀ d, ∃ w, tw2utc lib.float mw { tr with data := d } = .ok w

/-- Options for the data: the weight has a known unit, there is a smoothing window of known kind, and
coda windows of less than a second are skipped. -/
structure SoundOptions (cfg : WCfg) : Prop where
  weight : cfg.weight.2 ≠ .other
  smoothWindow : cfg.smoothWindow ≠ .other
  skip : 1 ≤ cfg.skipCoda

/-- The windows of a pair for which Green's function can be evaluated. -/
structure SoundPair (cfg : InvertFb.Cfg) (p : PairData) : Prop where
  distance : 0 < p.distance
  coda : ∃ t0 dt, p.coda.map Prod.fst = grid t0 dt p.coda.length ∧ 0 < dt ∧ 2 ≤ p.coda.length ∧
    p.distance ≤ cfg.v0 * (t0 - dt) ∧ ∃ s M, cfg.smooth = some s ∧ NearestInt (s / dt) M ∧ 3 ≤ M
  energies : ∀ x ∈ p.coda, 0 < x.2
  bulk : cfg.bulk = true → 0 < p.bulkEnergy ∧ p.bulkStart < p.bulkEnd ∧
    p.distance ≤ cfg.v0 * ((p.bulkStart + p.bulkEnd) / 2)

/-- Options of the inversion: known `g0` and `b` have to be positive and exclude coda normalisation;
otherwise there are positive bounds for `g0`, and the search returns a positive value if the objective
can be evaluated. -/
structure SoundInversion (minimize : (ℝ → Py (WithTop ℝ)) → Py ℝ) (cfg : InvertFb.Cfg) : Prop where
  fixed : cfg.fix = true → cfg.codaNorm = false ∧ ∀ g, cfg.fixParams.1 = some g → 0 < g
  free : cfg.fix = false → cfg.fixSites = false ∧ ∃ gb, cfg.g0Bounds = some gb ∧ 0 < gb.1 ∧ gb.1 ≤ gb.2
  bBounds : ∀ bb, cfg.bBounds = some bb → 0 ≤ bb.1 ∧ 0 ≤ bb.2
  numPoints : 3 ≤ cfg.numPoints
  search : ∀ f, (∀ x, ∃ y, f x = .ok y) → ∃ x, minimize f = .ok x ∧ 0 < x

/-- Data which can be inverted or skipped in a band: the energies can be calculated (their values
are numbers), the noise windows can be evaluated, a window for the adjustment of the onset is in order
and has a sample, and the traces are sound afterwards.  If the velocity has to be calculated, all
S-onsets are after the origin time. -/
structure SoundBand (lib : Lib) (cfg : WCfg) (streams : List Stream) : Prop where
  pairs : (streams.map (fun s => (s.event, s.station))).Nodup
  energy : ∀ s ∈ streams, ∃ o, Window.energyOf lib cfg s = .ok o
  noise : ∀ s ∈ streams, ∀ tr, Window.energyOf lib cfg s = .ok (some tr) →
    ∀ nw ∈ cfg.noiseWindows, ∃ w, tw2utc lib.float nw tr = .ok w
  adjust : ∀ s ∈ streams, ∀ tr, Window.energyOf lib cfg s = .ok (some tr) → ∀ aw, cfg.adjustWindow = some aw →
    ∀ level d, d.length = tr.data.length →
      ∃ w, tw2utc lib.float aw { tr with noise := level, data := d } = .ok w ∧ w.1 ≤ w.2 ∧ 0 < tr.sr ∧
        ∃ j < tr.data.length, w.1 ≤ trueTime tr j ∧ trueTime tr j ≤ w.2
  traces : ∀ trs, energies lib cfg streams = .ok trs → ∀ tr ∈ trs, SoundTrace lib cfg tr
  velocity : (∀ v, cfg.v0 = some v → 0 < v) ∧ (cfg.v0 = none →
    ∀ trs, energies lib cfg streams = .ok trs → ∀ tr ∈ trs, tr.origin < tr.sonset)

open Invert Catalog Freqs Source

/-- Results of a former inversion which can be used as input: for the frequencies of the bands, with a
value (or `None`) for each frequency. -/
structure SoundInput (bands : Dict ℝ (ℝ × ℝ)) (fp : FixInput) : Prop where
  nodup : fp.freq.Nodup
  same : ∀ f, f ∈ fp.freq ↔ f ∈ bands.keys
  g0 : fp.g0.length = fp.freq.length ∧ ∀ c ∈ fp.g0, c = .none ∨ ∃ x, c = .num x ∧ 0 < x
  b : fp.b.length = fp.freq.length ∧ ∀ c ∈ fp.b, c = .none ∨ ∃ x, c = .num x
  R : fp.R.WF ∧ ∀ row ∈ fp.R, row.2.length = fp.freq.length

/-- Options and surroundings of an inversion: the frequencies are not zero, coda normalisation is used for
the command `go` only, the other commands have a usable input, the jobs can be distributed, waveforms are
read without exception, Green's function is sound, and the options are sound.  Of the optimisation it is
required that it returns a positive value for every function which can be evaluated. -/
structure SoundSetup (env : Env) (cfg : InvCfg) (bands : Dict ℝ (ℝ × ℝ)) : Prop where
  frequencies : getFreqs cfg.freqs = .ok bands
  nonzero : ∀ f ∈ bands.keys, f ≠ 0
  codaNorm : cfg.codaNorm.isSome → cfg.cmd = .go
  input : cfg.cmd ≠ .go → ∃ fp, cfg.input = some fp ∧ SoundInput bands fp
  jobs : cfg.njobs ≠ some 0
  setOrder : IsSetOrder env.setOrder
  network : cfg.ignoreNetworkCode = true → ∀ sta ∈ stationsOf env, '.' ∈ sta.toList
  waveforms : ∀ evid pat t1 t2, ∃ d, env.getWaveforms evid pat t1 t2 = .ok d
  greens : SoundGreens env.G
  weight : cfg.wcfg.weight.2 ≠ .other
  smoothWindow : cfg.wcfg.smoothWindow ≠ .other
  skip : 1 ≤ cfg.wcfg.skipCoda
  numPoints : 3 ≤ cfg.inv.numPoints
  bBounds : ∀ bb, cfg.inv.bBounds = some bb → 0 ≤ bb.1 ∧ 0 ≤ bb.2
  g0Bounds : cfg.cmd = .go → ∃ gb, cfg.inv.g0Bounds = some gb ∧ 0 < gb.1 ∧ gb.1 ≤ gb.2
  search : ∀ f, (∀ x, ∃ y, f x = .ok y) → ∃ x, env.minimize f = .ok x ∧ 0 < x
  sourceSearch : IsSearch env.orc
  sourceModel : ∀ m, cfg.smm = some m → ∃ o, cfg.smo = some o ∧ UsableOpts bands.keys m o

/-- The data of events which are inverted together. -/
structure SoundEvents (env : Env) (cfg : InvCfg) (bands : Dict ℝ (ℝ × ℝ)) (events : List Event) : Prop where
  ids : (events.map getEventid).Nodup
  origins : ∀ ev ∈ events, ∃ o, getOrigin ev = .ok o
  onsets : OnsetsReadable cfg events
  data : ∀ streams origins args, selectStreams env cfg events = .ok (some streams) →
    originsOf events = .ok origins → bandArgs cfg bands = .ok args → ∀ band ∈ bands.map Prod.snd,
      SoundBand env.lib (bandWCfg cfg args band) (ignoreNetworks cfg (boreholes env origins) streams)

end Spec

end Qopen
