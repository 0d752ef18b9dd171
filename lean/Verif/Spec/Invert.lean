import Verif.Model.Invert
import Verif.Props.Catalog

/-!
# Specification of the selection of event-station pairs
-/

namespace Qopen.Spec

open Real Catalog Energy Invert

/-- `d` is the hypocentral distance between the origin and the station, which is installed at origin
time; the depth of the origin is known. -/
def HypoDistance (env : Env) (cfg : InvCfg) (ori : Origin) (sta : String) (d : ℝ) : Prop :=
  ∃ c h depth, env.coords (oneChannel env sta) ori.time = some c ∧
    env.gps c.latitude c.longitude ori.latitude ori.longitude = some h ∧ ori.depth = some depth ∧
    d = sqrt (h ^ 2 + (depth - c.localDepth + (if cfg.correctForElevation then
      (if cfg.subtractLocalDepth then c.elevation else c.elevation + c.localDepth) else 0)) ^ 2)

/-- P- and S-onset of the pair: from picks (a missing P-pick is replaced by the onset for the
velocity `vp`) or from the velocities `vp` and `vs`. -/
def Onsets (cfg : InvCfg) (ev : Event) (ori : Origin) (d : ℝ) (sta : String) (p s : ℝ) : Prop :=
  (cfg.usePicks = true ∧ ∃ ar, getArrivals ev = .ok (some ar) ∧ LastPick 'S' ar sta s ∧
    (LastPick 'P' ar sta p ∨
      (¬ ∃ t, LastPick 'P' ar sta t) ∧ ∃ vp, cfg.vp = some vp ∧ p = ori.time + d / vp)) ∨
  (cfg.usePicks = false ∧ ∃ vp vs, cfg.vp = some vp ∧ cfg.vs = some vs ∧
    p = ori.time + d / vp ∧ s = ori.time + d / vs)

/-- The trace covers the window up to the tolerance. -/
def Covers (tol t1 t2 : ℝ) (tr : RawTrace) : Prop :=
  tr.start - tol < t1 ∧ t2 - tol < tr.start + ((tr.data.length - 1 : ℕ) : ℝ) / tr.sr

/-- `traces` are the waveforms of the pair: three traces without gaps, which cover the request
window. -/
def Waveforms (env : Env) (cfg : InvCfg) (ev : Event) (ori : Origin) (sta : String)
    (traces : List RawTrace) : Prop :=
  ∃ raw, env.getWaveforms (getEventid ev) (pattern env sta) (ori.time + cfg.requestWindow.1)
      (ori.time + cfg.requestWindow.2) = .ok (some raw) ∧ raw ≠ [] ∧ env.numGaps raw = 0 ∧
    traces = env.merge raw ∧ traces.length = 3 ∧
    ∀ tr ∈ traces, Covers cfg.tolerance (ori.time + cfg.requestWindow.1)
      (ori.time + cfg.requestWindow.2) tr

/-- The sensor of the station lies in a borehole, more than 10 m below the surface, at the origin time of
one of the events for which the distance can be calculated. -/
def InBorehole (env : Env) (events : List Event) (sta : String) : Prop :=
  (∃ ch ∈ env.channels, getStation ch = sta) ∧ ∃ ev ∈ events, ∃ ori c h, getOrigin ev = .ok ori ∧
    env.coords (oneChannel env sta) ori.time = some c ∧
    env.gps c.latitude c.longitude ori.latitude ori.longitude = some h ∧ ori.depth.isSome ∧
    10 < c.localDepth

/-- The pair of event and station passes all checks and `st` is its stream. -/
def Usable (env : Env) (cfg : InvCfg) (events : List Event) (ev : Event) (sta : String)
    (st : Stream) : Prop :=
  ∃ ori d p s traces st0, getOrigin ev = .ok ori ∧
    (∃ ch ∈ env.channels, getStation ch = sta) ∧
    HypoDistance env cfg ori sta d ∧
    (∀ v, cfg.skipDistance = some v → v ≠ 0 → d / 1000 ≤ v) ∧
    Onsets cfg ev ori d sta p s ∧
    Waveforms env cfg ev ori sta traces ∧
    (st0.event = getEventid ev ∧ (∀ tr, traces.head? = some tr → st0.station = getStation tr.id ∧
      st0.start = tr.start ∧ st0.sr = tr.sr) ∧ st0.channels = traces.map RawTrace.data ∧
      st0.origin = ori.time ∧ st0.ponset = p ∧ st0.sonset = s ∧ st0.distance = d ∧
      (st0.borehole = true ↔ InBorehole env events st0.station)) ∧
    (cfg.removeResponse = false → st = st0) ∧
    (cfg.removeResponse = true → ∃ ch, env.response st0 = some ch ∧
      st = { st0 with channels := ch })

/-- Ids of event and station of the usable pairs. -/
def UsablePairs (env : Env) (cfg : InvCfg) (events : List Event) : Set (String × String) :=
  {p | ∃ ev ∈ events, getEventid ev = p.1 ∧ ∃ st, Usable env cfg events ev p.2 st}

/-- An order of the elements of a set. -/
def IsSetOrder (f : List String → List String) : Prop :=
  ∀ l, (f l).Nodup ∧ ∀ x, x ∈ f l ↔ x ∈ l

/-- The onsets of all pairs can be determined without exception. -/
def OnsetsReadable (cfg : InvCfg) (events : List Event) : Prop :=
  (∀ vp, cfg.vp = some vp → vp ≠ 0) ∧
  (cfg.usePicks = false → ∃ vs, cfg.vs = some vs ∧ vs ≠ 0) ∧
  (cfg.usePicks = true → ∀ ev ∈ events, ∃ ar, getArrivals ev = .ok (some ar) ∧
    ∀ sta, ∃ picks, getPicks ar sta = .ok picks)

end Qopen.Spec
