import Verif.Model.Window
import Verif.Spec.InvertFb

/-!
# Specification of the windows of an event-station pair

`Accepts` lists the checks a pair has to pass, and what its windows are.
-/

namespace Qopen.Spec

open Real Util Tr Energy InvertFb Window

/-- Time assigned to sample `i` of a window starting at `w0`: relative to the S-onset, moved to the
arrival of the direct wave of the model. -/
noncomputable def sampleTime (tr : Trace) (v0 w0 : ℝ) (i : ℕ) : ℝ :=
  i / tr.sr + tr.distance / v0 + (w0 - tr.sonset)

/-- The bulk values in `p` are those of the bulk window `bw` of `tr`: mean energy, balanced time,
weight (`nc` is the number of samples in the coda window), and first and last sample time. -/
def BulkOf (lib : Lib) (cfg : WCfg) (v0 : ℝ) (tr : Trace) (bw : Tw) (nc : ℕ) (p : PairData) : Prop :=
  ∃ w esl unit, tw2utc lib.float bw tr = .ok w ∧ getSlice tr w = some esl ∧ 0 < esl.data.sum ∧
    p.bulkEnergy = mean esl.data ∧
    p.bulkTime = (esl.data.zipIdx.map (fun ei => ei.1 * sampleTime tr v0 w.1 ei.2)).sum /
      esl.data.sum ∧
    p.bulkStart = sampleTime tr v0 w.1 0 ∧
    p.bulkEnd = sampleTime tr v0 w.1 (esl.data.length - 1) ∧
    p.bulkWeight = cfg.weight.1 * unit ∧
    ((cfg.weight.2 = .codawindow ∧ unit = nc) ∨
     (cfg.weight.2 = .bulkwindow ∧ unit = esl.data.length) ∨ (cfg.weight.2 = .samples ∧ unit = 1))

/-- `w` is the coda window of the smoothed trace, possibly cut at a local minimum; it is long
enough before and after the cut. -/
def CodaWindow (lib : Lib) (cfg : WCfg) (tr : Trace) (w : ℝ × ℝ) : Prop :=
  ∃ w0, tw2utc lib.float cfg.codaWindow tr = .ok w0 ∧ cfg.skipCoda ≤ w0.2 - w0.1 ∧
    match cfg.cutCoda with
    | none => w = w0
    | some c => cfg.skipCoda ≤ w.2 - w.1 ∧ ∃ esl, getSlice tr (seamWindow c w0) = some esl ∧
      w = cutWindow w0 (localMinimum esl c.smooth c.ratio (c.window.getD cfg.smoothWindow))

/-- The largest sample of the trace is inside the window required by `skip.maximum`. -/
def MaximumOk (lib : Lib) (cfg : WCfg) (tr : Trace) : Prop :=
  ∀ mwin, cfg.skipMaximum = some mwin → ∃ mw i, tw2utc lib.float mwin tr = .ok mw ∧
    argmax tr.data = .ok i ∧ mw.1 < tr.start + i / tr.sr ∧ tr.start + i / tr.sr < mw.2

/-- `p` holds the windows of the trace `tr`, and `tr` passed all checks. -/
def Accepts (lib : Lib) (cfg : WCfg) (v0 : ℝ) (tr : Trace) (p : PairData) : Prop :=
  p.event = tr.event ∧ p.station = tr.station ∧ p.distance = tr.distance ∧
  (∃ tr' w esl, smoothTrace cfg tr = .ok tr' ∧ CodaWindow lib cfg tr' w ∧ MaximumOk lib cfg tr' ∧
    getSlice tr' w = some esl ∧
    p.coda = esl.data.zipIdx.map (fun ei => (sampleTime tr v0 w.1 ei.2, ei.1))) ∧
  (∀ bw, cfg.bulkWindow = some bw → BulkOf lib cfg v0 tr bw p.coda.length p) ∧
  (cfg.bulkWindow = none → p.bulkTime = 0 ∧ p.bulkEnergy = 0 ∧ p.bulkWeight = 0 ∧
    p.bulkStart = 0 ∧ p.bulkEnd = 0)

end Qopen.Spec
