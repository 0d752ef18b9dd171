import Verif.Props.Windows
import Verif.Props.TimeStr

/-!
# Time axis of the windows: C20, C21
-/

namespace Qopen

open Real Util Tr Energy Spec InvertFb Window

namespace Spec

/-- True time of sample `j` of a trace. -/
noncomputable def trueTime (tr : Trace) (j : ℕ) : ℝ := tr.start + j / tr.sr

end Spec

namespace Tr

theorem le_roundAway_iff {x : ℝ} (hx : 0 ≤ x) (i : ℤ) : i ≤ roundAway x ↔ (i : ℝ) ≤ x + 1 / 2 := by
  unfold roundAway
  rw [if_pos hx, Int.le_floor]

theorem roundAway_le_add (x : ℝ) : (roundAway x : ℝ) ≤ x + 1 / 2 := by
  unfold roundAway
  split
  · exact Int.floor_le _
  · have := Int.lt_floor_add_one (-x + 1 / 2)
    push_cast
    linarith

theorem sub_lt_roundAway {x : ℝ} (hx : 0 ≤ x) : x - 1 / 2 < roundAway x := by
  unfold roundAway
  rw [if_pos hx]
  have := Int.lt_floor_add_one (x + 1 / 2)
  linarith

/-- Which samples are in a slice: a run of consecutive samples, containing all samples inside the
window and no sample more than half a sampling interval outside. -/
theorem slice_spec {tr sl : Trace} (hsr : 0 < tr.sr) {t1 t2 : ℝ} (h : tr.slice t1 t2 = .ok sl) :
    ∃ n m : ℕ, NearestSample tr t1 n ∧ sl.data = (tr.data.drop n).take m ∧
      (∀ j, n ≤ j → j < n + m → j < tr.data.length →
        t1 - 1 / 2 / tr.sr ≤ trueTime tr j ∧ trueTime tr j ≤ t2 + 1 / 2 / tr.sr) ∧
      (∀ j, j < tr.data.length → t1 ≤ trueTime tr j → trueTime tr j ≤ t2 → n ≤ j ∧ j < n + m) ∧
      (sl.data ≠ [] → sl.start = trueTime tr n) := by
  unfold Trace.slice at h
  split at h
  · simp at h
  next h12 =>
  simp only [Except.ok.injEq] at h
  obtain ⟨n, hn, hd, -, hs, hsr'⟩ := ltrim_spec tr hsr t1
  -- lower end
  have hlow : ∀ j, n ≤ j → t1 - 1 / 2 / tr.sr ≤ trueTime tr j := by
    intro j hj
    have hjn : (n : ℝ) ≤ j := by exact_mod_cast hj
    have hmono : tr.start + n / tr.sr ≤ trueTime tr j := by
      unfold trueTime
      gcongr
    have h0 : (0 : ℝ) < 1 / 2 / tr.sr := by positivity
    rcases le_total t1 tr.start with hle | hle
    · have : (0 : ℝ) ≤ n / tr.sr := by positivity
      linarith
    · have := (abs_le.1 (hn.2 hle)).1
      linarith
  have hlow' : ∀ j, t1 ≤ trueTime tr j → n ≤ j := by
    intro j hj
    rcases le_total t1 tr.start with hle | hle
    · rw [hn.1 hle]; exact Nat.zero_le _
    · have h1 := (abs_le.1 (hn.2 hle)).2
      unfold trueTime at hj
      have h2 : (n : ℝ) / tr.sr ≤ (j + 1 / 2) / tr.sr := by
        rw [add_div]; linarith
      rw [div_le_div_iff_of_pos_right hsr] at h2
      have h3 : (n : ℝ) < j + 1 := by linarith
      have : n < j + 1 := by exact_mod_cast h3
      omega
  -- upper end
  have hmem : ∀ (x : ℝ) (j : ℕ), n ≤ j → (trueTime tr j ≤ x + 1 / 2 / tr.sr ↔
      (((j - n : ℕ) : ℤ) : ℝ) ≤ (x - (tr.start + n / tr.sr)) * tr.sr + 1 / 2) := by
    intro x j hj
    unfold trueTime
    have e : (((j - n : ℕ) : ℤ) : ℝ) = (j : ℝ) - n := by push_cast [hj]; ring
    rw [e]
    constructor
    · intro h1
      have := mul_le_mul_of_nonneg_right h1 hsr.le
      field_simp at this
      field_simp
      nlinarith
    · intro h1
      have : ((j : ℝ) - n) / tr.sr ≤ ((x - (tr.start + n / tr.sr)) * tr.sr + 1 / 2) / tr.sr := by
        gcongr
      rw [sub_div, add_div, mul_div_assoc, div_self hsr.ne'] at this
      linarith
  set x := (t2 - (tr.start + n / tr.sr)) * tr.sr with hx
  have hdata : ∃ m, sl.data = (tr.data.drop n).take m ∧
      (∀ j, n ≤ j → j < n + m → j < tr.data.length → (((j - n : ℕ) : ℤ) : ℝ) ≤ x + 1 / 2) ∧
      (∀ j, n ≤ j → j < tr.data.length → tr.start + n / tr.sr ≤ t2 →
        (((j - n : ℕ) : ℤ) : ℝ) ≤ x + 1 / 2 → j < n + m) ∧
      (sl.data ≠ [] → sl.start = trueTime tr n) := by
    subst h
    unfold Trace.rtrim
    simp only [hs, hsr', hd, ← hx]
    have hrd := roundAway_le_add x
    by_cases hd0 : 0 ≤ roundAway x - ((tr.data.drop n).length : ℤ) + 1
    · rw [if_pos hd0]
      refine ⟨(tr.data.drop n).length, by rw [hd]; simp, ?_, ?_, fun _ => hs⟩
      · intro j hj1 hj2 hj3
        refine le_trans ?_ hrd
        rw [List.length_drop] at hd0 hj2
        have : ((j - n : ℕ) : ℤ) ≤ roundAway x := by omega
        exact_mod_cast this
      · intro j hj1 hj3 _ _
        rw [List.length_drop]
        omega
    · rw [if_neg hd0]
      by_cases ht : t2 < tr.start + n / tr.sr
      · rw [if_pos ht]
        refine ⟨0, by simp, ?_, ?_, by simp⟩
        · intro j h1 h2; omega
        · intro j _ _ h1; exact absurd ht (not_lt.2 h1)
      · rw [if_neg ht]
        have hx0 : 0 ≤ x := mul_nonneg (by linarith [not_lt.1 ht]) hsr.le
        have hr0 := (roundAway_nonneg hx0).1
        refine ⟨(roundAway x + 1).toNat, ?_, ?_, ?_, fun _ => rfl⟩
        · simp only
          congr 1
          congr 1
          ring
        · intro j hj1 hj2 hj3
          rw [← le_roundAway_iff hx0]
          omega
        · intro j hj1 hj3 _ hle
          rw [← le_roundAway_iff hx0] at hle
          omega
  obtain ⟨m, h1, h2, h3, h4⟩ := hdata
  refine ⟨n, m, hn, h1, ?_, ?_, h4⟩
  · intro j hj1 hj2 hj3
    exact ⟨hlow j hj1, (hmem t2 j hj1).2 (h2 j hj1 hj2 hj3)⟩
  · intro j hj hj1 hj2
    have hnj := hlow' j hj1
    refine ⟨hnj, h3 j hnj hj ?_ ?_⟩
    · refine le_trans ?_ hj2
      unfold trueTime
      have : (n : ℝ) ≤ j := by exact_mod_cast hnj
      gcongr
    · apply (hmem t2 j hnj).1
      have h0 : (0 : ℝ) < 1 / 2 / tr.sr := by positivity
      linarith

end Tr

/-- **C20** (nominal times): a sample of a window is at or after the arrival of the direct wave of
the model, `v0 t >= r`, if and only if its nominal time (window start plus index over sampling rate)
is at or after the S-onset. -/
theorem C20_front_at_sonset_partial {tr : Trace} {v0 : ℝ} (hv : 0 < v0) (w0 : ℝ) (i : ℕ) :
    tr.distance ≤ v0 * sampleTime tr v0 w0 i ↔ tr.sonset ≤ w0 + i / tr.sr := by
  unfold sampleTime
  have e : v0 * ((i : ℝ) / tr.sr + tr.distance / v0 + (w0 - tr.sonset)) =
      tr.distance + v0 * (w0 + i / tr.sr - tr.sonset) := by
    field_simp
    ring
  rw [e]
  constructor
  · intro h
    have : 0 ≤ v0 * (w0 + i / tr.sr - tr.sonset) := by linarith
    have := (mul_nonneg_iff_of_pos_left hv).1 this
    linarith
  · intro h
    have := mul_nonneg hv.le (sub_nonneg.2 h)
    linarith

/-- **C20** (true times): in a window of data which start at or before the window, the time axis
differs from the true sample times (relative to the S-onset, moved to the arrival of the direct wave)
by at most half a sampling interval; if the data start later, the axis is too early by less than the
tolerance of 0.5 seconds.  The window contains all samples of the trace inside it.  Missing for the
full claim: exact agreement, see `C20_counterexample`. -/
theorem C20_time_axis_partial {tr esl : Trace} {v0 : ℝ} {w : ℝ × ℝ} (hsr : 0 < tr.sr)
    (h : getSlice tr w = some esl) :
    ∃ n : ℕ, (∀ (i : ℕ) e, esl.data[i]? = some e → tr.data[n + i]? = some e ∧
        (tr.start ≤ w.1 → |sampleTime tr v0 w.1 i -
          (tr.distance / v0 + (trueTime tr (n + i) - tr.sonset))| ≤ 1 / 2 / tr.sr) ∧
        (w.1 ≤ tr.start → 0 ≤ (tr.distance / v0 + (trueTime tr (n + i) - tr.sonset))
            - sampleTime tr v0 w.1 i ∧
          (tr.distance / v0 + (trueTime tr (n + i) - tr.sonset))
            - sampleTime tr v0 w.1 i < 0.5)) ∧
      (∀ j e, tr.data[j]? = some e → w.1 ≤ trueTime tr j → trueTime tr j ≤ w.2 →
        ∃ i, j = n + i ∧ esl.data[i]? = some e) := by
  unfold getSlice at h
  split at h
  · next sl hsl =>
    split at h
    · next hct =>
      simp only [Option.some.injEq] at h
      subst h
      obtain ⟨n, m, h1, h2, h3, h4, h5⟩ := slice_spec hsr hsl
      have key : ∀ i : ℕ, (tr.distance / v0 + (trueTime tr (n + i) - tr.sonset))
          - sampleTime tr v0 w.1 i = tr.start + n / tr.sr - w.1 := by
        intro i
        unfold trueTime sampleTime
        push_cast
        ring
      refine ⟨n, ?_, ?_⟩
      · intro i e hi
        have hi' : tr.data[n + i]? = some e := by
          rw [h2, List.getElem?_take] at hi
          split at hi
          · rwa [List.getElem?_drop] at hi
          · simp at hi
        refine ⟨hi', ?_, ?_⟩
        · intro hle
          rw [abs_sub_comm, key]
          exact h1.2 hle
        · intro hle
          rw [key]
          have hn : n = 0 := h1.1 hle
          have hst := h5 (by rintro e0; rw [e0] at hi; simp at hi)
          unfold checkTimes at hct
          simp only [decide_eq_true_eq] at hct
          rw [hst] at hct
          unfold trueTime at hct
          rw [hn] at hct ⊢
          simp only [Nat.cast_zero, zero_div, add_zero] at hct ⊢
          constructor
          · linarith
          · linarith [hct.1]
      · intro j e hj hj1 hj2
        obtain ⟨hl, -⟩ := List.getElem?_eq_some_iff.1 hj
        obtain ⟨ha, hb⟩ := h4 j hl hj1 hj2
        refine ⟨j - n, by omega, ?_⟩
        rw [h2, List.getElem?_take, if_pos (by omega), List.getElem?_drop,
          show n + (j - n) = j by omega]
        exact hj
    · simp at h
  · simp at h

namespace TimeAxisExample

/-- Data which start 0.4 s after the window `(0, 2)`, S-onset at 0.3 s. -/
noncomputable def lateTrace : Trace :=
  { event := "e", station := "s", start := 0.4, sr := 1, data := [1, 2, 1], origin := 0,
    ponset := 0.1, sonset := 0.3, distance := 1, noise := none }

theorem late_slice : getSlice lateTrace (0, 2) = some lateTrace := by
  have r1 : roundAway ((0 - 0.4) * 1) = 0 := by
    unfold roundAway
    rw [if_neg (by norm_num), neg_eq_zero, Int.floor_eq_iff]
    norm_num
  have r2 : roundAway ((2 - 0.4) * 1) = 2 := by
    unfold roundAway
    rw [if_pos (by norm_num), Int.floor_eq_iff]
    norm_num
  have e1 : lateTrace.ltrim 0 = lateTrace := by
    unfold Trace.ltrim lateTrace
    simp only [r1]
    norm_num
  have e2 : lateTrace.rtrim 2 = lateTrace := by
    unfold Trace.rtrim lateTrace
    simp only [r2]
    norm_num
  have e3 : lateTrace.slice 0 2 = .ok lateTrace := by
    unfold Trace.slice
    rw [if_neg (by norm_num), e1, e2]
  have e4 : checkTimes lateTrace (0, 2) = true := by
    unfold checkTimes lateTrace Trace.stop
    norm_num
  unfold getSlice
  simp only [e3, e4, if_true]

end TimeAxisExample

open TimeAxisExample in
/-- **C20** (counterexample to the full claim): data which start less than 0.5 s after the window are
accepted, and their samples get times which are too early.  Here the first sample is after the
S-onset, but is put before the arrival of the direct wave. -/
theorem C20_counterexample : ∃ (tr esl : Trace) (w : ℝ × ℝ) (v0 : ℝ), 0 < tr.sr ∧ 0 < v0 ∧
    getSlice tr w = some esl ∧ esl.data = tr.data ∧ esl.data ≠ [] ∧
    tr.sonset ≤ trueTime tr 0 ∧ ¬ tr.distance ≤ v0 * sampleTime tr v0 w.1 0 := by
  refine ⟨lateTrace, lateTrace, (0, 2), 1, by norm_num [lateTrace], by norm_num, late_slice, rfl,
    by simp [lateTrace], by norm_num [lateTrace, trueTime], by norm_num [lateTrace, sampleTime]⟩

namespace TimeAxisExample

theorem roundAway_natCast (n : ℕ) : roundAway (n : ℝ) = n := by
  unfold roundAway
  rw [if_pos (by positivity), Int.floor_eq_iff]
  push_cast
  constructor <;> linarith

/-- Slices on sample times of a trace with start 0 and sampling rate 1. -/
theorem slice_int {tr : Trace} (h0 : tr.start = 0) (hsr : tr.sr = 1) {a b : ℕ} (hab : a ≤ b)
    (hb : b < tr.data.length) :
    getSlice tr (a, b) = some { tr with start := a, data := (tr.data.drop a).take (b - a + 1) } := by
  have e1 : tr.ltrim a = { tr with start := a, data := tr.data.drop a } := by
    unfold Trace.ltrim
    simp only [h0, hsr, sub_zero, mul_one, roundAway_natCast, zero_add, div_one]
    by_cases ha : a = 0
    · subst ha
      simp
      cases tr
      simp at h0 hsr
      simp [h0, hsr]
    · rw [if_pos (by omega)]
      simp
  have hba : ((b : ℝ) - a) = ((b - a : ℕ) : ℝ) := by push_cast [hab]; ring
  have e2 : Trace.rtrim { tr with start := (a : ℝ), data := tr.data.drop a } b =
      { tr with start := a, data := (tr.data.drop a).take (b - a + 1) } := by
    unfold Trace.rtrim
    simp only [hsr, mul_one, hba, roundAway_natCast, List.length_drop]
    by_cases hd : (0 : ℤ) ≤ ((b - a : ℕ) : ℤ) - ((tr.data.length - a : ℕ) : ℤ) + 1
    · rw [if_pos hd]
      have : tr.data.length - a ≤ b - a + 1 := by omega
      rw [List.take_of_length_le (by rw [List.length_drop]; exact this)]
    · rw [if_neg hd, if_neg (by rw [not_lt]; exact_mod_cast hab)]
      congr 2
      omega
  have e3 : tr.slice a b = .ok { tr with start := (a : ℝ), data := (tr.data.drop a).take (b - a + 1) } := by
    unfold Trace.slice
    rw [if_neg (by rw [not_lt]; exact_mod_cast hab), e1, e2]
  unfold getSlice
  simp only [e3]
  rw [if_pos]
  unfold checkTimes Trace.stop
  simp only [hsr, div_one, List.length_take, List.length_drop, decide_eq_true_eq]
  have : min (b - a + 1) (tr.data.length - a) - 1 = b - a := by omega
  rw [this, ← hba]
  norm_num

/-- An envelope with S-onset at 1 s. -/
noncomputable def exTrace (st : String) : Trace :=
  { event := "e", station := st, start := 0, sr := 1, data := [0, 4, 4, 2, 1, 1], origin := 0,
    ponset := 0.5, sonset := 1, distance := 1, noise := none }

/-- Bulk window from 1 s to 2 s, coda window from 3 s to 4 s. -/
noncomputable def exCfg : WCfg :=
  { freqBand := (0.1, 0.2), rho0 := 1, noiseFunc := fun l => l.headD 0
    v0 := some 1
    bulkWindow := some (.one "OT+1s".toList, .one "OT+2s".toList)
    codaWindow := (.one "OT+3s".toList, .one "OT+4s".toList) }

/-- A parser for the numbers in `exCfg`. -/
noncomputable def exFloat : PyStr → Option ℝ := fun s =>
  if s = "+1".toList then some 1 else if s = "+2".toList then some 2
  else if s = "+3".toList then some 3 else if s = "+4".toList then some 4 else none

noncomputable def exLib : Lib :=
  { float := exFloat, hilbert := fun l => l, filt := fun _ _ l => l, width := fun _ _ => 1 }

theorem ex_time {tr : Trace} (hot : tr.origin = 0) {s num : PyStr} {x : ℝ} (st : Option ℝ)
    (hs : lower s = "ot".toList ++ num ++ "s".toList) (hx : exFloat num = some x) :
    time2utc exFloat s tr st = .ok x := by
  have hne : ¬ ∃ p, lower s = p ++ "snr".toList := by
    rintro ⟨p, hp⟩
    have h1 : lower s = (p ++ ['s', 'n']) ++ ['r'] := by rw [hp]; simp
    exact absurd (getLast_eq h1 hs) (by decide)
  exact ((C31_time_strings (by simp [exFloat]) tr s st hne).1 x).2
    ⟨num, x, hx, Or.inl ⟨hs, by rw [hot]; ring⟩⟩

theorem ex_tw {tr : Trace} (hot : tr.origin = 0) {s s' num num' : PyStr} {x x' : ℝ}
    (hs : lower s = "ot".toList ++ num ++ "s".toList) (hx : exFloat num = some x)
    (hs' : lower s' = "ot".toList ++ num' ++ "s".toList) (hx' : exFloat num' = some x') :
    tw2utc exFloat (.one s, .one s') tr = .ok (x, x') := by
  unfold tw2utc twStart twEnd
  simp only [ex_time hot _ hs hx, ex_time hot _ hs' hx', bind, Except.bind, pure, Except.pure]

/-- The windows of the example. -/
noncomputable def exPair (st : String) : PairData :=
  { event := "e", station := st, distance := 1, coda := [(3, 2), (4, 1)],
    bulkTime := 1.5, bulkEnergy := 4, bulkWeight := 2, bulkStart := 1, bulkEnd := 2 }

theorem ex_coda (st : String) : getSlice (exTrace st) (3, 4) =
    some { exTrace st with start := 3, data := [2, 1] } := by
  have := slice_int (tr := exTrace st) rfl rfl (a := 3) (b := 4) (by norm_num) (by simp [exTrace])
  push_cast at this
  rw [this]
  simp [exTrace]

theorem ex_bulk (st : String) : getSlice (exTrace st) (1, 2) =
    some { exTrace st with start := 1, data := [4, 4] } := by
  have := slice_int (tr := exTrace st) rfl rfl (a := 1) (b := 2) (by norm_num) (by simp [exTrace])
  push_cast at this
  rw [this]
  simp [exTrace]

theorem ex_accepts (st : String) : Accepts exLib exCfg 1 (exTrace st) (exPair st) := by
  refine ⟨rfl, rfl, rfl, ⟨exTrace st, (3, 4), _, rfl, ⟨(3, 4), ?_, ?_, rfl⟩, ?_, ex_coda st, ?_⟩, ?_, ?_⟩
  · exact ex_tw rfl (num := "+3".toList) (num' := "+4".toList) (by decide) (by simp [exFloat])
      (by decide) (by simp [exFloat])
  · norm_num [exCfg]
  · intro mw h; simp [exCfg] at h
  · simp [exPair, sampleTime, exTrace]
    norm_num
  · intro bw hbw
    simp only [exCfg, Option.some.injEq] at hbw
    subst hbw
    refine ⟨(1, 2), _, 2, ?_, ex_bulk st, ?_, ?_, ?_, ?_, ?_, ?_, ?_⟩
    · exact ex_tw rfl (num := "+1".toList) (num' := "+2".toList) (by decide) (by simp [exFloat])
        (by decide) (by simp [exFloat])
    · norm_num
    · norm_num [exPair, InvertFb.mean]
    · norm_num [exPair, sampleTime, exTrace]
    · norm_num [exPair, sampleTime, exTrace]
    · norm_num [exPair, sampleTime, exTrace]
    · norm_num [exPair, exCfg]
    · left; norm_num [exPair, exCfg]
  · intro h; simp [exCfg] at h

/-- A trace which is too short for the windows. -/
noncomputable def shortTrace (st : String) : Trace := { exTrace st with data := [0, 4] }

theorem ex_windows : ∃ st, windows exLib exCfg 1 [exTrace "A", shortTrace "B", exTrace "C"] = .ok st ∧
    st.energies = [("e", "A"), ("e", "C")] := by
  have hb : ∀ tr : Trace, tr.origin = 0 → tw2utc exFloat (.one "OT+1s".toList, .one "OT+2s".toList) tr
      = .ok (1, 2) := fun tr h => ex_tw h (num := "+1".toList) (num' := "+2".toList) (by decide)
      (by simp [exFloat]) (by decide) (by simp [exFloat])
  have hc : ∀ tr : Trace, tr.origin = 0 → tw2utc exFloat (.one "OT+3s".toList, .one "OT+4s".toList) tr
      = .ok (3, 4) := fun tr h => ex_tw h (num := "+3".toList) (num' := "+4".toList) (by decide)
      (by simp [exFloat]) (by decide) (by simp [exFloat])
  have hgood : ∀ (s : WState) (n : String), ∃ s', step exLib exCfg 1 s (exTrace n) = .ok s' ∧
      s'.energies = s.energies := by
    intro s n
    unfold step
    simp only [exCfg, exLib, hb (exTrace n) rfl, bind, Except.bind, ex_bulk]
    rw [if_neg (by simp), if_neg (by norm_num)]
    unfold codaPart smoothTrace cutCoda checkMaximum collect
    simp only [bind, Except.bind, hc (exTrace n) rfl, ex_coda]
    rw [if_neg (by norm_num)]
    simp only [weightUnit, pure, Except.pure]
    exact ⟨_, rfl, rfl⟩
  have hbad : ∀ (s : WState) (n : String), ∃ s', step exLib exCfg 1 s (shortTrace n) = .ok s' ∧
      s'.energies = s.energies.erase ("e", n) := by
    intro s n
    have hs : getSlice (shortTrace n) (1, 2) = none := by
      have r1 : roundAway ((1 - 0) * 1) = 1 := by
        have := roundAway_natCast 1; norm_num at this ⊢; exact this
      have e1 : (shortTrace n).ltrim 1 = { shortTrace n with start := 1, data := [4] } := by
        unfold Trace.ltrim shortTrace exTrace
        simp only [r1]
        norm_num
      have r2 : roundAway ((2 - 1) * 1) = 1 := by
        have := roundAway_natCast 1; norm_num at this ⊢; exact this
      have e2 : Trace.rtrim { shortTrace n with start := 1, data := [4] } 2 =
          { shortTrace n with start := 1, data := [4] } := by
        unfold Trace.rtrim shortTrace exTrace
        simp only [r2]
        norm_num
      have e3 : (shortTrace n).slice 1 2 = .ok { shortTrace n with start := 1, data := [4] } := by
        unfold Trace.slice
        rw [if_neg (by norm_num), e1, e2]
      unfold getSlice
      simp only [e3]
      rw [if_neg]
      unfold checkTimes Trace.stop shortTrace exTrace
      norm_num
    unfold step
    simp only [exCfg, exLib, hb (shortTrace n) rfl, bind, Except.bind, hs]
    exact ⟨_, rfl, rfl⟩
  unfold windows
  simp only [List.foldlM_cons, List.foldlM_nil]
  obtain ⟨s1, h1, h1'⟩ := hgood { energies := [("e", "A"), ("e", "B"), ("e", "C")] } "A"
  obtain ⟨s2, h2, h2'⟩ := hbad s1 "B"
  obtain ⟨s3, h3, h3'⟩ := hgood s2 "C"
  refine ⟨s3, ?_, ?_⟩
  · have e0 : ({ energies := List.map Trace.pair [exTrace "A", shortTrace "B", exTrace "C"] } : WState)
        = { energies := [("e", "A"), ("e", "B"), ("e", "C")] } := rfl
    rw [e0, h1]
    simp only [bind, Except.bind, h2, h3, pure, Except.pure]
  · rw [h3', h2', h1']
    decide

end TimeAxisExample

open TimeAxisExample in
example : ∃ st, windows exLib exCfg 1 [exTrace "A", shortTrace "B", exTrace "C"] = .ok st ∧
    st.tcoda.length = 2 := by
  obtain ⟨st, h, he⟩ := ex_windows
  obtain ⟨sel, _, _, _, h1, h2, _⟩ := C18_windows_belong_to_pairs
    (trs := [exTrace "A", shortTrace "B", exTrace "C"]) (by decide) h
  refine ⟨st, h, ?_⟩
  have : (sel.map Prod.snd).length = 2 := by
    have := congrArg List.length (he.symm.trans h1)
    simpa [bandOf] using this.symm
  rw [h2]
  simpa [bandOf] using this

/-! ## C21 -/

namespace Window

theorem weighted_mean_bounds {α : Type} (l : List α) (d t : α → ℝ) (lo hi : ℝ)
    (hd : ∀ a ∈ l, 0 ≤ d a) (ht : ∀ a ∈ l, lo ≤ t a ∧ t a ≤ hi) :
    lo * (l.map d).sum ≤ (l.map (fun a => d a * t a)).sum ∧
      (l.map (fun a => d a * t a)).sum ≤ hi * (l.map d).sum := by
  induction l with
  | nil => simp
  | cons a l ih =>
    obtain ⟨h1, h2⟩ := ih (fun b hb => hd b (by simp [hb])) (fun b hb => ht b (by simp [hb]))
    have h3 := hd a (by simp)
    have h4 := ht a (by simp)
    simp only [List.map_cons, List.sum_cons, mul_add]
    constructor
    · nlinarith [mul_le_mul_of_nonneg_left h4.1 h3]
    · nlinarith [mul_le_mul_of_nonneg_left h4.2 h3]

theorem getSlice_mem {tr esl : Trace} (hsr : 0 < tr.sr) {w : ℝ × ℝ} (h : getSlice tr w = some esl) :
    ∀ x ∈ esl.data, x ∈ tr.data := by
  intro x hx
  obtain ⟨n, h1, _⟩ := C20_time_axis_partial (v0 := 1) hsr h
  obtain ⟨i, hi, rfl⟩ := List.getElem_of_mem hx
  exact List.mem_of_getElem? (h1 i _ (List.getElem?_eq_getElem hi)).1

end Window

/-- **C21**: the balanced time of the bulk window of an accepted pair is between the times of its
first and last sample, and the bulk energy is positive and between two of its samples. -/
theorem C21_bulk_inside_window {lib : Lib} {cfg : WCfg} {v0 : ℝ} {tr : Trace} {p : PairData} {bw : Tw}
    (hb : cfg.bulkWindow = some bw) (h : Accepts lib cfg v0 tr p) (hsr : 0 < tr.sr)
    (hpos : ∀ x ∈ tr.data, 0 ≤ x) :
    ∃ w esl, tw2utc lib.float bw tr = .ok w ∧ getSlice tr w = some esl ∧
      p.bulkStart = sampleTime tr v0 w.1 0 ∧
      p.bulkEnd = sampleTime tr v0 w.1 (esl.data.length - 1) ∧
      p.bulkStart ≤ p.bulkTime ∧ p.bulkTime ≤ p.bulkEnd ∧ 0 < p.bulkEnergy ∧
      (∃ x ∈ esl.data, x ≤ p.bulkEnergy) ∧ (∃ x ∈ esl.data, p.bulkEnergy ≤ x) := by
  obtain ⟨_, _, _, _, h5, _⟩ := h
  obtain ⟨w, esl, unit, a1, a2, a3, a4, a5, a6, a7, _⟩ := h5 bw hb
  have hne : esl.data ≠ [] := by rintro e; rw [e] at a3; simp at a3
  have hlen : 0 < esl.data.length := List.length_pos_iff.2 hne
  have hpos' : ∀ x ∈ esl.data, 0 ≤ x := fun x hx => hpos x (getSlice_mem hsr a2 x hx)
  have hb2 := weighted_mean_bounds esl.data.zipIdx (fun ei => ei.1)
    (fun ei => sampleTime tr v0 w.1 ei.2) (sampleTime tr v0 w.1 0)
    (sampleTime tr v0 w.1 (esl.data.length - 1))
    (fun ei hei => hpos' _ (List.fst_mem_of_mem_zipIdx hei)) (by
      rintro ⟨e, i⟩ hei
      have hi : i < esl.data.length := by
        have := List.snd_lt_of_mem_zipIdx hei
        simpa using this
      unfold sampleTime
      have h1 : (0 : ℝ) ≤ i := by positivity
      have h2 : (i : ℝ) ≤ (esl.data.length - 1 : ℕ) := by exact_mod_cast (by omega)
      constructor
      · simp only [Nat.cast_zero]
        gcongr
      · simp only
        gcongr)
  have hsum : (esl.data.zipIdx.map (fun ei => ei.1)).sum = esl.data.sum := by
    rw [List.zipIdx_map_fst]
  rw [hsum] at hb2
  refine ⟨w, esl, a1, a2, a6, a7, ?_, ?_, ?_, ?_, ?_⟩
  · rw [a5, a6, le_div_iff₀ a3]; exact hb2.1
  · rw [a5, a7, div_le_iff₀ a3]; exact hb2.2
  · rw [a4]; unfold InvertFb.mean; positivity
  · by_contra hcon
    push Not at hcon
    have hlt : p.bulkEnergy * esl.data.length < esl.data.sum := by
      have : (esl.data.map (fun _ => p.bulkEnergy)).sum < (esl.data.map (fun x => x)).sum :=
        List.sum_lt_sum_of_ne_nil hne _ _ hcon
      simpa [mul_comm] using this
    rw [a4] at hlt
    unfold InvertFb.mean at hlt
    rw [div_mul_cancel₀ _ (by positivity)] at hlt
    exact lt_irrefl _ hlt
  · by_contra hcon
    push Not at hcon
    have hlt : esl.data.sum < p.bulkEnergy * esl.data.length := by
      have : (esl.data.map (fun x => x)).sum < (esl.data.map (fun _ => p.bulkEnergy)).sum :=
        List.sum_lt_sum_of_ne_nil hne _ _ hcon
      simpa [mul_comm] using this
    rw [a4] at hlt
    unfold InvertFb.mean at hlt
    rw [div_mul_cancel₀ _ (by positivity)] at hlt
    exact lt_irrefl _ hlt

/-- **C21** for the input of the inversion: the bulk value of each pair has a positive energy and a
time inside of the bulk window of the same pair. -/
theorem C21_all_pairs {lib : Lib} {cfg : WCfg} {v0 : ℝ} {trs : List Trace} {st : WState}
    (hb : cfg.bulkWindow.isSome) (hnd : (trs.map Trace.pair).Nodup)
    (hpos : ∀ tr ∈ trs, 0 < tr.sr ∧ ∀ x ∈ tr.data, 0 ≤ x) (h : windows lib cfg v0 trs = .ok st)
    {i : ℕ} {pair : String × String} (hi : st.energies[i]? = some pair) :
    ∃ t0 t1 t e, st.tbulkWindow.get? pair = some (t0, t1) ∧ st.tbulk[i]? = some t ∧
      st.Ebulk[i]? = some e ∧ t0 ≤ t ∧ t ≤ t1 ∧ 0 < e := by
  obtain ⟨bw, hbw⟩ := Option.isSome_iff_exists.1 hb
  obtain ⟨sel, b1, b2, -, b4, -, -, b5, b6, -, b7⟩ := C18_windows_belong_to_pairs hnd h
  rw [b4] at hi
  simp only [bandOf, hb, if_true] at hi b5 b6
  rw [List.map_map, List.getElem?_map] at hi
  obtain ⟨q, hq, rfl⟩ := Option.map_eq_some_iff.1 hi
  have hmem := List.mem_of_getElem? hq
  have htr : q.1 ∈ trs := b1.subset (List.mem_map_of_mem hmem)
  obtain ⟨w, esl, -, -, -, -, c1, c2, c3, -⟩ :=
    C21_bulk_inside_window hbw (b2 q hmem) (hpos _ htr).1 (hpos _ htr).2
  refine ⟨q.2.bulkStart, q.2.bulkEnd, q.2.bulkTime, q.2.bulkEnergy, (b7 q hmem).2 hb, ?_, ?_, c1, c2, c3⟩
  · rw [b5, List.map_map, List.getElem?_map, hq]; rfl
  · rw [b6, List.map_map, List.getElem?_map, hq]; rfl

end Qopen
