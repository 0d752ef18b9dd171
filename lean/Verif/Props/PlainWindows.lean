import Verif.Props.TimeAxis
import Verif.Props.LocalMin
import Verif.Props.Smooth
import Verif.Props.Windows

/-!
# Which pairs and which data enter the inversion: C134

`PlainAccepts` is written in terms of samples and their times only.  The times to which the windows of
the configuration resolve are described in C30-C32.
-/

namespace Qopen

open Real Util Tr Energy Spec InvertFb Window

namespace Spec

/-- Sample `j` belongs to the window `w`: its time is inside the window, up to half a sampling
interval. -/
def InWindow (tr : Trace) (w : ℝ × ℝ) (j : ℕ) : Prop :=
  w.1 - 1 / 2 / tr.sr < trueTime tr j ∧ trueTime tr j ≤ w.2 + 1 / 2 / tr.sr

/-- `d` are the samples of the trace inside the window `w`, the first of them is sample `n`.  The
samples cover the window up to half a second at both ends. -/
structure WindowData (tr : Trace) (w : ℝ × ℝ) (n : ℕ) (d : List ℝ) : Prop where
  order : w.1 ≤ w.2
  some_data : d ≠ []
  values : ∀ (i : ℕ) x, d[i]? = some x → tr.data[n + i]? = some x
  inside : ∀ j, n ≤ j ∧ j < n + d.length ↔ j < tr.data.length ∧ InWindow tr w j
  first : trueTime tr n < w.1 + 0.5
  last : w.2 - 0.5 < trueTime tr (n + d.length - 1)

/-- Shapes of the smoothing windows, as documented by numpy. -/
noncomputable def windowShape : Util.Window → ℕ → ℕ → ℝ
  | .flat, _, _ => 1
  | .hanning, M, k => sin (π * k / (M - 1)) ^ 2
  | .hamming, M, k => 0.54 - 0.46 * cos (2 * π * k / (M - 1))
  | .bartlett, M, k => 1 - |2 * (k : ℝ) / ((M : ℝ) - 1) - 1|
  | .blackman, M, k => 0.42 - 0.5 * cos (2 * π * k / (M - 1)) + 0.08 * cos (4 * π * k / (M - 1))
  | .other, _, _ => 0

/-- `ω` are the weights of the smoothing windows: of the documented shape, with sum one. -/
def WindowWeights (ω : Util.Window → ℕ → ℕ → ℝ) : Prop :=
  ∀ win M, win ≠ .other → 3 ≤ M → IsWeights (ω win M) M ∧
    ∀ k < M, ω win M k = windowShape win M k / ∑ i ∈ Finset.range M, windowShape win M i

/-- `y` are the data `x` smoothed over `s` seconds: each sample is replaced by the weighted average
over the `M` samples around it, `M` is the integer next to `s` times the sampling rate.  Nothing is
done for less than three samples; there have to be at least `M` samples. -/
def SmoothedOver (ω : Util.Window → ℕ → ℕ → ℝ) (sr : ℝ) (win : Util.Window) (b : Border) (s : ℝ)
    (x y : List ℝ) : Prop :=
  ∃ M : ℤ, NearestInt (sr * s) M ∧ M ≤ x.length ∧ (M < 3 → y = x) ∧
    (3 ≤ M → win ≠ .other ∧ y.length = x.length ∧
      ∀ j < x.length, y[j]? = some (smoothedAt (ω win M.toNat) M.toNat b x j))

/-- Smoothing as configured; `None` and 0 mean no smoothing. -/
def Smoothed (ω : Util.Window → ℕ → ℕ → ℝ) (sr : ℝ) (win : Util.Window) (b : Border) (opt : Option ℝ)
    (x y : List ℝ) : Prop :=
  ((opt = none ∨ opt = some 0) ∧ y = x) ∨
  ∃ s, opt = some s ∧ s ≠ 0 ∧ SmoothedOver ω sr win b s x y

/-- `w` is the window `w0`, shortened by `cut_coda`: the data of the window, widened by half of the
smoothing length on each side, are smoothed (with continued borders; they are left as they are if this
is not possible).  At the first local maximum which exceeds `ratio` times the lowest local minimum
before it, the window is cut at this minimum. -/
def CutAt (ω : Util.Window → ℕ → ℕ → ℝ) (defaultWindow : Util.Window) (c : CutCoda) (tr : Trace)
    (w0 w : ℝ × ℝ) : Prop :=
  ∃ n d d', WindowData tr (w0.1 - c.smooth.getD 0 / 2, w0.2 + c.smooth.getD 0 / 2) n d ∧
    (Smoothed ω tr.sr (c.window.getD defaultWindow) .clip c.smooth d d' ∨
      (∀ y, ¬ Smoothed ω tr.sr (c.window.getD defaultWindow) .clip c.smooth d y) ∧ d' = d) ∧
    ((∃ ma mi, (∃ i, LocMin d' i) ∧ Exceeds d' c.ratio ma mi ∧
        (∀ ma' < ma, ∀ mi', ¬ Exceeds d' c.ratio ma' mi') ∧
        w.2 = trueTime tr (n + mi) ∧ w.1 = min w0.1 w.2) ∨
      (((∀ i, ¬ LocMin d' i) ∨ ∀ ma mi, ¬ Exceeds d' c.ratio ma mi) ∧ w = w0))

/-- `w` is the coda window; it is long enough before and after the cut. -/
def PlainCodaWindow (ω : Util.Window → ℕ → ℕ → ℝ) (lib : Lib) (cfg : WCfg) (tr : Trace)
    (w : ℝ × ℝ) : Prop :=
  ∃ w0, tw2utc lib.float cfg.codaWindow tr = .ok w0 ∧ cfg.skipCoda ≤ w0.2 - w0.1 ∧
    (cfg.cutCoda = none → w = w0) ∧
    ∀ c, cfg.cutCoda = some c → CutAt ω cfg.smoothWindow c tr w0 w ∧ cfg.skipCoda ≤ w.2 - w.1

/-- The (first) largest sample of the trace lies in the window of `skip.maximum`. -/
def PlainMaximum (lib : Lib) (cfg : WCfg) (tr : Trace) : Prop :=
  ∀ mwin, cfg.skipMaximum = some mwin → ∃ mw i x, tw2utc lib.float mwin tr = .ok mw ∧
    tr.data[i]? = some x ∧ (∀ j y, tr.data[j]? = some y → y ≤ x ∧ (j < i → y < x)) ∧
    mw.1 < trueTime tr i ∧ trueTime tr i < mw.2

/-- The bulk values in `p`: mean energy in the bulk window, time of the centre of the energy, weight in
the chosen unit (`nc` is the number of samples in the coda window), first and last time. -/
def PlainBulk (lib : Lib) (cfg : WCfg) (v0 : ℝ) (tr : Trace) (bw : Tw) (nc : ℕ) (p : PairData) : Prop :=
  ∃ w n d, tw2utc lib.float bw tr = .ok w ∧ WindowData tr w n d ∧ 0 < d.sum ∧
    p.bulkEnergy = d.sum / d.length ∧
    p.bulkTime = (∑ i ∈ Finset.range d.length, d.getD i 0 * sampleTime tr v0 w.1 i) / d.sum ∧
    p.bulkStart = sampleTime tr v0 w.1 0 ∧
    p.bulkEnd = sampleTime tr v0 w.1 (d.length - 1) ∧
    ((cfg.weight.2 = .codawindow ∧ p.bulkWeight = cfg.weight.1 * nc) ∨
     (cfg.weight.2 = .bulkwindow ∧ p.bulkWeight = cfg.weight.1 * d.length) ∨
     (cfg.weight.2 = .samples ∧ p.bulkWeight = cfg.weight.1))

/-- The trace passes all checks and `p` are its data: the samples of the smoothed envelope in the coda
window with their times, and the values of the bulk window of the envelope before smoothing. -/
def PlainAccepts (ω : Util.Window → ℕ → ℕ → ℝ) (lib : Lib) (cfg : WCfg) (v0 : ℝ) (tr : Trace)
    (p : PairData) : Prop :=
  p.event = tr.event ∧ p.station = tr.station ∧ p.distance = tr.distance ∧
  (∃ y w n d, Smoothed ω tr.sr cfg.smoothWindow .zeros cfg.smooth tr.data y ∧
    PlainCodaWindow ω lib cfg { tr with data := y } w ∧ PlainMaximum lib cfg { tr with data := y } ∧
    WindowData { tr with data := y } w n d ∧ p.coda.length = d.length ∧
    ∀ (i : ℕ) x, d[i]? = some x → p.coda[i]? = some (sampleTime tr v0 w.1 i, x)) ∧
  (∀ bw, cfg.bulkWindow = some bw → PlainBulk lib cfg v0 tr bw p.coda.length p) ∧
  (cfg.bulkWindow = none → p.bulkTime = 0 ∧ p.bulkEnergy = 0 ∧ p.bulkWeight = 0 ∧
    p.bulkStart = 0 ∧ p.bulkEnd = 0)

end Spec

namespace Plain

/-! ## Slices -/

theorem lt_roundAway_iff {x : ℝ} (j : ℕ) : (j : ℤ) < roundAway x ↔ (j : ℝ) + 1 / 2 ≤ x := by
  unfold roundAway
  split
  · rw [← Int.add_one_le_iff, Int.le_floor]
    push_cast
    constructor <;> intro h <;> linarith
  · next hx =>
    have h0 : (0 : ℤ) ≤ ⌊-x + 1 / 2⌋ := Int.floor_nonneg.2 (by linarith [not_le.1 hx])
    constructor
    · intro h; omega
    · intro h
      have : (0 : ℝ) ≤ j := by positivity
      exact absurd hx (not_not.2 (by linarith))

theorem ltrim_exact (tr : Trace) (hsr : 0 < tr.sr) (t : ℝ) :
    ∃ n : ℕ, (tr.ltrim t).data = tr.data.drop n ∧ (tr.ltrim t).start = trueTime tr n ∧
      (tr.ltrim t).sr = tr.sr ∧ ∀ j, n ≤ j ↔ t - 1 / 2 / tr.sr < trueTime tr j := by
  have key : ∀ j : ℕ, (roundAway ((t - tr.start) * tr.sr)).toNat ≤ j ↔
      t - 1 / 2 / tr.sr < trueTime tr j := by
    intro j
    have h := lt_roundAway_iff (x := (t - tr.start) * tr.sr) j
    have e : (roundAway ((t - tr.start) * tr.sr)).toNat ≤ j ↔
        ¬ (j : ℤ) < roundAway ((t - tr.start) * tr.sr) := by omega
    rw [e, h, not_le]
    unfold trueTime
    constructor
    · intro h
      have : (t - tr.start) < (j + 1 / 2) / tr.sr := by rwa [lt_div_iff₀ hsr]
      rw [add_div] at this
      linarith
    · intro h
      rw [← lt_div_iff₀ hsr, add_div]
      linarith
  refine ⟨(roundAway ((t - tr.start) * tr.sr)).toNat, ?_, ?_, ?_, key⟩
  · unfold Trace.ltrim
    simp only
    split
    · rfl
    · next h => rw [Int.toNat_eq_zero.2 (by omega)]; simp
  · unfold Trace.ltrim trueTime
    simp only
    split
    · next h =>
      have : (((roundAway ((t - tr.start) * tr.sr)).toNat : ℕ) : ℝ)
          = ((roundAway ((t - tr.start) * tr.sr) : ℤ) : ℝ) := by
        rw [← Int.cast_natCast, Int.toNat_of_nonneg h.le]
      rw [this]
    · next h => rw [Int.toNat_eq_zero.2 (by omega)]; simp
  · unfold Trace.ltrim
    simp only
    split <;> rfl

theorem le_time_iff {tr : Trace} (hsr : 0 < tr.sr) {x : ℝ} {n j : ℕ} (hj : n ≤ j) :
    trueTime tr j ≤ x + 1 / 2 / tr.sr ↔
      (((j - n : ℕ) : ℤ) : ℝ) ≤ (x - trueTime tr n) * tr.sr + 1 / 2 := by
  unfold trueTime
  have e : (((j - n : ℕ) : ℤ) : ℝ) = (j : ℝ) - n := by push_cast [hj]; ring
  rw [e]
  constructor
  · intro h1
    have := mul_le_mul_of_nonneg_right h1 hsr.le
    field_simp at this
    field_simp
    nlinarith
  · intro h1
    have : ((j : ℝ) - n) / tr.sr ≤ ((x - (tr.start + n / tr.sr)) * tr.sr + 1 / 2) / tr.sr := by
      gcongr
    rw [sub_div, add_div, mul_div_assoc, div_self hsr.ne'] at this
    linarith

/-- The slice of a window which does not end before its first sample. -/
theorem slice_exact {tr : Trace} (hsr : 0 < tr.sr) {w : ℝ × ℝ} (hw : w.1 ≤ w.2) :
    ∃ (n : ℕ) (sl : Trace), tr.slice w.1 w.2 = .ok sl ∧
      (∀ j, n ≤ j ↔ w.1 - 1 / 2 / tr.sr < trueTime tr j) ∧
      (sl.data ≠ [] ∨ trueTime tr n ≤ w.2 → sl.start = trueTime tr n ∧ sl.sr = tr.sr ∧
        ∃ m, sl.data = (tr.data.drop n).take m ∧
          ∀ j, n ≤ j → j < tr.data.length → (j < n + m ↔ trueTime tr j ≤ w.2 + 1 / 2 / tr.sr)) := by
  obtain ⟨n, h1, h2, h3, h4⟩ := ltrim_exact tr hsr w.1
  refine ⟨n, (tr.ltrim w.1).rtrim w.2, ?_, h4, ?_⟩
  · unfold Trace.slice
    rw [if_neg (not_lt.2 hw)]
  intro hne
  have hmem := fun j hj => le_time_iff (tr := tr) hsr (x := w.2) (n := n) (j := j) hj
  have hrd := roundAway_le_add ((w.2 - trueTime tr n) * tr.sr)
  revert hne
  unfold Trace.rtrim
  simp only [h1, h2, h3]
  by_cases hd0 : 0 ≤ roundAway ((w.2 - trueTime tr n) * tr.sr) - ((tr.data.drop n).length : ℤ) + 1
  · rw [if_pos hd0]
    intro _
    refine ⟨h2, h3, (tr.data.drop n).length, by rw [h1]; simp, ?_⟩
    intro j hj hl
    rw [hmem j hj, List.length_drop]
    rw [List.length_drop] at hd0
    refine ⟨fun _ => le_trans ?_ hrd, fun _ => by omega⟩
    have : ((j - n : ℕ) : ℤ) ≤ roundAway ((w.2 - trueTime tr n) * tr.sr) := by omega
    exact_mod_cast this
  · rw [if_neg hd0]
    by_cases ht : w.2 < trueTime tr n
    · rw [if_pos ht]
      rintro (h | h)
      · simp at h
      · exact absurd ht (not_lt.2 h)
    · rw [if_neg ht]
      intro _
      have hx0 : 0 ≤ (w.2 - trueTime tr n) * tr.sr := mul_nonneg (by linarith [not_lt.1 ht]) hsr.le
      have hr0 := (roundAway_nonneg hx0).1
      refine ⟨rfl, rfl, (roundAway ((w.2 - trueTime tr n) * tr.sr) + 1).toNat, ?_, ?_⟩
      · simp only
        congr 1
        congr 1
        ring
      · intro j hj _
        rw [hmem j hj, ← le_roundAway_iff hx0]
        omega

theorem stop_eq {tr sl : Trace} {n : ℕ} (h1 : sl.start = trueTime tr n) (h2 : sl.sr = tr.sr)
    (h3 : sl.data ≠ []) : sl.stop = trueTime tr (n + sl.data.length - 1) := by
  have hl : 0 < sl.data.length := List.length_pos_iff.2 h3
  unfold Trace.stop
  rw [h1, h2]
  unfold trueTime
  rw [show n + sl.data.length - 1 = n + (sl.data.length - 1) by omega]
  push_cast
  ring

theorem take_drop_get {d : List ℝ} {n m i : ℕ} {x : ℝ} (h : ((d.drop n).take m)[i]? = some x) :
    d[n + i]? = some x := by
  rw [List.getElem?_take] at h
  split at h
  · rwa [List.getElem?_drop] at h
  · simp at h

/-- A window with data. -/
theorem windowData_of_slice {tr esl : Trace} (hsr : 0 < tr.sr) {w : ℝ × ℝ}
    (h : getSlice tr w = some esl) (hne : esl.data ≠ []) :
    ∃ n, WindowData tr w n esl.data ∧ esl.start = trueTime tr n ∧ esl.sr = tr.sr := by
  unfold getSlice at h
  split at h
  · next sl hsl =>
    split at h
    · next hct =>
      simp only [Option.some.injEq] at h
      subst h
      have hw : w.1 ≤ w.2 := by
        unfold Trace.slice at hsl
        split at hsl
        · simp at hsl
        · next h => exact not_lt.1 h
      obtain ⟨n, sl', e, h1, h2⟩ := slice_exact (tr := tr) hsr hw
      rw [hsl] at e
      obtain rfl := Except.ok.inj e
      obtain ⟨h3, h4, m, h5, h6⟩ := h2 (Or.inl hne)
      have hl : 0 < sl.data.length := List.length_pos_iff.2 hne
      have hlen : sl.data.length = min m (tr.data.length - n) := by
        rw [h5, List.length_take, List.length_drop]
      unfold checkTimes at hct
      simp only [decide_eq_true_eq, gt_iff_lt] at hct
      rw [stop_eq h3 h4 hne, h3] at hct
      refine ⟨n, ⟨hw, hne, ?_, ?_, by linarith [hct.1], by linarith [hct.2]⟩, h3, h4⟩
      · intro i x hi
        rw [h5] at hi
        exact take_drop_get hi
      · intro j
        constructor
        · rintro ⟨a, b⟩
          have hj : j < tr.data.length := by omega
          exact ⟨hj, (h1 j).1 a, (h6 j a hj).1 (by omega)⟩
        · rintro ⟨a, b, c⟩
          have hj := (h1 j).2 b
          have := (h6 j hj a).2 c
          exact ⟨hj, by omega⟩
    · simp at h
  · simp at h

theorem windowData_unique {tr : Trace} {w : ℝ × ℝ} {n n' : ℕ} {d d' : List ℝ}
    (h : WindowData tr w n d) (h' : WindowData tr w n' d') : n = n' ∧ d = d' := by
  have hl : 0 < d.length := List.length_pos_iff.2 h.some_data
  have hl' : 0 < d'.length := List.length_pos_iff.2 h'.some_data
  have e : ∀ j, (n ≤ j ∧ j < n + d.length) ↔ (n' ≤ j ∧ j < n' + d'.length) :=
    fun j => (h.inside j).trans (h'.inside j).symm
  have e1 := (e n).1 ⟨le_rfl, by omega⟩
  have e2 := (e n').2 ⟨le_rfl, by omega⟩
  have e3 := (e (n + d.length - 1)).1 ⟨by omega, by omega⟩
  have e4 := (e (n' + d'.length - 1)).2 ⟨by omega, by omega⟩
  have hn : n = n' := by omega
  have hlen : d.length = d'.length := by omega
  refine ⟨hn, List.ext_getElem? fun i => ?_⟩
  subst hn
  by_cases hi : i < d.length
  · have h1 := h.values i d[i] (by simp)
    have h2 := h'.values i (d'[i]'(by omega)) (by simp)
    rw [h1] at h2
    rw [List.getElem?_eq_getElem hi, List.getElem?_eq_getElem (by omega)]
    exact h2
  · rw [List.getElem?_eq_none (by omega), List.getElem?_eq_none (by omega)]

/-- A window of at least one second (at a sampling rate of at least 0.5 Hz) gives data if and only if
the samples cover it up to half a second. -/
theorem getSlice_iff {tr : Trace} (hsr : 1 / 2 ≤ tr.sr) {w : ℝ × ℝ} (hw : 1 ≤ w.2 - w.1) (d : List ℝ)
    (st : ℝ) :
    (∃ esl, getSlice tr w = some esl ∧ esl.data = d ∧ esl.start = st ∧ esl.sr = tr.sr) ↔
      ∃ n, WindowData tr w n d ∧ st = trueTime tr n := by
  have hsr0 : 0 < tr.sr := by linarith
  constructor
  · rintro ⟨esl, h, rfl, rfl, -⟩
    have hne : esl.data ≠ [] := by
      intro he
      unfold getSlice at h
      split at h
      · split at h
        · next hct =>
          simp only [Option.some.injEq] at h
          subst h
          unfold checkTimes Trace.stop at hct
          simp only [decide_eq_true_eq, gt_iff_lt, he, List.length_nil] at hct
          norm_num at hct
          linarith [hct.1, hct.2]
        · simp at h
      · simp at h
    obtain ⟨n, h1, h2, -⟩ := windowData_of_slice hsr0 h hne
    exact ⟨n, h1, h2⟩
  · rintro ⟨n, hd, rfl⟩
    have hl : 0 < d.length := List.length_pos_iff.2 hd.some_data
    obtain ⟨k, sl, e, h1, h2⟩ := slice_exact (tr := tr) hsr0 hd.order
    have hnk : k ≤ n := by
      have := (hd.inside n).1 ⟨le_rfl, by omega⟩
      exact (h1 n).2 this.2.1
    have hkt : trueTime tr k ≤ w.2 := by
      have hm : trueTime tr k ≤ trueTime tr n := by
        unfold trueTime
        have : (k : ℝ) ≤ n := by exact_mod_cast hnk
        gcongr
      linarith [hd.first]
    obtain ⟨h3, h4, m, h5, h6⟩ := h2 (Or.inr hkt)
    have hhalf : 1 / 2 / tr.sr ≤ 1 := by rw [div_le_iff₀ hsr0]; linarith
    have hkn : k = n := by
      have hk0 : k < tr.data.length := lt_of_le_of_lt hnk ((hd.inside n).1 ⟨le_rfl, by omega⟩).1
      have hh : 0 < 1 / 2 / tr.sr := by positivity
      have := (hd.inside k).2 ⟨hk0, (h1 k).1 le_rfl, by linarith⟩
      omega
    subst hkn
    have hlen : sl.data.length = min m (tr.data.length - k) := by
      rw [h5, List.length_take, List.length_drop]
    have hrange : ∀ j, (k ≤ j ∧ j < k + d.length) ↔ (k ≤ j ∧ j < k + sl.data.length) := by
      intro j
      rw [hd.inside j, hlen]
      constructor
      · rintro ⟨a, b, c⟩
        have hj := (h1 j).2 b
        have := (h6 j hj a).2 c
        exact ⟨hj, by omega⟩
      · rintro ⟨a, b⟩
        have hj : j < tr.data.length := by omega
        exact ⟨hj, (h1 j).1 a, (h6 j a hj).1 (by omega)⟩
    have hlen' : d.length = sl.data.length := by
      have a := (hrange (k + d.length - 1)).1 ⟨by omega, by omega⟩
      have b := (hrange (k + sl.data.length - 1)).2 ⟨by omega, by omega⟩
      omega
    have hdata : sl.data = d := by
      refine List.ext_getElem? fun i => ?_
      by_cases hi : i < d.length
      · have e1 := hd.values i d[i] (by simp)
        have hi' : i < sl.data.length := by omega
        have e2 : sl.data[i]? = some sl.data[i] := by simp
        have e3 : tr.data[k + i]? = some sl.data[i] := by
          refine take_drop_get (m := m) ?_
          rw [← h5]; exact e2
        rw [e1] at e3
        rw [e2, List.getElem?_eq_getElem hi]
        exact e3.symm
      · rw [List.getElem?_eq_none (by omega), List.getElem?_eq_none (by omega)]
    refine ⟨sl, ?_, hdata, h3, h4⟩
    unfold getSlice
    rw [e]
    simp only
    rw [if_pos]
    unfold checkTimes
    simp only [decide_eq_true_eq, gt_iff_lt]
    rw [stop_eq h3 h4 (hdata ▸ hd.some_data), h3, hdata]
    exact ⟨by linarith [hd.first], by linarith [hd.last]⟩

/-! ## Smoothing -/

theorem ωfun_shape (win : Util.Window) (M : ℕ) (hM : 3 ≤ M) (k : ℕ) :
    windowVal win M k = windowShape win M k := by
  have h1 : ((M : ℝ) - 1) ≠ 0 := by
    have : (3 : ℝ) ≤ M := by exact_mod_cast hM
    intro h; linarith
  have hpos : 0 < ((M : ℝ) - 1) := by
    have : (3 : ℝ) ≤ M := by exact_mod_cast hM
    linarith
  cases win with
  | flat => rfl
  | hamming => rfl
  | blackman => rfl
  | other => rfl
  | hanning =>
    simp only [windowVal, windowShape]
    rw [Real.sin_sq_eq_half_sub]
    rw [show 2 * (π * (k : ℝ) / ((M : ℝ) - 1)) = 2 * π * k / (M - 1) by ring]
    ring
  | bartlett =>
    simp only [windowVal, windowShape]
    have e : (k : ℝ) - ((M : ℝ) - 1) / 2 = (2 * (k : ℝ) / ((M : ℝ) - 1) - 1) * (((M : ℝ) - 1) / 2) := by
      field_simp
    rw [e, abs_mul, abs_of_pos (by positivity : 0 < ((M : ℝ) - 1) / 2)]
    field_simp

theorem windowWeights_ωfun : WindowWeights ωfun := by
  intro win M hw hM
  refine ⟨isWeights_ωfun win M hM hw, ?_⟩
  intro k _
  unfold ωfun
  rw [ωfun_shape win M hM k]
  congr 1
  rw [sum_range_list]
  exact Finset.sum_congr rfl (fun i _ => ωfun_shape win M hM i)

theorem smooth_iff (sr s : ℝ) (win : Util.Window) (b : Border) (hb : b ≠ .noBorder) (x y : List ℝ) :
    Util.smooth x (some (pyRound (sr * s))) win b = .ok y ↔ SmoothedOver ωfun sr win b s x y := by
  have hM : NearestInt (sr * s) (pyRound (sr * s)) := (pyRound_iff _ _).1 rfl
  constructor
  · intro h
    refine ⟨_, hM, ?_, ?_, ?_⟩
    · by_contra hlt
      rw [(C42_rejects x _ win b .valueError).2 ⟨rfl, Or.inl (by omega)⟩] at h
      simp at h
    · intro h3
      simp only [Util.smooth] at h
      split at h
      · simp at h
      · simpa using h.symm
    · intro h3
      have hw : win ≠ .other := by
        intro hw
        rw [(C42_rejects x _ win b .valueError).2 ⟨rfl, Or.inr ⟨h3, hw⟩⟩] at h
        simp at h
      refine ⟨hw, C42_same_length x y _ win b hb h, ?_⟩
      have e : pyRound (sr * s) = ((pyRound (sr * s)).toNat : ℤ) := by omega
      refine smooth_values win hw _ (by omega) x y b hb ?_
      rw [← e]; exact h
  · rintro ⟨M, h1, h2, h3, h4⟩
    obtain rfl : pyRound (sr * s) = M := (pyRound_iff _ _).2 h1
    cases hs : Util.smooth x (some (pyRound (sr * s))) win b with
    | error e =>
      obtain ⟨-, h | ⟨h, h'⟩⟩ := (C42_rejects x _ win b e).1 hs
      · omega
      · exact absurd h' (h4 h).1
    | ok z =>
      congr 1
      by_cases hlt : pyRound (sr * s) < 3
      · rw [h3 hlt]
        simp only [Util.smooth] at hs
        split at hs
        · simp at hs
        · simpa using hs.symm
      · obtain ⟨hw, hl, hv⟩ := h4 (by omega)
        have e : pyRound (sr * s) = ((pyRound (sr * s)).toNat : ℤ) := by omega
        have hz := smooth_values win hw (pyRound (sr * s)).toNat (by omega) x z b hb (by rw [← e]; exact hs)
        have hzl := C42_same_length x z _ win b hb hs
        refine List.ext_getElem? fun i => ?_
        by_cases hi : i < x.length
        · rw [hz i hi, hv i hi]
        · rw [List.getElem?_eq_none (by omega), List.getElem?_eq_none (by omega)]

theorem smoothTrace_iff (cfg : WCfg) (tr tr' : Trace) :
    smoothTrace cfg tr = .ok tr' ↔
      ∃ y, tr' = { tr with data := y } ∧
        Smoothed ωfun tr.sr cfg.smoothWindow .zeros cfg.smooth tr.data y := by
  unfold smoothTrace Smoothed
  cases hs : cfg.smooth with
  | none =>
    simp only [Except.ok.injEq, true_and, reduceCtorEq, false_and, exists_false, or_false]
    constructor
    · rintro rfl; exact ⟨_, rfl, rfl⟩
    · rintro ⟨y, rfl, rfl⟩; rfl
  | some s =>
    by_cases h0 : s = 0
    · simp only [h0, if_true, Except.ok.injEq, reduceCtorEq, false_or, true_and, Option.some.injEq]
      constructor
      · rintro rfl; exact ⟨_, rfl, Or.inl rfl⟩
      · rintro ⟨y, rfl, rfl | ⟨s, rfl, h, -⟩⟩
        · rfl
        · exact absurd rfl h
    · simp only [h0, if_false, Option.some.injEq, reduceCtorEq, false_or, false_and]
      constructor
      · intro h
        obtain ⟨d, h1, h2⟩ := bind_ok.1 h
        simp only [pure, Except.pure, Except.ok.injEq] at h2
        exact ⟨d, h2.symm, s, rfl, h0, (smooth_iff tr.sr s _ _ (by simp) _ _).1 h1⟩
      · rintro ⟨y, rfl, s', rfl, -, h⟩
        rw [← smooth_iff tr.sr _ _ _ (by simp)] at h
        rw [h]
        rfl

theorem smoothForCut_iff (tr : Trace) (opt : Option ℝ) (win : Util.Window) (y : List ℝ) :
    smoothForCut tr opt win = y ↔
      (Smoothed ωfun tr.sr win .clip opt tr.data y ∨
        (∀ z, ¬ Smoothed ωfun tr.sr win .clip opt tr.data z) ∧ y = tr.data) := by
  unfold smoothForCut Smoothed
  cases opt with
  | none =>
    simp [eq_comm]
  | some s =>
    by_cases h0 : s = 0
    · simp only [h0, if_true, reduceCtorEq, false_or, true_and, Option.some.injEq]
      constructor
      · rintro rfl; exact Or.inl (Or.inl rfl)
      · rintro ((rfl | ⟨s, rfl, h, -⟩) | ⟨h, rfl⟩)
        · rfl
        · exact absurd rfl h
        · rfl
    · have hS : ∀ z, ((some s = none ∨ some s = some 0) ∧ z = tr.data ∨
          ∃ s', some s = some s' ∧ s' ≠ 0 ∧ SmoothedOver ωfun tr.sr win .clip s' tr.data z) ↔
          Util.smooth tr.data (some (pyRound (s * tr.sr))) win .clip = .ok z := by
        intro z
        rw [mul_comm s, smooth_iff tr.sr s _ _ (by simp)]
        simp [h0]
      simp only [hS]
      rw [if_neg h0]
      cases Util.smooth tr.data (some (pyRound (s * tr.sr))) win .clip with
      | ok z => simp
      | error e => simp [eq_comm]

/-! ## The cut -/

theorem localMinimum_some {tr : Trace} {s : Option ℝ} {ratio : ℝ} {win : Util.Window} {t : ℝ}
    {d : List ℝ} (hd : smoothForCut tr s win = d) (h : localMinimum tr s ratio win = some t) :
    ∃ ma mi, (∃ i, LocMin d i) ∧ Exceeds d ratio ma mi ∧
      (∀ ma' < ma, ∀ mi', ¬ Exceeds d ratio ma' mi') ∧ t = tr.start + mi / tr.sr := by
  subst hd
  obtain ⟨ma, mi, h1, h2, h3⟩ := C33_cut_at_lowest_minimum h
  refine ⟨ma, mi, ?_, h1, h3, h2⟩
  by_contra hno
  unfold localMinimum at h
  simp only at h
  cases hm : argrelmin (smoothForCut tr s win) with
  | nil => rw [hm] at h; simp at h
  | cons m0 ms =>
    exact hno ⟨m0, mem_argrelmin.1 (by rw [hm]; simp)⟩

theorem localMinimum_none {tr : Trace} {s : Option ℝ} {ratio : ℝ} {win : Util.Window}
    {d : List ℝ} (hd : smoothForCut tr s win = d) (h : localMinimum tr s ratio win = none) :
    (∀ i, ¬ LocMin d i) ∨ ∀ ma mi, ¬ Exceeds d ratio ma mi := by
  subst hd
  by_cases hm : ∃ i, LocMin (smoothForCut tr s win) i
  · exact Or.inr (C33_no_cut_partial h hm)
  · exact Or.inl (fun i hi => hm ⟨i, hi⟩)

theorem seamWindow_eq (c : CutCoda) (w : ℝ × ℝ) :
    seamWindow c w = (w.1 - c.smooth.getD 0 / 2, w.2 + c.smooth.getD 0 / 2) := by
  unfold seamWindow
  cases c.smooth with
  | none => simp
  | some s =>
    by_cases h : s = 0
    · simp [h]
    · simp only [h, if_false, Option.getD_some, Prod.mk.injEq]
      constructor <;> ring

theorem cut_iff {cfg : WCfg} {c : CutCoda} {tr : Trace} {w0 w : ℝ × ℝ} (hsr : 1 / 2 ≤ tr.sr)
    (hw0 : 1 ≤ w0.2 - w0.1) (hs : 0 ≤ c.smooth.getD 0) :
    (∃ esl, getSlice tr (seamWindow c w0) = some esl ∧
      w = cutWindow w0 (localMinimum esl c.smooth c.ratio (c.window.getD cfg.smoothWindow))) ↔
    CutAt ωfun cfg.smoothWindow c tr w0 w := by
  have hlen : 1 ≤ (seamWindow c w0).2 - (seamWindow c w0).1 := by
    rw [seamWindow_eq]; simp only; linarith
  have hiff := getSlice_iff hsr hlen
  have hdet : ∀ esl n d', esl.start = trueTime tr n → esl.sr = tr.sr →
      smoothForCut esl c.smooth (c.window.getD cfg.smoothWindow) = d' →
      (w = cutWindow w0 (localMinimum esl c.smooth c.ratio (c.window.getD cfg.smoothWindow)) ↔
      ((∃ ma mi, (∃ i, LocMin d' i) ∧ Exceeds d' c.ratio ma mi ∧
        (∀ ma' < ma, ∀ mi', ¬ Exceeds d' c.ratio ma' mi') ∧
        w.2 = trueTime tr (n + mi) ∧ w.1 = min w0.1 w.2) ∨
      (((∀ i, ¬ LocMin d' i) ∨ ∀ ma mi, ¬ Exceeds d' c.ratio ma mi) ∧ w = w0))) := by
    intro esl n d' h1 h2 h3
    have htime : ∀ mi : ℕ, esl.start + mi / esl.sr = trueTime tr (n + mi) := by
      intro mi
      rw [h1, h2]
      unfold trueTime
      push_cast
      ring
    cases hl : localMinimum esl c.smooth c.ratio (c.window.getD cfg.smoothWindow) with
    | none =>
      have hn := localMinimum_none h3 hl
      simp only [cutWindow]
      constructor
      · rintro rfl; exact Or.inr ⟨hn, rfl⟩
      · rintro (⟨ma, mi, ⟨i, hi⟩, hx, -⟩ | ⟨-, h⟩)
        · rcases hn with hn | hn
          · exact absurd hi (hn i)
          · exact absurd hx (hn ma mi)
        · exact h
    | some t =>
      obtain ⟨ma, mi, k1, k2, k3, k4⟩ := localMinimum_some h3 hl
      rw [htime] at k4
      simp only [cutWindow]
      constructor
      · rintro rfl
        exact Or.inl ⟨ma, mi, k1, k2, k3, k4, rfl⟩
      · rintro (⟨ma', mi', -, l2, l3, l4, l5⟩ | ⟨hn | hn, -⟩)
        · have e1 : ma = ma' := by
            rcases lt_trichotomy ma ma' with h | h | h
            · exact absurd k2 (l3 ma h mi)
            · exact h
            · exact absurd l2 (k3 ma' h mi')
          subst e1
          have e2 : mi = mi' := lowest_unique k2.2.1 l2.2.1
          subst e2
          ext
          · rw [l5, l4, k4]
          · rw [l4, k4]
        · obtain ⟨i, hi⟩ := k1
          exact absurd hi (hn i)
        · exact absurd k2 (hn ma mi)
  constructor
  · rintro ⟨esl, h1, h2⟩
    have hes : esl.sr = tr.sr := by
      have hsr0 : 0 < tr.sr := by linarith
      unfold getSlice at h1
      split at h1
      · next sl hsl =>
        split at h1
        · simp only [Option.some.injEq] at h1
          subst h1
          unfold Trace.slice at hsl
          split at hsl
          · simp at hsl
          · simp only [Except.ok.injEq] at hsl
            rw [← hsl]
            obtain ⟨n, -, -, hh, -⟩ := ltrim_exact tr hsr0 (seamWindow c w0).1
            rw [← hh]
            unfold Trace.rtrim
            simp only
            split
            · rfl
            · split <;> rfl
        · simp at h1
      · simp at h1
    obtain ⟨n, hwd, hst⟩ := (hiff esl.data esl.start).1 ⟨esl, h1, rfl, rfl, hes⟩
    refine ⟨n, esl.data, smoothForCut esl c.smooth (c.window.getD cfg.smoothWindow), ?_, ?_, ?_⟩
    · rw [← seamWindow_eq]; exact hwd
    · have := (smoothForCut_iff esl c.smooth (c.window.getD cfg.smoothWindow) _).1 rfl
      rwa [hes] at this
    · exact (hdet esl n _ hst hes rfl).1 h2
  · rintro ⟨n, d, d', h1, h2, h3⟩
    rw [← seamWindow_eq] at h1
    obtain ⟨esl, e1, e2, e3, e4⟩ := (hiff d (trueTime tr n)).2 ⟨n, h1, rfl⟩
    refine ⟨esl, e1, (hdet esl n d' e3 e4 ?_).2 h3⟩
    rw [smoothForCut_iff, e2, e4]
    exact h2

theorem codaWindow_iff {lib : Lib} {cfg : WCfg} {tr : Trace} {w : ℝ × ℝ} (hsr : 1 / 2 ≤ tr.sr)
    (hskip : 1 ≤ cfg.skipCoda)
    (hs : ∀ c, cfg.cutCoda = some c → 0 ≤ c.smooth.getD 0) :
    CodaWindow lib cfg tr w ↔ PlainCodaWindow ωfun lib cfg tr w := by
  unfold CodaWindow PlainCodaWindow
  refine exists_congr fun w0 => and_congr_right fun _ => and_congr_right fun hlen => ?_
  cases hc : cfg.cutCoda with
  | none => simp
  | some c =>
    simp only [reduceCtorEq, false_implies, true_and, Option.some.injEq, forall_eq']
    rw [← cut_iff hsr (by linarith) (hs c hc), and_comm]

/-! ## The maximum -/

theorem argmax_iff (d : List ℝ) (i : ℕ) :
    argmax d = .ok i ↔ ∃ x, d[i]? = some x ∧ ∀ j y, d[j]? = some y → y ≤ x ∧ (j < i → y < x) := by
  have hmax : ∀ (l : List ℝ) (a : ℝ), (∀ y ∈ a :: l, y ≤ l.foldl max a) ∧ l.foldl max a ∈ a :: l := by
    intro l
    induction l with
    | nil => intro a; simp
    | cons b l ih =>
      intro a
      obtain ⟨h1, h2⟩ := ih (max a b)
      simp only [List.foldl_cons]
      constructor
      · intro y hy
        simp only [List.mem_cons] at hy
        rcases hy with rfl | rfl | hy
        · exact (le_max_left y b).trans (h1 (max y b) (by simp))
        · exact (le_max_right a y).trans (h1 (max a y) (by simp))
        · exact h1 y (by simp [hy])
      · simp only [List.mem_cons] at h2 ⊢
        rcases h2 with h2 | h2
        · rcases max_choice a b with h | h
          · rw [h] at h2 ⊢; exact Or.inl h2
          · rw [h] at h2 ⊢; exact Or.inr (Or.inl h2)
        · exact Or.inr (Or.inr h2)
  cases d with
  | nil => simp [argmax]
  | cons a l =>
    obtain ⟨h1, h2⟩ := hmax l a
    simp only [argmax, Except.ok.injEq]
    generalize l.foldl max a = m at h1 h2
    generalize a :: l = d at h1 h2
    have hlt : d.idxOf m < d.length := List.idxOf_lt_length_iff.2 h2
    have hget : d[d.idxOf m]? = some m := by
      rw [List.getElem?_eq_getElem hlt]; simp
    have hspec : ∀ j y, d[j]? = some y → y ≤ m ∧ (j < d.idxOf m → y < m) := by
      intro j y hy
      obtain ⟨hl, rfl⟩ := List.getElem?_eq_some_iff.1 hy
      refine ⟨h1 _ (List.getElem_mem hl), fun hj => lt_of_le_of_ne (h1 _ (List.getElem_mem hl)) ?_⟩
      intro he
      have := List.not_of_lt_findIdx (p := (· == m)) (xs := d) hj
      simp [he] at this
    constructor
    · rintro rfl; exact ⟨m, hget, hspec⟩
    · rintro ⟨x, hx, hall⟩
      have a1 := hspec i x hx
      have a2 := hall _ m hget
      have e : x = m := le_antisymm a1.1 a2.1
      subst e
      rcases lt_trichotomy (d.idxOf x) i with h | h | h
      · exact absurd (a2.2 h) (lt_irrefl _)
      · exact h
      · exact absurd (a1.2 h) (lt_irrefl _)

theorem maximum_iff (lib : Lib) (cfg : WCfg) (tr : Trace) :
    MaximumOk lib cfg tr ↔ PlainMaximum lib cfg tr := by
  unfold MaximumOk PlainMaximum trueTime
  refine forall_congr' fun mwin => imp_congr_right fun _ => exists_congr fun mw => exists_congr fun i => ?_
  rw [argmax_iff]
  constructor
  · rintro ⟨h1, ⟨x, h2, h3⟩, h4⟩; exact ⟨x, h1, h2, h3, h4⟩
  · rintro ⟨x, h1, h2, h3, h4⟩; exact ⟨h1, ⟨x, h2, h3⟩, h4⟩

/-! ## All checks -/

theorem coda_iff (tr : Trace) (v0 w0 : ℝ) (d : List ℝ) (l : List (ℝ × ℝ)) :
    l = d.zipIdx.map (fun ei => (sampleTime tr v0 w0 ei.2, ei.1)) ↔
      l.length = d.length ∧ ∀ (i : ℕ) x, d[i]? = some x → l[i]? = some (sampleTime tr v0 w0 i, x) := by
  have hget : ∀ i : ℕ, (d.zipIdx.map (fun ei => (sampleTime tr v0 w0 ei.2, ei.1)))[i]?
      = d[i]?.map (fun x => (sampleTime tr v0 w0 i, x)) := by
    intro i
    rw [List.getElem?_map, List.getElem?_zipIdx]
    cases d[i]? <;> simp
  constructor
  · rintro rfl
    refine ⟨by simp, fun i x h => ?_⟩
    rw [hget, h]; rfl
  · rintro ⟨h1, h2⟩
    refine List.ext_getElem? fun i => ?_
    rw [hget]
    cases h : d[i]? with
    | some x => rw [h2 i x h]; rfl
    | none =>
      rw [List.getElem?_eq_none_iff] at h
      rw [List.getElem?_eq_none (by omega)]
      rfl

theorem balanced_eq (f : ℕ → ℝ) (d : List ℝ) :
    (d.zipIdx.map (fun ei => ei.1 * f ei.2)).sum = ∑ i ∈ Finset.range d.length, d.getD i 0 * f i := by
  induction d using List.reverseRecOn with
  | nil => simp
  | append_singleton l a ih =>
    rw [List.zipIdx_append]
    simp only [List.map_append, List.sum_append, ih, List.length_append, List.length_cons,
      List.length_nil, zero_add, Finset.sum_range_succ]
    congr 1
    · refine Finset.sum_congr rfl fun i hi => ?_
      rw [List.getD_append _ _ _ _ (Finset.mem_range.1 hi)]
    · simp

theorem getSlice_sr {tr esl : Trace} (hsr : 0 < tr.sr) {w : ℝ × ℝ} (h : getSlice tr w = some esl) :
    esl.sr = tr.sr := by
  unfold getSlice at h
  split at h
  · next sl hsl =>
    split at h
    · simp only [Option.some.injEq] at h
      subst h
      unfold Trace.slice at hsl
      split at hsl
      · simp at hsl
      · simp only [Except.ok.injEq] at hsl
        rw [← hsl]
        obtain ⟨n, -, -, hh, -⟩ := ltrim_exact tr hsr w.1
        rw [← hh]
        unfold Trace.rtrim
        simp only
        split
        · rfl
        · split <;> rfl
    · simp at h
  · simp at h

theorem getSlice_data_iff {tr : Trace} (hsr : 1 / 2 ≤ tr.sr) {w : ℝ × ℝ} (hw : 1 ≤ w.2 - w.1)
    (d : List ℝ) : (∃ esl, getSlice tr w = some esl ∧ esl.data = d) ↔ ∃ n, WindowData tr w n d := by
  constructor
  · rintro ⟨esl, h, hd⟩
    obtain ⟨n, h1, -⟩ := (getSlice_iff hsr hw d esl.start).1
      ⟨esl, h, hd, rfl, getSlice_sr (by linarith) h⟩
    exact ⟨n, h1⟩
  · rintro ⟨n, h⟩
    obtain ⟨esl, h1, h2, -⟩ := (getSlice_iff hsr hw d _).2 ⟨n, h, rfl⟩
    exact ⟨esl, h1, h2⟩

theorem bulk_iff {lib : Lib} {cfg : WCfg} {v0 : ℝ} {tr : Trace} {bw : Tw} {nc : ℕ} {p : PairData}
    (hsr : 1 / 2 ≤ tr.sr) (hw : ∀ w, tw2utc lib.float bw tr = .ok w → 1 ≤ w.2 - w.1) :
    BulkOf lib cfg v0 tr bw nc p ↔ PlainBulk lib cfg v0 tr bw nc p := by
  constructor
  · rintro ⟨w, esl, unit, h1, h2, h3, h4, h5, h6, h7, h8, h9⟩
    obtain ⟨n, hn⟩ := (getSlice_data_iff hsr (hw w h1) esl.data).1 ⟨esl, h2, rfl⟩
    refine ⟨w, n, esl.data, h1, hn, h3, ?_, ?_, h6, h7, ?_⟩
    · rw [h4]; rfl
    · rw [h5, balanced_eq (fun i => sampleTime tr v0 w.1 i)]
    · rcases h9 with ⟨h, rfl⟩ | ⟨h, rfl⟩ | ⟨h, rfl⟩
      · exact Or.inl ⟨h, h8⟩
      · exact Or.inr (Or.inl ⟨h, h8⟩)
      · exact Or.inr (Or.inr ⟨h, by rw [h8, mul_one]⟩)
  · rintro ⟨w, n, d, h1, h2, h3, h4, h5, h6, h7, h8⟩
    obtain ⟨esl, k1, rfl⟩ := (getSlice_data_iff hsr (hw w h1) d).2 ⟨n, h2⟩
    rcases h8 with ⟨h, h8⟩ | ⟨h, h8⟩ | ⟨h, h8⟩
    · refine ⟨w, esl, nc, h1, k1, h3, h4, ?_, h6, h7, h8, Or.inl ⟨h, rfl⟩⟩
      rw [h5, balanced_eq (fun i => sampleTime tr v0 w.1 i)]
    · refine ⟨w, esl, esl.data.length, h1, k1, h3, h4, ?_, h6, h7, h8, Or.inr (Or.inl ⟨h, rfl⟩)⟩
      rw [h5, balanced_eq (fun i => sampleTime tr v0 w.1 i)]
    · refine ⟨w, esl, 1, h1, k1, h3, h4, ?_, h6, h7, by rw [h8, mul_one], Or.inr (Or.inr ⟨h, rfl⟩)⟩
      rw [h5, balanced_eq (fun i => sampleTime tr v0 w.1 i)]

theorem accepts_iff {lib : Lib} {cfg : WCfg} {v0 : ℝ} {tr : Trace} {p : PairData}
    (hsr : 1 / 2 ≤ tr.sr) (hskip : 1 ≤ cfg.skipCoda)
    (hs : ∀ c, cfg.cutCoda = some c → 0 ≤ c.smooth.getD 0)
    (hbulk : ∀ bw w, cfg.bulkWindow = some bw → tw2utc lib.float bw tr = .ok w → 1 ≤ w.2 - w.1) :
    Accepts lib cfg v0 tr p ↔ PlainAccepts ωfun lib cfg v0 tr p := by
  have hlen : ∀ tr' w, CodaWindow lib cfg tr' w → 1 ≤ w.2 - w.1 := by
    rintro tr' w ⟨w0, -, h1, h2⟩
    cases hc : cfg.cutCoda with
    | none => rw [hc] at h2; simp only at h2; rw [h2]; linarith
    | some c => rw [hc] at h2; linarith [h2.1]
  unfold Accepts PlainAccepts
  refine and_congr_right fun _ => and_congr_right fun _ => and_congr_right fun _ =>
    and_congr ?_ (and_congr ?_ Iff.rfl)
  · constructor
    · rintro ⟨tr', w, esl, h1, h2, h3, h4, h5⟩
      obtain ⟨y, rfl, hy⟩ := (smoothTrace_iff cfg tr tr').1 h1
      have hw := hlen _ _ h2
      obtain ⟨n, hn⟩ := (getSlice_data_iff (tr := { tr with data := y }) hsr hw esl.data).1 ⟨esl, h4, rfl⟩
      exact ⟨y, w, n, esl.data, hy,
        (codaWindow_iff (tr := { tr with data := y }) hsr hskip hs).1 h2, (maximum_iff _ _ _).1 h3, hn,
        (coda_iff _ _ _ _ _).1 h5⟩
    · rintro ⟨y, w, n, d, h1, h2, h3, h4, h5⟩
      have h2' := (codaWindow_iff (tr := { tr with data := y }) hsr hskip hs).2 h2
      obtain ⟨esl, k1, rfl⟩ := (getSlice_data_iff (tr := { tr with data := y }) hsr (hlen _ _ h2') d).2
        ⟨n, h4⟩
      exact ⟨{ tr with data := y }, w, esl, (smoothTrace_iff cfg tr _).2 ⟨y, rfl, h1⟩, h2',
        (maximum_iff _ _ _).2 h3, k1, (coda_iff _ _ _ _ _).2 h5⟩
  · refine forall_congr' fun bw => imp_congr_right fun hb => ?_
    exact bulk_iff hsr (fun w hw => hbulk bw w hb hw)

theorem smoothedOver_eq {ω : Util.Window → ℕ → ℕ → ℝ} (hω : WindowWeights ω) :
    SmoothedOver ω = SmoothedOver ωfun := by
  funext sr win b s x y
  unfold SmoothedOver
  apply propext
  refine exists_congr fun M => and_congr_right fun _ => and_congr_right fun _ => and_congr_right fun _ =>
    imp_congr_right fun hM => and_congr_right fun hw => and_congr_right fun _ => ?_
  have e : ∀ j, smoothedAt (ω win M.toNat) M.toNat b x j = smoothedAt (ωfun win M.toNat) M.toNat b x j := by
    intro j
    unfold smoothedAt
    refine Finset.sum_congr rfl fun k hk => ?_
    rw [(hω win M.toNat hw (by omega)).2 k (Finset.mem_range.1 hk),
      (windowWeights_ωfun win M.toNat hw (by omega)).2 k (Finset.mem_range.1 hk)]
  simp only [e]

theorem plainAccepts_eq {ω : Util.Window → ℕ → ℕ → ℝ} (hω : WindowWeights ω) :
    PlainAccepts ω = PlainAccepts ωfun := by
  have e : Smoothed ω = Smoothed ωfun := by
    funext sr win b opt x y
    unfold Smoothed
    rw [smoothedOver_eq hω]
  have e2 : CutAt ω = CutAt ωfun := by
    funext a c tr w0 w
    unfold CutAt
    rw [e]
  have e3 : PlainCodaWindow ω = PlainCodaWindow ωfun := by
    funext lib cfg tr w
    unfold PlainCodaWindow
    rw [e2]
  funext lib cfg v0 tr p
  unfold PlainAccepts
  rw [e, e3]

end Plain

section

variable {lib : Lib} {wls : List ℝ → List (List ℝ) → List ℝ → List ℝ × ℝ} {G : Greens}
  {minimize : (ℝ → Py (WithTop ℝ)) → Py ℝ} {cfg : WCfg} {inv : InvertFb.Cfg}
  {ω : Util.Window → ℕ → ℕ → ℝ}

/-- The weights of the smoothing windows exist. -/
theorem Plain.weights_exist : ∃ ω, WindowWeights ω := ⟨ωfun, Plain.windowWeights_ωfun⟩

/-- **C134** (partial): a trace passes the checks in `invert_fb` if and only if it passes the ones in
the description, and the data are the same.  Coda and bulk windows last at least a second and the
sampling rate is at least 0.5 Hz.  Missing: shorter windows, see `C134_counterexample`. -/
theorem C134_accepted_pairs_partial (hω : WindowWeights ω) {v0 : ℝ} {tr : Trace} {p : PairData}
    (hsr : 1 / 2 ≤ tr.sr) (hskip : 1 ≤ cfg.skipCoda)
    (hs : ∀ c, cfg.cutCoda = some c → 0 ≤ c.smooth.getD 0)
    (hbulk : ∀ bw w, cfg.bulkWindow = some bw → tw2utc lib.float bw tr = .ok w → 1 ≤ w.2 - w.1) :
    Accepts lib cfg v0 tr p ↔ PlainAccepts ω lib cfg v0 tr p := by
  rw [Plain.plainAccepts_eq hω]
  exact Plain.accepts_iff hsr hskip hs hbulk

/-- **C134** (partial): the result of a band is the inversion of the data of exactly those traces which
pass the checks of `PlainAccepts`, in the original order, and the data are the ones described there.
Same restrictions as in `C134_accepted_pairs_partial`. -/
theorem C134_inversion_partial (hω : WindowWeights ω) (hskip : 1 ≤ cfg.skipCoda)
    (hs : ∀ c, cfg.cutCoda = some c → 0 ≤ c.smooth.getD 0) {streams : List Stream} {res : BandResult}
    (hnd : (streams.map (fun s => (s.event, s.station))).Nodup)
    (h : invertFb lib wls G minimize cfg inv streams = .ok (some res)) :
    ∃ (trs : List Trace) (v0 : ℝ), energies lib cfg streams = .ok trs ∧ velocity cfg trs = some v0 ∧
      ((∀ tr ∈ trs, 1 / 2 ≤ tr.sr ∧ ∀ bw w, cfg.bulkWindow = some bw →
          tw2utc lib.float bw tr = .ok w → 1 ≤ w.2 - w.1) →
        ∃ sel : List (Trace × PairData), sel ≠ [] ∧ (sel.map Prod.fst).Sublist trs ∧
          (∀ q ∈ sel, PlainAccepts ω lib cfg v0 q.1 q.2) ∧
          (∀ tr ∈ trs, tr ∉ sel.map Prod.fst → ∀ p, ¬ PlainAccepts ω lib cfg v0 tr p) ∧
          solveBand wls G minimize (fullCfg cfg inv v0)
            (bandOf cfg.bulkWindow.isSome (sel.map Prod.snd)) = .ok (some res)) := by
  obtain ⟨trs, v0, sel, h1, h2, -, h3, h4, h5, h6, -, h7⟩ := C18_inversion_of_accepted_pairs hnd h
  refine ⟨trs, v0, h1, h2, fun hgood => ⟨sel, h6, h3, ?_, ?_, h7⟩⟩
  · intro q hq
    obtain ⟨g1, g2⟩ := hgood q.1 (h3.subset (List.mem_map.2 ⟨q, hq, rfl⟩))
    exact (C134_accepted_pairs_partial hω g1 hskip hs g2).1 (h4 q hq)
  · intro tr htr hno p hp
    obtain ⟨g1, g2⟩ := hgood tr htr
    exact h5 tr htr hno p ((C134_accepted_pairs_partial hω g1 hskip hs g2).2 hp)

/-- **C134** (partial): also in shorter windows: whenever the coda window of a pair has samples, it has
exactly the samples inside the window, and they cover the window up to half a second.  Missing: the
window may have no samples, see `C134_counterexample`. -/
theorem C134_samples_partial {tr esl : Trace} (hsr : 0 < tr.sr) {w : ℝ × ℝ}
    (h : getSlice tr w = some esl) (hne : esl.data ≠ []) : ∃ n, WindowData tr w n esl.data := by
  obtain ⟨n, h1, -⟩ := Plain.windowData_of_slice hsr h hne
  exact ⟨n, h1⟩

end

namespace PlainExample

open TimeAxisExample

/-- Windows of traces with start 0 and sampling rate 1. -/
theorem windowData_int {tr : Trace} (h0 : tr.start = 0) (hsr : tr.sr = 1) {a b : ℕ} (hab : a ≤ b)
    (hb : b < tr.data.length) :
    WindowData tr (a, b) a ((tr.data.drop a).take (b - a + 1)) := by
  have hne : (tr.data.drop a).take (b - a + 1) ≠ [] := by
    rw [← List.length_pos_iff, List.length_take, List.length_drop]
    omega
  obtain ⟨n, h1, h2, -⟩ := Plain.windowData_of_slice (by rw [hsr]; norm_num) (slice_int h0 hsr hab hb) hne
  simp only [trueTime, h0, hsr, zero_add, div_one, Nat.cast_inj] at h2
  subst h2
  exact h1

/-- A coda window from 1 s to 4 s, cut at local minima. -/
noncomputable def pCfg : WCfg :=
  { exCfg with
    codaWindow := (.one "OT+1s".toList, .one "OT+4s".toList), skipCoda := 1, cutCoda := some {}
    skipMaximum := some (.one "OT+1s".toList, .one "OT+4s".toList) }

/-- An envelope with a second arrival at 3 s. -/
noncomputable def pTrace : Trace :=
  { event := "e", station := "s", start := 0, sr := 1, data := [0, 4, 1, 9, 2, 1], origin := 0,
    ponset := 0.5, sonset := 1, distance := 1, noise := none }

/-- The coda window is cut at 2 s. -/
noncomputable def pPair : PairData :=
  { event := "e", station := "s", distance := 1, coda := [(1, 4), (2, 1)],
    bulkTime := 1.2, bulkEnergy := 2.5, bulkWeight := 2, bulkStart := 1, bulkEnd := 2 }

theorem p_window (a b : ℕ) (hab : a ≤ b) (hb : b < 6) :
    WindowData pTrace (a, b) a (([0, 4, 1, 9, 2, 1].drop a).take (b - a + 1)) :=
  windowData_int (tr := pTrace) rfl rfl hab (by simpa [pTrace] using hb)

theorem p_cut (ω : Util.Window → ℕ → ℕ → ℝ) : CutAt ω .flat {} pTrace (1, 4) (1, 2) := by
  have hmin : LocMin [4, 1, 9, 2] 1 := ⟨4, 1, 9, by norm_num, rfl, rfl, rfl, by norm_num, by norm_num⟩
  refine ⟨1, [4, 1, 9, 2], [4, 1, 9, 2], ?_, Or.inl (Or.inl ⟨Or.inl rfl, rfl⟩), Or.inl ⟨2, 1, ⟨1, hmin⟩, ?_⟩⟩
  · have := p_window 1 4 (by norm_num) (by norm_num)
    norm_num at this ⊢
    exact this
  refine ⟨⟨⟨1, 9, 2, by norm_num, rfl, rfl, rfl, by norm_num, by norm_num⟩, Or.inl ⟨hmin, by norm_num, ?_⟩,
    9, 1, rfl, rfl, by norm_num⟩, ?_, ?_, ?_⟩
  · intro j x y hj hlt hx hy
    obtain ⟨a, b, c, h0, -⟩ := hj
    obtain rfl : j = 1 := by omega
    rw [hx] at hy
    simp only [Option.some.injEq] at hy
    exact ⟨hy.le, fun h => absurd h (lt_irrefl _)⟩
  · intro ma' hlt mi' hx
    obtain ⟨⟨a, b, c, h0, h1, h2, h3, h4, h5⟩, -⟩ := hx
    obtain rfl : ma' = 1 := by omega
    simp at h1 h2
    subst h1 h2
    norm_num at h4
  · norm_num [trueTime, pTrace]
  · norm_num

/-- The pair is accepted with these data. -/
theorem p_accepts (ω : Util.Window → ℕ → ℕ → ℝ) : PlainAccepts ω exLib pCfg 1 pTrace pPair := by
  have htw : tw2utc exFloat (.one "OT+1s".toList, .one "OT+4s".toList) pTrace = .ok (1, 4) :=
    ex_tw rfl (num := "+1".toList) (num' := "+4".toList) (by decide) (by simp [exFloat])
      (by decide) (by simp [exFloat])
  refine ⟨rfl, rfl, rfl, ⟨[0, 4, 1, 9, 2, 1], (1, 2), 1, [4, 1], Or.inl ⟨Or.inl rfl, rfl⟩,
    ⟨(1, 4), htw, by norm_num [pCfg], by simp [pCfg], ?_⟩, ?_, ?_, rfl, ?_⟩, ?_, by simp [pCfg, exCfg]⟩
  · intro c hc
    simp only [pCfg, Option.some.injEq] at hc
    subst hc
    exact ⟨p_cut ω, by norm_num [pCfg]⟩
  · intro mwin hm
    simp only [pCfg, Option.some.injEq] at hm
    subst hm
    refine ⟨(1, 4), 3, 9, htw, rfl, ?_, by norm_num [trueTime, pTrace], by norm_num [trueTime, pTrace]⟩
    intro j y hy
    have hj : j < 6 := by simpa using (List.getElem?_eq_some_iff.1 hy).1
    interval_cases j <;> simp at hy <;> subst hy <;> norm_num
  · have := p_window 1 2 (by norm_num) (by norm_num)
    norm_num at this
    exact this
  · intro i x hi
    have hj : i < 2 := by simpa using (List.getElem?_eq_some_iff.1 hi).1
    interval_cases i <;> simp at hi <;> subst hi <;> norm_num [pPair, sampleTime, pTrace]
  · intro bw hbw
    simp only [pCfg, exCfg, Option.some.injEq] at hbw
    subst hbw
    refine ⟨(1, 2), 1, [4, 1], ?_, ?_, by norm_num, by norm_num [pPair], ?_, by norm_num [pPair, sampleTime, pTrace],
      by norm_num [pPair, sampleTime, pTrace], Or.inl ⟨rfl, by norm_num [pPair, pCfg, exCfg]⟩⟩
    · exact ex_tw rfl (num := "+1".toList) (num' := "+2".toList) (by decide) (by simp [exFloat])
        (by decide) (by simp [exFloat])
    · have := p_window 1 2 (by norm_num) (by norm_num)
      norm_num at this
      exact this
    · norm_num [Finset.sum_range_succ, pPair, sampleTime, pTrace]

/-- The hypotheses of `C134_accepted_pairs_partial` are met by a pair with a cut coda window. -/
example : Accepts exLib pCfg 1 pTrace pPair := by
  obtain ⟨ω, hω⟩ := Plain.weights_exist
  refine (C134_accepted_pairs_partial hω (by norm_num [pTrace]) (by norm_num [pCfg]) ?_ ?_).2 (p_accepts ω)
  · intro c hc
    simp only [pCfg, Option.some.injEq] at hc
    subst hc
    simp
  · intro bw w hbw hw
    simp only [pCfg, exCfg, Option.some.injEq] at hbw
    subst hbw
    rw [show exLib.float = exFloat from rfl, ex_tw (tr := pTrace) (x := 1) (x' := 2) rfl
      (num := "+1".toList) (num' := "+2".toList) (by decide) (by simp [exFloat]) (by decide) (by simp [exFloat])] at hw
    simp only [Except.ok.injEq] at hw
    subst hw
    norm_num

/-- Smoothing over three samples. -/
example {ω : Util.Window → ℕ → ℕ → ℝ} (hω : WindowWeights ω) :
    Smoothed ω 1 .flat .zeros (some 3) [0, 3, 6, 0] [1, 3, 3, 2] := by
  refine Or.inr ⟨3, rfl, by norm_num, 3, Or.inl (by norm_num), by norm_num, by norm_num, ?_⟩
  intro _
  refine ⟨by simp, rfl, ?_⟩
  have h := (hω .flat 3 (by simp) le_rfl).2
  have hk : ∀ k < 3, ω .flat 3 k = 1 / 3 := by
    intro k hk
    rw [h k hk]
    norm_num [windowShape]
  intro j hj
  simp only [List.length_cons, List.length_nil] at hj
  have h0 := hk 0 (by norm_num)
  have h1 := hk 1 (by norm_num)
  have h2 := hk 2 (by norm_num)
  have e3 : (3 : ℤ).toNat = 3 := rfl
  interval_cases j <;> simp [e3, smoothedAt, Finset.sum_range_succ, h0, h1, h2, extend] <;> norm_num

/-- A window of 0.4 s, a hundred seconds after the end of the data. -/
noncomputable def farCfg : WCfg :=
  { exCfg with
    bulkWindow := none, codaWindow := (.one "OT+1s".toList, .one "OT+2s".toList) }

noncomputable def farLib : Lib :=
  { exLib with float := fun s => if s = "+1".toList then some 1 else if s = "+2".toList then some 1.4
      else none }

noncomputable def farTrace : Trace := { pTrace with start := -100 }

theorem far_tw : tw2utc farLib.float farCfg.codaWindow farTrace = .ok (1, 1.4) := by
  have key : ∀ (s num : PyStr) (x : ℝ) (st : Option ℝ),
      lower s = "ot".toList ++ num ++ "s".toList → farLib.float num = some x →
      time2utc farLib.float s farTrace st = .ok x := by
    intro s num x st hs hx
    have hne : ¬ ∃ p, lower s = p ++ "snr".toList := by
      rintro ⟨p, hp⟩
      have h1 : lower s = (p ++ ['s', 'n']) ++ ['r'] := by rw [hp]; simp
      exact absurd (getLast_eq h1 hs) (by decide)
    exact ((C31_time_strings (by simp [farLib]) farTrace s st hne).1 x).2
      ⟨num, x, hx, Or.inl ⟨hs, by simp [farTrace, pTrace]⟩⟩
  unfold tw2utc twStart twEnd farCfg
  simp only [key "OT+1s".toList "+1".toList 1 _ (by decide) (by simp [farLib]),
    key "OT+2s".toList "+2".toList 1.4 _ (by decide) (by simp [farLib]), bind, Except.bind, pure,
    Except.pure]

theorem far_slice : getSlice farTrace (1, 1.4) = some { farTrace with start := 1, data := [] } := by
  have r1 : roundAway ((1 - -100) * 1) = 101 := by
    have := roundAway_natCast 101
    norm_num at this ⊢
    exact this
  have r2 : roundAway ((1.4 - 1) * 1) = 0 := by
    unfold roundAway
    rw [if_pos (by norm_num), Int.floor_eq_iff]
    norm_num
  have e1 : farTrace.ltrim 1 = { farTrace with start := 1, data := [] } := by
    unfold Trace.ltrim farTrace pTrace
    simp only [r1]
    norm_num
  have e2 : Trace.rtrim { farTrace with start := 1, data := [] } 1.4
      = { farTrace with start := 1, data := [] } := by
    unfold Trace.rtrim farTrace pTrace
    simp only [r2]
    norm_num
  have e3 : farTrace.slice 1 1.4 = .ok { farTrace with start := 1, data := [] } := by
    unfold Trace.slice
    rw [if_neg (by norm_num), e1, e2]
  have e4 : checkTimes { farTrace with start := 1, data := [] } (1, 1.4) = true := by
    unfold checkTimes Trace.stop
    norm_num
  unfold getSlice
  simp only [e3, e4, if_true]

/-- The lists after the loop: one pair, no samples. -/
noncomputable def farState : WState where
  energies := [farTrace.pair]
  distances := [(farTrace.pair, 1)]
  tcoda := [[]]
  Ecoda := [[]]

end PlainExample

open PlainExample TimeAxisExample in
/-- **C134** (counterexample to the full claim): a coda window shorter than half a second which lies
far outside the data is not rejected.  The pair is kept without a single sample. -/
theorem C134_counterexample : ∃ (lib : Lib) (cfg : WCfg) (tr : Trace) (w : ℝ × ℝ) (st : WState),
    0 < tr.sr ∧ 0 < cfg.skipCoda ∧ tw2utc lib.float cfg.codaWindow tr = .ok w ∧
    (∀ j < tr.data.length, trueTime tr j + 90 < w.1) ∧
    windows lib cfg 1 [tr] = .ok st ∧ st.energies = [tr.pair] ∧ st.Ecoda = [[]] := by
  refine ⟨farLib, farCfg, farTrace, (1, 1.4), farState, by norm_num [farTrace, pTrace],
    by norm_num [farCfg, exCfg], far_tw, ?_, ?_, rfl, rfl⟩
  · intro j hj
    have : j < 6 := by simpa [farTrace, pTrace] using hj
    have hj' : (j : ℝ) < 6 := by exact_mod_cast this
    simp only [trueTime, farTrace, pTrace, div_one]
    linarith
  · have hskip : ¬ ((1.4 : ℝ) - 1 < farCfg.skipCoda) := by norm_num [farCfg, exCfg]
    have hs : smoothTrace farCfg farTrace = .ok farTrace := rfl
    have hstep : ∀ st, step farLib farCfg 1 st farTrace = .ok { st with
        distances := st.distances.set farTrace.pair 1, tcoda := st.tcoda ++ [[]],
        Ecoda := st.Ecoda ++ [[]] } := by
      intro st
      unfold step
      simp only [show farCfg.bulkWindow = none from rfl]
      unfold codaPart
      simp only [hs, far_tw, bind, Except.bind, hskip, if_false]
      unfold cutCoda
      simp only [show farCfg.cutCoda = none from rfl]
      unfold checkMaximum
      simp only [show farCfg.skipMaximum = none from rfl]
      unfold collect
      simp only [far_slice]
      simp [timeAxis, farTrace, pTrace]
    unfold windows
    simp only [List.foldlM_cons, List.foldlM_nil, hstep, bind, Except.bind, pure, Except.pure]
    simp [Dict.set, farState]

end Qopen
