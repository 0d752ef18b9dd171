import Verif.Model.Filter
import Mathlib.Analysis.SpecialFunctions.Trigonometric.Basic
import Mathlib.Analysis.SpecialFunctions.Trigonometric.ArctanDeriv
import Mathlib.Analysis.SpecificLimits.Basic
import Mathlib.Algebra.Order.Floor.Ring
import Mathlib.Order.Interval.Finset.Nat
import Mathlib.Topology.Algebra.Ring.Real

/-!
# Width of the filter: C90
-/

namespace Qopen

open Real Topology
open _root_.Filter (Tendsto atTop Eventually)

namespace Spec

/-- Power gain `a^(2n) / (a^(2n) + b^(2n))` of a Butterworth filter with `n` corners. -/
noncomputable def power (n : ℕ) (a b : ℝ) : ℝ := a ^ (2 * n) / (a ^ (2 * n) + b ^ (2 * n))

/-- Frequency `f` on the scale of the bilinear transform for sampling rate `sr`. -/
noncomputable def warp (sr f : ℝ) : ℝ := tan (π * f / sr)

/-- Power gain of the digital Butterworth bandpass filter with corner frequencies `f1` and `f2`. -/
noncomputable def bandPower (n : ℕ) (sr f1 f2 f : ℝ) : ℝ :=
  power n (warp sr f * (warp sr f2 - warp sr f1)) (warp sr f ^ 2 - warp sr f1 * warp sr f2)

/-- Power gain of the digital Butterworth highpass filter. -/
noncomputable def highPower (n : ℕ) (sr f0 f : ℝ) : ℝ := power n (warp sr f) (warp sr f0)

/-- Power gain of the digital Butterworth lowpass filter. -/
noncomputable def lowPower (n : ℕ) (sr f0 f : ℝ) : ℝ := power n (warp sr f0) (warp sr f)

/-- Contract of the filter design of scipy: corners relative to the Nyquist frequency, i.e. for
sampling rate 2, angular frequency `π f`. -/
structure Butter (design : FilterWidth.Design) : Prop where
  band : ∀ n f1 f2, 1 ≤ n → 0 < f1 → f1 < f2 → f2 < 1 → ∃ h, design n (.two f1 f2) "band" = .ok h ∧
    ∀ w, 0 ≤ w → w < π → |h w| ^ 2 = bandPower n 2 f1 f2 (w / π)
  high : ∀ n f0, 1 ≤ n → 0 < f0 → f0 < 1 → ∃ h, design n (.one f0) "high" = .ok h ∧
    ∀ w, 0 ≤ w → w < π → |h w| ^ 2 = highPower n 2 f0 (w / π)
  low : ∀ n f0, 1 ≤ n → 0 < f0 → f0 < 1 → ∃ h, design n (.one f0) "low" = .ok h ∧
    ∀ w, 0 ≤ w → w < π → |h w| ^ 2 = lowPower n 2 f0 (w / π)

/-- The three types of filters with their corner frequencies. -/
inductive Pass
  | band (f1 f2 : ℝ)
  | high (f0 : ℝ)
  | low (f0 : ℝ)

/-- Corner frequencies between zero and the Nyquist frequency. -/
def Pass.Ok (sr : ℝ) : Pass → Prop
  | .band f1 f2 => 0 < f1 ∧ f1 < f2 ∧ f2 < sr / 2
  | .high f0 => 0 < f0 ∧ f0 < sr / 2
  | .low f0 => 0 < f0 ∧ f0 < sr / 2

/-- Power gain at frequency `f`. -/
noncomputable def Pass.gain (n : ℕ) (sr : ℝ) : Pass → ℝ → ℝ
  | .band f1 f2 => bandPower n sr f1 f2
  | .high f0 => highPower n sr f0
  | .low f0 => lowPower n sr f0

/-- Width of the pass band. -/
noncomputable def Pass.range (sr : ℝ) : Pass → ℝ
  | .band f1 f2 => f2 - f1
  | .high f0 => sr / 2 - f0
  | .low f0 => f0

/-- The same filter with other units of time. -/
noncomputable def Pass.scale (s : ℝ) : Pass → Pass
  | .band f1 f2 => .band (s * f1) (s * f2)
  | .high f0 => .high (s * f0)
  | .low f0 => .low (s * f0)

/-- Sum over the 512 frequencies from 0 to the Nyquist frequency times their spacing. -/
noncomputable def overBand (sr : ℝ) (g : ℝ → ℝ) : ℝ :=
  ∑ k ∈ Finset.range 512, g (k * (sr / 1024)) * (sr / 1024)

end Spec

open Spec

theorem warp_unit {sr f : ℝ} (hsr : 0 < sr) : warp 2 (f / (0.5 * sr)) = warp sr f := by
  unfold warp; congr 1; field_simp; ring

theorem warp_freqz {sr : ℝ} (hsr : 0 < sr) (k : ℕ) :
    warp 2 (FilterWidth.freqz k / π) = warp sr (k * (sr / 1024)) := by
  unfold warp FilterWidth.freqz; congr 1
  have := pi_pos
  field_simp; norm_num; ring

theorem freqz_range {k : ℕ} (hk : k < 512) : 0 ≤ FilterWidth.freqz k ∧ FilterWidth.freqz k < π := by
  unfold FilterWidth.freqz
  have := pi_pos
  have h : (k : ℝ) < 512 := by exact_mod_cast hk
  constructor
  · positivity
  · rw [div_lt_iff₀ (by norm_num)]; nlinarith

theorem df_eq (sr : ℝ) : (FilterWidth.freqz 1 - FilterWidth.freqz 0) / 2 / π * sr = sr / 1024 := by
  unfold FilterWidth.freqz
  have := pi_pos
  push_cast
  field_simp; norm_num; ring

theorem sum_range_list (n : ℕ) (f : ℕ → ℝ) : ((List.range n).map f).sum = ∑ k ∈ Finset.range n, f k := by
  induction n with
  | zero => simp
  | succ n ih => rw [List.range_succ, Finset.sum_range_succ]; simp [ih]

/-- The width for a design with the given power gain. -/
theorem width_of {design : FilterWidth.Design} {sr : ℝ} {freq fmin fmax : Option ℝ} {n : ℕ} {z : Bool}
    {type : String} {fs : FilterWidth.Corners} {h : ℝ → ℝ} {g : ℝ → ℝ}
    (hf : FilterWidth.cornersOf sr freq fmin fmax type = .ok fs)
    (hd : design n fs (FilterWidth.strip type) = .ok h)
    (hg : ∀ k < 512, |h (FilterWidth.freqz k)| ^ 2 = g (k * (sr / 1024))) :
    FilterWidth.filterWidth design sr freq fmin fmax n z type =
      .ok (overBand sr (fun f => g f ^ (z.toNat + 1))) := by
  unfold FilterWidth.filterWidth
  rw [hf]
  simp only [bind, Except.bind, hd, pure, Except.pure]
  apply congrArg Except.ok
  rw [df_eq]
  unfold overBand FilterWidth.sumPower
  rw [sum_range_list]
  rw [Finset.mul_sum]
  apply Finset.sum_congr rfl
  intro k hk
  rw [pow_mul, hg k (Finset.mem_range.1 hk), mul_comm]

theorem strip_band : FilterWidth.strip "bandpass" = "band" := by decide
theorem strip_high : FilterWidth.strip "highpass" = "high" := by decide
theorem strip_low : FilterWidth.strip "lowpass" = "low" := by decide


theorem warp_pos {sr f : ℝ} (hsr : 0 < sr) (h0 : 0 < f) (h1 : f < sr / 2) : 0 < warp sr f := by
  unfold warp
  have hp := pi_pos
  apply tan_pos_of_pos_of_lt_pi_div_two
  · positivity
  · rw [div_lt_iff₀ hsr]; nlinarith

theorem warp_lt {sr f f' : ℝ} (hsr : 0 < sr) (h0 : 0 ≤ f) (h : f < f') (h1 : f' < sr / 2) :
    warp sr f < warp sr f' := by
  unfold warp
  have hp := pi_pos
  apply tan_lt_tan_of_lt_of_lt_pi_div_two
  · have : 0 ≤ π * f / sr := by positivity
    linarith
  · rw [div_lt_iff₀ hsr]; nlinarith
  · gcongr

theorem warp_zero (sr : ℝ) : warp sr 0 = 0 := by simp [warp]

theorem power_nonneg (n : ℕ) (a b : ℝ) : 0 ≤ power n a b := by
  unfold power
  have ha : 0 ≤ a ^ (2 * n) := by rw [pow_mul]; positivity
  have hb : 0 ≤ b ^ (2 * n) := by rw [pow_mul]; positivity
  positivity

theorem power_le_one (n : ℕ) (a b : ℝ) : power n a b ≤ 1 := by
  unfold power
  have ha : 0 ≤ a ^ (2 * n) := by rw [pow_mul]; positivity
  have hb : 0 ≤ b ^ (2 * n) := by rw [pow_mul]; positivity
  apply div_le_one_of_le₀ <;> linarith

theorem power_pos (n : ℕ) {a : ℝ} (b : ℝ) (h : a ≠ 0) : 0 < power n a b := by
  unfold power
  have ha : 0 < a ^ (2 * n) := by rw [pow_mul]; positivity
  have hb : 0 ≤ b ^ (2 * n) := by rw [pow_mul]; positivity
  positivity

/-- Limit of many corners. -/
theorem power_tendsto {a b : ℝ} (ha : 0 ≤ a) (hb : 0 ≤ b) (h : 0 < a ∨ 0 < b) :
    Tendsto (fun n => power n a b) atTop
      (𝓝 (if b < a then 1 else if a = b then 1 / 2 else 0)) := by
  have key : ∀ {x y : ℝ}, 0 ≤ x → x < y → Tendsto (fun n : ℕ => (x / y) ^ (2 * n)) atTop (𝓝 0) := by
    intro x y hx hxy
    have hy : 0 < y := lt_of_le_of_lt hx hxy
    have h1 : 0 ≤ (x / y) ^ 2 := by positivity
    have h2 : (x / y) ^ 2 < 1 := by
      rw [sq_lt_one_iff₀ (by positivity)]
      exact (div_lt_one hy).2 hxy
    simpa only [pow_mul] using tendsto_pow_atTop_nhds_zero_of_lt_one h1 h2
  rcases lt_trichotomy b a with hlt | heq | hgt
  · rw [if_pos hlt]
    have hapos : 0 < a := lt_of_le_of_lt hb hlt
    have e : (fun n => power n a b) = fun n => 1 / (1 + (b / a) ^ (2 * n)) := by
      funext n
      unfold power
      have : 0 < a ^ (2 * n) := by positivity
      rw [div_pow]; field_simp
    rw [e]
    have h1 : Tendsto (fun n : ℕ => 1 + (b / a) ^ (2 * n)) atTop (𝓝 (1 + 0)) :=
      tendsto_const_nhds.add (key hb hlt)
    have h2 := (tendsto_const_nhds (x := (1 : ℝ)) (f := (atTop : _root_.Filter ℕ))).div h1 (by norm_num)
    rw [add_zero, div_one] at h2
    exact h2
  · subst heq
    rw [if_neg (lt_irrefl _), if_pos rfl]
    have hb0 : 0 < b := by rcases h with h | h <;> exact h
    have e : (fun n => power n b b) = fun _ => (1 : ℝ) / 2 := by
      funext n
      unfold power
      have : 0 < b ^ (2 * n) := by positivity
      field_simp; norm_num
    rw [e]; exact tendsto_const_nhds
  · rw [if_neg (not_lt.2 hgt.le), if_neg hgt.ne]
    have hbpos : 0 < b := lt_of_le_of_lt ha hgt
    have e : (fun n => power n a b) = fun n => (a / b) ^ (2 * n) / ((a / b) ^ (2 * n) + 1) := by
      funext n
      unfold power
      have : 0 < b ^ (2 * n) := by positivity
      rw [div_pow]; field_simp
    rw [e]
    have h1 : Tendsto (fun n : ℕ => (a / b) ^ (2 * n) + 1) atTop (𝓝 (0 + 1)) :=
      (key ha hgt).add tendsto_const_nhds
    have h2 := (key ha hgt).div h1 (by norm_num)
    rw [zero_div] at h2
    exact h2

/-! ## The three types -/

/-- The call of `filter_width` for a filter. -/
noncomputable def widthOf (design : FilterWidth.Design) (sr : ℝ) (n : ℕ) (z : Bool) : Pass → Py ℝ
  | .band f1 f2 => FilterWidth.filterWidth design sr none (some f1) (some f2) n z "bandpass"
  | .high f0 => FilterWidth.filterWidth design sr (some f0) none none n z "highpass"
  | .low f0 => FilterWidth.filterWidth design sr (some f0) none none n z "lowpass"

theorem rel_ok {sr f : ℝ} (hsr : 0 < sr) : (0 < f ↔ 0 < f / (0.5 * sr)) ∧ (f < sr / 2 ↔ f / (0.5 * sr) < 1) := by
  have h : 0 < 0.5 * sr := by positivity
  constructor
  · constructor
    · intro hf; positivity
    · intro hf; rwa [div_pos_iff_of_pos_right h] at hf
  · rw [div_lt_one h]
    constructor <;> intro hf <;> linarith

/-- **C90**: the width is the sum of the power gain (of its square with zero phase) over all
frequencies up to the Nyquist frequency, times the spacing of the frequencies. -/
theorem C90_value {design : FilterWidth.Design} (hb : Butter design) {sr : ℝ} (hsr : 0 < sr) {n : ℕ}
    (hn : 1 ≤ n) (z : Bool) {p : Pass} (hp : p.Ok sr) :
    widthOf design sr n z p = .ok (overBand sr (fun f => p.gain n sr f ^ (z.toNat + 1))) := by
  have h05 : (0 : ℝ) < 0.5 * sr := by positivity
  cases p with
  | band f1 f2 =>
    obtain ⟨h1, h2, h3⟩ := hp
    obtain ⟨h, hd, hg⟩ := hb.band n (f1 / (0.5 * sr)) (f2 / (0.5 * sr)) hn ((rel_ok hsr).1.1 h1)
      (by gcongr) ((rel_ok hsr).2.1 h3)
    refine width_of (fs := .two (f1 / (0.5 * sr)) (f2 / (0.5 * sr))) (h := h) rfl (by rw [strip_band]; exact hd) ?_
    intro k hk
    rw [hg _ (freqz_range hk).1 (freqz_range hk).2]
    simp only [bandPower, Pass.gain, warp_unit hsr, warp_freqz hsr]
  | high f0 =>
    obtain ⟨h1, h3⟩ := hp
    obtain ⟨h, hd, hg⟩ := hb.high n (f0 / (0.5 * sr)) hn ((rel_ok hsr).1.1 h1) ((rel_ok hsr).2.1 h3)
    refine width_of (fs := .one (f0 / (0.5 * sr))) (h := h) ?_ (by rw [strip_high]; exact hd) ?_
    · simp [FilterWidth.cornersOf]
    intro k hk
    rw [hg _ (freqz_range hk).1 (freqz_range hk).2]
    simp only [highPower, Pass.gain, warp_unit hsr, warp_freqz hsr]
  | low f0 =>
    obtain ⟨h1, h3⟩ := hp
    obtain ⟨h, hd, hg⟩ := hb.low n (f0 / (0.5 * sr)) hn ((rel_ok hsr).1.1 h1) ((rel_ok hsr).2.1 h3)
    refine width_of (fs := .one (f0 / (0.5 * sr))) (h := h) ?_ (by rw [strip_low]; exact hd) ?_
    · simp [FilterWidth.cornersOf]
    intro k hk
    rw [hg _ (freqz_range hk).1 (freqz_range hk).2]
    simp only [lowPower, Pass.gain, warp_unit hsr, warp_freqz hsr]

/-- Amplitudes in pass and stop band. -/
noncomputable def Spec.Pass.num (sr : ℝ) : Pass → ℝ → ℝ
  | .band f1 f2, f => warp sr f * (warp sr f2 - warp sr f1)
  | .high _, f => warp sr f
  | .low f0, _ => warp sr f0

/-- Amplitudes in pass and stop band. -/
noncomputable def Spec.Pass.den (sr : ℝ) : Pass → ℝ → ℝ
  | .band f1 f2, f => warp sr f ^ 2 - warp sr f1 * warp sr f2
  | .high f0, _ => warp sr f0
  | .low _, f => warp sr f

/-- Begin of the pass band. -/
noncomputable def Spec.Pass.lo : Pass → ℝ
  | .band f1 _ => f1
  | .high f0 => f0
  | .low _ => 0

/-- End of the pass band. -/
noncomputable def Spec.Pass.hi (sr : ℝ) : Pass → ℝ
  | .band _ f2 => f2
  | .high _ => sr / 2
  | .low f0 => f0

theorem gain_eq (p : Pass) (n : ℕ) (sr f : ℝ) : p.gain n sr f = power n (p.num sr f) (p.den sr f) := by
  cases p <;> rfl

theorem power_abs (n : ℕ) (a b : ℝ) : power n a |b| = power n a b := by
  unfold power
  rw [pow_mul |b|, sq_abs, ← pow_mul]

theorem warp_nonneg {sr f : ℝ} (hsr : 0 < sr) (h0 : 0 ≤ f) (h1 : f < sr / 2) : 0 ≤ warp sr f := by
  rcases h0.eq_or_lt with h | h
  · rw [← h, warp_zero]
  · exact (warp_pos hsr h h1).le

/-- Inside of the pass band the numerator dominates, outside the denominator. -/
theorem dominates {sr : ℝ} (hsr : 0 < sr) {p : Pass} (hp : p.Ok sr) {f : ℝ} (h0 : 0 ≤ f)
    (h1 : f < sr / 2) : 0 ≤ p.num sr f ∧ (0 < p.num sr f ∨ 0 < |p.den sr f|) ∧
      (p.lo < f → f < p.hi sr → |p.den sr f| < p.num sr f) ∧
      ((f < p.lo ∨ p.hi sr < f) → p.num sr f < |p.den sr f|) := by
  have hw := warp_nonneg hsr h0 h1
  cases p with
  | band f1 f2 =>
    obtain ⟨ha, hb, hc⟩ := hp
    have h12 := warp_lt hsr ha.le hb hc
    have hw1 := warp_pos hsr ha (hb.trans hc)
    simp only [Pass.num, Pass.den, Pass.lo, Pass.hi]
    have hw2 : 0 < warp sr f2 := hw1.trans h12
    refine ⟨mul_nonneg hw (sub_nonneg.2 h12.le), ?_, ?_, ?_⟩
    · rcases hw.eq_or_lt with h | h
      · right
        rw [← h, abs_pos]
        have : 0 < warp sr f1 * warp sr f2 := by positivity
        nlinarith
      · left
        exact mul_pos h (sub_pos.2 h12)
    · intro h2 h3
      have a1 := warp_lt hsr ha.le h2 h1
      have a2 := warp_lt hsr h0 h3 hc
      rw [abs_lt]
      constructor <;> nlinarith [mul_pos (sub_pos.2 a1) (add_pos_of_nonneg_of_pos hw hw2), mul_pos (sub_pos.2 a2) (add_pos_of_nonneg_of_pos hw hw1)]
    · rintro (h2 | h2)
      · have a1 := warp_lt hsr h0 h2 (hb.trans hc)
        rw [lt_abs]; right
        nlinarith [mul_pos (sub_pos.2 a1) (add_pos_of_nonneg_of_pos hw hw2)]
      · have a2 := warp_lt hsr (ha.trans hb).le h2 h1
        rw [lt_abs]; left
        nlinarith [mul_pos (sub_pos.2 a2) (add_pos_of_nonneg_of_pos hw hw1)]
  | high f0 =>
    obtain ⟨ha, hb⟩ := hp
    have hw1 := warp_pos hsr ha hb
    simp only [Pass.num, Pass.den, Pass.lo, Pass.hi, abs_of_pos hw1]
    refine ⟨hw, .inr hw1, fun h _ => warp_lt hsr ha.le h h1, ?_⟩
    rintro (h | h)
    · exact warp_lt hsr h0 h hb
    · linarith
  | low f0 =>
    obtain ⟨ha, hb⟩ := hp
    have hw1 := warp_pos hsr ha hb
    simp only [Pass.num, Pass.den, Pass.lo, Pass.hi, abs_of_nonneg hw]
    refine ⟨hw1.le, .inl hw1, fun _ h => warp_lt hsr h0 h hb, ?_⟩
    rintro (h | h)
    · linarith
    · exact warp_lt hsr ha.le h h1

theorem range_eq (sr : ℝ) (p : Pass) : p.range sr = p.hi sr - p.lo := by
  cases p <;> simp [Pass.range, Pass.hi, Pass.lo]

/-- Frequencies of the sum. -/
theorem freq_ok {sr : ℝ} (hsr : 0 < sr) {k : ℕ} (hk : k < 512) :
    0 ≤ k * (sr / 1024) ∧ k * (sr / 1024) < sr / 2 := by
  have h : (k : ℝ) < 512 := by exact_mod_cast hk
  constructor
  · positivity
  · nlinarith

/-- **C90**: the width is positive and at most the Nyquist frequency; with zero phase it is not
larger. -/
theorem C90_bounds {design : FilterWidth.Design} (hb : Butter design) {sr : ℝ} (hsr : 0 < sr) {n : ℕ}
    (hn : 1 ≤ n) {p : Pass} (hp : p.Ok sr) {w w' : ℝ} (hw : widthOf design sr n false p = .ok w)
    (hw' : widthOf design sr n true p = .ok w') : 0 < w' ∧ w' ≤ w ∧ w ≤ sr / 2 := by
  rw [C90_value hb hsr hn _ hp, Except.ok.injEq] at hw hw'
  subst hw hw'
  have g0 : ∀ f, 0 ≤ p.gain n sr f := fun f => by rw [gain_eq]; exact power_nonneg _ _ _
  have g1 : ∀ f, p.gain n sr f ≤ 1 := fun f => by rw [gain_eq]; exact power_le_one _ _ _
  have hd : 0 < sr / 1024 := by positivity
  unfold overBand
  simp only [Bool.toNat_false, Bool.toNat_true, zero_add, pow_one]
  refine ⟨?_, ?_, ?_⟩
  · apply Finset.sum_pos'
    · intro k _
      have := g0 (k * (sr / 1024))
      positivity
    · refine ⟨1, by simp, ?_⟩
      have hpos : 0 < p.gain n sr ((1 : ℕ) * (sr / 1024)) := by
        rw [gain_eq]
        apply power_pos
        have h1 := freq_ok hsr (k := 1) (by norm_num)
        have hw : 0 < warp sr ((1 : ℕ) * (sr / 1024)) :=
          warp_pos hsr (by push_cast; positivity) h1.2
        cases p with
        | band f1 f2 =>
          have := warp_lt hsr hp.1.le hp.2.1 hp.2.2
          exact (mul_pos hw (sub_pos.2 this)).ne'
        | high f0 => exact hw.ne'
        | low f0 => exact (warp_pos hsr hp.1 hp.2).ne'
      positivity
  · apply Finset.sum_le_sum
    intro k _
    have := g0 (k * (sr / 1024))
    have := g1 (k * (sr / 1024))
    gcongr
    nlinarith
  · calc ∑ k ∈ Finset.range 512, p.gain n sr (k * (sr / 1024)) * (sr / 1024)
        ≤ ∑ _k ∈ Finset.range 512, 1 * (sr / 1024) := by
          apply Finset.sum_le_sum
          intro k _
          have := g1 (k * (sr / 1024))
          gcongr
      _ = sr / 2 := by
        rw [Finset.sum_const, Finset.card_range, nsmul_eq_mul]
        push_cast; ring

theorem warp_scale {s : ℝ} (hs : s ≠ 0) (sr f : ℝ) : warp (s * sr) (s * f) = warp sr f := by
  unfold warp
  congr 1
  rw [show π * (s * f) = s * (π * f) by ring, mul_div_mul_left _ _ hs]

theorem gain_scale {s : ℝ} (hs : s ≠ 0) (n : ℕ) (sr : ℝ) (p : Pass) (f : ℝ) :
    (p.scale s).gain n (s * sr) (s * f) = p.gain n sr f := by
  cases p <;> simp only [Pass.scale, Pass.gain, bandPower, highPower, lowPower, warp_scale hs]

/-- **C90**: the width has the unit of the frequencies. -/
theorem C90_units {design : FilterWidth.Design} (hb : Butter design) {sr s : ℝ} (hsr : 0 < sr)
    (hs : 0 < s) {n : ℕ} (hn : 1 ≤ n) (z : Bool) {p : Pass} (hp : p.Ok sr) {w : ℝ}
    (hw : widthOf design sr n z p = .ok w) :
    widthOf design (s * sr) n z (p.scale s) = .ok (s * w) := by
  have hp' : (p.scale s).Ok (s * sr) := by
    have h2 : s * sr / 2 = s * (sr / 2) := by ring
    cases p with
    | band f1 f2 =>
      obtain ⟨h1, h2', h3⟩ := hp
      refine ⟨by positivity, by gcongr, ?_⟩
      rw [h2]; gcongr
    | high f0 =>
      obtain ⟨h1, h3⟩ := hp
      refine ⟨by positivity, ?_⟩
      rw [h2]; gcongr
    | low f0 =>
      obtain ⟨h1, h3⟩ := hp
      refine ⟨by positivity, ?_⟩
      rw [h2]; gcongr
  rw [C90_value hb hsr hn z hp, Except.ok.injEq] at hw
  rw [C90_value hb (by positivity) hn z hp', ← hw]
  apply congrArg Except.ok
  unfold overBand
  rw [Finset.mul_sum]
  apply Finset.sum_congr rfl
  intro k _
  beta_reduce
  rw [show (k : ℝ) * (s * sr / 1024) = s * (k * (sr / 1024)) by ring, gain_scale hs.ne']
  ring

/-! ## Many corners -/

/-- Number of integers in an interval. -/
theorem count_near {N : ℕ} {x y : ℝ} (hx : 0 ≤ x) (hxy : x < y) (hy : y ≤ N) {v : ℕ → ℝ}
    (hv : ∀ k < N, 0 ≤ v k ∧ v k ≤ 1) (hin : ∀ k < N, x < k → k < y → v k = 1)
    (hout : ∀ k < N, (k < x ∨ y < k) → v k = 0) :
    |∑ k ∈ Finset.range N, v k - (y - x)| ≤ 1 := by
  have hy0 : 0 ≤ y := hx.trans hxy.le
  rw [abs_le]
  constructor
  · have hsub : Finset.Ioo ⌊x⌋₊ ⌈y⌉₊ ⊆ Finset.range N := by
      intro k hk
      rw [Finset.mem_Ioo] at hk
      rw [Finset.mem_range]
      have : (k : ℝ) < y := Nat.lt_ceil.1 hk.2
      exact_mod_cast this.trans_le hy
    have h1 : ∑ k ∈ Finset.Ioo ⌊x⌋₊ ⌈y⌉₊, v k ≤ ∑ k ∈ Finset.range N, v k :=
      Finset.sum_le_sum_of_subset_of_nonneg hsub (fun k hk _ => (hv k (Finset.mem_range.1 hk)).1)
    have h2 : ∑ k ∈ Finset.Ioo ⌊x⌋₊ ⌈y⌉₊, v k = ((⌈y⌉₊ - ⌊x⌋₊ - 1 : ℕ) : ℝ) := by
      rw [Finset.sum_congr rfl (g := fun _ => (1 : ℝ))]
      · simp
      · intro k hk
        have hk' := Finset.mem_range.1 (hsub hk)
        rw [Finset.mem_Ioo] at hk
        exact hin k hk' (Nat.lt_of_floor_lt hk.1) (Nat.lt_ceil.1 hk.2)
    have h3 : (y : ℝ) ≤ ⌈y⌉₊ := Nat.le_ceil y
    have h4 : (⌊x⌋₊ : ℝ) ≤ x := Nat.floor_le hx
    have h5 : ((⌈y⌉₊ : ℝ) - ⌊x⌋₊ - 1) ≤ ((⌈y⌉₊ - ⌊x⌋₊ - 1 : ℕ) : ℝ) := by
      have : (⌈y⌉₊ : ℝ) ≤ ((⌈y⌉₊ - ⌊x⌋₊ - 1 : ℕ) : ℝ) + ⌊x⌋₊ + 1 := by
        have : ⌈y⌉₊ ≤ (⌈y⌉₊ - ⌊x⌋₊ - 1) + ⌊x⌋₊ + 1 := by omega
        exact_mod_cast this
      linarith
    linarith
  · have h1 : ∑ k ∈ Finset.range N, v k ≤ ∑ k ∈ Finset.Icc ⌈x⌉₊ ⌊y⌋₊, (1 : ℝ) := by
      have : ∑ k ∈ Finset.range N, v k =
          ∑ k ∈ (Finset.range N).filter (fun k : ℕ => x ≤ (k : ℝ) ∧ (k : ℝ) ≤ y), v k := by
        rw [Finset.sum_filter]
        apply Finset.sum_congr rfl
        intro k hk
        split_ifs with h
        · rfl
        · apply hout k (Finset.mem_range.1 hk)
          by_contra hc
          push Not at hc
          exact h hc
      rw [this]
      calc ∑ k ∈ (Finset.range N).filter (fun k : ℕ => x ≤ (k : ℝ) ∧ (k : ℝ) ≤ y), v k
          ≤ ∑ k ∈ (Finset.range N).filter (fun k : ℕ => x ≤ (k : ℝ) ∧ (k : ℝ) ≤ y), (1 : ℝ) := by
            apply Finset.sum_le_sum
            intro k hk
            exact (hv k (Finset.mem_range.1 (Finset.mem_filter.1 hk).1)).2
        _ ≤ ∑ k ∈ Finset.Icc ⌈x⌉₊ ⌊y⌋₊, (1 : ℝ) := by
            apply Finset.sum_le_sum_of_subset_of_nonneg
            · intro k hk
              rw [Finset.mem_filter] at hk
              rw [Finset.mem_Icc]
              exact ⟨Nat.ceil_le.2 hk.2.1, Nat.le_floor hk.2.2⟩
            · intros; norm_num
    rw [Finset.sum_const, Nat.card_Icc, nsmul_eq_mul, mul_one] at h1
    have h3 : x ≤ ⌈x⌉₊ := Nat.le_ceil x
    have h4 : (⌊y⌋₊ : ℝ) ≤ y := Nat.floor_le hy0
    by_cases hc : ⌈x⌉₊ ≤ ⌊y⌋₊ + 1
    · rw [Nat.cast_sub hc] at h1
      push_cast at h1
      linarith
    · rw [Nat.sub_eq_zero_of_le (by omega)] at h1
      push_cast at h1
      linarith

/-- **C90**: with many corners the width is the difference of the corner frequencies (the distance
to zero or to the Nyquist frequency for low- and highpass filters) up to the spacing of the
frequencies, sr/1024. -/
theorem C90_corner_frequencies {design : FilterWidth.Design} (hb : Butter design) {sr : ℝ}
    (hsr : 0 < sr) (z : Bool) {p : Pass} (hp : p.Ok sr) {ε : ℝ} (hε : 0 < ε) :
    ∃ N, ∀ n ≥ N, ∀ w, widthOf design sr n z p = .ok w → |w - p.range sr| ≤ sr / 1024 + ε := by
  have hd : 0 < sr / 1024 := by positivity
  let L : ℕ → ℝ := fun k => if |p.den sr (k * (sr / 1024))| < p.num sr (k * (sr / 1024)) then 1
    else if p.num sr (k * (sr / 1024)) = |p.den sr (k * (sr / 1024))| then 1 / 2 else 0
  have hL : ∀ k : ℕ, k < 512 → Tendsto (fun n => p.gain n sr (k * (sr / 1024))) atTop (𝓝 (L k)) := by
    intro k hk
    obtain ⟨d1, d2, -, -⟩ := dominates hsr hp (freq_ok hsr hk).1 (freq_ok hsr hk).2
    have := power_tendsto d1 (abs_nonneg _) d2
    simp only [power_abs] at this
    simpa only [gain_eq] using this
  have hsum : Tendsto (fun n => overBand sr (fun f => p.gain n sr f ^ (z.toNat + 1))) atTop
      (𝓝 (∑ k ∈ Finset.range 512, L k ^ (z.toNat + 1) * (sr / 1024))) := by
    unfold overBand
    apply tendsto_finset_sum
    intro k hk
    exact ((hL k (Finset.mem_range.1 hk)).pow _).mul_const _
  have hlohi : 0 ≤ p.lo ∧ p.lo < p.hi sr ∧ p.hi sr ≤ sr / 2 := by
    cases p with
    | band f1 f2 => exact ⟨hp.1.le, hp.2.1, hp.2.2.le⟩
    | high f0 => exact ⟨hp.1.le, hp.2, le_rfl⟩
    | low f0 => exact ⟨le_rfl, hp.1, hp.2.le⟩
  have hcount : |∑ k ∈ Finset.range 512, L k ^ (z.toNat + 1) -
      (p.hi sr / (sr / 1024) - p.lo / (sr / 1024))| ≤ 1 := by
    apply count_near
    · exact div_nonneg hlohi.1 hd.le
    · exact (div_lt_div_iff_of_pos_right hd).2 hlohi.2.1
    · rw [div_le_iff₀ hd]; push_cast; linarith [hlohi.2.2]
    · intro k _
      have : 0 ≤ L k ∧ L k ≤ 1 := by
        simp only [L]; split_ifs <;> norm_num
      exact ⟨pow_nonneg this.1 _, pow_le_one₀ this.1 this.2⟩
    · intro k hk h1 h2
      rw [div_lt_iff₀ hd] at h1
      rw [lt_div_iff₀ hd] at h2
      have := (dominates hsr hp (freq_ok hsr hk).1 (freq_ok hsr hk).2).2.2.1 h1 h2
      simp only [L, if_pos this, one_pow]
    · intro k hk h
      rw [lt_div_iff₀ hd, div_lt_iff₀ hd] at h
      have := (dominates hsr hp (freq_ok hsr hk).1 (freq_ok hsr hk).2).2.2.2 h
      simp only [L, if_neg (not_lt.2 this.le), if_neg this.ne]
      exact zero_pow (by omega)
  have hlim : |∑ k ∈ Finset.range 512, L k ^ (z.toNat + 1) * (sr / 1024) - p.range sr| ≤ sr / 1024 := by
    have e : ∑ k ∈ Finset.range 512, L k ^ (z.toNat + 1) * (sr / 1024) - p.range sr =
        (∑ k ∈ Finset.range 512, L k ^ (z.toNat + 1) -
          (p.hi sr / (sr / 1024) - p.lo / (sr / 1024))) * (sr / 1024) := by
      rw [← Finset.sum_mul, range_eq, sub_mul, sub_mul, div_mul_cancel₀ _ hd.ne',
        div_mul_cancel₀ _ hd.ne']
    rw [e, abs_mul, abs_of_pos hd]
    nlinarith
  obtain ⟨N, hN⟩ := Metric.tendsto_atTop.1 hsum ε hε
  refine ⟨max N 1, fun n hn w hw => ?_⟩
  rw [C90_value hb hsr (le_of_max_le_right hn) z hp, Except.ok.injEq] at hw
  have h1 := hN n (le_of_max_le_left hn)
  rw [Real.dist_eq, hw] at h1
  calc |w - p.range sr| = |(w - ∑ k ∈ Finset.range 512, L k ^ (z.toNat + 1) * (sr / 1024)) +
        (∑ k ∈ Finset.range 512, L k ^ (z.toNat + 1) * (sr / 1024) - p.range sr)| := by
        rw [sub_add_sub_cancel]
    _ ≤ _ := abs_add_le _ _
    _ ≤ sr / 1024 + ε := by linarith

/-! ## The hypotheses can be met -/

namespace FilterExample

/-- The ideal design. -/
noncomputable def design : FilterWidth.Design := fun n c t =>
  match c with
  | .two f1 f2 => .ok (fun w => √(bandPower n 2 f1 f2 (w / π)))
  | .one f0 => if t = "high" then .ok (fun w => √(highPower n 2 f0 (w / π)))
    else .ok (fun w => √(lowPower n 2 f0 (w / π)))

theorem design_ok : Butter design where
  band n f1 f2 _ _ _ _ := ⟨_, rfl, fun w _ _ => by
    rw [sq_abs, sq_sqrt]; exact power_nonneg _ _ _⟩
  high n f0 _ _ _ := ⟨_, rfl, fun w _ _ => by
    rw [sq_abs, sq_sqrt]; exact power_nonneg _ _ _⟩
  low n f0 _ _ _ := ⟨_, rfl, fun w _ _ => by
    rw [sq_abs, sq_sqrt]; exact power_nonneg _ _ _⟩

example : ∃ w w', widthOf design 100 2 false (.band 4 8) = .ok w ∧
    widthOf design 100 2 true (.band 4 8) = .ok w' ∧ 0 < w' ∧ w' ≤ w ∧ w ≤ 100 / 2 ∧
    widthOf design (2 * 100) 2 false ((Pass.band 4 8).scale 2) = .ok (2 * w) := by
  have hp : (Pass.band 4 8).Ok 100 := by norm_num [Pass.Ok]
  have h1 := C90_value design_ok (sr := 100) (by norm_num) (n := 2) (by norm_num) false hp
  have h2 := C90_value design_ok (sr := 100) (by norm_num) (n := 2) (by norm_num) true hp
  refine ⟨_, _, h1, h2, ?_⟩
  obtain ⟨a, b, c⟩ := C90_bounds design_ok (by norm_num) (by norm_num) hp h1 h2
  exact ⟨a, b, c, C90_units design_ok (by norm_num) (by norm_num) (by norm_num) false hp h1⟩

example : ∃ N, ∀ n ≥ N, ∀ w, widthOf design 100 n false (.band 4 8) = .ok w →
    |w - (8 - 4)| ≤ 100 / 1024 + 0.01 :=
  C90_corner_frequencies design_ok (by norm_num) false (p := .band 4 8) (by norm_num [Pass.Ok])
    (by norm_num)

end FilterExample

end Qopen
