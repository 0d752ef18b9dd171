import Verif.Spec.Smooth
import Verif.Lemmas.ListSum
import Mathlib.Analysis.SpecialFunctions.Trigonometric.Bounds
import Mathlib.Algebra.BigOperators.Intervals
import Mathlib.Algebra.BigOperators.Field
import Mathlib.Tactic.FieldSimp
import Mathlib.Tactic.Linarith

set_option linter.unusedSimpArgs false

namespace Qopen.Util
open Real Spec

theorem sum_range_list (n : ℕ) (f : ℕ → ℝ) :
    ((List.range n).map f).sum = ∑ k ∈ Finset.range n, f k := by
  induction n with
  | zero => rfl
  | succ n ih => rw [List.range_succ, Finset.sum_range_succ, ← ih]; simp

theorem cos_window_lt_one (M n : ℕ) (hM : 3 ≤ M) (hn1 : 1 ≤ n) (hn : n < M - 1) :
    cos (2 * π * n / (M - 1)) < 1 := by
  have hM' : (0:ℝ) < (M:ℝ) - 1 := by
    have : (3:ℝ) ≤ M := by exact_mod_cast hM
    linarith
  have hn' : (n:ℝ) < (M:ℝ) - 1 := by
    have : (n:ℝ) + 1 < M := by exact_mod_cast (by omega : n + 1 < M)
    linarith
  have hn0 : (0:ℝ) < n := by exact_mod_cast hn1
  refine lt_of_le_of_ne (cos_le_one _) ?_
  intro h
  rw [cos_eq_one_iff_of_lt_of_lt] at h
  · have : 2 * π * n / (M - 1) > 0 := by positivity
    linarith
  · have : 2 * π * n / (M - 1) > 0 := by positivity
    have := pi_pos; linarith
  · rw [div_lt_iff₀ hM']
    have := pi_pos
    nlinarith

theorem cos_window_four (M n : ℕ) : cos (4 * π * n / (M - 1)) =
    2 * cos (2 * π * n / (M - 1)) ^ 2 - 1 := by
  rw [← cos_two_mul]; congr 1; ring

theorem windowVal_nonneg (w : Window) (M n : ℕ) (hM : 3 ≤ M) (hn : n < M) :
    0 ≤ windowVal w M n := by
  have hM3 : (3:ℝ) ≤ M := by exact_mod_cast hM
  have h1 := cos_le_one (2 * π * n / ((M:ℝ) - 1))
  have h2 := neg_one_le_cos (2 * π * n / ((M:ℝ) - 1))
  cases w with
  | flat => simp [windowVal]
  | hanning => simp only [windowVal]; linarith
  | hamming => simp only [windowVal]; linarith
  | bartlett =>
    simp only [windowVal]
    apply mul_nonneg
    · apply div_nonneg <;> linarith
    · have : |(n:ℝ) - ((M:ℝ) - 1) / 2| ≤ ((M:ℝ) - 1) / 2 := by
        rw [abs_le]
        have : (n:ℝ) + 1 ≤ M := by exact_mod_cast hn
        constructor
        · have : (0:ℝ) ≤ n := Nat.cast_nonneg _
          linarith
        · linarith
      linarith
  | blackman =>
    simp only [windowVal]
    rw [cos_window_four]
    nlinarith
  | other => simp [windowVal]

theorem windowVal_one_pos (w : Window) (M : ℕ) (hM : 3 ≤ M) (hw : w ≠ .other) :
    0 < windowVal w M 1 := by
  have hM3 : (3:ℝ) ≤ M := by exact_mod_cast hM
  have h1 := cos_window_lt_one M 1 hM le_rfl (by omega)
  have h2 := neg_one_le_cos (2 * π * (1:ℕ) / ((M:ℝ) - 1))
  cases w with
  | flat => simp [windowVal]
  | hanning => simp only [windowVal]; linarith
  | hamming => simp only [windowVal]; linarith
  | bartlett =>
    simp only [windowVal]
    apply mul_pos
    · apply div_pos <;> linarith
    · have : |((1:ℕ):ℝ) - ((M:ℝ) - 1) / 2| < ((M:ℝ) - 1) / 2 := by
        rw [abs_lt]
        push_cast
        constructor <;> linarith
      linarith
  | blackman =>
    simp only [windowVal]
    rw [cos_window_four]
    nlinarith
  | other => exact absurd rfl hw

theorem windowVal_symm (w : Window) (M n : ℕ) (hM : 3 ≤ M) (hn : n < M) :
    windowVal w M (M - 1 - n) = windowVal w M n := by
  have hM3 : (3:ℝ) ≤ M := by exact_mod_cast hM
  have hc : ((M - 1 - n : ℕ) : ℝ) = (M:ℝ) - 1 - n := by
    rw [Nat.cast_sub (by omega), Nat.cast_sub (by omega)]; simp
  have hd : (M:ℝ) - 1 ≠ 0 := by linarith
  have hcos : cos (2 * π * ((M:ℝ) - 1 - n) / ((M:ℝ) - 1)) = cos (2 * π * n / ((M:ℝ) - 1)) := by
    have : 2 * π * ((M:ℝ) - 1 - n) / ((M:ℝ) - 1) = 2 * π - 2 * π * n / ((M:ℝ) - 1) := by
      field_simp
    rw [this, cos_two_pi_sub]
  have hcos4 : cos (4 * π * ((M:ℝ) - 1 - n) / ((M:ℝ) - 1)) = cos (4 * π * n / ((M:ℝ) - 1)) := by
    have h := cos_window_four M (M - 1 - n)
    rw [hc] at h
    rw [h, hcos, ← cos_window_four]
  cases w with
  | flat => rfl
  | hanning => simp only [windowVal, hc, hcos]
  | hamming => simp only [windowVal, hc, hcos]
  | bartlett =>
    simp only [windowVal, hc]
    congr 2
    rw [← abs_neg]; congr 1; ring
  | blackman => simp only [windowVal, hc, hcos, hcos4]
  | other => rfl

/-- Normalised weights as a function. -/
noncomputable def ωfun (w : Window) (M k : ℕ) : ℝ :=
  windowVal w M k / ((List.range M).map (windowVal w M)).sum

theorem windowNorm_getD (w : Window) (M k : ℕ) (hk : k < M) :
    (windowNorm w M).getD k 0 = ωfun w M k := by
  simp [windowNorm, ωfun, List.getD_eq_getElem?_getD, hk]

theorem isWeights_ωfun (w : Window) (M : ℕ) (hM : 3 ≤ M) (hw : w ≠ .other) :
    IsWeights (ωfun w M) M := by
  have hs : 0 < ((List.range M).map (windowVal w M)).sum :=
    sum_map_pos (fun n hn => windowVal_nonneg w M n hM (List.mem_range.1 hn))
      (List.mem_range.2 (by omega : 1 < M)) (windowVal_one_pos w M hM hw)
  refine ⟨fun k hk => ?_, fun k hk => ?_, ?_⟩
  · exact div_nonneg (windowVal_nonneg w M k hM hk) hs.le
  · unfold ωfun; rw [windowVal_symm w M k hM hk]
  · unfold ωfun
    rw [← Finset.sum_div, ← sum_range_list, div_self hs.ne']

theorem pad_length (b : Border) (x : List ℝ) (M : ℕ) (hM : 3 ≤ M) (hx : M ≤ x.length)
    (hb : b ≠ .noBorder) : (pad b x M).length = x.length + (M - 1) := by
  cases b with
  | zeros => simp [pad]; omega
  | reflect => simp [pad]; omega
  | clip => simp [pad]; omega
  | noBorder => exact absurd rfl hb

theorem pad_getD (b : Border) (x : List ℝ) (M p : ℕ) (hM : 3 ≤ M) (hx : M ≤ x.length)
    (hb : b ≠ .noBorder) (hp : p < x.length + (M - 1)) :
    (pad b x M).getD p 0 = extend b x ((p : ℤ) - ((M - 1) / 2 : ℕ)) := by
  unfold extend
  simp only [List.getD_eq_getElem?_getD]
  rcases lt_trichotomy p ((M - 1) / 2) with h | h | h
  · rw [if_neg (by omega)]
    cases b with
    | zeros =>
      simp only [pad, List.append_assoc]
      rw [List.getElem?_append_left (by simpa using h)]
      simp [h]
    | reflect =>
      simp only [pad, List.append_assoc]
      rw [List.getElem?_append_left (by simp; omega), if_pos (by omega)]
      have hl : (List.take ((M - 1) / 2) (List.drop 1 x)).length = (M - 1) / 2 := by simp; omega
      rw [List.getElem?_reverse (by omega), hl, List.getElem?_take_of_lt (by omega),
        List.getElem?_drop]
      congr 2; omega
    | clip =>
      simp only [pad, List.append_assoc]
      rw [List.getElem?_append_left (by simpa using h), if_pos (by omega)]
      cases x with
      | nil => simp at hx; omega
      | cons a x => simp [h]
    | noBorder => exact absurd rfl hb
  all_goals
    by_cases h2 : p - (M - 1) / 2 < x.length
    · rw [if_pos (by omega)]
      have e : ((p : ℤ) - ((M - 1) / 2 : ℕ)).toNat = p - (M - 1) / 2 := by omega
      rw [e]
      cases b with
      | zeros =>
        simp only [pad]
        rw [List.getElem?_append_left (by simp; omega), List.getElem?_append_right (by simp; omega)]
        simp
      | reflect =>
        simp only [pad]
        have hl : (List.take ((M - 1) / 2) (List.drop 1 x)).reverse.length = (M - 1) / 2 := by
          simp; omega
        rw [List.getElem?_append_left (by rw [List.length_append, hl]; omega),
          List.getElem?_append_right (by rw [hl]; omega), hl]
      | clip =>
        simp only [pad]
        rw [List.getElem?_append_left (by simp; omega), List.getElem?_append_right (by simp; omega)]
        simp
      | noBorder => exact absurd rfl hb
    · rw [if_neg (by omega)]
      cases b with
      | zeros =>
        simp only [pad]
        rw [List.getElem?_append_right (by simp; omega)]
        simp only [List.getElem?_replicate]
        split <;> rfl
      | reflect =>
        simp only [pad]
        have hl : (List.take ((M - 1) / 2) (List.drop 1 x)).reverse.length = (M - 1) / 2 := by
          simp; omega
        rw [List.getElem?_append_right (by rw [List.length_append, hl]; omega), if_neg (by omega),
          List.length_append, hl, List.getElem?_take_of_lt (by omega),
          List.getElem?_reverse (by omega)]
        congr 2; omega
      | clip =>
        simp only [pad]
        rw [List.getElem?_append_right (by simp; omega), if_neg (by omega)]
        have : List.getLastD x 0 = (x[x.length - 1]?).getD 0 := by
          rw [List.getLastD_eq_getLast?, List.getLast?_eq_getElem?]
        rw [this, List.getElem?_replicate, if_pos (by simp; omega)]
        rfl
      | noBorder => exact absurd rfl hb

theorem windowNorm_length (w : Window) (M : ℕ) : (windowNorm w M).length = M := by
  simp [windowNorm]

theorem convolve_getElem (w : Window) (M : ℕ) (s : List ℝ) (hM : 3 ≤ M) (hw : w ≠ .other)
    (hs : M ≤ s.length) (j : ℕ) (hj : j < s.length - M + 1) :
    (convolveValid (windowNorm w M) s)[j]? =
      some (∑ k ∈ Finset.range M, ωfun w M k * s.getD (j + k) 0) := by
  unfold convolveValid
  rw [windowNorm_length, List.getElem?_map, List.getElem?_range hj]
  simp only [Option.map_some, Option.some.injEq]
  rw [sum_range_list]
  rw [← Finset.sum_range_reflect]
  apply Finset.sum_congr rfl
  intro k hk
  have hk := Finset.mem_range.1 hk
  rw [windowNorm_getD _ _ _ (by omega), (isWeights_ωfun w M hM hw).symm k hk]
  congr 2; omega

theorem convolve_length (w s : List ℝ) : (convolveValid w s).length = s.length - w.length + 1 := by
  simp [convolveValid]

end Qopen.Util
