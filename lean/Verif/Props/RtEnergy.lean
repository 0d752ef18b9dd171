import Verif.Props.RtScale
import Mathlib.MeasureTheory.Measure.Lebesgue.VolumeOfBalls
import Mathlib.MeasureTheory.Constructions.HaarToSphere
import Mathlib.MeasureTheory.Integral.IntervalIntegral.FundThmCalculus
import Mathlib.MeasureTheory.Integral.DominatedConvergence
import Mathlib.Analysis.SpecialFunctions.Gaussian.FourierTransform
import Mathlib.Analysis.SpecialFunctions.Trigonometric.Series

/-!
# Properties C54-C57: conservation of energy and diffusion limit (rt.py)
-/

set_option linter.unusedSimpArgs false

namespace Qopen
open Rt Spec Real MeasureTheory Set Filter Topology

namespace Spec

/-- Energy density behind the wave front at point `x`, for a source at the origin; zero on the wave
front itself, which is covered by the direct wave. -/
noncomputable def field (type : String) (n : ℕ) (t c g0 : ℝ) (x : EuclideanSpace ℝ (Fin n)) : ℝ :=
  match single ‖x‖ t c g0 type with
  | .ok (.num (some v)) => v
  | _ => 0

/-- Energy behind the wave front. -/
noncomputable def codaEnergy (type : String) (n : ℕ) (t c g0 : ℝ) : ℝ :=
  ∫ x : EuclideanSpace ℝ (Fin n), field type n t c g0 x

end Spec

theorem field_eq {type : String} {k : Kind} (hk : kindOf type = some k) (n : ℕ) (t c g0 : ℝ)
    (hc : 0 < c) (hg : 0 < g0) (x : EuclideanSpace ℝ (Fin n)) :
    field type n t c g0 x =
      (fun y => if c * t < y then 0 else (coda k y t c g0).getD 0) ‖x‖ := by
  classical
  unfold field
  rw [single_eq hc hg hk]
  unfold beforeArrival
  by_cases h : c * t < ‖x‖
  · simp only [if_pos h]
  · simp only [if_neg h]
    cases coda k ‖x‖ t c g0 <;> rfl

/-- Integration over shells. -/
theorem codaEnergy_shells {type : String} {k : Kind} (hk : kindOf type = some k) (n : ℕ) [NeZero n]
    (t c g0 : ℝ) (hc : 0 < c) (hg : 0 < g0) (ht : 0 < t) (f : ℝ → ℝ)
    (hf : ∀ y, 0 < y → y < c * t → coda k y t c g0 = some (f y))  :
    codaEnergy type n t c g0 =
      n * (volume.real (Metric.ball (0 : EuclideanSpace ℝ (Fin n)) 1)) *
        ∫ y in (0 : ℝ)..(c * t), y ^ (n - 1) * f y := by
  unfold codaEnergy
  have h1 : ∀ x : EuclideanSpace ℝ (Fin n), field type n t c g0 x =
    (fun y => if c * t < y then 0 else (coda k y t c g0).getD 0) ‖x‖ :=
      fun x => field_eq hk n t c g0 hc hg x
  simp_rw [h1]
  haveI : Nonempty (Fin n) := ⟨0⟩
  rw [integral_fun_norm_addHaar (volume : Measure (EuclideanSpace ℝ (Fin n)))
    (fun y => if c * t < y then 0 else (coda k y t c g0).getD 0)]
  simp only [finrank_euclideanSpace, Fintype.card_fin, nsmul_eq_mul, smul_eq_mul]
  rw [← mul_assoc]
  congr 1
  have hct : 0 ≤ c * t := by positivity
  rw [intervalIntegral.integral_of_le hct]
  have hsub : Ioc 0 (c * t) ⊆ Ioi (0 : ℝ) := fun x hx => hx.1
  rw [setIntegral_eq_of_subset_of_forall_diff_eq_zero measurableSet_Ioi hsub]
  · rw [integral_Ioc_eq_integral_Ioo, integral_Ioc_eq_integral_Ioo]
    refine setIntegral_congr_fun measurableSet_Ioo ?_
    intro y hy
    simp only [if_neg (not_lt.2 hy.2.le), hf y hy.1 hy.2, Option.getD_some]
  · intro y hy
    have : c * t < y := by
      by_contra hn
      exact hy.2 ⟨hy.1, not_lt.1 hn⟩
    simp [this]

/-! ## C54 -/

/-- **C54**: in two dimensions the energy behind the wave front and the energy of the direct wave on
the circle with radius `c t` sum up to 1. -/
theorem C54_energy_2d (t c g0 : ℝ) (ht : 0 < t) (hc : 0 < c) (hg : 0 < g0) :
    codaEnergy "rt2d" 2 t c g0 + 2 * π * (c * t) * rt2dDirect t c g0 = 1 := by
  have hk : kindOf "rt2d" = some .rt2d := by simp [kindOf]
  rw [codaEnergy_shells hk 2 t c g0 hc hg ht (fun y => rt2dCoda y t c g0)
    (fun y _ hy => by simp only [coda, if_pos hy])]
  have hA : 0 < c * t := by positivity
  have hpi := pi_pos
  set A := c * t with hAdef
  -- antiderivative
  let F : ℝ → ℝ := fun r => -(1 / (2 * π)) * exp ((sqrt (A ^ 2 - r ^ 2) - A) * g0)
  have hderiv : ∀ r ∈ Ioo 0 A, HasDerivAt F (r ^ (2 - 1) * rt2dCoda r t c g0) r := by
    intro r hr
    have hpos : 0 < A ^ 2 - r ^ 2 := by nlinarith [hr.1, hr.2]
    have h1 : HasDerivAt (fun r : ℝ => A ^ 2 - r ^ 2) (-(2 * r)) r := by
      have := ((hasDerivAt_pow 2 r).const_sub (A ^ 2))
      simpa using this
    have h2 := h1.sqrt hpos.ne'
    have h3 := (((h2.sub_const A).mul_const g0).exp).const_mul (-(1 / (2 * π)))
    refine h3.congr_deriv ?_
    unfold rt2dCoda
    simp only [pow_one]
    have e1 : c ^ 2 * t ^ 2 - r ^ 2 = A ^ 2 - r ^ 2 := by rw [hAdef]; ring
    have e2 : (1 - r ^ 2 / c ^ 2 / t ^ 2) ^ (-1 / 2 : ℝ) = A / sqrt (A ^ 2 - r ^ 2) := by
      have : 1 - r ^ 2 / c ^ 2 / t ^ 2 = (A ^ 2 - r ^ 2) / A ^ 2 := by
        rw [hAdef]; field_simp
      rw [this, show (-1 / 2 : ℝ) = -(1 / 2) by norm_num, rpow_neg (by positivity), ← sqrt_eq_rpow,
        sqrt_div hpos.le, sqrt_sq hA.le, inv_div]
    have e3 : (sqrt (A ^ 2 - r ^ 2) - A) / (1 / g0) = (sqrt (A ^ 2 - r ^ 2) - A) * g0 := by
      field_simp
    rw [e1, e2, ← hAdef, e3]
    have hs : 0 < sqrt (A ^ 2 - r ^ 2) := sqrt_pos.2 hpos
    rw [show 2 * π * (1 / g0) * c * t = 2 * π * (1 / g0) * A by rw [hAdef]; ring]
    rw [show 2 - 1 = 1 from rfl, pow_one]
    field_simp
  have hcont : ContinuousOn F (Icc 0 A) := by
    apply Continuous.continuousOn
    fun_prop
  have hint : IntervalIntegrable (fun r => r ^ (2 - 1) * rt2dCoda r t c g0) volume 0 A := by
    refine intervalIntegral.intervalIntegrable_deriv_of_nonneg (g := F) ?_ ?_ ?_
    · rwa [uIcc_of_le hA.le]
    · rwa [min_eq_left hA.le, max_eq_right hA.le]
    · rw [min_eq_left hA.le, max_eq_right hA.le]
      intro r hr
      unfold rt2dCoda
      simp only
      obtain ⟨-, -, h3⟩ := front_pos hr.1.le hc hr.2
      have h1 := rpow_pos_of_pos h3 (-1 / 2)
      have := hr.1
      positivity
  rw [intervalIntegral.integral_eq_sub_of_hasDerivAt_of_le hA.le hcont hderiv hint]
  have hball : volume.real (Metric.ball (0 : EuclideanSpace ℝ (Fin 2)) 1) = π := by
    simp [Measure.real, EuclideanSpace.volume_ball_fin_two, hpi.le]
  rw [hball]
  simp only [F]
  have e0 : sqrt (A ^ 2 - 0 ^ 2) = A := by rw [zero_pow two_ne_zero, sub_zero, sqrt_sq hA.le]
  rw [sub_self (A ^ 2), sqrt_zero, e0]
  unfold rt2dDirect
  simp only
  have e4 : -c * t / (1 / g0) = (0 - A) * g0 := by rw [hAdef]; field_simp; ring
  rw [e4, sub_self, zero_mul, exp_zero, show 2 * π * c * t = 2 * π * A by rw [hAdef]; ring]
  field_simp
  push_cast
  ring

example : codaEnergy "rt2d" 2 3 2000 1e-6 + 2 * π * (2000 * 3) * rt2dDirect 3 2000 1e-6 = 1 :=
  C54_energy_2d _ _ _ (by norm_num) (by norm_num) (by norm_num)

/-! ## C55 -/

theorem integral_pow_shell (A : ℝ) (k : ℕ) :
    ∫ r in (0 : ℝ)..A, (A ^ 2 - r ^ 2) ^ k =
      A ^ (2 * k + 1) * 4 ^ k * (k.factorial : ℝ) ^ 2 / (2 * k + 1).factorial := by
  induction k with
  | zero => simp
  | succ k ih =>
    have hd : ∀ r : ℝ, HasDerivAt (fun r : ℝ => r * (A ^ 2 - r ^ 2) ^ (k + 1))
        ((2 * k + 3) * (A ^ 2 - r ^ 2) ^ (k + 1) - 2 * (k + 1) * A ^ 2 * (A ^ 2 - r ^ 2) ^ k) r := by
      intro r
      have h1 : HasDerivAt (fun r : ℝ => A ^ 2 - r ^ 2) (-(2 * r)) r := by
        have := ((hasDerivAt_pow 2 r).const_sub (A ^ 2))
        simpa using this
      have h2 := (hasDerivAt_id r).mul (h1.pow (k + 1))
      refine h2.congr_deriv ?_
      simp only [id, Nat.add_sub_cancel, Pi.pow_apply]
      push_cast
      ring
    have hi : ∀ m : ℕ, IntervalIntegrable (fun r : ℝ => (A ^ 2 - r ^ 2) ^ m) volume 0 A := by
      intro m
      apply Continuous.intervalIntegrable
      fun_prop
    have h := intervalIntegral.integral_eq_sub_of_hasDerivAt (fun r _ => hd r)
      (((hi (k + 1)).const_mul _).sub ((hi k).const_mul _))
    rw [intervalIntegral.integral_sub ((hi (k + 1)).const_mul _) ((hi k).const_mul _),
      intervalIntegral.integral_const_mul, intervalIntegral.integral_const_mul, ih] at h
    simp only [sub_self, zero_mul, mul_zero, ne_eq, Nat.succ_ne_zero, not_false_eq_true, zero_pow,
      Nat.add_eq_zero_iff, one_ne_zero, and_false] at h
    have h3 : (2 * (k : ℝ) + 3) ≠ 0 := by positivity
    have hmain : ∫ r in (0 : ℝ)..A, (A ^ 2 - r ^ 2) ^ (k + 1) =
        2 * (k + 1) * A ^ 2 * (A ^ (2 * k + 1) * 4 ^ k * (k.factorial : ℝ) ^ 2 /
          (2 * k + 1).factorial) / (2 * k + 3) := by
      rw [eq_div_iff h3]; linarith
    rw [hmain, show 2 * (k + 1) + 1 = (2 * k + 1) + 1 + 1 by ring, Nat.factorial_succ (2 * k + 1 + 1),
      Nat.factorial_succ (2 * k + 1), Nat.factorial_succ k]
    have hf : ((2 * k + 1).factorial : ℝ) ≠ 0 := by positivity
    push_cast
    field_simp
    ring

theorem _root_.HasSum.congr_fun' {f g : ℕ → ℝ} {a : ℝ} (h : HasSum f a) (e : ∀ k, g k = f k) :
    HasSum g a := by
  rwa [funext e]

/-- Integral of a series of powers of `A² - r²` term by term. -/
theorem hasSum_shell (A : ℝ) (hA : 0 < A) (a : ℕ → ℝ) (ha : ∀ k, 0 ≤ a k)
    (hs : Summable (fun k => a k * (A ^ (2 * k + 1) * 4 ^ k * (k.factorial : ℝ) ^ 2 /
      (2 * k + 1).factorial))) :
    ∫ r in (0 : ℝ)..A, ∑' k, a k * (A ^ 2 - r ^ 2) ^ k =
      ∑' k, a k * (A ^ (2 * k + 1) * 4 ^ k * (k.factorial : ℝ) ^ 2 / (2 * k + 1).factorial) := by
  have hint : ∀ k, ∫ r in Ioc 0 A, a k * (A ^ 2 - r ^ 2) ^ k =
      a k * (A ^ (2 * k + 1) * 4 ^ k * (k.factorial : ℝ) ^ 2 / (2 * k + 1).factorial) := by
    intro k
    rw [integral_const_mul, ← intervalIntegral.integral_of_le hA.le, integral_pow_shell]
  have hF : ∀ k, Integrable (fun r : ℝ => a k * (A ^ 2 - r ^ 2) ^ k) (volume.restrict (Ioc 0 A)) := by
    intro k
    have : IntervalIntegrable (fun r : ℝ => a k * (A ^ 2 - r ^ 2) ^ k) volume 0 A := by
      apply Continuous.intervalIntegrable
      fun_prop
    exact (intervalIntegrable_iff_integrableOn_Ioc_of_le hA.le).1 this
  have hnorm : ∀ k, ∫ r in Ioc 0 A, ‖a k * (A ^ 2 - r ^ 2) ^ k‖ =
      ∫ r in Ioc 0 A, a k * (A ^ 2 - r ^ 2) ^ k := by
    intro k
    refine setIntegral_congr_fun measurableSet_Ioc ?_
    intro r hr
    have : 0 ≤ A ^ 2 - r ^ 2 := by nlinarith [hr.1, hr.2]
    beta_reduce
    rw [norm_of_nonneg (mul_nonneg (ha k) (pow_nonneg this k))]
  have h := hasSum_integral_of_summable_integral_norm hF (by
    simp_rw [hnorm, hint]; exact hs)
  simp_rw [hint] at h
  rw [intervalIntegral.integral_of_le hA.le, h.tsum_eq]

theorem rt1d_series (A q r : ℝ) (hA : r ^ 2 < A ^ 2) :
    iv 0 (2 * q * sqrt (A ^ 2 - r ^ 2)) + A * iv 1 (2 * q * sqrt (A ^ 2 - r ^ 2)) /
      sqrt (A ^ 2 - r ^ 2) =
    (∑' k : ℕ, q ^ (2 * k) / (k.factorial * k.factorial) * (A ^ 2 - r ^ 2) ^ k) +
    ∑' k : ℕ, A * q ^ (2 * k + 1) / (k.factorial * (k + 1).factorial) * (A ^ 2 - r ^ 2) ^ k := by
  have hpos : 0 < A ^ 2 - r ^ 2 := by linarith
  have hs : 0 < sqrt (A ^ 2 - r ^ 2) := sqrt_pos.2 hpos
  set s := sqrt (A ^ 2 - r ^ 2) with hsdef
  have hsq : A ^ 2 - r ^ 2 = s ^ 2 := (sq_sqrt hpos.le).symm
  rw [hsq]
  congr 1
  · unfold iv
    congr 1; funext k
    rw [show 2 * q * s / 2 = q * s by ring, add_zero, add_zero, mul_pow, pow_mul s]
    ring
  · unfold iv
    rw [mul_div_assoc, ← tsum_div_const, ← tsum_mul_left]
    congr 1; funext k
    rw [show 2 * q * s / 2 = q * s by ring, mul_pow, pow_succ s, pow_mul s]
    field_simp

/-- **C55**: in one dimension the energy between the wave fronts and the energies of the two direct
waves sum up to 1. -/
theorem C55_energy_1d (t c g0 : ℝ) (ht : 0 < t) (hc : 0 < c) (hg : 0 < g0) :
    codaEnergy "rt1d" 1 t c g0 + 2 * rt1dDirect t c g0 = 1 := by
  have hk : kindOf "rt1d" = some .rt1d := by simp [kindOf]
  rw [codaEnergy_shells hk 1 t c g0 hc hg ht (fun y => rt1dCoda y t c g0)
    (fun y _ hy => by simp only [coda, if_pos hy])]
  have hA : 0 < c * t := by positivity
  set A := c * t with hAdef
  set q := g0 / 4 with hq
  have hq0 : 0 < q := by positivity
  have hball : volume.real (Metric.ball (0 : EuclideanSpace ℝ (Fin 1)) 1) = 2 := by
    rw [Measure.real, InnerProductSpace.volume_ball_of_dim_odd (k := 0) (by simp)]
    simp
  rw [hball]
  have hco : ∀ r ∈ Ioo 0 A, rt1dCoda r t c g0 = q * exp (-(2 * q * A)) *
      ∑' k : ℕ, (q ^ (2 * k) / (k.factorial * k.factorial) +
        A * q ^ (2 * k + 1) / (k.factorial * (k + 1).factorial)) * (A ^ 2 - r ^ 2) ^ k := by
    intro r hr
    have hx : 0 ≤ A ^ 2 - r ^ 2 := by nlinarith [hr.1, hr.2]
    have hsum := Real.summable_pow_div_factorial (q ^ 2 * (A ^ 2 - r ^ 2))
    have s1 : Summable (fun k : ℕ => q ^ (2 * k) / (k.factorial * k.factorial) *
        (A ^ 2 - r ^ 2) ^ k) := by
      refine Summable.of_nonneg_of_le (fun k => by positivity) (fun k => ?_) hsum
      have h1 : (1 : ℝ) ≤ k.factorial := by exact_mod_cast Nat.one_le_iff_ne_zero.2 k.factorial_ne_zero
      rw [mul_pow (q ^ 2), ← pow_mul, div_mul_eq_mul_div]
      refine div_le_div_of_nonneg_left (by positivity) (by positivity) ?_
      nlinarith
    have s2 : Summable (fun k : ℕ => A * q ^ (2 * k + 1) / (k.factorial * (k + 1).factorial) *
        (A ^ 2 - r ^ 2) ^ k) := by
      refine Summable.of_nonneg_of_le (fun k => by positivity) (fun k => ?_) (hsum.mul_left (A * q))
      have h1 : (1 : ℝ) ≤ (k + 1).factorial := by
        exact_mod_cast Nat.one_le_iff_ne_zero.2 (k + 1).factorial_ne_zero
      rw [mul_pow (q ^ 2), ← pow_mul, div_mul_eq_mul_div, ← mul_div_assoc,
        show A * q ^ (2 * k + 1) * (A ^ 2 - r ^ 2) ^ k = A * q * (q ^ (2 * k) * (A ^ 2 - r ^ 2) ^ k) by
          ring]
      refine div_le_div_of_nonneg_left (by positivity) (by positivity) ?_
      have h2 : (0 : ℝ) < k.factorial := by positivity
      nlinarith
    simp_rw [add_mul]
    rw [s1.tsum_add s2]
    rw [← rt1d_series A q r (by nlinarith [hr.1, hr.2])]
    unfold rt1dCoda
    simp only
    have e1 : c ^ 2 * t ^ 2 - r ^ 2 = A ^ 2 - r ^ 2 := by rw [hAdef]; ring
    have e2 : sqrt (A ^ 2 - r ^ 2) / 2 / (1 / g0) = 2 * q * sqrt (A ^ 2 - r ^ 2) := by
      rw [hq]; field_simp; ring
    have e3 : -c * t / 2 / (1 / g0) = -(2 * q * A) := by rw [hq, hAdef]; field_simp; ring
    have e4 : 1 / 4 / (1 / g0) = q := by rw [hq]; field_simp
    rw [e1, e2, e3, e4]
  have h1 : HasSum (fun k : ℕ => q ^ (2 * k) / (k.factorial * k.factorial) *
      (A ^ (2 * k + 1) * 4 ^ k * (k.factorial : ℝ) ^ 2 / (2 * k + 1).factorial))
      (sinh (2 * q * A) / (2 * q)) := by
    have := (hasSum_sinh (2 * q * A)).div_const (2 * q)
    refine this.congr_fun' ?_
    intro k
    have : (k.factorial : ℝ) ≠ 0 := by positivity
    have h2 : ((2 * k + 1).factorial : ℝ) ≠ 0 := by positivity
    rw [mul_pow (2 * q), pow_succ (2 * q), mul_pow 2 q (2 * k), pow_mul 2 2 k]
    field_simp
    norm_num
  have h2 : HasSum (fun k : ℕ => A * q ^ (2 * k + 1) / (k.factorial * (k + 1).factorial) *
      (A ^ (2 * k + 1) * 4 ^ k * (k.factorial : ℝ) ^ 2 / (2 * k + 1).factorial))
      ((cosh (2 * q * A) - 1) / (2 * q)) := by
    have h0 := hasSum_cosh (2 * q * A)
    have := ((hasSum_nat_add_iff' 1).2 h0).div_const (2 * q)
    simp only [Finset.sum_range_one, mul_zero, pow_zero, Nat.factorial_zero, Nat.cast_one,
      div_one] at this
    refine this.congr_fun' ?_
    intro k
    have hk1 : (k.factorial : ℝ) ≠ 0 := by positivity
    have hk2 : ((2 * k + 1).factorial : ℝ) ≠ 0 := by positivity
    rw [show 2 * (k + 1) = 2 * k + 1 + 1 by ring, Nat.factorial_succ (2 * k + 1),
      Nat.factorial_succ k, mul_pow (2 * q), mul_pow 2 q, pow_succ 2, pow_succ 2, pow_mul 2 2 k]
    push_cast
    field_simp
    ring
  have h3 := h1.add h2
  simp_rw [← add_mul] at h3
  have i1 := hasSum_shell A hA _ (fun k => by positivity) h3.summable
  rw [intervalIntegral.integral_of_le hA.le, integral_Ioc_eq_integral_Ioo,
    setIntegral_congr_fun measurableSet_Ioo (g := fun r => q * exp (-(2 * q * A)) *
      ∑' k : ℕ, (q ^ (2 * k) / (k.factorial * k.factorial) +
        A * q ^ (2 * k + 1) / (k.factorial * (k + 1).factorial)) * (A ^ 2 - r ^ 2) ^ k)
      (fun r hr => by simp only [Nat.sub_self, pow_zero, one_mul]; exact hco r hr),
    ← integral_Ioc_eq_integral_Ioo, ← intervalIntegral.integral_of_le hA.le,
    intervalIntegral.integral_const_mul, i1, h3.tsum_eq]
  unfold rt1dDirect
  simp only
  have e3 : -c * t / 2 / (1 / g0) = -(2 * q * A) := by rw [hq, hAdef]; field_simp; ring
  rw [e3, ← add_div, show sinh (2 * q * A) + (cosh (2 * q * A) - 1) = exp (2 * q * A) - 1 by
    rw [← cosh_add_sinh]; ring, exp_neg]
  have := (exp_pos (2 * q * A)).ne'
  push_cast
  field_simp
  ring

example : codaEnergy "rt1d" 1 3 2000 1e-6 + 2 * rt1dDirect 3 2000 1e-6 = 1 :=
  C55_energy_1d _ _ _ (by norm_num) (by norm_num) (by norm_num)

/-! ## C56 -/

/-- **C56**: the diffusion approximation integrates to 1 over the whole space. -/
theorem C56_energy_diffusion (n : ℕ) (hn : 0 < n) (t c g0 : ℝ) (ht : 0 < t) (hc : 0 < c)
    (hg : 0 < g0) :
    ∫ x : EuclideanSpace ℝ (Fin n), diff ‖x‖ t c g0 n = 1 := by
  unfold diff
  simp only
  have hn' : (0 : ℝ) < n := by exact_mod_cast hn
  have hD : 0 < c / (n * g0) := by positivity
  set D := c / (n * g0)
  rw [integral_const_mul]
  have h := GaussianFourier.integral_rexp_neg_mul_sq_norm (V := EuclideanSpace ℝ (Fin n))
    (b := 1 / (4 * D * t)) (by positivity)
  have e : ∀ x : EuclideanSpace ℝ (Fin n), -‖x‖ ^ 2 / (4 * D * t) = -(1 / (4 * D * t)) * ‖x‖ ^ 2 := by
    intro x; ring
  simp_rw [e]
  rw [h, finrank_euclideanSpace, Fintype.card_fin,
    show π / (1 / (4 * D * t)) = 4 * π * D * t by field_simp, ← rpow_add (by positivity)]
  rw [show -(n : ℝ) / 2 + n / 2 = 0 by ring, rpow_zero]

example : ∫ x : EuclideanSpace ℝ (Fin 3), diff ‖x‖ 20 3000 1e-6 = 1 :=
  C56_energy_diffusion 3 (by norm_num) _ _ _ (by norm_num) (by norm_num) (by norm_num)

/-- **C56**: the Green's function of the diffusion approximation is cut off at the wave front, its
energy is therefore smaller than 1. -/
theorem C56_energy_cutoff (n : ℕ) (type : String) (hty : (n, type) ∈ [(1, "diff1d"), (2, "diff2d"),
    (3, "diff3d")]) (t c g0 : ℝ) (ht : 0 < t) (hc : 0 < c) (hg : 0 < g0) :
    codaEnergy type n t c g0 ≤ 1 := by
  have hn : 0 < n ∧ kindOf type = some (.diff n) := by
    simp only [List.mem_cons, Prod.mk.injEq, List.not_mem_nil, or_false] at hty
    rcases hty with ⟨rfl, rfl⟩ | ⟨rfl, rfl⟩ | ⟨rfl, rfl⟩ <;> simp [kindOf]
  obtain ⟨hn, hk⟩ := hn
  have h1 := C56_energy_diffusion n hn t c g0 ht hc hg
  have hi : Integrable (fun x : EuclideanSpace ℝ (Fin n) => diff ‖x‖ t c g0 n) := by
    by_contra hni
    rw [integral_undef hni] at h1
    exact zero_ne_one h1
  have hpos : ∀ y, 0 ≤ diff y t c g0 n := by
    intro y
    unfold diff
    simp only
    have hn' : (0 : ℝ) < n := by exact_mod_cast hn
    positivity
  rw [← h1]
  refine integral_mono_of_nonneg (Eventually.of_forall fun x => ?_) hi
    (Eventually.of_forall fun x => ?_)
  · simp only [Pi.zero_apply]
    rw [field_eq hk n t c g0 hc hg]
    simp only [coda, if_pos ht, Option.getD_some]
    split
    · exact le_rfl
    · exact hpos _
  · simp only
    rw [field_eq hk n t c g0 hc hg]
    simp only [coda, if_pos ht, Option.getD_some]
    split
    · exact hpos _
    · exact le_rfl

example : codaEnergy "diff3d" 3 20 3000 1e-6 ≤ 1 :=
  C56_energy_cutoff 3 _ (by simp) _ _ _ (by norm_num) (by norm_num) (by norm_num)

/-! ## C57 -/

theorem tendsto_const_div (R : ℝ) : Tendsto (fun T : ℝ => R / T) atTop (𝓝 0) :=
  tendsto_const_nhds.div_atTop tendsto_id

theorem reduced_limit (R : ℝ) :
    Tendsto (fun T : ℝ => (1 - R ^ 2 / T ^ 2) ^ (0.125 : ℝ) *
      (exp (T * ((1 - R ^ 2 / T ^ 2) ^ (0.75 : ℝ) - 1)) * bigF (T * (1 - R ^ 2 / T ^ 2) ^ (0.75 : ℝ))) *
      exp (3 * R ^ 2 / 4 / T)) atTop (𝓝 1) := by
  have ha : Tendsto (fun T : ℝ => 1 - R ^ 2 / T ^ 2) atTop (𝓝 1) := by
    have : Tendsto (fun T : ℝ => R ^ 2 / T ^ 2) atTop (𝓝 0) :=
      tendsto_const_nhds.div_atTop (tendsto_pow_atTop two_ne_zero)
    simpa using (tendsto_const_nhds (x := (1 : ℝ))).sub this
  have hp : ∀ p : ℝ, Tendsto (fun T : ℝ => (1 - R ^ 2 / T ^ 2) ^ p) atTop (𝓝 1) := by
    intro p
    have := ha.rpow_const (p := p) (Or.inl one_ne_zero)
    simpa using this
  have h2 : Tendsto (fun T : ℝ => T * ((1 - R ^ 2 / T ^ 2) ^ (0.75 : ℝ) - 1)) atTop (𝓝 0) := by
    have hlow : Tendsto (fun T : ℝ => -(R ^ 2 / T)) atTop (𝓝 0) := by
      simpa using (tendsto_const_div (R ^ 2)).neg
    refine tendsto_of_tendsto_of_tendsto_of_le_of_le' hlow tendsto_const_nhds ?_ ?_
    · filter_upwards [eventually_gt_atTop (max 1 |R|)] with T hT
      have hT0 : 0 < T := lt_of_lt_of_le one_pos ((le_max_left _ _).trans hT.le)
      have hTR : |R| < T := lt_of_le_of_lt (le_max_right _ _) hT
      have hR : R ^ 2 / T ^ 2 ≤ 1 := by
        rw [div_le_one (by positivity)]
        exact sq_le_sq' (by linarith [(abs_lt.1 hTR).1]) (abs_lt.1 hTR).2.le
      have hle : (1 - R ^ 2 / T ^ 2) ≤ (1 - R ^ 2 / T ^ 2) ^ (0.75 : ℝ) := by
        rcases eq_or_lt_of_le (sub_nonneg.2 hR) with h0 | h0
        · rw [← h0, zero_rpow (by norm_num)]
        · have : (1 - R ^ 2 / T ^ 2) ≤ 1 := by
            have : 0 ≤ R ^ 2 / T ^ 2 := by positivity
            linarith
          calc (1 - R ^ 2 / T ^ 2) = (1 - R ^ 2 / T ^ 2) ^ (1 : ℝ) := (rpow_one _).symm
            _ ≤ _ := rpow_le_rpow_of_exponent_ge h0 this (by norm_num)
      have : T * (-(R ^ 2 / T ^ 2)) ≤ T * ((1 - R ^ 2 / T ^ 2) ^ (0.75 : ℝ) - 1) :=
        mul_le_mul_of_nonneg_left (by linarith) hT0.le
      calc -(R ^ 2 / T) = T * (-(R ^ 2 / T ^ 2)) := by field_simp
        _ ≤ _ := this
    · filter_upwards [eventually_gt_atTop (max 1 |R|)] with T hT
      have hT0 : 0 < T := lt_of_lt_of_le one_pos ((le_max_left _ _).trans hT.le)
      have hTR : |R| < T := lt_of_le_of_lt (le_max_right _ _) hT
      have hR : R ^ 2 / T ^ 2 ≤ 1 := by
        rw [div_le_one (by positivity)]
        exact sq_le_sq' (by linarith [(abs_lt.1 hTR).1]) (abs_lt.1 hTR).2.le
      have : 0 ≤ R ^ 2 / T ^ 2 := by positivity
      have h1 : (1 - R ^ 2 / T ^ 2) ^ (0.75 : ℝ) ≤ 1 :=
        rpow_le_one (by linarith) (by linarith) (by norm_num)
      nlinarith
  have h3 : Tendsto (fun T : ℝ => T * (1 - R ^ 2 / T ^ 2) ^ (0.75 : ℝ)) atTop atTop :=
    tendsto_id.atTop_mul_pos one_pos (hp 0.75)
  have h4 : Tendsto (fun T : ℝ => bigF (T * (1 - R ^ 2 / T ^ 2) ^ (0.75 : ℝ))) atTop (𝓝 1) := by
    unfold bigF
    have : Tendsto (fun T : ℝ => 1 + 2.026 / (T * (1 - R ^ 2 / T ^ 2) ^ (0.75 : ℝ))) atTop
        (𝓝 (1 + 0)) := tendsto_const_nhds.add ((tendsto_const_div 2.026).comp h3)
    simpa using this.sqrt
  have h5 : Tendsto (fun T : ℝ => exp (3 * R ^ 2 / 4 / T)) atTop (𝓝 1) := by
    simpa using (tendsto_const_div (3 * R ^ 2 / 4)).rexp
  have h6 := h2.rexp
  have := ((hp 0.125).mul (h6.mul h4)).mul h5
  simpa using this

/-- **C57**: at a given distance, the coda predicted by radiative transfer in three dimensions
approaches the diffusion solution as time grows. -/
theorem C57_rt3d_diffusion (r c g0 : ℝ) (hc : 0 < c) (hg : 0 < g0) :
    Tendsto (fun t => rt3dCoda r t c g0 / diff r t c g0 3) atTop (𝓝 1) := by
  have hT : Tendsto (fun t : ℝ => t * c * g0) atTop atTop :=
    (tendsto_id.atTop_mul_const hc).atTop_mul_const hg
  refine ((reduced_limit (r * g0)).comp hT).congr' ?_
  filter_upwards [eventually_gt_atTop 0] with t ht
  have hpi := pi_pos
  simp only [Function.comp]
  unfold rt3dCoda rt3dReduced diff
  simp only
  have e1 : 4 * π * (c / ((3 : ℕ) * g0)) * t = 4 * π * (t * c * g0) / 3 * (1 / g0) ^ 2 := by
    push_cast; field_simp
  have e2 : (4 * π * (c / ((3 : ℕ) * g0)) * t) ^ (-((3 : ℕ) : ℝ) / 2) =
      1 / (4 * π * (t * c * g0) / 3) ^ (1.5 : ℝ) * g0 ^ 3 := by
    rw [e1, show -((3 : ℕ) : ℝ) / 2 = -(1.5) by norm_num, rpow_neg (by positivity),
      mul_rpow (by positivity) (by positivity), ← rpow_natCast (1 / g0) 2, ← rpow_mul (by positivity)]
    rw [show ((2 : ℕ) : ℝ) * 1.5 = ((3 : ℕ) : ℝ) by norm_num, rpow_natCast]
    field_simp
  have e3 : exp (-r ^ 2 / (4 * (c / ((3 : ℕ) * g0)) * t)) =
      (exp (3 * (r * g0) ^ 2 / 4 / (t * c * g0)))⁻¹ := by
    rw [← exp_neg]
    congr 1
    push_cast
    field_simp
  rw [e2, e3]
  have h1 : (4 * π * (t * c * g0) / 3) ^ (1.5 : ℝ) ≠ 0 := (rpow_pos_of_pos (by positivity) _).ne'
  field_simp

example : Tendsto (fun t => rt3dCoda 20000 t 3000 1e-6 / diff 20000 t 3000 1e-6 3) atTop (𝓝 1) :=
  C57_rt3d_diffusion _ _ _ (by norm_num) (by norm_num)

/-- **C57**: the simplified diffusion solution and the diffusion solution agree for large times. -/
theorem C57_diffapprox (r c g0 : ℝ) (dim : ℕ) (hd : 0 < dim) (hc : 0 < c) (hg : 0 < g0) :
    Tendsto (fun t => diff r t c g0 dim / diffapprox r t c g0 dim) atTop (𝓝 1) := by
  have hd' : (0 : ℝ) < dim := by exact_mod_cast hd
  have h : Tendsto (fun t : ℝ => exp (-r ^ 2 / (4 * (c / (dim * g0)) * t))) atTop (𝓝 1) := by
    have := (tendsto_const_div (-r ^ 2 / (4 * (c / (dim * g0))))).rexp
    simp_rw [div_div] at this
    simpa using this
  refine h.congr' ?_
  filter_upwards [eventually_gt_atTop 0] with t ht
  unfold diff diffapprox
  simp only
  have hpi := pi_pos
  have : (4 * π * (c / (dim * g0)) * t) ^ (-(dim : ℝ) / 2) ≠ 0 :=
    (rpow_pos_of_pos (by positivity) _).ne'
  rw [mul_div_cancel_left₀ _ this]

example : Tendsto (fun t => diff 20000 t 3000 1e-6 2 / diffapprox 20000 t 3000 1e-6 2) atTop (𝓝 1) :=
  C57_diffapprox _ _ _ 2 (by norm_num) (by norm_num) (by norm_num)

end Qopen
