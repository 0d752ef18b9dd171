import Verif.Model.Source
import Verif.Spec.Source
import Verif.Lemmas.ListSum
import Mathlib.Analysis.SpecialFunctions.Pow.Asymptotics
import Mathlib.Analysis.SpecialFunctions.Pow.Continuity

/-!
# C60, C61, C65: moment magnitude, source model, source displacement spectrum
-/

namespace Qopen

open Real Source Spec Filter Topology

set_option linter.unusedSimpArgs false

/-! ## C60 -/

/-- **C60**: magnitude to moment inverts moment to magnitude. -/
theorem C60_inverse (M0 : ℝ) (h : 0 < M0) : momentMagnitudeInv (momentMagnitude M0) = M0 := by
  unfold momentMagnitudeInv momentMagnitude
  rw [rpow_def_of_pos (by norm_num)]
  have h10 : log 10 ≠ 0 := by positivity
  have : log 10 * (1.5 * (2 / 3 * (log M0 / log 10) - 6.07 + 6.07)) = log M0 := by
    field_simp; ring
  rw [this, exp_log h]

example : (0:ℝ) < 10 ^ 17 := by positivity

/-- **C60**: moment to magnitude inverts magnitude to moment, for all magnitudes. -/
theorem C60_inverse' (Mw : ℝ) : momentMagnitude (momentMagnitudeInv Mw) = Mw := by
  unfold momentMagnitudeInv momentMagnitude
  have h10 : log 10 ≠ 0 := by positivity
  rw [log_rpow (by norm_num)]
  field_simp; ring

/-- **C60**: a larger moment has a larger magnitude. -/
theorem C60_increasing (M M' : ℝ) (h : 0 < M) (hM : M < M') :
    momentMagnitude M < momentMagnitude M' := by
  unfold momentMagnitude
  have h10 : 0 < log 10 := by positivity
  have := log_lt_log h hM
  have := div_lt_div_of_pos_right this h10
  linarith

/-- **C60**: a larger magnitude has a larger moment; two magnitude units are a factor 1000. -/
theorem C60_increasing' (Mw Mw' : ℝ) (h : Mw < Mw') :
    momentMagnitudeInv Mw < momentMagnitudeInv Mw' ∧
    momentMagnitudeInv (Mw + 2) = 1000 * momentMagnitudeInv Mw := by
  unfold momentMagnitudeInv
  constructor
  · apply rpow_lt_rpow_of_exponent_lt (by norm_num); nlinarith
  · have : (1.5 : ℝ) * (Mw + 2 + 6.07) = 3 + 1.5 * (Mw + 6.07) := by ring
    rw [this, rpow_add (by norm_num)]
    norm_num

/-! ## C61 -/

/-- **C61**: `source_model` is the omega model `M0 / (1 + (f/fc)^(nγ))^(1/γ)`. -/
theorem C61_is_omega_model (f M0 fc n g : ℝ) (hf : 0 < f) (hc : 0 < fc) :
    sourceModel f M0 fc n g = omegaModel M0 fc n g f := by
  unfold sourceModel omegaModel
  have : 0 ≤ 1 + (f / fc) ^ (n * g) := by positivity
  rw [neg_div, rpow_neg this]; rfl

/-- **C61**: the model lies strictly between 0 and `M0`. -/
theorem C61_range (f M0 fc n g : ℝ) (hf : 0 < f) (hM : 0 < M0) (hc : 0 < fc) (hg : 0 < g) :
    0 < sourceModel f M0 fc n g ∧ sourceModel f M0 fc n g < M0 := by
  unfold sourceModel
  have hx : 0 < (f / fc) ^ (n * g) := by positivity
  constructor
  · positivity
  · have : (1 + (f / fc) ^ (n * g)) ^ (-1 / g) < 1 :=
      rpow_lt_one_of_one_lt_of_neg (by linarith) (by rw [neg_div]; simpa using hg)
    nlinarith

/-- **C61**: strictly decreasing with frequency. -/
theorem C61_decreasing (f f' M0 fc n g : ℝ) (hf : 0 < f) (hff : f < f') (hM : 0 < M0)
    (hc : 0 < fc) (hn : 0 < n) (hg : 0 < g) :
    sourceModel f' M0 fc n g < sourceModel f M0 fc n g := by
  unfold sourceModel
  have h1 : (f / fc) ^ (n * g) < (f' / fc) ^ (n * g) :=
    rpow_lt_rpow (by positivity) (div_lt_div_of_pos_right hff hc) (by positivity)
  have h0 : 0 < (f / fc) ^ (n * g) := by positivity
  have : (1 + (f' / fc) ^ (n * g)) ^ (-1 / g) < (1 + (f / fc) ^ (n * g)) ^ (-1 / g) :=
    rpow_lt_rpow_of_neg (by linarith) (by linarith) (by rw [neg_div]; simpa using hg)
  exact mul_lt_mul_of_pos_left this hM

/-- **C61**: increasing with corner frequency. -/
theorem C61_increasing_fc (f M0 fc fc' n g : ℝ) (hf : 0 < f) (hM : 0 < M0)
    (hc : 0 < fc) (hcc : fc < fc') (hn : 0 < n) (hg : 0 < g) :
    sourceModel f M0 fc n g < sourceModel f M0 fc' n g := by
  unfold sourceModel
  have hc' : 0 < fc' := by linarith
  have h1 : (f / fc') ^ (n * g) < (f / fc) ^ (n * g) :=
    rpow_lt_rpow (by positivity) (div_lt_div_of_pos_left hf hc hcc) (by positivity)
  have h0 : 0 < (f / fc') ^ (n * g) := by positivity
  have : (1 + (f / fc) ^ (n * g)) ^ (-1 / g) < (1 + (f / fc') ^ (n * g)) ^ (-1 / g) :=
    rpow_lt_rpow_of_neg (by linarith) (by linarith) (by rw [neg_div]; simpa using hg)
  exact mul_lt_mul_of_pos_left this hM

/-- **C61**: proportional to the moment. -/
theorem C61_linear (f M0 k fc n g : ℝ) :
    sourceModel f (k * M0) fc n g = k * sourceModel f M0 fc n g := by
  unfold sourceModel; ring

/-- **C61**: value at the corner frequency. -/
theorem C61_at_corner (M0 fc n g : ℝ) (hc : 0 < fc) :
    sourceModel fc M0 fc n g = M0 * 2 ^ (-1 / g) := by
  unfold sourceModel
  rw [div_self hc.ne', one_rpow]
  norm_num

/-- **C61**: for low frequencies the model tends to the moment. -/
theorem C61_low_frequency (M0 fc n g : ℝ) (hc : 0 < fc) (hn : 0 < n) (hg : 0 < g) :
    Tendsto (fun f => sourceModel f M0 fc n g) (𝓝[>] 0) (𝓝 M0) := by
  unfold sourceModel
  have hp : 0 < n * g := by positivity
  have h1 : Tendsto (fun f : ℝ => (f / fc) ^ (n * g)) (𝓝 0) (𝓝 0) := by
    have : ContinuousAt (fun f : ℝ => (f / fc) ^ (n * g)) 0 :=
      (continuousAt_id.div_const fc).rpow_const (Or.inr hp.le)
    simpa [ContinuousAt, hp.ne'] using this
  have h2 : Tendsto (fun f : ℝ => (1 + (f / fc) ^ (n * g)) ^ (-1 / g)) (𝓝 0)
      (𝓝 ((1 + 0) ^ (-1 / g))) :=
    (tendsto_const_nhds.add h1).rpow_const (Or.inl (by norm_num))
  have h3 := (tendsto_const_nhds (x := M0)).mul h2
  simp only [add_zero, one_rpow, mul_one] at h3
  exact h3.mono_left nhdsWithin_le_nhds

/-- **C61**: for high frequencies the model falls off like `f^(-n)`:
`f^n` times the model tends to `M0 fc^n`. -/
theorem C61_high_frequency (M0 fc n g : ℝ) (hc : 0 < fc) (hn : 0 < n) (hg : 0 < g) :
    Tendsto (fun f => f ^ n * sourceModel f M0 fc n g) atTop (𝓝 (M0 * fc ^ n)) := by
  have hp : 0 < n * g := by positivity
  have key : ∀ f : ℝ, 0 < f → f ^ n * sourceModel f M0 fc n g =
      M0 * fc ^ n * (1 + (f / fc) ^ (-(n * g))) ^ (-1 / g) := by
    intro f hf
    unfold sourceModel
    have hx : 0 < f / fc := by positivity
    have e1 : 1 + (f / fc) ^ (n * g) = (f / fc) ^ (n * g) * (1 + (f / fc) ^ (-(n * g))) := by
      rw [mul_add, ← rpow_add hx]; simp; ring
    rw [e1, mul_rpow (by positivity) (by positivity), ← rpow_mul hx.le]
    have e2 : n * g * (-1 / g) = -n := by field_simp
    rw [e2, rpow_neg hx.le, div_rpow hf.le hc.le]
    have : f ^ n ≠ 0 := by positivity
    field_simp
  have h1 : Tendsto (fun f : ℝ => (f / fc) ^ (-(n * g))) atTop (𝓝 0) :=
    (tendsto_rpow_neg_atTop hp).comp (tendsto_id.atTop_div_const hc)
  have h2 : Tendsto (fun f : ℝ => (1 + (f / fc) ^ (-(n * g))) ^ (-1 / g)) atTop
      (𝓝 ((1 + 0) ^ (-1 / g))) :=
    (tendsto_const_nhds.add h1).rpow_const (Or.inl (by norm_num))
  have h3 := (tendsto_const_nhds (x := M0 * fc ^ n)).mul h2
  simp only [add_zero, one_rpow, mul_one] at h3
  refine h3.congr' ?_
  filter_upwards [eventually_gt_atTop 0] with f hf
  exact (key f hf).symm

example : ∃ f M0 fc n g : ℝ, 0 < f ∧ 0 < M0 ∧ 0 < fc ∧ 0 < n ∧ 0 < g :=
  ⟨3, 10 ^ 14, 8, 2, 1, by norm_num, by positivity, by norm_num, by norm_num, by norm_num⟩

/-! ## C65 -/

/-- **C65**: for positive arguments `sds` is the positive number with
`sds² = 5 W ρ v⁵ / (2 π f²)`. -/
theorem C65_value (W f v rho : ℝ) (hW : 0 < W) (hf : 0 < f) (hv : 0 < v) (hr : 0 < rho) :
    ∃ x, sds W f v rho = .ok (.num x) ∧ 0 < x ∧ x ^ 2 = 5 * W * rho * v ^ 5 / (2 * π * f ^ 2) := by
  have hp : 0 < sdsArg W f v rho := by unfold sdsArg; positivity
  refine ⟨sqrt (sdsArg W f v rho), ?_, sqrt_pos.2 hp, ?_⟩
  · simp [sds, hf.ne', not_lt.2 hp.le]
  · rw [sq_sqrt hp.le, sdsArg]
    field_simp
    norm_num

/-- **C65**: a larger source energy has a larger spectrum. -/
theorem C65_increasing (W W' f v rho x x' : ℝ) (hW : 0 < W) (hWW : W < W') (hf : 0 < f)
    (hv : 0 < v) (hr : 0 < rho) (h : sds W f v rho = .ok (.num x))
    (h' : sds W' f v rho = .ok (.num x')) : x < x' := by
  obtain ⟨y, hy, hy0, hy2⟩ := C65_value W f v rho hW hf hv hr
  obtain ⟨y', hy', hy0', hy2'⟩ := C65_value W' f v rho (hW.trans hWW) hf hv hr
  rw [hy] at h; rw [hy'] at h'
  simp only [Except.ok.injEq, Cell.num.injEq] at h h'
  subst h; subst h'
  have hlt : y ^ 2 < y' ^ 2 := by
    rw [hy2, hy2']
    have : 0 < 2 * π * f ^ 2 := by positivity
    apply div_lt_div_of_pos_right _ this
    have : 0 < rho * v ^ 5 := by positivity
    nlinarith
  exact lt_of_pow_lt_pow_left₀ 2 hy0'.le hlt

/-- **C65**: scaling laws: `W^(1/2)`, `v^(5/2)`, `ρ^(1/2)`, `f^(-1)`. -/
theorem C65_scaling (W f v rho a b c d x x' : ℝ) (hW : 0 < W) (hf : 0 < f) (hv : 0 < v)
    (hr : 0 < rho) (ha : 0 < a) (hb : 0 < b) (hc : 0 < c) (hd : 0 < d)
    (h : sds W f v rho = .ok (.num x))
    (h' : sds (a * W) (b * f) (c * v) (d * rho) = .ok (.num x')) :
    x' = a ^ (1 / 2 : ℝ) * b⁻¹ * c ^ (5 / 2 : ℝ) * d ^ (1 / 2 : ℝ) * x := by
  obtain ⟨y, hy, hy0, hy2⟩ := C65_value W f v rho hW hf hv hr
  obtain ⟨y', hy', hy0', hy2'⟩ := C65_value (a * W) (b * f) (c * v) (d * rho) (by positivity)
    (by positivity) (by positivity) (by positivity)
  rw [hy] at h; rw [hy'] at h'
  simp only [Except.ok.injEq, Cell.num.injEq] at h h'
  subst h; subst h'
  have h1 : ∀ z : ℝ, 0 < z → (z ^ (1 / 2 : ℝ)) ^ 2 = z := by
    intro z hz; rw [← rpow_natCast, ← rpow_mul hz.le]; norm_num
  have h5 : (c ^ (5 / 2 : ℝ)) ^ 2 = c ^ 5 := by
    rw [← rpow_natCast, ← rpow_mul hc.le, ← rpow_natCast]; norm_num
  have : y' ^ 2 = (a ^ (1 / 2 : ℝ) * b⁻¹ * c ^ (5 / 2 : ℝ) * d ^ (1 / 2 : ℝ) * y) ^ 2 := by
    simp only [mul_pow, h1 a ha, h1 d hd, h5, hy2, hy2']
    field_simp
  exact (pow_left_inj₀ hy0'.le (by positivity) two_ne_zero).1 this

example : ∃ W f v rho : ℝ, 0 < W ∧ 0 < f ∧ 0 < v ∧ 0 < rho :=
  ⟨10 ^ 6, 3, 3500, 2700, by positivity, by norm_num, by norm_num, by norm_num⟩

end Qopen
