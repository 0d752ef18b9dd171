import Mathlib.Analysis.SpecialFunctions.Pow.Real
import Mathlib.Analysis.SpecialFunctions.Log.Deriv
import Mathlib.Analysis.SpecialFunctions.ExpDeriv
import Mathlib.Analysis.Calculus.LocalExtr.Rolle

/-!
# Curves `c - b log (1 + exp (a (x - x0)))`: how many common points two of them can have
-/

namespace Qopen

open Real

/-- A function with derivative has a zero of the derivative between two points with the same value. -/
theorem rolle {f f' : ℝ → ℝ} (hf : ∀ x, HasDerivAt f (f' x) x) {x y : ℝ} (h : x < y) (e : f x = f y) :
    ∃ z, x < z ∧ z < y ∧ f' z = 0 := by
  obtain ⟨z, hz, h0⟩ := exists_hasDerivAt_eq_zero h
    (fun t _ => (hf t).continuousAt.continuousWithinAt) e (fun t _ => hf t)
  exact ⟨z, hz.1, hz.2, h0⟩

/-- The curve in logarithmic coordinates. -/
noncomputable def soft (a b c x0 x : ℝ) : ℝ := c - b * log (1 + exp (a * (x - x0)))

theorem one_add_exp_pos (t : ℝ) : 0 < 1 + exp t := by positivity

theorem soft_deriv (a b c x0 x : ℝ) :
    HasDerivAt (soft a b c x0) (-(a * b) / (1 + exp (-a * (x - x0)))) x := by
  have h1 : HasDerivAt (fun x => a * (x - x0)) a x := by
    simpa using ((hasDerivAt_id x).sub_const x0).const_mul a
  have h2 := (((h1.exp.const_add 1).log (one_add_exp_pos _).ne').const_mul b).const_sub c
  have e : -(b * (exp (a * (x - x0)) * a / (1 + exp (a * (x - x0))))) =
      -(a * b) / (1 + exp (-a * (x - x0))) := by
    have : exp (-a * (x - x0)) = (exp (a * (x - x0)))⁻¹ := by rw [← exp_neg]; ring_nf
    rw [this]
    have h3 := exp_pos (a * (x - x0))
    field_simp
    ring
  rw [e] at h2
  exact h2

/-- `α + β exp(-p x) + γ exp(-q x)` with three zeros. -/
theorem exp_sum_three {α β γ p q : ℝ} (hp : p ≠ 0) (hq : q ≠ 0) (hpq : p ≠ q) {x y z : ℝ} (hxy : x < y)
    (hyz : y < z) (h1 : α + β * exp (p * x) + γ * exp (q * x) = 0)
    (h2 : α + β * exp (p * y) + γ * exp (q * y) = 0)
    (h3 : α + β * exp (p * z) + γ * exp (q * z) = 0) : α = 0 ∧ β = 0 ∧ γ = 0 := by
  have hd : ∀ t, HasDerivAt (fun t => α + β * exp (p * t) + γ * exp (q * t))
      (β * (exp (p * t) * p) + γ * (exp (q * t) * q)) t := by
    intro t
    have e1 : HasDerivAt (fun t => p * t) p t := by simpa using (hasDerivAt_id t).const_mul p
    have e2 : HasDerivAt (fun t => q * t) q t := by simpa using (hasDerivAt_id t).const_mul q
    exact ((e1.exp.const_mul β).const_add α).add (e2.exp.const_mul γ)
  obtain ⟨s, _, hs2, hs⟩ := rolle hd hxy (by simp only [h1, h2])
  obtain ⟨t, ht1, _, ht⟩ := rolle hd hyz (by simp only [h2, h3])
  have hst : s < t := hs2.trans ht1
  have f1 : β * p + γ * q * exp ((q - p) * s) = 0 := by
    have : exp (q * s) = exp (p * s) * exp ((q - p) * s) := by rw [← exp_add]; ring_nf
    rw [this] at hs
    have h0 := exp_pos (p * s)
    have : exp (p * s) * (β * p + γ * q * exp ((q - p) * s)) = 0 := by linear_combination hs
    rcases mul_eq_zero.1 this with h | h
    · exact absurd h h0.ne'
    · exact h
  have f2 : β * p + γ * q * exp ((q - p) * t) = 0 := by
    have : exp (q * t) = exp (p * t) * exp ((q - p) * t) := by rw [← exp_add]; ring_nf
    rw [this] at ht
    have h0 := exp_pos (p * t)
    have : exp (p * t) * (β * p + γ * q * exp ((q - p) * t)) = 0 := by linear_combination ht
    rcases mul_eq_zero.1 this with h | h
    · exact absurd h h0.ne'
    · exact h
  have hne : exp ((q - p) * s) - exp ((q - p) * t) ≠ 0 := by
    intro h
    have := exp_injective (sub_eq_zero.1 h)
    have : (q - p) * (s - t) = 0 := by linarith
    rcases mul_eq_zero.1 this with h | h
    · exact hpq (by linarith)
    · linarith
  have g0 : γ = 0 := by
    have : γ * q * (exp ((q - p) * s) - exp ((q - p) * t)) = 0 := by linear_combination f1 - f2
    rcases mul_eq_zero.1 this with h | h
    · rcases mul_eq_zero.1 h with h | h
      · exact h
      · exact absurd h hq
    · exact absurd h hne
  subst g0
  have b0 : β = 0 := by
    have : β * p = 0 := by linarith
    rcases mul_eq_zero.1 this with h | h
    · exact h
    · exact absurd h hp
  subst b0
  exact ⟨by simpa using h1, rfl, rfl⟩

section
variable {a b c x0 a' b' c' y0 : ℝ}

/-- Where the slopes of two curves agree. -/
theorem slopes {x : ℝ} (h : -(a * b) / (1 + exp (-a * (x - x0))) = -(a' * b') / (1 + exp (-a' * (x - y0)))) :
    (a * b - a' * b') + a * b * exp (a' * y0) * exp (-a' * x) + -(a' * b' * exp (a * x0)) * exp (-a * x) = 0 := by
  have e1 : exp (-a * (x - x0)) = exp (a * x0) * exp (-a * x) := by rw [← exp_add]; ring_nf
  have e2 : exp (-a' * (x - y0)) = exp (a' * y0) * exp (-a' * x) := by rw [← exp_add]; ring_nf
  have p1 := one_add_exp_pos (-a * (x - x0))
  have p2 := one_add_exp_pos (-a' * (x - y0))
  rw [div_eq_div_iff p1.ne' p2.ne', e1, e2] at h
  linear_combination -h

theorem soft_diff (x : ℝ) : HasDerivAt (fun x => soft a b c x0 x - soft a' b' c' y0 x)
    (-(a * b) / (1 + exp (-a * (x - x0))) - -(a' * b') / (1 + exp (-a' * (x - y0)))) x :=
  (soft_deriv a b c x0 x).sub (soft_deriv a' b' c' y0 x)

theorem soft_rolle {x y : ℝ} (h : x < y) (hx : soft a b c x0 x = soft a' b' c' y0 x)
    (hy : soft a b c x0 y = soft a' b' c' y0 y) : ∃ z, x < z ∧ z < y ∧
    (a * b - a' * b') + a * b * exp (a' * y0) * exp (-a' * z) + -(a' * b' * exp (a * x0)) * exp (-a * z) = 0 := by
  obtain ⟨z, h1, h2, h3⟩ := rolle (f := fun x => soft a b c x0 x - soft a' b' c' y0 x)
    (fun x => soft_diff x) h (by simp only [hx, hy, sub_self])
  exact ⟨z, h1, h2, slopes (sub_eq_zero.1 h3)⟩

/-- Same exponent: two places with the same slope. -/
theorem same_exponent (ha : 0 < a) (hb' : b' ≠ 0) {x y : ℝ} (hxy : x < y)
    (hx : (a * b - a * b') + a * b * exp (a * y0) * exp (-a * x) + -(a * b' * exp (a * x0)) * exp (-a * x) = 0)
    (hy : (a * b - a * b') + a * b * exp (a * y0) * exp (-a * y) + -(a * b' * exp (a * x0)) * exp (-a * y) = 0) :
    b = b' ∧ x0 = y0 := by
  have hne : exp (-a * x) - exp (-a * y) ≠ 0 := by
    intro h
    have := exp_injective (sub_eq_zero.1 h)
    have : a * (x - y) = 0 := by linarith
    rcases mul_eq_zero.1 this with h | h <;> linarith
  have h1 : (b * exp (a * y0) - b' * exp (a * x0)) * (a * (exp (-a * x) - exp (-a * y))) = 0 := by
    linear_combination hx - hy
  have h2 : b * exp (a * y0) - b' * exp (a * x0) = 0 := by
    rcases mul_eq_zero.1 h1 with h | h
    · exact h
    · rcases mul_eq_zero.1 h with h | h
      · exact absurd h ha.ne'
      · exact absurd h hne
  have h3 : a * (b - b') = 0 := by linear_combination hx - a * exp (-a * x) * h2
  have h4 : b = b' := by
    rcases mul_eq_zero.1 h3 with h | h
    · exact absurd h ha.ne'
    · linarith
  subst h4
  refine ⟨rfl, ?_⟩
  have h5 : b * (exp (a * y0) - exp (a * x0)) = 0 := by linear_combination h2
  rcases mul_eq_zero.1 h5 with h | h
  · exact absurd h hb'
  · have := exp_injective (sub_eq_zero.1 h)
    exact (mul_left_cancel₀ ha.ne' this).symm

/-- Four common points. -/
theorem soft_four (ha : 0 < a) (hb : 0 < b) (ha' : 0 < a') {x y z w : ℝ} (hxy : x < y)
    (hyz : y < z) (hzw : z < w) (hx : soft a b c x0 x = soft a' b' c' y0 x)
    (hy : soft a b c x0 y = soft a' b' c' y0 y) (hz : soft a b c x0 z = soft a' b' c' y0 z)
    (hw : soft a b c x0 w = soft a' b' c' y0 w) : a = a' ∧ b = b' ∧ c = c' ∧ x0 = y0 := by
  obtain ⟨r, _, r2, hr⟩ := soft_rolle hxy hx hy
  obtain ⟨s, s1, s2, hs⟩ := soft_rolle hyz hy hz
  obtain ⟨t, t1, _, ht⟩ := soft_rolle hzw hz hw
  by_cases e : a = a'
  · subst e
    by_cases hb' : b' = 0
    · exfalso
      subst hb'
      have := exp_pos (a * y0)
      have := exp_pos (-a * r)
      have : 0 < a * b + a * b * exp (a * y0) * exp (-a * r) := by positivity
      linarith
    · obtain ⟨rfl, rfl⟩ := same_exponent ha hb' (r2.trans s1) hr hs
      refine ⟨rfl, rfl, ?_, rfl⟩
      unfold soft at hx
      linarith
  · exfalso
    obtain ⟨_, h, _⟩ := exp_sum_three (by linarith : -a' ≠ 0) (by linarith : -a ≠ 0)
      (fun h => e (by linarith)) (r2.trans s1) (s2.trans t1) hr hs ht
    have := exp_pos (a' * y0)
    have : 0 < a * b * exp (a' * y0) := by positivity
    linarith

/-- Three common points of curves with the same fall-off `a b`. -/
theorem soft_three_n (ha : 0 < a) (hb : 0 < b) (ha' : 0 < a') (hn : a * b = a' * b') {x y z : ℝ}
    (hxy : x < y) (hyz : y < z) (hx : soft a b c x0 x = soft a' b' c' y0 x)
    (hy : soft a b c x0 y = soft a' b' c' y0 y) (hz : soft a b c x0 z = soft a' b' c' y0 z) :
    a = a' ∧ b = b' ∧ c = c' ∧ x0 = y0 := by
  obtain ⟨r, _, r2, hr⟩ := soft_rolle hxy hx hy
  obtain ⟨s, s1, _, hs⟩ := soft_rolle hyz hy hz
  have hrs := r2.trans s1
  rw [← hn] at hr hs
  have key : ∀ t, (a * b - a * b) + a * b * exp (a' * y0) * exp (-a' * t) +
      -(a * b * exp (a * x0)) * exp (-a * t) = 0 → a' * y0 - a' * t = a * x0 - a * t := by
    intro t h
    have : exp (a' * y0) * exp (-a' * t) = exp (a * x0) * exp (-a * t) := by
      have h0 : a * b ≠ 0 := by positivity
      apply mul_left_cancel₀ h0
      linear_combination h
    rw [← exp_add, ← exp_add] at this
    have := exp_injective this
    linarith
  have h1 := key r hr
  have h2 := key s hs
  have h3 : (a - a') * (r - s) = 0 := by linear_combination h1 - h2
  have e : a = a' := by
    rcases mul_eq_zero.1 h3 with h | h <;> linarith
  subst e
  have e2 : b = b' := mul_left_cancel₀ ha.ne' hn
  subst e2
  have e3 : x0 = y0 := by
    have : a * x0 = a * y0 := by linarith
    exact mul_left_cancel₀ ha.ne' this
  subst e3
  refine ⟨rfl, rfl, ?_, rfl⟩
  unfold soft at hx
  linarith

theorem no_two {p q α β γ : ℝ} (hα : 0 < α) (hβ : 0 < β) (hp : 0 < p) (hq : p < q) {x y : ℝ} (hxy : x < y)
    (hx : α + β * exp (-p * x) + γ * exp (-q * x) = 0)
    (hy : α + β * exp (-p * y) + γ * exp (-q * y) = 0) : False := by
  have key : ∀ t, α + β * exp (-p * t) + γ * exp (-q * t) = 0 →
      α * exp (q * t) + β * exp ((q - p) * t) = - γ := by
    intro t h
    have e1 : exp (-p * t) * exp (q * t) = exp ((q - p) * t) := by rw [← exp_add]; ring_nf
    have e2 : exp (-q * t) * exp (q * t) = 1 := by rw [← exp_add]; ring_nf; simp
    linear_combination exp (q * t) * h - β * e1 - γ * e2
  have h1 := key x hx
  have h2 := key y hy
  have l1 : exp (q * x) < exp (q * y) := by
    apply exp_lt_exp.2; exact mul_lt_mul_of_pos_left hxy (by linarith)
  have l2 : exp ((q - p) * x) < exp ((q - p) * y) := by
    apply exp_lt_exp.2; exact mul_lt_mul_of_pos_left hxy (by linarith)
  have := mul_lt_mul_of_pos_left l1 hα
  have := mul_lt_mul_of_pos_left l2 hβ
  linarith

/-- Three common points of curves with the same sharpness. -/
theorem soft_three_g (ha : 0 < a) (hb : 0 < b) (ha' : 0 < a') {x y z : ℝ}
    (hxy : x < y) (hyz : y < z) (hx : soft a b c x0 x = soft a' b c' y0 x)
    (hy : soft a b c x0 y = soft a' b c' y0 y) (hz : soft a b c x0 z = soft a' b c' y0 z) :
    a = a' ∧ c = c' ∧ x0 = y0 := by
  obtain ⟨r, _, r2, hr⟩ := soft_rolle hxy hx hy
  obtain ⟨s, s1, _, hs⟩ := soft_rolle hyz hy hz
  have hrs := r2.trans s1
  rcases lt_trichotomy a a' with h | rfl | h
  · exfalso
    have p1 := exp_pos (a * x0)
    refine no_two (α := a' * b - a * b) (β := a' * b * exp (a * x0)) (γ := -(a * b * exp (a' * y0)))
      (p := a) (q := a') ?_ (by positivity) ha h hrs (by linear_combination -hr) (by linear_combination -hs)
    have := mul_lt_mul_of_pos_right h hb
    linarith
  · obtain ⟨_, rfl⟩ := same_exponent ha hb.ne' hrs hr hs
    refine ⟨rfl, ?_, rfl⟩
    unfold soft at hx
    linarith
  · exfalso
    have p1 := exp_pos (a' * y0)
    refine no_two (α := a * b - a' * b) (β := a * b * exp (a' * y0)) (γ := -(a' * b * exp (a * x0)))
      (p := a') (q := a) ?_ (by positivity) ha' h hrs hr hs
    have := mul_lt_mul_of_pos_right h hb
    linarith

/-- Two common points of curves with the same shape. -/
theorem soft_two (ha : 0 < a) (hb : 0 < b) {x y : ℝ} (hxy : x < y)
    (hx : soft a b c x0 x = soft a b c' y0 x) (hy : soft a b c x0 y = soft a b c' y0 y) :
    c = c' ∧ x0 = y0 := by
  obtain ⟨r, _, _, hr⟩ := soft_rolle hxy hx hy
  have p := exp_pos (-a * r)
  have h1 : a * b * exp (-a * r) * (exp (a * y0) - exp (a * x0)) = 0 := by linear_combination hr
  have h2 : exp (a * y0) - exp (a * x0) = 0 := by
    rcases mul_eq_zero.1 h1 with h | h
    · exact absurd h (by positivity)
    · exact h
  have h3 := mul_left_cancel₀ ha.ne' (exp_injective (sub_eq_zero.1 h2))
  subst h3
  refine ⟨?_, rfl⟩
  unfold soft at hx
  linarith

end

end Qopen
