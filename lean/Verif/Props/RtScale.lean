import Verif.Props.RtArray
import Mathlib.Analysis.SpecialFunctions.Exponential
import Mathlib.Analysis.SpecificLimits.Normed

/-!
# Properties C52, C53: sign and scaling of Green's functions (rt.py)
-/

set_option linter.unusedSimpArgs false

namespace Qopen
open Rt Spec Real

/-! ## C52 -/

theorem summable_iv (n : ℕ) (x : ℝ) :
    Summable (fun k : ℕ => (x / 2) ^ (2 * k + n) / (k.factorial * (k + n).factorial)) := by
  have h := (Real.summable_pow_div_factorial ((x / 2) ^ 2)).mul_left (|x / 2| ^ n)
  refine Summable.of_norm_bounded h ?_
  intro k
  rw [Real.norm_eq_abs, abs_div, abs_pow, abs_of_pos (by positivity : (0 : ℝ) <
    k.factorial * (k + n).factorial), pow_add, pow_mul, sq_abs,
    mul_comm (((x / 2) ^ 2) ^ k), mul_div_assoc]
  refine mul_le_mul_of_nonneg_left ?_ (by positivity)
  have h1 : (1 : ℝ) ≤ (k + n).factorial := by exact_mod_cast Nat.factorial_pos _
  have h2 : (0 : ℝ) < k.factorial := by positivity
  refine div_le_div_of_nonneg_left (by positivity) h2 ?_
  nlinarith

theorem iv_pos (n : ℕ) {x : ℝ} (hx : 0 < x) : 0 < iv n x := by
  unfold iv
  refine (summable_iv n x).tsum_pos (fun k => by positivity) 0 (by positivity)

theorem front_pos {r t c : ℝ} (hr : 0 ≤ r) (hc : 0 < c) (h : r < c * t) :
    0 < t ∧ 0 < c ^ 2 * t ^ 2 - r ^ 2 ∧ 0 < 1 - r ^ 2 / c ^ 2 / t ^ 2 := by
  have ht : 0 < t := by
    by_contra hn
    nlinarith
  have h2 : 0 < c ^ 2 * t ^ 2 - r ^ 2 := by nlinarith [mul_pos hc ht]
  refine ⟨ht, h2, ?_⟩
  rw [sub_pos, div_div, div_lt_one (by positivity)]
  linarith

/-- **C52**: behind the wave front all Green's functions are positive numbers. -/
theorem C52_positive (type : String) (hty : type ∈ greensTypes) (r t c g0 : ℝ) (hr : 0 ≤ r)
    (hc : 0 < c) (hg : 0 < g0) (h : r < c * t) :
    ∃ x, single r t c g0 type = .ok (.num (some x)) ∧ 0 < x := by
  classical
  obtain ⟨k, hk⟩ := Option.isSome_iff_exists.1 ((C58_known_types type).2 hty)
  rw [single_eq hc hg hk, if_neg (by unfold beforeArrival; linarith)]
  obtain ⟨ht, h2, h3⟩ := front_pos hr hc h
  have hpi := Real.pi_pos
  cases k with
  | rt3d =>
    refine ⟨rt3dCoda r t c g0, by simp only [coda, if_pos h], ?_⟩
    have ha : 0 < 1 - (r * g0) ^ 2 / (t * c * g0) ^ 2 := by
      have : (r * g0) ^ 2 / (t * c * g0) ^ 2 = r ^ 2 / c ^ 2 / t ^ 2 := by field_simp
      rw [this]; exact h3
    unfold rt3dCoda rt3dReduced bigF
    simp only
    have h1 := rpow_pos_of_pos ha 0.125
    have h2 := rpow_pos_of_pos ha 0.75
    have h3 := rpow_pos_of_pos (show 0 < 4 * π * (t * c * g0) / 3 by positivity) 1.5
    positivity
  | rt2d =>
    refine ⟨rt2dCoda r t c g0, by simp only [coda, if_pos h], ?_⟩
    unfold rt2dCoda
    simp only
    have h1 := rpow_pos_of_pos h3 (-1 / 2)
    positivity
  | rt1d =>
    refine ⟨rt1dCoda r t c g0, by simp only [coda, if_pos h], ?_⟩
    unfold rt1dCoda
    simp only
    have h1 : 0 < sqrt (c ^ 2 * t ^ 2 - r ^ 2) := sqrt_pos.2 h2
    have h0 : 0 < sqrt (c ^ 2 * t ^ 2 - r ^ 2) / 2 / (1 / g0) := by positivity
    have hi0 := iv_pos 0 h0
    have hi1 := iv_pos 1 h0
    positivity
  | diff dim =>
    refine ⟨diff r t c g0 dim, by simp only [coda, if_pos ht], ?_⟩
    have hd : dim ≠ 0 := by
      rintro rfl
      unfold kindOf at hk
      repeat' split at hk
      all_goals simp at hk
    have hd' : (0 : ℝ) < dim := by exact_mod_cast Nat.pos_of_ne_zero hd
    unfold diff
    simp only
    have h1 := rpow_pos_of_pos (show 0 < 4 * π * (c / (dim * g0)) * t by positivity)
      (-(dim : ℝ) / 2)
    positivity
  | diffapprox dim =>
    refine ⟨diffapprox r t c g0 dim, by simp only [coda, if_pos ht], ?_⟩
    have hd : dim ≠ 0 := by
      rintro rfl
      unfold kindOf at hk
      repeat' split at hk
      all_goals simp at hk
    have hd' : (0 : ℝ) < dim := by exact_mod_cast Nat.pos_of_ne_zero hd
    unfold diffapprox
    simp only
    exact rpow_pos_of_pos (show 0 < 4 * π * (c / (dim * g0)) * t by positivity) _

/-- non-vacuity: 1 km distance, 3 km/s, 10 s, mean free path 100 km -/
example : (1000 : ℝ) < 3000 * 10 := by norm_num

/-! ## C53 -/

namespace Spec

/-- Dimension of space. -/
def dimension : Kind → ℕ
  | .rt3d => 3
  | .rt2d => 2
  | .rt1d => 1
  | .diff dim => dim
  | .diffapprox dim => dim

/-- Multiply a number or all samples of an array. -/
def Arg.scale (s : ℝ) : Arg → Arg
  | .num x => .num (s * x)
  | .arr l => .arr (l.map (s * ·))

/-- Divide a value or all samples. -/
noncomputable def GVal.over (d : ℝ) : GVal → GVal
  | .num x => .num (x.map (· / d))
  | .arr l => .arr (l.map (Option.map (· / d)))

end Spec

theorem rt3d_scale (r t c g0 s : ℝ) (hs : 0 < s) :
    rt3dCoda (s * r) (s * t) c (g0 / s) = rt3dCoda r t c g0 / s ^ 3 := by
  unfold rt3dCoda
  have e1 : s * r * (g0 / s) = r * g0 := by field_simp
  have e2 : s * t * c * (g0 / s) = t * c * g0 := by field_simp
  rw [e1, e2, div_pow]; ring

theorem rt2d_scale (r t c g0 s : ℝ) (hs : 0 < s) (hg : 0 < g0) :
    rt2dCoda (s * r) (s * t) c (g0 / s) = rt2dCoda r t c g0 / s ^ 2 := by
  unfold rt2dCoda
  simp only
  have e1 : (s * r) ^ 2 / c ^ 2 / (s * t) ^ 2 = r ^ 2 / c ^ 2 / t ^ 2 := by
    rw [mul_pow, mul_pow, div_div, div_div,
      show c ^ 2 * (s ^ 2 * t ^ 2) = s ^ 2 * (c ^ 2 * t ^ 2) by ring]
    rw [mul_div_mul_left _ _ (by positivity)]
  have e2 : sqrt (c ^ 2 * (s * t) ^ 2 - (s * r) ^ 2) = s * sqrt (c ^ 2 * t ^ 2 - r ^ 2) := by
    rw [show c ^ 2 * (s * t) ^ 2 - (s * r) ^ 2 = s ^ 2 * (c ^ 2 * t ^ 2 - r ^ 2) by ring,
      sqrt_mul (by positivity), sqrt_sq hs.le]
  have e3 : (s * sqrt (c ^ 2 * t ^ 2 - r ^ 2) - c * (s * t)) / (1 / (g0 / s)) =
      (sqrt (c ^ 2 * t ^ 2 - r ^ 2) - c * t) / (1 / g0) := by field_simp
  rw [e1, e2, e3]
  have e4 : 1 / (2 * π * (1 / (g0 / s)) * c * (s * t)) = 1 / (2 * π * (1 / g0) * c * t) / s ^ 2 := by
    rw [div_div]; congr 1; field_simp
  rw [e4]; ring

theorem rt1d_scale (r t c g0 s : ℝ) (hs : 0 < s) (hg : 0 < g0) :
    rt1dCoda (s * r) (s * t) c (g0 / s) = rt1dCoda r t c g0 / s ^ 1 := by
  unfold rt1dCoda
  simp only
  have e2 : sqrt (c ^ 2 * (s * t) ^ 2 - (s * r) ^ 2) = s * sqrt (c ^ 2 * t ^ 2 - r ^ 2) := by
    rw [show c ^ 2 * (s * t) ^ 2 - (s * r) ^ 2 = s ^ 2 * (c ^ 2 * t ^ 2 - r ^ 2) by ring,
      sqrt_mul (by positivity), sqrt_sq hs.le]
  rw [e2]
  set q := sqrt (c ^ 2 * t ^ 2 - r ^ 2)
  have e3 : s * q / 2 / (1 / (g0 / s)) = q / 2 / (1 / g0) := by field_simp
  have e4 : -c * (s * t) / 2 / (1 / (g0 / s)) = -c * t / 2 / (1 / g0) := by field_simp
  rw [e3, e4]
  set I0 := iv 0 (q / 2 / (1 / g0))
  set I1 := iv 1 (q / 2 / (1 / g0))
  have e5 : c * (s * t) * I1 / (s * q) = c * t * I1 / q := by
    rw [show c * (s * t) * I1 = s * (c * t * I1) by ring, mul_div_mul_left _ _ hs.ne']
  rw [e5]
  have e6 : 1 / 4 / (1 / (g0 / s)) = 1 / 4 / (1 / g0) / s := by field_simp
  rw [e6]; ring

theorem diffusivity_scale (t c g0 s : ℝ) (dim : ℕ) (hs : 0 < s) (ht : 0 < t) (hc : 0 < c)
    (hg : 0 < g0) :
    (4 * π * (c / (dim * (g0 / s))) * (s * t)) ^ (-(dim : ℝ) / 2) =
      (4 * π * (c / (dim * g0)) * t) ^ (-(dim : ℝ) / 2) / s ^ dim := by
  have e : 4 * π * (c / (dim * (g0 / s))) * (s * t) = s ^ 2 * (4 * π * (c / (dim * g0)) * t) := by
    rcases Nat.eq_zero_or_pos dim with rfl | hd
    · simp
    · have : (0 : ℝ) < dim := by exact_mod_cast hd
      field_simp
  rw [e, mul_rpow (by positivity) (by have := pi_pos; positivity)]
  have e2 : (s ^ 2) ^ (-(dim : ℝ) / 2) = (s ^ dim)⁻¹ := by
    rw [← rpow_natCast s 2, ← rpow_mul hs.le, show ((2 : ℕ) : ℝ) * (-(dim : ℝ) / 2) = -(dim : ℝ) by
      push_cast; ring, rpow_neg hs.le, rpow_natCast]
  rw [e2]; field_simp

/-- The coda term scales like a density. -/
theorem coda_scale (k : Kind) (r t c g0 s : ℝ) (hs : 0 < s) (hc : 0 < c) (hg : 0 < g0) :
    coda k (s * r) (s * t) c (g0 / s) = (coda k r t c g0).map (· / s ^ dimension k) := by
  have hfront : s * r < c * (s * t) ↔ r < c * t := by
    rw [show c * (s * t) = s * (c * t) by ring, mul_lt_mul_iff_right₀ hs]
  have hpos : 0 < s * t ↔ 0 < t := by rw [mul_pos_iff_of_pos_left hs]
  cases k with
  | rt3d =>
    simp only [coda, hfront, dimension]
    split
    · rw [Option.map_some, rt3d_scale _ _ _ _ _ hs]
    · rfl
  | rt2d =>
    simp only [coda, hfront, dimension]
    split
    · rw [Option.map_some, rt2d_scale _ _ _ _ _ hs hg]
    · rfl
  | rt1d =>
    simp only [coda, hfront, dimension]
    split
    · rw [Option.map_some, rt1d_scale _ _ _ _ _ hs hg]
    · rfl
  | diff dim =>
    simp only [coda, hpos, dimension]
    split
    · next ht =>
      rw [Option.map_some]
      unfold diff
      simp only
      rw [diffusivity_scale _ _ _ _ _ hs ht hc hg]
      have e : -(s * r) ^ 2 / (4 * (c / (dim * (g0 / s))) * (s * t)) =
          -r ^ 2 / (4 * (c / (dim * g0)) * t) := by
        rcases Nat.eq_zero_or_pos dim with rfl | hd
        · simp
        · have : (0 : ℝ) < dim := by exact_mod_cast hd
          field_simp
      rw [e]; congr 1; ring
    · rfl
  | diffapprox dim =>
    simp only [coda, hpos, dimension]
    split
    · next ht =>
      rw [Option.map_some]
      unfold diffapprox
      simp only
      rw [diffusivity_scale _ _ _ _ _ hs ht hc hg]
    · rfl

/-- The direct wave scales like a density on the wave front. -/
theorem direct_scale (k : Kind) (t c g0 s : ℝ) (hs : 0 < s) (hg : 0 < g0) :
    direct k (s * t) c (g0 / s) = (direct k t c g0).map (fun x => x * s / s ^ dimension k) := by
  have hz : s * t = 0 ↔ t = 0 := by simp [hs.ne']
  cases k with
  | rt3d =>
    simp only [direct, hz, dimension]
    split
    · rfl
    · next ht =>
      rw [Option.map_some]
      unfold rt3dDirect
      simp only
      have e : -c * (s * t) * (g0 / s) = -c * t * g0 := by field_simp
      rw [e, show 4 * π * c ^ 2 * (s * t) ^ 2 = 4 * π * c ^ 2 * t ^ 2 * s ^ 2 by ring, ← div_div]
      congr 1
      rw [show s ^ 3 = s ^ 2 * s by ring, mul_div_mul_right _ _ hs.ne']
  | rt2d =>
    simp only [direct, hz, dimension]
    split
    · rfl
    · next ht =>
      rw [Option.map_some]
      unfold rt2dDirect
      simp only
      have e : -c * (s * t) / (1 / (g0 / s)) = -c * t / (1 / g0) := by field_simp
      rw [e, show 2 * π * c * (s * t) = 2 * π * c * t * s by ring, ← div_div]
      congr 1
      rw [sq, mul_div_mul_right _ _ hs.ne']
  | rt1d =>
    simp only [direct, dimension, Option.map_some]
    unfold rt1dDirect
    simp only
    have e : -c * (s * t) / 2 / (1 / (g0 / s)) = -c * t / 2 / (1 / g0) := by field_simp
    rw [e, pow_one, mul_div_cancel_right₀ _ hs.ne']
  | diff dim => simp [direct]
  | diffapprox dim => simp [direct]

theorem countFront_map (f g : ℝ → ℝ) (m : ℝ → ℝ) (h : ∀ x, f (m x) < 0 ↔ g x < 0) (l : List ℝ) :
    countFront f (l.map m) = countFront g l := by
  unfold countFront
  rw [List.countP_map]
  exact List.countP_congr (fun x _ => by simp [h])

theorem over_scale (x : Option ℝ) (d s : ℝ) (n : ℕ) (hs : 0 < s) :
    over (x.map (fun x => x * s / s ^ n)) (s * d) = (over x d).map (· / s ^ n) := by
  unfold over
  by_cases hd : d = 0
  · simp [hd]
  · rw [if_neg (by simp [hd, hs.ne']), if_neg hd]
    cases x with
    | none => rfl
    | some x =>
      simp only [Option.map_some, Option.some.injEq]
      field_simp

theorem map_zero_over (n : ℕ) (d : ℝ) :
    (List.replicate n (some (0 : ℝ))).map (Option.map (· / d)) = List.replicate n (some 0) := by
  simp

/-- **C53**: if all lengths and times are measured in a unit which is smaller by a factor `s`, the
Green's function, an energy per volume, is smaller by `s ^ dim`; for numbers and arrays, with and
without direct wave. -/
theorem C53_unit_of_length (r t : Arg) (c g0 s : ℝ) (type : String) (k : Kind)
    (hk : kindOf type = some k) (d : Bool) (hs : 0 < s) (hc : 0 < c) (hg : 0 < g0) :
    G (Spec.Arg.scale s r) (Spec.Arg.scale s t) c (g0 / s) type d =
      (G r t c g0 type d).map (Spec.GVal.over (s ^ dimension k)) := by
  have hgs : 0 < g0 / s := div_pos hg hs
  rw [G_pos hc hgs, G_pos hc hg]
  have hsc : ∀ r t, (c * (s * t) - s * r < 0 ↔ c * t - r < 0) := by
    intro r t
    rw [show c * (s * t) - s * r = s * (c * t - r) by ring, mul_neg_iff]
    constructor
    · rintro (⟨_, h⟩ | ⟨h, _⟩)
      · exact h
      · linarith
    · intro h; exact Or.inl ⟨hs, h⟩
  cases r with
  | num r =>
    cases t with
    | num t =>
      simp only [Spec.Arg.scale, scalarG, hk, bound]
      have h1 : s * t - s * r / c < 0 ↔ t - r / c < 0 := by
        rw [show s * t - s * r / c = s * (t - r / c) by ring, mul_neg_iff]
        constructor
        · rintro (⟨_, h⟩ | ⟨h, _⟩)
          · exact h
          · linarith
        · intro h; exact Or.inl ⟨hs, h⟩
      by_cases h : t - r / c < 0
      · rw [if_pos h, if_pos (h1.2 h)]
        simp [bind, Except.bind, pure, Except.pure, Except.map, Spec.GVal.over]
      · rw [if_neg h, if_neg (fun h' => h (h1.1 h'))]
        simp [bind, Except.bind, pure, Except.pure, Except.map, Spec.GVal.over,
          coda_scale k r t c g0 s hs hc hg]
    | arr t =>
      simp only [Spec.Arg.scale, timesG, hk, bound]
      have hcount : countFront (fun t => c * t - s * r) (t.map (s * ·)) =
          countFront (fun t => c * t - r) t :=
        countFront_map _ _ _ (fun x => hsc r x) t
      match t with
      | [] => rfl
      | [_] => rfl
      | x :: y :: rest =>
        simp only [List.map_cons] at hcount
        simp only [List.map_cons, spacing, bind, Except.bind, pure, Except.pure, Except.map,
          Spec.GVal.over, hcount, List.length_cons, List.length_map, Except.ok.injEq, GVal.arr.injEq]
        rw [← List.map_cons (f := (s * ·)), ← List.map_cons (f := (s * ·)), ← List.map_drop]
        simp only [List.map_map]
        have hcoda : ∀ l : List ℝ, l.map ((fun t => coda k (s * r) t c (g0 / s)) ∘ (s * ·)) =
            (l.map (fun t => coda k r t c g0)).map (Option.map (· / s ^ dimension k)) := by
          intro l
          rw [List.map_map]
          exact List.map_congr_left (fun x _ => coda_scale k r x c g0 s hs hc hg)
        rw [hcoda, ← map_zero_over _ (s ^ dimension k), ← List.map_append]
        have hdir : over (direct k (s * r / c) c (g0 / s)) ((s * y - s * x) * c) =
            (over (direct k (r / c) c g0) ((y - x) * c)).map (· / s ^ dimension k) := by
          rw [mul_div_assoc, direct_scale k _ c g0 s hs hg,
            show (s * y - s * x) * c = s * ((y - x) * c) by ring]
          exact over_scale _ _ _ _ hs
        rw [hdir]
        split
        · rw [List.map_set]
          simp
        · simp
  | arr r =>
    cases t with
    | num t =>
      simp only [Spec.Arg.scale, distancesG, hk, bound]
      have hcount : countFront (fun r => c * (s * t) - r) (r.map (s * ·)) =
          countFront (fun r => c * t - r) r :=
        countFront_map _ _ _ (fun x => hsc x t) r
      match r with
      | [] => rfl
      | [_] => rfl
      | x :: y :: rest =>
        simp only [List.map_cons] at hcount
        simp only [List.map_cons, spacing, bind, Except.bind, pure, Except.pure, Except.map,
          Spec.GVal.over, hcount, List.length_cons, List.length_map, Except.ok.injEq, GVal.arr.injEq]
        rw [← List.map_cons (f := (s * ·)), ← List.map_cons (f := (s * ·)), ← List.map_take]
        simp only [List.map_map]
        have hcoda : ∀ l : List ℝ, l.map ((fun r => coda k r (s * t) c (g0 / s)) ∘ (s * ·)) =
            (l.map (fun r => coda k r t c g0)).map (Option.map (· / s ^ dimension k)) := by
          intro l
          rw [List.map_map]
          exact List.map_congr_left (fun x _ => coda_scale k x t c g0 s hs hc hg)
        rw [hcoda, ← map_zero_over _ (s ^ dimension k), ← List.map_append]
        have hdir : over (direct k (s * t) c (g0 / s)) (s * y - s * x) =
            (over (direct k t c g0) (y - x)).map (· / s ^ dimension k) := by
          rw [direct_scale k _ c g0 s hs hg, show s * y - s * x = s * (y - x) by ring]
          exact over_scale _ _ _ _ hs
        rw [hdir]
        split
        · rw [List.map_set]
          simp
        · simp
    | arr t =>
      simp only [Spec.Arg.scale, pairsG, hk, bound, List.length_map]
      split
      · rfl
      · split
        · rfl
        · simp only [bind, Except.bind, pure, Except.pure, Except.map, Spec.GVal.over,
            Except.ok.injEq, GVal.arr.injEq, List.zipWith_map_left, List.zipWith_map_right,
            List.map_zipWith]
          congr 1
          funext r t
          have h1 : c * (s * t) - s * r ≥ 0 ↔ c * t - r ≥ 0 := by
            rw [ge_iff_le, ge_iff_le, ← not_lt, ← not_lt, hsc]
          by_cases h : c * t - r ≥ 0
          · rw [if_pos h, if_pos (h1.2 h), coda_scale k r t c g0 s hs hc hg]
          · rw [if_neg h, if_neg (fun h' => h (h1.1 h'))]; simp

/-- The coda term depends on time and velocity only by their product. -/
theorem coda_time (k : Kind) (r t c g0 : ℝ) (hc : 0 < c) : coda k r t c g0 = coda k r (c * t) 1 g0 := by
  have hpos : 0 < c * t ↔ 0 < t := by rw [mul_pos_iff_of_pos_left hc]
  cases k with
  | rt3d =>
    simp only [coda, one_mul, rt3dCoda, mul_one, mul_comm t c]
  | rt2d =>
    simp only [coda, one_mul, rt2dCoda, mul_one, one_pow, div_one, mul_pow, ← div_div, mul_assoc]
  | rt1d =>
    simp only [coda, one_mul, rt1dCoda, mul_one, one_pow, div_one, mul_pow, mul_assoc, neg_mul]
  | diff dim =>
    simp only [coda, hpos, diff]
    have e : 4 * π * (1 / (dim * g0)) * (c * t) = 4 * π * (c / (dim * g0)) * t := by ring
    have e' : 4 * (1 / (dim * g0)) * (c * t) = 4 * (c / (dim * g0)) * t := by ring
    rw [e, e']
  | diffapprox dim =>
    simp only [coda, hpos, diffapprox]
    have e : 4 * π * (1 / (dim * g0)) * (c * t) = 4 * π * (c / (dim * g0)) * t := by ring
    rw [e]

/-- The direct wave depends on time and velocity only by their product. -/
theorem direct_time (k : Kind) (t c g0 : ℝ) (hc : 0 < c) :
    direct k t c g0 = direct k (c * t) 1 g0 := by
  have hz : c * t = 0 ↔ t = 0 := by simp [hc.ne']
  cases k with
  | rt3d => simp only [direct, hz, rt3dDirect, neg_mul, one_mul, one_pow, mul_one, mul_pow, mul_assoc]
  | rt2d => simp only [direct, hz, rt2dDirect, neg_mul, one_mul, one_pow, mul_one, mul_assoc]
  | rt1d => simp only [direct, rt1dDirect, neg_mul, one_mul]
  | diff dim => rfl
  | diffapprox dim => rfl

/-- **C53**: the Green's function depends on time and velocity only by their product, so it does not
depend on the unit of time; for numbers and arrays, with and without direct wave. -/
theorem C53_unit_of_time (r t : Arg) (c g0 : ℝ) (type : String) (d : Bool) (hc : 0 < c)
    (hg : 0 < g0) : G r t c g0 type d = G r (Spec.Arg.scale c t) 1 g0 type d := by
  rw [G_pos hc hg, G_pos one_pos hg]
  cases r with
  | num r =>
    cases t with
    | num t =>
      simp only [Spec.Arg.scale, scalarG]
      have h1 : c * t - r / 1 < 0 ↔ t - r / c < 0 := by
        rw [scalar_ite hc, scalar_ite one_pos]; simp [beforeArrival]
      by_cases h : t - r / c < 0
      · rw [if_pos h, if_pos (h1.2 h)]
      · rw [if_neg h, if_neg (fun h' => h (h1.1 h'))]
        simp only [coda_time _ r t c g0 hc]
    | arr t =>
      simp only [Spec.Arg.scale, timesG]
      have hcount : countFront (fun t => 1 * t - r) (t.map (c * ·)) =
          countFront (fun t => c * t - r) t :=
        countFront_map _ _ _ (fun x => by rw [one_mul]) t
      match t with
      | [] => rfl
      | [_] => rfl
      | x :: y :: rest =>
        simp only [List.map_cons] at hcount
        cases hk : kindOf type with
        | none => rfl
        | some k =>
          simp only [List.map_cons, spacing, bind, Except.bind, pure, Except.pure, bound,
            hcount, List.length_cons, List.length_map]
          rw [← List.map_cons (f := (c * ·)), ← List.map_cons (f := (c * ·)), ← List.map_drop]
          simp only [List.map_map]
          have hcoda : ∀ l : List ℝ, l.map ((fun t => coda k r t 1 g0) ∘ (c * ·)) =
              l.map (fun t => coda k r t c g0) := fun l =>
            List.map_congr_left (fun x _ => (coda_time k r x c g0 hc).symm)
          have hdir : over (direct k (r / 1) 1 g0) ((c * y - c * x) * 1) =
              over (direct k (r / c) c g0) ((y - x) * c) := by
            rw [direct_time k (r / c) c g0 hc, mul_div_cancel₀ _ hc.ne']
            congr 1
            · rw [div_one]
            · ring
          rw [hcoda, hdir]
  | arr r =>
    cases t with
    | num t =>
      simp only [Spec.Arg.scale, distancesG, one_mul, coda_time _ _ t c g0 hc,
        direct_time _ t c g0 hc]
    | arr t =>
      simp only [Spec.Arg.scale, pairsG, List.length_map, one_mul, List.zipWith_map_right,
        coda_time _ _ _ c g0 hc]

/-- non-vacuity: from kilometres and seconds to metres and milliseconds -/
example : (0 : ℝ) < 1000 ∧ kindOf "rt1d" = some .rt1d := ⟨by norm_num, by simp [kindOf]⟩

end Qopen
