import Verif.Props.RtArray
import Verif.Props.RtScale

/-!
# C92: the Green's functions are the published solutions (rt.py)

`Spec.green` are the textbook formulas with mean free path `l`: Paasschens (1997), eq. (36), for
three dimensions, Sato (1993) and Hemmer (1961) for two and one dimension, and the Gaussian of the
diffusion equation with diffusivity `c l / dim`.
-/

namespace Qopen
open Rt Real

namespace Spec

/-- The modified Bessel function of the first kind, `Iₙ(x) = ∑ (x/2)^(2k+n) / (k! (k+n)!)`. -/
noncomputable def bessel (n : ℕ) (x : ℝ) : ℝ :=
  ∑' k : ℕ, (x / 2) ^ (2 * k + n) / (k.factorial * (k + n).factorial)

/-- Paasschens (1997), three dimensions: `s = c t`. -/
noncomputable def paasschens (r s l : ℝ) : ℝ :=
  let a := 1 - (r / s) ^ 2
  let x := s / l * a ^ (3 / 4 : ℝ)
  exp (-s / l) * a ^ (1 / 8 : ℝ) / (4 * π * l * s / 3) ^ (3 / 2 : ℝ) * (exp x * sqrt (1 + 2.026 / x))

/-- Sato (1993), two dimensions. -/
noncomputable def sato (r s l : ℝ) : ℝ :=
  exp ((sqrt (s ^ 2 - r ^ 2) - s) / l) / (2 * π * l * sqrt (s ^ 2 - r ^ 2))

/-- Hemmer (1961), one dimension. -/
noncomputable def hemmer (r s l : ℝ) : ℝ :=
  exp (-s / (2 * l)) / (4 * l) * (bessel 0 (sqrt (s ^ 2 - r ^ 2) / (2 * l)) +
    s / sqrt (s ^ 2 - r ^ 2) * bessel 1 (sqrt (s ^ 2 - r ^ 2) / (2 * l)))

/-- Diffusion in `dim` dimensions with diffusivity `D`: the standard deviation in each direction is
`√(2 D t)`. -/
noncomputable def gauss (dim : ℕ) (D r t : ℝ) : ℝ :=
  exp (-r ^ 2 / (2 * (2 * D * t))) / sqrt (2 * π * (2 * D * t)) ^ dim

/-- The documented solution for each type behind the wave front; `l` is the mean free path. -/
noncomputable def green (type : String) (r t c l : ℝ) : Option ℝ :=
  match type with
  | "rt3d" => some (paasschens r (c * t) l)
  | "rt2d" => some (sato r (c * t) l)
  | "rt1d" => some (hemmer r (c * t) l)
  | "diff3d" => some (gauss 3 (c * l / 3) r t)
  | "diff2d" => some (gauss 2 (c * l / 2) r t)
  | "diff1d" => some (gauss 1 (c * l) r t)
  | "diffapprox3d" => some (gauss 3 (c * l / 3) 0 t)
  | "diffapprox2d" => some (gauss 2 (c * l / 2) 0 t)
  | "diffapprox1d" => some (gauss 1 (c * l) 0 t)
  | _ => none

/-- The documented direct term: energy which is not scattered until `t`, distributed over the sphere,
the circle or the two points at distance `c t`. -/
noncomputable def greenDirect (type : String) (t c l : ℝ) : Option ℝ :=
  match type with
  | "rt3d" => some (exp (-(c * t) / l) / (4 * π * (c * t) ^ 2))
  | "rt2d" => some (exp (-(c * t) / l) / (2 * π * (c * t)))
  | "rt1d" => some (exp (-(c * t) / (2 * l)) / 2)
  | _ => none

end Spec

open Spec

namespace RtValues

theorem rt3d_value {r t c l : ℝ} (hr : 0 ≤ r) (hc : 0 < c) (hl : 0 < l) (h : r < c * t) :
    rt3dCoda r t c (1 / l) = paasschens r (c * t) l := by
  have hs : 0 < c * t := lt_of_le_of_lt hr h
  have ht : 0 < t := (pos_iff_pos_of_mul_pos hs).1 hc
  unfold rt3dCoda rt3dReduced paasschens bigF
  have e1 : t * c * (1 / l) = c * t / l := by ring
  have e2 : (r * (1 / l)) ^ 2 / (c * t / l) ^ 2 = (r / (c * t)) ^ 2 := by
    field_simp
  have e3 : (0.125 : ℝ) = 1 / 8 := by norm_num
  have e4 : (1.5 : ℝ) = 3 / 2 := by norm_num
  have e5 : (0.75 : ℝ) = 3 / 4 := by norm_num
  have hl3 : (l : ℝ) ^ 3 = (l ^ 2) ^ (3 / 2 : ℝ) := by
    rw [← Real.rpow_natCast l 2, ← Real.rpow_mul hl.le, ← Real.rpow_natCast l 3]
    norm_num
  simp only [e1, e2, e3, e4, e5]
  have e6 : (4 * π * (c * t / l) / 3 : ℝ) = (4 * π * l * (c * t) / 3) / l ^ 2 := by
    field_simp
  rw [e6, Real.div_rpow (by positivity) (by positivity), ← hl3]
  have e7 : exp (c * t / l * ((1 - (r / (c * t)) ^ 2) ^ (3 / 4 : ℝ) - 1)) =
      exp (-(c * t) / l) * exp (c * t / l * (1 - (r / (c * t)) ^ 2) ^ (3 / 4 : ℝ)) := by
    rw [← Real.exp_add]; congr 1; ring
  rw [e7]
  have hp : (0 : ℝ) < (4 * π * l * (c * t) / 3) ^ (3 / 2 : ℝ) := by positivity
  field_simp

theorem rt2d_value {r t c l : ℝ} (hr : 0 ≤ r) (hc : 0 < c) (hl : 0 < l) (h : r < c * t) :
    rt2dCoda r t c (1 / l) = sato r (c * t) l := by
  have hs : 0 < c * t := lt_of_le_of_lt hr h
  have ht : 0 < t := (pos_iff_pos_of_mul_pos hs).1 hc
  have hd : 0 < (c * t) ^ 2 - r ^ 2 := by nlinarith
  unfold rt2dCoda sato
  have e1 : (1 - r ^ 2 / c ^ 2 / t ^ 2 : ℝ) = ((c * t) ^ 2 - r ^ 2) / (c * t) ^ 2 := by
    field_simp
  have e2 : (((c * t) ^ 2 - r ^ 2) / (c * t) ^ 2 : ℝ) ^ (-1 / 2 : ℝ) =
      c * t / sqrt ((c * t) ^ 2 - r ^ 2) := by
    rw [show (-1 / 2 : ℝ) = -(1 / 2) by norm_num, Real.rpow_neg (by positivity),
      ← Real.sqrt_eq_rpow, Real.sqrt_div hd.le, Real.sqrt_sq hs.le, inv_div]
  have e3 : c ^ 2 * t ^ 2 - r ^ 2 = (c * t) ^ 2 - r ^ 2 := by ring
  have hq : 0 < sqrt ((c * t) ^ 2 - r ^ 2) := Real.sqrt_pos.2 hd
  simp only [e1, e2, e3, one_div_one_div]
  field_simp

theorem rt1d_value {r t c l : ℝ} (hl : 0 < l) :
    rt1dCoda r t c (1 / l) = hemmer r (c * t) l := by
  unfold rt1dCoda hemmer iv bessel
  have e3 : c ^ 2 * t ^ 2 - r ^ 2 = (c * t) ^ 2 - r ^ 2 := by ring
  have e4 : sqrt ((c * t) ^ 2 - r ^ 2) / 2 / l = sqrt ((c * t) ^ 2 - r ^ 2) / (2 * l) := by
    field_simp
  have e5 : -c * t / 2 / l = -(c * t) / (2 * l) := by field_simp
  simp only [one_div_one_div, e3, e4, e5]
  ring

theorem gauss_power {D t : ℝ} (dim : ℕ) (hD : 0 < D) (ht : 0 < t) :
    (4 * π * D * t) ^ (-(dim : ℝ) / 2) = 1 / sqrt (2 * π * (2 * D * t)) ^ dim := by
  have e : (4 * π * D * t : ℝ) = 2 * π * (2 * D * t) := by ring
  rw [e, neg_div, Real.rpow_neg (by positivity), Real.sqrt_eq_rpow, ← Real.rpow_natCast,
    ← Real.rpow_mul (by positivity), one_div]
  congr 2
  ring

theorem diff_value {r t c l : ℝ} (dim : ℕ) (hd : 0 < dim) (hc : 0 < c) (ht : 0 < t) (hl : 0 < l) :
    diff r t c (1 / l) dim = gauss dim (c * l / dim) r t := by
  have hdr : (0 : ℝ) < dim := by exact_mod_cast hd
  have hD : c / (dim * (1 / l)) = c * l / dim := by field_simp
  unfold diff gauss
  simp only [hD]
  rw [gauss_power dim (by positivity) ht, show (4 * (c * l / dim) * t : ℝ) =
    2 * (2 * (c * l / dim) * t) by ring]
  ring

theorem diffapprox_value {r t c l : ℝ} (dim : ℕ) (hd : 0 < dim) (hc : 0 < c) (ht : 0 < t)
    (hl : 0 < l) : diffapprox r t c (1 / l) dim = gauss dim (c * l / dim) 0 t := by
  have hdr : (0 : ℝ) < dim := by exact_mod_cast hd
  have hD : c / (dim * (1 / l)) = c * l / dim := by field_simp
  unfold diffapprox gauss
  simp only [hD]
  rw [gauss_power dim (by positivity) ht]
  simp

end RtValues

open RtValues

/-- **C92**: behind the wave front the Green's function of each documented type is the published
solution for mean free path `1 / g0`, and zero in front of it. -/
theorem C92_values (type : String) (hty : type ∈ greensTypes) (r t c l : ℝ) (d : Bool) (hr : 0 ≤ r)
    (hc : 0 < c) (hl : 0 < l) (h : r < c * t) :
    ∃ x, green type r t c l = some x ∧ G (.num r) (.num t) c (1 / l) type d = .ok (.num (some x)) := by
  have hs : 0 < c * t := lt_of_le_of_lt hr h
  have ht : 0 < t := (pos_iff_pos_of_mul_pos hs).1 hc
  have hf : ¬ (t - r / c < 0) := by
    rw [scalar_ite hc]; unfold beforeArrival; linarith
  have hG : ∀ k, kindOf type = some k →
      G (.num r) (.num t) c (1 / l) type d = .ok (.num (coda k r t c (1 / l))) := by
    intro k hk
    rw [G_pos hc (one_div_pos.2 hl), hk]
    simp only [scalarG]
    rw [if_neg hf]
    rfl
  simp only [greensTypes, List.mem_cons, List.not_mem_nil, or_false] at hty
  rcases hty with rfl | rfl | rfl | rfl | rfl | rfl | rfl | rfl | rfl
  · exact ⟨_, rfl, by rw [hG .rt3d rfl]; simp only [coda, if_pos h, rt3d_value hr hc hl h]⟩
  · exact ⟨_, rfl, by rw [hG .rt2d rfl]; simp only [coda, if_pos h, rt2d_value hr hc hl h]⟩
  · exact ⟨_, rfl, by rw [hG .rt1d rfl]; simp only [coda, if_pos h, rt1d_value hl]⟩
  · refine ⟨_, rfl, ?_⟩
    rw [hG (.diff 3) rfl]
    simp only [coda, if_pos ht, diff_value 3 (by norm_num) hc ht hl]
    norm_num
  · refine ⟨_, rfl, ?_⟩
    rw [hG (.diff 2) rfl]
    simp only [coda, if_pos ht, diff_value 2 (by norm_num) hc ht hl]
    norm_num
  · refine ⟨_, rfl, ?_⟩
    rw [hG (.diff 1) rfl]
    simp only [coda, if_pos ht, diff_value 1 (by norm_num) hc ht hl]
    norm_num
  · refine ⟨_, rfl, ?_⟩
    rw [hG (.diffapprox 3) rfl]
    simp only [coda, if_pos ht, diffapprox_value 3 (by norm_num) hc ht hl]
    norm_num
  · refine ⟨_, rfl, ?_⟩
    rw [hG (.diffapprox 2) rfl]
    simp only [coda, if_pos ht, diffapprox_value 2 (by norm_num) hc ht hl]
    norm_num
  · refine ⟨_, rfl, ?_⟩
    rw [hG (.diffapprox 1) rfl]
    simp only [coda, if_pos ht, diffapprox_value 1 (by norm_num) hc ht hl]
    norm_num

/-- **C92**: the command `calc` prints the published solution for each mean free path, with
absorption if an absorption length is given. -/
theorem C92_calc (type : String) (hty : type ∈ greensTypes) (r t c : ℝ) (ls : List ℝ)
    (la : Option ℝ) (hla : la ≠ some 0) (hr : 0 ≤ r) (hc : 0 < c) (hl : ∀ l ∈ ls, 0 < l)
    (h : r < c * t) :
    calcCmd false r t c ls la [type] = .ok (ls.map (fun l => (green type r t c l).map
      (fun x => match la with
        | none => x
        | some la => x * exp (-(c * t) / la)))) := by
  unfold calcCmd
  simp only [Bool.not_false, ne_eq, not_true_eq_false, decide_false, Bool.and_false,
    Bool.false_eq_true, if_false, if_true]
  rw [mapExc_ok, List.forall₂_map_right_iff, List.forall₂_same]
  intro l hlm
  obtain ⟨x, hx, hG⟩ := C92_values type hty r t c l true hr hc (hl l hlm) h
  rw [if_neg (hl l hlm).ne', hG, hx]
  cases la with
  | none => rfl
  | some a =>
    have ha : a ≠ 0 := fun hh => hla (by rw [hh])
    simp [absorb, ha, bind, Except.bind, pure, Except.pure]

/-- **C92**: the command `calc-direct` prints the published direct term for radiative transfer and is
rejected for diffusion. -/
theorem C92_calc_direct (type : String) (hty : type ∈ greensTypes) (rest : List String)
    (r t c : ℝ) (ls : List ℝ) (hl : ∀ l ∈ ls, 0 < l) (ht : 0 < t) :
    (∀ l0 ∈ ls, greenDirect type t c l0 ≠ none →
      calcCmd true r t c ls none (type :: rest) =
        .ok (ls.map (fun l => greenDirect type t c l))) ∧
    (∀ l0 ∈ ls, greenDirect type t c l0 = none →
      calcCmd true r t c ls none (type :: rest) = .error .valueError) := by
  have e1 : ∀ l : ℝ, 0 < l → -c * t / 2 / (1 / (1 / l)) = -(c * t) / (2 * l) := by
    intro l hl; field_simp
  have hok : ∀ (f : ℝ → Py (Option ℝ)), (∀ l ∈ ls, f l = .ok (greenDirect type t c l)) →
      mapExc f ls = .ok (ls.map (fun l => greenDirect type t c l)) := by
    intro f hf
    rw [mapExc_ok, List.forall₂_map_right_iff, List.forall₂_same]
    exact hf
  have herr : ∀ (f : ℝ → Py (Option ℝ)), (∀ l ∈ ls, f l = .error .valueError) → ls ≠ [] →
      mapExc f ls = .error .valueError := by
    intro f hf hne
    cases ls with
    | nil => exact absurd rfl hne
    | cons a ls => unfold mapExc; rw [hf a List.mem_cons_self]; rfl
  unfold calcCmd
  simp only [Bool.not_true, Bool.false_and, Bool.false_eq_true, if_false]
  simp only [greensTypes, List.mem_cons, List.not_mem_nil, or_false] at hty
  rcases hty with rfl | rfl | rfl | rfl | rfl | rfl | rfl | rfl | rfl
  · refine ⟨fun l0 _ _ => hok _ fun l hlm => ?_, fun l0 _ hn => by simp [greenDirect] at hn⟩
    rw [if_neg (hl l hlm).ne']
    have := hl l hlm
    simp only [kindOf, if_true, direct, if_neg ht.ne', absorb, greenDirect, rt3dDirect]
    congr 3
    · congr 1; ring
    · ring
  · refine ⟨fun l0 _ _ => hok _ fun l hlm => ?_, fun l0 _ hn => by simp [greenDirect] at hn⟩
    rw [if_neg (hl l hlm).ne']
    have := hl l hlm
    have hk : kindOf "rt2d" = some .rt2d := rfl
    simp only [hk, direct, if_neg ht.ne', absorb, greenDirect, rt2dDirect, one_div_one_div]
    congr 3
    · congr 1; ring
    · ring
  · refine ⟨fun l0 _ _ => hok _ fun l hlm => ?_, fun l0 _ hn => by simp [greenDirect] at hn⟩
    rw [if_neg (hl l hlm).ne']
    have hk : kindOf "rt1d" = some .rt1d := rfl
    simp only [hk, direct, absorb, greenDirect, rt1dDirect]
    rw [e1 l (hl l hlm)]
    congr 2
    ring
  all_goals
    refine ⟨fun l0 _ hn => absurd rfl hn, fun l0 hl0 _ => herr _ (fun l hlm => ?_)
      (List.ne_nil_of_mem hl0)⟩
    rw [if_neg (hl l hlm).ne']
    rfl

/-- **C92**: `calc` accepts exactly one type. -/
theorem C92_calc_one_type (type type' : String) (rest : List String) (r t c : ℝ) (ls : List ℝ)
    (la : Option ℝ) :
    calcCmd false r t c ls la (type :: type' :: rest) = .error .valueError := by
  unfold calcCmd
  simp

/-- A concrete case: distance 1 m, time 3 s, velocity 2 m/s and mean free path 4 m. -/
example : G (.num 1) (.num 3) 2 (1 / 4) "rt2d" = .ok (.num (some (sato 1 6 4))) := by
  obtain ⟨x, hx, hG⟩ := C92_values "rt2d" (by simp [greensTypes]) 1 3 2 4 true (by norm_num)
    (by norm_num) (by norm_num) (by norm_num)
  rw [hG]
  have : green "rt2d" 1 3 2 4 = some (sato 1 (2 * 3) 4) := rfl
  rw [this] at hx
  simp only [Option.some.injEq] at hx
  rw [← hx]
  norm_num

end Qopen
