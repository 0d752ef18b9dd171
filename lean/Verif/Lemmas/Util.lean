import Verif.Model.Util
import Verif.Spec.Stat
import Verif.Lemmas.ListSum
import Mathlib.Algebra.Order.BigOperators.Group.List
import Mathlib.Analysis.SpecialFunctions.Log.Basic
import Mathlib.Tactic.FieldSimp
import Mathlib.Tactic.Linarith
import Mathlib.Tactic.Positivity

set_option linter.unusedSimpArgs false

namespace Qopen.Util
open Real Spec

theorem validData_maLog (data : List Cell) :
    validData (maLog (maskedInvalid data)) = (positives data).map log := by
  induction data with
  | nil => rfl
  | cons c data ih =>
    simp only [validData, maLog, maskedInvalid, positives, List.map_cons, List.filterMap_cons, id]
      at ih ⊢
    cases c with
    | none => simpa using ih
    | nan => simpa using ih
    | num x =>
      by_cases h : 0 < x
      · simpa [h] using ih
      · simpa [h] using ih

theorem validPairs_maLog (data : List Cell) (w : List ℝ) :
    validPairs (maLog (maskedInvalid data)) w =
      (positivesW data w).map (fun p => (log p.1, p.2)) := by
  induction data generalizing w with
  | nil => rfl
  | cons c data ih =>
    cases w with
    | nil => simp [validPairs, positivesW]
    | cons a w =>
      have ih := ih w
      simp only [validPairs, maLog, maskedInvalid, positivesW, List.map_cons, List.zip_cons_cons,
        List.filterMap_cons] at ih ⊢
      cases c with
      | none => simpa using ih
      | nan => simpa using ih
      | num x =>
        by_cases h : 0 < x
        · simpa [h] using ih
        · simpa [h] using ih

theorem mem_positives {data : List Cell} {x : ℝ} :
    x ∈ positives data ↔ Cell.num x ∈ data ∧ 0 < x := by
  unfold positives
  rw [List.mem_filterMap]
  constructor
  · rintro ⟨c, hc, h⟩
    cases c with
    | none => simp at h
    | nan => simp at h
    | num y =>
      simp only at h
      split at h
      · next h1 => simp only [Option.some.injEq] at h; subst h; exact ⟨hc, h1⟩
      · simp at h
  · rintro ⟨hc, h⟩
    exact ⟨_, hc, by simp [h]⟩

theorem positives_pos {data : List Cell} {x : ℝ} (h : x ∈ positives data) : 0 < x :=
  (mem_positives.1 h).2

theorem mem_positivesW_pos {data : List Cell} {w : List ℝ} {p : ℝ × ℝ}
    (h : p ∈ positivesW data w) : 0 < p.1 ∧ Cell.num p.1 ∈ data ∧ p.2 ∈ w := by
  unfold positivesW at h
  rw [List.mem_filterMap] at h
  obtain ⟨⟨c, a⟩, hm, h⟩ := h
  have := List.of_mem_zip hm
  cases c with
  | none => simp at h
  | nan => simp at h
  | num y =>
    simp only at h
    split at h
    · next h1 => simp only [Option.some.injEq] at h; subst h; exact ⟨h1, this.1, this.2⟩
    · simp at h

theorem sum_log_eq (xs : List ℝ) (h : ∀ x ∈ xs, 0 < x) : (xs.map log).sum = log xs.prod := by
  induction xs with
  | nil => simp
  | cons a xs ih =>
    have ha := h a (by simp)
    have hx : 0 < xs.prod := List.prod_pos (fun x hx => h x (by simp [hx]))
    rw [List.map_cons, List.sum_cons, List.prod_cons, log_mul ha.ne' hx.ne',
      ih (fun x hx => h x (by simp [hx]))]

theorem exp_mean_log (xs : List ℝ) (h : ∀ x ∈ xs, 0 < x) :
    exp ((xs.map log).sum / xs.length) = geoMean xs := by
  have hx : 0 < xs.prod := List.prod_pos h
  rw [geoMean, sum_log_eq xs h, rpow_def_of_pos hx]
  congr 1; ring

theorem exp_wmean_log (xs : List (ℝ × ℝ)) (h : ∀ p ∈ xs, 0 < p.1) :
    exp ((xs.map (fun p => log p.1 * p.2)).sum / (xs.map Prod.snd).sum) = geoMeanW xs := by
  have key : (xs.map (fun p => log p.1 * p.2)).sum =
      log (xs.map (fun p => p.1 ^ p.2)).prod := by
    induction xs with
    | nil => simp
    | cons a xs ih =>
      have ha := h a (by simp)
      have hx : 0 < (xs.map (fun p => p.1 ^ p.2)).prod :=
        List.prod_pos (fun x hx => by
          obtain ⟨p, hp, rfl⟩ := List.mem_map.1 hx
          exact rpow_pos_of_pos (h p (by simp [hp])) _)
      rw [List.map_cons, List.sum_cons, List.map_cons, List.prod_cons,
        log_mul (rpow_pos_of_pos ha _).ne' hx.ne', log_rpow ha,
        ih (fun x hx => h x (by simp [hx]))]
      ring
  have hx : 0 < (xs.map (fun p => p.1 ^ p.2)).prod :=
        List.prod_pos (fun x hx => by
          obtain ⟨p, hp, rfl⟩ := List.mem_map.1 hx
          exact rpow_pos_of_pos (h p (by simp [hp])) _)
  rw [geoMeanW, key, rpow_def_of_pos hx]
  congr 1; ring

/-- A weighted mean with non-negative weights lies between bounds. -/
theorem wmean_bounds (xs : List (ℝ × ℝ)) (hw : ∀ p ∈ xs, 0 ≤ p.2)
    (hs : (xs.map Prod.snd).sum ≠ 0) :
    (∃ p ∈ xs, p.1 ≤ (xs.map (fun p => p.1 * p.2)).sum / (xs.map Prod.snd).sum) ∧
    (∃ p ∈ xs, (xs.map (fun p => p.1 * p.2)).sum / (xs.map Prod.snd).sum ≤ p.1) := by
  set m := (xs.map (fun p => p.1 * p.2)).sum / (xs.map Prod.snd).sum with hm
  have e : (xs.map (fun p => (p.1 - m) * p.2)).sum = 0 := by
    have : (xs.map (fun p => (p.1 - m) * p.2)).sum =
        (xs.map (fun p => p.1 * p.2)).sum - m * (xs.map Prod.snd).sum := by
      rw [← sum_map_mul_left', ← sum_map_sub']
      exact sum_map_congr (fun p _ => by ring)
    rw [this, hm]; field_simp; ring
  have hex : ∃ p ∈ xs, 0 < p.2 := by
    by_contra hc
    push Not at hc
    apply hs
    have : ∀ p ∈ xs, p.2 = 0 := fun p hp => le_antisymm (hc p hp) (hw p hp)
    rw [List.map_congr_left (g := fun _ => (0:ℝ)) this]; simp
  obtain ⟨q, hq, hq2⟩ := hex
  constructor
  · by_contra hc
    push Not at hc
    have : 0 < (xs.map (fun p => (p.1 - m) * p.2)).sum :=
      sum_map_pos (fun p hp => mul_nonneg (by linarith [hc p hp]) (hw p hp)) hq
        (mul_pos (by linarith [hc q hq]) hq2)
    linarith
  · by_contra hc
    push Not at hc
    have : 0 < (xs.map (fun p => -((p.1 - m) * p.2))).sum :=
      sum_map_pos (fun p hp => by
        have := mul_nonneg (a := m - p.1) (by linarith [hc p hp]) (hw p hp); linarith) hq
        (by have := mul_pos (a := m - q.1) (by linarith [hc q hq]) hq2; linarith)
    rw [sum_map_neg'] at this
    linarith

theorem gmean_eq (rlm : List ℝ → ℝ × ℝ) (data : List Cell) (weights : Option (List ℝ)) (fb : ℕ) :
    gmean rlm data weights false fb =
      if weightsMismatch weights data.length then .error .typeError
      else .ok ((maAverage (maLog (maskedInvalid data)) weights).map exp) := by
  have hl : (maLog (maskedInvalid data)).length = data.length := by simp [maLog, maskedInvalid]
  simp only [gmean, gstat, Bool.false_and, Bool.false_eq_true, if_false, weightedStat, hl]
  split <;> rfl

/-! ### Equivariance of `weightedStat` -/

theorem validData_map (f : ℝ → ℝ) (data : List (Option ℝ)) :
    validData (data.map (Option.map f)) = (validData data).map f := by
  induction data with
  | nil => rfl
  | cons o data ih =>
    simp only [validData, List.map_cons, List.filterMap_cons, id] at ih ⊢
    cases o <;> simp [ih]

theorem validPairs_map (f : ℝ → ℝ) (data : List (Option ℝ)) (w : List ℝ) :
    validPairs (data.map (Option.map f)) w = (validPairs data w).map (fun p => (f p.1, p.2)) := by
  induction data generalizing w with
  | nil => rfl
  | cons o data ih =>
    cases w with
    | nil => simp [validPairs]
    | cons a w =>
      have ih := ih w
      simp only [validPairs, List.map_cons, List.zip_cons_cons, List.filterMap_cons] at ih ⊢
      cases o <;> simp [ih]

theorem mean_shift (v : List ℝ) (c : ℝ) (h : v.length ≠ 0) :
    ((v.map (· + c)).sum / v.length : ℝ) = v.sum / v.length + c := by
  have : (v.length : ℝ) ≠ 0 := by exact_mod_cast h
  have e : (v.map (· + c)).sum = v.sum + v.length * c := by
    rw [sum_map_add' v (fun x => x) (fun _ => c)]; simp
  rw [e]; field_simp

theorem maAverage_affine (data : List (Option ℝ)) (weights : Option (List ℝ)) (a c : ℝ) :
    maAverage (data.map (Option.map (fun x => a * x + c))) weights =
      (maAverage data weights).map (fun x => a * x + c) := by
  cases weights with
  | none =>
    simp only [maAverage, validData_map, List.length_map]
    split
    · rfl
    · next h =>
      have h' : ((validData data).length : ℝ) ≠ 0 := by exact_mod_cast h
      simp only [Option.map_some, Option.some.injEq]
      rw [sum_map_add' _ (fun x => a * x) (fun _ => c), sum_map_mul_left' _ (fun x => x)]
      simp only [List.map_id', sum_map_const']
      field_simp
  | some w =>
    simp only [maAverage, validPairs_map, List.map_map]
    have e1 : (Prod.snd ∘ fun p : ℝ × ℝ => (a * p.1 + c, p.2)) = Prod.snd := rfl
    rw [e1]
    split
    · rfl
    · next h =>
      simp only [Option.map_some, Option.some.injEq, Function.comp_def]
      have : ((validPairs data w).map (fun p => (a * p.1 + c) * p.2)).sum =
          a * ((validPairs data w).map (fun p => p.1 * p.2)).sum +
            c * ((validPairs data w).map Prod.snd).sum := by
        rw [← sum_map_mul_left', ← sum_map_mul_left', ← sum_map_add']
        exact sum_map_congr (fun p _ => by ring)
      rw [this]; field_simp

/-- `weighted_stat` of affinely transformed data (slope ±1): the mean is
transformed, the error stays. -/
theorem weightedStat_affine (data : List (Option ℝ)) (weights : Option (List ℝ)) (u : Bool)
    (a c : ℝ) (ha : a ^ 2 = 1) :
    weightedStat (data.map (Option.map (fun x => a * x + c))) weights u =
      (weightedStat data weights u).map (fun r => (r.1.map (fun x => a * x + c), r.2)) := by
  unfold weightedStat
  simp only [List.length_map]
  by_cases hmm : weightsMismatch weights data.length = true
  · rw [if_pos hmm, if_pos hmm]; rfl
  rw [if_neg hmm, if_neg hmm]
  simp only [Except.map, maAverage_affine, validData_map, List.length_map]
  congr 2
  by_cases hlen : (validData data).length < 2
  · rw [if_pos hlen, if_pos hlen]
  rw [if_neg hlen, if_neg hlen]
  cases weights with
  | none =>
    simp only [maStd, validData_map, List.length_map]
    by_cases hd : (validData data).length ≤ (if u = true then 1 else 0)
    · rw [if_pos hd, if_pos hd]
    rw [if_neg hd, if_neg hd]
    have h' : ((validData data).length : ℝ) ≠ 0 := by
      have : (validData data).length ≠ 0 := by omega
      exact_mod_cast this
    have e : ((validData data).map (fun x => a * x + c)).sum / (validData data).length =
        a * ((validData data).sum / (validData data).length) + c := by
      rw [sum_map_add' _ (fun x => a * x) (fun _ => c), sum_map_mul_left' _ (fun x => x)]
      simp only [List.map_id', sum_map_const']
      field_simp
    rw [e, List.map_map]
    have e2 : ((fun x => (x - (a * ((validData data).sum / (validData data).length) + c)) ^ 2) ∘
        fun x => a * x + c) =
        fun x => (x - (validData data).sum / (validData data).length) ^ 2 := by
      funext x
      simp only [Function.comp]
      have : (a * x + c - (a * ((validData data).sum / (validData data).length) + c)) ^ 2 =
        a ^ 2 * (x - (validData data).sum / (validData data).length) ^ 2 := by ring
      rw [this, ha, one_mul]
    rw [e2]
  | some w =>
    cases hm : maAverage data (some w) with
    | none => rfl
    | some m =>
      simp only [Option.map_some, Option.bind_some, weightedStd, validPairs_map, List.map_map]
      have e1 : (Prod.snd ∘ fun p : ℝ × ℝ => (a * p.1 + c, p.2)) = Prod.snd := rfl
      have e2 : ((fun p : ℝ × ℝ => (p.1 - (a * m + c)) ^ 2 * p.2) ∘
          fun p : ℝ × ℝ => (a * p.1 + c, p.2)) = fun p : ℝ × ℝ => (p.1 - m) ^ 2 * p.2 := by
        funext p
        simp only [Function.comp]
        have : (a * p.1 + c - (a * m + c)) ^ 2 = a ^ 2 * (p.1 - m) ^ 2 := by ring
        rw [this, ha, one_mul]
      have e3 : ((fun p : ℝ × ℝ => p.2 ^ 2) ∘ fun p : ℝ × ℝ => (a * p.1 + c, p.2)) =
          fun p : ℝ × ℝ => p.2 ^ 2 := rfl
      rw [e1, e2, e3]

theorem ptpZero_affine (v : List ℝ) (a c : ℝ) (ha : a ≠ 0) :
    ptpZero (v.map (fun x => a * x + c)) ↔ ptpZero v := by
  unfold ptpZero
  simp only [List.mem_map, forall_exists_index, and_imp, forall_apply_eq_imp_iff₂]
  constructor
  · intro h x hx y hy
    have := h x hx y hy
    have : a * x = a * y := by linarith
    exact mul_left_cancel₀ ha this
  · intro h x hx y hy
    rw [h x hx y hy]

theorem robustStat_affine (rlm : List ℝ → ℝ × ℝ) (data : List (Option ℝ)) (fb : ℕ)
    (a c : ℝ) (ha : a ^ 2 = 1)
    (hr : ∀ v, rlm (v.map (fun x => a * x + c)) = (a * (rlm v).1 + c, (rlm v).2)) :
    robustStat rlm (data.map (Option.map (fun x => a * x + c))) fb =
      (robustStat rlm data fb).map (fun r => (r.1.map (fun x => a * x + c), r.2)) := by
  have ha0 : a ≠ 0 := by rintro rfl; norm_num at ha
  unfold robustStat
  simp only [validData_map, List.length_map]
  by_cases h1 : (validData data).length < fb
  · rw [if_pos h1, if_pos h1, ← weightedStat_affine _ _ _ _ _ ha]
    simp [List.map_map, Function.comp_def]
  · rw [if_neg h1, if_neg h1]
    have hiff : ptpZero (validData (data.map (Option.map fun x => a * x + c))) ↔
        ptpZero (validData data) := by rw [validData_map, ptpZero_affine _ _ _ ha0]
    by_cases h2 : ptpZero (validData data)
    · rw [if_pos (hiff.2 h2), if_pos h2]
      by_cases h : (validData data).length = 0
      · rw [if_pos h, if_pos h]; rfl
      · rw [if_neg h, if_neg h]
        have h' : ((validData data).length : ℝ) ≠ 0 := by exact_mod_cast h
        simp only [Except.map, Option.map_some, Except.ok.injEq, Prod.mk.injEq,
          Option.some.injEq, and_true]
        rw [sum_map_add' _ (fun x => a * x) (fun _ => c), sum_map_mul_left' _ (fun x => x)]
        simp only [List.map_id', sum_map_const']
        field_simp
    · rw [if_neg (fun h => h2 (hiff.1 h)), if_neg h2]; simp [Except.map, hr]

end Qopen.Util
