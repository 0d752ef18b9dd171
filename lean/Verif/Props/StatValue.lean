import Verif.Props.Stat

/-!
# Properties C46-C48: values of the geometric errors and of the robust statistics (`util.py`)
-/

set_option linter.unusedSimpArgs false

namespace Qopen
open Util Real

namespace Spec

/-- Arithmetic mean. -/
noncomputable def avg (l : List ℝ) : ℝ := l.sum / l.length

/-- Sample standard deviation with the number of degrees of freedom lowered by `ddof`. -/
noncomputable def stdDev (l : List ℝ) (ddof : ℕ) : ℝ :=
  sqrt ((l.map (fun x => (x - avg l) ^ 2)).sum / (l.length - ddof))

/-- Weighted mean of pairs of value and weight. -/
noncomputable def wavg (l : List (ℝ × ℝ)) : ℝ :=
  (l.map (fun p => p.2 * p.1)).sum / (l.map Prod.snd).sum

/-- Variance of values with weights. -/
noncomputable def wvar (l : List (ℝ × ℝ)) : ℝ :=
  (l.map (fun p => p.2 * (p.1 - wavg l) ^ 2)).sum / (l.map Prod.snd).sum

end Spec

open Spec

/-- **C46**: for at least two positive values, `gerr` reports the geometric mean and the distances
to the mean divided and multiplied by the geometric standard deviation; for fewer values no errors
are reported. -/
theorem C46_gerr_value (rlm : List ℝ → ℝ × ℝ) (data : List Cell) (u : Bool) (fb : ℕ) :
    gerr rlm data none u false fb = .ok (
      if positives data = [] then (none, none, none)
      else if (positives data).length < 2 then (some (geoMean (positives data)), none, none)
      else
        let m := geoMean (positives data)
        let s := exp (stdDev ((positives data).map log) (if u then 1 else 0))
        (some m, some (m - m / s), some (m * s - m))) := by
  have hv := validData_maLog data
  have hg := exp_mean_log (positives data) (fun x hx => positives_pos hx)
  unfold gerr gstat
  simp only [Bool.false_and, Bool.false_eq_true, if_false, weightedStat, weightsMismatch, maAverage,
    maStd, hv, List.length_map, bind, Except.bind, pure, Except.pure]
  by_cases h0 : positives data = []
  · simp [h0]
  · have hl : (positives data).length ≠ 0 := by simpa using h0
    rw [if_neg hl, if_neg h0]
    by_cases h2 : (positives data).length < 2
    · rw [if_pos h2, if_pos h2]
      simp only [Option.map_some, hg]
    · have hd : ¬ (positives data).length ≤ (if u then 1 else 0) := by
        cases u <;> simp <;> omega
      rw [if_neg h2, if_neg h2, if_neg hd]
      have hs : ∀ x : ℝ, sqrt ((((positives data).map log).map (fun x =>
          (x - ((positives data).map log).sum / (positives data).length) ^ 2)).sum /
          (((positives data).length : ℝ) - ((if u then 1 else 0 : ℕ) : ℝ))) =
          stdDev ((positives data).map log) (if u then 1 else 0) := by
        intro _; simp only [stdDev, avg, List.length_map]
      simp only [Option.map_some, hs 0, exp_add, exp_sub, hg]

/-- non-vacuity: two positive values besides a missing one -/
example : ¬ (positives [.num 2, .none, .num 8]).length < 2 := by
  simp [positives, List.filterMap_cons]

theorem length_validPairs (data : List (Option ℝ)) (w : List ℝ) (h : w.length = data.length) :
    (validPairs data w).length = (validData data).length := by
  induction data generalizing w with
  | nil => simp [validPairs, validData]
  | cons o data ih =>
    cases w with
    | nil => simp at h
    | cons a w =>
      have := ih w (by simpa using h)
      cases o with
      | none => simpa [validPairs, validData] using this
      | some x => simpa [validPairs, validData] using this

theorem validPairs_weight {data : List (Option ℝ)} {w : List ℝ} {p : ℝ × ℝ}
    (h : p ∈ validPairs data w) : p.2 ∈ w := by
  unfold validPairs at h
  rw [List.mem_filterMap] at h
  obtain ⟨q, hq, h⟩ := h
  have := (List.of_mem_zip hq).2
  cases hq1 : q.1 with
  | none => simp [hq1] at h
  | some x =>
    simp only [hq1, Option.map_some, Option.some.injEq] at h
    rw [← h]; exact this

theorem sq_sum_le (l : List (ℝ × ℝ)) (h : ∀ p ∈ l, 0 < p.2) :
    (l.map (fun p => p.2 ^ 2)).sum ≤ (l.map Prod.snd).sum ^ 2 ∧ 0 ≤ (l.map Prod.snd).sum := by
  induction l with
  | nil => simp
  | cons a l ih =>
    obtain ⟨h1, h2⟩ := ih (fun p hp => h p (List.mem_cons_of_mem _ hp))
    have ha := h a List.mem_cons_self
    simp only [List.map_cons, List.sum_cons]
    constructor
    · nlinarith
    · linarith

theorem sq_sum_lt (l : List (ℝ × ℝ)) (h : ∀ p ∈ l, 0 < p.2) (hl : 2 ≤ l.length) :
    (l.map (fun p => p.2 ^ 2)).sum < (l.map Prod.snd).sum ^ 2 ∧ 0 < (l.map Prod.snd).sum := by
  match l, hl with
  | a :: b :: l, _ =>
    obtain ⟨h1, h2⟩ := sq_sum_le l (fun p hp => h p (by simp [hp]))
    have ha := h a (by simp)
    have hb := h b (by simp)
    simp only [List.map_cons, List.sum_cons]
    constructor
    · nlinarith [mul_pos ha hb, mul_nonneg ha.le h2, mul_nonneg hb.le h2]
    · linarith

/-- **C47**: mean and error for weighted values; the unbiased variance is the biased one divided by
`1 - ∑ wᵢ² / (∑ wᵢ)²`. -/
theorem C47_weighted_value (data : List (Option ℝ)) (w : List ℝ) (hlen : w.length = data.length)
    (hpos : ∀ x ∈ w, 0 < x) (hn : 2 ≤ (validData data).length) (u : Bool) :
    let v := validPairs data w
    weightedStat data (some w) u = .ok (some (wavg v), some (sqrt (wvar v /
      (if u then 1 - (v.map (fun p => p.2 ^ 2)).sum / (v.map Prod.snd).sum ^ 2 else 1)))) := by
  intro v
  have hw : ∀ p ∈ v, 0 < p.2 := fun p hp => hpos _ (validPairs_weight hp)
  have hl : 2 ≤ v.length := by rw [length_validPairs data w hlen]; exact hn
  obtain ⟨h1, h2⟩ := sq_sum_lt v hw hl
  have hd : 0 < 1 - (v.map (fun p => p.2 ^ 2)).sum / (v.map Prod.snd).sum ^ 2 := by
    rw [sub_pos, div_lt_one (by positivity)]; exact h1
  have em : (v.map (fun p => p.1 * p.2)).sum / (v.map Prod.snd).sum = wavg v := by
    simp only [wavg, mul_comm]
  have ev : (v.map (fun p => (p.1 - wavg v) ^ 2 * p.2)).sum / (v.map Prod.snd).sum = wvar v := by
    simp only [wvar, mul_comm]
  have hvar : 0 ≤ wvar v := by
    refine div_nonneg (List.sum_nonneg ?_) h2.le
    intro x hx
    obtain ⟨p, hp, rfl⟩ := List.mem_map.1 hx
    exact mul_nonneg (hw p hp).le (sq_nonneg _)
  have hmm : weightsMismatch (some w) data.length = false := by simp [weightsMismatch, hlen]
  unfold weightedStat
  simp only [hmm, Bool.false_eq_true, if_false, maAverage, if_neg (show ¬ (validData data).length < 2
    by omega)]
  have hs : ((validPairs data w).map Prod.snd).sum ≠ 0 := h2.ne'
  rw [if_neg hs]
  show Except.ok (_, _) = _
  simp only [Option.bind_some, weightedStd]
  change Except.ok (some ((v.map (fun p => p.1 * p.2)).sum / (v.map Prod.snd).sum),
    if u = true then
      if 1 - (v.map (fun p => p.2 ^ 2)).sum / (v.map Prod.snd).sum ^ 2 = 0 ∨
        (v.map (fun p => (p.1 - (v.map (fun p => p.1 * p.2)).sum / (v.map Prod.snd).sum) ^ 2
          * p.2)).sum / (v.map Prod.snd).sum /
          (1 - (v.map (fun p => p.2 ^ 2)).sum / (v.map Prod.snd).sum ^ 2) < 0 then none
      else some (sqrt ((v.map (fun p => (p.1 - (v.map (fun p => p.1 * p.2)).sum /
          (v.map Prod.snd).sum) ^ 2 * p.2)).sum / (v.map Prod.snd).sum /
          (1 - (v.map (fun p => p.2 ^ 2)).sum / (v.map Prod.snd).sum ^ 2)))
    else if (v.map (fun p => (p.1 - (v.map (fun p => p.1 * p.2)).sum /
          (v.map Prod.snd).sum) ^ 2 * p.2)).sum / (v.map Prod.snd).sum < 0 then none
      else some (sqrt ((v.map (fun p => (p.1 - (v.map (fun p => p.1 * p.2)).sum /
          (v.map Prod.snd).sum) ^ 2 * p.2)).sum / (v.map Prod.snd).sum))) = _
  rw [em, ev]
  cases u with
  | true =>
    simp only [if_true]
    rw [if_neg]
    push Not
    exact ⟨hd.ne', div_nonneg hvar hd.le⟩
  | false =>
    simp only [Bool.false_eq_true, if_false, div_one]
    rw [if_neg (by linarith)]

/-- non-vacuity: three values, one of them missing -/
example : 2 ≤ (validData [some 2, none, some 8]).length := by simp [validData]

/-- **C47**, **C48**: no error is reported for fewer than two valid values. -/
theorem C47_no_error (data : List (Option ℝ)) (w : Option (List ℝ)) (u : Bool)
    (hn : (validData data).length < 2) (r : Option ℝ × Option ℝ)
    (h : weightedStat data w u = .ok r) : r.2 = none := by
  unfold weightedStat at h
  split at h
  · simp at h
  · simp only [if_pos hn, Except.ok.injEq] at h
    rw [← h]

/-- **C48**: with at least `fall_back` positive values which are not all equal the robust statistics
are those of the robust estimator for the logarithms. -/
theorem C48_robust_value (rlm : List ℝ → ℝ × ℝ) (data : List Cell) (u : Bool) (fb : ℕ)
    (h : fb ≤ (positives data).length)
    (hne : ∃ x ∈ positives data, ∃ y ∈ positives data, x ≠ y) :
    gstat rlm data none u true fb =
      .ok (some (rlm ((positives data).map log)).1, some (rlm ((positives data).map log)).2) := by
  have hv := validData_maLog data
  unfold gstat robustStat
  simp only [Option.isSome_none, Bool.and_false, Bool.false_eq_true, if_false, if_true, hv,
    List.length_map]
  rw [if_neg (by omega), if_neg]
  intro hp
  obtain ⟨x, hx, y, hy, hxy⟩ := hne
  exact hxy (log_injOn_pos (positives_pos hx) (positives_pos hy)
    (hp _ (by rw [hv]; exact List.mem_map_of_mem hx) _ (by rw [hv]; exact List.mem_map_of_mem hy)))

/-- non-vacuity: five values with the default `fall_back` -/
example : 5 ≤ (positives [.num 1, .num 2, .num 3, .num 4, .num 5]).length ∧
    ∃ x ∈ positives [.num 1, .num 2, .num 3, .num 4, .num 5],
    ∃ y ∈ positives [.num 1, .num 2, .num 3, .num 4, .num 5], x ≠ y := by
  have : positives [.num 1, .num 2, .num 3, .num 4, .num 5] = [1, 2, 3, 4, 5] := by
    simp [positives, List.filterMap_cons]
  rw [this]
  exact ⟨by simp, 1, by simp, 2, by simp, by norm_num⟩

end Qopen
