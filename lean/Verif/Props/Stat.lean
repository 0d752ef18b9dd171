import Verif.Lemmas.Util

/-!
# Properties C45-C49: geometric means and their errors (`util.py`)
-/

set_option linter.unusedSimpArgs false

namespace Qopen
open Util Spec Real

/-- Multiply a cell by a number; `None` and NaN stay. -/
noncomputable def Cell.scale (k : ℝ) : Cell → Cell
  | .num x => .num (k * x)
  | c => c

/-- Reciprocal of a cell. -/
noncomputable def Cell.recip : Cell → Cell
  | .num x => .num (1 / x)
  | c => c

/-! ## C45 -/

/-- **C45**: without weights `gmean` is the geometric mean `(x₁⋯xₙ)^(1/n)` of the
positive numbers in the data (everything else is ignored) and missing iff there
are none. -/
theorem C45_gmean_is_geometric_mean (rlm : List ℝ → ℝ × ℝ) (data : List Cell) :
    gmean rlm data none = .ok
      (if positives data = [] then none else some (geoMean (positives data))) := by
  rw [gmean_eq]
  simp only [weightsMismatch, Bool.false_eq_true, if_false, maAverage, validData_maLog,
    List.length_map]
  by_cases h : positives data = []
  · simp [h]
  · have hl : (positives data).length ≠ 0 := by simpa using h
    have hg := exp_mean_log (positives data) (fun x hx => positives_pos hx)
    rw [if_neg hl, if_neg h, Option.map_some, hg]

/-- **C45**: with weights `gmean` is the weighted geometric mean
`(∏ xᵢ^wᵢ)^(1/∑wᵢ)` of the positive numbers in the data. -/
theorem C45_weighted_gmean (rlm : List ℝ → ℝ × ℝ) (data : List Cell) (w : List ℝ)
    (hlen : w.length = data.length)
    (hs : ((positivesW data w).map Prod.snd).sum ≠ 0) :
    gmean rlm data (some w) = .ok (some (geoMeanW (positivesW data w))) := by
  have hg := exp_wmean_log (positivesW data w) (fun p hp => (mem_positivesW_pos hp).1)
  have hv := validPairs_maLog data w
  have hm : maAverage (maLog (maskedInvalid data)) (some w) =
      some (((positivesW data w).map (fun p => log p.1 * p.2)).sum /
        ((positivesW data w).map Prod.snd).sum) := by
    simp only [maAverage, hv, List.map_map]
    have : (Prod.snd ∘ fun p : ℝ × ℝ => (log p.1, p.2)) = Prod.snd := rfl
    rw [this, if_neg hs]; rfl
  rw [gmean_eq, hm]
  simp [weightsMismatch, hlen, hg]

/-- non-vacuity: two stations, weights 1 and 3 -/
example : ((positivesW [.num 2, .nan, .num 8] [1, 7, 3]).map Prod.snd).sum ≠ 0 := by
  simp [positivesW, List.filterMap_cons]; norm_num

theorem wmean_of_gmean {rlm : List ℝ → ℝ × ℝ} {data : List Cell} {weights : Option (List ℝ)}
    {m : ℝ} (h : gmean rlm data weights = .ok (some m)) :
    (weights = none ∧ positives data ≠ [] ∧ m = geoMean (positives data)) ∨
    ∃ w, weights = some w ∧ w.length = data.length ∧
      ((positivesW data w).map Prod.snd).sum ≠ 0 ∧ m = geoMeanW (positivesW data w) := by
  cases weights with
  | none =>
    left
    rw [C45_gmean_is_geometric_mean] at h
    split at h
    · simp at h
    · next h1 => simp at h; exact ⟨rfl, h1, h.symm⟩
  | some w =>
    right
    refine ⟨w, rfl, ?_⟩
    by_cases hlen : w.length = data.length
    · refine ⟨hlen, ?_⟩
      by_cases hs : ((positivesW data w).map Prod.snd).sum = 0
      · exfalso
        have hm : maAverage (maLog (maskedInvalid data)) (some w) = none := by
          simp only [maAverage, validPairs_maLog, List.map_map]
          have : (Prod.snd ∘ fun p : ℝ × ℝ => (log p.1, p.2)) = Prod.snd := rfl
          rw [this, if_pos hs]
        rw [gmean_eq, hm] at h
        split at h <;> simp at h
      · rw [C45_weighted_gmean rlm data w hlen hs] at h
        simp at h
        exact ⟨hs, h.symm⟩
    · exfalso
      rw [gmean_eq] at h
      simp [weightsMismatch, hlen] at h

/-- **C45**: `gmean` (weighted with non-negative weights or not) lies between the
smallest and the largest positive value of the data. -/
theorem C45_gmean_between (rlm : List ℝ → ℝ × ℝ) (data : List Cell)
    (weights : Option (List ℝ)) (hw : ∀ w, weights = some w → ∀ a ∈ w, 0 ≤ a) (m : ℝ)
    (h : gmean rlm data weights = .ok (some m)) :
    (∃ x, Cell.num x ∈ data ∧ 0 < x ∧ x ≤ m) ∧ (∃ y, Cell.num y ∈ data ∧ 0 < y ∧ m ≤ y) := by
  rcases wmean_of_gmean h with ⟨-, hne, rfl⟩ | ⟨w, rfl, -, hs, rfl⟩
  · have hpos : ∀ x ∈ positives data, 0 < x := fun x hx => positives_pos hx
    have hb := wmean_bounds ((positives data).map (fun x => (log x, (1:ℝ)))) (by
      intro p hp; obtain ⟨x, _, rfl⟩ := List.mem_map.1 hp; simp) (by
      simp only [List.map_map, Function.comp_def]; simpa using hne)
    simp only [List.map_map, Function.comp_def, mul_one] at hb
    have hlen : ((positives data).map (fun _ => (1:ℝ))).sum = (positives data).length := by simp
    rw [hlen] at hb
    rw [← exp_mean_log _ hpos]
    constructor
    · obtain ⟨p, hp, hle⟩ := hb.1
      obtain ⟨x, hx, rfl⟩ := List.mem_map.1 hp
      have := mem_positives.1 hx
      refine ⟨x, this.1, this.2, ?_⟩
      rw [← exp_log this.2]; exact exp_le_exp.2 hle
    · obtain ⟨p, hp, hle⟩ := hb.2
      obtain ⟨x, hx, rfl⟩ := List.mem_map.1 hp
      have := mem_positives.1 hx
      refine ⟨x, this.1, this.2, ?_⟩
      rw [← exp_log this.2]; exact exp_le_exp.2 hle
  · have hpos : ∀ p ∈ positivesW data w, 0 < p.1 := fun p hp => (mem_positivesW_pos hp).1
    have hb := wmean_bounds ((positivesW data w).map (fun p => (log p.1, p.2))) (by
      intro p hp; obtain ⟨x, hx, rfl⟩ := List.mem_map.1 hp
      exact hw w rfl _ (mem_positivesW_pos hx).2.2) (by
      simp only [List.map_map, Function.comp_def]; exact hs)
    simp only [List.map_map, Function.comp_def] at hb
    rw [← exp_wmean_log _ hpos]
    constructor
    · obtain ⟨p, hp, hle⟩ := hb.1
      obtain ⟨x, hx, rfl⟩ := List.mem_map.1 hp
      have := mem_positivesW_pos hx
      refine ⟨x.1, this.2.1, this.1, ?_⟩
      rw [← exp_log this.1]; exact exp_le_exp.2 hle
    · obtain ⟨p, hp, hle⟩ := hb.2
      obtain ⟨x, hx, rfl⟩ := List.mem_map.1 hp
      have := mem_positivesW_pos hx
      refine ⟨x.1, this.2.1, this.1, ?_⟩
      rw [← exp_log this.1]; exact exp_le_exp.2 hle

/-- non-vacuity: a concrete `gmean` result exists -/
example (rlm : List ℝ → ℝ × ℝ) :
    ∃ m, gmean rlm [.num 2, .none, .num 8] none = .ok (some m) :=
  ⟨_, by rw [C45_gmean_is_geometric_mean, if_neg (by simp [positives, List.filterMap_cons])]⟩

theorem maLog_scale (data : List Cell) (k : ℝ) (hk : 0 < k) :
    maLog (maskedInvalid (data.map (Cell.scale k))) =
      (maLog (maskedInvalid data)).map (Option.map (fun x => 1 * x + log k)) := by
  simp only [maLog, maskedInvalid, List.map_map]
  apply List.map_congr_left
  intro c _
  cases c with
  | none => rfl
  | nan => rfl
  | num x =>
    simp only [Function.comp, Cell.scale, Cell.val?_num, Option.bind_some]
    by_cases hx : 0 < x
    · rw [if_pos hx, if_pos (mul_pos hk hx), log_mul hk.ne' hx.ne']
      simp only [Option.map_some, Option.some.injEq]; ring
    · rw [if_neg hx, if_neg (fun h => hx ((mul_pos_iff_of_pos_left hk).1 h))]; rfl

theorem maLog_recip (data : List Cell) :
    maLog (maskedInvalid (data.map Cell.recip)) =
      (maLog (maskedInvalid data)).map (Option.map (fun x => (-1) * x + 0)) := by
  simp only [maLog, maskedInvalid, List.map_map]
  apply List.map_congr_left
  intro c _
  cases c with
  | none => rfl
  | nan => rfl
  | num x =>
    simp only [Function.comp, Cell.recip, Cell.val?_num, Option.bind_some]
    by_cases hx : 0 < x
    · rw [if_pos hx, if_pos (by positivity), one_div, log_inv]
      simp only [Option.map_some, Option.some.injEq]; ring
    · rw [if_neg hx, if_neg (fun h => hx (one_div_pos.1 h))]; rfl

/-- **C45/C46**: multiplying the data by `k > 0` shifts the log mean by `log k` and
leaves the error (log scale) unchanged; for the plain, weighted and the robust
statistics (the robust estimator being shift equivariant). -/
theorem C45_gstat_scale (rlm : List ℝ → ℝ × ℝ) (data : List Cell) (weights : Option (List ℝ))
    (u r : Bool) (fb : ℕ) (k : ℝ) (hk : 0 < k)
    (hr : r = true → ∀ v c, rlm (v.map (fun x => 1 * x + c)) = (1 * (rlm v).1 + c, (rlm v).2)) :
    gstat rlm (data.map (Cell.scale k)) weights u r fb =
      (gstat rlm data weights u r fb).map (fun s => (s.1.map (fun m => 1 * m + log k), s.2)) := by
  unfold gstat
  simp only [maLog_scale data k hk]
  split
  · rfl
  · split
    · next h => exact robustStat_affine rlm _ fb 1 _ (by norm_num) (fun v => hr h v _)
    · exact weightedStat_affine _ weights u 1 _ (by norm_num)

/-- **C45**: scaling the data by `k > 0` scales `gmean` by `k`. -/
theorem C45_gmean_scale (rlm : List ℝ → ℝ × ℝ) (data : List Cell) (weights : Option (List ℝ))
    (r : Bool) (fb : ℕ) (k : ℝ) (hk : 0 < k)
    (hr : r = true → ∀ v c, rlm (v.map (fun x => 1 * x + c)) = (1 * (rlm v).1 + c, (rlm v).2)) :
    gmean rlm (data.map (Cell.scale k)) weights r fb =
      (gmean rlm data weights r fb).map (Option.map (fun m => k * m)) := by
  unfold gmean
  rw [C45_gstat_scale rlm data weights true r fb k hk hr]
  cases gstat rlm data weights true r fb with
  | error e => rfl
  | ok s =>
    simp only [Except.map, bind, Except.bind, pure, Except.pure]
    cases s.1 with
    | none => rfl
    | some m => simp [exp_add, exp_log hk, mul_comm]

/-- **C45**: the geometric mean of reciprocals is the reciprocal of the geometric
mean (plain and weighted). -/
theorem C45_gmean_recip (rlm : List ℝ → ℝ × ℝ) (data : List Cell) (weights : Option (List ℝ)) :
    gmean rlm (data.map Cell.recip) weights =
      (gmean rlm data weights).map (Option.map (fun m => 1 / m)) := by
  have : gstat rlm (data.map Cell.recip) weights true false 5 =
      (gstat rlm data weights true false 5).map
        (fun s => (s.1.map (fun m => (-1) * m + 0), s.2)) := by
    unfold gstat
    simp only [maLog_recip, Bool.false_and, Bool.false_eq_true, if_false]
    exact weightedStat_affine _ weights true (-1) 0 (by norm_num)
  unfold gmean
  rw [this]
  cases gstat rlm data weights true false 5 with
  | error e => rfl
  | ok s =>
    simp only [Except.map, bind, Except.bind, pure, Except.pure]
    cases s.1 with
    | none => rfl
    | some m => simp [exp_neg]

/-- **C45**: the order of the data does not matter. -/
theorem C45_gmean_perm (rlm : List ℝ → ℝ × ℝ) (data data' : List Cell)
    (h : data.Perm data') : gmean rlm data none = gmean rlm data' none := by
  rw [C45_gmean_is_geometric_mean, C45_gmean_is_geometric_mean]
  have hp : (positives data).Perm (positives data') := h.filterMap _
  have e1 : positives data = [] ↔ positives data' = [] :=
    ⟨fun e => by rw [e] at hp; exact hp.nil_eq.symm, fun e => by rw [e] at hp; exact hp.eq_nil⟩
  simp only [geoMean, e1, hp.prod_eq, hp.length_eq]

/-- **C45**: the order of (value, weight) pairs does not matter. -/
theorem C45_weighted_gmean_perm (rlm : List ℝ → ℝ × ℝ) (l l' : List (Cell × ℝ)) (h : l.Perm l')
    (hs : ((positivesW (l.map Prod.fst) (l.map Prod.snd)).map Prod.snd).sum ≠ 0) :
    gmean rlm (l.map Prod.fst) (some (l.map Prod.snd)) =
      gmean rlm (l'.map Prod.fst) (some (l'.map Prod.snd)) := by
  have hz : ∀ l : List (Cell × ℝ), (l.map Prod.fst).zip (l.map Prod.snd) = l := by
    intro l; induction l with
    | nil => rfl
    | cons a l ih => simp [ih]
  have hp : (positivesW (l.map Prod.fst) (l.map Prod.snd)).Perm
      (positivesW (l'.map Prod.fst) (l'.map Prod.snd)) := by
    unfold positivesW; rw [hz, hz]; exact h.filterMap _
  have hs' : ((positivesW (l'.map Prod.fst) (l'.map Prod.snd)).map Prod.snd).sum ≠ 0 := by
    rwa [← (hp.map Prod.snd).sum_eq]
  rw [C45_weighted_gmean rlm _ _ (by simp) hs, C45_weighted_gmean rlm _ _ (by simp) hs']
  simp only [geoMeanW, (hp.map Prod.snd).sum_eq, (hp.map (fun p : ℝ × ℝ => p.1 ^ p.2)).prod_eq]

theorem positivesW_scale (data : List Cell) (w : List ℝ) (k : ℝ) :
    positivesW data (w.map (fun a => k * a)) =
      (positivesW data w).map (fun p => (p.1, k * p.2)) := by
  induction data generalizing w with
  | nil => rfl
  | cons c data ih =>
    cases w with
    | nil => simp [positivesW]
    | cons a w =>
      have ih := ih w
      simp only [positivesW, List.map_cons, List.zip_cons_cons, List.filterMap_cons] at ih ⊢
      cases c with
      | none => simpa using ih
      | nan => simpa using ih
      | num x =>
        by_cases h : 0 < x
        · simpa [h] using ih
        · simpa [h] using ih

/-- **C45**: only ratios of weights matter. -/
theorem C45_weights_scale (rlm : List ℝ → ℝ × ℝ) (data : List Cell) (w : List ℝ) (k : ℝ)
    (hk : k ≠ 0) (hlen : w.length = data.length)
    (hs : ((positivesW data w).map Prod.snd).sum ≠ 0) :
    gmean rlm data (some (w.map (fun a => k * a))) = gmean rlm data (some w) := by
  have hs' : ((positivesW data (w.map (fun a => k * a))).map Prod.snd).sum =
      k * ((positivesW data w).map Prod.snd).sum := by
    rw [positivesW_scale, List.map_map, ← sum_map_mul_left']; rfl
  rw [C45_weighted_gmean rlm data w hlen hs, C45_weighted_gmean rlm data _ (by simpa using hlen)
    (by rw [hs']; exact mul_ne_zero hk hs)]
  rw [← exp_wmean_log _ (fun p hp => (mem_positivesW_pos hp).1),
    ← exp_wmean_log _ (fun p hp => (mem_positivesW_pos hp).1), hs', positivesW_scale, List.map_map]
  have : ((positivesW data w).map
      ((fun p : ℝ × ℝ => log p.1 * p.2) ∘ fun p : ℝ × ℝ => (p.1, k * p.2))).sum =
      k * ((positivesW data w).map (fun p => log p.1 * p.2)).sum := by
    rw [← sum_map_mul_left']
    exact sum_map_congr (fun p _ => by simp only [Function.comp]; ring)
  rw [this, mul_div_mul_left _ _ hk]

/-- **C45**: invalid entries (`None`, NaN, non-positive numbers) can be left out. -/
theorem C45_ignores_invalid (rlm : List ℝ → ℝ × ℝ) (data data' : List Cell)
    (h : positives data = positives data') : gmean rlm data none = gmean rlm data' none := by
  rw [C45_gmean_is_geometric_mean, C45_gmean_is_geometric_mean, h]

example : positives [.num 3, .none, .nan, .num (-1), .num 5] = positives [.num 3, .num 5] := by
  simp [positives, List.filterMap_cons]

/-! ## C46 -/

/-- The error on log scale is never negative (the robust scale estimate being
non-negative). -/
theorem gstat_err_nonneg (rlm : List ℝ → ℝ × ℝ) (data : List Cell) (weights : Option (List ℝ))
    (u r : Bool) (fb : ℕ) (hr : r = true → ∀ v, 0 ≤ (rlm v).2) (s : Option ℝ × Option ℝ)
    (h : gstat rlm data weights u r fb = .ok s) (e : ℝ) (he : s.2 = some e) : 0 ≤ e := by
  have hwstat : ∀ (d : List (Option ℝ)) (wt : Option (List ℝ)) (u : Bool)
      (s : Option ℝ × Option ℝ), weightedStat d wt u = .ok s → s.2 = some e → 0 ≤ e := by
    intro d wt u s h he
    unfold weightedStat at h
    split at h
    · simp at h
    simp only [Except.ok.injEq] at h
    rw [← h] at he
    simp only at he
    split at he
    · simp at he
    · split at he
      · unfold maStd at he
        rw [Option.ite_none_left_eq_some] at he
        rw [← Option.some.inj he.2]; exact sqrt_nonneg _
      · rw [Option.bind_eq_some_iff] at he
        obtain ⟨m, -, he⟩ := he
        unfold weightedStd at he
        simp only at he
        split at he
        · split at he
          · simp at he
          · simp only [Option.some.injEq] at he; rw [← he]; exact sqrt_nonneg _
        · split at he
          · simp at he
          · simp only [Option.some.injEq] at he; rw [← he]; exact sqrt_nonneg _
  unfold gstat at h
  simp only at h
  split at h
  · simp at h
  · split at h
    · next hrt =>
      unfold robustStat at h
      simp only at h
      split at h
      · exact hwstat _ _ _ _ h he
      · split at h
        · split at h
          · simp at h
          · simp only [Except.ok.injEq] at h; rw [← h] at he; simp at he; rw [← he]
        · simp only [Except.ok.injEq] at h; rw [← h] at he; simp at he; rw [← he]; exact hr hrt _
    · exact hwstat _ _ _ _ h he

/-- **C46**: lower and upper error of `gerr` are non-negative, the lower error is
smaller than the mean, not larger than the upper error, and `mean - lower` and
`mean + upper` lie symmetric to the mean on log scale. -/
theorem C46_gerr_bracket (rlm : List ℝ → ℝ × ℝ) (data : List Cell) (weights : Option (List ℝ))
    (u r : Bool) (fb : ℕ) (hr : r = true → ∀ v, 0 ≤ (rlm v).2) (m lo up : ℝ)
    (h : gerr rlm data weights u r fb = .ok (some m, some lo, some up)) :
    0 < m ∧ 0 ≤ lo ∧ lo < m ∧ lo ≤ up ∧ (m - lo) * (m + up) = m ^ 2 := by
  unfold gerr at h
  rw [bind_ok] at h
  obtain ⟨s, hs, h⟩ := h
  simp only [pure, Except.pure, Except.ok.injEq, Prod.mk.injEq] at h
  obtain ⟨h1, h2, h3⟩ := h
  cases hm : s.1 with
  | none => simp [hm] at h1
  | some lm =>
    cases he : s.2 with
    | none => simp [hm, he] at h2
    | some e =>
      simp only [hm, he, Option.map_some, Option.some.injEq] at h1 h2 h3
      have he0 := gstat_err_nonneg rlm data weights u r fb hr s hs e he
      subst h1 h2 h3
      have hp := exp_pos lm
      have hp2 := exp_pos (lm - e)
      have hle : exp (lm - e) ≤ exp lm := exp_le_exp.2 (by linarith)
      have hmul : exp (lm - e) * exp (lm + e) = exp lm ^ 2 := by
        rw [← exp_add, sq, ← exp_add]; congr 1; ring
      have e1 : exp (lm + e) = exp lm * exp e := exp_add _ _
      have e2 : exp (lm - e) * exp e = exp lm := by rw [← exp_add]; congr 1; ring
      have e3 : 1 ≤ exp e := one_le_exp he0
      refine ⟨hp, by linarith, by linarith, ?_, ?_⟩
      · rw [e1]
        nlinarith [mul_nonneg hp2.le (sq_nonneg (exp e - 1))]
      · have : exp lm - (exp lm - exp (lm - e)) = exp (lm - e) := by ring
        rw [this]
        have : exp lm + (exp (lm + e) - exp lm) = exp (lm + e) := by ring
        rw [this, hmul]

/-- non-vacuity: two values give a complete `gerr` result -/
example (rlm : List ℝ → ℝ × ℝ) :
    ∃ m lo up, gerr rlm [.num 1, .num 2] none = .ok (some m, some lo, some up) := by
  have hp : positives [.num 1, .num 2] = [1, 2] := by simp [positives, List.filterMap_cons]
  have hs : gstat rlm [.num 1, .num 2] none = .ok (some ((log 1 + (log 2 + 0)) / 2),
      maStd (maLog (maskedInvalid [.num 1, .num 2])) 1) := by
    simp [gstat, weightedStat, weightsMismatch, maAverage, validData_maLog, hp]
  obtain ⟨e, he⟩ : ∃ e, maStd (maLog (maskedInvalid [.num 1, .num 2])) 1 = some e := by
    simp [maStd, validData_maLog, hp]
  rw [he] at hs
  exact ⟨_, _, _, by simp only [gerr, hs]; rfl⟩

/-! ## C47 -/

theorem sum_repeat (l : List (Option ℝ × ℕ)) (g : ℝ → ℝ) :
    ((validPairs (l.map Prod.fst) (l.map (fun p => (p.2 : ℝ)))).map
      (fun p => g p.1 * p.2)).sum =
    ((validData (l.flatMap (fun p => List.replicate p.2 p.1))).map g).sum := by
  induction l with
  | nil => rfl
  | cons a l ih =>
    obtain ⟨o, n⟩ := a
    have hv : ∀ a b, validData (a ++ b) = validData a ++ validData b := by
      intro a b; simp [validData]
    simp only [List.map_cons, List.flatMap_cons, hv, List.map_append, List.sum_append, ← ih]
    simp only [validPairs, List.zip_cons_cons, List.filterMap_cons]
    cases o with
    | none => simp [validData]
    | some x => simp [validData, List.filterMap_replicate, mul_comm]

/-- **C47**: integer weights act like repetitions: weighting each value with `n` gives
the same mean and the same biased error as repeating it `n` times, provided at
least two valid values are present in both (otherwise no error is reported). -/
theorem C47_weights_are_repetitions (l : List (Option ℝ × ℕ))
    (h1 : 2 ≤ (validData (l.map Prod.fst)).length)
    (h2 : 2 ≤ (validData (l.flatMap (fun p => List.replicate p.2 p.1))).length) :
    weightedStat (l.map Prod.fst) (some (l.map (fun p => (p.2 : ℝ)))) false =
      weightedStat (l.flatMap (fun p => List.replicate p.2 p.1)) none false := by
  set rep := l.flatMap (fun p => List.replicate p.2 p.1) with hrep
  have hc : ((validPairs (l.map Prod.fst) (l.map (fun p => (p.2 : ℝ)))).map Prod.snd).sum =
      (validData rep).length := by
    have := sum_repeat l (fun _ => 1)
    simp only [one_mul] at this
    rw [hrep, this]; simp
  have hm : ((validPairs (l.map Prod.fst) (l.map (fun p => (p.2 : ℝ)))).map
      (fun p => p.1 * p.2)).sum = (validData rep).sum := by
    rw [sum_repeat l (fun x => x)]; simp [hrep]
  have hn : ((validData rep).length : ℝ) ≠ 0 := by
    have : (validData rep).length ≠ 0 := by omega
    exact_mod_cast this
  have hn' : (validData rep).length ≠ 0 := by omega
  have ha : maAverage (l.map Prod.fst) (some (l.map (fun p => (p.2 : ℝ)))) =
      some ((validData rep).sum / (validData rep).length) := by
    simp only [maAverage, hc, hm, if_neg hn]
  have hb : maAverage rep none = some ((validData rep).sum / (validData rep).length) := by
    simp only [maAverage, if_neg hn']
  unfold weightedStat
  simp only [weightsMismatch, List.length_map, bne_self_eq_false, Bool.false_eq_true, if_false,
    ha, hb, if_neg (show ¬ (validData (l.map Prod.fst)).length < 2 by omega),
    if_neg (show ¬ (validData rep).length < 2 by omega), Option.bind_some, weightedStd, hc, maStd]
  rw [sum_repeat l (fun x => (x - (validData rep).sum / (validData rep).length) ^ 2), ← hrep]
  rw [if_neg, if_neg]
  · simp
  · omega
  · rw [not_lt]
    apply div_nonneg
    · exact sum_map_nonneg (fun x _ => sq_nonneg _)
    · positivity

/-- non-vacuity -/
example : 2 ≤ (validData (([(some 1, 2), (none, 4), (some 5, 1)] : List (Option ℝ × ℕ)).map
    Prod.fst)).length ∧ 2 ≤ (validData (([(some 1, 2), (none, 4), (some 5, 1)] :
    List (Option ℝ × ℕ)).flatMap (fun p => List.replicate p.2 p.1))).length := by
  simp [validData]

theorem validPairs_replicate (data : List (Option ℝ)) (c : ℝ) :
    validPairs data (List.replicate data.length c) = (validData data).map (fun x => (x, c)) := by
  induction data with
  | nil => rfl
  | cons o data ih =>
    simp only [validPairs, validData, List.length_cons, List.replicate_succ, List.zip_cons_cons,
      List.filterMap_cons, id] at ih ⊢
    cases o <;> simp [ih]

/-- **C47**: equal positive weights give the same mean and the same (biased or
unbiased) error as no weights. -/
theorem C47_equal_weights (data : List (Option ℝ)) (c : ℝ) (hc : 0 < c) (u : Bool) :
    weightedStat data (some (List.replicate data.length c)) u = weightedStat data none u := by
  have hv := validPairs_replicate data c
  set v := validData data with hvd
  have hs : ((validPairs data (List.replicate data.length c)).map Prod.snd).sum =
      v.length * c := by rw [hv]; simp [Function.comp_def]
  have hm : ((validPairs data (List.replicate data.length c)).map (fun p => p.1 * p.2)).sum =
      v.sum * c := by
    rw [hv, List.map_map]
    have := sum_map_mul_right' v (fun x => x) c
    simpa [Function.comp_def] using this
  have hA : maAverage data (some (List.replicate data.length c)) = maAverage data none := by
    simp only [maAverage, hs, hm, ← hvd]
    by_cases h0 : v.length = 0
    · simp [h0]
    · have h0' : (v.length : ℝ) ≠ 0 := by exact_mod_cast h0
      rw [if_neg (mul_ne_zero h0' hc.ne'), if_neg h0, mul_div_mul_right _ _ hc.ne']
  unfold weightedStat
  simp only [weightsMismatch, List.length_replicate, bne_self_eq_false, Bool.false_eq_true,
    if_false, hA, ← hvd]
  congr 2
  by_cases hlt : v.length < 2
  · rw [if_pos hlt, if_pos hlt]
  rw [if_neg hlt, if_neg hlt]
  have hn : 2 ≤ v.length := by omega
  have hnR : (2 : ℝ) ≤ v.length := by exact_mod_cast hn
  have hb : maAverage data none = some (v.sum / v.length) := by
    simp only [maAverage, ← hvd, if_neg (show ¬ v.length = 0 by omega)]
  rw [hb, Option.bind_some]
  have hvar : ((validPairs data (List.replicate data.length c)).map
      (fun p => (p.1 - v.sum / v.length) ^ 2 * p.2)).sum =
      (v.map (fun x => (x - v.sum / v.length) ^ 2)).sum * c := by
    rw [hv, List.map_map, ← sum_map_mul_right']; rfl
  have hV2 : ((validPairs data (List.replicate data.length c)).map (fun p => p.2 ^ 2)).sum =
      v.length * c ^ 2 := by rw [hv]; simp [Function.comp_def]
  have hq : 0 ≤ (v.map (fun x => (x - v.sum / v.length) ^ 2)).sum :=
    sum_map_nonneg (fun x _ => sq_nonneg _)
  simp only [weightedStd, hs, hvar, hV2, maStd, ← hvd]
  set Q := (v.map (fun x => (x - v.sum / v.length) ^ 2)).sum
  set n : ℝ := (v.length : ℝ)
  have hn0 : n ≠ 0 := by positivity
  have hn1 : n - 1 ≠ 0 := by
    have : 0 < n - 1 := by linarith
    exact this.ne'
  have hd : 1 - n * c ^ 2 / (n * c) ^ 2 = (n - 1) / n := by field_simp
  have hv1 : Q * c / (n * c) = Q / n := by field_simp
  cases u with
  | true =>
    simp only [if_true, hd, hv1, Nat.cast_one]
    have e : Q / n / ((n - 1) / n) = Q / (n - 1) := by field_simp
    rw [e, if_neg, if_neg (by omega)]
    push Not
    exact ⟨div_ne_zero hn1 hn0, div_nonneg hq (by linarith)⟩
  | false =>
    simp only [Bool.false_eq_true, if_false, hv1, Nat.cast_zero, sub_zero]
    rw [if_neg, if_neg (by omega)]
    rw [not_lt]; positivity

/-- **C47**: the unbiased error is not smaller than the biased error (non-negative
weights). -/
theorem C47_unbiased_ge_biased (data : List (Option ℝ)) (w : List ℝ) (hw : ∀ a ∈ w, 0 ≤ a)
    (m m' : Option ℝ) (s s' : ℝ) (h : weightedStat data (some w) true = .ok (m, some s))
    (h' : weightedStat data (some w) false = .ok (m', some s')) : s' ≤ s := by
  unfold weightedStat at h h'
  split at h
  · simp at h
  rw [if_neg (by assumption)] at h'
  simp only [Except.ok.injEq, Prod.mk.injEq] at h h'
  obtain ⟨-, h⟩ := h
  obtain ⟨-, h'⟩ := h'
  split at h
  · simp at h
  rw [if_neg (by assumption)] at h'
  rw [Option.bind_eq_some_iff] at h h'
  obtain ⟨a, ha, h⟩ := h
  obtain ⟨a', ha', h'⟩ := h'
  rw [ha] at ha'
  cases ha'
  simp only [weightedStd, if_true, Bool.false_eq_true, if_false, Option.ite_none_left_eq_some,
    Option.some.injEq] at h h'
  obtain ⟨h1, rfl⟩ := h
  obtain ⟨h2, rfl⟩ := h'
  push Not at h1
  set v := validPairs data w
  set V1 := (v.map Prod.snd).sum
  set V2 := (v.map (fun p => p.2 ^ 2)).sum
  set var := (v.map (fun p => (p.1 - a) ^ 2 * p.2)).sum / V1
  have hv : ∀ p ∈ v, 0 ≤ p.2 := by
    intro p hp
    obtain ⟨⟨o, b⟩, hq, he⟩ := List.mem_filterMap.1 hp
    cases o with
    | none => simp at he
    | some x =>
      simp only [Option.map_some, Option.some.injEq] at he
      subst he
      exact hw _ (List.of_mem_zip hq).2
  have hV1 : 0 ≤ V1 := sum_map_nonneg hv
  have hV2 : V2 ≤ V1 ^ 2 := by
    have : V2 ≤ (v.map (fun p => p.2 * V1)).sum := by
      apply sum_map_le_sum
      intro p hp
      have := le_sum_map hv hp
      nlinarith [hv p hp]
    rw [sum_map_mul_right'] at this
    calc V2 ≤ V1 * V1 := this
      _ = V1 ^ 2 := by ring
  have hd0 : 0 ≤ V2 / V1 ^ 2 := by
    apply div_nonneg (sum_map_nonneg (fun p _ => sq_nonneg _)) (sq_nonneg _)
  have hd1 : V2 / V1 ^ 2 ≤ 1 := by
    by_cases h0 : V1 = 0
    · simp [h0]
    · rw [div_le_one (by positivity)]; exact hV2
  apply sqrt_le_sqrt
  push Not at h2
  have hdpos : 0 < 1 - V2 / V1 ^ 2 := lt_of_le_of_ne (by linarith) (Ne.symm h1.1)
  rw [le_div_iff₀ hdpos]
  nlinarith

/-! ## C48 -/

/-- **C48**: with fewer than `fall_back` positive values the robust statistics are
the plain ones (unweighted, unbiased error). -/
theorem C48_fall_back (rlm : List ℝ → ℝ × ℝ) (data : List Cell) (u : Bool) (fb fb' : ℕ)
    (h : (positives data).length < fb) :
    gstat rlm data none u true fb = gstat rlm data none true false fb' := by
  have hv := validData_maLog data
  have hh : (validData (maLog (maskedInvalid data))).length < fb := by rw [hv]; simpa using h
  unfold gstat robustStat
  simp only [Option.isSome_none, Bool.and_false, Bool.false_eq_true, if_false, if_true,
    if_pos hh]
  set d := maLog (maskedInvalid data)
  have hvv : ∀ v : List ℝ, validData (v.map some) = v := by
    intro v; simp [validData, List.filterMap_map]
  simp only [weightedStat, weightsMismatch, Bool.false_eq_true, if_false, maAverage, hvv, maStd]

/-- **C48**: if all positive values are equal to `c`, the robust mean is `log c` and
the robust error is zero (at least two values; whatever the robust estimator
does). -/
theorem C48_constant (rlm : List ℝ → ℝ × ℝ) (data : List Cell) (u : Bool) (fb : ℕ) (c : ℝ)
    (h : ∀ x ∈ positives data, x = c) (hn : 2 ≤ (positives data).length) :
    gstat rlm data none u true fb = .ok (some (log c), some 0) := by
  have hv := validData_maLog data
  have hrep : positives data = List.replicate (positives data).length c :=
    List.eq_replicate_of_mem h
  set n := (positives data).length with hnn
  have hv' : validData (maLog (maskedInvalid data)) = List.replicate n (log c) := by
    rw [hv, hrep]; simp
  have hnR : (n : ℝ) ≠ 0 := by
    have : n ≠ 0 := by omega
    exact_mod_cast this
  have hmean : ((List.replicate n (log c)).sum / n : ℝ) = log c := by
    simp only [List.sum_replicate, nsmul_eq_mul]; field_simp
  unfold gstat robustStat
  simp only [Option.isSome_none, Bool.and_false, Bool.false_eq_true, if_false, if_true, hv',
    List.length_replicate]
  by_cases hlt : n < fb
  · rw [if_pos hlt]
    have hvv : ∀ v : List ℝ, validData (v.map some) = v := by
      intro v; simp [validData, List.filterMap_map]
    simp only [weightedStat, weightsMismatch, Bool.false_eq_true, if_false, maAverage, hvv, maStd,
      List.length_replicate, if_neg (show ¬ n = 0 by omega), if_neg (show ¬ n < 2 by omega),
      if_true, if_neg (show ¬ n ≤ 1 by omega), hmean]
    simp
  · rw [if_neg hlt, if_pos, if_neg (show ¬ n = 0 by omega), hmean]
    intro x hx y hy
    rw [hv'] at hx hy
    rw [List.eq_of_mem_replicate hx, List.eq_of_mem_replicate hy]

example : ∀ x ∈ positives [.num 3, .none, .num 3], x = 3 := by
  simp [positives, List.filterMap_cons]

/-! ## C49 -/

/-- **C49**: `gmeanlist` returns one entry per column; the entry is `None` iff the column has no
positive number, otherwise a number (never NaN).  Plain mean. -/
theorem C49_gmeanlist (rlm : List ℝ → ℝ × ℝ) (rows : List (List Cell)) (nf : ℕ)
    (hrect : ∀ r ∈ rows, r.length = nf) :
    ∃ out, gmeanlist rlm rows nf = .ok out ∧ out.length = nf ∧
      ∀ i, i < nf →
        (positives (column rows i) = [] → out[i]? = some Cell.none) ∧
        (positives (column rows i) ≠ [] →
          out[i]? = some (Cell.num (geoMean (positives (column rows i))))) := by
  refine ⟨(List.range nf).map (fun i =>
      Cell.ofOption ((maAverage (maLog (maskedInvalid (column rows i))) none).map exp)), ?_, ?_, ?_⟩
  · unfold gmeanlist
    rw [if_neg]
    · rfl
    · simp only [List.any_eq_true, bne_iff_ne, not_exists, not_and, not_not]
      exact hrect
  · simp
  · intro i hi
    have hg := C45_gmean_is_geometric_mean rlm (column rows i)
    rw [gmean_eq] at hg
    simp only [weightsMismatch, Bool.false_eq_true, if_false, Except.ok.injEq] at hg
    constructor
    · intro h
      simp [hi, hg, h, Cell.ofOption]
    · intro h
      simp [hi, hg, h, Cell.ofOption]

/-- **C49** for the robust mean: one entry per column, `None` iff the column has no
positive number, otherwise a positive number (never NaN), for every robust
estimator; needs `fall_back ≥ 1` (default 5). -/
theorem C49_gmeanlist_robust (rlm : List ℝ → ℝ × ℝ) (rows : List (List Cell)) (nf fb : ℕ)
    (hfb : 1 ≤ fb) (hrect : ∀ r ∈ rows, r.length = nf) :
    ∃ out, gmeanlist rlm rows nf true fb = .ok out ∧ out.length = nf ∧
      ∀ i, i < nf →
        (positives (column rows i) = [] → out[i]? = some Cell.none) ∧
        (positives (column rows i) ≠ [] → ∃ x, 0 < x ∧ out[i]? = some (Cell.num x)) := by
  have key : ∀ i, ∃ o : Option ℝ, gmean rlm (column rows i) none true fb = .ok o ∧
      (positives (column rows i) = [] → o = none) ∧
      (positives (column rows i) ≠ [] → ∃ x, 0 < x ∧ o = some x) := by
    intro i
    by_cases hlt : (positives (column rows i)).length < fb
    · have e : gmean rlm (column rows i) none true fb = gmean rlm (column rows i) none := by
        unfold gmean
        rw [C48_fall_back rlm _ true fb 5 hlt]
      rw [e, C45_gmean_is_geometric_mean]
      refine ⟨_, rfl, fun h => by rw [if_pos h], fun h => ⟨_, ?_, by rw [if_neg h]⟩⟩
      rw [← exp_mean_log _ (fun x hx => positives_pos hx)]
      exact exp_pos _
    · have hne : positives (column rows i) ≠ [] := by
        intro h; rw [h] at hlt; simp at hlt; omega
      have hv := validData_maLog (column rows i)
      have hl : (validData (maLog (maskedInvalid (column rows i)))).length =
        (positives (column rows i)).length := by rw [hv]; simp
      unfold gmean gstat robustStat
      simp only [Option.isSome_none, Bool.and_false, Bool.false_eq_true, if_false, if_true, hl,
        if_neg hlt]
      have h0 : ¬ (positives (column rows i)).length = 0 := by simpa using hne
      simp only [if_neg h0]
      split
      · refine ⟨_, rfl, fun h => absurd h hne, fun _ => ⟨_, exp_pos _, rfl⟩⟩
      · refine ⟨_, rfl, fun h => absurd h hne, fun _ => ⟨_, exp_pos _, rfl⟩⟩
  choose o ho1 ho2 ho3 using key
  refine ⟨(List.range nf).map (fun i => Cell.ofOption (o i)), ?_, by simp, ?_⟩
  · unfold gmeanlist
    rw [if_neg]
    · simp only [if_true]
      rw [mapExc_ok]
      rw [List.forall₂_map_right_iff, List.forall₂_same]
      intro i _
      simp [ho1, bind, Except.bind, pure, Except.pure]
    · simp only [List.any_eq_true, bne_iff_ne, not_exists, not_and, not_not]
      exact hrect
  · intro i hi
    constructor
    · intro h; simp [hi, ho2 i h, Cell.ofOption]
    · intro h
      obtain ⟨x, hx, he⟩ := ho3 i h
      exact ⟨x, hx, by simp [hi, he, Cell.ofOption]⟩

example : ∀ r ∈ [[Cell.num 1, .none], [.num 2, .nan]], r.length = 2 := by simp

end Qopen
