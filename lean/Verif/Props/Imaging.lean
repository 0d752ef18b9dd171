import Verif.Model.Imaging
import Verif.Model.Window
import Mathlib.Data.List.GetD
import Mathlib.Tactic.Linarith
import Mathlib.Tactic.FieldSimp

/-!
# Properties C76-C78, C80-C82: plotted quantities and arrangement of panels (imaging.py)
-/

set_option linter.unusedSimpArgs false

namespace Qopen
open Imaging Real

namespace Spec

/-- Quantities derived from scattering coefficient or intrinsic attenuation: inverse quality factors
and path lengths in km. -/
noncomputable def derived (q : String) (x f v : ℝ) : ℝ :=
  if q = "Qsc" then x * v / (2 * π * f)
  else if q = "Qi" then x / (2 * π * f)
  else if q = "lsc" then 1 / x / 1000
  else if q = "li" then v / x / 1000
  else x

end Spec

/-! ## C76 -/

theorem dependOne_eq {q : String} (hq : q ∈ ["g0", "b", "W", "error", "lsc", "Qsc", "li", "Qi"])
    {x f v : ℝ} (hx : q = "lsc" ∨ q = "li" → x ≠ 0) (hf : needsFreq q = true → f ≠ 0) (g : ℝ) (w : ℝ)
    (hg : needsFreq q = true → g = f) (hw : needsV0 q = true → w = v) :
    dependOne q x g w = some (Spec.derived q x f v) := by
  simp only [List.mem_cons, List.not_mem_nil, or_false] at hq
  rcases hq with rfl | rfl | rfl | rfl | rfl | rfl | rfl | rfl <;>
    simp [dependOne, plain, Spec.derived, needsFreq, needsV0] at hx hf hg hw ⊢
  · exact hx
  · subst hg hw; simp [hf]
  · subst hw; simp [hx]
  · subst hg; simp [hf]

/-- **C76**: in a table of events and bands every derived quantity is computed from the value of the
same event and band, the frequency of this band and the velocity (of this event). -/
theorem C76_table (q : String) (hq : q ∈ ["g0", "b", "W", "error", "lsc", "Qsc", "li", "Qi"])
    (rows : List (List Cell)) (freq : List ℝ) (v0 : V0) (vel : ℕ → ℝ)
    (hrow : ∀ r ∈ rows, r.length = freq.length) (hfreq : ∀ f ∈ freq, 0 < f)
    (hne : rows ≠ [])
    (hv0 : v0 = .num (vel 0) ∧ (∀ i, vel i = vel 0) ∨
      ∃ l : List ℝ, v0 = .arr l ∧ l.length = rows.length ∧ ∀ i (h : i < l.length), l[i] = vel i)
    (hval : q = "lsc" ∨ q = "li" → ∀ r ∈ rows, ∀ c ∈ r, c ≠ .num 0) :
    ∃ out : List (List (Option ℝ)),
      calcDependent q (.table rows) (some freq) v0 = .ok (some (.table out)) ∧
      out.length = rows.length ∧ (∀ r ∈ out, r.length = freq.length) ∧
      ∀ (i j : ℕ) (c : Cell) (f : ℝ), (rows[i]?.bind (·[j]?)) = some c → freq[j]? = some f →
        (out[i]?.bind (·[j]?)) = some (match c with
          | .num x => some (Spec.derived q x f (vel i))
          | _ => none) := by
  obtain ⟨r0, rs, rfl⟩ := List.exists_cons_of_ne_nil hne
  have hmem : q ∈ plain ++ ["lsc", "Qsc", "li", "Qi"] := by
    simp only [List.mem_cons, List.not_mem_nil, or_false] at hq
    rcases hq with rfl | rfl | rfl | rfl | rfl | rfl | rfl | rfl <;> simp [plain]
  have hnf : ((r0 :: rs).headD []).length = freq.length := hrow r0 (by simp)
  have hany : ((r0 :: rs).any fun r => r.length != ((r0 :: rs).headD []).length) = false := by
    rw [List.any_eq_false]
    intro r hr
    rw [hnf, hrow r hr]; simp
  -- velocities
  obtain ⟨vs, hvs, hvl, hvi⟩ : ∃ vs, v0For q v0 (r0 :: rs).length = .ok vs ∧
      vs.length = (r0 :: rs).length ∧
      ∀ i, (h : i < vs.length) → needsV0 q = true → vs[i] = vel i := by
    rcases hv0 with ⟨rfl, hc⟩ | ⟨l, rfl, hl, hli⟩
    · refine ⟨_, rfl, by simp, ?_⟩
      intro i h _
      rw [List.getElem_replicate]
      exact (hc i).symm
    · unfold v0For
      by_cases hn : needsV0 q = true
      · simp only [hn, if_true, hl]
        exact ⟨l, rfl, hl, fun i h _ => hli i h⟩
      · refine ⟨List.replicate (r0 :: rs).length 1, ?_, by simp, fun _ _ h => absurd h hn⟩
        simp only [hn, if_false, Bool.false_eq_true]
  obtain ⟨fs, hfs, hfl, hfi⟩ : ∃ fs, freqsFor q (some freq) freq.length = .ok fs ∧
      fs.length = freq.length ∧ ∀ j, (h : j < fs.length) → (h' : j < freq.length) →
        needsFreq q = true → fs[j] = freq[j] := by
    unfold freqsFor
    by_cases hn : needsFreq q = true
    · simp only [hn, if_true]
      exact ⟨freq, rfl, rfl, fun _ _ _ _ => rfl⟩
    · refine ⟨List.replicate freq.length 1, ?_, by simp, fun _ _ _ h => absurd h hn⟩
      simp only [hn, if_false, Bool.false_eq_true]
  refine ⟨dependTable q fs vs (r0 :: rs), ?_, ?_, ?_, ?_⟩
  · unfold calcDependent
    simp only [hany, Bool.false_eq_true, if_false]
    rw [hvs, hnf]
    simp only [bind, Except.bind, if_pos hmem, hfs, pure, Except.pure]
  · simp [dependTable, hvl]
  · intro r hr
    unfold dependTable at hr
    rw [List.mem_iff_getElem] at hr
    obtain ⟨i, hi, rfl⟩ := hr
    simp only [List.getElem_zipWith, dependRow, List.length_zipWith]
    rw [hrow _ (List.getElem_mem _), hfl, min_self]
  · intro i j c f hc hf
    obtain ⟨row, hri, hcj⟩ := Option.bind_eq_some_iff.1 hc
    obtain ⟨hi, rfl⟩ := List.getElem?_eq_some_iff.1 hri
    obtain ⟨hj, rfl⟩ := List.getElem?_eq_some_iff.1 hcj
    obtain ⟨hjf, rfl⟩ := List.getElem?_eq_some_iff.1 hf
    have hiv : i < vs.length := by rw [hvl]; exact hi
    have hjs : j < fs.length := by rw [hfl]; exact hjf
    have h1 : (dependTable q fs vs (r0 :: rs))[i]? = some (dependRow q fs vs[i] (r0 :: rs)[i]) := by
      unfold dependTable
      rw [List.getElem?_zipWith, List.getElem?_eq_getElem hi, List.getElem?_eq_getElem hiv]
    rw [h1]
    simp only [Option.bind_some]
    unfold dependRow
    rw [List.getElem?_zipWith, List.getElem?_eq_getElem hj, List.getElem?_eq_getElem hjs]
    simp only
    cases hcell : ((r0 :: rs)[i])[j] with
    | none => rfl
    | nan => rfl
    | num x =>
      have hx : q = "lsc" ∨ q = "li" → x ≠ 0 := by
        rintro h rfl
        exact hval h _ (List.getElem_mem hi) _ (List.getElem_mem hj) hcell
      simp only [Cell.val?, Option.bind_some]
      rw [dependOne_eq hq hx (f := freq[j]) (v := vel i)
        (fun _ => (hfreq _ (List.getElem_mem hjf)).ne') _ _ (fun h => hfi j hjs hjf h)
        (fun h => hvi i hiv h)]

example : ∃ out : List (List (Option ℝ)),
    calcDependent "Qsc" (.table [[.num 1e-6, .none], [.num 2e-6, .num 1e-6]]) (some [1, 2])
      (.arr [3000, 3500]) = .ok (some (.table out)) ∧
    (out[1]?.bind (·[1]?)) = some (some (1e-6 * 3500 / (2 * π * 2))) := by
  obtain ⟨out, h, -, -, hout⟩ := C76_table "Qsc" (by simp)
    [[.num 1e-6, .none], [.num 2e-6, .num 1e-6]] [1, 2] (.arr [3000, 3500])
    (fun i => if i = 0 then 3000 else 3500) (by simp) (by simp) (by simp)
    (Or.inr ⟨[3000, 3500], rfl, rfl, by
      intro i h
      have : i = 0 ∨ i = 1 := by simp at h; omega
      rcases this with rfl | rfl <;> simp⟩)
    (by simp)
  exact ⟨out, h, by simpa [Spec.derived] using hout 1 1 (.num 1e-6) 2 (by simp) (by simp)⟩

/-- **C76**: the derived quantities of a band fit together: quality factors and path lengths
describe the same attenuation. -/
theorem C76_relations (g0 b f v : ℝ) (hg : 0 < g0) (hb : 0 < b) (hf : 0 < f) (hv : 0 < v) :
    Spec.derived "Qsc" g0 f v * (2 * π * f) * (1000 * Spec.derived "lsc" g0 f v) = v ∧
    Spec.derived "Qi" b f v * (2 * π * f) * (1000 * Spec.derived "li" b f v) = v ∧
    Spec.derived "Qsc" g0 f v / Spec.derived "Qi" b f v =
      Spec.derived "li" b f v / Spec.derived "lsc" g0 f v := by
  have := pi_pos
  refine ⟨?_, ?_, ?_⟩ <;> simp [Spec.derived] <;> field_simp

/-- **C76** fails: without velocity even g0 and b themselves, which do not depend on it, cannot be
computed. -/
theorem C76_velocity_counterexample (q : String) (value : Value) (freq : Option (List ℝ))
    (h : ∀ rows, value = .table rows → ∀ r ∈ rows, r.length = (rows.headD []).length) :
    calcDependent q value freq .none = .error .typeError := by
  unfold calcDependent
  cases value with
  | row l => rfl
  | table rows =>
    have : (rows.any fun r => r.length != (rows.headD []).length) = false := by
      rw [List.any_eq_false]
      intro r hr
      rw [h rows rfl r hr]; simp
    simp only [this, Bool.false_eq_true, if_false]
    rfl

example : calcDependent "g0" (.row [.num 1e-6]) (some [1]) .none = .error .typeError :=
  C76_velocity_counterexample _ _ _ (by simp)

/-! ## C78 -/

theorem rpow_lim {a b : ℝ} (ha : 0 < a) (hb : 0 < b) :
    a ^ (1.5 : ℝ) / b ^ (0.5 : ℝ) = a * sqrt (a / b) := by
  rw [show (1.5 : ℝ) = 1 + 1 / 2 by norm_num, show (0.5 : ℝ) = 1 / 2 by norm_num, rpow_add ha,
    rpow_one, ← sqrt_eq_rpow, ← sqrt_eq_rpow, mul_div_assoc, ← sqrt_div ha.le]

/-- **C78**: the limits of the frequency axis lie half a step (of the logarithms) outside of the
first and last frequency and enclose all frequencies of a sorted list. -/
theorem C78_encloses (freq : List ℝ) (h2 : 2 ≤ freq.length) (hpos : ∀ f ∈ freq, 0 < f)
    (hs : freq.Pairwise (· ≤ ·)) :
    ∃ x1 x2, freqlim freq = some (x1, x2) ∧ ∀ f ∈ freq, x1 ≤ f ∧ f ≤ x2 := by
  unfold freqlim
  rw [if_neg (by omega)]
  refine ⟨_, _, rfl, ?_⟩
  have hget : ∀ i, i < freq.length → freq.getD i 0 ∈ freq := by
    intro i hi
    rw [List.getD_eq_getElem _ _ hi]; exact List.getElem_mem hi
  have hmono : ∀ i j, i ≤ j → j < freq.length → freq.getD i 0 ≤ freq.getD j 0 := by
    intro i j hij hj
    rw [List.getD_eq_getElem _ _ hj, List.getD_eq_getElem _ _ (by omega)]
    rcases eq_or_lt_of_le hij with rfl | h
    · exact le_rfl
    · exact List.pairwise_iff_getElem.1 hs i j (by omega) hj h
  intro f hf
  obtain ⟨k, hk, rfl⟩ := List.mem_iff_getElem.1 hf
  have p := fun i hi => hpos _ (hget i hi)
  have hk' : freq[k] = freq.getD k 0 := (List.getD_eq_getElem _ _ hk).symm
  rw [hk', rpow_lim (p 0 (by omega)) (p 1 (by omega)),
    rpow_lim (p _ (by omega)) (p _ (by omega))]
  constructor
  · have h1 : freq.getD 0 0 / freq.getD 1 0 ≤ 1 := by
      rw [div_le_one (p 1 (by omega))]
      exact hmono 0 1 (by omega) (by omega)
    calc freq.getD 0 0 * sqrt (freq.getD 0 0 / freq.getD 1 0) ≤ freq.getD 0 0 * 1 := by
          refine mul_le_mul_of_nonneg_left ?_ (p 0 (by omega)).le
          exact sqrt_le_one.2 h1
      _ ≤ _ := by rw [mul_one]; exact hmono 0 k (by omega) hk
  · have h1 : 1 ≤ freq.getD (freq.length - 1) 0 / freq.getD (freq.length - 2) 0 := by
      rw [one_le_div (p _ (by omega))]
      exact hmono _ _ (by omega) (by omega)
    calc freq.getD k 0 ≤ freq.getD (freq.length - 1) 0 * 1 := by
          rw [mul_one]; exact hmono _ _ (by omega) (by omega)
      _ ≤ _ := mul_le_mul_of_nonneg_left (one_le_sqrt.2 h1) (p _ (by omega)).le

/-- **C78**: position of the limits. -/
theorem C78_half_step (f0 f1 : ℝ) (mid : List ℝ) (g1 g0 : ℝ) (h0 : 0 < f0) (h1 : 0 < f1)
    (hg0 : 0 < g0) (hg1 : 0 < g1) (hm : f0 :: f1 :: mid = mid' ++ [g1, g0]) :
    ∃ x1 x2, freqlim (f0 :: f1 :: mid) = some (x1, x2) ∧
      log x1 = log f0 - (log f1 - log f0) / 2 ∧ log x2 = log g0 + (log g0 - log g1) / 2 := by
  have hlen : (f0 :: f1 :: mid).length = mid'.length + 2 := by rw [hm]; simp
  have hl : ∀ a b : ℝ, 0 < a → 0 < b →
      log (a ^ (1.5 : ℝ) / b ^ (0.5 : ℝ)) = log a + (log a - log b) / 2 := by
    intro a b ha hb
    rw [log_div (rpow_pos_of_pos ha _).ne' (rpow_pos_of_pos hb _).ne', log_rpow ha, log_rpow hb]
    ring
  unfold freqlim
  rw [if_neg (by simp)]
  refine ⟨_, _, rfl, ?_, ?_⟩
  · simp only [List.getD_cons_zero, List.getD_cons_succ]
    rw [hl _ _ h0 h1]; ring
  · have e1 : (f0 :: f1 :: mid).getD ((f0 :: f1 :: mid).length - 1) 0 = g0 := by
      rw [hlen, hm, List.getD_eq_getElem?_getD]; simp
    have e2 : (f0 :: f1 :: mid).getD ((f0 :: f1 :: mid).length - 2) 0 = g1 := by
      rw [hlen, hm, List.getD_eq_getElem?_getD]; simp
    simp only [e1, e2]
    exact hl _ _ hg0 hg1

/-- **C78**: no limits for fewer than two frequencies. -/
theorem C78_single (freq : List ℝ) : freqlim freq = none ↔ freq.length < 2 := by
  unfold freqlim
  by_cases h : freq.length < 2
  · simp [h]
  · simp [h]

example : ∃ x1 x2, freqlim [0.75, 1.5, 3] = some (x1, x2) ∧ ∀ f ∈ [0.75, 1.5, 3], x1 ≤ f ∧ f ≤ x2 :=
  C78_encloses _ (by simp) (by intro f hf; simp at hf; rcases hf with rfl | rfl | rfl <;> norm_num)
    (by norm_num [List.pairwise_cons])

/-- **C76** for one value per band. -/
theorem C76_row (q : String) (hq : q ∈ ["g0", "b", "W", "error", "lsc", "Qsc", "li", "Qi"])
    (row : List Cell) (freq : List ℝ) (v : ℝ)
    (hrow : row.length = freq.length) (hfreq : ∀ f ∈ freq, 0 < f)
    (hval : q = "lsc" ∨ q = "li" → ∀ c ∈ row, c ≠ .num 0) :
    ∃ out : List (Option ℝ),
      calcDependent q (.row row) (some freq) (.num v) = .ok (some (.row out)) ∧
      out.length = row.length ∧
      ∀ (j : ℕ) (c : Cell) (f : ℝ), row[j]? = some c → freq[j]? = some f →
        out[j]? = some (match c with
          | .num x => some (Spec.derived q x f v)
          | _ => none) := by
  have hmem : q ∈ plain ++ ["lsc", "Qsc", "li", "Qi"] := by
    simp only [List.mem_cons, List.not_mem_nil, or_false] at hq
    rcases hq with rfl | rfl | rfl | rfl | rfl | rfl | rfl | rfl <;> simp [plain]
  obtain ⟨fs, hfs, hfl, hfi⟩ : ∃ fs, freqsFor q (some freq) freq.length = .ok fs ∧
      fs.length = freq.length ∧ ∀ j, (h : j < fs.length) → (h' : j < freq.length) →
        needsFreq q = true → fs[j] = freq[j] := by
    unfold freqsFor
    by_cases hn : needsFreq q = true
    · simp only [hn, if_true]
      exact ⟨freq, rfl, rfl, fun _ _ _ _ => rfl⟩
    · refine ⟨List.replicate freq.length 1, ?_, by simp, fun _ _ _ h => absurd h hn⟩
      simp only [hn, if_false, Bool.false_eq_true]
  refine ⟨dependRow q fs v row, ?_, ?_, ?_⟩
  · unfold calcDependent
    simp only [hrow, bind, Except.bind, if_pos hmem, hfs, pure, Except.pure]
  · simp [dependRow, hfl, hrow]
  · intro j c f hc hf
    obtain ⟨hj, rfl⟩ := List.getElem?_eq_some_iff.1 hc
    obtain ⟨hjf, rfl⟩ := List.getElem?_eq_some_iff.1 hf
    have hjs : j < fs.length := by rw [hfl]; exact hjf
    unfold dependRow
    rw [List.getElem?_zipWith, List.getElem?_eq_getElem hj, List.getElem?_eq_getElem hjs]
    simp only
    cases hcell : row[j] with
    | none => rfl
    | nan => rfl
    | num x =>
      have hx : q = "lsc" ∨ q = "li" → x ≠ 0 := by
        rintro h rfl
        exact hval h _ (List.getElem_mem hj) hcell
      simp only [Cell.val?, Option.bind_some]
      rw [dependOne_eq hq hx (f := freq[j]) (v := v)
        (fun _ => (hfreq _ (List.getElem_mem hjf)).ne') _ _ (fun h => hfi j hjs hjf h)
        (fun _ => rfl)]

example : ∃ out : List (Option ℝ),
    calcDependent "li" (.row [.num 0.01, .none]) (some [1, 2]) (.num 3000) = .ok (some (.row out)) ∧
    out[0]? = some (some ((3000 : ℝ) / 0.01 / 1000)) := by
  obtain ⟨out, h, -, hout⟩ := C76_row "li" (by simp) [.num 0.01, .none] [1, 2] 3000 rfl (by simp)
    (by intro _ c hc; simp at hc; rcases hc with rfl | rfl <;> simp <;> norm_num)
  exact ⟨out, h, by simpa [Spec.derived] using hout 0 _ 1 rfl rfl⟩

/-! ## C77 -/

namespace Spec

/-- `n` panels and possibly a colour bar, all inside of the grid and none on top of another. -/
def ValidLayout (n : ℕ) (bar : Bool) (L : Layout) : Prop :=
  L.panels.length = n ∧ L.bar.isSome = bar ∧ (L.panels ++ L.bar.toList).Nodup ∧
    ∀ c ∈ L.panels ++ L.bar.toList, c.1 < L.grid.2 ∧ c.2 < L.grid.1

end Spec

theorem panel_ok {grid : ℕ × ℕ} {i : ℕ} (hx : 0 < grid.1) (hi : i < grid.2 * grid.1) :
    panel grid i = .ok (i / grid.1, i % grid.1) := by
  unfold panel cellOf
  rw [if_pos ⟨Nat.div_lt_of_lt_mul (by rwa [Nat.mul_comm]), Nat.mod_lt _ hx⟩]

theorem panel_error {grid : ℕ × ℕ} {i : ℕ} (hi : grid.2 * grid.1 ≤ i) :
    panel grid i = .error .indexError := by
  unfold panel cellOf
  rw [if_neg]
  rintro ⟨h, h'⟩
  have : i < grid.1 * grid.2 := Nat.lt_mul_of_div_lt h (by omega) |>.trans_eq (by ring)
  rw [Nat.mul_comm] at this
  omega

theorem ceil_sqrt {N : ℕ} (hN : 1 ≤ N) :
    1 ≤ ⌈sqrt N⌉₊ ∧ N ≤ ⌈sqrt N⌉₊ * ⌈sqrt N⌉₊ ∧ (⌈sqrt N⌉₊ - 1) * (⌈sqrt N⌉₊ - 1) < N := by
  have h1 : 1 ≤ ⌈sqrt (N : ℝ)⌉₊ := Nat.one_le_ceil_iff.2 (sqrt_pos.2 (by exact_mod_cast hN))
  refine ⟨h1, ?_, ?_⟩
  · have h : sqrt (N : ℝ) ≤ ⌈sqrt (N : ℝ)⌉₊ := Nat.le_ceil _
    have h' := sqrt_le_left (by positivity) |>.1 h
    have : ((N : ℕ) : ℝ) ≤ ((⌈sqrt (N : ℝ)⌉₊ * ⌈sqrt (N : ℝ)⌉₊ : ℕ) : ℝ) := by
      push_cast; nlinarith
    exact_mod_cast this
  · have h : ((⌈sqrt (N : ℝ)⌉₊ - 1 : ℕ) : ℝ) < sqrt (N : ℝ) := by
      have := Nat.ceil_lt_add_one (sqrt_nonneg (N : ℝ))
      push_cast [h1]
      linarith
    have h' := lt_sqrt (by positivity) |>.1 h
    have : (((⌈sqrt (N : ℝ)⌉₊ - 1) * (⌈sqrt (N : ℝ)⌉₊ - 1) : ℕ) : ℝ) < ((N : ℕ) : ℝ) := by
      rw [Nat.cast_mul]; nlinarith
    exact_mod_cast this

/-- The grid has room for all panels. -/
theorem getGrid_ok {N : ℕ} (hN : 1 ≤ N) (nx : Option ℕ) (hnx : nx ≠ some 0) :
    ∃ grid, getGrid N nx = .ok grid ∧ 0 < grid.1 ∧ 0 < grid.2 ∧ N ≤ grid.2 * grid.1 ∧
      ((nx = none ∧ grid = (⌈sqrt N⌉₊, ⌈sqrt N⌉₊)) ∨
        (∃ k, nx = some k ∧ grid = (k, 1 + (N - 1) / k))) := by
  unfold getGrid
  cases nx with
  | none =>
    obtain ⟨h1, h2, -⟩ := ceil_sqrt hN
    refine ⟨(⌈sqrt N⌉₊, ⌈sqrt N⌉₊), ?_, h1, h1, h2, Or.inl ⟨rfl, rfl⟩⟩
    simp only [gridSpec]
    rw [if_neg (by omega)]
  | some k =>
    have hk : k ≠ 0 := by rintro rfl; exact hnx rfl
    have hy : 0 < 1 + (N - 1) / k := Nat.lt_of_lt_of_le Nat.zero_lt_one (Nat.le_add_right _ _)
    refine ⟨(k, 1 + (N - 1) / k), ?_, by omega, hy, ?_, Or.inr ⟨k, rfl, rfl⟩⟩
    · simp only [gridSpec]
      rw [if_neg hk, if_neg (by omega : ¬ N = 0), if_neg (by rintro (h | h); exacts [hk h, hy.ne' h])]
    · have := Nat.div_add_mod (N - 1) k
      have h' := Nat.mod_lt (N - 1) (Nat.pos_of_ne_zero hk)
      simp only
      rw [add_mul, one_mul, mul_comm ((N - 1) / k)]
      omega

theorem cell_inj {nx i j : ℕ} (h : (i / nx, i % nx) = (j / nx, j % nx)) : i = j := by
  rw [Prod.mk.injEq] at h
  rw [← Nat.div_add_mod i nx, ← Nat.div_add_mod j nx, h.1, h.2]

theorem mapExc_panel {grid : ℕ × ℕ} {n : ℕ} (hx : 0 < grid.1) (hn : n ≤ grid.2 * grid.1) :
    mapExc (panel grid) (List.range n) =
      .ok ((List.range n).map (fun i => (i / grid.1, i % grid.1))) := by
  rw [mapExc_ok, List.forall₂_map_right_iff, List.forall₂_same]
  intro i hi
  exact panel_ok hx (by have := List.mem_range.1 hi; omega)

theorem valid_of {n k : ℕ} {grid : ℕ × ℕ} {bar : Bool} (hx : 0 < grid.1)
    (hn : n ≤ grid.2 * grid.1) (hk : bar = true → n ≤ k ∧ k < grid.2 * grid.1) :
    Spec.ValidLayout n bar ⟨grid, (List.range n).map (fun i => (i / grid.1, i % grid.1)),
      if bar then some (k / grid.1, k % grid.1) else none⟩ := by
  have hin : ∀ i < grid.2 * grid.1, i / grid.1 < grid.2 ∧ i % grid.1 < grid.1 := fun i hi =>
    ⟨Nat.div_lt_of_lt_mul (by rwa [Nat.mul_comm]), Nat.mod_lt _ hx⟩
  have hnd : ((List.range n).map (fun i => (i / grid.1, i % grid.1))).Nodup :=
    List.Nodup.map (fun i j h => cell_inj h) List.nodup_range
  refine ⟨by simp, ?_, ?_, ?_⟩
  · cases bar <;> rfl
  · cases bar with
    | false => simpa using hnd
    | true =>
      simp only [if_true, Option.toList_some]
      rw [List.nodup_append]
      refine ⟨hnd, by simp, ?_⟩
      intro c hc d hd
      rw [List.mem_singleton] at hd
      subst hd
      rintro rfl
      obtain ⟨i, hi, he⟩ := List.mem_map.1 hc
      have := cell_inj he
      have := List.mem_range.1 hi
      have := (hk rfl).1
      omega
  · intro c hc
    rcases List.mem_append.1 hc with h | h
    · obtain ⟨i, hi, rfl⟩ := List.mem_map.1 h
      exact hin i (by have := List.mem_range.1 hi; omega)
    · cases bar with
      | false => simp at h
      | true =>
        simp only [if_true, Option.toList_some, List.mem_singleton] at h
        subst h
        exact hin k (hk rfl).2

/-- **C77**: plots of site responses: for every number of stations and columns each station and the
colour bar have a cell of their own. -/
theorem C77_sites (n : ℕ) (hn : 1 ≤ n) (bar : Bool) (nx : Option ℕ) (hnx : nx ≠ some 0) :
    ∃ L, sitesLayout n bar nx = .ok L ∧ Spec.ValidLayout n bar L := by
  obtain ⟨grid, hg, hx, -, hN, -⟩ := getGrid_ok (N := n + bar.toNat) (by omega) nx hnx
  refine ⟨_, ?_, valid_of (n := n) (k := n + bar.toNat - 1) (bar := bar) hx (by omega) ?_⟩
  · unfold sitesLayout
    simp only [hg, bind, Except.bind, mapExc_panel hx (show n ≤ grid.2 * grid.1 by omega), barCell]
    cases bar with
    | false => rfl
    | true =>
      simp only [Bool.toNat_true] at hN ⊢
      simp only [if_true, panel_ok hx (show n + 1 - 1 < grid.2 * grid.1 by omega)]
      rfl
  · rintro rfl
    simp only [Bool.toNat_true] at hN ⊢
    omega

example : ∃ L, sitesLayout 7 true (some 3) = .ok L ∧ Spec.ValidLayout 7 true L :=
  C77_sites 7 (by omega) true (some 3) (by simp)

/-- **C77** for the plot of all spectra, except for a single column with colour bar and label of the
x axis. -/
theorem C77_spectra_partial (n : ℕ) (hn : 1 ≤ n) (bar : Bool) (nx : Option ℕ) (xlabel : Bool)
    (hnx : nx ≠ some 0) (h1 : nx ≠ some 1 ∨ bar = false ∨ xlabel = false) :
    ∃ L, spectraLayout n bar nx xlabel = .ok L ∧ Spec.ValidLayout n bar L := by
  obtain ⟨grid, hg, hx, hy, hN, hcase⟩ := getGrid_ok (N := n + bar.toNat) (by omega) nx hnx
  have hps := mapExc_panel hx (show n ≤ grid.2 * grid.1 by omega)
  cases bar with
  | false =>
    refine ⟨_, ?_, valid_of (n := n) (k := 0) (bar := false) hx (by omega) (by simp)⟩
    unfold spectraLayout
    simp only [hg, bind, Except.bind, hps, barCell]
    rfl
  | true =>
    simp only [Bool.toNat_true] at hN hg hcase
    -- index of the colour bar
    have key : (n + 1 - 1) % grid.1 = (grid.1 - 1) / 2 ∧ xlabel = true →
        n + 1 < grid.2 * grid.1 := by
      rintro ⟨hm, hxl⟩
      have hn1 : nx ≠ some 1 := by
        rcases h1 with h | h | h
        · exact h
        · exact absurd h (by simp)
        · rw [hxl] at h; exact absurd h (by simp)
      have h2 : 2 ≤ grid.1 := by
        rcases hcase with ⟨-, rfl⟩ | ⟨k, rfl, rfl⟩
        · obtain ⟨ha, hb, -⟩ := ceil_sqrt (N := n + 1) (by omega)
          by_contra hlt
          simp only at hlt
          have : ⌈sqrt ((n + 1 : ℕ) : ℝ)⌉₊ = 1 := by omega
          rw [this] at hb
          omega
        · have : k ≠ 0 := fun h => hnx (by rw [h])
          have : k ≠ 1 := fun h => hn1 (by rw [h])
          simp only
          omega
      by_contra hge
      have heq : n + 1 = grid.2 * grid.1 := by omega
      have hmod : (n + 1) % grid.1 = 0 := by rw [heq, Nat.mul_mod_left]
      simp only [Nat.add_sub_cancel] at hm
      have : (n + 1) % grid.1 = (n % grid.1 + 1) % grid.1 := by simp [Nat.add_mod]
      rw [hm, hmod] at this
      generalize grid.1 = m at *
      rw [Nat.mod_eq_of_lt (by omega)] at this
      omega
    by_cases hc : (n + 1 - 1) % grid.1 = (grid.1 - 1) / 2 ∧ xlabel = true
    · refine ⟨_, ?_, valid_of (n := n) (k := n + 1) (bar := true) hx (by omega)
        (fun _ => ⟨by omega, key hc⟩)⟩
      unfold spectraLayout
      simp only [Bool.toNat_true, hg, bind, Except.bind, hps, barCell, if_pos hc, if_true,
        panel_ok hx (show n + 1 + 1 - 1 < grid.2 * grid.1 from key hc)]
      rfl
    · refine ⟨_, ?_, valid_of (n := n) (k := n) (bar := true) hx (by omega)
        (fun _ => ⟨by omega, by omega⟩)⟩
      unfold spectraLayout
      simp only [Bool.toNat_true, hg, bind, Except.bind, hps, barCell, if_neg hc, if_true,
        panel_ok hx (show n + 1 - 1 < grid.2 * grid.1 by omega)]
      rfl

example : ∃ L, spectraLayout 5 true none true = .ok L ∧ Spec.ValidLayout 5 true L :=
  C77_spectra_partial 5 (by omega) true none true (by simp) (by simp)

/-- **C77** fails for the plot of all spectra in a single column: the colour bar is put below the
last row. -/
theorem C77_spectra_counterexample (n : ℕ) (hn : 1 ≤ n) :
    spectraLayout n true (some 1) true = .error .indexError := by
  have hg : getGrid (n + 1) (some 1) = .ok (1, n + 1) := by
    simp [getGrid, gridSpec, Nat.add_comm]
  unfold spectraLayout
  simp only [Bool.toNat_true, hg, bind, Except.bind,
    mapExc_panel (grid := (1, n + 1)) (n := n) (by simp) (by simp), barCell, if_true]
  rw [if_pos ⟨by simp [Nat.mod_one], trivial⟩, panel_error (by simp)]

/-! ## C80 -/

/-- **C80**: exactly one panel carries the label of the y axis; `N` may include the colour bar. -/
theorem C80_ylabel (n : ℕ) (hn : 1 ≤ n) (bar : Bool) (nx : Option ℕ) (hnx : nx ≠ some 0) :
    ∃ grid, getGrid (n + bar.toNat) nx = .ok grid ∧ ∃! i, i < n ∧ hasYlabel grid i := by
  obtain ⟨grid, hg, hx, hy, hN, hcase⟩ := getGrid_ok (N := n + bar.toNat) (by omega) nx hnx
  refine ⟨grid, hg, grid.1 * ((grid.2 - 1) / 2), ⟨?_, ?_, ?_⟩, ?_⟩
  · have hb : bar.toNat ≤ 1 := by cases bar <;> simp
    rcases hcase with ⟨-, rfl⟩ | ⟨k, -, rfl⟩
    · obtain ⟨ha, -, hc⟩ := ceil_sqrt (N := n + bar.toNat) (by omega)
      simp only
      generalize ⌈sqrt ((n + bar.toNat : ℕ) : ℝ)⌉₊ = m at *
      obtain ⟨k, rfl⟩ : ∃ k, m = k + 1 := ⟨m - 1, by omega⟩
      simp only [Nat.add_sub_cancel] at hc ⊢
      have h2 : 2 * (k / 2) ≤ k := by omega
      rcases Nat.lt_or_ge k 2 with h | h
      · have : k / 2 = 0 := by omega
        rw [this]; omega
      · have e : 2 * ((k + 1) * (k / 2)) ≤ (k + 1) * k := by
          calc 2 * ((k + 1) * (k / 2)) = (k + 1) * (2 * (k / 2)) := by ring
            _ ≤ _ := Nat.mul_le_mul_left _ h2
        have : k * k ≤ n := by omega
        nlinarith
    · simp only [Nat.add_sub_cancel_left]
      have e1 : k * ((n + bar.toNat - 1) / k / 2) ≤ (n + bar.toNat - 1) / 2 := by
        rw [Nat.div_div_eq_div_mul, Nat.mul_comm k 2, ← Nat.div_div_eq_div_mul]
        exact Nat.mul_div_le _ _
      omega
  · exact Nat.mul_mod_right _ _
  · exact Nat.mul_div_cancel_left _ hx
  · rintro j ⟨-, h1, h2⟩
    rw [← Nat.div_add_mod j grid.1, h1, h2, Nat.add_zero]

/-- **C80**: the label of the x axis appears at most once, and exactly once if the middle column
contains a panel. -/
theorem C80_xlabel_partial (n : ℕ) (bar : Bool) (nx : Option ℕ) (grid : ℕ × ℕ)
    (hg : getGrid (n + bar.toNat) nx = .ok grid) (hmid : (grid.1 - 1) / 2 < n) (hn : 1 ≤ n) :
    ∃! i, i < n ∧ hasXlabel grid n i := by
  have hx : 0 < grid.1 := by
    have hnx : nx ≠ some 0 := by
      rintro rfl
      simp [getGrid] at hg
    obtain ⟨g, hg', hx, -⟩ := getGrid_ok (N := n + bar.toNat) (by omega) nx hnx
    rw [hg] at hg'
    cases hg'
    exact hx
  unfold hasXlabel
  generalize grid.1 = m at *
  obtain ⟨i, hi⟩ : ∃ i, i < n ∧ i % m = (m - 1) / 2 ∧ i + m ≥ n := by
    set c := (m - 1) / 2 with hc
    refine ⟨c + m * ((n - 1 - c) / m), ?_, ?_, ?_⟩
    · have := Nat.mul_div_le (n - 1 - c) m
      omega
    · rw [Nat.add_mul_mod_self_left, Nat.mod_eq_of_lt (by omega)]
    · have := Nat.div_add_mod (n - 1 - c) m
      have := Nat.mod_lt (n - 1 - c) hx
      omega
  refine ⟨i, by simpa using hi, ?_⟩
  rintro j ⟨h1, h2, h3⟩
  have e1 := Nat.div_add_mod i m
  have e2 := Nat.div_add_mod j m
  rw [hi.2.1] at e1
  rw [h2] at e2
  rcases lt_trichotomy (i / m) (j / m) with h | h | h
  · have : m * (i / m) + m ≤ m * (j / m) := by
      rw [← Nat.mul_succ]; exact Nat.mul_le_mul_left _ h
    omega
  · rw [h] at e1; omega
  · have : m * (j / m) + m ≤ m * (i / m) := by
      rw [← Nat.mul_succ]; exact Nat.mul_le_mul_left _ h
    omega

/-- **C80**: with the default number of columns the x axis is always labelled exactly once. -/
theorem C80_xlabel_default (n : ℕ) (bar : Bool) (hn : 1 ≤ n) :
    ∃ grid, getGrid (n + bar.toNat) none = .ok grid ∧ ∃! i, i < n ∧ hasXlabel grid n i := by
  obtain ⟨grid, hg, hx, hy, hN, hcase⟩ := getGrid_ok (N := n + bar.toNat) (by omega) none (by simp)
  refine ⟨grid, hg, C80_xlabel_partial n bar none grid hg ?_ hn⟩
  rcases hcase with ⟨-, rfl⟩ | ⟨k, h, -⟩
  · obtain ⟨ha, -, hc⟩ := ceil_sqrt (N := n + bar.toNat) (by omega)
    have hb : bar.toNat ≤ 1 := by cases bar <;> simp
    simp only
    generalize ⌈sqrt ((n + bar.toNat : ℕ) : ℝ)⌉₊ = m at *
    obtain ⟨k, rfl⟩ : ∃ k, m = k + 1 := ⟨m - 1, by omega⟩
    simp only [Nat.add_sub_cancel] at hc ⊢
    rcases Nat.eq_zero_or_pos k with rfl | h
    · omega
    · have : k ≤ k * k := Nat.le_mul_of_pos_left _ h
      omega
  · simp at h

example : ∃ grid, getGrid 8 (some 3) = .ok grid ∧ ∃! i, i < 7 ∧ hasXlabel grid 7 i := by
  refine ⟨(3, 3), by simp [getGrid, gridSpec], ?_⟩
  exact C80_xlabel_partial 7 true (some 3) (3, 3) (by simp [getGrid, gridSpec]) (by simp) (by simp)

/-- **C80** fails for few panels in many columns: no panel has the label of the x axis. -/
theorem C80_xlabel_counterexample (n k : ℕ) (hn : 1 ≤ n) (hk : n ≤ (k - 1) / 2) :
    ∃ grid, getGrid n (some k) = .ok grid ∧ ∀ i < n, ¬ hasXlabel grid n i := by
  obtain ⟨grid, hg, hx, hy, hN, hcase⟩ := getGrid_ok hn (some k) (by
    intro h; rw [Option.some.injEq] at h; omega)
  refine ⟨grid, hg, ?_⟩
  rcases hcase with ⟨h, -⟩ | ⟨k', h, rfl⟩
  · simp at h
  · rw [Option.some.injEq] at h
    subst h
    rintro i hi ⟨h1, -⟩
    simp only at h1
    rw [Nat.mod_eq_of_lt (by omega)] at h1
    omega

example : ∃ grid, getGrid 2 (some 5) = .ok grid ∧ ∀ i < 2, ¬ hasXlabel grid 2 i :=
  C80_xlabel_counterexample 2 5 (by omega) (by omega)

/-! ## C81 -/

/-- **C81**: for an odd number of fits (default 7) each fit has its own panel inside of the grid,
outside of the region of the main axes (rows from 1, all but the last column). -/
theorem C81_panels_partial (num : ℕ) (hodd : num % 2 = 1) (h3 : 3 ≤ num) :
    (∀ i < num, (optPanel num i).1 < (num + 1) / 2 ∧ (optPanel num i).2 < (num + 1) / 2 ∧
      ((optPanel num i).1 = 0 ∨ (optPanel num i).2 = (num + 1) / 2 - 1)) ∧
    ∀ i j, i < num → j < num → optPanel num i = optPanel num j → i = j := by
  obtain ⟨m, rfl⟩ : ∃ m, num = 2 * m + 1 := ⟨num / 2, by omega⟩
  have hn : (2 * m + 1 + 1) / 2 = m + 1 := by omega
  unfold optPanel
  simp only [hn, Nat.add_sub_cancel]
  constructor
  · intro i hi
    by_cases h1 : i < m + 1
    · rw [if_pos h1]; exact ⟨by omega, h1, Or.inl rfl⟩
    · by_cases h2 : i < 2 * m
      · rw [if_neg h1, if_pos h2]; exact ⟨by simp only; omega, by simp, Or.inr rfl⟩
      · rw [if_neg h1, if_neg h2]; exact ⟨by simp, by simp, Or.inr rfl⟩
  · intro i j hi hj h
    split_ifs at h <;> simp only [Prod.mk.injEq] at h <;> omega

example : ∀ i j, i < 7 → j < 7 → optPanel 7 i = optPanel 7 j → i = j :=
  (C81_panels_partial 7 rfl (by omega)).2

/-- **C81** fails for an even number of fits: the last but one fit and the best fit are drawn on top
of each other. -/
theorem C81_panels_counterexample (num : ℕ) (heven : num % 2 = 0) (h : 2 ≤ num) :
    optPanel num (num - 2) = optPanel num (num - 1) := by
  obtain ⟨m, rfl⟩ : ∃ m, num = 2 * m := ⟨num / 2, by omega⟩
  have hn : (2 * m + 1) / 2 = m := by omega
  unfold optPanel
  simp only [hn]
  rw [if_neg (show ¬ 2 * m - 1 < 2 * m - 1 by omega)]
  by_cases h1 : 2 * m - 2 < m
  · rw [if_pos h1]
    have : m = 1 := by omega
    subst this
    rfl
  · rw [if_neg h1, if_pos (by omega), if_neg (by omega), Prod.mk.injEq]
    omega

theorem recordStep_cases (num : ℕ) (r : List ℝ) (c : Call) :
    (c.g0 ∉ r ∧ (r.length < num - 1 ∨ c.opt = false)) ∧ recordStep num r c = r ++ [c.g0] ∨
      ¬ (c.g0 ∉ r ∧ (r.length < num - 1 ∨ c.opt = false)) ∧ recordStep num r c = r := by
  by_cases h : c.g0 ∉ r ∧ (r.length < num - 1 ∨ c.opt = false)
  · exact Or.inl ⟨h, if_pos h⟩
  · exact Or.inr ⟨h, if_neg h⟩

theorem recordStep_nodup {num : ℕ} {r : List ℝ} (c : Call) (h : r.Nodup) :
    (recordStep num r c).Nodup := by
  rcases recordStep_cases num r c with ⟨hc, e⟩ | ⟨hc, e⟩ <;> rw [e]
  · rw [List.nodup_append]
    refine ⟨h, by simp, ?_⟩
    intro a ha b hb
    rw [List.mem_singleton] at hb
    subst hb
    rintro rfl
    exact hc.1 ha
  · exact h

theorem record_opt {num : ℕ} (tried : List ℝ) : ∀ r : List ℝ, r.Nodup → r.length ≤ num - 1 →
    let r' := tried.foldl (fun r g => recordStep num r ⟨g, true⟩) r
    r'.Nodup ∧ r'.length ≤ num - 1 ∧ (∃ s, r' = r ++ s) ∧ (∀ x ∈ r', x ∈ r ∨ x ∈ tried) ∧
      (r'.length < num - 1 → ∀ x ∈ tried, x ∈ r') := by
  induction tried with
  | nil =>
    intro r h1 h2
    exact ⟨h1, h2, ⟨[], by simp⟩, fun x hx => Or.inl hx, by simp⟩
  | cons g gs ih =>
    intro r h1 h2
    rw [List.foldl_cons]
    have hlen : (recordStep num r ⟨g, true⟩).length ≤ num - 1 := by
      rcases recordStep_cases num r ⟨g, true⟩ with ⟨hc, e⟩ | ⟨hc, e⟩ <;> rw [e]
      · rw [List.length_append, List.length_singleton]
        rcases hc.2 with h | h
        · omega
        · simp at h
      · exact h2
    have hpre : ∃ s, recordStep num r ⟨g, true⟩ = r ++ s ∧ ∀ x ∈ s, x = g := by
      rcases recordStep_cases num r ⟨g, true⟩ with ⟨hc, e⟩ | ⟨hc, e⟩ <;> rw [e]
      · exact ⟨[g], rfl, by simp⟩
      · exact ⟨[], by simp, by simp⟩
    obtain ⟨a, b, ⟨s, c⟩, d, e⟩ := ih _ (recordStep_nodup ⟨g, true⟩ h1) hlen
    obtain ⟨s', hs', hs''⟩ := hpre
    refine ⟨a, b, ⟨s' ++ s, by rw [c, hs', List.append_assoc]⟩, ?_, ?_⟩
    · intro x hx
      rcases d x hx with h | h
      · rw [hs', List.mem_append] at h
        rcases h with h | h
        · exact Or.inl h
        · right; rw [hs'' x h]; simp
      · right; exact List.mem_cons_of_mem _ h
    · intro hl x hx
      rcases List.mem_cons.1 hx with rfl | hx
      · rw [c, List.mem_append]
        left
        have hl' : (recordStep num r ⟨x, true⟩).length < num - 1 := by
          rw [c, List.length_append] at hl; omega
        rcases recordStep_cases num r ⟨x, true⟩ with ⟨hc, e'⟩ | ⟨hc, e'⟩ <;> rw [e'] at hl' ⊢
        · simp
        · by_contra hx'
          exact hc ⟨hx', Or.inl hl'⟩
      · exact e hl x hx

/-- **C81**: the recorded fits are different, at most `num`, belong to tried values and include the
result of the optimisation; all tried values are recorded if there are few. -/
theorem C81_record (num : ℕ) (hnum : 1 ≤ num) (tried : List ℝ) (best : ℝ) :
    (recordAll num tried best).Nodup ∧ (recordAll num tried best).length ≤ num ∧
    best ∈ recordAll num tried best ∧
    (∀ x ∈ recordAll num tried best, x = best ∨ x ∈ tried) ∧
    ((recordAll num tried best).length < num - 1 → ∀ x ∈ tried, x ∈ recordAll num tried best) := by
  obtain ⟨a, b, -, d, e⟩ := record_opt (num := num) tried [] List.nodup_nil (by simp)
  unfold recordAll
  refine ⟨recordStep_nodup _ a, ?_⟩
  rcases recordStep_cases num (tried.foldl (fun r g => recordStep num r ⟨g, true⟩) [])
    ⟨best, false⟩ with ⟨hc, e'⟩ | ⟨hc, e'⟩ <;> rw [e']
  · refine ⟨?_, by simp, ?_, ?_⟩
    · rw [List.length_append, List.length_singleton]; omega
    · intro x hx
      rcases List.mem_append.1 hx with hx | hx
      · rcases d x hx with h | h
        · simp at h
        · exact Or.inr h
      · left; simpa using hx
    · intro hl x hx
      rw [List.length_append] at hl
      exact List.mem_append_left _ (e (by omega) x hx)
  · refine ⟨by omega, ?_, ?_, e⟩
    · by_contra hb
      exact hc ⟨hb, Or.inr rfl⟩
    · intro x hx
      rcases d x hx with h | h
      · simp at h
      · exact Or.inr h

example : (recordAll 7 [3e-6, 1e-6, 2e-6] 1.5e-6).length ≤ 7 ∧
    (1.5e-6 : ℝ) ∈ recordAll 7 [3e-6, 1e-6, 2e-6] 1.5e-6 :=
  ⟨(C81_record 7 (by omega) _ _).2.1, (C81_record 7 (by omega) _ _).2.2.1⟩

/-- **C81** fails for the label of the best fit: if the result was among the first tried values it is
recorded at its place and the last recorded fit is another one. -/
theorem C81_best_counterexample : recordAll 7 [1, 2, 3] 2 = [1, 2, 3] ∧
    (recordAll 3 [1, 2, 3, 4, 5, 6] 2).length < 3 := by
  constructor <;> norm_num [recordAll, recordStep]

/-- **C81**: the result is the last recorded fit if it is not a value tried during optimisation. -/
theorem C81_best_partial (num : ℕ) (tried : List ℝ) (best : ℝ) (h : best ∉ tried) :
    (recordAll num tried best).getLast? = some best := by
  obtain ⟨-, -, -, d, -⟩ := record_opt (num := num) tried [] List.nodup_nil (by simp)
  have hb : best ∉ tried.foldl (fun r g => recordStep num r ⟨g, true⟩) [] := by
    intro hb
    rcases d _ hb with h' | h'
    · simp at h'
    · exact h h'
  unfold recordAll
  rcases recordStep_cases num (tried.foldl (fun r g => recordStep num r ⟨g, true⟩) [])
    ⟨best, false⟩ with ⟨hc, e'⟩ | ⟨hc, e'⟩ <;> rw [e']
  · simp
  · exact absurd ⟨hb, Or.inr rfl⟩ hc

example : (recordAll 7 [3e-6, 1e-6, 2e-6] 1.5e-6).getLast? = some 1.5e-6 :=
  C81_best_partial _ _ _ (by norm_num)

/-- **C81** fails for the misfit curve: the blue cross marks the value tried last (imaging.py:227-228),
not the value with minimal misfit. -/
theorem C81_cross_counterexample : ∃ (record : List (ℝ × ℝ)),
    ∃ best ∈ record, (∀ p ∈ record, best.1 ≤ p.1) ∧
      ∃ p, markedBest record = some p ∧ best.1 < p.1 ∧ best.2 ≠ p.2 := by
  refine ⟨[(0.2, 3e-6), (0.1, 1e-6), (0.15, 2e-6)], (0.1, 1e-6), by simp, ?_, (0.15, 2e-6), rfl, ?_, ?_⟩
  · intro p hp
    simp at hp
    rcases hp with rfl | rfl | rfl <;> norm_num
  · norm_num
  · norm_num

/-! ## C82 -/

/-- **C82**: in the plot of the linear regression the distance of a sample from the line is the
logarithm of observed over modelled energy, whose mean square is minimised. -/
theorem C82_residual (E G R W W0 b t base : ℝ) (hE : 0 < E) (hG : 0 < G) (hR : 0 < R) (hW : 0 < W)
    (hW0 : 0 < W0) :
    plottedSample E G R W W0 base - plottedLine W0 b t base =
      log (E / modelled R W G b t) / log base := by
  unfold plottedSample plottedLine modelled
  rw [← sub_div]
  congr 1
  have hRW : 0 < R * W := mul_pos hR hW
  rw [log_div hRW.ne' hW0.ne', log_div hE.ne' (by positivity),
    log_mul (by positivity) (exp_pos _).ne', log_mul hRW.ne' hG.ne', log_exp]
  ring

example : plottedSample 2 1 3 4 4 (exp 1) - plottedLine 4 0.1 5 (exp 1) =
    log (2 / modelled 3 4 1 0.1 5) / log (exp 1) :=
  C82_residual _ _ _ _ _ _ _ _ (by norm_num) (by norm_num) (by norm_num) (by norm_num) (by norm_num)

/-- **C82**: samples lie on the line exactly if the model explains them. -/
theorem C82_exact (E G R W W0 b t : ℝ) (hE : 0 < E) (hG : 0 < G) (hR : 0 < R) (hW : 0 < W)
    (hW0 : 0 < W0) :
    plottedSample E G R W W0 (exp 1) = plottedLine W0 b t (exp 1) ↔ E = modelled R W G b t := by
  rw [← sub_eq_zero, C82_residual E G R W W0 b t _ hE hG hR hW hW0, log_exp, div_one]
  have hm : 0 < modelled R W G b t := by unfold modelled; positivity
  constructor
  · intro h
    have := eq_one_of_pos_of_log_eq_zero (div_pos hE hm) h
    rwa [div_eq_one_iff_eq hm.ne'] at this
  · rintro h
    rw [h, div_self hm.ne', log_one]

example : plottedSample (modelled 3 4 1 0.1 5) 1 3 4 4 (exp 1) = plottedLine 4 0.1 5 (exp 1) :=
  (C82_exact _ 1 3 4 4 0.1 5 (by unfold modelled; positivity) (by norm_num) (by norm_num)
    (by norm_num) (by norm_num)).2 rfl

/-- **C82**: the sample `k + i` of the whole trace and the sample `i` of a window starting at the
`k`-th sample are drawn at the same time; a window whose nominal start is off the sampling points is
shifted by exactly this difference. -/
theorem C82_times (tr : Tr.Trace) (v0 start : ℝ) (n k i : ℕ) (hi : i < n)
    (hk : k + i < tr.data.length) :
    ∃ s t, (fitTimes tr.start tr.sr tr.origin tr.sonset tr.distance v0 tr.data.length)[k + i]? = some s ∧
      (Window.timeAxis tr v0 start n)[i]? = some t ∧ t - s = start - (tr.start + k / tr.sr) := by
  refine ⟨((k + i : ℕ) : ℝ) / tr.sr + (tr.start - tr.origin) + tr.distance / v0 -
      (tr.sonset - tr.origin), (i : ℝ) / tr.sr + tr.distance / v0 + (start - tr.sonset), ?_, ?_, ?_⟩
  · simp [fitTimes, hk]
  · simp [Window.timeAxis, hi]
  · push_cast; ring

example : ∃ x1 x2, freqlim [0.75, 1.5, 3] = some (x1, x2) ∧
    log x1 = log 0.75 - (log 1.5 - log 0.75) / 2 ∧ log x2 = log 3 + (log 3 - log 1.5) / 2 :=
  C78_half_step (mid' := [0.75]) 0.75 1.5 [3] 1.5 3 (by norm_num) (by norm_num) (by norm_num)
    (by norm_num) rfl

example : ∃ grid, getGrid 8 (some 3) = .ok grid ∧ ∃! i, i < 7 ∧ hasYlabel grid i :=
  C80_ylabel 7 (by omega) true (some 3) (by simp)

example : ∃ s t, (fitTimes 0 10 1 5 12000 3000 20)[7]? = some s ∧
    (Window.timeAxis ⟨"ev", "sta", 0, 10, List.replicate 20 1, 1, 3, 5, 12000, none⟩ 3000 0.4 5)[3]? = some t ∧
    t = s := by
  obtain ⟨s, t, h1, h2, h3⟩ := C82_times
    ⟨"ev", "sta", 0, 10, List.replicate 20 1, 1, 3, 5, 12000, none⟩ 3000 0.4 5 4 3 (by omega) (by simp)
  exact ⟨s, t, by simpa using h1, h2, by norm_num at h3; linarith⟩

end Qopen
