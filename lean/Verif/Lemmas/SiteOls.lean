import Verif.Model.Site
import Verif.Lemmas.ListSum
import Mathlib.Data.List.Nodup
import Mathlib.Tactic.LinearCombination

/-!
# The equation system in sparse and dense representation
-/

namespace Qopen.Site

open Real

/-- Scalar product of an equation (column, coefficient) with unknowns. -/
def evalRow (c : ℕ → ℝ) (cd : List (ℕ × ℝ)) : ℝ := (cd.map (fun p => p.2 * c p.1)).sum

/-- Columns are distinct and in range. -/
def GoodRow (Ne : ℕ) (cd : List (ℕ × ℝ)) : Prop :=
  (cd.map Prod.fst).Nodup ∧ ∀ p ∈ cd, p.1 < Ne

theorem foldl_set_length (cd : List (ℕ × ℝ)) (r : List ℝ) :
    (cd.foldl (fun r cd => r.set cd.1 cd.2) r).length = r.length := by
  induction cd generalizing r with
  | nil => rfl
  | cons p cd ih => rw [List.foldl_cons, ih, List.length_set]

theorem denseRow_length (Ne : ℕ) (cd : List (ℕ × ℝ)) : (denseRow Ne cd).length = Ne := by
  rw [denseRow, foldl_set_length, List.length_replicate]

theorem getD_set' (r : List ℝ) (k j : ℕ) (v : ℝ) (hj : j < r.length) :
    (r.set k v).getD j 0 = if k = j then v else r.getD j 0 := by
  simp only [List.getD_eq_getElem?_getD, List.getElem?_set]
  split
  · next h => subst h; simp [hj]
  · rfl

theorem foldl_set_getD (cd : List (ℕ × ℝ)) (hn : (cd.map Prod.fst).Nodup) (r : List ℝ) (j : ℕ)
    (hj : j < r.length) (h0 : j ∈ cd.map Prod.fst → r.getD j 0 = 0) :
    (cd.foldl (fun r cd => r.set cd.1 cd.2) r).getD j 0 =
      r.getD j 0 + ((cd.filter (fun e => e.1 = j)).map Prod.snd).sum := by
  induction cd generalizing r with
  | nil => simp
  | cons p cd ih =>
    simp only [List.map_cons, List.nodup_cons, List.mem_cons] at hn h0
    rw [List.foldl_cons, ih hn.2 _ (by simpa using hj), getD_set' _ _ _ _ hj]
    · by_cases h : p.1 = j
      · subst h
        rw [h0 (Or.inl rfl)]
        simp
      · simp [h]
    · intro hm
      rw [getD_set' _ _ _ _ hj]
      have : p.1 ≠ j := by rintro rfl; exact hn.1 hm
      rw [if_neg this, h0 (Or.inr hm)]

theorem denseRow_eq (Ne : ℕ) (cd : List (ℕ × ℝ)) (h : GoodRow Ne cd) :
    denseRow Ne cd = (List.range Ne).map (fun j =>
      ((cd.filter (fun e => e.1 = j)).map Prod.snd).sum) := by
  apply List.ext_getElem
  · simp [denseRow_length]
  · intro j h1 h2
    have hj : j < Ne := by simpa [denseRow_length] using h1
    have := foldl_set_getD cd h.1 (List.replicate Ne 0) j (by simpa using hj)
      (by intro _; simp [List.getD_eq_getElem?_getD, hj])
    rw [← denseRow, List.getD_eq_getElem?_getD, List.getElem?_eq_getElem h1] at this
    simp only [Option.getD_some] at this
    rw [this]
    simp [List.getD_eq_getElem?_getD, hj]

theorem dot_set (r c : List ℝ) (hl : r.length = c.length) (k : ℕ) (hk : k < r.length) (v : ℝ)
    (h0 : r.getD k 0 = 0) :
    (List.zipWith (· * ·) (r.set k v) c).sum =
      (List.zipWith (· * ·) r c).sum + v * c.getD k 0 := by
  induction r generalizing c k with
  | nil => simp at hk
  | cons a r ih =>
    cases c with
    | nil => simp at hl
    | cons d c =>
      cases k with
      | zero =>
        simp only [List.getD_cons_zero] at h0
        simp [h0]; ring
      | succ k =>
        simp only [List.length_cons, Nat.add_right_cancel_iff, Nat.add_lt_add_iff_right,
          List.getD_cons_succ] at hl hk h0
        simp only [List.set_cons_succ, List.zipWith_cons_cons, List.sum_cons, List.getD_cons_succ,
          ih c hl k hk h0]
        ring

theorem dot_foldl_set (cd : List (ℕ × ℝ)) (hn : (cd.map Prod.fst).Nodup) (r c : List ℝ)
    (hl : r.length = c.length) (hk : ∀ p ∈ cd, p.1 < r.length)
    (h0 : ∀ p ∈ cd, r.getD p.1 0 = 0) :
    (List.zipWith (· * ·) (cd.foldl (fun r cd => r.set cd.1 cd.2) r) c).sum =
      (List.zipWith (· * ·) r c).sum + evalRow (fun k => c.getD k 0) cd := by
  induction cd generalizing r with
  | nil => simp [evalRow]
  | cons p cd ih =>
    simp only [List.map_cons, List.nodup_cons] at hn
    rw [List.foldl_cons, ih hn.2 _ (by simpa using hl) (by simpa using fun a b h => hk (a, b) (by simp [h])),
      dot_set r c hl p.1 (hk p (by simp)) p.2 (h0 p (by simp))]
    · simp only [evalRow, List.map_cons, List.sum_cons]; ring
    · intro q hq
      rw [getD_set' _ _ _ _ (hk q (by simp [hq]))]
      have : p.1 ≠ q.1 := by
        intro h
        exact hn.1 (List.mem_map.2 ⟨q, hq, h.symm⟩)
      rw [if_neg this, h0 q (by simp [hq])]

theorem dot_zero (n : ℕ) (c : List ℝ) :
    (List.zipWith (· * ·) (List.replicate n 0) c).sum = 0 := by
  induction n generalizing c with
  | zero => simp
  | succ n ih => cases c <;> simp [List.replicate_succ, ih]

/-- Scalar product with a dense row. -/
theorem dot_denseRow (Ne : ℕ) (cd : List (ℕ × ℝ)) (h : GoodRow Ne cd) (c : List ℝ)
    (hc : c.length = Ne) :
    (List.zipWith (· * ·) (denseRow Ne cd) c).sum = evalRow (fun k => c.getD k 0) cd := by
  rw [denseRow, dot_foldl_set cd h.1 _ c (by simp [hc]) (by simpa using fun a b h' => h.2 (a, b) h')
    (by intro p hp; simp [List.getD_eq_getElem?_getD, h.2 p hp]), dot_zero, zero_add]

/-- The list of equations that the variables represent. -/
structure Rep (us : Bool) (Ne : ℕ) (o : Ols) (rows : List (List (ℕ × ℝ) × ℝ)) : Prop where
  b : o.b = rows.map Prod.snd
  row : o.row = rows.length
  mat : matrix us Ne o = rows.map (fun r => denseRow Ne r.1)
  len1 : o.data.length = o.rowIdx.length
  len2 : o.rowIdx.length = o.colIdx.length
  lt : ∀ r ∈ o.rowIdx, r < o.row

theorem rep_nil (us : Bool) (Ne : ℕ) : Rep us Ne {} [] := by
  refine ⟨rfl, rfl, ?_, rfl, rfl, by simp⟩
  cases us <;> simp [matrix, csr]

theorem csr_entry (cd : List (ℕ × ℝ)) (r j : ℕ) :
    ((((cd.map Prod.snd).zip ((cd.map (fun _ => r)).zip (cd.map Prod.fst))).filter
      (fun e => e.2.1 = r ∧ e.2.2 = j)).map Prod.fst).sum =
    ((cd.filter (fun e => e.1 = j)).map Prod.snd).sum := by
  induction cd with
  | nil => rfl
  | cons p cd ih =>
    by_cases h : p.1 = j
    · simp only [List.map_cons, List.zip_cons_cons, List.filter_cons, h, and_self, decide_true,
        if_true, List.sum_cons, ih]
    · simpa only [List.map_cons, List.zip_cons_cons, List.filter_cons, h, and_false, decide_false,
        Bool.false_eq_true, if_false] using ih

theorem rep_construct {us : Bool} {Ne : ℕ} {o : Ols} {rows : List (List (ℕ × ℝ) × ℝ)}
    (h : Rep us Ne o rows) (cd : List (ℕ × ℝ)) (bval : ℝ) (hg : GoodRow Ne cd) :
    Rep us Ne (constructOls us Ne o cd bval) (rows ++ [(cd, bval)]) := by
  cases us with
  | false =>
    have hm := h.mat
    simp only [matrix, Bool.false_eq_true, if_false] at hm
    refine ⟨?_, ?_, ?_, ?_, ?_, ?_⟩
    · simp [constructOls, h.b]
    · simp [constructOls, h.row]
    · simp [constructOls, matrix, hm]
    · simpa [constructOls] using h.len1
    · simpa [constructOls] using h.len2
    · intro r hr
      have := h.lt r (by simpa [constructOls] using hr)
      simp only [constructOls, Bool.false_eq_true, if_false]
      omega
  | true =>
    have hm := h.mat
    simp only [matrix, if_true] at hm
    refine ⟨?_, ?_, ?_, ?_, ?_, ?_⟩
    · simp [constructOls, h.b]
    · simp [constructOls, h.row]
    · simp only [matrix, if_true, constructOls, List.map_append, List.map_cons, List.map_nil]
      rw [← hm]
      simp only [csr]
      rw [List.range_succ, List.map_append]
      have hz : (o.data ++ cd.map Prod.snd).zip ((o.rowIdx ++ cd.map (fun _ => o.row)).zip
          (o.colIdx ++ cd.map Prod.fst)) = o.data.zip (o.rowIdx.zip o.colIdx) ++
          (cd.map Prod.snd).zip ((cd.map (fun _ => o.row)).zip (cd.map Prod.fst)) := by
        rw [List.zip_append h.len2, List.zip_append]
        simp [h.len1, h.len2]
      rw [hz]
      congr 1
      · apply List.map_congr_left
        intro r hr
        apply List.map_congr_left
        intro j _
        rw [List.filter_append]
        have : ((cd.map Prod.snd).zip ((cd.map (fun _ => o.row)).zip (cd.map Prod.fst))).filter
            (fun e => decide (e.2.1 = r ∧ e.2.2 = j)) = [] := by
          rw [List.filter_eq_nil_iff]
          intro e he
          have h1 := (List.of_mem_zip (List.of_mem_zip (a := e.1) (b := e.2) he).2).1
          obtain ⟨_, _, h2⟩ := List.mem_map.1 h1
          have : o.row ≠ r := by have := List.mem_range.1 hr; omega
          simp only [decide_eq_true_eq, not_and]
          intro h3; exact absurd (h2.trans h3) this
        rw [this, List.append_nil]
      · simp only [List.map_cons, List.map_nil, List.cons.injEq, and_true]
        rw [denseRow_eq Ne cd hg]
        apply List.map_congr_left
        intro j _
        rw [List.filter_append, List.map_append, List.sum_append, csr_entry]
        have : (o.data.zip (o.rowIdx.zip o.colIdx)).filter
            (fun e => decide (e.2.1 = o.row ∧ e.2.2 = j)) = [] := by
          rw [List.filter_eq_nil_iff]
          intro e he
          have h1 := (List.of_mem_zip (List.of_mem_zip (a := e.1) (b := e.2) he).2).1
          have := h.lt _ h1
          simp only [decide_eq_true_eq, not_and]
          intro h3
          exact absurd (h3 ▸ this) (lt_irrefl _)
        rw [this]; simp
    · simp [constructOls, h.len1]
    · simp [constructOls, h.len2]
    · intro r hr
      simp only [constructOls, if_true] at hr ⊢
      rcases List.mem_append.1 hr with h1 | h1
      · have := h.lt r h1; omega
      · obtain ⟨_, _, rfl⟩ := List.mem_map.1 h1; omega

end Qopen.Site
