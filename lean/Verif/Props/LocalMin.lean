import Verif.Model.Trace
import Mathlib.Data.List.GetD
import Mathlib.Tactic.IntervalCases

/-!
# Cutting the coda at a local minimum: C33
-/

namespace Qopen

open Tr Util

namespace Spec

/-- Sample `i` is smaller than both neighbours. -/
def LocMin (d : List ℝ) (i : ℕ) : Prop :=
  ∃ a b c, 0 < i ∧ d[i - 1]? = some a ∧ d[i]? = some b ∧ d[i + 1]? = some c ∧ b < a ∧ b < c

/-- Sample `i` is larger than both neighbours. -/
def LocMax (d : List ℝ) (i : ℕ) : Prop :=
  ∃ a b c, 0 < i ∧ d[i - 1]? = some a ∧ d[i]? = some b ∧ d[i + 1]? = some c ∧ a < b ∧ c < b

/-- `mi` is the (first) lowest local minimum before `ma`; if there is no local minimum before `ma`
it is the first sample. -/
def Lowest (d : List ℝ) (ma mi : ℕ) : Prop :=
  (LocMin d mi ∧ mi < ma ∧
    ∀ j x y, LocMin d j → j < ma → d[mi]? = some x → d[j]? = some y →
      (x ≤ y ∧ (j < mi → x < y))) ∨
  (mi = 0 ∧ ∀ j < ma, ¬ LocMin d j)

/-- The local maximum `ma` exceeds `ratio` times the lowest local minimum `mi` before it. -/
def Exceeds (d : List ℝ) (ratio : ℝ) (ma mi : ℕ) : Prop :=
  LocMax d ma ∧ Lowest d ma mi ∧ ∃ x y, d[ma]? = some x ∧ d[mi]? = some y ∧ ratio < x / y

end Spec

open Spec

namespace Tr

theorem mem_argrelmin {d : List ℝ} {i : ℕ} : i ∈ argrelmin d ↔ LocMin d i := by
  unfold argrelmin LocMin
  simp only [List.mem_filter, List.mem_range, decide_eq_true_eq]
  constructor
  · rintro ⟨h, h0, h1, h2, h3⟩
    refine ⟨d[i - 1], d[i], d[i + 1], h0, by simp, by simp, by simp, ?_, ?_⟩
    · rwa [List.getD_eq_getElem (hn := h), List.getD_eq_getElem (hn := by omega)] at h2
    · rwa [List.getD_eq_getElem (hn := h), List.getD_eq_getElem (hn := h1)] at h3
  · rintro ⟨a, b, c, h0, ha, hb, hc, h1, h2⟩
    obtain ⟨lc, ec⟩ := List.getElem?_eq_some_iff.1 hc
    simp only [List.getD_eq_getElem?_getD, ha, hb, hc, Option.getD_some]
    exact ⟨by omega, h0, lc, h1, h2⟩

theorem mem_argrelmax {d : List ℝ} {i : ℕ} : i ∈ argrelmax d ↔ LocMax d i := by
  unfold argrelmax LocMax
  simp only [List.mem_filter, List.mem_range, decide_eq_true_eq]
  constructor
  · rintro ⟨h, h0, h1, h2, h3⟩
    refine ⟨d[i - 1], d[i], d[i + 1], h0, by simp, by simp, by simp, ?_, ?_⟩
    · rwa [List.getD_eq_getElem (hn := h), List.getD_eq_getElem (hn := by omega)] at h2
    · rwa [List.getD_eq_getElem (hn := h), List.getD_eq_getElem (hn := h1)] at h3
  · rintro ⟨a, b, c, h0, ha, hb, hc, h1, h2⟩
    obtain ⟨lc, ec⟩ := List.getElem?_eq_some_iff.1 hc
    simp only [List.getD_eq_getElem?_getD, ha, hb, hc, Option.getD_some]
    exact ⟨by omega, h0, lc, h1, h2⟩

theorem sorted_argrelmin (d : List ℝ) : (argrelmin d).Pairwise (· < ·) :=
  List.Pairwise.filter _ List.pairwise_lt_range

theorem sorted_argrelmax (d : List ℝ) : (argrelmax d).Pairwise (· < ·) :=
  List.Pairwise.filter _ List.pairwise_lt_range

/-- The entries of the decreasing subsequence are the running minima. -/
theorem descend_last (d : List ℝ) (ma : ℕ) (m0 : ℕ) (ms : List ℕ)
    (hs : (m0 :: ms).Pairwise (· < ·)) (h0 : m0 < ma) :
    let mi := minBefore (m0 :: descend d m0 ms) ma
    mi ∈ m0 :: ms ∧ mi < ma ∧ ∀ j ∈ m0 :: ms, j < ma →
      d.getD mi 0 ≤ d.getD j 0 ∧ (j < mi → d.getD mi 0 < d.getD j 0) := by
  induction ms generalizing m0 with
  | nil =>
    simp only [descend, minBefore, List.filter_cons, h0, decide_true, if_true, List.filter_nil,
      List.getLast?_singleton, Option.getD_some]
    refine ⟨by simp, trivial, ?_⟩
    intro j hj _
    simp only [List.mem_singleton] at hj
    subst hj
    exact ⟨le_rfl, fun h => absurd h (lt_irrefl _)⟩
  | cons m ms ih =>
    have hlt : m0 < m := (List.pairwise_cons.1 hs).1 m (by simp)
    have hs2 : (m :: ms).Pairwise (· < ·) := (List.pairwise_cons.1 hs).2
    have hs3 : (m0 :: ms).Pairwise (· < ·) := by
      rw [List.pairwise_cons]
      exact ⟨fun x hx => (List.pairwise_cons.1 hs).1 x (by simp [hx]), (List.pairwise_cons.1 hs2).2⟩
    simp only
    by_cases hd : d.getD m 0 < d.getD m0 0
    · have e : descend d m0 (m :: ms) = m :: descend d m ms := by
        rw [descend, if_pos hd]
      rw [e]
      by_cases hm : m < ma
      · have e2 : minBefore (m0 :: m :: descend d m ms) ma = minBefore (m :: descend d m ms) ma := by
          unfold minBefore
          simp only [List.filter_cons, h0, hm, decide_true, if_true]
          rfl
        rw [e2]
        obtain ⟨h1, h2, h3⟩ := ih m hs2 hm
        refine ⟨by simp only [List.mem_cons] at h1 ⊢; tauto, h2, ?_⟩
        intro j hj hjma
        rcases List.mem_cons.1 hj with rfl | hj
        · have := (h3 m (by simp) hm).1
          exact ⟨(this.trans_lt hd).le, fun _ => this.trans_lt hd⟩
        · exact h3 j hj hjma
      · have hfil : ∀ x ∈ m :: descend d m ms, ¬ x < ma := by
          have hsub : ∀ (l : List ℕ) (last : ℕ), ∀ x ∈ descend d last l, x ∈ l := by
            intro l
            induction l with
            | nil => intro last x hx; simp [descend] at hx
            | cons y l ih =>
              intro last x hx
              rw [descend] at hx
              split at hx
              · rcases List.mem_cons.1 hx with rfl | hx
                · simp
                · exact List.mem_cons_of_mem _ (ih _ _ hx)
              · exact List.mem_cons_of_mem _ (ih _ _ hx)
          intro x hx
          rcases List.mem_cons.1 hx with rfl | hx
          · exact hm
          · have := (List.pairwise_cons.1 hs2).1 x (hsub _ _ _ hx)
            omega
        have e2 : minBefore (m0 :: m :: descend d m ms) ma = m0 := by
          unfold minBefore
          rw [List.filter_cons, if_pos (by simpa using h0),
            List.filter_eq_nil_iff.2 (by simpa using hfil)]
          rfl
        rw [e2]
        refine ⟨by simp, h0, ?_⟩
        intro j hj hjma
        rcases List.mem_cons.1 hj with rfl | hj
        · exact ⟨le_rfl, fun h => absurd h (lt_irrefl _)⟩
        · exfalso
          rcases List.mem_cons.1 hj with rfl | hj
          · exact hm hjma
          · have := (List.pairwise_cons.1 hs2).1 j hj
            omega
    · have e : descend d m0 (m :: ms) = descend d m0 ms := by
        rw [descend, if_neg hd]
      rw [e]
      obtain ⟨h1, h2, h3⟩ := ih m0 hs3 h0
      refine ⟨by simp only [List.mem_cons] at h1 ⊢; tauto, h2, ?_⟩
      intro j hj hjma
      rcases List.mem_cons.1 hj with rfl | hj
      · exact h3 j (by simp) hjma
      · rcases List.mem_cons.1 hj with rfl | hj
        · have h4 := (h3 m0 (by simp) h0)
          push Not at hd
          refine ⟨h4.1.trans hd, ?_⟩
          intro hjmi
          exact (h4.2 (by omega)).trans_le hd
        · exact h3 j (by simp [hj]) hjma

theorem lowest_minBefore (d : List ℝ) (ma m0 : ℕ) (ms : List ℕ) (h : argrelmin d = m0 :: ms) :
    Lowest d ma (minBefore (m0 :: descend d m0 ms) ma) := by
  have hs := sorted_argrelmin d
  rw [h] at hs
  by_cases h0 : m0 < ma
  · left
    obtain ⟨h1, h2, h3⟩ := descend_last d ma m0 ms hs h0
    rw [← h] at h1
    refine ⟨mem_argrelmin.1 h1, h2, ?_⟩
    intro j x y hj hjma hx hy
    have := h3 j (by rw [← h]; exact mem_argrelmin.2 hj) hjma
    simpa only [List.getD_eq_getElem?_getD, hx, hy, Option.getD_some] using this
  · right
    have hno : ∀ j < ma, ¬ LocMin d j := by
      intro j hj hmin
      have := mem_argrelmin.2 hmin
      rw [h] at this
      rcases List.mem_cons.1 this with rfl | hm
      · exact h0 hj
      · have := (List.pairwise_cons.1 hs).1 j hm
        omega
    refine ⟨?_, hno⟩
    have hsub : ∀ (l : List ℕ) (last : ℕ), ∀ x ∈ descend d last l, x ∈ l := by
      intro l
      induction l with
      | nil => intro last x hx; simp [descend] at hx
      | cons y l ih =>
        intro last x hx
        rw [descend] at hx
        split at hx
        · rcases List.mem_cons.1 hx with rfl | hx
          · simp
          · exact List.mem_cons_of_mem _ (ih _ _ hx)
        · exact List.mem_cons_of_mem _ (ih _ _ hx)
    unfold minBefore
    rw [List.filter_eq_nil_iff.2]
    · rfl
    · intro x hx
      have : x ∈ argrelmin d := by
        rw [h]
        rcases List.mem_cons.1 hx with rfl | hx
        · simp
        · exact List.mem_cons_of_mem _ (hsub _ _ _ hx)
      have h3 := hno x
      simp only [decide_eq_true_eq]
      exact fun hlt => h3 hlt (mem_argrelmin.1 this)

theorem lowest_unique {d : List ℝ} {ma a b : ℕ} (ha : Lowest d ma a) (hb : Lowest d ma b) : a = b := by
  rcases ha with ⟨ha, ha1, ha2⟩ | ⟨ha, ha1⟩ <;> rcases hb with ⟨hb, hb1, hb2⟩ | ⟨hb, hb1⟩
  · obtain ⟨_, x, _, _, _, hx, _⟩ := id ha
    obtain ⟨_, y, _, _, _, hy, _⟩ := id hb
    by_contra hne
    rcases Nat.lt_or_gt_of_ne hne with h | h
    · exact absurd ((hb2 a y x ha ha1 hy hx).2 h) (not_lt.2 (ha2 b x y hb hb1 hx hy).1)
    · exact absurd ((ha2 b x y hb hb1 hx hy).2 h) (not_lt.2 (hb2 a y x ha ha1 hy hx).1)
  · exact absurd ha (hb1 a ha1)
  · exact absurd hb (ha1 b hb1)
  · rw [ha, hb]

/-- A sample before a local maximum exists. -/
theorem lowest_get {d : List ℝ} {ma mi : ℕ} (hma : LocMax d ma) (h : Lowest d ma mi) :
    ∃ y, d[mi]? = some y := by
  rcases h with ⟨⟨_, y, _, _, _, hy, _⟩, _⟩ | ⟨h, _⟩
  · exact ⟨y, hy⟩
  · obtain ⟨_, b, _, _, _, hb, _⟩ := hma
    obtain ⟨l, _⟩ := List.getElem?_eq_some_iff.1 hb
    exact ⟨d[0]'(by omega), by rw [h]; simp⟩

theorem cutIndex_spec (d : List ℝ) (m0 : ℕ) (ms : List ℕ) (h : argrelmin d = m0 :: ms) (ratio : ℝ)
    (l : List ℕ) (hl : ∀ ma ∈ l, LocMax d ma) (hs : l.Pairwise (· < ·)) :
    match cutIndex d (m0 :: descend d m0 ms) ratio l with
    | some mi => ∃ ma ∈ l, Exceeds d ratio ma mi ∧ ∀ ma' ∈ l, ma' < ma → ∀ mi', ¬ Exceeds d ratio ma' mi'
    | none => ∀ ma ∈ l, ∀ mi, ¬ Exceeds d ratio ma mi := by
  induction l with
  | nil => simp [cutIndex]
  | cons ma l ih =>
    have hmax := hl ma (by simp)
    have hlow := lowest_minBefore d ma m0 ms h
    obtain ⟨y, hy⟩ := lowest_get hmax hlow
    obtain ⟨_, x, _, _, _, hx, _⟩ := id hmax
    have hex : ∀ mi, Exceeds d ratio ma mi →
        d.getD ma 0 / d.getD (minBefore (m0 :: descend d m0 ms) ma) 0 > ratio := by
      rintro mi ⟨_, hlo, x', y', hx', hy', hr⟩
      rw [lowest_unique hlow hlo]
      simpa only [List.getD_eq_getElem?_getD, hx', hy', Option.getD_some] using hr
    rw [cutIndex]
    by_cases hr : d.getD ma 0 / d.getD (minBefore (m0 :: descend d m0 ms) ma) 0 > ratio
    · rw [if_pos hr]
      refine ⟨ma, by simp, ⟨hmax, hlow, x, y, hx, hy, ?_⟩, ?_⟩
      · simpa only [List.getD_eq_getElem?_getD, hx, hy, Option.getD_some] using hr
      · intro ma' hma' hlt
        rcases List.mem_cons.1 hma' with rfl | hm
        · exact absurd hlt (lt_irrefl _)
        · have := (List.pairwise_cons.1 hs).1 ma' hm
          omega
    · rw [if_neg hr]
      have ih := ih (fun a ha => hl a (by simp [ha])) (List.pairwise_cons.1 hs).2
      cases hc : cutIndex d (m0 :: descend d m0 ms) ratio l with
      | some mi =>
        rw [hc] at ih
        obtain ⟨ma2, h1, h2, h3⟩ := ih
        refine ⟨ma2, by simp [h1], h2, ?_⟩
        intro ma' hma' hlt mi' hX
        rcases List.mem_cons.1 hma' with rfl | hm
        · exact hr (hex mi' hX)
        · exact h3 ma' hm hlt mi' hX
      | none =>
        rw [hc] at ih
        intro ma' hma' mi' hX
        rcases List.mem_cons.1 hma' with rfl | hm
        · exact hr (hex mi' hX)
        · exact ih ma' hm mi' hX

end Tr

/-- **C33**: a returned cut time is the time of the lowest local minimum (or of the start of the
window) before the first local maximum which exceeds `ratio` times this minimum.  `d` is the
(smoothed) envelope. -/
theorem C33_cut_at_lowest_minimum {tr : Trace} {s : Option ℝ} {ratio : ℝ} {w : Window} {t : ℝ}
    (h : localMinimum tr s ratio w = some t) :
    let d := smoothForCut tr s w
    ∃ ma mi, Exceeds d ratio ma mi ∧ t = tr.start + mi / tr.sr ∧
      ∀ ma' < ma, ∀ mi', ¬ Exceeds d ratio ma' mi' := by
  intro d
  unfold localMinimum at h
  change (match argrelmin d, argrelmax d with
    | m0 :: ms, _ :: _ => (cutIndex d (m0 :: descend d m0 ms) ratio (argrelmax d)).map
      (fun mi : ℕ => tr.start + mi / tr.sr)
    | _, _ => none) = some t at h
  cases hmin : argrelmin d with
  | nil => rw [hmin] at h; simp at h
  | cons m0 ms =>
    have hspec := cutIndex_spec d m0 ms hmin ratio (argrelmax d) (fun _ => mem_argrelmax.1)
      (sorted_argrelmax d)
    cases hmax : argrelmax d with
    | nil => rw [hmin, hmax] at h; simp at h
    | cons x xs =>
      rw [hmin, hmax] at h
      rw [hmax] at hspec
      cases hc : cutIndex d (m0 :: descend d m0 ms) ratio (x :: xs) with
      | none => simp [hc] at h
      | some mi =>
        rw [hc] at hspec
        simp only [hc, Option.map_some, Option.some.injEq] at h
        obtain ⟨ma, _, h2, h3⟩ := hspec
        exact ⟨ma, mi, h2, h.symm, fun ma' hlt mi' hx => h3 ma' (hmax ▸ mem_argrelmax.2 hx.1) hlt mi' hx⟩

/-- **C33** (partial): if nothing is returned and the envelope has a local minimum, no local maximum
exceeds `ratio` times the lowest minimum before it.  Missing: envelopes without any local minimum, for
which the claim is false (`C33_counterexample`). -/
theorem C33_no_cut_partial {tr : Trace} {s : Option ℝ} {ratio : ℝ} {w : Window}
    (h : localMinimum tr s ratio w = none)
    (hmin : ∃ i, LocMin (smoothForCut tr s w) i) (ma mi : ℕ) :
    ¬ Exceeds (smoothForCut tr s w) ratio ma mi := by
  intro hx
  unfold localMinimum at h
  simp only at h
  generalize smoothForCut tr s w = d at *
  cases hm : argrelmin d with
  | nil =>
    obtain ⟨i, hi⟩ := hmin
    have := mem_argrelmin.2 hi
    rw [hm] at this
    simp at this
  | cons m0 ms =>
    have hspec := cutIndex_spec d m0 ms hm ratio (argrelmax d) (fun _ => mem_argrelmax.1)
      (sorted_argrelmax d)
    have hmem := mem_argrelmax.2 hx.1
    cases hmax : argrelmax d with
    | nil => rw [hmax] at hmem; simp at hmem
    | cons x xs =>
      rw [hm, hmax] at h
      rw [hmax] at hspec hmem
      cases hc : cutIndex d (m0 :: descend d m0 ms) ratio (x :: xs) with
      | some mi => simp [hc] at h
      | none =>
        rw [hc] at hspec
        exact hspec ma hmem mi hx

/-- **C33** (counterexample to the full claim): an envelope which rises from 1 to 10 and falls again
has no local minimum; nothing is returned although the maximum exceeds 5 times the first sample. -/
theorem C33_counterexample (tr : Trace) (w : Window) (hd : tr.data = [1, 10, 1]) :
    localMinimum tr none 5 w = none ∧ Exceeds (smoothForCut tr none w) 5 1 0 := by
  have e : smoothForCut tr none w = [1, 10, 1] := by simp [smoothForCut, hd]
  have hno : ∀ j, ¬ LocMin [1, 10, 1] j := by
    rintro j ⟨a, b, c, h0, ha, hb, hc, h1, h2⟩
    obtain ⟨l, _⟩ := List.getElem?_eq_some_iff.1 hc
    simp only [List.length_cons, List.length_nil] at l
    obtain rfl : j = 1 := by omega
    simp at ha hb hc
    subst ha hb hc
    norm_num at h1
  constructor
  · unfold localMinimum
    simp only [e]
    have : argrelmin [1, 10, 1] = [] := by
      apply List.eq_nil_iff_forall_not_mem.2
      intro j hj
      exact hno j (mem_argrelmin.1 hj)
    rw [this]
  · rw [e]
    refine ⟨⟨1, 10, 1, by norm_num, by simp, by simp, by simp, by norm_num, by norm_num⟩,
      Or.inr ⟨rfl, fun j _ => hno j⟩, 10, 1, by simp, by simp, by norm_num⟩

/-- The envelope `3, 1, 2, 1, 9, 1`: the cut is at the first minimum. -/
theorem localMinimum_example (tr : Trace) (w : Window) (hd : tr.data = [3, 1, 2, 1, 9, 1])
    (hsr : tr.sr = 1) : localMinimum tr none 5 w = some (tr.start + 1) := by
  have e : smoothForCut tr none w = [3, 1, 2, 1, 9, 1] := by simp [smoothForCut, hd]
  have hcases : ∀ j, LocMin [3, 1, 2, 1, 9, 1] j ↔ j = 1 ∨ j = 3 := by
    intro j
    constructor
    · rintro ⟨a, b, c, h0, ha, hb, hc, h1, h2⟩
      obtain ⟨l, _⟩ := List.getElem?_eq_some_iff.1 hc
      simp only [List.length_cons, List.length_nil] at l
      have : j < 5 := by omega
      interval_cases j <;> simp at ha hb hc ⊢ <;> subst ha hb hc <;> revert h1 h2 <;> norm_num
    · rintro (rfl | rfl)
      · exact ⟨3, 1, 2, by norm_num, by simp, by simp, by simp, by norm_num, by norm_num⟩
      · exact ⟨2, 1, 9, by norm_num, by simp, by simp, by simp, by norm_num, by norm_num⟩
  have hex : Exceeds [3, 1, 2, 1, 9, 1] 5 4 1 := by
    refine ⟨⟨1, 9, 1, by norm_num, by simp, by simp, by simp, by norm_num, by norm_num⟩, Or.inl
      ⟨(hcases 1).2 (Or.inl rfl), by norm_num, ?_⟩, 9, 1, by simp, by simp, by norm_num⟩
    intro j x y hj _ hx hy
    rcases (hcases j).1 hj with rfl | rfl
    · simp at hx hy; subst hx hy; norm_num
    · simp at hx hy; subst hx hy; norm_num
  cases hc : localMinimum tr none 5 w with
  | none =>
    have := C33_no_cut_partial hc (by rw [e]; exact ⟨1, (hcases 1).2 (Or.inl rfl)⟩) 4 1
    rw [e] at this
    exact absurd hex this
  | some t =>
    obtain ⟨ma, mi, h1, h2, h3⟩ := C33_cut_at_lowest_minimum hc
    simp only [e] at h1 h3
    have hle : ma ≤ 4 := by
      by_contra hgt
      exact h3 4 (by omega) 1 hex
    have hma : ma = 4 := by
      obtain ⟨⟨a, b, c, h0, ha, hb, hc, h1, h2⟩, hlow, x, y, hx, hy, hr⟩ := h1
      have hmaxs : ma = 2 ∨ ma = 4 := by
        interval_cases ma <;> simp at ha hb hc <;> subst ha hb hc <;> revert h1 h2 <;> norm_num
      rcases hmaxs with rfl | rfl
      · exfalso
        rcases hlow with ⟨hm, hlt, _⟩ | ⟨_, hno⟩
        · rcases (hcases mi).1 hm with rfl | rfl
          · simp at hx hy; subst hx hy; norm_num at hr
          · omega
        · exact hno 1 (by norm_num) ((hcases 1).2 (Or.inl rfl))
      · rfl
    subst hma
    have : mi = 1 := lowest_unique h1.2.1 hex.2.1
    rw [h2, this, hsr]
    norm_num

end Qopen
