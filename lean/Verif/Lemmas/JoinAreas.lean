import Verif.Model.JoinAreas
import Mathlib.Logic.Relation
import Mathlib.Data.Set.Basic
import Mathlib.Algebra.Order.Field.Basic

/-!
# Lemmas for the joining of unconnected areas: the while loop
-/

namespace Qopen.Join

variable {K : Type} [LinearOrder K]

theorem minItem_le {κ : Type} {l : List (κ × K)} {m : κ × K}
    (h : minItem (fun x y => decide (x < y)) l = some m) : ∀ b ∈ l, m.2 ≤ b.2 := by
  cases l with
  | nil => simp [minItem] at h
  | cons a l =>
    simp only [minItem, Option.some.injEq] at h
    subst h
    have : ∀ (l : List (κ × K)) (a : κ × K), ∀ b ∈ a :: l,
        (l.foldl (fun m b => if decide (b.2 < m.2) then b else m) a).2 ≤ b.2 := by
      intro l
      induction l with
      | nil => simp
      | cons c l ih =>
        intro a b hb
        rw [List.foldl_cons]
        by_cases hc : c.2 < a.2
        · simp only [hc, decide_true, if_true]
          simp only [List.mem_cons] at hb
          rcases hb with rfl | rfl | hb
          · exact (ih c c (by simp)).trans hc.le
          · exact ih b b (by simp)
          · exact ih c b (by simp [hb])
        · simp only [hc, decide_false, Bool.false_eq_true, if_false]
          simp only [List.mem_cons] at hb
          rcases hb with rfl | rfl | hb
          · exact ih b b (by simp)
          · exact (ih a a (by simp)).trans (not_lt.1 hc)
          · exact ih a b (by simp [hb])
    exact this l a

theorem minItem_entry {κ : Type} {l : List (κ × Entry K)} {m : κ × Entry K}
    (h : minItem entryLt l = some m) : ∀ b ∈ l, m.2.1 ≤ b.2.1 := by
  cases l with
  | nil => simp [minItem] at h
  | cons a l =>
    simp only [minItem, Option.some.injEq] at h
    subst h
    have : ∀ (l : List (κ × Entry K)) (a : κ × Entry K), ∀ b ∈ a :: l,
        (l.foldl (fun m b => if entryLt b.2 m.2 then b else m) a).2.1 ≤ b.2.1 := by
      intro l
      induction l with
      | nil => simp
      | cons c l ih =>
        intro a b hb
        rw [List.foldl_cons]
        by_cases hc : entryLt c.2 a.2 = true
        · have hca : c.2.1 ≤ a.2.1 := by
            simp only [entryLt, decide_eq_true_eq] at hc
            rcases hc with hc | hc
            · exact hc.le
            · exact hc.1.le
          simp only [hc, if_true]
          simp only [List.mem_cons] at hb
          rcases hb with rfl | rfl | hb
          · exact (ih c c (by simp)).trans hca
          · exact ih b b (by simp)
          · exact ih c b (by simp [hb])
        · have hac : a.2.1 ≤ c.2.1 := by
            simp only [entryLt, decide_eq_true_eq, not_or, not_lt] at hc
            exact hc.1
          simp only [hc, Bool.false_eq_true, if_false]
          simp only [List.mem_cons] at hb
          rcases hb with rfl | rfl | hb
          · exact ih b b (by simp)
          · exact (ih a a (by simp)).trans hac
          · exact ih a b (by simp [hb])
    exact this l a

theorem minItem_none {κ α : Type} {lt : α → α → Bool} {l : List (κ × α)} :
    minItem lt l = none ↔ l = [] := by
  cases l <;> simp [minItem]

/-- The distances after two areas are joined. -/
theorem mergeDist_spec {a1 a2 : String} (ha : a1 ≠ a2) {l : List String} (hl : l.Nodup) :
    ∀ {d : Dict (Sym2 String) (Entry K)}, Dict.WF d →
      (∀ c ∈ l, c ≠ a1 → c ≠ a2 →
        (∃ e, Dict.get? d s(a1, c) = some e) ∧ ∃ e, Dict.get? d s(a2, c) = some e) →
      ∃ d', mergeDist a1 a2 d l = .ok d' ∧ Dict.WF d' ∧
        (∀ c ∈ l, c ≠ a1 → c ≠ a2 → Dict.get? d' s(a2, c) = none) ∧
        (∀ c ∈ l, c ≠ a1 → c ≠ a2 → ∀ e1 e2, Dict.get? d s(a1, c) = some e1 →
          Dict.get? d s(a2, c) = some e2 →
          Dict.get? d' s(a1, c) = some (if e2.1 < e1.1 then e2 else e1)) ∧
        ∀ p, (∀ c ∈ l, c ≠ a1 → c ≠ a2 → p ≠ s(a1, c) ∧ p ≠ s(a2, c)) →
          Dict.get? d' p = Dict.get? d p := by
  induction l with
  | nil => intro d hd _; exact ⟨d, rfl, hd, by simp, by simp, fun p _ => rfl⟩
  | cons c l ih =>
    intro d hd h
    obtain ⟨hcl, hl⟩ := List.nodup_cons.1 hl
    by_cases hc : c = a1 ∨ c = a2
    · obtain ⟨d', h1, h2, h3, h4, h5⟩ := ih hl hd (fun x hx => h x (by simp [hx]))
      refine ⟨d', by rw [mergeDist, if_pos hc]; exact h1, h2, ?_, ?_, ?_⟩
      · intro x hx n1 n2
        rcases List.mem_cons.1 hx with rfl | hx
        · rcases hc with hc | hc
          · exact absurd hc n1
          · exact absurd hc n2
        · exact h3 x hx n1 n2
      · intro x hx n1 n2
        rcases List.mem_cons.1 hx with rfl | hx
        · rcases hc with hc | hc
          · exact absurd hc n1
          · exact absurd hc n2
        · exact h4 x hx n1 n2
      · intro p hp
        exact h5 p (fun x hx => hp x (by simp [hx]))
    · rw [not_or] at hc
      obtain ⟨⟨e1, he1⟩, e2, he2⟩ := h c (by simp) hc.1 hc.2
      have hne : s(a2, c) ≠ s(a1, c) := by
        intro e
        rcases Sym2.eq_iff.1 e with ⟨e, -⟩ | ⟨e, e'⟩
        · exact ha e.symm
        · exact hc.1 e'
      generalize hD : (if e2.1 < e1.1 then Dict.set (Dict.pop d s(a2, c)) s(a1, c) e2
        else Dict.pop d s(a2, c)) = D
      have hwp := Dict.WF_pop hd s(a2, c)
      have hDw : Dict.WF D := by
        rw [← hD]; split
        · exact Dict.WF_set hwp _ _
        · exact hwp
      have hg1 : Dict.get? D s(a1, c) = some (if e2.1 < e1.1 then e2 else e1) := by
        rw [← hD]; split
        · rw [Dict.get?_set_self]
        · rw [Dict.get?_pop_ne _ hne, he1]
      have hg2 : Dict.get? D s(a2, c) = none := by
        rw [← hD]; split
        · rw [Dict.get?_set_ne _ _ hne.symm, Dict.get?_pop_self hd]
        · exact Dict.get?_pop_self hd _
      have hg3 : ∀ p, p ≠ s(a1, c) → p ≠ s(a2, c) → Dict.get? D p = Dict.get? d p := by
        intro p p1 p2
        rw [← hD]; split
        · rw [Dict.get?_set_ne _ _ p1.symm, Dict.get?_pop_ne _ p2.symm]
        · rw [Dict.get?_pop_ne _ p2.symm]
      have hx : ∀ x ∈ l, x ≠ a1 → x ≠ a2 → s(a1, x) ≠ s(a1, c) ∧ s(a1, x) ≠ s(a2, c) ∧
          s(a2, x) ≠ s(a1, c) ∧ s(a2, x) ≠ s(a2, c) := by
        intro x hx n1 n2
        have hxc : x ≠ c := by rintro rfl; exact hcl hx
        refine ⟨?_, ?_, ?_, ?_⟩ <;> intro e <;> rcases Sym2.eq_iff.1 e with ⟨e, e'⟩ | ⟨e, e'⟩
        · exact hxc e'
        · exact n1 e'
        · exact ha e
        · exact n2 e'
        · exact ha e.symm
        · exact n1 e'
        · exact hxc e'
        · exact n2 e'
      obtain ⟨d', h1, h2, h3, h4, h5⟩ := ih hl hDw (by
        intro x hxl n1 n2
        obtain ⟨x1, x2, x3, x4⟩ := hx x hxl n1 n2
        rw [hg3 _ x1 x2, hg3 _ x3 x4]
        exact h x (by simp [hxl]) n1 n2)
      have hc1 : ∀ x ∈ l, x ≠ a1 → x ≠ a2 → s(a1, c) ≠ s(a1, x) ∧ s(a1, c) ≠ s(a2, x) :=
        fun x hxl n1 n2 => ⟨(hx x hxl n1 n2).1.symm, (hx x hxl n1 n2).2.2.1.symm⟩
      have hc2 : ∀ x ∈ l, x ≠ a1 → x ≠ a2 → s(a2, c) ≠ s(a1, x) ∧ s(a2, c) ≠ s(a2, x) :=
        fun x hxl n1 n2 => ⟨(hx x hxl n1 n2).2.1.symm, (hx x hxl n1 n2).2.2.2.symm⟩
      refine ⟨d', ?_, h2, ?_, ?_, ?_⟩
      · rw [mergeDist, if_neg (by simp [hc.1, hc.2])]
        simp only [lookup_ok.2 he1, lookup_ok.2 he2, bind, Except.bind, hD]
        exact h1
      · intro x hxl n1 n2
        rcases List.mem_cons.1 hxl with rfl | hxl
        · rw [h5 _ hc2, hg2]
        · exact h3 x hxl n1 n2
      · intro x hxl n1 n2 f1 f2 hf1 hf2
        rcases List.mem_cons.1 hxl with rfl | hxl
        · rw [h5 _ hc1, hg1]
          rw [he1] at hf1; rw [he2] at hf2
          rw [Option.some.inj hf1, Option.some.inj hf2]
        · obtain ⟨x1, x2, x3, x4⟩ := hx x hxl n1 n2
          exact h4 x hxl n1 n2 f1 f2 (by rw [hg3 _ x1 x2, hf1]) (by rw [hg3 _ x3 x4, hf2])
      · intro p hp
        rw [h5 p (fun x hx => hp x (by simp [hx]))]
        obtain ⟨p1, p2⟩ := hp c (by simp) hc.1 hc.2
        exact hg3 p p1 p2

/-- Two areas are linked according to the distances at the start. -/
def Linked (init : Dict (Sym2 String) (Entry K)) (maxDistance : K) (a b : String) : Prop :=
  ∃ e, Dict.get? init s(a, b) = some e ∧ e.1 ≤ maxDistance

theorem Linked.symm {init : Dict (Sym2 String) (Entry K)} {m : K} {a b : String}
    (h : Linked init m a b) : Linked init m b a := by
  obtain ⟨e, he, h⟩ := h
  exact ⟨e, by rw [Sym2.eq_swap]; exact he, h⟩

theorem Linked.rtg_symm {init : Dict (Sym2 String) (Entry K)} {m : K} {a b : String}
    (h : Relation.ReflTransGen (Linked init m) a b) :
    Relation.ReflTransGen (Linked init m) b a := by
  induction h with
  | refl => exact .refl
  | tail _ h ih => exact .head h.symm ih

/-- What holds before each pass of the while loop; `M n` are the areas at the start which are part of
the area with name `n`. -/
structure Inv (A : Dict String (Finset String)) (init : Dict (Sym2 String) (Entry K))
    (maxDistance : K) (st : St K) (M : String → Set String) : Prop where
  wf : Dict.WF st.areas
  hwf : Dict.WF st.hulls
  hkeys : ∀ n, n ∈ Dict.keys st.hulls ↔ n ∈ Dict.keys st.areas
  self : ∀ n ∈ Dict.keys st.areas, n ∈ M n
  sub : ∀ n ∈ Dict.keys st.areas, ∀ a ∈ M n, a ∈ Dict.keys A
  cover : ∀ a ∈ Dict.keys A, ∃ n ∈ Dict.keys st.areas, a ∈ M n
  disj : ∀ n ∈ Dict.keys st.areas, ∀ n' ∈ Dict.keys st.areas, ∀ a, a ∈ M n → a ∈ M n' → n = n'
  conn : ∀ n ∈ Dict.keys st.areas, ∀ a ∈ M n, Relation.ReflTransGen (Linked init maxDistance) n a
  sets : ∀ n X, Dict.get? st.areas n = some X →
    ∀ s, s ∈ X ↔ ∃ a ∈ M n, ∃ Y, Dict.get? A a = some Y ∧ s ∈ Y
  dwf : Dict.WF st.distance
  dist : ∀ p e, Dict.get? st.distance p = some e → ∃ n ∈ Dict.keys st.areas,
    ∃ n' ∈ Dict.keys st.areas, n ≠ n' ∧ p = s(n, n') ∧
      (∃ a ∈ M n, ∃ b ∈ M n', Dict.get? init s(a, b) = some e) ∧
      ∀ a ∈ M n, ∀ b ∈ M n', ∀ e', Dict.get? init s(a, b) = some e' → e.1 ≤ e'.1
  all : ∀ n ∈ Dict.keys st.areas, ∀ n' ∈ Dict.keys st.areas, n ≠ n' →
    ∃ e, Dict.get? st.distance s(n, n') = some e
  near : ∀ s s', Dict.get? st.near s = some s' → ∃ a b e, Dict.get? init s(a, b) = some e ∧
    e.1 ≤ maxDistance ∧ (e.2 = (s, s') ∨ e.2 = (s', s))

variable {A : Dict String (Finset String)} {init : Dict (Sym2 String) (Entry K)} {geo : Geo K}
  {maxDistance : K} {st st' : St K} {M : String → Set String}

/-- An entry of the distances, read in the given direction. -/
theorem Inv.dist_at (h : Inv A init maxDistance st M) {n n' : String} {e : Entry K}
    (he : Dict.get? st.distance s(n, n') = some e) :
    n ∈ Dict.keys st.areas ∧ n' ∈ Dict.keys st.areas ∧ n ≠ n' ∧
      (∃ a ∈ M n, ∃ b ∈ M n', Dict.get? init s(a, b) = some e) ∧
      ∀ a ∈ M n, ∀ b ∈ M n', ∀ e', Dict.get? init s(a, b) = some e' → e.1 ≤ e'.1 := by
  obtain ⟨m, hm, m', hm', hne, hp, ⟨a, ha, b, hb, hab⟩, hmin⟩ := h.dist _ _ he
  rcases Sym2.eq_iff.1 hp with ⟨rfl, rfl⟩ | ⟨rfl, rfl⟩
  · exact ⟨hm, hm', hne, ⟨a, ha, b, hb, hab⟩, hmin⟩
  · refine ⟨hm', hm, hne.symm, ⟨b, hb, a, ha, by rw [Sym2.eq_swap]; exact hab⟩, ?_⟩
    intro a ha b hb e' he'
    exact hmin b hb a ha e' (by rw [Sym2.eq_swap]; exact he')

theorem absorbKey_spec {d : Dict String (Finset String)} {a1 a2 : String} (ha : a1 ≠ a2)
    (hd : Dict.WF d) (h1 : a1 ∈ Dict.keys d) (h2 : a2 ∈ Dict.keys d) :
    ∃ d', absorbKey d a1 a2 = .ok d' ∧ Dict.WF d' ∧
      (∀ n, n ∈ Dict.keys d' ↔ n ∈ Dict.keys d ∧ n ≠ a2) ∧
      (∀ X Y, Dict.get? d a1 = some X → Dict.get? d a2 = some Y →
        Dict.get? d' a1 = some (X ∪ Y)) ∧
      ∀ n, n ≠ a1 → n ≠ a2 → Dict.get? d' n = Dict.get? d n := by
  obtain ⟨x, hx⟩ := Option.isSome_iff_exists.1 ((Dict.get?_isSome _ _).2 h1)
  obtain ⟨y, hy⟩ := Option.isSome_iff_exists.1 ((Dict.get?_isSome _ _).2 h2)
  have hg : ∀ n, Dict.get? (Dict.set (Dict.pop d a2) a1 (x ∪ y)) n
      = if n = a2 then none else if n = a1 then some (x ∪ y) else Dict.get? d n := by
    intro n
    by_cases n2 : n = a2
    · subst n2
      rw [if_pos rfl, Dict.get?_set_ne _ _ ha, Dict.get?_pop_self hd]
    · rw [if_neg n2]
      by_cases n1 : n = a1
      · subst n1; rw [if_pos rfl, Dict.get?_set_self]
      · rw [if_neg n1, Dict.get?_set_ne _ _ (Ne.symm n1), Dict.get?_pop_ne _ (Ne.symm n2)]
  refine ⟨Dict.set (Dict.pop d a2) a1 (x ∪ y), ?_, Dict.WF_set (Dict.WF_pop hd _) _ _, ?_, ?_, ?_⟩
  · simp only [absorbKey, lookup_ok.2 hx, lookup_ok.2 hy, bind, Except.bind]
  · intro n
    rw [← Dict.get?_isSome, ← Dict.get?_isSome, hg]
    by_cases n2 : n = a2
    · simp [n2]
    · rw [if_neg n2]
      by_cases n1 : n = a1
      · subst n1; simp [hx, n2]
      · simp [n1, n2]
  · intro X Y hX hY
    rw [hX] at hx; rw [hY] at hy
    rw [hg, if_neg ha, if_pos rfl, Option.some.inj hx, Option.some.inj hy]
  · intro n n1 n2
    rw [hg, if_neg n2, if_neg n1]

/-- One pass of the loop: it does not fail, it ends if all areas are too far away, otherwise it joins
two areas. -/
theorem Inv.step (hpair : ∀ p, s((geo.pair p).1, (geo.pair p).2) = p)
    (h : Inv A init maxDistance st M) :
    (joinStep geo maxDistance st = .ok none ∧
      ∀ p e, Dict.get? st.distance p = some e → maxDistance < e.1) ∨
    ∃ st' M', joinStep geo maxDistance st = .ok (some st') ∧ Inv A init maxDistance st' M' := by
  unfold joinStep
  cases hm : minItem entryLt st.distance with
  | none =>
    left
    refine ⟨rfl, fun p e he => ?_⟩
    rw [minItem_none.1 hm] at he
    simp at he
  | some pe =>
    obtain ⟨p, e⟩ := pe
    have hmem := minItem_mem hm
    have hmin := minItem_entry hm
    by_cases hlt : maxDistance < e.1
    · left
      refine ⟨by simp [hlt], fun q f hf => ?_⟩
      exact hlt.trans_le (hmin _ (Dict.mem_of_get? hf))
    right
    simp only [if_neg hlt]
    rw [not_lt] at hlt
    obtain ⟨a1, a2, hp12⟩ : ∃ a1 a2, geo.pair p = (a1, a2) := ⟨_, _, rfl⟩
    rw [hp12]
    simp only
    have hp : s(a1, a2) = p := by rw [← hpair p, hp12]
    subst hp
    have he := Dict.get?_of_mem h.dwf hmem
    obtain ⟨k1, k2, hne, ⟨x1, hx1, x2, hx2, hx⟩, hmin12⟩ := h.dist_at he
    obtain ⟨ar, har, harw, hark, har1, har2⟩ := absorbKey_spec hne h.wf k1 k2
    obtain ⟨hu, hhu, hhuw, hhuk, -, -⟩ := absorbKey_spec hne h.hwf
      ((h.hkeys _).2 k1) ((h.hkeys _).2 k2)
    have hk' : ∀ c ∈ Dict.keys ar, c ≠ a1 → c ≠ a2 →
        (∃ e, Dict.get? (Dict.pop st.distance s(a1, a2)) s(a1, c) = some e) ∧
        ∃ e, Dict.get? (Dict.pop st.distance s(a1, a2)) s(a2, c) = some e := by
      intro c hc c1 c2
      have hc' := ((hark c).1 hc).1
      rw [Dict.get?_pop_ne, Dict.get?_pop_ne]
      · exact ⟨h.all _ k1 _ hc' (Ne.symm c1), h.all _ k2 _ hc' (Ne.symm c2)⟩
      · intro e
        rcases Sym2.eq_iff.1 e with ⟨e, -⟩ | ⟨e, -⟩
        · exact hne e
        · exact c1 e.symm
      · intro e
        rcases Sym2.eq_iff.1 e with ⟨-, e⟩ | ⟨e, -⟩
        · exact c2 e.symm
        · exact c1 e.symm
    obtain ⟨di, hdi, hdiw, hd2, hd1, hd0⟩ := mergeDist_spec hne harw
      (Dict.WF_pop h.dwf s(a1, a2)) hk'
    have hpop : ∀ n n', (n ≠ a1 ∨ n' ≠ a2) → (n ≠ a2 ∨ n' ≠ a1) →
        Dict.get? (Dict.pop st.distance s(a1, a2)) s(n, n') = Dict.get? st.distance s(n, n') := by
      intro n n' q1 q2
      apply Dict.get?_pop_ne
      intro e
      rcases Sym2.eq_iff.1 e with ⟨e, e'⟩ | ⟨e, e'⟩
      · exact q1.elim (fun q => q e.symm) (fun q => q e'.symm)
      · exact q2.elim (fun q => q e'.symm) (fun q => q e.symm)
    classical
    refine ⟨⟨ar, hu, di, Dict.set (Dict.set st.near e.2.1 e.2.2) e.2.2 e.2.1⟩, fun n => if n = a1 then M a1 ∪ M a2 else M n, by
      simp only [har, hhu, hdi, bind, Except.bind], ?_⟩
    have hM1 : ∀ n, M n ⊆ (if n = a1 then M a1 ∪ M a2 else M n) := by
      intro n; split
      · next e => subst e; exact Set.subset_union_left
      · exact subset_rfl
    refine
      { wf := harw, hwf := hhuw, hkeys := ?_, self := ?_, sub := ?_, cover := ?_, disj := ?_,
        conn := ?_, sets := ?_, dwf := hdiw, dist := ?_, all := ?_, near := ?_ }
    · intro n
      show n ∈ Dict.keys hu ↔ n ∈ Dict.keys ar
      rw [hhuk, hark, h.hkeys]
    · intro n hn
      exact hM1 n (h.self n ((hark n).1 hn).1)
    · intro n hn a ha
      have hn' := ((hark n).1 hn).1
      split at ha
      · rcases ha with ha | ha
        · exact h.sub _ k1 a ha
        · exact h.sub _ k2 a ha
      · exact h.sub n hn' a ha
    · intro a ha
      obtain ⟨n, hn, han⟩ := h.cover a ha
      by_cases hn2 : n = a2
      · subst hn2
        exact ⟨a1, (hark _).2 ⟨k1, hne⟩, by simp [han]⟩
      · exact ⟨n, (hark _).2 ⟨hn, hn2⟩, hM1 n han⟩
    · intro n hn n' hn' a ha ha'
      obtain ⟨hn, hn2⟩ := (hark n).1 hn
      obtain ⟨hn', hn2'⟩ := (hark n').1 hn'
      have : ∀ m, m ∈ Dict.keys st.areas → m ≠ a2 → ∀ a,
          a ∈ (if m = a1 then M a1 ∪ M a2 else M m) → a ∈ M m ∨ m = a1 ∧ a ∈ M a2 := by
        intro m _ _ a ha
        split at ha
        · next e => subst e; exact ha.imp id (fun h => ⟨rfl, h⟩)
        · exact .inl ha
      rcases this n hn hn2 a ha with q | ⟨q1, q2⟩ <;> rcases this n' hn' hn2' a ha' with r | ⟨r1, r2⟩
      · exact h.disj n hn n' hn' a q r
      · exact absurd (h.disj n hn a2 k2 a q r2) hn2
      · exact absurd (h.disj n' hn' a2 k2 a r q2) hn2'
      · rw [q1, r1]
    · intro n hn a ha
      obtain ⟨hn, hn2⟩ := (hark n).1 hn
      split at ha
      · next hn1 =>
        subst hn1
        rcases ha with ha | ha
        · exact h.conn _ hn a ha
        · have c1 := h.conn _ k1 x1 hx1
          have c2 := h.conn _ k2 x2 hx2
          have c3 := h.conn _ k2 a ha
          exact (c1.tail ⟨e, hx, hlt⟩).trans ((Linked.rtg_symm c2).trans c3)
      · exact h.conn n hn a ha
    · intro n X hX s
      have hn := (Dict.get?_isSome ar n).1 (by rw [hX]; rfl)
      obtain ⟨hn, hn2⟩ := (hark n).1 hn
      by_cases hn1 : n = a1
      · subst hn1
        obtain ⟨X1, hX1⟩ := Option.isSome_iff_exists.1 ((Dict.get?_isSome _ _).2 k1)
        obtain ⟨X2, hX2⟩ := Option.isSome_iff_exists.1 ((Dict.get?_isSome _ _).2 k2)
        have := har1 X1 X2 hX1 hX2
        rw [show Dict.get? ar n = some X from hX] at this
        obtain rfl := Option.some.inj this
        rw [Finset.mem_union, h.sets _ _ hX1, h.sets _ _ hX2]
        simp only [if_true]
        constructor
        · rintro (⟨a, ha, r⟩ | ⟨a, ha, r⟩)
          · exact ⟨a, .inl ha, r⟩
          · exact ⟨a, .inr ha, r⟩
        · rintro ⟨a, ha | ha, r⟩
          · exact .inl ⟨a, ha, r⟩
          · exact .inr ⟨a, ha, r⟩
      · rw [har2 n hn1 hn2] at hX
        simp only [if_neg hn1]
        exact h.sets n X hX s
    · intro q f hf
      by_cases q2 : ∃ c ∈ Dict.keys ar, c ≠ a1 ∧ c ≠ a2 ∧ q = s(a2, c)
      · obtain ⟨c, hc, c1, c2, rfl⟩ := q2
        rw [show Dict.get? di s(a2, c) = none from hd2 c hc c1 c2] at hf
        simp at hf
      by_cases q1 : ∃ c ∈ Dict.keys ar, c ≠ a1 ∧ c ≠ a2 ∧ q = s(a1, c)
      · obtain ⟨c, hc, c1, c2, rfl⟩ := q1
        have hc' := ((hark c).1 hc).1
        obtain ⟨e1, he1⟩ := h.all _ k1 _ hc' (Ne.symm c1)
        obtain ⟨e2, he2⟩ := h.all _ k2 _ hc' (Ne.symm c2)
        have hf' := hd1 c hc c1 c2 e1 e2
          (by rw [hpop _ _ (.inr c2) (.inl hne)]; exact he1)
          (by rw [hpop _ _ (.inl (Ne.symm hne)) (.inr c1)]; exact he2)
        rw [show Dict.get? di s(a1, c) = some f from hf] at hf'
        obtain ⟨-, -, -, ⟨u1, hu1, v1, hv1, g1⟩, m1⟩ := h.dist_at he1
        obtain ⟨-, -, -, ⟨u2, hu2, v2, hv2, g2⟩, m2⟩ := h.dist_at he2
        refine ⟨a1, (hark _).2 ⟨k1, hne⟩, c, hc, Ne.symm c1, rfl, ?_, ?_⟩
        · simp only [if_true, if_neg c1]
          by_cases hlt2 : e2.1 < e1.1
          · rw [if_pos hlt2] at hf'
            rw [Option.some.inj hf']
            exact ⟨u2, .inr hu2, v2, hv2, g2⟩
          · rw [if_neg hlt2] at hf'
            rw [Option.some.inj hf']
            exact ⟨u1, .inl hu1, v1, hv1, g1⟩
        · simp only [if_true, if_neg c1]
          intro a ha b hb e' he'
          by_cases hlt2 : e2.1 < e1.1
          · rw [if_pos hlt2] at hf'
            rw [Option.some.inj hf']
            rcases ha with ha | ha
            · exact hlt2.le.trans (m1 a ha b hb e' he')
            · exact m2 a ha b hb e' he'
          · rw [if_neg hlt2] at hf'
            rw [Option.some.inj hf']
            rcases ha with ha | ha
            · exact m1 a ha b hb e' he'
            · exact (not_lt.1 hlt2).trans (m2 a ha b hb e' he')
      have hf0 := hd0 q (fun c hc c1 c2 =>
        ⟨fun e => q1 ⟨c, hc, c1, c2, e⟩, fun e => q2 ⟨c, hc, c1, c2, e⟩⟩)
      rw [show Dict.get? di q = some f from hf] at hf0
      have hq : q ≠ s(a1, a2) := by
        rintro rfl
        rw [Dict.get?_pop_self h.dwf] at hf0
        simp at hf0
      rw [Dict.get?_pop_ne _ (Ne.symm hq)] at hf0
      obtain ⟨n, hn, n', hn', hnn, rfl, hex, hall⟩ := h.dist q f hf0.symm
      have key : ∀ n n', n ∈ Dict.keys st.areas → n' ∈ Dict.keys st.areas → n ≠ n' →
          s(n, n') ≠ s(a1, a2) →
          (¬ ∃ c ∈ Dict.keys ar, c ≠ a1 ∧ c ≠ a2 ∧ s(n, n') = s(a2, c)) →
          (¬ ∃ c ∈ Dict.keys ar, c ≠ a1 ∧ c ≠ a2 ∧ s(n, n') = s(a1, c)) → n ≠ a1 ∧ n ≠ a2 := by
        intro n n' hn hn' hnn hq q2 q1
        constructor
        · rintro rfl
          by_cases hn2 : n' = a2
          · subst hn2; exact hq rfl
          · exact q1 ⟨n', (hark _).2 ⟨hn', hn2⟩, Ne.symm hnn, hn2, rfl⟩
        · rintro rfl
          by_cases hn1 : n' = a1
          · subst hn1; exact hq Sym2.eq_swap
          · exact q2 ⟨n', (hark _).2 ⟨hn', Ne.symm hnn⟩, hn1, Ne.symm hnn, rfl⟩
      obtain ⟨n1, n2⟩ := key n n' hn hn' hnn hq q2 q1
      obtain ⟨n1', n2'⟩ := key n' n hn' hn hnn.symm (by rw [Sym2.eq_swap]; exact hq)
        (by rw [Sym2.eq_swap]; exact q2) (by rw [Sym2.eq_swap]; exact q1)
      refine ⟨n, (hark _).2 ⟨hn, n2⟩, n', (hark _).2 ⟨hn', n2'⟩, hnn, rfl, ?_⟩
      simp only [if_neg n1, if_neg n1']
      exact ⟨hex, hall⟩
    · intro n hn n' hn' hnn
      show ∃ e, Dict.get? di s(n, n') = some e
      obtain ⟨hno, hn2⟩ := (hark n).1 hn
      obtain ⟨hno', hn2'⟩ := (hark n').1 hn'
      have q1 : ∀ c ∈ Dict.keys ar, c ≠ a1 → c ≠ a2 → ∃ e, Dict.get? di s(a1, c) = some e := by
        intro c hc c1 c2
        obtain ⟨⟨e1, he1⟩, e2, he2⟩ := hk' c hc c1 c2
        exact ⟨_, hd1 c hc c1 c2 e1 e2 he1 he2⟩
      by_cases hn1 : n = a1
      · subst hn1; exact q1 n' hn' hnn.symm hn2'
      by_cases hn1' : n' = a1
      · subst hn1'
        rw [Sym2.eq_swap]; exact q1 n hn hnn hn2
      rw [hd0, hpop _ _ (.inl hn1) (.inl hn2)]
      · exact h.all n hno n' hno' hnn
      · intro c hc c1 c2
        constructor <;> intro e <;> rcases Sym2.eq_iff.1 e with ⟨e, e'⟩ | ⟨e, e'⟩
        · exact hn1 e
        · exact hn1' e'
        · exact hn2 e
        · exact hn2' e'
    · intro s s' hs
      replace hs : Dict.get? (Dict.set (Dict.set st.near e.2.1 e.2.2) e.2.2 e.2.1) s = some s' := hs
      rw [Dict.get?_set, Dict.get?_set] at hs
      split at hs
      · next g =>
        exact ⟨x1, x2, e, hx, hlt, .inr (by rw [← g, ← Option.some.inj hs])⟩
      · split at hs
        · next g =>
          exact ⟨x1, x2, e, hx, hlt, .inl (by rw [← g, ← Option.some.inj hs])⟩
        · exact h.near s s' hs

/-- The whole loop. -/
theorem Inv.loop (hpair : ∀ p, s((geo.pair p).1, (geo.pair p).2) = p) :
    ∀ {st : St K} {M : String → Set String}, Inv A init maxDistance st M →
    ∃ st' M', joinLoop geo maxDistance st = .ok st' ∧ Inv A init maxDistance st' M' ∧
      ∀ p e, Dict.get? st'.distance p = some e → maxDistance < e.1 := by
  intro st
  induction hn : st.distance.length using Nat.strong_induction_on generalizing st with
  | _ n ih =>
    intro M h
    rcases h.step hpair with ⟨h1, h2⟩ | ⟨st', M', h1, h2⟩
    · refine ⟨st, M, ?_, h, h2⟩
      rw [joinLoop]
      split
      · next e he => rw [h1] at he; cases he
      · rfl
      · next s he => rw [h1] at he; cases he
    · obtain ⟨st'', M'', h3, h4⟩ := ih _ (hn ▸ joinStep_length h1) rfl h2
      refine ⟨st'', M'', ?_, h4⟩
      rw [joinLoop]
      split
      · next e he => rw [h1] at he; cases he
      · next he => rw [h1] at he; cases he
      · next s he =>
        rw [h1] at he
        simp only [Except.ok.injEq, Option.some.injEq] at he
        rw [← he]; exact h3

end Qopen.Join
