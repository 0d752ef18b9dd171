import Verif.Model.Site
import Verif.Spec.Site

/-!
# Merging of sets
-/

namespace Qopen.Site

open Spec Relation

variable {α : Type} [DecidableEq α]

omit [DecidableEq α] in
theorem connected_symm {sets : List (Finset α)} {x y : α} (h : Connected sets x y) :
    Connected sets y x := by
  have hs : ∀ a b, InCommon sets a b → InCommon sets b a :=
    fun a b ⟨s, hs, ha, hb⟩ => ⟨s, hs, hb, ha⟩
  induction h with
  | refl => exact .refl
  | tail _ h1 ih => exact ReflTransGen.head (hs _ _ h1) ih

omit [DecidableEq α] in
theorem connected_mono {s t : List (Finset α)} (h : ∀ x y, InCommon s x y → Connected t x y) {x y : α}
    (hc : Connected s x y) : Connected t x y := by
  induction hc with
  | refl => exact .refl
  | tail _ h1 ih => exact ih.trans (h _ _ h1)

omit [DecidableEq α] in
theorem connected_of_mem {sets : List (Finset α)} {s : Finset α} {x y : α} (hs : s ∈ sets)
    (hx : x ∈ s) (hy : y ∈ s) : Connected sets x y :=
  .single ⟨s, hs, hx, hy⟩

theorem absorb_connected (acc : List (Finset α)) (a : Finset α) (rest : List (Finset α)) (x y : α) :
    Connected (absorb acc a ++ rest) x y ↔ Connected (acc ++ a :: rest) x y := by
  have key : ∀ pre, Connected (pre ++ absorb acc a ++ rest) x y ↔
      Connected (pre ++ acc ++ a :: rest) x y := by
    induction acc with
    | nil => intro pre; simp [absorb]
    | cons e acc ih =>
      intro pre
      simp only [absorb]
      split
      · have := ih (pre ++ [e])
        simpa using this
      · next hd =>
        rw [Finset.not_disjoint_iff] at hd
        obtain ⟨z, hza, hze⟩ := hd
        constructor
        · apply connected_mono
          rintro u v ⟨s, hs, hu, hv⟩
          simp only [List.append_assoc, List.mem_append, List.mem_cons] at hs
          have ha : a ∈ pre ++ e :: acc ++ a :: rest := by simp
          have he : e ∈ pre ++ e :: acc ++ a :: rest := by simp
          have hz : ∀ w ∈ e ∪ a, Connected (pre ++ e :: acc ++ a :: rest) w z := by
            intro w hw
            rcases Finset.mem_union.1 hw with h | h
            · exact connected_of_mem he h hze
            · exact connected_of_mem ha h hza
          rcases hs with hs | hs
          · exact connected_of_mem (s := s) (by simp [hs]) hu hv
          · rcases hs with (rfl | hs) | hs
            · exact (hz u hu).trans (connected_symm (hz v hv))
            · exact connected_of_mem (s := s) (by simp [hs]) hu hv
            · exact connected_of_mem (s := s) (by simp [hs]) hu hv
        · apply connected_mono
          rintro u v ⟨s, hs, hu, hv⟩
          simp only [List.append_assoc, List.mem_append, List.mem_cons, List.cons_append] at hs
          have hm : e ∪ a ∈ pre ++ (e ∪ a) :: acc ++ rest := by simp
          rcases hs with hs | rfl | hs | rfl | hs
          · exact connected_of_mem (s := s) (by simp [hs]) hu hv
          · exact connected_of_mem hm (Finset.mem_union_left _ hu) (Finset.mem_union_left _ hv)
          · exact connected_of_mem (s := s) (by simp [hs]) hu hv
          · exact connected_of_mem hm (Finset.mem_union_right _ hu) (Finset.mem_union_right _ hv)
          · exact connected_of_mem (s := s) (by simp [hs]) hu hv
  simpa using key []

theorem absorb_mem (acc : List (Finset α)) (a : Finset α) (x : α) :
    (∃ s ∈ absorb acc a, x ∈ s) ↔ (∃ s ∈ acc, x ∈ s) ∨ x ∈ a := by
  induction acc with
  | nil => simp [absorb]
  | cons e acc ih =>
    simp only [absorb]
    split
    · simp only [List.mem_cons, exists_eq_or_imp, ih, or_assoc]
    · simp only [List.mem_cons, exists_eq_or_imp, Finset.mem_union, or_assoc]
      rw [or_comm (a := x ∈ a)]

theorem absorb_nonempty (acc : List (Finset α)) (a : Finset α) (h : ∀ s ∈ acc, s.Nonempty)
    (ha : a.Nonempty) : ∀ s ∈ absorb acc a, s.Nonempty := by
  induction acc with
  | nil => simpa [absorb] using ha
  | cons e acc ih =>
    simp only [absorb]
    split
    · intro s hs
      rcases List.mem_cons.1 hs with rfl | hs
      · exact h _ (by simp)
      · exact ih (fun s hs => h s (by simp [hs])) s hs
    · intro s hs
      rcases List.mem_cons.1 hs with rfl | hs
      · exact (h e (by simp)).mono Finset.subset_union_left
      · exact h s (by simp [hs])

theorem foldl_absorb (sets acc : List (Finset α)) :
    (∀ x y, Connected (sets.foldl absorb acc) x y ↔ Connected (acc ++ sets) x y) ∧
    (∀ x, (∃ s ∈ sets.foldl absorb acc, x ∈ s) ↔ ∃ s ∈ acc ++ sets, x ∈ s) ∧
    ((∀ s ∈ acc ++ sets, s.Nonempty) → ∀ s ∈ sets.foldl absorb acc, s.Nonempty) := by
  induction sets generalizing acc with
  | nil => simp
  | cons a sets ih =>
    obtain ⟨h1, h2, h3⟩ := ih (absorb acc a)
    refine ⟨?_, ?_, ?_⟩
    · intro x y
      rw [List.foldl_cons, h1, absorb_connected]
    · intro x
      rw [List.foldl_cons, h2]
      have := absorb_mem acc a x
      simp only [List.mem_append, List.mem_cons] at this ⊢
      constructor
      · rintro ⟨s, hs | hs, hx⟩
        · rcases this.1 ⟨s, hs, hx⟩ with ⟨t, ht, hxt⟩ | hxa
          · exact ⟨t, Or.inl ht, hxt⟩
          · exact ⟨a, Or.inr (Or.inl rfl), hxa⟩
        · exact ⟨s, Or.inr (Or.inr hs), hx⟩
      · rintro ⟨s, hs | rfl | hs, hx⟩
        · obtain ⟨t, ht, hxt⟩ := this.2 (Or.inl ⟨s, hs, hx⟩)
          exact ⟨t, Or.inl ht, hxt⟩
        · obtain ⟨t, ht, hxt⟩ := this.2 (Or.inr hx)
          exact ⟨t, Or.inl ht, hxt⟩
        · exact ⟨s, Or.inr hs, hx⟩
    · intro hne
      apply h3
      intro s hs
      rcases List.mem_append.1 hs with hs | hs
      · exact absorb_nonempty acc a (fun s hs => hne s (by simp [hs])) (hne a (by simp)) s hs
      · exact hne s (by simp [hs])

/-- A pass that does not reduce the number of sets has merged nothing. -/
theorem foldl_absorb_full (sets acc : List (Finset α))
    (h : (sets.foldl absorb acc).length = acc.length + sets.length)
    (hacc : acc.Pairwise Disjoint) :
    (sets.foldl absorb acc).Pairwise Disjoint := by
  induction sets generalizing acc with
  | nil => simpa using hacc
  | cons a sets ih =>
    simp only [List.foldl_cons, List.length_cons] at h ⊢
    have h1 := foldl_absorb_length sets (absorb acc a)
    rcases absorb_length acc a with h2 | h2
    · omega
    · apply ih _ (by omega)
      -- nothing was absorbed
      have key : ∀ l : List (Finset α), (absorb l a).length = l.length + 1 →
          absorb l a = l ++ [a] ∧ ∀ e ∈ l, Disjoint e a := by
        intro l
        induction l with
        | nil => intro _; simp [absorb]
        | cons e l ihl =>
          simp only [absorb]
          split
          · next hd =>
            intro hl
            simp only [List.length_cons, Nat.add_right_cancel_iff] at hl
            obtain ⟨e1, e2⟩ := ihl hl
            refine ⟨by rw [e1]; rfl, ?_⟩
            intro x hx
            rcases List.mem_cons.1 hx with rfl | hx
            · exact hd.symm
            · exact e2 x hx
          · intro hl; simp at hl
      obtain ⟨e1, e2⟩ := key acc h2
      rw [e1, List.pairwise_append]
      exact ⟨hacc, by simp, by simpa using e2⟩

theorem mergeSets_spec (sets : List (Finset α)) :
    (mergeSets sets).Pairwise Disjoint ∧
    (∀ x y, Connected (mergeSets sets) x y ↔ Connected sets x y) ∧
    (∀ x, (∃ s ∈ mergeSets sets, x ∈ s) ↔ ∃ s ∈ sets, x ∈ s) ∧
    ((∀ s ∈ sets, s.Nonempty) → ∀ s ∈ mergeSets sets, s.Nonempty) := by
  induction hn : sets.length using Nat.strong_induction_on generalizing sets with
  | _ n ih =>
    obtain ⟨h1, h2, h3⟩ := foldl_absorb sets []
    simp only [List.nil_append] at h1 h2 h3
    change ∀ x y, Connected (mergePass sets) x y ↔ _ at h1
    change ∀ x, (∃ s ∈ mergePass sets, x ∈ s) ↔ _ at h2
    change _ → ∀ s ∈ mergePass sets, s.Nonempty at h3
    rw [mergeSets]
    split
    · next hl =>
      refine ⟨?_, h1, h2, h3⟩
      exact foldl_absorb_full sets [] (by simpa [mergePass] using hl) (by simp)
    · next hl =>
      have := mergePass_length sets
      obtain ⟨g0, g1, g2, g3⟩ := ih (mergePass sets).length (by omega) (mergePass sets) rfl
      exact ⟨g0, fun x y => (g1 x y).trans (h1 x y), fun x => (g2 x).trans (h2 x),
        fun hne => g3 (h3 hne)⟩

omit [DecidableEq α] in
theorem connected_disjoint {sets : List (Finset α)} (hd : sets.Pairwise Disjoint) {s : Finset α}
    (hs : s ∈ sets) {x y : α} (hx : x ∈ s) (h : Connected sets x y) : y ∈ s := by
  induction h with
  | refl => exact hx
  | tail _ h1 ih =>
    obtain ⟨t, ht, ha, hb⟩ := h1
    have : s = t := by
      by_contra hne
      have : Disjoint s t := by
        obtain ⟨i, hi, rfl⟩ := List.getElem_of_mem hs
        obtain ⟨j, hj, rfl⟩ := List.getElem_of_mem ht
        rcases lt_trichotomy i j with h | h | h
        · exact List.pairwise_iff_getElem.1 hd i j hi hj h
        · subst h; exact absurd rfl hne
        · exact (List.pairwise_iff_getElem.1 hd j i hj hi h).symm
      exact Finset.disjoint_left.1 this ih ha
    exact this ▸ hb

end Qopen.Site
