import Verif.Model.Collect
import Mathlib.Data.List.Sort

/-!
# Sorting of dictionaries and collection of results (C40, C39)
-/

namespace Qopen

open Collect

/-! ## C40 -/

/-- **C40**: `sort_dict` succeeds if and only if all keys are known; otherwise `ValueError`. -/
theorem C40_sort_dict_unknown_key {α : Type} (d : Dict String α) (order : List String) :
    ((∃ d', sortDict d order = .ok d') ↔ ∀ k ∈ d.keys, k ∈ order) ∧
    (∀ e, sortDict d order = .error e → e = .valueError) := by
  unfold sortDict
  constructor
  · by_cases h : d.all (fun kv => decide (kv.1 ∈ order)) = true
    · rw [if_pos h]
      simp only [Except.ok.injEq, exists_eq', true_iff]
      intro k hk
      obtain ⟨p, hp, rfl⟩ := List.mem_map.1 hk
      simpa using List.all_eq_true.1 h p hp
    · rw [if_neg h]
      simp only [reduceCtorEq, exists_false, false_iff]
      intro hall
      apply h
      rw [List.all_eq_true]
      intro p hp
      simpa using hall p.1 (List.mem_map.2 ⟨p, hp, rfl⟩)
  · intro e he
    split at he
    · simp at he
    · simpa using he.symm

/-- **C40**: The result has the same items, in the order of the list of keys. -/
theorem C40_sort_dict_lossless {α : Type} {d d' : Dict String α} {order : List String}
    (h : sortDict d order = .ok d') :
    d'.Perm d ∧ d'.keys.Pairwise (fun a b => order.idxOf a ≤ order.idxOf b) ∧
    (d.WF → ∀ k, d'.get? k = d.get? k) := by
  unfold sortDict at h
  split at h
  · simp only [Except.ok.injEq] at h
    subst h
    have hp := List.mergeSort_perm d (fun a b => decide (order.idxOf a.1 ≤ order.idxOf b.1))
    refine ⟨hp, ?_, ?_⟩
    · unfold Dict.keys
      rw [List.pairwise_map]
      refine (List.pairwise_mergeSort (le := fun a b : String × α =>
        decide (order.idxOf a.1 ≤ order.idxOf b.1)) ?_ ?_ d).imp ?_
      · intro a b c; simp only [decide_eq_true_eq]; exact le_trans
      · intro a b; simp only [Bool.or_eq_true, decide_eq_true_eq]; exact le_total _ _
      · intro a b; simp
    · intro hw k
      set d' := d.mergeSort (fun a b => decide (order.idxOf a.1 ≤ order.idxOf b.1)) with hd'
      have hw' : Dict.WF d' := (hp.map Prod.fst).nodup_iff.2 hw
      cases hk : Dict.get? d k with
      | none =>
        rw [Dict.get?_eq_none] at hk ⊢
        exact fun hm => hk ((hp.map Prod.fst).mem_iff.1 hm)
      | some v =>
        exact Dict.get?_of_mem hw' (hp.mem_iff.2 (Dict.mem_of_get? hk))
  · simp at h

/-- **C40**: Sorting a sorted dictionary changes nothing. -/
theorem C40_sort_dict_idempotent {α : Type} {d d' : Dict String α} {order : List String}
    (h : sortDict d order = .ok d') : sortDict d' order = .ok d' := by
  obtain ⟨hp, hs, _⟩ := C40_sort_dict_lossless h
  have hall := (C40_sort_dict_unknown_key d order).1.1 ⟨d', h⟩
  unfold sortDict
  rw [if_pos, List.mergeSort_of_pairwise]
  · unfold Dict.keys at hs
    rw [List.pairwise_map] at hs
    exact hs.imp (by intro a b; simp)
  · rw [List.all_eq_true]
    intro p hpm
    simpa using hall p.1 (List.mem_map.2 ⟨p, hp.mem_iff.1 hpm, rfl⟩)

example : sortDict [("R", 1), ("g0", 2), ("M0", 3)] = .ok [("M0", 3), ("g0", 2), ("R", 1)] := by
  have h : ∃ d', sortDict [("R", 1), ("g0", 2), ("M0", 3)] = .ok d' :=
    (C40_sort_dict_unknown_key _ _).1.2 (by decide)
  obtain ⟨d', h⟩ := h
  rw [h]
  unfold sortDict at h
  rw [if_pos (by decide)] at h
  rw [← h]
  simp [List.mergeSort, List.MergeSort.Internal.splitInTwo, List.merge, dumpOrder, List.idxOf,
    List.findIdx, List.findIdx.go]

/-! ## C39 -/

namespace Spec

/-- Values of a key in the events which have a result with this key, in the order of the events. -/
def valuesOf (events : Dict String (Option (Dict String RVal))) (c : String) : List RVal :=
  events.filterMap (fun e => e.2.bind (fun r => r.get? c))

/-- Rows of a station in the events which have a result with this station, in order. -/
def stationValues (events : Dict String (Option (Dict String RVal))) (sta : String) :
    List (List Cell) :=
  events.filterMap (fun e => e.2.bind (fun r => match r.get? "R" with
    | some (.sites R) => R.get? sta
    | _ => none))

/-- `x` is the value `v`, at a single frequency if `freqi` is given (except for `v0`). -/
def Picked (freqi : Option ℕ) (c : String) (v : RVal) (x : Item) : Prop :=
  ((freqi = none ∨ c = "v0") ∧ ((∃ a, v = .cell a ∧ x = .cell a) ∨ ∃ l, v = .row l ∧ x = .row l)) ∨
  (c ≠ "v0" ∧ ∃ i l a, freqi = some i ∧ v = .row l ∧ l[i]? = some a ∧ x = .cell a)

/-- The array of the items: `None` is NaN, all items have the same form. -/
def ArrayOf (l a : List Item) : Prop :=
  a = l.map Item.toFloat ∧ ∀ x ∈ l, ∀ y ∈ l, x.shape = y.shape

end Spec

namespace Collect

theorem freqGetter_spec {freqi : Option ℕ} {v : RVal} {c : String} {x : Item}
    (h : freqGetter freqi v c = .ok x) : Spec.Picked freqi c v x := by
  unfold freqGetter at h
  cases freqi with
  | none =>
    cases v <;> simp at h <;> subst h <;> left
    · exact ⟨Or.inl rfl, Or.inl ⟨_, rfl, rfl⟩⟩
    · exact ⟨Or.inl rfl, Or.inr ⟨_, rfl, rfl⟩⟩
  | some i =>
    simp only at h
    by_cases hc : c = "v0"
    · rw [if_pos hc] at h
      cases v <;> simp at h <;> subst h <;> left
      · exact ⟨Or.inr hc, Or.inl ⟨_, rfl, rfl⟩⟩
      · exact ⟨Or.inr hc, Or.inr ⟨_, rfl, rfl⟩⟩
    · rw [if_neg hc] at h
      cases v with
      | cell a => simp at h
      | sites d => simp at h
      | row l =>
        simp only at h
        obtain ⟨a, ha, h⟩ := bind_ok.1 h
        simp only [pure, Except.pure, Except.ok.injEq] at h
        exact Or.inr ⟨hc, i, l, a, rfl, rfl, pyGet_ok.1 ha, h.symm⟩

theorem toArray_spec {l a : List Item} (h : toArray l = .ok a) : Spec.ArrayOf l a := by
  unfold toArray at h
  split at h
  · next hall =>
    simp only [Except.ok.injEq] at h
    refine ⟨h.symm, ?_⟩
    intro x hx y hy
    have h1 := List.all_eq_true.1 hall x hx
    have h2 := List.all_eq_true.1 hall y hy
    simp only [decide_eq_true_eq] at h1 h2
    exact Option.some.inj (h1.trans h2.symm)
  · simp at h

/-- The list of values of a key: a missing key is an empty list. -/
def IsVals (col : Dict String ColVal) (c : String) (l : List Item) : Prop :=
  (l = [] ∧ col.get? c = none) ∨ (l ≠ [] ∧ col.get? c = some (.vals l))

def IsIds (col : Dict String ColVal) (l : List String) : Prop :=
  (l = [] ∧ col.get? "eventid" = none) ∨ (l ≠ [] ∧ col.get? "eventid" = some (.ids l))

theorem collectKey_ne {freqi : Option ℕ} {evid : String} {res : Dict String RVal}
    {col col' : Dict String ColVal} {c k : String} (h : collectKey freqi evid res col c = .ok col')
    (hk : k ≠ c) : col'.get? k = col.get? k := by
  unfold collectKey at h
  split at h
  · next hc =>
    unfold appendId at h
    split at h
    · simp only [Except.ok.injEq] at h; subst h; rw [Dict.get?_set_ne _ _ (by rw [← hc]; exact hk.symm)]
    · simp only [Except.ok.injEq] at h; subst h; rw [Dict.get?_set_ne _ _ (by rw [← hc]; exact hk.symm)]
    · simp at h
  · cases hr : res.get? c with
    | none => rw [hr] at h; simp only [Except.ok.injEq] at h; rw [h]
    | some v =>
      rw [hr] at h
      simp only at h
      split at h
      · next hc =>
        cases v with
        | cell _ => simp at h
        | row _ => simp at h
        | sites R =>
          simp only at h
          obtain ⟨d, _, h⟩ := bind_ok.1 h
          simp only [pure, Except.pure, Except.ok.injEq] at h
          subst h
          rw [Dict.get?_set_ne _ _ (by rw [← hc]; exact hk.symm)]
      · obtain ⟨x, _, h⟩ := bind_ok.1 h
        unfold append at h
        split at h
        · simp only [Except.ok.injEq] at h; subst h; rw [Dict.get?_set_ne _ _ hk.symm]
        · simp only [Except.ok.injEq] at h; subst h; rw [Dict.get?_set_ne _ _ hk.symm]
        · simp at h

theorem collectKeys_not_mem {freqi : Option ℕ} {evid : String} {res : Dict String RVal}
    {only : List String} {col col' : Dict String ColVal} {k : String}
    (h : only.foldlM (collectKey freqi evid res) col = .ok col') (hk : k ∉ only) :
    col'.get? k = col.get? k := by
  induction only generalizing col with
  | nil => simp only [List.foldlM_nil, pure, Except.pure, Except.ok.injEq] at h; rw [h]
  | cons c l ih =>
    rw [List.foldlM_cons] at h
    obtain ⟨m, hm, h⟩ := bind_ok.1 h
    simp only [List.mem_cons, not_or] at hk
    rw [ih h hk.2, collectKey_ne hm hk.1]

theorem collectKeys_mem {freqi : Option ℕ} {evid : String} {res : Dict String RVal}
    {only : List String} {col col' : Dict String ColVal} {k : String} (hn : only.Nodup)
    (h : only.foldlM (collectKey freqi evid res) col = .ok col') (hk : k ∈ only) :
    ∃ m m', m.get? k = col.get? k ∧ collectKey freqi evid res m k = .ok m' ∧
      col'.get? k = m'.get? k := by
  induction only generalizing col with
  | nil => simp at hk
  | cons c l ih =>
    rw [List.foldlM_cons] at h
    obtain ⟨m, hm, h'⟩ := bind_ok.1 h
    rw [List.nodup_cons] at hn
    by_cases hc : k = c
    · subst hc
      exact ⟨col, m, rfl, hm, collectKeys_not_mem h' hn.1⟩
    · obtain ⟨m1, m2, h1, h2, h3⟩ := ih hn.2 h' ((List.mem_cons.1 hk).resolve_left hc)
      exact ⟨m1, m2, by rw [h1, collectKey_ne hm hc], h2, h3⟩

theorem collectKey_vals {freqi : Option ℕ} {evid : String} {res : Dict String RVal}
    {col col' : Dict String ColVal} {c : String} (h : collectKey freqi evid res col c = .ok col')
    (h1 : c ≠ "eventid") (h2 : c ≠ "R") {l : List Item} (hl : IsVals col c l) :
    (res.get? c = none ∧ IsVals col' c l) ∨
    ∃ v x, res.get? c = some v ∧ Spec.Picked freqi c v x ∧ IsVals col' c (l ++ [x]) := by
  unfold collectKey at h
  rw [if_neg h1] at h
  cases hr : res.get? c with
  | none =>
    rw [hr] at h
    simp only [Except.ok.injEq] at h
    subst h
    exact Or.inl ⟨rfl, hl⟩
  | some v =>
    rw [hr] at h
    simp only [if_neg h2] at h
    obtain ⟨x, hx, h⟩ := bind_ok.1 h
    right
    refine ⟨v, x, rfl, freqGetter_spec hx, Or.inr ⟨by simp, ?_⟩⟩
    unfold append at h
    rcases hl with ⟨rfl, hg⟩ | ⟨_, hg⟩
    · rw [hg] at h
      simp only [Except.ok.injEq] at h
      subst h
      simp
    · rw [hg] at h
      simp only [Except.ok.injEq] at h
      subst h
      simp

theorem collectKey_ids {freqi : Option ℕ} {evid : String} {res : Dict String RVal}
    {col col' : Dict String ColVal} (h : collectKey freqi evid res col "eventid" = .ok col')
    {l : List String} (hl : IsIds col l) : IsIds col' (l ++ [evid]) := by
  unfold collectKey at h
  rw [if_pos rfl] at h
  right
  refine ⟨by simp, ?_⟩
  unfold appendId at h
  rcases hl with ⟨rfl, hg⟩ | ⟨_, hg⟩
  · rw [hg] at h
    simp only [Except.ok.injEq] at h
    subst h
    simp
  · rw [hg] at h
    simp only [Except.ok.injEq] at h
    subst h
    simp

theorem appendSites_spec {freqi : Option ℕ} {tab tab' : Dict String (List Item)}
    {R : Dict String (List Cell)} (hR : R.WF) (h : appendSites freqi tab R = .ok tab') (sta : String) :
    (R.get? sta = none ∧ tab'.get? sta = tab.get? sta) ∨
    ∃ row x, R.get? sta = some row ∧ Spec.Picked freqi "R" (.row row) x ∧
      tab'.get? sta = some ((tab.get? sta).getD [] ++ [x]) := by
  unfold appendSites at h
  induction R generalizing tab with
  | nil =>
    simp only [List.foldlM_nil, pure, Except.pure, Except.ok.injEq] at h
    left; exact ⟨rfl, by rw [h]⟩
  | cons sr R ih =>
    obtain ⟨s, row⟩ := sr
    rw [List.foldlM_cons] at h
    obtain ⟨m, hm, h⟩ := bind_ok.1 h
    obtain ⟨x, hx, hm⟩ := bind_ok.1 hm
    simp only [pure, Except.pure, Except.ok.injEq] at hm
    subst hm
    simp only [Dict.WF, Dict.keys_cons, List.nodup_cons] at hR
    rcases ih hR.2 h with ⟨h1, h2⟩ | ⟨row', x', h1, h2, h3⟩
    · by_cases hs : s = sta
      · subst hs
        right
        exact ⟨row, x, by simp [Dict.get?_cons], freqGetter_spec hx, by rw [h2]; simp⟩
      · left
        exact ⟨by rw [Dict.get?_cons, if_neg hs]; exact h1, by rw [h2, Dict.get?_set_ne _ _ hs]⟩
    · have hs : s ≠ sta := by
        rintro rfl
        have := (Dict.get?_eq_none R s).2 hR.1
        rw [this] at h1; simp at h1
      right
      exact ⟨row', x', by rw [Dict.get?_cons, if_neg hs]; exact h1, h2, by
        rw [h3, Dict.get?_set_ne _ _ hs]⟩

/-- The rows of a station in `col['R']`: a missing station is an empty list. -/
def IsRows (d : Dict String (List Item)) (sta : String) (l : List Item) : Prop :=
  (l = [] ∧ d.get? sta = none) ∨ (l ≠ [] ∧ d.get? sta = some l)

theorem collectKey_sites {freqi : Option ℕ} {evid : String} {res : Dict String RVal}
    {col col' : Dict String ColVal} (h : collectKey freqi evid res col "R" = .ok col')
    {d : Dict String (List Item)} (hd : col.get? "R" = some (.sites d)) :
    (res.get? "R" = none ∧ col'.get? "R" = some (.sites d)) ∨
    ∃ R d', res.get? "R" = some (.sites R) ∧ appendSites freqi d R = .ok d' ∧
      col'.get? "R" = some (.sites d') := by
  unfold collectKey at h
  rw [if_neg (by decide)] at h
  cases hr : res.get? "R" with
  | none =>
    rw [hr] at h
    simp only [Except.ok.injEq] at h
    subst h
    exact Or.inl ⟨rfl, hd⟩
  | some v =>
    rw [hr] at h
    simp only [if_true] at h
    cases v with
    | cell _ => simp at h
    | row _ => simp at h
    | sites R =>
      simp only at h
      obtain ⟨d', hd', h⟩ := bind_ok.1 h
      simp only [pure, Except.pure, Except.ok.injEq] at h
      subst h
      have : sitesOf col = d := by unfold sitesOf; rw [hd]
      rw [this] at hd'
      exact Or.inr ⟨R, d', rfl, hd', by simp⟩

section Loop
variable {freqi : Option ℕ} {only : List String}

theorem loop_not_mem {k : String} (hk : k ∉ only) (events : Dict String (Option (Dict String RVal)))
    {col col' : Dict String ColVal} (h : events.foldlM (collectEvent freqi only) col = .ok col') :
    col'.get? k = col.get? k := by
  induction events generalizing col with
  | nil => simp only [List.foldlM_nil, pure, Except.pure, Except.ok.injEq] at h; rw [h]
  | cons e events ih =>
    rw [List.foldlM_cons] at h
    obtain ⟨m, hm, h⟩ := bind_ok.1 h
    rw [ih h]
    unfold collectEvent at hm
    cases he : e.2 with
    | none => rw [he] at hm; simp only [Except.ok.injEq] at hm; rw [hm]
    | some res => rw [he] at hm; exact collectKeys_not_mem hm hk

theorem loop_vals (hn : only.Nodup) {c : String} (hc : c ∈ only) (h1 : c ≠ "eventid") (h2 : c ≠ "R")
    (events : Dict String (Option (Dict String RVal))) {col col' : Dict String ColVal}
    (h : events.foldlM (collectEvent freqi only) col = .ok col') {l : List Item}
    (hl : IsVals col c l) :
    ∃ xs, List.Forall₂ (Spec.Picked freqi c) (Spec.valuesOf events c) xs ∧ IsVals col' c (l ++ xs) := by
  induction events generalizing col l with
  | nil =>
    simp only [List.foldlM_nil, pure, Except.pure, Except.ok.injEq] at h
    subst h
    exact ⟨[], .nil, by simpa using hl⟩
  | cons e events ih =>
    rw [List.foldlM_cons] at h
    obtain ⟨m, hm, h⟩ := bind_ok.1 h
    unfold collectEvent at hm
    cases he : e.2 with
    | none =>
      rw [he] at hm
      simp only [Except.ok.injEq] at hm
      subst hm
      obtain ⟨xs, hx, hv⟩ := ih h hl
      refine ⟨xs, ?_, hv⟩
      unfold Spec.valuesOf
      rw [List.filterMap_cons_none (by simp [he])]
      exact hx
    | some res =>
      rw [he] at hm
      obtain ⟨m1, m2, g1, g2, g3⟩ := collectKeys_mem hn hm hc
      have hl1 : IsVals m1 c l := by unfold IsVals; rw [g1]; exact hl
      rcases collectKey_vals g2 h1 h2 hl1 with ⟨hr, hv⟩ | ⟨v, x, hr, hp, hv⟩
      · have hv' : IsVals m c l := by unfold IsVals; rw [g3]; exact hv
        obtain ⟨xs, hx, hv⟩ := ih h hv'
        refine ⟨xs, ?_, hv⟩
        unfold Spec.valuesOf
        rw [List.filterMap_cons_none (by simp [he, hr])]
        exact hx
      · have hv' : IsVals m c (l ++ [x]) := by unfold IsVals; rw [g3]; exact hv
        obtain ⟨xs, hx, hv⟩ := ih h hv'
        refine ⟨x :: xs, ?_, by simpa using hv⟩
        unfold Spec.valuesOf
        rw [List.filterMap_cons_some (b := v) (by simp [he, hr])]
        exact .cons hp hx

theorem loop_ids (hn : only.Nodup) (hc : "eventid" ∈ only)
    (events : Dict String (Option (Dict String RVal))) {col col' : Dict String ColVal}
    (h : events.foldlM (collectEvent freqi only) col = .ok col') {l : List String}
    (hl : IsIds col l) :
    IsIds col' (l ++ (events.filter (fun e => e.2.isSome)).map Prod.fst) := by
  induction events generalizing col l with
  | nil =>
    simp only [List.foldlM_nil, pure, Except.pure, Except.ok.injEq] at h
    subst h
    simpa using hl
  | cons e events ih =>
    rw [List.foldlM_cons] at h
    obtain ⟨m, hm, h⟩ := bind_ok.1 h
    unfold collectEvent at hm
    cases he : e.2 with
    | none =>
      rw [he] at hm
      simp only [Except.ok.injEq] at hm
      subst hm
      rw [List.filter_cons_of_neg (by simp [he])]
      exact ih h hl
    | some res =>
      rw [he] at hm
      obtain ⟨m1, m2, g1, g2, g3⟩ := collectKeys_mem hn hm hc
      have hl1 : IsIds m1 l := by unfold IsIds; rw [g1]; exact hl
      have hv := collectKey_ids g2 hl1
      have hv' : IsIds m (l ++ [e.1]) := by unfold IsIds; rw [g3]; exact hv
      have := ih h hv'
      rw [List.filter_cons_of_pos (by simp [he])]
      simpa using this

theorem loop_sites (hn : only.Nodup) (hc : "R" ∈ only)
    (events : Dict String (Option (Dict String RVal))) (hev : ∀ e ∈ events, ∀ r R, e.2 = some r →
      r.get? "R" = some (.sites R) → R.WF) {col col' : Dict String ColVal}
    (h : events.foldlM (collectEvent freqi only) col = .ok col') {d : Dict String (List Item)}
    (hd : col.get? "R" = some (.sites d)) :
    ∃ d', col'.get? "R" = some (.sites d') ∧ ∀ sta l, IsRows d sta l →
      ∃ xs, List.Forall₂ (fun row x => Spec.Picked freqi "R" (.row row) x)
        (Spec.stationValues events sta) xs ∧ IsRows d' sta (l ++ xs) := by
  induction events generalizing col d with
  | nil =>
    simp only [List.foldlM_nil, pure, Except.pure, Except.ok.injEq] at h
    subst h
    exact ⟨d, hd, fun sta l hl => ⟨[], .nil, by simpa using hl⟩⟩
  | cons e events ih =>
    rw [List.foldlM_cons] at h
    obtain ⟨m, hm, h⟩ := bind_ok.1 h
    have hev' : ∀ e ∈ events, ∀ r R, e.2 = some r → r.get? "R" = some (.sites R) → R.WF :=
      fun e he => hev e (List.mem_cons_of_mem _ he)
    unfold collectEvent at hm
    cases he : e.2 with
    | none =>
      rw [he] at hm
      simp only [Except.ok.injEq] at hm
      subst hm
      obtain ⟨d', h1, h2⟩ := ih hev' h hd
      refine ⟨d', h1, fun sta l hl => ?_⟩
      obtain ⟨xs, hx, hr⟩ := h2 sta l hl
      refine ⟨xs, ?_, hr⟩
      unfold Spec.stationValues
      rw [List.filterMap_cons_none (by simp [he])]
      exact hx
    | some res =>
      rw [he] at hm
      obtain ⟨m1, m2, g1, g2, g3⟩ := collectKeys_mem hn hm hc
      rcases collectKey_sites g2 (g1.trans hd) with ⟨hr, hv⟩ | ⟨R, dm, hr, ha, hv⟩
      · obtain ⟨d', h1, h2⟩ := ih hev' h (g3.trans hv)
        refine ⟨d', h1, fun sta l hl => ?_⟩
        obtain ⟨xs, hx, hrow⟩ := h2 sta l hl
        refine ⟨xs, ?_, hrow⟩
        unfold Spec.stationValues
        rw [List.filterMap_cons_none (by simp [he, hr])]
        exact hx
      · obtain ⟨d', h1, h2⟩ := ih hev' h (g3.trans hv)
        refine ⟨d', h1, fun sta l hl => ?_⟩
        have hw := hev e (by simp) res R he hr
        rcases appendSites_spec hw ha sta with ⟨k1, k2⟩ | ⟨row, x, k1, k2, k3⟩
        · have hl' : IsRows dm sta l := by unfold IsRows; rw [k2]; exact hl
          obtain ⟨xs, hx, hrow⟩ := h2 sta l hl'
          refine ⟨xs, ?_, hrow⟩
          unfold Spec.stationValues
          rw [List.filterMap_cons_none (by simp [he, hr, k1])]
          exact hx
        · have hl' : IsRows dm sta (l ++ [x]) := by
            right
            refine ⟨by simp, ?_⟩
            rcases hl with ⟨rfl, hg⟩ | ⟨_, hg⟩
            · rw [k3, hg]; rfl
            · rw [k3, hg]; rfl
          obtain ⟨xs, hx, hrow⟩ := h2 sta _ hl'
          refine ⟨x :: xs, ?_, by simpa using hrow⟩
          unfold Spec.stationValues
          rw [List.filterMap_cons_some (b := row) (by simp [he, hr, k1])]
          exact .cons k2 hx

end Loop

theorem mapVals_get? {α β : Type} {f : α → Py β} {d : Dict String α} {d' : Dict String β}
    (h : mapExc (fun kv : String × α => do
      let v ← f kv.2
      return (kv.1, v)) d = .ok d') (k : String) :
    (d.get? k = none ∧ d'.get? k = none) ∨
    ∃ v v', d.get? k = some v ∧ f v = .ok v' ∧ d'.get? k = some v' := by
  induction d generalizing d' with
  | nil =>
    simp only [mapExc, Except.ok.injEq] at h
    subst h
    exact Or.inl ⟨rfl, rfl⟩
  | cons p d ih =>
    obtain ⟨a, w⟩ := p
    simp only [mapExc] at h
    obtain ⟨q, hq, h⟩ := bind_ok.1 h
    obtain ⟨w', hw', hq⟩ := bind_ok.1 hq
    obtain ⟨d2, hd2, h⟩ := bind_ok.1 h
    simp only [pure, Except.pure, Except.ok.injEq] at h hq
    subst h
    subst hq
    rw [Dict.get?_cons, Dict.get?_cons]
    by_cases hk : a = k
    · rw [if_pos hk, if_pos hk]
      exact Or.inr ⟨w, w', rfl, hw', rfl⟩
    · rw [if_neg hk, if_neg hk]
      exact ih hd2

end Collect

/-- **C39**: Every requested key of the events (except event ids and site responses) is collected:
the result has the values of all events having this key, in the order of the events, and nothing
else.  The key is missing if no event has it.  With `freqi` the values are those at a single
frequency. -/
theorem C39_values {events : Dict String (Option (Dict String RVal))} {only : List String}
    {freqi : Option ℕ} {col : Dict String ColVal} (hn : only.Nodup)
    (h : collectResults events only freqi = .ok col) {c : String} (hc : c ∈ only)
    (h1 : c ≠ "eventid") (h2 : c ≠ "R") :
    (Spec.valuesOf events c = [] ∧ col.get? c = none) ∨
    ∃ xs a, List.Forall₂ (Spec.Picked freqi c) (Spec.valuesOf events c) xs ∧ xs ≠ [] ∧
      Spec.ArrayOf xs a ∧ col.get? c = some (.vals a) := by
  obtain ⟨m, hm, h⟩ := bind_ok.1 h
  have h0 : IsVals (if "R" ∈ only then [("R", .sites [])] else []) c [] := by
    left
    refine ⟨rfl, ?_⟩
    split
    · rw [Dict.get?_cons, if_neg (Ne.symm h2)]; rfl
    · rfl
  obtain ⟨xs, hx, hv⟩ := loop_vals hn hc h1 h2 events hm h0
  rw [List.nil_append] at hv
  rcases hv with ⟨rfl, hg⟩ | ⟨hne, hg⟩
  · left
    refine ⟨List.forall₂_nil_right_iff.1 hx, ?_⟩
    rcases mapVals_get? h c with ⟨_, h3⟩ | ⟨v, v', h3, _⟩
    · exact h3
    · rw [hg] at h3; simp at h3
  · right
    rcases mapVals_get? h c with ⟨h3, _⟩ | ⟨v, v', h3, h4, h5⟩
    · rw [hg] at h3; simp at h3
    · rw [hg] at h3
      simp only [Option.some.injEq] at h3
      subst h3
      unfold convert at h4
      simp only at h4
      obtain ⟨a, ha, h4⟩ := bind_ok.1 h4
      simp only [pure, Except.pure, Except.ok.injEq] at h4
      exact ⟨xs, a, hx, hne, toArray_spec ha, by rw [h5, ← h4]⟩

/-- **C39**: The event ids are those of the events with a result, in the order of the events. -/
theorem C39_event_ids {events : Dict String (Option (Dict String RVal))} {only : List String}
    {freqi : Option ℕ} {col : Dict String ColVal} (hn : only.Nodup)
    (h : collectResults events only freqi = .ok col) (hc : "eventid" ∈ only) :
    ((∀ e ∈ events, e.2 = none) ∧ col.get? "eventid" = none) ∨
    ((∃ e ∈ events, e.2 ≠ none) ∧
      col.get? "eventid" = some (.ids ((events.filter (fun e => e.2.isSome)).map Prod.fst))) := by
  obtain ⟨m, hm, h⟩ := bind_ok.1 h
  have h0 : IsIds (if "R" ∈ only then [("R", .sites [])] else []) [] := by
    left
    refine ⟨rfl, ?_⟩
    split
    · rw [Dict.get?_cons, if_neg (by decide)]; rfl
    · rfl
  have hv := loop_ids hn hc events hm h0
  rw [List.nil_append] at hv
  rcases hv with ⟨he, hg⟩ | ⟨hne, hg⟩
  · left
    constructor
    · intro e hm
      by_contra hne
      have := List.filter_eq_nil_iff.1 (List.map_eq_nil_iff.1 he) e hm
      rw [Option.isSome_iff_ne_none] at this
      exact this hne
    · rcases mapVals_get? h "eventid" with ⟨_, h3⟩ | ⟨v, v', h3, _⟩
      · exact h3
      · rw [hg] at h3; simp at h3
  · right
    constructor
    · obtain ⟨e, he⟩ := List.exists_mem_of_ne_nil _ hne
      obtain ⟨p, hp, _⟩ := List.mem_map.1 he
      obtain ⟨hp1, hp2⟩ := List.mem_filter.1 hp
      exact ⟨p, hp1, Option.isSome_iff_ne_none.1 hp2⟩
    · rcases mapVals_get? h "eventid" with ⟨h3, _⟩ | ⟨v, v', h3, h4, h5⟩
      · rw [hg] at h3; simp at h3
      · rw [hg] at h3
        simp only [Option.some.injEq] at h3
        subst h3
        simp only [convert, Except.ok.injEq] at h4
        rw [h5, ← h4]

/-- **C39**: The site responses are collected for each station: the rows of all events with this
station, in the order of the events.  A station of no event is missing. -/
theorem C39_sites {events : Dict String (Option (Dict String RVal))} {only : List String}
    {freqi : Option ℕ} {col : Dict String ColVal} (hn : only.Nodup)
    (hev : ∀ e ∈ events, ∀ r R, e.2 = some r → r.get? "R" = some (.sites R) → R.WF)
    (h : collectResults events only freqi = .ok col) (hc : "R" ∈ only) :
    ∃ d, col.get? "R" = some (.sites d) ∧ ∀ sta,
      (Spec.stationValues events sta = [] ∧ d.get? sta = none) ∨
      ∃ xs a, List.Forall₂ (fun row x => Spec.Picked freqi "R" (.row row) x)
        (Spec.stationValues events sta) xs ∧ xs ≠ [] ∧ Spec.ArrayOf xs a ∧ d.get? sta = some a := by
  obtain ⟨m, hm, h⟩ := bind_ok.1 h
  rw [if_pos hc] at hm
  obtain ⟨d, hd, hr⟩ := loop_sites hn hc events hev hm (d := []) rfl
  rcases mapVals_get? h "R" with ⟨h3, _⟩ | ⟨v, v', h3, h4, h5⟩
  · rw [hd] at h3; simp at h3
  · rw [hd] at h3
    simp only [Option.some.injEq] at h3
    subst h3
    unfold convert at h4
    simp only at h4
    obtain ⟨d', hd', h4⟩ := bind_ok.1 h4
    simp only [pure, Except.pure, Except.ok.injEq] at h4
    refine ⟨d', by rw [h5, ← h4], fun sta => ?_⟩
    obtain ⟨xs, hx, hrow⟩ := hr sta [] (Or.inl ⟨rfl, rfl⟩)
    rw [List.nil_append] at hrow
    rcases hrow with ⟨rfl, hg⟩ | ⟨hne, hg⟩
    · left
      refine ⟨List.forall₂_nil_right_iff.1 hx, ?_⟩
      rcases mapVals_get? hd' sta with ⟨_, h3⟩ | ⟨v, v', h3, _⟩
      · exact h3
      · rw [hg] at h3; simp at h3
    · right
      rcases mapVals_get? hd' sta with ⟨h3, _⟩ | ⟨v, v', h3, h6, h7⟩
      · rw [hg] at h3; simp at h3
      · rw [hg] at h3
        simp only [Option.some.injEq] at h3
        subst h3
        exact ⟨xs, v', hx, hne, toArray_spec h6, h7⟩

/-- **C39**: Keys which are not requested are not in the result. -/
theorem C39_nothing_else {events : Dict String (Option (Dict String RVal))} {only : List String}
    {freqi : Option ℕ} {col : Dict String ColVal} (h : collectResults events only freqi = .ok col)
    {c : String} (hc : c ∉ only) : col.get? c = none := by
  obtain ⟨m, hm, h⟩ := bind_ok.1 h
  have h1 := loop_not_mem hc events hm
  have h2 : m.get? c = none := by
    rw [h1]
    split
    · next hR => rw [Dict.get?_cons, if_neg (by rintro rfl; exact hc hR)]; rfl
    · rfl
  rcases mapVals_get? h c with ⟨_, h3⟩ | ⟨v, v', h3, _⟩
  · exact h3
  · rw [h2] at h3; simp at h3

/-- Two events with results and one without. -/
noncomputable def exResults : Dict String (Option (Dict String RVal)) :=
  [("e1", some [("g0", .row [.num 1, .none]), ("R", .sites [("A", [.num 1, .num 2])])]),
   ("e2", none),
   ("e3", some [("g0", .row [.num 3, .num 4]), ("R", .sites [("B", [.num 1, .none])])])]

example : ∃ col, collectResults exResults ["g0", "R", "eventid"] = .ok col ∧
    col.get? "g0" = some (.vals [.row [.num 1, .nan], .row [.num 3, .num 4]]) ∧
    col.get? "eventid" = some (.ids ["e1", "e3"]) := by
  refine ⟨_, rfl, rfl, rfl⟩

end Qopen
