import Verif.Spec.CmdLine
import Verif.Lemmas.Run
import Mathlib.Data.List.Nodup
import Mathlib.Data.List.TakeWhile

/-!
# Lemmas about the command line parser
-/

namespace Qopen.CmdLine

open Run

/-- Effect of an option. -/
def takesOf : Kind → Spec.Takes
  | .help => .help
  | .version => .help
  | .flag true => .on
  | .flag false => .off
  | .count => .count
  | .value .text => .text
  | .value .json => .json
  | .value .int => .int

/-- The flag for a name of an option. -/
def flagOf (o : Opt) (f : String) : Spec.Flag := ⟨f, o.dest, takesOf o.kind⟩

/-- The names of a table. -/
def flat (tbl : List Opt) : List Spec.Flag := tbl.flatMap (fun o => o.flags.map (flagOf o))

/-- Names begin with one dash and have one letter, or begin with two dashes. -/
def goodName : List Char → Bool
  | ['-', c] => decide (c ≠ '-' ∧ c ≠ '=')
  | '-' :: '-' :: c :: l => decide ('=' ∉ c :: l)
  | _ => false

/-- What the proofs need of a table of options. -/
structure TableOK (tbl : List Opt) : Prop where
  nodup : ((names tbl).map (·.1)).Nodup
  good : ∀ p ∈ names tbl, goodName p.1 = true
  free : ∀ o ∈ tbl, o.dest ≠ "cmd"
  count : ∀ o ∈ tbl, o.kind = .count ↔ o.dest = "verbose"
  group : ∀ o ∈ tbl, ∀ p ∈ tbl, (o.group.isSome = true ∧ p.group = o.group ∧ p ≠ o) ↔
    (p.dest = o.dest ∧ ((o.kind = .flag true ∧ p.kind = .flag false) ∨
      (o.kind = .flag false ∧ p.kind = .flag true)))

section tables

set_option maxRecDepth 100000

theorem flat_of {cmd : String} {T : List Spec.Flag} (h : Spec.Flags cmd T) : flat (options cmd) = T := by
  cases h <;> decide

theorem sub_go : ∀ c ∈ ["fixed", "source", "recalc_source", "plot"],
    (options c).Sublist (options "go") := by
  decide

theorem table_go : TableOK (options "go") where
  nodup := by decide
  good := by decide
  free := by decide
  count := by decide
  group := by decide

theorem table_create : TableOK (options "create") where
  nodup := by decide
  good := by decide
  free := by decide
  count := by decide
  group := by decide

theorem table_main : TableOK mainOpts where
  nodup := by decide
  good := by decide
  free := by decide
  count := by decide
  group := by decide

end tables

theorem names_sublist {a b : List Opt} (h : a.Sublist b) : (names a).Sublist (names b) := by
  induction h with
  | slnil => exact List.Sublist.slnil
  | cons o h ih => 
    simp only [names, List.flatMap_cons] at ih ⊢
    exact ih.trans (List.sublist_append_right _ _)
  | cons_cons o h ih =>
    simp only [names, List.flatMap_cons] at ih ⊢
    exact List.Sublist.append_left ih _

theorem TableOK.sublist {a b : List Opt} (h : a.Sublist b) (t : TableOK b) : TableOK a where
  nodup := t.nodup.sublist ((names_sublist h).map _)
  good := fun p hp => t.good p ((names_sublist h).subset hp)
  free := fun o ho => t.free o (h.subset ho)
  count := fun o ho => t.count o (h.subset ho)
  group := fun o ho p hp => t.group o (h.subset ho) p (h.subset hp)

theorem table_of {cmd : String} {T : List Spec.Flag} (h : Spec.Flags cmd T) : TableOK (options cmd) := by
  cases h
  · exact table_create
  · exact table_go
  all_goals exact table_go.sublist (sub_go _ (by decide))

/-! ## Names -/

section

variable {tbl : List Opt}

theorem mem_names {s : List Char} {o : Opt} :
    (s, o) ∈ names tbl ↔ o ∈ tbl ∧ ∃ f ∈ o.flags, f.toList = s := by
  simp only [names, List.mem_flatMap, List.mem_map, Prod.mk.injEq]
  constructor
  · rintro ⟨o', h, f, hf, e, rfl⟩; exact ⟨h, f, hf, e⟩
  · rintro ⟨h, f, hf, e⟩; exact ⟨o, h, f, hf, e, rfl⟩

theorem mem_flat {f : Spec.Flag} : f ∈ flat tbl ↔ ∃ o ∈ tbl, ∃ n ∈ o.flags, flagOf o n = f := by
  simp only [flat, List.mem_flatMap, List.mem_map]

/-- Flag and option with the same name. -/
def Same (tbl : List Opt) (o : Opt) (f : Spec.Flag) : Prop :=
  (f.name.toList, o) ∈ names tbl ∧ f.key = o.dest ∧ f.takes = takesOf o.kind

theorem same_mem {o : Opt} {f : Spec.Flag} (h : Same tbl o f) : o ∈ tbl ∧ f ∈ flat tbl := by
  obtain ⟨h, hk, ht⟩ := h
  obtain ⟨ho, n, hn, e⟩ := mem_names.1 h
  refine ⟨ho, mem_flat.2 ⟨o, ho, n, hn, ?_⟩⟩
  have : n = f.name := String.toList_inj.1 e
  subst this
  obtain ⟨a, b, c⟩ := f
  simp only at hk ht
  subst hk ht
  rfl

theorem same_of_names {s : List Char} {o : Opt} (h : (s, o) ∈ names tbl) :
    ∃ f, Same tbl o f ∧ f.name.toList = s := by
  obtain ⟨ho, n, hn, e⟩ := mem_names.1 h
  exact ⟨flagOf o n, ⟨by rw [show (flagOf o n).name = n from rfl, e]; exact h, rfl, rfl⟩, e⟩

theorem same_of_flat {f : Spec.Flag} (h : f ∈ flat tbl) : ∃ o, Same tbl o f := by
  obtain ⟨o, ho, n, hn, rfl⟩ := mem_flat.1 h
  exact ⟨o, mem_names.2 ⟨ho, n, hn, rfl⟩, rfl, rfl⟩

theorem names_inj (t : TableOK tbl) {s : List Char} {o p : Opt} (h : (s, o) ∈ names tbl)
    (g : (s, p) ∈ names tbl) : o = p := by
  have := List.inj_on_of_nodup_map t.nodup h g rfl
  exact (Prod.mk.injEq _ _ _ _ ▸ this).2

theorem same_inj (t : TableOK tbl) {o p : Opt} {f g : Spec.Flag} (h : Same tbl o f) (k : Same tbl p g)
    (e : f.name.toList = g.name.toList) : o = p ∧ f = g := by
  have : o = p := names_inj t h.1 (e ▸ k.1)
  subst this
  refine ⟨rfl, ?_⟩
  obtain ⟨a, b, c⟩ := f
  obtain ⟨a', b', c'⟩ := g
  have := String.toList_inj.1 e
  simp only [Same] at h k this
  obtain ⟨-, h1, h2⟩ := h
  obtain ⟨-, k1, k2⟩ := k
  subst this h1 h2
  rw [k1, k2]

theorem lookup_eq_some (t : TableOK tbl) {s : List Char} {o : Opt} :
    lookup tbl s = some o ↔ (s, o) ∈ names tbl := by
  unfold lookup
  constructor
  · intro h
    rw [Option.map_eq_some_iff] at h
    obtain ⟨p, hp, rfl⟩ := h
    have h1 := List.mem_of_find?_eq_some hp
    have h2 := List.find?_some hp
    simp only [decide_eq_true_eq] at h2
    rw [← h2]; exact h1
  · intro h
    cases hf : (names tbl).find? (fun p => decide (p.1 = s)) with
    | none =>
      rw [List.find?_eq_none] at hf
      exact absurd (hf _ h) (by simp)
    | some p =>
      have h1 := List.mem_of_find?_eq_some hf
      have h2 := List.find?_some hf
      simp only [decide_eq_true_eq] at h2
      simp only [Option.map_some, Option.some.injEq]
      exact names_inj t (s := s) (by rw [← h2]; exact h1) h

theorem lookup_eq_none (t : TableOK tbl) {s : List Char} :
    lookup tbl s = none ↔ ∀ f ∈ flat tbl, f.name.toList ≠ s := by
  constructor
  · intro h f hf e
    obtain ⟨o, ho⟩ := same_of_flat hf
    have := (lookup_eq_some t).2 (e ▸ ho.1)
    rw [h] at this; cases this
  · intro h
    cases hl : lookup tbl s with
    | none => rfl
    | some o =>
      obtain ⟨f, hf, e⟩ := same_of_names ((lookup_eq_some t).1 hl)
      exact absurd e (h f (same_mem hf).2)

theorem good_cases (t : TableOK tbl) {f : Spec.Flag} (h : f ∈ flat tbl) :
    (∃ c, f.name.toList = ['-', c] ∧ c ≠ '-' ∧ c ≠ '=') ∨
      ∃ c l, f.name.toList = '-' :: '-' :: c :: l ∧ '=' ∉ c :: l := by
  obtain ⟨o, ho⟩ := same_of_flat h
  have := t.good _ ho.1
  simp only at this
  generalize f.name.toList = s at this ⊢
  unfold goodName at this
  split at this
  · next c => simp only [decide_eq_true_eq] at this; exact Or.inl ⟨c, rfl, this⟩
  · next c l => simp only [decide_eq_true_eq] at this; exact Or.inr ⟨c, l, rfl, this⟩
  · cases this

theorem no_eq (t : TableOK tbl) {f : Spec.Flag} (h : f ∈ flat tbl) : '=' ∉ f.name.toList := by
  rcases good_cases t h with ⟨c, e, h1, h2⟩ | ⟨c, l, e, h1⟩
  · rw [e]; simp [h2.symm]
  · rw [e]; simpa using h1

theorem takes_value {o : Opt} {f : Spec.Flag} (h : Same tbl o f) :
    o.kind.takesValue = true ↔ f.hasValue := by
  unfold Spec.Flag.hasValue
  rw [h.2.2]
  cases o.kind with
  | flag b => cases b <;> simp [Kind.takesValue, takesOf]
  | value c => cases c <;> simp [Kind.takesValue, takesOf]
  | _ => simp [Kind.takesValue, takesOf]

theorem partitionEq_none {s : List Char} (h : '=' ∉ s) : partitionEq s = (s, none) := by
  have h1 : ∀ c ∈ s, decide (c ≠ '=') = true := by
    intro c hc; simp only [decide_eq_true_eq]; rintro rfl; exact h hc
  unfold partitionEq
  rw [List.takeWhile_eq_self_iff.2 h1, List.dropWhile_eq_nil_iff.2 h1]

theorem takeWhile_eq {s v : List Char} (h : '=' ∉ s) :
    (s ++ '=' :: v).takeWhile (fun c => decide (c ≠ '=')) = s := by
  have h1 : ∀ c ∈ s, decide (c ≠ '=') = true := by
    intro c hc; simp only [decide_eq_true_eq]; rintro rfl; exact h hc
  rw [List.takeWhile_append_of_pos h1]; simp

theorem partitionEq_some {s v : List Char} (h : '=' ∉ s) :
    partitionEq (s ++ '=' :: v) = (s, some v) := by
  have h1 : ∀ c ∈ s, decide (c ≠ '=') = true := by
    intro c hc; simp only [decide_eq_true_eq]; rintro rfl; exact h hc
  unfold partitionEq
  rw [takeWhile_eq h, List.dropWhile_append_of_pos h1]; simp

theorem partition_cases (s : List Char) :
    ('=' ∉ s) ∨ ∃ a v, s = a ++ '=' :: v ∧ '=' ∉ a := by
  by_cases h : '=' ∈ s
  · obtain ⟨a, v, e, hn⟩ := List.eq_append_cons_of_mem h
    exact Or.inr ⟨a, v, e, hn⟩
  · exact Or.inl h

theorem isNegative_iff (py : Lang) (s : List Char) : isNegative py s = true ↔ Spec.Negative py s := by
  unfold isNegative Spec.Negative
  constructor
  · intro h
    split at h
    · next t =>
      simp only [Bool.or_eq_true, Bool.and_eq_true, Bool.not_eq_true', List.isEmpty_eq_false_iff,
        List.all_eq_true] at h
      rcases h with h | h
      · exact Or.inl ⟨t, rfl, h⟩
      · split at h
        · next u hu =>
          simp only [Bool.and_eq_true, Bool.not_eq_true', List.isEmpty_eq_false_iff,
            List.all_eq_true] at h
          refine Or.inr ⟨t.takeWhile py.digit, u, ?_, h.1, ?_, h.2⟩
          · rw [← hu, List.takeWhile_append_dropWhile]
          · intro c hc; exact List.mem_takeWhile_imp hc
        · cases h
    · cases h
  · rintro (⟨ds, rfl, h1, h2⟩ | ⟨ds, es, rfl, h1, h2, h3⟩)
    · simp only [Bool.or_eq_true, Bool.and_eq_true, Bool.not_eq_true', List.isEmpty_eq_false_iff,
        List.all_eq_true]
      exact Or.inl ⟨h1, h2⟩
    · simp only [Bool.or_eq_true]
      right
      rw [List.dropWhile_append_of_pos h2, List.dropWhile_cons_of_neg (by simp [py.digit_dot])]
      simp only [Bool.and_eq_true, Bool.not_eq_true', List.isEmpty_eq_false_iff, List.all_eq_true]
      exact ⟨h1, h3⟩

end

/-! ## Classes of strings -/

section

variable {tbl : List Opt} {py : Lang}

theorem eq_singleton {α : Type} {l : List α} {x : α} (hn : l.Nodup) (hx : x ∈ l) (h : ∀ y ∈ l, y = x) :
    l = [x] := by
  cases l with
  | nil => cases hx
  | cons a l =>
    have ha := h a (by simp)
    subst ha
    cases l with
    | nil => rfl
    | cons b l =>
      have := h b (by simp)
      subst this
      simp at hn

theorem names_nodup (t : TableOK tbl) : (names tbl).Nodup := List.Nodup.of_map _ t.nodup

theorem prefix_eq_take {s n : List Char} (h : s <+: n) (hl : n.length ≤ s.length) : s = n :=
  h.eq_of_length_le hl

/-- A string which was found to be an option. -/
inductive IsOpt (tbl : List Opt) (s : List Char) : Tup → Prop
  | unknown {t} : t.opt = none → IsOpt tbl s t
  | long {x o f pre val} : s = '-' :: '-' :: x → Same tbl o f → partitionEq s = (pre, val) →
      Spec.Names (flat tbl) pre f → IsOpt tbl s ⟨some o, f.name.toList, val.isSome, val⟩
  | exact {c o f} : s = ['-', c] → c ≠ '-' → Same tbl o f → f.name.toList = ['-', c] →
      IsOpt tbl s ⟨some o, ['-', c], false, none⟩
  | eq {c v o f} : s = '-' :: c :: '=' :: v → c ≠ '-' → Same tbl o f → f.name.toList = ['-', c] →
      IsOpt tbl s ⟨some o, ['-', c], true, some v⟩
  | attached {c d v o f} : s = '-' :: c :: d :: v → d ≠ '=' → c ≠ '-' → Same tbl o f →
      f.name.toList = ['-', c] → IsOpt tbl s ⟨some o, ['-', c], false, some (d :: v)⟩

theorem long_tuples {x pre : List Char} {val : Option (List Char)}
    (hp : partitionEq ('-' :: '-' :: x) = (pre, val)) {p : List Char × Opt} :
    (⟨some p.2, p.1, val.isSome, val⟩ : Tup) ∈ optionTuples tbl ('-' :: '-' :: x) ↔
      p ∈ names tbl ∧ pre <+: p.1 := by
  simp only [optionTuples, hp, List.mem_map, List.mem_filter, List.isPrefixOf_iff_prefix, Tup.mk.injEq,
    Option.some.injEq, and_true]
  constructor
  · rintro ⟨⟨a, b⟩, ⟨h1, h2⟩, h3, h4⟩
    simp only at h3 h4 h2
    subst h3 h4
    exact ⟨h1, h2⟩
  · rintro ⟨h1, h2⟩
    exact ⟨p, ⟨h1, h2⟩, rfl, rfl⟩

theorem short_tuples (t : TableOK tbl) {c : Char} {x : List Char} (hc : c ≠ '-') :
    optionTuples tbl ('-' :: c :: x) = (match lookup tbl ['-', c] with
      | some o => [⟨some o, ['-', c], false, some x⟩]
      | none => []) := by
  have hd : optionTuples tbl ('-' :: c :: x) = (names tbl).filterMap (fun p =>
      if p.1 = ['-', c] then some ⟨some p.2, p.1, false, some x⟩
      else if ('-' :: c :: x).isPrefixOf p.1 then some ⟨some p.2, p.1, false, none⟩
      else none) := by
    unfold optionTuples
    split
    · next h => simp only [List.cons.injEq, true_and] at h; exact absurd h.1 hc
    · rfl
  rw [hd]
  have hfun : ∀ p ∈ names tbl, (if p.1 = ['-', c] then some (⟨some p.2, p.1, false, some x⟩ : Tup)
      else if ('-' :: c :: x).isPrefixOf p.1 then some ⟨some p.2, p.1, false, none⟩ else none) =
      if p.1 = ['-', c] then some ⟨some p.2, ['-', c], false, some x⟩ else none := by
    rintro ⟨n, o⟩ hp
    simp only
    by_cases e : n = ['-', c]
    · simp [e]
    · simp only [e, if_false]
      rw [if_neg]
      rw [List.isPrefixOf_iff_prefix]
      intro hpre
      obtain ⟨f, hf, hn⟩ := same_of_names hp
      have hg := good_cases t (same_mem hf).2
      rw [hn] at hg
      rcases hg with ⟨d, hd, -⟩ | ⟨d, l, hd, -⟩
      · rw [hd] at hpre e
        obtain ⟨r, hr⟩ := hpre
        simp only [List.cons_append, List.cons.injEq, true_and, List.append_eq_nil_iff] at hr
        exact e (by rw [hr.1])
      · rw [hd] at hpre
        obtain ⟨r, hr⟩ := hpre
        simp only [List.cons_append, List.cons.injEq, true_and] at hr
        exact hc hr.1
  rw [List.filterMap_congr hfun]
  cases hl : lookup tbl ['-', c] with
  | none =>
    rw [List.filterMap_eq_nil_iff]
    rintro ⟨n, o⟩ hp
    simp only [ite_eq_right_iff, reduceCtorEq, imp_false]
    rintro rfl
    have := (lookup_eq_some t).2 hp
    rw [hl] at this; cases this
  | some o =>
    have hm := (lookup_eq_some t).1 hl
    have : (names tbl).filterMap (fun p => if p.1 = ['-', c] then
        some (⟨some p.2, ['-', c], false, some x⟩ : Tup) else none) =
        ((names tbl).filter (fun p => decide (p.1 = ['-', c]))).map
          (fun p => ⟨some p.2, ['-', c], false, some x⟩) := by
      induction names tbl with
      | nil => rfl
      | cons p l ih =>
        simp only [List.filterMap_cons, List.filter_cons, decide_eq_true_eq]
        by_cases e : p.1 = ['-', c]
        · simp only [e, if_true, List.map_cons, ih]
        · simp only [e, if_false, ih]
    rw [this, eq_singleton (x := (['-', c], o)) ((names_nodup t).filter _)
      (List.mem_filter.2 ⟨hm, by simp⟩)]
    · rfl
    · rintro ⟨n, p⟩ hp
      simp only [List.mem_filter, decide_eq_true_eq] at hp
      obtain ⟨h1, rfl⟩ := hp
      rw [names_inj t h1 hm]

theorem long_nil {x pre : List Char} {val : Option (List Char)}
    (hp : partitionEq ('-' :: '-' :: x) = (pre, val)) :
    optionTuples tbl ('-' :: '-' :: x) = [] ↔ ∀ f ∈ flat tbl, ¬ pre <+: f.name.toList := by
  constructor
  · intro h f hf hpre
    obtain ⟨o, ho⟩ := same_of_flat hf
    have := (long_tuples hp (p := (f.name.toList, o))).2 ⟨ho.1, hpre⟩
    rw [h] at this; cases this
  · intro h
    rw [List.eq_nil_iff_forall_not_mem]
    intro tp htp
    have h' := htp
    simp only [optionTuples, hp, List.mem_map, List.mem_filter, List.isPrefixOf_iff_prefix] at h'
    obtain ⟨⟨n, o⟩, ⟨h1, h2⟩, -⟩ := h'
    obtain ⟨f, hf, e⟩ := same_of_names h1
    exact h f (same_mem hf).2 (by rw [e]; exact h2)

theorem long_single (t : TableOK tbl) {x pre : List Char} {val : Option (List Char)}
    (hp : partitionEq ('-' :: '-' :: x) = (pre, val)) {tp : Tup}
    (h : optionTuples tbl ('-' :: '-' :: x) = [tp]) :
    ∃ o f, Same tbl o f ∧ tp = ⟨some o, f.name.toList, val.isSome, val⟩ ∧ pre <+: f.name.toList ∧
      ∀ g ∈ flat tbl, pre <+: g.name.toList → g = f := by
  have hm : tp ∈ optionTuples tbl ('-' :: '-' :: x) := by rw [h]; simp
  simp only [optionTuples, hp, List.mem_map, List.mem_filter, List.isPrefixOf_iff_prefix] at hm
  obtain ⟨⟨n, o⟩, ⟨h1, h2⟩, rfl⟩ := hm
  obtain ⟨f, hf, e⟩ := same_of_names h1
  simp only at h h2 ⊢
  refine ⟨o, f, hf, by rw [e], by rw [e]; exact h2, ?_⟩
  intro g hg hpre
  obtain ⟨p, hp'⟩ := same_of_flat hg
  have := (long_tuples hp (p := (g.name.toList, p))).2 ⟨hp'.1, hpre⟩
  rw [h] at this
  simp only [List.mem_singleton, Tup.mk.injEq, Option.some.injEq, and_true] at this
  exact (same_inj t hp' hf (by rw [this.2, e])).2

theorem long_unique (t : TableOK tbl) {x pre : List Char} {val : Option (List Char)}
    (hp : partitionEq ('-' :: '-' :: x) = (pre, val)) {o : Opt} {f : Spec.Flag} (hf : Same tbl o f)
    (hpre : pre <+: f.name.toList) (hu : ∀ g ∈ flat tbl, pre <+: g.name.toList → g = f) :
    optionTuples tbl ('-' :: '-' :: x) = [⟨some o, f.name.toList, val.isSome, val⟩] := by
  have : (names tbl).filter (fun p => pre.isPrefixOf p.1) = [(f.name.toList, o)] := by
    refine eq_singleton ((names_nodup t).filter _) (List.mem_filter.2 ⟨hf.1, ?_⟩) ?_
    · rw [List.isPrefixOf_iff_prefix]; exact hpre
    · rintro ⟨n, p⟩ hm
      simp only [List.mem_filter, List.isPrefixOf_iff_prefix] at hm
      obtain ⟨g, hg, e⟩ := same_of_names hm.1
      have := hu g (same_mem hg).2 (by rw [e]; exact hm.2)
      subst this
      rw [e, names_inj t hm.1 (e ▸ hf.1)]
  simp only [optionTuples, hp, this, List.map_cons, List.map_nil]


theorem not_prefix_short (t : TableOK tbl) {f : Spec.Flag} (h : f ∈ flat tbl) {c : Char}
    (hc : f.name.toList = ['-', c]) : c ≠ '-' := by
  rcases good_cases t h with ⟨d, e, h1, -⟩ | ⟨d, l, e, -⟩
  · rw [hc] at e; simp only [List.cons.injEq, and_true, true_and] at e; rw [e]; exact h1
  · rw [hc] at e; simp at e

theorem po_sound (t : TableOK tbl) {s : List Char} {r : Option Tup}
    (h : parseOptional py tbl s = .ok r) :
    (r = none ∧ Spec.NotOption py (flat tbl) s) ∨ ∃ tp, r = some tp ∧ IsOpt tbl s tp := by
  unfold parseOptional at h
  by_cases h0 : s.head? = some '-'
  swap
  · rw [if_pos h0] at h
    injection h with h
    exact Or.inl ⟨h.symm, Or.inl h0⟩
  rw [if_neg (by simpa using h0)] at h
  cases hl : lookup tbl s with
  | some o =>
    rw [hl] at h
    injection h with h
    obtain ⟨f, hf, e⟩ := same_of_names ((lookup_eq_some t).1 hl)
    refine Or.inr ⟨_, h.symm, ?_⟩
    rcases good_cases t (same_mem hf).2 with ⟨c, hc, h1, -⟩ | ⟨c, l, hc, h1⟩
    · have hs : s = ['-', c] := by rw [← e, hc]
      subst hs
      exact IsOpt.exact rfl h1 hf hc
    · have hn : '=' ∉ s := by rw [← e]; exact no_eq t (same_mem hf).2
      have := IsOpt.long (tbl := tbl) (s := s) (x := c :: l) (by rw [← e, hc]) hf (partitionEq_none hn)
        ⟨(same_mem hf).2, Or.inl e⟩
      rw [e] at this
      exact this
  | none =>
    rw [hl] at h
    have hnone := (lookup_eq_none t).1 hl
    simp only at h
    obtain ⟨s', rfl⟩ : ∃ s', s = '-' :: s' := by
      cases s with
      | nil => cases h0
      | cons a s' => simp only [List.head?_cons, Option.some.injEq] at h0; exact ⟨s', by rw [h0]⟩
    cases s' with
    | nil =>
      simp only [List.length_cons, List.length_nil, Nat.zero_add, if_true] at h
      injection h with h
      exact Or.inl ⟨h.symm, Or.inr (Or.inl rfl)⟩
    | cons c x =>
      rw [if_neg (by simp)] at h
      cases hpe : partitionEq ('-' :: c :: x) with
      | mk pre val =>
      rw [hpe] at h
      simp only at h
      by_cases hc : c = '-'
      · subst hc
        have hrest : (match optionTuples tbl ('-' :: '-' :: x) with
            | [t] => .ok (some t)
            | _ :: _ :: _ => .error .error
            | [] => if isNegative py ('-' :: '-' :: x) then .ok none
              else if ' ' ∈ ('-' :: '-' :: x) then .ok none
              else .ok (some ⟨none, '-' :: '-' :: x, false, none⟩)) = (Except.ok r : Except Exit _) →
            (∀ g ∈ flat tbl, g.name.toList ≠ pre) →
            (r = none ∧ Spec.NotOption py (flat tbl) ('-' :: '-' :: x)) ∨
              ∃ tp, r = some tp ∧ IsOpt tbl ('-' :: '-' :: x) tp := by
          intro h hno
          split at h
          · next tp htp =>
            injection h with h
            obtain ⟨o, f, hf, rfl, h1, h2⟩ := long_single t hpe htp
            exact Or.inr ⟨_, h.symm, IsOpt.long rfl hf hpe ⟨(same_mem hf).2, Or.inr ⟨hno, h1, h2⟩⟩⟩
          · cases h
          · next htp =>
            have hnil := (long_nil hpe).1 htp
            have hcould : ∀ f ∈ flat tbl, ¬ Spec.CouldBe ('-' :: '-' :: x) f := by
              intro f hf
              unfold Spec.CouldBe
              rw [if_pos ⟨x, rfl⟩]
              have : ('-' :: '-' :: x).takeWhile (fun c => decide (c ≠ '=')) = pre := by
                unfold partitionEq at hpe
                exact (Prod.mk.injEq _ _ _ _ ▸ hpe).1
              rw [this]
              exact hnil f hf
            split at h
            · next hneg =>
              injection h with h
              exact Or.inl ⟨h.symm, Or.inr (Or.inr ⟨hcould, Or.inl ((isNegative_iff py _).1 hneg)⟩)⟩
            · split at h
              · next hsp =>
                injection h with h
                exact Or.inl ⟨h.symm, Or.inr (Or.inr ⟨hcould, Or.inr hsp⟩)⟩
              · injection h with h
                exact Or.inr ⟨_, h.symm, IsOpt.unknown rfl⟩
        split at h
        · next v o hlo =>
          injection h with h
          obtain ⟨f, hf, e⟩ := same_of_names ((lookup_eq_some t).1 hlo)
          have := IsOpt.long (tbl := tbl) rfl hf hpe ⟨(same_mem hf).2, Or.inl e⟩
          rw [e] at this
          exact Or.inr ⟨_, h.symm, this⟩
        · next hne =>
          refine hrest h ?_
          rcases partition_cases ('-' :: '-' :: x) with hn | ⟨a, v, e, hn⟩
          · rw [partitionEq_none hn] at hpe
            simp only [Prod.mk.injEq] at hpe
            rw [← hpe.1]; exact hnone
          · rw [e, partitionEq_some hn] at hpe
            simp only [Prod.mk.injEq] at hpe
            cases hlo : lookup tbl pre with
            | some o => exact absurd hlo (fun h => hne v o hpe.2.symm h)
            | none => exact (lookup_eq_none t).1 hlo
      · rw [short_tuples t hc] at h
        have hpre : ∀ v o, val = some v → lookup tbl pre = some o →
            ∃ f, Same tbl o f ∧ f.name.toList = ['-', c] ∧ pre = ['-', c] ∧ x = '=' :: v := by
          intro v o hv hlo
          obtain ⟨f, hf, e⟩ := same_of_names ((lookup_eq_some t).1 hlo)
          rcases partition_cases ('-' :: c :: x) with hn | ⟨a, w, e', hn⟩
          · rw [partitionEq_none hn] at hpe
            simp only [Prod.mk.injEq] at hpe
            rw [hv] at hpe; cases hpe.2
          · rw [e', partitionEq_some hn, hv] at hpe
            simp only [Prod.mk.injEq, Option.some.injEq] at hpe
            obtain ⟨rfl, rfl⟩ := hpe
            rcases good_cases t (same_mem hf).2 with ⟨d, hd, h1, -⟩ | ⟨d, l, hd, h1⟩
            · have ha : a = ['-', d] := by rw [← e, hd]
              rw [ha] at e'
              simp only [List.cons_append, List.nil_append, List.cons.injEq, true_and] at e'
              refine ⟨f, hf, by rw [hd, e'.1], by rw [ha, e'.1], e'.2⟩
            · have ha : a = '-' :: '-' :: d :: l := by rw [← e, hd]
              rw [ha] at e'
              simp only [List.cons_append, List.cons.injEq, true_and] at e'
              exact absurd e'.1 hc
        split at h
        · next v o hlo =>
          injection h with h
          obtain ⟨f, hf, e, e1, e2⟩ := hpre v o rfl hlo
          subst e1 e2
          exact Or.inr ⟨_, h.symm, IsOpt.eq rfl hc hf e⟩
        · next hne =>
          cases hlc : lookup tbl ['-', c] with
          | some o =>
            rw [hlc] at h
            simp only at h
            injection h with h
            obtain ⟨f, hf, e⟩ := same_of_names ((lookup_eq_some t).1 hlc)
            refine Or.inr ⟨_, h.symm, ?_⟩
            cases x with
            | nil => rw [hlc] at hl; cases hl
            | cons d v =>
              refine IsOpt.attached rfl ?_ hc hf e
              rintro rfl
              have hcc : c ≠ '=' := by
                rcases good_cases t (same_mem hf).2 with ⟨d, hd, h1, h2⟩ | ⟨d, l, hd, h1⟩
                · rw [e] at hd; simp only [List.cons.injEq, and_true, true_and] at hd; rw [hd]; exact h2
                · rw [e] at hd; simp at hd
              have : partitionEq ('-' :: c :: '=' :: v) = (['-', c], some v) :=
                partitionEq_some (s := ['-', c]) (by simp [hcc.symm])
              rw [this] at hpe
              simp only [Prod.mk.injEq] at hpe
              obtain ⟨rfl, rfl⟩ := hpe
              exact hne v o rfl hlc
          | none =>
            rw [hlc] at h
            simp only at h
            have hcould : ∀ f ∈ flat tbl, ¬ Spec.CouldBe ('-' :: c :: x) f := by
              intro f hf
              unfold Spec.CouldBe
              rw [if_neg]
              · exact (lookup_eq_none t).1 hlc f hf
              · rintro ⟨r, hr⟩
                simp only [List.cons_append, List.cons.injEq, true_and] at hr
                exact hc hr.1.symm
            split at h
            · next hneg =>
              injection h with h
              exact Or.inl ⟨h.symm, Or.inr (Or.inr ⟨hcould, Or.inl ((isNegative_iff py _).1 hneg)⟩)⟩
            · split at h
              · next hsp =>
                injection h with h
                exact Or.inl ⟨h.symm, Or.inr (Or.inr ⟨hcould, Or.inr hsp⟩)⟩
              · injection h with h
                exact Or.inr ⟨_, h.symm, IsOpt.unknown rfl⟩


theorem po_plain (t : TableOK tbl) {s : List Char} (h : Spec.NotOption py (flat tbl) s) :
    parseOptional py tbl s = .ok none := by
  unfold parseOptional
  by_cases h0 : s.head? = some '-'
  swap
  · rw [if_pos h0]
  rw [if_neg (by simpa using h0)]
  rcases h with h | rfl | ⟨h, hneg⟩
  · exact absurd h0 h
  · have : lookup tbl ['-'] = none := by
      rw [lookup_eq_none t]
      intro f hf e
      rcases good_cases t hf with ⟨c, hc, -⟩ | ⟨c, l, hc, -⟩ <;> rw [hc] at e <;> simp at e
    rw [this]; rfl
  · obtain ⟨s', rfl⟩ : ∃ s', s = '-' :: s' := by
      cases s with
      | nil => cases h0
      | cons a s' => simp only [List.head?_cons, Option.some.injEq] at h0; exact ⟨s', by rw [h0]⟩
    cases s' with
    | nil =>
      have : lookup tbl ['-'] = none := by
        rw [lookup_eq_none t]
        intro f hf e
        rcases good_cases t hf with ⟨c, hc, -⟩ | ⟨c, l, hc, -⟩ <;> rw [hc] at e <;> simp at e
      rw [this]; rfl
    | cons c x =>
      have hend : (if isNegative py ('-' :: c :: x) then .ok none
          else if ' ' ∈ ('-' :: c :: x) then .ok none
          else .ok (some ⟨none, '-' :: c :: x, false, none⟩)) = (Except.ok none : Except Exit (Option Tup)) := by
        by_cases hn : isNegative py ('-' :: c :: x) = true
        · rw [if_pos hn]
        · rw [if_neg hn]
          rcases hneg with h | h
          · exact absurd ((isNegative_iff py _).2 h) hn
          · rw [if_pos h]
      by_cases hc : c = '-'
      · subst hc
        cases hpe : partitionEq ('-' :: '-' :: x) with
        | mk pre val =>
        have hpre : ('-' :: '-' :: x).takeWhile (fun c => decide (c ≠ '=')) = pre := by
          unfold partitionEq at hpe
          exact (Prod.mk.injEq _ _ _ _ ▸ hpe).1
        have hno : ∀ f ∈ flat tbl, ¬ pre <+: f.name.toList := by
          intro f hf
          have := h f hf
          unfold Spec.CouldBe at this
          rw [if_pos ⟨x, rfl⟩, hpre] at this
          exact this
        have hl : lookup tbl ('-' :: '-' :: x) = none := by
          rw [lookup_eq_none t]
          intro f hf e
          have hq := no_eq t hf
          rw [e] at hq
          rw [partitionEq_none hq] at hpe
          simp only [Prod.mk.injEq] at hpe
          exact hno f hf (by rw [← hpe.1, e]; exact List.prefix_refl _)
        have hl' : lookup tbl pre = none := by
          rw [lookup_eq_none t]
          intro f hf e
          exact hno f hf (by rw [e]; exact List.prefix_refl _)
        rw [hl]
        simp only [List.length_cons]
        rw [if_neg (by omega), (long_nil hpe).2 hno, hl']
        cases val <;> exact hend
      · have hno : ∀ f ∈ flat tbl, f.name.toList ≠ ['-', c] := by
          intro f hf
          have := h f hf
          unfold Spec.CouldBe at this
          rw [if_neg] at this
          · exact this
          · rintro ⟨r, hr⟩
            simp only [List.cons_append, List.cons.injEq, true_and] at hr
            exact hc hr.1.symm
        have hlong : ∀ f ∈ flat tbl, ∀ y, f.name.toList ≠ '-' :: c :: y := by
          intro f hf y e
          rcases good_cases t hf with ⟨d, hd, -⟩ | ⟨d, l, hd, -⟩
          · rw [hd] at e
            simp only [List.cons.injEq, true_and] at e
            exact hno f hf (by rw [hd, e.1])
          · rw [hd] at e
            simp only [List.cons.injEq, true_and] at e
            exact hc e.1.symm
        have hl : lookup tbl ('-' :: c :: x) = none := by
          rw [lookup_eq_none t]
          intro f hf e
          exact hlong f hf _ e
        have hl' : lookup tbl (partitionEq ('-' :: c :: x)).1 = none := by
          rw [lookup_eq_none t]
          intro f hf e
          have hp : (partitionEq ('-' :: c :: x)).1 =
            ('-' :: c :: x).takeWhile (fun c => decide (c ≠ '=')) := rfl
          rw [hp] at e
          by_cases hce : c = '='
          · subst hce
            simp at e
            rcases good_cases t hf with ⟨d, hd, -⟩ | ⟨d, l, hd, -⟩ <;> rw [hd] at e <;> simp at e
          · rw [List.takeWhile_cons_of_pos (by simp), List.takeWhile_cons_of_pos (by simp [hce])] at e
            exact hlong f hf _ e
        rw [hl]
        simp only [List.length_cons]
        rw [if_neg (by omega), short_tuples t hc, (lookup_eq_none t).2 hno]
        simp only [hl']
        cases (partitionEq ('-' :: c :: x)).2 <;> exact hend

theorem po_exact (t : TableOK tbl) {s : List Char} {o : Opt} (h : (s, o) ∈ names tbl) :
    parseOptional py tbl s = .ok (some ⟨some o, s, false, none⟩) := by
  unfold parseOptional
  obtain ⟨f, hf, e⟩ := same_of_names h
  have h0 : s.head? = some '-' := by
    rcases good_cases t (same_mem hf).2 with ⟨d, hd, -⟩ | ⟨d, l, hd, -⟩ <;> rw [← e, hd] <;> rfl
  rw [if_neg (by simpa using h0), (lookup_eq_some t).2 h]

/-- A string with `=` behind the name. -/
theorem po_eq (t : TableOK tbl) {s v : List Char} {o : Opt} (h : (s, o) ∈ names tbl) :
    parseOptional py tbl (s ++ '=' :: v) = .ok (some ⟨some o, s, true, some v⟩) := by
  unfold parseOptional
  obtain ⟨f, hf, e⟩ := same_of_names h
  have hq := no_eq t (same_mem hf).2
  rw [e] at hq
  have h0 : (s ++ '=' :: v).head? = some '-' ∧ 2 ≤ s.length := by
    rcases good_cases t (same_mem hf).2 with ⟨d, hd, -⟩ | ⟨d, l, hd, -⟩ <;> rw [← e, hd] <;> simp
  have hl : lookup tbl (s ++ '=' :: v) = none := by
    rw [lookup_eq_none t]
    intro g hg e'
    have := no_eq t hg
    rw [e'] at this
    simp at this
  rw [if_neg (by simpa using h0.1), hl]
  simp only
  rw [if_neg (by simp; omega), partitionEq_some hq]
  simp only [(lookup_eq_some t).2 h]

theorem po_long (t : TableOK tbl) {x s : List Char} {v : Option (List Char)} {f : Spec.Flag}
    (hx : s = '-' :: '-' :: x) (h : Spec.Names (flat tbl) s f) :
    ∃ o, Same tbl o f ∧ parseOptional py tbl (match v with | none => s | some v => s ++ '=' :: v) =
      .ok (some ⟨some o, f.name.toList, v.isSome, v⟩) := by
  obtain ⟨o, ho⟩ := same_of_flat h.1
  refine ⟨o, ho, ?_⟩
  rcases h.2 with e | ⟨hno, hpre, hu⟩
  · cases v with
    | none => rw [e]; exact po_exact t (e ▸ ho.1)
    | some v => rw [e]; exact po_eq t (e ▸ ho.1)
  · have hq : '=' ∉ s := fun hm => no_eq t h.1 (hpre.subset hm)
    have hl : lookup tbl s = none := (lookup_eq_none t).2 hno
    cases v with
    | none =>
      unfold parseOptional
      simp only
      rw [if_neg (by rw [hx]; simp), hl]
      simp only
      rw [if_neg (by rw [hx]; simp), partitionEq_none hq]
      subst hx
      simp only [long_unique t (partitionEq_none hq) ho hpre hu, Option.isSome_none]
    | some v =>
      have hl' : lookup tbl (s ++ '=' :: v) = none := by
        rw [lookup_eq_none t]
        intro g hg e'
        have := no_eq t hg
        rw [e'] at this
        simp at this
      unfold parseOptional
      simp only
      rw [if_neg (by rw [hx]; simp), hl']
      simp only
      rw [if_neg (by rw [hx]; simp), partitionEq_some hq]
      simp only [hl]
      have hp := partitionEq_some (v := v) hq
      subst hx
      have := long_unique t (x := x ++ '=' :: v) hp ho hpre hu
      simp only [List.cons_append] at this ⊢
      rw [this]

theorem po_attached (t : TableOK tbl) {c d : Char} {v : List Char} {o : Opt}
    (h : (['-', c], o) ∈ names tbl) (hd : d ≠ '=') :
    parseOptional py tbl ('-' :: c :: d :: v) = .ok (some ⟨some o, ['-', c], false, some (d :: v)⟩) := by
  obtain ⟨f, hf, e⟩ := same_of_names h
  have hc : c ≠ '-' ∧ c ≠ '=' := by
    rcases good_cases t (same_mem hf).2 with ⟨d, hd, h1⟩ | ⟨d, l, hd, -⟩
    · rw [e] at hd; simp only [List.cons.injEq, and_true, true_and] at hd; rw [hd]; exact h1
    · rw [e] at hd; simp at hd
  have hlong : ∀ f ∈ flat tbl, ∀ a y, f.name.toList ≠ '-' :: c :: a :: y := by
    intro f hf a y e
    rcases good_cases t hf with ⟨d, hd, -⟩ | ⟨d, l, hd, -⟩
    · rw [hd] at e; simp at e
    · rw [hd] at e
      simp only [List.cons.injEq, true_and] at e
      exact hc.1 e.1.symm
  have hl : lookup tbl ('-' :: c :: d :: v) = none := by
    rw [lookup_eq_none t]
    intro f hf e
    exact hlong f hf _ _ e
  have hl' : lookup tbl (partitionEq ('-' :: c :: d :: v)).1 = none := by
    rw [lookup_eq_none t]
    intro f hf e
    have hp : (partitionEq ('-' :: c :: d :: v)).1 =
      ('-' :: c :: d :: v).takeWhile (fun c => decide (c ≠ '=')) := rfl
    rw [hp, List.takeWhile_cons_of_pos (by simp), List.takeWhile_cons_of_pos (by simp [hc.2]),
      List.takeWhile_cons_of_pos (by simp [hd])] at e
    exact hlong f hf _ _ e
  unfold parseOptional
  rw [if_neg (by simp), hl]
  simp only [List.length_cons]
  rw [if_neg (by omega), short_tuples t hc.1, (lookup_eq_some t).2 h]
  simp only [hl']
  cases (partitionEq ('-' :: c :: d :: v)).2 <;> rfl

end

end Qopen.CmdLine
