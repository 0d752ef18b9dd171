import Verif.Spec.Run
import Verif.Model.Load

/-!
# Reading stations and events (C103)
-/

namespace Qopen

open Run Load

namespace Spec

/-- Option `inventory` names a file, with or without format. -/
def InventoryFile (option name format : J) : Prop :=
  (option = name ∧ (∃ s, name = .str s) ∧ format = .null) ∨ option = .list [name, format]

/-- Option `events` names a file, with or without format. -/
def EventFile (option : J) (name : String) (format : Option J) : Prop :=
  (option = .str name ∧ format = none) ∨ ∃ f, option = .list [.str name, f] ∧ format = some f

/-- Resolving of station names is requested, by the option or for the reader. -/
def Resolving (resolveSeedid : J) (kwargs : Args) : Prop :=
  On resolveSeedid ∨ ∃ v, kwargs.get? "resolve_seedid" = some v ∧ On v

/-- Options of the reader: the given ones, with the format and, to resolve names of stations, the
inventory. -/
def ReaderOptions (kwargs : Args) (format : Option J) (resolveSeedid inventory : J) (kw : Args) :
    Prop :=
  (∀ k, k ≠ "format" → k ≠ "inventory" → k ≠ "resolve_seedid" → kw.get? k = kwargs.get? k) ∧
  kw.get? "format" = format.or (kwargs.get? "format") ∧ kw.get? "resolve_seedid" = none ∧
  (Resolving resolveSeedid kwargs → kw.get? "inventory" = some inventory) ∧
  (¬ Resolving resolveSeedid kwargs → kw.get? "inventory" = kwargs.get? "inventory")

/-- The selection: everything without the option. -/
def Selected {α : Type} (select : J → α → Py J) (given : J → Option α) (all filter out : J) : Prop :=
  (¬ On filter ∧ out = all) ∨
  (On filter ∧ ∃ a, given filter = some a ∧ select all a = .ok out)

end Spec

/-- **C103**: stations are taken from the given inventory, or read from the given file with the given
format, and selected as configured. -/
theorem C103_inventory (env : Load.Env) (option filter out : J) (hd : ∀ d, option ≠ .dict d) :
    Load.loadInventory env option filter = .ok out ↔
      ∃ all, ((∃ n, option = .obj n ∧ all = option) ∨
          ∃ name format, Spec.InventoryFile option name format ∧
            env.readInventory name format = .ok all) ∧
        Spec.Selected env.select (fun f => match f with | .dict d => some d | _ => none) all filter out := by
  unfold Load.loadInventory
  rw [bind_ok]
  refine exists_congr fun all => and_congr ?_ ?_
  · unfold readInventory
    split
    · rename_i n
      simp [Spec.InventoryFile, eq_comm]
    · rename_i hn
      have h0 : ¬ ∃ n, option = .obj n ∧ all = option := by
        rintro ⟨n, rfl, -⟩; exact hn n rfl
      simp only [h0, false_or]
      rw [bind_ok]
      unfold inventoryFile Spec.InventoryFile
      split
      · rename_i s
        simp only [Except.ok.injEq, exists_eq_left', reduceCtorEq, or_false]
        constructor
        · intro h; exact ⟨_, _, ⟨rfl, ⟨s, rfl⟩, rfl⟩, h⟩
        · rintro ⟨_, _, ⟨rfl, -, rfl⟩, h⟩; exact h
      · rename_i a b
        simp only [Except.ok.injEq, exists_eq_left']
        constructor
        · intro h; exact ⟨a, b, Or.inr rfl, h⟩
        · rintro ⟨name, format, ⟨rfl, ⟨s, h⟩, -⟩ | h, hr⟩
          · simp at h
          · simp only [J.list.injEq, List.cons.injEq, and_true] at h
            rw [h.1, h.2]; exact hr
      · rename_i l hl
        simp only [reduceCtorEq, false_and, exists_false, false_iff]
        rintro ⟨name, format, ⟨rfl, ⟨s, h⟩, -⟩ | h, hr⟩
        · simp at h
        · simp only [J.list.injEq] at h
          exact hl _ _ h
      · exact absurd rfl (hd _)
      · exact absurd rfl (hd _)
      · rename_i h1 h2 h3 h4 h5
        simp only [reduceCtorEq, false_and, exists_false, false_iff]
        rintro ⟨name, format, ⟨rfl, ⟨s, h⟩, -⟩ | h, hr⟩
        · exact h1 s h
        · exact h2 _ _ h
  · unfold selectInventory Spec.Selected
    rw [on_iff]
    by_cases ht : filter.truthy = true
    · simp only [ht, if_true, true_and, Bool.true_eq_false, false_and, false_or]
      split <;> simp_all
    · simp only [ht, if_false, Bool.not_eq_true] at ht ⊢
      simp [ht, eq_comm]

open Classical in
theorem resolve_get (resolveSeedid inventory : J) (kwargs : Args) (hw : kwargs.WF) (k : String) :
    (resolve resolveSeedid inventory kwargs).get? k =
      if k = "inventory" ∧ Spec.Resolving resolveSeedid kwargs then some inventory
      else if k = "resolve_seedid" then none else kwargs.get? k := by
  unfold resolve popD
  by_cases h1 : resolveSeedid.truthy = true
  · have hR : Spec.Resolving resolveSeedid kwargs := Or.inl ((on_iff _).2 h1)
    simp only [h1, if_true, Dict.get?_set_self, Option.getD_some, hR, and_true]
    by_cases hk : k = "inventory"
    · subst hk; simp
    · rw [Dict.get?_set_ne _ _ (Ne.symm hk), if_neg hk]
      by_cases hk' : k = "resolve_seedid"
      · subst hk'
        rw [Dict.get?_pop_self (Dict.WF_set hw _ _), if_pos rfl]
      · rw [Dict.get?_pop_ne _ (Ne.symm hk'), Dict.get?_set_ne _ _ (Ne.symm hk'), if_neg hk']
  · rw [if_neg h1]
    have hR : Spec.Resolving resolveSeedid kwargs ↔
        ((kwargs.get? "resolve_seedid").getD (.bool false)).truthy = true := by
      unfold Spec.Resolving
      simp only [on_iff]
      cases hg : kwargs.get? "resolve_seedid" with
      | none =>
        have : (J.bool false).truthy = false := rfl
        simp [h1, this]
      | some v => simp [h1]
    rw [hR]
    have hp : (kwargs.pop "resolve_seedid").get? k =
        if k = "resolve_seedid" then none else kwargs.get? k := by
      by_cases hk' : k = "resolve_seedid"
      · subst hk'
        rw [Dict.get?_pop_self hw, if_pos rfl]
      · rw [Dict.get?_pop_ne _ (Ne.symm hk'), if_neg hk']
    by_cases h2 : ((kwargs.get? "resolve_seedid").getD (.bool false)).truthy = true
    · simp only [h2, if_pos, and_true]
      by_cases hk : k = "inventory"
      · subst hk; simp
      · rw [Dict.get?_set_ne _ _ (Ne.symm hk), if_neg hk, hp]
    · rw [if_neg h2, if_neg (fun h => h2 h.2)]
      exact hp

theorem resolve_options (resolveSeedid inventory : J) (kwargs : Args) (hw : kwargs.WF) :
    Spec.ReaderOptions kwargs none resolveSeedid inventory (resolve resolveSeedid inventory kwargs) := by
  refine ⟨fun k h1 h2 h3 => ?_, ?_, ?_, fun h => ?_, fun h => ?_⟩
  · rw [resolve_get _ _ _ hw, if_neg (fun h => h2 h.1), if_neg h3]
  · rw [resolve_get _ _ _ hw, if_neg (fun h => by simp at h), if_neg (by decide)]; rfl
  · rw [resolve_get _ _ _ hw, if_neg (fun h => by simp at h), if_pos rfl]
  · rw [resolve_get _ _ _ hw, if_pos ⟨rfl, h⟩]
  · rw [resolve_get _ _ _ hw, if_neg (fun h' => h h'.2), if_neg (by decide)]

theorem filterEvents_ok {env : Load.Env} {all filter out : J} :
    filterEvents env all filter = .ok out ↔
      Spec.Selected env.filterEvents (fun f => match f with | .list l => some l | _ => none)
        all filter out := by
  unfold filterEvents Spec.Selected
  rw [on_iff]
  by_cases ht : filter.truthy = true
  · simp only [ht, if_true, true_and, Bool.true_eq_false, false_and, false_or]
    split <;> simp_all
  · simp only [ht, if_false, Bool.not_eq_true] at ht ⊢
    simp [ht, eq_comm]

/-- **C103**: events are read from the given file with the given format and options, or taken as they
are given (a catalogue, or a list of events), and selected as configured. -/
theorem C103_events (env : Load.Env) (option filter resolveSeedid inventory : J) (kwargs : Args)
    (hw : kwargs.WF) {out : J}
    (h : (Load.loadEvents env option filter resolveSeedid inventory kwargs).1 = .ok out) :
    ∃ all, Spec.Selected env.filterEvents (fun f => match f with | .list l => some l | _ => none)
        all filter out ∧
      ((∃ name format kw, Spec.EventFile option name format ∧
          Spec.ReaderOptions kwargs format resolveSeedid inventory kw ∧
          env.readEvents name kw = .ok all) ∨
        ((∀ name format, ¬ Spec.EventFile option name format) ∧ all = option)) := by
  unfold Load.loadEvents at h
  cases hs : splitFormat option kwargs with
  | error e => rw [hs] at h; simp at h
  | ok r =>
    obtain ⟨ev, kw⟩ := r
    rw [hs] at h
    simp only at h
    unfold splitFormat at hs
    split at hs
    · simp at hs
    · rename_i a b
      simp only [Except.ok.injEq, Prod.mk.injEq] at hs
      obtain ⟨rfl, rfl⟩ := hs
      simp only [readEvents] at h
      obtain ⟨all, hr, h⟩ := bind_ok.1 h
      refine ⟨all, filterEvents_ok.1 h, Or.inl ⟨a, some b, _, Or.inr ⟨b, rfl, rfl⟩, ?_, hr⟩⟩
      obtain ⟨o1, o2, o3, o4, o5⟩ := resolve_options resolveSeedid inventory (kwargs.set "format" b)
        (Dict.WF_set hw _ _)
      have hR : Spec.Resolving resolveSeedid (kwargs.set "format" b) ↔
          Spec.Resolving resolveSeedid kwargs := by
        unfold Spec.Resolving
        rw [Dict.get?_set_ne _ _ (by decide)]
      rw [hR] at o4 o5
      refine ⟨fun k h1 h2 h3 => ?_, ?_, o3, o4, fun h => ?_⟩
      · rw [o1 k h1 h2 h3, Dict.get?_set_ne _ _ (Ne.symm h1)]
      · rw [o2]; simp
      · rw [o5 h, Dict.get?_set_ne _ _ (by decide)]
    · simp at hs
    · rename_i h1 h2 h3
      simp only [Except.ok.injEq, Prod.mk.injEq] at hs
      obtain ⟨rfl, rfl⟩ := hs
      unfold readEvents at h
      split at h
      · rename_i s
        obtain ⟨all, hr, h⟩ := bind_ok.1 h
        exact ⟨all, filterEvents_ok.1 h, Or.inl ⟨s, none, _, Or.inl ⟨rfl, rfl⟩,
          resolve_options _ _ _ hw, hr⟩⟩
      · rename_i hns
        refine ⟨_, filterEvents_ok.1 h, Or.inr ⟨?_, rfl⟩⟩
        rintro name format (⟨rfl, -⟩ | ⟨f, rfl, -⟩)
        · exact hns _ rfl
        · exact h2 _ _ rfl

/-- **C103**: a file with events which can be read is always accepted (converse of `C103_events` for
files). -/
theorem C103_events_read (env : Load.Env) {option filter resolveSeedid inventory : J} {kwargs : Args}
    (hw : kwargs.WF) {name : String} {format : Option J} (hf : Spec.EventFile option name format)
    (hr : ∀ kw, Spec.ReaderOptions kwargs format resolveSeedid inventory kw →
      ∃ all, env.readEvents name kw = .ok all) (hfilter : ¬ Spec.On filter) :
    ∃ out, (Load.loadEvents env option filter resolveSeedid inventory kwargs).1 = .ok out := by
  have hfe : ∀ all, filterEvents env all filter = .ok all := by
    intro all
    simp [filterEvents, (off_iff _).1 hfilter]
  rcases hf with ⟨rfl, rfl⟩ | ⟨f, rfl, rfl⟩
  · obtain ⟨all, ha⟩ := hr _ (resolve_options resolveSeedid inventory kwargs hw)
    exact ⟨all, bind_ok.2 ⟨all, ha, hfe all⟩⟩
  · obtain ⟨o1, o2, o3, o4, o5⟩ := resolve_options resolveSeedid inventory (kwargs.set "format" f)
      (Dict.WF_set hw _ _)
    have hR : Spec.Resolving resolveSeedid (kwargs.set "format" f) ↔
        Spec.Resolving resolveSeedid kwargs := by
      unfold Spec.Resolving
      rw [Dict.get?_set_ne _ _ (by decide)]
    rw [hR] at o4 o5
    obtain ⟨all, ha⟩ := hr (resolve resolveSeedid inventory (kwargs.set "format" f))
      ⟨fun k h1 h2 h3 => by rw [o1 k h1 h2 h3, Dict.get?_set_ne _ _ (Ne.symm h1)], by rw [o2]; simp, o3, o4,
        fun h => by rw [o5 h, Dict.get?_set_ne _ _ (by decide)]⟩
    exact ⟨all, bind_ok.2 ⟨all, ha, hfe all⟩⟩

/-- **C103**: the options of the caller for the reader are not changed if there is nothing to add or
remove.  Missing: a given format and resolving of station names, see the counterexample. -/
theorem C103_caller_partial (env : Load.Env) (option filter resolveSeedid inventory : J)
    (kwargs : Args) (hl : ∀ l, option ≠ .list l) (h1 : ¬ Spec.On resolveSeedid)
    (h2 : kwargs.get? "resolve_seedid" = none) (hw : kwargs.WF) (k : String) :
    (Load.loadEvents env option filter resolveSeedid inventory kwargs).2.get? k = kwargs.get? k := by
  have hsp : splitFormat option kwargs = .ok (option, kwargs) := by
    unfold splitFormat
    split
    · exact absurd rfl (hl _)
    · exact absurd rfl (hl _)
    · exact absurd rfl (hl _)
    · rfl
  unfold Load.loadEvents
  rw [hsp]
  simp only
  unfold readEvents
  split
  · simp only
    rw [resolve_get _ _ _ hw, if_neg, ite_eq_right_iff.2]
    · rintro rfl; exact h2.symm
    · rintro ⟨-, h | ⟨v, hv, -⟩⟩
      · exact h1 h
      · rw [h2] at hv; simp at hv
  · rfl

/-- **C103** does not hold for the options of the caller: the dictionary given as `read_events_kwargs`
keeps format and inventory of the first call and hands them to the reader in a second call, in which
neither is requested. -/
theorem C103_caller_counterexample (env : Load.Env) (inventory : J) :
    let first := Load.loadEvents env (.list [.str "a.hyp", .str "NLLOC"]) .null (.bool true) inventory []
    first.2.get? "format" = some (.str "NLLOC") ∧ first.2.get? "inventory" = some inventory ∧
    (Load.loadEvents env (.str "b.xml") .null (.bool false) .null first.2).1 =
      (env.readEvents "b.xml" [("format", .str "NLLOC"), ("inventory", inventory)]) := by
  refine ⟨rfl, rfl, ?_⟩
  show (env.readEvents "b.xml" [("format", .str "NLLOC"), ("inventory", inventory)] >>=
    fun ev => filterEvents env ev .null) = _
  have : (fun ev => filterEvents env ev .null) = fun ev => .ok ev := rfl
  rw [this]
  cases env.readEvents "b.xml" [("format", .str "NLLOC"), ("inventory", inventory)] <;> rfl

namespace LoadExample

/-- Readers which accept one file each. -/
def env : Load.Env where
  readInventory := fun n f => match n, f with
    | .str "stations.xml", .null => .ok (.obj 1)
    | .str "stations.txt", .str "TXT" => .ok (.obj 2)
    | _, _ => .error .other
  select := fun _ d => if (Dict.get? d "network").isSome then .ok (.obj 3) else .error .typeError
  readEvents := fun s kw => if s = "events.xml" ∧ (Dict.get? kw "format").isNone then .ok (.obj 4)
    else .error .other
  filterEvents := fun _ l => if l.isEmpty then .error .other else .ok (.obj 5)

/-- The hypotheses of C103 can be met. -/
example : Load.loadInventory env (.list [.str "stations.txt", .str "TXT"])
      (.dict [("network", .str "GR")]) = .ok (.obj 3) ∧
    (Load.loadEvents env (.str "events.xml") (.list [.str "magnitude > 3"]) .null .null []).1 =
      .ok (.obj 5) := by
  exact ⟨by with_unfolding_all rfl, by with_unfolding_all rfl⟩

end LoadExample

end Qopen
