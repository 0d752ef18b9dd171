import Verif.Lemmas.CmdLine

/-!
# Lemmas about the command line parser: actions and strings
-/

namespace Qopen.CmdLine

open Run

/-! ## Actions -/

theorem ebind_ok {α β : Type} {x : Except Exit α} {f : α → Except Exit β} {b : β} :
    (x >>= f) = .ok b ↔ ∃ a, x = .ok a ∧ f a = .ok b := by
  cases x <;> simp [bind, Except.bind]

section

variable {tbl : List Opt} {py : Lang} {cmd : String}

/-- Number stored by a counting option. -/
def counted (st : St) (o : Opt) : ℚ :=
  match st.ns.get? o.dest with
  | some (.num n) => n
  | _ => 0

/-- State after an action with value `j`. -/
def after (st : St) (o : Opt) (j : J) : St :=
  ⟨Dict.set st.ns o.dest (if o.kind = .count then .num (counted st o + 1) else j), o :: st.seen, st.extras⟩

/-- The option excludes one which was given. -/
def clash (st : St) (o : Opt) : Prop := ∃ p ∈ st.seen, o.group.isSome = true ∧ p.group = o.group ∧ p ≠ o

theorem clash_iff {st : St} {o : Opt} :
    (o.group.isSome && st.seen.any (fun p => decide (p.group = o.group ∧ p ≠ o))) = true ↔ clash st o := by
  simp only [Bool.and_eq_true, List.any_eq_true, decide_eq_true_eq, clash]
  constructor
  · rintro ⟨h, p, hp, h1, h2⟩; exact ⟨p, hp, h, h1, h2⟩
  · rintro ⟨p, hp, h, h1, h2⟩; exact ⟨h, p, hp, h1, h2⟩

theorem take_iff {st st' : St} {o : Opt} {f : Spec.Flag} {v : Option (List Char)} (hs : Same tbl o f) :
    take py st o v = .ok st' ↔
      ∃ j, Spec.useValue py ⟨f, v.getD []⟩ = some j ∧ ¬ clash st o ∧ st' = after st o j := by
  have ht : f.takes = takesOf o.kind := hs.2.2
  unfold take Spec.useValue
  simp only [ht]
  by_cases hc : clash st o
  · have hb := clash_iff.2 hc
    simp only [hb, if_true]
    refine iff_of_false ?_ ?_
    · intro h
      cases hk : o.kind with
      | value c =>
        cases c
        · simp [hk, bind, Except.bind] at h
        · simp only [hk] at h
          cases hj : py.json (v.getD []) <;> rw [hj] at h <;> simp [bind, Except.bind] at h
        · simp only [hk] at h
          cases hj : py.int (v.getD []) <;> rw [hj] at h <;> simp [bind, Except.bind] at h
      | _ => simp [hk, bind, Except.bind] at h
    · rintro ⟨j, -, h, -⟩; exact h hc
  · have hb : (o.group.isSome && st.seen.any (fun p => decide (p.group = o.group ∧ p ≠ o))) = false := by
      rw [Bool.eq_false_iff]; exact fun h => hc (clash_iff.1 h)
    simp only [hb]
    cases hk : o.kind with
    | help => simp [takesOf, bind, Except.bind]
    | version => simp [takesOf, bind, Except.bind]
    | flag b =>
      cases b <;> simp [takesOf, bind, Except.bind, hc, after, hk, eq_comm]
    | count =>
      simp only [takesOf, bind, Except.bind, hc, after, hk, eq_comm, counted, not_false_eq_true, true_and,
        if_true, Option.some.injEq, exists_eq_left, Bool.false_eq_true, if_false, Except.ok.injEq]
      exact Iff.rfl
    | value c =>
      cases c
      · simp [takesOf, bind, Except.bind, hc, after, hk, eq_comm]
      · simp only [takesOf, hc, after, hk]
        cases hj : py.json (v.getD []) <;> simp [bind, Except.bind, eq_comm]
      · simp only [takesOf, hc, after, hk]
        cases hj : py.int (v.getD []) <;> simp [bind, Except.bind, eq_comm]

theorem valueOf_append (us : List Spec.Use) (u : Spec.Use) {k : String} (hk : k ≠ "cmd") :
    Spec.givenValue py cmd (us ++ [u]) k = if u.flag.key = k then
        (if k = "verbose" then
          some (.num ((us.filter (fun u => decide (u.flag.key = k))).length + 1)) else Spec.useValue py u)
      else Spec.givenValue py cmd us k := by
  unfold Spec.givenValue
  rw [if_neg hk, if_neg hk, List.filter_append]
  by_cases e : u.flag.key = k
  · simp [e]
  · simp [e]

/-- The state after these options. -/
structure Inv (py : Lang) (cmd : String) (tbl : List Opt) (st : St) (us : List Spec.Use) : Prop where
  wf : st.ns.WF
  get : ∀ k, k ≠ "cmd" → st.ns.get? k = Spec.givenValue py cmd us k
  nocmd : st.ns.get? "cmd" = none
  seen : ∀ p ∈ st.seen, p ∈ tbl ∧ ∃ u ∈ us, u.flag.key = p.dest ∧ u.flag.takes = takesOf p.kind
  used : ∀ u ∈ us, ∃ p ∈ st.seen, u.flag.key = p.dest ∧ u.flag.takes = takesOf p.kind
  valid : Spec.Valid py us

theorem takes_on {k : Kind} : takesOf k = .on ↔ k = .flag true := by
  cases k with
  | flag b => cases b <;> simp [takesOf]
  | value c => cases c <;> simp [takesOf]
  | _ => simp [takesOf]

theorem takes_off {k : Kind} : takesOf k = .off ↔ k = .flag false := by
  cases k with
  | flag b => cases b <;> simp [takesOf]
  | value c => cases c <;> simp [takesOf]
  | _ => simp [takesOf]

/-- Switches exclude their opposites. -/
theorem clash_valid (t : TableOK tbl) {st : St} {us : List Spec.Use} (h : Inv py cmd tbl st us) {o : Opt}
    {f : Spec.Flag} (hs : Same tbl o f) :
    clash st o ↔ ∃ u ∈ us, u.flag.key = f.key ∧ ((u.flag.takes = .on ∧ f.takes = .off) ∨
      (u.flag.takes = .off ∧ f.takes = .on)) := by
  have hk : f.key = o.dest := hs.2.1
  have ht : f.takes = takesOf o.kind := hs.2.2
  constructor
  · rintro ⟨p, hp, hg⟩
    obtain ⟨hpt, u, hu, h1, h2⟩ := h.seen p hp
    obtain ⟨g1, g2⟩ := (t.group o (same_mem hs).1 p hpt).1 hg
    refine ⟨u, hu, by rw [h1, g1, hk], ?_⟩
    rw [h2, ht]
    rcases g2 with ⟨a, b⟩ | ⟨a, b⟩
    · exact Or.inr ⟨takes_off.2 b, takes_on.2 a⟩
    · exact Or.inl ⟨takes_on.2 b, takes_off.2 a⟩
  · rintro ⟨u, hu, h1, h2⟩
    obtain ⟨p, hp, g1, g2⟩ := h.used u hu
    refine ⟨p, hp, (t.group o (same_mem hs).1 p (h.seen p hp).1).2 ⟨by rw [← g1, h1, hk], ?_⟩⟩
    rw [g2, ht] at h2
    rcases h2 with ⟨a, b⟩ | ⟨a, b⟩
    · exact Or.inr ⟨takes_off.1 b, takes_on.1 a⟩
    · exact Or.inl ⟨takes_on.1 b, takes_off.1 a⟩

theorem valid_append {us : List Spec.Use} {u : Spec.Use} (h : Spec.Valid py us) :
    Spec.Valid py (us ++ [u]) ↔ Spec.useValue py u ≠ none ∧
      ¬ ∃ w ∈ us, w.flag.key = u.flag.key ∧ ((w.flag.takes = .on ∧ u.flag.takes = .off) ∨
      (w.flag.takes = .off ∧ u.flag.takes = .on)) := by
  constructor
  · rintro ⟨h1, h2⟩
    refine ⟨h1 u (by simp), ?_⟩
    rintro ⟨w, hw, e, ⟨a, b⟩ | ⟨a, b⟩⟩
    · exact h2 w (by simp [hw]) u (by simp) e ⟨a, b⟩
    · exact h2 u (by simp) w (by simp [hw]) e.symm ⟨b, a⟩
  · rintro ⟨h1, h2⟩
    refine ⟨?_, ?_⟩
    · intro w hw
      rw [List.mem_append, List.mem_singleton] at hw
      rcases hw with hw | rfl
      · exact h.1 w hw
      · exact h1
    · intro a ha b hb e
      rw [List.mem_append, List.mem_singleton] at ha hb
      rcases ha with ha | rfl <;> rcases hb with hb | rfl
      · exact h.2 a ha b hb e
      · exact fun hh => h2 ⟨a, ha, e, Or.inl hh⟩
      · exact fun hh => h2 ⟨b, hb, e.symm, Or.inr ⟨hh.2, hh.1⟩⟩
      · rintro ⟨x, y⟩; rw [x] at y; cases y

theorem take_inv (t : TableOK tbl) {st : St} {us : List Spec.Use} (h : Inv py cmd tbl st us) {o : Opt}
    {f : Spec.Flag} {v : Option (List Char)} (hs : Same tbl o f) :
    (∀ st', take py st o v = .ok st' → Inv py cmd tbl st' (us ++ [⟨f, v.getD []⟩]) ∧
      st'.extras = st.extras) ∧
    (Spec.Valid py (us ++ [⟨f, v.getD []⟩]) → ∃ st', take py st o v = .ok st') := by
  have hk : f.key = o.dest := hs.2.1
  have ht : f.takes = takesOf o.kind := hs.2.2
  have hmem := (same_mem hs).1
  constructor
  · intro st' h'
    obtain ⟨j, hj, hc, rfl⟩ := (take_iff hs).1 h'
    rw [clash_valid t h hs] at hc
    refine ⟨⟨Dict.WF_set h.wf _ _, ?_, ?_, ?_, ?_, ?_⟩, rfl⟩
    · intro k hkc
      rw [valueOf_append us _ hkc]
      simp only [after, hk]
      rw [Dict.get?_set]
      by_cases e : o.dest = k
      · rw [if_pos e, if_pos e]
        subst e
        by_cases ec : o.kind = .count
        · rw [if_pos ec, if_pos ((t.count o hmem).1 ec)]
          have hd := (t.count o hmem).1 ec
          have hg := h.get o.dest hkc
          unfold counted
          rw [hg]
          unfold Spec.givenValue
          rw [if_neg hkc]
          simp only
          cases hl : (us.filter (fun u => decide (u.flag.key = o.dest))).getLast? with
          | none =>
            rw [List.getLast?_eq_none_iff] at hl
            rw [hl]
            simp [Spec.defaultValue, hd]
          | some u =>
            simp only [hd, if_true]
        · rw [if_neg ec, if_neg (fun hd => ec ((t.count o hmem).2 hd)), hj]
      · rw [if_neg e, if_neg e]
        exact h.get k hkc
    · simp only [after]
      rw [Dict.get?_set_ne _ _ (t.free o hmem)]
      exact h.nocmd
    · intro p hp
      simp only [after, List.mem_cons] at hp
      rcases hp with rfl | hp
      · exact ⟨hmem, _, List.mem_append_right _ (List.mem_singleton.2 rfl), hk, ht⟩
      · obtain ⟨h1, u, hu, h2⟩ := h.seen p hp
        exact ⟨h1, u, List.mem_append_left _ hu, h2⟩
    · intro u hu
      rw [List.mem_append, List.mem_singleton] at hu
      rcases hu with hu | rfl
      · obtain ⟨p, hp, h1⟩ := h.used u hu
        exact ⟨p, List.mem_cons_of_mem _ hp, h1⟩
      · exact ⟨o, List.mem_cons_self .., hk, ht⟩
    · rw [valid_append h.valid]
      exact ⟨by rw [hj]; simp, hc⟩
  · intro hv
    rw [valid_append h.valid] at hv
    obtain ⟨j, hj⟩ := Option.ne_none_iff_exists'.1 hv.1
    refine ⟨_, (take_iff hs).2 ⟨j, hj, ?_, rfl⟩⟩
    rw [clash_valid t h hs]
    exact hv.2

theorem Valid.prefix {us ws : List Spec.Use} (h : Spec.Valid py (us ++ ws)) : Spec.Valid py us :=
  ⟨fun u hu => h.1 u (List.mem_append_left _ hu),
    fun u hu w hw => h.2 u (List.mem_append_left _ hu) w (List.mem_append_left _ hw)⟩

/-- Actions and the options as given. -/
def Acts (tbl : List Opt) (acts : List (Opt × Option (List Char))) (us : List Spec.Use) : Prop :=
  List.Forall₂ (fun a u => Same tbl a.1 u.flag ∧ u.value = a.2.getD []) acts us

theorem takeAll_inv (t : TableOK tbl) {acts : List (Opt × Option (List Char))} {ws : List Spec.Use}
    (ha : Acts tbl acts ws) {st : St} {us : List Spec.Use} (h : Inv py cmd tbl st us) :
    (∀ st', takeAll py st acts = .ok st' → Inv py cmd tbl st' (us ++ ws) ∧ st'.extras = st.extras) ∧
    (Spec.Valid py (us ++ ws) → ∃ st', takeAll py st acts = .ok st') := by
  induction ha generalizing st us with
  | nil =>
    refine ⟨?_, fun _ => ⟨st, rfl⟩⟩
    intro st' h'
    injection h' with h'
    subst h'
    rw [List.append_nil]
    exact ⟨h, rfl⟩
  | @cons a u acts ws hau _ ih =>
    obtain ⟨o, v⟩ := a
    obtain ⟨f, w⟩ := u
    obtain ⟨hs, hw⟩ := hau
    simp only at hs hw
    subst hw
    have h1 := take_inv t h (v := v) hs
    constructor
    · intro st' h'
      rw [takeAll, ebind_ok] at h'
      obtain ⟨st1, e1, e2⟩ := h'
      obtain ⟨i1, x1⟩ := h1.1 st1 e1
      obtain ⟨i2, x2⟩ := (ih i1).1 st' e2
      rw [List.append_assoc] at i2
      exact ⟨i2, x2.trans x1⟩
    · intro hv
      have e : us ++ (⟨f, v.getD []⟩ :: ws) = (us ++ [⟨f, v.getD []⟩]) ++ ws := by simp
      rw [e] at hv
      obtain ⟨st1, e1⟩ := h1.2 (Valid.prefix hv)
      obtain ⟨st2, e2⟩ := (ih (h1.1 st1 e1).1).2 hv
      exact ⟨st2, by rw [takeAll, ebind_ok]; exact ⟨st1, e1, e2⟩⟩


theorem take_extras {st st' : St} {o : Opt} {v : Option (List Char)} (h : take py st o v = .ok st') :
    st'.extras = st.extras := by
  unfold take at h
  rw [ebind_ok] at h
  obtain ⟨j, -, h⟩ := h
  split at h
  · cases h
  · simp only at h
    split at h <;> first | cases h; done | (injection h with h; rw [← h])

theorem takeAll_extras {acts : List (Opt × Option (List Char))} {st st' : St}
    (h : takeAll py st acts = .ok st') : st'.extras = st.extras := by
  induction acts generalizing st with
  | nil => injection h with h; rw [h]
  | cons a acts ih =>
    rw [takeAll, ebind_ok] at h
    obtain ⟨st1, e1, e2⟩ := h
    rw [ih e2, take_extras e1]

/-! ## One string -/

/-- The string behind the dash. -/
def token (c : Char) (sep : Bool) (e : List Char) : List Char := c :: (if sep then '=' :: e else e)

/-- The letters `tok` are read as these actions. -/
def Ends (py : Lang) (tbl : List Opt) (tok : List Char) (acts : List (Opt × Option (List Char))) :
    Stop → Prop
  | .extra => True
  | .done => ∃ us, Acts tbl acts us ∧ ∀ l, Spec.Short py (flat tbl) tok l us l
  | .next o' => ∃ us f', Acts tbl acts us ∧ Same tbl o' f' ∧
      (¬ f'.hasValue → ∀ l, Spec.Short py (flat tbl) tok l (us ++ [⟨f', []⟩]) l) ∧
      (f'.hasValue → ∀ v l, Spec.NotOption py (flat tbl) v →
        Spec.Short py (flat tbl) tok (v :: l) (us ++ [⟨f', v⟩]) l)

theorem chain_sound (t : TableOK tbl) {o : Opt} {f : Spec.Flag} {c : Char} {sep : Bool} {e : List Char}
    {acts : List (Opt × Option (List Char))} {stop : Stop}
    (hs : Same tbl o f) (hn : f.name.toList = ['-', c]) (h : chain tbl o true sep e = .ok (acts, stop))
    (hsep : sep = true ∨ ∃ d v, e = d :: v ∧ d ≠ '=') : Ends py tbl (token c sep e) acts stop := by
  induction hlen : e.length using Nat.strong_induction_on generalizing e o f c sep acts stop with
  | _ n ih =>
  have hmem := (same_mem hs).2
  have act1 : ∀ w : Option (List Char), Acts tbl [(o, w)] [⟨f, w.getD []⟩] :=
    fun w => List.Forall₂.cons ⟨hs, rfl⟩ List.Forall₂.nil
  cases e with
  | nil =>
    have hsep : sep = true := by
      rcases hsep with h | ⟨d, v, e, -⟩
      · exact h
      · cases e
    subst hsep
    rw [chain] at h
    split at h
    · next hv =>
      simp only [Except.ok.injEq, Prod.mk.injEq] at h
      obtain ⟨rfl, rfl⟩ := h
      exact ⟨_, act1 _, fun l => Spec.Short.eq hmem hn ((takes_value hs).1 hv)⟩
    · cases h
  | cons c1 e1 =>
    rw [chain] at h
    split at h
    · next hv =>
      simp only [Except.ok.injEq, Prod.mk.injEq] at h
      obtain ⟨rfl, rfl⟩ := h
      refine ⟨_, act1 _, fun l => ?_⟩
      have hv' := (takes_value hs).1 hv
      cases sep with
      | true => exact Spec.Short.eq hmem hn hv'
      | false =>
        rcases hsep with h | ⟨d, v, e, hd⟩
        · cases h
        · simp only [List.cons.injEq] at e
          obtain ⟨rfl, rfl⟩ := e
          exact Spec.Short.attached hmem hn hv' hd
    · next hv =>
      have hv' : ¬ f.hasValue := fun hh => hv ((takes_value hs).2 hh)
      simp only [if_true] at h
      split at h
      · cases h
      · next hcond =>
        simp only [Bool.or_eq_true, decide_eq_true_eq, not_or] at hcond
        obtain ⟨hsf, hc1⟩ := hcond
        have hsf : sep = false := by simpa using hsf
        subst hsf
        have hceq : c1 ≠ '=' := by
          rcases hsep with h | ⟨d, v, e, hd⟩
          · cases h
          · simp only [List.cons.injEq] at e
            rw [e.1]; exact hd
        split at h
        · simp only [Except.ok.injEq, Prod.mk.injEq] at h
          obtain ⟨rfl, rfl⟩ := h
          trivial
        · next o' hl =>
          obtain ⟨f', hs', hn'⟩ := same_of_names ((lookup_eq_some t).1 hl)
          have hmem' := (same_mem hs').2
          cases e1 with
          | nil =>
            simp only [Except.ok.injEq, Prod.mk.injEq] at h
            obtain ⟨rfl, rfl⟩ := h
            refine ⟨[⟨f, []⟩], f', act1 none, hs', ?_, ?_⟩
            · intro hh l
              exact Spec.Short.more hmem hn hv' hceq hc1 (Spec.Short.switch hmem' hn' hh)
            · intro hh v l hp
              exact Spec.Short.more hmem hn hv' hceq hc1 (Spec.Short.next hmem' hn' hh hp)
          | cons d e' =>
            simp only at h
            have h : ∃ r, (if d = '=' then chain tbl o' true true e' else chain tbl o' true false (d :: e'))
                = .ok r ∧ ((o, none) :: r.1, r.2) = (acts, stop) := by
              by_cases hd : d = '='
              · rw [if_pos hd, ebind_ok] at h
                obtain ⟨r, h1, h2⟩ := h
                rw [if_pos hd]
                exact ⟨r, h1, by injection h2⟩
              · rw [if_neg hd, ebind_ok] at h
                obtain ⟨r, h1, h2⟩ := h
                rw [if_neg hd]
                exact ⟨r, h1, by injection h2⟩
            obtain ⟨⟨acts', stop'⟩, h1, h2⟩ := h
            simp only [Prod.mk.injEq] at h2
            obtain ⟨rfl, rfl⟩ := h2
            have key : Ends py tbl (c1 :: d :: e') acts' stop' := by
              by_cases hd : d = '='
              · subst hd
                rw [if_pos rfl] at h1
                have := ih e'.length (by rw [← hlen]; simp; omega) hs' hn' h1 (Or.inl rfl) rfl
                exact this
              · rw [if_neg hd] at h1
                have := ih (d :: e').length (by rw [← hlen]; simp) hs' hn' h1 (Or.inr ⟨d, e', rfl, hd⟩) rfl
                exact this
            cases stop' with
            | extra => trivial
            | done =>
              obtain ⟨us, ha, hr⟩ := key
              exact ⟨⟨f, []⟩ :: us, List.Forall₂.cons ⟨hs, rfl⟩ ha,
                fun l => Spec.Short.more hmem hn hv' hceq hc1 (hr l)⟩
            | next o2 =>
              obtain ⟨us, f2, ha, hs2, hr1, hr2⟩ := key
              refine ⟨⟨f, []⟩ :: us, f2, List.Forall₂.cons ⟨hs, rfl⟩ ha, hs2, ?_, ?_⟩
              · intro hh l
                exact Spec.Short.more hmem hn hv' hceq hc1 (hr1 hh l)
              · intro hh v l hp
                exact Spec.Short.more hmem hn hv' hceq hc1 (hr2 hh v l hp)

/-- Result of the loop over the letters `x` behind the first one. -/
def letters (tbl : List Opt) (o : Opt) : List Char → Except Exit (List (Opt × Option (List Char)) × Stop)
  | [] => .ok ([], .next o)
  | d :: v => if d = '=' then chain tbl o true true v else chain tbl o true false (d :: v)

/-- Actions and options which agree. -/
def Fits (py : Lang) (tbl : List Opt) (acts : List (Opt × Option (List Char))) (stop : Stop)
    (l : List (List Char)) (us : List Spec.Use) (l' : List (List Char)) : Prop :=
  match stop with
  | .extra => False
  | .done => Acts tbl acts us ∧ l = l'
  | .next o' => ∃ us0 f', Acts tbl acts us0 ∧ Same tbl o' f' ∧
      ((¬ f'.hasValue ∧ us = us0 ++ [⟨f', []⟩] ∧ l = l') ∨
        (f'.hasValue ∧ ∃ v, l = v :: l' ∧ Spec.NotOption py (flat tbl) v ∧ us = us0 ++ [⟨f', v⟩]))

theorem short_complete (t : TableOK tbl) {cs : List Char} {l l' : List (List Char)} {us : List Spec.Use}
    (h : Spec.Short py (flat tbl) cs l us l') :
    ∃ c x o f acts stop, cs = c :: x ∧ Same tbl o f ∧ f.name.toList = ['-', c] ∧
      letters tbl o x = .ok (acts, stop) ∧ Fits py tbl acts stop l us l' := by
  induction h with
  | @switch c f l hf hn hv =>
    obtain ⟨o, hs⟩ := same_of_flat hf
    exact ⟨c, [], o, f, [], .next o, rfl, hs, hn, rfl, [], f, List.Forall₂.nil, hs, Or.inl ⟨hv, rfl, rfl⟩⟩
  | @more c d cs f l us l' hf hn hv hd hd' _ ih =>
    obtain ⟨o, hs⟩ := same_of_flat hf
    obtain ⟨c1, x, o1, f1, acts, stop, e, hs1, hn1, hl, hfit⟩ := ih
    simp only [List.cons.injEq] at e
    obtain ⟨rfl, rfl⟩ := e
    refine ⟨c, d :: cs, o, f, (o, none) :: acts, stop, rfl, hs, hn, ?_, ?_⟩
    · have hv' : ¬ o.kind.takesValue = true := fun hh => hv ((takes_value hs).1 hh)
      have hlk : lookup tbl ['-', d] = some o1 := (lookup_eq_some t).2 (hn1 ▸ hs1.1)
      rw [letters, if_neg hd, chain, if_neg hv', if_pos rfl, if_neg (by simp [hd']), hlk]
      simp only
      cases cs with
      | nil =>
        simp only [letters, Except.ok.injEq, Prod.mk.injEq] at hl
        obtain ⟨rfl, rfl⟩ := hl
        rfl
      | cons a b =>
        rw [letters] at hl
        by_cases ha : a = '='
        · simp only [if_pos ha] at hl ⊢
          rw [hl]; rfl
        · simp only [if_neg ha] at hl ⊢
          rw [hl]; rfl
    · unfold Fits at hfit ⊢
      cases stop with
      | extra => exact hfit
      | done => exact ⟨List.Forall₂.cons ⟨hs, rfl⟩ hfit.1, hfit.2⟩
      | next o2 =>
        obtain ⟨us0, f2, ha, hs2, hor⟩ := hfit
        refine ⟨⟨f, []⟩ :: us0, f2, List.Forall₂.cons ⟨hs, rfl⟩ ha, hs2, ?_⟩
        rcases hor with ⟨h1, rfl, h3⟩ | ⟨h1, v, h2, h3, rfl⟩
        · exact Or.inl ⟨h1, rfl, h3⟩
        · exact Or.inr ⟨h1, v, h2, h3, rfl⟩
  | @attached c d v f l hf hn hv hd =>
    obtain ⟨o, hs⟩ := same_of_flat hf
    refine ⟨c, d :: v, o, f, [(o, some (d :: v))], .done, rfl, hs, hn, ?_,
      List.Forall₂.cons ⟨hs, rfl⟩ List.Forall₂.nil, rfl⟩
    rw [letters, if_neg hd, chain, if_pos ((takes_value hs).2 hv)]
  | @eq c v f l hf hn hv =>
    obtain ⟨o, hs⟩ := same_of_flat hf
    refine ⟨c, '=' :: v, o, f, [(o, some v)], .done, rfl, hs, hn, ?_,
      List.Forall₂.cons ⟨hs, rfl⟩ List.Forall₂.nil, rfl⟩
    rw [letters, if_pos rfl]
    cases v <;> rw [chain, if_pos ((takes_value hs).2 hv)]
  | @next c v f l hf hn hv hp =>
    obtain ⟨o, hs⟩ := same_of_flat hf
    exact ⟨c, [], o, f, [], .next o, rfl, hs, hn, rfl, [], f, List.Forall₂.nil, hs,
      Or.inr ⟨hv, v, rfl, hp, rfl⟩⟩

end

end Qopen.CmdLine
