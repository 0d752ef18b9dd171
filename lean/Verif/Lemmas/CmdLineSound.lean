import Verif.Lemmas.CmdLineRead

/-!
# Lemmas about the command line parser: a successful parse reads the strings as options
-/

namespace Qopen.CmdLine

open Run

section

variable {tbl : List Opt} {py : Lang} {cmd : String}

/-- First part of `consume`: the actions of a string. -/
def acting (tbl : List Opt) (o : Opt) (t : Tup) : Except Exit (List (Opt × Option (List Char)) × Stop) :=
  match t.explicit with
  | none => .ok ([], .next o)
  | some e => chain tbl o (decide (t.name[1]? ≠ some '-')) t.sep e

/-- Second part of `consume`. -/
def finish (py : Lang) (st : St) (rest : List Item) (acts : List (Opt × Option (List Char))) :
    Stop → Except Exit (St × Bool)
  | .done => do
    let st ← takeAll py st acts
    .ok (st, false)
  | .extra => do
    let st ← takeAll py st acts
    .ok ({ st with extras := true }, false)
  | .next o =>
    if o.kind.takesValue then
      match rest with
      | .arg v :: _ => do
        let st ← takeAll py st (acts ++ [(o, some v)])
        .ok (st, true)
      | _ => .error .error
    else do
      let st ← takeAll py st (acts ++ [(o, none)])
      .ok (st, false)

theorem consume_some {st : St} {t : Tup} {rest : List Item} {o : Opt} (ho : t.opt = some o) :
    consume py tbl st t rest = (acting tbl o t >>= fun r => finish py st rest r.1 r.2) := by
  unfold consume acting finish
  rw [ho]
  congr 1
theorem finish_extras {st st' : St} {rest : List Item} {acts : List (Opt × Option (List Char))}
    {stop : Stop} {u : Bool} (h : finish py st rest acts stop = .ok (st', u)) (hx : st.extras = true) :
    st'.extras = true := by
  unfold finish at h
  split at h
  · rw [ebind_ok] at h
    obtain ⟨s1, h1, h2⟩ := h
    simp only [Except.ok.injEq, Prod.mk.injEq] at h2
    rw [← h2.1, takeAll_extras h1, hx]
  · rw [ebind_ok] at h
    obtain ⟨s1, h1, h2⟩ := h
    simp only [Except.ok.injEq, Prod.mk.injEq] at h2
    rw [← h2.1]
  · split at h
    · split at h
      · rw [ebind_ok] at h
        obtain ⟨s1, h1, h2⟩ := h
        simp only [Except.ok.injEq, Prod.mk.injEq] at h2
        rw [← h2.1, takeAll_extras h1, hx]
      · cases h
    · rw [ebind_ok] at h
      obtain ⟨s1, h1, h2⟩ := h
      simp only [Except.ok.injEq, Prod.mk.injEq] at h2
      rw [← h2.1, takeAll_extras h1, hx]

theorem consume_extras {st st' : St} {t : Tup} {rest : List Item} {u : Bool}
    (h : consume py tbl st t rest = .ok (st', u)) (hx : st.extras = true) : st'.extras = true := by
  cases ho : t.opt with
  | none =>
    unfold consume at h
    rw [ho] at h
    simp only [Except.ok.injEq, Prod.mk.injEq] at h
    rw [← h.1]
  | some o =>
    rw [consume_some ho, ebind_ok] at h
    obtain ⟨r, -, h⟩ := h
    exact finish_extras h hx

theorem parseItems_opt {s : List Char} {t : Tup} {l : List Item} {st st' : St} :
    parseItems py tbl st (.opt s t :: l) = .ok st' ↔ ∃ s1 u, consume py tbl st t l = .ok (s1, u) ∧
      parseItems py tbl s1 (if u then l.tail else l) = .ok st' := by
  rw [parseItems, ebind_ok]
  constructor
  · rintro ⟨⟨s1, u⟩, h1, h2⟩
    refine ⟨s1, u, h1, ?_⟩
    cases l with
    | nil => cases u <;> exact h2
    | cons i l => cases u <;> exact h2
  · rintro ⟨s1, u, h1, h2⟩
    refine ⟨⟨s1, u⟩, h1, ?_⟩
    cases l with
    | nil => cases u <;> exact h2
    | cons i l => cases u <;> exact h2

theorem parseItems_extras {items : List Item} {st st' : St} (h : parseItems py tbl st items = .ok st')
    (hx : st.extras = true) : st'.extras = true := by
  induction hn : items.length using Nat.strong_induction_on generalizing items st with
  | _ n ih =>
  cases items with
  | nil => rw [parseItems] at h; injection h with h; rw [← h, hx]
  | cons i l =>
    cases i with
    | arg s => rw [parseItems] at h; exact ih l.length (by rw [← hn]; simp) h rfl rfl
    | dash => rw [parseItems] at h; exact ih l.length (by rw [← hn]; simp) h rfl rfl
    | opt s t =>
      rw [parseItems_opt] at h
      obtain ⟨s1, u, h1, h2⟩ := h
      have hx1 := consume_extras h1 hx
      refine ih _ ?_ h2 hx1 rfl
      rw [← hn]
      cases u <;> simp
      omega

theorem names_long (t : TableOK tbl) {x s : List Char} {f : Spec.Flag} (hx : s = '-' :: '-' :: x)
    (h : Spec.Names (flat tbl) s f) : ∃ c l, f.name.toList = '-' :: '-' :: c :: l := by
  have hp : s <+: f.name.toList := by
    rcases h.2 with e | ⟨-, e, -⟩
    · rw [e]; exact List.prefix_refl _
    · exact e
  rcases good_cases t h.1 with ⟨c, hc, h1, -⟩ | ⟨c, l, hc, -⟩
  · rw [hc, hx] at hp
    obtain ⟨r, hr⟩ := hp
    simp only [List.cons_append, List.cons.injEq, true_and] at hr
    exact absurd hr.1.symm h1
  · exact ⟨c, l, hc⟩

theorem chain_long {o : Opt} {sep : Bool} {e : List Char} {r : List (Opt × Option (List Char)) × Stop} :
    chain tbl o false sep e = .ok r ↔ o.kind.takesValue = true ∧ r = ([(o, some e)], .done) := by
  cases e <;> rw [chain] <;> by_cases h : o.kind.takesValue = true <;> simp [h, eq_comm]

theorem single {o : Opt} {f : Spec.Flag} (hs : Same tbl o f) (w : Option (List Char)) :
    Acts tbl [(o, w)] [⟨f, w.getD []⟩] :=
  List.Forall₂.cons ⟨hs, rfl⟩ List.Forall₂.nil

theorem Acts.snoc {acts : List (Opt × Option (List Char))} {us : List Spec.Use} (h : Acts tbl acts us)
    {o : Opt} {f : Spec.Flag} (hs : Same tbl o f) (w : Option (List Char)) :
    Acts tbl (acts ++ [(o, w)]) (us ++ [⟨f, w.getD []⟩]) :=
  List.rel_append h (single hs w)

/-- The ways in which a string and the next one are read. -/
def Step (py : Lang) (tbl : List Opt) (s : List Char)
    (acts : List (Opt × Option (List Char))) (stop : Stop) : Prop :=
  match stop with
  | .extra => True
  | .done => ∃ us, Acts tbl acts us ∧ ∀ l us', Spec.Reads py (flat tbl) l us' →
      Spec.Reads py (flat tbl) (s :: l) (us ++ us')
  | .next o' => ∃ us f', Acts tbl acts us ∧ Same tbl o' f' ∧
      (¬ f'.hasValue → s ≠ ['-', '-'] → ∀ l us', Spec.Reads py (flat tbl) l us' →
        Spec.Reads py (flat tbl) (s :: l) (us ++ [⟨f', []⟩] ++ us')) ∧
      (f'.hasValue → s ≠ ['-', '-'] → ∀ v l us', Spec.NotOption py (flat tbl) v → Spec.Reads py (flat tbl) l us' →
        Spec.Reads py (flat tbl) (s :: v :: l) (us ++ [⟨f', v⟩] ++ us'))

theorem step_of_ends {c : Char} {tok : List Char}
    {acts : List (Opt × Option (List Char))} {stop : Stop} (hc : c ≠ '-')
    (h : Ends py tbl (c :: tok) acts stop) : Step py tbl ('-' :: c :: tok) acts stop := by
  cases stop with
  | extra => trivial
  | done =>
    obtain ⟨us, ha, hr⟩ := h
    exact ⟨us, ha, fun l us' h' => Spec.Reads.short hc (hr l) h'⟩
  | next o' =>
    obtain ⟨us, f', ha, hs, h1, h2⟩ := h
    exact ⟨us, f', ha, hs, fun hv _ l us' h' => Spec.Reads.short hc (h1 hv l) h',
      fun hv _ v l us' hp h' => Spec.Reads.short hc (h2 hv v l hp) h'⟩

theorem acting_sound (t : TableOK tbl) {s : List Char} {tp : Tup} (hi : IsOpt tbl s tp) {o : Opt}
    (ho : tp.opt = some o) {acts : List (Opt × Option (List Char))} {stop : Stop}
    (h : acting tbl o tp = .ok (acts, stop)) : Step py tbl s acts stop := by
  cases hi with
  | unknown hu => rw [hu] at ho; cases ho
  | @long x o' f pre val hx hs hp hn =>
    simp only [Option.some.injEq] at ho
    subst ho
    have hpre : ∃ y, pre = '-' :: '-' :: y := by
      have : s.takeWhile (fun c => decide (c ≠ '=')) = pre := by
        unfold partitionEq at hp
        exact (Prod.mk.injEq _ _ _ _ ▸ hp).1
      rw [hx, List.takeWhile_cons_of_pos (by decide), List.takeWhile_cons_of_pos (by decide)] at this
      exact ⟨_, this.symm⟩
    obtain ⟨y, rfl⟩ := hpre
    obtain ⟨c, l, hfl⟩ := names_long t rfl hn
    rcases partition_cases s with hq | ⟨a, v, e, hq⟩
    · rw [partitionEq_none hq] at hp
      simp only [Prod.mk.injEq] at hp
      obtain ⟨rfl, rfl⟩ := hp
      simp only [acting, Except.ok.injEq, Prod.mk.injEq] at h
      obtain ⟨rfl, rfl⟩ := h
      refine ⟨[], f, List.Forall₂.nil, hs, ?_, ?_⟩
      · intro hv hne l us' h'
        cases y with
        | nil => exact absurd rfl hne
        | cons c y => exact Spec.Reads.switch hn hv h'
      · intro hv hne v l us' hpl h'
        cases y with
        | nil => exact absurd rfl hne
        | cons c y => exact Spec.Reads.next hn hv hpl h'
    · rw [e, partitionEq_some hq] at hp
      simp only [Prod.mk.injEq] at hp
      obtain ⟨rfl, rfl⟩ := hp
      have hd : decide (f.name.toList[1]? ≠ some '-') = false := by rw [hfl]; simp
      simp only [acting, hd, chain_long] at h
      obtain ⟨hv, h⟩ := h
      simp only [Prod.mk.injEq] at h
      obtain ⟨rfl, rfl⟩ := h
      refine ⟨[⟨f, v⟩], single hs (some v), ?_⟩
      intro l us' h'
      rw [e]
      exact Spec.Reads.eq hn ((takes_value hs).1 hv) h'
  | @exact c o' f hx hc hs hn =>
    simp only [Option.some.injEq] at ho
    subst ho
    simp only [acting, Except.ok.injEq, Prod.mk.injEq] at h
    obtain ⟨rfl, rfl⟩ := h
    rw [hx]
    refine step_of_ends hc ⟨[], f, List.Forall₂.nil, hs, ?_, ?_⟩
    · intro hv l; exact Spec.Short.switch (same_mem hs).2 hn hv
    · intro hv v l hp; exact Spec.Short.next (same_mem hs).2 hn hv hp
  | @eq c v o' f hx hc hs hn =>
    simp only [Option.some.injEq] at ho
    subst ho
    have hd : decide ((['-', c] : List Char)[1]? ≠ some '-') = true := by simp [hc]
    simp only [acting, hd] at h
    rw [hx]
    exact step_of_ends hc (chain_sound t hs hn h (Or.inl rfl))
  | @attached c d v o' f hx hd hc hs hn =>
    simp only [Option.some.injEq] at ho
    subst ho
    have hdd : decide ((['-', c] : List Char)[1]? ≠ some '-') = true := by simp [hc]
    simp only [acting, hdd] at h
    rw [hx]
    exact step_of_ends hc (chain_sound t hs hn h (Or.inr ⟨d, v, rfl, hd⟩))

theorem classify_cons {s : List Char} {l : List (List Char)} {items : List Item}
    (h : classify py tbl (s :: l) = .ok items) (hs : s ≠ ['-', '-']) :
    ∃ r items', parseOptional py tbl s = .ok r ∧ classify py tbl l = .ok items' ∧
      items = (match r with | none => .arg s | some t => .opt s t) :: items' := by
  rw [classify, if_neg hs, ebind_ok] at h
  obtain ⟨r, h1, h⟩ := h
  rw [ebind_ok] at h
  obtain ⟨items', h2, h⟩ := h
  exact ⟨r, items', h1, h2, by injection h with h; exact h.symm⟩

/-- A successful parse reads the strings as options. -/
theorem parseItems_sound (t : TableOK tbl) {l : List (List Char)} {items : List Item} {st st' : St}
    {us : List Spec.Use} (hc : classify py tbl l = .ok items)
    (h : parseItems py tbl st items = .ok st') (hx : st'.extras = false) (hi : Inv py cmd tbl st us) :
    ∃ ws, Spec.Reads py (flat tbl) l ws ∧ Inv py cmd tbl st' (us ++ ws) := by
  induction hn : l.length using Nat.strong_induction_on generalizing l items st us with
  | _ n ih =>
  cases l with
  | nil =>
    rw [classify] at hc
    injection hc with hc
    subst hc
    rw [parseItems] at h
    injection h with h
    subst h
    exact ⟨[], Spec.Reads.nil, by rw [List.append_nil]; exact hi⟩
  | cons s l =>
    by_cases hs : s = ['-', '-']
    · rw [classify, if_pos hs] at hc
      injection hc with hc
      subst hc
      rw [parseItems] at h
      have := parseItems_extras h rfl
      rw [hx] at this; cases this
    · obtain ⟨r, items', h1, h2, rfl⟩ := classify_cons hc hs
      rcases po_sound t h1 with ⟨rfl, -⟩ | ⟨tp, rfl, hio⟩
      · simp only at h
        rw [parseItems] at h
        have := parseItems_extras h rfl
        rw [hx] at this; cases this
      · simp only at h
        rw [parseItems_opt] at h
        obtain ⟨s1, u, h3, h4⟩ := h
        have hx1 : s1.extras = false := by
          by_contra hne
          have hne : s1.extras = true := by simpa using hne
          have := parseItems_extras h4 hne
          rw [hx] at this; cases this
        cases ho : tp.opt with
        | none =>
          unfold consume at h3
          rw [ho] at h3
          simp only [Except.ok.injEq, Prod.mk.injEq] at h3
          rw [← h3.1] at hx1; cases hx1
        | some o =>
          rw [consume_some ho, ebind_ok] at h3
          obtain ⟨⟨acts, stop⟩, ha, hf⟩ := h3
          have hstep := acting_sound (py := py) t hio ho ha
          simp only at hf
          unfold finish at hf
          cases stop with
          | extra =>
            simp only at hf
            rw [ebind_ok] at hf
            obtain ⟨s2, -, hf⟩ := hf
            simp only [Except.ok.injEq, Prod.mk.injEq] at hf
            rw [← hf.1] at hx1; cases hx1
          | done =>
            simp only at hf
            rw [ebind_ok] at hf
            obtain ⟨s2, e2, hf⟩ := hf
            simp only [Except.ok.injEq, Prod.mk.injEq] at hf
            obtain ⟨rfl, rfl⟩ := hf
            obtain ⟨ws, hacts, hr⟩ := hstep
            have hi' := ((takeAll_inv t hacts hi).1 _ e2).1
            obtain ⟨ws', hr', hi''⟩ := ih l.length (by rw [← hn]; simp) h2 h4 hi' rfl
            exact ⟨ws ++ ws', hr l ws' hr', by rw [← List.append_assoc]; exact hi''⟩
          | next o' =>
            obtain ⟨ws, f', hacts, hs', hr1, hr2⟩ := hstep
            simp only at hf
            split at hf
            · next hv =>
              have hv' := (takes_value hs').1 hv
              split at hf
              · next v rest' =>
                rw [ebind_ok] at hf
                obtain ⟨s2, e2, hf⟩ := hf
                simp only [Except.ok.injEq, Prod.mk.injEq] at hf
                obtain ⟨rfl, rfl⟩ := hf
                simp only at h4
                have hi' := ((takeAll_inv t (hacts.snoc hs' (some v)) hi).1 _ e2).1
                cases l with
                | nil => rw [classify] at h2; cases h2
                | cons s3 l3 =>
                  by_cases hs3 : s3 = ['-', '-']
                  · rw [classify, if_pos hs3] at h2
                    injection h2 with h2
                    cases h2
                  · obtain ⟨r3, items3, p1, p2, p3⟩ := classify_cons h2 hs3
                    rcases po_sound t p1 with ⟨rfl, hpl⟩ | ⟨tp3, rfl, -⟩
                    · simp only [List.cons.injEq, Item.arg.injEq] at p3
                      obtain ⟨rfl, rfl⟩ := p3
                      obtain ⟨ws', hr', hi''⟩ := ih l3.length (by rw [← hn]; simp; omega) p2 h4 hi' rfl
                      exact ⟨ws ++ [⟨f', v⟩] ++ ws', hr2 hv' hs v l3 ws' hpl hr',
                        by rw [← List.append_assoc]; exact hi''⟩
                    · simp at p3
              · cases hf
            · next hv =>
              have hv' : ¬ f'.hasValue := fun hh => hv ((takes_value hs').2 hh)
              rw [ebind_ok] at hf
              obtain ⟨s2, e2, hf⟩ := hf
              simp only [Except.ok.injEq, Prod.mk.injEq] at hf
              obtain ⟨rfl, rfl⟩ := hf
              have hi' := ((takeAll_inv t (hacts.snoc hs' none) hi).1 _ e2).1
              obtain ⟨ws', hr', hi''⟩ := ih l.length (by rw [← hn]; simp) h2 h4 hi' rfl
              exact ⟨ws ++ [⟨f', []⟩] ++ ws', hr1 hv' hs l ws' hr',
                by rw [← List.append_assoc]; exact hi''⟩

end

end Qopen.CmdLine
