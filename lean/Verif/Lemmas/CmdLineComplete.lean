import Verif.Lemmas.CmdLineSound

/-!
# Lemmas about the command line parser: options which can be read are accepted
-/

namespace Qopen.CmdLine

open Run

section

variable {tbl : List Opt} {py : Lang} {cmd : String}

/-- Two long names. -/
def TwoLong (T : List Spec.Flag) : Prop :=
  ∃ f ∈ T, ∃ g ∈ T, f ≠ g ∧ ['-', '-'] <+: f.name.toList ∧ ['-', '-'] <+: g.name.toList

theorem twoLong_of {T : List Spec.Flag} (h : Spec.Flags cmd T) : TwoLong T := by
  have : ⟨"--help", "help", .help⟩ ∈ T ∧ ⟨"--conf", "conf", .text⟩ ∈ T := by
    cases h <;> simp [Spec.generalFlags]
  exact ⟨_, this.1, _, this.2, by decide, by decide, by decide⟩

theorem not_plain {T : List Spec.Flag} (h : TwoLong T) {s : List Char}
    (hs : s = ['-', '-'] ∨ ['-', '-', '='] <+: s) : ¬ Spec.NotOption py T s := by
  obtain ⟨f, hf, -, -, -, hp, -⟩ := h
  have hc : Spec.CouldBe s f := by
    unfold Spec.CouldBe
    rcases hs with rfl | ⟨r, rfl⟩
    · exact hp
    · rw [if_pos ⟨'=' :: r, rfl⟩]
      simpa using hp
  have h0 : s.head? = some '-' ∧ s ≠ ['-'] := by
    rcases hs with rfl | ⟨r, rfl⟩ <;> simp
  rintro (h | h | ⟨h, -⟩)
  · exact h h0.1
  · exact h0.2 h
  · exact h f hf hc

/-- Strings which are read are neither `--` nor begin with `--=`. -/
theorem reads_tokens (t : TableOK tbl) (h2 : TwoLong (flat tbl))
    {l : List (List Char)} {us : List Spec.Use} (h : Spec.Reads py (flat tbl) l us) :
    ∀ s ∈ l, ¬ (s = ['-', '-'] ∨ ['-', '-', '='] <+: s) := by
  have hshort : ∀ {cs l us l'}, Spec.Short py (flat tbl) cs l us l' →
      (∀ s ∈ l', ¬ (s = ['-', '-'] ∨ ['-', '-', '='] <+: s)) →
      ∀ s ∈ l, ¬ (s = ['-', '-'] ∨ ['-', '-', '='] <+: s) := by
    intro cs l us l' h
    induction h with
    | switch => exact id
    | more _ _ _ _ _ _ ih => exact ih
    | attached => exact id
    | eq => exact id
    | next _ _ _ hp =>
      intro h s hs
      rw [List.mem_cons] at hs
      rcases hs with rfl | hs
      · exact fun hh => not_plain h2 hh hp
      · exact h s hs
  have hnames : ∀ {s f}, Spec.Names (flat tbl) s f → '=' ∉ s := by
    intro s f hn hm
    rcases hn.2 with e | ⟨-, e, -⟩
    · exact no_eq t hn.1 (e ▸ hm)
    · exact no_eq t hn.1 (e.subset hm)
  induction h with
  | nil => simp
  | @short c cs l us l' us' hc hs _ ih =>
    intro s hm
    rw [List.mem_cons] at hm
    rcases hm with rfl | hm
    · rintro (h | ⟨r, h⟩)
      · simp only [List.cons.injEq, true_and] at h; exact hc h.1
      · simp only [List.cons_append, List.cons.injEq, true_and] at h; exact hc h.1.symm
    · exact hshort hs ih s hm
  | @switch c s f l us hn hv _ ih =>
    intro s' hm
    rw [List.mem_cons] at hm
    rcases hm with rfl | hm
    · rintro (h | ⟨r, h⟩)
      · simp at h
      · exact hnames hn (by rw [← h]; simp)
    · exact ih s' hm
  | @eq s v f l us hn hv _ ih =>
    intro s' hm
    rw [List.mem_cons] at hm
    rcases hm with rfl | hm
    · rintro (h | ⟨r, h⟩)
      · simp at h
      · have hs : s = [] := by
          cases s with
          | nil => rfl
          | cons a s =>
            simp only [List.cons_append, List.nil_append, List.cons.injEq, true_and] at h
            exact absurd (by rw [← h.1]; simp) (hnames hn)
        subst hs
        obtain ⟨g1, m1, g2, m2, hne, p1, p2⟩ := h2
        rcases hn.2 with e | ⟨-, -, hu⟩
        · rcases good_cases t hn.1 with ⟨c, hc, -⟩ | ⟨c, l, hc, -⟩
          · rw [hc] at e
            simp only [List.cons.injEq, true_and, and_true] at e
            exact not_prefix_short t hn.1 hc e
          · rw [hc] at e; simp at e
        · exact hne ((hu g1 m1 p1).trans (hu g2 m2 p2).symm)
    · exact ih s' hm
  | @next c s v f l us hn hv hp _ ih =>
    intro s' hm
    rw [List.mem_cons, List.mem_cons] at hm
    rcases hm with rfl | rfl | hm
    · rintro (h | ⟨r, h⟩)
      · simp at h
      · exact hnames hn (by rw [← h]; simp)
    · exact fun hh => not_plain h2 hh hp
    · exact ih s' hm


theorem consume_done {st s2 : St} {tp : Tup} {rest : List Item} {o : Opt}
    {acts : List (Opt × Option (List Char))} (ho : tp.opt = some o)
    (ha : acting tbl o tp = .ok (acts, .done)) (h : takeAll py st acts = .ok s2) :
    consume py tbl st tp rest = .ok (s2, false) := by
  rw [consume_some ho, ebind_ok]
  refine ⟨_, ha, ?_⟩
  simp only [finish]
  rw [ebind_ok]
  exact ⟨s2, h, rfl⟩

theorem consume_switch {st s2 : St} {tp : Tup} {rest : List Item} {o o' : Opt}
    {acts : List (Opt × Option (List Char))} (ho : tp.opt = some o)
    (ha : acting tbl o tp = .ok (acts, .next o')) (hv : ¬ o'.kind.takesValue = true)
    (h : takeAll py st (acts ++ [(o', none)]) = .ok s2) :
    consume py tbl st tp rest = .ok (s2, false) := by
  rw [consume_some ho, ebind_ok]
  refine ⟨_, ha, ?_⟩
  simp only [finish]
  rw [if_neg hv, ebind_ok]
  exact ⟨s2, h, rfl⟩

theorem consume_next {st s2 : St} {tp : Tup} {rest : List Item} {o o' : Opt} {v : List Char}
    {acts : List (Opt × Option (List Char))} (ho : tp.opt = some o)
    (ha : acting tbl o tp = .ok (acts, .next o')) (hv : o'.kind.takesValue = true)
    (h : takeAll py st (acts ++ [(o', some v)]) = .ok s2) :
    consume py tbl st tp (.arg v :: rest) = .ok (s2, true) := by
  rw [consume_some ho, ebind_ok]
  refine ⟨_, ha, ?_⟩
  simp only [finish]
  rw [if_pos hv, ebind_ok]
  exact ⟨s2, h, rfl⟩

/-- What is needed of the remaining items. -/
def Goes (py : Lang) (cmd : String) (tbl : List Opt) (l : List (List Char)) (ws : List Spec.Use) : Prop :=
  ∃ items, classify py tbl l = .ok items ∧ ∀ st us, Inv py cmd tbl st us → Spec.Valid py (us ++ ws) →
    ∃ st', parseItems py tbl st items = .ok st' ∧ st'.extras = st.extras ∧ Inv py cmd tbl st' (us ++ ws)

theorem goes_step (t : TableOK tbl) (h2 : TwoLong (flat tbl)) {s : List Char} (hs : s ≠ ['-', '-'])
    {tp : Tup} {o : Opt} {acts : List (Opt × Option (List Char))} {stop : Stop} {l l' : List (List Char)}
    {us ws : List Spec.Use} (hpo : parseOptional py tbl s = .ok (some tp)) (ho : tp.opt = some o)
    (ha : acting tbl o tp = .ok (acts, stop)) (hf : Fits py tbl acts stop l us l')
    (hg : Goes py cmd tbl l' ws) : Goes py cmd tbl (s :: l) (us ++ ws) := by
  obtain ⟨items, hc, hg⟩ := hg
  have hcl : ∀ {l items}, classify py tbl l = .ok items →
      classify py tbl (s :: l) = .ok (.opt s tp :: items) := by
    intro l items hc
    rw [classify, if_neg hs, hpo, hc]; rfl
  cases stop with
  | extra => exact hf.elim
  | done =>
    obtain ⟨hacts, rfl⟩ := hf
    refine ⟨_, hcl hc, ?_⟩
    intro st us0 hi hv
    rw [← List.append_assoc] at hv
    have hk := takeAll_inv t hacts hi
    obtain ⟨s2, e2⟩ := hk.2 (Valid.prefix hv)
    obtain ⟨hi2, hx2⟩ := hk.1 s2 e2
    obtain ⟨st', e3, hx3, hi3⟩ := hg s2 _ hi2 hv
    refine ⟨st', parseItems_opt.2 ⟨s2, false, consume_done ho ha e2, e3⟩, hx3.trans hx2, ?_⟩
    rw [← List.append_assoc]; exact hi3
  | next o' =>
    obtain ⟨us0', f', hacts, hs', ⟨hv', rfl, rfl⟩ | ⟨hv', v, rfl, hp, rfl⟩⟩ := hf
    · refine ⟨_, hcl hc, ?_⟩
      intro st us0 hi hv
      rw [← List.append_assoc] at hv
      have hk := takeAll_inv t (hacts.snoc hs' none) hi
      obtain ⟨s2, e2⟩ := hk.2 (Valid.prefix hv)
      obtain ⟨hi2, hx2⟩ := hk.1 s2 e2
      obtain ⟨st', e3, hx3, hi3⟩ := hg s2 _ hi2 hv
      refine ⟨st', parseItems_opt.2 ⟨s2, false, consume_switch ho ha ?_ e2, e3⟩, hx3.trans hx2, ?_⟩
      · exact fun hh => hv' ((takes_value hs').1 hh)
      · rw [← List.append_assoc]; exact hi3
    · have hvd : v ≠ ['-', '-'] := fun hh => not_plain h2 (Or.inl hh) hp
      have hcv : classify py tbl (v :: l') = .ok (.arg v :: items) := by
        rw [classify, if_neg hvd, po_plain t hp, hc]; rfl
      refine ⟨_, hcl hcv, ?_⟩
      intro st us0 hi hv
      rw [← List.append_assoc] at hv
      have hk := takeAll_inv t (hacts.snoc hs' (some v)) hi
      obtain ⟨s2, e2⟩ := hk.2 (Valid.prefix hv)
      obtain ⟨hi2, hx2⟩ := hk.1 s2 e2
      obtain ⟨st', e3, hx3, hi3⟩ := hg s2 _ hi2 hv
      refine ⟨st', parseItems_opt.2 ⟨s2, true, consume_next ho ha ((takes_value hs').2 hv') e2, e3⟩,
        hx3.trans hx2, ?_⟩
      rw [← List.append_assoc]; exact hi3

theorem reads_goes (t : TableOK tbl) (h2 : TwoLong (flat tbl)) {l : List (List Char)}
    {ws : List Spec.Use} (h : Spec.Reads py (flat tbl) l ws) : Goes py cmd tbl l ws := by
  induction h with
  | nil =>
    refine ⟨[], rfl, ?_⟩
    intro st us hi _
    exact ⟨st, rfl, rfl, by rw [List.append_nil]; exact hi⟩
  | @short c cs l us l' us' hc hs _ ih =>
    obtain ⟨c', x, o, f, acts, stop, e, hso, hn, hl, hf⟩ := short_complete t hs
    simp only [List.cons.injEq] at e
    obtain ⟨rfl, rfl⟩ := e
    have hd : decide ((['-', c] : List Char)[1]? ≠ some '-') = true := by simp [hc]
    have hne : '-' :: c :: cs ≠ ['-', '-'] := by
      intro hh; simp only [List.cons.injEq, true_and] at hh; exact hc hh.1
    have hm : (['-', c], o) ∈ names tbl := hn ▸ hso.1
    cases cs with
    | nil =>
      exact goes_step t h2 hne (po_exact t hm) rfl hl hf ih
    | cons d v =>
      rw [letters] at hl
      by_cases hd' : d = '='
      · subst hd'
        rw [if_pos rfl] at hl
        refine goes_step t h2 hne (po_eq (v := v) t hm) rfl ?_ hf ih
        simp only [acting, hd]
        exact hl
      · rw [if_neg hd'] at hl
        refine goes_step t h2 hne (po_attached t hm hd') rfl ?_ hf ih
        simp only [acting, hd]
        exact hl
  | @switch c s f l us hn hv _ ih =>
    obtain ⟨o, hso, hpo⟩ := po_long (py := py) (v := none) t rfl hn
    exact goes_step t h2 (by simp) hpo rfl (acts := []) (stop := .next o) rfl (us := [⟨f, []⟩])
      ⟨[], f, List.Forall₂.nil, hso, Or.inl ⟨hv, rfl, rfl⟩⟩ ih
  | @eq s v f l us hn hv _ ih =>
    obtain ⟨o, hso, hpo⟩ := po_long (py := py) (v := some v) t rfl hn
    obtain ⟨c, l', hfl⟩ := names_long t rfl hn
    have hd : decide (f.name.toList[1]? ≠ some '-') = false := by rw [hfl]; simp
    refine goes_step t h2 (by simp) hpo rfl (acts := [(o, some v)]) (stop := .done) ?_ (us := [⟨f, v⟩])
      ⟨single hso (some v), rfl⟩ ih
    simp only [acting, hd, chain_long]
    exact ⟨(takes_value hso).2 hv, trivial⟩
  | @next c s v f l us hn hv hp _ ih =>
    obtain ⟨o, hso, hpo⟩ := po_long (py := py) (v := none) t rfl hn
    exact goes_step t h2 (by simp) hpo rfl (acts := []) (stop := .next o) rfl (us := [⟨f, v⟩])
      ⟨[], f, List.Forall₂.nil, hso, Or.inr ⟨hv, v, rfl, hp, rfl⟩⟩ ih

/-! ## The main parser -/

theorem main_ok {s : List Char} (h1 : ¬ (s = ['-', '-'] ∨ ['-', '-', '='] <+: s)) :
    ∃ r, parseOptional py mainOpts s = .ok r := by
  cases h : parseOptional py mainOpts s with
  | ok r => exact ⟨r, rfl⟩
  | error e =>
    exfalso
    unfold parseOptional at h
    split at h
    · cases h
    · next h0 =>
      cases hl : lookup mainOpts s with
      | some o => rw [hl] at h; cases h
      | none =>
        rw [hl] at h
        simp only at h
        split at h
        · cases h
        · next hlen =>
          obtain ⟨c, x, rfl⟩ : ∃ c x, s = '-' :: c :: x := by
            match s, h0, hlen with
            | [], h0, _ => simp at h0
            | [a], _, hlen => simp at hlen
            | a :: c :: x, h0, _ =>
              simp only [List.head?_cons, ne_eq, not_not, Option.some.injEq] at h0
              exact ⟨c, x, by rw [h0]⟩
          cases hpe : partitionEq ('-' :: c :: x) with
          | mk pre val =>
          rw [hpe] at h
          simp only at h
          split at h
          · cases h
          · split at h
            · cases h
            · next a b r htp =>
              by_cases hc : c = '-'
              · subst hc
                have hpre : ('-' :: '-' :: x).takeWhile (fun c => decide (c ≠ '=')) = pre := by
                  unfold partitionEq at hpe
                  exact (Prod.mk.injEq _ _ _ _ ▸ hpe).1
                -- at least two long names begin with `pre`
                have hlen2 : 2 ≤ ((names mainOpts).filter (fun p => pre.isPrefixOf p.1)).length := by
                  have : (optionTuples mainOpts ('-' :: '-' :: x)).length =
                      ((names mainOpts).filter (fun p => pre.isPrefixOf p.1)).length := by
                    simp only [optionTuples, hpe, List.length_map]
                  rw [← this, htp]; simp
                rw [List.takeWhile_cons_of_pos (by decide), List.takeWhile_cons_of_pos (by decide)] at hpre
                cases x with
                | nil => exact h1 (Or.inl rfl)
                | cons y z =>
                  by_cases hy : y = '='
                  · subst hy; exact h1 (Or.inr ⟨z, rfl⟩)
                  · rw [List.takeWhile_cons_of_pos (by simp [hy])] at hpre
                    have hnm : names mainOpts = [("-h".toList, helpOpt), ("--help".toList, helpOpt),
                      ("--version".toList, ⟨["--version"], "version", .version, none⟩)] := rfl
                    rw [← hpre, hnm] at hlen2
                    have e1 : "-h".toList = ['-', 'h'] := by decide
                    have e2 : "--help".toList = ['-', '-', 'h', 'e', 'l', 'p'] := by decide
                    have e3 : "--version".toList = ['-', '-', 'v', 'e', 'r', 's', 'i', 'o', 'n'] := by decide
                    simp only [e1, e2, e3, List.filter_cons, List.isPrefixOf, List.filter_nil] at hlen2
                    by_cases g1 : y = 'h'
                    · subst g1
                      simp at hlen2
                      split at hlen2 <;> simp at hlen2
                    · simp [g1] at hlen2
                      split at hlen2 <;> simp at hlen2
              · rw [short_tuples table_main hc] at htp
                split at htp <;> simp at htp
            · split at h
              · cases h
              · split at h <;> cases h

theorem classify_total {l : List (List Char)}
    (h : ∀ s ∈ l, ∃ r, parseOptional py tbl s = .ok r) :
    ∃ items, classify py tbl l = .ok items ∧ items.length = l.length := by
  induction l with
  | nil => exact ⟨[], rfl, rfl⟩
  | cons s l ih =>
    by_cases hs : s = ['-', '-']
    · exact ⟨_, by rw [classify, if_pos hs], by simp⟩
    · obtain ⟨r, hr⟩ := h s (by simp)
      obtain ⟨items, hi, hl⟩ := ih (fun s' hs' => h s' (by simp [hs']))
      refine ⟨_, by rw [classify, if_neg hs, hr, hi]; rfl, by simp [hl]⟩

theorem classify_length {l : List (List Char)} {items : List Item} (h : classify py tbl l = .ok items) :
    items.length = l.length := by
  induction l generalizing items with
  | nil => rw [classify] at h; injection h with h; rw [← h]; rfl
  | cons s l ih =>
    by_cases hs : s = ['-', '-']
    · rw [classify, if_pos hs] at h; injection h with h; rw [← h]; simp
    · obtain ⟨r, items', -, h2, rfl⟩ := classify_cons h hs
      simp [ih h2]

theorem flags_command {T : List Spec.Flag} (h : Spec.Flags cmd T) :
    cmd ∈ commands ∧ cmd ≠ "rt" ∧ cmd.toList.head? ≠ some '-' := by
  cases h <;> decide

theorem inv_start {T : List Spec.Flag} (h : Spec.Flags cmd T) :
    Inv py cmd tbl ⟨defaults cmd, [], false⟩ [] := by
  refine ⟨?_, ?_, ?_, by simp, by simp, by simp [Spec.Valid]⟩
  · unfold Dict.WF Dict.keys
    cases h <;> decide
  · intro k hk
    unfold Spec.givenValue Spec.defaultValue defaults
    rw [if_neg hk]
    by_cases hc : cmd = "create"
    · simp [hc, Dict.get?_cons, Dict.get?, eq_comm]
    · simp [hc, Dict.get?_cons, Dict.get?, eq_comm]
  · cases h <;> decide

theorem parse_command {T : List Spec.Flag} (h : Spec.Flags cmd T) {argv : List String} {ns : Args} :
    parseArgs py (cmd :: argv) = .ok ns ↔
      (∃ items, classify py mainOpts (argv.map String.toList) = .ok items) ∧
      ∃ st, parseCommand py cmd (argv.map String.toList) = .ok st ∧ st.extras = false ∧
        ns = Dict.update [("cmd", .str cmd)] st.ns := by
  obtain ⟨h1, h2, h3⟩ := flags_command h
  have hne : cmd.toList ≠ ['-', '-'] := by intro e; rw [e] at h3; exact h3 rfl
  have hpo : parseOptional py mainOpts cmd.toList = .ok none := by
    unfold parseOptional; rw [if_pos h3]
  unfold parseArgs
  simp only [List.map_cons]
  rw [ebind_ok]
  have hmap : ∀ (l : List (List Char)) (items : List Item), items.length = l.length →
      (l.zip items).map (·.1) = l := by
    intro l items hl
    exact List.map_fst_zip (by omega)
  constructor
  · rintro ⟨items, hc, hp⟩
    obtain ⟨r, items', e1, e2, rfl⟩ := classify_cons hc hne
    rw [hpo] at e1
    injection e1 with e1
    subst e1
    refine ⟨⟨items', e2⟩, ?_⟩
    simp only [List.zip_cons_cons] at hp
    rw [parseMain] at hp
    simp only [String.ofList_toList, h1, if_true, h2, if_false, hmap _ _ (classify_length e2)] at hp
    rw [ebind_ok] at hp
    obtain ⟨st, hst, hp⟩ := hp
    simp only [Bool.false_or] at hp
    cases hx : st.extras with
    | true => rw [hx] at hp; cases hp
    | false =>
      rw [hx] at hp
      simp only [Bool.false_eq_true, if_false, Except.ok.injEq] at hp
      exact ⟨st, hst, hx, hp.symm⟩
  · rintro ⟨⟨items', e2⟩, st, hst, hx, rfl⟩
    refine ⟨.arg cmd.toList :: items', ?_, ?_⟩
    · rw [classify, if_neg hne, hpo, e2]; rfl
    · simp only [List.zip_cons_cons]
      rw [parseMain]
      simp only [String.ofList_toList, h1, if_true, h2, if_false, hmap _ _ (classify_length e2)]
      rw [ebind_ok]
      exact ⟨st, hst, by simp [hx]⟩

end
end Qopen.CmdLine
