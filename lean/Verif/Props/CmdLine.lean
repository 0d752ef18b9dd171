import Verif.Lemmas.CmdLineComplete
import Verif.Props.CommandLine

/-!
# The options of the command line: C139
-/

namespace Qopen

open Run CmdLine

/-- **C139**: what the program takes from the command line: the strings behind the command are documented
options with their values, all values are valid, no switch is given together with its opposite, and under
each name there is the last value given, the number of `-v`, or the default. -/
theorem C139_values {py : Lang} {cmd : String} {T : List Spec.Flag} {argv : List String} {ns : Args}
    (hT : Spec.Flags cmd T) (h : parseArgs py (cmd :: argv) = .ok ns) :
    ∃ us, Spec.Reads py T (Spec.letters argv) us ∧ Spec.Valid py us ∧ ns.WF ∧
      ∀ k, ns.get? k = Spec.givenValue py cmd us k := by
  obtain ⟨-, st, hst, hx, rfl⟩ := (parse_command hT).1 h
  unfold parseCommand at hst
  rw [ebind_ok] at hst
  obtain ⟨items, hc, hp⟩ := hst
  obtain ⟨us, hr, hi⟩ := parseItems_sound (table_of hT) hc hp hx (inv_start hT)
  rw [List.nil_append] at hi
  rw [flat_of hT] at hr
  refine ⟨us, hr, hi.valid, Dict.WF_update (by simp [Dict.WF, Dict.keys]) _, ?_⟩
  intro k
  rw [Dict.get?_update _ _ hi.wf]
  by_cases hk : k = "cmd"
  · subst hk
    rw [hi.nocmd]
    simp [Spec.givenValue, Dict.get?_cons]
  · rw [hi.get k hk]
    have : Dict.get? [("cmd", J.str cmd)] k = none := by
      rw [Dict.get?_cons, if_neg (fun e => hk e.symm)]; rfl
    rw [this, Option.or_none]

/-- **C139**: documented options with valid values are accepted, in every order and in every way of
writing, and have these values. -/
theorem C139_accepted {py : Lang} {cmd : String} {T : List Spec.Flag} {argv : List String}
    {us : List Spec.Use} (hT : Spec.Flags cmd T) (hr : Spec.Reads py T (Spec.letters argv) us)
    (hv : Spec.Valid py us) :
    ∃ ns, parseArgs py (cmd :: argv) = .ok ns ∧ ns.WF ∧ ∀ k, ns.get? k = Spec.givenValue py cmd us k := by
  have t := table_of hT
  rw [← flat_of hT] at hr
  have h2 : TwoLong (flat (options cmd)) := by rw [flat_of hT]; exact twoLong_of hT
  obtain ⟨items, hc, hg⟩ := reads_goes (cmd := cmd) t h2 hr
  obtain ⟨st, hp, hx, hi⟩ := hg _ [] (inv_start hT) hv
  rw [List.nil_append] at hi
  have hm : ∃ items, classify py mainOpts (argv.map String.toList) = .ok items := by
    obtain ⟨items, h, -⟩ := classify_total (py := py) (tbl := mainOpts) (l := argv.map String.toList)
      (fun s hs => main_ok (reads_tokens t h2 hr s hs))
    exact ⟨items, h⟩
  refine ⟨_, (parse_command hT).2 ⟨hm, st, ?_, hx, rfl⟩, Dict.WF_update (by simp [Dict.WF, Dict.keys]) _, ?_⟩
  · unfold parseCommand
    rw [ebind_ok]
    exact ⟨items, hc, hp⟩
  · intro k
    rw [Dict.get?_update _ _ hi.wf]
    by_cases hk : k = "cmd"
    · subst hk
      rw [hi.nocmd]
      simp [Spec.givenValue, Dict.get?_cons]
    · rw [hi.get k hk]
      have : Dict.get? [("cmd", J.str cmd)] k = none := by
        rw [Dict.get?_cons, if_neg (fun e => hk e.symm)]; rfl
      rw [this, Option.or_none]

namespace CmdLine

theorem names_exact {T : List Spec.Flag} {cmd : String} (hT : Spec.Flags cmd T) {f g : Spec.Flag}
    (hf : f ∈ T) (h : Spec.Names T f.name.toList g) : g = f := by
  rw [← flat_of hT] at hf h
  have t := table_of hT
  rcases h.2 with e | ⟨hno, -, -⟩
  · obtain ⟨o, ho⟩ := same_of_flat hf
    obtain ⟨p, hp⟩ := same_of_flat h.1
    exact (same_inj t hp ho e).2
  · exact absurd rfl (hno f hf)

/-- A string with two dashes, which cannot be a value, is an option. -/
theorem reads_long {py : Lang} {T : List Spec.Flag} {l : List (List Char)} {us : List Spec.Use}
    (hq : ∀ f ∈ T, '=' ∉ f.name.toList) (h : Spec.Reads py T l us) {s : List Char} (hs : s ∈ l)
    (h2 : ['-', '-'] <+: s) (hp : ¬ Spec.NotOption py T s) :
    ∃ f, Spec.Names T (s.takeWhile (fun c => decide (c ≠ '='))) f ∧ ∃ u ∈ us, u.flag = f := by
  have hnames : ∀ {s f}, Spec.Names T s f → '=' ∉ s := by
    intro s f hn hm
    rcases hn.2 with e | ⟨-, e, -⟩
    · exact hq f hn.1 (e ▸ hm)
    · exact hq f hn.1 (e.subset hm)
  have hself : ∀ {s : List Char}, '=' ∉ s → s.takeWhile (fun c => decide (c ≠ '=')) = s := by
    intro s hs
    rw [List.takeWhile_eq_self_iff]
    intro c hc
    simp only [decide_eq_true_eq]
    rintro rfl
    exact hs hc
  have hshort : ∀ {cs l us l'}, Spec.Short py T cs l us l' → ∀ s ∈ l, s ∈ l' ∨ Spec.NotOption py T s := by
    intro cs l us l' h
    induction h with
    | switch => exact fun s hs => Or.inl hs
    | more _ _ _ _ _ _ ih => exact ih
    | attached => exact fun s hs => Or.inl hs
    | eq => exact fun s hs => Or.inl hs
    | next _ _ _ hp =>
      intro s hs
      rw [List.mem_cons] at hs
      rcases hs with rfl | hs
      · exact Or.inr hp
      · exact Or.inl hs
  induction h with
  | nil => cases hs
  | @short c cs l us l' us' hc hsh _ ih =>
    rw [List.mem_cons] at hs
    rcases hs with rfl | hs
    · obtain ⟨r, hr⟩ := h2
      simp only [List.cons_append, List.cons.injEq, true_and] at hr
      exact absurd hr.1.symm hc
    · rcases hshort hsh s hs with hs | hpl
      · obtain ⟨f, h1, u, hu, e⟩ := ih hs
        exact ⟨f, h1, u, List.mem_append_right _ hu, e⟩
      · exact absurd hpl hp
  | @switch c s' f l us hn hv _ ih =>
    rw [List.mem_cons] at hs
    rcases hs with rfl | hs
    · exact ⟨f, by rw [hself (hnames hn)]; exact hn, _, List.mem_cons_self .., rfl⟩
    · obtain ⟨f, h1, u, hu, e⟩ := ih hs
      exact ⟨f, h1, u, List.mem_cons_of_mem _ hu, e⟩
  | @eq s' v f l us hn hv _ ih =>
    rw [List.mem_cons] at hs
    rcases hs with rfl | hs
    · refine ⟨f, ?_, _, List.mem_cons_self .., rfl⟩
      have := takeWhile_eq (v := v) (hnames hn)
      simp only [List.cons_append] at this
      rw [this]; exact hn
    · obtain ⟨f, h1, u, hu, e⟩ := ih hs
      exact ⟨f, h1, u, List.mem_cons_of_mem _ hu, e⟩
  | @next c s' v f l us hn hv hpl _ ih =>
    rw [List.mem_cons, List.mem_cons] at hs
    rcases hs with rfl | rfl | hs
    · exact ⟨f, by rw [hself (hnames hn)]; exact hn, _, List.mem_cons_self .., rfl⟩
    · exact absurd hpl hp
    · obtain ⟨f, h1, u, hu, e⟩ := ih hs
      exact ⟨f, h1, u, List.mem_cons_of_mem _ hu, e⟩

theorem flags_good {T : List Spec.Flag} {cmd : String} (hT : Spec.Flags cmd T) :
    ∀ f ∈ T, '=' ∉ f.name.toList := by
  intro f hf
  rw [← flat_of hT] at hf
  exact no_eq (table_of hT) hf

theorem reads_mentions {py : Lang} {T : List Spec.Flag} {l : List (List Char)} {us : List Spec.Use}
    (hq : ∀ f ∈ T, '=' ∉ f.name.toList) (h : Spec.Reads py T l us) :
    ∀ u ∈ us, u.flag ∈ T ∧ ∃ s ∈ l, Spec.Mentions s u.flag := by
  have hpre : ∀ {s f}, Spec.Names T s f → s <+: f.name.toList ∧ '=' ∉ s := by
    intro s f hn
    rcases hn.2 with e | ⟨-, e, -⟩
    · exact ⟨by rw [e]; exact List.prefix_refl _, e ▸ hq f hn.1⟩
    · exact ⟨e, fun hm => hq f hn.1 (e.subset hm)⟩
  have hself : ∀ {s : List Char}, '=' ∉ s → s.takeWhile (fun c => decide (c ≠ '=')) = s := by
    intro s hs
    rw [List.takeWhile_eq_self_iff]
    intro c hc
    simp only [decide_eq_true_eq]
    rintro rfl
    exact hs hc
  have hshort : ∀ {cs l us l'}, Spec.Short py T cs l us l' → (∀ u ∈ us, u.flag ∈ T ∧
      ∃ c ∈ cs, u.flag.name.toList = ['-', c]) ∧ ∀ s ∈ l', s ∈ l := by
    intro cs l us l' h
    induction h with
    | @switch c f l hf hn => exact ⟨by simp [hf, hn], fun s hs => hs⟩
    | @more c d cs f l us l' hf hn _ _ _ _ ih =>
      refine ⟨?_, ih.2⟩
      intro u hu
      rw [List.mem_cons] at hu
      rcases hu with rfl | hu
      · exact ⟨hf, c, by simp, hn⟩
      · obtain ⟨h1, c', hc', e⟩ := ih.1 u hu
        exact ⟨h1, c', List.mem_cons_of_mem _ hc', e⟩
    | attached hf hn => exact ⟨by simp [hf, hn], fun s hs => hs⟩
    | eq hf hn => exact ⟨by simp [hf, hn], fun s hs => hs⟩
    | next hf hn => exact ⟨by simp [hf, hn], fun s hs => by simp [hs]⟩
  induction h with
  | nil => simp
  | @short c cs l us l' us' hc hsh _ ih =>
    intro u hu
    rw [List.mem_append] at hu
    rcases hu with hu | hu
    · obtain ⟨h1, c', hc', e⟩ := (hshort hsh).1 u hu
      refine ⟨h1, _, List.mem_cons_self .., Or.inr ⟨?_, rfl, c', hc', e⟩⟩
      rintro ⟨r, hr⟩
      simp only [List.cons_append, List.cons.injEq, true_and] at hr
      exact hc hr.1.symm
    · obtain ⟨h1, s, hs, h2⟩ := ih u hu
      exact ⟨h1, s, List.mem_cons_of_mem _ ((hshort hsh).2 s hs), h2⟩
  | @switch c s' f l us hn hv _ ih =>
    intro u hu
    rw [List.mem_cons] at hu
    rcases hu with rfl | hu
    · exact ⟨hn.1, _, List.mem_cons_self .., Or.inl ⟨⟨_, rfl⟩, by rw [hself (hpre hn).2]; exact (hpre hn).1⟩⟩
    · obtain ⟨h1, s, hs, h2⟩ := ih u hu
      exact ⟨h1, s, List.mem_cons_of_mem _ hs, h2⟩
  | @eq s' v f l us hn hv _ ih =>
    intro u hu
    rw [List.mem_cons] at hu
    rcases hu with rfl | hu
    · refine ⟨hn.1, _, List.mem_cons_self .., Or.inl ⟨⟨_, rfl⟩, ?_⟩⟩
      have := takeWhile_eq (v := v) (hpre hn).2
      simp only [List.cons_append] at this
      rw [this]; exact (hpre hn).1
    · obtain ⟨h1, s, hs, h2⟩ := ih u hu
      exact ⟨h1, s, List.mem_cons_of_mem _ hs, h2⟩
  | @next c s' v f l us hn hv hpl _ ih =>
    intro u hu
    rw [List.mem_cons] at hu
    rcases hu with rfl | hu
    · exact ⟨hn.1, _, List.mem_cons_self .., Or.inl ⟨⟨_, rfl⟩, by rw [hself (hpre hn).2]; exact (hpre hn).1⟩⟩
    · obtain ⟨h1, s, hs, h2⟩ := ih u hu
      exact ⟨h1, s, List.mem_cons_of_mem _ (List.mem_cons_of_mem _ hs), h2⟩

end CmdLine

/-- **C139**: a misspelt option is never ignored: if the command line is accepted, every string which
begins with two dashes and cannot be a value is a name or a unique abbreviation of a documented option. -/
theorem C139_misspelt {py : Lang} {cmd : String} {T : List Spec.Flag} {argv : List String} {ns : Args}
    (hT : Spec.Flags cmd T) (h : parseArgs py (cmd :: argv) = .ok ns) {s : List Char}
    (hs : s ∈ Spec.letters argv) (h2 : ['-', '-'] <+: s) (hneg : ¬ Spec.Negative py s) (hsp : ' ' ∉ s) :
    ∃ f ∈ T, Spec.Names T (s.takeWhile (fun c => decide (c ≠ '='))) f := by
  obtain ⟨us, hr, -⟩ := C139_values hT h
  have hp : ¬ Spec.NotOption py T s := by
    obtain ⟨r, rfl⟩ := h2
    rintro (h | h | ⟨-, h⟩)
    · exact h rfl
    · simp at h
    · rcases h with h | h
      · exact hneg h
      · exact hsp h
  obtain ⟨f, hf, -⟩ := reads_long (flags_good hT) hr hs h2 hp
  exact ⟨f, hf.1, hf⟩

/-- **C139**: a switch and its opposite are never accepted together, in whatever order. -/
theorem C139_exclusive {py : Lang} {cmd : String} {T : List Spec.Flag} {argv : List String}
    (hT : Spec.Flags cmd T) {f g : Spec.Flag} (hf : f ∈ T) (hg : g ∈ T) (hk : f.key = g.key)
    (hon : f.takes = .on) (hoff : g.takes = .off) (h1 : f.name ∈ argv) (h2 : g.name ∈ argv) :
    ∀ ns, parseArgs py (cmd :: argv) ≠ .ok ns := by
  intro ns h
  obtain ⟨us, hr, hv, -⟩ := C139_values hT h
  have hlong : ∀ e ∈ T, e.takes = .on ∨ e.takes = .off → ['-', '-'] <+: e.name.toList := by
    have : ∀ e ∈ T, (e.takes = .on ∨ e.takes = .off) → ['-', '-'] <+: e.name.toList := by
      cases hT <;> decide
    exact this
  have key : ∀ e ∈ T, e.takes = .on ∨ e.takes = .off → e.name ∈ argv → ∃ u ∈ us, u.flag = e := by
    intro e he ht hm
    have hl := hlong e he ht
    have hq := flags_good hT e he
    have htw : e.name.toList.takeWhile (fun c => decide (c ≠ '=')) = e.name.toList := by
      rw [List.takeWhile_eq_self_iff]
      intro c hc
      simp only [decide_eq_true_eq]
      rintro rfl
      exact hq hc
    have hp : ¬ Spec.NotOption py T e.name.toList := by
      rintro (h | h | ⟨h, -⟩)
      · obtain ⟨r, hr⟩ := hl; rw [← hr] at h; exact h rfl
      · obtain ⟨r, hr⟩ := hl; rw [← hr] at h; simp at h
      · refine h e he ?_
        unfold Spec.CouldBe
        rw [if_pos hl, htw]
        exact List.prefix_refl _
    obtain ⟨e', hn, u, hu, rfl⟩ := reads_long (flags_good hT) hr (List.mem_map_of_mem hm) hl hp
    rw [htw] at hn
    exact ⟨u, hu, names_exact hT he hn⟩
  obtain ⟨u, hu, rfl⟩ := key f hf (Or.inl hon) h1
  obtain ⟨w, hw, rfl⟩ := key g hg (Or.inr hoff) h2
  exact hv.2 u hu w hw hk ⟨hon, hoff⟩

/-- **C139**: an option which is not mentioned leaves its name alone: a value other than the default
comes from a string which contains the beginning of the long name or the letter of the short name of an
option for this name. -/
theorem C139_not_mentioned {py : Lang} {cmd : String} {T : List Spec.Flag} {argv : List String} {ns : Args}
    (hT : Spec.Flags cmd T) (h : parseArgs py (cmd :: argv) = .ok ns) {k : String} (hk : k ≠ "cmd")
    (hne : ns.get? k ≠ Spec.defaultValue cmd k) :
    ∃ f ∈ T, f.key = k ∧ ∃ s ∈ Spec.letters argv, Spec.Mentions s f := by
  obtain ⟨us, hr, -, -, hval⟩ := C139_values hT h
  rw [hval k] at hne
  unfold Spec.givenValue at hne
  rw [if_neg hk] at hne
  simp only at hne
  cases hl : (us.filter (fun u => decide (u.flag.key = k))).getLast? with
  | none => rw [hl] at hne; exact absurd rfl hne
  | some u =>
    have hm := List.mem_of_getLast? hl
    rw [List.mem_filter] at hm
    simp only [decide_eq_true_eq] at hm
    obtain ⟨h1, h2⟩ := reads_mentions (flags_good hT) hr u hm.1
    exact ⟨u.flag, h1, hm.2, h2⟩

namespace CmdLine

theorem parseMain_extras {py : Lang} {l : List (List Char × Item)} {st : St} {ns : Args}
    (hx : st.extras = true) : parseMain py st l ≠ .ok ns := by
  induction l generalizing st with
  | nil => simp [parseMain, hx]
  | cons p l ih =>
    obtain ⟨s, i⟩ := p
    cases i with
    | dash => simp [parseMain]
    | arg v =>
      rw [parseMain]
      simp only [hx, Bool.true_or, if_true]
      split
      · split
        · simp
        · rw [Ne, ebind_ok]; rintro ⟨_, -, h⟩; cases h
      · simp
    | opt v t =>
      rw [parseMain, Ne, ebind_ok]
      rintro ⟨⟨st', u⟩, h1, h2⟩
      exact ih (consume_extras h1 hx) h2

theorem consume_exits {py : Lang} {st st' : St} {t : Tup} {rest : List Item} {u : Bool} {o : Opt}
    {f : Spec.Flag} (ho : t.opt = some o) (hs : Same mainOpts o f) :
    consume py mainOpts st t rest ≠ .ok (st', u) := by
  have hm := hs.1
  have hk : o.kind = .help ∨ o.kind = .version := by
    have : ∀ p ∈ names mainOpts, p.2.kind = .help ∨ p.2.kind = .version := by decide
    exact this _ hm
  have hv : o.kind.takesValue = false := by rcases hk with h | h <;> rw [h] <;> rfl
  have htake : ∀ st v s', take py st o v ≠ .ok s' := by
    intro st v s' h
    unfold take at h
    rw [ebind_ok] at h
    obtain ⟨j, -, h⟩ := h
    split at h
    · cases h
    · rcases hk with hk | hk <;> rw [hk] at h <;> simp at h
  have hall : ∀ v l s', takeAll py st ((o, v) :: l) ≠ .ok s' := by
    intro v l s' h
    rw [takeAll, ebind_ok] at h
    obtain ⟨_, h, -⟩ := h
    exact htake _ _ _ h
  rw [consume_some ho, Ne, ebind_ok]
  rintro ⟨⟨acts, stop⟩, h1, h2⟩
  have hhead : (acts = [] ∧ stop = .next o) ∨ ∃ l, acts = (o, none) :: l := by
    unfold acting at h1
    split at h1
    · simp only [Except.ok.injEq, Prod.mk.injEq] at h1
      exact Or.inl ⟨h1.1.symm, h1.2.symm⟩
    · rename_i e _
      right
      cases e with
      | nil => rw [chain, hv] at h1; cases h1
      | cons c e =>
        rw [chain.eq_def] at h1
        simp only [hv] at h1
        split at h1
        · cases ‹false = true›
        split at h1
        · split at h1
          · cases h1
          · split at h1
            · simp only [Except.ok.injEq, Prod.mk.injEq] at h1
              exact ⟨[], h1.1.symm⟩
            · split at h1
              · simp only [Except.ok.injEq, Prod.mk.injEq] at h1
                exact ⟨[], h1.1.symm⟩
              · split at h1
                all_goals
                  rw [ebind_ok] at h1
                  obtain ⟨r, -, h1⟩ := h1
                  simp only [Except.ok.injEq, Prod.mk.injEq] at h1
                  exact ⟨_, h1.1.symm⟩
        · cases h1
  rcases hhead with ⟨rfl, rfl⟩ | ⟨l, rfl⟩
  · simp only [finish, hv] at h2
    rw [if_neg (by simp), ebind_ok] at h2
    obtain ⟨_, h2, -⟩ := h2
    exact hall _ _ _ h2
  · cases stop with
    | done =>
      simp only [finish] at h2
      rw [ebind_ok] at h2
      obtain ⟨_, h2, -⟩ := h2
      exact hall _ _ _ h2
    | extra =>
      simp only [finish] at h2
      rw [ebind_ok] at h2
      obtain ⟨_, h2, -⟩ := h2
      exact hall _ _ _ h2
    | next o' =>
      simp only [finish] at h2
      split at h2
      · split at h2
        · rw [ebind_ok] at h2
          obtain ⟨_, h2, -⟩ := h2
          exact hall _ _ _ h2
        · cases h2
      · rw [ebind_ok] at h2
        obtain ⟨_, h2, -⟩ := h2
        exact hall _ _ _ h2

theorem flags_exist {cmd : String} (h : cmd ∈ commands) (hr : cmd ≠ "rt") : ∃ T, Spec.Flags cmd T := by
  simp only [commands, List.mem_cons, List.not_mem_nil, or_false] at h
  rcases h with rfl | rfl | rfl | rfl | rfl | rfl | rfl
  · exact ⟨_, .create⟩
  · exact ⟨_, .go⟩
  · exact ⟨_, .fixed⟩
  · exact ⟨_, .source⟩
  · exact ⟨_, .recalc⟩
  · exact ⟨_, .plot⟩
  · exact absurd rfl hr

end CmdLine

/-- **C139**: options follow the command: if the command line is accepted, its first string is one of the
documented commands, or it is empty. -/
theorem C139_command {py : Lang} {argv : List String} {ns : Args} (h : parseArgs py argv = .ok ns) :
    (argv = [] ∧ ns = [("cmd", .null)]) ∨ ∃ cmd rest T, argv = cmd :: rest ∧ Spec.Flags cmd T := by
  unfold parseArgs at h
  cases argv with
  | nil =>
    left
    simp only [List.map_nil, classify] at h
    rw [ebind_ok] at h
    obtain ⟨_, h0, h⟩ := h
    injection h0 with h0
    subst h0
    simp only [List.zip_nil_left, parseMain] at h
    injection h with h
    exact ⟨rfl, h.symm⟩
  | cons cmd rest =>
    right
    simp only [List.map_cons] at h
    rw [ebind_ok] at h
    obtain ⟨items, hc, h⟩ := h
    by_cases hd : cmd.toList = ['-', '-']
    · rw [classify, if_pos hd] at hc
      injection hc with hc
      subst hc
      simp [parseMain] at h
    · obtain ⟨r, items', h1, h2, rfl⟩ := classify_cons hc hd
      rcases po_sound table_main h1 with ⟨rfl, -⟩ | ⟨tp, rfl, hio⟩
      · simp only [List.zip_cons_cons, parseMain, String.ofList_toList] at h
        split at h
        · rename_i hm
          split at h
          · cases h
          · rename_i hr
            obtain ⟨T, hT⟩ := flags_exist hm hr
            exact ⟨cmd, rest, T, rfl, hT⟩
        · cases h
      · exfalso
        simp only [List.zip_cons_cons, parseMain] at h
        rw [ebind_ok] at h
        obtain ⟨⟨st', u⟩, h3, h4⟩ := h
        cases hio with
        | unknown ho =>
          unfold consume at h3
          rw [ho] at h3
          simp only [Except.ok.injEq, Prod.mk.injEq] at h3
          exact parseMain_extras (by rw [← h3.1]) h4
        | long _ hs => exact consume_exits rfl hs h3
        | exact _ _ hs => exact consume_exits rfl hs h3
        | eq _ _ hs => exact consume_exits rfl hs h3
        | attached _ _ _ hs => exact consume_exits rfl hs h3

/-- **C139**: with C110, the options of the command line are the arguments of the call of `run`, except for
those which are replaced by `--overwrite-conf`. -/
theorem C139_run {py : Lang} {env : Env} {cmd : String} {T : List Spec.Flag} {argv : List String}
    {us : List Spec.Use} {over : Args} (hT : Spec.Flags cmd T)
    (hr : Spec.Reads py T (Spec.letters argv) us) (hv : Spec.Valid py us)
    (ho : Spec.givenValue py cmd us "overwrite_conf" = some (.dict over) ∨
      (Spec.givenValue py cmd us "overwrite_conf" = none ∧ over = []))
    (how : over.WF) :
    ∃ c, cmdline py env (cmd :: argv) = .ok (some (run env c)) ∧
      (over.get? "cmd" = none → c.cmd = cmd) ∧
      (over.get? "conf" = none → Spec.IsText (Spec.givenValue py cmd us "conf") c.conf) ∧
      (over.get? "eventid" = none → Spec.IsText (Spec.givenValue py cmd us "eventid") c.eventid) ∧
      (over.get? "tutorial" = none → (c.tutorial = true ↔ Spec.IsTrue (Spec.givenValue py cmd us "tutorial"))) ∧
      (over.get? "print_mag" = none →
        (c.printMag = true ↔ Spec.IsTrue (Spec.givenValue py cmd us "print_mag"))) ∧
      (over.get? "plots" = none → c.plots = (Spec.givenValue py cmd us "plots").getD .null) ∧
      c.args.WF ∧
      (∀ k ∉ Spec.lineOnly, k ≠ "overwrite_conf" → over.get? k = none →
        c.args.get? k = Spec.givenValue py cmd us k) ∧
      ∀ k ∉ Spec.lineOnly, ∀ v, over.get? k = some v → c.args.get? k = some v := by
  obtain ⟨ns, hp, hw, hval⟩ := C139_accepted hT hr hv
  have hcmd : ns.get? "cmd" = some (.str cmd) := by rw [hval]; simp [Spec.givenValue]
  obtain ⟨c, h1, h2, h3, h4, h5, h6, h7, h8, h9, h10, h11⟩ := C110_call (env := env) (over := over) hw
    (by
      unfold Spec.Overwrite
      rw [hval]
      exact ho) how (by
      rw [hcmd]
      intro e
      simp only [Option.some.injEq, J.str.injEq] at e
      exact (flags_command hT).2.1 e)
  have hl : ∀ k, k ≠ "overwrite_conf" → over.get? k = none →
      Spec.lineValue ns over k = Spec.givenValue py cmd us k := by
    intro k hk h
    unfold Spec.lineValue
    rw [h]
    simp only
    rw [if_neg hk, hval]
  refine ⟨c, ?_, ?_, ?_, ?_, ?_, ?_, ?_, h9, ?_, ?_⟩
  · unfold cmdline
    rw [ebind_ok]
    exact ⟨ns, hp, by rw [h1]⟩
  · intro h
    refine h2 cmd ?_
    rw [hl _ (by decide) h]; simp [Spec.givenValue]
  · intro h; rw [← hl _ (by decide) h]; exact h3
  · intro h; rw [← hl _ (by decide) h]; exact h4
  · intro h; rw [← hl _ (by decide) h]; exact h5
  · intro h; rw [← hl _ (by decide) h]; exact h6
  · intro h
    rw [← hl _ (by decide) h]
    cases e : Spec.lineValue ns over "plots" with
    | none => rw [h8 e]; rfl
    | some v => rw [h7 v e]; rfl
  · intro k hk hk' h
    rw [h11 k hk, hl k hk' h]
  · intro k hk v h
    rw [h11 k hk]
    unfold Spec.lineValue
    rw [h]

namespace CmdLineExample

set_option maxRecDepth 100000

/-- JSON: two texts are known; integers: one text. -/
def py : Lang where
  json := fun s => if s = "[2]".toList then some (.list [.num 2])
    else if s = "{...}".toList then some (.dict [("skip", .num 5), ("njobs", .num 4)]) else none
  int := fun s => if s = "3".toList then some 3 else none
  digit := fun c => decide (c ∈ "0123456789".toList)
  digit_dot := by decide

/-- `qopen go -vve ev2 --njobs 3 --no-plots --plot-fits-opt=[2] --prefix -1 -c=c2.json -v` -/
def argv : List String :=
  ["-vve", "ev2", "--njobs", "3", "--no-plots", "--plot-fits-opt=[2]", "--prefix", "-1", "-c=c2.json", "-v"]

/-- The options. -/
def uses : List Spec.Use :=
  [⟨⟨"-v", "verbose", .count⟩, []⟩, ⟨⟨"-v", "verbose", .count⟩, []⟩,
   ⟨⟨"-e", "eventid", .text⟩, "ev2".toList⟩, ⟨⟨"--njobs", "njobs", .int⟩, "3".toList⟩,
   ⟨⟨"--no-plots", "plots", .off⟩, []⟩,
   ⟨⟨"--plot-fits-options", "plot_fits_options", .json⟩, "[2]".toList⟩,
   ⟨⟨"--prefix", "prefix", .text⟩, "-1".toList⟩, ⟨⟨"-c", "conf", .text⟩, "c2.json".toList⟩,
   ⟨⟨"-v", "verbose", .count⟩, []⟩]

instance (f : Spec.Flag) : Decidable f.hasValue := by unfold Spec.Flag.hasValue; infer_instance

end CmdLineExample


open CmdLineExample in
set_option maxRecDepth 100000 in
/-- The command line is read as these options, with these values. -/
example : (∃ T, Spec.Flags "go" T ∧ Spec.Reads py T (Spec.letters argv) uses) ∧ Spec.Valid py uses ∧
    Spec.givenValue py "go" uses "conf" = some (.str "c2.json") ∧
    Spec.givenValue py "go" uses "plots" = some (.bool false) ∧
    Spec.givenValue py "go" uses "njobs" = some (.num 3) ∧
    Spec.givenValue py "go" uses "prefix" = some (.str "-1") ∧
    Spec.givenValue py "go" uses "verbose" = some (.num 3) ∧
    Spec.givenValue py "go" uses "pdb" = some (.bool false) ∧
    Spec.givenValue py "go" uses "overwrite_conf" = none := by
  refine ⟨⟨_, .go, ?_⟩, ?_, rfl, rfl, rfl, rfl, rfl, rfl, rfl⟩
  · exact .short (us := [_, _, _]) (by decide) (.more (by decide) rfl (by decide) (by decide) (by decide)
        (.more (by decide) rfl (by decide) (by decide) (by decide)
          (.next (by decide) rfl (by decide) (Or.inl (by decide)))))
      (.next (by unfold Spec.Names; decide) (by decide) (Or.inl (by decide))
        (.switch (by unfold Spec.Names; decide) (by decide)
          (.eq (s := "plot-fits-opt".toList) (v := "[2]".toList) (by unfold Spec.Names; decide) (by decide)
            (.next (by unfold Spec.Names; decide) (by decide)
              (Or.inr (Or.inr ⟨by unfold Spec.CouldBe; decide, Or.inl (Or.inl ⟨['1'], rfl, by decide, by decide⟩)⟩))
              (.short (us := [_]) (by decide) (.eq (v := "c2.json".toList) (by decide) rfl (by decide))
                (.short (us := [_]) (by decide) (.switch (by decide) rfl (by decide)) .nil))))))
  · refine ⟨?_, ?_⟩
    · intro u hu
      simp only [uses, List.mem_cons, List.not_mem_nil, or_false] at hu
      rcases hu with rfl | rfl | rfl | rfl | rfl | rfl | rfl | rfl | rfl <;> simp [Spec.useValue, py]
    · decide

open CmdLineExample in
set_option maxRecDepth 100000 in
/-- `qopen create --tut` is accepted; values from `--overwrite-conf` are read as well. -/
example : (∃ T, Spec.Flags "create" T ∧ (∃ ns, parseArgs py ["create", "--tut"] = .ok ns) ∧
      "--tut".toList ∈ Spec.letters ["--tut"] ∧ ['-', '-'] <+: "--tut".toList ∧
      ¬ Spec.Negative py "--tut".toList ∧ ' ' ∉ "--tut".toList) ∧
    ∃ T us, ∃ over : Args, Spec.Flags "source" T ∧ Spec.Reads py T (Spec.letters ["--overw", "{...}"]) us ∧
      Spec.Valid py us ∧ Spec.givenValue py "source" us "overwrite_conf" = some (.dict over) ∧ over.WF ∧
      over.get? "njobs" = some (.num 4) ∧ over.get? "cmd" = none := by
  refine ⟨⟨_, .create, ?_, by decide, by decide, ?_, by decide⟩,
    _, [⟨⟨"--overwrite-conf", "overwrite_conf", .json⟩, "{...}".toList⟩], _, .source, ?_, ?_, rfl, ?_, rfl,
      rfl⟩
  · obtain ⟨ns, h, -⟩ := C139_accepted (py := py) (us := [⟨⟨"--tutorial", "tutorial", .on⟩, []⟩])
      (argv := ["--tut"]) .create
      (.switch (by unfold Spec.Names; decide) (by decide) .nil) (by
        refine ⟨?_, ?_⟩
        · intro u hu
          simp only [List.mem_cons, List.not_mem_nil, or_false] at hu
          subst hu; simp [Spec.useValue]
        · decide)
    exact ⟨ns, h⟩
  · rintro (⟨ds, h, -, hd⟩ | ⟨ds, es, h, -, hd, -⟩)
    · have h : '-' :: 't' :: 'u' :: ['t'] = ds := (List.cons.inj h).2
      subst h
      have := hd '-' (by simp)
      revert this; decide
    · have h : '-' :: 't' :: 'u' :: ['t'] = ds ++ '.' :: es := (List.cons.inj h).2
      have : '.' ∈ ['-', 't', 'u', 't'] := by rw [h]; simp
      revert this; decide
  · exact .next (by unfold Spec.Names; decide) (by decide) (Or.inl (by decide)) .nil
  · refine ⟨?_, by decide⟩
    intro u hu
    simp only [List.mem_cons, List.not_mem_nil, or_false] at hu
    subst hu; simp [Spec.useValue, py]
  · unfold Dict.WF; decide

open CmdLineExample in
set_option maxRecDepth 100000 in
/-- `qopen source --plots --no-plots` -/
example : ∃ T, Spec.Flags "source" T ∧ ∃ f ∈ T, ∃ g ∈ T, f.key = g.key ∧ f.takes = .on ∧ g.takes = .off ∧
    f.name ∈ ["--plots", "--no-plots"] ∧ g.name ∈ ["--plots", "--no-plots"] :=
  ⟨_, .source, ⟨"--plots", "plots", .on⟩, by decide, ⟨"--no-plots", "plots", .off⟩, by decide, rfl, rfl, rfl,
    by decide, by decide⟩

open CmdLineExample in
set_option maxRecDepth 100000 in
/-- `qopen create --tut`: the value differs from the default. -/
example : ∃ T ns, Spec.Flags "create" T ∧ parseArgs py ["create", "--tut"] = .ok ns ∧
    ns.get? "tutorial" = some (.bool true) ∧ Spec.defaultValue "create" "tutorial" = none := by
  obtain ⟨ns, h, -, hv⟩ := C139_accepted (py := py) (us := [⟨⟨"--tutorial", "tutorial", .on⟩, []⟩])
      (argv := ["--tut"]) .create
      (.switch (by unfold Spec.Names; decide) (by decide) .nil) (by
        refine ⟨?_, ?_⟩
        · intro u hu
          simp only [List.mem_cons, List.not_mem_nil, or_false] at hu
          subst hu; simp [Spec.useValue]
        · decide)
  exact ⟨_, ns, .create, h, by rw [hv]; rfl, rfl⟩

open CmdLineExample in
/-- **C139** (finding): a command is documented as needed, but the program does not ask for one: `qopen`
alone is accepted, and ends with an exception of `run` instead of a message about the usage. -/
theorem C139_no_command_counterexample : ∃ m, cmdline py CommandLineExample.env [] = .ok (some m) ∧
    m.effects = [] ∧ m.out = .error .valueError :=
  ⟨_, rfl, rfl, rfl⟩

end Qopen
