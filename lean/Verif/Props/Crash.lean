import Verif.Model.Crash
import Verif.Props.RunJson

/-!
# What an interrupted or failing run leaves in the output file (C123)
-/

namespace Qopen

open Run

namespace Spec

/-- `f` is the output file of the call. -/
def OutputFile (c : Call) (conf : Args) (f : String) : Prop :=
  outputName c conf = some f ∧ f ≠ "stdout" ∧ ¬ NoFile f

/-- Option `indent`. -/
def indentOf (c : Call) (conf : Args) : J := (option c conf "indent").getD .null

/-- A single event or all events are inverted, the result is not processed further. -/
def Direct (c : Call) (conf : Args) : Prop :=
  c.cmd ∈ ["go", "fixed", "source"] ∧ ¬ On ((option c conf "align_sites").getD (.bool false))

end Spec

/-! ## Order of the effects -/

/-- Effects which do not concern the output file, possibly followed by a tail. -/
def Shape (T : List Effect → List Effect → Prop) (l : List Effect) : Prop :=
  ∃ pre rest, l = pre ++ rest ∧ (∀ e ∈ pre, e.plainOne) ∧ (rest = [] ∨ T pre rest)

theorem Shape.quiet {T : List Effect → List Effect → Prop} {l : List Effect}
    (h : ∀ e ∈ l, e.plainOne) : Shape T l := ⟨l, [], by simp, h, Or.inl rfl⟩

theorem Shape.bind {α β : Type} {T : List Effect → List Effect → Prop} {m : Act α} {f : α → Act β}
    (hm : ∀ e ∈ m.effects, e.plainOne)
    (hf : ∀ a, m.out = .ok a → Shape (fun pre rest => T (m.effects ++ pre) rest) (f a).effects) :
    Shape T (m >>= f).effects := by
  cases h : m.out with
  | error x => rw [Act.bind_effects_of_error h]; exact .quiet hm
  | ok a =>
    rw [Act.bind_effects_of_ok h]
    obtain ⟨pre, rest, h1, h2, h3⟩ := hf a h
    refine ⟨m.effects ++ pre, rest, by rw [h1, List.append_assoc], fun e he => ?_, h3⟩
    rcases List.mem_append.1 he with h | h
    · exact hm e h
    · exact h2 e h

theorem Shape.lift {α β : Type} {T : List Effect → List Effect → Prop} {x : Py α} {f : α → Act β}
    (hf : ∀ a, x = .ok a → Shape T (f a).effects) : Shape T (Act.lift x >>= f).effects := by
  cases x with
  | error e => exact .quiet (by intro e he; cases he)
  | ok a => rw [Act.bind_lift_ok rfl]; exact hf a rfl

theorem Shape.mono {T T' : List Effect → List Effect → Prop} {l : List Effect}
    (h : ∀ pre rest, T pre rest → T' pre rest) (hl : Shape T l) : Shape T' l := by
  obtain ⟨pre, rest, h1, h2, h3⟩ := hl
  exact ⟨pre, rest, h1, h2, h3.imp id (h pre rest)⟩

/-- The end of a run which touches the output file. -/
def FileTail (env : Env) (c : Call) (conf : Args) (pre rest : List Effect) : Prop :=
  ∃ f, Spec.OutputFile c conf f ∧
    (c.cmd ∈ ["go", "fixed", "source"] → ∃ np a r, Effect.invert np a ∈ pre ∧ env.invert np a = .ok r) ∧
    ((rest = [.openW f] ∧ ((∃ x, env.openW f = .error x) ∨ c.cmd = "rt")) ∨
     ∃ r mags, rest = .openW f :: .dump f r (Spec.indentOf c conf) :: mags ∧
      (∀ e ∈ mags, e.plainOne) ∧ env.openW f = .ok () ∧
      (Spec.Direct c conf → ∃ np a, Effect.invert np a ∈ pre ∧ env.invert np a = .ok r ∧
        r.plain = true))

theorem FileTail.prepend {env : Env} {c : Call} {conf : Args} {p pre rest : List Effect}
    (h : FileTail env c conf pre rest) : FileTail env c conf (p ++ pre) rest := by
  obtain ⟨f, h1, h2, h3⟩ := h
  refine ⟨f, h1, fun hc => ?_, h3.imp id ?_⟩
  · obtain ⟨np, a, r, h, h'⟩ := h2 hc
    exact ⟨np, a, r, List.mem_append_right _ h, h'⟩
  · rintro ⟨r, mags, h, h', h'', h3⟩
    refine ⟨r, mags, h, h', h'', fun hd => ?_⟩
    obtain ⟨np, a, h, h'⟩ := h3 hd
    exact ⟨np, a, List.mem_append_right _ h, h'⟩

theorem printMags_plain {want : Bool} {r : Option J} : ∀ e ∈ (printMags want r).effects, e.plainOne := by
  intro e h
  obtain ⟨-, _, evs, -, -, h⟩ := printMags_effects h
  obtain ⟨_, -, _, -, ⟨-, rfl⟩ | ⟨_, -, rfl⟩⟩ := printAll_effects h <;> trivial

theorem postProcess_plain {env : Env} {cmd : String} {align : Bool} {eventid : Option String}
    {kw args : Args} {r : Option J} :
    ∀ e ∈ (postProcess env cmd align eventid kw args r).effects, e.plainOne := by
  intro e h
  obtain ⟨_, _, _, _, rfl⟩ := postProcess_draw h
  trivial

theorem resultOf_plain {env : Env} {cmd : String} {align : J} {rin : Option J} {args : Args} :
    ∀ e ∈ (resultOf env cmd align rin args).effects, e.plainOne := by
  intro e h
  have := resultOf_effects h
  rw [this.1]
  trivial

theorem postProcess_result {env : Env} {cmd : String} {align : Bool} {eventid : Option String}
    {kw args : Args} {r0 r : Option J}
    (h : (postProcess env cmd align eventid kw args r0).out = .ok r) :
    (∃ r', r = some r') ∨ (cmd ≠ "recalc_source" ∧ r = r0) := by
  unfold postProcess at h
  split_ifs at h with h1 h2
  · obtain ⟨_, -, h⟩ := Act.bind_out.1 h
    simp only [Act.pure_out, Except.ok.injEq] at h
    exact Or.inl ⟨_, h.symm⟩
  · obtain ⟨_, -, h⟩ := Act.bind_out.1 h
    simp only [Act.pure_out, Except.ok.injEq] at h
    exact Or.inl ⟨_, h.symm⟩
  · simp only [Act.pure_out, Except.ok.injEq] at h
    exact Or.inr ⟨h2, h.symm⟩

theorem writeResult_eq (env : Env) (f : String) (indent : J) (r : Option J) :
    writeResult env f indent r = match (outputDir env f).out with
      | .error x => ⟨(outputDir env f).effects, .error x⟩
      | .ok _ => match env.openW f with
        | .error x => ⟨(outputDir env f).effects ++ [.openW f], .error x⟩
        | .ok _ => match r with
          | none => ⟨(outputDir env f).effects ++ [.openW f], .error .unboundLocal⟩
          | some r => ⟨(outputDir env f).effects ++ [.openW f, .dump f r indent], dumps r⟩ := by
  unfold writeResult
  simp only [Act.bind_def]
  unfold Act.bind
  cases hd : (outputDir env f).out with
  | error x => rfl
  | ok u =>
    cases hop : env.openW f with
    | error x => rfl
    | ok v => cases r <;> rfl

/-- Writing of the result and what follows. -/
theorem write_shape {env : Env} {c : Call} {conf : Args} {pp : Prep} {r : Option J} {α : Type}
    {g : Unit → Act α} {T : List Effect → List Effect → Prop}
    (ho : ∀ f, pp.output = .str f ↔ Spec.outputName c conf = some f)
    (hg : ∀ e ∈ (g ()).effects, e.plainOne)
    (h1 : ∀ pre f, Spec.OutputFile c conf f → (∃ x, env.openW f = .error x) ∨ r = none →
      T pre [.openW f])
    (h2 : ∀ pre f r' mags, Spec.OutputFile c conf f → r = some r' → env.openW f = .ok () →
      (∀ e ∈ mags, e.plainOne) → T pre (.openW f :: .dump f r' pp.indent :: mags)) :
    Shape T (writeOutput env pp.output pp.indent r >>= g).effects := by
  unfold writeOutput
  split
  · rw [Act.bind_pure]; exact .quiet hg
  · rename_i f hf
    split_ifs with h3 h4
    · refine .bind (fun e he => ?_) (fun _ _ => .quiet hg)
      obtain ⟨_, -, he⟩ := Act.mem_bind_lift.1 he
      simp only [Act.emit_effects, List.mem_singleton] at he
      subst he; trivial
    · rw [Act.bind_pure]; exact .quiet hg
    · have hof : Spec.OutputFile c conf f :=
        ⟨(ho f).1 hf, h3, fun hn => h4 ((noOutput_iff f).2 hn)⟩
      have hdir : ∀ e ∈ (outputDir env f).effects, e.plainOne := by
        intro e he
        unfold outputDir at he
        split_ifs at he
        · simp [Act.pure_effects] at he
        · simp only [Act.emit_effects, List.mem_singleton] at he
          subst he; trivial
      rw [writeResult_eq]
      have key : ∀ (l : List Effect), (∀ e ∈ l, e.plainOne) → ∀ rest, T l rest →
          Shape T (l ++ rest) := fun l hl rest ht => ⟨l, rest, rfl, hl, Or.inr ht⟩
      cases hd : (outputDir env f).out with
      | error x =>
        simp only
        rw [Act.bind_effects_of_error rfl]
        exact .quiet hdir
      | ok u =>
        cases hop : env.openW f with
        | error x =>
          simp only
          rw [Act.bind_effects_of_error rfl]
          exact key _ hdir _ (h1 _ _ hof (Or.inl ⟨x, hop⟩))
        | ok v =>
          cases hr : r with
          | none =>
            simp only
            rw [Act.bind_effects_of_error rfl]
            exact key _ hdir _ (h1 _ _ hof (Or.inr hr))
          | some r' =>
            simp only
            cases hdu : dumps r' with
            | error x =>
              rw [Act.bind_effects_of_error rfl]
              exact key _ hdir _ (h2 _ _ _ _ hof hr hop (by simp))
            | ok w =>
              rw [Act.bind_effects_of_ok rfl]
              simp only
              rw [List.append_assoc]
              exact key _ hdir _ (h2 _ _ _ _ hof hr hop hg)
  · refine .bind (fun e he => ?_) (fun _ _ => .quiet hg)
    simp [Act.lift_effects] at he

/-- Order of the effects of a run. -/
theorem run_shape {env : Env} {c : Call} {conf : Args} (hf : Spec.Conf env c conf)
    (hw : conf.WF) (hw' : c.args.WF) (hc1 : c.cmd ≠ "create") :
    Shape (FileTail env c conf) (run env c).effects := by
  unfold run
  split_ifs with h1
  · refine .lift fun a ha => ?_
    cases a with
    | none => exact .quiet (by intro e he; simp only [Act.emit_effects, List.mem_singleton] at he; subst he; trivial)
    | some merged =>
      obtain ⟨m1, m2⟩ := merged_option hf hw hw' ha
      refine .bind (fun e he => ?_) (fun pp hpp => ?_)
      · obtain ⟨_, rfl⟩ := prepare_effects he; trivial
      refine .mono (T := FileTail env c conf) (fun _ _ h => h.prepend) ?_
      obtain ⟨q1, q2⟩ := prepared_output m1 m2 hpp
      obtain ⟨-, -, -, -, -, p2, -⟩ := prepare_ok m1 hpp
      split_ifs with h2
      · refine .quiet fun e he => ?_
        obtain ⟨_, _, _, _, _, -, -, -, h⟩ := plotCmd_effects he
        obtain ⟨_, _, _, _, rfl⟩ := plot_draw h
        trivial
      · refine .bind (fun e he => ?_) (fun _ _ => ?_)
        · have := configureLogging_effects he
          obtain ⟨_, rfl, -⟩ := this; trivial
        refine .mono (T := FileTail env c conf) (fun _ _ h => h.prepend) ?_
        simp only
        split
        · exact .quiet (by intro e he; simp [Act.pure_effects] at he)
        · refine .lift fun _ _ => .lift fun _ _ => .lift fun kwa _ => .lift fun ra hra =>
            .lift fun rs hrs => ?_
          have hrin : c.cmd = "recalc_source" → rs.1 ≠ none := by
            intro hc
            rw [hc] at hra hrs
            have h3 : ra.1 ≠ none := by
              unfold inputOf at hra
              rw [if_pos (by simp)] at hra
              obtain ⟨_, -, h⟩ := bind_ok.1 hra
              simp only [pure, Except.pure, Except.ok.injEq] at h
              rw [← h]; simp
            unfold inputSites at hrs
            split at hrs
            · rw [if_pos (by simp)] at hrs
              obtain ⟨_, -, h⟩ := bind_ok.1 hrs
              obtain ⟨_, -, h⟩ := bind_ok.1 h
              simp only [pure, Except.pure, Except.ok.injEq] at h
              rw [← h]; simp
            · simp only [pure, Except.pure, Except.ok.injEq] at hrs
              rw [← hrs]; exact h3
          have hinv : c.cmd ∈ ["go", "fixed", "source"] → ∀ {r0 : Option J} {al : J} {a : Args} {rin},
              (resultOf env c.cmd al rin a).out = .ok r0 → ∀ l, ∃ np a' r,
              Effect.invert np a' ∈ (resultOf env c.cmd al rin a).effects ++ l ∧
              env.invert np a' = .ok r := by
            intro hc r0 al a rin h l
            rcases resultOf_ok h with ⟨-, h1, r', -, h3, -⟩ | ⟨h, -⟩
            · exact ⟨al, a, r', by rw [h1]; simp, h3⟩
            · exact absurd hc h
          refine .bind resultOf_plain (fun r0 h0 => .bind postProcess_plain (fun r h => ?_))
          refine write_shape q2 (fun e he => ?_) ?_ ?_
          · rcases Act.mem_bind.1 he with he | ⟨_, -, he⟩
            · exact printMags_plain e he
            · simp [Act.lift_effects] at he
          · intro pre f hof hx
            refine ⟨f, hof, fun hc => hinv hc h0 _, Or.inl ⟨rfl, hx.imp id fun hr => ?_⟩⟩
            subst hr
            have hc4 : c.cmd ≠ "go" ∧ c.cmd ≠ "fixed" ∧ c.cmd ≠ "source" ∧ c.cmd ≠ "recalc_source" := by
              rcases postProcess_result h with ⟨_, h⟩ | ⟨h3, h4⟩
              · simp at h
              · rcases resultOf_ok h0 with ⟨-, -, r', h5, -⟩ | ⟨h5, -⟩
                · rw [← h4] at h5; simp at h5
                · simp only [List.mem_cons, List.not_mem_nil, or_false, not_or] at h5
                  exact ⟨h5.1, h5.2.1, h5.2.2, h3⟩
            have := hc4
            simp only [commands, List.mem_cons, List.not_mem_nil, or_false] at h1
            tauto
          · intro pre f r' mags hof hr hop hm
            refine ⟨f, hof, fun hc => hinv hc h0 _, Or.inr ⟨r', mags, by rw [q1]; rfl, hm, hop, ?_⟩⟩
            rintro ⟨hc, hoff⟩
            rw [off_iff] at hoff
            have hc3 : c.cmd ≠ "recalc_source" := by rintro e; rw [e] at hc; revert hc; decide
            have hav : (popD pp.args "align_sites" (.bool false)).1.truthy = false := by
              rw [popD_fst, p2 _ (by decide) (by decide) (by decide) (by decide), m2]
              exact hoff
            unfold postProcess at h
            simp only [hav, Bool.false_eq_true, if_false, hc3] at h
            rw [Act.pure_out] at h
            simp only [Except.ok.injEq] at h
            rcases resultOf_ok h0 with ⟨-, w1, r1, w2, w3, w4⟩ | ⟨h, -⟩
            · rw [w2, hr] at h
              simp only [Option.some.injEq] at h
              subst h
              exact ⟨_, _, by rw [w1]; simp, w3, w4⟩
            · exact absurd hc h
  · exact .quiet (by intro e he; simp [Act.lift_effects] at he)


/-! ## Files -/

/-- Both have the same files, apart from those of other parts of the program. -/
def Agree (w : World) (fs fs' : Files) : Prop := ∀ f, ¬ w.other f → fs' f = fs f

theorem Run.During.quiet {env : Env} {w : World} {e : Effect} {fs fs' : Files} (he : e.plainOne)
    (h : During env w e fs fs') : Agree w fs fs' := by
  cases h with
  | before => exact fun _ _ => rfl
  | opened => exact he.elim
  | writing => exact he.elim
  | copying => exact he.elim
  | other _ _ _ _ h => exact h

theorem Run.After.quiet {env : Env} {w : World} {e : Effect} {fs fs' : Files} (he : e.plainOne)
    (h : After env w e fs fs') : Agree w fs fs' := by
  cases h with
  | opened => exact he.elim
  | notOpened => exact fun _ _ => rfl
  | written => exact he.elim
  | failed => exact he.elim
  | copied => exact he.elim
  | other _ _ _ _ h => exact h

theorem Run.Seen.split {env : Env} {w : World} {pre rest : List Effect} {fs fs' : Files}
    (hp : ∀ e ∈ pre, e.plainOne) (h : Seen env w (pre ++ rest) fs fs') :
    Agree w fs fs' ∨ ∃ fs1, Agree w fs fs1 ∧ Seen env w rest fs1 fs' := by
  induction pre generalizing fs with
  | nil => exact Or.inr ⟨fs, fun _ _ => rfl, h⟩
  | cons e pre ih =>
    rw [List.cons_append] at h
    cases h with
    | start => exact Or.inl fun _ _ => rfl
    | during _ _ _ _ h => exact Or.inl (h.quiet (hp e List.mem_cons_self))
    | next _ _ _ fs1 _ h1 h2 =>
      have h1 := h1.quiet (hp e List.mem_cons_self)
      rcases ih (fun x hx => hp x (List.mem_cons_of_mem _ hx)) h2 with h | ⟨fs2, h, h'⟩
      · exact Or.inl fun f hf => (h f hf).trans (h1 f hf)
      · exact Or.inr ⟨fs2, fun f hf => (h f hf).trans (h1 f hf), h'⟩

theorem Run.Seen.quiet {env : Env} {w : World} {l : List Effect} {fs fs' : Files}
    (hp : ∀ e ∈ l, e.plainOne) (h : Seen env w l fs fs') : Agree w fs fs' := by
  rcases Seen.split (rest := []) hp (by rwa [List.append_nil]) with h | ⟨fs1, h, h'⟩
  · exact h
  · cases h'
    exact h

/-- The moment after the end of a run is one of its moments. -/
theorem Run.Ended.seen {env : Env} {w : World} {l : List Effect} {fs fs' : Files}
    (h : Ended env w l fs fs') : Seen env w l fs fs' := by
  induction h with
  | nil fs => exact .start _ _
  | cons e l fs fs1 fs' h1 _ ih => exact .next _ _ _ _ _ h1 ih

theorem Run.Ended.split {env : Env} {w : World} {pre rest : List Effect} {fs fs' : Files}
    (hp : ∀ e ∈ pre, e.plainOne) (h : Ended env w (pre ++ rest) fs fs') :
    ∃ fs1, Agree w fs fs1 ∧ Ended env w rest fs1 fs' := by
  induction pre generalizing fs with
  | nil => exact ⟨fs, fun _ _ => rfl, h⟩
  | cons e pre ih =>
    rw [List.cons_append] at h
    cases h with
    | cons _ _ _ fs1 _ h1 h2 =>
      have h1 := h1.quiet (hp e List.mem_cons_self)
      obtain ⟨fs2, h, h'⟩ := ih (fun x hx => hp x (List.mem_cons_of_mem _ hx)) h2
      exact ⟨fs2, fun f hf => (h f hf).trans (h1 f hf), h'⟩

theorem put_self (fs : Files) (f : String) (t : List Char) : fs.put f t f = some t := by
  simp [Files.put]

theorem put_ne (fs : Files) {f g : String} (t : List Char) (h : g ≠ f) : fs.put f t g = fs g := by
  simp [Files.put, h]

/-- Moments of a tail. -/
theorem FileTail.seen {env : Env} {c : Call} {conf : Args} {w : World} {pre rest : List Effect}
    {fs fs' : Files} (ht : FileTail env c conf pre rest) (h : Seen env w rest fs fs') {g : String}
    (hg : ¬ w.other g) :
    fs' g = fs g ∨ (Spec.OutputFile c conf g ∧
      (c.cmd ∈ ["go", "fixed", "source"] → ∃ np a r, Effect.invert np a ∈ pre ∧
        env.invert np a = .ok r) ∧
      ((fs' g = some [] ∧ c.cmd = "rt") ∨ ∃ r p, Effect.dump g r (Spec.indentOf c conf) ∈ rest ∧
        fs' g = some p ∧ p <+: w.text r (Spec.indentOf c conf) ∧
        (Spec.Direct c conf → ∃ np a, Effect.invert np a ∈ pre ∧ env.invert np a = .ok r ∧
          r.plain = true))) := by
  obtain ⟨f, h1, h2, ⟨rfl, h3⟩ | ⟨r, mags, rfl, h3, h4, h5⟩⟩ := ht
  · have key : ∀ fs1, fs1 = fs ∨ (env.openW f = .ok () ∧ fs1 = fs.put f []) → fs1 = fs' →
        fs' g = fs g ∨ (Spec.OutputFile c conf g ∧ fs' g = some [] ∧ c.cmd = "rt") := by
      rintro fs1 (rfl | ⟨ho, rfl⟩) rfl
      · exact Or.inl rfl
      · rcases h3 with ⟨x, hx⟩ | hrt
        · rw [hx] at ho; simp at ho
        by_cases he : g = f
        · subst he
          exact Or.inr ⟨h1, put_self _ _ _, hrt⟩
        · exact Or.inl (put_ne _ _ he)
    have : fs' g = fs g ∨ (Spec.OutputFile c conf g ∧ fs' g = some [] ∧ c.cmd = "rt") := by
      cases h with
      | start => exact Or.inl rfl
      | during _ _ _ _ h =>
        cases h with
        | before => exact Or.inl rfl
        | opened _ _ ho => exact key _ (Or.inr ⟨ho, rfl⟩) rfl
        | other _ _ _ h => exact h.elim
      | next _ _ _ fs1 _ h h' =>
        cases h' 
        cases h with
        | opened _ _ ho => exact key _ (Or.inr ⟨ho, rfl⟩) rfl
        | notOpened => exact Or.inl rfl
        | other _ _ _ h => exact h.elim
    exact this.imp id fun ⟨a, b⟩ => ⟨a, h2, Or.inl b⟩
  · have key : ∀ p, p <+: w.text r (Spec.indentOf c conf) → fs' f = some p →
        (∀ g, ¬ w.other g → g ≠ f → fs' g = fs g) →
        fs' g = fs g ∨ (Spec.OutputFile c conf g ∧
        ∃ r' p, Effect.dump g r' (Spec.indentOf c conf) ∈
          Effect.openW f :: .dump f r (Spec.indentOf c conf) :: mags ∧
        fs' g = some p ∧ p <+: w.text r' (Spec.indentOf c conf) ∧
        (Spec.Direct c conf → ∃ np a, Effect.invert np a ∈ pre ∧ env.invert np a = .ok r' ∧
          r'.plain = true)) := by
      intro p hp hq hr
      by_cases he : g = f
      · subst he
        exact Or.inr ⟨h1, r, p, by simp, hq, hp, h5⟩
      · exact Or.inl (hr g hg he)
    have : fs' g = fs g ∨ (Spec.OutputFile c conf g ∧
        ∃ r' p, Effect.dump g r' (Spec.indentOf c conf) ∈
          Effect.openW f :: .dump f r (Spec.indentOf c conf) :: mags ∧
        fs' g = some p ∧ p <+: w.text r' (Spec.indentOf c conf) ∧
        (Spec.Direct c conf → ∃ np a, Effect.invert np a ∈ pre ∧ env.invert np a = .ok r' ∧
          r'.plain = true)) := by
      cases h with
      | start => exact Or.inl rfl
      | during _ _ _ _ h =>
        cases h with
        | before => exact Or.inl rfl
        | opened _ _ ho => exact key [] List.nil_prefix (put_self _ _ _) fun g _ h => put_ne _ _ h
        | other _ _ _ h => exact h.elim
      | next _ _ _ fs1 _ h h' =>
        have e1 : fs1 = fs.put f [] := by
          cases h with
          | opened => rfl
          | notOpened _ _ x hx => rw [hx] at h4; simp at h4
          | other _ _ _ h => exact h.elim
        subst e1
        cases h' with
        | start => exact key [] List.nil_prefix (put_self _ _ _) fun g _ h => put_ne _ _ h
        | during _ _ _ _ h =>
          cases h with
          | before => exact key [] List.nil_prefix (put_self _ _ _) fun g _ h => put_ne _ _ h
          | writing _ _ _ _ p hp =>
            exact key p hp (put_self _ _ _) fun g _ h => by rw [put_ne _ _ h, put_ne _ _ h]
          | other _ _ _ h => exact h.elim
        | next _ _ _ fs2 _ h h' =>
          have e2 : ∃ p, p <+: w.text r (Spec.indentOf c conf) ∧ fs2 = (fs.put f []).put f p := by
            cases h with
            | written => exact ⟨_, List.prefix_refl _, rfl⟩
            | failed _ _ _ _ p _ hp => exact ⟨p, hp, rfl⟩
            | other _ _ _ h => exact h.elim
          obtain ⟨p, hp, rfl⟩ := e2
          have hq := h'.quiet h3
          by_cases he : g = f
          · subst he
            refine Or.inr ⟨h1, r, p, by simp, ?_, hp, h5⟩
            rw [hq g hg, put_self]
          · left
            rw [hq g hg, put_ne _ _ he, put_ne _ _ he]
    exact this.imp id fun ⟨a, b⟩ => ⟨a, h2, Or.inr b⟩

/-- End of a tail. -/
theorem FileTail.ended {env : Env} {c : Call} {conf : Args} {w : World} {pre rest : List Effect}
    {fs fs' : Files} (ht : FileTail env c conf pre rest) (h : Ended env w rest fs fs') {g : String}
    (hg : ¬ w.other g) :
    fs' g = fs g ∨ (Spec.OutputFile c conf g ∧
      ((fs' g = some [] ∧ c.cmd = "rt") ∨ ∃ r, Effect.dump g r (Spec.indentOf c conf) ∈ rest ∧
        (r.plain = true → fs' g = some (w.text r (Spec.indentOf c conf))) ∧
        (Spec.Direct c conf → ∃ np a, Effect.invert np a ∈ pre ∧ env.invert np a = .ok r ∧
          r.plain = true))) := by
  obtain ⟨f, h1, h2, ⟨rfl, h3⟩ | ⟨r, mags, rfl, h3, h4, h5⟩⟩ := id ht
  · rcases ht.seen h.seen hg with h | ⟨h, -, h' | ⟨r, p, h', -⟩⟩
    · exact Or.inl h
    · exact Or.inr ⟨h, Or.inl h'⟩
    · simp at h'
  · cases h with
    | cons _ _ _ fs1 _ h h' =>
      have e1 : fs1 = fs.put f [] := by
        cases h with
        | opened => rfl
        | notOpened _ _ x hx => rw [hx] at h4; simp at h4
        | other _ _ _ h => exact h.elim
      subst e1
      cases h' with
      | cons _ _ _ fs2 _ h h' =>
        have e2 : ∃ p, (r.plain = true → p = w.text r (Spec.indentOf c conf)) ∧
            fs2 = (fs.put f []).put f p := by
          cases h with
          | written => exact ⟨_, fun _ => rfl, rfl⟩
          | failed _ _ _ _ p hn hp => exact ⟨p, fun h => (by rw [hn] at h; cases h), rfl⟩
          | other _ _ _ h => exact h.elim
        obtain ⟨p, hp, rfl⟩ := e2
        have hq := h'.seen.quiet h3
        by_cases he : g = f
        · subst he
          refine Or.inr ⟨h1, Or.inr ⟨r, by simp, fun hr => ?_, h5⟩⟩
          rw [hq g hg, put_self, hp hr]
        · left
          rw [hq g hg, put_ne _ _ he, put_ne _ _ he]

theorem dump_ended {env : Env} {w : World} {f : String} {r i : J} {mags : List Effect}
    {fs fs' : Files} (h3 : ∀ e ∈ mags, e.plainOne) (hg : ¬ w.other f)
    (hr : r.plain = true) (h : Ended env w (.openW f :: .dump f r i :: mags) fs fs') :
    fs' f = some (w.text r i) := by
  cases h with
  | cons _ _ _ fs1 _ h h' =>
    cases h' with
    | cons _ _ _ fs2 _ h h' =>
      have e2 : fs2 = fs1.put f (w.text r i) := by
        cases h with
        | written => rfl
        | failed _ _ _ _ p hn hp => rw [hn] at hr; cases hr
        | other _ _ _ h => exact h.elim
      subst e2
      rw [h'.seen.quiet h3 f hg, put_self]

/-! ## C123 -/

/-- **C123**: at every moment of a run, whether it goes on, is killed or fails, a file (apart from
files written by logging, inversion and figures) has its old contents; only the output file may
instead hold the beginning of the result which this run is about to write.  An inversion has returned
before the output file is touched.  (The accepted command `rt` leaves an empty output file.) -/
theorem C123_any_moment_partial {env : Env} {c : Call} {conf : Args} {w : World} {fs fs' : Files}
    (hf : Spec.Conf env c conf) (hw : conf.WF) (hw' : c.args.WF) (hc : c.cmd ≠ "create")
    (h : Seen env w (run env c).effects fs fs') {f : String} (hof : ¬ w.other f) :
    fs' f = fs f ∨ (Spec.OutputFile c conf f ∧
      (c.cmd ∈ ["go", "fixed", "source"] → ∃ np a r, Effect.invert np a ∈ (run env c).effects ∧
        env.invert np a = .ok r) ∧
      ((fs' f = some [] ∧ c.cmd = "rt") ∨
       ∃ r p, Effect.dump f r (Spec.indentOf c conf) ∈ (run env c).effects ∧
        fs' f = some p ∧ p <+: w.text r (Spec.indentOf c conf))) := by
  obtain ⟨pre, rest, h1, h2, h3⟩ := run_shape hf hw hw' hc
  rw [h1] at h ⊢
  rcases h.split h2 with h | ⟨fs1, h, h'⟩
  · exact Or.inl (h f hof)
  rcases h3 with rfl | h3
  · cases h'; exact Or.inl (h f hof)
  rw [← h f hof]
  refine (h3.seen h' hof).imp id fun ⟨a, b, d⟩ => ⟨a, fun hc => ?_, d.imp id ?_⟩
  · obtain ⟨np, x, r, m, e⟩ := b hc
    exact ⟨np, x, r, List.mem_append_left _ m, e⟩
  · rintro ⟨r, p, m, e, e', -⟩
    exact ⟨r, p, List.mem_append_right _ m, e, e'⟩

/-- **C123**: if the inversion raises an exception or never returns, the output file keeps the result
of an earlier run, at every moment. -/
theorem C123_failed_inversion {env : Env} {c : Call} {conf : Args} {w : World} {fs fs' : Files}
    (hf : Spec.Conf env c conf) (hw : conf.WF) (hw' : c.args.WF)
    (hc : c.cmd ∈ ["go", "fixed", "source"])
    (hi : ∀ np a, Effect.invert np a ∈ (run env c).effects → ∀ r, env.invert np a ≠ .ok r)
    (h : Seen env w (run env c).effects fs fs') {f : String} (hof : ¬ w.other f) : fs' f = fs f := by
  have hc1 : c.cmd ≠ "create" := by rintro e; rw [e] at hc; revert hc; decide
  rcases C123_any_moment_partial hf hw hw' hc1 h hof with h | ⟨-, h, -⟩
  · exact h
  · obtain ⟨np, a, r, h, h'⟩ := h hc
    exact absurd h' (hi np a h r)

/-- **C123**: after a run of `go`, `fixed` or `source` without alignment which returned or raised an
exception the output file has its old contents or holds the complete result of the inversion of this
run, whatever happened. -/
theorem C123_after {env : Env} {c : Call} {conf : Args} {w : World} {fs fs' : Files}
    (hf : Spec.Conf env c conf) (hw : conf.WF) (hw' : c.args.WF) (hd : Spec.Direct c conf)
    (h : Ended env w (run env c).effects fs fs') {f : String} (hof : ¬ w.other f) :
    fs' f = fs f ∨ (Spec.OutputFile c conf f ∧ ∃ np a r, Effect.invert np a ∈ (run env c).effects ∧
      env.invert np a = .ok r ∧ fs' f = some (w.text r (Spec.indentOf c conf))) := by
  have hc1 : c.cmd ≠ "create" := by rintro e; have hc := hd.1; rw [e] at hc; revert hc; decide
  have hc2 : c.cmd ≠ "rt" := by rintro e; have hc := hd.1; rw [e] at hc; revert hc; decide
  obtain ⟨pre, rest, h1, h2, h3⟩ := run_shape hf hw hw' hc1
  rw [h1] at h ⊢
  obtain ⟨fs1, h, h'⟩ := h.split h2
  rcases h3 with rfl | h3
  · cases h'; exact Or.inl (h f hof)
  rw [← h f hof]
  refine (h3.ended h' hof).imp id ?_
  rintro ⟨a, ⟨-, b⟩ | ⟨r, m, e, e'⟩⟩
  · exact absurd b hc2
  · obtain ⟨np, x, m, e1, e2⟩ := e' hd
    exact ⟨a, np, x, r, List.mem_append_left _ m, e1, e e2⟩

/-- **C123**: after a successful run of `go`, `fixed`, `source` or `recalc_source` the output file
holds exactly the returned result, whatever it held before.  (Nothing is returned and written if the
options or data could not be read.) -/
theorem C123_success {env : Env} {c : Call} {conf : Args} {w : World} {fs fs' : Files} {r : J}
    (hf : Spec.Conf env c conf) (hw : conf.WF) (hw' : c.args.WF)
    (hc : c.cmd ∈ ["go", "fixed", "source", "recalc_source"]) (hr : (run env c).out = .ok r)
    (hn : r ≠ .null) (h : Ended env w (run env c).effects fs fs') {f : String} (hof : ¬ w.other f)
    (ho : Spec.OutputFile c conf f) : fs' f = some (w.text r (Spec.indentOf c conf)) := by
  have hc1 : c.cmd ≠ "create" := by rintro e; rw [e] at hc; revert hc; decide
  have hc2 : c.cmd ≠ "plot" := by rintro e; rw [e] at hc; revert hc; decide
  have hc3 : c.cmd ≠ "rt" := by rintro e; rw [e] at hc; revert hc; decide
  rcases C84_course_partial hf hw hw' hc1 hc2 hr with ⟨h0, -⟩ | ⟨dirs, l, work, figs, he, -⟩
  · exact absurd h0 hn
  have hmem : Effect.dump f r (Spec.indentOf c conf) ∈ (run env c).effects := by
    rw [he]
    have : Effect.dump f r (Spec.indentOf c conf) ∈ Spec.written c conf r := by
      unfold Spec.written
      rw [ho.1]
      simp only
      rw [if_neg ho.2.1, if_neg ho.2.2]
      simp [Spec.indentOf]
    simp [this]
  obtain ⟨pre, rest, h1, h2, h3⟩ := run_shape hf hw hw' hc1
  have hj : ∀ g r' i, Effect.dump g r' i ∈ (run env c).effects → r'.plain = true ∧ r' = r :=
    fun g r' i m => by
      obtain ⟨a, b⟩ := C111_written hr hc (Or.inr ⟨g, i, m⟩)
      exact ⟨(plain_json _).2 a, b⟩
  rw [h1] at h hmem hj
  obtain ⟨fs1, -, h'⟩ := h.split h2
  have hrest : Effect.dump f r (Spec.indentOf c conf) ∈ rest := by
    rcases List.mem_append.1 hmem with m | m
    · exact (h2 _ m).elim
    · exact m
  rcases h3 with rfl | h3
  · simp at hrest
  obtain ⟨f', g1, -, ⟨rfl, -⟩ | ⟨r', mags, rfl, g3, g4, -⟩⟩ := h3
  · simp at hrest
  · have hff : f' = f := by
      have := g1.1.symm.trans ho.1
      simpa using this
    subst hff
    obtain ⟨p1, rfl⟩ := hj f' r' (Spec.indentOf c conf) (by simp)
    exact dump_ended g3 hof p1 h'

/-- **C123**: `create` replaces an existing configuration file by the example, without asking. -/
theorem C123_create {env : Env} {conf : Option String} {w : World} {fs fs' : Files}
    (h : Ended env w (run env { cmd := "create", conf := conf }).effects fs fs') :
    fs' ((normConf conf).getD "conf.json") = some (w.example_ "conf.json") := by
  have : (run env { cmd := "create", conf := conf }).effects =
      [.copy "conf.json" ((normConf conf).getD "conf.json")] := rfl
  rw [this] at h
  cases h with
  | cons _ _ _ fs1 _ h h' =>
    cases h'
    cases h with
    | copied => exact put_self _ _ _
    | other _ _ _ h => exact h.elim

namespace CrashExample

/-- Every result is written as "{}", the example is "e". -/
def world : World := ⟨fun _ _ => ['{', '}'], fun _ => ['e'], fun _ => False⟩

/-- Two files of an earlier run. -/
def before : Files := fun f =>
  if f = "out/results.json" then some "old".toList
  else if f = "conf.json" then some "mine".toList else none

/-- Options of the file. -/
def conf : Args := [("events", .str "events.xml"), ("inventory", .str "stations.xml"),
    ("njobs", .num 2), ("weight", .str "1/W"), ("prefix", .str "out/"),
    ("plot_sds_options", .dict [("fname", .str "sds.pdf")])]

theorem exConf : Spec.Conf exEnv exCall conf ∧ conf.WF ∧ exCall.args.WF :=
  ⟨Or.inr ⟨"conf.json", _, rfl, rfl, rfl⟩, by unfold Dict.WF; decide, by unfold Dict.WF; decide⟩

theorem exOutput : Spec.OutputFile exCall conf "out/results.json" :=
  ⟨rfl, by decide, by unfold Spec.NoFile; decide⟩

theorem exDirect : Spec.Direct exCall conf :=
  ⟨by simp [exCall], by rw [off_iff]; rfl⟩

/-- After the first effects of the example the output file is open and empty. -/
theorem exSeen : Seen exEnv world (run exEnv exCall).effects before
    (before.put "out/results.json" []) := by
  rw [exCall_effects]
  refine .next _ _ _ before _ (.other _ _ _ trivial fun _ _ => rfl) ?_
  refine .next _ _ _ before _ (.other _ _ _ trivial fun _ _ => rfl) ?_
  refine .next _ _ _ before _ (.other _ _ _ trivial fun _ _ => rfl) ?_
  refine .next _ _ _ before _ (.other _ _ _ trivial fun _ _ => rfl) ?_
  exact .during _ _ _ _ (.opened _ _ rfl)

/-- The complete run. -/
theorem exEnded : ∃ fs', Ended exEnv world (run exEnv exCall).effects before fs' := by
  rw [exCall_effects]
  refine ⟨(before.put "out/results.json" []).put "out/results.json" ['{', '}'], ?_⟩
  refine .cons _ _ _ before _ (.other _ _ _ trivial fun _ _ => rfl) ?_
  refine .cons _ _ _ before _ (.other _ _ _ trivial fun _ _ => rfl) ?_
  refine .cons _ _ _ before _ (.other _ _ _ trivial fun _ _ => rfl) ?_
  refine .cons _ _ _ before _ (.other _ _ _ trivial fun _ _ => rfl) ?_
  refine .cons _ _ _ _ _ (.opened _ _ rfl) ?_
  refine .cons _ _ _ _ _ (.written _ _ _ _ rfl) (.nil _)

/-- The hypotheses of the theorems on all moments and on the end of a run are met. -/
example : before "out/results.json" = some "old".toList ∧
    (∃ fs', Seen exEnv world (run exEnv exCall).effects before fs' ∧
      fs' "out/results.json" ≠ before "out/results.json") ∧
    ∃ fs', Ended exEnv world (run exEnv exCall).effects before fs' ∧
      fs' "out/results.json" = some ['{', '}'] := by
  refine ⟨rfl, ⟨_, exSeen, ?_⟩, ?_⟩
  · rw [put_self]
    decide
  · obtain ⟨fs', h⟩ := exEnded
    exact ⟨fs', h, C123_success exConf.1 exConf.2.1 exConf.2.2 (by decide)
      (r := .dict [("events", .dict [])]) rfl (by simp) h (by simp [world]) exOutput⟩

/-- A world in which every inversion fails. -/
def failing : Env := { exEnv with invert := fun _ _ => .error .other }

/-- The hypotheses of the theorem on failing inversions are met, the inversion is started. -/
example : Spec.Conf failing exCall conf ∧ (run failing exCall).out = .error .other ∧
    (∃ np a, Effect.invert np a ∈ (run failing exCall).effects) ∧
    (∀ np a, Effect.invert np a ∈ (run failing exCall).effects → ∀ r, failing.invert np a ≠ .ok r) ∧
    ∀ fs', Seen failing world (run failing exCall).effects before fs' →
      fs' "out/results.json" = some "old".toList := by
  have hf : Spec.Conf failing exCall conf := Or.inr ⟨"conf.json", _, rfl, rfl, rfl⟩
  have he : (run failing exCall).effects = [.mkdir "out", .logging (.given (.str "x")),
     .invert (.bool false)
       [("njobs", .num 1), ("weight", .str "1/W"),
        ("plot_sds_options", .dict [("fname", .str "out/sds.pdf")]),
        ("plot_results_options", .dict [("fname", .str "out/r.pdf")]),
        ("cmd", .str "go"), ("inventory", .obj 0), ("get_waveforms", .obj 3),
        ("events", .list [.obj 2])]] := rfl
  have hi : ∀ np a, Effect.invert np a ∈ (run failing exCall).effects →
      ∀ r, failing.invert np a ≠ .ok r := by
    intro np a _ r h
    simp [failing] at h
  refine ⟨hf, rfl, ?_, hi, fun fs' h => ?_⟩
  · rw [he]
    exact ⟨_, _, List.mem_cons_of_mem _ (List.mem_cons_of_mem _ List.mem_cons_self)⟩
  · rw [C123_failed_inversion hf exConf.2.1 exConf.2.2 (by decide) hi h
      (f := "out/results.json") (by simp [world])]
    rfl

end CrashExample

open CrashExample in
/-- **C123** (counterexample to "a run which is interrupted leaves the old or the new result in the
output file"): the file is emptied before the new result is written, so that a run stopped at this
moment destroys the result of the run before; the empty file is not even the text of a result. -/
theorem C123_crash_counterexample : Spec.OutputFile exCall conf "out/results.json" ∧
    Spec.Direct exCall conf ∧ (∃ r, (run exEnv exCall).out = .ok r) ∧
    before "out/results.json" = some "old".toList ∧
    ∃ fs', Seen exEnv world (run exEnv exCall).effects before fs' ∧
      fs' "out/results.json" = some [] ∧ ∀ r i, world.text r i ≠ [] :=
  ⟨exOutput, exDirect, ⟨_, rfl⟩, rfl, _, exSeen, put_self _ _ _, by simp [world]⟩

open CrashExample in
/-- **C123** (counterexample to "`create` keeps existing files"): a configuration file which is already
there is lost. -/
theorem C123_create_counterexample : before "conf.json" = some "mine".toList ∧
    (run exEnv { cmd := "create" }).out = .ok .null ∧
    ∃ fs', Ended exEnv world (run exEnv { cmd := "create" }).effects before fs' ∧
      fs' "conf.json" = some "e".toList :=
  ⟨rfl, rfl, _, .cons _ _ _ _ _ (.copied _ _ _) (.nil _), put_self _ _ _⟩

end Qopen
