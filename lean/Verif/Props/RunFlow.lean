import Verif.Props.RunResult

/-!
# Course of a run: output, selection of events, failures, figures (C84 to C89)
-/

namespace Qopen

open Run

/-! ## C84: output -/

namespace Spec

/-- Name of the output file, with prefix. -/
def outputName (c : Call) (conf : Args) : Option String :=
  match option c conf "output" with
  | some (.str o) => some (prefixOf c conf ++ o)
  | _ => none

/-- Names which stand for no output. -/
def NoFile (f : String) : Prop :=
  f.toList.map Char.toLower = "none".toList ∨ f.toList.map Char.toLower = "null".toList ∨ f = ""

open Classical in
/-- How the result `r` is written. -/
noncomputable def written (c : Call) (conf : Args) (r : J) : List Effect :=
  match outputName c conf with
  | none => []
  | some f =>
    if f = "stdout" then [.stdout r]
    else if NoFile f then []
    else (if dirname f = "" then [] else [.mkdir (dirname f)]) ++
      [.openW f, .dump f r ((option c conf "indent").getD .null)]

/-- Magnitude of the event in the result. -/
def magnitude (e : J) : Option ℚ :=
  match entry e "Mw" with
  | some (.num x) => some x
  | _ => none

/-- Lines with magnitudes. -/
def magnitudes (r : J) : List Effect :=
  match entry r "events" with
  | some (.dict evs) => evs.map (fun kv => .mag kv.1 (magnitude kv.2))
  | _ => []

end Spec

theorem noOutput_iff (f : String) : noOutput f = true ↔ Spec.NoFile f := by
  unfold noOutput Spec.NoFile
  simp only [decide_eq_true_eq, List.mem_cons, List.not_mem_nil, or_false]
  rw [List.map_eq_nil_iff, String.toList_eq_nil_iff]

theorem prepared_output {env : Env} {c : Call} {conf merged : Args} {pp : Prep} (m1 : merged.WF)
    (m2 : ∀ k, merged.get? k = Spec.option c conf k)
    (hpp : (prepare env c.cmd c.plots merged).out = .ok pp) :
    pp.indent = (Spec.option c conf "indent").getD .null ∧
    ∀ f, pp.output = .str f ↔ Spec.outputName c conf = some f := by
  obtain ⟨p1, -, -, -, p5, -, -, -, -, -, p7⟩ := prepare_ok m1 hpp
  rw [m2] at p5
  rw [m2, m2, m2] at p7
  refine ⟨p5, fun f => ?_⟩
  have triv : pp.output = (Spec.option c conf "output").getD .null → Spec.prefixOf c conf = "" →
      (pp.output = .str f ↔ Spec.outputName c conf = some f) := by
    intro h h0
    rw [h]
    unfold Spec.outputName
    rw [h0]
    cases hq : Spec.option c conf "output" with
    | none => simp
    | some q => cases q <;> simp
  cases hq : Spec.option c conf "prefix" with
  | none =>
    rw [hq] at p7
    exact triv p7.2 (by unfold Spec.prefixOf; rw [hq])
  | some q =>
    rw [hq] at p7
    cases q
    case str p =>
      simp only at p7
      split_ifs at p7 with h0
      · exact triv p7.2 (by unfold Spec.prefixOf; rw [hq]; exact h0)
      · have h := p7.2
        unfold Spec.outputName Spec.prefixOf
        rw [hq]
        unfold prefixOutput at h
        cases ho : Spec.option c conf "output" with
        | none =>
          rw [ho] at h
          simp only [Option.getD_none, Except.ok.injEq] at h
          rw [← h]; simp
        | some w =>
          rw [ho] at h
          cases w <;> simp only [Option.getD_some, reduceCtorEq, Except.ok.injEq] at h
          · rw [← h]; simp
          · rw [← h]; simp
    all_goals exact triv p7.2 (by unfold Spec.prefixOf; rw [hq])

theorem writeOutput_written {env : Env} {c : Call} {conf : Args} {pp : Prep} {r : J}
    (hi : pp.indent = (Spec.option c conf "indent").getD .null)
    (ho : ∀ f, pp.output = .str f ↔ Spec.outputName c conf = some f)
    (h : (writeOutput env pp.output pp.indent (some r)).out = .ok ()) :
    (writeOutput env pp.output pp.indent (some r)).effects = Spec.written c conf r := by
  rcases writeOutput_ok h with ⟨h1, h2⟩ | ⟨f, hf, h2⟩
  · rw [h2]
    unfold Spec.written
    cases hq : Spec.outputName c conf with
    | none => rfl
    | some f =>
      have := (ho f).2 hq
      rw [h1] at this
      simp at this
  · have hq := (ho f).1 hf
    unfold Spec.written
    rw [hq]
    simp only
    rcases h2 with ⟨h1, h2⟩ | ⟨h1, h3, h2⟩ | ⟨h1, h3, h2⟩
    · rw [if_pos h1, h2]
    · rw [if_neg h1, if_pos ((noOutput_iff f).1 h3), h2]
    · have h4 : ¬ Spec.NoFile f := by rw [← noOutput_iff, h3]; simp
      rw [if_neg h1, if_neg h4, h2, hi]

theorem printAll_ok {l : List (String × J)} (h : (printAll l).out = .ok ()) :
    (printAll l).effects = l.map (fun kv => .mag kv.1 (Spec.magnitude kv.2)) := by
  induction l with
  | nil => rfl
  | cons kv l ih =>
    unfold printAll at h ⊢
    obtain ⟨u, h1, h⟩ := Act.bind_out.1 h
    rw [Act.bind_effects_of_ok h1, ih h, List.map_cons]
    have : (printMag kv).effects = [.mag kv.1 (Spec.magnitude kv.2)] := by
      unfold printMag at h1 ⊢
      unfold Spec.magnitude Spec.entry
      split at h1
      · rename_i d hd
        rw [hd]
        simp only
        split at h1
        · rename_i hm; rw [hm]; rfl
        · rename_i x hm; rw [hm]; rfl
        · simp [Act.lift_out] at h1
        · simp [Act.lift_out] at h1
      · simp [Act.lift_out] at h1
      · simp [Act.lift_out] at h1
      · simp [Act.lift_out] at h1
    rw [this]
    rfl

theorem printMags_ok {want : Bool} {r : J} (h : (printMags want (some r)).out = .ok ()) :
    (printMags want (some r)).effects = if want then Spec.magnitudes r else [] := by
  unfold printMags at h ⊢
  by_cases hw : want = true
  · rw [if_pos hw] at h ⊢
    rw [if_pos hw]
    obtain ⟨r', hr, h⟩ := Act.bind_out.1 h
    rw [Act.lift_out, bound_ok] at hr
    simp only [Option.some.injEq] at hr
    subst hr
    rw [Act.bind_lift_ok (a := r) (by rw [bound_ok])]
    unfold Spec.magnitudes Spec.entry
    split at h
    · split at h
      · rename_i d _ hd
        simp only [hd]; rfl
      · rename_i d _ evs hd
        simp only [hd]
        exact printAll_ok h
      · simp [Act.lift_out] at h
    · simp [Act.lift_out] at h
    · simp [Act.lift_out] at h
    · simp [Act.lift_out] at h
  · rw [if_neg hw] at h ⊢
    rw [if_neg hw]
    rfl

theorem prepare_mkdirs {env : Env} {cmd : String} {plots : J} {args : Args} :
    ∀ e ∈ (prepare env cmd plots args).effects, ∃ p, e = .mkdir p := fun _ h => prepare_effects h

theorem resultOf_ok {env : Env} {cmd : String} {align : J} {rin r : Option J} {args : Args}
    (h : (resultOf env cmd align rin args).out = .ok r) :
    (cmd ∈ ["go", "fixed", "source"] ∧ (resultOf env cmd align rin args).effects = [.invert align args] ∧
      ∃ r', r = some r' ∧ env.invert align args = .ok r' ∧ r'.plain = true) ∨
    (cmd ∉ ["go", "fixed", "source"] ∧ (resultOf env cmd align rin args).effects = [] ∧
      r = if cmd = "recalc_source" then rin else none) := by
  unfold resultOf at h ⊢
  by_cases hc : cmd = "go" ∨ cmd = "fixed" ∨ cmd = "source"
  · rw [if_pos hc] at h ⊢
    left
    refine ⟨by simpa using hc, ?_⟩
    obtain ⟨r', h1, h⟩ := Act.bind_out.1 h
    simp only [Act.pure_out, Except.ok.injEq] at h
    rw [Act.bind_effects_of_ok h1, Act.pure_effects, List.append_nil]
    unfold invertCmd at h1 ⊢
    by_cases hn : (args.get? "noplots").isSome = true
    · rw [if_pos hn] at h1; simp [Act.lift_out] at h1
    rw [if_neg hn] at h1 ⊢
    obtain ⟨r1, h2, h1⟩ := Act.bind_out.1 h1
    rw [Act.emit_out] at h2
    rw [Act.bind_effects_of_ok (by rw [Act.emit_out]; exact h2), Act.emit_effects]
    split_ifs at h1 with hp
    · simp only [Act.pure_out, Except.ok.injEq] at h1
      subst h1
      rw [if_pos hp]
      exact ⟨rfl, r1, h.symm, h2, hp⟩
    · simp [Act.lift_out] at h1
  · rw [if_neg hc] at h ⊢
    right
    refine ⟨by simpa using hc, ?_⟩
    split_ifs at h ⊢ with h1
    · simp only [Act.pure_out, Except.ok.injEq] at h
      exact ⟨rfl, h.symm⟩
    · simp only [Act.pure_out, Except.ok.injEq] at h
      exact ⟨rfl, h.symm⟩

/-- **C84**: course of a successful run.  Either nothing has been done because options or data could
not be read, and nothing is returned; or logging is configured, there is one inversion (none for
`recalc_source`), then figures may be drawn, then the returned result is written once as requested, and
finally the magnitudes are printed if requested. -/
theorem C84_course_partial {env : Env} {c : Call} {conf : Args} {r : J} (hf : Spec.Conf env c conf)
    (hw : conf.WF) (hw' : c.args.WF) (hc1 : c.cmd ≠ "create") (hc2 : c.cmd ≠ "plot")
    (h : (run env c).out = .ok r) :
    (r = .null ∧ ∀ e ∈ (run env c).effects, e = .message ∨ (∃ p, e = .mkdir p) ∨ ∃ l, e = .logging l) ∨
    ∃ dirs l work figs, (run env c).effects = dirs ++ [.logging l] ++ work ++ figs ++
        Spec.written c conf r ++ (if c.printMag then Spec.magnitudes r else []) ∧
      (∀ e ∈ dirs, ∃ p, e = .mkdir p) ∧
      (c.cmd ∈ ["go", "fixed", "source"] → ∃ np a, work = [.invert np a]) ∧
      (c.cmd ∉ ["go", "fixed", "source"] → work = []) ∧
      (∀ e ∈ figs, ∃ fig x fname opts, e = .draw fig x fname opts) := by
  obtain ⟨-, h | ⟨-, -, h1, h2⟩ | ⟨-, merged, pp, hm, hpp, h | ⟨-, h3, h4⟩⟩⟩ := run_out h
  · exact absurd h.1 hc1
  · left
    refine ⟨h1, fun e he => ?_⟩
    rw [h2] at he
    exact Or.inl (by simpa using he)
  · exact absurd h.1 hc2
  · obtain ⟨l, hl, ⟨-, hr, he⟩ | ⟨s, hs, he⟩⟩ := mainCmd_out h3
    · left
      refine ⟨hr, fun e hee => ?_⟩
      rw [h4, he] at hee
      rcases List.mem_append.1 hee with h | h
      · exact Or.inr (Or.inl (prepare_effects h))
      · exact Or.inr (Or.inr ⟨l, by simpa using h⟩)
    · right
      obtain ⟨m1, m2⟩ := merged_option hf hw hw' hm
      obtain ⟨q1, q2⟩ := prepared_output m1 m2 hpp
      obtain ⟨r0, g0, g1, g2, g3, g4⟩ := rest_out hs
      refine ⟨(prepare env c.cmd c.plots merged).effects, l,
        (resultOf env c.cmd (alignValue pp) s.rin s.args).effects,
        (postProcess env c.cmd (alignValue pp).truthy c.eventid s.kw s.args r0).effects, ?_,
        fun e he => prepare_effects he, ?_, ?_, fun e he => postProcess_draw he⟩
      · rw [h4, he, g4, writeOutput_written q1 q2 g2, printMags_ok g3]
        simp
      · intro hc
        rcases resultOf_ok g0 with ⟨-, h, -⟩ | ⟨h, -⟩
        · exact ⟨_, _, h⟩
        · exact absurd hc h
      · intro hc
        rcases resultOf_ok g0 with ⟨h, -⟩ | ⟨-, h, -⟩
        · exact absurd h hc
        · exact h

/-- **C84**: without alignment of site responses the result of the inversion is returned (and
therefore written) as it is. -/
theorem C84_returned {env : Env} {c : Call} {conf : Args} {r : J} (hf : Spec.Conf env c conf)
    (hw : conf.WF) (hw' : c.args.WF) (hc : c.cmd ∈ ["go", "fixed", "source"])
    (ha : ¬ Spec.On ((Spec.option c conf "align_sites").getD (.bool false)))
    (h : (run env c).out = .ok r) {np : J} {a : Args} (he : Effect.invert np a ∈ (run env c).effects) :
    env.invert np a = .ok r := by
  rw [off_iff] at ha
  have hc1 : c.cmd ≠ "create" := by rintro e; rw [e] at hc; revert hc; decide
  have hc2 : c.cmd ≠ "plot" := by rintro e; rw [e] at hc; revert hc; decide
  have hc3 : c.cmd ≠ "recalc_source" := by rintro e; rw [e] at hc; revert hc; decide
  obtain ⟨-, h | ⟨-, -, h1, h2⟩ | ⟨-, merged, pp, hm, hpp, h | ⟨-, h3, h4⟩⟩⟩ := run_out h
  · exact absurd h.1 hc1
  · rw [h2] at he; simp at he
  · exact absurd h.1 hc2
  · obtain ⟨m1, m2⟩ := merged_option hf hw hw' hm
    obtain ⟨p1, -, -, -, -, p2, -⟩ := prepare_ok m1 hpp
    have hav : (alignValue pp).truthy = false := by
      unfold alignValue
      rw [p2 _ (by decide) (by decide) (by decide) (by decide), m2]
      exact ha
    obtain ⟨l, hl, ⟨-, hr, hee⟩ | ⟨s, hs, hee⟩⟩ := mainCmd_out h3
    · rw [h4, hee] at he
      rcases List.mem_append.1 he with h | h
      · obtain ⟨_, h⟩ := prepare_effects h; simp at h
      · simp at h
    · obtain ⟨r0, g0, g1, g2, g3, g4⟩ := rest_out hs
      unfold postProcess at g1
      simp only [hav, Bool.false_eq_true, if_false, hc3] at g1
      rw [Act.pure_out] at g1
      simp only [Except.ok.injEq] at g1
      subst g1
      rcases resultOf_ok g0 with ⟨-, w1, r', w2, w3, -⟩ | ⟨h, -⟩
      · simp only [Option.some.injEq] at w2
        subst w2
        have : Effect.invert np a = .invert (alignValue pp) s.args := by
          rw [h4, hee, g4, w1] at he
          simp only [List.mem_append, List.mem_cons, List.not_mem_nil, or_false] at he
          rcases he with h | h | h | h | h | h
          · obtain ⟨_, h⟩ := prepare_effects h; simp at h
          · simp at h
          · exact h
          · obtain ⟨_, _, _, _, h⟩ := postProcess_draw h; simp at h
          · exact absurd (writeOutput_effects h) (by simp [Effect.isWrite])
          · obtain ⟨-, _, evs, -, -, h⟩ := printMags_effects h
            obtain ⟨_, -, _, -, ⟨-, h⟩ | ⟨_, -, h⟩⟩ := printAll_effects h <;> simp at h
        simp only [Effect.invert.injEq] at this
        rw [this.1, this.2]
        exact w3
      · exact absurd hc h

example : (run exEnv exCall).out = .ok (.dict [("events", .dict [])]) ∧
    Spec.written exCall [("prefix", .str "out/")] (.dict [("events", .dict [])]) =
      [.mkdir "out", .openW "out/results.json",
       .dump "out/results.json" (.dict [("events", .dict [])]) .null] := by
  refine ⟨rfl, ?_⟩
  have hn : ¬ Spec.NoFile "out/results.json" := by unfold Spec.NoFile; decide
  have ho : Spec.outputName exCall [("prefix", .str "out/")] = some "out/results.json" := rfl
  unfold Spec.written
  rw [ho]
  simp only
  rw [if_neg (by decide), if_neg hn]
  rfl


/-- **C84** (counterexample to "the output file of every accepted command holds a result"): command
`rt` is accepted by `run`, reads all data, creates the output file and then fails, an empty file is
left behind. -/
theorem C84_rt_counterexample :
    (run exEnv { exCall with cmd := "rt" }).out = .error .unboundLocal ∧
    ∃ es, (run exEnv { exCall with cmd := "rt" }).effects = es ++ [.openW "out/results.json"] :=
  ⟨rfl, [.mkdir "out", .logging (.given (.str "x")), .mkdir "out"], rfl⟩

/-! ## C85: selection of an event -/

namespace Run

/-- `run` for the commands which need data. -/
theorem run_main {env : Env} {c : Call} {merged : Args} {pp : Prep} (hc : c.cmd ∈ commands)
    (hc1 : c.cmd ≠ "create") (hc2 : c.cmd ≠ "plot")
    (hm : loadConf env (normConf c.conf) c.args = .ok (some merged))
    (hpp : (prepare env c.cmd c.plots merged).out = .ok pp) :
    (run env c).out = (mainCmd env c.cmd c.eventid c.waveforms c.printMag pp).out ∧
    (run env c).effects = (prepare env c.cmd c.plots merged).effects ++
      (mainCmd env c.cmd c.eventid c.waveforms c.printMag pp).effects := by
  unfold run
  rw [if_pos hc, if_neg hc1, Act.bind_lift_ok hm]
  simp only
  unfold runWith
  simp only [Act.bind_def, Act.bind, hpp, hc2, if_false]
  exact ⟨trivial, trivial⟩

/-- `mainCmd` after logging has been configured. -/
theorem mainCmd_logged {env : Env} {c : Call} {pp : Prep} {l : LogConf}
    (hl : loggingConf pp.loggingc pp.verbose pp.loglevel pp.logfile = .ok l)
    (he : env.logging l = .ok ()) {ld : Loaded}
    (hld : load env c.cmd (alignValue pp).truthy c.waveforms (pp.args.pop "align_sites") = some ld) :
    (mainCmd env c.cmd c.eventid c.waveforms c.printMag pp).out =
      (process env c.cmd (alignValue pp) c.eventid c.printMag pp ld).out ∧
    (mainCmd env c.cmd c.eventid c.waveforms c.printMag pp).effects =
      .logging l :: (process env c.cmd (alignValue pp) c.eventid c.printMag pp ld).effects := by
  have h1 : configureLogging env pp = ⟨[.logging l], .ok ()⟩ := by
    unfold configureLogging
    rw [Act.bind_lift_ok hl]
    unfold Act.emit
    rw [he]
  unfold mainCmd
  rw [h1]
  simp only [Act.bind_def, Act.bind]
  rw [popD_fst, popD_snd]
  have h2 : (pp.args.get? "align_sites").getD (.bool false) = alignValue pp := rfl
  rw [h2, hld]
  exact ⟨rfl, rfl⟩

theorem invert_logged {env : Env} {c : Call} {np : J} {a : Args}
    (h : Effect.invert np a ∈ (run env c).effects) :
    c.cmd ∈ ["go", "fixed", "source"] ∧ ∃ merged,
      loadConf env (normConf c.conf) c.args = .ok (some merged) ∧
      ∃ pp, (prepare env c.cmd c.plots merged).out = .ok pp ∧
      ∃ l, loggingConf pp.loggingc pp.verbose pp.loglevel pp.logfile = .ok l ∧ env.logging l = .ok () ∧
      ∃ s : Stages env c pp, np = alignValue pp ∧ a = s.args ∧ s.args.get? "noplots" = none := by
  obtain ⟨hc, -⟩ := run_invert h
  refine ⟨by simpa using hc, ?_⟩
  rcases run_effects h with ⟨-, h⟩ | ⟨h, -⟩ | ⟨-, -, merged, hm, h⟩
  · simp at h
  · simp at h
  refine ⟨merged, hm, ?_⟩
  rcases runWith_effects h with ⟨p, h⟩ | ⟨pp, hpp, ⟨-, h⟩ | ⟨-, h⟩⟩
  · simp at h
  · obtain ⟨_, _, _, _, _, -, -, -, h⟩ := plotCmd_effects h
    obtain ⟨_, _, _, _, h⟩ := plot_draw h
    simp at h
  refine ⟨pp, hpp, ?_⟩
  have hlog : ∃ l, loggingConf pp.loggingc pp.verbose pp.loglevel pp.logfile = .ok l ∧
      env.logging l = .ok () := by
    unfold mainCmd at h
    rcases Act.mem_bind.1 h with h | ⟨_, h1, -⟩
    · obtain ⟨l, h, -⟩ := configureLogging_effects h
      simp at h
    · unfold configureLogging at h1
      obtain ⟨l, h2, h1⟩ := Act.bind_out.1 h1
      exact ⟨l, h2, h1⟩
  obtain ⟨l, hl, hl2⟩ := hlog
  refine ⟨l, hl, hl2, ?_⟩
  rcases mainCmd_effects h with ⟨_, h, -⟩ | ⟨s, h⟩
  · simp at h
  have hnp : s.args.get? "noplots" = none := by
    by_contra hne
    have hno : ∀ e ∈ (resultOf env c.cmd (alignValue pp) s.rin s.args).effects, False := by
      intro e he
      unfold resultOf at he
      rw [if_pos hc] at he
      rcases Act.mem_bind.1 he with he | ⟨_, -, he⟩
      · exact hne (invertCmd_effects he).2
      · simp [Act.pure_effects] at he
    unfold Stages.rest at h
    rcases Act.mem_bind.1 h with h | ⟨r0, -, h⟩
    · exact hno _ h
    rcases Act.mem_bind.1 h with h | ⟨r1, -, h⟩
    · obtain ⟨_, _, _, _, h⟩ := postProcess_draw h
      simp at h
    rcases Act.mem_bind.1 h with h | ⟨_, -, h⟩
    · exact absurd (writeOutput_effects h) (by simp [Effect.isWrite])
    rcases Act.mem_bind.1 h with h | ⟨_, -, h⟩
    · obtain ⟨-, _, evs, -, -, h⟩ := printMags_effects h
      obtain ⟨_, -, _, -, ⟨-, h⟩ | ⟨_, -, h⟩⟩ := printAll_effects h <;> simp at h
    · simp [Act.lift_effects] at h
  rcases rest_effects h with ⟨h, -⟩ | ⟨r0, -, h | ⟨r, -, h | ⟨-, h⟩⟩⟩
  · simp only [Effect.invert.injEq] at h
    exact ⟨s, h.1, h.2, hnp⟩
  · obtain ⟨_, _, _, _, h⟩ := postProcess_draw h
    simp at h
  · exact absurd (writeOutput_effects h) (by simp [Effect.isWrite])
  · obtain ⟨-, _, evs, -, -, h⟩ := printMags_effects h
    obtain ⟨_, -, _, -, ⟨-, h⟩ | ⟨_, -, h⟩⟩ := printAll_effects h <;> simp at h

theorem get?_pop_congr {d d' : Args} (hd : d.WF) (hd' : d'.WF) (x : String) {k : String}
    (h : d.get? k = d'.get? k) : (d.pop x).get? k = (d'.pop x).get? k := by
  by_cases e : x = k
  · rw [e, Dict.get?_pop_self hd, Dict.get?_pop_self hd']
  · rw [Dict.get?_pop_ne _ e, Dict.get?_pop_ne _ e, h]

theorem addLoaded_wf {ld : Loaded} {events : Option (List J)} {args : Args} (h : args.WF) :
    (addLoaded ld events args).WF := by
  unfold addLoaded
  cases events <;> cases ld.inventory
  · exact h
  · exact Dict.WF_set h _ _
  · exact Dict.WF_set (Dict.WF_set h _ _) _ _
  · exact Dict.WF_set (Dict.WF_set (Dict.WF_set h _ _) _ _) _ _

theorem Stages.a1_wf {env : Env} {c : Call} {pp : Prep} (s : Stages env c pp)
    (hc : c.cmd ≠ "recalc_source") (hw : pp.args.WF) : s.a1.WF := by
  obtain ⟨hl, -⟩ := load_args hc s.hload
  have hwl : s.ld.args.WF := by rw [hl]; exact WF_popAll (Dict.WF_pop hw _) _
  rw [alignOptions_args s.halign]
  split_ifs
  · exact WF_popAll hwl _
  · exact hwl

theorem loadResults_congr {env : Env} {args args' a : Args} {name : String} {r : J}
    (h : loadResults env args name = .ok (r, a)) (hg : args'.get? name = args.get? name) :
    loadResults env args' name = .ok (r, args'.pop name) := by
  unfold loadResults popD at h ⊢
  rw [hg]
  cases hv : (args.get? name).getD .null <;> rw [hv] at h <;> simp only at h ⊢
  case null => simp at h
  case str f =>
    obtain ⟨r', h1, h⟩ := bind_ok.1 h
    simp only [pure, Except.pure, Except.ok.injEq, Prod.mk.injEq] at h
    rw [h1, h.1]
    rfl
  all_goals
    simp only [Except.ok.injEq, Prod.mk.injEq] at h
    rw [h.1]

end Run

/-- **C85**: an id which belongs to none of the events ends the run with a `ParseError` (`IndexError`
for an empty catalogue) before anything is inverted, drawn or written. -/
theorem C85_missing {env : Env} {c : Call} {np : J} {a : Args} {evs : List J} {id : String}
    (hn : c.eventid = none) (h : Effect.invert np a ∈ (run env c).effects)
    (hev : a.get? "events" = some (.list evs)) (hid : id ≠ "")
    (hm : ∀ ev ∈ evs, env.eventid ev ≠ id) :
    (run env { c with eventid := some id }).out =
      .error (if evs = [] then .indexError else .parseError) ∧
    ∀ e ∈ (run env { c with eventid := some id }).effects, (∃ p, e = .mkdir p) ∨ ∃ l, e = .logging l := by
  obtain ⟨hc, merged, hmg, pp, hpp, l, hl1, hl2, s, rfl, rfl, hna⟩ := invert_logged h
  have d : ∀ x ∈ ["go", "fixed", "source"],
    x ∈ commands ∧ x ≠ "create" ∧ x ≠ "plot" ∧ x ≠ "recalc_source" := by decide
  obtain ⟨d1, d2, d3, d4⟩ := d c.cmd hc
  obtain ⟨inv, evs', sel, s1, s2, s3, s4, s5, -⟩ := s.loaded d4
  have e1 : evs = evs' := by
    obtain ⟨l', u1, u2, -⟩ := selectEvents_ok s4
    simp only [Option.some.injEq] at u1
    rw [hev] at s5
    simp only [Option.some.injEq, J.list.injEq] at s5
    rw [s5, u1, u2 (Or.inl hn)]
  subst e1
  obtain ⟨r1, r2⟩ := run_main (c := { c with eventid := some id }) d1 d2 d3 hmg hpp
  obtain ⟨m1, m2⟩ := mainCmd_logged (c := { c with eventid := some id }) hl1 hl2 s.hload
  have hsel : selectEvents env (some id) s.ld.events =
      .error (if evs = [] then .indexError else .parseError) := by
    unfold selectEvents
    rw [s2]
    simp only [hid, if_false]
    have hf : evs.filter (fun ev => decide (env.eventid ev = id)) = [] := by
      rw [List.filter_eq_nil_iff]
      intro ev hev
      simpa using hm ev hev
    rw [hf]
    simp only
    split_ifs <;> rfl
  have hp : process env c.cmd (alignValue pp) (some id) c.printMag pp s.ld =
      ⟨[], .error (if evs = [] then .indexError else .parseError)⟩ := by
    unfold process
    rw [hsel]
    rfl
  rw [r1, m1, r2, m2]
  simp only
  rw [hp]
  refine ⟨rfl, fun e he => ?_⟩
  rcases List.mem_append.1 he with h | h
  · exact Or.inl (prepare_effects h)
  · exact Or.inr ⟨l, by simpa using h⟩

/-- **C85** (inversions): with the id of one or several events, exactly these events are inverted (in
the order of the catalogue), with the same options as all events without the id.  Missing, because it
is false: the same for command `recalc_source`. -/
theorem C85_selected_partial {env : Env} {c : Call} {conf : Args} {np : J} {a : Args} {evs : List J}
    {id : String} (hf : Spec.Conf env c conf) (hw : conf.WF) (hw' : c.args.WF)
    (hn : c.eventid = none) (h : Effect.invert np a ∈ (run env c).effects)
    (hev : a.get? "events" = some (.list evs)) (hid : id ≠ "")
    (hm : ∃ ev ∈ evs, env.eventid ev = id) :
    ∃ a', Effect.invert np a' ∈ (run env { c with eventid := some id }).effects ∧
      a'.get? "events" = some (.list (evs.filter (fun ev => decide (env.eventid ev = id)))) ∧
      ∀ k, k ≠ "events" → a'.get? k = a.get? k := by
  obtain ⟨hc, merged, hmg, pp, hpp, l, hl1, hl2, s, rfl, rfl, hna⟩ := invert_logged h
  have d : ∀ x ∈ ["go", "fixed", "source"],
    x ∈ commands ∧ x ≠ "create" ∧ x ≠ "plot" ∧ x ≠ "recalc_source" := by decide
  obtain ⟨d1, d2, d3, d4⟩ := d c.cmd hc
  obtain ⟨inv, evs', sel, s1, s2, s3, s4, s5, -⟩ := s.loaded d4
  have e1 : evs = evs' := by
    obtain ⟨l', u1, u2, -⟩ := selectEvents_ok s4
    simp only [Option.some.injEq] at u1
    rw [hev] at s5
    simp only [Option.some.injEq, J.list.injEq] at s5
    rw [s5, u1, u2 (Or.inl hn)]
  subst e1
  have hwp : pp.args.WF := (prepare_ok (merged_option hf hw hw' hmg).1 hpp).1
  have hwa := s.a1_wf d4 hwp
  obtain ⟨r1, r2⟩ := run_main (c := { c with eventid := some id }) d1 d2 d3 hmg hpp
  obtain ⟨m1, m2⟩ := mainCmd_logged (c := { c with eventid := some id }) hl1 hl2 s.hload
  set flt := evs.filter (fun ev => decide (env.eventid ev = id)) with hflt
  have hne : flt ≠ [] := by
    obtain ⟨ev, h1, h2⟩ := hm
    exact List.ne_nil_of_mem (List.mem_filter.2 ⟨h1, by simpa using h2⟩)
  have hsel : selectEvents env (some id) s.ld.events = .ok (some flt) := by
    unfold selectEvents
    rw [s2]
    simp only [hid, if_false, ← hflt]
  -- options differ only in the events
  have g0 : ∀ k, k ≠ "events" → (addLoaded s.ld (some flt) s.a1).get? k =
      (addLoaded s.ld s.events s.a1).get? k := by
    intro k hk
    rw [addLoaded_get?, addLoaded_get?, s3]
    simp [hk]
  have g1 : ∃ b2, inputOf env c.cmd (addLoaded s.ld (some flt) s.a1) = .ok (s.rin0, b2) ∧
      b2.WF ∧ s.a2.WF ∧ b2.get? "events" = some (.list flt) ∧ ∀ k, k ≠ "events" → b2.get? k = s.a2.get? k := by
    have hin := s.hin
    unfold inputOf at hin ⊢
    have ge : (addLoaded s.ld (some flt) s.a1).get? "events" = some (.list flt) := by
      rw [addLoaded_get?]; simp
    split_ifs at hin ⊢ with hcc
    · obtain ⟨⟨r', a'⟩, h1, hin⟩ := bind_ok.1 hin
      simp only [pure, Except.pure, Except.ok.injEq, Prod.mk.injEq] at hin
      obtain ⟨hin1, hin2⟩ := hin
      have h2 := loadResults_congr h1 (g0 "input" (by decide))
      have h3 := loadResults_congr h1 (rfl : (addLoaded s.ld s.events s.a1).get? "input" = _)
      rw [h1] at h3
      simp only [Except.ok.injEq, Prod.mk.injEq] at h3
      refine ⟨_, by rw [h2, ← hin1]; rfl, Dict.WF_pop (addLoaded_wf hwa) _, ?_, ?_, fun k hk => ?_⟩
      · rw [← hin2, h3.2]; exact Dict.WF_pop (addLoaded_wf hwa) _
      · rw [Dict.get?_pop_ne _ (by decide), ge]
      · rw [← hin2, h3.2]
        exact get?_pop_congr (addLoaded_wf hwa) (addLoaded_wf hwa) _ (g0 k hk)
    · simp only [pure, Except.pure, Except.ok.injEq, Prod.mk.injEq] at hin
      refine ⟨_, by rw [← hin.1]; rfl, addLoaded_wf hwa, by rw [← hin.2]; exact addLoaded_wf hwa, ge, fun k hk => ?_⟩
      rw [← hin.2, g0 k hk]
  obtain ⟨b2, b3, v1, v2, b4, b5⟩ := g1
  have g2 : ∃ b3, inputSites env c.cmd s.rin0 b2 = .ok (s.rin, b3) ∧
      b3.get? "events" = some (.list flt) ∧ ∀ k, k ≠ "events" → b3.get? k = s.a3.get? k := by
    have hin := s.hsites
    unfold inputSites at hin ⊢
    rw [b5 _ (by decide)]
    cases hq : s.a2.get? "input_sites" with
    | none =>
      rw [hq] at hin
      simp only [pure, Except.pure, Except.ok.injEq, Prod.mk.injEq] at hin
      exact ⟨b2, by rw [← hin.1]; rfl, b4, fun k hk => by rw [← hin.2, b5 k hk]⟩
    | some v =>
      rw [hq] at hin
      cases hq2 : s.rin0 with
      | none =>
        rw [hq2] at hin
        simp only [pure, Except.pure, Except.ok.injEq, Prod.mk.injEq] at hin
        exact ⟨b2, by rw [← hin.1]; rfl, b4, fun k hk => by rw [← hin.2, b5 k hk]⟩
      | some r =>
        rw [hq2] at hin
        simp only at hin ⊢
        split_ifs at hin ⊢ with hcc
        · obtain ⟨⟨sr, a'⟩, h1, hin⟩ := bind_ok.1 hin
          obtain ⟨r', h2, hin⟩ := bind_ok.1 hin
          simp only [pure, Except.pure, Except.ok.injEq, Prod.mk.injEq] at hin
          have h3 := loadResults_congr h1 (b5 "input_sites" (by decide))
          have h4 := loadResults_congr h1 (rfl : s.a2.get? "input_sites" = _)
          rw [h1] at h4
          simp only [Except.ok.injEq, Prod.mk.injEq] at h4
          refine ⟨b2.pop "input_sites", ?_, ?_, fun k hk => ?_⟩
          · rw [h3]
            simp only [bind, Except.bind, h2, ← hin.1]
            rfl
          · rw [Dict.get?_pop_ne _ (by decide), b4]
          · rw [← hin.2, h4.2]
            exact get?_pop_congr v1 v2 _ (b5 k hk)
        · simp only [pure, Except.pure, Except.ok.injEq, Prod.mk.injEq] at hin
          exact ⟨b2, by rw [← hin.1]; rfl, b4, fun k hk => by rw [← hin.2, b5 k hk]⟩
  obtain ⟨b3', c1, c2, c3⟩ := g2
  have w1 : (withInput c.cmd s.rin b3').get? "events" = some (.list flt) := by
    rw [withInput_get? _ _ _ (by decide), c2]
  have w2 : ∀ k, k ≠ "events" → (withInput c.cmd s.rin b3').get? k = s.args.get? k := by
    intro k hk
    unfold Stages.args withInput
    cases s.rin with
    | none => exact c3 k hk
    | some r =>
      simp only
      split_ifs
      · rw [Dict.get?_set, Dict.get?_set, c3 k hk]
      · exact c3 k hk
  refine ⟨withInput c.cmd s.rin b3', ?_, w1, w2⟩
  rw [r2, m2]
  refine List.mem_append_right _ (List.mem_cons_of_mem _ ?_)
  simp only
  unfold process
  rw [Act.bind_lift_ok hsel, Act.bind_lift_ok (a := ()) (by unfold dumps; rw [if_pos s.hplain]),
    Act.bind_lift_ok s.halign]
  simp only
  rw [Act.bind_lift_ok b3]
  simp only
  rw [Act.bind_lift_ok c1]
  simp only
  refine Act.mem_bind.2 (Or.inl ?_)
  unfold resultOf
  rw [if_pos (by simpa using hc)]
  refine Act.mem_bind.2 (Or.inl ?_)
  unfold invertCmd
  rw [if_neg (by rw [w2 _ (by decide), hna]; simp)]
  refine Act.mem_bind.2 (Or.inl ?_)
  simp [Act.emit_effects]


example : ∃ np a, Effect.invert np a ∈ (run exEnv { exCall with eventid := none }).effects ∧
    a.get? "events" = some (.list [.obj 1, .obj 2]) ∧
    (∃ ev ∈ [J.obj 1, J.obj 2], exEnv.eventid ev = "ev2") ∧
    ∀ ev ∈ [J.obj 1, J.obj 2], exEnv.eventid ev ≠ "ev3" := by
  refine ⟨.bool false, [("njobs", .num 1), ("weight", .str "1/W"),
        ("plot_sds_options", .dict [("fname", .str "out/sds.pdf")]),
        ("plot_results_options", .dict [("fname", .str "out/r.pdf")]),
        ("cmd", .str "go"), ("inventory", .obj 0), ("get_waveforms", .obj 3),
        ("events", .list [.obj 1, .obj 2])], ?_, rfl, ⟨.obj 2, by simp, rfl⟩, ?_⟩
  · have : (run exEnv { exCall with eventid := none }).effects =
      [.mkdir "out", .logging (.given (.str "x")),
       .invert (.bool false)
       [("njobs", .num 1), ("weight", .str "1/W"),
        ("plot_sds_options", .dict [("fname", .str "out/sds.pdf")]),
        ("plot_results_options", .dict [("fname", .str "out/r.pdf")]),
        ("cmd", .str "go"), ("inventory", .obj 0), ("get_waveforms", .obj 3),
        ("events", .list [.obj 1, .obj 2])],
       .mkdir "out", .openW "out/results.json",
       .dump "out/results.json" (.dict [("events", .dict [])]) .null] := rfl
    rw [this]
    simp
  · simp [exEnv]

/-- **C85** (counterexample for `recalc_source`): the command never returns a result if an event is
selected, whatever the options and files are. -/
theorem C85_recalc_counterexample {env : Env} {c : Call} {id : String} (hc : c.cmd = "recalc_source")
    (he : c.eventid = some id) (hid : id ≠ "") {r : J} (h : (run env c).out = .ok r) : r = .null := by
  obtain ⟨-, ⟨-, h, -⟩ | ⟨-, -, h, -⟩ | ⟨-, merged, pp, hm, hpp, ⟨h, -⟩ | ⟨-, h3, -⟩⟩⟩ := run_out h
  · exact h
  · exact h
  · rw [hc] at h; simp at h
  · obtain ⟨l, hl, ⟨-, hr, -⟩ | ⟨s, -⟩⟩ := mainCmd_out h3
    · exact hr
    · exfalso
      have h1 := s.hload
      unfold load at h1
      rw [if_pos hc] at h1
      have h2 : s.ld.events = none := by
        split_ifs at h1
        · simp only [Option.bind_eq_bind, Option.bind_eq_some_iff, Option.pure_def,
            Option.some.injEq] at h1
          obtain ⟨_, -, h1⟩ := h1
          rw [← h1]
        · simp only [Option.some.injEq] at h1
          rw [← h1]
      have h4 := s.hsel
      unfold selectEvents at h4
      rw [he, h2] at h4
      simp [hid] at h4

/-- Call for new source parameters. -/
def exRecalc (eventid : Option String) : Call :=
  { cmd := "recalc_source", eventid := eventid
    args := [("input", .str "a.json"), ("events", .str "events.xml"), ("logging", .str "x")] }

/-- Without event id the same command returns a result, so that the hypotheses are not the reason. -/
example : (run exEnv (exRecalc none)).out = .ok (.dict [("config",
      .dict [("seismic_moment_method", .null), ("seismic_moment_options", .null)])]) ∧
    (run exEnv (exRecalc (some "ev1"))).out = .error .unboundLocal := ⟨rfl, rfl⟩

/-- **C85**: figures of command `plot` for a selected event show a result with this event only, which
is the one of the input. -/
theorem C85_plot {env : Env} {c : Call} {id : String} (hc : c.cmd = "plot") (he : c.eventid = some id)
    {fig : Fig} {x fname : J} {o : Args} (h : Effect.draw fig x fname o ∈ (run env c).effects) :
    ∃ v rin ev, Spec.Given env v rin ∧
      (Spec.entry rin "events").bind (fun evs => Spec.entry evs id) = some ev ∧
      Spec.entry x "events" = some (.dict [(id, ev)]) ∧
      (fig = .eventresult ∨ fig = .eventsites) := by
  rcases run_effects h with ⟨-, h⟩ | ⟨h, -⟩ | ⟨-, -, merged, hm, h⟩
  · simp at h
  · simp at h
  rcases runWith_effects h with ⟨p, h⟩ | ⟨pp, hpp, ⟨-, h⟩ | ⟨h, -⟩⟩
  · simp at h
  · obtain ⟨r0, a, r1, a1, r2, h1, h2, h3, h⟩ := plotCmd_effects h
    obtain ⟨v, -, hv⟩ := loadResults_given h1
    obtain ⟨r, hr, wok, -, h⟩ := plot_effects h
    simp only [J.dict.injEq] at hr
    subst hr
    have hev : r1.get? "events" = Dict.get? r0 "events" := by
      unfold plotConfig at h2
      split_ifs at h2
      · simp only [Except.ok.injEq, Prod.mk.injEq] at h2
        rw [← h2.1, Dict.get?_set_ne _ _ (by decide)]
      · split at h2
        · simp only [Except.ok.injEq, Prod.mk.injEq] at h2
          rw [← h2.1, Dict.get?_set_ne _ _ (by decide)]
        · simp at h2
        · simp at h2
    unfold plotEvent at h3
    rw [he] at h3
    simp only at h3
    split at h3
    · rename_i evs hevs
      split at h3
      · rename_i ev hgev
        simp only [Except.ok.injEq] at h3
        rw [he] at h
        unfold figures figuresEvent at h
        simp only at h
        have hx : x = .dict r2 ∧ (fig = .eventresult ∨ fig = .eventsites) := by
          rcases Act.mem_bind.1 h with h | ⟨_, -, h⟩
          · obtain ⟨-, _, _, _, -, -, -, h⟩ := eventFigure_effects h
            simp only [Effect.draw.injEq] at h
            exact ⟨h.2.1, Or.inl h.1⟩
          rcases Act.mem_bind.1 h with h | ⟨_, -, h⟩
          · obtain ⟨-, _, _, _, -, -, -, h⟩ := eventFigure_effects h
            simp only [Effect.draw.injEq] at h
            exact ⟨h.2.1, Or.inr h.1⟩
          · simp [Act.pure_effects] at h
        refine ⟨v, .dict r0, ev, hv, ?_, ?_, hx.2⟩
        · show (Dict.get? r0 "events").bind _ = _
          rw [← hev, hevs]
          exact hgev
        · rw [hx.1, ← h3]
          show Dict.get? (Dict.set r1 "events" _) "events" = _
          rw [Dict.get?_set_self]
      · simp at h3
    · simp at h3
    · simp at h3
  · exact absurd hc h

/-! ## C86: stations, events or data cannot be read -/

namespace Spec

/-- Stations, events and the data source which the options stand for can be read. -/
def Readable (env : Env) (c : Call) (conf : Args) : Prop :=
  ∃ i ev inv evs gw, option c conf "inventory" = some i ∧ option c conf "events" = some ev ∧
    env.inventory i ((option c conf "filter_inventory").getD .null) = some inv ∧
    env.events ev ((option c conf "filter_events").getD .null)
      ((option c conf "resolve_seedid").getD (.bool false))
      ((option c conf "read_events_kwargs").getD (.dict [])) inv = some evs ∧
    env.initData c.waveforms ((option c conf "data").getD .null)
      ((option c conf "client_options").getD .null) ((option c conf "plugin").getD .null)
      ((option c conf "cache_waveforms").getD .null) = some gw

end Spec

theorem load_readable {env : Env} {c : Call} {conf merged : Args} {pp : Prep} (m1 : merged.WF)
    (m2 : ∀ k, merged.get? k = Spec.option c conf k)
    (hpp : (prepare env c.cmd c.plots merged).out = .ok pp) (hc : c.cmd ≠ "recalc_source") {ld : Loaded}
    (h : load env c.cmd (alignValue pp).truthy c.waveforms (pp.args.pop "align_sites") = some ld) :
    Spec.Readable env c conf := by
  obtain ⟨p1, -, -, -, -, p2, -⟩ := prepare_ok m1 hpp
  have hg : ∀ k ∈ loadKeys, (pp.args.pop "align_sites").get? k = Spec.option c conf k := by
    intro k hk
    have d : ∀ k ∈ loadKeys, "align_sites" ≠ k ∧ k ∉ takenKeys ∧ k ≠ "cmd" ∧ k ∉ optionKeys ∧
      k ∉ plotFlags := by decide
    obtain ⟨d1, d2, d3, d4, d5⟩ := d k hk
    rw [Dict.get?_pop_ne _ d1, p2 k d2 d3 d4 d5, m2]
  obtain ⟨-, inv, evs, -, -, ⟨i, h1, h2⟩, ⟨ev, h3, h4⟩, h5⟩ := load_args hc h
  rw [hg _ (by decide)] at h1 h2 h3
  rw [hg _ (by decide), hg _ (by decide), hg _ (by decide)] at h4
  rw [hg _ (by decide), hg _ (by decide), hg _ (by decide), hg _ (by decide)] at h5
  exact ⟨i, ev, inv, evs, _, h1, h3, h2, h4, h5⟩

/-- **C86**: if stations, events or data source cannot be read, nothing is inverted, drawn or written
and no result is returned. -/
theorem C86_nothing {env : Env} {c : Call} {conf : Args} (hf : Spec.Conf env c conf)
    (hw : conf.WF) (hw' : c.args.WF) (hc : c.cmd ∈ ["go", "fixed", "source"])
    (hr : ¬ Spec.Readable env c conf) :
    (∀ r, (run env c).out = .ok r → r = .null) ∧
    ∀ e ∈ (run env c).effects, e = .message ∨ (∃ p, e = .mkdir p) ∨ ∃ l, e = .logging l := by
  have d : ∀ x ∈ ["go", "fixed", "source"],
    x ∈ commands ∧ x ≠ "create" ∧ x ≠ "plot" ∧ x ≠ "recalc_source" := by decide
  obtain ⟨d1, d2, d3, d4⟩ := d c.cmd hc
  constructor
  · intro r h
    obtain ⟨-, ⟨-, h, -⟩ | ⟨-, -, h, -⟩ | ⟨-, merged, pp, hm, hpp, ⟨h, -⟩ | ⟨-, h3, -⟩⟩⟩ := run_out h
    · exact h
    · exact h
    · exact absurd h d3
    · obtain ⟨m1, m2⟩ := merged_option hf hw hw' hm
      obtain ⟨l, hl, ⟨-, hr, -⟩ | ⟨s, -⟩⟩ := mainCmd_out h3
      · exact hr
      · exact absurd (load_readable m1 m2 hpp d4 s.hload) hr
  · intro e h
    rcases run_effects h with ⟨h, -⟩ | ⟨h, -⟩ | ⟨-, -, merged, hm, h⟩
    · exact absurd h d2
    · exact Or.inl h
    rcases runWith_effects h with h | ⟨pp, hpp, ⟨h, -⟩ | ⟨-, h⟩⟩
    · exact Or.inr (Or.inl h)
    · exact absurd h d3
    · obtain ⟨m1, m2⟩ := merged_option hf hw hw' hm
      rcases mainCmd_effects h with ⟨l, h, -⟩ | ⟨s, h⟩
      · exact Or.inr (Or.inr ⟨l, h⟩)
      · exact absurd (load_readable m1 m2 hpp d4 s.hload) hr

/-- **C86**: failures while stations, events and data source are read are never raised.  If the run
succeeds in a world which differs in the readable stations, events and data only, it ends without
exception (and, by `C86_nothing`, without result) in a world in which they cannot be read. -/
theorem C86_no_exception {env : Env} {c : Call} {conf : Args} (hf : Spec.Conf env c conf)
    (hw : conf.WF) (hw' : c.args.WF) (hc : c.cmd ∈ ["go", "fixed", "source"])
    (hr : ¬ Spec.Readable env c conf) {inventory events initData} {r0 : J}
    (h : (run { env with inventory := inventory, events := events, initData := initData } c).out
      = .ok r0) : (run env c).out = .ok .null := by
  have d : ∀ x ∈ ["go", "fixed", "source"],
    x ∈ commands ∧ x ≠ "create" ∧ x ≠ "plot" ∧ x ≠ "recalc_source" := by decide
  obtain ⟨d1, d2, d3, d4⟩ := d c.cmd hc
  obtain ⟨-, ⟨h, -⟩ | ⟨-, hm, -⟩ | ⟨-, merged, pp, hm, hpp, ⟨h, -⟩ | ⟨-, h3, -⟩⟩⟩ := run_out h
  · exact absurd h d2
  · have hm' : loadConf env (normConf c.conf) c.args = .ok none := hm
    unfold run
    rw [if_pos d1, if_neg d2, Act.bind_lift_ok hm']
    rfl
  · exact absurd h d3
  · have hm' : loadConf env (normConf c.conf) c.args = .ok (some merged) := hm
    have hpp' : (prepare env c.cmd c.plots merged).out = .ok pp := hpp
    obtain ⟨m1, m2⟩ := merged_option hf hw hw' hm'
    rw [(run_main d1 d2 d3 hm' hpp').1]
    have hl : (configureLogging env pp).out = .ok () := by
      unfold mainCmd at h3
      obtain ⟨_, h1, -⟩ := Act.bind_out.1 h3
      exact h1
    have hn : load env c.cmd (alignValue pp).truthy c.waveforms (pp.args.pop "align_sites") = none := by
      cases hq : load env c.cmd (alignValue pp).truthy c.waveforms (pp.args.pop "align_sites") with
      | none => rfl
      | some ld => exact absurd (load_readable m1 m2 hpp' d4 hq) hr
    unfold mainCmd
    refine Act.bind_out.2 ⟨(), hl, ?_⟩
    show (match load env c.cmd (alignValue pp).truthy c.waveforms (pp.args.pop "align_sites") with
        | none => (pure .null : Act J)
        | some ld => process env c.cmd (alignValue pp) c.eventid c.printMag pp ld).out = .ok .null
    rw [hn]
    rfl

/-- A catalogue which cannot be read. -/
example : ¬ Spec.Readable { exEnv with events := fun _ _ _ _ _ => none } exCall
      [("events", .str "events.xml"), ("inventory", .str "stations.xml")] ∧
    (run { exEnv with events := fun _ _ _ _ _ => none } exCall).out = .ok .null ∧
    (run exEnv exCall).out = .ok (.dict [("events", .dict [])]) := by
  refine ⟨?_, rfl, rfl⟩
  rintro ⟨i, ev, inv, evs, gw, -, -, -, h, -⟩
  simp at h

/-! ## C87: commands and configuration -/

/-- **C87**: unknown commands raise `ValueError`, before anything is read or written. -/
theorem C87_unknown (env : Env) (c : Call)
    (h : c.cmd ∉ ["create", "go", "fixed", "source", "recalc_source", "plot", "rt"]) :
    run env c = ⟨[], .error .valueError⟩ := by
  unfold run
  rw [if_neg (show c.cmd ∉ commands from h)]
  rfl

/-- **C87**: a configuration which cannot be read or parsed leads to a message, nothing else happens. -/
theorem C87_unreadable (env : Env) (c : Call) (f : String)
    (h : c.cmd ∈ ["go", "fixed", "source", "recalc_source", "plot", "rt"])
    (hf : c.conf = some f) (hn : f ∉ ["None", "none", "null", ""])
    (hr : env.text f = .ioError ∨ env.text f = .valueError ∨
      ∃ s, env.text f = .ok s ∧ env.parse (stripComments s) = none) :
    run env c = ⟨[.message], .ok .null⟩ := by
  have d : ∀ x ∈ ["go", "fixed", "source", "recalc_source", "plot", "rt"],
    x ∈ commands ∧ x ≠ "create" := by decide
  obtain ⟨d1, d2⟩ := d c.cmd h
  have hm : loadConf env (normConf c.conf) c.args = .ok none := by
    unfold normConf
    rw [hf]
    simp only
    rw [if_neg hn]
    unfold loadConf
    rcases hr with h | h | ⟨s, h, h'⟩
    · simp only [h]
    · simp only [h]
    · simp only [h, h']
  unfold run
  rw [if_pos d1, if_neg d2, Act.bind_lift_ok hm]
  rfl

/-- **C87**: `create` copies the example configuration and, if the tutorial is wanted, three example
files into the directory of the configuration; it does nothing else, reads no configuration and
ignores all options. -/
theorem C87_create (env : Env) (c : Call) (h : c.cmd = "create") :
    (run env c).out = .ok .null ∧
    ∃ dest, (normConf c.conf = some dest ∨ normConf c.conf = none ∧ dest = "conf.json") ∧
    (c.tutorial = false → (run env c).effects = [.copy "conf.json" dest]) ∧
    (c.tutorial = true → ∃ d1 d2 d3, (run env c).effects = [.copy "conf.json" dest,
      .copy "example_events.xml" d1, .copy "example_inventory.xml" d2, .copy "example_data.mseed" d3] ∧
      ∀ p ∈ [(d1, "example_events.xml"), (d2, "example_inventory.xml"), (d3, "example_data.mseed")],
        p.1 = p.2 ∧ dirname dest = "" ∨ p.1 = dirname dest ++ p.2 ∧ dirname dest ≠ "" ∧
          (dirname dest).toList.getLast? = some '/' ∨
        p.1 = dirname dest ++ "/" ++ p.2 ∧ dirname dest ≠ "") := by
  unfold run
  rw [if_pos (by rw [h]; decide), if_pos h]
  refine ⟨rfl, (normConf c.conf).getD "conf.json", ?_, fun ht => ?_, fun ht => ?_⟩
  · cases normConf c.conf with
    | none => exact Or.inr ⟨rfl, rfl⟩
    | some d => exact Or.inl rfl
  · simp [create, ht]
  · simp only [create, ht, if_true, List.map_cons, List.map_nil]
    refine ⟨_, _, _, rfl, fun p hp => ?_⟩
    generalize (normConf c.conf).getD "conf.json" = dest at hp ⊢
    simp only [List.mem_cons, List.not_mem_nil, or_false] at hp
    by_cases h0 : dirname dest = ""
    · simp only [h0, if_true] at hp
      left
      rcases hp with rfl | rfl | rfl <;> exact ⟨rfl, h0⟩
    · right
      simp only [h0, if_false] at hp
      by_cases h1 : (dirname dest).toList.getLast? = some '/'
      · simp only [h1, if_true] at hp
        left
        rcases hp with rfl | rfl | rfl <;> exact ⟨rfl, h0, h1⟩
      · simp only [h1, if_false] at hp
        right
        rcases hp with rfl | rfl | rfl <;> exact ⟨rfl, h0⟩

example : (run exEnv { cmd := "create", conf := some "tut/conf.json", tutorial := true }).effects =
    [.copy "conf.json" "tut/conf.json", .copy "example_events.xml" "tut/example_events.xml",
     .copy "example_inventory.xml" "tut/example_inventory.xml",
     .copy "example_data.mseed" "tut/example_data.mseed"] := rfl

end Qopen
