import Verif.Props.RunJson

/-!
# When a run returns (C143)

What can still stop a run, once its inversion has been started, and what happens if no event has a
result (core.py:1942-1978).
-/

namespace Qopen

open Run

namespace Spec

/-- The output option names no file, or a file which can be created. -/
def CanWrite (env : Env) (c : Call) (conf : Args) : Prop :=
  (option c conf "output").getD .null = .null ∨
  ∃ f, outputName c conf = some f ∧ (f = "stdout" ∨ NoFile f ∨
    ((dirname f ≠ "" → env.mkdir (dirname f) = .ok ()) ∧ env.openW f = .ok ()))

/-- The magnitudes of the result can be printed: it is a dictionary, its events, if there are some,
are dictionaries, and their magnitudes, if there are some, are numbers. -/
def CanPrint (r : J) : Prop :=
  ∃ d, r = .dict d ∧ ∀ evs, Dict.get? d "events" = some evs →
    ∃ l, evs = .dict l ∧ ∀ kv ∈ l, ∃ e, kv.2 = .dict e ∧
      ∀ m, Dict.get? e "Mw" = some m → ∃ x, m = .num x

end Spec

theorem printMag_returns (kv : String × J) : (printMag kv).out = .ok () ↔
    ∃ e, kv.2 = .dict e ∧ ∀ m, Dict.get? e "Mw" = some m → ∃ x, m = .num x := by
  unfold printMag
  cases hk : kv.2 with
  | dict e =>
    simp only [J.dict.injEq, exists_eq_left']
    cases hm : Dict.get? e "Mw" with
    | none => simp [Act.emit_out]
    | some m => cases m <;> simp [Act.emit_out, Act.lift_out]
  | _ => simp [Act.lift_out]

theorem printAll_returns (l : List (String × J)) : (printAll l).out = .ok () ↔
    ∀ kv ∈ l, ∃ e, kv.2 = .dict e ∧ ∀ m, Dict.get? e "Mw" = some m → ∃ x, m = .num x := by
  induction l with
  | nil => simp [printAll, Act.pure_out]
  | cons kv l ih =>
    rw [List.forall_mem_cons, ← printMag_returns, ← ih]
    constructor
    · intro h
      unfold printAll at h
      obtain ⟨u, h1, h⟩ := Act.bind_out.1 h
      exact ⟨h1, h⟩
    · rintro ⟨h1, h⟩
      exact Act.bind_out.2 ⟨(), h1, h⟩

theorem printMags_returns (want : Bool) (r : J) : (printMags want (some r)).out = .ok () ↔
    (want = true → Spec.CanPrint r) := by
  unfold printMags
  by_cases hw : want = true
  · rw [if_pos hw, Act.bind_lift_ok (a := r) (by rw [bound_ok])]
    simp only [hw, true_imp_iff]
    unfold Spec.CanPrint
    cases r with
    | dict d =>
      simp only [J.dict.injEq, exists_eq_left']
      cases he : Dict.get? d "events" with
      | none => simp [Act.pure_out]
      | some evs =>
        cases evs with
        | dict l => simp [printAll_returns]
        | _ => simp [Act.lift_out]
    | _ => simp [Act.lift_out]
  · rw [if_neg hw]
    simp [hw, Act.pure_out]

theorem writeOutput_returns {env : Env} {c : Call} {conf merged : Args} {pp : Prep} {r : J}
    (m1 : merged.WF) (m2 : ∀ k, merged.get? k = Spec.option c conf k)
    (hpp : (prepare env c.cmd c.plots merged).out = .ok pp) (hr : r.plain = true) :
    (writeOutput env pp.output pp.indent (some r)).out = .ok () ↔ Spec.CanWrite env c conf := by
  obtain ⟨-, ho⟩ := prepared_output m1 m2 hpp
  have hn : pp.output = .null ↔ (Spec.option c conf "output").getD .null = .null := by
    obtain ⟨-, -, -, -, -, -, -, -, -, -, p7⟩ := prepare_ok m1 hpp
    rw [m2, m2, m2] at p7
    cases hq : Spec.option c conf "prefix" with
    | none => rw [hq] at p7; rw [p7.2]
    | some q =>
      rw [hq] at p7
      cases q
      case str p =>
        simp only at p7
        split_ifs at p7 with h0
        · rw [p7.2]
        · have h := p7.2
          unfold prefixOutput at h
          cases hv : (Spec.option c conf "output").getD .null <;> rw [hv] at h <;>
            simp only [reduceCtorEq, Except.ok.injEq] at h <;> rw [← h]
          simp
      all_goals rw [p7.2]
  have hd : dumps r = .ok () := by unfold dumps; rw [if_pos hr]
  unfold Spec.CanWrite
  rw [← hn]
  simp only [← ho]
  cases hp : pp.output with
  | null => simp [writeOutput, Act.pure_out]
  | str f =>
    simp only [reduceCtorEq, false_or, J.str.injEq, exists_eq_left']
    unfold writeOutput
    simp only
    by_cases h1 : f = "stdout"
    · rw [if_pos h1, Act.bind_lift_ok (a := r) (by rw [bound_ok]), Act.emit_out]
      simp [h1, hd]
    rw [if_neg h1]
    by_cases h2 : noOutput f = true
    · rw [if_pos h2]
      simp [(noOutput_iff f).1 h2, Act.pure_out]
    rw [if_neg h2]
    rw [noOutput_iff] at h2
    simp only [h1, h2, false_or]
    unfold writeResult outputDir
    constructor
    · intro h
      obtain ⟨_, g1, h⟩ := Act.bind_out.1 h
      obtain ⟨_, g2, h⟩ := Act.bind_out.1 h
      refine ⟨fun h3 => ?_, g2⟩
      rw [if_neg h3] at g1
      exact g1
    · rintro ⟨g1, g2⟩
      refine Act.bind_out.2 ⟨(), ?_, Act.bind_out.2 ⟨(), g2, ?_⟩⟩
      · by_cases h3 : dirname f = ""
        · rw [if_pos h3]; rfl
        · rw [if_neg h3]; exact g1 h3
      · rw [Act.bind_lift_ok (a := r) (by rw [bound_ok]), Act.emit_out]
        exact hd
  | _ => simp [writeOutput, Act.lift_out]

/-- A run whose inversion is started does the rest of its stages. -/
theorem run_rest {env : Env} {c : Call} {np : J} {a : Args}
    (h : Effect.invert np a ∈ (run env c).effects) :
    c.cmd ∈ ["go", "fixed", "source"] ∧ ∃ merged,
      loadConf env (normConf c.conf) c.args = .ok (some merged) ∧
      ∃ pp, (prepare env c.cmd c.plots merged).out = .ok pp ∧
      ∃ l, ∃ s : Stages env c pp, np = alignValue pp ∧ a = s.args ∧ s.args.get? "noplots" = none ∧
        (run env c).out = s.rest.out ∧
        (run env c).effects = (prepare env c.cmd c.plots merged).effects ++ .logging l ::
          s.rest.effects := by
  obtain ⟨hc, merged, hm, pp, hpp, l, hl, hl2, s, h1, h2, h3⟩ := invert_logged h
  have d : ∀ x ∈ ["go", "fixed", "source"], x ∈ commands ∧ x ≠ "create" ∧ x ≠ "plot" := by decide
  obtain ⟨d1, d2, d3⟩ := d c.cmd hc
  refine ⟨hc, merged, hm, pp, hpp, l, s, h1, h2, h3, ?_⟩
  obtain ⟨r1, r2⟩ := run_main d1 d2 d3 hm hpp
  obtain ⟨m1, m2⟩ := mainCmd_logged hl hl2 s.hload
  have hp : process env c.cmd (alignValue pp) c.eventid c.printMag pp s.ld = s.rest := by
    unfold process
    rw [Act.bind_lift_ok s.hsel]
    rw [Act.bind_lift_ok (a := ()) (by unfold dumps; rw [if_pos s.hplain])]
    rw [Act.bind_lift_ok s.halign]
    simp only
    rw [Act.bind_lift_ok s.hin]
    simp only
    rw [Act.bind_lift_ok s.hsites]
    rfl
  rw [hp] at m1 m2
  rw [r1, r2, m1, m2]
  exact ⟨rfl, rfl⟩

theorem rest_go {env : Env} {c : Call} {pp : Prep} (s : Stages env c pp)
    (hc : c.cmd ∈ ["go", "fixed", "source"]) (hn : s.args.get? "noplots" = none)
    (ha : (alignValue pp).truthy = false) {r : J} (hr : env.invert (alignValue pp) s.args = .ok r)
    (hp : r.plain = true) : s.rest = (Act.emit (.invert (alignValue pp) s.args) (.ok r)).bind (fun _ =>
      (writeOutput env pp.output pp.indent (some r)).bind (fun _ =>
        (printMags c.printMag (some r)).bind (fun _ => pure r))) := by
  have hc' : c.cmd = "go" ∨ c.cmd = "fixed" ∨ c.cmd = "source" := by simpa using hc
  have d : ∀ x ∈ ["go", "fixed", "source"], x ≠ "recalc_source" := by decide
  have hx := d c.cmd hc
  unfold Stages.rest resultOf invertCmd postProcess
  simp only [hc', if_true, hn, Option.isSome_none, Bool.false_eq_true, if_false, ha, hx, hr]
  simp only [Act.bind_def, Act.bind, Act.emit, hp, if_true]
  rfl

/-- **C143**: what can stop a run once its inversion has been started.  Without alignment of site
responses the run returns exactly if the inversion returns JSON data, the output file can be created
(or there is none), and, if magnitudes shall be printed, the result is one of a dictionary of events.
Then it returns the result of the inversion; nothing else can fail. -/
theorem C143_returns {env : Env} {c : Call} {conf : Args} (hf : Spec.Conf env c conf) (hw : conf.WF)
    (hw' : c.args.WF) (ha : ¬ Spec.On ((Spec.option c conf "align_sites").getD (.bool false)))
    {np : J} {a : Args} (he : Effect.invert np a ∈ (run env c).effects) (r : J) :
    (run env c).out = .ok r ↔ env.invert np a = .ok r ∧ Spec.Json r ∧ Spec.CanWrite env c conf ∧
      (c.printMag = true → Spec.CanPrint r) := by
  have h1 : (run env c).out = .ok r → env.invert np a = .ok r := fun h =>
    C84_returned hf hw hw' (invert_logged he).1 ha h he
  obtain ⟨hc, merged, hm, pp, hpp, l, s, e1, e2, hn, e3, -⟩ := run_rest he
  obtain ⟨m1, m2⟩ := merged_option hf hw hw' hm
  have ha' : (alignValue pp).truthy = false := by
    rw [off_iff] at ha
    obtain ⟨-, -, -, -, -, p2, -⟩ := prepare_ok m1 hpp
    unfold alignValue
    rw [p2 "align_sites" (by decide) (by decide) (by decide) (by decide), m2]
    exact ha
  have key : env.invert np a = .ok r → r.plain = true → ((run env c).out = .ok r ↔
      Spec.CanWrite env c conf ∧ (c.printMag = true → Spec.CanPrint r)) := by
    intro hr hp
    rw [e1, e2] at hr
    rw [e3, rest_go s hc hn ha' hr hp, ← writeOutput_returns m1 m2 hpp hp, ← printMags_returns]
    constructor
    · intro h
      obtain ⟨_, -, h⟩ := Act.bind_out.1 h
      obtain ⟨_, g1, h⟩ := Act.bind_out.1 h
      obtain ⟨_, g2, h⟩ := Act.bind_out.1 h
      exact ⟨g1, g2⟩
    · rintro ⟨g1, g2⟩
      exact Act.bind_out.2 ⟨r, rfl, Act.bind_out.2 ⟨(), g1, Act.bind_out.2 ⟨(), g2, rfl⟩⟩⟩
  constructor
  · intro h
    have hp : r.plain = true := by
      rw [e3] at h
      obtain ⟨r0, q1, q2, -⟩ := rest_out h
      rcases resultOf_ok q1 with ⟨-, -, r', q3, -, q4⟩ | ⟨q, -⟩
      · unfold postProcess at q2
        have d : ∀ x ∈ ["go", "fixed", "source"], x ≠ "recalc_source" := by decide
        rw [if_neg (by simp [ha']), if_neg (d c.cmd hc), q3] at q2
        simp only [Act.pure_out, Except.ok.injEq, Option.some.injEq] at q2
        rw [← q2]; exact q4
      · exact absurd hc q
    exact ⟨h1 h, (plain_json r).1 hp, (key (h1 h) hp).1 h⟩
  · rintro ⟨g1, g2, g3⟩
    exact (key g1 ((plain_json r).2 g2)).2 g3

/-- **C143**: no event has a result.  Without alignment the output is written as usual, with the JSON
value `null`: the file of an earlier run is replaced.  If no magnitudes are requested, the run ends
without exception and returns `None`. -/
theorem C143_no_result {env : Env} {c : Call} {conf : Args} (hf : Spec.Conf env c conf) (hw : conf.WF)
    (hw' : c.args.WF) (ha : ¬ Spec.On ((Spec.option c conf "align_sites").getD (.bool false)))
    {np : J} {a : Args} (he : Effect.invert np a ∈ (run env c).effects)
    (hr : env.invert np a = .ok .null) (ho : Spec.CanWrite env c conf) :
    (∃ before, (run env c).effects = before ++ Spec.written c conf .null ∧
      ∀ e ∈ before, (∃ p, e = .mkdir p) ∨ (∃ l, e = .logging l) ∨ e = .invert np a) ∧
    (run env c).out = if c.printMag then .error .typeError else .ok .null := by
  obtain ⟨hc, merged, hm, pp, hpp, l, s, e1, e2, hn, e3, e4⟩ := run_rest he
  obtain ⟨m1, m2⟩ := merged_option hf hw hw' hm
  have ha' : (alignValue pp).truthy = false := by
    rw [off_iff] at ha
    obtain ⟨-, -, -, -, -, p2, -⟩ := prepare_ok m1 hpp
    unfold alignValue
    rw [p2 "align_sites" (by decide) (by decide) (by decide) (by decide), m2]
    exact ha
  rw [e1, e2] at hr
  have hwr := (writeOutput_returns (r := .null) m1 m2 hpp rfl).2 ho
  obtain ⟨p5, p6⟩ := prepared_output m1 m2 hpp
  have hwe := writeOutput_written p5 p6 hwr
  have hm1 : printMags c.printMag (some .null) =
      ⟨[], if c.printMag then .error .typeError else .ok ()⟩ := by
    unfold printMags
    by_cases hp : c.printMag = true
    · rw [if_pos hp, if_pos hp]; rfl
    · rw [if_neg hp, if_neg hp]; rfl
  have hrest := rest_go s hc hn ha' hr rfl
  rw [hm1] at hrest
  have hb : (writeOutput env pp.output pp.indent (some .null)) = ⟨Spec.written c conf .null, .ok ()⟩ := by
    cases hx : writeOutput env pp.output pp.indent (some .null) with
    | mk ef o => rw [hx] at hwr hwe; simp only at hwr hwe; rw [hwr, hwe]
  rw [hb] at hrest
  constructor
  · refine ⟨(prepare env c.cmd c.plots merged).effects ++ [.logging l, .invert np a], ?_, ?_⟩
    · rw [e4, hrest, e1, e2]
      by_cases hp : c.printMag = true <;> simp [Act.bind, Act.emit, hp, Act.pure_effects, Act.pure_out]
    · intro e h
      rcases List.mem_append.1 h with h | h
      · exact Or.inl (prepare_mkdirs e h)
      · simp only [List.mem_cons, List.not_mem_nil, or_false] at h
        rcases h with h | h
        · exact Or.inr (Or.inl ⟨l, h⟩)
        · exact Or.inr (Or.inr h)
  · rw [e3, hrest]
    by_cases hp : c.printMag = true <;> simp [Act.bind, Act.emit, hp, Act.pure_out]

namespace ReturnsExample

/-- A world in which no event has a result; like `align_site_responses` (site.py:210-211,
`results["events"]`) the alignment fails without result. -/
def env : Env := { exEnv with
  invert := fun _ _ => .ok .null
  align := fun r _ => match r with | .dict d => .ok (.dict d) | _ => .error .typeError }

/-- A run with or without magnitudes. -/
def call (mag : Bool) : Call := { exCall with printMag := mag }

/-- A run with alignment of the site responses. -/
def alignCall : Call := { exCall with args := ("align_sites", .bool true) :: exCall.args }

/-- The configuration of the file. -/
def conf : Args := [("events", .str "events.xml"), ("inventory", .str "stations.xml"),
    ("njobs", .num 2), ("weight", .str "1/W"), ("prefix", .str "out/"),
    ("plot_sds_options", .dict [("fname", .str "sds.pdf")])]

theorem conf_read : Spec.Conf env (call mag) conf := Or.inr ⟨"conf.json", _, rfl, rfl, rfl⟩

theorem not_aligned : ¬ Spec.On ((Spec.option (call mag) conf "align_sites").getD (.bool false)) := by
  rw [off_iff]; rfl

theorem inverted : ∃ np a, Effect.invert np a ∈ (run env (call mag)).effects := by
  refine ⟨.bool false, [("njobs", .num 1), ("weight", .str "1/W"),
        ("plot_sds_options", .dict [("fname", .str "out/sds.pdf")]),
        ("plot_results_options", .dict [("fname", .str "out/r.pdf")]),
        ("cmd", .str "go"), ("inventory", .obj 0), ("get_waveforms", .obj 3),
        ("events", .list [.obj 2])], ?_⟩
  have : ∀ b, ∃ l l', (run env (call b)).effects = l ++ .invert (.bool false)
      [("njobs", .num 1), ("weight", .str "1/W"),
        ("plot_sds_options", .dict [("fname", .str "out/sds.pdf")]),
        ("plot_results_options", .dict [("fname", .str "out/r.pdf")]),
        ("cmd", .str "go"), ("inventory", .obj 0), ("get_waveforms", .obj 3),
        ("events", .list [.obj 2])] :: l' := by
    intro b
    cases b
    · exact ⟨[.mkdir "out", .logging (.given (.str "x"))], [.mkdir "out", .openW "out/results.json",
        .dump "out/results.json" .null .null], rfl⟩
    · exact ⟨[.mkdir "out", .logging (.given (.str "x"))], [.mkdir "out", .openW "out/results.json",
        .dump "out/results.json" .null .null], rfl⟩
  obtain ⟨l, l', h⟩ := this mag
  rw [h]
  simp

theorem can_write : Spec.CanWrite env (call mag) conf :=
  Or.inr ⟨"out/results.json", rfl, Or.inr (Or.inr ⟨fun _ => rfl, rfl⟩)⟩

/-- **C143** fails if no event has a result: with magnitudes the run ends with `TypeError` after `null`
has been written, with alignment it ends with `TypeError` and nothing is written. -/
theorem C143_no_result_counterexample :
    (run env (call true)).out = .error .typeError ∧
    Effect.dump "out/results.json" .null .null ∈ (run env (call true)).effects ∧
    (run env alignCall).out = .error .typeError ∧
    (∀ f, Effect.openW f ∉ (run env alignCall).effects) ∧
    (run env (call false)).out = .ok .null := by
  have h : (run env (call true)).effects = [.mkdir "out", .logging (.given (.str "x")),
      .invert (.bool false) [("njobs", .num 1), ("weight", .str "1/W"),
        ("plot_sds_options", .dict [("fname", .str "out/sds.pdf")]),
        ("plot_results_options", .dict [("fname", .str "out/r.pdf")]),
        ("cmd", .str "go"), ("inventory", .obj 0), ("get_waveforms", .obj 3),
        ("events", .list [.obj 2])], .mkdir "out", .openW "out/results.json",
        .dump "out/results.json" .null .null] := rfl
  have h' : (run env alignCall).effects = [.mkdir "out", .logging (.given (.str "x")),
      .invert (.bool true) [("njobs", .num 1), ("weight", .str "1/W"),
        ("plot_sds_options", .dict [("fname", .str "out/sds.pdf")]),
        ("plot_results_options", .dict [("fname", .str "out/r.pdf")]),
        ("cmd", .str "go"), ("inventory", .obj 0), ("get_waveforms", .obj 3),
        ("events", .list [.obj 2])]] := rfl
  refine ⟨rfl, by rw [h]; simp, rfl, fun f => by rw [h']; simp, rfl⟩

/-- The hypotheses are met: a run which returns, and one without result. -/
example : ∃ np a, Effect.invert np a ∈ (run env (call false)).effects ∧
    (run env (call false)).out = .ok .null ∧
    (run exEnv (call true)).out = .ok (.dict [("events", .dict [])]) := by
  obtain ⟨np, a, h⟩ := inverted (mag := false)
  refine ⟨np, a, h, ?_, rfl⟩
  exact (C143_returns conf_read (by unfold Dict.WF; decide) (by unfold Dict.WF; decide) not_aligned h
    .null).2 ⟨rfl, .null, can_write, by simp [call, exCall]⟩

end ReturnsExample

end Qopen
