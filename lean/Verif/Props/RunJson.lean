import Verif.Props.RunAlign

/-!
# Input of the inversion (C72) and JSON values (C111)
-/

namespace Qopen

open Run Run.Act

/-- **C72** (run): the command `fixed` inverts with the results given by option `input`, whether or not
there is an option `input_sites`. -/
theorem C72_fixed {env : Env} {c : Call} {conf : Args} {np : J} {a : Args}
    (hf : Spec.Conf env c conf) (hw : conf.WF) (hw' : c.args.WF) (hc : c.cmd = "fixed")
    (h : Effect.invert np a ∈ (run env c).effects) :
    ∃ v rin, Spec.option c conf "input" = some v ∧ Spec.Given env v rin ∧
      a.get? "input" = some rin := by
  obtain ⟨-, merged, hm, pp, hpp, s, -, rfl⟩ := run_invert h
  obtain ⟨m1, m2⟩ := merged_option hf hw hw' hm
  obtain ⟨p1, -, -, -, -, p2, -⟩ := prepare_ok m1 hpp
  have hopt : (addLoaded s.ld s.events s.a1).get? "input" = Spec.option c conf "input" := by
    rw [s.before p1 (by decide) (by decide) (by decide) (by decide),
      p2 _ (by decide) (by decide) (by decide) (by decide), m2]
  have hin := s.hin
  unfold inputOf at hin
  rw [if_pos (Or.inl hc)] at hin
  obtain ⟨⟨rin, a2⟩, hin1, hin⟩ := bind_ok.1 hin
  simp only [pure, Except.pure, Except.ok.injEq, Prod.mk.injEq] at hin
  obtain ⟨hin2, hin3⟩ := hin
  obtain ⟨v, hv, hg⟩ := loadResults_given hin1
  rw [hopt] at hv
  have hs := s.hsites
  unfold inputSites at hs
  rw [← hin2] at hs
  have hrin : s.rin = some rin := by
    cases ho : s.a2.get? "input_sites" with
    | none =>
      rw [ho] at hs
      simp only [pure, Except.pure, Except.ok.injEq, Prod.mk.injEq] at hs
      exact hs.1.symm
    | some v' =>
      rw [ho] at hs
      simp only [hc] at hs
      rw [if_neg (by decide)] at hs
      simp only [pure, Except.pure, Except.ok.injEq, Prod.mk.injEq] at hs
      exact hs.1.symm
  refine ⟨v, rin, hv, hg, ?_⟩
  unfold Stages.args withInput
  rw [hrin]
  simp only [hc, true_or, if_true]
  exact Dict.get?_set_self _ _ _

namespace SitesExample

/-- Command `fixed` with the same options. -/
def fixedCall : Call := { call with cmd := "fixed" }

end SitesExample

open SitesExample in
/-- The hypotheses are met: the results of the first file are the input. -/
example : ∃ np a, Effect.invert np a ∈ (run env fixedCall).effects ∧
    a.get? "input" = some (.dict [("R", .dict [("A", .num 1)]),
      ("events", .dict [("ev1", .dict [("W", .num 5), ("R", .dict [("A", .num 1)])])])]) := by
  have : (run env fixedCall).effects = [.logging (.given (.str "x")), .invert (.bool false)
      [("input_sites", .str "b.json"), ("cmd", .str "fixed"), ("inventory", .obj 0),
       ("get_waveforms", .obj 3), ("events", .list [.obj 1, .obj 2]),
       ("input", .dict [("R", .dict [("A", .num 1)]),
        ("events", .dict [("ev1", .dict [("W", .num 5), ("R", .dict [("A", .num 1)])])])])]] := rfl
  rw [this]
  exact ⟨_, _, List.mem_cons_of_mem _ List.mem_cons_self, rfl⟩

/-! ## C111: JSON values -/

namespace Spec

/-- A JSON value: no Python objects, at any depth. -/
inductive Json : J → Prop
  | null : Json .null
  | bool (b : Bool) : Json (.bool b)
  | num (x : ℚ) : Json (.num x)
  | str (s : String) : Json (.str s)
  | list (l : List J) : (∀ v ∈ l, Json v) → Json (.list l)
  | dict (d : List (String × J)) : (∀ kv ∈ d, Json kv.2) → Json (.dict d)

end Spec

mutual
theorem plain_json : ∀ v : J, v.plain = true ↔ Spec.Json v
  | .null => by simp [J.plain, Spec.Json.null]
  | .bool b => by simp [J.plain, Spec.Json.bool]
  | .num x => by simp [J.plain, Spec.Json.num]
  | .str s => by simp [J.plain, Spec.Json.str]
  | .obj n => by
    simp only [J.plain, Bool.false_eq_true, false_iff]
    rintro ⟨⟩
  | .list l => by
    rw [J.plain, plainList_json l]
    exact ⟨Spec.Json.list l, fun h => by cases h with | list _ h => exact h⟩
  | .dict d => by
    rw [J.plain, plainDict_json d]
    exact ⟨Spec.Json.dict d, fun h => by cases h with | dict _ h => exact h⟩
theorem plainList_json : ∀ l : List J, plainList l = true ↔ ∀ v ∈ l, Spec.Json v
  | [] => by simp [plainList]
  | x :: l => by
    rw [plainList, Bool.and_eq_true, plain_json x, plainList_json l]
    simp
theorem plainDict_json : ∀ d : List (String × J), plainDict d = true ↔ ∀ kv ∈ d, Spec.Json kv.2
  | [] => by simp [plainDict]
  | (k, x) :: l => by
    rw [plainDict, Bool.and_eq_true, plain_json x, plainDict_json l]
    simp
end

/-- **C111** (options): an inversion is started only if its options are JSON values, except for stations,
events, data source and input, which may be objects. -/
theorem C111_options {env : Env} {c : Call} {np : J} {a : Args} {conf : Args}
    (hf : Spec.Conf env c conf) (hw : conf.WF) (hw' : c.args.WF)
    (h : Effect.invert np a ∈ (run env c).effects) {k : String} {v : J} (hv : a.get? k = some v)
    (hk : k ∉ ["inventory", "events", "get_waveforms", "input"]) : Spec.Json v := by
  obtain ⟨hc, merged, hm, pp, hpp, s, -, rfl⟩ := run_invert h
  obtain ⟨m1, -⟩ := merged_option hf hw hw' hm
  obtain ⟨p1, -⟩ := prepare_ok m1 hpp
  have hr : c.cmd ≠ "recalc_source" := by rintro e; rw [e] at hc; revert hc; decide
  simp only [List.mem_cons, List.not_mem_nil, or_false, not_or] at hk
  obtain ⟨k1, k2, k3, k4⟩ := hk
  obtain ⟨hl, -⟩ := load_args hr s.hload
  have hwl : s.ld.args.WF := by rw [hl]; exact WF_popAll (Dict.WF_pop p1 _) _
  have hwa : s.a1.WF := by
    rw [alignOptions_args s.halign]
    split_ifs
    · exact WF_popAll hwl _
    · exact hwl
  have hget : s.ld.args.get? k = some v := by
    have h1 : s.a2.get? k = some v → s.ld.args.get? k = some v := by
      intro hv
      rw [(inputOf_args s.hin).1 k k4, addLoaded_get?, if_neg (by simp [k2]), if_neg (by simp [k3]),
        if_neg (by simp [k1]), alignOptions_args s.halign] at hv
      split_ifs at hv
      · rw [get?_popAll hwl] at hv
        split_ifs at hv
        exact hv
      · exact hv
    unfold Stages.args at hv
    rw [withInput_get? _ _ _ k4] at hv
    by_cases k5 : k = "input_sites"
    · apply h1
      have hwa2 : s.a2.WF := (inputOf_args s.hin).2 (addLoaded_wf hwa)
      have hs := s.hsites
      unfold inputSites at hs
      split at hs
      · split_ifs at hs with hcc
        · obtain ⟨⟨sites, a'⟩, g1, hs⟩ := bind_ok.1 hs
          obtain ⟨_, -, hs⟩ := bind_ok.1 hs
          simp only [pure, Except.pure, Except.ok.injEq, Prod.mk.injEq] at hs
          rw [← hs.2, loadResults_args g1, k5, Dict.get?_pop_self hwa2] at hv
          simp at hv
        · simp only [pure, Except.pure, Except.ok.injEq, Prod.mk.injEq] at hs
          rw [hs.2]; exact hv
      · simp only [pure, Except.pure, Except.ok.injEq, Prod.mk.injEq] at hs
        rw [hs.2]; exact hv
    · rw [(inputSites_args s.hsites).1 k k5] at hv
      exact h1 hv
  have hp := (plain_json _).1 s.hplain
  cases hp with
  | dict _ hp => exact hp (k, v) (Dict.mem_of_get? hget)

/-- **C111** (results): a result which is returned by `go`, `fixed` or `source` without alignment of site
responses is a JSON value (with alignment it has been one before figures were drawn). -/
theorem C111_result {env : Env} {c : Call} {conf : Args} {r : J} (hf : Spec.Conf env c conf)
    (hw : conf.WF) (hw' : c.args.WF) (hc : c.cmd ∈ ["go", "fixed", "source"])
    (ha : ¬ Spec.On ((Spec.option c conf "align_sites").getD (.bool false)))
    (h : (run env c).out = .ok r) : Spec.Json r := by
  rw [off_iff] at ha
  have hc1 : c.cmd ≠ "create" := by rintro e; rw [e] at hc; revert hc; decide
  have hc2 : c.cmd ≠ "plot" := by rintro e; rw [e] at hc; revert hc; decide
  have hc3 : c.cmd ≠ "recalc_source" := by rintro e; rw [e] at hc; revert hc; decide
  obtain ⟨-, h | ⟨-, -, h1, h2⟩ | ⟨-, merged, pp, hm, hpp, h | ⟨-, h3, h4⟩⟩⟩ := run_out h
  · exact absurd h.1 hc1
  · rw [h1]; exact .null
  · exact absurd h.1 hc2
  · obtain ⟨m1, m2⟩ := merged_option hf hw hw' hm
    obtain ⟨p1, -, -, -, -, p2, -⟩ := prepare_ok m1 hpp
    have hav : (alignValue pp).truthy = false := by
      unfold alignValue
      rw [p2 _ (by decide) (by decide) (by decide) (by decide), m2]
      exact ha
    obtain ⟨l, hl, ⟨-, hr, hee⟩ | ⟨s, hs, hee⟩⟩ := mainCmd_out h3
    · rw [hr]; exact .null
    · obtain ⟨r0, g0, g1, g2, g3, g4⟩ := rest_out hs
      unfold postProcess at g1
      simp only [hav, Bool.false_eq_true, if_false, hc3] at g1
      rw [Act.pure_out] at g1
      simp only [Except.ok.injEq] at g1
      subst g1
      rcases resultOf_ok g0 with ⟨-, w1, r', w2, w3, w4⟩ | ⟨h, -⟩
      · simp only [Option.some.injEq] at w2
        subst w2
        exact (plain_json _).1 w4
      · exact absurd hc h

/-- Writing of a result succeeds only for JSON values. -/
theorem writeOutput_json {env : Env} {output indent r r' : J}
    (h : (writeOutput env output indent (some r)).out = .ok ())
    (he : Effect.stdout r' ∈ (writeOutput env output indent (some r)).effects ∨
      ∃ f i, Effect.dump f r' i ∈ (writeOutput env output indent (some r)).effects) :
    Spec.Json r' ∧ r' = r := by
  have key : ∀ {e : Effect} {u : Unit}, (Act.emit e (dumps r)).out = .ok u → r.plain = true := by
    intro e u h
    rw [emit_out] at h
    exact dumps_ok h
  unfold writeOutput at h he
  split at h
  · simp [pure_effects] at he
  · split_ifs at h with h1 h2
    · simp only [if_pos h1] at he
      obtain ⟨r1, g1, h⟩ := bind_out.1 h
      have e1 : r = r1 := by rw [lift_out] at g1; simpa [bound] using g1
      subst e1
      rw [bind_effects_of_ok g1, lift_effects, emit_effects] at he
      simp only [List.nil_append, List.mem_cons, List.not_mem_nil, or_false] at he
      rcases he with he | ⟨_, _, he⟩
      · simp only [Effect.stdout.injEq] at he
        subst he
        exact ⟨(plain_json _).1 (key h), rfl⟩
      · simp at he
    · simp only [if_neg h1, if_pos h2] at he
      simp [pure_effects] at he
    · simp only [if_neg h1, if_neg h2] at he
      unfold writeResult at h he
      obtain ⟨_, g1, h⟩ := bind_out.1 h
      obtain ⟨_, g2, h⟩ := bind_out.1 h
      obtain ⟨r1, g3, h⟩ := bind_out.1 h
      have e1 : r = r1 := by rw [lift_out] at g3; simpa [bound] using g3
      subst e1
      rw [bind_effects_of_ok g1, bind_effects_of_ok g2, bind_effects_of_ok g3, lift_effects,
        emit_effects, emit_effects] at he
      have hd : ∀ e ∈ (outputDir env ‹String›).effects, ∃ p, e = .mkdir p := by
        intro e he
        unfold outputDir at he
        split_ifs at he
        · simp [pure_effects] at he
        · rw [emit_effects] at he
          exact ⟨_, by simpa using he⟩
      rcases he with he | ⟨f, i, he⟩
      · rcases List.mem_append.1 he with he | he
        · obtain ⟨_, he⟩ := hd _ he; simp at he
        · simp at he
      · rcases List.mem_append.1 he with he | he
        · obtain ⟨_, he⟩ := hd _ he; simp at he
        · simp only [List.cons_append, List.nil_append, List.mem_cons, reduceCtorEq, Effect.dump.injEq,
            List.not_mem_nil, or_false, false_or] at he
          rw [he.2.1]
          exact ⟨(plain_json _).1 (key h), rfl⟩
  · simp [lift_out] at h

/-- **C111** (files): whatever is written to the output file or printed completely is a JSON value. -/
theorem C111_written {env : Env} {c : Call} {r r' : J} (h : (run env c).out = .ok r)
    (hc : c.cmd ∈ ["go", "fixed", "source", "recalc_source"])
    (he : Effect.stdout r' ∈ (run env c).effects ∨
      ∃ f i, Effect.dump f r' i ∈ (run env c).effects) : Spec.Json r' ∧ r' = r := by
  have hc1 : c.cmd ≠ "create" := by rintro e; rw [e] at hc; revert hc; decide
  have hc2 : c.cmd ≠ "plot" := by rintro e; rw [e] at hc; revert hc; decide
  obtain ⟨-, h | ⟨-, -, h1, h2⟩ | ⟨-, merged, pp, hm, hpp, h | ⟨-, h3, h4⟩⟩⟩ := run_out h
  · exact absurd h.1 hc1
  · rw [h2] at he; simp at he
  · exact absurd h.1 hc2
  · obtain ⟨l, hl, ⟨-, hr, hee⟩ | ⟨s, hs, hee⟩⟩ := mainCmd_out h3
    · rw [h4, hee] at he
      have : ∀ e ∈ (prepare env c.cmd c.plots merged).effects ++ [Effect.logging l],
          (∃ p, e = .mkdir p) ∨ ∃ l, e = .logging l := by
        intro e he
        rcases List.mem_append.1 he with h | h
        · exact Or.inl (prepare_effects h)
        · exact Or.inr ⟨l, by simpa using h⟩
      rcases he with he | ⟨_, _, he⟩ <;> rcases this _ he with ⟨_, h⟩ | ⟨_, h⟩ <;> simp at h
    · obtain ⟨r0, g0, g1, g2, g3, g4⟩ := rest_out hs
      rw [h4, hee, g4] at he
      refine writeOutput_json g2 ?_
      have hno : ∀ e, (e = Effect.stdout r' ∨ ∃ f i, e = Effect.dump f r' i) →
          e ∈ (prepare env c.cmd c.plots merged).effects ++ ([Effect.logging l] ++
            ((resultOf env c.cmd (alignValue pp) s.rin s.args).effects ++
            ((postProcess env c.cmd (alignValue pp).truthy c.eventid s.kw s.args r0).effects ++
            ((writeOutput env pp.output pp.indent (some r)).effects ++
            (printMags c.printMag (some r)).effects)))) →
          e ∈ (writeOutput env pp.output pp.indent (some r)).effects := by
        intro e hk he
        simp only [List.mem_append] at he
        rcases he with h | h | h | h | h | h
        · obtain ⟨_, h⟩ := prepare_effects h; subst h; simp at hk
        · simp only [List.mem_cons, List.not_mem_nil, or_false] at h; subst h; simp at hk
        · exfalso
          rcases resultOf_ok g0 with ⟨-, w1, -⟩ | ⟨-, w1, -⟩
          · rw [w1] at h
            simp only [List.mem_cons, List.not_mem_nil, or_false] at h; subst h; simp at hk
          · rw [w1] at h; simp at h
        · obtain ⟨_, _, _, _, h⟩ := postProcess_draw h; subst h; simp at hk
        · exact h
        · obtain ⟨-, _, evs, -, -, h⟩ := printMags_effects h
          obtain ⟨_, -, _, -, ⟨-, h⟩ | ⟨_, -, h⟩⟩ := printAll_effects h <;> subst h <;> simp at hk
      rcases he with he | ⟨f, i, he⟩
      · exact Or.inl (hno _ (Or.inl rfl) (by simpa only [List.append_assoc, List.cons_append, List.nil_append] using he))
      · exact Or.inr ⟨f, i, hno _ (Or.inr ⟨f, i, rfl⟩) (by simpa only [List.append_assoc, List.cons_append, List.nil_append] using he)⟩

/-- The hypotheses are met, and a call with a Python object as option is not. -/
example : (∃ r, (run exEnv exCall).out = .ok r ∧ Spec.Json r) ∧
    (run exEnv { exCall with args := exCall.args ++ [("weight", .obj 5)] }).out = .error .typeError := by
  refine ⟨⟨_, rfl, (plain_json _).1 ?_⟩, ?_⟩
  · decide
  · with_unfolding_all rfl

namespace JsonExample

/-- New source parameters for results in a file. -/
def call : Call :=
  { cmd := "recalc_source"
    args := [("input", .str "results.json"), ("logging", .str "x"), ("events", .obj 1)] }

end JsonExample

open JsonExample in
/-- **C111** (finding): events may be given as catalogue object, and `recalc_source` does not need them, but
with this option it ends with a `TypeError`, because the options are logged as JSON. -/
theorem C111_catalogue_counterexample : (run exEnv call).out = .error .typeError ∧
    (∃ r, (run exEnv { call with args := [("input", .str "results.json"), ("logging", .str "x")] }).out
      = .ok r) ∧
    ∃ r, (run exEnv { call with cmd := "go", args := call.args ++ [("inventory", .obj 0)] }).out = .ok r := by
  refine ⟨rfl, ⟨_, rfl⟩, ⟨_, rfl⟩⟩

end Qopen
