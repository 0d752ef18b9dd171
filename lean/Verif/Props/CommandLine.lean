import Verif.Props.RunFlow

/-!
# The command line: C110
-/

namespace Qopen

open Run Run.Act

namespace Spec

/-- The JSON object given with `--overwrite-conf`, empty if there is none. -/
def Overwrite (parsed over : Args) : Prop :=
  parsed.get? "overwrite_conf" = some (.dict over) ∨ (parsed.get? "overwrite_conf" = none ∧ over = [])

/-- Value on the command line: from `--overwrite-conf`, otherwise from the flag. -/
def lineValue (parsed over : Args) (k : String) : Option J :=
  match over.get? k with
  | some v => some v
  | none => if k = "overwrite_conf" then none else parsed.get? k

/-- Values which are not looked up in the configuration file. -/
def lineOnly : List String :=
  ["cmd", "conf", "pdb", "tutorial", "eventid", "get_waveforms", "print_mag", "plots"]

/-- A text. -/
def IsText (v : Option J) (s : Option String) : Prop :=
  (∃ t, v = some (.str t) ∧ s = some t) ∨ ((∀ t, v ≠ some (.str t)) ∧ s = none)

/-- The value counts as true: `True`, a number other than 0, a text, list or dictionary which is not
empty, an object. -/
def IsTrue : Option J → Prop
  | some (.bool b) => b = true
  | some (.num x) => x ≠ 0
  | some (.str s) => s ≠ ""
  | some (.list l) => l ≠ []
  | some (.dict d) => d ≠ []
  | some (.obj _) => True
  | _ => False

end Spec

namespace CommandLine

theorem lift_bind {α β : Type} (x : α) (f : α → Act β) : (Act.lift (.ok x) >>= f) = f x := by
  change Act.bind _ _ = _
  simp [Act.bind, Act.lift]

theorem get?_filter {d : Args} {p : String → Bool} (k : String) :
    Dict.get? (d.filter (fun kv => p kv.1)) k = if p k then d.get? k else none := by
  induction d with
  | nil => simp [Dict.get?]
  | cons kv d ih =>
    obtain ⟨a, v⟩ := kv
    rw [List.filter_cons]
    by_cases hp : p a = true
    · simp only [hp, if_true]
      rw [Dict.get?_cons, Dict.get?_cons, ih]
      by_cases e : a = k
      · subst e; simp [hp]
      · simp [e]
    · simp only [hp]
      rw [Dict.get?_cons]
      by_cases e : a = k
      · subst e
        simp only [hp] at ih ⊢
        simpa using ih
      · simp only [e, if_false]
        simpa using ih

theorem text_spec (v : Option J) : Spec.IsText v ((v.getD .null).text?) := by
  cases v with
  | none => exact Or.inr ⟨by simp, rfl⟩
  | some v =>
    cases v
    case str t => exact Or.inl ⟨t, rfl, rfl⟩
    all_goals exact Or.inr ⟨by simp, rfl⟩

theorem true_spec (v : Option J) : (v.getD (.bool false)).truthy = true ↔ Spec.IsTrue v := by
  cases v with
  | none => simp [J.truthy, Spec.IsTrue]
  | some v => cases v <;> simp [J.truthy, Spec.IsTrue]

end CommandLine

open CommandLine

/-- **C110**: the command line is a call of `run`: each value is the one of `--overwrite-conf`, otherwise
the one of the flag.  Command, configuration file, event, figures and the flag for magnitudes are
parameters of the call, all others are options. -/
theorem C110_call {env : Env} {parsed over : Args} (hw : parsed.WF) (ho : Spec.Overwrite parsed over)
    (how : over.WF) (hrt : parsed.get? "cmd" ≠ some (.str "rt")) :
    ∃ c, runCmdline env parsed = some (run env c) ∧
      (∀ s, Spec.lineValue parsed over "cmd" = some (.str s) → c.cmd = s) ∧
      Spec.IsText (Spec.lineValue parsed over "conf") c.conf ∧
      Spec.IsText (Spec.lineValue parsed over "eventid") c.eventid ∧
      (c.tutorial = true ↔ Spec.IsTrue (Spec.lineValue parsed over "tutorial")) ∧
      (c.printMag = true ↔ Spec.IsTrue (Spec.lineValue parsed over "print_mag")) ∧
      (∀ v, Spec.lineValue parsed over "plots" = some v → c.plots = v) ∧
      (Spec.lineValue parsed over "plots" = none → c.plots = .null) ∧
      c.args.WF ∧
      (∀ k ∈ Spec.lineOnly, c.args.get? k = none) ∧
      ∀ k ∉ Spec.lineOnly, c.args.get? k = Spec.lineValue parsed over k := by
  obtain ⟨args, ha, hwa⟩ : ∃ args, cmdlineArgs parsed = .ok args ∧ args.WF := by
    unfold cmdlineArgs popD
    rcases ho with h | ⟨h, -⟩
    · rw [h]
      exact ⟨_, rfl, Dict.WF_update (Dict.WF_pop hw _) _⟩
    · rw [h]
      exact ⟨_, rfl, Dict.WF_update (Dict.WF_pop hw _) _⟩
  have hval : ∀ k, args.get? k = Spec.lineValue parsed over k := by
    obtain ⟨over', h1, h2⟩ := C68_command_line hw (by
      intro d hd
      rcases ho with h | ⟨h, -⟩
      · rw [h] at hd; simp only [Option.some.injEq, J.dict.injEq] at hd; rw [← hd]; exact how
      · rw [h] at hd; simp at hd) ha
    have : over' = over := by
      rcases ho with h | ⟨h, e⟩ <;> rcases h1 with g | ⟨g, e'⟩ | ⟨g, e'⟩ <;> rw [h] at g
      · simp only [Option.some.injEq, J.dict.injEq] at g; exact g.symm
      · simp at g
      · simp at g
      · simp at g
      · simp at g
      · rw [e, e']
    rw [this] at h2
    exact h2
  have hrun : runCmdline env parsed = some (run env (callOf args)) := by
    unfold runCmdline
    split
    · next h => exact absurd h hrt
    · rw [ha, lift_bind]
  refine ⟨callOf args, hrun, ?_, ?_, ?_, ?_, ?_, ?_, ?_, ?_, ?_, ?_⟩
  · intro s hs
    rw [← hval] at hs
    simp only [callOf, hs]
    rfl
  · rw [← hval]; exact text_spec _
  · rw [← hval]; exact text_spec _
  · rw [← hval]; exact true_spec _
  · rw [← hval]; exact true_spec _
  · intro v hv
    rw [← hval] at hv
    simp only [callOf, hv]
    rfl
  · intro hv
    rw [← hval] at hv
    simp only [callOf, hv]
    rfl
  · unfold callOf Dict.WF Dict.keys
    exact (List.filter_sublist.map _).nodup hwa
  · intro k hk
    refine (get?_filter (d := args) (p := fun k => decide (k ∉ ownParams)) k).trans ?_
    have : ¬ (decide (k ∉ ownParams) = true) := by
      have : ∀ k ∈ Spec.lineOnly, k ∈ ownParams := by decide
      simp [this k hk]
    simp only [this]
    simp
  · intro k hk
    refine (get?_filter (d := args) (p := fun k => decide (k ∉ ownParams)) k).trans ?_
    have : decide (k ∉ ownParams) = true := by
      have : ∀ k ∈ ownParams, k ∈ Spec.lineOnly := by decide
      have h : k ∉ ownParams := fun h => hk (this k h)
      simp [h]
    simp only [this, if_true]
    exact hval k

/-- **C110**: an option reaches the inversion with the value of `--overwrite-conf`, otherwise with the one
of its flag, otherwise with the one of the configuration file given on the command line. -/
theorem C110_inversion {env : Env} {parsed over conf : Args} (hw : parsed.WF)
    (ho : Spec.Overwrite parsed over) (how : over.WF) (hrt : parsed.get? "cmd" ≠ some (.str "rt"))
    {fname : Option String} (hfn : Spec.IsText (Spec.lineValue parsed over "conf") fname)
    (hf : Spec.Conf env { conf := fname } conf) (hwc : conf.WF) {m : Act J}
    (hm : runCmdline env parsed = some m) {np : J} {a : Args} (h : Effect.invert np a ∈ m.effects)
    {k : String} (hk : k ∉ Spec.runOptions) (hk' : k ∉ Spec.lineOnly) :
    a.get? k = match Spec.lineValue parsed over k with
      | some v => some v
      | none => Dict.get? conf k := by
  obtain ⟨c, h1, -, h2, -, -, -, -, -, hwf, -, h3⟩ := C110_call (env := env) hw ho how hrt
  rw [h1, Option.some.injEq] at hm
  subst hm
  have hfc : fname = c.conf := by
    rcases hfn with ⟨t, e1, e2⟩ | ⟨e1, e2⟩ <;> rcases h2 with ⟨t', g1, g2⟩ | ⟨g1, g2⟩
    · rw [e1] at g1; simp only [Option.some.injEq, J.str.injEq] at g1; rw [e2, g2, g1]
    · exact absurd e1 (g1 t)
    · exact absurd g1 (e1 t')
    · rw [e2, g2]
  have hf' : Spec.Conf env c conf := by
    unfold Spec.Conf at hf ⊢
    simp only [hfc] at hf
    exact hf
  rw [C68_options hf' hwc hwf h hk]
  unfold Spec.option
  rw [h3 k hk']
  cases Spec.lineValue parsed over k <;> rfl

/-- **C110**: with `-e` only the event with this id is inverted, with `--overwrite-conf` as well. -/
theorem C110_event {env : Env} {parsed over conf : Args} (hw : parsed.WF)
    (ho : Spec.Overwrite parsed over) (how : over.WF) (hrt : parsed.get? "cmd" ≠ some (.str "rt"))
    {fname : Option String} (hfn : Spec.IsText (Spec.lineValue parsed over "conf") fname)
    (hf : Spec.Conf env { conf := fname } conf) (hwc : conf.WF) {m : Act J}
    (hm : runCmdline env parsed = some m) {np : J} {a : Args} (h : Effect.invert np a ∈ m.effects)
    {id : String} (hid : Spec.lineValue parsed over "eventid" = some (.str id)) (hne : id ≠ "") :
    ∃ sel, a.get? "events" = some (.list sel) ∧ sel ≠ [] ∧ ∀ ev ∈ sel, env.eventid ev = id := by
  obtain ⟨c, h1, -, h2, h4, -, -, -, -, hwf, -, h3⟩ := C110_call (env := env) hw ho how hrt
  rw [h1, Option.some.injEq] at hm
  subst hm
  have hfc : fname = c.conf := by
    rcases hfn with ⟨t, e1, e2⟩ | ⟨e1, e2⟩ <;> rcases h2 with ⟨t', g1, g2⟩ | ⟨g1, g2⟩
    · rw [e1] at g1; simp only [Option.some.injEq, J.str.injEq] at g1; rw [e2, g2, g1]
    · exact absurd e1 (g1 t)
    · exact absurd g1 (e1 t')
    · rw [e2, g2]
  have hf' : Spec.Conf env c conf := by
    unfold Spec.Conf at hf ⊢
    simp only [hfc] at hf
    exact hf
  have hce : c.eventid = some id := by
    rcases h4 with ⟨t, g1, g2⟩ | ⟨g1, -⟩
    · rw [hid] at g1; simp only [Option.some.injEq, J.str.injEq] at g1; rw [g2, g1]
    · exact absurd hid (g1 id)
  obtain ⟨-, inv, i, evs, ev, sel, gw, -, -, -, -, -, -, -, hev, -, hsel⟩ := C68_inputs hf' hwc hwf h
  obtain ⟨e1, e2⟩ := hsel id hce hne
  refine ⟨sel, hev, e2, fun ev' h' => ?_⟩
  rw [e1] at h'
  simpa using (List.mem_filter.1 h').2

namespace CommandLineExample

/-- `qopen go -e ev2 --njobs 3 --overwrite-conf '{"weight": "1"}'`. -/
def parsed : Args := [("cmd", .str "go"), ("conf", .str "conf.json"), ("pdb", .bool false),
  ("eventid", .str "ev2"), ("njobs", .num 3), ("output", .str "stdout"),
  ("overwrite_conf", .dict [("weight", .str "1"), ("logging", .str "x")])]

/-- The object of `--overwrite-conf`. -/
def over : Args := [("weight", .str "1"), ("logging", .str "x")]

/-- The configuration file. -/
def conf : Args := [("events", .str "events.xml"), ("inventory", .str "stations.xml"),
    ("njobs", .num 2), ("weight", .str "1/W"), ("prefix", .str "out/"),
    ("plot_sds_options", .dict [("fname", .str "sds.pdf")])]

/-- The hypotheses of `C110_inversion` and `C110_event` are met. -/
example : parsed.WF ∧ Spec.Overwrite parsed over ∧ over.WF ∧ parsed.get? "cmd" ≠ some (.str "rt") ∧
    Spec.IsText (Spec.lineValue parsed over "conf") (some "conf.json") ∧
    Spec.Conf exEnv { conf := some "conf.json" } conf ∧ conf.WF ∧
    (∃ m np a, runCmdline exEnv parsed = some m ∧ Effect.invert np a ∈ m.effects ∧
      a.get? "njobs" = some (.num 3) ∧ a.get? "weight" = some (.str "1") ∧
      a.get? "events" = some (.list [.obj 2])) ∧
    Spec.lineValue parsed over "eventid" = some (.str "ev2") := by
  refine ⟨by unfold Dict.WF; decide, Or.inl rfl, by unfold Dict.WF; decide, ?_, Or.inl ⟨_, rfl, rfl⟩,
    Or.inr ⟨"conf.json", _, rfl, rfl, rfl⟩, by unfold Dict.WF; decide, ?_, rfl⟩
  · have : Dict.get? parsed "cmd" = some (.str "go") := rfl
    rw [this]; simp
  · refine ⟨_, _, _, rfl, List.mem_cons_of_mem _ (List.mem_cons_of_mem _ List.mem_cons_self), rfl, rfl, rfl⟩

/-- A configuration file with an event id. -/
def env : Env := { exEnv with
  parse := fun _ => some (.dict [("events", .str "events.xml"), ("inventory", .str "stations.xml"),
    ("eventid", .str "ev2"), ("print_mag", .bool true), ("logging", .str "x")]) }

/-- `qopen go`. -/
def plain : Args := [("cmd", .str "go"), ("conf", .str "conf.json"), ("pdb", .bool false)]

end CommandLineExample

open CommandLineExample in
/-- **C110** (finding): not every option can be set in the configuration file.  The options of the command
line are said to overwrite values of the file, but an event id (or the flag for magnitudes) in the file
is passed on to the inversion as an unknown option: all events are inverted. -/
theorem C110_file_counterexample : ∃ m np a, runCmdline env plain = some m ∧
    Effect.invert np a ∈ m.effects ∧ a.get? "eventid" = some (.str "ev2") ∧
    a.get? "print_mag" = some (.bool true) ∧ a.get? "events" = some (.list [.obj 1, .obj 2]) ∧
    env.eventid (.obj 1) ≠ "ev2" ∧ ∀ e mw, Effect.mag e mw ∉ m.effects := by
  refine ⟨⟨[.logging (.given (.str "x")),
      .invert (.bool false) [("eventid", .str "ev2"), ("print_mag", .bool true), ("cmd", .str "go"),
        ("inventory", .obj 0), ("get_waveforms", .obj 3), ("events", .list [.obj 1, .obj 2])]],
      .ok (.dict [("events", .dict [])])⟩, _, _, rfl, List.mem_cons_of_mem _ List.mem_cons_self, rfl, rfl,
    rfl, by decide, ?_⟩
  intro e mw h
  simp at h

end Qopen
