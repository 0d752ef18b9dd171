import Verif.Model.Run

/-!
# Lemmas on the model of `run`
-/

namespace Qopen.Run

namespace Act

theorem bind_def {α β : Type} (m : Act α) (f : α → Act β) : (m >>= f) = m.bind f := rfl

theorem pure_out {α : Type} (a : α) : (pure a : Act α).out = .ok a := rfl
theorem pure_effects {α : Type} (a : α) : (pure a : Act α).effects = [] := rfl
theorem lift_out {α : Type} (x : Py α) : (lift x).out = x := rfl
theorem lift_effects {α : Type} (x : Py α) : (lift x).effects = [] := rfl
theorem emit_out {α : Type} (e : Effect) (x : Py α) : (emit e x).out = x := rfl
theorem emit_effects {α : Type} (e : Effect) (x : Py α) : (emit e x).effects = [e] := rfl

theorem bind_out {α β : Type} {m : Act α} {f : α → Act β} {b : β} :
    (m >>= f).out = .ok b ↔ ∃ a, m.out = .ok a ∧ (f a).out = .ok b := by
  rw [bind_def]
  unfold Act.bind
  cases h : m.out <;> simp

theorem bind_error {α β : Type} {m : Act α} {f : α → Act β} {e : PyErr} :
    (m >>= f).out = .error e ↔
      m.out = .error e ∨ ∃ a, m.out = .ok a ∧ (f a).out = .error e := by
  rw [bind_def]
  unfold Act.bind
  cases h : m.out <;> simp

theorem bind_effects_of_ok {α β : Type} {m : Act α} {f : α → Act β} {a : α} (h : m.out = .ok a) :
    (m >>= f).effects = m.effects ++ (f a).effects := by
  rw [bind_def]
  unfold Act.bind
  rw [h]

theorem bind_effects_of_error {α β : Type} {m : Act α} {f : α → Act β} {e : PyErr}
    (h : m.out = .error e) : (m >>= f).effects = m.effects := by
  rw [bind_def]
  unfold Act.bind
  rw [h]

theorem bind_lift_ok {α β : Type} {x : Py α} {f : α → Act β} {a : α} (h : x = .ok a) :
    (lift x >>= f) = f a := by
  subst h
  rw [bind_def]
  unfold Act.bind lift
  simp

theorem bind_pure {α β : Type} {f : α → Act β} {a : α} : ((pure a : Act α) >>= f) = f a :=
  bind_lift_ok (x := .ok a) rfl

theorem mem_bind {α β : Type} {m : Act α} {f : α → Act β} {e : Effect} :
    e ∈ (m >>= f).effects ↔ e ∈ m.effects ∨ ∃ a, m.out = .ok a ∧ e ∈ (f a).effects := by
  cases h : m.out with
  | ok a => rw [bind_effects_of_ok h]; simp
  | error x => rw [bind_effects_of_error h]; simp

theorem mem_bind_lift {α β : Type} {x : Py α} {f : α → Act β} {e : Effect} :
    e ∈ (lift x >>= f).effects ↔ ∃ a, x = .ok a ∧ e ∈ (f a).effects := by
  rw [mem_bind]
  simp [lift]

end Act

open Act

theorem popD_fst (args : Args) (key : String) (d : J) :
    (popD args key d).1 = (args.get? key).getD d := rfl

theorem popD_snd (args : Args) (key : String) (d : J) : (popD args key d).2 = args.pop key := rfl

/-- A list of pops. -/
def popAll (args : Args) (keys : List String) : Args := keys.foldl (fun a k => a.pop k) args

theorem WF_popAll {args : Args} (h : args.WF) (keys : List String) : (popAll args keys).WF := by
  induction keys generalizing args with
  | nil => exact h
  | cons k l ih => exact ih (Dict.WF_pop h k)

theorem get?_popAll {args : Args} (h : args.WF) (keys : List String) (k : String) :
    (popAll args keys).get? k = if k ∈ keys then none else args.get? k := by
  induction keys generalizing args with
  | nil => simp [popAll]
  | cons a l ih =>
    change (popAll (args.pop a) l).get? k = _
    rw [ih (Dict.WF_pop h a)]
    by_cases hk : k ∈ l
    · rw [if_pos hk, if_pos (List.mem_cons_of_mem _ hk)]
    · rw [if_neg hk]
      by_cases ha : k = a
      · subst ha
        rw [if_pos List.mem_cons_self, Dict.get?_pop_self h]
      · rw [if_neg (by simp [ha, hk]), Dict.get?_pop_ne _ (Ne.symm ha)]

/-! ## Preparation of the options -/

/-- Value of an option with file name after adding the prefix. -/
def prefixed (p : String) (v : Option J) : Option J :=
  match v with
  | some (.dict d) =>
    match Dict.get? d "fname" with
    | some (.str f) => some (.dict (Dict.set d "fname" (.str (p ++ f))))
    | _ => some (.dict d)
  | v => v

theorem prefixFname_ok {p : String} {args args' : Args} {key : String}
    (h : prefixFname p args key = .ok args') :
    (∀ k, args'.get? k = if k = key then prefixed p (args.get? k) else args.get? k) ∧
      (args.WF → args'.WF) := by
  unfold prefixFname at h
  split at h
  · rename_i hk
    cases h
    refine ⟨fun k => ?_, id⟩
    by_cases e : k = key
    · rw [if_pos e, e, hk]; rfl
    · rw [if_neg e]
  · rename_i d hk
    split at h
    · rename_i hf
      cases h
      refine ⟨fun k => ?_, id⟩
      by_cases e : k = key
      · rw [if_pos e, e, hk]
        simp [prefixed, hf]
      · rw [if_neg e]
    · rename_i f hf
      cases h
      refine ⟨fun k => ?_, fun hw => Dict.WF_set hw _ _⟩
      by_cases e : k = key
      · rw [if_pos e, e, hk, Dict.get?_set_self]
        simp [prefixed, hf]
      · rw [if_neg e, Dict.get?_set_ne _ _ (Ne.symm e)]
    · simp at h
  · simp at h
  · simp at h
  · simp at h

theorem prefix_foldl {p : String} {keys : List String} (hn : keys.Nodup) {args args' : Args}
    (h : keys.foldlM (prefixFname p) args = .ok args') :
    (∀ k, args'.get? k = if k ∈ keys then prefixed p (args.get? k) else args.get? k) ∧
      (args.WF → args'.WF) := by
  induction keys generalizing args with
  | nil =>
    simp only [List.foldlM_nil, pure, Except.pure, Except.ok.injEq] at h
    subst h
    simp
  | cons a l ih =>
    rw [List.foldlM_cons] at h
    obtain ⟨a1, h1, h2⟩ := bind_ok.1 h
    obtain ⟨hna, hnl⟩ := List.nodup_cons.1 hn
    obtain ⟨i1, i2⟩ := prefixFname_ok h1
    obtain ⟨j1, j2⟩ := ih hnl h2
    refine ⟨fun k => ?_, fun hw => j2 (i2 hw)⟩
    rw [j1, i1]
    by_cases hk : k ∈ l
    · have : k ≠ a := fun e => hna (e ▸ hk)
      rw [if_pos hk, if_neg this, if_pos (List.mem_cons_of_mem _ hk)]
    · rw [if_neg hk]
      by_cases e : k = a
      · rw [if_pos e, if_pos (by simp [e])]
      · rw [if_neg e, if_neg (by simp [e, hk])]

theorem optionKeys_nodup : optionKeys.Nodup := by decide

/-- Value of an option after the default of `mean`. -/
def withMean (m : J) (v : Option J) : Option J :=
  match v with
  | some (.dict d) => some (.dict (Dict.setdefault d "mean" m))
  | v => v

theorem setMean_ok {args args' : Args} {key : String} {m : J} (h : setMean args key m = .ok args') :
    (∀ k, args'.get? k = if k = key then withMean m (args.get? k) else args.get? k) ∧
      (args.WF → args'.WF) := by
  unfold setMean at h
  split at h
  · rename_i hk
    cases h
    refine ⟨fun k => ?_, id⟩
    by_cases e : k = key
    · rw [if_pos e, e, hk]; rfl
    · rw [if_neg e]
  · rename_i d hk
    cases h
    refine ⟨fun k => ?_, fun hw => Dict.WF_set hw _ _⟩
    by_cases e : k = key
    · rw [if_pos e, e, hk, Dict.get?_set_self]; rfl
    · rw [if_neg e, Dict.get?_set_ne _ _ (Ne.symm e)]
  · simp at h

/-- Keys of the options which get the default of `mean`. -/
def meanKeys : List String := ["plot_results_options", "plot_sites_options"]

theorem meanDefault_ok {args args' : Args} (h : meanDefault args = .ok args') :
    (∀ k, args'.get? k = match args.get? "mean" with
      | some m => if k ∈ meanKeys then withMean m (args.get? k) else args.get? k
      | none => args.get? k) ∧ (args.WF → args'.WF) := by
  unfold meanDefault at h
  split at h
  · rename_i hm
    cases h
    exact ⟨fun k => by rw [hm], id⟩
  · rename_i m hm
    obtain ⟨a1, h1, h2⟩ := bind_ok.1 h
    obtain ⟨i1, i2⟩ := setMean_ok h1
    obtain ⟨j1, j2⟩ := setMean_ok h2
    refine ⟨fun k => ?_, fun hw => j2 (i2 hw)⟩
    rw [hm, j1, i1]
    simp only [meanKeys, List.mem_cons, List.not_mem_nil, or_false]
    by_cases e1 : k = "plot_results_options"
    · rw [if_neg (by rw [e1]; decide), if_pos e1, if_pos (Or.inl e1)]
    · by_cases e2 : k = "plot_sites_options"
      · rw [if_pos e2, if_neg e1, if_pos (Or.inr e2)]
      · rw [if_neg e2, if_neg e1, if_neg (by simp [e1, e2])]

/-- Options which are taken out of the options in `prepare`. -/
def takenKeys : List String :=
  ["logging", "verbose", "loglevel", "logfile", "prefix", "output", "indent"]

theorem takeOut_args (cmd : String) (args : Args) :
    (takeOut cmd args).1.args = popAll (args.set "cmd" (.str cmd)) takenKeys := rfl

theorem takeOut_get? (cmd : String) {args : Args} (hw : args.WF) (k : String) :
    (takeOut cmd args).1.args.get? k =
      if k ∈ takenKeys then none else if k = "cmd" then some (.str cmd) else args.get? k := by
  rw [takeOut_args, get?_popAll (Dict.WF_set hw _ _)]
  by_cases hk : k ∈ takenKeys
  · rw [if_pos hk, if_pos hk]
  · rw [if_neg hk, if_neg hk, Dict.get?_set]
    by_cases e : "cmd" = k
    · rw [if_pos e, if_pos e.symm]
    · rw [if_neg e, if_neg (Ne.symm e)]

/-- The value of an option which is taken out. -/
theorem takeOut_vals (cmd : String) (args : Args) :
    (takeOut cmd args).1.loggingc = (args.get? "logging").getD .null ∧
    (takeOut cmd args).1.verbose = (args.get? "verbose").getD (.num 0) ∧
    (takeOut cmd args).1.loglevel = (args.get? "loglevel").getD (.num 3) ∧
    (takeOut cmd args).1.logfile = (args.get? "logfile").getD .null ∧
    (takeOut cmd args).1.output = (args.get? "output").getD .null ∧
    (takeOut cmd args).1.indent = (args.get? "indent").getD .null ∧
    (takeOut cmd args).2 = (args.get? "prefix").getD .null := by
  unfold takeOut
  simp only [popD]
  refine ⟨?_, ?_, ?_, ?_, ?_, ?_, ?_⟩ <;>
  · congr 1
    repeat rw [Dict.get?_pop_ne _ (by decide)]
    rw [Dict.get?_set_ne _ _ (by decide)]

theorem setPlots_ok {plots : J} {args args' : Args} (h : setPlots plots args = .ok args') :
    (∀ k, args'.get? k = match plots with
      | .bool b => if k ∈ plotTargets.map ("plot_" ++ ·) then some (.bool b) else args.get? k
      | _ => args.get? k) ∧ (args.WF → args'.WF) ∧ (plots = .null ∨ ∃ b, plots = .bool b) := by
  unfold setPlots at h
  split at h
  · cases h; exact ⟨fun _ => rfl, id, Or.inl rfl⟩
  · rename_i b
    cases h
    have key : ∀ (l : List String) (a : Args),
        (∀ k, (l.foldl (fun a t => a.set ("plot_" ++ t) (J.bool b)) a).get? k =
          if k ∈ l.map ("plot_" ++ ·) then some (.bool b) else a.get? k) ∧
        (a.WF → (l.foldl (fun a t => a.set ("plot_" ++ t) (J.bool b)) a).WF) := by
      intro l
      induction l with
      | nil => intro a; simp
      | cons t l ih =>
        intro a
        obtain ⟨i1, i2⟩ := ih (a.set ("plot_" ++ t) (.bool b))
        refine ⟨fun k => ?_, fun hw => i2 (Dict.WF_set hw _ _)⟩
        rw [List.foldl_cons, i1, Dict.get?_set]
        by_cases hk : k ∈ l.map ("plot_" ++ ·)
        · rw [if_pos hk, if_pos (by rw [List.map_cons]; exact List.mem_cons_of_mem _ hk)]
        · rw [if_neg hk]
          by_cases e : "plot_" ++ t = k
          · rw [if_pos e, if_pos (by rw [List.map_cons, ← e]; exact List.mem_cons_self)]
          · rw [if_neg e, if_neg]
            rw [List.map_cons, List.mem_cons]
            rintro (h | h)
            · exact e h.symm
            · exact hk h
    obtain ⟨h1, h2⟩ := key plotTargets args
    exact ⟨h1, h2, Or.inr ⟨b, rfl⟩⟩
  · simp at h

/-- What the prefix does. -/
theorem applyPrefix_ok {env : Env} {pre : J} {pp pp' : Prep} (h : (applyPrefix env pre pp).out = .ok pp') :
    pp'.loggingc = pp.loggingc ∧ pp'.verbose = pp.verbose ∧ pp'.loglevel = pp.loglevel ∧
    pp'.indent = pp.indent ∧ (pp.args.WF → pp'.args.WF) ∧
    ((pre.truthy = false ∧ pp' = pp) ∨ ∃ p, pre = .str p ∧ p ≠ "" ∧
      pp'.logfile = prefixLog p pp.logfile ∧ prefixOutput p pp.output = .ok pp'.output ∧
      ∀ k, pp'.args.get? k =
        if k ∈ optionKeys then prefixed p (pp.args.get? k) else pp.args.get? k) := by
  unfold applyPrefix at h
  by_cases ht : pre.truthy = true
  · rw [if_pos ht] at h
    cases pre <;> simp only [lift_out, reduceCtorEq] at h
    rename_i p
    obtain ⟨_, -, h⟩ := bind_out.1 h
    obtain ⟨o, ho, h⟩ := bind_out.1 h
    obtain ⟨a, ha, h⟩ := bind_out.1 h
    simp only [pure_out, Except.ok.injEq] at h
    subst h
    obtain ⟨g1, g2⟩ := prefix_foldl optionKeys_nodup ha
    refine ⟨rfl, rfl, rfl, rfl, g2, Or.inr ⟨p, rfl, by simpa [J.truthy] using ht, rfl, ho, g1⟩⟩
  · rw [if_neg ht] at h
    simp only [pure_out, Except.ok.injEq] at h
    subst h
    exact ⟨rfl, rfl, rfl, rfl, id, Or.inl ⟨by simpa using ht, rfl⟩⟩

/-! ## Effects of the steps -/

theorem prefixDir_effects {env : Env} {p : String} {e : Effect} (h : e ∈ (prefixDir env p).effects) :
    e = .mkdir (dirname p) ∧ dirname p ≠ "" := by
  unfold prefixDir at h
  split_ifs at h with h0
  · simp [pure_effects] at h
  · simp only [emit_effects, List.mem_singleton] at h
    exact ⟨h, h0⟩

theorem applyPrefix_effects {env : Env} {pre : J} {pp : Prep} {e : Effect}
    (h : e ∈ (applyPrefix env pre pp).effects) :
    ∃ p, pre = .str p ∧ e = .mkdir (dirname p) ∧ dirname p ≠ "" := by
  unfold applyPrefix at h
  split_ifs at h with ht
  · cases pre <;> simp only [lift_effects, List.not_mem_nil] at h
    rename_i p
    rcases mem_bind.1 h with h | ⟨_, -, h⟩
    · exact ⟨p, rfl, prefixDir_effects h⟩
    · obtain ⟨_, -, h⟩ := mem_bind_lift.1 h
      obtain ⟨_, -, h⟩ := mem_bind_lift.1 h
      simp [pure_effects] at h
  · simp [pure_effects] at h

theorem prepare_effects {env : Env} {cmd : String} {plots : J} {args : Args} {e : Effect}
    (h : e ∈ (prepare env cmd plots args).effects) : ∃ p, e = .mkdir p := by
  unfold prepare at h
  obtain ⟨a, -, h⟩ := mem_bind_lift.1 h
  rcases mem_bind.1 h with h | ⟨pp, -, h⟩
  · obtain ⟨p, -, h, -⟩ := applyPrefix_effects h
    exact ⟨_, h⟩
  · obtain ⟨_, -, h⟩ := mem_bind_lift.1 h
    simp [pure_effects] at h

theorem configureLogging_effects {env : Env} {pp : Prep} {e : Effect}
    (h : e ∈ (configureLogging env pp).effects) :
    ∃ c, e = .logging c ∧ loggingConf pp.loggingc pp.verbose pp.loglevel pp.logfile = .ok c := by
  unfold configureLogging at h
  obtain ⟨c, hc, h⟩ := mem_bind_lift.1 h
  simp only [emit_effects, List.mem_singleton] at h
  exact ⟨c, h, hc⟩

theorem figure_effects {env : Env} {fig : Fig} {wanted : Bool} {key default : String}
    {after : Args → Py Args} {args result : Args} {e : Effect}
    (h : e ∈ (figure env fig wanted key default after args result).effects) :
    wanted = true ∧ ∃ o, figOptions args key default = .ok o ∧
      e = .draw fig (.dict result) o.1 o.2 := by
  unfold figure at h
  split_ifs at h with hw
  · obtain ⟨o, ho, h⟩ := mem_bind_lift.1 h
    obtain ⟨r, -, h⟩ := mem_bind_lift.1 h
    rcases mem_bind.1 h with h | ⟨_, -, h⟩
    · simp only [emit_effects, List.mem_singleton] at h
      exact ⟨hw, o, ho, h⟩
    · simp [pure_effects] at h
  · simp [pure_effects] at h

theorem figure_out {env : Env} {fig : Fig} {wanted : Bool} {key default : String}
    {after : Args → Py Args} {args result r : Args}
    (h : (figure env fig wanted key default after args result).out = .ok r) :
    (wanted = false ∧ r = result) ∨ (wanted = true ∧ after result = .ok r) := by
  unfold figure at h
  split_ifs at h with hw
  · obtain ⟨o, -, h⟩ := bind_out.1 h
    obtain ⟨r', hr, h⟩ := bind_out.1 h
    obtain ⟨_, -, h⟩ := bind_out.1 h
    simp only [pure_out, Except.ok.injEq] at h
    subst h
    exact Or.inr ⟨hw, hr⟩
  · simp only [pure_out, Except.ok.injEq] at h
    exact Or.inl ⟨by simpa using hw, h.symm⟩

theorem eventFigure_effects {env : Env} {fig : Fig} {wanted : Bool} {key default evid : String}
    {args result : Args} {e : Effect}
    (h : e ∈ (eventFigure env fig wanted key default evid args result).effects) :
    wanted = true ∧ ∃ o f f', figOptions args key default = .ok o ∧ o.1 = .str f ∧
      env.format f evid = .ok f' ∧ e = .draw fig (.dict result) (.str f') o.2 := by
  unfold eventFigure at h
  split_ifs at h with hw
  · obtain ⟨o, ho, h⟩ := mem_bind_lift.1 h
    split at h
    · rename_i f hf
      obtain ⟨f', hf', h⟩ := mem_bind_lift.1 h
      simp only [emit_effects, List.mem_singleton] at h
      exact ⟨hw, o, f, f', ho, hf, hf', h⟩
    · simp [lift_effects] at h
  · simp [pure_effects] at h

/-- The result after drawing the figures of all results. -/
theorem figuresAll_out {env : Env} {wok : Bool} {args result r : Args}
    (h : (figuresAll env wok args result).out = .ok r) :
    (figure env .results (switchedOn args "plot_results" && (result.get? "g0").isSome)
      "plot_results_options" "results.pdf" afterPlotResults args result).out = .ok r := by
  unfold figuresAll at h
  obtain ⟨r1, h1, h⟩ := bind_out.1 h
  obtain ⟨r2, h2, h⟩ := bind_out.1 h
  obtain ⟨r3, h3, h⟩ := bind_out.1 h
  have e2 : r2 = r1 := by
    rcases figure_out h2 with ⟨-, h⟩ | ⟨-, h⟩
    · exact h
    · simpa using h.symm
  have e3 : r3 = r2 := by
    rcases figure_out h3 with ⟨-, h⟩ | ⟨-, h⟩
    · exact h
    · simpa using h.symm
  have e4 : r = r3 := by
    rcases figure_out h with ⟨-, h⟩ | ⟨-, h⟩
    · exact h
    · simpa using h.symm
  rw [e4, e3, e2, h1]

/-- The figures which can be drawn for a result. -/
theorem plot_effects {env : Env} {result : J} {eventid : Option String} {args : Args} {e : Effect}
    (h : e ∈ (plot env result eventid args).effects) :
    ∃ r, result = .dict r ∧ ∃ wok, hasSpectra r = .ok wok ∧
      e ∈ (figures env eventid wok args r).effects := by
  unfold plot at h
  split_ifs at h
  · simp [lift_effects] at h
  · split at h
    · rename_i r
      obtain ⟨wok, hw, h⟩ := mem_bind_lift.1 h
      rcases mem_bind.1 h with h | ⟨_, -, h⟩
      · exact ⟨r, rfl, wok, hw, h⟩
      · simp [pure_effects] at h
    · simp [lift_effects] at h

theorem figures_draw {env : Env} {eventid : Option String} {wok : Bool} {args result : Args}
    {e : Effect} (h : e ∈ (figures env eventid wok args result).effects) :
    ∃ fig r fname opts, e = .draw fig r fname opts := by
  unfold figures at h
  cases eventid with
  | none =>
    simp only [figuresAll] at h
    rcases mem_bind.1 h with h | ⟨_, -, h⟩
    · obtain ⟨-, _, -, h⟩ := figure_effects h; exact ⟨_, _, _, _, h⟩
    rcases mem_bind.1 h with h | ⟨_, -, h⟩
    · obtain ⟨-, _, -, h⟩ := figure_effects h; exact ⟨_, _, _, _, h⟩
    rcases mem_bind.1 h with h | ⟨_, -, h⟩
    · obtain ⟨-, _, -, h⟩ := figure_effects h; exact ⟨_, _, _, _, h⟩
    · obtain ⟨-, _, -, h⟩ := figure_effects h; exact ⟨_, _, _, _, h⟩
  | some evid =>
    simp only [figuresEvent] at h
    rcases mem_bind.1 h with h | ⟨_, -, h⟩
    · obtain ⟨-, _, _, _, -, -, -, h⟩ := eventFigure_effects h; exact ⟨_, _, _, _, h⟩
    rcases mem_bind.1 h with h | ⟨_, -, h⟩
    · obtain ⟨-, _, _, _, -, -, -, h⟩ := eventFigure_effects h; exact ⟨_, _, _, _, h⟩
    · simp [pure_effects] at h

theorem plot_draw {env : Env} {result : J} {eventid : Option String} {args : Args} {e : Effect}
    (h : e ∈ (plot env result eventid args).effects) :
    ∃ fig r fname opts, e = .draw fig r fname opts := by
  obtain ⟨_, -, _, -, h⟩ := plot_effects h
  exact figures_draw h

theorem alignCmd_effects {env : Env} {eventid : Option String} {kw args : Args} {r : Option J}
    {e : Effect} (h : e ∈ (alignCmd env eventid kw args r).effects) :
    ∃ r0 r1 r2, r = some r0 ∧ env.align r0 kw = .ok r1 ∧ updateConfig r1 kw = .ok r2 ∧
      r2.plain = true ∧ e ∈ (plot env r2 eventid args).effects := by
  unfold alignCmd at h
  obtain ⟨r0, h0, h⟩ := mem_bind_lift.1 h
  obtain ⟨r1, h1, h⟩ := mem_bind_lift.1 h
  obtain ⟨r2, h2, h⟩ := mem_bind_lift.1 h
  obtain ⟨_, h3, h⟩ := mem_bind_lift.1 h
  refine ⟨r0, r1, r2, ?_, h1, h2, ?_, h⟩
  · unfold bound at h0
    split at h0
    · simpa using h0
    · simp at h0
  · unfold dumps at h3
    split_ifs at h3 with hp
    exact hp

/-- Options of the commands for the calculation of source parameters. -/
def sourceKw (args : Args) : Args :=
  [("seismic_moment_method", (args.get? "seismic_moment_method").getD .null),
   ("seismic_moment_options", (args.get? "seismic_moment_options").getD .null)]

theorem sourceCmd_eq (env : Env) (eventid : Option String) (args : Args) (r : Option J) :
    sourceCmd env eventid args r = (do
      let r ← Act.lift (bound r)
      let r ← Act.lift (env.source r (sourceKw args))
      let r ← Act.lift (updateConfig r (sourceKw args))
      plot env r eventid (popAll args ["seismic_moment_method", "seismic_moment_options"])) := by
  unfold sourceCmd sourceKw
  simp only [popD, popAll, List.foldl_cons, List.foldl_nil]
  rw [Dict.get?_pop_ne args (k := "seismic_moment_method") (k' := "seismic_moment_options") (by decide)]

theorem sourceCmd_effects {env : Env} {eventid : Option String} {args : Args} {r : Option J}
    {e : Effect} (h : e ∈ (sourceCmd env eventid args r).effects) :
    ∃ r0 r1 r2, r = some r0 ∧ env.source r0 (sourceKw args) = .ok r1 ∧
      updateConfig r1 (sourceKw args) = .ok r2 ∧
      e ∈ (plot env r2 eventid
        (popAll args ["seismic_moment_method", "seismic_moment_options"])).effects := by
  rw [sourceCmd_eq] at h
  obtain ⟨r0, h0, h⟩ := mem_bind_lift.1 h
  obtain ⟨r1, h1, h⟩ := mem_bind_lift.1 h
  obtain ⟨r2, h2, h⟩ := mem_bind_lift.1 h
  refine ⟨r0, r1, r2, ?_, h1, h2, h⟩
  unfold bound at h0
  split at h0
  · simpa using h0
  · simp at h0

theorem postProcess_draw {env : Env} {cmd : String} {align : Bool} {eventid : Option String}
    {kw args : Args} {r : Option J} {e : Effect}
    (h : e ∈ (postProcess env cmd align eventid kw args r).effects) :
    ∃ fig r fname opts, e = .draw fig r fname opts := by
  unfold postProcess at h
  split_ifs at h
  · rcases mem_bind.1 h with h | ⟨_, -, h⟩
    · obtain ⟨_, _, _, -, -, -, -, h⟩ := alignCmd_effects h
      exact plot_draw h
    · simp [pure_effects] at h
  · rcases mem_bind.1 h with h | ⟨_, -, h⟩
    · obtain ⟨_, _, _, -, -, -, h⟩ := sourceCmd_effects h
      exact plot_draw h
    · simp [pure_effects] at h
  · simp [pure_effects] at h

theorem invertCmd_effects {env : Env} {align : J} {args : Args} {e : Effect}
    (h : e ∈ (invertCmd env align args).effects) :
    e = .invert align args ∧ args.get? "noplots" = none := by
  unfold invertCmd at h
  split_ifs at h with h0
  · simp [lift_effects] at h
  · rcases mem_bind.1 h with h | ⟨r, -, h⟩
    · simp only [emit_effects, List.mem_singleton] at h
      exact ⟨h, by simpa using h0⟩
    · split_ifs at h <;> simp [pure_effects, lift_effects] at h

theorem resultOf_effects {env : Env} {cmd : String} {align : J} {rin : Option J} {args : Args}
    {e : Effect} (h : e ∈ (resultOf env cmd align rin args).effects) :
    e = .invert align args ∧ (cmd = "go" ∨ cmd = "fixed" ∨ cmd = "source") := by
  unfold resultOf at h
  split_ifs at h with hc
  · rcases mem_bind.1 h with h | ⟨_, -, h⟩
    · exact ⟨(invertCmd_effects h).1, hc⟩
    · simp [pure_effects] at h
  · simp [pure_effects] at h
  · simp [pure_effects] at h

/-- Effects of writing the result. -/
def Effect.isWrite : Effect → Prop
  | .mkdir _ => True
  | .stdout _ => True
  | .openW _ => True
  | .dump _ _ _ => True
  | _ => False

theorem writeOutput_effects {env : Env} {output indent : J} {r : Option J} {e : Effect}
    (h : e ∈ (writeOutput env output indent r).effects) : e.isWrite := by
  unfold writeOutput at h
  split at h
  · simp [pure_effects] at h
  · split_ifs at h
    · obtain ⟨_, -, h⟩ := mem_bind_lift.1 h
      simp only [emit_effects, List.mem_singleton] at h
      subst h; trivial
    · simp [pure_effects] at h
    · unfold writeResult at h
      rcases mem_bind.1 h with h | ⟨_, -, h⟩
      · unfold outputDir at h
        split_ifs at h
        · simp [pure_effects] at h
        · simp only [emit_effects, List.mem_singleton] at h
          subst h; trivial
      rcases mem_bind.1 h with h | ⟨_, -, h⟩
      · simp only [emit_effects, List.mem_singleton] at h
        subst h; trivial
      obtain ⟨_, -, h⟩ := mem_bind_lift.1 h
      simp only [emit_effects, List.mem_singleton] at h
      subst h; trivial
  · simp [lift_effects] at h

theorem printAll_effects {l : List (String × J)} {e : Effect} (h : e ∈ (printAll l).effects) :
    ∃ kv ∈ l, ∃ d, kv.2 = .dict d ∧ ((Dict.get? d "Mw" = none ∧ e = .mag kv.1 none) ∨
      ∃ x, Dict.get? d "Mw" = some (.num x) ∧ e = .mag kv.1 (some x)) := by
  induction l with
  | nil => simp [printAll, pure_effects] at h
  | cons kv l ih =>
    unfold printAll at h
    rcases mem_bind.1 h with h | ⟨_, -, h⟩
    · refine ⟨kv, List.mem_cons_self, ?_⟩
      unfold printMag at h
      split at h
      · rename_i d hd
        refine ⟨d, hd, ?_⟩
        split at h
        · rename_i hm
          simp only [emit_effects, List.mem_singleton] at h
          exact Or.inl ⟨hm, h⟩
        · rename_i x hm
          simp only [emit_effects, List.mem_singleton] at h
          exact Or.inr ⟨x, hm, h⟩
        · simp [lift_effects] at h
        · simp [lift_effects] at h
      · simp [lift_effects] at h
      · simp [lift_effects] at h
      · simp [lift_effects] at h
    · obtain ⟨kv', h1, h2⟩ := ih h
      exact ⟨kv', List.mem_cons_of_mem _ h1, h2⟩

theorem printMags_effects {want : Bool} {r : Option J} {e : Effect}
    (h : e ∈ (printMags want r).effects) : want = true ∧ ∃ d evs, r = some (.dict d) ∧
      Dict.get? d "events" = some (.dict evs) ∧ e ∈ (printAll evs).effects := by
  unfold printMags at h
  split_ifs at h with hw
  · obtain ⟨r', hr, h⟩ := mem_bind_lift.1 h
    have hr' : r = some r' := by
      unfold bound at hr
      split at hr
      · simpa using hr
      · simp at hr
    split at h
    · rename_i d
      split at h
      · simp [pure_effects] at h
      · rename_i evs he
        exact ⟨hw, d, evs, hr', he, h⟩
      · simp [lift_effects] at h
    · simp [lift_effects] at h
    · simp [lift_effects] at h
    · simp [lift_effects] at h
  · simp [pure_effects] at h

/-! ## The stages of `run` -/

/-- `args['align_sites']`. -/
def alignValue (pp : Prep) : J := (pp.args.get? "align_sites").getD (.bool false)

/-- The stages of a command up to the inversion. -/
structure Stages (env : Env) (c : Call) (pp : Prep) where
  ld : Loaded
  events : Option (List J)
  kw : Args
  a1 : Args
  rin0 : Option J
  a2 : Args
  rin : Option J
  a3 : Args
  hload : load env c.cmd (alignValue pp).truthy c.waveforms (pp.args.pop "align_sites") = some ld
  hsel : selectEvents env c.eventid ld.events = .ok events
  hplain : (J.dict ld.args).plain = true
  halign : alignOptions (alignValue pp).truthy ld.args = .ok (kw, a1)
  hin : inputOf env c.cmd (addLoaded ld events a1) = .ok (rin0, a2)
  hsites : inputSites env c.cmd rin0 a2 = .ok (rin, a3)

/-- The options of the inversion. -/
def Stages.args {env : Env} {c : Call} {pp : Prep} (s : Stages env c pp) : Args :=
  withInput c.cmd s.rin s.a3

/-- The rest of a command: inversion, processing, output. -/
def Stages.rest {env : Env} {c : Call} {pp : Prep} (s : Stages env c pp) : Act J := do
  let r ← resultOf env c.cmd (alignValue pp) s.rin s.args
  let r ← postProcess env c.cmd (alignValue pp).truthy c.eventid s.kw s.args r
  writeOutput env pp.output pp.indent r
  printMags c.printMag r
  Act.lift (bound r)

theorem dumps_ok {v : J} {u : Unit} (h : dumps v = .ok u) : v.plain = true := by
  unfold dumps at h
  split_ifs at h with hp
  exact hp

theorem process_effects {env : Env} {c : Call} {pp : Prep} {ld : Loaded} {e : Effect}
    (hl : load env c.cmd (alignValue pp).truthy c.waveforms (pp.args.pop "align_sites") = some ld)
    (h : e ∈ (process env c.cmd (alignValue pp) c.eventid c.printMag pp ld).effects) :
    ∃ s : Stages env c pp, e ∈ s.rest.effects := by
  unfold process at h
  obtain ⟨events, h1, h⟩ := mem_bind_lift.1 h
  obtain ⟨_, h2, h⟩ := mem_bind_lift.1 h
  obtain ⟨⟨kw, a1⟩, h3, h⟩ := mem_bind_lift.1 h
  obtain ⟨⟨rin0, a2⟩, h4, h⟩ := mem_bind_lift.1 h
  obtain ⟨⟨rin, a3⟩, h5, h⟩ := mem_bind_lift.1 h
  exact ⟨⟨ld, events, kw, a1, rin0, a2, rin, a3, hl, h1, dumps_ok h2, h3, h4, h5⟩, h⟩

theorem process_out {env : Env} {c : Call} {pp : Prep} {ld : Loaded} {r : J}
    (hl : load env c.cmd (alignValue pp).truthy c.waveforms (pp.args.pop "align_sites") = some ld)
    (h : (process env c.cmd (alignValue pp) c.eventid c.printMag pp ld).out = .ok r) :
    ∃ s : Stages env c pp, s.rest.out = .ok r ∧
      (process env c.cmd (alignValue pp) c.eventid c.printMag pp ld).effects = s.rest.effects := by
  unfold process at h ⊢
  obtain ⟨events, h1, h⟩ := bind_out.1 h
  obtain ⟨_, h2, h⟩ := bind_out.1 h
  obtain ⟨⟨kw, a1⟩, h3, h⟩ := bind_out.1 h
  obtain ⟨⟨rin0, a2⟩, h4, h⟩ := bind_out.1 h
  obtain ⟨⟨rin, a3⟩, h5, h⟩ := bind_out.1 h
  rw [lift_out] at h1 h2 h3 h4 h5
  refine ⟨⟨ld, events, kw, a1, rin0, a2, rin, a3, hl, h1, dumps_ok h2, h3, h4, h5⟩, h, ?_⟩
  rw [bind_lift_ok h1, bind_lift_ok h2, bind_lift_ok h3]
  simp only
  rw [bind_lift_ok h4]
  simp only
  rw [bind_lift_ok h5]
  rfl

theorem mainCmd_effects {env : Env} {c : Call} {pp : Prep} {e : Effect}
    (h : e ∈ (mainCmd env c.cmd c.eventid c.waveforms c.printMag pp).effects) :
    (∃ l, e = .logging l ∧ loggingConf pp.loggingc pp.verbose pp.loglevel pp.logfile = .ok l) ∨
      ∃ s : Stages env c pp, e ∈ s.rest.effects := by
  unfold mainCmd at h
  rcases mem_bind.1 h with h | ⟨_, -, h⟩
  · exact Or.inl (configureLogging_effects h)
  · simp only [popD] at h
    split at h
    · simp [pure_effects] at h
    · rename_i ld hl
      exact Or.inr (process_effects hl h)

theorem mainCmd_out {env : Env} {c : Call} {pp : Prep} {r : J}
    (h : (mainCmd env c.cmd c.eventid c.waveforms c.printMag pp).out = .ok r) :
    ∃ l, loggingConf pp.loggingc pp.verbose pp.loglevel pp.logfile = .ok l ∧
      ((load env c.cmd (alignValue pp).truthy c.waveforms (pp.args.pop "align_sites") = none ∧
        r = .null ∧
        (mainCmd env c.cmd c.eventid c.waveforms c.printMag pp).effects = [.logging l]) ∨
      ∃ s : Stages env c pp, s.rest.out = .ok r ∧
        (mainCmd env c.cmd c.eventid c.waveforms c.printMag pp).effects =
          .logging l :: s.rest.effects) := by
  unfold mainCmd at h ⊢
  obtain ⟨u, h1, h⟩ := bind_out.1 h
  have hL := h1
  unfold configureLogging at hL
  obtain ⟨l, hl, -⟩ := bind_out.1 hL
  rw [lift_out] at hl
  refine ⟨l, hl, ?_⟩
  have hE : (configureLogging env pp).effects = [.logging l] := by
    unfold configureLogging
    rw [bind_lift_ok hl]
    rfl
  rw [bind_effects_of_ok h1, hE]
  simp only [popD] at h ⊢
  change (match load env c.cmd (alignValue pp).truthy c.waveforms (pp.args.pop "align_sites") with
    | none => (pure .null : Act J)
    | some ld => process env c.cmd (alignValue pp) c.eventid c.printMag pp ld).out = .ok r at h
  change (load env c.cmd (alignValue pp).truthy c.waveforms (pp.args.pop "align_sites") = none ∧ r = .null ∧
    [Effect.logging l] ++ (match load env c.cmd (alignValue pp).truthy c.waveforms (pp.args.pop "align_sites") with
    | none => (pure .null : Act J)
    | some ld => process env c.cmd (alignValue pp) c.eventid c.printMag pp ld).effects = _) ∨
    ∃ s : Stages env c pp, s.rest.out = .ok r ∧
    [Effect.logging l] ++ (match load env c.cmd (alignValue pp).truthy c.waveforms (pp.args.pop "align_sites") with
    | none => (pure .null : Act J)
    | some ld => process env c.cmd (alignValue pp) c.eventid c.printMag pp ld).effects = _
  cases hld : load env c.cmd (alignValue pp).truthy c.waveforms (pp.args.pop "align_sites") with
  | none =>
    left
    simp only [hld, pure_out, Except.ok.injEq] at h
    exact ⟨rfl, h.symm, rfl⟩
  | some ld =>
    right
    simp only [hld] at h
    obtain ⟨s, h2, h3⟩ := process_out hld h
    exact ⟨s, h2, by rw [h3]; rfl⟩

/-- Contents of the configuration file: no options without file. -/
def ConfFile (env : Env) (c : Call) (conf : Args) : Prop :=
  (normConf c.conf = none ∧ conf = []) ∨
  ∃ f s, normConf c.conf = some f ∧ env.text f = .ok s ∧ env.parse (stripComments s) = some (.dict conf)

/-- The merged options. -/
theorem loadConf_ok {env : Env} {c : Call} {merged : Args}
    (h : loadConf env (normConf c.conf) c.args = .ok (some merged)) :
    ∃ conf, ConfFile env c conf ∧ (conf.WF → c.args.WF → merged.WF ∧
      ∀ k, merged.get? k = (c.args.get? k).or (Dict.get? conf k)) := by
  unfold loadConf at h
  split at h
  · rename_i hc
    simp only [Except.ok.injEq, Option.some.injEq] at h
    subst h
    exact ⟨[], Or.inl ⟨hc, rfl⟩, fun _ hw => ⟨hw, fun k => by simp⟩⟩
  · rename_i f hc
    split at h
    · simp at h
    · simp at h
    · rename_i s hs
      split at h
      · simp at h
      · rename_i d hd
        simp only [Except.ok.injEq, Option.some.injEq] at h
        subst h
        refine ⟨d, Or.inr ⟨f, s, hc, hs, hd⟩, fun hd hw => ⟨Dict.WF_update hd _, fun k => ?_⟩⟩
        rw [Dict.get?_update d c.args hw]
      · simp at h

theorem run_effects {env : Env} {c : Call} {e : Effect} (h : e ∈ (run env c).effects) :
    (c.cmd = "create" ∧ e ∈ (create (normConf c.conf) c.tutorial).map (fun p => Effect.copy p.1 p.2)) ∨
    (e = .message ∧ loadConf env (normConf c.conf) c.args = .ok none) ∨
    (c.cmd ∈ commands ∧ c.cmd ≠ "create" ∧ ∃ merged,
      loadConf env (normConf c.conf) c.args = .ok (some merged) ∧
      e ∈ (runWith env c merged).effects) := by
  unfold run at h
  split_ifs at h with h1 h2
  · exact Or.inl ⟨h2, h⟩
  · obtain ⟨a, ha, h⟩ := mem_bind_lift.1 h
    cases a with
    | none =>
      simp only [emit_effects, List.mem_singleton] at h
      exact Or.inr (Or.inl ⟨h, ha⟩)
    | some m => exact Or.inr (Or.inr ⟨h1, h2, m, ha, h⟩)
  · simp [lift_effects] at h

theorem runWith_effects {env : Env} {c : Call} {args : Args} {e : Effect}
    (h : e ∈ (runWith env c args).effects) :
    (∃ p, e = .mkdir p) ∨ ∃ pp, (prepare env c.cmd c.plots args).out = .ok pp ∧
      ((c.cmd = "plot" ∧ e ∈ (plotCmd env (normConf c.conf).isSome c.eventid pp.args).effects) ∨
       (c.cmd ≠ "plot" ∧ e ∈ (mainCmd env c.cmd c.eventid c.waveforms c.printMag pp).effects)) := by
  unfold runWith at h
  rcases mem_bind.1 h with h | ⟨pp, hpp, h⟩
  · exact Or.inl (prepare_effects h)
  · right
    refine ⟨pp, hpp, ?_⟩
    split_ifs at h with hc
    · exact Or.inl ⟨hc, h⟩
    · exact Or.inr ⟨hc, h⟩

theorem plotCmd_effects {env : Env} {given : Bool} {eventid : Option String} {args : Args}
    {e : Effect} (h : e ∈ (plotCmd env given eventid args).effects) :
    ∃ r0 a r1 a1 r2, loadResults env args "input" = .ok (.dict r0, a) ∧
      plotConfig given a r0 = .ok (r1, a1) ∧ plotEvent eventid r1 = .ok r2 ∧
      e ∈ (plot env (.dict r2) eventid a1).effects := by
  unfold plotCmd at h
  obtain ⟨⟨r, a⟩, h1, h⟩ := mem_bind_lift.1 h
  simp only at h
  split at h
  · rename_i r0
    obtain ⟨⟨r1, a1⟩, h2, h⟩ := mem_bind_lift.1 h
    simp only at h
    obtain ⟨r2, h3, h⟩ := mem_bind_lift.1 h
    rcases mem_bind.1 h with h | ⟨_, -, h⟩
    · exact ⟨r0, a, r1, a1, r2, h1, h2, h3, h⟩
    · simp [pure_effects] at h
  · simp [lift_effects] at h

/-- What happens after the options have been loaded. -/
theorem rest_effects {env : Env} {c : Call} {pp : Prep} {s : Stages env c pp} {e : Effect}
    (h : e ∈ s.rest.effects) :
    (e = .invert (alignValue pp) s.args ∧ (c.cmd = "go" ∨ c.cmd = "fixed" ∨ c.cmd = "source")) ∨
    ∃ r0, (resultOf env c.cmd (alignValue pp) s.rin s.args).out = .ok r0 ∧
      (e ∈ (postProcess env c.cmd (alignValue pp).truthy c.eventid s.kw s.args r0).effects ∨
      ∃ r, (postProcess env c.cmd (alignValue pp).truthy c.eventid s.kw s.args r0).out = .ok r ∧
        (e ∈ (writeOutput env pp.output pp.indent r).effects ∨
          ((writeOutput env pp.output pp.indent r).out = .ok () ∧
            e ∈ (printMags c.printMag r).effects))) := by
  unfold Stages.rest at h
  rcases mem_bind.1 h with h | ⟨r0, hr0, h⟩
  · exact Or.inl (resultOf_effects h)
  refine Or.inr ⟨r0, hr0, ?_⟩
  rcases mem_bind.1 h with h | ⟨r, hr, h⟩
  · exact Or.inl h
  refine Or.inr ⟨r, hr, ?_⟩
  rcases mem_bind.1 h with h | ⟨_, hw, h⟩
  · exact Or.inl h
  rcases mem_bind.1 h with h | ⟨_, -, h⟩
  · exact Or.inr ⟨hw, h⟩
  · simp [lift_effects] at h

/-- The inversion is only called in one place. -/
theorem run_invert {env : Env} {c : Call} {np : J} {a : Args}
    (h : Effect.invert np a ∈ (run env c).effects) :
    (c.cmd = "go" ∨ c.cmd = "fixed" ∨ c.cmd = "source") ∧ ∃ merged,
      loadConf env (normConf c.conf) c.args = .ok (some merged) ∧
      ∃ pp, (prepare env c.cmd c.plots merged).out = .ok pp ∧
      ∃ s : Stages env c pp, np = alignValue pp ∧ a = s.args := by
  rcases run_effects h with ⟨-, h⟩ | ⟨h, -⟩ | ⟨-, -, merged, hm, h⟩
  · simp at h
  · simp at h
  rcases runWith_effects h with ⟨p, h⟩ | ⟨pp, hpp, ⟨-, h⟩ | ⟨-, h⟩⟩
  · simp at h
  · obtain ⟨_, _, _, _, _, -, -, -, h⟩ := plotCmd_effects h
    obtain ⟨_, _, _, _, h⟩ := plot_draw h
    simp at h
  rcases mainCmd_effects h with ⟨_, h, -⟩ | ⟨s, h⟩
  · simp at h
  rcases rest_effects h with ⟨h, hc⟩ | ⟨r0, -, h | ⟨r, -, h | ⟨-, h⟩⟩⟩
  · simp only [Effect.invert.injEq] at h
    exact ⟨hc, merged, hm, pp, hpp, s, h.1, h.2⟩
  · obtain ⟨_, _, _, _, h⟩ := postProcess_draw h
    simp at h
  · exact absurd (writeOutput_effects h) (by simp [Effect.isWrite])
  · obtain ⟨-, _, evs, -, -, h⟩ := printMags_effects h
    obtain ⟨_, -, _, -, ⟨-, h⟩ | ⟨_, -, h⟩⟩ := printAll_effects h <;> simp at h

/-! ## Options of the inversion -/

/-- Options used for reading inventory, events and data. -/
def loadKeys : List String :=
  ["inventory", "filter_inventory", "events", "filter_events", "resolve_seedid",
   "read_events_kwargs", "data", "client_options", "plugin", "cache_waveforms"]

/-- Options used for the alignment of site responses. -/
def alignKeys : List String :=
  ["seismic_moment_method", "seismic_moment_options", "align_sites_station", "align_sites_value"]

theorem load_args {env : Env} {cmd : String} {align : Bool} {gw : J} {args : Args} {ld : Loaded}
    (hc : cmd ≠ "recalc_source") (h : load env cmd align gw args = some ld) :
    ld.args = popAll args loadKeys ∧ ∃ inv evs, ld.inventory = some inv ∧ ld.events = some evs ∧
      (∃ i, args.get? "inventory" = some i ∧
        env.inventory i ((args.get? "filter_inventory").getD .null) = some inv) ∧
      (∃ ev, args.get? "events" = some ev ∧
        env.events ev ((args.get? "filter_events").getD .null)
          ((args.get? "resolve_seedid").getD (.bool false))
          ((args.get? "read_events_kwargs").getD (.dict [])) inv = some evs) ∧
      env.initData gw ((args.get? "data").getD .null) ((args.get? "client_options").getD .null)
        ((args.get? "plugin").getD .null) ((args.get? "cache_waveforms").getD .null)
        = some ld.waveforms := by
  unfold load at h
  rw [if_neg hc] at h
  simp only [Option.bind_eq_bind, Option.bind_eq_some_iff] at h
  obtain ⟨⟨inv, a1⟩, h1, ⟨evs, gw', a2⟩, h2, h3⟩ := h
  simp only [Option.pure_def, Option.some.injEq] at h3
  subst h3
  unfold loadInventory at h1
  simp only [Option.bind_eq_bind, Option.bind_eq_some_iff, popD] at h1
  obtain ⟨i, hi, inv', hinv, h1⟩ := h1
  simp only [Option.pure_def, Option.some.injEq, Prod.mk.injEq] at h1
  obtain ⟨rfl, rfl⟩ := h1
  unfold loadEvents at h2
  simp only [Option.bind_eq_bind, Option.bind_eq_some_iff, popD] at h2
  obtain ⟨ev, hev, evs', hevs, gw'', hgw, h2⟩ := h2
  simp only [Option.pure_def, Option.some.injEq, Prod.mk.injEq] at h2
  obtain ⟨rfl, rfl, rfl⟩ := h2
  refine ⟨rfl, inv', evs', rfl, rfl, ⟨i, hi, ?_⟩, ⟨ev, ?_, ?_⟩, ?_⟩
  · rwa [Dict.get?_pop_ne _ (by decide)] at hinv
  · rwa [Dict.get?_pop_ne _ (by decide), Dict.get?_pop_ne _ (by decide)] at hev
  · simpa only [Dict.get?_pop_ne _ (show "inventory" ≠ "filter_events" by decide),
      Dict.get?_pop_ne _ (show "filter_inventory" ≠ "filter_events" by decide),
      Dict.get?_pop_ne _ (show "events" ≠ "filter_events" by decide),
      Dict.get?_pop_ne _ (show "filter_events" ≠ "resolve_seedid" by decide),
      Dict.get?_pop_ne _ (show "inventory" ≠ "resolve_seedid" by decide),
      Dict.get?_pop_ne _ (show "filter_inventory" ≠ "resolve_seedid" by decide),
      Dict.get?_pop_ne _ (show "events" ≠ "resolve_seedid" by decide),
      Dict.get?_pop_ne _ (show "resolve_seedid" ≠ "read_events_kwargs" by decide),
      Dict.get?_pop_ne _ (show "filter_events" ≠ "read_events_kwargs" by decide),
      Dict.get?_pop_ne _ (show "inventory" ≠ "read_events_kwargs" by decide),
      Dict.get?_pop_ne _ (show "filter_inventory" ≠ "read_events_kwargs" by decide),
      Dict.get?_pop_ne _ (show "events" ≠ "read_events_kwargs" by decide)] using hevs
  · have key : ∀ k ∈ ["data", "client_options", "plugin", "cache_waveforms"],
        ∀ p ∈ ["inventory", "filter_inventory", "events", "filter_events", "resolve_seedid",
          "read_events_kwargs"], p ≠ k := by decide
    have k2 : ∀ (a : Args), ∀ k ∈ ["data", "client_options", "plugin", "cache_waveforms"],
        ((((((a.pop "inventory").pop "filter_inventory").pop "events").pop "filter_events").pop
          "resolve_seedid").pop "read_events_kwargs").get? k = a.get? k := by
      intro a k hk
      rw [Dict.get?_pop_ne _ (key k hk _ (by simp)), Dict.get?_pop_ne _ (key k hk _ (by simp)),
        Dict.get?_pop_ne _ (key k hk _ (by simp)), Dict.get?_pop_ne _ (key k hk _ (by simp)),
        Dict.get?_pop_ne _ (key k hk _ (by simp)), Dict.get?_pop_ne _ (key k hk _ (by simp))]
    rw [k2 _ _ (by simp), Dict.get?_pop_ne _ (show "data" ≠ "client_options" by decide),
      k2 _ _ (by simp), Dict.get?_pop_ne _ (show "client_options" ≠ "plugin" by decide),
      Dict.get?_pop_ne _ (show "data" ≠ "plugin" by decide),
      k2 _ _ (by simp), Dict.get?_pop_ne _ (show "plugin" ≠ "cache_waveforms" by decide),
      Dict.get?_pop_ne _ (show "client_options" ≠ "cache_waveforms" by decide),
      Dict.get?_pop_ne _ (show "data" ≠ "cache_waveforms" by decide), k2 _ _ (by simp)] at hgw
    exact hgw

theorem alignOptions_args {align : Bool} {args kw a : Args}
    (h : alignOptions align args = .ok (kw, a)) :
    a = if align then popAll args alignKeys else args := by
  unfold alignOptions at h
  split_ifs at h with ha
  · simp only [popD] at h
    obtain ⟨st, -, h⟩ := bind_ok.1 h
    simp only [pure, Except.pure, Except.ok.injEq, Prod.mk.injEq] at h
    rw [if_pos ha, ← h.2]
    rfl
  · simp only [pure, Except.pure, Except.ok.injEq, Prod.mk.injEq] at h
    rw [if_neg ha, h.2]

theorem loadResults_args {env : Env} {args a : Args} {name : String} {r : J}
    (h : loadResults env args name = .ok (r, a)) : a = args.pop name := by
  unfold loadResults at h
  split at h
  · simp at h
  · rename_i heq
    obtain ⟨_, -, h⟩ := bind_ok.1 h
    simp only [pure, Except.pure, Except.ok.injEq, Prod.mk.injEq] at h
    rw [← h.2]
    exact (congrArg Prod.snd heq).symm
  · rename_i heq
    simp only [Except.ok.injEq, Prod.mk.injEq] at h
    rw [← h.2]
    exact (congrArg Prod.snd heq).symm

theorem inputOf_args {env : Env} {cmd : String} {args a : Args} {r : Option J}
    (h : inputOf env cmd args = .ok (r, a)) :
    (∀ k, k ≠ "input" → a.get? k = args.get? k) ∧ (args.WF → a.WF) := by
  unfold inputOf at h
  split_ifs at h with hc
  · obtain ⟨⟨r', a'⟩, h1, h⟩ := bind_ok.1 h
    simp only [pure, Except.pure, Except.ok.injEq, Prod.mk.injEq] at h
    rw [← h.2, loadResults_args h1]
    exact ⟨fun k hk => Dict.get?_pop_ne _ (Ne.symm hk), fun hw => Dict.WF_pop hw _⟩
  · simp only [pure, Except.pure, Except.ok.injEq, Prod.mk.injEq] at h
    rw [← h.2]
    exact ⟨fun _ _ => rfl, id⟩

theorem inputSites_args {env : Env} {cmd : String} {args a : Args} {r r' : Option J}
    (h : inputSites env cmd r args = .ok (r', a)) :
    (∀ k, k ≠ "input_sites" → a.get? k = args.get? k) ∧ (args.WF → a.WF) := by
  unfold inputSites at h
  split at h
  · split_ifs at h with hc
    · obtain ⟨⟨s, a'⟩, h1, h⟩ := bind_ok.1 h
      obtain ⟨_, -, h⟩ := bind_ok.1 h
      simp only [pure, Except.pure, Except.ok.injEq, Prod.mk.injEq] at h
      rw [← h.2, loadResults_args h1]
      exact ⟨fun k hk => Dict.get?_pop_ne _ (Ne.symm hk), fun hw => Dict.WF_pop hw _⟩
    · simp only [pure, Except.pure, Except.ok.injEq, Prod.mk.injEq] at h
      rw [← h.2]
      exact ⟨fun _ _ => rfl, id⟩
  · simp only [pure, Except.pure, Except.ok.injEq, Prod.mk.injEq] at h
    rw [← h.2]
    exact ⟨fun _ _ => rfl, id⟩

theorem withInput_get? (cmd : String) (r : Option J) (args : Args) {k : String} (hk : k ≠ "input") :
    (withInput cmd r args).get? k = args.get? k := by
  unfold withInput
  split
  · split_ifs
    · exact Dict.get?_set_ne _ _ (Ne.symm hk)
    · rfl
  · rfl

theorem addLoaded_get? (ld : Loaded) (events : Option (List J)) (args : Args) (k : String) :
    (addLoaded ld events args).get? k =
      if k = "events" ∧ events.isSome then events.map J.list
      else if k = "get_waveforms" ∧ events.isSome then some ld.waveforms
      else if k = "inventory" ∧ ld.inventory.isSome then ld.inventory
      else args.get? k := by
  unfold addLoaded
  cases events <;> cases ld.inventory <;>
    simp only [Option.isSome_none, Option.isSome_some, and_false, and_true, Bool.false_eq_true,
      if_false, Option.map_some]
  · by_cases h : k = "inventory"
    · rw [if_pos h, h, Dict.get?_set_self]
    · rw [if_neg h, Dict.get?_set_ne _ _ (Ne.symm h)]
  · by_cases h : k = "events"
    · rw [if_pos h, h, Dict.get?_set_self]
    · rw [if_neg h, Dict.get?_set_ne _ _ (Ne.symm h)]
      by_cases h2 : k = "get_waveforms"
      · rw [if_pos h2, h2, Dict.get?_set_self]
      · rw [if_neg h2, Dict.get?_set_ne _ _ (Ne.symm h2)]
  · by_cases h : k = "events"
    · rw [if_pos h, h, Dict.get?_set_self]
    · rw [if_neg h, Dict.get?_set_ne _ _ (Ne.symm h)]
      by_cases h2 : k = "get_waveforms"
      · rw [if_pos h2, h2, Dict.get?_set_self]
      · rw [if_neg h2, Dict.get?_set_ne _ _ (Ne.symm h2)]
        by_cases h3 : k = "inventory"
        · rw [if_pos h3, h3, Dict.get?_set_self]
        · rw [if_neg h3, Dict.get?_set_ne _ _ (Ne.symm h3)]

theorem selectEvents_ok {env : Env} {eventid : Option String} {evs : List J}
    {out : Option (List J)} (h : selectEvents env eventid (some evs) = .ok out) :
    ∃ l, out = some l ∧ ((eventid = none ∨ eventid = some "") → l = evs) ∧
      ∀ id, eventid = some id → id ≠ "" → l ≠ [] ∧
        l = evs.filter (fun ev => decide (env.eventid ev = id)) := by
  unfold selectEvents at h
  split at h
  · simp only [Except.ok.injEq] at h
    exact ⟨evs, h.symm, fun _ => rfl, fun id hid => by simp at hid⟩
  · rename_i id
    split_ifs at h with h0
    · simp only [Except.ok.injEq] at h
      refine ⟨evs, h.symm, fun _ => rfl, fun id' hid hne => ?_⟩
      simp only [Option.some.injEq] at hid
      exact absurd (hid ▸ h0) hne
    · simp only at h
      split at h
      · split_ifs at h
      · rename_i hne
        simp only [Except.ok.injEq] at h
        refine ⟨_, h.symm, ?_, ?_⟩
        · rintro (h | h)
          · simp at h
          · simp only [Option.some.injEq] at h; exact absurd h h0
        · intro id' hid _
          simp only [Option.some.injEq] at hid
          subst hid
          exact ⟨hne, rfl⟩

/-- Keys of the options which are changed between the preparation and the inversion. -/
theorem Stages.get? {env : Env} {c : Call} {pp : Prep} (s : Stages env c pp)
    (hc : c.cmd ≠ "recalc_source") (hw : pp.args.WF) {k : String}
    (hk : k ∉ ["events", "inventory", "get_waveforms", "input", "input_sites"]) :
    s.args.get? k = if k = "align_sites" ∨ k ∈ loadKeys ∨ ((alignValue pp).truthy = true ∧ k ∈ alignKeys)
      then none else pp.args.get? k := by
  simp only [List.mem_cons, List.not_mem_nil, or_false, not_or] at hk
  obtain ⟨k1, k2, k3, k4, k5⟩ := hk
  obtain ⟨hl, -⟩ := load_args hc s.hload
  have hwl : s.ld.args.WF := by rw [hl]; exact WF_popAll (Dict.WF_pop hw _) _
  have ha := alignOptions_args s.halign
  unfold Stages.args
  rw [withInput_get? _ _ _ k4, (inputSites_args s.hsites).1 k k5, (inputOf_args s.hin).1 k k4,
    addLoaded_get?, if_neg (by simp [k1]), if_neg (by simp [k3]), if_neg (by simp [k2]), ha]
  have hbase : s.ld.args.get? k = if k ∈ loadKeys then none else
      if k = "align_sites" then none else pp.args.get? k := by
    rw [hl, get?_popAll (Dict.WF_pop hw _)]
    by_cases h : k ∈ loadKeys
    · rw [if_pos h, if_pos h]
    · rw [if_neg h, if_neg h]
      by_cases h2 : k = "align_sites"
      · rw [if_pos h2, h2, Dict.get?_pop_self hw]
      · rw [if_neg h2, Dict.get?_pop_ne _ (Ne.symm h2)]
  by_cases hal : (alignValue pp).truthy = true
  · rw [if_pos hal, get?_popAll hwl, hbase]
    by_cases h1 : k ∈ alignKeys
    · rw [if_pos h1, if_pos (Or.inr (Or.inr ⟨hal, h1⟩))]
    rw [if_neg h1]
    by_cases h2 : k ∈ loadKeys
    · rw [if_pos h2, if_pos (Or.inr (Or.inl h2))]
    rw [if_neg h2]
    by_cases h3 : k = "align_sites"
    · rw [if_pos h3, if_pos (Or.inl h3)]
    rw [if_neg h3, if_neg (by tauto)]
  · rw [if_neg hal, hbase]
    by_cases h2 : k ∈ loadKeys
    · rw [if_pos h2, if_pos (Or.inr (Or.inl h2))]
    rw [if_neg h2]
    by_cases h3 : k = "align_sites"
    · rw [if_pos h3, if_pos (Or.inl h3)]
    rw [if_neg h3, if_neg (by tauto)]

/-- Inventory, events and data source of the inversion. -/
theorem Stages.loaded {env : Env} {c : Call} {pp : Prep} (s : Stages env c pp)
    (hc : c.cmd ≠ "recalc_source") :
    ∃ inv evs sel, s.ld.inventory = some inv ∧ s.ld.events = some evs ∧ s.events = some sel ∧
      selectEvents env c.eventid (some evs) = .ok (some sel) ∧
      s.args.get? "events" = some (.list sel) ∧ s.args.get? "inventory" = some inv ∧
      s.args.get? "get_waveforms" = some s.ld.waveforms := by
  obtain ⟨-, inv, evs, h1, h2, -⟩ := load_args hc s.hload
  have hs := s.hsel
  rw [h2] at hs
  obtain ⟨sel, h3, -⟩ := selectEvents_ok hs
  have hev : s.events = some sel := h3
  refine ⟨inv, evs, sel, h1, h2, hev, by rw [← hev]; exact hs, ?_, ?_, ?_⟩ <;>
  · unfold Stages.args
    rw [withInput_get? _ _ _ (by decide), (inputSites_args s.hsites).1 _ (by decide),
      (inputOf_args s.hin).1 _ (by decide), addLoaded_get?, hev, h1]
    simp

/-! ## The prepared options -/

/-- Flags of the figures. -/
def plotFlags : List String := plotTargets.map ("plot_" ++ ·)

/-- Flag of a figure after argument `plots`. -/
def plotFlag (plots : J) (v : Option J) : Option J :=
  match plots with
  | .bool b => some (.bool b)
  | _ => v

/-- Options of the figures after `mean` and prefix. -/
def optionValue (mean : Option J) (pre : J) (k : String) (v : Option J) : Option J :=
  let v := match mean with
    | some m => if k ∈ meanKeys then withMean m v else v
    | none => v
  match pre with
  | .str p => if p = "" then v else prefixed p v
  | _ => v

theorem prepare_ok {env : Env} {cmd : String} {plots : J} {args : Args} {pp : Prep}
    (hw : args.WF) (h : (prepare env cmd plots args).out = .ok pp) :
    pp.args.WF ∧ pp.loggingc = (args.get? "logging").getD .null ∧
    pp.verbose = (args.get? "verbose").getD (.num 0) ∧
    pp.loglevel = (args.get? "loglevel").getD (.num 3) ∧
    pp.indent = (args.get? "indent").getD .null ∧
    (∀ k, k ∉ takenKeys → k ≠ "cmd" → k ∉ optionKeys → k ∉ plotFlags →
      pp.args.get? k = args.get? k) ∧
    (∀ k ∈ takenKeys, pp.args.get? k = none) ∧
    pp.args.get? "cmd" = some (.str cmd) ∧
    (∀ k ∈ plotFlags, pp.args.get? k = plotFlag plots (args.get? k)) ∧
    (∀ k ∈ optionKeys, pp.args.get? k =
      optionValue (args.get? "mean") ((args.get? "prefix").getD .null) k (args.get? k)) ∧
    (match args.get? "prefix" with
      | some (.str p) => if p = "" then
          pp.logfile = (args.get? "logfile").getD .null ∧ pp.output = (args.get? "output").getD .null
        else pp.logfile = prefixLog p ((args.get? "logfile").getD .null) ∧
          prefixOutput p ((args.get? "output").getD .null) = .ok pp.output
      | _ => pp.logfile = (args.get? "logfile").getD .null ∧
          pp.output = (args.get? "output").getD .null) := by
  unfold prepare at h
  obtain ⟨a1, h1, h⟩ := bind_out.1 h
  obtain ⟨pp1, h2, h⟩ := bind_out.1 h
  obtain ⟨a2, h3, h⟩ := bind_out.1 h
  simp only [pure_out, Except.ok.injEq] at h
  subst h
  rw [lift_out] at h1 h3
  obtain ⟨m1, m2⟩ := meanDefault_ok h1
  have hw1 := m2 hw
  obtain ⟨p1, p2, p3, p4, p5, p6⟩ := applyPrefix_ok h2
  obtain ⟨v1, v2, v3, v4, v5, v6, v7⟩ := takeOut_vals cmd a1
  obtain ⟨s1, s2, s3⟩ := setPlots_ok h3
  have hwt : (takeOut cmd a1).1.args.WF := by
    rw [takeOut_args]
    exact WF_popAll (Dict.WF_set hw1 _ _) _
  have hm : ∀ k, k ∉ meanKeys → a1.get? k = args.get? k := by
    intro k hk
    rw [m1]
    split
    · rw [if_neg hk]
    · rfl
  rw [hm _ (by decide)] at v1 v2 v3 v4 v5 v6 v7
  have hpre : ∀ k, k ∉ optionKeys → pp1.args.get? k = (takeOut cmd a1).1.args.get? k := by
    intro k hk
    rcases p6 with ⟨-, rfl⟩ | ⟨p, -, -, -, -, h⟩
    · rfl
    · rw [h, if_neg hk]
  have hplt : ∀ k, k ∉ plotFlags → a2.get? k = pp1.args.get? k := by
    intro k hk
    rw [s1]
    split
    · exact if_neg hk
    · rfl
  refine ⟨s2 (p5 hwt), p1.trans v1, p2.trans v2, p3.trans v3, p4.trans v6, ?_, ?_, ?_, ?_, ?_, ?_⟩
  · intro k k1 k2 k3 k4
    change a2.get? k = _
    rw [hplt k k4, hpre k k3, takeOut_get? cmd hw1, if_neg k1, if_neg k2, hm]
    intro hk
    revert k3
    simp only [meanKeys, List.mem_cons, List.not_mem_nil, or_false] at hk
    rcases hk with rfl | rfl <;> decide
  · intro k hk
    have hd : ∀ k ∈ takenKeys, k ∉ plotFlags ∧ k ∉ optionKeys := by decide
    change a2.get? k = _
    rw [hplt k (hd k hk).1, hpre k (hd k hk).2, takeOut_get? cmd hw1, if_pos hk]
  · change a2.get? "cmd" = _
    rw [hplt _ (by decide), hpre _ (by decide), takeOut_get? cmd hw1, if_neg (by decide), if_pos rfl]
  · intro k hk
    have hd : ∀ k ∈ plotFlags, k ∉ takenKeys ∧ k ∉ optionKeys ∧ k ≠ "cmd" ∧ k ∉ meanKeys := by decide
    obtain ⟨d1, d2, d3, d4⟩ := hd k hk
    change a2.get? k = _
    have hb : pp1.args.get? k = args.get? k := by
      rw [hpre k d2, takeOut_get? cmd hw1, if_neg d1, if_neg d3, hm k d4]
    rw [s1]
    cases plots <;> first | exact if_pos hk | exact hb
  · intro k hk
    have hd : ∀ k ∈ optionKeys, k ∉ takenKeys ∧ k ∉ plotFlags ∧ k ≠ "cmd" := by decide
    obtain ⟨d1, d2, d3⟩ := hd k hk
    change a2.get? k = _
    rw [hplt k d2]
    have ht : (takeOut cmd a1).1.args.get? k = (match args.get? "mean" with
        | some m => if k ∈ meanKeys then withMean m (args.get? k) else args.get? k
        | none => args.get? k) := by
      rw [takeOut_get? cmd hw1, if_neg d1, if_neg d3, m1]
    unfold optionValue
    rw [← ht]
    rw [v7] at p6
    rcases p6 with ⟨hf, rfl⟩ | ⟨p, hp, hne, -, -, h⟩
    · generalize (args.get? "prefix").getD .null = pre at hf
      cases pre <;> try rfl
      rename_i p
      have : p = "" := by simpa [J.truthy] using hf
      simp [this]
    · rw [h, if_pos hk]
      simp only [hp]
      rw [if_neg hne]
  · rw [v7] at p6
    rcases p6 with ⟨hf, rfl⟩ | ⟨p, hp, hne, h4, h5, -⟩
    · cases hpre : args.get? "prefix" with
      | none => exact ⟨v4, v5⟩
      | some pre =>
        cases pre <;> try exact ⟨v4, v5⟩
        rename_i p
        have : p = "" := by simpa [J.truthy, hpre] using hf
        simp only [this, if_true]
        exact ⟨v4, v5⟩
    · cases hpre : args.get? "prefix" with
      | none => simp [hpre] at hp
      | some pre =>
        rw [hpre] at hp
        simp only [Option.getD_some] at hp
        subst hp
        simp only [hne, if_false]
        rw [v4] at h4
        rw [v5] at h5
        exact ⟨h4, h5⟩

/-! ## Output -/

theorem bound_ok {r : Option J} {r' : J} : bound r = .ok r' ↔ r = some r' := by
  unfold bound
  cases r <;> simp

/-- The three effects with the result. -/
theorem writeOutput_mem {env : Env} {output indent : J} {r : Option J} {e : Effect}
    (h : e ∈ (writeOutput env output indent r).effects) :
    (∃ p, e = .mkdir p) ∨ (∃ r', e = .stdout r' ∧ r = some r' ∧ output = .str "stdout") ∨
    ∃ f, output = .str f ∧ f ≠ "stdout" ∧ noOutput f = false ∧
      (e = .openW f ∨ ∃ r', r = some r' ∧ e = .dump f r' indent) := by
  unfold writeOutput at h
  split at h
  · simp [pure_effects] at h
  · rename_i f
    split_ifs at h with h1 h2
    · obtain ⟨r', hr, h⟩ := mem_bind_lift.1 h
      simp only [emit_effects, List.mem_singleton] at h
      exact Or.inr (Or.inl ⟨r', h, bound_ok.1 hr, by rw [h1]⟩)
    · simp [pure_effects] at h
    · unfold writeResult at h
      rcases mem_bind.1 h with h | ⟨_, -, h⟩
      · unfold outputDir at h
        split_ifs at h
        · simp [pure_effects] at h
        · simp only [emit_effects, List.mem_singleton] at h
          exact Or.inl ⟨_, h⟩
      refine Or.inr (Or.inr ⟨f, rfl, h1, by simpa using h2, ?_⟩)
      rcases mem_bind.1 h with h | ⟨_, -, h⟩
      · simp only [emit_effects, List.mem_singleton] at h
        exact Or.inl h
      obtain ⟨r', hr, h⟩ := mem_bind_lift.1 h
      simp only [emit_effects, List.mem_singleton] at h
      exact Or.inr ⟨r', bound_ok.1 hr, h⟩
  · simp [lift_effects] at h

/-- All effects of writing, if nothing fails. -/
theorem writeOutput_ok {env : Env} {output indent r : J}
    (h : (writeOutput env output indent (some r)).out = .ok ()) :
    (output = .null ∧ (writeOutput env output indent (some r)).effects = []) ∨
    ∃ f, output = .str f ∧
      ((f = "stdout" ∧ (writeOutput env output indent (some r)).effects = [.stdout r]) ∨
      (f ≠ "stdout" ∧ noOutput f = true ∧ (writeOutput env output indent (some r)).effects = []) ∨
      (f ≠ "stdout" ∧ noOutput f = false ∧ (writeOutput env output indent (some r)).effects =
        (if dirname f = "" then [] else [.mkdir (dirname f)]) ++ [.openW f, .dump f r indent])) := by
  unfold writeOutput at h ⊢
  split at h
  · exact Or.inl ⟨rfl, rfl⟩
  · rename_i f
    refine Or.inr ⟨f, rfl, ?_⟩
    by_cases h1 : f = "stdout"
    · exact Or.inl ⟨h1, by rw [if_pos h1]; rfl⟩
    simp only [h1, if_false] at h ⊢
    by_cases h2 : noOutput f = true
    · exact Or.inr (Or.inl ⟨h1, h2, by rw [if_pos h2]; rfl⟩)
    rw [if_neg h2] at h ⊢
    refine Or.inr (Or.inr ⟨h1, by simpa using h2, ?_⟩)
    unfold writeResult at h ⊢
    obtain ⟨_, g1, h⟩ := bind_out.1 h
    obtain ⟨_, g2, h⟩ := bind_out.1 h
    rw [bind_effects_of_ok g1, bind_effects_of_ok g2]
    unfold outputDir
    by_cases h3 : dirname f = ""
    · rw [if_pos h3, if_pos h3]
      rfl
    · rw [if_neg h3, if_neg h3]
      rfl
  · simp [lift_out] at h

theorem rest_out {env : Env} {c : Call} {pp : Prep} {s : Stages env c pp} {r : J}
    (h : s.rest.out = .ok r) :
    ∃ r0, (resultOf env c.cmd (alignValue pp) s.rin s.args).out = .ok r0 ∧
      (postProcess env c.cmd (alignValue pp).truthy c.eventid s.kw s.args r0).out = .ok (some r) ∧
      (writeOutput env pp.output pp.indent (some r)).out = .ok () ∧
      (printMags c.printMag (some r)).out = .ok () ∧
      s.rest.effects = (resultOf env c.cmd (alignValue pp) s.rin s.args).effects ++
        ((postProcess env c.cmd (alignValue pp).truthy c.eventid s.kw s.args r0).effects ++
        ((writeOutput env pp.output pp.indent (some r)).effects ++
          (printMags c.printMag (some r)).effects)) := by
  unfold Stages.rest at h ⊢
  obtain ⟨r0, h0, h⟩ := bind_out.1 h
  obtain ⟨r1, h1, h⟩ := bind_out.1 h
  obtain ⟨u, h2, h⟩ := bind_out.1 h
  obtain ⟨v, h3, h⟩ := bind_out.1 h
  rw [lift_out, bound_ok] at h
  subst h
  refine ⟨r0, h0, h1, h2, h3, ?_⟩
  rw [bind_effects_of_ok h0, bind_effects_of_ok h1, bind_effects_of_ok h2, bind_effects_of_ok h3,
    lift_effects, List.append_nil]

theorem run_out {env : Env} {c : Call} {r : J} (h : (run env c).out = .ok r) :
    c.cmd ∈ commands ∧
    ((c.cmd = "create" ∧ r = .null ∧ (run env c).effects =
      (create (normConf c.conf) c.tutorial).map (fun p => .copy p.1 p.2)) ∨
    (c.cmd ≠ "create" ∧ loadConf env (normConf c.conf) c.args = .ok none ∧ r = .null ∧
      (run env c).effects = [.message]) ∨
    (c.cmd ≠ "create" ∧ ∃ merged pp, loadConf env (normConf c.conf) c.args = .ok (some merged) ∧
      (prepare env c.cmd c.plots merged).out = .ok pp ∧
      ((c.cmd = "plot" ∧ (plotCmd env (normConf c.conf).isSome c.eventid pp.args).out = .ok r ∧
        (run env c).effects = (prepare env c.cmd c.plots merged).effects ++
          (plotCmd env (normConf c.conf).isSome c.eventid pp.args).effects) ∨
      (c.cmd ≠ "plot" ∧ (mainCmd env c.cmd c.eventid c.waveforms c.printMag pp).out = .ok r ∧
        (run env c).effects = (prepare env c.cmd c.plots merged).effects ++
          (mainCmd env c.cmd c.eventid c.waveforms c.printMag pp).effects)))) := by
  unfold run at h ⊢
  by_cases h1 : c.cmd ∈ commands
  · rw [if_pos h1] at h ⊢
    refine ⟨h1, ?_⟩
    by_cases h2 : c.cmd = "create"
    · rw [if_pos h2] at h ⊢
      simp only [Except.ok.injEq] at h
      exact Or.inl ⟨h2, h.symm, rfl⟩
    · rw [if_neg h2] at h ⊢
      right
      obtain ⟨a, ha, h⟩ := bind_out.1 h
      rw [lift_out] at ha
      rw [bind_lift_ok ha]
      cases a with
      | none =>
        simp only [emit_out, Except.ok.injEq] at h
        exact Or.inl ⟨h2, ha, h.symm, rfl⟩
      | some merged =>
        right
        refine ⟨h2, merged, ?_⟩
        simp only at h ⊢
        unfold runWith at h ⊢
        obtain ⟨pp, hpp, h⟩ := bind_out.1 h
        refine ⟨pp, ha, hpp, ?_⟩
        rw [bind_effects_of_ok hpp]
        by_cases h3 : c.cmd = "plot"
        · rw [if_pos h3] at h ⊢
          exact Or.inl ⟨h3, h, rfl⟩
        · rw [if_neg h3] at h ⊢
          exact Or.inr ⟨h3, h, rfl⟩
  · rw [if_neg h1] at h
    simp [lift_out] at h

/-- Effects with the result: output file or standard output. -/
def Effect.isResult : Effect → Bool
  | .stdout _ => true
  | .openW _ => true
  | .dump _ _ _ => true
  | _ => false

theorem run_result {env : Env} {c : Call} {e : Effect} (he : e.isResult = true)
    (h : e ∈ (run env c).effects) :
    c.cmd ≠ "plot" ∧ ∃ merged, loadConf env (normConf c.conf) c.args = .ok (some merged) ∧
      ∃ pp, (prepare env c.cmd c.plots merged).out = .ok pp ∧ ∃ s : Stages env c pp, ∃ r0 r,
      (resultOf env c.cmd (alignValue pp) s.rin s.args).out = .ok r0 ∧
      (postProcess env c.cmd (alignValue pp).truthy c.eventid s.kw s.args r0).out = .ok r ∧
      e ∈ (writeOutput env pp.output pp.indent r).effects := by
  rcases run_effects h with ⟨-, h⟩ | ⟨rfl, -⟩ | ⟨-, -, merged, hm, h⟩
  · obtain ⟨_, -, rfl⟩ := List.mem_map.1 h; simp [Effect.isResult] at he
  · simp [Effect.isResult] at he
  rcases runWith_effects h with ⟨p, rfl⟩ | ⟨pp, hpp, ⟨-, h⟩ | ⟨hc, h⟩⟩
  · simp [Effect.isResult] at he
  · obtain ⟨_, _, _, _, _, -, -, -, h⟩ := plotCmd_effects h
    obtain ⟨_, _, _, _, rfl⟩ := plot_draw h
    simp [Effect.isResult] at he
  refine ⟨hc, merged, hm, pp, hpp, ?_⟩
  rcases mainCmd_effects h with ⟨_, rfl, -⟩ | ⟨s, h⟩
  · simp [Effect.isResult] at he
  refine ⟨s, ?_⟩
  rcases rest_effects h with ⟨rfl, -⟩ | ⟨r0, h0, h | ⟨r, h1, h | ⟨-, h⟩⟩⟩
  · simp [Effect.isResult] at he
  · obtain ⟨_, _, _, _, rfl⟩ := postProcess_draw h
    simp [Effect.isResult] at he
  · exact ⟨r0, r, h0, h1, h⟩
  · obtain ⟨-, _, evs, -, -, h⟩ := printMags_effects h
    obtain ⟨_, -, _, -, ⟨-, rfl⟩ | ⟨_, -, rfl⟩⟩ := printAll_effects h <;> simp [Effect.isResult] at he

theorem run_logging {env : Env} {c : Call} {l : LogConf} (h : Effect.logging l ∈ (run env c).effects) :
    c.cmd ≠ "plot" ∧ ∃ merged, loadConf env (normConf c.conf) c.args = .ok (some merged) ∧
      ∃ pp, (prepare env c.cmd c.plots merged).out = .ok pp ∧
      loggingConf pp.loggingc pp.verbose pp.loglevel pp.logfile = .ok l := by
  rcases run_effects h with ⟨-, h⟩ | ⟨h, -⟩ | ⟨-, -, merged, hm, h⟩
  · simp at h
  · simp at h
  rcases runWith_effects h with ⟨p, h⟩ | ⟨pp, hpp, ⟨-, h⟩ | ⟨hc, h⟩⟩
  · simp at h
  · obtain ⟨_, _, _, _, _, -, -, -, h⟩ := plotCmd_effects h
    obtain ⟨_, _, _, _, h⟩ := plot_draw h
    simp at h
  refine ⟨hc, merged, hm, pp, hpp, ?_⟩
  rcases mainCmd_effects h with ⟨l', h, hl⟩ | ⟨s, h⟩
  · simp only [Effect.logging.injEq] at h
    rw [h]
    exact hl
  rcases rest_effects h with ⟨h, -⟩ | ⟨r0, h0, h | ⟨r, h1, h | ⟨-, h⟩⟩⟩
  · simp at h
  · obtain ⟨_, _, _, _, h⟩ := postProcess_draw h
    simp at h
  · exact absurd (writeOutput_effects h) (by simp [Effect.isWrite])
  · obtain ⟨-, _, evs, -, -, h⟩ := printMags_effects h
    obtain ⟨_, -, _, -, ⟨-, h⟩ | ⟨_, -, h⟩⟩ := printAll_effects h <;> simp at h

end Qopen.Run
