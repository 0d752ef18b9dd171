import Verif.Props.RunFlow

/-!
# Figures of `run` and the input of results (C88, C89)
-/

namespace Qopen

open Run

/-! ## C88: figures -/

namespace Spec

/-- Name of a figure in the options. -/
def figName : Fig → String
  | .results => "results"
  | .sites => "sites"
  | .sds => "sds"
  | .mags => "mags"
  | .eventresult => "eventresult"
  | .eventsites => "eventsites"

/-- File name without configuration. -/
def figDefault : Fig → String
  | .results => "results.pdf"
  | .sites => "sites.pdf"
  | .sds => "sds.pdf"
  | .mags => "mags.pdf"
  | .eventresult => "eventresult_{evid}.pdf"
  | .eventsites => "eventsites_{evid}.pdf"

/-- The figure is requested: by argument `plots` of the call or else by its own option. -/
def Requested (c : Call) (conf : Args) (fig : Fig) : Prop :=
  c.plots = .bool true ∨
    c.plots = .null ∧ ∃ v, option c conf ("plot_" ++ figName fig) = some v ∧ On v

/-- File name of a figure: the configured one with prefix, or the default name. -/
def FileName (c : Call) (conf : Args) (fig : Fig) (f : String) : Prop :=
  (∃ d n, option c conf ("plot_" ++ figName fig ++ "_options") = some (.dict d) ∧
    Dict.get? d "fname" = some (.str n) ∧ f = prefixOf c conf ++ n) ∨
  ((∀ d, option c conf ("plot_" ++ figName fig ++ "_options") = some (.dict d) →
    Dict.get? d "fname" = none) ∧ f = figDefault fig)

end Spec

/-- What a drawn figure tells about the options of `_plot`. -/
theorem plot_figure {env : Env} {result : J} {eventid : Option String} {args : Args} {fig : Fig}
    {x fname : J} {o : Args} (h : Effect.draw fig x fname o ∈ (plot env result eventid args).effects) :
    switchedOn args ("plot_" ++ Spec.figName fig) = true ∧
    (∃ p, figOptions args ("plot_" ++ Spec.figName fig ++ "_options") (Spec.figDefault fig) = .ok p ∧
      o = p.2 ∧ ((eventid = none ∧ fname = p.1) ∨
        ∃ id f f', eventid = some id ∧ p.1 = .str f ∧ env.format f id = .ok f' ∧ fname = .str f')) ∧
    (eventid = none ↔ fig ≠ .eventresult ∧ fig ≠ .eventsites) ∧
    (∀ k, k ≠ "v0" → Spec.entry x k = Spec.entry result k) := by
  obtain ⟨r, rfl, wok, -, h⟩ := plot_effects h
  unfold figures at h
  cases eventid with
  | none =>
    simp only [figuresAll] at h
    have step : ∀ {f : Fig} {w : Bool} {k d : String} {aft : Args → Py Args} {rr : Args},
        Effect.draw fig x fname o ∈
          (figure env f (switchedOn args ("plot_" ++ Spec.figName f) && w) k d aft args rr).effects →
        k = "plot_" ++ Spec.figName f ++ "_options" → d = Spec.figDefault f →
        f ≠ .eventresult → f ≠ .eventsites →
        (∀ k, k ≠ "v0" → Dict.get? rr k = Dict.get? r k) →
        switchedOn args ("plot_" ++ Spec.figName fig) = true ∧
        (∃ p, figOptions args ("plot_" ++ Spec.figName fig ++ "_options") (Spec.figDefault fig) = .ok p ∧
          o = p.2 ∧ (((none : Option String) = none ∧ fname = p.1) ∨
            ∃ id f f', (none : Option String) = some id ∧ p.1 = .str f ∧ env.format f id = .ok f' ∧
              fname = .str f')) ∧
        ((none : Option String) = none ↔ fig ≠ .eventresult ∧ fig ≠ .eventsites) ∧
        (∀ k, k ≠ "v0" → Spec.entry x k = Spec.entry (.dict r) k) := by
      intro f w k d aft rr h hk hd n1 n2 hrr
      obtain ⟨hw, p, hp, h⟩ := figure_effects h
      simp only [Effect.draw.injEq] at h
      obtain ⟨rfl, rfl, rfl, rfl⟩ := h
      subst hk hd
      rw [Bool.and_eq_true] at hw
      exact ⟨hw.1, ⟨p, hp, rfl, Or.inl ⟨rfl, rfl⟩⟩, ⟨fun _ => ⟨n1, n2⟩, fun _ => rfl⟩, hrr⟩
    rcases Act.mem_bind.1 h with h | ⟨r1, h1, h⟩
    · exact step (f := .results) h rfl rfl (by decide) (by decide) (fun _ _ => rfl)
    have e1 : ∀ k, k ≠ "v0" → Dict.get? r1 k = Dict.get? r k := by
      intro k hk
      rcases figure_out h1 with ⟨-, g⟩ | ⟨-, g⟩
      · rw [g]
      · unfold afterPlotResults at g
        obtain ⟨e, -, g⟩ := bind_ok.1 g
        obtain ⟨b, -, g⟩ := bind_ok.1 g
        simp only [pure, Except.pure, Except.ok.injEq] at g
        rw [← g]
        split_ifs
        · rfl
        · exact Dict.get?_pop_ne _ (Ne.symm hk)
    rcases Act.mem_bind.1 h with h | ⟨r2, h2, h⟩
    · exact step (f := .sites) h rfl rfl (by decide) (by decide) e1
    have e2 : r2 = r1 := by
      rcases figure_out h2 with ⟨-, h⟩ | ⟨-, h⟩
      · exact h
      · simpa using h.symm
    rw [e2] at h
    rcases Act.mem_bind.1 h with h | ⟨r3, h3, h⟩
    · exact step (f := .sds) h rfl rfl (by decide) (by decide) e1
    have e3 : r3 = r1 := by
      rcases figure_out h3 with ⟨-, h⟩ | ⟨-, h⟩
      · exact h
      · simpa using h.symm
    rw [e3] at h
    exact step (f := .mags) h rfl rfl (by decide) (by decide) e1
  | some evid =>
    simp only [figuresEvent] at h
    rcases Act.mem_bind.1 h with h | ⟨_, -, h⟩
    · obtain ⟨hw, p, f, f', h1, h2, h3, h⟩ := eventFigure_effects h
      simp only [Effect.draw.injEq] at h
      obtain ⟨rfl, rfl, rfl, rfl⟩ := h
      exact ⟨hw, ⟨p, h1, rfl, Or.inr ⟨evid, f, f', rfl, h2, h3, rfl⟩⟩, by simp, fun _ _ => rfl⟩
    rcases Act.mem_bind.1 h with h | ⟨_, -, h⟩
    · obtain ⟨hw, p, f, f', h1, h2, h3, h⟩ := eventFigure_effects h
      simp only [Effect.draw.injEq] at h
      obtain ⟨rfl, rfl, rfl, rfl⟩ := h
      rw [Bool.and_eq_true] at hw
      exact ⟨hw.1, ⟨p, h1, rfl, Or.inr ⟨evid, f, f', rfl, h2, h3, rfl⟩⟩, by simp, fun _ _ => rfl⟩
    · simp [Act.pure_effects] at h

theorem Stages.late {env : Env} {c : Call} {pp : Prep} (s : Stages env c pp) (hw : pp.args.WF)
    {k : String} (hk : k ∉ loadKeys) (hk2 : k ∉ alignKeys) (hk3 : k ≠ "align_sites")
    (hk4 : k ≠ "get_waveforms") (hk5 : k ≠ "input") (hk6 : k ≠ "input_sites") :
    s.args.get? k = pp.args.get? k := by
  unfold Stages.args
  rw [withInput_get? _ _ _ hk5, (inputSites_args s.hsites).1 k hk6, (inputOf_args s.hin).1 k hk5,
    s.before hw hk hk2 hk3 hk4]

/-- **C88**: apart from command `plot`, `run` draws figures only after an alignment of site responses
or for `recalc_source`, only the requested ones, and under the configured name with prefix; figures of
a single event are drawn iff an event is selected, the id is filled into their names. -/
theorem C88_figures {env : Env} {c : Call} {conf : Args} (hf : Spec.Conf env c conf) (hw : conf.WF)
    (hw' : c.args.WF) (hc : c.cmd ≠ "plot") {fig : Fig} {x fname : J} {o : Args}
    (h : Effect.draw fig x fname o ∈ (run env c).effects) :
    (c.cmd = "recalc_source" ∨ Spec.On ((Spec.option c conf "align_sites").getD (.bool false))) ∧
    Spec.Requested c conf fig ∧
    (c.eventid = none ↔ fig ≠ .eventresult ∧ fig ≠ .eventsites) ∧
    (∀ f, fname = .str f → (c.eventid = none ∧ Spec.FileName c conf fig f) ∨
      ∃ id f', c.eventid = some id ∧ Spec.FileName c conf fig f' ∧ env.format f' id = .ok f) := by
  rcases run_effects h with ⟨-, h⟩ | ⟨h, -⟩ | ⟨-, -, merged, hm, h⟩
  · simp at h
  · simp at h
  rcases runWith_effects h with ⟨p, h⟩ | ⟨pp, hpp, ⟨h, -⟩ | ⟨-, h⟩⟩
  · simp at h
  · exact absurd h hc
  obtain ⟨m1, m2⟩ := merged_option hf hw hw' hm
  obtain ⟨p1, -, -, -, -, p2, -, -, p4, p5, -⟩ := prepare_ok m1 hpp
  rcases mainCmd_effects h with ⟨_, h, -⟩ | ⟨s, h⟩
  · simp at h
  rcases rest_effects h with ⟨h, -⟩ | ⟨r0, -, h | ⟨r, -, h | ⟨-, h⟩⟩⟩
  · simp at h
  rotate_left
  · exact absurd (writeOutput_effects h) (by simp [Effect.isWrite])
  · obtain ⟨-, _, evs, -, -, h⟩ := printMags_effects h
    obtain ⟨_, -, _, -, ⟨-, h⟩ | ⟨_, -, h⟩⟩ := printAll_effects h <;> simp at h
  have hav : alignValue pp = (Spec.option c conf "align_sites").getD (.bool false) := by
    unfold alignValue
    rw [p2 _ (by decide) (by decide) (by decide) (by decide), m2]
  -- the options of the figures
  have key : (c.cmd = "recalc_source" ∨ (alignValue pp).truthy = true) ∧
      ∃ (args : Args) (res : J), Effect.draw fig x fname o ∈ (plot env res c.eventid args).effects ∧
      ∀ k, k ∉ ["seismic_moment_method", "seismic_moment_options"] → args.get? k = s.args.get? k := by
    unfold postProcess at h
    split_ifs at h with h1 h2
    · rcases Act.mem_bind.1 h with h | ⟨_, -, h⟩
      · obtain ⟨_, _, r2, -, -, -, -, h⟩ := alignCmd_effects h
        exact ⟨Or.inr h1, s.args, r2, h, fun _ _ => rfl⟩
      · simp [Act.pure_effects] at h
    · rcases Act.mem_bind.1 h with h | ⟨_, -, h⟩
      · obtain ⟨_, _, r2, -, -, -, h⟩ := sourceCmd_effects h
        refine ⟨Or.inl h2, _, r2, h, fun k hk => ?_⟩
        simp only [List.mem_cons, List.not_mem_nil, or_false, not_or] at hk
        simp only [popAll, List.foldl_cons, List.foldl_nil]
        rw [Dict.get?_pop_ne _ (Ne.symm hk.2), Dict.get?_pop_ne _ (Ne.symm hk.1)]
      · simp [Act.pure_effects] at h
    · simp [Act.pure_effects] at h
  rw [hav] at key
  obtain ⟨k1, args, res, k2, k3⟩ := key
  obtain ⟨q1, ⟨p, q2, -, q3⟩, q4, -⟩ := plot_figure k2
  have dk : ∀ fig, ("plot_" ++ Spec.figName fig ++ "_options") ∉
        ["seismic_moment_method", "seismic_moment_options"] ∧
      ("plot_" ++ Spec.figName fig ++ "_options") ∉ loadKeys ∧
      ("plot_" ++ Spec.figName fig ++ "_options") ∉ alignKeys ∧
      ("plot_" ++ Spec.figName fig ++ "_options") ≠ "align_sites" ∧
      ("plot_" ++ Spec.figName fig ++ "_options") ≠ "get_waveforms" ∧
      ("plot_" ++ Spec.figName fig ++ "_options") ≠ "input" ∧
      ("plot_" ++ Spec.figName fig ++ "_options") ≠ "input_sites" ∧
      ("plot_" ++ Spec.figName fig ++ "_options") ∈ optionKeys := by
    intro fig; cases fig <;> decide
  have dl : ∀ fig, ("plot_" ++ Spec.figName fig) ∉
        ["seismic_moment_method", "seismic_moment_options"] ∧
      ("plot_" ++ Spec.figName fig) ∉ loadKeys ∧
      ("plot_" ++ Spec.figName fig) ∉ alignKeys ∧
      ("plot_" ++ Spec.figName fig) ≠ "align_sites" ∧
      ("plot_" ++ Spec.figName fig) ≠ "get_waveforms" ∧
      ("plot_" ++ Spec.figName fig) ≠ "input" ∧
      ("plot_" ++ Spec.figName fig) ≠ "input_sites" ∧
      ("plot_" ++ Spec.figName fig) ∈ plotFlags := by
    intro fig; cases fig <;> decide
  have hflag : args.get? ("plot_" ++ Spec.figName fig) =
      plotFlag c.plots (Spec.option c conf ("plot_" ++ Spec.figName fig)) := by
    obtain ⟨d1, d2, d3, d4, d5, d6, d7, d8⟩ := dl fig
    rw [k3 _ d1, Stages.late s p1 d2 d3 d4 d5 d6 d7, p4 _ d8, m2]
  have hopt : Spec.WithPrefix (Spec.prefixOf c conf)
      (Spec.option c conf ("plot_" ++ Spec.figName fig ++ "_options"))
      (args.get? ("plot_" ++ Spec.figName fig ++ "_options")) := by
    obtain ⟨d1, d2, d3, d4, d5, d6, d7, d8⟩ := dk fig
    rw [k3 _ d1, Stages.late s p1 d2 d3 d4 d5 d6 d7, p5 _ d8, m2, m2, m2]
    have := optionValue_spec (Spec.option c conf "mean") ((Spec.option c conf "prefix").getD .null)
      ("plot_" ++ Spec.figName fig ++ "_options")
      (Spec.option c conf ("plot_" ++ Spec.figName fig ++ "_options"))
    have e : Spec.prefixOf c conf =
        (match (Spec.option c conf "prefix").getD .null with | .str p => p | _ => "") := by
      unfold Spec.prefixOf
      cases Spec.option c conf "prefix" with
      | none => rfl
      | some v => cases v <;> rfl
    rw [e]
    exact this
  have hp : c.plots = .null ∨ ∃ b, c.plots = .bool b := by
    unfold prepare at hpp
    obtain ⟨_, -, hpp⟩ := Act.bind_out.1 hpp
    obtain ⟨_, -, hpp⟩ := Act.bind_out.1 hpp
    obtain ⟨_, hpp, -⟩ := Act.bind_out.1 hpp
    rw [Act.lift_out] at hpp
    unfold setPlots at hpp
    split at hpp
    · rename_i h; exact Or.inl h
    · rename_i b h; exact Or.inr ⟨b, h⟩
    · simp at hpp
  have hname : ∀ f, p.1 = .str f → Spec.FileName c conf fig f := by
    intro f hf
    unfold figOptions at q2
    unfold Spec.WithPrefix at hopt
    unfold Spec.FileName
    cases hv : Spec.option c conf ("plot_" ++ Spec.figName fig ++ "_options") with
    | none =>
      rw [hv] at hopt
      simp only at hopt
      rw [hopt] at q2
      simp only [Except.ok.injEq] at q2
      rw [← q2] at hf
      simp only [J.str.injEq] at hf
      exact Or.inr ⟨by simp, hf.symm⟩
    | some v =>
      rw [hv] at hopt
      cases v
      case dict d =>
        obtain ⟨d', w1, -, -, w2, w4, w3⟩ := hopt
        rw [w1] at q2
        simp only [Except.ok.injEq, popD] at q2
        rw [← q2] at hf
        simp only at hf
        cases hn : Dict.get? d "fname" with
        | none =>
          rw [w3 hn] at hf
          simp only [Option.getD_none, J.str.injEq] at hf
          refine Or.inr ⟨fun d1 h => ?_, hf.symm⟩
          simp only [Option.some.injEq, J.dict.injEq] at h
          rw [← h, hn]
        | some n =>
          by_cases hs : ∃ g, n = .str g
          · obtain ⟨g, rfl⟩ := hs
            rw [w2 g hn] at hf
            simp only [Option.getD_some, J.str.injEq] at hf
            exact Or.inl ⟨d, g, rfl, hn, hf.symm⟩
          · push Not at hs
            rw [w4 n hs hn] at hf
            exact absurd hf (hs f)
      all_goals
        simp only at hopt
        rw [hopt] at q2
        simp at q2
  refine ⟨by rw [on_iff]; exact k1, ?_, q4, fun f hf => ?_⟩
  · unfold switchedOn at q1
    rw [hflag] at q1
    unfold Spec.Requested
    rcases hp with hp | ⟨b, hp⟩
    · right
      refine ⟨hp, ?_⟩
      rw [hp] at q1
      unfold plotFlag at q1
      cases hv : Spec.option c conf ("plot_" ++ Spec.figName fig) with
      | none => rw [hv] at q1; simp [J.truthy] at q1
      | some v => rw [hv] at q1; exact ⟨v, rfl, (on_iff v).2 q1⟩
    · left
      rw [hp] at q1 ⊢
      unfold plotFlag at q1
      simp only [Option.getD_some, J.truthy] at q1
      rw [q1]
  · rcases q3 with ⟨e1, e2⟩ | ⟨id, f0, f1, e1, e2, e3, e4⟩
    · exact Or.inl ⟨e1, hname f (by rw [← e2, hf])⟩
    · rw [hf] at e4
      simp only [J.str.injEq] at e4
      subst e4
      exact Or.inr ⟨id, f0, e1, hname f0 e2, e3⟩


namespace Spec

/-- The result contains what the figure shows: optimised parameters, site responses, source spectra. -/
def Shows (r : J) : Fig → Prop
  | .results => (entry r "g0").isSome = true
  | .sites => (entry r "R").isSome = true
  | .eventsites => (entry r "R").isSome = true
  | .eventresult => True
  | .sds => (entry r "W").isSome = true ∨
      ∃ evs id e, entry r "events" = some (.dict evs) ∧ (id, e) ∈ evs ∧ (entry e "W").isSome = true
  | .mags => (entry r "W").isSome = true ∨
      ∃ evs id e, entry r "events" = some (.dict evs) ∧ (id, e) ∈ evs ∧ (entry e "W").isSome = true

end Spec

theorem anyW_ok {l : List J} {b : Bool} (h : anyW l = .ok b)
    {e : J} (he : e ∈ l) (hw : (Spec.entry e "W").isSome = true) : b = true := by
  induction l with
  | nil => simp at he
  | cons a l ih =>
    unfold anyW at h
    obtain ⟨b', h1, h⟩ := bind_ok.1 h
    split_ifs at h with hb
    · simpa [pure, Except.pure] using h.symm
    · rcases List.mem_cons.1 he with rfl | he
      · cases e <;> simp [Spec.entry] at hw
        rw [hasKey_dict h1] at hb
        exact absurd hw hb
      · exact ih h he

theorem hasSpectra_ok {r : Args} {wok : Bool} (h : hasSpectra r = .ok wok)
    (hs : Spec.Shows (.dict r) .sds) : wok = true := by
  unfold hasSpectra at h
  obtain ⟨evs, h1, h⟩ := bind_ok.1 h
  obtain ⟨b, h2, h⟩ := bind_ok.1 h
  simp only [pure, Except.pure, Except.ok.injEq] at h
  rw [← h, Bool.or_eq_true]
  rcases hs with hs | ⟨evs', id, e, g1, g2, g3⟩
  · exact Or.inr hs
  · left
    have g1 : r.get? "events" = some (.dict evs') := g1
    unfold eventsOf at h1
    rw [g1] at h1
    simp only [Except.ok.injEq] at h1
    subst h1
    exact anyW_ok h2 (List.mem_map.2 ⟨_, g2, rfl⟩) g3

theorem figure_drawn {env : Env} {fig : Fig} {wanted : Bool} {key default : String}
    {after : Args → Py Args} {args result r : Args} (hw : wanted = true)
    (h : (figure env fig wanted key default after args result).out = .ok r) :
    ∃ f o, Effect.draw fig (.dict result) f o ∈
      (figure env fig wanted key default after args result).effects := by
  unfold figure at h ⊢
  rw [if_pos hw] at h ⊢
  obtain ⟨o, ho, h⟩ := Act.bind_out.1 h
  obtain ⟨r', hr, h⟩ := Act.bind_out.1 h
  refine ⟨o.1, o.2, ?_⟩
  rw [Act.lift_out] at ho hr
  rw [Act.bind_lift_ok ho, Act.bind_lift_ok hr]
  exact Act.mem_bind.2 (Or.inl (by simp [Act.emit_effects]))

theorem eventFigure_drawn {env : Env} {fig : Fig} {wanted : Bool} {key default evid : String}
    {args result : Args} (hw : wanted = true)
    (h : (eventFigure env fig wanted key default evid args result).out = .ok ()) :
    ∃ f o, Effect.draw fig (.dict result) f o ∈
      (eventFigure env fig wanted key default evid args result).effects := by
  unfold eventFigure at h ⊢
  rw [if_pos hw] at h ⊢
  obtain ⟨o, ho, h⟩ := Act.bind_out.1 h
  rw [Act.lift_out] at ho
  rw [Act.bind_lift_ok ho]
  split at h
  · rename_i f hf
    obtain ⟨f', hf', h⟩ := Act.bind_out.1 h
    rw [Act.lift_out] at hf'
    rw [Act.bind_lift_ok hf']
    exact ⟨.str f', o.2, by simp [Act.emit_effects]⟩
  · simp [Act.lift_out] at h

/-- Figures of a result which are drawn, and the result afterwards. -/
theorem plot_done {env : Env} {result r : J} {eventid : Option String} {args : Args}
    (h : (plot env result eventid args).out = .ok r) :
    (∀ k, k ≠ "v0" → Spec.entry r k = Spec.entry result k) ∧
    (r ≠ result → eventid = none ∧ switchedOn args "plot_results" = true ∧
      ∃ evs id e rest, Spec.entry result "events" = some (.dict evs) ∧ evs = (id, e) :: rest ∧
        Spec.entry e "g0" = none) ∧
    ∀ fig, (eventid = none ↔ fig ≠ .eventresult ∧ fig ≠ .eventsites) → Spec.Shows r fig →
      switchedOn args ("plot_" ++ Spec.figName fig) = true →
      ∃ x f o, Effect.draw fig x f o ∈ (plot env result eventid args).effects := by
  unfold plot at h ⊢
  split_ifs at h
  · simp [Act.lift_out] at h
  rename_i hcond
  rw [if_neg hcond]
  cases result <;> simp only [Act.lift_out, reduceCtorEq] at h
  rename_i res
  simp only
  obtain ⟨wok, hwok, h⟩ := Act.bind_out.1 h
  obtain ⟨r', hr', h⟩ := Act.bind_out.1 h
  simp only [Act.pure_out, Except.ok.injEq] at h
  subst h
  rw [Act.lift_out] at hwok
  rw [Act.bind_lift_ok hwok, Act.bind_effects_of_ok hr', Act.pure_effects, List.append_nil]
  unfold figures at hr' ⊢
  cases eventid with
  | none =>
    simp only at hr' ⊢
    have hall := figuresAll_out hr'
    have hsame : ∀ k, k ≠ "v0" → Dict.get? r' k = Dict.get? res k := by
      intro k hk
      rcases figure_out hall with ⟨-, g⟩ | ⟨-, g⟩
      · rw [g]
      · unfold afterPlotResults at g
        obtain ⟨e, -, g⟩ := bind_ok.1 g
        obtain ⟨b, -, g⟩ := bind_ok.1 g
        simp only [pure, Except.pure, Except.ok.injEq] at g
        rw [← g]
        split_ifs
        · rfl
        · exact Dict.get?_pop_ne _ (Ne.symm hk)
    refine ⟨hsame, fun hne => ?_, fun fig hfig hshow hon => ?_⟩
    · rcases figure_out hall with ⟨-, g⟩ | ⟨w, g⟩
      · exact absurd (by rw [g]) hne
      · rw [Bool.and_eq_true] at w
        refine ⟨trivial, w.1, ?_⟩
        unfold afterPlotResults at g
        obtain ⟨e, g1, g⟩ := bind_ok.1 g
        obtain ⟨b, g2, g⟩ := bind_ok.1 g
        simp only [pure, Except.pure, Except.ok.injEq] at g
        cases b with
        | true => simp only [if_true] at g; exact absurd (by rw [g]) hne
        | false =>
          unfold firstEvent at g1
          split at g1
          · simp at g1
          · rename_i id e' rest heq
            simp only [Except.ok.injEq] at g1
            subst g1
            refine ⟨_, id, e', rest, heq, rfl, ?_⟩
            cases e' <;> try rfl
            have := hasKey_dict g2
            simpa [Spec.entry] using this.symm
          · simp at g1
          · simp at g1
    · -- the figures
      have hshow' : Spec.Shows (.dict res) fig := by
        have hg : ∀ k, k ≠ "v0" → Spec.entry (.dict r') k = Spec.entry (.dict res) k := hsame
        cases fig <;> simp only [Spec.Shows] at hshow ⊢ <;>
          simpa only [hg "g0" (by decide), hg "R" (by decide), hg "W" (by decide),
            hg "events" (by decide)] using hshow
      unfold figuresAll at hr' ⊢
      obtain ⟨r1, h1, hr'⟩ := Act.bind_out.1 hr'
      obtain ⟨r2, h2, hr'⟩ := Act.bind_out.1 hr'
      obtain ⟨r3, h3, hr'⟩ := Act.bind_out.1 hr'
      have e1 : ∀ k, k ≠ "v0" → Dict.get? r1 k = Dict.get? res k := by
        intro k hk
        rcases figure_out h1 with ⟨-, g⟩ | ⟨-, g⟩
        · rw [g]
        · unfold afterPlotResults at g
          obtain ⟨e, -, g⟩ := bind_ok.1 g
          obtain ⟨b, -, g⟩ := bind_ok.1 g
          simp only [pure, Except.pure, Except.ok.injEq] at g
          rw [← g]
          split_ifs
          · rfl
          · exact Dict.get?_pop_ne _ (Ne.symm hk)
      rw [Act.bind_effects_of_ok h1, Act.bind_effects_of_ok h2, Act.bind_effects_of_ok h3]
      simp only [List.mem_append]
      cases fig
      case results =>
        obtain ⟨f, o, g⟩ := figure_drawn (by rw [Bool.and_eq_true]; exact ⟨hon, hshow'⟩) h1
        exact ⟨_, f, o, Or.inl g⟩
      case sites =>
        obtain ⟨f, o, g⟩ := figure_drawn
          (by rw [Bool.and_eq_true, e1 _ (by decide)]; exact ⟨hon, hshow'⟩) h2
        exact ⟨_, f, o, Or.inr (Or.inl g)⟩
      case sds =>
        obtain ⟨f, o, g⟩ := figure_drawn
          (by rw [Bool.and_eq_true]; exact ⟨hon, hasSpectra_ok hwok hshow'⟩) h3
        exact ⟨_, f, o, Or.inr (Or.inr (Or.inl g))⟩
      case mags =>
        obtain ⟨f, o, g⟩ := figure_drawn
          (by rw [Bool.and_eq_true]; exact ⟨hon, hasSpectra_ok hwok hshow'⟩) hr'
        exact ⟨_, f, o, Or.inr (Or.inr (Or.inr g))⟩
      case eventresult => exact absurd rfl (hfig.1 trivial).1
      case eventsites => exact absurd rfl (hfig.1 trivial).2
  | some evid =>
    simp only at hr' ⊢
    unfold figuresEvent at hr' ⊢
    obtain ⟨_, h1, hr'⟩ := Act.bind_out.1 hr'
    obtain ⟨_, h2, hr'⟩ := Act.bind_out.1 hr'
    simp only [Act.pure_out, Except.ok.injEq] at hr'
    subst hr'
    refine ⟨fun _ _ => rfl, fun h => absurd rfl h, fun fig hfig hshow hon => ?_⟩
    rw [Act.bind_effects_of_ok h1, Act.bind_effects_of_ok h2]
    simp only [List.mem_append]
    have hcase : fig = .eventresult ∨ fig = .eventsites := by
      by_contra hc
      push Not at hc
      exact absurd (hfig.2 hc) (by simp)
    rcases hcase with rfl | rfl
    · obtain ⟨f, o, g⟩ := eventFigure_drawn hon h1
      exact ⟨_, f, o, Or.inl g⟩
    · obtain ⟨f, o, g⟩ := eventFigure_drawn (by rw [Bool.and_eq_true]; exact ⟨hon, hshow⟩) h2
      exact ⟨_, f, o, Or.inr (Or.inl g)⟩

/-- **C88**: if site responses are aligned or source parameters recalculated, all requested figures are
drawn for which the result has data. -/
theorem C88_drawn {env : Env} {c : Call} {conf : Args} (hf : Spec.Conf env c conf) (hw : conf.WF)
    (hw' : c.args.WF) (hc : c.cmd ≠ "plot") {r : J} (h : (run env c).out = .ok r) (hr : r ≠ .null)
    (ha : c.cmd = "recalc_source" ∨
      Spec.On ((Spec.option c conf "align_sites").getD (.bool false)))
    {fig : Fig} (hreq : Spec.Requested c conf fig)
    (hev : c.eventid = none ↔ fig ≠ .eventresult ∧ fig ≠ .eventsites) (hs : Spec.Shows r fig) :
    ∃ x f o, Effect.draw fig x f o ∈ (run env c).effects := by
  obtain ⟨-, ⟨-, h, -⟩ | ⟨-, -, h, -⟩ | ⟨-, merged, pp, hm, hpp, ⟨h, -⟩ | ⟨-, h3, h4⟩⟩⟩ := run_out h
  · exact absurd h hr
  · exact absurd h hr
  · exact absurd h hc
  obtain ⟨m1, m2⟩ := merged_option hf hw hw' hm
  obtain ⟨p1, -, -, -, -, p2, -, -, p4, p5, -⟩ := prepare_ok m1 hpp
  obtain ⟨l, hl, ⟨-, hrn, -⟩ | ⟨s, hs1, hs2⟩⟩ := mainCmd_out h3
  · exact absurd hrn hr
  have hav : alignValue pp = (Spec.option c conf "align_sites").getD (.bool false) := by
    unfold alignValue
    rw [p2 _ (by decide) (by decide) (by decide) (by decide), m2]
  rw [← hav, on_iff] at ha
  obtain ⟨r0, g0, g1, g2, g3, g4⟩ := rest_out hs1
  have dl : ∀ fig, ("plot_" ++ Spec.figName fig) ∉
        ["seismic_moment_method", "seismic_moment_options"] ∧
      ("plot_" ++ Spec.figName fig) ∉ loadKeys ∧
      ("plot_" ++ Spec.figName fig) ∉ alignKeys ∧
      ("plot_" ++ Spec.figName fig) ≠ "align_sites" ∧
      ("plot_" ++ Spec.figName fig) ≠ "get_waveforms" ∧
      ("plot_" ++ Spec.figName fig) ≠ "input" ∧
      ("plot_" ++ Spec.figName fig) ≠ "input_sites" ∧
      ("plot_" ++ Spec.figName fig) ∈ plotFlags := by
    intro fig; cases fig <;> decide
  obtain ⟨d1, d2, d3, d4, d5, d6, d7, d8⟩ := dl fig
  have hon : ∀ args : Args, args.get? ("plot_" ++ Spec.figName fig) =
      s.args.get? ("plot_" ++ Spec.figName fig) →
      switchedOn args ("plot_" ++ Spec.figName fig) = true := by
    intro args hargs
    unfold switchedOn
    rw [hargs, Stages.late s p1 d2 d3 d4 d5 d6 d7, p4 _ d8, m2]
    rcases hreq with hq | ⟨hq, v, hv, ht⟩
    · rw [hq]; rfl
    · rw [hq, hv]; exact (on_iff v).1 ht
  have main : ∃ x f o, Effect.draw fig x f o ∈
      (postProcess env c.cmd (alignValue pp).truthy c.eventid s.kw s.args r0).effects := by
    unfold postProcess at g1 ⊢
    by_cases hat : (alignValue pp).truthy = true
    · rw [if_pos hat] at g1 ⊢
      obtain ⟨r1, u1, g1⟩ := Act.bind_out.1 g1
      simp only [Act.pure_out, Except.ok.injEq, Option.some.injEq] at g1
      subst g1
      rw [Act.bind_effects_of_ok u1, Act.pure_effects, List.append_nil]
      unfold alignCmd at u1 ⊢
      obtain ⟨x1, v1, u1⟩ := Act.bind_out.1 u1
      obtain ⟨x2, v2, u1⟩ := Act.bind_out.1 u1
      obtain ⟨x3, v3, u1⟩ := Act.bind_out.1 u1
      obtain ⟨x4, v4, u1⟩ := Act.bind_out.1 u1
      rw [Act.lift_out] at v1 v2 v3 v4
      rw [Act.bind_lift_ok v1, Act.bind_lift_ok v2, Act.bind_lift_ok v3, Act.bind_lift_ok v4]
      exact (plot_done u1).2.2 fig hev hs (hon _ rfl)
    · rw [if_neg hat] at g1 ⊢
      have hcr : c.cmd = "recalc_source" := by tauto
      rw [if_pos hcr] at g1 ⊢
      obtain ⟨r1, u1, g1⟩ := Act.bind_out.1 g1
      simp only [Act.pure_out, Except.ok.injEq, Option.some.injEq] at g1
      subst g1
      rw [Act.bind_effects_of_ok u1, Act.pure_effects, List.append_nil]
      rw [sourceCmd_eq] at u1 ⊢
      obtain ⟨x1, v1, u1⟩ := Act.bind_out.1 u1
      obtain ⟨x2, v2, u1⟩ := Act.bind_out.1 u1
      obtain ⟨x3, v3, u1⟩ := Act.bind_out.1 u1
      rw [Act.lift_out] at v1 v2 v3
      rw [Act.bind_lift_ok v1, Act.bind_lift_ok v2, Act.bind_lift_ok v3]
      refine (plot_done u1).2.2 fig hev hs (hon _ ?_)
      simp only [List.mem_cons, List.not_mem_nil, or_false, not_or] at d1
      simp only [popAll, List.foldl_cons, List.foldl_nil]
      rw [Dict.get?_pop_ne _ (Ne.symm d1.2), Dict.get?_pop_ne _ (Ne.symm d1.1)]
  obtain ⟨x, f, o, hx⟩ := main
  refine ⟨x, f, o, ?_⟩
  rw [h4, hs2, g4]
  simp only [List.mem_append, List.mem_cons]
  exact Or.inr (Or.inr (Or.inr (Or.inl hx)))

/-- **C88** (the result is not changed by drawing): drawing leaves all entries of the result except
`v0` as they are, and the whole result if events are selected, the figure of results is switched off,
or events have been inverted separately.  Missing, because it is false: `v0` of simultaneous
inversions. -/
theorem C88_unchanged_partial {env : Env} {result r : J} {eventid : Option String} {args : Args}
    (h : (plot env result eventid args).out = .ok r) :
    (∀ k, k ≠ "v0" → Spec.entry r k = Spec.entry result k) ∧
    (eventid ≠ none ∨ switchedOn args "plot_results" = false ∨
      (∀ evs, Spec.entry result "events" = some (.dict evs) → ∀ p ∈ evs, Spec.entry p.2 "g0" ≠ none) →
      r = result) := by
  obtain ⟨h1, h2, -⟩ := plot_done h
  refine ⟨h1, fun hh => ?_⟩
  by_contra hne
  obtain ⟨e1, e2, evs, id, e, rest, e3, e4, e5⟩ := h2 hne
  rcases hh with hh | hh | hh
  · exact hh e1
  · rw [hh] at e2; simp at e2
  · exact hh evs e3 (id, e) (by rw [e4]; simp) e5

namespace FiguresExample

/-- Result of a simultaneous inversion. -/
def env : Env := { exEnv with
  json := fun _ => .ok (.dict [("v0", .num 3), ("g0", .num 1),
    ("events", .dict [("ev1", .dict [("W", .num 5)])])]) }

/-- Recalculation of source parameters with figures. -/
def call (plots : J) : Call :=
  { cmd := "recalc_source", plots := plots
    args := [("input", .str "a.json"), ("logging", .str "x"), ("output", .str "b.json")] }

end FiguresExample

open FiguresExample in
/-- **C88** (counterexample): with figures, the mean velocity is missing in the returned result and in
the output file, without figures it is there. -/
theorem C88_v0_counterexample :
    (∃ r, (run env (call (.bool false))).out = .ok r ∧ Spec.entry r "v0" = some (.num 3)) ∧
    (∃ r, (run env (call (.bool true))).out = .ok r ∧ Spec.entry r "v0" = none ∧
      Effect.dump "b.json" r .null ∈ (run env (call (.bool true))).effects) := by
  refine ⟨⟨_, rfl, rfl⟩, ⟨_, rfl, rfl, ?_⟩⟩
  have : ∃ es r, (run env (call (.bool true))).effects = es ++ [.dump "b.json" r .null] ∧
      (run env (call (.bool true))).out = .ok r :=
    ⟨[_, _, _, _, _], _, rfl, rfl⟩
  obtain ⟨es, r, h1, h2⟩ := this
  rw [h1]
  have h3 := h2
  simp only [List.mem_append, List.mem_singleton]
  right
  have h4 : (run env (call (.bool true))).out = .ok _ := rfl
  rw [h4] at h3
  simp only [Except.ok.injEq] at h3
  rw [h3]

open FiguresExample in
/-- Hypotheses of the theorems about figures are met. -/
example : ∃ x, Effect.draw .sds x (.str "sds.pdf") [] ∈ (run env (call (.bool true))).effects := by
  have : ∃ x a b c d e, (run env (call (.bool true))).effects =
      [a, b, .draw .sds x (.str "sds.pdf") [], c, d, e] := ⟨_, _, _, _, _, _, rfl⟩
  obtain ⟨x, a, b, c, d, e, h⟩ := this
  exact ⟨x, by rw [h]; simp⟩

/-! ## C89: results of a previous run -/

/-- **C89**: commands which need results of a previous run do nothing without them: nothing is
inverted, drawn, written or returned. -/
theorem C89_missing {env : Env} {c : Call} {conf : Args} (hf : Spec.Conf env c conf)
    (hw : conf.WF) (hw' : c.args.WF) (hc : c.cmd ∈ ["fixed", "source", "recalc_source"])
    (hi : Spec.option c conf "input" = none ∨ Spec.option c conf "input" = some .null) :
    (∀ r, (run env c).out = .ok r → r = .null) ∧
    ∀ e ∈ (run env c).effects, e = .message ∨ (∃ p, e = .mkdir p) ∨ ∃ l, e = .logging l := by
  have d : ∀ x ∈ ["fixed", "source", "recalc_source"], x ≠ "create" ∧ x ≠ "plot" := by decide
  obtain ⟨d2, d3⟩ := d c.cmd hc
  have key : ∀ {merged pp}, loadConf env (normConf c.conf) c.args = .ok (some merged) →
      (prepare env c.cmd c.plots merged).out = .ok pp → Stages env c pp → False := by
    intro merged pp hm hpp s
    obtain ⟨m1, m2⟩ := merged_option hf hw hw' hm
    obtain ⟨p1, -, -, -, -, p2, -⟩ := prepare_ok m1 hpp
    have hg : (addLoaded s.ld s.events s.a1).get? "input" = Spec.option c conf "input" := by
      rw [s.before p1 (by decide) (by decide) (by decide) (by decide),
        p2 _ (by decide) (by decide) (by decide) (by decide), m2]
    have hin := s.hin
    unfold inputOf at hin
    rw [if_pos (by simpa using hc)] at hin
    obtain ⟨⟨rin, a2⟩, hin1, -⟩ := bind_ok.1 hin
    obtain ⟨v, hv, hgv⟩ := loadResults_given hin1
    rw [hg] at hv
    rcases hi with hi | hi
    · rw [hi] at hv; simp at hv
    · rw [hi] at hv
      simp only [Option.some.injEq] at hv
      subst hv
      rcases hgv with ⟨f, h, -⟩ | ⟨-, h, -⟩
      · simp at h
      · exact h rfl
  constructor
  · intro r h
    obtain ⟨-, ⟨-, h, -⟩ | ⟨-, -, h, -⟩ | ⟨-, merged, pp, hm, hpp, ⟨h, -⟩ | ⟨-, h3, -⟩⟩⟩ := run_out h
    · exact h
    · exact h
    · exact absurd h d3
    · obtain ⟨l, hl, ⟨-, hr, -⟩ | ⟨s, -⟩⟩ := mainCmd_out h3
      · exact hr
      · exact (key hm hpp s).elim
  · intro e h
    rcases run_effects h with ⟨h, -⟩ | ⟨h, -⟩ | ⟨-, -, merged, hm, h⟩
    · exact absurd h d2
    · exact Or.inl h
    rcases runWith_effects h with h | ⟨pp, hpp, ⟨h, -⟩ | ⟨-, h⟩⟩
    · exact Or.inr (Or.inl h)
    · exact absurd h d3
    · rcases mainCmd_effects h with ⟨l, h, -⟩ | ⟨s, h⟩
      · exact Or.inr (Or.inr ⟨l, h⟩)
      · exact (key hm hpp s).elim

/-- **C89**: so does command `plot`, an exception is raised. -/
theorem C89_plot {env : Env} {c : Call} {conf : Args} (hf : Spec.Conf env c conf)
    (hw : conf.WF) (hw' : c.args.WF) (hc : c.cmd = "plot")
    (hi : Spec.option c conf "input" = none ∨ Spec.option c conf "input" = some .null) :
    (∀ r, (run env c).out ≠ .ok r) ∧ ∀ e ∈ (run env c).effects, ∃ p, e = .mkdir p := by
  have key : ∀ {merged pp}, loadConf env (normConf c.conf) c.args = .ok (some merged) →
      (prepare env c.cmd c.plots merged).out = .ok pp →
      plotCmd env (normConf c.conf).isSome c.eventid pp.args = ⟨[], .error .parseError⟩ := by
    intro merged pp hm hpp
    obtain ⟨m1, m2⟩ := merged_option hf hw hw' hm
    obtain ⟨p1, -, -, -, -, p2, -⟩ := prepare_ok m1 hpp
    have hg : pp.args.get? "input" = Spec.option c conf "input" := by
      rw [p2 _ (by decide) (by decide) (by decide) (by decide), m2]
    have hl : loadResults env pp.args "input" = .error .parseError := by
      unfold loadResults popD
      rw [hg]
      rcases hi with hi | hi <;> rw [hi] <;> rfl
    unfold plotCmd
    rw [hl]
    rfl
  have hno : loadConf env (normConf c.conf) c.args ≠ .ok none := by
    rcases hf with ⟨h1, -⟩ | ⟨f, s, h1, h2, h3⟩
    · rw [h1]; simp [loadConf]
    · rw [h1]; simp [loadConf, h2, h3]
  constructor
  · intro r h
    obtain ⟨-, ⟨h, -⟩ | ⟨-, h, -⟩ | ⟨-, merged, pp, hm, hpp, ⟨-, h, -⟩ | ⟨h, -⟩⟩⟩ := run_out h
    · rw [hc] at h; simp at h
    · exact hno h
    · rw [key hm hpp] at h; simp at h
    · exact h hc
  · intro e h
    rcases run_effects h with ⟨h, -⟩ | ⟨-, h⟩ | ⟨-, -, merged, hm, h⟩
    · rw [hc] at h; simp at h
    · exact absurd h hno
    rcases runWith_effects h with h | ⟨pp, hpp, ⟨-, h⟩ | ⟨h, -⟩⟩
    · exact h
    · rw [key hm hpp] at h; simp at h
    · exact absurd hc h

/-- The exception is `ParseError` for all of these commands, which `run_cmdline` reports. -/
example : ∀ cmd ∈ ["fixed", "source", "recalc_source", "plot"],
    (run exEnv { exCall with cmd := cmd, eventid := none }).out = .error .parseError := by
  intro cmd h
  simp only [List.mem_cons, List.not_mem_nil, or_false] at h
  rcases h with rfl | rfl | rfl | rfl <;> rfl

end Qopen
