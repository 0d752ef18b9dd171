import Verif.Props.RunFigures

/-!
# Alignment and recalculation in a run (C98), options of command `plot` (C99)
-/

namespace Qopen

open Run

/-! ## C98: alignment of site responses and recalculation of source parameters -/

namespace Spec

/-- The station argument of the alignment for the value of option `align_sites_station`: names
separated by commas stand for a list of stations, everything else is passed as it is. -/
inductive Stations : Option J → J → Prop
  | none : Stations none .null
  | single (s : String) : ',' ∉ s.toList → Stations (some (.str s)) (.str s)
  | several (s : String) (l : List String) : 2 ≤ l.length → (∀ x ∈ l, ',' ∉ x.toList) →
      s.toList = [','].intercalate (l.map String.toList) →
      Stations (some (.str s)) (.list (l.map .str))
  | other (v : J) : (∀ s, v ≠ .str s) → Stations (some v) v

/-- The arguments of the alignment which the options stand for. -/
structure AlignArgs (c : Call) (conf : Args) (kw : Args) : Prop where
  names : kw.keys = ["seismic_moment_method", "seismic_moment_options", "station", "response"]
  method : kw.get? "seismic_moment_method" =
    some ((option c conf "seismic_moment_method").getD .null)
  options : kw.get? "seismic_moment_options" =
    some ((option c conf "seismic_moment_options").getD .null)
  station : ∃ st, kw.get? "station" = some st ∧ Stations (option c conf "align_sites_station") st
  response : kw.get? "response" = some ((option c conf "align_sites_value").getD (.num 1))

/-- The arguments for the calculation of source parameters which the options stand for. -/
structure SourceArgs (c : Call) (conf : Args) (kw : Args) : Prop where
  names : kw.keys = ["seismic_moment_method", "seismic_moment_options"]
  method : kw.get? "seismic_moment_method" =
    some ((option c conf "seismic_moment_method").getD .null)
  options : kw.get? "seismic_moment_options" =
    some ((option c conf "seismic_moment_options").getD .null)

/-- The input of the commands `source` and `recalc_source`: the results given by option `input`, with
the site responses given by option `input_sites`. -/
def InputWithSites (env : Env) (c : Call) (conf : Args) (rin : J) : Prop :=
  ∃ v rin0, option c conf "input" = some v ∧ Given env v rin0 ∧
    (option c conf "input_sites" = none → rin = rin0) ∧
    ∀ v', option c conf "input_sites" = some v' → ∃ sites, Given env v' sites ∧
      SitesReplaced rin0 sites rin

/-- Entry of the configuration in a result. -/
def configEntry (r : J) (k : String) : Option J := (entry r "config").bind (fun c => entry c k)

/-- The result `r` is `r'` with the arguments `kw` documented in its configuration (`v0` may have been
removed by drawing figures, see C88). -/
structure Documented (r' r : J) (kw : Args) : Prop where
  entries : ∀ k, k ≠ "config" → k ≠ "v0" → entry r k = entry r' k
  given : ∀ k v, kw.get? k = some v → configEntry r k = some v
  kept : ∀ k, kw.get? k = none → configEntry r k = configEntry r' k

end Spec

theorem splitOn_length {l : List Char} {c : Char} (h : c ∈ l) : 2 ≤ (l.splitOn c).length := by
  have hne := List.splitOn_ne_nil c l
  cases hs : l.splitOn c with
  | nil => exact absurd hs hne
  | cons a r =>
    cases r with
    | cons b r => simp
    | nil =>
      exfalso
      have := List.intercalate_splitOn (xs := l) c
      rw [hs] at this
      simp only [List.intercalate_singleton] at this
      have h2 := not_mem_line (s := l) (l := a) (c := c) (by rw [hs]; simp)
      rw [this] at h2
      exact h2 h

theorem alignStation_spec {o : Option J} {st : J} (h : alignStation (o.getD .null) = .ok st) :
    Spec.Stations o st := by
  cases o with
  | none =>
    simp [alignStation, J.truthy] at h
    subst h
    exact .none
  | some v =>
    simp only [Option.getD_some] at h
    unfold alignStation at h
    cases v with
    | str s =>
      split_ifs at h with ht
      · simp only [Except.ok.injEq] at h
        split_ifs at h with hc
        · subst h
          have hmap : ((s.toList.splitOn ',').map (fun l => J.str (String.ofList l))) =
              (((s.toList.splitOn ',').map String.ofList).map J.str) := by
            rw [List.map_map]; rfl
          rw [hmap]
          refine .several s _ (by simpa using splitOn_length hc) ?_ ?_
          · intro x hx
            obtain ⟨y, hy, rfl⟩ := List.mem_map.1 hx
            rw [String.toList_ofList]
            exact not_mem_line hy
          · rw [List.map_map]
            have : (String.toList ∘ String.ofList) = id := by
              funext x; simp
            rw [this, List.map_id, List.intercalate_splitOn]
        · subst h; exact .single s hc
      · simp only [Except.ok.injEq] at h
        subst h
        have : s = "" := by simpa [J.truthy] using ht
        subst this
        exact .single _ (by simp)
    | list l =>
      have : st = .list l := by split_ifs at h <;> simpa using h.symm
      subst this
      exact .other _ (by simp)
    | dict d =>
      split_ifs at h
      simp only [Except.ok.injEq] at h
      subst h; exact .other _ (by simp)
    | _ =>
      split_ifs at h
      simp only [Except.ok.injEq] at h
      subst h; exact .other _ (by simp)

theorem updateConfig_spec {r r' : J} {kw : Args} (hkw : kw.WF) (h : updateConfig r kw = .ok r') :
    Spec.Documented r r' kw := by
  unfold updateConfig at h
  cases r <;> simp only [reduceCtorEq] at h
  rename_i d
  have main : ∀ c : Args, (∀ k, Dict.get? c k = Spec.configEntry (.dict d) k) →
      r' = .dict (Dict.set d "config" (.dict (Dict.update c kw))) →
      Spec.Documented (.dict d) r' kw := by
    rintro c hc rfl
    have hcfg : ∀ k, Spec.configEntry (.dict (Dict.set d "config" (.dict (Dict.update c kw)))) k =
        (kw.get? k).or (Dict.get? c k) := by
      intro k
      unfold Spec.configEntry Spec.entry
      simp only
      rw [Dict.get?_set_self]
      exact Dict.get?_update _ _ hkw k
    refine ⟨fun k h1 _ => Dict.get?_set_ne _ _ (Ne.symm h1), fun k v hv => ?_, fun k hk => ?_⟩
    · rw [hcfg, hv]; rfl
    · rw [hcfg, hk, hc]; rfl
  cases hg : Dict.get? d "config" with
  | none =>
    rw [hg] at h
    simp only [Except.ok.injEq] at h
    refine main [] (fun k => ?_) h.symm
    simp [Spec.configEntry, Spec.entry, hg]
  | some v =>
    rw [hg] at h
    cases v <;> simp only [reduceCtorEq] at h
    simp only [Except.ok.injEq] at h
    refine main _ (fun k => ?_) h.symm
    simp [Spec.configEntry, Spec.entry, hg]

theorem documented_plot {r0 r1 r2 : J} {kw : Args} (h : Spec.Documented r0 r1 kw)
    (h' : ∀ k, k ≠ "v0" → Spec.entry r2 k = Spec.entry r1 k) : Spec.Documented r0 r2 kw := by
  have hc : ∀ k, Spec.configEntry r2 k = Spec.configEntry r1 k := by
    intro k
    unfold Spec.configEntry
    rw [h' "config" (by decide)]
  exact ⟨fun k h1 h2 => by rw [h' k h2, h.entries k h1 h2], fun k v hv => by rw [hc, h.given k v hv],
    fun k hk => by rw [hc, h.kept k hk]⟩

/-- The input of the commands `source` and `recalc_source`. -/
theorem stages_input {env : Env} {c : Call} {conf merged : Args} {pp : Prep} (m1 : merged.WF)
    (m2 : ∀ k, merged.get? k = Spec.option c conf k)
    (hpp : (prepare env c.cmd c.plots merged).out = .ok pp) (s : Stages env c pp)
    (hc : c.cmd = "source" ∨ c.cmd = "recalc_source") :
    ∃ rin, s.rin = some rin ∧ Spec.InputWithSites env c conf rin := by
  obtain ⟨p1, -, -, -, -, p2, -⟩ := prepare_ok m1 hpp
  have hopt : ∀ k ∈ ["input", "input_sites"], (addLoaded s.ld s.events s.a1).get? k =
      Spec.option c conf k := by
    intro k hk
    have d : ∀ k ∈ ["input", "input_sites"], k ∉ loadKeys ∧ k ∉ alignKeys ∧ k ≠ "align_sites" ∧
      k ≠ "get_waveforms" ∧ k ∉ takenKeys ∧ k ≠ "cmd" ∧ k ∉ optionKeys ∧ k ∉ plotFlags := by decide
    obtain ⟨d1, d2, d3, d4, d5, d6, d7, d8⟩ := d k hk
    rw [s.before p1 d1 d2 d3 d4, p2 k d5 d6 d7 d8, m2]
  have hin := s.hin
  unfold inputOf at hin
  rw [if_pos (Or.inr hc)] at hin
  obtain ⟨⟨rin, a2⟩, hin1, hin⟩ := bind_ok.1 hin
  simp only [pure, Except.pure, Except.ok.injEq, Prod.mk.injEq] at hin
  obtain ⟨hin2, hin3⟩ := hin
  obtain ⟨v, hv, hg⟩ := loadResults_given hin1
  rw [hopt _ (by simp)] at hv
  have ha2 := loadResults_args hin1
  have hsopt : s.a2.get? "input_sites" = Spec.option c conf "input_sites" := by
    rw [← hin3, ha2, Dict.get?_pop_ne _ (by decide), hopt _ (by simp)]
  have hs := s.hsites
  unfold inputSites at hs
  rw [hsopt, ← hin2] at hs
  cases ho : Spec.option c conf "input_sites" with
  | none =>
    rw [ho] at hs
    simp only [pure, Except.pure, Except.ok.injEq, Prod.mk.injEq] at hs
    refine ⟨rin, hs.1.symm, v, rin, hv, hg, fun _ => rfl, fun v' hv' => ?_⟩
    rw [ho] at hv'; simp at hv'
  | some v' =>
    rw [ho] at hs
    simp only [hc, if_true] at hs
    obtain ⟨⟨sites, a3⟩, hs1, hs⟩ := bind_ok.1 hs
    obtain ⟨r, hr, hs⟩ := bind_ok.1 hs
    simp only [pure, Except.pure, Except.ok.injEq, Prod.mk.injEq] at hs
    obtain ⟨v2, hv2, hg2⟩ := loadResults_given hs1
    rw [hsopt, ho] at hv2
    simp only [Option.some.injEq] at hv2
    subst hv2
    refine ⟨r, hs.1.symm, v, rin, hv, hg, fun hn => ?_, fun w hw => ?_⟩
    · rw [ho] at hn; simp at hn
    · rw [ho] at hw
      simp only [Option.some.injEq] at hw
      subst hw
      exact ⟨sites, hg2, C72_sites_partial hr⟩

/-- The arguments of the alignment. -/
theorem stages_align {env : Env} {c : Call} {conf merged : Args} {pp : Prep} (m1 : merged.WF)
    (m2 : ∀ k, merged.get? k = Spec.option c conf k)
    (hpp : (prepare env c.cmd c.plots merged).out = .ok pp) (s : Stages env c pp)
    (ha : (alignValue pp).truthy = true) : Spec.AlignArgs c conf s.kw := by
  obtain ⟨p1, -, -, -, -, p2, -⟩ := prepare_ok m1 hpp
  have hopt : ∀ k ∈ alignKeys, s.ld.args.get? k = Spec.option c conf k := by
    intro k hk
    have d : ∀ k ∈ alignKeys, k ∉ loadKeys ∧ k ≠ "align_sites" ∧ k ∉ takenKeys ∧ k ≠ "cmd" ∧
      k ∉ optionKeys ∧ k ∉ plotFlags := by decide
    obtain ⟨d1, d3, d5, d6, d7, d8⟩ := d k hk
    rw [load_get? s.hload (Dict.WF_pop p1 _) d1, Dict.get?_pop_ne _ (Ne.symm d3),
      p2 k d5 d6 d7 d8, m2]
  have h := s.halign
  unfold alignOptions at h
  rw [if_pos ha] at h
  simp only [popD] at h
  obtain ⟨st, hst, h⟩ := bind_ok.1 h
  simp only [pure, Except.pure, Except.ok.injEq, Prod.mk.injEq] at h
  obtain ⟨h, -⟩ := h
  rw [Dict.get?_pop_ne _ (by decide), Dict.get?_pop_ne _ (by decide), hopt _ (by decide)] at hst
  rw [Dict.get?_pop_ne _ (by decide), Dict.get?_pop_ne _ (by decide), Dict.get?_pop_ne _ (by decide),
    Dict.get?_pop_ne _ (by decide), hopt _ (by decide), hopt _ (by decide), hopt _ (by decide)] at h
  rw [← h]
  exact ⟨rfl, rfl, rfl, ⟨st, rfl, alignStation_spec hst⟩, rfl⟩

/-- **C98** (alignment): a run with alignment of site responses which returns a result has aligned the
result of the inversion (the input for `recalc_source`), with the arguments of the options: several
stations are separated by commas, the site response is 1 by default.  These arguments are documented in
the configuration of the result, the rest of the configuration is kept. -/
theorem C98_aligned {env : Env} {c : Call} {conf : Args} {r : J} (hf : Spec.Conf env c conf)
    (hw : conf.WF) (hw' : c.args.WF) (hc : c.cmd ≠ "plot")
    (ha : Spec.On ((Spec.option c conf "align_sites").getD (.bool false)))
    (h : (run env c).out = .ok r) (hr : r ≠ .null) :
    ∃ r0 r1 kw, Spec.AlignArgs c conf kw ∧ env.align r0 kw = .ok r1 ∧ Spec.Documented r1 r kw ∧
      ((c.cmd ∈ ["go", "fixed", "source"] ∧
        ∃ np a, Effect.invert np a ∈ (run env c).effects ∧ env.invert np a = .ok r0) ∨
       (c.cmd = "recalc_source" ∧ Spec.InputWithSites env c conf r0)) := by
  rw [on_iff] at ha
  obtain ⟨-, ⟨-, h, -⟩ | ⟨-, -, h, -⟩ | ⟨-, merged, pp, hm, hpp, ⟨h, -⟩ | ⟨-, h3, h4⟩⟩⟩ := run_out h
  · exact absurd h hr
  · exact absurd h hr
  · exact absurd h hc
  obtain ⟨m1, m2⟩ := merged_option hf hw hw' hm
  obtain ⟨p1, -, -, -, -, p2, -⟩ := prepare_ok m1 hpp
  have hav : (alignValue pp).truthy = true := by
    unfold alignValue
    rw [p2 _ (by decide) (by decide) (by decide) (by decide), m2]
    exact ha
  obtain ⟨l, hl, ⟨-, hrn, -⟩ | ⟨s, hs, hee⟩⟩ := mainCmd_out h3
  · exact absurd hrn hr
  obtain ⟨r0, g0, g1, -, -, g4⟩ := rest_out hs
  unfold postProcess at g1
  rw [if_pos hav] at g1
  obtain ⟨r', u1, g1⟩ := Act.bind_out.1 g1
  simp only [Act.pure_out, Except.ok.injEq, Option.some.injEq] at g1
  subst g1
  unfold alignCmd at u1
  obtain ⟨x1, v1, u1⟩ := Act.bind_out.1 u1
  obtain ⟨x2, v2, u1⟩ := Act.bind_out.1 u1
  obtain ⟨x3, v3, u1⟩ := Act.bind_out.1 u1
  obtain ⟨x4, v4, u1⟩ := Act.bind_out.1 u1
  rw [Act.lift_out] at v1 v2 v3 v4
  rw [bound_ok] at v1
  have hA := stages_align m1 m2 hpp s hav
  have hkw : s.kw.WF := by
    unfold Dict.WF
    rw [hA.names]
    decide
  refine ⟨x1, x2, s.kw, hA, v2, documented_plot (updateConfig_spec hkw v3) (plot_done u1).1, ?_⟩
  rcases resultOf_ok g0 with ⟨w0, w1, y, w2, w3, -⟩ | ⟨w0, -, w2⟩
  · left
    refine ⟨w0, alignValue pp, s.args, ?_, ?_⟩
    · rw [h4, hee, g4, w1]; simp
    · rw [w2, Option.some.injEq] at v1
      rw [← v1]; exact w3
  · right
    rw [v1] at w2
    split_ifs at w2 with hcr
    obtain ⟨rin, e1, e2⟩ := stages_input m1 m2 hpp s (Or.inr hcr)
    rw [e1, Option.some.injEq] at w2
    rw [w2]
    exact ⟨hcr, e2⟩

/-- **C98** (recalculation): without alignment `recalc_source` recalculates the source parameters of
the input with the method and options given, and documents both in the result. -/
theorem C98_recalculated {env : Env} {c : Call} {conf : Args} {r : J} (hf : Spec.Conf env c conf)
    (hw : conf.WF) (hw' : c.args.WF) (hc : c.cmd = "recalc_source")
    (ha : ¬ Spec.On ((Spec.option c conf "align_sites").getD (.bool false)))
    (h : (run env c).out = .ok r) (hr : r ≠ .null) :
    ∃ r0 r1 kw, Spec.SourceArgs c conf kw ∧ Spec.InputWithSites env c conf r0 ∧
      env.source r0 kw = .ok r1 ∧ Spec.Documented r1 r kw := by
  rw [off_iff] at ha
  have hcp : c.cmd ≠ "plot" := by rw [hc]; decide
  obtain ⟨-, ⟨-, h, -⟩ | ⟨-, -, h, -⟩ | ⟨-, merged, pp, hm, hpp, ⟨h, -⟩ | ⟨-, h3, h4⟩⟩⟩ := run_out h
  · exact absurd h hr
  · exact absurd h hr
  · exact absurd h hcp
  obtain ⟨m1, m2⟩ := merged_option hf hw hw' hm
  obtain ⟨p1, -, -, -, -, p2, -⟩ := prepare_ok m1 hpp
  have hav : (alignValue pp).truthy = false := by
    unfold alignValue
    rw [p2 _ (by decide) (by decide) (by decide) (by decide), m2]
    exact ha
  obtain ⟨l, hl, ⟨-, hrn, -⟩ | ⟨s, hs, hee⟩⟩ := mainCmd_out h3
  · exact absurd hrn hr
  obtain ⟨r0, g0, g1, -, -, g4⟩ := rest_out hs
  unfold postProcess at g1
  rw [if_neg (by simp [hav]), if_pos hc] at g1
  obtain ⟨r', u1, g1⟩ := Act.bind_out.1 g1
  simp only [Act.pure_out, Except.ok.injEq, Option.some.injEq] at g1
  subst g1
  rw [sourceCmd_eq] at u1
  obtain ⟨x1, v1, u1⟩ := Act.bind_out.1 u1
  obtain ⟨x2, v2, u1⟩ := Act.bind_out.1 u1
  obtain ⟨x3, v3, u1⟩ := Act.bind_out.1 u1
  rw [Act.lift_out] at v1 v2 v3
  rw [bound_ok] at v1
  have hopt : ∀ k ∈ ["seismic_moment_method", "seismic_moment_options"],
      s.args.get? k = Spec.option c conf k := by
    intro k hk
    have d : ∀ k ∈ ["seismic_moment_method", "seismic_moment_options"], k ∉ loadKeys ∧
      k ≠ "align_sites" ∧ k ∉ takenKeys ∧ k ≠ "cmd" ∧ k ∉ optionKeys ∧ k ∉ plotFlags ∧
      k ≠ "input" ∧ k ≠ "input_sites" ∧ k ≠ "events" ∧ k ≠ "inventory" ∧ k ≠ "get_waveforms" := by
      decide
    obtain ⟨d1, d3, d5, d6, d7, d8, d9, d10, d11, d12, d13⟩ := d k hk
    unfold Stages.args
    rw [withInput_get? _ _ _ d9, (inputSites_args s.hsites).1 k d10, (inputOf_args s.hin).1 k d9,
      addLoaded_get?, if_neg (by simp [d11]), if_neg (by simp [d13]), if_neg (by simp [d12]),
      alignOptions_args s.halign, if_neg (by simp [hav]),
      load_get? s.hload (Dict.WF_pop p1 _) d1, Dict.get?_pop_ne _ (Ne.symm d3), p2 k d5 d6 d7 d8, m2]
  have hA : Spec.SourceArgs c conf (sourceKw s.args) := by
    refine ⟨rfl, ?_, ?_⟩
    · show some ((s.args.get? "seismic_moment_method").getD .null) = _
      rw [hopt _ (by simp)]
    · show some ((s.args.get? "seismic_moment_options").getD .null) = _
      rw [hopt _ (by simp)]
  have hkw : (sourceKw s.args).WF := by
    unfold Dict.WF
    rw [hA.names]
    decide
  refine ⟨x1, x2, _, hA, ?_, v2, documented_plot (updateConfig_spec hkw v3) (plot_done u1).1⟩
  rcases resultOf_ok g0 with ⟨w0, -⟩ | ⟨w0, -, w2⟩
  · rw [hc] at w0; simp at w0
  · rw [v1, if_pos hc] at w2
    obtain ⟨rin, e1, e2⟩ := stages_input m1 m2 hpp s (Or.inr hc)
    rw [e1, Option.some.injEq] at w2
    rw [w2]
    exact e2

namespace AlignExample

/-- Alignment adds a mark. -/
def env : Env := { exEnv with
  json := fun _ => .ok (.dict [("events", .dict []), ("config", .dict [("njobs", .num 3)])])
  align := fun r kw => match r with
    | .dict d => .ok (.dict (Dict.set d "aligned" (.dict kw)))
    | r => .ok r
  source := fun r _ => match r with
    | .dict d => .ok (.dict (Dict.set d "source" (.num 1)))
    | r => .ok r }

/-- `recalc_source` with alignment for two stations. -/
def call : Call :=
  { cmd := "recalc_source"
    args := [("inventory", .str "stations.xml"), ("logging", .str "x"), ("input", .str "a.json"),
      ("align_sites", .bool true), ("align_sites_station", .str "A.B,C.D")] }

/-- The arguments of the alignment. -/
def kw : Args := [("seismic_moment_method", .null), ("seismic_moment_options", .null),
  ("station", .list [.str "A.B", .str "C.D"]), ("response", .num 1)]

end AlignExample

open AlignExample in
example : Spec.Conf env call [] ∧ call.args.WF ∧
    Spec.On ((Spec.option call [] "align_sites").getD (.bool false)) ∧
    (run env call).out = .ok (.dict [("events", .dict []),
      ("config", .dict (("njobs", .num 3) :: kw)), ("aligned", .dict kw)]) :=
  ⟨Or.inl ⟨rfl, rfl⟩, by unfold Dict.WF; decide, (on_iff _).2 rfl, by with_unfolding_all rfl⟩

open AlignExample in
example : Spec.Conf env { call with args := call.args.pop "align_sites" } [] ∧
    ¬ Spec.On ((Spec.option { call with args := call.args.pop "align_sites" } [] "align_sites").getD
      (.bool false)) ∧
    (run env { call with args := call.args.pop "align_sites" }).out = .ok (.dict [("events", .dict []),
      ("config", .dict [("njobs", .num 3), ("seismic_moment_method", .null),
        ("seismic_moment_options", .null)]), ("source", .num 1)]) :=
  ⟨Or.inl ⟨rfl, rfl⟩, (off_iff _).2 rfl, by with_unfolding_all rfl⟩

/-! ## C99: options of command `plot` -/

namespace Spec

/-- An option of command `plot`: of the call or the configuration file, or else, if no file is given,
of the configuration documented in the results. -/
def plotOption (c : Call) (conf : Args) (rin : J) (k : String) : Option J :=
  match option c conf k with
  | some v => some v
  | none => if normConf c.conf = none then configEntry rin k else none

/-- The figure is requested from command `plot`. -/
def PlotRequested (c : Call) (conf : Args) (rin : J) (fig : Fig) : Prop :=
  c.plots = .bool true ∨
    c.plots = .null ∧ ∃ v, plotOption c conf rin ("plot_" ++ figName fig) = some v ∧ On v

/-- File name of a figure of command `plot`: as for other commands (with prefix) if the call or the
configuration file have options for this figure, otherwise the documented name without prefix. -/
def PlotFileName (c : Call) (conf : Args) (rin : J) (fig : Fig) (f : String) : Prop :=
  match option c conf ("plot_" ++ figName fig ++ "_options") with
  | some _ => FileName c conf fig f
  | none =>
    (∃ d, plotOption c conf rin ("plot_" ++ figName fig ++ "_options") = some (.dict d) ∧
      Dict.get? d "fname" = some (.str f)) ∨
    ((∀ d, plotOption c conf rin ("plot_" ++ figName fig ++ "_options") = some (.dict d) →
      Dict.get? d "fname" = none) ∧ f = figDefault fig)

end Spec

/-- The options of command `plot`. -/
theorem plot_options {env : Env} {c : Call} {conf : Args} (hf : Spec.Conf env c conf) (hw : conf.WF)
    (hw' : c.args.WF) (hc : c.cmd = "plot") {fig : Fig} {x fname : J} {o : Args}
    (h : Effect.draw fig x fname o ∈ (run env c).effects) :
    ∃ (v : J) (r0 r2 a1 : Args), Spec.option c conf "input" = some v ∧
      Spec.Given env v (.dict r0) ∧
      Effect.draw fig x fname o ∈ (plot env (.dict r2) c.eventid a1).effects ∧
      (∀ k, k ≠ "config" → k ≠ "events" → Dict.get? r2 k = Dict.get? r0 k) ∧
      Dict.get? r2 "config" = some (.dict a1) ∧
      (∀ k, k ∉ takenKeys → k ≠ "cmd" → k ∉ optionKeys → k ∉ plotFlags → k ≠ "input" →
        a1.get? k = Spec.plotOption c conf (.dict r0) k) ∧
      (∀ k ∈ plotFlags, a1.get? k = plotFlag c.plots (Spec.plotOption c conf (.dict r0) k)) ∧
      (∀ k ∈ optionKeys, ∀ v, Spec.option c conf k = some v → Spec.WithPrefix (Spec.prefixOf c conf)
        (some v) (a1.get? k)) ∧
      (∀ k ∈ optionKeys, Spec.option c conf k = none →
        a1.get? k = Spec.plotOption c conf (.dict r0) k) := by
  rcases run_effects h with ⟨-, h⟩ | ⟨h, -⟩ | ⟨-, -, merged, hm, h⟩
  · simp at h
  · simp at h
  rcases runWith_effects h with ⟨p, h⟩ | ⟨pp, hpp, ⟨-, h⟩ | ⟨h, -⟩⟩
  · simp at h
  rotate_left
  · exact absurd hc h
  obtain ⟨m1, m2⟩ := merged_option hf hw hw' hm
  obtain ⟨p1, -, -, -, -, p2, -, -, p4, p5, -⟩ := prepare_ok m1 hpp
  obtain ⟨r0, a, r1, a1, r2, h1, h2, h3, h⟩ := plotCmd_effects h
  obtain ⟨v, hv, hg⟩ := loadResults_given h1
  rw [p2 _ (by decide) (by decide) (by decide) (by decide), m2] at hv
  have ha := loadResults_args h1
  have hawf : a.WF := by rw [ha]; exact Dict.WF_pop p1 _
  -- events
  have hr2 : ∀ k, k ≠ "events" → r2.get? k = r1.get? k := by
    intro k hk
    unfold plotEvent at h3
    split at h3
    · simp only [Except.ok.injEq] at h3; rw [h3]
    · split at h3
      · split at h3
        · simp only [Except.ok.injEq] at h3
          rw [← h3, Dict.get?_set_ne _ _ (Ne.symm hk)]
        · simp at h3
      · simp at h3
      · simp at h3
  -- configuration
  have hconf : (∀ k, k ≠ "config" → r1.get? k = Dict.get? r0 k) ∧ r1.get? "config" = some (.dict a1) ∧
      ∀ k, a1.get? k = match a.get? k with
        | some v => some v
        | none => if normConf c.conf = none then Spec.configEntry (.dict r0) k else none := by
    unfold plotConfig at h2
    split_ifs at h2 with hgiven
    · simp only [Except.ok.injEq, Prod.mk.injEq] at h2
      obtain ⟨e1, e2⟩ := h2
      subst e2
      refine ⟨fun k hk => by rw [← e1, Dict.get?_set_ne _ _ (Ne.symm hk)],
        by rw [← e1, Dict.get?_set_self], fun k => ?_⟩
      have hnn : normConf c.conf ≠ none := by
        intro e; rw [e] at hgiven; simp at hgiven
      rw [if_neg hnn]
      cases a.get? k <;> rfl
    · split at h2
      · rename_i cf hcf
        simp only [Except.ok.injEq, Prod.mk.injEq] at h2
        obtain ⟨e1, e2⟩ := h2
        subst e2
        refine ⟨fun k hk => by rw [← e1, Dict.get?_set_ne _ _ (Ne.symm hk)],
          by rw [← e1, Dict.get?_set_self], fun k => ?_⟩
        have hnn : normConf c.conf = none := by simpa using hgiven
        rw [if_pos hnn, Dict.get?_update _ _ hawf]
        have hcf' : Dict.get? r0 "config" = some (.dict cf) := hcf
        have : Spec.configEntry (.dict r0) k = Dict.get? cf k := by
          unfold Spec.configEntry
          simp only [Spec.entry]
          rw [hcf']
          rfl
        rw [this]
        cases a.get? k <;> rfl
      · simp at h2
      · simp at h2
  obtain ⟨c1, c2, c3⟩ := hconf
  have hak : ∀ k, k ≠ "input" → a.get? k = pp.args.get? k := by
    intro k hk
    rw [ha, Dict.get?_pop_ne _ (Ne.symm hk)]
  have dk : ∀ k ∈ optionKeys, k ≠ "input" := by decide
  have dl : ∀ k ∈ plotFlags, k ≠ "input" := by decide
  have hpre : ∀ k ∈ optionKeys, Spec.WithPrefix (Spec.prefixOf c conf) (Spec.option c conf k)
      (pp.args.get? k) := by
    intro k hk
    rw [p5 k hk, m2, m2, m2]
    have := optionValue_spec (Spec.option c conf "mean") ((Spec.option c conf "prefix").getD .null)
      k (Spec.option c conf k)
    have e : Spec.prefixOf c conf =
        (match (Spec.option c conf "prefix").getD .null with | .str p => p | _ => "") := by
      unfold Spec.prefixOf
      cases Spec.option c conf "prefix" with
      | none => rfl
      | some v => cases v <;> rfl
    rw [e]
    exact this
  refine ⟨v, r0, r2, a1, hv, hg, h, fun k k1 k2 => (hr2 k k2).trans (c1 k k1),
    (hr2 _ (by decide)).trans c2, ?_, ?_, ?_, ?_⟩
  · intro k k1 k2 k3 k4 k5
    rw [c3, hak k k5, p2 k k1 k2 k3 k4, m2]
    rfl
  · intro k hk
    rw [c3, hak k (dl k hk), p4 k hk, m2]
    unfold plotFlag Spec.plotOption
    cases c.plots <;> rfl
  · intro k hk v hv
    have h0 := hpre k hk
    rw [hv] at h0
    have hs : ∃ w, pp.args.get? k = some w := by
      unfold Spec.WithPrefix at h0
      split at h0
      · obtain ⟨d', h0, -⟩ := h0; exact ⟨_, h0⟩
      · exact ⟨_, h0⟩
    obtain ⟨w, hw⟩ := hs
    rw [c3, hak k (dk k hk), hw]
    rw [hw] at h0
    exact h0
  · intro k hk hn
    have h0 := hpre k hk
    rw [hn] at h0
    have h0 : pp.args.get? k = none := h0
    rw [c3, hak k (dk k hk), h0]
    unfold Spec.plotOption
    rw [hn]

/-- **C99** (figures and their names): command `plot` draws requested figures of the given results;
options which are neither given in the call nor in a configuration file are those documented in the
results, if there is no configuration file.  File names are the configured ones.  Missing for the full
claim (and false, see below): prefix for the documented file names. -/
theorem C99_figures_partial {env : Env} {c : Call} {conf : Args} (hf : Spec.Conf env c conf)
    (hw : conf.WF) (hw' : c.args.WF) (hc : c.cmd = "plot") {fig : Fig} {x fname : J} {o : Args}
    (h : Effect.draw fig x fname o ∈ (run env c).effects) :
    ∃ v rin, Spec.option c conf "input" = some v ∧ Spec.Given env v rin ∧
      Spec.PlotRequested c conf rin fig ∧
      (c.eventid = none ↔ fig ≠ .eventresult ∧ fig ≠ .eventsites) ∧
      (∀ k, k ≠ "v0" → k ≠ "config" → k ≠ "events" → Spec.entry x k = Spec.entry rin k) ∧
      (∀ k, k ∉ Spec.runOptions → Spec.configEntry x k = Spec.plotOption c conf rin k) ∧
      (∀ f, fname = .str f → (c.eventid = none ∧ Spec.PlotFileName c conf rin fig f) ∨
        ∃ id f', c.eventid = some id ∧ Spec.PlotFileName c conf rin fig f' ∧
          env.format f' id = .ok f) := by
  have hplots : c.plots = .null ∨ ∃ b, c.plots = .bool b := by
    rcases run_effects h with ⟨-, h⟩ | ⟨h, -⟩ | ⟨-, -, merged, hm, h⟩
    · simp at h
    · simp at h
    rcases runWith_effects h with ⟨p, h⟩ | ⟨pp, hpp, -⟩
    · simp at h
    unfold prepare at hpp
    obtain ⟨_, -, hpp⟩ := Act.bind_out.1 hpp
    obtain ⟨_, -, hpp⟩ := Act.bind_out.1 hpp
    obtain ⟨_, hpp, -⟩ := Act.bind_out.1 hpp
    rw [Act.lift_out] at hpp
    unfold setPlots at hpp
    split at hpp
    · rename_i h; exact Or.inl h
    · rename_i b h; exact Or.inr ⟨b, h⟩
    · simp at hpp
  obtain ⟨v, r0, r2, a1, hv, hg, hd, e1, e2, e3, e4, e5, e6⟩ := plot_options hf hw hw' hc h
  obtain ⟨q1, ⟨p, q2, -, q3⟩, q4, q5⟩ := plot_figure hd
  have dk : ∀ fig, ("plot_" ++ Spec.figName fig ++ "_options") ∈ optionKeys := by
    intro fig; cases fig <;> decide
  have dl : ∀ fig, ("plot_" ++ Spec.figName fig) ∈ plotFlags := by
    intro fig; cases fig <;> decide
  refine ⟨v, .dict r0, hv, hg, ?_, q4, ?_, ?_, ?_⟩
  · unfold switchedOn at q1
    rw [e4 _ (dl fig)] at q1
    rcases hplots with hp | ⟨b, hp⟩
    · right
      refine ⟨hp, ?_⟩
      rw [hp] at q1
      simp only [plotFlag] at q1
      cases ho : Spec.plotOption c conf (.dict r0) ("plot_" ++ Spec.figName fig) with
      | none => rw [ho] at q1; simp [J.truthy] at q1
      | some w => rw [ho] at q1; exact ⟨w, rfl, (on_iff _).2 q1⟩
    · left
      rw [hp] at q1 ⊢
      simp only [plotFlag, Option.getD_some, J.truthy] at q1
      rw [q1]
  · intro k k0 k1 k2
    rw [q5 k k0]
    exact e1 k k1 k2
  · intro k hk
    have hsub : ∀ l : List String, (∀ x ∈ l, x ∈ Spec.runOptions) → k ∉ l :=
      fun l hl hkl => hk (hl k hkl)
    have hx : Spec.configEntry x k = a1.get? k := by
      unfold Spec.configEntry
      rw [q5 "config" (by decide)]
      show (Dict.get? r2 "config").bind _ = _
      rw [e2]
      rfl
    rw [hx]
    refine e3 k (hsub _ (by decide)) ?_ (hsub _ (by decide)) (hsub _ (by decide)) ?_
    · rintro rfl; exact hk (by decide)
    · rintro rfl; exact hk (by decide)
  · intro f hfn
    have hname : ∀ f, p.1 = .str f → Spec.PlotFileName c conf (.dict r0) fig f := by
      intro f hf
      unfold figOptions at q2
      unfold Spec.PlotFileName
      cases hv : Spec.option c conf ("plot_" ++ Spec.figName fig ++ "_options") with
      | none =>
        simp only
        rw [e6 _ (dk fig) hv] at q2
        cases ho : Spec.plotOption c conf (.dict r0) ("plot_" ++ Spec.figName fig ++ "_options") with
        | none =>
          rw [ho] at q2
          simp only [Except.ok.injEq] at q2
          rw [← q2] at hf
          simp only [J.str.injEq] at hf
          exact Or.inr ⟨by simp, hf.symm⟩
        | some w =>
          rw [ho] at q2
          cases w <;> simp only [reduceCtorEq] at q2
          rename_i d
          simp only [Except.ok.injEq, popD] at q2
          rw [← q2] at hf
          simp only at hf
          cases hn : Dict.get? d "fname" with
          | none =>
            rw [hn] at hf
            simp only [Option.getD_none, J.str.injEq] at hf
            refine Or.inr ⟨fun d1 h => ?_, hf.symm⟩
            simp only [Option.some.injEq, J.dict.injEq] at h
            rw [← h, hn]
          | some n =>
            rw [hn] at hf
            simp only [Option.getD_some] at hf
            exact Or.inl ⟨d, rfl, by rw [hn, hf]⟩
      | some w =>
        simp only
        have hopt := e5 _ (dk fig) w hv
        unfold Spec.WithPrefix at hopt
        unfold Spec.FileName
        rw [hv]
        cases w
        case dict d =>
          obtain ⟨d', w1, -, -, w2, w4, w3⟩ := hopt
          rw [w1] at q2
          simp only [Except.ok.injEq, popD] at q2
          rw [← q2] at hf
          simp only at hf
          cases hn : Dict.get? d "fname" with
          | none =>
            rw [w3 hn] at hf
            simp only [Option.getD_none, J.str.injEq] at hf
            refine Or.inr ⟨fun d1 h => ?_, hf.symm⟩
            simp only [Option.some.injEq, J.dict.injEq] at h
            rw [← h, hn]
          | some n =>
            by_cases hs : ∃ g, n = .str g
            · obtain ⟨g, rfl⟩ := hs
              rw [w2 g hn] at hf
              simp only [Option.getD_some, J.str.injEq] at hf
              exact Or.inl ⟨d, g, rfl, hn, hf.symm⟩
            · push Not at hs
              rw [w4 n hs hn] at hf
              exact absurd hf (hs f)
        all_goals
          simp only at hopt
          rw [hopt] at q2
          simp at q2
    rcases q3 with ⟨u1, u2⟩ | ⟨id, f0, f1, u1, u2, u3, u4⟩
    · exact Or.inl ⟨u1, hname f (by rw [← u2, hfn])⟩
    · rw [hfn] at u4
      simp only [J.str.injEq] at u4
      subst u4
      exact Or.inr ⟨id, f0, u1, hname f0 u2, u3⟩

namespace PlotExample

/-- Results with a documented name of the figure. -/
def env : Env := { exEnv with
  json := fun _ => .ok (.dict [("R", .dict []), ("events", .dict []), ("config", .dict
    [("plot_sites", .bool true), ("plot_sites_options", .dict [("fname", .str "s.pdf")])])]) }

/-- Figures for another directory. -/
def call : Call :=
  { cmd := "plot", args := [("input", .str "results.json"), ("prefix", .str "new/")] }

theorem effects : ∃ x o, (run env call).effects =
    [.mkdir "new", .draw .sites x (.str "s.pdf") o] := ⟨_, _, rfl⟩

end PlotExample

open PlotExample in
/-- **C99** (counterexample for the prefix): command `plot` creates the directory of the prefix, but
draws a figure with a documented file name outside of it. -/
theorem C99_prefix_counterexample : Spec.Conf env call [] ∧ call.args.WF ∧
    Spec.prefixOf call [] = "new/" ∧
    ∃ x o, (run env call).effects = [.mkdir "new", .draw .sites x (.str "s.pdf") o] :=
  ⟨Or.inl ⟨rfl, rfl⟩, by unfold Dict.WF; decide, rfl, effects⟩

/-- The hypotheses of C99 are met by this call, and the figure is requested by the documented option. -/
example : ∃ rin, PlotExample.env.json "results.json" = .ok rin ∧
    Spec.PlotRequested PlotExample.call [] rin .sites ∧ ¬ Spec.Requested PlotExample.call [] .sites :=
  ⟨_, rfl, Or.inr ⟨rfl, .bool true, rfl, (on_iff _).2 rfl⟩, by
    rintro (h | ⟨-, v, h, -⟩)
    · simp [PlotExample.call] at h
    · revert h
      show none = some v → False
      simp⟩

end Qopen
