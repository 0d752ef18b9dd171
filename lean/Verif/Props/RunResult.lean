import Verif.Props.RunOptions
import Verif.Props.Collect

/-!
# Input of site responses, logging, configuration in the result (C72, C73, C74)
-/

namespace Qopen

open Run Collect

namespace Run

theorem load_get? {env : Env} {cmd : String} {align : Bool} {gw : J} {args : Args} {ld : Loaded}
    (h : load env cmd align gw args = some ld) (hw : args.WF) {k : String} (hk : k ∉ loadKeys) :
    ld.args.get? k = args.get? k := by
  by_cases hc : cmd = "recalc_source"
  · unfold load at h
    rw [if_pos hc] at h
    split_ifs at h
    · simp only [Option.bind_eq_bind, Option.bind_eq_some_iff] at h
      obtain ⟨⟨inv, a1⟩, h1, h⟩ := h
      simp only [Option.pure_def, Option.some.injEq] at h
      subst h
      unfold loadInventory at h1
      simp only [Option.bind_eq_bind, Option.bind_eq_some_iff, popD] at h1
      obtain ⟨i, hi, inv', hinv, h1⟩ := h1
      simp only [Option.pure_def, Option.some.injEq, Prod.mk.injEq] at h1
      obtain ⟨-, rfl⟩ := h1
      simp only [loadKeys, List.mem_cons, not_or] at hk
      simp only
      rw [Dict.get?_pop_ne _ (Ne.symm hk.2.1), Dict.get?_pop_ne _ (Ne.symm hk.1)]
    · simp only [Option.some.injEq] at h
      subst h
      rfl
  · obtain ⟨e, -⟩ := load_args hc h
    rw [e, get?_popAll hw, if_neg hk]

/-- Options for the input of results are not changed before they are used. -/
theorem Stages.before {env : Env} {c : Call} {pp : Prep} (s : Stages env c pp) (hw : pp.args.WF)
    {k : String} (hk : k ∉ loadKeys) (hk2 : k ∉ alignKeys) (hk3 : k ≠ "align_sites")
    (hk4 : k ≠ "get_waveforms") : (addLoaded s.ld s.events s.a1).get? k = pp.args.get? k := by
  have k1 : k ≠ "events" := by rintro rfl; exact hk (by decide)
  have k2 : k ≠ "inventory" := by rintro rfl; exact hk (by decide)
  rw [addLoaded_get?, if_neg (by simp [k1]), if_neg (by simp [hk4]), if_neg (by simp [k2]),
    alignOptions_args s.halign]
  have hb : s.ld.args.get? k = pp.args.get? k := by
    rw [load_get? s.hload (Dict.WF_pop hw _) hk, Dict.get?_pop_ne _ (Ne.symm hk3)]
  split_ifs
  · rw [← hb]
    simp only [alignKeys, List.mem_cons, List.not_mem_nil, or_false, not_or] at hk2
    obtain ⟨a1, a2, a3, a4⟩ := hk2
    unfold popAll alignKeys
    simp only [List.foldl]
    rw [Dict.get?_pop_ne _ (Ne.symm a4), Dict.get?_pop_ne _ (Ne.symm a3),
      Dict.get?_pop_ne _ (Ne.symm a2), Dict.get?_pop_ne _ (Ne.symm a1)]
  · exact hb

end Run

namespace Spec

/-- Results given by an option: contents of a file or the results themselves. -/
def Given (env : Env) (v r : J) : Prop :=
  (∃ f, v = .str f ∧ env.json f = .ok r) ∨ ((∀ f, v ≠ .str f) ∧ v ≠ .null ∧ r = v)

end Spec

theorem loadResults_given {env : Env} {args a : Args} {name : String} {r : J}
    (h : loadResults env args name = .ok (r, a)) :
    ∃ v, args.get? name = some v ∧ Spec.Given env v r := by
  have hp : popD args name = ((args.get? name).getD .null, args.pop name) := rfl
  unfold loadResults at h
  rw [hp] at h
  cases hg : args.get? name with
  | none => rw [hg] at h; simp at h
  | some v =>
    rw [hg] at h
    refine ⟨v, rfl, ?_⟩
    cases v <;> simp only [Option.getD_some] at h
    case null => simp at h
    case str f =>
      obtain ⟨r', h1, h⟩ := bind_ok.1 h
      simp only [pure, Except.pure, Except.ok.injEq, Prod.mk.injEq] at h
      exact Or.inl ⟨f, rfl, by rw [h1, h.1]⟩
    all_goals
      simp only [Except.ok.injEq, Prod.mk.injEq] at h
      exact Or.inr ⟨by simp, by simp, h.1.symm⟩

/-! ## C72: site responses of a second file -/

namespace Spec

/-- Entry of a JSON object. -/
def entry (v : J) (k : String) : Option J :=
  match v with
  | .dict d => Dict.get? d k
  | _ => none

/-- `v'` differs from the JSON object `v` in entry `k` only. -/
def OnlyEntry (k : String) (v v' : J) : Prop :=
  (∃ d d', v = .dict d ∧ v' = .dict d') ∧ ∀ x, x ≠ k → entry v' x = entry v x

/-- The site responses `sites` for this event. -/
def eventSites (sites : J) (evid : String) : Option J :=
  ((entry sites "events").bind (fun evs => entry evs evid)).bind (fun ev => entry ev "R")

/-- The results `r` are the results `rin` with the overall site responses of `sites`; apart from them
only the site responses of events differ, and only for events which are also part of `sites`.  Events
with site responses in `sites` get a new value for certain (which one is left open here, see
`C72_events_counterexample`). -/
def SitesReplaced (rin sites r : J) : Prop :=
  (entry sites "R").isSome ∧ entry r "R" = entry sites "R" ∧
  (∀ k, k ≠ "R" → k ≠ "events" → entry r k = entry rin k) ∧
  ((entry rin "events" = none ∨ entry sites "events" = none) →
    entry r "events" = entry rin "events") ∧
  (∀ ei, entry rin "events" = some (.dict ei) → ∃ er, entry r "events" = some (.dict er) ∧
    List.Forall₂ (fun a b : String × J => b.1 = a.1 ∧ (b.2 = a.2 ∨
      ((entry sites "events").bind (fun evs => entry evs a.1)).isSome ∧ OnlyEntry "R" a.2 b.2) ∧
      ((eventSites sites a.1).isSome → ∃ v, entry b.2 "R" = some v)) ei er)

end Spec

theorem hasKey_dict {d : Args} {k : String} {b : Bool} (h : hasKey k (.dict d) = .ok b) :
    b = (Dict.get? d k).isSome := by
  simp only [hasKey, Except.ok.injEq] at h
  exact h.symm

/-- What is done with the events. -/
theorem replaceEventSites_ok {es : Args} {evid : String} {v v' : J}
    (h : replaceEventSites es evid v = .ok v') :
    (v' = v) ∨ ∃ s d, Dict.get? es evid = some s ∧ v = .dict d ∧ v' = .dict (Dict.set d "R" s) ∧
      hasKey "R" s = .ok true := by
  unfold replaceEventSites at h
  split at h
  · simp only [Except.ok.injEq] at h; exact Or.inl h.symm
  · rename_i s hs
    obtain ⟨b, hb, h⟩ := bind_ok.1 h
    split_ifs at h with hbt
    · subst hbt
      split at h
      · simp only [pure, Except.pure, Except.ok.injEq] at h
        exact Or.inr ⟨s, _, hs, rfl, h.symm, hb⟩
      · simp at h
    · simp only [pure, Except.pure, Except.ok.injEq] at h
      exact Or.inl h.symm

/-- **C72** (overall site responses, other entries): the overall site responses are replaced by those
of the second input, everything else is kept except for the site responses of events which are part
of the second input.  Not proved, because it is false: the new value of these site responses. -/
theorem C72_sites_partial {rin sites r : J} (h : replaceSites rin sites = .ok r) :
    Spec.SitesReplaced rin sites r := by
  unfold replaceSites at h
  split at h
  swap
  · simp at h
  rename_i rin sites
  cases hR : Dict.get? sites "R" with
  | none => rw [hR] at h; simp at h
  | some R =>
    rw [hR] at h
    simp only at h
    obtain ⟨r1, h1, h⟩ := bind_ok.1 h
    simp only [pure, Except.pure, Except.ok.injEq] at h
    subst h
    have hev0 : Dict.get? (Dict.set rin "R" R) "events" = Dict.get? rin "events" :=
      Dict.get?_set_ne _ _ (by decide)
    unfold Spec.SitesReplaced
    simp only [Spec.entry, hR]
    unfold replaceSitesEvents at h1
    rw [hev0] at h1
    split at h1
    · rename_i ei es he1 he2
      obtain ⟨er, hm, h1⟩ := bind_ok.1 h1
      simp only [pure, Except.pure, Except.ok.injEq] at h1
      subst h1
      refine ⟨rfl, ?_, ?_, ?_, ?_⟩
      · rw [Dict.get?_set_ne _ _ (by decide), Dict.get?_set_self]
      · intro k k1 k2
        rw [Dict.get?_set_ne _ _ (Ne.symm k2), Dict.get?_set_ne _ _ (Ne.symm k1)]
      · rintro (h | h)
        · rw [he1] at h; simp at h
        · rw [he2] at h; simp at h
      · intro ei' he'
        rw [he1] at he'
        simp only [Option.some.injEq, J.dict.injEq] at he'
        subst he'
        refine ⟨er, Dict.get?_set_self _ _ _, ?_⟩
        rw [mapExc_ok] at hm
        refine hm.imp ?_
        rintro ⟨k, v⟩ ⟨k', v'⟩ hkv
        obtain ⟨v1, hv1, hkv⟩ := bind_ok.1 hkv
        simp only [pure, Except.pure, Except.ok.injEq, Prod.mk.injEq] at hkv
        obtain ⟨rfl, rfl⟩ := hkv
        refine ⟨rfl, ?_, fun hsome => ?_⟩
        · rcases replaceEventSites_ok hv1 with h | ⟨s, d, hs, h1, h2, -⟩
          · exact Or.inl h
          · right
            simp only at h1
            subst h1 h2
            refine ⟨by rw [he2]; simp [Spec.entry, hs], ⟨d, _, rfl, rfl⟩, fun x hx => ?_⟩
            exact Dict.get?_set_ne _ _ (Ne.symm hx)
        · obtain ⟨s, hs, hsR⟩ : ∃ s, Dict.get? es k = some (.dict s) ∧ (Dict.get? s "R").isSome := by
            simp only [Spec.eventSites, Spec.entry, he2, Option.bind_some] at hsome
            cases hk : Dict.get? es k with
            | none => rw [hk] at hsome; simp at hsome
            | some s =>
              rw [hk] at hsome
              cases s with
              | dict d => exact ⟨d, rfl, by simpa using hsome⟩
              | _ => simp at hsome
          unfold replaceEventSites at hv1
          simp only [hs, hasKey, hsR, bind, Except.bind, if_true] at hv1
          split at hv1
          · simp only [pure, Except.pure, Except.ok.injEq] at hv1
            exact ⟨_, by rw [← hv1]; exact Dict.get?_set_self _ _ _⟩
          · simp at hv1
    · simp at h1
    · simp at h1
    · rename_i hno hno2
      simp only [Except.ok.injEq] at h1
      subst h1
      refine ⟨rfl, Dict.get?_set_self _ _ _, fun k k1 _ => Dict.get?_set_ne _ _ (Ne.symm k1),
        fun _ => hev0, fun ei he => ⟨ei, by rw [hev0, he], ?_⟩⟩
      refine List.forall₂_same.2 (fun a _ => ⟨rfl, Or.inl rfl, fun hsome => ?_⟩)
      simp only [Spec.eventSites, Spec.entry] at hsome
      cases hse : Dict.get? sites "events" with
      | none => rw [hse] at hsome; simp at hsome
      | some x =>
        cases x with
        | dict es => exact absurd hse (hno _ _ he)
        | _ => rw [hse] at hsome; simp at hsome

/-- **C72** (run): with `input_sites` the command `source` inverts with the input in which the site
responses have been replaced; without the input itself. -/
theorem C72_run {env : Env} {c : Call} {conf : Args} {np : J} {a : Args}
    (hf : Spec.Conf env c conf) (hw : conf.WF) (hw' : c.args.WF) (hc : c.cmd = "source")
    (h : Effect.invert np a ∈ (run env c).effects) :
    ∃ v rin, Spec.option c conf "input" = some v ∧ Spec.Given env v rin ∧
      (Spec.option c conf "input_sites" = none → a.get? "input" = some rin) ∧
      (∀ v', Spec.option c conf "input_sites" = some v' → ∃ sites r, Spec.Given env v' sites ∧
        Spec.SitesReplaced rin sites r ∧ a.get? "input" = some r) := by
  obtain ⟨-, merged, hm, pp, hpp, s, -, rfl⟩ := run_invert h
  obtain ⟨m1, m2⟩ := merged_option hf hw hw' hm
  obtain ⟨p1, -, -, -, -, p2, -⟩ := prepare_ok m1 hpp
  have hopt : ∀ k ∈ ["input", "input_sites"], (addLoaded s.ld s.events s.a1).get? k =
      Spec.option c conf k := by
    intro k hk
    have d : ∀ k ∈ ["input", "input_sites"], k ∉ loadKeys ∧ k ∉ alignKeys ∧ k ≠ "align_sites" ∧
      k ≠ "get_waveforms" ∧ k ∉ takenKeys ∧ k ≠ "cmd" ∧ k ∉ optionKeys ∧ k ∉ plotFlags := by decide
    obtain ⟨d1, d2, d3, d4, d5, d6, d7, d8⟩ := d k hk
    rw [s.before p1 d1 d2 d3 d4, p2 k d5 d6 d7 d8, m2]
  have hin := s.hin
  unfold inputOf at hin
  rw [if_pos (Or.inr (Or.inl hc))] at hin
  obtain ⟨⟨rin, a2⟩, hin1, hin⟩ := bind_ok.1 hin
  simp only [pure, Except.pure, Except.ok.injEq, Prod.mk.injEq] at hin
  obtain ⟨hin2, hin3⟩ := hin
  obtain ⟨v, hv, hg⟩ := loadResults_given hin1
  rw [hopt _ (by simp)] at hv
  have ha2 := loadResults_args hin1
  have hsopt : s.a2.get? "input_sites" = Spec.option c conf "input_sites" := by
    rw [← hin3, ha2, Dict.get?_pop_ne _ (by decide), hopt _ (by simp)]
  have hinp : ∀ x, s.rin = some x → s.args.get? "input" = some x := by
    intro x hx
    unfold Stages.args withInput
    rw [hx]
    simp only [hc, or_true, if_true]
    exact Dict.get?_set_self _ _ _
  have hs := s.hsites
  unfold inputSites at hs
  rw [hsopt, ← hin2] at hs
  refine ⟨v, rin, hv, hg, fun hn => ?_, fun v' hv' => ?_⟩
  · rw [hn] at hs
    simp only [pure, Except.pure, Except.ok.injEq, Prod.mk.injEq] at hs
    exact hinp _ hs.1.symm
  · rw [hv'] at hs
    simp only [hc, true_or, if_true] at hs
    obtain ⟨⟨sites, a3⟩, hs1, hs⟩ := bind_ok.1 hs
    obtain ⟨r, hr, hs⟩ := bind_ok.1 hs
    simp only [pure, Except.pure, Except.ok.injEq, Prod.mk.injEq] at hs
    obtain ⟨v2, hv2, hg2⟩ := loadResults_given hs1
    rw [hsopt, hv'] at hv2
    simp only [Option.some.injEq] at hv2
    subst hv2
    exact ⟨sites, r, hg2, C72_sites_partial hr, hinp _ hs.1.symm⟩

namespace SitesExample

/-- Two files with results of an event. -/
def env : Env := { exEnv with
  json := fun f =>
    if f = "a.json" then .ok (.dict [("R", .dict [("A", .num 1)]),
      ("events", .dict [("ev1", .dict [("W", .num 5), ("R", .dict [("A", .num 1)])])])])
    else .ok (.dict [("R", .dict [("A", .num 2)]),
      ("events", .dict [("ev1", .dict [("W", .num 6), ("R", .dict [("A", .num 2)])])])]) }

/-- Command `source` with site responses of the second file. -/
def call : Call :=
  { cmd := "source"
    args := [("events", .str "events.xml"), ("inventory", .str "stations.xml"),
      ("logging", .str "x"), ("input", .str "a.json"), ("input_sites", .str "b.json")] }

/-- The input of the inversion. -/
def input : J := .dict [("R", .dict [("A", .num 2)]),
  ("events", .dict [("ev1", .dict [("W", .num 5),
    ("R", .dict [("W", .num 6), ("R", .dict [("A", .num 2)])])])])]

/-- The options of the inversion. -/
def options : Args := [("cmd", .str "source"), ("inventory", .obj 0), ("get_waveforms", .obj 3),
  ("events", .list [.obj 1, .obj 2]), ("input", input)]

theorem effects : (run env call).effects =
    [.logging (.given (.str "x")), .invert (.bool false) options] := rfl

end SitesExample

open SitesExample in
/-- **C72** (counterexample for the site responses of events): they are replaced by all results of the
event in the second file instead of by its site responses. -/
theorem C72_events_counterexample : ∃ np a input, Effect.invert np a ∈ (run env call).effects ∧
    a.get? "input" = some input ∧
    Spec.entry input "R" = some (.dict [("A", .num 2)]) ∧
    Spec.eventSites input "ev1" = some (.dict [("W", .num 6), ("R", .dict [("A", .num 2)])]) ∧
    ∃ sites, env.json "b.json" = .ok sites ∧
      Spec.eventSites sites "ev1" = some (.dict [("A", .num 2)]) := by
  refine ⟨.bool false, options, input, ?_, rfl, rfl, rfl, _, rfl, rfl⟩
  rw [effects]
  exact List.mem_cons_of_mem _ List.mem_cons_self

/-! ## C73: logging -/

namespace Spec

/-- Levels of the documentation. -/
inductive Level : ℚ → String → Prop
  | critical : Level 0 "CRITICAL"
  | warning : Level 1 "WARNING"
  | info : Level 2 "INFO"
  | debug : Level 3 "DEBUG"

/-- Numbers; `True` and `False` are 1 and 0. -/
inductive IsNum : J → ℚ → Prop
  | num (x : ℚ) : IsNum (.num x) x
  | true : IsNum (.bool true) 1
  | false : IsNum (.bool false) 0

end Spec

theorem logLevels_ok {x : ℚ} {s : String} : logLevels x = .ok s ↔ Spec.Level x s := by
  unfold logLevels
  constructor
  · intro h
    split_ifs at h with h0 h1 h2 h3
    · simp only [Except.ok.injEq] at h; subst h0 h; exact .critical
    · simp only [Except.ok.injEq] at h; subst h1 h; exact .warning
    · simp only [Except.ok.injEq] at h; subst h2 h; exact .info
    · simp only [Except.ok.injEq] at h; subst h3 h; exact .debug
  · rintro (_ | _ | _ | _) <;> norm_num

theorem levelNum_some {v : J} {x : ℚ} : levelNum v = some x ↔ Spec.IsNum v x := by
  constructor
  · intro h
    unfold levelNum at h
    split at h
    · simp only [Option.some.injEq] at h; subst h; exact .num _
    · rename_i b
      cases b
      · simp at h; subst h; exact .false
      · simp at h; subst h; exact .true
    · simp at h
  · rintro (_ | _ | _) <;> rfl

theorem logLevelOf_ok {v : J} {s : String} :
    logLevelOf v = .ok s ↔ ∃ x, Spec.IsNum v x ∧ Spec.Level x s := by
  unfold logLevelOf
  cases h : levelNum v with
  | some x =>
    simp only
    rw [logLevels_ok]
    constructor
    · intro hl; exact ⟨x, levelNum_some.1 h, hl⟩
    · rintro ⟨y, hy, hl⟩
      have := levelNum_some.2 hy
      rw [h] at this
      simp only [Option.some.injEq] at this
      rw [this]; exact hl
  | none =>
    constructor
    · intro hl
      cases v <;> simp at hl
    · rintro ⟨y, hy, -⟩
      have := levelNum_some.2 hy
      rw [h] at this
      simp at this

theorem noLogFile_iff {loglevel logfile : J} :
    noLogFile loglevel logfile = true ↔ logfile = .null ∨ Spec.IsNum loglevel 0 := by
  unfold noLogFile
  rw [Bool.or_eq_true, decide_eq_true_eq, levelNum_some]
  cases logfile <;> simp

/-- The configuration of logging for the given options: a given configuration is used as it is; by
default the level of the console follows the verbosity (at most 3), and there is a file with the given
level unless there is no file name or the level is zero. -/
def Spec.LogSetup (loggingc verbose loglevel logfile : J) (l : LogConf) : Prop :=
  (loggingc ≠ .null ∧ l = .given loggingc) ∨
  (loggingc = .null ∧ ∃ v console file, Spec.IsNum verbose v ∧ Spec.Level (min v 3) console ∧
    l = .default console file ∧
    (((logfile = .null ∨ Spec.IsNum loglevel 0) ∧ file = none) ∨
     (¬ (logfile = .null ∨ Spec.IsNum loglevel 0) ∧ ∃ x level, Spec.IsNum loglevel x ∧
      Spec.Level x level ∧ file = some (level, logfile))))

/-- **C73**: logging is set up as given, and fails if the options allow no set-up. -/
theorem C73_configuration {loggingc verbose loglevel logfile : J} {l : LogConf} :
    loggingConf loggingc verbose loglevel logfile = .ok l ↔
      Spec.LogSetup loggingc verbose loglevel logfile l := by
  unfold Spec.LogSetup
  have hmin : ∀ v : ℚ, (if v > 3 then 3 else v) = min v 3 := by
    intro v
    split_ifs with h
    · rw [min_eq_right h.le]
    · rw [min_eq_left (not_lt.1 h)]
  have hfile : ∀ f, logFileConf loglevel logfile = .ok f ↔
      (((logfile = .null ∨ Spec.IsNum loglevel 0) ∧ f = none) ∨
       (¬ (logfile = .null ∨ Spec.IsNum loglevel 0) ∧ ∃ x level, Spec.IsNum loglevel x ∧
        Spec.Level x level ∧ f = some (level, logfile))) := by
    intro f
    unfold logFileConf
    by_cases hn : noLogFile loglevel logfile = true
    · rw [if_pos hn]
      rw [noLogFile_iff] at hn
      simp only [hn, true_and, not_true_eq_false, false_and, or_false, Except.ok.injEq]
      exact eq_comm
    · rw [if_neg hn]
      rw [noLogFile_iff] at hn
      simp only [hn, false_and, not_false_eq_true, true_and, false_or]
      rw [bind_ok]
      constructor
      · rintro ⟨s, hs, h⟩
        obtain ⟨x, h1, h2⟩ := logLevelOf_ok.1 hs
        simp only [pure, Except.pure, Except.ok.injEq] at h
        exact ⟨x, s, h1, h2, h.symm⟩
      · rintro ⟨x, s, h1, h2, rfl⟩
        exact ⟨s, logLevelOf_ok.2 ⟨x, h1, h2⟩, rfl⟩
  by_cases hnull : loggingc = .null
  · subst hnull
    unfold loggingConf
    simp only [ne_eq, not_true_eq_false, false_and, true_and, false_or]
    cases hv : levelNum verbose with
    | none =>
      constructor
      · simp
      · rintro ⟨v, _, _, h, -⟩
        have := levelNum_some.2 h
        rw [hv] at this
        simp at this
    | some v =>
      simp only
      rw [bind_ok]
      constructor
      · rintro ⟨con, h1, h⟩
        obtain ⟨f, h2, h⟩ := bind_ok.1 h
        simp only [pure, Except.pure, Except.ok.injEq] at h
        rw [hmin, logLevels_ok] at h1
        exact ⟨v, con, f, levelNum_some.1 hv, h1, h.symm, (hfile f).1 h2⟩
      · rintro ⟨v', con, f, h1, h2, rfl, h3⟩
        have := levelNum_some.2 h1
        rw [hv] at this
        simp only [Option.some.injEq] at this
        subst this
        refine ⟨con, by rw [hmin, logLevels_ok]; exact h2, ?_⟩
        rw [bind_ok]
        exact ⟨f, (hfile f).2 h3, rfl⟩
  · have : loggingConf loggingc verbose loglevel logfile = .ok (.given loggingc) := by
      unfold loggingConf
      cases loggingc <;> first | exact absurd rfl hnull | rfl
    rw [this]
    simp only [Except.ok.injEq, ne_eq, hnull, not_false_eq_true, true_and, false_and, or_false]
    exact eq_comm

theorem prepared_logging {env : Env} {c : Call} {conf merged : Args} {pp : Prep} (m1 : merged.WF)
    (m2 : ∀ k, merged.get? k = Spec.option c conf k)
    (hpp : (prepare env c.cmd c.plots merged).out = .ok pp) :
    pp.loggingc = (Spec.option c conf "logging").getD .null ∧
    pp.verbose = (Spec.option c conf "verbose").getD (.num 0) ∧
    pp.loglevel = (Spec.option c conf "loglevel").getD (.num 3) ∧
    (pp.logfile = .null ↔ (Spec.option c conf "logfile").getD .null = .null) := by
  obtain ⟨p1, q1, q2, q3, -, -, -, -, -, -, p7⟩ := prepare_ok m1 hpp
  rw [m2] at q1 q2 q3
  rw [m2, m2, m2] at p7
  refine ⟨q1, q2, q3, ?_⟩
  have hlog : ∀ p v, prefixLog p v = .null ↔ v = .null := by
    intro p v
    unfold prefixLog
    cases v <;> simp
  split at p7
  · split_ifs at p7
    · rw [p7.1]
    · rw [p7.1, hlog]
  · rw [p7.1]

/-- **C73** (run): logging is configured with the options of the call or else of the configuration
file; defaults are verbosity 0 and level 3 of the log file. -/
theorem C73_run {env : Env} {c : Call} {conf : Args} (hf : Spec.Conf env c conf)
    (hw : conf.WF) (hw' : c.args.WF) {l : LogConf}
    (h : Effect.logging l ∈ (run env c).effects) : ∃ logfile,
    Spec.LogSetup ((Spec.option c conf "logging").getD .null)
      ((Spec.option c conf "verbose").getD (.num 0)) ((Spec.option c conf "loglevel").getD (.num 3))
      logfile l ∧
    (logfile = .null ↔ (Spec.option c conf "logfile").getD .null = .null) := by
  obtain ⟨hc, merged, hm, pp, hpp, hl⟩ := run_logging h
  obtain ⟨m1, m2⟩ := merged_option hf hw hw' hm
  obtain ⟨q1, q2, q3, q4⟩ := prepared_logging m1 m2 hpp
  rw [q1, q2, q3] at hl
  exact ⟨pp.logfile, C73_configuration.1 hl, q4⟩

theorem mainCmd_no_logging {env : Env} {c : Call} {pp : Prep} {e : PyErr}
    (h : loggingConf pp.loggingc pp.verbose pp.loglevel pp.logfile = .error e) :
    (mainCmd env c.cmd c.eventid c.waveforms c.printMag pp).effects = [] := by
  have h1 : (configureLogging env pp).out = .error e := by
    unfold configureLogging
    rw [h]
    rfl
  have h2 : (configureLogging env pp).effects = [] := by
    unfold configureLogging
    rw [h]
    rfl
  unfold mainCmd
  rw [Act.bind_effects_of_error h1, h2]

/-- **C73** (failures): with invalid verbosity, or invalid level of a log file, nothing is inverted,
drawn or written; only directories may have been created. -/
theorem C73_invalid {env : Env} {c : Call} {conf : Args} (hf : Spec.Conf env c conf)
    (hw : conf.WF) (hw' : c.args.WF) (hc1 : c.cmd ≠ "create") (hc2 : c.cmd ≠ "plot")
    (hl : (Spec.option c conf "logging").getD .null = .null)
    (hv : (∀ v s, Spec.IsNum ((Spec.option c conf "verbose").getD (.num 0)) v → ¬ Spec.Level (min v 3) s) ∨
      ((Spec.option c conf "logfile").getD .null ≠ .null ∧
        ¬ Spec.IsNum ((Spec.option c conf "loglevel").getD (.num 3)) 0 ∧
        ∀ x s, Spec.IsNum ((Spec.option c conf "loglevel").getD (.num 3)) x → ¬ Spec.Level x s))
    {e : Effect} (he : e ∈ (run env c).effects) : e = .message ∨ ∃ p, e = .mkdir p := by
  rcases run_effects he with ⟨h, -⟩ | ⟨h, -⟩ | ⟨-, -, merged, hm, h⟩
  · exact absurd h hc1
  · exact Or.inl h
  right
  rcases runWith_effects h with h | ⟨pp, hpp, ⟨h, -⟩ | ⟨-, h⟩⟩
  · exact h
  · exact absurd h hc2
  exfalso
  obtain ⟨m1, m2⟩ := merged_option hf hw hw' hm
  obtain ⟨q1, q2, q3, q4⟩ := prepared_logging m1 m2 hpp
  cases hlc : loggingConf pp.loggingc pp.verbose pp.loglevel pp.logfile with
  | error e' => rw [mainCmd_no_logging hlc] at h; simp at h
  | ok l =>
    rw [q1, q2, q3, hl] at hlc
    rcases C73_configuration.1 hlc with ⟨h, -⟩ | ⟨-, v, con, file, hv1, hv2, -, h3⟩
    · exact h rfl
    · rcases hv with hv | ⟨g1, g2, g3⟩
      · exact hv v con hv1 hv2
      · rcases h3 with ⟨h | h, -⟩ | ⟨-, x, s, hx, hs, -⟩
        · exact g1 (q4.1 h)
        · exact g2 h
        · exact g3 x s hx hs

example : loggingConf .null (.num 5) (.num 1) (.str "log.txt") =
    .ok (.default "DEBUG" (some ("WARNING", .str "log.txt"))) ∧
    loggingConf .null (.num 1) (.num 0) (.str "log.txt") = .ok (.default "WARNING" none) ∧
    ¬ ∃ l, loggingConf .null (.num (-1)) (.num 3) .null = .ok l := by
  refine ⟨C73_configuration.2 (Or.inr ⟨rfl, 5, _, _, .num _, ?_, rfl, Or.inr ⟨?_, 1, _, .num _,
    .warning, rfl⟩⟩), C73_configuration.2 (Or.inr ⟨rfl, 1, _, _, .num _, ?_, rfl,
    Or.inl ⟨Or.inr (.num _), rfl⟩⟩), ?_⟩
  · norm_num; exact .debug
  · rintro (h | h)
    · simp at h
    · cases h
  · norm_num; exact .warning
  · rintro ⟨l, h⟩
    rcases C73_configuration.1 h with ⟨h, -⟩ | ⟨-, v, con, _, h1, h2, -⟩
    · exact h rfl
    · cases h1
      norm_num at h2
      cases h2

/-! ## C74: configuration in the result -/

/-- **C74**: the configuration in the result consists of the two options of `invert_wrapper` and of
the passed options which are listed for this purpose, in the order of this list. -/
theorem C74_config {kwargs : Args} {simultaneous mean : J} :
    ∃ d, resultConfig kwargs simultaneous mean = .ok d ∧
      d.keys.Nodup ∧ d.keys.Sublist dumpConfig ∧
      ∀ k, Dict.get? d k = if k = "invert_events_simultaneously" then some simultaneous
        else if k = "mean" then some mean
        else if k ∈ dumpConfig then kwargs.get? k else none := by
  have hnd : dumpConfig.Nodup := by decide
  generalize hb : dumpConfig.filterMap (fun k => (kwargs.get? k).map (fun v => (k, v))) = base
  have hkeys0 : base.map Prod.fst = dumpConfig.filter (fun k => (kwargs.get? k).isSome) := by
    rw [← hb, List.map_filterMap]
    generalize dumpConfig = l
    induction l with
    | nil => rfl
    | cons a l ih =>
      cases h : kwargs.get? a with
      | none =>
        rw [List.filterMap_cons_none (by simp [h]), List.filter_cons_of_neg (by simp [h]), ih]
      | some v =>
        rw [List.filterMap_cons_some (b := a) (by simp [h]), List.filter_cons_of_pos (by simp [h]), ih]
  have hwf0 : Dict.WF base := by
    unfold Dict.WF Dict.keys
    rw [hkeys0]
    exact hnd.sublist List.filter_sublist
  have hget0 : ∀ k, Dict.get? base k = if k ∈ dumpConfig then kwargs.get? k else none := by
    intro k
    rw [← hb]
    clear hb hkeys0 hwf0
    revert hnd
    generalize dumpConfig = l
    intro hnd
    induction l with
    | nil => rfl
    | cons a l ih =>
      rw [List.nodup_cons] at hnd
      have ih := ih hnd.2
      cases h : kwargs.get? a with
      | none =>
        rw [List.filterMap_cons_none (by simp [h]), ih]
        by_cases hka : k = a
        · subst hka; simp [hnd.1, h]
        · simp [hka]
      | some v =>
        rw [List.filterMap_cons_some (b := (a, v)) (by simp [h])]
        by_cases hka : k = a
        · subst hka
          simp [Dict.get?, List.lookup, h]
        · have : Dict.get? ((a, v) :: l.filterMap (fun k => (kwargs.get? k).map (fun v => (k, v)))) k =
              Dict.get? (l.filterMap (fun k => (kwargs.get? k).map (fun v => (k, v)))) k := by
            rw [Dict.get?]
            simp [Ne.symm hka]
          rw [this, ih]
          simp [hka]
  generalize hd0 : Dict.set (Dict.set base "invert_events_simultaneously" simultaneous) "mean" mean = d0
  have hwf : Dict.WF d0 := by rw [← hd0]; exact Dict.WF_set (Dict.WF_set hwf0 _ _) _ _
  have hget : ∀ k, Dict.get? d0 k = if k = "invert_events_simultaneously" then some simultaneous
        else if k = "mean" then some mean
        else if k ∈ dumpConfig then kwargs.get? k else none := by
    intro k
    rw [← hd0, Dict.get?_set, Dict.get?_set, hget0]
    by_cases h1 : k = "mean"
    · subst h1; simp
    · by_cases h2 : k = "invert_events_simultaneously"
      · subst h2; simp
      · rw [if_neg (Ne.symm h1), if_neg (Ne.symm h2), if_neg h2, if_neg h1]
  have hsub : ∀ k ∈ Dict.keys d0, k ∈ dumpConfig := by
    intro k hk
    obtain ⟨v, hv⟩ := Option.isSome_iff_exists.1 ((Dict.get?_isSome _ _).2 hk)
    rw [hget] at hv
    by_contra hn
    rw [if_neg (by rintro rfl; exact hn (by decide)), if_neg (by rintro rfl; exact hn (by decide)),
      if_neg hn] at hv
    simp at hv
  obtain ⟨d, hd⟩ := (C40_sort_dict_unknown_key d0 dumpConfig).1.2 hsub
  obtain ⟨c1, c2, c3⟩ := C40_sort_dict_lossless hd
  have hkn : (Dict.keys d).Nodup := by
    have : (Dict.keys d).Perm (Dict.keys d0) := c1.map _
    exact this.nodup_iff.2 hwf
  refine ⟨d, ?_, hkn, ?_, fun k => by rw [c3 hwf, hget]⟩
  · unfold resultConfig
    rw [hb, hd0, hd]
  · have hmem : ∀ k ∈ Dict.keys d, k ∈ dumpConfig := fun k hk => hsub k ((c1.map _).subset hk)
    have hlt : (Dict.keys d).Pairwise (fun a b => dumpConfig.idxOf a < dumpConfig.idxOf b) := by
      have hne : (Dict.keys d).Pairwise (fun a b => a ≠ b) := hkn
      refine ((c2.and hne).imp_of_mem ?_)
      intro a b ha hb h
      refine lt_of_le_of_ne h.1 (fun he => h.2 ?_)
      exact (List.idxOf_inj (hmem a ha)).1 he
    have : (Dict.keys d) = dumpConfig.filter (fun k => decide (k ∈ Dict.keys d)) := by
      have hp : (Dict.keys d).Perm (dumpConfig.filter (fun k => decide (k ∈ Dict.keys d))) := by
        rw [List.perm_ext_iff_of_nodup hkn (hnd.filter _)]
        intro k
        simp only [List.mem_filter, decide_eq_true_eq]
        exact ⟨fun h => ⟨hmem k h, h⟩, fun h => h.2⟩
      refine hp.eq_of_pairwise (le := fun a b => dumpConfig.idxOf a < dumpConfig.idxOf b) ?_ hlt ?_
      · intro a b _ _ h1 h2; omega
      · refine List.Pairwise.sublist List.filter_sublist ?_
        decide
    rw [this]
    exact List.filter_sublist

/-- Options which are not listed are not part of the result: in particular `G_plugin`, the Green's
function, the list contains an option `G_module` instead. -/
theorem C74_plugin_missing {kwargs d : Args} {simultaneous mean : J}
    (h : resultConfig kwargs simultaneous mean = .ok d) : Dict.get? d "G_plugin" = none := by
  obtain ⟨d', h', -, -, h3⟩ := C74_config (simultaneous := simultaneous) (kwargs := kwargs)
    (mean := mean)
  rw [h] at h'
  simp only [Except.ok.injEq] at h'
  subst h'
  rw [h3]
  simp [dumpConfig]

example : ∃ d, resultConfig [("G_plugin", .str "qopen.rt : G_diffapprox3d"), ("skip", .null),
      ("v0", .num 3400)] (.bool false) (.str "robust") = .ok d ∧
    d.keys = ["invert_events_simultaneously", "mean", "v0", "skip"] ∧
    Dict.get? d "mean" = some (.str "robust") := by
  obtain ⟨d, h, h1, h2, h3⟩ := C74_config (kwargs := [("G_plugin", .str "qopen.rt : G_diffapprox3d"),
    ("skip", .null), ("v0", .num 3400)]) (simultaneous := .bool false) (mean := .str "robust")
  refine ⟨d, h, ?_, by rw [h3]; rfl⟩
  have hm : ∀ k, k ∈ d.keys ↔ k ∈ ["invert_events_simultaneously", "mean", "v0", "skip"] := by
    intro k
    rw [← Dict.get?_isSome, h3]
    by_cases k1 : k = "invert_events_simultaneously"
    · simp [k1]
    by_cases k2 : k = "mean"
    · simp [k2]
    by_cases k3 : k = "v0"
    · subst k3; decide
    by_cases k4 : k = "skip"
    · subst k4; decide
    by_cases k5 : k = "G_plugin"
    · subst k5; decide
    rw [if_neg k1, if_neg k2]
    simp [Dict.get?, k1, k2, k3, k4, Ne.symm k3, Ne.symm k4, Ne.symm k5]
  have e : d.keys = dumpConfig.filter (fun k => decide (k ∈ d.keys)) := by
    refine (List.Sublist.eq_of_length_le (l₂ := dumpConfig.filter (fun k => decide (k ∈ d.keys))) ?_ ?_)
    · have := h2.filter (fun k => decide (k ∈ d.keys))
      rwa [List.filter_eq_self.2 (by simp)] at this
    · have hp : (dumpConfig.filter (fun k => decide (k ∈ d.keys))).Subperm d.keys :=
        List.subperm_of_subset ((show dumpConfig.Nodup by decide).filter _) (by
          intro k hk
          simpa using (List.mem_filter.1 hk).2)
      exact hp.length_le
  rw [e]
  simp only [hm]
  decide

/-! ### What happens to `skip` -/

private theorem skipAfterInvert_null {njobs : J} : ∀ n, skipAfterInvert njobs .null n = .ok .null
  | 0 => rfl
  | n + 1 => by
      simp [skipAfterInvert, skipAfterBand, bind, Except.bind, skipAfterInvert_null n]

private theorem skipAfterInvert_pool {njobs s s' : J} (hj : njobs.isOne = false) :
    ∀ {n}, skipAfterInvert njobs s n = .ok s' → s' = s
  | 0, h => by simpa [skipAfterInvert, eq_comm] using h
  | n + 1, h => by
      rw [skipAfterInvert, bind_ok] at h
      obtain ⟨a, -, h⟩ := h
      rw [hj] at h
      exact skipAfterInvert_pool hj h

private theorem setdefault_some {d : Dict String J} {v w : J}
    (h : Dict.get? d "coda_window" = some v) : Dict.setdefault d "coda_window" w = d := by
  unfold Dict.setdefault; rw [h]

private theorem skipAfterInvert_given {njobs v : J} {d : Dict String J}
    (hd : Dict.get? d "coda_window" = some v) : ∀ n, skipAfterInvert njobs (.dict d) n = .ok (.dict d)
  | 0 => rfl
  | n + 1 => by
      simp [skipAfterInvert, skipAfterBand, bind, Except.bind, skipAfterInvert_given hd n,
        setdefault_some hd]

private theorem skipAfter_same {njobs s : J} (h : ∀ n s', skipAfterInvert njobs s n = .ok s' → s' = s) :
    ∀ {calls s'}, skipAfter njobs s calls = .ok s' → s' = s
  | [], _, h1 => by simpa [skipAfter, eq_comm] using h1
  | n :: calls, _, h1 => by
      rw [skipAfter, bind_ok] at h1
      obtain ⟨a, h1, h2⟩ := h1
      obtain rfl := h n a h1
      exact skipAfter_same h h2

private theorem skipAfter_none {njobs s : J} :
    ∀ {calls : List ℕ}, (∀ n ∈ calls, n = 0) → skipAfter njobs s calls = .ok s
  | [], _ => rfl
  | n :: calls, h => by
      obtain rfl := h n (by simp)
      simp only [skipAfter, skipAfterInvert, bind, Except.bind]
      exact skipAfter_none (fun m hm => h m (by simp [hm]))

private theorem set_new {d : Dict String J} {k : String} {v : J} (h : Dict.get? d k = none) :
    Dict.set d k v = d ++ [(k, v)] := by
  induction d with
  | nil => rfl
  | cons a d ih =>
      obtain ⟨k', v'⟩ := a
      by_cases hk : k' = k
      · simp [Dict.get?, hk] at h
      · simp only [Dict.get?, if_neg hk] at h
        rw [Dict.set, if_neg hk, ih h, List.cons_append]

private theorem skipAfter_dict {njobs : J} {d : Dict String J} (hj : njobs.isOne = true)
    (hd : Dict.get? d "coda_window" = none) :
    ∀ {calls : List ℕ}, (∃ n ∈ calls, n ≠ 0) →
      skipAfter njobs (.dict d) calls = .ok (.dict (d ++ [("coda_window", .num (1 / 20))]))
  | [], h => by simp at h
  | 0 :: calls, h => by
      simp only [skipAfter, skipAfterInvert, bind, Except.bind]
      exact skipAfter_dict hj hd (by simpa using h)
  | (n + 1) :: calls, _ => by
      have e : Dict.setdefault d "coda_window" (.num (1 / 20))
          = d ++ [("coda_window", .num (1 / 20))] := by
        unfold Dict.setdefault; rw [hd]; exact set_new hd
      have g : Dict.get? (d ++ [("coda_window", J.num (1 / 20))]) "coda_window"
          = some (.num (1 / 20)) := by
        rw [← set_new hd, Dict.get?_set, if_pos rfl]
      have h1 : skipAfterInvert njobs (.dict d) (n + 1)
          = .ok (.dict (d ++ [("coda_window", .num (1 / 20))])) := by
        simp only [skipAfterInvert, skipAfterBand, bind, Except.bind, hj, if_true, e]
        exact skipAfterInvert_given g n
      rw [skipAfter, h1]
      have : ∀ calls, skipAfter njobs (.dict (d ++ [("coda_window", J.num (1 / 20))])) calls
          = .ok (.dict (d ++ [("coda_window", .num (1 / 20))])) := by
        intro calls
        induction calls with
        | nil => rfl
        | cons m calls ih =>
            rw [skipAfter, skipAfterInvert_given g m]
            exact ih
      exact this calls

private theorem documented_get {kwargs d : Args} {calls : List ℕ} {simultaneous mean : J}
    (h : documented kwargs calls simultaneous mean = .ok d) (k : String) :
    Dict.get? d k = if k = "invert_events_simultaneously" then some simultaneous
        else if k = "mean" then some mean
        else if k ∈ dumpConfig then
          (if k = "skip" then
            (match Dict.get? kwargs "skip" with
              | none => none
              | some s => (skipAfter ((Dict.get? kwargs "njobs").getD .null) s calls).toOption)
            else kwargs.get? k) else none := by
  unfold documented at h
  split at h
  · rename_i hs
    obtain ⟨d', h', -, -, h3⟩ := C74_config (simultaneous := simultaneous) (kwargs := kwargs)
      (mean := mean)
    rw [h] at h'
    obtain rfl := Except.ok.inj h'
    rw [h3]
    by_cases hk : k = "skip"
    · subst hk; simp [hs]
    · simp only [if_neg hk]
  · rename_i s hs
    rw [bind_ok] at h
    obtain ⟨s', h1, h⟩ := h
    obtain ⟨d', h', -, -, h3⟩ := C74_config (simultaneous := simultaneous)
      (kwargs := Dict.set kwargs "skip" s') (mean := mean)
    rw [h] at h'
    obtain rfl := Except.ok.inj h'
    rw [h3]
    by_cases hk : k = "skip"
    · subst hk; simp [hs, h1, Except.toOption]
    · simp only [if_neg hk, Dict.get?_set, if_neg (Ne.symm hk)]

/-- **C74**: for any history of calls of `invert`, each listed option is documented as passed, except
for `skip`, which is documented as passed if it is `None`, contains `coda_window`, no band is inverted
or a pool is used.  Missing: `skip` without `coda_window` and `njobs=1`, see the next two theorems. -/
theorem C74_passed_partial {kwargs d : Args} {calls : List ℕ} {simultaneous mean : J}
    (h : documented kwargs calls simultaneous mean = .ok d) {k : String}
    (hk : k ∈ dumpConfig) (h1 : k ≠ "invert_events_simultaneously") (h2 : k ≠ "mean")
    (hs : k = "skip" → Dict.get? kwargs "skip" = some .null ∨
      (∃ s v, Dict.get? kwargs "skip" = some (.dict s) ∧ Dict.get? s "coda_window" = some v) ∨
      (∀ n ∈ calls, n = 0) ∨ Dict.get? kwargs "njobs" = none ∨
      (∃ n, Dict.get? kwargs "njobs" = some (.num n) ∧ n ≠ 1)) :
    Dict.get? d k = Dict.get? kwargs k := by
  rw [documented_get h, if_neg h1, if_neg h2, if_pos hk]
  by_cases hks : k = "skip"
  swap
  · rw [if_neg hks]
  subst hks
  rw [if_pos rfl]
  have hd := h
  unfold documented at hd
  cases hg : Dict.get? kwargs "skip" with
  | none => rfl
  | some s =>
      rw [hg] at hd
      simp only at hd ⊢
      rw [bind_ok] at hd
      obtain ⟨s', hd, -⟩ := hd
      rw [hd]
      show some s' = some s
      congr 1
      rcases hs rfl with e | ⟨q, v, e, hv⟩ | e | e | ⟨n, e, hn⟩
      · rw [hg] at e
        obtain rfl := Option.some.inj e
        refine skipAfter_same (fun n s' h => ?_) hd
        rw [skipAfterInvert_null] at h
        exact (Except.ok.inj h).symm
      · rw [hg] at e
        obtain rfl := Option.some.inj e
        refine skipAfter_same (fun n s' h => ?_) hd
        rw [skipAfterInvert_given hv] at h
        exact (Except.ok.inj h).symm
      · rw [skipAfter_none e] at hd
        exact (Except.ok.inj hd).symm
      · refine skipAfter_same (fun n s' h => ?_) hd
        rw [e] at h
        exact skipAfterInvert_pool rfl h
      · refine skipAfter_same (fun m s' h => ?_) hd
        rw [e] at h
        exact skipAfterInvert_pool (by simp [J.isOne, hn]) h

/-- **C74**: without pool the documented `skip` is the passed one and the minimal length of the coda
window of 0.05 seconds, as soon as one band of one event is inverted. -/
theorem C74_skip_completed {kwargs : Args} {calls : List ℕ} {simultaneous mean : J}
    {skip : Dict String J} (hj : Dict.get? kwargs "njobs" = some (.num 1))
    (hs : Dict.get? kwargs "skip" = some (.dict skip)) (hc : Dict.get? skip "coda_window" = none)
    (hn : ∃ n ∈ calls, n ≠ 0) :
    ∃ d, documented kwargs calls simultaneous mean = .ok d ∧
      Dict.get? d "skip" = some (.dict (skip ++ [("coda_window", .num (1 / 20))])) := by
  have e := skipAfter_dict (njobs := .num 1) (by simp [J.isOne]) hc hn
  have : ∃ d, documented kwargs calls simultaneous mean = .ok d := by
    obtain ⟨d, h', -⟩ := C74_config (simultaneous := simultaneous)
      (kwargs := Dict.set kwargs "skip" (.dict (skip ++ [("coda_window", .num (1 / 20))])))
      (mean := mean)
    refine ⟨d, ?_⟩
    unfold documented
    simp only [hs, hj, Option.getD_some, e, bind, Except.bind]
    exact h'
  obtain ⟨d, h⟩ := this
  refine ⟨d, h, ?_⟩
  rw [documented_get h, if_neg (by decide), if_neg (by decide), if_pos (by decide), if_pos rfl]
  simp [hs, hj, e, Except.toOption]

/-- **C74**: the full statement fails: the documented configuration need not be the passed one, and it
depends on `njobs`. -/
theorem C74_njobs_counterexample :
    ∃ d d' : Args,
      documented [("skip", .dict []), ("njobs", .num 1)] [1] (.bool false) .null = .ok d ∧
      documented [("skip", .dict []), ("njobs", .num 2)] [1] (.bool false) .null = .ok d' ∧
      Dict.get? d "skip" = some (.dict [("coda_window", .num (1 / 20))]) ∧
      Dict.get? d' "skip" = some (.dict []) := by
  obtain ⟨d, h1, h2⟩ := C74_skip_completed (kwargs := [("skip", .dict []), ("njobs", .num 1)])
    (calls := [1]) (simultaneous := .bool false) (mean := .null) (skip := []) rfl rfl rfl
    ⟨1, by simp, by simp⟩
  have : ∃ d', documented [("skip", .dict []), ("njobs", .num 2)] [1] (.bool false) .null = .ok d' := by
    obtain ⟨d', h', -⟩ := C74_config (simultaneous := .bool false) (mean := .null)
      (kwargs := [("skip", .dict []), ("njobs", .num 2)])
    refine ⟨d', ?_⟩
    simp [documented, Dict.get?, skipAfter, skipAfterInvert, skipAfterBand, bind, Except.bind,
      J.isOne, Dict.set]
    exact h'
  obtain ⟨d', h'⟩ := this
  refine ⟨d, d', h1, h', by simpa using h2, ?_⟩
  rw [C74_passed_partial h' (by decide) (by decide) (by decide)
    (fun _ => .inr (.inr (.inr (.inr ⟨2, by simp [Dict.get?], by norm_num⟩))))]
  rfl

/-- **C74**: a repetition with the documented `skip` documents the same configuration, whatever the
calls of `invert` are. -/
theorem C74_repeated {kwargs d : Args} {calls calls' : List ℕ} {simultaneous mean v : J}
    {skip : Dict String J} (hj : Dict.get? kwargs "njobs" = some (.num 1))
    (hn : ∃ n ∈ calls, n ≠ 0) (hs : Dict.get? kwargs "skip" = some (.dict skip))
    (h : documented kwargs calls simultaneous mean = .ok d) (hv : Dict.get? d "skip" = some v) :
    ∃ d', documented (Dict.set kwargs "skip" v) calls' simultaneous mean = .ok d' ∧
      ∀ k, Dict.get? d' k = Dict.get? d k := by
  have hw : ∃ s w, v = .dict s ∧ Dict.get? s "coda_window" = some w := by
    cases hc : Dict.get? skip "coda_window" with
    | none =>
        obtain ⟨d2, e, e2⟩ := C74_skip_completed (simultaneous := simultaneous) (mean := mean)
          hj hs hc hn
        rw [h] at e
        obtain rfl := Except.ok.inj e
        rw [hv] at e2
        obtain rfl := Option.some.inj e2
        refine ⟨_, .num (1 / 20), rfl, ?_⟩
        rw [← set_new hc, Dict.get?_set, if_pos rfl]
    | some w =>
        have e := C74_passed_partial h (k := "skip") (by decide) (by decide) (by decide)
          (fun _ => .inr (.inl ⟨skip, w, hs, hc⟩))
        rw [hv, hs] at e
        exact ⟨skip, w, Option.some.inj e, hc⟩
  obtain ⟨s, w, rfl, hw⟩ := hw
  have hg : Dict.get? (Dict.set kwargs "skip" (.dict s)) "skip" = some (.dict s) := by
    rw [Dict.get?_set, if_pos rfl]
  have hall : ∀ calls nj, skipAfter nj (.dict s) calls = .ok (.dict s) := by
    intro calls nj
    induction calls with
    | nil => rfl
    | cons m calls ih => rw [skipAfter, skipAfterInvert_given hw m]; exact ih
  have : ∃ d', documented (Dict.set kwargs "skip" (.dict s)) calls' simultaneous mean = .ok d' := by
    obtain ⟨d', h', -⟩ := C74_config (simultaneous := simultaneous)
      (kwargs := Dict.set (Dict.set kwargs "skip" (.dict s)) "skip" (.dict s)) (mean := mean)
    refine ⟨d', ?_⟩
    unfold documented
    simp only [hg, hall, bind, Except.bind]
    exact h'
  obtain ⟨d', h'⟩ := this
  refine ⟨d', h', fun k => ?_⟩
  by_cases hk : k = "skip"
  · subst hk
    rw [hv, C74_passed_partial h' (by decide) (by decide) (by decide)
      (fun _ => .inr (.inl ⟨s, w, hg, hw⟩)), hg]
  · rw [documented_get h', documented_get h]
    simp only [if_neg hk, Dict.get?_set, if_neg (Ne.symm hk)]

/-- Two events, one of which is left out before the inversion, the other one has four bands. -/
example : ∃ d, documented [("v0", .num 3400), ("skip", .dict [("num_pairs", .num 4)]),
      ("njobs", .num 1)] [0, 4] (.bool false) (.str "robust") = .ok d ∧
    Dict.get? d "skip" = some (.dict [("num_pairs", .num 4), ("coda_window", .num (1 / 20))]) ∧
    Dict.get? d "v0" = some (.num 3400) := by
  obtain ⟨d, h, h2⟩ := C74_skip_completed (kwargs := [("v0", .num 3400),
    ("skip", .dict [("num_pairs", .num 4)]), ("njobs", .num 1)]) (calls := [0, 4])
    (simultaneous := .bool false) (mean := .str "robust") (skip := [("num_pairs", .num 4)])
    (by simp [Dict.get?]) (by simp [Dict.get?]) (by simp [Dict.get?]) ⟨4, by simp, by simp⟩
  refine ⟨d, h, by simpa using h2, ?_⟩
  rw [C74_passed_partial h (by decide) (by decide) (by decide) (fun e => absurd e (by decide))]
  simp [Dict.get?]

end Qopen
