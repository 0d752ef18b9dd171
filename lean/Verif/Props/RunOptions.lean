import Verif.Lemmas.Run
import Verif.Spec.Run
import Mathlib.Data.List.TakeWhile

/-!
# Options of `run`: C68, C69, C70

Configuration file, arguments, prefix of output files.
-/

namespace Qopen

open Run Run.Act

/-! ## C69: comments in the configuration -/

namespace Spec

/-- `code` is the part of a line in front of the first `#`. -/
def CodeOf (line code : List Char) : Prop :=
  ∃ rest, line = code ++ rest ∧ '#' ∉ code ∧ (rest = [] ∨ rest.head? = some '#')

end Spec

theorem codeOf_takeWhile (l : List Char) :
    Spec.CodeOf l (l.takeWhile (fun c => decide (c ≠ '#'))) := by
  refine ⟨l.dropWhile (fun c => decide (c ≠ '#')), List.takeWhile_append_dropWhile.symm, ?_, ?_⟩
  · intro h
    have := List.mem_takeWhile_imp h
    simp at this
  · cases hd : l.dropWhile (fun c => decide (c ≠ '#')) with
    | nil => exact Or.inl rfl
    | cons a r =>
      right
      have := List.head?_dropWhile_not (fun c => decide (c ≠ '#')) l
      rw [hd] at this
      simp at this
      simp [this]

theorem takeWhile_self {l : List Char} (h : '#' ∉ l) :
    l.takeWhile (fun c => decide (c ≠ '#')) = l := by
  rw [List.takeWhile_eq_self_iff]
  intro x hx
  simp only [ne_eq, decide_eq_true_eq]
  rintro rfl
  exact h hx

theorem mem_of_mem_splitOn {s l : List Char} {c x : Char} (hl : l ∈ s.splitOn c) (hx : x ∈ l) :
    x ∈ s := by
  have := List.intercalate_splitOn (xs := s) c
  rw [← this]
  generalize s.splitOn c = ls at hl
  induction ls with
  | nil => simp at hl
  | cons a ls ih =>
    cases ls with
    | nil =>
      simp only [List.mem_singleton] at hl
      subst hl
      simpa using hx
    | cons b ls =>
      rw [List.intercalate_cons_cons]
      rcases List.mem_cons.1 hl with rfl | h
      · simp [hx]
      · simp [ih h]

theorem not_mem_line {s l : List Char} {c : Char} (hl : l ∈ s.splitOn c) : c ∉ l := by
  induction s generalizing l with
  | nil => simp at hl; simp [hl]
  | cons a s ih =>
    rw [List.splitOn_cons_eq_if_modifyHead] at hl
    split at hl
    · rcases List.mem_cons.1 hl with rfl | h
      · simp
      · exact ih h
    · rename_i hne
      have hsp := List.splitOn_ne_nil c s
      cases hs : s.splitOn c with
      | nil => exact absurd hs hsp
      | cons x xs =>
        rw [hs] at hl ih
        simp only [List.modifyHead_cons, List.mem_cons] at hl
        rcases hl with rfl | h
        · intro hc
          rcases List.mem_cons.1 hc with h | h
          · simp [h] at hne
          · exact ih List.mem_cons_self h
        · exact ih (List.mem_cons_of_mem _ h)

theorem strip_lines (s : List Char) : (stripComments s).splitOn '\n' =
    (s.splitOn '\n').map (fun l => l.takeWhile (fun c => decide (c ≠ '#'))) := by
  unfold stripComments
  apply List.splitOn_intercalate
  · intro l hl hx
    obtain ⟨l', hl', rfl⟩ := List.mem_map.1 hl
    exact not_mem_line hl' ((List.takeWhile_prefix _).subset hx)
  · simp

/-- **C69** (lines): the decoded text has the same lines as the file, each cut in front of its first
`#`. -/
theorem C69_lines (s : List Char) :
    List.Forall₂ Spec.CodeOf (s.splitOn '\n') ((stripComments s).splitOn '\n') := by
  rw [strip_lines, List.forall₂_map_right_iff]
  exact List.forall₂_same.2 (fun l _ => codeOf_takeWhile l)

/-- **C69**: nothing is changed in a text without `#`, and a text without comments has no `#`. -/
theorem C69_no_comment (s : List Char) : ('#' ∉ s → stripComments s = s) ∧ '#' ∉ stripComments s := by
  constructor
  · intro h
    unfold stripComments
    have : (s.splitOn '\n').map (fun l => l.takeWhile (fun c => decide (c ≠ '#'))) = s.splitOn '\n' := by
      rw [List.map_congr_left (g := id)]
      · simp
      · intro l hl
        exact takeWhile_self (fun hx => h (mem_of_mem_splitOn hl hx))
    rw [this, List.intercalate_splitOn]
  · intro h
    unfold stripComments at h
    have key : ∀ ls : List (List Char), (∀ l ∈ ls, '#' ∉ l) → '#' ∉ ['\n'].intercalate ls := by
      intro ls
      induction ls with
      | nil => simp
      | cons a ls ih =>
        intro hl
        cases ls with
        | nil => simpa using hl a
        | cons b ls =>
          rw [List.intercalate_cons_cons]
          simp only [List.mem_append, List.mem_singleton, not_or]
          exact ⟨⟨hl a List.mem_cons_self, by decide⟩,
            ih (fun l hl' => hl l (List.mem_cons_of_mem _ hl'))⟩
    refine key _ ?_ h
    intro l hl
    obtain ⟨l', -, rfl⟩ := List.mem_map.1 hl
    exact (codeOf_takeWhile l').choose_spec.2.1

theorem strip_append (a b : List Char) :
    stripComments (a ++ '\n' :: b) = stripComments a ++ '\n' :: stripComments b := by
  unfold stripComments
  rw [List.splitOn_append_cons_self, List.map_append]
  have h1 : (a.splitOn '\n').map (fun l => l.takeWhile (fun c => decide (c ≠ '#'))) ≠ [] := by simp
  have h2 : (b.splitOn '\n').map (fun l => l.takeWhile (fun c => decide (c ≠ '#'))) ≠ [] := by simp
  generalize (a.splitOn '\n').map (fun l => l.takeWhile (fun c => decide (c ≠ '#'))) = x at h1
  generalize (b.splitOn '\n').map (fun l => l.takeWhile (fun c => decide (c ≠ '#'))) = y at h2
  induction x with
  | nil => exact absurd rfl h1
  | cons u x ih =>
    cases x with
    | nil =>
      cases y with
      | nil => exact absurd rfl h2
      | cons v y => simp [List.intercalate_cons_cons]
    | cons w x =>
      have := ih (by simp)
      simp only [List.cons_append, List.intercalate_cons_cons] at this ⊢
      rw [this]
      simp

/-- **C69**: the text of a comment has no influence. -/
theorem C69_comment_text (a b c c' : List Char) (hc : '\n' ∉ c) (hc' : '\n' ∉ c') (h : '\n' ∉ b) :
    stripComments (a ++ '\n' :: (b ++ '#' :: c)) = stripComments (a ++ '\n' :: (b ++ '#' :: c')) ∧
    ∀ d, stripComments (b ++ '#' :: c ++ '\n' :: d) = stripComments (b ++ '#' :: c' ++ '\n' :: d) := by
  have hl : ∀ x, '\n' ∉ x → '\n' ∉ b ++ '#' :: x := by
    intro x hx
    simp only [List.mem_append, List.mem_cons, not_or]
    exact ⟨h, by decide, hx⟩
  have key : ∀ x, '\n' ∉ x → stripComments (b ++ '#' :: x) =
      b.takeWhile (fun c => decide (c ≠ '#')) := by
    intro x hx
    unfold stripComments
    rw [List.splitOn_eq_singleton (hl x hx)]
    simp only [List.map_cons, List.map_nil, List.intercalate_singleton]
    rw [List.takeWhile_append]
    split
    · rw [List.takeWhile_cons_of_neg (by simp), List.append_nil]
      rename_i hh
      exact ((List.takeWhile_prefix _).eq_of_length hh).symm
    · rfl
  constructor
  · rw [strip_append, strip_append, key c hc, key c' hc']
  · intro d
    rw [strip_append, strip_append, key c hc, key c' hc']

/-- **C69**: decoding of a decoded text changes nothing. -/
theorem C69_idempotent (s : List Char) : stripComments (stripComments s) = stripComments s :=
  (C69_no_comment _).1 (C69_no_comment s).2

/-- **C69** (counterexample to the full claim): `#` inside of a string is taken for a comment.  No JSON
parser can distinguish these two configurations. -/
theorem C69_hash_in_string_counterexample :
    stripComments "{\"prefix\": \"#a\"}".toList = "{\"prefix\": \"".toList ∧
    stripComments "{\"prefix\": \"#b\"}".toList = "{\"prefix\": \"".toList := by
  constructor <;> decide

example : stripComments "{\"a\": 1, # comment\n\"b\": 2}\n# end".toList =
    "{\"a\": 1, \n\"b\": 2}\n".toList := by decide

/-! ## C68: precedence of options -/

namespace Spec

/-- Contents of the configuration file: a JSON object, after comments have been removed; no options if
no file is given. -/
def Conf (env : Env) (c : Call) (conf : Args) : Prop :=
  (normConf c.conf = none ∧ conf = []) ∨
  ∃ f s, normConf c.conf = some f ∧ env.text f = .ok s ∧
    env.parse (stripComments s) = some (.dict conf)

/-- Value of an option: from the call, otherwise from the file. -/
def option (c : Call) (conf : Args) (k : String) : Option J :=
  match c.args.get? k with
  | some v => some v
  | none => Dict.get? conf k

/-- Options which `run` uses on its own or changes; they do not reach the inversion unchanged. -/
def runOptions : List String :=
  ["cmd", "logging", "verbose", "loglevel", "logfile", "prefix", "output", "indent",
   "inventory", "filter_inventory", "events", "filter_events", "resolve_seedid",
   "read_events_kwargs", "data", "client_options", "plugin", "cache_waveforms", "get_waveforms",
   "align_sites", "seismic_moment_method", "seismic_moment_options", "align_sites_station",
   "align_sites_value", "input", "input_sites",
   "plot_energies", "plot_optimization", "plot_fits", "plot_eventresult", "plot_eventsites",
   "plot_results", "plot_sites", "plot_sds", "plot_mags", "plot_remove_response",
   "plot_energies_options", "plot_optimization_options", "plot_fits_options",
   "plot_eventresult_options", "plot_eventsites_options", "plot_results_options",
   "plot_sites_options", "plot_sds_options", "plot_mags_options", "remove_response_options"]

end Spec

theorem conf_unique {env : Env} {c : Call} {conf conf' : Args} (h : Spec.Conf env c conf)
    (h' : ConfFile env c conf') : conf' = conf := by
  rcases h with ⟨h1, h2⟩ | ⟨f, s, h1, h2, h3⟩ <;> rcases h' with ⟨g1, g2⟩ | ⟨f', s', g1, g2, g3⟩
  · rw [h2, g2]
  · rw [h1] at g1; simp at g1
  · rw [h1] at g1; simp at g1
  · rw [h1] at g1
    simp only [Option.some.injEq] at g1
    subst g1
    rw [h2] at g2
    simp only [Text.ok.injEq] at g2
    subst g2
    rw [h3] at g3
    simpa using g3.symm

theorem merged_option {env : Env} {c : Call} {conf merged : Args} (hf : Spec.Conf env c conf)
    (hw : conf.WF) (hw' : c.args.WF) (h : loadConf env (normConf c.conf) c.args = .ok (some merged)) :
    merged.WF ∧ ∀ k, merged.get? k = Spec.option c conf k := by
  obtain ⟨conf', g1, g2⟩ := loadConf_ok h
  have := conf_unique hf g1
  subst this
  obtain ⟨g3, g4⟩ := g2 hw hw'
  refine ⟨g3, fun k => ?_⟩
  rw [g4]
  unfold Spec.option
  cases c.args.get? k <;> rfl

/-- **C68**: the inversion gets exactly the options of the call and, for those which are missing there,
the ones of the configuration file; except for the options which `run` handles on its own. -/
theorem C68_options {env : Env} {c : Call} {conf : Args} {np : J} {a : Args}
    (hf : Spec.Conf env c conf) (hw : conf.WF) (hw' : c.args.WF)
    (h : Effect.invert np a ∈ (run env c).effects) {k : String} (hk : k ∉ Spec.runOptions) :
    a.get? k = Spec.option c conf k := by
  obtain ⟨hc, merged, hm, pp, hpp, s, -, rfl⟩ := run_invert h
  obtain ⟨m1, m2⟩ := merged_option hf hw hw' hm
  obtain ⟨p1, -, -, -, -, p2, -⟩ := prepare_ok m1 hpp
  have hsub : ∀ l : List String, (∀ x ∈ l, x ∈ Spec.runOptions) → k ∉ l := fun l hl hkl => hk (hl k hkl)
  have hr : c.cmd ≠ "recalc_source" := by rintro e; rw [e] at hc; revert hc; decide
  rw [s.get? hr p1 (hsub _ (by decide)), if_neg, p2 k (hsub takenKeys (by decide)),
    m2]
  · rintro rfl; exact hk (by decide)
  · exact hsub _ (by decide)
  · exact hsub _ (by decide)
  · rintro (rfl | h | ⟨-, h⟩)
    · exact hk (by decide)
    · exact hsub loadKeys (by decide) h
    · exact hsub alignKeys (by decide) h

/-- **C68**: options for logging, output and reading of data are not passed to the inversion, nor are
the options of the alignment, if site responses are aligned.  The name of the command is. -/
theorem C68_own_options {env : Env} {c : Call} {conf : Args} {np : J} {a : Args}
    (hf : Spec.Conf env c conf) (hw : conf.WF) (hw' : c.args.WF)
    (h : Effect.invert np a ∈ (run env c).effects) :
    (∀ k ∈ ["logging", "verbose", "loglevel", "logfile", "prefix", "output", "indent",
      "filter_inventory", "filter_events", "resolve_seedid", "read_events_kwargs", "data",
      "client_options", "plugin", "cache_waveforms", "align_sites"], a.get? k = none) ∧
    a.get? "cmd" = some (.str c.cmd) ∧
    (∀ k ∈ ["seismic_moment_method", "seismic_moment_options", "align_sites_station",
      "align_sites_value"],
        (Spec.On ((Spec.option c conf "align_sites").getD (.bool false)) → a.get? k = none) ∧
        (¬ Spec.On ((Spec.option c conf "align_sites").getD (.bool false)) → a.get? k = Spec.option c conf k)) := by
  obtain ⟨hc, merged, hm, pp, hpp, s, -, rfl⟩ := run_invert h
  obtain ⟨m1, m2⟩ := merged_option hf hw hw' hm
  obtain ⟨p1, -, -, -, -, p2, p3, p4, -⟩ := prepare_ok m1 hpp
  have hr : c.cmd ≠ "recalc_source" := by rintro e; rw [e] at hc; revert hc; decide
  have hav : alignValue pp = (Spec.option c conf "align_sites").getD (.bool false) := by
    unfold alignValue
    rw [p2 _ (by decide) (by decide) (by decide) (by decide), m2]
  refine ⟨fun k hk => ?_, ?_, fun k hk => ?_⟩
  · have d1 : ∀ k ∈ ["logging", "verbose", "loglevel", "logfile", "prefix", "output", "indent",
      "filter_inventory", "filter_events", "resolve_seedid", "read_events_kwargs", "data",
      "client_options", "plugin", "cache_waveforms", "align_sites"],
      k ∉ ["events", "inventory", "get_waveforms", "input", "input_sites"] ∧
        (k ∈ takenKeys ∨ k = "align_sites" ∨ k ∈ loadKeys) := by decide
    obtain ⟨d1, d2⟩ := d1 k hk
    rw [s.get? hr p1 d1]
    rcases d2 with h | h | h
    · rw [p3 k h]; simp
    · rw [if_pos (Or.inl h)]
    · rw [if_pos (Or.inr (Or.inl h))]
  · rw [s.get? hr p1 (by decide), if_neg (by simp [loadKeys, alignKeys]), p4]
  · have d1 : ∀ k ∈ ["seismic_moment_method", "seismic_moment_options", "align_sites_station",
      "align_sites_value"], k ∉ ["events", "inventory", "get_waveforms", "input", "input_sites"] ∧
        k ∉ takenKeys ∧ k ≠ "cmd" ∧ k ∉ optionKeys ∧ k ∉ plotFlags ∧ k ≠ "align_sites" ∧ k ∉ loadKeys ∧
        k ∈ alignKeys := by decide
    obtain ⟨d1, d2, d3, d4, d5, d6, d7, d8⟩ := d1 k hk
    rw [s.get? hr p1 d1, p2 k d2 d3 d4 d5, m2, hav]
    refine ⟨fun ht => ?_, fun ht => ?_⟩
    · rw [on_iff] at ht
      rw [if_pos (Or.inr (Or.inr ⟨ht, d8⟩))]
    · rw [on_iff] at ht
      rw [if_neg (by tauto)]

/-- **C68**: stations, events and data are those of the options of the call and otherwise of the
configuration file, restricted to the event given in the call; no figures are drawn by the
inversion iff the site responses are aligned later. -/
theorem C68_inputs {env : Env} {c : Call} {conf : Args} {np : J} {a : Args}
    (hf : Spec.Conf env c conf) (hw : conf.WF) (hw' : c.args.WF)
    (h : Effect.invert np a ∈ (run env c).effects) :
    np = (Spec.option c conf "align_sites").getD (.bool false) ∧
    ∃ inv i evs ev sel gw,
      Spec.option c conf "inventory" = some i ∧ Spec.option c conf "events" = some ev ∧
      env.inventory i ((Spec.option c conf "filter_inventory").getD .null) = some inv ∧
      env.events ev ((Spec.option c conf "filter_events").getD .null)
        ((Spec.option c conf "resolve_seedid").getD (.bool false))
        ((Spec.option c conf "read_events_kwargs").getD (.dict [])) inv = some evs ∧
      env.initData c.waveforms ((Spec.option c conf "data").getD .null)
        ((Spec.option c conf "client_options").getD .null)
        ((Spec.option c conf "plugin").getD .null)
        ((Spec.option c conf "cache_waveforms").getD .null) = some gw ∧
      a.get? "inventory" = some inv ∧ a.get? "get_waveforms" = some gw ∧
      a.get? "events" = some (.list sel) ∧
      ((c.eventid = none ∨ c.eventid = some "") → sel = evs) ∧
      (∀ id, c.eventid = some id → id ≠ "" →
        sel = evs.filter (fun ev => decide (env.eventid ev = id)) ∧ sel ≠ []) := by
  obtain ⟨hc, merged, hm, pp, hpp, s, rfl, rfl⟩ := run_invert h
  obtain ⟨m1, m2⟩ := merged_option hf hw hw' hm
  obtain ⟨p1, -, -, -, -, p2, p3, p4, -⟩ := prepare_ok m1 hpp
  have hr : c.cmd ≠ "recalc_source" := by rintro e; rw [e] at hc; revert hc; decide
  have hv : ∀ k ∈ loadKeys, (pp.args.pop "align_sites").get? k = Spec.option c conf k := by
    intro k hk
    have d1 : ∀ k ∈ loadKeys, k ∉ takenKeys ∧ k ≠ "cmd" ∧ k ∉ optionKeys ∧ k ∉ plotFlags ∧
      "align_sites" ≠ k := by decide
    obtain ⟨d1, d2, d3, d4, d5⟩ := d1 k hk
    rw [Dict.get?_pop_ne _ d5, p2 k d1 d2 d3 d4, m2]
  refine ⟨?_, ?_⟩
  · unfold alignValue
    rw [p2 _ (by decide) (by decide) (by decide) (by decide), m2]
  obtain ⟨inv, evs, sel, s1, s2, s3, s4, s5, s6, s7⟩ := s.loaded hr
  obtain ⟨-, inv', evs', t1, t2, ⟨i, t3, t4⟩, ⟨ev, t5, t6⟩, t7⟩ := load_args hr s.hload
  rw [s1] at t1
  rw [s2] at t2
  simp only [Option.some.injEq] at t1 t2
  subst t1 t2
  rw [hv _ (by decide)] at t3 t4 t5 t6 t7
  rw [hv _ (by decide), hv _ (by decide)] at t6
  rw [hv _ (by decide), hv _ (by decide), hv _ (by decide)] at t7
  obtain ⟨l, u1, u2, u3⟩ := selectEvents_ok s4
  simp only [Option.some.injEq] at u1
  subst u1
  exact ⟨inv, i, evs, ev, sel, s.ld.waveforms, t3, t5, t4, t6, t7, s6, s7, s5, u2,
    fun id h1 h2 => ⟨(u3 id h1 h2).2, (u3 id h1 h2).1⟩⟩

/-- **C68**: argument `plots` switches all figures on or off, otherwise the options decide. -/
theorem C68_plots {env : Env} {c : Call} {conf : Args} {np : J} {a : Args}
    (hf : Spec.Conf env c conf) (hw : conf.WF) (hw' : c.args.WF)
    (h : Effect.invert np a ∈ (run env c).effects) {k : String}
    (hk : k ∈ ["plot_energies", "plot_optimization", "plot_fits", "plot_eventresult",
      "plot_eventsites", "plot_results", "plot_sites", "plot_sds", "plot_mags",
      "plot_remove_response"]) :
    (∀ b, c.plots = .bool b → a.get? k = some (.bool b)) ∧
    (c.plots = .null → a.get? k = Spec.option c conf k) ∧
    (c.plots = .null ∨ ∃ b, c.plots = .bool b) := by
  obtain ⟨hc, merged, hm, pp, hpp, s, rfl, rfl⟩ := run_invert h
  obtain ⟨m1, m2⟩ := merged_option hf hw hw' hm
  obtain ⟨p1, -, -, -, -, p2, p3, p4, p5, -⟩ := prepare_ok m1 hpp
  have hr : c.cmd ≠ "recalc_source" := by rintro e; rw [e] at hc; revert hc; decide
  have d1 : ∀ k ∈ ["plot_energies", "plot_optimization", "plot_fits", "plot_eventresult",
      "plot_eventsites", "plot_results", "plot_sites", "plot_sds", "plot_mags",
      "plot_remove_response"], k ∉ ["events", "inventory", "get_waveforms", "input", "input_sites"] ∧
      k ≠ "align_sites" ∧ k ∉ loadKeys ∧ k ∉ alignKeys ∧ k ∈ plotFlags := by decide
  obtain ⟨d1, d2, d3, d4, d5⟩ := d1 k hk
  rw [s.get? hr p1 d1, if_neg (by tauto), p5 k d5, m2]
  have hp : c.plots = .null ∨ ∃ b, c.plots = .bool b := by
    unfold prepare at hpp
    obtain ⟨_, -, hpp⟩ := bind_out.1 hpp
    obtain ⟨_, -, hpp⟩ := bind_out.1 hpp
    obtain ⟨_, h3, -⟩ := bind_out.1 hpp
    rw [lift_out] at h3
    exact (setPlots_ok h3).2.2
  refine ⟨fun b hb => ?_, fun hn => ?_, hp⟩
  · rw [hb]; rfl
  · rw [hn]; rfl

/-- **C68**: `--overwrite-conf` is preferred to the flags of the command line, everything else is
passed to `run` unchanged. -/
theorem C68_command_line {parsed args : Args} (hw : parsed.WF)
    (hd : ∀ d, parsed.get? "overwrite_conf" = some (.dict d) → Dict.WF d)
    (h : cmdlineArgs parsed = .ok args) :
    ∃ over : Args, (parsed.get? "overwrite_conf" = some (.dict over) ∨
      parsed.get? "overwrite_conf" = some (.list []) ∧ over = [] ∨
      parsed.get? "overwrite_conf" = none ∧ over = []) ∧
    ∀ k, args.get? k = match over.get? k with
      | some v => some v
      | none => if k = "overwrite_conf" then none else parsed.get? k := by
  have hp : ∀ k, (parsed.pop "overwrite_conf").get? k =
      if k = "overwrite_conf" then none else parsed.get? k := by
    intro k
    by_cases e : k = "overwrite_conf"
    · rw [if_pos e, e, Dict.get?_pop_self hw]
    · rw [if_neg e, Dict.get?_pop_ne _ (Ne.symm e)]
  unfold cmdlineArgs at h
  unfold popD at h
  cases hv : parsed.get? "overwrite_conf" with
  | none =>
    rw [hv] at h
    simp only [Option.getD_none, Except.ok.injEq] at h
    subst h
    refine ⟨[], Or.inr (Or.inr ⟨rfl, rfl⟩), fun k => ?_⟩
    exact hp k
  | some v =>
    rw [hv] at h
    cases v <;> simp only [Option.getD_some, Except.ok.injEq, reduceCtorEq] at h
    · rename_i l
      cases l with
      | nil =>
        simp only [Except.ok.injEq] at h
        subst h
        exact ⟨[], Or.inr (Or.inl ⟨rfl, rfl⟩), fun k => hp k⟩
      | cons x l => simp at h
    · rename_i d
      subst h
      refine ⟨d, Or.inl rfl, fun k => ?_⟩
      rw [Dict.get?_update _ _ (hd d hv), hp]
      cases Dict.get? d k <;> rfl

/-- A world in which everything can be read. -/
def exEnv : Env where
  text := fun f => if f = "conf.json" then .ok "{}".toList else .ioError
  parse := fun _ => some (.dict [("events", .str "events.xml"), ("inventory", .str "stations.xml"),
    ("njobs", .num 2), ("weight", .str "1/W"), ("prefix", .str "out/"),
    ("plot_sds_options", .dict [("fname", .str "sds.pdf")])])
  json := fun _ => .ok (.dict [])
  inventory := fun _ _ => some (.obj 0)
  events := fun _ _ _ _ _ => some [.obj 1, .obj 2]
  initData := fun _ _ _ _ _ => some (.obj 3)
  eventid := fun e => match e with | .obj 1 => "ev1" | _ => "ev2"
  logging := fun _ => .ok ()
  mkdir := fun _ => .ok ()
  openW := fun _ => .ok ()
  invert := fun _ _ => .ok (.dict [("events", .dict [])])
  align := fun r _ => .ok r
  source := fun r _ => .ok r
  draw := fun _ _ _ _ => .ok ()
  format := fun f _ => .ok f

/-- A call with a configuration file. -/
def exCall : Call :=
  { conf := some "conf.json", eventid := some "ev2"
    args := [("njobs", .num 1), ("logging", .str "x"), ("output", .str "results.json"),
      ("plot_results_options", .dict [("fname", .str "r.pdf")])] }

theorem exCall_effects : (run exEnv exCall).effects =
    [.mkdir "out", .logging (.given (.str "x")),
     .invert (.bool false)
       [("njobs", .num 1), ("weight", .str "1/W"),
        ("plot_sds_options", .dict [("fname", .str "out/sds.pdf")]),
        ("plot_results_options", .dict [("fname", .str "out/r.pdf")]),
        ("cmd", .str "go"), ("inventory", .obj 0), ("get_waveforms", .obj 3),
        ("events", .list [.obj 2])],
     .mkdir "out", .openW "out/results.json",
     .dump "out/results.json" (.dict [("events", .dict [])]) .null] := by
  rfl

/-- The hypotheses of the theorems on the options of the inversion are met: the number of jobs of the
call is preferred, the weights of the file are kept, the prefix is applied. -/
theorem C68_example : ∃ conf, Spec.Conf exEnv exCall conf ∧ conf.WF ∧ exCall.args.WF ∧
    ∃ np a, Effect.invert np a ∈ (run exEnv exCall).effects ∧ a.get? "njobs" = some (.num 1) ∧
      Dict.get? conf "njobs" = some (.num 2) ∧ a.get? "weight" = some (.str "1/W") := by
  refine ⟨_, Or.inr ⟨"conf.json", _, rfl, rfl, rfl⟩, by unfold Dict.WF; decide, by unfold Dict.WF; decide, .bool false, [("njobs", .num 1), ("weight", .str "1/W"),
        ("plot_sds_options", .dict [("fname", .str "out/sds.pdf")]),
        ("plot_results_options", .dict [("fname", .str "out/r.pdf")]),
        ("cmd", .str "go"), ("inventory", .obj 0), ("get_waveforms", .obj 3),
        ("events", .list [.obj 2])], ?_, rfl, rfl, rfl⟩
  rw [exCall_effects]
  exact List.mem_cons_of_mem _ (List.mem_cons_of_mem _ List.mem_cons_self)

/-! ## C70: prefix of output files -/

namespace Spec

/-- The prefix, empty if there is none. -/
def prefixOf (c : Call) (conf : Args) : String :=
  match option c conf "prefix" with
  | some (.str p) => p
  | _ => ""

/-- Options with a file name. -/
def fnameOptions : List String :=
  ["plot_energies_options", "plot_optimization_options", "plot_fits_options",
   "plot_eventresult_options", "plot_eventsites_options", "plot_results_options",
   "plot_sites_options", "plot_sds_options", "plot_mags_options", "remove_response_options"]

/-- The options `v'` of a figure are the options `v` with the prefix in front of the file name and
possibly a default for `mean`. -/
def WithPrefix (p : String) (v v' : Option J) : Prop :=
  match v with
  | some (.dict d) => ∃ d', v' = some (.dict d') ∧
      (∀ x, x ≠ "fname" → x ≠ "mean" → Dict.get? d' x = Dict.get? d x) ∧
      (∀ m, Dict.get? d "mean" = some m → Dict.get? d' "mean" = some m) ∧
      (∀ f, Dict.get? d "fname" = some (.str f) → Dict.get? d' "fname" = some (.str (p ++ f))) ∧
      (∀ n, (∀ f, n ≠ .str f) → Dict.get? d "fname" = some n → Dict.get? d' "fname" = some n) ∧
      (Dict.get? d "fname" = none → Dict.get? d' "fname" = none)
  | v => v' = v

end Spec

theorem withMean_spec (m : J) (v : Option J) : Spec.WithPrefix "" v (withMean m v) := by
  unfold withMean Spec.WithPrefix
  cases v with
  | none => rfl
  | some v =>
    cases v <;> try rfl
    rename_i d
    refine ⟨_, rfl, fun x _ h2 => ?_, fun m' hm => ?_, fun f hf => ?_, fun n _ hf => ?_, fun hf => ?_⟩
    · rw [Dict.get?_setdefault, if_neg (Ne.symm h2)]
    · rw [Dict.get?_setdefault, if_pos rfl, hm]; rfl
    · rw [Dict.get?_setdefault, if_neg (by decide), hf, String.empty_append]
    · rw [Dict.get?_setdefault, if_neg (by decide), hf]
    · rw [Dict.get?_setdefault, if_neg (by decide), hf]

theorem prefixed_spec (p : String) (v : Option J) : Spec.WithPrefix p v (prefixed p v) := by
  cases v with
  | none => rfl
  | some v =>
    cases v <;> try rfl
    rename_i d
    unfold Spec.WithPrefix
    simp only
    cases hf : Dict.get? d "fname" with
    | none =>
      refine ⟨d, by simp [prefixed, hf], fun x _ _ => rfl, fun m hm => hm, fun f h => ?_,
        fun n _ h => ?_, fun _ => hf⟩ <;> simp at h
    | some w =>
      cases w
      case str f =>
        refine ⟨Dict.set d "fname" (.str (p ++ f)), by simp [prefixed, hf], fun x h1 _ => ?_,
          fun m hm => ?_, fun f' h => ?_, fun n hn h => ?_, fun h => ?_⟩
        · rw [Dict.get?_set_ne _ _ (Ne.symm h1)]
        · rw [Dict.get?_set_ne _ _ (by decide), hm]
        · simp only [Option.some.injEq, J.str.injEq] at h
          rw [Dict.get?_set_self, h]
        · simp only [Option.some.injEq] at h
          exact absurd h.symm (hn f)
        · simp at h
      all_goals
        refine ⟨d, by simp [prefixed, hf], fun x _ _ => rfl, fun m hm => hm, fun f h => ?_,
          fun n _ h => ?_, fun h => ?_⟩
        · simp at h
        · rw [hf]; exact h
        · simp at h

theorem withPrefix_trans {p : String} {u v w : Option J} (h1 : Spec.WithPrefix "" u v)
    (h2 : Spec.WithPrefix p v w) : Spec.WithPrefix p u w := by
  unfold Spec.WithPrefix at h1 h2 ⊢
  cases u with
  | none => simp only at h1; subst h1; exact h2
  | some u =>
    cases u
    case dict d =>
      obtain ⟨d1, rfl, a1, a2, a3, a5, a4⟩ := h1
      obtain ⟨d2, rfl, b1, b2, b3, b5, b4⟩ := h2
      refine ⟨d2, rfl, fun x hx hy => (b1 x hx hy).trans (a1 x hx hy), fun m hm => b2 m (a2 m hm),
        fun f hf => ?_, fun n hn hf => b5 n hn (a5 n hn hf), fun hf => b4 (a4 hf)⟩
      have := a3 f hf
      rw [String.empty_append] at this
      exact b3 f this
    all_goals simp only at h1; subst h1; exact h2

theorem withPrefix_refl (v : Option J) : Spec.WithPrefix "" v v := by
  unfold Spec.WithPrefix
  cases v with
  | none => rfl
  | some v =>
    cases v <;> try rfl
    rename_i d
    exact ⟨d, rfl, fun _ _ _ => rfl, fun _ h => h, fun f h => by rw [String.empty_append]; exact h,
      fun _ _ h => h, fun h => h⟩

theorem optionValue_spec (mean : Option J) (pre : J) (k : String) (v : Option J) :
    Spec.WithPrefix (match pre with | .str p => p | _ => "") v (optionValue mean pre k v) := by
  unfold optionValue
  have hm : Spec.WithPrefix "" v (match mean with
      | some m => if k ∈ meanKeys then withMean m v else v
      | none => v) := by
    cases mean with
    | none => exact withPrefix_refl v
    | some m =>
      simp only
      split_ifs
      · exact withMean_spec m v
      · exact withPrefix_refl v
  cases pre <;> try exact hm
  rename_i p
  simp only
  by_cases hp : p = ""
  · rw [if_pos hp, hp]; exact hm
  · rw [if_neg hp]; exact withPrefix_trans hm (prefixed_spec p _)

/-- **C70** (part 1): within a call, the prefix is put exactly once in front of each configured file
name of a figure. Missing here: several calls with the same options, see the counterexample. -/
theorem C70_figures_partial {env : Env} {c : Call} {conf : Args} {np : J} {a : Args}
    (hf : Spec.Conf env c conf) (hw : conf.WF) (hw' : c.args.WF)
    (h : Effect.invert np a ∈ (run env c).effects) {k : String} (hk : k ∈ Spec.fnameOptions) :
    Spec.WithPrefix (Spec.prefixOf c conf) (Spec.option c conf k) (a.get? k) := by
  obtain ⟨hc, merged, hm, pp, hpp, s, rfl, rfl⟩ := run_invert h
  obtain ⟨m1, m2⟩ := merged_option hf hw hw' hm
  obtain ⟨p1, -, -, -, -, -, -, -, -, p6, -⟩ := prepare_ok m1 hpp
  have hr : c.cmd ≠ "recalc_source" := by rintro e; rw [e] at hc; revert hc; decide
  have d1 : ∀ k ∈ Spec.fnameOptions,
      k ∉ ["events", "inventory", "get_waveforms", "input", "input_sites"] ∧
      k ≠ "align_sites" ∧ k ∉ loadKeys ∧ k ∉ alignKeys ∧ k ∈ optionKeys := by decide
  obtain ⟨d1, d2, d3, d4, d5⟩ := d1 k hk
  rw [s.get? hr p1 d1, if_neg (by tauto), p6 k d5, m2, m2, m2]
  have := optionValue_spec (Spec.option c conf "mean") ((Spec.option c conf "prefix").getD .null) k
    (Spec.option c conf k)
  have e : Spec.prefixOf c conf =
      (match (Spec.option c conf "prefix").getD .null with | .str p => p | _ => "") := by
    unfold Spec.prefixOf
    cases Spec.option c conf "prefix" with
    | none => rfl
    | some v => cases v <;> rfl
  rw [e]
  exact this

/-- **C70** (part 2): the name of the output file is the configured one with the prefix once in front
of it; `stdout` is only used without prefix. -/
theorem C70_output_partial {env : Env} {c : Call} {conf : Args} (hf : Spec.Conf env c conf)
    (hw : conf.WF) (hw' : c.args.WF) :
    (∀ f, Effect.openW f ∈ (run env c).effects →
      ∃ o, Spec.option c conf "output" = some (.str o) ∧ f = Spec.prefixOf c conf ++ o) ∧
    (∀ f r i, Effect.dump f r i ∈ (run env c).effects →
      ∃ o, Spec.option c conf "output" = some (.str o) ∧ f = Spec.prefixOf c conf ++ o) ∧
    (∀ r, Effect.stdout r ∈ (run env c).effects →
      ∃ o, Spec.option c conf "output" = some (.str o) ∧ "stdout" = Spec.prefixOf c conf ++ o) := by
  have key : ∀ e ∈ (run env c).effects, e.isResult = true → ∃ f o,
      Spec.option c conf "output" = some (.str o) ∧ f = Spec.prefixOf c conf ++ o ∧
      ((∃ r, e = .stdout r ∧ f = "stdout") ∨ e = .openW f ∨ ∃ r i, e = .dump f r i) := by
    intro e he hr
    obtain ⟨hc, merged, hm, pp, hpp, s, r0, r, -, -, h⟩ := run_result hr he
    obtain ⟨m1, m2⟩ := merged_option hf hw hw' hm
    obtain ⟨p1, -, -, -, -, -, -, -, -, -, p7⟩ := prepare_ok m1 hpp
    rw [m2, m2, m2] at p7
    have hout : ∀ f, pp.output = .str f → ∃ o, Spec.option c conf "output" = some (.str o) ∧
        f = Spec.prefixOf c conf ++ o := by
      intro f hpf
      have triv : ((Spec.option c conf "output").getD .null = .str f) →
          Spec.option c conf "output" = some (.str f) := by
        cases Spec.option c conf "output" <;> simp
      unfold Spec.prefixOf
      cases hq : Spec.option c conf "prefix" with
      | none =>
        rw [hq] at p7
        refine ⟨f, triv (by rw [← p7.2, hpf]), ?_⟩
        simp
      | some q =>
        rw [hq] at p7
        cases q
        case str p =>
          simp only at p7
          split_ifs at p7 with h0
          · refine ⟨f, triv (by rw [← p7.2, hpf]), ?_⟩
            simp [h0]
          · have := p7.2
            rw [hpf] at this
            unfold prefixOutput at this
            cases ho : Spec.option c conf "output" with
            | none => rw [ho] at this; simp at this
            | some w =>
              rw [ho] at this
              cases w <;> simp only [Option.getD_some, reduceCtorEq, Except.ok.injEq, J.str.injEq] at this
              rename_i o
              exact ⟨o, rfl, this.symm⟩
        all_goals exact ⟨f, triv (by rw [← p7.2, hpf]), by simp⟩
    rcases writeOutput_mem h with ⟨p, rfl⟩ | ⟨r', rfl, -, ho⟩ | ⟨f, ho, -, -, rfl | ⟨r', -, rfl⟩⟩
    · simp [Effect.isResult] at hr
    · obtain ⟨o, h1, h2⟩ := hout _ ho
      exact ⟨_, o, h1, h2, Or.inl ⟨_, rfl, rfl⟩⟩
    · obtain ⟨o, h1, h2⟩ := hout _ ho
      exact ⟨_, o, h1, h2, Or.inr (Or.inl rfl)⟩
    · obtain ⟨o, h1, h2⟩ := hout _ ho
      exact ⟨_, o, h1, h2, Or.inr (Or.inr ⟨_, _, rfl⟩)⟩
  refine ⟨fun f h => ?_, fun f r i h => ?_, fun r h => ?_⟩
  · obtain ⟨f', o, h1, h2, ⟨_, h3, -⟩ | h3 | ⟨_, _, h3⟩⟩ := key _ h rfl
    · simp at h3
    · simp only [Effect.openW.injEq] at h3
      exact ⟨o, h1, h3.trans h2⟩
    · simp at h3
  · obtain ⟨f', o, h1, h2, ⟨_, h3, -⟩ | h3 | ⟨_, _, h3⟩⟩ := key _ h rfl
    · simp at h3
    · simp at h3
    · simp only [Effect.dump.injEq] at h3
      exact ⟨o, h1, h3.1.trans h2⟩
  · obtain ⟨f', o, h1, h2, ⟨_, -, h3⟩ | h3 | ⟨_, _, h3⟩⟩ := key _ h rfl
    · exact ⟨o, h1, h3.symm.trans h2⟩
    · simp at h3
    · simp at h3

/-- **C70** (part 3): the name of the log file has the prefix once, if logging is not configured by the
user. -/
theorem C70_log_partial {env : Env} {c : Call} {conf : Args} (hf : Spec.Conf env c conf)
    (hw : conf.WF) (hw' : c.args.WF) {console level : String} {f : String}
    (h : Effect.logging (.default console (some (level, .str f))) ∈ (run env c).effects) :
    ∃ o, Spec.option c conf "logfile" = some (.str o) ∧ f = Spec.prefixOf c conf ++ o := by
  obtain ⟨hc, merged, hm, pp, hpp, hl⟩ := run_logging h
  obtain ⟨m1, m2⟩ := merged_option hf hw hw' hm
  obtain ⟨p1, -, -, -, -, -, -, -, -, -, p7⟩ := prepare_ok m1 hpp
  rw [m2, m2, m2] at p7
  have hlog : pp.logfile = .str f := by
    unfold loggingConf at hl
    split at hl
    · split at hl
      · simp at hl
      · obtain ⟨c', -, hl⟩ := bind_ok.1 hl
        obtain ⟨fc, hfc, hl⟩ := bind_ok.1 hl
        simp only [pure, Except.pure, Except.ok.injEq, LogConf.default.injEq] at hl
        obtain ⟨-, rfl⟩ := hl
        unfold logFileConf at hfc
        split_ifs at hfc
        · simp at hfc
        · obtain ⟨_, -, hfc⟩ := bind_ok.1 hfc
          simp only [pure, Except.pure, Except.ok.injEq, Option.some.injEq, Prod.mk.injEq] at hfc
          exact hfc.2
    · simp at hl
  have triv : ((Spec.option c conf "logfile").getD .null = .str f) →
      Spec.option c conf "logfile" = some (.str f) := by
    cases Spec.option c conf "logfile" <;> simp
  unfold Spec.prefixOf
  cases hq : Spec.option c conf "prefix" with
  | none =>
    rw [hq] at p7
    exact ⟨f, triv (by rw [← p7.1, hlog]), by simp⟩
  | some q =>
    rw [hq] at p7
    cases q
    case str p =>
      simp only at p7
      split_ifs at p7 with h0
      · exact ⟨f, triv (by rw [← p7.1, hlog]), by simp [h0]⟩
      · have := p7.1
        rw [hlog] at this
        unfold prefixLog at this
        cases ho : Spec.option c conf "logfile" with
        | none => rw [ho] at this; simp at this
        | some w =>
          rw [ho] at this
          cases w <;> simp only [Option.getD_some, reduceCtorEq, J.str.injEq] at this
          rename_i o
          exact ⟨o, rfl, this⟩
    all_goals exact ⟨f, triv (by rw [← p7.1, hlog]), by simp⟩

/-- **C70** (counterexample to the full claim): with the options of figures given as arguments, a
second call with the same dictionaries puts the prefix twice in front of the file name, but not in
front of the one from the configuration file. -/
theorem C70_second_call_counterexample :
    ∃ np a, Effect.invert np a ∈
        (run exEnv { exCall with args := callerAfter exEnv exCall }).effects ∧
      a.get? "plot_results_options" = some (.dict [("fname", .str "out/out/r.pdf")]) ∧
      a.get? "plot_sds_options" = some (.dict [("fname", .str "out/sds.pdf")]) := by
  refine ⟨.bool false, [("njobs", .num 1), ("weight", .str "1/W"),
        ("plot_sds_options", .dict [("fname", .str "out/sds.pdf")]),
        ("plot_results_options", .dict [("fname", .str "out/out/r.pdf")]),
        ("cmd", .str "go"), ("inventory", .obj 0), ("get_waveforms", .obj 3),
        ("events", .list [.obj 2])], ?_, rfl, rfl⟩
  have : (run exEnv { exCall with args := callerAfter exEnv exCall }).effects =
    [.mkdir "out", .logging (.given (.str "x")),
     .invert (.bool false)
       [("njobs", .num 1), ("weight", .str "1/W"),
        ("plot_sds_options", .dict [("fname", .str "out/sds.pdf")]),
        ("plot_results_options", .dict [("fname", .str "out/out/r.pdf")]),
        ("cmd", .str "go"), ("inventory", .obj 0), ("get_waveforms", .obj 3),
        ("events", .list [.obj 2])],
     .mkdir "out", .openW "out/results.json",
     .dump "out/results.json" (.dict [("events", .dict [])]) .null] := rfl
  rw [this]
  exact List.mem_cons_of_mem _ (List.mem_cons_of_mem _ List.mem_cons_self)

end Qopen
