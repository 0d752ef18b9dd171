import Verif.Model.Response
import Mathlib.Tactic.NormNum

/-!
# Instrument correction (C102)
-/

namespace Qopen

open Run Response

namespace Spec

/-- Options handed to ObsPy: all given ones but the file name, and, if figures are drawn, the file name
of the figure, made with this event id, as option `plot`. -/
def DeconvolutionOptions (env : Response.Env) (o : Opts) (evid channel : String) (kw : Args) : Prop :=
  (∀ k, k ≠ "fname" → k ≠ "plot" → kw.get? k = o.options.get? k) ∧ kw.get? "fname" = none ∧
  (o.plot = false → kw.get? "plot" = o.options.get? "plot") ∧
  (o.plot = true → ∃ f t, kw.get? "plot" = some (.str f) ∧ env.format t evid channel = .ok f ∧
    (o.options.get? "fname" = some (.str t) ∨
      o.options.get? "fname" = none ∧ t = "remove_response_{evid}_{tr.id}.png"))

/-- The data of a channel after the correction: divided by the sensitivity of this channel, or
deconvolved with the response of this channel. -/
def CorrectedTrace (env : Response.Env) (m : Mode) (o : Opts) (evid : String) (tr tr' : RTrace) : Prop :=
  tr'.id = tr.id ∧ ∃ resp, env.responseOf tr.id = some resp ∧
    match m with
    | .sensitivity => ∃ s, resp.sensitivity = some s ∧ tr'.data = tr.data.map (fun x => x / s)
    | .full => ∃ kw, DeconvolutionOptions env o evid tr.id kw ∧
        env.deconvolve kw resp tr.data = .ok tr'.data

/-- All channels of the pair are corrected, nothing else is changed. -/
def Corrected (env : Response.Env) (m : Mode) (o : Opts) (evid : String) (s s' : RStream) : Prop :=
  s'.event = s.event ∧ s'.station = s.station ∧
    List.Forall₂ (CorrectedTrace env m o evid) s.traces s'.traces

/-- Option `remove_response`. -/
def modeName : Mode → String
  | .full => "full"
  | .sensitivity => "sensitivity"

end Spec

theorem setdefault_of_none {d : Args} {k : String} {v : J} (h : d.get? k = none) (k' : String) :
    (d.setdefault k v).get? k' = if k = k' then some v else d.get? k' := by
  rw [Dict.get?_setdefault]
  split_ifs with hk
  · subst hk; rw [h]; rfl
  · rfl

theorem passed_get {o : Opts} (hw : o.options.WF) (k : String) : (passed o).get? k =
    if k = "fname" ∨ (o.plot = true ∧ k = "plot") then none else o.options.get? k := by
  unfold passed
  by_cases hp : o.plot = true
  · rw [if_pos hp]
    by_cases h2 : k = "plot"
    · subst h2
      rw [Dict.get?_pop_self (Dict.WF_pop hw _), if_pos (Or.inr ⟨hp, rfl⟩)]
    · rw [Dict.get?_pop_ne _ (Ne.symm h2)]
      by_cases h1 : k = "fname"
      · subst h1; rw [Dict.get?_pop_self hw, if_pos (Or.inl rfl)]
      · rw [Dict.get?_pop_ne _ (Ne.symm h1), if_neg]
        rintro (h | h)
        · exact h1 h
        · exact h2 h.2
  · rw [if_neg hp]
    by_cases h1 : k = "fname"
    · subst h1; rw [Dict.get?_pop_self hw, if_pos (Or.inl rfl)]
    · rw [Dict.get?_pop_ne _ (Ne.symm h1), if_neg]
      rintro (h | h)
      · exact h1 h
      · exact hp h.1

theorem template_ok {o : Opts} {t : String} : template o = .ok t ↔
    (o.options.get? "fname" = some (.str t) ∨
      o.options.get? "fname" = none ∧ t = "remove_response_{evid}_{tr.id}.png") := by
  unfold template
  cases h : o.options.get? "fname" with
  | none => simp [eq_comm]
  | some v => cases v <;> simp

theorem traceOptions_ok {env : Response.Env} {o : Opts} (hw : o.options.WF) {evid : String}
    {tr : RTrace} {kw : Args} (h : traceOptions env o evid tr = .ok kw) :
    Spec.DeconvolutionOptions env o evid tr.id kw := by
  unfold traceOptions at h
  by_cases hp : o.plot = true
  · rw [if_pos hp] at h
    obtain ⟨t, ht, h⟩ := bind_ok.1 h
    obtain ⟨f, hf, h⟩ := bind_ok.1 h
    simp only [pure, Except.pure, Except.ok.injEq] at h
    subst h
    have hn : (passed o).get? "plot" = none := by rw [passed_get hw, if_pos (Or.inr ⟨hp, rfl⟩)]
    refine ⟨fun k h1 h2 => ?_, ?_, fun h => by simp [hp] at h, fun _ => ⟨f, t, ?_, hf, template_ok.1 ht⟩⟩
    · rw [setdefault_of_none hn, if_neg (Ne.symm h2), passed_get hw, if_neg]
      rintro (h | h)
      · exact h1 h
      · exact h2 h.2
    · rw [setdefault_of_none hn, if_neg (by decide), passed_get hw, if_pos (Or.inl rfl)]
    · rw [setdefault_of_none hn, if_pos rfl]
  · rw [if_neg hp] at h
    simp only [Except.ok.injEq] at h
    subst h
    refine ⟨fun k h1 h2 => ?_, ?_, fun _ => ?_, fun h => absurd h hp⟩
    · rw [passed_get hw, if_neg]
      rintro (h | h)
      · exact h1 h
      · exact hp h.1
    · rw [passed_get hw, if_pos (Or.inl rfl)]
    · rw [passed_get hw, if_neg]
      rintro (h | h)
      · simp at h
      · exact hp h.1

theorem traceOptions_exists {env : Response.Env} {o : Opts} (hw : o.options.WF) {evid : String}
    {tr : RTrace} {kw : Args} (h : Spec.DeconvolutionOptions env o evid tr.id kw) :
    ∃ kw', traceOptions env o evid tr = .ok kw' ∧ ∀ k, kw'.get? k = kw.get? k := by
  obtain ⟨h1, h2, h3, h4⟩ := h
  have hok : ∃ kw', traceOptions env o evid tr = .ok kw' := by
    unfold traceOptions
    by_cases hp : o.plot = true
    · obtain ⟨f, t, -, hf, ht⟩ := h4 hp
      rw [if_pos hp]
      exact ⟨_, bind_ok.2 ⟨t, template_ok.2 ht, bind_ok.2 ⟨f, hf, rfl⟩⟩⟩
    · rw [if_neg hp]; exact ⟨_, rfl⟩
  obtain ⟨kw', hk⟩ := hok
  obtain ⟨g1, g2, g3, g4⟩ := traceOptions_ok hw hk
  refine ⟨kw', hk, fun k => ?_⟩
  by_cases k1 : k = "fname"
  · subst k1; rw [g2, h2]
  by_cases k2 : k = "plot"
  · subst k2
    by_cases hp : o.plot = true
    · obtain ⟨f, t, e1, hf, ht⟩ := h4 hp
      obtain ⟨f', t', e1', hf', ht'⟩ := g4 hp
      have : t' = t := by
        have a := template_ok.2 ht
        rw [template_ok.2 ht'] at a
        simpa using a
      subst this
      rw [hf] at hf'
      simp only [Except.ok.injEq] at hf'
      rw [e1, e1', hf']
    · rw [g3 (by simpa using hp), h3 (by simpa using hp)]
  · rw [g1 k k1 k2, h1 k k1 k2]

/-- Keyword arguments have no order. -/
def Spec.Keywords (env : Response.Env) : Prop :=
  ∀ (kw kw' : Args) resp d, (∀ k, kw.get? k = kw'.get? k) →
    env.deconvolve kw resp d = env.deconvolve kw' resp d

theorem fullTrace_ok {env : Response.Env} (hk : Spec.Keywords env) {o : Opts} (hw : o.options.WF)
    {evid ev : String} {tr tr' : RTrace} : (fullTrace env o evid ev tr).1 = .ok tr' ↔
      Spec.CorrectedTrace env .full o evid tr tr' := by
  unfold fullTrace Spec.CorrectedTrace
  cases hr : env.responseOf tr.id with
  | none => simp
  | some resp =>
    simp only
    constructor
    · intro h
      cases ho : traceOptions env o evid tr with
      | error e => rw [ho] at h; simp at h
      | ok kw =>
        rw [ho] at h
        simp only at h
        cases hd : env.deconvolve kw resp tr.data with
        | error e => rw [hd] at h; simp at h
        | ok d =>
          rw [hd] at h
          simp only [Except.ok.injEq] at h
          subst h
          exact ⟨rfl, resp, rfl, kw, traceOptions_ok hw ho, hd⟩
    · rintro ⟨hid, resp', e, kw, hkw, hd⟩
      simp only [Option.some.injEq] at e
      subst e
      obtain ⟨kw', ho, he⟩ := traceOptions_exists hw hkw
      rw [ho]
      simp only
      rw [hk kw' kw _ _ he, hd]
      simp only [Except.ok.injEq]
      rw [← hid]

theorem fullTraces_ok {env : Response.Env} (hk : Spec.Keywords env) {o : Opts} (hw : o.options.WF)
    {evid ev : String} {l l' : List RTrace} : (fullTraces env o evid ev l).1 = .ok l' ↔
      List.Forall₂ (Spec.CorrectedTrace env .full o evid) l l' := by
  induction l generalizing l' with
  | nil => simp [fullTraces, eq_comm]
  | cons tr l ih =>
    unfold fullTraces
    rw [List.forall₂_cons_left_iff]
    simp only [← fullTrace_ok hk hw (ev := ev)]
    rcases hf : fullTrace env o evid ev tr with ⟨e | tr', figs⟩
    · simp
    · simp only [Except.ok.injEq]
      constructor
      · intro h
        cases hr : (fullTraces env o evid ev l).1 with
        | error e => rw [hr] at h; simp [Except.map] at h
        | ok l'' =>
          rw [hr] at h
          simp only [Except.map, Except.ok.injEq] at h
          exact ⟨tr', l'', rfl, ih.1 hr, h.symm⟩
      · rintro ⟨_, l'', rfl, h, rfl⟩
        rw [ih.2 h]
        rfl

theorem sensTrace_ok {env : Response.Env} {o : Opts} {evid : String} {tr tr' : RTrace} :
    sensTrace env tr = .ok tr' ↔ Spec.CorrectedTrace env .sensitivity o evid tr tr' := by
  unfold sensTrace Spec.CorrectedTrace
  cases hr : env.responseOf tr.id with
  | none => simp
  | some resp =>
    cases hs : resp.sensitivity with
    | none =>
      simp only [Option.bind_some, hs, reduceCtorEq, Option.some.injEq, false_iff]
      rintro ⟨-, _, rfl, s, h, -⟩
      rw [hs] at h
      simp at h
    | some s =>
      simp only [Option.bind_some, hs, Except.ok.injEq, Option.some.injEq]
      constructor
      · rintro rfl; exact ⟨rfl, _, rfl, s, hs, rfl⟩
      · rintro ⟨hid, _, rfl, s', h, hd⟩
        rw [hs] at h
        simp only [Option.some.injEq] at h
        subst h
        rw [← hid, ← hd]

theorem correctStream_some {env : Response.Env} (hk : Spec.Keywords env) {m : Mode} {o : Opts}
    (hw : o.options.WF) {evid : String} {s s' : RStream} :
    (correctStream env m o evid s).1 = some s' ↔ Spec.Corrected env m o evid s s' := by
  unfold correctStream Spec.Corrected
  split_ifs with h
  · simp only [reduceCtorEq, false_iff]
    rintro ⟨-, -, hf⟩
    obtain ⟨tr, ht, hn⟩ := List.any_eq_true.1 h
    obtain ⟨i, hi, rfl⟩ := List.getElem_of_mem ht
    have := hf.get (i := i) hi (by rw [← hf.length_eq]; exact hi)
    simp only [List.get_eq_getElem] at this
    obtain ⟨-, resp, hr, -⟩ := this
    rw [hr] at hn
    simp at hn
  · have key : ∀ r : Py (List RTrace), (keep s r = some s' ↔ s'.event = s.event ∧ s'.station = s.station ∧ r = .ok s'.traces) := by
      intro r
      unfold keep
      cases r with
      | error e => simp
      | ok l =>
        obtain ⟨a, b, c⟩ := s'
        simp only [Option.some.injEq, RStream.mk.injEq, Except.ok.injEq]
        constructor
        · rintro ⟨rfl, rfl, rfl⟩; exact ⟨rfl, rfl, rfl⟩
        · rintro ⟨rfl, rfl, rfl⟩; exact ⟨rfl, rfl, rfl⟩
    cases m with
    | full => simp only; rw [key, fullTraces_ok hk hw]
    | sensitivity =>
      simp only
      rw [key, mapExc_ok]
      simp only [sensTrace_ok (o := o) (evid := evid)]

theorem mode_name (m : Mode) : mode (.str (Spec.modeName m)) = .ok (some m) := by
  cases m <;> rfl

theorem removeResponse_ok {env : Response.Env} {m : Mode} {o : Opts} {pairs : List (String × String)}
    {streams out : List RStream} {figs : List Figure}
    (h : removeResponse env (.str (Spec.modeName m)) o pairs streams = .ok (out, figs)) :
    correctAll env m o ((pairs.getLast?.map Prod.fst).getD "") streams = (out, figs) := by
  unfold removeResponse at h
  rw [mode_name] at h
  simp only at h
  revert h
  cases checkTemplate o <;> simp [Except.map]

/-- **C102**: the streams after the correction are, in the same order, exactly those with a response
for each channel for which the correction succeeds; their data are the data of each channel divided by
the sensitivity of this channel, or deconvolved with the response of this channel and the given
options. -/
theorem C102_corrected {env : Response.Env} (hk : Spec.Keywords env) {m : Mode} {o : Opts}
    (hw : o.options.WF) {pairs : List (String × String)} {streams out : List RStream}
    {figs : List Figure}
    (h : removeResponse env (.str (Spec.modeName m)) o pairs streams = .ok (out, figs)) :
    ∃ f : RStream → Option RStream, ∃ evid, (∀ s s', f s = some s' ↔ Spec.Corrected env m o evid s s') ∧
      out = streams.filterMap f := by
  have := removeResponse_ok h
  unfold correctAll at this
  simp only [Prod.mk.injEq] at this
  exact ⟨_, _, fun s s' => correctStream_some hk hw, this.1.symm⟩

/-- **C102**: the correction of a stream never makes the inversion fail; only unknown values of option
`remove_response` and, if figures are requested, file names which are no texts do. -/
theorem C102_failure (env : Response.Env) (option : J) (o : Opts) (pairs : List (String × String))
    (streams : List RStream) :
    (∃ e, removeResponse env option o pairs streams = .error e) ↔
      (option ≠ .null ∧ option ≠ .str "full" ∧ option ≠ .str "sensitivity") ∨
      (option ≠ .null ∧ o.plot = true ∧
        ∃ v, o.options.get? "fname" = some v ∧ ∀ s, v ≠ .str s) := by
  have ht : (∃ e, checkTemplate o = .error e) ↔
      o.plot = true ∧ ∃ v, o.options.get? "fname" = some v ∧ ∀ s, v ≠ .str s := by
    unfold checkTemplate
    by_cases hp : o.plot = true
    · simp only [hp, if_true, true_and]
      unfold template
      cases hf : o.options.get? "fname" with
      | none => simp [Except.map]
      | some v => cases v <;> simp [Except.map]
    · simp [hp]
  have hm : ∀ m, (∃ e, removeResponse env (.str (Spec.modeName m)) o pairs streams = .error e) ↔
      o.plot = true ∧ ∃ v, o.options.get? "fname" = some v ∧ ∀ s, v ≠ .str s := by
    intro m
    rw [← ht]
    unfold removeResponse
    rw [mode_name]
    cases checkTemplate o <;> simp [Except.map]
  by_cases h0 : option = .null
  · subst h0; simp [removeResponse, mode]
  by_cases h1 : option = .str "full"
  · subst h1
    have := hm .full
    simp only [Spec.modeName] at this
    rw [this]
    simp
  by_cases h2 : option = .str "sensitivity"
  · subst h2
    have := hm .sensitivity
    simp only [Spec.modeName] at this
    rw [this]
    simp
  have : mode option = .error .assertion := by
    unfold mode
    split
    · exact absurd rfl h0
    · rename_i s
      rw [if_neg (by rintro rfl; exact h1 rfl), if_neg (by rintro rfl; exact h2 rfl)]
    · rfl
  unfold removeResponse
  rw [this]
  simp [h0, h1, h2]

/-- **C102**: without the option nothing is changed. -/
theorem C102_off (env : Response.Env) (o : Opts) (pairs : List (String × String))
    (streams : List RStream) : removeResponse env .null o pairs streams = .ok (streams, []) := rfl

/-- The file name of a figure is made from the event and the channel it shows. -/
def Spec.OwnName (env : Response.Env) (o : Opts) (fig : Figure) : Prop :=
  ∃ f t, fig.file = .str f ∧ env.format t fig.event fig.channel = .ok f ∧
    (o.options.get? "fname" = some (.str t) ∨
      o.options.get? "fname" = none ∧ t = "remove_response_{evid}_{tr.id}.png")

theorem fullTrace_figures {env : Response.Env} {o : Opts} (hw : o.options.WF) (hp : o.plot = true)
    {ev : String} {tr : RTrace} {fig : Figure} (h : fig ∈ (fullTrace env o ev ev tr).2) :
    fig.event = ev ∧ fig.channel = tr.id ∧ Spec.OwnName env o fig := by
  unfold fullTrace at h
  cases hr : env.responseOf tr.id with
  | none => rw [hr] at h; simp at h
  | some resp =>
    rw [hr] at h
    simp only at h
    cases ho : traceOptions env o ev tr with
    | error e => rw [ho] at h; simp at h
    | ok kw =>
      rw [ho] at h
      simp only at h
      cases hd : env.deconvolve kw resp tr.data with
      | error e => rw [hd] at h; simp at h
      | ok d =>
        rw [hd] at h
        obtain ⟨-, -, -, h4⟩ := traceOptions_ok hw ho
        obtain ⟨f, t, e1, hf, ht⟩ := h4 hp
        rw [e1] at h
        simp only at h
        split_ifs at h
        · simp only [List.mem_singleton] at h
          subst h
          exact ⟨rfl, rfl, f, t, rfl, hf, ht⟩
        · simp at h

theorem fullTraces_figures {env : Response.Env} {o : Opts} (hw : o.options.WF) (hp : o.plot = true)
    {ev : String} {l : List RTrace} {fig : Figure} (h : fig ∈ (fullTraces env o ev ev l).2) :
    fig.event = ev ∧ (∃ tr ∈ l, fig.channel = tr.id) ∧ Spec.OwnName env o fig := by
  induction l with
  | nil => simp [fullTraces] at h
  | cons tr l ih =>
    unfold fullTraces at h
    have h1 := fun hh => fullTrace_figures (env := env) (ev := ev) (tr := tr) (fig := fig) hw hp hh
    rcases hf : fullTrace env o ev ev tr with ⟨e | tr', figs⟩
    · rw [hf] at h h1
      obtain ⟨a, b, c⟩ := h1 h
      exact ⟨a, ⟨tr, by simp, b⟩, c⟩
    · rw [hf] at h h1
      simp only [List.mem_append] at h
      rcases h with h | h
      · obtain ⟨a, b, c⟩ := h1 h
        exact ⟨a, ⟨tr, by simp, b⟩, c⟩
      · obtain ⟨a, ⟨tr'', hm, b⟩, c⟩ := ih h
        exact ⟨a, ⟨tr'', by simp [hm], b⟩, c⟩

/-- **C102**: if a single event is inverted, the figures of the correction are named after the event
and the channel they show.  Missing: several events, see the counterexample. -/
theorem C102_figures_partial {env : Response.Env} {m : Mode} {o : Opts}
    (hw : o.options.WF) (hp : o.plot = true) {pairs : List (String × String)}
    {streams out : List RStream} {figs : List Figure} {ev : String}
    (h : removeResponse env (.str (Spec.modeName m)) o pairs streams = .ok (out, figs))
    (hpairs : pairs ≠ []) (hev : ∀ p ∈ pairs, p.1 = ev) (hs : ∀ s ∈ streams, s.event = ev)
    {fig : Figure} (hf : fig ∈ figs) : fig.event = ev ∧
      (∃ s ∈ streams, ∃ tr ∈ s.traces, fig.channel = tr.id) ∧ Spec.OwnName env o fig := by
  have := removeResponse_ok h
  have hlast : (pairs.getLast?.map Prod.fst).getD "" = ev := by
    rw [List.getLast?_eq_some_getLast hpairs]
    exact hev _ (List.getLast_mem hpairs)
  rw [hlast] at this
  unfold correctAll at this
  simp only [Prod.mk.injEq] at this
  rw [← this.2] at hf
  obtain ⟨s, hsm, hf⟩ := List.mem_flatMap.1 hf
  unfold correctStream at hf
  split_ifs at hf
  · simp at hf
  · cases m with
    | full =>
      simp only [hs s hsm] at hf
      obtain ⟨a, ⟨tr, ht, b⟩, c⟩ := fullTraces_figures hw hp hf
      exact ⟨a, ⟨s, hsm, tr, ht, b⟩, c⟩
    | sensitivity => simp at hf

namespace ResponseExample

/-- Sensitivity 2 for all channels but `X`; deconvolution gives zeros. -/
def env : Response.Env where
  responseOf := fun id => if id = "X" then none else some ⟨some 2, 0⟩
  deconvolve := fun _ _ d => .ok (d.map (fun _ => 0))
  format := fun _ evid id => .ok (evid ++ "_" ++ id)

theorem env_keywords : Spec.Keywords env := fun _ _ _ _ _ => rfl

/-- Data of two events and two stations. -/
def streams : List RStream :=
  [⟨"1", "A", [⟨"A.Z", [2, 4]⟩]⟩, ⟨"1", "X", [⟨"X", [1]⟩]⟩, ⟨"2", "A", [⟨"A.Z", [6]⟩]⟩]

/-- The pairs. -/
def pairs : List (String × String) := [("1", "A"), ("1", "X"), ("2", "A")]

end ResponseExample

open ResponseExample

/-- **C102** does not hold for the figures of several events which are inverted simultaneously: all of
them are named after the event of the last pair, the figures of one event overwrite those of the other
one. -/
theorem C102_figures_counterexample :
    ∃ out f1 f2, removeResponse env (.str "full") ⟨true, []⟩ pairs streams = .ok (out, [f1, f2]) ∧
      f1.event = "1" ∧ f2.event = "2" ∧ f1.channel = "A.Z" ∧ f2.channel = "A.Z" ∧
      f1.file = f2.file ∧ ¬ Spec.OwnName env ⟨true, []⟩ f1 := by
  refine ⟨[⟨"1", "A", [⟨"A.Z", [0, 0]⟩]⟩, ⟨"2", "A", [⟨"A.Z", [0]⟩]⟩], ⟨.str "2_A.Z", "1", "A.Z"⟩,
    ⟨.str "2_A.Z", "2", "A.Z"⟩, ?_, rfl, rfl, rfl, rfl, rfl, ?_⟩
  · simp [removeResponse, mode, checkTemplate, template, Except.map, correctAll, correctStream, keep, streams,
      pairs, env, fullTraces, fullTrace, traceOptions, passed, Dict.setdefault, Dict.get?, Dict.set,
      Dict.pop, bind, Except.bind, pure, Except.pure, J.truthy]
  · rintro ⟨f, t, h1, h2, -⟩
    simp only [J.str.injEq] at h1
    subst h1
    simp [env] at h2

/-- The hypotheses of C102 can be met: division by the sensitivity, a station without response is
skipped. -/
example : removeResponse env (.str (Spec.modeName .sensitivity)) ⟨false, []⟩ pairs streams =
    .ok ([⟨"1", "A", [⟨"A.Z", [1, 2]⟩]⟩, ⟨"2", "A", [⟨"A.Z", [3]⟩]⟩], []) ∧ Spec.Keywords env := by
  refine ⟨?_, env_keywords⟩
  simp [removeResponse, mode, Spec.modeName, checkTemplate, Except.map, correctAll, correctStream, keep, streams,
    env, mapExc, sensTrace, bind, Except.bind, pure, Except.pure]
  norm_num

/-- The hypotheses of `C102_figures_partial` can be met. -/
example : removeResponse env (.str (Spec.modeName .full)) ⟨true, []⟩ [("1", "A")]
    [⟨"1", "A", [⟨"A.Z", [2, 4]⟩]⟩] =
    .ok ([⟨"1", "A", [⟨"A.Z", [0, 0]⟩]⟩], [⟨.str "1_A.Z", "1", "A.Z"⟩]) := by
  simp [removeResponse, mode, Spec.modeName, checkTemplate, template, Except.map, correctAll,
    correctStream, keep, env, fullTraces, fullTrace, traceOptions, passed, Dict.setdefault, Dict.get?, Dict.set,
      Dict.pop, bind, Except.bind, pure, Except.pure, J.truthy]

end Qopen
