import Verif.Model.EventFigure
import Verif.Props.FigureEvent

/-!
# C155: source model in the figure of a single event
-/

namespace Qopen

open Real Source Spec Util Figures Imaging EventFigure

section

variable {smm : Option Method} {smo : Dict String Cell} {o : FigOpts} {rs : List OneRes} {wanted : Bool}

theorem methodOf_updated (o : FigOpts) (smm : Option Method) (smo : Dict String Cell) :
    methodOf (updated o smm smo) = .ok smm := by
  unfold methodOf updated
  simp [Dict.update, Dict.get?_set]

theorem optionsOf_updated (o : FigOpts) (smm : Option Method) (smo : Dict String Cell) :
    optionsOf (updated o smm smo) = .ok smo := by
  unfold optionsOf updated
  simp [Dict.update]

theorem draw_updated (o : FigOpts) (smm : Option Method) (smo : Dict String Cell) (res : OneRes) :
    drawEventresult (updated o smm smo) res = plotEventresult res none (quantitiesOf res) smm smo := by
  unfold drawEventresult
  rw [methodOf_updated, optionsOf_updated]
  rfl

/-- **C155** (during the inversion): the figure of each event is drawn with method and options of the
inversion, whatever the options of the figure say and whatever was drawn before. -/
theorem C155_inversion (o : FigOpts) (i : ℕ) (r : OneRes) (hr : rs[i]? = some r) :
    (invertFigures true smm smo o rs).2[i]? =
      some (some (plotEventresult r none (quantitiesOf r) smm smo)) := by
  induction rs generalizing o i with
  | nil => simp at hr
  | cons a rs ih =>
    cases i with
    | zero =>
      simp at hr
      subst hr
      simp [invertFigures, invertFigure, draw_updated]
    | succ i =>
      simp at hr
      simpa [invertFigures] using ih _ i hr

/-- **C155**: without the option neither figures are drawn nor options changed. -/
theorem C155_not_wanted (o : FigOpts) (aligned : OneRes) :
    (invertFigures false smm smo o rs).1 = o ∧ (∀ f ∈ (invertFigures false smm smo o rs).2, f = none) ∧
      alignedFigure false o rs aligned = none ∧ plottedFigure false o aligned = none := by
  refine ⟨?_, ?_, rfl, rfl⟩
  · induction rs generalizing o with
    | nil => rfl
    | cons a rs ih => exact ih o
  · induction rs generalizing o with
    | nil => simp [invertFigures]
    | cons a rs ih =>
      intro f hf
      simp only [invertFigures, List.mem_cons] at hf
      rcases hf with rfl | hf
      · rfl
      · exact ih _ f hf

theorem methodOf_figures (o : FigOpts) (hne : rs ≠ []) :
    methodOf (invertFigures true smm smo o rs).1 = .ok smm := by
  induction rs generalizing o with
  | nil => exact absurd rfl hne
  | cons a rs ih =>
    by_cases h : rs = []
    · subst h
      exact methodOf_updated o smm smo
    · exact ih _ h

/-- The panel of the spectrum in a figure of an event. -/
theorem sds_panel {res : OneRes} {v0 : Option ℝ} {qs : List String} {ps : List (String × EventPanel)}
    {p : SdsPanel} (h : plotEventresult res v0 qs smm smo = .ok ps) (hp : ("sds", .sds (some p)) ∈ ps) :
    "sds" ∈ qs ∧ ∃ r, mergedRes res qs = .ok r ∧ plotSds res.freq r smm smo = .ok (some p) := by
  unfold plotEventresult at h
  obtain ⟨r, hr, h⟩ := bind_ok.1 h
  obtain ⟨q, hqm, hq⟩ := FigureSites.forall₂_right (mapExc_ok.1 h) _ hp
  obtain ⟨x, hx, hq⟩ := bind_ok.1 hq
  simp only [pure, Except.pure, Except.ok.injEq, Prod.mk.injEq] at hq
  obtain ⟨rfl, rfl⟩ := hq
  unfold eventPanel at hx
  rw [if_pos rfl] at hx
  obtain ⟨y, hy, hx⟩ := bind_ok.1 hx
  simp only [pure, Except.pure, Except.ok.injEq, EventPanel.sds.injEq] at hx
  exact ⟨hqm, r, hr, by rw [hy, hx]⟩

theorem no_method_no_curve {freq : List ℝ} {r : Dict String Val} {p : SdsPanel}
    (h : plotSds freq r none smo = .ok (some p)) : p.curve = [] := by
  unfold plotSds at h
  obtain ⟨colour, hc, h⟩ := bind_ok.1 h
  obtain ⟨spec, hs, h⟩ := bind_ok.1 h
  split at h
  · simp [pure, Except.pure] at h
  · obtain ⟨M0, e1, h⟩ := bind_ok.1 h
    obtain ⟨fc, e2, h⟩ := bind_ok.1 h
    obtain ⟨n, e3, h⟩ := bind_ok.1 h
    obtain ⟨g, e4, h⟩ := bind_ok.1 h
    simp only at h
    obtain ⟨pts, -, h⟩ := bind_ok.1 h
    obtain ⟨-, -, h⟩ := bind_ok.1 h
    obtain ⟨l, -, h⟩ := bind_ok.1 h
    simp [pure, Except.pure] at h
    rw [← h]

/-- **C155** (after the alignment, and the reason why the full statement fails): the figure of an event
drawn after the alignment never shows the source model, not even if its options name a method. -/
theorem C155_no_model_after_alignment (o : FigOpts) (hne : rs ≠ []) (aligned : OneRes)
    {ps : List (String × EventPanel)} (h : alignedFigure true o rs aligned = some (.ok ps)) {p : SdsPanel}
    (hp : ("sds", .sds (some p)) ∈ ps) : p.curve = [] := by
  unfold alignedFigure drawEventresult at h
  rw [if_pos rfl, methodOf_figures o hne] at h
  simp only [Option.some.injEq] at h
  obtain ⟨d, -, h⟩ := bind_ok.1 (show (do let smo ← _; plotEventresult _ _ _ none smo) = Except.ok ps from h)
  obtain ⟨-, r, -, hr⟩ := sds_panel h hp
  exact no_method_no_curve hr

/-- **C155** (command `plot`): the source model is drawn with the method named in the options of the
figure; it is not looked up in the documented configuration, so without this option there is no model. -/
theorem C155_plotted (o : FigOpts) (res : OneRes) :
    (∀ d, o.get? "seismic_moment_method" = some (.method smm) → optionsOf o = .ok d →
      plottedFigure true o res = some (plotEventresult res none (quantitiesOf res) smm d)) ∧
    (o.get? "seismic_moment_method" = none → ∀ ps p, plottedFigure true o res = some (.ok ps) →
      ("sds", .sds (some p)) ∈ ps → p.curve = []) := by
  constructor
  · intro d h1 h2
    unfold plottedFigure drawEventresult methodOf
    rw [if_pos rfl, h1, h2]
    rfl
  · intro h1 ps p h hp
    unfold plottedFigure drawEventresult methodOf at h
    rw [if_pos rfl, h1] at h
    simp only [Option.some.injEq] at h
    obtain ⟨d, -, h⟩ := bind_ok.1 (show (do let smo ← _; plotEventresult _ _ _ none smo) = Except.ok ps from h)
    obtain ⟨-, r, -, hr⟩ := sds_panel h hp
    exact no_method_no_curve hr

/-- Points, curve and level depend on the entries of the source only. -/
theorem plotSds_same {freq : List ℝ} {r r' : Dict String Val} {p : SdsPanel}
    (hs : ∀ k ∈ ["sds", "M0", "fc", "n", "gamma", "fit_error"], r'.get? k = r.get? k)
    (h : plotSds freq r smm smo = .ok (some p)) :
    plotSds freq r' smm smo true true = .ok (some { p with colour := .uniform }) := by
  have hn : ∀ k ∈ ["sds", "M0", "fc", "n", "gamma", "fit_error"], numberOf r' k = numberOf r k := by
    intro k hk
    unfold numberOf
    rw [hs k hk]
  have hg : ∀ k ∈ ["sds", "M0", "fc", "n", "gamma", "fit_error"], getParam smo r' k = getParam smo r k := by
    intro k hk
    unfold getParam
    rw [hn k hk]
  have hl : labelOf r' = labelOf r := by
    unfold labelOf
    have h1 : labelKeys.filter (fun k => (r'.get? k).isSome) = labelKeys.filter (fun k => (r.get? k).isSome) := by
      apply List.filter_congr
      intro k hk
      rw [hs k (List.mem_cons_of_mem _ hk)]
    rw [h1]
    have h2 : ∀ l : List String, (∀ k ∈ l, k ∈ labelKeys) →
        mapExc (fun k => do
          let c ← numberOf r' k
          match c with
          | .none => .error .typeError
          | c => return (k, c)) l =
        mapExc (fun k => do
          let c ← numberOf r k
          match c with
          | .none => .error .typeError
          | c => return (k, c)) l := by
      intro l hl
      induction l with
      | nil => rfl
      | cons k l ih =>
        rw [mapExc, mapExc, hn k (List.mem_cons_of_mem _ (hl k List.mem_cons_self)),
          ih (fun k hk => hl k (List.mem_cons_of_mem _ hk))]
    exact h2 _ (fun k hk => List.mem_of_mem_filter hk)
  have hsp : spectrumOf r' = spectrumOf r := by
    unfold spectrumOf
    rw [hs "sds" (by decide)]
  unfold plotSds at h ⊢
  obtain ⟨colour, hc, h⟩ := bind_ok.1 h
  have hcol : colourOf r' true true none none none = .ok .uniform := by
    unfold colourOf
    split
    · contradiction
    · contradiction
    · rfl
  rw [hcol, hsp, hg "M0" (by decide), hg "fc" (by decide), hg "n" (by decide), hg "gamma" (by decide), hl]
  obtain ⟨spec, hs', h⟩ := bind_ok.1 h
  rw [hs']
  simp only [bind, Except.bind] at h ⊢
  split at h
  · simp [pure, Except.pure] at h
  · rename_i hall
    rw [if_neg hall]
    cases e1 : getParam smo r "M0" with
    | error e => rw [e1] at h; simp at h
    | ok M0 =>
    cases e2 : getParam smo r "fc" with
    | error e => rw [e1, e2] at h; simp at h
    | ok fc =>
    cases e3 : getParam smo r "n" with
    | error e => rw [e1, e2, e3] at h; simp at h
    | ok n =>
    cases e4 : getParam smo r "gamma" with
    | error e => rw [e1, e2, e3, e4] at h; simp at h
    | ok g =>
    rw [e1, e2, e3, e4] at h
    simp only at h ⊢
    split at h
    · unfold meanPanel at h
      split at h
      · simp at h
      · split at h <;> simp at h
    · cases e5 : sdsPoints freq spec with
      | error e => rw [e5] at h; simp at h
      | ok pts =>
      cases e6 : checkColours colour freq.length with
      | error e => rw [e5, e6] at h; simp at h
      | ok u =>
      cases e7 : labelOf r with
      | error e => rw [e5, e6, e7] at h; simp at h
      | ok l =>
      rw [e5, e6, e7] at h
      simp only [checkColours, pure, Except.pure, Except.ok.injEq, Option.some.injEq] at h ⊢
      rw [← h]

/-- **C155** (partial: for figures drawn during the inversion): if the source model of an event has been
fitted with method and options of the inversion, the figure of the event shows the reported spectrum,
the reported moment and the fitted model. -/
theorem C155_shows_model_partial {orc : Oracle} {ev ev' : EvRes} {v0 rho0 mag : Option ℝ} {m : Method}
    (hm : isFit m) {op : Opts} (hd : Spec.OptionsOf smo op)
    (hnew : ∀ k ∈ ["M0", "fc", "n", "gamma", "fit_error"], ev.extra.get? k = none)
    (i : ℕ) (r : OneRes) (hr : rs[i]? = some r)
    (h : insertSourceProperties orc r.freq ev v0 rho0 (some m) (some op) mag = .ok ev')
    {id : String} {e : Dict String Val} (hev : r.events = [(id, e)]) (hwf : e.WF)
    (he : ∀ k ∈ ["sds", "M0", "fc", "n", "gamma", "fit_error"], e.get? k = ev'.extra.get? k)
    (htop : ∀ k ∈ ["sds", "M0", "fc", "n", "gamma", "fit_error"], r.top.get? k = none)
    (hf : ∀ f ∈ r.freq, 0 < f) {ps : List (String × EventPanel)} {p : SdsPanel}
    (hfig : (invertFigures true (some m) smo o rs).2[i]? = some (some (.ok ps)))
    (hp : ("sds", .sds (some p)) ∈ ps) :
    p.points = points r.freq (Spec.spectrum ev'.extra) ∧
    ((ev'.extra.get? "M0" = none ∧ p.curve = [] ∧ p.level = none) ∨
      ∃ M0 fc n g err, 0 < M0 ∧ ev'.extra.get? "M0" = some (.cell (.num M0)) ∧
        ev'.extra.get? "fit_error" = some (.cell (.num err)) ∧
        Spec.paramOf ev'.extra op.fc "fc" = some fc ∧ Spec.paramOf ev'.extra op.n "n" = some n ∧
        Spec.paramOf ev'.extra op.gamma "gamma" = some g ∧ p.level = some M0 ∧
        (0 < fc → p.curve = (Spec.hundred (r.freq.headD 0 / 1.5) (r.freq.getLastD 0 * 1.5)).map
          (fun f => (f, some (omegaModel M0 fc n g f)))) ∧
        (0 < fc → g ≠ 0 → err = rmsLogMisfit p.points (omegaModel M0 fc n g))) := by
  rw [C155_inversion o i r hr] at hfig
  simp only [Option.some.injEq] at hfig
  obtain ⟨hq, d, hmer, hsds⟩ := sds_panel hfig hp
  have hsame : ∀ k ∈ ["sds", "M0", "fc", "n", "gamma", "fit_error"], ev'.extra.get? k = d.get? k := by
    intro k hk
    unfold mergedRes at hmer
    split at hmer
    · rw [hev] at hmer
      simp only [Except.ok.injEq] at hmer
      rw [← hmer, Dict.get?_update _ _ hwf, he k hk, htop k hk]
      cases ev'.extra.get? k <;> rfl
    · rename_i hno
      exact absurd (Or.inr hq) hno
  have := C95_curve orc r.freq ev ev' v0 rho0 mag m hm op smo hd hnew h true true none none none _
    (plotSds_same hsame hsds) hf
  exact this

end

namespace EventFigureExample

/-- The result of an event: energies, spectrum and source model. -/
noncomputable def entry (a b M0 err mw : ℝ) : Dict String Val :=
  [("W", .cells [.num 1, .num 1]), ("sds", .cells [.num a, .num b]), ("M0", .cell (.num M0)),
    ("fit_error", .cell (.num err)), ("Mw", .cell (.num mw))]

noncomputable def result (a b M0 err mw : ℝ) : OneRes :=
  ⟨[1, 2], some 1, none, [("error", .cells [.num 1, .num 1])], none, [("e", entry a b M0 err mw)]⟩

/-- The panel of the spectrum. -/
noncomputable def panel (smm : Option Method) (a b M0 err : ℝ) : SdsPanel :=
  ⟨[(1, a), (2, b)], .uniform, if smm = some .fit ∨ smm = some .robustFit then
    modelCurve [1, 2] (.num M0) (.num 5) .none .none else [], some M0, [("M0", .num M0), ("fit_error", .num err)]⟩

theorem figure {smm : Option Method} {smo : Dict String Cell} {a b M0 err mw : ℝ} {p : SdsPanel}
    (hs : plotSds [1, 2] (("error", .cells [.num 1, .num 1]) :: entry a b M0 err mw) smm smo = .ok (some p)) :
    plotEventresult (result a b M0 err mw) none (quantitiesOf (result a b M0 err mw)) smm smo =
      .ok [("error", .curve [some 1, some 1]), ("W", .curve [some 1, some 1]), ("sds", .sds (some p))] := by
  have hq : quantitiesOf (result a b M0 err mw) = ["error", "W", "sds"] := by
    simp [quantitiesOf, energiesKnown, result, entry, Dict.get?_cons]
  rw [hq]
  unfold entry at hs
  have n1 : needsFreq "error" = false := by simp [needsFreq]
  have n2 : needsFreq "W" = false := by simp [needsFreq]
  unfold plotEventresult mergedRes
  simp only [result, List.mem_cons, true_or, or_true, if_true, bind, Except.bind, mapExc, eventPanel]
  simp [hs, entry, depMap, Dict.get?_cons, Dict.update, Dict.set, calcDependent, freqsFor, dependRow, dependOne,
    pyOr, plain, bind, Except.bind, pure, Except.pure, n1, n2, Cell.val?]

theorem with_model {a b M0 err mw : ℝ} (h0 : M0 ≠ 0) :
    plotSds [1, 2] (("error", .cells [.num 1, .num 1]) :: entry a b M0 err mw) (some .fit) [("fc", .num 5)] =
      .ok (some (panel (some .fit) a b M0 err)) := by
  unfold plotSds
  simp [entry, colourOf, spectrumOf, Dict.get?_cons, bind, Except.bind, pure,
    Except.pure, Cell.val?, getParam, numberOf, Cell.truthy, sdsPoints, checkColours, labelOf, labelKeys,
    mapExc, levelOf, panel, h0]

theorem without_model {a b M0 err mw : ℝ} (h0 : M0 ≠ 0) :
    plotSds [1, 2] (("error", .cells [.num 1, .num 1]) :: entry a b M0 err mw) none [] =
      .ok (some (panel none a b M0 err)) := by
  unfold plotSds
  simp [entry, colourOf, spectrumOf, Dict.get?_cons, bind, Except.bind, pure,
    Except.pure, Cell.val?, getParam, numberOf, Cell.truthy, sdsPoints, checkColours, labelOf, labelKeys,
    mapExc, levelOf, panel, h0]

/-- Options of the figure with method and options of the source model. -/
noncomputable def options : FigOpts :=
  [("seismic_moment_method", .method (some .fit)), ("seismic_moment_options", .options [("fc", .num 5)])]

/-- **C155** (counterexample): the same result, the same options.  Command `plot` shows the source model,
but the figure which is drawn after the alignment does not: the inversion has removed the method from
the options of the figure. -/
theorem _root_.Qopen.C155_overwritten_counterexample :
    ∃ (res : OneRes) (o : FigOpts) (ps qs : List (String × EventPanel)) (p q : SdsPanel),
      plottedFigure true o res = some (.ok ps) ∧ ("sds", .sds (some p)) ∈ ps ∧ p.curve ≠ [] ∧
      alignedFigure true o [res] res = some (.ok qs) ∧ ("sds", .sds (some q)) ∈ qs ∧ q.curve = [] := by
  have h0 : (2 : ℝ) ≠ 0 := by norm_num
  have h1 : plottedFigure true options (result 1 1 2 1 1) = some (.ok [("error", .curve [some 1, some 1]),
      ("W", .curve [some 1, some 1]), ("sds", .sds (some (panel (some .fit) 1 1 2 1)))]) := by
    rw [(C155_plotted (smm := some .fit) options _).1 [("fc", .num 5)] rfl rfl, figure (with_model h0)]
  have h2 : alignedFigure true options [result 1 1 2 1 1] (result 1 1 2 1 1) =
      some (.ok [("error", .curve [some 1, some 1]), ("W", .curve [some 1, some 1]),
        ("sds", .sds (some (panel none 1 1 2 1)))]) := by
    unfold alignedFigure invertFigures invertFigures invertFigure
    simp only [if_true]
    rw [draw_updated, figure (without_model h0)]
  refine ⟨_, _, _, _, panel (some .fit) 1 1 2 1, panel none 1 1 2 1, h1, by simp, ?_, h2, by simp, ?_⟩
  · simp [panel, modelCurve, Cell.truthy, InvertFb.linspace]
  · exact C155_no_model_after_alignment options (by simp) _ h2 (by simp)

/-- During the inversion the model is shown, even if the options of the figure say otherwise. -/
example : ∃ (ev' : EvRes) (r : OneRes) (ps : List (String × EventPanel)) (p : SdsPanel) (M0 : ℝ),
    insertSourceProperties ⟨fun _ _ => [30], fun _ _ => [30], fun _ => (0, 0),
      fun _ _ => 2, fun _ _ _ => []⟩ r.freq ⟨[.num 1, .num 1], [], []⟩ (some 1) (some 1) (some .fit)
      (some { fc := some 5 }) none = .ok ev' ∧
    (invertFigures true (some .fit) [("fc", .num 5)] [("seismic_moment_method", .method none)] [r]).2[0]? =
      some (some (.ok ps)) ∧ ("sds", .sds (some p)) ∈ ps ∧ p.level = some M0 ∧
    p.curve = (Spec.hundred (1 / 1.5) (2 * 1.5)).map (fun f => (f, some (omegaModel M0 5 2 1 f))) := by
  have hp : ∀ f : ℝ, ¬ sdsArg 1 f 1 1 < 0 := by
    intro f; unfold sdsArg; rw [not_lt]; positivity
  have h : ∃ a b err mw : ℝ, insertSourceProperties ⟨fun _ _ => [30], fun _ _ => [30],
      fun _ => (0, 0), fun _ _ => 2, fun _ _ _ => []⟩ [1, 2] ⟨[.num 1, .num 1], [], []⟩ (some 1)
      (some 1) (some .fit) (some { fc := some 5 }) none = .ok ⟨[.num 1, .num 1], [],
        [("sds", .cells [.num a, .num b]), ("M0", .cell (.num (exp 30))),
          ("fit_error", .cell (.num err)), ("Mw", .cell (.num mw))]⟩ := by
    simp [insertSourceProperties, sdsEntries, mapExc, pyGet, bind, Except.bind, pure, Except.pure,
      Cell.truthy, sdsCell, sds, hp, sdsStart, truthy, fitSds, fitResult, unknowns, lstsq, tooFew,
      Cell.val?, insertFit, nanToNone, Dict.get?_cons, Dict.set, Dict.update, Dict.mapVals]
  obtain ⟨a, b, err, mw, h⟩ := h
  have hfig := C155_inversion (rs := [result a b (exp 30) err mw]) (smm := some .fit) (smo := [("fc", .num 5)])
    [("seismic_moment_method", .method none)] 0 _ rfl
  rw [figure (with_model (exp_ne_zero 30))] at hfig
  have hd : Spec.OptionsOf [("fc", .num 5)] { fc := some 5 } := by
    refine ⟨rfl, rfl, rfl, rfl, ?_⟩
    intro k c h
    simp [Dict.get?_cons] at h
    obtain ⟨rfl, rfl⟩ := h
    simp
  obtain ⟨-, h1 | ⟨M0, fc, n, g, e, k1, k2, k3, k4, k5, k6, k7, k8, -⟩⟩ := C155_shows_model_partial (.inl rfl) hd
    (by simp) 0 _ rfl h (id := "e") (e := entry a b (exp 30) err mw) rfl (by simp [Dict.WF, Dict.keys, entry])
    (by intro k hk; simp at hk; rcases hk with rfl | rfl | rfl | rfl | rfl | rfl <;> rfl)
    (by intro k hk; simp at hk; rcases hk with rfl | rfl | rfl | rfl | rfl | rfl <;> rfl)
    (by simp [result]) hfig (p := panel (some .fit) a b (exp 30) err) (by simp)
  · simp [Dict.get?_cons] at h1
  · have e4 : (5 : ℝ) = fc := by simpa [Spec.paramOf, Dict.get?_cons] using k4
    have e5 : (2 : ℝ) = n := by simpa [Spec.paramOf, Dict.get?_cons] using k5
    have e6 : (1 : ℝ) = g := by simpa [Spec.paramOf, Dict.get?_cons] using k6
    subst e4 e5 e6
    exact ⟨_, _, _, _, M0, h, hfig, by simp, k7, k8 (by norm_num)⟩

end EventFigureExample

end Qopen
