import Verif.Props.SourceLimits
import Verif.Props.SourceRecalc
import Verif.Props.SiteSelect

/-!
# The alignment succeeds also if source models are fitted (C79, C114)
-/

namespace Qopen

open Real Spec Source Site Util

namespace Spec

/-- Options with which source spectra can be fitted: a corner frequency for the mean, ordered
limits for the parameters which have to be searched (by default the corner frequency is searched
between the first and the last frequency). -/
structure UsableOpts (freq : List ℝ) (m : Method) (o : Opts) : Prop where
  mean : m = .mean → o.fc ≠ none
  fc : isFit m → o.fc = none → ∀ l, o.fcLim = some l → l.1 ≤ l.2
  freq : isFit m → o.fc = none → o.fcLim = none → freq.Pairwise (· ≤ ·)
  n : isFit m → o.n = none → ∃ l, o.nLim = some l ∧ 0 ≤ l.1 ∧ l.1 ≤ l.2
  gamma : isFit m → o.gamma = none → ∃ l, o.gammaLim = some l ∧ 0 ≤ l.1 ∧ l.1 ≤ l.2

end Spec

theorem points_sublist (freq : List ℝ) (omM : List Cell) :
    ((points freq omM).map Prod.fst).Sublist freq := by
  unfold points
  induction freq generalizing omM with
  | nil => simp
  | cons f fs ih =>
    cases omM with
    | nil => simp
    | cons c cs =>
      simp only [List.zip_cons_cons, List.filterMap_cons]
      cases c with
      | none => exact (ih cs).cons _
      | nan => exact (ih cs).cons _
      | num x => exact (ih cs).cons_cons _

theorem usable_limits {freq : List ℝ} {omM : List Cell} {m : Method} {o : Opts} (hm : isFit m)
    (hu : UsableOpts freq m o) : SearchLimits o (points freq omM) := by
  refine ⟨hu.fc hm, ?_, ?_, ?_, ?_⟩
  · intro h hl p q hp hq
    have hs := (hu.freq hm h hl).sublist (points_sublist freq omM)
    generalize points freq omM = pts at hs hp hq
    cases pts with
    | nil => simp at hp
    | cons a l =>
      simp only [List.head?_cons, Option.some.injEq] at hp
      subst hp
      have hq' := List.mem_of_getLast? hq
      rcases List.mem_cons.1 hq' with rfl | h1
      · exact le_rfl
      · exact (List.pairwise_cons.1 hs).1 _ (List.mem_map.2 ⟨q, h1, rfl⟩)
  · intro h
    obtain ⟨l, e, -, hl⟩ := hu.n hm h
    exact ⟨l, e, fun _ => hl⟩
  · intro h
    obtain ⟨l, e, -, hl⟩ := hu.gamma hm h
    exact ⟨l, e, fun _ => hl⟩
  · intro h h' l l' e e'
    obtain ⟨_, e1, l0, hl⟩ := hu.n hm h
    obtain ⟨_, e2, l0', hl'⟩ := hu.gamma hm h'
    rw [e] at e1; obtain rfl := Option.some.inj e1
    rw [e'] at e2; obtain rfl := Option.some.inj e2
    exact mul_le_mul hl hl' l0' (l0.trans hl)

/-- With usable options the fit returns a result (or `None`) for every spectrum. -/
theorem fitSds_total {orc : Oracle} (hs : IsSearch orc) {freq : List ℝ} {omM : List Cell}
    (hlen : freq.length = omM.length) {m : Method} {o : Opts} (hu : UsableOpts freq m o) :
    ∃ r, fitSds orc freq omM m o = .ok r := by
  have key : isFit m → ∃ r, fitSds orc freq omM m o = .ok r := fun hm =>
    (C63_fit_raises_iff orc freq omM m hm o hlen hs.length).2 (fun _ _ => usable_limits hm hu)
  cases m with
  | fit => exact key (Or.inl rfl)
  | robustFit => exact key (Or.inr rfl)
  | other => exact ⟨_, rfl⟩
  | mean =>
    unfold fitSds
    simp only
    cases hfc : o.fc with
    | none => exact absurd hfc (hu.mean rfl)
    | some fc =>
      simp only
      split
      · exact ⟨_, rfl⟩
      · split
        · simp [gstat, weightedStat, weightsMismatch, bind, Except.bind, pure, Except.pure]
        · exact ⟨_, rfl⟩

theorem calc_total_usable {orc : Oracle} (hs : IsSearch orc) {conf : Config} {freq : List ℝ}
    {events : Dict String EvRes} {rho0 v0 : Option ℝ} {smm : Option Method} {smo : Option Opts}
    (hu : ∀ m, smm.or conf.smm = some m → ∃ o, smo.or conf.smo = some o ∧ UsableOpts freq m o)
    (h0 : ∀ f ∈ freq, f ≠ 0) (hwf : ∀ e ∈ events, Dict.WF e.2.extra)
    (hW : ∀ e ∈ events, freq.length ≤ e.2.W.length) :
    ∃ events', calculateSourceProperties orc conf freq events rho0 v0 smm smo = .ok events' := by
  unfold calculateSourceProperties
  simp only
  split
  · apply mapExc_total
    intro p hp
    obtain ⟨e, he⟩ : ∃ e, recalcEvent orc freq (pyOr v0 conf.v0) (pyOr rho0 conf.rho0)
        (smm.or conf.smm) (smo.or conf.smo) p.2 = .ok e := by
      unfold recalcEvent
      simp only
      split
      · next hv =>
        unfold insertSourceProperties
        obtain ⟨l, hl⟩ := sdsEntries_total (v0 := pyOr (EvRes.v0 p.2) (pyOr v0 conf.v0))
          (rho0 := pyOr rho0 conf.rho0) (hW p hp) h0
        simp only [hl, bind, Except.bind]
        cases hm : smm.or conf.smm with
        | none => exact ⟨_, rfl⟩
        | some m =>
          obtain ⟨o, ho, hus⟩ := hu m hm
          simp only [ho]
          have hst : sdsStart { p.2 with extra := poppedKeys.foldl (fun d k => d.pop k) p.2.extra }
              (pyOr (EvRes.v0 p.2) (pyOr v0 conf.v0)) (pyOr rho0 conf.rho0) = [] := by
            unfold sdsStart
            split
            · rfl
            · simp only
              rw [get?_pops _ _ (hwf p hp)]
              simp [poppedKeys]
          have hlen : freq.length = l.length := by
            have := (mapExc_ok.1 hl).length_eq
            simpa using this
          rw [hst, List.nil_append]
          obtain ⟨r, hr⟩ := fitSds_total hs hlen hus
          rw [hr]
          exact ⟨_, rfl⟩
      · exact ⟨_, rfl⟩
    exact ⟨(p.1, e), by rw [he]; rfl⟩
  · exact ⟨_, rfl⟩

variable {orc : Oracle} {rlm : List ℝ → ℝ × ℝ}
  {solve : Bool → ℕ → List (List ℝ) → List ℝ → List ℝ} {results : Results}
  {sel : StationSel} {response : Response} {us : Bool} {smm : Option Method}
  {smo : Option Opts} {ignore : Option (List String)}

/-- **C114**: the same for alignments which fit source models: in addition the options of the fit
have to be usable. -/
theorem C114_succeeds_with_source_model_partial {n : ℕ} (hs : IsSearch orc)
    (hc : CompleteResults results.events n) (hr : ∀ i < n, (requested response i).isSome)
    (hsel : ∀ i < n, ∀ area, LargestArea (resultsOf results.events) i (notIgnored ignore) area →
      ∃ s ∈ area, IsNamed sel s)
    (hig : ∀ i < n, (∃ e ∈ resultsOf results.events, ∃ s, (respOf e.2 s i).isSome) →
      ∃ e ∈ resultsOf results.events, ∃ s, notIgnored ignore s ∧ (respOf e.2 s i).isSome)
    (hu : ∀ m, smm.or results.config.smm = some m →
      ∃ o, smo.or results.config.smo = some o ∧ UsableOpts results.freq m o)
    (hwf : ∀ e ∈ resultsOf results.events, e.2.extra.WF) (hf : results.freq.length ≤ n)
    (hf0 : ∀ f ∈ results.freq, f ≠ 0) :
    ∃ out, align orc rlm solve results sel response us smm smo ignore = .ok out := by
  apply align_total_of hc.stations hc.some_event hc.energies hc.responses
  · intro i hi
    obtain ⟨r, h⟩ := Option.isSome_iff_exists.1 (hr i hi)
    exact ⟨r, (responseAt_iff response i r).2 h⟩
  · intro i hi a ha
    obtain ⟨s, hs, hn⟩ := hsel i hi a (largestArea_of' hc.stations ha)
    refine ⟨s, Finset.mem_filter.2 ⟨hs, ?_⟩⟩
    cases sel with
    | all => rfl
    | name m => simp [selected, show s = m from hn]
    | names l => simpa [selected] using show s ∈ l from hn
  · intro i hi e he s hs
    obtain ⟨e', he', t, ht, h1⟩ := hig i hi ⟨e, he, s, hs⟩
    exact ⟨t, ht, e', he', h1⟩
  · intro events' h1 h2
    refine calc_total_usable hs hu hf0 ?_ (fun e he => by rw [h1 e he]; exact hf)
    intro e he
    obtain ⟨e0, he0, e1⟩ := h2 e he
    rw [e1]
    exact hwf e0 he0

/-- **C79**: with the default selection of stations, the alignment returns a result for every
complete result dictionary also if source models are fitted, provided that the options of the fit
are usable. -/
theorem C79_succeeds_with_source_model {n : ℕ} (hs : IsSearch orc)
    (hc : CompleteResults results.events n) (hr : ∀ i < n, (requested response i).isSome)
    (hu : ∀ m, smm.or results.config.smm = some m →
      ∃ o, smo.or results.config.smo = some o ∧ UsableOpts results.freq m o)
    (hwf : ∀ e ∈ resultsOf results.events, e.2.extra.WF) (hf : results.freq.length ≤ n)
    (hf0 : ∀ f ∈ results.freq, f ≠ 0) :
    ∃ out, align orc rlm solve results .all response us smm smo none = .ok out := by
  refine C114_succeeds_with_source_model_partial hs hc hr ?_ ?_ hu hwf hf hf0
  · intro i _ area ha
    obtain ⟨s, hs⟩ := ha.nonempty
    exact ⟨s, hs, trivial⟩
  · rintro i - ⟨e, he, s, h⟩
    exact ⟨e, he, s, by simp [notIgnored], h⟩

/-- A case which meets the hypotheses: the example of the alignment with a fit of the corner
frequency. -/
example (us : Bool) (rlm : List ℝ → ℝ × ℝ) : ∃ orc : Oracle, IsSearch orc ∧ ∃ out,
    align orc rlm (fun _ => someSolver)
      { demo with freq := [2, 8], config := { rho0 := some 2700, v0 := some 3000 } } .all (.scalar 1) us
      (some .fit) (some {}) none = .ok out := by
  obtain ⟨orc, -, hs⟩ := exists_isSearch (fun _ _ => [])
  refine ⟨orc, hs, C79_succeeds_with_source_model (n := 2) hs demo_complete (fun _ _ => rfl) ?_ ?_ (by simp)
    (by simp)⟩
  · intro m hm
    simp only [Option.some_or, Option.some.injEq] at hm
    subst hm
    refine ⟨{}, by simp, ⟨by simp, by simp, fun _ _ _ => ?_, by simp, by simp⟩⟩
    simp
    norm_num
  · intro e he
    obtain ⟨k, -, hk⟩ := List.mem_filterMap.1 he
    have hres : resultsOf demo.events =
      [("e2", ⟨[.num 3, .none], [("A", [.num 1, .none]), ("B", [.num 2, .none])], []⟩),
       ("e1", ⟨[.num 5, .num 7], [("B", [.num 4, .num 1]), ("C", [.num 6, .nan])], []⟩),
       ("e3", ⟨[.num 2, .num 2], [("X", [.num 9, .none])], []⟩)] := rfl
    change e ∈ resultsOf demo.events at he
    rw [hres] at he
    simp only [List.mem_cons, List.not_mem_nil, or_false] at he
    rcases he with rfl | rfl | rfl <;> simp [Dict.WF, Dict.keys]

end Qopen
