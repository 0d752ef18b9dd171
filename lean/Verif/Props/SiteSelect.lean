import Verif.Props.SiteTotal

/-!
# Alignment with named and with ignored stations (C114)
-/

namespace Qopen

open Real Spec Source Site

variable {orc : Oracle} {rlm : List ℝ → ℝ × ℝ}
  {solve : Bool → ℕ → List (List ℝ) → List ℝ → List ℝ} {results : Results} {sel : StationSel}
  {response : Response} {us : Bool} {smm : Option Method} {smo : Option Opts}
  {ignore : Option (List String)} {n i : ℕ}

/-- `mapExc` fails with `err` if no element fails otherwise and one fails with it. -/
theorem mapExc_fails {α β : Type} {f : α → Py β} {err : PyErr} {l : List α}
    (h : ∀ a ∈ l, (∃ b, f a = .ok b) ∨ f a = .error err) (h2 : ∃ a ∈ l, f a = .error err) :
    mapExc f l = .error err := by
  induction l with
  | nil => simp at h2
  | cons a l ih =>
    rcases h a (by simp) with ⟨b, hb⟩ | hb
    · have : mapExc f l = .error err := by
        apply ih (fun a' ha' => h a' (by simp [ha']))
        obtain ⟨a', ha', h3⟩ := h2
        rcases List.mem_cons.1 ha' with rfl | h4
        · rw [hb] at h3; simp at h3
        · exact ⟨a', h4, h3⟩
      simp [mapExc, hb, this, bind, Except.bind]
    · simp [mapExc, hb, bind, Except.bind]

/-- As `largestArea_of`, for dictionaries with unique stations. -/
theorem largestArea_of' {d : Dict String (Option EvRes)} (hst : ∀ e ∈ resultsOf d, e.2.R.WF)
    {a : Finset String} (hl : largest (findAreas (sortedEvents d) i ignore) = some a) :
    LargestArea (resultsOf d) i (notIgnored ignore) a := by
  have hR : RWF (sortedEvents d) := fun e he => hst e (mem_sortedEvents.1 he)
  have ha := isArea_of_mem hR (largest_some hl).1
  have hlk := linked_perm (a := sortedEvents d) (b := resultsOf d)
    (fun e => mem_sortedEvents) i (notIgnored ignore)
  refine ⟨ha.nonempty, ?_, ?_, ?_⟩
  · intro s hs
    obtain ⟨e, he, h1⟩ := ha.data s hs
    exact ⟨ha.isOk s hs, e, mem_sortedEvents.1 he, h1⟩
  · intro s hs t
    rw [← hlk]; exact ha.linked s hs t
  · rintro s hs ⟨e, he, h1⟩ b hb
    obtain ⟨_, _, f3, f4⟩ := findAreas_spec hR i ignore
    obtain ⟨c, hc, hsc⟩ := (f3 s).2 ⟨hs, e, mem_sortedEvents.2 he, h1⟩
    have : b = c := by
      ext t
      rw [hb, ← hlk]; exact (f4 c hc s hsc t).symm
    rw [this]
    exact (largest_some hl).2 c hc

/-! ## C114 -/

/-- **C114**: the alignment of complete results returns a result if in every band each largest area
of connected stations (stations to be ignored do not count) contains a station named for the
normalisation, and no band has data of ignored stations only. -/
theorem C114_succeeds_partial (hc : CompleteResults results.events n)
    (hr : ∀ i < n, (requested response i).isSome)
    (hsel : ∀ i < n, ∀ area, LargestArea (resultsOf results.events) i (notIgnored ignore) area →
      ∃ s ∈ area, IsNamed sel s)
    (hig : ∀ i < n, (∃ e ∈ resultsOf results.events, ∃ s, (respOf e.2 s i).isSome) →
      ∃ e ∈ resultsOf results.events, ∃ s, notIgnored ignore s ∧ (respOf e.2 s i).isSome)
    (hsmm : results.config.smm = none) (hf : results.freq.length ≤ n)
    (hf0 : ∀ f ∈ results.freq, f ≠ 0) :
    ∃ out, align orc rlm solve results sel response us none smo ignore = .ok out := by
  apply align_total hc.stations hc.some_event hc.energies hc.responses
  · intro i hi
    obtain ⟨r, h⟩ := Option.isSome_iff_exists.1 (hr i hi)
    exact ⟨r, (responseAt_iff response i r).2 h⟩
  · intro i hi a ha
    obtain ⟨s, hs, hn⟩ := hsel i hi a (largestArea_of' hc.stations ha)
    refine ⟨s, Finset.mem_filter.2 ⟨hs, ?_⟩⟩
    cases sel with
    | all => rfl
    | name m => simp [selected, show s = m from hn]
    | names l => simpa [selected] using show s ∈ l from hn
  · intro i hi e he s hs
    obtain ⟨e', he', t, ht, h1⟩ := hig i hi ⟨e, he, s, hs⟩
    exact ⟨t, ht, e', he', h1⟩
  · exact hsmm
  · exact hf
  · exact hf0

theorem bandSystem_none {us : Bool} {events : Dict String EvRes} (hR : RWF events) {i : ℕ}
    {area : Finset String} {sel : StationSel} {response : Response}
    (hp : ∀ s ∈ area, selected sel s = false) :
    bandSystem us events i area sel response = .error .zeroDivision := by
  have hinv := inv_loop us events.length (nStations events i) sel area (obsOf events i area)
    (fun o ho => (obsOf_lt ho).1) (fun o ho => (obsOf_lt ho).2) (obsOf_pairwise hR i area)
  rw [← loop_eq] at hinv
  have hn : (loop us events i area sel).used.length = 0 := by
    rw [List.length_eq_zero_iff, List.eq_nil_iff_forall_not_mem]
    intro s hs
    obtain ⟨o, ho, rfl, h2⟩ := (hinv.used s).1 hs
    rw [hp _ (obsOf_lt ho).2] at h2
    simp at h2
  unfold bandSystem
  simp [hn, throw, throwThe, MonadExceptOf.throw, bind, Except.bind]

/-- **C114**: if no largest area of a band with data contains a named station (nor one whose name is
a part of the given name), the alignment stops with a `ZeroDivisionError`, and the results of the
other bands are lost, too. -/
theorem C114_named_stations_missing (hc : CompleteResults results.events n)
    (hr : ∀ i < n, (requested response i).isSome) (hi : i < n)
    (hdata : ∃ e ∈ resultsOf results.events, ∃ s, notIgnored ignore s ∧ (respOf e.2 s i).isSome)
    (hsel : ∀ area, LargestArea (resultsOf results.events) i (notIgnored ignore) area →
      ∀ s ∈ area, ¬ IsNamed sel s ∧ ∀ m, sel = .name m → ¬ IsSubstring s m) :
    align orc rlm solve results sel response us smm smo ignore = .error .zeroDivision := by
  have hRs : RWF (sortedEvents results.events) :=
    fun e he => hc.stations e (mem_sortedEvents.1 he)
  have hnes : sortedEvents results.events ≠ [] := by
    obtain ⟨e, he⟩ := List.exists_mem_of_ne_nil _ hc.some_event
    exact List.ne_nil_of_mem (mem_sortedEvents.2 he)
  have hany : (sortedEvents results.events).any
      (fun e => e.2.R.any (fun p => decide (p.2.length < n))) = false := by
    rw [List.any_eq_false]
    intro e he
    rw [Bool.not_eq_true, List.any_eq_false]
    intro p hp
    have := hc.responses e (mem_sortedEvents.1 he) p hp
    simp only [decide_eq_true_eq]; omega
  have hb : mapExc (fun i => alignBand solve (us && (sortedEvents results.events).length != 1)
      (sortedEvents results.events) i sel response ignore) (List.range n) = .error .zeroDivision := by
    apply mapExc_fails
    · intro j hj
      obtain ⟨r, hr'⟩ := Option.isSome_iff_exists.1 (hr j (List.mem_range.1 hj))
      have hr' := (responseAt_iff response j r).2 hr'
      unfold alignBand
      cases hl : largest (findAreas (sortedEvents results.events) j ignore) with
      | none => exact .inl ⟨_, rfl⟩
      | some a =>
        by_cases hp : (pinned a sel).Nonempty
        · have ha := isArea_of_mem hRs (largest_some hl).1
          obtain ⟨Ab, h⟩ := bandSystem_total (us := us && (sortedEvents results.events).length != 1)
            hRs (fun s hs => pts_ne_nil (ha.data s hs)) hr' hp
          left
          simp only [h]
          exact ⟨_, rfl⟩
        · right
          simp only
          rw [bandSystem_none hRs]
          · rfl
          · intro s hs
            rw [Finset.not_nonempty_iff_eq_empty] at hp
            by_contra h
            have : s ∈ pinned a sel := Finset.mem_filter.2 ⟨hs, by simpa using h⟩
            rw [hp] at this
            simp at this
    · refine ⟨i, List.mem_range.2 hi, ?_⟩
      unfold alignBand
      cases hl : largest (findAreas (sortedEvents results.events) i ignore) with
      | none =>
        obtain ⟨e, he, s, hs, h1⟩ := hdata
        obtain ⟨a, ha, _⟩ := ((findAreas_spec hRs i ignore).2.2.1 s).2
          ⟨hs, e, mem_sortedEvents.2 he, h1⟩
        rw [largest_none.1 hl] at ha
        simp at ha
      | some a =>
        simp only
        rw [bandSystem_none hRs]
        · rfl
        · intro s hs
          obtain ⟨h1, h2⟩ := hsel a (largestArea_of' hc.stations hl) s hs
          cases sel with
          | all => exact absurd trivial h1
          | name m =>
            have h1 : ¬ s = m := h1
            have h2 : ¬ s.toList <:+: m.toList := h2 m rfl
            simp [selected, h1, h2]
          | names l =>
            have h1 : s ∉ l := h1
            simpa [selected] using h1
  unfold align alignEvents
  rw [numberOfFreqs_total hnes (fun e he => hc.energies e (mem_sortedEvents.1 he))]
  simp only [bind, Except.bind, hany, Bool.false_eq_true, if_false, pure, Except.pure]
  simp only [hb]

/-! ## A band with ignored stations only -/

theorem rescaleEvent_none {f : ℝ} {ev : EvRes} (hR : ev.R.WF)
    (hW : (energyOf ev i).isSome) (h : ∃ s, (respOf ev s i).isSome) :
    rescaleEvent i none f ev = .error .typeError := by
  obtain ⟨w, hw⟩ := Option.isSome_iff_exists.1 hW
  unfold rescaleEvent
  rw [cellAt_eq, show numAt ev.W i = some w from hw]
  have : mapExc (rescaleStation i none f) ev.R = .error .typeError := by
    apply mapExc_fails
    · intro p _
      unfold rescaleStation
      split
      · exact .inl ⟨_, rfl⟩
      · exact .inr rfl
    · obtain ⟨s, hs⟩ := h
      obtain ⟨x, hx⟩ := Option.isSome_iff_exists.1 hs
      unfold respOf at hx
      cases hg : ev.R.get? s with
      | none => rw [hg] at hx; simp at hx
      | some l =>
        rw [hg] at hx
        refine ⟨(s, l), Dict.mem_of_get? hg, ?_⟩
        unfold rescaleStation
        simp only [cellAt_eq]
        simp only [Option.bind_some] at hx
        rw [hx]
  simp only [this, bind, Except.bind]

theorem rescaleEvent_total' {area : Option (Finset String)} {f : ℝ} {ev : EvRes} :
    (∃ ev', rescaleEvent i area f ev = .ok ev') ∨ rescaleEvent i area f ev = .error .typeError := by
  unfold rescaleEvent
  split
  · exact .inl ⟨_, rfl⟩
  · by_cases h : ∃ a ∈ ev.R, rescaleStation i area f a = .error .typeError
    · right
      rw [mapExc_fails (err := .typeError) (fun p hp => ?_) h]
      · rfl
      · unfold rescaleStation
        split
        · exact .inl ⟨_, rfl⟩
        · split
          · exact .inr rfl
          · split <;> exact .inl ⟨_, rfl⟩
    · obtain ⟨R, hRR⟩ : ∃ R, mapExc (rescaleStation i area f) ev.R = .ok R := by
        apply mapExc_total
        intro p hp
        by_contra hno
        apply h
        refine ⟨p, hp, ?_⟩
        revert hno
        unfold rescaleStation
        split
        · simp
        · split
          · simp
          · split <;> simp
      left
      simp only [hRR, bind, Except.bind]
      split <;> exact ⟨_, rfl⟩

theorem rescaleBand_total' {events : Dict String EvRes} {bf : Option (Finset String) × List ℝ} :
    (∃ evs, rescaleBand events i bf = .ok evs) ∨ rescaleBand events i bf = .error .typeError := by
  unfold rescaleBand
  by_cases h : ∃ p ∈ events.zipIdx, rescaleEvent i bf.1 (bf.2.getD p.2 1) p.1.2 = .error .typeError
  · right
    apply mapExc_fails
    · intro p _
      rcases rescaleEvent_total' (i := i) (area := bf.1) (f := bf.2.getD p.2 1) (ev := p.1.2) with
        ⟨e, he⟩ | he
      · exact .inl ⟨(p.1.1, e), by rw [he]; rfl⟩
      · exact .inr (by rw [he]; rfl)
    · obtain ⟨p, hp, he⟩ := h
      exact ⟨p, hp, by rw [he]; rfl⟩
  · left
    apply mapExc_total
    intro p hp
    rcases rescaleEvent_total' (i := i) (area := bf.1) (f := bf.2.getD p.2 1) (ev := p.1.2) with
      ⟨e, he⟩ | he
    · exact ⟨(p.1.1, e), by rw [he]; rfl⟩
    · exact absurd ⟨p, hp, he⟩ h

theorem rescaleBand_facts' {events evs : Dict String EvRes} (hR : RWF events) {n : ℕ}
    {bf : Option (Finset String) × List ℝ} (h1 : rescaleBand events n bf = .ok evs) :
    ∀ e ∈ events, ∃ e' ∈ evs, ∀ j, j ≠ n → SameBand j e.2 e'.2 := by
  have hb := rescaleBand_ok h1
  intro e he
  obtain ⟨k, hk, rfl⟩ := List.getElem_of_mem he
  have hk' : k < evs.length := by rw [← hb.1]; exact hk
  obtain ⟨_, f2⟩ := hb.2 k _ _ (List.getElem?_eq_getElem hk) (List.getElem?_eq_getElem hk')
  have := rescaleEvent_ok (hR _ (List.getElem_mem hk)) f2
  exact ⟨_, List.getElem_mem hk', this.2.2⟩

theorem rescaleResults_none (bands : List (Option (Finset String) × List ℝ)) (n : ℕ)
    (events : Dict String EvRes) (hR : RWF events) {i : ℕ}
    (h : (bands[i]?).map Prod.fst = some none)
    (hev : ∃ e ∈ events, (energyOf e.2 (n + i)).isSome ∧ ∃ s, (respOf e.2 s (n + i)).isSome) :
    (bands.zipIdx n).foldlM (fun evs p => rescaleBand evs p.2 p.1) events = .error .typeError := by
  induction bands generalizing n events i with
  | nil => simp at h
  | cons bf bands ih =>
    rw [List.zipIdx_cons, List.foldlM_cons]
    cases i with
    | zero =>
      have hbf : bf.1 = none := by simpa using h
      have : rescaleBand events n bf = .error .typeError := by
        unfold rescaleBand
        apply mapExc_fails
        · intro p _
          rcases rescaleEvent_total' (i := n) (area := bf.1) (f := bf.2.getD p.2 1) (ev := p.1.2) with
            ⟨e, he⟩ | he
          · exact .inl ⟨(p.1.1, e), by rw [he]; rfl⟩
          · exact .inr (by rw [he]; rfl)
        · obtain ⟨e, he, h1, h2⟩ := hev
          obtain ⟨k, hk, rfl⟩ := List.getElem_of_mem he
          refine ⟨(events[k], k), ?_, ?_⟩
          · rw [List.mem_zipIdx_iff_getElem?]
            exact List.getElem?_eq_getElem hk
          · rw [hbf]
            rw [rescaleEvent_none (hR _ he) (by simpa using h1) (by simpa using h2)]
            rfl
      simp only [this]
      rfl
    | succ i =>
      rcases rescaleBand_total' (i := n) (events := events) (bf := bf) with ⟨evs, h1⟩ | h1
      · obtain ⟨hR', _⟩ := rescaleBand_facts hR h1
        have hs := rescaleBand_facts' hR h1
        simp only [h1]
        refine ih (n + 1) evs hR' (i := i) (by simpa using h) ?_
        obtain ⟨e, he, h2, s, h3⟩ := hev
        obtain ⟨e', he', h4⟩ := hs e he
        obtain ⟨h5, h6⟩ := h4 (n + (i + 1)) (by omega)
        refine ⟨e', he', ?_, s, ?_⟩
        · rw [show n + 1 + i = n + (i + 1) by omega, h5]; exact h2
        · rw [show n + 1 + i = n + (i + 1) by omega, h6]; exact h3
      · simp only [h1]
        rfl

/-- **C114**: if all stations with data in a band are to be ignored, the alignment stops with a
`TypeError` and the results of the other bands are lost, too (unless it stopped before because a named
station was missing in another band). -/
theorem C114_all_stations_ignored (hc : CompleteResults results.events n)
    (hp : ProperResults results.events)
    (hr : ∀ i < n, (requested response i).isSome) (hi : i < n)
    (hsel : ∀ i < n, ∀ area, LargestArea (resultsOf results.events) i (notIgnored ignore) area →
      ∃ s ∈ area, IsNamed sel s)
    (hdata : ∃ e ∈ resultsOf results.events, ∃ s, (respOf e.2 s i).isSome)
    (hig : ∀ e ∈ resultsOf results.events, ∀ s, (respOf e.2 s i).isSome → ¬ notIgnored ignore s) :
    align orc rlm solve results sel response us smm smo ignore = .error .typeError := by
  have hRs : RWF (sortedEvents results.events) :=
    fun e he => hc.stations e (mem_sortedEvents.1 he)
  have hnes : sortedEvents results.events ≠ [] := by
    obtain ⟨e, he⟩ := List.exists_mem_of_ne_nil _ hc.some_event
    exact List.ne_nil_of_mem (mem_sortedEvents.2 he)
  have hany : (sortedEvents results.events).any
      (fun e => e.2.R.any (fun p => decide (p.2.length < n))) = false := by
    rw [List.any_eq_false]
    intro e he
    rw [Bool.not_eq_true, List.any_eq_false]
    intro p hp
    have := hc.responses e (mem_sortedEvents.1 he) p hp
    simp only [decide_eq_true_eq]; omega
  obtain ⟨bands, hb⟩ : ∃ bands, mapExc (fun i => alignBand solve
      (us && (sortedEvents results.events).length != 1) (sortedEvents results.events) i
      sel response ignore) (List.range n) = .ok bands := by
    apply mapExc_total
    intro j hj
    have hj := List.mem_range.1 hj
    obtain ⟨r, h⟩ := Option.isSome_iff_exists.1 (hr j hj)
    refine alignBand_total hRs ⟨r, (responseAt_iff response j r).2 h⟩ ?_
    intro a ha
    obtain ⟨s, hs, hn⟩ := hsel j hj a (largestArea_of' hc.stations ha)
    refine ⟨s, Finset.mem_filter.2 ⟨hs, ?_⟩⟩
    cases sel with
    | all => rfl
    | name m => simp [selected, show s = m from hn]
    | names l => simpa [selected] using show s ∈ l from hn
  have hnil : findAreas (sortedEvents results.events) i ignore = [] := by
    rw [List.eq_nil_iff_forall_not_mem]
    intro a ha
    obtain ⟨_, f2, f3, _⟩ := findAreas_spec hRs i ignore
    obtain ⟨s, hs⟩ := f2 a ha
    obtain ⟨h1, e, he, h2⟩ := (f3 s).1 ⟨a, ha, hs⟩
    exact hig e (mem_sortedEvents.1 he) s h2 h1
  have hband : (bands[i]?).map Prod.fst = some none := by
    have hF := mapExc_ok.1 hb
    have hk : i < (List.range n).length := by simpa using hi
    have hk' : i < bands.length := by rw [← hF.length_eq]; exact hk
    have := List.Forall₂.get hF hk hk'
    simp only [List.get_eq_getElem, List.getElem_range] at this
    unfold alignBand at this
    rw [hnil] at this
    simp only [largest, Except.ok.injEq] at this
    rw [List.getElem?_eq_getElem hk', ← this]
    rfl
  obtain ⟨e, he, s, hs⟩ := hdata
  have := rescaleResults_none bands 0 (sortedEvents results.events) hRs hband
    ⟨e, mem_sortedEvents.2 he, by rw [Nat.zero_add]; exact hp.energy e he s i hs, s,
      by rw [Nat.zero_add]; exact hs⟩
  unfold align alignEvents
  rw [numberOfFreqs_total hnes (fun e he => hc.energies e (mem_sortedEvents.1 he))]
  simp only [bind, Except.bind, hany, Bool.false_eq_true, if_false, pure, Except.pure]
  simp only [hb]
  unfold rescaleResults
  rw [this]

/-! ## Cases which meet the hypotheses -/

/-- Responses of the example of C79 by band. -/
theorem demo_resp {e : String × EvRes} (he : e ∈ resultsOf demo.events) {s : String} :
    ((respOf e.2 s 0).isSome ↔ (e.1 = "e2" ∧ (s = "A" ∨ s = "B")) ∨
      (e.1 = "e1" ∧ (s = "B" ∨ s = "C")) ∨ (e.1 = "e3" ∧ s = "X")) ∧
    ((respOf e.2 s 1).isSome ↔ e.1 = "e1" ∧ s = "B") := by
  have hres : resultsOf demo.events =
      [("e2", ⟨[.num 3, .none], [("A", [.num 1, .none]), ("B", [.num 2, .none])], []⟩),
       ("e1", ⟨[.num 5, .num 7], [("B", [.num 4, .num 1]), ("C", [.num 6, .nan])], []⟩),
       ("e3", ⟨[.num 2, .num 2], [("X", [.num 9, .none])], []⟩)] := rfl
  rw [hres] at he
  simp only [List.mem_cons, List.not_mem_nil, or_false] at he
  rcases he with rfl | rfl | rfl <;>
  · simp only [respOf, Dict.get?_cons]
    constructor <;>
    · split_ifs <;> simp_all [numAt, Dict.get?, eq_comm (a := s)]

theorem demo_ids {k : String} (h : k = "e1" ∨ k = "e2" ∨ k = "e3") :
    ∃ e ∈ resultsOf demo.events, e.1 = k := by
  have hres : resultsOf demo.events =
      [("e2", ⟨[.num 3, .none], [("A", [.num 1, .none]), ("B", [.num 2, .none])], []⟩),
       ("e1", ⟨[.num 5, .num 7], [("B", [.num 4, .num 1]), ("C", [.num 6, .nan])], []⟩),
       ("e3", ⟨[.num 2, .num 2], [("X", [.num 9, .none])], []⟩)] := rfl
  rw [hres]
  rcases h with rfl | rfl | rfl <;> simp

theorem demo_linked_X {t : String}
    (h : Linked (resultsOf demo.events) 0 (notIgnored none) "X" t) : t = "X" := by
  induction h with
  | refl => rfl
  | tail _ h2 ih =>
    subst ih
    obtain ⟨_, _, e, he, h3, h4⟩ := h2
    rw [(demo_resp he).1] at h3 h4
    simp at h3
    simpa [h3] using h4

theorem demo_linked_B {t : String} : t ∈ ({"A", "B", "C"} : Finset String) ↔
    Linked (resultsOf demo.events) 0 (notIgnored none) "B" t := by
  constructor
  · intro h
    simp only [Finset.mem_insert, Finset.mem_singleton] at h
    rcases h with rfl | rfl | rfl
    · obtain ⟨e, he, h1⟩ := demo_ids (k := "e2") (by simp)
      exact .single ⟨by simp [notIgnored], by simp [notIgnored], e, he,
        (demo_resp he).1.2 (by simp [h1]), (demo_resp he).1.2 (by simp [h1])⟩
    · exact .refl
    · obtain ⟨e, he, h1⟩ := demo_ids (k := "e1") (by simp)
      exact .single ⟨by simp [notIgnored], by simp [notIgnored], e, he,
        (demo_resp he).1.2 (by simp [h1]), (demo_resp he).1.2 (by simp [h1])⟩
  · intro h
    induction h with
    | refl => simp
    | tail _ h2 ih =>
      obtain ⟨_, _, e, he, h3, h4⟩ := h2
      rw [(demo_resp he).1] at h3 h4
      simp only [Finset.mem_insert, Finset.mem_singleton] at ih ⊢
      rcases h4 with ⟨_, rfl | rfl⟩ | ⟨_, rfl | rfl⟩ | ⟨h5, rfl⟩ <;> simp
      rcases h3 with ⟨h6, _⟩ | ⟨h6, _⟩ | ⟨_, rfl⟩
      · simp [h5] at h6
      · simp [h5] at h6
      · simp at ih

/-- The largest area of the example in the first band consists of `A`, `B` and `C`. -/
theorem demo_largest {area : Finset String}
    (h : LargestArea (resultsOf demo.events) 0 (notIgnored none) area) :
    area = {"A", "B", "C"} := by
  obtain ⟨eB, heB, hB⟩ := demo_ids (k := "e1") (by simp)
  have h3 := h.largest "B" (by simp [notIgnored]) ⟨eB, heB, (demo_resp heB).1.2 (by simp [hB])⟩ _
    (fun t => demo_linked_B)
  have hBin : "B" ∈ area := by
    obtain ⟨s, hs⟩ := h.nonempty
    obtain ⟨_, e, he, h1⟩ := h.data s hs
    rw [(demo_resp he).1] at h1
    have hABC : s ∈ ({"A", "B", "C"} : Finset String) → "B" ∈ area := by
      intro hm
      rw [h.linked s hs]
      have := demo_linked_B.1 hm
      have hsy : Std.Symm (ShareEvent (resultsOf demo.events) 0 (notIgnored none)) :=
        ⟨fun x y ⟨a, b, e, he, c, d⟩ => ⟨b, a, e, he, d, c⟩⟩
      exact (Relation.ReflTransGen.symmetric (r := ShareEvent (resultsOf demo.events) 0
        (notIgnored none))).symm _ _ this
    rcases h1 with ⟨_, rfl | rfl⟩ | ⟨_, rfl | rfl⟩ | ⟨_, rfl⟩
    · exact hABC (by simp)
    · exact hs
    · exact hs
    · exact hABC (by simp)
    · have hsub : area ⊆ {"X"} := by
        intro t ht
        rw [Finset.mem_singleton]
        exact demo_linked_X ((h.linked "X" hs t).1 ht)
      have := Finset.card_le_card hsub
      simp at h3 this
      omega
  ext t
  rw [h.linked "B" hBin, demo_linked_B]

theorem demo_area1 {area : Finset String} {ignore : Option (List String)}
    (h : LargestArea (resultsOf demo.events) 1 (notIgnored ignore) area) : "B" ∈ area := by
  obtain ⟨s, hs⟩ := h.nonempty
  obtain ⟨_, e, he, h1⟩ := h.data s hs
  obtain ⟨_, rfl⟩ := (demo_resp he).2.1 h1
  exact hs

/-- With station `B` named for the normalisation the example of C79 can be aligned. -/
example (orc : Oracle) (rlm : List ℝ → ℝ × ℝ) (us : Bool) :
    ∃ out, align orc rlm (fun _ => someSolver) demo (.name "B") (.scalar 1) us none none none =
      .ok out := by
  refine C114_succeeds_partial demo_complete (fun _ _ => rfl) ?_ ?_ rfl (by simp [demo])
    (by simp [demo])
  · intro i hi area ha
    have : i = 0 ∨ i = 1 := by omega
    rcases this with rfl | rfl
    · exact ⟨"B", by rw [demo_largest ha]; simp, rfl⟩
    · exact ⟨"B", demo_area1 ha, rfl⟩
  · rintro i hi ⟨e, he, s, hs⟩
    exact ⟨e, he, s, by simp [notIgnored], hs⟩

/-- Station `X` is not in the largest area of the first band. -/
example (orc : Oracle) (rlm : List ℝ → ℝ × ℝ) (us : Bool) :
    align orc rlm (fun _ => someSolver) demo (.name "X") (.scalar 1) us none none none =
      .error .zeroDivision := by
  refine C114_named_stations_missing (i := 0) demo_complete (fun _ _ => rfl) (by omega) ?_ ?_
  · obtain ⟨e, he, h⟩ := demo_ids (k := "e1") (by simp)
    exact ⟨e, he, "B", by simp [notIgnored], (demo_resp he).1.2 (by simp [h])⟩
  · intro area ha s hs
    rw [demo_largest ha] at hs
    simp only [Finset.mem_insert, Finset.mem_singleton] at hs
    refine ⟨?_, ?_⟩
    · rcases hs with rfl | rfl | rfl <;> simp [IsNamed]
    · intro m hm
      simp only [StationSel.name.injEq] at hm
      subst hm
      rcases hs with rfl | rfl | rfl <;> simp [IsSubstring, List.infix_cons_iff]

/-- **C114** does not hold as stated: the second band of the example has data of station `B` only;
with this station ignored the alignment fails although the first band can be aligned. -/
theorem C114_ignored_band_counterexample :
    CompleteResults demo.events 2 ∧ ProperResults demo.events ∧
    (∃ e ∈ resultsOf demo.events, ∃ s, notIgnored (some ["B"]) s ∧ (respOf e.2 s 0).isSome) ∧
    ∀ (orc : Oracle) (rlm : List ℝ → ℝ × ℝ) (us : Bool),
      (∃ out, align orc rlm (fun _ => someSolver) demo .all (.scalar 1) us none none none =
        .ok out) ∧
      align orc rlm (fun _ => someSolver) demo .all (.scalar 1) us none none (some ["B"]) =
        .error .typeError := by
  refine ⟨demo_complete, demo_proper, ?_, fun orc rlm us => ⟨demo_succeeds orc rlm us, ?_⟩⟩
  · obtain ⟨e, he, h⟩ := demo_ids (k := "e2") (by simp)
    exact ⟨e, he, "A", by simp [notIgnored], (demo_resp he).1.2 (by simp [h])⟩
  · refine C114_all_stations_ignored (i := 1) demo_complete demo_proper (fun _ _ => rfl) (by omega)
      ?_ ?_ ?_
    · intro i _ area ha
      obtain ⟨s, hs⟩ := ha.nonempty
      exact ⟨s, hs, trivial⟩
    · obtain ⟨e, he, h⟩ := demo_ids (k := "e1") (by simp)
      exact ⟨e, he, "B", (demo_resp he).2.2 ⟨h, rfl⟩⟩
    · intro e he s hs hn
      obtain ⟨_, rfl⟩ := (demo_resp he).2.1 hs
      exact hn ["B"] rfl (by simp)

end Qopen
