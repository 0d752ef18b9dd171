import Verif.Lemmas.SiteRun
import Verif.Lemmas.Lsq

/-!
# The alignment runs to completion on complete results
-/

namespace Qopen.Site

open Real Spec Source Util

theorem mapExc_total {α β : Type} {f : α → Py β} {l : List α} (h : ∀ a ∈ l, ∃ b, f a = .ok b) :
    ∃ bs, mapExc f l = .ok bs := by
  induction l with
  | nil => exact ⟨[], rfl⟩
  | cons a l ih =>
    obtain ⟨b, hb⟩ := h a (by simp)
    obtain ⟨bs, hbs⟩ := ih (fun x hx => h x (by simp [hx]))
    exact ⟨b :: bs, by simp [mapExc, hb, hbs, bind, Except.bind, pure, Except.pure]⟩

theorem foldlM_total {α β : Type} {f : β → α → Py β} {l : List α}
    (h : ∀ b, ∀ a ∈ l, ∃ b', f b a = .ok b') (b : β) : ∃ b', l.foldlM f b = .ok b' := by
  induction l generalizing b with
  | nil => exact ⟨b, rfl⟩
  | cons a l ih =>
    obtain ⟨b1, h1⟩ := h b a (by simp)
    obtain ⟨b2, h2⟩ := ih (fun b x hx => h b x (by simp [hx])) b1
    exact ⟨b2, by rw [List.foldlM_cons, h1]; exact h2⟩

theorem bandSystem_total {us : Bool} {events : Dict String EvRes} (hR : RWF events) {i : ℕ}
    {area : Finset String} (hdata : ∀ s ∈ area, pts events i s ≠ []) {sel : StationSel}
    {response : Response} {r : ℝ} (hr : responseAt response i = .ok r)
    (hp : (pinned area sel).Nonempty) :
    ∃ Ab, bandSystem us events i area sel response = .ok Ab := by
  have hinv := inv_loop us events.length (nStations events i) sel area (obsOf events i area)
    (fun o ho => (obsOf_lt ho).1) (fun o ho => (obsOf_lt ho).2) (obsOf_pairwise hR i area)
  rw [← loop_eq] at hinv
  have hn : (loop us events i area sel).used.length ≠ 0 := by
    obtain ⟨s, hs⟩ := hp
    obtain ⟨h1, h2⟩ := Finset.mem_filter.1 hs
    have h3 := ofSta_obsOf hR i h1
    have : ofSta (obsOf events i area) s ≠ [] := by
      rw [h3]; simpa using hdata s h1
    obtain ⟨o, ho⟩ := List.exists_mem_of_ne_nil _ this
    unfold ofSta at ho
    obtain ⟨ho1, ho2⟩ := List.mem_filter.1 ho
    have := (hinv.used s).2 ⟨o, ho1, by simpa using ho2, h2⟩
    have := List.length_pos_of_mem this
    omega
  unfold bandSystem
  simp only [hn, hr, bind, Except.bind, pure, Except.pure, if_false]
  exact ⟨_, rfl⟩

theorem alignBand_total {solve : Bool → ℕ → List (List ℝ) → List ℝ → List ℝ}
    {events : Dict String EvRes} {sel : StationSel} {response : Response} {us : Bool}
    {ignore : Option (List String)} {i : ℕ} (hR : RWF events)
    (hr : ∃ r, responseAt response i = .ok r)
    (hp : ∀ a, largest (findAreas events i ignore) = some a → (pinned a sel).Nonempty) :
    ∃ bf, alignBand solve us events i sel response ignore = .ok bf := by
  unfold alignBand
  cases hl : largest (findAreas events i ignore) with
  | none => exact ⟨_, rfl⟩
  | some a =>
    have ha := isArea_of_mem hR (largest_some hl).1
    obtain ⟨r, hr⟩ := hr
    obtain ⟨Ab, h⟩ := bandSystem_total (us := us) hR (fun s hs => pts_ne_nil (ha.data s hs)) hr
      (hp a hl)
    simp only [h]
    exact ⟨_, rfl⟩

theorem respOf_none_of_mem {ev : EvRes} (hR : ev.R.WF) {i : ℕ} (h : ∀ s, respOf ev s i = none)
    {p : String × List Cell} (hp : p ∈ ev.R) : numAt p.2 i = none := by
  have := h p.1
  unfold respOf at this
  rwa [Dict.get?_of_mem hR (v := p.2) hp, Option.bind_some] at this

theorem rescaleEvent_total {i : ℕ} {area : Option (Finset String)} {f : ℝ} {ev : EvRes}
    (hR : ev.R.WF) (h : area = none → ∀ s, respOf ev s i = none) :
    ∃ ev', rescaleEvent i area f ev = .ok ev' := by
  unfold rescaleEvent
  rw [cellAt_eq]
  cases numAt ev.W i with
  | none => exact ⟨_, rfl⟩
  | some w =>
    obtain ⟨R, hRR⟩ : ∃ R, mapExc (rescaleStation i area f) ev.R = .ok R := by
      apply mapExc_total
      intro p hp
      unfold rescaleStation
      rw [cellAt_eq]
      cases hn : numAt p.2 i with
      | none => exact ⟨_, rfl⟩
      | some R =>
        cases area with
        | none =>
          rw [respOf_none_of_mem hR (h rfl) hp] at hn
          simp at hn
        | some a =>
          simp only
          split <;> exact ⟨_, rfl⟩
    simp only [hRR, bind, Except.bind]
    split <;> exact ⟨_, rfl⟩

theorem rescaleBand_total {events : Dict String EvRes} (hR : RWF events) {i : ℕ}
    {bf : Option (Finset String) × List ℝ}
    (h : bf.1 = none → ∀ e ∈ events, ∀ s, respOf e.2 s i = none) :
    ∃ events', rescaleBand events i bf = .ok events' := by
  unfold rescaleBand
  apply mapExc_total
  intro p hp
  have hm := mem_of_mem_zipIdx' hp
  obtain ⟨e, he⟩ := rescaleEvent_total (f := bf.2.getD p.2 1) (hR _ hm) (fun hn => h hn _ hm)
  exact ⟨(p.1.1, e), by rw [he]; rfl⟩

theorem rescaleBand_facts {events evs : Dict String EvRes} (hR : RWF events) {n : ℕ}
    {bf : Option (Finset String) × List ℝ} (h1 : rescaleBand events n bf = .ok evs) :
    RWF evs ∧ ∀ e' ∈ evs, ∃ e ∈ events, ∀ j, j ≠ n → SameBand j e.2 e'.2 := by
  have hb := rescaleBand_ok h1
  have key : ∀ e' ∈ evs, ∃ e ∈ events, SameFrame e.2 e'.2 ∧ ∀ j, j ≠ n → SameBand j e.2 e'.2 := by
    intro e' he'
    obtain ⟨k, hk, rfl⟩ := List.getElem_of_mem he'
    have hk' : k < events.length := by rw [hb.1]; exact hk
    obtain ⟨_, f2⟩ := hb.2 k _ _ (List.getElem?_eq_getElem hk') (List.getElem?_eq_getElem hk)
    have := rescaleEvent_ok (hR _ (List.getElem_mem hk')) f2
    exact ⟨_, List.getElem_mem hk', this.1, this.2.2⟩
  refine ⟨fun e' he' => ?_, fun e' he' => ?_⟩
  · obtain ⟨e, he, h2, _⟩ := key e' he'
    have hw := hR _ he
    unfold Dict.WF Dict.keys at hw ⊢
    rw [h2.keys]; exact hw
  · obtain ⟨e, he, _, h3⟩ := key e' he'
    exact ⟨e, he, h3⟩

theorem rescaleResults_total_aux (bands : List (Option (Finset String) × List ℝ)) (n : ℕ)
    (events : Dict String EvRes) (hR : RWF events)
    (h : ∀ i bf, bands[i]? = some bf → bf.1 = none → ∀ e ∈ events, ∀ s, respOf e.2 s (n + i) = none) :
    ∃ events', (bands.zipIdx n).foldlM (fun evs p => rescaleBand evs p.2 p.1) events = .ok events' := by
  induction bands generalizing n events with
  | nil => exact ⟨events, rfl⟩
  | cons bf bands ih =>
    obtain ⟨evs, h1⟩ := rescaleBand_total (i := n) (bf := bf) hR (h 0 bf rfl)
    obtain ⟨hR', hs⟩ := rescaleBand_facts hR h1
    obtain ⟨events', h2⟩ := ih (n + 1) evs hR' (by
      intro i bf' hi hn e' he' s
      obtain ⟨e, he, h3⟩ := hs e' he'
      have := h (i + 1) bf' (by simpa using hi) hn e he s
      rw [(h3 (n + 1 + i) (by omega)).2]
      rw [← this]; congr 1; omega)
    refine ⟨events', ?_⟩
    rw [List.zipIdx_cons, List.foldlM_cons]
    simp only [h1]
    exact h2

theorem rescaleResults_total {bands : List (Option (Finset String) × List ℝ)}
    {events : Dict String EvRes} (hR : RWF events)
    (h : ∀ i bf, bands[i]? = some bf → bf.1 = none → ∀ e ∈ events, ∀ s, respOf e.2 s i = none) :
    ∃ events', rescaleResults events bands = .ok events' := by
  apply rescaleResults_total_aux bands 0 events hR
  intro i bf h1 h2 e he s
  rw [Nat.zero_add]; exact h i bf h1 h2 e he s

theorem numberOfFreqs_total {events : Dict String EvRes} {n : ℕ} (hne : events ≠ [])
    (h : ∀ e ∈ events, e.2.W.length = n) : numberOfFreqs events = .ok (some n) := by
  have aux : ∀ es : Dict String EvRes, (∀ e ∈ es, e.2.W.length = n) →
      es.foldlM freqStep (some n) = .ok (some n) := by
    intro es
    induction es with
    | nil => intro _; rfl
    | cons e es ih =>
      intro h
      rw [List.foldlM_cons, freqStep, if_pos (h e (by simp)).symm]
      exact ih (fun x hx => h x (by simp [hx]))
  cases events with
  | nil => exact absurd rfl hne
  | cons e es =>
    unfold numberOfFreqs
    rw [List.foldlM_cons, freqStep]
    simp only [bind, Except.bind]
    rw [h e (by simp)]
    exact aux es (fun x hx => h x (by simp [hx]))

theorem alignEvents_total {solve : Bool → ℕ → List (List ℝ) → List ℝ → List ℝ}
    {events : Dict String EvRes} {sel : StationSel} {response : Response} {us : Bool}
    {ignore : Option (List String)} {n : ℕ} (hR : RWF events) (hne : events ≠ [])
    (hW : ∀ e ∈ events, e.2.W.length = n) (hrow : ∀ e ∈ events, ∀ p ∈ e.2.R, n ≤ p.2.length)
    (hr : ∀ i < n, ∃ r, responseAt response i = .ok r)
    (hp : ∀ i < n, ∀ a, largest (findAreas events i ignore) = some a → (pinned a sel).Nonempty)
    (hig : ∀ i < n, findAreas events i ignore = [] → ∀ e ∈ events, ∀ s, respOf e.2 s i = none) :
    ∃ events', alignEvents solve events sel response us ignore = .ok events' := by
  unfold alignEvents
  rw [numberOfFreqs_total hne hW]
  simp only [bind, Except.bind]
  have hany : events.any (fun e => e.2.R.any (fun p => decide (p.2.length < n))) = false := by
    rw [List.any_eq_false]
    intro e he
    rw [Bool.not_eq_true, List.any_eq_false]
    intro p hp
    have := hrow e he p hp
    simp only [decide_eq_true_eq]; omega
  rw [hany]
  simp only [Bool.false_eq_true, if_false, pure, Except.pure]
  obtain ⟨bands, hb⟩ : ∃ bands, mapExc (fun i => alignBand solve (us && events.length != 1) events i
      sel response ignore) (List.range n) = .ok bands := by
    apply mapExc_total
    intro i hi
    have hi := List.mem_range.1 hi
    exact alignBand_total hR (hr i hi) (hp i hi)
  rw [hb]
  apply rescaleResults_total hR
  intro i bf h1 h2
  have hF := mapExc_ok.1 hb
  obtain ⟨hk, e⟩ := List.getElem?_eq_some_iff.1 h1
  have hk' : i < (List.range n).length := by rw [hF.length_eq]; exact hk
  have := List.Forall₂.get hF hk' hk
  simp only [List.get_eq_getElem, List.getElem_range] at this
  rw [e] at this
  rcases alignBand_ok hR this with ⟨h3, _⟩ | ⟨a, x, r, h3, _⟩
  · exact hig i (by simpa using hk') h3
  · rw [h3] at h2; simp at h2

/-! ## source properties and mean responses -/

theorem sdsEntries_total {freq : List ℝ} {W : List Cell} {v0 rho0 : Option ℝ}
    (hlen : freq.length ≤ W.length) (h0 : ∀ f ∈ freq, f ≠ 0) :
    ∃ l, sdsEntries freq W v0 rho0 = .ok l := by
  unfold sdsEntries
  apply mapExc_total
  intro p hp
  have hm : p.1 ≠ 0 := h0 _ (List.fst_mem_of_mem_zipIdx hp)
  have hlt : p.2 < W.length := by
    have := List.snd_lt_of_mem_zipIdx hp
    omega
  have hg : pyGet W p.2 = .ok W[p.2] := by
    rw [pyGet_ok]; exact List.getElem?_eq_getElem hlt
  rw [hg]
  simp only [bind, Except.bind]
  cases v0 with
  | none => exact ⟨_, rfl⟩
  | some v =>
    cases rho0 with
    | none => exact ⟨_, rfl⟩
    | some r =>
      simp only
      split
      · next hc =>
        unfold sdsCell
        cases hw : W[p.2] with
        | none => rw [hw] at hc; exact absurd hc.1 id
        | nan => simp [hm]
        | num w =>
          simp only [sds, if_neg hm]
          split <;> exact ⟨_, rfl⟩
      · exact ⟨_, rfl⟩

theorem calc_total {orc : Oracle} {conf : Config} {freq : List ℝ} {events : Dict String EvRes}
    {rho0 v0 : Option ℝ} (hs : conf.smm = none) (h0 : ∀ f ∈ freq, f ≠ 0)
    (hW : ∀ e ∈ events, freq.length ≤ e.2.W.length) (smo : Option Opts) :
    ∃ events', calculateSourceProperties orc conf freq events rho0 v0 none smo = .ok events' := by
  unfold calculateSourceProperties
  simp only [hs, Option.or_none]
  split
  · apply mapExc_total
    intro p hp
    obtain ⟨e, he⟩ : ∃ e, recalcEvent orc freq (pyOr v0 conf.v0) (pyOr rho0 conf.rho0) none
        (smo.or conf.smo) p.2 = .ok e := by
      unfold recalcEvent
      simp only
      split
      · unfold insertSourceProperties
        obtain ⟨l, hl⟩ := sdsEntries_total (v0 := pyOr (EvRes.v0 p.2) (pyOr v0 conf.v0))
          (rho0 := pyOr rho0 conf.rho0) (hW p hp) h0
        simp only [hl]
        exact ⟨_, rfl⟩
      · exact ⟨_, rfl⟩
    exact ⟨(p.1, e), by rw [he]; rfl⟩
  · exact ⟨_, rfl⟩

theorem gmean_total (rlm : List ℝ → ℝ × ℝ) (l : List Cell) :
    ∃ m, gmean rlm l none true 5 = .ok m := by
  obtain ⟨r, hr⟩ : ∃ r, robustStat rlm (maLog (maskedInvalid l)) 5 = .ok r := by
    unfold robustStat
    simp only
    split
    · exact ⟨_, rfl⟩
    · next hc =>
      split
      · split
        · next h0 => omega
        · exact ⟨_, rfl⟩
      · exact ⟨_, rfl⟩
  unfold gmean gstat
  simp only [Option.isSome_none, Bool.and_false, Bool.false_eq_true, if_false, if_true, hr]
  exact ⟨_, rfl⟩

theorem gmeanlist_total (rlm : List ℝ → ℝ × ℝ) {rows : List (List Cell)} {n : ℕ}
    (h : ∀ r ∈ rows, r.length = n) : ∃ m, gmeanlist rlm rows n (robust := true) = .ok m := by
  unfold gmeanlist
  rw [if_neg (by simpa using h), if_pos rfl]
  apply mapExc_total
  intro i _
  obtain ⟨m, hm⟩ := gmean_total rlm (column rows i)
  exact ⟨Cell.ofOption m, by rw [hm]; rfl⟩

theorem updateMeanR_total {rlm : List ℝ → ℝ × ℝ} {events : Dict String EvRes} {n : ℕ}
    (h : ∀ e ∈ events, ∀ p ∈ e.2.R, p.2.length = n) (R : Dict String (List Cell)) :
    ∃ R', updateMeanR rlm events R = .ok R' := by
  unfold updateMeanR
  apply foldlM_total
  intro R sta _
  have hrows : ∀ r ∈ stationRows events sta, r.length = n := by
    intro r hr
    unfold stationRows at hr
    obtain ⟨e, he, h1⟩ := List.mem_filterMap.1 hr
    exact h e he _ (Dict.mem_of_get? h1)
  have hn : ∀ r ∈ stationRows events sta, r.length = ((stationRows events sta).headD []).length := by
    intro r hr
    cases hc : stationRows events sta with
    | nil => rw [hc] at hr; simp at hr
    | cons a l => rw [hrows r hr, List.headD_cons, hrows a (by rw [hc]; simp)]
  simp only
  rw [if_neg (by simpa using hn)]
  split
  · exact ⟨_, rfl⟩
  · obtain ⟨m, hm⟩ := gmeanlist_total rlm hn
    rw [hm]
    exact ⟨_, rfl⟩

theorem rowLen_of_frame {n : ℕ} {ev ev' : EvRes} (hw : ev'.R.WF) (hf : SameFrame ev ev')
    (h : ∀ p ∈ ev.R, p.2.length = n) : ∀ p ∈ ev'.R, p.2.length = n := by
  intro p hp
  have hl := hf.lenR p.1
  rw [Dict.get?_of_mem hw (v := p.2) hp] at hl
  simp only [Option.map_some] at hl
  cases hg : ev.R.get? p.1 with
  | none => rw [hg] at hl; simp at hl
  | some l =>
    rw [hg] at hl
    simp only [Option.map_some, Option.some.injEq] at hl
    rw [hl]; exact h _ (Dict.mem_of_get? hg)

theorem rescaleEvent_extra {i : ℕ} {area : Option (Finset String)} {f : ℝ} {ev ev' : EvRes}
    (h : rescaleEvent i area f ev = .ok ev') : ev'.extra = ev.extra := by
  unfold rescaleEvent at h
  split at h
  · simp only [Except.ok.injEq] at h
    rw [← h]
  · obtain ⟨R, -, h⟩ := bind_ok.1 h
    split at h <;>
    · simp only [pure, Except.pure, Except.ok.injEq] at h
      rw [← h]

theorem rescaleResults_extra (bands : List (Option (Finset String) × List ℝ)) (n : ℕ)
    (events events' : Dict String EvRes)
    (h : (bands.zipIdx n).foldlM (fun evs p => rescaleBand evs p.2 p.1) events = .ok events') :
    EvRel (fun _ ev ev' => ev'.extra = ev.extra) events events' := by
  induction bands generalizing n events with
  | nil =>
    simp only [List.zipIdx_nil, List.foldlM_nil, pure, Except.pure, Except.ok.injEq] at h
    subst h
    refine ⟨rfl, ?_⟩
    intro k p p' h1 h2
    rw [h1] at h2
    simp only [Option.some.injEq] at h2
    subst h2
    exact ⟨rfl, rfl⟩
  | cons bf bands ih =>
    rw [List.zipIdx_cons, List.foldlM_cons] at h
    obtain ⟨evs, h1, h2⟩ := bind_ok.1 h
    have hb := rescaleBand_ok h1
    have ih := ih (n + 1) evs h2
    refine ⟨hb.1.trans ih.1, ?_⟩
    intro k p p' e1 e2
    have hk : k < evs.length := by
      rw [ih.1]; exact (List.getElem?_eq_some_iff.1 e2).1
    have e3 := List.getElem?_eq_getElem hk
    obtain ⟨f1, f2⟩ := hb.2 k p _ e1 e3
    obtain ⟨g1, g2⟩ := ih.2 k _ _ e3 e2
    exact ⟨g1.trans f1, g2.trans (rescaleEvent_extra f2)⟩

/-- The other entries of the events are not touched by the rescaling. -/
theorem alignEvents_extra {solve : Bool → ℕ → List (List ℝ) → List ℝ → List ℝ} {sel : StationSel}
    {response : Response} {us : Bool} {ignore : Option (List String)} {events events' : Dict String EvRes}
    (h : alignEvents solve events sel response us ignore = .ok events') :
    EvRel (fun _ ev ev' => ev'.extra = ev.extra) events events' := by
  unfold alignEvents at h
  obtain ⟨o, h1, h⟩ := bind_ok.1 h
  cases o with
  | none => simp [throw, throwThe, MonadExceptOf.throw] at h
  | some Nf =>
    simp only at h
    split at h
    · simp [throw, throwThe, MonadExceptOf.throw, bind, Except.bind] at h
    · obtain ⟨bands, h2, h3⟩ := bind_ok.1 h
      exact rescaleResults_extra bands 0 events events' h3

theorem align_total_of {orc : Oracle} {rlm : List ℝ → ℝ × ℝ}
    {solve : Bool → ℕ → List (List ℝ) → List ℝ → List ℝ} {results : Results}
    {sel : StationSel} {response : Response} {us : Bool} {smm : Option Method}
    {smo : Option Opts} {ignore : Option (List String)} {n : ℕ} (hR : ∀ e ∈ resultsOf results.events, e.2.R.WF)
    (hne : resultsOf results.events ≠ [])
    (hW : ∀ e ∈ resultsOf results.events, e.2.W.length = n)
    (hrow : ∀ e ∈ resultsOf results.events, ∀ p ∈ e.2.R, p.2.length = n)
    (hr : ∀ i < n, ∃ r, responseAt response i = .ok r)
    (hp : ∀ i < n, ∀ a, largest (findAreas (sortedEvents results.events) i ignore) = some a →
      (pinned a sel).Nonempty)
    (hig : ∀ i < n, ∀ e ∈ resultsOf results.events, ∀ s, (respOf e.2 s i).isSome →
      ∃ t, notIgnored ignore t ∧ ∃ e ∈ resultsOf results.events, (respOf e.2 t i).isSome)
    (hcalc : ∀ events', (∀ e ∈ events', e.2.W.length = n) →
      (∀ e ∈ events', ∃ e0 ∈ resultsOf results.events, e.2.extra = e0.2.extra) → ∃ events'',
      calculateSourceProperties orc results.config results.freq events' none none smm smo =
        .ok events'') :
    ∃ out, align orc rlm solve results sel response us smm smo ignore = .ok out := by
  have hm : ∀ e, e ∈ sortedEvents results.events ↔ e ∈ resultsOf results.events :=
    fun e => mem_sortedEvents
  have hRs : RWF (sortedEvents results.events) := fun e he => hR e ((hm e).1 he)
  have hnes : sortedEvents results.events ≠ [] := by
    obtain ⟨e, he⟩ := List.exists_mem_of_ne_nil _ hne
    exact List.ne_nil_of_mem ((hm e).2 he)
  obtain ⟨events', h1⟩ := alignEvents_total (solve := solve) (sel := sel) (response := response)
    (us := us) (ignore := ignore) hRs hnes (fun e he => hW e ((hm e).1 he))
    (fun e he p hp => (hrow e ((hm e).1 he) p hp).ge) hr hp (by
      intro i hi hnil e he s
      by_contra hc
      obtain ⟨t, ht, e', he', h2⟩ := hig i hi e ((hm e).1 he) s (Option.isSome_iff_ne_none.2 hc)
      obtain ⟨a, ha, _⟩ := ((findAreas_spec hRs i ignore).2.2.1 t).2 ⟨ht, e', (hm e').2 he', h2⟩
      rw [hnil] at ha
      simp at ha)
  obtain ⟨Nf, bands, b1, b2, b3, b4, b5⟩ := alignEvents_ok hRs h1
  have hfr : ∀ e' ∈ events', ∃ e ∈ resultsOf results.events, SameFrame e.2 e'.2 := by
    intro e' he'
    obtain ⟨k, hk, rfl⟩ := List.getElem_of_mem he'
    have hk' : k < (sortedEvents results.events).length := by rw [b4.1]; exact hk
    obtain ⟨_, f2⟩ := b4.2 k _ _ (List.getElem?_eq_getElem hk') (List.getElem?_eq_getElem hk)
    exact ⟨_, (hm _).1 (List.getElem_mem hk'), f2.frame⟩
  obtain ⟨events'', h2⟩ := hcalc events' (by
      intro e' he'
      obtain ⟨e, he, h⟩ := hfr e' he'
      rw [h.lenW, hW e he]) (by
      intro e' he'
      have hx := alignEvents_extra h1
      obtain ⟨k, hk, rfl⟩ := List.getElem_of_mem he'
      have hk' : k < (sortedEvents results.events).length := by rw [b4.1]; exact hk
      obtain ⟨_, f2⟩ := hx.2 k _ _ (List.getElem?_eq_getElem hk') (List.getElem?_eq_getElem hk)
      exact ⟨_, (hm _).1 (List.getElem_mem hk'), f2⟩)
  have hc := calc_frame h2
  obtain ⟨R', h3⟩ := updateMeanR_total (rlm := rlm) (events := events'') (n := n) (by
    intro e'' he''
    obtain ⟨k, hk, rfl⟩ := List.getElem_of_mem he''
    have hk' : k < events'.length := by rw [hc.1]; exact hk
    obtain ⟨_, _, f3⟩ := hc.2 k _ _ (List.getElem?_eq_getElem hk') (List.getElem?_eq_getElem hk)
    rw [f3]
    obtain ⟨e, he, h⟩ := hfr _ (List.getElem_mem hk')
    refine rowLen_of_frame ?_ h (hrow e he)
    have hw := hR e he
    unfold Dict.WF Dict.keys at hw ⊢
    rw [h.keys]; exact hw) (results.R.getD [])
  unfold align
  rw [h1]
  simp only [bind, Except.bind]
  rw [h2]
  simp only
  rw [h3]
  exact ⟨_, rfl⟩

theorem align_total {orc : Oracle} {rlm : List ℝ → ℝ × ℝ}
    {solve : Bool → ℕ → List (List ℝ) → List ℝ → List ℝ} {results : Results}
    {sel : StationSel} {response : Response} {us : Bool} {smo : Option Opts}
    {ignore : Option (List String)} {n : ℕ} (hR : ∀ e ∈ resultsOf results.events, e.2.R.WF)
    (hne : resultsOf results.events ≠ [])
    (hW : ∀ e ∈ resultsOf results.events, e.2.W.length = n)
    (hrow : ∀ e ∈ resultsOf results.events, ∀ p ∈ e.2.R, p.2.length = n)
    (hr : ∀ i < n, ∃ r, responseAt response i = .ok r)
    (hp : ∀ i < n, ∀ a, largest (findAreas (sortedEvents results.events) i ignore) = some a →
      (pinned a sel).Nonempty)
    (hig : ∀ i < n, ∀ e ∈ resultsOf results.events, ∀ s, (respOf e.2 s i).isSome →
      ∃ t, notIgnored ignore t ∧ ∃ e ∈ resultsOf results.events, (respOf e.2 t i).isSome)
    (hsmm : results.config.smm = none) (hf : results.freq.length ≤ n)
    (hf0 : ∀ f ∈ results.freq, f ≠ 0) :
    ∃ out, align orc rlm solve results sel response us none smo ignore = .ok out := by
  apply align_total_of hR hne hW hrow hr hp hig
  intro events' he _
  exact calc_total hsmm hf0 (fun e h => by rw [he e h]; exact hf) smo

end Qopen.Site
