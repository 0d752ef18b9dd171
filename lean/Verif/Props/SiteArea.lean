import Verif.Props.SiteAlign

/-!
# Areas, order of events, dependence on the solver, repeated alignment (C05, C06, C08–C10)
-/

namespace Qopen

open Real Spec Source Site

variable {orc : Oracle} {rlm : List ℝ → ℝ × ℝ}
  {solve : Bool → ℕ → List (List ℝ) → List ℝ → List ℝ} {results out : Results}
  {sel : StationSel} {response : Response} {us : Bool} {smm : Option Method} {smo : Option Opts}
  {ignore : Option (List String)}

/-! ## C06 -/

/-- **C06**: merging a list of non-empty sets yields pairwise disjoint non-empty sets with the
same elements; two elements are in the same set iff a chain of given sets links them. -/
theorem C06_merge_components {α : Type} [DecidableEq α] (sets : List (Finset α))
    (hne : ∀ s ∈ sets, s.Nonempty) :
    (mergeSets sets).Pairwise Disjoint ∧
    (∀ s ∈ mergeSets sets, s.Nonempty) ∧
    (∀ x, (∃ s ∈ mergeSets sets, x ∈ s) ↔ ∃ s ∈ sets, x ∈ s) ∧
    ∀ s ∈ mergeSets sets, ∀ x ∈ s, ∀ y, y ∈ s ↔ Connected sets x y := by
  obtain ⟨h1, h2, h3, h4⟩ := mergeSets_spec sets
  refine ⟨h1, h4 hne, h3, ?_⟩
  intro s hs x hx y
  rw [← h2]
  exact ⟨fun hy => connected_of_mem hs hx hy, fun hc => connected_disjoint h1 hs hx hc⟩

/-- **C06**: no area is lost when each area is stored under the name of one of its members,
whichever member is chosen. -/
theorem C06_names_distinct {α : Type} [DecidableEq α] (sets : List (Finset α))
    (name : Finset α → α) (hname : ∀ s ∈ mergeSets sets, name s ∈ s) :
    ((mergeSets sets).map name).Nodup := by
  have h1 := (mergeSets_spec sets).1
  rw [List.nodup_iff_pairwise_ne, List.pairwise_map]
  refine h1.imp_of_mem ?_
  intro a b ha hb hd heq
  have h2 := hname a ha
  have h3 := hname b hb
  rw [heq] at h2
  exact Finset.disjoint_left.1 hd h2 h3

/-- **C06**: the areas of a band are the classes of stations linked by events: disjoint, covering
exactly the (not ignored) stations with data. -/
theorem C06_areas (events : Dict String EvRes) (hR : ∀ e ∈ events, e.2.R.WF) (i : ℕ)
    (ignore : Option (List String)) :
    (findAreas events i ignore).Pairwise Disjoint ∧
    (∀ s, (∃ a ∈ findAreas events i ignore, s ∈ a) ↔
      notIgnored ignore s ∧ ∃ e ∈ events, (respOf e.2 s i).isSome) ∧
    ∀ a ∈ findAreas events i ignore, ∀ s ∈ a, ∀ t,
      t ∈ a ↔ Linked events i (notIgnored ignore) s t := by
  obtain ⟨h1, -, h3, h4⟩ := findAreas_spec (events := events) hR i ignore
  exact ⟨h1, h3, h4⟩

/-- Three sets, two of them linked through the third only. -/
example : Connected [({1, 2} : Finset ℕ), {3, 4}, {2, 3}] 1 4 ∧
    ¬ Connected [({1, 2} : Finset ℕ), {3, 4}] 1 4 := by
  constructor
  · have h1 : InCommon [({1, 2} : Finset ℕ), {3, 4}, {2, 3}] 1 2 := ⟨{1, 2}, by simp⟩
    have h2 : InCommon [({1, 2} : Finset ℕ), {3, 4}, {2, 3}] 2 3 := ⟨{2, 3}, by simp⟩
    have h3 : InCommon [({1, 2} : Finset ℕ), {3, 4}, {2, 3}] 3 4 := ⟨{3, 4}, by simp⟩
    exact ((Relation.ReflTransGen.single h1).tail h2).tail h3
  · intro h
    have key : ∀ y, Connected [({1, 2} : Finset ℕ), {3, 4}] 1 y → y = 1 ∨ y = 2 := by
      intro y hy
      induction hy with
      | refl => simp
      | tail _ h1 ih =>
        obtain ⟨s, hs, ha, hb⟩ := h1
        simp only [List.mem_cons, List.not_mem_nil, or_false] at hs
        rcases hs with rfl | rfl
        · simpa using hb
        · rcases ih with rfl | rfl <;> simp at ha
    have := key 4 h
    omega

/-! ## C05 -/

theorem largestArea_of {d : Dict String (Option EvRes)} (hp : ProperResults d) {i : ℕ}
    {a : Finset String} (ha : IsArea (sortedEvents d) i (notIgnored ignore) a)
    (hl : largest (findAreas (sortedEvents d) i ignore) = some a) :
    LargestArea (resultsOf d) i (notIgnored ignore) a := by
  have hR : RWF (sortedEvents d) := fun e he => hp.stations e (mem_sortedEvents.1 he)
  have hlk := linked_perm (a := sortedEvents d) (b := resultsOf d)
    (fun e => mem_sortedEvents) i (notIgnored ignore)
  refine ⟨ha.nonempty, ?_, ?_, ?_⟩
  · intro s hs
    obtain ⟨e, he, h1⟩ := ha.data s hs
    exact ⟨ha.isOk s hs, e, mem_sortedEvents.1 he, h1⟩
  · intro s hs t
    rw [← hlk]; exact ha.linked s hs t
  · rintro s hs ⟨e, he, h1⟩ b hb
    obtain ⟨_, _, f3, f4⟩ := findAreas_spec hR i ignore
    obtain ⟨c, hc, hsc⟩ := (f3 s).2 ⟨hs, e, mem_sortedEvents.2 he, h1⟩
    have : b = c := by
      ext t
      rw [hb, ← hlk]; exact (f4 c hc s hsc t).symm
    rw [this]
    exact (largest_some hl).2 c hc

/-- **C05**: in every band with data there is a largest area such that exactly its stations keep
their responses; the source energy of an event is dropped iff none of its stations remain. -/
theorem C05_only_largest_area (hp : ProperResults results.events)
    (h : align orc rlm solve results sel response us smm smo ignore = .ok out) {i : ℕ}
    (hdata : ∃ e ∈ resultsOf results.events, ∃ s, (respOf e.2 s i).isSome) :
    ∃ area, LargestArea (resultsOf results.events) i (notIgnored ignore) area ∧
      ∀ id ev ev', results.events.get? id = some (some ev) → out.events.get? id = some (some ev') →
        (∀ s, (respOf ev' s i).isSome ↔ s ∈ area ∧ (respOf ev s i).isSome) ∧
        ((energyOf ev i).isSome → (energyOf ev' i = none ↔ ∀ s, respOf ev' s i = none)) := by
  obtain ⟨bands, a, x, r, hrun⟩ := run_band hp h hdata
  refine ⟨a, largestArea_of hp hrun.area hrun.largest, ?_⟩
  intro id ev ev' h1 h2
  have m1 : (id, ev) ∈ sortedEvents results.events :=
    mem_sortedEvents.2 (mem_resultsOf.2 (Dict.mem_of_get? h1))
  have m2 : (id, ev') ∈ resultsOf out.events := mem_resultsOf.2 (Dict.mem_of_get? h2)
  obtain ⟨k, e1, e2, hal⟩ := evrel_get hrun.rel (sorted_WF hp.ids) m1 m2
  have hresp : ∀ s, (respOf ev' s i).isSome ↔ s ∈ a ∧ (respOf ev s i).isSome := by
    intro s
    rw [run_resp hp hrun e1 e2 s]
    cases respOf ev s i with
    | none => simp
    | some y => by_cases hs : s ∈ a <;> simp [hs]
  refine ⟨hresp, ?_⟩
  intro hw
  obtain ⟨w, hw⟩ := Option.isSome_iff_exists.1 hw
  have hst := hal.band i _ hrun.band
  rw [Nat.zero_add] at hst
  obtain ⟨g1, g2⟩ := hst.energy w hw
  constructor
  · intro hn s
    by_contra hc
    have : ∃ s, (respOf ev' s i).isSome := ⟨s, Option.isSome_iff_ne_none.2 hc⟩
    rw [g1 this] at hn
    simp at hn
  · intro hn
    apply g2
    rintro ⟨s, hs⟩
    simp [hn s] at hs

/-- **C05**: something is left in every band with data. -/
theorem C05_data_remain (hp : ProperResults results.events)
    (h : align orc rlm solve results sel response us smm smo ignore = .ok out) {i : ℕ}
    (hdata : ∃ e ∈ resultsOf results.events, ∃ s, (respOf e.2 s i).isSome) :
    ∃ e ∈ resultsOf out.events, ∃ s, (respOf e.2 s i).isSome ∧ (energyOf e.2 i).isSome := by
  obtain ⟨bands, a, x, r, hrun⟩ := run_band hp h hdata
  obtain ⟨s, hs⟩ := hrun.area.nonempty
  rw [← run_stations hp hrun, mem_stationsWith] at hs
  obtain ⟨e, he, h1⟩ := hs
  refine ⟨e, he, s, h1, ?_⟩
  obtain ⟨ev, m1⟩ := evrel_left hrun.rel (id := e.1) (ev' := e.2) he
  obtain ⟨k, e1, e2, hal⟩ := evrel_get hrun.rel (sorted_WF hp.ids) m1 he
  have hst := hal.band i _ hrun.band
  rw [Nat.zero_add] at hst
  have h2 := run_resp hp hrun e1 e2 s
  simp only at h2
  rw [h2] at h1
  cases hr : respOf ev s i with
  | none => simp [hr] at h1
  | some y =>
    obtain ⟨w, hw⟩ := Option.isSome_iff_exists.1
      (proper_energy hp i _ (List.mem_of_getElem? e1) s (by simp [hr]))
    rw [(hst.energy w hw).1 ⟨s, by rw [h2]; exact h1⟩]
    rfl

/-! ## C09 -/

/-- **C09**: the result has exactly the events with results, in the order of their ids. -/
theorem C09_events_sorted (hst : ∀ e ∈ resultsOf results.events, e.2.R.WF)
    (h : align orc rlm solve results sel response us smm smo ignore = .ok out) :
    (∀ p ∈ out.events, p.2.isSome) ∧
    (out.events.map Prod.fst).Perm ((resultsOf results.events).map Prod.fst) ∧
    (out.events.map Prod.fst).Pairwise (· ≤ ·) := by
  have hR : RWF (sortedEvents results.events) := fun e he => hst e (mem_sortedEvents.1 he)
  obtain ⟨events', Nf, bands, hout, hW, hrow, hb, hrel, hband, -⟩ := align_ok hR h
  have hk : out.events.map Prod.fst = (sortedEvents results.events).map Prod.fst := by
    rw [hout, List.map_map]
    have e3 : (Prod.fst ∘ fun p : String × EvRes => (p.1, some p.2)) = Prod.fst := rfl
    rw [e3, evrel_keys hrel]
  obtain ⟨s1, s2⟩ := sortedEvents_spec results.events
  refine ⟨?_, ?_, ?_⟩
  · intro p hp
    rw [hout] at hp
    obtain ⟨q, _, rfl⟩ := List.mem_map.1 hp
    rfl
  · rw [hk]; exact s1.map _
  · rw [hk, List.pairwise_map]; exact s2

theorem freqs_error (es : Dict String EvRes) (m : ℕ) (h : ∃ e ∈ es, e.2.W.length ≠ m) :
    es.foldlM freqStep (some m) = .error .assertion := by
  induction es with
  | nil => simp at h
  | cons e es ih =>
    rw [List.foldlM_cons]
    by_cases he : m = e.2.W.length
    · simp only [freqStep, if_pos he, bind, Except.bind]
      apply ih
      obtain ⟨x, hx, hne⟩ := h
      rcases List.mem_cons.1 hx with rfl | hx
      · exact absurd he.symm hne
      · exact ⟨x, hx, hne⟩
    · simp [freqStep, if_neg he, bind, Except.bind]

/-- **C09**: results whose events have different numbers of bands are rejected with an
`AssertionError`. -/
theorem C09_rejects_uneven_bands {e e' : String × EvRes} (he : e ∈ resultsOf results.events)
    (he' : e' ∈ resultsOf results.events) (hne : e.2.W.length ≠ e'.2.W.length) :
    align orc rlm solve results sel response us smm smo ignore = .error .assertion := by
  have key : numberOfFreqs (sortedEvents results.events) = .error .assertion := by
    have m1 := mem_sortedEvents.2 he
    have m2 := mem_sortedEvents.2 he'
    generalize sortedEvents results.events = es at m1 m2
    cases es with
    | nil => simp at m1
    | cons f es =>
      unfold numberOfFreqs
      rw [List.foldlM_cons]
      simp only [freqStep, bind, Except.bind]
      apply freqs_error
      by_contra hc
      push Not at hc
      apply hne
      have : ∀ x ∈ f :: es, x.2.W.length = f.2.W.length := by
        intro x hx
        rcases List.mem_cons.1 hx with rfl | hx
        · rfl
        · exact hc x hx
      rw [this e m1, this e' m2]
  unfold align alignEvents
  simp only [key]
  rfl

/-! ## C08 -/

/-- **C08**: two runs with any least-squares solvers, sparse or dense, report the same responses and source
energies. -/
theorem C08_solver_independent (hp : ProperResults results.events)
    {solve₁ solve₂ : Bool → ℕ → List (List ℝ) → List ℝ → List ℝ}
    (hs₁ : ∀ b, IsLsqSolver (solve₁ b)) (hs₂ : ∀ b, IsLsqSolver (solve₂ b)) {us₁ us₂ : Bool}
    {out₁ out₂ : Results}
    (h₁ : align orc rlm solve₁ results sel response us₁ smm smo ignore = .ok out₁)
    (h₂ : align orc rlm solve₂ results sel response us₂ smm smo ignore = .ok out₂)
    {id : String} {ev₁ ev₂ : EvRes} (g₁ : out₁.events.get? id = some (some ev₁))
    (g₂ : out₂.events.get? id = some (some ev₂)) (i : ℕ) :
    energyOf ev₁ i = energyOf ev₂ i ∧ ∀ s, respOf ev₁ s i = respOf ev₂ s i := by
  have hR := proper_rwf hp
  obtain ⟨events₁, Nf₁, bands₁, hout₁, hW₁, -, hb₁, hrel₁, hband₁, -⟩ := align_ok hR h₁
  obtain ⟨events₂, Nf₂, bands₂, hout₂, hW₂, -, hb₂, hrel₂, hband₂, -⟩ := align_ok hR h₂
  have n₁ : (id, ev₁) ∈ events₁ := by
    have := mem_resultsOf.2 (Dict.mem_of_get? g₁)
    rwa [hout₁, resultsOf_map_some] at this
  have n₂ : (id, ev₂) ∈ events₂ := by
    have := mem_resultsOf.2 (Dict.mem_of_get? g₂)
    rwa [hout₂, resultsOf_map_some] at this
  obtain ⟨ev, m⟩ := evrel_left hrel₁ n₁
  obtain ⟨k, e1, e2, hal₁⟩ := evrel_get hrel₁ (sorted_WF hp.ids) m n₁
  obtain ⟨k', e1', e3, hal₂⟩ := evrel_get hrel₂ (sorted_WF hp.ids) m n₂
  have hkk : k' = k := by
    have hw := sorted_WF hp.ids
    unfold Dict.WF Dict.keys at hw
    obtain ⟨i1, j1⟩ := List.getElem?_eq_some_iff.1 e1
    obtain ⟨i2, j2⟩ := List.getElem?_eq_some_iff.1 e1'
    have := List.Nodup.getElem_inj_iff hw (i := k') (j := k) (hi := by simpa using i2)
      (hj := by simpa using i1)
    rw [← this]
    simp only [List.getElem_map, j1, j2]
  subst hkk
  have hNf : Nf₁ = Nf₂ := (hW₁ _ m).symm.trans (hW₂ _ m)
  cases hbi₁ : bands₁[i]? with
  | none =>
    have hi : bands₁.length ≤ i := List.getElem?_eq_none_iff.1 hbi₁
    have s₁ := hal₁.other i (Or.inr (by omega))
    have s₂ := hal₂.other i (Or.inr (by omega))
    exact ⟨s₁.1.trans s₂.1.symm, fun s => (s₁.2 s).trans (s₂.2 s).symm⟩
  | some bf₁ =>
    have hi : i < bands₂.length := by
      have := (List.getElem?_eq_some_iff.1 hbi₁).1; omega
    have hbi₂ : bands₂[i]? = some bands₂[i] := List.getElem?_eq_getElem hi
    have st₁ := hal₁.band i _ hbi₁
    have st₂ := hal₂.band i _ hbi₂
    rw [Nat.zero_add] at st₁ st₂
    cases hw : energyOf ev i with
    | none =>
      exact ⟨(st₁.noW hw).1.trans (st₂.noW hw).1.symm,
        fun s => ((st₁.noW hw).2 s).trans ((st₂.noW hw).2 s).symm⟩
    | some w =>
      have hr : ∀ s, respOf ev₁ s i = respOf ev₂ s i ∧
          ((respOf ev₁ s i).isSome → bf₁.2.getD k' 1 = bands₂[i].2.getD k' 1) := by
        intro s
        rw [st₁.resp w hw, st₂.resp w hw]
        cases hrs : respOf ev s i with
        | none => simp
        | some R =>
          rcases alignBand_ok hR (hband₁ i _ hbi₁) with ⟨c1, d1⟩ | ⟨a, x, r, d1, ha, hl, hr, hpn, hsol⟩
          · have := st₁.noArea w hw (by rw [d1]) s
            rw [this] at hrs; simp at hrs
          · rcases alignBand_ok hR (hband₂ i _ hbi₂) with ⟨c2, d2⟩ | ⟨a', x', r', d2, ha', hl', hr', hpn', hsol'⟩
            · have := st₂.noArea w hw (by rw [d2]) s
              rw [this] at hrs; simp at hrs
            · have haa : a' = a := by rw [hl] at hl'; simpa using hl'.symm
              have hrr : r' = r := by rw [hr] at hr'; simpa using hr'.symm
              subst haa hrr
              rw [d1, d2]
              by_cases hs : s ∈ a'
              · have hmem : (k', R) ∈ pts (sortedEvents results.events) i s :=
                  mem_pts.2 ⟨_, e1, hrs⟩
                have hu := IsMin.unique ha hpn (hsol (hs₁ _)).2 (hsol' (hs₂ _)).2 hs hmem
                have l1 : k' < x.length := by
                  rw [(hsol (hs₁ _)).1]; exact (List.getElem?_eq_some_iff.1 e1).1
                have l2 : k' < x'.length := by
                  rw [(hsol' (hs₂ _)).1]; exact (List.getElem?_eq_some_iff.1 e1).1
                have hf : (x.map exp).getD k' 1 = (x'.map exp).getD k' 1 := by
                  simp only [List.getD_eq_getElem?_getD, List.getElem?_map,
                    List.getElem?_eq_getElem l1, List.getElem?_eq_getElem l2, Option.map_some,
                    Option.getD_some] at hu ⊢
                  rw [hu]
                rw [hf]; simp
              · simp [hs]
      refine ⟨?_, fun s => (hr s).1⟩
      by_cases hex : ∃ s, (respOf ev₁ s i).isSome
      · obtain ⟨s, hs⟩ := hex
        have hs' := hs
        rw [(hr s).1] at hs'
        rw [(st₁.energy w hw).1 ⟨s, hs⟩, (st₂.energy w hw).1 ⟨s, hs'⟩, (hr s).2 hs]
      · have hex' : ¬ ∃ s, (respOf ev₂ s i).isSome := by
          rintro ⟨s, hs⟩; exact hex ⟨s, by rw [(hr s).1]; exact hs⟩
        rw [(st₁.energy w hw).2 hex, (st₂.energy w hw).2 hex']

end Qopen
