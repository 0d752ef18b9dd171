import Verif.Props.SiteTotal

/-!
# Repeated alignment (C10)
-/

namespace Qopen

open Real Spec Source Site

variable {orc : Oracle} {rlm : List ℝ → ℝ × ℝ}
  {solve : Bool → ℕ → List (List ℝ) → List ℝ → List ℝ} {results out : Results}
  {sel : StationSel} {response : Response} {us : Bool} {smm : Option Method} {smo : Option Opts}
  {ignore : Option (List String)}

namespace Site

theorem out_keys (hR : RWF (sortedEvents results.events))
    (h : align orc rlm solve results sel response us smm smo ignore = .ok out) :
    out.events.map Prod.fst = (sortedEvents results.events).map Prod.fst ∧
    (resultsOf out.events).map Prod.fst = (sortedEvents results.events).map Prod.fst := by
  obtain ⟨events', Nf, bands, hout, hW, hrow, hb, hrel, hband, -⟩ := align_ok hR h
  have e3 : (Prod.fst ∘ fun p : String × EvRes => (p.1, some p.2)) = Prod.fst := rfl
  refine ⟨?_, ?_⟩
  · rw [hout, List.map_map, e3, evrel_keys hrel]
  · rw [hout, resultsOf_map_some, evrel_keys hrel]

/-- The events of the result are sorted already. -/
theorem out_sorted (hids : results.events.WF) (hR : RWF (sortedEvents results.events))
    (h : align orc rlm solve results sel response us smm smo ignore = .ok out) :
    out.events.WF ∧ sortedEvents out.events = resultsOf out.events := by
  obtain ⟨k1, k2⟩ := out_keys hR h
  have hw : out.events.WF := by
    have := sorted_WF hids
    unfold Dict.WF Dict.keys at this ⊢
    rw [k1]; exact this
  refine ⟨hw, (sorted_unique hw ⟨List.Perm.refl _, ?_⟩).symm⟩
  have h2 := (sortedEvents_spec results.events).2
  have h3 : ((sortedEvents results.events).map Prod.fst).Pairwise (· ≤ ·) := by
    rw [List.pairwise_map]; exact h2
  rw [← k2, List.pairwise_map] at h3
  exact h3

/-- Relation of the events before and after, band by band. -/
theorem out_rel (hR : RWF (sortedEvents results.events))
    (h : align orc rlm solve results sel response us smm smo ignore = .ok out) :
    ∃ bands, EvRel (AlignedEv 0 bands) (sortedEvents results.events) (resultsOf out.events) ∧
      (∀ e ∈ sortedEvents results.events, e.2.W.length = bands.length) ∧
      ∀ i bf, bands[i]? = some bf →
        alignBand solve (effSparse us (sortedEvents results.events))
          (sortedEvents results.events) i sel response ignore = .ok bf := by
  obtain ⟨events', Nf, bands, hout, hW, hrow, hb, hrel, hband, -⟩ := align_ok hR h
  refine ⟨bands, ?_, ?_, hband⟩
  · rw [hout, resultsOf_map_some]; exact hrel
  · rw [hb]; exact hW

/-- After alignment an energy comes with a response. -/
theorem out_energy_resp (hp : ProperResults results.events)
    (h : align orc rlm solve results sel response us smm smo ignore = .ok out)
    {e : String × EvRes} (he : e ∈ resultsOf out.events) {i : ℕ} :
    (energyOf e.2 i).isSome ↔ ∃ s, (respOf e.2 s i).isSome := by
  obtain ⟨bands, hrel, hlen, hband⟩ := out_rel (proper_rwf hp) h
  obtain ⟨ev, m1⟩ := evrel_left hrel (id := e.1) (ev' := e.2) he
  obtain ⟨k, e1, e2, hal⟩ := evrel_get hrel (sorted_WF hp.ids) m1 he
  have hpe : ∀ s, (respOf ev s i).isSome → (energyOf ev i).isSome :=
    fun s hs => hp.energy _ (mem_sortedEvents.1 m1) s i hs
  cases hbi : bands[i]? with
  | none =>
    have hi := List.getElem?_eq_none_iff.1 hbi
    obtain ⟨s1, s2⟩ := hal.other i (Or.inr (by omega))
    have hn : energyOf ev i = none := by
      unfold energyOf numAt
      rw [List.getElem?_eq_none (by have := hlen _ m1; simp only at this; omega)]
    constructor
    · intro h'; rw [s1, hn] at h'; simp at h'
    · rintro ⟨s, hs⟩
      rw [s2] at hs
      have := hpe s hs
      rw [hn] at this; simp at this
  | some bf =>
    have hst := hal.band i bf hbi
    rw [Nat.zero_add] at hst
    cases hw : energyOf ev i with
    | none =>
      obtain ⟨g1, g2⟩ := hst.noW hw
      constructor
      · intro h'; rw [g1] at h'; simp at h'
      · rintro ⟨s, hs⟩
        rw [g2] at hs
        have := hpe s hs
        rw [hw] at this; simp at this
    | some w =>
      obtain ⟨g1, g2⟩ := hst.energy w hw
      constructor
      · intro h'
        by_contra hc
        rw [g2 hc] at h'; simp at h'
      · intro hs
        rw [g1 hs]; rfl

/-- The result of an alignment is proper again. -/
theorem out_proper (hp : ProperResults results.events)
    (h : align orc rlm solve results sel response us smm smo ignore = .ok out) :
    ProperResults out.events := by
  obtain ⟨bands, hrel, hlen, hband⟩ := out_rel (proper_rwf hp) h
  refine ⟨(out_sorted hp.ids (proper_rwf hp) h).1, ?_, ?_, ?_⟩
  · intro e he
    obtain ⟨ev, m1⟩ := evrel_left hrel (id := e.1) (ev' := e.2) he
    obtain ⟨k, e1, e2, hal⟩ := evrel_get hrel (sorted_WF hp.ids) m1 he
    have hw := hp.stations _ (mem_sortedEvents.1 m1)
    unfold Dict.WF Dict.keys at hw ⊢
    rw [hal.frame.keys]; exact hw
  · intro e he s i y hy
    obtain ⟨ev, m1⟩ := evrel_left hrel (id := e.1) (ev' := e.2) he
    obtain ⟨k, e1, e2, hal⟩ := evrel_get hrel (sorted_WF hp.ids) m1 he
    have hpos : ∀ z, respOf ev s i = some z → 0 < z :=
      fun z hz => hp.positive _ (mem_sortedEvents.1 m1) s i z hz
    cases hbi : bands[i]? with
    | none =>
      have hi := List.getElem?_eq_none_iff.1 hbi
      obtain ⟨s1, s2⟩ := hal.other i (Or.inr (by omega))
      rw [s2] at hy; exact hpos y hy
    | some bf =>
      have hst := hal.band i bf hbi
      rw [Nat.zero_add] at hst
      cases hw : energyOf ev i with
      | none => rw [(hst.noW hw).2] at hy; exact hpos y hy
      | some w =>
        rw [hst.resp w hw] at hy
        cases hr : respOf ev s i with
        | none => rw [hr] at hy; simp at hy
        | some z =>
          rw [hr, Option.bind_some] at hy
          split at hy
          · simp only [Option.some.injEq] at hy
            rw [← hy]
            exact mul_pos (hpos z hr) (band_factor_ne_zero (proper_rwf hp) (hband i bf hbi) k)
          · simp at hy
  · intro e he s i hs
    exact (out_energy_resp hp h he).2 ⟨s, hs⟩

/-- The result of an alignment is complete again. -/
theorem out_complete {n : ℕ} (hids : results.events.WF) (hc : CompleteResults results.events n)
    (h : align orc rlm solve results sel response us smm smo ignore = .ok out) :
    CompleteResults out.events n := by
  have hR : RWF (sortedEvents results.events) := fun e he => hc.stations e (mem_sortedEvents.1 he)
  obtain ⟨bands, hrel, hlen, hband⟩ := out_rel hR h
  have key : ∀ e ∈ resultsOf out.events, ∃ e0 ∈ resultsOf results.events, SameFrame e0.2 e.2 := by
    intro e he
    obtain ⟨ev, m1⟩ := evrel_left hrel (id := e.1) (ev' := e.2) he
    obtain ⟨k, e1, e2, hal⟩ := evrel_get hrel (sorted_WF hids) m1 he
    exact ⟨_, mem_sortedEvents.1 m1, hal.frame⟩
  have hst : ∀ e ∈ resultsOf out.events, e.2.R.WF := by
    intro e he
    obtain ⟨e0, h0, hf⟩ := key e he
    have hw := hc.stations _ h0
    unfold Dict.WF Dict.keys at hw ⊢
    rw [hf.keys]; exact hw
  refine ⟨?_, hst, ?_, ?_⟩
  · intro hn
    have h1 := hrel.1
    rw [hn] at h1
    obtain ⟨e, he⟩ := List.exists_mem_of_ne_nil _ hc.some_event
    have := List.length_pos_of_mem (mem_sortedEvents.2 he)
    rw [h1] at this
    simp at this
  · intro e he
    obtain ⟨e0, h0, hf⟩ := key e he
    rw [hf.lenW]; exact hc.energies e0 h0
  · intro e he
    obtain ⟨e0, h0, hf⟩ := key e he
    exact rowLen_of_frame (hst e he) hf (hc.responses e0 h0)

end Site

/-- **C10**: aligning a result of the alignment again with the same options does not change any
response or source energy, for every least-squares minimiser of both runs. -/
theorem C10_idempotent (hp : ProperResults results.events)
    {solve' : Bool → ℕ → List (List ℝ) → List ℝ → List ℝ}
    (hsol : ∀ b, IsLsqSolver (solve b)) (hsol' : ∀ b, IsLsqSolver (solve' b)) {out₂ : Results}
    {us' : Bool}
    (h : align orc rlm solve results sel response us smm smo ignore = .ok out)
    (h' : align orc rlm solve' out sel response us' smm smo ignore = .ok out₂)
    {id : String} {ev ev' : EvRes} (g : out.events.get? id = some (some ev))
    (g' : out₂.events.get? id = some (some ev')) (i : ℕ) :
    energyOf ev' i = energyOf ev i ∧ ∀ s, respOf ev' s i = respOf ev s i := by
  have hp' := out_proper hp h
  obtain ⟨hwf, hsort⟩ := out_sorted hp.ids (proper_rwf hp) h
  have m : (id, ev) ∈ resultsOf out.events := mem_resultsOf.2 (Dict.mem_of_get? g)
  have m' : (id, ev') ∈ resultsOf out₂.events := mem_resultsOf.2 (Dict.mem_of_get? g')
  -- the factor of the second run is one wherever there is a response
  have key : ∀ s y, respOf ev s i = some y → respOf ev' s i = some y ∧
      energyOf ev' i = energyOf ev i := by
    intro s y hy
    have hd' : ∃ e ∈ resultsOf out.events, ∃ s, (respOf e.2 s i).isSome :=
      ⟨_, m, s, by simp [hy]⟩
    have hd : ∃ e ∈ resultsOf results.events, ∃ s, (respOf e.2 s i).isSome := by
      obtain ⟨bands, hrel, -, -⟩ := out_rel (proper_rwf hp) h
      obtain ⟨ev0, m0⟩ := evrel_left hrel m
      refine ⟨_, mem_sortedEvents.1 m0, s, ?_⟩
      by_contra hc
      have hn : respOf ev0 s i = none := by
        cases hh : respOf ev0 s i with
        | none => rfl
        | some z => simp [hh] at hc
      have := (C01_missing_stays_missing hp.ids hp.stations h
        (Dict.get?_of_mem hp.ids (mem_resultsOf.1 (mem_sortedEvents.1 m0))) g i).2 s hn
      rw [this] at hy; simp at hy
    obtain ⟨bands, a, x, r, hrun⟩ := run_band hp h hd
    obtain ⟨bands', a', x', r', hrun'⟩ := run_band hp' h' hd'
    have hsta := run_stations hp hrun
    rw [hsort] at hrun'
    -- the same requested response
    have hrr : r' = r := by
      have h1 := hrun.resp
      have h2 := hrun'.resp
      rw [h1] at h2
      simpa using h2.symm
    subst hrr
    have hin : ∀ t, (∃ e ∈ resultsOf out.events, (respOf e.2 t i).isSome) ↔ t ∈ a := by
      intro t
      rw [← hsta, mem_stationsWith]
    -- the same area
    have haa : a' = a := by
      obtain ⟨s0, hs0⟩ := hrun'.area.nonempty
      have hs0a : s0 ∈ a := (hin s0).1 (hrun'.area.data s0 hs0)
      ext t
      constructor
      · intro ht
        exact (hin t).1 (hrun'.area.data t ht)
      · intro ht
        have hl := (hrun.area.linked s0 hs0a t).1 ht
        rw [hrun'.area.linked s0 hs0]
        have hboth : ∀ t, Linked (sortedEvents results.events) i (notIgnored ignore) s0 t →
            t ∈ a ∧ Linked (resultsOf out.events) i (notIgnored ignore) s0 t := by
          intro t ht
          induction ht with
          | refl => exact ⟨hs0a, Relation.ReflTransGen.refl⟩
          | tail h1 h2 ih =>
            rename_i b c
            have hc : c ∈ a := (hrun.area.linked s0 hs0a c).2 (Relation.ReflTransGen.tail h1 h2)
            refine ⟨hc, ih.2.tail ?_⟩
            obtain ⟨o1, o2, e, he, r1, r2⟩ := h2
            obtain ⟨k, hk, rfl⟩ := List.getElem_of_mem he
            have hk' : k < List.length (resultsOf out.events) := by rw [← hrun.rel.1]; exact hk
            have hr := run_resp hp hrun (List.getElem?_eq_getElem hk) (List.getElem?_eq_getElem hk')
            refine ⟨o1, o2, _, List.getElem_mem hk', ?_, ?_⟩
            · rw [hr]
              obtain ⟨z, hz⟩ := Option.isSome_iff_exists.1 r1
              simp [hz, ih.1]
            · rw [hr]
              obtain ⟨z, hz⟩ := Option.isSome_iff_exists.1 r2
              simp [hz, hc]
        exact (hboth t hl).2
    subst haa
    -- zero is a minimiser of the second system
    have hmis : ∀ c, misfit (resultsOf out.events) i a' sel r' c =
        misfit (sortedEvents results.events) i a' sel r' (fun k => x.getD k 0 + c k) := by
      intro c
      have hadj : ∀ s ∈ a', adj (resultsOf out.events) i c s =
          adj (sortedEvents results.events) i (fun k => x.getD k 0 + c k) s := fun s hs =>
        adj_aligned hrun.rel (hrun.solver (hsol _)).1 hrun.band (proper_energy hp i)
          (proper_pos hp i) hs c
      have f1 : ∑ s ∈ a', sqSteps (adj (resultsOf out.events) i c s) =
          ∑ s ∈ a', sqSteps (adj (sortedEvents results.events) i (fun k => x.getD k 0 + c k) s) :=
        Finset.sum_congr rfl (fun s hs => by rw [hadj s hs])
      have f2 : ∑ s ∈ pinned a' sel, avg (adj (resultsOf out.events) i c s) =
          ∑ s ∈ pinned a' sel,
            avg (adj (sortedEvents results.events) i (fun k => x.getD k 0 + c k) s) :=
        Finset.sum_congr rfl (fun s hs => by rw [hadj s (Finset.mem_filter.1 hs).1])
      unfold misfit
      rw [f1, f2]
    have hmin0 : IsMin (resultsOf out.events) i a' sel r' (fun _ => 0) := by
      intro c
      rw [hmis, hmis]
      simp only [add_zero]
      exact (hrun.solver (hsol _)).2 _
    obtain ⟨hx', hmin'⟩ := hrun'.solver (hsol' _)
    obtain ⟨k, e1, e2, hal⟩ := evrel_get hrun'.rel (by
      have := resultsOf_nodup hwf; exact this) m m'
    have hsa : s ∈ a' := (hin s).1 ⟨_, m, by simp [hy]⟩
    have hx0 : x'.getD k 0 = 0 :=
      IsMin.unique hrun'.area hrun'.pinned hmin' hmin0 hsa (mem_pts.2 ⟨_, e1, hy⟩)
    have hf : (x'.map exp).getD k 1 = 1 := by
      have hk : k < x'.length := by rw [hx']; exact (List.getElem?_eq_some_iff.1 e1).1
      simp only [List.getD_eq_getElem?_getD, List.getElem?_map, List.getElem?_eq_getElem hk,
        Option.map_some, Option.getD_some] at hx0 ⊢
      rw [hx0, exp_zero]
    obtain ⟨w, hw⟩ := Option.isSome_iff_exists.1 ((out_energy_resp hp h m (i := i)).2 ⟨s, by simp [hy]⟩)
    have hst := hal.band i _ hrun'.band
    rw [Nat.zero_add] at hst
    have hr1 : respOf ev' s i = some y := by
      rw [hst.resp w hw, hy]
      simp only [Option.bind_some, Option.some.injEq, exists_eq_left', if_pos hsa, hf, mul_one]
    refine ⟨hr1, ?_⟩
    rw [(hst.energy w hw).1 ⟨s, by simp [hr1]⟩, hf]
    simp only at hw
    rw [hw, div_one]
  have hresp : ∀ s, respOf ev' s i = respOf ev s i := by
    intro s
    cases hy : respOf ev s i with
    | none => exact (C01_missing_stays_missing hp'.ids hp'.stations h' g g' i).2 s hy
    | some y => exact (key s y hy).1
  refine ⟨?_, hresp⟩
  cases hw : energyOf ev i with
  | none => exact (C01_missing_stays_missing hp'.ids hp'.stations h' g g' i).1 hw
  | some w =>
    obtain ⟨s, hs⟩ := (out_energy_resp hp h m (i := i)).1 (by simp [hw])
    obtain ⟨y, hy⟩ := Option.isSome_iff_exists.1 hs
    rw [(key s y hy).2, hw]

/-- Two successful runs, one after the other. -/
example (orc : Oracle) (rlm : List ℝ → ℝ × ℝ) : ∃ out out₂,
    align orc rlm (fun _ => someSolver) demo .all (.scalar 1) true none none none = .ok out ∧
    align orc rlm (fun _ => someSolver) out .all (.scalar 1) true none none none = .ok out₂ := by
  obtain ⟨out, h⟩ := demo_succeeds orc rlm true
  obtain ⟨_, _, _, _, _, _, _, _, _, _, _, hfr, hcf⟩ := align_ok (proper_rwf demo_proper) h
  obtain ⟨out₂, h₂⟩ := C79_alignment_succeeds (orc := orc) (rlm := rlm)
    (solve := fun _ => someSolver) (results := out) (response := .scalar 1) (us := true)
    (smo := none) (out_complete demo_proper.ids demo_complete h) (fun _ _ => rfl)
    (by rw [hcf]; rfl) (by rw [hfr]; simp [demo]) (by rw [hfr]; simp [demo])
  exact ⟨out, out₂, h, h₂⟩

end Qopen
