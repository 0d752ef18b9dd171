import Verif.Lemmas.SiteRun

/-!
# Properties of the alignment of site responses (C01–C05, C08–C10)

`align … results … = .ok out` says that `align_site_responses(results, …)` returns the result
dictionary `out`.  `solve useSparse n A b` is the least-squares solver.
-/

namespace Qopen

open Real Spec Source Site

variable {orc : Oracle} {rlm : List ℝ → ℝ × ℝ}
  {solve : Bool → ℕ → List (List ℝ) → List ℝ → List ℝ} {results out : Results}
  {sel : StationSel} {response : Response} {us : Bool} {smm : Option Method} {smo : Option Opts}
  {ignore : Option (List String)}

/-! ## C01 -/

theorem band_factor_ne_zero {events : Dict String EvRes} {i : ℕ}
    {bf : Option (Finset String) × List ℝ} (hR : RWF events)
    (h : alignBand solve us events i sel response ignore = .ok bf) (k : ℕ) :
    0 < bf.2.getD k 1 := by
  rcases alignBand_ok hR h with ⟨_, rfl⟩ | ⟨a, x, r, rfl, _⟩
  · simp only [List.getD_eq_getElem?_getD, List.getElem?_replicate]
    split <;> simp
  · simp only [List.getD_eq_getElem?_getD, List.getElem?_map]
    cases x[k]? with
    | none => simp
    | some y => simpa using exp_pos y

/-- **C01**: after alignment, for every event, station and band with a response and a source
energy, their product is what it was before; this holds for whatever the solver returns. -/
theorem C01_product_preserved (hids : results.events.WF)
    (hst : ∀ e ∈ resultsOf results.events, e.2.R.WF)
    (h : align orc rlm solve results sel response us smm smo ignore = .ok out)
    {id : String} {ev ev' : EvRes} (h1 : results.events.get? id = some (some ev))
    (h2 : out.events.get? id = some (some ev')) {s : String} {i : ℕ} {R' W' : ℝ}
    (hR' : respOf ev' s i = some R') (hW' : energyOf ev' i = some W') :
    ∃ R W, respOf ev s i = some R ∧ energyOf ev i = some W ∧ R' * W' = R * W := by
  have hR : RWF (sortedEvents results.events) := fun e he => hst e (mem_sortedEvents.1 he)
  obtain ⟨events', Nf, bands, hout, hW, hrow, hb, hrel, hband, -⟩ := align_ok hR h
  have m1 : (id, ev) ∈ sortedEvents results.events :=
    mem_sortedEvents.2 (mem_resultsOf.2 (Dict.mem_of_get? h1))
  have m2 : (id, ev') ∈ events' := by
    have := Dict.mem_of_get? h2
    rw [hout] at this
    obtain ⟨p, hp, e⟩ := List.mem_map.1 this
    simp only [Prod.mk.injEq, Option.some.injEq] at e
    rw [← e.1, ← e.2]; exact hp
  obtain ⟨k, e1, e2, hal⟩ := evrel_get hrel (sorted_WF hids) m1 m2
  cases hbi : bands[i]? with
  | none =>
    have hsame := hal.other i (Or.inr (by rw [List.getElem?_eq_none_iff] at hbi; omega))
    rw [hsame.2] at hR'
    rw [hsame.1] at hW'
    exact ⟨R', W', hR', hW', rfl⟩
  | some bf =>
    have hst := hal.band i bf hbi
    rw [Nat.zero_add] at hst
    have hf := band_factor_ne_zero hR (hband i bf hbi) k
    cases hw : energyOf ev i with
    | none => rw [(hst.noW hw).1] at hW'; simp at hW'
    | some w =>
      rw [(hst.energy w hw).1 ⟨s, by simp [hR']⟩] at hW'
      rw [hst.resp w hw] at hR'
      cases hr : respOf ev s i with
      | none => simp [hr] at hR'
      | some R =>
        rw [hr, Option.bind_some] at hR'
        split at hR'
        · simp only [Option.some.injEq] at hR' hW'
          refine ⟨R, w, rfl, rfl, ?_⟩
          rw [← hR', ← hW']
          field_simp
        · simp at hR'

/-- **C01**: what was missing stays missing. -/
theorem C01_missing_stays_missing (hids : results.events.WF)
    (hst : ∀ e ∈ resultsOf results.events, e.2.R.WF)
    (h : align orc rlm solve results sel response us smm smo ignore = .ok out)
    {id : String} {ev ev' : EvRes} (h1 : results.events.get? id = some (some ev))
    (h2 : out.events.get? id = some (some ev')) (i : ℕ) :
    (energyOf ev i = none → energyOf ev' i = none) ∧
    ∀ s, respOf ev s i = none → respOf ev' s i = none := by
  have hR : RWF (sortedEvents results.events) := fun e he => hst e (mem_sortedEvents.1 he)
  obtain ⟨events', Nf, bands, hout, hW, hrow, hb, hrel, hband, -⟩ := align_ok hR h
  have m1 : (id, ev) ∈ sortedEvents results.events :=
    mem_sortedEvents.2 (mem_resultsOf.2 (Dict.mem_of_get? h1))
  have m2 : (id, ev') ∈ events' := by
    have := Dict.mem_of_get? h2
    rw [hout] at this
    obtain ⟨p, hp, e⟩ := List.mem_map.1 this
    simp only [Prod.mk.injEq, Option.some.injEq] at e
    rw [← e.1, ← e.2]; exact hp
  obtain ⟨k, e1, e2, hal⟩ := evrel_get hrel (sorted_WF hids) m1 m2
  cases hbi : bands[i]? with
  | none =>
    have hsame := hal.other i (Or.inr (by rw [List.getElem?_eq_none_iff] at hbi; omega))
    exact ⟨fun hn => by rw [hsame.1, hn], fun s hs => by rw [hsame.2, hs]⟩
  | some bf =>
    have hst := hal.band i bf hbi
    rw [Nat.zero_add] at hst
    refine ⟨fun hn => (hst.noW hn).1, fun s hs => ?_⟩
    cases hw : energyOf ev i with
    | none => rw [(hst.noW hw).2, hs]
    | some w => rw [hst.resp w hw, hs]; rfl

/-! ## common facts -/

/-- The events of the result, and the run in one band with data. -/
theorem run_band (hp : ProperResults results.events)
    (h : align orc rlm solve results sel response us smm smo ignore = .ok out) {i : ℕ}
    (hdata : ∃ e ∈ resultsOf results.events, ∃ s, (respOf e.2 s i).isSome) :
    ∃ bands a x r, BandRun solve (effSparse us (sortedEvents results.events)) sel response ignore i
      (sortedEvents results.events) (resultsOf out.events) bands a x r := by
  obtain ⟨events', Nf, bands, hout, hW, hrow, hb, hrel, hband, -⟩ := align_ok (proper_rwf hp) h
  have hev : resultsOf out.events = events' := by rw [hout, resultsOf_map_some]
  rw [hev]
  obtain ⟨e, he, s, hs⟩ := hdata
  obtain ⟨a, x, r, hrun⟩ := band_run (proper_rwf hp) hb hrel hW hband
    ⟨e, mem_sortedEvents.2 he, s, hs, hp.energy e he s i hs⟩
  exact ⟨bands, a, x, r, hrun⟩

theorem proper_energy (hp : ProperResults results.events) (i : ℕ) :
    ∀ e ∈ sortedEvents results.events, ∀ s, (respOf e.2 s i).isSome → (energyOf e.2 i).isSome :=
  fun e he s hs => hp.energy e (mem_sortedEvents.1 he) s i hs

theorem proper_pos (hp : ProperResults results.events) (i : ℕ) :
    ∀ e ∈ sortedEvents results.events, ∀ s y, respOf e.2 s i = some y → 0 < y :=
  fun e he s y hy => hp.positive e (mem_sortedEvents.1 he) s i y hy

/-- Responses after alignment in a band with data. -/
theorem run_resp (hp : ProperResults results.events) {bands a x r} {i : ℕ} {events' : Dict String EvRes}
    (hrun : BandRun solve us sel response ignore i (sortedEvents results.events) events' bands a x r)
    {k : ℕ} {p p' : String × EvRes} (h1 : (sortedEvents results.events)[k]? = some p)
    (h2 : events'[k]? = some p') (s : String) :
    respOf p'.2 s i = (respOf p.2 s i).bind
      (fun R => if s ∈ a then some (R * (x.map exp).getD k 1) else none) := by
  obtain ⟨_, hal⟩ := hrun.rel.2 k p p' h1 h2
  have hst := hal.band i _ hrun.band
  rw [Nat.zero_add] at hst
  cases hr : respOf p.2 s i with
  | none =>
    cases hw : energyOf p.2 i with
    | none => rw [(hst.noW hw).2, hr]; rfl
    | some w => rw [hst.resp w hw, hr]; rfl
  | some R =>
    obtain ⟨w, hw⟩ := Option.isSome_iff_exists.1
      (proper_energy hp i p (List.mem_of_getElem? h1) s (by simp [hr]))
    rw [hst.resp w hw, hr]
    simp

/-- The stations with a response after alignment are those of the area. -/
theorem run_stations (hp : ProperResults results.events) {bands a x r} {i : ℕ}
    {events' : Dict String EvRes}
    (hrun : BandRun solve us sel response ignore i (sortedEvents results.events) events' bands a x r) :
    stationsWith events' i = a := by
  ext s
  rw [mem_stationsWith]
  constructor
  · rintro ⟨e, he, hs⟩
    obtain ⟨k, hk, e2⟩ := List.getElem_of_mem he
    have hk' : k < List.length (sortedEvents results.events) := by rw [hrun.rel.1]; exact hk
    rw [run_resp hp hrun (List.getElem?_eq_getElem hk')
      (by rw [List.getElem?_eq_getElem hk, e2]) s] at hs
    by_contra hc
    cases respOf (sortedEvents results.events)[k].2 s i <;> simp [hc] at hs
  · intro hs
    obtain ⟨e, he, h1⟩ := hrun.area.data s hs
    obtain ⟨k, hk, rfl⟩ := List.getElem_of_mem he
    have hk' : k < List.length events' := by rw [← hrun.rel.1]; exact hk
    refine ⟨_, List.getElem_mem hk', ?_⟩
    rw [run_resp hp hrun (List.getElem?_eq_getElem hk) (List.getElem?_eq_getElem hk') s]
    obtain ⟨y, hy⟩ := Option.isSome_iff_exists.1 h1
    simp [hy, hs]

theorem run_series_log (hp : ProperResults results.events) {bands a x r} {i : ℕ}
    {events' : Dict String EvRes} (hsol : IsLsqSolver (solve us))
    (hrun : BandRun solve us sel response ignore i (sortedEvents results.events) events' bands a x r)
    {s : String} (hs : s ∈ a) :
    (series events' i s).map log = adj (sortedEvents results.events) i (fun k => x.getD k 0) s := by
  rw [← adj_zero, adj_aligned hrun.rel (hrun.solver hsol).1 hrun.band (proper_energy hp i)
    (proper_pos hp i) hs]
  simp

/-! ## C02 -/

/-- The response requested for band `i`. -/
def requested : Response → ℕ → Option ℝ
  | .scalar x, _ => some x
  | .perBand l, i => l[i]?

/-- The stations named for normalisation: all stations if none is named. -/
def IsNamed : StationSel → String → Prop
  | .all, _ => True
  | .name n, s => s = n
  | .names l, s => s ∈ l

/-- `s` is contained in the text `t`. -/
def IsSubstring (s t : String) : Prop := s.toList <:+: t.toList

theorem selected_iff (sel : StationSel) (s : String)
    (hsub : ∀ n, sel = .name n → s ≠ n → ¬ IsSubstring s n) :
    selected sel s = true ↔ IsNamed sel s := by
  cases sel with
  | all => simp [selected, IsNamed]
  | name n =>
    simp only [selected, IsNamed, Bool.or_eq_true, beq_iff_eq, decide_eq_true_eq]
    constructor
    · rintro (h | h)
      · exact h
      · by_contra hne; exact hsub n rfl hne h
    · exact Or.inl
  | names l => simp [selected, IsNamed]

theorem responseAt_iff (r : Response) (i : ℕ) (x : ℝ) :
    responseAt r i = .ok x ↔ requested r i = some x := by
  cases r with
  | scalar y => simp [responseAt, requested]
  | perBand l => simp [responseAt, requested, pyGet_ok]

open Classical in
/-- **C02**: in every band with data, the geometric mean over the named stations of the
geometric mean of their responses is the requested response, for every least-squares
minimiser.  (`hsub` excludes names contained in the name given as text, see C11.) -/
theorem C02_pins_mean_response (hp : ProperResults results.events)
    (h : align orc rlm solve results sel response us smm smo ignore = .ok out)
    (hsol : ∀ b, IsLsqSolver (solve b)) {i : ℕ}
    (hdata : ∃ e ∈ resultsOf results.events, ∃ s, (respOf e.2 s i).isSome)
    (hsub : ∀ n, sel = .name n → ∀ s ∈ stationsWith (resultsOf out.events) i, s ≠ n →
      ¬ IsSubstring s n)
    (hpos : ∀ r, requested response i = some r → 0 < r) :
    let named := (stationsWith (resultsOf out.events) i).filter (IsNamed sel)
    named.Nonempty ∧ requested response i =
      some (exp ((∑ s ∈ named, meanLog (series (resultsOf out.events) i s)) / named.card)) := by
  obtain ⟨bands, a, x, r, hrun⟩ := run_band hp h hdata
  have hst := run_stations hp hrun
  intro named
  have hnamed : named = pinned a sel := by
    ext s
    simp only [named, pinned, Finset.mem_filter, hst]
    constructor
    · rintro ⟨h1, h2⟩
      exact ⟨h1, (selected_iff sel s (fun n hn => hsub n hn s (hst ▸ h1))).2 h2⟩
    · rintro ⟨h1, h2⟩
      exact ⟨h1, (selected_iff sel s (fun n hn => hsub n hn s (hst ▸ h1))).1 h2⟩
  rw [hnamed]
  refine ⟨hrun.pinned, ?_⟩
  have hr := (responseAt_iff response i r).1 hrun.resp
  have hd : ∀ s ∈ a, pts (sortedEvents results.events) i s ≠ [] :=
    fun s hs => pts_ne_nil (hrun.area.data s hs)
  have hlev := (hrun.solver (hsol _)).2.level hrun.pinned hd
  rw [hr]
  congr 1
  have : ∑ s ∈ pinned a sel, meanLog (series (resultsOf out.events) i s) =
      ∑ s ∈ pinned a sel, avg (adj (sortedEvents results.events) i (fun k => x.getD k 0) s) := by
    apply Finset.sum_congr rfl
    intro s hs
    have := run_series_log hp (hsol _) hrun (Finset.mem_filter.1 hs).1
    rw [← this, meanLog, avg, List.length_map]
  rw [this]
  unfold level at hlev
  rw [hlev, exp_log (hpos r hr)]

/-! ## C03 -/

/-- **C03**: if factors for the events exist that make every station report one response for
all events, the alignment finds them: afterwards every station reports one response. -/
theorem C03_consistent_data (hp : ProperResults results.events)
    (h : align orc rlm solve results sel response us smm smo ignore = .ok out)
    (hsol : ∀ b, IsLsqSolver (solve b)) {i : ℕ} (g : String → ℝ) (hg : ∀ id, 0 < g id)
    (rho : String → ℝ)
    (hcons : ∀ e ∈ resultsOf results.events, ∀ s R, respOf e.2 s i = some R → R * g e.1 = rho s)
    {e e' : String × EvRes} (he : e ∈ resultsOf out.events) (he' : e' ∈ resultsOf out.events)
    {s : String} {R R' : ℝ} (hR : respOf e.2 s i = some R) (hR' : respOf e'.2 s i = some R') :
    R = R' := by
  -- the band has data
  have hdata : ∃ e ∈ resultsOf results.events, ∃ s, (respOf e.2 s i).isSome := by
    obtain ⟨events', Nf, bands, hout, hW, hrow, hb, hrel, hband, -⟩ := align_ok (proper_rwf hp) h
    have hev : resultsOf out.events = events' := by rw [hout, resultsOf_map_some]
    rw [hev] at he
    obtain ⟨k, hk, e2⟩ := List.getElem_of_mem he
    have hk' : k < List.length (sortedEvents results.events) := by rw [hrel.1]; exact hk
    refine ⟨_, mem_sortedEvents.1 (List.getElem_mem hk'), s, ?_⟩
    by_contra hc
    have hn : respOf (sortedEvents results.events)[k].2 s i = none := by
      cases hh : respOf (sortedEvents results.events)[k].2 s i with
      | none => rfl
      | some y => simp [hh] at hc
    obtain ⟨_, hal⟩ := hrel.2 k _ e (List.getElem?_eq_getElem hk')
      (by rw [List.getElem?_eq_getElem hk, e2])
    cases hbi : bands[i]? with
    | none =>
      have hsame := hal.other i (Or.inr (by rw [List.getElem?_eq_none_iff] at hbi; omega))
      rw [hsame.2, hn] at hR; simp at hR
    | some bf =>
      have hst := hal.band i bf hbi
      rw [Nat.zero_add] at hst
      cases hw : energyOf (sortedEvents results.events)[k].2 i with
      | none => rw [(hst.noW hw).2, hn] at hR; simp at hR
      | some w => rw [hst.resp w hw, hn] at hR; simp at hR
  obtain ⟨bands, a, x, r, hrun⟩ := run_band hp h hdata
  have hst := run_stations hp hrun
  have hs : s ∈ a := by rw [← hst, mem_stationsWith]; exact ⟨e, he, by simp [hR]⟩
  have hd : ∀ s ∈ a, pts (sortedEvents results.events) i s ≠ [] :=
    fun s hs => pts_ne_nil (hrun.area.data s hs)
  -- competitor with zero roughness
  let c : ℕ → ℝ := fun k => log (g ((sortedEvents results.events)[k]?.getD ("", ⟨[], [], []⟩)).1)
  have hc : ∀ s ∈ a, sqSteps (adj (sortedEvents results.events) i c s) = 0 := by
    intro s _
    apply sqSteps_of_const
    have key : ∀ y ∈ adj (sortedEvents results.events) i c s, y = log (rho s) := by
      intro y hy
      unfold adj at hy
      obtain ⟨⟨k, R⟩, hq, rfl⟩ := List.mem_map.1 hy
      obtain ⟨p, hp1, hp2⟩ := mem_pts.1 hq
      have hm := mem_sortedEvents.1 (List.mem_of_getElem? hp1)
      have := hcons p hm s R hp2
      simp only [c, hp1, Option.getD_some]
      rw [← this, log_mul (hp.positive p hm s i R hp2).ne' (hg _).ne']
    intro y hy z hz
    rw [key y hy, key z hz]
  have hle := (hrun.solver (hsol _)).2.rough_le hrun.pinned hd c
  have h0 : rough (sortedEvents results.events) i a c = 0 := Finset.sum_eq_zero hc
  rw [h0] at hle
  have hz : sqSteps (adj (sortedEvents results.events) i (fun k => x.getD k 0) s) = 0 := by
    have h1 : sqSteps (adj (sortedEvents results.events) i (fun k => x.getD k 0) s) ≤
        rough (sortedEvents results.events) i a (fun k => x.getD k 0) :=
      Finset.single_le_sum (f := fun s => sqSteps (adj (sortedEvents results.events) i _ s))
        (fun t _ => sqSteps_nonneg _) hs
    exact le_antisymm (h1.trans hle) (sqSteps_nonneg _)
  rw [← run_series_log hp (hsol _) hrun hs] at hz
  have hpos : ∀ {e : String × EvRes} {R}, e ∈ resultsOf out.events → respOf e.2 s i = some R →
      R ∈ series (resultsOf out.events) i s ∧ 0 < R := by
    intro e R he hR
    refine ⟨List.mem_filterMap.2 ⟨e, he, hR⟩, ?_⟩
    obtain ⟨k, hk, e2⟩ := List.getElem_of_mem he
    have hk' : k < List.length (sortedEvents results.events) := by rw [hrun.rel.1]; exact hk
    rw [run_resp hp hrun (List.getElem?_eq_getElem hk')
      (by rw [List.getElem?_eq_getElem hk, e2]) s] at hR
    cases hr : respOf (sortedEvents results.events)[k].2 s i with
    | none => simp [hr] at hR
    | some y =>
      simp only [hr, Option.bind_some, if_pos hs, Option.some.injEq] at hR
      rw [← hR]
      have hy := proper_pos hp i _ (List.getElem_mem hk') s y hr
      have hx : k < x.length := by rw [(hrun.solver (hsol _)).1]; exact hk'
      simp only [List.getD_eq_getElem?_getD, List.getElem?_map, List.getElem?_eq_getElem hx,
        Option.map_some, Option.getD_some]
      exact mul_pos hy (exp_pos _)
  obtain ⟨m1, p1⟩ := hpos he hR
  obtain ⟨m2, p2⟩ := hpos he' hR'
  have := sqSteps_zero hz _ (List.mem_map.2 ⟨R, m1, rfl⟩) _ (List.mem_map.2 ⟨R', m2, rfl⟩)
  exact log_injOn_pos p1 p2 this

/-! ## C04 -/

/-- **C04**: the sum, over all stations that remain, of the squared logarithmic differences of
consecutive responses does not increase. -/
theorem C04_misfit_not_increased (hp : ProperResults results.events)
    (h : align orc rlm solve results sel response us smm smo ignore = .ok out)
    (hsol : ∀ b, IsLsqSolver (solve b)) {i : ℕ} {es : Dict String EvRes}
    (hes : SortedById results.events es) :
    ∑ s ∈ stationsWith (resultsOf out.events) i,
      sqSteps ((series (resultsOf out.events) i s).map log) ≤
    ∑ s ∈ stationsWith (resultsOf out.events) i, sqSteps ((series es i s).map log) := by
  rw [sorted_unique hp.ids hes]
  by_cases hdata : ∃ e ∈ resultsOf results.events, ∃ s, (respOf e.2 s i).isSome
  · obtain ⟨bands, a, x, r, hrun⟩ := run_band hp h hdata
    have hst := run_stations hp hrun
    have hd : ∀ s ∈ a, pts (sortedEvents results.events) i s ≠ [] :=
      fun s hs => pts_ne_nil (hrun.area.data s hs)
    rw [hst]
    have := (hrun.solver (hsol _)).2.rough_le hrun.pinned hd (fun _ => 0)
    unfold rough at this
    simp only [adj_zero] at this
    refine le_trans (le_of_eq ?_) this
    apply Finset.sum_congr rfl
    intro s hs
    rw [run_series_log hp (hsol _) hrun hs]
  · have : stationsWith (resultsOf out.events) i = ∅ := by
      rw [Finset.eq_empty_iff_forall_notMem]
      intro s hs
      rw [mem_stationsWith] at hs
      obtain ⟨e, he, h2⟩ := hs
      apply hdata
      obtain ⟨events', Nf, bands, hout, hW, hrow, hb, hrel, hband, -⟩ := align_ok (proper_rwf hp) h
      have hev : resultsOf out.events = events' := by rw [hout, resultsOf_map_some]
      rw [hev] at he
      obtain ⟨ev, hev1⟩ := evrel_left hrel (id := e.1) (ev' := e.2) he
      have hg1 : results.events.get? e.1 = some (some ev) :=
        Dict.get?_of_mem hp.ids (mem_resultsOf.1 (mem_sortedEvents.1 hev1))
      have hw : Dict.WF out.events := by
        have := sorted_WF hp.ids
        unfold Dict.WF Dict.keys at this ⊢
        rw [hout, List.map_map]
        have e3 : (Prod.fst ∘ fun p : String × EvRes => (p.1, some p.2)) = Prod.fst := rfl
        rw [e3, evrel_keys hrel]; exact this
      have hg2 : out.events.get? e.1 = some (some e.2) :=
        Dict.get?_of_mem hw (by rw [hout]; exact List.mem_map.2 ⟨e, he, rfl⟩)
      have hmiss := (C01_missing_stays_missing hp.ids hp.stations h hg1 hg2 i).2 s
      refine ⟨(e.1, ev), mem_sortedEvents.1 hev1, s, ?_⟩
      cases hr : respOf ev s i with
      | none => rw [hmiss hr] at h2; simp at h2
      | some y => rfl
    rw [this]; simp

end Qopen
