import Verif.Props.SiteIdem
import Verif.Props.SitePin

/-!
# Alignment of results with different references (C117)
-/

namespace Qopen

open Real Spec Source Site

variable {orc : Oracle} {rlm : List ℝ → ℝ × ℝ}
  {solve solve' : Bool → ℕ → List (List ℝ) → List ℝ → List ℝ} {results results' out out' : Results}
  {sel : StationSel} {response : Response} {us us' : Bool} {smm smm' : Option Method}
  {smo smo' : Option Opts} {ignore : Option (List String)} {K : String → ℕ → ℝ}

namespace Spec

/-- Two results of an event which differ only in the reference of each band: all site responses of
band `i` are multiplied by `k i`, the source energy is divided by it. -/
structure OtherReference (k : ℕ → ℝ) (ev ev' : EvRes) : Prop where
  resp : ∀ s i, respOf ev' s i = (respOf ev s i).map (· * k i)
  energy : ∀ i, energyOf ev' i = (energyOf ev i).map (· / k i)

/-- Two result dictionaries with the same events (in any order, and with the stations in any
order) which differ only in the reference of each event and band. -/
structure OtherReferences (K : String → ℕ → ℝ) (d d' : Dict String (Option EvRes)) : Prop where
  same_events : ∀ id, (∃ ev, d.get? id = some (some ev)) ↔ ∃ ev, d'.get? id = some (some ev)
  events : ∀ id ev ev', d.get? id = some (some ev) → d'.get? id = some (some ev') →
    OtherReference (K id) ev ev'

end Spec

namespace Site

theorem get_iff_sorted {d : Dict String (Option EvRes)} (h : d.WF) {id : String} {ev : EvRes} :
    (id, ev) ∈ sortedEvents d ↔ d.get? id = some (some ev) := by
  rw [mem_sortedEvents, mem_resultsOf]
  exact ⟨fun hm => Dict.get?_of_mem h hm, Dict.mem_of_get?⟩

theorem sorted_keys_eq (h : results.events.WF) (h' : results'.events.WF)
    (hrel : OtherReferences K results.events results'.events) :
    (sortedEvents results'.events).map Prod.fst = (sortedEvents results.events).map Prod.fst := by
  have hmem : ∀ id, id ∈ (sortedEvents results'.events).map Prod.fst ↔
      id ∈ (sortedEvents results.events).map Prod.fst := by
    intro id
    simp only [List.mem_map]
    constructor
    · rintro ⟨⟨id, ev⟩, hm, rfl⟩
      obtain ⟨ev0, g⟩ := (hrel.same_events id).2 ⟨ev, (get_iff_sorted h').1 hm⟩
      exact ⟨(id, ev0), (get_iff_sorted h).2 g, rfl⟩
    · rintro ⟨⟨id, ev⟩, hm, rfl⟩
      obtain ⟨ev0, g⟩ := (hrel.same_events id).1 ⟨ev, (get_iff_sorted h).1 hm⟩
      exact ⟨(id, ev0), (get_iff_sorted h').2 g, rfl⟩
  have hperm := (List.perm_ext_iff_of_nodup (show ((sortedEvents results'.events).map Prod.fst).Nodup
    from sorted_WF h') (show ((sortedEvents results.events).map Prod.fst).Nodup from sorted_WF h)).2 hmem
  refine List.Perm.eq_of_pairwise (le := (· ≤ ·)) ?_ ?_ ?_ hperm
  · intro a b _ _ h1 h2
    exact String.le_antisymm h1 h2
  · rw [List.pairwise_map]; exact (sortedEvents_spec _).2
  · rw [List.pairwise_map]; exact (sortedEvents_spec _).2

/-- Events at the same place belong to each other. -/
theorem sorted_rel (h : results.events.WF) (h' : results'.events.WF)
    (hrel : OtherReferences K results.events results'.events) :
    EvRel (fun k ev ev' => ∀ p, (sortedEvents results.events)[k]? = some p →
      OtherReference (K p.1) ev ev') (sortedEvents results.events) (sortedEvents results'.events) := by
  have hk := sorted_keys_eq h h' hrel
  have hl : (sortedEvents results'.events).length = (sortedEvents results.events).length := by
    have := congrArg List.length hk
    simpa using this
  refine ⟨hl.symm, ?_⟩
  intro k p p' h1 h2
  have e : p'.1 = p.1 := by
    have := congrArg (fun l : List String => l[k]?) hk
    simp only [List.getElem?_map, h1, h2, Option.map_some, Option.some.injEq] at this
    exact this
  refine ⟨e, ?_⟩
  intro q hq
  rw [h1] at hq
  simp only [Option.some.injEq] at hq
  subst hq
  obtain ⟨id, ev⟩ := p
  obtain ⟨id', ev'⟩ := p'
  simp only at e
  subst e
  exact hrel.events _ _ _ ((get_iff_sorted h).1 (List.mem_of_getElem? h1))
    ((get_iff_sorted h').1 (List.mem_of_getElem? h2))

/-- The factor of event number `k` in band `i`. -/
noncomputable def refLog (K : String → ℕ → ℝ) (events : Dict String EvRes) (i k : ℕ) : ℝ :=
  match events[k]? with
  | some p => log (K p.1 i)
  | none => 0

theorem pts_ref {events events' : Dict String EvRes} {i : ℕ}
    (h : EvRel (fun k ev ev' => ∀ p, events[k]? = some p → OtherReference (K p.1) ev ev')
      events events') (s : String) (hK : ∀ id i, 0 < K id i) :
    pts events' i s = (pts events i s).map (fun q => (q.1, q.2 * exp (refLog K events i q.1))) := by
  have key : ∀ (es es' : Dict String EvRes) (n : ℕ), es.length = es'.length →
      (∀ k p p', es[k]? = some p → es'[k]? = some p' →
        respOf p'.2 s i = (respOf p.2 s i).map (fun R => R * exp (refLog K events i (n + k)))) →
      (es'.zipIdx n).filterMap (fun p => (respOf p.1.2 s i).map (fun R => (p.2, R))) =
      ((es.zipIdx n).filterMap (fun p => (respOf p.1.2 s i).map (fun R => (p.2, R)))).map
        (fun q => (q.1, q.2 * exp (refLog K events i q.1))) := by
    intro es
    induction es with
    | nil =>
      intro es' n hl _
      have : es' = [] := List.length_eq_zero_iff.1 hl.symm
      subst this; rfl
    | cons e es ih =>
      intro es' n hl hp
      cases es' with
      | nil => simp at hl
      | cons e' es' =>
        have h0 := hp 0 e e' rfl rfl
        have h1 := ih es' (n + 1) (by simpa using hl) (fun k p p' h1 h2 => by
          have := hp (k + 1) p p' h1 h2
          rw [this]; congr 2; ext R; congr 3; omega)
        simp only [List.zipIdx_cons, List.filterMap_cons, h0, h1, Nat.add_zero]
        cases respOf e.2 s i <;> rfl
  refine key events events' 0 h.1 ?_
  intro k p p' h1 h2
  obtain ⟨_, h3⟩ := h.2 k p p' h1 h2
  rw [(h3 p h1).resp, Nat.zero_add]
  unfold refLog
  rw [h1]
  simp only [exp_log (hK _ _)]

theorem adj_ref {events events' : Dict String EvRes} {i : ℕ}
    (h : EvRel (fun k ev ev' => ∀ p, events[k]? = some p → OtherReference (K p.1) ev ev')
      events events') (hK : ∀ id i, 0 < K id i)
    (hpos : ∀ e ∈ events, ∀ s y, respOf e.2 s i = some y → 0 < y) (c : ℕ → ℝ) (s : String) :
    adj events' i c s = adj events i (fun k => refLog K events i k + c k) s := by
  unfold adj
  rw [pts_ref h s hK, List.map_map]
  apply List.map_congr_left
  rintro ⟨k, y⟩ hq
  obtain ⟨p, hp, hy⟩ := mem_pts.1 hq
  have hyp := hpos p (List.mem_of_getElem? hp) s y hy
  simp only [Function.comp]
  rw [log_mul hyp.ne' (exp_ne_zero _), log_exp]
  ring

theorem areas_ref {events events' : Dict String EvRes} {i : ℕ}
    (h : EvRel (fun k ev ev' => ∀ p, events[k]? = some p → OtherReference (K p.1) ev ev')
      events events') (hR : RWF events) (hR' : RWF events') :
    findAreas events' i ignore = findAreas events i ignore := by
  unfold findAreas
  congr 2
  apply List.ext_getElem
  · simp [h.1]
  · intro k h1 h2
    simp only [List.length_map] at h1 h2
    simp only [List.getElem_map]
    ext s
    rw [mem_eventStations (hR' _ (List.getElem_mem h1)), mem_eventStations (hR _ (List.getElem_mem h2))]
    have := (h.2 k _ _ (List.getElem?_eq_getElem h2) (List.getElem?_eq_getElem h1)).2 _
      (List.getElem?_eq_getElem h2)
    rw [this.resp, Option.isSome_map]

end Site

/-- **C117**: the aligned results do not depend on the references of the single inversions.  If
before the alignment the site responses of each event and band are multiplied by an arbitrary
factor, and its source energy is divided by it, then all aligned site responses and source
energies are the same, for every order of events and stations and every least-squares
minimiser. -/
theorem C117_references_of_inversions (hp : ProperResults results.events)
    (hids : results'.events.WF) (hst : ∀ e ∈ resultsOf results'.events, e.2.R.WF)
    (hK : ∀ id i, 0 < K id i) (hrel : OtherReferences K results.events results'.events)
    (hsol : ∀ b, IsLsqSolver (solve b)) (hsol' : ∀ b, IsLsqSolver (solve' b))
    (h : align orc rlm solve results sel response us smm smo ignore = .ok out)
    (h' : align orc rlm solve' results' sel response us' smm' smo' ignore = .ok out')
    {id : String} {ev ev' : EvRes} (g : out.events.get? id = some (some ev))
    (g' : out'.events.get? id = some (some ev')) (i : ℕ) :
    energyOf ev' i = energyOf ev i ∧ ∀ s, respOf ev' s i = respOf ev s i := by
  have hR := proper_rwf hp
  have hR' : RWF (sortedEvents results'.events) := fun e he => hst e (mem_sortedEvents.1 he)
  have hE := sorted_rel hp.ids hids hrel
  obtain ⟨events₁, Nf₁, bands₁, hout₁, hW₁, -, hb₁, hrel₁, hband₁, -⟩ := align_ok hR h
  obtain ⟨events₂, Nf₂, bands₂, hout₂, hW₂, -, hb₂, hrel₂, hband₂, -⟩ := align_ok hR' h'
  have n₁ : (id, ev) ∈ events₁ := by
    have := mem_resultsOf.2 (Dict.mem_of_get? g)
    rwa [hout₁, resultsOf_map_some] at this
  have n₂ : (id, ev') ∈ events₂ := by
    have := mem_resultsOf.2 (Dict.mem_of_get? g')
    rwa [hout₂, resultsOf_map_some] at this
  obtain ⟨e₁, m₁⟩ := evrel_left hrel₁ n₁
  obtain ⟨e₂, m₂⟩ := evrel_left hrel₂ n₂
  obtain ⟨k, a1, a2, hal₁⟩ := evrel_get hrel₁ (sorted_WF hp.ids) m₁ n₁
  obtain ⟨k', b1, b2, hal₂⟩ := evrel_get hrel₂ (sorted_WF hids) m₂ n₂
  obtain ⟨k'', c1, c2, href⟩ := evrel_get hE (sorted_WF hp.ids) m₁ m₂
  have hnd : ∀ {d : Dict String (Option EvRes)} (_ : d.WF) {k n : ℕ} {p : String × EvRes},
      (sortedEvents d)[k]? = some p → (sortedEvents d)[n]? = some p → k = n := by
    intro d hd k n p i1 i2
    have hw := sorted_WF hd
    unfold Dict.WF Dict.keys at hw
    obtain ⟨i1, j1⟩ := List.getElem?_eq_some_iff.1 i1
    obtain ⟨i2, j2⟩ := List.getElem?_eq_some_iff.1 i2
    have := List.Nodup.getElem_inj_iff hw (i := k) (j := n) (hi := by simpa using i1)
      (hj := by simpa using i2)
    rw [← this]
    simp only [List.getElem_map, j1, j2]
  have hk1 : k = k'' := hnd hp.ids a1 c1
  have hk2 : k' = k'' := hnd hids b1 c2
  subst hk1
  subst hk2
  have href := href _ a1
  simp only at href
  have hlog : refLog K (sortedEvents results.events) i k' = log (K id i) := by
    unfold refLog; rw [a1]
  cases hw : energyOf e₁ i with
  | none =>
    have hw' : energyOf e₂ i = none := by rw [href.energy, hw]; rfl
    have hr : ∀ s, respOf e₁ s i = none := by
      intro s
      cases hr : respOf e₁ s i with
      | none => rfl
      | some y =>
        have := hp.energy _ (mem_sortedEvents.1 m₁) s i (by simp [hr])
        simp only at this
        rw [hw] at this; simp at this
    have q1 := C01_missing_stays_missing hp.ids hp.stations h ((get_iff_sorted hp.ids).1 m₁) g i
    have q2 := C01_missing_stays_missing hids hst h' ((get_iff_sorted hids).1 m₂) g' i
    refine ⟨by rw [q1.1 hw, q2.1 hw'], fun s => ?_⟩
    rw [q1.2 s (hr s), q2.2 s (by rw [href.resp, hr s]; rfl)]
  | some w =>
    have hw' : energyOf e₂ i = some (w / K id i) := by rw [href.energy, hw]; rfl
    have hi₁ : i < bands₁.length := by
      rw [hb₁, ← hW₁ _ m₁]; exact lt_of_numAt hw
    have hi₂ : i < bands₂.length := by
      rw [hb₂, ← hW₂ _ m₂]; exact lt_of_numAt hw'
    have hbi₁ : bands₁[i]? = some bands₁[i] := List.getElem?_eq_getElem hi₁
    have hbi₂ : bands₂[i]? = some bands₂[i] := List.getElem?_eq_getElem hi₂
    have st₁ := hal₁.band i _ hbi₁
    have st₂ := hal₂.band i _ hbi₂
    rw [Nat.zero_add] at st₁ st₂
    have hKi := hK id i
    have hr : ∀ s, respOf ev' s i = respOf ev s i ∧ ((respOf ev s i).isSome →
        K id i * bands₂[i].2.getD k' 1 = bands₁[i].2.getD k' 1) := by
      intro s
      rw [st₁.resp w hw, st₂.resp _ hw', href.resp]
      cases hrs : respOf e₁ s i with
      | none => simp
      | some R =>
        have hrs' : respOf e₂ s i = some (R * K id i) := by rw [href.resp, hrs]; rfl
        rcases alignBand_ok hR (hband₁ i _ hbi₁) with ⟨-, d1⟩ | ⟨a, x, r, d1, ha, hl, hr, hpn, hso⟩
        · have := st₁.noArea w hw (by rw [d1]) s
          rw [this] at hrs; simp at hrs
        · rcases alignBand_ok hR' (hband₂ i _ hbi₂) with
            ⟨-, d2⟩ | ⟨a', x', r', d2, ha', hl', hr', hpn', hso'⟩
          · have := st₂.noArea _ hw' (by rw [d2]) s
            rw [this] at hrs'; simp at hrs'
          · have haa : a' = a := by
              rw [areas_ref hE hR hR', hl] at hl'; simpa using hl'.symm
            have hrr : r' = r := by rw [hr] at hr'; simpa using hr'.symm
            subst haa hrr
            rw [d1, d2]
            by_cases hs : s ∈ a'
            · have hmem : (k', R) ∈ pts (sortedEvents results.events) i s := mem_pts.2 ⟨_, a1, hrs⟩
              -- the shifted solution of the second run minimises the first misfit
              have hmis : ∀ c, misfit (sortedEvents results'.events) i a' sel r' c =
                  misfit (sortedEvents results.events) i a' sel r'
                    (fun k => refLog K (sortedEvents results.events) i k + c k) := by
                intro c
                unfold misfit
                simp only [adj_ref hE hK (proper_pos hp i) c]
              have hmin : IsMin (sortedEvents results.events) i a' sel r'
                  (fun k => refLog K (sortedEvents results.events) i k + x'.getD k 0) := by
                intro c
                have := (hso' (hsol' _)).2
                  (fun k => c k - refLog K (sortedEvents results.events) i k)
                rw [hmis, hmis] at this
                simpa using this
              have hu := IsMin.unique ha hpn (hso (hsol _)).2 hmin hs hmem
              have l1 : k' < x.length := by
                rw [(hso (hsol _)).1]; exact (List.getElem?_eq_some_iff.1 a1).1
              have l2 : k' < x'.length := by
                rw [(hso' (hsol' _)).1]; exact (List.getElem?_eq_some_iff.1 b1).1
              have hf : K id i * (x'.map exp).getD k' 1 = (x.map exp).getD k' 1 := by
                simp only [List.getD_eq_getElem?_getD, List.getElem?_map,
                  List.getElem?_eq_getElem l1, List.getElem?_eq_getElem l2, Option.map_some,
                  Option.getD_some, hlog] at hu ⊢
                rw [hu, exp_add, exp_log hKi]
              rw [← hf]
              simp only [Option.map_some, Option.bind_some, Option.some.injEq, exists_eq_left', hs,
                if_true, Option.isSome_some, implies_true, and_true]
              ring
            · simp [hs]
    refine ⟨?_, fun s => (hr s).1⟩
    by_cases hex : ∃ s, (respOf ev s i).isSome
    · obtain ⟨s, hs⟩ := hex
      have hs' := hs
      rw [← (hr s).1] at hs'
      rw [(st₁.energy w hw).1 ⟨s, hs⟩, (st₂.energy _ hw').1 ⟨s, hs'⟩, ← (hr s).2 hs, div_div]
    · have hex' : ¬ ∃ s, (respOf ev' s i).isSome := by
        rintro ⟨s, hs⟩; exact hex ⟨s, by rw [← (hr s).1]; exact hs⟩
      rw [(st₁.energy w hw).2 hex, (st₂.energy _ hw').2 hex']

/-- Hypotheses of C117 are met by the demonstration results: event `e1` with the other order of
stations and ten times larger responses in the first band, events in another order. -/
noncomputable def demoRef : Results :=
  { events := [("e3", some ⟨[.num 2, .num 2], [("X", [.num 9, .none])], []⟩),
      ("e1", some ⟨[.num (5 / 10), .num 7], [("C", [.num (6 * 10), .nan]), ("B", [.num (4 * 10), .num 1])], []⟩),
      ("e2", some ⟨[.num 3, .none], [("A", [.num 1, .none]), ("B", [.num 2, .none])], []⟩)],
    freq := [1, 2], R := none, config := {} }

theorem demoRef_complete : CompleteResults demoRef.events 2 := by
  have hres : resultsOf demoRef.events =
      [("e3", ⟨[.num 2, .num 2], [("X", [.num 9, .none])], []⟩),
      ("e1", ⟨[.num (5 / 10), .num 7], [("C", [.num (6 * 10), .nan]), ("B", [.num (4 * 10), .num 1])], []⟩),
      ("e2", ⟨[.num 3, .none], [("A", [.num 1, .none]), ("B", [.num 2, .none])], []⟩)] := rfl
  refine ⟨by rw [hres]; simp, ?_, ?_, ?_⟩
  · rw [hres]; simp [Dict.WF, Dict.keys]
  · rw [hres]; simp
  · rw [hres]
    intro e he p hp
    simp only [List.mem_cons, List.not_mem_nil, or_false] at he
    rcases he with rfl | rfl | rfl <;>
    · simp only [List.mem_cons, List.not_mem_nil, or_false] at hp
      rcases hp with rfl | rfl <;> rfl

/-- The factors of the example. -/
noncomputable def demoK (id : String) (i : ℕ) : ℝ := if id = "e1" ∧ i = 0 then 10 else 1

theorem demoRef_rel : OtherReferences demoK demo.events demoRef.events := by
  constructor
  · intro id
    simp only [demo, demoEvents, demoRef, Dict.get?_cons]
    by_cases h1 : id = "e1"
    · subst h1; simp
    by_cases h2 : id = "e2"
    · subst h2; simp
    by_cases h3 : id = "e3"
    · subst h3; simp
    by_cases h0 : id = "e0"
    · subst h0; simp [Dict.get?]
    simp [Ne.symm h1, Ne.symm h2, Ne.symm h3, Ne.symm h0, Dict.get?]
  · intro id ev ev' g g'
    simp only [demo, demoEvents, demoRef, Dict.get?_cons] at g g'
    by_cases h1 : id = "e1"
    · subst h1
      simp only [show ¬ ("e2" = "e1") by decide, show ¬ ("e3" = "e1") by decide, if_true, if_false,
        Option.some.injEq] at g g'
      subst g g'
      constructor
      · intro s i
        simp only [respOf, Dict.get?_cons]
        by_cases hB : "B" = s
        · subst hB
          rcases i with _ | _ | i <;> simp [numAt, demoK]
        by_cases hC : "C" = s
        · subst hC
          rcases i with _ | _ | i <;> simp [numAt, demoK]
        simp [hB, hC, Dict.get?]
      · intro i
        rcases i with _ | _ | i <;> simp [energyOf, numAt, demoK]
    · have hk : ∀ i, demoK id i = 1 := by intro i; simp [demoK, h1]
      have : ev' = ev := by
        by_cases h2 : id = "e2"
        · subst h2; simp at g g'; rw [← g, ← g']
        by_cases h3 : id = "e3"
        · subst h3; simp at g g'; rw [← g, ← g']
        simp [Ne.symm h1, Ne.symm h2, Ne.symm h3, Dict.get?] at g'
      subst this
      constructor
      · intro s i; simp [hk]
      · intro i; simp [hk]

example (orc : Oracle) (rlm : List ℝ → ℝ × ℝ) (us : Bool) :
    ProperResults demo.events ∧ demoRef.events.WF ∧
    (∀ e ∈ resultsOf demoRef.events, e.2.R.WF) ∧ (∀ id i, 0 < demoK id i) ∧
    OtherReferences demoK demo.events demoRef.events ∧
    (∃ out, align orc rlm (fun _ => someSolver) demo .all (.scalar 1) us none none none = .ok out) ∧
    (∃ out, align orc rlm (fun _ => someSolver) demoRef .all (.scalar 1) us none none none =
      .ok out) :=
  ⟨demo_proper, by simp [demoRef, Dict.WF, Dict.keys], demoRef_complete.stations,
    fun id i => by unfold demoK; split_ifs <;> norm_num, demoRef_rel, demo_succeeds orc rlm us,
    C79_alignment_succeeds demoRef_complete (fun _ _ => rfl) rfl (by simp [demoRef])
      (by simp [demoRef])⟩

theorem other_proper (hp : ProperResults results.events)
    (hids : results'.events.WF) (hst : ∀ e ∈ resultsOf results'.events, e.2.R.WF)
    (hK : ∀ id i, 0 < K id i) (hrel : OtherReferences K results.events results'.events) :
    ProperResults results'.events := by
  have key : ∀ e ∈ resultsOf results'.events, ∃ ev, (e.1, ev) ∈ resultsOf results.events ∧
      OtherReference (K e.1) ev e.2 := by
    rintro ⟨id, ev'⟩ he
    have g' := (get_iff_sorted hids).1 (mem_sortedEvents.2 he)
    obtain ⟨ev, g⟩ := (hrel.same_events id).2 ⟨ev', g'⟩
    exact ⟨ev, mem_sortedEvents.1 ((get_iff_sorted hp.ids).2 g), hrel.events _ _ _ g g'⟩
  refine ⟨hids, hst, ?_, ?_⟩
  · intro e he s i x hx
    obtain ⟨ev, hm, hr⟩ := key e he
    rw [hr.resp, Option.map_eq_some_iff] at hx
    obtain ⟨y, hy, rfl⟩ := hx
    exact mul_pos (hp.positive _ hm s i y hy) (hK _ _)
  · intro e he s i hx
    obtain ⟨ev, hm, hr⟩ := key e he
    rw [hr.resp, Option.isSome_map] at hx
    rw [hr.energy, Option.isSome_map]
    exact hp.energy _ hm s i hx

/-- **C117**: the mean site responses of the aligned results do not depend on the references
either, for every station with an aligned response. -/
theorem C117_mean_site_responses (hp : ProperResults results.events)
    (hids : results'.events.WF) (hst : ∀ e ∈ resultsOf results'.events, e.2.R.WF)
    (hK : ∀ id i, 0 < K id i) (hrel : OtherReferences K results.events results'.events)
    (hsol : ∀ b, IsLsqSolver (solve b)) (hsol' : ∀ b, IsLsqSolver (solve' b))
    (h : align orc rlm solve results sel response us smm smo ignore = .ok out)
    (h' : align orc rlm solve' results' sel response us' smm' smo' ignore = .ok out') {n : ℕ}
    (hn : ∀ e ∈ resultsOf results.events, e.2.W.length = n)
    (hn' : ∀ e ∈ resultsOf results'.events, e.2.W.length = n) {s : String}
    (hs : ∃ e ∈ resultsOf out.events, ∃ j, (respOf e.2 s j).isSome) :
    ∃ R R' row row', out.R = some R ∧ out'.R = some R' ∧ R.get? s = some row ∧
      R'.get? s = some row' ∧ ∀ i < n, row'[i]? = row[i]? := by
  have hp' := other_proper hp hids hst hK hrel
  have hE := sorted_rel hp.ids hids hrel
  have ho := out_proper hp h
  have ho' := out_proper hp' h'
  obtain ⟨events₁, Nf₁, bands₁, hout₁, -, -, -, hrel₁, -⟩ := align_ok (proper_rwf hp) h
  obtain ⟨events₂, Nf₂, bands₂, hout₂, -, -, -, hrel₂, -⟩ := align_ok (proper_rwf hp') h'
  have e₁ : resultsOf out.events = events₁ := by rw [hout₁, resultsOf_map_some]
  have e₂ : resultsOf out'.events = events₂ := by rw [hout₂, resultsOf_map_some]
  have hkeys : events₂.map Prod.fst = events₁.map Prod.fst := by
    have k1 := evrel_keys hrel₁
    have k2 := evrel_keys hrel₂
    have k3 := sorted_keys_eq hp.ids hids hrel
    rw [k1, k2, k3]
  have hlen : events₂.length = events₁.length := by simpa using congrArg List.length hkeys
  have hpt : ∀ k (h1 : k < events₁.length) (h2 : k < events₂.length) i t,
      respOf events₂[k].2 t i = respOf events₁[k].2 t i := by
    intro k h1 h2 i t
    have hid : events₂[k].1 = events₁[k].1 := by
      have := List.getElem_of_eq hkeys (i := k) (by simpa using h2)
      simpa using this
    have g1 : out.events.get? events₁[k].1 = some (some events₁[k].2) := by
      refine Dict.get?_of_mem ho.ids (mem_resultsOf.1 ?_)
      rw [e₁]; exact List.getElem_mem h1
    have g2 : out'.events.get? events₁[k].1 = some (some events₂[k].2) := by
      refine Dict.get?_of_mem ho'.ids (mem_resultsOf.1 ?_)
      rw [e₂, ← hid]; exact List.getElem_mem h2
    exact (C117_references_of_inversions hp hids hst hK hrel hsol hsol' h h' g1 g2 i).2 t
  have hser : ∀ i, series events₂ i s = series events₁ i s := by
    intro i
    unfold series
    have : events₂.map (fun e => respOf e.2 s i) = events₁.map (fun e => respOf e.2 s i) := by
      apply List.ext_getElem
      · simp [hlen]
      · intro k h1 h2
        simp only [List.length_map] at h1 h2
        simp only [List.getElem_map]
        exact hpt k h2 h1 i s
    have h3 : ∀ l : Dict String EvRes, l.filterMap (fun e => respOf e.2 s i) =
        (l.map (fun e => respOf e.2 s i)).filterMap id := by
      intro l; rw [List.filterMap_map]; rfl
    rw [h3, h3, this]
  have hs' : ∃ e ∈ resultsOf out'.events, ∃ j, (respOf e.2 s j).isSome := by
    obtain ⟨e, he, j, hj⟩ := hs
    rw [e₁] at he
    obtain ⟨k, hk, rfl⟩ := List.getElem_of_mem he
    refine ⟨events₂[k]'(by omega), by rw [e₂]; exact List.getElem_mem _, j, ?_⟩
    rw [hpt k hk (by omega)]
    exact hj
  obtain ⟨R, row, a1, a2, a3⟩ := C12_means_of_aligned_responses_partial hp hn h hs
  obtain ⟨R', row', b1, b2, b3⟩ := C12_means_of_aligned_responses_partial hp' hn' h' hs'
  refine ⟨R, R', row, row', a1, b1, a2, b2, ?_⟩
  intro i hi
  rw [a3 i hi, b3 i hi, e₁, e₂, hser]

/-- **C117**: the order of the events in the result file does not matter at all: the outcome of
the alignment, or its failure, is the same. -/
theorem C117_order_of_events {d : Dict String (Option EvRes)} (hids : results.events.WF)
    (hd : d.Perm results.events) :
    align orc rlm solve { results with events := d } sel response us smm smo ignore =
      align orc rlm solve results sel response us smm smo ignore := by
  have hs : sortedEvents d = sortedEvents results.events := by
    refine sorted_unique hids ⟨?_, (sortedEvents_spec d).2⟩
    exact (sortedEvents_spec d).1.trans (hd.filterMap _)
  unfold align
  rw [hs]

/-- Three events in another order. -/
example : demo.events.WF ∧ demo.events.reverse.Perm demo.events ∧
    demo.events.reverse ≠ demo.events := by
  refine ⟨demo_proper.ids, List.reverse_perm _, ?_⟩
  intro h
  have := congrArg (fun l => (l.map Prod.fst)[0]?) h
  simp [demo, demoEvents] at this

end Qopen
