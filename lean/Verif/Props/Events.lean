import Verif.Props.NoResult
import Verif.Props.Pairs
import Verif.Props.WrapperKeys

/-!
# Events are inverted independently of each other (C120)
-/

namespace Qopen

open Util Catalog Source Energy Invert Collect Wrapper

variable {rlm : List ℝ → ℝ × ℝ} {inv : List Event → Py (Option InvRes)} {codaNorm : Bool}
  {mean : Mean} {events events' : List Event}

namespace Wrapper

/-- Two sorted lists of the same events are equal if there are no ties. -/
theorem inTimeOrder_unique {o o' : List Event} (hp : o.Perm o')
    (hs : o.Pairwise (fun a b => ∀ s t, Spec.originTime a = some s → Spec.originTime b = some t → s ≤ t))
    (hs' : o'.Pairwise (fun a b => ∀ s t, Spec.originTime a = some s → Spec.originTime b = some t →
      s ≤ t))
    (ho : ∀ ev ∈ o, (Spec.originTime ev).isSome) (ht : ¬ Spec.Tie o) : o = o' := by
  refine List.Perm.eq_of_pairwise ?_ hs hs' hp
  intro a b ha hb h1 h2
  by_contra hne
  obtain ⟨s, hsa⟩ := Option.isSome_iff_exists.1 (ho a ha)
  obtain ⟨t, htb⟩ := Option.isSome_iff_exists.1 (ho b (hp.symm.subset hb))
  refine ht ⟨a, ha, b, hp.symm.subset hb, hne, ho a ha, ?_⟩
  rw [hsa, htb, le_antisymm (h1 s t hsa htb) (h2 t s htb hsa)]

theorem tie_mono {l l' : List Event} (h : ∀ e ∈ l, e ∈ l') (ht : Spec.Tie l) : Spec.Tie l' := by
  obtain ⟨a, ha, b, hb, h'⟩ := ht
  exact ⟨a, h a ha, b, h b hb, h'⟩

/-- The list handed to the inversions is determined by the events. -/
theorem orderEvents_eq {order : List Event} (hn : events.Nodup) (ht : ¬ Spec.Tie events)
    (ho : Spec.InTimeOrder events order) (hne : order ≠ []) : orderEvents events = .ok order := by
  have hmem : ∀ e ∈ order, e ∈ events ∧ (Spec.originTime e).isSome := by
    intro e he
    simpa using List.mem_filter.1 (ho.perm.subset he)
  rcases orderEvents_cases events hn with ⟨h, _⟩ | ⟨h, _⟩ | ⟨_, _, o, h⟩
  · exact absurd h ht
  · obtain ⟨e, he⟩ := List.exists_mem_of_ne_nil _ hne
    obtain ⟨h1, h2⟩ := hmem e he
    rw [h e h1] at h2
    simp at h2
  · obtain ⟨h1, _⟩ := orderEvents_ok h
    rw [h]
    congr 1
    symm
    exact inTimeOrder_unique (ho.perm.trans h1.perm.symm) ho.sorted h1.sorted
      (fun e he => (hmem e he).2) (fun h => ht (tie_mono (fun e he => (hmem e he).1) h))

end Wrapper

/-- **C120**: the order of the events in the catalogue does not matter, for the result and for
exceptions, with separate and with simultaneous inversion. -/
theorem C120_order_of_catalogue (simultaneous : Bool) (hn : events.Nodup)
    (hp : events'.Perm events) :
    invertWrapper rlm inv codaNorm simultaneous mean events' =
      invertWrapper rlm inv codaNorm simultaneous mean events := by
  have hn' : events'.Nodup := hp.nodup_iff.2 hn
  have key : orderEvents events' = orderEvents events := by
    rcases orderEvents_cases events hn with ⟨h, e⟩ | ⟨h, e⟩ | ⟨ht, hs, o, e⟩
    · rcases orderEvents_cases events' hn' with ⟨h', e'⟩ | ⟨h', e'⟩ | ⟨ht', hs', o', e'⟩
      · rw [e, e']
      · obtain ⟨a, ha, b, hb, hne, h1, h2⟩ := h
        rw [h' a (hp.symm.subset ha)] at h1
        simp at h1
      · exact absurd (tie_mono (fun e he => hp.symm.subset he) h) ht'
    · rcases orderEvents_cases events' hn' with ⟨h', e'⟩ | ⟨h', e'⟩ | ⟨ht', hs', o', e'⟩
      · obtain ⟨a, ha, b, hb, hne, h1, h2⟩ := h'
        rw [h a (hp.subset ha)] at h1
        simp at h1
      · rw [e, e']
      · obtain ⟨a, ha, h1⟩ := hs'
        rw [h a (hp.subset ha)] at h1
        simp at h1
    · rw [e]
      obtain ⟨h1, h2⟩ := orderEvents_ok e
      exact orderEvents_eq hn' (fun h => ht (tie_mono (fun e he => hp.subset he) h))
        ⟨h1.perm.trans (hp.filter _).symm, h1.sorted⟩ h2
  unfold invertWrapper
  rw [key]

namespace Wrapper

theorem get?_forall2 {l : List (Event × InvRes)} {en : Dict String (Dict String RVal)}
    (h : List.Forall₂ (fun (p : Event × InvRes) (e : String × Dict String RVal) =>
      e.1 = getEventid p.1 ∧ eventEntry codaNorm e.1 p.2 = .ok e.2) l en)
    (hn : (l.map (fun p => getEventid p.1)).Nodup) :
    (∀ p ∈ l, ∃ d, eventEntry codaNorm (getEventid p.1) p.2 = .ok d ∧
      en.get? (getEventid p.1) = some d) ∧
    (∀ id, id ∉ l.map (fun p => getEventid p.1) → en.get? id = none) := by
  induction h with
  | nil => exact ⟨by simp, fun _ _ => rfl⟩
  | @cons p e l en hpe _ ih =>
    rw [List.map_cons, List.nodup_cons] at hn
    obtain ⟨i1, i2⟩ := ih hn.2
    constructor
    · intro q hq
      rcases List.mem_cons.1 hq with rfl | hq
      · exact ⟨e.2, by rw [← hpe.1]; exact hpe.2, by simp [Dict.get?, hpe.1]⟩
      · obtain ⟨d, d1, d2⟩ := i1 q hq
        refine ⟨d, d1, ?_⟩
        have : e.1 ≠ getEventid q.1 := by
          rw [hpe.1]
          intro h
          exact hn.1 (List.mem_map.2 ⟨q, hq, h.symm⟩)
        simpa [Dict.get?, this] using d2
    · intro id hid
      rw [List.map_cons, List.mem_cons, not_or] at hid
      have : e.1 ≠ id := by rw [hpe.1]; exact Ne.symm hid.1
      simpa [Dict.get?, this] using i2 id hid.2

theorem ids_sublist (order : List Event) (outs : List (Option InvRes)) :
    (((order.zip outs).filterMap (fun p => p.2.map (fun r => (p.1, r)))).map
      (fun p => getEventid p.1)).Sublist (order.map getEventid) := by
  induction order generalizing outs with
  | nil => simp
  | cons a l ih =>
    cases outs with
    | nil => simp
    | cons o outs =>
      rw [List.zip_cons_cons]
      cases o with
      | none => rw [List.filterMap_cons_none rfl]; exact (ih outs).cons _
      | some r =>
        rw [List.filterMap_cons_some
          (f := fun p : Event × Option InvRes => p.2.map (fun r => (p.1, r))) (b := (a, r)) rfl]
        exact (ih outs).cons_cons _

/-- The entry of an event in the result is calculated from its own inversion. -/
theorem entry_of_event (hid : (events.map getEventid).Nodup) {w : WrapRes}
    (h : invertWrapper rlm inv codaNorm false mean events = .ok (some w)) {ev : Event}
    (hev : ev ∈ events) (ho : (Spec.originTime ev).isSome) :
    (inv [ev] = .ok none ∧ w.events.get? (getEventid ev) = none) ∨
    ∃ r d, inv [ev] = .ok (some r) ∧ eventEntry codaNorm (getEventid ev) r = .ok d ∧
      w.events.get? (getEventid ev) = some d := by
  obtain ⟨order, hord, h⟩ := bind_ok.1 h
  obtain ⟨hord, _⟩ := orderEvents_ok hord
  rw [if_neg (by simp)] at h
  obtain ⟨st, hst, h⟩ := bind_ok.1 h
  have hn : (order.map getEventid).Nodup := by
    refine ((hord.perm.map getEventid).nodup_iff).2 ?_
    exact hid.sublist ((List.filter_sublist).map _)
  have hevo : ev ∈ order := hord.perm.mem_iff.2 (List.mem_filter.2 ⟨hev, ho⟩)
  obtain ⟨outs, h1, en, h2, h3, -⟩ := loop_spec hst hn (by intro ev _; simp [Dict.keys])
  simp only [List.nil_append] at h2
  have hw : w.events = st.events := by
    split_ifs at h
    · simp [pure, Except.pure] at h
    · obtain ⟨_, _, _, _, _, _, _, _, _, _, _, _, _, _, _, _, hw, _⟩ := means_some h
      exact hw
  rw [hw, h2]
  set sel := (order.zip outs).filterMap (fun p => p.2.map (fun r => (p.1, r))) with hsel
  have hnsel : (sel.map (fun p => getEventid p.1)).Nodup := by
    refine hn.sublist ?_
    exact ids_sublist order outs
  obtain ⟨g1, g2⟩ := get?_forall2 h3 hnsel
  obtain ⟨i, hi, rfl⟩ := List.getElem_of_mem hevo
  have hi' : i < outs.length := by rw [← h1.length_eq]; exact hi
  have hinv := h1.get (i := i) hi hi'
  simp only [List.get_eq_getElem] at hinv
  have hz : (order[i], outs[i]) ∈ order.zip outs := by
    rw [List.mem_iff_getElem]
    exact ⟨i, by simp [hi, hi'], by simp⟩
  cases ho' : outs[i] with
  | none =>
    left
    rw [ho'] at hinv
    refine ⟨hinv, g2 _ ?_⟩
    intro hm
    obtain ⟨⟨ev', r⟩, hp, he⟩ := List.mem_map.1 hm
    obtain ⟨⟨ev'', o⟩, hz', hp'⟩ := List.mem_filterMap.1 hp
    simp only [Option.map_eq_some_iff, Prod.mk.injEq] at hp'
    obtain ⟨r', rfl, rfl, rfl⟩ := hp'
    obtain ⟨j, hj, hje⟩ := List.getElem_of_mem hz'
    simp only [List.getElem_zip, Prod.mk.injEq] at hje
    have hjo : j < order.length := by simp at hj; exact hj.1
    simp only at he
    rw [← hje.1] at he
    have : j = i := by
      have := (List.nodup_iff_injective_get.1 hn) (a₁ := ⟨j, by simpa using hjo⟩)
        (a₂ := ⟨i, by simpa using hi⟩) (by simpa using he)
      simpa using this
    subst this
    rw [ho'] at hje
    simp at hje
  | some r =>
    right
    rw [ho'] at hinv hz
    obtain ⟨d, d1, d2⟩ := g1 (order[i], r) (List.mem_filterMap.2 ⟨_, hz, rfl⟩)
    exact ⟨r, d, hinv, d1, d2⟩

end Wrapper

/-- **C120**: the result of an event does not depend on the other events in the catalogue if the
events are inverted separately. -/
theorem C120_other_events (hid : (events.map getEventid).Nodup)
    (hid' : (events'.map getEventid).Nodup) {w w' : WrapRes}
    (h : invertWrapper rlm inv codaNorm false mean events = .ok (some w))
    (h' : invertWrapper rlm inv codaNorm false mean events' = .ok (some w'))
    {ev : Event} (hev : ev ∈ events) (hev' : ev ∈ events') (ho : (Spec.originTime ev).isSome) :
    w.events.get? (getEventid ev) = w'.events.get? (getEventid ev) := by
  rcases entry_of_event hid h hev ho with ⟨a1, a2⟩ | ⟨r, d, a1, a2, a3⟩ <;>
    rcases entry_of_event hid' h' hev' ho with ⟨b1, b2⟩ | ⟨r', d', b1, b2, b3⟩
  · rw [a2, b2]
  · rw [a1] at b1; simp at b1
  · rw [a1] at b1; simp at b1
  · rw [a1] at b1
    simp only [Except.ok.injEq, Option.some.injEq] at b1
    subst b1
    rw [a2] at b2
    simp only [Except.ok.injEq] at b2
    rw [a3, b3, b2]

namespace Wrapper

/-- The loop passes over events without result. -/
theorem loop_filter {l : List Event} {st st' : LoopState} (q : Event → Bool)
    (hq : ∀ ev ∈ l, q ev = false → inv [ev] = .ok none)
    (h : l.foldlM (loopStep inv codaNorm) st = .ok st') :
    (l.filter q).foldlM (loopStep inv codaNorm) st = .ok st' := by
  induction l generalizing st with
  | nil => exact h
  | cons ev l ih =>
    rw [List.foldlM_cons] at h
    obtain ⟨m, hm, h⟩ := bind_ok.1 h
    have ih' := fun st => @ih st (fun e he => hq e (List.mem_cons_of_mem _ he))
    cases hqe : q ev with
    | true =>
      rw [List.filter_cons_of_pos hqe, List.foldlM_cons]
      exact bind_ok.2 ⟨m, hm, ih' _ h⟩
    | false =>
      rw [List.filter_cons_of_neg (by simp [hqe])]
      unfold loopStep at hm
      obtain ⟨_, _, hm⟩ := bind_ok.1 hm
      obtain ⟨o, ho, hm⟩ := bind_ok.1 hm
      rw [hq ev List.mem_cons_self hqe] at ho
      simp only [Except.ok.injEq] at ho
      subst ho
      simp only [pure, Except.pure, Except.ok.injEq] at hm
      subst hm
      exact ih' _ h

end Wrapper

/-- **C120**: events without origin, and events without result, have no influence on the result of
the separate inversion: without them it is the same. -/
theorem C120_events_without_result (hn : events.Nodup) {res : Option WrapRes}
    (h : invertWrapper rlm inv codaNorm false mean events = .ok res) (q : Event → Bool)
    (hq : ∀ ev ∈ events, q ev = false → Spec.originTime ev = none ∨ inv [ev] = .ok none)
    (hs : ∃ ev ∈ events, (Spec.originTime ev).isSome ∧ q ev = true) :
    invertWrapper rlm inv codaNorm false mean (events.filter q) = .ok res := by
  obtain ⟨order, ho, h⟩ := bind_ok.1 h
  have ht : ¬ Spec.Tie events := by
    rcases orderEvents_cases events hn with ⟨_, e⟩ | ⟨_, e⟩ | ⟨ht, _⟩
    · rw [e] at ho; simp at ho
    · rw [e] at ho; simp at ho
    · exact ht
  obtain ⟨h1, h2⟩ := orderEvents_ok ho
  rw [if_neg (by simp)] at h
  obtain ⟨st, hst, h⟩ := bind_ok.1 h
  have hmem : ∀ e ∈ order, e ∈ events ∧ (Spec.originTime e).isSome = true := by
    intro e he
    simpa using List.mem_filter.1 (h1.perm.subset he)
  have ho' : orderEvents (events.filter q) = .ok (order.filter q) := by
    refine orderEvents_eq (hn.filter _) (fun h => ht (tie_mono (fun e he => ?_) h)) ⟨?_, ?_⟩ ?_
    · exact (List.mem_filter.1 he).1
    · refine (h1.perm.filter q).trans ?_
      rw [List.filter_filter, List.filter_filter]
      refine List.Perm.of_eq (List.filter_congr ?_)
      intro x _
      exact Bool.and_comm _ _
    · exact h1.sorted.sublist List.filter_sublist
    · obtain ⟨ev, he1, he2, he3⟩ := hs
      have : ev ∈ order.filter q :=
        List.mem_filter.2 ⟨h1.perm.mem_iff.2 (List.mem_filter.2 ⟨he1, he2⟩), he3⟩
      exact List.ne_nil_of_mem this
  unfold invertWrapper
  rw [ho']
  simp only [bind, Except.bind]
  rw [if_neg (by simp)]
  refine bind_ok.2 ⟨st, loop_filter q ?_ hst, h⟩
  intro ev hev hqe
  rcases hq ev (hmem ev hev).1 hqe with h0 | h0
  · have := (hmem ev hev).2
    rw [h0] at this
    simp at this
  · exact h0

/-- **C120** (counterexample to the full claim): one event whose inversion raises an exception, or
whose depth is not known, stops the separate inversion of all events. -/
theorem C120_stop_counterexample (hn : events.Nodup) {ev : Event} (hev : ev ∈ events)
    (ho : (Spec.originTime ev).isSome)
    (h : (∃ e, inv [ev] = .error e) ∨ Spec.originDepth ev = none) :
    ∃ e, invertWrapper rlm inv codaNorm false mean events = .error e := by
  cases hr : invertWrapper rlm inv codaNorm false mean events with
  | error e => exact ⟨e, rfl⟩
  | ok res =>
    exfalso
    obtain ⟨order, hord, hr⟩ := bind_ok.1 hr
    obtain ⟨h1, -⟩ := orderEvents_ok hord
    rw [if_neg (by simp)] at hr
    obtain ⟨st, hst, _⟩ := bind_ok.1 hr
    have hevo : ev ∈ order := h1.perm.mem_iff.2 (List.mem_filter.2 ⟨hev, ho⟩)
    clear hr hord
    clear h1
    generalize ({} : LoopState) = s0 at hst
    induction order generalizing s0 with
    | nil => simp at hevo
    | cons a l ih =>
      rw [List.foldlM_cons] at hst
      obtain ⟨m, hm, hst⟩ := bind_ok.1 hst
      rcases List.mem_cons.1 hevo with rfl | hevo
      · unfold loopStep at hm
        obtain ⟨_, h2, hm⟩ := bind_ok.1 hm
        obtain ⟨o, h3, hm⟩ := bind_ok.1 hm
        rcases h with ⟨e, h⟩ | h
        · rw [h] at h3; simp at h3
        · rw [announce_spec ev ho, h] at h2
          simp at h2
      · exact ih hevo m hst

/-- An event whose depth is not known has no pairs. -/
theorem C120_unknown_depth {env : Env} {cfg : InvCfg} {ev : Event} (hu : cfg.usePicks = false)
    (ho : (Spec.originTime ev).isSome) (hd : Spec.originDepth ev = none) :
    selectStreams env cfg [ev] = .ok none := by
  obtain ⟨o, h1, h2⟩ : ∃ o, getOrigin ev = .ok o ∧ o.depth = none := by
    unfold Spec.originTime at ho
    unfold Spec.originDepth at hd
    unfold getOrigin
    cases hp : ev.preferredOrigin with
    | some o => exact ⟨o, rfl, by simpa [hp] using hd⟩
    | none =>
      cases hq : ev.origins with
      | nil => rw [hp, hq] at ho; simp at ho
      | cons o l => exact ⟨o, by simp [pyGet], by simpa [hp, hq] using hd⟩
  have hor : originsOf [ev] = .ok [(getEventid ev, o)] := by
    simp [originsOf, h1, bind, Except.bind, pure, Except.pure, Dict.set]
  have hdist : ∀ k sta, (k, sta) ∈ allPairs env [(getEventid ev, o)] →
      distance env cfg (originAt [(getEventid ev, o)] k) sta = none := by
    intro k sta hk
    have hk : k = getEventid ev := by
      simp only [allPairs, List.mem_flatMap, List.mem_map] at hk
      obtain ⟨a, ha, _, _, e⟩ := hk
      simp only [Dict.keys, List.map_cons, List.map_nil, List.mem_singleton] at ha
      simp only [Prod.mk.injEq] at e
      exact e.1.symm.trans ha
    subst hk
    have : originAt [(getEventid ev, o)] (getEventid ev) = o := by
      simp [originAt, Dict.get?]
    rw [this]
    unfold distance
    rw [h2]
    split
    · rfl
    · split <;> rfl
  have hl : ∀ (l : List (String × String)) (st : DistState),
      (∀ p ∈ l, distance env cfg (originAt [(getEventid ev, o)] p.1) p.2 = none) →
      (l.foldl (distStep env cfg [(getEventid ev, o)]) st).pairs = st.pairs.diff l := by
    intro l
    induction l with
    | nil => intro st _; simp
    | cons a l ih =>
      intro st h
      rw [List.foldl_cons, ih _ (fun p hp => h p (List.mem_cons_of_mem _ hp)), List.diff_cons]
      unfold distStep
      rw [h a List.mem_cons_self]
  have hs : sortPairs [(getEventid ev, o)] (distLoop env cfg [(getEventid ev, o)]) = [] := by
    unfold sortPairs
    have : (distLoop env cfg [(getEventid ev, o)]).pairs = [] := by
      unfold distLoop
      rw [hl _ _ (fun p hp => hdist p.1 p.2 hp)]
      generalize allPairs env [(getEventid ev, o)] = l
      clear hl hdist
      induction l with
      | nil => rfl
      | cons a l ih => rw [List.diff_cons, List.erase_cons_head, ih]
    rw [this]
    simp
  unfold selectStreams
  rw [hor]
  have hz : Invert.tooFew cfg (List.length ([] : List (String × String))) := Or.inl rfl
  simp only [bind, Except.bind, arrivalsIf, hu, hs, List.foldlM_nil, pure, Except.pure, if_pos hz,
    Bool.false_eq_true, if_false]

/-- **C120** (counterexample to the full claim, onsets from picks): in a simultaneous inversion, one
event without picks and with a station in reach leaves nothing to invert, whatever data exist for the
other events. -/
theorem C120_picks_counterexample {env : Env} {cfg : InvCfg} {evs : List Event}
    (hset : Spec.IsSetOrder env.setOrder) (hid : (evs.map getEventid).Nodup)
    (hu : cfg.usePicks = true) {ev : Event} (hev : ev ∈ evs) (har : getArrivals ev = .ok none)
    {o : Origin} (ho : getOrigin ev = .ok o) {sta : String}
    (hsta : sta ∈ env.channels.map getStation) {d : ℝ} (hd : Spec.HypoDistance env cfg o sta d)
    (hr : ∀ v, cfg.skipDistance = some v → v ≠ 0 → d / 1000 ≤ v) :
    ∀ streams, selectStreams env cfg evs ≠ .ok (some streams) := by
  intro streams h
  obtain ⟨origins, arrivals, os, l, h1, h2, h3, -⟩ := selectStreams_ok h
  obtain ⟨o1, o2, -⟩ := originsOf_spec hid h1 (by simp [Dict.keys])
  have hkeys : origins.keys = evs.map getEventid := by simpa [Dict.keys] using o2
  have hallN : (allPairs env origins).Nodup :=
    allPairs_nodup (by rw [hkeys]; exact hid) (hset _).1
  obtain ⟨d1, -⟩ := distLoop_aux (env := env) (cfg := cfg) (origins := origins)
    (allPairs env origins) { pairs := allPairs env origins } hallN
  have horigin : originAt origins (getEventid ev) = o := by
    obtain ⟨o', k1, k2⟩ := o1 ev hev
    rw [ho] at k1
    cases k1
    simp [originAt, k2]
  have hmem : (getEventid ev, sta) ∈ sortPairs origins (distLoop env cfg origins) := by
    unfold sortPairs
    rw [(List.mergeSort_perm _ _).mem_iff]
    unfold distLoop
    rw [d1, List.mem_filter]
    refine ⟨mem_allPairs.2 ⟨?_, ?_⟩, ?_⟩
    · rw [hkeys]; exact List.mem_map_of_mem hev
    · exact ((hset _).2 _).2 hsta
    · unfold near
      simp only [horigin]
      rw [(distance_spec o sta d).2 hd]
      simp only [Bool.or_eq_true, Bool.not_eq_true']
      left
      unfold tooFar
      cases hs : cfg.skipDistance with
      | none => rfl
      | some v =>
        simp only [decide_eq_false_iff_not, not_and, not_lt, gt_iff_lt]
        exact hr v hs
  obtain ⟨x, hx⟩ := foldlM_all_ok h3 _ hmem
  unfold arrivalsIf at h2
  rw [if_pos hu] at h2
  obtain ⟨a, a1, a2⟩ := (arrivalsOf_spec hid h2 (by simp [Dict.keys])).1 ev hev
  rw [har] at a1
  cases a1
  unfold onsets firstOnsets at hx
  rw [if_pos hu, a2] at hx
  simp [bind, Except.bind] at hx

namespace EventsExample

open WrapperExample

theorem exNodup : [noOrigin, ev "x/e2" 2, ev "x/e1" 1].Nodup := by
  simp [noOrigin, ev]

theorem exOrder' : orderEvents [noOrigin, ev "x/e2" 2, ev "x/e1" 1] =
    .ok [ev "x/e1" 1, ev "x/e2" 2] := by
  rw [← exOrder]
  rfl

/-- The result with a third event, which has no origin. -/
theorem exWrapper' (rlm : List ℝ → ℝ × ℝ) :
    ∃ w, invertWrapper rlm exInv false false .plain [noOrigin, ev "x/e2" 2, ev "x/e1" 1] =
      .ok (some w) ∧ w.events.keys = ["e1", "e2"] := by
  obtain ⟨w, h, -, hk, -⟩ := exWrapper rlm
  refine ⟨w, ?_, hk⟩
  rw [← h]
  unfold invertWrapper
  rw [exOrder, exOrder']

end EventsExample

open WrapperExample EventsExample

example (rlm : List ℝ → ℝ × ℝ) (simultaneous : Bool) :
    invertWrapper rlm exInv false simultaneous .plain [ev "x/e2" 2, ev "x/e1" 1, noOrigin] =
      invertWrapper rlm exInv false simultaneous .plain [noOrigin, ev "x/e2" 2, ev "x/e1" 1] :=
  C120_order_of_catalogue simultaneous exNodup (by
    exact (List.perm_append_comm (l₁ := [ev "x/e2" 2, ev "x/e1" 1]) (l₂ := [noOrigin])))

example (rlm : List ℝ → ℝ × ℝ) :
    ∃ w w', invertWrapper rlm exInv false false .plain [ev "x/e2" 2, ev "x/e1" 1] = .ok (some w) ∧
      invertWrapper rlm exInv false false .plain [noOrigin, ev "x/e2" 2, ev "x/e1" 1] =
        .ok (some w') ∧
      w.events.get? "e2" = w'.events.get? "e2" ∧ (w.events.get? "e2").isSome := by
  obtain ⟨w, h, -, hk, -⟩ := exWrapper rlm
  obtain ⟨w', h', -⟩ := exWrapper' rlm
  have i1 : getEventid (ev "x/e1" 1) = "e1" := by rw [exId _ _ (by simp)]; rfl
  have i2 : getEventid (ev "x/e2" 2) = "e2" := by rw [exId _ _ (by simp)]; rfl
  have i0 : getEventid noOrigin = "e0" := by decide
  have := C120_other_events (ev := ev "x/e2" 2) (by simp [i1, i2]) (by simp [i0, i1, i2]) h h'
    (by simp) (by simp) rfl
  rw [i2] at this
  refine ⟨w, w', h, h', this, ?_⟩
  by_contra hc
  have : w.events.get? "e2" = none := by simpa using hc
  rw [Dict.get?_eq_none, hk] at this
  simp at this

example (rlm : List ℝ → ℝ × ℝ) :
    ∃ w, invertWrapper rlm exInv false false .plain [noOrigin, ev "x/e2" 2, ev "x/e1" 1] =
      .ok (some w) ∧
    invertWrapper rlm exInv false false .plain ([noOrigin, ev "x/e2" 2, ev "x/e1" 1].filter
      (fun e => (Spec.originTime e).isSome)) = .ok (some w) := by
  obtain ⟨w, h, -⟩ := exWrapper' rlm
  refine ⟨w, h, C120_events_without_result exNodup h _ ?_ ?_⟩
  · intro e _ he
    left
    simpa using he
  · exact ⟨ev "x/e1" 1, by simp, rfl, rfl⟩

example (rlm : List ℝ → ℝ × ℝ) :
    ∃ e, invertWrapper rlm exInv false false .plain
      [ev "x/e1" 1, ⟨"x/e2", none, [⟨2, 0, 0, none, []⟩], none, []⟩] = .error e :=
  C120_stop_counterexample (by simp [ev]) (List.mem_cons_of_mem _ List.mem_cons_self) rfl (Or.inr rfl)

example (env : Env) : selectStreams env (PairsExample.exCfg none)
    [⟨"x/e2", none, [⟨2, 0, 0, none, []⟩], none, []⟩] = .ok none :=
  C120_unknown_depth rfl rfl rfl

example : ∀ streams, selectStreams PairsExample.exEnv
    { PairsExample.exCfg none with usePicks := true }
    [ev "x/e1" 1, ⟨"x/e2", none, [⟨5, 0, 0, some 0, [⟨"P", some ⟨"GR.A..HHZ", 6⟩⟩,
      ⟨"S", some ⟨"GR.A..HHZ", 7⟩⟩]⟩], none, []⟩] ≠ .ok (some streams) := by
  have i2 : getEventid ⟨"x/e2", none, [⟨5, 0, 0, some 0, [⟨"P", some ⟨"GR.A..HHZ", 6⟩⟩,
      ⟨"S", some ⟨"GR.A..HHZ", 7⟩⟩]⟩], none, []⟩ = "e2" := by decide
  have i1 : getEventid (ev "x/e1" 1) = "e1" := by rw [exId _ _ (by simp)]; rfl
  refine C120_picks_counterexample PairsExample.exSet (by simp [i1, i2]) rfl
    (List.mem_cons_self) rfl rfl (sta := "GR.A") (d := 0) ?_ ?_ ?_
  · simp [PairsExample.exEnv, PairsExample.exStation]
  · refine ⟨⟨0, 0, 0, 0⟩, 0, 0, rfl, rfl, rfl, ?_⟩
    simp [PairsExample.exCfg]
  · intro v hv
    simp [PairsExample.exCfg] at hv

end Qopen
