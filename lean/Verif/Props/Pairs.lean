import Verif.Lemmas.Invert
import Verif.Lemmas.SiteTotal
import Mathlib.Data.Set.Card

/-!
# C28, C29: selection of the event-station pairs
-/

namespace Qopen

open Real Catalog Energy Invert

namespace Invert

theorem fetch_spec {env : Env} {cfg : InvCfg} {origins : Dict String Origin}
    {distances : Dict (String × String) ℝ} {os : OnsetState} {deep : String → Bool}
    {pair : String × String} {o : Option Stream}
    (h : fetch env cfg origins distances os deep pair = .ok o) (st : Stream) :
    o = some st ↔ ∃ raw traces, env.getWaveforms pair.1 (pattern env pair.2)
        ((originAt origins pair.1).time + cfg.requestWindow.1)
        ((originAt origins pair.1).time + cfg.requestWindow.2) = .ok raw ∧
      checkData env cfg ((originAt origins pair.1).time + cfg.requestWindow.1)
        ((originAt origins pair.1).time + cfg.requestWindow.2) raw = some traces ∧
      traces.length = 3 ∧
      st = mkStream pair.1 (originAt origins pair.1) ((os.ponset.get? pair).getD 0)
        ((os.sonset.get? pair).getD 0) (distAt distances pair) deep traces := by
  unfold fetch at h
  simp only at h
  obtain ⟨raw, hraw, h⟩ := bind_ok.1 h
  rw [hraw]
  cases hc : checkData env cfg ((originAt origins pair.1).time + cfg.requestWindow.1)
        ((originAt origins pair.1).time + cfg.requestWindow.2) raw with
  | none =>
    rw [hc] at h
    simp only [pure, Except.pure, Except.ok.injEq] at h
    subst h
    simp [hc]
  | some traces =>
    rw [hc] at h
    simp only at h
    by_cases h3 : traces.length = 3
    · rw [if_neg (by simpa using h3)] at h
      simp only [pure, Except.pure, Except.ok.injEq] at h
      rw [← h]
      simp only [Option.some.injEq, Except.ok.injEq]
      constructor
      · rintro rfl
        exact ⟨raw, traces, rfl, hc, h3, rfl⟩
      · rintro ⟨raw', traces', rfl, hc', _, rfl⟩
        rw [hc] at hc'
        cases hc'
        rfl
    · rw [if_pos h3] at h
      simp only [pure, Except.pure, Except.ok.injEq] at h
      subst h
      simp only [reduceCtorEq, false_iff]
      rintro ⟨raw', traces', hr, hc', h3', _⟩
      simp only [Except.ok.injEq] at hr
      subst hr
      rw [hc] at hc'
      simp only [Option.some.injEq] at hc'
      subst hc'
      exact h3 h3'

theorem correct_pairs (env : Env) (cfg : InvCfg) (l : List Stream) (st : Stream) :
    st ∈ correct env cfg l ↔ ∃ st0 ∈ l, (cfg.removeResponse = false → st = st0) ∧
      (cfg.removeResponse = true → ∃ ch, env.response st0 = some ch ∧
        st = { st0 with channels := ch }) := by
  unfold correct
  by_cases h : cfg.removeResponse = true
  · rw [if_pos h]
    simp only [List.mem_filterMap, Option.map_eq_some_iff, h, Bool.true_eq_false, false_imp_iff,
      true_and, forall_const]
    constructor
    · rintro ⟨s, hs, ch, hch, rfl⟩; exact ⟨s, hs, ch, hch, rfl⟩
    · rintro ⟨s, hs, ch, hch, rfl⟩; exact ⟨s, hs, ch, hch, rfl⟩
  · rw [if_neg h]
    simp [h]

/-- What a run which selects streams went through. -/
theorem selectStreams_ok {env : Env} {cfg : InvCfg} {events : List Event} {streams : List Stream}
    (h : selectStreams env cfg events = .ok (some streams)) :
    ∃ origins arrivals os l, originsOf events = .ok origins ∧
      arrivalsIf cfg events = .ok arrivals ∧
      (sortPairs origins (distLoop env cfg origins)).foldlM
        (onsetStep cfg arrivals origins (distLoop env cfg origins).distances)
        { pairs := sortPairs origins (distLoop env cfg origins) } = .ok os ∧
      ¬ tooFew cfg os.pairs.length ∧
      mapExc (fetch env cfg origins (distLoop env cfg origins).distances os
        (boreholes env origins)) os.pairs = .ok l ∧
      streams = correct env cfg (l.filterMap id) ∧ ¬ tooFew cfg streams.length := by
  unfold selectStreams at h
  obtain ⟨origins, ho, h⟩ := bind_ok.1 h
  obtain ⟨arrivals, ha, h⟩ := bind_ok.1 h
  simp only at h
  cases hos : (sortPairs origins (distLoop env cfg origins)).foldlM
        (onsetStep cfg arrivals origins (distLoop env cfg origins).distances)
        { pairs := sortPairs origins (distLoop env cfg origins) } with
  | error e =>
    rw [hos] at h
    exfalso
    cases e <;> simp [pure, Except.pure] at h
  | ok os =>
    rw [hos] at h
    simp only at h
    by_cases ht : tooFew cfg os.pairs.length
    · rw [if_pos ht] at h
      simp [pure, Except.pure] at h
    · rw [if_neg ht] at h
      obtain ⟨l, hl, h⟩ := bind_ok.1 h
      by_cases ht' : tooFew cfg (correct env cfg (l.filterMap id)).length
      · rw [if_pos ht'] at h
        simp [pure, Except.pure] at h
      · rw [if_neg ht'] at h
        simp only [pure, Except.pure, Except.ok.injEq, Option.some.injEq] at h
        exact ⟨origins, arrivals, os, l, ho, ha, hos, ht, hl, h.symm, by rw [← h]; exact ht'⟩

theorem allPairs_nodup {env : Env} {origins : Dict String Origin} (h1 : origins.keys.Nodup)
    (h2 : (stationsOf env).Nodup) : (allPairs env origins).Nodup := by
  unfold allPairs
  rw [List.nodup_flatMap]
  constructor
  · intro ev _
    exact h2.map (fun a b hab => by simpa using hab)
  · refine h1.imp ?_
    intro a b hab
    rw [Function.onFun, List.disjoint_left]
    rintro ⟨x, y⟩ hx hy
    simp only [List.mem_map, Prod.mk.injEq] at hx hy
    obtain ⟨_, _, rfl, _⟩ := hx
    obtain ⟨_, _, rfl, _⟩ := hy
    exact hab rfl

theorem mem_allPairs {env : Env} {origins : Dict String Origin} {p : String × String} :
    p ∈ allPairs env origins ↔ p.1 ∈ origins.keys ∧ p.2 ∈ stationsOf env := by
  obtain ⟨a, b⟩ := p
  simp [allPairs]

/-- The stream of a pair after all checks. -/
noncomputable def finalStream (env : Env) (cfg : InvCfg) (origins : Dict String Origin)
    (distances : Dict (String × String) ℝ) (os : OnsetState) (pair : String × String) :
    Option Stream :=
  match fetch env cfg origins distances os (boreholes env origins) pair with
  | .ok (some st) => if cfg.removeResponse then
      (env.response st).map (fun ch => { st with channels := ch }) else some st
  | _ => none

theorem correct_eq {env : Env} {cfg : InvCfg} {origins : Dict String Origin}
    {distances : Dict (String × String) ℝ} {os : OnsetState} {pairs : List (String × String)}
    {l : List (Option Stream)}
    (h : mapExc (fetch env cfg origins distances os (boreholes env origins)) pairs = .ok l) :
    correct env cfg (l.filterMap id) =
      pairs.filterMap (finalStream env cfg origins distances os) := by
  have hf := mapExc_ok.1 h
  clear h
  induction hf with
  | nil => unfold correct; split <;> rfl
  | @cons p o pairs l hp _ ih =>
    cases o with
    | none =>
      have e1 : (none :: l).filterMap id = l.filterMap id := rfl
      rw [e1, List.filterMap_cons]
      simp only [finalStream, hp]
      exact ih
    | some st =>
      have e1 : (some st :: l).filterMap id = st :: l.filterMap id := rfl
      rw [e1, List.filterMap_cons]
      simp only [finalStream, hp]
      unfold correct at ih ⊢
      by_cases hr : cfg.removeResponse = true
      · rw [if_pos hr] at ih ⊢
        rw [if_pos hr, List.filterMap_cons, ih]
      · rw [if_neg hr] at ih ⊢
        rw [if_neg hr, ih]

theorem mkStream_spec {env : Env} {origins : Dict String Origin} {events : List Event}
    (hset : Spec.IsSetOrder env.setOrder)
    (horig : ∀ o, o ∈ origins.map Prod.snd ↔ ∃ ev ∈ events, getOrigin ev = .ok o)
    {evid : String} {ori : Origin} {p s d : ℝ} {traces : List RawTrace} (h3 : traces.length = 3)
    (st : Stream) :
    st = mkStream evid ori p s d (boreholes env origins) traces ↔
    (st.event = evid ∧ (∀ tr, traces.head? = some tr → st.station = getStation tr.id ∧
      st.start = tr.start ∧ st.sr = tr.sr) ∧ st.channels = traces.map RawTrace.data ∧
      st.origin = ori.time ∧ st.ponset = p ∧ st.sonset = s ∧ st.distance = d ∧
      (st.borehole = true ↔ Spec.InBorehole env events st.station)) := by
  match traces, h3 with
  | t :: l, _ =>
    have hb : ∀ sta, boreholes env origins sta = true ↔ Spec.InBorehole env events sta := by
      intro sta
      unfold boreholes Spec.InBorehole
      simp only [decide_eq_true_eq]
      rw [show stationsOf env = env.setOrder _ from rfl, (hset _).2, List.mem_map]
      constructor
      · rintro ⟨h, o, ho, c, hc, ⟨d, hd⟩, hdeep⟩
        obtain ⟨ev, hev, he⟩ := (horig o).1 ho
        exact ⟨h, ev, hev, o, c, d, he, hc, hd, hdeep⟩
      · rintro ⟨h, ev, hev, o, c, d, he, hc, hd, hdeep⟩
        exact ⟨h, o, (horig o).2 ⟨ev, hev, he⟩, c, hc, ⟨d, hd⟩, hdeep⟩
    constructor
    · rintro rfl
      refine ⟨rfl, ?_, rfl, rfl, rfl, rfl, rfl, hb _⟩
      intro tr htr
      simp only [List.head?_cons, Option.some.injEq] at htr
      subst htr
      exact ⟨rfl, rfl, rfl⟩
    · rintro ⟨h1, h2, h3, h4, h5, h6, h7, h8⟩
      obtain ⟨h21, h22, h23⟩ := h2 t rfl
      obtain ⟨event, station, start, sr, channels, origin, ponset, sonset, dist, borehole⟩ := st
      simp only at h1 h21 h22 h23 h3 h4 h5 h6 h7 h8
      subst h1 h21 h22 h23 h3 h4 h5 h6 h7
      have : borehole = boreholes env origins (getStation t.id) := by
        rw [Bool.eq_iff_iff, h8, hb]
      subst this
      rfl

theorem foldlM_all_ok {cfg : InvCfg} {origins : Dict String Origin}
    {arrivals : Dict String (List Arrival)} {distances : Dict (String × String) ℝ}
    {l : List (String × String)} {st st' : OnsetState}
    (h : l.foldlM (onsetStep cfg arrivals origins distances) st = .ok st') :
    ∀ p ∈ l, ∃ x, onsets cfg arrivals (originAt origins p.1) (distAt distances p) p = .ok x := by
  induction l generalizing st with
  | nil => simp
  | cons a l ih =>
    rw [List.foldlM_cons] at h
    obtain ⟨m, hm, h⟩ := bind_ok.1 h
    intro p hp
    rcases List.mem_cons.1 hp with rfl | hp
    · unfold onsetStep at hm
      obtain ⟨x, hx, -⟩ := bind_ok.1 hm
      exact ⟨x, hx⟩
    · exact ih h p hp

/-- The pairs which reach the second check, and their streams. -/
theorem final_spec {env : Env} {cfg : InvCfg} {events : List Event} {origins : Dict String Origin}
    {arrivals : Dict String (List Arrival)} {os : OnsetState}
    (hset : Spec.IsSetOrder env.setOrder) (hn : (events.map getEventid).Nodup)
    (ho : originsOf events = .ok origins) (ha : arrivalsIf cfg events = .ok arrivals)
    (hos : (sortPairs origins (distLoop env cfg origins)).foldlM
        (onsetStep cfg arrivals origins (distLoop env cfg origins).distances)
        { pairs := sortPairs origins (distLoop env cfg origins) } = .ok os)
    (hok : ∀ p ∈ os.pairs, ∃ o, fetch env cfg origins (distLoop env cfg origins).distances os
      (boreholes env origins) p = .ok o) :
    os.pairs.Nodup ∧
    os.pairs.Pairwise (fun p q => lePair origins (distLoop env cfg origins).distances p q = true) ∧
    ∀ p st, (p ∈ os.pairs ∧ finalStream env cfg origins (distLoop env cfg origins).distances os p =
      some st) ↔ ∃ ev ∈ events, getEventid ev = p.1 ∧ Spec.Usable env cfg events ev p.2 st := by
  obtain ⟨o1, o2, -⟩ := originsOf_spec hn ho (by simp [Dict.keys])
  have hkeys : origins.keys = events.map getEventid := by simpa [Dict.keys] using o2
  have hallN : (allPairs env origins).Nodup :=
    allPairs_nodup (by rw [hkeys]; exact hn) (hset _).1
  have horigin : ∀ ev ∈ events, ∀ o, getOrigin ev = .ok o → originAt origins (getEventid ev) = o := by
    intro ev hev o he
    obtain ⟨o', h1, h2⟩ := o1 ev hev
    rw [he] at h1
    cases h1
    simp [originAt, h2]
  have horig : ∀ o, o ∈ origins.map Prod.snd ↔ ∃ ev ∈ events, getOrigin ev = .ok o := by
    intro o
    constructor
    · intro hm0
      obtain ⟨⟨k, o'⟩, hm, rfl⟩ := List.mem_map.1 hm0
      have hk : k ∈ origins.keys := List.mem_map.2 ⟨(k, o'), hm, rfl⟩
      rw [hkeys] at hk
      obtain ⟨ev, hev, rfl⟩ := List.mem_map.1 hk
      obtain ⟨o'', h1, h2⟩ := o1 ev hev
      have := Dict.get?_of_mem (d := origins) (by unfold Dict.WF; rw [hkeys]; exact hn) hm
      rw [h2] at this
      cases this
      exact ⟨ev, hev, h1⟩
    · rintro ⟨ev, hev, he⟩
      obtain ⟨o', h1, h2⟩ := o1 ev hev
      rw [he] at h1
      cases h1
      exact List.mem_map.2 ⟨_, Dict.mem_of_get? h2, rfl⟩
  obtain ⟨d1, -⟩ := distLoop_aux (env := env) (cfg := cfg) (origins := origins)
    (allPairs env origins) { pairs := allPairs env origins } hallN
  have hds : (distLoop env cfg origins).pairs =
      (allPairs env origins).filter (near env cfg origins) := by
    unfold distLoop
    rw [d1]
    apply List.filter_congr
    intro x hx
    simp [hx]
  have hperm : (sortPairs origins (distLoop env cfg origins)).Perm
      ((allPairs env origins).filter (near env cfg origins)) := by
    rw [← hds]; exact List.mergeSort_perm _ _
  have hsN : (sortPairs origins (distLoop env cfg origins)).Nodup :=
    hperm.nodup_iff.2 (hallN.filter _)
  have hsorted : (sortPairs origins (distLoop env cfg origins)).Pairwise
      (fun p q => lePair origins (distLoop env cfg origins).distances p q = true) := by
    unfold sortPairs
    apply List.pairwise_mergeSort
    · intro a b c hab hbc
      simp only [lePair, decide_eq_true_eq] at hab hbc ⊢
      rcases hab with hab | ⟨hab, hab'⟩ <;> rcases hbc with hbc | ⟨hbc, hbc'⟩
      · left; linarith
      · left; linarith
      · left; linarith
      · right; exact ⟨hab.trans hbc, hab'.trans hbc'⟩
    · intro a b
      simp only [lePair, Bool.or_eq_true, decide_eq_true_eq]
      rcases lt_trichotomy (originAt origins a.1).time (originAt origins b.1).time with h | h | h
      · left; left; exact h
      · rcases le_total (distAt (distLoop env cfg origins).distances a)
          (distAt (distLoop env cfg origins).distances b) with h' | h'
        · left; right; exact ⟨h, h'⟩
        · right; right; exact ⟨h.symm, h'⟩
      · right; left; exact h
  obtain ⟨c1, -, c3⟩ := onsetLoop_spec hsN hsN hos
  have hop : os.pairs = (sortPairs origins (distLoop env cfg origins)).filter
      (hasOnsets cfg arrivals origins (distLoop env cfg origins).distances) := by
    rw [c1]
    apply List.filter_congr
    intro x hx
    simp only [hx, not_true_eq_false, decide_false, Bool.or_false]
  have harr : ∀ ev ∈ events, cfg.usePicks = true →
      ∃ o, getArrivals ev = .ok o ∧ arrivals.get? (getEventid ev) = o := by
    intro ev hev hu
    unfold arrivalsIf at ha
    rw [if_pos hu] at ha
    exact (arrivalsOf_spec hn ha (by simp [Dict.keys])).1 ev hev
  refine ⟨by rw [hop]; exact hsN.filter _, by rw [hop]; exact hsorted.filter _, ?_⟩
  rintro ⟨evid, sta⟩ st
  -- membership in the list of pairs
  have hmem : ∀ ev ∈ events, ∀ o, getOrigin ev = .ok o → ∀ sta,
      ((getEventid ev, sta) ∈ os.pairs → sta ∈ stationsOf env ∧ ∃ d p s,
        Spec.HypoDistance env cfg o sta d ∧
        (∀ v, cfg.skipDistance = some v → v ≠ 0 → d / 1000 ≤ v) ∧
        distAt (distLoop env cfg origins).distances (getEventid ev, sta) = d ∧
        os.ponset.get? (getEventid ev, sta) = some p ∧ os.sonset.get? (getEventid ev, sta) = some s ∧
        Spec.Onsets cfg ev o d sta p s) ∧
      ∀ d p s, sta ∈ stationsOf env → Spec.HypoDistance env cfg o sta d →
        (∀ v, cfg.skipDistance = some v → v ≠ 0 → d / 1000 ≤ v) → Spec.Onsets cfg ev o d sta p s →
        (getEventid ev, sta) ∈ os.pairs ∧
        distAt (distLoop env cfg origins).distances (getEventid ev, sta) = d ∧
        os.ponset.get? (getEventid ev, sta) = some p ∧
        os.sonset.get? (getEventid ev, sta) = some s := by
    intro ev hev o he sta
    have hoa := horigin ev hev o he
    have hap : (getEventid ev, sta) ∈ allPairs env origins ↔ sta ∈ stationsOf env := by
      rw [mem_allPairs, hkeys]
      simp only [and_iff_right_iff_imp]
      intro _
      exact List.mem_map.2 ⟨ev, hev, rfl⟩
    have hdist : ∀ d, sta ∈ stationsOf env → Spec.HypoDistance env cfg o sta d →
        distAt (distLoop env cfg origins).distances (getEventid ev, sta) = d := by
      intro d hs hd
      have := distLoop_dist (env := env) (cfg := cfg) (origins := origins) (allPairs env origins)
        { pairs := allPairs env origins } (hap.2 hs) (d := d) (by
          rw [hoa]; exact (distance_spec _ _ _).2 hd)
      unfold distAt distLoop
      rw [this]; rfl
    have hnear : near env cfg origins (getEventid ev, sta) = true ↔
        ∃ d, Spec.HypoDistance env cfg o sta d ∧
          ∀ v, cfg.skipDistance = some v → v ≠ 0 → d / 1000 ≤ v := by
      unfold near
      rw [hoa]
      cases hd : distance env cfg o sta with
      | none =>
        simp only [Bool.false_eq_true, false_iff]
        rintro ⟨d, hd', _⟩
        rw [← distance_spec, hd] at hd'
        simp at hd'
      | some d =>
        simp only [Bool.not_eq_true']
        rw [tooFar_spec]
        constructor
        · intro h; exact ⟨d, (distance_spec _ _ _).1 hd, h⟩
        · rintro ⟨d', hd', h⟩
          rw [← distance_spec, hd] at hd'
          cases hd'
          exact h
    have hsp : (getEventid ev, sta) ∈ sortPairs origins (distLoop env cfg origins) ↔
        sta ∈ stationsOf env ∧ near env cfg origins (getEventid ev, sta) = true := by
      rw [hperm.mem_iff, List.mem_filter, hap]
    rw [hop, List.mem_filter, hsp, hnear]
    constructor
    · rintro ⟨⟨hs, d, hd, hfar⟩, hons⟩
      refine ⟨hs, d, ?_⟩
      unfold hasOnsets at hons
      split at hons
      · rename_i p s hps
        have hps' := hps
        rw [hoa, hdist d hs hd] at hps'
        obtain ⟨e1, e2⟩ := c3 _ (hsp.2 ⟨hs, hnear.2 ⟨d, hd, hfar⟩⟩) p s hps
        exact ⟨p, s, hd, hfar, hdist d hs hd, e1, e2,
          (onsets_spec (harr ev hev) hps' p s).1 rfl⟩
      · simp at hons
    · intro d p s hs hd hfar hons
      have hda := hdist d hs hd
      have hsm := hsp.2 ⟨hs, hnear.2 ⟨d, hd, hfar⟩⟩
      obtain ⟨x, hx⟩ : ∃ x, onsets cfg arrivals (originAt origins (getEventid ev))
          (distAt (distLoop env cfg origins).distances (getEventid ev, sta)) (getEventid ev, sta) =
          .ok x := foldlM_all_ok hos _ hsm
      have hx' := hx
      rw [hoa, hda] at hx'
      have := (onsets_spec (harr ev hev) hx' p s).2 hons
      subst this
      refine ⟨⟨⟨hs, d, hd, hfar⟩, ?_⟩, hda, c3 _ hsm p s hx⟩
      unfold hasOnsets
      rw [hx]
  have hfinal : ∀ ev ∈ events, ∀ o, getOrigin ev = .ok o → ∀ sta st,
      (getEventid ev, sta) ∈ os.pairs →
      (finalStream env cfg origins (distLoop env cfg origins).distances os (getEventid ev, sta) =
        some st ↔ ∃ traces st0, Spec.Waveforms env cfg ev o sta traces ∧
          st0 = mkStream (getEventid ev) o ((os.ponset.get? (getEventid ev, sta)).getD 0)
            ((os.sonset.get? (getEventid ev, sta)).getD 0)
            (distAt (distLoop env cfg origins).distances (getEventid ev, sta))
            (boreholes env origins) traces ∧
          (cfg.removeResponse = false → st = st0) ∧
          (cfg.removeResponse = true → ∃ ch, env.response st0 = some ch ∧
            st = { st0 with channels := ch })) := by
    intro ev hev o he sta st hm
    have hoa := horigin ev hev o he
    obtain ⟨f, hf⟩ := hok _ hm
    have hfs := fun st => fetch_spec hf st
    simp only [hoa] at hfs
    unfold finalStream
    rw [hf]
    constructor
    · intro h
      cases f with
      | none => simp at h
      | some st0 =>
        obtain ⟨raw, traces, h1, h2, h3, h4⟩ := (hfs st0).1 rfl
        refine ⟨traces, st0, ?_, h4, ?_, ?_⟩
        · obtain ⟨l, e1, e2, e3, e4, e5, e6⟩ := checkData_spec.1 ⟨h2, h3⟩
          exact ⟨l, by rw [h1, e1], e2, e3, e4, e5, e6⟩
        · intro hr
          simpa [hr] using h.symm
        · intro hr
          simp only [hr, if_true, Option.map_eq_some_iff] at h
          obtain ⟨ch, e1, e2⟩ := h
          exact ⟨ch, e1, e2.symm⟩
    · rintro ⟨traces, st0, ⟨raw, w1, w2, w3, w4, w5, w6⟩, hst, hr0, hr1⟩
      obtain ⟨e1, e2⟩ := (checkData_spec (env := env) (cfg := cfg)).2
        ⟨raw, rfl, w2, w3, w4, w5, w6⟩
      have := (hfs st0).2 ⟨some raw, traces, w1, e1, e2, hst⟩
      subst this
      simp only
      by_cases hr : cfg.removeResponse = true
      · obtain ⟨ch, e1, e2⟩ := hr1 hr
        rw [if_pos hr, e1, e2]; rfl
      · rw [if_neg hr, hr0 (by simpa using hr)]
  constructor
  · rintro ⟨hm, hfin⟩
    have hk : evid ∈ events.map getEventid := by
      have h1 : (evid, sta) ∈ allPairs env origins := by
        rw [hop] at hm
        exact (List.mem_filter.1 (hperm.mem_iff.1 (List.mem_filter.1 hm).1)).1
      rw [← hkeys]
      exact (mem_allPairs.1 h1).1
    obtain ⟨ev, hev, rfl⟩ := List.mem_map.1 hk
    obtain ⟨o, he, -⟩ := o1 ev hev
    obtain ⟨hs, d, p, s, m1, m2, m3, m4, m5, m6⟩ := (hmem ev hev o he sta).1 hm
    obtain ⟨traces, st0, hw, hst, hr⟩ := (hfinal ev hev o he sta st hm).1 hfin
    rw [m3, m4, m5] at hst
    have h3 : traces.length = 3 := by obtain ⟨_, _, _, _, _, h, _⟩ := hw; exact h
    refine ⟨ev, hev, rfl, o, d, p, s, traces, st0, he, ?_, m1, m2, m6, hw,
      (mkStream_spec hset horig h3 st0).1 hst, hr⟩
    have := ((hset _).2 sta).1 hs
    simpa using this
  · rintro ⟨ev, hev, hid, o, d, p, s, traces, st0, he, hch, m1, m2, m6, hw, hst, hr⟩
    simp only at hid
    subst hid
    have hs : sta ∈ stationsOf env := ((hset _).2 sta).2 (by simpa using hch)
    have h3 : traces.length = 3 := by obtain ⟨_, _, _, _, _, h, _⟩ := hw; exact h
    obtain ⟨hm, n3, n4, n5⟩ := (hmem ev hev o he sta).2 d p s hs m1 m2 m6
    refine ⟨hm, (hfinal ev hev o he sta st hm).2 ⟨traces, st0, hw, ?_, hr⟩⟩
    rw [n3, n4, n5]
    exact (mkStream_spec hset horig h3 st0).2 hst

/-- Streams and pairs of a successful run. -/
theorem streams_pairs {env : Env} {cfg : InvCfg} {events : List Event}
    {origins : Dict String Origin} {arrivals : Dict String (List Arrival)} {os : OnsetState}
    {l : List (Option Stream)}
    (hset : Spec.IsSetOrder env.setOrder) (hn : (events.map getEventid).Nodup)
    (ho : originsOf events = .ok origins) (ha : arrivalsIf cfg events = .ok arrivals)
    (hos : (sortPairs origins (distLoop env cfg origins)).foldlM
        (onsetStep cfg arrivals origins (distLoop env cfg origins).distances)
        { pairs := sortPairs origins (distLoop env cfg origins) } = .ok os)
    (hl : mapExc (fetch env cfg origins (distLoop env cfg origins).distances os
      (boreholes env origins)) os.pairs = .ok l) :
    ∃ pairs : List (String × String), pairs.Nodup ∧ pairs.length ≤ os.pairs.length ∧
      List.Forall₂ (fun p st => ∃ ev ∈ events, getEventid ev = p.1 ∧
        Spec.Usable env cfg events ev p.2 st) pairs (correct env cfg (l.filterMap id)) ∧
      (correct env cfg (l.filterMap id)).Pairwise (fun s s' => s.origin < s'.origin ∨
        s.origin = s'.origin ∧ s.distance ≤ s'.distance) ∧
      (∀ p, p ∈ pairs ↔ p ∈ Spec.UsablePairs env cfg events) ∧
      ∀ ev ∈ events, ∀ sta st, Spec.Usable env cfg events ev sta st →
        st ∈ correct env cfg (l.filterMap id) := by
  have hok : ∀ p ∈ os.pairs, ∃ o, fetch env cfg origins (distLoop env cfg origins).distances os
      (boreholes env origins) p = .ok o := by
    intro p hp
    obtain ⟨i, hi, rfl⟩ := List.getElem_of_mem hp
    have hf := mapExc_ok.1 hl
    exact ⟨l[i]'(hf.length_eq ▸ hi), (List.forall₂_iff_get.1 hf).2 i hi (hf.length_eq ▸ hi)⟩
  obtain ⟨f1, f2, f3⟩ := final_spec hset hn ho ha hos hok
  rw [correct_eq hl]
  set F := finalStream env cfg origins (distLoop env cfg origins).distances os with hF
  refine ⟨os.pairs.filter (fun p => (F p).isSome), f1.filter _, List.length_filter_le _ _, ?_, ?_,
    ?_, ?_⟩
  · have : ∀ l : List (String × String), (∀ p ∈ l, p ∈ os.pairs) → List.Forall₂ (fun p st => ∃ ev ∈ events,
        getEventid ev = p.1 ∧ Spec.Usable env cfg events ev p.2 st)
        (l.filter (fun p => (F p).isSome)) (l.filterMap F) := by
      intro l
      induction l with
      | nil => intro _; exact List.Forall₂.nil
      | cons a l ih =>
        intro hm
        have ih := ih (fun p hp => hm p (by simp [hp]))
        cases hFa : F a with
        | none =>
          rw [List.filterMap_cons_none hFa, List.filter_cons_of_neg (by simp [hFa])]
          exact ih
        | some st =>
          rw [List.filterMap_cons_some hFa, List.filter_cons_of_pos (by simp [hFa])]
          exact List.Forall₂.cons ((f3 a st).1 ⟨hm a (by simp), hFa⟩) ih
    exact this _ (fun _ h => h)
  · rw [List.pairwise_filterMap]
    refine f2.imp_of_mem ?_
    intro p q hp hq hle s hs s' hs'
    obtain ⟨ev, hev, e1, e2⟩ := (f3 p s).1 ⟨hp, hs⟩
    obtain ⟨ev', hev', e1', e2'⟩ := (f3 q s').1 ⟨hq, hs'⟩
    have key : ∀ {p : String × String} {st : Stream}, F p = some st →
        st.origin = (originAt origins p.1).time ∧
        st.distance = distAt (distLoop env cfg origins).distances p := by
      intro p st h
      rw [hF] at h
      unfold finalStream at h
      split at h
      · rename_i st0 hf
        obtain ⟨raw, traces, -, -, -, h4⟩ := (fetch_spec hf st0).1 rfl
        split at h
        · rw [Option.map_eq_some_iff] at h
          obtain ⟨ch, -, rfl⟩ := h
          rw [h4]; exact ⟨rfl, rfl⟩
        · cases h
          rw [h4]; exact ⟨rfl, rfl⟩
      · simp at h
    obtain ⟨k1, k2⟩ := key hs
    obtain ⟨k1', k2'⟩ := key hs'
    simp only [lePair, decide_eq_true_eq] at hle
    rw [k1, k2, k1', k2']
    exact hle
  · intro p
    rw [List.mem_filter]
    unfold Spec.UsablePairs
    simp only [Set.mem_setOf_eq]
    constructor
    · rintro ⟨hp, hs⟩
      obtain ⟨st, hst⟩ := Option.isSome_iff_exists.1 hs
      obtain ⟨ev, h1, h2, h3⟩ := (f3 p st).1 ⟨hp, hst⟩
      exact ⟨ev, h1, h2, st, h3⟩
    · rintro ⟨ev, h1, h2, st, h3⟩
      obtain ⟨hp, hst⟩ := (f3 p st).2 ⟨ev, h1, h2, h3⟩
      exact ⟨hp, by rw [hst]; rfl⟩
  · intro ev hev sta st hu
    obtain ⟨hp, hst⟩ := (f3 (getEventid ev, sta) st).2 ⟨ev, hev, rfl, hu⟩
    exact List.mem_filterMap.2 ⟨_, hp, hst⟩

theorem ncard_of_list {α : Type} [DecidableEq α] {S : Set α} {l : List α} (hn : l.Nodup)
    (h : ∀ p, p ∈ l ↔ p ∈ S) : S.ncard = l.length := by
  have : S = (l.toFinset : Set α) := by
    ext p; simp [h]
  rw [this, Set.ncard_coe_finset, List.toFinset_card_of_nodup hn]

theorem onsets_total {cfg : InvCfg} {events : List Event} {arrivals : Dict String (List Arrival)}
    (hr : Spec.OnsetsReadable cfg events) (hn : (events.map getEventid).Nodup)
    (ha : arrivalsIf cfg events = .ok arrivals) {ev : Event} (hev : ev ∈ events) (ori : Origin) (d : ℝ)
    (sta : String) : ∃ x, onsets cfg arrivals ori d (getEventid ev, sta) = .ok x := by
  obtain ⟨r1, r2, r3⟩ := hr
  have hfirst : ∃ x, firstOnsets cfg arrivals ori d (getEventid ev, sta) = .ok x := by
    unfold firstOnsets
    by_cases hu : cfg.usePicks = true
    · rw [if_pos hu]
      unfold arrivalsIf at ha
      rw [if_pos hu] at ha
      obtain ⟨o, h1, h2⟩ := (arrivalsOf_spec hn ha (by simp [Dict.keys])).1 ev hev
      obtain ⟨ar, h3, h4⟩ := r3 hu ev hev
      rw [h3] at h1
      cases h1
      rw [h2]
      obtain ⟨picks, hp⟩ := h4 sta
      simp only [hp]
      exact ⟨_, rfl⟩
    · rw [if_neg hu]
      obtain ⟨vs, h1, h2⟩ := r2 (by simpa using hu)
      rw [h1]
      simp only
      rw [if_neg h2]
      exact ⟨_, rfl⟩
  obtain ⟨x, hx⟩ := hfirst
  unfold onsets
  rw [hx]
  obtain ⟨p, s⟩ := x
  change ∃ x, (match p, s, cfg.vp with
    | none, some s, some vp =>
      if vp = 0 then Except.error PyErr.other else (Except.ok (some (ori.time + d / vp), some s) :
        Py (Option ℝ × Option ℝ))
    | _, _, _ => Except.ok (p, s)) = .ok x
  cases p with
  | some p => exact ⟨_, rfl⟩
  | none =>
    cases s with
    | none => exact ⟨_, rfl⟩
    | some s =>
      cases hv : cfg.vp with
      | none => exact ⟨_, rfl⟩
      | some vp =>
        simp only
        rw [if_neg (r1 vp hv)]
        exact ⟨_, rfl⟩

theorem onsetLoop_total {cfg : InvCfg} {events : List Event} {arrivals : Dict String (List Arrival)}
    {origins : Dict String Origin} {distances : Dict (String × String) ℝ}
    (hr : Spec.OnsetsReadable cfg events) (hn : (events.map getEventid).Nodup)
    (ha : arrivalsIf cfg events = .ok arrivals) (l : List (String × String))
    (hl : ∀ p ∈ l, p.1 ∈ events.map getEventid) (st : OnsetState) :
    ∃ st', l.foldlM (onsetStep cfg arrivals origins distances) st = .ok st' := by
  induction l generalizing st with
  | nil => exact ⟨st, rfl⟩
  | cons a l ih =>
    have hstep : ∃ m, onsetStep cfg arrivals origins distances st a = .ok m := by
      obtain ⟨ev, hev, he⟩ := List.mem_map.1 (hl a (by simp))
      obtain ⟨x, hx⟩ := onsets_total hr hn ha hev (originAt origins a.1) (distAt distances a) a.2
      rw [he] at hx
      unfold onsetStep
      rw [hx]
      obtain ⟨p, s⟩ := x
      cases p with
      | none => exact ⟨_, rfl⟩
      | some p => cases s <;> exact ⟨_, rfl⟩
    obtain ⟨m, hm⟩ := hstep
    obtain ⟨st', h⟩ := ih (fun p hp => hl p (by simp [hp])) m
    refine ⟨st', ?_⟩
    rw [List.foldlM_cons, hm]
    exact h

theorem fetchAll_total {env : Env} {cfg : InvCfg}
    (hw : ∀ evid pat t1 t2, ∃ d, env.getWaveforms evid pat t1 t2 = .ok d)
    (origins : Dict String Origin) (distances : Dict (String × String) ℝ) (os : OnsetState)
    (deep : String → Bool) (pairs : List (String × String)) :
    ∃ l, mapExc (fetch env cfg origins distances os deep) pairs = .ok l := by
  apply Site.mapExc_total
  intro p _
  unfold fetch
  obtain ⟨raw, hraw⟩ := hw p.1 (pattern env p.2)
    ((originAt origins p.1).time + cfg.requestWindow.1)
    ((originAt origins p.1).time + cfg.requestWindow.2)
  simp only [hraw]
  change ∃ x, (match checkData env cfg ((originAt origins p.1).time + cfg.requestWindow.1)
    ((originAt origins p.1).time + cfg.requestWindow.2) raw with
    | none => _
    | some traces => _) = Except.ok x
  split
  · exact ⟨_, rfl⟩
  · split <;> exact ⟨_, rfl⟩

theorem foldlM_ok_of_all {α β : Type} {f : β → α → Py β} {l : List α} (h : ∀ b, ∀ a ∈ l, ∃ b', f b a = .ok b')
    (b : β) : ∃ b', l.foldlM f b = .ok b' := by
  induction l generalizing b with
  | nil => exact ⟨b, rfl⟩
  | cons a l ih =>
    obtain ⟨m, hm⟩ := h b a (by simp)
    obtain ⟨b', h'⟩ := ih (fun b a ha => h b a (by simp [ha])) m
    exact ⟨b', by rw [List.foldlM_cons, hm]; exact h'⟩

/-- Without exceptions in the accesses to catalogue and data the selection does not fail. -/
theorem selectStreams_total {env : Env} {cfg : InvCfg} {events : List Event}
    (hset : Spec.IsSetOrder env.setOrder) (hn : (events.map getEventid).Nodup)
    (hr : Spec.OnsetsReadable cfg events)
    (hw : ∀ evid pat t1 t2, ∃ d, env.getWaveforms evid pat t1 t2 = .ok d)
    (hev : ∀ ev ∈ events, ∃ o, getOrigin ev = .ok o) :
    ∃ o, selectStreams env cfg events = .ok o := by
  obtain ⟨origins, ho⟩ : ∃ d, originsOf events = .ok d := by
    apply foldlM_ok_of_all
    intro d ev h
    obtain ⟨o, ho⟩ := hev ev h
    rw [ho]
    exact ⟨_, rfl⟩
  obtain ⟨arrivals, ha⟩ : ∃ d, arrivalsIf cfg events = .ok d := by
    unfold arrivalsIf
    by_cases hu : cfg.usePicks = true
    · rw [if_pos hu]
      apply foldlM_ok_of_all
      intro d ev h
      obtain ⟨ar, har, -⟩ := hr.2.2 hu ev h
      rw [har]
      exact ⟨_, rfl⟩
    · rw [if_neg hu]; exact ⟨_, rfl⟩
  have hkeys : origins.keys = events.map getEventid := by
    simpa [Dict.keys] using (originsOf_spec hn ho (by simp [Dict.keys])).2.1
  have hin : ∀ p ∈ sortPairs origins (distLoop env cfg origins), p.1 ∈ events.map getEventid := by
    intro p hp
    have h1 : p ∈ (distLoop env cfg origins).pairs := (List.mergeSort_perm _ _).mem_iff.1 hp
    unfold distLoop at h1
    rw [(distLoop_aux _ _ (allPairs_nodup (by rw [hkeys]; exact hn) (hset _).1)).1] at h1
    rw [← hkeys]
    exact (mem_allPairs.1 (List.mem_filter.1 h1).1).1
  obtain ⟨os, hos⟩ := onsetLoop_total (origins := origins)
    (distances := (distLoop env cfg origins).distances) hr hn ha _ hin
    { pairs := sortPairs origins (distLoop env cfg origins) }
  obtain ⟨l, hl⟩ := fetchAll_total (cfg := cfg) hw origins (distLoop env cfg origins).distances os
    (boreholes env origins) os.pairs
  unfold selectStreams
  rw [ho]
  simp only [bind, Except.bind, ha, hos, hl]
  split
  · exact ⟨_, rfl⟩
  · split <;> exact ⟨_, rfl⟩

end Invert

/-- **C28** Exactly the usable pairs of event and station reach the inversion, every pair once. -/
theorem C28_pairs {env : Env} {cfg : InvCfg} {events : List Event} {streams : List Stream}
    (hset : Spec.IsSetOrder env.setOrder) (hn : (events.map getEventid).Nodup)
    (h : selectStreams env cfg events = .ok (some streams)) :
    (∀ st, st ∈ streams ↔ ∃ ev ∈ events, ∃ sta, Spec.Usable env cfg events ev sta st) ∧
    ∃ pairs : List (String × String), pairs.Nodup ∧
      List.Forall₂ (fun p st => ∃ ev ∈ events, getEventid ev = p.1 ∧
        Spec.Usable env cfg events ev p.2 st) pairs streams := by
  obtain ⟨origins, arrivals, os, l, ho, ha, hos, -, hl, rfl, -⟩ := selectStreams_ok h
  obtain ⟨pairs, p1, -, p2, -, -, p5⟩ := streams_pairs hset hn ho ha hos hl
  refine ⟨?_, pairs, p1, p2⟩
  intro st
  constructor
  · intro hst
    obtain ⟨i, hi, rfl⟩ := List.getElem_of_mem hst
    obtain ⟨ev, hev, -, hu⟩ := (List.forall₂_iff_get.1 p2).2 i (p2.length_eq ▸ hi) hi
    exact ⟨ev, hev, _, hu⟩
  · rintro ⟨ev, hev, sta, hu⟩
    exact p5 ev hev sta st hu

/-- **C28** The streams are ordered by origin time and, for events with the same origin time, by
distance. -/
theorem C28_order {env : Env} {cfg : InvCfg} {events : List Event} {streams : List Stream}
    (hset : Spec.IsSetOrder env.setOrder) (hn : (events.map getEventid).Nodup)
    (h : selectStreams env cfg events = .ok (some streams)) :
    streams.Pairwise (fun s s' => s.origin < s'.origin ∨
      s.origin = s'.origin ∧ s.distance ≤ s'.distance) := by
  obtain ⟨origins, arrivals, os, l, ho, ha, hos, -, hl, rfl, -⟩ := selectStreams_ok h
  obtain ⟨pairs, -, -, -, p3, -, -⟩ := streams_pairs hset hn ho ha hos hl
  exact p3

/-- **C29** (`invert`) If the onsets can be determined, the event is skipped if and only if there
are no usable pairs or not more than `skip['num_pairs']`.  The name ends with `_partial` because a
user expects that an event with exactly `skip['num_pairs']` pairs is processed. -/
theorem C29_invert_partial {env : Env} {cfg : InvCfg} {events : List Event}
    {o : Option (List Stream)}
    (hset : Spec.IsSetOrder env.setOrder) (hn : (events.map getEventid).Nodup)
    (hr : Spec.OnsetsReadable cfg events)
    (hw : ∀ evid pat t1 t2, ∃ d, env.getWaveforms evid pat t1 t2 = .ok d)
    (h : selectStreams env cfg events = .ok o) :
    o = none ↔ (Spec.UsablePairs env cfg events).ncard = 0 ∨
      ∃ v, cfg.numPairs = some v ∧ ((Spec.UsablePairs env cfg events).ncard : ℝ) ≤ v := by
  unfold selectStreams at h
  obtain ⟨origins, ho, h⟩ := bind_ok.1 h
  obtain ⟨arrivals, ha, h⟩ := bind_ok.1 h
  simp only at h
  have hkeys : origins.keys = events.map getEventid := by
    simpa [Dict.keys] using (originsOf_spec hn ho (by simp [Dict.keys])).2.1
  have hin : ∀ p ∈ sortPairs origins (distLoop env cfg origins), p.1 ∈ events.map getEventid := by
    intro p hp
    have h1 : p ∈ (distLoop env cfg origins).pairs := (List.mergeSort_perm _ _).mem_iff.1 hp
    unfold distLoop at h1
    rw [(distLoop_aux _ _ (allPairs_nodup (by rw [hkeys]; exact hn) (hset _).1)).1] at h1
    rw [← hkeys]
    exact (mem_allPairs.1 (List.mem_filter.1 h1).1).1
  obtain ⟨os, hos⟩ := onsetLoop_total (origins := origins)
    (distances := (distLoop env cfg origins).distances) hr hn ha _ hin
    { pairs := sortPairs origins (distLoop env cfg origins) }
  obtain ⟨l, hl⟩ := fetchAll_total (cfg := cfg) hw origins (distLoop env cfg origins).distances os
    (boreholes env origins) os.pairs
  obtain ⟨pairs, p1, p2, p3, -, p5, -⟩ := streams_pairs hset hn ho ha hos hl
  rw [ncard_of_list p1 p5, p3.length_eq]
  rw [p3.length_eq] at p2
  rw [hos] at h
  simp only [hl] at h
  by_cases ht : tooFew cfg os.pairs.length
  · rw [if_pos ht] at h
    simp only [pure, Except.pure, Except.ok.injEq] at h
    subst h
    simp only [true_iff]
    rcases ht with ht | ⟨v, hv, hle⟩
    · left; omega
    · right; exact ⟨v, hv, le_trans (by exact_mod_cast p2) hle⟩
  · rw [if_neg ht] at h
    simp only [bind, Except.bind] at h
    by_cases ht' : tooFew cfg (correct env cfg (l.filterMap id)).length
    · rw [if_pos ht'] at h
      simp only [pure, Except.pure, Except.ok.injEq] at h
      subst h
      simp only [true_iff]
      exact ht'
    · rw [if_neg ht'] at h
      simp only [pure, Except.pure, Except.ok.injEq] at h
      subst h
      simp only [reduceCtorEq, false_iff]
      exact ht'

namespace PairsExample

/-- A vertical distance of 3 km, three components of the station `GR.A`. -/
noncomputable def exEnv : Env :=
  { channels := ["GR.A..HHZ"], setOrder := List.dedup
    coords := fun _ _ => some ⟨0, 0, 0, 0⟩, gps := fun _ _ _ _ => some 0
    getWaveforms := fun _ _ t1 t2 => .ok (some
      [⟨"GR.A..HHZ", t1, 1, List.replicate (⌈t2 - t1⌉₊ + 1) 1⟩,
       ⟨"GR.A..HHN", t1, 1, List.replicate (⌈t2 - t1⌉₊ + 1) 1⟩,
       ⟨"GR.A..HHE", t1, 1, List.replicate (⌈t2 - t1⌉₊ + 1) 1⟩])
    numGaps := fun _ => 0, merge := id, response := fun _ => none
    lib := ⟨fun _ => none, id, fun _ _ => id, fun _ _ => 1⟩
    wls := fun _ _ _ => ([], 0), G := fun _ _ _ _ => .ok [], minimize := fun _ => .ok 1
    orc := ⟨fun _ _ => [], fun _ _ => [], fun _ => (0, 0), fun _ _ => 0, fun _ x _ => x⟩ }

/-- Onsets from velocities. -/
noncomputable def exCfg (n : Option ℝ) : InvCfg :=
  { requestWindow := (0, 10), freqs := .cfreqs [1] 1, rho0 := 2700, vp := some 3000, vs := some 1500
    numPairs := n
    wcfg := { freqBand := (0, 0), rho0 := 0, noiseFunc := fun _ => 0, codaWindow := (.one [], .one []) }
    inv := { g0Bounds := none, bBounds := none, v0 := 1500 } }

/-- An event in a depth of 3 km. -/
noncomputable def exEvent : Event := ⟨"ev/1", some ⟨100, 0, 0, some 3000, []⟩, [], none, []⟩

theorem exId : getEventid exEvent = "1" := by decide

theorem exStation : getStation "GR.A..HHZ" = "GR.A" := by decide

theorem exSet : Spec.IsSetOrder exEnv.setOrder := fun l => ⟨List.nodup_dedup l, fun _ => List.mem_dedup⟩

theorem exReadable (n : Option ℝ) : Spec.OnsetsReadable (exCfg n) [exEvent] := by
  refine ⟨?_, ?_, ?_⟩
  · intro vp h
    simp only [exCfg, Option.some.injEq] at h
    rw [← h]; norm_num
  · intro _
    exact ⟨1500, rfl, by norm_num⟩
  · intro h; simp [exCfg] at h

/-- The stream of the pair. -/
noncomputable def exStream : Stream :=
  { event := "1", station := "GR.A", start := 100, sr := 1
    channels := [List.replicate 11 1, List.replicate 11 1, List.replicate 11 1]
    origin := 100, ponset := 101, sonset := 102, distance := 3000 }

theorem exUsable (n : Option ℝ) : Spec.Usable exEnv (exCfg n) [exEvent] exEvent "GR.A" exStream := by
  have hc : ⌈(100 + 10 : ℝ) - (100 + 0)⌉₊ = 10 := by
    rw [show (100 + 10 : ℝ) - (100 + 0) = (10 : ℕ) by norm_num, Nat.ceil_natCast]
  refine ⟨⟨100, 0, 0, some 3000, []⟩, 3000, 101, 102, [⟨"GR.A..HHZ", 100, 1, List.replicate 11 1⟩,
    ⟨"GR.A..HHN", 100, 1, List.replicate 11 1⟩, ⟨"GR.A..HHE", 100, 1, List.replicate 11 1⟩],
    exStream, rfl, ⟨"GR.A..HHZ", by simp [exEnv], exStation⟩, ?_, ?_, ?_, ?_, ?_, ?_, ?_⟩
  · refine ⟨⟨0, 0, 0, 0⟩, 0, 3000, rfl, rfl, rfl, ?_⟩
    simp only [exCfg, Bool.false_eq_true, if_false]
    rw [show ((0:ℝ) ^ 2 + (3000 - 0 + 0) ^ 2) = 3000 ^ 2 by norm_num, sqrt_sq (by norm_num)]
  · intro v h; simp [exCfg] at h
  · right
    exact ⟨rfl, 3000, 1500, rfl, rfl, by norm_num, by norm_num⟩
  · refine ⟨[⟨"GR.A..HHZ", 100 + 0, 1, List.replicate (⌈(100 + 10 : ℝ) - (100 + 0)⌉₊ + 1) 1⟩,
      ⟨"GR.A..HHN", 100 + 0, 1, List.replicate (⌈(100 + 10 : ℝ) - (100 + 0)⌉₊ + 1) 1⟩,
      ⟨"GR.A..HHE", 100 + 0, 1, List.replicate (⌈(100 + 10 : ℝ) - (100 + 0)⌉₊ + 1) 1⟩],
      rfl, by simp, rfl, ?_, rfl, ?_⟩
    · rw [hc]; simp [exEnv]
    · intro tr htr
      simp only [List.mem_cons, List.not_mem_nil, or_false] at htr
      rcases htr with rfl | rfl | rfl <;> norm_num [Spec.Covers, exCfg]
  · refine ⟨rfl, ?_, rfl, rfl, rfl, rfl, rfl, ?_⟩
    · intro tr htr
      simp only [List.head?_cons, Option.some.injEq] at htr
      subst htr
      exact ⟨by rw [exStation]; rfl, rfl, rfl⟩
    · simp only [exStream, Bool.false_eq_true, false_iff]
      rintro ⟨_, _, _, _, c, _, _, hcc, _, hd⟩
      have hc' : (⟨0, 0, 0, 0⟩ : Coord) = c := Option.some.inj hcc
      rw [← hc'] at hd
      norm_num at hd
  · intro _; rfl
  · intro h; simp [exCfg] at h

theorem exPairs (n : Option ℝ) :
    Spec.UsablePairs exEnv (exCfg n) [exEvent] = {("1", "GR.A")} := by
  ext ⟨a, b⟩
  simp only [Spec.UsablePairs, Set.mem_setOf_eq, List.mem_singleton, exists_eq_left,
    Set.mem_singleton_iff, Prod.mk.injEq]
  constructor
  · rintro ⟨h1, st, -, -, -, -, -, -, -, ⟨ch, hch, h2⟩, -⟩
    simp only [exEnv, List.mem_singleton] at hch
    subst hch
    exact ⟨h1.symm.trans exId, h2.symm.trans exStation⟩
  · rintro ⟨rfl, rfl⟩
    exact ⟨exId, _, exUsable n⟩

theorem exSelect (n : Option ℝ) : ∃ o, selectStreams exEnv (exCfg n) [exEvent] = .ok o :=
  selectStreams_total exSet (by simp) (exReadable n) (fun _ _ _ _ => ⟨_, rfl⟩)
    (by intro ev hev; simp only [List.mem_singleton] at hev; subst hev; exact ⟨_, rfl⟩)

theorem exSelect_none : ∃ streams, selectStreams exEnv (exCfg none) [exEvent] = .ok (some streams) := by
  obtain ⟨o, h⟩ := exSelect none
  cases o with
  | some streams => exact ⟨streams, h⟩
  | none =>
    have := (C29_invert_partial exSet (by simp) (exReadable none) (fun _ _ _ _ => ⟨_, rfl⟩) h).1 rfl
    rw [exPairs, Set.ncard_singleton] at this
    simp [exCfg] at this

end PairsExample

open PairsExample in
example : ∃ streams, selectStreams exEnv (exCfg none) [exEvent] = .ok (some streams) ∧
    exStream ∈ streams := by
  obtain ⟨streams, h⟩ := exSelect_none
  exact ⟨streams, h, ((C28_pairs exSet (by simp) h).1 exStream).2
    ⟨exEvent, by simp, "GR.A", exUsable none⟩⟩

open PairsExample in
/-- **C29** (counterexample): with `skip['num_pairs'] = 1` an event with one usable pair is skipped
by `invert`. -/
theorem C29_counterexample : ∃ (env : Env) (cfg : InvCfg) (events : List Event),
    cfg.numPairs = some 1 ∧ (Spec.UsablePairs env cfg events).ncard = 1 ∧
    selectStreams env cfg events = .ok none := by
  refine ⟨exEnv, exCfg (some 1), [exEvent], rfl, by rw [exPairs, Set.ncard_singleton], ?_⟩
  obtain ⟨o, h⟩ := exSelect (some 1)
  rw [h, (C29_invert_partial exSet (by simp) (exReadable _) (fun _ _ _ _ => ⟨_, rfl⟩) h).2 ?_]
  right
  exact ⟨1, rfl, by rw [exPairs, Set.ncard_singleton]; norm_num⟩

end Qopen
