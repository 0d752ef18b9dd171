import Verif.Props.Accuracy
import Verif.Props.FreeSurface
import Verif.Props.SOnset
import Verif.Props.Dump
import Verif.Lemmas.NoException

/-!
# The command `source` treats every event for itself (C138)
-/

namespace Qopen

open Real Spec Util Tr Energy InvertFb Window Catalog Freqs Source Invert Wrapper

/-! ## One band -/

namespace InvertFb

section

variable {G : Greens} {cfg : Cfg} {ps : List PairData} {gs : List (List ℝ × ℝ)} {g0 : ℝ}

/-- Sum over the samples of a pair. -/
noncomputable def pairSum (f : Sample → ℝ) (bulk : Bool) (p : PairData) (g : List ℝ × ℝ) : ℝ :=
  ((List.zipWith (fun te x => (⟨p.event, p.station, te.1, te.2, x, 1⟩ : Sample)) p.coda g.1).map f).sum +
    if bulk then f ⟨p.event, p.station, p.bulkTime, p.bulkEnergy, g.2, p.bulkWeight⟩ else 0

theorem zipWith_filter_event (p : PairData) (l : List ℝ) (e : String) :
    (List.zipWith (fun te x => (⟨p.event, p.station, te.1, te.2, x, 1⟩ : Sample)) p.coda l).filter
      (fun s => s.event = e) = if p.event = e then
        List.zipWith (fun te x => (⟨p.event, p.station, te.1, te.2, x, 1⟩ : Sample)) p.coda l else [] := by
  have h : ∀ s ∈ List.zipWith (fun te x => (⟨p.event, p.station, te.1, te.2, x, 1⟩ : Sample)) p.coda l,
      s.event = p.event := by
    intro s hs
    rw [List.zipWith_eq_zipWith_take_min] at hs
    obtain ⟨i, hi, rfl⟩ := List.getElem_of_mem hs
    simp
  split_ifs with he
  · rw [List.filter_eq_self]
    intro s hs
    simp [h s hs, he]
  · rw [List.filter_eq_nil_iff]
    intro s hs
    simp [h s hs, he]

/-- The sum over the samples of an event is the sum over its pairs. -/
theorem event_sum (f : Sample → ℝ) (bulk : Bool) (e : String) (ps : List PairData)
    (gs : List (List ℝ × ℝ)) :
    (((samplesOf bulk ps gs).filter (fun s => s.event = e)).map f).sum =
      (((ps.zip gs).filter (fun q => q.1.event = e)).map (fun q => pairSum f bulk q.1 q.2)).sum := by
  unfold samplesOf
  rw [List.filter_append, List.map_append, List.sum_append]
  induction ps.zip gs with
  | nil => cases bulk <;> simp
  | cons q l ih =>
    obtain ⟨p, g⟩ := q
    simp only [List.flatMap_cons, List.filter_append, zipWith_filter_event, List.map_append, List.sum_append,
      List.map_cons, List.filter_cons] at ih ⊢
    by_cases he : p.event = e
    · simp only [he, if_true, decide_true, List.map_cons, List.sum_cons]
      rw [← ih]
      cases bulk
      · simp [pairSum, he]
      · simp [pairSum, he]
        ring
    · simp only [he, if_false, decide_false, Bool.false_eq_true, List.map_nil, List.sum_nil, zero_add]
      rw [← ih]
      cases bulk <;> simp [he]

/-- Green's functions of a pair. -/
def GreensAt (G : Greens) (cfg : Cfg) (g0 : ℝ) (p : PairData) (g : List ℝ × ℝ) : Prop :=
  gsmooth G cfg p.distance (p.coda.map Prod.fst) g0 = .ok g.1 ∧ g.1.length = p.coda.length ∧
    (cfg.bulk = true → gbulk G cfg p.distance (p.bulkStart, p.bulkEnd) g0 = .ok g.2)

theorem pairSum_unique (f : Sample → ℝ) {p : PairData} {g g' : List ℝ × ℝ} (h : GreensAt G cfg g0 p g)
    (h' : GreensAt G cfg g0 p g') : pairSum f cfg.bulk p g = pairSum f cfg.bulk p g' := by
  have e1 : g.1 = g'.1 := by
    have := h.1
    rw [h'.1] at this
    exact (Except.ok.inj this).symm
  unfold pairSum
  rw [e1]
  by_cases hb : cfg.bulk = true
  · have e2 : g.2 = g'.2 := by
      have := h.2.2 hb
      rw [h'.2.2 hb] at this
      exact (Except.ok.inj this).symm
    rw [e2]
  · simp [hb]

open Classical in
/-- Sum over the samples of a pair with its Green's function. -/
noncomputable def pairValue (G : Greens) (cfg : Cfg) (g0 : ℝ) (f : Sample → ℝ) (p : PairData) : ℝ :=
  if h : ∃ g, GreensAt G cfg g0 p g then pairSum f cfg.bulk p (Classical.choose h) else 0

theorem event_sum_pairs (f : Sample → ℝ) (e : String) (h : IsGreens G cfg g0 ps gs) :
    (((samplesOf cfg.bulk ps gs).filter (fun s => s.event = e)).map f).sum =
      ((ps.filter (fun p => p.event = e)).map (pairValue G cfg g0 f)).sum := by
  rw [event_sum]
  induction h with
  | nil => rfl
  | @cons p g ps gs hp _ ih =>
    have hp : GreensAt G cfg g0 p g := hp
    have hv : pairSum f cfg.bulk p g = pairValue G cfg g0 f p := by
      unfold pairValue
      rw [dif_pos ⟨g, hp⟩]
      exact pairSum_unique f hp (Classical.choose_spec ⟨g, hp⟩)
    simp only [List.zip_cons_cons, List.filter_cons]
    by_cases he : p.event = e
    · simp only [he, decide_true, if_true, List.map_cons, List.sum_cons, ih, hv]
    · simp only [he, decide_false, Bool.false_eq_true, if_false, ih]

end

end InvertFb

section

variable {wls : List ℝ → List (List ℝ) → List ℝ → List ℝ × ℝ} {rank : List ℝ → List (List ℝ) → ℕ}
  {G : Greens} {minimize : (ℝ → Py (WithTop ℝ)) → Py ℝ} {cfg : InvertFb.Cfg} {ps ps' : List PairData}
  {res res' : BandResult} {e : String}

/-- **C138**: one band.  With given attenuation and given site responses the source energy of an event is
the same in two inversions which have the pairs of this event in common. -/
theorem C138_band (hwls : IsWls rank wls) (hG : OneValuePerTime G)
    (hin : GoodInput cfg ps) (hin' : GoodInput cfg ps') (hc : cfg.codaNorm = false) (hfx : cfg.fix = true)
    (hfs : cfg.fixSites = true) (href : ∀ s r, cfg.fixSitesParams.get? s = some r → 0 < r)
    (he : ∀ p : PairData, p.event = e → (p ∈ ps ↔ p ∈ ps')) (hp : ∃ p ∈ ps, p.event = e)
    (h : solveBand wls G minimize cfg (bandOf cfg.bulk ps) = .ok (some res))
    (h' : solveBand wls G minimize cfg (bandOf cfg.bulk ps') = .ok (some res')) :
    ∃ W W' w, res.W = some W ∧ res'.W = some W' ∧ W.get? e = some w ∧ W'.get? e = some w := by
  obtain ⟨g0, b, W, gs, h1, h2, h3, h4⟩ :=
    C19_source_energy_is_weighted_mean hwls hG hin hc hfx hfs href h
  obtain ⟨-, -, W1, -, -, -, -, i4, i5, i6, i7, -, -⟩ :=
    C19_source_uses_reference_responses hwls hG hin hc hfx hfs href h
  obtain ⟨g0', b', W', gs', h1', h2', h3', h4'⟩ :=
    C19_source_energy_is_weighted_mean hwls hG hin' hc hfx hfs href h'
  obtain ⟨-, -, W1', -, -, -, -, i4', i5', i6', i7', -, -⟩ :=
    C19_source_uses_reference_responses hwls hG hin' hc hfx hfs href h'
  rw [h3] at i4
  obtain rfl := Option.some.inj i4
  rw [h3'] at i4'
  obtain rfl := Option.some.inj i4'
  rw [h1, Prod.mk.injEq, Option.some.injEq, Option.some.injEq] at h1'
  obtain ⟨rfl, rfl⟩ := h1'
  obtain ⟨p, hp, rfl⟩ := hp
  have hp' : p ∈ ps' := (he p rfl).1 hp
  have hperm : (ps.filter (fun q => q.event = p.event)).Perm (ps'.filter (fun q => q.event = p.event)) := by
    refine (List.perm_ext_iff_of_nodup (hin.pairs.of_map.filter _) (hin'.pairs.of_map.filter _)).2 ?_
    intro q
    simp only [List.mem_filter, decide_eq_true_eq]
    exact ⟨fun x => ⟨(he q x.2).1 x.1, x.2⟩, fun x => ⟨(he q x.2).2 x.1, x.2⟩⟩
  obtain ⟨c1, c2⟩ := h4 p hp
  obtain ⟨c1', c2'⟩ := h4' p hp'
  rw [event_sum_pairs _ _ h2, event_sum_pairs _ _ h2] at c1
  rw [event_sum_pairs _ _ h2'] at c1' c2'
  rw [event_sum_pairs _ _ h2'] at c1'
  rw [← (hperm.map _).sum_eq, ← (hperm.map _).sum_eq, ← c1] at c1'
  rw [← (hperm.map _).sum_eq] at c2'
  have hk : p.event ∈ W.keys := (i6 _).2 ⟨p, hp, rfl⟩
  have hk' : p.event ∈ W'.keys := (i6' _).2 ⟨p, hp', rfl⟩
  have hlog := mul_right_cancel₀ c2'.ne' c1'
  have hv : valueOf W p.event = valueOf W' p.event :=
    (log_injOn_pos (i7' _ hk') (i7 _ hk) hlog).symm
  obtain ⟨w, hw⟩ := Option.isSome_iff_exists.1 ((Dict.get?_isSome _ _).2 hk)
  obtain ⟨w', hw'⟩ := Option.isSome_iff_exists.1 ((Dict.get?_isSome _ _).2 hk')
  have e1 : valueOf W p.event = w := by rw [valueOf, hw]; rfl
  have e2 : valueOf W' p.event = w' := by rw [valueOf, hw']; rfl
  refine ⟨W, W', w, h3, h3', hw, ?_⟩
  rw [hw', ← e2, ← hv, e1]

end


/-! ## Which records, traces and windows -/

namespace Invert

theorem boreholes_iff {env : Env} {origins : Dict String Origin} {events : List Event}
    (hset : IsSetOrder env.setOrder) (hn : (events.map getEventid).Nodup)
    (ho : originsOf events = .ok origins) (sta : String) :
    boreholes env origins sta = true ↔ InBorehole env events sta := by
  have horig : ∀ o, o ∈ origins.map Prod.snd ↔ ∃ ev ∈ events, getOrigin ev = .ok o := by
    obtain ⟨o1, o2, -⟩ := originsOf_spec hn ho (by simp [Dict.keys])
    have hkeys : origins.keys = events.map getEventid := by simpa [Dict.keys] using o2
    intro o
    constructor
    · intro hm0
      obtain ⟨⟨k, o'⟩, hm, rfl⟩ := List.mem_map.1 hm0
      have hk : k ∈ origins.keys := List.mem_map.2 ⟨(k, o'), hm, rfl⟩
      rw [hkeys] at hk
      obtain ⟨ev, hev, rfl⟩ := List.mem_map.1 hk
      obtain ⟨o'', h1, h2⟩ := o1 ev hev
      have := Dict.get?_of_mem (d := origins) (by unfold Dict.WF; rw [hkeys]; exact hn) hm
      rw [h2] at this
      cases this
      exact ⟨ev, hev, h1⟩
    · rintro ⟨ev, hev, he⟩
      obtain ⟨o', h1, h2⟩ := o1 ev hev
      rw [he] at h1
      cases h1
      exact List.mem_map.2 ⟨_, Dict.mem_of_get? h2, rfl⟩
  unfold boreholes Spec.InBorehole
  simp only [decide_eq_true_eq]
  rw [show stationsOf env = env.setOrder _ from rfl, (hset _).2, List.mem_map]
  constructor
  · rintro ⟨h, o, ho, c, hc, ⟨d, hd⟩, hdeep⟩
    obtain ⟨ev, hev, he⟩ := (horig o).1 ho
    exact ⟨h, ev, hev, o, c, d, he, hc, hd, hdeep⟩
  · rintro ⟨h, ev, hev, o, c, d, he, hc, hd, hdeep⟩
    exact ⟨h, o, (horig o).2 ⟨ev, hev, he⟩, c, hc, ⟨d, hd⟩, hdeep⟩

theorem usable_event {env : Env} {cfg : InvCfg} {events : List Event} {ev : Event} {sta : String} {st : Stream}
    (h : Usable env cfg events ev sta st) : st.event = getEventid ev := by
  obtain ⟨ori, d, p, s, traces, st0, -, -, -, -, -, -, h1, h2, h3⟩ := h
  cases hr : cfg.removeResponse with
  | false => rw [h2 hr]; exact h1.1
  | true =>
    obtain ⟨ch, -, e⟩ := h3 hr
    rw [e]; exact h1.1

/-- Records of some events are the same with and without others. -/
theorem streams_common {env : Env} {cfg : InvCfg} {events events' : List Event} {streams streams' : List Stream}
    (hset : IsSetOrder env.setOrder) (hn : (events.map getEventid).Nodup)
    (hn' : (events'.map getEventid).Nodup) (hsub : ∀ ev ∈ events, ev ∈ events')
    (hdeep : ∀ sta, InBorehole env events sta ↔ InBorehole env events' sta)
    (h : StreamsOf env cfg events streams) (h' : StreamsOf env cfg events' streams') (s : Stream) :
    s ∈ streams ↔ s ∈ streams' ∧ s.event ∈ events.map getEventid := by
  obtain ⟨sel, ori, h1, h2, rfl⟩ := h
  obtain ⟨sel', ori', h1', h2', rfl⟩ := h'
  have hb : boreholes env ori = boreholes env ori' := by
    funext sta
    rw [Bool.eq_iff_iff, boreholes_iff hset hn h2, boreholes_iff hset hn' h2', hdeep]
  have hu : ∀ ev sta st, Usable env cfg events ev sta st ↔ Usable env cfg events' ev sta st := by
    intro ev sta st
    unfold Usable
    simp only [hdeep]
  have hm := (C28_pairs hset hn h1).1
  have hm' := (C28_pairs hset hn' h1').1
  have hsel : ∀ st, st ∈ sel ↔ st ∈ sel' ∧ st.event ∈ events.map getEventid := by
    intro st
    rw [hm, hm']
    constructor
    · rintro ⟨ev, hev, sta, hus⟩
      exact ⟨⟨ev, hsub ev hev, sta, (hu _ _ _).1 hus⟩, List.mem_map.2 ⟨ev, hev, (usable_event hus).symm⟩⟩
    · rintro ⟨⟨ev', hev', sta, hus⟩, hid⟩
      obtain ⟨ev, hev, he⟩ := List.mem_map.1 hid
      rw [usable_event hus] at he
      have : ev = ev' := List.inj_on_of_nodup_map hn' (hsub ev hev) hev' he
      subst this
      exact ⟨ev, hev, sta, (hu _ _ _).2 hus⟩
  unfold ignoreNetworks
  split_ifs
  · simp only [List.mem_map, hb]
    constructor
    · rintro ⟨a, ha, rfl⟩
      exact ⟨⟨a, ((hsel a).1 ha).1, rfl⟩, List.mem_map.1 ((hsel a).1 ha).2⟩
    · rintro ⟨⟨a, ha, rfl⟩, hid⟩
      exact ⟨a, (hsel a).2 ⟨ha, List.mem_map.2 hid⟩, rfl⟩
  · exact hsel s

end Invert

namespace Window

theorem mem_energies {lib : Lib} {cfg : WCfg} {streams : List Stream} {trs : List Trace}
    (h : energies lib cfg streams = .ok trs) (tr : Trace) :
    tr ∈ trs ↔ ∃ s ∈ streams, tr.event = s.event ∧ ∃ t, Window.energyOf lib cfg s = .ok (some t) ∧
      noiseStep lib cfg t = .ok (some tr) := by
  unfold energies at h
  obtain ⟨es, h1, h⟩ := bind_ok.1 h
  obtain ⟨es', h2, h⟩ := bind_ok.1 h
  simp only [pure, Except.pure, Except.ok.injEq] at h
  subst h
  rw [mapExc_ok] at h1 h2
  simp only [List.mem_filterMap, id]
  constructor
  · rintro ⟨o, ho, rfl⟩
    obtain ⟨t, ht, hts⟩ := mem_forall₂_right h2 ho
    obtain ⟨o', ho', e⟩ := List.mem_filterMap.1 ht
    simp only [id] at e
    subst e
    obtain ⟨s, hs, hss⟩ := mem_forall₂_right h1 ho'
    refine ⟨s, hs, ?_, t, hss, hts⟩
    have e1 := noiseStep_pair hts
    have e2 := (energyOf_meta hss).2.1
    have := e1.trans e2
    exact congrArg Prod.fst this
  · rintro ⟨s, hs, -, t, h3, h4⟩
    obtain ⟨i, hi⟩ := List.mem_iff_getElem?.1 hs
    obtain ⟨o, ho, ho'⟩ := forall₂_getElem? h1 hi
    rw [h3] at ho'
    obtain rfl := Except.ok.inj ho'
    have ht : t ∈ es.filterMap id := List.mem_filterMap.2 ⟨_, List.mem_of_getElem? ho, rfl⟩
    obtain ⟨j, hj⟩ := List.mem_iff_getElem?.1 ht
    obtain ⟨o, ho, ho'⟩ := forall₂_getElem? h2 hj
    rw [h4] at ho'
    obtain rfl := Except.ok.inj ho'
    exact ⟨_, List.mem_of_getElem? ho, rfl⟩

theorem mem_accepted {lib : Lib} {cfg : WCfg} {streams : List Stream} {v0 : ℝ} {ps : List PairData}
    (h : AcceptedPairs lib cfg streams v0 ps) (p : PairData) :
    p ∈ ps ↔ ∃ s ∈ streams, p.event = s.event ∧ ∃ t tr, Window.energyOf lib cfg s = .ok (some t) ∧
      noiseStep lib cfg t = .ok (some tr) ∧ Accepts lib cfg v0 tr p := by
  obtain ⟨trs, sel, h1, h2, h3, h4, h5, rfl⟩ := h
  constructor
  · intro hp
    obtain ⟨q, hq, rfl⟩ := List.mem_map.1 hp
    obtain ⟨s, hs, he, t, a, b⟩ := (mem_energies h1 q.1).1 (h3.subset (List.mem_map.2 ⟨q, hq, rfl⟩))
    exact ⟨s, hs, (h4 q hq).1.trans he, t, q.1, a, b, h4 q hq⟩
  · rintro ⟨s, hs, he, t, tr, a, b, c⟩
    have htr : tr ∈ trs := (mem_energies h1 tr).2 ⟨s, hs, c.1.symm.trans he, t, a, b⟩
    by_cases hin : tr ∈ sel.map Prod.fst
    · obtain ⟨q, hq, rfl⟩ := List.mem_map.1 hin
      rw [accepts_unique c (h4 q hq)]
      exact List.mem_map.2 ⟨q, hq, rfl⟩
    · exact absurd c (h5 tr htr hin p)

/-- With a given velocity a band with records is skipped exactly if too few pairs pass the checks. -/
theorem invertFb_given {wls : List ℝ → List (List ℝ) → List ℝ → List ℝ × ℝ} {G : Greens}
    {minimize : (ℝ → Py (WithTop ℝ)) → Py ℝ} {lib : Lib} {wcfg : WCfg} {inv : InvertFb.Cfg}
    {streams : List Stream} {o : Option BandResult} {v : ℝ} (hs : streams ≠ [])
    (hnd : (streams.map (fun s => (s.event, s.station))).Nodup) (hv : wcfg.v0 = some v)
    (h : invertFb lib wls G minimize wcfg inv streams = .ok o) :
    ∃ ps, AcceptedPairs lib wcfg streams v ps ∧
      ((o = none ∧ (ps = [] ∨ (ps.length : ℝ) < wcfg.numPairs)) ∨
        (ps ≠ [] ∧ wcfg.numPairs ≤ (ps.length : ℝ) ∧
          solveBand wls G minimize (fullCfg wcfg inv v) (bandOf wcfg.bulkWindow.isSome ps) = .ok o)) := by
  have h0 := h
  unfold invertFb at h
  rw [if_neg hs] at h
  obtain ⟨trs, htrs, h⟩ := bind_ok.1 h
  have hvel : velocity wcfg trs = some v := by unfold velocity; rw [hv]
  rw [hvel] at h
  obtain ⟨st, hst, h⟩ := bind_ok.1 h
  have hnd' : (trs.map Trace.pair).Nodup := hnd.sublist (energies_pairs htrs)
  obtain ⟨sel, b1, b2, b3, c1, c2, c3, -⟩ := C18_windows_belong_to_pairs hnd' hst
  have e : st.Ecoda.length = (sel.map Prod.snd).length := by rw [c3]; simp [bandOf]
  have hacc : AcceptedPairs lib wcfg streams v (sel.map Prod.snd) := ⟨trs, sel, htrs, hvel, b1, b2, b3, rfl⟩
  refine ⟨sel.map Prod.snd, hacc, ?_⟩
  by_cases hc : st.Ecoda.length = 0 ∨ (st.Ecoda.length : ℝ) < wcfg.numPairs
  · rw [if_pos hc] at h
    left
    refine ⟨(Except.ok.inj h).symm, ?_⟩
    rw [e] at hc
    exact hc.imp_left List.length_eq_zero_iff.1
  · right
    obtain ⟨ps, h1, h2⟩ := invertFb_accepted (wls := wls) (G := G) (minimize := minimize)
      (inv := inv) hnd htrs hvel hst hc
    obtain ⟨-, rfl⟩ := acceptedPairs_unique hnd h1 hacc
    rw [e, not_or, not_lt] at hc
    exact ⟨fun hn => hc.1 (by rw [hn]; rfl), hc.2, h2 ▸ h0⟩

end Window

/-! ## The inversion -/

namespace Spec

/-- Data for the command `source`: no pair twice, positive weights of the data and positive given site
responses. -/
structure SourceData (env : Env) (cfg : InvCfg) (bands : Dict ℝ (ℝ × ℝ)) (events : List Event) : Prop where
  pairs : ∀ streams, StreamsOf env cfg events streams →
    (streams.map (fun s => (s.event, s.station))).Nodup
  windows : ∀ i c ps, WindowsOf env cfg bands events i c ps → ps ≠ [] →
    GoodInput c ps ∧ (∀ s r, c.fixSitesParams.get? s = some r → 0 < r)

end Spec

namespace Invert

/-- A band with a result has a usable attenuation. -/
theorem not_unusable {wls : List ℝ → List (List ℝ) → List ℝ → List ℝ × ℝ} {G : Greens}
    {minimize : (ℝ → Py (WithTop ℝ)) → Py ℝ} {c : InvertFb.Cfg} {bd : Band} {r : BandResult}
    (hfx : c.fix = true) (h : solveBand wls G minimize c bd = .ok (some r)) : ¬ Unusable c := by
  obtain ⟨f, g0, bFix, hf, hrep, hp⟩ := solveBand_ok h
  rw [if_pos hfx] at hp
  obtain ⟨v1, v2⟩ := FigBand.lstsq_values hf
  have v2 := v2 hfx
  have hb := (report_some hrep).1
  rw [v1] at hb
  rw [v2] at hp
  unfold Unusable
  rw [hp.1]
  rintro (h | h | ⟨g, b, h, h'⟩)
  · simp at h
  · simp at h
  · simp only [Prod.mk.injEq, Option.some.injEq] at h
    obtain ⟨rfl, rfl⟩ := h
    apply hb
    unfold nearBounds
    simpa only [not_and_or, not_lt, Prod.exists] using h'

/-- A band without result but with enough pairs has an unusable attenuation. -/
theorem unusable_of_none {wls : List ℝ → List (List ℝ) → List ℝ → List ℝ × ℝ} {G : Greens}
    {minimize : (ℝ → Py (WithTop ℝ)) → Py ℝ} {c : InvertFb.Cfg} {bd : Band}
    (hfx : c.fix = true) (h : solveBand wls G minimize c bd = .ok none) : Unusable c := by
  rcases C17_suppressed_iff.1 h with ⟨-, h | h⟩ | ⟨g0, b, r, a1, -, -, a4⟩
  · exact Or.inl h
  · exact Or.inr (Or.inl h)
  · unfold EvaluatedAt at a1
    rw [hfx] at a1
    exact Or.inr (Or.inr ⟨g0, b, by simpa using a1, a4⟩)

/-- Energies of the events in a band and the pairs they come from. -/
theorem source_band {rank : List ℝ → List (List ℝ) → ℕ} {env : Env} {cfg : InvCfg} {cpus : ℕ}
    {schedule : List ℕ} {events : List Event} {bands : Dict ℝ (ℝ × ℝ)} {res : InvRes} {v : ℝ}
    (hwls : IsWls rank env.wls) (hG : OneValuePerTime env.G)
    (hn : (events.map getEventid).Nodup) (hb : getFreqs cfg.freqs = .ok bands)
    (hj : OwnCopies cfg bands cpus schedule) (hc : cfg.codaNorm = none) (hcmd : cfg.cmd = .source)
    (hv : cfg.wcfg.v0 = some v) (hx : SourceData env cfg bands events)
    (h : invert env cfg cpus schedule events = .ok (some res)) :
    ∃ args streams, bandArgs cfg bands = .ok args ∧ StreamsOf env cfg events streams ∧
      (∀ id (e : EvRes), (id, e) ∈ res.events → e.W.length = bands.length) ∧
      ∀ (i : ℕ) band, (bands.map Prod.snd)[i]? = some band → (streams ≠ [] →
        ∃ ps o, AcceptedPairs env.lib (bandWCfg cfg args band) streams v ps ∧
          (o = none → ∀ id (e : EvRes), (id, e) ∈ res.events → e.W[i]? = some Cell.none) ∧
          ((o = none ∧ (ps = [] ∨ (ps.length : ℝ) < cfg.numPairs.getD 1)) ∨
            (ps ≠ [] ∧ cfg.numPairs.getD 1 ≤ (ps.length : ℝ) ∧
              solveBand env.wls env.G env.minimize (bandCfg cfg args band v)
                (bandOf (bandCfg cfg args band v).bulk ps) = .ok o)) ∧
          ∀ r, o = some r → ∃ W, r.W = some W ∧ (∀ id, id ∈ W.keys ↔ ∃ p ∈ ps, p.event = id) ∧
            ∀ id (e : EvRes), (id, e) ∈ res.events → (∀ w, W.get? id = some w → e.W[i]? = some (Cell.num w)) ∧
              (W.get? id = none → e.W[i]? = some Cell.none)) ∧
        (streams = [] → ∀ id (e : EvRes), (id, e) ∈ res.events → e.W[i]? = some Cell.none) ∧
        (bandCfg cfg args band v).codaNorm = false ∧ (bandCfg cfg args band v).fix = true ∧
        (bandCfg cfg args band v).fixSites = true := by
  obtain ⟨stations, rlist, -, T', args, selected, origins, streams, h3, h4, h5, h6, h7⟩ :=
    tables_streams hn hb hj.1 h
  have hstr : StreamsOf env cfg events streams := ⟨selected, origins, h4, h5, h6⟩
  have hrun := mapExc_ok.1 (hj.run h7)
  refine ⟨args, streams, h3, hstr, ?_, ?_⟩
  · intro id e hm
    have e1 := ((T'.events hc).2 id e hm).length_eq
    have e2 := hrun.length_eq
    rw [List.length_map] at e2
    omega
  intro i band hi
  obtain ⟨o, ho, hband⟩ := forall₂_getElem? hrun hi
  have hcall := runBand_call h3 hband
  have hW' := (T'.events hc).2
  have hfl := bandArgs_flags h3
  have hempty : o = none → ∀ id (e : EvRes), (id, e) ∈ res.events → e.W[i]? = some Cell.none := by
    rintro rfl id e hm
    obtain ⟨y, hy, e⟩ := forall₂_getElem? (hW' id e hm) ho
    rw [hy, e]
  have hcn : (bandCfg cfg args band v).codaNorm = false := by
    simp [bandCfg, fullCfg, bandWCfg, hc]
  have hfs : (bandCfg cfg args band v).fixSites = true := by
    have : args.sites ≠ false := fun e => (hfl.2.1 e) hcmd
    simp only [bandCfg, fullCfg, bandWCfg]
    simpa using this
  have hfx : (bandCfg cfg args band v).fix = true := by
    have : args.fix ≠ false := fun e => by rw [hfl.1.1 e] at hcmd; simp at hcmd
    simp only [bandCfg, fullCfg]
    simpa using this
  refine ⟨?_, ?_, hcn, hfx, hfs⟩
  · intro hne
    obtain ⟨ps, hps, hcase⟩ := invertFb_given (wcfg := bandWCfg cfg args band) hne (hx.pairs _ hstr) hv hcall
    refine ⟨ps, o, hps, hempty, hcase, ?_⟩
    rintro r rfl
    rcases hcase with ⟨h, -⟩ | ⟨hpne, -, hsol⟩
    · simp at h
    · have hwin : WindowsOf env cfg bands events i (bandCfg cfg args band v) ps :=
        ⟨args, streams, band, v, h3, hstr, hi, hps, rfl⟩
      obtain ⟨hgood, href⟩ := hx.windows i _ ps hwin hpne
      obtain ⟨-, -, W, -, -, -, -, i4, i5, i6, -⟩ :=
        C19_source_uses_reference_responses (cfg := bandCfg cfg args band v) hwls hG hgood hcn hfx hfs href hsol
      refine ⟨W, i4, i6, ?_⟩
      intro id e hm
      obtain ⟨y, hy, d, e1, e2, e3⟩ := forall₂_getElem? (hW' id e hm) ho
      change r.W = some d at e1
      rw [i4] at e1
      obtain rfl := Option.some.inj e1
      constructor
      · intro w hw
        rw [hy, e2 _ (Dict.mem_of_get? hw)]
      · intro hw
        rw [hy, e3 (fun hk => by
          have := (Dict.get?_isSome _ _).2 hk
          rw [hw] at this
          simp at this)]
  · intro hs
    apply hempty
    subst hs
    unfold invertFb at hcall
    rw [if_pos rfl] at hcall
    exact (Except.ok.inj hcall).symm

/-- A given velocity is reported. -/
theorem given_velocity {env : Env} {cfg : InvCfg} {cpus : ℕ} {schedule : List ℕ} {events : List Event}
    {bands : Dict ℝ (ℝ × ℝ)} {res : InvRes} {v : ℝ} (hn : (events.map getEventid).Nodup)
    (hb : getFreqs cfg.freqs = .ok bands) (hj : OwnCopies cfg bands cpus schedule)
    (hp : ∀ streams, StreamsOf env cfg events streams → (streams.map (fun s => (s.event, s.station))).Nodup)
    (hv : cfg.wcfg.v0 = some v) (h : invert env cfg cpus schedule events = .ok (some res)) :
    res.v0 = some v ∧ res.freq = bands.map Prod.fst := by
  obtain ⟨stations, rlist, -, T', args, selected, origins, streams, h3, h4, h5, h6, h7⟩ :=
    tables_streams hn hb hj.1 h
  have hstr : StreamsOf env cfg events streams := ⟨selected, origins, h4, h5, h6⟩
  have hrun := mapExc_ok.1 (hj.run h7)
  refine ⟨?_, T'.freq⟩
  obtain ⟨bef, r, aft, e, -, hrv⟩ := T'.v0
  have hm : some r ∈ rlist := by rw [e]; simp
  obtain ⟨band, -, hband⟩ := mem_forall₂_right hrun hm
  have hcall := runBand_call h3 hband
  have hne : streams ≠ [] := by
    rintro hs
    subst hs
    unfold invertFb at hcall
    rw [if_pos rfl] at hcall
    simp at hcall
  obtain ⟨ps, -, ⟨hc, -⟩ | ⟨-, -, hsol⟩⟩ :=
    invertFb_given (wcfg := bandWCfg cfg args band) hne (hp _ hstr) hv hcall
  · simp at hc
  · obtain ⟨f, g0, bFix, -, hrep, -⟩ := solveBand_ok hsol
    rw [hrv, (report_some hrep).2.2.2.2.2.2.2]
    rfl

/-- A source energy is a number or missing. -/
theorem source_cells {rank : List ℝ → List (List ℝ) → ℕ} {env : Env} {cfg : InvCfg} {cpus : ℕ}
    {schedule : List ℕ} {events : List Event} {bands : Dict ℝ (ℝ × ℝ)} {res : InvRes} {v : ℝ}
    (hwls : IsWls rank env.wls) (hG : OneValuePerTime env.G)
    (hn : (events.map getEventid).Nodup) (hb : getFreqs cfg.freqs = .ok bands)
    (hj : OwnCopies cfg bands cpus schedule) (hc : cfg.codaNorm = none) (hcmd : cfg.cmd = .source)
    (hv : cfg.wcfg.v0 = some v) (hx : SourceData env cfg bands events)
    (h : invert env cfg cpus schedule events = .ok (some res)) {id : String} {e : EvRes}
    (hm : (id, e) ∈ res.events) : e.W.length = bands.length ∧
      ∀ (i : ℕ) c, e.W[i]? = some c → c = Cell.none ∨ ∃ x, c = Cell.num x := by
  obtain ⟨args, streams, h1, h2, hlen, h3⟩ := source_band hwls hG hn hb hj hc hcmd hv hx h
  refine ⟨hlen _ _ hm, ?_⟩
  intro i c hi
  have hl : i < (bands.map Prod.snd).length := by
    rw [List.length_map, ← hlen _ _ hm]
    exact (List.getElem?_eq_some_iff.1 hi).1
  obtain ⟨s1, s2, -⟩ := h3 i _ (List.getElem?_eq_getElem hl)
  by_cases hs : streams = []
  · rw [s2 hs _ _ hm] at hi
    exact Or.inl (Option.some.inj hi).symm
  · obtain ⟨ps, o, -, a2, -, a4⟩ := s1 hs
    cases o with
    | none =>
      rw [a2 rfl _ _ hm] at hi
      exact Or.inl (Option.some.inj hi).symm
    | some r =>
      obtain ⟨W, -, -, c3⟩ := a4 r rfl
      obtain ⟨d1, d2⟩ := c3 _ _ hm
      cases hw : W.get? id with
      | none =>
        rw [d2 hw] at hi
        exact Or.inl (Option.some.inj hi).symm
      | some w =>
        rw [d1 w hw] at hi
        exact Or.inr ⟨w, (Option.some.inj hi).symm⟩

end Invert

/-- **C138**: other events.  Let `events` be inverted with the command `source` and a given velocity, and the
same events together with others (`events'`), with the same boreholes.  Each source energy of the first
inversion is found in the second.  An energy of one of the events in the second inversion is found in the
first one, or pairs of the event passed the checks in the first one as well, but too few pairs in total
(less than `num_pairs`) for this band. -/
theorem C138_other_events {rank : List ℝ → List (List ℝ) → ℕ} {env : Env} {cfg : InvCfg} {cpus cpus' : ℕ}
    {schedule schedule' : List ℕ} {events events' : List Event} {bands : Dict ℝ (ℝ × ℝ)} {res res' : InvRes}
    {v : ℝ} (hset : IsSetOrder env.setOrder) (hwls : IsWls rank env.wls) (hG : OneValuePerTime env.G)
    (hn : (events.map getEventid).Nodup) (hn' : (events'.map getEventid).Nodup)
    (hb : getFreqs cfg.freqs = .ok bands) (hj : OwnCopies cfg bands cpus schedule)
    (hj' : OwnCopies cfg bands cpus' schedule') (hc : cfg.codaNorm = none) (hcmd : cfg.cmd = .source)
    (hv : cfg.wcfg.v0 = some v) (hsub : ∀ ev ∈ events, ev ∈ events')
    (hdeep : ∀ sta, InBorehole env events sta ↔ InBorehole env events' sta)
    (hx : SourceData env cfg bands events) (hx' : SourceData env cfg bands events')
    (h : invert env cfg cpus schedule events = .ok (some res))
    (h' : invert env cfg cpus' schedule' events' = .ok (some res')) {ev : Event} (hev : ev ∈ events) :
    ∃ e e', res.events.get? (getEventid ev) = some e ∧ res'.events.get? (getEventid ev) = some e' ∧
      (∀ (i : ℕ) x, e.W[i]? = some (Cell.num x) → e'.W[i]? = some (Cell.num x)) ∧
      ∀ (i : ℕ) x, e'.W[i]? = some (Cell.num x) → e.W[i]? = some (Cell.num x) ∨ (e.W[i]? = some Cell.none ∧
        ∃ c ps, WindowsOf env cfg bands events i c ps ∧ (∃ p ∈ ps, p.event = getEventid ev) ∧
          (ps.length : ℝ) < cfg.numPairs.getD 1) := by
  obtain ⟨e, he, -⟩ := invert_insert hn hc h hev
  obtain ⟨e', he', -⟩ := invert_insert hn' hc h' (hsub ev hev)
  obtain ⟨args, streams, h1, h2, hlen, h3⟩ := source_band hwls hG hn hb hj hc hcmd hv hx h
  obtain ⟨args', streams', h1', h2', hlen', h3'⟩ := source_band hwls hG hn' hb hj' hc hcmd hv hx' h'
  rw [h1] at h1'
  obtain rfl := Except.ok.inj h1'
  have hcom := streams_common hset hn hn' hsub hdeep h2 h2'
  have hm := Dict.mem_of_get? he
  have hm' := Dict.mem_of_get? he'
  have hid : getEventid ev ∈ events.map getEventid := List.mem_map.2 ⟨ev, hev, rfl⟩
  have key : ∀ (i : ℕ) x, (e.W[i]? = some (Cell.num x) ∨ e'.W[i]? = some (Cell.num x)) →
      (e.W[i]? = some (Cell.num x) ∧ e'.W[i]? = some (Cell.num x)) ∨
      (¬ e.W[i]? = some (Cell.num x) ∧ e.W[i]? = some Cell.none ∧
        ∃ c ps, WindowsOf env cfg bands events i c ps ∧ (∃ p ∈ ps, p.event = getEventid ev) ∧
          (ps.length : ℝ) < cfg.numPairs.getD 1) := by
    intro i x hval
    obtain ⟨band, hi⟩ : ∃ band, (bands.map Prod.snd)[i]? = some band := by
      have hl : i < bands.length := by
        rcases hval with hval | hval
        · rw [← hlen _ _ hm]
          exact (List.getElem?_eq_some_iff.1 hval).1
        · rw [← hlen' _ _ hm']
          exact (List.getElem?_eq_some_iff.1 hval).1
      exact ⟨_, List.getElem?_eq_getElem (by simpa using hl)⟩
    obtain ⟨s1, s2, hcn, hfx, hfs⟩ := h3 i band hi
    obtain ⟨s1', s2', -⟩ := h3' i band hi
    -- pairs
    have hnum : ∀ {W : Dict String ℝ} {cell : Option Cell},
        (∀ w, W.get? (getEventid ev) = some w → cell = some (Cell.num w)) →
        (W.get? (getEventid ev) = none → cell = some Cell.none) → cell = some (Cell.num x) →
        W.get? (getEventid ev) = some x := by
      intro W cell a b c
      cases hw : W.get? (getEventid ev) with
      | none => rw [c] at b; simpa using b hw
      | some w => have := a w hw; rw [c] at this; simp at this; rw [this]
    have hcm : ∀ {ps ps'}, AcceptedPairs env.lib (bandWCfg cfg args band) streams v ps →
        AcceptedPairs env.lib (bandWCfg cfg args band) streams' v ps' →
        ∀ p : PairData, p ∈ ps ↔ p ∈ ps' ∧ p.event ∈ events.map getEventid := by
      intro ps ps' ha ha' p
      rw [mem_accepted ha, mem_accepted ha']
      constructor
      · rintro ⟨s, hs, r1, r2⟩
        have := (hcom s).1 hs
        exact ⟨⟨s, this.1, r1, r2⟩, r1 ▸ this.2⟩
      · rintro ⟨⟨s, hs, r1, r2⟩, r3⟩
        exact ⟨s, (hcom s).2 ⟨hs, r1 ▸ r3⟩, r1, r2⟩
    have hboth : streams ≠ [] ∧ streams' ≠ [] := by
      have hs' : streams' ≠ [] := by
        rintro rfl
        rcases hval with hval | hval
        · have : streams = [] := List.eq_nil_iff_forall_not_mem.2 fun s hs => by
            simpa using ((hcom s).1 hs).1
          rw [s2 this _ _ hm] at hval
          simp at hval
        · rw [s2' rfl _ _ hm'] at hval
          simp at hval
      refine ⟨?_, hs'⟩
      intro hs
      rcases hval with hval | hval
      · rw [s2 hs _ _ hm] at hval
        simp at hval
      · obtain ⟨ps', o', a1, a2, a3, a4⟩ := s1' hs'
        cases o' with
        | none => rw [a2 rfl _ _ hm'] at hval; simp at hval
        | some r =>
          obtain ⟨W, -, c2, c3⟩ := a4 r rfl
          have hw := hnum (c3 _ _ hm').1 (c3 _ _ hm').2 hval
          obtain ⟨p, hp, hpe⟩ := (c2 _).1 ((Dict.get?_isSome _ _).1 (by rw [hw]; rfl))
          obtain ⟨q, hq, hqe, -⟩ := (mem_accepted a1 p).1 hp
          have := (hcom q).2 ⟨hq, by rw [← hqe, hpe]; exact hid⟩
          rw [hs] at this
          simp at this
    obtain ⟨ps, o, a1, a2, a3, a4⟩ := s1 hboth.1
    obtain ⟨ps', o', a1', a2', a3', a4'⟩ := s1' hboth.2
    have hpp := hcm a1 a1'
    have hwin : WindowsOf env cfg bands events i (bandCfg cfg args band v) ps :=
      ⟨args, streams, band, v, h1, h2, hi, a1, rfl⟩
    have hwin' : WindowsOf env cfg bands events' i (bandCfg cfg args band v) ps' :=
      ⟨args, streams', band, v, h1, h2', hi, a1', rfl⟩
    have hpair : ∃ p ∈ ps, p.event = getEventid ev := by
      rcases hval with hval | hval
      · cases o with
        | none => rw [a2 rfl _ _ hm] at hval; simp at hval
        | some r =>
          obtain ⟨W, -, c2, c3⟩ := a4 r rfl
          have hw := hnum (c3 _ _ hm).1 (c3 _ _ hm).2 hval
          exact (c2 _).1 ((Dict.get?_isSome _ _).1 (by rw [hw]; rfl))
      · cases o' with
        | none => rw [a2' rfl _ _ hm'] at hval; simp at hval
        | some r =>
          obtain ⟨W, -, c2, c3⟩ := a4' r rfl
          have hw := hnum (c3 _ _ hm').1 (c3 _ _ hm').2 hval
          obtain ⟨p, hp, hpe⟩ := (c2 _).1 ((Dict.get?_isSome _ _).1 (by rw [hw]; rfl))
          exact ⟨p, (hpp p).2 ⟨hp, hpe ▸ hid⟩, hpe⟩
    have hpne : ps ≠ [] := by
      obtain ⟨p, hp, -⟩ := hpair
      exact List.ne_nil_of_mem hp
    have hpne' : ps' ≠ [] := by
      obtain ⟨p, hp, -⟩ := hpair
      exact List.ne_nil_of_mem ((hpp p).1 hp).1
    obtain ⟨hg, href⟩ := hx.windows i _ ps hwin hpne
    obtain ⟨hg', -⟩ := hx'.windows i _ ps' hwin' hpne'
    have hle : (ps.length : ℝ) ≤ ps'.length := by
      exact_mod_cast (List.Nodup.subperm hg.pairs.of_map fun p hp => ((hpp p).1 hp).1).length_le
    rcases a3 with ⟨rfl, hfew⟩ | ⟨-, hmany, hsol⟩
    · right
      have hn0 := a2 rfl _ _ hm
      refine ⟨by rw [hn0]; simp, hn0, ?_⟩
      exact ⟨_, ps, hwin, hpair, hfew.resolve_left hpne⟩
    · rcases a3' with ⟨-, hfew | hfew⟩ | ⟨-, -, hsol'⟩
      · exact absurd hfew hpne'
      · linarith
      · left
        cases o with
        | none =>
          cases o' with
          | none =>
            rcases hval with hval | hval
            · rw [a2 rfl _ _ hm] at hval; simp at hval
            · rw [a2' rfl _ _ hm'] at hval; simp at hval
          | some r' => exact absurd (unusable_of_none hfx hsol) (not_unusable hfx hsol')
        | some r =>
          cases o' with
          | none => exact absurd (unusable_of_none hfx hsol') (not_unusable hfx hsol)
          | some r' =>
            obtain ⟨W, W', w, e1, e2, e3, e4⟩ := C138_band hwls hG hg hg' hcn hfx hfs href
              (fun p hpe => ⟨fun hp => ((hpp p).1 hp).1, fun hp => (hpp p).2 ⟨hp, hpe ▸ hid⟩⟩) hpair hsol hsol'
            obtain ⟨W1, c1, -, c3⟩ := a4 r rfl
            obtain ⟨W1', c1', -, c3'⟩ := a4' r' rfl
            rw [e1] at c1
            obtain rfl := Option.some.inj c1
            rw [e2] at c1'
            obtain rfl := Option.some.inj c1'
            have f1 := (c3 _ _ hm).1 w e3
            have f2 := (c3' _ _ hm').1 w e4
            have : x = w := by
              rcases hval with hval | hval
              · rw [f1] at hval; simpa using hval.symm
              · rw [f2] at hval; simpa using hval.symm
            rw [this]
            exact ⟨f1, f2⟩
  refine ⟨e, e', he, he', ?_, ?_⟩
  · intro i x hix
    rcases key i x (Or.inl hix) with ⟨-, h⟩ | ⟨h, -⟩
    · exact h
    · exact absurd hix h
  · intro i x hix
    rcases key i x (Or.inr hix) with ⟨h, -⟩ | ⟨-, h⟩
    · exact Or.inl h
    · exact Or.inr h

/-- **C138**: the results of an event.  If one accepted pair suffices for a band (the default), the complete
results of the event (energies, source spectrum, seismic moment, corner frequency, magnitude) are the same
with and without the other events. -/
theorem C138_same_results {rank : List ℝ → List (List ℝ) → ℕ} {env : Env} {cfg : InvCfg} {cpus cpus' : ℕ}
    {schedule schedule' : List ℕ} {events events' : List Event} {bands : Dict ℝ (ℝ × ℝ)} {res res' : InvRes}
    {v : ℝ} (hset : IsSetOrder env.setOrder) (hwls : IsWls rank env.wls) (hG : OneValuePerTime env.G)
    (hn : (events.map getEventid).Nodup) (hn' : (events'.map getEventid).Nodup)
    (hb : getFreqs cfg.freqs = .ok bands) (hj : OwnCopies cfg bands cpus schedule)
    (hj' : OwnCopies cfg bands cpus' schedule') (hc : cfg.codaNorm = none) (hcmd : cfg.cmd = .source)
    (hv : cfg.wcfg.v0 = some v) (hone : ∀ n, cfg.numPairs = some n → n ≤ 1)
    (hsub : ∀ ev ∈ events, ev ∈ events')
    (hdeep : ∀ sta, InBorehole env events sta ↔ InBorehole env events' sta)
    (hx : SourceData env cfg bands events) (hx' : SourceData env cfg bands events')
    (h : invert env cfg cpus schedule events = .ok (some res))
    (h' : invert env cfg cpus' schedule' events' = .ok (some res')) {ev : Event} (hev : ev ∈ events) :
    (res.events.get? (getEventid ev)).isSome ∧
      res.events.get? (getEventid ev) = res'.events.get? (getEventid ev) := by
  obtain ⟨e, e', he, he', f1, f2⟩ := C138_other_events hset hwls hG hn hn' hb hj hj' hc hcmd hv hsub hdeep
    hx hx' h h' hev
  obtain ⟨e₁, he₁, hi⟩ := invert_insert hn hc h hev
  obtain ⟨e₁', he₁', hi'⟩ := invert_insert hn' hc h' (hsub ev hev)
  rw [he] at he₁
  obtain rfl := Option.some.inj he₁
  rw [he'] at he₁'
  obtain rfl := Option.some.inj he₁'
  obtain ⟨v1, q1⟩ := given_velocity hn hb hj hx.pairs hv h
  obtain ⟨v2, q2⟩ := given_velocity hn' hb hj' hx'.pairs hv h'
  obtain ⟨l1, c1⟩ := source_cells hwls hG hn hb hj hc hcmd hv hx h (Dict.mem_of_get? he)
  obtain ⟨l2, c2⟩ := source_cells hwls hG hn' hb hj' hc hcmd hv hx' h' (Dict.mem_of_get? he')
  have hW : e.W = e'.W := by
    apply List.ext_getElem?
    intro i
    by_cases hl : i < bands.length
    · have g1 := List.getElem?_eq_getElem (l := e.W) (i := i) (by omega)
      have g2 := List.getElem?_eq_getElem (l := e'.W) (i := i) (by omega)
      rcases c1 i _ g1 with d1 | ⟨x, d1⟩
      · rcases c2 i _ g2 with d2 | ⟨y, d2⟩
        · rw [g1, g2, d1, d2]
        · rw [d2] at g2
          rcases f2 i y g2 with g | ⟨-, c, ps, -, ⟨p, hp, -⟩, hfew⟩
          · rw [g, g2]
          · have h1 : (1 : ℝ) ≤ ps.length := by
              exact_mod_cast List.length_pos_of_mem hp
            have h2 : cfg.numPairs.getD 1 ≤ 1 := by
              cases hnp : cfg.numPairs with
              | none => simp
              | some n => simpa using hone n hnp
            linarith
      · rw [d1] at g1
        rw [g1, f1 i x g1]
    · rw [List.getElem?_eq_none (by omega), List.getElem?_eq_none (by omega)]
  rw [v1, q1] at hi
  rw [v2, q2, ← hW, hi] at hi'
  refine ⟨by rw [he]; rfl, ?_⟩
  rw [he, he', Except.ok.inj hi']

/-! ## Example: two events -/

namespace OtherEventsExample

open JobsExample TablesExample TruthChainExample SourceNearExample

/-- A second event at the same place. -/
noncomputable def second : Event := ⟨"ev/f", some ⟨0, 0, 0, some 1, []⟩, [], none, []⟩

theorem secondId : getEventid second = "f" := by decide

noncomputable def streamF : Stream := { exStream 1 with event := "f" }

noncomputable def energyF : Trace := { exEnergy 1 with event := "f" }

noncomputable def pairF : PairData := { pair with event := "f" }

noncomputable def ori : Origin := ⟨0, 0, 0, some 1, []⟩

theorem origins_two : originsOf [exEvent, second] = .ok [("e", ori), ("f", ori)] := by
  unfold originsOf
  have h : getOrigin exEvent = .ok ori := rfl
  have h' : getOrigin second = .ok ori := rfl
  simp [exId, secondId, h, h', bind, Except.bind, pure, Except.pure, Dict.set]

theorem select_two : selectStreams env srcCfg [exEvent, second] = .ok (some [exStream 1, streamF]) := by
  have hd : distance env srcCfg ori "A" = some 1 := by
    simp [distance, env, exEnv, srcCfg, again, cfg, JobsExample.exCfg, ori]
  have hst : stationsOf env = ["A"] := exStations
  have hl : distLoop env srcCfg [("e", ori), ("f", ori)] =
      ⟨[("e", "A"), ("f", "A")], [(("e", "A"), 1), (("f", "A"), 1)]⟩ := by
    unfold distLoop allPairs
    rw [hst]
    simp only [Dict.keys, List.map_cons, List.map_nil, List.flatMap_cons, List.flatMap_nil,
      List.append_nil, List.foldl_cons, List.foldl_nil, List.cons_append, List.nil_append]
    have ht : tooFar srcCfg 1 = false := rfl
    simp [distStep, originAt, Dict.get?, hd, ht, Dict.set]
  have hdeep : boreholes env [("e", ori), ("f", ori)] "A" = false := by
    simp [boreholes, deepStation, env, exEnv]
  have hsort : sortPairs [("e", ori), ("f", ori)]
      ⟨[("e", "A"), ("f", "A")], [(("e", "A"), 1), (("f", "A"), 1)]⟩ =
      [("e", "A"), ("f", "A")] := by
    unfold sortPairs
    apply List.mergeSort_of_pairwise
    simp [lePair, originAt, distAt, Dict.get?]
  have hons : [("e", "A"), ("f", "A")].foldlM (onsetStep srcCfg [] [("e", ori), ("f", ori)]
      [(("e", "A"), 1), (("f", "A"), 1)]) { pairs := [("e", "A"), ("f", "A")] } =
      .ok ⟨[("e", "A"), ("f", "A")], [(("e", "A"), 1), (("f", "A"), 1)],
        [(("e", "A"), 1), (("f", "A"), 1)]⟩ := by
    simp [onsetStep, onsets, firstOnsets, srcCfg, again, cfg, JobsExample.exCfg, originAt, distAt, Dict.get?,
      bind, Except.bind, pure, Except.pure, Dict.set, ori]
  have hf : ∀ ev ∈ ["e", "f"], fetch env srcCfg [("e", ori), ("f", ori)] [(("e", "A"), 1), (("f", "A"), 1)]
      ⟨[("e", "A"), ("f", "A")], [(("e", "A"), 1), (("f", "A"), 1)], [(("e", "A"), 1), (("f", "A"), 1)]⟩
      (boreholes env [("e", ori), ("f", ori)]) (ev, "A") = .ok (some { exStream 1 with event := ev }) := by
    intro ev hev
    have hc : checkData env srcCfg (0 + 0) (0 + 4)
        (some [⟨".A..Z", 0, 1, [0, 0, 2, 1, 1]⟩,
      ⟨".A..N", 0, 1, [0, 0, 2, 1, 1]⟩, ⟨".A..E", 0, 1, [0, 0, 2, 1, 1]⟩]) =
      some [⟨".A..Z", 0, 1, [0, 0, 2, 1, 1]⟩,
      ⟨".A..N", 0, 1, [0, 0, 2, 1, 1]⟩, ⟨".A..E", 0, 1, [0, 0, 2, 1, 1]⟩] := by
      norm_num [checkData, env, exEnv, covers, srcCfg, again, cfg, JobsExample.exCfg]
    have ho : originAt [("e", ori), ("f", ori)] ev = ori := by
      simp only [List.mem_cons, List.not_mem_nil, or_false] at hev
      rcases hev with rfl | rfl <;> simp [originAt, Dict.get?]
    have hdd : distAt [(("e", "A"), 1), (("f", "A"), 1)] (ev, "A") = 1 := by
      simp only [List.mem_cons, List.not_mem_nil, or_false] at hev
      rcases hev with rfl | rfl <;> simp [distAt, Dict.get?]
    have hget : Dict.get? ([(("e", "A"), (1 : ℝ)), (("f", "A"), 1)] : Dict (String × String) ℝ) (ev, "A") = some 1 := by
      simp only [List.mem_cons, List.not_mem_nil, or_false] at hev
      rcases hev with rfl | rfl <;> simp [Dict.get?]
    unfold fetch
    have hw : ∀ t1 t2, env.getWaveforms ev (pattern env "A") t1 t2 =
        .ok (some [⟨".A..Z", 0, 1, [0, 0, 2, 1, 1]⟩,
      ⟨".A..N", 0, 1, [0, 0, 2, 1, 1]⟩, ⟨".A..E", 0, 1, [0, 0, 2, 1, 1]⟩]) := fun _ _ => rfl
    have ht1 : srcCfg.requestWindow = (0, 4) := rfl
    have hot : ori.time = 0 := rfl
    simp only [ho, hw, ht1, hot, hc, bind, Except.bind,
      List.length_cons, List.length_nil, pure, Except.pure, hdd]
    rw [if_neg (by simp)]
    unfold mkStream
    simp only [List.headD_cons, exSta, hdeep]
    simp [exStream, hget, ori]
  unfold selectStreams
  simp only [origins_two, hl, hsort, bind, Except.bind]
  have ha : arrivalsIf srcCfg [exEvent, second] = .ok [] := rfl
  rw [ha]
  simp only [hons, mapExc, hf "e" (by simp), hf "f" (by simp), bind, Except.bind, pure, Except.pure]
  have hcor : correct env srcCfg [{ exStream 1 with event := "e" }, { exStream 1 with event := "f" }] =
    [exStream 1, streamF] := rfl
  have htf : ¬ tooFew srcCfg 2 := by simp [Invert.tooFew, srcCfg, again, cfg, JobsExample.exCfg]
  simp [hcor, htf]

theorem streams_two {streams : List Stream} (h : StreamsOf env srcCfg [exEvent, second] streams) :
    streams = [exStream 1, streamF] := by
  obtain ⟨selected, origins, h1, -, rfl⟩ := h
  rw [select_two] at h1
  obtain rfl := Option.some.inj (Except.ok.inj h1)
  rfl

theorem energyF_eq : Window.energyOf env.lib (bandWCfg srcCfg args band) streamF = .ok (some energyF) := by
  have hb : ¬ (bandWCfg srcCfg args band).freqBand.1 + (bandWCfg srcCfg args band).freqBand.2 > 1 := by
    norm_num [bandWCfg, band]
  have hf : streamF.channels.map (env.lib.filt (filterSpec (bandWCfg srcCfg args band) 1) 1) =
      streamF.channels := by
    unfold filterSpec
    rw [if_neg (by norm_num [bandWCfg, band])]
    simp [env, exEnv, exFilt, bandWCfg, streamF, exStream, band]
    norm_num
  unfold Window.energyOf
  rw [if_neg (by norm_num [bandWCfg, band, streamF, exStream]),
    if_neg (by simp [bandWCfg, args, streamF, exStream, Dict.get?])]
  simp only
  have hsr : streamF.sr = 1 := rfl
  rw [hsr, hf]
  have : observedEnergy env.lib.hilbert { streamF with channels := streamF.channels }
      (bandWCfg srcCfg args band).rho0
      (env.lib.width 1 (filterSpec (bandWCfg srcCfg args band) 1)) (bandWCfg srcCfg args band).codaNorm
      (freeSurfaceOf (bandWCfg srcCfg args band) streamF) = .ok energyF := by
    unfold observedEnergy
    simp only [streamF, exStream, energy1c, env, exEnv, bandWCfg, srcCfg, again, cfg, JobsExample.exCfg,
      freeSurfaceOf, List.map_cons, List.map_nil,
      List.zipWith_cons_cons, List.zipWith_nil_left, List.length_cons, List.length_nil, minLen,
      maxLen, List.foldl_cons, List.foldl_nil, sumAxis0]
    norm_num [energyF, exEnergy, List.range_succ]
    intro h
    cases h
  have this' := this
  simp only [hsr] at this'
  rw [this']

theorem energies_two :
    energies env.lib (bandWCfg srcCfg args band) [exStream 1, streamF] = .ok [exEnergy 1, energyF] := by
  have h := energies_src
  have h2 : ∀ tr, noiseStep env.lib (bandWCfg srcCfg args band) tr = .ok (some tr) := by
    intro tr
    unfold noiseStep adjust
    simp [bandWCfg, srcCfg, again, cfg, JobsExample.exCfg, mapExc, bind, Except.bind, pure, Except.pure]
  have h1 : Window.energyOf env.lib (bandWCfg srcCfg args band) (exStream 1) = .ok (some (exEnergy 1)) := by
    obtain ⟨s, hs, -, t, h3, h4⟩ := (mem_energies h (exEnergy 1)).1 (by simp)
    obtain rfl := List.mem_singleton.1 hs
    rw [h2] at h4
    rw [h3, Option.some.inj (Except.ok.inj h4)]
  unfold energies
  simp [mapExc, h1, energyF_eq, h2, bind, Except.bind, pure, Except.pure]

theorem acceptsF : Accepts env.lib (bandWCfg srcCfg args band) 1 energyF pairF := by
  obtain ⟨-, -, -, ⟨sm, w, sl, a1, ⟨w', a2, a3, a4⟩, a5, a6, a7⟩, -, -⟩ := accepts_src
  refine ⟨rfl, rfl, rfl, ⟨energyF, (3, 4), { energyF with start := 3, data := [3 / 4, 3 / 4] }, rfl,
    ⟨(3, 4), ?_, ?_, rfl⟩, ?_, ?_, ?_⟩, ?_, ?_⟩
  · exact ex_tw34 1
  · norm_num [bandWCfg, srcCfg, again, cfg, JobsExample.exCfg]
  · intro mw h
    simp only [bandWCfg, srcCfg, again, cfg, JobsExample.exCfg, Option.some.injEq] at h
    subst h
    exact ⟨(1, 4), 2, ex_tw14 1, argmax_one, by norm_num [energyF, exEnergy], by norm_num [energyF, exEnergy]⟩
  · have := TimeAxisExample.slice_int (tr := energyF) rfl rfl (a := 3) (b := 4) (by norm_num) (by simp [energyF, exEnergy])
    push_cast at this
    rw [this]
    simp [energyF, exEnergy]
  · simp [pairF, pair, sampleTime, energyF, exEnergy]
    norm_num
  · intro bw h
    simp [bandWCfg, srcCfg, again, cfg, JobsExample.exCfg] at h
  · intro
    exact ⟨rfl, rfl, rfl, rfl, rfl⟩

theorem accepted_two : AcceptedPairs env.lib (bandWCfg srcCfg args band) [exStream 1, streamF] 1
    [pair, pairF] := by
  refine ⟨[exEnergy 1, energyF], [(exEnergy 1, pair), (energyF, pairF)], energies_two, rfl,
    List.Sublist.refl _, ?_, ?_, rfl⟩
  · intro q hq
    simp only [List.mem_cons, List.not_mem_nil, or_false] at hq
    rcases hq with rfl | rfl
    · exact accepts_src
    · exact acceptsF
  · intro tr h hn
    exact absurd h hn

theorem streams_nodup :
    ([exStream 1, streamF].map (fun s : Stream => (s.event, s.station))).Nodup := by
  simp [exStream, streamF]

theorem windows_two {i : ℕ} {c : InvertFb.Cfg} {ps : List PairData}
    (h : WindowsOf env srcCfg bands [exEvent, second] i c ps) :
    c = bandCfg srcCfg args band 1 ∧ ps = [pair, pairF] ∧ i = 0 := by
  obtain ⟨args', streams, band', v0, h1, h2, h3, h4, rfl⟩ := h
  have h5 := streams_two h2
  subst h5
  rw [band_args] at h1
  have h6 : args' = args := (Except.ok.inj h1).symm
  subst h6
  have h7 : band' = band ∧ i = 0 := by
    match i with
    | 0 => exact ⟨(Option.some.inj h3).symm, rfl⟩
    | i + 1 => simp [bands] at h3
  obtain ⟨rfl, rfl⟩ := h7
  obtain ⟨rfl, rfl⟩ := acceptedPairs_unique streams_nodup h4 accepted_two
  exact ⟨rfl, rfl, rfl⟩

theorem reference {s : String} {r : ℝ} (hs : (bandCfg srcCfg args band 1).fixSitesParams.get? s = some r) :
    0 < r := by
  have hfs : (bandCfg srcCfg args band 1).fixSitesParams = [("A", 1)] := by
    simp [bandCfg, fullCfg, bandWCfg, args, Dict.get?]
  rw [hfs] at hs
  have := Dict.mem_of_get? hs
  simp only [List.mem_singleton, Prod.mk.injEq] at this
  rw [this.2]; norm_num

theorem good : GoodInput (bandCfg srcCfg args band 1) [pair, pairF] := by
  refine ⟨?_, by simp, ?_,
    by norm_num [bandCfg, fullCfg, srcCfg, again, cfg, JobsExample.exCfg]⟩
  · change [("e", "A"), ("f", "A")].Nodup
    decide
  intro p hp
  simp only [List.mem_cons, List.not_mem_nil, or_false] at hp
  rcases hp with rfl | rfl <;> simp [pair, pairF]

theorem data_two : SourceData env srcCfg bands [exEvent, second] := by
  constructor
  · intro streams h
    rw [streams_two h]
    exact streams_nodup
  · intro i c ps h _
    obtain ⟨rfl, rfl, rfl⟩ := windows_two h
    exact ⟨good, fun s r hs => reference hs⟩

theorem data_one : SourceData env srcCfg bands [exEvent] :=
  ⟨near.pairs, fun i c ps h hne => ⟨(near.windows i c ps h hne).1, (near.windows i c ps h hne).2.1⟩⟩

theorem solve_two : ∃ r, solveBand env.wls env.G env.minimize (bandCfg srcCfg args band 1)
    (bandOf (bandCfg srcCfg args band 1).bulk [pair, pairF]) = .ok (some r) := by
  have hfp : (bandCfg srcCfg args band 1).fixParams = (some 1, some 1) := by
    simp [bandCfg, fullCfg, args, Dict.get?]
  have hfs : (bandCfg srcCfg args band 1).fixSitesParams = [("A", 1)] := by
    simp [bandCfg, fullCfg, bandWCfg, args, Dict.get?]
  have hfx : (bandCfg srcCfg args band 1).fix = true := rfl
  have hcn : (bandCfg srcCfg args band 1).codaNorm = false := rfl
  have hbulk : (bandCfg srcCfg args band 1).bulk = false := rfl
  have hgr : IsGreens env.G (bandCfg srcCfg args band 1) 1 [pair, pairF]
      [([exp 3, exp 4], 0), ([exp 3, exp 4], 0)] := by
    simp [IsGreens, pair, pairF, gsmooth, smoothFunc, bandCfg, fullCfg, bandWCfg, srcCfg, again, cfg,
      JobsExample.exCfg, env]
  obtain ⟨⟨rs, hrs⟩, Rf, hRf⟩ := NoExc.siteRefs_total (cfg := bandCfg srcCfg args band 1) (ps := [pair, pairF])
    (by simp) (fun _ p hp => by
      rw [hfs]
      simp only [List.mem_cons, List.not_mem_nil, or_false] at hp
      rcases hp with rfl | rfl <;> simp [pair, pairF, Dict.get?])
  have hl := lstsq_eq (wls := env.wls) (bFix := some 1) good.pairs (by
      intro p hp
      simp only [List.mem_cons, List.not_mem_nil, or_false] at hp
      rcases hp with rfl | rfl <;> simp [pair, pairF]) hgr (by
      intro s hs
      rw [hbulk] at hs
      simp [samplesOf, pair, pairF] at hs
      rcases hs with rfl | rfl | rfl | rfl <;> exact ⟨by norm_num, exp_pos _⟩) hrs hRf
    (fixSites := (bandCfg srcCfg args band 1).fixSites) id
  obtain ⟨f, hf⟩ : ∃ f, lstsq env.wls env.G (bandCfg srcCfg args band 1)
      (bandOf (bandCfg srcCfg args band 1).bulk [pair, pairF]) 1 (some 1)
      (bandCfg srcCfg args band 1).fixSites = .ok f := by
    rw [hl]
    unfold fitOf
    simp only
    rw [if_pos hfx, if_neg (by rw [hcn]; simp)]
    exact ⟨_, rfl⟩
  have hb : ∀ b g, ¬ nearBounds (bandCfg srcCfg args band 1) b g := by
    intro b g
    simp [nearBounds, bandCfg, fullCfg, srcCfg, again, cfg, JobsExample.exCfg]
  have h : solveBand env.wls env.G env.minimize (bandCfg srcCfg args band 1)
      (bandOf (bandCfg srcCfg args band 1).bulk [pair, pairF]) =
      .ok (report (bandCfg srcCfg args band 1) (bandOf (bandCfg srcCfg args band 1).bulk [pair, pairF]) f) := by
    unfold solveBand bandFit
    rw [if_pos hfx, hfp]
    simp only [hf, bind, Except.bind, pure, Except.pure, Option.bind_some]
  rw [h]
  unfold report
  simp only
  rw [if_neg (hb _ _)]
  exact ⟨_, rfl⟩

theorem windows_ok : ∃ st, windows env.lib (bandWCfg srcCfg args band) 1 [exEnergy 1, energyF] = .ok st ∧
    st.Ecoda.length = 2 := by
  have hsl : getSlice energyF (3, 4) = some { energyF with start := 3, data := [3 / 4, 3 / 4] } := by
    have := TimeAxisExample.slice_int (tr := energyF) rfl rfl (a := 3) (b := 4) (by norm_num)
      (by simp [energyF, exEnergy])
    push_cast at this
    rw [this]
    simp [energyF, exEnergy]
  have h34 : tw2utc TimeAxisExample.exFloat (.one "OT+3s".toList, .one "OT+4s".toList) energyF = .ok (3, 4) :=
    ex_tw34 1
  have h14 : tw2utc TimeAxisExample.exFloat (.one "OT+1s".toList, .one "OT+4s".toList) energyF = .ok (1, 4) :=
    ex_tw14 1
  have ham : argmax energyF.data = .ok 2 := argmax_one
  have h1 : ∀ st, ∃ st', step env.lib (bandWCfg srcCfg args band) 1 st (exEnergy 1) = .ok st' ∧
      st'.Ecoda.length = st.Ecoda.length + 1 := by
    intro st
    unfold step codaPart smoothTrace cutCoda checkMaximum
    simp only [bandWCfg, srcCfg, again, cfg, JobsExample.exCfg, env, exEnv, bind, Except.bind,
      ex_tw34, ex_tw14]
    rw [if_neg (by norm_num), argmax_one]
    simp only
    rw [if_pos (by norm_num [exEnergy])]
    unfold collect
    rw [ex_slice]
    exact ⟨_, rfl, by simp⟩
  have h2 : ∀ st, ∃ st', step env.lib (bandWCfg srcCfg args band) 1 st energyF = .ok st' ∧
      st'.Ecoda.length = st.Ecoda.length + 1 := by
    intro st
    unfold step codaPart smoothTrace cutCoda checkMaximum
    simp only [bandWCfg, srcCfg, again, cfg, JobsExample.exCfg, env, exEnv, bind, Except.bind,
      h34, h14]
    rw [if_neg (by norm_num), ham]
    simp only
    rw [if_pos (by norm_num [energyF, exEnergy])]
    unfold collect
    rw [hsl]
    exact ⟨_, rfl, by simp⟩
  unfold windows
  simp only [List.foldlM_cons, List.foldlM_nil]
  obtain ⟨st1, e1, l1⟩ := h1 ⟨[exEnergy 1, energyF].map Trace.pair, [], [], [], [], [], [], []⟩
  obtain ⟨st2, e2, l2⟩ := h2 st1
  simp only [bind, Except.bind, pure, Except.pure]
  rw [e1]
  simp only
  rw [e2]
  exact ⟨st2, rfl, by rw [l2, l1]; rfl⟩

theorem result_two : ∃ res, invert env srcCfg 1 [] [exEvent, second] = .ok (some res) := by
  obtain ⟨r, hr⟩ := solve_two
  have herr : r.error ≠ ⊤ := NoExc.error_finite
    (by simp [bandCfg, fullCfg, srcCfg, again, cfg, JobsExample.exCfg]) (fun h => by cases h) hr
  have hbrun : runBand env srcCfg args [exStream 1, streamF] band = .ok (some r) := by
    obtain ⟨st, h1, h2⟩ := windows_ok
    obtain ⟨ps, h3, h4⟩ := invertFb_accepted (wls := env.wls) (G := env.G) (minimize := env.minimize)
      (inv := { srcCfg.inv with fix := true, fixParams := (args.params.get? band).getD (none, none) })
      streams_nodup energies_two rfl h1
      (by rw [h2]; norm_num [bandWCfg, srcCfg, again, cfg, JobsExample.exCfg])
    obtain rfl : ps = [pair, pairF] := (acceptedPairs_unique streams_nodup h3 accepted_two).2
    have hg : args.params.get? band = some (some 1, some 1) := by simp [args, Dict.get?]
    unfold runBand
    rw [if_pos (by rfl), hg]
    rw [hg] at h4
    have hr' := hr
    simp only [bandCfg, hg] at hr'
    exact h4.trans hr'
  have hrun : runBands env srcCfg args [exStream 1, streamF] [band] 1 [] = .ok [some r] := by
    unfold runBands
    rw [if_pos (by rfl), C24_sequential]
    simp only [mapExc, hbrun, bind, Except.bind, pure, Except.pure]
  have hfr : getFreqs srcCfg.freqs = .ok bands := freqs
  unfold invert
  rw [if_neg (by simp [srcCfg, again, cfg, JobsExample.exCfg])]
  simp only [hfr, select_two, origins_two, bind, Except.bind]
  have h1 : ignoreNetworks srcCfg (boreholes env [("e", ori), ("f", ori)]) [exStream 1, streamF] =
    [exStream 1, streamF] := rfl
  have h2 : resultStations env srcCfg = .ok ["A"] := by
    unfold resultStations
    have : stationsOf env = ["A"] := exStations
    rw [this]
    rfl
  rw [h1, h2, band_args]
  simp only [bands, List.map_cons, List.map_nil, hrun]
  unfold tables
  rw [if_neg (by simp)]
  obtain ⟨x, hx⟩ := WithTop.ne_top_iff_exists.1 herr
  have h4 : mapExc errorCell [some r] = .ok [.num x] := by
    simp [mapExc, errorCell, ← hx, bind, Except.bind, pure, Except.pure]
  rw [h4]
  have h5 : ∃ evs, eventTables env srcCfg [0.25] (lastV0 [some r]) [some r] [exEvent, second] = .ok evs := by
    unfold eventTables
    rw [if_pos (by rfl)]
    unfold sourceEvents
    have hrow := rowW_nodup (ids := ["e", "f"]) (by simp) (id := "e") (by simp) [some r]
    have hrow' := rowW_nodup (ids := ["e", "f"]) (by simp) (id := "f") (by simp) [some r]
    obtain ⟨l, hl⟩ := Site.sdsEntries_total (freq := [0.25]) (W := [some r].map (entry (·.W) "e"))
      (v0 := lastV0 [some r]) (rho0 := some srcCfg.rho0) (by simp) (by norm_num)
    obtain ⟨l', hl'⟩ := Site.sdsEntries_total (freq := [0.25]) (W := [some r].map (entry (·.W) "f"))
      (v0 := lastV0 [some r]) (rho0 := some srcCfg.rho0) (by simp) (by norm_num)
    have hk : fromKeys ["e", "f"] = ["e", "f"] := by decide
    have hsmm : srcCfg.smm = none := rfl
    simp only [List.map_cons, List.map_nil, exId, secondId, hk, List.foldlM_cons, List.foldlM_nil, dictGet,
      Dict.get?, if_true, hrow, hrow', bind, Except.bind, pure, Except.pure, insertSourceProperties] at hl hl' ⊢
    simp only [hl, hsmm]
    simp only [Dict.set, if_true, Dict.get?, show ¬ ("e" = "f") by decide, show ¬ ("f" = "e") by decide, if_false]
    simp only [hl']
    exact ⟨_, rfl⟩
  obtain ⟨evs, h5⟩ := h5
  simp only [bind, Except.bind, Dict.keys, List.map_cons, List.map_nil, h5]
  exact ⟨_, rfl⟩

theorem no_borehole {events : List Event} (sta : String) : ¬ InBorehole env events sta := by
  rintro ⟨-, ev, -, o, c, d, -, hc, -, -, hd⟩
  have hc : some (⟨0, 0, 0, 0⟩ : Coord) = some c := hc
  rw [← Option.some.inj hc] at hd
  norm_num at hd

/-- The results of the first event are the same with and without the second one. -/
example : ∃ res res', invert env srcCfg 1 [] [exEvent] = .ok (some res) ∧
    invert env srcCfg 1 [] [exEvent, second] = .ok (some res') ∧
    (res.events.get? "e").isSome ∧ res.events.get? "e" = res'.events.get? "e" := by
  obtain ⟨res, h⟩ := result
  obtain ⟨res', h'⟩ := result_two
  have hown : OwnCopies srcCfg bands 1 [] := own []
  have := C138_same_results (cfg := srcCfg) (events := [exEvent]) (events' := [exEvent, second]) (v := 1)
    set_order InvertExample.rankWls_spec one_value (by simp) (by simp [exId, secondId]) freqs hown hown rfl rfl rfl
    (by simp [srcCfg, again, cfg, JobsExample.exCfg])
    (by simp) (fun sta => ⟨fun h => absurd h (no_borehole sta), fun h => absurd h (no_borehole sta)⟩)
    data_one data_two h h' (ev := exEvent) (by simp)
  rw [exId] at this
  exact ⟨res, res', h, h', this⟩

end OtherEventsExample

end Qopen
