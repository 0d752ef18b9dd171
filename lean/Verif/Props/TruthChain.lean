import Verif.Props.Truth

/-!
# Separate inversion of events with alignment recovers the truth (C125): the whole chain
-/

namespace Qopen

open Real Spec Util Tr Energy InvertFb Window Catalog Freqs Source Invert Wrapper Site Collect

variable {rank : List ℝ → List (List ℝ) → ℕ} {env : Env} {cfg : InvCfg} {cpus : ℕ}
  {schedule : List Event → List ℕ} {events : List Event} {bands : Dict ℝ (ℝ × ℝ)} {w : WrapRes}
  {R W : ℕ → String → ℝ} {g0 b : ℕ → ℝ} {rlm : List ℝ → ℝ × ℝ} {mean : Mean}

namespace Spec

/-- The alignment reads the source energies and site responses of the events from the result of the
inversions. -/
structure ReadAs (w : WrapRes) (results : Results) : Prop where
  freq : results.freq = w.freq
  ids : results.events.keys = w.events.keys
  entries : ∀ id d, (id, d) ∈ w.events → ∃ ev, results.events.get? id = some (some ev) ∧
    d.get? "W" = some (.row ev.W) ∧ d.get? "R" = some (.sites ev.R)

end Spec

/-- All windows of a single event belong to it. -/
theorem windows_event (hset : IsSetOrder env.setOrder) {ev : Event} {i : ℕ} {c : InvertFb.Cfg}
    {ps : List PairData} (h : WindowsOf env cfg bands [ev] i c ps) :
    ∀ p ∈ ps, p.event = getEventid ev := by
  obtain ⟨args, streams, band, v0, h1, ⟨selected, origins, h2, h3, rfl⟩, h4, ⟨trs, sel, k1, k2, k3, k4,
    -, rfl⟩, -⟩ := h
  intro p hp
  obtain ⟨q, hq, rfl⟩ := List.mem_map.1 hp
  rw [(k4 q hq).1]
  have hm : q.1 ∈ trs := k3.subset (List.mem_map.2 ⟨q, hq, rfl⟩)
  have hs := (energies_pairs k1).subset (List.mem_map.2 ⟨q.1, hm, rfl⟩)
  obtain ⟨s, hs, e⟩ := List.mem_map.1 hs
  have e1 : s.event = q.1.event := congrArg Prod.fst e
  rw [← e1]
  obtain ⟨hlen, hget⟩ := List.forall₂_iff_get.1
    (ignoreNetworks_spec cfg (boreholes env origins) selected)
  obtain ⟨j, hj, rfl⟩ := List.getElem_of_mem hs
  have hd := (hget j (hlen ▸ hj) hj).data.1
  simp only [List.get_eq_getElem] at hd
  rw [hd]
  obtain ⟨ev', hev', sta, hu⟩ := ((C28_pairs hset (by simp) h2).1 _).1
    (List.getElem_mem (hlen ▸ hj : j < selected.length))
  obtain rfl := List.mem_singleton.1 hev'
  obtain ⟨ori, d, p, s, traces, st0, -, -, -, -, -, -, ⟨u1, -⟩, u2, u3⟩ := hu
  cases hr : cfg.removeResponse with
  | false => rw [u2 hr]; exact u1
  | true =>
    obtain ⟨ch, -, e⟩ := u3 hr
    rw [e]
    exact u1

theorem wrapper_ids {inv : List Event → Py (Option InvRes)} {codaNorm : Bool}
    (hid : (events.map getEventid).Nodup)
    (h : invertWrapper rlm inv codaNorm false mean events = .ok (some w)) : w.events.WF := by
  obtain ⟨order, hord, -, h1⟩ := C25_order_partial hid h
  obtain ⟨outs, hf, -, hk⟩ := h1 rfl
  have hn : (order.map getEventid).Nodup := by
    refine ((hord.perm.map getEventid).nodup_iff).2 ?_
    exact hid.sublist ((List.filter_sublist).map _)
  unfold Dict.WF
  rw [hk w rfl]
  refine hn.sublist ?_
  have hlen := hf.length_eq
  clear hk hf hn hord h1
  induction order generalizing outs with
  | nil => simp
  | cons a l ih =>
    cases outs with
    | nil => simp at hlen
    | cons o outs =>
      simp only [List.zip_cons_cons, List.map_cons]
      have := ih (outs := outs) (by simpa using hlen)
      cases o with
      | none =>
        rw [List.filterMap_cons_none rfl]
        exact this.cons _
      | some r =>
        rw [List.filterMap_cons_some (a := (a, some r)) (b := getEventid a) rfl]
        exact this.cons_cons _

/-- Each event in the result was inverted on its own. -/
theorem wrapper_entry {inv : List Event → Py (Option InvRes)} {codaNorm : Bool}
    (hid : (events.map getEventid).Nodup)
    (h : invertWrapper rlm inv codaNorm false mean events = .ok (some w)) {id : String}
    {d : Dict String RVal} (hd : (id, d) ∈ w.events) :
    ∃ ev ∈ events, getEventid ev = id ∧ ∃ r, inv [ev] = .ok (some r) ∧
      eventEntry codaNorm id r = .ok d := by
  obtain ⟨order, hord, -, h1⟩ := C25_order_partial hid h
  obtain ⟨outs, hf, -, hk⟩ := h1 rfl
  have hm : id ∈ w.events.keys := List.mem_map.2 ⟨(id, d), hd, rfl⟩
  rw [hk w rfl] at hm
  obtain ⟨p, hp, hp2⟩ := List.mem_filterMap.1 hm
  obtain ⟨r, hr, rfl⟩ := Option.map_eq_some_iff.1 hp2
  have ho : p.1 ∈ order := (List.of_mem_zip (a := p.1) (b := p.2) hp).1
  have := List.mem_filter.1 (hord.perm.mem_iff.1 ho)
  have hget := Dict.get?_of_mem (wrapper_ids hid h) hd
  rcases entry_of_event hid h this.1 this.2 with ⟨-, hn⟩ | ⟨r', d', e1, e2, e3⟩
  · rw [hn] at hget
    simp at hget
  · rw [e3] at hget
    obtain rfl := Option.some.inj hget
    exact ⟨p.1, this.1, rfl, r', e1, e2⟩

open Classical in
/-- What the result of a single event of exact data says. -/
theorem event_truth {ev : Event} {sch : List ℕ} {r : InvRes} (hwls : IsWls rank env.wls)
    (hG : OneValuePerTime env.G)
    (hset : IsSetOrder env.setOrder) (hb : getFreqs cfg.freqs = .ok bands)
    (hj : OwnCopies cfg bands cpus sch) (hc : cfg.codaNorm = none) (hcmd : cfg.cmd ≠ .source)
    (hR : ∀ i s, 0 < R i s) (hW : ∀ i e, 0 < W i e)
    (hx : ExactData env cfg bands [ev] R W g0 b)
    (h : invert env cfg cpus sch [ev] = .ok (some r)) :
    ∃ T e, r.R = some T ∧ T.WF ∧ r.events.get? (getEventid ev) = some e ∧
      ∀ i, (numAt e.W i = none ∧ ∀ s, (T.get? s).bind (fun l => numAt l i) = none) ∨
        ∃ c, 0 < c ∧ numAt e.W i = some (W i (getEventid ev) / c) ∧
          ∀ s x, (T.get? s).bind (fun l => numAt l i) = some x → x = c * R i s := by
  obtain ⟨stations, rlist, hsta, T0, -⟩ :=
    tables_streams (events := [ev]) (by simp) hb hj.1 h
  obtain ⟨T, hT, hk, hrow⟩ := T0.sites hcmd hc
  obtain ⟨hek, hev⟩ := T0.events hc
  have hwf : T.WF := by
    unfold Dict.WF
    have := (C23_stations hset hsta).1
    rw [← hk] at this
    exact this
  have hek' : r.events.keys = [getEventid ev] := by rw [hek]; rfl
  obtain ⟨e, he⟩ : ∃ e, r.events.get? (getEventid ev) = some e := by
    cases hg : r.events.get? (getEventid ev) with
    | some e => exact ⟨e, rfl⟩
    | none =>
      have := (Dict.get?_eq_none _ _).1 hg
      rw [hek'] at this
      simp at this
  refine ⟨T, e, hT, hwf, he, ?_⟩
  intro i
  by_cases hi : i < bands.length
  · rcases C125_inversion hwls hG (by simp) hb hj hc hcmd hR hW hx h i hi with ⟨hno, -⟩ |
      ⟨c, ps, hwin, hne, ht⟩
    · left
      constructor
      · unfold numAt
        rw [hno.energies _ _ (Dict.mem_of_get? he)]
      · intro s
        cases hs : T.get? s with
        | none => rfl
        | some row =>
          obtain ⟨T', hT', hrow'⟩ := hno.sites
          rw [hT] at hT'
          obtain rfl := Option.some.inj hT'
          simp only [Option.bind_some, numAt]
          rw [hrow' s row (Dict.mem_of_get? hs)]
    · right
      have hR0 : 0 < cfg.inv.R0 := by
        have h0 := (hx.exact_windows i c ps hwin hne).good.R0
        obtain ⟨args, streams, band, v0, -, -, -, -, rfl⟩ := hwin
        exact h0
      have hsm : 0 < stationMean (R i) ps := rpow_pos_of_pos (Finset.prod_pos fun s _ => hR i s) _
      refine ⟨_, div_pos hR0 hsm, ?_, ?_⟩
      · unfold numAt
        rw [ht.energies _ _ (Dict.mem_of_get? he), if_pos]
        obtain ⟨p, hp⟩ := List.exists_mem_of_ne_nil _ hne
        exact ⟨p, hp, windows_event hset hwin p hp⟩
      · intro s x hs
        cases hg : T.get? s with
        | none => rw [hg] at hs; simp at hs
        | some row =>
          rw [hg] at hs
          obtain ⟨T', hT', hrow'⟩ := ht.sites
          rw [hT] at hT'
          obtain rfl := Option.some.inj hT'
          simp only [Option.bind_some, numAt] at hs
          rw [hrow' s row (Dict.mem_of_get? hg)] at hs
          split_ifs at hs
          · simpa using hs.symm
  · left
    have hlen : rlist.length ≤ i := by rw [T0.one_result_per_band]; omega
    constructor
    · unfold numAt
      rw [List.getElem?_eq_none (by rw [← (hev _ _ (Dict.mem_of_get? he)).length_eq]; exact hlen)]
    · intro s
      cases hs : T.get? s with
      | none => rfl
      | some row =>
        simp only [Option.bind_some, numAt]
        rw [List.getElem?_eq_none
          (by rw [← (hrow s row (Dict.mem_of_get? hs)).length_eq]; exact hlen)]

/-- **C125**: the separate inversions of exact data give proper results with the right product of
site response and source energy in every band. -/
theorem C125_separate (hwls : IsWls rank env.wls) (hG : OneValuePerTime env.G)
    (hset : IsSetOrder env.setOrder) (hid : (events.map getEventid).Nodup)
    (hb : getFreqs cfg.freqs = .ok bands)
    (hj : ∀ evs, OwnCopies cfg bands cpus (schedule evs)) (hc : cfg.codaNorm = none) (hcmd : cfg.cmd ≠ .source)
    (hR : ∀ i s, 0 < R i s) (hW : ∀ i e, 0 < W i e)
    (hx : ∀ ev ∈ events, ExactData env cfg bands [ev] R W g0 b)
    (h : invertWrapper rlm (fun evs => invert env cfg cpus (schedule evs) evs) false false mean
      events = .ok (some w)) {results : Results} (hr : ReadAs w results) :
    ProperResults results.events ∧ ∀ i, RightProducts (resultsOf results.events) i (R i) (W i) := by
  have hwf := wrapper_ids hid h
  have key : ∀ e ∈ resultsOf results.events, e.2.R.WF ∧
      ∀ i, (energyOf e.2 i = none ∧ ∀ s, respOf e.2 s i = none) ∨
        ∃ c, 0 < c ∧ energyOf e.2 i = some (W i e.1 / c) ∧
          ∀ s x, respOf e.2 s i = some x → x = c * R i s := by
    rintro ⟨id, ev'⟩ he
    have hm := mem_resultsOf.1 he
    have hmk : id ∈ w.events.keys := by
      rw [← hr.ids]
      exact List.mem_map.2 ⟨_, hm, rfl⟩
    obtain ⟨p, hp, hpe⟩ := List.mem_map.1 hmk
    obtain ⟨id', d⟩ := p
    simp only at hpe
    subst hpe
    have hrwf : results.events.WF := by
      unfold Dict.WF
      rw [hr.ids]
      exact hwf
    obtain ⟨ev2, k1, k2, k3⟩ := hr.entries _ _ hp
    rw [Dict.get?_of_mem hrwf hm] at k1
    obtain rfl := Option.some.inj (Option.some.inj k1)
    obtain ⟨ev, hev, rfl, r, e1, e2⟩ := wrapper_entry hid h hp
    obtain ⟨T, e, t1, t2, t3, t4⟩ := event_truth hwls hG hset hb (hj _) hc hcmd hR hW (hx ev hev) e1
    obtain ⟨d', f1, -, -, f2⟩ := C40_results_have_known_keys e1 (id := getEventid ev)
      (Or.inl (List.mem_map.2 ⟨_, Dict.mem_of_get? t3, rfl⟩))
    rw [hc] at f1
    simp only [Option.isSome_none] at f1
    rw [e2] at f1
    obtain rfl := Except.ok.inj f1
    have hR' : ev'.R = T := by
      have := f2.R
      rw [k3, t1] at this
      simpa using this
    have hW' : ev'.W = e.W := by
      have := f2.W
      rw [k2, t3] at this
      simpa using this
    simp only
    refine ⟨hR' ▸ t2, ?_⟩
    unfold Spec.energyOf respOf
    rw [hR', hW']
    exact t4
  refine ⟨⟨?_, fun e he => (key e he).1, ?_, ?_⟩, ?_⟩
  · unfold Dict.WF
    rw [hr.ids]
    exact hwf
  · intro e he s i x hs
    rcases (key e he).2 i with ⟨-, hn⟩ | ⟨c, hc0, -, hk⟩
    · rw [hn s] at hs
      simp at hs
    · rw [hk s x hs]
      exact mul_pos hc0 (hR i s)
  · intro e he s i hs
    rcases (key e he).2 i with ⟨-, hn⟩ | ⟨c, hc0, hk, -⟩
    · rw [hn s] at hs
      simp at hs
    · rw [hk]
      rfl
  · intro i e he s x y hs hy
    rcases (key e he).2 i with ⟨-, hn⟩ | ⟨c, hc0, hk1, hk2⟩
    · rw [hn s] at hs
      simp at hs
    · rw [hk1] at hy
      rw [hk2 s x hs, ← Option.some.inj hy]
      field_simp

open Classical in
/-- **C125**: the chain of separate inversions and alignment.  If the energies in the windows of
every event are those of the true site responses, source energies and attenuation, then the result
after the alignment holds the true site responses times one factor per band and the true source
energies divided by it.  The factor is the requested response divided by the geometric mean of
the true responses of the named stations which keep a response. -/
theorem C125_separate_then_align (hwls : IsWls rank env.wls) (hG : OneValuePerTime env.G)
    (hset : IsSetOrder env.setOrder) (hid : (events.map getEventid).Nodup)
    (hb : getFreqs cfg.freqs = .ok bands)
    (hj : ∀ evs, OwnCopies cfg bands cpus (schedule evs)) (hc : cfg.codaNorm = none) (hcmd : cfg.cmd ≠ .source)
    (hR : ∀ i s, 0 < R i s) (hW : ∀ i e, 0 < W i e)
    (hx : ∀ ev ∈ events, ExactData env cfg bands [ev] R W g0 b)
    (h : invertWrapper rlm (fun evs => invert env cfg cpus (schedule evs) evs) false false mean
      events = .ok (some w)) {results : Results} (hr : ReadAs w results)
    {solve : Bool → ℕ → List (List ℝ) → List ℝ → List ℝ} (hsol : ∀ b, IsLsqSolver (solve b))
    {orc : Oracle} {sel : StationSel} {response : Response} {us : Bool} {smm : Option Method}
    {smo : Option Opts} {ignore : Option (List String)} {out : Results}
    (ha : align orc rlm solve results sel response us smm smo ignore = .ok out) {i : ℕ}
    (hdata : ∃ e ∈ resultsOf results.events, ∃ s, (respOf e.2 s i).isSome)
    (hsub : ∀ n, sel = .name n → ∀ s ∈ stationsWith (resultsOf out.events) i, s ≠ n →
      ¬ IsSubstring s n)
    (hpos : ∀ r, requested response i = some r → 0 < r) :
    let named := (stationsWith (resultsOf out.events) i).filter (IsNamed sel)
    ∃ r, requested response i = some r ∧ 0 < r ∧
      TrueUpTo (r / (∏ s ∈ named, R i s) ^ (1 / (named.card : ℝ))) (resultsOf out.events) i (R i)
        (W i) := by
  obtain ⟨hp, hprod⟩ := C125_separate hwls hG hset hid hb hj hc hcmd hR hW hx h hr
  exact C125_factor hp ha hsol (hR i) (hW i) hdata (hprod i) hsub hpos

theorem positives_const {l : List Cell} {y : ℝ} (h : ∀ c ∈ l, c = .none ∨ c = .num y) :
    ∀ x ∈ positives l, x = y := by
  intro x hx
  obtain ⟨c, hc, e⟩ := List.mem_filterMap.1 hx
  rcases h c hc with rfl | rfl
  · simp at e
  · simp only [Option.ite_none_right_eq_some, Option.some.injEq] at e
    exact e.2.symm

theorem bandMeans_const {rs : List InvRes} {f : InvRes → Option (List Cell)} {m : List Cell}
    (hm : BandMeans (rs.filterMap f) m) {i : ℕ} {y : ℝ} (hy : 0 < y) (hi : i < m.length)
    (h : ∀ r ∈ rs, ∃ l, f r = some l ∧ (l[i]? = some .none ∨ l[i]? = some (.num y))) :
    ((∀ r ∈ rs, ∃ l, f r = some l ∧ l[i]? = some .none) → m[i]? = some .none) ∧
    ((∃ r ∈ rs, ∃ l, f r = some l ∧ l[i]? = some (.num y)) → m[i]? = some (.num y)) := by
  have hcells : ∀ c ∈ (rs.filterMap f).filterMap (fun row => row[i]?), c = .none ∨ c = .num y := by
    intro c hc
    obtain ⟨row, hrow, e⟩ := List.mem_filterMap.1 hc
    obtain ⟨r, hr, e'⟩ := List.mem_filterMap.1 hrow
    obtain ⟨l, h1, h2⟩ := h r hr
    rw [h1] at e'
    obtain rfl := Option.some.inj e'
    rcases h2 with h2 | h2 <;> rw [h2] at e
    · exact Or.inl (Option.some.inj e).symm
    · exact Or.inr (Option.some.inj e).symm
  obtain ⟨k1, k2⟩ := hm.entries i hi
  constructor
  · intro hn
    apply k1
    rw [List.eq_nil_iff_forall_not_mem]
    intro x hx
    obtain ⟨c, hc, e⟩ := List.mem_filterMap.1 hx
    obtain ⟨row, hrow, e2⟩ := List.mem_filterMap.1 hc
    obtain ⟨r, hr, e'⟩ := List.mem_filterMap.1 hrow
    obtain ⟨l, h1, h2⟩ := hn r hr
    rw [h1] at e'
    obtain rfl := Option.some.inj e'
    rw [h2] at e2
    obtain rfl := Option.some.inj e2
    simp at e
  · rintro ⟨r, hr, l, h1, h2⟩
    have hmem : y ∈ positives ((rs.filterMap f).filterMap (fun row => row[i]?)) :=
      List.mem_filterMap.2 ⟨.num y, List.mem_filterMap.2 ⟨l, List.mem_filterMap.2 ⟨r, hr, h1⟩, h2⟩,
        by simp [hy]⟩
    rw [k2 (List.ne_nil_of_mem hmem),
      geoMean_const hy (List.ne_nil_of_mem hmem) (positives_const hcells)]

/-- **C125**: the mean attenuation of the separate inversions of exact data is the true one in all
bands with a result. -/
theorem C125_mean_attenuation (hwls : IsWls rank env.wls) (hG : OneValuePerTime env.G)
    (hid : (events.map getEventid).Nodup) (hb : getFreqs cfg.freqs = .ok bands)
    (hj : ∀ evs, OwnCopies cfg bands cpus (schedule evs)) (hc : cfg.codaNorm = none) (hcmd : cfg.cmd = .go)
    (hR : ∀ i s, 0 < R i s) (hW : ∀ i e, 0 < W i e) (hg : ∀ i, 0 < g0 i) (hb0 : ∀ i, 0 < b i)
    (hx : ∀ ev ∈ events, ExactData env cfg bands [ev] R W g0 b)
    (h : invertWrapper rlm (fun evs => invert env cfg cpus (schedule evs) evs) false false .plain
      events = .ok (some w)) :
    ∃ gs bs, w.g0 = some gs ∧ w.b = some bs ∧ gs.length = bands.length ∧ bs.length = bands.length ∧
      ∀ i < bands.length, (gs[i]? = some .none ∧ bs[i]? = some .none) ∨
        (gs[i]? = some (.num (g0 i)) ∧ bs[i]? = some (.num (b i))) := by
  have h' : invertWrapper rlm (fun evs => invert env cfg cpus (schedule evs) evs)
      cfg.codaNorm.isSome false .plain events = .ok (some w) := by rw [hc]; exact h
  obtain ⟨order, outs, hord, hf, r1, r2, -, hne, hsome, -⟩ := go_rows hid hcmd h'
  obtain ⟨hmeans, -⟩ := C26_means_partial h'
  have hr : ∀ r ∈ outs.filterMap id, ∀ i < bands.length, ∃ gs bs, r.g0 = some gs ∧ r.b = some bs ∧
      ((gs[i]? = some .none ∧ bs[i]? = some .none) ∨
        (gs[i]? = some (.num (g0 i)) ∧ bs[i]? = some (.num (b i)))) := by
    intro r hm i hi
    obtain ⟨o, ho, e⟩ := List.mem_filterMap.1 hm
    simp only [id] at e
    subst e
    obtain ⟨j, hj', e⟩ := List.getElem_of_mem ho
    have hjo : j < order.length := hf.length_eq ▸ hj'
    have hinv := (List.forall₂_iff_get.1 hf).2 j hjo hj'
    simp only [List.get_eq_getElem] at hinv
    rw [e] at hinv
    have hev : order[j] ∈ events :=
      (List.mem_filter.1 (hord.perm.mem_iff.1 (List.getElem_mem hjo))).1
    rcases C125_inversion hwls hG (by simp) hb (hj _) hc (by rw [hcmd]; simp) hR hW (hx _ hev) hinv i hi
      with ⟨hno, -⟩ | ⟨c, ps, -, -, ht⟩
    · obtain ⟨gs, bs, a1, a2, a3, a4⟩ := hno.attenuation hcmd
      exact ⟨gs, bs, a1, a3, Or.inl ⟨a2, a4⟩⟩
    · obtain ⟨gs, bs, a1, a2, a3, a4⟩ := ht.attenuation hcmd
      exact ⟨gs, bs, a1, a3, Or.inr ⟨a2, a4⟩⟩
  have hl : ∀ r ∈ outs.filterMap id, ∀ l, (r.g0 = some l ∨ r.b = some l) →
      l.length = bands.length := by
    intro r hm l hl
    obtain ⟨o, ho, e⟩ := List.mem_filterMap.1 hm
    simp only [id] at e
    subst e
    obtain ⟨j, hj', e⟩ := List.getElem_of_mem ho
    have hjo : j < order.length := hf.length_eq ▸ hj'
    have hinv := (List.forall₂_iff_get.1 hf).2 j hjo hj'
    simp only [List.get_eq_getElem] at hinv
    rw [e] at hinv
    obtain ⟨stations, rlist, -, T0, -⟩ := tables_streams (by simp) hb (hj _).1 hinv
    rw [← T0.one_result_per_band]
    obtain ⟨row, e1, e2⟩ := T0.g0 hcmd
    obtain ⟨row', e3, e4⟩ := T0.b hcmd
    rcases hl with hl | hl
    · rw [e1] at hl
      obtain rfl := Option.some.inj hl
      exact e2.length_eq.symm
    · rw [e3] at hl
      obtain rfl := Option.some.inj hl
      exact e4.length_eq.symm
  have get : ∀ key out rows, rowsWith w.events key = rows → rows ≠ [] →
      ((key = "g0" ∧ out = w.g0) ∨ (key = "b" ∧ out = w.b) ∨ (key = "error" ∧ out = w.error)) →
      ∃ m, out = some m ∧ BandMeans rows m := by
    intro key out rows hr hn hk
    rcases hmeans key out hk with ⟨_, hnone⟩ | ⟨_, m, hm, hb⟩
    · exact absurd (hr ▸ rowsWith_nil hnone) hn
    · exact ⟨m, hm, hr ▸ hb⟩
  obtain ⟨gs, hg1, hg2⟩ := get "g0" w.g0 _ r1 (filterMap_ne_nil hne fun r hr => (hsome r hr).1)
    (Or.inl ⟨rfl, rfl⟩)
  obtain ⟨bs, hb1, hb2⟩ := get "b" w.b _ r2 (filterMap_ne_nil hne fun r hr => (hsome r hr).2)
    (Or.inr (Or.inl ⟨rfl, rfl⟩))
  obtain ⟨r0, hr0⟩ := List.exists_mem_of_ne_nil _ hne
  obtain ⟨l1, hl1⟩ := Option.isSome_iff_exists.1 (hsome r0 hr0).1
  obtain ⟨l2, hl2⟩ := Option.isSome_iff_exists.1 (hsome r0 hr0).2
  have hgl : gs.length = bands.length :=
    (hg2.length l1 (List.mem_filterMap.2 ⟨r0, hr0, hl1⟩)).trans (hl r0 hr0 l1 (Or.inl hl1))
  have hbl : bs.length = bands.length :=
    (hb2.length l2 (List.mem_filterMap.2 ⟨r0, hr0, hl2⟩)).trans (hl r0 hr0 l2 (Or.inr hl2))
  refine ⟨gs, bs, hg1, hb1, hgl, hbl, ?_⟩
  intro i hi
  by_cases hex : ∃ r ∈ outs.filterMap id, ∃ gs bs, r.g0 = some gs ∧ r.b = some bs ∧
      gs[i]? = some (.num (g0 i)) ∧ bs[i]? = some (.num (b i))
  · right
    obtain ⟨r, hm, gs', bs', a1, a2, a3, a4⟩ := hex
    constructor
    · refine (bandMeans_const hg2 (hg i) (by omega) ?_).2 ⟨r, hm, gs', a1, a3⟩
      intro r hm
      obtain ⟨gs, bs, a1, a2, h | h⟩ := hr r hm i hi
      · exact ⟨gs, a1, Or.inl h.1⟩
      · exact ⟨gs, a1, Or.inr h.1⟩
    · refine (bandMeans_const hb2 (hb0 i) (by omega) ?_).2 ⟨r, hm, bs', a2, a4⟩
      intro r hm
      obtain ⟨gs, bs, a1, a2, h | h⟩ := hr r hm i hi
      · exact ⟨bs, a2, Or.inl h.2⟩
      · exact ⟨bs, a2, Or.inr h.2⟩
  · left
    have hno : ∀ r ∈ outs.filterMap id, ∃ gs bs, r.g0 = some gs ∧ r.b = some bs ∧
        gs[i]? = some .none ∧ bs[i]? = some .none := by
      intro r hm
      obtain ⟨gs, bs, a1, a2, h | h⟩ := hr r hm i hi
      · exact ⟨gs, bs, a1, a2, h⟩
      · exact absurd ⟨r, hm, gs, bs, a1, a2, h⟩ hex
    constructor
    · refine (bandMeans_const hg2 (hg i) (by omega) ?_).1 ?_
      · intro r hm
        obtain ⟨gs, bs, a1, a2, h⟩ := hno r hm
        exact ⟨gs, a1, Or.inl h.1⟩
      · intro r hm
        obtain ⟨gs, bs, a1, a2, h⟩ := hno r hm
        exact ⟨gs, a1, h.1⟩
    · refine (bandMeans_const hb2 (hb0 i) (by omega) ?_).1 ?_
      · intro r hm
        obtain ⟨gs, bs, a1, a2, h⟩ := hno r hm
        exact ⟨bs, a2, Or.inl h.2⟩
      · intro r hm
        obtain ⟨gs, bs, a1, a2, h⟩ := hno r hm
        exact ⟨bs, a2, h.2⟩

/-- The central frequencies in the result are those of the bands, and some event has a result. -/
theorem wrapper_freq (hid : (events.map getEventid).Nodup) (hb : getFreqs cfg.freqs = .ok bands)
    (hs : ∀ evs, Schedule cfg (bands.map Prod.snd) cpus (schedule evs)) {codaNorm : Bool}
    (h : invertWrapper rlm (fun evs => invert env cfg cpus (schedule evs) evs) codaNorm false mean
      events = .ok (some w)) : w.freq = bands.map Prod.fst ∧ w.events ≠ [] := by
  obtain ⟨order, ho, h⟩ := bind_ok.1 h
  obtain ⟨hord, _⟩ := orderEvents_ok ho
  rw [if_neg (by simp)] at h
  obtain ⟨st, hst, h⟩ := bind_ok.1 h
  have hn : (order.map getEventid).Nodup := by
    refine ((hord.perm.map getEventid).nodup_iff).2 ?_
    exact hid.sublist ((List.filter_sublist).map _)
  obtain ⟨outs, h1, en, h2, h3, h4⟩ := loop_spec hst hn (by intro ev _; simp [Dict.keys])
  simp only [List.nil_append] at h2
  split at h
  · simp [pure, Except.pure] at h
  rename_i hlen
  obtain ⟨col, g0, b, errs, sites, R, _, _, _, _, _, _, _, _, _, _, hev, hfr, _⟩ := means_some h
  have hne : w.events ≠ [] := by
    rw [hev]
    intro h0
    simp [h0] at hlen
  refine ⟨?_, hne⟩
  rw [hfr, h4]
  cases hl : (outs.filterMap id).getLast? with
  | none =>
    exfalso
    rw [List.getLast?_eq_none_iff, List.filterMap_eq_nil_iff] at hl
    have h0 : (order.zip outs).filterMap (fun p => p.2.map (fun r => (p.1, r))) = [] := by
      rw [List.filterMap_eq_nil_iff]
      intro p hp
      have := hl p.2 (List.of_mem_zip (a := p.1) (b := p.2) hp).2
      simp only [id] at this
      rw [this]
      rfl
    rw [h0] at h3
    cases h3
    exact hne (hev.trans h2)
  | some r =>
    have hm := List.mem_of_getLast? hl
    obtain ⟨o, ho', e⟩ := List.mem_filterMap.1 hm
    simp only [id] at e
    subst e
    obtain ⟨j, hj', e⟩ := List.getElem_of_mem ho'
    have hjo : j < order.length := h1.length_eq ▸ hj'
    have hi := List.forall₂_iff_get.1 h1 |>.2 j hjo hj'
    simp only [List.get_eq_getElem, e] at hi
    obtain ⟨stations, rlist, -, T0, -⟩ :=
      tables_streams (events := [order[j]]) (by simp) hb (hs _) hi
    simpa using T0.freq

open Classical in
/-- **C125**: what the separate inversions return is complete and can be read by the alignment. -/
theorem C125_readable (hset : IsSetOrder env.setOrder) (hid : (events.map getEventid).Nodup)
    (hb : getFreqs cfg.freqs = .ok bands)
    (hs : ∀ evs, Schedule cfg (bands.map Prod.snd) cpus (schedule evs)) (hc : cfg.codaNorm = none) (hcmd : cfg.cmd ≠ .source)
    (h : invertWrapper rlm (fun evs => invert env cfg cpus (schedule evs) evs) false false mean
      events = .ok (some w)) (config : Config) :
    ∃ results, results.config = config ∧ ReadAs w results ∧
      CompleteResults results.events bands.length ∧ results.freq = bands.map Prod.fst ∧
      ∀ e ∈ resultsOf results.events, ∃ ev ∈ events, ∃ r stations, e.1 = getEventid ev ∧
        invert env cfg cpus (schedule [ev]) [ev] = .ok (some r) ∧
        r.R = some e.2.R ∧ (r.events.get? (getEventid ev)).map (·.W) = some e.2.W ∧
        resultStations env cfg = .ok stations ∧ e.2.R.keys = stations := by
  have hwf := wrapper_ids hid h
  obtain ⟨hfr, hne⟩ := wrapper_freq hid hb hs h
  have key : ∀ p ∈ w.events, ∃ e : EvRes, p.2.get? "W" = some (.row e.W) ∧
      p.2.get? "R" = some (.sites e.R) ∧ e.R.WF ∧ e.W.length = bands.length ∧
      (∀ q ∈ e.R, q.2.length = bands.length) ∧ ∃ ev ∈ events, ∃ r stations, p.1 = getEventid ev ∧
        invert env cfg cpus (schedule [ev]) [ev] = .ok (some r) ∧
        r.R = some e.R ∧ (r.events.get? (getEventid ev)).map (·.W) = some e.W ∧
        resultStations env cfg = .ok stations ∧ e.R.keys = stations := by
    rintro ⟨id, d⟩ hp
    obtain ⟨ev, hev, rfl, r, e1, e2⟩ := wrapper_entry hid h hp
    obtain ⟨stations, rlist, hsta, T0, -⟩ :=
      tables_streams (events := [ev]) (by simp) hb (hs _) e1
    obtain ⟨T, hT, hk, hrow⟩ := T0.sites hcmd hc
    obtain ⟨hek, hW⟩ := T0.events hc
    have hek' : r.events.keys = [getEventid ev] := by rw [hek]; rfl
    obtain ⟨e, he⟩ : ∃ e, r.events.get? (getEventid ev) = some e := by
      cases hg : r.events.get? (getEventid ev) with
      | some e => exact ⟨e, rfl⟩
      | none =>
        have := (Dict.get?_eq_none _ _).1 hg
        rw [hek'] at this
        simp at this
    obtain ⟨d', f1, -, -, f2⟩ := C40_results_have_known_keys e1 (id := getEventid ev)
      (Or.inl (List.mem_map.2 ⟨_, Dict.mem_of_get? he, rfl⟩))
    rw [hc] at f1
    simp only [Option.isSome_none] at f1
    rw [e2] at f1
    obtain rfl := Except.ok.inj f1
    refine ⟨⟨e.W, T, []⟩, ?_, ?_, ?_, ?_, ?_, ev, hev, r, stations, rfl, e1, hT, ?_, hsta, hk⟩
    · have := f2.W
      rw [he] at this
      exact this
    · have := f2.R
      rw [hT] at this
      exact this
    · unfold Dict.WF
      have := (C23_stations hset hsta).1
      rw [← hk] at this
      exact this
    · exact (hW _ _ (Dict.mem_of_get? he)).length_eq ▸ T0.one_result_per_band
    · intro q hq
      exact (hrow _ _ hq).length_eq ▸ T0.one_result_per_band
    · rw [he]; rfl
  let f : String × Dict String RVal → EvRes := fun p =>
    if hp : p ∈ w.events then (key p hp).choose else ⟨[], [], []⟩
  have hf : ∀ p (hp : p ∈ w.events), f p = (key p hp).choose := fun p hp => dif_pos hp
  have hmem : ∀ e ∈ resultsOf (w.events.map (fun p => (p.1, some (f p)))), ∃ p ∈ w.events,
      e = (p.1, f p) := by
    rintro ⟨id, e⟩ he
    obtain ⟨p, hp, e1⟩ := List.mem_map.1 (mem_resultsOf.1 he)
    simp only [Prod.mk.injEq, Option.some.injEq] at e1
    exact ⟨p, hp, by rw [← e1.1, ← e1.2]⟩
  have hkeys : Dict.keys (w.events.map (fun p => (p.1, some (f p)))) = w.events.keys := by
    simp [Dict.keys, Function.comp_def]
  refine ⟨⟨w.events.map (fun p => (p.1, some (f p))), w.freq, none, config⟩, rfl,
    ⟨rfl, hkeys, ?_⟩, ⟨?_, ?_, ?_, ?_⟩, hfr, ?_⟩
  · intro id d hd
    refine ⟨f (id, d), ?_, ?_, ?_⟩
    · refine Dict.get?_of_mem (by unfold Dict.WF; rw [hkeys]; exact hwf) ?_
      exact List.mem_map.2 ⟨_, hd, rfl⟩
    · rw [hf _ hd]; exact (key _ hd).choose_spec.1
    · rw [hf _ hd]; exact (key _ hd).choose_spec.2.1
  · obtain ⟨p, hp⟩ := List.exists_mem_of_ne_nil _ hne
    intro h0
    have : (p.1, f p) ∈ resultsOf (w.events.map (fun p => (p.1, some (f p)))) :=
      mem_resultsOf.2 (List.mem_map.2 ⟨p, hp, rfl⟩)
    rw [h0] at this
    simp at this
  · intro e he
    obtain ⟨p, hp, rfl⟩ := hmem e he
    simp only [hf _ hp]
    exact (key _ hp).choose_spec.2.2.1
  · intro e he
    obtain ⟨p, hp, rfl⟩ := hmem e he
    simp only [hf _ hp]
    exact (key _ hp).choose_spec.2.2.2.1
  · intro e he
    obtain ⟨p, hp, rfl⟩ := hmem e he
    simp only [hf _ hp]
    exact (key _ hp).choose_spec.2.2.2.2.1
  · intro e he
    obtain ⟨p, hp, rfl⟩ := hmem e he
    simp only [hf _ hp]
    exact (key _ hp).choose_spec.2.2.2.2.2

end Qopen
