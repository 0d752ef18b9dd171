import Verif.Props.OtherBands
import Verif.Props.Pairs

/-!
# Stations without usable data have no influence on an inversion (C149)
-/

namespace Qopen

open Real Spec Util Catalog Freqs Source Invert InvertFb Energy Tr

/-! ## Specification -/

namespace Spec

/-- The inventory without the stations in `drop`. -/
def Without (env : Env) (drop : List String) : Env :=
  { env with channels := env.channels.filter (fun ch => decide (getStation ch ∉ drop)) }

/-- None of the stations in `drop` has a usable pair: the distance is unknown or too large, an onset is
missing, there are no data, or the data have gaps or the wrong length, or cannot be corrected. -/
def Useless (env : Env) (cfg : InvCfg) (events : List Event) (drop : List String) : Prop :=
  ∀ ev ∈ events, ∀ sta ∈ drop, ∀ st, ¬ Usable env cfg events ev sta st

/-- The client answers a request for a station with records of this station. -/
def OwnRecords (env : Env) (cfg : InvCfg) (events : List Event) : Prop :=
  ∀ ev ∈ events, ∀ ori sta traces, Waveforms env cfg ev ori sta traces →
    ∀ tr, traces.head? = some tr → getStation tr.id = sta

/-- No two records of events with the same origin time are equally far away from the source. -/
def NoTies (env : Env) (cfg : InvCfg) (events : List Event) : Prop :=
  ∀ ev ∈ events, ∀ ev' ∈ events, ∀ sta sta' st st', Usable env cfg events ev sta st →
    Usable env cfg events ev' sta' st' → st.origin = st'.origin → st.distance = st'.distance → st = st'

/-- The results agree but for empty rows in the table of site responses. -/
structure SameButEmptyRows (res res' : InvRes) : Prop where
  freq : res'.freq = res.freq
  g0 : res'.g0 = res.g0
  b : res'.b = res.b
  error : res'.error = res.error
  nstations : res'.nstations = res.nstations
  v0 : res'.v0 = res.v0
  events : res'.events = res.events
  noSites : res'.R = none ↔ res.R = none
  sites : ∀ T T', res.R = some T → res'.R = some T' → ∀ sta,
    (∀ row, T'.get? sta = some row → T.get? sta = some row) ∧
    (T'.get? sta = none → ∀ row, T.get? sta = some row → ∀ c ∈ row, c = Cell.none)

end Spec

/-! ## Stations of the results of a band -/

namespace Window

section

variable {lib : Lib} {cfg : WCfg} {v0 : ℝ}

theorem collect_energies {st st' : WState} {tr : Trace} {bulk : Option Bulk} {w : ℝ × ℝ}
    (h : collect cfg v0 st tr bulk w = .ok st') : st'.energies.Sublist st.energies := by
  unfold collect at h
  split at h
  · obtain rfl := Except.ok.inj h
    exact List.erase_sublist
  · cases bulk with
    | none =>
      obtain rfl := Except.ok.inj h
      exact List.Sublist.refl _
    | some b =>
      obtain ⟨u, -, h⟩ := bind_ok.1 h
      obtain rfl := Except.ok.inj h
      exact List.Sublist.refl _

theorem checkMaximum_energies {st st' : WState} {tr : Trace} {bulk : Option Bulk} {w : ℝ × ℝ}
    (h : checkMaximum lib cfg v0 st tr bulk w = .ok st') : st'.energies.Sublist st.energies := by
  unfold checkMaximum at h
  split at h
  · exact collect_energies h
  · obtain ⟨m, -, h⟩ := bind_ok.1 h
    obtain ⟨i, -, h⟩ := bind_ok.1 h
    simp only at h
    split at h
    · exact collect_energies h
    · obtain rfl := Except.ok.inj h
      exact List.erase_sublist

theorem cutCoda_energies {st st' : WState} {tr : Trace} {bulk : Option Bulk} {w : ℝ × ℝ}
    (h : cutCoda lib cfg v0 st tr bulk w = .ok st') : st'.energies.Sublist st.energies := by
  unfold cutCoda at h
  split at h
  · exact checkMaximum_energies h
  · simp only at h
    split at h
    · obtain rfl := Except.ok.inj h
      exact List.erase_sublist
    · split at h
      · obtain rfl := Except.ok.inj h
        exact List.erase_sublist
      · exact checkMaximum_energies h

theorem codaPart_energies {st st' : WState} {tr : Trace} {bulk : Option Bulk}
    (h : codaPart lib cfg v0 st tr bulk = .ok st') : st'.energies.Sublist st.energies := by
  unfold codaPart at h
  obtain ⟨t, -, h⟩ := bind_ok.1 h
  obtain ⟨w, -, h⟩ := bind_ok.1 h
  split at h
  · obtain rfl := Except.ok.inj h
    exact List.erase_sublist
  · exact cutCoda_energies h

theorem step_energies {st st' : WState} {tr : Trace} (h : step lib cfg v0 st tr = .ok st') :
    st'.energies.Sublist st.energies := by
  unfold step at h
  simp only at h
  split at h
  · exact codaPart_energies (st := { st with distances := st.distances.set tr.pair tr.distance }) h
  · obtain ⟨w, -, h⟩ := bind_ok.1 h
    split at h
    · obtain rfl := Except.ok.inj h
      exact List.erase_sublist
    · split at h
      · simp at h
      · split at h
        · simp at h
        · have := codaPart_energies h
          exact this

theorem windows_energies {trs : List Trace} {st : WState} (h : windows lib cfg v0 trs = .ok st) :
    st.energies.Sublist (trs.map Trace.pair) := by
  unfold windows at h
  have key : ∀ (l : List Trace) (s s' : WState), l.foldlM (step lib cfg v0) s = .ok s' →
      s'.energies.Sublist s.energies := by
    intro l
    induction l with
    | nil =>
      intro s s' h
      obtain rfl := Except.ok.inj h
      exact List.Sublist.refl _
    | cons a l ih =>
      intro s s' h
      rw [List.foldlM_cons] at h
      obtain ⟨m, hm, h⟩ := bind_ok.1 h
      exact (ih m s' h).trans (step_energies hm)
  exact key trs _ st h

theorem invertFb_sites {wls : List ℝ → List (List ℝ) → List ℝ → List ℝ × ℝ} {G : Greens}
    {minimize : (ℝ → Py (WithTop ℝ)) → Py ℝ} {inv : InvertFb.Cfg} {streams : List Stream}
    {r : InvertFb.BandResult} (h : invertFb lib wls G minimize cfg inv streams = .ok (some r))
    {d : Dict String ℝ} (hd : r.R = some d) : ∀ k ∈ d.keys, ∃ s ∈ streams, s.station = k := by
  unfold invertFb at h
  split at h
  · simp at h
  obtain ⟨trs, htrs, h⟩ := bind_ok.1 h
  cases hv : velocity cfg trs with
  | none => rw [hv] at h; simp [pure, Except.pure] at h
  | some v =>
    rw [hv] at h
    obtain ⟨st, hst, h⟩ := bind_ok.1 h
    split at h
    · simp [pure, Except.pure] at h
    obtain ⟨f, -, -, -, hrep, -⟩ := solveBand_ok h
    have hR := (report_some hrep).2.2.2.2.1
    rw [hd] at hR
    have hz := ite_some hR.symm
    intro k hk
    rw [← hz] at hk
    unfold Dict.keys at hk
    obtain ⟨q, hq, rfl⟩ := List.mem_map.1 hk
    have h1 : q.1 ∈ InvertFb.stations st.band := (List.of_mem_zip hq).1
    unfold InvertFb.stations at h1
    rw [mem_fromKeys] at h1
    obtain ⟨p, hp, hpk⟩ := List.mem_map.1 h1
    have hp' : p ∈ st.energies := hp
    have h2 := (energies_pairs htrs).subset ((windows_energies hst).subset hp')
    obtain ⟨s, hs, rfl⟩ := List.mem_map.1 h2
    exact ⟨s, hs, hpk⟩

end

end Window

namespace Invert

theorem runBand_sites {env : Env} {cfg : InvCfg} {args : BandArgs} {streams : List Stream}
    {band : ℝ × ℝ} {r : BandResult} (h : runBand env cfg args streams band = .ok (some r))
    {d : Dict String ℝ} (hd : r.R = some d) : ∀ k ∈ d.keys, ∃ s ∈ streams, s.station = k := by
  unfold runBand at h
  simp only at h
  split at h
  · split at h
    · exact Window.invertFb_sites h hd
    · simp at h
  · exact Window.invertFb_sites h hd

theorem filtered_station (env : Env) (wcfg : Window.WCfg) (s : Stream) :
    (filtered env wcfg s).station = s.station := by
  unfold filtered
  split_ifs <;> rfl

theorem runShared_sites {env : Env} {cfg : InvCfg} {args : BandArgs} {streams : List Stream}
    {bands : List (ℝ × ℝ)} {rs : List (Option BandResult)} {r : BandResult}
    (h : runShared env cfg args streams bands = .ok rs) (hr : some r ∈ rs)
    {d : Dict String ℝ} (hd : r.R = some d) : ∀ k ∈ d.keys, ∃ s ∈ streams, s.station = k := by
  induction bands generalizing streams rs with
  | nil =>
    unfold runShared at h
    simp only [Except.ok.injEq] at h
    rw [← h] at hr
    simp at hr
  | cons b bands ih =>
    unfold runShared at h
    obtain ⟨x, hx, h⟩ := bind_ok.1 h
    obtain ⟨rs', hrs, h⟩ := bind_ok.1 h
    simp only [pure, Except.pure, Except.ok.injEq] at h
    rw [← h] at hr
    unfold runBandInPlace at hx
    obtain ⟨y, hy, hx⟩ := bind_ok.1 hx
    simp only [pure, Except.pure, Except.ok.injEq] at hx
    rw [← hx] at hr hrs
    rcases List.mem_cons.1 hr with hr | hr
    · have hr : some r = y := hr
      rw [← hr] at hy
      exact runBand_sites hy hd
    · intro k hk
      obtain ⟨s, hs, e⟩ := ih hrs hr k hk
      obtain ⟨s0, hs0, rfl⟩ := List.mem_map.1 hs
      exact ⟨s0, hs0, by rw [← e, filtered_station]⟩

/-- Site responses are only reported for stations with records. -/
theorem runBands_sites {env : Env} {cfg : InvCfg} {args : BandArgs} {streams : List Stream}
    {bands : List (ℝ × ℝ)} {cpus : ℕ} {schedule : List ℕ} {rs : List (Option BandResult)}
    {r : BandResult} (hs : Spec.Schedule cfg bands cpus schedule)
    (h : runBands env cfg args streams bands cpus schedule = .ok rs) (hr : some r ∈ rs)
    {d : Dict String ℝ} (hd : r.R = some d) : ∀ k ∈ d.keys, ∃ s ∈ streams, s.station = k := by
  unfold runBands at h
  split at h
  · rw [C24_sequential] at h
    obtain ⟨b, -, hb⟩ := mapExc_mem h hr
    exact runBand_sites hb hd
  · rename_i h1
    split at h
    · simp at h
    · obtain ⟨rs', h2, rfl⟩ := (pool_spec _ _ _ (hs h1) _).1 h
      obtain ⟨l, hl, hr⟩ := List.mem_flatten.1 hr
      obtain ⟨c, -, hc⟩ := mapExc_mem h2 hl
      exact runShared_sites hc hr hd

/-! ## Without the stations -/

section

variable {env : Env} {cfg : InvCfg} {events : List Event} {drop : List String}

theorem oneChannel_without {sta : String} (h : sta ∉ drop) :
    oneChannel (Without env drop) sta = oneChannel env sta := by
  unfold oneChannel Without
  simp only [List.filter_filter]
  congr 2
  apply List.filter_congr
  intro ch _
  by_cases hc : getStation ch = sta
  · simp [hc, h]
  · simp [hc]

theorem channels_without {sta : String} :
    (∃ ch ∈ (Without env drop).channels, getStation ch = sta) ↔
      sta ∉ drop ∧ ∃ ch ∈ env.channels, getStation ch = sta := by
  unfold Without
  simp only [List.mem_filter, decide_eq_true_eq]
  constructor
  · rintro ⟨ch, ⟨h1, h2⟩, rfl⟩
    exact ⟨h2, ch, h1, rfl⟩
  · rintro ⟨h2, ch, h1, rfl⟩
    exact ⟨ch, ⟨h1, h2⟩, rfl⟩

theorem inBorehole_without {sta : String} (h : sta ∉ drop) :
    InBorehole (Without env drop) events sta ↔ InBorehole env events sta := by
  unfold InBorehole
  rw [oneChannel_without h, channels_without]
  simp only [h, not_false_eq_true, true_and]
  rfl

theorem waveforms_without {ev : Event} {ori : Origin} {sta : String} {traces : List RawTrace}
    (h : sta ∉ drop) :
    Waveforms (Without env drop) cfg ev ori sta traces ↔ Waveforms env cfg ev ori sta traces := by
  unfold Waveforms pattern
  rw [oneChannel_without h]
  rfl

theorem hypoDistance_without {ori : Origin} {sta : String} {d : ℝ} (h : sta ∉ drop) :
    HypoDistance (Without env drop) cfg ori sta d ↔ HypoDistance env cfg ori sta d := by
  unfold HypoDistance
  rw [oneChannel_without h]
  rfl

/-- The usable pairs without the stations are those of the other stations. -/
theorem usable_without (hown : OwnRecords env cfg events) {ev : Event} (hev : ev ∈ events) {sta : String}
    {st : Stream} :
    Usable (Without env drop) cfg events ev sta st ↔ sta ∉ drop ∧ Usable env cfg events ev sta st := by
  unfold Usable
  constructor
  · rintro ⟨ori, d, p, s, traces, st0, h1, h2, h3, h4, h5, h6, ⟨h7, h8, h9, h10, h11, h12, h13, h14⟩, h15, h16⟩
    rw [channels_without] at h2
    rw [hypoDistance_without h2.1] at h3
    rw [waveforms_without h2.1] at h6
    refine ⟨h2.1, ori, d, p, s, traces, st0, h1, h2.2, h3, h4, h5, h6,
      ⟨h7, h8, h9, h10, h11, h12, h13, ?_⟩, h15, h16⟩
    obtain ⟨_, _, _, _, _, hlen, _⟩ := id h6
    cases traces with
    | nil => simp at hlen
    | cons tr l =>
      have e := (h8 tr rfl).1
      rw [hown ev hev ori sta _ h6 tr rfl] at e
      rw [h14, e, inBorehole_without h2.1]
  · rintro ⟨hd, ori, d, p, s, traces, st0, h1, h2, h3, h4, h5, h6, ⟨h7, h8, h9, h10, h11, h12, h13, h14⟩, h15, h16⟩
    refine ⟨ori, d, p, s, traces, st0, h1, channels_without.2 ⟨hd, h2⟩, (hypoDistance_without hd).2 h3, h4,
      h5, (waveforms_without hd).2 h6, ⟨h7, h8, h9, h10, h11, h12, h13, ?_⟩, h15, h16⟩
    obtain ⟨_, _, _, _, _, hlen, _⟩ := id h6
    cases traces with
    | nil => simp at hlen
    | cons tr l =>
      have e := (h8 tr rfl).1
      rw [hown ev hev ori sta _ h6 tr rfl] at e
      rw [h14, e, inBorehole_without hd]

theorem usable_station (hown : OwnRecords env cfg events) {ev : Event} (hev : ev ∈ events) {sta : String}
    {st : Stream} (h : Usable env cfg events ev sta st) : st.event = getEventid ev ∧ st.station = sta := by
  obtain ⟨ori, d, p, s, traces, st0, h1, h2, h3, h4, h5, h6, ⟨h7, h8, -⟩, h15, h16⟩ := h
  obtain ⟨_, _, _, _, _, hlen, _⟩ := id h6
  have e : st0.station = sta := by
    cases traces with
    | nil => simp at hlen
    | cons tr l => rw [(h8 tr rfl).1, hown ev hev ori sta _ h6 tr rfl]
  cases hr : cfg.removeResponse with
  | false => rw [h15 hr]; exact ⟨h7, e⟩
  | true =>
    obtain ⟨ch, -, rfl⟩ := h16 hr
    exact ⟨h7, e⟩

theorem streams_nodup (hset : IsSetOrder env.setOrder) (hn : (events.map getEventid).Nodup)
    (hown : OwnRecords env cfg events) {streams : List Stream}
    (h : selectStreams env cfg events = .ok (some streams)) : streams.Nodup := by
  obtain ⟨-, pairs, hp, hf⟩ := C28_pairs hset hn h
  have e : streams.map (fun s => (s.event, s.station)) = pairs := by
    clear h hp
    induction hf with
    | nil => rfl
    | @cons p st _ _ h _ ih =>
      obtain ⟨ev, hev, h1, h2⟩ := h
      obtain ⟨h3, h4⟩ := usable_station hown hev h2
      rw [List.map_cons, ih, h3, h4, h1]
  rw [← e] at hp
  exact hp.of_map

theorem usablePairs_without (hown : OwnRecords env cfg events) (hu : Useless env cfg events drop) :
    UsablePairs (Without env drop) cfg events = UsablePairs env cfg events := by
  ext p
  unfold UsablePairs
  simp only [Set.mem_setOf_eq]
  constructor
  · rintro ⟨ev, hev, he, st, h⟩
    exact ⟨ev, hev, he, st, ((usable_without hown hev).1 h).2⟩
  · rintro ⟨ev, hev, he, st, h⟩
    exact ⟨ev, hev, he, st, (usable_without hown hev).2 ⟨fun hd => hu ev hev _ hd st h, h⟩⟩

theorem ownRecords_without (hown : OwnRecords env cfg events) (ev : Event) (hev : ev ∈ events) {sta : String}
    {st : Stream} (h : Usable (Without env drop) cfg events ev sta st) :
    st.event = getEventid ev ∧ st.station = sta :=
  usable_station hown hev ((usable_without hown hev).1 h).2

theorem streams_nodup_without (hset : IsSetOrder env.setOrder) (hn : (events.map getEventid).Nodup)
    (hown : OwnRecords env cfg events) {streams : List Stream}
    (h : selectStreams (Without env drop) cfg events = .ok (some streams)) : streams.Nodup := by
  obtain ⟨-, pairs, hp, hf⟩ := C28_pairs (env := Without env drop) hset hn h
  have e : streams.map (fun s => (s.event, s.station)) = pairs := by
    clear h hp
    induction hf with
    | nil => rfl
    | @cons p st _ _ h _ ih =>
      obtain ⟨ev, hev, h1, h2⟩ := h
      obtain ⟨h3, h4⟩ := ownRecords_without hown ev hev h2
      rw [List.map_cons, ih, h3, h4, h1]
  rw [← e] at hp
  exact hp.of_map

end

end Invert

section

variable {env : Env} {cfg : InvCfg} {events : List Event} {drop : List String}

/-- **C149** Without stations which have no usable pair, an inversion goes on with the same records (up
to the order of records with the same origin time and distance), or it is skipped with and without these
stations. -/
theorem C149_records (hset : IsSetOrder env.setOrder) (hn : (events.map getEventid).Nodup)
    (hr : OnsetsReadable cfg events) (hw : ∀ evid pat t1 t2, ∃ d, env.getWaveforms evid pat t1 t2 = .ok d)
    (hown : OwnRecords env cfg events) (hu : Useless env cfg events drop)
    {o : Option (List Stream)} (h : selectStreams env cfg events = .ok o) :
    ∃ o', selectStreams (Without env drop) cfg events = .ok o' ∧ (o' = none ↔ o = none) ∧
      (∀ l l', o = some l → o' = some l' → l'.Perm l) ∧ (NoTies env cfg events → o' = o) := by
  have hev : ∀ ev ∈ events, ∃ ori, getOrigin ev = .ok ori := by
    unfold selectStreams at h
    obtain ⟨origins, ho, -⟩ := bind_ok.1 h
    intro ev hev
    obtain ⟨ori, h1, -⟩ := (originsOf_spec hn ho (by simp [Dict.keys])).1 ev hev
    exact ⟨ori, h1⟩
  obtain ⟨o', h'⟩ := selectStreams_total (env := Without env drop) (cfg := cfg) hset hn hr hw hev
  have hnone : o' = none ↔ o = none := by
    rw [C29_invert_partial hset hn hr hw h, C29_invert_partial (env := Without env drop) hset hn hr hw h',
      usablePairs_without hown hu]
  have hperm : ∀ l l', o = some l → o' = some l' → l'.Perm l := by
    rintro l l' rfl rfl
    rw [List.perm_ext_iff_of_nodup (streams_nodup_without hset hn hown h') (streams_nodup hset hn hown h)]
    intro st
    rw [(C28_pairs hset hn h).1, (C28_pairs (env := Without env drop) hset hn h').1]
    constructor
    · rintro ⟨ev, hev, sta, hst⟩
      exact ⟨ev, hev, sta, ((usable_without hown hev).1 hst).2⟩
    · rintro ⟨ev, hev, sta, hst⟩
      exact ⟨ev, hev, sta, (usable_without hown hev).2 ⟨fun hd => hu ev hev _ hd st hst, hst⟩⟩
  refine ⟨o', h', hnone, hperm, fun ht => ?_⟩
  cases o with
  | none => exact hnone.2 rfl
  | some l =>
    cases o' with
    | none => exact absurd (hnone.1 rfl) (by simp)
    | some l' =>
      congr 1
      have hp := hperm l l' rfl rfl
      refine hp.eq_of_pairwise (le := fun s s' => s.origin < s'.origin ∨
        s.origin = s'.origin ∧ s.distance ≤ s'.distance) ?_
        (C28_order (env := Without env drop) hset hn h') (C28_order hset hn h)
      intro a b ha hb hab hba
      have ha' : a ∈ l := hp.subset ha
      obtain ⟨ev, hev, sta, hua⟩ := ((C28_pairs hset hn h).1 a).1 ha'
      obtain ⟨ev', hev', sta', hub⟩ := ((C28_pairs hset hn h).1 b).1 hb
      rcases hab with hab | ⟨e1, e2⟩ <;> rcases hba with hba | ⟨e3, e4⟩
      · exact absurd hab (not_lt.2 hba.le)
      · rw [e3] at hab; exact absurd hab (lt_irrefl _)
      · rw [e1] at hba; exact absurd hba (lt_irrefl _)
      · exact ht ev hev ev' hev' sta sta' a b hua hub e1 (le_antisymm e2 e4)

namespace Invert

theorem runShared_without (args : BandArgs) (streams : List Stream) (bands : List (ℝ × ℝ)) :
    runShared (Without env drop) cfg args streams bands = runShared env cfg args streams bands := by
  induction bands generalizing streams with
  | nil => rfl
  | cons b bands ih =>
    unfold runShared
    simp only [ih]
    rfl

theorem runBands_without (args : BandArgs) (streams : List Stream) (bands : List (ℝ × ℝ)) (cpus : ℕ)
    (schedule : List ℕ) : runBands (Without env drop) cfg args streams bands cpus schedule =
      runBands env cfg args streams bands cpus schedule := by
  unfold runBands runSequential runPool
  simp only [runShared_without]
  rfl

theorem tables_rows {env env' : Env} (horc : env'.orc = env.orc) {stations : List String} {freq : List ℝ}
    {rlist : List (Option BandResult)} {o : Option InvRes}
    (h : tables env cfg events stations freq rlist = .ok o) (stations' : List String) :
    ∃ o', tables env' cfg events stations' freq rlist = .ok o' ∧
      ((o = none ∧ o' = none) ∨ ∃ res res', o = some res ∧ o' = some res' ∧ res'.freq = res.freq ∧
        res'.g0 = res.g0 ∧ res'.b = res.b ∧ res'.error = res.error ∧ res'.nstations = res.nstations ∧
        res'.v0 = res.v0 ∧ res'.events = res.events ∧ (res'.R = none ↔ res.R = none) ∧
        (∀ T, res.R = some T → T = stations.map (fun st => (st, rlist.map (entry (·.R) st)))) ∧
        ∀ T, res'.R = some T → T = stations'.map (fun st => (st, rlist.map (entry (·.R) st)))) := by
  unfold tables at h ⊢
  split at h
  · rename_i hc
    rw [if_pos hc]
    obtain rfl := Except.ok.inj h
    exact ⟨none, rfl, Or.inl ⟨rfl, rfl⟩⟩
  · rename_i hc
    rw [if_neg hc]
    obtain ⟨err, he, h⟩ := bind_ok.1 h
    obtain ⟨evs, hv, h⟩ := bind_ok.1 h
    have hv' : eventTables env' cfg freq (lastV0 rlist) rlist events = .ok evs := by
      unfold eventTables sourceEvents at hv ⊢
      rw [horc]
      exact hv
    simp only [he, hv', bind, Except.bind, pure, Except.pure]
    obtain rfl := Except.ok.inj h
    refine ⟨_, rfl, Or.inr ⟨_, _, rfl, rfl, rfl, rfl, rfl, rfl, rfl, rfl, rfl, ?_, ?_, ?_⟩⟩
    · simp only
      split_ifs <;> simp
    · intro T hT
      exact (ite_some hT).symm
    · intro T hT
      exact (ite_some hT).symm

theorem get?_rows {stations : List String} {f : String → List Cell} {sta : String} :
    Dict.get? (stations.map (fun st => (st, f st)) : Dict String (List Cell)) sta =
      if sta ∈ stations then some (f sta) else none := by
  induction stations with
  | nil => rfl
  | cons a l ih =>
    rw [List.map_cons]
    unfold Dict.get?
    by_cases h : a = sta
    · subst h; simp
    · rw [if_neg h, ih]
      have : ¬ sta = a := fun e => h e.symm
      simp [this]

end Invert

/-- **C149** Stations which have no usable pair have no influence on an inversion: without them the result
is the same but for rows in the table of site responses, which contain nothing. -/
theorem C149_inversion {bands : Dict ℝ (ℝ × ℝ)} {cpus : ℕ} {schedule : List ℕ}
    (hset : IsSetOrder env.setOrder) (hn : (events.map getEventid).Nodup)
    (hr : OnsetsReadable cfg events) (hw : ∀ evid pat t1 t2, ∃ d, env.getWaveforms evid pat t1 t2 = .ok d)
    (hown : OwnRecords env cfg events) (hties : NoTies env cfg events) (hu : Useless env cfg events drop)
    -- station codes without network code are not mistaken for dropped stations
    (hcodes : cfg.ignoreNetworkCode = true → ∀ ch ∈ env.channels, dropNetwork (getStation ch) ∉ drop)
    (hb : getFreqs cfg.freqs = .ok bands) (hs : Schedule cfg (bands.map Prod.snd) cpus schedule)
    {o : Option InvRes} (h : invert env cfg cpus schedule events = .ok o) :
    ∃ o', invert (Without env drop) cfg cpus schedule events = .ok o' ∧
      ((o = none ∧ o' = none) ∨ ∃ res res', o = some res ∧ o' = some res' ∧ SameButEmptyRows res res') := by
  unfold invert at h ⊢
  split at h
  · simp at h
  rename_i hc
  rw [if_neg hc]
  rw [hb] at h ⊢
  simp only [bind, Except.bind] at h ⊢
  cases hsel : selectStreams env cfg events with
  | error e => rw [hsel] at h; simp at h
  | ok sel =>
    obtain ⟨sel', hsel', -, -, heq⟩ := C149_records hset hn hr hw hown hu hsel
    obtain rfl := heq hties
    rw [hsel] at h
    rw [hsel']
    cases sel' with
    | none =>
      obtain rfl := Except.ok.inj h
      exact ⟨none, rfl, Or.inl ⟨rfl, rfl⟩⟩
    | some selected =>
      simp only at h ⊢
      cases ho : originsOf events with
      | error e => rw [ho] at h; simp at h
      | ok origins =>
        rw [ho] at h
        simp only at h ⊢
        cases hst : resultStations env cfg with
        | error e => rw [hst] at h; simp at h
        | ok stations =>
          rw [hst] at h
          simp only at h
          -- records and their stations
          have husable : ∀ st ∈ selected, ∃ ch ∈ env.channels, getStation ch = st.station ∧ st.station ∉ drop := by
            intro st hm
            obtain ⟨ev, hev, sta, hus⟩ := ((C28_pairs hset hn hsel).1 st).1 hm
            obtain ⟨-, e⟩ := usable_station hown hev hus
            have hd : sta ∉ drop := fun hd => hu ev hev sta hd st hus
            obtain ⟨_, _, _, _, _, _, _, ⟨ch, hch, hce⟩, -⟩ := hus
            exact ⟨ch, hch, by rw [e, hce], by rw [e]; exact hd⟩
          have hdeep : ∀ sta, sta ∉ drop →
              boreholes (Without env drop) origins sta = boreholes env origins sta := by
            intro sta hd
            unfold boreholes
            rw [decide_eq_decide]
            have h1 : sta ∈ stationsOf (Without env drop) ↔ sta ∈ stationsOf env := by
              unfold stationsOf
              have := channels_without (env := env) (drop := drop) (sta := sta)
              rw [show (Without env drop).setOrder = env.setOrder from rfl, (hset _).2, (hset _).2,
                List.mem_map, List.mem_map, this]
              simp [hd]
            rw [h1]
            unfold deepStation
            rw [oneChannel_without hd]
            rfl
          have hign : ignoreNetworks cfg (boreholes (Without env drop) origins) selected =
              ignoreNetworks cfg (boreholes env origins) selected := by
            unfold ignoreNetworks
            split
            · rename_i hi
              apply List.map_congr_left
              intro st hm
              obtain ⟨ch, hch, hce, -⟩ := husable st hm
              have := hcodes hi ch hch
              rw [hce] at this
              rw [hdeep _ this]
            · rfl
          have hst' : ∃ stations', resultStations (Without env drop) cfg = .ok stations' := by
            unfold resultStations at hst ⊢
            split at hst
            · rename_i hi
              rw [if_pos hi]
              obtain ⟨l, hl, -⟩ := bind_ok.1 hst
              obtain ⟨l', hl'⟩ : ∃ l', mapExc (fun st : String => if '.' ∈ st.toList then .ok (dropNetwork st)
                  else .error PyErr.indexError) (stationsOf (Without env drop)) = .ok l' := by
                have hdot : ∀ st ∈ stationsOf (Without env drop), '.' ∈ st.toList := by
                  intro st hm
                  have hm' : st ∈ stationsOf env := by
                    unfold stationsOf at hm ⊢
                    rw [show (Without env drop).setOrder = env.setOrder from rfl, (hset _).2, List.mem_map] at hm
                    rw [(hset _).2, List.mem_map]
                    exact (channels_without.1 hm).2
                  obtain ⟨i, hi'⟩ := List.mem_iff_getElem?.1 hm'
                  obtain ⟨y, -, hy⟩ := forall₂_at (mapExc_ok.1 hl) hi'
                  by_contra hne
                  rw [if_neg hne] at hy
                  simp at hy
                generalize stationsOf (Without env drop) = sl at hdot
                induction sl with
                | nil => exact ⟨[], rfl⟩
                | cons a sl ih =>
                  obtain ⟨l', hl'⟩ := ih (fun st hm => hdot st (by simp [hm]))
                  refine ⟨dropNetwork a :: l', ?_⟩
                  rw [mapExc_ok] at hl' ⊢
                  exact List.Forall₂.cons (by rw [if_pos (hdot a (by simp))]) hl'
              exact ⟨_, by rw [hl']; rfl⟩
            · rename_i hi
              rw [if_neg hi]
              exact ⟨_, rfl⟩
          obtain ⟨stations', hst'⟩ := hst'
          rw [hst', hign]
          simp only
          cases ha : bandArgs cfg bands with
          | error e => rw [ha] at h; simp at h
          | ok args =>
            rw [ha] at h
            simp only at h ⊢
            rw [runBands_without]
            cases hrun : runBands env cfg args (ignoreNetworks cfg (boreholes env origins) selected)
                (bands.map Prod.snd) cpus schedule with
            | error e => rw [hrun] at h; simp at h
            | ok rlist =>
              rw [hrun] at h
              simp only at h ⊢
              obtain ⟨o', h', hcase⟩ := tables_rows (env' := Without env drop) rfl h stations'
              refine ⟨o', h', hcase.imp_right ?_⟩
              rintro ⟨res, res', rfl, rfl, h1, h2, h3, h4, h5, h6, h7, h8, h9, h10⟩
              refine ⟨res, res', rfl, rfl, h1, h2, h3, h4, h5, h6, h7, h8, ?_⟩
              have hm := (C23_stations hset hst).2
              have hm' := (C23_stations (env := Without env drop) hset hst').2
              intro T T' hT hT' sta
              rw [h9 T hT, h10 T' hT', get?_rows, get?_rows]
              constructor
              · intro row hrow
                have hin : sta ∈ stations' := by
                  by_contra hne
                  rw [if_neg hne] at hrow
                  simp at hrow
                have hin' : sta ∈ stations := by
                  obtain ⟨ch, hch, hx⟩ := (hm' sta).1 hin
                  exact (hm sta).2 ⟨ch, (List.mem_filter.1 hch).1, hx⟩
                rw [if_pos hin] at hrow
                rw [if_pos hin', hrow]
              · intro hnone row hrow c hcm
                have hnin : sta ∉ stations' := by
                  intro hne
                  rw [if_pos hne] at hnone
                  simp at hnone
                have hin : sta ∈ stations := by
                  by_contra hne
                  rw [if_neg hne] at hrow
                  simp at hrow
                rw [if_pos hin, Option.some.injEq] at hrow
                rw [← hrow] at hcm
                obtain ⟨r, hr', rfl⟩ := List.mem_map.1 hcm
                unfold entry
                cases r with
                | none => rfl
                | some r =>
                  simp only [Option.bind_some]
                  cases hR : r.R with
                  | none => rfl
                  | some d =>
                    simp only [Option.bind_some]
                    have : d.get? sta = none := by
                      rw [Dict.get?_eq_none]
                      intro hk
                      obtain ⟨s, hsm, hse⟩ := runBands_sites hs hrun hr' hR sta hk
                      apply hnin
                      rw [hm']
                      unfold ignoreNetworks at hsm
                      by_cases hi : cfg.ignoreNetworkCode = true
                      · rw [if_pos hi] at hsm
                        obtain ⟨st, hstm, rfl⟩ := List.mem_map.1 hsm
                        obtain ⟨ch, hch, hce, hcd⟩ := husable st hstm
                        refine ⟨ch, List.mem_filter.2 ⟨hch, by rw [hce]; simpa using hcd⟩, ?_⟩
                        rw [if_pos hi, hce, ← hse]
                        exact dropNetwork_spec _
                      · rw [if_neg hi] at hsm
                        obtain ⟨ch, hch, hce, hcd⟩ := husable s hsm
                        refine ⟨ch, List.mem_filter.2 ⟨hch, by rw [hce]; simpa using hcd⟩, ?_⟩
                        rw [if_neg hi, hce, hse]
                    rw [this]
                    rfl

end

/-- **C149** Reasons for a station without usable pair: the distance cannot be calculated, the station is
too far away from all events, there is no S-pick or the client returns no data. -/
theorem C149_reasons {env : Env} {cfg : InvCfg} {events : List Event} {drop : List String}
    (h : ∀ sta ∈ drop, ∀ ev ∈ events, ∀ ori, getOrigin ev = .ok ori →
      (∀ d, ¬ HypoDistance env cfg ori sta d) ∨
      (∃ v, cfg.skipDistance = some v ∧ v ≠ 0 ∧ ∀ d, HypoDistance env cfg ori sta d → v < d / 1000) ∨
      (cfg.usePicks = true ∧ ∀ ar, getArrivals ev = .ok (some ar) → ∀ t, ¬ LastPick 'S' ar sta t) ∨
      env.getWaveforms (getEventid ev) (pattern env sta) (ori.time + cfg.requestWindow.1)
        (ori.time + cfg.requestWindow.2) = .ok none) : Useless env cfg events drop := by
  intro ev hev sta hd st hus
  obtain ⟨ori, d, p, s, traces, st0, h1, -, h3, h4, h5, ⟨raw, h6, -⟩, -⟩ := hus
  rcases h sta hd ev hev ori h1 with h | ⟨v, hv, h0, h⟩ | ⟨hu, h⟩ | h
  · exact h d h3
  · exact absurd (h4 v hv h0) (not_le.2 (h d h3))
  · rcases h5 with ⟨-, ar, ha, hs, -⟩ | ⟨hn, -⟩
    · exact h ar ha s hs
    · rw [hu] at hn; simp at hn
  · rw [h] at h6
    simp at h6

/-! ## Examples -/

namespace UselessExample

open JobsExample TablesExample

/-- There is another station without coordinates; the client has data of the first station only. -/
noncomputable def env : Env :=
  { exEnv with
    channels := [".A..Z", "X.B..Z"]
    coords := fun ch _ => if ch = "X.B..Z" then none else some ⟨0, 0, 0, 0⟩
    getWaveforms := fun _ pat _ _ => if pat = ".A..?" then
      .ok (some [⟨".A..Z", 0, 1, [0, 0, 2, 1, 1]⟩, ⟨".A..N", 0, 1, [0, 0, 2, 1, 1]⟩,
        ⟨".A..E", 0, 1, [0, 0, 2, 1, 1]⟩]) else .ok none }

noncomputable def ori : Origin := ⟨0, 0, 0, some 1, []⟩

theorem staB : getStation "X.B..Z" = "X.B" := by decide

theorem stations_two : stationsOf env = ["A", "X.B"] := by
  simp [stationsOf, env, exEnv, exSta, staB]

theorem channelA : oneChannel env "A" = ".A..Z" := by
  simp [oneChannel, env, exSta, staB]

theorem channelB : oneChannel env "X.B" = "X.B..Z" := by
  simp [oneChannel, env, exSta, staB]

theorem patternA : pattern env "A" = ".A..?" := by
  unfold pattern
  rw [channelA]
  decide

theorem origins : originsOf [exEvent] = .ok [("e", ori)] := by
  unfold originsOf
  have h : getOrigin exEvent = .ok ori := rfl
  simp [exId, h, bind, Except.bind, pure, Except.pure, Dict.set]

theorem readable : OnsetsReadable (exCfg (some 1)) [exEvent] := by
  refine ⟨?_, fun _ => ⟨1, rfl, one_ne_zero⟩, fun h => by simp [exCfg] at h⟩
  intro vp hvp
  obtain rfl := Option.some.inj hvp
  exact one_ne_zero

theorem client : ∀ evid pat t1 t2, ∃ d, env.getWaveforms evid pat t1 t2 = .ok d := by
  intro evid pat t1 t2
  by_cases h : pat = ".A..?"
  · exact ⟨_, if_pos h⟩
  · exact ⟨_, if_neg h⟩

theorem setOrder : IsSetOrder env.setOrder := fun l => ⟨List.nodup_dedup l, fun _ => List.mem_dedup⟩

theorem pattern_unique {sta : String} (h : pattern env sta = ".A..?") : sta = "A" := by
  by_contra hA
  by_cases hB : sta = "X.B"
  · rw [hB] at h
    unfold pattern at h
    rw [channelB] at h
    exact absurd h (by decide)
  · have : oneChannel env sta = "" := by
      unfold oneChannel
      have : env.channels.filter (fun ch => decide (getStation ch = sta)) = [] := by
        simp [env, exSta, staB, Ne.symm hA, Ne.symm hB]
      rw [this]
      rfl
    unfold pattern at h
    rw [this] at h
    exact absurd h (by decide)

theorem own : OwnRecords env (exCfg (some 1)) [exEvent] := by
  intro ev hev o sta traces hw tr htr
  obtain ⟨raw, h1, h2, h3, rfl, -⟩ := hw
  by_cases hp : pattern env sta = ".A..?"
  · have e : env.getWaveforms (getEventid ev) (pattern env sta) (o.time + (exCfg (some 1)).requestWindow.1)
        (o.time + (exCfg (some 1)).requestWindow.2) = _ := if_pos hp
    rw [e] at h1
    obtain rfl := Option.some.inj (Except.ok.inj h1)
    have : tr = ⟨".A..Z", 0, 1, [0, 0, 2, 1, 1]⟩ := (Option.some.inj htr).symm
    rw [this, pattern_unique hp]
    exact exSta
  · have e : env.getWaveforms (getEventid ev) (pattern env sta) (o.time + (exCfg (some 1)).requestWindow.1)
        (o.time + (exCfg (some 1)).requestWindow.2) = _ := if_neg hp
    rw [e] at h1
    simp at h1

theorem useless : Useless env (exCfg (some 1)) [exEvent] ["X.B"] := by
  apply C149_reasons
  intro sta hs ev _ o _
  left
  rw [List.mem_singleton] at hs
  subst hs
  rintro d ⟨c, h, depth, hc, -⟩
  rw [channelB] at hc
  simp [env] at hc

theorem select : selectStreams env (exCfg (some 1)) [exEvent] = .ok (some [exStream 1]) := by
  have hd : distance env (exCfg (some 1)) ori "A" = some 1 := by
    unfold distance
    rw [channelA]
    simp [env, exEnv, exCfg, ori]
  have hd' : distance env (exCfg (some 1)) ori "X.B" = none := by
    unfold distance
    rw [channelB]
    simp [env]
  have hl : distLoop env (exCfg (some 1)) [("e", ori)] = ⟨[("e", "A")], [(("e", "A"), 1)]⟩ := by
    unfold distLoop allPairs
    rw [stations_two]
    simp only [Dict.keys, List.map_cons, List.map_nil, List.flatMap_cons, List.flatMap_nil,
      List.append_nil, List.foldl_cons, List.foldl_nil]
    have ht : tooFar (exCfg (some 1)) 1 = false := rfl
    simp [distStep, originAt, Dict.get?, hd, hd', ht, Dict.set]
  have hdeep : boreholes env [("e", ori)] "A" = false := by
    unfold boreholes
    rw [decide_eq_false_iff_not]
    rintro ⟨-, o, -, c, hc, -, -, hlt⟩
    rw [channelA] at hc
    simp only [env, show (".A..Z" : String) ≠ "X.B..Z" by decide, if_false, Option.some.injEq] at hc
    rw [← hc] at hlt
    norm_num at hlt
  have hsort : sortPairs [("e", ori)] ⟨[("e", "A")], [(("e", "A"), 1)]⟩ = [("e", "A")] := by simp [sortPairs]
  have hons : onsetStep (exCfg (some 1)) [] [("e", ori)] [(("e", "A"), 1)] { pairs := [("e", "A")] } ("e", "A") =
      .ok ⟨[("e", "A")], [(("e", "A"), 1)], [(("e", "A"), 1)]⟩ := by
    simp [onsetStep, onsets, firstOnsets, exCfg, originAt, distAt, Dict.get?, bind, Except.bind, pure,
      Except.pure, Dict.set, ori]
  have hf : fetch env (exCfg (some 1)) [("e", ori)] [(("e", "A"), 1)]
      ⟨[("e", "A")], [(("e", "A"), 1)], [(("e", "A"), 1)]⟩ (boreholes env [("e", ori)]) ("e", "A") =
      .ok (some (exStream 1)) := by
    have hc : checkData env (exCfg (some 1)) (0 + 0) (0 + 4)
        (some [⟨".A..Z", 0, 1, [0, 0, 2, 1, 1]⟩,
      ⟨".A..N", 0, 1, [0, 0, 2, 1, 1]⟩, ⟨".A..E", 0, 1, [0, 0, 2, 1, 1]⟩]) =
      some [⟨".A..Z", 0, 1, [0, 0, 2, 1, 1]⟩,
      ⟨".A..N", 0, 1, [0, 0, 2, 1, 1]⟩, ⟨".A..E", 0, 1, [0, 0, 2, 1, 1]⟩] := by
      norm_num [checkData, env, exEnv, covers, exCfg]
    unfold fetch
    have hw : ∀ t1 t2, env.getWaveforms "e" (pattern env "A") t1 t2 =
        .ok (some [⟨".A..Z", 0, 1, [0, 0, 2, 1, 1]⟩,
      ⟨".A..N", 0, 1, [0, 0, 2, 1, 1]⟩, ⟨".A..E", 0, 1, [0, 0, 2, 1, 1]⟩]) := by
      intro t1 t2
      rw [patternA]
      rfl
    have ht1 : (exCfg (some 1)).requestWindow = (0, 4) := rfl
    have hot : ori.time = 0 := rfl
    simp only [originAt, Dict.get?, if_true, Option.getD_some, hw, ht1, hot, hc, bind, Except.bind,
      List.length_cons, List.length_nil, pure, Except.pure, distAt]
    rw [if_neg (by simp)]
    unfold mkStream
    simp only [List.headD_cons, exSta, hdeep]
    simp [exStream, ori]
  unfold selectStreams
  simp only [origins, hl, hsort, bind, Except.bind]
  have ha : arrivalsIf (exCfg (some 1)) [exEvent] = .ok [] := rfl
  rw [ha]
  simp only [List.foldlM_cons, List.foldlM_nil, bind, Except.bind, hons, pure, Except.pure, mapExc, hf]
  have hcor : correct env (exCfg (some 1)) [exStream 1] = [exStream 1] := rfl
  have htf : ¬ tooFew (exCfg (some 1)) 1 := by simp [Invert.tooFew, exCfg]
  simp [hcor, htf]

theorem bands : getFreqs (exCfg (some 1)).freqs =
    .ok [(0.25, (0.25 - halfWidth 0.25 1, 0.25 + halfWidth 0.25 1))] := by
  simp [exCfg, getFreqs, bandsOf, mkDict, Dict.set]

theorem run : ∃ res, invert env (exCfg (some 1)) 1 [] [exEvent] = .ok (some res) := by
  obtain ⟨res, h⟩ := exInvert
  unfold invert at h ⊢
  rw [if_neg (by simp [exCfg])] at h ⊢
  rw [bands] at h ⊢
  simp only [exSelect, select, origins, bind, Except.bind] at h ⊢
  have h1 : resultStations exEnv (exCfg (some 1)) = .ok ["A"] := by
    unfold resultStations
    rw [exStations]
    rfl
  have h2 : resultStations env (exCfg (some 1)) = .ok ["A", "X.B"] := by
    unfold resultStations
    rw [stations_two]
    rfl
  rw [h1] at h
  rw [h2]
  simp only at h ⊢
  split at h
  · simp at h
  rename_i args hargs
  split at h
  · simp at h
  rename_i rlist hrun
  have e : ∀ e, ignoreNetworks (exCfg (some 1)) e [exStream 1] = [exStream 1] := fun _ => rfl
  rw [e] at hrun ⊢
  have e' : ∀ a l b, runBands env (exCfg (some 1)) a l b 1 [] = runBands exEnv (exCfg (some 1)) a l b 1 [] := by
    intro a l b
    unfold runBands
    rw [if_pos (by rfl), if_pos (by rfl), C24_sequential, C24_sequential]
    rfl
  rw [e', hrun]
  simp only
  obtain ⟨o', h', hcase⟩ := tables_rows (env' := env) rfl h ["A", "X.B"]
  rcases hcase with ⟨h, -⟩ | ⟨_, res', -, rfl, -⟩
  · simp at h
  · exact ⟨res', h'⟩

/-- The row of the useless station disappears, everything else stays the same. -/
example : ∃ res res', invert env (exCfg (some 1)) 1 [] [exEvent] = .ok (some res) ∧
    invert (Without env ["X.B"]) (exCfg (some 1)) 1 [] [exEvent] = .ok (some res') ∧
    SameButEmptyRows res res' := by
  obtain ⟨res, h⟩ := run
  obtain ⟨o', h', hcase⟩ := C149_inversion (drop := ["X.B"]) setOrder (by simp) readable client own
    (by
      intro ev hev ev' hev' sta sta' st st' h1 h2 _ _
      obtain ⟨-, pairs, hp, hf⟩ := C28_pairs setOrder (by simp) select
      have m1 := ((C28_pairs setOrder (by simp) select).1 st).2 ⟨ev, hev, sta, h1⟩
      have m2 := ((C28_pairs setOrder (by simp) select).1 st').2 ⟨ev', hev', sta', h2⟩
      rw [List.mem_singleton] at m1 m2
      rw [m1, m2])
    useless (fun h => by simp [exCfg] at h) bands (fun hne => absurd rfl hne) h
  rcases hcase with ⟨hn, -⟩ | ⟨res0, res', e1, rfl, hs⟩
  · simp at hn
  · obtain rfl := Option.some.inj e1
    exact ⟨res, res', h, h', hs⟩

end UselessExample

end Qopen
