import Verif.Props.UselessSeparate

/-!
# Results do not depend on the order of the stations (C150)

The code collects the stations in a set of strings, whose order changes from run to run.
-/

namespace Qopen

open Real Spec Util Catalog Freqs Source Invert InvertFb Energy Wrapper Collect Total

/-! ## Specification -/

namespace Spec

/-- Another order of sets and of the stations in the inventory. -/
def Reordered (env : Env) (order : List String → List String) (chs : List String) : Env :=
  { env with setOrder := order, channels := chs }

/-- Each station has the same channels in the same order. -/
def SameStations (chs chs' : List String) : Prop :=
  ∀ sta, chs'.filter (fun ch => decide (getStation ch = sta)) = chs.filter (fun ch => decide (getStation ch = sta))

/-- The results agree up to the order of the rows in the table of site responses. -/
structure SameButRowOrder (res res' : InvRes) : Prop where
  freq : res'.freq = res.freq
  g0 : res'.g0 = res.g0
  b : res'.b = res.b
  error : res'.error = res.error
  nstations : res'.nstations = res.nstations
  v0 : res'.v0 = res.v0
  events : res'.events = res.events
  noSites : res'.R = none ↔ res.R = none
  sites : ∀ T T', res.R = some T → res'.R = some T' → T'.Perm T ∧ ∀ sta, T'.get? sta = T.get? sta

/-- The results of an event agree up to the order of the rows in the table of site responses. -/
structure SameEntryButOrder (e e' : Dict String RVal) : Prop where
  other : ∀ key ∈ ["g0", "b", "error", "nstations", "v0", "W", "sds", "M0", "Mw", "Mcat", "fc", "n", "gamma",
    "fit_error"], e'.get? key = e.get? key
  noSites : e'.get? "R" = none ↔ e.get? "R" = none
  sites : ∀ T T', e.get? "R" = some (.sites T) → e'.get? "R" = some (.sites T') →
    T'.Perm T ∧ ∀ sta, T'.get? sta = T.get? sta

/-- The results of all events and their means agree up to the order of the rows in the tables of site
responses. -/
structure SameMeansButOrder (w w' : WrapRes) : Prop where
  freq : w'.freq = w.freq
  g0 : w'.g0 = w.g0
  b : w'.b = w.b
  error : w'.error = w.error
  sites : ∀ sta, (w'.R.getD []).get? sta = (w.R.getD []).get? sta
  events : List.Forall₂ (fun x y => x.1 = y.1 ∧ SameEntryButOrder x.2 y.2) w.events w'.events

end Spec

namespace Invert

section

variable {env : Env} {cfg : InvCfg} {events : List Event} {order : List String → List String} {chs : List String}

theorem channels_reordered (hc : SameStations env.channels chs) {sta : String} :
    (∃ ch ∈ (Reordered env order chs).channels, getStation ch = sta) ↔ ∃ ch ∈ env.channels, getStation ch = sta := by
  have h : ∀ l : List String, (∃ ch ∈ l, getStation ch = sta) ↔
      l.filter (fun ch => decide (getStation ch = sta)) ≠ [] := by
    intro l
    rw [Ne, List.filter_eq_nil_iff]
    simp
  rw [h, h]
  show chs.filter _ ≠ [] ↔ _
  rw [hc sta]

theorem oneChannel_reordered (hc : SameStations env.channels chs) (sta : String) :
    oneChannel (Reordered env order chs) sta = oneChannel env sta := by
  unfold oneChannel Reordered
  simp only [hc sta]

theorem waveforms_reordered (hc : SameStations env.channels chs) {ev : Event} {ori : Origin} {sta : String}
    {traces : List RawTrace} :
    Waveforms (Reordered env order chs) cfg ev ori sta traces ↔ Waveforms env cfg ev ori sta traces := by
  unfold Waveforms pattern
  rw [oneChannel_reordered hc]
  rfl

theorem usable_reordered (hc : SameStations env.channels chs) {ev : Event} {sta : String} {st : Stream} :
    Usable (Reordered env order chs) cfg events ev sta st ↔ Usable env cfg events ev sta st := by
  have h1 : ∀ ori d, HypoDistance (Reordered env order chs) cfg ori sta d ↔ HypoDistance env cfg ori sta d := by
    intro ori d
    unfold HypoDistance
    rw [oneChannel_reordered hc]
    rfl
  have h2 : ∀ s, InBorehole (Reordered env order chs) events s ↔ InBorehole env events s := by
    intro s
    unfold InBorehole
    rw [oneChannel_reordered hc, channels_reordered hc]
    rfl
  unfold Usable
  simp only [channels_reordered hc, h1, h2, waveforms_reordered hc]
  rfl

theorem runShared_reordered (args : BandArgs) (streams : List Stream) (bands : List (ℝ × ℝ)) :
    runShared (Reordered env order chs) cfg args streams bands = runShared env cfg args streams bands := by
  induction bands generalizing streams with
  | nil => rfl
  | cons b bands ih =>
    unfold runShared
    simp only [ih]
    rfl

theorem runBands_reordered (args : BandArgs) (streams : List Stream) (bands : List (ℝ × ℝ)) (cpus : ℕ)
    (schedule : List ℕ) : runBands (Reordered env order chs) cfg args streams bands cpus schedule =
      runBands env cfg args streams bands cpus schedule := by
  unfold runBands runSequential runPool
  simp only [runShared_reordered]
  rfl

end

end Invert

section

variable {env : Env} {cfg : InvCfg} {events : List Event} {order : List String → List String} {chs : List String}

/-- **C150** The order of sets and of the stations in the inventory has no influence on the records of an
inversion, but for the order of records with the same origin time and distance. -/
theorem C150_records (hset : IsSetOrder env.setOrder) (hset' : IsSetOrder order)
    (hc : SameStations env.channels chs) (hn : (events.map getEventid).Nodup)
    (hr : OnsetsReadable cfg events) (hw : ∀ evid pat t1 t2, ∃ d, env.getWaveforms evid pat t1 t2 = .ok d)
    (hown : OwnRecords env cfg events)
    {o : Option (List Stream)} (h : selectStreams env cfg events = .ok o) :
    ∃ o', selectStreams (Reordered env order chs) cfg events = .ok o' ∧ (o' = none ↔ o = none) ∧
      (∀ l l', o = some l → o' = some l' → l'.Perm l) ∧ (NoTies env cfg events → o' = o) := by
  have hev : ∀ ev ∈ events, ∃ ori, getOrigin ev = .ok ori := by
    unfold selectStreams at h
    obtain ⟨origins, ho, -⟩ := bind_ok.1 h
    intro ev hev
    obtain ⟨ori, h1, -⟩ := (originsOf_spec hn ho (by simp [Dict.keys])).1 ev hev
    exact ⟨ori, h1⟩
  have hs' : IsSetOrder (Reordered env order chs).setOrder := hset'
  have hw' : ∀ evid pat t1 t2, ∃ d, (Reordered env order chs).getWaveforms evid pat t1 t2 = .ok d := hw
  have hown' : OwnRecords (Reordered env order chs) cfg events := by
    intro ev hev ori sta traces ht
    exact hown ev hev ori sta traces ((waveforms_reordered hc).1 ht)
  obtain ⟨o', h'⟩ := selectStreams_total (cfg := cfg) hs' hn hr hw' hev
  have hpairs : UsablePairs (Reordered env order chs) cfg events = UsablePairs env cfg events := by
    ext p
    unfold UsablePairs
    simp only [Set.mem_setOf_eq, usable_reordered hc]
  have hnone : o' = none ↔ o = none := by
    rw [C29_invert_partial hset hn hr hw h, C29_invert_partial hs' hn hr hw' h', hpairs]
  have hperm : ∀ l l', o = some l → o' = some l' → l'.Perm l := by
    rintro l l' rfl rfl
    rw [List.perm_ext_iff_of_nodup (streams_nodup hs' hn hown' h') (streams_nodup hset hn hown h)]
    intro st
    rw [(C28_pairs hset hn h).1, (C28_pairs hs' hn h').1]
    simp only [usable_reordered hc]
  refine ⟨o', h', hnone, hperm, fun ht => ?_⟩
  cases o with
  | none => exact hnone.2 rfl
  | some l =>
    cases o' with
    | none => exact absurd (hnone.1 rfl) (by simp)
    | some l' =>
      congr 1
      have hp := hperm l l' rfl rfl
      refine hp.eq_of_pairwise (le := fun s s' => s.origin < s'.origin ∨
        s.origin = s'.origin ∧ s.distance ≤ s'.distance) ?_ (C28_order hs' hn h') (C28_order hset hn h)
      intro a b ha hb hab hba
      have ha' : a ∈ l := hp.subset ha
      obtain ⟨ev, hev, sta, hua⟩ := ((C28_pairs hset hn h).1 a).1 ha'
      obtain ⟨ev', hev', sta', hub⟩ := ((C28_pairs hset hn h).1 b).1 hb
      rcases hab with hab | ⟨e1, e2⟩ <;> rcases hba with hba | ⟨e3, e4⟩
      · exact absurd hab (not_lt.2 hba.le)
      · rw [e3] at hab; exact absurd hab (lt_irrefl _)
      · rw [e1] at hba; exact absurd hba (lt_irrefl _)
      · exact ht ev hev ev' hev' sta sta' a b hua hub e1 (le_antisymm e2 e4)

/-- **C150** The order of sets and of the stations in the inventory has no influence on the result of an
inversion, but for the order of the rows in the table of site responses. -/
theorem C150_inversion {bands : Dict ℝ (ℝ × ℝ)} {cpus : ℕ} {schedule : List ℕ}
    (hset : IsSetOrder env.setOrder) (hset' : IsSetOrder order) (hc : SameStations env.channels chs)
    (hn : (events.map getEventid).Nodup)
    (hr : OnsetsReadable cfg events) (hw : ∀ evid pat t1 t2, ∃ d, env.getWaveforms evid pat t1 t2 = .ok d)
    (hown : OwnRecords env cfg events) (hties : NoTies env cfg events)
    (hb : getFreqs cfg.freqs = .ok bands)
    {o : Option InvRes} (h : invert env cfg cpus schedule events = .ok o) :
    ∃ o', invert (Reordered env order chs) cfg cpus schedule events = .ok o' ∧ Option.Rel SameButRowOrder o o' := by
  have hs' : IsSetOrder (Reordered env order chs).setOrder := hset'
  unfold invert at h ⊢
  split at h
  · simp at h
  rename_i hcn
  rw [if_neg hcn]
  rw [hb] at h ⊢
  simp only [bind, Except.bind] at h ⊢
  cases hsel : selectStreams env cfg events with
  | error e => rw [hsel] at h; simp at h
  | ok sel =>
    obtain ⟨sel', hsel', -, -, heq⟩ := C150_records hset hset' hc hn hr hw hown hsel
    obtain rfl := heq hties
    rw [hsel] at h
    rw [hsel']
    cases sel' with
    | none =>
      obtain rfl := Except.ok.inj h
      exact ⟨none, rfl, .none⟩
    | some selected =>
      simp only at h ⊢
      cases ho : originsOf events with
      | error e => rw [ho] at h; simp at h
      | ok origins =>
        rw [ho] at h
        simp only at h ⊢
        cases hst : resultStations env cfg with
        | error e => rw [hst] at h; simp at h
        | ok stations =>
          rw [hst] at h
          simp only at h
          have hmem : ∀ sta, sta ∈ stationsOf (Reordered env order chs) ↔ sta ∈ stationsOf env := by
            intro sta
            unfold stationsOf
            rw [(hs' _).2, (hset _).2, List.mem_map, List.mem_map, channels_reordered hc]
          have hdeep : boreholes (Reordered env order chs) origins = boreholes env origins := by
            funext sta
            unfold boreholes
            rw [decide_eq_decide, hmem]
            unfold deepStation
            rw [oneChannel_reordered hc]
            rfl
          have hst' : ∃ stations', resultStations (Reordered env order chs) cfg = .ok stations' := by
            unfold resultStations at hst ⊢
            split at hst
            · rename_i hi
              rw [if_pos hi]
              obtain ⟨l, hl, -⟩ := bind_ok.1 hst
              obtain ⟨l', hl'⟩ : ∃ l', mapExc (fun st : String => if '.' ∈ st.toList then .ok (dropNetwork st)
                  else .error PyErr.indexError) (stationsOf (Reordered env order chs)) = .ok l' := by
                have hdot : ∀ st ∈ stationsOf (Reordered env order chs), '.' ∈ st.toList := by
                  intro st hm
                  obtain ⟨i, hi'⟩ := List.mem_iff_getElem?.1 ((hmem st).1 hm)
                  obtain ⟨y, -, hy⟩ := forall₂_at (mapExc_ok.1 hl) hi'
                  by_contra hne
                  rw [if_neg hne] at hy
                  simp at hy
                generalize stationsOf (Reordered env order chs) = sl at hdot
                induction sl with
                | nil => exact ⟨[], rfl⟩
                | cons a sl ih =>
                  obtain ⟨l', hl'⟩ := ih (fun st hm => hdot st (by simp [hm]))
                  refine ⟨dropNetwork a :: l', ?_⟩
                  rw [mapExc_ok] at hl' ⊢
                  exact List.Forall₂.cons (by rw [if_pos (hdot a (by simp))]) hl'
              exact ⟨_, by rw [hl']; rfl⟩
            · rename_i hi
              rw [if_neg hi]
              exact ⟨_, rfl⟩
          obtain ⟨stations', hst'⟩ := hst'
          have hm := C23_stations hset hst
          have hm' := C23_stations hs' hst'
          have hiff : ∀ sta, sta ∈ stations' ↔ sta ∈ stations := by
            intro sta
            rw [hm.2, hm'.2]
            constructor
            · rintro ⟨ch, hch, hx⟩
              obtain ⟨ch', hch', he⟩ := (channels_reordered (order := order) hc).1 ⟨ch, hch, rfl⟩
              exact ⟨ch', hch', by rw [he]; exact hx⟩
            · rintro ⟨ch, hch, hx⟩
              obtain ⟨ch', hch', he⟩ := (channels_reordered (order := order) hc).2 ⟨ch, hch, rfl⟩
              exact ⟨ch', hch', by rw [he]; exact hx⟩
          have hperm : stations'.Perm stations := (List.perm_ext_iff_of_nodup hm'.1 hm.1).2 hiff
          rw [hst', hdeep]
          simp only
          cases ha : bandArgs cfg bands with
          | error e => rw [ha] at h; simp at h
          | ok args =>
            rw [ha] at h
            simp only at h ⊢
            rw [runBands_reordered]
            cases hrun : runBands env cfg args (ignoreNetworks cfg (boreholes env origins) selected)
                (bands.map Prod.snd) cpus schedule with
            | error e => rw [hrun] at h; simp at h
            | ok rlist =>
              rw [hrun] at h
              simp only at h ⊢
              obtain ⟨o', h', hcase⟩ := tables_rows (env' := Reordered env order chs) rfl h stations'
              refine ⟨o', h', ?_⟩
              rcases hcase with ⟨rfl, rfl⟩ | ⟨res, res', rfl, rfl, h1, h2, h3, h4, h5, h6, h7, h8, h9, h10⟩
              · exact .none
              · refine .some ⟨h1, h2, h3, h4, h5, h6, h7, h8, ?_⟩
                intro T T' hT hT'
                rw [h9 T hT, h10 T' hT']
                refine ⟨hperm.map _, fun sta => ?_⟩
                rw [get?_rows, get?_rows]
                simp only [hiff]

theorem _root_.Qopen.Spec.SameButRowOrder.rows {res res' : InvRes} (h : SameButRowOrder res res') :
    SameButEmptyRows res res' ∧ SameButEmptyRows res' res := by
  refine ⟨⟨h.freq, h.g0, h.b, h.error, h.nstations, h.v0, h.events, h.noSites, ?_⟩,
    ⟨h.freq.symm, h.g0.symm, h.b.symm, h.error.symm, h.nstations.symm, h.v0.symm, h.events.symm,
      h.noSites.symm, ?_⟩⟩
  · intro T T' hT hT' sta
    rw [(h.sites T T' hT hT').2 sta]
    exact ⟨fun _ hr => hr, fun hn row hr => by rw [hn] at hr; simp at hr⟩
  · intro T T' hT hT' sta
    rw [(h.sites T' T hT' hT).2 sta]
    exact ⟨fun _ hr => hr, fun hn row hr => by rw [hn] at hr; simp at hr⟩

/-- **C150** Events which are inverted separately: the order of sets and of the stations in the inventory has
no influence on the results of the events and on their means, but for the order of the rows in the tables of
site responses. -/
theorem C150_separate {bands : Dict ℝ (ℝ × ℝ)} {cpus : ℕ} {schedule : List Event → List ℕ}
    {rlm : List ℝ → ℝ × ℝ} {mean : Mean}
    (hset : IsSetOrder env.setOrder) (hset' : IsSetOrder order) (hc : SameStations env.channels chs)
    (hn : events.Nodup) (hr : ∀ ev ∈ events, OnsetsReadable cfg [ev])
    (hw : ∀ evid pat t1 t2, ∃ d, env.getWaveforms evid pat t1 t2 = .ok d)
    (hown : ∀ ev ∈ events, OwnRecords env cfg [ev]) (hties : ∀ ev ∈ events, NoTies env cfg [ev])
    (hb : getFreqs cfg.freqs = .ok bands)
    (hs : ∀ evs, Schedule cfg (bands.map Prod.snd) cpus (schedule evs)) {out : Option WrapRes}
    (h : invertWrapper rlm (fun evs => invert env cfg cpus (schedule evs) evs) cfg.codaNorm.isSome false mean
      events = .ok out) :
    ∃ out', invertWrapper rlm (fun evs => invert (Reordered env order chs) cfg cpus (schedule evs) evs)
      cfg.codaNorm.isSome false mean events = .ok out' ∧ Option.Rel SameMeansButOrder out out' := by
  have hs' : IsSetOrder (Reordered env order chs).setOrder := hset'
  have hone : ∀ ev ∈ events, ∀ r, invert env cfg cpus (schedule [ev]) [ev] = .ok r →
      ∃ r', invert (Reordered env order chs) cfg cpus (schedule [ev]) [ev] = .ok r' ∧
        Option.Rel SameButRowOrder r r' := fun ev hev r hri =>
    C150_inversion hset hset' hc (by simp) (hr ev hev) hw (hown ev hev) (hties ev hev) hb hri
  obtain ⟨t1, t2, t3⟩ := separate_only_if hn h
  obtain ⟨out', h', hrel⟩ := separate_rows (env' := Reordered env order chs) (Q := SameEntryButOrder) hset hs' hn
    hb hs (by
      intro ev hev r hri
      obtain ⟨r', k1, k2⟩ := hone ev hev r hri
      refine ⟨r', k1, ?_⟩
      cases k2 with
      | none => exact .none
      | @some r r' k2 =>
        refine .some ⟨k2.rows.1, ?_⟩
        intro id e e' he he'
        have hE := sameEntry k2.rows.1 he he'
        refine ⟨hE.other, hE.noSites, ?_⟩
        intro T T' hT hT'
        rw [he.R] at hT
        rw [he'.R] at hT'
        obtain ⟨t, ht, hT⟩ := Option.map_eq_some_iff.1 hT
        obtain ⟨t', ht', hT'⟩ := Option.map_eq_some_iff.1 hT'
        obtain rfl := RVal.sites.inj hT
        obtain rfl := RVal.sites.inj hT'
        exact k2.sites t t' ht ht') h
  refine ⟨out', h', ?_⟩
  -- the other direction
  obtain ⟨out2, h2, hrel2⟩ := separate_rows (env := Reordered env order chs) (env' := env) (Q := fun _ _ => True)
    hs' hset hn hb hs (by
      intro ev hev r' hri'
      have hex : ∃ ori, (originTime ev) = some ori := by
        cases ho : originTime ev with
        | some t => exact ⟨t, rfl⟩
        | none =>
          exfalso
          unfold invert at hri'
          split at hri'
          · simp at hri'
          rw [hb] at hri'
          simp only [bind, Except.bind] at hri'
          unfold selectStreams at hri'
          cases hor : originsOf [ev] with
          | error e => rw [hor] at hri'; simp [bind, Except.bind] at hri'
          | ok origins =>
            obtain ⟨ori, k1, -⟩ := (originsOf_spec (by simp) hor (by simp [Dict.keys])).1 ev (by simp)
            unfold originTime at ho
            unfold getOrigin at k1
            cases hp : ev.preferredOrigin <;> cases hh : ev.origins <;> simp_all [pyGet]
      obtain ⟨t, ht⟩ := hex
      obtain ⟨-, r, k1⟩ := t3 ev hev (by rw [ht]; rfl)
      obtain ⟨r2, k2, k3⟩ := hone ev hev r k1
      rw [hri', Except.ok.injEq] at k2
      subst k2
      refine ⟨r, k1, ?_⟩
      cases k3 with
      | none => exact .none
      | some k3 => exact .some ⟨k3.rows.2, fun _ _ _ _ _ => trivial⟩) h'
  rw [h, Except.ok.injEq] at h2
  subst h2
  cases hrel with
  | none => exact .none
  | @some w w' hrel =>
    cases hrel2 with
    | some hrel2 =>
      refine .some ⟨hrel.1.freq, hrel.1.g0, hrel.1.b, hrel.1.error, ?_, hrel.2⟩
      intro sta
      have a1 := (hrel.1.sites sta).1
      have a2 := (hrel2.1.sites sta).1
      cases ha : (w'.R.getD []).get? sta with
      | some row => rw [a1 row ha]
      | none =>
        cases hb : (w.R.getD []).get? sta with
        | none => rfl
        | some row => rw [a2 row hb] at ha; simp at ha

end

namespace ReproducibleExample

open JobsExample TablesExample UselessExample

/-- The stations in opposite order. -/
theorem same : SameStations env.channels ["X.B..Z", ".A..Z"] := by
  intro sta
  by_cases hA : "A" = sta
  · subst hA
    simp [env, exSta, staB]
  · by_cases hB : "X.B" = sta
    · subst hB
      simp [env, exSta, staB]
    · simp [env, exSta, staB, hA, hB]

theorem noTies : NoTies env (exCfg (some 1)) [exEvent] := by
  intro ev hev ev' hev' sta sta' st st' h1 h2 _ _
  have m1 := ((C28_pairs setOrder (by simp) select).1 st).2 ⟨ev, hev, sta, h1⟩
  have m2 := ((C28_pairs setOrder (by simp) select).1 st').2 ⟨ev', hev', sta', h2⟩
  rw [List.mem_singleton] at m1 m2
  rw [m1, m2]

theorem reverseOrder : IsSetOrder (fun l => l.dedup.reverse) :=
  fun l => ⟨List.nodup_reverse.2 (List.nodup_dedup l), fun _ => by simp⟩

example : ∃ res res', invert env (exCfg (some 1)) 1 [] [exEvent] = .ok (some res) ∧
    invert (Reordered env (fun l => l.dedup.reverse) ["X.B..Z", ".A..Z"]) (exCfg (some 1)) 1 [] [exEvent] =
      .ok (some res') ∧ SameButRowOrder res res' := by
  obtain ⟨res, h⟩ := run
  obtain ⟨o', h', hrel⟩ := C150_inversion setOrder reverseOrder same (by simp) readable client own noTies bands h
  cases hrel with
  | some hrel => exact ⟨res, _, h, h', hrel⟩

example (rlm : List ℝ → ℝ × ℝ) : ∃ w w',
    invertWrapper rlm (fun evs => invert env (exCfg (some 1)) 1 [] evs) (exCfg (some 1)).codaNorm.isSome false
      .robust [exEvent] = .ok (some w) ∧
    invertWrapper rlm (fun evs => invert (Reordered env (fun l => l.dedup.reverse) ["X.B..Z", ".A..Z"])
      (exCfg (some 1)) 1 [] evs) (exCfg (some 1)).codaNorm.isSome false .robust [exEvent] = .ok (some w') ∧
    SameMeansButOrder w w' := by
  obtain ⟨w, h⟩ := separateRun rlm
  obtain ⟨o', h', hrel⟩ := C150_separate (schedule := fun _ => []) setOrder reverseOrder same (by simp)
    (by simpa using readable) client (by simpa using own) (by simpa using noTies) bands
    (fun _ hne => absurd rfl hne) h
  cases hrel with
  | some hrel => exact ⟨w, _, h, h', hrel⟩

end ReproducibleExample

end Qopen
