import Verif.Props.TruthChain
import Verif.Props.UselessStations
import Verif.Props.AlignSource

/-!
# Results of separate inversions meet the requirements of the alignment (C153)

Examples are in `AlignedRuns.lean`.

The theorems about the alignment of site responses assume results with positive responses which come with
a source energy (`ProperResults`), a row of one entry per band for each event and station
(`CompleteResults`) and source energies which are not NaN (`NoNan`).  The results of an inversion of each
event meet all of it: for all data, any number of workers and any schedule, and any weighted least
squares procedure.
-/

namespace Qopen

open Real Spec Util Tr Energy InvertFb Window Catalog Freqs Source Invert Wrapper Site Collect

namespace InvertFb

variable {wls : List ℝ → List (List ℝ) → List ℝ → List ℝ × ℝ} {G : Greens} {cfg : Cfg}

theorem fitOf_decode {bd : Band} {g0 : ℝ} {bFix : Option ℝ} {fs : Bool} {Rfix : List ℝ}
    {sol : List ℝ × ℝ} {f : Fit} (h : fitOf cfg bd g0 bFix fs Rfix sol = .ok f) :
    (f.W, f.R) = decode cfg bd fs Rfix sol.1 := by
  unfold fitOf at h
  simp only at h
  split at h
  · split at h
    · simp at h
    · split at h
      · obtain rfl := Except.ok.inj h
        rfl
      · simp at h
  · obtain rfl := Except.ok.inj h
    rfl

theorem lstsq_decode {bd : Band} {g0 : ℝ} {bFix : Option ℝ} {fs : Bool} {f : Fit}
    (h : lstsq wls G cfg bd g0 bFix fs = .ok f) :
    ∃ Rfix C, (f.W, f.R) = decode cfg bd fs Rfix C := by
  unfold lstsq at h
  obtain ⟨rs, h1, h⟩ := bind_ok.1 h
  obtain ⟨Rf, h2, h⟩ := bind_ok.1 h
  obtain ⟨Ga, h3, h⟩ := bind_ok.1 h
  simp only [bind, Except.bind, throw, throwThe, MonadExceptOf.throw] at h
  split at h
  · simp at h
  · split at h
    · simp at h
    · exact ⟨_, _, fitOf_decode h⟩

/-- Without fixed site responses all source energies and site responses are positive and there is an
energy for the first event. -/
theorem decode_pos {bd : Band} {Rfix C : List ℝ} (hc : cfg.codaNorm = false) (h0 : 0 < cfg.R0) :
    (∃ w ws, (decode cfg bd false Rfix C).1 = w :: ws) ∧
      (∀ x ∈ (decode cfg bd false Rfix C).1, 0 < x) ∧ ∀ x ∈ (decode cfg bd false Rfix C).2, 0 < x := by
  unfold decode
  simp only [hc, Bool.false_eq_true, if_false]
  have hW : 0 < exp (mean (C.take (C.length - (eventids bd).length + cfg.fix.toNat))) / cfg.R0 :=
    div_pos (exp_pos _) h0
  refine ⟨⟨_, _, rfl⟩, ?_, ?_⟩
  · intro x hx
    rcases List.mem_cons.1 hx with rfl | hx
    · exact hW
    · obtain ⟨c, -, rfl⟩ := List.mem_map.1 hx
      exact mul_pos (exp_pos _) hW
  · intro x hx
    obtain ⟨c, -, rfl⟩ := List.mem_map.1 hx
    exact div_pos (exp_pos _) hW

/-- Source energies are positive; site responses are positive and, for a single event, come with a source
energy. -/
structure BandProper (id : String) (r : BandResult) : Prop where
  energies : ∀ W, r.W = some W → ∀ k x, (k, x) ∈ W → 0 < x
  sites : ∀ d, r.R = some d → ∀ k x, (k, x) ∈ d → 0 < x
  both : ∀ d, r.R = some d → d ≠ [] → ∃ W, r.W = some W ∧ ∃ x, (id, x) ∈ W

theorem solveBand_proper {minimize : (ℝ → Py (WithTop ℝ)) → Py ℝ} {bd : Band} {r : BandResult} {id : String}
    (h0 : 0 < cfg.R0) (hid : ∀ p ∈ bd.pairs, p.1 = id)
    (h : solveBand wls G minimize cfg bd = .ok (some r)) : BandProper id r := by
  obtain ⟨f, g0, bFix, hl, hrep, -⟩ := solveBand_ok h
  obtain ⟨-, -, -, hW, hR, -⟩ := report_some hrep
  obtain ⟨Rfix, C, hdec⟩ := lstsq_decode hl
  have hRok : ∀ d, r.R = some d → cfg.fixSites = false ∧ cfg.codaNorm = false ∧ (stations bd).zip f.R = d := by
    intro d hd
    rw [hd] at hR
    have hok : (!cfg.fixSites && !cfg.codaNorm) = true := by
      by_contra hn
      rw [if_neg hn] at hR
      simp at hR
    rw [if_pos hok] at hR
    simp only [Bool.and_eq_true, Bool.not_eq_true'] at hok
    exact ⟨hok.1, hok.2, (Option.some.inj hR).symm⟩
  refine ⟨?_, ?_, ?_⟩
  · intro W hW' k x hx
    rw [hW'] at hW
    have hc : cfg.codaNorm = false := by
      by_contra hn
      rw [if_neg (by simpa using hn)] at hW
      simp at hW
    obtain rfl := ite_some hW.symm
    have hx := (List.of_mem_zip hx).2
    cases hfs : (cfg.fix && cfg.fixSites) with
    | false =>
      rw [hfs] at hdec
      have := (decode_pos (bd := bd) (Rfix := Rfix) (C := C) hc h0).2.1
      rw [← hdec] at this
      exact this x hx
    | true =>
      rw [hfs] at hdec
      unfold decode at hdec
      simp only [if_true, Prod.mk.injEq] at hdec
      rw [hdec.1] at hx
      obtain ⟨c, -, rfl⟩ := List.mem_map.1 hx
      exact exp_pos _
  · intro d hd k x hx
    obtain ⟨hfs, hc, rfl⟩ := hRok d hd
    rw [hfs, Bool.and_false] at hdec
    have := (decode_pos (bd := bd) (Rfix := Rfix) (C := C) hc h0).2.2
    rw [← hdec] at this
    exact this x (List.of_mem_zip hx).2
  · intro d hd hne
    obtain ⟨hfs, hc, rfl⟩ := hRok d hd
    rw [hfs, Bool.and_false] at hdec
    obtain ⟨w, ws, k1⟩ := (decode_pos (bd := bd) (Rfix := Rfix) (C := C) hc h0).1
    rw [← hdec] at k1
    simp only at k1
    rw [if_pos (by simp [hc])] at hW
    refine ⟨_, hW, w, ?_⟩
    obtain ⟨⟨k, x⟩, hkx⟩ := List.exists_mem_of_ne_nil _ hne
    have hm := (List.of_mem_zip hkx).1
    unfold stations at hm
    rw [mem_fromKeys] at hm
    obtain ⟨p, hp, -⟩ := List.mem_map.1 hm
    cases hev : eventids bd with
    | nil =>
      have : p.1 ∈ eventids bd := by
        unfold eventids
        rw [mem_fromKeys]
        exact List.mem_map.2 ⟨p, hp, rfl⟩
      rw [hev] at this
      simp at this
    | cons e es =>
      have : e ∈ eventids bd := by rw [hev]; simp
      unfold eventids at this
      rw [mem_fromKeys] at this
      obtain ⟨q, hq, rfl⟩ := List.mem_map.1 this
      rw [k1, List.zip_cons_cons, ← hid q hq]
      exact List.mem_cons_self

end InvertFb

namespace Window

variable {lib : Lib} {cfg : WCfg}

theorem invertFb_proper {wls : List ℝ → List (List ℝ) → List ℝ → List ℝ × ℝ} {G : Greens}
    {minimize : (ℝ → Py (WithTop ℝ)) → Py ℝ} {inv : InvertFb.Cfg} {streams : List Energy.Stream}
    {r : InvertFb.BandResult} {id : String} (h0 : 0 < inv.R0) (hid : ∀ s ∈ streams, s.event = id)
    (h : invertFb lib wls G minimize cfg inv streams = .ok (some r)) : BandProper id r := by
  unfold invertFb at h
  split at h
  · simp at h
  obtain ⟨trs, htrs, h⟩ := bind_ok.1 h
  cases hv : velocity cfg trs with
  | none => rw [hv] at h; simp [pure, Except.pure] at h
  | some v =>
    rw [hv] at h
    obtain ⟨st, hst, h⟩ := bind_ok.1 h
    split at h
    · simp [pure, Except.pure] at h
    refine solveBand_proper (cfg := fullCfg cfg inv v) h0 ?_ h
    intro p hp
    have hp' : p ∈ st.energies := hp
    have h2 := (energies_pairs htrs).subset ((windows_energies hst).subset hp')
    obtain ⟨s, hs, rfl⟩ := List.mem_map.1 h2
    exact hid s hs

end Window

namespace Invert

variable {env : Env} {cfg : InvCfg} {args : BandArgs} {id : String}

theorem runBand_proper {streams : List Energy.Stream} {band : ℝ × ℝ} {r : BandResult}
    (h0 : 0 < cfg.inv.R0) (hid : ∀ s ∈ streams, s.event = id)
    (h : runBand env cfg args streams band = .ok (some r)) : BandProper id r := by
  unfold runBand at h
  simp only at h
  split at h
  · split at h
    · refine Window.invertFb_proper ?_ hid h
      exact h0
    · simp at h
  · refine Window.invertFb_proper ?_ hid h
    exact h0

theorem filtered_event (env : Env) (wcfg : Window.WCfg) (s : Energy.Stream) :
    (filtered env wcfg s).event = s.event := by
  unfold filtered
  split_ifs <;> rfl

theorem runShared_proper {streams : List Energy.Stream} {bands : List (ℝ × ℝ)}
    {rs : List (Option BandResult)} {r : BandResult} (h0 : 0 < cfg.inv.R0)
    (hid : ∀ s ∈ streams, s.event = id)
    (h : runShared env cfg args streams bands = .ok rs) (hr : some r ∈ rs) : BandProper id r := by
  induction bands generalizing streams rs with
  | nil =>
    unfold runShared at h
    simp only [Except.ok.injEq] at h
    rw [← h] at hr
    simp at hr
  | cons b bands ih =>
    unfold runShared at h
    obtain ⟨x, hx, h⟩ := bind_ok.1 h
    obtain ⟨rs', hrs, h⟩ := bind_ok.1 h
    simp only [pure, Except.pure, Except.ok.injEq] at h
    rw [← h] at hr
    unfold runBandInPlace at hx
    obtain ⟨y, hy, hx⟩ := bind_ok.1 hx
    simp only [pure, Except.pure, Except.ok.injEq] at hx
    rw [← hx] at hr hrs
    rcases List.mem_cons.1 hr with hr | hr
    · have hr : some r = y := hr
      rw [← hr] at hy
      exact runBand_proper h0 hid hy
    · refine ih ?_ hrs hr
      intro s hs
      obtain ⟨s0, hs0, rfl⟩ := List.mem_map.1 hs
      rw [filtered_event]
      exact hid s0 hs0

theorem runBands_proper {streams : List Energy.Stream} {bands : List (ℝ × ℝ)} {cpus : ℕ} {schedule : List ℕ}
    {rs : List (Option BandResult)} {r : BandResult} (h0 : 0 < cfg.inv.R0)
    (hid : ∀ s ∈ streams, s.event = id) (hs : Spec.Schedule cfg bands cpus schedule)
    (h : runBands env cfg args streams bands cpus schedule = .ok rs) (hr : some r ∈ rs) :
    BandProper id r := by
  unfold runBands at h
  split at h
  · rw [C24_sequential] at h
    obtain ⟨b, -, hb⟩ := mapExc_mem h hr
    exact runBand_proper h0 hid hb
  · rename_i h1
    split at h
    · simp at h
    · obtain ⟨rs', h2, rfl⟩ := (pool_spec _ _ _ (hs h1) _).1 h
      obtain ⟨l, hl, hr⟩ := List.mem_flatten.1 hr
      obtain ⟨c, -, hc⟩ := mapExc_mem h2 hl
      exact runShared_proper h0 hid hc hr

end Invert

variable {env : Env} {cfg : InvCfg} {cpus : ℕ} {schedule : List Event → List ℕ} {events : List Event}
  {bands : Dict ℝ (ℝ × ℝ)} {w : WrapRes} {rlm : List ℝ → ℝ × ℝ} {mean : Mean}

/-- All streams of a single event belong to it. -/
theorem streams_event (hset : IsSetOrder env.setOrder) {ev : Event} {origins : Dict String Origin}
    {selected : List Energy.Stream} (h : selectStreams env cfg [ev] = .ok (some selected)) :
    ∀ s ∈ ignoreNetworks cfg (boreholes env origins) selected, s.event = getEventid ev := by
  intro s hs
  obtain ⟨hlen, hget⟩ := List.forall₂_iff_get.1
    (ignoreNetworks_spec cfg (boreholes env origins) selected)
  obtain ⟨j, hj, rfl⟩ := List.getElem_of_mem hs
  have hd := (hget j (hlen ▸ hj) hj).data.1
  simp only [List.get_eq_getElem] at hd
  rw [hd]
  obtain ⟨ev', hev', sta, hu⟩ := ((C28_pairs hset (by simp) h).1 _).1
    (List.getElem_mem (hlen ▸ hj : j < selected.length))
  obtain rfl := List.mem_singleton.1 hev'
  obtain ⟨ori, d, p, s, traces, st0, -, -, -, -, -, -, ⟨u1, -⟩, u2, u3⟩ := hu
  cases hr : cfg.removeResponse with
  | false => rw [u2 hr]; exact u1
  | true =>
    obtain ⟨ch, -, e⟩ := u3 hr
    rw [e]
    exact u1

/-- **C153** for the inversion of a single event: one entry per band, which is `None` or a positive number,
in the row of the source energies and each row of site responses; a site response comes with a source
energy. -/
theorem C153_inversion {ev : Event} {sch : List ℕ} {r : InvRes} (hset : IsSetOrder env.setOrder)
    (hb : getFreqs cfg.freqs = .ok bands) (hs : Schedule cfg (bands.map Prod.snd) cpus sch)
    (hc : cfg.codaNorm = none) (hcmd : cfg.cmd ≠ .source) (h0 : 0 < cfg.inv.R0)
    (h : invert env cfg cpus sch [ev] = .ok (some r)) :
    ∃ T e, r.R = some T ∧ T.WF ∧ r.events.get? (getEventid ev) = some e ∧
      e.W.length = bands.length ∧ (∀ p ∈ T, p.2.length = bands.length) ∧
      (∀ c ∈ e.W, c = .none ∨ ∃ x, c = .num x ∧ 0 < x) ∧
      (∀ p ∈ T, ∀ c ∈ p.2, c = .none ∨ ∃ x, c = .num x ∧ 0 < x) ∧
      ∀ p ∈ T, ∀ (i : ℕ) x, p.2[i]? = some (Cell.num x) → ∃ y, e.W[i]? = some (Cell.num y) := by
  obtain ⟨stations, rlist, hsta, T0, args, selected, origins, streams, -, hsel, -, rfl, hrun⟩ :=
    tables_streams (events := [ev]) (by simp) hb hs h
  obtain ⟨T, hT, hk, hrow⟩ := T0.sites hcmd hc
  obtain ⟨hek, hev⟩ := T0.events hc
  have hprop : ∀ b, some b ∈ rlist → BandProper (getEventid ev) b :=
    fun b hm => runBands_proper h0 (streams_event hset hsel) hs hrun hm
  have hwf : T.WF := by
    unfold Dict.WF
    have := (C23_stations hset hsta).1
    rw [← hk] at this
    exact this
  have hek' : r.events.keys = [getEventid ev] := by rw [hek]; rfl
  obtain ⟨e, he⟩ : ∃ e, r.events.get? (getEventid ev) = some e := by
    cases hg : r.events.get? (getEventid ev) with
    | some e => exact ⟨e, rfl⟩
    | none =>
      have := (Dict.get?_eq_none _ _).1 hg
      rw [hek'] at this
      simp at this
  have hWrow := hev _ _ (Dict.mem_of_get? he)
  have hcell : ∀ (f : BandResult → Option (Dict String ℝ)) key row, IsKeyRow f key rlist row →
      ∀ (i : ℕ) (c : Cell), row[i]? = some c → (rlist[i]? = some none ∧ c = .none) ∨ ∃ b d, rlist[i]? = some (some b) ∧
        f b = some d ∧ ((∃ x, (key, x) ∈ d ∧ c = .num x) ∨ (key ∉ d.keys ∧ c = .none)) := by
    intro f key row hF i c hi
    obtain ⟨hi', e1⟩ := List.getElem?_eq_some_iff.1 hi
    have hi2 : i < rlist.length := by rw [hF.length_eq]; exact hi'
    have hg := (List.forall₂_iff_get.1 hF).2 i hi2 hi'
    simp only [List.get_eq_getElem, e1] at hg
    rw [List.getElem?_eq_getElem hi2]
    cases hb : rlist[i] with
    | none => rw [hb] at hg; exact Or.inl ⟨rfl, hg⟩
    | some b =>
      rw [hb] at hg
      obtain ⟨d, hd, g1, g2⟩ := hg
      refine Or.inr ⟨b, d, rfl, hd, ?_⟩
      by_cases hkey : key ∈ d.keys
      · obtain ⟨⟨k, x⟩, hx, rfl⟩ := List.mem_map.1 hkey
        exact Or.inl ⟨x, hx, g1 x hx⟩
      · exact Or.inr ⟨hkey, g2 hkey⟩
  refine ⟨T, e, hT, hwf, he, hWrow.length_eq ▸ T0.one_result_per_band,
    fun p hp => (hrow p.1 p.2 hp).length_eq ▸ T0.one_result_per_band, ?_, ?_, ?_⟩
  · intro c hm
    obtain ⟨i, hi, rfl⟩ := List.getElem_of_mem hm
    rcases hcell _ _ _ hWrow i _ (List.getElem?_eq_getElem hi) with ⟨-, h1⟩ | ⟨b, d, h1, h2, h3⟩
    · exact Or.inl h1
    · rcases h3 with ⟨x, hx, h3⟩ | ⟨-, h3⟩
      · exact Or.inr ⟨x, h3, (hprop b (List.mem_of_getElem? h1)).energies d h2 _ _ hx⟩
      · exact Or.inl h3
  · intro p hp c hm
    obtain ⟨i, hi, rfl⟩ := List.getElem_of_mem hm
    rcases hcell _ _ _ (hrow p.1 p.2 hp) i _ (List.getElem?_eq_getElem hi) with ⟨-, h1⟩ | ⟨b, d, h1, h2, h3⟩
    · exact Or.inl h1
    · rcases h3 with ⟨x, hx, h3⟩ | ⟨-, h3⟩
      · exact Or.inr ⟨x, h3, (hprop b (List.mem_of_getElem? h1)).sites d h2 _ _ hx⟩
      · exact Or.inl h3
  · intro p hp i x hi
    rcases hcell _ _ _ (hrow p.1 p.2 hp) i _ hi with ⟨-, h1⟩ | ⟨b, d, h1, h2, h3⟩
    · simp at h1
    · rcases h3 with ⟨x', hx, h3⟩ | ⟨-, h3⟩
      swap
      · simp at h3
      obtain ⟨W, hW, y, hy⟩ := (hprop b (List.mem_of_getElem? h1)).both d h2 (by rintro rfl; simp at hx)
      have hi2 : i < e.W.length := by
        rw [← hWrow.length_eq]
        exact (List.getElem?_eq_some_iff.1 h1).1
      rw [List.getElem?_eq_getElem hi2]
      rcases hcell _ _ _ hWrow i _ (List.getElem?_eq_getElem hi2) with ⟨g1, -⟩ | ⟨b', d', g1, g2, g3⟩
      · rw [h1] at g1; simp at g1
      · rw [h1] at g1
        obtain rfl := Option.some.inj (Option.some.inj g1)
        rw [hW] at g2
        obtain rfl := Option.some.inj g2
        rcases g3 with ⟨z, -, g3⟩ | ⟨g3, -⟩
        · exact ⟨z, by rw [g3]⟩
        · exact absurd (List.mem_map.2 ⟨_, hy, rfl⟩) g3

/-- **C153**: the results of separate inversions meet everything the theorems about the alignment assume.
All source energies and site responses are positive, each site response comes with a source energy, every
event and station has one entry per band, and there is at least one event. -/
theorem C153_requirements (hset : IsSetOrder env.setOrder) (hid : (events.map getEventid).Nodup)
    (hb : getFreqs cfg.freqs = .ok bands)
    (hs : ∀ evs, Schedule cfg (bands.map Prod.snd) cpus (schedule evs)) (hc : cfg.codaNorm = none)
    (hcmd : cfg.cmd ≠ .source) (h0 : 0 < cfg.inv.R0)
    (h : invertWrapper rlm (fun evs => invert env cfg cpus (schedule evs) evs) false false mean
      events = .ok (some w)) {results : Results} (hr : ReadAs w results) :
    ProperResults results.events ∧ CompleteResults results.events bands.length ∧
      results.freq = bands.map Prod.fst ∧
      ∀ e ∈ resultsOf results.events, NoNan e.2 ∧ ∀ i x, energyOf e.2 i = some x → 0 < x := by
  have hwf := wrapper_ids hid h
  obtain ⟨hfr, hne⟩ := wrapper_freq hid hb hs h
  have hrwf : results.events.WF := by
    unfold Dict.WF
    rw [hr.ids]
    exact hwf
  have key : ∀ e ∈ resultsOf results.events, e.2.R.WF ∧ e.2.W.length = bands.length ∧
      (∀ p ∈ e.2.R, p.2.length = bands.length) ∧
      (∀ c ∈ e.2.W, c = .none ∨ ∃ x, c = .num x ∧ 0 < x) ∧
      (∀ p ∈ e.2.R, ∀ c ∈ p.2, c = .none ∨ ∃ x, c = .num x ∧ 0 < x) ∧
      ∀ p ∈ e.2.R, ∀ (i : ℕ) x, p.2[i]? = some (Cell.num x) → ∃ y, e.2.W[i]? = some (Cell.num y) := by
    rintro ⟨id, ev'⟩ he
    have hm := mem_resultsOf.1 he
    have hmk : id ∈ w.events.keys := by
      rw [← hr.ids]
      exact List.mem_map.2 ⟨_, hm, rfl⟩
    obtain ⟨p, hp, hpe⟩ := List.mem_map.1 hmk
    obtain ⟨id', d⟩ := p
    simp only at hpe
    subst hpe
    obtain ⟨ev2, k1, k2, k3⟩ := hr.entries _ _ hp
    rw [Dict.get?_of_mem hrwf hm] at k1
    obtain rfl := Option.some.inj (Option.some.inj k1)
    obtain ⟨ev, hev, rfl, r, e1, e2⟩ := wrapper_entry hid h hp
    obtain ⟨T, e, t1, t2, t3, t4⟩ := C153_inversion hset hb (hs _) hc hcmd h0 e1
    obtain ⟨d', f1, -, -, f2⟩ := C40_results_have_known_keys e1 (id := getEventid ev)
      (Or.inl (List.mem_map.2 ⟨_, Dict.mem_of_get? t3, rfl⟩))
    rw [hc] at f1
    simp only [Option.isSome_none] at f1
    rw [e2] at f1
    obtain rfl := Except.ok.inj f1
    have hR' : ev'.R = T := by
      have := f2.R
      rw [k3, t1] at this
      simpa using this
    have hW' : ev'.W = e.W := by
      have := f2.W
      rw [k2, t3] at this
      simpa using this
    simp only
    rw [hR', hW']
    exact ⟨t2, t4⟩
  have hresp : ∀ e ∈ resultsOf results.events, ∀ s i x, respOf e.2 s i = some x →
      ∃ row, (s, row) ∈ e.2.R ∧ row[i]? = some (Cell.num x) := by
    intro e he s i x hx
    unfold respOf at hx
    obtain ⟨row, hrow, hx⟩ := Option.bind_eq_some_iff.1 hx
    refine ⟨row, Dict.mem_of_get? hrow, ?_⟩
    unfold numAt at hx
    split at hx
    · rename_i y hy
      rw [hy, Option.some.inj hx]
    · simp at hx
  refine ⟨⟨hrwf, fun e he => (key e he).1, ?_, ?_⟩, ⟨?_, fun e he => (key e he).1,
    fun e he => (key e he).2.1, fun e he => (key e he).2.2.1⟩, hr.freq.trans hfr, ?_⟩
  · intro e he s i x hx
    obtain ⟨row, hrow, hi⟩ := hresp e he s i x hx
    rcases (key e he).2.2.2.2.1 _ hrow _ (List.mem_of_getElem? hi) with h1 | ⟨y, h1, h2⟩
    · simp at h1
    · rw [Cell.num.inj h1]; exact h2
  · intro e he s i hsome
    obtain ⟨x, hx⟩ := Option.isSome_iff_exists.1 hsome
    obtain ⟨row, hrow, hi⟩ := hresp e he s i x hx
    obtain ⟨y, hy⟩ := (key e he).2.2.2.2.2 _ hrow i x hi
    unfold Spec.energyOf numAt
    rw [hy]
    rfl
  · intro hnil
    obtain ⟨⟨id, d⟩, hp⟩ := List.exists_mem_of_ne_nil _ hne
    obtain ⟨ev2, k1, -⟩ := hr.entries _ _ hp
    have := mem_resultsOf.2 (Dict.mem_of_get? k1)
    rw [hnil] at this
    simp at this
  · intro e he
    refine ⟨fun c hc hn => ?_, fun i x hx => ?_⟩
    · rcases (key e he).2.2.2.1 c hc with h1 | ⟨y, h1, -⟩ <;> rw [hn] at h1 <;> simp at h1
    · unfold Spec.energyOf numAt at hx
      split at hx
      · rename_i y hy
        obtain rfl := Option.some.inj hx
        rcases (key e he).2.2.2.1 _ (List.mem_of_getElem? hy) with h1 | ⟨z, h1, h2⟩
        · simp at h1
        · rw [Cell.num.inj h1]; exact h2
      · simp at hx

/-- **C153**: the alignment of separate inversions with positive central frequencies succeeds, with all
stations as reference. -/
theorem C153_alignment_succeeds (hset : IsSetOrder env.setOrder) (hid : (events.map getEventid).Nodup)
    (hb : getFreqs cfg.freqs = .ok bands) (hf0 : ∀ f ∈ bands.map Prod.fst, f ≠ 0)
    (hs : ∀ evs, Schedule cfg (bands.map Prod.snd) cpus (schedule evs)) (hc : cfg.codaNorm = none)
    (hcmd : cfg.cmd ≠ .source) (h0 : 0 < cfg.inv.R0)
    (h : invertWrapper rlm (fun evs => invert env cfg cpus (schedule evs) evs) false false mean
      events = .ok (some w)) {results : Results} (hr : ReadAs w results)
    {orc : Oracle} {solve : Bool → ℕ → List (List ℝ) → List ℝ → List ℝ} {response : Response} {us : Bool}
    {smo : Option Opts} (hresp : ∀ i < bands.length, (requested response i).isSome)
    (hsmm : results.config.smm = none) :
    ∃ out, align orc rlm solve results .all response us none smo none = .ok out := by
  obtain ⟨-, k2, k3, -⟩ := C153_requirements hset hid hb hs hc hcmd h0 h hr
  refine C79_alignment_succeeds k2 hresp hsmm ?_ ?_
  · rw [k3, List.length_map]
  · rw [k3]; exact hf0

end Qopen
