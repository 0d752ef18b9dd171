import Verif.Props.SiteTruth
import Verif.Props.Units
import Verif.Props.Events
import Verif.Props.OneEvent
import Verif.Props.Invert
import Verif.Props.Tables
import Verif.Props.Pairs
import Verif.Props.Jobs
import Verif.Props.WrapperKeys

/-!
# Separate inversion of events with alignment recovers the truth (C125): from the data to the result
-/

namespace Qopen

open Real Spec Util Tr Energy InvertFb Window Catalog Freqs Source Invert Wrapper

variable {wls : List ℝ → List (List ℝ) → List ℝ → List ℝ × ℝ} {rank : List ℝ → List (List ℝ) → ℕ}
  {G : Greens} {minimize : (ℝ → Py (WithTop ℝ)) → Py ℝ} {cfg : InvertFb.Cfg}
  {ps : List PairData} {R W : String → ℝ} {g0 b : ℝ}

namespace Spec

/-- Geometric mean of the true responses of the stations with accepted windows. -/
noncomputable def stationMean (R : String → ℝ) (ps : List PairData) : ℝ :=
  (∏ s ∈ (ps.map PairData.station).toFinset, R s) ^
    (1 / ((ps.map PairData.station).toFinset.card : ℝ))

/-- The energies in the windows `ps` are exactly `G R W exp(-b t)` with Green's function for `g0`,
they determine the unknowns, and the inversion is evaluated at `g0`. -/
structure ExactWindows (wls : List ℝ → List (List ℝ) → List ℝ → List ℝ × ℝ) (G : Greens)
    (minimize : (ℝ → Py (WithTop ℝ)) → Py ℝ) (cfg : InvertFb.Cfg) (R W : String → ℝ) (g0 b : ℝ)
    (ps : List PairData) : Prop where
  good : GoodInput cfg ps
  coda : ∀ p ∈ ps, p.coda ≠ []
  connected : ConnectedPairs ps
  two_times : cfg.fix = false → TwoTimes ps
  energies : ∃ gs, IsGreens G cfg g0 ps gs ∧ ∀ s ∈ samplesOf cfg.bulk ps gs,
    0 < s.G ∧ s.E = predicted R W b s
  evaluated : EvaluatedAt wls G minimize cfg (bandOf cfg.bulk ps) g0 b
  bounds : InsideBounds cfg g0 b

end Spec

/-- **C125**: one band.  If the energies are exact, the inversion returns the true attenuation, the
true site responses times one factor and the true source energies divided by it; the factor is `R0`
divided by the geometric mean of the true responses of the stations in this inversion. -/
theorem C125_band (hwls : IsWls rank wls) (hG : OneValuePerTime G) (hc : cfg.codaNorm = false)
    (hfs : cfg.fixSites = false) (hR : ∀ s, 0 < R s) (hW : ∀ e, 0 < W e)
    (hx : ExactWindows wls G minimize cfg R W g0 b ps) :
    ∃ res R' W', solveBand wls G minimize cfg (bandOf cfg.bulk ps) = .ok (some res) ∧
      attenuation cfg res = (some g0, some b) ∧ res.error = 0 ∧
      res.R = some R' ∧ (∀ s x, (s, x) ∈ R' ↔ (∃ p ∈ ps, p.station = s) ∧
        x = cfg.R0 / stationMean R ps * R s) ∧
      res.W = some W' ∧ ∀ e w, (e, w) ∈ W' ↔ (∃ p ∈ ps, p.event = e) ∧
        w = W e / (cfg.R0 / stationMean R ps) := by
  obtain ⟨gs, hgr, hs⟩ := hx.energies
  have hgp : 0 < stationMean R ps := rpow_pos_of_pos (Finset.prod_pos fun s _ => hR s) _
  have hc0 : 0 < cfg.R0 / stationMean R ps := div_pos hx.good.R0 hgp
  set c := cfg.R0 / stationMean R ps with hcdef
  have hcard : ((ps.map PairData.station).toFinset.card : ℝ) ≠ 0 := by
    have : (ps.map PairData.station).toFinset.Nonempty := by
      obtain ⟨p, hp⟩ := List.exists_mem_of_ne_nil _ hx.good.some_pair
      exact ⟨p.station, by rw [List.mem_toFinset]; exact List.mem_map.2 ⟨p, hp, rfl⟩⟩
    have := Finset.card_pos.2 this
    positivity
  obtain ⟨res, R', W', h1, h2, h3, h4, h5, h6, h7⟩ := C16_exact_recovery (minimize := minimize)
    (R := fun s => c * R s) (W := fun e => W e / c) (g0 := g0) (b := b) hwls hx.good hc hfs hgr
    hx.coda (fun s hm => (hs s hm).1) (fun p _ => mul_pos hc0 (hR _)) (fun p _ => div_pos (hW _) hc0)
    (by
      intro s hm
      rw [(hs s hm).2]
      unfold predicted
      field_simp)
    (by
      rw [Finset.prod_mul_distrib, Finset.prod_const,
        mul_rpow (by positivity) (Finset.prod_nonneg fun s _ => (hR s).le), ← rpow_natCast,
        ← rpow_mul hc0.le, mul_one_div_cancel hcard, rpow_one, hcdef]
      exact div_mul_cancel₀ _ hgp.ne')
    hx.connected hx.two_times hx.evaluated hx.bounds
  obtain ⟨g0', b', R'', W'', gs', k1, k2, k3, k4, k5, k6, k7, -⟩ :=
    C13_reported_values_are_best_fit hwls hG hx.good hc hfs h1
  rw [h4] at k2
  rw [h6] at k3
  obtain rfl := Option.some.inj k2
  obtain rfl := Option.some.inj k3
  refine ⟨res, R', W', h1, h2, h3, h4, ?_, h6, ?_⟩
  · intro s x
    constructor
    · intro hm
      have hk : s ∈ R'.keys := List.mem_map.2 ⟨(s, x), hm, rfl⟩
      obtain ⟨p, hp, rfl⟩ := (k5 s).1 hk
      refine ⟨⟨p, hp, rfl⟩, ?_⟩
      have := Dict.get?_of_mem (d := R') k4 hm
      rw [h5 p hp] at this
      exact (Option.some.inj this).symm
    · rintro ⟨⟨p, hp, rfl⟩, rfl⟩
      exact Dict.mem_of_get? (h5 p hp)
  · intro e w
    constructor
    · intro hm
      have hk : e ∈ W'.keys := List.mem_map.2 ⟨(e, w), hm, rfl⟩
      obtain ⟨p, hp, rfl⟩ := (k7 e).1 hk
      refine ⟨⟨p, hp, rfl⟩, ?_⟩
      have := Dict.get?_of_mem (d := W') k6 hm
      rw [h7 p hp] at this
      exact (Option.some.inj this).symm
    · rintro ⟨⟨p, hp, rfl⟩, rfl⟩
      exact Dict.mem_of_get? (h7 p hp)

/-- A band is skipped only if too few pairs pass the checks; otherwise it is inverted. -/
theorem Window.invertFb_outcome {lib : Lib} {wcfg : WCfg} {inv : InvertFb.Cfg}
    {streams : List Stream} {o : Option BandResult}
    (hnd : (streams.map (fun s => (s.event, s.station))).Nodup)
    (h : invertFb lib wls G minimize wcfg inv streams = .ok o) :
    (o = none ∧ ∀ v0 ps, AcceptedPairs lib wcfg streams v0 ps →
      ps = [] ∨ (ps.length : ℝ) < wcfg.numPairs) ∨
    ∃ v0 ps, AcceptedPairs lib wcfg streams v0 ps ∧ ps ≠ [] ∧
      solveBand wls G minimize (fullCfg wcfg inv v0) (bandOf wcfg.bulkWindow.isSome ps) = .ok o := by
  have h0 := h
  unfold invertFb at h
  split at h
  · rename_i hs
    left
    refine ⟨(Except.ok.inj h).symm, ?_⟩
    rintro v0 ps ⟨trs, sel, h1, -, h3, -, -, rfl⟩
    subst hs
    simp [energies, mapExc, bind, Except.bind, pure, Except.pure] at h1
    subst h1
    left
    simpa using h3
  obtain ⟨trs, htrs, h⟩ := bind_ok.1 h
  cases hv : velocity wcfg trs with
  | none =>
    rw [hv] at h
    left
    refine ⟨(Except.ok.inj h).symm, ?_⟩
    rintro v0 ps ⟨trs', sel, h1, h2, -⟩
    rw [htrs] at h1
    obtain rfl := Except.ok.inj h1
    rw [hv] at h2
    simp at h2
  | some v0 =>
    rw [hv] at h
    obtain ⟨st, hst, h⟩ := bind_ok.1 h
    have hnd' : (trs.map Trace.pair).Nodup := hnd.sublist (energies_pairs htrs)
    by_cases hc : st.Ecoda.length = 0 ∨ (st.Ecoda.length : ℝ) < wcfg.numPairs
    · rw [if_pos hc] at h
      left
      refine ⟨(Except.ok.inj h).symm, ?_⟩
      intro v0' ps hps
      obtain ⟨sel, b1, b2, b3, c1, c2, c3, -⟩ := C18_windows_belong_to_pairs hnd' hst
      obtain ⟨-, rfl⟩ := acceptedPairs_unique hnd hps ⟨trs, sel, htrs, hv, b1, b2, b3, rfl⟩
      have e : st.Ecoda.length = (sel.map Prod.snd).length := by rw [c3]; simp [bandOf]
      rw [e] at hc
      rcases hc with hc | hc
      · left; exact List.length_eq_zero_iff.1 hc
      · right; exact hc
    · right
      obtain ⟨ps, h1, h2⟩ := invertFb_accepted (wls := wls) (G := G) (minimize := minimize)
        (inv := inv) hnd htrs hv hst hc
      refine ⟨v0, ps, h1, ?_, h2 ▸ h0⟩
      rintro rfl
      obtain ⟨sel, b1, b2, b3, c1, c2, c3, -⟩ := C18_windows_belong_to_pairs hnd' hst
      have := (acceptedPairs_unique hnd h1 ⟨trs, sel, htrs, hv, b1, b2, b3, rfl⟩).2
      apply hc
      left
      rw [c3, ← this]
      rfl

namespace Spec

/-- The streams which are inverted. -/
def StreamsOf (env : Env) (cfg : InvCfg) (events : List Event) (streams : List Stream) : Prop :=
  ∃ selected origins, selectStreams env cfg events = .ok (some selected) ∧
    originsOf events = .ok origins ∧ streams = ignoreNetworks cfg (boreholes env origins) selected

/-- Options of the inversion of a band. -/
noncomputable def bandCfg (cfg : InvCfg) (args : BandArgs) (band : ℝ × ℝ) (v0 : ℝ) : InvertFb.Cfg :=
  fullCfg (bandWCfg cfg args band)
    { cfg.inv with fix := args.fix, fixParams := (args.params.get? band).getD (none, none) } v0

/-- `ps` are the windows in which band number `i` of these events is inverted. -/
def WindowsOf (env : Env) (cfg : InvCfg) (bands : Dict ℝ (ℝ × ℝ)) (events : List Event) (i : ℕ)
    (c : InvertFb.Cfg) (ps : List PairData) : Prop :=
  ∃ args streams band v0, bandArgs cfg bands = .ok args ∧ StreamsOf env cfg events streams ∧
    (bands.map Prod.snd)[i]? = some band ∧
    AcceptedPairs env.lib (bandWCfg cfg args band) streams v0 ps ∧ c = bandCfg cfg args band v0

/-- The energies in all windows of these events are those of the true responses, source energies and
attenuation of the band. -/
structure ExactData (env : Env) (cfg : InvCfg) (bands : Dict ℝ (ℝ × ℝ)) (events : List Event)
    (R W : ℕ → String → ℝ) (g0 b : ℕ → ℝ) : Prop where
  pairs : ∀ streams, StreamsOf env cfg events streams →
    (streams.map (fun s => (s.event, s.station))).Nodup
  exact_windows : ∀ i c ps, WindowsOf env cfg bands events i c ps → ps ≠ [] →
    ExactWindows env.wls env.G env.minimize c (R i) (W i) (g0 i) (b i) ps

open Classical in
/-- Band `i` of the result: the true attenuation, the true responses times `c` for all stations
with a window in `ps`, and the true source energies divided by `c` for all events with a window;
zero error. -/
structure TrueBand (cfg : InvCfg) (res : InvRes) (ps : List PairData) (i : ℕ) (c : ℝ)
    (R W : String → ℝ) (g0 b : ℝ) : Prop where
  attenuation : cfg.cmd = .go → ∃ gs bs, res.g0 = some gs ∧ gs[i]? = some (.num g0) ∧
    res.b = some bs ∧ bs[i]? = some (.num b)
  error : res.error[i]? = some (.num 0)
  sites : ∃ T, res.R = some T ∧ ∀ s row, (s, row) ∈ T →
    row[i]? = some (if ∃ p ∈ ps, p.station = s then .num (c * R s) else .none)
  energies : ∀ id e, (id, e) ∈ res.events →
    e.W[i]? = some (if ∃ p ∈ ps, p.event = id then .num (W id / c) else .none)

/-- Every band gets its own copy of the waveforms: one job, or a pool which has at most four bands
per worker (`Pool.map` gives several bands to a worker at a time if there are more, see C24). -/
def OwnCopies (cfg : InvCfg) (bands : Dict ℝ (ℝ × ℝ)) (cpus : ℕ) (schedule : List ℕ) : Prop :=
  Schedule cfg (bands.map Prod.snd) cpus schedule ∧
    (cfg.njobs = some 1 ∨ bands.length ≤ 4 * cfg.njobs.getD cpus)

/-- Band `i` of the result is empty. -/
structure NoBand (cfg : InvCfg) (res : InvRes) (i : ℕ) : Prop where
  attenuation : cfg.cmd = .go → ∃ gs bs, res.g0 = some gs ∧ gs[i]? = some .none ∧
    res.b = some bs ∧ bs[i]? = some .none
  error : res.error[i]? = some .none
  sites : ∃ T, res.R = some T ∧ ∀ s row, (s, row) ∈ T → row[i]? = some .none
  energies : ∀ id e, (id, e) ∈ res.events → e.W[i]? = some .none

end Spec

theorem Spec.OwnCopies.run {env : Env} {cfg : InvCfg} {args : BandArgs} {streams : List Stream}
    {bands : Dict ℝ (ℝ × ℝ)} {cpus : ℕ} {schedule : List ℕ} {rlist : List (Option BandResult)}
    (hj : OwnCopies cfg bands cpus schedule)
    (h : runBands env cfg args streams (bands.map Prod.snd) cpus schedule = .ok rlist) :
    mapExc (runBand env cfg args streams) (bands.map Prod.snd) = .ok rlist := by
  unfold runBands at h
  split at h
  · rwa [C24_sequential] at h
  · rename_i hne
    split at h
    · simp at h
    · rcases hj.2 with h1 | h1
      · exact absurd h1 hne
      · rw [C24_any_number_of_workers_partial env cfg args streams _ _ (by simpa using h1) (hj.1 hne),
          C24_sequential] at h
        exact h

theorem forall₂_getElem? {α β : Type} {P : α → β → Prop} {l : List α} {l' : List β}
    (h : List.Forall₂ P l l') {i : ℕ} {x : α} (hx : l[i]? = some x) : ∃ y, l'[i]? = some y ∧ P x y := by
  obtain ⟨hi, rfl⟩ := List.getElem?_eq_some_iff.1 hx
  have hi' : i < l'.length := h.length_eq ▸ hi
  exact ⟨l'[i], List.getElem?_eq_getElem hi', (List.forall₂_iff_get.1 h).2 i hi hi'⟩

theorem Invert.runBand_call {env : Env} {cfg : InvCfg} {bands : Dict ℝ (ℝ × ℝ)} {args : BandArgs}
    {streams : List Stream} {band : ℝ × ℝ} {o : Option BandResult}
    (ha : bandArgs cfg bands = .ok args) (h : runBand env cfg args streams band = .ok o) :
    invertFb env.lib env.wls env.G env.minimize (bandWCfg cfg args band)
      { cfg.inv with fix := args.fix, fixParams := (args.params.get? band).getD (none, none) }
      streams = .ok o := by
  unfold runBand at h
  simp only at h
  split at h
  · split at h
    · rename_i p hp
      rw [hp]
      exact h
    · simp at h
  · rename_i hf
    have hp : args.params = [] := by
      unfold bandArgs at ha
      cases hc : cfg.cmd with
      | go =>
        rw [hc] at ha
        rw [← Except.ok.inj ha]
      | fixed =>
        exact absurd ((bandArgs_flags ha).1.1 (by simpa using hf)) (by rw [hc]; simp)
      | source =>
        exact absurd ((bandArgs_flags ha).1.1 (by simpa using hf)) (by rw [hc]; simp)
    rw [hp]
    exact h

/-- **C125**: the inversion of exact data.  Each band of the result is either empty, because fewer
pairs than required passed the checks, or it holds the true attenuation, the true site responses
times one factor and the true source energies divided by it.  The factor is `R0` divided by the
geometric mean of the true responses of the stations which took part. -/
theorem C125_inversion {env : Env} {cfg : InvCfg} {cpus : ℕ} {schedule : List ℕ}
    {events : List Event} {bands : Dict ℝ (ℝ × ℝ)} {res : InvRes} {R W : ℕ → String → ℝ}
    {g0 b : ℕ → ℝ}
    (hwls : IsWls rank env.wls) (hG : OneValuePerTime env.G)
    (hn : (events.map getEventid).Nodup) (hb : getFreqs cfg.freqs = .ok bands)
    (hj : OwnCopies cfg bands cpus schedule) (hc : cfg.codaNorm = none) (hcmd : cfg.cmd ≠ .source)
    (hR : ∀ i s, 0 < R i s) (hW : ∀ i e, 0 < W i e)
    (hx : ExactData env cfg bands events R W g0 b)
    (h : invert env cfg cpus schedule events = .ok (some res)) :
    ∀ i < bands.length,
      (NoBand cfg res i ∧ ∀ c ps, WindowsOf env cfg bands events i c ps →
        ps = [] ∨ (ps.length : ℝ) < cfg.numPairs.getD 1) ∨
      ∃ c ps, WindowsOf env cfg bands events i c ps ∧ ps ≠ [] ∧
        TrueBand cfg res ps i (cfg.inv.R0 / stationMean (R i) ps) (R i) (W i) (g0 i) (b i) := by
  obtain ⟨stations, rlist, -, T, args, selected, origins, streams, h3, h4, h5, h6, h7⟩ :=
    tables_streams hn hb hj.1 h
  have hstr : StreamsOf env cfg events streams := ⟨selected, origins, h4, h5, h6⟩
  have hrun := mapExc_ok.1 (hj.run h7)
  intro i hi
  have hi' : i < (bands.map Prod.snd).length := by simpa using hi
  obtain ⟨o, ho, hband⟩ := forall₂_getElem? hrun (List.getElem?_eq_getElem hi')
  have hcall := runBand_call h3 hband
  obtain ⟨Rt, hRt, -, hrows⟩ := T.sites hcmd hc
  have hW' := (T.events hc).2
  have hfl := bandArgs_flags h3
  rcases invertFb_outcome (hx.pairs _ hstr) hcall with ⟨rfl, hfew⟩ | ⟨v0, ps, hps, hne, hsol⟩
  · left
    refine ⟨⟨?_, ?_, ⟨Rt, hRt, ?_⟩, ?_⟩, ?_⟩
    · intro hgo
      obtain ⟨gs, hgs, hg⟩ := T.g0 hgo
      obtain ⟨bs, hbs, hb'⟩ := T.b hgo
      obtain ⟨y, hy, e⟩ := forall₂_getElem? hg ho
      obtain ⟨z, hz, e'⟩ := forall₂_getElem? hb' ho
      exact ⟨gs, bs, hgs, by rw [hy, e], hbs, by rw [hz, e']⟩
    · obtain ⟨y, hy, e⟩ := forall₂_getElem? T.error ho
      rw [hy, e]
    · intro s row hm
      obtain ⟨y, hy, e⟩ := forall₂_getElem? (hrows s row hm) ho
      rw [hy, e]
    · intro id e hm
      obtain ⟨y, hy, e⟩ := forall₂_getElem? (hW' id e hm) ho
      rw [hy, e]
    · rintro c ps ⟨args', streams', band, v0, a1, ⟨s1, o1, a2, a3, a4⟩, a5, a6, -⟩
      rw [h3] at a1
      obtain rfl := Except.ok.inj a1
      rw [h4] at a2
      obtain rfl := Option.some.inj (Except.ok.inj a2)
      rw [h5] at a3
      obtain rfl := Except.ok.inj a3
      subst a4 h6
      rw [List.getElem?_eq_getElem hi'] at a5
      obtain rfl := Option.some.inj a5
      exact hfew v0 ps a6
  · right
    have hwin : WindowsOf env cfg bands events i (bandCfg cfg args (bands.map Prod.snd)[i] v0) ps :=
      ⟨args, streams, _, v0, h3, hstr, List.getElem?_eq_getElem hi', hps, rfl⟩
    refine ⟨_, ps, hwin, hne, ?_⟩
    have hcn : (bandCfg cfg args (bands.map Prod.snd)[i] v0).codaNorm = false := by
      simp [bandCfg, fullCfg, bandWCfg, hc]
    have hfs : (bandCfg cfg args (bands.map Prod.snd)[i] v0).fixSites = false := by
      simp only [bandCfg, fullCfg, bandWCfg]
      exact hfl.2.2 hcmd
    have hex := hx.exact_windows i _ ps hwin hne
    obtain ⟨r, R', W', r1, r2, r3, r4, r5, r6, r7⟩ :=
      C125_band hwls hG hcn hfs (hR i) (hW i) hex
    have hsol' : solveBand env.wls env.G env.minimize (bandCfg cfg args (bands.map Prod.snd)[i] v0)
        (bandOf (bandCfg cfg args (bands.map Prod.snd)[i] v0).bulk ps) = .ok o := hsol
    rw [r1] at hsol'
    obtain rfl := Except.ok.inj hsol'
    have hR0 : (bandCfg cfg args (bands.map Prod.snd)[i] v0).R0 = cfg.inv.R0 := rfl
    rw [hR0] at r5 r7
    refine ⟨?_, ?_, ⟨Rt, hRt, ?_⟩, ?_⟩
    · intro hgo
      obtain ⟨gs, hgs, hg⟩ := T.g0 hgo
      obtain ⟨bs, hbs, hb'⟩ := T.b hgo
      obtain ⟨y, hy, x, e1, e2⟩ := forall₂_getElem? hg ho
      obtain ⟨z, hz, x', e3, e4⟩ := forall₂_getElem? hb' ho
      have hfix : (bandCfg cfg args (bands.map Prod.snd)[i] v0).fix = false := hfl.1.2 hgo
      unfold attenuation at r2
      rw [hfix] at r2
      simp only [Bool.false_eq_true, if_false, Prod.mk.injEq] at r2
      change r.g0 = some x at e1
      change r.b = some x' at e3
      rw [r2.1] at e1
      rw [r2.2] at e3
      refine ⟨gs, bs, hgs, ?_, hbs, ?_⟩
      · rw [hy, e2, Option.some.inj e1]
      · rw [hz, e4, Option.some.inj e3]
    · obtain ⟨y, hy, x, e1, e2⟩ := forall₂_getElem? T.error ho
      rw [r3] at e1
      have : x = 0 := by exact_mod_cast e1.symm
      rw [hy, e2, this]
    · intro s row hm
      obtain ⟨y, hy, d, e1, e2, e3⟩ := forall₂_getElem? (hrows s row hm) ho
      change r.R = some d at e1
      rw [r4] at e1
      obtain rfl := Option.some.inj e1
      rw [hy]
      split_ifs with hs
      · rw [e2 _ ((r5 s _).2 ⟨hs, rfl⟩)]
      · rw [e3 (fun hk => ?_)]
        obtain ⟨q, hq, rfl⟩ := List.mem_map.1 hk
        exact hs ((r5 q.1 q.2).1 hq).1
    · intro id e hm
      obtain ⟨y, hy, d, e1, e2, e3⟩ := forall₂_getElem? (hW' id e hm) ho
      change r.W = some d at e1
      rw [r6] at e1
      obtain rfl := Option.some.inj e1
      rw [hy]
      split_ifs with hs
      · rw [e2 _ ((r7 id _).2 ⟨hs, rfl⟩)]
      · rw [e3 (fun hk => ?_)]
        obtain ⟨q, hq, rfl⟩ := List.mem_map.1 hk
        exact hs ((r7 q.1 q.2).1 hq).1

end Qopen
