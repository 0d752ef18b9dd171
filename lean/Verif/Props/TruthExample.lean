import Verif.Props.TruthChain
import Verif.Props.InvertOrder

/-!
# Separate inversion of events with alignment recovers the truth (C125): a case which meets the
hypotheses
-/

namespace Qopen

open Real Spec Util Tr Energy InvertFb Window Catalog Freqs Source Invert Wrapper Site Collect

namespace TruthChainExample

open JobsExample TablesExample
open TimeAxisExample (exFloat)

/-- The example of `Props/Jobs` with a Green's function which grows with time. -/
noncomputable def env : Env := { exEnv with
  wls := InvertExample.rankWls, G := fun _ t _ _ => .ok (t.map exp) }

noncomputable def cfg : InvCfg := JobsExample.exCfg (some 1)

noncomputable def band : ℝ × ℝ := (0.25 - 1 / 12, 0.25 + 1 / 12)

noncomputable def bands : Dict ℝ (ℝ × ℝ) := [(0.25, band)]

/-- The windows: constant energy, so the attenuation is the growth of the Green's function. -/
noncomputable def pair : PairData :=
  { event := "e", station := "A", distance := 1, coda := [(3, 3 / 4), (4, 3 / 4)] }

theorem freqs : getFreqs cfg.freqs = .ok bands := by
  have hh : halfWidth 0.25 1 = 1 / 12 := by unfold halfWidth; norm_num
  simp [cfg, JobsExample.exCfg, getFreqs, bandsOf, mkDict, Dict.set, hh, bands, band]

theorem set_order : IsSetOrder env.setOrder := fun l => ⟨List.nodup_dedup l, fun _ => List.mem_dedup⟩

theorem one_value : OneValuePerTime env.G := by
  intro r ts v g l h
  simp only [env, Except.ok.injEq] at h
  rw [← h]; simp

theorem own (schedule : List ℕ) : OwnCopies cfg bands 1 schedule :=
  ⟨fun hne => absurd rfl hne, Or.inl rfl⟩

theorem gain_one : JobsExample.gain band 1 = 1 := by
  unfold JobsExample.gain band
  rw [if_neg (by norm_num)]

theorem energies_one :
    energies env.lib (bandWCfg cfg exArgs band) [exStream 1] = .ok [exEnergy 1] := by
  have := ex_energies (some 1) 1 (band := band) (by norm_num [band]) (by norm_num [band])
  rw [gain_one] at this
  exact this

theorem argmax_one : argmax (exEnergy 1).data = .ok 2 := by
  have h3 : (0 : ℝ) ≤ 3 * 1 ^ 2 := by norm_num
  norm_num [argmax, exEnergy, List.idxOf_cons]

theorem accepts : Accepts env.lib (bandWCfg cfg exArgs band) 1 (exEnergy 1) pair := by
  refine ⟨rfl, rfl, rfl, ⟨exEnergy 1, (3, 4), _, rfl, ⟨(3, 4), ex_tw34 1, ?_, rfl⟩, ?_, ex_slice 1, ?_⟩,
    ?_, ?_⟩
  · norm_num [bandWCfg, cfg, JobsExample.exCfg]
  · intro mw h
    simp only [bandWCfg, cfg, JobsExample.exCfg, Option.some.injEq] at h
    subst h
    exact ⟨(1, 4), 2, ex_tw14 1, argmax_one, by norm_num [exEnergy], by norm_num [exEnergy]⟩
  · simp [pair, sampleTime, exEnergy]
    norm_num
  · intro bw h
    simp [bandWCfg, cfg, JobsExample.exCfg] at h
  · intro
    exact ⟨rfl, rfl, rfl, rfl, rfl⟩

theorem accepted : AcceptedPairs env.lib (bandWCfg cfg exArgs band) [exStream 1] 1 [pair] := by
  refine ⟨[exEnergy 1], [(exEnergy 1, pair)], energies_one, rfl, List.Sublist.refl _, ?_, ?_, rfl⟩
  · intro q hq
    obtain rfl := List.mem_singleton.1 hq
    exact accepts
  · intro tr h hn
    exact absurd h hn

theorem windows_one : ∃ st, windows env.lib (bandWCfg cfg exArgs band) 1 [exEnergy 1] = .ok st ∧
    st.Ecoda.length = 1 := by
  unfold windows
  simp only [List.foldlM_cons, List.foldlM_nil]
  unfold step codaPart smoothTrace cutCoda checkMaximum
  simp only [bandWCfg, cfg, JobsExample.exCfg, env, exEnv, bind, Except.bind, pure, Except.pure, ex_tw34, ex_tw14]
  rw [if_neg (by norm_num), argmax_one]
  simp only
  rw [if_pos (by norm_num [exEnergy])]
  unfold collect
  rw [ex_slice]
  exact ⟨_, rfl, rfl⟩

theorem streams_one {streams : List Stream} (h : StreamsOf env cfg [exEvent] streams) :
    streams = [exStream 1] := by
  obtain ⟨selected, origins, h1, -, rfl⟩ := h
  have e : selectStreams env cfg [exEvent] = .ok (some [exStream 1]) := exSelect
  rw [e] at h1
  obtain rfl := Option.some.inj (Except.ok.inj h1)
  rfl

theorem exact_windows : ExactWindows env.wls env.G env.minimize (bandCfg cfg exArgs band 1)
    (fun _ => 5) (fun _ => 3 / 20) 1 1 [pair] := by
  refine ⟨⟨by simp, by simp, ?_, by norm_num [bandCfg, fullCfg, cfg, JobsExample.exCfg]⟩, ?_, ?_, ?_, ?_, ?_, ?_⟩
  · intro p hp
    obtain rfl := List.mem_singleton.1 hp
    simp [pair]
  · intro p hp
    obtain rfl := List.mem_singleton.1 hp
    simp [pair]
  · intro p hp q hq
    obtain rfl := List.mem_singleton.1 hp
    obtain rfl := List.mem_singleton.1 hq
    exact .refl
  · intro
    exact ⟨pair, by simp, (3, 3 / 4), by simp [pair], (4, 3 / 4), by simp [pair], by norm_num⟩
  · refine ⟨[([exp 3, exp 4], 0)], ?_, ?_⟩
    · simp [IsGreens, pair, gsmooth, smoothFunc, bandCfg, fullCfg, bandWCfg, cfg, JobsExample.exCfg, env]
    · intro s hs
      have hbulk : (bandCfg cfg exArgs band 1).bulk = false := rfl
      rw [hbulk] at hs
      simp [samplesOf, pair] at hs
      rcases hs with rfl | rfl
      · refine ⟨exp_pos _, ?_⟩
        simp only [predicted]
        have : exp (3 : ℝ) * exp (-1 * 3) = 1 := by rw [← exp_add]; norm_num
        linear_combination (-(3 / 4 : ℝ)) * this
      · refine ⟨exp_pos _, ?_⟩
        simp only [predicted]
        have : exp (4 : ℝ) * exp (-1 * 4) = 1 := by rw [← exp_add]; norm_num
        linear_combination (-(3 / 4 : ℝ)) * this
  · unfold EvaluatedAt
    have h1 : (bandCfg cfg exArgs band 1).fix = false := rfl
    have h2 : (bandCfg cfg exArgs band 1).optimize = true := rfl
    rw [h1, h2]
    simp [env, exEnv]
  · constructor <;> intro lo hi h <;> simp [bandCfg, fullCfg, cfg, JobsExample.exCfg] at h

theorem windows_unique {i : ℕ} {c : InvertFb.Cfg} {ps : List PairData}
    (h : WindowsOf env cfg bands [exEvent] i c ps) : c = bandCfg cfg exArgs band 1 ∧ ps = [pair] := by
  obtain ⟨args, streams, band', v0, h1, h2, h3, h4, rfl⟩ := h
  have h5 := streams_one h2
  subst h5
  have h6 : args = exArgs := (Except.ok.inj h1).symm
  subst h6
  have h7 : band' = band := by
    match i with
    | 0 => exact (Option.some.inj h3).symm
    | i + 1 => simp [bands] at h3
  subst h7
  obtain ⟨rfl, rfl⟩ := acceptedPairs_unique (by simp) h4 accepted
  exact ⟨rfl, rfl⟩

/-- Site response 5, source energy 3/20, scattering coefficient and attenuation 1. -/
theorem exact_data : ExactData env cfg bands [exEvent] (fun _ _ => 5) (fun _ _ => 3 / 20)
    (fun _ => 1) (fun _ => 1) := by
  constructor
  · intro streams h
    rw [streams_one h]
    simp
  · intro i c ps h hne
    obtain ⟨rfl, rfl⟩ := windows_unique h
    exact exact_windows

/-- The event is inverted. -/
theorem run_one : ∃ r, runBand env cfg exArgs [exStream 1] band = .ok (some r) ∧ r.error = 0 := by
  obtain ⟨st, h1, h2⟩ := windows_one
  obtain ⟨ps, h3, h4⟩ := invertFb_accepted (wls := env.wls) (G := env.G) (minimize := env.minimize)
    (inv := { cfg.inv with fix := false, fixParams := (none, none) }) (by simp) energies_one rfl h1
    (by rw [h2]; norm_num [bandWCfg, cfg, JobsExample.exCfg])
  obtain rfl : ps = [pair] := (acceptedPairs_unique (by simp) h3 accepted).2
  obtain ⟨r, R', W', k1, k2, k3, -⟩ := C125_band InvertExample.rankWls_spec one_value rfl rfl (fun _ => by norm_num)
    (fun _ => by norm_num) exact_windows
  refine ⟨r, ?_, k3⟩
  unfold runBand
  simp only [exArgs, Bool.false_eq_true, if_false]
  simp only [exArgs] at h4
  rw [h4]
  exact k1

theorem invert_one' : ∃ res, invert env cfg 1 [] [exEvent] = .ok (some res) := by
  have ho : originsOf [exEvent] = .ok [("e", ⟨0, 0, 0, some 1, []⟩)] := by
    unfold originsOf
    have h : getOrigin exEvent = .ok ⟨0, 0, 0, some 1, []⟩ := rfl
    simp [exId, h, bind, Except.bind, pure, Except.pure, Dict.set]
  obtain ⟨r, hr, herr⟩ := run_one
  have hrun : runBands env cfg exArgs [exStream 1] [band] 1 [] = .ok [some r] := by
    unfold runBands
    rw [if_pos (by rfl), C24_sequential]
    simp only [mapExc, hr, bind, Except.bind, pure, Except.pure]
  have hsel : selectStreams env cfg [exEvent] = .ok (some [exStream 1]) := exSelect
  unfold invert
  rw [if_neg (by simp [cfg, JobsExample.exCfg])]
  simp only [freqs, hsel, ho, bind, Except.bind]
  have h1 : ignoreNetworks cfg (boreholes env [("e", ⟨0, 0, 0, some 1, []⟩)]) [exStream 1] =
    [exStream 1] := rfl
  have h2 : resultStations env cfg = .ok ["A"] := by
    unfold resultStations
    have : stationsOf env = ["A"] := exStations
    rw [this]
    rfl
  have h3 : bandArgs cfg bands = .ok exArgs := rfl
  rw [h1, h2, h3]
  simp only [bands, List.map_cons, List.map_nil, hrun]
  unfold tables
  rw [if_neg (by simp)]
  have h4 : mapExc errorCell [some r] = .ok [.num 0] := by
    have : errorCell (some r) = .ok (.num 0) := by
      unfold errorCell
      simp only [herr]
    simp [mapExc, this, bind, Except.bind, pure, Except.pure]
  rw [h4]
  have h5 : ∃ evs, eventTables env cfg [0.25] (lastV0 [some r]) [some r] [exEvent] = .ok evs := by
    unfold eventTables
    rw [if_pos (by rfl)]
    unfold sourceEvents
    have hrow := rowW_nodup (ids := ["e"]) (by simp) (id := "e") (by simp) [some r]
    obtain ⟨l, hl⟩ := Site.sdsEntries_total (freq := [0.25]) (W := [some r].map (entry (·.W) "e"))
      (v0 := lastV0 [some r]) (rho0 := some cfg.rho0) (by simp) (by norm_num)
    have hk : fromKeys ["e"] = ["e"] := by decide
    have hsmm : cfg.smm = none := rfl
    simp only [List.map_cons, List.map_nil, exId, hk, List.foldlM_cons, List.foldlM_nil, dictGet,
      Dict.get?, if_true, hrow, bind, Except.bind, pure, Except.pure, insertSourceProperties] at hl ⊢
    simp only [hl, hsmm]
    exact ⟨_, rfl⟩
  obtain ⟨evs, h5⟩ := h5
  simp only [bind, Except.bind, Dict.keys, List.map_cons, List.map_nil, h5]
  exact ⟨_, rfl⟩

/-- What C125 says for it: with reference response 1 the response of the station is 1. -/
theorem one_truth {res : InvRes} (h : invert env cfg 1 [] [exEvent] = .ok (some res)) :
    ∃ c ps, WindowsOf env cfg bands [exEvent] 0 c ps ∧ ps ≠ [] ∧
      TrueBand cfg res ps 0 (1 / stationMean (fun _ => 5) ps) (fun _ => 5) (fun _ => 3 / 20) 1 1 := by
  have hk := C125_inversion InvertExample.rankWls_spec one_value (by simp) freqs (own []) rfl (by simp [cfg, JobsExample.exCfg])
    (fun _ _ => by norm_num) (fun _ _ => by norm_num) exact_data h 0 (by simp [bands])
  rcases hk with ⟨-, hno⟩ | hk
  · have := hno _ [pair] ⟨exArgs, [exStream 1], band, 1, rfl, ⟨_, _, exSelect, rfl, rfl⟩, rfl, accepted, rfl⟩
    rcases this with h | h
    · simp at h
    · norm_num [cfg, JobsExample.exCfg] at h
  · exact hk

/-- The separate inversion. -/
theorem separate (rlm : List ℝ → ℝ × ℝ) : ∃ w,
    invertWrapper rlm (fun evs => invert env cfg 1 [] evs) false false .plain [exEvent] =
      .ok (some w) := by
  obtain ⟨r, hr⟩ := invert_one'
  have hord : orderEvents [exEvent] = .ok [exEvent] := by
    have ho : getOrigin exEvent = .ok ⟨0, 0, 0, some 1, []⟩ := rfl
    simp [orderEvents, timeEventPairs, ho, sortEvents, bind, Except.bind, pure, Except.pure]
  have h1 : ∃ w1, invertWrapper rlm (fun evs => invert env cfg 1 [] evs)
      cfg.codaNorm.isSome true .plain [exEvent] = .ok (some w1) := by
    unfold invertWrapper
    rw [hord]
    simp only [bind, Except.bind, if_true, simultaneously, hr]
    exact ⟨_, rfl⟩
  obtain ⟨w1, h1⟩ := h1
  have hset : (stationsOf env).Nodup := (set_order _).1
  exact C122_succeeds (schedule := fun _ => []) hset (fun _ _ hne => absurd rfl hne) (by rfl) h1

theorem result_stations : resultStations env cfg = .ok ["A"] := by
  unfold resultStations
  have : stationsOf env = ["A"] := exStations
  rw [this]
  rfl

/-- The result can be read and aligned. -/
theorem aligned (orc : Oracle) (rlm : List ℝ → ℝ × ℝ) (us : Bool) : ∃ w results out,
    invertWrapper rlm (fun evs => invert env cfg 1 [] evs) false false .plain [exEvent] =
      .ok (some w) ∧ ReadAs w results ∧
    (∃ e ∈ resultsOf results.events, ∃ s, (respOf e.2 s 0).isSome) ∧
    align orc rlm (fun _ => someSolver) results (.names ["A"]) (.scalar 5) us none none none =
      .ok out := by
  obtain ⟨w, hw⟩ := separate rlm
  obtain ⟨results, hconf, hread, hcomp, hfr, hev⟩ :=
    C125_readable (schedule := fun _ => []) set_order (by simp) freqs (fun _ => (own []).1) rfl
      (by simp [cfg, JobsExample.exCfg]) hw {}
  have hA : ∀ e ∈ resultsOf results.events, e.2.R.keys = ["A"] := by
    intro e he
    obtain ⟨ev, -, r, stations, -, -, -, -, h1, h2⟩ := hev e he
    rw [result_stations] at h1
    rw [h2, ← Except.ok.inj h1]
  have hdata : ∃ e ∈ resultsOf results.events, ∃ s, (respOf e.2 s 0).isSome := by
    obtain ⟨e, he⟩ := List.exists_mem_of_ne_nil _ hcomp.some_event
    refine ⟨e, he, "A", ?_⟩
    obtain ⟨ev, hev', r, stations, -, h0, h1, h2, -⟩ := hev e he
    rw [List.mem_singleton] at hev'
    subst hev'
    obtain ⟨c, ps, hwin, hne, ht⟩ := one_truth h0
    obtain ⟨-, rfl⟩ := windows_unique hwin
    obtain ⟨T, hT, hrow⟩ := ht.sites
    rw [h1] at hT
    obtain rfl := Option.some.inj hT
    have hm : "A" ∈ e.2.R.keys := by rw [hA e he]; simp
    rw [← Dict.get?_isSome] at hm
    obtain ⟨row, hr⟩ := Option.isSome_iff_exists.1 hm
    have := hrow _ _ (Dict.mem_of_get? hr)
    rw [if_pos ⟨pair, by simp, rfl⟩] at this
    unfold respOf
    rw [hr]
    simp only [Option.bind_some, numAt]
    rw [this]
    rfl
  have hal := C114_succeeds_partial (orc := orc) (rlm := rlm) (solve := fun _ => someSolver)
    (results := results) (sel := .names ["A"]) (response := .scalar 5) (us := us) (smo := none)
    (ignore := none) hcomp (fun _ _ => rfl) ?_ ?_ (by rw [hconf]) (by rw [hfr]; simp) ?_
  · obtain ⟨out, ho⟩ := hal
    exact ⟨w, results, out, hw, hread, hdata, ho⟩
  · intro i hi area ha
    obtain ⟨s, hs⟩ := ha.nonempty
    refine ⟨s, hs, ?_⟩
    obtain ⟨-, e, he, h1⟩ := ha.data s hs
    have hm : s ∈ e.2.R.keys := by
      rw [← Dict.get?_isSome]
      unfold respOf at h1
      cases hg : e.2.R.get? s with
      | none => rw [hg] at h1; simp at h1
      | some r => rfl
    rw [hA e he] at hm
    exact hm
  · rintro i hi ⟨e, he, s, hs⟩
    exact ⟨e, he, s, by simp [notIgnored], hs⟩
  · rw [hfr]
    intro f hf
    simp only [bands, List.map_cons, List.map_nil, List.mem_singleton] at hf
    rw [hf]; norm_num

open Classical in
/-- The chain returns the truth. -/
example (orc : Oracle) (rlm : List ℝ → ℝ × ℝ) (us : Bool) : ∃ w results out,
    invertWrapper rlm (fun evs => invert env cfg 1 [] evs) false false .plain [exEvent] =
      .ok (some w) ∧ ReadAs w results ∧
    align orc rlm (fun _ => someSolver) results (.names ["A"]) (.scalar 5) us none none none =
      .ok out ∧ TrueUpTo 1 (resultsOf out.events) 0 (fun _ => 5) (fun _ => 3 / 20) := by
  obtain ⟨w, results, out, hw, hr, hd, ha⟩ := aligned orc rlm us
  refine ⟨w, results, out, hw, hr, ha, ?_⟩
  have hx : ∀ ev ∈ [exEvent], ExactData env cfg bands [ev] (fun _ _ => 5) (fun _ _ => 3 / 20)
      (fun _ => 1) (fun _ => 1) := by
    intro ev hev
    rw [List.mem_singleton.1 hev]
    exact exact_data
  have hsol : ∀ b : Bool, IsLsqSolver ((fun _ => someSolver) b) := fun _ => someSolver_spec
  have hsub : ∀ n, StationSel.names ["A"] = .name n →
      ∀ s ∈ stationsWith (resultsOf out.events) 0, s ≠ n → ¬ IsSubstring s n := by
    intro n hn; simp at hn
  have hcmd : cfg.cmd ≠ .source := by simp [cfg, JobsExample.exCfg]
  have hprop := (C125_separate (schedule := fun _ => []) InvertExample.rankWls_spec one_value set_order (by simp)
    freqs (fun _ => own []) rfl hcmd (fun _ _ => by norm_num) (fun _ _ => by norm_num) hx hw hr).1
  have hne := (C02_pins_mean_response hprop ha hsol hd hsub
    (by intro r hr; simp [requested] at hr; linarith)).1
  obtain ⟨r, h1, h2, h3⟩ := C125_separate_then_align (schedule := fun _ => []) InvertExample.rankWls_spec one_value
    set_order (by simp) freqs (fun _ => own []) rfl hcmd
    (fun _ _ => by norm_num) (fun _ _ => by norm_num) hx hw hr hsol ha hd hsub
    (by intro r hr; simp [requested] at hr; linarith)
  have hr5 : r = 5 := (Option.some.inj h1).symm
  have hA : (stationsWith (resultsOf out.events) 0).filter (IsNamed (.names ["A"])) = {"A"} := by
    obtain ⟨s, hs⟩ := hne
    have hall : ∀ t ∈ (stationsWith (resultsOf out.events) 0).filter (IsNamed (.names ["A"])),
        t = "A" := by
      intro t ht
      simpa [IsNamed] using (Finset.mem_filter.1 ht).2
    rw [Finset.eq_singleton_iff_unique_mem]
    have e := hall s hs
    subst e
    exact ⟨hs, hall⟩
  rw [hA, hr5] at h3
  simpa using h3

/-- And the overall attenuation is the truth. -/
example (rlm : List ℝ → ℝ × ℝ) : ∃ w gs bs,
    invertWrapper rlm (fun evs => invert env cfg 1 [] evs) false false .plain [exEvent] =
      .ok (some w) ∧ w.g0 = some gs ∧ w.b = some bs ∧
      ((gs[0]? = some .none ∧ bs[0]? = some .none) ∨
        (gs[0]? = some (.num 1) ∧ bs[0]? = some (.num 1))) := by
  obtain ⟨w, hw⟩ := separate rlm
  have hx : ∀ ev ∈ [exEvent], ExactData env cfg bands [ev] (fun _ _ => 5) (fun _ _ => 3 / 20)
      (fun _ => 1) (fun _ => 1) := by
    intro ev hev
    rw [List.mem_singleton.1 hev]
    exact exact_data
  obtain ⟨gs, bs, h1, h2, -, -, h3⟩ := C125_mean_attenuation (schedule := fun _ => []) InvertExample.rankWls_spec
    one_value (by simp) freqs (fun _ => own []) rfl (by simp [cfg, JobsExample.exCfg])
    (fun _ _ => by norm_num) (fun _ _ => by norm_num) (fun _ => by norm_num) (fun _ => by norm_num)
    hx hw
  exact ⟨w, gs, bs, hw, h1, h2, h3 0 (by simp [bands])⟩

end TruthChainExample

end Qopen
