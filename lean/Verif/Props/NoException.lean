import Verif.Lemmas.NoException
import Verif.Props.Returns
import Verif.Props.TruthExample

/-!
# What can stop an inversion
-/

namespace Qopen

open Real Util Tr Energy Spec InvertFb Window RtPlugin Plain Total

open RtValues Rt in
/-- **C136**: each of the bundled Green's functions is sound. -/
theorem C136_greens (type : String) (hty : type ∈ greensTypes) : SoundGreens (plugin type) := by
  intro r ts v g hr hv hg hlen hts
  have hl : 0 < 1 / g := one_div_pos.2 hg
  obtain ⟨ys, h, hyl, hval⟩ := C92_plugin type hty hr hv hl hlen hts
  rw [one_div_one_div] at h
  have hgp : ∀ t, r < v * t → ∀ y, green type r t v (1 / g) = some y → 0 < y := by
    intro t ht y hy
    obtain ⟨y0, hy0, hG⟩ := C92_values type hty r t v (1 / g) true hr.le hv hl ht
    obtain ⟨y', hy', hpos⟩ := C52_positive type hty r t v (1 / (1 / g)) hr.le hv (one_div_pos.2 hl) ht
    unfold single at hy'
    rw [hG] at hy'
    simp only [Except.ok.injEq, GVal.num.injEq, Option.some.injEq] at hy'
    rw [hy0, Option.some.injEq] at hy
    rw [← hy, hy']
    exact hpos
  have h0 : ts[0]? = some ts[0] := List.getElem?_eq_getElem _
  have h1 : ts[1]? = some ts[1] := List.getElem?_eq_getElem _
  have hmono : ∀ {i j : ℕ} {x x' : ℝ}, ts[i]? = some x → ts[j]? = some x' → i < j → x < x' := by
    intro i j x x' hx hx' hij
    obtain ⟨hi, rfl⟩ := List.getElem?_eq_some_iff.1 hx
    obtain ⟨hj, rfl⟩ := List.getElem?_eq_some_iff.1 hx'
    exact List.pairwise_iff_getElem.1 hts i j hi hj hij
  have hdir : 0 ≤ (greenDirect type (r / v) v (1 / g)).getD 0 := by
    unfold greenDirect
    split <;> simp <;> positivity
  refine ⟨ys, h, hyl, ?_, ?_⟩
  · intro y hy
    obtain ⟨j, hj, rfl⟩ := List.mem_iff_getElem.1 hy
    obtain ⟨v1, v2, v3⟩ := hval j _ ys[j] _ _ (List.getElem?_eq_getElem (by omega))
      (List.getElem?_eq_getElem hj) h0 h1
    rcases lt_or_ge (v * ts[j]) r with hlt | hge
    · exact (v1 hlt).ge
    · by_cases hex : ∃ i < j, ∃ x', ts[i]? = some x' ∧ r ≤ v * x'
      · have := v2 hge hex
        obtain ⟨i, hi, x', hx', hrx⟩ := hex
        have hlt := hmono hx' (List.getElem?_eq_getElem (by omega)) hi
        exact (hgp _ (by nlinarith) _ this).le
      · push Not at hex
        rw [v3 hge hex]
        split
        · exact le_rfl
        · have := hmono h0 h1 (by omega)
          exact div_nonneg hdir (mul_nonneg hv.le (by linarith))
  · intro j t y ht hy hrt
    obtain ⟨hj, rfl⟩ := List.getElem?_eq_some_iff.1 hy
    have hj' : j + 1 < ts.length := by omega
    have hlt := hmono ht (List.getElem?_eq_getElem hj') (by omega)
    obtain ⟨-, v2, -⟩ := hval (j + 1) _ ys[j + 1] _ _ (List.getElem?_eq_getElem hj') hy h0 h1
    have hr' : r < v * ts[j + 1] := by nlinarith
    exact hgp _ hr' _ (v2 hr'.le ⟨j, by omega, t, ht, hrt⟩)

/-- **C136**: the inversion of a frequency band raises no exception and its misfit is finite, if Green's
function, the options and the data are sound (`Verif/Spec/Sound.lean`).  The data may contain pairs which
are skipped; the band may have no result. -/
theorem C136_band {lib : Lib} {wls : List ℝ → List (List ℝ) → List ℝ → List ℝ × ℝ} {G : Greens}
    {minimize : (ℝ → Py (WithTop ℝ)) → Py ℝ} {cfg : WCfg} {inv : InvertFb.Cfg} {streams : List Stream}
    (hG : SoundGreens G) (ho : SoundOptions cfg) (hi : ∀ v0, SoundInversion minimize (fullCfg cfg inv v0))
    (h : SoundBand lib cfg streams) :
    ∃ o, invertFb lib wls G minimize cfg inv streams = .ok o ∧ ∀ res, o = some res → res.error ≠ ⊤ :=
  NoExc.band_total hG ho hi h

/-! ## One inversion -/

open Invert Catalog Freqs Source

/-- **C136**: the inversion of events in all frequency bands raises no exception if options, surroundings
and data are sound; it returns `None` or tables. -/
theorem C136_inversion {env : Env} {cfg : InvCfg} {bands : Dict ℝ (ℝ × ℝ)} {events : List Event}
    {cpus : ℕ} {schedule : List ℕ} (hs : SoundSetup env cfg bands) (hj : OwnCopies cfg bands cpus schedule)
    (he : SoundEvents env cfg bands events) : ∃ o, invert env cfg cpus schedule events = .ok o := by
  have h0 : ¬ (cfg.codaNorm.isSome = true ∧ cfg.cmd ≠ .go) := fun h => h.2 (hs.codaNorm h.1)
  unfold invert
  rw [if_neg h0, hs.frequencies]
  obtain ⟨o, ho⟩ := selectStreams_total hs.setOrder he.ids he.onsets hs.waveforms he.origins
  simp only [bind, Except.bind]
  rw [ho]
  cases o with
  | none => exact ⟨_, rfl⟩
  | some streams =>
    obtain ⟨origins, hor⟩ : ∃ d, originsOf events = .ok d := by
      apply foldlM_ok_of_all
      intro d ev h
      obtain ⟨o, ho⟩ := he.origins ev h
      rw [ho]
      exact ⟨_, rfl⟩
    obtain ⟨stations, hst⟩ : ∃ l, resultStations env cfg = .ok l := by
      unfold resultStations
      split
      · next hi =>
        obtain ⟨l, hl⟩ : ∃ l, mapExc (fun st : String => if '.' ∈ st.toList then .ok (dropNetwork st)
            else .error .indexError) (stationsOf env) = .ok l := by
          apply mapExc_total
          intro sta hsta
          exact ⟨_, if_pos (hs.network hi sta hsta)⟩
        exact ⟨_, bind_ok.2 ⟨l, hl, rfl⟩⟩
      · exact ⟨_, rfl⟩
    obtain ⟨args, ha⟩ := NoExc.bandArgs_total hs.input
    obtain ⟨rlist, hr, hl, hfin⟩ := NoExc.runBands_total hs hj ha (he.data streams origins args ho hor ha)
    simp only [hor, hst, ha, hr]
    unfold tables
    split
    · exact ⟨_, rfl⟩
    · obtain ⟨err, herr⟩ := NoExc.errorCells_total hfin
      obtain ⟨evs, hev⟩ : ∃ evs, eventTables env cfg bands.keys (lastV0 rlist) rlist events = .ok evs := by
        unfold eventTables
        split
        · exact NoExc.sourceEvents_total hs he.ids hl
        · exact ⟨_, rfl⟩
      exact ⟨_, bind_ok.2 ⟨err, herr, bind_ok.2 ⟨evs, hev, rfl⟩⟩⟩

/-! ## One pair which stops the band -/

/-- **C136** (limits): a coda window which ends when the energy falls below a multiple of the noise level
needs a noise level.  A single pair without noise level (no data in the noise windows) stops the
inversion of the whole band, if noise is not removed. -/
theorem C136_noise_level {lib : Lib} {wls : List ℝ → List (List ℝ) → List ℝ → List ℝ × ℝ} {G : Greens}
    {minimize : (ℝ → Py (WithTop ℝ)) → Py ℝ} {cfg : WCfg} {inv : InvertFb.Cfg} {streams : List Stream}
    {trs : List Trace} {tr : Trace} {a : TimeVal} {s num : PyStr}
    (he : energies lib cfg streams = .ok trs) (ht : tr ∈ trs) (hn : tr.noise = none)
    (hb : cfg.bulkWindow = none) (hc : cfg.codaWindow = (a, .one s)) (hs : lower s = num ++ "snr".toList)
    (hgt : '>' ∉ num) :
    ∃ e, invertFb lib wls G minimize cfg inv streams = .error e := by
  apply NoExc.invertFb_error he ht
  intro v0 st
  unfold step
  simp only [hb]
  unfold codaPart
  cases hsm : smoothTrace cfg tr with
  | error e => exact ⟨e, rfl⟩
  | ok tr' =>
    have hn' : tr'.noise = none := by
      unfold smoothTrace at hsm
      split at hsm
      · rw [← Except.ok.inj hsm]; exact hn
      · split at hsm
        · rw [← Except.ok.inj hsm]; exact hn
        · obtain ⟨d, -, h⟩ := bind_ok.1 hsm
          rw [← Except.ok.inj h]
          exact hn
    simp only [bind, Except.bind]
    have : ∃ e, tw2utc lib.float cfg.codaWindow tr' = .error e := by
      rw [hc]
      unfold tw2utc
      cases h1 : twStart lib.float a tr' with
      | error e => exact ⟨e, rfl⟩
      | ok t =>
        have he : endswith (lower s) "snr".toList = true := Tr.endswith_iff.2 ⟨num, hs⟩
        have hg : '>' ∉ lower s := by rw [hs]; simp [hgt]
        have h2 : ∃ e, twEnd lib.float (.one s) tr' t = .error e := by
          unfold twEnd time2utc
          simp only [he, if_true, if_neg hg]
          unfold timeSnr
          have hl : (tr'.ltrim t).noise = none := by
            unfold Trace.ltrim
            simp only
            split <;> exact hn'
          simp only [bind, Except.bind, hl]
          split <;> exact ⟨_, rfl⟩
        obtain ⟨e, h2⟩ := h2
        exact ⟨e, by simp only [h2, bind, Except.bind]⟩
    obtain ⟨e, h⟩ := this
    exact ⟨e, by rw [h]⟩

namespace NoExcExample

open TimeAxisExample UnitsExample

/-- Bulk window from 1 s to 2 s, coda window from 3 s to 4 s, smoothing over 5 s. -/
noncomputable def cfg : WCfg := { uCfg with smooth := some 5, skipCoda := 1 }

/-- A recording of six seconds. -/
noncomputable def good (st : String) : Stream :=
  { event := "e", station := st, channels := [[1, 2, 2, 1, 1, 1], [0, 0, 0, 1, 0, 0]]
    start := 0, sr := 1, origin := 0, ponset := 0.5, sonset := 1, distance := 1 }

/-- A recording of three seconds, with data in the bulk window. -/
noncomputable def short : Stream := { good "B" with channels := [[1, 2, 2], [0, 0, 0]] }

noncomputable def goodTrace (st : String) : Trace :=
  { event := "e", station := st, start := 0, sr := 1, data := [1, 4, 4, 2, 1, 1], origin := 0,
    ponset := 0.5, sonset := 1, distance := 1, noise := none }

noncomputable def shortTrace : Trace := { goodTrace "B" with data := [1, 4, 4] }

theorem energy_good (st : String) : Window.energyOf exLib cfg (good st) = .ok (some (goodTrace st)) := by
  unfold Window.energyOf
  rw [if_neg (by norm_num [cfg, uCfg, exCfg, good]), if_neg (by simp [cfg, uCfg, exCfg])]
  have : observedEnergy exLib.hilbert ⟨(good st).event, (good st).station,
      (good st).start, 1, (good st).channels.map (exLib.filt (filterSpec cfg 1) 1),
      (good st).origin, (good st).ponset, (good st).sonset, (good st).distance,
      (good st).borehole⟩ cfg.rho0
      (exLib.width 1 (filterSpec cfg 1)) cfg.codaNorm (freeSurfaceOf cfg (good st)) =
      .ok (goodTrace st) := by
    simp [observedEnergy, exLib, good, cfg, uCfg, exCfg, energy1c, freeSurfaceOf, minLen, maxLen,
      sumAxis0, goodTrace, List.range_succ]
    norm_num
  have e : (good st).sr = 1 := rfl
  simp only [e]
  rw [this]

theorem energy_short : Window.energyOf exLib cfg short = .ok (some shortTrace) := by
  unfold Window.energyOf
  rw [if_neg (by norm_num [cfg, uCfg, exCfg, short, good]), if_neg (by simp [cfg, uCfg, exCfg])]
  have : observedEnergy exLib.hilbert ⟨short.event, short.station,
      short.start, 1, short.channels.map (exLib.filt (filterSpec cfg 1) 1),
      short.origin, short.ponset, short.sonset, short.distance,
      short.borehole⟩ cfg.rho0
      (exLib.width 1 (filterSpec cfg 1)) cfg.codaNorm (freeSurfaceOf cfg short) =
      .ok shortTrace := by
    simp [observedEnergy, exLib, short, good, cfg, uCfg, exCfg, energy1c, freeSurfaceOf, minLen, maxLen,
      sumAxis0, shortTrace, goodTrace, List.range_succ]
    norm_num
  have e : short.sr = 1 := rfl
  simp only [e]
  rw [this]

theorem noise_step (tr : Trace) : noiseStep exLib cfg tr = .ok (some tr) := by
  simp [noiseStep, cfg, uCfg, exCfg, mapExc, adjust, bind, Except.bind, pure, Except.pure]

theorem energies_good : energies exLib cfg [good "A", good "C"] = .ok [goodTrace "A", goodTrace "C"] := by
  simp [energies, mapExc, energy_good, noise_step, bind, Except.bind, pure, Except.pure]

theorem energies_short : energies exLib cfg [good "A", short, good "C"] =
    .ok [goodTrace "A", shortTrace, goodTrace "C"] := by
  simp [energies, mapExc, energy_good, energy_short, noise_step, bind, Except.bind, pure, Except.pure]

theorem bulk_window (tr : Trace) (h : tr.origin = 0) :
    tw2utc exFloat (.one "OT+1s".toList, .one "OT+2s".toList) tr = .ok (1, 2) :=
  ex_tw h (num := "+1".toList) (num' := "+2".toList) (by decide) (by simp [exFloat]) (by decide)
    (by simp [exFloat])

theorem coda_window (tr : Trace) (h : tr.origin = 0) :
    tw2utc exFloat (.one "OT+3s".toList, .one "OT+4s".toList) tr = .ok (3, 4) :=
  ex_tw h (num := "+3".toList) (num' := "+4".toList) (by decide) (by simp [exFloat]) (by decide)
    (by simp [exFloat])

theorem sound_trace (st : String) : SoundTrace exLib cfg (goodTrace st) where
  distance := by norm_num [goodTrace]
  rate := by norm_num [goodTrace]
  positive := by
    intro x hx
    simp only [goodTrace, List.mem_cons, List.not_mem_nil, or_false] at hx
    rcases hx with rfl | rfl | rfl | rfl | rfl | rfl <;> norm_num
  smooth := ⟨5, 5, rfl, by norm_num [NearestInt, goodTrace], by norm_num, by norm_num [goodTrace]⟩
  coda := by
    intro d
    exact ⟨(3, 4), coda_window _ rfl, by norm_num [goodTrace]⟩
  bulk := by
    intro bw hbw
    obtain rfl := Option.some.inj hbw
    exact ⟨(1, 2), bulk_window _ rfl, by norm_num, by norm_num [goodTrace]⟩
  maximum := by
    intro mw h
    simp [cfg, uCfg, exCfg] at h

theorem sound_options : SoundOptions cfg := ⟨by simp [cfg, uCfg, exCfg], by simp [cfg, uCfg, exCfg],
  by norm_num [cfg, uCfg, exCfg]⟩

theorem sound_band : SoundBand exLib cfg [good "A", good "C"] where
  pairs := by simp [good]
  energy := by
    intro s hs
    simp only [List.mem_cons, List.not_mem_nil, or_false] at hs
    rcases hs with rfl | rfl <;> exact ⟨_, energy_good _⟩
  noise := by
    intro s _ tr _ nw hnw
    simp [cfg, uCfg, exCfg] at hnw
  adjust := by
    intro s _ tr _ aw haw
    simp [cfg, uCfg, exCfg] at haw
  traces := by
    intro trs h tr htr
    rw [energies_good] at h
    obtain rfl := Except.ok.inj h
    simp only [List.mem_cons, List.not_mem_nil, or_false] at htr
    rcases htr with rfl | rfl <;> exact sound_trace _
  velocity := ⟨fun v hv => by
    have : (1 : ℝ) = v := Option.some.inj hv
    rw [← this]; norm_num, fun h => by simp [cfg, uCfg, exCfg] at h⟩

end NoExcExample

open NoExcExample RtValues Rt in
/-- Two stations with the bundled Green's functions. -/
example (type : String) (h : type ∈ greensTypes) (wls : List ℝ → List (List ℝ) → List ℝ → List ℝ × ℝ) :
    ∃ o, invertFb TimeAxisExample.exLib wls (plugin type) (fun _ => .ok 1) cfg UnitsExample.uInv
      [good "A", good "C"] = .ok o ∧ ∀ res, o = some res → res.error ≠ ⊤ := by
  refine C136_band (C136_greens type h) sound_options ?_ sound_band
  intro v0
  refine ⟨fun h => by simp [fullCfg, UnitsExample.uInv] at h, fun _ => ⟨rfl, _, rfl, by norm_num, by norm_num⟩, ?_, ?_, ?_⟩
  · intro bb h
    simp [fullCfg, UnitsExample.uInv] at h
  · norm_num [fullCfg, UnitsExample.uInv]
  · intro f _
    exact ⟨1, rfl, by norm_num⟩

open NoExcExample in
/-- **C136** (limits): a record which is shorter than the
smoothing window stops the inversion of the whole band with `ValueError`, while the band is inverted
without this pair. -/
theorem C136_short_record : ∃ (lib : Lib) (cfg : WCfg) (s1 s2 bad : Stream),
    SoundOptions cfg ∧ SoundBand lib cfg [s1, s2] ∧
    ∀ wls G minimize inv, invertFb lib wls G minimize cfg inv [s1, bad, s2] = .error .valueError := by
  refine ⟨TimeAxisExample.exLib, cfg, good "A", good "C", short, sound_options, sound_band, ?_⟩
  intro wls G minimize inv
  unfold invertFb
  rw [if_neg (by simp), energies_short]
  have hv : velocity cfg [goodTrace "A", shortTrace, goodTrace "C"] = some 1 := rfl
  simp only [bind, Except.bind, hv]
  have hw : windows TimeAxisExample.exLib cfg 1 [goodTrace "A", shortTrace, goodTrace "C"] = .error .valueError := by
    unfold windows
    rw [List.foldlM_cons]
    obtain ⟨st, h1⟩ := NoExc.step_total sound_options 1
      { energies := [goodTrace "A", shortTrace, goodTrace "C"].map Trace.pair } (sound_trace "A")
    simp only [bind, Except.bind, h1]
    rw [List.foldlM_cons]
    have h2 : step TimeAxisExample.exLib cfg 1 st shortTrace = .error .valueError := by
      have hsl : getSlice shortTrace (1, 2) = some { shortTrace with start := 1, data := [4, 4] } := by
        have := TimeAxisExample.slice_int (tr := shortTrace) rfl rfl (a := 1) (b := 2) (by norm_num) (by simp [shortTrace])
        push_cast at this
        rw [this]
        simp [shortTrace]
      have hsm : smoothTrace cfg shortTrace = .error .valueError := by
        unfold smoothTrace
        have e : Util.smooth shortTrace.data (some (pyRound (shortTrace.sr * 5))) cfg.smoothWindow .zeros =
            .error .valueError := by
          have hr : pyRound (shortTrace.sr * 5) = 5 :=
            (pyRound_iff _ _).2 (by norm_num [NearestInt, shortTrace, goodTrace])
          rw [hr]
          exact (C42_rejects _ _ _ _ _).2 ⟨rfl, Or.inl (by simp [shortTrace])⟩
        have es : cfg.smooth = some 5 := rfl
        simp only [es]
        rw [if_neg (by norm_num), e]
        rfl
      unfold step
      have e1 : cfg.bulkWindow = some (.one "OT+1s".toList, .one "OT+2s".toList) := rfl
      have e2 : tw2utc TimeAxisExample.exLib.float (.one "OT+1s".toList, .one "OT+2s".toList) shortTrace
          = .ok (1, 2) := bulk_window _ rfl
      simp only [e1, e2, bind, Except.bind, hsl]
      rw [if_neg (by simp), if_neg (by norm_num)]
      unfold codaPart
      simp only [hsm, bind, Except.bind]
    simp only [h2, bind, Except.bind]
  rw [hw]

/-- **C136**: a catalogue of which each event is inverted separately: if options and surroundings are sound
and the data of each event with an origin are sound, the inversion of the catalogue returns; the events
must have different identifiers and different origin times, and there must be an event with an origin. -/
theorem C136_catalogue {env : Env} {cfg : InvCfg} {bands : Dict ℝ (ℝ × ℝ)} {events : List Event}
    {cpus : ℕ} {schedule : List Event → List ℕ} {rlm : List ℝ → ℝ × ℝ} {mean : Wrapper.Mean}
    (hs : SoundSetup env cfg bands) (hj : ∀ evs, OwnCopies cfg bands cpus (schedule evs))
    (hid : (events.map getEventid).Nodup) (hne : ¬ Tie events) (hsome : ∃ ev ∈ events, (originTime ev).isSome)
    (he : ∀ ev ∈ events, (originTime ev).isSome → (originDepth ev).isSome ∧ SoundEvents env cfg bands [ev]) :
    ∃ out, Wrapper.invertWrapper rlm (fun evs => invert env cfg cpus (schedule evs) evs) cfg.codaNorm.isSome false mean
      events = .ok out :=
  (C135_separate hs.setOrder hid hs.frequencies (fun evs => (hj evs).1)).1.2 ⟨hne, hsome, fun ev hev ho =>
    ⟨(he ev hev ho).1, C136_inversion hs (hj _) (he ev hev ho).2⟩⟩

namespace NoExcChain

open JobsExample TablesExample RtValues Rt
open TruthChainExample (bands band freqs set_order)

/-- The surroundings of `Props/Jobs` with a bundled Green's function and positive signals. -/
noncomputable def env (type : String) (orc : Source.Oracle) : Env := { exEnv with
  lib := { exEnv.lib with filt := fun _ _ l => l.map (· + 1) }, G := plugin type, orc := orc }

noncomputable def cfg : InvCfg := { JobsExample.exCfg (some 1) with
  wcfg := { (JobsExample.exCfg (some 1)).wcfg with smooth := some 3, skipCoda := 1 }
  inv := { (JobsExample.exCfg (some 1)).inv with g0Bounds := some (1 / 2, 3 / 2) } }

noncomputable def trace : Trace := { exEnergy 1 with data := [3 / 4, 3 / 4, 27 / 4, 3, 3] }

theorem energy (type : String) (orc : Source.Oracle) :
    Window.energyOf (env type orc).lib (bandWCfg cfg exArgs band) (exStream 1) = .ok (some trace) := by
  unfold Window.energyOf
  rw [if_neg (by norm_num [bandWCfg, exStream, band]), if_neg (by simp [bandWCfg, exArgs])]
  have : observedEnergy (env type orc).lib.hilbert ⟨(exStream 1).event, (exStream 1).station,
      (exStream 1).start, (exStream 1).sr, (exStream 1).channels.map ((env type orc).lib.filt
        (filterSpec (bandWCfg cfg exArgs band) (exStream 1).sr) (exStream 1).sr),
      (exStream 1).origin, (exStream 1).ponset, (exStream 1).sonset, (exStream 1).distance,
      (exStream 1).borehole⟩ (bandWCfg cfg exArgs band).rho0
      ((env type orc).lib.width (exStream 1).sr (filterSpec (bandWCfg cfg exArgs band) (exStream 1).sr))
      (bandWCfg cfg exArgs band).codaNorm (freeSurfaceOf (bandWCfg cfg exArgs band) (exStream 1)) = .ok trace := by
    unfold observedEnergy
    simp only [exStream, energy1c, env, exEnv, bandWCfg, cfg, JobsExample.exCfg, freeSurfaceOf, List.map_cons,
      List.map_nil,
      List.zipWith_cons_cons, List.zipWith_nil_left, List.length_cons, List.length_nil, minLen,
      maxLen, List.foldl_cons, List.foldl_nil, sumAxis0]
    norm_num [exEnergy, trace, List.range_succ]
    intro h
    simp at h
  simp only
  rw [this]

theorem noise_step (type : String) (orc : Source.Oracle) (tr : Trace) :
    noiseStep (env type orc).lib (bandWCfg cfg exArgs band) tr = .ok (some tr) := by
  simp [noiseStep, bandWCfg, cfg, JobsExample.exCfg, mapExc, adjust, bind, Except.bind, pure, Except.pure]

theorem energies_eq (type : String) (orc : Source.Oracle) :
    energies (env type orc).lib (bandWCfg cfg exArgs band) [exStream 1] = .ok [trace] := by
  simp [energies, mapExc, energy, noise_step, bind, Except.bind, pure, Except.pure]

theorem setup {type : String} (ht : type ∈ greensTypes) {orc : Source.Oracle} (ho : IsSearch orc) :
    SoundSetup (env type orc) cfg bands where
  frequencies := freqs
  nonzero := by
    intro f hf
    simp only [bands, Dict.keys, List.map_cons, List.map_nil, List.mem_singleton] at hf
    rw [hf]; norm_num
  codaNorm := by simp [cfg, JobsExample.exCfg]
  input := fun h => absurd rfl h
  jobs := by simp [cfg, JobsExample.exCfg]
  setOrder := set_order
  network := by simp [cfg, JobsExample.exCfg]
  waveforms := fun _ _ _ _ => ⟨_, rfl⟩
  greens := C136_greens type ht
  weight := by simp [cfg, JobsExample.exCfg]
  smoothWindow := by simp [cfg, JobsExample.exCfg]
  skip := by norm_num [cfg, JobsExample.exCfg]
  numPoints := by norm_num [cfg, JobsExample.exCfg]
  bBounds := by simp [cfg, JobsExample.exCfg]
  g0Bounds := fun _ => ⟨_, rfl, by norm_num, by norm_num⟩
  search := fun f _ => ⟨1, rfl, by norm_num⟩
  sourceSearch := ho
  sourceModel := by simp [cfg, JobsExample.exCfg]

theorem events (type : String) (orc : Source.Oracle) : SoundEvents (env type orc) cfg bands [exEvent] where
  ids := by simp
  origins := by
    intro ev hev
    obtain rfl := List.mem_singleton.1 hev
    exact ⟨_, rfl⟩
  onsets := by
    refine ⟨?_, ?_, ?_⟩
    · intro vp hvp
      have : (1 : ℝ) = vp := Option.some.inj hvp
      rw [← this]; norm_num
    · intro _
      exact ⟨1, rfl, by norm_num⟩
    · intro h
      simp [cfg, JobsExample.exCfg] at h
  data := by
    intro streams origins args h1 h2 h3 b hb
    have e : selectStreams (env type orc) cfg [exEvent] = .ok (some [exStream 1]) := exSelect
    rw [e] at h1
    obtain rfl := Option.some.inj (Except.ok.inj h1)
    have e3 : bandArgs cfg bands = .ok exArgs := rfl
    rw [e3] at h3
    obtain rfl := Except.ok.inj h3
    simp only [bands, List.map_cons, List.map_nil, List.mem_singleton] at hb
    subst hb
    have ei : ignoreNetworks cfg (boreholes (env type orc) origins) [exStream 1] = [exStream 1] := rfl
    rw [ei]
    refine ⟨by simp, ?_, ?_, ?_, ?_, ?_⟩
    · intro s hs
      obtain rfl := List.mem_singleton.1 hs
      exact ⟨_, energy type orc⟩
    · intro s _ tr _ nw hnw
      simp [bandWCfg, cfg, JobsExample.exCfg] at hnw
    · intro s _ tr _ aw haw
      simp [bandWCfg, cfg, JobsExample.exCfg] at haw
    · intro trs h tr htr
      rw [energies_eq] at h
      obtain rfl := Except.ok.inj h
      obtain rfl := List.mem_singleton.1 htr
      refine ⟨by norm_num [trace, exEnergy], by norm_num [trace, exEnergy], ?_, ?_, ?_, ?_, ?_⟩
      · intro x hx
        simp only [trace, List.mem_cons, List.not_mem_nil, or_false] at hx
        rcases hx with rfl | rfl | rfl | rfl | rfl <;> norm_num
      · exact ⟨3, 3, rfl, by norm_num [NearestInt, trace, exEnergy], by norm_num, by norm_num [trace]⟩
      · intro d
        exact ⟨(3, 4), NoExcExample.coda_window _ rfl, by norm_num [trace, exEnergy]⟩
      · intro bw h
        simp [bandWCfg, cfg, JobsExample.exCfg] at h
      · intro mw h d
        obtain rfl := Option.some.inj h
        exact ⟨(1, 4), TimeAxisExample.ex_tw rfl (num := "+1".toList) (num' := "+4".toList) (by decide)
          (by simp [TimeAxisExample.exFloat]) (by decide)
          (by simp [TimeAxisExample.exFloat])⟩
    · refine ⟨fun v hv => ?_, fun h => ?_⟩
      · have : (1 : ℝ) = v := Option.some.inj hv
        rw [← this]; norm_num
      · simp [bandWCfg, cfg, JobsExample.exCfg] at h

end NoExcChain

open NoExcChain TruthChainExample TablesExample Rt RtValues in
/-- One event and one frequency band with each of the bundled Green's functions. -/
example {type : String} (ht : type ∈ greensTypes) {orc : Source.Oracle} (ho : IsSearch orc) :
    ∃ o, invert (NoExcChain.env type orc) NoExcChain.cfg 1 [] [exEvent] = .ok o :=
  C136_inversion (setup ht ho) ⟨fun hne => absurd rfl hne, Or.inl rfl⟩ (events type orc)

open NoExcChain TruthChainExample TablesExample Rt RtValues in
/-- The catalogue with this event. -/
example {type : String} (ht : type ∈ greensTypes) {orc : Source.Oracle} (ho : IsSearch orc)
    (rlm : List ℝ → ℝ × ℝ) : ∃ out, Wrapper.invertWrapper rlm
      (fun evs => invert (NoExcChain.env type orc) NoExcChain.cfg 1 [] evs) NoExcChain.cfg.codaNorm.isSome false
      .robust [exEvent] = .ok out := by
  refine C136_catalogue (schedule := fun _ => []) (setup ht ho) (fun _ => ⟨fun hne => absurd rfl hne, Or.inl rfl⟩)
    (by simp) ?_ ⟨exEvent, by simp, rfl⟩ ?_
  · rintro ⟨a, ha, b, hb, hne, -⟩
    exact hne ((List.mem_singleton.1 ha).trans (List.mem_singleton.1 hb).symm)
  · intro ev hev _
    obtain rfl := List.mem_singleton.1 hev
    exact ⟨rfl, events type orc⟩

namespace NoExcExample
open TimeAxisExample UnitsExample

/-- A noise window from 1 s to 2 s and a coda window which ends at 3 times the noise level. -/
noncomputable def snrCfg : WCfg := { uCfg with
  bulkWindow := none, noiseWindows := [(.one "OT+1s".toList, .one "OT+2s".toList)]
  codaWindow := (.one "OT+3s".toList, .one "3SNR".toList) }

/-- A recording which begins after the noise window. -/
noncomputable def late : Stream := { good "B" with start := 3 }

noncomputable def lateTrace : Trace := { goodTrace "B" with start := 3 }

theorem energy_snr : Window.energyOf exLib snrCfg (good "A") = .ok (some (goodTrace "A")) ∧
    Window.energyOf exLib snrCfg late = .ok (some lateTrace) := by
  have e : (good "A").sr = 1 := rfl
  have e' : late.sr = 1 := rfl
  constructor <;> unfold Window.energyOf
  · rw [if_neg (by norm_num [snrCfg, uCfg, exCfg, good]), if_neg (by simp [snrCfg, uCfg, exCfg])]
    have : observedEnergy exLib.hilbert ⟨(good "A").event, (good "A").station,
        (good "A").start, 1, (good "A").channels.map (exLib.filt (filterSpec snrCfg 1) 1),
        (good "A").origin, (good "A").ponset, (good "A").sonset, (good "A").distance,
        (good "A").borehole⟩ snrCfg.rho0
        (exLib.width 1 (filterSpec snrCfg 1)) snrCfg.codaNorm (freeSurfaceOf snrCfg (good "A")) =
        .ok (goodTrace "A") := by
      simp [observedEnergy, exLib, good, snrCfg, uCfg, exCfg, energy1c, freeSurfaceOf, minLen, maxLen,
        sumAxis0, goodTrace, List.range_succ]
      norm_num
    simp only [e]
    rw [this]
  · rw [if_neg (by norm_num [snrCfg, uCfg, exCfg, late, good]), if_neg (by simp [snrCfg, uCfg, exCfg])]
    have : observedEnergy exLib.hilbert ⟨late.event, late.station,
        late.start, 1, late.channels.map (exLib.filt (filterSpec snrCfg 1) 1),
        late.origin, late.ponset, late.sonset, late.distance,
        late.borehole⟩ snrCfg.rho0
        (exLib.width 1 (filterSpec snrCfg 1)) snrCfg.codaNorm (freeSurfaceOf snrCfg late) =
        .ok lateTrace := by
      simp [observedEnergy, exLib, good, late, snrCfg, uCfg, exCfg, energy1c, freeSurfaceOf, minLen, maxLen,
        sumAxis0, goodTrace, lateTrace, List.range_succ]
      norm_num
    simp only [e']
    rw [this]

theorem energies_snr : ∃ l, energies exLib snrCfg [good "A", late] =
    .ok [{ goodTrace "A" with noise := some l }, lateTrace] := by
  have h1 : ∃ l, noiseStep exLib snrCfg (goodTrace "A") = .ok (some { goodTrace "A" with noise := some l }) := by
    have hsl : getSlice (goodTrace "A") (1, 2) = some { goodTrace "A" with start := 1, data := [4, 4] } := by
      have := TimeAxisExample.slice_int (tr := goodTrace "A") rfl rfl (a := 1) (b := 2) (by norm_num) (by simp [goodTrace])
      push_cast at this
      rw [this]
      simp [goodTrace]
    have hw := bulk_window (goodTrace "A") rfl
    refine ⟨snrCfg.noiseFunc [4], ?_⟩
    have hl : noiseLevel exLib (goodTrace "A") (.one "OT+1s".toList, .one "OT+2s".toList) = .ok (some 4) := by
      unfold noiseLevel
      unfold getSlice at hsl
      simp only [exLib, hw, bind, Except.bind]
      simp only at hsl
      split at hsl
      · next sl h =>
        rw [h]
        split at hsl
        · rw [Option.some.inj hsl]
          norm_num [InvertFb.mean, pure, Except.pure]
        · simp at hsl
      · simp at hsl
    simp only [noiseStep, snrCfg, mapExc, hl, bind, Except.bind, pure, Except.pure]
    simp [uCfg, exCfg, adjust]
  have h2 : noiseStep exLib snrCfg lateTrace = .ok (some lateTrace) := by
    have hsl : ∃ sl, lateTrace.slice 1 2 = .ok sl ∧ sl.data = [] := by
      have hl : lateTrace.ltrim 1 = lateTrace := by
        unfold Trace.ltrim
        simp only
        rw [if_neg]
        norm_num [roundAway, lateTrace, goodTrace]
      refine ⟨_, if_neg (by norm_num), ?_⟩
      rw [hl]
      unfold Trace.rtrim
      have hr : roundAway ((2 - lateTrace.start) * lateTrace.sr) = -1 := by
        norm_num [roundAway, lateTrace, goodTrace]
      simp only [hr]
      rw [if_neg (by norm_num [lateTrace, goodTrace]), if_pos (by norm_num [lateTrace])]
    obtain ⟨sl, h1, h2⟩ := hsl
    have hw := bulk_window lateTrace rfl
    have hl : noiseLevel exLib lateTrace (.one "OT+1s".toList, .one "OT+2s".toList) = .ok none := by
      unfold noiseLevel
      simp only [exLib, hw, h1, bind, Except.bind]
      simp [h2, pure, Except.pure]
    simp only [noiseStep, snrCfg, mapExc, hl, bind, Except.bind, pure, Except.pure]
    simp [uCfg, exCfg, adjust]
  obtain ⟨l, h1⟩ := h1
  exact ⟨l, by simp [energies, mapExc, energy_snr, h1, h2, bind, Except.bind, pure, Except.pure]⟩

end NoExcExample

open NoExcExample in
/-- A record which begins after the noise window. -/
example (wls : List ℝ → List (List ℝ) → List ℝ → List ℝ × ℝ) (G : Greens)
    (minimize : (ℝ → Py (WithTop ℝ)) → Py ℝ) (inv : InvertFb.Cfg) :
    ∃ e, invertFb TimeAxisExample.exLib wls G minimize snrCfg inv [good "A", late] = .error e := by
  obtain ⟨l, h⟩ := energies_snr
  exact C136_noise_level h (tr := lateTrace) (by simp) rfl rfl rfl (num := "3".toList) (by decide) (by decide)
end Qopen
