import Verif.Props.OtherBands
import Verif.Props.AgainExample

/-!
# The reported velocity depends on the other bands if it is not given (C144)
-/

namespace Qopen

set_option linter.unusedSimpArgs false

open Real Spec Util Tr Energy InvertFb Window Catalog Freqs Source Invert

namespace BandsVelocityExample

open TimeAxisExample AgainExample

/-- The options of a band. -/
noncomputable def wb (band : ℝ × ℝ) : WCfg := { AgainExample.w with freqBand := band }

/-- A stream with a sampling rate. -/
noncomputable def streamSr (sta : String) (d sr : ℝ) (c : List ℝ) : Stream :=
  { event := "e", station := sta, start := 0, sr := sr, channels := [c, c, c]
    origin := 0, ponset := 1, sonset := 1, distance := d }

noncomputable def traceSr (sta : String) (d sr : ℝ) (c : List ℝ) : Trace :=
  { event := "e", station := sta, start := 0, sr := sr, data := c
    origin := 0, ponset := 1, sonset := 1, distance := d, noise := none }

/-- Station B with a low sampling rate. -/
noncomputable def slow : Stream := streamSr "B" 3 0.75 [2, 0, 0, 1, 1]

noncomputable def tSlow : Trace := traceSr "B" 3 0.75 [3, 0, 0, 3 / 4, 3 / 4]

theorem energy_of (band : ℝ × ℝ) (sr : ℝ) (hb : ¬ band.1 + band.2 > sr) (sta : String) (d a b c e f : ℝ) :
    Window.energyOf lib (wb band) (streamSr sta d sr [a, b, c, e, f]) =
      .ok (some (traceSr sta d sr [3 / 4 * a ^ 2,
      3 / 4 * b ^ 2, 3 / 4 * c ^ 2, 3 / 4 * e ^ 2, 3 / 4 * f ^ 2])) := by
  unfold Window.energyOf
  rw [if_neg (by exact hb), if_neg (by simp [wb, AgainExample.w])]
  have : ∀ s : Stream, s = streamSr sta d sr [a, b, c, e, f] → observedEnergy lib.hilbert s (wb band).rho0 1
      (wb band).codaNorm (freeSurfaceOf (wb band) s) = .ok (traceSr sta d sr [3 / 4 * a ^ 2,
      3 / 4 * b ^ 2, 3 / 4 * c ^ 2, 3 / 4 * e ^ 2, 3 / 4 * f ^ 2]) := by
    rintro s rfl
    unfold observedEnergy
    simp only [streamSr, energy1c, lib, wb, AgainExample.w, freeSurfaceOf, List.map_cons, List.map_nil,
      List.zipWith_cons_cons, List.zipWith_nil_left, List.length_cons, List.length_nil, minLen,
      maxLen, List.foldl_cons, List.foldl_nil, sumAxis0, List.range_succ, List.range_zero]
    norm_num [traceSr, List.range_succ]
    ring_nf
    simp
  have hmap : ∀ (sp : FilterSpec) (x : ℝ) (l : List (List ℝ)), l.map (lib.filt sp x) = l := by
    intro sp x l
    simp [lib]
  have hch : ∀ l, l = (streamSr sta d sr [a, b, c, e, f]).channels →
      { streamSr sta d sr [a, b, c, e, f] with channels := l } = streamSr sta d sr [a, b, c, e, f] := by
    rintro _ rfl; rfl
  simp only
  rw [hch _ (hmap _ _ _)]
  have h2 : observedEnergy lib.hilbert (streamSr sta d sr [a, b, c, e, f]) (wb band).rho0
      (lib.width (streamSr sta d sr [a, b, c, e, f]).sr
        (filterSpec (wb band) (streamSr sta d sr [a, b, c, e, f]).sr)) (wb band).codaNorm
      (freeSurfaceOf (wb band) (streamSr sta d sr [a, b, c, e, f])) = _ := this _ rfl
  rw [h2]

theorem noise_step (band : ℝ × ℝ) (tr : Trace) : noiseStep lib (wb band) tr = .ok (some tr) := by
  unfold noiseStep adjust
  simp [wb, AgainExample.w, mapExc, bind, Except.bind, pure, Except.pure]

theorem energy_A {band : ℝ × ℝ} (hb : ¬ band.1 + band.2 > 1) :
    Window.energyOf lib (wb band) sA = .ok (some tA) := by
  have := energy_of band 1 hb "A" 1 0 0 2 1 (exp (-1 / 2))
  have h2 : exp (-1 / 2 : ℝ) ^ 2 = exp (-1) := by rw [← exp_nat_mul]; norm_num
  rw [h2] at this
  refine (Eq.trans ?_ this).trans ?_
  · rfl
  · unfold tA trace traceSr
    norm_num

theorem energy_B {band : ℝ × ℝ} (hb : ¬ band.1 + band.2 > 0.75) :
    Window.energyOf lib (wb band) slow = .ok (some tSlow) := by
  have := energy_of band 0.75 hb "B" 3 2 0 0 1 1
  refine (Eq.trans ?_ this).trans ?_
  · rfl
  · unfold tSlow traceSr
    norm_num

/-- Both pairs have an energy in the first band. -/
theorem energies_low : energies lib (wb (0.2, 0.3)) [sA, slow] = .ok [tA, tSlow] := by
  unfold energies
  simp [mapExc, energy_A (band := (0.2, 0.3)) (by norm_num), energy_B (band := (0.2, 0.3)) (by norm_num),
    noise_step, bind, Except.bind, pure, Except.pure]

/-- The sampling rate of station B is too low for the second band. -/
theorem energies_high : energies lib (wb (0.4, 0.5)) [sA, slow] = .ok [tA] := by
  have h : Window.energyOf lib (wb (0.4, 0.5)) slow = .ok none := by
    unfold Window.energyOf
    rw [if_pos]
    norm_num [wb, slow, streamSr]
  unfold energies
  simp [mapExc, energy_A (band := (0.4, 0.5)) (by norm_num), h, noise_step, bind, Except.bind, pure, Except.pure]

theorem tw14 : tw2utc exFloat (.one "OT+1s".toList, .one "OT+4s".toList) tSlow = .ok (1, 4) :=
  ex_tw rfl (num := "+1".toList) (num' := "+4".toList) (by decide)
      (by simp [exFloat]) (by decide) (by simp [exFloat])

theorem tw34 : tw2utc exFloat (.one "OT+3s".toList, .one "OT+4s".toList) tSlow = .ok (3, 4) :=
  ex_tw rfl (num := "+3".toList) (num' := "+4".toList) (by decide)
      (by simp [exFloat]) (by decide) (by simp [exFloat])

theorem argmax_slow : argmax tSlow.data = .ok 0 := argmax_B

theorem accepts_A (band : ℝ × ℝ) (v : ℝ) : Accepts lib (wb band) v tA (pair v) := by
  refine ⟨rfl, rfl, rfl, ⟨tA, (3, 4), _, rfl, ⟨(3, 4), AgainExample.tw34 _ _ _, ?_, rfl⟩, ?_, slice_A, ?_⟩,
    ?_, ?_⟩
  · norm_num [wb, AgainExample.w]
  · intro mw h
    simp only [wb, AgainExample.w, Option.some.injEq] at h
    subst h
    exact ⟨(1, 4), 2, AgainExample.tw14 _ _ _, argmax_A, by norm_num [tA, trace], by norm_num [tA, trace]⟩
  · simp [pair, sampleTime, tA, trace]
    norm_num
  · intro bw h
    simp [wb, AgainExample.w] at h
  · intro
    exact ⟨rfl, rfl, rfl, rfl, rfl⟩

theorem rejects_slow (band : ℝ × ℝ) (v : ℝ) (p : PairData) : ¬ Accepts lib (wb band) v tSlow p := by
  rintro ⟨-, -, -, ⟨tr', cw, esl, h1, -, h3, -⟩, -⟩
  obtain rfl : tSlow = tr' := by simpa [smoothTrace, wb, AgainExample.w] using h1
  obtain ⟨mw, i, a1, a2, a3, -⟩ := h3 _ rfl
  rw [show tw2utc lib.float (.one "OT+1s".toList, .one "OT+4s".toList) tSlow = .ok (1, 4) from tw14] at a1
  rw [argmax_slow] at a2
  rw [← Except.ok.inj a1, ← Except.ok.inj a2] at a3
  norm_num [tSlow, traceSr] at a3

theorem windows_A (band : ℝ × ℝ) (v : ℝ) (st : WState) : ∃ st', step lib (wb band) v st tA = .ok st' ∧
    st'.Ecoda.length = st.Ecoda.length + 1 := AgainExample.windows_A v st

theorem windows_slow (band : ℝ × ℝ) (v : ℝ) (st : WState) : ∃ st', step lib (wb band) v st tSlow = .ok st' ∧
    st'.Ecoda.length = st.Ecoda.length := by
  unfold step codaPart smoothTrace cutCoda checkMaximum
  have h1 : tw2utc lib.float (wb band).codaWindow tSlow = .ok (3, 4) := tw34
  have h2 : tw2utc lib.float (.one "OT+1s".toList, .one "OT+4s".toList) tSlow = .ok (1, 4) := tw14
  simp only [wb, AgainExample.w, bind, Except.bind, pure, Except.pure] at h1 ⊢
  rw [h1]
  simp only
  have h3 : ¬ ((4 : ℝ) - 3 < 0.05) := by norm_num
  have h4 : ¬ ((1 : ℝ) < tSlow.start + (0 : ℕ) / tSlow.sr) := by norm_num [tSlow, traceSr]
  simp only [h3, if_false, h2, argmax_slow, h4, false_and]
  exact ⟨_, rfl, rfl⟩

theorem pairs_nodup : (([sA, slow] : List Stream).map (fun s => (s.event, s.station))).Nodup := by
  simp [slow, sA, stream, streamSr]

/-- A band with station A has a result with the velocity of the band. -/
theorem solved (band : ℝ × ℝ) (v : ℝ) : ∃ r, solveBand InvertExample.rankWls AgainExample.G (fun _ => .ok 1)
    (fullCfg (wb band) inv v) (bandOf false [pair v]) = .ok (some r) ∧ r.v0 = v := by
  obtain ⟨r, R, W, k1, -⟩ := C125_band InvertExample.rankWls_spec one_value rfl
    rfl (fun _ => by norm_num) (fun _ => by positivity) (exact_windows v)
  obtain ⟨f, g0, bFix, hf, hrep, hb⟩ := solveBand_ok k1
  obtain ⟨-, -, -, -, -, -, -, r7⟩ := report_some hrep
  exact ⟨r, k1, r7⟩

theorem low : ∃ r, invertFb lib InvertExample.rankWls AgainExample.G (fun _ => .ok 1) (wb (0.2, 0.3)) inv
    [sA, slow] = .ok (some r) ∧ r.v0 = 2 := by
  have hv : velocity (wb (0.2, 0.3)) [tA, tSlow] = some 2 := velocity_two
  have hst : ∃ st, windows lib (wb (0.2, 0.3)) 2 [tA, tSlow] = .ok st ∧ st.Ecoda.length = 1 := by
    unfold windows
    simp only [List.foldlM_cons, List.foldlM_nil]
    obtain ⟨s1, h1, h2⟩ := windows_A (0.2, 0.3) 2 { energies := [tA, tSlow].map Trace.pair }
    obtain ⟨s2, h3, h4⟩ := windows_slow (0.2, 0.3) 2 s1
    exact ⟨s2, by simp only [h1, h3, bind, Except.bind, pure, Except.pure], by rw [h4, h2]; rfl⟩
  obtain ⟨st, hst, hl⟩ := hst
  have hacc : AcceptedPairs lib (wb (0.2, 0.3)) [sA, slow] 2 [pair 2] := by
    refine ⟨[tA, tSlow], [(tA, pair 2)], energies_low, hv, by simp, ?_, ?_, rfl⟩
    · intro x hx
      obtain rfl := List.mem_singleton.1 hx
      exact accepts_A _ 2
    · intro tr htr hn
      rcases List.mem_cons.1 htr with rfl | htr
      · simp at hn
      · obtain rfl := List.mem_singleton.1 htr
        exact rejects_slow _ 2
  obtain ⟨ps, c1, c2⟩ := invertFb_accepted (wls := InvertExample.rankWls) (G := AgainExample.G)
    (minimize := fun _ => .ok 1) (inv := inv) pairs_nodup energies_low hv hst
    (by rw [hl]; norm_num [wb, AgainExample.w])
  obtain rfl := (acceptedPairs_unique pairs_nodup c1 hacc).2
  obtain ⟨r, h1, h2⟩ := solved (0.2, 0.3) 2
  exact ⟨r, c2.trans h1, h2⟩

theorem high : ∃ r, invertFb lib InvertExample.rankWls AgainExample.G (fun _ => .ok 1) (wb (0.4, 0.5)) inv
    [sA, slow] = .ok (some r) ∧ r.v0 = 1 := by
  have hv : velocity (wb (0.4, 0.5)) [tA] = some 1 := by
    simp [velocity, wb, AgainExample.w, InvertFb.mean, tA, trace]
  have hst : ∃ st, windows lib (wb (0.4, 0.5)) 1 [tA] = .ok st ∧ st.Ecoda.length = 1 := by
    unfold windows
    simp only [List.foldlM_cons, List.foldlM_nil]
    obtain ⟨s1, h1, h2⟩ := windows_A (0.4, 0.5) 1 { energies := [tA].map Trace.pair }
    exact ⟨s1, by simp only [h1, bind, Except.bind, pure, Except.pure], by rw [h2]; rfl⟩
  obtain ⟨st, hst, hl⟩ := hst
  have hacc : AcceptedPairs lib (wb (0.4, 0.5)) [sA, slow] 1 [pair 1] := by
    refine ⟨[tA], [(tA, pair 1)], energies_high, hv, by simp, ?_, ?_, rfl⟩
    · intro x hx
      obtain rfl := List.mem_singleton.1 hx
      exact accepts_A _ 1
    · intro tr htr hn
      exact absurd htr (by simpa using hn)
  obtain ⟨ps, c1, c2⟩ := invertFb_accepted (wls := InvertExample.rankWls) (G := AgainExample.G)
    (minimize := fun _ => .ok 1) (inv := inv) pairs_nodup energies_high hv hst
    (by rw [hl]; norm_num [wb, AgainExample.w])
  obtain rfl := (acceptedPairs_unique pairs_nodup c1 hacc).2
  obtain ⟨r, h1, h2⟩ := solved (0.4, 0.5) 1
  exact ⟨r, c2.trans h1, h2⟩

noncomputable def env : Env :=
  { JobsExample.exEnv with
    lib := lib, wls := InvertExample.rankWls, G := AgainExample.G, minimize := fun _ => .ok 1 }

noncomputable def cfg : InvCfg :=
  { JobsExample.exCfg (some 1) with wcfg := AgainExample.w, inv := AgainExample.inv }

end BandsVelocityExample

open BandsVelocityExample AgainExample in
/-- **C144** (counterexample to the claim without the same velocity): the velocity is not given and the
sampling rate of one of two stations is too low for the second band.  With the first band alone velocity 2
is reported (and used for the spectra), with both bands velocity 1, the one of the second band. -/
theorem C144_velocity_counterexample : ∃ (env : Env) (cfg : InvCfg) (args : BandArgs)
    (streams : List Stream) (band band' : ℝ × ℝ) (r r' : BandResult),
    cfg.wcfg.v0 = none ∧ cfg.njobs = some 1 ∧
    runBands env cfg args streams [band] 1 [] = .ok [some r] ∧
    runBands env cfg args streams [band, band'] 1 [] = .ok [some r, some r'] ∧
    (∀ events stations freq res, tables env cfg events stations freq [some r] = .ok (some res) →
      res.v0 = some 2) ∧
    ∀ events stations freq res, tables env cfg events stations freq [some r, some r'] = .ok (some res) →
      res.v0 = some 1 := by
  have ht : ∀ {env : Env} {cfg : InvCfg} {events stations freq rlist res},
      tables env cfg events stations freq rlist = .ok (some res) → res.v0 = lastV0 rlist := by
    intro env cfg events stations freq rlist res h
    unfold tables at h
    split at h
    · simp at h
    obtain ⟨err, -, h⟩ := bind_ok.1 h
    simp only at h
    obtain ⟨evs, -, h⟩ := bind_ok.1 h
    simp only [pure, Except.pure, Except.ok.injEq, Option.some.injEq] at h
    rw [← h]
  obtain ⟨r, h1, h2⟩ := low
  obtain ⟨r', h1', h2'⟩ := high
  have e1 : runBand BandsVelocityExample.env BandsVelocityExample.cfg JobsExample.exArgs [sA, slow] (0.2, 0.3) =
      .ok (some r) := h1
  have e2 : runBand BandsVelocityExample.env BandsVelocityExample.cfg JobsExample.exArgs [sA, slow] (0.4, 0.5) =
      .ok (some r') := h1'
  refine ⟨BandsVelocityExample.env, BandsVelocityExample.cfg, JobsExample.exArgs, [sA, slow], (0.2, 0.3),
    (0.4, 0.5), r, r', rfl, rfl, ?_, ?_,
    fun _ _ _ _ h => by rw [ht h]; simp [lastV0, h2], fun _ _ _ _ h => by rw [ht h]; simp [lastV0, h2']⟩
  · unfold runBands
    rw [if_pos (by rfl), C24_sequential]
    simp only [mapExc, e1, bind, Except.bind, pure, Except.pure]
  · unfold runBands
    rw [if_pos (by rfl), C24_sequential]
    simp only [mapExc, e1, e2, bind, Except.bind, pure, Except.pure]

end Qopen
