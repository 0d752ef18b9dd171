import Verif.Props.AgainSource
import Verif.Props.TruthExample

/-!
# The commands `fixed` and `source` repeat the inversion of all bands (C126): cases, and what happens
if the velocity is not given
-/

namespace Qopen

open Real Spec Util Tr Energy InvertFb Window Catalog Freqs Source Invert Wrapper

namespace TruthChainExample

open JobsExample TablesExample

theorem well_posed : WellPosed env cfg bands [exEvent] := by
  constructor
  · exact exact_data.pairs
  · intro i c ps h hne
    have hx := exact_data.exact_windows i c ps h hne
    obtain ⟨rfl, rfl⟩ := windows_unique h
    refine ⟨hx.good, hx.connected, hx.two_times rfl, ?_, ?_⟩ <;> intro lo hh <;>
      simp [bandCfg, fullCfg, cfg, JobsExample.exCfg] at hh

example : ∃ res fp res', invert env cfg 1 [] [exEvent] = .ok (some res) ∧
    inputOf res = some fp ∧ invert env (again cfg .fixed fp) 1 [] [exEvent] = .ok (some res') ∧
    res'.R = res.R ∧ res'.events = res.events := by
  obtain ⟨res, h⟩ := invert_one'
  obtain ⟨fp, res', h1, h2, -, h4, h5, -⟩ := C126_fixed (cpus' := 1) (schedule' := [])
    InvertExample.rankWls_spec InvertExample.someRank_full
    one_value set_order freqs rfl rfl (own []) (own []) (by simp [cfg, JobsExample.exCfg]) well_posed h
  exact ⟨res, fp, res', h, h1, h2, h4, h5⟩

example : ∃ res fp res', invert env cfg 1 [] [exEvent] = .ok (some res) ∧
    inputOf res = some fp ∧ invert env (again cfg .source fp) 1 [] [exEvent] = .ok (some res') ∧
    res'.events = res.events := by
  obtain ⟨res, h⟩ := invert_one'
  obtain ⟨fp, res', h1, h2, -, -, h5, -⟩ := C126_source_partial (cpus' := 1) (schedule' := [])
    (v0 := 1) InvertExample.rankWls_spec
    one_value set_order freqs rfl rfl (own []) (own []) (by simp [cfg, JobsExample.exCfg]) rfl
    (by
      intro streams stations hs hst s hm
      rw [result_stations] at hst
      rw [streams_one hs, List.mem_singleton] at hm
      rw [← Except.ok.inj hst, hm]
      simp [exStream])
    exact_data.pairs (fun i c ps hw hne => (exact_data.exact_windows i c ps hw hne).good) h
  exact ⟨res, fp, res', h, h1, h2, h5⟩

end TruthChainExample

namespace AgainExample

open TimeAxisExample

/-- No filter. -/
noncomputable def lib : Lib :=
  { float := exFloat, hilbert := fun l => l, filt := fun _ _ l => l, width := fun _ _ => 1 }

/-- The velocity is determined from the data. -/
noncomputable def w : WCfg :=
  { freqBand := (0.2, 0.3), rho0 := 1, noiseFunc := fun _ => 0
    skipMaximum := some (.one "OT+1s".toList, .one "OT+4s".toList)
    codaWindow := (.one "OT+3s".toList, .one "OT+4s".toList) }

noncomputable def inv : InvertFb.Cfg := { g0Bounds := none, bBounds := none, v0 := 1 }

/-- Three equal components. -/
noncomputable def stream (sta : String) (d : ℝ) (c : List ℝ) : Stream :=
  { event := "e", station := sta, start := 0, sr := 1, channels := [c, c, c]
    origin := 0, ponset := 1, sonset := 1, distance := d }

noncomputable def trace (sta : String) (d : ℝ) (c : List ℝ) : Trace :=
  { event := "e", station := sta, start := 0, sr := 1, data := c
    origin := 0, ponset := 1, sonset := 1, distance := d, noise := none }

/-- Station A with decaying coda. -/
noncomputable def sA : Stream := stream "A" 1 [0, 0, 2, 1, exp (-1 / 2)]

/-- Station B is three times as far, its maximum is at the origin time. -/
noncomputable def sB : Stream := stream "B" 3 [2, 0, 0, 1, 1]

noncomputable def tA : Trace := trace "A" 1 [0, 0, 3, 3 / 4, 3 / 4 * exp (-1)]

noncomputable def tB : Trace := trace "B" 3 [3, 0, 0, 3 / 4, 3 / 4]

theorem energy_of (sta : String) (d a b c e f : ℝ) :
    Window.energyOf lib w (stream sta d [a, b, c, e, f]) = .ok (some (trace sta d [3 / 4 * a ^ 2,
      3 / 4 * b ^ 2, 3 / 4 * c ^ 2, 3 / 4 * e ^ 2, 3 / 4 * f ^ 2])) := by
  unfold Window.energyOf
  rw [if_neg (by norm_num [w, stream]), if_neg (by simp [w])]
  have : ∀ s : Stream, s = stream sta d [a, b, c, e, f] → observedEnergy lib.hilbert s w.rho0 1 w.codaNorm
      (freeSurfaceOf w s) = .ok (trace sta d [3 / 4 * a ^ 2,
      3 / 4 * b ^ 2, 3 / 4 * c ^ 2, 3 / 4 * e ^ 2, 3 / 4 * f ^ 2]) := by
    rintro s rfl
    unfold observedEnergy
    simp only [stream, energy1c, lib, w, freeSurfaceOf, List.map_cons, List.map_nil,
      List.zipWith_cons_cons, List.zipWith_nil_left, List.length_cons, List.length_nil, minLen,
      maxLen, List.foldl_cons, List.foldl_nil, sumAxis0, List.range_succ, List.range_zero]
    norm_num [trace, List.range_succ]
    ring_nf
    simp
  have hmap : ∀ (sp : FilterSpec) (x : ℝ) (l : List (List ℝ)), l.map (lib.filt sp x) = l := by
    intro sp x l
    simp [lib]
  have hch : ∀ l, l = (stream sta d [a, b, c, e, f]).channels →
      { stream sta d [a, b, c, e, f] with channels := l } = stream sta d [a, b, c, e, f] := by
    rintro _ rfl; rfl
  simp only
  rw [hch _ (hmap _ _ _)]
  have h2 : observedEnergy lib.hilbert (stream sta d [a, b, c, e, f]) w.rho0
      (lib.width (stream sta d [a, b, c, e, f]).sr
        (filterSpec w (stream sta d [a, b, c, e, f]).sr)) w.codaNorm
      (freeSurfaceOf w (stream sta d [a, b, c, e, f])) = _ := this _ rfl
  rw [h2]

theorem noise_step (tr : Trace) : noiseStep lib w tr = .ok (some tr) := by
  unfold noiseStep adjust
  simp [w, mapExc, bind, Except.bind, pure, Except.pure]

theorem two_energies : energies lib w [sA, sB] = .ok [tA, tB] := by
  have h1 : Window.energyOf lib w sA = .ok (some tA) := by
    unfold sA tA
    rw [energy_of]
    have : exp (-1 / 2 : ℝ) ^ 2 = exp (-1) := by rw [← exp_nat_mul]; norm_num
    rw [this]
    norm_num
  have h2 : Window.energyOf lib w sB = .ok (some tB) := by
    unfold sB tB
    rw [energy_of]
    norm_num
  unfold energies
  simp [mapExc, h1, h2, noise_step, bind, Except.bind, pure, Except.pure]

/-- Green's function one. -/
def G : Greens := fun _ t _ _ => .ok (t.map (fun _ => 1))

theorem one_value : OneValuePerTime G := by
  intro r ts v g l h
  simp only [G, Except.ok.injEq] at h
  rw [← h]; simp

/-- The windows of station A for a velocity. -/
noncomputable def pair (v : ℝ) : PairData :=
  { event := "e", station := "A", distance := 1
    coda := [(1 / v + 2, 3 / 4), (1 + 1 / v + 2, 3 / 4 * exp (-1))] }

theorem tw14 (sta : String) (d : ℝ) (c : List ℝ) :
    tw2utc exFloat (.one "OT+1s".toList, .one "OT+4s".toList) (trace sta d c) = .ok (1, 4) :=
  ex_tw rfl (num := "+1".toList) (num' := "+4".toList) (by decide)
      (by simp [exFloat]) (by decide) (by simp [exFloat])

theorem tw34 (sta : String) (d : ℝ) (c : List ℝ) :
    tw2utc exFloat (.one "OT+3s".toList, .one "OT+4s".toList) (trace sta d c) = .ok (3, 4) :=
  ex_tw rfl (num := "+3".toList) (num' := "+4".toList) (by decide)
      (by simp [exFloat]) (by decide) (by simp [exFloat])

theorem slice_A : getSlice tA (3, 4) = some { tA with start := 3, data := [3 / 4, 3 / 4 * exp (-1)] } := by
  have := slice_int (tr := tA) rfl rfl (a := 3) (b := 4) (by norm_num) (by simp [tA, trace])
  push_cast at this
  rw [this]
  simp [tA, trace]

theorem argmax_A : argmax tA.data = .ok 2 := by
  have h1 : 3 / 4 * exp (-1 : ℝ) ≤ 3 := by
    have := exp_le_one_iff.2 (by norm_num : (-1 : ℝ) ≤ 0)
    linarith
  norm_num [argmax, tA, trace, List.idxOf_cons, max_eq_left h1]

theorem argmax_B : argmax tB.data = .ok 0 := by
  norm_num [argmax, tB, trace, List.idxOf_cons]

variable {P : Dict String ℝ} {fs : Bool}

theorem accepts_A (v : ℝ) : Accepts lib w v tA (pair v) := by
  refine ⟨rfl, rfl, rfl, ⟨tA, (3, 4), _, rfl, ⟨(3, 4), tw34 _ _ _, ?_, rfl⟩, ?_, slice_A, ?_⟩, ?_, ?_⟩
  · norm_num [w]
  · intro mw h
    simp only [w, Option.some.injEq] at h
    subst h
    exact ⟨(1, 4), 2, tw14 _ _ _, argmax_A, by norm_num [tA, trace], by norm_num [tA, trace]⟩
  · simp [pair, sampleTime, tA, trace]
    norm_num
  · intro bw h
    simp [w] at h
  · intro
    exact ⟨rfl, rfl, rfl, rfl, rfl⟩

theorem rejects_B (v : ℝ) (p : PairData) : ¬ Accepts lib w v tB p := by
  rintro ⟨-, -, -, ⟨tr', cw, esl, h1, -, h3, -⟩, -⟩
  obtain rfl : tB = tr' := by simpa [smoothTrace, w] using h1
  obtain ⟨mw, i, a1, a2, a3, -⟩ := h3 _ rfl
  have e1 := tw14 "B" 3 [3, 0, 0, 3 / 4, 3 / 4]
  rw [show tw2utc lib.float (.one "OT+1s".toList, .one "OT+4s".toList) tB = .ok (1, 4) from e1] at a1
  rw [argmax_B] at a2
  rw [← Except.ok.inj a1, ← Except.ok.inj a2] at a3
  norm_num [tB, trace] at a3

theorem windows_A (v : ℝ) (st : WState) : ∃ st', step lib w v st tA = .ok st' ∧
    st'.Ecoda.length = st.Ecoda.length + 1 := by
  unfold step codaPart smoothTrace cutCoda checkMaximum
  have h1 : tw2utc lib.float w.codaWindow tA = .ok (3, 4) := tw34 _ _ _
  have h2 : tw2utc lib.float (.one "OT+1s".toList, .one "OT+4s".toList) tA = .ok (1, 4) := tw14 _ _ _
  simp only [w, bind, Except.bind, pure, Except.pure] at h1 ⊢
  rw [h1]
  simp only
  have h3 : ¬ ((4 : ℝ) - 3 < 0.05) := by norm_num
  have h4 : (1 : ℝ) < tA.start + (2 : ℕ) / tA.sr ∧ tA.start + (2 : ℕ) / tA.sr < 4 := by
    norm_num [tA, trace]
  simp only [h3, if_false, h2, argmax_A, h4, and_self, if_true]
  unfold collect
  rw [slice_A]
  exact ⟨_, rfl, by simp⟩

theorem windows_B (v : ℝ) (st : WState) : ∃ st', step lib w v st tB = .ok st' ∧
    st'.Ecoda.length = st.Ecoda.length := by
  unfold step codaPart smoothTrace cutCoda checkMaximum
  have h1 : tw2utc lib.float w.codaWindow tB = .ok (3, 4) := tw34 _ _ _
  have h2 : tw2utc lib.float (.one "OT+1s".toList, .one "OT+4s".toList) tB = .ok (1, 4) := tw14 _ _ _
  simp only [w, bind, Except.bind, pure, Except.pure] at h1 ⊢
  rw [h1]
  simp only
  have h3 : ¬ ((4 : ℝ) - 3 < 0.05) := by norm_num
  have h4 : ¬ ((1 : ℝ) < tB.start + (0 : ℕ) / tB.sr) := by norm_num [tB, trace]
  simp only [h3, if_false, h2, argmax_B, h4, false_and]
  exact ⟨_, rfl, rfl⟩

/-- The energies in the windows are exact for every velocity. -/
theorem exact_windows (v : ℝ) : ExactWindows InvertExample.rankWls G (fun _ => .ok 1)
    (fullCfg w inv v) (fun _ => 1) (fun _ => 3 / 4 * exp (1 / v + 2)) 1 1 [pair v] := by
  refine ⟨⟨by simp, by simp, ?_, by norm_num [fullCfg, inv]⟩, ?_, ?_, ?_, ?_, ?_, ?_⟩
  · intro p hp
    obtain rfl := List.mem_singleton.1 hp
    simp [pair]
  · intro p hp
    obtain rfl := List.mem_singleton.1 hp
    simp [pair]
  · intro p hp q hq
    obtain rfl := List.mem_singleton.1 hp
    obtain rfl := List.mem_singleton.1 hq
    exact .refl
  · intro
    exact ⟨pair v, by simp, (1 / v + 2, 3 / 4), by simp [pair],
      (1 + 1 / v + 2, 3 / 4 * exp (-1)), by simp [pair], by simp⟩
  · refine ⟨[([1, 1], 0)], ?_, ?_⟩
    · simp [IsGreens, pair, gsmooth, smoothFunc, fullCfg, w, G]
    · intro s hs
      have hbulk : (fullCfg w inv v).bulk = false := rfl
      rw [hbulk] at hs
      simp [samplesOf, pair] at hs
      rcases hs with rfl | rfl
      · refine ⟨by norm_num, ?_⟩
        simp only [predicted]
        have : exp (1 / v + 2) * exp (-1 * (v⁻¹ + 2)) = 1 := by rw [← exp_add]; simp
        linear_combination (-(3 / 4 : ℝ)) * this
      · refine ⟨by norm_num, ?_⟩
        simp only [predicted]
        have : exp (1 / v + 2) * exp (-1 * (1 + v⁻¹ + 2)) = exp (-1) := by
          rw [← exp_add]; congr 1; rw [one_div]; ring
        linear_combination (-(3 / 4 : ℝ)) * this
  · unfold EvaluatedAt
    have h1 : (fullCfg w inv v).fix = false := rfl
    have h2 : (fullCfg w inv v).optimize = true := rfl
    rw [h1, h2]
    simp
  · constructor <;> intro lo hi h <;> simp [fullCfg, inv] at h

theorem windows_two (v : ℝ) : ∃ st, windows lib w v [tA, tB] = .ok st ∧ st.Ecoda.length = 1 := by
  unfold windows
  simp only [List.foldlM_cons, List.foldlM_nil]
  obtain ⟨s1, h1, h2⟩ := windows_A v { energies := [tA, tB].map Trace.pair }
  obtain ⟨s2, h3, h4⟩ := windows_B v s1
  exact ⟨s2, by simp only [h1, h3, bind, Except.bind, pure, Except.pure], by rw [h4, h2]; rfl⟩

theorem windows_one (v : ℝ) : ∃ st, windows lib w v [tA] = .ok st ∧ st.Ecoda.length = 1 := by
  unfold windows
  simp only [List.foldlM_cons, List.foldlM_nil]
  obtain ⟨s1, h1, h2⟩ := windows_A v { energies := [tA].map Trace.pair }
  exact ⟨s1, by simp only [h1, bind, Except.bind, pure, Except.pure], by rw [h2]; rfl⟩

theorem velocity_two : velocity w [tA, tB] = some 2 := by
  simp [velocity, w, InvertFb.mean, tA, tB, trace]
  norm_num

theorem pairs_nodup : (([sA, sB] : List Stream).map (fun s => (s.event, s.station))).Nodup := by
  simp [sA, sB, stream]

end AgainExample

open AgainExample in
/-- **C126**: if the velocity is not given, the command `source` uses another velocity than the
inversion whose results it gets: the velocity is the mean of all pairs, before pairs are rejected
(core.py:640-643), and pairs of stations without site response are left out before (core.py:553-558).
Here the inversion finds the true source energy for its velocity 2, and the repetition with the same
attenuation, site response and data reports velocity 1 and another energy. -/
theorem C126_velocity_counterexample : ∃ (lib : Lib) (wls : List ℝ → List (List ℝ) → List ℝ → List ℝ × ℝ)
    (rank : List ℝ → List (List ℝ) → ℕ) (G : Greens) (minimize : (ℝ → Py (WithTop ℝ)) → Py ℝ)
    (w : WCfg) (inv : InvertFb.Cfg) (streams : List Stream) (r r' : BandResult) (g b : ℝ)
    (R W W' : Dict String ℝ),
    IsWls rank wls ∧ w.v0 = none ∧
    invertFb lib wls G minimize w inv streams = .ok (some r) ∧
    r.g0 = some g ∧ r.b = some b ∧ r.R = some R ∧ r.W = some W ∧
    invertFb lib wls G minimize { w with fixSites := true, fixSitesParams := R }
      { inv with fix := true, fixParams := (some g, some b) } streams = .ok (some r') ∧
    r'.W = some W' ∧ r.v0 = 2 ∧ r'.v0 = 1 ∧
    W.get? "e" = some (3 / 4 * exp (5 / 2)) ∧ W'.get? "e" = some (3 / 4 * exp 3) := by
  have sol : ∀ v : ℝ, ∃ r R W, solveBand InvertExample.rankWls G (fun _ => .ok 1) (fullCfg w inv v)
      (bandOf false [pair v]) = .ok (some r) ∧ r.g0 = some 1 ∧ r.b = some 1 ∧ r.R = some R ∧
      (∀ s x, (s, x) ∈ R ↔ s = "A" ∧ x = 1) ∧ r.W = some W ∧
      (∀ e x, (e, x) ∈ W ↔ e = "e" ∧ x = 3 / 4 * exp (1 / v + 2)) ∧ r.v0 = v := by
    intro v
    obtain ⟨r, R, W, k1, k2, -, k4, k5, k6, k7⟩ := C125_band InvertExample.rankWls_spec one_value rfl
      rfl (fun _ => by norm_num) (fun _ => by positivity) (exact_windows v)
    have hk : (r.g0, r.b) = (some 1, some 1) := k2
    simp only [Prod.mk.injEq] at hk
    have hm : (fullCfg w inv v).R0 / stationMean (fun _ => 1) [pair v] = 1 := by
      simp [stationMean, fullCfg, inv]
    rw [hm] at k5 k7
    obtain ⟨f, g0, bFix, hf, hrep, hb⟩ := solveBand_ok k1
    obtain ⟨-, -, -, -, -, -, -, r7⟩ := report_some hrep
    refine ⟨r, R, W, k1, hk.1, hk.2, k4, ?_, k6, ?_, r7⟩
    · intro s x
      rw [k5]
      simp [pair, eq_comm]
    · intro e x
      rw [k7]
      simp [pair, eq_comm]
  obtain ⟨r, R, W, a1, a2, a3, a4, a5, a6, a7, a8⟩ := sol 2
  obtain ⟨q, R2, W2, b1, b2, b3, b4, b5, b6, b7, b8⟩ := sol 1
  -- the first inversion
  obtain ⟨st, hst, hl⟩ := windows_two 2
  have hacc2 : AcceptedPairs lib w [sA, sB] 2 [pair 2] := by
    refine ⟨[tA, tB], [(tA, pair 2)], two_energies, velocity_two, by simp, ?_, ?_, rfl⟩
    · intro x hx
      obtain rfl := List.mem_singleton.1 hx
      exact accepts_A 2
    · intro tr htr hn
      rcases List.mem_cons.1 htr with rfl | htr
      · simp at hn
      · obtain rfl := List.mem_singleton.1 htr
        exact rejects_B 2
  obtain ⟨ps, c1, c2⟩ := invertFb_accepted (wls := InvertExample.rankWls) (G := AgainExample.G)
    (minimize := fun _ => .ok 1) (inv := inv) pairs_nodup two_energies velocity_two hst
    (by rw [hl]; norm_num [w])
  obtain rfl := (acceptedPairs_unique pairs_nodup c1 hacc2).2
  -- the repetition
  have hRA : R.get? "A" = some 1 := by
    cases hg : R.get? "A" with
    | none =>
      rw [Dict.get?_eq_none] at hg
      exact absurd (List.mem_map.2 ⟨("A", 1), (a5 "A" 1).2 ⟨rfl, rfl⟩, rfl⟩) hg
    | some x => rw [((a5 "A" x).1 (Dict.mem_of_get? hg)).2]
  have hRB : R.get? "B" = none := by
    rw [Dict.get?_eq_none]
    intro h
    obtain ⟨⟨s, x⟩, hx, rfl⟩ := List.mem_map.1 h
    exact absurd ((a5 _ _).1 hx).1 (by decide)
  have he : energies lib { w with fixSites := true, fixSitesParams := R } [sA, sB] = .ok [tA] := by
    rw [energies_known rfl two_energies]
    simp [tA, tB, trace, hRA, hRB]
  have hv : velocity { w with fixSites := true, fixSitesParams := R } [tA] = some 1 := by
    simp [velocity, w, InvertFb.mean, tA, trace]
  obtain ⟨st', hst', hl'⟩ := windows_one 1
  have hacc1 : AcceptedPairs lib { w with fixSites := true, fixSitesParams := R } [sA, sB] 1
      [pair 1] := by
    refine ⟨[tA], [(tA, pair 1)], he, hv, by simp, ?_, ?_, rfl⟩
    · intro x hx
      obtain rfl := List.mem_singleton.1 hx
      exact accepts_A 1
    · intro tr htr hn
      exact absurd htr (by simpa using hn)
  obtain ⟨ps, d1, d2⟩ := invertFb_accepted (wls := InvertExample.rankWls) (G := AgainExample.G)
    (cfg := { w with fixSites := true, fixSitesParams := R })
    (minimize := fun _ => .ok 1) (inv := { inv with fix := true, fixParams := (some 1, some 1) })
    pairs_nodup he hv hst' (by rw [hl']; norm_num [w])
  obtain rfl := (acceptedPairs_unique pairs_nodup d1 hacc1).2
  obtain ⟨g0, b0, R0, W0, r', e1, e2, e3, e4, e5, -, e7⟩ := C116_source (minimize' := fun _ => .ok 1)
    (cfg := fullCfg w inv 1) InvertExample.rankWls_spec one_value (exact_windows 1).good rfl rfl b1
  have hgb : (q.g0, q.b) = (some g0, some b0) := e1
  rw [b2, b3] at hgb
  simp only [Prod.mk.injEq, Option.some.injEq] at hgb
  obtain ⟨rfl, rfl⟩ := hgb
  rw [b4] at e2
  obtain rfl := Option.some.inj e2
  have hRR : ∀ s, R.get? s = R2.get? s := by
    intro s
    cases hg : R.get? s with
    | none =>
      rw [Dict.get?_eq_none] at hg
      rw [eq_comm, Dict.get?_eq_none]
      intro hm
      obtain ⟨⟨t, x⟩, hx, rfl⟩ := List.mem_map.1 hm
      obtain ⟨h1, h2⟩ := (b5 _ _).1 hx
      exact hg (List.mem_map.2 ⟨(t, x), (a5 _ _).2 ⟨h1, h2⟩, rfl⟩)
    | some x =>
      obtain ⟨h1, h2⟩ := (a5 _ _).1 (Dict.mem_of_get? hg)
      cases hg2 : R2.get? s with
      | none =>
        rw [Dict.get?_eq_none] at hg2
        exact absurd (List.mem_map.2 ⟨(s, x), (b5 _ _).2 ⟨h1, h2⟩, rfl⟩) hg2
      | some y => rw [h2, ((b5 _ _).1 (Dict.mem_of_get? hg2)).2]
  have hcongr := solveBand_sites (wls := InvertExample.rankWls) (G := AgainExample.G)
    (minimize := fun _ => .ok 1) (cfg := sourceOptions (fullCfg w inv 1) 1 1 R2) (P := R) hRR
    (bandOf false [pair 1])
  have e4' : solveBand InvertExample.rankWls AgainExample.G (fun _ => .ok 1)
    (sourceOptions (fullCfg w inv 1) 1 1 R2) (bandOf false [pair 1]) = .ok (some r') := e4
  rw [← hcongr] at e4'
  have hget : ∀ {D : Dict String ℝ} {y : ℝ}, (∀ e x, (e, x) ∈ D ↔ e = "e" ∧ x = y) →
      D.get? "e" = some y := by
    intro D y hD
    cases hg : D.get? "e" with
    | none =>
      rw [Dict.get?_eq_none] at hg
      exact absurd (List.mem_map.2 ⟨("e", y), (hD "e" y).2 ⟨rfl, rfl⟩, rfl⟩) hg
    | some x => rw [((hD "e" x).1 (Dict.mem_of_get? hg)).2]
  refine ⟨lib, _, _, AgainExample.G, fun _ => .ok 1, w, inv, [sA, sB], r, r', 1, 1, R, W, W0,
    InvertExample.rankWls_spec, rfl, c2.trans a1, a2, a3, a4, a6, d2.trans e4', e5, a8,
    e7.trans b8, ?_, ?_⟩
  · rw [hget a7]; norm_num
  · rw [b6] at e3
    obtain rfl := Option.some.inj e3
    rw [hget b7]; norm_num

end Qopen
