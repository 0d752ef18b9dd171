import Verif.Props.InvertSource
import Verif.Props.TimeAxis
import Verif.Props.LocalMin
import Verif.Spec.Window

/-!
# Single steps of the inversion of a band: C17, C21, C22, C27, C83
-/

set_option linter.unusedSimpArgs false

namespace Qopen

open Real InvertFb Tr

variable {G : Greens} {cfg : Cfg} {wls : List ℝ → List (List ℝ) → List ℝ → List ℝ × ℝ}

/-- A fit with a finite misfit lies inside of the bounds, and conversely. -/
theorem lstsq_misfit_bounds {bd : Band} {g0 : ℝ} {f : Fit} (hfix : cfg.fix = false)
    (h : lstsq wls G cfg bd g0 none false = .ok f) :
    f.g0 = g0 ∧ (f.err = ⊤ ↔ outside cfg f.b g0) := by
  unfold lstsq at h
  obtain ⟨rs, -, h⟩ := bind_ok.1 h
  obtain ⟨Rf, -, h⟩ := bind_ok.1 h
  obtain ⟨Ga, -, h⟩ := bind_ok.1 h
  simp only [bind, Except.bind, throw, throwThe, MonadExceptOf.throw, pure, Except.pure] at h
  split at h
  · simp at h
  · split at h
    · simp at h
    · generalize wls (weights cfg bd _) (design cfg bd) _ = sol at h
      unfold fitOf at h
      simp only [hfix, Bool.false_eq_true, if_false, Except.ok.injEq] at h
      rw [← h]
      refine ⟨rfl, ?_⟩
      simp only
      by_cases ho : outside cfg (sol.1.getLastD 0) g0
      · simp only [ho, if_true]
      · simp only [ho, if_false, iff_false]
        exact WithTop.coe_ne_top

/-- **C17**: during the optimisation the misfit is infinite exactly for values of g0, or fitted values
of b, outside of the bounds, so that a minimiser of the misfit respects the bounds if any value
does. -/
theorem C17_misfit_outside {bd : Band} {g0 : ℝ} {e : WithTop ℝ} (hfix : cfg.fix = false)
    (h : objective wls G cfg bd g0 = .ok e) :
    (∀ lo hi, cfg.g0Bounds = some (lo, hi) → g0 < lo ∨ hi < g0 → e = ⊤) ∧
    (e ≠ ⊤ → ∃ f, lstsq wls G cfg bd g0 none false = .ok f ∧ f.err = e ∧
      ∀ lo hi, cfg.bBounds = some (lo, hi) → lo < f.b ∧ f.b < hi) ∧
    (e = ⊤ → (∃ lo hi, cfg.g0Bounds = some (lo, hi) ∧ (g0 < lo ∨ hi < g0)) ∨
      ∃ f lo hi, lstsq wls G cfg bd g0 none false = .ok f ∧ cfg.bBounds = some (lo, hi) ∧
        ¬ (lo < f.b ∧ f.b < hi)) := by
  unfold objective at h
  split_ifs at h with hb
  · cases h
    obtain ⟨⟨lo, hi⟩, hgb, hn⟩ := hb
    refine ⟨fun _ _ _ _ => rfl, fun h => absurd rfl h, fun _ => Or.inl ⟨lo, hi, hgb, ?_⟩⟩
    by_contra hc
    push Not at hc
    exact hn ⟨hc.1, hc.2⟩
  · obtain ⟨f, hf, he⟩ := bind_ok.1 h
    simp only [pure, Except.pure, Except.ok.injEq] at he
    subst he
    obtain ⟨-, hm⟩ := lstsq_misfit_bounds hfix hf
    have hin : ∀ lo hi, cfg.g0Bounds = some (lo, hi) → lo ≤ g0 ∧ g0 ≤ hi := by
      intro lo hi hgb
      by_contra hc
      exact hb ⟨(lo, hi), hgb, hc⟩
    refine ⟨?_, ?_, ?_⟩
    · intro lo hi hgb hout
      have := hin lo hi hgb
      rcases hout with h | h <;> linarith
    · intro hne
      refine ⟨f, hf, rfl, ?_⟩
      intro lo hi hbb
      by_contra hc
      exact hne (hm.2 (Or.inl ⟨(lo, hi), hbb, hc⟩))
    · intro ht
      rcases hm.1 ht with ⟨⟨lo, hi⟩, hbb, hc⟩ | ⟨⟨lo, hi⟩, hgb, hc⟩
      · exact Or.inr ⟨f, lo, hi, hf, hbb, hc⟩
      · exact absurd (hin lo hi hgb) hc

/-- The objective is infinite for g0 above its bound. -/
example (bd : Band) (e : WithTop ℝ)
    (h : objective wls G { cfg with fix := false, g0Bounds := some (1e-8, 1e-4) } bd 1 = .ok e) :
    e = ⊤ :=
  (C17_misfit_outside rfl h).1 _ _ rfl (Or.inr (by norm_num))

example (bd : Band) :
    objective wls G { cfg with fix := false, g0Bounds := some (1e-8, 1e-4) } bd 1 = .ok ⊤ := by
  unfold objective
  rw [if_pos ⟨_, rfl, by norm_num⟩]

/-- **C27**: with fixed attenuation the fit is made with the given values of g0 and b. -/
theorem C27_fixed_values {minimize : (ℝ → Py (WithTop ℝ)) → Py ℝ} {bd : Band} {f : Fit}
    (hfix : cfg.fix = true) (h : bandFit wls G minimize cfg bd = .ok (some f)) :
    cfg.fixParams = (some f.g0, some f.b) ∧
      lstsq wls G cfg bd f.g0 (some f.b) cfg.fixSites = .ok f := by
  unfold bandFit at h
  rw [if_pos hfix] at h
  obtain ⟨p, q⟩ : ∃ p q, cfg.fixParams = (p, q) := ⟨_, _, rfl⟩
  split at h
  · rename_i g b hg hb
    obtain ⟨f', hf, h⟩ := bind_ok.1 h
    simp only [pure, Except.pure, Except.ok.injEq, Option.some.injEq] at h
    subst h
    have hval : f'.g0 = g ∧ f'.b = b := by
      have hf' := hf
      unfold lstsq at hf'
      obtain ⟨rs, -, hf'⟩ := bind_ok.1 hf'
      obtain ⟨Rf, -, hf'⟩ := bind_ok.1 hf'
      obtain ⟨Ga, -, hf'⟩ := bind_ok.1 hf'
      simp only [bind, Except.bind, throw, throwThe, MonadExceptOf.throw, pure, Except.pure] at hf'
      split at hf'
      · simp at hf'
      · split at hf'
        · simp at hf'
        · unfold fitOf at hf'
          simp only [hfix, if_true] at hf'
          split at hf'
          · simp at hf'
          · simp only [Except.ok.injEq] at hf'
            subst hf'
            exact ⟨rfl, rfl⟩
    rw [hval.1, hval.2]
    exact ⟨Prod.ext hg hb, hf⟩
  · simp at h

open InvertExample in
example (minimize : (ℝ → Py (WithTop ℝ)) → Py ℝ) :
    ∃ f, bandFit someWls G1 minimize cfg2 (Spec.bandOf cfg2.bulk ps1) = .ok (some f) ∧
      cfg2.fixParams = (some f.g0, some f.b) := by
  obtain ⟨⟨res, h⟩, -⟩ := source_example minimize
  unfold solveBand at h
  obtain ⟨of, hf, h⟩ := bind_ok.1 h
  cases of with
  | none => simp [pure, Except.pure] at h
  | some f => exact ⟨f, hf, (C27_fixed_values rfl hf).1⟩

namespace Spec

/-- `n` equally spaced times from `t1` to `t2`, both included. -/
def EquallySpaced (t1 t2 : ℝ) (n : ℕ) (l : List ℝ) : Prop :=
  l.length = n ∧ l.head? = some t1 ∧ l.getLast? = some t2 ∧
    ∃ d, ∀ (i : ℕ) x y, l[i]? = some x → l[i + 1]? = some y → y - x = d

end Spec

theorem linspace_spaced (t1 t2 : ℝ) (n : ℕ) (hn : 2 ≤ n) :
    Spec.EquallySpaced t1 t2 n (linspace t1 t2 n) := by
  obtain ⟨m, rfl⟩ : ∃ m, n = m + 2 := ⟨n - 2, by omega⟩
  have hm : ((m : ℝ) + 1) ≠ 0 := by positivity
  refine ⟨by simp [linspace], ?_, ?_, (t2 - t1) / ((m + 2 : ℕ) - 1), ?_⟩
  · simp [linspace, List.range_succ_eq_map]
  · unfold linspace
    rw [List.getLast?_map, List.range_succ, List.getLast?_append]
    simp only [List.getLast?_singleton, Option.some_or, Option.map_some, Option.some.injEq]
    push_cast
    rw [show (m : ℝ) + 2 - 1 = m + 1 by ring]
    field_simp
    ring
  · intro i x y hx hy
    simp only [linspace, List.getElem?_map, Option.map_eq_some_iff] at hx hy
    obtain ⟨a, ha, rfl⟩ := hx
    obtain ⟨b, hb, rfl⟩ := hy
    obtain ⟨-, rfl⟩ := List.getElem?_eq_some_iff.1 ha
    obtain ⟨-, rfl⟩ := List.getElem?_eq_some_iff.1 hb
    simp only [List.getElem_range]
    push_cast
    ring

/-- **C21**: the prediction for the bulk window is the mean of Green's function over equally spaced
times from the begin to the end of the window. -/
theorem C21_prediction {r : ℝ} {tw : ℝ × ℝ} {g0 m : ℝ} (hn : 2 ≤ cfg.numPoints)
    (h : gbulk G cfg r tw g0 = .ok m) :
    ∃ ts g, Spec.EquallySpaced tw.1 tw.2 cfg.numPoints ts ∧ G r ts cfg.v0 g0 = .ok g ∧
      m = g.sum / g.length := by
  unfold gbulk at h
  obtain ⟨g, hg, h⟩ := bind_ok.1 h
  simp only [pure, Except.pure, Except.ok.injEq] at h
  exact ⟨_, g, linspace_spaced _ _ _ hn, hg, h.symm⟩

example (hn : cfg.numPoints = 3) : ∃ ts g, Spec.EquallySpaced 2 4 3 ts ∧
    (fun _ ts _ _ => .ok (ts.map (fun t => 1 / t)) : Greens) 0 ts 3000 0 = .ok g ∧
    gbulk (fun _ ts _ _ => .ok (ts.map (fun t => 1 / t))) cfg 0 (2, 4) 0 = .ok (g.sum / g.length) := by
  obtain ⟨ts, g, h1, h2, h3⟩ := C21_prediction (cfg := cfg) (r := 0) (tw := (2, 4)) (g0 := 0)
    (G := fun _ ts _ _ => .ok (ts.map (fun t => 1 / t))) (by omega) rfl
  refine ⟨ts, g, by rw [hn] at h1; exact h1, h2, ?_⟩
  rw [← h3]; rfl

/-! ## C22 -/

namespace Spec

/-- Mean energies of the usable noise windows: windows which contain at least one sample. -/
def NoiseLevels (lib : Window.Lib) (tr : Trace) (nws : List Tw) (levels : List ℝ) : Prop :=
  ∃ ls : List (Option ℝ), List.Forall₂ (fun nw l => ∃ w, tw2utc lib.float nw tr = .ok w ∧
    match l with
    | none => ∀ sl, tr.slice w.1 w.2 = .ok sl → sl.data = []
    | some x => ∃ sl, tr.slice w.1 w.2 = .ok sl ∧ sl.data ≠ [] ∧
        x = sl.data.sum / sl.data.length) nws ls ∧ levels = ls.filterMap id

end Spec

theorem adjust_ok {lib : Window.Lib} {cfg : Window.WCfg} {tr tr' : Trace}
    (h : Window.adjust lib cfg tr = .ok tr') :
    tr'.data = tr.data ∧ tr'.noise = tr.noise ∧ tr'.pair = tr.pair ∧ tr'.start = tr.start ∧
      tr'.sr = tr.sr := by
  unfold Window.adjust at h
  split at h
  · cases h; exact ⟨rfl, rfl, rfl, rfl, rfl⟩
  · obtain ⟨mw, -, h⟩ := bind_ok.1 h
    obtain ⟨sl, -, h⟩ := bind_ok.1 h
    obtain ⟨i, -, h⟩ := bind_ok.1 h
    simp only [pure, Except.pure, Except.ok.injEq] at h
    subst h
    exact ⟨rfl, rfl, rfl, rfl, rfl⟩

theorem noise_levels {lib : Window.Lib} {tr : Trace} {nws : List Tw} {ls : List (Option ℝ)}
    (h : mapExc (Window.noiseLevel lib tr) nws = .ok ls) :
    Spec.NoiseLevels lib tr nws (ls.filterMap id) := by
  refine ⟨ls, ?_, rfl⟩
  rw [mapExc_ok] at h
  refine h.imp ?_
  intro nw l hl
  unfold Window.noiseLevel at hl
  obtain ⟨w, hw, hl⟩ := bind_ok.1 hl
  refine ⟨w, hw, ?_⟩
  cases hs : tr.slice w.1 w.2 with
  | error e =>
    rw [hs] at hl
    simp only [pure, Except.pure, Except.ok.injEq] at hl
    subst hl
    intro sl hsl
    simp at hsl
  | ok sl =>
    rw [hs] at hl
    simp only [pure, Except.pure, Except.ok.injEq] at hl
    by_cases h0 : sl.data.length = 0
    · rw [if_pos h0] at hl
      subst hl
      intro sl' hsl'
      cases hsl'
      exact List.length_eq_zero_iff.1 h0
    · rw [if_neg h0] at hl
      subst hl
      exact ⟨sl, rfl, fun e => h0 (by rw [e]; rfl), rfl⟩

/-- **C22**: the noise level is taken from the usable noise windows.  Without any usable window a
trace is rejected if noise has to be removed, otherwise kept without noise level; energies are only
changed if noise has to be removed. -/
theorem C22_noise_step {lib : Window.Lib} {cfg : Window.WCfg} {tr : Trace} {out : Option Trace}
    (h : Window.noiseStep lib cfg tr = .ok out) :
    ∃ levels, Spec.NoiseLevels lib tr cfg.noiseWindows levels ∧
      (out = none ↔ levels = [] ∧ cfg.removeNoise = true) ∧
      ∀ tr', out = some tr' → tr'.pair = tr.pair ∧ tr'.start = tr.start ∧ tr'.sr = tr.sr ∧
        (levels = [] → tr'.noise = tr.noise ∧ tr'.data = tr.data) ∧
        (levels ≠ [] → tr'.noise = some (cfg.noiseFunc levels) ∧
          tr'.data = if cfg.removeNoise = true then
            Window.removeNoise (cfg.noiseFunc levels) tr.data else tr.data) := by
  unfold Window.noiseStep at h
  obtain ⟨ls, hls, h⟩ := bind_ok.1 h
  refine ⟨ls.filterMap id, noise_levels hls, ?_⟩
  generalize ls.filterMap id = levels at h
  simp only at h
  by_cases h0 : levels.length = 0
  · rw [if_pos h0] at h
    have h0' := List.length_eq_zero_iff.1 h0
    by_cases hr : cfg.removeNoise = true
    · rw [if_pos hr] at h
      simp only [pure, Except.pure, Except.ok.injEq] at h
      subst h
      exact ⟨by simp [h0', hr], by simp⟩
    · rw [if_neg hr] at h
      obtain ⟨t, ht, h⟩ := bind_ok.1 h
      simp only [pure, Except.pure, Except.ok.injEq] at h
      subst h
      obtain ⟨a, b, c, d, e⟩ := adjust_ok ht
      refine ⟨by simp [hr], ?_⟩
      rintro tr' ⟨⟩
      exact ⟨c, d, e, fun _ => ⟨b, a⟩, fun hne => absurd h0' hne⟩
  · rw [if_neg h0] at h
    obtain ⟨t, ht, h⟩ := bind_ok.1 h
    simp only [pure, Except.pure, Except.ok.injEq] at h
    subst h
    have hne : levels ≠ [] := fun e => h0 (by rw [e]; rfl)
    obtain ⟨a, b, c, d, e⟩ := adjust_ok ht
    refine ⟨by simp [hne], ?_⟩
    rintro tr' ⟨⟩
    refine ⟨?_, ?_, ?_, fun hh => absurd hh hne, fun _ => ⟨?_, ?_⟩⟩
    · rw [c]; split <;> rfl
    · rw [d]; split <;> rfl
    · rw [e]; split <;> rfl
    · rw [b]; split <;> rfl
    · rw [a]
      by_cases hr : cfg.removeNoise = true
      · rw [if_pos hr, if_pos hr]
      · rw [if_neg hr, if_neg hr]

/-! ## C20 -/

theorem smoothTrace_meta {cfg : Window.WCfg} {tr tr' : Trace}
    (h : Window.smoothTrace cfg tr = .ok tr') : ∃ d, tr' = { tr with data := d } := by
  unfold Window.smoothTrace at h
  split at h
  · cases h; exact ⟨_, rfl⟩
  · split at h
    · cases h; exact ⟨_, rfl⟩
    · obtain ⟨d, -, h⟩ := bind_ok.1 h
      simp only [pure, Except.pure, Except.ok.injEq] at h
      exact ⟨d, h.symm⟩

/-- **C20**: time and energy of each sample used in the coda window of a pair.  The energy is a sample
of the (smoothed) energy of this pair, its time is the time after the S-onset, moved to the arrival of
the direct wave of the model, up to half a sampling interval or, at the begin of the data, the
tolerance of 0.5 seconds.  Missing for the full claim: exact agreement, see `C20_counterexample`. -/
theorem C20_windows_partial {lib : Window.Lib} {cfg : Window.WCfg} {v0 : ℝ} {trs : List Trace}
    {st : Window.WState} (hnd : (trs.map Trace.pair).Nodup) (hsr : ∀ tr ∈ trs, 0 < tr.sr)
    (h : Window.windows lib cfg v0 trs = .ok st) :
    st.energies.length = st.tcoda.length ∧ st.tcoda.length = st.Ecoda.length ∧
    ∀ (i : ℕ) pr ts es, st.energies[i]? = some pr → st.tcoda[i]? = some ts → st.Ecoda[i]? = some es →
      ∃ tr ∈ trs, tr.pair = pr ∧ ∃ tr' n, Window.smoothTrace cfg tr = .ok tr' ∧
        ts.length = es.length ∧ ∀ (k : ℕ) t e, ts[k]? = some t → es[k]? = some e →
          tr'.data[n + k]? = some e ∧
          |t - (tr.distance / v0 + (Spec.trueTime tr (n + k) - tr.sonset))|
            ≤ max (1 / 2 / tr.sr) 0.5 := by
  obtain ⟨sel, h1, h2, -, h4, h5, h6, -⟩ := C18_windows_belong_to_pairs hnd h
  rw [h4, h5, h6]
  refine ⟨by simp [Spec.bandOf], by simp [Spec.bandOf], ?_⟩
  intro i pr ts es hpr hts hes
  simp only [Spec.bandOf, List.getElem?_map, Option.map_eq_some_iff] at hpr hts hes
  obtain ⟨p, ⟨q, hq, rfl⟩, rfl⟩ := hpr
  obtain ⟨p, ⟨q1, hq1, rfl⟩, rfl⟩ := hts
  obtain ⟨p, ⟨q2, hq2, rfl⟩, rfl⟩ := hes
  rw [hq] at hq1 hq2
  cases hq1; cases hq2
  have hmem : q ∈ sel := List.mem_of_getElem? hq
  obtain ⟨a1, a2, a3, ⟨tr', w, esl, a4, -, -, a5, a6⟩, -⟩ := h2 q hmem
  have htr : q.1 ∈ trs := h1.subset (List.mem_map.2 ⟨q, hmem, rfl⟩)
  refine ⟨q.1, htr, by unfold Trace.pair Spec.PairData.pair; rw [a1, a2], ?_⟩
  obtain ⟨d, rfl⟩ := smoothTrace_meta a4
  obtain ⟨n, hn, -⟩ := C20_time_axis_partial (tr := { q.1 with data := d }) (v0 := v0) (hsr q.1 htr) a5
  refine ⟨_, n, a4, by simp, ?_⟩
  intro k t e ht he
  rw [a6] at ht he
  simp only [List.map_map, List.getElem?_map, List.getElem?_zipIdx, Option.map_eq_some_iff,
    Function.comp, zero_add] at ht he
  obtain ⟨_, ⟨x, hx, rfl⟩, rfl⟩ := ht
  obtain ⟨_, ⟨y, hy, rfl⟩, rfl⟩ := he
  rw [hx] at hy
  cases hy
  obtain ⟨b1, b2, b3⟩ := hn k x hx
  refine ⟨b1, ?_⟩
  rcases le_total q.1.start w.1 with hle | hle
  · exact le_trans (b2 hle) (le_max_left _ _)
  · obtain ⟨c1, c2⟩ := b3 hle
    refine le_trans ?_ (le_max_right _ _)
    rw [abs_le]
    change 0 ≤ q.1.distance / v0 + (Spec.trueTime q.1 (n + k) - q.1.sonset) -
      Spec.sampleTime q.1 v0 w.1 k at c1
    change q.1.distance / v0 + (Spec.trueTime q.1 (n + k) - q.1.sonset) -
      Spec.sampleTime q.1 v0 w.1 k < 0.5 at c2
    simp only
    constructor <;> linarith

open TimeAxisExample in
example : ∃ st, Window.windows exLib exCfg 1 [exTrace "A", shortTrace "B", exTrace "C"] = .ok st ∧
    st.tcoda.length = 2 := by
  obtain ⟨st, h, he⟩ := ex_windows
  refine ⟨st, h, ?_⟩
  rw [← (C20_windows_partial (by decide) (by
    intro tr htr
    simp only [List.mem_cons, List.not_mem_nil, or_false] at htr
    rcases htr with rfl | rfl | rfl <;> norm_num [exTrace, shortTrace]) h).1, he]
  rfl

/-- **C20**: the velocity of the model is the configured one, otherwise the mean over all pairs with
energies of distance over travel time of the S-onset. -/
theorem C20_velocity {cfg : Window.WCfg} {trs : List Trace} {v0 : ℝ}
    (h : Window.velocity cfg trs = some v0) :
    (∀ v, cfg.v0 = some v → v0 = v) ∧
    (cfg.v0 = none → trs ≠ [] ∧ v0 * trs.length =
      (trs.map (fun tr => tr.distance / (tr.sonset - tr.origin))).sum) := by
  unfold Window.velocity at h
  split at h
  · rename_i v hv
    simp only [Option.some.injEq] at h
    subst h
    exact ⟨fun w hw => by rw [hv] at hw; exact Option.some.inj hw, fun hn => by rw [hv] at hn; simp at hn⟩
  · rename_i hv
    refine ⟨fun w hw => by rw [hv] at hw; simp at hw, fun _ => ?_⟩
    split_ifs at h with h0
    refine ⟨h0, ?_⟩
    simp only [Option.some.injEq] at h
    rw [← h]
    have : (trs.length : ℝ) ≠ 0 := by
      intro hh
      exact h0 (List.length_eq_zero_iff.1 (by exact_mod_cast hh))
    unfold InvertFb.mean
    rw [List.length_map]
    field_simp

open TimeAxisExample in
example : Window.velocity { exCfg with v0 := none } [exTrace "A", exTrace "B"] = some 1 := by
  unfold Window.velocity
  simp only
  rw [if_neg (by simp)]
  norm_num [exTrace, InvertFb.mean]

/-! ## C33 -/

/-- **C33**: the coda window ends at the minimum if there is one and starts as configured, unless the
minimum lies in front of this start. -/
theorem C33_cut_window {lib : Window.Lib} {cfg : Window.WCfg} {tr : Trace} {w : ℝ × ℝ}
    {c : Window.CutCoda} (hc : cfg.cutCoda = some c) (h : Spec.CodaWindow lib cfg tr w) :
    ∃ w0 esl, tw2utc lib.float cfg.codaWindow tr = .ok w0 ∧
      getSlice tr (Window.seamWindow c w0) = some esl ∧
      (localMinimum esl c.smooth c.ratio (c.window.getD cfg.smoothWindow) = none → w = w0) ∧
      ∀ t, localMinimum esl c.smooth c.ratio (c.window.getD cfg.smoothWindow) = some t →
        w.2 = t ∧ w.1 ≤ t ∧ w.1 ≤ w0.1 ∧ (w0.1 ≤ t → w.1 = w0.1) := by
  obtain ⟨w0, h1, -, h2⟩ := h
  rw [hc] at h2
  obtain ⟨-, esl, h3, h4⟩ := h2
  refine ⟨w0, esl, h1, h3, ?_, ?_⟩
  · intro hn
    rw [h4, hn]; rfl
  · intro t ht
    rw [h4, ht]
    exact ⟨rfl, min_le_right _ _, min_le_left _ _, fun h => min_eq_left h⟩

open TimeAxisExample in
/-- The coda window from 1 s to 4 s is cut at 2 s. -/
example : Spec.CodaWindow
    { exLib with float := fun s => if s = "+1".toList then some 1 else if s = "+6".toList then some 6 else none }
    { exCfg with codaWindow := (.one "OT+1s".toList, .one "OT+6s".toList), cutCoda := some {} }
    { exTrace "A" with data := [0, 3, 1, 2, 1, 9, 1] } (1, 2) := by
  refine ⟨(1, 6), ?_, by norm_num [exCfg], by norm_num [exCfg],
    { exTrace "A" with start := 1, data := [3, 1, 2, 1, 9, 1] }, ?_, ?_⟩
  · have key : ∀ (s num : PyStr) (x : ℝ) (st : Option ℝ),
        lower s = "ot".toList ++ num ++ "s".toList →
        (if num = "+1".toList then some (1 : ℝ) else if num = "+6".toList then some 6 else none)
          = some x →
        time2utc (fun s => if s = "+1".toList then some (1 : ℝ) else
          if s = "+6".toList then some 6 else none) s
          { exTrace "A" with data := [0, 3, 1, 2, 1, 9, 1] } st = .ok x := by
      intro s num x st hs hx
      have hne : ¬ ∃ p, lower s = p ++ "snr".toList := by
        rintro ⟨p, hp⟩
        have h1 : lower s = (p ++ ['s', 'n']) ++ ['r'] := by rw [hp]; simp
        exact absurd (getLast_eq h1 hs) (by decide)
      exact ((C31_time_strings (by simp) _ s st hne).1 x).2
        ⟨num, x, hx, Or.inl ⟨hs, by simp [exTrace]⟩⟩
    unfold tw2utc twStart twEnd
    simp only
    rw [key "OT+1s".toList "+1".toList 1 _ (by decide) (by simp)]
    simp only [bind, Except.bind]
    rw [key "OT+6s".toList "+6".toList 6 _ (by decide) (by simp)]
    rfl
  · have := slice_int (tr := { exTrace "A" with data := [0, 3, 1, 2, 1, 9, 1] }) rfl rfl (a := 1)
      (b := 6) (by norm_num) (by simp)
    push_cast at this
    unfold Window.seamWindow
    simp only
    rw [this]
    simp
  · rw [show ({} : Window.CutCoda).ratio = 5 from rfl, show ({} : Window.CutCoda).smooth = none from rfl,
      localMinimum_example _ _ rfl rfl]
    norm_num [Window.cutWindow]

/-! ## C83 -/

/-- **C83**: a pair takes part in a band only if the centre of the band lies below the Nyquist
frequency; its data are filtered between the corner frequencies of the band, or above the lower one if
the upper corner frequency reaches the Nyquist frequency (99 percent); energies are related to the
width of the same filter. -/
theorem C83_filter {lib : Window.Lib} {cfg : Window.WCfg} {s : Energy.Stream} {tr : Trace}
    (h : Window.energyOf lib cfg s = .ok (some tr)) :
    (cfg.freqBand.1 + cfg.freqBand.2) / 2 ≤ s.sr / 2 ∧
    ∃ spec, (cfg.freqBand.2 ≤ 0.99 * (s.sr / 2) → spec = .bandpass cfg.freqBand.1 cfg.freqBand.2) ∧
      (0.99 * (s.sr / 2) < cfg.freqBand.2 → spec = .highpass cfg.freqBand.1) ∧
      Energy.observedEnergy lib.hilbert { s with channels := s.channels.map (lib.filt spec s.sr) }
        cfg.rho0 (lib.width s.sr spec) cfg.codaNorm (Window.freeSurfaceOf cfg s) = .ok tr := by
  unfold Window.energyOf at h
  by_cases h1 : cfg.freqBand.1 + cfg.freqBand.2 > s.sr
  · rw [if_pos h1] at h; simp at h
  · rw [if_neg h1] at h
    refine ⟨by linarith, Window.filterSpec cfg s.sr, ?_, ?_, ?_⟩
    · intro hb
      unfold Window.filterSpec
      rw [if_neg (by linarith)]
    · intro hb
      unfold Window.filterSpec
      rw [if_pos (by linarith)]
    · split at h
      · simp at h
      · simp only at h
        split at h
        · rename_i tr' heq
          simp only [Except.ok.injEq, Option.some.injEq] at h
          rw [heq, h]
        · simp at h
        · simp at h

/-- **C83**: no pair with the centre of the band above the Nyquist frequency. -/
theorem C83_above_nyquist (lib : Window.Lib) (cfg : Window.WCfg) (s : Energy.Stream)
    (h : s.sr / 2 < (cfg.freqBand.1 + cfg.freqBand.2) / 2) :
    Window.energyOf lib cfg s = .ok none := by
  unfold Window.energyOf
  rw [if_pos (by linarith)]

/-! ## Cases which meet the hypotheses -/

namespace BandStepsExample

noncomputable def lib : Window.Lib :=
  { float := fun s => if s = "+1".toList then some 1 else if s = "+3".toList then some 3 else none
    hilbert := fun l => l.map (fun _ => 0), filt := fun _ _ d => d, width := fun _ _ => 2 }

noncomputable def wcfg (remove : Bool) : Window.WCfg :=
  { freqBand := (0.1, 0.3), rho0 := 2, noiseFunc := fun l => l.headD 0, removeNoise := remove
    codaWindow := (.one "OT+1s".toList, .one "OT+3s".toList) }

noncomputable def stream : Energy.Stream :=
  { event := "e", station := "A", start := 0, sr := 1, channels := [[1, 2, 3]]
    origin := 0, ponset := 1, sonset := 1, distance := 1 }

noncomputable def trace : Trace :=
  { event := "e", station := "A", start := 0, sr := 1, data := [1, 2, 3]
    origin := 0, ponset := 1, sonset := 1, distance := 1 }

example : ∃ tr, Window.energyOf lib (wcfg true) stream = .ok (some tr) := by
  refine ⟨{ trace with data := [1 / 8, 1 / 2, 9 / 8] }, ?_⟩
  unfold Window.energyOf
  rw [if_neg (by norm_num [wcfg, stream]), if_neg (by simp [wcfg])]
  simp [Energy.observedEnergy, stream, lib, wcfg, Energy.energy1c, Energy.maxLen, Energy.minLen,
    Energy.sumAxis0, List.range_succ, Window.freeSurfaceOf, trace]
  norm_num

/-- Without noise windows a trace is rejected if noise has to be removed, otherwise it is kept. -/
example : Window.noiseStep lib (wcfg true) trace = .ok none ∧
    Window.noiseStep lib (wcfg false) trace = .ok (some trace) := ⟨rfl, rfl⟩

example : Window.energyOf lib { wcfg true with freqBand := (0.4, 0.8) } stream = .ok none :=
  C83_above_nyquist _ _ _ (by norm_num [stream])

end BandStepsExample

end Qopen
