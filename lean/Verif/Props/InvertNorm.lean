import Verif.Props.Invert

/-!
# Inversion with coda normalisation: C35

With coda normalisation site responses and source energies cancel.  The fit then has one common
level `A` for all samples and the attenuation `b`: it predicts `A G exp(-b t)`.
-/

namespace Qopen

open Real Util Spec InvertFb

variable {G : Greens} {cfg : Cfg} {ps : List PairData} {gs : List (List ℝ × ℝ)} {res : BandResult}
  {wls : List ℝ → List (List ℝ) → List ℝ → List ℝ × ℝ}
  {rank : List ℝ → List (List ℝ) → ℕ} {minimize : (ℝ → Py (WithTop ℝ)) → Py ℝ}

namespace Spec

/-- Weighted sum of squares of the logarithmic misfit between observed energies and
`A G exp(-b t)`. -/
noncomputable def levelMisfit (S : List Sample) (A b : ℝ) : ℝ :=
  (S.map (fun s => s.w * (log s.E - log (A * s.G * exp (-b * s.t))) ^ 2)).sum

/-- Two samples, of the same or of different windows, are at different times. -/
def SomeTwoTimes (ps : List PairData) : Prop :=
  ∃ p ∈ ps, ∃ q ∈ ps, ∃ x ∈ p.coda, ∃ y ∈ q.coda, x.1 ≠ y.1

end Spec

namespace InvertFb

theorem log_level {s : Sample} (hG : 0 < s.G) {A b : ℝ} (hA : 0 < A) :
    log (A * s.G * exp (-b * s.t)) = log A + log s.G - b * s.t := by
  rw [log_mul (by positivity) (exp_pos _).ne', log_mul hA.ne' hG.ne', log_exp]
  ring

theorem norm_row {bd : Band} (hc : cfg.codaNorm = true) (hfx : cfg.fix = false)
    (hfs : cfg.fixSites = false) (s : Sample) : rowOf cfg bd s = [1, -s.t] := by
  unfold rowOf baseRow
  simp [hc, hfx, hfs]

/-- The two entries of the solution are the logarithm of the level and the attenuation. -/
theorem norm_sum {bd : Band} {S : List Sample} (hc : cfg.codaNorm = true) (hfx : cfg.fix = false)
    (hfs : cfg.fixSites = false) (hG : ∀ s ∈ S, 0 < s.G) {A : ℝ} (hA : 0 < A) (b : ℝ) :
    (S.map (fun s => s.w * (target none none s - dot (rowOf cfg bd s) [log A, b]) ^ 2)).sum =
      levelMisfit S A b := by
  unfold levelMisfit
  apply sum_map_congr
  intro s hs
  rw [norm_row hc hfx hfs, log_level (hG s hs) hA]
  simp only [target, Option.getD_none, dot, List.zipWith_cons_cons, List.zipWith_nil_right,
    List.sum_cons, List.sum_nil]
  ring

open Classical in
/-- A fit with coda normalisation. -/
theorem norm_fit (hwls : IsWls rank wls) (hc : cfg.codaNorm = true) (hfx : cfg.fix = false)
    (hfs : cfg.fixSites = false) (hps : ps ≠ []) (hgw : GoodWeights ps) (hl : LenOk ps gs)
    (hne : ∀ p ∈ ps, p.coda ≠ [])
    (hpos : ∀ s ∈ samplesOf cfg.bulk ps gs, 0 < s.E ∧ 0 < s.G) {g0 : ℝ} {Rfix : List ℝ} :
    ∃ A b err, 0 < A ∧
    fitOf cfg (bandOf cfg.bulk ps) g0 none false Rfix
        (wls ((samplesOf cfg.bulk ps gs).map Sample.w)
          ((samplesOf cfg.bulk ps gs).map (rowOf cfg (bandOf cfg.bulk ps)))
          ((samplesOf cfg.bulk ps gs).map (target none none))) =
      .ok ⟨err, g0, b, [], List.replicate (stations (bandOf cfg.bulk ps)).length 1⟩ ∧
    (∀ A' b', 0 < A' → levelMisfit (samplesOf cfg.bulk ps gs) A b ≤
      levelMisfit (samplesOf cfg.bulk ps gs) A' b') ∧
    err = if outside cfg b g0 then ⊤ else
      ((sqrt (levelMisfit (samplesOf cfg.bulk ps gs) A b /
        ((samplesOf cfg.bulk ps gs).length - rank ((samplesOf cfg.bulk ps gs).map Sample.w)
          ((samplesOf cfg.bulk ps gs).map (rowOf cfg (bandOf cfg.bulk ps))))) : ℝ) : WithTop ℝ) := by
  set S := samplesOf cfg.bulk ps gs with hS
  set bd := bandOf cfg.bulk ps with hbd
  obtain ⟨c1, c2, c3⟩ := wls_apply hwls (samples_ne (bulk := cfg.bulk) hl hps hne)
    (fun s hs => weight_nonneg hl hgw hs) (n := 2)
    (row := rowOf cfg bd) (fun s _ => by rw [norm_row hc hfx hfs]; rfl)
    (target none none)
  rw [← hS] at c1 c2 c3
  generalize hsol : wls (S.map Sample.w) (S.map (rowOf cfg bd))
    (S.map (target none none)) = sol at c1 c2 c3
  obtain ⟨C, mse⟩ := sol
  simp only at c1 c2 c3
  obtain ⟨a, b, rfl⟩ := List.length_eq_two.1 c1
  have hlog : ∀ a b, (S.map (fun s => s.w * (target none none s -
      dot (rowOf cfg bd s) [a, b]) ^ 2)).sum = levelMisfit S (exp a) b := by
    intro a b
    rw [← norm_sum (bd := bd) hc hfx hfs (fun s hs => (hpos s hs).2) (exp_pos a), log_exp]
  rw [hlog] at c3
  refine ⟨exp a, b, if outside cfg b g0 then ⊤ else ((sqrt mse : ℝ) : WithTop ℝ), exp_pos a,
    ?_, ?_, by rw [c3]⟩
  · unfold fitOf decode
    simp only [hfx, hc, if_true, Bool.false_eq_true, if_false, List.getLastD_cons, List.getLastD_nil]
  · intro A' b' hA'
    have := c2 [log A', b'] rfl
    rwa [hlog, hlog, exp_log hA'] at this

/-- The common level and the attenuation are unique if there are two times. -/
theorem norm_unique (hgw : GoodWeights ps) (hl : LenOk ps gs)
    (hpos : ∀ s ∈ samplesOf cfg.bulk ps gs, 0 < s.E ∧ 0 < s.G) (htw : SomeTwoTimes ps)
    {A b A' b' : ℝ} (hA : 0 < A) (hA' : 0 < A')
    (hexact : ∀ s ∈ samplesOf cfg.bulk ps gs, s.E = A * s.G * exp (-b * s.t))
    (hle : levelMisfit (samplesOf cfg.bulk ps gs) A' b' ≤ levelMisfit (samplesOf cfg.bulk ps gs) A b) :
    b' = b ∧ A' = A ∧ levelMisfit (samplesOf cfg.bulk ps gs) A' b' = 0 := by
  set S := samplesOf cfg.bulk ps gs with hS
  have hz : levelMisfit S A b = 0 := by
    unfold levelMisfit
    rw [sum_map_congr (g := fun _ => (0:ℝ)) (by intro s hs; rw [hexact s hs]; ring)]
    simp
  have hnn : ∀ s ∈ S, 0 ≤ s.w * (log s.E - log (A' * s.G * exp (-b' * s.t))) ^ 2 :=
    fun s hs => mul_nonneg (weight_nonneg hl hgw hs) (sq_nonneg _)
  have h0 : levelMisfit S A' b' = 0 := le_antisymm (hz ▸ hle) (sum_map_nonneg hnn)
  have hall : ∀ s ∈ S, s.w = 1 → log A - b * s.t = log A' - b' * s.t := by
    intro s hs hw
    have hle' := List.single_le_sum (l := S.map (fun s => s.w *
      (log s.E - log (A' * s.G * exp (-b' * s.t))) ^ 2)) (by
        intro x hx
        obtain ⟨s, hs, rfl⟩ := List.mem_map.1 hx
        exact hnn s hs) _ (List.mem_map.2 ⟨s, hs, rfl⟩)
    have h2 : s.w * (log s.E - log (A' * s.G * exp (-b' * s.t))) ^ 2 = 0 :=
      le_antisymm (hle'.trans h0.le) (hnn s hs)
    rw [hw, one_mul, sq_eq_zero_iff, hexact s hs, log_level (hpos s hs).2 hA,
      log_level (hpos s hs).2 hA'] at h2
    linarith
  obtain ⟨p, hp, q, hq, x, hx, y, hy, hxy⟩ := htw
  obtain ⟨s, hs, -, -, s1, -, s2⟩ := coda_mem (bulk := cfg.bulk) hl hp hx
  obtain ⟨r, hr, -, -, r1, -, r2⟩ := coda_mem (bulk := cfg.bulk) hl hq hy
  have e1 := hall s hs s2
  have e2 := hall r hr r2
  rw [s1] at e1
  rw [r1] at e2
  have hb : b' = b := by
    have : (b' - b) * (x.1 - y.1) = 0 := by linarith
    rcases mul_eq_zero.1 this with h | h
    · linarith
    · exact absurd (by linarith) hxy
  refine ⟨hb, ?_, h0⟩
  subst hb
  exact (log_injOn_pos hA' hA (by linarith))

end InvertFb

open Classical in
/-- **C35**: with coda normalisation the reported attenuation is the best fit of one common level
and one attenuation to the normalised energies: no other level `A'` and attenuation `b'` have a
smaller weighted logarithmic misfit between observed energies and `A' G exp(-b' t)`, where `G` is
Green's function for the reported scattering coefficient.  The reported error belongs to this
misfit.  Neither site responses nor source energies are reported. -/
theorem C35_best_fit (hwls : IsWls rank wls) (hG : OneValuePerTime G)
    (hin : GoodInput cfg ps) (hc : cfg.codaNorm = true) (hfs : cfg.fixSites = false)
    (h : solveBand wls G minimize cfg (bandOf cfg.bulk ps) = .ok (some res)) :
    ∃ (g0 b A : ℝ) (gs : List (List ℝ × ℝ)) (rk : ℕ),
      cfg.fix = false ∧ res.g0 = some g0 ∧ res.b = some b ∧ res.W = none ∧ res.R = none ∧
      IsGreens G cfg g0 ps gs ∧ 0 < A ∧
      (∀ A' b', 0 < A' → levelMisfit (samplesOf cfg.bulk ps gs) A b ≤
        levelMisfit (samplesOf cfg.bulk ps gs) A' b') ∧
      res.error = if outside cfg b g0 then ⊤ else
        ((sqrt (levelMisfit (samplesOf cfg.bulk ps gs) A b /
          ((samplesOf cfg.bulk ps gs).length - rk)) : ℝ) : WithTop ℝ) := by
  obtain ⟨f, g0, bFix, hf, hr, hb⟩ := solveBand_ok h
  rw [hfs, Bool.and_false] at hf
  obtain ⟨gs, Rfix, h1, h2, h3, h4, -, -, h5⟩ := lstsq_ok hin.pairs hG (by simp) hf
  obtain ⟨-, r1, r2, r3, r4, r5, r6, -⟩ := report_some hr
  simp only [Bool.false_eq_true, if_false] at h5
  cases hfx : cfg.fix with
  | true =>
    unfold fitOf at h5
    simp [hfx, hc] at h5
  | false =>
    rw [hfx] at hb
    simp only [Bool.false_eq_true, if_false] at hb
    subst hb
    obtain ⟨A, b, err, k1, k2, k3, k4⟩ := norm_fit (g0 := g0) (Rfix := Rfix) hwls hc hfx hfs
      hin.some_pair hin.weights h2 h3 h4
    rw [k2, Except.ok.injEq] at h5
    subst h5
    exact ⟨g0, b, A, gs, _, rfl, by rw [r1, hfx]; rfl, by rw [r2, hfx]; rfl, by rw [r3, hc]; rfl,
      by rw [r4, hc, hfs]; rfl, h1, k1, k3, by rw [r6, k4]⟩

/-- **C35**: exact recovery with coda normalisation.  If the normalised energies are exactly
`A G exp(-b t)` with the same level `A` for all stations and events, and there are samples at two
different times, then the inversion at the right scattering coefficient reports exactly the
attenuation `b`, with zero error. -/
theorem C35_exact_recovery (hwls : IsWls rank wls) (hin : GoodInput cfg ps)
    (hc : cfg.codaNorm = true) (hfs : cfg.fixSites = false) (hfx : cfg.fix = false) {g0 b A : ℝ}
    {gs : List (List ℝ × ℝ)} (hgr : IsGreens G cfg g0 ps gs) (hne : ∀ p ∈ ps, p.coda ≠ [])
    (hGpos : ∀ s ∈ samplesOf cfg.bulk ps gs, 0 < s.G) (hA : 0 < A)
    (hexact : ∀ s ∈ samplesOf cfg.bulk ps gs, s.E = A * s.G * exp (-b * s.t))
    (htw : SomeTwoTimes ps)
    (hev : EvaluatedAt wls G minimize cfg (bandOf cfg.bulk ps) g0 b)
    (hbd : InsideBounds cfg g0 b) :
    ∃ res, solveBand wls G minimize cfg (bandOf cfg.bulk ps) = .ok (some res) ∧
      res.g0 = some g0 ∧ res.b = some b ∧ res.error = 0 ∧ res.R = none ∧ res.W = none := by
  have hl := isGreens_len hgr
  have hpos : ∀ s ∈ samplesOf cfg.bulk ps gs, 0 < s.E ∧ 0 < s.G := by
    intro s hs
    refine ⟨?_, hGpos s hs⟩
    rw [hexact s hs]
    have := hGpos s hs
    positivity
  obtain ⟨A', b', err, k1, k2, k3, k4⟩ := norm_fit (g0 := g0) (Rfix := []) hwls hc hfx hfs
    hin.some_pair hin.weights hl hne hpos
  obtain ⟨u1, u2, u3⟩ := norm_unique hin.weights hl hpos htw hA k1 hexact (k3 A b hA)
  rw [u1, u2] at k4
  rw [u1, u2] at u3
  subst u1
  have hout : ¬ outside cfg b' g0 := by
    rintro (⟨⟨lo, hi⟩, h1, h2⟩ | ⟨⟨lo, hi⟩, h1, h2⟩)
    · obtain ⟨h3, h4, h5⟩ := hbd.1 lo hi h1
      have hb0 : 0 < b' := by linarith
      exact h2 ⟨by simp only; linarith, by simp only; linarith⟩
    · obtain ⟨h3, h4, h5⟩ := hbd.2 lo hi h1
      have hb0 : 0 < g0 := by linarith
      exact h2 ⟨by simp only; linarith, by simp only; linarith⟩
  have herr : err = 0 := by
    rw [k4, if_neg hout, u3, zero_div, sqrt_zero]
    rfl
  subst herr
  have hls : lstsq wls G cfg (bandOf cfg.bulk ps) g0 none false =
      .ok ⟨0, g0, b', [], List.replicate (stations (bandOf cfg.bulk ps)).length 1⟩ := by
    rw [lstsq_eq hin.pairs hne hgr hpos (siteRefs_free hfs _) (siteRefsShort_free hfs _) (by simp)]
    simpa using k2
  have hfit : bandFit wls G minimize cfg (bandOf cfg.bulk ps) = .ok (some
      ⟨0, g0, b', [], List.replicate (stations (bandOf cfg.bulk ps)).length 1⟩) := by
    unfold bandFit
    unfold EvaluatedAt at hev
    rw [hfx] at hev ⊢
    simp only [Bool.false_eq_true, if_false] at hev ⊢
    by_cases ho : cfg.optimize = true
    · rw [if_pos ho] at hev ⊢
      rw [hev]
      simp only [bind, Except.bind, hls]
      rfl
    · rw [if_neg ho] at hev ⊢
      obtain ⟨lo, hi, h1, h2⟩ := hev
      rw [h1]
      simp only [h2, hls]
      rfl
  have hnear : ¬ nearBounds cfg b' g0 := by
    rintro (⟨⟨lo, hi⟩, h1, h2⟩ | ⟨⟨lo, hi⟩, h1, h2⟩)
    · exact h2 (hbd.1 lo hi h1).2
    · exact h2 (hbd.2 lo hi h1).2
  have hsb : solveBand wls G minimize cfg (bandOf cfg.bulk ps) = .ok (report cfg (bandOf cfg.bulk ps)
      ⟨0, g0, b', [], List.replicate (stations (bandOf cfg.bulk ps)).length 1⟩) := by
    unfold solveBand
    rw [hfit]
    rfl
  unfold report at hsb
  simp only [hnear, if_false, hc, hfs, hfx, Bool.not_false, Bool.not_true, Bool.and_false,
    if_true, Bool.false_eq_true] at hsb
  exact ⟨_, hsb, rfl, rfl, rfl, rfl, rfl⟩

/-- **C35**: fixed attenuation and coda normalisation exclude each other: such an inversion never
returns a result. -/
theorem C35_not_with_fixed_attenuation {bd : Band} (hc : cfg.codaNorm = true)
    (hfx : cfg.fix = true) :
    ¬ ∃ res, solveBand wls G minimize cfg bd = .ok (some res) := by
  rintro ⟨res, h⟩
  obtain ⟨f, g0, bFix, hf, -, -⟩ := solveBand_ok h
  obtain ⟨rs, -, hf⟩ := bind_ok.1 hf
  obtain ⟨Rf, -, hf⟩ := bind_ok.1 hf
  obtain ⟨Ga, -, hf⟩ := bind_ok.1 hf
  simp only [bind, Except.bind, throw, throwThe, MonadExceptOf.throw, pure, Except.pure] at hf
  split at hf
  · simp at hf
  · split at hf
    · simp at hf
    · unfold fitOf at hf
      simp [hfx, hc] at hf

/-! ## A case which meets the hypotheses: two stations, one sample each -/

namespace InvertNormExample

open InvertExample (G1)

noncomputable def pair2 (s : String) (t : ℝ) : PairData :=
  { event := "e1", station := s, distance := 1, coda := [(t, 3 * exp (-t))] }

noncomputable def ps2 : List PairData := [pair2 "A" 1, pair2 "B" 2]

noncomputable def cfg2 : Cfg :=
  { g0Bounds := some (1 / 2, 3 / 2), bBounds := some (1 / 10, 10), v0 := 3, optimize := false
    codaNorm := true }

theorem good2 : GoodInput cfg2 ps2 where
  pairs := by simp [ps2, pair2, PairData.pair]
  some_pair := by simp [ps2]
  weights := by
    intro p hp
    simp only [ps2, List.mem_cons, List.not_mem_nil, or_false] at hp
    rcases hp with rfl | rfl <;> simp [pair2]
  R0 := by norm_num [cfg2]

theorem greens2 : IsGreens G1 cfg2 1 ps2 [([1], 0), ([1], 0)] := by
  simp [IsGreens, ps2, pair2, gsmooth, smoothFunc, cfg2, G1]

theorem two2 : SomeTwoTimes ps2 :=
  ⟨pair2 "A" 1, by simp [ps2], pair2 "B" 2, by simp [ps2], (1, _), by simp [pair2]; rfl,
    (2, _), by simp [pair2]; rfl, by norm_num⟩

theorem result2_of (hwls : IsWls rank wls) (minimize : (ℝ → Py (WithTop ℝ)) → Py ℝ) :
    ∃ res, solveBand wls G1 minimize cfg2 (bandOf cfg2.bulk ps2) = .ok (some res) ∧
      res.g0 = some 1 ∧ res.b = some 1 ∧ res.error = 0 ∧ res.R = none ∧ res.W = none := by
  refine C35_exact_recovery (A := 3) hwls good2 rfl rfl rfl greens2 ?_ ?_ (by norm_num) ?_ ?_ ?_ ?_
  · intro p hp
    simp only [ps2, List.mem_cons, List.not_mem_nil, or_false] at hp
    rcases hp with rfl | rfl <;> simp [pair2]
  · intro s hs
    simp only [samplesOf, ps2, pair2, cfg2] at hs
    simp at hs
    rcases hs with rfl | rfl <;> norm_num
  · intro s hs
    simp only [samplesOf, ps2, pair2, cfg2] at hs
    simp at hs
    rcases hs with rfl | rfl <;> simp
  · exact two2
  · unfold EvaluatedAt
    simp only [cfg2, Bool.false_eq_true, if_false]
    exact ⟨_, _, rfl, by norm_num⟩
  · constructor
    · intro lo hi h
      simp only [cfg2, Option.some.injEq, Prod.mk.injEq] at h
      rw [← h.1, ← h.2]; norm_num
    · intro lo hi h
      simp only [cfg2, Option.some.injEq, Prod.mk.injEq] at h
      rw [← h.1, ← h.2]; norm_num

theorem result2 (minimize : (ℝ → Py (WithTop ℝ)) → Py ℝ) :
    ∃ res, solveBand someWls G1 minimize cfg2 (bandOf cfg2.bulk ps2) = .ok (some res) ∧
      res.g0 = some 1 ∧ res.b = some 1 ∧ res.error = 0 ∧ res.R = none ∧ res.W = none :=
  result2_of someWls_spec minimize

/-- The hypotheses of `C35_best_fit` are met. -/
example (minimize : (ℝ → Py (WithTop ℝ)) → Py ℝ) : ∃ res,
    solveBand someWls G1 minimize cfg2 (bandOf cfg2.bulk ps2) = .ok (some res) ∧
    ∃ g0 b, res.g0 = some g0 ∧ res.b = some b ∧ res.W = none := by
  obtain ⟨res, h, -⟩ := result2 minimize
  obtain ⟨g0, b, A, gs, rk, h1, h2, h3, h4, -⟩ :=
    C35_best_fit someWls_spec InvertExample.one_value_G1 good2 rfl rfl h
  exact ⟨res, h, g0, b, h2, h3, h4⟩

/-- A configuration with coda normalisation and fixed attenuation. -/
example (minimize : (ℝ → Py (WithTop ℝ)) → Py ℝ) : ¬ ∃ res,
    solveBand someWls G1 minimize { cfg2 with fix := true, fixParams := (some 1, some 1) }
      (bandOf cfg2.bulk ps2) = .ok (some res) :=
  C35_not_with_fixed_attenuation rfl rfl

end InvertNormExample

end Qopen
