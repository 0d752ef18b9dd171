import Verif.Props.InvertOrderSource

/-!
# Order of the pairs with coda normalisation: C113
-/

namespace Qopen

open Real Util Spec InvertFb

variable {G : Greens} {cfg : Cfg} {ps ps' : List PairData} {gs gs' : List (List ℝ × ℝ)}
  {wls : List ℝ → List (List ℝ) → List ℝ → List ℝ × ℝ} {k : ℝ}
  {rank : List ℝ → List (List ℝ) → ℕ} {minimize : (ℝ → Py (WithTop ℝ)) → Py ℝ}

namespace InvertFb

/-- The best common level and attenuation are unique if there are samples at two times. -/
theorem level_unique (hgw : GoodWeights ps) (hl : LenOk ps gs)
    (hpos : ∀ s ∈ samplesOf cfg.bulk ps gs, 0 < s.E ∧ 0 < s.G) (htw : SomeTwoTimes ps)
    {A b A' b' : ℝ} (hA : 0 < A) (hA' : 0 < A')
    (hmin : ∀ A'' b'', 0 < A'' → levelMisfit (samplesOf cfg.bulk ps gs) A b ≤
      levelMisfit (samplesOf cfg.bulk ps gs) A'' b'')
    (hle : levelMisfit (samplesOf cfg.bulk ps gs) A' b' ≤ levelMisfit (samplesOf cfg.bulk ps gs) A b) :
    b' = b ∧ A' = A := by
  set S := samplesOf cfg.bulk ps gs with hS
  set d : Sample → ℝ := fun s => (log A - b * s.t) - (log A' - b' * s.t) with hd
  have hm := hmin (exp ((log A + log A') / 2)) ((b + b') / 2) (exp_pos _)
  have hid : levelMisfit S (exp ((log A + log A') / 2)) ((b + b') / 2) =
      (levelMisfit S A b + levelMisfit S A' b') / 2 - (S.map (fun s => s.w * d s ^ 2)).sum / 4 := by
    have hpt : ∀ s ∈ S, s.w * (log s.E - log (exp ((log A + log A') / 2) * s.G *
        exp (-((b + b') / 2) * s.t))) ^ 2 =
        (1 / 2) * (s.w * (log s.E - log (A * s.G * exp (-b * s.t))) ^ 2 +
          s.w * (log s.E - log (A' * s.G * exp (-b' * s.t))) ^ 2) - (1 / 4) * (s.w * d s ^ 2) := by
      intro s hs
      rw [log_level (hpos s hs).2 (exp_pos _), log_level (hpos s hs).2 hA,
        log_level (hpos s hs).2 hA', log_exp]
      simp only [hd]
      ring
    unfold levelMisfit
    rw [sum_map_congr hpt, sum_map_sub', sum_map_mul_left', sum_map_mul_left', sum_map_add']
    ring
  have hz : (S.map (fun s => s.w * d s ^ 2)).sum = 0 := by
    have h0 : 0 ≤ (S.map (fun s => s.w * d s ^ 2)).sum :=
      sum_map_nonneg (fun s hs => mul_nonneg (weight_nonneg hl hgw hs) (sq_nonneg _))
    linarith
  have key : ∀ p ∈ ps, ∀ x ∈ p.coda, (log A - b * x.1) - (log A' - b' * x.1) = 0 := by
    intro p hp x hx
    obtain ⟨s, hs, -, -, h3, -, h5⟩ := coda_mem (bulk := cfg.bulk) hl hp hx
    have := sum_map_eq_zero (fun s hs => mul_nonneg (weight_nonneg hl hgw hs) (sq_nonneg _)) hz s hs
    rw [h5, one_mul, sq_eq_zero_iff] at this
    simp only [hd, h3] at this
    exact this
  obtain ⟨p, hp, q, hq, x, hx, y, hy, hxy⟩ := htw
  have e1 := key p hp x hx
  have e2 := key q hq y hy
  have hb : b' = b := by
    have : (b' - b) * (x.1 - y.1) = 0 := by linarith
    rcases mul_eq_zero.1 this with h | h
    · linarith
    · exact absurd (by linarith) hxy
  refine ⟨hb, ?_⟩
  subst hb
  exact log_injOn_pos hA' hA (by linarith)

theorem recal_level (hk : 0 < k) {S : List Sample} {A b : ℝ} (hA : 0 < A)
    (hpos : ∀ s ∈ S, 0 < s.E ∧ 0 < s.G) :
    levelMisfit (S.map (recalSample (fun _ => k) (fun _ => 1))) (k * A) b = levelMisfit S A b := by
  unfold levelMisfit
  rw [List.map_map]
  apply sum_map_congr
  intro s hs
  simp only [Function.comp]
  rw [log_level (s := recalSample _ _ s) (hpos s hs).2 (mul_pos hk hA), log_level (hpos s hs).2 hA]
  simp only [recalSample, mul_one]
  rw [log_mul hk.ne' (hpos s hs).1.ne', log_mul hk.ne' hA.ne']
  ring

theorem recal_someTwo (hp : ps'.Perm (ps.map (recalibrate (fun _ => k) (fun _ => 1))))
    (h : SomeTwoTimes ps) : SomeTwoTimes ps' := by
  obtain ⟨p, h1, q, h2, x, hx, y, hy, hxy⟩ := h
  exact ⟨_, perm_mem hp h1, _, perm_mem hp h2, (x.1, k * 1 * x.2), List.mem_map.2 ⟨x, hx, rfl⟩,
    (y.1, k * 1 * y.2), List.mem_map.2 ⟨y, hy, rfl⟩, hxy⟩

theorem perm_level {S S' : List Sample} (h : S'.Perm S) (A b : ℝ) :
    levelMisfit S' A b = levelMisfit S A b := by
  unfold levelMisfit
  exact (h.map _).sum_eq

/-- The linear inversion with coda normalisation gives the same fit for every order of the pairs
and every common factor. -/
theorem lstsq_recal_norm (hwls : IsWls rank wls) (hr : FullRank rank) (hin : GoodInput cfg ps)
    (hc : cfg.codaNorm = true) (hfx : cfg.fix = false) (hfs : cfg.fixSites = false)
    (htw : SomeTwoTimes ps) (hk : 0 < k)
    (hp : ps'.Perm (ps.map (recalibrate (fun _ => k) (fun _ => 1)))) {g0 : ℝ}
    (hne : ∀ p ∈ ps, p.coda ≠ []) (h1 : IsGreens G cfg g0 ps gs)
    (hpos : ∀ s ∈ samplesOf cfg.bulk ps gs, 0 < s.E ∧ 0 < s.G) :
    ∃ f, lstsq wls G cfg (bandOf cfg.bulk ps) g0 none false = .ok f ∧
      lstsq wls G cfg (bandOf cfg.bulk ps') g0 none false = .ok f := by
  have hkS : ∀ s : String, 0 < (fun _ : String => (1:ℝ)) s := fun _ => one_pos
  have hl := isGreens_len h1
  obtain ⟨gs', hne', h1', hpos', hperm⟩ := recal_compare (kE := fun _ => k) (fun _ => hk) hkS hp hne h1 hpos
  have hl' := isGreens_len h1'
  have hin' := recal_good hp hin
  have htw' := recal_someTwo hp htw
  obtain ⟨A, b, err, k1, k2, k3, k4⟩ := norm_fit (g0 := g0) (Rfix := []) hwls hc hfx hfs
    hin.some_pair hin.weights hl hne hpos
  obtain ⟨A', b', err', j1, j2, j3, j4⟩ := norm_fit (g0 := g0) (Rfix := []) hwls hc hfx hfs
    hin'.some_pair hin'.weights hl' hne' hpos'
  have htr : ∀ B c, 0 < B → levelMisfit (samplesOf cfg.bulk ps' gs') (k * B) c =
      levelMisfit (samplesOf cfg.bulk ps gs) B c := by
    intro B c hB
    rw [perm_level hperm, recal_level hk hB hpos]
  have hdiv : k * (A' / k) = A' := by field_simp
  obtain ⟨u1, u2⟩ := level_unique hin.weights hl hpos htw k1 (div_pos j1 hk) k3
    (A' := A' / k) (b' := b') (by
      rw [← htr _ _ (div_pos j1 hk), ← htr _ _ k1, hdiv]
      exact j3 _ _ (mul_pos hk k1))
  subst u1
  have hmis : levelMisfit (samplesOf cfg.bulk ps' gs') A' b' =
      levelMisfit (samplesOf cfg.bulk ps gs) A b' := by
    rw [← hdiv, htr _ _ (div_pos j1 hk), u2]
  have herr : err' = err := by
    rw [j4, k4, hmis, norm_rank hr hc hfx hfs hin.weights hl htw,
      norm_rank hr hc hfx hfs hin'.weights hl' htw', hperm.length_eq, List.length_map]
  refine ⟨⟨err, g0, b', [], List.replicate (stations (bandOf cfg.bulk ps)).length 1⟩, ?_, ?_⟩
  · rw [lstsq_eq hin.pairs hne h1 hpos (siteRefs_free hfs _) (siteRefsShort_free hfs _) (by simp)]
    simpa using k2
  · rw [lstsq_eq hin'.pairs hne' h1' hpos' (siteRefs_free hfs _) (siteRefsShort_free hfs _) (by simp)]
    rw [herr, (perm_stations hp).length_eq] at j2
    simpa using j2

theorem report_norm (hc : cfg.codaNorm = true) (bd bd' : Band) (f : Fit) :
    report cfg bd f = report cfg bd' f := by
  unfold report
  simp [hc]

end InvertFb

/-- **C113** with coda normalisation: neither the order of the pairs nor a common factor of all
energies matters, the result is the same. -/
theorem C113_coda_normalization (hwls : IsWls rank wls) (hr : FullRank rank)
    (hG : OneValuePerTime G) (hin : GoodInput cfg ps) (hc : cfg.codaNorm = true)
    (hfs : cfg.fixSites = false) (htw : SomeTwoTimes ps)
    (hcmp : cfg.optimize = true → ∀ g0, WithinBounds cfg g0 → CanCompare G cfg ps g0)
    (hk : 0 < k) (hp : ps'.Perm (ps.map (recalibrate (fun _ => k) (fun _ => 1))))
    {res : BandResult}
    (h : solveBand wls G minimize cfg (bandOf cfg.bulk ps) = .ok (some res)) :
    solveBand wls G minimize cfg (bandOf cfg.bulk ps') = .ok (some res) := by
  have hfx : cfg.fix = false := by
    cases hfx : cfg.fix with
    | false => rfl
    | true => exact absurd ⟨res, h⟩ (C35_not_with_fixed_attenuation hc hfx)
  have hL : ∀ {g0 : ℝ} {f : Fit},
      lstsq wls G cfg (bandOf cfg.bulk ps) g0 none false = .ok f →
      lstsq wls G cfg (bandOf cfg.bulk ps') g0 none false = .ok f := by
    intro g0 f hf
    obtain ⟨gs, Rfix, h1, -, hne, hpos, -⟩ := lstsq_ok hin.pairs hG (by simp) hf
    obtain ⟨f', hf', hf''⟩ := lstsq_recal_norm hwls hr hin hc hfx hfs htw hk hp hne h1 hpos
    rw [hf, Except.ok.injEq] at hf'
    rw [hf', hf'']
  unfold solveBand at h ⊢
  obtain ⟨of, hof, h⟩ := bind_ok.1 h
  simp only [pure, Except.pure, Except.ok.injEq] at h
  cases of with
  | none => simp at h
  | some f =>
    simp only [Option.bind_some] at h
    rw [report_norm hc _ (bandOf cfg.bulk ps')] at h
    suffices hb : bandFit wls G minimize cfg (bandOf cfg.bulk ps') = .ok (some f) by
      rw [hb]
      simp only [bind, Except.bind, pure, Except.pure, Option.bind_some, h]
    unfold bandFit at hof ⊢
    rw [hfx] at hof ⊢
    simp only [Bool.false_eq_true, if_false] at hof ⊢
    by_cases ho : cfg.optimize = true
    · rw [if_pos ho] at hof ⊢
      have hobj : objective wls G cfg (bandOf cfg.bulk ps') =
          objective wls G cfg (bandOf cfg.bulk ps) := by
        funext g0
        unfold objective
        by_cases hb : ∃ gb, cfg.g0Bounds = some gb ∧ ¬ (gb.1 ≤ g0 ∧ g0 ≤ gb.2)
        · rw [if_pos hb, if_pos hb]
        · rw [if_neg hb, if_neg hb]
          obtain ⟨hne, gs, hgr, hpos⟩ := hcmp ho g0 (fun gb h => by
            by_contra h'
            exact hb ⟨gb, h, h'⟩)
          obtain ⟨f', hf', hf''⟩ := lstsq_recal_norm hwls hr hin hc hfx hfs htw hk hp hne hgr hpos
          rw [hf', hf'']
      rw [hobj]
      obtain ⟨x, hx, hof⟩ := bind_ok.1 hof
      obtain ⟨f', hf', h3⟩ := bind_ok.1 hof
      rw [hx]
      simp only [hL hf', bind, Except.bind]
      exact h3
    · rw [if_neg ho] at hof ⊢
      cases hgb : cfg.g0Bounds with
      | none => rw [hgb] at hof; simp at hof
      | some gb =>
        rw [hgb] at hof
        simp only at hof ⊢
        obtain ⟨f', hf', h3⟩ := bind_ok.1 hof
        simp only [hL hf', bind, Except.bind]
        exact h3

namespace InvertNormExample

open InvertExample (G1 rankWls rankWls_spec someRank_full one_value_G1)

example (minimize : (ℝ → Py (WithTop ℝ)) → Py ℝ) : ∃ res,
    solveBand rankWls G1 minimize cfg2 (bandOf cfg2.bulk ps2) = .ok (some res) ∧
    solveBand rankWls G1 minimize cfg2 (bandOf cfg2.bulk
      [recalibrate (fun _ => 5) (fun _ => 1) (pair2 "B" 2),
        recalibrate (fun _ => 5) (fun _ => 1) (pair2 "A" 1)]) = .ok (some res) := by
  obtain ⟨res, h, -⟩ := result2_of rankWls_spec minimize
  refine ⟨res, h, C113_coda_normalization (k := 5) rankWls_spec someRank_full one_value_G1 good2 rfl
    rfl two2 (by simp [cfg2]) (by norm_num) ?_ h⟩
  simp only [ps2, List.map_cons, List.map_nil]
  exact .swap _ _ _

end InvertNormExample

end Qopen
