import Verif.Props.InvertOrder
import Verif.Props.InvertSource
import Verif.Props.InvertNorm

/-!
# Degrees of freedom behind the reported error: C13, C19, C35
-/

namespace Qopen

open Real Util Spec InvertFb

variable {G : Greens} {cfg : Cfg} {ps : List PairData} {gs : List (List ℝ × ℝ)} {res : BandResult}
  {wls : List ℝ → List (List ℝ) → List ℝ → List ℝ × ℝ}
  {rank : List ℝ → List (List ℝ) → ℕ} {minimize : (ℝ → Py (WithTop ℝ)) → Py ℝ}

namespace Spec

/-- Number of different stations of the data. -/
def numStations (ps : List PairData) : ℕ := (ps.map PairData.station).toFinset.card

/-- Number of different events of the data. -/
def numEvents (ps : List PairData) : ℕ := (ps.map PairData.event).toFinset.card

/-- Root of the mean square of a misfit with `k` free parameters. -/
noncomputable def rms (S : List Sample) (total : ℝ) (k : ℕ) : WithTop ℝ :=
  ((sqrt (total / (S.length - k)) : ℝ) : WithTop ℝ)

end Spec

namespace InvertFb

theorem length_stations (bulk : Bool) (ps : List PairData) :
    (stations (bandOf bulk ps)).length = numStations ps := by
  unfold numStations
  rw [← List.toFinset_card_of_nodup (show (stations (bandOf bulk ps)).Nodup from fromKeys_nodup _)]
  congr 1
  ext s
  rw [List.mem_toFinset, List.mem_toFinset, mem_stations]
  simp

theorem length_eventids (bulk : Bool) (ps : List PairData) :
    (eventids (bandOf bulk ps)).length = numEvents ps := by
  unfold numEvents
  rw [← List.toFinset_card_of_nodup (show (eventids (bandOf bulk ps)).Nodup from fromKeys_nodup _)]
  congr 1
  ext s
  rw [List.mem_toFinset, List.mem_toFinset, mem_eventids]
  simp

theorem source_rank (hr : FullRank rank) (hc : cfg.codaNorm = false) (hfx : cfg.fix = true)
    (hfs : cfg.fixSites = true) (hgw : GoodWeights ps) (hl : LenOk ps gs)
    (hne : ∀ p ∈ ps, p.coda ≠ []) :
    rank ((samplesOf cfg.bulk ps gs).map Sample.w)
      ((samplesOf cfg.bulk ps gs).map (rowOf cfg (bandOf cfg.bulk ps))) =
      (eventids (bandOf cfg.bulk ps)).length := by
  set S := samplesOf cfg.bulk ps gs with hS
  set bd := bandOf cfg.bulk ps with hbd
  apply hr
  · intro r h
    obtain ⟨s, -, rfl⟩ := List.mem_map.1 h
    rw [source_row hc hfx hfs, sourceRow]; simp
  · simp
  · intro x hx
    obtain ⟨s, hs, rfl⟩ := List.mem_map.1 hx
    exact weight_nonneg hl hgw hs
  · intro C hC h0
    rw [List.map_map, wsse_map S (rowOf cfg bd) _ C] at h0
    intro x hx
    obtain ⟨i, hi, rfl⟩ := List.mem_iff_getElem.1 hx
    rw [← List.getD_eq_getElem _ 0 hi]
    have hi' : i < (eventids bd).length := by rw [← hC]; exact hi
    obtain ⟨p, hp, he⟩ := mem_eventids.1 (List.getElem_mem hi')
    obtain ⟨x, hx⟩ := List.exists_mem_of_ne_nil _ (hne p hp)
    obtain ⟨s, hs, h1, -, -, -, h5⟩ := coda_mem (bulk := cfg.bulk) hl hp hx
    have := sum_map_eq_zero (fun s hs => mul_nonneg (weight_nonneg hl hgw hs) (sq_nonneg _)) h0 s hs
    rw [h5, one_mul, sq_eq_zero_iff, source_row hc hfx hfs,
      dot_sourceRow (mem_eventids.2 ⟨p, hp, h1.symm⟩)] at this
    simp only [Function.comp, h1, he, zero_sub, neg_eq_zero] at this
    rwa [List.Nodup.idxOf_getElem (show (eventids bd).Nodup from fromKeys_nodup _)] at this

theorem norm_rank (hr : FullRank rank) (hc : cfg.codaNorm = true) (hfx : cfg.fix = false)
    (hfs : cfg.fixSites = false) (hgw : GoodWeights ps) (hl : LenOk ps gs)
    (htw : SomeTwoTimes ps) :
    rank ((samplesOf cfg.bulk ps gs).map Sample.w)
      ((samplesOf cfg.bulk ps gs).map (rowOf cfg (bandOf cfg.bulk ps))) = 2 := by
  set S := samplesOf cfg.bulk ps gs with hS
  set bd := bandOf cfg.bulk ps with hbd
  apply hr
  · intro r h
    obtain ⟨s, -, rfl⟩ := List.mem_map.1 h
    rw [norm_row hc hfx hfs]; rfl
  · simp
  · intro x hx
    obtain ⟨s, hs, rfl⟩ := List.mem_map.1 hx
    exact weight_nonneg hl hgw hs
  · intro C hC h0
    rw [List.map_map, wsse_map S (rowOf cfg bd) _ C] at h0
    obtain ⟨a, b, rfl⟩ := List.length_eq_two.1 hC
    have key : ∀ p ∈ ps, ∀ x ∈ p.coda, a = b * x.1 := by
      intro p hp x hx
      obtain ⟨s, hs, -, -, h3, -, h5⟩ := coda_mem (bulk := cfg.bulk) hl hp hx
      have := sum_map_eq_zero (fun s hs => mul_nonneg (weight_nonneg hl hgw hs) (sq_nonneg _)) h0 s hs
      rw [h5, one_mul, sq_eq_zero_iff, norm_row hc hfx hfs] at this
      simp only [Function.comp, dot, List.zipWith_cons_cons, List.zipWith_nil_right,
        List.sum_cons, List.sum_nil, h3] at this
      linarith
    obtain ⟨p, hp, q, hq, x, hx, y, hy, hxy⟩ := htw
    have e1 := key p hp x hx
    have e2 := key q hq y hy
    have hb : b = 0 := by
      have : b * (x.1 - y.1) = 0 := by linarith
      rcases mul_eq_zero.1 this with h | h
      · exact h
      · exact absurd (by linarith) hxy
    have ha : a = 0 := by rw [e1, hb]; ring
    intro c hc'
    simp only [List.mem_cons, List.not_mem_nil, or_false] at hc'
    rcases hc' with rfl | rfl <;> assumption

end InvertFb

open Classical in
/-- **C13**: for connected pairs the reported error is the root mean square misfit, where the
number of free parameters is the number of stations plus the number of events (minus one for the
reference, plus one for a free attenuation). -/
theorem C13_error_degrees_of_freedom (hwls : IsWls rank wls) (hr : FullRank rank)
    (hG : OneValuePerTime G) (hin : GoodInput cfg ps) (hc : cfg.codaNorm = false)
    (hfs : cfg.fixSites = false) (hcon : ConnectedPairs ps) (htw : cfg.fix = false → TwoTimes ps)
    (h : solveBand wls G minimize cfg (bandOf cfg.bulk ps) = .ok (some res)) :
    ∃ (g0 b : ℝ) (R W : Dict String ℝ) (gs : List (List ℝ × ℝ)),
      attenuation cfg res = (some g0, some b) ∧ res.R = some R ∧ res.W = some W ∧
      IsGreens G cfg g0 ps gs ∧
      res.error = if cfg.fix = false ∧ outside cfg b g0 then ⊤ else
        rms (samplesOf cfg.bulk ps gs)
          (misfit (samplesOf cfg.bulk ps gs) (valueOf R) (valueOf W) b)
          (numStations ps + numEvents ps - 1 + if cfg.fix then 0 else 1) := by
  obtain ⟨f, gs, h1, h2, h3, h4, h5, h6, h7, h8, h9⟩ := free_result hwls hG hin hc hfs h
  refine ⟨f.g0, f.b, _, _, gs, h1, h2, h3, h6, ?_⟩
  rw [h4, h9.err, free_rank hr hc hfs hin.some_pair hin.weights (isGreens_len h6) h7 hcon htw]
  unfold rms nFree
  have h0 : 0 < (stations (bandOf cfg.bulk ps)).length :=
    List.length_pos_iff.2 (stations_ne hin.some_pair)
  rw [length_stations] at h0 ⊢
  rw [length_eventids]
  cases cfg.fix with
  | true => simp
  | false =>
    simp only [Bool.toNat_false, Nat.sub_zero, Bool.false_eq_true, if_false]
    rw [show numStations ps + numEvents ps - 1 + 1 = numStations ps + numEvents ps by omega]

/-- **C19**: with fixed attenuation and site responses the reported error is the root mean square
misfit with one free parameter for each event. -/
theorem C19_error_degrees_of_freedom (hwls : IsWls rank wls) (hr : FullRank rank)
    (hG : OneValuePerTime G) (hin : GoodInput cfg ps) (hc : cfg.codaNorm = false)
    (hfx : cfg.fix = true) (hfs : cfg.fixSites = true)
    (href : ∀ s r, cfg.fixSitesParams.get? s = some r → 0 < r)
    (h : solveBand wls G minimize cfg (bandOf cfg.bulk ps) = .ok (some res)) :
    ∃ (g0 b : ℝ) (W : Dict String ℝ) (gs : List (List ℝ × ℝ)),
      cfg.fixParams = (some g0, some b) ∧ IsGreens G cfg g0 ps gs ∧ res.W = some W ∧
      res.error = rms (samplesOf cfg.bulk ps gs)
        (misfit (samplesOf cfg.bulk ps gs) (valueOf cfg.fixSitesParams) (valueOf W) b)
        (numEvents ps) := by
  obtain ⟨f, g0, bFix, hf, hr', hb⟩ := solveBand_ok h
  rw [hfx] at hb
  simp only [if_true] at hb
  obtain ⟨b, rfl⟩ := Option.isSome_iff_exists.1 hb.2
  rw [hfx, hfs, Bool.and_self] at hf
  obtain ⟨gs, Rfix, h1, h2, h3, h4, -, h6, h5⟩ := lstsq_ok hin.pairs hG (fun _ => hfs) hf
  obtain ⟨-, r1, r2, r3, r4, r5, r6, -⟩ := report_some hr'
  simp only [if_true] at h5
  obtain ⟨k1, k2, k3, k4, k5, k6⟩ := source_fit hwls hc hfx hfs hin.some_pair hin.weights h2 h3 h4
    (ref := refOf cfg) (by
      intro s hs
      obtain ⟨r, hr⟩ := Option.isSome_iff_exists.1 (h6 rfl s hs)
      have := href _ _ hr
      rw [refOf, hr]; exact this) h5
  refine ⟨g0, b, _, gs, hb.1, h1, by rw [r3, hc]; rfl, ?_⟩
  rw [r6, k6, source_rank hr hc hfx hfs hin.weights h2 h3, length_eventids]
  rfl

open Classical in
/-- **C35**: with coda normalisation the reported error is the root mean square misfit with two
free parameters. -/
theorem C35_error_degrees_of_freedom (hwls : IsWls rank wls) (hr : FullRank rank)
    (hG : OneValuePerTime G) (hin : GoodInput cfg ps) (hc : cfg.codaNorm = true)
    (hfs : cfg.fixSites = false) (htw : SomeTwoTimes ps)
    (h : solveBand wls G minimize cfg (bandOf cfg.bulk ps) = .ok (some res)) :
    ∃ (g0 b A : ℝ) (gs : List (List ℝ × ℝ)),
      res.g0 = some g0 ∧ res.b = some b ∧ IsGreens G cfg g0 ps gs ∧ 0 < A ∧
      (∀ A' b', 0 < A' → levelMisfit (samplesOf cfg.bulk ps gs) A b ≤
        levelMisfit (samplesOf cfg.bulk ps gs) A' b') ∧
      res.error = if outside cfg b g0 then ⊤ else
        rms (samplesOf cfg.bulk ps gs) (levelMisfit (samplesOf cfg.bulk ps gs) A b) 2 := by
  obtain ⟨f, g0, bFix, hf, hr', hb⟩ := solveBand_ok h
  rw [hfs, Bool.and_false] at hf
  obtain ⟨gs, Rfix, h1, h2, h3, h4, -, -, h5⟩ := lstsq_ok hin.pairs hG (by simp) hf
  obtain ⟨-, r1, r2, r3, r4, r5, r6, -⟩ := report_some hr'
  simp only [Bool.false_eq_true, if_false] at h5
  cases hfx : cfg.fix with
  | true =>
    unfold fitOf at h5
    simp [hfx, hc] at h5
  | false =>
    rw [hfx] at hb
    simp only [Bool.false_eq_true, if_false] at hb
    subst hb
    obtain ⟨A, b, err, k1, k2, k3, k4⟩ := norm_fit (g0 := g0) (Rfix := Rfix) hwls hc hfx hfs
      hin.some_pair hin.weights h2 h3 h4
    rw [k2, Except.ok.injEq] at h5
    subst h5
    refine ⟨g0, b, A, gs, by rw [r1, hfx]; rfl, by rw [r2, hfx]; rfl, h1, k1, k3, ?_⟩
    rw [r6, k4, norm_rank hr hc hfx hfs hin.weights h2 htw]
    rfl

namespace InvertExample

/-- The example has two stations, two events and six samples: the error belongs to four free
parameters. -/
example (minimize : (ℝ → Py (WithTop ℝ)) → Py ℝ) : ∃ res,
    solveBand rankWls G1 minimize cfg1 (bandOf cfg1.bulk ps1) = .ok (some res) ∧
    ∃ (g0 b : ℝ) (R W : Dict String ℝ) (gs : List (List ℝ × ℝ)),
      attenuation cfg1 res = (some g0, some b) ∧ res.R = some R ∧ res.W = some W ∧
      IsGreens G1 cfg1 g0 ps1 gs := by
  obtain ⟨r, R', W', h, -⟩ := example_result_of rankWls_spec minimize
  obtain ⟨g0, b, R, W, gs, h1, h2, h3, h4, -⟩ := C13_error_degrees_of_freedom rankWls_spec
    someRank_full one_value_G1 good1 rfl rfl connected1 (fun _ => two_times1) h
  exact ⟨r, h, g0, b, R, W, gs, h1, h2, h3, h4⟩

example : numStations ps1 = 2 ∧ numEvents ps1 = 2 := by
  have h1 : ((ps1.map PairData.station).toFinset) = {"A", "B"} := by simp [ps1, pair1]
  have h2 : ((ps1.map PairData.event).toFinset) = {"e1", "e2"} := by simp [ps1, pair1]
  unfold numStations numEvents
  rw [h1, h2, Finset.card_pair (by decide), Finset.card_pair (by decide)]
  exact ⟨rfl, rfl⟩

/-- The hypotheses of `C19_error_degrees_of_freedom` are met. -/
example (minimize : (ℝ → Py (WithTop ℝ)) → Py ℝ) : ∃ res,
    solveBand rankWls G1 minimize cfg2 (bandOf cfg2.bulk ps1) = .ok (some res) ∧
    ∃ (g0 b : ℝ) (W : Dict String ℝ) (gs : List (List ℝ × ℝ)),
      cfg2.fixParams = (some g0, some b) ∧ res.W = some W ∧
      res.error = rms (samplesOf cfg2.bulk ps1 gs)
        (misfit (samplesOf cfg2.bulk ps1 gs) (valueOf cfg2.fixSitesParams) (valueOf W) b)
        (numEvents ps1) := by
  obtain ⟨⟨r, h⟩, href⟩ := source_example_of rankWls minimize
  obtain ⟨g0, b, W, gs, h1, -, h3, h4⟩ := C19_error_degrees_of_freedom rankWls_spec someRank_full
    one_value_G1 good2 rfl rfl rfl href h
  exact ⟨r, h, g0, b, W, gs, h1, h3, h4⟩

end InvertExample

namespace InvertNormExample

/-- The hypotheses of `C35_error_degrees_of_freedom` are met. -/
example (minimize : (ℝ → Py (WithTop ℝ)) → Py ℝ) : ∃ res,
    solveBand InvertExample.rankWls InvertExample.G1 minimize cfg2 (bandOf cfg2.bulk ps2)
      = .ok (some res) ∧
    ∃ (g0 b A : ℝ), res.g0 = some g0 ∧ res.b = some b ∧ 0 < A := by
  obtain ⟨r, h, -⟩ := result2_of InvertExample.rankWls_spec minimize
  obtain ⟨g0, b, A, gs, h1, h2, -, h4, -⟩ := C35_error_degrees_of_freedom
    InvertExample.rankWls_spec InvertExample.someRank_full InvertExample.one_value_G1 good2 rfl rfl
    two2 h
  exact ⟨r, h, g0, b, A, h1, h2, h4⟩

end InvertNormExample

end Qopen
