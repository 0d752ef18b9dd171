import Verif.Props.InvertOrderSource

/-!
# Repeating an inversion with its own attenuation and site responses: C116
-/

namespace Qopen

open Real Util Spec InvertFb

variable {G : Greens} {cfg : Cfg} {ps : List PairData} {gs : List (List ℝ × ℝ)}
  {res : BandResult} {wls : List ℝ → List (List ℝ) → List ℝ → List ℝ × ℝ}
  {rank : List ℝ → List (List ℝ) → ℕ} {minimize minimize' : (ℝ → Py (WithTop ℝ)) → Py ℝ}

namespace Spec

/-- The options of `qopen fixed`: scattering coefficient and intrinsic attenuation are given. -/
def fixedOptions (cfg : Cfg) (g0 b : ℝ) : Cfg :=
  { cfg with fix := true, fixParams := (some g0, some b) }

/-- The options of `qopen source`: attenuation and site responses are given. -/
def sourceOptions (cfg : Cfg) (g0 b : ℝ) (R : Dict String ℝ) : Cfg :=
  { cfg with fix := true, fixParams := (some g0, some b), fixSites := true, fixSitesParams := R }

/-- Lower bounds are not negative. -/
def PositiveBounds (cfg : Cfg) : Prop :=
  (∀ bb, cfg.bBounds = some bb → 0 ≤ bb.1) ∧ (∀ gb, cfg.g0Bounds = some gb → 0 ≤ gb.1)

end Spec

namespace InvertFb

theorem not_outside {b g0 : ℝ} (hb : PositiveBounds cfg) (h : ¬ nearBounds cfg b g0) :
    ¬ outside cfg b g0 := by
  rintro (⟨bb, h1, h2⟩ | ⟨gb, h1, h2⟩)
  · have h3 : 1.01 * bb.1 < b ∧ b < 0.99 * bb.2 := by
      by_contra h3
      exact h (Or.inl ⟨bb, h1, h3⟩)
    have h4 := hb.1 bb h1
    apply h2
    constructor <;> nlinarith [h3.1, h3.2]
  · have h3 : 1.01 * gb.1 < g0 ∧ g0 < 0.99 * gb.2 := by
      by_contra h3
      exact h (Or.inr ⟨gb, h1, h3⟩)
    have h4 := hb.2 gb h1
    apply h2
    constructor <;> nlinarith [h3.1, h3.2]

theorem report_ok {bd : Band} {f : Fit} (h : ¬ nearBounds cfg f.b f.g0) :
    report cfg bd f = some ⟨if !cfg.fix then some f.g0 else none, if !cfg.fix then some f.b else none,
      if !cfg.codaNorm then some ((eventids bd).zip f.W) else none,
      if !cfg.fixSites && !cfg.codaNorm then some ((stations bd).zip f.R) else none,
      f.R.length, f.err, cfg.v0⟩ := by
  unfold report
  simp only [h, if_false]

/-- Positive values outside a list. -/
theorem best_on {S : List Sample} {f : Fit} (hf : FreeFit rank cfg ps S f)
    (hst : ∀ s ∈ S, s.station ∈ stations (bandOf cfg.bulk ps))
    (hev : ∀ s ∈ S, s.event ∈ eventids (bandOf cfg.bulk ps)) (R W : String → ℝ) (b : ℝ)
    (hR : ∀ s ∈ stations (bandOf cfg.bulk ps), 0 < R s)
    (hW : ∀ e ∈ eventids (bandOf cfg.bulk ps), 0 < W e) (hb : cfg.fix = true → b = f.b) :
    misfit S (valueOf ((stations (bandOf cfg.bulk ps)).zip f.R))
      (valueOf ((eventids (bandOf cfg.bulk ps)).zip f.W)) f.b ≤ misfit S R W b := by
  classical
  have := hf.best (fun s => if s ∈ stations (bandOf cfg.bulk ps) then R s else 1)
    (fun e => if e ∈ eventids (bandOf cfg.bulk ps) then W e else 1) b
    (by intro s; by_cases hs : s ∈ stations (bandOf cfg.bulk ps)
        · simp only [hs, if_true]; exact hR s hs
        · simp [hs])
    (by intro s; by_cases hs : s ∈ eventids (bandOf cfg.bulk ps)
        · simp only [hs, if_true]; exact hW s hs
        · simp [hs]) hb
  refine this.trans (le_of_eq ?_)
  unfold misfit
  apply sum_map_congr
  intro s hs
  simp only [predicted, hst s hs, hev s hs, if_true]

/-- The best source energies for given site responses are unique. -/
theorem source_unique (hl : LenOk ps gs) (hgw : GoodWeights ps) (hne : ∀ p ∈ ps, p.coda ≠ [])
    (hG : ∀ s ∈ samplesOf cfg.bulk ps gs, 0 < s.G) {ref W W' : String → ℝ}
    (href : ∀ s ∈ samplesOf cfg.bulk ps gs, 0 < ref s.station)
    (hW : ∀ p ∈ ps, 0 < W p.event) (hW' : ∀ p ∈ ps, 0 < W' p.event) {b : ℝ}
    (h1 : ∀ V : String → ℝ, (∀ e, 0 < V e) →
      misfit (samplesOf cfg.bulk ps gs) ref W b ≤ misfit (samplesOf cfg.bulk ps gs) ref V b)
    (h2 : ∀ V : String → ℝ, (∀ e, 0 < V e) →
      misfit (samplesOf cfg.bulk ps gs) ref W' b ≤ misfit (samplesOf cfg.bulk ps gs) ref V b)
    {p : PairData} (hp : p ∈ ps) : W p.event = W' p.event := by
  set S := samplesOf cfg.bulk ps gs with hS
  have hmem : ∀ s ∈ S, ∃ p ∈ ps, p.event = s.event := by
    intro s hs
    obtain ⟨p, hp, h2, -⟩ := mem_samplesOf hl hs
    exact ⟨p, hp, h2⟩
  have m1 := source_mean (fun s hs => weight_nonneg hl hgw hs) hG href
    (fun s hs => by obtain ⟨q, hq, e⟩ := hmem s hs; rw [← e]; exact hW q hq) h1 p.event
  have m2 := source_mean (fun s hs => weight_nonneg hl hgw hs) hG href
    (fun s hs => by obtain ⟨q, hq, e⟩ := hmem s hs; rw [← e]; exact hW' q hq) h2 p.event
  rw [← hS] at m1 m2
  have hsub := congrArg₂ (· - ·) m1 m2
  simp only [sub_zero] at hsub
  rw [← sum_map_sub', sum_map_congr (g := fun s => (log (W p.event) - log (W' p.event)) *
    (if s.event = p.event then s.w else 0)), sum_map_mul_left'] at hsub
  · obtain ⟨x, hx⟩ := List.exists_mem_of_ne_nil _ (hne p hp)
    obtain ⟨s, hs, i1, -, -, -, i5⟩ := coda_mem (bulk := cfg.bulk) hl hp hx
    have hApos : 0 < (S.map (fun s => if s.event = p.event then s.w else 0)).sum := by
      refine lt_of_lt_of_le (b := if s.event = p.event then s.w else 0)
        (by rw [if_pos i1, i5]; norm_num) ?_
      exact List.single_le_sum (by
        intro y hy
        obtain ⟨t, ht, rfl⟩ := List.mem_map.1 hy
        split
        · exact weight_nonneg hl hgw ht
        · exact le_rfl) _ (List.mem_map.2 ⟨s, hs, rfl⟩)
    rcases mul_eq_zero.1 hsub with h0 | h0
    · exact log_injOn_pos (hW p hp) (hW' p hp) (by linarith)
    · exact absurd h0 hApos.ne'
  · intro s hs
    by_cases hse : s.event = p.event
    · simp only [hse, if_true]; ring
    · simp [hse]

theorem length_stations_le (bulk : Bool) (ps : List PairData) :
    (stations (bandOf bulk ps)).length ≤ ps.length := by
  rw [length_stations]
  exact (List.toFinset_card_le _).trans (by simp)

end InvertFb

/-- **C116**: an inversion repeated with its own scattering coefficient and intrinsic attenuation
(`qopen fixed`) reports the same site responses, source energies and number of stations.  The two
errors belong to the same misfit and differ only by the one free parameter less. -/
theorem C116_fixed (hwls : IsWls rank wls) (hr : FullRank rank) (hG : OneValuePerTime G)
    (hin : GoodInput cfg ps) (hc : cfg.codaNorm = false) (hfx : cfg.fix = false)
    (hfs : cfg.fixSites = false) (hbb : PositiveBounds cfg)
    (hcon : ConnectedPairs ps) (htw : TwoTimes ps)
    (h : solveBand wls G minimize cfg (bandOf cfg.bulk ps) = .ok (some res)) :
    ∃ (g0 b : ℝ) (R W : Dict String ℝ) (gs : List (List ℝ × ℝ)) (res' : BandResult),
      res.g0 = some g0 ∧ res.b = some b ∧ res.R = some R ∧ res.W = some W ∧
      IsGreens G cfg g0 ps gs ∧
      solveBand wls G minimize' (fixedOptions cfg g0 b) (bandOf cfg.bulk ps) = .ok (some res') ∧
      res'.R = some R ∧ res'.W = some W ∧ res'.nstations = res.nstations ∧ res'.v0 = res.v0 ∧
      res.error = rms (samplesOf cfg.bulk ps gs)
        (misfit (samplesOf cfg.bulk ps gs) (valueOf R) (valueOf W) b)
        (numStations ps + numEvents ps) ∧
      res'.error = rms (samplesOf cfg.bulk ps gs)
        (misfit (samplesOf cfg.bulk ps gs) (valueOf R) (valueOf W) b)
        (numStations ps + numEvents ps - 1) := by
  classical
  obtain ⟨f, g0, bFix, hf, hrep, hb⟩ := solveBand_ok h
  rw [hfx] at hb
  simp only [Bool.false_eq_true, if_false] at hb
  subst hb
  rw [hfs, Bool.and_false] at hf
  obtain ⟨gs, Rfix, h1, hl, hne, hpos, -, -, h5⟩ := lstsq_ok hin.pairs hG (by simp) hf
  obtain ⟨hnear, r1, r2, r3, r4, r5, r6, r7⟩ := report_some hrep
  simp only [Bool.false_eq_true, if_false] at h5
  obtain ⟨k1, -, k3⟩ := free_fit hwls hc hfs hin.R0 hin.some_pair hin.weights hl hne hpos
    (fun _ => rfl) h5
  set cfg' := fixedOptions cfg f.g0 f.b with hcfg
  have hfs' : cfg'.fixSites = false := hfs
  have hc' : cfg'.codaNorm = false := hc
  have hfx' : cfg'.fix = true := rfl
  have hin' : GoodInput cfg' ps := ⟨hin.pairs, hin.some_pair, hin.weights, hin.R0⟩
  rw [← k1] at h1
  have h1' : IsGreens G cfg' f.g0 ps gs := h1
  have hpos' : ∀ s ∈ samplesOf cfg'.bulk ps gs, 0 < s.E ∧ 0 < s.G := hpos
  have hl' := lstsq_eq (wls := wls) hin.pairs hne h1' hpos' (siteRefs_free hfs' _)
    (siteRefsShort_free hfs' _) (bFix := some f.b) (fixSites := false) (by simp)
  obtain ⟨f', hf'⟩ := fitOf_some (cfg := cfg') (bd := bandOf cfg'.bulk ps)
    (g0 := f.g0) (bFix := some f.b) (fs := false) (Rf := [])
    (sol := wls ((samplesOf cfg'.bulk ps gs).map Sample.w)
      ((samplesOf cfg'.bulk ps gs).map (rowOf cfg' (bandOf cfg'.bulk ps)))
      ((samplesOf cfg'.bulk ps gs).map (target (some f.b)
        (if false then some (refOf cfg') else none)))) hc' (fun _ => rfl)
  rw [hf'] at hl'
  simp only [Bool.false_eq_true, if_false] at hf'
  obtain ⟨j1, j2, j3⟩ := free_fit hwls hc' hfs' hin'.R0 hin.some_pair hin.weights hl hne
    hpos' (by simp [hfx']) hf'
  have hbeq : f.b = f'.b := by simpa using j2 hfx'
  have hst : ∀ s ∈ samplesOf cfg.bulk ps gs, s.station ∈ stations (bandOf cfg.bulk ps) := by
    intro s hs
    obtain ⟨p, hp, -, h2⟩ := mem_samplesOf hl hs
    exact mem_stations.2 ⟨p, hp, h2⟩
  have hev : ∀ s ∈ samplesOf cfg.bulk ps gs, s.event ∈ eventids (bandOf cfg.bulk ps) := by
    intro s hs
    obtain ⟨p, hp, h2, -⟩ := mem_samplesOf hl hs
    exact mem_eventids.2 ⟨p, hp, h2⟩
  have hRl := zip_values (show (stations (bandOf cfg.bulk ps)).Nodup from fromKeys_nodup _) k3.lenR
  have hWl := zip_values (show (eventids (bandOf cfg.bulk ps)).Nodup from fromKeys_nodup _) k3.lenW
  have hgeo : meanLogR ps cfg'.bulk (valueOf ((stations (bandOf cfg.bulk ps)).zip f.R)) =
      log cfg'.R0 := by
    have h0 := k3.geo
    rw [← hRl, List.map_map, List.length_map] at h0
    exact h0
  obtain ⟨-, u2, u3⟩ := fit_unique hin.some_pair hl hin.weights hne hpos' j3 hcon
    (by simp [hfx']) (R := valueOf ((stations (bandOf cfg.bulk ps)).zip f.R))
    (W := valueOf ((eventids (bandOf cfg.bulk ps)).zip f.W)) (b := f.b)
    (fun p hp => k3.posR _ (mem_stations.2 ⟨p, hp, rfl⟩))
    (fun p hp => k3.posW _ (mem_eventids.2 ⟨p, hp, rfl⟩)) (fun _ => hbeq) hgeo
    (best_on k3 hst hev _ _ _ j3.posR j3.posW (by simp [hfx]))
  have u2' : f'.R = f.R := u2.trans hRl
  have u3' : f'.W = f.W := u3.trans hWl
  have hrk := free_rank hr hc hfs hin.some_pair hin.weights hl hne hcon (fun _ => htw)
  have hrk' := free_rank (cfg := cfg') hr hc' hfs' hin.some_pair hin.weights hl hne hcon
    (by simp [hfx'])
  have hbf : bandFit wls G minimize' cfg' (bandOf cfg.bulk ps) = .ok (some f') := by
    unfold bandFit
    rw [if_pos hfx']
    have e2 : cfg'.fixParams = (some f.g0, some f.b) := rfl
    have hl2 : lstsq wls G cfg' (bandOf cfg.bulk ps) f.g0 (some f.b) false = .ok f' := hl'
    rw [e2, hfs']
    simp only [hl2]
    rfl
  have hn' : ¬ nearBounds cfg' f'.b f'.g0 := by
    rw [← hbeq, j1]; exact hnear
  have h0 : 0 < (stations (bandOf cfg.bulk ps)).length :=
    List.length_pos_iff.2 (stations_ne hin.some_pair)
  refine ⟨f.g0, f.b, _, _, gs, ⟨none, none, some ((eventids (bandOf cfg.bulk ps)).zip f'.W),
    some ((stations (bandOf cfg.bulk ps)).zip f'.R), f'.R.length, f'.err, cfg.v0⟩,
    by rw [r1, hfx]; rfl, by rw [r2, hfx]; rfl, by rw [r4, hfs, hc]; rfl, by rw [r3, hc]; rfl, h1,
    ?_, by rw [u2'], by rw [u3'], by rw [u2', r5], r7.symm, ?_, ?_⟩
  · unfold solveBand
    rw [hbf]
    simp only [bind, Except.bind, pure, Except.pure, Option.bind_some]
    rw [report_ok hn', hfx', hc', hfs']
    rfl
  · rw [r6, k3.err, if_neg (fun hh => not_outside hbb hnear hh.2), hrk]
    unfold rms nFree
    rw [length_stations, length_eventids, hfx]
    rfl
  · simp only
    rw [j3.err, if_neg (by simp [hfx']), hrk', ← hbeq]
    unfold rms nFree
    have e1 : (stations (bandOf cfg'.bulk ps)).length = numStations ps := length_stations _ _
    have e2 : (eventids (bandOf cfg'.bulk ps)).length = numEvents ps := length_eventids _ _
    rw [e1, e2, hfx', u2', u3']
    rfl

/-- **C116**: an inversion (with free or fixed attenuation) repeated with its own attenuation and
site responses (`qopen source`) reports the same source energies and number of stations. -/
theorem C116_source (hwls : IsWls rank wls) (hG : OneValuePerTime G)
    (hin : GoodInput cfg ps) (hc : cfg.codaNorm = false) (hfs : cfg.fixSites = false)
    (h : solveBand wls G minimize cfg (bandOf cfg.bulk ps) = .ok (some res)) :
    ∃ (g0 b : ℝ) (R W : Dict String ℝ) (res' : BandResult),
      attenuation cfg res = (some g0, some b) ∧ res.R = some R ∧ res.W = some W ∧
      solveBand wls G minimize' (sourceOptions cfg g0 b R) (bandOf cfg.bulk ps) = .ok (some res') ∧
      res'.W = some W ∧ res'.nstations = res.nstations ∧ res'.v0 = res.v0 := by
  classical
  obtain ⟨f, g0, bFix, hf, hrep, -⟩ := solveBand_ok h
  obtain ⟨hnear, -, -, -, -, -, -, r7⟩ := report_some hrep
  obtain ⟨f₁, gs, a1, a2, a3, a4, a5, h1, hne, hpos, k3⟩ := free_result hwls hG hin hc hfs h
  obtain ⟨g, b, c1, c2, c3⟩ := C17_result_inside_bounds h
  rw [a1] at c1
  simp only [Prod.mk.injEq, Option.some.injEq] at c1
  obtain ⟨rfl, rfl⟩ := c1
  clear hf hrep hnear
  set f := f₁ with hfdef
  set R := (stations (bandOf cfg.bulk ps)).zip f.R with hR
  set cfg' := sourceOptions cfg f.g0 f.b R with hcfg
  have hl := isGreens_len h1
  have hfs' : cfg'.fixSites = true := rfl
  have hc' : cfg'.codaNorm = false := hc
  have hfx' : cfg'.fix = true := rfl
  have h1' : IsGreens G cfg' f.g0 ps gs := h1
  have hpos' : ∀ s ∈ samplesOf cfg'.bulk ps gs, 0 < s.E ∧ 0 < s.G := hpos
  have hst : ∀ s ∈ samplesOf cfg.bulk ps gs, s.station ∈ stations (bandOf cfg.bulk ps) := by
    intro s hs
    obtain ⟨p, hp, -, h2⟩ := mem_samplesOf hl hs
    exact mem_stations.2 ⟨p, hp, h2⟩
  have hev : ∀ s ∈ samplesOf cfg.bulk ps gs, s.event ∈ eventids (bandOf cfg.bulk ps) := by
    intro s hs
    obtain ⟨p, hp, h2, -⟩ := mem_samplesOf hl hs
    exact mem_eventids.2 ⟨p, hp, h2⟩
  have hRl := zip_values (show (stations (bandOf cfg.bulk ps)).Nodup from fromKeys_nodup _) k3.lenR
  have hWl := zip_values (show (eventids (bandOf cfg.bulk ps)).Nodup from fromKeys_nodup _) k3.lenW
  have hget : ∀ p ∈ ps, ∃ r, cfg'.fixSitesParams.get? p.station = some r := by
    intro p hp
    have e : Dict.get? R p.station = some (valueOf R p.station) := by
      conv_lhs => rw [hR, ← hRl, get?_zip_map, if_pos (mem_stations.2 ⟨p, hp, rfl⟩)]
    exact ⟨_, e⟩
  have href : ∀ s ∈ samplesOf cfg'.bulk ps gs, 0 < refOf cfg' s.station :=
    fun s hs => k3.posR _ (hst s hs)
  obtain ⟨rs, hrs⟩ := siteRefs_total hfs' hget
  obtain ⟨Rfix, hRf⟩ := siteRefsShort_total hfs' hin.some_pair hget
  have hl' := lstsq_eq (wls := wls) hin.pairs hne h1' hpos' hrs hRf (bFix := some f.b)
    (fixSites := true) (fun _ => hfs')
  obtain ⟨f', hf'⟩ := fitOf_some (cfg := cfg') (bd := bandOf cfg'.bulk ps)
    (g0 := f.g0) (bFix := some f.b) (fs := true) (Rf := Rfix)
    (sol := wls ((samplesOf cfg'.bulk ps gs).map Sample.w)
      ((samplesOf cfg'.bulk ps gs).map (rowOf cfg' (bandOf cfg'.bulk ps)))
      ((samplesOf cfg'.bulk ps gs).map (target (some f.b)
        (if true then some (refOf cfg') else none)))) hc' (fun _ => rfl)
  rw [hf'] at hl'
  simp only [if_true] at hf'
  obtain ⟨j1, j2, j3, j4, j5, -⟩ := source_fit hwls hc' hfx' hfs' hin.some_pair hin.weights hl hne
    hpos' href hf'
  have hW : f'.W = f.W := by
    rw [← hWl, ← zip_values (show (eventids (bandOf cfg.bulk ps)).Nodup from fromKeys_nodup _) j3]
    apply List.map_congr_left
    intro e he
    obtain ⟨p, hp, rfl⟩ := mem_eventids.1 he
    refine source_unique (cfg := cfg) (b := f.b) hl hin.weights hne (fun s hs => (hpos s hs).2) href
      (fun p hp => j4 _ (mem_eventids.2 ⟨p, hp, rfl⟩))
      (fun p hp => k3.posW _ (mem_eventids.2 ⟨p, hp, rfl⟩)) j5 ?_ hp
    intro V hV
    exact best_on k3 hst hev _ _ _ k3.posR (fun e _ => hV e) (fun _ => rfl)
  have hR' : f'.R.length = f.R.length := by
    rw [fitOf_source hc' hfx' hf', siteRefsShort_length hfs' hRf, k3.lenR]
    have h0 : (stations (bandOf cfg'.bulk ps)).length ≤ ps.length := length_stations_le _ _
    have h2 : (stations (bandOf cfg'.bulk ps)).length = (stations (bandOf cfg.bulk ps)).length := rfl
    split <;> omega
  have hbf : bandFit wls G minimize' cfg' (bandOf cfg.bulk ps) = .ok (some f') := by
    unfold bandFit
    rw [if_pos hfx']
    have e2 : cfg'.fixParams = (some f.g0, some f.b) := rfl
    have hl2 : lstsq wls G cfg' (bandOf cfg.bulk ps) f.g0 (some f.b) true = .ok f' := hl'
    rw [e2, hfs']
    simp only [hl2]
    rfl
  have hn' : ¬ nearBounds cfg' f'.b f'.g0 := by
    rw [j1, j2]
    rintro (⟨bb, e1, e2⟩ | ⟨gb, e1, e2⟩)
    · exact e2 (c2 _ _ e1)
    · exact e2 (c3 _ _ e1)
  refine ⟨f.g0, f.b, R, _, ⟨none, none, some ((eventids (bandOf cfg.bulk ps)).zip f'.W),
    none, f'.R.length, f'.err, cfg.v0⟩, a1, a2, a3, ?_, by rw [hW], by rw [a5, hR'], r7.symm⟩
  unfold solveBand
  rw [hbf]
  simp only [bind, Except.bind, pure, Except.pure, Option.bind_some]
  rw [report_ok hn', hfx', hc', hfs']
  rfl

/-! ## A case which meets the hypotheses -/

namespace InvertExample

theorem bounds1 : PositiveBounds cfg1 := by
  constructor
  · intro bb h
    simp only [cfg1, Option.some.injEq] at h
    subst h; norm_num
  · intro bb h
    simp only [cfg1, Option.some.injEq] at h
    subst h; norm_num

example (minimize : (ℝ → Py (WithTop ℝ)) → Py ℝ) : ∃ g0 b r r',
    solveBand rankWls G1 minimize cfg1 (bandOf cfg1.bulk ps1) = .ok (some r) ∧
    solveBand rankWls G1 minimize (fixedOptions cfg1 g0 b) (bandOf cfg1.bulk ps1) = .ok (some r') ∧
    r'.R = r.R ∧ r'.W = r.W := by
  obtain ⟨r, R', W', h, -⟩ := example_result_of rankWls_spec minimize
  obtain ⟨g0, b, R, W, gs, r', h1, h2, h3, h4, -, h5, h6, h7, -⟩ := C116_fixed
    (minimize' := minimize) rankWls_spec someRank_full
    one_value_G1 good1 rfl rfl rfl bounds1 connected1 two_times1 h
  exact ⟨g0, b, r, r', h, h5, h6.trans h3.symm, h7.trans h4.symm⟩

example (minimize : (ℝ → Py (WithTop ℝ)) → Py ℝ) : ∃ g0 b R r r',
    solveBand rankWls G1 minimize cfg1 (bandOf cfg1.bulk ps1) = .ok (some r) ∧
    solveBand rankWls G1 minimize (sourceOptions cfg1 g0 b R) (bandOf cfg1.bulk ps1) =
      .ok (some r') ∧ r'.W = r.W := by
  obtain ⟨r, R', W', h, -⟩ := example_result_of rankWls_spec minimize
  obtain ⟨g0, b, R, W, r', h1, h2, h3, h4, h5, -⟩ := C116_source (minimize' := minimize)
    rankWls_spec one_value_G1 good1 rfl rfl h
  exact ⟨g0, b, R, r, r', h, h4, h5.trans h3.symm⟩

end InvertExample

end Qopen
