import Verif.Lemmas.InvertTotal
import Verif.Lemmas.Util

/-!
# Inversion of one frequency band: C13, C14, C16, C17, C19

`Spec.PairData` describes the windows of an event-station pair, `Spec.samplesOf` the list of data
with the values of Green's function, `Spec.misfit` the weighted squared logarithmic misfit between
observed energies and the predicted energies `G R W exp(-b t)`.
-/

namespace Qopen

open Real Util Spec InvertFb

variable {G : Greens} {cfg : Cfg} {ps : List PairData} {res : BandResult}
  {wls : List ℝ → List (List ℝ) → List ℝ → List ℝ × ℝ}
  {rank : List ℝ → List (List ℝ) → ℕ} {minimize : (ℝ → Py (WithTop ℝ)) → Py ℝ}

/-- Scattering coefficient and intrinsic attenuation behind a result: the fixed values, or the
reported ones. -/
def attenuation (cfg : Cfg) (res : BandResult) : Option ℝ × Option ℝ :=
  if cfg.fix then cfg.fixParams else (res.g0, res.b)

/-- The assumptions on the input which hold for every call by `invert`: the pairs are different,
not all pairs were rejected, weights are not negative. -/
structure GoodInput (cfg : Cfg) (ps : List PairData) : Prop where
  pairs : (ps.map PairData.pair).Nodup
  some_pair : ps ≠ []
  weights : GoodWeights ps
  R0 : 0 < cfg.R0

namespace InvertFb

theorem solveBand_ok {bd : Band} (h : solveBand wls G minimize cfg bd = .ok (some res)) :
    ∃ f g0 bFix, lstsq wls G cfg bd g0 bFix (cfg.fix && cfg.fixSites) = .ok f ∧
      report cfg bd f = some res ∧
      (if cfg.fix then cfg.fixParams = (some g0, bFix) ∧ bFix.isSome else bFix = none) := by
  unfold solveBand at h
  obtain ⟨of, hf, h⟩ := bind_ok.1 h
  simp only [pure, Except.pure, Except.ok.injEq] at h
  cases of with
  | none => simp at h
  | some f =>
    simp only [Option.bind_some] at h
    unfold bandFit at hf
    cases hfx : cfg.fix with
    | true =>
      rw [hfx] at hf
      simp only [if_true] at hf
      split at hf
      · next g0 bf e1 e2 =>
        obtain ⟨f', hf', h'⟩ := bind_ok.1 hf
        simp only [pure, Except.pure, Except.ok.injEq, Option.some.injEq] at h'
        subst h'
        refine ⟨f', g0, some bf, by simpa [hfx] using hf', h, ?_⟩
        simp only [if_true, Option.isSome_some, and_true]
        rw [← e1, ← e2]
      · simp at hf
    | false =>
      rw [hfx] at hf
      simp only [Bool.false_eq_true, if_false] at hf
      cases ho : cfg.optimize with
      | true =>
        rw [ho] at hf
        simp only [if_true] at hf
        obtain ⟨x, hx, hf⟩ := bind_ok.1 hf
        obtain ⟨f', hf', h'⟩ := bind_ok.1 hf
        simp only [pure, Except.pure, Except.ok.injEq, Option.some.injEq] at h'
        subst h'
        exact ⟨f', x, none, by simpa [hfx] using hf', h, by simp⟩
      | false =>
        rw [ho] at hf
        simp only [Bool.false_eq_true, if_false] at hf
        split at hf
        · next gb e1 =>
          obtain ⟨f', hf', h'⟩ := bind_ok.1 hf
          simp only [pure, Except.pure, Except.ok.injEq, Option.some.injEq] at h'
          subst h'
          exact ⟨f', _, none, by simpa [hfx] using hf', h, by simp⟩
        · simp at hf

theorem report_some {bd : Band} {f : Fit} (h : report cfg bd f = some res) :
    ¬ nearBounds cfg f.b f.g0 ∧
    res.g0 = (if !cfg.fix then some f.g0 else none) ∧ res.b = (if !cfg.fix then some f.b else none) ∧
    res.W = (if !cfg.codaNorm then some ((eventids bd).zip f.W) else none) ∧
    res.R = (if !cfg.fixSites && !cfg.codaNorm then some ((stations bd).zip f.R) else none) ∧
    res.nstations = f.R.length ∧ res.error = f.err ∧ res.v0 = cfg.v0 := by
  unfold report at h
  simp only at h
  split at h
  · simp at h
  · next hn =>
    simp only [Option.some.injEq] at h
    subst h
    exact ⟨hn, rfl, rfl, rfl, rfl, rfl, rfl, rfl⟩

/-- A result with free site responses comes from a free fit. -/
theorem free_result (hwls : IsWls rank wls) (hG : OneValuePerTime G) (hin : GoodInput cfg ps)
    (hc : cfg.codaNorm = false) (hfs : cfg.fixSites = false)
    (h : solveBand wls G minimize cfg (bandOf cfg.bulk ps) = .ok (some res)) :
    ∃ (f : Fit) (gs : List (List ℝ × ℝ)), attenuation cfg res = (some f.g0, some f.b) ∧
      res.R = some ((stations (bandOf cfg.bulk ps)).zip f.R) ∧
      res.W = some ((eventids (bandOf cfg.bulk ps)).zip f.W) ∧
      res.error = f.err ∧ res.nstations = f.R.length ∧
      IsGreens G cfg f.g0 ps gs ∧ (∀ p ∈ ps, p.coda ≠ []) ∧
      (∀ s ∈ samplesOf cfg.bulk ps gs, 0 < s.E ∧ 0 < s.G) ∧
      FreeFit rank cfg ps (samplesOf cfg.bulk ps gs) f := by
  obtain ⟨f, g0, bFix, hf, hr, hb⟩ := solveBand_ok h
  rw [hfs, Bool.and_false] at hf
  obtain ⟨gs, Rfix, h1, h2, h3, h4, -, -, h5⟩ := lstsq_ok hin.pairs hG (by simp) hf
  obtain ⟨-, r1, r2, r3, r4, r5, r6, -⟩ := report_some hr
  simp only [Bool.false_eq_true, if_false] at h5
  obtain ⟨k1, k2, k3⟩ := free_fit hwls hc hfs hin.R0 hin.some_pair hin.weights h2 h3 h4
    (by intro hfx; rw [if_neg (by simp [hfx])] at hb; exact hb) h5
  rw [← k1] at h1
  refine ⟨f, gs, ?_, ?_, ?_, r6, r5, h1, h3, h4, k3⟩
  · unfold attenuation
    cases hfx : cfg.fix with
    | true =>
      rw [hfx] at hb
      simp only [if_true] at hb ⊢
      rw [hb.1, k1, k2 hfx]
    | false => simp [r1, r2, hfx]
  · rw [r4, hc, hfs]; simp
  · rw [r3, hc]; simp

theorem zip_keys {ks : List String} {vs : List ℝ} (h : vs.length = ks.length) :
    Dict.keys (ks.zip vs) = ks := by
  unfold Dict.keys
  rw [List.map_fst_zip (by omega)]

end InvertFb

/-- **C13**: the reported site responses, source energies and attenuation are the best fit in the
documented sense.  There is one site response per station and one source energy per event, and no
other positive site responses, source energies and (unless it is fixed) attenuation have a smaller
weighted logarithmic misfit between observed energies and `G R W exp(-b t)`, where `G` is Green's
function for the reported (or fixed) scattering coefficient.  This holds for every list of pairs
(any number of events and stations, missing combinations), with or without bulk windows. -/
theorem C13_reported_values_are_best_fit (hwls : IsWls rank wls) (hG : OneValuePerTime G)
    (hin : GoodInput cfg ps) (hc : cfg.codaNorm = false) (hfs : cfg.fixSites = false)
    (h : solveBand wls G minimize cfg (bandOf cfg.bulk ps) = .ok (some res)) :
    ∃ (g0 b : ℝ) (R W : Dict String ℝ) (gs : List (List ℝ × ℝ)),
      attenuation cfg res = (some g0, some b) ∧ res.R = some R ∧ res.W = some W ∧
      R.keys.Nodup ∧ (∀ s, s ∈ R.keys ↔ ∃ p ∈ ps, p.station = s) ∧
      W.keys.Nodup ∧ (∀ e, e ∈ W.keys ↔ ∃ p ∈ ps, p.event = e) ∧
      (∀ s ∈ R.keys, 0 < valueOf R s) ∧ (∀ e ∈ W.keys, 0 < valueOf W e) ∧
      IsGreens G cfg g0 ps gs ∧
      ∀ (R' W' : String → ℝ) (b' : ℝ), (∀ s, 0 < R' s) → (∀ e, 0 < W' e) →
        (cfg.fix = true → b' = b) →
        misfit (samplesOf cfg.bulk ps gs) (valueOf R) (valueOf W) b ≤
          misfit (samplesOf cfg.bulk ps gs) R' W' b' := by
  obtain ⟨f, gs, h1, h2, h3, h4, h5, h6, h7, h8, h9⟩ := free_result hwls hG hin hc hfs h
  refine ⟨f.g0, f.b, _, _, gs, h1, h2, h3, ?_, ?_, ?_, ?_, ?_, ?_, h6, h9.best⟩
  · rw [zip_keys h9.lenR]; exact fromKeys_nodup _
  · intro s; rw [zip_keys h9.lenR]; exact mem_stations
  · rw [zip_keys h9.lenW]; exact fromKeys_nodup _
  · intro e; rw [zip_keys h9.lenW]; exact mem_eventids
  · rw [zip_keys h9.lenR]; exact h9.posR
  · rw [zip_keys h9.lenW]; exact h9.posW

open Classical in
/-- **C13**: the reported error is the root of this misfit divided by the number of data minus the
rank of the system; it is infinite if a free attenuation or scattering coefficient is out of
bounds. -/
theorem C13_reported_error (hwls : IsWls rank wls) (hG : OneValuePerTime G)
    (hin : GoodInput cfg ps) (hc : cfg.codaNorm = false) (hfs : cfg.fixSites = false)
    (h : solveBand wls G minimize cfg (bandOf cfg.bulk ps) = .ok (some res)) :
    ∃ (g0 b : ℝ) (R W : Dict String ℝ) (gs : List (List ℝ × ℝ)) (rk : ℕ),
      attenuation cfg res = (some g0, some b) ∧ res.R = some R ∧ res.W = some W ∧
      IsGreens G cfg g0 ps gs ∧
      res.error = if cfg.fix = false ∧ outside cfg b g0 then ⊤ else
        ((sqrt (misfit (samplesOf cfg.bulk ps gs) (valueOf R) (valueOf W) b /
          ((samplesOf cfg.bulk ps gs).length - rk)) : ℝ) : WithTop ℝ) := by
  obtain ⟨f, gs, h1, h2, h3, h4, h5, h6, h7, h8, h9⟩ := free_result hwls hG hin hc hfs h
  exact ⟨f.g0, f.b, _, _, gs, _, h1, h2, h3, h6, by rw [h4, h9.err]⟩

/-- **C14**: with free site responses the geometric mean of the reported site responses is `R0`,
and the number of stations is the number of reported site responses. -/
theorem C14_geometric_mean_is_R0 (hwls : IsWls rank wls) (hG : OneValuePerTime G)
    (hin : GoodInput cfg ps) (hc : cfg.codaNorm = false) (hfs : cfg.fixSites = false)
    (h : solveBand wls G minimize cfg (bandOf cfg.bulk ps) = .ok (some res)) :
    ∃ R : Dict String ℝ, res.R = some R ∧ geoMean (R.map Prod.snd) = cfg.R0 ∧
      res.nstations = R.length := by
  obtain ⟨f, gs, h1, h2, h3, h4, h5, h6, h7, h8, h9⟩ := free_result hwls hG hin hc hfs h
  refine ⟨_, h2, ?_, ?_⟩
  · rw [List.map_snd_zip (by rw [h9.lenR]), ← exp_mean_log _ h9.allPosR, h9.geo, exp_log hin.R0]
  · rw [h5, List.length_zip, h9.lenR]; simp

/-- **C17**: whenever a band reports a result, attenuation and scattering coefficient (reported or
fixed) are inside the bounds, with a margin of one per cent. -/
theorem C17_result_inside_bounds {bd : Band}
    (h : solveBand wls G minimize cfg bd = .ok (some res)) :
    ∃ g0 b, attenuation cfg res = (some g0, some b) ∧
      (∀ lo hi, cfg.bBounds = some (lo, hi) → 1.01 * lo < b ∧ b < 0.99 * hi) ∧
      (∀ lo hi, cfg.g0Bounds = some (lo, hi) → 1.01 * lo < g0 ∧ g0 < 0.99 * hi) := by
  obtain ⟨f, g0, bFix, hf, hr, hb⟩ := solveBand_ok h
  obtain ⟨rs, -, hf⟩ := bind_ok.1 hf
  obtain ⟨Rf, -, hf⟩ := bind_ok.1 hf
  obtain ⟨Ga, -, hf⟩ := bind_ok.1 hf
  obtain ⟨rn, r1, r2, -⟩ := report_some hr
  have hfit : f.g0 = g0 ∧ (cfg.fix = true → bFix = some f.b) := by
    simp only [bind, Except.bind, throw, throwThe, MonadExceptOf.throw, pure, Except.pure] at hf
    split at hf
    · simp at hf
    · split at hf
      · simp at hf
      · unfold fitOf at hf
        simp only at hf
        cases hfx : cfg.fix with
        | true =>
          rw [hfx] at hf
          simp only [if_true] at hf
          split at hf
          · simp at hf
          · cases bFix with
            | none => simp at hf
            | some bf =>
              simp only [Except.ok.injEq] at hf
              subst hf; simp
        | false =>
          rw [hfx] at hf
          simp only [Bool.false_eq_true, if_false, Except.ok.injEq] at hf
          subst hf; simp
  refine ⟨f.g0, f.b, ?_, ?_, ?_⟩
  · unfold attenuation
    cases hfx : cfg.fix with
    | true =>
      rw [hfx] at hb
      simp only [if_true] at hb ⊢
      rw [hb.1, hfit.1, hfit.2 hfx]
    | false => simp [r1, r2, hfx]
  · intro lo hi hbb
    by_contra hn
    exact rn (Or.inl ⟨_, hbb, hn⟩)
  · intro lo hi hbb
    by_contra hn
    exact rn (Or.inr ⟨_, hbb, hn⟩)

/-- Conversely a fit is only suppressed because of the bounds (or because the fixed
parameters are missing). -/
theorem InvertFb.suppressed_bandFit {bd : Band}
    (h : solveBand wls G minimize cfg bd = .ok none) :
    (cfg.fix = true ∧ (cfg.fixParams.1 = none ∨ cfg.fixParams.2 = none)) ∨
    ∃ f, bandFit wls G minimize cfg bd = .ok (some f) ∧
      ((∃ lo hi, cfg.bBounds = some (lo, hi) ∧ ¬ (1.01 * lo < f.b ∧ f.b < 0.99 * hi)) ∨
      (∃ lo hi, cfg.g0Bounds = some (lo, hi) ∧ ¬ (1.01 * lo < f.g0 ∧ f.g0 < 0.99 * hi))) := by
  unfold solveBand at h
  obtain ⟨of, hf, h⟩ := bind_ok.1 h
  simp only [pure, Except.pure, Except.ok.injEq] at h
  cases of with
  | some f =>
    right
    refine ⟨f, hf, ?_⟩
    simp only [Option.bind_some] at h
    unfold report at h
    simp only at h
    split at h
    · next hn =>
      rcases hn with ⟨⟨lo, hi⟩, h1, h2⟩ | ⟨⟨lo, hi⟩, h1, h2⟩
      · exact Or.inl ⟨lo, hi, h1, h2⟩
      · exact Or.inr ⟨lo, hi, h1, h2⟩
    · simp at h
  | none =>
    left
    unfold bandFit at hf
    cases hfx : cfg.fix with
    | true =>
      rw [hfx] at hf
      simp only [if_true] at hf
      refine ⟨rfl, ?_⟩
      split at hf
      · obtain ⟨f', hf', h'⟩ := bind_ok.1 hf
        simp [pure, Except.pure] at h'
      · next hno =>
        cases h1 : cfg.fixParams.1 with
        | none => exact Or.inl rfl
        | some a =>
          cases h2 : cfg.fixParams.2 with
          | none => exact Or.inr rfl
          | some b => exact absurd h2 (hno a b h1)
    | false =>
      exfalso
      rw [hfx] at hf
      simp only [Bool.false_eq_true, if_false] at hf
      split at hf
      · obtain ⟨x, hx, hf⟩ := bind_ok.1 hf
        obtain ⟨f', hf', h'⟩ := bind_ok.1 hf
        simp [pure, Except.pure] at h'
      · split at hf
        · obtain ⟨f', hf', h'⟩ := bind_ok.1 hf
          simp [pure, Except.pure] at h'
        · simp at hf

/-! ## C16 -/

/-- The scattering coefficient at which the linear inversion is evaluated: the fixed one, the
result of the optimisation, or the middle of the bounds. -/
def EvaluatedAt (wls : List ℝ → List (List ℝ) → List ℝ → List ℝ × ℝ) (G : Greens)
    (minimize : (ℝ → Py (WithTop ℝ)) → Py ℝ) (cfg : Cfg) (bd : Band) (g0 b : ℝ) : Prop :=
  if cfg.fix then cfg.fixParams = (some g0, some b)
  else if cfg.optimize then minimize (objective wls G cfg bd) = .ok g0
  else ∃ lo hi, cfg.g0Bounds = some (lo, hi) ∧ (lo + hi) / 2 = g0

/-- Attenuation and scattering coefficient are inside the bounds with a margin. -/
def InsideBounds (cfg : Cfg) (g0 b : ℝ) : Prop :=
  (∀ lo hi, cfg.bBounds = some (lo, hi) → 0 ≤ lo ∧ 1.01 * lo < b ∧ b < 0.99 * hi) ∧
  (∀ lo hi, cfg.g0Bounds = some (lo, hi) → 0 ≤ lo ∧ 1.01 * lo < g0 ∧ g0 < 0.99 * hi)

namespace InvertFb

theorem siteRefs_free (hfs : cfg.fixSites = false) (bd : Band) : siteRefs cfg bd = .ok [] := by
  simp [siteRefs, hfs]

theorem siteRefsShort_free (hfs : cfg.fixSites = false) (bd : Band) :
    siteRefsShort cfg bd = .ok [] := by
  simp [siteRefsShort, hfs]

theorem fitOf_some {bd : Band} {g0 : ℝ} {bFix : Option ℝ} {fs : Bool} {Rf : List ℝ}
    {sol : List ℝ × ℝ} (hc : cfg.codaNorm = false) (hb : cfg.fix = true → bFix.isSome) :
    ∃ f, fitOf cfg bd g0 bFix fs Rf sol = .ok f := by
  unfold fitOf
  simp only [hc, Bool.false_eq_true, if_false]
  cases hfx : cfg.fix with
  | true =>
    cases hbf : bFix with
    | none => rw [hbf] at hb; simp [hfx] at hb
    | some b => exact ⟨_, rfl⟩
  | false => exact ⟨_, rfl⟩

open Classical in
/-- The linear inversion of exact data, the misfit is infinite outside of the bounds. -/
theorem lstsq_exact_bounds (hwls : IsWls rank wls) (hin : GoodInput cfg ps)
    (hc : cfg.codaNorm = false) (hfs : cfg.fixSites = false) {g0 b : ℝ}
    {gs : List (List ℝ × ℝ)} (hgr : IsGreens G cfg g0 ps gs) (hne : ∀ p ∈ ps, p.coda ≠ [])
    (hGpos : ∀ s ∈ samplesOf cfg.bulk ps gs, 0 < s.G)
    {R W : String → ℝ} (hR : ∀ p ∈ ps, 0 < R p.station) (hW : ∀ p ∈ ps, 0 < W p.event)
    (hexact : ∀ s ∈ samplesOf cfg.bulk ps gs, s.E = predicted R W b s)
    (hgeo : meanLogR ps cfg.bulk R = log cfg.R0)
    (hcon : ConnectedPairs ps) (htw : cfg.fix = false → TwoTimes ps) :
    lstsq wls G cfg (bandOf cfg.bulk ps) g0 (if cfg.fix then some b else none) false =
      .ok ⟨if cfg.fix = false ∧ outside cfg b g0 then ⊤ else 0, g0, b,
        (eventids (bandOf cfg.bulk ps)).map W, (stations (bandOf cfg.bulk ps)).map R⟩ := by
  have hl := isGreens_len hgr
  have hpos : ∀ s ∈ samplesOf cfg.bulk ps gs, 0 < s.E ∧ 0 < s.G := by
    intro s hs
    refine ⟨?_, hGpos s hs⟩
    obtain ⟨p, hp, h1, h2⟩ := mem_samplesOf hl hs
    rw [hexact s hs, predicted, ← h1, ← h2]
    have := hGpos s hs
    have := hR p hp
    have := hW p hp
    positivity
  rw [lstsq_eq hin.pairs hne hgr hpos (siteRefs_free hfs _) (siteRefsShort_free hfs _) (by simp)]
  obtain ⟨f, hf⟩ := fitOf_some (cfg := cfg) (bd := bandOf cfg.bulk ps) (g0 := g0)
    (bFix := if cfg.fix then some b else none) (fs := false) (Rf := [])
    (sol := wls ((samplesOf cfg.bulk ps gs).map Sample.w)
      ((samplesOf cfg.bulk ps gs).map (rowOf cfg (bandOf cfg.bulk ps)))
      ((samplesOf cfg.bulk ps gs).map (target (if cfg.fix then some b else none)
        (if false then some (refOf cfg) else none)))) hc (by intro h; simp [h])
  rw [hf]
  simp only [Bool.false_eq_true, if_false] at hf
  obtain ⟨k1, k2, k3⟩ := free_fit hwls hc hfs hin.R0 hin.some_pair hin.weights hl hne hpos
    (by intro hfx; simp [hfx]) hf
  have hzero : misfit (samplesOf cfg.bulk ps gs) R W b = 0 := by
    unfold misfit
    rw [sum_map_congr (g := fun _ => (0:ℝ)) (by intro s hs; rw [hexact s hs]; ring)]
    simp
  have hnn : 0 ≤ misfit (samplesOf cfg.bulk ps gs)
      (valueOf ((stations (bandOf cfg.bulk ps)).zip f.R))
      (valueOf ((eventids (bandOf cfg.bulk ps)).zip f.W)) f.b :=
    sum_map_nonneg (fun s hs => mul_nonneg (weight_nonneg hl hin.weights hs) (sq_nonneg _))
  have hbf : cfg.fix = true → b = f.b := by
    intro hfx
    have := k2 hfx
    rw [if_pos hfx] at this
    simpa using this
  obtain ⟨u1, u2, u3⟩ := fit_unique hin.some_pair hl hin.weights hne hpos k3 hcon htw hR hW hbf hgeo
    (by rw [hzero]; exact hnn)
  -- the misfit of the fit is zero
  have hRl : ∀ p ∈ ps, valueOf ((stations (bandOf cfg.bulk ps)).zip f.R) p.station = R p.station := by
    intro p hp
    have hm : p.station ∈ stations (bandOf cfg.bulk ps) := mem_stations.2 ⟨p, hp, rfl⟩
    rw [valueOf, get?_zip _ _ _ k3.lenR, u2, List.getElem?_map,
      List.getElem?_eq_getElem (List.idxOf_lt_length_iff.2 hm)]
    simp
  have hWl : ∀ p ∈ ps, valueOf ((eventids (bandOf cfg.bulk ps)).zip f.W) p.event = W p.event := by
    intro p hp
    have hm : p.event ∈ eventids (bandOf cfg.bulk ps) := mem_eventids.2 ⟨p, hp, rfl⟩
    rw [valueOf, get?_zip _ _ _ k3.lenW, u3, List.getElem?_map,
      List.getElem?_eq_getElem (List.idxOf_lt_length_iff.2 hm)]
    simp
  have hmis : misfit (samplesOf cfg.bulk ps gs)
      (valueOf ((stations (bandOf cfg.bulk ps)).zip f.R))
      (valueOf ((eventids (bandOf cfg.bulk ps)).zip f.W)) f.b = 0 := by
    rw [← hzero]
    unfold misfit
    apply sum_map_congr
    intro s hs
    obtain ⟨p, hp, h1, h2⟩ := mem_samplesOf hl hs
    rw [predicted, predicted, ← h1, ← h2, hRl p hp, hWl p hp, u1]
  have herr : f.err = if cfg.fix = false ∧ outside cfg b g0 then ⊤ else 0 := by
    rw [k3.err, hmis, zero_div, sqrt_zero, ← u1, k1]
    rfl
  obtain ⟨e, g, b', W', R'⟩ := f
  simp only at herr k1 u1 u2 u3
  subst herr k1 u1 u2 u3
  rfl

/-- The linear inversion of exact data. -/
theorem lstsq_exact (hwls : IsWls rank wls) (hin : GoodInput cfg ps)
    (hc : cfg.codaNorm = false) (hfs : cfg.fixSites = false) {g0 b : ℝ}
    {gs : List (List ℝ × ℝ)} (hgr : IsGreens G cfg g0 ps gs) (hne : ∀ p ∈ ps, p.coda ≠ [])
    (hGpos : ∀ s ∈ samplesOf cfg.bulk ps gs, 0 < s.G)
    {R W : String → ℝ} (hR : ∀ p ∈ ps, 0 < R p.station) (hW : ∀ p ∈ ps, 0 < W p.event)
    (hexact : ∀ s ∈ samplesOf cfg.bulk ps gs, s.E = predicted R W b s)
    (hgeo : meanLogR ps cfg.bulk R = log cfg.R0)
    (hcon : ConnectedPairs ps) (htw : cfg.fix = false → TwoTimes ps)
    (hout : ¬ outside cfg b g0) :
    lstsq wls G cfg (bandOf cfg.bulk ps) g0 (if cfg.fix then some b else none) false =
      .ok ⟨0, g0, b, (eventids (bandOf cfg.bulk ps)).map W, (stations (bandOf cfg.bulk ps)).map R⟩ := by
  have h := lstsq_exact_bounds hwls hin hc hfs hgr hne hGpos hR hW hexact hgeo hcon htw
  rw [if_neg (c := cfg.fix = false ∧ outside cfg b g0) (fun h => hout h.2)] at h
  exact h

end InvertFb

/-- **C16**: exact recovery.  If the observed energies are exactly `G R W exp(-b t)` with geometric
mean of the site responses equal to `R0`, stations connected by common events and (if attenuation
is not fixed) samples at two different times in one window, then the inversion at the right
scattering coefficient returns exactly these values with zero error. -/
theorem C16_exact_recovery (hwls : IsWls rank wls) (hin : GoodInput cfg ps)
    (hc : cfg.codaNorm = false) (hfs : cfg.fixSites = false) {g0 b : ℝ}
    {gs : List (List ℝ × ℝ)} (hgr : IsGreens G cfg g0 ps gs) (hne : ∀ p ∈ ps, p.coda ≠ [])
    (hGpos : ∀ s ∈ samplesOf cfg.bulk ps gs, 0 < s.G)
    {R W : String → ℝ} (hR : ∀ p ∈ ps, 0 < R p.station) (hW : ∀ p ∈ ps, 0 < W p.event)
    (hexact : ∀ s ∈ samplesOf cfg.bulk ps gs, s.E = predicted R W b s)
    (hgeo : (∏ s ∈ (ps.map PairData.station).toFinset, R s) ^
      (1 / ((ps.map PairData.station).toFinset.card : ℝ)) = cfg.R0)
    (hcon : ConnectedPairs ps) (htw : cfg.fix = false → TwoTimes ps)
    (hev : EvaluatedAt wls G minimize cfg (bandOf cfg.bulk ps) g0 b)
    (hbd : InsideBounds cfg g0 b) :
    ∃ res R' W', solveBand wls G minimize cfg (bandOf cfg.bulk ps) = .ok (some res) ∧
      attenuation cfg res = (some g0, some b) ∧ res.error = 0 ∧
      res.R = some R' ∧ (∀ p ∈ ps, R'.get? p.station = some (R p.station)) ∧
      res.W = some W' ∧ (∀ p ∈ ps, W'.get? p.event = some (W p.event)) := by
  have hfin : (ps.map PairData.station).toFinset = (stations (bandOf cfg.bulk ps)).toFinset := by
    ext s
    rw [List.mem_toFinset, List.mem_toFinset, mem_stations]
    simp
  have hnd : (stations (bandOf cfg.bulk ps)).Nodup := fromKeys_nodup _
  have hgeo' : meanLogR ps cfg.bulk R = log cfg.R0 := by
    have hposl : ∀ x ∈ (stations (bandOf cfg.bulk ps)).map R, 0 < x := by
      intro x hx
      obtain ⟨s, hs, rfl⟩ := List.mem_map.1 hx
      obtain ⟨p, hp, rfl⟩ := mem_stations.1 hs
      exact hR p hp
    rw [hfin, List.toFinset_card_of_nodup hnd, List.prod_toFinset _ hnd] at hgeo
    have := exp_mean_log _ hposl
    rw [geoMean, List.length_map, hgeo, List.map_map] at this
    rw [← this, log_exp]
    rfl
  have hout : ¬ outside cfg b g0 := by
    rintro (⟨⟨lo, hi⟩, h1, h2⟩ | ⟨⟨lo, hi⟩, h1, h2⟩)
    · obtain ⟨h3, h4, h5⟩ := hbd.1 lo hi h1
      have hb0 : 0 < b := by linarith
      exact h2 ⟨by simp only; linarith, by simp only; linarith⟩
    · obtain ⟨h3, h4, h5⟩ := hbd.2 lo hi h1
      have hb0 : 0 < g0 := by linarith
      exact h2 ⟨by simp only; linarith, by simp only; linarith⟩
  have hl := lstsq_exact hwls hin hc hfs hgr hne hGpos hR hW hexact hgeo' hcon htw hout
  have hfit : bandFit wls G minimize cfg (bandOf cfg.bulk ps) = .ok (some
      ⟨0, g0, b, (eventids (bandOf cfg.bulk ps)).map W, (stations (bandOf cfg.bulk ps)).map R⟩) := by
    unfold bandFit
    unfold EvaluatedAt at hev
    by_cases hfx : cfg.fix = true
    · rw [if_pos hfx] at hev hl ⊢
      rw [hev]
      simp only [hfs, hl]
      rfl
    · rw [if_neg hfx] at hev hl ⊢
      by_cases ho : cfg.optimize = true
      · rw [if_pos ho] at hev ⊢
        rw [hev]
        simp only [bind, Except.bind, hl]
        rfl
      · rw [if_neg ho] at hev ⊢
        obtain ⟨lo, hi, h1, h2⟩ := hev
        rw [h1]
        simp only [h2, hl]
        rfl
  have hnear : ¬ nearBounds cfg b g0 := by
    rintro (⟨⟨lo, hi⟩, h1, h2⟩ | ⟨⟨lo, hi⟩, h1, h2⟩)
    · exact h2 (hbd.1 lo hi h1).2
    · exact h2 (hbd.2 lo hi h1).2
  have hsb : solveBand wls G minimize cfg (bandOf cfg.bulk ps) = .ok (report cfg (bandOf cfg.bulk ps)
      ⟨0, g0, b, (eventids (bandOf cfg.bulk ps)).map W, (stations (bandOf cfg.bulk ps)).map R⟩) := by
    unfold solveBand
    rw [hfit]
    rfl
  unfold report at hsb
  simp only [hnear, if_false, hc, hfs, Bool.not_false, Bool.and_self, if_true] at hsb
  refine ⟨_, _, _, hsb, ?_, rfl, rfl, ?_, rfl, ?_⟩
  · unfold attenuation EvaluatedAt at *
    cases hfx : cfg.fix with
    | true => rw [hfx] at hev; simpa using hev
    | false => simp
  · intro p hp
    have hm : p.station ∈ stations (bandOf cfg.bulk ps) := mem_stations.2 ⟨p, hp, rfl⟩
    rw [get?_zip _ _ _ (by simp), List.getElem?_map,
      List.getElem?_eq_getElem (List.idxOf_lt_length_iff.2 hm)]
    simp
  · intro p hp
    have hm : p.event ∈ eventids (bandOf cfg.bulk ps) := mem_eventids.2 ⟨p, hp, rfl⟩
    rw [get?_zip _ _ _ (by simp), List.getElem?_map,
      List.getElem?_eq_getElem (List.idxOf_lt_length_iff.2 hm)]
    simp

/-! ## A case which meets the hypotheses: two events, two stations, one missing combination -/

namespace InvertExample

/-- Constant Green's function. -/
def G1 : Greens := fun _ ts _ _ => .ok (ts.map (fun _ => 1))

/-- Site responses 2 and 1/2. -/
noncomputable def R1 (s : String) : ℝ := if s = "A" then 2 else 1 / 2

/-- Source energies 1 and 3. -/
def W1 (e : String) : ℝ := if e = "e1" then 1 else 3

noncomputable def pair1 (e s : String) : PairData :=
  { event := e, station := s, distance := 1
    coda := [(1, R1 s * W1 e * exp (-1)), (2, R1 s * W1 e * exp (-2))] }

noncomputable def ps1 : List PairData := [pair1 "e1" "A", pair1 "e1" "B", pair1 "e2" "B"]

noncomputable def cfg1 : Cfg :=
  { g0Bounds := some (1 / 2, 3 / 2), bBounds := some (1 / 10, 10), v0 := 3, optimize := false }

theorem good1 : GoodInput cfg1 ps1 where
  pairs := by simp [ps1, pair1, PairData.pair]
  some_pair := by simp [ps1]
  weights := by
    intro p hp
    simp only [ps1, List.mem_cons, List.not_mem_nil, or_false] at hp
    rcases hp with rfl | rfl | rfl <;> simp [pair1]
  R0 := by norm_num [cfg1]

theorem greens1 : IsGreens G1 cfg1 1 ps1 [([1, 1], 0), ([1, 1], 0), ([1, 1], 0)] := by
  simp [IsGreens, ps1, pair1, gsmooth, smoothFunc, cfg1, G1]

theorem R1_pos (s : String) : 0 < R1 s := by unfold R1; split <;> norm_num
theorem W1_pos (s : String) : 0 < W1 s := by unfold W1; split <;> norm_num

theorem connected1 : ConnectedPairs ps1 := by
  have hAB : SameEvent ps1 "A" "B" := ⟨pair1 "e1" "A", by simp [ps1], pair1 "e1" "B",
    by simp [ps1], rfl, rfl, rfl⟩
  have hBA : SameEvent ps1 "B" "A" := ⟨pair1 "e1" "B", by simp [ps1], pair1 "e1" "A",
    by simp [ps1], rfl, rfl, rfl⟩
  intro p hp q hq
  simp only [ps1, List.mem_cons, List.not_mem_nil, or_false] at hp hq
  rcases hp with rfl | rfl | rfl <;> rcases hq with rfl | rfl | rfl <;>
    first
    | exact Relation.ReflTransGen.refl
    | exact Relation.ReflTransGen.single hAB
    | exact Relation.ReflTransGen.single hBA

theorem two_times1 : TwoTimes ps1 :=
  ⟨pair1 "e1" "A", by simp [ps1], (1, _), by simp [pair1]; rfl, (2, _),
    by simp [pair1]; rfl, by norm_num⟩

/-- The data of the example are inverted successfully, with the right result. -/
theorem example_result_of (hwls : IsWls rank wls) (minimize : (ℝ → Py (WithTop ℝ)) → Py ℝ) :
    ∃ res R' W', solveBand wls G1 minimize cfg1 (bandOf cfg1.bulk ps1) = .ok (some res) ∧
      attenuation cfg1 res = (some 1, some 1) ∧ res.error = 0 ∧
      res.R = some R' ∧ (∀ p ∈ ps1, R'.get? p.station = some (R1 p.station)) ∧
      res.W = some W' ∧ (∀ p ∈ ps1, W'.get? p.event = some (W1 p.event)) := by
  refine C16_exact_recovery hwls good1 rfl rfl greens1 ?_ ?_ (fun _ _ => R1_pos _)
    (fun _ _ => W1_pos _) ?_ ?_ ?_ ?_ ?_ ?_
  · intro p hp
    simp only [ps1, List.mem_cons, List.not_mem_nil, or_false] at hp
    rcases hp with rfl | rfl | rfl <;> simp [pair1]
  · intro s hs
    simp only [samplesOf, ps1, pair1, cfg1] at hs
    simp at hs
    rcases hs with rfl | rfl | rfl | rfl | rfl | rfl <;> norm_num
  · intro s hs
    simp only [samplesOf, ps1, pair1, cfg1] at hs
    simp at hs
    rcases hs with rfl | rfl | rfl | rfl | rfl | rfl <;> simp [predicted]
  · have : ((ps1.map PairData.station).toFinset) = {"A", "B"} := by
      simp [ps1, pair1]
    rw [this, Finset.prod_pair (by decide), Finset.card_pair (by decide)]
    simp [R1, cfg1]
  · exact connected1
  · exact fun _ => two_times1
  · unfold EvaluatedAt
    simp only [cfg1, Bool.false_eq_true, if_false]
    exact ⟨_, _, rfl, by norm_num⟩
  · constructor
    · intro lo hi h
      simp only [cfg1, Option.some.injEq, Prod.mk.injEq] at h
      rw [← h.1, ← h.2]; norm_num
    · intro lo hi h
      simp only [cfg1, Option.some.injEq, Prod.mk.injEq] at h
      rw [← h.1, ← h.2]; norm_num

theorem example_result (minimize : (ℝ → Py (WithTop ℝ)) → Py ℝ) :
    ∃ res R' W', solveBand someWls G1 minimize cfg1 (bandOf cfg1.bulk ps1) = .ok (some res) ∧
      attenuation cfg1 res = (some 1, some 1) ∧ res.error = 0 ∧
      res.R = some R' ∧ (∀ p ∈ ps1, R'.get? p.station = some (R1 p.station)) ∧
      res.W = some W' ∧ (∀ p ∈ ps1, W'.get? p.event = some (W1 p.event)) :=
  example_result_of someWls_spec minimize

theorem one_value_G1 : OneValuePerTime G1 := by
  intro r ts v g l h
  simp only [G1, Except.ok.injEq] at h
  rw [← h]; simp

example (minimize : (ℝ → Py (WithTop ℝ)) → Py ℝ) : ∃ res,
    solveBand someWls G1 minimize cfg1 (bandOf cfg1.bulk ps1) = .ok (some res) ∧
    ∃ R : Dict String ℝ, res.R = some R ∧ geoMean (R.map Prod.snd) = 1 ∧ res.nstations = R.length := by
  obtain ⟨res, R', W', h, -⟩ := example_result minimize
  exact ⟨res, h, C14_geometric_mean_is_R0 someWls_spec one_value_G1 good1 rfl rfl h⟩

end InvertExample

end Qopen
