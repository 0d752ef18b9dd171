import Verif.Props.Invert

/-!
# C17: which bands are skipped

The attenuation which is compared with the bounds is described by the result of the same inversion
without bounds.
-/

namespace Qopen
open Real InvertFb Spec
variable {wls : List ℝ → List (List ℝ) → List ℝ → List ℝ × ℝ} {G : Greens}
  {minimize : (ℝ → Py (WithTop ℝ)) → Py ℝ} {cfg : Cfg}


/-- The configuration without bounds. -/
def withoutBounds (cfg : Cfg) : Cfg := { cfg with bBounds := none, g0Bounds := none, optimize := true }

namespace InvertFb

theorem fitOf_withoutBounds {bd : Band} {g0 : ℝ} {bFix : Option ℝ} {fs : Bool} {Rf : List ℝ}
    {sol : List ℝ × ℝ} {f : Fit} (h : fitOf cfg bd g0 bFix fs Rf sol = .ok f) :
    ∃ e, fitOf (withoutBounds cfg) bd g0 bFix fs Rf sol = .ok { f with err := e } := by
  have hd : decode (withoutBounds cfg) bd fs Rf sol.1 = decode cfg bd fs Rf sol.1 := rfl
  have hf : (withoutBounds cfg).fix = cfg.fix := rfl
  have hc : (withoutBounds cfg).codaNorm = cfg.codaNorm := rfl
  unfold fitOf at h ⊢
  simp only [hd, hf, hc] at h ⊢
  cases hfx : cfg.fix with
  | true =>
    rw [hfx] at h
    simp only [if_true] at h ⊢
    split at h
    · simp at h
    · next hcn =>
      rw [if_neg hcn]
      cases bFix with
      | none => simp at h
      | some b =>
        simp only [Except.ok.injEq] at h ⊢
        subst h
        exact ⟨_, rfl⟩
  | false =>
    rw [hfx] at h
    simp only [Bool.false_eq_true, if_false, Except.ok.injEq] at h ⊢
    subst h
    exact ⟨_, rfl⟩

theorem fitOf_withBounds {bd : Band} {g0 : ℝ} {bFix : Option ℝ} {fs : Bool} {Rf : List ℝ}
    {sol : List ℝ × ℝ} {f : Fit} (h : fitOf (withoutBounds cfg) bd g0 bFix fs Rf sol = .ok f) :
    ∃ e, fitOf cfg bd g0 bFix fs Rf sol = .ok { f with err := e } := by
  have hd : decode (withoutBounds cfg) bd fs Rf sol.1 = decode cfg bd fs Rf sol.1 := rfl
  have hf : (withoutBounds cfg).fix = cfg.fix := rfl
  have hc : (withoutBounds cfg).codaNorm = cfg.codaNorm := rfl
  unfold fitOf at h ⊢
  simp only [hd, hf, hc] at h ⊢
  cases hfx : cfg.fix with
  | true =>
    rw [hfx] at h
    simp only [if_true] at h ⊢
    split at h
    · simp at h
    · next hcn =>
      rw [if_neg hcn]
      cases bFix with
      | none => simp at h
      | some b =>
        simp only [Except.ok.injEq] at h ⊢
        subst h
        exact ⟨_, rfl⟩
  | false =>
    rw [hfx] at h
    simp only [Bool.false_eq_true, if_false, Except.ok.injEq] at h ⊢
    subst h
    exact ⟨_, rfl⟩

theorem lstsq_withoutBounds {bd : Band} {g0 : ℝ} {bFix : Option ℝ} {fs : Bool} {f : Fit}
    (h : lstsq wls G cfg bd g0 bFix fs = .ok f) :
    ∃ e, lstsq wls G (withoutBounds cfg) bd g0 bFix fs = .ok { f with err := e } := by
  unfold lstsq at h ⊢
  have e1 : siteRefs (withoutBounds cfg) bd = siteRefs cfg bd := rfl
  have e2 : siteRefsShort (withoutBounds cfg) bd = siteRefsShort cfg bd := rfl
  have e3 : greensAll G (withoutBounds cfg) bd g0 = greensAll G cfg bd g0 := rfl
  obtain ⟨rs, h1, h⟩ := bind_ok.1 h
  obtain ⟨Rf, h2, h⟩ := bind_ok.1 h
  obtain ⟨Ga, h3, h⟩ := bind_ok.1 h
  rw [e1, e2, e3]
  simp only [h1, h2, h3, bind, Except.bind, throw, throwThe, MonadExceptOf.throw] at h ⊢
  split at h
  · simp at h
  · next g1 =>
    split at h
    · simp at h
    · next g2 =>
      rw [if_neg g1, if_neg g2]
      exact fitOf_withoutBounds h

theorem lstsq_withBounds {bd : Band} {g0 : ℝ} {bFix : Option ℝ} {fs : Bool} {f : Fit}
    (h : lstsq wls G (withoutBounds cfg) bd g0 bFix fs = .ok f) :
    ∃ e, lstsq wls G cfg bd g0 bFix fs = .ok { f with err := e } := by
  unfold lstsq at h ⊢
  have e1 : siteRefs (withoutBounds cfg) bd = siteRefs cfg bd := rfl
  have e2 : siteRefsShort (withoutBounds cfg) bd = siteRefsShort cfg bd := rfl
  have e3 : greensAll G (withoutBounds cfg) bd g0 = greensAll G cfg bd g0 := rfl
  obtain ⟨rs, h1, h⟩ := bind_ok.1 h
  obtain ⟨Rf, h2, h⟩ := bind_ok.1 h
  obtain ⟨Ga, h3, h⟩ := bind_ok.1 h
  rw [e1] at h1
  rw [e2] at h2
  rw [e3] at h3
  simp only [h1, h2, h3, bind, Except.bind, throw, throwThe, MonadExceptOf.throw] at h ⊢
  split at h
  · simp at h
  · next g1 =>
    split at h
    · simp at h
    · next g2 =>
      rw [if_neg g1, if_neg g2]
      exact fitOf_withBounds h

theorem lstsq_fields {bd : Band} {g0 : ℝ} {bFix : Option ℝ} {fs : Bool} {f : Fit}
    (h : lstsq wls G cfg bd g0 bFix fs = .ok f) : f.g0 = g0 ∧ (cfg.fix = true → bFix = some f.b) := by
  unfold lstsq at h
  obtain ⟨rs, -, hf⟩ := bind_ok.1 h
  obtain ⟨Rf, -, hf⟩ := bind_ok.1 hf
  obtain ⟨Ga, -, hf⟩ := bind_ok.1 hf
  simp only [bind, Except.bind, throw, throwThe, MonadExceptOf.throw] at hf
  split at hf
  · simp at hf
  · split at hf
    · simp at hf
    · unfold fitOf at hf
      simp only at hf
      cases hfx : cfg.fix with
      | true =>
        rw [hfx] at hf
        simp only [if_true] at hf
        split at hf
        · simp at hf
        · cases bFix with
          | none => simp at hf
          | some bf =>
            simp only [Except.ok.injEq] at hf
            subst hf; simp
      | false =>
        rw [hfx] at hf
        simp only [Bool.false_eq_true, if_false, Except.ok.injEq] at hf
        subst hf; simp

theorem report_withoutBounds (bd : Band) (f : Fit) : ∃ res, report (withoutBounds cfg) bd f = some res ∧
    res.g0 = (if !cfg.fix then some f.g0 else none) ∧ res.b = (if !cfg.fix then some f.b else none) := by
  have hn : ¬ nearBounds (withoutBounds cfg) f.b f.g0 := by
    rintro (⟨_, h, -⟩ | ⟨_, h, -⟩) <;> simp [withoutBounds] at h
  unfold report
  simp only
  rw [if_neg hn]
  exact ⟨_, rfl, rfl, rfl⟩

end InvertFb

/-- **C17**: a band is skipped if and only if fixed parameters are missing or the attenuation is too
close to the bounds.  The attenuation is the one which the inversion without bounds gives for the value
of `g0` (fixed value, result of the optimisation, or middle of the bounds). -/
theorem C17_suppressed_iff {bd : Band} :
    solveBand wls G minimize cfg bd = .ok none ↔
    (cfg.fix = true ∧ (cfg.fixParams.1 = none ∨ cfg.fixParams.2 = none)) ∨
    ∃ g0 b res, EvaluatedAt wls G minimize cfg bd g0 b ∧
      solveBand wls G (fun _ => .ok g0) (withoutBounds cfg) bd = .ok (some res) ∧
      attenuation cfg res = (some g0, some b) ∧
      ((∃ lo hi, cfg.bBounds = some (lo, hi) ∧ (b ≤ 1.01 * lo ∨ 0.99 * hi ≤ b)) ∨
       (∃ lo hi, cfg.g0Bounds = some (lo, hi) ∧ (g0 ≤ 1.01 * lo ∨ 0.99 * hi ≤ g0))) := by
  have hnear : ∀ b g0, nearBounds cfg b g0 ↔
      ((∃ lo hi, cfg.bBounds = some (lo, hi) ∧ (b ≤ 1.01 * lo ∨ 0.99 * hi ≤ b)) ∨
       (∃ lo hi, cfg.g0Bounds = some (lo, hi) ∧ (g0 ≤ 1.01 * lo ∨ 0.99 * hi ≤ g0))) := by
    intro b g0
    unfold nearBounds
    simp only [not_and_or, not_lt, Prod.exists]
  have hrep : ∀ f, report cfg bd f = none ↔ nearBounds cfg f.b f.g0 := by
    intro f
    unfold report
    simp only
    split <;> simp_all
  -- the fit with and without bounds
  have key : ∀ g0 bFix fs, (cfg.fix = true → ∃ b, bFix = some b) →
      ∀ (hw : bandFit wls G (fun _ => .ok g0) (withoutBounds cfg) bd =
        (lstsq wls G (withoutBounds cfg) bd g0 bFix fs).map some),
      (cfg.fix = true → cfg.fixParams = (some g0, bFix)) →
      ((∃ f, lstsq wls G cfg bd g0 bFix fs = .ok f ∧ nearBounds cfg f.b f.g0) ↔
        ∃ b res, solveBand wls G (fun _ => .ok g0) (withoutBounds cfg) bd = .ok (some res) ∧
          attenuation cfg res = (some g0, some b) ∧ nearBounds cfg b g0) := by
    intro g0 bFix fs hb hw hp
    constructor
    · rintro ⟨f, hf, hn⟩
      obtain ⟨e, he⟩ := lstsq_withoutBounds hf
      obtain ⟨hg, hbf⟩ := lstsq_fields hf
      obtain ⟨res, r1, r2, r3⟩ := report_withoutBounds (cfg := cfg) bd { f with err := e }
      refine ⟨f.b, res, ?_, ?_, by rw [← hg]; exact hn⟩
      · unfold solveBand
        rw [hw, he]
        simp only [Except.map, bind, Except.bind, pure, Except.pure, Option.bind_some, r1]
      · unfold attenuation
        cases hfx : cfg.fix with
        | true => simp only [if_true]; rw [hp hfx, hbf hfx]
        | false => simp [r2, r3, hfx, hg]
    · rintro ⟨b, res, h1, h2, h3⟩
      unfold solveBand at h1
      rw [hw] at h1
      cases hl : lstsq wls G (withoutBounds cfg) bd g0 bFix fs with
      | error e => rw [hl] at h1; simp [Except.map, bind, Except.bind] at h1
      | ok f =>
        rw [hl] at h1
        simp only [Except.map, bind, Except.bind, pure, Except.pure, Option.bind_some,
          Except.ok.injEq] at h1
        obtain ⟨res', r1, r2, r3⟩ := report_withoutBounds (cfg := cfg) bd f
        obtain rfl : res' = res := by rw [r1] at h1; exact Option.some.inj h1
        obtain ⟨e, he⟩ := lstsq_withBounds hl
        obtain ⟨hg, hbf⟩ := lstsq_fields hl
        refine ⟨_, he, ?_⟩
        have hbb : f.b = b := by
          unfold attenuation at h2
          cases hfx : cfg.fix with
          | true =>
            rw [hfx, if_pos rfl, hp hfx, hbf hfx] at h2
            simpa using h2
          | false =>
            rw [hfx] at h2 r3
            simp only [Bool.false_eq_true, if_false, Prod.mk.injEq] at h2
            rw [r3] at h2
            simpa using h2.2
        simp only [hbb, hg]
        exact h3
  simp only [← hnear]
  cases hfx : cfg.fix with
  | true =>
    cases h1 : cfg.fixParams.1 with
    | none =>
      simp only [true_and, true_or, iff_true]
      unfold solveBand bandFit
      rw [hfx]
      simp [h1, bind, Except.bind, pure, Except.pure]
    | some g0f =>
      cases h2 : cfg.fixParams.2 with
      | none =>
        simp only [true_and, or_true, true_or, iff_true]
        unfold solveBand bandFit
        rw [hfx]
        simp [h1, h2, bind, Except.bind, pure, Except.pure]
      | some bf =>
        have hp : cfg.fixParams = (some g0f, some bf) := Prod.ext h1 h2
        have hs : solveBand wls G minimize cfg bd = .ok none ↔
            ∃ f, lstsq wls G cfg bd g0f (some bf) cfg.fixSites = .ok f ∧ nearBounds cfg f.b f.g0 := by
          unfold solveBand bandFit
          rw [hfx]
          simp only [if_true, h1, h2]
          cases lstsq wls G cfg bd g0f (some bf) cfg.fixSites with
          | error e => simp [bind, Except.bind]
          | ok f => simp [bind, Except.bind, pure, Except.pure, hrep]
        have hk := key g0f (some bf) cfg.fixSites (fun _ => ⟨bf, rfl⟩)
          (by
            unfold bandFit
            rw [show (withoutBounds cfg).fix = cfg.fix from rfl, hfx]
            simp only [if_true, show (withoutBounds cfg).fixParams = cfg.fixParams from rfl, h1, h2,
              show (withoutBounds cfg).fixSites = cfg.fixSites from rfl]
            cases lstsq wls G (withoutBounds cfg) bd g0f (some bf) cfg.fixSites <;> rfl)
          (fun _ => hp)
        rw [hs, hk]
        simp only [reduceCtorEq, or_self, and_false, false_or]
        unfold EvaluatedAt
        simp only [hfx, if_true, hp, Prod.mk.injEq, Option.some.injEq]
        constructor
        · rintro ⟨b, res, a1, a2, a3⟩
          have : bf = b := by
            unfold attenuation at a2
            rw [hfx, if_pos rfl, hp] at a2
            simpa using a2
          exact ⟨g0f, b, res, ⟨rfl, this⟩, a1, a2, a3⟩
        · rintro ⟨g0, b, res, ⟨rfl, rfl⟩, a1, a2, a3⟩
          exact ⟨bf, res, a1, a2, a3⟩
  | false =>
    have hbf : ∀ g0, bandFit wls G (fun _ => .ok g0) (withoutBounds cfg) bd =
        (lstsq wls G (withoutBounds cfg) bd g0 none false).map some := by
      intro g0
      unfold bandFit
      rw [show (withoutBounds cfg).fix = cfg.fix from rfl, hfx]
      simp only [Bool.false_eq_true, if_false, show (withoutBounds cfg).optimize = true from rfl, if_true,
        bind, Except.bind]
      cases lstsq wls G (withoutBounds cfg) bd g0 none false <;> rfl
    have hk := fun g0 => key g0 none false (by simp [hfx]) (hbf g0) (by simp [hfx])
    simp only [Bool.false_eq_true, false_and, false_or]
    have hs : solveBand wls G minimize cfg bd = .ok none ↔
        ∃ g0, EvaluatedAt wls G minimize cfg bd g0 0 ∧
          ∃ f, lstsq wls G cfg bd g0 none false = .ok f ∧ nearBounds cfg f.b f.g0 := by
      unfold solveBand bandFit EvaluatedAt
      simp only [hfx, Bool.false_eq_true, if_false]
      cases ho : cfg.optimize with
      | true =>
        simp only [if_true]
        cases hm : minimize (objective wls G cfg bd) with
        | error e => simp [bind, Except.bind]
        | ok x =>
          cases hl : lstsq wls G cfg bd x none false with
          | error e => simp [bind, Except.bind, hl]
          | ok f => simp [bind, Except.bind, pure, Except.pure, hrep, hl]
      | false =>
        simp only [Bool.false_eq_true, if_false]
        cases hg : cfg.g0Bounds with
        | none => simp [bind, Except.bind]
        | some gb =>
          obtain ⟨lo, hi⟩ := gb
          cases hl : lstsq wls G cfg bd ((lo + hi) / 2) none false with
          | error e => simp [bind, Except.bind, hl]
          | ok f => simp [bind, Except.bind, pure, Except.pure, hrep, hl]
    rw [hs]
    have hev : ∀ g0 b, EvaluatedAt wls G minimize cfg bd g0 b ↔ EvaluatedAt wls G minimize cfg bd g0 0 := by
      intro g0 b
      unfold EvaluatedAt
      simp [hfx]
    constructor
    · rintro ⟨g0, h1, h2⟩
      obtain ⟨b, res, a⟩ := (hk g0).1 h2
      exact ⟨g0, b, res, (hev g0 b).2 h1, a⟩
    · rintro ⟨g0, b, res, h1, a⟩
      exact ⟨g0, (hev g0 b).1 h1, (hk g0).2 ⟨b, res, a⟩⟩

/-! ## A case which meets the hypotheses -/

namespace SuppressedExample
open InvertExample

/-- The example of C16 with the true attenuation 1 close to the upper bound. -/
noncomputable def cfgS : Cfg := { cfg1 with bBounds := some (1 / 10, 1) }

theorem good : GoodInput (withoutBounds cfgS) ps1 where
  pairs := good1.pairs
  some_pair := good1.some_pair
  weights := good1.weights
  R0 := good1.R0

example : solveBand someWls G1 minimize cfgS (bandOf cfgS.bulk ps1) = .ok none := by
  have h : ∃ res R' W', solveBand someWls G1 (fun _ => .ok 1) (withoutBounds cfgS)
        (bandOf (withoutBounds cfgS).bulk ps1) = .ok (some res) ∧
      attenuation (withoutBounds cfgS) res = (some 1, some 1) ∧ res.error = 0 ∧
      res.R = some R' ∧ (∀ p ∈ ps1, R'.get? p.station = some (R1 p.station)) ∧
      res.W = some W' ∧ (∀ p ∈ ps1, W'.get? p.event = some (W1 p.event)) := by
    refine C16_exact_recovery someWls_spec good rfl rfl greens1 ?_ ?_ (fun _ _ => R1_pos _)
      (fun _ _ => W1_pos _) ?_ ?_ connected1 (fun _ => two_times1) ?_ ?_
    · intro p hp
      simp only [ps1, List.mem_cons, List.not_mem_nil, or_false] at hp
      rcases hp with rfl | rfl | rfl <;> simp [pair1]
    · intro s hs
      simp only [samplesOf, ps1, pair1, cfg1, cfgS, withoutBounds] at hs
      simp at hs
      rcases hs with rfl | rfl | rfl | rfl | rfl | rfl <;> norm_num
    · intro s hs
      simp only [samplesOf, ps1, pair1, cfg1, cfgS, withoutBounds] at hs
      simp at hs
      rcases hs with rfl | rfl | rfl | rfl | rfl | rfl <;> simp [predicted]
    · have : ((ps1.map PairData.station).toFinset) = {"A", "B"} := by
        simp [ps1, pair1]
      rw [this, Finset.prod_pair (by decide), Finset.card_pair (by decide)]
      simp [R1, cfg1, cfgS, withoutBounds]
    · unfold EvaluatedAt
      simp [cfg1, cfgS, withoutBounds]
    · constructor <;> intro lo hi h <;> simp [withoutBounds] at h
  obtain ⟨res, -, -, h1, h2, -⟩ := h
  refine C17_suppressed_iff.2 (Or.inr ⟨1, 1, res, ?_, h1, h2, Or.inl ⟨1 / 10, 1, rfl, ?_⟩⟩)
  · unfold EvaluatedAt
    simp only [cfgS, cfg1, Bool.false_eq_true, if_false]
    exact ⟨_, _, rfl, by norm_num⟩
  · norm_num

end SuppressedExample

end Qopen
