import Verif.Lemmas.Far
import Verif.Props.RtPlugin
import Verif.Props.Rejected
import Verif.Props.InvertOrderNorm

/-!
# Unit of length (C133)
-/

namespace Qopen

open Real Spec Util Tr Energy InvertFb Window Far

namespace Spec

/-- The same record, `l` new units of length are one old unit. -/
noncomputable def inOtherLength (l : ℝ) (s : Stream) : Stream :=
  { s with distance := l * s.distance }

/-- Option `v0` in the new unit. -/
noncomputable def velocityOption (l : ℝ) (cfg : WCfg) : WCfg := { cfg with v0 := cfg.v0.map (l * ·) }

/-- Options for `g0` (bounds, fixed value) in the new unit. -/
noncomputable def g0Options (l : ℝ) (inv : InvertFb.Cfg) : InvertFb.Cfg :=
  { inv with g0Bounds := inv.g0Bounds.map (fun b => (b.1 / l, b.2 / l))
             fixParams := (inv.fixParams.1.map (· / l), inv.fixParams.2) }

/-- Contract of the Green's function: in the new unit its values are divided by `k`. -/
def FollowsLength (G : Greens) (l k : ℝ) : Prop :=
  ∀ r ts v g0, G (l * r) ts (l * v) (g0 / l) = (G r ts v g0).map (List.map (· / k))

/-- Contract of the optimisers in the old and the new unit: the optimum of the same function in
the new unit is the optimum in the old unit, converted. -/
def MinimisersFollow (l : ℝ) (minimize minimize' : (ℝ → Py (WithTop ℝ)) → Py ℝ) : Prop :=
  ∀ f f', (∀ g0, f' (g0 / l) = f g0) → minimize' f' = (minimize f).map (· / l)

/-- `r'` is the result `r` in the new unit; source energies are multiplied by `k`. -/
structure InNewUnit (l k : ℝ) (r r' : BandResult) : Prop where
  g0 : r'.g0 = r.g0.map (· / l)
  b : r'.b = r.b
  v0 : r'.v0 = l * r.v0
  error : r'.error = r.error
  nstations : r'.nstations = r.nstations
  R : Option.Rel (fun d d' : Dict String ℝ => ∀ s, d'.get? s = d.get? s) r.R r'.R
  W : Option.Rel (fun d d' : Dict String ℝ => ∀ e, d'.get? e = (d.get? e).map (k * ·)) r.W r'.W

end Spec

namespace LengthUnits

variable {l k : ℝ} {G : Greens} {wls : List ℝ → List (List ℝ) → List ℝ → List ℝ × ℝ}
  {minimize minimize' : (ℝ → Py (WithTop ℝ)) → Py ℝ} {cfg : InvertFb.Cfg} {bd : Band}

/-- The options of the inversion in the new unit. -/
noncomputable def newCfg (l : ℝ) (cfg : InvertFb.Cfg) : InvertFb.Cfg :=
  { g0Options l cfg with v0 := l * cfg.v0 }

/-- The data in the new unit. -/
noncomputable def newBand (l : ℝ) (bd : Band) : Band :=
  { bd with distances := bd.distances.mapVals (l * ·) }

/-- The data with energies multiplied by `k`. -/
noncomputable def timesE (k : ℝ) (bd : Band) : Band :=
  { bd with Ecoda := bd.Ecoda.map (List.map (k * ·)), Ebulk := bd.Ebulk.map (k * ·) }

theorem smooth_over (x : List ℝ) (wl : Option ℤ) (w : Util.Window) (b : Border) :
    smooth (x.map (· / k)) wl w b = (smooth x wl w b).map (List.map (· / k)) := by
  have e : (fun x : ℝ => x / k) = (k⁻¹ * ·) := by funext x; rw [div_eq_inv_mul]
  rw [e]
  exact Move.smooth_scale x wl w b

theorem smoothFunc_over {f f' : List ℝ → Py (List ℝ)} (h : ∀ t, f' t = (f t).map (List.map (· / k)))
    (t : List ℝ) (wl : Option ℝ) (w : Util.Window) :
    smoothFunc f' t wl w = (smoothFunc f t wl w).map (List.map (· / k)) := by
  unfold smoothFunc
  cases wl with
  | none => exact h t
  | some wl =>
    simp only [bind, Except.bind]
    cases pyGet t 1 with
    | error e => rfl
    | ok t1 =>
      cases pyGet t 0 with
      | error e => rfl
      | ok t0 =>
        simp only
        split
        · rfl
        · split
          · rfl
          · simp only [h]
            generalize f _ = y
            cases y with
            | error e => rfl
            | ok y => exact smooth_over y _ _ _

theorem mean_over (x : List ℝ) : InvertFb.mean (x.map (· / k)) = InvertFb.mean x / k := by
  unfold InvertFb.mean
  rw [List.length_map]
  have e : (fun x : ℝ => x / k) = (fun x => x * k⁻¹) := by funext x; rw [div_eq_mul_inv]
  rw [e, List.sum_map_mul_right]
  rw [List.map_id']
  ring

theorem dictGet_map {κ : Type} [DecidableEq κ] (d : Dict κ ℝ) (x : κ) :
    dictGet (d.mapVals (l * ·)) x = (dictGet d x).map (l * ·) := by
  unfold dictGet
  rw [Dict.get?_mapVals]
  cases d.get? x <;> rfl

theorem pyGet_map' {α β : Type} (f : α → β) (x : List α) (i : ℕ) :
    pyGet (x.map f) i = (pyGet x i).map f := by
  unfold pyGet
  rw [List.getElem?_map]
  cases x[i]? <;> rfl

theorem greensOfPair_new (hG : FollowsLength G l k) (g0 : ℝ) (p : (String × String) × ℕ) :
    greensOfPair G (newCfg l cfg) (newBand l bd) (g0 / l) p =
      (greensOfPair G cfg bd g0 p).map (fun g => (g.1.map (· / k), g.2.map (· / k))) := by
  have h1 : ∀ r t, gsmooth G (newCfg l cfg) (l * r) t (g0 / l) =
      (gsmooth G cfg r t g0).map (List.map (· / k)) := by
    intro r t
    exact smoothFunc_over (fun t_ => hG r t_ cfg.v0 g0) t _ _
  have h2 : ∀ r tw, gbulk G (newCfg l cfg) (l * r) tw (g0 / l) = (gbulk G cfg r tw g0).map (· / k) := by
    intro r tw
    unfold gbulk
    have : G (l * r) (linspace tw.1 tw.2 (newCfg l cfg).numPoints) (newCfg l cfg).v0 (g0 / l) =
      (G r (linspace tw.1 tw.2 cfg.numPoints) cfg.v0 g0).map (List.map (· / k)) := hG _ _ _ _
    rw [this]
    cases G r (linspace tw.1 tw.2 cfg.numPoints) cfg.v0 g0 with
    | error e => rfl
    | ok y =>
      simp only [Except.map, bind, Except.bind, pure, Except.pure, mean_over]
  unfold greensOfPair
  have e1 : (newBand l bd).Ecoda = bd.Ecoda := rfl
  have e2 : (newBand l bd).distances = bd.distances.mapVals (l * ·) := rfl
  have e3 : (newBand l bd).tcoda = bd.tcoda := rfl
  have e4 : (newBand l bd).tbulkWindow = bd.tbulkWindow := rfl
  have e5 : (newCfg l cfg).bulk = cfg.bulk := rfl
  rw [e1, e2, e3, e4, e5, dictGet_map]
  cases pyGet bd.Ecoda p.2 with
  | error e => rfl
  | ok e =>
    simp only [bind, Except.bind]
    split
    · rfl
    · cases dictGet bd.distances p.1 with
      | error e => rfl
      | ok r =>
        simp only [Except.map]
        cases pyGet bd.tcoda p.2 with
        | error e => rfl
        | ok t =>
          simp only [h1]
          cases gsmooth G cfg r t g0 with
          | error e => rfl
          | ok Gc =>
            simp only [Except.map]
            split
            · cases dictGet bd.tbulkWindow p.1 with
              | error e => rfl
              | ok tw =>
                simp only [h2]
                cases gbulk G cfg r tw g0 <;> rfl
            · rfl

theorem greensOfPair_times (g0 : ℝ) (p : (String × String) × ℕ) :
    greensOfPair G cfg (timesE k bd) g0 p = greensOfPair G cfg bd g0 p := by
  unfold greensOfPair timesE
  simp only [pyGet_map']
  cases pyGet bd.Ecoda p.2 with
  | error e => rfl
  | ok e => simp only [Except.map, bind, Except.bind, List.length_map]

theorem mapExc_map' {α β : Type} {f g : α → Py β} {u : β → β} (h : ∀ a, f a = (g a).map u)
    (x : List α) : mapExc f x = (mapExc g x).map (List.map u) := by
  induction x with
  | nil => rfl
  | cons a x ih =>
    rw [mapExc, mapExc, h, ih]
    cases g a with
    | error e => rfl
    | ok b => cases mapExc g x <;> rfl

theorem greensAll_new (hG : FollowsLength G l k) (g0 : ℝ) :
    greensAll G (newCfg l cfg) (newBand l bd) (g0 / l) =
      (greensAll G cfg (timesE k bd) g0).map (List.map (· / k)) := by
  have e : greensAll G cfg (timesE k bd) g0 = greensAll G cfg bd g0 := by
    unfold greensAll
    rw [show greensOfPair G cfg (timesE k bd) g0 = greensOfPair G cfg bd g0 from
      funext (greensOfPair_times g0)]
    rfl
  rw [e]
  unfold greensAll
  have e2 : (newBand l bd).pairs = bd.pairs := rfl
  rw [e2, mapExc_map' (greensOfPair_new hG g0)]
  cases mapExc (greensOfPair G cfg bd g0) bd.pairs.zipIdx with
  | error e => rfl
  | ok gs =>
    simp only [Except.map, bind, Except.bind, pure, Except.pure, List.map_append, List.map_flatten,
      List.map_map, Except.ok.injEq]
    rfl

theorem blockLengths_times : blockLengths (timesE k bd) = blockLengths bd := by
  unfold blockLengths timesE
  simp only [List.map_map]
  congr 1
  apply List.map_congr_left
  intro x _
  simp

theorem energies_times : energiesObs (timesE k bd) = (energiesObs bd).map (k * ·) := by
  unfold energiesObs timesE
  simp only [List.map_append, List.map_flatten]

/-- The fit in the new unit. -/
noncomputable def newFit (l : ℝ) (f : Fit) : Fit := { f with g0 := f.g0 / l }

theorem outside_new (hl : 0 < l) (b g0 : ℝ) : outside (newCfg l cfg) b (g0 / l) ↔ outside cfg b g0 := by
  unfold outside newCfg g0Options
  cases cfg.g0Bounds with
  | none => simp
  | some gb =>
    simp only [Option.map_some, Option.some.injEq, exists_eq_left', div_le_div_iff_of_pos_right hl]

theorem fitOf_new (hl : 0 < l) (g0 : ℝ) (bF : Option ℝ) (fs : Bool) (Rf : List ℝ) (sol : List ℝ × ℝ) :
    fitOf (newCfg l cfg) (newBand l bd) (g0 / l) bF fs Rf sol =
      (fitOf cfg (timesE k bd) g0 bF fs Rf sol).map (newFit l) := by
  have hd : decode (newCfg l cfg) (newBand l bd) fs Rf sol.1 = decode cfg (timesE k bd) fs Rf sol.1 := rfl
  unfold fitOf
  dsimp only
  rw [hd]
  have ho := outside_new (cfg := cfg) hl (sol.1.getLastD 0) g0
  have e1 : (newCfg l cfg).fix = cfg.fix := rfl
  have e2 : (newCfg l cfg).codaNorm = cfg.codaNorm := rfl
  rw [e1, e2]
  cases cfg.fix with
  | false =>
    simp only [Bool.false_eq_true, if_false, Except.map, newFit, Except.ok.injEq, Fit.mk.injEq,
      and_true]
    by_cases h : outside cfg (sol.1.getLastD 0) g0
    · rw [if_pos h, if_pos (ho.2 h)]
    · rw [if_neg h, if_neg (fun h' => h (ho.1 h'))]
  | true =>
    cases cfg.codaNorm with
    | true => rfl
    | false => cases bF <;> rfl

theorem rhs_new (hk : 0 < k) {E Gall : List ℝ} (hE : ∀ e ∈ E, 0 < e) (hg : ∀ g ∈ Gall, 0 < g)
    (bF : Option ℝ) (fs : Bool) (rs : List ℝ) :
    rhs (newBand l bd) E (Gall.map (· / k)) bF fs rs =
      rhs (timesE k bd) (E.map (k * ·)) Gall bF fs rs := by
  have key : List.zipWith (fun e g => log e - log g) E (Gall.map (· / k)) =
      List.zipWith (fun e g => log e - log g) (E.map (k * ·)) Gall := by
    induction E generalizing Gall with
    | nil => rfl
    | cons e E ih =>
      cases Gall with
      | nil => rfl
      | cons g Gall =>
        simp only [List.map_cons, List.zipWith_cons_cons]
        rw [ih (fun x hx => hE x (by simp [hx])) (fun x hx => hg x (by simp [hx]))]
        congr 1
        have h1 := hE e (by simp)
        have h2 := hg g (by simp)
        rw [log_div h2.ne' hk.ne', log_mul hk.ne' h1.ne']
        ring
  unfold rhs
  rw [key]
  rfl

theorem lstsq_new (hl : 0 < l) (hk : 0 < k) (hG : FollowsLength G l k) (g0 : ℝ) (bF : Option ℝ)
    (fs : Bool) : InvertFb.lstsq wls G (newCfg l cfg) (newBand l bd) (g0 / l) bF fs =
      (InvertFb.lstsq wls G cfg (timesE k bd) g0 bF fs).map (newFit l) := by
  have hper : ∀ {α : Type} (f : String × String → α),
      perSample (newBand l bd) f = perSample (timesE k bd) f := by
    intro α f
    unfold perSample
    rw [blockLengths_times]
    rfl
  have hsr : siteRefs (newCfg l cfg) (newBand l bd) = siteRefs cfg (timesE k bd) := by
    unfold siteRefs
    rw [hper]
    rfl
  have hsrs : siteRefsShort (newCfg l cfg) (newBand l bd) = siteRefsShort cfg (timesE k bd) := by
    unfold siteRefsShort
    rw [blockLengths_times]
    rfl
  have hdes : design (newCfg l cfg) (newBand l bd) = design cfg (timesE k bd) := by
    unfold design
    rw [hper]
    rfl
  have hw : ∀ n, weights (newCfg l cfg) (newBand l bd) n = weights cfg (timesE k bd) n := fun _ => rfl
  have hE : energiesObs (newBand l bd) = energiesObs bd := rfl
  unfold InvertFb.lstsq
  rw [hsr, hsrs, greensAll_new hG]
  cases siteRefs cfg (timesE k bd) with
  | error e => rfl
  | ok rs =>
    cases siteRefsShort cfg (timesE k bd) with
    | error e => rfl
    | ok Rf =>
      cases greensAll G cfg (timesE k bd) g0 with
      | error e => rfl
      | ok Gall =>
        simp only [Except.map, bind, Except.bind, hE, energies_times, List.length_map]
        split
        · rfl
        · have hiff : ((∃ e ∈ energiesObs bd, e ≤ 0) ∨ ∃ g ∈ Gall.map (· / k), g ≤ 0) ↔
              ((∃ e ∈ (energiesObs bd).map (k * ·), e ≤ 0) ∨ ∃ g ∈ Gall, g ≤ 0) := by
            simp only [List.mem_map, exists_exists_and_eq_and]
            have a : ∀ e : ℝ, k * e ≤ 0 ↔ e ≤ 0 := fun e =>
              ⟨fun h => by by_contra h'; exact absurd h (not_le.2 (mul_pos hk (not_le.1 h'))),
                fun h => mul_nonpos_of_nonneg_of_nonpos hk.le h⟩
            have b : ∀ e : ℝ, e / k ≤ 0 ↔ e ≤ 0 := fun e => by
              rw [div_eq_inv_mul]
              exact ⟨fun h => by
                  by_contra h'
                  exact absurd h (not_le.2 (mul_pos (inv_pos.2 hk) (not_le.1 h'))),
                fun h => mul_nonpos_of_nonneg_of_nonpos (inv_pos.2 hk).le h⟩
            simp only [a, b]
          by_cases hp : (∃ e ∈ energiesObs bd, e ≤ 0) ∨ ∃ g ∈ Gall.map (· / k), g ≤ 0
          · rw [if_pos hp, if_pos (hiff.1 hp)]
            rfl
          · rw [if_neg hp, if_neg (fun h => hp (hiff.2 h))]
            have hp3 := fun h => hp (hiff.2 h)
            change ¬ _ at hp3
            rw [not_or] at hp hp3
            have hp1 := hp.1
            have hp2 := hp3.2
            simp only [not_exists, not_and, not_le] at hp2
            simp only [not_exists, not_and, not_le] at hp1
            rw [rhs_new hk hp1 hp2, hdes, hw, fitOf_new (k := k) hl]
            rfl

theorem objective_new (hl : 0 < l) (hk : 0 < k) (hG : FollowsLength G l k) (g0 : ℝ) :
    InvertFb.objective wls G (newCfg l cfg) (newBand l bd) (g0 / l) =
      InvertFb.objective wls G cfg (timesE k bd) g0 := by
  unfold InvertFb.objective
  have hiff : (∃ gb, (newCfg l cfg).g0Bounds = some gb ∧ ¬ (gb.1 ≤ g0 / l ∧ g0 / l ≤ gb.2)) ↔
      ∃ gb, cfg.g0Bounds = some gb ∧ ¬ (gb.1 ≤ g0 ∧ g0 ≤ gb.2) := by
    unfold newCfg g0Options
    cases cfg.g0Bounds with
    | none => simp
    | some gb =>
      simp only [Option.map_some, Option.some.injEq, exists_eq_left',
        div_le_div_iff_of_pos_right hl]
  simp only [hiff]
  split
  · rfl
  · rw [lstsq_new hl hk hG]
    cases InvertFb.lstsq wls G cfg (timesE k bd) g0 none false <;> rfl

theorem bandFit_new (hl : 0 < l) (hk : 0 < k) (hG : FollowsLength G l k)
    (hm : MinimisersFollow l minimize minimize') :
    bandFit wls G minimize' (newCfg l cfg) (newBand l bd) =
      (bandFit wls G minimize cfg (timesE k bd)).map (Option.map (newFit l)) := by
  unfold bandFit
  have e1 : (newCfg l cfg).fix = cfg.fix := rfl
  have e2 : (newCfg l cfg).fixParams = (cfg.fixParams.1.map (· / l), cfg.fixParams.2) := rfl
  have e3 : (newCfg l cfg).optimize = cfg.optimize := rfl
  have e4 : (newCfg l cfg).g0Bounds = cfg.g0Bounds.map (fun b => (b.1 / l, b.2 / l)) := rfl
  have e5 : (newCfg l cfg).fixSites = cfg.fixSites := rfl
  rw [e1, e2, e3, e4, e5]
  have some_new : ∀ g0 bF fs, (do
        let f ← InvertFb.lstsq wls G (newCfg l cfg) (newBand l bd) (g0 / l) bF fs
        return some f : Py (Option Fit)) = (do
        let f ← InvertFb.lstsq wls G cfg (timesE k bd) g0 bF fs
        return some f : Py (Option Fit)).map (Option.map (newFit l)) := by
    intro g0 bF fs
    rw [lstsq_new hl hk hG]
    cases InvertFb.lstsq wls G cfg (timesE k bd) g0 bF fs <;> rfl
  cases cfg.fix with
  | true =>
    simp only [if_true]
    cases cfg.fixParams.1 with
    | none => rfl
    | some g =>
      cases cfg.fixParams.2 with
      | none => rfl
      | some b => exact some_new g (some b) _
  | false =>
    simp only [Bool.false_eq_true, if_false]
    cases cfg.optimize with
    | true =>
      simp only [if_true]
      rw [hm _ _ (objective_new (wls := wls) (cfg := cfg) (bd := bd) hl hk hG)]
      cases minimize (InvertFb.objective wls G cfg (timesE k bd)) with
      | error e => rfl
      | ok x => exact some_new x none false
    | false =>
      simp only [Bool.false_eq_true, if_false]
      cases cfg.g0Bounds with
      | none => rfl
      | some gb =>
        simp only [Option.map_some]
        rw [show (gb.1 / l + gb.2 / l) / 2 = (gb.1 + gb.2) / 2 / l by ring]
        exact some_new _ none false

/-- The result in the new unit. -/
noncomputable def newResult (l : ℝ) (r : BandResult) : BandResult :=
  { r with g0 := r.g0.map (· / l), v0 := l * r.v0 }

theorem report_new (hl : 0 < l) (f : Fit) : report (newCfg l cfg) (newBand l bd) (newFit l f) =
    (report cfg (timesE k bd) f).map (newResult l) := by
  have hn : nearBounds (newCfg l cfg) (newFit l f).b (newFit l f).g0 ↔ nearBounds cfg f.b f.g0 := by
    unfold nearBounds newCfg g0Options newFit
    cases cfg.g0Bounds with
    | none => simp
    | some gb =>
      simp only [Option.map_some, Option.some.injEq, exists_eq_left', ← mul_div_assoc,
        div_lt_div_iff_of_pos_right hl]
  unfold report
  by_cases h : nearBounds cfg f.b f.g0
  · rw [if_pos h, if_pos (hn.2 h)]
    rfl
  · rw [if_neg h, if_neg (fun h' => h (hn.1 h'))]
    simp only [Option.map_some, Option.some.injEq]
    have e1 : (newCfg l cfg).fix = cfg.fix := rfl
    unfold newResult
    rw [e1]
    cases cfg.fix <;> rfl

theorem solveBand_new (hl : 0 < l) (hk : 0 < k) (hG : FollowsLength G l k)
    (hm : MinimisersFollow l minimize minimize') :
    solveBand wls G minimize' (newCfg l cfg) (newBand l bd) =
      (solveBand wls G minimize cfg (timesE k bd)).map (Option.map (newResult l)) := by
  unfold solveBand
  rw [bandFit_new hl hk hG hm]
  cases bandFit wls G minimize cfg (timesE k bd) with
  | error e => rfl
  | ok of =>
    cases of with
    | none => rfl
    | some f =>
      simp only [Except.map, bind, Except.bind, pure, Except.pure, Option.map_some, Option.bind_some,
        Except.ok.injEq]
      exact report_new hl f

theorem times_bandOf (bulk : Bool) (ps : List PairData) :
    timesE k (bandOf bulk ps) = bandOf bulk (ps.map (recalibrate (fun _ => k) (fun _ => 1))) := by
  unfold timesE bandOf
  simp only [List.map_map, Band.mk.injEq]
  refine ⟨rfl, rfl, ?_, ?_, ?_, ?_, ?_, ?_⟩
  · apply List.map_congr_left
    intro p _
    simp [recalibrate]
  · apply List.map_congr_left
    intro p _
    simp [recalibrate]
  · rfl
  · cases bulk with
    | false => rfl
    | true =>
      simp only [if_true, List.map_map]
      apply List.map_congr_left
      intro p _
      simp [recalibrate]
  · rfl
  · rfl


theorem new_fullCfg (v0 : ℝ) {w : WCfg} {inv : InvertFb.Cfg} :
    fullCfg (fast l w) (g0Options l inv) (l * v0) = newCfg l (fullCfg w inv v0) := rfl

section
variable {lib : Lib} {w : WCfg} {inv : InvertFb.Cfg} {streams : List Stream}

/-- The inversion in the new unit is the inversion of the energies times `k`. -/
theorem invertFb_new (hl : 0 < l) (hk : 0 < k) (hG : FollowsLength G l k)
    (hm : MinimisersFollow l minimize minimize')
    (hnd : (streams.map (fun s => (s.event, s.station))).Nodup) :
    (∃ r, (r = .ok none ∨ ∃ e, r = .error e) ∧
      invertFb lib wls G minimize w inv streams = r ∧
      invertFb lib wls G minimize' (velocityOption l w) (g0Options l inv)
        (streams.map (inOtherLength l)) = r) ∨
    ∃ v0 ps, AcceptedPairs lib w streams v0 ps ∧ ps ≠ [] ∧
      invertFb lib wls G minimize w inv streams =
        solveBand wls G minimize (fullCfg w inv v0) (bandOf w.bulkWindow.isSome ps) ∧
      invertFb lib wls G minimize' (velocityOption l w) (g0Options l inv)
          (streams.map (inOtherLength l)) =
        (solveBand wls G minimize (fullCfg w inv v0) (bandOf w.bulkWindow.isSome
          (ps.map (recalibrate (fun _ => k) (fun _ => 1))))).map (Option.map (newResult l)) := by
  by_cases hs : streams = []
  · subst hs
    exact .inl ⟨.ok none, .inl rfl, rfl, rfl⟩
  have hE : energies lib (velocityOption l w) (streams.map (inOtherLength l)) =
      (energies lib w streams).map (List.map (far l)) := energies_far streams
  have hs' : streams.map (inOtherLength l) ≠ [] := by simpa using hs
  cases he : energies lib w streams with
  | error e =>
    refine .inl ⟨.error e, .inr ⟨e, rfl⟩, ?_, ?_⟩
    · unfold invertFb
      rw [if_neg hs, he]
      rfl
    · unfold invertFb
      rw [if_neg hs', hE, he]
      rfl
  | ok trs =>
    rw [he] at hE
    have hV : velocity (velocityOption l w) (trs.map (far l)) = (velocity w trs).map (l * ·) :=
      velocity_far trs
    cases hv : velocity w trs with
    | none =>
      rw [hv] at hV
      refine .inl ⟨.ok none, .inl rfl, ?_, ?_⟩
      · unfold invertFb
        rw [if_neg hs, he]
        simp only [bind, Except.bind, hv]
        rfl
      · unfold invertFb
        rw [if_neg hs', hE]
        simp only [Except.map, bind, Except.bind, hV, Option.map_none]
        rfl
    | some v0 =>
      rw [hv] at hV
      have hW : windows lib (velocityOption l w) (l * v0) (trs.map (far l)) =
          (windows lib w v0 trs).map (farSt l) := windows_far hl.ne' trs
      cases hw : windows lib w v0 trs with
      | error e =>
        rw [hw] at hW
        refine .inl ⟨.error e, .inr ⟨e, rfl⟩, ?_, ?_⟩
        · unfold invertFb
          rw [if_neg hs, he]
          simp only [bind, Except.bind, hv, hw]
        · unfold invertFb
          rw [if_neg hs', hE]
          simp only [Except.map, bind, Except.bind, hV, Option.map_some, hW]
      | ok st =>
        rw [hw] at hW
        by_cases hc : st.Ecoda.length = 0 ∨ (st.Ecoda.length : ℝ) < w.numPairs
        · refine .inl ⟨.ok none, .inl rfl, ?_, ?_⟩
          · unfold invertFb
            rw [if_neg hs, he]
            simp only [bind, Except.bind, hv, hw]
            rw [if_pos hc]
            rfl
          · unfold invertFb
            rw [if_neg hs', hE]
            simp only [Except.map, bind, Except.bind, hV, Option.map_some, hW]
            exact if_pos hc
        · have hnd' : (trs.map Trace.pair).Nodup := hnd.sublist (energies_pairs he)
          obtain ⟨ps, h1, h2⟩ := invertFb_accepted (wls := wls) (G := G) (minimize := minimize)
            (inv := inv) hnd he hv hw hc
          obtain ⟨sel, b1, b2, b3, c1, c2, c3, c4, c5, c6, c7⟩ := C18_windows_belong_to_pairs hnd' hw
          have hacc : AcceptedPairs lib w streams v0 (sel.map Prod.snd) :=
            ⟨trs, sel, he, hv, b1, b2, b3, rfl⟩
          obtain rfl := (acceptedPairs_unique hnd h1 hacc).2
          have hpair : ∀ q ∈ sel, q.2.pair = q.1.pair := by
            intro q hq
            obtain ⟨e1, e2, _⟩ := b2 q hq
            unfold PairData.pair Trace.pair
            rw [e1, e2]
          have hndp : ((sel.map Prod.snd).map PairData.pair).Nodup := by
            have e : (sel.map Prod.snd).map PairData.pair = (sel.map Prod.fst).map Trace.pair := by
              rw [List.map_map, List.map_map]
              exact List.map_congr_left hpair
            rw [e]
            exact hnd'.sublist (b1.map _)
          refine .inr ⟨v0, _, h1, ?_, h2, ?_⟩
          · rintro h0
            rw [h0] at c3
            refine hc (.inl ?_)
            rw [c3]
            rfl
          have e1 : invertFb lib wls G minimize' (velocityOption l w) (g0Options l inv)
              (streams.map (inOtherLength l)) =
              solveBand wls G minimize' (newCfg l (fullCfg w inv v0)) (newBand l st.band) := by
            unfold invertFb
            rw [if_neg hs', hE]
            simp only [Except.map, bind, Except.bind, hV, Option.map_some, hW]
            exact if_neg hc
          rw [e1, solveBand_new hl hk hG hm, ← times_bandOf]
          congr 1
          apply solveBand_congr
          · exact c1
          · exact c2
          · show List.map _ st.Ecoda = List.map _ _
            rw [c3]
          · exact c4
          · show List.map _ st.Ebulk = List.map _ _
            rw [c5]
          · exact c6
          · intro x hx
            have hx' : x ∈ (sel.map Prod.snd).map PairData.pair := by
              have e : (timesE k st.band).pairs = st.energies := rfl
              rw [e, c1] at hx
              exact hx
            obtain ⟨p, hp, rfl⟩ := List.mem_map.1 hx'
            obtain ⟨q, hq, rfl⟩ := List.mem_map.1 hp
            exact (c7 q hq).1.trans (get?_map_pair hndp (fun p => p.distance) hp).symm
          · intro hb x hx
            have hb' : w.bulkWindow.isSome = true := hb
            have hx' : x ∈ (sel.map Prod.snd).map PairData.pair := by
              have e : (timesE k st.band).pairs = st.energies := rfl
              rw [e, c1] at hx
              exact hx
            obtain ⟨p, hp, rfl⟩ := List.mem_map.1 hx'
            obtain ⟨q, hq, rfl⟩ := List.mem_map.1 hp
            refine ((c7 q hq).2 hb').trans ?_
            symm
            simp only [timesE, bandOf, hb', if_true]
            exact get?_map_pair hndp (fun p => (p.bulkStart, p.bulkEnd)) hp
end

end LengthUnits

section
variable {l k : ℝ} {G : Greens} {wls : List ℝ → List (List ℝ) → List ℝ → List ℝ × ℝ}
  {minimize minimize' : (ℝ → Py (WithTop ℝ)) → Py ℝ} {rank : List ℝ → List (List ℝ) → ℕ}
  {lib : Lib} {cfg : WCfg} {inv : InvertFb.Cfg} {streams : List Stream}

open LengthUnits

/-- **C133**, without fixed site responses: the result of the inversion does not depend on the unit
of length. -/
theorem C133_inversion (hwls : IsWls rank wls) (hr : FullRank rank) (hG : OneValuePerTime G)
    (hl : 0 < l) (hk : 0 < k) (hGl : FollowsLength G l k)
    (hm : MinimisersFollow l minimize minimize') (hc : cfg.codaNorm = none)
    (hfs : cfg.fixSites = false) (hnd : (streams.map (fun s => (s.event, s.station))).Nodup)
    (hin : ∀ v0 ps, AcceptedPairs lib cfg streams v0 ps → ps ≠ [] →
      GoodInput (fullCfg cfg inv v0) ps ∧ ConnectedPairs ps ∧ (inv.fix = false → TwoTimes ps) ∧
      (inv.fix = false → inv.optimize = true →
        ∀ g0, WithinBounds (fullCfg cfg inv v0) g0 → CanCompare G (fullCfg cfg inv v0) ps g0))
    {res : Option BandResult} (h : invertFb lib wls G minimize cfg inv streams = .ok res) :
    ∃ res', invertFb lib wls G minimize' (velocityOption l cfg) (g0Options l inv)
        (streams.map (inOtherLength l)) = .ok res' ∧ Option.Rel (InNewUnit l k) res res' := by
  rcases invertFb_new (lib := lib) (wls := wls) (w := cfg) (inv := inv) hl hk hGl hm hnd with
    ⟨r, hr', h1, h2⟩ | ⟨v0, ps, ha, hne, h1, h2⟩
  · rw [h1] at h
    subst h
    refine ⟨res, h2, ?_⟩
    rcases hr' with h | ⟨e, h⟩
    · cases h; exact .none
    · cases h
  · obtain ⟨g1, g2, g3, g4⟩ := hin v0 ps ha hne
    rw [h1] at h
    have hcod : (fullCfg cfg inv v0).codaNorm = false := by
      show cfg.codaNorm.isSome = false
      rw [hc]; rfl
    obtain ⟨res', k1, k2⟩ := C113_calibration (kE := fun _ => k) (kS := fun _ => 1)
      hwls hr hG g1 hcod hfs g2 g3 g4 (fun _ => hk) (fun _ => one_pos) (List.Perm.refl _) h
    have hmf : meanFactor (fun _ => 1) ps = 1 := by
      unfold meanFactor geoMean
      rw [List.map_const', List.prod_replicate, one_pow, one_rpow]
    simp only [hmf, div_one, mul_one] at k2
    rw [show (fullCfg cfg inv v0).bulk = cfg.bulkWindow.isSome from rfl] at k1
    rw [k1] at h2
    refine ⟨_, h2, ?_⟩
    cases k2 with
    | none => exact .none
    | some k2 =>
      obtain ⟨d, d', r1, r2, r3⟩ := k2.R
      obtain ⟨x, x', s1, s2, s3⟩ := k2.W
      refine .some ⟨?_, k2.b, ?_, k2.error, k2.nstations, ?_, ?_⟩
      · simp only [newResult, k2.g0]
      · simp only [newResult, k2.v0]
      · simp only [newResult, r1, r2]
        refine .some fun s => ?_
        rw [r3 s]
        cases d.get? s <;> simp
      · simp only [newResult, s1, s2]
        exact .some s3

/-- **C133** for command `source`: with fixed attenuation and site responses. -/
theorem C133_source (hwls : IsWls rank wls) (hr : FullRank rank) (hG : OneValuePerTime G)
    (hl : 0 < l) (hk : 0 < k) (hGl : FollowsLength G l k)
    (hm : MinimisersFollow l minimize minimize') (hc : cfg.codaNorm = none)
    (hfx : inv.fix = true) (hfs : cfg.fixSites = true)
    (href : ∀ s r, cfg.fixSitesParams.get? s = some r → 0 < r)
    (hnd : (streams.map (fun s => (s.event, s.station))).Nodup)
    (hin : ∀ v0 ps, AcceptedPairs lib cfg streams v0 ps → ps ≠ [] →
      GoodInput (fullCfg cfg inv v0) ps)
    {res : Option BandResult} (h : invertFb lib wls G minimize cfg inv streams = .ok res) :
    ∃ res', invertFb lib wls G minimize' (velocityOption l cfg) (g0Options l inv)
        (streams.map (inOtherLength l)) = .ok res' ∧ Option.Rel (InNewUnit l k) res res' := by
  rcases invertFb_new (lib := lib) (wls := wls) (w := cfg) (inv := inv) hl hk hGl hm hnd with
    ⟨r, hr', h1, h2⟩ | ⟨v0, ps, ha, hne, h1, h2⟩
  · rw [h1] at h
    subst h
    refine ⟨res, h2, ?_⟩
    rcases hr' with h | ⟨e, h⟩
    · cases h; exact .none
    · cases h
  · rw [h1] at h
    have hcod : (fullCfg cfg inv v0).codaNorm = false := by
      show cfg.codaNorm.isSome = false
      rw [hc]; rfl
    obtain ⟨res', k1, k2⟩ := C113_source (kE := fun _ => k)
      hwls hr hG (hin v0 ps ha hne) hcod hfx hfs href (fun _ => hk) (List.Perm.refl _) h
    rw [show (fullCfg cfg inv v0).bulk = cfg.bulkWindow.isSome from rfl] at k1
    rw [k1] at h2
    refine ⟨_, h2, ?_⟩
    cases k2 with
    | none => exact .none
    | some k2 =>
      obtain ⟨x, x', s1, s2, s3⟩ := k2.W
      refine .some ⟨?_, k2.b, ?_, k2.error, k2.nstations, ?_, ?_⟩
      · simp only [newResult, k2.g0]
      · simp only [newResult, k2.v0]
      · simp only [newResult, k2.R]
        rename_i r _
        cases r.R with
        | none => exact .none
        | some d => exact .some fun _ => rfl
      · simp only [newResult, s1, s2]
        exact .some s3

/-- **C133** with coda normalisation. -/
theorem C133_coda_normalization (hwls : IsWls rank wls) (hr : FullRank rank)
    (hG : OneValuePerTime G) (hl : 0 < l) (hk : 0 < k) (hGl : FollowsLength G l k)
    (hm : MinimisersFollow l minimize minimize') (hc : cfg.codaNorm.isSome)
    (hfs : cfg.fixSites = false) (hnd : (streams.map (fun s => (s.event, s.station))).Nodup)
    (hin : ∀ v0 ps, AcceptedPairs lib cfg streams v0 ps → ps ≠ [] →
      GoodInput (fullCfg cfg inv v0) ps ∧ SomeTwoTimes ps ∧
      (inv.optimize = true →
        ∀ g0, WithinBounds (fullCfg cfg inv v0) g0 → CanCompare G (fullCfg cfg inv v0) ps g0))
    {r : BandResult} (h : invertFb lib wls G minimize cfg inv streams = .ok (some r)) :
    ∃ r', invertFb lib wls G minimize' (velocityOption l cfg) (g0Options l inv)
        (streams.map (inOtherLength l)) = .ok (some r') ∧ InNewUnit l k r r' := by
  rcases invertFb_new (lib := lib) (wls := wls) (w := cfg) (inv := inv) hl hk hGl hm hnd with
    ⟨r, hr', h1, h2⟩ | ⟨v0, ps, ha, hne, h1, h2⟩
  · rw [h1] at h
    subst h
    rcases hr' with h | ⟨e, h⟩ <;> cases h
  · obtain ⟨g1, g2, g3⟩ := hin v0 ps ha hne
    rw [h1] at h
    have k1 := C113_coda_normalization hwls hr hG g1 hc hfs g2 g3 hk (List.Perm.refl _) h
    rw [show (fullCfg cfg inv v0).bulk = cfg.bulkWindow.isSome from rfl] at k1
    rw [k1] at h2
    have hcod : (fullCfg cfg inv v0).codaNorm = true := hc
    refine ⟨_, h2, rfl, rfl, rfl, rfl, rfl, ?_, ?_⟩
    · show Option.Rel _ r.R r.R
      cases r.R with
      | none => exact .none
      | some d => exact .some fun _ => rfl
    · show Option.Rel _ r.W r.W
      have : r.W = none := by
        unfold solveBand at h
        obtain ⟨of, -, h⟩ := bind_ok.1 h
        simp only [pure, Except.pure, Except.ok.injEq] at h
        cases of with
        | none => simp at h
        | some f =>
          simp only [Option.bind_some, report] at h
          split at h
          · simp at h
          · simp only [Option.some.injEq] at h
            rw [← h]
            simp [hcod]
      rw [this]
      exact .none

end

/-- **C133**: all Green's functions of Qopen follow the unit of length, their values are divided by
the third, second or first power of it. -/
theorem C133_greens_functions (type : String) (d : Rt.Kind) (ht : Rt.kindOf type = some d) {l : ℝ}
    (hl : 0 < l) : FollowsLength (Rt.plugin type) l (l ^ dimension d) := by
  intro r ts v g0
  have key : Rt.G (.num (l * r)) (.arr ts) (l * v) (g0 / l) type true =
      (Rt.G (.num r) (.arr ts) v g0 type true).map (Spec.GVal.over (l ^ dimension d)) := by
    by_cases hv : 0 < v
    · by_cases hg : 0 < g0
      · rw [C53_unit_of_time _ _ _ _ _ _ (mul_pos hl hv) (div_pos hg hl),
          C53_unit_of_time (.num r) (.arr ts) v g0 type true hv hg,
          ← C53_unit_of_length (.num r) (Spec.Arg.scale v (.arr ts)) 1 g0 l type d ht true hl one_pos hg]
        simp only [Spec.Arg.scale, List.map_map]
        congr 2
        apply List.map_congr_left
        intro t _
        simp only [Function.comp]
        ring
      · unfold Rt.G
        rw [if_pos (.inr (div_nonpos_of_nonpos_of_nonneg (not_lt.1 hg) hl.le)),
          if_pos (.inr (not_lt.1 hg))]
        rfl
    · unfold Rt.G
      rw [if_pos (.inl (mul_nonpos_of_nonneg_of_nonpos hl.le (not_lt.1 hv))),
        if_pos (.inl (not_lt.1 hv))]
      rfl
  unfold Rt.plugin
  rw [key]
  cases Rt.G (.num r) (.arr ts) v g0 type true with
  | error e => rfl
  | ok x =>
    cases x with
    | num x => rfl
    | arr x =>
      simp only [Except.map, bind, Except.bind, Spec.GVal.over]
      have e1 : (x.map (Option.map (· / l ^ dimension d))).all Option.isSome = x.all Option.isSome := by
        rw [List.all_map]
        congr 1
        funext o
        cases o <;> rfl
      have e2 : (x.map (Option.map (· / l ^ dimension d))).filterMap id =
          (x.filterMap id).map (· / l ^ dimension d) := by
        rw [List.filterMap_map, List.map_filterMap]; rfl
      rw [e1, e2]
      split <;> rfl

namespace LengthUnitsExample

open UnitsExample InvertExample TimeAxisExample

/-- A Green's function per volume. -/
noncomputable def Gv : Greens := fun _ ts _ g0 => .ok (ts.map (fun _ => g0 ^ 3))

theorem follows (l : ℝ) : FollowsLength Gv l (l ^ 3) := by
  intro r ts v g0
  simp only [Gv, Except.map, List.map_map, Except.ok.injEq]
  apply List.map_congr_left
  intro t _
  simp [div_pow]

theorem one_value : OneValuePerTime Gv := by
  intro r ts v g x h
  simp only [Gv, Except.ok.injEq] at h
  rw [← h]; simp

/-- An optimiser in the new unit. -/
noncomputable def other (l : ℝ) (minimize : (ℝ → Py (WithTop ℝ)) → Py ℝ)
    (f : ℝ → Py (WithTop ℝ)) : Py ℝ := (minimize (fun g0 => f (g0 / l))).map (· / l)

theorem other_follows (l : ℝ) (minimize : (ℝ → Py (WithTop ℝ)) → Py ℝ) :
    MinimisersFollow l minimize (other l minimize) := by
  intro f f' h
  unfold other
  rw [show (fun g0 => f' (g0 / l)) = f from funext h]

theorem lstsq_at {wls : List ℝ → List (List ℝ) → List ℝ → List ℝ × ℝ} {G G' : Greens}
    {c : InvertFb.Cfg} {bd : Band} {g0 : ℝ} (h : ∀ r ts v, G r ts v g0 = G' r ts v g0)
    (bF : Option ℝ) (fs : Bool) :
    InvertFb.lstsq wls G c bd g0 bF fs = InvertFb.lstsq wls G' c bd g0 bF fs := by
  unfold InvertFb.lstsq greensAll greensOfPair gsmooth gbulk
  simp only [h]

theorem result (minimize : (ℝ → Py (WithTop ℝ)) → Py ℝ) :
    ∃ r, invertFb exLib rankWls Gv minimize uCfg uInv exStreams = .ok (some r) := by
  obtain ⟨r, hr⟩ := result_ex minimize
  refine ⟨r, ?_⟩
  rw [← hr]
  have hs : ∀ v0 bd, solveBand rankWls Gv minimize (fullCfg uCfg uInv v0) bd =
      solveBand rankWls G1 minimize (fullCfg uCfg uInv v0) bd := by
    intro v0 bd
    unfold solveBand bandFit
    rw [if_neg (by simp [fullCfg, uInv]), if_neg (by simp [fullCfg, uInv]),
      if_neg (by simp [fullCfg, uInv]), if_neg (by simp [fullCfg, uInv])]
    have e : ((1 / 2 + 3 / 2) / 2 : ℝ) = 1 := by norm_num
    have e2 : (fullCfg uCfg uInv v0).g0Bounds = some (1 / 2, 3 / 2) := rfl
    rw [e2]
    simp only [e]
    rw [lstsq_at (G' := G1)]
    intro r ts v
    simp [Gv, G1]
  unfold invertFb
  simp only [hs]

/-- Kilometres and metres. -/
example (minimize : (ℝ → Py (WithTop ℝ)) → Py ℝ) : ∃ r r',
    invertFb exLib rankWls Gv minimize uCfg uInv exStreams = .ok (some r) ∧
    invertFb exLib rankWls Gv (other 1000 minimize) (velocityOption 1000 uCfg)
      (g0Options 1000 uInv) (exStreams.map (inOtherLength 1000)) = .ok (some r') ∧
    InNewUnit 1000 (1000 ^ 3) r r' := by
  obtain ⟨r, hr⟩ := result minimize
  obtain ⟨res', h1, h2⟩ := C133_inversion rankWls_spec someRank_full one_value
    (by norm_num) (by norm_num) (follows 1000) (other_follows 1000 minimize) rfl rfl nodup_ex (by
      intro v0 ps h _
      obtain ⟨rfl, rfl⟩ := acceptedPairs_unique nodup_ex h accepted_ex
      refine ⟨good_ex uInv (by norm_num [uInv]), ?_, fun _ => ?_, by simp [uInv]⟩
      · intro p hp q hq
        refine .single ⟨p, hp, q, hq, ?_, rfl, rfl⟩
        simp only [List.mem_cons, List.not_mem_nil, or_false] at hp hq
        rcases hp with rfl | rfl <;> rcases hq with rfl | rfl <;> rfl
      · exact ⟨exPair "A", by simp, (3, 2), by simp [exPair], (4, 1), by simp [exPair], by norm_num⟩)
    hr
  cases h2 with
  | some h2 => exact ⟨r, _, hr, h1, h2⟩

/-- For the three-dimensional Green's function the factor is the volume. -/
example : FollowsLength (Rt.plugin "rt3d") 1000 (1000 ^ 3) :=
  C133_greens_functions "rt3d" .rt3d (by simp [Rt.kindOf]) (by norm_num)

/-- Command `source` in kilometres and metres. -/
example (minimize : (ℝ → Py (WithTop ℝ)) → Py ℝ) :
    (∃ v0 ps, AcceptedPairs exLib sCfg exStreams v0 ps ∧ ps ≠ []) ∧ ∀ res,
    invertFb exLib rankWls Gv minimize sCfg sInv exStreams = .ok res →
    ∃ res', invertFb exLib rankWls Gv (other 1000 minimize) (velocityOption 1000 sCfg)
      (g0Options 1000 sInv) (exStreams.map (inOtherLength 1000)) = .ok res' ∧
    Option.Rel (InNewUnit 1000 (1000 ^ 3)) res res' := by
  refine ⟨⟨_, _, accepted_source, by simp⟩, fun res h => ?_⟩
  refine C133_source rankWls_spec someRank_full one_value (by norm_num) (by norm_num)
    (follows 1000) (other_follows 1000 minimize) rfl rfl rfl ?_ nodup_ex ?_ h
  · intro s r h
    by_cases hA : s = "A"
    · subst hA
      simp [sCfg, Dict.get?] at h
      rw [← h]; norm_num
    · by_cases hC : s = "C"
      · subst hC
        simp [sCfg, Dict.get?] at h
        rw [← h]; norm_num
      · simp [sCfg, Dict.get?, Ne.symm hA, Ne.symm hC] at h
  · intro v0 ps h _
    obtain ⟨rfl, rfl⟩ := acceptedPairs_unique nodup_ex h accepted_source
    exact ⟨(good_ex uInv (by norm_num [uInv])).pairs, by simp,
      (good_ex uInv (by norm_num [uInv])).weights, by norm_num [fullCfg, sInv, uInv]⟩

/-- Coda normalisation with the last two samples. -/
noncomputable def kCfg : WCfg := { uCfg with codaNorm := some (4, 5) }

theorem energies_norm : energies exLib kCfg exStreams = .ok [exTrace "A", exTrace "C"] := by
  have he : ∀ s, Window.energyOf exLib kCfg (exStream s) = .ok (some (exTrace s)) := by
    intro s
    unfold Window.energyOf
    rw [if_neg (by norm_num [kCfg, uCfg, exCfg, exStream]), if_neg (by simp [kCfg, uCfg, exCfg])]
    have hs : (exTrace s).slice 4 5 = .ok { exTrace s with start := 4, data := [1, 1] } := by
      have := slice_int (tr := exTrace s) rfl rfl (a := 4) (b := 5) (by norm_num) (by simp [exTrace])
      push_cast at this
      unfold getSlice at this
      cases hsl : (exTrace s).slice 4 5 with
      | error e => rw [hsl] at this; simp at this
      | ok t =>
        rw [hsl] at this
        simp only at this
        split_ifs at this
        simpa [exTrace] using this
    have hnorm : normalise (exTrace s) (4, 5) = .ok (exTrace s) := by
      unfold normalise
      have e : (exTrace s).origin = 0 := rfl
      simp only [e, zero_add, hs, bind, Except.bind]
      norm_num
      rfl
    have hob : observedEnergy exLib.hilbert ⟨(exStream s).event, (exStream s).station,
        (exStream s).start, 1, (exStream s).channels.map (exLib.filt (filterSpec kCfg 1) 1),
        (exStream s).origin, (exStream s).ponset, (exStream s).sonset, (exStream s).distance,
        (exStream s).borehole⟩ kCfg.rho0
        (exLib.width 1 (filterSpec kCfg 1)) (some (4, 5)) (freeSurfaceOf kCfg (exStream s)) =
        normalise (exTrace s) (4, 5) := by
      simp [observedEnergy, exLib, exStream, kCfg, uCfg, exCfg, energy1c, freeSurfaceOf, minLen,
        maxLen, sumAxis0, exTrace, List.range_succ]
      norm_num
    have e : (exStream s).sr = 1 := rfl
    have e2 : kCfg.codaNorm = some (4, 5) := rfl
    simp only [e, e2]
    rw [hob, hnorm]
  have hn : ∀ st, noiseStep exLib kCfg (exTrace st) = .ok (some (exTrace st)) := by
    intro st
    simp [noiseStep, kCfg, uCfg, exCfg, mapExc, adjust, bind, Except.bind, pure, Except.pure]
  simp [energies, exStreams, mapExc, he, hn, bind, Except.bind, pure, Except.pure]

theorem accepted_norm : AcceptedPairs exLib kCfg exStreams 1 [exPair "A", exPair "C"] := by
  refine ⟨_, [(exTrace "A", exPair "A"), (exTrace "C", exPair "C")], energies_norm, rfl,
    List.Sublist.refl _, ?_, ?_, rfl⟩
  · intro q hq
    simp only [List.mem_cons, List.not_mem_nil, or_false] at hq
    rcases hq with rfl | rfl
    · exact ex_accepts "A"
    · exact ex_accepts "C"
  · intro tr h hn
    exact absurd h hn

/-- Coda normalisation in kilometres and metres. -/
example (minimize : (ℝ → Py (WithTop ℝ)) → Py ℝ) :
    (∃ v0 ps, AcceptedPairs exLib kCfg exStreams v0 ps ∧ ps ≠ []) ∧ ∀ r,
    invertFb exLib rankWls Gv minimize kCfg uInv exStreams = .ok (some r) →
    ∃ r', invertFb exLib rankWls Gv (other 1000 minimize) (velocityOption 1000 kCfg)
      (g0Options 1000 uInv) (exStreams.map (inOtherLength 1000)) = .ok (some r') ∧
    InNewUnit 1000 (1000 ^ 3) r r' := by
  refine ⟨⟨_, _, accepted_norm, by simp⟩, fun r h => ?_⟩
  refine C133_coda_normalization rankWls_spec someRank_full one_value (by norm_num) (by norm_num)
    (follows 1000) (other_follows 1000 minimize) rfl rfl nodup_ex ?_ h
  intro v0 ps h _
  obtain ⟨rfl, rfl⟩ := acceptedPairs_unique nodup_ex h accepted_norm
  refine ⟨⟨(good_ex uInv (by norm_num [uInv])).pairs, by simp,
      (good_ex uInv (by norm_num [uInv])).weights, by norm_num [fullCfg, uInv]⟩, ?_, by simp [uInv]⟩
  exact ⟨exPair "A", by simp, exPair "A", by simp, (3, 2), by simp [exPair], (4, 1), by simp [exPair], by norm_num⟩

end LengthUnitsExample

end Qopen
