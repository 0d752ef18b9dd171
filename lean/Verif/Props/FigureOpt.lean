import Verif.Model.FigureOpt
import Verif.Props.FigureRegression
import Verif.Props.BandSteps
import Verif.Lemmas.SiteTotal

/-!
# Figure of the optimisation (plot_optimization): C124
-/

namespace Qopen

open Real Util Tr InvertFb FigBand Spec Imaging

variable {G : Greens} {cfg : Cfg} {wls : List ℝ → List (List ℝ) → List ℝ → List ℝ × ℝ}
  {ps : List PairData}

namespace Spec

/-- The values for which an optimiser asks, in this order, if the function is `f`. -/
noncomputable def asked (f : ℝ → Py (WithTop ℝ)) : Search → List ℝ
  | .done _ => []
  | .ask x next => x :: match f x with
    | .ok e => asked f (next e)
    | .error _ => []

/-- A value of g0 which does not violate the option `bounds` of g0. -/
def allowed (cfg : Cfg) (x : ℝ) : Prop := ∀ lo hi, cfg.g0Bounds = some (lo, hi) → lo ≤ x ∧ x ≤ hi

open Classical in
/-- The values in the list which are allowed. -/
noncomputable def allowedOnly (cfg : Cfg) (l : List ℝ) : List ℝ := l.filter (fun x => allowed cfg x)

/-- A finite value of the misfit at `x`, as a point of a figure. -/
noncomputable def finiteAt (f : ℝ → Py (WithTop ℝ)) (x : ℝ) : Option (ℝ × ℝ) :=
  match f x with
  | .ok e => (e : Option ℝ).map (fun y => (x, y))
  | .error _ => none

/-- A panel shows the regression for a value `x` of g0: printed are g0, b and the source energy of the
first event, each sample of the inversion is drawn at its time with its logarithmic misfit as distance
from the line `ln W - b t`, for the site responses `R` and the source energies `W` of the fit. -/
def ShowsFit (wls : List ℝ → List (List ℝ) → List ℝ → List ℝ × ℝ) (G : Greens) (cfg : Cfg)
    (ps : List PairData) (p : OptPanel) (x : ℝ) : Prop :=
  ∃ (f : Fit) (gs : List (List ℝ × ℝ)) (R W : Dict String ℝ) (first : PairData),
    lstsq wls G cfg (bandOf cfg.bulk ps) x none false = .ok f ∧ IsGreens G cfg x ps gs ∧
    R = (stations (bandOf cfg.bulk ps)).zip f.R ∧ W = (eventids (bandOf cfg.bulk ps)).zip f.W ∧
    ps.head? = some first ∧
    p.text = (x, f.b, valueOf W first.event) ∧
    p.plot.coda.flatten ++ p.plot.bulk = (samplesOf cfg.bulk ps gs).map (fun s =>
      (s.t, log (valueOf W first.event) - f.b * s.t +
        (log s.E - log (predicted (valueOf R) (valueOf W) f.b s)))) ∧
    (∀ q ∈ p.plot.line, q.2 = log (valueOf W first.event) - f.b * q.1)

end Spec

namespace FigBand

theorem outOfBounds_iff (cfg : Cfg) (x : ℝ) : outOfBounds cfg x ↔ ¬ allowed cfg x := by
  unfold FigBand.outOfBounds allowed
  constructor
  · rintro ⟨⟨lo, hi⟩, h1, h2⟩ h
    exact h2 (h lo hi h1)
  · intro h
    push Not at h
    obtain ⟨lo, hi, h1, h2⟩ := h
    exact ⟨(lo, hi), h1, fun ⟨a, b⟩ => absurd (h2 a) (not_lt.2 b)⟩

/-- `info` exists for every evaluation of the misfit. -/
theorem infoOf_of_lstsq {bd : Band} {g0 : ℝ} {f : Fit} {bFix : Option ℝ} {fixSites : Bool}
    (h : lstsq wls G cfg bd g0 bFix fixSites = .ok f) : ∃ info, infoOf G cfg bd g0 = .ok info := by
  unfold lstsq at h
  obtain ⟨rs, -, h⟩ := bind_ok.1 h
  obtain ⟨Rf, -, h⟩ := bind_ok.1 h
  obtain ⟨Ga, hG, h⟩ := bind_ok.1 h
  obtain ⟨gs, hgs, -⟩ := bind_ok.1 hG
  exact ⟨_, bind_ok.2 ⟨gs, hgs, rfl⟩⟩

/-- A call of the optimiser with records returns the misfit. -/
theorem callOpt_fst (bd : Band) (num : ℕ) (rs : Records) (g0 : ℝ) :
    (callOpt wls G cfg bd num rs g0).map Prod.fst = objective wls G cfg bd g0 := by
  unfold callOpt objective
  by_cases hb : outOfBounds cfg g0
  · have hb' : ∃ gb, cfg.g0Bounds = some gb ∧ ¬ (gb.1 ≤ g0 ∧ g0 ≤ gb.2) := hb
    rw [if_pos hb, if_pos hb']; rfl
  · have hb' : ¬ ∃ gb, cfg.g0Bounds = some gb ∧ ¬ (gb.1 ≤ g0 ∧ g0 ≤ gb.2) := hb
    rw [if_neg hb, if_neg hb']
    cases hl : lstsq wls G cfg bd g0 none false with
    | error e => rfl
    | ok f =>
      obtain ⟨info, hi⟩ := infoOf_of_lstsq hl
      simp [bind, Except.bind, hi, pure, Except.pure, Except.map]

theorem searchRec_fst (bd : Band) (num : ℕ) (s : Search) : ∀ rs : Records,
    (searchRec wls G cfg bd num s rs).map Prod.fst = s.run (objective wls G cfg bd) := by
  induction s with
  | done x => intro rs; rfl
  | ask x next ih =>
    intro rs
    have h := callOpt_fst (wls := wls) (G := G) (cfg := cfg) bd num rs x
    unfold searchRec Search.run
    rw [← h]
    cases hc : callOpt wls G cfg bd num rs x with
    | error e => rfl
    | ok er => exact ih er.1 er.2

/-- What the records contain after calls for the values `xs`. -/
structure RecInv (wls : List ℝ → List (List ℝ) → List ℝ → List ℝ × ℝ) (G : Greens) (cfg : Cfg)
    (bd : Band) (num : ℕ) (xs : List ℝ) (rs : Records) : Prop where
  tried : List.Forall₂ (fun x p => p.2 = x ∧ objective wls G cfg bd x = .ok p.1) (allowedOnly cfg xs)
    rs.tried
  record : ∀ r ∈ rs.record, lstsq wls G cfg bd r.fit.g0 none false = .ok r.fit ∧
    infoOf G cfg bd r.fit.g0 = .ok r.info
  nodup : (rs.record.map (fun r => r.fit.g0)).Nodup
  len : rs.record.length ≤ num - 1
  mem : ∀ r ∈ rs.record, r.fit.g0 ∈ allowedOnly cfg xs
  all : rs.record.length < num - 1 → ∀ x ∈ allowedOnly cfg xs, x ∈ rs.record.map (fun r => r.fit.g0)

theorem callOpt_inv {bd : Band} {num : ℕ} {xs : List ℝ} {rs : Records} {x : ℝ}
    {er : WithTop ℝ × Records} (hfix : cfg.fix = false) (hi : RecInv wls G cfg bd num xs rs)
    (h : callOpt wls G cfg bd num rs x = .ok er) :
    objective wls G cfg bd x = .ok er.1 ∧ RecInv wls G cfg bd num (xs ++ [x]) er.2 := by
  have hobj : objective wls G cfg bd x = .ok er.1 := by
    rw [← callOpt_fst bd num rs x, h]; rfl
  refine ⟨hobj, ?_⟩
  unfold callOpt at h
  split_ifs at h with hb
  · cases h
    have hal : allowedOnly cfg (xs ++ [x]) = allowedOnly cfg xs := by
      unfold allowedOnly
      rw [List.filter_append, List.filter_cons_of_neg, List.filter_nil, List.append_nil]
      simpa using (outOfBounds_iff cfg x).1 hb
    exact ⟨by rw [hal]; exact hi.tried, hi.record, hi.nodup, hi.len, by rw [hal]; exact hi.mem,
      by rw [hal]; exact hi.all⟩
  · have hal : allowedOnly cfg (xs ++ [x]) = allowedOnly cfg xs ++ [x] := by
      unfold allowedOnly
      rw [List.filter_append, List.filter_cons_of_pos, List.filter_nil]
      have := mt (outOfBounds_iff cfg x).2 hb
      simpa using this
    obtain ⟨f, hf, h⟩ := bind_ok.1 h
    obtain ⟨info, hin, h⟩ := bind_ok.1 h
    simp only [pure, Except.pure, Except.ok.injEq] at h
    obtain ⟨hg, -⟩ := lstsq_misfit_bounds hfix hf
    rw [← h] at hobj ⊢
    have htr : List.Forall₂ (fun x p => p.2 = x ∧ objective wls G cfg bd x = .ok p.1)
        (allowedOnly cfg xs ++ [x]) (rs.tried ++ [(f.err, f.g0)]) :=
      List.rel_append hi.tried (.cons ⟨hg, hobj⟩ .nil)
    simp only [recordFit, if_true]
    by_cases hc : f.g0 ∉ rs.record.map (fun r => r.fit.g0) ∧
        (rs.record.length < num - 1 ∨ true = false)
    · have hlt : rs.record.length < num - 1 := by
        rcases hc.2 with h | h
        · exact h
        · simp at h
      refine ⟨by rw [hal]; exact htr, ?_, ?_, ?_, ?_, ?_⟩ <;> simp only [if_pos hc]
      · intro r hr
        rcases List.mem_append.1 hr with hr | hr
        · exact hi.record r hr
        · rw [List.mem_singleton] at hr
          subst hr
          rw [hg]
          exact ⟨hf, hin⟩
      · rw [List.map_append, List.nodup_append]
        refine ⟨hi.nodup, by simp, ?_⟩
        intro a ha b hb' hab
        simp only [List.map_cons, List.map_nil, List.mem_singleton] at hb'
        exact hc.1 (by rw [← hb', ← hab]; exact ha)
      · rw [List.length_append, List.length_singleton]; omega
      · rw [hal]
        intro r hr
        rcases List.mem_append.1 hr with hr | hr
        · exact List.mem_append_left _ (hi.mem r hr)
        · rw [List.mem_singleton] at hr
          subst hr
          rw [hg]; simp
      · rw [hal]
        intro _ y hy
        rw [List.map_append]
        rcases List.mem_append.1 hy with hy | hy
        · exact List.mem_append_left _ (hi.all hlt y hy)
        · rw [List.mem_singleton] at hy
          rw [hy, ← hg]; simp
    · refine ⟨by rw [hal]; exact htr, ?_, ?_, ?_, ?_, ?_⟩ <;> simp only [if_neg hc]
      · exact hi.record
      · exact hi.nodup
      · exact hi.len
      · rw [hal]
        exact fun r hr => List.mem_append_left _ (hi.mem r hr)
      · rw [hal]
        intro hlt y hy
        rcases List.mem_append.1 hy with hy | hy
        · exact hi.all hlt y hy
        · rw [List.mem_singleton] at hy
          by_contra hny
          exact hc ⟨by rw [hg, ← hy]; exact hny, Or.inl hlt⟩

theorem searchRec_inv {bd : Band} {num : ℕ} (hfix : cfg.fix = false) (s : Search) :
    ∀ (xs : List ℝ) (rs : Records) (xr : ℝ × Records), RecInv wls G cfg bd num xs rs →
    searchRec wls G cfg bd num s rs = .ok xr →
    RecInv wls G cfg bd num (xs ++ asked (objective wls G cfg bd) s) xr.2 := by
  induction s with
  | done x =>
    intro xs rs xr hi h
    cases h
    simpa [asked] using hi
  | ask x next ih =>
    intro xs rs xr hi h
    obtain ⟨er, he, h⟩ := bind_ok.1 h
    obtain ⟨h1, h2⟩ := callOpt_inv hfix hi he
    have := ih er.1 (xs ++ [x]) er.2 xr h2 h
    unfold asked
    rw [h1]
    simpa using this

/-- The records handed to the figure. -/
theorem optimiseRec_inv {bd : Band} {num : ℕ} {s : Search} {f : Fit} {rs : Records} (h1 : 1 ≤ num)
    (hfix : cfg.fix = false) (h : optimiseRec wls G cfg bd num s = .ok (f, rs)) :
    List.Forall₂ (fun x p => p.2 = x ∧ objective wls G cfg bd x = .ok p.1)
      (allowedOnly cfg (asked (objective wls G cfg bd) s)) rs.tried ∧
    (∀ r ∈ rs.record, lstsq wls G cfg bd r.fit.g0 none false = .ok r.fit ∧
      infoOf G cfg bd r.fit.g0 = .ok r.info) ∧
    (rs.record.map (fun r => r.fit.g0)).Nodup ∧ rs.record.length ≤ num ∧
    f.g0 ∈ rs.record.map (fun r => r.fit.g0) ∧
    (∀ x ∈ rs.record.map (fun r => r.fit.g0), x = f.g0 ∨
      x ∈ allowedOnly cfg (asked (objective wls G cfg bd) s)) ∧
    (rs.record.length < num - 1 → ∀ x ∈ allowedOnly cfg (asked (objective wls G cfg bd) s),
      x ∈ rs.record.map (fun r => r.fit.g0)) ∧
    (rs.record.length = num → (rs.record.getLast?).map Rec.fit = some f) := by
  obtain ⟨xr, hx, h⟩ := bind_ok.1 h
  obtain ⟨f', hf, h⟩ := bind_ok.1 h
  obtain ⟨info, hin, h⟩ := bind_ok.1 h
  simp only [pure, Except.pure, Except.ok.injEq, Prod.mk.injEq] at h
  obtain ⟨rfl, rfl⟩ := h
  have hi := searchRec_inv hfix s [] {} xr ⟨by simp [allowedOnly], by simp, by simp, by simp,
    by simp, by simp [allowedOnly]⟩ hx
  rw [List.nil_append] at hi
  obtain ⟨hg, -⟩ := lstsq_misfit_bounds hfix hf
  simp only [recordFit, Bool.false_eq_true, if_false]
  refine ⟨hi.tried, ?_⟩
  have hl := hi.len
  by_cases hc : f'.g0 ∉ xr.2.record.map (fun r => r.fit.g0)
  · rw [if_pos ⟨hc, Or.inr trivial⟩]
    refine ⟨?_, ?_, ?_, by simp, ?_, ?_, by simp⟩
    · intro r hr
      rcases List.mem_append.1 hr with hr | hr
      · exact hi.record r hr
      · rw [List.mem_singleton] at hr
        subst hr
        rw [hg]
        exact ⟨hf, hin⟩
    · rw [List.map_append, List.nodup_append]
      refine ⟨hi.nodup, by simp, ?_⟩
      intro a ha b hb' hab
      simp only [List.map_cons, List.map_nil, List.mem_singleton] at hb'
      exact hc (by rw [← hb', ← hab]; exact ha)
    · rw [List.length_append, List.length_singleton]; omega
    · intro x hx
      rw [List.map_append] at hx
      rcases List.mem_append.1 hx with hx | hx
      · obtain ⟨r, hr, rfl⟩ := List.mem_map.1 hx
        exact Or.inr (hi.mem r hr)
      · left; simpa using hx
    · rw [List.length_append, List.length_singleton]
      intro hlt x hx
      rw [List.map_append]
      exact List.mem_append_left _ (hi.all (by omega) x hx)
  · rw [if_neg (fun h => hc h.1)]
    refine ⟨hi.record, hi.nodup, by omega, by simpa using hc, ?_, hi.all, by omega⟩
    intro x hx
    obtain ⟨r, hr, rfl⟩ := List.mem_map.1 hx
    exact Or.inr (hi.mem r hr)

end FigBand

open FigBand

/-- **C124**: requesting the figure does not change the result: the fit found while the steps are
recorded is the one found without, for every optimiser, and exceptions are the same. -/
theorem C124_same_result (wls : List ℝ → List (List ℝ) → List ℝ → List ℝ × ℝ) (G : Greens) (bd : Band)
    (num : ℕ) (s : Search) (hfix : cfg.fix = false) (hopt : cfg.optimize = true) :
    (optimiseRec wls G cfg bd num s).map (fun p => some p.1) =
      bandFit wls G (fun f => s.run f) cfg bd := by
  unfold bandFit optimiseRec
  simp only [hfix, hopt, Bool.false_eq_true, if_false, if_true]
  rw [← searchRec_fst bd num s {}]
  cases hs : searchRec wls G cfg bd num s {} with
  | error e => rfl
  | ok xr =>
    simp only [bind, Except.bind, Except.map]
    cases hl : lstsq wls G cfg bd xr.1 none false with
    | error e => rfl
    | ok f =>
      obtain ⟨info, hi⟩ := infoOf_of_lstsq hl
      simp [hi, pure, Except.pure]

namespace FigBand

theorem finite_points {f : ℝ → Py (WithTop ℝ)} {xs : List ℝ} {tr : List (WithTop ℝ × ℝ)}
    (h : List.Forall₂ (fun x p => p.2 = x ∧ f x = .ok p.1) xs tr) :
    tr.filterMap finitePoint = xs.filterMap (finiteAt f) := by
  induction h with
  | nil => rfl
  | @cons x p xs tr hp _ ih =>
    have : finitePoint p = finiteAt f x := by
      obtain ⟨e, x'⟩ := p
      obtain ⟨rfl, he⟩ := hp
      unfold finitePoint finiteAt
      rw [he]
      cases e <;> rfl
    rw [List.filterMap_cons, List.filterMap_cons, this, ih]

theorem tried_values {f : ℝ → Py (WithTop ℝ)} {xs : List ℝ} {tr : List (WithTop ℝ × ℝ)}
    (h : List.Forall₂ (fun x p => p.2 = x ∧ f x = .ok p.1) xs tr) : tr.map Prod.snd = xs := by
  induction h with
  | nil => rfl
  | cons hp _ ih => rw [List.map_cons, ih, hp.1]

theorem isInf_coe (y : ℝ) : isInf (y : WithTop ℝ) = false := rfl

open Classical in
theorem infinite_points {f : ℝ → Py (WithTop ℝ)} {xs : List ℝ} {tr : List (WithTop ℝ × ℝ)}
    (h : List.Forall₂ (fun x p => p.2 = x ∧ f x = .ok p.1) xs tr) :
    (tr.filter (fun p => isInf p.1)).map Prod.snd = xs.filter (fun x => f x = .ok ⊤) := by
  induction h with
  | nil => rfl
  | @cons x p xs tr hp _ ih =>
    obtain ⟨e, x'⟩ := p
    obtain ⟨rfl, he⟩ := hp
    simp only at he
    cases e with
    | top =>
      rw [List.filter_cons_of_pos rfl, List.filter_cons_of_pos (by rw [he]; simp), List.map_cons, ih]
    | coe y =>
      rw [List.filter_cons_of_neg (by simp [isInf_coe]), List.filter_cons_of_neg ?_, ih]
      rw [he]
      simp only [decide_eq_true_eq, Except.ok.injEq]
      exact WithTop.coe_ne_top

/-- The figure in case of success. -/
theorem plotOptimization_ok {num : ℕ} (h3 : 3 ≤ num) {ylim : List (ℝ × ℝ) → ℝ × ℝ}
    {pairs : List (String × String)} {rs : Records} {fig : OptFigure}
    (h : plotOptimization num ylim pairs rs = .ok fig) :
    ∃ y, fig.black = rs.tried.filterMap finitePoint ∧
      fig.red = (rs.tried.filter (fun p => isInf p.1)).map (fun p => (p.2, y)) ∧
      fig.blue = (rs.tried.getLast?).bind finitePoint ∧
      mapExc (optPanelOf num pairs (shownErr rs.tried y)) rs.record.zipIdx = .ok fig.panels := by
  unfold plotOptimization at h
  rw [if_neg (by omega)] at h
  simp only [bind, Except.bind, throw, throwThe, MonadExceptOf.throw, pure, Except.pure] at h
  split_ifs at h
  · omega
  · split at h
    · simp at h
    · rename_i hp
      simp only [Except.ok.injEq] at h
      rw [← h]
      exact ⟨_, rfl, rfl, rfl, hp⟩

end FigBand

open Classical in
/-- **C124**: the main axes show all steps of the optimisation: for each value of g0 inside of the
bounds for which the optimiser asked there is a black cross at its misfit or, if the misfit is
infinite, a red cross; all red crosses have the same height. -/
theorem C124_steps {bd : Band} {num : ℕ} (h3 : 3 ≤ num) {s : Search} {f : Fit} {rs : Records}
    (hfix : cfg.fix = false) (h : optimiseRec wls G cfg bd num s = .ok (f, rs))
    {ylim : List (ℝ × ℝ) → ℝ × ℝ} {pairs : List (String × String)} {fig : OptFigure}
    (hfig : plotOptimization num ylim pairs rs = .ok fig) :
    fig.black = (allowedOnly cfg (asked (objective wls G cfg bd) s)).filterMap
      (finiteAt (objective wls G cfg bd)) ∧
    fig.red.map Prod.fst = (allowedOnly cfg (asked (objective wls G cfg bd) s)).filter
      (fun x => objective wls G cfg bd x = .ok ⊤) ∧
    (∀ p ∈ fig.red, ∀ q ∈ fig.red, p.2 = q.2) ∧
    fig.black.length + fig.red.length =
      (allowedOnly cfg (asked (objective wls G cfg bd) s)).length := by
  obtain ⟨y, h1, h2, -, -⟩ := plotOptimization_ok h3 hfig
  obtain ⟨hi, -⟩ := optimiseRec_inv (by omega) hfix h
  refine ⟨by rw [h1, finite_points hi], ?_, ?_, ?_⟩
  · rw [h2, List.map_map, ← infinite_points hi]; rfl
  · rw [h2]
    intro p hp q hq
    obtain ⟨_, -, rfl⟩ := List.mem_map.1 hp
    obtain ⟨_, -, rfl⟩ := List.mem_map.1 hq
    rfl
  · rw [h1, h2, List.length_map, hi.length_eq]
    clear h1 h2 hi hfig h
    generalize rs.tried = l
    induction l with
    | nil => rfl
    | cons p l ih =>
      obtain ⟨e, x⟩ := p
      cases e with
      | top =>
        rw [List.filterMap_cons_none (by rfl), List.filter_cons_of_pos rfl, List.length_cons,
          List.length_cons]
        omega
      | coe y =>
        rw [List.filterMap_cons_some (b := (x, y)) (by rfl), List.filter_cons_of_neg (by simp [isInf_coe]),
          List.length_cons, List.length_cons]
        omega

/-- **C124**: for an odd number of panels (default 7) the figure can be drawn as soon as the optimiser
asked for one value inside of the bounds.  There are at most `num` panels, each in its own cell and for
another value of g0, the result of the optimisation among them; each panel shows the regression for its
value.  The number of a panel is repeated in the main axes at one of the drawn crosses, namely at its
value of g0.  Missing: even numbers of panels (violated, see C81) and coda normalisation. -/
theorem C124_panels_partial {rank : List ℝ → List (List ℝ) → ℕ} {num : ℕ} (hodd : num % 2 = 1) (h3 : 3 ≤ num)
    {s : Search} {f : Fit} {rs : Records} (hwls : IsWls rank wls) (hG : OneValuePerTime G)
    (hin : GoodInput cfg ps) (hc : cfg.codaNorm = false) (hfix : cfg.fix = false)
    (hfs : cfg.fixSites = false) (hsort : ∀ p ∈ ps, (p.coda.map Prod.fst).Pairwise (· ≤ ·))
    (h : optimiseRec wls G cfg (bandOf cfg.bulk ps) num s = .ok (f, rs))
    (hask : ∃ x ∈ asked (objective wls G cfg (bandOf cfg.bulk ps)) s, allowed cfg x)
    (ylim : List (ℝ × ℝ) → ℝ × ℝ) :
    ∃ fig, plotOptimization num ylim (ps.map PairData.pair) rs = .ok fig ∧
      fig.panels.length ≤ num ∧ (fig.panels.map OptPanel.cell).Nodup ∧
      (fig.panels.map (fun p => p.text.1)).Nodup ∧
      (∀ p ∈ fig.panels, p.cell.1 < (num + 1) / 2 ∧ p.cell.2 < (num + 1) / 2 ∧
        ∃ x, ShowsFit wls G cfg ps p x ∧ (x = f.g0 ∨
          x ∈ asked (objective wls G cfg (bandOf cfg.bulk ps)) s)) ∧
      (∃ p ∈ fig.panels, p.text.1 = f.g0) ∧
      (∀ p ∈ fig.panels, ∀ x e, p.mark = some (x, e) → x = p.text.1 ∧
        (x ∈ asked (objective wls G cfg (bandOf cfg.bulk ps)) s → allowed cfg x →
          ∃ y : ℝ, e = (y : WithTop ℝ) ∧ ((x, y) ∈ fig.black ∨ (x, y) ∈ fig.red))) := by
  obtain ⟨h1, h2, h4, h5, h6, h7, -, -⟩ := optimiseRec_inv (by omega) hfix h
  set obj := objective wls G cfg (bandOf cfg.bulk ps) with hobj
  have hps := hin.some_pair
  have htn : rs.tried ≠ [] := by
    intro hn
    obtain ⟨x, hx, hax⟩ := hask
    have : x ∈ allowedOnly cfg (asked obj s) := List.mem_filter.2 ⟨hx, by simpa using hax⟩
    rw [hn] at h1
    rw [List.forall₂_nil_right_iff.1 h1] at this
    simp at this
  have hrn : rs.record ≠ [] := by
    intro hn; rw [hn] at h6; simp at h6
  -- each recorded fit can be drawn
  have hdraw : ∀ r ∈ rs.record, ∃ plot w0, plotLstsq (ps.map PairData.pair) r.fit r.info = .ok plot ∧
      pyGet r.fit.W 0 = .ok w0 ∧ ∀ c l m, ShowsFit wls G cfg ps ⟨c, l, plot, (r.fit.g0, r.fit.b, w0), m⟩
        r.fit.g0 := by
    intro r hr
    obtain ⟨hl, hinf⟩ := h2 r hr
    obtain ⟨gs, Rfix, k1, k2, k3, k4, -, -, k5⟩ := lstsq_ok hin.pairs hG (by simp) hl
    simp only [Bool.false_eq_true, if_false] at k5
    obtain ⟨-, -, k⟩ := free_fit hwls hc hfs hin.R0 hps hin.weights k2 k3 k4 (fun _ => rfl) k5
    obtain ⟨plot, q1, q2, -, q3, -⟩ := C82_regression_figure hin.pairs k3 hps hsort k1 k4 k.lenR k.lenW
      rfl rfl (fun p hp => k.posR _ (mem_stations.2 ⟨p, hp, rfl⟩))
      (fun p hp => k.posW _ (mem_eventids.2 ⟨p, hp, rfl⟩)) hinf
    have hw0 := first_energy cfg.bulk hps k.lenW
    refine ⟨plot, _, q1, pyGet_ok.2 hw0, ?_⟩
    intro c l m
    refine ⟨r.fit, gs, _, _, ps.head hps, hl, k1, rfl, rfl, List.head?_eq_some_head hps, rfl, q2, q3⟩
  obtain ⟨fig, hfig⟩ : ∃ fig, plotOptimization num ylim (ps.map PairData.pair) rs = .ok fig := by
    obtain ⟨panels, hpan⟩ : ∃ l, mapExc (optPanelOf num (ps.map PairData.pair) (shownErr rs.tried
        (((ylim (rs.tried.filterMap finitePoint)).1 + (ylim (rs.tried.filterMap finitePoint)).2) / 2)))
        rs.record.zipIdx = .ok l := by
      refine Site.mapExc_total ?_
      intro p hp
      obtain ⟨plot, w0, q1, q2, -⟩ := hdraw p.1 (List.fst_mem_of_mem_zipIdx hp)
      exact ⟨_, bind_ok.2 ⟨_, q1, bind_ok.2 ⟨_, q2, rfl⟩⟩⟩
    unfold plotOptimization
    rw [if_neg (by omega), if_neg htn, if_neg (by omega), if_neg hrn]
    exact ⟨_, bind_ok.2 ⟨_, hpan, rfl⟩⟩
  obtain ⟨y, e1, e2, -, hpan⟩ := plotOptimization_ok h3 hfig
  rw [mapExc_ok] at hpan
  have hlen : fig.panels.length = rs.record.length := by
    rw [← hpan.length_eq, List.length_zipIdx]
  -- panel and record with the same index
  have hat : ∀ (i : ℕ) (hi : i < fig.panels.length) (hi' : i < rs.record.length),
      fig.panels[i].cell = optPanel num i ∧ fig.panels[i].text.1 = rs.record[i].fit.g0 ∧
      ShowsFit wls G cfg ps fig.panels[i] rs.record[i].fit.g0 ∧
      ∀ x e, fig.panels[i].mark = some (x, e) → x = rs.record[i].fit.g0 ∧
        e = shownErr rs.tried y rs.record[i].fit.err := by
    intro i hi hi'
    have hg := List.Forall₂.get hpan (i := i) (by simpa using hi') hi
    simp only [List.get_eq_getElem, List.getElem_zipIdx, Nat.zero_add] at hg
    obtain ⟨plot, w0, q1, q2, q3⟩ := hdraw rs.record[i] (List.getElem_mem hi')
    obtain ⟨plot', p1, hg⟩ := bind_ok.1 hg
    obtain ⟨w0', p2, hg⟩ := bind_ok.1 hg
    rw [q1, Except.ok.injEq] at p1
    rw [q2, Except.ok.injEq] at p2
    subst p1 p2
    simp only [pure, Except.pure, Except.ok.injEq] at hg
    rw [← hg]
    refine ⟨rfl, rfl, q3 _ _ _, ?_⟩
    intro x e hm
    simp only at hm
    split_ifs at hm <;> simp_all
  obtain ⟨c1, c2⟩ := C81_panels_partial num hodd h3
  have htext : fig.panels.map (fun p => p.text.1) = rs.record.map (fun r => r.fit.g0) := by
    apply List.ext_getElem
    · simp [hlen]
    · intro i i1 i2
      simp only [List.getElem_map]
      exact (hat i (by simpa using i1) (by simpa using i2)).2.1
  refine ⟨fig, hfig, by omega, ?_, by rw [htext]; exact h4, ?_, ?_, ?_⟩
  · rw [List.nodup_iff_injective_getElem]
    rintro ⟨i, hi⟩ ⟨j, hj⟩ hij
    simp only [List.length_map] at hi hj
    simp only [List.getElem_map] at hij
    rw [(hat i hi (by omega)).1, (hat j hj (by omega)).1] at hij
    rw [Fin.mk.injEq]
    exact c2 i j (by omega) (by omega) hij
  · intro p hp
    obtain ⟨i, hi, rfl⟩ := List.mem_iff_getElem.1 hp
    have hi' : i < rs.record.length := by omega
    obtain ⟨a1, a2, a3, -⟩ := hat i hi hi'
    obtain ⟨d1, d2, -⟩ := c1 i (by omega)
    rw [a1]
    refine ⟨d1, d2, _, a3, ?_⟩
    rcases h7 _ (List.mem_map_of_mem (List.getElem_mem hi')) with h | h
    · exact Or.inl h
    · exact Or.inr (List.mem_of_mem_filter h)
  · rw [← htext] at h6
    obtain ⟨p, hp, e⟩ := List.mem_map.1 h6
    exact ⟨p, hp, e⟩
  · intro p hp x e hm
    obtain ⟨i, hi, rfl⟩ := List.mem_iff_getElem.1 hp
    have hi' : i < rs.record.length := by omega
    obtain ⟨-, a2, -, a4⟩ := hat i hi hi'
    obtain ⟨m1, m2⟩ := a4 x e hm
    refine ⟨by rw [a2, m1], ?_⟩
    intro hx hax
    have hxa : x ∈ allowedOnly cfg (asked obj s) := List.mem_filter.2 ⟨hx, by simpa using hax⟩
    obtain ⟨hl, -⟩ := h2 _ (List.getElem_mem hi')
    have hox : obj x = .ok rs.record[i].fit.err := by
      rw [hobj]
      unfold objective
      have hb : ¬ ∃ gb, cfg.g0Bounds = some gb ∧ ¬ (gb.1 ≤ x ∧ x ≤ gb.2) :=
        fun hb => (outOfBounds_iff cfg x).1 hb hax
      rw [if_neg hb, m1, hl]; rfl
    cases herr : rs.record[i].fit.err with
    | coe z =>
      rw [herr] at m2 hox
      refine ⟨z, m2, Or.inl ?_⟩
      rw [e1, finite_points h1, List.mem_filterMap]
      refine ⟨x, hxa, ?_⟩
      unfold finiteAt
      rw [hox]; rfl
    | top =>
      rw [herr] at m2 hox
      obtain ⟨q, hq, q1, q2⟩ : ∃ q ∈ rs.tried, q.2 = x ∧ q.1 = ⊤ := by
        have hxt : x ∈ rs.tried.map Prod.snd := by
          have : rs.tried.map Prod.snd = allowedOnly cfg (asked obj s) := by
            exact tried_values h1
          rw [this]; exact hxa
        obtain ⟨q, hq, e⟩ := List.mem_map.1 hxt
        refine ⟨q, hq, e, ?_⟩
        obtain ⟨j, hj, rfl⟩ := List.mem_iff_getElem.1 hq
        have := List.Forall₂.get h1 (i := j) (by rw [h1.length_eq]; exact hj) hj
        simp only [List.get_eq_getElem] at this
        obtain ⟨b1, b2⟩ := this
        rw [← b1, e, hox, Except.ok.injEq] at b2
        exact b2.symm
      have hany : (rs.tried.map Prod.fst).any isInf = true := by
        rw [List.any_eq_true]
        exact ⟨q.1, List.mem_map_of_mem hq, by rw [q2]; rfl⟩
      have hsh : shownErr rs.tried y ⊤ = (y : WithTop ℝ) := by
        show (if (rs.tried.map Prod.fst).any isInf then (y : WithTop ℝ) else ⊤) = _
        rw [hany]; rfl
      refine ⟨y, by rw [m2, hsh], Or.inr ?_⟩
      rw [e2, List.mem_map]
      exact ⟨q, List.mem_filter.2 ⟨hq, by rw [q2]; rfl⟩, by rw [q1]⟩

/-- **C124** (part): the panels are numbered in the order of the steps, and the last panel of a full
figure is labelled as best and shows the result.  Missing: if the result was among the first tried
values no panel is labelled as best (violated, see below). -/
theorem C124_labels_partial {bd : Band} {num : ℕ} (h3 : 3 ≤ num) {s : Search} {f : Fit} {rs : Records}
    (hfix : cfg.fix = false) (h : optimiseRec wls G cfg bd num s = .ok (f, rs))
    {ylim : List (ℝ × ℝ) → ℝ × ℝ} {pairs : List (String × String)} {fig : OptFigure}
    (hfig : plotOptimization num ylim pairs rs = .ok fig) :
    (∀ (i : ℕ) (p : OptPanel), fig.panels[i]? = some p →
      p.label = if i + 1 < num then some (i + 1) else none) ∧
    (fig.panels.length = num → ∃ p, fig.panels.getLast? = some p ∧ p.label = none ∧
      p.text.1 = f.g0 ∧ p.text.2.1 = f.b) := by
  obtain ⟨y, -, -, -, hpan⟩ := plotOptimization_ok h3 hfig
  obtain ⟨-, -, -, h5, -, -, -, hlast⟩ := optimiseRec_inv (by omega) hfix h
  rw [mapExc_ok] at hpan
  have hlen : fig.panels.length = rs.record.length := by
    rw [← hpan.length_eq, List.length_zipIdx]
  have hat : ∀ (i : ℕ) (hi : i < fig.panels.length) (hi' : i < rs.record.length),
      (fig.panels[i].label = if i + 1 < num then some (i + 1) else none) ∧
      fig.panels[i].text.1 = rs.record[i].fit.g0 ∧ fig.panels[i].text.2.1 = rs.record[i].fit.b := by
    intro i hi hi'
    have hg := List.Forall₂.get hpan (i := i) (by simpa using hi') hi
    simp only [List.get_eq_getElem, List.getElem_zipIdx, Nat.zero_add] at hg
    obtain ⟨plot', -, hg⟩ := bind_ok.1 hg
    obtain ⟨w0', -, hg⟩ := bind_ok.1 hg
    simp only [pure, Except.pure, Except.ok.injEq] at hg
    rw [← hg]
    refine ⟨?_, rfl, rfl⟩
    simp only
    by_cases hlt : i + 1 < num
    · rw [if_pos hlt, if_pos (by omega)]
    · rw [if_neg hlt, if_neg (by omega)]
  constructor
  · intro i p hp
    obtain ⟨hi, rfl⟩ := List.getElem?_eq_some_iff.1 hp
    exact (hat i hi (by omega)).1
  · intro hn
    have hl := hlast (by omega)
    have hn1 : num - 1 < fig.panels.length := by omega
    have hn2 : num - 1 < rs.record.length := by omega
    obtain ⟨a1, a2, a3⟩ := hat (num - 1) hn1 hn2
    refine ⟨fig.panels[num - 1], ?_, ?_, ?_⟩
    · rw [List.getLast?_eq_getElem?, hn, List.getElem?_eq_getElem hn1]
    · rw [a1, if_neg (by omega)]
    · rw [List.getLast?_eq_getElem?, show rs.record.length - 1 = num - 1 by omega,
        List.getElem?_eq_getElem hn2, Option.map_some, Option.some.injEq] at hl
      rw [a2, a3, hl]
      exact ⟨rfl, rfl⟩

/-- **C124** (part): the blue cross marks the value inside of the bounds for which the optimiser asked
last, if its misfit is finite.  Missing: this is in general not the result (violated, see below). -/
theorem C124_blue_partial {bd : Band} {num : ℕ} (h3 : 3 ≤ num) {s : Search} {f : Fit} {rs : Records}
    (hfix : cfg.fix = false) (h : optimiseRec wls G cfg bd num s = .ok (f, rs))
    {ylim : List (ℝ × ℝ) → ℝ × ℝ} {pairs : List (String × String)} {fig : OptFigure}
    (hfig : plotOptimization num ylim pairs rs = .ok fig) :
    fig.blue = ((allowedOnly cfg (asked (objective wls G cfg bd) s)).getLast?).bind
      (finiteAt (objective wls G cfg bd)) := by
  obtain ⟨y, -, -, h2, -⟩ := plotOptimization_ok h3 hfig
  obtain ⟨hi, -⟩ := optimiseRec_inv (by omega) hfix h
  rw [h2]
  have hr := List.forall₂_reverse_iff.2 hi
  rw [List.getLast?_eq_head?_reverse, List.getLast?_eq_head?_reverse]
  revert hr
  generalize rs.tried.reverse = a
  generalize (allowedOnly cfg (asked (objective wls G cfg bd) s)).reverse = b
  intro hr
  cases hr with
  | nil => rfl
  | @cons x p _ _ hp _ =>
    obtain ⟨e, x'⟩ := p
    obtain ⟨rfl, he⟩ := hp
    simp only at he
    simp only [List.head?_cons, Option.bind_some]
    unfold finitePoint finiteAt
    rw [he]
    cases e <;> rfl

/-! ## A case which meets the hypotheses -/

namespace OptExample

open InvertExample FitsExample

/-- Green's function decaying with rate g0, the data of the example have the coda decay 1. -/
noncomputable def G2 : Greens := fun _ ts _ g0 => .ok (ts.map (fun t => exp (-g0 * t)))

noncomputable def cfgOpt : Cfg := { cfg1 with optimize := true }

/-- An optimiser which tries 1/2, 3/2 and 2, and returns the value with the smallest misfit. -/
noncomputable def search2 : Search := .ask (1 / 2) fun _ => .ask (3 / 2) fun _ => .ask 2 fun _ => .done (1 / 2)

theorem goodOpt : GoodInput cfgOpt ps1 := ⟨good1.pairs, good1.some_pair, good1.weights, good1.R0⟩

theorem one_value_G2 : OneValuePerTime G2 := by
  intro r ts v g l h
  simp only [G2, Except.ok.injEq] at h
  rw [← h]; simp

noncomputable def gs2 (g : ℝ) : List (List ℝ × ℝ) :=
  List.replicate 3 ([exp (-g * 1), exp (-g * 2)], 0)

theorem greens2 (g : ℝ) : IsGreens G2 cfgOpt g ps1 (gs2 g) := by
  simp [IsGreens, ps1, pair1, gsmooth, smoothFunc, cfgOpt, cfg1, G2, gs2, List.replicate]

open Classical in
/-- The fit for a value `g` of g0 is exact with `b = 1 - g`. -/
theorem fit2 (g : ℝ) : lstsq someWls G2 cfgOpt (bandOf cfgOpt.bulk ps1) g none false =
    .ok ⟨if outside cfgOpt (1 - g) g then ⊤ else 0, g, 1 - g, [1, 3], [2, 1 / 2]⟩ := by
  have hs : stations (bandOf cfgOpt.bulk ps1) = ["A", "B"] := by
    simp [stations, ps1, pair1, bandOf, fromKeys, PairData.pair]
  have he : eventids (bandOf cfgOpt.bulk ps1) = ["e1", "e2"] := by
    simp [eventids, ps1, pair1, bandOf, fromKeys, PairData.pair]
  have h := lstsq_exact_bounds (wls := someWls) (G := G2) (cfg := cfgOpt) (ps := ps1) (g0 := g)
    (b := 1 - g) (R := R1) (W := W1) someWls_spec goodOpt rfl rfl (greens2 g) ps1_ne ?_
    (fun _ _ => R1_pos _) (fun _ _ => W1_pos _) ?_ ?_ connected1 (fun _ => two_times1)
  · rw [hs, he] at h
    have hf : cfgOpt.fix = false := rfl
    simp only [hf, Bool.false_eq_true, if_false, true_and] at h
    rw [h]
    simp [R1, W1]
  · intro s hs
    simp only [samplesOf, ps1, pair1, cfgOpt, cfg1, gs2, List.replicate] at hs
    simp at hs
    rcases hs with rfl | rfl | rfl | rfl | rfl | rfl <;> exact exp_pos _
  · intro s hs
    simp only [samplesOf, ps1, pair1, cfgOpt, cfg1, gs2, List.replicate] at hs
    simp only [List.zip_cons_cons, List.zip_nil_right, List.flatMap_cons, List.flatMap_nil,
      List.zipWith_cons_cons, List.zipWith_nil_right, List.append_nil, List.cons_append,
      List.nil_append, Bool.false_eq_true, if_false, List.mem_cons, List.not_mem_nil, or_false] at hs
    have e1 : exp (-1 : ℝ) = exp (-g * 1) * exp (-(1 - g) * 1) := by rw [← exp_add]; congr 1; ring
    have e2 : exp (-2 : ℝ) = exp (-g * 2) * exp (-(1 - g) * 2) := by
      rw [← exp_add]; congr 1; ring
    rcases hs with rfl | rfl | rfl | rfl | rfl | rfl <;> simp only [predicted] <;>
      first
      | (rw [e1]; ring)
      | (rw [e2]; ring)
  · unfold meanLogR
    rw [hs]
    simp [R1, cfgOpt, cfg1]

theorem in2 : ¬ outside cfgOpt (1 - 1 / 2) (1 / 2) := by
  rintro (⟨bb, h1, h2⟩ | ⟨gb, h1, h2⟩)
  · simp only [cfgOpt, cfg1, Option.some.injEq] at h1
    rw [← h1] at h2; norm_num at h2
  · simp only [cfgOpt, cfg1, Option.some.injEq] at h1
    rw [← h1] at h2; norm_num at h2

theorem out2 : outside cfgOpt (1 - 3 / 2) (3 / 2) :=
  Or.inl ⟨_, rfl, by norm_num⟩

theorem bound2 (g : ℝ) : outOfBounds cfgOpt g ↔ ¬ (1 / 2 ≤ g ∧ g ≤ 3 / 2) := by
  unfold FigBand.outOfBounds
  simp only [cfgOpt, cfg1, Option.some.injEq]
  exact ⟨fun ⟨_, h1, h2⟩ => by rw [← h1] at h2; exact h2, fun h => ⟨_, rfl, h⟩⟩

/-- The run of the example. -/
theorem run2 : ∃ info info', optimiseRec someWls G2 cfgOpt (bandOf cfgOpt.bulk ps1) 7 search2 =
    .ok (⟨0, 1 / 2, 1 - 1 / 2, [1, 3], [2, 1 / 2]⟩,
      ⟨[⟨⟨0, 1 / 2, 1 - 1 / 2, [1, 3], [2, 1 / 2]⟩, info⟩,
        ⟨⟨⊤, 3 / 2, 1 - 3 / 2, [1, 3], [2, 1 / 2]⟩, info'⟩], [(0, 1 / 2), (⊤, 3 / 2)]⟩) := by
  have f1 := fit2 (1 / 2)
  have f2 := fit2 (3 / 2)
  rw [if_neg in2] at f1
  rw [if_pos out2] at f2
  obtain ⟨info, i1⟩ := infoOf_of_lstsq f1
  obtain ⟨info', i2⟩ := infoOf_of_lstsq f2
  refine ⟨info, info', ?_⟩
  have b1 : ¬ outOfBounds cfgOpt (1 / 2) := by rw [bound2]; norm_num
  have b2 : ¬ outOfBounds cfgOpt (3 / 2) := by rw [bound2]; norm_num
  have b3 : outOfBounds cfgOpt 2 := by rw [bound2]; norm_num
  unfold optimiseRec search2
  simp only [searchRec, callOpt, if_neg b1, if_neg b2, if_pos b3, f1, f2, i1, i2, bind, Except.bind,
    pure, Except.pure, recordFit]
  norm_num

theorem asked2 : asked (objective someWls G2 cfgOpt (bandOf cfgOpt.bulk ps1)) search2 = [1 / 2, 3 / 2, 2] := by
  have b1 : ¬ outOfBounds cfgOpt (1 / 2) := by rw [bound2]; norm_num
  have b2 : ¬ outOfBounds cfgOpt (3 / 2) := by rw [bound2]; norm_num
  have b3 : outOfBounds cfgOpt 2 := by rw [bound2]; norm_num
  have f1 := fit2 (1 / 2)
  have f2 := fit2 (3 / 2)
  unfold FigBand.outOfBounds at b1 b2 b3
  simp only [search2, asked, objective, if_neg b1, if_neg b2, if_pos b3, f1, f2, bind, Except.bind,
    pure, Except.pure]

end OptExample

open InvertExample OptExample in
example : bandFit someWls G2 (fun f => search2.run f) cfgOpt (bandOf cfgOpt.bulk ps1) =
    .ok (some ⟨0, 1 / 2, 1 - 1 / 2, [1, 3], [2, 1 / 2]⟩) := by
  obtain ⟨info, info', hr⟩ := run2
  rw [← C124_same_result _ _ _ 7 search2 rfl rfl, hr]
  rfl

open InvertExample FitsExample OptExample in
/-- The figure of the example: two panels, a black cross for 1/2 and a red one for 3/2. -/
example (ylim : List (ℝ × ℝ) → ℝ × ℝ) : ∃ f rs fig,
    optimiseRec someWls G2 cfgOpt (bandOf cfgOpt.bulk ps1) 7 search2 = .ok (f, rs) ∧
    plotOptimization 7 ylim (ps1.map PairData.pair) rs = .ok fig ∧
    fig.black.length + fig.red.length = 2 ∧ ∃ p ∈ fig.panels, p.text.1 = 1 / 2 := by
  obtain ⟨info, info', hr⟩ := run2
  obtain ⟨fig, h1, -, -, -, -, h2, -⟩ := C124_panels_partial (num := 7) rfl (by norm_num) someWls_spec one_value_G2 goodOpt
    rfl rfl rfl (by
      intro p hp
      simp only [ps1, List.mem_cons, List.not_mem_nil, or_false] at hp
      rcases hp with rfl | rfl | rfl <;> simp [pair1]) hr (by
      rw [asked2]
      refine ⟨1 / 2, by simp, ?_⟩
      by_contra hn
      rw [← outOfBounds_iff, bound2] at hn
      norm_num at hn) ylim
  refine ⟨_, _, fig, hr, h1, ?_, h2⟩
  obtain ⟨y, e1, e2, -, -⟩ := plotOptimization_ok (by norm_num) h1
  rw [e1, e2]
  rfl

open InvertExample FitsExample OptExample in
/-- A figure with three panels: the result is a new value and its panel is labelled as best. -/
example (ylim : List (ℝ × ℝ) → ℝ × ℝ) : ∃ f rs fig,
    optimiseRec someWls G2 cfgOpt (bandOf cfgOpt.bulk ps1) 3
      (.ask (1 / 2) fun _ => .ask (3 / 2) fun _ => .done (2 / 3)) = .ok (f, rs) ∧
    plotOptimization 3 ylim (ps1.map PairData.pair) rs = .ok fig ∧ fig.panels.length = 3 ∧
    ∃ p, fig.panels.getLast? = some p ∧ p.label = none ∧ p.text.1 = 2 / 3 := by
  have f1 := fit2 (1 / 2)
  have f2 := fit2 (3 / 2)
  have f3 := fit2 (2 / 3)
  obtain ⟨info, i1⟩ := infoOf_of_lstsq f1
  obtain ⟨info', i2⟩ := infoOf_of_lstsq f2
  obtain ⟨info'', i3⟩ := infoOf_of_lstsq f3
  have b1 : ¬ FigBand.outOfBounds cfgOpt (1 / 2) := by rw [bound2]; norm_num
  have b2 : ¬ FigBand.outOfBounds cfgOpt (3 / 2) := by rw [bound2]; norm_num
  obtain ⟨f, rs, hr, hg, hl⟩ : ∃ f rs, optimiseRec someWls G2 cfgOpt (bandOf cfgOpt.bulk ps1) 3
      (.ask (1 / 2) fun _ => .ask (3 / 2) fun _ => .done (2 / 3)) = .ok (f, rs) ∧ f.g0 = 2 / 3 ∧
      rs.record.length = 3 := by
    unfold optimiseRec
    simp only [searchRec, callOpt, if_neg b1, if_neg b2, f1, f2, f3, i1, i2, i3, bind, Except.bind,
      pure, Except.pure, recordFit]
    refine ⟨_, _, rfl, rfl, ?_⟩
    norm_num
  have hask : asked (objective someWls G2 cfgOpt (bandOf cfgOpt.bulk ps1))
      (.ask (1 / 2) fun _ => .ask (3 / 2) fun _ => .done (2 / 3)) = [1 / 2, 3 / 2] := by
    unfold FigBand.outOfBounds at b1 b2
    simp only [asked, objective, if_neg b1, if_neg b2, f1, f2, bind, Except.bind, pure, Except.pure]
  obtain ⟨fig, h1, -, -, h2, -⟩ := C124_panels_partial (num := 3) rfl (by norm_num) someWls_spec
    one_value_G2 goodOpt rfl rfl rfl (by
      intro p hp
      simp only [ps1, List.mem_cons, List.not_mem_nil, or_false] at hp
      rcases hp with rfl | rfl | rfl <;> simp [pair1]) hr (by
      rw [hask]
      refine ⟨1 / 2, by simp, ?_⟩
      by_contra hn
      rw [← outOfBounds_iff, bound2] at hn
      norm_num at hn) ylim
  have hpl : fig.panels.length = 3 := by
    obtain ⟨y, -, -, -, hp⟩ := plotOptimization_ok (by norm_num) h1
    rw [mapExc_length hp, List.length_zipIdx, hl]
  obtain ⟨p, p1, p2, p3, -⟩ := (C124_labels_partial (by norm_num) rfl hr h1).2 hpl
  exact ⟨f, rs, fig, hr, h1, hpl, p, p1, p2, by rw [p3, hg]⟩

open InvertExample FitsExample OptExample in
/-- **C124** fails for the marks of the best fit: the result is the value 1/2 with zero misfit, but no
cross is blue, because the value tried last has an infinite misfit, and no panel is labelled as
best. -/
theorem C124_best_counterexample (ylim : List (ℝ × ℝ) → ℝ × ℝ) : ∃ f rs fig,
    optimiseRec someWls G2 cfgOpt (bandOf cfgOpt.bulk ps1) 7 search2 = .ok (f, rs) ∧
    f.g0 = 1 / 2 ∧ f.err = 0 ∧
    plotOptimization 7 ylim (ps1.map PairData.pair) rs = .ok fig ∧
    (1 / 2, 0) ∈ fig.black ∧ fig.blue = none ∧ ∀ p ∈ fig.panels, p.label ≠ none := by
  obtain ⟨info, info', hr⟩ := run2
  obtain ⟨fig, h1, -, -, -, -, h2, -⟩ := C124_panels_partial (num := 7) rfl (by norm_num) someWls_spec one_value_G2 goodOpt
    rfl rfl rfl (by
      intro p hp
      simp only [ps1, List.mem_cons, List.not_mem_nil, or_false] at hp
      rcases hp with rfl | rfl | rfl <;> simp [pair1]) hr (by
      rw [asked2]
      refine ⟨1 / 2, by simp, ?_⟩
      by_contra hn
      rw [← outOfBounds_iff, bound2] at hn
      norm_num at hn) ylim
  refine ⟨_, _, fig, hr, rfl, rfl, h1, ?_⟩
  obtain ⟨y, e1, -, e3, e4⟩ := plotOptimization_ok (by norm_num) h1
  refine ⟨by rw [e1]; exact List.mem_cons_self, by rw [e3]; rfl, ?_⟩
  rw [mapExc_ok] at e4
  intro p hp
  obtain ⟨i, hi, rfl⟩ := List.mem_iff_getElem.1 hp
  have hl := e4.length_eq
  have hg := List.Forall₂.get e4 (i := i) (by omega) hi
  simp only [List.length_zipIdx, List.length_cons, List.length_nil] at hl
  simp only [List.get_eq_getElem, List.getElem_zipIdx, Nat.zero_add] at hg
  obtain ⟨_, -, hg⟩ := bind_ok.1 hg
  obtain ⟨_, -, hg⟩ := bind_ok.1 hg
  simp only [pure, Except.pure, Except.ok.injEq] at hg
  rw [← hg]
  simp only
  rw [if_pos (by omega)]
  simp

end Qopen
