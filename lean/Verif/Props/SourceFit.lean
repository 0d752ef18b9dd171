import Verif.Props.SourceModel
import Verif.Lemmas.Util
import Verif.Spec.Stat

/-!
# C62, C63, C64: fit of source spectra
-/

namespace Qopen

open Real Source Spec Util

set_option linter.unusedSimpArgs false

theorem dot_one (p : List ℝ) : dot [1] p = p.getD 0 0 := by
  cases p <;> simp [dot]

theorem dot_two (c : ℝ) (p : List ℝ) : dot [1, c] p = p.getD 0 0 + c * p.getD 1 0 := by
  match p with
  | [] => simp [dot]
  | [a] => simp [dot]
  | a :: b :: p => simp [dot]

theorem points_eq (freq : List ℝ) (omM : List Cell) :
    (freq.zip omM).filterMap (fun p => p.2.val?.map (fun x => (p.1, x))) = points freq omM := by
  unfold points
  congr 1
  funext p
  cases p.2 <;> rfl

theorem zipWith_maps {α : Type} (l : List α) (f : α → ℝ) (g : α → List ℝ) (h : ℝ → List ℝ → ℝ) :
    List.zipWith h (l.map f) (l.map g) = l.map (fun a => h (f a) (g a)) := by
  induction l with
  | nil => rfl
  | cons a l ih => simp [ih]

/-- The misfit of `lstsq` is the misfit of the curve with the returned moment. -/
theorem lstsq_misfit (pts : List (ℝ × ℝ)) (par : List ℝ) (fc n g : ℝ) (hf : ∀ p ∈ pts, 0 < p.1)
    (hc : 0 < fc) :
    sqrt (meanSq (pts.map (fun p => log p.2 - log (sourceModel p.1 1 fc n g)))
      (pts.map (fun _ => [1])) par) =
    rmsLogMisfit pts (fun f => sourceModel f (exp (par.getD 0 0)) fc n g) := by
  unfold meanSq rmsLogMisfit
  rw [zipWith_maps, List.length_map]
  congr 3
  apply List.map_congr_left
  intro p hp
  have h0 := hf p hp
  have hx : 0 < (1 + (p.1 / fc) ^ (n * g)) ^ (-1 / g) := by positivity
  simp only [dot_one, sourceModel]
  rw [log_mul (by norm_num) hx.ne', log_mul (exp_pos _).ne' hx.ne', log_exp, log_one]
  ring

theorem lstsqab_misfit (pts : List (ℝ × ℝ)) (par : List ℝ) (fc a : ℝ) (hf : ∀ p ∈ pts, 0 < p.1)
    (hc : 0 < fc) (hb : par.getD 1 0 ≠ 0) :
    sqrt (meanSq (pts.map (fun p => log p.2))
      (pts.map (fun p => [1, log (sourceModelAB p.1 1 fc a 1)])) par) =
    rmsLogMisfit pts (fun f => sourceModel f (exp (par.getD 0 0)) fc (a * par.getD 1 0)
      (1 / par.getD 1 0)) := by
  unfold meanSq rmsLogMisfit
  rw [zipWith_maps, List.length_map]
  congr 3
  apply List.map_congr_left
  intro p hp
  have h0 := hf p hp
  set b := par.getD 1 0
  have e1 : a * b * (1 / b) = a := by field_simp
  have e2 : -1 / (1 / b) = -b := by field_simp
  have hx : 0 < 1 + (p.1 / fc) ^ a := by positivity
  simp only [dot_two, sourceModel, sourceModelAB, e1, e2]
  rw [log_mul (exp_pos _).ne' (by positivity), log_exp, one_mul, log_rpow hx, log_rpow hx]
  ring

/-- What `fit_sds` reports for a parameter: the entry of the returned dictionary, or
else the value that was given as an option. -/
def reported (r : Dict String Cell) (given : Option ℝ) (key : String) : Option ℝ :=
  match r.get? key with
  | some c => c.val?
  | none => given

/-- A result of the inner fit with given curve parameters. -/
def FitShape (model : List ℝ → List (List ℝ) → List ℝ) (pts : List (ℝ × ℝ)) (o : Opts)
    (r : Dict String Cell) : Prop :=
    (∃ fc n g, (o.n.isSome ∨ o.gamma.isSome) ∧
      reported r o.fc "fc" = some fc ∧ reported r o.n "n" = some n ∧
      reported r o.gamma "gamma" = some g ∧
      r.get? "M0" = some (.num (exp ((model
        (pts.map (fun p => log p.2 - log (sourceModel p.1 1 fc n g)))
        (pts.map (fun _ => [1]))).getD 0 0))) ∧
      r.get? "fit_error" = some (.num (sqrt (meanSq
        (pts.map (fun p => log p.2 - log (sourceModel p.1 1 fc n g))) (pts.map (fun _ => [1]))
        (model (pts.map (fun p => log p.2 - log (sourceModel p.1 1 fc n g)))
        (pts.map (fun _ => [1]))))))) ∨
    (∃ fc a par, o.n = none ∧ o.gamma = none ∧
      par = model (pts.map (fun p => log p.2))
        (pts.map (fun p => [1, log (sourceModelAB p.1 1 fc a 1)])) ∧
      reported r o.fc "fc" = some fc ∧ reported r o.n "n" = some (a * par.getD 1 0) ∧
      reported r o.gamma "gamma" = some (1 / par.getD 1 0) ∧
      r.get? "M0" = some (.num (exp (par.getD 0 0))) ∧
      r.get? "fit_error" = some (.num (sqrt (meanSq (pts.map (fun p => log p.2))
        (pts.map (fun p => [1, log (sourceModelAB p.1 1 fc a 1)])) par))))

theorem fitAt_shape (model : List ℝ → List (List ℝ) → List ℝ)
    (pts : List (ℝ × ℝ)) (o : Opts) (xopt : List ℝ) (r : Dict String Cell)
    (hu : unknowns o ≠ []) (h : fitAt model pts o (unknowns o) xopt = .ok r) :
    FitShape model pts o r := by
  obtain ⟨fc, n, g, fcl, nl, gl, fc0, n0, g0, fb, np⟩ := o
  match xopt with
  | [] =>
    cases fc <;> cases n <;> cases g <;>
    simp [fitAt, unknowns, wrapper, lstsq, lstsqab, bind, Except.bind] at h hu
  | [x] =>
    cases fc <;> cases n <;> cases g <;>
    simp [fitAt, unknowns, wrapper, lstsq, lstsqab, bind, Except.bind, Dict.update, Dict.set,
      translateAB, Dict.get?_cons, Dict.pop] at h hu
    all_goals subst h
    all_goals simp [FitShape, reported, Dict.get?_cons]
    all_goals first | exact ⟨x, rfl, rfl, rfl, rfl⟩ | exact ⟨y, rfl, rfl, rfl, rfl⟩
  | x :: y :: l =>
    cases fc <;> cases n <;> cases g <;>
    simp [fitAt, unknowns, wrapper, lstsq, lstsqab, bind, Except.bind, Dict.update, Dict.set,
      translateAB, Dict.get?_cons, Dict.pop] at h hu
    all_goals subst h
    all_goals simp [FitShape, reported, Dict.get?_cons]
    all_goals first | exact ⟨x, rfl, rfl, rfl, rfl⟩ | exact ⟨y, rfl, rfl, rfl, rfl⟩

/-- Number of curve parameters that are determined by search: the corner frequency if
not given, and one for the shape if the fall-off or the sharpness is not given
(if both are free the shape has one search parameter and one linear parameter). -/
def searchCount (o : Opts) : ℕ :=
  (if o.fc = none then 1 else 0) + (if o.n = none ∨ o.gamma = none then 1 else 0)

theorem unknowns_length (o : Opts) : (unknowns o).length = searchCount o := by
  obtain ⟨fc, n, g, fcl, nl, gl, fc0, n0, g0, fb, np⟩ := o
  cases fc <;> cases n <;> cases g <;> simp [unknowns, searchCount]

theorem translateAB_nil : translateAB [] = .ok [] := rfl

theorem fitResult_shape (orc : Oracle) (model : List ℝ → List (List ℝ) → List ℝ)
    (pts : List (ℝ × ℝ)) (o : Opts) (r : Dict String Cell)
    (h : fitResult orc model pts o = .ok r) (h0 : 0 < pts.length) :
    (pts.length ≤ searchCount o ∧ r = []) ∨
      (searchCount o < pts.length ∧ FitShape model pts o r) := by
  have hl := unknowns_length o
  have key := fun x => fitAt_shape model pts o x r
  rw [fitResult] at h
  split at h
  · next hu =>
    right
    rw [hu] at hl
    refine ⟨by simp at hl; omega, ?_⟩
    obtain ⟨fc, n, g, fcl, nl, gl, fc0, n0, g0, fb, np⟩ := o
    cases fc <;> cases n <;> cases g <;> simp [unknowns] at hu
    simp only [lstsq, bind, Except.bind, pure, Except.pure, Except.ok.injEq] at h
    subst h
    simp [FitShape, reported, Dict.get?_cons]
  · next x hu =>
    rw [hu] at hl key
    simp only [List.length_singleton] at hl
    split at h
    · obtain ⟨_, -, h⟩ := bind_ok.1 h
      right; exact ⟨by omega, key _ (by simp) h⟩
    · left
      rw [translateAB_nil] at h
      exact ⟨by omega, by simpa using h.symm⟩
  · next us h1 h2 =>
    rw [hl] at h
    split at h
    · next h3 =>
      obtain ⟨_, -, h⟩ := bind_ok.1 h
      right; exact ⟨h3, key _ h1 h⟩
    · left
      rw [translateAB_nil] at h
      exact ⟨by omega, by simpa using h.symm⟩

/-- The fit methods. -/
def isFit (m : Method) : Prop := m = .fit ∨ m = .robustFit

theorem fitSds_fit (orc : Oracle) (freq : List ℝ) (omM : List Cell) (m : Method) (hm : isFit m)
    (o : Opts) (hl : freq.length = omM.length) :
    fitSds orc freq omM m o =
      if (points freq omM).length = 0 ∨ tooFew o.numPoints (points freq omM).length then .ok none
      else (fitResult orc (if m = .robustFit ∧ o.fallBack ≤ (points freq omM).length
        then orc.rlm else orc.ols) (points freq omM) o).map some := by
  rcases hm with rfl | rfl <;>
  · simp only [fitSds, hl, ne_eq, not_true, if_false, points_eq]
    split
    · rfl
    · simp only [bind, Except.bind, pure, Except.pure, Except.map]

theorem fitSds_shape (orc : Oracle) (freq : List ℝ) (omM : List Cell) (m : Method) (hm : isFit m)
    (o : Opts) (r : Dict String Cell) (h : fitSds orc freq omM m o = .ok (some r)) :
    freq.length = omM.length ∧ ¬ tooFew o.numPoints (points freq omM).length ∧
    0 < (points freq omM).length ∧
    (((points freq omM).length ≤ searchCount o ∧ r = []) ∨
      (searchCount o < (points freq omM).length ∧
      FitShape (if m = .robustFit ∧ o.fallBack ≤ (points freq omM).length
        then orc.rlm else orc.ols) (points freq omM) o r)) := by
  by_cases hl : freq.length = omM.length
  · rw [fitSds_fit orc freq omM m hm o hl] at h
    split at h
    · simp at h
    · next h1 =>
      push Not at h1
      refine ⟨hl, by simp [h1.2], by omega, ?_⟩
      apply fitResult_shape orc _ _ o r _ (by omega)
      cases hr : fitResult orc (if m = .robustFit ∧ o.fallBack ≤ (points freq omM).length
        then orc.rlm else orc.ols) (points freq omM) o with
      | error e => rw [hr] at h; simp [Except.map] at h
      | ok a => rw [hr] at h; simpa [Except.map] using h
  · rcases hm with rfl | rfl <;> simp [fitSds, hl] at h

/-! ## C62 -/

theorem checkScalar_ok (b : Option (ℝ × ℝ)) : checkScalar b = .ok () ↔ ∃ l, b = some l ∧ l.1 ≤ l.2 := by
  cases b with
  | none => simp [checkScalar]
  | some l => simp [checkScalar]

theorem checkAll_ok (bs : List (Option (ℝ × ℝ))) :
    checkAll bs = .ok () ↔ ∀ b ∈ bs, ∃ l, b = some l ∧ l.1 ≤ l.2 := by
  unfold checkAll
  by_cases h : none ∈ bs
  · rw [if_pos h]
    simp only [reduceCtorEq, false_iff]
    intro hc
    obtain ⟨l, e, -⟩ := hc _ h
    simp at e
  · rw [if_neg h]
    by_cases h2 : ∃ l, some l ∈ bs ∧ l.2 < l.1
    · rw [if_pos h2]
      simp only [reduceCtorEq, false_iff]
      intro hc
      obtain ⟨l, hl, hlt⟩ := h2
      obtain ⟨l', e, hle⟩ := hc _ hl
      cases e
      linarith
    · rw [if_neg h2]
      simp only [true_iff]
      intro b hb
      cases b with
      | none => exact absurd hb h
      | some l =>
        push Not at h2
        exact ⟨l, rfl, h2 l hb⟩

/-- **C62**: whatever combination of corner frequency, fall-off and sharpness is free, and
whatever the optimiser and the regression return: if a moment is reported, the curve
`source_model` with the reported (or given) parameters has exactly the
reported error as misfit to the data.  In particular the internal curve with
parameters `a`, `b` is translated correctly to `n` and `gamma`. -/
theorem C62_reported_parameters_describe_fit (orc : Oracle) (freq : List ℝ) (omM : List Cell)
    (m : Method) (hm : isFit m) (o : Opts) (r : Dict String Cell)
    (h : fitSds orc freq omM m o = .ok (some r)) (M0 err fc n g : ℝ)
    (hM : r.get? "M0" = some (.num M0)) (he : r.get? "fit_error" = some (.num err))
    (hfc : reported r o.fc "fc" = some fc) (hn : reported r o.n "n" = some n)
    (hg : reported r o.gamma "gamma" = some g)
    (hf : ∀ f ∈ freq, 0 < f) (hc : 0 < fc) (hg0 : g ≠ 0) :
    err = rmsLogMisfit (points freq omM) (omegaModel M0 fc n g) := by
  have hpts : ∀ p ∈ points freq omM, 0 < p.1 := by
    intro p hp
    unfold points at hp
    obtain ⟨q, hq, hp⟩ := List.mem_filterMap.1 hp
    have := (List.of_mem_zip hq).1
    cases h2 : q.2 <;> simp [h2] at hp
    rw [← hp]; exact hf _ this
  have hmod : rmsLogMisfit (points freq omM) (fun f => sourceModel f M0 fc n g) =
      rmsLogMisfit (points freq omM) (omegaModel M0 fc n g) := by
    unfold rmsLogMisfit
    congr 3
    apply List.map_congr_left
    intro p hp
    simp only [C61_is_omega_model _ _ _ _ _ (hpts p hp) hc]
  obtain ⟨-, -, -, h1 | h1⟩ := fitSds_shape orc freq omM m hm o r h
  · rw [h1.2] at hM; simp at hM
  · rw [← hmod]
    rcases h1.2 with ⟨fc', n', g', -, e1, e2, e3, e4, e5⟩ | ⟨fc', a, par, -, -, hpar, e1, e2, e3, e4, e5⟩
    · rw [hfc] at e1; rw [hn] at e2; rw [hg] at e3; rw [hM] at e4; rw [he] at e5
      simp only [Option.some.injEq, Cell.num.injEq] at e1 e2 e3 e4 e5
      subst e1 e2 e3
      rw [e5, e4]
      exact lstsq_misfit _ _ _ _ _ hpts hc
    · rw [hfc] at e1; rw [hn] at e2; rw [hg] at e3; rw [hM] at e4; rw [he] at e5
      simp only [Option.some.injEq, Cell.num.injEq] at e1 e2 e3 e4 e5
      subst e1 e2 e3
      rw [e5, e4]
      exact lstsqab_misfit _ _ _ _ hpts hc (by
        intro h0; rw [h0] at hg0; simp at hg0)

/-- non-vacuity: all three free, four data points, an optimiser that returns `fc = 5`, `a = 2` and a
regression that returns `ln M0 = 30`, `b = 1` -/
noncomputable example : ∃ r, fitSds ⟨fun _ _ => [30, 1], fun _ _ => [30, 1], fun _ => (0, 0), fun _ _ => 2,
    fun _ _ _ => [5, 2]⟩ [1, 2, 4, 8] [.num 1, .num 2, .num 1, .num 3] .fit
      { n := none, gamma := none } = .ok (some r) ∧ r.get? "M0" = some (.num (exp 30)) ∧
    reported r none "fc" = some 5 ∧ reported r none "gamma" = some 1 ∧
    reported r none "n" = some 2 := by
  simp only [fitSds, fitResult, unknowns, fitAt, List.zip, List.zipWith, List.filterMap_cons, Cell.val?,
    Option.map]
  have hc : checkAll [bounds [(1, 1), (2, 2), (4, 1), (8, 3)] { n := none, gamma := none } "fc",
      bounds [(1, 1), (2, 2), (4, 1), (8, 3)] { n := none, gamma := none } "a"] = .ok () := by
    rw [checkAll_ok]
    intro b hb
    rcases List.mem_cons.1 hb with rfl | hb
    · exact ⟨(1, 8), rfl, by norm_num⟩
    · rw [List.mem_singleton] at hb
      subst hb
      exact ⟨(0.5 * 0.5, 10 * 10), rfl, by norm_num⟩
  simp [hc, wrapper, lstsqab, bind, Except.bind, Dict.update, Dict.set, tooFew, pure, Except.pure,
      translateAB, Dict.get?_cons, Dict.pop, reported]

/-! ## C63 -/

/-- Limits of the search for the free parameters, in the right order: for the corner frequency the
option `fc_lim` or the first and last frequency with a value; for the shape the limits of the
free parameter or, if both are free, the products of the limits. -/
structure SearchLimits (o : Opts) (pts : List (ℝ × ℝ)) : Prop where
  fc : o.fc = none → ∀ l, o.fcLim = some l → l.1 ≤ l.2
  freq : o.fc = none → o.fcLim = none → ∀ p q, pts.head? = some p → pts.getLast? = some q → p.1 ≤ q.1
  n : o.n = none → ∃ l, o.nLim = some l ∧ (o.gamma ≠ none → l.1 ≤ l.2)
  gamma : o.gamma = none → ∃ l, o.gammaLim = some l ∧ (o.n ≠ none → l.1 ≤ l.2)
  both : o.n = none → o.gamma = none →
    ∀ l m, o.nLim = some l → o.gammaLim = some m → l.1 * m.1 ≤ l.2 * m.2

theorem fitAt_total (model : List ℝ → List (List ℝ) → List ℝ) (pts : List (ℝ × ℝ)) (o : Opts)
    (xopt : List ℝ) (hu : unknowns o ≠ []) (hx : xopt.length = (unknowns o).length) :
    ∃ r, fitAt model pts o (unknowns o) xopt = .ok r := by
  obtain ⟨fc, n, g, fcl, nl, gl, fc0, n0, g0, fb, np⟩ := o
  match xopt with
  | [] => exact absurd (List.length_eq_zero_iff.1 hx.symm) hu
  | [x] =>
    cases fc <;> cases n <;> cases g <;> simp [unknowns] at hx hu <;>
    simp [fitAt, unknowns, wrapper, lstsq, lstsqab, bind, Except.bind, Dict.update, Dict.set,
      translateAB, Dict.get?_cons, Dict.pop]
  | [x, y] =>
    cases fc <;> cases n <;> cases g <;> simp [unknowns] at hx hu <;>
    simp [fitAt, unknowns, wrapper, lstsq, lstsqab, bind, Except.bind, Dict.update, Dict.set,
      translateAB, Dict.get?_cons, Dict.pop]
  | x :: y :: z :: l =>
    cases fc <;> cases n <;> cases g <;> simp [unknowns] at hx hu

theorem bounds_ok (o : Opts) (pts : List (ℝ × ℝ)) (h0 : pts ≠ []) :
    (∀ x ∈ unknowns o, ∃ l, bounds pts o x = some l ∧ l.1 ≤ l.2) ↔ SearchLimits o pts := by
  obtain ⟨p, l, rfl⟩ := List.exists_cons_of_ne_nil h0
  have hl : ((p :: l).map Prod.fst).getLastD 0 = ((p :: l).getLast (by simp)).1 := by
    rw [List.getLastD_eq_getLast?, List.getLast?_map, List.getLast?_eq_getLast (by simp)]
    rfl
  obtain ⟨fc, n, g, fcl, nl, gl, fc0, n0, g0, fb, np⟩ := o
  have hfc : (∃ m, bounds (p :: l) ⟨fc, n, g, fcl, nl, gl, fc0, n0, g0, fb, np⟩ "fc" = some m ∧
      m.1 ≤ m.2) ↔ (∀ l, fcl = some l → l.1 ≤ l.2) ∧
        (fcl = none → ∀ a b, (p :: l).head? = some a → (p :: l).getLast? = some b → a.1 ≤ b.1) := by
    rw [List.getLast?_eq_getLast (by simp)]
    simp only [bounds, if_true, hl]
    cases fcl <;> simp
  have hn : (∃ m, bounds (p :: l) ⟨fc, n, g, fcl, nl, gl, fc0, n0, g0, fb, np⟩ "n" = some m ∧
      m.1 ≤ m.2) ↔ ∃ m, nl = some m ∧ m.1 ≤ m.2 := by simp [bounds]
  have hg : (∃ m, bounds (p :: l) ⟨fc, n, g, fcl, nl, gl, fc0, n0, g0, fb, np⟩ "gamma" = some m ∧
      m.1 ≤ m.2) ↔ ∃ m, gl = some m ∧ m.1 ≤ m.2 := by simp [bounds]
  have ha : (∃ m, bounds (p :: l) ⟨fc, n, g, fcl, nl, gl, fc0, n0, g0, fb, np⟩ "a" = some m ∧
      m.1 ≤ m.2) ↔ ∃ a b, nl = some a ∧ gl = some b ∧ a.1 * b.1 ≤ a.2 * b.2 := by
    simp only [bounds]
    cases nl <;> cases gl <;> simp
  constructor
  · intro h
    constructor
    · intro e; cases e
      exact (hfc.1 (h "fc" (by cases n <;> cases g <;> simp [unknowns]))).1
    · intro e; cases e
      exact (hfc.1 (h "fc" (by cases n <;> cases g <;> simp [unknowns]))).2
    · intro e; cases e
      cases g with
      | none =>
        obtain ⟨a, b, h1, -⟩ := ha.1 (h "a" (by simp [unknowns]))
        exact ⟨a, h1, by simp⟩
      | some g =>
        obtain ⟨a, h1, h2⟩ := hn.1 (h "n" (by simp [unknowns]))
        exact ⟨a, h1, fun _ => h2⟩
    · intro e; cases e
      cases n with
      | none =>
        obtain ⟨a, b, -, h1, -⟩ := ha.1 (h "a" (by simp [unknowns]))
        exact ⟨b, h1, by simp⟩
      | some g =>
        obtain ⟨a, h1, h2⟩ := hg.1 (h "gamma" (by simp [unknowns]))
        exact ⟨a, h1, fun _ => h2⟩
    · intro e1 e2; cases e1; cases e2
      intro a' b' ha' hb'
      obtain ⟨a, b, h1, h2, h3⟩ := ha.1 (h "a" (by simp [unknowns]))
      rw [h1] at ha'; rw [h2] at hb'
      cases ha'; cases hb'
      exact h3
  · rintro ⟨h1, h2, h3, h4, h5⟩ x hx
    simp only at h1 h2 h3 h4 h5
    have hcase : x = "fc" ∧ fc = none ∨ x = "n" ∧ n = none ∧ g ≠ none ∨
        x = "gamma" ∧ g = none ∧ n ≠ none ∨ x = "a" ∧ n = none ∧ g = none := by
      cases fc <;> cases n <;> cases g <;> simp [unknowns] at hx <;> simp [hx]
      all_goals rcases hx with rfl | rfl <;> simp
    rcases hcase with ⟨rfl, rfl⟩ | ⟨rfl, rfl, hgn⟩ | ⟨rfl, rfl, hnn⟩ | ⟨rfl, rfl, rfl⟩
    · exact hfc.2 ⟨h1 rfl, h2 rfl⟩
    · obtain ⟨a, e, hle⟩ := h3 rfl
      exact hn.2 ⟨a, e, hle hgn⟩
    · obtain ⟨a, e, hle⟩ := h4 rfl
      exact hg.2 ⟨a, e, hle hnn⟩
    · obtain ⟨a, e, -⟩ := h3 rfl
      obtain ⟨b, e', -⟩ := h4 rfl
      exact ha.2 ⟨a, b, e, e', h5 rfl rfl a b e e'⟩

theorem fitResult_ok_iff (orc : Oracle) (model : List ℝ → List (List ℝ) → List ℝ)
    (pts : List (ℝ × ℝ)) (o : Opts) (h0 : 0 < pts.length)
    (ho : ∀ f x b, (orc.minimize f x b).length = x.length) :
    (∃ r, fitResult orc model pts o = .ok r) ↔
      (searchCount o < pts.length → SearchLimits o pts) := by
  have hne : pts ≠ [] := by rintro rfl; simp at h0
  have hl := unknowns_length o
  have key := fun x => fitAt_total model pts o x
  have hb := bounds_ok o pts hne
  rw [← hb]
  unfold fitResult
  split
  · next hu =>
    rw [hu]
    simp only [List.not_mem_nil, false_imp_iff, implies_true, iff_true]
    obtain ⟨fc, n, g, fcl, nl, gl, fc0, n0, g0, fb, np⟩ := o
    cases fc <;> cases n <;> cases g <;> simp [unknowns] at hu
    exact ⟨_, rfl⟩
  · next x hu =>
    rw [hu] at hl key ⊢
    simp only [List.length_singleton] at hl
    simp only [← hl, List.mem_singleton, forall_eq]
    split
    · next h1 =>
      rw [← checkScalar_ok]
      constructor
      · rintro ⟨r, hr⟩ -
        obtain ⟨_, h2, -⟩ := bind_ok.1 hr
        exact h2
      · intro h2
        obtain ⟨r, hr⟩ := key [orc.minScalar (fun z =>
          objective (wrapper model pts o x) [z]) (bounds pts o x)] (by simp) (by simp)
        exact ⟨r, bind_ok.2 ⟨(), h2 h1, hr⟩⟩
    · next h1 =>
      exact ⟨fun _ h => absurd h h1, fun _ => ⟨_, rfl⟩⟩
  · next us h1 h2 =>
    rw [hl]
    split
    · next h3 =>
      have : (∀ x ∈ unknowns o, ∃ l, bounds pts o x = some l ∧ l.1 ≤ l.2) ↔
          checkAll ((unknowns o).map (bounds pts o)) = .ok () := by
        rw [checkAll_ok]
        simp
      rw [this]
      constructor
      · rintro ⟨r, hr⟩ -
        obtain ⟨_, h4, -⟩ := bind_ok.1 hr
        exact h4
      · intro h4
        obtain ⟨r, hr⟩ := key (orc.minimize (objective (wrapper model pts o
            ((unknowns o).foldl (· ++ ·) ""))) ((unknowns o).map (start o))
            ((unknowns o).map (bounds pts o))) h1 (by rw [ho, List.length_map])
        exact ⟨r, bind_ok.2 ⟨(), h4 h3, hr⟩⟩
    · next h3 =>
      exact ⟨fun _ h => absurd h h3, fun _ => ⟨_, rfl⟩⟩

/-- **C63**: the fit methods raise an exception only if limits of the search for a free parameter are
missing or in the wrong order: there is no combination of free and given parameters which cannot be
fitted.  Frequencies and spectrum have the same length, the optimiser returns as many values as it
was given. -/
theorem C63_fit_raises_iff (orc : Oracle) (freq : List ℝ) (omM : List Cell) (m : Method)
    (hm : isFit m) (o : Opts) (hl : freq.length = omM.length)
    (ho : ∀ f x b, (orc.minimize f x b).length = x.length) :
    (∃ r, fitSds orc freq omM m o = .ok r) ↔
      (searchCount o < (points freq omM).length →
        (∀ k, o.numPoints = some k → k ≤ (points freq omM).length) →
        SearchLimits o (points freq omM)) := by
  have htf : ∀ k : ℕ, (tooFew o.numPoints k = true) ↔ ¬ ∀ j, o.numPoints = some j → j ≤ k := by
    intro k
    cases o.numPoints <;> simp [tooFew]
  rw [fitSds_fit orc freq omM m hm o hl]
  split
  · next h =>
    refine ⟨fun _ h1 h2 => ?_, fun _ => ⟨_, rfl⟩⟩
    rcases h with h | h
    · omega
    · rw [htf] at h; exact absurd h2 h
  · next h =>
    push Not at h
    have h2 : ∀ j, o.numPoints = some j → j ≤ (points freq omM).length := by
      have := h.2
      by_contra hc
      exact this ((htf _).2 hc)
    have := fitResult_ok_iff orc (if m = .robustFit ∧ o.fallBack ≤ (points freq omM).length
        then orc.rlm else orc.ols) (points freq omM) o (by omega) ho
    constructor
    · rintro ⟨r, hr⟩ h1 -
      refine this.1 ?_ h1
      cases h3 : fitResult orc (if m = .robustFit ∧ o.fallBack ≤ (points freq omM).length
          then orc.rlm else orc.ols) (points freq omM) o with
      | error e => rw [h3] at hr; simp [Except.map] at hr
      | ok a => exact ⟨a, rfl⟩
    · intro h1
      obtain ⟨r, hr⟩ := this.2 (fun h3 => h1 h3 h2)
      exact ⟨some r, by rw [hr]; rfl⟩

/-- The default limits are sufficient for frequencies in ascending order. -/
theorem searchLimits_default (o : Opts) (pts : List (ℝ × ℝ)) (h1 : o.fcLim = none)
    (h2 : o.nLim = some (0.5, 10)) (h3 : o.gammaLim = some (0.5, 10))
    (hs : (pts.map Prod.fst).Pairwise (· ≤ ·)) : SearchLimits o pts := by
  constructor
  · intro _ l hl; rw [h1] at hl; simp at hl
  · intro _ _ p q hp hq
    cases pts with
    | nil => simp at hp
    | cons a l =>
      simp only [List.head?_cons, Option.some.injEq] at hp
      subst hp
      rw [List.getLast?_cons, Option.some.injEq] at hq
      rw [List.map_cons, List.pairwise_cons] at hs
      cases hl : l.getLast? with
      | none => simp [hl] at hq; rw [hq]
      | some b =>
        simp [hl] at hq
        subst hq
        exact hs.1 _ (List.mem_map.2 ⟨b, List.mem_of_getLast? hl, rfl⟩)
  · intro _; exact ⟨_, h2, fun _ => by norm_num⟩
  · intro _; exact ⟨_, h3, fun _ => by norm_num⟩
  · intro _ _ l m hl hm
    rw [h2] at hl; rw [h3] at hm
    cases hl; cases hm
    norm_num

/-- **C63**: the fit methods report a moment exactly if there are more data points than searched
parameters (at least one), not fewer than `num_points`, and limits for the search are given. -/
theorem C63_fit_reports_iff (orc : Oracle) (freq : List ℝ) (omM : List Cell) (m : Method)
    (hm : isFit m) (o : Opts) (hl : freq.length = omM.length)
    (ho : ∀ f x b, (orc.minimize f x b).length = x.length) :
    (∃ r M0, fitSds orc freq omM m o = .ok (some r) ∧ r.get? "M0" = some (.num M0) ∧ 0 < M0) ↔
      searchCount o < (points freq omM).length ∧
      (∀ k, o.numPoints = some k → k ≤ (points freq omM).length) ∧
      SearchLimits o (points freq omM) := by
  have htf : ∀ k : ℕ, (tooFew o.numPoints k = true) ↔ ¬ ∀ j, o.numPoints = some j → j ≤ k := by
    intro k
    cases o.numPoints <;> simp [tooFew]
  constructor
  · rintro ⟨r, M0, h, hM, -⟩
    obtain ⟨-, h2, -, h3 | h3⟩ := fitSds_shape orc freq omM m hm o r h
    · rw [h3.2] at hM; simp at hM
    · rw [htf, not_not] at h2
      exact ⟨h3.1, h2, (C63_fit_raises_iff orc freq omM m hm o hl ho).1 ⟨_, h⟩ h3.1 h2⟩
  · rintro ⟨h1, h2, hs⟩
    obtain ⟨r, hr⟩ := (C63_fit_raises_iff orc freq omM m hm o hl ho).2 (fun _ _ => hs)
    have hne : r ≠ none := by
      rintro rfl
      rw [fitSds_fit orc freq omM m hm o hl, if_neg] at hr
      · cases h3 : fitResult orc (if m = .robustFit ∧ o.fallBack ≤ (points freq omM).length
          then orc.rlm else orc.ols) (points freq omM) o <;> simp [h3, Except.map] at hr
      · rw [htf]; push Not; exact ⟨by omega, h2⟩
    obtain ⟨r, rfl⟩ := Option.ne_none_iff_exists'.1 hne
    obtain ⟨-, -, -, h3 | h3⟩ := fitSds_shape orc freq omM m hm o r hr
    · omega
    · rcases h3.2 with ⟨_, _, _, -, -, -, -, e, -⟩ | ⟨_, _, _, -, -, -, -, -, -, e, -⟩
      · exact ⟨r, _, hr, e, exp_pos _⟩
      · exact ⟨r, _, hr, e, exp_pos _⟩

/-- **C63** is violated in one respect: the documentation promises `None` if no moment is determined,
but with too few points for the searched parameters an empty dictionary is returned. -/
theorem C63_empty_result_counterexample (orc : Oracle) :
    fitSds orc [1] [.num 1] .fit {} = .ok (some []) := by
  simp [fitSds, points_eq, points, fitResult, unknowns, translateAB, tooFew, bind, Except.bind, pure,
    Except.pure]

/-- **C63** (partial): if no moment is reported by a fit, the result is `None` or the empty dictionary
and in the latter case there are points, but not more than searched parameters.  Missing: the
documented `None` in this case. -/
theorem C63_fit_otherwise_none_partial (orc : Oracle) (freq : List ℝ) (omM : List Cell) (m : Method)
    (hm : isFit m) (o : Opts) (r : Option (Dict String Cell))
    (h : fitSds orc freq omM m o = .ok r) (h0 : ∀ d, r = some d → d.get? "M0" = none) :
    r = none ∨ r = some [] ∧ 0 < (points freq omM).length ∧
      (points freq omM).length ≤ searchCount o := by
  cases r with
  | none => exact Or.inl rfl
  | some d =>
    right
    obtain ⟨-, -, hp, h3 | h3⟩ := fitSds_shape orc freq omM m hm o d h
    · exact ⟨by rw [h3.2], hp, h3.1⟩
    · have := h0 d rfl
      rcases h3.2 with ⟨_, _, _, -, -, -, -, e, -⟩ | ⟨_, _, _, -, -, -, -, -, -, e, -⟩ <;>
        rw [e] at this <;> simp at this

open Classical in
/-- The values of the spectrum that method `mean` may use: those at frequencies below the
corner frequency that are not `None`. -/
noncomputable def below (freq : List ℝ) (omM : List Cell) (fc : ℝ) : List Cell :=
  ((freq.zip omM).filter (fun p => decide (p.1 < fc ∧ p.2 ≠ .none))).map Prod.snd

theorem below_eq (freq : List ℝ) (omM : List Cell) (fc : ℝ) :
    valuesBelow freq omM fc = below freq omM fc := by
  unfold below valuesBelow
  induction freq.zip omM with
  | nil => rfl
  | cons p l ih =>
    rw [List.filterMap_cons, List.filter_cons, ih]
    obtain ⟨f, c⟩ := p
    cases c <;> by_cases h : f < fc <;> simp [h]

/-- **C63**: method `mean` reports exactly if there is a value below the corner frequency and
the number of these values is at least `num_points`; the moment is the
geometric mean of these values and nothing else; otherwise `None` is returned. -/
theorem C63_mean (orc : Oracle) (freq : List ℝ) (omM : List Cell) (o : Opts) (fc : ℝ)
    (hfc : o.fc = some fc) (hpos : ∀ c ∈ omM, c = .none ∨ ∃ x, 0 < x ∧ c = .num x) :
    ((below freq omM fc = [] ∨ ∃ k, o.numPoints = some k ∧ (below freq omM fc).length < k) →
      fitSds orc freq omM .mean o = .ok none) ∧
    (below freq omM fc ≠ [] → (∀ k, o.numPoints = some k → k ≤ (below freq omM fc).length) →
      ∃ r, fitSds orc freq omM .mean o = .ok (some r) ∧
        r.get? "M0" = some (.num (geoMean (positives (below freq omM fc)))) ∧
        (positives (below freq omM fc)).length = (below freq omM fc).length) := by
  have hcomp : fitSds orc freq omM .mean o =
      if tooFew o.numPoints (below freq omM fc).length then .ok none
      else if 0 < (below freq omM fc).length then
        (gstat orc.rlmStat (below freq omM fc) none (unbiased := false)).map (fun r =>
          some [("M0", match r.1.map exp with | some v => Cell.num v | none => Cell.nan),
            ("fit_error", match r.2 with | some v => Cell.num v | none => Cell.nan)])
      else .ok none := by
    simp only [fitSds, hfc, below_eq]
    split
    · rfl
    · split
      · simp only [bind, Except.bind, pure, Except.pure, Except.map]
        cases gstat orc.rlmStat (below freq omM fc) none (unbiased := false) <;> rfl
      · rfl
  constructor
  · rintro (h | ⟨k, hk, hlt⟩)
    · rw [hcomp, h]; simp
    · rw [hcomp, hk]; simp [tooFew, hlt]
  · intro hne hk
    have h0 : 0 < (below freq omM fc).length := List.length_pos_iff.2 hne
    have htf : tooFew o.numPoints (below freq omM fc).length = false := by
      cases h : o.numPoints with
      | none => rfl
      | some k => simp [tooFew, hk k h]
    rw [hcomp, htf, if_neg (by simp), if_pos h0]
    have hlen : (positives (below freq omM fc)).length = (below freq omM fc).length := by
      have : ∀ l : List Cell, (∀ c ∈ l, ∃ x, 0 < x ∧ c = .num x) → (positives l).length = l.length := by
        intro l
        induction l with
        | nil => intro _; rfl
        | cons c l ih =>
          intro h
          obtain ⟨x, hx, rfl⟩ := h c (by simp)
          have := ih (fun c hc => h c (by simp [hc]))
          simp only [positives] at this ⊢
          simp [List.filterMap_cons, hx, this]
      apply this
      intro c hc
      unfold below at hc
      simp only [List.mem_map, List.mem_filter, decide_eq_true_eq] at hc
      obtain ⟨p, ⟨hp, -, hn⟩, rfl⟩ := hc
      exact (hpos _ (List.of_mem_zip hp).2).resolve_left hn
    have hg : ∃ e, gstat orc.rlmStat (below freq omM fc) none (unbiased := false) =
        .ok (some (((positives (below freq omM fc)).map log).sum /
          ((positives (below freq omM fc)).map log).length), e) := by
      simp only [gstat, Bool.false_and, Bool.false_eq_true, if_false, weightedStat, weightsMismatch,
        maAverage, validData_maLog]
      rw [if_neg (by rw [List.length_map, hlen]; omega)]
      exact ⟨_, rfl⟩
    obtain ⟨e, hg⟩ := hg
    rw [hg]
    refine ⟨_, rfl, ?_, hlen⟩
    simp only [Option.map_some, Dict.get?_cons, if_true, List.length_map]
    rw [exp_mean_log _ (fun x hx => positives_pos hx)]

/-- non-vacuity of `C63_mean`: two of three values are below 10 Hz -/
example : (below [3, 6, 12] [.num 1, .none, .num 2] 10).length = 1 := by
  simp [below, List.filter_cons]; norm_num

/-- **C63**: method `mean` without corner frequency is refused; an unknown method returns `None`. -/
theorem C63_mean_needs_fc (orc : Oracle) (freq : List ℝ) (omM : List Cell) (o : Opts) :
    (o.fc = none → fitSds orc freq omM .mean o = .error .valueError) ∧
    fitSds orc freq omM .other o = .ok none := by
  refine ⟨fun h => by simp [fitSds, h], rfl⟩

/-! ## C64 -/

/-- **C64**: with given corner frequency, fall-off and sharpness the ordinary fit
returns the moment with smallest misfit. -/
theorem C64_optimal (orc : Oracle) (ho : IsOls orc.ols) (freq : List ℝ) (omM : List Cell)
    (fc n g : ℝ) (o : Opts) (hc : o.fc = some fc) (hn : o.n = some n) (hg : o.gamma = some g)
    (hf : ∀ f ∈ freq, 0 < f) (hc0 : 0 < fc) (r : Dict String Cell)
    (h : fitSds orc freq omM .fit o = .ok (some r)) :
    ∃ M0, r.get? "M0" = some (.num M0) ∧ 0 < M0 ∧
      ∀ M, 0 < M → rmsLogMisfit (points freq omM) (omegaModel M0 fc n g) ≤
        rmsLogMisfit (points freq omM) (omegaModel M fc n g) := by
  have hpts : ∀ p ∈ points freq omM, 0 < p.1 := by
    intro p hp
    unfold points at hp
    obtain ⟨q, hq, hp⟩ := List.mem_filterMap.1 hp
    have := (List.of_mem_zip hq).1
    cases h2 : q.2 <;> simp [h2] at hp
    rw [← hp]; exact hf _ this
  have hmod : ∀ M, rmsLogMisfit (points freq omM) (fun f => sourceModel f M fc n g) =
      rmsLogMisfit (points freq omM) (omegaModel M fc n g) := by
    intro M
    unfold rmsLogMisfit
    congr 3
    apply List.map_congr_left
    intro p hp
    simp only [C61_is_omega_model _ _ _ _ _ (hpts p hp) hc0]
  obtain ⟨-, -, h0, h1 | h1⟩ := fitSds_shape orc freq omM .fit (Or.inl rfl) o r h
  · have : searchCount o = 0 := by simp [searchCount, hc, hn, hg]
    omega
  · have hun : unknowns o = [] := by simp [unknowns, hc, hn, hg]
    rw [fitSds_fit orc freq omM .fit (Or.inl rfl) o (fitSds_shape orc freq omM .fit (Or.inl rfl) o r h).1]
      at h
    split at h
    · simp at h
    · simp only [fitResult, hun, hc, hn, hg, lstsq, bind, Except.bind, pure, Except.pure, Except.map,
        Except.ok.injEq, Option.some.injEq, reduceCtorEq, false_and, if_false] at h
      subst h
      refine ⟨_, rfl, exp_pos _, ?_⟩
      intro M hM
      rw [← hmod, ← hmod, ← lstsq_misfit _ _ _ _ _ hpts hc0]
      have e : M = exp (([log M] : List ℝ).getD 0 0) := by simp [exp_log hM]
      rw [e, ← lstsq_misfit _ _ _ _ _ hpts hc0]
      apply sqrt_le_sqrt
      exact div_le_div_of_nonneg_right (ho _ _ _) (by positivity)

/-- **C64**: for exact data the ordinary fit recovers the moment with error zero. -/
theorem C64_exact_data (orc : Oracle) (ho : IsOls orc.ols) (freq : List ℝ) (M fc n g : ℝ)
    (o : Opts) (hc : o.fc = some fc) (hn : o.n = some n) (hg : o.gamma = some g)
    (hf : ∀ f ∈ freq, 0 < f) (hc0 : 0 < fc) (hM : 0 < M) (hg0 : g ≠ 0)
    (r : Dict String Cell)
    (h : fitSds orc freq (freq.map (fun f => .num (omegaModel M fc n g f))) .fit o = .ok (some r)) :
    r.get? "M0" = some (.num M) ∧ r.get? "fit_error" = some (.num 0) := by
  set omM := freq.map (fun f => Cell.num (omegaModel M fc n g f)) with hom
  have hp : points freq omM = freq.map (fun f => (f, omegaModel M fc n g f)) := by
    rw [hom]; clear_value omM; clear h hom hf omM
    induction freq with
    | nil => rfl
    | cons f l ih =>
      unfold points at ih ⊢
      simp [List.filterMap_cons, ih]
  obtain ⟨M0, e0, hM0, hopt⟩ := C64_optimal orc ho freq omM fc n g o hc hn hg hf hc0 r h
  have hshape := fitSds_shape orc freq omM .fit (Or.inl rfl) o r h
  have hz : rmsLogMisfit (points freq omM) (omegaModel M fc n g) = 0 := by
    unfold rmsLogMisfit
    rw [hp, List.map_map]
    have : ((fun p : ℝ × ℝ => (log p.2 - log (omegaModel M fc n g p.1)) ^ 2) ∘
        fun f => (f, omegaModel M fc n g f)) = fun _ => (0:ℝ) := by
      funext f; simp
    rw [this]; simp
  have hz0 : rmsLogMisfit (points freq omM) (omegaModel M0 fc n g) = 0 := by
    apply le_antisymm
    · rw [← hz]; exact hopt M hM
    · exact sqrt_nonneg _
  have hfit : ∃ err, r.get? "fit_error" = some (.num err) := by
    obtain ⟨-, -, h0, h1 | h1⟩ := hshape
    · rw [h1.2] at e0; simp at e0
    · rcases h1.2 with ⟨_, _, _, -, -, -, -, -, e⟩ | ⟨_, _, _, h3, -⟩
      · exact ⟨_, e⟩
      · rw [hn] at h3; simp at h3
  obtain ⟨err, herr⟩ := hfit
  have hrep : ∀ k (v : Option ℝ) x, v = some x → r.get? k = none → reported r v k = some x := by
    intro k v x hv hk; simp [reported, hk, hv]
  have hsh : r = [("M0", .num M0), ("fit_error", .num err)] := by
    have hun : unknowns o = [] := by simp [unknowns, hc, hn, hg]
    rw [fitSds_fit orc freq omM .fit (Or.inl rfl) o hshape.1] at h
    split at h
    · simp at h
    · simp only [fitResult, hun, hc, hn, hg, lstsq, bind, Except.bind, pure, Except.pure, Except.map,
        Except.ok.injEq, Option.some.injEq, reduceCtorEq, false_and, if_false] at h
      subst h
      simp only [Dict.get?_cons, if_true, Option.some.injEq, Cell.num.injEq, String.reduceEq,
        if_false] at e0 herr
      rw [e0, herr]
  have := C62_reported_parameters_describe_fit orc freq omM .fit (Or.inl rfl) o r h M0 err fc n g e0
      herr (hrep _ _ _ hc (by rw [hsh]; simp [Dict.get?_cons]))
      (hrep _ _ _ hn (by rw [hsh]; simp [Dict.get?_cons]))
      (hrep _ _ _ hg (by rw [hsh]; simp [Dict.get?_cons])) hf hc0 hg0
  rw [hz0] at this
  rw [herr, this, e0]
  refine ⟨?_, rfl⟩
  -- every point lies on the fitted curve
  have hne := hshape.2.2.1
  rw [hp, List.length_map] at hne
  obtain ⟨f, hfm⟩ := List.exists_mem_of_length_pos hne
  have hf0 := hf f hfm
  unfold rmsLogMisfit at hz0
  rw [sqrt_eq_zero (by
    apply div_nonneg _ (by positivity)
    exact sum_map_nonneg (fun a _ => by positivity)), div_eq_zero_iff] at hz0
  have hs : ((points freq omM).map (fun p => (log p.2 - log (omegaModel M0 fc n g p.1)) ^ 2)).sum = 0 := by
    rcases hz0 with h | h
    · exact h
    · rw [hp, List.length_map] at h
      have : freq.length = 0 := by exact_mod_cast h
      omega
  have h1 : (log (omegaModel M fc n g f) - log (omegaModel M0 fc n g f)) ^ 2 ≤ 0 := by
    rw [← hs]
    refine le_sum_map (l := points freq omM)
      (f := fun p => (log p.2 - log (omegaModel M0 fc n g p.1)) ^ 2)
      (fun a _ => by positivity) (a := (f, omegaModel M fc n g f)) ?_
    rw [hp]; exact List.mem_map.2 ⟨f, hfm, rfl⟩
  have h2 : log (omegaModel M fc n g f) = log (omegaModel M0 fc n g f) := by
    have := pow_eq_zero_iff (two_ne_zero) |>.1 (le_antisymm h1 (by positivity))
    linarith
  have hden : 0 < (1 + (f / fc) ^ (n * g)) ^ (1 / g) := by positivity
  have h3 : omegaModel M fc n g f = omegaModel M0 fc n g f :=
    log_injOn_pos (by unfold omegaModel; exact div_pos hM hden)
      (by unfold omegaModel; exact div_pos hM0 hden) h2
  unfold omegaModel at h3
  rw [div_left_inj' hden.ne'] at h3
  rw [h3]

/-- The contract `IsOls` can be met for the design matrices that occur here: the mean
fits a constant best. -/
example (y : List ℝ) (q : List ℝ) (hy : y ≠ []) :
    sse y (y.map (fun _ => [1])) [y.sum / y.length] ≤ sse y (y.map (fun _ => [1])) q := by
  have hn : (0:ℝ) < y.length := by exact_mod_cast List.length_pos_iff.2 hy
  have e : ∀ p : List ℝ, sse y (y.map (fun _ => [1])) p =
      (y.map (fun v => (v - p.getD 0 0) ^ 2)).sum := by
    intro p
    have := zipWith_maps y id (fun _ => [(1:ℝ)]) (fun yi row => (yi - dot row p) ^ 2)
    simp only [List.map_id, dot_one, id] at this
    unfold sse
    exact congrArg List.sum this
  have key : ∀ c : ℝ, (y.map (fun v => (v - c) ^ 2)).sum =
      (y.map (fun v => v ^ 2)).sum - 2 * c * y.sum + y.length * c ^ 2 := by
    intro c
    clear e hn hy
    induction y with
    | nil => simp
    | cons a l ih => simp only [List.map_cons, List.sum_cons, ih, List.length_cons]; push_cast; ring
  rw [e, e, key, key]
  simp only [List.getD_cons_zero]
  set c := q.getD 0 0
  have : 0 ≤ (y.length : ℝ) * (c - y.sum / y.length) ^ 2 := by positivity
  have e2 : (y.length : ℝ) * (c - y.sum / y.length) ^ 2 =
      y.length * c ^ 2 - 2 * c * y.sum + y.sum * (y.sum / y.length) := by
    field_simp; ring
  have e3 : (y.length : ℝ) * (y.sum / y.length) ^ 2 = y.sum * (y.sum / y.length) := by
    field_simp
  nlinarith

end Qopen
