import Verif.Props.SourceLimits
import Verif.Props.SourceRecalc
import Verif.Lemmas.Curve

/-!
# Exact spectra: the fit recovers the parameters of the source, C129
-/

namespace Qopen

open Real Source Spec Util

set_option linter.unusedSimpArgs false

namespace Spec

/-- The data contain `k` different frequencies. -/
def Different (k : ℕ) (pts : List (ℝ × ℝ)) : Prop :=
  ∃ fs : List ℝ, fs.length = k ∧ fs.Pairwise (· < ·) ∧ ∀ f ∈ fs, ∃ x, (f, x) ∈ pts

/-- Number of different frequencies which determine the parameters: two and one for each of the
fall-off and the sharpness if these are not given. -/
def needed (o : Opts) : ℕ :=
  2 + (if o.n = none then 1 else 0) + (if o.gamma = none then 1 else 0)

/-- The given parameters are the true ones. -/
structure GivenTrue (o : Opts) (fc n g : ℝ) : Prop where
  fc : ∀ x, o.fc = some x → x = fc
  n : ∀ x, o.n = some x → x = n
  gamma : ∀ x, o.gamma = some x → x = g

/-- The true values of the free parameters are inside of the (positive) limits of the search. -/
structure InLimits (o : Opts) (pts : List (ℝ × ℝ)) (fc n g : ℝ) : Prop where
  limits : o.fc = none → ∀ l, o.fcLim = some l → 0 < l.1 ∧ Inside l fc
  freq : o.fc = none → o.fcLim = none → ∀ p q, pts.head? = some p → pts.getLast? = some q →
    Inside (p.1, q.1) fc
  n : o.n = none → ∃ l, o.nLim = some l ∧ 0 < l.1 ∧ Inside l n
  gamma : o.gamma = none → ∃ l, o.gammaLim = some l ∧ 0 < l.1 ∧ Inside l g

/-- Contract of a regression: if there are parameters without residuals, the returned ones have no
residuals.  (`OLS` and `RLM`; the iteration of the latter ends with a perfect fit.) -/
def IsExact (reg : List ℝ → List (List ℝ) → List ℝ) : Prop :=
  ∀ y X q, sse y X q = 0 → sse y X (reg y X) = 0

/-- Contract of a search which finds the smallest value inside of the limits, if there is one. -/
structure IsGlobalSearch (orc : Oracle) : Prop extends IsSearch orc where
  scalarMin : ∀ (f : ℝ → ℝ) l, (∃ x, Inside l x ∧ ∀ y, Inside l y → f x ≤ f y) →
    ∀ y, Inside l y → f (orc.minScalar f (some l)) ≤ f y
  minimizeMin : ∀ (f : List ℝ → ℝ) x ls, x.length = ls.length →
    (∃ m, List.Forall₂ Inside ls m ∧ ∀ y, List.Forall₂ Inside ls y → f m ≤ f y) →
    ∀ y, List.Forall₂ Inside ls y → f (orc.minimize f x (ls.map some)) ≤ f y

end Spec

theorem ols_exact {ols : List ℝ → List (List ℝ) → List ℝ} (h : IsOls ols) : IsExact ols := by
  intro y X q hq
  apply le_antisymm
  · rw [← hq]; exact h y X q
  · unfold sse
    apply List.sum_nonneg
    intro a ha
    rw [List.mem_iff_getElem] at ha
    obtain ⟨i, hi, rfl⟩ := ha
    rw [List.getElem_zipWith]
    positivity

theorem sse_eq (y : List ℝ) (X : List (List ℝ)) (p : List ℝ) : meanSq y X p = sse y X p / y.length := rfl

theorem log_omega {M fc n g f : ℝ} (hM : 0 < M) (hc : 0 < fc) (hf : 0 < f) :
    log (omegaModel M fc n g f) = soft (n * g) (1 / g) (log M) (log fc) (log f) := by
  have h1 : 0 < f / fc := by positivity
  have h2 : 0 < 1 + (f / fc) ^ (n * g) := by positivity
  unfold omegaModel soft
  rw [log_div hM.ne' (by positivity), log_rpow h2, rpow_def_of_pos h1, log_div hf.ne' hc.ne',
    mul_comm (log f - log fc)]

theorem log_sourceAB {fc a b c f : ℝ} (hc : 0 < fc) (hf : 0 < f) :
    c + log (sourceModelAB f 1 fc a 1) * b = soft a b c (log fc) (log f) := by
  have h1 : 0 < f / fc := by positivity
  have h2 : 0 < 1 + (f / fc) ^ a := by positivity
  unfold sourceModelAB soft
  rw [one_mul, log_rpow h2, rpow_def_of_pos h1, log_div hf.ne' hc.ne', mul_comm (log f - log fc)]
  ring

/-- No residuals: all points are on the curve. -/
theorem residuals {pts : List (ℝ × ℝ)} {u v : ℝ × ℝ → ℝ}
    (h : sqrt ((pts.map (fun p => (u p - v p) ^ 2)).sum / pts.length) = 0) : ∀ p ∈ pts, u p = v p := by
  intro p hp
  have hn : 0 ≤ (pts.map (fun p => (u p - v p) ^ 2)).sum := sum_map_nonneg (fun a _ => by positivity)
  rw [sqrt_eq_zero (div_nonneg hn (by positivity)), div_eq_zero_iff] at h
  rcases h with h | h
  · have h1 : (u p - v p) ^ 2 ≤ 0 := by
      rw [← h]
      exact le_sum_map (l := pts) (f := fun p => (u p - v p) ^ 2) (fun a _ => by positivity) hp
    have := pow_eq_zero_iff (two_ne_zero) |>.1 (le_antisymm h1 (by positivity))
    linarith
  · have : pts.length = 0 := by exact_mod_cast h
    rw [List.length_eq_zero_iff] at this
    rw [this] at hp; simp at hp

/-- The fall-off and the sharpness are both free: the values of the search and of the regression. -/
theorem fitAt_ab {model : List ℝ → List (List ℝ) → List ℝ} {pts : List (ℝ × ℝ)} {o : Opts}
    {xs : List ℝ} {r : Dict String Cell} (h : fitAt model pts o (unknowns o) xs = .ok r)
    (hx : xs.length = (unknowns o).length) (hn : o.n = none) (hg : o.gamma = none) :
    ∃ fc a par, xs.getLast? = some a ∧ reported r o.fc "fc" = some fc ∧
      par = model (pts.map (fun p => log p.2))
        (pts.map (fun p => [1, log (sourceModelAB p.1 1 fc a 1)])) ∧
      r.get? "n" = some (.num (a * par.getD 1 0)) ∧ r.get? "gamma" = some (.num (1 / par.getD 1 0)) ∧
      r.get? "M0" = some (.num (exp (par.getD 0 0))) ∧
      r.get? "fit_error" = some (.num (sqrt (meanSq (pts.map (fun p => log p.2))
        (pts.map (fun p => [1, log (sourceModelAB p.1 1 fc a 1)])) par))) := by
  obtain ⟨fc, n, g, fcl, nl, gl, fc0, n0, g0, fb, np⟩ := o
  dsimp only at hn hg
  subst hn hg
  match xs with
  | [] => cases fc <;> simp [unknowns] at hx
  | [x] =>
    cases fc <;> simp [unknowns] at hx
    next fc =>
    simp [fitAt, unknowns, wrapper, lstsq, lstsqab, bind, Except.bind, Dict.update, Dict.set,
      translateAB, Dict.get?_cons, Dict.pop] at h
    subst h
    exact ⟨fc, x, _, rfl, by simp [reported, Dict.get?_cons], rfl, by simp [Dict.get?_cons],
      by simp [Dict.get?_cons], by simp [Dict.get?_cons], by simp [Dict.get?_cons]⟩
  | [x, y] =>
    cases fc <;> simp [unknowns] at hx
    simp [fitAt, unknowns, wrapper, lstsq, lstsqab, bind, Except.bind, Dict.update, Dict.set,
      translateAB, Dict.get?_cons, Dict.pop] at h
    subst h
    exact ⟨x, y, _, rfl, by simp [reported, Dict.get?_cons], rfl, by simp [Dict.get?_cons],
      by simp [Dict.get?_cons], by simp [Dict.get?_cons], by simp [Dict.get?_cons]⟩
  | x :: y :: z :: l => cases fc <;> simp [unknowns] at hx

/-- GivenTrue parameters are not reported. -/
theorem fitSds_given {orc : Oracle} {freq : List ℝ} {omM : List Cell} {m : Method} (hm : isFit m)
    {o : Opts} {r : Dict String Cell} (h : fitSds orc freq omM m o = .ok (some r))
    (hr : r.get? "M0" ≠ none) : (o.fc ≠ none → r.get? "fc" = none) ∧ (o.n ≠ none → r.get? "n" = none) ∧
    (o.gamma ≠ none → r.get? "gamma" = none) := by
  obtain ⟨hp, hfr⟩ := fitSds_search hm h hr
  have key : ∀ model pts xs, fitAt model pts o (unknowns o) xs = .ok r → unknowns o ≠ [] →
      (o.fc ≠ none → r.get? "fc" = none) ∧ (o.n ≠ none → r.get? "n" = none) ∧
      (o.gamma ≠ none → r.get? "gamma" = none) := by
    clear h hfr hp
    intro model pts xs hfit hu
    obtain ⟨fc', n', g', fcl, nl, gl, fc0, n0, g0, fb, np⟩ := o
    match xs with
    | [] =>
      cases fc' <;> cases n' <;> cases g' <;>
      simp [fitAt, unknowns, wrapper, lstsq, lstsqab, bind, Except.bind] at hfit hu
    | [x] =>
      cases fc' <;> cases n' <;> cases g' <;>
      simp [fitAt, unknowns, wrapper, lstsq, lstsqab, bind, Except.bind, Dict.update, Dict.set,
        translateAB, Dict.get?_cons, Dict.pop] at hfit hu <;> rw [← hfit] <;>
      simp [Dict.get?_cons]
    | x :: y :: xs =>
      cases fc' <;> cases n' <;> cases g' <;>
      simp [fitAt, unknowns, wrapper, lstsq, lstsqab, bind, Except.bind, Dict.update, Dict.set,
        translateAB, Dict.get?_cons, Dict.pop] at hfit hu <;> rw [← hfit] <;>
      simp [Dict.get?_cons]
  have hl := unknowns_length o
  unfold fitResult at hfr
  split at hfr
  · next hu =>
    obtain ⟨a, ha, hfr⟩ := bind_ok.1 hfr
    simp only [pure, Except.pure, Except.ok.injEq] at hfr
    unfold lstsq at ha
    split at ha
    · simp only [Except.ok.injEq] at ha
      rw [← hfr, ← ha]
      simp [Dict.get?_cons]
    · simp at ha
  · next x hx =>
    rw [hx] at hl
    simp only [List.length_singleton] at hl
    rw [if_pos (by omega)] at hfr
    obtain ⟨_, -, hfr⟩ := bind_ok.1 hfr
    rw [← hx] at hfr
    exact key _ _ _ hfr (by simp [hx])
  · next us h1 h2 =>
    rw [hl, if_pos hp] at hfr
    obtain ⟨_, -, hfr⟩ := bind_ok.1 hfr
    exact key _ _ _ hfr h1

theorem log_lt {x y : ℝ} (hx : 0 < x) (h : x < y) : log x < log y := log_lt_log hx h

/-- A curve through exact data is the true curve. -/
theorem curve_unique {pts : List (ℝ × ℝ)} {M fc n g : ℝ} {o : Opts} (hM : 0 < M) (hc : 0 < fc) (hn : 0 < n)
    (hg : 0 < g) (hpos : ∀ p ∈ pts, 0 < p.1) (hdata : ∀ p ∈ pts, p.2 = omegaModel M fc n g p.1)
    (hd : Different (needed o) pts) {a b c x0 : ℝ} (ha : 0 < a)
    (hn' : ∀ x, o.n = some x → a * b = n) (hg' : ∀ x, o.gamma = some x → b = 1 / g)
    (hcurve : ∀ p ∈ pts, log p.2 = soft a b c x0 (log p.1)) :
    a = n * g ∧ b = 1 / g ∧ c = log M ∧ x0 = log fc := by
  have key : ∀ f x, (f, x) ∈ pts →
      0 < f ∧ soft (n * g) (1 / g) (log M) (log fc) (log f) = soft a b c x0 (log f) := by
    intro f x h
    have h0 := hpos _ h
    refine ⟨h0, ?_⟩
    rw [← hcurve _ h, hdata _ h]
    exact (log_omega hM hc h0).symm
  have h1 : 0 < n * g := by positivity
  have h2 : 0 < 1 / g := by positivity
  have h3 : n * g * (1 / g) = n := by field_simp
  obtain ⟨fs, hlen, hs, hin⟩ := hd
  unfold needed at hlen
  cases hno : o.n with
  | none =>
    cases hgo : o.gamma with
    | none =>
      simp only [hno, hgo, if_true] at hlen
      match fs, hlen with
      | [f1, f2, f3, f4], _ =>
        simp only [List.pairwise_cons, List.mem_cons, List.not_mem_nil, or_false, forall_eq_or_imp,
          forall_eq] at hs
        obtain ⟨x1, i1⟩ := hin f1 (by simp)
        obtain ⟨x2, i2⟩ := hin f2 (by simp)
        obtain ⟨x3, i3⟩ := hin f3 (by simp)
        obtain ⟨x4, i4⟩ := hin f4 (by simp)
        obtain ⟨p1, k1⟩ := key _ _ i1
        obtain ⟨p2, k2⟩ := key _ _ i2
        obtain ⟨p3, k3⟩ := key _ _ i3
        obtain ⟨p4, k4⟩ := key _ _ i4
        obtain ⟨e1, e2, e3, e4⟩ := soft_four h1 h2 ha (log_lt p1 hs.1.1) (log_lt p2 hs.2.1.1)
          (log_lt p3 hs.2.2.1) k1 k2 k3 k4
        exact ⟨e1.symm, e2.symm, e3.symm, e4.symm⟩
    | some g' =>
      have hb := hg' g' hgo
      subst hb
      simp only [hno, hgo, if_true, reduceCtorEq, if_false] at hlen
      match fs, hlen with
      | [f1, f2, f3], _ =>
        simp only [List.pairwise_cons, List.mem_cons, List.not_mem_nil, or_false, forall_eq_or_imp,
          forall_eq] at hs
        obtain ⟨x1, i1⟩ := hin f1 (by simp)
        obtain ⟨x2, i2⟩ := hin f2 (by simp)
        obtain ⟨x3, i3⟩ := hin f3 (by simp)
        obtain ⟨p1, k1⟩ := key _ _ i1
        obtain ⟨p2, k2⟩ := key _ _ i2
        obtain ⟨p3, k3⟩ := key _ _ i3
        obtain ⟨e1, e3, e4⟩ := soft_three_g h1 h2 ha (log_lt p1 hs.1.1) (log_lt p2 hs.2.1) k1 k2 k3
        exact ⟨e1.symm, rfl, e3.symm, e4.symm⟩
  | some n' =>
    have hab := hn' n' hno
    cases hgo : o.gamma with
    | none =>
      simp only [hno, hgo, if_true, reduceCtorEq, if_false] at hlen
      match fs, hlen with
      | [f1, f2, f3], _ =>
        simp only [List.pairwise_cons, List.mem_cons, List.not_mem_nil, or_false, forall_eq_or_imp,
          forall_eq] at hs
        obtain ⟨x1, i1⟩ := hin f1 (by simp)
        obtain ⟨x2, i2⟩ := hin f2 (by simp)
        obtain ⟨x3, i3⟩ := hin f3 (by simp)
        obtain ⟨p1, k1⟩ := key _ _ i1
        obtain ⟨p2, k2⟩ := key _ _ i2
        obtain ⟨p3, k3⟩ := key _ _ i3
        obtain ⟨e1, e2, e3, e4⟩ := soft_three_n h1 h2 ha (by rw [h3, hab]) (log_lt p1 hs.1.1)
          (log_lt p2 hs.2.1) k1 k2 k3
        exact ⟨e1.symm, e2.symm, e3.symm, e4.symm⟩
    | some g' =>
      have hb := hg' g' hgo
      subst hb
      have ea : a = n * g := by
        apply mul_right_cancel₀ h2.ne'
        rw [hab, h3]
      subst ea
      simp only [hno, hgo, if_true, reduceCtorEq, if_false] at hlen
      match fs, hlen with
      | [f1, f2], _ =>
        simp only [List.pairwise_cons, List.mem_cons, List.not_mem_nil, or_false, forall_eq_or_imp,
          forall_eq] at hs
        obtain ⟨x1, i1⟩ := hin f1 (by simp)
        obtain ⟨x2, i2⟩ := hin f2 (by simp)
        obtain ⟨p1, k1⟩ := key _ _ i1
        obtain ⟨p2, k2⟩ := key _ _ i2
        obtain ⟨e3, e4⟩ := soft_two h1 h2 (log_lt p1 hs.1) k1 k2
        exact ⟨rfl, rfl, e3.symm, e4.symm⟩

/-- **C129** (partial; missing: spectra with fewer frequencies than `needed`, see
`C129_two_points_counterexample`): if the spectrum is exactly the one of a source with moment `M`, corner frequency `fc`,
fall-off `n` and sharpness `g`, some of these parameters are given correctly and the others are
searched, then a fit with reported error zero reports the true parameters, provided that the spectrum
has values at two different frequencies and one more for each of fall-off and sharpness which is
searched.  No assumption about the quality of the search is used: a wrong result is noticed by an
error which is not zero. -/
theorem C129_perfect_fit_partial {orc : Oracle} (hs : IsSearch orc) {freq : List ℝ} {omM : List Cell}
    {m : Method} (hm : isFit m) {o : Opts} {r : Dict String Cell} {M fc n g : ℝ}
    (hM : 0 < M) (hc : 0 < fc) (hn : 0 < n) (hg : 0 < g) (hf : ∀ f ∈ freq, 0 < f)
    (hdata : ∀ p ∈ points freq omM, p.2 = omegaModel M fc n g p.1)
    (hd : Different (needed o) (points freq omM)) (hgiv : GivenTrue o fc n g)
    (hlim : InLimits o (points freq omM) fc n g)
    (h : fitSds orc freq omM m o = .ok (some r)) (he : r.get? "fit_error" = some (.num 0)) :
    r.get? "M0" = some (.num M) ∧ reported r o.fc "fc" = some fc ∧ reported r o.n "n" = some n ∧
      reported r o.gamma "gamma" = some g := by
  have hpos := points_pos (omM := omM) hf
  obtain ⟨-, -, hlen, hsh⟩ := fitSds_shape orc freq omM m hm o r h
  have hsh : FitShape (if m = .robustFit ∧ o.fallBack ≤ (points freq omM).length
      then orc.rlm else orc.ols) (points freq omM) o r := by
    rcases hsh with hsh | hsh
    · rw [hsh.2] at he; simp at he
    · exact hsh.2
  have hr : r.get? "M0" ≠ none := by
    rcases hsh with ⟨_, _, _, -, -, -, -, e, -⟩ | ⟨_, _, _, -, -, -, -, -, -, e, -⟩ <;> rw [e] <;> simp
  have hne : points freq omM ≠ [] := by rw [← List.length_pos_iff]; exact hlen
  -- the corner frequency is positive
  have hfcpos : ∀ x, reported r o.fc "fc" = some x → 0 < x := by
    intro x hx
    by_cases hfc : o.fc = none
    · obtain ⟨y, e, h1, h2⟩ := C105_corner_frequency hs hm h hr hfc
      rw [reported, e] at hx
      simp only [Cell.val?, Option.some.injEq] at hx
      subst hx
      cases hl : o.fcLim with
      | none =>
        obtain ⟨p, hp⟩ := Option.ne_none_iff_exists'.1 (by simpa using hne : (points freq omM).head? ≠ none)
        obtain ⟨q, hq⟩ := Option.ne_none_iff_exists'.1 (by simpa using hne : (points freq omM).getLast? ≠ none)
        exact lt_of_lt_of_le (hpos p (List.mem_of_mem_head? hp)) (h2 hl p q hp hq).1
      | some l => exact lt_of_lt_of_le (hlim.limits hfc l hl).1 (h1 l hl).1
    · obtain ⟨z, hz⟩ := Option.ne_none_iff_exists'.1 hfc
      have : r.get? "fc" = none := (fitSds_given hm h hr).1 (by simp [hz])
      rw [reported, this, hz] at hx
      simp only [Option.some.injEq] at hx
      rw [← hx, hgiv.fc z hz]
      exact hc
  by_cases hboth : o.n = none ∧ o.gamma = none
  · -- search for `a` and regression for `b`
    obtain ⟨hno, hgo⟩ := hboth
    obtain ⟨hp, hfr⟩ := fitSds_search hm h hr
    have hu : unknowns o ≠ [] := by simp [unknowns, hno, hgo]
    obtain ⟨ls, xs, e, -, hin, hfit, -⟩ := fitResult_search hs hp hu hfr
    have hlx : xs.length = (unknowns o).length := by
      rw [← hin.length_eq, ← List.length_map (f := some), ← e, List.length_map]
    obtain ⟨fc', a, par, hlast, e1, hpar, e2, e3, e4, e5⟩ := fitAt_ab hfit hlx hno hgo
    have ha : 0 < a := by
      have hul : (unknowns o).getLast? = some "a" := by
        cases hfc : o.fc <;> simp [unknowns, hno, hgo, hfc]
      have e2 := congrArg List.getLast? e
      rw [List.getLast?_map, List.getLast?_map, hul] at e2
      cases hl : ls.getLast? with
      | none => rw [hl] at e2; simp at e2
      | some l =>
        rw [hl] at e2
        have := forall₂_getLast hin hl hlast
        obtain ⟨ln, hln, ln0, -⟩ := hlim.n hno
        obtain ⟨lg, hlg, lg0, -⟩ := hlim.gamma hgo
        simp only [bounds, hln, hlg, Option.map_some, Option.some.injEq, String.reduceEq, if_false] at e2
        rw [← e2] at this
        exact lt_of_lt_of_le (mul_pos ln0 lg0) this.1
    have hfc' := hfcpos _ e1
    rw [he] at e5
    simp only [Option.some.injEq, Cell.num.injEq] at e5
    have hres : ∀ p ∈ points freq omM, log p.2 = soft a (par.getD 1 0) (par.getD 0 0) (log fc') (log p.1) := by
      intro p hp'
      rw [← log_sourceAB hfc' (hpos p hp')]
      refine residuals (u := fun p => log p.2)
        (v := fun p => par.getD 0 0 + log (sourceModelAB p.1 1 fc' a 1) * par.getD 1 0) ?_ p hp'
      refine Eq.trans ?_ e5.symm
      unfold meanSq
      rw [zipWith_maps, List.length_map]
      simp only [dot_two]
    obtain ⟨f1, f2, f3, f4⟩ := curve_unique hM hc hn hg hpos hdata hd ha
      (fun x hx => by rw [hno] at hx; simp at hx) (fun x hx => by rw [hgo] at hx; simp at hx) hres
    refine ⟨?_, ?_, ?_, ?_⟩
    · rw [e4, f3, exp_log hM]
    · rw [e1, log_injOn_pos (Set.mem_Ioi.2 hfc') (Set.mem_Ioi.2 hc) f4]
    · rw [reported, e2, f1, f2]
      simp only [Cell.val?, Option.some.injEq]
      field_simp
    · rw [reported, e3, f2]
      simp [Cell.val?]
  · rcases hsh with ⟨fc', n', g', -, e1, e2, e3, e4, e5⟩ | ⟨_, _, _, h1, h2, -⟩
    · have hfc' := hfcpos _ e1
      have hn' : 0 < n' ∧ ∀ x, o.n = some x → n' = n := by
        by_cases hno : o.n = none
        · have hgo : o.gamma ≠ none := fun hh => hboth ⟨hno, hh⟩
          obtain ⟨y, l, e, hl, hi⟩ := (C105_shape_partial hs hm h hr).1 hno hgo
          obtain ⟨l', hl', hl0, -⟩ := hlim.n hno
          rw [hl] at hl'; cases hl'
          rw [reported, e] at e2
          simp only [Cell.val?, Option.some.injEq] at e2
          subst e2
          exact ⟨lt_of_lt_of_le hl0 hi.1, fun x hx => by rw [hno] at hx; simp at hx⟩
        · obtain ⟨z, hz⟩ := Option.ne_none_iff_exists'.1 hno
          have : r.get? "n" = none := (fitSds_given hm h hr).2.1 hno
          rw [reported, this, hz] at e2
          simp only [Option.some.injEq] at e2
          rw [← e2, hgiv.n z hz]
          exact ⟨hn, fun _ _ => rfl⟩
      have hg' : 0 < g' ∧ ∀ x, o.gamma = some x → g' = g := by
        by_cases hgo : o.gamma = none
        · have hno : o.n ≠ none := fun hh => hboth ⟨hh, hgo⟩
          obtain ⟨y, l, e, hl, hi⟩ := (C105_shape_partial hs hm h hr).2.1 hgo hno
          obtain ⟨l', hl', hl0, -⟩ := hlim.gamma hgo
          rw [hl] at hl'; cases hl'
          rw [reported, e] at e3
          simp only [Cell.val?, Option.some.injEq] at e3
          subst e3
          exact ⟨lt_of_lt_of_le hl0 hi.1, fun x hx => by rw [hgo] at hx; simp at hx⟩
        · obtain ⟨z, hz⟩ := Option.ne_none_iff_exists'.1 hgo
          have : r.get? "gamma" = none := (fitSds_given hm h hr).2.2 hgo
          rw [reported, this, hz] at e3
          simp only [Option.some.injEq] at e3
          rw [← e3, hgiv.gamma z hz]
          exact ⟨hg, fun _ _ => rfl⟩
      have hM' : 0 < exp ((if m = .robustFit ∧ o.fallBack ≤ (points freq omM).length
          then orc.rlm else orc.ols) ((points freq omM).map (fun p => log p.2 - log (sourceModel p.1 1 fc' n' g')))
          ((points freq omM).map (fun _ => [1])) |>.getD 0 0) := exp_pos _
      rw [he] at e5
      simp only [Option.some.injEq, Cell.num.injEq] at e5
      rw [lstsq_misfit _ _ _ _ _ hpos hfc', ← misfit_omega hpos hfc'] at e5
      generalize exp ((if m = .robustFit ∧ o.fallBack ≤ (points freq omM).length
          then orc.rlm else orc.ols) ((points freq omM).map (fun p => log p.2 - log (sourceModel p.1 1 fc' n' g')))
          ((points freq omM).map (fun _ => [1])) |>.getD 0 0) = M' at hM' e4 e5
      have hres : ∀ p ∈ points freq omM, log p.2 = soft (n' * g') (1 / g') (log M') (log fc') (log p.1) := by
        intro p hp'
        rw [← log_omega hM' hfc' (hpos p hp')]
        exact residuals (u := fun p => log p.2) (v := fun p => log (omegaModel M' fc' n' g' p.1)) e5.symm p hp'
      obtain ⟨f1, f2, f3, f4⟩ := curve_unique hM hc hn hg hpos hdata hd (mul_pos hn'.1 hg'.1)
        (fun x hx => by rw [hn'.2 x hx]; have := hg'.1; field_simp) (fun x hx => by rw [hg'.2 x hx]) hres
      have eg : g' = g := by simpa using f2
      subst eg
      have en : n' = n := mul_right_cancel₀ hg.ne' f1
      subst en
      refine ⟨?_, ?_, e2, e3⟩
      · rw [e4, log_injOn_pos (Set.mem_Ioi.2 hM') (Set.mem_Ioi.2 hM) f3]
      · rw [e1, log_injOn_pos (Set.mem_Ioi.2 hfc') (Set.mem_Ioi.2 hc) f4]
    · exact absurd ⟨h1, h2⟩ hboth

/-- The search which finds the smallest value. -/
theorem fitResult_global {orc : Oracle} (hs : IsGlobalSearch orc) {model : List ℝ → List (List ℝ) → List ℝ}
    {pts : List (ℝ × ℝ)} {o : Opts} {r : Dict String Cell} (hp : searchCount o < pts.length)
    (hu : unknowns o ≠ []) (h : fitResult orc model pts o = .ok r) :
    ∃ ls xs, (unknowns o).map (bounds pts o) = ls.map some ∧ (∀ l ∈ ls, l.1 ≤ l.2) ∧
      List.Forall₂ Inside ls xs ∧ fitAt model pts o (unknowns o) xs = .ok r ∧
      ((∃ m, List.Forall₂ Inside ls m ∧ ∀ y, List.Forall₂ Inside ls y →
        objective (wrapper model pts o ((unknowns o).foldl (· ++ ·) "")) m ≤
        objective (wrapper model pts o ((unknowns o).foldl (· ++ ·) "")) y) →
        ∀ y, List.Forall₂ Inside ls y →
        objective (wrapper model pts o ((unknowns o).foldl (· ++ ·) "")) xs ≤
        objective (wrapper model pts o ((unknowns o).foldl (· ++ ·) "")) y) := by
  have hl := unknowns_length o
  by_cases h1 : 1 < (unknowns o).length
  · obtain ⟨ls, xs, e, hle, hin, hfit, hx⟩ := fitResult_search hs.toIsSearch hp hu h
    refine ⟨ls, xs, e, hle, hin, hfit, ?_⟩
    intro hm y hy
    rw [hx h1]
    refine hs.minimizeMin _ _ ls ?_ hm y hy
    have := congrArg List.length e
    simpa using this
  · obtain ⟨x, hx⟩ : ∃ x, unknowns o = [x] := by
      cases hc : unknowns o with
      | nil => exact absurd hc hu
      | cons a l =>
        rw [hc] at h1
        cases l with
        | nil => exact ⟨a, rfl⟩
        | cons b l => simp at h1
    unfold fitResult at h
    rw [hx] at hl h
    simp only [List.length_singleton] at hl
    simp only at h
    rw [if_pos (by omega)] at h
    obtain ⟨_, hc, h⟩ := bind_ok.1 h
    obtain ⟨l, hb, hle⟩ := (checkScalar_ok _).1 hc
    have ex : [x].foldl (· ++ ·) "" = x := by simp
    rw [hx, ex]
    refine ⟨[l], [_], by simp [hb], by simpa using hle, ?_, h, ?_⟩
    · rw [hb]
      exact List.Forall₂.cons (hs.scalar _ _ hle) .nil
    · rintro ⟨m, hm, hmin⟩ y hy
      rw [hb]
      cases hy with
      | @cons _ y' _ _ hy hn =>
        cases hn
        refine hs.scalarMin (fun z => objective (wrapper model pts o x) [z]) l ?_ y' hy
        cases hm with
        | @cons _ m' _ _ hm hn =>
          cases hn
          exact ⟨m', hm, fun z hz => hmin [z] (.cons hz .nil)⟩

theorem meanSq_nonneg (y : List ℝ) (X : List (List ℝ)) (p : List ℝ) : 0 ≤ meanSq y X p := by
  unfold meanSq
  apply div_nonneg _ (by positivity)
  apply List.sum_nonneg
  intro a ha
  rw [List.mem_iff_getElem] at ha
  obtain ⟨i, hi, rfl⟩ := ha
  rw [List.getElem_zipWith]
  positivity

theorem objective_nonneg (model : List ℝ → List (List ℝ) → List ℝ) (pts : List (ℝ × ℝ)) (o : Opts)
    (key : String) (x : List ℝ) : 0 ≤ objective (wrapper model pts o key) x := by
  have h1 : ∀ a b c, ∀ r, lstsq model pts a b c = .ok r → 0 ≤ r.2 := by
    intro a b c r h
    unfold lstsq at h
    split at h
    · simp only [Except.ok.injEq] at h
      rw [← h]
      exact meanSq_nonneg _ _ _
    · simp at h
  have h2 : ∀ a b, ∀ r, lstsqab model pts a b = .ok r → 0 ≤ r.2 := by
    intro a b r h
    unfold lstsqab at h
    split at h
    · simp only [Except.ok.injEq] at h
      rw [← h]
      exact meanSq_nonneg _ _ _
    · simp at h
  unfold objective
  split
  · next r hr =>
    unfold wrapper at hr
    split_ifs at hr
    all_goals first | exact h1 _ _ _ _ hr | exact h2 _ _ _ hr | simp at hr
  · exact le_rfl

/-- The regressions have no residuals at the true parameters. -/
theorem exact_lstsq {model : List ℝ → List (List ℝ) → List ℝ} (he : IsExact model) {pts : List (ℝ × ℝ)}
    {M fc n g : ℝ} (hM : 0 < M) (hc : 0 < fc) (hpos : ∀ p ∈ pts, 0 < p.1)
    (hdata : ∀ p ∈ pts, p.2 = omegaModel M fc n g p.1) :
    meanSq (pts.map (fun p => log p.2 - log (sourceModel p.1 1 fc n g))) (pts.map (fun _ => [1]))
      (model (pts.map (fun p => log p.2 - log (sourceModel p.1 1 fc n g))) (pts.map (fun _ => [1]))) = 0 := by
  rw [sse_eq, he _ _ [log M], zero_div]
  unfold sse
  rw [zipWith_maps]
  apply List.sum_eq_zero
  intro x hx
  obtain ⟨p, hp, rfl⟩ := List.mem_map.1 hx
  have h0 := hpos p hp
  have hx : 0 < (1 + (p.1 / fc) ^ (n * g)) ^ (-1 / g) := by positivity
  rw [hdata p hp, ← C61_is_omega_model _ _ _ _ _ h0 hc]
  simp only [sourceModel]
  rw [log_mul hM.ne' hx.ne', log_mul (by norm_num) hx.ne', log_one]
  simp

theorem exact_lstsqab {model : List ℝ → List (List ℝ) → List ℝ} (he : IsExact model) {pts : List (ℝ × ℝ)}
    {M fc n g : ℝ} (hM : 0 < M) (hc : 0 < fc) (hpos : ∀ p ∈ pts, 0 < p.1)
    (hdata : ∀ p ∈ pts, p.2 = omegaModel M fc n g p.1) :
    meanSq (pts.map (fun p => log p.2)) (pts.map (fun p => [1, log (sourceModelAB p.1 1 fc (n * g) 1)]))
      (model (pts.map (fun p => log p.2)) (pts.map (fun p => [1, log (sourceModelAB p.1 1 fc (n * g) 1)]))) = 0 := by
  rw [sse_eq, he _ _ [log M, 1 / g], zero_div]
  unfold sse
  rw [zipWith_maps]
  apply List.sum_eq_zero
  intro x hx
  obtain ⟨p, hp, rfl⟩ := List.mem_map.1 hx
  have h0 := hpos p hp
  rw [hdata p hp, log_omega hM hc h0, ← log_sourceAB hc h0]
  simp

/-- **C129** (partial as above): with a search which finds the smallest misfit inside of the limits and regressions which
are exact for exact data, the fit of an exact spectrum succeeds and reports the true moment, the
true values of all searched parameters and the error zero. -/
theorem C129_recovered_partial {orc : Oracle} (hs : IsGlobalSearch orc) (h1 : IsExact orc.ols)
    (h2 : IsExact orc.rlm) {freq : List ℝ} {omM : List Cell} {m : Method} (hm : isFit m) {o : Opts}
    {M fc n g : ℝ} (hM : 0 < M) (hc : 0 < fc) (hn : 0 < n) (hg : 0 < g) (hf : ∀ f ∈ freq, 0 < f)
    (hl : freq.length = omM.length)
    (hdata : ∀ p ∈ points freq omM, p.2 = omegaModel M fc n g p.1)
    (hd : Different (needed o) (points freq omM)) (hgiv : GivenTrue o fc n g)
    (hlim : InLimits o (points freq omM) fc n g)
    (hnum : ∀ k, o.numPoints = some k → k ≤ (points freq omM).length) :
    ∃ r, fitSds orc freq omM m o = .ok (some r) ∧ r.get? "fit_error" = some (.num 0) ∧
      r.get? "M0" = some (.num M) ∧ reported r o.fc "fc" = some fc ∧ reported r o.n "n" = some n ∧
      reported r o.gamma "gamma" = some g := by
  have hpos := points_pos (omM := omM) hf
  -- enough points
  have hcount : searchCount o < (points freq omM).length := by
    obtain ⟨fs, e1, e2, e3⟩ := hd
    have hsub : fs ⊆ (points freq omM).map Prod.fst := by
      intro f hf
      obtain ⟨x, hx⟩ := e3 f hf
      exact List.mem_map.2 ⟨_, hx, rfl⟩
    have hnd : fs.Nodup := e2.imp (fun h => h.ne)
    have := (List.Nodup.subperm hnd hsub).length_le
    rw [e1, List.length_map] at this
    unfold needed at this
    unfold searchCount
    cases h1 : o.fc <;> cases h2 : o.n <;> cases h3 : o.gamma <;> simp [h1, h2, h3] at this ⊢ <;> omega
  have hsl : SearchLimits o (points freq omM) := by
    refine ⟨?_, ?_, ?_, ?_, ?_⟩
    · intro h l hl
      have := (hlim.limits h l hl).2
      exact this.1.trans this.2
    · intro h hl p q hp hq
      have := hlim.freq h hl p q hp hq
      exact this.1.trans this.2
    · intro h
      obtain ⟨l, hl, -, h3⟩ := hlim.n h
      exact ⟨l, hl, fun _ => h3.1.trans h3.2⟩
    · intro h
      obtain ⟨l, hl, -, h3⟩ := hlim.gamma h
      exact ⟨l, hl, fun _ => h3.1.trans h3.2⟩
    · intro hn' hg' l k hl hk
      obtain ⟨l', hl', l0, l1, l2⟩ := hlim.n hn'
      obtain ⟨k', hk', k0, k1, k2⟩ := hlim.gamma hg'
      rw [hl] at hl'; cases hl'
      rw [hk] at hk'; cases hk'
      exact mul_le_mul (l1.trans l2) (k1.trans k2) k0.le (by linarith)
  obtain ⟨r, M0, hr, hM0, -⟩ := (C63_fit_reports_iff orc freq omM m hm o hl hs.length).2 ⟨hcount, hnum, hsl⟩
  refine ⟨r, hr, ?_⟩
  suffices he : r.get? "fit_error" = some (.num 0) from
    ⟨he, C129_perfect_fit_partial hs.toIsSearch hm hM hc hn hg hf hdata hd hgiv hlim hr he⟩
  obtain ⟨-, hfr⟩ := fitSds_search hm hr (by rw [hM0]; simp)
  have hex : IsExact (if m = .robustFit ∧ o.fallBack ≤ (points freq omM).length
      then orc.rlm else orc.ols) := by
    split
    · exact h2
    · exact h1
  revert hfr hex
  generalize (if m = .robustFit ∧ o.fallBack ≤ (points freq omM).length
      then orc.rlm else orc.ols) = model
  intro hfr hex
  have hne : points freq omM ≠ [] := by rintro e; rw [e] at hcount; simp at hcount
  generalize points freq omM = pts at *
  have hls := exact_lstsq hex hM hc hpos hdata
  have hlab := exact_lstsqab hex hM hc hpos hdata
  by_cases hu : unknowns o = []
  · unfold fitResult at hfr
    simp only [hu] at hfr
    have hfc : o.fc = some fc ∧ o.n = some n ∧ o.gamma = some g := by
      obtain ⟨g1, g2, g3⟩ := hgiv
      cases h1 : o.fc <;> cases h2 : o.n <;> cases h3 : o.gamma <;> simp [unknowns, h1, h2, h3] at hu
      exact ⟨by rw [g1 _ h1], by rw [g2 _ h2], by rw [g3 _ h3]⟩
    simp only [hfc.1, hfc.2.1, hfc.2.2, lstsq, bind, Except.bind, pure, Except.pure, Except.ok.injEq,
      hls] at hfr
    rw [← hfr]
    simp [Dict.get?_cons]
  · obtain ⟨ls, xs, e, hle, hin, hfit, hmin⟩ := fitResult_global hs hcount hu hfr
    have hlx : xs.length = (unknowns o).length := by
      rw [← hin.length_eq, ← List.length_map (f := some), ← e, List.length_map]
    have hv := (fitAt_values hfit hu hlx).2.2.2.2
    -- the true values
    have htrue : ∃ t, List.Forall₂ Inside ls t ∧
        objective (wrapper model pts o ((unknowns o).foldl (· ++ ·) "")) t = 0 := by
      have hbfc : o.fc = none → ∀ l, bounds pts o "fc" = some l → Inside l fc := by
        intro hfc l hb
        obtain ⟨a, b⟩ := bounds_fc hb
        cases hfl : o.fcLim with
        | none =>
          obtain ⟨p, hp'⟩ := Option.ne_none_iff_exists'.1 (by simpa using hne : pts.head? ≠ none)
          obtain ⟨q, hq'⟩ := Option.ne_none_iff_exists'.1 (by simpa using hne : pts.getLast? ≠ none)
          rw [b hfl p q hp' hq']
          exact hlim.freq hfc hfl p q hp' hq'
        | some l' => rw [a l' hfl]; exact (hlim.limits hfc l' hfl).2
      have hbn : o.n = none → ∀ l, bounds pts o "n" = some l → Inside l n := by
        intro hn l hb
        obtain ⟨l', hl', -, h3⟩ := hlim.n hn
        simp only [bounds, hl', String.reduceEq, if_true, if_false, Option.some.injEq] at hb
        rw [← hb]; exact h3
      have hbg : o.gamma = none → ∀ l, bounds pts o "gamma" = some l → Inside l g := by
        intro hn l hb
        obtain ⟨l', hl', -, h3⟩ := hlim.gamma hn
        simp only [bounds, hl', String.reduceEq, if_true, if_false, Option.some.injEq] at hb
        rw [← hb]; exact h3
      have hba : o.n = none → o.gamma = none → ∀ l, bounds pts o "a" = some l → Inside l (n * g) := by
        intro hn hg l hb
        obtain ⟨l', hl', l0, l1, l2⟩ := hlim.n hn
        obtain ⟨k', hk', k0, k1, k2⟩ := hlim.gamma hg
        simp only [bounds, hl', hk', String.reduceEq, if_true, if_false, Option.some.injEq] at hb
        rw [← hb]
        exact ⟨mul_le_mul l1 k1 k0.le (by linarith), mul_le_mul l2 k2 (by linarith) (by linarith)⟩
      obtain ⟨g1, g2, g3⟩ := hgiv
      have one : ∀ x t, unknowns o = [x] → (∀ l, bounds pts o x = some l → Inside l t) →
          List.Forall₂ Inside ls [t] := by
        intro x t hx hb
        rw [hx] at e
        rcases ls with _ | ⟨l, _ | ⟨l', ls⟩⟩
        · simp at e
        · simp only [List.map_cons, List.map_nil, List.cons.injEq, and_true] at e
          exact .cons (hb l e) .nil
        · simp at e
      have two : ∀ x x' t t', unknowns o = [x, x'] → (∀ l, bounds pts o x = some l → Inside l t) →
          (∀ l, bounds pts o x' = some l → Inside l t') → List.Forall₂ Inside ls [t, t'] := by
        intro x x' t t' hx hb hb'
        rw [hx] at e
        rcases ls with _ | ⟨l, _ | ⟨l', _ | ⟨l'', ls⟩⟩⟩
        · simp at e
        · simp at e
        · simp only [List.map_cons, List.map_nil, List.cons.injEq, and_true] at e
          exact .cons (hb l e.1) (.cons (hb' l' e.2) .nil)
        · simp at e
      clear hv hfit hmin hin hfr
      cases h1 : o.fc <;> cases h2 : o.n <;> cases h3 : o.gamma
      · exact ⟨_, two "fc" "a" fc (n * g) (by simp [unknowns, h1, h2, h3]) (hbfc h1) (hba h2 h3), by
          simp [objective, wrapper, unknowns, h1, h2, h3, lstsqab, hlab]⟩
      · exact ⟨_, two "fc" "n" fc n (by simp [unknowns, h1, h2, h3]) (hbfc h1) (hbn h2), by
          simp [objective, wrapper, unknowns, h1, h2, h3, lstsq, g3 _ h3, hls, -List.map_const']⟩
      · exact ⟨_, two "fc" "gamma" fc g (by simp [unknowns, h1, h2, h3]) (hbfc h1) (hbg h3), by
          simp [objective, wrapper, unknowns, h1, h2, h3, lstsq, g2 _ h2, hls, -List.map_const']⟩
      · exact ⟨_, one "fc" fc (by simp [unknowns, h1, h2, h3]) (hbfc h1), by
          simp [objective, wrapper, unknowns, h1, h2, h3, lstsq, g2 _ h2, g3 _ h3, hls, -List.map_const']⟩
      · exact ⟨_, one "a" (n * g) (by simp [unknowns, h1, h2, h3]) (hba h2 h3), by
          simp [objective, wrapper, unknowns, h1, h2, h3, lstsqab, g1 _ h1, hlab]⟩
      · exact ⟨_, one "n" n (by simp [unknowns, h1, h2, h3]) (hbn h2), by
          simp [objective, wrapper, unknowns, h1, h2, h3, lstsq, g1 _ h1, g3 _ h3, hls, -List.map_const']⟩
      · exact ⟨_, one "gamma" g (by simp [unknowns, h1, h2, h3]) (hbg h3), by
          simp [objective, wrapper, unknowns, h1, h2, h3, lstsq, g1 _ h1, g2 _ h2, hls, -List.map_const']⟩
      · exact absurd (by simp [unknowns, h1, h2, h3]) hu
    obtain ⟨t, ht, ht0⟩ := htrue
    have hz : objective (wrapper model pts o ((unknowns o).foldl (· ++ ·) "")) xs = 0 := by
      apply le_antisymm _ (objective_nonneg _ _ _ _ _)
      rw [← ht0]
      refine hmin ⟨t, ht, ?_⟩ t ht
      intro y _
      rw [ht0]
      exact objective_nonneg _ _ _ _ _
    rw [hv, hz, sqrt_zero]

namespace Spec

/-- Spectral energy of a source with the displacement spectrum `om` at frequency `f` in a medium with
velocity `v` and density `rho` (Sato & Fehler 2012). -/
noncomputable def sourceEnergy (om f v rho : ℝ) : ℝ := 2 * π * f ^ 2 * om ^ 2 / (5 * rho * v ^ 5)

end Spec

theorem sds_energy {om f v rho : ℝ} (ho : 0 < om) (hf : 0 < f) (hv : 0 < v) (hr : 0 < rho) :
    sds (sourceEnergy om f v rho) f v rho = .ok (.num om) := by
  have hW : 0 < sourceEnergy om f v rho := by unfold sourceEnergy; positivity
  obtain ⟨x, h1, h2, h3⟩ := C65_value _ f v rho hW hf hv hr
  have : x ^ 2 = om ^ 2 := by
    rw [h3]; unfold sourceEnergy; field_simp
  rw [h1, (pow_left_inj₀ h2.le ho.le two_ne_zero).1 this]

theorem omega_pos {M fc n g f : ℝ} (hM : 0 < M) (hc : 0 < fc) (hf : 0 < f) : 0 < omegaModel M fc n g f := by
  unfold omegaModel; positivity

/-- The spectrum of exact energies. -/
theorem sds_exact {M fc n g v rho : ℝ} (hM : 0 < M) (hc : 0 < fc) (hv : 0 < v) (hr : 0 < rho)
    (freq : List ℝ) (W : List Cell) (hf : ∀ f ∈ freq, 0 < f)
    (hW : List.Forall₂ (fun f w => ∀ x, w = Cell.num x →
      x = sourceEnergy (omegaModel M fc n g f) f v rho) freq W) :
    ∃ L, sdsEntries freq W (some v) (some rho) = .ok L ∧ L.length = freq.length ∧
      points freq L = (points freq W).map (fun p => (p.1, omegaModel M fc n g p.1)) := by
  have key : ∀ (pre W : List Cell) (freq : List ℝ), (∀ f ∈ freq, 0 < f) →
      List.Forall₂ (fun f w => ∀ x, w = Cell.num x →
      x = sourceEnergy (omegaModel M fc n g f) f v rho) freq W →
      ∃ L, mapExc (fun p : ℝ × ℕ => do
        let w ← pyGet (pre ++ W) p.2
        match some v, some rho with
        | some v, some r => if w.truthy ∧ v ≠ 0 ∧ r ≠ 0 then sdsCell w p.1 v r else .ok Cell.none
        | _, _ => .ok Cell.none) (freq.zipIdx pre.length) = .ok L ∧ L.length = freq.length ∧
      points freq L = (points freq W).map (fun p => (p.1, omegaModel M fc n g p.1)) := by
    intro pre W freq hf hW
    induction hW generalizing pre with
    | nil => exact ⟨[], rfl, rfl, rfl⟩
    | @cons f w freq W hw _ ih =>
      have hf0 := hf f (by simp)
      obtain ⟨L, e1, e2, e3⟩ := ih (pre ++ [w]) (fun x hx => hf x (by simp [hx]))
      have hget : pyGet (pre ++ w :: W) pre.length = .ok w := by
        rw [pyGet_ok]; simp
      have happ : pre ++ [w] ++ W = pre ++ w :: W := by simp
      have hlen : (pre ++ [w]).length = pre.length + 1 := by simp
      rw [happ, hlen] at e1
      have e1' := mapExc_ok.1 e1
      rcases w with _ | _ | y
      · refine ⟨.none :: L, ?_, by simp [e2], ?_⟩
        · rw [List.zipIdx_cons]
          refine mapExc_ok.2 (.cons ?_ e1')
          simp only [hget, bind, Except.bind]
          simp [Cell.truthy]
        · unfold points at e3 ⊢
          simp only [List.zip_cons_cons, List.filterMap_cons]
          exact e3
      · refine ⟨.nan :: L, ?_, by simp [e2], ?_⟩
        · rw [List.zipIdx_cons]
          refine mapExc_ok.2 (.cons ?_ e1')
          simp only [hget, bind, Except.bind]
          simp [Cell.truthy, hv.ne', hr.ne', sdsCell, hf0.ne']
        · unfold points at e3 ⊢
          simp only [List.zip_cons_cons, List.filterMap_cons]
          exact e3
      · obtain rfl := hw y rfl
        have ho := omega_pos (n := n) (g := g) hM hc hf0
        have hpos : 0 < sourceEnergy (omegaModel M fc n g f) f v rho := by unfold sourceEnergy; positivity
        refine ⟨.num (omegaModel M fc n g f) :: L, ?_, by simp [e2], ?_⟩
        · rw [List.zipIdx_cons]
          refine mapExc_ok.2 (.cons ?_ e1')
          simp only [hget, bind, Except.bind]
          rw [if_pos ⟨hpos.ne', hv.ne', hr.ne'⟩]
          exact sds_energy ho hf0 hv hr
        · unfold points at e3 ⊢
          simp only [List.zip_cons_cons, List.filterMap_cons, List.map_cons]
          rw [e3]
  have := key [] W freq hf hW
  simpa [sdsEntries] using this

theorem insertFit_get {d : Dict String Val} {r : Dict String Cell} (hw : r.WF)
    (he : r.get? "fit_error" = some (.num 0)) {k : String} (hk : k ≠ "Mw") :
    (insertFit d (some r)).get? k = match r.get? k with
      | some c => some (.cell c)
      | none => d.get? k := by
  have hn : nanToNone r = r := by unfold nanToNone; rw [he]
  have hu : (d.update (r.mapVals Val.cell)).get? k = match r.get? k with
      | some c => some (.cell c)
      | none => d.get? k := by
    rw [Dict.get?_update _ _ (by unfold Dict.WF; rw [Dict.keys_mapVals]; exact hw), Dict.get?_mapVals]
    cases r.get? k <;> rfl
  simp only [insertFit, hn]
  split
  · rw [Dict.get?_set_ne _ _ (Ne.symm hk), hu]
  · rw [Dict.get?_set_ne _ _ (Ne.symm hk), hu]
  · exact hu

namespace Spec

/-- The event has the true source parameters; only the searched ones are entered. -/
def TrueSource (o : Opts) (M fc n g : ℝ) (extra : Dict String Val) : Prop :=
  extra.get? "M0" = some (.cell (.num M)) ∧
  extra.get? "Mw" = some (.cell (.num (2 / 3 * (log M / log 10) - 6.07))) ∧
  extra.get? "fit_error" = some (.cell (.num 0)) ∧
  (o.fc = none → extra.get? "fc" = some (.cell (.num fc))) ∧
  (o.n = none → extra.get? "n" = some (.cell (.num n))) ∧
  (o.gamma = none → extra.get? "gamma" = some (.cell (.num g)))

end Spec

/-- **C129** (partial as above): from the source energies of an exact source, each frequency with the exact energy or
without a value, the true moment, magnitude and curve are entered in the result of the event. -/
theorem C129_from_energies_partial {orc : Oracle} (hs : IsGlobalSearch orc) (h1 : IsExact orc.ols)
    (h2 : IsExact orc.rlm) {freq : List ℝ} {m : Method} (hm : isFit m) {o : Opts} {M fc n g v rho : ℝ}
    (hM : 0 < M) (hc : 0 < fc) (hn : 0 < n) (hg : 0 < g) (hv : 0 < v) (hr : 0 < rho)
    (hf : ∀ f ∈ freq, 0 < f) (ev : EvRes)
    (hW : List.Forall₂ (fun f w => ∀ x, w = Cell.num x →
      x = sourceEnergy (omegaModel M fc n g f) f v rho) freq ev.W)
    (hd : Different (needed o) (points freq ev.W)) (hgiv : GivenTrue o fc n g)
    (hlim : InLimits o (points freq ev.W) fc n g)
    (hnum : ∀ k, o.numPoints = some k → k ≤ (points freq ev.W).length) :
    ∃ ev', insertSourceProperties orc freq ev (some v) (some rho) (some m) (some o) none = .ok ev' ∧
      ev'.W = ev.W ∧ TrueSource o M fc n g ev'.extra := by
  obtain ⟨L, hL, hlen, hp⟩ := sds_exact hM hc hv hr freq ev.W hf hW
  have hWne : ev.W ≠ [] := by
    intro e
    obtain ⟨fs, a, -, b⟩ := hd
    rw [e] at b
    cases fs with
    | nil => simp [needed] at a; omega
    | cons f fs =>
      obtain ⟨x, hx⟩ := b f (by simp)
      simp [points] at hx
  have hdata : ∀ p ∈ points freq L, p.2 = omegaModel M fc n g p.1 := by
    rw [hp]
    intro p hp
    obtain ⟨q, -, rfl⟩ := List.mem_map.1 hp
    rfl
  have hd' : Different (needed o) (points freq L) := by
    obtain ⟨fs, a, b, c⟩ := hd
    refine ⟨fs, a, b, ?_⟩
    intro f hf
    obtain ⟨x, hx⟩ := c f hf
    rw [hp]
    exact ⟨_, List.mem_map.2 ⟨_, hx, rfl⟩⟩
  have hlim' : InLimits o (points freq L) fc n g := by
    refine ⟨hlim.limits, ?_, hlim.n, hlim.gamma⟩
    intro e1 e2 p q hpq hq
    rw [hp] at hpq hq
    rw [List.head?_map] at hpq
    rw [List.getLast?_map] at hq
    obtain ⟨p', hp', rfl⟩ := Option.map_eq_some_iff.1 hpq
    obtain ⟨q', hq', rfl⟩ := Option.map_eq_some_iff.1 hq
    exact hlim.freq e1 e2 p' q' hp' hq'
  obtain ⟨r, hr', he, hM0, r1, r2, r3⟩ := C129_recovered_partial hs h1 h2 hm hM hc hn hg hf hlen.symm hdata hd' hgiv hlim'
    (by rw [hp, List.length_map]; exact hnum)
  have hst : sdsStart ev (some v) (some rho) = [] := by
    unfold sdsStart
    rw [if_pos ⟨hWne, (hr.ne' : rho ≠ 0), (hv.ne' : v ≠ 0)⟩]
  refine ⟨{ ev with extra := insertFit (ev.extra.set "sds" (.cells L)) (some r) }, ?_, rfl, ?_⟩
  · unfold insertSourceProperties
    simp only [hL, bind, Except.bind, hst, List.nil_append, hr', pure, Except.pure]
  · obtain ⟨hw, -⟩ := fitSds_keys orc freq L m o r hr'
    have hfree : ∀ (x : Option ℝ) k y, x = none → reported r x k = some y → r.get? k = some (.num y) := by
      intro x k y hx hk
      unfold reported at hk
      rw [hx] at hk
      cases hrk : r.get? k with
      | none => rw [hrk] at hk; simp at hk
      | some c =>
        rw [hrk] at hk
        cases c <;> simp [Cell.val?] at hk
        rw [hk]
    refine ⟨?_, ?_, ?_, ?_, ?_, ?_⟩
    · rw [insertFit_get hw he (by simp), hM0]
    · have hnn : nanToNone r = r := by unfold nanToNone; rw [he]
      simp only [insertFit, hnn, hM0, Dict.get?_set, if_true, momentMagnitude]
    · rw [insertFit_get hw he (by simp), he]
    · intro hx
      rw [insertFit_get hw he (by simp), hfree _ _ _ hx r1]
    · intro hx
      rw [insertFit_get hw he (by simp), hfree _ _ _ hx r2]
    · intro hx
      rw [insertFit_get hw he (by simp), hfree _ _ _ hx r3]

/-- **C129** (partial as above): the same for `calculate_source_properties`, which replaces the source parameters of stored
results: an event with exact energies gets the true parameters, whatever was stored before. -/
theorem C129_recalculated_partial {orc : Oracle} (hs : IsGlobalSearch orc) (h1 : IsExact orc.ols)
    (h2 : IsExact orc.rlm) {conf : Config} {freq : List ℝ} {events out : Dict String EvRes}
    {rho0 v0 : Option ℝ} {smm : Option Method} {smo : Option Opts} {m : Method} (hm : isFit m) {o : Opts}
    {M fc n g v rho : ℝ} (hM : 0 < M) (hc : 0 < fc) (hn : 0 < n) (hg : 0 < g) (hv : 0 < v) (hr : 0 < rho)
    (hf : ∀ f ∈ freq, 0 < f)
    (h : calculateSourceProperties orc conf freq events rho0 v0 smm smo = .ok out)
    (hrho : pyOr rho0 conf.rho0 = some rho) (hsmm : smm.or conf.smm = some m) (hsmo : smo.or conf.smo = some o)
    (id : String) (ev : EvRes) (hev : events.get? id = some ev)
    (hvel : pyOr (EvRes.v0 ev) (pyOr v0 conf.v0) = some v)
    (hW : List.Forall₂ (fun f w => ∀ x, w = Cell.num x →
      x = sourceEnergy (omegaModel M fc n g f) f v rho) freq ev.W)
    (hd : Different (needed o) (points freq ev.W)) (hgiv : GivenTrue o fc n g)
    (hlim : InLimits o (points freq ev.W) fc n g)
    (hnum : ∀ k, o.numPoints = some k → k ≤ (points freq ev.W).length) :
    ∃ ev', out.get? id = some ev' ∧ ev'.W = ev.W ∧ TrueSource o M fc n g ev'.extra := by
  unfold calculateSourceProperties at h
  simp only [hrho, hsmm, hsmo] at h
  rw [if_pos (show truthy (some rho) from (hr.ne' : rho ≠ 0))] at h
  have hF := mapExc_ok.1 h
  clear h
  induction hF with
  | nil => simp at hev
  | @cons p q ps qs hpq _ ih =>
    obtain ⟨e, he, hq⟩ := bind_ok.1 hpq
    simp only [pure, Except.pure, Except.ok.injEq] at hq
    subst hq
    obtain ⟨k, ev0⟩ := p
    rw [Dict.get?_cons] at hev ⊢
    by_cases hk : k = id
    · rw [if_pos hk] at hev ⊢
      simp only [Option.some.injEq] at hev
      subst hev
      unfold recalcEvent at he
      simp only [hvel] at he
      rw [if_pos (show truthy (some v) from (hv.ne' : v ≠ 0))] at he
      obtain ⟨ev', e1, e2, e3⟩ := C129_from_energies_partial hs h1 h2 hm hM hc hn hg hv hr hf
        { ev0 with extra := poppedKeys.foldl (fun d k => d.pop k) ev0.extra } hW hd hgiv hlim hnum
      rw [e1] at he
      simp only [Except.ok.injEq] at he
      exact ⟨e, rfl, by rw [← he]; exact e2, by rw [← he]; exact e3⟩
    · rw [if_neg hk] at hev ⊢
      exact ih hev

/-- The contracts can be met, also by a search which prefers a certain value. -/
theorem exists_isGlobalSearch (v : ℝ) : ∃ orc : Oracle, IsGlobalSearch orc ∧ IsOls orc.ols ∧ IsOls orc.rlm ∧
    ∀ f l, Inside l v → (∀ y, Inside l y → f v ≤ f y) → orc.minScalar f (some l) = v := by
  classical
  obtain ⟨ols, hols⟩ := exists_isOls
  let ms : (ℝ → ℝ) → Option (ℝ × ℝ) → ℝ := fun f b => match b with
    | none => 0
    | some l => if Inside l v ∧ ∀ y, Inside l y → f v ≤ f y then v
      else if h : ∃ x, Inside l x ∧ ∀ y, Inside l y → f x ≤ f y then h.choose else l.1
  let mz : (List ℝ → ℝ) → List ℝ → List (Option (ℝ × ℝ)) → List ℝ := fun f x b =>
    if h : x.length = (b.filterMap id).length ∧ ∃ m, List.Forall₂ Inside (b.filterMap id) m ∧
      ∀ y, List.Forall₂ Inside (b.filterMap id) y → f m ≤ f y then h.2.choose
    else if List.Forall₂ Inside (b.filterMap id) x then x
    else x.zipIdx.map (fun p => ((b.filterMap id).getD p.2 (0, 0)).1)
  have e : ∀ ls : List (ℝ × ℝ), (ls.map some).filterMap id = ls := by
    intro ls; simp [List.filterMap_map]
  refine ⟨⟨ols, ols, fun _ => (0, 0), ms, mz⟩, ⟨⟨?_, ?_, ?_, ?_⟩, ?_, ?_⟩, hols, hols, ?_⟩
  · intro f l hl
    simp only [ms]
    split
    · next h => exact h.1
    · split
      · next h => exact h.choose_spec.1
      · exact ⟨le_rfl, hl⟩
  · intro f x b
    simp only [mz]
    split
    · next h => rw [← h.2.choose_spec.1.length_eq, ← h.1]
    · split <;> simp
  · intro f x ls hl h
    simp only [mz, e]
    split
    · next h => exact h.2.choose_spec.1
    · split
      · assumption
      · rw [List.forall₂_iff_get]
        refine ⟨by simp [hl], ?_⟩
        intro i h1 h2
        have hi : i < ls.length := h1
        simp only [List.get_eq_getElem, List.getElem_map, List.getElem_zipIdx, zero_add]
        rw [List.getD_eq_getElem?_getD, List.getElem?_eq_getElem hi, Option.getD_some]
        exact ⟨le_rfl, h _ (List.getElem_mem _)⟩
  · intro f x ls h
    simp only [mz, e]
    split
    · next hh => exact hh.2.choose_spec.2 x h
    · exact le_rfl
  · intro f l hm y hy
    simp only [ms]
    split
    · next h => exact h.2 y hy
    · exact hm.choose_spec.2 y hy
  · intro f x ls hl hm y hy
    simp only [mz, e]
    rw [dif_pos ⟨hl, hm⟩]
    exact Exists.choose_spec (p := fun m => List.Forall₂ Inside ls m ∧
      ∀ y, List.Forall₂ Inside ls y → f m ≤ f y) hm |>.2 y hy
  · intro f l h1 h2
    simp only [ms]
    rw [if_pos ⟨h1, h2⟩]

/-- non-vacuity: all parameters free, four frequencies, one without a value -/
example : ∃ orc : Oracle, IsGlobalSearch orc ∧ IsExact orc.ols ∧ IsExact orc.rlm ∧
    let o : Opts := { n := none, gamma := none }
    let L := [Cell.num (omegaModel 1000 3 2 1 1), .num (omegaModel 1000 3 2 1 2), .none,
      .num (omegaModel 1000 3 2 1 8), .num (omegaModel 1000 3 2 1 16)]
    (∀ p ∈ points [1, 2, 4, 8, 16] L, p.2 = omegaModel 1000 3 2 1 p.1) ∧
    Different (needed o) (points [1, 2, 4, 8, 16] L) ∧ GivenTrue o 3 2 1 ∧
    InLimits o (points [1, 2, 4, 8, 16] L) 3 2 1 := by
  obtain ⟨orc, h1, h2, h3, -⟩ := exists_isGlobalSearch 0
  refine ⟨orc, h1, ols_exact h2, ols_exact h3, ?_, ?_, ?_, ?_⟩
  · simp [points]
  · exact ⟨[1, 2, 8, 16], rfl, by norm_num, by simp [points]⟩
  · exact ⟨by simp, by simp, by simp⟩
  · refine ⟨by simp, ?_, ?_, ?_⟩
    · intro _ _ p q hp hq
      simp [points] at hp hq
      subst hp hq
      exact ⟨by norm_num, by norm_num⟩
    · intro _; exact ⟨(0.5, 10), rfl, by norm_num, by norm_num, by norm_num⟩
    · intro _; exact ⟨(0.5, 10), rfl, by norm_num, by norm_num, by norm_num⟩

/-- **C129** is violated for fewer frequencies: the number cannot be reduced to the number of unknowns, which is what the code tests
(`len(freq) > len(unknowns)`): with given corner frequency and sharpness and two values of the spectrum
of a source with moment 1 and fall-off 1, also the best possible search can report the moment 5/6 and
the fall-off 2, with error zero. -/
theorem C129_two_points_counterexample : ∃ orc : Oracle, IsGlobalSearch orc ∧ IsOls orc.ols ∧
    let o : Opts := { fc := some 1, n := none, gamma := some 1 }
    let L := [Cell.num (omegaModel 1 1 1 1 (1 / 3)), .num (omegaModel 1 1 1 1 (1 / 2))]
    GivenTrue o 1 1 1 ∧ InLimits o (points [1 / 3, 1 / 2] L) 1 1 1 ∧
    searchCount o < (points [1 / 3, 1 / 2] L).length ∧
    ∃ r, fitSds orc [1 / 3, 1 / 2] L .fit o = .ok (some r) ∧ r.get? "fit_error" = some (.num 0) ∧
      r.get? "M0" = some (.num (5 / 6)) ∧ r.get? "n" = some (.num 2) := by
  obtain ⟨orc, h1, h2, -, h3⟩ := exists_isGlobalSearch 2
  refine ⟨orc, h1, h2, ?_⟩
  intro o L
  have v1 : omegaModel 1 1 1 1 (1 / 3) = 3 / 4 := by unfold omegaModel; norm_num
  have v2 : omegaModel 1 1 1 1 (1 / 2) = 2 / 3 := by unfold omegaModel; norm_num
  have w1 : omegaModel (5 / 6) 1 2 1 (1 / 3) = 3 / 4 := by unfold omegaModel; norm_num
  have w2 : omegaModel (5 / 6) 1 2 1 (1 / 2) = 2 / 3 := by unfold omegaModel; norm_num
  have hp : points [1 / 3, 1 / 2] L = [(1 / 3, 3 / 4), (1 / 2, 2 / 3)] := by
    simp only [L, points, v1, v2]; rfl
  have hlen : (points [1 / 3, 1 / 2] L).length = 2 := by rw [hp]; rfl
  have hdata : ∀ p ∈ points [1 / 3, 1 / 2] L, p.2 = omegaModel (5 / 6) 1 2 1 p.1 := by
    rw [hp]
    intro p hp
    simp only [List.mem_cons, List.not_mem_nil, or_false] at hp
    rcases hp with rfl | rfl
    · exact w1.symm
    · exact w2.symm
  have hpos : ∀ p ∈ points [1 / 3, 1 / 2] L, 0 < p.1 := points_pos (by
    intro f hf; simp only [List.mem_cons, List.not_mem_nil, or_false] at hf
    rcases hf with rfl | rfl <;> norm_num)
  have hu : unknowns o = ["n"] := rfl
  have hz := exact_lstsq (ols_exact h2) (by norm_num) one_pos hpos hdata
  have hwr : ∀ x, wrapper orc.ols (points [1 / 3, 1 / 2] L) o "n" [x] =
      lstsq orc.ols (points [1 / 3, 1 / 2] L) (some 1) (some x) (some 1) := by
    intro x; simp [wrapper, o]
  have hx : orc.minScalar (fun z => objective (wrapper orc.ols (points [1 / 3, 1 / 2] L) o "n") [z])
      (some (0.5, 10)) = 2 := by
    apply h3
    · exact ⟨by norm_num, by norm_num⟩
    · intro y _
      have : objective (wrapper orc.ols (points [1 / 3, 1 / 2] L) o "n") [2] = 0 := by
        unfold objective
        rw [hwr]
        simp only [lstsq]
        exact hz
      simp only [this]
      exact objective_nonneg _ _ _ _ _
  have hpar : (orc.ols ((points [1 / 3, 1 / 2] L).map (fun p => log p.2 - log (sourceModel p.1 1 1 2 1)))
      ((points [1 / 3, 1 / 2] L).map (fun _ => [1]))).getD 0 0 = log (5 / 6) := by
    have h0 := lstsq_misfit (points [1 / 3, 1 / 2] L) (orc.ols ((points [1 / 3, 1 / 2] L).map
      (fun p => log p.2 - log (sourceModel p.1 1 1 2 1))) ((points [1 / 3, 1 / 2] L).map (fun _ => [1])))
      1 2 1 hpos one_pos
    rw [hz, sqrt_zero, ← misfit_omega hpos one_pos] at h0
    have := residuals (u := fun p => log p.2) (v := fun p => log (omegaModel _ 1 2 1 p.1)) h0.symm
      (1 / 3, 3 / 4) (by rw [hp]; simp)
    simp only at this
    rw [log_omega (exp_pos _) one_pos (by norm_num), ← w1, log_omega (by norm_num) one_pos (by norm_num),
      log_exp] at this
    unfold soft at this
    linarith
  refine ⟨⟨by simp [o], by simp [o], by simp [o]⟩, ⟨by simp [o], by simp [o], ?_, by simp [o]⟩, ?_, ?_⟩
  · intro _; exact ⟨(0.5, 10), rfl, by norm_num, by norm_num, by norm_num⟩
  · rw [hlen]; simp [searchCount, o]
  · refine ⟨[("n", .num 2), ("M0", .num (5 / 6)), ("fit_error", .num 0)], ?_, rfl, rfl, rfl⟩
    rw [fitSds_fit orc _ _ .fit (Or.inl rfl) o rfl, hlen, if_neg (by simp [tooFew, o]), if_neg (by simp)]
    unfold fitResult
    simp only [hu, hlen]
    rw [if_pos (by norm_num)]
    have hb : bounds (points [1 / 3, 1 / 2] L) o "n" = some (0.5, 10) := by simp [bounds, o]
    have hc : checkScalar (some ((0.5, 10) : ℝ × ℝ)) = .ok () := by
      rw [checkScalar_ok]; exact ⟨_, rfl, by norm_num⟩
    rw [hb, hc, hx]
    simp only [bind, Except.bind, fitAt, List.foldl_cons, List.foldl_nil]
    have : "" ++ "n" = "n" := by simp
    rw [this, hwr]
    simp only [lstsq, hpar, hz, sqrt_zero, exp_log (by norm_num : (0:ℝ) < 5 / 6)]
    simp [Dict.update, Dict.set, translateAB, Dict.get?_cons, Except.map]

end Qopen
