import Verif.Props.SourceExact
import Verif.Props.SourceTotal
import Verif.Props.Stat

/-!
# C131: what the values of density and velocity change
-/

namespace Qopen

open Real Source Spec Util

set_option linter.unusedSimpArgs false

namespace Spec

/-- Contract of a regression with a constant column: adding a constant to the data adds the constant
to the fitted values. -/
def FollowsShift (reg : List ℝ → List (List ℝ) → List ℝ) : Prop :=
  ∀ (y : List ℝ) (X : List (List ℝ)) (c : ℝ), y.length = X.length → (∀ row ∈ X, row.head? = some 1) →
    ∀ row ∈ X, (List.zipWith (· * ·) row (reg (y.map (· + c)) X)).sum =
      (List.zipWith (· * ·) row (reg y X)).sum + c

/-- The seismic moment is multiplied by `k`, the other results of a fit are kept. -/
noncomputable def timesM0 (k : ℝ) (r : Dict String Cell) : Dict String Cell :=
  r.map (fun p => if p.1 = "M0" then (p.1, p.2.scale k) else p)

/-- Given parameters and limits of the search are positive. -/
structure PositiveOpts (o : Opts) : Prop where
  fc : ∀ x, o.fc = some x → 0 < x
  fcLim : ∀ l, o.fcLim = some l → 0 < l.1
  nLim : ∀ l, o.nLim = some l → 0 < l.1
  gammaLim : ∀ l, o.gammaLim = some l → 0 < l.1

end Spec

/-- add `c` to the first parameter -/
def shiftPar (c : ℝ) (p : List ℝ) : List ℝ := (p.getD 0 0 + c) :: p.tail

theorem dot_shift {row : List ℝ} (h : row.head? = some 1) (c : ℝ) (p : List ℝ) :
    (List.zipWith (· * ·) row (shiftPar c p)).sum = (List.zipWith (· * ·) row p).sum + c := by
  cases row with
  | nil => simp at h
  | cons a row =>
    simp only [List.head?_cons, Option.some.injEq] at h
    subst h
    cases p with
    | nil => simp [shiftPar]
    | cons b p => simp [shiftPar]; ring

/-- the mean of two parameter vectors -/
noncomputable def midPar : List ℝ → List ℝ → List ℝ
  | [], [] => []
  | [], b :: q => (b / 2) :: midPar [] q
  | a :: p, [] => (a / 2) :: midPar p []
  | a :: p, b :: q => ((a + b) / 2) :: midPar p q

theorem dot_mid (row p q : List ℝ) : (List.zipWith (· * ·) row (midPar p q)).sum =
    ((List.zipWith (· * ·) row p).sum + (List.zipWith (· * ·) row q).sum) / 2 := by
  induction row generalizing p q with
  | nil => simp
  | cons r row ih =>
    cases p with
    | nil =>
      cases q with
      | nil => simp [midPar]
      | cons b q =>
        have := ih [] q
        simp only [midPar, List.zipWith_cons_cons, List.sum_cons, List.zipWith_nil_right, List.sum_nil,
          zero_add] at this ⊢
        rw [this]; ring
    | cons a p =>
      cases q with
      | nil =>
        have := ih p []
        simp only [midPar, List.zipWith_cons_cons, List.sum_cons, List.zipWith_nil_right, List.sum_nil,
          add_zero] at this ⊢
        rw [this]; ring
      | cons b q =>
        have := ih p q
        simp only [midPar, List.zipWith_cons_cons, List.sum_cons] at this ⊢
        rw [this]; ring

theorem sse_mid (y : List ℝ) (X : List (List ℝ)) (p q : List ℝ) :
    sse y X (midPar p q) = (sse y X p + sse y X q) / 2 -
      (List.zipWith (fun (_ : ℝ) row => ((List.zipWith (· * ·) row p).sum -
        (List.zipWith (· * ·) row q).sum) ^ 2) y X).sum / 4 := by
  unfold sse
  induction y generalizing X with
  | nil => simp
  | cons a y ih =>
    cases X with
    | nil => simp
    | cons row X =>
      have := ih X
      simp only [List.zipWith_cons_cons, List.sum_cons] at this ⊢
      rw [this, dot_mid]; ring

theorem zipWith_zero {y : List ℝ} {X : List (List ℝ)} (hl : y.length = X.length) {f : List ℝ → ℝ}
    (h : (List.zipWith (fun (_ : ℝ) row => f row ^ 2) y X).sum ≤ 0) : ∀ row ∈ X, f row = 0 := by
  induction y generalizing X with
  | nil =>
    cases X with
    | nil => simp
    | cons _ _ => simp at hl
  | cons a y ih =>
    cases X with
    | nil => simp
    | cons r X =>
      simp only [List.zipWith_cons_cons, List.sum_cons] at h
      have h0 : 0 ≤ (List.zipWith (fun (_ : ℝ) row => f row ^ 2) y X).sum := by
        apply List.sum_nonneg
        intro b hb
        obtain ⟨i, hi, rfl⟩ := List.mem_iff_getElem.1 hb
        rw [List.getElem_zipWith]; positivity
      have h1 : f r ^ 2 = 0 := le_antisymm (by linarith) (by positivity)
      intro row hr
      rcases List.mem_cons.1 hr with rfl | hr
      · exact pow_eq_zero_iff two_ne_zero |>.1 h1
      · exact ih (by simpa using hl) (by nlinarith [sq_nonneg (f r)]) row hr

/-- Fitted values of least squares are unique. -/
theorem fitted_unique {y : List ℝ} {X : List (List ℝ)} (hl : y.length = X.length) {p q : List ℝ}
    (hp : ∀ r, sse y X p ≤ sse y X r) (hq : sse y X q ≤ sse y X p) :
    ∀ row ∈ X, (List.zipWith (· * ·) row p).sum = (List.zipWith (· * ·) row q).sum := by
  have h := hp (midPar p q)
  rw [sse_mid] at h
  intro row hr
  have := zipWith_zero (f := fun row => (List.zipWith (· * ·) row p).sum -
        (List.zipWith (· * ·) row q).sum) hl (by linarith [hp q]) row hr
  linarith

theorem sse_shift {y : List ℝ} {X : List (List ℝ)} (hX : ∀ row ∈ X, row.head? = some 1) (c : ℝ)
    (p : List ℝ) : sse (y.map (· + c)) X (shiftPar c p) = sse y X p := by
  unfold sse
  induction y generalizing X with
  | nil => simp
  | cons a y ih =>
    cases X with
    | nil => simp
    | cons row X =>
      have := ih (fun r hr => hX r (List.mem_cons_of_mem _ hr))
      simp only [List.map_cons, List.zipWith_cons_cons, List.sum_cons] at this ⊢
      rw [this, dot_shift (hX row (by simp))]; ring

/-- Least squares meets the contract. -/
theorem ols_follows {ols : List ℝ → List (List ℝ) → List ℝ} (h : IsOls ols) : FollowsShift ols := by
  intro y X c hl hX row hr
  rw [fitted_unique (y := y.map (· + c)) (by simpa using hl) (q := shiftPar c (ols y X)) (h _ _) ?_ row hr,
    dot_shift (hX row hr)]
  rw [sse_shift hX]
  have h1 := h y X (shiftPar (-c) (ols (y.map (· + c)) X))
  have h2 := sse_shift (y := y.map (· + c)) hX (-c) (ols (y.map (· + c)) X)
  simp only [List.map_map, Function.comp_def, add_neg_cancel_right, List.map_id'] at h2
  rw [h2] at h1
  exact h1

/-- the data with values multiplied by `k` -/
def scalePts (k : ℝ) (pts : List (ℝ × ℝ)) : List (ℝ × ℝ) := pts.map (fun p => (p.1, k * p.2))

section

variable {model : List ℝ → List (List ℝ) → List ℝ} {pts : List (ℝ × ℝ)} {k : ℝ}

theorem meanSq_shift (hmod : FollowsShift model) (y : ℝ × ℝ → ℝ) (X : ℝ × ℝ → List ℝ) (c : ℝ)
    (hX : ∀ p ∈ pts, (X p).head? = some 1) :
    meanSq (pts.map (fun p => y p + c)) (pts.map X) (model (pts.map (fun p => y p + c)) (pts.map X)) =
      meanSq (pts.map y) (pts.map X) (model (pts.map y) (pts.map X)) := by
  have key := hmod (pts.map y) (pts.map X) c (by simp) (by
    intro row hr
    obtain ⟨p, hp, rfl⟩ := List.mem_map.1 hr
    exact hX p hp)
  simp only [List.map_map, Function.comp_def] at key
  unfold meanSq
  simp only [List.length_map]
  congr 2
  rw [zipWith_maps, zipWith_maps]
  apply List.map_congr_left
  intro p hp
  have := key (X p) (List.mem_map_of_mem hp)
  simp only [dot]
  rw [this]; ring

theorem lstsq_scale (hmod : FollowsShift model) (hk : 0 < k) (hpos : ∀ p ∈ pts, 0 < p.2) (h0 : pts ≠ [])
    (fc n g : Option ℝ) : lstsq model (scalePts k pts) fc n g =
      (lstsq model pts fc n g).map (fun r => (timesM0 k r.1, r.2)) := by
  match fc, n, g with
  | none, _, _ => simp [lstsq, Except.map]
  | some _, none, _ => simp [lstsq, Except.map]
  | some _, some _, none => simp [lstsq, Except.map]
  | some fc, some n, some g =>
    have hy : (scalePts k pts).map (fun p => log p.2 - log (sourceModel p.1 1 fc n g)) =
        pts.map (fun p => (log p.2 - log (sourceModel p.1 1 fc n g)) + log k) := by
      unfold scalePts
      rw [List.map_map]
      apply List.map_congr_left
      intro p hp
      simp only [Function.comp]
      rw [log_mul hk.ne' (hpos p hp).ne']; ring
    have hX : (scalePts k pts).map (fun _ => [(1 : ℝ)]) = pts.map (fun _ => [1]) := by
      simp [scalePts, Function.comp_def, -List.map_const']
    simp only [lstsq, Except.map, Except.ok.injEq]
    rw [hy, hX, meanSq_shift hmod _ _ _ (by simp)]
    obtain ⟨p, hp⟩ := List.exists_mem_of_ne_nil _ h0
    have key := hmod (pts.map (fun p => log p.2 - log (sourceModel p.1 1 fc n g))) (pts.map (fun _ => [1]))
      (log k) (by simp) (by simp) [1] (List.mem_map.2 ⟨p, hp, rfl⟩)
    have e1 := dot_one (model (pts.map (fun p => log p.2 - log (sourceModel p.1 1 fc n g) + log k))
      (pts.map (fun _ => [1])))
    have e2 := dot_one (model (pts.map (fun p => log p.2 - log (sourceModel p.1 1 fc n g)))
      (pts.map (fun _ => [1])))
    unfold dot at e1 e2
    rw [e2, List.map_map] at key
    simp only [Function.comp_def] at key
    rw [e1] at key
    rw [key, exp_add, exp_log hk, mul_comm]
    rfl

/-- The misfit of the second regression does not change. -/
theorem lstsqab_err (hmod : FollowsShift model) (hk : 0 < k) (hpos : ∀ p ∈ pts, 0 < p.2)
    (fc a : Option ℝ) : (lstsqab model (scalePts k pts) fc a).map Prod.snd =
      (lstsqab model pts fc a).map Prod.snd := by
  match fc, a with
  | none, _ => simp [lstsqab, Except.map]
  | some _, none => simp [lstsqab, Except.map]
  | some fc, some a =>
    have hy : (scalePts k pts).map (fun p => log p.2) = pts.map (fun p => log p.2 + log k) := by
      unfold scalePts
      rw [List.map_map]
      apply List.map_congr_left
      intro p hp
      simp only [Function.comp]
      rw [log_mul hk.ne' (hpos p hp).ne']; ring
    have hX : (scalePts k pts).map (fun p => [1, log (sourceModelAB p.1 1 fc a 1)]) =
        pts.map (fun p => [1, log (sourceModelAB p.1 1 fc a 1)]) := by
      simp [scalePts, Function.comp_def]
    simp only [lstsqab, Except.map, Except.ok.injEq]
    rw [hy, hX, meanSq_shift hmod _ _ _ (by simp)]

theorem lstsqab_scale (hmod : FollowsShift model) (hk : 0 < k) (hpos : ∀ p ∈ pts, 0 < p.2)
    {fc a : ℝ} (hd : ∃ p ∈ pts, ∃ q ∈ pts,
      log (sourceModelAB p.1 1 fc a 1) ≠ log (sourceModelAB q.1 1 fc a 1)) :
    lstsqab model (scalePts k pts) (some fc) (some a) =
      (lstsqab model pts (some fc) (some a)).map (fun r => (timesM0 k r.1, r.2)) := by
  have herr := lstsqab_err hmod hk hpos (some fc) (some a)
  have hy : (scalePts k pts).map (fun p => log p.2) = pts.map (fun p => log p.2 + log k) := by
    unfold scalePts
    rw [List.map_map]
    apply List.map_congr_left
    intro p hp
    simp only [Function.comp]
    rw [log_mul hk.ne' (hpos p hp).ne']; ring
  have hX : (scalePts k pts).map (fun p => [1, log (sourceModelAB p.1 1 fc a 1)]) =
      pts.map (fun p => [1, log (sourceModelAB p.1 1 fc a 1)]) := by
    simp [scalePts, Function.comp_def]
  simp only [lstsqab, Except.map, Except.ok.injEq] at herr ⊢
  rw [hy, hX] at herr ⊢
  obtain ⟨p, hp, q, hq, hne⟩ := hd
  have key := hmod (pts.map (fun p => log p.2)) (pts.map (fun p => [1, log (sourceModelAB p.1 1 fc a 1)]))
    (log k) (by simp) (by
      intro row hr
      obtain ⟨p, -, rfl⟩ := List.mem_map.1 hr
      rfl)
  simp only [List.map_map, Function.comp_def] at key
  have h1 := key _ (List.mem_map_of_mem hp)
  have h2 := key _ (List.mem_map_of_mem hq)
  generalize model (pts.map (fun p => log p.2 + log k))
    (pts.map (fun p => [1, log (sourceModelAB p.1 1 fc a 1)])) = P at *
  generalize model (pts.map (fun p => log p.2))
    (pts.map (fun p => [1, log (sourceModelAB p.1 1 fc a 1)])) = Q at *
  change dot _ P = dot _ Q + _ at h1
  change dot _ P = dot _ Q + _ at h2
  rw [dot_two, dot_two] at h1 h2
  have e1 : P.getD 1 0 = Q.getD 1 0 := by
    have : (log (sourceModelAB p.1 1 fc a 1) - log (sourceModelAB q.1 1 fc a 1)) *
      (P.getD 1 0 - Q.getD 1 0) = 0 := by linarith
    rcases mul_eq_zero.1 this with h | h
    · exact absurd (sub_eq_zero.1 h) hne
    · linarith
  have e0 : P.getD 0 0 = Q.getD 0 0 + log k := by rw [e1] at h1; linarith
  rw [herr]
  simp only [e0, e1]
  simp [timesM0, Cell.scale, exp_add, exp_log hk, mul_comm]

theorem wrapper_err (hmod : FollowsShift model) (hk : 0 < k) (hpos : ∀ p ∈ pts, 0 < p.2) (h0 : pts ≠ [])
    (o : Opts) (key : String) (x : List ℝ) :
    (wrapper model (scalePts k pts) o key x).map Prod.snd = (wrapper model pts o key x).map Prod.snd := by
  have h1 : ∀ fc n g, (lstsq model (scalePts k pts) fc n g).map Prod.snd =
      (lstsq model pts fc n g).map Prod.snd := by
    intro fc n g
    rw [lstsq_scale hmod hk hpos h0]
    cases lstsq model pts fc n g <;> rfl
  unfold wrapper
  repeat' split
  all_goals first | exact h1 _ _ _ | exact lstsqab_err hmod hk hpos _ _ | rfl

theorem objective_congr {f g : List ℝ → Py (Dict String Cell × ℝ)}
    (h : ∀ x, (f x).map Prod.snd = (g x).map Prod.snd) : objective f = objective g := by
  funext x
  have := h x
  unfold objective
  cases hf : f x <;> cases hg : g x <;> rw [hf, hg] at this <;> simp [Except.map] at this ⊢
  exact this

theorem bounds_scale (o : Opts) (key : String) : bounds (scalePts k pts) o key = bounds pts o key := by
  have : (scalePts k pts).map Prod.fst = pts.map Prod.fst := by simp [scalePts, Function.comp_def]
  unfold bounds
  rw [this]

/-- The values of the free parameters with which the second regression is well posed. -/
def WellPosed (pts : List (ℝ × ℝ)) (o : Opts) (xs : List ℝ) : Prop :=
  ∃ p ∈ pts, ∃ q ∈ pts, ∀ fc a, o.fc.or xs.head? = some fc → xs.getLast? = some a →
    log (sourceModelAB p.1 1 fc a 1) ≠ log (sourceModelAB q.1 1 fc a 1)

theorem fitAt_scale (hmod : FollowsShift model) (hk : 0 < k) (hpos : ∀ p ∈ pts, 0 < p.2) (h0 : pts ≠ [])
    {o : Opts} {xs : List ℝ} (hx : xs.length = (unknowns o).length) (hu : unknowns o ≠ [])
    (hw : o.n = none → o.gamma = none → WellPosed pts o xs) :
    fitAt model (scalePts k pts) o (unknowns o) xs =
      (fitAt model pts o (unknowns o) xs).map (timesM0 k) := by
  have hab : ∀ fc a, o.n = none → o.gamma = none → o.fc.or xs.head? = some fc → xs.getLast? = some a →
      lstsqab model (scalePts k pts) (some fc) (some a) =
      (lstsqab model pts (some fc) (some a)).map (fun r => (timesM0 k r.1, r.2)) := by
    intro fc a hn hg h1 h2
    obtain ⟨p, hp, q, hq, h⟩ := hw hn hg
    exact lstsqab_scale hmod hk hpos ⟨p, hp, q, hq, h fc a h1 h2⟩
  have hls := lstsq_scale hmod hk hpos h0
  obtain ⟨fc, n, g, fcl, nl, gl, fc0, n0, g0, fb, np⟩ := o
  match xs, hx, hab with
  | [], hx, hab => cases fc <;> cases n <;> cases g <;> simp [unknowns] at hx hu
  | [x], hx, hab =>
    cases fc <;> cases n <;> cases g <;> simp [unknowns] at hx hu <;>
    simp [fitAt, unknowns, wrapper, hls]
    all_goals try rw [hab _ x rfl rfl rfl rfl]
    all_goals
      simp [lstsq, lstsqab, bind, Except.bind, Dict.update, Dict.set, Except.map,
        translateAB, Dict.get?_cons, Dict.pop, timesM0]
  | [x, y], hx, hab =>
    cases fc <;> cases n <;> cases g <;> simp [unknowns] at hx hu <;>
    simp [fitAt, unknowns, wrapper, hls]
    all_goals try rw [hab x y rfl rfl rfl rfl]
    all_goals
      simp [lstsq, lstsqab, bind, Except.bind, Dict.update, Dict.set, Except.map,
        translateAB, Dict.get?_cons, Dict.pop, timesM0]
  | x :: y :: z :: l, hx, hab => cases fc <;> cases n <;> cases g <;> simp [unknowns] at hx hu

theorem all_limits {bs : List (Option (ℝ × ℝ))} (hc : ∀ b ∈ bs, ∃ l, b = some l ∧ l.1 ≤ l.2) :
    ∃ ls : List (ℝ × ℝ), bs = ls.map some ∧ ∀ l ∈ ls, l.1 ≤ l.2 := by
  induction bs with
  | nil => exact ⟨[], rfl, by simp⟩
  | cons b bs ih =>
    obtain ⟨ls, e, hls⟩ := ih (fun b hb => hc b (by simp [hb]))
    obtain ⟨l, e', hle⟩ := hc b (by simp)
    exact ⟨l :: ls, by rw [e', e]; rfl, by
      intro l' hl'
      rcases List.mem_cons.1 hl' with rfl | hl'
      · exact hle
      · exact hls l' hl'⟩

theorem fitResult_scale {orc : Oracle} (hs : IsSearch orc) (hmod : FollowsShift model) (hk : 0 < k)
    (hpos : ∀ p ∈ pts, 0 < p.2) (h0 : pts ≠ []) {o : Opts}
    (hw : o.n = none → o.gamma = none → ∀ ls xs, (unknowns o).map (bounds pts o) = ls.map some →
      (∀ l ∈ ls, l.1 ≤ l.2) → List.Forall₂ Inside ls xs → WellPosed pts o xs) :
    fitResult orc model (scalePts k pts) o = (fitResult orc model pts o).map (timesM0 k) := by
  have hl : (scalePts k pts).length = pts.length := by simp [scalePts]
  have hobj : ∀ key, objective (wrapper model (scalePts k pts) o key) = objective (wrapper model pts o key) :=
    fun key => objective_congr (wrapper_err hmod hk hpos h0 o key)
  unfold fitResult
  simp only [hl, hobj, bounds_scale, funext (bounds_scale (k := k) (pts := pts) o)]
  split
  · rw [lstsq_scale hmod hk hpos h0]
    cases lstsq model pts o.fc o.n o.gamma <;> rfl
  · next x hx =>
    split
    · cases hc : checkScalar (bounds pts o x) with
      | error e => rfl
      | ok u =>
        obtain ⟨l, hb, hle⟩ := (checkScalar_ok _).1 hc
        simp only [bind, Except.bind]
        rw [← hx]
        refine fitAt_scale hmod hk hpos h0 (by simp [hx]) (by simp [hx]) ?_
        intro hn hg
        refine hw hn hg [l] _ (by simp [hx, hb]) (by simpa using hle) ?_
        rw [hb]
        exact List.Forall₂.cons (hs.scalar _ _ hle) .nil
    · simp [translateAB_nil, Except.map, timesM0]
  · next us h1 h2 =>
    split
    · cases hc : checkAll ((unknowns o).map (bounds pts o)) with
      | error e => rfl
      | ok u =>
        rw [checkAll_ok] at hc
        obtain ⟨ls, e, hls⟩ := all_limits hc
        simp only [bind, Except.bind]
        refine fitAt_scale hmod hk hpos h0 (by simp [hs.length]) h1 ?_
        intro hn hg
        refine hw hn hg ls _ e hls ?_
        rw [e]
        apply hs.inside _ _ _ _ hls
        have := congrArg List.length e
        simpa using this
    · simp [translateAB_nil, Except.map, timesM0]

end

theorem sourceAB_ne {f f' fc a : ℝ} (h : 0 < f) (hff : f < f') (hc : 0 < fc) (ha : 0 < a) :
    log (sourceModelAB f 1 fc a 1) ≠ log (sourceModelAB f' 1 fc a 1) := by
  have h1 : (f / fc) ^ a < (f' / fc) ^ a :=
    rpow_lt_rpow (by positivity) ((div_lt_div_iff_of_pos_right hc).2 hff) ha
  have h2 : 0 ≤ (f / fc) ^ a := by positivity
  unfold sourceModelAB
  rw [one_mul, one_mul, log_rpow (by linarith), log_rpow (by linarith)]
  have := log_lt_log (by linarith : 0 < 1 + (f / fc) ^ a) (by linarith : 1 + (f / fc) ^ a < 1 + (f' / fc) ^ a)
  intro h
  linarith

theorem wellPosed_of {pts : List (ℝ × ℝ)} {o : Opts} (hf : ∀ p ∈ pts, 0 < p.1) (hd : Different 2 pts)
    (hp : PositiveOpts o) (hn : o.n = none) (hg : o.gamma = none) {ls : List (ℝ × ℝ)} {xs : List ℝ}
    (hls : (unknowns o).map (bounds pts o) = ls.map some) (hin : List.Forall₂ Inside ls xs) :
    WellPosed pts o xs := by
  obtain ⟨fs, hl, hpw, hmem⟩ := hd
  obtain ⟨f, f', rfl⟩ := List.length_eq_two.1 hl
  obtain ⟨x, hx⟩ := hmem f (by simp)
  obtain ⟨x', hx'⟩ := hmem f' (by simp)
  have hlt : f < f' := by simpa using hpw
  refine ⟨_, hx, _, hx', ?_⟩
  intro fc a hfc ha
  have hA : ∀ l, bounds pts o "a" = some l → Inside l a → 0 < a := by
    intro l hb hi
    simp only [bounds] at hb
    cases h1 : o.nLim with
    | none => simp [h1] at hb
    | some n =>
      cases h2 : o.gammaLim with
      | none => simp [h1, h2] at hb
      | some g =>
        simp [h1, h2] at hb
        have := mul_pos (hp.nLim _ h1) (hp.gammaLim _ h2)
        have h3 := hi.1
        rw [← hb] at h3
        exact lt_of_lt_of_le this h3
  have hne : pts ≠ [] := List.ne_nil_of_mem hx
  cases hofc : o.fc with
  | some c =>
    rw [hofc] at hfc
    simp only [Option.some_or, Option.some.injEq] at hfc
    subst hfc
    have hu : unknowns o = ["a"] := by simp [unknowns, hn, hg, hofc]
    rw [hu] at hls
    obtain ⟨l, rfl⟩ := List.length_eq_one_iff.1 (show ls.length = 1 by simpa using (congrArg List.length hls).symm)
    simp only [List.map_cons, List.map_nil, List.cons.injEq, and_true] at hls
    cases hin with
    | cons hi hin =>
      cases hin with
      | nil =>
        simp only [List.getLast?_singleton, Option.some.injEq] at ha
        subst ha
        exact sourceAB_ne (hf _ hx) hlt (hp.fc _ hofc) (hA l hls hi)
  | none =>
    rw [hofc] at hfc
    simp only [Option.none_or] at hfc
    have hu : unknowns o = ["fc", "a"] := by simp [unknowns, hn, hg, hofc]
    rw [hu] at hls
    obtain ⟨l, l', rfl⟩ := List.length_eq_two.1 (show ls.length = 2 by simpa using (congrArg List.length hls).symm)
    simp only [List.map_cons, List.map_nil, List.cons.injEq, and_true] at hls
    cases hin with
    | cons hi hin =>
      cases hin with
      | cons hi' hin =>
        cases hin
        simp only [List.head?_cons, Option.some.injEq] at hfc
        simp only [List.getLast?_cons_cons, List.getLast?_singleton, Option.some.injEq] at ha
        subst ha hfc
        refine sourceAB_ne (hf _ hx) hlt ?_ (hA l' hls.2 hi')
        have hb := hls.1
        simp only [bounds, if_true, Option.some.injEq] at hb
        have h3 := hi.1
        rw [← hb] at h3
        refine lt_of_lt_of_le ?_ h3
        cases hfl : o.fcLim with
        | some l => exact hp.fcLim _ hfl
        | none =>
          simp only [Option.getD_none]
          cases pts with
          | nil => exact absurd rfl hne
          | cons p l => exact hf p (by simp)

theorem points_scale (k : ℝ) (freq : List ℝ) (omM : List Cell) :
    points freq (omM.map (Cell.scale k)) = scalePts k (points freq omM) := by
  unfold points scalePts
  induction freq generalizing omM with
  | nil => simp
  | cons f fs ih =>
    cases omM with
    | nil => simp
    | cons c cs =>
      simp only [List.map_cons, List.zip_cons_cons, List.filterMap_cons]
      cases c with
      | none => simpa [Cell.scale] using ih cs
      | nan => simpa [Cell.scale] using ih cs
      | num x => simpa [Cell.scale] using ih cs

theorem valuesBelow_scale (k : ℝ) (freq : List ℝ) (omM : List Cell) (fc : ℝ) :
    valuesBelow freq (omM.map (Cell.scale k)) fc = (valuesBelow freq omM fc).map (Cell.scale k) := by
  unfold valuesBelow
  induction freq generalizing omM with
  | nil => simp
  | cons f fs ih =>
    cases omM with
    | nil => simp
    | cons c cs =>
      simp only [List.map_cons, List.zip_cons_cons, List.filterMap_cons]
      have := ih cs
      by_cases hf : f < fc <;> cases c <;> simp only [Cell.scale, hf, if_true, if_false, List.map_cons] <;>
        first | exact this | rw [this]

/-- **C131**: if the source spectrum is multiplied by a factor, only the seismic moment changes: it is
multiplied by the same factor.  Corner frequency, fall-off, sharpness and misfit are the same, and the
fit is possible for the same spectra.  If both fall-off and sharpness are searched, two different
frequencies and positive limits are needed to determine the moment. -/
theorem C131_fit {orc : Oracle} (hs : IsSearch orc) (h1 : IsOls orc.ols) {freq : List ℝ}
    {omM : List Cell} {m : Method} {o : Opts} (h2 : m = .robustFit → FollowsShift orc.rlm)
    (hpos : ∀ x, Cell.num x ∈ omM → 0 < x)
    (hd : o.n = none → o.gamma = none → (∀ f ∈ freq, 0 < f) ∧ PositiveOpts o ∧
      Different 2 (points freq omM)) {k : ℝ} (hk : 0 < k) :
    fitSds orc freq (omM.map (Cell.scale k)) m o =
      (fitSds orc freq omM m o).map (Option.map (timesM0 k)) := by
  have key : isFit m → fitSds orc freq (omM.map (Cell.scale k)) m o =
      (fitSds orc freq omM m o).map (Option.map (timesM0 k)) := by
    intro hm
    by_cases hl : freq.length = omM.length
    · rw [fitSds_fit orc freq omM m hm o hl, fitSds_fit orc freq _ m hm o (by simpa using hl), points_scale]
      have hlen : (scalePts k (points freq omM)).length = (points freq omM).length := by simp [scalePts]
      rw [hlen]
      split
      · rfl
      · next hne =>
        have h0 : points freq omM ≠ [] := fun e => hne (Or.inl (by rw [e]; rfl))
        rw [fitResult_scale hs ?_ hk ?_ h0 ?_]
        · cases fitResult orc (if m = .robustFit ∧ o.fallBack ≤ (points freq omM).length
            then orc.rlm else orc.ols) (points freq omM) o <;> rfl
        · split
          · next h => exact h2 h.1
          · exact ols_follows h1
        · intro p hp
          unfold points at hp
          obtain ⟨q, hq, hp⟩ := List.mem_filterMap.1 hp
          have := (List.of_mem_zip hq).2
          cases hq2 : q.2 <;> simp [hq2] at hp
          rw [← hp]
          exact hpos _ (hq2 ▸ this)
        · intro hn hg ls xs e _ hin
          obtain ⟨d1, d2, d3⟩ := hd hn hg
          exact wellPosed_of (points_pos d1) d3 d2 hn hg e hin
    · have : ∀ m, isFit m → ∀ l : List Cell, freq.length ≠ l.length → fitSds orc freq l m o = .error .indexError := by
        rintro m (rfl | rfl) l hl <;> simp [fitSds, hl]
      rw [this m hm _ hl, this m hm _ (by simpa using hl)]
      rfl
  cases m with
  | fit => exact key (Or.inl rfl)
  | robustFit => exact key (Or.inr rfl)
  | other => rfl
  | mean =>
    unfold fitSds
    simp only
    cases hfc : o.fc with
    | none => rfl
    | some fc =>
      simp only [valuesBelow_scale, List.length_map]
      split
      · rfl
      · split
        · rw [C45_gstat_scale orc.rlmStat _ none false false 5 k hk (by simp)]
          cases gstat orc.rlmStat (valuesBelow freq omM fc) none false false 5 with
          | error e => rfl
          | ok r =>
            obtain ⟨a, b⟩ := r
            cases a <;>
            simp [Except.map, bind, Except.bind, pure, Except.pure, timesM0, Cell.scale, exp_add, exp_log hk,
              mul_comm]
        · rfl

/-! ## density and velocity -/

namespace Spec

/-- Velocity of the medium for an event: its own value (of the inversion) if there is one, otherwise the
given value. -/
noncomputable def velocityOf (ev : EvRes) (v : ℝ) : ℝ :=
  match ev.extra.get? "v0" with
  | some (.cell (.num x)) => if x = 0 then v else x
  | _ => v

/-- Change of source spectra with density and velocity. -/
noncomputable def spectrumFactor (rho u rho' u' : ℝ) : ℝ := sqrt (rho' * u' ^ 5 / (rho * u ^ 5))

/-- The second set of source parameters is the first one for spectra multiplied by `k`: spectrum and
moment are multiplied by `k`, the magnitude is shifted, all other entries are the same. -/
structure ScaledSource (k : ℝ) (x x' : Dict String Val) : Prop where
  sds : ∀ L, x.get? "sds" = some (.cells L) → x'.get? "sds" = some (.cells (L.map (Cell.scale k)))
  moment : ∀ M, x.get? "M0" = some (.cell (.num M)) → x'.get? "M0" = some (.cell (.num (k * M)))
  magnitude : ∀ M, x.get? "M0" = some (.cell (.num M)) → ∃ mw, x.get? "Mw" = some (.cell (.num mw)) ∧
    x'.get? "Mw" = some (.cell (.num (mw + 2 / 3 * (log k / log 10))))
  without : (∀ M, x.get? "M0" ≠ some (.cell (.num M))) → x'.get? "M0" = x.get? "M0" ∧
    x'.get? "Mw" = x.get? "Mw"
  other : ∀ key, key ≠ "sds" → key ≠ "M0" → key ≠ "Mw" → x'.get? key = x.get? key

end Spec

theorem mapExc_map {α β γ : Type} (f : α → Py β) (g : β → γ) (l : List α) :
    mapExc (fun a => (f a).map g) l = (mapExc f l).map (List.map g) := by
  induction l with
  | nil => rfl
  | cons a l ih =>
    simp only [mapExc, ih]
    cases f a with
    | error e => rfl
    | ok b => cases mapExc f l <;> rfl

theorem sds_scale {W f u rho u' rho' : ℝ} (hu : 0 < u) (hr : 0 < rho) (hu' : 0 < u') (hr' : 0 < rho') :
    sds W f u' rho' = (sds W f u rho).map (Cell.scale (spectrumFactor rho u rho' u')) := by
  have e : sdsArg W f u' rho' = (rho' * u' ^ 5 / (rho * u ^ 5)) * sdsArg W f u rho := by
    unfold sdsArg; field_simp
  have hpos : 0 < rho' * u' ^ 5 / (rho * u ^ 5) := by positivity
  unfold sds
  split
  · rfl
  · rw [e]
    by_cases h : sdsArg W f u rho < 0
    · rw [if_pos h, if_pos (mul_neg_of_pos_of_neg hpos h)]; rfl
    · rw [if_neg h, if_neg (by rw [not_lt] at h ⊢; positivity), sqrt_mul hpos.le]; rfl

theorem sdsEntries_scale {freq : List ℝ} {W : List Cell} {u rho u' rho' : ℝ} (hu : 0 < u) (hr : 0 < rho)
    (hu' : 0 < u') (hr' : 0 < rho') : sdsEntries freq W (some u') (some rho') =
      (sdsEntries freq W (some u) (some rho)).map
        (List.map (Cell.scale (spectrumFactor rho u rho' u'))) := by
  unfold sdsEntries
  rw [← mapExc_map]
  congr 1
  funext p
  cases hw : pyGet W p.2 with
  | error e => rfl
  | ok w =>
    simp only [bind, Except.bind]
    by_cases ht : w.truthy
    · rw [if_pos ⟨ht, hu'.ne', hr'.ne'⟩, if_pos ⟨ht, hu.ne', hr.ne'⟩]
      cases w with
      | num w => exact sds_scale hu hr hu' hr'
      | nan =>
        simp only [sdsCell]
        split <;> rfl
      | none => rfl
    · rw [if_neg (fun h => ht h.1), if_neg (fun h => ht h.1)]
      rfl

theorem sdsEntries_pos {freq : List ℝ} {W L : List Cell} {u rho : ℝ} (hu : 0 < u) (hr : 0 < rho)
    (h : sdsEntries freq W (some u) (some rho) = .ok L) : ∀ x, Cell.num x ∈ L → 0 < x := by
  intro x hx
  have hF := mapExc_ok.1 h
  obtain ⟨i, hi, e⟩ := List.mem_iff_getElem.1 hx
  rw [List.forall₂_iff_get] at hF
  have := hF.2 i (by rw [hF.1]; exact hi) hi
  simp only [List.get_eq_getElem] at this
  obtain ⟨w, -, h1⟩ := bind_ok.1 this
  rw [e] at h1
  split at h1
  · next ht =>
    cases w with
    | none => simp [sdsCell] at h1
    | nan =>
      simp only [sdsCell] at h1
      split at h1 <;> simp at h1
    | num w =>
      simp only [sdsCell, sds] at h1
      split at h1
      · simp at h1
      · next hf =>
        split at h1
        · simp at h1
        · next hn =>
          simp only [Except.ok.injEq, Cell.num.injEq] at h1
          rw [← h1]
          apply sqrt_pos.2
          refine lt_of_le_of_ne (not_lt.1 hn) (Ne.symm ?_)
          have hw : w ≠ 0 := ht.1
          unfold sdsArg
          have := pi_pos
          positivity
  · simp at h1

theorem timesM0_get (k : ℝ) (r : Dict String Cell) (key : String) :
    (timesM0 k r).get? key = if key = "M0" then (r.get? key).map (Cell.scale k) else r.get? key := by
  induction r with
  | nil => simp [timesM0]
  | cons p r ih =>
    obtain ⟨a, c⟩ := p
    unfold timesM0 at ih ⊢
    rw [List.map_cons]
    by_cases ha : a = "M0"
    · simp only [ha, if_true, Dict.get?_cons]
      by_cases hk : key = "M0"
      · simp [hk]
      · rw [if_neg (Ne.symm hk), if_neg (Ne.symm hk), ih, if_neg hk]
    · simp only [ha, if_false, Dict.get?_cons, ih]
      by_cases hk : key = "M0"
      · subst hk; simp [ha]
      · simp [hk]

theorem timesM0_keys (k : ℝ) (r : Dict String Cell) : Dict.keys (timesM0 k r) = r.keys := by
  unfold timesM0 Dict.keys
  rw [List.map_map]
  apply List.map_congr_left
  intro p _
  simp only [Function.comp]
  split <;> rfl

open Classical in
theorem nanToNone_get (r : Dict String Cell) (key : String) :
    (nanToNone r).get? key = if key = "fit_error" ∧ r.get? "fit_error" = some .nan then some .none
      else r.get? key := by
  unfold nanToNone
  split
  · next h =>
    rw [Dict.get?_set]
    by_cases hk : key = "fit_error"
    · simp [hk, h]
    · simp [hk, Ne.symm hk]
  · next h =>
    rw [if_neg (fun hh => h hh.2)]

theorem nanToNone_M0 (r : Dict String Cell) : (nanToNone r).get? "M0" = r.get? "M0" := by
  rw [nanToNone_get, if_neg (by simp)]

theorem insertFit_entry {d : Dict String Val} {r : Dict String Cell} (hw : r.WF) {key : String}
    (hk : key ≠ "Mw") : (insertFit d (some r)).get? key =
      (((nanToNone r).get? key).map Val.cell).or (d.get? key) := by
  have hwr : (nanToNone r).WF := by
    unfold nanToNone
    split
    · exact Dict.WF_set hw _ _
    · exact hw
  have hu : (d.update ((nanToNone r).mapVals Val.cell)).get? key =
      (((nanToNone r).get? key).map Val.cell).or (d.get? key) := by
    rw [Dict.get?_update _ _ (by unfold Dict.WF; rw [Dict.keys_mapVals]; exact hwr), Dict.get?_mapVals]
  simp only [insertFit]
  split
  · rw [Dict.get?_set_ne _ _ (Ne.symm hk), hu]
  · rw [Dict.get?_set_ne _ _ (Ne.symm hk), hu]
  · exact hu

theorem velocity_eq (ev : EvRes) (v : ℝ) : pyOr (EvRes.v0 ev) (some v) = some (velocityOf ev v) := by
  unfold EvRes.v0 velocityOf
  split
  · next c h =>
    rw [h]
    cases c with
    | none => rfl
    | nan => rfl
    | num x =>
      simp only [Cell.val?_num, pyOr]
      by_cases hx : x = 0 <;> simp [hx]
  · next h =>
    split
    · next x hx => exact absurd hx (h _)
    · rfl

theorem fitSds_moment_pos {orc : Oracle} {freq : List ℝ} {omM : List Cell} {m : Method} {o : Opts}
    {r : Dict String Cell} (h : fitSds orc freq omM m o = .ok (some r)) {M : ℝ}
    (hM : r.get? "M0" = some (.num M)) : 0 < M := by
  have key : ∀ model pts xs, fitAt model pts o (unknowns o) xs = .ok r → unknowns o ≠ [] → 0 < M := by
    clear h
    intro model pts xs hfit hu
    obtain ⟨fc', n', g', fcl, nl, gl, fc0, n0, g0, fb, np⟩ := o
    match xs with
    | [] =>
      cases fc' <;> cases n' <;> cases g' <;>
      simp [fitAt, unknowns, wrapper, lstsq, lstsqab, bind, Except.bind] at hfit hu
    | [x] =>
      cases fc' <;> cases n' <;> cases g' <;>
      simp [fitAt, unknowns, wrapper, lstsq, lstsqab, bind, Except.bind, Dict.update, Dict.set,
        translateAB, Dict.get?_cons, Dict.pop] at hfit hu <;> rw [← hfit] at hM <;>
      simp [Dict.get?_cons] at hM <;> rw [← hM] <;> exact exp_pos _
    | x :: y :: xs =>
      cases fc' <;> cases n' <;> cases g' <;>
      simp [fitAt, unknowns, wrapper, lstsq, lstsqab, bind, Except.bind, Dict.update, Dict.set,
        translateAB, Dict.get?_cons, Dict.pop] at hfit hu <;> rw [← hfit] at hM <;>
      simp [Dict.get?_cons] at hM <;> rw [← hM] <;> exact exp_pos _
  have hfit : isFit m → 0 < M := by
    intro hm
    obtain ⟨hp, hfr⟩ := fitSds_search hm h (by rw [hM]; simp)
    have hl := unknowns_length o
    unfold fitResult at hfr
    split at hfr
    · obtain ⟨a, ha, hfr⟩ := bind_ok.1 hfr
      simp only [pure, Except.pure, Except.ok.injEq] at hfr
      unfold lstsq at ha
      split at ha
      · simp only [Except.ok.injEq] at ha
        rw [← hfr, ← ha] at hM
        simp only [Dict.get?_cons, if_true, Option.some.injEq, Cell.num.injEq] at hM
        rw [← hM]; exact exp_pos _
      · simp at ha
    · next x hx =>
      rw [hx] at hl
      simp only [List.length_singleton] at hl
      rw [if_pos (by omega)] at hfr
      obtain ⟨_, -, hfr⟩ := bind_ok.1 hfr
      rw [← hx] at hfr
      exact key _ _ _ hfr (by simp [hx])
    · next us h1 h2 =>
      rw [hl, if_pos hp] at hfr
      obtain ⟨_, -, hfr⟩ := bind_ok.1 hfr
      exact key _ _ _ hfr h1
  cases m with
  | fit => exact hfit (Or.inl rfl)
  | robustFit => exact hfit (Or.inr rfl)
  | other => simp [fitSds] at h
  | mean =>
    unfold fitSds at h
    simp only at h
    split at h
    · simp at h
    · split at h
      · simp at h
      · split at h
        · obtain ⟨a, -, h⟩ := bind_ok.1 h
          simp only [pure, Except.pure, Except.ok.injEq, Option.some.injEq] at h
          rw [← h] at hM
          obtain ⟨a, b⟩ := a
          cases a with
          | none => simp [Dict.get?_cons] at hM
          | some a =>
            simp [Dict.get?_cons] at hM
            rw [← hM]; exact exp_pos _
        · simp at h

namespace Spec

/-- Frequencies with a positive source energy: at least two different ones. -/
def TwoEnergies (freq : List ℝ) (W : List Cell) : Prop :=
  ∃ f f' w w', f < f' ∧ 0 < w ∧ 0 < w' ∧ (f, Cell.num w) ∈ freq.zip W ∧ (f', Cell.num w') ∈ freq.zip W

end Spec

theorem point_of_energy {freq : List ℝ} {W L : List Cell} {u rho : ℝ} (hu : 0 < u) (hr : 0 < rho)
    (h : sdsEntries freq W (some u) (some rho) = .ok L) {f w : ℝ} (hw : 0 < w)
    (hm : (f, Cell.num w) ∈ freq.zip W) : ∃ x, (f, x) ∈ points freq L := by
  have hF := mapExc_ok.1 h
  obtain ⟨i, hi, e⟩ := List.mem_iff_getElem.1 hm
  rw [List.getElem_zip] at e
  simp only [Prod.mk.injEq] at e
  rw [List.length_zip] at hi
  rw [List.forall₂_iff_get] at hF
  have hiL : i < L.length := by rw [← hF.1]; simp; omega
  have hx := hF.2 i (by simp; omega) hiL
  simp only [List.get_eq_getElem, List.getElem_zipIdx, zero_add] at hx
  have hwi : W[i]? = some (.num w) := by
    rw [List.getElem?_eq_getElem (by omega), e.2]
  rw [pyGet_ok.2 hwi, e.1] at hx
  simp only [bind, Except.bind] at hx
  rw [if_pos ⟨hw.ne', hu.ne', hr.ne'⟩] at hx
  simp only [sdsCell, sds] at hx
  split at hx
  · simp at hx
  · rw [if_neg (by unfold sdsArg; have := pi_pos; rw [not_lt]; positivity)] at hx
    simp only [Except.ok.injEq] at hx
    refine ⟨sqrt (sdsArg w f u rho), ?_⟩
    unfold points
    refine List.mem_filterMap.2 ⟨(f, L[i]), ?_, by rw [← hx]⟩
    refine List.mem_iff_getElem.2 ⟨i, by rw [List.length_zip]; omega, ?_⟩
    rw [List.getElem_zip, e.1]

section

variable {orc : Oracle} {freq : List ℝ} {smm : Option Method} {smo : Option Opts} {rho v rho' v' : ℝ}

/-- One event. -/
theorem recalc_scale (hs : IsSearch orc) (h1 : IsOls orc.ols) (h2 : smm = some .robustFit → FollowsShift orc.rlm)
    (hr : 0 < rho) (hr' : 0 < rho') {ev e : EvRes} (hwf : ev.extra.WF) (hu : 0 < velocityOf ev v)
    (hu' : 0 < velocityOf ev v')
    (hd : ∀ o, smo = some o → o.n = none → o.gamma = none → (∀ f ∈ freq, 0 < f) ∧ PositiveOpts o ∧
      TwoEnergies freq ev.W)
    (h : recalcEvent orc freq (some v) (some rho) smm smo ev = .ok e) :
    ∃ e', recalcEvent orc freq (some v') (some rho') smm smo ev = .ok e' ∧ e'.W = e.W ∧ e'.R = e.R ∧
      ScaledSource (spectrumFactor rho (velocityOf ev v) rho' (velocityOf ev v')) e.extra e'.extra := by
  set k := spectrumFactor rho (velocityOf ev v) rho' (velocityOf ev v') with hk
  have hkpos : 0 < k := by rw [hk]; unfold spectrumFactor; exact sqrt_pos.2 (by positivity)
  have hdiff : ∀ {L}, sdsEntries freq ev.W (some (velocityOf ev v)) (some rho) = .ok L → ∀ o, smo = some o →
      o.n = none → o.gamma = none → (∀ f ∈ freq, 0 < f) ∧ PositiveOpts o ∧ Different 2 (points freq L) := by
    intro L hL o ho hn hg
    obtain ⟨d1, d2, f, f', w, w', d3, d4, d5, d6, d7⟩ := hd o ho hn hg
    refine ⟨d1, d2, [f, f'], rfl, by simpa using d3, ?_⟩
    intro x hx
    simp only [List.mem_cons, List.not_mem_nil, or_false] at hx
    rcases hx with rfl | rfl
    · exact point_of_energy hu hr hL d4 d6
    · exact point_of_energy hu hr hL d5 d7
  -- the second run
  have hex : ∃ e', recalcEvent orc freq (some v') (some rho') smm smo ev = .ok e' := by
    unfold recalcEvent at h ⊢
    simp only [velocity_eq] at h ⊢
    rw [if_pos (show truthy (some (velocityOf ev v)) from hu.ne')] at h
    rw [if_pos (show truthy (some (velocityOf ev v')) from hu'.ne')]
    unfold insertSourceProperties at h ⊢
    obtain ⟨L, hL, h⟩ := bind_ok.1 h
    rw [sdsEntries_scale hu hr hu' hr', hL]
    have hst : ∀ a b, sdsStart { ev with extra := poppedKeys.foldl (fun d k => d.pop k) ev.extra } a b = [] := by
      intro a b
      unfold sdsStart
      split
      · rfl
      · simp only
        rw [get?_pops _ _ hwf]
        simp [poppedKeys]
    simp only [hst, List.nil_append, Except.map, bind, Except.bind] at h ⊢
    cases smm with
    | none => exact ⟨_, rfl⟩
    | some m =>
      cases smo with
      | none => simp [throw, throwThe, MonadExceptOf.throw] at h
      | some o =>
        simp only at h ⊢
        rw [C131_fit hs h1 (fun e => h2 (by rw [e])) (sdsEntries_pos hu hr hL) (hdiff hL o rfl) hkpos]
        cases hfit : fitSds orc freq L m o with
        | error e => rw [hfit] at h; simp at h
        | ok fit => exact ⟨_, rfl⟩
  obtain ⟨e', h'⟩ := hex
  obtain ⟨a1, a2, a3⟩ := recalc_ok orc freq _ _ smm smo ev e hwf h
  obtain ⟨b1, b2, b3⟩ := recalc_ok orc freq _ _ smm smo ev e' hwf h'
  obtain ⟨m1, m2⟩ := recalc_mw orc freq _ _ smm smo ev e hwf h
  obtain ⟨n1, n2⟩ := recalc_mw orc freq _ _ smm smo ev e' hwf h'
  refine ⟨e', h', by rw [a1, b1], by rw [a2, b2], ?_⟩
  rw [velocity_eq] at a3 b3
  obtain ⟨-, L, hL, fit, hkeys, hfit, ea⟩ := a3.resolve_left (fun hh => hh.1 (hu.ne' : velocityOf ev v ≠ 0))
  obtain ⟨-, L', hL', fit', hkeys', hfit', eb⟩ := b3.resolve_left (fun hh => hh.1 (hu'.ne' : velocityOf ev v' ≠ 0))
  have eL : L' = L.map (Cell.scale k) := by
    rw [sdsEntries_scale hu hr hu' hr', hL] at hL'
    simpa [Except.map] using hL'.symm
  subst eL
  have efit : fit' = fit.map (timesM0 k) ∧ ∀ r M, fit = some r → r.get? "M0" = some (.num M) → 0 < M := by
    rcases hfit with ⟨c1, c2⟩ | ⟨m, o, c1, c2, c3⟩
    · rcases hfit' with ⟨_, d2⟩ | ⟨m, o, d1, -, -⟩
      · rw [c2, d2]; simp
      · rw [c1] at d1; simp at d1
    · rcases hfit' with ⟨d1, _⟩ | ⟨m', o', d1, d2, d3⟩
      · rw [c1] at d1; simp at d1
      · rw [c1] at d1; rw [c2] at d2
        obtain rfl := Option.some.inj d1
        obtain rfl := Option.some.inj d2
        rw [C131_fit hs h1 (fun e => h2 (by rw [c1, e])) (sdsEntries_pos hu hr hL) (hdiff hL o c2) hkpos,
          c3] at d3
        simp only [Except.map, Except.ok.injEq] at d3
        exact ⟨d3.symm, fun r M e1 e2 => fitSds_moment_pos (e1 ▸ c3) e2⟩
  obtain ⟨rfl, hMpos⟩ := efit
  have hp : ∀ key, (poppedKeys.foldl (fun d k => d.pop k) ev.extra).get? key =
      if key ∈ poppedKeys then none else ev.extra.get? key := get?_pops _ _ hwf
  have hp0 : (poppedKeys.foldl (fun d k => d.pop k) ev.extra).get? "M0" = none := by
    rw [hp]; simp [poppedKeys]
  -- all entries except for the magnitude
  have hent : ∀ key, key ≠ "Mw" → key ≠ "sds" → key ≠ "M0" → e'.extra.get? key = e.extra.get? key := by
    intro key k1 k2 k3
    rw [ea, eb]
    cases fit with
    | none => simp only [Option.map_none, insertFit, Dict.get?_set_ne _ _ (Ne.symm k2)]
    | some r =>
      rw [Option.map_some, insertFit_entry (hkeys r rfl).1 k1, insertFit_entry (hkeys' _ rfl).1 k1,
        Dict.get?_set_ne _ _ (Ne.symm k2), Dict.get?_set_ne _ _ (Ne.symm k2), nanToNone_get, nanToNone_get,
        timesM0_get, timesM0_get, if_neg k3, if_neg (show ¬ "fit_error" = "M0" by simp)]
  have hM : e'.extra.get? "M0" = (e.extra.get? "M0").map (fun x => match x with
      | .cell c => .cell (c.scale k)
      | x => x) := by
    rw [ea, eb]
    cases fit with
    | none =>
      simp only [Option.map_none, insertFit]
      rw [Dict.get?_set_ne _ _ (by simp), Dict.get?_set_ne _ _ (by simp), hp]
      simp [poppedKeys]
    | some r =>
      rw [Option.map_some, insertFit_entry (hkeys r rfl).1 (by simp), insertFit_entry (hkeys' _ rfl).1 (by simp),
        Dict.get?_set_ne _ _ (by simp), Dict.get?_set_ne _ _ (by simp), hp0, nanToNone_M0, nanToNone_M0,
        timesM0_get, if_pos rfl]
      cases r.get? "M0" <;> rfl
  have hsds : e.extra.get? "sds" = some (.cells L) ∧ e'.extra.get? "sds" = some (.cells (L.map (Cell.scale k))) := by
    rw [ea, eb]
    cases fit with
    | none => simp [insertFit]
    | some r =>
      rw [Option.map_some, insertFit_other _ r (hkeys r rfl).2 _ (by simp [fitKeys]) (by simp),
        insertFit_other _ _ (hkeys' _ rfl).2 _ (by simp [fitKeys]) (by simp)]
      simp
  have hMP : ∀ M, e.extra.get? "M0" = some (.cell (.num M)) → 0 < M := by
    intro M
    rw [ea]
    cases fit with
    | none =>
      simp only [insertFit]
      rw [Dict.get?_set_ne _ _ (by simp), hp]
      simp [poppedKeys]
    | some r =>
      rw [insertFit_entry (hkeys r rfl).1 (by simp), Dict.get?_set_ne _ _ (by simp), hp0, nanToNone_M0]
      intro h3
      apply hMpos r M rfl
      cases hr : r.get? "M0" with
      | none => simp [hr] at h3
      | some c => simpa [hr] using h3
  refine ⟨?_, ?_, ?_, ?_, fun key k1 k2 k3 => hent key k3 k1 k2⟩
  · intro L0 hL0
    rw [hsds.1] at hL0
    simp only [Option.some.injEq, Val.cells.injEq] at hL0
    rw [hsds.2, hL0]
  · intro M h3
    rw [hM, h3]; rfl
  · intro M h3
    refine ⟨momentMagnitude M, ?_, ?_⟩
    · rw [m1 _ h3]; rfl
    · rw [n1 (.cell (.num (k * M))) (by rw [hM, h3]; rfl)]
      simp only [mwOf, momentMagnitude]
      rw [log_mul hkpos.ne' (hMP M h3).ne']
      congr 3
      ring
  · intro h3
    have e0 : e'.extra.get? "M0" = e.extra.get? "M0" := by
      rw [hM]
      cases h4 : e.extra.get? "M0" with
      | none => rfl
      | some x =>
        cases x with
        | cell c =>
          cases c with
          | num y => exact absurd h4 (h3 y)
          | none => rfl
          | nan => rfl
        | _ => rfl
    refine ⟨e0, ?_⟩
    cases h4 : e.extra.get? "M0" with
    | none => rw [m2 h4, n2 (by rw [e0, h4])]
    | some x => rw [m1 _ h4, n1 x (by rw [e0, h4])]

/-- **C131**: recalculation of the source parameters with another density and velocity.  It is possible
for the same results.  Source energies and site responses are kept; for each event the spectrum and the
moment are multiplied by the same factor, the magnitude is shifted by `2/3 log10` of it, and corner
frequency, fall-off, sharpness and misfit are unchanged.  The factor is the root of the ratio of
`density * velocity ^ 5`; events with an own velocity keep their velocity. -/
theorem C131_recalculated (hs : IsSearch orc) (h1 : IsOls orc.ols) {conf : Config}
    (h2 : smm.or conf.smm = some .robustFit → FollowsShift orc.rlm) (hr : 0 < rho) (hr' : 0 < rho')
    (hv : 0 < v) (hv' : 0 < v') {events out : Dict String EvRes} (hnd : events.keys.Nodup)
    (hwf : ∀ e ∈ events, e.2.extra.WF)
    (hvel : ∀ e ∈ events, 0 < velocityOf e.2 v ∧ 0 < velocityOf e.2 v')
    (hd : ∀ o, smo.or conf.smo = some o → o.n = none → o.gamma = none → (∀ f ∈ freq, 0 < f) ∧
      PositiveOpts o ∧ ∀ e ∈ events, TwoEnergies freq e.2.W)
    (h : calculateSourceProperties orc conf freq events (some rho) (some v) smm smo = .ok out) :
    ∃ out', calculateSourceProperties orc conf freq events (some rho') (some v') smm smo = .ok out' ∧
      out'.keys = out.keys ∧ ∀ id ev e, events.get? id = some ev → out.get? id = some e →
        ∃ e', out'.get? id = some e' ∧ e'.W = e.W ∧ e'.R = e.R ∧
          ScaledSource (spectrumFactor rho (velocityOf ev v) rho' (velocityOf ev v')) e.extra e'.extra := by
  have p1 : pyOr (some rho) conf.rho0 = some rho := by simp [pyOr, hr.ne']
  have p2 : pyOr (some v) conf.v0 = some v := by simp [pyOr, hv.ne']
  have p3 : pyOr (some rho') conf.rho0 = some rho' := by simp [pyOr, hr'.ne']
  have p4 : pyOr (some v') conf.v0 = some v' := by simp [pyOr, hv'.ne']
  unfold calculateSourceProperties at h ⊢
  simp only [p1, p2, p3, p4] at h ⊢
  rw [if_pos (show truthy (some rho) from (hr.ne' : rho ≠ 0))] at h
  rw [if_pos (show truthy (some rho') from (hr'.ne' : rho' ≠ 0))]
  have hF := mapExc_ok.1 h
  clear h
  induction hF with
  | nil => exact ⟨[], rfl, rfl, by simp⟩
  | @cons p q ps qs hpq _ ih =>
    obtain ⟨e, he, hq⟩ := bind_ok.1 hpq
    simp only [pure, Except.pure, Except.ok.injEq] at hq
    subst hq
    obtain ⟨key, ev0⟩ := p
    obtain ⟨out', i1, i2, i3⟩ := ih (by simp at hnd; exact hnd.2) (fun e he => hwf e (by simp [he]))
      (fun e he => hvel e (by simp [he])) (fun o ho hn hg => by
        obtain ⟨d1, d2, d3⟩ := hd o ho hn hg
        exact ⟨d1, d2, fun e he => d3 e (by simp [he])⟩)
    obtain ⟨e', c1, c2, c3, c4⟩ := recalc_scale hs h1 h2 hr hr' (hwf (key, ev0) (by simp))
      (hvel (key, ev0) (by simp)).1 (hvel (key, ev0) (by simp)).2 (fun o ho hn hg => by
        obtain ⟨d1, d2, d3⟩ := hd o ho hn hg
        exact ⟨d1, d2, d3 (key, ev0) (by simp)⟩) he
    refine ⟨(key, e') :: out', ?_, by simp [i2], ?_⟩
    · simp only [mapExc, c1, bind, Except.bind, pure, Except.pure] at i1 ⊢
      rw [i1]
    · intro id ev e1 hev hout
      rw [Dict.get?_cons] at hev hout ⊢
      by_cases hk : key = id
      · rw [if_pos hk] at hev hout ⊢
        simp only [Option.some.injEq] at hev hout
        subst hev hout
        exact ⟨e', rfl, c2, c3, c4⟩
      · rw [if_neg hk] at hev hout ⊢
        exact i3 id ev e1 hev hout

end

/-- The event of the example. -/
def scaleEvent : EvRes := ⟨[.num 3, .none, .num 5], [], []⟩

/-- A case which meets the hypotheses: fall-off and sharpness are both searched; another density and
velocity multiply spectrum and moment by the factor. -/
example : ∃ orc : Oracle, ∃ out out' e e',
    calculateSourceProperties orc {} [2, 4, 8] [("e", scaleEvent)] (some 2700) (some 3000) (some .robustFit)
      (some { fc := some 5, n := none, gamma := none }) = .ok out ∧
    calculateSourceProperties orc {} [2, 4, 8] [("e", scaleEvent)] (some 2000) (some 6000) (some .robustFit)
      (some { fc := some 5, n := none, gamma := none }) = .ok out' ∧
    out.get? "e" = some e ∧ out'.get? "e" = some e' ∧
    ScaledSource (spectrumFactor 2700 3000 2000 6000) e.extra e'.extra := by
  obtain ⟨orc, hs, h1, h2, -⟩ := exists_isGlobalSearch 1
  have hvel : ∀ v, velocityOf scaleEvent v = v := fun v => rfl
  obtain ⟨out, hout⟩ := calc_total_usable (orc := orc) hs.toIsSearch (conf := {}) (freq := [2, 4, 8])
    (events := [("e", scaleEvent)]) (rho0 := some 2700) (v0 := some 3000) (smm := some .robustFit)
    (smo := some { fc := some 5, n := none, gamma := none })
    (fun m hm => ⟨_, rfl, by simp, by simp, by simp, fun _ _ => ⟨_, rfl, by norm_num, by norm_num⟩,
      fun _ _ => ⟨_, rfl, by norm_num, by norm_num⟩⟩)
    (by simp) (by simp [Dict.WF, scaleEvent, Dict.keys]) (by simp [scaleEvent])
  obtain ⟨hk, -⟩ := calc_get orc {} [2, 4, 8] _ out _ _ _ _ (by simp [pyOr, truthy]) hout
  have hsome : (out.get? "e").isSome := by
    rw [Dict.get?_isSome, hk]; simp
  obtain ⟨e, he⟩ := Option.isSome_iff_exists.1 hsome
  obtain ⟨out', c1, -, c3⟩ := C131_recalculated (rho := 2700) (v := 3000) (rho' := 2000) (v' := 6000)
    hs.toIsSearch h1 (fun _ => ols_follows h2) (by norm_num) (by norm_num) (by norm_num) (by norm_num)
    (by simp) (by simp [Dict.WF, scaleEvent, Dict.keys])
    (by simp [hvel])
    (by
      rintro o ho - -
      simp only [Option.some_or, Option.some.injEq] at ho
      subst ho
      refine ⟨by simp, ⟨by simp, by simp, by simp; norm_num, by simp; norm_num⟩, ?_⟩
      intro e he
      simp only [List.mem_singleton] at he
      subst he
      exact ⟨2, 8, 3, 5, by norm_num, by norm_num, by norm_num, by simp [scaleEvent], by simp [scaleEvent]⟩)
    hout
  obtain ⟨e', d1, -, -, d4⟩ := c3 "e" scaleEvent e (by simp [Dict.get?_cons]) he
  exact ⟨orc, out, out', e, e', hout, c1, he, d1, by simpa [hvel] using d4⟩

/-- The factor: doubling of the density and of the velocity. -/
example : spectrumFactor 1 1 2 2 = 8 := by
  unfold spectrumFactor
  rw [show (2 : ℝ) * 2 ^ 5 / (1 * 1 ^ 5) = 8 ^ 2 by norm_num, sqrt_sq (by norm_num)]

end Qopen
