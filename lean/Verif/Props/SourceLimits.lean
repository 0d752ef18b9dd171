import Verif.Props.SourceFit
import Verif.Lemmas.Lsq

/-!
# Limits and start values of the fit of source spectra: C105
-/

namespace Qopen

open Real Source Spec Util

set_option linter.unusedSimpArgs false

namespace Spec

/-- `y` is inside of the limits `l`. -/
def Inside (l : ℝ × ℝ) (y : ℝ) : Prop := l.1 ≤ y ∧ y ≤ l.2

/-- Contract of `scipy.optimize.minimize_scalar(method='bounded')` and `scipy.optimize.minimize` with
limits: one value for each searched parameter, inside of the limits, and not worse than the start. -/
structure IsSearch (orc : Oracle) : Prop where
  scalar : ∀ f l, l.1 ≤ l.2 → Inside l (orc.minScalar f (some l))
  length : ∀ f x b, (orc.minimize f x b).length = x.length
  inside : ∀ f x ls, x.length = ls.length → (∀ l ∈ ls, l.1 ≤ l.2) →
    List.Forall₂ Inside ls (orc.minimize f x (ls.map some))
  descent : ∀ (f : List ℝ → ℝ) x ls, List.Forall₂ Inside ls x → f (orc.minimize f x (ls.map some)) ≤ f x

/-- The contract can be met. -/
theorem exists_isSearch (ols : List ℝ → List (List ℝ) → List ℝ) :
    ∃ orc : Oracle, orc.ols = ols ∧ IsSearch orc := by
  classical
  refine ⟨⟨ols, ols, fun _ => (0, 0), fun _ b => (b.getD (0, 0)).1, fun _ x b =>
    if List.Forall₂ Inside (b.filterMap id) x then x
    else x.zipIdx.map (fun p => ((b.filterMap id).getD p.2 (0, 0)).1)⟩, rfl, ?_, ?_, ?_, ?_⟩
  · intro f l hl; exact ⟨le_rfl, hl⟩
  · intro f x b; simp only; split <;> simp
  · intro f x ls hl h
    simp only
    have e : (ls.map some).filterMap id = ls := by simp [List.filterMap_map]
    rw [e]
    split
    · assumption
    · rw [List.forall₂_iff_get]
      refine ⟨by simp [hl], ?_⟩
      intro i h1 h2
      have hi : i < ls.length := h1
      simp only [List.get_eq_getElem, List.getElem_map, List.getElem_zipIdx, zero_add]
      rw [List.getD_eq_getElem?_getD, List.getElem?_eq_getElem hi, Option.getD_some]
      exact ⟨le_rfl, h _ (List.getElem_mem _)⟩
  · intro f x ls h
    have e : (ls.map some).filterMap id = ls := by simp [List.filterMap_map]
    simp only [e, if_pos h, le_refl]

end Spec

/-- The fit, for results with a moment. -/
theorem fitSds_search {orc : Oracle} {freq : List ℝ} {omM : List Cell} {m : Method} (hm : isFit m)
    {o : Opts} {r : Dict String Cell} (h : fitSds orc freq omM m o = .ok (some r))
    (hr : r.get? "M0" ≠ none) :
    searchCount o < (points freq omM).length ∧
    fitResult orc (if m = .robustFit ∧ o.fallBack ≤ (points freq omM).length then orc.rlm else orc.ols)
      (points freq omM) o = .ok r := by
  obtain ⟨hl, h2, h3, h4⟩ := fitSds_shape orc freq omM m hm o r h
  have h5 : searchCount o < (points freq omM).length := by
    rcases h4 with h4 | h4
    · rw [h4.2] at hr; simp at hr
    · exact h4.1
  refine ⟨h5, ?_⟩
  rw [fitSds_fit orc freq omM m hm o hl, if_neg (by rintro (h | h); omega; exact h2 h)] at h
  cases hf : fitResult orc (if m = .robustFit ∧ o.fallBack ≤ (points freq omM).length
        then orc.rlm else orc.ols) (points freq omM) o with
  | error e => rw [hf] at h; simp [Except.map] at h
  | ok a => rw [hf] at h; simpa [Except.map] using h

/-- The values found by the search: each inside of its limits. -/
theorem fitResult_search {orc : Oracle} (hs : IsSearch orc) {model : List ℝ → List (List ℝ) → List ℝ}
    {pts : List (ℝ × ℝ)} {o : Opts} {r : Dict String Cell} (hp : searchCount o < pts.length)
    (hu : unknowns o ≠ []) (h : fitResult orc model pts o = .ok r) :
    ∃ ls xs, (unknowns o).map (bounds pts o) = ls.map some ∧ (∀ l ∈ ls, l.1 ≤ l.2) ∧
      List.Forall₂ Inside ls xs ∧ fitAt model pts o (unknowns o) xs = .ok r ∧
      (1 < (unknowns o).length → xs =
        orc.minimize (objective (wrapper model pts o ((unknowns o).foldl (· ++ ·) "")))
          ((unknowns o).map (start o)) (ls.map some)) := by
  have hl := unknowns_length o
  unfold fitResult at h
  split at h
  · next h0 => exact absurd h0 hu
  · next x hx =>
    rw [hx] at hl
    simp only [List.length_singleton] at hl
    rw [if_pos (by omega)] at h
    obtain ⟨_, hc, h⟩ := bind_ok.1 h
    obtain ⟨l, hb, hle⟩ := (checkScalar_ok _).1 hc
    rw [hx]
    refine ⟨[l], [_], by simp [hb], by simpa using hle, ?_, h, by simp⟩
    rw [hb]
    exact List.Forall₂.cons (hs.scalar _ _ hle) .nil
  · next us h1 h2 =>
    rw [hl, if_pos hp] at h
    obtain ⟨_, hc, h⟩ := bind_ok.1 h
    rw [checkAll_ok] at hc
    have : ∃ ls : List (ℝ × ℝ), (unknowns o).map (bounds pts o) = ls.map some ∧
        ∀ l ∈ ls, l.1 ≤ l.2 := by
      generalize (unknowns o).map (bounds pts o) = bs at hc
      clear h hl h1 h2
      induction bs with
      | nil => exact ⟨[], rfl, by simp⟩
      | cons b bs ih =>
        obtain ⟨ls, e, hls⟩ := ih (fun b hb => hc b (by simp [hb]))
        obtain ⟨l, e', hle⟩ := hc b (by simp)
        exact ⟨l :: ls, by rw [e', e]; rfl, by
          intro l' hl'
          rcases List.mem_cons.1 hl' with rfl | hl'
          · exact hle
          · exact hls l' hl'⟩
    obtain ⟨ls, e, hls⟩ := this
    rw [e] at h
    refine ⟨ls, _, e, hls, ?_, h, fun _ => rfl⟩
    apply hs.inside _ _ _ _ hls
    have := congrArg List.length e
    simpa using this

theorem fitAt_values {model : List ℝ → List (List ℝ) → List ℝ} {pts : List (ℝ × ℝ)} {o : Opts}
    {xs : List ℝ} {r : Dict String Cell} (h : fitAt model pts o (unknowns o) xs = .ok r)
    (hu : unknowns o ≠ []) (hx : xs.length = (unknowns o).length) :
    (o.fc = none → r.get? "fc" = some (.num (xs.getD 0 0))) ∧
    (o.n = none → o.gamma ≠ none → ∃ y, xs.getLast? = some y ∧ r.get? "n" = some (.num y)) ∧
    (o.gamma = none → o.n ≠ none → ∃ y, xs.getLast? = some y ∧ r.get? "gamma" = some (.num y)) ∧
    (o.n = none → o.gamma = none → ∃ y b, xs.getLast? = some y ∧ r.get? "n" = some (.num (y * b)) ∧
      r.get? "gamma" = some (.num (1 / b))) ∧
    r.get? "fit_error" = some (.num (sqrt (objective (wrapper model pts o
      ((unknowns o).foldl (· ++ ·) "")) xs))) := by
  obtain ⟨fc, n, g, fcl, nl, gl, fc0, n0, g0, fb, np⟩ := o
  match xs with
  | [] => exact absurd (List.length_eq_zero_iff.1 hx.symm) hu
  | [x] =>
    cases fc <;> cases n <;> cases g <;> simp [unknowns] at hx hu <;>
    simp [fitAt, unknowns, wrapper, lstsq, lstsqab, bind, Except.bind, Dict.update, Dict.set,
      translateAB, Dict.get?_cons, Dict.pop] at h <;> subst h <;>
    simp [Dict.get?_cons, objective, unknowns, wrapper, lstsq, lstsqab]
    all_goals exact ⟨_, rfl, rfl⟩
  | [x, y] =>
    cases fc <;> cases n <;> cases g <;> simp [unknowns] at hx hu <;>
    simp [fitAt, unknowns, wrapper, lstsq, lstsqab, bind, Except.bind, Dict.update, Dict.set,
      translateAB, Dict.get?_cons, Dict.pop] at h <;> subst h <;>
    simp [Dict.get?_cons, objective, unknowns, wrapper, lstsq, lstsqab]
    all_goals exact ⟨_, rfl, rfl⟩
  | x :: y :: z :: l =>
    cases fc <;> cases n <;> cases g <;> simp [unknowns] at hx hu

theorem bounds_fc {pts : List (ℝ × ℝ)} {o : Opts} {l : ℝ × ℝ} (h : bounds pts o "fc" = some l) :
    (∀ l', o.fcLim = some l' → l = l') ∧
    (o.fcLim = none → ∀ p q, pts.head? = some p → pts.getLast? = some q → l = (p.1, q.1)) := by
  simp only [bounds, if_true, Option.some.injEq] at h
  constructor
  · intro l' hl'
    rw [hl'] at h
    exact h.symm
  · intro hn p q hp hq
    rw [hn] at h
    rw [← h]
    simp only [Option.getD_none, Prod.mk.injEq]
    constructor
    · cases pts with
      | nil => simp at hp
      | cons a b => simp at hp; simp [hp]
    · rw [List.getLastD_eq_getLast?, List.getLast?_map, hq]
      rfl

/-- **C105**: a corner frequency which is found by the fit is inside of the limits `fc_lim` or, without
this option, between the first and the last frequency with a value. -/
theorem C105_corner_frequency {orc : Oracle} (hs : IsSearch orc) {freq : List ℝ} {omM : List Cell}
    {m : Method} (hm : isFit m) {o : Opts} {r : Dict String Cell}
    (h : fitSds orc freq omM m o = .ok (some r)) (hr : r.get? "M0" ≠ none) (hfc : o.fc = none) :
    ∃ fc, r.get? "fc" = some (.num fc) ∧ (∀ l, o.fcLim = some l → Inside l fc) ∧
      (o.fcLim = none → ∀ p q, (points freq omM).head? = some p →
        (points freq omM).getLast? = some q → Inside (p.1, q.1) fc) := by
  obtain ⟨hp, hf⟩ := fitSds_search hm h hr
  have hu : ∃ us, unknowns o = "fc" :: us := by
    simp only [unknowns, hfc, Option.isNone_none, if_true, List.cons_append, List.nil_append]
    split <;> exact ⟨_, rfl⟩
  obtain ⟨us, hu⟩ := hu
  obtain ⟨ls, xs, e, -, hin, hfit, -⟩ := fitResult_search hs hp (by simp [hu]) hf
  have hlen : xs.length = (unknowns o).length := by
    rw [← hin.length_eq, ← List.length_map (f := some), ← e, List.length_map]
  have hv := (fitAt_values hfit (by simp [hu]) hlen).1 hfc
  rw [hu] at e
  cases hin with
  | nil => simp at e
  | @cons l x ls xs hlx hin =>
    simp only [List.map_cons, List.cons.injEq] at e
    obtain ⟨h1, h2⟩ := bounds_fc e.1
    refine ⟨_, hv, ?_, ?_⟩
    · intro l' hl'
      rw [← h1 l' hl']
      exact hlx
    · intro hn p q hpq hq
      rw [← h2 hn p q hpq hq]
      exact hlx

theorem forall₂_getLast {α β : Type} {R : α → β → Prop} {l : List α} {l' : List β}
    (h : List.Forall₂ R l l') {a : α} {b : β} (ha : l.getLast? = some a) (hb : l'.getLast? = some b) :
    R a b := by
  induction h with
  | nil => simp at ha
  | @cons x y l l' h1 h2 ih =>
    cases h2 with
    | nil => simp at ha hb; rw [← ha, ← hb]; exact h1
    | @cons x' y' l l' h3 h4 =>
      rw [List.getLast?_cons_cons] at ha hb
      exact ih ha hb

/-- **C105** (partial): the fall-off or the sharpness, if one of both is searched, is inside of the
limits; if both are free, their product is inside of the products of the limits.
Missing for the full claim: limits of each of them if both are free, see `C105_shape_counterexample`. -/
theorem C105_shape_partial {orc : Oracle} (hs : IsSearch orc) {freq : List ℝ} {omM : List Cell}
    {m : Method} (hm : isFit m) {o : Opts} {r : Dict String Cell}
    (h : fitSds orc freq omM m o = .ok (some r)) (hr : r.get? "M0" ≠ none) :
    (o.n = none → o.gamma ≠ none → ∃ n l, r.get? "n" = some (.num n) ∧ o.nLim = some l ∧ Inside l n) ∧
    (o.gamma = none → o.n ≠ none →
      ∃ g l, r.get? "gamma" = some (.num g) ∧ o.gammaLim = some l ∧ Inside l g) ∧
    (o.n = none → o.gamma = none → ∃ n g l k, r.get? "n" = some (.num n) ∧
      r.get? "gamma" = some (.num g) ∧ o.nLim = some l ∧ o.gammaLim = some k ∧
      (g ≠ 0 → Inside (l.1 * k.1, l.2 * k.2) (n * g))) := by
  obtain ⟨hp, hf⟩ := fitSds_search hm h hr
  have key : unknowns o ≠ [] → ∃ ls xs, (unknowns o).map (bounds (points freq omM) o) = ls.map some ∧
      List.Forall₂ Inside ls xs ∧ fitAt (if m = .robustFit ∧ o.fallBack ≤ (points freq omM).length
        then orc.rlm else orc.ols) (points freq omM) o (unknowns o) xs = .ok r ∧
      xs.length = (unknowns o).length := by
    intro hu
    obtain ⟨ls, xs, e, -, hin, hfit, -⟩ := fitResult_search hs hp hu hf
    refine ⟨ls, xs, e, hin, hfit, ?_⟩
    rw [← hin.length_eq, ← List.length_map (f := some), ← e, List.length_map]
  have last : ∀ x, (unknowns o).getLast? = some x → ∃ ls xs,
      (unknowns o).map (bounds (points freq omM) o) = ls.map some ∧
      List.Forall₂ Inside ls xs ∧ fitAt (if m = .robustFit ∧ o.fallBack ≤ (points freq omM).length
        then orc.rlm else orc.ols) (points freq omM) o (unknowns o) xs = .ok r ∧
      xs.length = (unknowns o).length ∧ unknowns o ≠ [] ∧
      ∃ l, bounds (points freq omM) o x = some l ∧ ls.getLast? = some l := by
    intro x hx
    have hu : unknowns o ≠ [] := by intro e; rw [e] at hx; simp at hx
    obtain ⟨ls, xs, e, hin, hfit, hlen⟩ := key hu
    refine ⟨ls, xs, e, hin, hfit, hlen, hu, ?_⟩
    have e2 := congrArg List.getLast? e
    rw [List.getLast?_map, List.getLast?_map, hx] at e2
    cases hl : ls.getLast? with
    | none => rw [hl] at e2; simp at e2
    | some l => rw [hl] at e2; exact ⟨l, by simpa using e2, rfl⟩
  refine ⟨?_, ?_, ?_⟩
  · intro hn hg
    obtain ⟨ls, xs, e, hin, hfit, hlen, hu, l, hb, hl⟩ := last "n" (by
      obtain ⟨g, hg⟩ := Option.ne_none_iff_exists'.1 hg
      cases hfc : o.fc <;> simp [unknowns, hn, hg, hfc])
    obtain ⟨y, hy, hv⟩ := (fitAt_values hfit hu hlen).2.1 hn hg
    refine ⟨y, l, hv, ?_, forall₂_getLast hin hl hy⟩
    simpa [bounds] using hb
  · intro hg hn
    obtain ⟨ls, xs, e, hin, hfit, hlen, hu, l, hb, hl⟩ := last "gamma" (by
      obtain ⟨n, hn⟩ := Option.ne_none_iff_exists'.1 hn
      cases hfc : o.fc <;> simp [unknowns, hn, hg, hfc])
    obtain ⟨y, hy, hv⟩ := (fitAt_values hfit hu hlen).2.2.1 hg hn
    refine ⟨y, l, hv, ?_, forall₂_getLast hin hl hy⟩
    simpa [bounds] using hb
  · intro hn hg
    obtain ⟨ls, xs, e, hin, hfit, hlen, hu, l, hb, hl⟩ := last "a" (by
      cases hfc : o.fc <;> simp [unknowns, hn, hg, hfc])
    obtain ⟨y, b, hy, hv, hv'⟩ := (fitAt_values hfit hu hlen).2.2.2.1 hn hg
    have : ∃ a k, o.nLim = some a ∧ o.gammaLim = some k ∧ l = (a.1 * k.1, a.2 * k.2) := by
      cases h1 : o.nLim <;> cases h2 : o.gammaLim <;> simp [bounds, h1, h2] at hb
      exact ⟨_, _, rfl, rfl, hb.symm⟩
    obtain ⟨a, k, h1, h2, rfl⟩ := this
    refine ⟨y * b, 1 / b, a, k, hv, hv', h1, h2, ?_⟩
    intro hb0
    have hb1 : b ≠ 0 := by rintro rfl; simp at hb0
    have : y * b * (1 / b) = y := by field_simp
    rw [this]
    exact forall₂_getLast hin hl hy

theorem points_pos {freq : List ℝ} {omM : List Cell} (hf : ∀ f ∈ freq, 0 < f) :
    ∀ p ∈ points freq omM, 0 < p.1 := by
  intro p hp
  unfold points at hp
  obtain ⟨q, hq, hp⟩ := List.mem_filterMap.1 hp
  have := (List.of_mem_zip hq).1
  cases h2 : q.2 <;> simp [h2] at hp
  rw [← hp]; exact hf _ this

theorem meanSq_le {ols : List ℝ → List (List ℝ) → List ℝ} (ho : IsOls ols) (y : List ℝ)
    (X : List (List ℝ)) (q : List ℝ) : meanSq y X (ols y X) ≤ meanSq y X q :=
  div_le_div_of_nonneg_right (ho y X q) (by positivity)

theorem misfit_omega {pts : List (ℝ × ℝ)} (hpos : ∀ p ∈ pts, 0 < p.1) {M fc n g : ℝ} (hc : 0 < fc) :
    rmsLogMisfit pts (omegaModel M fc n g) = rmsLogMisfit pts (fun f => sourceModel f M fc n g) := by
  unfold rmsLogMisfit
  congr 3
  apply List.map_congr_left
  intro p hp
  simp only [C61_is_omega_model _ _ _ _ _ (hpos p hp) hc]

/-- **C105**: if the corner frequency and the shape are searched, the ordinary fit is at least as good
as each curve with the start values `fc0`, `n0` and `gamma0` of the free parameters, provided that
these are inside of the (positive) limits. -/
theorem C105_not_worse_than_start {orc : Oracle} (hs : IsSearch orc) (ho : IsOls orc.ols)
    {freq : List ℝ} {omM : List Cell} {o : Opts} {r : Dict String Cell} {err : ℝ}
    (h : fitSds orc freq omM .fit o = .ok (some r)) (he : r.get? "fit_error" = some (.num err))
    (hr : r.get? "M0" ≠ none) (hf : ∀ f ∈ freq, 0 < f) (hfc : o.fc = none)
    (hshape : o.n = none ∨ o.gamma = none)
    (h1 : ∀ l, o.fcLim = some l → Inside l o.fc0) (h1' : 0 < o.fc0)
    (h2 : o.fcLim = none → ∀ p q, (points freq omM).head? = some p →
      (points freq omM).getLast? = some q → Inside (p.1, q.1) o.fc0)
    (h3 : o.n = none → ∀ l, o.nLim = some l → 0 < l.1 ∧ Inside l o.n0)
    (h4 : o.gamma = none → ∀ l, o.gammaLim = some l → 0 < l.1 ∧ Inside l o.gamma0) (M : ℝ) (hM : 0 < M) :
    err ≤ rmsLogMisfit (points freq omM)
      (omegaModel M o.fc0 (o.n.getD o.n0) (o.gamma.getD o.gamma0)) := by
  obtain ⟨hp, hfr⟩ := fitSds_search (Or.inl rfl) h hr
  have hpos := points_pos (omM := omM) hf
  rw [if_neg (by simp)] at hfr
  generalize points freq omM = pts at *
  have hlen2 : (unknowns o).length = 2 := by
    rw [unknowns_length]
    simp [searchCount, hfc, hshape]
  have hu : unknowns o ≠ [] := by intro e; rw [e] at hlen2; simp at hlen2
  have hpts : pts ≠ [] := by rintro rfl; simp at hp
  obtain ⟨ls, xs, e, hle, hin, hfit, hmin⟩ := fitResult_search hs hp hu hfr
  have hlen : xs.length = (unknowns o).length := by
    rw [← hin.length_eq, ← List.length_map (f := some), ← e, List.length_map]
  have hv := (fitAt_values hfit hu hlen).2.2.2.2
  rw [he] at hv
  simp only [Option.some.injEq, Cell.num.injEq] at hv
  rw [hv]
  -- the start is inside
  have hstart : List.Forall₂ Inside ls ((unknowns o).map (start o)) := by
    have hb : ∀ x ∈ unknowns o, ∀ l, bounds pts o x = some l → Inside l (start o x) := by
      intro x hx l hl
      have hcase : x = "fc" ∨ x = "n" ∧ o.n = none ∧ o.gamma ≠ none ∨
          x = "gamma" ∧ o.gamma = none ∧ o.n ≠ none ∨ x = "a" ∧ o.n = none ∧ o.gamma = none := by
        cases hn : o.n <;> cases hg : o.gamma <;> simp [unknowns, hn, hg, hfc] at hx <;> simp [hx]
        all_goals rcases hx with rfl | rfl <;> simp
      rcases hcase with rfl | ⟨rfl, hn, -⟩ | ⟨rfl, hg, -⟩ | ⟨rfl, hn, hg⟩
      · obtain ⟨a, b⟩ := bounds_fc hl
        have es : start o "fc" = o.fc0 := by simp [start]
        rw [es]
        cases hfl : o.fcLim with
        | none =>
          obtain ⟨p, hp'⟩ := Option.ne_none_iff_exists'.1 (by simpa using hpts : pts.head? ≠ none)
          obtain ⟨q, hq'⟩ := Option.ne_none_iff_exists'.1 (by simpa using hpts : pts.getLast? ≠ none)
          rw [b hfl p q hp' hq']
          exact h2 hfl p q hp' hq'
        | some l' => rw [a l' hfl]; exact h1 l' hfl
      · have : o.nLim = some l := by simpa [bounds] using hl
        simpa [start] using (h3 hn l this).2
      · have : o.gammaLim = some l := by simpa [bounds] using hl
        simpa [start] using (h4 hg l this).2
      · have : ∃ a k, o.nLim = some a ∧ o.gammaLim = some k ∧ l = (a.1 * k.1, a.2 * k.2) := by
          cases h1 : o.nLim <;> cases h2 : o.gammaLim <;> simp [bounds, h1, h2] at hl
          exact ⟨_, _, rfl, rfl, hl.symm⟩
        obtain ⟨a, k, e1, e2, rfl⟩ := this
        obtain ⟨a0, a1, a2⟩ := h3 hn a e1
        obtain ⟨k0, k1, k2⟩ := h4 hg k e2
        have es : start o "a" = o.n0 * o.gamma0 := by simp [start, mul_comm]
        rw [es]
        exact ⟨mul_le_mul a1 k1 k0.le (by linarith), mul_le_mul a2 k2 (by linarith) (by linarith)⟩
    clear hfit hmin hin hv hlen hlen2 hu hp
    generalize unknowns o = us at *
    induction us generalizing ls with
    | nil =>
      cases ls with
      | nil => exact .nil
      | cons a b => simp at e
    | cons x us ih =>
      cases ls with
      | nil => simp at e
      | cons a ls =>
        simp only [List.map_cons, List.cons.injEq] at e
        exact .cons (hb x (by simp) a e.1) (ih ls (fun l hl => hle l (by simp [hl])) e.2
          (fun x hx => hb x (by simp [hx])))
  have hd := hs.descent (objective (wrapper orc.ols pts o ((unknowns o).foldl (· ++ ·) "")))
    ((unknowns o).map (start o)) ls hstart
  rw [← hmin (by omega)] at hd
  refine le_trans (sqrt_le_sqrt hd) ?_
  rw [misfit_omega hpos h1']
  -- the regression at the start
  have hM' : M = exp (([log M] : List ℝ).getD 0 0) := by simp [exp_log hM]
  cases hn : o.n with
  | none =>
    cases hg : o.gamma with
    | none =>
      have hg0 : 0 < o.gamma0 := by
        have : ∃ k, o.gammaLim = some k := by
          by_contra hc
          have hk : o.gammaLim = none := by
            cases hk : o.gammaLim with
            | none => rfl
            | some k => exact absurd ⟨k, hk⟩ hc
          have : unknowns o = ["fc", "a"] := by simp [unknowns, hn, hg, hfc]
          rw [this] at e
          cases ls with
          | nil => simp at e
          | cons a ls =>
            cases ls with
            | nil => simp at e
            | cons b ls => simp [bounds, hk] at e
        obtain ⟨k, hk⟩ := this
        obtain ⟨k0, k1, -⟩ := h4 hg k hk
        linarith
      have hM2 : M = exp (([log M, 1 / o.gamma0] : List ℝ).getD 0 0) := by simp [exp_log hM]
      have := lstsqab_misfit pts [log M, 1 / o.gamma0] o.fc0 (o.gamma0 * o.n0) hpos h1'
        (by simpa using hg0.ne')
      have e1 : o.gamma0 * o.n0 * ([log M, 1 / o.gamma0] : List ℝ).getD 1 0 = o.n0 := by
        simp; field_simp
      have e2 : 1 / ([log M, 1 / o.gamma0] : List ℝ).getD 1 0 = o.gamma0 := by simp
      rw [e1, e2, ← hM2] at this
      simp only [Option.getD_none]
      rw [← this]
      apply sqrt_le_sqrt
      simp only [unknowns, hn, hg, hfc, Option.isNone_none, Bool.and_true, if_true,
        List.cons_append, List.nil_append, List.map_cons, List.map_nil, List.foldl_cons, List.foldl_nil]
      simp only [objective, wrapper, start]
      simp only [lstsqab, String.reduceEq, String.reduceAppend, if_true, if_false, List.getElem?_cons_zero,
        List.getElem?_cons_succ]
      exact meanSq_le ho _ _ _
    | some g =>
      simp only [Option.getD_none, Option.getD_some]
      rw [hM', ← lstsq_misfit _ _ _ _ _ hpos h1']
      apply sqrt_le_sqrt
      simp only [unknowns, hn, hg, hfc, Option.isNone_none, Option.isNone_some, Bool.and_false, if_true,
        Bool.false_eq_true, if_false, List.append_nil,
        List.cons_append, List.nil_append, List.map_cons, List.map_nil, List.foldl_cons, List.foldl_nil]
      simp only [objective, wrapper, start]
      simp only [lstsq, String.reduceEq, String.reduceAppend, if_true, if_false, List.getElem?_cons_zero,
        List.getElem?_cons_succ, hg]
      exact meanSq_le ho _ _ _
  | some n =>
    cases hg : o.gamma with
    | none =>
      simp only [Option.getD_none, Option.getD_some]
      rw [hM', ← lstsq_misfit _ _ _ _ _ hpos h1']
      apply sqrt_le_sqrt
      simp only [unknowns, hn, hg, hfc, Option.isNone_none, Option.isNone_some, Bool.false_and, if_true,
        Bool.false_eq_true, if_false, List.append_nil,
        List.cons_append, List.nil_append, List.map_cons, List.map_nil, List.foldl_cons, List.foldl_nil]
      simp only [objective, wrapper, start]
      simp only [lstsq, String.reduceEq, String.reduceAppend, if_true, if_false, List.getElem?_cons_zero,
        List.getElem?_cons_succ, hn]
      exact meanSq_le ho _ _ _
    | some g =>
      rcases hshape with h | h
      · rw [hn] at h; simp at h
      · rw [hg] at h; simp at h

/-- Two equations for the parameters of a line. -/
theorem line_unique {p0 p1 x y : ℝ} (hxy : x ≠ y) (h1 : p0 + x * p1 = 3 * x) (h2 : p0 + y * p1 = 3 * y) :
    p0 = 0 ∧ p1 = 3 := by
  have h3 : (x - y) * (p1 - 3) = 0 := by linear_combination h1 - h2
  rcases mul_eq_zero.1 h3 with h | h
  · exact absurd (sub_eq_zero.1 h) hxy
  · have : p1 = 3 := by linarith
    subst this
    exact ⟨by linarith, rfl⟩

/-- **C105** (counterexample to the full claim): if both fall-off and sharpness are free, they can leave
their limits: with the limits 2 for `n` and 1 for `gamma` each fit reports `n = 6` and
`gamma = 1/3`. -/
theorem C105_shape_counterexample {orc : Oracle} (hs : IsSearch orc) (ho : IsOls orc.ols) :
    ∃ r, fitSds orc [1, 2] [.num (1 / 8), .num (1 / 125)] .fit
        { fc := some 1, n := none, gamma := none, nLim := some (2, 2), gammaLim := some (1, 1) } =
          .ok (some r) ∧
      r.get? "M0" ≠ none ∧ r.get? "n" = some (.num 6) ∧ r.get? "gamma" = some (.num (1 / 3)) := by
  set o : Opts := { fc := some 1, n := none, gamma := none, nLim := some (2, 2), gammaLim := some (1, 1) }
    with ho'
  have hp : points [1, 2] [.num (1 / 8), .num (1 / 125)] = [(1, 1 / 8), (2, 1 / 125)] := rfl
  have hb : bounds [(1, 1 / 8), (2, 1 / 125)] o "a" = some (2, 2) := by
    simp [bounds, ho']
  have hx : ∀ f, orc.minScalar f (some (2, 2)) = 2 := by
    intro f
    obtain ⟨a, b⟩ := hs.scalar f (2, 2) le_rfl
    exact le_antisymm b a
  -- the regression is exact
  have hreg := ho [log (1 / 8), log (1 / 125)]
    [[1, log (sourceModelAB 1 1 1 2 1)], [1, log (sourceModelAB 2 1 1 2 1)]] [0, 3]
  have m1 : sourceModelAB 1 1 1 2 1 = 1 / 2 := by
    unfold sourceModelAB
    rw [rpow_neg (by positivity), rpow_one]; norm_num
  have m2 : sourceModelAB 2 1 1 2 1 = 1 / 5 := by
    unfold sourceModelAB
    rw [rpow_neg (by positivity), rpow_one]; norm_num
  have l1 : log (1 / 8) = 3 * log (1 / 2) := by
    rw [← log_rpow (by norm_num)]; norm_num
  have l2 : log (1 / 125) = 3 * log (1 / 5) := by
    rw [← log_rpow (by norm_num)]; norm_num
  have hz : sse [log (1 / 8), log (1 / 125)]
      [[1, log (sourceModelAB 1 1 1 2 1)], [1, log (sourceModelAB 2 1 1 2 1)]] [0, 3] = 0 := by
    simp only [sse, m1, m2, l1, l2, List.zipWith_cons_cons, List.zipWith_nil_left, List.sum_cons, List.sum_nil]
    ring
  rw [hz] at hreg
  generalize hq : orc.ols [log (1 / 8), log (1 / 125)]
    [[1, log (sourceModelAB 1 1 1 2 1)], [1, log (sourceModelAB 2 1 1 2 1)]] = q at hreg
  have hq1 : q.getD 1 0 = 3 := by
    have e := zipWith_maps [(log (1 / 8), log (1 / 2)), (log (1 / 125), log (1 / 5))] Prod.fst
      (fun p => [1, p.2]) (fun yi row => (yi - dot row q) ^ 2)
    simp only [dot_two] at e
    have e2 : sse [log (1 / 8), log (1 / 125)]
      [[1, log (sourceModelAB 1 1 1 2 1)], [1, log (sourceModelAB 2 1 1 2 1)]] q =
      (log (1 / 8) - (q.getD 0 0 + log (1 / 2) * q.getD 1 0)) ^ 2 +
        (log (1 / 125) - (q.getD 0 0 + log (1 / 5) * q.getD 1 0)) ^ 2 := by
      rw [m1, m2]
      unfold sse
      refine (congrArg List.sum e).trans ?_
      simp
    rw [e2] at hreg
    have s1 := sq_nonneg (log (1 / 8) - (q.getD 0 0 + log (1 / 2) * q.getD 1 0))
    have s2 := sq_nonneg (log (1 / 125) - (q.getD 0 0 + log (1 / 5) * q.getD 1 0))
    have t1 : log (1 / 8) - (q.getD 0 0 + log (1 / 2) * q.getD 1 0) = 0 :=
      pow_eq_zero_iff two_ne_zero |>.1 (le_antisymm (by linarith) s1)
    have t2 : log (1 / 125) - (q.getD 0 0 + log (1 / 5) * q.getD 1 0) = 0 :=
      pow_eq_zero_iff two_ne_zero |>.1 (le_antisymm (by linarith) s2)
    refine (line_unique (p0 := q.getD 0 0) (x := log (1 / 2)) (y := log (1 / 5)) ?_ (by linarith) (by linarith)).2
    intro e
    have := log_injOn_pos (by norm_num : (1 / 2 : ℝ) ∈ Set.Ioi 0) (by norm_num : (1 / 5 : ℝ) ∈ Set.Ioi 0) e
    norm_num at this
  have hun : unknowns o = ["a"] := rfl
  have hfa : ∃ r, fitAt orc.ols [(1, 1 / 8), (2, 1 / 125)] o ["a"] [2] = .ok r ∧
      r.get? "M0" ≠ none ∧ r.get? "n" = some (.num 6) ∧ r.get? "gamma" = some (.num (1 / 3)) := by
    simp only [fitAt, List.foldl_cons, List.foldl_nil, wrapper, lstsqab]
    simp only [String.reduceEq, String.reduceAppend, if_true, if_false, List.getElem?_cons_zero, bind,
      Except.bind, List.map_cons, List.map_nil, hq, hq1, ho']
    simp [Dict.update, Dict.set, translateAB, Dict.get?_cons, Dict.pop]
    norm_num
  obtain ⟨r, hr, h1, h2, h3⟩ := hfa
  refine ⟨r, ?_, h1, h2, h3⟩
  rw [fitSds_fit orc _ _ .fit (Or.inl rfl) o rfl, hp, if_neg (by simp [tooFew, ho'])]
  simp only [fitResult, hun, hb, reduceCtorEq, false_and, if_false, List.length_cons, List.length_nil]
  have : checkScalar (some (2, 2)) = .ok () := by simp [checkScalar]
  simp only [this, hx, hr, bind, Except.bind, Nat.zero_add, Nat.reduceAdd, Nat.one_lt_ofNat, if_true,
    Except.map]

/-- The hypotheses of C105 can be met: for an optimiser and a regression with the contracts, four
points, all parameters free and the default start values and limits. -/
example : ∃ (orc : Oracle) (r : Dict String Cell), IsSearch orc ∧ IsOls orc.ols ∧
    fitSds orc [1, 2, 10, 20] [.num 4, .num 3, .num 2, .num 1] .fit { n := none, gamma := none } =
      .ok (some r) ∧ r.get? "M0" ≠ none ∧ Inside (1, 20) 10 := by
  obtain ⟨ols, ho⟩ := exists_isOls
  obtain ⟨orc, rfl, hs⟩ := exists_isSearch ols
  obtain ⟨r, M0, h1, h2, -⟩ := (C63_fit_reports_iff orc [1, 2, 10, 20] [.num 4, .num 3, .num 2, .num 1] .fit
    (Or.inl rfl) { n := none, gamma := none } rfl hs.length).2
    ⟨by simp [searchCount, points], by simp, searchLimits_default _ _ rfl rfl rfl (by
      show List.Pairwise (· ≤ ·) [(1 : ℝ), 2, 10, 20]
      norm_num)⟩
  exact ⟨orc, r, hs, ho, h1, by rw [h2]; simp, by norm_num [Inside]⟩

end Qopen
