import Verif.Props.RtFigure

/-!
# C59: absorption in the figures of `qopen-rt`
-/

set_option linter.unusedSimpArgs false

namespace Qopen
open Rt

namespace Spec

/-- The amplitude after absorption with length `la` at time `t`. -/
noncomputable def damped (c la t : ℝ) (x : Option ℝ) : Option ℝ :=
  x.map (fun x => x * Real.exp (-(c * t) / la))

end Spec

open Spec

namespace RtAbsorb

theorem absorb_some {la : ℝ} (hla : la ≠ 0) (c t : ℝ) (x : Option ℝ) :
    absorb (some la) c t x = damped c la t x := by
  simp only [absorb, if_neg hla, damped, neg_mul]

theorem absorb_none (c t : ℝ) : absorb none c t = id := rfl

theorem mapExc_rel {α β : Type} {f f' : α → Py β} {P : β → β → Prop} {l : List α} {ys : List β}
    (h : mapExc f l = .ok ys) (hf : ∀ x y, f x = .ok y → ∃ y', f' x = .ok y' ∧ P y y') :
    ∃ ys', mapExc f' l = .ok ys' ∧ List.Forall₂ P ys ys' := by
  rw [mapExc_ok] at h
  induction h with
  | nil => exact ⟨[], rfl, .nil⟩
  | @cons x y l ys h _ ih =>
    obtain ⟨y', h1, h2⟩ := hf x y h
    obtain ⟨ys', h3, h4⟩ := ih
    exact ⟨y' :: ys', by simp [mapExc, h1, h3, bind, Except.bind, pure, Except.pure], .cons h2 h4⟩

theorem main_rel {a : RtArgs} {la : ℝ} {P : Drawing → Drawing → Prop} {ds : List Drawing} {leg : Bool}
    (h : rtMain a = .ok (.figure ds leg))
    (hd : ∀ l ty d, drawOne a l ty = .ok d →
      ∃ d', drawOne { a with absorption := some la } l ty = .ok d' ∧ P d d') :
    ∃ ds', rtMain { a with absorption := some la } = .ok (.figure ds' leg) ∧
      List.Forall₂ P ds ds' := by
  unfold rtMain at h
  split at h
  · simp at h
  next h1 =>
  split at h
  · simp at h
  next h2 =>
  split at h
  · exfalso
    unfold calcMain at h
    split at h
    · rw [bind_ok] at h; obtain ⟨_, _, h⟩ := h; simp [pure, Except.pure] at h
    · split at h
      · simp at h
      · rw [bind_ok] at h; obtain ⟨_, _, h⟩ := h; simp [pure, Except.pure] at h
    · simp at h
  next h3 =>
  rw [bind_ok] at h
  obtain ⟨dss, hdd, h⟩ := h
  simp only [pure, Except.pure, Except.ok.injEq, RtOut.figure.injEq] at h
  obtain ⟨rfl, rfl⟩ := h
  obtain ⟨dss', k1, k2⟩ := mapExc_rel (P := List.Forall₂ P) hdd (fun l ds h =>
    mapExc_rel (f' := drawOne { a with absorption := some la } l) h (hd l))
  refine ⟨dss'.flatten, ?_, ?_⟩
  · unfold rtMain
    rw [if_neg h1, if_neg h2, if_neg h3]
    simp only [k1, bind, Except.bind, pure, Except.pure]
  · clear hdd k1
    induction k2 with
    | nil => exact .nil
    | cons h _ ih =>
      simp only [List.flatten_cons]
      exact List.rel_append h ih

end RtAbsorb

open RtAbsorb

/-- **C59**: with absorption the figure over distance has the same axes, and the samples of each
curve are multiplied by the factor for the time of the figure. -/
theorem C59_plot_r {a : RtArgs} (hcmd : a.command = "plot-r") (ha : a.absorption = none) {la : ℝ}
    (hla : la ≠ 0) {ds : List Drawing} {leg : Bool} (h : rtMain a = .ok (.figure ds leg)) :
    ∃ ds', rtMain { a with absorption := some la } = .ok (.figure ds' leg) ∧
      List.Forall₂ (fun d d' => ∃ rs ys ty l limit t,
        d = .curve rs ys ty l limit a.log ∧
        d' = .curve rs (ys.map (damped a.c la t)) ty l limit a.log ∧
        (∀ s, a.t = some s → t = s) ∧ (a.r = none → limit = 1.1 * a.c * t)) ds ds' := by
  refine main_rel h ?_
  intro l ty d hq
  unfold drawOne at hq ⊢
  split at hq
  · simp at hq
  next hl0 =>
  rw [if_neg (by rw [hcmd]; decide)] at hq
  rw [if_neg hl0, if_neg (by rw [hcmd]; decide)]
  simp only at hq ⊢
  rw [if_pos hcmd]
  unfold figureR at hq ⊢
  split at hq
  · simp at hq
  next t limit hrange =>
  rw [bind_ok] at hq
  obtain ⟨v, hv, hq⟩ := hq
  rw [bind_ok] at hq
  obtain ⟨xs, hsl, hq⟩ := hq
  simp only [pure, Except.pure, Except.ok.injEq, ha, absorb_none, List.map_id] at hq
  obtain ⟨hc, hg⟩ := G_ok hv
  refine ⟨_, ?_, _, _, _, _, _, t, hq.symm, rfl, ?_, ?_⟩
  · simp only [hrange]
    simp only [hv, hsl, bind, Except.bind, pure, Except.pure]
    rw [show absorb (some la) a.c t = damped a.c la t from funext (absorb_some hla a.c t)]
  all_goals unfold rangeR at hrange
  · intro s hs
    rw [hs] at hrange
    split at hrange <;> simp_all
  · intro hr
    rw [hr] at hrange
    split at hrange
    · simp only [Prod.mk.injEq, Option.some.injEq] at hrange
      obtain ⟨rfl, rfl⟩ := hrange
      have : (1 / l) ≠ 0 := hg.ne'
      field_simp
    · simp only [Prod.mk.injEq, Option.some.injEq] at hrange
      rw [← hrange.1, ← hrange.2]
    · simp_all

/-- **C59**: with absorption the image over distance and time has the same axes, and each point is
multiplied by the factor for its time (without `--log`). -/
theorem C59_plot_rt {a : RtArgs} (hcmd : a.command = "plot-rt") (ha : a.absorption = none)
    (hlog : a.log = false) {la : ℝ} (hla : la ≠ 0) {ds : List Drawing} {leg : Bool}
    (h : rtMain a = .ok (.figure ds leg)) :
    ∃ ds', rtMain { a with absorption := some la } = .ok (.figure ds' leg) ∧
      List.Forall₂ (fun d d' => ∃ rs ts ys ys' ty,
        d = .image rs ts ys ty ∧ d' = .image rs ts ys' ty ∧ ys'.length = ys.length ∧
        ∀ (i j : ℕ) t x, ts[i]? = some t → j < rs.length → ys[i * rs.length + j]? = some x →
          ys'[i * rs.length + j]? = some (damped a.c la t x)) ds ds' := by
  refine main_rel h ?_
  intro l ty d hq
  unfold drawOne at hq ⊢
  split at hq
  · simp at hq
  next hl0 =>
  rw [if_neg (by rw [hcmd]; decide), if_neg (by rw [hcmd]; decide)] at hq
  rw [if_neg hl0, if_neg (by rw [hcmd]; decide), if_neg (by rw [hcmd]; decide)]
  unfold figureRt at hq ⊢
  simp only [hlog, Bool.false_eq_true, if_false] at hq ⊢
  rw [bind_ok] at hq
  obtain ⟨v, hv, hq⟩ := hq
  rw [bind_ok] at hq
  obtain ⟨xs, hsl, hq⟩ := hq
  simp only [pure, Except.pure, Except.ok.injEq, ha] at hq
  refine ⟨_, by simp only [hv, hsl, bind, Except.bind, pure, Except.pure]; rfl, _, _, _, _, _,
    hq.symm, rfl, by simp, ?_⟩
  intro i j t x ht hj hx
  have hm := (RtFigureLemmas.mesh _ _ i j _ t (List.getElem?_eq_getElem hj) ht).2
  rw [List.getElem?_zipWith, hm] at hx ⊢
  generalize hz : xs[i * _ + j]? = z at hx ⊢
  cases z with
  | none => simp at hx
  | some y =>
    simp only [Option.some.injEq, absorb_none, id] at hx ⊢
    rw [absorb_some hla, hx]

/-- **C59** for the figure over time: with absorption the samples are multiplied by the factor for
the last time of the figure.  Missing: the factors for the times of the samples. -/
theorem C59_plot_t_partial {a : RtArgs} (hcmd : a.command = "plot-t") (ha : a.absorption = none)
    {la : ℝ} (hla : la ≠ 0) {ds : List Drawing} {leg : Bool}
    (h : rtMain a = .ok (.figure ds leg)) :
    ∃ ds', rtMain { a with absorption := some la } = .ok (.figure ds' leg) ∧
      List.Forall₂ (fun d d' => ∃ ts ys ty l limit,
        d = .curve ts ys ty l limit a.log ∧
        d' = .curve ts (ys.map (damped a.c la limit)) ty l limit a.log ∧
        (∀ t, a.t = some t → limit = t)) ds ds' := by
  refine main_rel h ?_
  intro l ty d hq
  unfold drawOne at hq ⊢
  split at hq
  · simp at hq
  next hl0 =>
  rw [if_neg hl0]
  simp only at hq ⊢
  rw [if_pos hcmd]
  unfold figureT at hq ⊢
  generalize hR : rangeT a.c (1 / l) a.r a.t = R at hq ⊢
  obtain ⟨r, t⟩ := R
  simp only at hq ⊢
  split at hq
  · simp at hq
  next hneg =>
  rw [if_neg hneg]
  rw [bind_ok] at hq
  obtain ⟨v, hv, hq⟩ := hq
  rw [bind_ok] at hq
  obtain ⟨xs, hsl, hq⟩ := hq
  simp only [pure, Except.pure, Except.ok.injEq, ha, absorb_none, List.map_id] at hq
  refine ⟨_, ?_, _, _, _, _, t, hq.symm, rfl, ?_⟩
  · simp only [hv, hsl, bind, Except.bind, pure, Except.pure]
    rw [show absorb (some la) a.c t = damped a.c la t from funext (absorb_some hla a.c t)]
  · intro s hs
    unfold rangeT at hR
    simp only [hs, Option.getD_some, Prod.mk.injEq] at hR
    exact hR.2.symm

/-- **C59** is violated for the figure over time: in the figure for distance 1 which ends at time 2,
the direct wave arrives at time 1 but is damped like a wave at time 2. -/
theorem C59_plot_t_counterexample :
    ∃ (a : RtArgs) (ts : List ℝ) (ys ys' : List (Option ℝ)) (j : ℕ) (t x y : ℝ),
      a.command = "plot-t" ∧ a.absorption = none ∧
      rtMain a = .ok (.figure [.curve ts ys "rt3d" 1 2 false] false) ∧
      rtMain { a with absorption := some 1 } = .ok (.figure [.curve ts ys' "rt3d" 1 2 false] false) ∧
      ts[j]? = some t ∧ ys[j]? = some (some x) ∧ ys'[j]? = some (some y) ∧
      some y ≠ damped a.c 1 t (some x) := by
  let a : RtArgs := { command := "plot-t", c := 1, ls := [1], r := some 1, t := some 2 }
  obtain ⟨ds, leg, h⟩ := C112_drawn a one_pos (by simp [a]) (by decide)
    (.inr (.inr ⟨rfl, by simp [a], by simp [a]⟩))
  have hleg : leg = false := by
    have := (RtFigureLemmas.main_plot h).2.2.1
    simpa [a] using this
  subst hleg
  have h1 := C112_plot_t_partial rfl h (by simp [a])
  obtain ⟨ds', h', h2⟩ := C59_plot_t_partial rfl rfl (one_ne_zero (α := ℝ)) h
  have hreq : requested a = [(1, "rt3d")] := rfl
  rw [hreq] at h1
  cases h1 with
  | @cons _ d _ _ hd hnil =>
    cases hnil
    cases h2 with
    | @cons _ d' _ _ hd' hnil =>
      cases hnil
      obtain ⟨t0, ta, rest, yd, ys, r, t, rfl, k1, k2, -, -, -, k3, -, k4, -, -, -, -, k5⟩ := hd
      obtain ⟨ts, ys0, ty, l, limit, e1, rfl, k6⟩ := hd'
      simp only [Drawing.curve.injEq] at e1
      obtain ⟨rfl, rfl, rfl, rfl, rfl, -⟩ := e1
      have ht : t = 2 := k4 2 rfl
      have hr : r = 1 := k3 1 rfl
      subst ht hr
      have hta : ta = 1 := by
        have : a.c * ta = ta := by simp [a]
        rw [← this, k2]
      subst hta
      have hE : direct .rt3d 1 a.c (1 / 1) = some (rt3dDirect 1 a.c (1 / 1)) := by
        simp [direct]
      have hyd := k5 rfl .rt3d _ rfl hE
      set x := rt3dDirect 1 a.c (1 / 1) / (a.c * (1 - t0)) with hx
      have hx0 : x ≠ 0 := by
        rw [hx]
        refine div_ne_zero ?_ (mul_ne_zero one_ne_zero (by linarith))
        have := Real.pi_pos
        unfold rt3dDirect
        simp only [a]
        positivity
      have hyd' : yd = some x := hyd
      subst hyd'
      refine ⟨a, _, _, _, 1, 1, x, x * Real.exp (-(1 * 2) / 1), rfl, rfl, h, h', rfl, rfl, rfl, ?_⟩
      simp only [damped, Option.map_some, ne_eq, Option.some.injEq, a]
      intro he
      have := mul_left_cancel₀ hx0 he
      rw [Real.exp_eq_exp] at this
      norm_num at this

/-- non-vacuity: figures of all three kinds are drawn without absorption -/
example : ∃ ds', rtMain
    { command := "plot-r", c := 3000, ls := [1000], t := some 5, absorption := some 10 } = .ok (.figure ds' false) ∧ ds'.length = 1 := by
  obtain ⟨ds, leg, h⟩ := C112_drawn { command := "plot-r", c := 3000, ls := [1000], t := some 5 }
    (by norm_num) (by simp) (by decide) (.inr (.inl ⟨rfl, by simp⟩))
  have hm := RtFigureLemmas.main_plot h
  have hleg : leg = false := by simpa using hm.2.2.1
  subst hleg
  obtain ⟨ds', h', h2⟩ := C59_plot_r (la := 10) rfl rfl (by norm_num) h
  exact ⟨ds', h', by rw [← h2.length_eq, ← hm.2.1.length_eq]; rfl⟩

example : ∃ ds', rtMain
    { command := "plot-rt", c := 3000, ls := [1000], absorption := some 10 } = .ok (.figure ds' false) ∧ ds'.length = 1 := by
  obtain ⟨ds, leg, h⟩ := C112_drawn { command := "plot-rt", c := 3000, ls := [1000] }
    (by norm_num) (by simp) (by decide) (.inl ⟨rfl, rfl⟩)
  have hm := RtFigureLemmas.main_plot h
  have hleg : leg = false := by simpa using hm.2.2.1
  subst hleg
  obtain ⟨ds', h', h2⟩ := C59_plot_rt (la := 10) rfl rfl rfl (by norm_num) h
  exact ⟨ds', h', by rw [← h2.length_eq, ← hm.2.1.length_eq]; rfl⟩

end Qopen
