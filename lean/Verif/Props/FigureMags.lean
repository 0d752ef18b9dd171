import Verif.Props.FigureSds

/-!
# C96: figure of magnitudes
-/

namespace Qopen

open Real Source Spec Util Figures

open FigureSites (forall₂_right forall₂_left)

namespace Spec

/-- Catalogue magnitude and moment magnitude of an event which has both. -/
def bothMagnitudes (e : Dict String Val) : Option (Cell × Cell) :=
  match e.get? "Mcat", e.get? "Mw" with
  | some (.cell .none), _ => none
  | _, some (.cell .none) => none
  | some (.cell a), some (.cell b) => some (a, b)
  | _, _ => none

/-- The selected events: all without a selection. -/
def chosen (events : Dict String (Dict String Val)) (only : Option (List String)) :
    Dict String (Dict String Val) :=
  match only with
  | none => events
  | some l => events.filter (fun e => decide (e.1 ∈ l))

/-- A regression which finds the line if all points are on one line (and not all at the same place):
`fit y X` with the rows `(x, 1)` of `X`. -/
def FindsLine (fit : List ℝ → List (ℝ × ℝ) → ℝ × ℝ) : Prop :=
  ∀ (x : List ℝ) (a b : ℝ), (∃ u ∈ x, ∃ v ∈ x, u ≠ v) →
    fit (x.map (fun t => a * t + b)) (x.map (fun t => (t, 1))) = (a, b)

end Spec

theorem foldl_min_spec (l : List ℝ) (a : ℝ) :
    l.foldl min a ∈ a :: l ∧ ∀ y ∈ a :: l, l.foldl min a ≤ y := by
  induction l generalizing a with
  | nil => simp
  | cons b l ih =>
    obtain ⟨h1, h2⟩ := ih (min a b)
    rw [List.foldl_cons]
    constructor
    · rcases List.mem_cons.1 h1 with h1 | h1
      · rcases min_choice a b with h3 | h3 <;> rw [h1, h3] <;> simp
      · simp [h1]
    · intro y hy
      rcases List.mem_cons.1 hy with rfl | hy
      · exact le_trans (h2 (min y b) (by simp)) (min_le_left y b)
      · rcases List.mem_cons.1 hy with rfl | hy
        · exact le_trans (h2 (min a y) (by simp)) (min_le_right a y)
        · exact h2 _ (by simp [hy])

theorem foldl_max_spec (l : List ℝ) (a : ℝ) :
    l.foldl max a ∈ a :: l ∧ ∀ y ∈ a :: l, y ≤ l.foldl max a := by
  induction l generalizing a with
  | nil => simp
  | cons b l ih =>
    obtain ⟨h1, h2⟩ := ih (max a b)
    rw [List.foldl_cons]
    constructor
    · rcases List.mem_cons.1 h1 with h1 | h1
      · rcases max_choice a b with h3 | h3 <;> rw [h1, h3] <;> simp
      · simp [h1]
    · intro y hy
      rcases List.mem_cons.1 hy with rfl | hy
      · exact le_trans (le_max_left y b) (h2 (max y b) (by simp))
      · rcases List.mem_cons.1 hy with rfl | hy
        · exact le_trans (le_max_right a y) (h2 (max a y) (by simp))
        · exact h2 _ (by simp [hy])

/-- Magnitudes are numbers (or missing), not lists. -/
def Spec.PlainMags (e : Dict String Val) : Prop :=
  ∀ k ∈ ["Mcat", "Mw"], ∀ v, e.get? k = some v → ∃ c, v = .cell c

theorem magsOf_spec (e : Dict String Val) (he : Spec.PlainMags e) :
    magsOf e = .ok (Spec.bothMagnitudes e) := by
  unfold magsOf Spec.bothMagnitudes numberOf
  have h1 := he "Mcat" (by simp)
  have h2 := he "Mw" (by simp)
  cases hc : e.get? "Mcat" with
  | none =>
    cases hw : e.get? "Mw" with
    | none => rfl
    | some v => obtain ⟨c, rfl⟩ := h2 v hw; cases c <;> rfl
  | some v =>
    obtain ⟨c, rfl⟩ := h1 v hc
    cases hw : e.get? "Mw" with
    | none => cases c <;> rfl
    | some v =>
      obtain ⟨c', rfl⟩ := h2 v hw
      cases c <;> cases c' <;> simp [bind, Except.bind, pure, Except.pure]

theorem mags_list (sel : Dict String (Dict String Val)) (h : ∀ e ∈ sel, Spec.PlainMags e.2) :
    mapExc (fun e : String × Dict String Val => magsOf e.2) sel =
      .ok (sel.map (fun e => Spec.bothMagnitudes e.2)) := by
  apply mapExc_ok.2
  rw [List.forall₂_map_right_iff, List.forall₂_same]
  intro e he
  exact magsOf_spec e.2 (h e he)

theorem numbers_ok (l : List Cell) (xs : List ℝ) : numbers l = .ok xs ↔ l = xs.map Cell.num := by
  unfold numbers
  rw [mapExc_ok]
  constructor
  · intro h
    induction h with
    | nil => rfl
    | @cons a b l l' h _ ih =>
      cases a <;> simp at h
      subst h
      rw [List.map_cons, ih]
  · rintro rfl
    rw [List.forall₂_map_left_iff, List.forall₂_same]
    intro x _
    rfl

/-- All cases of `plot_mags`. -/
theorem plotMags_spec (fit2 : List ℝ → List (ℝ × ℝ) → ℝ × ℝ) (events : Dict String (Dict String Val))
    (xlim : Option (ℝ × ℝ)) (only : Option (List String))
    (hpl : ∀ e ∈ Spec.chosen events only, Spec.PlainMags e.2) (F : Option MagFig)
    (h : plotMags fit2 events xlim only = .ok F) :
    ((Spec.chosen events only).filterMap (fun e => Spec.bothMagnitudes e.2) = [] ∧ F = none) ∨
    ∃ (G : MagFig) (xs : List ℝ), F = some G ∧
      G.points = (Spec.chosen events only).filterMap (fun e => Spec.bothMagnitudes e.2) ∧
      G.points ≠ [] ∧ G.points.map Prod.fst = xs.map Cell.num ∧
      G.range = xlim.getD (xs.foldl min (xs.headD 0), xs.foldl max (xs.headD 0)) ∧
      ((G.points.length ≤ 3 ∧ G.line = none) ∨
        (3 < G.points.length ∧ ∃ ys : List ℝ, G.points.map Prod.snd = ys.map Cell.num ∧
          G.line = some (fit2 ys (xs.map (fun a => (a, 1)))))) := by
  unfold plotMags at h
  obtain ⟨ms, hms, h⟩ := bind_ok.1 h
  have hms' : ms = (Spec.chosen events only).map (fun e => Spec.bothMagnitudes e.2) := by
    have := mags_list (Spec.chosen events only) hpl
    have h2 : mapExc (fun e : String × Dict String Val => magsOf e.2) (Spec.chosen events only) =
      .ok ms := hms
    rw [this] at h2
    simpa using h2.symm
  have hf : ms.filterMap id = (Spec.chosen events only).filterMap (fun e => Spec.bothMagnitudes e.2) := by
    rw [hms', List.filterMap_map]; rfl
  rw [hf] at h
  generalize hl : (Spec.chosen events only).filterMap (fun e => Spec.bothMagnitudes e.2) = temp at h ⊢
  cases temp with
  | nil =>
    left
    simp only [pure, Except.pure, Except.ok.injEq] at h
    exact ⟨rfl, h.symm⟩
  | cons t ts =>
    right
    simp only at h
    obtain ⟨xs, hx, h⟩ := bind_ok.1 h
    rw [numbers_ok] at hx
    split at h
    · next h3 =>
      obtain ⟨ys, hy, h⟩ := bind_ok.1 h
      rw [numbers_ok] at hy
      simp only [pure, Except.pure, Except.ok.injEq] at h
      exact ⟨_, xs, h.symm, rfl, by simp, hx, rfl, Or.inr ⟨h3, ys, hy, rfl⟩⟩
    · next h3 =>
      simp only [pure, Except.pure, Except.ok.injEq] at h
      exact ⟨_, xs, h.symm, rfl, by simp, hx, rfl, Or.inl ⟨not_lt.1 h3, rfl⟩⟩

/-! ## C96 -/

/-- **C96** (points): the figure shows exactly the selected events which have both magnitudes, each at
(catalogue magnitude, moment magnitude), in the order of the events; there is no figure iff there is
no such event.  Without limits the range is from the smallest to the largest catalogue magnitude. -/
theorem C96_points (fit2 : List ℝ → List (ℝ × ℝ) → ℝ × ℝ) (events : Dict String (Dict String Val))
    (xlim : Option (ℝ × ℝ)) (only : Option (List String))
    (hpl : ∀ e ∈ Spec.chosen events only, Spec.PlainMags e.2) (F : Option MagFig)
    (h : plotMags fit2 events xlim only = .ok F) :
    (F = none ↔ ∀ e ∈ Spec.chosen events only, Spec.bothMagnitudes e.2 = none) ∧
    ∀ G, F = some G →
      G.points = (Spec.chosen events only).filterMap (fun e => Spec.bothMagnitudes e.2) ∧
      (∀ l, xlim = some l → G.range = l) ∧
      (xlim = none → (∃ p ∈ G.points, p.1 = .num G.range.1) ∧ (∃ p ∈ G.points, p.1 = .num G.range.2) ∧
        ∀ p ∈ G.points, ∃ x, p.1 = .num x ∧ G.range.1 ≤ x ∧ x ≤ G.range.2) := by
  rcases plotMags_spec fit2 events xlim only hpl F h with ⟨h1, rfl⟩ | ⟨G, xs, rfl, h1, h2, h3, h4, -⟩
  · refine ⟨⟨fun _ e he => ?_, fun _ => rfl⟩, by simp⟩
    cases hm : Spec.bothMagnitudes e.2 with
    | none => rfl
    | some p =>
      have : p ∈ (Spec.chosen events only).filterMap (fun e => Spec.bothMagnitudes e.2) :=
        List.mem_filterMap.2 ⟨e, he, hm⟩
      rw [h1] at this
      simp at this
  · refine ⟨⟨by simp, fun hh => ?_⟩, ?_⟩
    · exfalso
      apply h2
      rw [h1]
      exact List.filterMap_eq_nil_iff.2 hh
    · rintro _ ⟨⟩
      refine ⟨h1, ?_, ?_⟩
      · rintro l rfl
        rw [h4]; rfl
      · rintro rfl
        have hmem : ∀ x, x ∈ xs → ∃ p ∈ G.points, p.1 = .num x := by
          intro x hx
          have : Cell.num x ∈ G.points.map Prod.fst := by rw [h3]; exact List.mem_map_of_mem hx
          obtain ⟨p, hp, hpx⟩ := List.mem_map.1 this
          exact ⟨p, hp, hpx⟩
        have hmem' : ∀ p ∈ G.points, ∃ x ∈ xs, p.1 = .num x := by
          intro p hp
          have : p.1 ∈ xs.map Cell.num := by rw [← h3]; exact List.mem_map_of_mem hp
          obtain ⟨x, hx, hpx⟩ := List.mem_map.1 this
          exact ⟨x, hx, hpx.symm⟩
        have hne : xs ≠ [] := by
          rintro rfl
          simp at h3
          exact h2 h3
        obtain ⟨x0, xs', rfl⟩ := List.exists_cons_of_ne_nil hne
        simp only [Option.getD_none, List.headD_cons, List.foldl_cons, min_self, max_self] at h4
        obtain ⟨m1, m2⟩ := foldl_min_spec xs' x0
        obtain ⟨n1, n2⟩ := foldl_max_spec xs' x0
        rw [h4]
        refine ⟨hmem _ m1, hmem _ n1, fun p hp => ?_⟩
        obtain ⟨x, hx, hpx⟩ := hmem' p hp
        exact ⟨x, hpx, m2 x hx, n2 x hx⟩

/-- **C96** (line): a regression line is drawn iff there are more than three events, and it is the
regression of the moment magnitude on the catalogue magnitude: if the moment magnitudes of the drawn
events are a linear function of the catalogue magnitudes, the line is this function. -/
theorem C96_line (fit2 : List ℝ → List (ℝ × ℝ) → ℝ × ℝ) (hfit : Spec.FindsLine fit2)
    (events : Dict String (Dict String Val)) (xlim : Option (ℝ × ℝ)) (only : Option (List String))
    (hpl : ∀ e ∈ Spec.chosen events only, Spec.PlainMags e.2) (G : MagFig)
    (h : plotMags fit2 events xlim only = .ok (some G)) :
    (G.line = none ↔ G.points.length ≤ 3) ∧
    ∀ a b, 3 < G.points.length →
      (∀ p ∈ G.points, ∀ x y, p.1 = .num x → p.2 = .num y → y = a * x + b) →
      (∃ p ∈ G.points, ∃ q ∈ G.points, p.1 ≠ q.1) → G.line = some (a, b) := by
  rcases plotMags_spec fit2 events xlim only hpl (some G) h with ⟨-, h1⟩ | ⟨G', xs, hG, -, -, h3, -, h4⟩
  · simp at h1
  · simp only [Option.some.injEq] at hG
    subst hG
    refine ⟨?_, ?_⟩
    · rcases h4 with ⟨h4, h5⟩ | ⟨h4, ys, -, h5⟩
      · simp [h4, h5]
      · rw [h5]; simp; omega
    · intro a b h0 hlin hdiff
      rcases h4 with ⟨h4, -⟩ | ⟨h4, ys, hy, h5⟩
      · omega
      · have hys : ys = xs.map (fun t => a * t + b) := by
          clear h5 h4 h0 hdiff h
          revert xs ys
          generalize G.points = pts at hlin
          revert hlin
          induction pts with
          | nil =>
            intro _ xs h3 ys hy
            simp only [List.map_nil] at h3 hy
            have e1 := List.map_eq_nil_iff.1 h3.symm
            have e2 := List.map_eq_nil_iff.1 hy.symm
            rw [e1, e2]; rfl
          | cons p ps ih =>
            intro hlin xs h3 ys hy
            cases xs with
            | nil => simp at h3
            | cons x xs =>
              cases ys with
              | nil => simp at hy
              | cons y ys =>
                simp only [List.map_cons, List.cons.injEq] at h3 hy
                have hp := hlin p (by simp) x y h3.1 hy.1
                have := ih (fun q hq => hlin q (by simp [hq])) xs h3.2 ys hy.2
                rw [List.map_cons, ← hp, ← this]
        rw [h5, hys, hfit xs a b]
        obtain ⟨p, hp, q, hq, hpq⟩ := hdiff
        have hmem' : ∀ p ∈ G.points, ∃ x ∈ xs, p.1 = .num x := by
          intro p hp
          have : p.1 ∈ xs.map Cell.num := by rw [← h3]; exact List.mem_map_of_mem hp
          obtain ⟨x, hx, hpx⟩ := List.mem_map.1 this
          exact ⟨x, hx, hpx.symm⟩
        obtain ⟨x, hx, e1⟩ := hmem' p hp
        obtain ⟨y, hy', e2⟩ := hmem' q hq
        exact ⟨x, hx, y, hy', fun hxy => hpq (by rw [e1, e2, hxy])⟩

/-- **C96** (second axis): the two functions of the second axis are inverse to each other, and at the
height of an event with a fitted moment the second axis shows the reported moment. -/
theorem C96_second_axis :
    (∀ inverse y, (inverse = true → 0 < y) →
      (secondaryAxis inverse).2 ((secondaryAxis inverse).1 y) = y) ∧
    (∀ inverse y, (inverse = false → 0 < y) →
      (secondaryAxis inverse).1 ((secondaryAxis inverse).2 y) = y) ∧
    ∀ (orc : Oracle) (freq : List ℝ) (ev ev' : EvRes) (v0 rho0 mag : Option ℝ) (m : Method) (o : Opts),
      ev.extra.get? "M0" = none → ev.extra.get? "Mw" = none →
      insertSourceProperties orc freq ev v0 rho0 (some m) (some o) mag = .ok ev' →
      ∀ M0, 0 < M0 → ev'.extra.get? "M0" = some (.cell (.num M0)) →
        ∃ Mw, ev'.extra.get? "Mw" = some (.cell (.num Mw)) ∧ (secondaryAxis false).1 Mw = M0 := by
  refine ⟨?_, ?_, ?_⟩
  · intro i y hy
    cases i
    · exact C60_inverse' y
    · exact C60_inverse y (hy rfl)
  · intro i y hy
    cases i
    · exact C60_inverse y (hy rfl)
    · exact C60_inverse' y
  · intro orc freq ev ev' v0 rho0 mag m o h1 h2 h M0 hM0 hget
    obtain ⟨L, fit, hfit, hk⟩ := insert_get orc freq ev ev' v0 rho0 m o mag h
    rw [hk "M0" (by decide)] at hget
    rw [hk "Mw" (by decide)]
    cases fit with
    | none =>
      simp only [insertFit] at hget
      rw [Dict.get?_set_ne _ _ (by decide), h1] at hget
      simp at hget
    | some r =>
      have hwf := (fitSds_keys orc freq L m o r hfit).1
      have hwf' : (nanToNone r).WF := by
        unfold nanToNone
        split
        · exact Dict.WF_set hwf _ _
        · exact hwf
      have hr : (nanToNone r).get? "M0" = some (.num M0) := by
        simp only [insertFit] at hget
        have hu : (Dict.update (ev.extra.set "sds" (.cells L))
            ((nanToNone r).mapVals Val.cell)).get? "M0" = some (.cell (.num M0)) := by
          split at hget
          · rwa [Dict.get?_set_ne _ _ (by decide)] at hget
          · rwa [Dict.get?_set_ne _ _ (by decide)] at hget
          · exact hget
        rw [Dict.get?_update _ _ (by unfold Dict.WF; rw [Dict.keys_mapVals]; exact hwf'),
          Dict.get?_mapVals] at hu
        cases hn : (nanToNone r).get? "M0" with
        | none =>
          rw [hn] at hu
          simp only [Option.map_none] at hu
          have : (ev.extra.set "sds" (.cells L)).get? "M0" = none := by
            rw [Dict.get?_set_ne _ _ (by decide)]; exact h1
          simp [this] at hu
        | some c =>
          rw [hn] at hu
          simpa using hu
      refine ⟨momentMagnitude M0, ?_, C60_inverse M0 hM0⟩
      simp only [insertFit, hr]
      simp [Dict.get?_set]

/-! ## Example: four events on a line and one without catalogue magnitude -/

namespace MagExample

def evt (a b : ℝ) : Dict String Val := [("Mcat", .cell (.num a)), ("Mw", .cell (.num b))]

def events : Dict String (Dict String Val) :=
  [("a", evt 1 2), ("b", evt 2 4), ("c", [("Mw", .cell (.num 9))]), ("d", evt 3 6), ("e", evt 0 0)]

/-- A regression: the line through the first two points. -/
noncomputable def fit (y : List ℝ) (X : List (ℝ × ℝ)) : ℝ × ℝ :=
  let a := (y.getD 1 0 - y.getD 0 0) / ((X.getD 1 (0, 0)).1 - (X.getD 0 (0, 0)).1)
  (a, y.getD 0 0 - a * (X.getD 0 (0, 0)).1)

theorem plain : ∀ e ∈ Spec.chosen events none, Spec.PlainMags e.2 := by
  intro e he
  simp only [Spec.chosen, events, List.mem_cons, List.not_mem_nil, or_false] at he
  intro k hk v hv
  simp only [List.mem_cons, List.not_mem_nil, or_false] at hk
  rcases he with rfl | rfl | rfl | rfl | rfl <;> rcases hk with rfl | rfl <;>
    simp [evt, Dict.get?_cons] at hv <;> exact ⟨_, hv.symm⟩

example : ∃ G, plotMags fit events none none = .ok (some G) ∧ G.points.length = 4 ∧
    G.line = some (2, 0) ∧ G.range = (0, 3) := by
  simp [plotMags, events, evt, mapExc, magsOf, numberOf, Dict.get?_cons, bind, Except.bind, pure,
    Except.pure, numbers, linearFit, fit]
  norm_num

end MagExample

/-- A regression as assumed in `C96_line` exists: the line through two different points. -/
example : ∃ fit, Spec.FindsLine fit := by
  classical
  refine ⟨fun y X => if h : ∃ ab : ℝ × ℝ, y = X.map (fun t => ab.1 * t.1 + ab.2) then h.choose
    else (0, 0), ?_⟩
  intro x a b ⟨u, hu, v, hv, huv⟩
  have hex : ∃ ab : ℝ × ℝ, x.map (fun t => a * t + b) =
      (x.map (fun t => ((t, 1) : ℝ × ℝ))).map (fun t => ab.1 * t.1 + ab.2) :=
    ⟨(a, b), by simp [Function.comp_def]⟩
  simp only
  rw [dif_pos hex]
  have hc := hex.choose_spec
  generalize hex.choose = ab at hc ⊢
  rw [List.map_map] at hc
  have hall := List.map_inj_left.1 hc
  have e1 := hall u hu
  have e2 := hall v hv
  simp only [Function.comp] at e1 e2
  have h1 : (a - ab.1) * (u - v) = 0 := by linarith
  have h2 : a = ab.1 := by
    rcases mul_eq_zero.1 h1 with h | h
    · linarith
    · exact absurd (sub_eq_zero.1 h) huv
  ext
  · exact h2.symm
  · simp only; rw [h2] at e1; linarith

end Qopen
