import Verif.Model.RtFigure
import Verif.Props.RtArray

/-!
# C112: the figures of `qopen-rt` show the values which are printed by `calc`
-/

set_option linter.unusedSimpArgs false

namespace Qopen
open Rt

namespace Spec

/-- `qopen-rt calc c l -r r -t t` (with absorption length) prints the value `y`. -/
def Prints (c l r t : ℝ) (la : Option ℝ) (type : String) (y : Option ℝ) : Prop :=
  rtMain { command := "calc", c := c, ls := [l], r := some r, t := some t, absorption := la,
           types := [type] } = .ok (.printed [y])

/-- The requested pairs of mean free path and type, in the order of the command line. -/
def requested (a : RtArgs) : List (ℝ × String) :=
  a.ls.flatMap (fun l => a.types.map (fun ty => (l, ty)))

/-- An axis with `n` equally spaced samples from 0 to `x`. -/
def EvenAxis (axis : List ℝ) (n : ℕ) (x : ℝ) : Prop :=
  axis.length = n ∧ axis[0]? = some 0 ∧ axis[n - 1]? = some x ∧
    ∃ d, ∀ (i : ℕ) a b, axis[i]? = some a → axis[i + 1]? = some b → b - a = d

end Spec

open Spec

namespace RtFigureLemmas

theorem prints_of_single {c l r t : ℝ} {la : Option ℝ} {type : String} {y : Option ℝ} (hl : 0 < l)
    (h : single r t c (1 / l) type = .ok (.num y)) : Prints c l r t la type (absorb la c t y) := by
  unfold single at h
  unfold Prints rtMain calcMain calcCmd
  simp only [ne_eq, not_true_eq_false, decide_false, Bool.not_false, Bool.true_and]
  rw [one_div] at h
  simp [mapExc, h, hl.ne', bind, Except.bind, pure, Except.pure]

theorem evenAxis_linspace (x : ℝ) {n : ℕ} (hn : 2 ≤ n) : EvenAxis (linspace x n) n x := by
  unfold linspace
  refine ⟨by simp, ?_, ?_, x / ((n : ℝ) - 1), ?_⟩
  · rw [List.getElem?_map, List.getElem?_range (by omega)]; simp
  · rw [List.getElem?_map, List.getElem?_range (by omega)]
    have h1 : ((n - 1 : ℕ) : ℝ) = (n : ℝ) - 1 := by
      rw [Nat.cast_sub (by omega)]; simp
    have h2 : (n : ℝ) - 1 ≠ 0 := by
      have : (2 : ℝ) ≤ n := by exact_mod_cast hn
      linarith
    simp only [Option.map_some, h1, Option.some.injEq]
    field_simp
  · intro i a b ha hb
    have hi : i + 1 < n := by
      by_contra h
      rw [List.getElem?_map, List.getElem?_eq_none (by simp; omega)] at hb
      simp at hb
    rw [List.getElem?_map, List.getElem?_range (by omega)] at ha hb
    simp only [Option.map_some, Option.some.injEq] at ha hb
    rw [← ha, ← hb]
    push_cast
    ring

theorem spacing_ok {l : List ℝ} (h : 2 ≤ l.length) : ∃ e, spacing l = .ok e := by
  match l, h with
  | x :: y :: l, _ => exact ⟨_, rfl⟩

theorem linspace_sorted {x : ℝ} (hx : 0 ≤ x) (n : ℕ) : (linspace x n).Pairwise (· ≤ ·) := by
  unfold linspace
  rw [List.pairwise_map]
  by_cases hn : n = 0
  · subst hn; simp
  refine List.Pairwise.imp ?_ List.pairwise_lt_range
  intro i j hij
  have : (i : ℝ) ≤ j := by exact_mod_cast hij.le
  refine mul_le_mul_of_nonneg_right this (div_nonneg hx ?_)
  have : (1 : ℝ) ≤ n := by exact_mod_cast (by omega : 1 ≤ n)
  linarith

theorem kindOf_known {type : String} (h : type ∈ greensTypes) : ∃ k, kindOf type = some k := by
  simp only [greensTypes, List.mem_cons, List.not_mem_nil, or_false] at h
  rcases h with rfl | rfl | rfl | rfl | rfl | rfl | rfl | rfl | rfl <;> exact ⟨_, rfl⟩

theorem mapExc_exists {α β : Type} {f : α → Py β} {l : List α} (h : ∀ x ∈ l, ∃ y, f x = .ok y) :
    ∃ ys, mapExc f l = .ok ys := by
  induction l with
  | nil => exact ⟨[], rfl⟩
  | cons x l ih =>
    obtain ⟨y, hy⟩ := h x List.mem_cons_self
    obtain ⟨ys, hys⟩ := ih (fun z hz => h z (List.mem_cons_of_mem _ hz))
    exact ⟨y :: ys, by simp [mapExc, hy, hys, bind, Except.bind, pure, Except.pure]⟩

/-- The mesh of distances and times, row by row. -/
theorem mesh (rs ts : List ℝ) (i j : ℕ) (r t : ℝ) (hr : rs[j]? = some r) (ht : ts[i]? = some t) :
    (ts.flatMap (fun _ => rs))[i * rs.length + j]? = some r ∧
    (ts.flatMap (fun t => rs.map (fun _ => t)))[i * rs.length + j]? = some t := by
  have hj : j < rs.length := by
    rw [List.getElem?_eq_some_iff] at hr; exact hr.1
  induction ts generalizing i with
  | nil => simp at ht
  | cons b ts ih =>
    simp only [List.flatMap_cons]
    cases i with
    | zero =>
      simp only [List.getElem?_cons_zero, Option.some.injEq] at ht
      subst ht
      rw [Nat.zero_mul, Nat.zero_add, List.getElem?_append_left hj,
        List.getElem?_append_left (by simpa using hj), List.getElem?_map, hr]
      exact ⟨rfl, rfl⟩
    | succ i =>
      rw [List.getElem?_cons_succ] at ht
      have h1 : (i + 1) * rs.length + j - rs.length = i * rs.length + j := by
        rw [Nat.succ_mul]; omega
      have h2 : rs.length ≤ (i + 1) * rs.length + j := by rw [Nat.succ_mul]; omega
      rw [List.getElem?_append_right h2, List.getElem?_append_right (by simpa using h2),
        List.length_map, h1]
      exact ih i ht

/-- The drawings of a plot command. -/
theorem main_plot {a : RtArgs} {ds : List Drawing} {leg : Bool}
    (h : rtMain a = .ok (.figure ds leg)) :
    a.command ∈ ["plot-t", "plot-r", "plot-rt"] ∧
    List.Forall₂ (fun q d => drawOne a q.1 q.2 = .ok d) (requested a) ds ∧
    (leg = true ↔ a.types.length > 1 ∨ a.ls.length > 1) ∧
    (a.command = "plot-rt" → a.types.length = 1) := by
  unfold rtMain at h
  split at h
  · simp at h
  next h1 =>
  split at h
  · simp at h
  next h2 =>
  split at h
  · exfalso
    unfold calcMain at h
    split at h
    · rw [bind_ok] at h; obtain ⟨_, _, h⟩ := h; simp [pure, Except.pure] at h
    · split at h
      · simp at h
      · rw [bind_ok] at h; obtain ⟨_, _, h⟩ := h; simp [pure, Except.pure] at h
    · simp at h
  next h3 =>
  rw [bind_ok] at h
  obtain ⟨dss, hd, h⟩ := h
  simp only [pure, Except.pure, Except.ok.injEq, RtOut.figure.injEq] at h
  obtain ⟨rfl, rfl⟩ := h
  refine ⟨?_, ?_, by simp, ?_⟩
  · simp only [List.mem_cons, List.not_mem_nil, or_false, not_not] at h1 h3 ⊢
    tauto
  · rw [mapExc_ok] at hd
    unfold requested
    rw [List.flatMap_def]
    generalize a.ls = ls at hd
    induction hd with
    | nil => simp
    | @cons l ds ls dss h _ ih =>
      rw [mapExc_ok] at h
      simp only [List.map_cons, List.flatten_cons]
      refine List.rel_append ?_ ih
      rw [List.forall₂_map_left_iff]
      exact h
  · intro hc
    by_contra h
    exact h2 ⟨by rw [hc]; simp, h⟩

end RtFigureLemmas

open RtFigureLemmas

/-- **C112**: a plot command draws one curve for each mean free path and each type, in the order of
the command line; a legend is shown exactly if there is more than one curve. -/
theorem C112_curves {a : RtArgs} {ds : List Drawing} {leg : Bool}
    (h : rtMain a = .ok (.figure ds leg)) :
    ds.length = a.ls.length * a.types.length ∧
    List.Forall₂ (fun q d => ∃ ds' leg', rtMain { a with ls := [q.1], types := [q.2] } =
      .ok (.figure ds' leg') ∧ ds' = [d]) (requested a) ds ∧
    (a.ls ≠ [] → a.types ≠ [] → (leg = true ↔ ds.length > 1)) := by
  obtain ⟨h1, h2, h3, h4⟩ := main_plot h
  have hlen : ds.length = a.ls.length * a.types.length := by
    rw [← h2.length_eq]
    unfold requested
    simp [List.length_flatMap]
  refine ⟨hlen, h2.imp ?_, ?_⟩
  · intro q d hq
    refine ⟨[d], false, ?_, rfl⟩
    unfold rtMain
    rw [if_neg, if_neg, if_neg]
    · have : drawOne { a with ls := [q.1], types := [q.2] } q.1 q.2 = .ok d := hq
      simp [mapExc, this, bind, Except.bind, pure, Except.pure]
    · simp only [List.mem_cons, List.not_mem_nil, or_false] at h1 ⊢
      rcases h1 with h1 | h1 | h1 <;> rw [h1] <;> decide
    · simp
    · simp only [List.mem_cons, List.not_mem_nil, or_false] at h1 ⊢
      tauto
  · intro ha hb
    rw [h3, hlen]
    have ha := List.length_pos_iff.2 ha
    have hb := List.length_pos_iff.2 hb
    constructor
    · rintro (h | h) <;> nlinarith
    · intro h
      by_contra hn
      push Not at hn
      have : a.ls.length * a.types.length ≤ 1 * 1 := Nat.mul_le_mul hn.2 hn.1
      omega

/-- **C112**: the figure over distance shows at each distance what `calc` prints for this distance,
the time of the figure and the same absorption; with direct wave apart from the first distance which
is not reached by the wave. -/
theorem C112_plot_r {a : RtArgs} (hcmd : a.command = "plot-r") {ds : List Drawing} {leg : Bool}
    (h : rtMain a = .ok (.figure ds leg)) (hr : ∀ r, a.r = some r → 0 ≤ r)
    (ht : ∀ t, a.t = some t → 0 ≤ t) :
    List.Forall₂ (fun q d => ∃ rs ys limit t, d = .curve rs ys q.2 q.1 limit a.log ∧
      EvenAxis rs 1000 limit ∧ ys.length = rs.length ∧ (∀ r, a.r = some r → limit = r) ∧
      (∀ s, a.t = some s → t = s) ∧ (a.r = none → limit = 1.1 * a.c * t) ∧
      (a.r = none → a.t = none → limit = 10 * q.1) ∧
      ∀ (j : ℕ) x y, rs[j]? = some x → ys[j]? = some y →
        (a.noDirect = false → ¬ directBinR t a.c rs j) →
        Prints a.c q.1 x t a.absorption q.2 y) (requested a) ds := by
  obtain ⟨-, h2, -, -⟩ := main_plot h
  refine h2.imp ?_
  intro q d hq
  unfold drawOne at hq
  split at hq
  · simp at hq
  rw [if_neg (by rw [hcmd]; decide)] at hq
  unfold figureR at hq
  split at hq
  · simp at hq
  next hl0 t limit hrange =>
  rw [bind_ok] at hq
  obtain ⟨v, hv, hq⟩ := hq
  rw [bind_ok] at hq
  obtain ⟨l, hsl, hq⟩ := hq
  simp only [pure, Except.pure, Except.ok.injEq] at hq
  obtain ⟨hc, hg⟩ := G_ok hv
  have hl : 0 < q.1 := by simpa using hg
  have hlim : 0 ≤ limit ∧ (∀ r, a.r = some r → limit = r) ∧ (∀ s, a.t = some s → t = s) ∧
      (a.r = none → limit = 1.1 * a.c * t) ∧ (a.r = none → a.t = none → limit = 10 * q.1) := by
    unfold rangeR at hrange
    split at hrange
    · next h1 h2 =>
      simp only [Prod.mk.injEq, Option.some.injEq] at hrange
      obtain ⟨rfl, rfl⟩ := hrange
      refine ⟨by positivity, by simp [h1], by simp [h2], fun _ => ?_, fun _ _ => ?_⟩
      · field_simp
      · field_simp
    · next s h1 h2 =>
      simp only [Prod.mk.injEq, Option.some.injEq] at hrange
      obtain ⟨rfl, rfl⟩ := hrange
      have := ht _ h2
      refine ⟨by positivity, by simp [h1], by simp [h2], fun _ => rfl, by simp [h2]⟩
    · next r h1 =>
      simp only [Prod.mk.injEq] at hrange
      obtain ⟨h2, rfl⟩ := hrange
      refine ⟨hr _ h1, by simp [h1], by simp [h2], by simp [h1], by simp [h1]⟩
  obtain ⟨l', rfl, hlen, hval⟩ := C51_distances _ _ _ _ (linspace_sorted hlim.1 1000) _ _ _ hv
  simp only [samples, Except.ok.injEq] at hsl
  subst hsl
  refine ⟨_, _, limit, t, by rw [← hq, one_div_one_div], evenAxis_linspace limit (by norm_num),
    by simpa using hlen, hlim.2.1, hlim.2.2.1, hlim.2.2.2.1, hlim.2.2.2.2, ?_⟩
  intro j x y hx hy hd
  obtain ⟨z, hz, hs⟩ := hval j x hx (by simpa using hd)
  rw [List.getElem?_map, hz] at hy
  simp only [Option.map_some, Option.some.injEq] at hy
  subst hy
  exact prints_of_single hl hs

/-- **C112**: the figure over distance and time shows at each point what `calc` prints for this
distance and time and the same absorption, or its logarithm with `--log`.  The axes end at the given
distance and time; by default the time is ten times the travel time, the distance ten mean free paths,
or a little more than the distance the wave has reached at the given time. -/
theorem C112_plot_rt {a : RtArgs} (hcmd : a.command = "plot-rt") {ds : List Drawing} {leg : Bool}
    (h : rtMain a = .ok (.figure ds leg)) :
    List.Forall₂ (fun q d => ∃ rs ts ys rmax tmax, d = .image rs ts ys q.2 ∧
      EvenAxis rs 1000 rmax ∧ EvenAxis ts 1000 tmax ∧ ys.length = ts.length * rs.length ∧
      (∀ r, a.r = some r → rmax = r) ∧ (∀ t, a.t = some t → tmax = t) ∧
      (a.t = none → a.c * tmax = 10 * rmax) ∧ (a.t = none → a.r = none → rmax = 10 * q.1) ∧
      (∀ t, a.t = some t → a.r = none → rmax = 1.1 * (a.c * t)) ∧
      ∀ (i j : ℕ) r t y, rs[j]? = some r → ts[i]? = some t → ys[i * rs.length + j]? = some y →
        ∃ z, Prints a.c q.1 r t a.absorption q.2 z ∧
          (a.log = false → y = z) ∧
          (a.log = true → ∀ x, z = some x → 0 < x → y = some (Real.log x))) (requested a) ds := by
  obtain ⟨-, h2, -, -⟩ := main_plot h
  refine h2.imp ?_
  intro q d hq
  unfold drawOne at hq
  split at hq
  · simp at hq
  rw [if_neg (by rw [hcmd]; decide)] at hq
  rw [if_neg (by rw [hcmd]; decide)] at hq
  unfold figureRt at hq
  simp only at hq
  rw [bind_ok] at hq
  obtain ⟨v, hv, hq⟩ := hq
  rw [bind_ok] at hq
  obtain ⟨l, hsl, hq⟩ := hq
  simp only [pure, Except.pure, Except.ok.injEq] at hq
  obtain ⟨hc, hg⟩ := G_ok hv
  have hl : 0 < q.1 := by simpa using hg
  generalize hR : rangeRt a.c (1 / q.1) a.t a.r = R at hv hq
  obtain ⟨rmax, tmax⟩ := R
  obtain ⟨l', rfl, hlt, hlr, hval⟩ := C51_pairs _ _ _ _ _ _ _ hv
  simp only [samples, Except.ok.injEq] at hsl
  subst hsl
  simp only at hlt hlr hval hq
  refine ⟨linspace rmax 1000, linspace tmax 1000, _, rmax, tmax, hq.symm,
    evenAxis_linspace _ (by norm_num), evenAxis_linspace _ (by norm_num), ?_, ?_, ?_, ?_, ?_, ?_, ?_⟩
  · have : (List.zipWith (fun t x => absorb a.absorption a.c t x)
        ((linspace tmax 1000).flatMap (fun t => (linspace rmax 1000).map (fun _ => t))) l').length =
        (linspace tmax 1000).length * (linspace rmax 1000).length := by
      rw [List.length_zipWith, hlt]
      simp [List.length_flatMap]
    split
    · rw [List.length_map, this]
    · exact this
  · intro r hr
    unfold rangeRt at hR
    simp only [hr, Prod.mk.injEq] at hR
    rw [← hR.1]
    cases a.t <;> rfl
  · intro t ht
    unfold rangeRt at hR
    simp only [ht, Prod.mk.injEq] at hR
    rw [← hR.2]
    rfl
  · intro ht
    unfold rangeRt at hR
    simp only [ht, Prod.mk.injEq] at hR
    rw [← hR.1, ← hR.2]
    cases a.r with
    | none => simp only [Option.getD_none, Option.getD_some]; field_simp
    | some r => simp only [Option.getD_none, Option.getD_some]; field_simp
  · intro ht hr
    unfold rangeRt at hR
    simp only [ht, hr, Prod.mk.injEq] at hR
    rw [← hR.1]
    simp
  · intro t ht hr
    unfold rangeRt at hR
    simp only [ht, hr, Prod.mk.injEq] at hR
    rw [← hR.1]
    simp only [Option.getD_none, Option.getD_some]
    ring
  · intro i j r t y hr ht hy
    have hm := mesh (linspace rmax 1000) (linspace tmax 1000) i j r t hr ht
    obtain ⟨z, hz, hs⟩ := hval _ _ _ hm.1 hm.2
    refine ⟨absorb a.absorption a.c t z, prints_of_single hl hs, ?_, ?_⟩
    · intro hlog
      rw [hlog] at hy
      simp only [Bool.false_eq_true, if_false, List.getElem?_zipWith, hm.2, hz, Option.some.injEq]
        at hy
      exact hy.symm
    · intro hlog x hx h0
      rw [hlog] at hy
      simp only [if_true, List.getElem?_map, List.getElem?_zipWith, hm.2, hz, Option.map_some,
        Option.some.injEq] at hy
      rw [← hy, hx]
      simp [logValue, h0]

namespace RtFigureLemmas

theorem timesT_eq {r t c : ℝ} {n : ℕ} (hr : 0 ≤ r) (hc : 0 < c) :
    ∃ rest : List ℝ, timesT r t c n = (r / c - 0.01 * r / c) :: (r / c) :: rest ∧ rest.length = n ∧
      (∀ x ∈ rest, r / c < x) ∧ (2 ≤ n → 0 < t - r / c → rest[n - 1]? = some t) := by
  refine ⟨(logspace (Real.logb 10 (t - r / c)) n).map (fun x => r / c + x), ?_, ?_, ?_, ?_⟩
  · unfold timesT
    simp only [List.cons_append, List.nil_append, List.map_cons, List.cons.injEq, and_true]
    constructor <;> ring
  · simp [logspace]
  · intro x hx
    simp only [logspace, List.map_map, List.mem_map, Function.comp_apply] at hx
    obtain ⟨i, -, rfl⟩ := hx
    have : (0 : ℝ) < 10 ^ (-3 + (i : ℝ) * ((Real.logb 10 (t - r / c) - -3) / ((n : ℝ) - 1))) :=
      Real.rpow_pos_of_pos (by norm_num) _
    linarith
  · intro hn hpos
    unfold logspace
    rw [List.getElem?_map, List.getElem?_map, List.getElem?_range (by omega)]
    have h1 : ((n - 1 : ℕ) : ℝ) = (n : ℝ) - 1 := by
      rw [Nat.cast_sub (by omega)]; simp
    have h2 : (n : ℝ) - 1 ≠ 0 := by
      have : (2 : ℝ) ≤ n := by exact_mod_cast hn
      linarith
    have h3 : (-3 + ((n : ℝ) - 1) * ((Real.logb 10 (t - r / c) - -3) / ((n : ℝ) - 1))) =
        Real.logb 10 (t - r / c) := by field_simp; ring
    simp only [Option.map_some, h1, h3, Option.some.injEq]
    rw [Real.rpow_logb (by norm_num) (by norm_num) hpos]
    ring

theorem countFront_T {r c x : ℝ} {rest : List ℝ} (hr : 0 < r) (hc : 0 < c) (hx : c * x - r < 0)
    (hrest : ∀ y ∈ rest, r / c < y) : countFront (fun t => c * t - r) (x :: (r / c) :: rest) = 1 := by
  unfold countFront
  have h0 : ¬ (c * (r / c) - r < 0) := by
    rw [mul_div_cancel₀ _ hc.ne']; simp
  have h1 : rest.countP (fun t => decide (c * t - r < 0)) = 0 := by
    rw [List.countP_eq_zero]
    intro y hy
    have := hrest y hy
    rw [div_lt_iff₀ hc] at this
    simp only [decide_eq_true_eq, not_lt]
    linarith
  rw [List.countP_cons_of_pos (by simpa using hx), List.countP_cons_of_neg (by simpa using h0), h1]

end RtFigureLemmas

/-- **C112** for the figure over time, for distances other than zero: it starts with a zero just
before the arrival, ends at the given time and shows at each time after the arrival what `calc` prints
without absorption, times the absorption at the end of the figure; the sample at the arrival holds
the energy of the direct wave, spread over the interval between the first two samples, if it is
requested.  Missing: with absorption the factor belongs to the end of the figure and not to the time
of the sample (`C59_plot_t_counterexample`). -/
theorem C112_plot_t_partial {a : RtArgs} (hcmd : a.command = "plot-t") {ds : List Drawing} {leg : Bool}
    (h : rtMain a = .ok (.figure ds leg)) (hr : ∀ r, a.r = some r → r ≠ 0) :
    List.Forall₂ (fun q d => ∃ (t0 ta : ℝ) (rest : List ℝ) (yd : Option ℝ) (ys : List (Option ℝ))
        (r t : ℝ),
      d = .curve (t0 :: ta :: rest) (absorb a.absorption a.c t (some 0) :: yd :: ys) q.2 q.1 t a.log ∧
      t0 < ta ∧ a.c * ta = r ∧ rest.length = 1000 ∧ rest.getLast? = some t ∧ (∀ x ∈ rest, ta < x) ∧
      (∀ s, a.r = some s → r = s) ∧ (a.r = none → r = 10 * q.1) ∧ (∀ s, a.t = some s → t = s) ∧
      (a.t = none → t = 10 * ta) ∧ ys.length = rest.length ∧
      (∀ (j : ℕ) x y, rest[j]? = some x → ys[j]? = some y →
        ∃ z, Prints a.c q.1 r x none q.2 z ∧ y = absorb a.absorption a.c t z) ∧
      (a.noDirect = true → yd = absorb a.absorption a.c t (some 0)) ∧
      (a.noDirect = false → ∀ k E, kindOf q.2 = some k → direct k ta a.c (1 / q.1) = some E →
        yd = absorb a.absorption a.c t (some (E / (a.c * (ta - t0)))))) (requested a) ds := by
  classical
  obtain ⟨-, h2, -, -⟩ := main_plot h
  refine h2.imp ?_
  intro q d hq
  unfold drawOne at hq
  split at hq
  · simp at hq
  unfold figureT at hq
  simp only at hq
  split at hq
  · simp at hq
  next hl0 hcond =>
  rw [bind_ok] at hq
  obtain ⟨v, hv, hq⟩ := hq
  rw [bind_ok] at hq
  obtain ⟨l, hsl, hq⟩ := hq
  simp only [pure, Except.pure, Except.ok.injEq] at hq
  obtain ⟨hc, hg⟩ := G_ok hv
  have hl : 0 < q.1 := by simpa using hg
  generalize hR : rangeT a.c (1 / q.1) a.r a.t = R at hv hq hcond
  obtain ⟨r, t⟩ := R
  simp only [not_or, not_lt, not_le] at hcond hv hq
  obtain ⟨hr0, hpos⟩ := hcond
  unfold rangeT at hR
  simp only [Prod.mk.injEq] at hR
  obtain ⟨hR1, hR2⟩ := hR
  have hrp : 0 < r := by
    cases har : a.r with
    | none => rw [har] at hR1; rw [← hR1]; simp only [Option.getD_none]; positivity
    | some s =>
      rw [har] at hR1
      simp only [Option.getD_some] at hR1
      have := hr s har
      rw [hR1] at this
      exact lt_of_le_of_ne hr0 (Ne.symm this)
  obtain ⟨rest, hts, hrl, hrest, hlast⟩ := timesT_eq (t := t) (n := 1000) hr0 hc
  rw [hts] at hv hq
  obtain ⟨k, x, y, rest', hk, he, rfl⟩ := timesG_spec hv
  simp only [List.cons.injEq] at he
  obtain ⟨rfl, rfl, rfl⟩ := he
  have hrc : 0 < r / a.c := div_pos hrp hc
  have hfirst : a.c * (r / a.c - 0.01 * r / a.c) - r < 0 := by
    have : a.c * (r / a.c - 0.01 * r / a.c) = r - 0.01 * r := by field_simp
    rw [this]; linarith
  rw [countFront_T hrp hc hfirst hrest] at hsl
  simp only [samples, Except.ok.injEq] at hsl
  have h01 : r / a.c - 0.01 * r / a.c < r / a.c := by
    have : 0 < 0.01 * r / a.c := by positivity
    linarith
  refine ⟨r / a.c - 0.01 * r / a.c, r / a.c, rest,
    absorb a.absorption a.c t (if a.noDirect = false then
      over (direct k (r / a.c) a.c (1 / q.1)) ((r / a.c - (r / a.c - 0.01 * r / a.c)) * a.c)
      else some 0),
    (rest.map (fun x => coda k r x a.c (1 / q.1))).map (absorb a.absorption a.c t), r, t, ?_, h01,
    mul_div_cancel₀ _ hc.ne', hrl, ?_, hrest, ?_, ?_, ?_, ?_, by simp, ?_, ?_, ?_⟩
  · rw [← hq, ← hsl]
    cases hn : a.noDirect with
    | true => simp [List.replicate]
    | false => simp [List.replicate]
  · rw [List.getLast?_eq_getElem?, hrl]
    exact hlast (by norm_num) hpos
  · intro s hs; rw [← hR1, hs]; rfl
  · intro hn; rw [← hR1, hn]; simp
  · intro s hs; rw [← hR2, hs]; rfl
  · intro hn; rw [← hR2, hn, ← hR1]; simp only [Option.getD_none]; ring
  · intro j x y hx hy
    rw [List.getElem?_map, List.getElem?_map, hx] at hy
    simp only [Option.map_some, Option.some.injEq] at hy
    refine ⟨coda k r x a.c (1 / q.1), ?_, hy.symm⟩
    have hs := single_eq (r := r) (t := x) hc hg hk
    rw [if_neg] at hs
    · exact prints_of_single hl hs
    · have := hrest x (List.mem_of_getElem? hx)
      rw [div_lt_iff₀ hc] at this
      unfold beforeArrival; linarith
  · intro hn; rw [hn]; simp
  · intro hn k' E hk' hE
    rw [hk] at hk'
    obtain rfl : k = k' := by simpa using hk'
    rw [if_pos hn, hE, over, if_neg (mul_pos (by linarith) hc).ne', Option.map_some, mul_comm a.c]

/-- **C112**: without distance and time, or with one of them, the figure over distance and time is
always drawn, the figure over distance is drawn if a time or nothing is given, the figure over time
is drawn if it does not end before the arrival. -/
theorem C112_drawn (a : RtArgs) (hc : 0 < a.c) (hl : ∀ l ∈ a.ls, 0 < l)
    (hty : ∀ ty ∈ a.types, ty ∈ greensTypes)
    (h : (a.command = "plot-rt" ∧ a.types.length = 1) ∨
      (a.command = "plot-r" ∧ (a.r = none ∨ a.t ≠ none)) ∨
      (a.command = "plot-t" ∧ (∀ r, a.r = some r → 0 < r) ∧
        ∀ t, a.t = some t → (∀ r, a.r = some r → r < a.c * t) ∧
          (a.r = none → ∀ l ∈ a.ls, 10 * l < a.c * t))) :
    ∃ ds leg, rtMain a = .ok (.figure ds leg) := by
  have hcmd : a.command ∈ ["plot-t", "plot-r", "plot-rt"] := by
    rcases h with h | h | h <;> rw [h.1] <;> decide
  have hone : ∀ l ∈ a.ls, ∀ ty ∈ a.types, ∃ d, drawOne a l ty = .ok d := by
    intro l hlm ty htm
    have hl' := hl l hlm
    have hg : 0 < 1 / l := one_div_pos.2 hl'
    obtain ⟨k, hk⟩ := kindOf_known (hty ty htm)
    unfold drawOne
    rw [if_neg hl'.ne']
    rcases h with ⟨h, -⟩ | ⟨h, h'⟩ | ⟨h, h', h''⟩
    · rw [h, if_neg (by decide), if_neg (by decide)]
      unfold figureRt
      simp only
      rw [G_pos hc hg]
      simp only [pairsG, hk, bound]
      rw [if_neg (by simp [List.length_flatMap])]
      simp [bind, Except.bind, pure, Except.pure, samples]
    · rw [h, if_neg (by decide), if_pos rfl]
      have : ∃ t r, rangeR a.c (1 / l) a.t a.r = (some t, r) := by
        unfold rangeR
        split
        · exact ⟨_, _, rfl⟩
        · exact ⟨_, _, rfl⟩
        · next r hr =>
          rcases h' with h' | h'
          · rw [h'] at hr; simp at hr
          · obtain ⟨t, ht⟩ := Option.ne_none_iff_exists'.1 h'
            exact ⟨t, r, by rw [ht]⟩
      obtain ⟨t, r, hR⟩ := this
      unfold figureR
      rw [hR]
      simp only
      rw [G_pos hc hg]
      have hsp : ∃ e, spacing (linspace r 1000) = .ok e :=
        spacing_ok (by rw [(evenAxis_linspace r (by norm_num)).1]; norm_num)
      obtain ⟨e, he⟩ := hsp
      simp only [distancesG, hk, bound, he]
      simp [bind, Except.bind, pure, Except.pure, samples]
    · rw [h, if_pos rfl]
      unfold figureT
      simp only
      generalize hR : rangeT a.c (1 / l) a.r a.t = R
      obtain ⟨r, t⟩ := R
      unfold rangeT at hR
      simp only [Prod.mk.injEq] at hR
      obtain ⟨hR1, hR2⟩ := hR
      have hr0 : 0 < r := by
        rw [← hR1]
        cases har : a.r with
        | none => simp only [Option.getD_none]; positivity
        | some s => exact h' s har
      have hpos : 0 < t - r / a.c := by
        rw [sub_pos, div_lt_iff₀ hc, mul_comm]
        cases hat : a.t with
        | none =>
          rw [hat] at hR2
          rw [← hR2, hR1]
          simp only [Option.getD_none]
          rw [mul_div_cancel₀ _ hc.ne']
          linarith
        | some s =>
          rw [hat] at hR2
          simp only [Option.getD_some] at hR2
          subst hR2
          cases har : a.r with
          | none =>
            rw [har] at hR1
            simp only [Option.getD_none, div_div_eq_mul_div, div_one] at hR1
            rw [← hR1]
            exact (h'' _ hat).2 har l hlm
          | some s' =>
            rw [har] at hR1
            simp only [Option.getD_some] at hR1
            rw [← hR1]
            exact (h'' _ hat).1 s' har
      simp only
      rw [if_neg (by push Not; exact ⟨hr0.le, hpos⟩), G_pos hc hg]
      obtain ⟨rest, hts, -⟩ := timesT_eq (t := t) (n := 1000) hr0.le hc
      rw [hts]
      simp only [timesG, hk, bound, spacing]
      simp [bind, Except.bind, pure, Except.pure, samples]
  have hrows : ∀ l ∈ a.ls, ∃ ds, mapExc (drawOne a l) a.types = .ok ds :=
    fun l hlm => mapExc_exists (hone l hlm)
  obtain ⟨dss, hd⟩ := mapExc_exists hrows
  refine ⟨dss.flatten, decide (a.types.length > 1 ∨ a.ls.length > 1), ?_⟩
  unfold rtMain
  rw [if_neg, if_neg, if_neg, hd]
  · rfl
  · rcases h with h | h | h <;> rw [h.1] <;> decide
  · rcases h with h | h | h
    · simp [h.2]
    · rw [h.1]; simp
    · rw [h.1]; simp
  · rcases h with h | h | h <;> rw [h.1] <;> decide

/-- non-vacuity: the defaults of the command line with two mean free paths and two types -/
example : ∃ ds leg, rtMain
    { command := "plot-t", c := 3000, ls := [1000, 20000], types := ["rt3d", "diff3d"] } =
      .ok (.figure ds leg) :=
  C112_drawn _ (by norm_num) (by simp) (by decide) (.inr (.inr ⟨rfl, by simp, by simp⟩))

example : ∃ ds leg, rtMain
    { command := "plot-r", c := 3000, ls := [1000], t := some 5, noDirect := true } =
      .ok (.figure ds leg) :=
  C112_drawn _ (by norm_num) (by simp) (by decide) (.inr (.inl ⟨rfl, by simp⟩))

example : ∃ ds leg, rtMain { command := "plot-rt", c := 3000, ls := [1000], log := true } =
    .ok (.figure ds leg) :=
  C112_drawn _ (by norm_num) (by simp) (by decide) (.inl ⟨rfl, rfl⟩)

/-- **C112** is violated: the figure over distance is not drawn if only the distance is given. -/
theorem C112_plot_r_counterexample (c l r : ℝ) (hl : l ≠ 0) :
    rtMain { command := "plot-r", c := c, ls := [l], r := some r } = .error .typeError := by
  unfold rtMain
  simp only [mapExc, drawOne, figureR, rangeR]
  simp [hl, bind, Except.bind]

/-- **C112**: values are printed only if a time, and for `calc` a distance is given; there is one value
for each mean free path. -/
theorem C112_needed_arguments {a : RtArgs} {l : List (Option ℝ)} (h : rtMain a = .ok (.printed l)) :
    a.t.isSome ∧ (a.command = "calc" → a.r.isSome) ∧ l.length = a.ls.length := by
  have hlen : ∀ {d r t}, calcCmd d r t a.c a.ls a.absorption a.types = .ok l → l.length = a.ls.length := by
    intro d r t h
    unfold calcCmd at h
    split at h
    · simp at h
    split at h
    · simp at h
    · exact mapExc_length h
  unfold rtMain at h
  split_ifs at h with h1 h2 h3
  · unfold calcMain at h
    split at h
    · rename_i r t hr ht
      obtain ⟨l', h4, h5⟩ := bind_ok.1 h
      simp only [pure, Except.pure, Except.ok.injEq, RtOut.printed.injEq] at h5
      subst h5
      exact ⟨by rw [ht]; rfl, fun _ => by rw [hr]; rfl, hlen h4⟩
    · rename_i t hr ht
      split_ifs at h with hc
      obtain ⟨l', h4, h5⟩ := bind_ok.1 h
      simp only [pure, Except.pure, Except.ok.injEq, RtOut.printed.injEq] at h5
      subst h5
      exact ⟨by rw [ht]; rfl, fun h => absurd h hc, hlen h4⟩
    · simp at h
  · obtain ⟨ds, -, h5⟩ := bind_ok.1 h
    simp [pure, Except.pure] at h5

/-- The command `calc-direct` needs no distance, `calc` does. -/
example : (∃ y, rtMain { command := "calc-direct", c := 1, ls := [1], t := some 2 } = .ok (.printed [y])) ∧
    ∀ l, rtMain { command := "calc", c := 1, ls := [1], t := some 2 } ≠ .ok (.printed l) := by
  constructor
  · unfold rtMain calcMain calcCmd
    simp [mapExc, kindOf, bind, Except.bind, pure, Except.pure]
  · intro l h
    have := (C112_needed_arguments h).2.1 rfl
    simp at this

end Qopen
