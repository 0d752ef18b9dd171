import Verif.Model.Rt
import Mathlib.Tactic.Linarith
import Mathlib.Tactic.FieldSimp
import Mathlib.Tactic.Positivity
import Mathlib.Data.List.GetD

/-!
# Properties C50, C51, C58, C59: evaluation of Green's functions for numbers and arrays (rt.py)
-/

set_option linter.unusedSimpArgs false

namespace Qopen
open Rt

namespace Spec

/-- The documented types of Green's functions (rt.py:10-18). -/
def greensTypes : List String :=
  ["rt3d", "rt2d", "rt1d", "diff3d", "diff2d", "diff1d", "diffapprox3d", "diffapprox2d",
   "diffapprox1d"]

/-- The direct wave has not yet arrived at distance `r`. -/
def beforeArrival (r t c : ℝ) : Prop := c * t < r

/-- Value of a single evaluation. -/
noncomputable def single (r t c g0 : ℝ) (type : String) : Py GVal := G (.num r) (.num t) c g0 type

/-- The bin which carries the direct wave in an array of times: the first sample at or after the
arrival. -/
def directBin (r c : ℝ) (t : List ℝ) (j : ℕ) : Prop :=
  (∀ x, t[j]? = some x → ¬ beforeArrival r x c) ∧
  ∀ i < j, ∀ x, t[i]? = some x → beforeArrival r x c

/-- The bin which carries the direct wave in an array of distances: the first sample which is not
yet reached by the wave. -/
def directBinR (t c : ℝ) (r : List ℝ) (j : ℕ) : Prop :=
  (∀ x, r[j]? = some x → beforeArrival x t c) ∧
  ∀ i < j, ∀ x, r[i]? = some x → ¬ beforeArrival x t c

end Spec

open Spec

theorem lt_countP {p : ℝ → Bool} {l : List ℝ} (h : l.Pairwise (fun a b => p b = true → p a = true))
    (j : ℕ) (x : ℝ) (hx : l[j]? = some x) : p x = true ↔ j < l.countP p := by
  induction l generalizing j with
  | nil => simp at hx
  | cons a l ih =>
    rw [List.pairwise_cons] at h
    cases j with
    | zero =>
      simp only [List.getElem?_cons_zero, Option.some.injEq] at hx
      subst hx
      constructor
      · intro hp; rw [List.countP_cons_of_pos hp]; omega
      · intro hc
        by_contra hp
        rw [List.countP_cons_of_neg hp, List.countP_pos_iff] at hc
        obtain ⟨y, hy, hpy⟩ := hc
        exact hp (h.1 y hy hpy)
    | succ j =>
      simp only [List.getElem?_cons_succ] at hx
      have := ih h.2 j hx
      by_cases hp : p a = true
      · rw [List.countP_cons_of_pos hp, this]; omega
      · have hm : x ∈ l := List.mem_of_getElem? hx
        have h0 : l.countP p = 0 := by
          rw [List.countP_eq_zero]; intro y hy hpy; exact hp (h.1 y hy hpy)
        rw [List.countP_cons_of_neg hp, h0]
        constructor
        · intro hpx; exact absurd (h.1 x hm hpx) hp
        · intro h; omega

theorem ge_countP {p : ℝ → Bool} {l : List ℝ} (h : l.Pairwise (fun a b => p a = true → p b = true))
    (j : ℕ) (x : ℝ) (hx : l[j]? = some x) : p x = true ↔ l.length - l.countP p ≤ j := by
  have h' := lt_countP (p := fun x => !p x) (l := l) (h.imp (fun {a b} hab hb => by
    cases ha : p a with
    | false => simp
    | true => simp [hab ha] at hb)) j x hx
  have e : l.countP (fun x => !p x) = l.length - l.countP p := by
    have := List.length_eq_countP_add_countP p (l := l)
    have e2 : l.countP (fun x => !p x) = l.countP (fun a => decide (¬ p a = true)) :=
      List.countP_congr (fun a _ => by simp)
    omega
  rw [e] at h'
  constructor
  · intro hp
    by_contra hc
    have := h'.2 (by omega)
    simp [hp] at this
  · intro hj
    by_contra hp
    have := h'.1 (by simpa using hp)
    omega

theorem front_times {r c : ℝ} (hc : 0 < c) {t : List ℝ} (ht : t.Pairwise (· ≤ ·)) (j : ℕ) (x : ℝ)
    (hx : t[j]? = some x) : beforeArrival r x c ↔ j < countFront (fun t => c * t - r) t := by
  unfold countFront beforeArrival
  rw [← lt_countP (ht.imp (fun {a b} hab hb => by
    simp only [decide_eq_true_eq] at hb ⊢; nlinarith)) j x hx]
  simp

theorem front_distances {t c : ℝ} {r : List ℝ} (hr : r.Pairwise (· ≤ ·)) (j : ℕ)
    (x : ℝ) (hx : r[j]? = some x) :
    beforeArrival x t c ↔ r.length - countFront (fun r => c * t - r) r ≤ j := by
  unfold countFront beforeArrival
  rw [← ge_countP (hr.imp (fun {a b} hab hb => by
    simp only [decide_eq_true_eq] at hb ⊢; linarith)) j x hx]
  simp

theorem scalar_ite {r t c : ℝ} (hc : 0 < c) : t - r / c < 0 ↔ beforeArrival r t c := by
  unfold beforeArrival
  rw [sub_neg, lt_div_iff₀ hc, mul_comm]

theorem G_ok {r t : Arg} {c g0 : ℝ} {type : String} {d : Bool} {v : GVal}
    (h : G r t c g0 type d = .ok v) : 0 < c ∧ 0 < g0 := by
  unfold G at h
  split at h
  · simp at h
  · next hn => push Not at hn; exact hn

theorem G_pos {r t : Arg} {c g0 : ℝ} (hc : 0 < c) (hg : 0 < g0) (type : String) (d : Bool) :
    G r t c g0 type d =
    (match r, t with
    | .num r, .num t => do
      let x ← scalarG (kindOf type) r t c g0
      return .num x
    | .arr r, .arr t => do
      let l ← pairsG (kindOf type) r t c g0 d
      return .arr l
    | .num r, .arr t => do
      let l ← timesG (kindOf type) r t c g0 d
      return .arr l
    | .arr r, .num t => do
      let l ← distancesG (kindOf type) r t c g0 d
      return .arr l) := by
  unfold G
  rw [if_neg (by push Not; exact ⟨hc, hg⟩)]
  cases r <;> cases t <;> rfl

/-- A value is returned for an array of times. -/
theorem timesG_spec {r c g0 : ℝ} {t : List ℝ} {type : String} {d : Bool} {v : GVal}
    (h : G (.num r) (.arr t) c g0 type d = .ok v) :
    ∃ k x y rest, kindOf type = some k ∧ t = x :: y :: rest ∧
      v = .arr (
        let i := countFront (fun t => c * t - r) t
        let G := List.replicate (min (i + 1) t.length) (some 0) ++
          (t.drop (i + 1)).map (fun t => coda k r t c g0)
        if d = true ∧ 0 < i ∧ i < t.length then
          G.set i (over (direct k (r / c) c g0) ((y - x) * c)) else G) := by
  obtain ⟨hc, hg⟩ := G_ok h
  rw [G_pos hc hg] at h
  simp only [timesG] at h
  cases t with
  | nil => simp [spacing, bind, Except.bind] at h
  | cons x t =>
    cases t with
    | nil => simp [spacing, bind, Except.bind] at h
    | cons y rest =>
      cases hk : kindOf type with
      | none => simp [spacing, bind, Except.bind, hk, bound] at h
      | some k =>
        refine ⟨k, x, y, rest, rfl, rfl, ?_⟩
        simp only [spacing, bind, Except.bind, hk, bound, pure, Except.pure, Except.ok.injEq] at h
        exact h.symm

/-- A value is returned for an array of distances. -/
theorem distancesG_spec {t c g0 : ℝ} {r : List ℝ} {type : String} {d : Bool} {v : GVal}
    (h : G (.arr r) (.num t) c g0 type d = .ok v) :
    ∃ k x y rest, kindOf type = some k ∧ r = x :: y :: rest ∧
      v = .arr (
        let i := r.length - countFront (fun r => c * t - r) r
        let G := (r.take i).map (fun r => coda k r t c g0) ++
          List.replicate (r.length - i) (some 0)
        if d = true ∧ i < r.length then
          G.set i (over (direct k t c g0) (y - x)) else G) := by
  obtain ⟨hc, hg⟩ := G_ok h
  rw [G_pos hc hg] at h
  simp only [distancesG] at h
  cases r with
  | nil => simp [spacing, bind, Except.bind] at h
  | cons x t =>
    cases t with
    | nil => simp [spacing, bind, Except.bind] at h
    | cons y rest =>
      cases hk : kindOf type with
      | none => simp [spacing, bind, Except.bind, hk, bound] at h
      | some k =>
        refine ⟨k, x, y, rest, rfl, rfl, ?_⟩
        simp only [spacing, bind, Except.bind, hk, bound, pure, Except.pure, Except.ok.injEq] at h
        exact h.symm

/-- Samples of the array without the direct wave. -/
theorem getElem?_timesArr (k : Kind) (r c g0 : ℝ) (t : List ℝ) (i j : ℕ) (x : ℝ)
    (hx : t[j]? = some x) :
    (List.replicate (min (i + 1) t.length) (some 0) ++
          (t.drop (i + 1)).map (fun t => coda k r t c g0))[j]? =
      some (if j ≤ i then some 0 else coda k r x c g0) := by
  have hj : j < t.length := by
    rw [List.getElem?_eq_some_iff] at hx; exact hx.1
  by_cases hji : j ≤ i
  · rw [List.getElem?_append_left (by simp; omega), List.getElem?_replicate, if_pos (by omega),
      if_pos hji]
  · rw [List.getElem?_append_right (by simp; omega), if_neg hji]
    simp only [List.length_replicate, List.getElem?_map, List.getElem?_drop]
    have : i + 1 + (j - min (i + 1) t.length) = j := by omega
    rw [this, hx]; rfl

/-- Samples of the array without the direct wave. -/
theorem getElem?_distancesArr (k : Kind) (t c g0 : ℝ) (r : List ℝ) (i j : ℕ) (x : ℝ)
    (hi : i ≤ r.length) (hx : r[j]? = some x) :
    ((r.take i).map (fun r => coda k r t c g0) ++ List.replicate (r.length - i) (some 0))[j]? =
      some (if j < i then coda k x t c g0 else some 0) := by
  have hj : j < r.length := by
    rw [List.getElem?_eq_some_iff] at hx; exact hx.1
  by_cases hji : j < i
  · rw [List.getElem?_append_left (by simp; omega), if_pos hji, List.getElem?_map,
      List.getElem?_take_of_lt hji, hx]; rfl
  · rw [List.getElem?_append_right (by simp; omega), if_neg hji, List.getElem?_replicate,
      if_pos (by simp; omega)]

/-! ## C50 -/

/-- **C50**: for numbers the value before the arrival is zero, whatever the type is. -/
theorem C50_single (r t c g0 : ℝ) (type : String) (d : Bool) (hc : 0 < c) (hg : 0 < g0)
    (h : beforeArrival r t c) : G (.num r) (.num t) c g0 type d = .ok (.num (some 0)) := by
  rw [G_pos hc hg]
  simp only [scalarG, if_pos ((scalar_ite hc).2 h)]
  rfl

/-- non-vacuity: 1 km distance, 3 km/s, 0.3 s -/
example : beforeArrival 1000 0.3 3000 := by unfold beforeArrival; norm_num

/-- **C50**: for a sorted array of times all samples before the arrival are zero, with and without
direct wave. -/
theorem C50_times (r c g0 : ℝ) (t : List ℝ) (ht : t.Pairwise (· ≤ ·)) (type : String) (d : Bool)
    (v : GVal) (h : G (.num r) (.arr t) c g0 type d = .ok v) :
    ∃ l : List (Option ℝ), v = .arr l ∧ l.length = t.length ∧
      ∀ (j : ℕ) (x : ℝ), t[j]? = some x → beforeArrival r x c → l[j]? = some (some 0) := by
  obtain ⟨hc, hg⟩ := G_ok h
  obtain ⟨k, a, b, rest, -, he, rfl⟩ := timesG_spec h
  refine ⟨_, rfl, ?_, ?_⟩
  · simp only
    split <;> simp <;> omega
  · intro j x hx hb
    have hj := (front_times hc ht j x hx).1 hb
    simp only
    have hG := getElem?_timesArr k r c g0 t (countFront (fun t => c * t - r) t) j x hx
    rw [if_pos hj.le] at hG
    split
    · rw [List.getElem?_set_ne (by omega), hG]
    · exact hG

/-- **C50**: for arrays of distances and times all samples before the arrival are zero. -/
theorem C50_pairs (c g0 : ℝ) (r t : List ℝ) (type : String) (d : Bool)
    (v : GVal) (h : G (.arr r) (.arr t) c g0 type d = .ok v) :
    ∃ l : List (Option ℝ), v = .arr l ∧ l.length = t.length ∧ l.length = r.length ∧
      ∀ (j : ℕ) (x y : ℝ), r[j]? = some x → t[j]? = some y → beforeArrival x y c →
        l[j]? = some (some 0) := by
  obtain ⟨hc, hg⟩ := G_ok h
  rw [G_pos hc hg] at h
  simp only [pairsG, ne_eq] at h
  by_cases hl : t.length = r.length
  · rw [if_neg (not_not.2 hl)] at h
    cases d with
    | true => simp [bind, Except.bind] at h
    | false =>
      cases hk : kindOf type with
      | none => simp [bind, Except.bind, hk, bound] at h
      | some k =>
        simp only [bind, Except.bind, hk, bound, pure, Except.pure, Except.ok.injEq,
          Bool.false_eq_true, if_false] at h
        refine ⟨_, h.symm, by simp [hl], by simp [hl], ?_⟩
        intro j x y hx hy hb
        rw [List.getElem?_zipWith, hx, hy]
        unfold beforeArrival at hb
        simp only [Option.some.injEq]
        rw [if_neg (by linarith)]
  · rw [if_pos hl] at h
    simp [bind, Except.bind] at h

/-- **C50** for a sorted array of distances: all samples which are not reached by the wave are zero
apart from the first one, if the direct wave is included.  Missing: that sample, which gets the
energy of the direct wave although the wave has not arrived there. -/
theorem C50_distances_partial (t c g0 : ℝ) (r : List ℝ) (hr : r.Pairwise (· ≤ ·)) (type : String)
    (d : Bool) (v : GVal) (h : G (.arr r) (.num t) c g0 type d = .ok v) :
    ∃ l : List (Option ℝ), v = .arr l ∧ l.length = r.length ∧
      ∀ (j : ℕ) (x : ℝ), r[j]? = some x → beforeArrival x t c →
        (d = true → ¬ directBinR t c r j) → l[j]? = some (some 0) := by
  obtain ⟨hc, hg⟩ := G_ok h
  obtain ⟨k, a, b, rest, -, he, rfl⟩ := distancesG_spec h
  have hn : countFront (fun r => c * t - r) r ≤ r.length := List.countP_le_length
  refine ⟨_, rfl, ?_, ?_⟩
  · simp only
    split <;> simp <;> omega
  · intro j x hx hb hd
    have hj := (front_distances hr j x hx).1 hb
    simp only
    have hG := getElem?_distancesArr k t c g0 r (r.length - countFront (fun r => c * t - r) r) j x
      (by omega) hx
    rw [if_neg (by omega)] at hG
    split
    · next hcond =>
      rw [List.getElem?_set_ne, hG]
      intro hij
      apply hd hcond.1
      subst hij
      exact ⟨fun y hy => (front_distances hr _ y hy).2 le_rfl, fun i hi y hy hbe =>
        absurd ((front_distances hr _ y hy).1 hbe) (by omega)⟩
    · exact hG

/-- **C50** is violated for arrays of distances with direct wave: the sample at 2 m has a positive
energy at a time when the wave has covered only 1 m. -/
theorem C50_distances_counterexample :
    ∃ x, G (.arr [0, 2]) (.num 1) 1 1 "rt3d" = .ok (.arr [coda .rt3d 0 1 1 1, some x]) ∧
      x ≠ 0 ∧ beforeArrival 2 1 1 := by
  refine ⟨rt3dDirect 1 1 1 / (2 - 0), ?_, ?_, ?_⟩
  · rw [G_pos one_pos one_pos]
    have h : countFront (fun r => 1 * 1 - r) [0, 2] = 1 := by
      unfold countFront
      norm_num [List.countP_cons]
    simp only [distancesG, spacing, bind, Except.bind, pure, Except.pure, h]
    simp [kindOf, bound, over, direct]
  · unfold rt3dDirect
    have := Real.pi_pos
    simp only; positivity
  · unfold beforeArrival; norm_num

/-! ## C51 -/

theorem single_eq {r t c g0 : ℝ} {type : String} {k : Kind} (hc : 0 < c) (hg : 0 < g0)
    (hk : kindOf type = some k) :
    single r t c g0 type = .ok (.num (open Classical in
      if beforeArrival r t c then some 0 else coda k r t c g0)) := by
  classical
  unfold single
  rw [G_pos hc hg]
  simp only [scalarG, hk, bound]
  by_cases h : beforeArrival r t c
  · rw [if_pos ((scalar_ite hc).2 h), if_pos h]; rfl
  · rw [if_neg (fun h' => h ((scalar_ite hc).1 h')), if_neg h]; rfl

/-- **C51** for a sorted array of times: each sample is the value of the single evaluation apart
from the first sample at or after the arrival.  Missing: without direct wave, or if this is the
first sample of the array, the sample carries neither the direct wave nor the coda. -/
theorem C51_times_partial (r c g0 : ℝ) (t : List ℝ) (ht : t.Pairwise (· ≤ ·)) (type : String)
    (d : Bool) (v : GVal) (h : G (.num r) (.arr t) c g0 type d = .ok v) :
    ∃ l : List (Option ℝ), v = .arr l ∧ l.length = t.length ∧
      ∀ (j : ℕ) (x : ℝ), t[j]? = some x → ¬ directBin r c t j →
        ∃ y, l[j]? = some y ∧ single r x c g0 type = .ok (.num y) := by
  classical
  obtain ⟨hc, hg⟩ := G_ok h
  obtain ⟨k, a, b, rest, hk, he, rfl⟩ := timesG_spec h
  refine ⟨_, rfl, ?_, ?_⟩
  · simp only
    split <;> simp <;> omega
  · intro j x hx hb
    have hj := front_times (r := r) hc ht j x hx
    have hne : j ≠ countFront (fun t => c * t - r) t := by
      intro hje
      apply hb
      subst hje
      exact ⟨fun y hy hbe => absurd ((front_times hc ht _ y hy).1 hbe) (by omega),
        fun i hi y hy => (front_times hc ht _ y hy).2 hi⟩
    have hG := getElem?_timesArr k r c g0 t (countFront (fun t => c * t - r) t) j x hx
    refine ⟨_, ?_, single_eq hc hg hk⟩
    simp only
    have e : (if j ≤ countFront (fun t => c * t - r) t then some 0 else coda k r x c g0) =
        if beforeArrival r x c then some 0 else coda k r x c g0 := by
      by_cases hbe : beforeArrival r x c
      · rw [if_pos (hj.1 hbe).le, if_pos hbe]
      · rw [if_neg hbe, if_neg]
        intro hle
        exact hbe (hj.2 (lt_of_le_of_ne hle hne))
    rw [e] at hG
    split
    · rw [List.getElem?_set_ne (by omega), hG]
    · exact hG

/-- **C51**: the bin of the direct wave in an array of times holds the energy of the direct wave,
spread over one sampling interval, if the array starts before the arrival. -/
theorem C51_direct_bin (r c g0 : ℝ) (t : List ℝ) (ht : t.Pairwise (· ≤ ·)) (type : String) (k : Kind)
    (hk : kindOf type = some k) (v : GVal) (h : G (.num r) (.arr t) c g0 type = .ok v)
    (j : ℕ) (hj : j < t.length) (hj0 : 0 < j) (hb : directBin r c t j) (t0 t1 E : ℝ)
    (h0 : t[0]? = some t0) (h1 : t[1]? = some t1) (hlt : t0 < t1)
    (hE : direct k (r / c) c g0 = some E) :
    ∃ l : List (Option ℝ), v = .arr l ∧ l[j]? = some (some (E / (c * (t1 - t0)))) := by
  obtain ⟨hc, hg⟩ := G_ok h
  obtain ⟨k', a, b, rest, hk', he, rfl⟩ := timesG_spec h
  rw [hk] at hk'
  obtain rfl : k = k' := by simpa using hk'
  have hx : t[j]? = some t[j] := List.getElem?_eq_getElem hj
  have hji : j = countFront (fun t => c * t - r) t := by
    have h1 := hb.1 _ hx
    rw [front_times hc ht j _ hx] at h1
    by_contra hne
    have hlt : countFront (fun t => c * t - r) t < j := by omega
    have hy : t[countFront (fun t => c * t - r) t]? =
      some (t[countFront (fun t => c * t - r) t]'(by omega)) := List.getElem?_eq_getElem _
    have := hb.2 _ hlt _ hy
    rw [front_times hc ht _ _ hy] at this
    omega
  refine ⟨_, rfl, ?_⟩
  simp only [← hji]
  rw [if_pos ⟨trivial, hj0, hj⟩, List.getElem?_set_self (by simp; omega), hE]
  have e0 : t0 = a := by rw [he] at h0; simpa using h0.symm
  have e1 : t1 = b := by rw [he] at h1; simpa using h1.symm
  subst e0 e1
  have hne : (t1 - t0) * c ≠ 0 := mul_ne_zero (by linarith) hc.ne'
  rw [mul_comm c, over, if_neg hne, Option.map_some]

/-- non-vacuity: arrival between the first two samples -/
example : directBin 1 1 [0.5, 1.5, 2.5] 1 ∧ direct .rt3d (1 / 1) 1 1 = some (rt3dDirect (1 / 1) 1 1) := by
  refine ⟨⟨?_, ?_⟩, by simp [direct]⟩
  · intro x hx; simp at hx; subst hx; unfold beforeArrival; norm_num
  · intro i hi x hx
    obtain rfl : i = 0 := by omega
    simp at hx; subst hx; unfold beforeArrival; norm_num

/-- **C51** is violated for an array which starts after the arrival: the first sample is zero, the
single evaluation is not. -/
theorem C51_first_sample_counterexample :
    (∃ y, G (.num 1) (.arr [2, 3]) 1 1 "diff3d" = .ok (.arr [some 0, y])) ∧
    ∃ x, single 1 2 1 1 "diff3d" = .ok (.num (some x)) ∧ x ≠ 0 := by
  classical
  constructor
  · refine ⟨coda (.diff 3) 1 3 1 1, ?_⟩
    rw [G_pos one_pos one_pos]
    have h : countFront (fun t => 1 * t - 1) [2, 3] = 0 := by
      unfold countFront
      norm_num [List.countP_cons]
    simp only [timesG, spacing, bind, Except.bind, pure, Except.pure, h]
    simp [kindOf, bound]
  · have hk : kindOf "diff3d" = some (.diff 3) := by simp [kindOf]
    refine ⟨diff 1 2 1 1 3, ?_, ?_⟩
    · rw [single_eq one_pos one_pos hk, if_neg (by unfold beforeArrival; norm_num)]
      simp [coda]
    · unfold diff
      have := Real.pi_pos
      simp only; positivity

/-- **C51** is violated without direct wave: the first sample after the arrival is zero. -/
theorem C51_no_direct_counterexample :
    (∃ y, G (.num 1) (.arr [0, 2, 3]) 1 1 "diff3d" false = .ok (.arr [some 0, some 0, y])) ∧
    ∃ x, single 1 2 1 1 "diff3d" = .ok (.num (some x)) ∧ x ≠ 0 := by
  refine ⟨?_, C51_first_sample_counterexample.2⟩
  refine ⟨coda (.diff 3) 1 3 1 1, ?_⟩
  rw [G_pos one_pos one_pos]
  have h : countFront (fun t => 1 * t - 1) [0, 2, 3] = 1 := by
    unfold countFront
    norm_num [List.countP_cons]
  simp only [timesG, spacing, bind, Except.bind, pure, Except.pure, h]
  simp [kindOf, bound, List.replicate]

/-- **C51** for a sorted array of distances: each sample is the value of the single evaluation; with
direct wave apart from the bin which carries it. -/
theorem C51_distances (t c g0 : ℝ) (r : List ℝ) (hr : r.Pairwise (· ≤ ·)) (type : String)
    (d : Bool) (v : GVal) (h : G (.arr r) (.num t) c g0 type d = .ok v) :
    ∃ l : List (Option ℝ), v = .arr l ∧ l.length = r.length ∧
      ∀ (j : ℕ) (x : ℝ), r[j]? = some x → (d = true → ¬ directBinR t c r j) →
        ∃ y, l[j]? = some y ∧ single x t c g0 type = .ok (.num y) := by
  classical
  obtain ⟨hc, hg⟩ := G_ok h
  obtain ⟨k, a, b, rest, hk, he, rfl⟩ := distancesG_spec h
  have hn : countFront (fun r => c * t - r) r ≤ r.length := List.countP_le_length
  refine ⟨_, rfl, ?_, ?_⟩
  · simp only
    split <;> simp <;> omega
  · intro j x hx hd
    have hj := front_distances (t := t) (c := c) hr j x hx
    have hG := getElem?_distancesArr k t c g0 r (r.length - countFront (fun r => c * t - r) r) j x
      (by omega) hx
    refine ⟨_, ?_, single_eq hc hg hk⟩
    have e : (if j < r.length - countFront (fun r => c * t - r) r then coda k x t c g0 else some 0) =
        if beforeArrival x t c then some 0 else coda k x t c g0 := by
      by_cases hbe : beforeArrival x t c
      · rw [if_neg (by have := hj.1 hbe; omega), if_pos hbe]
      · rw [if_neg hbe, if_pos]
        by_contra hc'
        exact hbe (hj.2 (by omega))
    rw [e] at hG
    simp only
    split
    · next hcond =>
      rw [List.getElem?_set_ne, hG]
      intro hij
      apply hd hcond.1
      subst hij
      exact ⟨fun y hy => (front_distances hr _ y hy).2 le_rfl, fun i hi y hy hbe =>
        absurd ((front_distances hr _ y hy).1 hbe) (by omega)⟩
    · exact hG

/-- **C51**: arrays of distances and times are evaluated sample by sample. -/
theorem C51_pairs (c g0 : ℝ) (r t : List ℝ) (type : String) (d : Bool)
    (v : GVal) (h : G (.arr r) (.arr t) c g0 type d = .ok v) :
    ∃ l : List (Option ℝ), v = .arr l ∧ l.length = t.length ∧ l.length = r.length ∧
      ∀ (j : ℕ) (x y : ℝ), r[j]? = some x → t[j]? = some y →
        ∃ z, l[j]? = some z ∧ single x y c g0 type = .ok (.num z) := by
  classical
  obtain ⟨hc, hg⟩ := G_ok h
  rw [G_pos hc hg] at h
  simp only [pairsG, ne_eq] at h
  by_cases hl : t.length = r.length
  · rw [if_neg (not_not.2 hl)] at h
    cases d with
    | true => simp [bind, Except.bind] at h
    | false =>
      cases hk : kindOf type with
      | none => simp [bind, Except.bind, hk, bound] at h
      | some k =>
        simp only [bind, Except.bind, hk, bound, pure, Except.pure, Except.ok.injEq,
          Bool.false_eq_true, if_false] at h
        refine ⟨_, h.symm, by simp [hl], by simp [hl], ?_⟩
        intro j x y hx hy
        refine ⟨_, ?_, single_eq hc hg hk⟩
        rw [List.getElem?_zipWith, hx, hy]
        simp only [Option.some.injEq]
        by_cases hb : beforeArrival x y c
        · rw [if_pos hb, if_neg (by unfold beforeArrival at hb; linarith)]
        · rw [if_neg hb, if_pos (by unfold beforeArrival at hb; linarith)]
  · rw [if_pos hl] at h
    simp [bind, Except.bind] at h

/-- non-vacuity of C50 and C51: sorted arrays with at least two samples and a known type give a
result -/
example : (∃ v, G (.num 1) (.arr [0, 2, 3]) 1 1 "rt2d" = .ok v) ∧
    (∃ v, G (.arr [0, 2, 3]) (.num 1) 1 1 "rt1d" = .ok v) ∧
    (∃ v, G (.arr [0, 2, 3]) (.arr [1, 1, 4]) 1 1 "diffapprox2d" false = .ok v) := by
  refine ⟨?_, ?_, ?_⟩ <;> rw [G_pos one_pos one_pos]
  · exact ⟨_, by simp only [timesG, kindOf]; rfl⟩
  · exact ⟨_, by simp only [distancesG, kindOf]; rfl⟩
  · exact ⟨_, by simp only [pairsG, kindOf]; rfl⟩

/-! ## C58 -/

/-- **C58**: a type is known exactly if it is one of the documented types. -/
theorem C58_known_types (type : String) : (kindOf type).isSome ↔ type ∈ greensTypes := by
  unfold kindOf greensTypes
  constructor
  · intro h
    repeat' split at h
    all_goals first | (simp at h; done) | (subst_vars; simp; done)
  · intro h
    simp only [List.mem_cons, List.not_mem_nil, or_false] at h
    rcases h with h | h | h | h | h | h | h | h | h <;> subst h <;> simp

/-- **C58**: an unknown type raises for all arrays and for numbers at or after the arrival.
Missing: numbers before the arrival. -/
theorem C58_rejects_partial (r t : Arg) (c g0 : ℝ) (type : String) (d : Bool)
    (hty : type ∉ greensTypes)
    (hnum : ∀ x y, r = .num x → t = .num y → ¬ beforeArrival x y c) :
    ∃ e, G r t c g0 type d = .error e := by
  have hk : kindOf type = none := by
    cases hk : kindOf type with
    | none => rfl
    | some k => exact absurd ((C58_known_types type).1 (by rw [hk]; rfl)) hty
  by_cases hpos : 0 < c ∧ 0 < g0
  · rw [G_pos hpos.1 hpos.2]
    cases r with
    | num r =>
      cases t with
      | num t =>
        refine ⟨.unboundLocal, ?_⟩
        have := hnum r t rfl rfl
        simp only [scalarG, hk, bound]
        rw [if_neg (fun h => this ((scalar_ite hpos.1).1 h))]
        rfl
      | arr t =>
        simp only [timesG, hk, bound]
        match t with
        | [] => exact ⟨_, rfl⟩
        | [_] => exact ⟨_, rfl⟩
        | _ :: _ :: _ => exact ⟨_, rfl⟩
    | arr r =>
      cases t with
      | num t =>
        simp only [distancesG, hk, bound]
        match r with
        | [] => exact ⟨_, rfl⟩
        | [_] => exact ⟨_, rfl⟩
        | _ :: _ :: _ => exact ⟨_, rfl⟩
      | arr t =>
        simp only [pairsG, hk, bound]
        split
        · exact ⟨_, rfl⟩
        · split <;> exact ⟨_, rfl⟩
  · refine ⟨.other, ?_⟩
    unfold G
    rw [if_pos]
    by_contra h
    push Not at h
    exact hpos h

/-- non-vacuity: an unknown type -/
example : "rt4d" ∉ greensTypes := by simp [greensTypes]

/-- **C58** is violated for numbers before the arrival: zero is returned for an unknown type. -/
theorem C58_counterexample : "rt4d" ∉ greensTypes ∧
    G (.num 2) (.num 1) 1 1 "rt4d" = .ok (.num (some 0)) :=
  ⟨by simp [greensTypes], C50_single 2 1 1 1 "rt4d" true one_pos one_pos
    (by unfold beforeArrival; norm_num)⟩

/-! ## C59 -/

/-- **C59**: the values printed for each mean free path are the values without absorption multiplied
by the factor for the time of the evaluation. -/
theorem C59_calc (dir : Bool) (r t c la : ℝ) (hla : la ≠ 0) (ls : List ℝ) (types : List String)
    (l : List (Option ℝ)) (h : calcCmd dir r t c ls none types = .ok l) :
    calcCmd dir r t c ls (some la) types =
      .ok (l.map (Option.map (fun x => x * Real.exp (-(c * t) / la)))) := by
  unfold calcCmd at h ⊢
  cases types with
  | nil => simp at h
  | cons type rest =>
    simp only at h ⊢
    split at h
    · simp at h
    · next hn =>
      rw [if_neg hn]
      rw [mapExc_ok] at h ⊢
      rw [List.forall₂_map_right_iff]
      refine h.imp ?_
      intro m x hm
      have ha : ∀ y, absorb (some la) c t y =
          (absorb none c t y).map (fun x => x * Real.exp (-(c * t) / la)) := by
        intro y
        simp only [absorb, if_neg hla, neg_mul]
      by_cases hm0 : m = 0
      · simp [hm0] at hm
      · simp only [if_neg hm0] at hm ⊢
        cases dir with
        | false =>
          simp only [Bool.not_false, if_true] at hm ⊢
          rw [bind_ok] at hm ⊢
          obtain ⟨v, hv, hm⟩ := hm
          refine ⟨v, hv, ?_⟩
          cases v with
          | num y =>
            simp only [pure, Except.pure, Except.ok.injEq] at hm ⊢
            rw [ha, hm]
          | arr y => simp at hm
        | true =>
          simp only [Bool.not_true, Bool.false_eq_true, if_false] at hm ⊢
          split at hm <;> first | (simp only [Except.ok.injEq] at hm ⊢; rw [ha, hm]) | simp at hm

end Qopen
