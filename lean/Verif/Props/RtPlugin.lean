import Verif.Props.RtValues
import Verif.Props.SmoothAlike

/-!
# C92 and C109 for the Green's functions of Qopen as plug-in of the inversion
-/

set_option linter.unusedSimpArgs false

namespace Qopen
open Rt Real Spec InvertFb Util

namespace RtPlugin

theorem all_some {l : List (Option ℝ)} (h : ∀ (j : ℕ) o, l[j]? = some o → o.isSome) :
    l.all Option.isSome = true ∧ l = (l.filterMap id).map some := by
  induction l with
  | nil => simp
  | cons o l ih =>
    have h0 := h 0 o rfl
    obtain ⟨x, rfl⟩ := Option.isSome_iff_exists.1 h0
    obtain ⟨h1, h2⟩ := ih (fun j o ho => h (j + 1) o ho)
    refine ⟨by simpa using h1, ?_⟩
    rw [List.filterMap_cons_some (by rfl), List.map_cons, ← h2]

/-- Value of the coda term behind the wave front. -/
theorem coda_green {type : String} (hty : type ∈ greensTypes) {k : Kind} (hk : kindOf type = some k)
    {r t c l : ℝ} (hr : 0 ≤ r) (hc : 0 < c) (hl : 0 < l) (h : r < c * t) :
    ∃ x, green type r t c l = some x ∧ coda k r t c (1 / l) = some x := by
  classical
  obtain ⟨x, hx, hG⟩ := C92_values type hty r t c l true hr hc hl h
  have := single_eq (r := r) (t := t) hc (one_div_pos.2 hl) hk
  unfold single at this
  rw [hG, if_neg (by unfold beforeArrival; linarith)] at this
  simp only [Except.ok.injEq, GVal.num.injEq] at this
  exact ⟨x, hx, this.symm⟩

/-- The direct term. -/
theorem direct_green {type : String} (hty : type ∈ greensTypes) {k : Kind} (hk : kindOf type = some k)
    {t c l : ℝ} (ht : 0 < t) (hl : 0 < l) :
    direct k t c (1 / l) = some ((greenDirect type t c l).getD 0) := by
  have e1 : -c * t / 2 / (1 / (1 / l)) = -(c * t) / (2 * l) := by field_simp
  simp only [greensTypes, List.mem_cons, List.not_mem_nil, or_false] at hty
  rcases hty with rfl | rfl | rfl | rfl | rfl | rfl | rfl | rfl | rfl
  · obtain rfl : Kind.rt3d = k := by simpa [kindOf] using hk
    simp only [direct, if_neg ht.ne', greenDirect, Option.getD_some, rt3dDirect, Option.some.injEq]
    congr 1
    · congr 1; ring
    · ring
  · obtain rfl : Kind.rt2d = k := by simpa [kindOf] using hk
    simp only [direct, if_neg ht.ne', greenDirect, Option.getD_some, rt2dDirect, Option.some.injEq]
    congr 1
    · congr 1; field_simp
    · ring
  · obtain rfl : Kind.rt1d = k := by simpa [kindOf] using hk
    simp only [direct, greenDirect, Option.getD_some, rt1dDirect, Option.some.injEq, e1]
    ring
  all_goals
    simp [kindOf] at hk
    subst hk
    rfl

end RtPlugin

open RtPlugin

/-- **C92** for the Green's functions as plug-in of the inversion, for increasing times: the values
are finite, zero before the arrival and the published solution after it; the first sample after the
arrival holds the energy of the direct wave, distributed over one sampling interval, or zero if it is
the first sample of the array. -/
theorem C92_plugin (type : String) (hty : type ∈ greensTypes) {r c l : ℝ} (hr : 0 < r) (hc : 0 < c)
    (hl : 0 < l) {ts : List ℝ} (hlen : 2 ≤ ts.length) (hts : ts.Pairwise (· < ·)) :
    ∃ ys, plugin type r ts c (1 / l) = .ok ys ∧ ys.length = ts.length ∧
      ∀ (j : ℕ) x y t0 t1, ts[j]? = some x → ys[j]? = some y → ts[0]? = some t0 → ts[1]? = some t1 →
        (c * x < r → y = 0) ∧
        (r ≤ c * x → (∃ i < j, ∃ x', ts[i]? = some x' ∧ r ≤ c * x') → green type r x c l = some y) ∧
        (r ≤ c * x → (∀ i < j, ∀ x', ts[i]? = some x' → c * x' < r) →
          y = if j = 0 then 0 else (greenDirect type (r / c) c l).getD 0 / (c * (t1 - t0))) := by
  obtain ⟨k, hk⟩ := Option.isSome_iff_exists.1 ((C58_known_types type).2 hty)
  have hg : 0 < 1 / l := one_div_pos.2 hl
  match ts, hlen with
  | a :: b :: rest, _ =>
  set ts := a :: b :: rest with htsdef
  have hab : a < b := by
    rw [htsdef, List.pairwise_cons] at hts
    exact hts.1 b List.mem_cons_self
  have hsort : ts.Pairwise (· ≤ ·) := hts.imp le_of_lt
  set i := countFront (fun t => c * t - r) ts with hi
  have hfront := fun j x hx => front_times (r := r) hc hsort j x hx
  set L : List (Option ℝ) := List.replicate (min (i + 1) ts.length) (some 0) ++
    (ts.drop (i + 1)).map (fun t => coda k r t c (1 / l)) with hL
  set M : List (Option ℝ) := if true = true ∧ 0 < i ∧ i < ts.length then
    L.set i (over (direct k (r / c) c (1 / l)) ((b - a) * c)) else L with hM
  have hG : G (.num r) (.arr ts) c (1 / l) type = .ok (.arr M) := by
    rw [G_pos hc hg, hk]
    rfl
  have hLl : L.length = ts.length := by
    rw [hL]; simp; omega
  have hMl : M.length = ts.length := by
    rw [hM]; split <;> simp [hLl]
  have hdir : over (direct k (r / c) c (1 / l)) ((b - a) * c) =
      some ((greenDirect type (r / c) c l).getD 0 / (c * (b - a))) := by
    rw [direct_green hty hk (div_pos hr hc) hl, over, if_neg (mul_pos (sub_pos.2 hab) hc).ne',
      Option.map_some, mul_comm c]
  -- all samples
  have hval : ∀ (j : ℕ) x, ts[j]? = some x →
      (j < i → M[j]? = some (some 0)) ∧
      (j = i → M[j]? = some (some (if j = 0 then 0 else
        (greenDirect type (r / c) c l).getD 0 / (c * (b - a))))) ∧
      (i < j → ∃ y, green type r x c l = some y ∧ M[j]? = some (some y)) := by
    intro j x hx
    have hj : j < ts.length := by rw [List.getElem?_eq_some_iff] at hx; exact hx.1
    have hGj := getElem?_timesArr k r c (1 / l) ts i j x hx
    rw [← hL] at hGj
    refine ⟨fun h => ?_, fun h => ?_, fun h => ?_⟩
    · rw [if_pos h.le] at hGj
      rw [hM]
      split
      · rw [List.getElem?_set_ne (by omega), hGj]
      · exact hGj
    · rw [if_pos h.le] at hGj
      rw [hM]
      by_cases h0 : j = 0
      · rw [if_neg (by omega), if_pos h0, hGj]
      · rw [if_pos ⟨rfl, by omega, by omega⟩, if_neg h0, ← h, List.getElem?_set_self (by omega), hdir]
    · rw [if_neg (by omega)] at hGj
      have hxi : ts[i]? = some ts[i] := List.getElem?_eq_getElem (by omega)
      have h1 : ¬ beforeArrival r ts[i] c := by
        rw [hfront i _ hxi]; omega
      have h2 : ts[i] < x := by
        have := List.pairwise_iff_getElem.1 hts i j (by omega) hj h
        rw [List.getElem?_eq_getElem hj, Option.some.injEq] at hx
        rwa [hx] at this
      have h3 : r < c * x := by
        unfold beforeArrival at h1
        nlinarith
      obtain ⟨y, hy, hcd⟩ := coda_green hty hk hr.le hc hl h3
      refine ⟨y, hy, ?_⟩
      rw [hM]
      split
      · rw [List.getElem?_set_ne (by omega), hGj, hcd]
      · rw [hGj, hcd]
  have hsome : ∀ (j : ℕ) o, M[j]? = some o → o.isSome := by
    intro j o ho
    have hj : j < ts.length := by
      rw [List.getElem?_eq_some_iff] at ho; rw [← hMl]; exact ho.1
    obtain ⟨h1, h2, h3⟩ := hval j ts[j] (List.getElem?_eq_getElem hj)
    rcases lt_trichotomy j i with h | h | h
    · rw [h1 h] at ho; simp at ho; simp [← ho]
    · rw [h2 h] at ho; simp at ho; simp [← ho]
    · obtain ⟨y, -, hy⟩ := h3 h
      rw [hy] at ho; simp at ho; simp [← ho]
  obtain ⟨hall, hmap⟩ := all_some hsome
  refine ⟨M.filterMap id, ?_, ?_, ?_⟩
  · unfold plugin
    rw [hG]
    simp only [bind, Except.bind, hall, if_true]
    rfl
  · rw [← hMl]
    conv_rhs => rw [hmap]
    simp
  · intro j x y t0 t1 hx hy h0 h1
    simp only [htsdef, List.getElem?_cons_zero, List.getElem?_cons_succ, Option.some.injEq] at h0 h1
    subst h0 h1
    have hMy : M[j]? = some (some y) := by
      rw [hmap, List.getElem?_map, hy]; rfl
    obtain ⟨v1, v2, v3⟩ := hval j x hx
    refine ⟨fun h => ?_, fun h he => ?_, fun h hno => ?_⟩
    · rw [v1 ((hfront j x hx).1 h)] at hMy
      simpa using hMy.symm
    · obtain ⟨j', hj', x', hx', h'⟩ := he
      have h2 : ¬ j' < i := by rw [← hfront j' x' hx']; unfold beforeArrival; linarith
      obtain ⟨z, hz, hzM⟩ := v3 (by omega)
      rw [hzM] at hMy
      simp only [Option.some.injEq] at hMy
      rw [hz, hMy]
    · have h2 : ¬ j < i := by rw [← hfront j x hx]; unfold beforeArrival; linarith
      have hji : j = i := by
        by_contra hne
        have hlt : i < j := by omega
        have hj : j < ts.length := by rw [List.getElem?_eq_some_iff] at hx; exact hx.1
        have hxi : ts[i]? = some ts[i] := List.getElem?_eq_getElem (by omega)
        have := (hfront i _ hxi).1 (hno i hlt _ hxi)
        omega
      rw [v2 hji] at hMy
      simpa using hMy.symm

/-- non-vacuity: 1 km distance, 3 km/s, mean free path 10 km -/
example : ∃ ys, plugin "rt3d" 1000 [0, 0.2, 0.4, 0.6] 3000 (1 / 10000) = .ok ys :=
  let ⟨ys, h, _⟩ := C92_plugin "rt3d" (by decide) (r := 1000) (c := 3000) (l := 10000)
    (ts := [0, 0.2, 0.4, 0.6]) (by norm_num) (by norm_num) (by norm_num) (by simp)
    (by norm_num)
  ⟨ys, h⟩

/-- **C109** is violated without smoothing: with each of the Green's functions of Qopen the first
sample of a coda window after the arrival has no energy in the model, although the Green's function
is positive there. -/
theorem C109_unsmoothed_counterexample (type : String) (hty : type ∈ greensTypes) {r l : ℝ}
    (cfg : Cfg) (hr : 0 < r) (hc : 0 < cfg.v0) (hl : 0 < l) (hs : cfg.smooth = none)
    {ts : List ℝ} (hlen : 2 ≤ ts.length) (hts : ts.Pairwise (· < ·))
    (hafter : ∀ x ∈ ts, r < cfg.v0 * x) :
    ∃ ys t0 y, gsmooth (plugin type) cfg r ts (1 / l) = .ok ys ∧ ys[0]? = some 0 ∧
      ts[0]? = some t0 ∧ green type r t0 cfg.v0 l = some y ∧ 0 < y := by
  obtain ⟨ys, h, hyl, hv⟩ := C92_plugin type hty hr hc hl hlen hts
  match ts, hlen with
  | t0 :: t1 :: rest, _ =>
  obtain ⟨y, hy, hG⟩ := C92_values type hty r t0 cfg.v0 l true hr.le hc hl
    (hafter t0 List.mem_cons_self)
  obtain ⟨y', hy', hpos⟩ := C52_positive type hty r t0 cfg.v0 (1 / l) hr.le hc (one_div_pos.2 hl)
    (hafter t0 List.mem_cons_self)
  unfold single at hy'
  rw [hG] at hy'
  simp only [Except.ok.injEq, GVal.num.injEq, Option.some.injEq] at hy'
  have h0 : 0 < ys.length := by rw [hyl]; simp
  refine ⟨ys, t0, y, ?_, ?_, rfl, hy, by rw [hy']; exact hpos⟩
  · unfold gsmooth smoothFunc
    rw [hs]
    exact h
  · have := (hv 0 t0 ys[0] t0 t1 rfl (List.getElem?_eq_getElem h0) rfl rfl).2.2
      (hafter t0 List.mem_cons_self).le (by omega)
    rw [List.getElem?_eq_getElem h0, this, if_pos rfl]

namespace RtPlugin

/-- `smooth_func` evaluates the function on the continued grid only. -/
theorem smoothFunc_congr {f f' : List ℝ → Py (List ℝ)} (win : Window) (M : ℕ) (hM : 3 ≤ M)
    (t0 dt wl : ℝ) (n : ℕ) (hn : 2 ≤ n) (hr : pyRound (wl / dt) = M)
    (h : f (grid (t0 - ((M - 1) / 2 : ℕ) * dt) dt ((M - 1) / 2 + n + M / 2)) =
      f' (grid (t0 - ((M - 1) / 2 : ℕ) * dt) dt ((M - 1) / 2 + n + M / 2))) :
    smoothFunc f (grid t0 dt n) (some wl) win = smoothFunc f' (grid t0 dt n) (some wl) win := by
  have g1 : (grid t0 dt n)[1]? = some (t0 + dt) := by simp [grid, show 1 < n by omega]
  have g0 : (grid t0 dt n)[0]? = some t0 := by simp [grid, show 0 < n by omega]
  have e1 : Int.fdiv ((M : ℤ) - 1) 2 = ((M - 1) / 2 : ℕ) := by
    rw [Int.fdiv_eq_ediv_of_nonneg _ (by norm_num)]; omega
  have e2 : Int.fdiv (M : ℤ) 2 = (M / 2 : ℕ) := by
    rw [Int.fdiv_eq_ediv_of_nonneg _ (by norm_num)]; omega
  simp only [smoothFunc, pyGet, g1, g0, bind, Except.bind, throw, throwThe, MonadExceptOf.throw,
      pure, Except.pure, diff_grid, add_sub_cancel_left, hr, e1, e2]
  rw [extendGrid_grid t0 dt n _ _ (by omega), h]

theorem grid_sorted {t0 dt : ℝ} (hdt : 0 < dt) (n : ℕ) : (grid t0 dt n).Pairwise (· < ·) := by
  unfold grid
  rw [List.pairwise_map]
  refine List.Pairwise.imp ?_ List.pairwise_lt_range
  intro i j hij
  have : (i : ℝ) < j := by exact_mod_cast hij
  nlinarith

theorem mem_grid {t0 dt x : ℝ} {n : ℕ} (h : x ∈ grid t0 dt n) : ∃ i < n, x = t0 + i * dt := by
  unfold grid at h
  simp only [List.mem_map, List.mem_range] at h
  obtain ⟨i, hi, rfl⟩ := h
  exact ⟨i, hi, rfl⟩

theorem grid_getElem? (t0 dt : ℝ) {n i : ℕ} (h : i < n) : (grid t0 dt n)[i]? = some (t0 + i * dt) := by
  unfold grid
  rw [List.getElem?_map, List.getElem?_range h]; rfl

end RtPlugin

namespace RtPlugin

theorem gsmooth_plugin (type : String) (hty : type ∈ greensTypes) {r l s : ℝ} (cfg : Cfg)
    (hr : 0 < r) (hc : 0 < cfg.v0) (hl : 0 < l) (hs : cfg.smooth = some s) {t0 dt : ℝ} {n M : ℕ}
    (hn : 2 ≤ n) (hdt : 0 < dt) (hM : 3 ≤ M) (hround : pyRound (s / dt) = M)
    (hw : cfg.smoothWindow ≠ .other)
    (hafter : r < cfg.v0 * (t0 - ((M - 1) / 2 : ℕ) * dt)) :
    ∃ (γ : ℝ → ℝ) (ys : List ℝ),
      (∀ x, r < cfg.v0 * x → green type r x cfg.v0 l = some (γ x)) ∧
      gsmooth (plugin type) cfg r (grid t0 dt n) (1 / l) = .ok ys ∧ ys.length = n ∧
      ∀ j < n, ys[j]? = some (∑ k ∈ Finset.range M, ωfun cfg.smoothWindow M k *
        if j = 0 ∧ k = 0 then 0 else γ (t0 + j * dt + ((k : ℝ) - ((M - 1) / 2 : ℕ)) * dt)) := by
  classical
  set N1 : ℕ := (M - 1) / 2 with hN1
  set tf : ℝ := t0 - N1 * dt with htf
  let γ : ℝ → ℝ := fun x => (green type r x cfg.v0 l).getD 0
  let g : ℝ → ℝ := fun x => if x = tf then 0 else γ x
  have hγ : ∀ x, r < cfg.v0 * x → green type r x cfg.v0 l = some (γ x) := by
    intro x hx
    obtain ⟨y, hy, -⟩ := C92_values type hty r x cfg.v0 l true hr.le hc hl hx
    simp only [γ, hy, Option.getD_some]
  set m : ℕ := N1 + n + M / 2 with hm
  have hm2 : 2 ≤ m := by omega
  have hall : ∀ i : ℕ, r < cfg.v0 * (tf + i * dt) := by
    intro i
    have h1 : (0 : ℝ) ≤ i * dt := by positivity
    nlinarith
  have hlen : (grid tf dt m).length = m := by simp [grid]
  obtain ⟨zs, hz, hzl, hzv⟩ := C92_plugin type hty hr hc hl (ts := grid tf dt m) (by omega)
    (grid_sorted hdt m)
  have hzs : zs = (grid tf dt m).map g := by
    apply List.ext_getElem?
    intro j
    by_cases hj : j < m
    · have hx := grid_getElem? tf dt hj
      have hjz : j < zs.length := by omega
      obtain ⟨-, v2, v3⟩ := hzv j _ zs[j] _ _ hx (List.getElem?_eq_getElem hjz)
        (grid_getElem? tf dt (show 0 < m by omega)) (grid_getElem? tf dt (show 1 < m by omega))
      rw [List.getElem?_map, hx, List.getElem?_eq_getElem hjz, Option.map_some]
      by_cases h0 : j = 0
      · have := v3 (hall j).le (by omega)
        rw [if_pos h0] at this
        rw [this]
        simp [g, h0]
      · have := v2 (hall j).le ⟨0, by omega, _, grid_getElem? tf dt (show 0 < m by omega), (hall 0).le⟩
        rw [hγ _ (hall j), Option.some.injEq] at this
        rw [← this]
        have hne : tf + (j : ℝ) * dt ≠ tf := by
          have : (0 : ℝ) < j := by exact_mod_cast (by omega : 0 < j)
          have : 0 < (j : ℝ) * dt := by positivity
          linarith
        simp only [g, if_neg hne]
    · rw [List.getElem?_eq_none (by omega), List.getElem?_eq_none (by simp; omega)]
  have hcongr := smoothFunc_congr (f := fun t_ => plugin type r t_ cfg.v0 (1 / l))
    (f' := fun ts => .ok (ts.map g)) cfg.smoothWindow M hM t0 dt s n hn hround
    (by rw [← hN1, ← htf, ← hm, hz, hzs])
  obtain ⟨ys, hy, hyl, hyv⟩ := smoothFunc_values cfg.smoothWindow hw M hM g t0 dt s n hn hdt.ne' hround
  refine ⟨γ, ys, hγ, ?_, hyl, ?_⟩
  · unfold gsmooth
    rw [hs, hcongr, hy]
  · intro j hj
    rw [hyv j hj, Option.some.injEq]
    refine Finset.sum_congr rfl (fun k hk => ?_)
    congr 1
    rw [← hN1]
    have e : t0 + (j : ℝ) * dt + ((k : ℝ) - N1) * dt = tf + ((j + k : ℕ) : ℝ) * dt := by
      rw [htf]; push_cast; ring
    simp only [g, e]
    by_cases h0 : j = 0 ∧ k = 0
    · rw [if_pos h0, if_pos (by simp [h0.1, h0.2])]
    · rw [if_neg h0, if_neg]
      have : (0 : ℝ) < ((j + k : ℕ) : ℝ) := by exact_mod_cast (by omega : 0 < j + k)
      have : 0 < ((j + k : ℕ) : ℝ) * dt := by positivity
      linarith

end RtPlugin

/-- **C109** for the Green's functions of Qopen, if the smoothing window of the first sample of the
coda lies after the arrival: the model of each sample is the average of the published solution, with
the same weights as the observed energies.  Missing: in the average of the first sample the earliest
value is replaced by zero. -/
theorem C109_bundled_partial (type : String) (hty : type ∈ greensTypes) {r l s : ℝ} (cfg : Cfg)
    (hr : 0 < r) (hc : 0 < cfg.v0) (hl : 0 < l) (hs : cfg.smooth = some s) {t0 dt : ℝ} {n M : ℕ}
    (hn : 2 ≤ n) (hdt : 0 < dt) (hM : 3 ≤ M) (hround : NearestInt (s / dt) M)
    (hw : cfg.smoothWindow ≠ .other)
    (hafter : r < cfg.v0 * (t0 - ((M - 1) / 2 : ℕ) * dt)) :
    ∃ (γ : ℝ → ℝ) (ω : ℕ → ℝ) (ys : List ℝ), IsWeights ω M ∧
      (∀ x, r < cfg.v0 * x → green type r x cfg.v0 l = some (γ x)) ∧
      gsmooth (plugin type) cfg r (grid t0 dt n) (1 / l) = .ok ys ∧ ys.length = n ∧
      ∀ j < n, ys[j]? = some (∑ k ∈ Finset.range M, ω k *
        if j = 0 ∧ k = 0 then 0 else γ (t0 + j * dt + ((k : ℝ) - ((M - 1) / 2 : ℕ)) * dt)) := by
  obtain ⟨γ, ys, h⟩ := gsmooth_plugin type hty cfg hr hc hl hs hn hdt hM ((pyRound_iff _ _).2 hround) hw hafter
  exact ⟨γ, _, ys, isWeights_ωfun _ M hM hw, h⟩

/-- **C109** is violated by each Green's function of Qopen: with a flat window the model of the first
sample is smaller than the average of the Green's function over the window. -/
theorem C109_first_sample_counterexample (type : String) (hty : type ∈ greensTypes) {r l s : ℝ}
    (cfg : Cfg) (hr : 0 < r) (hc : 0 < cfg.v0) (hl : 0 < l) (hs : cfg.smooth = some s) {t0 dt : ℝ}
    {n M : ℕ} (hn : 2 ≤ n) (hdt : 0 < dt) (hM : 3 ≤ M) (hround : NearestInt (s / dt) M)
    (hw : cfg.smoothWindow = .flat) (hafter : r < cfg.v0 * (t0 - ((M - 1) / 2 : ℕ) * dt)) :
    ∃ (γ : ℝ → ℝ) (ys : List ℝ) (y0 : ℝ),
      (∀ x, r < cfg.v0 * x → green type r x cfg.v0 l = some (γ x)) ∧
      gsmooth (plugin type) cfg r (grid t0 dt n) (1 / l) = .ok ys ∧ ys[0]? = some y0 ∧
      y0 < (∑ k ∈ Finset.range M, γ (t0 + ((k : ℝ) - ((M - 1) / 2 : ℕ)) * dt)) / M := by
  obtain ⟨γ, ys, hγ, h1, h2, h3⟩ := gsmooth_plugin type hty cfg hr hc hl hs hn hdt hM ((pyRound_iff _ _).2 hround)
    (by rw [hw]; simp) hafter
  have hMr : (0 : ℝ) < M := by exact_mod_cast (by omega : 0 < M)
  have hω : ∀ k, ωfun cfg.smoothWindow M k = 1 / M := by
    intro k
    rw [hw]
    have : ((List.range M).map (windowVal .flat M)).sum = M := by
      have : (List.range M).map (windowVal .flat M) = List.replicate M 1 := by
        rw [List.eq_replicate_iff]
        exact ⟨by simp, by simp [windowVal]⟩
      rw [this]; simp
    rw [ωfun, this]
    rfl
  have hpos : 0 < γ (t0 + ((0 : ℕ) - ((M - 1) / 2 : ℕ) : ℝ) * dt) := by
    have hx : r < cfg.v0 * (t0 + ((0 : ℕ) - ((M - 1) / 2 : ℕ) : ℝ) * dt) := by
      refine lt_of_lt_of_eq hafter ?_
      simp only [Nat.cast_zero]; ring
    obtain ⟨y, hy, hG⟩ := C92_values type hty r _ cfg.v0 l true hr.le hc hl hx
    obtain ⟨y', hy', hp⟩ := C52_positive type hty r _ cfg.v0 (1 / l) hr.le hc (one_div_pos.2 hl) hx
    unfold single at hy'
    rw [hG] at hy'
    simp only [Except.ok.injEq, GVal.num.injEq, Option.some.injEq] at hy'
    rw [hγ _ hx, Option.some.injEq] at hy
    rw [hy, hy']; exact hp
  refine ⟨γ, ys, _, hγ, h1, h3 0 (by omega), ?_⟩
  rw [Finset.sum_div]
  refine Finset.sum_lt_sum (fun k _ => ?_) ⟨0, Finset.mem_range.2 (by omega), ?_⟩
  · rw [hω]
    split
    · next h =>
      rw [h.2, mul_zero]
      exact (div_pos hpos hMr).le
    · apply le_of_eq
      simp only [Nat.cast_zero, zero_mul, add_zero]
      ring
  · rw [hω, if_pos ⟨rfl, rfl⟩, mul_zero]
    exact div_pos hpos hMr

/-- non-vacuity: 3 km distance, 3 km/s, coda from 10 s, sampling interval 1 s, window of 3 s -/
example : ∃ (γ : ℝ → ℝ) (ys : List ℝ) (y0 : ℝ),
      (∀ x, 3000 < 3000 * x → green "rt3d" 3000 x 3000 10000 = some (γ x)) ∧
      gsmooth (plugin "rt3d") { InvertExample.cfg1 with v0 := 3000, smooth := some 3, smoothWindow := .flat }
        3000 (grid 10 1 20) (1 / 10000) = .ok ys ∧ ys[0]? = some y0 ∧
      y0 < (∑ k ∈ Finset.range 3, γ (10 + ((k : ℝ) - ((3 - 1) / 2 : ℕ)) * 1)) / (3 : ℕ) := by
  have hround : NearestInt ((3 : ℝ) / 1) (3 : ℕ) := by left; norm_num
  exact C109_first_sample_counterexample "rt3d" (by decide) (s := 3) (M := 3)
    { InvertExample.cfg1 with v0 := 3000, smooth := some 3, smoothWindow := .flat }
    (by norm_num) (by norm_num) (by norm_num) rfl (by norm_num) (by norm_num) (by norm_num) hround rfl
    (by norm_num)

end Qopen
