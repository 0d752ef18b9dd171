import Verif.Lemmas.Smooth

/-!
# Properties C41-C44: cache and smoothing (`util.py`)
-/

set_option linter.unusedSimpArgs false

namespace Qopen
open Util Spec Real

/-! ## C41: caching -/

/-- Reachable states of a cached function: start with an empty cache, call it with a list of
arguments. -/
def cacheHistory {κ β σ args : Type} [DecidableEq κ] (keyOf : args → κ)
    (f : σ → args → Py β × σ) (w : σ) (h : List args) : List (Py β) × CacheState κ β σ :=
  cachedCalls keyOf f { cache := [], evals := [], world := w } h

theorem cachedCalls_inv {κ β σ args : Type} [DecidableEq κ] (keyOf : args → κ)
    (f : σ → args → Py β × σ) (P : CacheState κ β σ → Prop)
    (hstep : ∀ s a, P s → P (cachedCall keyOf f s a).2) (h : List args) :
    ∀ s, P s → P (cachedCalls keyOf f s h).2 := by
  induction h with
  | nil => intro s hs; exact hs
  | cons a h ih => intro s hs; exact ih _ (hstep s a hs)

/-- **C41**: caching is transparent.  If calls with the same argument text have the same outcome
(`str(args)+str(kwargs)` identifies the call, and the outcome does not depend on the world), then
in every history each call returns (or raises) exactly what the plain function returns. -/
theorem C41_transparent {κ β σ args : Type} [DecidableEq κ] (keyOf : args → κ)
    (f : σ → args → Py β × σ)
    (hf : ∀ w w' a a', keyOf a = keyOf a' → (f w a).1 = (f w' a').1) (w : σ) (h : List args) :
    (cacheHistory keyOf f w h).1 = h.map (fun a => (f w a).1) := by
  have key : ∀ (h : List args) (s : CacheState κ β σ),
      (∀ a v, s.cache.get? (keyOf a) = some v → (f w a).1 = .ok v) →
      (cachedCalls keyOf f s h).1 = h.map (fun a => (f w a).1) := by
    intro h
    induction h with
    | nil => intro s _; rfl
    | cons a h ih =>
      intro s hs
      simp only [cachedCalls, List.map_cons, List.cons.injEq]
      cases hc : s.cache.get? (keyOf a) with
      | some v =>
        have : cachedCall keyOf f s a = (.ok v, s) := by simp [cachedCall, hc]
        rw [this]
        exact ⟨(hs a v hc).symm, ih s hs⟩
      | none =>
        cases hfa : f s.world a with
        | mk r w' =>
          have hr : (f w a).1 = r := by rw [hf w s.world a a rfl, hfa]
          cases r with
          | error e =>
            have : cachedCall keyOf f s a = (.error e, { s with world := w' }) := by
              simp [cachedCall, hc, hfa]
            rw [this]
            exact ⟨hr.symm, ih _ hs⟩
          | ok v =>
            have : cachedCall keyOf f s a = (.ok v, CacheState.mk (s.cache.set (keyOf a) v)
                (s.evals ++ [keyOf a]) w') := by
              simp [cachedCall, hc, hfa]
            rw [this]
            refine ⟨hr.symm, ih _ ?_⟩
            intro a' v' hv'
            simp only [Dict.get?_set] at hv'
            split at hv'
            · next hk =>
              cases hv'
              rw [hf w w a' a hk.symm, hr]
            · exact hs a' v' hv'
  exact key h _ (by simp)

/-- **C41**: in every history the wrapped function is evaluated successfully at most once per
argument text (for arbitrary functions, also impure ones). -/
theorem C41_evaluated_once {κ β σ args : Type} [DecidableEq κ] (keyOf : args → κ)
    (f : σ → args → Py β × σ) (w : σ) (h : List args) :
    (cacheHistory keyOf f w h).2.evals.Nodup := by
  have := cachedCalls_inv keyOf f
    (fun s => s.evals.Nodup ∧ ∀ k, k ∈ s.evals → (s.cache.get? k).isSome) ?_ h
    { cache := [], evals := [], world := w } (by simp)
  · exact this.1
  · rintro s a ⟨h1, h2⟩
    unfold cachedCall
    cases hc : s.cache.get? (keyOf a) with
    | some v => exact ⟨h1, h2⟩
    | none =>
      rcases hfa : f s.world a with ⟨r, w'⟩
      cases r with
      | error e => exact ⟨h1, h2⟩
      | ok v =>
        simp only
        refine ⟨?_, ?_⟩
        · rw [List.nodup_append]
          refine ⟨h1, by simp, ?_⟩
          intro k hk k' hk'
          simp only [List.mem_singleton] at hk'
          subst hk'
          rintro rfl
          have := h2 _ hk
          simp [hc] at this
        · intro k hk
          rw [Dict.get?_set]
          split
          · rfl
          · next hne =>
            rcases List.mem_append.1 hk with hk | hk
            · exact h2 k hk
            · simp only [List.mem_singleton] at hk; exact absurd hk.symm hne

/-- **C41**: failures are not remembered: a call that raises leaves the cache as it was, so the next
call with the same arguments evaluates the function again. -/
theorem C41_failure_not_cached {κ β σ args : Type} [DecidableEq κ] (keyOf : args → κ)
    (f : σ → args → Py β × σ) (s s' : CacheState κ β σ) (a : args) (e : PyErr)
    (h : cachedCall keyOf f s a = (.error e, s')) :
    s'.cache = s.cache ∧ s'.evals = s.evals ∧ (cachedCall keyOf f s' a).1 = (f s'.world a).1 := by
  unfold cachedCall at h
  cases hc : s.cache.get? (keyOf a) with
  | some v => simp [hc] at h
  | none =>
    rcases hfa : f s.world a with ⟨r, w'⟩
    cases r with
    | ok v => simp [hc, hfa] at h
    | error e' =>
      simp only [hc, hfa, Prod.mk.injEq] at h
      obtain ⟨-, rfl⟩ := h
      refine ⟨rfl, rfl, ?_⟩
      simp only [cachedCall, hc]
      rcases hfa' : f w' a with ⟨r, w''⟩
      cases r <;> simp [hfa']

/-- non-vacuity: a history with a repeated call, a failing call and a retry -/
example : (cacheHistory (σ := ℕ) (fun a : ℕ => a)
    (fun w a => (if a = 0 ∧ w = 0 then .error .valueError else .ok (a * 2), w + 1)) 0
    [0, 3, 3, 0]).1 = [.error .valueError, .ok 6, .ok 6, .ok 0] := by
  simp [cacheHistory, cachedCalls, cachedCall, Dict.get?, Dict.set]

/-! ## C42: lengths -/

/-- **C42**: smoothing with border handling keeps the number of samples, whatever window. -/
theorem C42_same_length (x y : List ℝ) (wl : Option ℤ) (win : Window) (m : Border)
    (hm : m ≠ .noBorder) (h : smooth x wl win m = .ok y) : y.length = x.length := by
  cases wl with
  | none => simp [smooth] at h; rw [h]
  | some wl =>
    simp only [smooth] at h
    split at h
    · simp at h
    split at h
    · simp at h; rw [h]
    split at h
    · simp at h
    next h1 h2 h3 =>
    simp only [Except.ok.injEq] at h
    rw [← h, convolve_length, windowNorm_length, pad_length m x wl.toNat (by omega) (by omega) hm]
    omega

/-- **C42**: without border handling a window of `wl ≥ 3` samples leaves `n - wl + 1` samples;
windows of less than 3 samples leave the signal unchanged. -/
theorem C42_length_without_border (x y : List ℝ) (wl : ℤ) (win : Window)
    (h : smooth x (some wl) win .noBorder = .ok y) :
    (3 ≤ wl → (y.length : ℤ) = x.length - wl + 1) ∧ (wl < 3 → y = x) := by
  simp only [smooth] at h
  split at h
  · simp at h
  split at h
  · next h2 => simp at h; exact ⟨fun h3 => by omega, fun _ => h.symm⟩
  split at h
  · simp at h
  next h1 h2 h3 =>
  simp only [Except.ok.injEq] at h
  refine ⟨fun _ => ?_, fun h => by omega⟩
  rw [← h, convolve_length, windowNorm_length]
  simp only [pad]
  omega

/-- **C42**: `smooth` fails exactly for a signal shorter than the window or an unknown window
(of at least three samples), and then with `ValueError`. -/
theorem C42_rejects (x : List ℝ) (wl : ℤ) (win : Window) (m : Border) (e : PyErr) :
    smooth x (some wl) win m = .error e ↔
      e = .valueError ∧ ((x.length : ℤ) < wl ∨ (3 ≤ wl ∧ win = .other)) := by
  simp only [smooth]
  split
  · next h => simp [h, eq_comm]
  split
  · next h1 h2 => simp; intro _ ; omega
  split
  · next h1 h2 h3 => simp [h3, eq_comm]; intro _; omega
  · next h1 h2 h3 => simp [h3]; omega

example : ∃ y, smooth [1, 2, 3, 4, 5] (some 3) .hanning .reflect = .ok y := by
  refine ⟨convolveValid (windowNorm .hanning 3) (pad .reflect [1, 2, 3, 4, 5] 3), ?_⟩
  simp [smooth]

/-! ## C43: values -/

theorem smooth_values (win : Window) (hw : win ≠ .other) (M : ℕ) (hM : 3 ≤ M) (x y : List ℝ)
    (m : Border) (hm : m ≠ .noBorder) (h : smooth x (some M) win m = .ok y) :
    ∀ j < x.length, y[j]? = some (smoothedAt (ωfun win M) M m x j) := by
  intro j hj
  simp only [smooth] at h
  split at h
  · simp at h
  next hlen =>
  simp only [show ¬ (M:ℤ) < 3 by omega, hw, if_false] at h
  simp only [Int.toNat_natCast, Except.ok.injEq] at h
  have hpl := pad_length m x M hM (by omega) hm
  rw [← h, convolve_getElem win M _ hM hw (by omega) j (by omega)]
  simp only [smoothedAt, Option.some.injEq]
  apply Finset.sum_congr rfl
  intro k hk
  have hk := Finset.mem_range.1 hk
  rw [pad_getD m x M (j + k) hM (by omega) hm (by omega)]
  push_cast
  rfl

/-- **C43**: each sample of the smoothed signal is the weighted average of the (extended) signal over
the window `j-(wl-1)/2 … j+wl/2`, with weights that depend only on window type and length, are
non-negative, symmetric and sum up to one; for the flat window they are all `1/wl`. -/
theorem C43_weighted_average (win : Window) (hw : win ≠ .other) (M : ℕ) (hM : 3 ≤ M) :
    ∃ ω, IsWeights ω M ∧ (win = .flat → ∀ k, ω k = 1 / M) ∧
      ∀ (x y : List ℝ) (m : Border), m ≠ .noBorder → smooth x (some M) win m = .ok y →
        ∀ j < x.length, y[j]? = some (smoothedAt ω M m x j) := by
  refine ⟨ωfun win M, isWeights_ωfun win M hM hw, ?_, ?_⟩
  · rintro rfl k
    have : (List.map (windowVal Window.flat M) (List.range M)).sum = M := by
      rw [sum_range_list]; simp [windowVal]
    rw [ωfun, this]; simp [windowVal]
  · exact smooth_values win hw M hM

/-- **C43** without border handling: sample `j` is the weighted average of samples
`j … j+wl-1`. -/
theorem C43_weighted_average_noborder (win : Window) (hw : win ≠ .other) (M : ℕ) (hM : 3 ≤ M) :
    ∃ ω, IsWeights ω M ∧
      ∀ (x y : List ℝ), smooth x (some M) win .noBorder = .ok y →
        ∀ j < y.length, y[j]? = some (∑ k ∈ Finset.range M, ω k * x.getD (j + k) 0) := by
  refine ⟨ωfun win M, isWeights_ωfun win M hM hw, ?_⟩
  intro x y h j hj
  simp only [smooth] at h
  split at h
  · simp at h
  next hlen =>
  simp only [show ¬ (M:ℤ) < 3 by omega, hw, if_false] at h
  simp only [Int.toNat_natCast, Except.ok.injEq, pad] at h
  subst h
  rw [convolve_length, windowNorm_length] at hj
  exact convolve_getElem win M x hM hw (by omega) j hj

theorem weighted_between {ω : ℕ → ℝ} {M : ℕ} (h : IsWeights ω M) (g : ℕ → ℝ) (lo up : ℝ)
    (hg : ∀ k < M, lo ≤ g k ∧ g k ≤ up) :
    lo ≤ ∑ k ∈ Finset.range M, ω k * g k ∧ ∑ k ∈ Finset.range M, ω k * g k ≤ up := by
  constructor
  · calc lo = ∑ k ∈ Finset.range M, ω k * lo := by rw [← Finset.sum_mul, h.sum_one, one_mul]
      _ ≤ _ := Finset.sum_le_sum (fun k hk => mul_le_mul_of_nonneg_left
          (hg k (Finset.mem_range.1 hk)).1 (h.nonneg k (Finset.mem_range.1 hk)))
  · calc _ ≤ ∑ k ∈ Finset.range M, ω k * up := Finset.sum_le_sum
          (fun k hk => mul_le_mul_of_nonneg_left (hg k (Finset.mem_range.1 hk)).2
            (h.nonneg k (Finset.mem_range.1 hk)))
      _ = up := by rw [← Finset.sum_mul, h.sum_one, one_mul]

/-- **C43**: smoothing with reflected or clipped borders or without border handling never leaves the
range of the signal; in particular constants stay constant. -/
theorem C43_stays_in_range (x y : List ℝ) (wl : ℤ) (win : Window) (m : Border) (hm : m ≠ .zeros)
    (h : smooth x (some wl) win m = .ok y) (lo up : ℝ) (hx : ∀ v ∈ x, lo ≤ v ∧ v ≤ up) :
    ∀ v ∈ y, lo ≤ v ∧ v ≤ up := by
  have hxD : ∀ i, i < x.length → lo ≤ x.getD i 0 ∧ x.getD i 0 ≤ up := by
    intro i hi
    have : x.getD i 0 = x[i] := by simp [List.getD_eq_getElem?_getD, hi]
    rw [this]; exact hx _ (List.getElem_mem hi)
  by_cases h3 : wl < 3
  · have : y = x := by
      simp only [smooth, h3, if_true] at h
      split at h
      · simp at h
      · simp at h; exact h.symm
    rw [this]; exact hx
  · obtain ⟨M, rfl⟩ : ∃ M : ℕ, wl = M := ⟨wl.toNat, by omega⟩
    have hM : 3 ≤ M := by omega
    have hlen : ¬ (x.length : ℤ) < M := by
      intro hc; simp [smooth, hc] at h
    have hw : win ≠ .other := by
      rintro rfl
      simp [smooth, hlen, h3] at h
    intro v hv
    obtain ⟨j, hj, rfl⟩ := List.getElem_of_mem hv
    cases m with
    | zeros => exact absurd rfl hm
    | noBorder =>
      obtain ⟨ω, hω, hy⟩ := C43_weighted_average_noborder win hw M hM
      have := hy x y h j hj
      rw [List.getElem?_eq_getElem hj] at this
      rw [Option.some.inj this]
      have hl := (C42_length_without_border x y M win h).1 (by omega)
      exact weighted_between hω _ lo up (fun k hk => hxD _ (by omega))
    | reflect =>
      obtain ⟨ω, hω, -, hy⟩ := C43_weighted_average win hw M hM
      have hl := C42_same_length x y _ win .reflect (by simp) h
      have := hy x y .reflect (by simp) h j (by omega)
      rw [List.getElem?_eq_getElem hj] at this
      rw [Option.some.inj this]
      apply weighted_between hω _ lo up
      intro k hk
      unfold extend
      split
      · exact hxD _ (by omega)
      · simp only
        split
        · exact hxD _ (by omega)
        · exact hxD _ (by omega)
    | clip =>
      obtain ⟨ω, hω, -, hy⟩ := C43_weighted_average win hw M hM
      have hl := C42_same_length x y _ win .clip (by simp) h
      have := hy x y .clip (by simp) h j (by omega)
      rw [List.getElem?_eq_getElem hj] at this
      rw [Option.some.inj this]
      apply weighted_between hω _ lo up
      intro k hk
      unfold extend
      split
      · exact hxD _ (by omega)
      · simp only
        split
        · exact hxD _ (by omega)
        · exact hxD _ (by omega)

/-- **C43**: for zero padding the range is extended by zero. -/
theorem C43_zeros_range (x y : List ℝ) (wl : ℤ) (win : Window)
    (h : smooth x (some wl) win .zeros = .ok y) (lo up : ℝ) (h0 : lo ≤ 0 ∧ 0 ≤ up)
    (hx : ∀ v ∈ x, lo ≤ v ∧ v ≤ up) : ∀ v ∈ y, lo ≤ v ∧ v ≤ up := by
  have hxD : ∀ i, i < x.length → lo ≤ x.getD i 0 ∧ x.getD i 0 ≤ up := by
    intro i hi
    have : x.getD i 0 = x[i] := by simp [List.getD_eq_getElem?_getD, hi]
    rw [this]; exact hx _ (List.getElem_mem hi)
  by_cases h3 : wl < 3
  · have : y = x := by
      simp only [smooth, h3, if_true] at h
      split at h
      · simp at h
      · simp at h; exact h.symm
    rw [this]; exact hx
  · obtain ⟨M, rfl⟩ : ∃ M : ℕ, wl = M := ⟨wl.toNat, by omega⟩
    have hM : 3 ≤ M := by omega
    have hlen : ¬ (x.length : ℤ) < M := by
      intro hc; simp [smooth, hc] at h
    have hw : win ≠ .other := by
      rintro rfl
      simp [smooth, hlen, h3] at h
    intro v hv
    obtain ⟨j, hj, rfl⟩ := List.getElem_of_mem hv
    obtain ⟨ω, hω, -, hy⟩ := C43_weighted_average win hw M hM
    have hl := C42_same_length x y _ win .zeros (by simp) h
    have := hy x y .zeros (by simp) h j (by omega)
    rw [List.getElem?_eq_getElem hj] at this
    rw [Option.some.inj this]
    apply weighted_between hω _ lo up
    intro k hk
    unfold extend
    split
    · exact hxD _ (by omega)
    · exact h0

/-! ## C44: smoothing a function -/

/-- `n` evenly spaced sample times. -/
noncomputable def grid (t0 dt : ℝ) (n : ℕ) : List ℝ := (List.range n).map (fun i : ℕ => t0 + i * dt)

theorem diff_grid (t0 dt : ℝ) (n : ℕ) : diff (grid t0 dt n) = List.replicate (n - 1) dt := by
  induction n generalizing t0 with
  | zero => rfl
  | succ n ih =>
    have hg : ∀ t0 m, grid t0 dt (m + 1) = t0 :: grid (t0 + dt) dt m := by
      intro t0 m
      simp only [grid, List.range_succ_eq_map, List.map_cons, List.map_map]
      congr 1
      · simp
      · apply List.map_congr_left
        intro i _
        simp only [Function.comp]; push_cast; ring
    cases n with
    | zero => simp [grid, diff]
    | succ n =>
      have := ih (t0 + dt)
      rw [hg, hg, diff, ← hg, this]
      simp [List.replicate_succ]

theorem extendGrid_grid (t0 dt : ℝ) (n N1 N2 : ℕ) (hn : 1 ≤ n) :
    extendGrid (grid t0 dt n) dt N1 N2 = grid (t0 - N1 * dt) dt (N1 + n + N2) := by
  have hh : (grid t0 dt n).headD 0 = t0 := by
    obtain ⟨m, rfl⟩ : ∃ m, n = m + 1 := ⟨n - 1, by omega⟩
    simp [grid, List.range_succ_eq_map]
  have hl : (grid t0 dt n).getLastD 0 = t0 + (n - 1 : ℕ) * dt := by
    obtain ⟨m, rfl⟩ : ∃ m, n = m + 1 := ⟨n - 1, by omega⟩
    simp [grid, List.range_succ]
  unfold extendGrid
  rw [hh, hl]
  apply List.ext_getElem?
  intro p
  simp only [grid, Int.toNat_natCast, Int.cast_natCast]
  by_cases h1 : p < N1
  · rw [List.append_assoc, List.getElem?_append_left (by simpa using h1)]
    simp [h1, show p < N1 + n + N2 by omega]
  · by_cases h2 : p < N1 + n
    · rw [List.getElem?_append_left (by simp; omega), List.getElem?_append_right (by simp; omega)]
      simp only [List.length_map, List.length_range, List.getElem?_map]
      rw [List.getElem?_range (by omega), List.getElem?_range (by omega)]
      simp only [Option.map_some, Option.some.injEq]
      rw [Nat.cast_sub (by omega)]; ring
    · by_cases h3 : p < N1 + n + N2
      · rw [List.getElem?_append_right (by simp; omega)]
        simp only [List.length_append, List.length_map, List.length_range, List.getElem?_map]
        rw [List.getElem?_range (by omega), List.getElem?_range (by omega)]
        simp only [Option.map_some, Option.some.injEq]
        rw [Nat.cast_sub hn, Nat.cast_sub (show N1 + n ≤ p by omega)]; push_cast; ring
      · rw [List.getElem?_eq_none (by simp; omega), List.getElem?_eq_none (by simp; omega)]

theorem extendGrid_length (t : List ℝ) (dt : ℝ) (N1 N2 : ℤ) :
    (extendGrid t dt N1 N2).length = N1.toNat + t.length + N2.toNat := by
  simp [extendGrid, add_assoc]

/-- The number of samples of a window is the nearest integer. -/
theorem pyRound_iff (x : ℝ) (k : ℤ) : pyRound x = k ↔ Spec.NearestInt x k := by
  have h1 := Int.floor_add_fract x
  have h2 := Int.fract_nonneg x
  have h3 := Int.fract_lt_one x
  have key : Spec.NearestInt x (pyRound x) := by
    unfold pyRound
    split
    · left; rw [abs_lt]; constructor <;> linarith
    · split
      · split
        · next h _ he =>
          right
          exact ⟨by rw [show x - (⌊x⌋ : ℝ) = 1 / 2 by linarith]; norm_num, he⟩
        · next h4 h5 he =>
          right
          refine ⟨by push_cast; rw [show x - ((⌊x⌋ : ℝ) + 1) = -(1 / 2) by linarith, abs_neg]; norm_num, ?_⟩
          rw [Int.not_even_iff_odd] at he
          exact he.add_one
      · next h4 h5 =>
        left
        have h6 : 1 / 2 < Int.fract x := lt_of_le_of_ne (not_lt.1 h4) (Ne.symm h5)
        push_cast
        rw [abs_lt]; constructor <;> linarith
  constructor
  · rintro rfl; exact key
  · intro hk
    generalize pyRound x = m at key
    have hm : |x - m| ≤ 1 / 2 := by rcases key with h | ⟨h, _⟩ <;> linarith
    have hk' : |x - k| ≤ 1 / 2 := by rcases hk with h | ⟨h, _⟩ <;> linarith
    by_contra hne
    have hd : (1 : ℝ) ≤ |(m : ℝ) - k| := by
      have : (1 : ℤ) ≤ |m - k| := Int.one_le_abs (sub_ne_zero.2 hne)
      exact_mod_cast this
    have ht : |(m : ℝ) - k| ≤ |x - m| + |x - k| := by
      calc |(m : ℝ) - k| = |(x - k) - (x - m)| := by congr 1; ring
        _ ≤ |x - k| + |x - m| := abs_sub _ _
        _ = _ := add_comm _ _
    rcases key with h | ⟨h, he⟩
    · linarith
    · rcases hk with h' | ⟨h', he'⟩
      · linarith
      · have h7 : |(m : ℝ) - k| = 1 := by linarith
        have h8 : |m - k| = 1 := by exact_mod_cast h7
        have h9 : Even (m - k) := he.sub he'
        rcases (abs_eq (by norm_num : (0:ℤ) ≤ 1)).1 h8 with h | h <;> rw [h] at h9 <;>
          revert h9 <;> decide

theorem smoothFunc_ok {f : List ℝ → Py (List ℝ)} {t y : List ℝ} {wl : ℝ} {win : Window}
    (h : smoothFunc f t (some wl) win = .ok y) :
    ∃ t0 t1 rest, t = t0 :: t1 :: rest ∧ t1 - t0 ≠ 0 ∧
      ∃ z, f (extendGrid t (t1 - t0) (Int.fdiv (pyRound (wl / (t1 - t0)) - 1) 2)
          (Int.fdiv (pyRound (wl / (t1 - t0))) 2)) = .ok z ∧
        smooth z (some (pyRound (wl / (t1 - t0)))) win .noBorder = .ok y := by
  cases t with
  | nil => simp [smoothFunc, pyGet, bind, Except.bind] at h
  | cons t0 t =>
    cases t with
    | nil => simp [smoothFunc, pyGet, bind, Except.bind] at h
    | cons t1 rest =>
      refine ⟨t0, t1, rest, rfl, ?_⟩
      simp only [smoothFunc, pyGet, List.getElem?_cons_succ, List.getElem?_cons_zero, bind,
        Except.bind, throw, throwThe, MonadExceptOf.throw, pure, Except.pure] at h
      split at h
      · simp at h
      · split at h
        · simp at h
        · next h1 =>
          refine ⟨h1, ?_⟩
          split at h
          · simp at h
          · next z hz => exact ⟨z, hz, h⟩

/-- **C44** (partial): `smooth_func` returns one value per sample time, for every function that returns
one value per time, unless the window covers exactly two samples (after rounding).  Missing: the
case of two samples, for which the claim is false, see `C44_two_samples_counterexample`. -/
theorem C44_length_partial (f : List ℝ → Py (List ℝ))
    (hf : ∀ a b, f a = .ok b → b.length = a.length) (t y : List ℝ) (wl : ℝ) (win : Window)
    (h2 : ∀ t0 t1, t[0]? = some t0 → t[1]? = some t1 → ¬ NearestInt (wl / (t1 - t0)) 2)
    (h : smoothFunc f t (some wl) win = .ok y) : y.length = t.length := by
  obtain ⟨t0, t1, rest, rfl, -, z, hz, hy⟩ := smoothFunc_ok h
  have hl := hf _ _ hz
  rw [extendGrid_length] at hl
  have hs := h2 t0 t1 (by simp) (by simp)
  rw [← pyRound_iff] at hs
  generalize pyRound (wl / (t1 - t0)) = s at hl hy hs
  have hlen := C42_length_without_border z y s win hy
  simp only [List.length_cons] at hl ⊢
  by_cases h3 : 3 ≤ s
  · have := hlen.1 h3
    have e1 : Int.fdiv (s - 1) 2 = (s - 1) / 2 := Int.fdiv_eq_ediv_of_nonneg _ (by norm_num)
    have e2 : Int.fdiv s 2 = s / 2 := Int.fdiv_eq_ediv_of_nonneg _ (by norm_num)
    rw [e1, e2] at hl
    omega
  · have := hlen.2 (by omega)
    subst this
    have e1 : Int.fdiv (s - 1) 2 = (s - 1) / 2 := Int.fdiv_eq_ediv_of_nonneg _ (by norm_num)
    have e2 : Int.fdiv s 2 = s / 2 := Int.fdiv_eq_ediv_of_nonneg _ (by norm_num)
    rw [e1, e2] at hl
    omega

/-- **C44** is violated by the code: for a window of two samples one value too much is
returned (three values for two sample times). -/
theorem C44_two_samples_counterexample :
    ∃ y, smoothFunc (fun ts => .ok ts) [0, 1] (some 2) .flat = .ok y ∧ y.length = 3 := by
  refine ⟨[0, 1, 2], ?_, rfl⟩
  have hr : pyRound 2 = 2 := by
    have : (2:ℝ) = ((2:ℤ):ℝ) := by norm_num
    unfold pyRound
    rw [this, Int.fract_intCast, Int.floor_intCast]
    norm_num
  simp [smoothFunc, pyGet, bind, Except.bind, throw, throwThe, MonadExceptOf.throw, pure,
    Except.pure, diff, hr, extendGrid, smooth]
  norm_num [Int.fdiv]

theorem smoothFunc_values (win : Window) (hw : win ≠ .other) (M : ℕ) (hM : 3 ≤ M) (g : ℝ → ℝ)
    (t0 dt wl : ℝ) (n : ℕ) (hn : 2 ≤ n) (hdt : dt ≠ 0) (hr : pyRound (wl / dt) = M) :
    ∃ y, smoothFunc (fun ts => .ok (ts.map g)) (grid t0 dt n) (some wl) win = .ok y ∧
      y.length = n ∧
      ∀ j < n, y[j]? = some (∑ k ∈ Finset.range M,
        ωfun win M k * g (t0 + j * dt + ((k : ℝ) - ((M - 1) / 2 : ℕ)) * dt)) := by
  set z := (grid (t0 - ((M - 1) / 2 : ℕ) * dt) dt ((M - 1) / 2 + n + M / 2)).map g with hz
  have hzl : z.length = (M - 1) / 2 + n + M / 2 := by simp [hz, grid]
  have g1 : (grid t0 dt n)[1]? = some (t0 + dt) := by simp [grid, show 1 < n by omega]
  have g0 : (grid t0 dt n)[0]? = some t0 := by simp [grid, show 0 < n by omega]
  have e1 : Int.fdiv ((M : ℤ) - 1) 2 = ((M - 1) / 2 : ℕ) := by
    rw [Int.fdiv_eq_ediv_of_nonneg _ (by norm_num)]; omega
  have e2 : Int.fdiv (M : ℤ) 2 = (M / 2 : ℕ) := by
    rw [Int.fdiv_eq_ediv_of_nonneg _ (by norm_num)]; omega
  have hcomp : smoothFunc (fun ts => .ok (ts.map g)) (grid t0 dt n) (some wl) win =
      .ok (convolveValid (windowNorm win M) z) := by
    simp only [smoothFunc, pyGet, g1, g0, bind, Except.bind, throw, throwThe, MonadExceptOf.throw,
      pure, Except.pure, diff_grid, add_sub_cancel_left]
    rw [if_neg (by simp; norm_num), if_neg hdt]
    simp only [hr, e1, e2]
    rw [extendGrid_grid t0 dt n _ _ (by omega), ← hz]
    simp only [smooth, hzl]
    rw [if_neg (by omega), if_neg (by omega)]
    simp [hw, pad]
  refine ⟨_, hcomp, ?_, ?_⟩
  · rw [convolve_length, windowNorm_length, hzl]; omega
  · intro j hj
    rw [convolve_getElem win M z hM hw (by omega) j (by omega)]
    simp only [Option.some.injEq]
    apply Finset.sum_congr rfl
    intro k hk
    have hk := Finset.mem_range.1 hk
    congr 1
    have : z.getD (j + k) 0 = g (t0 - ((M - 1) / 2 : ℕ) * dt + ((j + k : ℕ) : ℝ) * dt) := by
      rw [hz, List.getD_eq_getElem?_getD, grid, List.map_map, List.getElem?_map,
        List.getElem?_range (by omega)]
      rfl
    rw [this]; congr 1; push_cast; ring

/-- **C44**: on an evenly spaced grid and for a window of `M ≥ 3` samples `smooth_func` applied to a
function `g` returns at sample `j` the weighted average of the values of `g` at the times
`t_j + (k - (M-1)/2) dt`, `k = 0 … M-1`, i.e. on the continued grid. -/
theorem C44_values (win : Window) (hw : win ≠ .other) (M : ℕ) (hM : 3 ≤ M) :
    ∃ ω, IsWeights ω M ∧
      ∀ (g : ℝ → ℝ) (t0 dt wl : ℝ) (n : ℕ), 2 ≤ n → dt ≠ 0 → NearestInt (wl / dt) M →
        ∃ y, smoothFunc (fun ts => .ok (ts.map g)) (grid t0 dt n) (some wl) win = .ok y ∧
          y.length = n ∧
          ∀ j < n, y[j]? = some (∑ k ∈ Finset.range M,
            ω k * g (t0 + j * dt + ((k : ℝ) - ((M - 1) / 2 : ℕ)) * dt)) := by
  exact ⟨ωfun win M, isWeights_ωfun win M hM hw, fun g t0 dt wl n h1 h2 h3 =>
    smoothFunc_values win hw M hM g t0 dt wl n h1 h2 ((pyRound_iff _ _).2 h3)⟩

/-- non-vacuity: sampling interval 1/10 s, window 0.5 s -/
example : NearestInt ((0.5 : ℝ) / 0.1) 5 ∧ NearestInt ((0.25 : ℝ) / 0.1) 2 ∧
    NearestInt ((0.35 : ℝ) / 0.1) 4 := by
  refine ⟨.inl ?_, .inr ⟨?_, by decide⟩, .inr ⟨?_, by decide⟩⟩ <;> norm_num [abs_of_neg]

/-- **C44**: unevenly spaced times are rejected with `ValueError`. -/
theorem C44_rejects_uneven (f : List ℝ → Py (List ℝ)) (t0 t1 : ℝ) (rest : List ℝ) (wl : ℝ)
    (win : Window)
    (h : 1e-5 < ((diff (t0 :: t1 :: rest)).map (fun d => |d - (t1 - t0)|)).sum) :
    smoothFunc f (t0 :: t1 :: rest) (some wl) win = .error .valueError := by
  simp only [smoothFunc, pyGet, List.getElem?_cons_succ, List.getElem?_cons_zero, bind,
        Except.bind, throw, throwThe, MonadExceptOf.throw, pure, Except.pure]
  rw [if_pos h]

example : (1e-5 : ℝ) < ((diff [0, 1, 3]).map (fun d => |d - (1 - 0)|)).sum := by
  norm_num [diff]

end Qopen
