import Verif.Props.Smooth
import Verif.Props.TimeAxis
import Verif.Props.Invert

/-!
# Observed energies and Green's function are smoothed alike: C109
-/

namespace Qopen

open Real Util Tr Energy Spec InvertFb Window

variable {lib : Lib} {wcfg : WCfg} {cfg : Cfg} {tr : Trace} {p : PairData} {G : Greens}
  {γ : ℝ → ℝ} {g0 s A b : ℝ}

namespace Spec

/-- Time of sample `k` of a trace after the S-onset, moved to the arrival of the direct wave. -/
noncomputable def lapse (tr : Trace) (v0 : ℝ) (k : ℕ) : ℝ :=
  tr.distance / v0 + (trueTime tr k - tr.sonset)

/-- The largest distance between a sample and the samples which are averaged: half of the smoothing
window, rounded to samples. -/
noncomputable def reach (tr : Trace) (s : ℝ) : ℝ := s / 2 + 1 / (4 * tr.sr)

end Spec

namespace SmoothAlike

theorem pyRound_le (x : ℝ) : (pyRound x : ℝ) ≤ x + 1 / 2 := by
  have h1 := Int.floor_add_fract x
  unfold pyRound
  split
  · have := Int.fract_nonneg x; linarith
  · split
    · split <;> push_cast <;> linarith
    · next h2 h3 =>
      push_cast; linarith

theorem lapse_eq (v0 : ℝ) (k : ℕ) : lapse tr v0 k = lapse tr v0 0 + k * (1 / tr.sr) := by
  unfold lapse trueTime; push_cast; ring

/-- The smoothed samples. -/
theorem smoothTrace_values {tr' : Trace} (hs : wcfg.smooth = some s)
    (h : smoothTrace wcfg tr = .ok tr') :
    (∀ M : ℕ, 3 ≤ M → pyRound (tr.sr * s) = M → wcfg.smoothWindow ≠ .other ∧
      ∀ j < tr.data.length, tr'.data[j]? =
        some (smoothedAt (ωfun wcfg.smoothWindow M) M .zeros tr.data j)) ∧
    (pyRound (tr.sr * s) < 3 → tr'.data = tr.data) := by
  unfold smoothTrace at h
  rw [hs] at h
  simp only at h
  by_cases h0 : s = 0
  · rw [if_pos h0, Except.ok.injEq] at h
    subst h0 h
    refine ⟨?_, fun _ => rfl⟩
    intro M hM hr
    have := pyRound_le (tr.sr * 0)
    rw [hr] at this
    have h3 : (3 : ℝ) ≤ M := by exact_mod_cast hM
    push_cast at this
    linarith
  · rw [if_neg h0] at h
    obtain ⟨d, hd, h⟩ := bind_ok.1 h
    simp only [pure, Except.pure, Except.ok.injEq] at h
    subst h
    constructor
    · intro M hM hr
      rw [hr] at hd
      have hw : wcfg.smoothWindow ≠ .other := by
        intro ho
        rw [ho] at hd
        simp only [smooth] at hd
        split at hd
        · simp at hd
        · rw [if_neg (by omega), if_pos trivial] at hd; simp at hd
      exact ⟨hw, smooth_values _ hw M hM _ _ _ (by simp) hd⟩
    · intro h3
      simp only [smooth] at hd
      split at hd
      · simp at hd
      · rw [Except.ok.injEq] at hd; exact hd.symm

/-- Short windows leave the function as it is. -/
theorem smoothFunc_short (win : Util.Window) (g : ℝ → ℝ) (t0 dt wl : ℝ) (n : ℕ) (hn : 2 ≤ n)
    (hdt : dt ≠ 0) (hr : pyRound (wl / dt) < 2) :
    smoothFunc (fun ts => .ok (ts.map g)) (grid t0 dt n) (some wl) win =
      .ok ((grid t0 dt n).map g) := by
  have g1 : (grid t0 dt n)[1]? = some (t0 + dt) := by simp [grid, show 1 < n by omega]
  have g0 : (grid t0 dt n)[0]? = some t0 := by simp [grid, show 0 < n by omega]
  have e1 : (Int.fdiv (pyRound (wl / dt) - 1) 2).toNat = 0 := by
    rw [Int.fdiv_eq_ediv_of_nonneg _ (by norm_num)]; omega
  have e2 : (Int.fdiv (pyRound (wl / dt)) 2).toNat = 0 := by
    rw [Int.fdiv_eq_ediv_of_nonneg _ (by norm_num)]; omega
  simp only [smoothFunc, pyGet, g1, g0, bind, Except.bind, throw, throwThe, MonadExceptOf.throw,
    pure, Except.pure, diff_grid, add_sub_cancel_left]
  rw [if_neg (by simp; norm_num), if_neg hdt]
  have e3 : extendGrid (grid t0 dt n) dt (Int.fdiv (pyRound (wl / dt) - 1) 2)
      (Int.fdiv (pyRound (wl / dt)) 2) = grid t0 dt n := by
    unfold extendGrid
    rw [e1, e2]
    simp
  simp only [e3, smooth]
  rw [if_neg (by
    have : (((grid t0 dt n).map g).length : ℤ) = n := by simp [grid]
    rw [this]; omega), if_pos (by omega)]

theorem between {ω : ℕ → ℝ} {M : ℕ} (hω : ∀ k < M, 0 ≤ ω k) {v e : ℕ → ℝ} {lo up A : ℝ} (hA : 0 ≤ A)
    (hv : ∀ k < M, 0 ≤ v k) (he : ∀ k < M, lo ≤ e k ∧ e k ≤ up) :
    A * (∑ k ∈ Finset.range M, ω k * v k) * lo ≤ ∑ k ∈ Finset.range M, ω k * (A * v k * e k) ∧
    ∑ k ∈ Finset.range M, ω k * (A * v k * e k) ≤ A * (∑ k ∈ Finset.range M, ω k * v k) * up := by
  rw [Finset.mul_sum, Finset.sum_mul, Finset.sum_mul]
  constructor <;>
  · refine Finset.sum_le_sum ?_
    intro k hk
    have hk := Finset.mem_range.1 hk
    have h0 : 0 ≤ A * (ω k * v k) := mul_nonneg hA (mul_nonneg (hω k hk) (hv k hk))
    have := he k hk
    nlinarith [mul_le_mul_of_nonneg_left this.1 h0, mul_le_mul_of_nonneg_left this.2 h0]

theorem map_of_forall₂ {l : List (ℝ × ℝ)} {g : List ℝ} {A : ℝ}
    (h : List.Forall₂ (fun (q : ℝ × ℝ) v => q.2 = A * v) l g) : l.map Prod.snd = g.map (A * ·) := by
  induction h with
  | nil => rfl
  | cons h _ ih => simp [h, ih]

end SmoothAlike

open SmoothAlike

/-- **C109** (part): for noise-free envelopes `A G(t) exp(-b t)` the smoothed energies of the coda window
agree with the model for the smoothed Green's function up to the decay by absorption within half a
smoothing window; in particular they agree exactly without absorption: both are averaged over the same
times with the same weights.  For each window type and length, if the coda window starts at a sample,
has at least two samples, is not closer to the ends of the trace than half a smoothing window, and
the smoothing window does not consist of exactly two samples. -/
theorem C109_alike_partial (hsr : 0 < tr.sr) (hacc : Accepts lib wcfg cfg.v0 tr p)
    (hs : wcfg.smooth = some s) (hs0 : 0 ≤ s) (hs' : cfg.smooth = wcfg.smooth)
    (hwin : cfg.smoothWindow = wcfg.smoothWindow) (h2 : ¬ NearestInt (tr.sr * s) 2)
    (hG : ∀ ts, G tr.distance ts cfg.v0 g0 = .ok (ts.map γ)) (hγ : ∀ t, 0 ≤ γ t) (hA : 0 ≤ A)
    (hb : 0 ≤ b)
    (hdata : ∀ (k : ℕ) x, tr.data[k]? = some x →
      x = A * γ (lapse tr cfg.v0 k) * exp (-b * lapse tr cfg.v0 k))
    (hlen : 2 ≤ p.coda.length) (hstart : ∃ (m : ℕ) (E : ℝ), p.coda[0]? = some (lapse tr cfg.v0 m, E))
    (hcover : ∀ q ∈ p.coda, lapse tr cfg.v0 0 ≤ q.1 - reach tr s ∧
      q.1 + reach tr s ≤ lapse tr cfg.v0 (tr.data.length - 1)) :
    ∃ g, gsmooth G cfg p.distance (p.coda.map Prod.fst) g0 = .ok g ∧
      List.Forall₂ (fun q v => A * v * exp (-b * q.1) * exp (-(b * reach tr s)) ≤ q.2 ∧
        q.2 ≤ A * v * exp (-b * q.1) * exp (b * reach tr s)) p.coda g := by
  rw [← pyRound_iff] at h2
  obtain ⟨-, -, hdist, ⟨tr', w, esl, htr, -, -, hsl, hcoda⟩, -, -⟩ := hacc
  obtain ⟨e1, e2, e3, e4, e5, e6⟩ := smoothTrace_same htr
  obtain ⟨hv3, hv2⟩ := smoothTrace_values hs htr
  obtain ⟨n, hn, -⟩ := C20_time_axis_partial (v0 := cfg.v0) (by rw [e4]; exact hsr) hsl
  have hL : p.coda.length = esl.data.length := by rw [hcoda]; simp
  obtain ⟨m, E0, hm⟩ := hstart
  have hget : ∀ (i : ℕ) q, p.coda[i]? = some q → esl.data[i]? = some q.2 ∧
      q.1 = sampleTime tr cfg.v0 w.1 i := by
    intro i q hq
    rw [hcoda, List.getElem?_map] at hq
    cases hz : esl.data.zipIdx[i]? with
    | none => rw [hz] at hq; simp at hq
    | some z =>
      rw [hz] at hq
      simp only [Option.map_some, Option.some.injEq] at hq
      rw [List.getElem?_zipIdx] at hz
      cases hd : esl.data[i]? with
      | none => rw [hd] at hz; simp at hz
      | some v =>
        rw [hd] at hz
        simp only [Option.map_some, Option.some.injEq, Nat.zero_add] at hz
        subst hz
        rw [← hq]
        exact ⟨rfl, rfl⟩
  -- the window starts at sample `m`
  have hw1 : w.1 = tr.start + m / tr.sr := by
    have := (hget 0 _ hm).2
    unfold lapse trueTime sampleTime at this
    push_cast at this
    rw [zero_div] at this
    linarith
  have hnm : n = m := by
    obtain ⟨hx, -⟩ := hget 0 _ hm
    obtain ⟨-, h', -⟩ := hn 0 _ hx
    have h' := h' (by rw [e3, hw1]; have : (0 : ℝ) ≤ m / tr.sr := by positivity
                      linarith)
    unfold sampleTime trueTime at h'
    rw [e3, e4, e5, e6, hw1] at h'
    push_cast at h'
    have e : (0 : ℝ) / tr.sr + tr.distance / cfg.v0 + (tr.start + m / tr.sr - tr.sonset) -
        (tr.distance / cfg.v0 + (tr.start + (n + 0) / tr.sr - tr.sonset)) = (m - n) / tr.sr := by ring
    rw [e, abs_div, abs_of_pos hsr, div_le_div_iff_of_pos_right hsr] at h'
    have h'' : |((m : ℤ) - n : ℤ)| < 1 := by
      have : ((|((m : ℤ) - n : ℤ)| : ℤ) : ℝ) < 1 := by
        push_cast
        linarith
      exact_mod_cast this
    rw [Int.abs_lt_one_iff] at h''
    omega
  subst hnm
  have htime : ∀ (i : ℕ) q, p.coda[i]? = some q → q.1 = lapse tr cfg.v0 (n + i) ∧
      tr'.data[n + i]? = some q.2 := by
    intro i q hq
    obtain ⟨h1, h3⟩ := hget i q hq
    refine ⟨?_, (hn i _ h1).1⟩
    rw [h3, sampleTime, hw1]
    unfold lapse trueTime
    push_cast
    ring
  have hgrid : p.coda.map Prod.fst = grid (lapse tr cfg.v0 n) (1 / tr.sr) p.coda.length := by
    apply List.ext_getElem
    · simp [grid]
    · intro i i1 i2
      have hi : i < p.coda.length := by simpa using i1
      have := (htime i _ (List.getElem?_eq_getElem hi)).1
      simp only [List.getElem_map, grid, List.getElem_range, this]
      rw [lapse_eq, lapse_eq cfg.v0 n]
      push_cast; ring
  have hround : pyRound (s / (1 / tr.sr)) = pyRound (tr.sr * s) := by
    congr 1; field_simp
  have hreach : 0 ≤ reach tr s := by unfold reach; positivity
  have hfun : (fun ts => G p.distance ts cfg.v0 g0) = fun ts => .ok (ts.map γ) := by
    funext ts; rw [hdist]; exact hG ts
  have hdt : (1 / tr.sr) ≠ 0 := by positivity
  unfold gsmooth
  rw [hfun, hs', hs, hgrid, hwin]
  have hlt : ∀ i < p.coda.length, n + i < tr'.data.length := by
    intro i hi
    exact (List.getElem?_eq_some_iff.1 (htime i _ (List.getElem?_eq_getElem hi)).2).1
  by_cases h3 : 3 ≤ pyRound (tr.sr * s)
  · obtain ⟨M, hM⟩ : ∃ M : ℕ, pyRound (tr.sr * s) = M := ⟨(pyRound (tr.sr * s)).toNat, by omega⟩
    have hM3 : 3 ≤ M := by omega
    obtain ⟨hw, hvals⟩ := hv3 M hM3 hM
    obtain ⟨g, hg, hgl, hgv⟩ := smoothFunc_values wcfg.smoothWindow hw M hM3 γ (lapse tr cfg.v0 n)
      (1 / tr.sr) s p.coda.length hlen hdt (by rw [hround, hM])
    refine ⟨g, hg, ?_⟩
    rw [List.forall₂_iff_get]
    refine ⟨hgl.symm, ?_⟩
    intro i i1 i2
    simp only [List.get_eq_getElem]
    have hwei := isWeights_ωfun wcfg.smoothWindow M hM3 hw
    obtain ⟨ht, hx⟩ := htime i _ (List.getElem?_eq_getElem i1)
    have hgi := hgv i i1
    rw [List.getElem?_eq_getElem i2, Option.some.injEq] at hgi
    -- half of the window
    have hMr : (M : ℝ) / 2 / tr.sr ≤ reach tr s := by
      have := pyRound_le (tr.sr * s)
      rw [hM] at this
      push_cast at this
      unfold reach
      rw [div_le_iff₀ hsr]
      have e : (s / 2 + 1 / (4 * tr.sr)) * tr.sr = (tr.sr * s + 1 / 2) / 2 := by
        field_simp; ring
      rw [e]; linarith
    have hc := hcover _ (List.getElem_mem i1)
    rw [ht] at hc
    have hlo : (M - 1) / 2 ≤ n + i := by
      by_contra hlt
      push Not at hlt
      have h1 : ((n + i : ℕ) : ℝ) + 1 ≤ ((M - 1) / 2 : ℕ) := by exact_mod_cast hlt
      have h2 : (((M - 1) / 2 : ℕ) : ℝ) * 2 ≤ M := by
        have : ((M - 1) / 2) * 2 ≤ M := by omega
        exact_mod_cast this
      have h4 := hc.1
      rw [lapse_eq cfg.v0 (n + i)] at h4
      have h5 : (M : ℝ) / 2 / tr.sr ≤ (n + i : ℕ) * (1 / tr.sr) := by linarith
      rw [mul_one_div, div_le_div_iff_of_pos_right hsr] at h5
      linarith
    have hne : tr.data ≠ [] := by
      intro h0
      have := hlt i i1
      have hl' : tr'.data = [] := by
        have h := htr
        unfold smoothTrace at h
        rw [hs] at h
        simp only at h
        split at h
        · rw [Except.ok.injEq] at h; rw [← h]; exact h0
        · obtain ⟨d, hd, h⟩ := bind_ok.1 h
          simp only [pure, Except.pure, Except.ok.injEq] at h
          have := C42_same_length _ _ _ _ _ (by simp) hd
          rw [← h]
          rw [h0] at this
          exact List.length_eq_zero_iff.1 this
      rw [hl'] at this
      simp at this
    have hup : n + i + M / 2 < tr.data.length := by
      have h4 := hc.2
      rw [lapse_eq cfg.v0 (n + i), lapse_eq cfg.v0 (tr.data.length - 1)] at h4
      have h5 : (M : ℝ) / 2 / tr.sr ≤ (((tr.data.length - 1 : ℕ) : ℝ) - (n + i : ℕ)) * (1 / tr.sr) := by
        linarith
      rw [mul_one_div, div_le_div_iff_of_pos_right hsr] at h5
      have h6 : (((M / 2 : ℕ)) : ℝ) ≤ M / 2 := Nat.cast_div_le
      have h7 : ((n + i + M / 2 : ℕ) : ℝ) ≤ ((tr.data.length - 1 : ℕ) : ℝ) := by
        rw [Nat.cast_add (n + i)]; linarith
      have h8 : n + i + M / 2 ≤ tr.data.length - 1 := by exact_mod_cast h7
      have := List.length_pos_iff.2 hne
      omega
    have hsm := hvals (n + i) (by omega)
    rw [hx, Option.some.injEq] at hsm
    have key : ∀ k < M, extend .zeros tr.data (((n + i : ℕ) : ℤ) + k - ((M - 1) / 2 : ℕ)) =
        A * γ (lapse tr cfg.v0 n + i * (1 / tr.sr) + ((k : ℝ) - ((M - 1) / 2 : ℕ)) * (1 / tr.sr)) *
        (exp (-b * p.coda[i].1) * exp (-b * (((k : ℝ) - ((M - 1) / 2 : ℕ)) * (1 / tr.sr)))) := by
      intro k hk
      obtain ⟨j, hj⟩ : ∃ j : ℕ, ((n + i : ℕ) : ℤ) + k - ((M - 1) / 2 : ℕ) = j :=
        ⟨n + i + k - (M - 1) / 2, by omega⟩
      have hjl : j < tr.data.length := by omega
      rw [hj, extend, if_pos ⟨by omega, by exact_mod_cast hjl⟩, Int.toNat_natCast,
        List.getD_eq_getElem?_getD, List.getElem?_eq_getElem hjl, Option.getD_some,
        hdata j _ (List.getElem?_eq_getElem hjl)]
      have hjr : (j : ℝ) = (n : ℝ) + i + k - ((M - 1) / 2 : ℕ) := by
        have : ((j : ℤ) : ℝ) = ((((n + i : ℕ) : ℤ) + k - ((M - 1) / 2 : ℕ) : ℤ) : ℝ) := by rw [hj]
        rw [Int.cast_sub, Int.cast_add] at this
        push_cast [-Nat.cast_div] at this
        exact this
      have hlj : lapse tr cfg.v0 j = lapse tr cfg.v0 n + i * (1 / tr.sr) +
          ((k : ℝ) - ((M - 1) / 2 : ℕ)) * (1 / tr.sr) := by
        rw [lapse_eq, lapse_eq cfg.v0 n, hjr]; ring
      have hti : p.coda[i].1 = lapse tr cfg.v0 n + i * (1 / tr.sr) := by
        rw [ht, lapse_eq, lapse_eq cfg.v0 n]; push_cast; ring
      rw [hlj, ← exp_add, hti]
      congr 2
      ring
    have hx' : p.coda[i].2 = ∑ k ∈ Finset.range M, ωfun wcfg.smoothWindow M k *
        (A * γ (lapse tr cfg.v0 n + i * (1 / tr.sr) +
          ((k : ℝ) - ((M - 1) / 2 : ℕ)) * (1 / tr.sr)) *
        (exp (-b * p.coda[i].1) * exp (-b * (((k : ℝ) - ((M - 1) / 2 : ℕ)) * (1 / tr.sr))))) := by
      rw [hsm, smoothedAt]
      refine Finset.sum_congr rfl ?_
      intro k hk
      rw [key k (Finset.mem_range.1 hk)]
    have hbd := between (ω := ωfun wcfg.smoothWindow M) (M := M) hwei.nonneg
      (v := fun k => γ (lapse tr cfg.v0 n + i * (1 / tr.sr) +
        ((k : ℝ) - ((M - 1) / 2 : ℕ)) * (1 / tr.sr)))
      (e := fun k => exp (-b * p.coda[i].1) * exp (-b * (((k : ℝ) - ((M - 1) / 2 : ℕ)) * (1 / tr.sr))))
      (lo := exp (-b * p.coda[i].1) * exp (-(b * reach tr s)))
      (up := exp (-b * p.coda[i].1) * exp (b * reach tr s)) hA (fun k _ => hγ _) (by
        intro k hk
        have hk1 : ((k : ℝ) - ((M - 1) / 2 : ℕ)) * (1 / tr.sr) ≤ reach tr s := by
          refine le_trans ?_ hMr
          rw [mul_one_div, div_le_div_iff_of_pos_right hsr]
          have : 2 * k ≤ M + 2 * ((M - 1) / 2) := by omega
          have : (2 : ℝ) * k ≤ M + 2 * ((M - 1) / 2 : ℕ) := by exact_mod_cast this
          linarith
        have hk2 : -reach tr s ≤ ((k : ℝ) - ((M - 1) / 2 : ℕ)) * (1 / tr.sr) := by
          have : -(((M : ℝ) / 2) / tr.sr) ≤ ((k : ℝ) - ((M - 1) / 2 : ℕ)) * (1 / tr.sr) := by
            rw [mul_one_div, ← neg_div, div_le_div_iff_of_pos_right hsr]
            have : 2 * ((M - 1) / 2) ≤ M + 2 * k := by omega
            have : (2 : ℝ) * ((M - 1) / 2 : ℕ) ≤ M + 2 * k := by exact_mod_cast this
            linarith
          linarith
        constructor
        · refine mul_le_mul_of_nonneg_left (exp_le_exp.2 ?_) (exp_pos _).le
          nlinarith
        · refine mul_le_mul_of_nonneg_left (exp_le_exp.2 ?_) (exp_pos _).le
          nlinarith)
    rw [hx', hgi]
    refine ⟨le_trans (le_of_eq ?_) hbd.1, le_trans hbd.2 (le_of_eq ?_)⟩ <;> ring
  · have hd := hv2 (by omega)
    refine ⟨_, smoothFunc_short _ _ _ _ _ _ hlen hdt (by rw [hround]; omega), ?_⟩
    rw [List.forall₂_iff_get]
    refine ⟨by simp [grid], ?_⟩
    intro i i1 i2
    obtain ⟨ht, hx⟩ := htime i _ (List.getElem?_eq_getElem i1)
    rw [hd] at hx
    have hxv := hdata _ _ hx
    have hti : lapse tr cfg.v0 n + i * (1 / tr.sr) = p.coda[i].1 := by
      rw [ht, lapse_eq cfg.v0 (n + i), lapse_eq cfg.v0 n]; push_cast; ring
    simp only [List.get_eq_getElem, List.getElem_map, grid, List.getElem_range, hti]
    rw [← ht] at hxv
    have h0 : 0 ≤ A * γ p.coda[i].1 * exp (-b * p.coda[i].1) :=
      mul_nonneg (mul_nonneg hA (hγ _)) (exp_pos _).le
    have hbr : 0 ≤ b * reach tr s := mul_nonneg hb hreach
    rw [hxv]
    exact ⟨mul_le_of_le_one_right h0 (exp_le_one_iff.2 (by linarith)),
      le_mul_of_one_le_right h0 (one_le_exp hbr)⟩

/-- **C109** (part): without absorption the smoothed energies are exactly the constant times the smoothed
Green's function. -/
theorem C109_equal_partial (hsr : 0 < tr.sr) (hacc : Accepts lib wcfg cfg.v0 tr p)
    (hs : wcfg.smooth = some s) (hs0 : 0 ≤ s) (hs' : cfg.smooth = wcfg.smooth)
    (hwin : cfg.smoothWindow = wcfg.smoothWindow) (h2 : ¬ NearestInt (tr.sr * s) 2)
    (hG : ∀ ts, G tr.distance ts cfg.v0 g0 = .ok (ts.map γ)) (hγ : ∀ t, 0 ≤ γ t) (hA : 0 ≤ A)
    (hdata : ∀ (k : ℕ) x, tr.data[k]? = some x → x = A * γ (lapse tr cfg.v0 k))
    (hlen : 2 ≤ p.coda.length) (hstart : ∃ (m : ℕ) (E : ℝ), p.coda[0]? = some (lapse tr cfg.v0 m, E))
    (hcover : ∀ q ∈ p.coda, lapse tr cfg.v0 0 ≤ q.1 - reach tr s ∧
      q.1 + reach tr s ≤ lapse tr cfg.v0 (tr.data.length - 1)) :
    ∃ g, gsmooth G cfg p.distance (p.coda.map Prod.fst) g0 = .ok g ∧
      p.coda.map Prod.snd = g.map (A * ·) := by
  obtain ⟨g, h1, h3⟩ := C109_alike_partial (b := 0) hsr hacc hs hs0 hs' hwin h2 hG hγ hA le_rfl
    (by intro k x hx; rw [hdata k x hx]; simp) hlen hstart hcover
  refine ⟨g, h1, ?_⟩
  have : List.Forall₂ (fun (q : ℝ × ℝ) v => q.2 = A * v) p.coda g := by
    refine h3.imp ?_
    intro q v hq
    simp at hq
    exact le_antisymm hq.2 hq.1
  exact map_of_forall₂ this

/-! ### A case which meets the hypotheses -/

namespace SmoothAlike

open TimeAxisExample

/-- The energy grows with the square of the lapse time. -/
noncomputable def exT : Trace :=
  { event := "e", station := "s", start := 0, sr := 1, data := [0, 1, 4, 9, 16, 25, 36, 49],
    origin := 0, ponset := 0.5, sonset := 1, distance := 1, noise := none }

/-- Smoothing over three samples, coda window from 3 s to 4 s. -/
noncomputable def exW : WCfg :=
  { exCfg with bulkWindow := none, smooth := some 3, smoothWindow := .flat }

theorem round3 : pyRound ((1 : ℝ) * 3) = 3 := by
  rw [one_mul]
  unfold pyRound
  have h1 : Int.fract (3 : ℝ) = 0 := by
    have := Int.fract_natCast (R := ℝ) 3
    exact_mod_cast this
  have h2 : ⌊(3 : ℝ)⌋ = 3 := by
    have := Int.floor_natCast (R := ℝ) 3
    exact_mod_cast this
  rw [h1, h2, if_pos (by norm_num)]

/-- The trace is accepted, and its smoothed coda window meets the hypotheses. -/
theorem ex_alike : ∃ p : PairData, Accepts exLib exW 1 exT p ∧ 2 ≤ p.coda.length ∧
    (∃ (m : ℕ) (E : ℝ), p.coda[0]? = some (lapse exT 1 m, E)) ∧
    (∀ q ∈ p.coda, lapse exT 1 0 ≤ q.1 - reach exT 3 ∧
      q.1 + reach exT 3 ≤ lapse exT 1 (exT.data.length - 1)) ∧
    (∀ (k : ℕ) x, exT.data[k]? = some x → x = 1 * (lapse exT 1 k) ^ 2) := by
  obtain ⟨d, hd⟩ : ∃ d, smooth exT.data (some 3) .flat = .ok d := by
    refine ⟨convolveValid (windowNorm .flat 3) (pad .zeros exT.data 3), ?_⟩
    simp [smooth, exT]
  have hl : d.length = 8 := by rw [C42_same_length _ _ _ _ _ (by simp) hd]; simp [exT]
  have hst : smoothTrace exW exT = .ok { exT with data := d } := by
    unfold smoothTrace
    have h1 : exW.smooth = some 3 := rfl
    have h2 : exW.smoothWindow = .flat := rfl
    have h4 : pyRound (exT.sr * 3) = 3 := round3
    rw [h1, h2]
    simp only
    rw [if_neg (by norm_num), h4, hd]
    rfl
  obtain ⟨x, y, hxy⟩ : ∃ x y, (d.drop 3).take 2 = [x, y] := by
    refine ⟨d[3], d[4], ?_⟩
    rw [List.drop_eq_getElem_cons (by omega), List.take_succ_cons,
      List.drop_eq_getElem_cons (by omega), List.take_succ_cons, List.take_zero]
  have hsl : getSlice { exT with data := d } (3, 4) =
      some { exT with start := 3, data := [x, y] } := by
    have := slice_int (tr := { exT with data := d }) rfl rfl (a := 3) (b := 4) (by norm_num)
      (by simp [hl])
    push_cast at this
    rw [this]
    simp [hxy]
  refine ⟨{ event := "e", station := "s", distance := 1, coda := [(3, x), (4, y)] }, ?_, by simp, ?_, ?_, ?_⟩
  · refine ⟨rfl, rfl, rfl, ⟨_, (3, 4), _, hst, ⟨(3, 4), ?_, ?_, rfl⟩, ?_, hsl, ?_⟩, ?_, ?_⟩
    · exact ex_tw rfl (num := "+3".toList) (num' := "+4".toList) (by decide) (by simp [exFloat])
        (by decide) (by simp [exFloat])
    · norm_num [exW, exCfg]
    · intro mw h; simp [exW, exCfg] at h
    · norm_num [sampleTime, exT]
    · intro bw h; simp [exW] at h
    · intro _; simp
  · exact ⟨3, x, by norm_num [lapse, trueTime, exT]⟩
  · intro q hq
    simp only [List.mem_cons, List.not_mem_nil, or_false] at hq
    rcases hq with rfl | rfl <;> norm_num [lapse, trueTime, reach, exT]
  · intro k x hx
    obtain ⟨hk, hx⟩ := List.getElem?_eq_some_iff.1 hx
    have hk8 : k < 8 := hk
    subst hx
    interval_cases k <;> norm_num [lapse, trueTime, exT]

end SmoothAlike

open TimeAxisExample in
/-- The hypotheses of `C109_equal_partial` are met by a trace with growing energy and smoothing over three
samples. -/
example : ∃ (p : PairData) (cfg : Cfg) (g : List ℝ), Accepts exLib exW cfg.v0 exT p ∧
    gsmooth (fun _ ts _ _ => .ok (ts.map (· ^ 2))) cfg p.distance (p.coda.map Prod.fst) 1 = .ok g ∧
    p.coda.map Prod.snd = g.map ((1 : ℝ) * ·) := by
  obtain ⟨p, h1, h3, h4, h5, h6⟩ := ex_alike
  let cfg : Cfg := { InvertExample.cfg1 with v0 := 1, smooth := some 3, smoothWindow := .flat }
  obtain ⟨g, hg, he⟩ := C109_equal_partial (cfg := cfg) (wcfg := exW) (tr := exT) (g0 := 1) (s := 3)
    (A := 1) (γ := (· ^ 2)) (G := fun _ ts _ _ => .ok (ts.map (· ^ 2))) (by norm_num [exT]) h1 rfl
    (by norm_num) rfl rfl (by rw [show exT.sr = 1 from rfl, ← pyRound_iff, round3]; norm_num) (fun _ => rfl)
    (fun t => sq_nonneg t) (by norm_num) h6 h3 h4 h5
  exact ⟨p, cfg, g, h1, hg, he⟩

/-- **C44** (finding): a coda window of a single sample cannot be smoothed, `smooth_func` takes the
sampling interval from the second time: the inversion ends with an `IndexError`. -/
theorem C44_single_sample_counterexample (G : Greens) (cfg : Cfg) (r t : ℝ) (g0 s : ℝ)
    (hs : cfg.smooth = some s) : gsmooth G cfg r [t] g0 = .error .indexError := by
  unfold gsmooth smoothFunc
  rw [hs]
  simp [pyGet, bind, Except.bind]

namespace SmoothAlike

open TimeAxisExample

/-- Constant energy; the coda window from 3 s to 4 s ends with the trace. -/
noncomputable def exEnd : Trace := { exT with data := [1, 1, 1, 1, 1] }

theorem ex_end_smooth : smooth [1, 1, 1, 1, 1] (some 3) .flat = .ok [2 / 3, 1, 1, 1, 2 / 3] := by
  have e3 : Int.toNat 3 = 3 := rfl
  have r3 : List.range 3 = [0, 1, 2] := rfl
  have r5 : List.range 5 = [0, 1, 2, 3, 4] := rfl
  have hn : windowNorm .flat 3 = [1 / 3, 1 / 3, 1 / 3] := by
    norm_num [windowNorm, windowVal, r3]
  have hp : pad .zeros ([1, 1, 1, 1, 1] : List ℝ) 3 = [0, 1, 1, 1, 1, 1, 0] := by
    simp [pad]
  simp only [smooth]
  rw [if_neg (by simp), if_neg (by norm_num), if_neg (by simp), e3, hn, hp]
  norm_num [convolveValid, r3, r5]

end SmoothAlike

open TimeAxisExample in
/-- **C109** (finding): at the ends of a trace the energies are averaged with zeros, the Green's function is
not.  The energy is constant, so is the Green's function, and the coda window ends with the trace: the
smoothed energy of the last sample is one third too small. -/
theorem C109_border_counterexample : ∃ (p : PairData) (cfg : Cfg) (G : Greens),
    Accepts exLib exW cfg.v0 exEnd p ∧ cfg.smooth = exW.smooth ∧
    cfg.smoothWindow = exW.smoothWindow ∧ (∀ r ts v0 g0, G r ts v0 g0 = .ok (ts.map fun _ => 1)) ∧
    (∀ x ∈ exEnd.data, x = 1) ∧ p.coda = [(3, 1), (4, 2 / 3)] ∧
    gsmooth G cfg p.distance (p.coda.map Prod.fst) 1 = .ok [1, 1] := by
  let cfg : Cfg := { InvertExample.cfg1 with v0 := 1, smooth := some 3, smoothWindow := .flat }
  have hst : smoothTrace exW exEnd = .ok { exEnd with data := [2 / 3, 1, 1, 1, 2 / 3] } := by
    unfold smoothTrace
    have h1 : exW.smooth = some 3 := rfl
    have h2 : exW.smoothWindow = .flat := rfl
    have h4 : pyRound (exEnd.sr * 3) = 3 := round3
    have h5 : exEnd.data = [1, 1, 1, 1, 1] := rfl
    rw [h1, h2]
    simp only
    rw [if_neg (by norm_num), h4, h5, ex_end_smooth]
    rfl
  have hsl : getSlice { exEnd with data := [2 / 3, 1, 1, 1, 2 / 3] } (3, 4) =
      some { exEnd with start := 3, data := [1, 2 / 3] } := by
    have := slice_int (tr := { exEnd with data := [2 / 3, 1, 1, 1, 2 / 3] }) rfl rfl (a := 3) (b := 4)
      (by norm_num) (by simp)
    push_cast at this
    rw [this]
    simp
  refine ⟨{ event := "e", station := "s", distance := 1, coda := [(3, 1), (4, 2 / 3)] }, cfg,
    fun _ ts _ _ => .ok (ts.map fun _ => 1), ?_, rfl, rfl, fun _ _ _ _ => rfl, ?_, rfl, ?_⟩
  · refine ⟨rfl, rfl, rfl, ⟨_, (3, 4), _, hst, ⟨(3, 4), ?_, ?_, rfl⟩, ?_, hsl, ?_⟩, ?_, ?_⟩
    · exact ex_tw rfl (num := "+3".toList) (num' := "+4".toList) (by decide) (by simp [exFloat])
        (by decide) (by simp [exFloat])
    · norm_num [exW, exCfg]
    · intro mw h; simp [exW, exCfg] at h
    · norm_num [sampleTime, exEnd, exT, cfg]
    · intro bw h; simp [exW] at h
    · intro _; simp
  · intro x hx
    simpa [exEnd] using hx
  · obtain ⟨y, hy, hl, hv⟩ := smoothFunc_values .flat (by simp) 3 (by norm_num) (fun _ => 1) 3 1 3 2
      (by norm_num) (by norm_num) (by have := round3; rw [one_mul] at this; rw [div_one, this]; rfl)
    have hg : grid 3 1 2 = [3, 4] := by norm_num [grid, List.range, List.range.loop]
    have hw := (isWeights_ωfun .flat 3 (by norm_num) (by simp)).sum_one
    rw [hg] at hy
    unfold gsmooth
    simp only [List.map_cons, List.map_nil]
    rw [show cfg.smooth = some 3 from rfl, show cfg.smoothWindow = .flat from rfl, hy]
    congr 1
    have : ∀ j < 2, y[j]? = some 1 := by
      intro j hj
      rw [hv j hj]
      simp only [mul_one]
      rw [hw]
    apply List.ext_getElem?
    intro j
    rcases Nat.lt_or_ge j 2 with hj | hj
    · rw [this j hj]; interval_cases j <;> rfl
    · rw [List.getElem?_eq_none (by omega), List.getElem?_eq_none (by simpa using hj)]

end Qopen
