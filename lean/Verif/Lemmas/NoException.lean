import Verif.Spec.Sound

/-!
# An inversion returns: lemmas
-/

namespace Qopen

open Real Util Tr Energy Spec InvertFb Window RtPlugin Plain Total

namespace NoExc

theorem sum_weights_pos {ω : ℕ → ℝ} {M : ℕ} (hω : IsWeights ω M) {g : ℕ → ℝ}
    (hg : ∀ k < M, 0 ≤ g k) {k : ℕ} (hk : k < M) (h1 : 0 < ω k) (h2 : 0 < g k) :
    0 < ∑ k ∈ Finset.range M, ω k * g k := by
  refine Finset.sum_pos' (fun i hi => ?_) ⟨k, Finset.mem_range.2 hk, mul_pos h1 h2⟩
  exact mul_nonneg (hω.nonneg _ (Finset.mem_range.1 hi)) (hg _ (Finset.mem_range.1 hi))

theorem ωfun_one_pos {win : Util.Window} (hw : win ≠ .other) {M : ℕ} (hM : 3 ≤ M) :
    0 < ωfun win M 1 ∧ 0 < ωfun win M (M - 2) := by
  have h1 : 0 < ωfun win M 1 :=
    div_pos (windowVal_one_pos win M hM hw)
      (sum_map_pos (fun n hn => windowVal_nonneg win M n hM (List.mem_range.1 hn))
        (List.mem_range.2 (by omega : 1 < M)) (windowVal_one_pos win M hM hw))
  refine ⟨h1, ?_⟩
  rw [show M - 2 = M - 1 - 1 by omega, (isWeights_ωfun win M hM hw).symm 1 (by omega)]
  exact h1

/-- Smoothed positive data are positive. -/
theorem smooth_pos {win : Util.Window} {wl : ℤ} {x y : List ℝ} (hx : ∀ v ∈ x, 0 < v)
    (h : Util.smooth x (some wl) win .zeros = .ok y) : ∀ v ∈ y, 0 < v := by
  by_cases h3 : wl < 3
  · simp only [Util.smooth] at h
    split at h
    · simp at h
    · rw [Except.ok.injEq] at h
      rw [← h]
      exact hx
  · have hw : win ≠ .other := by
      intro hw
      rw [(C42_rejects x wl win .zeros .valueError).2 ⟨rfl, Or.inr ⟨by omega, hw⟩⟩] at h
      simp at h
    obtain ⟨M, rfl⟩ : ∃ M : ℕ, wl = M := ⟨wl.toNat, by omega⟩
    have hlen : M ≤ x.length := by
      by_contra hlt
      rw [(C42_rejects x M win .zeros .valueError).2 ⟨rfl, Or.inl (by omega)⟩] at h
      simp at h
    have hM : 3 ≤ M := by omega
    have hyl := C42_same_length x y _ win .zeros (by simp) h
    intro v hv
    obtain ⟨j, hj, rfl⟩ := List.mem_iff_getElem.1 hv
    have := smooth_values win hw M hM x y .zeros (by simp) h j (by omega)
    rw [List.getElem?_eq_getElem hj, Option.some.injEq] at this
    rw [this]
    have hn : ∀ i : ℤ, 0 ≤ extend .zeros x i := by
      intro i
      unfold extend
      split
      · next hi =>
        rw [List.getD_eq_getElem _ _ (by omega)]
        exact (hx _ (List.getElem_mem _)).le
      · exact le_rfl
    have hp : ∀ i : ℤ, 0 ≤ i → i < x.length → 0 < extend .zeros x i := by
      intro i h0 h1
      unfold extend
      rw [if_pos ⟨h0, h1⟩, List.getD_eq_getElem _ _ (by omega)]
      exact hx _ (List.getElem_mem _)
    unfold smoothedAt
    by_cases hc : (j : ℤ) + (M - 2 : ℕ) - ((M - 1) / 2 : ℕ) < x.length
    · exact sum_weights_pos (isWeights_ωfun win M hM hw) (fun k _ => hn _) (k := M - 2) (by omega)
        (ωfun_one_pos hw hM).2 (hp _ (by omega) hc)
    · exact sum_weights_pos (isWeights_ωfun win M hM hw) (fun k _ => hn _) (k := 1) (by omega)
        (ωfun_one_pos hw hM).1 (hp _ (by omega) (by omega))

/-- Green's function in a coda window. -/
theorem gsmooth_total {G : Greens} (hG : SoundGreens G) {cfg : InvertFb.Cfg} {r g0 s t0 dt : ℝ} {n M : ℕ}
    (hr : 0 < r) (hv : 0 < cfg.v0) (hg : 0 < g0) (hs : cfg.smooth = some s)
    (hw : cfg.smoothWindow ≠ .other) (hn : 2 ≤ n) (hdt : 0 < dt) (hM : 3 ≤ M)
    (hround : pyRound (s / dt) = M) (hafter : r ≤ cfg.v0 * (t0 - dt)) :
    ∃ ys, gsmooth G cfg r (grid t0 dt n) g0 = .ok ys ∧ ys.length = n ∧ ∀ y ∈ ys, 0 < y := by
  set N1 : ℕ := (M - 1) / 2 with hN1
  set tf : ℝ := t0 - N1 * dt with htf
  set m : ℕ := N1 + n + M / 2 with hm
  have hlen : (grid tf dt m).length = m := by simp [grid]
  obtain ⟨zs, hz, hzl, hz0, hzv⟩ := hG r (grid tf dt m) cfg.v0 g0 hr hv hg (by omega)
    (grid_sorted hdt m)
  let g : ℝ → ℝ := fun x => zs.getD ⌊(x - tf) / dt⌋.toNat 0
  have hgi : ∀ i : ℕ, g (tf + i * dt) = zs.getD i 0 := by
    intro i
    have e : (tf + (i : ℝ) * dt - tf) / dt = i := by field_simp; ring
    simp only [g, e, Int.floor_natCast, Int.toNat_natCast]
  have hzs : zs = (grid tf dt m).map g := by
    apply List.ext_getElem?
    intro j
    by_cases hj : j < m
    · rw [List.getElem?_map, grid_getElem? tf dt hj, Option.map_some, hgi,
        List.getElem?_eq_getElem (by omega), List.getD_eq_getElem _ _ (by omega)]
    · rw [List.getElem?_eq_none (by omega), List.getElem?_eq_none (by simp; omega)]
  have hcongr := smoothFunc_congr (f := fun t_ => G r t_ cfg.v0 g0)
    (f' := fun ts => .ok (ts.map g)) cfg.smoothWindow M hM t0 dt s n hn hround
    (by rw [← hN1, ← htf, ← hm, hz, ← hzs])
  obtain ⟨ys, hy, hyl, hyv⟩ := smoothFunc_values cfg.smoothWindow hw M hM g t0 dt s n hn hdt.ne' hround
  refine ⟨ys, ?_, hyl, ?_⟩
  · unfold gsmooth
    rw [hs, hcongr, hy]
  · intro y hy
    obtain ⟨j, hj, rfl⟩ := List.mem_iff_getElem.1 hy
    have := hyv j (by omega)
    rw [List.getElem?_eq_getElem hj, Option.some.injEq] at this
    rw [this, ← hN1]
    have e : ∀ k : ℕ, t0 + (j : ℝ) * dt + ((k : ℝ) - N1) * dt = tf + ((j + k : ℕ) : ℝ) * dt := by
      intro k
      rw [htf]; push_cast; ring
    simp only [e, hgi]
    refine sum_weights_pos (g := fun k => zs.getD (j + k) 0) (isWeights_ωfun _ M hM hw) ?_
      (k := M - 2) (by omega) (ωfun_one_pos hw hM).2 ?_
    · intro k _
      rw [List.getD_eq_getElem?_getD]
      cases hq : zs[j + k]? with
      | none => exact le_rfl
      | some y => exact hz0 _ (List.mem_of_getElem? hq)
    · have hlt : j + (M - 2) < zs.length := by omega
      rw [List.getD_eq_getElem _ _ hlt]
      refine hzv (j + (M - 2) - 1) _ _ (grid_getElem? tf dt (by omega)) ?_ ?_
      · rw [show j + (M - 2) - 1 + 1 = j + (M - 2) by omega]
        exact List.getElem?_eq_getElem hlt
      · refine hafter.trans (mul_le_mul_of_nonneg_left ?_ hv.le)
        have h1 : (N1 : ℝ) ≤ ((j + (M - 2) - 1 : ℕ) : ℝ) + 1 := by
          have : N1 ≤ (j + (M - 2) - 1) + 1 := by omega
          exact_mod_cast this
        rw [htf]
        nlinarith

/-- Green's function in a bulk window. -/
theorem gbulk_total {G : Greens} (hG : SoundGreens G) {cfg : InvertFb.Cfg} {r g0 t1 t2 : ℝ}
    (hr : 0 < r) (hv : 0 < cfg.v0) (hg : 0 < g0) (hn : 3 ≤ cfg.numPoints) (ht : t1 < t2)
    (hafter : r ≤ cfg.v0 * ((t1 + t2) / 2)) : ∃ y, gbulk G cfg r (t1, t2) g0 = .ok y ∧ 0 < y := by
  set n := cfg.numPoints with hnn
  have hn1 : (0 : ℝ) < (n : ℝ) - 1 := by
    have : (3 : ℝ) ≤ n := by exact_mod_cast hn
    linarith
  set dt := (t2 - t1) / ((n : ℝ) - 1) with hdt
  have hdtp : 0 < dt := div_pos (by linarith) hn1
  have hl : linspace t1 t2 n = grid t1 dt n := rfl
  have hlen : (grid t1 dt n).length = n := by simp [grid]
  obtain ⟨zs, hz, hzl, hz0, hzv⟩ := hG r (grid t1 dt n) cfg.v0 g0 hr hv hg (by omega)
    (grid_sorted hdtp n)
  refine ⟨InvertFb.mean zs, ?_, ?_⟩
  · unfold gbulk
    rw [← hnn, hl, hz]
    rfl
  · have hlast : n - 1 < zs.length := by omega
    have hpos : 0 < zs[n - 1] := by
      refine hzv (n - 2) _ _ (grid_getElem? t1 dt (by omega)) ?_ ?_
      · rw [show n - 2 + 1 = n - 1 by omega]
        exact List.getElem?_eq_getElem hlast
      · refine hafter.trans (mul_le_mul_of_nonneg_left ?_ hv.le)
        have e : ((n - 2 : ℕ) : ℝ) = n - 2 := by
          rw [Nat.cast_sub (by omega)]; norm_num
        rw [e]
        have h3 : (3 : ℝ) ≤ n := by exact_mod_cast hn
        have hd : ((n : ℝ) - 1) * dt = t2 - t1 := by rw [hdt]; field_simp
        have : (t2 - t1) / 2 ≤ ((n : ℝ) - 2) * dt := by nlinarith
        linarith
    unfold InvertFb.mean
    refine div_pos ?_ (by have : 0 < zs.length := by omega
                          exact_mod_cast this)
    have := List.single_le_sum (l := zs) hz0 _ (List.getElem_mem hlast)
    linarith

end NoExc

namespace NoExc

theorem collect_total {cfg : WCfg} (ho : SoundOptions cfg) (v0 : ℝ) (st : WState) (tr : Trace)
    (b : Option Bulk) (w : ℝ × ℝ) : ∃ st', collect cfg v0 st tr b w = .ok st' := by
  unfold collect
  split
  · exact ⟨_, rfl⟩
  · split
    · exact ⟨_, rfl⟩
    · next esl _ _ b =>
      obtain ⟨u, hu⟩ : ∃ u, weightUnit cfg.weight.2 esl.data.length b.N = .ok u := by
        have := ho.weight
        unfold weightUnit
        split <;> simp_all
      exact ⟨_, bind_ok.2 ⟨u, hu, rfl⟩⟩

theorem checkMaximum_total {lib : Lib} {cfg : WCfg} (ho : SoundOptions cfg) (v0 : ℝ) (st : WState)
    {tr : Trace} (hne : tr.data ≠ [])
    (hm : ∀ mw, cfg.skipMaximum = some mw → ∃ w, tw2utc lib.float mw tr = .ok w)
    (b : Option Bulk) (w : ℝ × ℝ) : ∃ st', checkMaximum lib cfg v0 st tr b w = .ok st' := by
  unfold checkMaximum
  split
  · exact collect_total ho v0 st tr b w
  · next mw hmw =>
    obtain ⟨w', hw'⟩ := hm mw hmw
    obtain ⟨i, hi⟩ : ∃ i, argmax tr.data = .ok i := by
      unfold argmax
      split
      · next h => exact absurd h hne
      · exact ⟨_, rfl⟩
    simp only [hw', hi, bind, Except.bind]
    split
    · exact collect_total ho v0 st tr b w
    · exact ⟨_, rfl⟩

theorem cutCoda_total {lib : Lib} {cfg : WCfg} (ho : SoundOptions cfg) (v0 : ℝ) (st : WState)
    {tr : Trace} (hne : tr.data ≠ [])
    (hm : ∀ mw, cfg.skipMaximum = some mw → ∃ w, tw2utc lib.float mw tr = .ok w)
    (b : Option Bulk) (w : ℝ × ℝ) : ∃ st', cutCoda lib cfg v0 st tr b w = .ok st' := by
  unfold cutCoda
  split
  · exact checkMaximum_total ho v0 st hne hm b w
  · split
    · exact ⟨_, rfl⟩
    · simp only
      split
      · exact ⟨_, rfl⟩
      · exact checkMaximum_total ho v0 st hne hm b _

theorem smoothTrace_total {lib : Lib} {cfg : WCfg} (ho : SoundOptions cfg) {tr : Trace}
    (ht : SoundTrace lib cfg tr) : ∃ y, smoothTrace cfg tr = .ok { tr with data := y } ∧
      y.length = tr.data.length ∧ ∀ x ∈ y, 0 < x := by
  obtain ⟨s, M, hs, hM, h3, hl⟩ := ht.smooth
  have hM' := (pyRound_iff _ _).2 hM
  have h0 : s ≠ 0 := by
    rintro rfl
    rw [mul_zero] at hM
    rcases hM with h | ⟨h, -⟩
    · have : (3 : ℝ) ≤ M := by exact_mod_cast h3
      rw [abs_lt] at h
      linarith
    · have : (3 : ℝ) ≤ M := by exact_mod_cast h3
      rw [abs_of_neg (by linarith)] at h
      linarith
  cases hy : Util.smooth tr.data (some (pyRound (tr.sr * s))) cfg.smoothWindow .zeros with
  | error e =>
    rw [hM'] at hy
    rcases ((C42_rejects _ _ _ _ e).1 hy).2 with h | h
    · omega
    · exact absurd h.2 ho.smoothWindow
  | ok y =>
    refine ⟨y, ?_, C42_same_length _ _ _ _ _ (by simp) hy, smooth_pos ht.positive hy⟩
    unfold smoothTrace
    rw [hs]
    simp only [if_neg h0, hy]
    rfl

theorem codaPart_total {lib : Lib} {cfg : WCfg} (ho : SoundOptions cfg) (v0 : ℝ) (st : WState)
    {tr : Trace} (ht : SoundTrace lib cfg tr) (b : Option Bulk) :
    ∃ st', codaPart lib cfg v0 st tr b = .ok st' := by
  obtain ⟨y, hy, hyl, -⟩ := smoothTrace_total ho ht
  obtain ⟨w, hw, -⟩ := ht.coda y
  obtain ⟨s, M, -, -, h3, hl⟩ := ht.smooth
  unfold codaPart
  simp only [hy, hw, bind, Except.bind]
  split
  · exact ⟨_, rfl⟩
  · refine cutCoda_total ho v0 st ?_ (fun mw h => ht.maximum mw h y) b w
    intro (h : y = [])
    rw [h, List.length_nil] at hyl
    omega

/-- Data of a slice are data of the trace. -/
theorem getSlice_pos {tr esl : Trace} (hsr : 0 < tr.sr) {w : ℝ × ℝ} (h : getSlice tr w = some esl)
    (hp : ∀ x ∈ tr.data, 0 < x) : ∀ x ∈ esl.data, 0 < x := by
  intro x hx
  have hne : esl.data ≠ [] := List.ne_nil_of_mem hx
  obtain ⟨n, hd, -⟩ := windowData_of_slice hsr h hne
  obtain ⟨i, hi, rfl⟩ := List.mem_iff_getElem.1 hx
  exact hp _ (List.mem_of_getElem? (hd.values i _ (List.getElem?_eq_getElem hi)))

theorem sum_pos_of_ne {l : List ℝ} (hp : ∀ x ∈ l, 0 < x) (hne : l ≠ []) : 0 < l.sum := by
  cases l with
  | nil => exact absurd rfl hne
  | cons a l =>
    have := List.sum_nonneg (fun x hx => (hp x (List.mem_cons_of_mem _ hx)).le)
    have := hp a List.mem_cons_self
    rw [List.sum_cons]
    linarith

theorem step_total {lib : Lib} {cfg : WCfg} (ho : SoundOptions cfg) (v0 : ℝ) (st : WState)
    {tr : Trace} (ht : SoundTrace lib cfg tr) : ∃ st', step lib cfg v0 st tr = .ok st' := by
  have hsr : 0 < tr.sr := by linarith [ht.rate]
  unfold step
  cases hb : cfg.bulkWindow with
  | none => exact codaPart_total ho v0 _ ht none
  | some bw =>
    obtain ⟨w, hw, hlen, -⟩ := ht.bulk bw hb
    simp only [hw, bind, Except.bind]
    split
    · exact ⟨_, rfl⟩
    · next esl hesl =>
      obtain ⟨n, hd⟩ := (getSlice_data_iff ht.rate hlen esl.data).1 ⟨esl, hesl, rfl⟩
      rw [if_neg hd.some_data,
        if_neg (not_le.2 (sum_pos_of_ne (getSlice_pos hsr hesl ht.positive) hd.some_data))]
      exact codaPart_total ho v0 _ ht _

theorem windows_total {lib : Lib} {cfg : WCfg} (ho : SoundOptions cfg) (v0 : ℝ) {trs : List Trace}
    (ht : ∀ tr ∈ trs, SoundTrace lib cfg tr) : ∃ st, windows lib cfg v0 trs = .ok st :=
  Invert.foldlM_ok_of_all (fun st tr h => step_total ho v0 st (ht tr h)) _

end NoExc

namespace NoExc

variable {wls : List ℝ → List (List ℝ) → List ℝ → List ℝ × ℝ} {G : Greens}
  {minimize : (ℝ → Py (WithTop ℝ)) → Py ℝ} {cfg : InvertFb.Cfg} {ps : List PairData}

theorem greens_total (hG : SoundGreens G) (hv : 0 < cfg.v0) (hw : cfg.smoothWindow ≠ .other)
    (hn : 3 ≤ cfg.numPoints) {g0 : ℝ} (hg : 0 < g0) (hps : ∀ p ∈ ps, SoundPair cfg p) :
    ∃ gs, IsGreens G cfg g0 ps gs ∧ ∀ g ∈ gs, (∀ y ∈ g.1, 0 < y) ∧ (cfg.bulk = true → 0 < g.2) := by
  induction ps with
  | nil => exact ⟨[], List.Forall₂.nil, by simp⟩
  | cons p ps ih =>
    obtain ⟨gs, h1, h2⟩ := ih (fun q hq => hps q (List.mem_cons_of_mem _ hq))
    have hp := hps p List.mem_cons_self
    obtain ⟨t0, dt, ht, hdt, hlen, haft, s, M, hs, hM, h3⟩ := hp.coda
    obtain ⟨M, rfl⟩ : ∃ N : ℕ, M = N := ⟨M.toNat, by omega⟩
    obtain ⟨ys, hy, hyl, hyp⟩ := gsmooth_total hG hp.distance hv hg hs hw hlen hdt (by omega)
      ((pyRound_iff _ _).2 hM) haft
    obtain ⟨z, hz⟩ : ∃ z, cfg.bulk = true →
        gbulk G cfg p.distance (p.bulkStart, p.bulkEnd) g0 = .ok z ∧ 0 < z := by
      by_cases hb : cfg.bulk = true
      · obtain ⟨-, b1, b2⟩ := hp.bulk hb
        obtain ⟨z, h⟩ := gbulk_total hG hp.distance hv hg hn b1 b2
        exact ⟨z, fun _ => h⟩
      · exact ⟨0, fun h => absurd h hb⟩
    refine ⟨(ys, z) :: gs, List.Forall₂.cons ⟨by rw [ht]; exact hy, hyl, fun h => (hz h).1⟩ h1, ?_⟩
    rintro g hg'
    rcases List.mem_cons.1 hg' with rfl | hg'
    · exact ⟨hyp, fun h => (hz h).2⟩
    · exact h2 g hg'

theorem samples_pos {gs : List (List ℝ × ℝ)} (hps : ∀ p ∈ ps, SoundPair cfg p)
    (hgs : ∀ g ∈ gs, (∀ y ∈ g.1, 0 < y) ∧ (cfg.bulk = true → 0 < g.2)) :
    ∀ s ∈ samplesOf cfg.bulk ps gs, 0 < s.E ∧ 0 < s.G := by
  intro s hs
  unfold samplesOf at hs
  rcases List.mem_append.1 hs with hs | hs
  · obtain ⟨q, hq, hs⟩ := List.mem_flatMap.1 hs
    obtain ⟨h1, h2⟩ := List.of_mem_zip (a := q.1) (b := q.2) hq
    obtain ⟨i, hi, rfl⟩ := List.mem_iff_getElem.1 hs
    rw [List.getElem_zipWith]
    exact ⟨(hps _ h1).energies _ (List.getElem_mem _), (hgs _ h2).1 _ (List.getElem_mem _)⟩
  · by_cases hb : cfg.bulk = true
    · rw [if_pos hb] at hs
      obtain ⟨q, hq, rfl⟩ := List.mem_map.1 hs
      obtain ⟨h1, h2⟩ := List.of_mem_zip (a := q.1) (b := q.2) hq
      exact ⟨((hps _ h1).bulk hb).1, (hgs _ h2).2 hb⟩
    · rw [if_neg hb] at hs
      simp at hs

theorem siteRefs_total (hne : ps ≠ [])
    (hf : cfg.fixSites = true → ∀ p ∈ ps, (cfg.fixSitesParams.get? p.station).isSome) :
    (∃ rs, siteRefs cfg (bandOf cfg.bulk ps) = .ok rs) ∧
      ∃ rs, siteRefsShort cfg (bandOf cfg.bulk ps) = .ok rs := by
  have hblock : ∀ i, cfg.fixSites = true → ∃ r, dictGet cfg.fixSitesParams
      (blockPair (bandOf cfg.bulk ps) i).2 = .ok r := by
    intro i h
    have hl : 0 < ps.length := List.length_pos_iff.2 hne
    have hi : i % ps.length < ps.length := Nat.mod_lt _ hl
    have e : blockPair (bandOf cfg.bulk ps) i = ps[i % ps.length].pair := by
      unfold blockPair bandOf
      simp [List.getElem?_eq_getElem hi]
    obtain ⟨r, hr⟩ := Option.isSome_iff_exists.1 (hf h _ (List.getElem_mem hi))
    refine ⟨r, ?_⟩
    rw [e]
    unfold dictGet
    simp only [PairData.pair, hr]
  constructor
  · unfold siteRefs
    by_cases h : cfg.fixSites = true
    · rw [if_pos h]
      apply mapExc_total
      intro p hp
      unfold perSample at hp
      obtain ⟨q, -, hq⟩ := List.mem_flatMap.1 hp
      rw [List.eq_of_mem_replicate hq]
      exact hblock _ h
    · rw [if_neg h]; exact ⟨_, rfl⟩
  · unfold siteRefsShort
    by_cases h : cfg.fixSites = true
    · rw [if_pos h]
      apply mapExc_total
      intro p hp
      obtain ⟨i, -, rfl⟩ := List.mem_map.1 (List.mem_of_mem_take hp)
      exact hblock _ h
    · rw [if_neg h]; exact ⟨_, rfl⟩

theorem lstsq_total (hG : SoundGreens G) (hv : 0 < cfg.v0) (hw : cfg.smoothWindow ≠ .other)
    (hn : 3 ≤ cfg.numPoints) (hne : ps ≠ []) (hnd : (ps.map PairData.pair).Nodup)
    (hps : ∀ p ∈ ps, SoundPair cfg p)
    (hf : cfg.fixSites = true → ∀ p ∈ ps, (cfg.fixSitesParams.get? p.station).isSome)
    {g0 : ℝ} (hg : 0 < g0) {bFix : Option ℝ} {fs : Bool} (hfs : fs = true → cfg.fixSites = true)
    (hfix : cfg.fix = true → cfg.codaNorm = false ∧ bFix.isSome) :
    ∃ f, lstsq wls G cfg (bandOf cfg.bulk ps) g0 bFix fs = .ok f := by
  obtain ⟨gs, h1, h2⟩ := greens_total hG hv hw hn hg hps
  obtain ⟨⟨rs, hrs⟩, Rf, hRf⟩ := siteRefs_total hne hf
  rw [lstsq_eq hnd ?_ h1 (samples_pos hps h2) hrs hRf hfs]
  · unfold fitOf
    simp only
    by_cases h : cfg.fix = true
    · obtain ⟨hc, hb⟩ := hfix h
      obtain ⟨b, rfl⟩ := Option.isSome_iff_exists.1 hb
      rw [if_pos h, if_neg (by rw [hc]; simp)]
      exact ⟨_, rfl⟩
    · rw [if_neg h]
      exact ⟨_, rfl⟩
  · intro p hp h
    obtain ⟨t0, dt, -, -, hl, -⟩ := (hps p hp).coda
    rw [h] at hl
    simp at hl

theorem solveBand_total (hG : SoundGreens G) (hv : 0 < cfg.v0) (hw : cfg.smoothWindow ≠ .other)
    (hi : SoundInversion minimize cfg) (hne : ps ≠ []) (hnd : (ps.map PairData.pair).Nodup)
    (hps : ∀ p ∈ ps, SoundPair cfg p)
    (hf : cfg.fixSites = true → ∀ p ∈ ps, (cfg.fixSitesParams.get? p.station).isSome) :
    ∃ o, solveBand wls G minimize cfg (bandOf cfg.bulk ps) = .ok o := by
  obtain ⟨o, ho⟩ : ∃ o, bandFit wls G minimize cfg (bandOf cfg.bulk ps) = .ok o := by
    unfold bandFit
    by_cases h : cfg.fix = true
    · rw [if_pos h]
      obtain ⟨hc, hg⟩ := hi.fixed h
      split
      · next g b h1 h2 =>
        obtain ⟨f, hf'⟩ := lstsq_total (wls := wls) hG hv hw hi.numPoints hne hnd hps hf
          (hg g h1) (bFix := some b) (fs := cfg.fixSites) id (fun _ => ⟨hc, rfl⟩)
        exact ⟨_, bind_ok.2 ⟨f, hf', rfl⟩⟩
      · exact ⟨_, rfl⟩
    · rw [if_neg h]
      have hfree := hi.free (by simpa using h)
      obtain ⟨-, gb, hgb, h0, hle⟩ := hfree
      have hl : ∀ g0, 0 < g0 → ∃ f, lstsq wls G cfg (bandOf cfg.bulk ps) g0 none false = .ok f :=
        fun g0 hg => lstsq_total hG hv hw hi.numPoints hne hnd hps hf hg (by simp)
          (fun h' => absurd h' h)
      by_cases hopt : cfg.optimize = true
      · rw [if_pos hopt]
        obtain ⟨x, hx, hx0⟩ := hi.search (InvertFb.objective wls G cfg (bandOf cfg.bulk ps)) (by
          intro g
          unfold InvertFb.objective
          split
          · exact ⟨_, rfl⟩
          · next hin =>
            push Not at hin
            obtain ⟨f, hf'⟩ := hl g (by linarith [(hin gb hgb).1])
            exact ⟨_, bind_ok.2 ⟨f, hf', rfl⟩⟩)
        obtain ⟨f, hf'⟩ := hl x hx0
        exact ⟨_, bind_ok.2 ⟨x, hx, bind_ok.2 ⟨f, hf', rfl⟩⟩⟩
      · rw [if_neg hopt, hgb]
        obtain ⟨f, hf'⟩ := hl ((gb.1 + gb.2) / 2) (by linarith)
        exact ⟨_, bind_ok.2 ⟨f, hf', rfl⟩⟩
  exact ⟨_, bind_ok.2 ⟨o, ho, rfl⟩⟩

end NoExc

namespace NoExc

/-- Windows of a second or more have at least two samples, and their samples last at most a second
less. -/
theorem window_length {tr esl : Trace} (hsr : 1 / 2 ≤ tr.sr) {w : ℝ × ℝ} (hw : 1 ≤ w.2 - w.1)
    (h : getSlice tr w = some esl) :
    2 ≤ esl.data.length ∧ w.2 - w.1 - 1 < ((esl.data.length - 1 : ℕ) : ℝ) / tr.sr := by
  obtain ⟨n, hd⟩ := (getSlice_data_iff hsr hw esl.data).1 ⟨esl, h, rfl⟩
  have hsr0 : 0 < tr.sr := by linarith
  have hl : 0 < esl.data.length := List.length_pos_iff.2 hd.some_data
  have h1 := hd.first
  have h2 := hd.last
  unfold trueTime at h1 h2
  have e : ((n + esl.data.length - 1 : ℕ) : ℝ) / tr.sr =
      n / tr.sr + ((esl.data.length - 1 : ℕ) : ℝ) / tr.sr := by
    rw [show n + esl.data.length - 1 = n + (esl.data.length - 1) by omega]
    push_cast
    ring
  rw [e] at h2
  have h3 : w.2 - w.1 - 1 < ((esl.data.length - 1 : ℕ) : ℝ) / tr.sr := by linarith
  refine ⟨?_, h3⟩
  by_contra hlt
  have : esl.data.length - 1 = 0 := by omega
  rw [this] at h3
  norm_num at h3
  linarith

theorem accepts_sound {lib : Lib} {cfg : WCfg} {inv : InvertFb.Cfg} (ho : SoundOptions cfg) {tr : Trace}
    (ht : SoundTrace lib cfg tr) {v0 : ℝ} (hv : 0 < v0) {p : PairData} (h : Accepts lib cfg v0 tr p) :
    SoundPair (fullCfg cfg inv v0) p := by
  have hsr : 0 < tr.sr := by linarith [ht.rate]
  obtain ⟨-, -, hdist, ⟨tr', w, esl, hsm, hcw, -, hsl, hcoda⟩, hbulk, -⟩ := h
  obtain ⟨y, hy, -, hyp⟩ := smoothTrace_total ho ht
  rw [hsm] at hy
  obtain rfl := Except.ok.inj hy
  obtain ⟨w0, hw0, hskip, hcut⟩ := hcw
  obtain ⟨w0', hw0', hstart⟩ := ht.coda y
  rw [hw0] at hw0'
  obtain rfl := Except.ok.inj hw0'
  have hw : w.1 = w0.1 ∧ 1 ≤ w.2 - w.1 := by
    have h1 := ho.skip
    split at hcut
    · subst hcut
      exact ⟨rfl, by linarith⟩
    · obtain ⟨hs, esl', -, rfl⟩ := hcut
      generalize localMinimum esl' _ _ _ = tmin at hs
      cases tmin with
      | none => exact ⟨rfl, by simp only [cutWindow] at hs ⊢; linarith⟩
      | some t =>
        simp only [cutWindow] at hs ⊢
        refine ⟨?_, by linarith⟩
        rcases min_choice w0.1 t with h | h
        · exact h
        · rw [h] at hs
          linarith
  obtain ⟨hl2, -⟩ := window_length (tr := { tr with data := y }) ht.rate hw.2 hsl
  have hlen : p.coda.length = esl.data.length := by rw [hcoda]; simp
  obtain ⟨s, M, hs, hM, h3, -⟩ := ht.smooth
  refine ⟨by rw [hdist]; exact ht.distance, ⟨tr.distance / v0 + (w.1 - tr.sonset), 1 / tr.sr, ?_,
    by positivity, by omega, ?_, s, M, hs, ?_, h3⟩, ?_, ?_⟩
  · apply List.ext_getElem
    · simp [grid]
    · intro i h1 h2
      have hi : i < esl.data.length := by simpa [hcoda] using h1
      simp only [hcoda, grid, List.getElem_map, List.getElem_zipIdx, List.getElem_range, sampleTime,
        zero_add]
      ring
  · rw [hdist]
    show tr.distance ≤ v0 * _
    rw [hw.1]
    have e : v0 * (tr.distance / v0 + (w0.1 - tr.sonset) - 1 / tr.sr) =
        tr.distance + v0 * (w0.1 - tr.sonset - 1 / tr.sr) := by field_simp; ring
    rw [e]
    have : 0 ≤ v0 * (w0.1 - tr.sonset - 1 / tr.sr) := mul_nonneg hv.le (by linarith)
    linarith
  · rw [one_div, div_inv_eq_mul, mul_comm]
    exact hM
  · intro x hx
    rw [hcoda] at hx
    obtain ⟨q, hq, rfl⟩ := List.mem_map.1 hx
    have hq' : q.1 ∈ esl.data := by
      have := List.mem_map_of_mem (f := Prod.fst) hq
      rwa [List.zipIdx_map_fst] at this
    exact getSlice_pos (tr := { tr with data := y }) hsr hsl hyp _ hq'
  · intro hb
    obtain ⟨bw, hbw⟩ : ∃ bw, cfg.bulkWindow = some bw := Option.isSome_iff_exists.1 hb
    obtain ⟨bw0, esl', u, h1, h2, h3', h4, -, h5, h6, -⟩ := hbulk bw hbw
    obtain ⟨w', hw', hl, hm⟩ := ht.bulk bw hbw
    rw [h1] at hw'
    obtain rfl := Except.ok.inj hw'
    obtain ⟨k1, k2⟩ := window_length ht.rate hl h2
    have hlp : (0 : ℝ) < esl'.data.length := by exact_mod_cast (by omega : 0 < esl'.data.length)
    refine ⟨by rw [h4]; exact div_pos h3' hlp, ?_, ?_⟩
    · rw [h5, h6]
      unfold sampleTime
      have : (0 : ℝ) < ((esl'.data.length - 1 : ℕ) : ℝ) / tr.sr :=
        div_pos (by exact_mod_cast (by omega : 0 < esl'.data.length - 1)) hsr
      simp only [Nat.cast_zero, zero_div]
      linarith
    · rw [h5, h6, hdist]
      show tr.distance ≤ v0 * _
      unfold sampleTime
      have e : v0 * ((((0 : ℕ) : ℝ) / tr.sr + tr.distance / v0 + (bw0.1 - tr.sonset) +
          (((esl'.data.length - 1 : ℕ) : ℝ) / tr.sr + tr.distance / v0 + (bw0.1 - tr.sonset))) / 2) =
          tr.distance + v0 * ((bw0.1 - tr.sonset) + ((esl'.data.length - 1 : ℕ) : ℝ) / tr.sr / 2) := by
        push_cast
        field_simp
        ring
      rw [e]
      have : 0 ≤ v0 * ((bw0.1 - tr.sonset) + ((esl'.data.length - 1 : ℕ) : ℝ) / tr.sr / 2) :=
        mul_nonneg hv.le (by linarith)
      linarith

end NoExc

namespace NoExc

variable {lib : Lib} {cfg : WCfg} {streams : List Stream}

theorem slice_some {tr : Trace} (hsr : 0 < tr.sr) {w : ℝ × ℝ} (hw : w.1 ≤ w.2) {j : ℕ}
    (hj : j < tr.data.length) (h1 : w.1 ≤ trueTime tr j) (h2 : trueTime tr j ≤ w.2) :
    ∃ sl, tr.slice w.1 w.2 = .ok sl ∧ sl.data ≠ [] := by
  obtain ⟨n, sl, e1, e2, e3⟩ := slice_exact (tr := tr) hsr hw
  refine ⟨sl, e1, ?_⟩
  intro hnil
  have hp : 0 < 1 / 2 / tr.sr := by positivity
  have hnj := (e2 j).2 (by linarith)
  have hn : trueTime tr n ≤ w.2 := by
    refine le_trans ?_ h2
    unfold trueTime
    have : (n : ℝ) ≤ j := by exact_mod_cast hnj
    gcongr
  obtain ⟨-, -, m, h5, h6⟩ := e3 (Or.inr hn)
  have hjm := (h6 j hnj hj).2 (by linarith)
  have : sl.data.length = min m (tr.data.length - n) := by
    rw [h5, List.length_take, List.length_drop]
  rw [hnil, List.length_nil] at this
  omega

theorem adjust_total {tr : Trace}
    (h : ∀ aw, cfg.adjustWindow = some aw → ∃ w, tw2utc lib.float aw tr = .ok w ∧ w.1 ≤ w.2 ∧ 0 < tr.sr ∧
      ∃ j < tr.data.length, w.1 ≤ trueTime tr j ∧ trueTime tr j ≤ w.2) :
    ∃ tr', adjust lib cfg tr = .ok tr' := by
  unfold adjust
  split
  · exact ⟨_, rfl⟩
  · next aw haw =>
    obtain ⟨w, hw, h1, h2, j, hj, h3, h4⟩ := h aw haw
    obtain ⟨sl, hsl, hne⟩ := slice_some h2 h1 hj h3 h4
    obtain ⟨i, hi⟩ : ∃ i, argmax sl.data = .ok i := by
      unfold argmax
      split
      · next h => exact absurd h hne
      · exact ⟨_, rfl⟩
    exact ⟨_, bind_ok.2 ⟨w, hw, bind_ok.2 ⟨sl, hsl, bind_ok.2 ⟨i, hi, rfl⟩⟩⟩⟩

theorem adjust_station {tr tr' : Trace} (h : adjust lib cfg tr = .ok tr') : tr'.station = tr.station := by
  unfold adjust at h
  split at h
  · rw [Except.ok.inj h]
  · obtain ⟨w, -, h⟩ := bind_ok.1 h
    obtain ⟨sl, -, h⟩ := bind_ok.1 h
    obtain ⟨i, -, h⟩ := bind_ok.1 h
    simp only [pure, Except.pure, Except.ok.injEq] at h
    rw [← h]

theorem noiseStep_total {tr : Trace}
    (hn : ∀ nw ∈ cfg.noiseWindows, ∃ w, tw2utc lib.float nw tr = .ok w)
    (ha : ∀ aw, cfg.adjustWindow = some aw → ∀ level d, d.length = tr.data.length →
      ∃ w, tw2utc lib.float aw { tr with noise := level, data := d } = .ok w ∧ w.1 ≤ w.2 ∧ 0 < tr.sr ∧
        ∃ j < tr.data.length, w.1 ≤ trueTime tr j ∧ trueTime tr j ≤ w.2) :
    ∃ o, noiseStep lib cfg tr = .ok o := by
  have hadj : ∀ (level : Option ℝ) (d : List ℝ), d.length = tr.data.length →
      ∃ tr', adjust lib cfg { tr with noise := level, data := d } = .ok tr' := by
    intro level d hd
    apply adjust_total
    intro aw haw
    obtain ⟨w, h1, h2, h3, j, hj, h4⟩ := ha aw haw level d hd
    exact ⟨w, h1, h2, h3, j, by rw [hd]; exact hj, h4⟩
  obtain ⟨ls, hls⟩ : ∃ ls, mapExc (noiseLevel lib tr) cfg.noiseWindows = .ok ls := by
    apply mapExc_total
    intro nw hnw
    obtain ⟨w, hw⟩ := hn nw hnw
    unfold noiseLevel
    simp only [hw, bind, Except.bind]
    split <;> exact ⟨_, rfl⟩
  unfold noiseStep
  simp only [hls, bind, Except.bind]
  split
  · split
    · exact ⟨_, rfl⟩
    · obtain ⟨tr', h⟩ := hadj tr.noise tr.data rfl
      exact ⟨_, bind_ok.2 ⟨tr', h, rfl⟩⟩
  · by_cases hr : cfg.removeNoise = true
    · obtain ⟨tr', h⟩ := hadj (some (cfg.noiseFunc (ls.filterMap id)))
        (removeNoise (cfg.noiseFunc (ls.filterMap id)) tr.data) (by simp [removeNoise])
      simp only [hr, if_true, h]
      exact ⟨_, rfl⟩
    · obtain ⟨tr', h⟩ := hadj (some (cfg.noiseFunc (ls.filterMap id))) tr.data rfl
      simp only [hr, Bool.false_eq_true, if_false, h]
      exact ⟨_, rfl⟩

theorem energies_total (h : SoundBand lib cfg streams) : ∃ trs, energies lib cfg streams = .ok trs := by
  obtain ⟨es, hes⟩ : ∃ es, mapExc (Window.energyOf lib cfg) streams = .ok es := mapExc_total h.energy
  have hf := mapExc_ok.1 hes
  obtain ⟨ns, hns⟩ : ∃ ns, mapExc (noiseStep lib cfg) (es.filterMap id) = .ok ns := by
    apply mapExc_total
    intro tr htr
    obtain ⟨o, ho, hot⟩ := List.mem_filterMap.1 htr
    simp only [id] at hot
    subst hot
    obtain ⟨s, hs, hso⟩ : ∃ s ∈ streams, Window.energyOf lib cfg s = .ok (some tr) := by
      obtain ⟨i, hi, e⟩ := List.mem_iff_getElem.1 ho
      have hi' : i < streams.length := by rw [hf.length_eq]; exact hi
      have := List.Forall₂.get hf hi' hi
      simp only [List.get_eq_getElem, e] at this
      exact ⟨_, List.getElem_mem hi', this⟩
    exact noiseStep_total (h.noise s hs tr hso) (h.adjust s hs tr hso)
  exact ⟨_, bind_ok.2 ⟨es, hes, bind_ok.2 ⟨ns, hns, rfl⟩⟩⟩

/-- With known site responses only pairs of known stations are left. -/
theorem energies_sites {trs : List Trace} (h : energies lib cfg streams = .ok trs)
    (hf : cfg.fixSites = true) : ∀ tr ∈ trs, (cfg.fixSitesParams.get? tr.station).isSome := by
  obtain ⟨es, hes, h⟩ := bind_ok.1 h
  obtain ⟨ns, hns, h⟩ := bind_ok.1 h
  simp only [pure, Except.pure, Except.ok.injEq] at h
  subst h
  have f1 := mapExc_ok.1 hes
  have f2 := mapExc_ok.1 hns
  intro tr htr
  obtain ⟨o, ho, hot⟩ := List.mem_filterMap.1 htr
  simp only [id] at hot
  subst hot
  obtain ⟨i, hi, e⟩ := List.mem_iff_getElem.1 ho
  have hi' : i < (es.filterMap id).length := by rw [f2.length_eq]; exact hi
  have h2 := List.Forall₂.get f2 hi' hi
  simp only [List.get_eq_getElem, e] at h2
  obtain ⟨o1, ho1, hot1⟩ := List.mem_filterMap.1 (List.getElem_mem hi')
  simp only [id] at hot1
  subst hot1
  obtain ⟨k, hk, e1⟩ := List.mem_iff_getElem.1 ho1
  have hk' : k < streams.length := by rw [f1.length_eq]; exact hk
  have h1 := List.Forall₂.get f1 hk' hk
  simp only [List.get_eq_getElem, e1] at h1
  have e2 := congrArg Prod.snd (energyOf_pair h1)
  have e1 : tr.station = _ := congrArg Prod.snd (noiseStep_pair h2)
  rw [e1]
  refine e2.symm ▸ ?_
  unfold Window.energyOf at h1
  split at h1
  · simp at h1
  · split at h1
    · simp at h1
    · next hno =>
      rw [hf, Bool.true_and, Bool.not_eq_true, Option.isNone_eq_false_iff] at hno
      exact hno

theorem velocity_pos (h : SoundBand lib cfg streams) {trs : List Trace}
    (he : energies lib cfg streams = .ok trs) {v0 : ℝ} (hv : velocity cfg trs = some v0) : 0 < v0 := by
  unfold velocity at hv
  split at hv
  · next v e =>
    rw [← Option.some.inj hv]
    exact h.velocity.1 v e
  · next e =>
    split at hv
    · simp at hv
    · next hne =>
      rw [← Option.some.inj hv]
      unfold InvertFb.mean
      have hl : 0 < trs.length := List.length_pos_iff.2 hne
      apply div_pos
      · apply sum_pos_of_ne
        · intro x hx
          obtain ⟨tr, htr, rfl⟩ := List.mem_map.1 hx
          have h1 := (h.traces trs he tr htr).distance
          have h2 := h.velocity.2 e trs he tr htr
          exact div_pos h1 (by linarith)
        · simpa using hne
      · rw [List.length_map]
        exact_mod_cast hl

/-- A reported misfit is finite. -/
theorem error_finite {wls : List ℝ → List (List ℝ) → List ℝ → List ℝ × ℝ} {G : Greens}
    {minimize : (ℝ → Py (WithTop ℝ)) → Py ℝ} {cfg : InvertFb.Cfg} {bd : Band} {res : BandResult}
    (hb : ∀ bb, cfg.bBounds = some bb → 0 ≤ bb.1 ∧ 0 ≤ bb.2)
    (hg : cfg.fix = false → ∀ gb, cfg.g0Bounds = some gb → 0 ≤ gb.1 ∧ 0 ≤ gb.2)
    (h : solveBand wls G minimize cfg bd = .ok (some res)) : res.error ≠ ⊤ := by
  obtain ⟨f, g0, bFix, hf, hr, hbf⟩ := solveBand_ok h
  obtain ⟨hn, -, -, -, -, -, herr, -⟩ := report_some hr
  rw [herr]
  by_cases hfx : cfg.fix = true
  · obtain ⟨rs, -, hf⟩ := bind_ok.1 hf
    obtain ⟨Rf, -, hf⟩ := bind_ok.1 hf
    obtain ⟨Ga, -, hf⟩ := bind_ok.1 hf
    simp only [bind, Except.bind, throw, throwThe, MonadExceptOf.throw] at hf
    split at hf
    · simp at hf
    · split at hf
      · simp at hf
      · unfold fitOf at hf
        simp only [hfx, if_true] at hf
        split at hf
        · simp at hf
        · cases bFix with
          | none => simp at hf
          | some bf =>
            simp only [Except.ok.injEq] at hf
            subst hf
            exact WithTop.coe_ne_top
  · have hfx' : cfg.fix = false := by simpa using hfx
    rw [hfx'] at hbf hf
    simp only [Bool.false_eq_true, if_false] at hbf
    subst hbf
    obtain ⟨e, hm⟩ := lstsq_misfit_bounds hfx' hf
    intro htop
    apply hn
    rcases hm.1 htop with ⟨bb, h1, h2⟩ | ⟨gb, h1, h2⟩
    · have := hb bb h1
      refine Or.inl ⟨bb, h1, fun h3 => h2 ⟨by linarith [h3.1], by linarith [h3.2]⟩⟩
    · have := hg hfx' gb h1
      rw [e]
      refine Or.inr ⟨gb, h1, fun h3 => h2 ⟨by linarith [h3.1], by linarith [h3.2]⟩⟩

end NoExc

/-- A band is inverted without exception. -/
theorem NoExc.band_total {lib : Lib} {wls : List ℝ → List (List ℝ) → List ℝ → List ℝ × ℝ} {G : Greens}
    {minimize : (ℝ → Py (WithTop ℝ)) → Py ℝ} {cfg : WCfg} {inv : InvertFb.Cfg} {streams : List Stream}
    (hG : SoundGreens G) (ho : SoundOptions cfg) (hi : ∀ v0, SoundInversion minimize (fullCfg cfg inv v0))
    (h : SoundBand lib cfg streams) :
    ∃ o, invertFb lib wls G minimize cfg inv streams = .ok o ∧ ∀ res, o = some res → res.error ≠ ⊤ := by
  by_cases hs : streams = []
  · exact ⟨none, by unfold invertFb; rw [if_pos hs], by simp⟩
  obtain ⟨trs, htrs⟩ := NoExc.energies_total h
  cases hv : velocity cfg trs with
  | none =>
    refine ⟨none, ?_, by simp⟩
    unfold invertFb
    rw [if_neg hs, htrs]
    simp only [bind, Except.bind, hv]
    rfl
  | some v0 =>
    have hv0 := NoExc.velocity_pos h htrs hv
    obtain ⟨st, hst⟩ := NoExc.windows_total ho v0 (h.traces trs htrs)
    by_cases hc : st.Ecoda.length = 0 ∨ (st.Ecoda.length : ℝ) < cfg.numPairs
    · refine ⟨none, ?_, by simp⟩
      unfold invertFb
      rw [if_neg hs, htrs]
      simp only [bind, Except.bind, hv, hst]
      rw [if_pos hc]
      rfl
    · obtain ⟨ps, hps, e⟩ := invertFb_accepted (wls := wls) (G := G) (minimize := minimize) (inv := inv)
        h.pairs htrs hv hst hc
      rw [e]
      have hnd' : (trs.map Trace.pair).Nodup := h.pairs.sublist (energies_pairs htrs)
      obtain ⟨trs', sel, e1, e2, b1, b2, b3, rfl⟩ := hps
      rw [htrs] at e1
      obtain rfl := Except.ok.inj e1
      have hne : sel.map Prod.snd ≠ [] := by
        intro hnil
        have hsel : sel = [] := by simpa using hnil
        subst hsel
        obtain ⟨sel', c1, c2, -, -, -, c3, -⟩ := C18_windows_belong_to_pairs hnd' hst
        have : sel' = [] := by
          by_contra hne
          obtain ⟨q, l, rfl⟩ := List.exists_cons_of_ne_nil hne
          exact b3 q.1 (c1.subset (by simp)) (by simp) q.2 (c2 q (by simp))
        subst this
        apply hc
        left
        rw [c3]
        simp [bandOf]
      have hpair : ∀ q ∈ sel, q.2.pair = q.1.pair := by
        intro q hq
        obtain ⟨e1, e2, _⟩ := b2 q hq
        unfold PairData.pair Trace.pair
        rw [e1, e2]
      have hndp : ((sel.map Prod.snd).map PairData.pair).Nodup := by
        have e : (sel.map Prod.snd).map PairData.pair = (sel.map Prod.fst).map Trace.pair := by
          rw [List.map_map, List.map_map]
          exact List.map_congr_left hpair
        rw [e]
        exact hnd'.sublist (b1.map _)
      have htr : ∀ q ∈ sel, q.1 ∈ trs := fun q hq => b1.subset (List.mem_map.2 ⟨q, hq, rfl⟩)
      obtain ⟨o, hsb⟩ := NoExc.solveBand_total (wls := wls) hG (cfg := fullCfg cfg inv v0) hv0 ho.smoothWindow (hi v0) hne hndp
        (by
          intro p hp
          obtain ⟨q, hq, rfl⟩ := List.mem_map.1 hp
          exact NoExc.accepts_sound ho (h.traces trs htrs q.1 (htr q hq)) hv0 (b2 q hq))
        (by
          intro hf p hp
          obtain ⟨q, hq, rfl⟩ := List.mem_map.1 hp
          have := NoExc.energies_sites htrs hf q.1 (htr q hq)
          have e : q.2.station = q.1.station := congrArg Prod.snd (hpair q hq)
          show (cfg.fixSitesParams.get? q.2.station).isSome
          rw [e]
          exact this)
      refine ⟨o, hsb, ?_⟩
      rintro res rfl
      apply NoExc.error_finite (hi v0).bBounds ?_ hsb
      intro hfx gb hgb
      obtain ⟨-, gb', h1, h2, h3⟩ := (hi v0).free hfx
      rw [hgb] at h1
      obtain rfl := Option.some.inj h1
      exact ⟨h2.le, by linarith⟩

namespace NoExc

open Invert Catalog Freqs Source

variable {env : Env} {cfg : InvCfg} {bands : Dict ℝ (ℝ × ℝ)} {events : List Event}

theorem dictGet_total {κ α : Type} [DecidableEq κ] {d : Dict κ α} {k : κ} (h : k ∈ d.keys) :
    ∃ v, dictGet d k = .ok v := by
  rw [← Dict.get?_isSome] at h
  obtain ⟨v, hv⟩ := Option.isSome_iff_exists.1 h
  exact ⟨v, by unfold dictGet; rw [hv]⟩

theorem bandArgs_total (h : cfg.cmd ≠ .go → ∃ fp, cfg.input = some fp ∧ SoundInput bands fp) :
    ∃ args, bandArgs cfg bands = .ok args := by
  have hp : ∀ fp, SoundInput bands fp → ∃ p, fixParams bands fp = .ok p := by
    intro fp hfp
    unfold fixParams
    rw [if_pos ⟨fun f hf => (hfp.same f).1 hf, fun f hf => (hfp.same f).2 hf⟩]
    apply foldlM_ok_of_all
    intro d x hx
    obtain ⟨h1, h2⟩ := List.of_mem_zip hx
    obtain ⟨h2, h3⟩ := List.of_mem_zip h2
    obtain ⟨band, hb⟩ := dictGet_total ((hfp.same x.1).1 h1)
    obtain ⟨g, hg⟩ : ∃ g, fixCell x.2.1 = .ok g := by
      rcases hfp.g0.2 _ h2 with e | ⟨y, e, -⟩ <;> rw [e] <;> exact ⟨_, rfl⟩
    obtain ⟨b, hb'⟩ : ∃ g, fixCell x.2.2 = .ok g := by
      rcases hfp.b.2 _ h3 with e | ⟨y, e⟩ <;> rw [e] <;> exact ⟨_, rfl⟩
    exact ⟨_, bind_ok.2 ⟨band, hb, bind_ok.2 ⟨g, hg, bind_ok.2 ⟨b, hb', rfl⟩⟩⟩⟩
  have hs : ∀ fp, SoundInput bands fp → ∃ p, fixSites bands fp = .ok p := by
    intro fp hfp
    unfold fixSites
    apply foldlM_ok_of_all
    intro d x hx
    have hx' := List.mem_zipIdx' hx
    obtain ⟨band, hb⟩ := dictGet_total ((hfp.same x.1).1 (by rw [hx'.2]; exact List.getElem_mem _))
    obtain ⟨l, hl⟩ : ∃ l, mapExc (siteEntry x.2) fp.R = .ok l := by
      apply mapExc_total
      intro row hrow
      have : x.2 < row.2.length := by rw [hfp.R.2 row hrow]; exact hx'.1
      unfold siteEntry
      obtain ⟨c, hc⟩ : ∃ c, pyGet row.2 x.2 = .ok c :=
        ⟨_, pyGet_ok.2 (List.getElem?_eq_getElem this)⟩
      exact ⟨_, bind_ok.2 ⟨c, hc, rfl⟩⟩
    exact ⟨_, bind_ok.2 ⟨band, hb, bind_ok.2 ⟨l, hl, rfl⟩⟩⟩
  unfold bandArgs
  cases hc : cfg.cmd with
  | go => exact ⟨_, rfl⟩
  | fixed =>
    obtain ⟨fp, h1, h2⟩ := h (by rw [hc]; simp)
    obtain ⟨p, hp⟩ := hp fp h2
    rw [h1]
    exact ⟨_, bind_ok.2 ⟨p, hp, rfl⟩⟩
  | source =>
    obtain ⟨fp, h1, h2⟩ := h (by rw [hc]; simp)
    obtain ⟨p, hp⟩ := hp fp h2
    obtain ⟨s, hs⟩ := hs fp h2
    rw [h1]
    exact ⟨_, bind_ok.2 ⟨p, hp, bind_ok.2 ⟨s, hs, rfl⟩⟩⟩

theorem runBand_total (hs : SoundSetup env cfg bands) {args : BandArgs} (ha : bandArgs cfg bands = .ok args)
    {streams : List Stream} {band : ℝ × ℝ} (hb : band ∈ bands.map Prod.snd)
    (h : SoundBand env.lib (bandWCfg cfg args band) streams) :
    ∃ o, runBand env cfg args streams band = .ok o ∧ ∀ res, o = some res → res.error ≠ ⊤ := by
  obtain ⟨⟨f, band'⟩, hf, rfl⟩ := List.mem_map.1 hb
  have ho : SoundOptions (bandWCfg cfg args band') := ⟨hs.weight, hs.smoothWindow, hs.skip⟩
  cases hc : cfg.cmd with
  | go =>
    have e : args = { fix := false, sites := false } := by
      unfold bandArgs at ha
      rw [hc] at ha
      exact (Except.ok.inj ha).symm
    subst e
    unfold runBand
    simp only [Bool.false_eq_true, if_false]
    apply band_total hs.greens ho _ h
    intro v0
    exact ⟨fun h => by simp [fullCfg] at h, fun _ => ⟨rfl, hs.g0Bounds hc⟩, hs.bBounds, hs.numPoints, hs.search⟩
  | _ =>
    all_goals
    obtain ⟨fp, h1, h2⟩ := hs.input (by rw [hc]; simp)
    obtain ⟨g, b, R, ⟨i, hi1, hi2, -, -⟩, hrun, -⟩ := C27_right_band (env := env) hs.frequencies h1 (by rw [hc]; simp) h2.nodup
      h2.g0.1 h2.b.1 h2.R.1 ha hf
    rw [hrun]
    apply band_total hs.greens ho _ h
    intro v0
    refine ⟨fun _ => ⟨?_, ?_⟩, fun h => by simp [fullCfg] at h, hs.bBounds, hs.numPoints, hs.search⟩
    · show (cfg.codaNorm.isSome) = false
      by_contra hn
      rw [hs.codaNorm (Bool.not_eq_false _ ▸ hn)] at hc
      simp at hc
    · intro x (hx : g = some x)
      obtain ⟨c, hc1, hc2⟩ := Option.map_eq_some_iff.1 hi2
      rcases h2.g0.2 c (List.mem_of_getElem? hc1) with rfl | ⟨y, rfl, hy⟩
      · rw [hx] at hc2; simp [Cell.val?] at hc2
      · rw [hx] at hc2
        simp only [Cell.val?, Option.some.injEq] at hc2
        rw [← hc2]; exact hy

theorem runBands_total (hs : SoundSetup env cfg bands) {cpus : ℕ} {schedule : List ℕ}
    (hj : OwnCopies cfg bands cpus schedule) {args : BandArgs} (ha : bandArgs cfg bands = .ok args)
    {streams : List Stream}
    (h : ∀ band ∈ bands.map Prod.snd, SoundBand env.lib (bandWCfg cfg args band) streams) :
    ∃ rlist, runBands env cfg args streams (bands.map Prod.snd) cpus schedule = .ok rlist ∧
      rlist.length = bands.length ∧ ∀ o ∈ rlist, ∀ res, o = some res → res.error ≠ ⊤ := by
  obtain ⟨rlist, hr⟩ : ∃ rlist, mapExc (runBand env cfg args streams) (bands.map Prod.snd) = .ok rlist := by
    apply mapExc_total
    intro band hb
    obtain ⟨o, ho, -⟩ := runBand_total hs ha hb (h band hb)
    exact ⟨o, ho⟩
  have hf := mapExc_ok.1 hr
  refine ⟨rlist, ?_, by simpa using hf.length_eq.symm, ?_⟩
  · unfold runBands
    split
    · rwa [C24_sequential]
    · rename_i hne
      rw [if_neg hs.jobs]
      rcases hj.2 with h1 | h1
      · exact absurd h1 hne
      · rwa [C24_any_number_of_workers_partial env cfg args streams _ _ (by simpa using h1) (hj.1 hne),
          C24_sequential]
  · intro o ho
    obtain ⟨i, hi, e⟩ := List.mem_iff_getElem.1 ho
    have hi' : i < (bands.map Prod.snd).length := by rw [hf.length_eq]; exact hi
    have h2 := List.Forall₂.get hf hi' hi
    simp only [List.get_eq_getElem, e] at h2
    obtain ⟨o', ho', hfin⟩ := runBand_total hs ha (List.getElem_mem hi') (h _ (List.getElem_mem hi'))
    rw [h2] at ho'
    rw [Except.ok.inj ho']
    exact hfin

theorem errorCells_total {rlist : List (Option BandResult)}
    (h : ∀ o ∈ rlist, ∀ res, o = some res → res.error ≠ ⊤) : ∃ l, mapExc errorCell rlist = .ok l := by
  apply mapExc_total
  intro o ho
  cases o with
  | none => exact ⟨_, rfl⟩
  | some r =>
    obtain ⟨x, hx⟩ := WithTop.ne_top_iff_exists.1 (h _ ho r rfl)
    exact ⟨.num x, by simp only [errorCell, ← hx]⟩

theorem rowW_length {ids : List String} (hn : ids.Nodup) {id : String} (hid : id ∈ ids)
    (rlist : List (Option BandResult)) : (rowW ids rlist id).length = rlist.length := by
  rw [rowW_nodup hn hid, List.length_map]

theorem sourceEvents_total (hs : SoundSetup env cfg bands) (hn : (events.map getEventid).Nodup)
    {v0 : Option ℝ} {rlist : List (Option BandResult)} (hl : rlist.length = bands.length) :
    ∃ d, sourceEvents env cfg bands.keys v0 rlist events = .ok d := by
  rw [sourceEvents_nodup hn]
  generalize hd : ((fromKeys (events.map getEventid)).map
    (fun id => (id, (⟨rowW (events.map getEventid) rlist id, [], []⟩ : EvRes))) : Dict String EvRes) = d
  have hget : ∀ id ∈ events.map getEventid, Dict.get? d id = some ⟨rowW (events.map getEventid) rlist id, [], []⟩ := by
    intro id hid
    subst hd
    apply Dict.get?_of_mem
    · unfold Dict.WF Dict.keys
      rw [List.map_map]
      simpa [Function.comp_def] using InvertFb.fromKeys_nodup _
    · exact List.mem_map.2 ⟨id, mem_fromKeys.2 hid, rfl⟩
  generalize hids : events.map getEventid = ids at hget hn
  have hsub : ∀ ev ∈ events, getEventid ev ∈ ids := fun ev hev => hids ▸ List.mem_map.2 ⟨ev, hev, rfl⟩
  have hn' : (events.map getEventid).Nodup := by rw [hids]; exact hn
  have hget' : ∀ ev ∈ events, Dict.get? d (getEventid ev) = some ⟨rowW ids rlist (getEventid ev), [], []⟩ :=
    fun ev hev => hget _ (hsub ev hev)
  clear hget hd hids
  induction events generalizing d with
  | nil => exact ⟨_, rfl⟩
  | cons ev evs ih =>
    have hW := rowW_length hn (hsub ev (by simp)) rlist
    obtain ⟨e, he⟩ : ∃ e, insertSourceProperties env.orc bands.keys ⟨rowW ids rlist (getEventid ev), [], []⟩
        v0 (some cfg.rho0) cfg.smm cfg.smo (getMagnitude ev) = .ok e := by
      unfold insertSourceProperties
      obtain ⟨l, hl'⟩ := Site.sdsEntries_total (W := rowW ids rlist (getEventid ev)) (v0 := v0) (rho0 := some cfg.rho0)
        (freq := bands.keys) (by rw [hW, hl]; simp [Dict.keys]) hs.nonzero
      simp only [hl', bind, Except.bind]
      cases hm : cfg.smm with
      | none => exact ⟨_, rfl⟩
      | some m =>
        obtain ⟨o, ho, hus⟩ := hs.sourceModel m hm
        simp only [ho]
        have hst : sdsStart ⟨rowW ids rlist (getEventid ev), [], []⟩ v0 (some cfg.rho0) = [] := by
          unfold sdsStart
          split
          · rfl
          · rfl
        have hlen : bands.keys.length = l.length := by
          have := (mapExc_ok.1 hl').length_eq
          simpa using this
        rw [hst, List.nil_append]
        obtain ⟨r, hr⟩ := fitSds_total hs.sourceSearch hlen hus
        rw [hr]
        exact ⟨_, rfl⟩
    rw [List.foldlM_cons]
    rw [List.map_cons, List.nodup_cons] at hn'
    obtain ⟨d', hd'⟩ := ih (Dict.set d (getEventid ev) e) (fun ev' h => hsub ev' (by simp [h])) hn'.2 (by
      intro ev' hev'
      rw [Dict.get?_set_ne]
      · exact hget' ev' (by simp [hev'])
      · intro h
        exact hn'.1 (h ▸ List.mem_map.2 ⟨ev', hev', rfl⟩))
    refine ⟨d', bind_ok.2 ⟨Dict.set d (getEventid ev) e, ?_, hd'⟩⟩
    have h1 : dictGet d (getEventid ev) = .ok ⟨rowW ids rlist (getEventid ev), [], []⟩ := by
      unfold dictGet
      rw [hget' ev (by simp)]
    exact bind_ok.2 ⟨_, h1, bind_ok.2 ⟨e, he, rfl⟩⟩

end NoExc

namespace NoExc

theorem foldlM_error {σ α : Type} {f : σ → α → Py σ} {l : List α} {a : α} (ha : a ∈ l)
    (h : ∀ s, ∃ e, f s a = .error e) (s : σ) : ∃ e, l.foldlM f s = .error e := by
  induction l generalizing s with
  | nil => simp at ha
  | cons x l ih =>
    rw [List.foldlM_cons]
    cases hx : f s x with
    | error e => exact ⟨e, rfl⟩
    | ok s' =>
      rcases List.mem_cons.1 ha with rfl | ha
      · obtain ⟨e, he⟩ := h s
        rw [hx] at he
        simp at he
      · exact ih ha s'

variable {lib : Lib} {wls : List ℝ → List (List ℝ) → List ℝ → List ℝ × ℝ} {G : Greens}
  {minimize : (ℝ → Py (WithTop ℝ)) → Py ℝ} {cfg : WCfg} {inv : InvertFb.Cfg} {streams : List Stream}

theorem invertFb_error {trs : List Trace} {tr : Trace} (he : energies lib cfg streams = .ok trs)
    (ht : tr ∈ trs) (h : ∀ v0 st, ∃ e, step lib cfg v0 st tr = .error e) :
    ∃ e, invertFb lib wls G minimize cfg inv streams = .error e := by
  have hs : streams ≠ [] := by
    rintro rfl
    simp [energies, mapExc, bind, Except.bind, pure, Except.pure] at he
    rw [he] at ht
    simp at ht
  have hv : ∃ v0, velocity cfg trs = some v0 := by
    unfold velocity
    split
    · exact ⟨_, rfl⟩
    · rw [if_neg (List.ne_nil_of_mem ht)]
      exact ⟨_, rfl⟩
  obtain ⟨v0, hv⟩ := hv
  obtain ⟨e, hw⟩ := foldlM_error ht (h v0) { energies := trs.map Trace.pair }
  refine ⟨e, ?_⟩
  unfold invertFb
  rw [if_neg hs, he]
  simp only [bind, Except.bind, hv]
  unfold windows
  rw [hw]

end NoExc

end Qopen
