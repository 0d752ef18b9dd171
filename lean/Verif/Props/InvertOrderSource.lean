import Verif.Props.InvertError
import Verif.Lemmas.SiteTotal

/-!
# Order of the pairs and calibration of events with fixed site responses: C113
-/

namespace Qopen

open Real Util Spec InvertFb

variable {G : Greens} {cfg : Cfg} {ps ps' : List PairData} {gs gs' : List (List ℝ × ℝ)}
  {wls : List ℝ → List (List ℝ) → List ℝ → List ℝ × ℝ} {kE : String → ℝ}
  {rank : List ℝ → List (List ℝ) → ℕ} {minimize : (ℝ → Py (WithTop ℝ)) → Py ℝ}

namespace InvertFb

theorem siteRefs_total (hfs : cfg.fixSites = true)
    (h : ∀ p ∈ ps, ∃ r, cfg.fixSitesParams.get? p.station = some r) :
    ∃ rs, siteRefs cfg (bandOf cfg.bulk ps) = .ok rs := by
  unfold siteRefs
  rw [if_pos hfs]
  apply Site.mapExc_total
  intro q hq
  rw [perSample_bandOf] at hq
  have : ∃ p ∈ ps, p.pair = q := by
    rcases List.mem_append.1 hq with hq | hq
    · obtain ⟨p, hp, hq⟩ := List.mem_flatMap.1 hq
      obtain ⟨x, -, hq⟩ := List.mem_map.1 hq
      exact ⟨p, hp, hq⟩
    · split at hq
      · obtain ⟨p, hp, hq⟩ := List.mem_map.1 hq
        exact ⟨p, hp, hq⟩
      · simp at hq
  obtain ⟨p, hp, rfl⟩ := this
  obtain ⟨r, hr⟩ := h p hp
  exact ⟨r, by simp only [dictGet, PairData.pair, hr]⟩

/-- Number of rows of reference responses which are kept. -/
theorem siteRefsShort_length {rs : List ℝ} (hfs : cfg.fixSites = true)
    (h : siteRefsShort cfg (bandOf cfg.bulk ps) = .ok rs) :
    rs.length = min (stations (bandOf cfg.bulk ps)).length
      (if cfg.bulk then 2 * ps.length else ps.length) := by
  unfold siteRefsShort at h
  rw [if_pos hfs] at h
  rw [mapExc_length h, List.length_take, List.length_map, List.length_range]
  unfold blockLengths bandOf
  cases cfg.bulk with
  | true => simp; omega
  | false => simp

theorem siteRefsShort_total (hfs : cfg.fixSites = true) (hps : ps ≠ [])
    (h : ∀ p ∈ ps, ∃ r, cfg.fixSitesParams.get? p.station = some r) :
    ∃ rs, siteRefsShort cfg (bandOf cfg.bulk ps) = .ok rs := by
  unfold siteRefsShort
  rw [if_pos hfs]
  apply Site.mapExc_total
  intro q hq
  obtain ⟨i, -, rfl⟩ := List.mem_map.1 (List.mem_of_mem_take hq)
  have hlen : 0 < ps.length := List.length_pos_iff.2 hps
  have hi : i % (ps.map PairData.pair).length < (ps.map PairData.pair).length :=
    Nat.mod_lt _ (by simpa using hlen)
  have hq' : blockPair (bandOf cfg.bulk ps) i ∈ ps.map PairData.pair := by
    unfold blockPair
    simp only [bandOf]
    rw [List.getD_eq_getElem _ _ hi]
    exact List.getElem_mem hi
  obtain ⟨p, hp, e⟩ := List.mem_map.1 hq'
  obtain ⟨r, hr⟩ := h p hp
  refine ⟨r, ?_⟩
  rw [← e]
  simp only [dictGet, PairData.pair, hr]

theorem fitOf_source {g0 bf : ℝ} {Rfix : List ℝ} {sol : List ℝ × ℝ} {bd : Band} {f : Fit}
    (hc : cfg.codaNorm = false) (hfx : cfg.fix = true)
    (h : fitOf cfg bd g0 (some bf) true Rfix sol = .ok f) : f.R = Rfix := by
  unfold fitOf decode at h
  simp only [hfx, hc, if_true, Bool.false_eq_true, if_false, Except.ok.injEq] at h
  rw [← h]

/-- The linear inversion for source energies with recalibrated events in any order. -/
theorem lstsq_recal_source (hwls : IsWls rank wls) (hr : FullRank rank) (hG : OneValuePerTime G)
    (hin : GoodInput cfg ps) (hc : cfg.codaNorm = false) (hfx : cfg.fix = true)
    (hfs : cfg.fixSites = true) (href : ∀ s r, cfg.fixSitesParams.get? s = some r → 0 < r)
    (hkE : ∀ e, 0 < kE e) (hp : ps'.Perm (ps.map (recalibrate kE (fun _ => 1))))
    {g0 bf : ℝ} {f : Fit}
    (h : lstsq wls G cfg (bandOf cfg.bulk ps) g0 (some bf) true = .ok f) :
    ∃ f', lstsq wls G cfg (bandOf cfg.bulk ps') g0 (some bf) true = .ok f' ∧
      f'.g0 = f.g0 ∧ f'.b = f.b ∧ f'.err = f.err ∧ f'.R.length = f.R.length ∧
      f.W.length = (eventids (bandOf cfg.bulk ps)).length ∧
      f'.W = (eventids (bandOf cfg.bulk ps')).map (fun e => kE e *
        valueOf ((eventids (bandOf cfg.bulk ps)).zip f.W) e) := by
  have hkS : ∀ s : String, 0 < (fun _ : String => (1:ℝ)) s := fun _ => one_pos
  obtain ⟨gs, Rfix, h1, hl, hne, hpos, hRf, h6, h5⟩ := lstsq_ok hin.pairs hG (fun _ => hfs) h
  simp only [if_true] at h5
  have hst : ∀ p ∈ ps, ∃ r, cfg.fixSitesParams.get? p.station = some r := by
    intro p hp
    obtain ⟨x, hx⟩ := List.exists_mem_of_ne_nil _ (hne p hp)
    obtain ⟨s, hs, -, e2, -⟩ := coda_mem (bulk := cfg.bulk) hl hp hx
    rw [← e2]
    exact Option.isSome_iff_exists.1 (h6 rfl s hs)
  have hst' : ∀ p ∈ ps', ∃ r, cfg.fixSitesParams.get? p.station = some r := by
    intro p hp'
    obtain ⟨q, hq, rfl⟩ := perm_mem' hp hp'
    exact hst q hq
  have hrefpos : ∀ s ∈ samplesOf cfg.bulk ps gs, 0 < refOf cfg s.station := by
    intro s hs
    obtain ⟨r, hr⟩ := Option.isSome_iff_exists.1 (h6 rfl s hs)
    have := href _ _ hr
    rw [refOf, hr]; exact this
  obtain ⟨k1, k2, k3, k4, k5, k6⟩ := source_fit hwls hc hfx hfs hin.some_pair hin.weights hl hne hpos
    hrefpos h5
  obtain ⟨gs', hne', h1', hpos', hperm⟩ := recal_compare hkE hkS hp hne h1 hpos
  have hl' := isGreens_len h1'
  have hin' := recal_good hp hin
  obtain ⟨rs', hrs'⟩ := siteRefs_total hfs hst'
  obtain ⟨Rfix', hRf'⟩ := siteRefsShort_total hfs hin'.some_pair hst'
  rw [lstsq_eq hin'.pairs hne' h1' hpos' hrs' hRf' (fun _ => hfs)]
  obtain ⟨f', hf'⟩ := fitOf_some (cfg := cfg) (bd := bandOf cfg.bulk ps')
    (g0 := g0) (bFix := some bf) (fs := true) (Rf := Rfix')
    (sol := wls ((samplesOf cfg.bulk ps' gs').map Sample.w)
      ((samplesOf cfg.bulk ps' gs').map (rowOf cfg (bandOf cfg.bulk ps')))
      ((samplesOf cfg.bulk ps' gs').map (target (some bf)
        (if true then some (refOf cfg) else none)))) hc (fun _ => rfl)
  rw [hf']
  simp only [if_true] at hf'
  have hrefpos' : ∀ s ∈ samplesOf cfg.bulk ps' gs', 0 < refOf cfg s.station := by
    intro s hs
    obtain ⟨q, hq, rfl⟩ := List.mem_map.1 (hperm.mem_iff.1 hs)
    exact hrefpos q hq
  obtain ⟨j1, j2, j3, j4, j5, j6⟩ := source_fit hwls hc hfx hfs hin'.some_pair hin'.weights hl' hne'
    hpos' hrefpos' hf'
  have hrk := source_rank hr hc hfx hfs hin.weights hl hne
  have hrk' := source_rank hr hc hfx hfs hin'.weights hl' hne'
  set S := samplesOf cfg.bulk ps gs with hS
  set S' := samplesOf cfg.bulk ps' gs' with hS'
  set W1 := valueOf ((eventids (bandOf cfg.bulk ps)).zip f.W) with hW1
  set W2 := valueOf ((eventids (bandOf cfg.bulk ps')).zip f'.W) with hW2
  have hev : ∀ s ∈ S, s.event ∈ eventids (bandOf cfg.bulk ps) := by
    intro s hs
    obtain ⟨p, hp, h2, -⟩ := mem_samplesOf hl hs
    exact mem_eventids.2 ⟨p, hp, h2⟩
  have hev' : ∀ s, s ∈ eventids (bandOf cfg.bulk ps') ↔ s ∈ eventids (bandOf cfg.bulk ps) :=
    fun s => (perm_eventids hp).mem_iff
  have hposW2 : ∀ s ∈ eventids (bandOf cfg.bulk ps), 0 < W2 s :=
    fun s hs => j4 s ((hev' s).2 hs)
  -- source energies
  have hW : ∀ e ∈ eventids (bandOf cfg.bulk ps), W2 e = kE e * W1 e := by
    intro e he
    have m1 := source_mean (fun s hs => weight_nonneg hl hin.weights hs)
      (fun s hs => (hpos s hs).2) hrefpos (fun s hs => k4 _ (hev s hs)) k5 e
    have m2 := source_mean (fun s hs => weight_nonneg hl' hin'.weights hs)
      (fun s hs => (hpos' s hs).2) hrefpos' (fun s hs => by
        obtain ⟨q, hq, rfl⟩ := List.mem_map.1 (hperm.mem_iff.1 hs)
        exact hposW2 _ (hev q hq)) j5 e
    rw [← hS] at m1
    rw [← hS', (hperm.map _).sum_eq, List.map_map] at m2
    have hsub := congrArg₂ (· - ·) m2 m1
    simp only [sub_zero] at hsub
    rw [← sum_map_sub', sum_map_congr (g := fun s => (log (W2 e) - log (kE e) - log (W1 e)) *
      (if s.event = e then s.w else 0)), sum_map_mul_left'] at hsub
    · obtain ⟨p, hp', rfl⟩ := mem_eventids.1 he
      obtain ⟨x, hx⟩ := List.exists_mem_of_ne_nil _ (hne p hp')
      obtain ⟨s, hs, i1, -, -, -, i5⟩ := coda_mem (bulk := cfg.bulk) hl hp' hx
      have hApos : 0 < (S.map (fun s => if s.event = p.event then s.w else 0)).sum := by
        refine lt_of_lt_of_le (b := if s.event = p.event then s.w else 0)
          (by rw [if_pos i1, i5]; norm_num) ?_
        exact List.single_le_sum (by
          intro y hy
          obtain ⟨t, ht, rfl⟩ := List.mem_map.1 hy
          split
          · exact weight_nonneg hl hin.weights ht
          · exact le_rfl) _ (List.mem_map.2 ⟨s, hs, rfl⟩)
      rcases mul_eq_zero.1 hsub with h0 | h0
      · have hk := hkE p.event
        have hw1 := k4 _ he
        apply log_injOn_pos (hposW2 _ he) (mul_pos hk hw1)
        rw [log_mul hk.ne' hw1.ne']
        linarith
      · exact absurd h0 hApos.ne'
    · intro s hs
      simp only [Function.comp, recalSample]
      by_cases hse : s.event = e
      · simp only [hse, if_true]
        rw [mul_one, log_mul (hkE e).ne' (hpos s hs).1.ne']
        ring
      · simp [hse]
  have hmis : misfit S' (refOf cfg) W2 bf = misfit S (refOf cfg) W1 bf := by
    rw [perm_misfit hperm, ← recal_misfit (m := 1) one_pos hkE hkS hpos hrefpos
      (fun s hs => k4 _ (hev s hs))]
    unfold misfit
    apply sum_map_congr
    intro s hs
    obtain ⟨q, hq, rfl⟩ := List.mem_map.1 hs
    have := hW q.event (hev q hq)
    simp only [predicted, recalSample, this, mul_one, div_one]
    ring_nf
  refine ⟨f', rfl, by rw [j1, k1], by rw [j2, k2], ?_, ?_, k3, ?_⟩
  · rw [j6, k6, hrk, hrk', hmis, hperm.length_eq, List.length_map, (perm_eventids hp).length_eq]
  · rw [fitOf_source hc hfx hf', fitOf_source hc hfx h5, siteRefsShort_length hfs hRf',
      siteRefsShort_length hfs hRf, (perm_stations hp).length_eq, hp.length_eq, List.length_map]
  · rw [← zip_values (show (eventids (bandOf cfg.bulk ps')).Nodup from fromKeys_nodup _) j3]
    apply List.map_congr_left
    intro e he
    exact hW e ((hev' e).1 he)

end InvertFb

namespace Spec

/-- Result `r'` is result `r` with the source energies multiplied by `fW`. -/
structure SameSources (fW : String → ℝ) (r r' : BandResult) : Prop where
  g0 : r'.g0 = r.g0
  b : r'.b = r.b
  v0 : r'.v0 = r.v0
  error : r'.error = r.error
  nstations : r'.nstations = r.nstations
  R : r'.R = r.R
  W : ∃ d d', r.W = some d ∧ r'.W = some d' ∧ ∀ e, d'.get? e = (d.get? e).map (fW e * ·)

end Spec

/-- **C113** for source energies: with fixed attenuation and site responses the order of the pairs
does not matter, and multiplying all energies of an event by `kE` multiplies its source energy by
`kE` and changes nothing else. -/
theorem C113_source (hwls : IsWls rank wls) (hr : FullRank rank) (hG : OneValuePerTime G)
    (hin : GoodInput cfg ps) (hc : cfg.codaNorm = false) (hfx : cfg.fix = true)
    (hfs : cfg.fixSites = true) (href : ∀ s r, cfg.fixSitesParams.get? s = some r → 0 < r)
    (hkE : ∀ e, 0 < kE e) (hp : ps'.Perm (ps.map (recalibrate kE (fun _ => 1))))
    {res : Option BandResult}
    (h : solveBand wls G minimize cfg (bandOf cfg.bulk ps) = .ok res) :
    ∃ res', solveBand wls G minimize cfg (bandOf cfg.bulk ps') = .ok res' ∧
      Option.Rel (SameSources kE) res res' := by
  unfold solveBand at h ⊢
  obtain ⟨of, hof, h⟩ := bind_ok.1 h
  simp only [pure, Except.pure, Except.ok.injEq] at h
  subst h
  unfold bandFit at hof ⊢
  rw [if_pos hfx] at hof ⊢
  cases h1 : cfg.fixParams.1 with
  | none =>
    rw [h1] at hof
    simp only [Except.ok.injEq] at hof
    subst hof
    exact ⟨none, rfl, .none⟩
  | some a =>
    cases h2 : cfg.fixParams.2 with
    | none =>
      rw [h1, h2] at hof
      simp only [Except.ok.injEq] at hof
      subst hof
      exact ⟨none, rfl, .none⟩
    | some b =>
      rw [h1, h2] at hof
      simp only at hof
      obtain ⟨f, hf, h3⟩ := bind_ok.1 hof
      simp only [pure, Except.pure, Except.ok.injEq] at h3
      subst h3
      rw [hfs] at hf ⊢
      obtain ⟨f', hf', e1, e2, e3, e4, e5, e6⟩ := lstsq_recal_source hwls hr hG hin hc hfx hfs href
        hkE hp hf
      simp only [hf', bind, Except.bind, pure, Except.pure]
      refine ⟨_, rfl, ?_⟩
      simp only [Option.bind_some]
      unfold report
      rw [e1, e2]
      by_cases hn : nearBounds cfg f.b f.g0
      · simp only [hn, if_true]; exact .none
      · simp only [hn, if_false]
        refine .some ⟨rfl, rfl, rfl, e3, e4, by simp [hfs], ?_⟩
        simp only [hc, Bool.not_false, if_true, Option.some.injEq]
        refine ⟨_, _, rfl, rfl, fun s => ?_⟩
        rw [e6]
        exact zip_factor (show (eventids (bandOf cfg.bulk ps)).Nodup from fromKeys_nodup _)
          (perm_eventids hp) e5 kE s

namespace InvertExample

/-- Pairs in another order, the second event with twice the energy. -/
noncomputable def ps2' : List PairData :=
  [recalibrate kE1 (fun _ => 1) (pair1 "e2" "B"), recalibrate kE1 (fun _ => 1) (pair1 "e1" "A"),
    recalibrate kE1 (fun _ => 1) (pair1 "e1" "B")]

example (minimize : (ℝ → Py (WithTop ℝ)) → Py ℝ) : ∃ r r',
    solveBand rankWls G1 minimize cfg2 (bandOf cfg2.bulk ps1) = .ok (some r) ∧
    solveBand rankWls G1 minimize cfg2 (bandOf cfg2.bulk ps2') = .ok (some r') ∧
    SameSources kE1 r r' := by
  obtain ⟨⟨r, h⟩, href⟩ := source_example_of rankWls minimize
  obtain ⟨res', h1, h2⟩ := C113_source (kE := kE1) (ps' := ps2') rankWls_spec someRank_full
    one_value_G1 good2 rfl rfl rfl href (by intro e; unfold kE1; split <;> norm_num)
    (by
      simp only [ps2', ps1, List.map_cons, List.map_nil]
      exact (List.Perm.swap _ _ _).trans (.cons _ (.swap _ _ _))) h
  cases h2 with
  | some h2 => exact ⟨r, _, h, h1, h2⟩

end InvertExample

end Qopen
