import Verif.Props.Invert

/-!
# Inversion with fixed attenuation and fixed site responses (command `source`): C19
-/

namespace Qopen

open Real Util Spec InvertFb

variable {G : Greens} {cfg : Cfg} {ps : List PairData} {gs : List (List ℝ × ℝ)} {res : BandResult}
  {wls : List ℝ → List (List ℝ) → List ℝ → List ℝ × ℝ}
  {rank : List ℝ → List (List ℝ) → ℕ} {minimize : (ℝ → Py (WithTop ℝ)) → Py ℝ}

namespace InvertFb

theorem dot_sourceRow {bd : Band} {pair : String × String} (he : pair.1 ∈ eventids bd) (C : List ℝ) :
    dot (sourceRow bd pair) C = C.getD ((eventids bd).idxOf pair.1) 0 := by
  unfold sourceRow
  rw [dot_set _ _ _ _ (by simpa using List.idxOf_lt_length_iff.2 he), dot_replicate_zero,
    getD_replicate_zero]
  ring

theorem source_row {bd : Band} (hc : cfg.codaNorm = false) (hf : cfg.fix = true)
    (hfs : cfg.fixSites = true) (s : Sample) :
    rowOf cfg bd s = sourceRow bd (s.event, s.station) := by
  unfold rowOf baseRow
  simp [hf, hfs]

/-- A fit of source energies only. -/
theorem source_fit (hwls : IsWls rank wls) (hc : cfg.codaNorm = false) (hfx : cfg.fix = true)
    (hfs : cfg.fixSites = true) (hps : ps ≠ []) (hgw : GoodWeights ps) (hl : LenOk ps gs)
    (hne : ∀ p ∈ ps, p.coda ≠ [])
    (hpos : ∀ s ∈ samplesOf cfg.bulk ps gs, 0 < s.E ∧ 0 < s.G)
    {ref : String → ℝ} (href : ∀ s ∈ samplesOf cfg.bulk ps gs, 0 < ref s.station)
    {g0 bf : ℝ} {Rfix : List ℝ} {f : Fit}
    (h : fitOf cfg (bandOf cfg.bulk ps) g0 (some bf) true Rfix
        (wls ((samplesOf cfg.bulk ps gs).map Sample.w)
          ((samplesOf cfg.bulk ps gs).map (rowOf cfg (bandOf cfg.bulk ps)))
          ((samplesOf cfg.bulk ps gs).map (target (some bf) (some ref)))) = .ok f) :
    f.g0 = g0 ∧ f.b = bf ∧ f.W.length = (eventids (bandOf cfg.bulk ps)).length ∧
    (∀ e ∈ eventids (bandOf cfg.bulk ps),
      0 < valueOf ((eventids (bandOf cfg.bulk ps)).zip f.W) e) ∧
    (∀ W : String → ℝ, (∀ e, 0 < W e) → misfit (samplesOf cfg.bulk ps gs) ref
      (valueOf ((eventids (bandOf cfg.bulk ps)).zip f.W)) bf ≤
        misfit (samplesOf cfg.bulk ps gs) ref W bf) ∧
    f.err = ((sqrt (misfit (samplesOf cfg.bulk ps gs) ref
      (valueOf ((eventids (bandOf cfg.bulk ps)).zip f.W)) bf /
        ((samplesOf cfg.bulk ps gs).length - rank ((samplesOf cfg.bulk ps gs).map Sample.w)
          ((samplesOf cfg.bulk ps gs).map (rowOf cfg (bandOf cfg.bulk ps))))) : ℝ) : WithTop ℝ) := by
  set S := samplesOf cfg.bulk ps gs with hS
  set bd := bandOf cfg.bulk ps with hbd
  have hev : ∀ s ∈ S, s.event ∈ eventids bd := by
    intro s hs
    obtain ⟨p, hp, h2, -⟩ := mem_samplesOf hl hs
    exact mem_eventids.2 ⟨p, hp, h2⟩
  obtain ⟨c1, c2, c3⟩ := wls_apply hwls (samples_ne (bulk := cfg.bulk) hl hps hne)
    (fun s hs => weight_nonneg hl hgw hs) (n := (eventids bd).length)
    (row := rowOf cfg bd) (fun s _ => by rw [source_row hc hfx hfs, sourceRow]; simp)
    (target (some bf) (some ref))
  rw [← hS] at c1 c2 c3
  generalize hsol : wls (S.map Sample.w) (S.map (rowOf cfg bd))
    (S.map (target (some bf) (some ref))) = sol at h c1 c2 c3
  obtain ⟨C, mse⟩ := sol
  simp only at c1 c2 c3
  unfold fitOf decode at h
  simp only [hfx, hc, if_true, Bool.false_eq_true, if_false, Except.ok.injEq] at h
  subst h
  simp only [List.length_map]
  have hval : ∀ e ∈ eventids bd, valueOf ((eventids bd).zip (C.map exp)) e =
      exp (C.getD ((eventids bd).idxOf e) 0) := by
    intro e he
    have hi : (eventids bd).idxOf e < C.length := by
      rw [c1]; exact List.idxOf_lt_length_iff.2 he
    rw [valueOf, get?_zip _ _ _ (by rw [List.length_map, c1]), List.getElem?_map,
      List.getD_eq_getElem _ _ hi, List.getElem?_eq_getElem hi]
    rfl
  have hres : ∀ (W : String → ℝ) (D : List ℝ), (∀ e ∈ eventids bd, 0 < W e) →
      (∀ e ∈ eventids bd, D.getD ((eventids bd).idxOf e) 0 = log (W e)) →
      (S.map (fun s => s.w * (target (some bf) (some ref) s - dot (rowOf cfg bd s) D) ^ 2)).sum =
        misfit S ref W bf := by
    intro W D hW hD
    apply misfit_congr
    intro s hs
    rw [source_row hc hfx hfs, dot_sourceRow (hev s hs), hD _ (hev s hs),
      log_predicted (hpos s hs).2 (href s hs) (hW _ (hev s hs))]
    simp only [target, Option.getD_some]
    ring
  have hmis := hres (valueOf ((eventids bd).zip (C.map exp))) C
    (fun e he => by rw [hval e he]; exact exp_pos _)
    (fun e he => by rw [hval e he, log_exp])
  refine ⟨trivial, trivial, c1, fun e he => by rw [hval e he]; exact exp_pos _, ?_, ?_⟩
  · intro W hW
    rw [← hmis, ← hres W ((eventids bd).map (fun e => log (W e))) (fun e _ => hW e)]
    · exact c2 _ (by simp)
    · intro e he
      have hi : (eventids bd).idxOf e < ((eventids bd).map (fun e => log (W e))).length := by
        rw [List.length_map]; exact List.idxOf_lt_length_iff.2 he
      rw [List.getD_eq_getElem _ _ hi, List.getElem_map, List.getElem_idxOf]
  · rw [c3, hmis]

end InvertFb

/-- **C19**: with fixed attenuation and fixed site responses, every station of the data has a
reference response, and the reported source energies minimise the weighted logarithmic misfit
between observed energies and `G R_ref W exp(-b t)`, where `R_ref` is the reference response of
the station of each sample, and `G` and `b` belong to the fixed attenuation of the band.  Neither
site responses nor attenuation are reported. -/
theorem C19_source_uses_reference_responses (hwls : IsWls rank wls) (hG : OneValuePerTime G)
    (hin : GoodInput cfg ps) (hc : cfg.codaNorm = false) (hfx : cfg.fix = true)
    (hfs : cfg.fixSites = true)
    (href : ∀ s r, cfg.fixSitesParams.get? s = some r → 0 < r)
    (h : solveBand wls G minimize cfg (bandOf cfg.bulk ps) = .ok (some res)) :
    ∃ (g0 b : ℝ) (W : Dict String ℝ) (gs : List (List ℝ × ℝ)),
      cfg.fixParams = (some g0, some b) ∧ IsGreens G cfg g0 ps gs ∧
      (∀ p ∈ ps, ∃ r, cfg.fixSitesParams.get? p.station = some r) ∧
      res.W = some W ∧ W.keys.Nodup ∧ (∀ e, e ∈ W.keys ↔ ∃ p ∈ ps, p.event = e) ∧
      (∀ e ∈ W.keys, 0 < valueOf W e) ∧
      (∀ W' : String → ℝ, (∀ e, 0 < W' e) →
        misfit (samplesOf cfg.bulk ps gs) (valueOf cfg.fixSitesParams) (valueOf W) b ≤
          misfit (samplesOf cfg.bulk ps gs) (valueOf cfg.fixSitesParams) W' b) ∧
      (∃ rk : ℕ, res.error = ((sqrt (misfit (samplesOf cfg.bulk ps gs)
        (valueOf cfg.fixSitesParams) (valueOf W) b /
          ((samplesOf cfg.bulk ps gs).length - rk)) : ℝ) : WithTop ℝ)) ∧
      res.R = none ∧ res.g0 = none ∧ res.b = none := by
  obtain ⟨f, g0, bFix, hf, hr, hb⟩ := solveBand_ok h
  rw [hfx] at hb
  simp only [if_true] at hb
  obtain ⟨b, rfl⟩ := Option.isSome_iff_exists.1 hb.2
  rw [hfx, hfs, Bool.and_self] at hf
  obtain ⟨gs, Rfix, h1, h2, h3, h4, -, h6, h5⟩ := lstsq_ok hin.pairs hG (fun _ => hfs) hf
  obtain ⟨-, r1, r2, r3, r4, r5, r6, -⟩ := report_some hr
  simp only [if_true] at h5
  have hst : ∀ p ∈ ps, ∃ r, cfg.fixSitesParams.get? p.station = some r := by
    intro p hp
    obtain ⟨x, hx⟩ := List.exists_mem_of_ne_nil _ (h3 p hp)
    obtain ⟨s, hs, -, e2, -⟩ := coda_mem (bulk := cfg.bulk) h2 hp hx
    rw [← e2]
    exact Option.isSome_iff_exists.1 (h6 rfl s hs)
  obtain ⟨k1, k2, k3, k4, k5, k6⟩ := source_fit hwls hc hfx hfs hin.some_pair hin.weights h2 h3 h4
    (ref := refOf cfg) (by
      intro s hs
      obtain ⟨r, hr⟩ := Option.isSome_iff_exists.1 (h6 rfl s hs)
      have := href _ _ hr
      rw [refOf, hr]; exact this) h5
  refine ⟨g0, b, _, gs, hb.1, h1, hst, by rw [r3, hc]; rfl, ?_, ?_, ?_, k5, ?_, ?_, ?_, ?_⟩
  · rw [zip_keys k3]; exact fromKeys_nodup _
  · intro e; rw [zip_keys k3]; exact mem_eventids
  · rw [zip_keys k3]; exact k4
  · exact ⟨_, by rw [r6, k6]; rfl⟩
  · rw [r4, hfs]; rfl
  · rw [r1, hfx]; rfl
  · rw [r2, hfx]; rfl

namespace InvertFb

/-- The best value for one event is the weighted mean of the residuals. -/
theorem source_mean {S : List Sample} (hw : ∀ s ∈ S, 0 ≤ s.w)
    (hG : ∀ s ∈ S, 0 < s.G) {ref W : String → ℝ} (href : ∀ s ∈ S, 0 < ref s.station)
    (hW : ∀ s ∈ S, 0 < W s.event) {b : ℝ}
    (hbest : ∀ W' : String → ℝ, (∀ e, 0 < W' e) → misfit S ref W b ≤ misfit S ref W' b) (e : String) :
    (S.map (fun s => if s.event = e then s.w * (log (W e) -
      (log s.E - log s.G - log (ref s.station) + b * s.t)) else 0)).sum = 0 := by
  classical
  set r : Sample → ℝ := fun s => log s.E - log s.G - log (ref s.station) + b * s.t with hr
  set A : ℝ := (S.map (fun s => if s.event = e then s.w else 0)).sum with hA
  set D : ℝ := (S.map (fun s => if s.event = e then s.w * (log (W e) - r s) else 0)).sum with hD
  have hA0 : 0 ≤ A := sum_map_nonneg (fun s hs => by split; exacts [hw s hs, le_rfl])
  -- change of the misfit
  have key : ∀ d : ℝ, 0 ≤ 2 * d * D + d ^ 2 * A := by
    intro d
    let W' : String → ℝ := fun x => if x = e then exp (log (W e) + d) else
      if 0 < W x then W x else 1
    have hW' : ∀ x, 0 < W' x := by
      intro x
      simp only [W']
      split
      · exact exp_pos _
      · split
        · assumption
        · norm_num
    have h1 := hbest W' hW'
    have h2 : misfit S ref W' b = misfit S ref W b + (2 * d * D + d ^ 2 * A) := by
      rw [hD, hA, ← sum_map_mul_left', ← sum_map_mul_left', ← sum_map_add']
      unfold misfit
      rw [← sum_map_add']
      apply sum_map_congr
      intro s hs
      rw [log_predicted (hG s hs) (href s hs) (hW' _), log_predicted (hG s hs) (href s hs) (hW s hs)]
      by_cases he : s.event = e
      · simp only [W', he, if_true, log_exp, hr]
        ring
      · simp only [W', he, if_false, hW s hs, if_true]
        ring
    linarith
  rcases hA0.eq_or_lt with h0 | h0
  · rw [← h0] at key
    have h1 := key 1
    have h2 := key (-1)
    linarith
  · have h1 := key (-D / A)
    have : 2 * (-D / A) * D + (-D / A) ^ 2 * A = - (D ^ 2 / A) := by field_simp; ring
    rw [this] at h1
    have h2 : 0 ≤ D ^ 2 / A := by positivity
    have h3 : D ^ 2 / A = 0 := by linarith
    have h4 : D ^ 2 = 0 := by
      rcases div_eq_zero_iff.1 h3 with h | h
      · exact h
      · exact absurd h h0.ne'
    exact pow_eq_zero_iff two_ne_zero |>.1 h4

end InvertFb

/-- **C19**: the reported source energy of each event is given by the samples of this event alone:
its logarithm is the weighted mean of `ln E - ln G - ln R_ref + b t` over these samples. -/
theorem C19_source_energy_is_weighted_mean (hwls : IsWls rank wls) (hG : OneValuePerTime G)
    (hin : GoodInput cfg ps) (hc : cfg.codaNorm = false) (hfx : cfg.fix = true)
    (hfs : cfg.fixSites = true)
    (href : ∀ s r, cfg.fixSitesParams.get? s = some r → 0 < r)
    (h : solveBand wls G minimize cfg (bandOf cfg.bulk ps) = .ok (some res)) :
    ∃ (g0 b : ℝ) (W : Dict String ℝ) (gs : List (List ℝ × ℝ)),
      cfg.fixParams = (some g0, some b) ∧ IsGreens G cfg g0 ps gs ∧ res.W = some W ∧
      ∀ p ∈ ps, log (valueOf W p.event) *
          (((samplesOf cfg.bulk ps gs).filter (fun s => s.event = p.event)).map Sample.w).sum =
        (((samplesOf cfg.bulk ps gs).filter (fun s => s.event = p.event)).map (fun s => s.w *
          (log s.E - log s.G - log (valueOf cfg.fixSitesParams s.station) + b * s.t))).sum ∧
        0 < (((samplesOf cfg.bulk ps gs).filter (fun s => s.event = p.event)).map Sample.w).sum := by
  obtain ⟨g0, b, W, gs, h1, h2, h3, h4, -, h6, h7, h8, -⟩ :=
    C19_source_uses_reference_responses hwls hG hin hc hfx hfs href h
  have hl := isGreens_len h2
  obtain ⟨f, g0', bFix, hf, -, hb⟩ := solveBand_ok h
  rw [hfx] at hb
  simp only [if_true, h1, Prod.mk.injEq, Option.some.injEq] at hb
  obtain ⟨⟨e1, e2⟩, -⟩ := hb
  subst e1 e2
  rw [hfx, hfs, Bool.and_self] at hf
  obtain ⟨gs', Rfix, h1', h2', h3', h4', -⟩ := lstsq_ok hin.pairs hG (fun _ => hfs) hf
  have hgs : ∀ s ∈ samplesOf cfg.bulk ps gs, 0 < s.G := by
    obtain ⟨rs, hrs, hf⟩ := bind_ok.1 hf
    obtain ⟨Rf, hRf, hf⟩ := bind_ok.1 hf
    rw [greensAll_eq hin.pairs h3' h2] at hf
    simp only [bind, Except.bind, throw, throwThe, MonadExceptOf.throw, pure, Except.pure] at hf
    split at hf
    · simp at hf
    · split at hf
      · simp at hf
      · next hn =>
        push Not at hn
        intro s hs
        exact hn.2 _ (List.mem_map.2 ⟨s, hs, rfl⟩)
  refine ⟨g0, b, W, gs, h1, h2, h4, ?_⟩
  intro p hp
  have hmem : ∀ s ∈ samplesOf cfg.bulk ps gs, ∃ p ∈ ps, p.event = s.event ∧ p.station = s.station :=
    fun s hs => mem_samplesOf hl hs
  have hm := source_mean (S := samplesOf cfg.bulk ps gs) (fun s hs => weight_nonneg hl hin.weights hs)
    hgs (ref := valueOf cfg.fixSitesParams) (W := valueOf W) (b := b) (by
      intro s hs
      obtain ⟨q, hq, -, e⟩ := hmem s hs
      obtain ⟨r, hr⟩ := h3 q hq
      rw [← e, valueOf, hr]
      exact href _ _ hr) (by
      intro s hs
      obtain ⟨q, hq, e, -⟩ := hmem s hs
      exact h7 _ ((h6 _).2 ⟨q, hq, e⟩)) h8 p.event
  have hfil : ∀ (F : Sample → ℝ), (((samplesOf cfg.bulk ps gs).filter
      (fun s => s.event = p.event)).map F).sum =
      ((samplesOf cfg.bulk ps gs).map (fun s => if s.event = p.event then F s else 0)).sum := by
    intro F
    induction samplesOf cfg.bulk ps gs with
    | nil => rfl
    | cons a l ih =>
      by_cases he : a.event = p.event
      · rw [List.filter_cons_of_pos (by simpa using he)]
        simp only [List.map_cons, List.sum_cons, ih, he, if_true]
      · rw [List.filter_cons_of_neg (by simpa using he)]
        simp only [List.map_cons, List.sum_cons, ih, he, if_false, zero_add]
  rw [hfil, hfil]
  constructor
  · rw [← sum_map_mul_left', ← sub_eq_zero, ← sum_map_sub']
    refine Eq.trans ?_ hm
    apply sum_map_congr
    intro s _
    by_cases he : s.event = p.event
    · simp only [he, if_true]; ring
    · simp [he]
  · obtain ⟨x, hx⟩ := List.exists_mem_of_ne_nil _ (h3' p hp)
    obtain ⟨s, hs, i1, -, -, -, i5⟩ := coda_mem (bulk := cfg.bulk) hl hp hx
    have hnn : ∀ t ∈ samplesOf cfg.bulk ps gs, 0 ≤ if t.event = p.event then t.w else 0 := by
      intro t ht
      split
      · exact weight_nonneg hl hin.weights ht
      · exact le_rfl
    refine lt_of_lt_of_le (b := if s.event = p.event then s.w else 0) (by rw [if_pos i1, i5]; norm_num) ?_
    exact List.single_le_sum (by
      intro y hy
      obtain ⟨t, ht, rfl⟩ := List.mem_map.1 hy
      exact hnn t ht) _ (List.mem_map.2 ⟨s, hs, rfl⟩)

/-! ## A case which meets the hypotheses -/

namespace InvertExample

noncomputable def cfg2 : Cfg :=
  { fix := true, fixSites := true, g0Bounds := some (1 / 2, 3 / 2), bBounds := some (1 / 10, 10)
    v0 := 3, fixParams := (some 1, some 1), fixSitesParams := [("A", 2), ("B", 1 / 2)] }

theorem good2 : GoodInput cfg2 ps1 := ⟨good1.pairs, good1.some_pair, good1.weights, by norm_num [cfg2]⟩

theorem source_example_of (wls : List ℝ → List (List ℝ) → List ℝ → List ℝ × ℝ)
    (minimize : (ℝ → Py (WithTop ℝ)) → Py ℝ) :
    (∃ res, solveBand wls G1 minimize cfg2 (bandOf cfg2.bulk ps1) = .ok (some res)) ∧
    (∀ s r, cfg2.fixSitesParams.get? s = some r → 0 < r) := by
  constructor
  · have hgr : IsGreens G1 cfg2 1 ps1 [([1, 1], 0), ([1, 1], 0), ([1, 1], 0)] := by
      simp [IsGreens, ps1, pair1, gsmooth, smoothFunc, cfg2, G1]
    have hps : (bandOf cfg2.bulk ps1).pairs = [("e1", "A"), ("e1", "B"), ("e2", "B")] := rfl
    have hbl : blockLengths (bandOf cfg2.bulk ps1) = [2, 2, 2] := rfl
    have hrs : ∃ rs, siteRefs cfg2 (bandOf cfg2.bulk ps1) = .ok rs := by
      unfold siteRefs perSample
      rw [hbl]
      simp only [List.zipIdx, List.flatMap_cons, List.flatMap_nil, blockPair, hps, id]
      exact ⟨_, rfl⟩
    have hRf : ∃ rs, siteRefsShort cfg2 (bandOf cfg2.bulk ps1) = .ok rs := by
      have hst : stations (bandOf cfg2.bulk ps1) = ["A", "B"] := by
        simp [stations, fromKeys, hps]
      unfold siteRefsShort
      rw [hbl, hst]
      exact ⟨_, rfl⟩
    obtain ⟨rs, hrs⟩ := hrs
    obtain ⟨Rf, hRf⟩ := hRf
    have hl : ∃ f, lstsq wls G1 cfg2 (bandOf cfg2.bulk ps1) 1 (some 1) true = .ok f ∧ f.g0 = 1 ∧
        f.b = 1 := by
      rw [lstsq_eq good2.pairs _ hgr _ hrs hRf (fun _ => rfl)]
      · exact ⟨_, rfl, rfl, rfl⟩
      · intro p hp
        simp only [ps1, List.mem_cons, List.not_mem_nil, or_false] at hp
        rcases hp with rfl | rfl | rfl <;> simp [pair1]
      · intro s hs
        simp only [samplesOf, ps1, pair1, cfg2] at hs
        simp at hs
        have hR := R1_pos
        have hW := W1_pos
        rcases hs with rfl | rfl | rfl | rfl | rfl | rfl <;>
          exact ⟨mul_pos (mul_pos (hR _) (hW _)) (exp_pos _), one_pos⟩
    obtain ⟨f, hf, f1, f2⟩ := hl
    have hnear : ¬ nearBounds cfg2 f.b f.g0 := by
      rw [f1, f2]
      rintro (⟨gb, h1, h2⟩ | ⟨gb, h1, h2⟩)
      · simp only [cfg2, Option.some.injEq] at h1
        subst h1
        exact h2 (by norm_num)
      · simp only [cfg2, Option.some.injEq] at h1
        subst h1
        exact h2 (by norm_num)
    have hbf : bandFit wls G1 minimize cfg2 (bandOf cfg2.bulk ps1) = .ok (some f) := by
      unfold bandFit
      have e1 : cfg2.fix = true := rfl
      have e2 : cfg2.fixParams = (some 1, some 1) := rfl
      have e3 : cfg2.fixSites = true := rfl
      rw [if_pos e1, e2]
      simp only [e3, hf]
      rfl
    unfold solveBand
    rw [hbf]
    simp only [bind, Except.bind, pure, Except.pure, Option.bind_some]
    unfold report
    simp only [hnear, if_false]
    exact ⟨_, rfl⟩
  · intro s r h
    simp only [cfg2, Dict.get?_cons] at h
    split at h
    · simp only [Option.some.injEq] at h; rw [← h]; norm_num
    · split at h
      · simp only [Option.some.injEq] at h; rw [← h]; norm_num
      · simp [Dict.get?] at h

theorem source_example (minimize : (ℝ → Py (WithTop ℝ)) → Py ℝ) :
    (∃ res, solveBand someWls G1 minimize cfg2 (bandOf cfg2.bulk ps1) = .ok (some res)) ∧
    (∀ s r, cfg2.fixSitesParams.get? s = some r → 0 < r) := source_example_of someWls minimize

end InvertExample

end Qopen
