import Verif.Lemmas.InvertFit

/-!
# Success of the inversion, uniqueness, existence of a WLS solver
-/

namespace Qopen.InvertFb

open Real Util Spec

variable {G : Greens} {cfg : Cfg} {ps : List PairData} {gs : List (List ℝ × ℝ)} {g0 : ℝ}
  {wls : List ℝ → List (List ℝ) → List ℝ → List ℝ × ℝ} {bulk : Bool}
  {rank : List ℝ → List (List ℝ) → ℕ}

theorem isGreens_len (h : IsGreens G cfg g0 ps gs) : LenOk ps gs :=
  List.Forall₂.imp (fun _ _ h => h.2.1) h

theorem greensOfPair_eq (hnd : (ps.map PairData.pair).Nodup) {i : ℕ} (hi : i < ps.length)
    (hc : ps[i].coda ≠ []) {g : List ℝ × ℝ}
    (h1 : gsmooth G cfg ps[i].distance (ps[i].coda.map Prod.fst) g0 = .ok g.1)
    (h2 : cfg.bulk = true → gbulk G cfg ps[i].distance (ps[i].bulkStart, ps[i].bulkEnd) g0 = .ok g.2) :
    greensOfPair G cfg (bandOf cfg.bulk ps) g0 (ps[i].pair, i) =
      .ok (g.1, if cfg.bulk then [g.2] else []) := by
  unfold greensOfPair
  have hE : pyGet (bandOf cfg.bulk ps).Ecoda i = .ok (ps[i].coda.map Prod.snd) := by
    rw [pyGet_ok]; simp [bandOf, hi]
  have hT : pyGet (bandOf cfg.bulk ps).tcoda i = .ok (ps[i].coda.map Prod.fst) := by
    rw [pyGet_ok]; simp [bandOf, hi]
  have hD : dictGet (bandOf cfg.bulk ps).distances ps[i].pair = .ok ps[i].distance := by
    unfold dictGet
    have : (bandOf cfg.bulk ps).distances.get? ps[i].pair = some ps[i].distance :=
      get?_map_pair hnd PairData.distance (List.getElem_mem hi)
    rw [this]
  have h0 : ¬ ps[i].coda.length = 0 := by rwa [List.length_eq_zero_iff]
  simp only [hE, bind, Except.bind, List.length_map, h0, if_false, pure, Except.pure, hD, hT, h1]
  cases hb : cfg.bulk with
  | false => simp
  | true =>
    have hW : dictGet (bandOf true ps).tbulkWindow ps[i].pair =
        .ok (ps[i].bulkStart, ps[i].bulkEnd) := by
      unfold dictGet
      have : (bandOf true ps).tbulkWindow.get? ps[i].pair =
          some (ps[i].bulkStart, ps[i].bulkEnd) := by
        simp only [bandOf, if_true]
        exact get?_map_pair hnd (fun p => (p.bulkStart, p.bulkEnd)) (List.getElem_mem hi)
      rw [this]
    simp [hW, h2 hb]

theorem greensAll_eq (hnd : (ps.map PairData.pair).Nodup) (hne : ∀ p ∈ ps, p.coda ≠ [])
    (h : IsGreens G cfg g0 ps gs) :
    greensAll G cfg (bandOf cfg.bulk ps) g0 = .ok ((samplesOf cfg.bulk ps gs).map Sample.G) := by
  have hlen := h.length_eq
  have hm : mapExc (greensOfPair G cfg (bandOf cfg.bulk ps) g0) (bandOf cfg.bulk ps).pairs.zipIdx =
      .ok (gs.map (fun g => (g.1, if cfg.bulk then [g.2] else []))) := by
    rw [mapExc_ok, List.forall₂_iff_get]
    refine ⟨by simp [bandOf, hlen], ?_⟩
    intro i h1 h2
    have hi : i < ps.length := by simpa [bandOf] using h1
    have hi' : i < gs.length := by omega
    have hg := List.Forall₂.get h hi hi'
    simp only [List.get_eq_getElem] at hg
    have := greensOfPair_eq hnd hi (hne _ (List.getElem_mem hi)) hg.1 hg.2.2
    simpa [bandOf] using this
  unfold greensAll
  rw [hm]
  simp only [bind, Except.bind, pure, Except.pure, List.map_map, Function.comp_def]
  rw [← greens_eq (isGreens_len h)]
  congr 2
  clear hm h hlen
  induction gs with
  | nil => cases cfg.bulk <;> rfl
  | cons g l ih =>
    rw [List.map_cons, List.flatten_cons, ih]
    cases cfg.bulk <;> simp

theorem lstsq_eq (hnd : (ps.map PairData.pair).Nodup) (hne : ∀ p ∈ ps, p.coda ≠ [])
    (h : IsGreens G cfg g0 ps gs) (hpos : ∀ s ∈ samplesOf cfg.bulk ps gs, 0 < s.E ∧ 0 < s.G)
    {rs Rfix : List ℝ} (hrs : siteRefs cfg (bandOf cfg.bulk ps) = .ok rs)
    (hRf : siteRefsShort cfg (bandOf cfg.bulk ps) = .ok Rfix) {bFix : Option ℝ} {fixSites : Bool}
    (hfs : fixSites = true → cfg.fixSites = true) :
    lstsq wls G cfg (bandOf cfg.bulk ps) g0 bFix fixSites =
      fitOf cfg (bandOf cfg.bulk ps) g0 bFix fixSites Rfix
        (wls ((samplesOf cfg.bulk ps gs).map Sample.w)
          ((samplesOf cfg.bulk ps gs).map (rowOf cfg (bandOf cfg.bulk ps)))
          ((samplesOf cfg.bulk ps gs).map
            (target bFix (if fixSites then some (refOf cfg) else none)))) := by
  have hl := isGreens_len h
  unfold lstsq
  rw [hrs, hRf, greensAll_eq hnd hne h]
  simp only [bind, Except.bind, throw, throwThe, MonadExceptOf.throw, pure, Except.pure]
  rw [(rhs_eq hl (bFix := bFix) hfs hrs).1, energiesObs_eq hl, List.length_map, List.length_map,
    if_neg (by simp), if_neg, List.length_map, weights_eq hl, design_eq hl]
  rintro (⟨e, he, h0⟩ | ⟨e, he, h0⟩)
  · obtain ⟨s, hs, rfl⟩ := List.mem_map.1 he
    exact absurd (hpos s hs).1 (not_lt.2 h0)
  · obtain ⟨s, hs, rfl⟩ := List.mem_map.1 he
    exact absurd (hpos s hs).2 (not_lt.2 h0)

/-! ## Uniqueness -/

theorem log_predicted {s : Sample} {R W : String → ℝ} {b : ℝ} (hG : 0 < s.G)
    (hR : 0 < R s.station) (hW : 0 < W s.event) :
    log (predicted R W b s) = log s.G + log (R s.station) + log (W s.event) - b * s.t := by
  unfold predicted
  rw [log_mul (by positivity) (exp_pos _).ne', log_mul (by positivity) hW.ne',
    log_mul hG.ne' hR.ne', log_exp]
  ring

/-- Two minimisers predict the same energies for all data with positive weight. -/
theorem same_prediction {S : List Sample} (hw : ∀ s ∈ S, 0 ≤ s.w) (hG : ∀ s ∈ S, 0 < s.G)
    {R W R' W' : String → ℝ} {b b' : ℝ} (hR : ∀ s ∈ S, 0 < R s.station)
    (hR' : ∀ s ∈ S, 0 < R' s.station) (hW : ∀ s ∈ S, 0 < W s.event)
    (hW' : ∀ s ∈ S, 0 < W' s.event)
    (hmin : ∀ (R'' W'' : String → ℝ) (b'' : ℝ), (∀ s, 0 < R'' s) → (∀ e, 0 < W'' e) →
      (b = b' → b'' = b) → misfit S R W b ≤ misfit S R'' W'' b'')
    (hle : misfit S R' W' b' ≤ misfit S R W b) :
    ∀ s ∈ S, s.w ≠ 0 → log (R s.station) + log (W s.event) - b * s.t =
      log (R' s.station) + log (W' s.event) - b' * s.t := by
  let Rm : String → ℝ := fun s => exp ((log (R s) + log (R' s)) / 2)
  let Wm : String → ℝ := fun s => exp ((log (W s) + log (W' s)) / 2)
  have hm := hmin Rm Wm ((b + b') / 2) (fun s => exp_pos _) (fun s => exp_pos _)
    (by rintro rfl; ring)
  set d : Sample → ℝ := fun s => (log (R s.station) + log (W s.event) - b * s.t) -
    (log (R' s.station) + log (W' s.event) - b' * s.t) with hd
  have hid : misfit S Rm Wm ((b + b') / 2) =
      (misfit S R W b + misfit S R' W' b') / 2 - (S.map (fun s => s.w * d s ^ 2)).sum / 4 := by
    have hpt : ∀ s ∈ S, s.w * (log s.E - log (predicted Rm Wm ((b + b') / 2) s)) ^ 2 =
        (1 / 2) * (s.w * (log s.E - log (predicted R W b s)) ^ 2 +
          s.w * (log s.E - log (predicted R' W' b' s)) ^ 2) - (1 / 4) * (s.w * d s ^ 2) := by
      intro s hs
      rw [log_predicted (hG s hs) (exp_pos _) (exp_pos _),
        log_predicted (hG s hs) (hR s hs) (hW s hs),
        log_predicted (hG s hs) (hR' s hs) (hW' s hs)]
      simp only [Rm, Wm, log_exp, hd]
      ring
    unfold misfit
    rw [sum_map_congr hpt, sum_map_sub', sum_map_mul_left', sum_map_mul_left', sum_map_add']
    ring
  have hz : (S.map (fun s => s.w * d s ^ 2)).sum = 0 := by
    have h0 : 0 ≤ (S.map (fun s => s.w * d s ^ 2)).sum :=
      sum_map_nonneg (fun s hs => mul_nonneg (hw s hs) (sq_nonneg _))
    linarith
  intro s hs hws
  have := sum_map_eq_zero (fun s hs => mul_nonneg (hw s hs) (sq_nonneg _)) hz s hs
  have h2 : d s = 0 := by
    rcases mul_eq_zero.1 this with h | h
    · exact absurd h hws
    · exact pow_eq_zero_iff (two_ne_zero) |>.1 h
  simp only [hd] at h2
  linarith

/-- Site responses and source energies are determined by their products, up to one factor. -/
theorem determined {ps : List PairData} (hcon : ConnectedPairs ps) (hps : ps ≠ [])
    {lR lW lR' lW' : String → ℝ}
    (h : ∀ p ∈ ps, lR p.station + lW p.event = lR' p.station + lW' p.event) :
    ∃ c, (∀ p ∈ ps, lR' p.station = lR p.station + c) ∧ (∀ p ∈ ps, lW' p.event = lW p.event - c) := by
  obtain ⟨p0, hp0⟩ := List.exists_mem_of_ne_nil _ hps
  have hstep : ∀ s t, SameEvent ps s t → lR' s - lR s = lR' t - lR t := by
    rintro s t ⟨p, hp, q, hq, he, rfl, rfl⟩
    have h1 := h p hp
    have h2 := h q hq
    rw [he] at h1
    linarith
  have hall : ∀ s t, Relation.ReflTransGen (SameEvent ps) s t → lR' s - lR s = lR' t - lR t := by
    intro s t hst
    induction hst with
    | refl => rfl
    | tail _ hab ih => rw [ih, hstep _ _ hab]
  refine ⟨lR' p0.station - lR p0.station, ?_, ?_⟩
  · intro p hp
    have := hall _ _ (hcon p0 hp0 p hp)
    linarith
  · intro p hp
    have := hall _ _ (hcon p0 hp0 p hp)
    have := h p hp
    linarith

/-- Mean logarithm of the site responses of the stations. -/
noncomputable def meanLogR (ps : List PairData) (bulk : Bool) (R : String → ℝ) : ℝ :=
  ((stations (bandOf bulk ps)).map (fun s => log (R s))).sum / (stations (bandOf bulk ps)).length

theorem zip_values {ks : List String} (hnd : ks.Nodup) {vs : List ℝ} (h : vs.length = ks.length) :
    ks.map (valueOf (ks.zip vs)) = vs := by
  apply List.ext_getElem
  · simp [h]
  · intro i h1 h2
    have hi : i < ks.length := by simpa using h1
    rw [List.getElem_map, valueOf, get?_zip _ _ _ h, hnd.idxOf_getElem,
      List.getElem?_eq_getElem h2]
    rfl

/-- **Uniqueness of the fit.**  Any other site responses, source energies and attenuation with the
same mean logarithmic response and a misfit which is not larger are the ones of the fit. -/
theorem fit_unique (hps : ps ≠ []) (hl : LenOk ps gs) (hgw : GoodWeights ps)
    (hne : ∀ p ∈ ps, p.coda ≠ [])
    (hpos : ∀ s ∈ samplesOf cfg.bulk ps gs, 0 < s.E ∧ 0 < s.G) {f : Fit}
    (hf : FreeFit rank cfg ps (samplesOf cfg.bulk ps gs) f)
    (hcon : ConnectedPairs ps) (htw : cfg.fix = false → TwoTimes ps)
    {R W : String → ℝ} {b : ℝ} (hR : ∀ p ∈ ps, 0 < R p.station) (hW : ∀ p ∈ ps, 0 < W p.event)
    (hb : cfg.fix = true → b = f.b)
    (hgeo : meanLogR ps cfg.bulk R = log cfg.R0)
    (hle : misfit (samplesOf cfg.bulk ps gs) R W b ≤
      misfit (samplesOf cfg.bulk ps gs) (valueOf ((stations (bandOf cfg.bulk ps)).zip f.R))
        (valueOf ((eventids (bandOf cfg.bulk ps)).zip f.W)) f.b) :
    b = f.b ∧ f.R = (stations (bandOf cfg.bulk ps)).map R ∧
      f.W = (eventids (bandOf cfg.bulk ps)).map W := by
  set S := samplesOf cfg.bulk ps gs with hS
  set bd := bandOf cfg.bulk ps with hbd
  set R1 := valueOf ((stations bd).zip f.R) with hR1
  set W1 := valueOf ((eventids bd).zip f.W) with hW1
  have hR1p : ∀ p ∈ ps, 0 < R1 p.station := fun p hp => hf.posR _ (mem_stations.2 ⟨p, hp, rfl⟩)
  have hW1p : ∀ p ∈ ps, 0 < W1 p.event := fun p hp => hf.posW _ (mem_eventids.2 ⟨p, hp, rfl⟩)
  have hmem : ∀ s ∈ S, ∃ p ∈ ps, p.event = s.event ∧ p.station = s.station :=
    fun s hs => mem_samplesOf hl hs
  have hsame := same_prediction (fun s hs => weight_nonneg hl hgw hs) (fun s hs => (hpos s hs).2)
    (R := R1) (W := W1) (R' := R) (W' := W) (b := f.b) (b' := b)
    (fun s hs => by obtain ⟨p, hp, -, h⟩ := hmem s hs; rw [← h]; exact hR1p p hp)
    (fun s hs => by obtain ⟨p, hp, -, h⟩ := hmem s hs; rw [← h]; exact hR p hp)
    (fun s hs => by obtain ⟨p, hp, h, -⟩ := hmem s hs; rw [← h]; exact hW1p p hp)
    (fun s hs => by obtain ⟨p, hp, h, -⟩ := hmem s hs; rw [← h]; exact hW p hp)
    (fun R'' W'' b'' h1 h2 h3 => hf.best R'' W'' b'' h1 h2 (fun hfx => h3 (hb hfx).symm)) hle
  have hcoda : ∀ p ∈ ps, ∀ x ∈ p.coda, log (R1 p.station) + log (W1 p.event) - f.b * x.1 =
      log (R p.station) + log (W p.event) - b * x.1 := by
    intro p hp x hx
    obtain ⟨s, hs, h1, h2, h3, -, h5⟩ := coda_mem (bulk := cfg.bulk) hl hp hx
    have := hsame s hs (by rw [h5]; norm_num)
    rwa [h1, h2, h3] at this
  have hbeq : b = f.b := by
    cases hfx : cfg.fix with
    | true => exact hb hfx
    | false =>
      obtain ⟨p, hp, x, hx, y, hy, hxy⟩ := htw hfx
      have h1 := hcoda p hp x hx
      have h2 := hcoda p hp y hy
      have h3 : (b - f.b) * (x.1 - y.1) = 0 := by linear_combination h1 - h2
      rcases mul_eq_zero.1 h3 with h | h
      · linarith
      · exact absurd (by linarith) hxy
  obtain ⟨c, hc1, hc2⟩ := determined hcon hps (lR := fun s => log (R1 s)) (lW := fun e => log (W1 e))
    (lR' := fun s => log (R s)) (lW' := fun e => log (W e)) (by
      intro p hp
      obtain ⟨x, hx⟩ := List.exists_mem_of_ne_nil _ (hne p hp)
      have := hcoda p hp x hx
      rw [hbeq] at this
      linarith)
  have hnds : (stations bd).Nodup := fromKeys_nodup _
  have hnde : (eventids bd).Nodup := fromKeys_nodup _
  have hRl : (stations bd).map R1 = f.R := zip_values hnds hf.lenR
  have hWl : (eventids bd).map W1 = f.W := zip_values hnde hf.lenW
  have hN : ((stations bd).length : ℝ) ≠ 0 := by
    have := List.length_pos_iff.2 (stations_ne (bulk := cfg.bulk) hps)
    rw [← hbd] at this
    positivity
  have hc0 : c = 0 := by
    have hg := hf.geo
    rw [← hRl, List.map_map, List.length_map] at hg
    have h2 : ((stations bd).map (fun s => log (R s))).sum =
        ((stations bd).map (log ∘ R1)).sum + (stations bd).length * c := by
      rw [← sum_map_const', ← sum_map_add']
      apply sum_map_congr
      intro s hs
      obtain ⟨p, hp, rfl⟩ := mem_stations.1 hs
      exact hc1 p hp
    unfold meanLogR at hgeo
    rw [← hbd, h2, add_div, hg, mul_div_cancel_left₀ _ hN] at hgeo
    linarith
  refine ⟨hbeq, ?_, ?_⟩
  · rw [← hRl]
    apply List.map_congr_left
    intro s hs
    obtain ⟨p, hp, rfl⟩ := mem_stations.1 hs
    have := hc1 p hp
    simp only [hc0, add_zero] at this
    exact (log_injOn_pos (hR p hp) (hR1p p hp) this).symm
  · rw [← hWl]
    apply List.map_congr_left
    intro e he
    obtain ⟨p, hp, rfl⟩ := mem_eventids.1 he
    have := hc2 p hp
    simp only [hc0, sub_zero] at this
    exact (log_injOn_pos (hW p hp) (hW1p p hp) this).symm

/-! ## A solver exists -/

theorem wsse_eq_sse (w : List ℝ) (A : List (List ℝ)) (B C : List ℝ) (hw : ∀ x ∈ w, 0 ≤ x) :
    wsse w A B C = sse (List.zipWith (fun w b => sqrt w * b) w B)
      (List.zipWith (fun w row => row.map (fun x => sqrt w * x)) w A) C := by
  have hdot : ∀ (k : ℝ) (row C : List ℝ),
      (List.zipWith (· * ·) (row.map (fun x => k * x)) C).sum =
        k * (List.zipWith (· * ·) row C).sum := by
    intro k row C
    induction row generalizing C with
    | nil => simp
    | cons a row ih =>
      cases C with
      | nil => simp
      | cons c C => simp only [List.map_cons, List.zipWith_cons_cons, List.sum_cons, ih]; ring
  induction w generalizing A B with
  | nil => simp [wsse, sse]
  | cons x w ih =>
    cases A with
    | nil => simp [wsse, sse]
    | cons row A =>
      cases B with
      | nil => simp [wsse, sse]
      | cons y B =>
        have h1 := ih A B (fun z hz => hw z (by simp [hz]))
        have hx : sqrt x * sqrt x = x := mul_self_sqrt (hw x (by simp))
        unfold wsse sse at h1 ⊢
        simp only [List.zipWith_cons_cons, List.sum_cons, h1, hdot]
        congr 1
        linear_combination (-(y - (List.zipWith (· * ·) row C).sum) ^ 2) * hx

theorem scaled_row_len {w : List ℝ} {A : List (List ℝ)} {n : ℕ} (h : ∀ row ∈ A, row.length = n) :
    ∀ r ∈ List.zipWith (fun w row => row.map (fun x => sqrt w * x)) w A, r.length ≤ n := by
  induction w generalizing A with
  | nil => simp
  | cons x w ih =>
    cases A with
    | nil => simp
    | cons row A =>
      intro r hr
      rw [List.zipWith_cons_cons] at hr
      rcases List.mem_cons.1 hr with rfl | hr
      · rw [List.length_map, h row (by simp)]
      · exact ih (fun q hq => h q (by simp [hq])) r hr

open Classical in
/-- A weighted least-squares solver. -/
noncomputable def someWls (w : List ℝ) (A : List (List ℝ)) (B : List ℝ) : List ℝ × ℝ :=
  if h : ∃ n, ∀ row ∈ A, row.length = n then
    let C := (exists_min h.choose (List.zipWith (fun w b => sqrt w * b) w B) _
      (scaled_row_len (w := w) h.choose_spec)).choose
    (C, wsse w A B C / B.length)
  else ([], 0)

theorem someWls_spec : IsWls (fun _ _ => 0) someWls := by
  intro n w A B hA hrow hAB hwB hw
  have h : ∃ n, ∀ row ∈ A, row.length = n := ⟨n, hrow⟩
  have hn : h.choose = n := by
    obtain ⟨r, hr⟩ := List.exists_mem_of_ne_nil _ hA
    rw [← hrow r hr, h.choose_spec r hr]
  have hs := (exists_min h.choose (List.zipWith (fun w b => sqrt w * b) w B) _
      (scaled_row_len (w := w) h.choose_spec)).choose_spec
  rw [someWls, dif_pos h]
  refine ⟨by rw [← hn]; exact hs.1, ?_, by simp⟩
  intro C _
  rw [wsse_eq_sse _ _ _ _ hw, wsse_eq_sse _ _ _ _ hw]
  exact hs.2 C

end Qopen.InvertFb
