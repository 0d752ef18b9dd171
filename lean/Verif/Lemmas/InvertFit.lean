import Verif.Lemmas.InvertDecode

/-!
# Fits as minimisers of the logarithmic misfit
-/

namespace Qopen.InvertFb

open Real Util Spec

variable {G : Greens} {cfg : Cfg} {ps : List PairData} {gs : List (List ℝ × ℝ)} {g0 : ℝ}
  {wls : List ℝ → List (List ℝ) → List ℝ → List ℝ × ℝ} {bulk : Bool}
  {rank : List ℝ → List (List ℝ) → ℕ}

theorem mem_samplesOf (hl : LenOk ps gs) {s : Sample} (hs : s ∈ samplesOf bulk ps gs) :
    ∃ p ∈ ps, p.event = s.event ∧ p.station = s.station := by
  have : (s.event, s.station) ∈ (samplesOf bulk ps gs).map (fun s => (s.event, s.station)) :=
    List.mem_map.2 ⟨s, hs, rfl⟩
  rw [← perSample_eq hl (fun p => p), perSample_bandOf] at this
  rcases List.mem_append.1 this with h | h
  · obtain ⟨p, hp, h⟩ := List.mem_flatMap.1 h
    obtain ⟨x, -, h⟩ := List.mem_map.1 h
    simp only [PairData.pair, Prod.mk.injEq] at h
    exact ⟨p, hp, h.1, h.2⟩
  · cases bulk with
    | false => simp at h
    | true =>
      simp only [if_true] at h
      obtain ⟨p, hp, h⟩ := List.mem_map.1 h
      simp only [PairData.pair, Prod.mk.injEq] at h
      exact ⟨p, hp, h.1, h.2⟩

/-- Every coda sample is a datum with weight one. -/
theorem coda_mem (hl : LenOk ps gs) {p : PairData} (hp : p ∈ ps) {x : ℝ × ℝ} (hx : x ∈ p.coda) :
    ∃ s ∈ samplesOf bulk ps gs, s.event = p.event ∧ s.station = p.station ∧ s.t = x.1 ∧
      s.E = x.2 ∧ s.w = 1 := by
  have : (p.event, p.station, x.1, x.2, (1:ℝ)) ∈
      (samplesOf bulk ps gs).map (fun s => (s.event, s.station, s.t, s.E, s.w)) := by
    rw [map_samplesOf hl]
    apply List.mem_append_left
    rw [zip_flatMap_fst hl (fun p te => (p.event, p.station, te.1, te.2, (1:ℝ)))]
    exact List.mem_flatMap.2 ⟨p, hp, List.mem_map.2 ⟨x, hx, rfl⟩⟩
  obtain ⟨s, hs, h⟩ := List.mem_map.1 this
  simp only [Prod.mk.injEq] at h
  exact ⟨s, hs, h.1, h.2.1, h.2.2.1, h.2.2.2.1, h.2.2.2.2⟩

theorem weight_nonneg (hl : LenOk ps gs) (hw : GoodWeights ps) {s : Sample}
    (hs : s ∈ samplesOf bulk ps gs) : 0 ≤ s.w := by
  have : s.w ∈ (samplesOf bulk ps gs).map Sample.w := List.mem_map.2 ⟨s, hs, rfl⟩
  rw [map_samplesOf hl] at this
  rcases List.mem_append.1 this with h | h
  · rw [zip_flatMap_fst hl (fun _ _ => (1:ℝ))] at h
    obtain ⟨p, hp, h⟩ := List.mem_flatMap.1 h
    obtain ⟨x, -, h⟩ := List.mem_map.1 h
    rw [← h]; norm_num
  · cases bulk with
    | false => simp at h
    | true =>
      simp only [if_true] at h
      rw [zip_map_fst hl PairData.bulkWeight] at h
      obtain ⟨p, hp, h⟩ := List.mem_map.1 h
      rw [← h]; exact hw p hp

theorem mem_stations {s : String} :
    s ∈ stations (bandOf bulk ps) ↔ ∃ p ∈ ps, p.station = s := by
  unfold stations
  rw [mem_fromKeys]
  simp [bandOf, PairData.pair]

theorem mem_eventids {e : String} :
    e ∈ eventids (bandOf bulk ps) ↔ ∃ p ∈ ps, p.event = e := by
  unfold eventids
  rw [mem_fromKeys]
  simp [bandOf, PairData.pair]

theorem stations_ne (hps : ps ≠ []) : stations (bandOf bulk ps) ≠ [] := by
  obtain ⟨p, hp⟩ := List.exists_mem_of_ne_nil _ hps
  exact List.ne_nil_of_mem (mem_stations.2 ⟨p, hp, rfl⟩)

theorem eventids_ne (hps : ps ≠ []) : eventids (bandOf bulk ps) ≠ [] := by
  obtain ⟨p, hp⟩ := List.exists_mem_of_ne_nil _ hps
  exact List.ne_nil_of_mem (mem_eventids.2 ⟨p, hp, rfl⟩)

theorem samples_ne (hl : LenOk ps gs) (hps : ps ≠ []) (hne : ∀ p ∈ ps, p.coda ≠ []) :
    samplesOf bulk ps gs ≠ [] := by
  obtain ⟨p, hp⟩ := List.exists_mem_of_ne_nil _ hps
  obtain ⟨x, hx⟩ := List.exists_mem_of_ne_nil _ (hne p hp)
  obtain ⟨s, hs, -⟩ := coda_mem (bulk := bulk) hl hp hx
  exact List.ne_nil_of_mem hs

/-- Application of the contract of WLS. -/
theorem wls_apply (hwls : IsWls rank wls) {S : List Sample} (hS : S ≠ []) (hw : ∀ s ∈ S, 0 ≤ s.w)
    {n : ℕ} {row : Sample → List ℝ} (hrow : ∀ s ∈ S, (row s).length = n) (y : Sample → ℝ) :
    (wls (S.map Sample.w) (S.map row) (S.map y)).1.length = n ∧
    (∀ C : List ℝ, C.length = n →
      (S.map (fun s => s.w * (y s - dot (row s) (wls (S.map Sample.w) (S.map row) (S.map y)).1) ^ 2)).sum
        ≤ (S.map (fun s => s.w * (y s - dot (row s) C) ^ 2)).sum) ∧
    (wls (S.map Sample.w) (S.map row) (S.map y)).2 =
      (S.map (fun s => s.w * (y s - dot (row s) (wls (S.map Sample.w) (S.map row) (S.map y)).1) ^ 2)).sum
        / (S.length - rank (S.map Sample.w) (S.map row)) := by
  obtain ⟨h1, h2, h3⟩ := hwls n (S.map Sample.w) (S.map row) (S.map y) (by simpa using hS)
    (by intro r hr; obtain ⟨s, hs, rfl⟩ := List.mem_map.1 hr; exact hrow s hs) (by simp) (by simp)
    (by intro x hx; obtain ⟨s, hs, rfl⟩ := List.mem_map.1 hx; exact hw s hs)
  refine ⟨h1, ?_, ?_⟩
  · intro C hC
    have := h2 C hC
    rwa [wsse_map, wsse_map] at this
  · rw [h3, wsse_map, List.length_map]

theorem geo_log (hR : 0 < cfg.R0) (bd : Band) (hns : stations bd ≠ []) {C : List ℝ}
    (hC : (stations bd).length ≤ C.length) :
    (((C.take (stations bd).length).map (fun c => exp c / W0 cfg bd C)).map log).sum /
      ((C.take (stations bd).length).map (fun c => exp c / W0 cfg bd C)).length = log cfg.R0 := by
  have hNs : 0 < (stations bd).length := List.length_pos_iff.2 hns
  have hl : (C.take (stations bd).length).length = (stations bd).length := by
    rw [List.length_take]; omega
  rw [List.map_map, List.length_map, hl]
  have : ((C.take (stations bd).length).map (log ∘ fun c => exp c / W0 cfg bd C)).sum =
      (C.take (stations bd).length).sum - (stations bd).length * log (W0 cfg bd C) := by
    rw [sum_map_congr (g := fun c => c - log (W0 cfg bd C)), sum_map_sub', List.map_id',
      sum_map_const', hl]
    intro c _
    simp only [Function.comp]
    rw [log_div (exp_pos _).ne' (W0_pos hR C).ne', log_exp]
  rw [this]
  unfold W0
  rw [log_div (exp_pos _).ne' hR.ne', log_exp, mean, hl]
  have : ((stations bd).length : ℝ) ≠ 0 := by positivity
  field_simp
  ring

open Classical in
/-- A free fit (site responses, source energies and, unless `fix`, attenuation). -/
structure FreeFit (rank : List ℝ → List (List ℝ) → ℕ) (cfg : Cfg) (ps : List PairData)
    (S : List Sample) (f : Fit) : Prop where
  lenR : f.R.length = (stations (bandOf cfg.bulk ps)).length
  lenW : f.W.length = (eventids (bandOf cfg.bulk ps)).length
  posR : ∀ s ∈ stations (bandOf cfg.bulk ps),
    0 < valueOf ((stations (bandOf cfg.bulk ps)).zip f.R) s
  posW : ∀ e ∈ eventids (bandOf cfg.bulk ps),
    0 < valueOf ((eventids (bandOf cfg.bulk ps)).zip f.W) e
  allPosR : ∀ r ∈ f.R, 0 < r
  geo : (f.R.map log).sum / f.R.length = log cfg.R0
  best : ∀ (R W : String → ℝ) (b : ℝ), (∀ s, 0 < R s) → (∀ e, 0 < W e) →
    (cfg.fix = true → b = f.b) →
    misfit S (valueOf ((stations (bandOf cfg.bulk ps)).zip f.R))
      (valueOf ((eventids (bandOf cfg.bulk ps)).zip f.W)) f.b ≤ misfit S R W b
  err : f.err = if cfg.fix = false ∧ outside cfg f.b f.g0 then ⊤ else
    ((sqrt (misfit S (valueOf ((stations (bandOf cfg.bulk ps)).zip f.R))
      (valueOf ((eventids (bandOf cfg.bulk ps)).zip f.W)) f.b /
        (S.length - rank (S.map Sample.w) (S.map (rowOf cfg (bandOf cfg.bulk ps))))) : ℝ) : WithTop ℝ)

theorem misfit_congr {S : List Sample} {R W : String → ℝ} {b : ℝ} {F : Sample → ℝ}
    (h : ∀ s ∈ S, F s = log s.E - log (predicted R W b s)) :
    (S.map (fun s => s.w * F s ^ 2)).sum = misfit S R W b := by
  unfold misfit
  apply sum_map_congr
  intro s hs
  rw [h s hs]

open Classical in
theorem free_fit (hwls : IsWls rank wls) (hc : cfg.codaNorm = false) (hfs : cfg.fixSites = false)
    (hR0 : 0 < cfg.R0) (hps : ps ≠ []) (hgw : GoodWeights ps) (hl : LenOk ps gs)
    (hne : ∀ p ∈ ps, p.coda ≠ [])
    (hpos : ∀ s ∈ samplesOf cfg.bulk ps gs, 0 < s.E ∧ 0 < s.G) {bFix : Option ℝ}
    (hbf : cfg.fix = false → bFix = none) {Rfix : List ℝ} {f : Fit}
    (h : fitOf cfg (bandOf cfg.bulk ps) g0 bFix false Rfix
        (wls ((samplesOf cfg.bulk ps gs).map Sample.w)
          ((samplesOf cfg.bulk ps gs).map (rowOf cfg (bandOf cfg.bulk ps)))
          ((samplesOf cfg.bulk ps gs).map (target bFix none))) = .ok f) :
    f.g0 = g0 ∧ (cfg.fix = true → bFix = some f.b) ∧
      FreeFit rank cfg ps (samplesOf cfg.bulk ps gs) f := by
  set S := samplesOf cfg.bulk ps gs with hS
  set bd := bandOf cfg.bulk ps with hbd
  have hst : ∀ s ∈ S, s.station ∈ stations bd := by
    intro s hs
    obtain ⟨p, hp, -, h2⟩ := mem_samplesOf hl hs
    exact mem_stations.2 ⟨p, hp, h2⟩
  have hev : ∀ s ∈ S, s.event ∈ eventids bd := by
    intro s hs
    obtain ⟨p, hp, h2, -⟩ := mem_samplesOf hl hs
    exact mem_eventids.2 ⟨p, hp, h2⟩
  have hns : stations bd ≠ [] := stations_ne hps
  have hnev : eventids bd ≠ [] := eventids_ne hps
  obtain ⟨c1, c2, c3⟩ := wls_apply hwls (samples_ne (bulk := cfg.bulk) hl hps hne)
    (fun s hs => weight_nonneg hl hgw hs)
    (fun s _ => rowOf_free_length (bd := bd) hc hfs s) (target bFix none)
  rw [← hS] at c1 c2 c3
  generalize hsol : wls (S.map Sample.w) (S.map (rowOf cfg bd)) (S.map (target bFix none)) = sol
    at h c1 c2 c3
  obtain ⟨C, mse⟩ := sol
  simp only at c1 c2 c3
  obtain ⟨d1, d2, d3, d4⟩ := decode_free (Rfix := Rfix) hc hnev hns c1
  have hlC : (stations bd).length ≤ C.length := by
    rw [c1, nFree]
    have := List.length_pos_iff.2 hnev
    have hf : cfg.fix.toNat ≤ 1 := Bool.toNat_le _
    omega
  have hdec2 : (decode cfg bd false Rfix C).2 =
      (C.take (stations bd).length).map (fun c => exp c / W0 cfg bd C) := by
    have hNe : 0 < (eventids bd).length := List.length_pos_iff.2 hnev
    have hNs : 0 < (stations bd).length := List.length_pos_iff.2 hns
    have hf : cfg.fix.toNat ≤ 1 := Bool.toNat_le _
    have hN1 : C.length - (eventids bd).length + cfg.fix.toNat = (stations bd).length := by
      rw [c1, nFree]; omega
    unfold decode
    simp only [Bool.false_eq_true, if_false, hc, hN1]
    rfl
  -- shape of the fit
  have hfit : f.g0 = g0 ∧ f.W = (decode cfg bd false Rfix C).1 ∧
      f.R = (decode cfg bd false Rfix C).2 ∧
      (if cfg.fix then bFix = some f.b else bFix = none ∧ C.getD (nFree cfg bd - 1) 0 = f.b) ∧
      f.err = if cfg.fix = false ∧ outside cfg f.b f.g0 then ⊤ else ((sqrt mse : ℝ) : WithTop ℝ) := by
    unfold fitOf at h
    simp only [hc, Bool.false_eq_true, if_false] at h
    cases hfx : cfg.fix with
    | true =>
      rw [hfx] at h
      simp only [if_true] at h
      cases bFix with
      | none => simp at h
      | some bf =>
        simp only [Except.ok.injEq] at h
        subst h
        simp
    | false =>
      rw [hfx] at h
      simp only [Bool.false_eq_true, if_false, Except.ok.injEq] at h
      subst h
      refine ⟨rfl, rfl, rfl, ?_, ?_⟩
      · simp only [Bool.false_eq_true, if_false]
        refine ⟨hbf hfx, ?_⟩
        have hn : C ≠ [] := by
          intro h0
          rw [h0] at hlC
          have := List.length_pos_iff.2 hns
          simp at hlC
          exact hns hlC
        rw [List.getLastD_eq_getLast?, List.getLast?_eq_getElem?, List.getD_eq_getElem?_getD, c1]
      · simp
  obtain ⟨f1, f2, f3, f4, f5⟩ := hfit
  have hres : ∀ {R W : String → ℝ} {b : ℝ} {D : List ℝ}, (∀ s ∈ stations bd, 0 < R s) →
      (∀ e ∈ eventids bd, 0 < W e) →
      (∀ s ∈ S, staPart bd D s.station + evPart bd D s.event =
        log (R s.station) + log (W s.event)) →
      (if cfg.fix then bFix = some b else bFix = none ∧ D.getD (nFree cfg bd - 1) 0 = b) →
      (S.map (fun s => s.w * (target bFix none s - dot (rowOf cfg bd s) D) ^ 2)).sum =
        misfit S R W b := by
    intro R W b D hR hW hsum hb
    apply misfit_congr
    intro s hs
    exact residual_free hc hfs (hst s hs) (hev s hs) (hpos s hs).2 (hR _ (hst s hs))
      (hW _ (hev s hs)) (hsum s hs) hb
  have hW0 := W0_pos (bd := bd) hR0 C
  have hposR : ∀ s ∈ stations bd, 0 < valueOf ((stations bd).zip f.R) s := by
    intro s hs
    rw [f3, d3 s hs]; positivity
  have hposW : ∀ e ∈ eventids bd, 0 < valueOf ((eventids bd).zip f.W) e := by
    intro e he
    rw [f2, d4 e he]; positivity
  have hmis := hres (D := C) hposR hposW (by
      intro s hs
      rw [f3, f2, d3 _ (hst s hs), d4 _ (hev s hs), log_div (exp_pos _).ne' hW0.ne',
        log_mul (exp_pos _).ne' hW0.ne', log_exp, log_exp]
      ring) f4
  refine ⟨f1, ?_, ?_⟩
  · intro hfx
    rw [if_pos hfx] at f4
    exact f4
  · refine ⟨by rw [f3, d1], by rw [f2, d2], hposR, hposW, ?_, ?_, ?_, ?_⟩
    · intro r hr
      rw [f3, hdec2] at hr
      obtain ⟨c, -, rfl⟩ := List.mem_map.1 hr
      positivity
    · rw [f3, hdec2]
      exact geo_log hR0 bd hns hlC
    · intro R W b hR hW hb
      rw [← hmis, ← hres (D := encode cfg bd R W b) (fun s _ => hR s) (fun e _ => hW e)]
      · exact c2 _ (encode_length hnev R W b)
      · intro s hs
        rw [encode_sta R W b (hst s hs), encode_ev R W b (hev s hs)]
        ring
      · cases hfx : cfg.fix with
        | true =>
          rw [if_pos hfx] at f4
          simp only [if_true]
          rw [hb hfx]
          exact f4
        | false =>
          simp only [Bool.false_eq_true, if_false]
          exact ⟨hbf hfx, encode_last hfx hnev R W b⟩
    · rw [f5, c3, hmis]

end Qopen.InvertFb
