import Verif.Props.Invert

/-!
# Scaling of energies and of the site reference: C15
-/

namespace Qopen

open Real Util Spec InvertFb

variable {G : Greens} {cfg : Cfg} {ps : List PairData} {gs : List (List ℝ × ℝ)}
  {wls : List ℝ → List (List ℝ) → List ℝ → List ℝ × ℝ}
  {rank : List ℝ → List (List ℝ) → ℕ} {minimize : (ℝ → Py (WithTop ℝ)) → Py ℝ}

/-- All observed energies of a pair multiplied by `k`. -/
def scaleEnergies (k : ℝ) (p : PairData) : PairData :=
  { p with coda := p.coda.map (fun x => (x.1, k * x.2)), bulkEnergy := k * p.bulkEnergy }

/-- A result with all source energies multiplied by `k`. -/
def scaleSources (k : ℝ) (r : BandResult) : BandResult :=
  { r with W := r.W.map (fun d => d.map (fun x => (x.1, k * x.2))) }

/-- A result with all source energies divided and all site responses multiplied by `k`. -/
noncomputable def scaleSites (k : ℝ) (r : BandResult) : BandResult :=
  { r with W := r.W.map (fun d => d.map (fun x => (x.1, x.2 / k)))
           R := r.R.map (fun d => d.map (fun x => (x.1, k * x.2))) }

namespace InvertFb

/-- A sample with scaled energy. -/
def scaleSample (k : ℝ) (s : Sample) : Sample := { s with E := k * s.E }

/-- A fit with scaled source energies. -/
def scaleFit (k : ℝ) (f : Fit) : Fit := { f with W := f.W.map (k * ·) }

theorem scale_pairs (k : ℝ) (ps : List PairData) :
    (ps.map (scaleEnergies k)).map PairData.pair = ps.map PairData.pair := by
  rw [List.map_map]; rfl

theorem scale_stations (k : ℝ) (bulk : Bool) (ps : List PairData) :
    stations (bandOf bulk (ps.map (scaleEnergies k))) = stations (bandOf bulk ps) := by
  simp only [stations, bandOf, scale_pairs]

theorem scale_eventids (k : ℝ) (bulk : Bool) (ps : List PairData) :
    eventids (bandOf bulk (ps.map (scaleEnergies k))) = eventids (bandOf bulk ps) := by
  simp only [eventids, bandOf, scale_pairs]

theorem scale_samples (k : ℝ) (bulk : Bool) (ps : List PairData) (gs : List (List ℝ × ℝ)) :
    samplesOf bulk (ps.map (scaleEnergies k)) gs = (samplesOf bulk ps gs).map (scaleSample k) := by
  unfold samplesOf
  rw [List.map_append, List.zip_map_left, List.flatMap_map, List.map_flatMap]
  congr 1
  · congr 1
    funext q
    simp only [Prod.map, scaleEnergies, id]
    rw [List.zipWith_map_left, List.map_zipWith]
    rfl
  · cases bulk with
    | false => rfl
    | true =>
      simp only [if_true]
      rw [List.map_map, List.map_map]
      rfl

theorem scale_rowOf (k : ℝ) (cfg : Cfg) (bulk : Bool) (ps : List PairData) (s : Sample) :
    rowOf cfg (bandOf bulk (ps.map (scaleEnergies k))) (scaleSample k s) =
      rowOf cfg (bandOf bulk ps) s := by
  unfold rowOf baseRow freeRow sourceRow
  simp only [scale_stations, scale_eventids]
  rfl

theorem scale_isGreens (k : ℝ) {g0 : ℝ} :
    IsGreens G cfg g0 (ps.map (scaleEnergies k)) gs ↔ IsGreens G cfg g0 ps gs := by
  unfold IsGreens
  rw [List.forall₂_map_left_iff]
  have : ∀ p : PairData, ((scaleEnergies k p).coda.map Prod.fst) = p.coda.map Prod.fst := by
    intro p
    simp only [scaleEnergies, List.map_map]
    rfl
  have h2 : ∀ p : PairData, (scaleEnergies k p).coda.length = p.coda.length := by
    intro p; simp [scaleEnergies]
  simp only [this, h2]
  rfl

theorem scale_misfit {k : ℝ} (hk : 0 < k) {S : List Sample} {R W : String → ℝ} {b : ℝ}
    (hpos : ∀ s ∈ S, 0 < s.E ∧ 0 < s.G) (hR : ∀ s ∈ S, 0 < R s.station)
    (hW : ∀ s ∈ S, 0 < W s.event) :
    misfit (S.map (scaleSample k)) R (fun e => k * W e) b = misfit S R W b := by
  unfold misfit
  rw [List.map_map]
  apply sum_map_congr
  intro s hs
  have h1 : log (predicted R (fun e => k * W e) b (scaleSample k s)) =
      log k + log (predicted R W b s) := by
    rw [log_predicted (s := scaleSample k s) (hpos s hs).2 (hR s hs) (mul_pos hk (hW s hs)),
      log_predicted (hpos s hs).2 (hR s hs) (hW s hs)]
    simp only [scaleSample]
    rw [log_mul hk.ne' (hW s hs).ne']
    ring
  simp only [Function.comp]
  rw [h1]
  simp only [scaleSample]
  rw [log_mul hk.ne' (hpos s hs).1.ne']
  ring

theorem greensAll_scale (k : ℝ) (g0 : ℝ) :
    greensAll G cfg (bandOf cfg.bulk (ps.map (scaleEnergies k))) g0 =
      greensAll G cfg (bandOf cfg.bulk ps) g0 := by
  unfold greensAll
  have hp : (bandOf cfg.bulk (ps.map (scaleEnergies k))).pairs = (bandOf cfg.bulk ps).pairs :=
    scale_pairs k ps
  rw [hp]
  congr 2
  funext p
  unfold greensOfPair
  have h1 : (bandOf cfg.bulk (ps.map (scaleEnergies k))).tcoda = (bandOf cfg.bulk ps).tcoda := by
    simp only [bandOf, List.map_map]
    apply List.map_congr_left
    intro p _
    simp only [Function.comp, scaleEnergies, List.map_map]
    rfl
  have h2 : (bandOf cfg.bulk (ps.map (scaleEnergies k))).distances =
      (bandOf cfg.bulk ps).distances := by
    simp only [bandOf, List.map_map]
    rfl
  have h3 : (bandOf cfg.bulk (ps.map (scaleEnergies k))).tbulkWindow =
      (bandOf cfg.bulk ps).tbulkWindow := by
    simp only [bandOf, List.map_map]
    rfl
  have h4 : (bandOf cfg.bulk (ps.map (scaleEnergies k))).Ecoda =
      (bandOf cfg.bulk ps).Ecoda.map (List.map (k * ·)) := by
    simp only [bandOf, List.map_map]
    apply List.map_congr_left
    intro p _
    simp only [Function.comp, scaleEnergies, List.map_map]
    rfl
  have h5 : pyGet (bandOf cfg.bulk (ps.map (scaleEnergies k))).Ecoda p.2 =
      (pyGet (bandOf cfg.bulk ps).Ecoda p.2).map (List.map (k * ·)) := by
    rw [h4]
    unfold pyGet
    rw [List.getElem?_map]
    cases (bandOf cfg.bulk ps).Ecoda[p.2]? <;> rfl
  rw [h1, h2, h3, h5]
  cases pyGet (bandOf cfg.bulk ps).Ecoda p.2 with
  | error e => rfl
  | ok l => simp only [Except.map, bind, Except.bind, List.length_map]

theorem energiesObs_scale (k : ℝ) (bulk : Bool) :
    energiesObs (bandOf bulk (ps.map (scaleEnergies k))) =
      (energiesObs (bandOf bulk ps)).map (k * ·) := by
  unfold energiesObs bandOf
  simp only [List.map_append, List.map_flatten, List.map_map]
  congr 1
  · congr 1
    apply List.map_congr_left
    intro p _
    simp only [Function.comp, scaleEnergies, List.map_map]
    rfl
  · cases bulk with
    | false => rfl
    | true =>
      simp only [if_true, List.map_map]
      rfl

/-- The linear inversion of scaled energies. -/
theorem lstsq_scale (hwls : IsWls rank wls) (hG : OneValuePerTime G) (hin : GoodInput cfg ps)
    (hc : cfg.codaNorm = false) (hfs : cfg.fixSites = false) (hcon : ConnectedPairs ps)
    (htw : cfg.fix = false → TwoTimes ps) {k : ℝ} (hk : 0 < k) (g0 : ℝ) {bFix : Option ℝ}
    (hbf : cfg.fix = false → bFix = none) :
    lstsq wls G cfg (bandOf cfg.bulk (ps.map (scaleEnergies k))) g0 bFix false =
      (lstsq wls G cfg (bandOf cfg.bulk ps) g0 bFix false).map (scaleFit k) := by
  cases h : lstsq wls G cfg (bandOf cfg.bulk ps) g0 bFix false with
  | ok f =>
    obtain ⟨gs, Rfix, h1, hl, hne, hpos, hRf, -, h5⟩ := lstsq_ok hin.pairs hG (by simp) h
    simp only [Bool.false_eq_true, if_false] at h5
    obtain ⟨k1, k2, k3⟩ := free_fit hwls hc hfs hin.R0 hin.some_pair hin.weights hl hne hpos hbf h5
    have h1' := (scale_isGreens k).2 h1
    have hl' := isGreens_len h1'
    have hnd' : ((ps.map (scaleEnergies k)).map PairData.pair).Nodup := by
      rw [scale_pairs]; exact hin.pairs
    have hne' : ∀ p ∈ ps.map (scaleEnergies k), p.coda ≠ [] := by
      intro p hp
      obtain ⟨q, hq, rfl⟩ := List.mem_map.1 hp
      simpa [scaleEnergies] using hne q hq
    have hpos' : ∀ s ∈ samplesOf cfg.bulk (ps.map (scaleEnergies k)) gs, 0 < s.E ∧ 0 < s.G := by
      rw [scale_samples]
      intro s hs
      obtain ⟨q, hq, rfl⟩ := List.mem_map.1 hs
      exact ⟨mul_pos hk (hpos q hq).1, (hpos q hq).2⟩
    rw [lstsq_eq hnd' hne' h1' hpos' (siteRefs_free hfs _) (siteRefsShort_free hfs _) (by simp)]
    have hsome : cfg.fix = true → bFix.isSome := fun hfx => by rw [k2 hfx]; rfl
    obtain ⟨f', hf'⟩ := fitOf_some (cfg := cfg) (bd := bandOf cfg.bulk (ps.map (scaleEnergies k)))
      (g0 := g0) (bFix := bFix) (fs := false) (Rf := [])
      (sol := wls ((samplesOf cfg.bulk (ps.map (scaleEnergies k)) gs).map Sample.w)
        ((samplesOf cfg.bulk (ps.map (scaleEnergies k)) gs).map
          (rowOf cfg (bandOf cfg.bulk (ps.map (scaleEnergies k)))))
        ((samplesOf cfg.bulk (ps.map (scaleEnergies k)) gs).map (target bFix
          (if false then some (refOf cfg) else none)))) hc hsome
    rw [hf']
    simp only [Bool.false_eq_true, if_false] at hf'
    have hgw' : GoodWeights (ps.map (scaleEnergies k)) := by
      intro p hp
      obtain ⟨q, hq, rfl⟩ := List.mem_map.1 hp
      exact hin.weights q hq
    obtain ⟨j1, j2, j3⟩ := free_fit hwls hc hfs hin.R0 (by simpa using hin.some_pair) hgw' hl' hne'
      hpos' hbf hf'
    -- candidates
    set S := samplesOf cfg.bulk ps gs with hS
    set R1 := valueOf ((stations (bandOf cfg.bulk ps)).zip f.R) with hR1
    set W1 := valueOf ((eventids (bandOf cfg.bulk ps)).zip f.W) with hW1
    set R2 := valueOf ((stations (bandOf cfg.bulk ps)).zip f'.R) with hR2
    set W2 := valueOf ((eventids (bandOf cfg.bulk ps)).zip f'.W) with hW2
    have hst : ∀ s ∈ S, s.station ∈ stations (bandOf cfg.bulk ps) := by
      intro s hs
      obtain ⟨p, hp, -, h2⟩ := mem_samplesOf hl hs
      exact mem_stations.2 ⟨p, hp, h2⟩
    have hev : ∀ s ∈ S, s.event ∈ eventids (bandOf cfg.bulk ps) := by
      intro s hs
      obtain ⟨p, hp, h2, -⟩ := mem_samplesOf hl hs
      exact mem_eventids.2 ⟨p, hp, h2⟩
    have hposR2 : ∀ s ∈ stations (bandOf cfg.bulk ps), 0 < R2 s := by
      have := j3.posR; rwa [scale_stations] at this
    have hposW2 : ∀ s ∈ eventids (bandOf cfg.bulk ps), 0 < W2 s := by
      have := j3.posW; rwa [scale_eventids] at this
    have hbeq : cfg.fix = true → f.b = f'.b := by
      intro hfx
      have := (k2 hfx).symm.trans (j2 hfx)
      simpa using this
    have hmis1 : misfit (samplesOf cfg.bulk (ps.map (scaleEnergies k)) gs) R1 (fun e => k * W1 e) f.b =
        misfit S R1 W1 f.b := by
      rw [scale_samples]
      exact scale_misfit hk hpos (fun s hs => k3.posR _ (hst s hs)) (fun s hs => k3.posW _ (hev s hs))
    have hmis2 : misfit (samplesOf cfg.bulk (ps.map (scaleEnergies k)) gs) R2 W2 f'.b =
        misfit S R2 (fun e => W2 e / k) f'.b := by
      rw [scale_samples, ← scale_misfit hk hpos (fun s hs => hposR2 _ (hst s hs))
        (fun s hs => div_pos (hposW2 _ (hev s hs)) hk)]
      congr 1
      funext e
      field_simp
    -- the minimum property for functions which are positive on the stations and events only
    have hbest : ∀ (R W : String → ℝ) (b : ℝ), (∀ s ∈ stations (bandOf cfg.bulk ps), 0 < R s) →
        (∀ e ∈ eventids (bandOf cfg.bulk ps), 0 < W e) → (cfg.fix = true → b = f.b) →
        misfit S R1 W1 f.b ≤ misfit S R W b := by
      classical
      intro R W b hR hW hb
      have := k3.best (fun s => if s ∈ stations (bandOf cfg.bulk ps) then R s else 1)
        (fun e => if e ∈ eventids (bandOf cfg.bulk ps) then W e else 1) b
        (by intro s; by_cases hs : s ∈ stations (bandOf cfg.bulk ps)
            · simp only [hs, if_true]; exact hR s hs
            · simp [hs])
        (by intro s; by_cases hs : s ∈ eventids (bandOf cfg.bulk ps)
            · simp only [hs, if_true]; exact hW s hs
            · simp [hs]) hb
      refine this.trans (le_of_eq ?_)
      unfold misfit
      apply sum_map_congr
      intro s hs
      simp only [predicted, hst s hs, hev s hs, if_true]
    have hle : misfit (samplesOf cfg.bulk (ps.map (scaleEnergies k)) gs) R1 (fun e => k * W1 e) f.b ≤
        misfit (samplesOf cfg.bulk (ps.map (scaleEnergies k)) gs) R2 W2 f'.b := by
      rw [hmis1, hmis2]
      exact hbest _ _ _ hposR2 (fun e he => div_pos (hposW2 e he) hk) (fun hfx => (hbeq hfx).symm)
    have hcon' : ConnectedPairs (ps.map (scaleEnergies k)) := by
      have hsame : ∀ s t, SameEvent ps s t → SameEvent (ps.map (scaleEnergies k)) s t := by
        rintro s t ⟨p, hp, q, hq, h1, h2, h3⟩
        exact ⟨_, List.mem_map.2 ⟨p, hp, rfl⟩, _, List.mem_map.2 ⟨q, hq, rfl⟩, h1, h2, h3⟩
      intro p hp q hq
      obtain ⟨p', hp', rfl⟩ := List.mem_map.1 hp
      obtain ⟨q', hq', rfl⟩ := List.mem_map.1 hq
      exact Relation.ReflTransGen.mono (fun a b h => hsame a b h) _ _ (hcon p' hp' q' hq')
    have htw' : cfg.fix = false → TwoTimes (ps.map (scaleEnergies k)) := by
      intro hfx
      obtain ⟨p, hp, x, hx, y, hy, hxy⟩ := htw hfx
      exact ⟨_, List.mem_map.2 ⟨p, hp, rfl⟩, (x.1, k * x.2), List.mem_map.2 ⟨x, hx, rfl⟩,
        (y.1, k * y.2), List.mem_map.2 ⟨y, hy, rfl⟩, hxy⟩
    have hR1l : (stations (bandOf cfg.bulk ps)).map R1 = f.R :=
      zip_values (fromKeys_nodup _) k3.lenR
    have hW1l : (eventids (bandOf cfg.bulk ps)).map W1 = f.W :=
      zip_values (fromKeys_nodup _) k3.lenW
    have hgeo : meanLogR (ps.map (scaleEnergies k)) cfg.bulk R1 = log cfg.R0 := by
      unfold meanLogR
      rw [scale_stations]
      have := k3.geo
      rw [← hR1l, List.map_map, List.length_map] at this
      exact this
    obtain ⟨u1, u2, u3⟩ := fit_unique (by simpa using hin.some_pair) hl' hgw' hne' hpos' j3 hcon' htw'
      (R := R1) (W := fun e => k * W1 e) (b := f.b)
      (by
        intro p hp
        obtain ⟨q, hq, rfl⟩ := List.mem_map.1 hp
        exact k3.posR _ (mem_stations.2 ⟨q, hq, rfl⟩))
      (by
        intro p hp
        obtain ⟨q, hq, rfl⟩ := List.mem_map.1 hp
        exact mul_pos hk (k3.posW _ (mem_eventids.2 ⟨q, hq, rfl⟩)))
      hbeq hgeo (by rw [scale_stations, scale_eventids]; exact hle)
    rw [scale_stations, hR1l] at u2
    have u3' : f'.W = f.W.map (k * ·) := by
      rw [u3, scale_eventids, ← hW1l, List.map_map]
      rfl
    have hmeq : misfit (samplesOf cfg.bulk (ps.map (scaleEnergies k)) gs) R2 W2 f'.b =
        misfit S R1 W1 f.b := by
      rw [← hmis1]
      refine le_antisymm ?_ hle
      classical
      have hb := j3.best
      rw [scale_stations, scale_eventids] at hb
      have := hb (fun s => if s ∈ stations (bandOf cfg.bulk ps) then R1 s else 1)
        (fun e => if e ∈ eventids (bandOf cfg.bulk ps) then k * W1 e else 1) f.b
        (by intro s; by_cases hs : s ∈ stations (bandOf cfg.bulk ps)
            · simp only [hs, if_true]; exact k3.posR s hs
            · simp [hs])
        (by intro s; by_cases hs : s ∈ eventids (bandOf cfg.bulk ps)
            · simp only [hs, if_true]; exact mul_pos hk (k3.posW s hs)
            · simp [hs]) hbeq
      refine this.trans (le_of_eq ?_)
      unfold misfit
      apply sum_map_congr
      intro s hs
      rw [scale_samples] at hs
      obtain ⟨q, hq, rfl⟩ := List.mem_map.1 hs
      simp only [predicted, scaleSample, hst q hq, hev q hq, if_true]
    have herr : f'.err = f.err := by
      rw [j3.err, k3.err, scale_stations, scale_eventids]
      rw [show misfit (samplesOf cfg.bulk (ps.map (scaleEnergies k)) gs)
        (valueOf ((stations (bandOf cfg.bulk ps)).zip f'.R))
        (valueOf ((eventids (bandOf cfg.bulk ps)).zip f'.W)) f'.b = misfit S R1 W1 f.b from hmeq,
        ← u1, j1, k1]
      have e1 : (samplesOf cfg.bulk (ps.map (scaleEnergies k)) gs).length = S.length := by
        rw [scale_samples, List.length_map]
      have e2 : (samplesOf cfg.bulk (ps.map (scaleEnergies k)) gs).map Sample.w = S.map Sample.w := by
        rw [scale_samples, List.map_map]; rfl
      have e3 : (samplesOf cfg.bulk (ps.map (scaleEnergies k)) gs).map
          (rowOf cfg (bandOf cfg.bulk (ps.map (scaleEnergies k)))) =
          S.map (rowOf cfg (bandOf cfg.bulk ps)) := by
        rw [scale_samples, List.map_map]
        apply List.map_congr_left
        intro s _
        exact scale_rowOf k cfg cfg.bulk ps s
      rw [e1, e2, e3]
    simp only [Except.map, Except.ok.injEq]
    obtain ⟨e, g, b', W', R'⟩ := f'
    obtain ⟨e', g', b'', W'', R''⟩ := f
    simp only at herr j1 k1 u1 u2 u3'
    simp only [scaleFit, Fit.mk.injEq]
    exact ⟨herr, by rw [j1, k1], u1.symm, u3', u2⟩
  | error e =>
    simp only [Except.map]
    unfold lstsq at h ⊢
    rw [siteRefs_free hfs, siteRefsShort_free hfs] at h ⊢
    rw [greensAll_scale, energiesObs_scale]
    simp only [bind, Except.bind, throw, throwThe, MonadExceptOf.throw, pure, Except.pure] at h ⊢
    cases hga : greensAll G cfg (bandOf cfg.bulk ps) g0 with
    | error e' => rw [hga] at h; simpa using h
    | ok Ga =>
      rw [hga] at h
      simp only [List.length_map] at h ⊢
      by_cases h1 : (energiesObs (bandOf cfg.bulk ps)).length ≠ Ga.length
      · rw [if_pos h1] at h ⊢; exact h
      · rw [if_neg h1] at h ⊢
        have hiff : ((∃ e ∈ (energiesObs (bandOf cfg.bulk ps)).map (k * ·), e ≤ 0) ∨
            (∃ g ∈ Ga, g ≤ 0)) ↔
            ((∃ e ∈ energiesObs (bandOf cfg.bulk ps), e ≤ 0) ∨ (∃ g ∈ Ga, g ≤ 0)) := by
          simp only [List.mem_map, exists_exists_and_eq_and, mul_nonpos_iff_pos_imp_nonpos, hk]
          constructor
          · rintro (⟨e, he, h0⟩ | h)
            · left
              refine ⟨e, he, ?_⟩
              exact h0.1 trivial
            · exact Or.inr h
          · rintro (⟨e, he, h0⟩ | h)
            · left
              refine ⟨e, he, fun _ => h0, fun _ => hk.le⟩
            · exact Or.inr h
        by_cases h2 : (∃ e ∈ energiesObs (bandOf cfg.bulk ps), e ≤ 0) ∨ (∃ g ∈ Ga, g ≤ 0)
        · rw [if_pos h2] at h; rw [if_pos (hiff.2 h2)]; exact h
        · rw [if_neg h2] at h; rw [if_neg (fun hh => h2 (hiff.1 hh))]
          cases hfx : cfg.fix with
          | false =>
            obtain ⟨f, hf⟩ := fitOf_some (cfg := cfg) (bd := bandOf cfg.bulk ps) (g0 := g0)
              (bFix := bFix) (fs := false) (Rf := []) (sol := wls (weights cfg (bandOf cfg.bulk ps)
              (rhs (bandOf cfg.bulk ps) (energiesObs (bandOf cfg.bulk ps)) Ga bFix false []).length)
              (design cfg (bandOf cfg.bulk ps)) (rhs (bandOf cfg.bulk ps)
              (energiesObs (bandOf cfg.bulk ps)) Ga bFix false [])) hc (by simp [hfx])
            rw [hf] at h; simp at h
          | true =>
            cases bFix with
            | some b =>
              obtain ⟨f, hf⟩ := fitOf_some (cfg := cfg) (bd := bandOf cfg.bulk ps) (g0 := g0)
                (bFix := some b) (fs := false) (Rf := []) (sol := wls (weights cfg (bandOf cfg.bulk ps)
                (rhs (bandOf cfg.bulk ps) (energiesObs (bandOf cfg.bulk ps)) Ga (some b) false []).length)
                (design cfg (bandOf cfg.bulk ps)) (rhs (bandOf cfg.bulk ps)
                (energiesObs (bandOf cfg.bulk ps)) Ga (some b) false [])) hc (by simp)
              rw [hf] at h; simp at h
            | none =>
              unfold fitOf at h ⊢
              simp only [hfx, hc, Bool.false_eq_true, if_false, if_true] at h ⊢
              exact h

theorem report_scale (k : ℝ) (f : Fit) :
    report cfg (bandOf cfg.bulk (ps.map (scaleEnergies k))) (scaleFit k f) =
      (report cfg (bandOf cfg.bulk ps) f).map (scaleSources k) := by
  unfold report
  simp only [scaleFit, scale_stations, scale_eventids]
  by_cases h : nearBounds cfg f.b f.g0
  · simp [h]
  · simp only [h, if_false, Option.map_some, scaleSources, Option.some.injEq]
    cases cfg.codaNorm with
    | true => simp
    | false =>
      simp [List.zip_map_right, Prod.map]

end InvertFb

/-- **C15**: multiplying all observed energies by `k` multiplies every source energy by `k` and
leaves everything else (site responses, attenuation, scattering coefficient, error, number of
stations) unchanged, whatever the optimiser does; also failures and suppressed results are the
same. -/
theorem C15_scaling_of_energies (hwls : IsWls rank wls) (hG : OneValuePerTime G)
    (hin : GoodInput cfg ps) (hc : cfg.codaNorm = false) (hfs : cfg.fixSites = false)
    (hcon : ConnectedPairs ps) (htw : cfg.fix = false → TwoTimes ps) {k : ℝ} (hk : 0 < k) :
    solveBand wls G minimize cfg (bandOf cfg.bulk (ps.map (scaleEnergies k))) =
      (solveBand wls G minimize cfg (bandOf cfg.bulk ps)).map (Option.map (scaleSources k)) := by
  have hobj : objective wls G cfg (bandOf cfg.bulk (ps.map (scaleEnergies k))) =
      objective wls G cfg (bandOf cfg.bulk ps) ∨ cfg.fix = true := by
    cases hfx : cfg.fix with
    | true => exact Or.inr rfl
    | false =>
      left
      funext g0
      unfold objective
      rw [lstsq_scale hwls hG hin hc hfs hcon htw hk g0 (fun _ => rfl)]
      cases lstsq wls G cfg (bandOf cfg.bulk ps) g0 none false with
      | error e => rfl
      | ok f => rfl
  have hfit : bandFit wls G minimize cfg (bandOf cfg.bulk (ps.map (scaleEnergies k))) =
      (bandFit wls G minimize cfg (bandOf cfg.bulk ps)).map (Option.map (scaleFit k)) := by
    unfold bandFit
    by_cases hfx : cfg.fix = true
    · rw [if_pos hfx, if_pos hfx, hfs]
      cases h1 : cfg.fixParams.1 with
      | none => rfl
      | some a =>
        cases h2 : cfg.fixParams.2 with
        | none => rfl
        | some b =>
          simp only
          rw [lstsq_scale hwls hG hin hc hfs hcon htw hk a (by simp [hfx])]
          cases lstsq wls G cfg (bandOf cfg.bulk ps) a (some b) false <;> rfl
    · rw [if_neg hfx, if_neg hfx]
      by_cases ho : cfg.optimize = true
      · rw [if_pos ho, if_pos ho, hobj.resolve_right hfx]
        cases minimize (objective wls G cfg (bandOf cfg.bulk ps)) with
        | error e => rfl
        | ok x =>
          simp only [bind, Except.bind]
          rw [lstsq_scale hwls hG hin hc hfs hcon htw hk x (fun _ => rfl)]
          cases lstsq wls G cfg (bandOf cfg.bulk ps) x none false <;> rfl
      · rw [if_neg ho, if_neg ho]
        cases cfg.g0Bounds with
        | none => rfl
        | some gb =>
          simp only
          rw [lstsq_scale hwls hG hin hc hfs hcon htw hk _ (fun _ => rfl)]
          cases lstsq wls G cfg (bandOf cfg.bulk ps) ((gb.1 + gb.2) / 2) none false <;> rfl
  unfold solveBand
  rw [hfit]
  cases bandFit wls G minimize cfg (bandOf cfg.bulk ps) with
  | error e => rfl
  | ok of =>
    simp only [Except.map, bind, Except.bind, pure, Except.pure, Except.ok.injEq]
    cases of with
    | none => rfl
    | some f => simp only [Option.map_some, Option.bind_some, report_scale]

namespace InvertFb

/-- The configuration with a different reference for the site responses. -/
noncomputable def withR0 (cfg : Cfg) (k : ℝ) : Cfg := { cfg with R0 := k * cfg.R0 }

/-- A fit with scaled site responses. -/
noncomputable def scaleFitSites (k : ℝ) (f : Fit) : Fit :=
  { f with W := f.W.map (· / k), R := f.R.map (k * ·) }

theorem fitOf_R0 {bd : Band} {g0 k : ℝ} {bFix : Option ℝ} {Rf : List ℝ} {sol : List ℝ × ℝ}
    (hc : cfg.codaNorm = false) (hk : 0 < k) (hR0 : 0 < cfg.R0) :
    fitOf (withR0 cfg k) bd g0 bFix false Rf sol =
      (fitOf cfg bd g0 bFix false Rf sol).map (scaleFitSites k) := by
  have hdec : ∀ C, decode (withR0 cfg k) bd false Rf C =
      ((decode cfg bd false Rf C).1.map (· / k), (decode cfg bd false Rf C).2.map (k * ·)) := by
    intro C
    unfold decode
    simp only [withR0, hc, Bool.false_eq_true, if_false, List.map_cons, List.map_map,
      Prod.mk.injEq, List.cons.injEq]
    have hk' := hk.ne'
    have hR' := hR0.ne'
    refine ⟨⟨by field_simp, ?_⟩, ?_⟩
    · apply List.map_congr_left
      intro c _
      simp only [Function.comp]
      field_simp
    · apply List.map_congr_left
      intro c _
      simp only [Function.comp]
      have := exp_pos (mean (C.take (C.length - (eventids bd).length + cfg.fix.toNat)))
      field_simp
  unfold fitOf
  have e1 : (withR0 cfg k).fix = cfg.fix := rfl
  have e2 : (withR0 cfg k).codaNorm = cfg.codaNorm := rfl
  have e3 : ∀ b g, outside (withR0 cfg k) b g = outside cfg b g := fun _ _ => rfl
  simp only [hdec, e1, e2, e3]
  cases cfg.fix with
  | true =>
    simp only [if_true, hc, Bool.false_eq_true, if_false]
    cases bFix with
    | none => rfl
    | some b => rfl
  | false => rfl

theorem lstsq_R0 {bd : Band} {g0 k : ℝ} {bFix : Option ℝ} (hc : cfg.codaNorm = false)
    (hk : 0 < k) (hR0 : 0 < cfg.R0) :
    lstsq wls G (withR0 cfg k) bd g0 bFix false =
      (lstsq wls G cfg bd g0 bFix false).map (scaleFitSites k) := by
  unfold lstsq
  have e1 : siteRefs (withR0 cfg k) bd = siteRefs cfg bd := rfl
  have e2 : siteRefsShort (withR0 cfg k) bd = siteRefsShort cfg bd := rfl
  have e3 : greensAll G (withR0 cfg k) bd g0 = greensAll G cfg bd g0 := rfl
  rw [e1, e2, e3]
  simp only [bind, Except.bind, throw, throwThe, MonadExceptOf.throw, pure, Except.pure]
  cases siteRefs cfg bd with
  | error e => rfl
  | ok rs =>
    simp only
    cases siteRefsShort cfg bd with
    | error e => rfl
    | ok Rf =>
      simp only
      cases greensAll G cfg bd g0 with
      | error e => rfl
      | ok Ga =>
        simp only
        by_cases h1 : (energiesObs bd).length ≠ Ga.length
        · rw [if_pos h1, if_pos h1]; rfl
        · rw [if_neg h1, if_neg h1]
          by_cases h2 : (∃ e ∈ energiesObs bd, e ≤ 0) ∨ (∃ g ∈ Ga, g ≤ 0)
          · rw [if_pos h2, if_pos h2]; rfl
          · rw [if_neg h2, if_neg h2]
            rw [fitOf_R0 hc hk hR0]
            rfl

theorem report_R0 {bd : Band} (k : ℝ) (f : Fit) :
    report (withR0 cfg k) bd (scaleFitSites k f) = (report cfg bd f).map (scaleSites k) := by
  unfold report
  simp only [scaleFitSites]
  have hn : nearBounds (withR0 cfg k) f.b f.g0 ↔ nearBounds cfg f.b f.g0 := Iff.rfl
  by_cases h : nearBounds cfg f.b f.g0
  · simp [h, hn.2 h]
  · have h' : ¬ nearBounds (withR0 cfg k) f.b f.g0 := h
    have e1 : (withR0 cfg k).fix = cfg.fix := rfl
    have e2 : (withR0 cfg k).codaNorm = cfg.codaNorm := rfl
    have e3 : (withR0 cfg k).fixSites = cfg.fixSites := rfl
    have e4 : (withR0 cfg k).v0 = cfg.v0 := rfl
    simp only [h, h', if_false, Option.map_some, scaleSites, Option.some.injEq, e1, e2, e3, e4]
    cases cfg.codaNorm <;> cases cfg.fixSites <;> simp [List.zip_map_right, Prod.map]

end InvertFb

/-- **C15**: multiplying `R0` by `k` divides every source energy by `k` and multiplies every site
response by `k`, and changes nothing else, for any data and any solver. -/
theorem C15_scaling_of_R0 {bd : Band} (hc : cfg.codaNorm = false) (hfs : cfg.fixSites = false)
    (hR0 : 0 < cfg.R0) {k : ℝ} (hk : 0 < k) :
    solveBand wls G minimize { cfg with R0 := k * cfg.R0 } bd =
      (solveBand wls G minimize cfg bd).map (Option.map (scaleSites k)) := by
  change solveBand wls G minimize (withR0 cfg k) bd = _
  have hobj : objective wls G (withR0 cfg k) bd = objective wls G cfg bd := by
    funext g0
    unfold objective
    rw [lstsq_R0 hc hk hR0]
    have e1 : (withR0 cfg k).g0Bounds = cfg.g0Bounds := rfl
    rw [e1]
    cases lstsq wls G cfg bd g0 none false with
    | error e => rfl
    | ok f => rfl
  have hfit : bandFit wls G minimize (withR0 cfg k) bd =
      (bandFit wls G minimize cfg bd).map (Option.map (scaleFitSites k)) := by
    unfold bandFit
    have e1 : (withR0 cfg k).fix = cfg.fix := rfl
    have e2 : (withR0 cfg k).fixSites = cfg.fixSites := rfl
    have e3 : (withR0 cfg k).fixParams = cfg.fixParams := rfl
    have e4 : (withR0 cfg k).optimize = cfg.optimize := rfl
    have e5 : (withR0 cfg k).g0Bounds = cfg.g0Bounds := rfl
    rw [e1, e2, e3, e4, e5, hobj, hfs]
    by_cases hfx : cfg.fix = true
    · rw [if_pos hfx, if_pos hfx]
      cases h1 : cfg.fixParams.1 with
      | none => rfl
      | some a =>
        cases h2 : cfg.fixParams.2 with
        | none => rfl
        | some b =>
          simp only
          rw [lstsq_R0 hc hk hR0]
          cases lstsq wls G cfg bd a (some b) false <;> rfl
    · rw [if_neg hfx, if_neg hfx]
      by_cases ho : cfg.optimize = true
      · rw [if_pos ho, if_pos ho]
        cases minimize (objective wls G cfg bd) with
        | error e => rfl
        | ok x =>
          simp only [bind, Except.bind]
          rw [lstsq_R0 hc hk hR0]
          cases lstsq wls G cfg bd x none false <;> rfl
      · rw [if_neg ho, if_neg ho]
        cases cfg.g0Bounds with
        | none => rfl
        | some gb =>
          simp only
          rw [lstsq_R0 hc hk hR0]
          cases lstsq wls G cfg bd ((gb.1 + gb.2) / 2) none false <;> rfl
  unfold solveBand
  rw [hfit]
  cases bandFit wls G minimize cfg bd with
  | error e => rfl
  | ok of =>
    simp only [Except.map, bind, Except.bind, pure, Except.pure, Except.ok.injEq]
    cases of with
    | none => rfl
    | some f => simp only [Option.map_some, Option.bind_some, report_R0]

/-! The example of `Props/Invert.lean` meets the hypotheses, and gives a result. -/

open InvertExample in
example : ∃ res res', solveBand someWls G1 minimize cfg1 (bandOf cfg1.bulk ps1) = .ok (some res) ∧
    solveBand someWls G1 minimize cfg1 (bandOf cfg1.bulk (ps1.map (scaleEnergies 5))) =
      .ok (some res') ∧ res'.R = res.R ∧ res'.b = res.b ∧
    res'.W = res.W.map (fun d => d.map (fun x => (x.1, 5 * x.2))) := by
  obtain ⟨res, R', W', h, -⟩ := example_result minimize
  refine ⟨res, scaleSources 5 res, h, ?_, rfl, rfl, rfl⟩
  rw [C15_scaling_of_energies someWls_spec one_value_G1 good1 rfl rfl connected1 (fun _ => two_times1)
    (by norm_num), h]
  rfl

end Qopen
