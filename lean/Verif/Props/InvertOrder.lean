import Verif.Props.InvertScale

/-!
# Order of the pairs, calibration of single stations and events: C113
-/

namespace Qopen

open Real Util Spec InvertFb

namespace Spec

/-- The windows of a pair with all energies multiplied by a factor of the event and a factor of
the station. -/
def recalibrate (kE kS : String → ℝ) (p : PairData) : PairData :=
  { p with coda := p.coda.map (fun x => (x.1, kE p.event * kS p.station * x.2))
           bulkEnergy := kE p.event * kS p.station * p.bulkEnergy }

/-- Contract of the rank which enters statsmodels' WLS: a weighted matrix which maps only the
zero vector to zero has full column rank. -/
def FullRank (rank : List ℝ → List (List ℝ) → ℕ) : Prop :=
  ∀ (n : ℕ) w A, (∀ row ∈ A, row.length = n) → w.length = A.length → (∀ x ∈ w, 0 ≤ x) →
    (∀ C : List ℝ, C.length = n → wsse w A (A.map (fun _ => 0)) C = 0 → ∀ c ∈ C, c = 0) →
    rank w A = n

/-- For scattering coefficient `g0` the data can be compared with the model: all coda windows have
samples, Green's function can be evaluated, all energies are positive. -/
def CanCompare (G : Greens) (cfg : Cfg) (ps : List PairData) (g0 : ℝ) : Prop :=
  (∀ p ∈ ps, p.coda ≠ []) ∧ ∃ gs, IsGreens G cfg g0 ps gs ∧
    ∀ s ∈ samplesOf cfg.bulk ps gs, 0 < s.E ∧ 0 < s.G

/-- `g0` is within the bounds on the scattering coefficient. -/
def WithinBounds (cfg : Cfg) (g0 : ℝ) : Prop :=
  ∀ gb, cfg.g0Bounds = some gb → gb.1 ≤ g0 ∧ g0 ≤ gb.2

/-- Geometric mean of the factors of all stations. -/
noncomputable def meanFactor (kS : String → ℝ) (ps : List PairData) : ℝ :=
  geoMean ((ps.map PairData.station).dedup.map kS)

/-- Result `r'` is result `r` with the source energies multiplied by `fW` and the site responses
multiplied by `fR`. -/
structure SameUpTo (fR fW : String → ℝ) (r r' : BandResult) : Prop where
  g0 : r'.g0 = r.g0
  b : r'.b = r.b
  v0 : r'.v0 = r.v0
  error : r'.error = r.error
  nstations : r'.nstations = r.nstations
  R : ∃ d d', r.R = some d ∧ r'.R = some d' ∧ ∀ s, d'.get? s = (d.get? s).map (fR s * ·)
  W : ∃ d d', r.W = some d ∧ r'.W = some d' ∧ ∀ e, d'.get? e = (d.get? e).map (fW e * ·)

end Spec

variable {G : Greens} {cfg : Cfg} {ps ps' : List PairData} {gs gs' : List (List ℝ × ℝ)}
  {wls : List ℝ → List (List ℝ) → List ℝ → List ℝ × ℝ} {kE kS : String → ℝ}
  {rank : List ℝ → List (List ℝ) → ℕ} {minimize : (ℝ → Py (WithTop ℝ)) → Py ℝ}

namespace InvertFb

/-- A sample with recalibrated energy. -/
def recalSample (kE kS : String → ℝ) (s : Sample) : Sample :=
  { s with E := kE s.event * kS s.station * s.E }

/-- Values of Green's function for the pairs in another order. -/
theorem perm_greens {P : PairData → List ℝ × ℝ → Prop} (hp : ps'.Perm ps)
    (h : List.Forall₂ P ps gs) :
    ∃ gs', List.Forall₂ P ps' gs' ∧ (ps'.zip gs').Perm (ps.zip gs) := by
  induction hp generalizing gs with
  | nil => cases h; exact ⟨[], .nil, .nil⟩
  | cons x _ ih =>
    cases h with
    | cons h1 h2 =>
      obtain ⟨g, k1, k2⟩ := ih h2
      exact ⟨_ :: g, .cons h1 k1, by simpa using k2⟩
  | swap x y l =>
    cases h with
    | cons h1 h2 =>
      cases h2 with
      | cons h2 h3 => exact ⟨_ :: _ :: _, .cons h2 (.cons h1 h3), by simpa using List.Perm.swap _ _ _⟩
  | trans _ _ ih1 ih2 =>
    obtain ⟨g, k1, k2⟩ := ih2 h
    obtain ⟨g', k3, k4⟩ := ih1 k1
    exact ⟨g', k3, k4.trans k2⟩

theorem perm_samples {bulk : Bool} (h : (ps'.zip gs').Perm (ps.zip gs)) :
    (samplesOf bulk ps' gs').Perm (samplesOf bulk ps gs) := by
  unfold samplesOf
  apply List.Perm.append
  · exact h.flatMap_right _
  · cases bulk with
    | false => exact .nil
    | true => exact h.map _

theorem recal_samples (bulk : Bool) (ps : List PairData) (gs : List (List ℝ × ℝ)) :
    samplesOf bulk (ps.map (recalibrate kE kS)) gs =
      (samplesOf bulk ps gs).map (recalSample kE kS) := by
  unfold samplesOf
  rw [List.map_append, List.zip_map_left, List.flatMap_map, List.map_flatMap]
  congr 1
  · congr 1
    funext q
    simp only [Prod.map, recalibrate, id]
    rw [List.zipWith_map_left, List.map_zipWith]
    rfl
  · cases bulk with
    | false => rfl
    | true =>
      simp only [if_true]
      rw [List.map_map, List.map_map]
      rfl

theorem recal_isGreens {g0 : ℝ} :
    IsGreens G cfg g0 (ps.map (recalibrate kE kS)) gs ↔ IsGreens G cfg g0 ps gs := by
  unfold IsGreens
  rw [List.forall₂_map_left_iff]
  have : ∀ p : PairData, ((recalibrate kE kS p).coda.map Prod.fst) = p.coda.map Prod.fst := by
    intro p
    simp only [recalibrate, List.map_map]
    rfl
  have h2 : ∀ p : PairData, (recalibrate kE kS p).coda.length = p.coda.length := by
    intro p; simp [recalibrate]
  simp only [this, h2]
  rfl

theorem perm_pairs (hp : ps'.Perm (ps.map (recalibrate kE kS))) :
    (ps'.map PairData.pair).Perm (ps.map PairData.pair) := by
  have := hp.map PairData.pair
  rwa [List.map_map, show PairData.pair ∘ recalibrate kE kS = PairData.pair from rfl] at this

theorem perm_mem (hp : ps'.Perm (ps.map (recalibrate kE kS))) {p : PairData} (h : p ∈ ps) :
    recalibrate kE kS p ∈ ps' := hp.mem_iff.2 (List.mem_map.2 ⟨p, h, rfl⟩)

theorem perm_mem' (hp : ps'.Perm (ps.map (recalibrate kE kS))) {p : PairData} (h : p ∈ ps') :
    ∃ q ∈ ps, recalibrate kE kS q = p := List.mem_map.1 (hp.mem_iff.1 h)

theorem perm_stations {bulk : Bool} (hp : ps'.Perm (ps.map (recalibrate kE kS))) :
    (stations (bandOf bulk ps')).Perm (stations (bandOf bulk ps)) := by
  refine (List.perm_ext_iff_of_nodup (fromKeys_nodup _) (fromKeys_nodup _)).2 (fun s => ?_)
  rw [show fromKeys (List.map Prod.snd (bandOf bulk ps').pairs) = stations (bandOf bulk ps') from rfl,
    show fromKeys (List.map Prod.snd (bandOf bulk ps).pairs) = stations (bandOf bulk ps) from rfl,
    mem_stations, mem_stations]
  constructor
  · rintro ⟨p, h, rfl⟩
    obtain ⟨q, hq, rfl⟩ := perm_mem' hp h
    exact ⟨q, hq, rfl⟩
  · rintro ⟨p, h, rfl⟩
    exact ⟨_, perm_mem hp h, rfl⟩

theorem perm_eventids {bulk : Bool} (hp : ps'.Perm (ps.map (recalibrate kE kS))) :
    (eventids (bandOf bulk ps')).Perm (eventids (bandOf bulk ps)) := by
  refine (List.perm_ext_iff_of_nodup (fromKeys_nodup _) (fromKeys_nodup _)).2 (fun s => ?_)
  rw [show fromKeys (List.map Prod.fst (bandOf bulk ps').pairs) = eventids (bandOf bulk ps') from rfl,
    show fromKeys (List.map Prod.fst (bandOf bulk ps).pairs) = eventids (bandOf bulk ps) from rfl,
    mem_eventids, mem_eventids]
  constructor
  · rintro ⟨p, h, rfl⟩
    obtain ⟨q, hq, rfl⟩ := perm_mem' hp h
    exact ⟨q, hq, rfl⟩
  · rintro ⟨p, h, rfl⟩
    exact ⟨_, perm_mem hp h, rfl⟩

theorem recal_connected (hp : ps'.Perm (ps.map (recalibrate kE kS))) (h : ConnectedPairs ps) :
    ConnectedPairs ps' := by
  have hsame : ∀ s t, SameEvent ps s t → SameEvent ps' s t := by
    rintro s t ⟨p, h1, q, h2, h3, h4, h5⟩
    exact ⟨_, perm_mem hp h1, _, perm_mem hp h2, h3, h4, h5⟩
  intro p h1 q h2
  obtain ⟨p', h1', rfl⟩ := perm_mem' hp h1
  obtain ⟨q', h2', rfl⟩ := perm_mem' hp h2
  exact Relation.ReflTransGen.mono (fun a b h => hsame a b h) _ _ (h p' h1' q' h2')

theorem recal_twoTimes (hp : ps'.Perm (ps.map (recalibrate kE kS))) (h : TwoTimes ps) :
    TwoTimes ps' := by
  obtain ⟨p, h1, x, hx, y, hy, hxy⟩ := h
  exact ⟨_, perm_mem hp h1, (x.1, kE p.event * kS p.station * x.2), List.mem_map.2 ⟨x, hx, rfl⟩,
    (y.1, kE p.event * kS p.station * y.2), List.mem_map.2 ⟨y, hy, rfl⟩, hxy⟩

theorem recal_good (hp : ps'.Perm (ps.map (recalibrate kE kS))) (h : GoodInput cfg ps) :
    GoodInput cfg ps' where
  pairs := (perm_pairs hp).nodup_iff.2 h.pairs
  some_pair := by
    obtain ⟨p, h1⟩ := List.exists_mem_of_ne_nil _ h.some_pair
    exact List.ne_nil_of_mem (perm_mem hp h1)
  weights := by
    intro p h1
    obtain ⟨q, hq, rfl⟩ := perm_mem' hp h1
    exact h.weights q hq
  R0 := h.R0

theorem recal_compare (hkE : ∀ e, 0 < kE e) (hkS : ∀ s, 0 < kS s)
    (hp : ps'.Perm (ps.map (recalibrate kE kS))) {g0 : ℝ} (hne : ∀ p ∈ ps, p.coda ≠ [])
    (h : IsGreens G cfg g0 ps gs) (hpos : ∀ s ∈ samplesOf cfg.bulk ps gs, 0 < s.E ∧ 0 < s.G) :
    ∃ gs', (∀ p ∈ ps', p.coda ≠ []) ∧ IsGreens G cfg g0 ps' gs' ∧
      (∀ s ∈ samplesOf cfg.bulk ps' gs', 0 < s.E ∧ 0 < s.G) ∧
      (samplesOf cfg.bulk ps' gs').Perm ((samplesOf cfg.bulk ps gs).map (recalSample kE kS)) := by
  obtain ⟨gs', h1, h2⟩ := perm_greens hp ((recal_isGreens (kE := kE) (kS := kS)).2 h)
  have h3 := perm_samples (bulk := cfg.bulk) h2
  rw [recal_samples] at h3
  refine ⟨gs', ?_, h1, ?_, h3⟩
  · intro p hp'
    obtain ⟨q, hq, rfl⟩ := perm_mem' hp hp'
    simpa [recalibrate] using hne q hq
  · intro s hs
    obtain ⟨q, hq, rfl⟩ := List.mem_map.1 (h3.mem_iff.1 hs)
    exact ⟨mul_pos (mul_pos (hkE _) (hkS _)) (hpos q hq).1, (hpos q hq).2⟩

theorem perm_misfit {S S' : List Sample} (h : S'.Perm S) (R W : String → ℝ) (b : ℝ) :
    misfit S' R W b = misfit S R W b := by
  unfold misfit
  exact (h.map _).sum_eq

/-- Recalibration moves factors from the energies to the site responses and source energies. -/
theorem recal_misfit {m : ℝ} (hm : 0 < m) (hkE : ∀ e, 0 < kE e) (hkS : ∀ s, 0 < kS s)
    {S : List Sample} {R W : String → ℝ} {b : ℝ}
    (hpos : ∀ s ∈ S, 0 < s.E ∧ 0 < s.G) (hR : ∀ s ∈ S, 0 < R s.station)
    (hW : ∀ s ∈ S, 0 < W s.event) :
    misfit (S.map (recalSample kE kS)) (fun s => R s * kS s / m) (fun e => W e * kE e * m) b =
      misfit S R W b := by
  unfold misfit
  rw [List.map_map]
  apply sum_map_congr
  intro s hs
  have hE := hkE s.event
  have hSt := hkS s.station
  have hR' := hR s hs
  have hW' := hW s hs
  have h1 : log (predicted (fun s => R s * kS s / m) (fun e => W e * kE e * m) b
      (recalSample kE kS s)) = log (kE s.event) + log (kS s.station) + log (predicted R W b s) := by
    rw [log_predicted (s := recalSample kE kS s) (hpos s hs).2
        (div_pos (mul_pos hR' hSt) hm) (mul_pos (mul_pos hW' hE) hm),
      log_predicted (hpos s hs).2 hR' hW']
    simp only [recalSample]
    rw [log_div (mul_pos hR' hSt).ne' hm.ne', log_mul hR'.ne' hSt.ne',
      log_mul (mul_pos hW' hE).ne' hm.ne', log_mul hW'.ne' hE.ne']
    ring
  simp only [Function.comp]
  rw [h1]
  simp only [recalSample]
  rw [log_mul (mul_pos hE hSt).ne' (hpos s hs).1.ne', log_mul hE.ne' hSt.ne']
  ring

/-- The matrix of connected pairs has full rank. -/
theorem free_rank (hr : FullRank rank) (hc : cfg.codaNorm = false) (hfs : cfg.fixSites = false)
    (hps : ps ≠ []) (hgw : GoodWeights ps) (hl : LenOk ps gs) (hne : ∀ p ∈ ps, p.coda ≠ [])
    (hcon : ConnectedPairs ps) (htw : cfg.fix = false → TwoTimes ps) :
    rank ((samplesOf cfg.bulk ps gs).map Sample.w)
      ((samplesOf cfg.bulk ps gs).map (rowOf cfg (bandOf cfg.bulk ps))) =
      nFree cfg (bandOf cfg.bulk ps) := by
  set S := samplesOf cfg.bulk ps gs with hS
  set bd := bandOf cfg.bulk ps with hbd
  apply hr
  · intro r h
    obtain ⟨s, -, rfl⟩ := List.mem_map.1 h
    exact rowOf_free_length hc hfs s
  · simp
  · intro x hx
    obtain ⟨s, hs, rfl⟩ := List.mem_map.1 hx
    exact weight_nonneg hl hgw hs
  · intro C hC h0
    rw [List.map_map, wsse_map S (rowOf cfg bd) _ C] at h0
    have hz : ∀ s ∈ S, s.w * (0 - dot (rowOf cfg bd s) C) ^ 2 = 0 := by
      intro s hs
      exact sum_map_eq_zero (fun s hs => mul_nonneg (weight_nonneg hl hgw hs) (sq_nonneg _)) h0 s hs
    have hcoda : ∀ p ∈ ps, ∀ x ∈ p.coda, staPart bd C p.station + evPart bd C p.event -
        (if cfg.fix then 0 else C.getD (nFree cfg bd - 1) 0 * x.1) = 0 := by
      intro p hp x hx
      obtain ⟨s, hs, h1, h2, h3, -, h5⟩ := coda_mem (bulk := cfg.bulk) hl hp hx
      have := hz s hs
      rw [h5, one_mul, sq_eq_zero_iff, dot_rowOf_free hc hfs
        (mem_stations.2 ⟨p, hp, h2.symm⟩) (mem_eventids.2 ⟨p, hp, h1.symm⟩), h1, h2, h3] at this
      linarith
    have hlast : cfg.fix = false → C.getD (nFree cfg bd - 1) 0 = 0 := by
      intro hfx
      obtain ⟨p, hp, x, hx, y, hy, hxy⟩ := htw hfx
      have e1 := hcoda p hp x hx
      have e2 := hcoda p hp y hy
      simp only [hfx, Bool.false_eq_true, if_false] at e1 e2
      have : C.getD (nFree cfg bd - 1) 0 * (x.1 - y.1) = 0 := by linarith
      rcases mul_eq_zero.1 this with h | h
      · exact h
      · exact absurd (sub_eq_zero.1 h) hxy
    have hsum : ∀ p ∈ ps, (fun _ => (0:ℝ)) p.station + (fun _ => (0:ℝ)) p.event =
        staPart bd C p.station + evPart bd C p.event := by
      intro p hp
      obtain ⟨x, hx⟩ := List.exists_mem_of_ne_nil _ (hne p hp)
      have e1 := hcoda p hp x hx
      cases hfx : cfg.fix with
      | true => rw [if_pos hfx] at e1; simp only; linarith
      | false => rw [hlast hfx] at e1; simp only [hfx, Bool.false_eq_true, if_false] at e1; simp only; linarith
    obtain ⟨c, d1, d2⟩ := determined hcon hps (lR := fun _ => 0) (lW := fun _ => 0)
      (lR' := staPart bd C) (lW' := evPart bd C) hsum
    have hev0 : eventids bd ≠ [] := eventids_ne hps
    have hc0 : c = 0 := by
      obtain ⟨e, he⟩ : ∃ e, (eventids bd).head? = some e := by
        cases h : eventids bd with
        | nil => exact absurd h hev0
        | cons a l => exact ⟨a, rfl⟩
      have hmem : e ∈ eventids bd := List.mem_of_mem_head? he
      obtain ⟨p, hp, rfl⟩ := mem_eventids.1 hmem
      have := d2 p hp
      have hi : (eventids bd).idxOf p.event = 0 := by
        cases h : eventids bd with
        | nil => exact absurd h hev0
        | cons a l =>
          rw [h] at he
          simp only [List.head?_cons, Option.some.injEq] at he
          rw [he]; simp
      unfold evPart at this
      rw [hi] at this
      simp only [lt_irrefl, if_false] at this
      linarith
    subst hc0
    have hNe : 0 < (eventids bd).length := List.length_pos_iff.2 hev0
    intro x hx
    obtain ⟨i, hi, rfl⟩ := List.mem_iff_getElem.1 hx
    rw [← List.getD_eq_getElem _ 0 hi]
    rw [hC] at hi
    have hfle : cfg.fix.toNat ≤ 1 := Bool.toNat_le _
    rcases lt_or_ge i (stations bd).length with h1 | h1
    · have hm := List.getElem_mem h1
      obtain ⟨p, hp, h2⟩ := mem_stations.1 hm
      have := d1 p hp
      rw [h2] at this
      unfold staPart at this
      rw [List.Nodup.idxOf_getElem (show (stations bd).Nodup from fromKeys_nodup _)] at this
      simpa using this
    · rcases lt_or_ge (i - (stations bd).length + 1) (eventids bd).length with h2 | h2
      · have hm := List.getElem_mem h2
        obtain ⟨p, hp, h3⟩ := mem_eventids.1 hm
        have := d2 p hp
        rw [h3] at this
        unfold evPart at this
        rw [List.Nodup.idxOf_getElem (show (eventids bd).Nodup from fromKeys_nodup _), if_pos (by omega)] at this
        rw [show (stations bd).length + (i - (stations bd).length + 1) - 1 = i by omega] at this
        simpa using this
      · unfold nFree at hi
        cases hfx : cfg.fix with
        | true => rw [hfx] at hi; simp only [Bool.toNat_true] at hi; omega
        | false =>
          rw [hfx] at hi
          simp only [Bool.toNat_false] at hi
          have := hlast hfx
          unfold nFree at this
          rw [hfx] at this
          simp only [Bool.toNat_false] at this
          rw [show i = (stations bd).length + (eventids bd).length - 0 - 1 by omega]
          exact this

/-- Geometric mean of the factors of the stations. -/
noncomputable def gain (kS : String → ℝ) (bulk : Bool) (ps : List PairData) : ℝ :=
  exp (meanLogR ps bulk kS)

theorem perm_meanLogR {bulk : Bool} (hp : ps'.Perm (ps.map (recalibrate kE kS))) (R : String → ℝ) :
    meanLogR ps' bulk R = meanLogR ps bulk R := by
  unfold meanLogR
  rw [((perm_stations (bulk := bulk) hp).map _).sum_eq, (perm_stations (bulk := bulk) hp).length_eq]

/-- The linear inversion of recalibrated pairs in any order. -/
theorem lstsq_recal (hwls : IsWls rank wls) (hr : FullRank rank) (hG : OneValuePerTime G)
    (hin : GoodInput cfg ps) (hc : cfg.codaNorm = false) (hfs : cfg.fixSites = false)
    (hcon : ConnectedPairs ps) (htw : cfg.fix = false → TwoTimes ps)
    (hkE : ∀ e, 0 < kE e) (hkS : ∀ s, 0 < kS s) (hp : ps'.Perm (ps.map (recalibrate kE kS)))
    {g0 : ℝ} {bFix : Option ℝ} (hbf : cfg.fix = false → bFix = none) {f : Fit}
    (h : lstsq wls G cfg (bandOf cfg.bulk ps) g0 bFix false = .ok f) :
    ∃ f', lstsq wls G cfg (bandOf cfg.bulk ps') g0 bFix false = .ok f' ∧
      f'.g0 = f.g0 ∧ f'.b = f.b ∧ f'.err = f.err ∧
      f.R.length = (stations (bandOf cfg.bulk ps)).length ∧
      f.W.length = (eventids (bandOf cfg.bulk ps)).length ∧
      f'.R = (stations (bandOf cfg.bulk ps')).map (fun s =>
        valueOf ((stations (bandOf cfg.bulk ps)).zip f.R) s * kS s / gain kS cfg.bulk ps) ∧
      f'.W = (eventids (bandOf cfg.bulk ps')).map (fun e =>
        valueOf ((eventids (bandOf cfg.bulk ps)).zip f.W) e * kE e * gain kS cfg.bulk ps) := by
  obtain ⟨gs, Rfix, h1, hl, hne, hpos, hRf, -, h5⟩ := lstsq_ok hin.pairs hG (by simp) h
  simp only [Bool.false_eq_true, if_false] at h5
  obtain ⟨k1, k2, k3⟩ := free_fit hwls hc hfs hin.R0 hin.some_pair hin.weights hl hne hpos hbf h5
  obtain ⟨gs', hne', h1', hpos', hperm⟩ := recal_compare hkE hkS hp hne h1 hpos
  have hl' := isGreens_len h1'
  have hin' := recal_good hp hin
  have hcon' := recal_connected hp hcon
  have htw' := fun hfx => recal_twoTimes hp (htw hfx)
  have hm : 0 < gain kS cfg.bulk ps := exp_pos _
  rw [lstsq_eq hin'.pairs hne' h1' hpos' (siteRefs_free hfs _) (siteRefsShort_free hfs _) (by simp)]
  have hsome : cfg.fix = true → bFix.isSome := fun hfx => by rw [k2 hfx]; rfl
  obtain ⟨f', hf'⟩ := fitOf_some (cfg := cfg) (bd := bandOf cfg.bulk ps')
    (g0 := g0) (bFix := bFix) (fs := false) (Rf := [])
    (sol := wls ((samplesOf cfg.bulk ps' gs').map Sample.w)
      ((samplesOf cfg.bulk ps' gs').map (rowOf cfg (bandOf cfg.bulk ps')))
      ((samplesOf cfg.bulk ps' gs').map (target bFix
        (if false then some (refOf cfg) else none)))) hc hsome
  rw [hf']
  simp only [Bool.false_eq_true, if_false] at hf'
  obtain ⟨j1, j2, j3⟩ := free_fit hwls hc hfs hin.R0 hin'.some_pair hin'.weights hl' hne'
    hpos' hbf hf'
  have hrk := free_rank hr hc hfs hin.some_pair hin.weights hl hne hcon htw
  have hrk' := free_rank hr hc hfs hin'.some_pair hin'.weights hl' hne' hcon' htw'
  have hnf : nFree cfg (bandOf cfg.bulk ps') = nFree cfg (bandOf cfg.bulk ps) := by
    unfold nFree
    rw [(perm_stations hp).length_eq, (perm_eventids hp).length_eq]
  set S := samplesOf cfg.bulk ps gs with hS
  set S' := samplesOf cfg.bulk ps' gs' with hS'
  set m := gain kS cfg.bulk ps with hmdef
  set R1 := valueOf ((stations (bandOf cfg.bulk ps)).zip f.R) with hR1
  set W1 := valueOf ((eventids (bandOf cfg.bulk ps)).zip f.W) with hW1
  set R2 := valueOf ((stations (bandOf cfg.bulk ps')).zip f'.R) with hR2
  set W2 := valueOf ((eventids (bandOf cfg.bulk ps')).zip f'.W) with hW2
  have hst : ∀ s ∈ S, s.station ∈ stations (bandOf cfg.bulk ps) := by
    intro s hs
    obtain ⟨p, hp, -, h2⟩ := mem_samplesOf hl hs
    exact mem_stations.2 ⟨p, hp, h2⟩
  have hev : ∀ s ∈ S, s.event ∈ eventids (bandOf cfg.bulk ps) := by
    intro s hs
    obtain ⟨p, hp, h2, -⟩ := mem_samplesOf hl hs
    exact mem_eventids.2 ⟨p, hp, h2⟩
  have hst' : ∀ s, s ∈ stations (bandOf cfg.bulk ps') ↔ s ∈ stations (bandOf cfg.bulk ps) :=
    fun s => (perm_stations hp).mem_iff
  have hev' : ∀ s, s ∈ eventids (bandOf cfg.bulk ps') ↔ s ∈ eventids (bandOf cfg.bulk ps) :=
    fun s => (perm_eventids hp).mem_iff
  have hposR2 : ∀ s ∈ stations (bandOf cfg.bulk ps), 0 < R2 s :=
    fun s hs => j3.posR s ((hst' s).2 hs)
  have hposW2 : ∀ s ∈ eventids (bandOf cfg.bulk ps), 0 < W2 s :=
    fun s hs => j3.posW s ((hev' s).2 hs)
  have hbeq : cfg.fix = true → f.b = f'.b := by
    intro hfx
    have := (k2 hfx).symm.trans (j2 hfx)
    simpa using this
  -- the two misfits
  have htrans : ∀ (R W : String → ℝ) (b : ℝ), (∀ s ∈ stations (bandOf cfg.bulk ps), 0 < R s) →
      (∀ e ∈ eventids (bandOf cfg.bulk ps), 0 < W e) →
      misfit S' (fun s => R s * kS s / m) (fun e => W e * kE e * m) b = misfit S R W b := by
    intro R W b hR hW
    rw [perm_misfit hperm]
    exact recal_misfit hm hkE hkS hpos (fun s hs => hR _ (hst s hs)) (fun s hs => hW _ (hev s hs))
  have hback : misfit S' R2 W2 f'.b =
      misfit S (fun s => R2 s * m / kS s) (fun e => W2 e / m / kE e) f'.b := by
    rw [← htrans (fun s => R2 s * m / kS s) (fun e => W2 e / m / kE e) f'.b
      (fun s hs => div_pos (mul_pos (hposR2 s hs) hm) (hkS s))
      (fun e he => div_pos (div_pos (hposW2 e he) hm) (hkE e))]
    congr 1
    · funext s
      have := (hkS s).ne'
      field_simp
    · funext e
      have := (hkE e).ne'
      field_simp
  have hbest : ∀ (R W : String → ℝ) (b : ℝ), (∀ s ∈ stations (bandOf cfg.bulk ps), 0 < R s) →
      (∀ e ∈ eventids (bandOf cfg.bulk ps), 0 < W e) → (cfg.fix = true → b = f.b) →
      misfit S R1 W1 f.b ≤ misfit S R W b := by
    classical
    intro R W b hR hW hb
    have := k3.best (fun s => if s ∈ stations (bandOf cfg.bulk ps) then R s else 1)
      (fun e => if e ∈ eventids (bandOf cfg.bulk ps) then W e else 1) b
      (by intro s; by_cases hs : s ∈ stations (bandOf cfg.bulk ps)
          · simp only [hs, if_true]; exact hR s hs
          · simp [hs])
      (by intro s; by_cases hs : s ∈ eventids (bandOf cfg.bulk ps)
          · simp only [hs, if_true]; exact hW s hs
          · simp [hs]) hb
    refine this.trans (le_of_eq ?_)
    unfold misfit
    apply sum_map_congr
    intro s hs
    simp only [predicted, hst s hs, hev s hs, if_true]
  have hle : misfit S' (fun s => R1 s * kS s / m) (fun e => W1 e * kE e * m) f.b ≤
      misfit S' R2 W2 f'.b := by
    rw [htrans R1 W1 f.b k3.posR k3.posW, hback]
    exact hbest _ _ _ (fun s hs => div_pos (mul_pos (hposR2 s hs) hm) (hkS s))
      (fun e he => div_pos (div_pos (hposW2 e he) hm) (hkE e)) (fun hfx => (hbeq hfx).symm)
  have hR1l : (stations (bandOf cfg.bulk ps)).map R1 = f.R :=
    zip_values (fromKeys_nodup _) k3.lenR
  have hns : ((stations (bandOf cfg.bulk ps)).length : ℝ) ≠ 0 := by
    have := List.length_pos_iff.2 (stations_ne (bulk := cfg.bulk) hin.some_pair)
    positivity
  have hgeo : meanLogR ps' cfg.bulk (fun s => R1 s * kS s / m) = log cfg.R0 := by
    rw [perm_meanLogR hp]
    have h0 := k3.geo
    rw [← hR1l, List.map_map, List.length_map] at h0
    have h2 : meanLogR ps cfg.bulk (fun s => R1 s * kS s / m) =
        meanLogR ps cfg.bulk R1 + meanLogR ps cfg.bulk kS - log m := by
      unfold meanLogR
      rw [sum_map_congr (g := fun s => log (R1 s) + log (kS s) - log m)
        (fun s hs => by
          rw [log_div (mul_pos (k3.posR s hs) (hkS s)).ne' hm.ne',
            log_mul (k3.posR s hs).ne' (hkS s).ne']),
        sum_map_sub', sum_map_add', sum_map_const']
      field_simp
    rw [h2, show meanLogR ps cfg.bulk R1 = log cfg.R0 from h0, hmdef, gain, log_exp]
    ring
  have hRpos : ∀ s ∈ stations (bandOf cfg.bulk ps), 0 < R1 s * kS s / m :=
    fun s hs => div_pos (mul_pos (k3.posR s hs) (hkS s)) hm
  have hWpos : ∀ e ∈ eventids (bandOf cfg.bulk ps), 0 < W1 e * kE e * m :=
    fun e he => mul_pos (mul_pos (k3.posW e he) (hkE e)) hm
  obtain ⟨u1, u2, u3⟩ := fit_unique hin'.some_pair hl' hin'.weights hne' hpos' j3 hcon' htw'
    (R := fun s => R1 s * kS s / m) (W := fun e => W1 e * kE e * m) (b := f.b)
    (fun p h => hRpos _ ((hst' _).1 (mem_stations.2 ⟨p, h, rfl⟩)))
    (fun p h => hWpos _ ((hev' _).1 (mem_eventids.2 ⟨p, h, rfl⟩))) hbeq hgeo hle
  have hmeq : misfit S' R2 W2 f'.b = misfit S R1 W1 f.b := by
    rw [← htrans R1 W1 f.b k3.posR k3.posW]
    refine le_antisymm ?_ hle
    classical
    have := j3.best (fun s => if s ∈ stations (bandOf cfg.bulk ps) then R1 s * kS s / m else 1)
      (fun e => if e ∈ eventids (bandOf cfg.bulk ps) then W1 e * kE e * m else 1) f.b
      (by intro s; by_cases hs : s ∈ stations (bandOf cfg.bulk ps)
          · simp only [hs, if_true]; exact hRpos s hs
          · simp [hs])
      (by intro s; by_cases hs : s ∈ eventids (bandOf cfg.bulk ps)
          · simp only [hs, if_true]; exact hWpos s hs
          · simp [hs]) hbeq
    refine this.trans (le_of_eq ?_)
    unfold misfit
    apply sum_map_congr
    intro s hs
    obtain ⟨q, hq, rfl⟩ := List.mem_map.1 (hperm.mem_iff.1 hs)
    simp only [predicted, recalSample, hst q hq, hev q hq, if_true]
  refine ⟨f', rfl, by rw [j1, k1], u1.symm, ?_, k3.lenR, k3.lenW, u2, u3⟩
  rw [j3.err, k3.err, hrk, hrk', hnf, hperm.length_eq, List.length_map, ← u1, j1, k1]
  rw [show misfit S' (valueOf ((stations (bandOf cfg.bulk ps')).zip f'.R))
    (valueOf ((eventids (bandOf cfg.bulk ps')).zip f'.W)) f.b = misfit S R1 W1 f.b from by
      rw [← hmeq, ← u1]]

theorem get?_zip_map (ks : List String) (g : String → ℝ) (k : String) :
    Dict.get? (ks.zip (ks.map g)) k = if k ∈ ks then some (g k) else none := by
  rw [get?_zip _ _ _ (by simp)]
  by_cases h : k ∈ ks
  · rw [if_pos h, List.getElem?_map, List.getElem?_eq_getElem (List.idxOf_lt_length_iff.2 h)]
    simp
  · rw [if_neg h, List.getElem?_eq_none]
    rw [List.length_map, List.idxOf_eq_length h]

theorem zip_factor {ks ks' : List String} (hnd : ks.Nodup) (hp : ks'.Perm ks) {vs : List ℝ}
    (hl : vs.length = ks.length) (f : String → ℝ) (s : String) :
    Dict.get? (ks'.zip (ks'.map (fun s => f s * valueOf (ks.zip vs) s))) s =
      (Dict.get? (ks.zip vs) s).map (f s * ·) := by
  have := zip_values hnd hl
  rw [get?_zip_map]
  conv_rhs => rw [← this]
  rw [get?_zip_map]
  by_cases h : s ∈ ks
  · rw [if_pos (hp.mem_iff.2 h), if_pos h]; rfl
  · rw [if_neg (fun h' => h (hp.mem_iff.1 h')), if_neg h]; rfl

theorem gain_eq (hkS : ∀ s, 0 < kS s) (hps : ps ≠ []) (bulk : Bool) :
    gain kS bulk ps = meanFactor kS ps := by
  have hp : (ps.map PairData.station).dedup.Perm (stations (bandOf bulk ps)) := by
    refine (List.perm_ext_iff_of_nodup (List.nodup_dedup _) (fromKeys_nodup _)).2 (fun s => ?_)
    rw [List.mem_dedup, mem_fromKeys]
    simp [bandOf, PairData.pair]
  unfold gain meanFactor meanLogR
  have h1 := (hp.map (fun s => log (kS s))).sum_eq
  rw [← h1, ← hp.length_eq]
  have h2 : (ps.map PairData.station).dedup.map (fun s => log (kS s)) =
      ((ps.map PairData.station).dedup.map kS).map log := by rw [List.map_map]; rfl
  have h3 : (ps.map PairData.station).dedup.length =
      ((ps.map PairData.station).dedup.map kS).length := by simp
  rw [h2, h3]
  apply exp_mean_log
  · intro x hx
    obtain ⟨s, -, rfl⟩ := List.mem_map.1 hx
    exact hkS s

/-- The optimiser sees the same function. -/
theorem objective_recal (hwls : IsWls rank wls) (hr : FullRank rank) (hG : OneValuePerTime G)
    (hin : GoodInput cfg ps) (hc : cfg.codaNorm = false) (hfs : cfg.fixSites = false)
    (hfx : cfg.fix = false) (hcon : ConnectedPairs ps) (htw : cfg.fix = false → TwoTimes ps)
    (hkE : ∀ e, 0 < kE e) (hkS : ∀ s, 0 < kS s) (hp : ps'.Perm (ps.map (recalibrate kE kS)))
    (hcmp : ∀ g0, WithinBounds cfg g0 → CanCompare G cfg ps g0) :
    objective wls G cfg (bandOf cfg.bulk ps') = objective wls G cfg (bandOf cfg.bulk ps) := by
  funext g0
  unfold objective
  by_cases hb : ∃ gb, cfg.g0Bounds = some gb ∧ ¬ (gb.1 ≤ g0 ∧ g0 ≤ gb.2)
  · rw [if_pos hb, if_pos hb]
  · rw [if_neg hb, if_neg hb]
    have hw : WithinBounds cfg g0 := fun gb h => by
      by_contra h'
      exact hb ⟨gb, h, h'⟩
    obtain ⟨hne, gs, hgr, hpos⟩ := hcmp g0 hw
    have hok : ∃ f, lstsq wls G cfg (bandOf cfg.bulk ps) g0 none false = .ok f := by
      rw [lstsq_eq hin.pairs hne hgr hpos (siteRefs_free hfs _) (siteRefsShort_free hfs _) (by simp)]
      exact fitOf_some hc (by simp [hfx])
    obtain ⟨f, hf⟩ := hok
    obtain ⟨f', hf', -, -, he, -⟩ := lstsq_recal hwls hr hG hin hc hfs hcon htw hkE hkS hp
      (fun _ => rfl) hf
    rw [hf, hf']
    simp only [bind, Except.bind, pure, Except.pure, he]

end InvertFb

/-- **C113**: the pairs may come in any order, and multiplying the energies of every event by
`kE` and of every station by `kS` only multiplies the source energy of the event by `kE` (and by
the geometric mean `m` of the factors of all stations) and the site response of the station by
`kS / m`.  Attenuation, error and number of stations, and suppressed results, are the same. -/
theorem C113_calibration (hwls : IsWls rank wls) (hr : FullRank rank) (hG : OneValuePerTime G)
    (hin : GoodInput cfg ps) (hc : cfg.codaNorm = false) (hfs : cfg.fixSites = false)
    (hcon : ConnectedPairs ps) (htw : cfg.fix = false → TwoTimes ps)
    (hcmp : cfg.fix = false → cfg.optimize = true →
      ∀ g0, WithinBounds cfg g0 → CanCompare G cfg ps g0)
    (hkE : ∀ e, 0 < kE e) (hkS : ∀ s, 0 < kS s) (hp : ps'.Perm (ps.map (recalibrate kE kS)))
    {res : Option BandResult}
    (h : solveBand wls G minimize cfg (bandOf cfg.bulk ps) = .ok res) :
    ∃ res', solveBand wls G minimize cfg (bandOf cfg.bulk ps') = .ok res' ∧
      Option.Rel (SameUpTo (fun s => kS s / meanFactor kS ps) (fun e => kE e * meanFactor kS ps))
        res res' := by
  have hL : ∀ {g0 : ℝ} {bFix : Option ℝ}, (cfg.fix = false → bFix = none) → ∀ {f : Fit},
      lstsq wls G cfg (bandOf cfg.bulk ps) g0 bFix false = .ok f →
      ∃ f', lstsq wls G cfg (bandOf cfg.bulk ps') g0 bFix false = .ok f' ∧
        Option.Rel (SameUpTo (fun s => kS s / meanFactor kS ps)
          (fun e => kE e * meanFactor kS ps))
          (report cfg (bandOf cfg.bulk ps) f) (report cfg (bandOf cfg.bulk ps') f') := by
    intro g0 bFix hbf f hf
    obtain ⟨f', hf', e1, e2, e3, e4, e5, e6, e7⟩ := lstsq_recal hwls hr hG hin hc hfs hcon htw hkE
      hkS hp hbf hf
    refine ⟨f', hf', ?_⟩
    unfold report
    rw [e1, e2]
    by_cases hn : nearBounds cfg f.b f.g0
    · simp only [hn, if_true]; exact .none
    · simp only [hn, if_false]
      refine .some ⟨rfl, rfl, rfl, e3, ?_, ?_, ?_⟩
      · simp only
        rw [e6, List.length_map, e4]
        exact (perm_stations hp).length_eq
      · simp only [hfs, hc, Bool.not_false, Bool.and_self, if_true, Option.some.injEq]
        refine ⟨_, _, rfl, rfl, fun s => ?_⟩
        rw [e6, ← gain_eq hkS hin.some_pair cfg.bulk]
        refine Eq.trans ?_ (zip_factor (show (stations (bandOf cfg.bulk ps)).Nodup from
          fromKeys_nodup _) (perm_stations hp) e4 (fun s => kS s / gain kS cfg.bulk ps) s)
        congr 3
        funext s
        ring
      · simp only [hc, Bool.not_false, if_true, Option.some.injEq]
        refine ⟨_, _, rfl, rfl, fun s => ?_⟩
        rw [e7, ← gain_eq hkS hin.some_pair cfg.bulk]
        refine Eq.trans ?_ (zip_factor (show (eventids (bandOf cfg.bulk ps)).Nodup from
          fromKeys_nodup _) (perm_eventids hp) e5 (fun e => kE e * gain kS cfg.bulk ps) s)
        congr 3
        funext s
        ring
  unfold solveBand at h ⊢
  obtain ⟨of, hof, h⟩ := bind_ok.1 h
  simp only [pure, Except.pure, Except.ok.injEq] at h
  subst h
  have hfin : (of = none ∧ bandFit wls G minimize cfg (bandOf cfg.bulk ps') = .ok none) ∨
      ∃ g0 bFix f, (cfg.fix = false → bFix = none) ∧ of = some f ∧
        lstsq wls G cfg (bandOf cfg.bulk ps) g0 bFix false = .ok f ∧
        ∀ f', lstsq wls G cfg (bandOf cfg.bulk ps') g0 bFix false = .ok f' →
          bandFit wls G minimize cfg (bandOf cfg.bulk ps') = .ok (some f') := by
    unfold bandFit at hof ⊢
    by_cases hfx : cfg.fix = true
    · rw [if_pos hfx] at hof ⊢
      rw [hfs] at hof ⊢
      cases h1 : cfg.fixParams.1 with
      | none =>
        rw [h1] at hof
        simp only [Except.ok.injEq] at hof
        exact Or.inl ⟨hof.symm, rfl⟩
      | some a =>
        cases h2 : cfg.fixParams.2 with
        | none =>
          rw [h1, h2] at hof
          simp only [Except.ok.injEq] at hof
          exact Or.inl ⟨hof.symm, rfl⟩
        | some b =>
          rw [h1, h2] at hof
          simp only at hof
          obtain ⟨f, hf, h3⟩ := bind_ok.1 hof
          simp only [pure, Except.pure, Except.ok.injEq] at h3
          refine Or.inr ⟨a, some b, f, by simp [hfx], h3.symm, hf, fun f' hf' => ?_⟩
          simp only [hf', bind, Except.bind, pure, Except.pure]
    · rw [if_neg hfx] at hof ⊢
      have hfx' : cfg.fix = false := by simpa using hfx
      by_cases ho : cfg.optimize = true
      · rw [if_pos ho] at hof ⊢
        rw [objective_recal hwls hr hG hin hc hfs hfx' hcon htw hkE hkS hp (hcmp hfx' ho)]
        obtain ⟨x, hx, hof⟩ := bind_ok.1 hof
        obtain ⟨f, hf, h3⟩ := bind_ok.1 hof
        simp only [pure, Except.pure, Except.ok.injEq] at h3
        refine Or.inr ⟨x, none, f, fun _ => rfl, h3.symm, hf, fun f' hf' => ?_⟩
        rw [hx]
        simp only [hf', bind, Except.bind, pure, Except.pure]
      · rw [if_neg ho] at hof ⊢
        cases hgb : cfg.g0Bounds with
        | none => rw [hgb] at hof; simp at hof
        | some gb =>
          rw [hgb] at hof
          simp only at hof
          obtain ⟨f, hf, h3⟩ := bind_ok.1 hof
          simp only [pure, Except.pure, Except.ok.injEq] at h3
          refine Or.inr ⟨_, none, f, fun _ => rfl, h3.symm, hf, fun f' hf' => ?_⟩
          simp only [hf', bind, Except.bind, pure, Except.pure]
  rcases hfin with ⟨h1, h2⟩ | ⟨g0, bFix, f, h1, h2, h3, h4⟩
  · rw [h1, h2]
    exact ⟨none, rfl, .none⟩
  · obtain ⟨f', hf', hrel⟩ := hL h1 h3
    rw [h4 f' hf', h2]
    exact ⟨_, rfl, hrel⟩

/-- **C113**: the order of the event-station pairs does not matter. -/
theorem C113_order (hwls : IsWls rank wls) (hr : FullRank rank) (hG : OneValuePerTime G)
    (hin : GoodInput cfg ps) (hc : cfg.codaNorm = false) (hfs : cfg.fixSites = false)
    (hcon : ConnectedPairs ps) (htw : cfg.fix = false → TwoTimes ps)
    (hcmp : cfg.fix = false → cfg.optimize = true →
      ∀ g0, WithinBounds cfg g0 → CanCompare G cfg ps g0)
    (hp : ps'.Perm ps) {res : Option BandResult}
    (h : solveBand wls G minimize cfg (bandOf cfg.bulk ps) = .ok res) :
    ∃ res', solveBand wls G minimize cfg (bandOf cfg.bulk ps') = .ok res' ∧
      Option.Rel (SameUpTo (fun _ => 1) (fun _ => 1)) res res' := by
  have hid : ps.map (recalibrate (fun _ => 1) (fun _ => 1)) = ps := by
    conv_rhs => rw [← List.map_id ps]
    apply List.map_congr_left
    intro p _
    simp [recalibrate]
  have := C113_calibration (ps' := ps') (kE := fun _ => 1) (kS := fun _ => 1) (minimize := minimize) hwls hr hG hin
    hc hfs hcon htw hcmp (fun _ => one_pos) (fun _ => one_pos) (by rw [hid]; exact hp) h
  have hm : meanFactor (fun _ => 1) ps = 1 := by
    unfold meanFactor geoMean
    rw [List.map_const', List.prod_replicate, one_pow, one_rpow]
  simpa only [hm, div_one, mul_one] using this

namespace InvertExample

open Classical in
/-- A rank: the number of columns of a matrix which maps only zero to zero. -/
noncomputable def someRank (w : List ℝ) (A : List (List ℝ)) : ℕ :=
  if ∀ C : List ℝ, C.length = (A.headD []).length → wsse w A (A.map (fun _ => 0)) C = 0 →
    ∀ c ∈ C, c = 0 then (A.headD []).length else 0

/-- A solver of weighted least squares which reports the error for this rank. -/
noncomputable def rankWls (w : List ℝ) (A : List (List ℝ)) (B : List ℝ) : List ℝ × ℝ :=
  ((someWls w A B).1, wsse w A B (someWls w A B).1 / (B.length - someRank w A))

theorem rankWls_spec : IsWls someRank rankWls := by
  intro n w A B h1 h2 h3 h4 h5
  obtain ⟨k1, k2, -⟩ := someWls_spec n w A B h1 h2 h3 h4 h5
  exact ⟨k1, k2, rfl⟩

theorem someRank_full : FullRank someRank := by
  intro n w A h1 h2 h3 h4
  cases A with
  | nil =>
    have h0 : n = 0 := by
      by_contra hn
      have := h4 (List.replicate n 1) (by simp) (by simp [wsse]) 1 (by simp [hn])
      norm_num at this
    subst h0
    simp [someRank]
  | cons r A =>
    have hn : r.length = n := h1 r (by simp)
    unfold someRank
    rw [if_pos]
    · simpa using hn
    · intro C hC
      exact h4 C (by simpa [hn] using hC)

/-- Energies of event `e2` twice and of station `B` eight times as large. -/
noncomputable def kE1 (e : String) : ℝ := if e = "e2" then 2 else 1
noncomputable def kS1 (s : String) : ℝ := if s = "B" then 8 else 1

/-- The recalibrated pairs, in another order: the first event and the first station change. -/
noncomputable def ps1' : List PairData :=
  [recalibrate kE1 kS1 (pair1 "e2" "B"), recalibrate kE1 kS1 (pair1 "e1" "A"),
    recalibrate kE1 kS1 (pair1 "e1" "B")]

theorem perm1 : ps1'.Perm (ps1.map (recalibrate kE1 kS1)) := by
  simp only [ps1', ps1, List.map_cons, List.map_nil]
  exact (List.Perm.swap _ _ _).trans (.cons _ (.swap _ _ _))

example (minimize : (ℝ → Py (WithTop ℝ)) → Py ℝ) : ∃ r r',
    solveBand rankWls G1 minimize cfg1 (bandOf cfg1.bulk ps1) = .ok (some r) ∧
    solveBand rankWls G1 minimize cfg1 (bandOf cfg1.bulk ps1') = .ok (some r') ∧
    SameUpTo (fun s => kS1 s / meanFactor kS1 ps1) (fun e => kE1 e * meanFactor kS1 ps1) r r' := by
  obtain ⟨r, R', W', h, -⟩ := example_result_of rankWls_spec minimize
  obtain ⟨res', h1, h2⟩ := C113_calibration (kE := kE1) (kS := kS1) rankWls_spec someRank_full
    one_value_G1 good1 rfl rfl connected1 (fun _ => two_times1) (by simp [cfg1])
    (by intro e; unfold kE1; split <;> norm_num) (by intro e; unfold kS1; split <;> norm_num)
    perm1 h
  cases h2 with
  | some h2 => exact ⟨r, _, h, h1, h2⟩

/-- The factor of the stations in the example. -/
example : meanFactor kS1 ps1 ^ 2 = 8 := by
  have : (ps1.map PairData.station).dedup = ["A", "B"] := by
    simp [ps1, pair1]
  unfold meanFactor geoMean
  have hA : kS1 "A" = 1 := by simp [kS1]
  have hB : kS1 "B" = 8 := by simp [kS1]
  rw [this]
  simp only [List.map_cons, List.map_nil, hA, hB, List.prod_cons, List.prod_nil, List.length_cons,
    List.length_nil]
  rw [← rpow_natCast, ← rpow_mul (by norm_num)]
  norm_num

/-- With the optimiser: the data can be compared with the model for all scattering coefficients. -/
example : ∀ g0, CanCompare G1 { cfg1 with optimize := true } ps1 g0 := by
  intro g0
  refine ⟨?_, [([1, 1], 0), ([1, 1], 0), ([1, 1], 0)], ?_, ?_⟩
  · intro p hp
    simp only [ps1, List.mem_cons, List.not_mem_nil, or_false] at hp
    rcases hp with rfl | rfl | rfl <;> simp [pair1]
  · simp [IsGreens, ps1, pair1, gsmooth, smoothFunc, cfg1, G1]
  · intro s hs
    simp only [samplesOf, ps1, pair1, cfg1] at hs
    simp at hs
    rcases hs with rfl | rfl | rfl | rfl | rfl | rfl <;>
      exact ⟨mul_pos (mul_pos (R1_pos _) (W1_pos _)) (exp_pos _), one_pos⟩

end InvertExample

end Qopen
