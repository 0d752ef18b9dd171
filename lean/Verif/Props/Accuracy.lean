import Verif.Props.InvertError
import Verif.Props.Truth
import Verif.Props.SourceExact
import Verif.Props.SourceFit
import Verif.Props.InvertSource
import Verif.Props.Suppressed
import Verif.Props.SourceRecalc
import Verif.Props.AgainExample

/-!
# How wrong the command `source` can be (C137)
-/

namespace Qopen

open Real Spec Util Tr Energy InvertFb Window Catalog Freqs Source Invert Wrapper

namespace Spec

/-- `x` agrees with `y` up to a factor `k`. -/
def Within (k x y : ℝ) : Prop := y / k ≤ x ∧ x ≤ k * y

end Spec

theorem Spec.Within.log {k x y : ℝ} (hk : 0 < k) (hy : 0 < y) (h : Within k x y) :
    0 < x ∧ |log x - log y| ≤ log k := by
  have hx : 0 < x := lt_of_lt_of_le (div_pos hy hk) h.1
  refine ⟨hx, abs_le.2 ⟨?_, ?_⟩⟩
  · have := log_le_log (div_pos hy hk) h.1
    rw [log_div hy.ne' hk.ne'] at this
    linarith
  · have := log_le_log hx h.2
    rw [log_mul hk.ne' hy.ne'] at this
    linarith

theorem Spec.within_of_log {k x y : ℝ} (hk : 0 < k) (hx : 0 < x) (hy : 0 < y)
    (h : |Real.log x - Real.log y| ≤ Real.log k) : Within k x y := by
  obtain ⟨h1, h2⟩ := abs_le.1 h
  constructor
  · rw [← log_le_log_iff (div_pos hy hk) hx, log_div hy.ne' hk.ne']
    linarith
  · rw [← log_le_log_iff hx (by positivity), log_mul hk.ne' hy.ne']
    linarith

/-- A weighted mean deviates at most as much as the values. -/
theorem InvertFb.weighted_mean_bound {α : Type} {l : List α} {w x : α → ℝ} {m c d : ℝ}
    (hw : ∀ a ∈ l, 0 ≤ w a) (hs : 0 < (l.map w).sum)
    (hm : m * (l.map w).sum = (l.map (fun a => w a * x a)).sum) (hx : ∀ a ∈ l, |x a - c| ≤ d) :
    |m - c| ≤ d := by
  have h1 : (l.map (fun a => w a * x a)).sum ≤ (c + d) * (l.map w).sum := by
    rw [← sum_map_mul_left']
    refine List.sum_le_sum fun a ha => ?_
    have := (abs_le.1 (hx a ha)).2
    nlinarith [hw a ha]
  have h2 : (c - d) * (l.map w).sum ≤ (l.map (fun a => w a * x a)).sum := by
    rw [← sum_map_mul_left']
    refine List.sum_le_sum fun a ha => ?_
    have := (abs_le.1 (hx a ha)).1
    nlinarith [hw a ha]
  rw [← hm] at h1 h2
  have := le_of_mul_le_mul_right h1 hs
  have := le_of_mul_le_mul_right h2 hs
  exact abs_le.2 ⟨by linarith, by linarith⟩

section
variable {wls : List ℝ → List (List ℝ) → List ℝ → List ℝ × ℝ} {rank : List ℝ → List (List ℝ) → ℕ}
  {G : Greens} {minimize : (ℝ → Py (WithTop ℝ)) → Py ℝ} {cfg : InvertFb.Cfg}
  {ps : List PairData} {R W : String → ℝ} {g0 b : ℝ} {res : BandResult} {k rho T β : ℝ}

namespace Spec

/-- Data of a band for the command `source`.  The energies agree up to a factor `k` with
`G R W exp(-b t)`; the reference responses agree up to a factor `rho` with the responses `R` and the
used absorption differs by at most `β` from `b`; times are between zero and `T`. -/
structure NearWindows (G : Greens) (cfg : InvertFb.Cfg) (R W : String → ℝ) (b k rho β T : ℝ)
    (ps : List PairData) : Prop where
  energies : ∀ g0 gs, cfg.fixParams.1 = some g0 → IsGreens G cfg g0 ps gs →
    ∀ s ∈ samplesOf cfg.bulk ps gs, Within k s.E (predicted R W b s)
  times : ∀ g0 gs, cfg.fixParams.1 = some g0 → IsGreens G cfg g0 ps gs →
    ∀ s ∈ samplesOf cfg.bulk ps gs, 0 ≤ s.t ∧ s.t ≤ T
  responses : ∀ p ∈ ps, ∀ r, cfg.fixSitesParams.get? p.station = some r → Within rho r (R p.station)
  absorption : ∀ b', cfg.fixParams.2 = some b' → |b' - b| ≤ β

end Spec

theorem InvertFb.isGreens_samples {gs gs' : List (List ℝ × ℝ)} (h : IsGreens G cfg g0 ps gs)
    (h' : IsGreens G cfg g0 ps gs') : samplesOf cfg.bulk ps gs = samplesOf cfg.bulk ps gs' := by
  unfold IsGreens at h h'
  have key : (ps.zip gs).flatMap (fun q => List.zipWith
      (fun te g => (⟨q.1.event, q.1.station, te.1, te.2, g, 1⟩ : Sample)) q.1.coda q.2.1) =
      (ps.zip gs').flatMap (fun q => List.zipWith
      (fun te g => (⟨q.1.event, q.1.station, te.1, te.2, g, 1⟩ : Sample)) q.1.coda q.2.1) ∧
      (cfg.bulk = true → gs = gs') := by
    induction h generalizing gs' with
    | nil => cases h'; simp
    | cons a _ ih =>
      cases h' with
      | cons a' l' =>
        obtain ⟨e1, e2⟩ := ih l'
        have e3 := a.1.symm.trans a'.1
        simp only [Except.ok.injEq] at e3
        refine ⟨by simp only [List.zip_cons_cons, List.flatMap_cons, e1, e3], fun hb => ?_⟩
        have e4 := (a.2.2 hb).symm.trans (a'.2.2 hb)
        simp only [Except.ok.injEq] at e4
        rw [e2 hb, Prod.ext e3 e4]
  unfold samplesOf
  rw [key.1]
  cases hb : cfg.bulk with
  | false => rfl
  | true => rw [key.2 hb]

/-- The values of Green's function in an inversion with result are positive. -/
theorem InvertFb.source_greens_pos (hG : OneValuePerTime G) (hin : GoodInput cfg ps)
    (hfx : cfg.fix = true) (hfs : cfg.fixSites = true) {b : ℝ}
    (h1 : cfg.fixParams = (some g0, some b)) {gs : List (List ℝ × ℝ)} (h2 : IsGreens G cfg g0 ps gs)
    (h : solveBand wls G minimize cfg (bandOf cfg.bulk ps) = .ok (some res)) :
    (∀ p ∈ ps, p.coda ≠ []) ∧ ∀ s ∈ samplesOf cfg.bulk ps gs, 0 < s.G := by
  obtain ⟨f, g0', bFix, hf, -, hb⟩ := solveBand_ok h
  rw [hfx] at hb
  simp only [if_true, h1, Prod.mk.injEq, Option.some.injEq] at hb
  obtain ⟨⟨e1, e2⟩, -⟩ := hb
  subst e1 e2
  rw [hfx, hfs, Bool.and_self] at hf
  obtain ⟨gs', Rfix, h1', h2', h3', h4', -⟩ := lstsq_ok hin.pairs hG (fun _ => hfs) hf
  refine ⟨h3', ?_⟩
  obtain ⟨rs, hrs, hf⟩ := bind_ok.1 hf
  obtain ⟨Rf, hRf, hf⟩ := bind_ok.1 hf
  rw [greensAll_eq hin.pairs h3' h2] at hf
  simp only [bind, Except.bind, throw, throwThe, MonadExceptOf.throw] at hf
  split at hf
  · simp at hf
  · split at hf
    · simp at hf
    · next hn =>
      push Not at hn
      intro s hs
      exact hn.2 _ (List.mem_map.2 ⟨s, hs, rfl⟩)

/-- **C137**: one band of the command `source`.  If the energies are known up to a factor `k`, the
reference responses up to a factor `rho` and the absorption up to `β`, every reported source energy
agrees with the true one up to the factor `k * rho * exp (β T)`. -/
theorem C137_band (hwls : IsWls rank wls) (hr : FullRank rank) (hG : OneValuePerTime G)
    (hin : GoodInput cfg ps) (hc : cfg.codaNorm = false) (hfx : cfg.fix = true)
    (hfs : cfg.fixSites = true) (href : ∀ s r, cfg.fixSitesParams.get? s = some r → 0 < r)
    (hk : 1 ≤ k) (hrho : 1 ≤ rho) (hβ : 0 ≤ β) (hR : ∀ s, 0 < R s) (hW : ∀ e, 0 < W e)
    (hx : NearWindows G cfg R W b k rho β T ps)
    (h : solveBand wls G minimize cfg (bandOf cfg.bulk ps) = .ok (some res)) :
    ∃ W' g0 gs, res.W = some W' ∧ W'.keys.Nodup ∧ (∀ e, e ∈ W'.keys ↔ ∃ p ∈ ps, p.event = e) ∧
      (∀ e w, (e, w) ∈ W' → Within (k * rho * exp (β * T)) w (W e)) ∧
      cfg.fixParams.1 = some g0 ∧ IsGreens G cfg g0 ps gs ∧
      ∃ err : ℝ, res.error = err ∧ err ≤ log (k * rho * exp (β * T)) *
        sqrt (((samplesOf cfg.bulk ps gs).map Sample.w).sum /
          ((samplesOf cfg.bulk ps gs).length - numEvents ps)) := by
  obtain ⟨g0, b', W', gs, h1, h2, h3, h4⟩ :=
    C19_source_energy_is_weighted_mean hwls hG hin hc hfx hfs href h
  obtain ⟨g1, b1, W1, gs1, i1, i2, i3, i4, i5, i6, i7, i8, -⟩ :=
    C19_source_uses_reference_responses hwls hG hin hc hfx hfs href h
  obtain ⟨g2, b2, W2, gs2, j1, j2, j3, j4⟩ :=
    C19_error_degrees_of_freedom hwls hr hG hin hc hfx hfs href h
  rw [h1, Prod.mk.injEq, Option.some.injEq, Option.some.injEq] at i1 j1
  obtain ⟨rfl, rfl⟩ := i1
  obtain ⟨rfl, rfl⟩ := j1
  rw [h3] at i4 j3
  obtain rfl := Option.some.inj i4
  obtain rfl := Option.some.inj j3
  rw [isGreens_samples i2 h2] at i8
  rw [isGreens_samples j2 h2] at j4
  obtain ⟨hcoda, hGpos⟩ := source_greens_pos hG hin hfx hfs h1 h2 h
  have hl := isGreens_len h2
  have hk0 : 0 < k := by linarith
  have hr0 : 0 < rho := by linarith
  have hK : log (k * rho * exp (β * T)) = log k + log rho + β * T := by
    rw [log_mul (by positivity) (exp_pos _).ne', log_mul hk0.ne' hr0.ne', log_exp]
  have hg1 : cfg.fixParams.1 = some g0 := by rw [h1]
  -- one sample
  have hsample : ∀ s ∈ samplesOf cfg.bulk ps gs, 0 < valueOf cfg.fixSitesParams s.station ∧
      |log s.E - log s.G - log (valueOf cfg.fixSitesParams s.station) + b' * s.t - log (W s.event)| ≤
        log (k * rho * exp (β * T)) := by
    intro s hs
    obtain ⟨p, hp, e1, e2⟩ := mem_samplesOf hl hs
    obtain ⟨r, hrr⟩ := i3 p hp
    have hrpos := href _ _ hrr
    have hv : valueOf cfg.fixSitesParams s.station = r := by rw [← e2, valueOf, hrr]; rfl
    have hpred : 0 < predicted R W b s :=
      mul_pos (mul_pos (mul_pos (hGpos s hs) (hR _)) (hW _)) (exp_pos _)
    obtain ⟨-, a1⟩ := Within.log hk0 hpred (hx.energies g0 gs hg1 h2 s hs)
    obtain ⟨-, a2⟩ := Within.log hr0 (hR _) (hx.responses p hp r hrr)
    have a3 := hx.absorption b' (by rw [h1])
    obtain ⟨t0, t1⟩ := hx.times g0 gs hg1 h2 s hs
    have a4 : |(b' - b) * s.t| ≤ β * T := by
      rw [abs_mul, abs_of_nonneg t0]
      exact mul_le_mul a3 t1 t0 hβ
    rw [hv, hK]
    refine ⟨hrpos, ?_⟩
    unfold predicted at a1
    rw [log_mul (mul_pos (mul_pos (hGpos s hs) (hR _)) (hW _)).ne' (exp_pos _).ne', log_exp,
      log_mul (mul_pos (hGpos s hs) (hR _)).ne' (hW _).ne', log_mul (hGpos s hs).ne' (hR _).ne'] at a1
    rw [e2] at a2
    have e : log s.E - log s.G - log r + b' * s.t - log (W s.event) =
        (log s.E - (log s.G + log (R s.station) + log (W s.event) + -b * s.t)) -
          (log r - log (R s.station)) + (b' - b) * s.t := by ring
    rw [e]
    refine (abs_add_le _ _).trans (add_le_add ((abs_sub _ _).trans (add_le_add a1 a2)) a4)
  refine ⟨W', g0, gs, h3, i5, i6, ?_, hg1, h2, ?_⟩
  · intro e w hm
    have hkey : e ∈ W'.keys := List.mem_map.2 ⟨(e, w), hm, rfl⟩
    obtain ⟨p, hp, rfl⟩ := (i6 e).1 hkey
    have hget := Dict.get?_of_mem (d := W') i5 hm
    have hw : valueOf W' p.event = w := by rw [valueOf, hget]; rfl
    have hwpos : 0 < w := hw ▸ i7 _ hkey
    obtain ⟨c1, c2⟩ := h4 p hp
    rw [hw] at c1
    refine within_of_log (by positivity) hwpos (hW _) ?_
    refine weighted_mean_bound (w := Sample.w) ?_ c2 c1 ?_
    · intro s hs
      exact weight_nonneg hl hin.weights (List.mem_of_mem_filter hs)
    · intro s hs
      obtain ⟨hs, he⟩ := List.mem_filter.1 hs
      have := (hsample s hs).2
      rwa [of_decide_eq_true he] at this
  · refine ⟨_, j4, ?_⟩
    have hmis : misfit (samplesOf cfg.bulk ps gs) (valueOf cfg.fixSitesParams) (valueOf W') b' ≤
        ((samplesOf cfg.bulk ps gs).map Sample.w).sum * log (k * rho * exp (β * T)) ^ 2 := by
      refine (i8 W hW).trans ?_
      unfold misfit
      rw [mul_comm, ← sum_map_mul_left']
      refine List.sum_le_sum fun s hs => ?_
      obtain ⟨d1, d2⟩ := hsample s hs
      rw [mul_comm (log _ ^ 2)]
      refine mul_le_mul_of_nonneg_left ?_ (weight_nonneg hl hin.weights hs)
      refine sq_le_sq' ?_ ?_ <;>
      · unfold predicted
        rw [log_mul (mul_pos (mul_pos (hGpos s hs) d1) (hW _)).ne' (exp_pos _).ne', log_exp,
          log_mul (mul_pos (hGpos s hs) d1).ne' (hW _).ne', log_mul (hGpos s hs).ne' d1.ne']
        obtain ⟨u1, u2⟩ := abs_le.1 d2
        linarith
    have hL : 0 ≤ log (k * rho * exp (β * T)) := by
      obtain ⟨p, hp⟩ := List.exists_mem_of_ne_nil _ hin.some_pair
      obtain ⟨x, hx⟩ := List.exists_mem_of_ne_nil _ (hcoda p hp)
      obtain ⟨s, hs, -⟩ := coda_mem (bulk := cfg.bulk) hl hp hx
      exact (abs_nonneg _).trans (hsample s hs).2
    rcases le_or_gt 0 (((samplesOf cfg.bulk ps gs).length : ℝ) - numEvents ps) with hd | hd
    · refine (sqrt_le_sqrt (div_le_div_of_nonneg_right hmis hd)).trans (le_of_eq ?_)
      rw [mul_comm, mul_div_assoc, sqrt_mul (sq_nonneg _), sqrt_sq hL]
    · rw [sqrt_eq_zero_of_nonpos]
      · positivity
      · refine div_nonpos_of_nonneg_of_nonpos ?_ hd.le
        exact List.sum_nonneg (by
          intro x hx
          obtain ⟨s, hs, rfl⟩ := List.mem_map.1 hx
          exact mul_nonneg (weight_nonneg hl hin.weights hs) (sq_nonneg _))

end

namespace Spec

/-- The attenuation which is given for a band is missing or too close to the bounds. -/
def Unusable (c : InvertFb.Cfg) : Prop :=
  c.fixParams.1 = none ∨ c.fixParams.2 = none ∨ ∃ g0 b, c.fixParams = (some g0, some b) ∧
    ((∃ lo hi, c.bBounds = some (lo, hi) ∧ (b ≤ 1.01 * lo ∨ 0.99 * hi ≤ b)) ∨
     (∃ lo hi, c.g0Bounds = some (lo, hi) ∧ (g0 ≤ 1.01 * lo ∨ 0.99 * hi ≤ g0)))

/-- Data for the command `source` as in `NearWindows`, in all bands. -/
structure NearData (env : Env) (cfg : InvCfg) (bands : Dict ℝ (ℝ × ℝ)) (events : List Event)
    (R W : ℕ → String → ℝ) (b : ℕ → ℝ) (k rho β T : ℝ) : Prop where
  pairs : ∀ streams, StreamsOf env cfg events streams →
    (streams.map (fun s => (s.event, s.station))).Nodup
  windows : ∀ i c ps, WindowsOf env cfg bands events i c ps → ps ≠ [] →
    GoodInput c ps ∧ (∀ s r, c.fixSitesParams.get? s = some r → 0 < r) ∧
      NearWindows env.G c (R i) (W i) (b i) k rho β T ps

end Spec

open Classical in
/-- **C137**: the command `source`.  In each band either all entries are empty, because fewer pairs
than required passed the checks or the given attenuation is unusable, or every event with an accepted window has a source energy which
agrees with the true one up to the factor `k * rho * exp (β T)`; other events have no value. -/
theorem C137_inversion {rank : List ℝ → List (List ℝ) → ℕ} {env : Env} {cfg : InvCfg} {cpus : ℕ}
    {schedule : List ℕ} {events : List Event} {bands : Dict ℝ (ℝ × ℝ)} {res : InvRes}
    {R W : ℕ → String → ℝ} {b : ℕ → ℝ} {k rho β T : ℝ}
    (hwls : IsWls rank env.wls) (hr : FullRank rank) (hG : OneValuePerTime env.G)
    (hn : (events.map getEventid).Nodup) (hb : getFreqs cfg.freqs = .ok bands)
    (hj : OwnCopies cfg bands cpus schedule) (hc : cfg.codaNorm = none) (hcmd : cfg.cmd = .source)
    (hk : 1 ≤ k) (hrho : 1 ≤ rho) (hβ : 0 ≤ β) (hR : ∀ i s, 0 < R i s) (hW : ∀ i e, 0 < W i e)
    (hx : NearData env cfg bands events R W b k rho β T)
    (h : invert env cfg cpus schedule events = .ok (some res)) :
    ∀ i < bands.length,
      ((∀ id e, (id, e) ∈ res.events → e.W[i]? = some .none) ∧ res.error[i]? = some .none ∧
        ((∀ c ps, WindowsOf env cfg bands events i c ps →
            ps = [] ∨ (ps.length : ℝ) < cfg.numPairs.getD 1) ∨
          ∃ c ps, WindowsOf env cfg bands events i c ps ∧ ps ≠ [] ∧ Unusable c)) ∨
      ∃ c ps, WindowsOf env cfg bands events i c ps ∧ ps ≠ [] ∧
        (∀ id e, (id, e) ∈ res.events →
          ((∃ p ∈ ps, p.event = id) → ∃ w, e.W[i]? = some (.num w) ∧
            Within (k * rho * exp (β * T)) w (W i id)) ∧
          ((¬ ∃ p ∈ ps, p.event = id) → e.W[i]? = some .none)) ∧
        ∃ err g0 gs, res.error[i]? = some (.num err) ∧ c.fixParams.1 = some g0 ∧
          IsGreens env.G c g0 ps gs ∧ err ≤ log (k * rho * exp (β * T)) *
            sqrt (((samplesOf c.bulk ps gs).map Sample.w).sum /
              ((samplesOf c.bulk ps gs).length - numEvents ps)) := by
  obtain ⟨stations, rlist, -, T', args, selected, origins, streams, h3, h4, h5, h6, h7⟩ :=
    tables_streams hn hb hj.1 h
  have hstr : StreamsOf env cfg events streams := ⟨selected, origins, h4, h5, h6⟩
  have hrun := mapExc_ok.1 (hj.run h7)
  intro i hi
  have hi' : i < (bands.map Prod.snd).length := by simpa using hi
  obtain ⟨o, ho, hband⟩ := forall₂_getElem? hrun (List.getElem?_eq_getElem hi')
  have hcall := runBand_call h3 hband
  have hW' := (T'.events hc).2
  have hfl := bandArgs_flags h3
  have hempty : o = none → (∀ id e, (id, e) ∈ res.events → e.W[i]? = some .none) ∧
      res.error[i]? = some .none := by
    rintro rfl
    constructor
    · intro id e hm
      obtain ⟨y, hy, e⟩ := forall₂_getElem? (hW' id e hm) ho
      rw [hy, e]
    · obtain ⟨y, hy, e⟩ := forall₂_getElem? T'.error ho
      rw [hy, e]
  rcases invertFb_outcome (hx.pairs _ hstr) hcall with ⟨hnone, hfew⟩ | ⟨v0, ps, hps, hne, hsol⟩
  · left
    refine ⟨(hempty hnone).1, (hempty hnone).2, Or.inl ?_⟩
    · rintro c ps ⟨args', streams', band, v0, a1, ⟨s1, o1, a2, a3, a4⟩, a5, a6, -⟩
      rw [h3] at a1
      obtain rfl := Except.ok.inj a1
      rw [h4] at a2
      obtain rfl := Option.some.inj (Except.ok.inj a2)
      rw [h5] at a3
      obtain rfl := Except.ok.inj a3
      subst a4 h6
      rw [List.getElem?_eq_getElem hi'] at a5
      obtain rfl := Option.some.inj a5
      exact hfew v0 ps a6
  · have hwin : WindowsOf env cfg bands events i (bandCfg cfg args (bands.map Prod.snd)[i] v0) ps :=
      ⟨args, streams, _, v0, h3, hstr, List.getElem?_eq_getElem hi', hps, rfl⟩
    have hcn : (bandCfg cfg args (bands.map Prod.snd)[i] v0).codaNorm = false := by
      simp [bandCfg, fullCfg, bandWCfg, hc]
    have hfs : (bandCfg cfg args (bands.map Prod.snd)[i] v0).fixSites = true := by
      have : args.sites ≠ false := fun e => (hfl.2.1 e) hcmd
      simp only [bandCfg, fullCfg, bandWCfg]
      simpa using this
    have hfx : (bandCfg cfg args (bands.map Prod.snd)[i] v0).fix = true := by
      have : args.fix ≠ false := fun e => by rw [hfl.1.1 e] at hcmd; simp at hcmd
      simp only [bandCfg, fullCfg]
      simpa using this
    obtain ⟨hgood, href, hnear⟩ := hx.windows i _ ps hwin hne
    have hsol' : solveBand env.wls env.G env.minimize (bandCfg cfg args (bands.map Prod.snd)[i] v0)
        (bandOf (bandCfg cfg args (bands.map Prod.snd)[i] v0).bulk ps) = .ok o := hsol
    cases o with
    | none =>
      left
      refine ⟨(hempty rfl).1, (hempty rfl).2, Or.inr ⟨_, ps, hwin, hne, ?_⟩⟩
      rcases C17_suppressed_iff.1 hsol' with ⟨-, h | h⟩ | ⟨g0, b, r, a1, -, -, a4⟩
      · exact Or.inl h
      · exact Or.inr (Or.inl h)
      · unfold EvaluatedAt at a1
        rw [hfx] at a1
        exact Or.inr (Or.inr ⟨g0, b, by simpa using a1, a4⟩)
    | some r =>
      obtain ⟨Wd, g0, gs, r1, r2, r3, r4, r5, r6, err, r7, r8⟩ :=
        C137_band hwls hr hG hgood hcn hfx hfs href hk hrho hβ (hR i) (hW i) hnear hsol'
      right
      refine ⟨_, ps, hwin, hne, ?_, ?_⟩
      · intro id e hm
        obtain ⟨y, hy, d, e1, e2, e3⟩ := forall₂_getElem? (hW' id e hm) ho
        change r.W = some d at e1
        rw [r1] at e1
        obtain rfl := Option.some.inj e1
        constructor
        · intro hs
          have hid := (r3 id).2 hs
          obtain ⟨q, hq, rfl⟩ := List.mem_map.1 hid
          exact ⟨q.2, by rw [hy, e2 _ hq], r4 _ _ hq⟩
        · intro hs
          rw [hy, e3 (fun hk => hs ((r3 id).1 hk))]
      · obtain ⟨y, hy, x, e1, e2⟩ := forall₂_getElem? T'.error ho
        rw [r7] at e1
        have : err = x := by exact_mod_cast e1
        exact ⟨err, g0, gs, by rw [hy, e2, this], r5, r6, r8⟩

/-! ## Source spectra and magnitudes -/

/-- A spectral value from an energy which is known up to a factor. -/
theorem sds_near {K om W f v rho : ℝ} (hK : 0 < K) (ho : 0 < om) (hf : 0 < f) (hv : 0 < v)
    (hr : 0 < rho) (h : Within K W (sourceEnergy om f v rho)) :
    0 < W ∧ ∃ x, sds W f v rho = .ok (.num x) ∧ Within (sqrt K) x om := by
  have hE : 0 < sourceEnergy om f v rho := by unfold sourceEnergy; positivity
  obtain ⟨hW, hlog⟩ := Within.log hK hE h
  obtain ⟨x, h1, h2, h3⟩ := C65_value W f v rho hW hf hv hr
  obtain ⟨y, e1, e2, e3⟩ := C65_value _ f v rho hE hf hv hr
  rw [sds_energy ho hf hv hr] at e1
  obtain rfl : om = y := by simpa using e1
  refine ⟨hW, x, h1, within_of_log (sqrt_pos.2 hK) h2 ho ?_⟩
  have hq : 0 < 5 * rho * v ^ 5 / (2 * π * f ^ 2) := by positivity
  have l1 : 2 * log x = log W + log (5 * rho * v ^ 5 / (2 * π * f ^ 2)) := by
    rw [← log_mul hW.ne' hq.ne', show 2 * log x = log (x ^ 2) by rw [log_pow]; norm_num, h3]
    congr 1
    field_simp
  have l2 : 2 * log om = log (sourceEnergy om f v rho) + log (5 * rho * v ^ 5 / (2 * π * f ^ 2)) := by
    rw [← log_mul hE.ne' hq.ne', show 2 * log om = log (om ^ 2) by rw [log_pow]; norm_num, e3]
    congr 1
    field_simp
  rw [log_sqrt hK.le]
  have e : log x - log om = (log W - log (sourceEnergy om f v rho)) / 2 := by linarith
  rw [e, abs_div, abs_of_pos (by norm_num : (0 : ℝ) < 2)]
  linarith

namespace Spec

/-- Each frequency without value, or with a value which agrees with `y` up to a factor `k`. -/
def NearCurve (k : ℝ) (y : ℝ → ℝ) (freq : List ℝ) (cells : List Cell) : Prop :=
  List.Forall₂ (fun f c => c = .none ∨ ∃ x, c = .num x ∧ Within k x (y f)) freq cells

/-- Values at the same places. -/
def SamePlaces (cells cells' : List Cell) : Prop :=
  List.Forall₂ (fun c c' => c = .none ↔ c' = .none) cells cells'

end Spec

/-- The spectrum from energies which are known up to a factor. -/
theorem spectrum_near {K v rho : ℝ} {om : ℝ → ℝ} (hK : 0 < K) (ho : ∀ f, 0 < om f) (hv : 0 < v)
    (hr : 0 < rho) {freq : List ℝ} {W : List Cell} (hf : ∀ f ∈ freq, 0 < f)
    (hW : NearCurve K (fun f => sourceEnergy (om f) f v rho) freq W) :
    ∃ L, sdsEntries freq W (some v) (some rho) = .ok L ∧ NearCurve (sqrt K) om freq L ∧
      SamePlaces W L := by
  have key : ∀ (pre W : List Cell) (freq : List ℝ), (∀ f ∈ freq, 0 < f) →
      NearCurve K (fun f => sourceEnergy (om f) f v rho) freq W →
      ∃ L, mapExc (fun p : ℝ × ℕ => do
        let w ← pyGet (pre ++ W) p.2
        match some v, some rho with
        | some v, some r => if w.truthy ∧ v ≠ 0 ∧ r ≠ 0 then sdsCell w p.1 v r else .ok Cell.none
        | _, _ => .ok Cell.none) (freq.zipIdx pre.length) = .ok L ∧ NearCurve (sqrt K) om freq L ∧
      SamePlaces W L := by
    intro pre W freq hf hW
    unfold NearCurve at hW
    induction hW generalizing pre with
    | nil => exact ⟨[], rfl, .nil, .nil⟩
    | @cons f w freq W hw _ ih =>
      have hf0 := hf f (by simp)
      obtain ⟨L, e1, e2, e3⟩ := ih (pre ++ [w]) (fun x hx => hf x (by simp [hx]))
      have hget : pyGet (pre ++ w :: W) pre.length = .ok w := by
        rw [pyGet_ok]; simp
      have happ : pre ++ [w] ++ W = pre ++ w :: W := by simp
      have hlen : (pre ++ [w]).length = pre.length + 1 := by simp
      rw [happ, hlen] at e1
      have e1' := mapExc_ok.1 e1
      rcases hw with rfl | ⟨x, rfl, hx⟩
      · refine ⟨.none :: L, ?_, .cons (Or.inl rfl) e2, .cons Iff.rfl e3⟩
        rw [List.zipIdx_cons]
        refine mapExc_ok.2 (.cons ?_ e1')
        simp only [hget, bind, Except.bind]
        simp [Cell.truthy]
      · obtain ⟨hpos, y, a1, a2⟩ := sds_near hK (ho f) hf0 hv hr hx
        refine ⟨.num y :: L, ?_, .cons (Or.inr ⟨y, rfl, a2⟩) e2, .cons (by simp) e3⟩
        rw [List.zipIdx_cons]
        refine mapExc_ok.2 (.cons ?_ e1')
        simp only [hget, bind, Except.bind]
        rw [if_pos ⟨hpos.ne', hv.ne', hr.ne'⟩]
        exact a1
  have := key [] W freq hf hW
  simpa [sdsEntries] using this

/-- A geometric mean agrees with `M` as well as the values. -/
theorem geoMean_near {l : List ℝ} {k M : ℝ} (hk : 0 < k) (hM : 0 < M) (hne : l ≠ [])
    (h : ∀ x ∈ l, Within k x M) : Within k (geoMean l) M := by
  have hpos : ∀ x ∈ l, 0 < x := fun x hx => (Within.log hk hM (h x hx)).1
  have hg : geoMean l = exp ((l.map log).sum / l.length) := (exp_mean_log l hpos).symm
  have hl : 0 < (l.length : ℝ) := by exact_mod_cast List.length_pos_iff.2 hne
  refine within_of_log hk (by rw [hg]; exact exp_pos _) hM ?_
  rw [hg, log_exp]
  refine weighted_mean_bound (l := l) (w := fun _ => 1) (x := log) (fun _ _ => by norm_num) ?_ ?_
    (fun x hx => (Within.log hk hM (h x hx)).2)
  · simpa using hl
  · simp only [one_mul, List.map_const', List.sum_replicate, nsmul_eq_mul, mul_one]
    field_simp

theorem Spec.Within.trans {k l x y z : ℝ} (hk : 0 < k) (hl : 0 < l) (hz : 0 < z) (h : Within k x y)
    (h' : Within l y z) : Within (k * l) x z := by
  obtain ⟨hy, e'⟩ := Within.log hl hz h'
  obtain ⟨hx, e⟩ := Within.log hk hy h
  refine within_of_log (by positivity) hx hz ?_
  rw [log_mul hk.ne' hl.ne']
  have := abs_sub_le (Real.log x) (Real.log y) (Real.log z)
  linarith

theorem insertFit_moment {d : Dict String Val} {r : Dict String Cell} (hw : r.WF) {m : ℝ}
    (h : r.get? "M0" = some (.num m)) :
    (insertFit d (some r)).get? "M0" = some (.cell (.num m)) ∧
    (insertFit d (some r)).get? "Mw" = some (.cell (.num (momentMagnitude m))) := by
  have hw' : (nanToNone r).WF := by
    unfold nanToNone
    split
    · exact Dict.WF_set hw _ _
    · exact hw
  have h' : (nanToNone r).get? "M0" = some (.num m) := by
    unfold nanToNone
    split
    · rw [Dict.get?_set_ne _ _ (by decide), h]
    · exact h
  simp only [insertFit, h']
  rw [Dict.get?_set_ne _ _ (by decide), Dict.get?_set_self,
    Dict.get?_update _ _ (by unfold Dict.WF; rw [Dict.keys_mapVals]; exact hw'), Dict.get?_mapVals, h']
  exact ⟨rfl, rfl⟩

theorem below_near {freq : List ℝ} {L : List Cell} {k μ M fc : ℝ} {om : ℝ → ℝ} (hk : 0 < k) (hμ : 0 < μ)
    (hM : 0 < M) (h : NearCurve k om freq L) (hflat : ∀ f ∈ freq, f < fc → Within μ (om f) M) :
    ∀ x ∈ positives (below freq L fc), Within (k * μ) x M := by
  intro x hx
  obtain ⟨hx, -⟩ := mem_positives.1 hx
  unfold below at hx
  simp only [List.mem_map, List.mem_filter, decide_eq_true_eq] at hx
  obtain ⟨p, ⟨hp, hlt, -⟩, hpx⟩ := hx
  have := List.forall₂_zip h hp
  rcases this with e | ⟨y, e, hy⟩
  · rw [hpx] at e; simp at e
  · rw [hpx] at e
    obtain rfl := Cell.num.inj e
    exact Within.trans hk hμ hM hy (hflat _ (List.of_mem_zip hp).1 hlt)

open Classical in
theorem below_same {freq : List ℝ} {W L : List Cell} (h : SamePlaces W L) (fc : ℝ) :
    (below freq L fc).length = (below freq W fc).length := by
  unfold below SamePlaces at *
  rw [List.length_map, List.length_map]
  induction h generalizing freq with
  | nil => rfl
  | @cons a b l l' hab _ ih =>
    cases freq with
    | nil => rfl
    | cons f fs =>
      simp only [List.zip_cons_cons, List.filter_cons]
      have : decide (f < fc ∧ b ≠ .none) = decide (f < fc ∧ a ≠ .none) := by
        simp only [ne_eq, hab]
      rw [this]
      split
      · rw [List.length_cons, List.length_cons, ih]
      · exact ih

theorem points_same {freq : List ℝ} {W L : List Cell} {k k' : ℝ} {y y' : ℝ → ℝ} (h : SamePlaces W L)
    (hW : NearCurve k y freq W) (hL : NearCurve k' y' freq L) :
    (points freq L).length = (points freq W).length := by
  unfold points SamePlaces NearCurve at *
  induction h generalizing freq with
  | nil => rfl
  | @cons a b l l' hab _ ih =>
    cases hW with
    | cons w1 w2 =>
      cases hL with
      | cons l1 l2 =>
        simp only [List.zip_cons_cons, List.filterMap_cons]
        rcases w1 with rfl | ⟨x, rfl, -⟩ <;> rcases l1 with rfl | ⟨x', rfl, -⟩ <;> simp_all

/-- The moment of an ordinary fit with given shape is as good as the values. -/
theorem fit_near {pts : List (ℝ × ℝ)} {k M M0 fc n g : ℝ} (hk : 0 < k) (hM : 0 < M) (hM0 : 0 < M0)
    (hfc : 0 < fc) (hne : pts ≠ []) (hpos : ∀ p ∈ pts, 0 < p.1)
    (hopt : ∀ M, 0 < M → rmsLogMisfit pts (omegaModel M0 fc n g) ≤ rmsLogMisfit pts (omegaModel M fc n g))
    (h : ∀ p ∈ pts, Within k p.2 (omegaModel M fc n g p.1)) : Within k M0 M := by
  have hl : 0 < (pts.length : ℝ) := by exact_mod_cast List.length_pos_iff.2 hne
  set sh : ℝ × ℝ → ℝ := fun p => log (omegaModel 1 fc n g p.1) with hsh
  have hlog : ∀ M, 0 < M → ∀ p ∈ pts, log (omegaModel M fc n g p.1) = log M + sh p := by
    intro M hM p hp
    have hp0 := hpos p hp
    have : omegaModel M fc n g p.1 = M * omegaModel 1 fc n g p.1 := by unfold omegaModel; ring
    rw [this, log_mul hM.ne' (omega_pos one_pos hfc hp0).ne']
  set a := (pts.map (fun p => log p.2 - sh p)).sum / pts.length with ha
  have hsum : (pts.map (fun p => log p.2 - sh p)).sum = a * pts.length := by rw [ha]; field_simp
  have hsq : ∀ M, 0 < M → (pts.map (fun p => (log p.2 - log (omegaModel M fc n g p.1)) ^ 2)).sum =
      (pts.map (fun p => (log p.2 - sh p - a) ^ 2)).sum + pts.length * (log M - a) ^ 2 := by
    intro M hM
    have e1 : pts.map (fun p => (log p.2 - log (omegaModel M fc n g p.1)) ^ 2) =
        pts.map (fun p => (log p.2 - sh p - a) ^ 2 + ((log M - a) ^ 2 +
          -2 * (log M - a) * ((log p.2 - sh p) - a))) := by
      apply List.map_congr_left
      intro p hp
      rw [hlog M hM p hp]; ring
    rw [e1, List.sum_map_add, List.sum_map_add, List.sum_map_mul_left, sum_map_sub', hsum]
    simp only [List.map_const', List.sum_replicate, nsmul_eq_mul]
    ring
  have hmean : log M0 = a := by
    have := hopt (exp a) (exp_pos _)
    unfold rmsLogMisfit at this
    rw [hsq _ hM0, hsq _ (exp_pos _), log_exp] at this
    have hS : 0 ≤ (pts.map (fun p => (log p.2 - sh p - a) ^ 2)).sum := List.sum_nonneg (by
      intro x hx
      obtain ⟨p, -, rfl⟩ := List.mem_map.1 hx
      exact sq_nonneg _)
    rw [sqrt_le_sqrt_iff (by positivity), div_le_div_iff_of_pos_right hl] at this
    have h0 : (log M0 - a) ^ 2 ≤ 0 := by
      by_contra hc
      push Not at hc
      have := mul_pos hl hc
      nlinarith
    have := pow_eq_zero_iff two_ne_zero |>.1 (le_antisymm h0 (sq_nonneg _))
    linarith
  refine within_of_log hk hM0 hM ?_
  rw [hmean]
  refine weighted_mean_bound (l := pts) (w := fun _ => 1) (x := fun p => log p.2 - sh p)
    (fun _ _ => by norm_num) (by simpa using hl) ?_ ?_
  · simp only [one_mul, List.map_const', List.sum_replicate, nsmul_eq_mul, mul_one]
    rw [hsum]
  · intro p hp
    have := (Within.log hk (omega_pos hM hfc (hpos p hp)) (h p hp)).2
    rw [hlog M hM p hp] at this
    rwa [sub_right_comm, sub_sub, add_comm] at *

namespace Spec

/-- Seismic moment and magnitude of an event agree with those of the moment `M` up to the factor
`k`. -/
def NearMoment (k M : ℝ) (extra : Dict String Val) : Prop :=
  ∃ m mw, extra.get? "M0" = some (.cell (.num m)) ∧ Within k m M ∧
    extra.get? "Mw" = some (.cell (.num mw)) ∧
    |mw - (2 / 3 * (log M / log 10) - 6.07)| ≤ 2 / 3 * (log k / log 10)

end Spec

theorem nearMoment {k M m : ℝ} {extra : Dict String Val} (hk : 0 < k) (hM : 0 < M)
    (h1 : extra.get? "M0" = some (.cell (.num m)))
    (h2 : extra.get? "Mw" = some (.cell (.num (momentMagnitude m)))) (h : Within k m M) :
    NearMoment k M extra := by
  refine ⟨m, _, h1, h, h2, ?_⟩
  obtain ⟨-, e⟩ := Within.log hk hM h
  have h10 : 0 < log (10 : ℝ) := log_pos (by norm_num)
  have : momentMagnitude m - (2 / 3 * (log M / log 10) - 6.07) = 2 / 3 * ((log m - log M) / log 10) := by
    unfold momentMagnitude; ring
  rw [this, abs_mul, abs_of_pos (by norm_num : (0 : ℝ) < 2 / 3), abs_div, abs_of_pos h10]
  gcongr

/-- **C137**: source spectrum and magnitude.  If the source energies agree with those of a source
spectrum up to a factor `K`, the reported spectrum agrees with the true one up to `sqrt K`, with values
at the same frequencies.  If the true spectrum below the given corner frequency agrees with the moment
`M` up to `μ` (method `mean`), or with the source model of given shape (method `fit`), the reported
moment agrees with `M` up to the factor `μ * sqrt K`; the magnitude is wrong by at most
`2/3 log10 (μ * sqrt K)`. -/
theorem C137_source {orc : Oracle} {freq : List ℝ} {ev ev' : EvRes} {v rho K μ M : ℝ} {om : ℝ → ℝ}
    {smm : Option Method} {smo : Option Opts} {mag : Option ℝ}
    (hK : 0 < K) (hμ : 0 < μ) (hM : 0 < M) (ho : ∀ f, 0 < om f) (hv : 0 < v) (hr : 0 < rho)
    (hne : freq ≠ []) (hf : ∀ f ∈ freq, 0 < f)
    (hW : NearCurve K (fun f => sourceEnergy (om f) f v rho) freq ev.W)
    (h : insertSourceProperties orc freq ev (some v) (some rho) smm smo mag = .ok ev') :
    (∃ L, ev'.extra.get? "sds" = some (.cells L) ∧ NearCurve (sqrt K) om freq L ∧ SamePlaces ev.W L) ∧
    (∀ o fc, smm = some .mean → smo = some o → o.fc = some fc →
      (∀ f ∈ freq, f < fc → Within μ (om f) M) →
      below freq ev.W fc ≠ [] → (∀ j, o.numPoints = some j → j ≤ (below freq ev.W fc).length) →
      NearMoment (sqrt K * μ) M ev'.extra) ∧
    (∀ o fc n g, smm = some .fit → smo = some o → o.fc = some fc → o.n = some n → o.gamma = some g →
      IsOls orc.ols → 0 < fc → (∀ f ∈ freq, Within μ (om f) (omegaModel M fc n g f)) →
      points freq ev.W ≠ [] → (∀ j, o.numPoints = some j → j ≤ (points freq ev.W).length) →
      NearMoment (sqrt K * μ) M ev'.extra) := by
  obtain ⟨L, hL, hnear, hsame⟩ := spectrum_near hK ho hv hr hf hW
  have hsK := sqrt_pos.2 hK
  have hlen : freq.length = L.length := List.Forall₂.length_eq hnear
  have hWne : ev.W ≠ [] := by
    intro e
    have := List.Forall₂.length_eq hW
    rw [e] at this
    exact hne (List.length_eq_zero_iff.1 this)
  have hst : sdsStart ev (some v) (some rho) = [] := by
    unfold sdsStart
    rw [if_pos ⟨hWne, (hr.ne' : rho ≠ 0), (hv.ne' : v ≠ 0)⟩]
  have hform : (smm = none ∧ ev'.extra = ev.extra.set "sds" (.cells L)) ∨
      ∃ m o fit, smm = some m ∧ smo = some o ∧ fitSds orc freq L m o = .ok fit ∧
        ∀ k, k ≠ "Mcat" → ev'.extra.get? k = (insertFit (ev.extra.set "sds" (.cells L)) fit).get? k := by
    unfold insertSourceProperties at h
    simp only [hL, bind, Except.bind, hst, List.nil_append] at h
    cases smm with
    | none =>
      simp only [pure, Except.pure, Except.ok.injEq] at h
      subst h
      exact Or.inl ⟨rfl, rfl⟩
    | some m =>
      cases smo with
      | none => simp [throw, throwThe, MonadExceptOf.throw] at h
      | some o =>
        obtain ⟨fit, hfit, h⟩ := bind_ok.1 h
        simp only [pure, Except.pure, Except.ok.injEq] at h
        subst h
        refine Or.inr ⟨m, o, fit, rfl, rfl, hfit, ?_⟩
        intro k hk
        cases mag with
        | none => rfl
        | some x => simp only [Dict.get?_set_ne _ _ (Ne.symm hk)]
  refine ⟨⟨L, ?_, hnear, hsame⟩, ?_, ?_⟩
  · rcases hform with ⟨-, e⟩ | ⟨m, o, fit, -, -, hfit, e⟩
    · rw [e, Dict.get?_set_self]
    · rw [e "sds" (by decide)]
      cases fit with
      | none => simp only [insertFit, Dict.get?_set_self]
      | some r =>
        obtain ⟨-, hk⟩ := fitSds_keys orc freq L m o r hfit
        rw [insertFit_other _ _ hk _ (by decide) (by decide), Dict.get?_set_self]
  · rintro o fc rfl rfl hfc hflat hb hnum
    rcases hform with ⟨e, -⟩ | ⟨m, o', fit, e1, e2, hfit, e⟩
    · simp at e
    obtain rfl := Option.some.inj e1
    obtain rfl := Option.some.inj e2
    have hcell : ∀ c ∈ L, c = .none ∨ ∃ x, 0 < x ∧ c = .num x := by
      intro c hc
      obtain ⟨i, hi, rfl⟩ := List.mem_iff_getElem.1 hc
      rcases (List.forall₂_iff_get.1 hnear).2 i (hlen ▸ hi) hi with h | ⟨x, h, hx⟩
      · exact Or.inl h
      · exact Or.inr ⟨x, (Within.log hsK (ho _) hx).1, h⟩
    have hbl := below_same (freq := freq) hsame fc
    have hbne : below freq L fc ≠ [] := by
      rw [← List.length_pos_iff, hbl, List.length_pos_iff]; exact hb
    obtain ⟨r, a1, a2, a3⟩ := (C63_mean orc freq L o fc hfc hcell).2 hbne (by rw [hbl]; exact hnum)
    rw [hfit] at a1
    obtain rfl := Except.ok.inj a1
    obtain ⟨b1, b2⟩ := insertFit_moment (d := ev.extra.set "sds" (.cells L))
      (fitSds_keys orc freq L _ o r hfit).1 a2
    refine nearMoment (by positivity) hM (by rw [e _ (by decide), b1]) (by rw [e _ (by decide), b2]) ?_
    refine geoMean_near (by positivity) hM ?_ (below_near hsK hμ hM hnear hflat)
    rw [← List.length_pos_iff, a3, List.length_pos_iff]
    exact hbne
  · rintro o fc n g rfl rfl hfc hn hg hols hfc0 hmod hp hnum
    rcases hform with ⟨e, -⟩ | ⟨m, o', fit, e1, e2, hfit, e⟩
    · simp at e
    obtain rfl := Option.some.inj e1
    obtain rfl := Option.some.inj e2
    have hpl := points_same hsame hW hnear
    have hpne : points freq L ≠ [] := by
      rw [← List.length_pos_iff, hpl, List.length_pos_iff]; exact hp
    obtain ⟨r, rfl⟩ : ∃ r, fit = some r := by
      rw [fitSds_fit orc freq L .fit (Or.inl rfl) o hlen, if_neg] at hfit
      · generalize fitResult orc (if Method.fit = .robustFit ∧ o.fallBack ≤ (points freq L).length
          then orc.rlm else orc.ols) (points freq L) o = F at hfit
        cases F with
        | error _ => simp [Except.map] at hfit
        | ok r =>
          simp only [Except.map, Except.ok.injEq] at hfit
          exact ⟨r, hfit.symm⟩
      · have := List.length_pos_iff.2 hpne
        push Not
        refine ⟨by omega, ?_⟩
        cases hq : o.numPoints with
        | none => simp [Source.tooFew]
        | some j =>
          have := hnum j hq
          simp [Source.tooFew, hpl, this]
    obtain ⟨M0, c1, c2, c3⟩ := C64_optimal orc hols freq L fc n g o hfc hn hg hf hfc0 r hfit
    obtain ⟨b1, b2⟩ := insertFit_moment (d := ev.extra.set "sds" (.cells L))
      (fitSds_keys orc freq L _ o r hfit).1 c1
    have hpts : ∀ p ∈ points freq L, p.1 ∈ freq ∧ Within (sqrt K) p.2 (om p.1) := by
      intro p hp
      unfold points at hp
      obtain ⟨q, hq, hp⟩ := List.mem_filterMap.1 hp
      have := List.forall₂_zip hnear hq
      rcases this with h2 | ⟨x, h2, hx⟩ <;> simp [h2] at hp
      rw [← hp]
      exact ⟨(List.of_mem_zip hq).1, hx⟩
    refine nearMoment (by positivity) hM (by rw [e _ (by decide), b1]) (by rw [e _ (by decide), b2]) ?_
    refine fit_near (by positivity) hM c2 hfc0 hpne (fun p hp => hf _ (hpts p hp).1) c3 ?_
    intro p hp
    obtain ⟨d1, d2⟩ := hpts p hp
    exact Within.trans hsK hμ (omega_pos hM hfc0 (hf _ d1)) d2 (hmod _ d1)

namespace Invert

theorem sourceFold_insert {env : Env} {cfg : InvCfg} {freq : List ℝ} {v0 : Option ℝ}
    {events : List Event} {d d' : Dict String EvRes} (hd : d.WF) (hn : (events.map getEventid).Nodup)
    (h : events.foldlM (fun d ev => do
      let e ← dictGet d (getEventid ev)
      let e ← insertSourceProperties env.orc freq e v0 (some cfg.rho0) cfg.smm cfg.smo
        (getMagnitude ev)
      return Dict.set d (getEventid ev) e) d = .ok d') :
    (∀ ev ∈ events, ∃ e e', d.get? (getEventid ev) = some e ∧ d'.get? (getEventid ev) = some e' ∧
      insertSourceProperties env.orc freq e v0 (some cfg.rho0) cfg.smm cfg.smo (getMagnitude ev) =
        .ok e') ∧
    ∀ k, k ∉ events.map getEventid → d'.get? k = d.get? k := by
  induction events generalizing d with
  | nil =>
    simp only [List.foldlM_nil, pure, Except.pure, Except.ok.injEq] at h
    subst h
    simp
  | cons ev events ih =>
    rw [List.foldlM_cons] at h
    obtain ⟨m, hm, h⟩ := bind_ok.1 h
    obtain ⟨e, he, hm⟩ := bind_ok.1 hm
    obtain ⟨e2, he2, hm⟩ := bind_ok.1 hm
    simp only [pure, Except.pure, Except.ok.injEq] at hm
    subst hm
    have he' : d.get? (getEventid ev) = some e := by
      unfold dictGet at he
      split at he
      · rename_i v hv; rw [hv]; cases he; rfl
      · simp at he
    rw [List.map_cons, List.nodup_cons] at hn
    obtain ⟨h1, h2⟩ := ih (Dict.WF_set hd _ _) hn.2 h
    constructor
    · intro ev' hev'
      rcases List.mem_cons.1 hev' with rfl | hev'
      · refine ⟨e, e2, he', ?_, he2⟩
        rw [h2 _ hn.1, Dict.get?_set_self]
      · obtain ⟨x, x', a1, a2, a3⟩ := h1 ev' hev'
        refine ⟨x, x', ?_, a2, a3⟩
        rwa [Dict.get?_set_ne] at a1
        intro e'
        exact hn.1 (e' ▸ List.mem_map.2 ⟨ev', hev', rfl⟩)
    · intro k hk
      rw [List.map_cons, List.mem_cons, not_or] at hk
      rw [h2 k hk.2, Dict.get?_set_ne _ _ (Ne.symm hk.1)]

/-- The entry of an event is its row of energies with the source properties for the velocity of the
result. -/
theorem invert_insert {env : Env} {cfg : InvCfg} {cpus : ℕ} {schedule : List ℕ} {events : List Event}
    {res : InvRes} (hn : (events.map getEventid).Nodup) (hc : cfg.codaNorm = none)
    (h : invert env cfg cpus schedule events = .ok (some res)) {ev : Event} (hev : ev ∈ events) :
    ∃ e, res.events.get? (getEventid ev) = some e ∧
      insertSourceProperties env.orc res.freq ⟨e.W, [], []⟩ res.v0 (some cfg.rho0) cfg.smm cfg.smo
        (getMagnitude ev) = .ok e := by
  unfold invert at h
  split at h
  · simp at h
  obtain ⟨bands, hb, h⟩ := bind_ok.1 h
  obtain ⟨streams, hst, h⟩ := bind_ok.1 h
  cases streams with
  | none => simp [pure, Except.pure] at h
  | some streams =>
    simp only at h
    obtain ⟨origins, ho, h⟩ := bind_ok.1 h
    obtain ⟨stations, hsta, h⟩ := bind_ok.1 h
    obtain ⟨args, hargs, h⟩ := bind_ok.1 h
    obtain ⟨rlist, hr, h⟩ := bind_ok.1 h
    unfold tables at h
    split at h
    · simp at h
    obtain ⟨err, herr, h⟩ := bind_ok.1 h
    simp only at h
    obtain ⟨evs, hevs, h⟩ := bind_ok.1 h
    simp only [pure, Except.pure, Except.ok.injEq, Option.some.injEq] at h
    subst h
    unfold eventTables at hevs
    rw [hc] at hevs
    simp only [Option.isNone_none, if_true] at hevs
    rw [sourceEvents_nodup hn, fromKeys_nodup hn] at hevs
    have hk : Dict.keys ((events.map getEventid).map (fun id =>
        (id, (⟨rowW (events.map getEventid) rlist id, [], []⟩ : EvRes)))) = events.map getEventid := by
      simp [Dict.keys, Function.comp_def]
    obtain ⟨h1, -⟩ := sourceFold_insert (by unfold Dict.WF; rw [hk]; exact hn) hn hevs
    obtain ⟨e, e', a1, a2, a3⟩ := h1 ev hev
    have h5 := Dict.mem_of_get? a1
    simp only [List.map_map, List.mem_map, Function.comp, Prod.mk.injEq] at h5
    obtain ⟨ev', hev', -, rfl⟩ := h5
    have hW := (insert_W a3).1
    refine ⟨e', a2, ?_⟩
    rw [hW]
    exact a3

end Invert

/-- **C137**: from the envelopes to magnitudes with the command `source`.  For events with source
spectra `om`, energies which are known up to a factor `k`, reference responses up to a factor `rho` and
absorption up to `β`: every reported spectral value agrees with the true one up to the root of
`K = k * rho * exp (β T)`, and the moment magnitude of an event is wrong by at most
`2/3 log10 (μ * sqrt K)`, where the spectrum agrees with the moment below the corner frequency (method
`mean`) or with the given source model (method `fit`) up to `μ`. -/
theorem C137_magnitudes {rank : List ℝ → List (List ℝ) → ℕ} {env : Env} {cfg : InvCfg} {cpus : ℕ}
    {schedule : List ℕ} {events : List Event} {bands : Dict ℝ (ℝ × ℝ)} {res : InvRes}
    {R W : ℕ → String → ℝ} {b : ℕ → ℝ} {k rho β T v : ℝ} {om : String → ℝ → ℝ}
    (hwls : IsWls rank env.wls) (hr : FullRank rank) (hG : OneValuePerTime env.G)
    (hn : (events.map getEventid).Nodup) (hb : getFreqs cfg.freqs = .ok bands)
    (hj : OwnCopies cfg bands cpus schedule) (hc : cfg.codaNorm = none) (hcmd : cfg.cmd = .source)
    (hk : 1 ≤ k) (hrho : 1 ≤ rho) (hβ : 0 ≤ β) (hR : ∀ i s, 0 < R i s) (hW : ∀ i e, 0 < W i e)
    (hx : NearData env cfg bands events R W b k rho β T)
    (h : invert env cfg cpus schedule events = .ok (some res))
    (ho : ∀ id f, 0 < om id f) (hv : 0 < v) (hrv : res.v0 = some v) (hd : 0 < cfg.rho0)
    (hf : ∀ f ∈ bands.keys, 0 < f)
    (hsrc : ∀ i f, bands.keys[i]? = some f → ∀ id, W i id = sourceEnergy (om id f) f v cfg.rho0)
    {ev : Event} (hev : ev ∈ events) {μ M : ℝ} (hμ : 0 < μ) (hM : 0 < M) :
    ∃ e L, res.events.get? (getEventid ev) = some e ∧
      e.extra.get? "sds" = some (.cells L) ∧ SamePlaces e.W L ∧
      NearCurve (sqrt (k * rho * exp (β * T))) (om (getEventid ev)) bands.keys L ∧
      (∀ o fc, cfg.smm = some .mean → cfg.smo = some o → o.fc = some fc →
        (∀ f ∈ bands.keys, f < fc → Within μ (om (getEventid ev) f) M) →
        below bands.keys e.W fc ≠ [] →
        (∀ j, o.numPoints = some j → j ≤ (below bands.keys e.W fc).length) →
        NearMoment (sqrt (k * rho * exp (β * T)) * μ) M e.extra) ∧
      (∀ o fc n g, cfg.smm = some .fit → cfg.smo = some o → o.fc = some fc → o.n = some n →
        o.gamma = some g → IsOls env.orc.ols → 0 < fc →
        (∀ f ∈ bands.keys, Within μ (om (getEventid ev) f) (omegaModel M fc n g f)) →
        points bands.keys e.W ≠ [] →
        (∀ j, o.numPoints = some j → j ≤ (points bands.keys e.W).length) →
        NearMoment (sqrt (k * rho * exp (β * T)) * μ) M e.extra) := by
  obtain ⟨e, he, hins⟩ := invert_insert hn hc h hev
  have hinv := C137_inversion hwls hr hG hn hb hj hc hcmd hk hrho hβ hR hW hx h
  obtain ⟨stations, rlist, -, T', -⟩ := tables_streams hn hb hj.1 h
  have hfreq : res.freq = bands.keys := T'.freq
  have hmem := Dict.mem_of_get? he
  have hlen : e.W.length = bands.length := by
    have := (T'.events hc).2 _ e hmem
    rw [← this.length_eq, T'.one_result_per_band]
  rw [hfreq, hrv] at hins
  have hcurve : NearCurve (k * rho * exp (β * T))
      (fun f => sourceEnergy (om (getEventid ev) f) f v cfg.rho0) bands.keys e.W := by
    unfold NearCurve
    rw [List.forall₂_iff_get]
    refine ⟨by simp [Dict.keys, hlen], ?_⟩
    intro i h1 h2
    have hi : i < bands.length := hlen ▸ h2
    have hW1 := hsrc i _ (List.getElem?_eq_getElem h1) (getEventid ev)
    simp only [List.get_eq_getElem]
    rcases hinv i hi with ⟨a, -⟩ | ⟨c, ps, -, -, a, -⟩
    · have := a _ e hmem
      rw [List.getElem?_eq_getElem h2] at this
      exact Or.inl (Option.some.inj this)
    · obtain ⟨a1, a2⟩ := a _ e hmem
      by_cases hp : ∃ p ∈ ps, p.event = getEventid ev
      · obtain ⟨w, e1, e2⟩ := a1 hp
        rw [List.getElem?_eq_getElem h2] at e1
        rw [hW1] at e2
        exact Or.inr ⟨w, Option.some.inj e1, e2⟩
      · have := a2 hp
        rw [List.getElem?_eq_getElem h2] at this
        exact Or.inl (Option.some.inj this)
  have hne : bands.keys ≠ [] := by
    intro e'
    obtain ⟨r, hr'⟩ := T'.some_result
    have h0 : bands.length = 0 := by
      have : bands.keys.length = 0 := by rw [e']; rfl
      simpa [Dict.keys] using this
    have : rlist.length = 0 := by rw [T'.one_result_per_band, h0]
    rw [List.length_eq_zero_iff.1 this] at hr'
    simp at hr'
  obtain ⟨⟨L, b1, b2, b3⟩, b4, b5⟩ := C137_source (ev := ⟨e.W, [], []⟩) (μ := μ) (M := M)
    (by positivity) hμ hM (ho _) hv hd hne hf hcurve hins
  exact ⟨e, L, he, b1, b3, b2, b4, b5⟩

namespace SourceNearExample

open JobsExample TablesExample TruthChainExample

/-- The input of the command: response 1, scattering coefficient and absorption 1. -/
noncomputable def input : FixInput := ⟨[0.25], [.num 1], [.num 1], [("A", [.num 1])]⟩

noncomputable def srcCfg : InvCfg := again cfg .source input

noncomputable def args : BandArgs :=
  { fix := true, sites := true, params := [(band, (some 1, some 1))], siteParams := [(band, [("A", 1)])] }

theorem band_args : bandArgs srcCfg bands = .ok args := by
  have h1 : fixParams bands input = .ok [(band, (some 1, some 1))] := by
    unfold fixParams
    rw [if_pos (by simp [bands, input, Dict.keys])]
    simp [input, bands, dictGet, Dict.get?, fixCell, Dict.set, bind, Except.bind, pure, Except.pure]
  have h2 : fixSites bands input = .ok [(band, [("A", 1)])] := by
    unfold fixSites
    simp [input, bands, dictGet, Dict.get?, siteEntry, Dict.set, mapExc, pyGet, Cell.val?, bind,
      Except.bind, pure, Except.pure]
  unfold bandArgs
  simp only [srcCfg, again, h1, h2, bind, Except.bind, pure, Except.pure]
  rfl

theorem result : ∃ res, invert env srcCfg 1 [] [exEvent] = .ok (some res) := by
  obtain ⟨res, h⟩ := invert_one'
  obtain ⟨fp, res', h1, h2, -, -, h5, -⟩ := C126_source_partial (cpus' := 1) (schedule' := [])
    (v0 := 1) InvertExample.rankWls_spec
    one_value set_order freqs rfl rfl (own []) (own []) (by simp [cfg, JobsExample.exCfg]) rfl
    (by
      intro streams stations hs hst s hm
      rw [result_stations] at hst
      rw [streams_one hs, List.mem_singleton] at hm
      rw [← Except.ok.inj hst, hm]
      simp [exStream])
    exact_data.pairs (fun i c ps hw hne => (exact_data.exact_windows i c ps hw hne).good) h
  obtain ⟨c, ps, hw, hne, ht⟩ := one_truth h
  obtain ⟨rfl, rfl⟩ := windows_unique hw
  obtain ⟨stations, rlist, hst, T, -⟩ := tables_streams (by simp) freqs (own []).1 h
  have hl : rlist.length = 1 := T.one_result_per_band
  obtain ⟨gs, bs, g1, g2, g3, g4⟩ := ht.attenuation rfl
  obtain ⟨Rt, r1, r2⟩ := ht.sites
  obtain ⟨gs', g1', gl⟩ := T.g0 rfl
  obtain ⟨bs', g3', bl⟩ := T.b rfl
  obtain ⟨Rt', r1', rk, rl⟩ := T.sites (by simp [cfg, JobsExample.exCfg]) rfl
  rw [g1] at g1'; rw [g3] at g3'; rw [r1] at r1'
  obtain rfl := Option.some.inj g1'
  obtain rfl := Option.some.inj g3'
  obtain rfl := Option.some.inj r1'
  have one : ∀ {l : List Cell} {x : ℝ}, l.length = 1 → l[0]? = some (.num x) → l = [.num x] := by
    intro l x h1 h2
    obtain ⟨a, rfl⟩ := List.length_eq_one_iff.1 h1
    simpa using h2
  have eg : gs = [.num 1] := one (by rw [← gl.length_eq, hl]) g2
  have eb : bs = [.num 1] := one (by rw [← bl.length_eq, hl]) g4
  rw [result_stations] at hst
  obtain rfl := Except.ok.inj hst
  have eR : Rt = [("A", [.num 1])] := by
    have hlen : Rt.length = 1 := by
      have := congrArg List.length rk
      simpa [Dict.keys] using this
    obtain ⟨⟨a, row⟩, rfl⟩ := List.length_eq_one_iff.1 hlen
    simp only [Dict.keys, List.map_cons, List.map_nil, List.cons.injEq, and_true] at rk
    subst rk
    have h0 := r2 "A" row (by simp)
    rw [if_pos ⟨pair, by simp, rfl⟩] at h0
    have hs : (1 : ℝ) / stationMean (fun _ => 5) [pair] * 5 = 1 := by
      simp [stationMean, pair]
    rw [hs] at h0
    rw [one (by rw [← (rl "A" row (by simp)).length_eq, hl]) h0]
  have hfp : fp = input := by
    unfold Spec.inputOf at h1
    rw [g1, g3, r1, eg, eb, eR, T.freq] at h1
    simpa [bands, input] using h1.symm
  subst hfp
  exact ⟨res', h2⟩

theorem energies_src :
    energies env.lib (bandWCfg srcCfg args band) [exStream 1] = .ok [exEnergy 1] := by
  have h := energies_one
  have e : Window.energyOf env.lib (bandWCfg srcCfg args band) (exStream 1) =
      Window.energyOf env.lib (bandWCfg cfg exArgs band) (exStream 1) := by
    unfold Window.energyOf
    rw [if_neg (by norm_num [bandWCfg, exStream, band]),
      if_neg (by simp [bandWCfg, args, exStream, Dict.get?]),
      if_neg (by norm_num [bandWCfg, exStream, band]), if_neg (by simp [bandWCfg, exArgs])]
    rfl
  unfold energies at h ⊢
  simp only [mapExc, e] at h ⊢
  exact h

theorem accepts_src : Accepts env.lib (bandWCfg srcCfg args band) 1 (exEnergy 1) pair := accepts

theorem accepted_src : AcceptedPairs env.lib (bandWCfg srcCfg args band) [exStream 1] 1 [pair] := by
  refine ⟨[exEnergy 1], [(exEnergy 1, pair)], energies_src, rfl, List.Sublist.refl _, ?_, ?_, rfl⟩
  · intro q hq
    obtain rfl := List.mem_singleton.1 hq
    exact accepts_src
  · intro tr h hn
    exact absurd h hn

theorem windows_src {i : ℕ} {c : InvertFb.Cfg} {ps : List PairData}
    (h : WindowsOf env srcCfg bands [exEvent] i c ps) :
    c = bandCfg srcCfg args band 1 ∧ ps = [pair] ∧ i = 0 := by
  obtain ⟨args', streams, band', v0, h1, h2, h3, h4, rfl⟩ := h
  have h5 : streams = [exStream 1] := streams_one h2
  subst h5
  rw [band_args] at h1
  have h6 : args' = args := (Except.ok.inj h1).symm
  subst h6
  have h7 : band' = band ∧ i = 0 := by
    match i with
    | 0 => exact ⟨(Option.some.inj h3).symm, rfl⟩
    | i + 1 => simp [bands] at h3
  obtain ⟨rfl, rfl⟩ := h7
  obtain ⟨rfl, rfl⟩ := acceptedPairs_unique (by simp) h4 accepted_src
  exact ⟨rfl, rfl, rfl⟩

/-- The true response is `4/5`, the true source energy `3/4`: the energies are wrong by a factor `5/4` and
the reference response, too. -/
theorem near : NearData env srcCfg bands [exEvent] (fun _ _ => 4 / 5) (fun _ _ => 3 / 4) (fun _ => 1)
    (5 / 4) (5 / 4) 0 4 := by
  constructor
  · intro streams h
    rw [streams_one h]
    simp
  · intro i c ps h hne
    obtain ⟨rfl, rfl, rfl⟩ := windows_src h
    have hfp : (bandCfg srcCfg args band 1).fixParams = (some 1, some 1) := by
      simp [bandCfg, fullCfg, args, Dict.get?]
    have hfs : (bandCfg srcCfg args band 1).fixSitesParams = [("A", 1)] := by
      simp [bandCfg, fullCfg, bandWCfg, args, Dict.get?]
    have hsam : ∀ g0 gs, (bandCfg srcCfg args band 1).fixParams.1 = some g0 →
        IsGreens env.G (bandCfg srcCfg args band 1) g0 [pair] gs →
        samplesOf (bandCfg srcCfg args band 1).bulk [pair] gs =
          [⟨"e", "A", 3, 3 / 4, exp 3, 1⟩, ⟨"e", "A", 4, 3 / 4, exp 4, 1⟩] := by
      intro g0 gs h1 h2
      rw [hfp] at h1
      obtain rfl := Option.some.inj h1
      have h3 : IsGreens env.G (bandCfg srcCfg args band 1) 1 [pair] [([exp 3, exp 4], 0)] := by
        simp [IsGreens, pair, gsmooth, smoothFunc, bandCfg, fullCfg, bandWCfg, srcCfg, again, cfg,
          JobsExample.exCfg, env]
      rw [isGreens_samples h2 h3]
      have hbulk : (bandCfg srcCfg args band 1).bulk = false := rfl
      rw [hbulk]
      simp [samplesOf, pair]
    refine ⟨⟨by simp, by simp, ?_, by norm_num [bandCfg, fullCfg, srcCfg, again, cfg, JobsExample.exCfg]⟩,
      ?_, ⟨?_, ?_, ?_, ?_⟩⟩
    · intro p hp
      obtain rfl := List.mem_singleton.1 hp
      simp [pair]
    · intro s r hs
      rw [hfs] at hs
      have := Dict.mem_of_get? hs
      simp only [List.mem_singleton, Prod.mk.injEq] at this
      rw [this.2]; norm_num
    · intro g0 gs h1 h2 s hs
      rw [hsam g0 gs h1 h2] at hs
      have key : ∀ t : ℝ, exp t * (4 / 5) * (3 / 4) * exp (-1 * t) = 3 / 5 := by
        intro t
        have : exp t * exp (-1 * t) = 1 := by rw [← exp_add]; simp
        linear_combination (3 / 5 : ℝ) * this
      simp only [List.mem_cons, List.not_mem_nil, or_false] at hs
      rcases hs with rfl | rfl <;> (simp only [predicted, key]; unfold Within; norm_num)
    · intro g0 gs h1 h2 s hs
      rw [hsam g0 gs h1 h2] at hs
      simp only [List.mem_cons, List.not_mem_nil, or_false] at hs
      rcases hs with rfl | rfl <;> norm_num
    · intro p hp r hr
      obtain rfl := List.mem_singleton.1 hp
      rw [hfs] at hr
      have := Dict.mem_of_get? hr
      simp only [List.mem_singleton, Prod.mk.injEq] at this
      rw [this.2]
      unfold Within; norm_num
    · intro b' hb'
      rw [hfp] at hb'
      obtain rfl := Option.some.inj hb'
      simp

/-- The reported source energy agrees with the true one up to a factor `25/16`. -/
example : ∃ res, invert env srcCfg 1 [] [exEvent] = .ok (some res) ∧
    ∃ e w, res.events.get? "e" = some e ∧ e.W[0]? = some (.num w) ∧ Within (25 / 16) w (3 / 4) := by
  obtain ⟨res, h⟩ := result
  refine ⟨res, h, ?_⟩
  obtain ⟨e, he, -⟩ := invert_insert (by simp) rfl h (ev := exEvent) (by simp)
  have hk := C137_inversion (cfg := srcCfg) (events := [exEvent]) InvertExample.rankWls_spec
    InvertExample.someRank_full one_value (by simp) freqs (own []) rfl rfl
    (by norm_num) (by norm_num) le_rfl (fun _ _ => by norm_num) (fun _ _ => by norm_num)
    (R := fun _ _ => 4 / 5) (W := fun _ _ => 3 / 4) near h 0 (by simp [bands])
  have hwin : WindowsOf env srcCfg bands [exEvent] 0 (bandCfg srcCfg args band 1) [pair] :=
    ⟨args, [exStream 1], band, 1, band_args, ⟨_, _, exSelect, rfl, rfl⟩, rfl, accepted_src, rfl⟩
  rcases hk with ⟨-, -, hno | ⟨c, ps, hw, -, hun⟩⟩ | ⟨c, ps, hw, -, ha, -⟩
  · rcases hno _ _ hwin with h | h
    · simp at h
    · norm_num [srcCfg, again, cfg, JobsExample.exCfg] at h
  · obtain ⟨rfl, rfl, -⟩ := windows_src hw
    have hfp : (bandCfg srcCfg args band 1).fixParams = (some 1, some 1) := by
      simp [bandCfg, fullCfg, args, Dict.get?]
    unfold Unusable at hun
    rw [hfp] at hun
    simp [bandCfg, fullCfg, srcCfg, again, cfg, JobsExample.exCfg] at hun
  · obtain ⟨rfl, rfl, -⟩ := windows_src hw
    rw [exId] at he
    obtain ⟨w, h1, h2⟩ := (ha "e" e (Dict.mem_of_get? he)).1 ⟨pair, by simp, rfl⟩
    refine ⟨e, w, he, h1, ?_⟩
    have : (5 / 4 : ℝ) * (5 / 4) * exp (0 * 4) = 25 / 16 := by norm_num
    rwa [this] at h2


theorem velocity_one {res : InvRes} (h : invert env srcCfg 1 [] [exEvent] = .ok (some res)) :
    res.v0 = some 1 := by
  obtain ⟨stations, rlist, -, T, a, selected, origins, streams, h3, h4, h5, h6, h7⟩ :=
    tables_streams (env := env) (cfg := srcCfg) (events := [exEvent]) (bands := bands) (cpus := 1)
      (schedule := []) (by simp) freqs (fun hne => absurd rfl hne) h
  have hstr : StreamsOf env srcCfg [exEvent] streams := ⟨selected, origins, h4, h5, h6⟩
  have hown : OwnCopies srcCfg bands 1 [] := own []
  have hrun := mapExc_ok.1 (hown.run h7)
  obtain ⟨bef, r, aft, e, -, hv⟩ := T.v0
  rw [hv]
  obtain ⟨o, ho, hband⟩ := forall₂_getElem? hrun (i := 0) (x := band) rfl
  have hl : rlist.length = 1 := T.one_result_per_band
  obtain ⟨o', rfl⟩ := List.length_eq_one_iff.1 hl
  have : some r ∈ [o'] := by rw [e]; simp
  obtain rfl := List.mem_singleton.1 this
  obtain rfl : o = some r := by simpa using ho.symm
  have hcall := runBand_call h3 hband
  rcases invertFb_outcome (near.pairs _ hstr) hcall with ⟨hnone, -⟩ | ⟨v0, ps, hps, -, hsol⟩
  · simp at hnone
  · have e1 : a = args := (Except.ok.inj (band_args.symm.trans h3)).symm
    have e2 : streams = [exStream 1] := streams_one hstr
    subst e1 e2
    obtain ⟨rfl, -⟩ := acceptedPairs_unique (by simp) hps accepted_src
    obtain ⟨of, hb, h2⟩ := bind_ok.1 hsol
    rcases of with _ | f
    · simp [pure, Except.pure] at h2
    · obtain ⟨-, -, -, -, -, -, -, hv0⟩ := report_some (Except.ok.inj h2)
      rw [hv0]
      rfl

/-- The inversion and its spectrum: the true spectrum has the energy `3/4`, the reported value agrees with
it up to a factor `5/4`. -/
example : ∃ res om, invert env srcCfg 1 [] [exEvent] = .ok (some res) ∧
    sourceEnergy om 0.25 1 1 = 3 / 4 ∧ ∃ e L, res.events.get? "e" = some e ∧
      e.extra.get? "sds" = some (.cells L) ∧ NearCurve (5 / 4) (fun _ => om) [0.25] L := by
  obtain ⟨res, h⟩ := result
  have hpi := pi_pos
  have hom : sourceEnergy (sqrt (30 / π)) 0.25 1 1 = 3 / 4 := by
    unfold sourceEnergy
    rw [sq_sqrt (by positivity)]
    field_simp
    norm_num
  obtain ⟨e, L, h1, h2, -, h3, -⟩ := C137_magnitudes (cfg := srcCfg) (events := [exEvent])
    InvertExample.rankWls_spec InvertExample.someRank_full one_value (by simp) freqs (own []) rfl rfl
    (by norm_num) (by norm_num) le_rfl (fun _ _ => by norm_num) (fun _ _ => by norm_num)
    (R := fun _ _ => 4 / 5) (W := fun _ _ => 3 / 4) near h (v := 1) (om := fun _ _ => sqrt (30 / π))
    (fun _ _ => sqrt_pos.2 (by positivity)) (by norm_num) (velocity_one h)
    (by norm_num [srcCfg, again, cfg, JobsExample.exCfg])
    (by intro f hf
        simp only [bands, Dict.keys, List.map_cons, List.map_nil, List.mem_singleton] at hf
        rw [hf]; norm_num)
    (by
      intro i f hi id
      have : f ∈ bands.keys := List.mem_of_getElem? hi
      simp only [bands, Dict.keys, List.map_cons, List.map_nil, List.mem_singleton] at this
      rw [this]
      exact hom.symm)
    (ev := exEvent) (by simp) (μ := 1) (M := 1) (by norm_num) (by norm_num)
  refine ⟨res, _, h, hom, e, L, h1, h2, ?_⟩
  have : sqrt ((5 / 4 : ℝ) * (5 / 4) * exp (0 * 4)) = 5 / 4 := by
    rw [zero_mul, exp_zero, mul_one, sqrt_mul_self (by norm_num)]
  rw [this] at h3
  exact h3

end SourceNearExample

/-- The method mean: two bands, one without a value, an energy which is too large by a factor `1.21`, and a
spectrum which is constant below the corner frequency. -/
example (orc : Oracle) : ∃ ev', insertSourceProperties orc [1, 2]
      ⟨[.num (1.21 * sourceEnergy 3 1 1 1), .none], [], []⟩ (some 1) (some 1) (some .mean)
      (some { fc := some 4 }) none = .ok ev' ∧ NearMoment 1.1 3 ev'.extra := by
  have hpi := pi_pos
  have hW : NearCurve 1.21 (fun f => sourceEnergy 3 f 1 1) [1, 2]
      [.num (1.21 * sourceEnergy 3 1 1 1), .none] := by
    refine .cons (Or.inr ⟨_, rfl, ?_⟩) (.cons (Or.inl rfl) .nil)
    have : 0 < sourceEnergy 3 1 1 1 := by unfold sourceEnergy; positivity
    unfold Within
    constructor
    · rw [div_le_iff₀ (by norm_num)]; linarith
    · exact le_rfl
  have hex : ∃ ev', insertSourceProperties orc [1, 2]
      ⟨[.num (1.21 * sourceEnergy 3 1 1 1), .none], [], []⟩ (some 1) (some 1) (some .mean)
      (some { fc := some 4 }) none = .ok ev' := by
    obtain ⟨L, hL, hnear, hsame⟩ := spectrum_near (K := 1.21) (om := fun _ => 3) (by norm_num)
      (fun _ => by norm_num) (by norm_num : (0:ℝ) < 1) (by norm_num : (0:ℝ) < 1) (by simp) hW
    have hpos : ∀ c ∈ L, c = .none ∨ ∃ x, 0 < x ∧ c = .num x := by
      intro c hc
      obtain ⟨i, hi⟩ := List.mem_iff_getElem?.1 hc
      obtain ⟨f, -, hfc⟩ := forall₂_getElem? (List.Forall₂.flip hnear) hi
      rcases hfc with h | ⟨x, rfl, h⟩
      · exact Or.inl h
      · exact Or.inr ⟨x, lt_of_lt_of_le (by positivity) h.1, rfl⟩
    have hfit : ∃ fit, fitSds orc [1, 2] L .mean { fc := some 4 } = .ok fit := by
      by_cases hb : below [1, 2] L 4 = []
      · exact ⟨_, (C63_mean orc [1, 2] L { fc := some 4 } 4 rfl hpos).1 (Or.inl hb)⟩
      · obtain ⟨r, hr, -⟩ := (C63_mean orc [1, 2] L { fc := some 4 } 4 rfl hpos).2 hb (by simp)
        exact ⟨_, hr⟩
    obtain ⟨fit, hfit⟩ := hfit
    unfold insertSourceProperties
    refine ⟨_, bind_ok.2 ⟨_, hL, bind_ok.2 ⟨fit, ?_, rfl⟩⟩⟩
    simpa [sdsStart, truthy] using hfit
  obtain ⟨ev', h⟩ := hex
  refine ⟨ev', h, ?_⟩
  have := (C137_source (μ := 1) (M := 3) (om := fun _ => 3) (K := 1.21) (by norm_num) (by norm_num) (by norm_num)
    (fun _ => by norm_num) (by norm_num) (by norm_num) (by simp) (by simp) hW h).2.1 _ 4 rfl rfl rfl
    (fun f _ _ => by unfold Within; norm_num) (by simp [below]) (by simp)
  have e : sqrt 1.21 * 1 = (1.1 : ℝ) := by
    rw [mul_one, show (1.21 : ℝ) = 1.1 * 1.1 by norm_num, sqrt_mul_self (by norm_num)]
  rwa [e] at this

end Qopen
