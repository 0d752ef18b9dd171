import Verif.Props.FigureFits
import Verif.Props.Imaging

/-!
# Figure of the linear regression (plot_lstsq): C82
-/

namespace Qopen

open Real Util Tr InvertFb FigBand Spec Imaging

variable {G : Greens} {cfg : Cfg} {ps : List PairData} {gs : List (List ℝ × ℝ)} {g0 : ℝ}

namespace FigBand

theorem plottedLine_e (w b t : ℝ) : plottedLine w b t (exp 1) = log w - b * t := by
  unfold plottedLine; rw [log_exp, div_one]

theorem dedup_append_last {α : Type} [DecidableEq α] (l : List α) (a : α) :
    (l ++ [a]).dedup.getLast? = some a := by
  induction l with
  | nil => simp
  | cons x l ih =>
    rw [List.cons_append]
    by_cases h : x ∈ l ++ [a]
    · rw [List.dedup_cons_of_mem h, ih]
    · rw [List.dedup_cons_of_notMem h, List.getLast?_cons, ih]; rfl

theorem fromKeys_zero {α : Type} [DecidableEq α] (a : α) (l : List α) :
    (fromKeys (a :: l))[0]? = some a := by
  unfold fromKeys
  rw [← List.head?_eq_getElem?, List.head?_reverse, List.reverse_cons, dedup_append_last]

/-- Energy of the first event. -/
theorem first_energy (bulk : Bool) {f : Fit} (hps : ps ≠ [])
    (hW : f.W.length = (eventids (bandOf bulk ps)).length) :
    f.W[0]? = some (valueOf ((eventids (bandOf bulk ps)).zip f.W) (ps.head hps).event) := by
  have h0 : (eventids (bandOf bulk ps))[0]? = some (ps.head hps).event := by
    cases ps with
    | nil => exact absurd rfl hps
    | cons p l => exact fromKeys_zero _ _
  obtain ⟨hl, h0⟩ := List.getElem?_eq_some_iff.1 h0
  have hi : (eventids (bandOf bulk ps)).idxOf (ps.head hps).event = 0 := by
    have := (fromKeys_nodup ((bandOf bulk ps).pairs.map Prod.fst)).idxOf_getElem 0 hl
    rw [← h0]; exact this
  unfold valueOf
  rw [get?_zip _ _ _ hW, hi, List.getElem?_eq_getElem (by omega)]
  rfl

/-- The factors of a pair are those of station and event. -/
theorem factors_eq {bulk : Bool} {f : Fit} (hps : ps ≠ [])
    (hR : f.R.length = (stations (bandOf bulk ps)).length)
    (hW : f.W.length = (eventids (bandOf bulk ps)).length) {p : PairData} (hp : p ∈ ps) :
    factors (ps.map PairData.pair) f p.pair = .ok
      (valueOf ((stations (bandOf bulk ps)).zip f.R) p.station,
        valueOf ((eventids (bandOf bulk ps)).zip f.W) p.event,
        valueOf ((eventids (bandOf bulk ps)).zip f.W) (ps.head hps).event) := by
  have h1 : (stations (bandOf bulk ps)).idxOf p.station < (stations (bandOf bulk ps)).length :=
    List.idxOf_lt_length_iff.2 (mem_stations.2 ⟨p, hp, rfl⟩)
  have h2 : (eventids (bandOf bulk ps)).idxOf p.event < (eventids (bandOf bulk ps)).length :=
    List.idxOf_lt_length_iff.2 (mem_eventids.2 ⟨p, hp, rfl⟩)
  have e1 : valueOf ((stations (bandOf bulk ps)).zip f.R) p.station =
      f.R[(stations (bandOf bulk ps)).idxOf p.station] := by
    unfold valueOf
    rw [get?_zip _ _ _ hR, List.getElem?_eq_getElem (by omega)]; rfl
  have e2 : valueOf ((eventids (bandOf bulk ps)).zip f.W) p.event =
      f.W[(eventids (bandOf bulk ps)).idxOf p.event] := by
    unfold valueOf
    rw [get?_zip _ _ _ hW, List.getElem?_eq_getElem (by omega)]; rfl
  refine bind_ok.2 ⟨_, pyGet_ok.2 ?_, bind_ok.2 ⟨_, pyGet_ok.2 ?_, bind_ok.2 ⟨_, pyGet_ok.2
    (first_energy bulk hps hW), rfl⟩⟩⟩
  · rw [e1]; exact List.getElem?_eq_getElem (by rw [hR]; exact h1)
  · rw [e2]; exact List.getElem?_eq_getElem (by rw [hW]; exact h2)

/-- Value drawn for a sample. -/
noncomputable def drawn (R W : Dict String ℝ) (w0 : ℝ) (s : Sample) : ℝ × ℝ :=
  (s.t, plottedSample s.E s.G (valueOf R s.station) (valueOf W s.event) w0 (exp 1))

theorem drawn_residual {R W : Dict String ℝ} {w0 b : ℝ} {s : Sample} (hE : 0 < s.E) (hG : 0 < s.G)
    (hR : 0 < valueOf R s.station) (hW : 0 < valueOf W s.event) (h0 : 0 < w0) :
    drawn R W w0 s = (s.t, log w0 - b * s.t +
      (log s.E - log (predicted (valueOf R) (valueOf W) b s))) := by
  have := C82_residual s.E s.G _ _ w0 b s.t (exp 1) hE hG hR hW h0
  rw [plottedLine_e, log_exp, div_one] at this
  have hm : modelled (valueOf R s.station) (valueOf W s.event) s.G b s.t =
      predicted (valueOf R) (valueOf W) b s := by
    unfold modelled predicted; ring
  rw [hm, log_div hE.ne' (by unfold predicted; positivity)] at this
  unfold drawn
  rw [← this]
  congr 1
  ring

theorem linspace_head (a c : ℝ) (q : ℝ) (h : (linspace a c 100).head? = some q) : q = a := by
  unfold linspace at h
  rw [List.head?_map, List.head?_range] at h
  simpa using h.symm

theorem linspace_last (a c : ℝ) (q : ℝ) (h : (linspace a c 100).getLast? = some q) : q = c := by
  unfold linspace at h
  rw [List.getLast?_map, List.getLast?_range] at h
  norm_num at h
  rw [← h]; ring

end FigBand

open FigBand

/-- **C82**: the figure of the linear regression can always be drawn and shows exactly the data of the
inversion: the vertical distance of each drawn sample from the line `ln W - b t` (energy of the first
event) is the logarithmic misfit `ln E_obs - ln E_mod` of this sample.  The line starts at or before
all samples and ends at the right end of the axis, which is not before the end of any coda window. -/
theorem C82_regression_figure (hnd : (ps.map PairData.pair).Nodup) (hne : ∀ p ∈ ps, p.coda ≠ [])
    (hps : ps ≠ []) (hsort : ∀ p ∈ ps, (p.coda.map Prod.fst).Pairwise (· ≤ ·))
    (hg : IsGreens G cfg g0 ps gs) (hpos : ∀ s ∈ samplesOf cfg.bulk ps gs, 0 < s.E ∧ 0 < s.G)
    {f : Fit} (hlR : f.R.length = (stations (bandOf cfg.bulk ps)).length)
    (hlW : f.W.length = (eventids (bandOf cfg.bulk ps)).length)
    {R W : Dict String ℝ} (hR : R = (stations (bandOf cfg.bulk ps)).zip f.R)
    (hW : W = (eventids (bandOf cfg.bulk ps)).zip f.W)
    (hpR : ∀ p ∈ ps, 0 < valueOf R p.station) (hpW : ∀ p ∈ ps, 0 < valueOf W p.event)
    {info : Info} (hi : infoOf G cfg (bandOf cfg.bulk ps) g0 = .ok info) :
    ∃ fig, plotLstsq (ps.map PairData.pair) f info = .ok fig ∧
      fig.coda.flatten ++ fig.bulk = (samplesOf cfg.bulk ps gs).map (fun s =>
        (s.t, log (valueOf W (ps.head hps).event) - f.b * s.t +
          (log s.E - log (predicted (valueOf R) (valueOf W) f.b s)))) ∧
      fig.line.length = 100 ∧
      (∀ q ∈ fig.line, q.2 = log (valueOf W (ps.head hps).event) - f.b * q.1) ∧
      (∀ s ∈ samplesOf cfg.bulk ps gs, ∀ q, fig.line.head? = some q → q.1 ≤ s.t) ∧
      (∀ q, fig.line.getLast? = some q → q.1 = fig.right) ∧
      (∀ p ∈ ps, ∀ q ∈ p.coda, q.1 ≤ fig.right) := by
  rw [infoOf_eq hnd hne hg, Except.ok.injEq] at hi
  have hl := isGreens_len hg
  have hgl := hl.length_eq
  have hfirst : mapExc (fun l : List ℝ => pyGet l 0) info.tcoda =
      .ok (info.tcoda.map (fun l => l.headD 0)) := by
    rw [mapExc_ok, List.forall₂_map_right_iff, List.forall₂_same]
    intro l hlm
    rw [← hi] at hlm
    obtain ⟨p, hp, rfl⟩ := List.mem_map.1 hlm
    rw [pyGet_ok]
    have := hne p hp
    cases hc : p.coda with
    | nil => exact absurd hc this
    | cons a l => simp
  have hlast : mapExc (fun l : List ℝ => pyGet l (l.length - 1)) info.tcoda =
      .ok (info.tcoda.map (fun l => l.getLastD 0)) := by
    rw [mapExc_ok, List.forall₂_map_right_iff, List.forall₂_same]
    intro l hlm
    rw [← hi] at hlm
    obtain ⟨p, hp, rfl⟩ := List.mem_map.1 hlm
    rw [pyGet_ok, ← List.getLast?_eq_getElem?]
    have hn : p.coda.map Prod.fst ≠ [] := by
      rw [Ne, List.map_eq_nil_iff]; exact hne p hp
    rw [List.getLastD_eq_getLast?, List.getLast?_eq_some_getLast hn]; rfl
  have htn : info.tcoda ≠ [] := by
    rw [← hi, Ne, List.map_eq_nil_iff]; exact hps
  obtain ⟨tmin, htmin⟩ : ∃ m, minOf (info.tcoda.map (fun l => l.headD 0)) = .ok m := by
    cases h : info.tcoda with
    | nil => exact absurd h htn
    | cons a l => exact ⟨_, rfl⟩
  obtain ⟨tmax, htmax⟩ : ∃ m, maxOf (info.tcoda.map (fun l => l.getLastD 0)) = .ok m := by
    cases h : info.tcoda with
    | nil => exact absurd h htn
    | cons a l => exact ⟨_, rfl⟩
  have hw0 := first_energy cfg.bulk hps hlW
  rw [← hW] at hw0
  have hcoda : mapExc (lstsqCoda (ps.map PairData.pair) f info) (List.range info.tcoda.length) =
      .ok ((ps.zip gs).map (fun q => List.zipWith (fun te g =>
        drawn R W (valueOf W (ps.head hps).event) ⟨q.1.event, q.1.station, te.1, te.2, g, 1⟩)
          q.1.coda q.2.1)) := by
    rw [mapExc_ok, List.forall₂_iff_get]
    have hil : info.tcoda.length = ps.length := by rw [← hi]; simp
    refine ⟨by simp [hil, hgl], ?_⟩
    intro i i1 i2
    have hip : i < ps.length := by simpa [hil] using i1
    have hig : i < gs.length := by omega
    have hgi := List.Forall₂.get hl hip hig
    simp only [List.get_eq_getElem, List.getElem_range, List.getElem_map, List.getElem_zip] at hgi ⊢
    refine bind_ok.2 ⟨ps[i].pair, by rw [pyGet_ok]; simp [hip], bind_ok.2 ⟨_,
      factors_eq hps hlR hlW (List.getElem_mem hip), bind_ok.2 ⟨ps[i].coda.map Prod.fst, ?_, bind_ok.2
      ⟨ps[i].coda.map Prod.snd, ?_, bind_ok.2 ⟨gs[i].1, ?_, ?_⟩⟩⟩⟩⟩
    · rw [pyGet_ok, ← hi]; simp [hip]
    · rw [pyGet_ok, ← hi]; simp [hip]
    · rw [pyGet_ok, ← hi]; simp [hig]
    · simp only [pure, Except.pure, Except.ok.injEq]
      apply List.ext_getElem
      · simp [hgi]
      · intro j j1 j2
        simp [drawn, hR, hW]
  have hbulk : mapExc (lstsqBulk (ps.map PairData.pair) f info) (List.range info.tbulk.length) =
      .ok (if cfg.bulk then (ps.zip gs).map (fun q =>
        drawn R W (valueOf W (ps.head hps).event)
          ⟨q.1.event, q.1.station, q.1.bulkTime, q.1.bulkEnergy, q.2.2, q.1.bulkWeight⟩) else []) := by
    cases hb : cfg.bulk with
    | false => rw [← hi, hb]; rfl
    | true =>
      rw [if_pos rfl, mapExc_ok, List.forall₂_iff_get]
      have hil : info.tbulk.length = ps.length := by rw [← hi, hb]; simp
      refine ⟨by simp [hil, hgl], ?_⟩
      intro i i1 i2
      have hip : i < ps.length := by simpa [hil] using i1
      have hig : i < gs.length := by omega
      simp only [List.get_eq_getElem, List.getElem_range, List.getElem_map, List.getElem_zip]
      refine bind_ok.2 ⟨ps[i].pair, by rw [pyGet_ok]; simp [hip], bind_ok.2 ⟨_,
        factors_eq hps hlR hlW (List.getElem_mem hip), bind_ok.2 ⟨ps[i].bulkTime, ?_, bind_ok.2
        ⟨ps[i].bulkEnergy, ?_, bind_ok.2 ⟨gs[i].2, ?_, ?_⟩⟩⟩⟩⟩
      · rw [pyGet_ok, ← hi, hb]; simp [hip]
      · rw [pyGet_ok, ← hi, hb]; simp [hip]
      · rw [pyGet_ok, ← hi, hb]; simp [hig]
      · simp only [pure, Except.pure, Except.ok.injEq, drawn, hR, hW]
  have hhead : ∀ p ∈ ps, ∀ q ∈ p.coda, (p.coda.map Prod.fst).headD 0 ≤ q.1 ∧
      q.1 ≤ (p.coda.map Prod.fst).getLastD 0 := by
    intro p hp q hq
    have hs := hsort p hp
    have hm : q.1 ∈ p.coda.map Prod.fst := List.mem_map_of_mem (f := Prod.fst) hq
    generalize p.coda.map Prod.fst = l at hs hm
    constructor
    · cases l with
      | nil => simp at hm
      | cons a l =>
        rcases List.mem_cons.1 hm with h | h
        · simp [h]
        · exact List.rel_of_pairwise_cons hs h
    · have hn : l ≠ [] := List.ne_nil_of_mem hm
      rw [List.getLastD_eq_getLast?, List.getLast?_eq_some_getLast hn]
      simp only [Option.getD_some]
      obtain ⟨j, hj, e⟩ := List.mem_iff_getElem.1 hm
      rw [← e, List.getLast_eq_getElem]
      rcases Nat.lt_or_ge j (l.length - 1) with h | h
      · exact List.pairwise_iff_getElem.1 hs _ _ _ _ h
      · have : j = l.length - 1 := by omega
        subst this; exact le_rfl
  refine ⟨_, bind_ok.2 ⟨_, hfirst, bind_ok.2 ⟨_, hlast, bind_ok.2 ⟨_, htmin, bind_ok.2 ⟨_, htmax,
    bind_ok.2 ⟨_, hcoda, bind_ok.2 ⟨_, hbulk, bind_ok.2 ⟨_, pyGet_ok.2 hw0, rfl⟩⟩⟩⟩⟩⟩⟩,
    ?_, ?_, ?_, ?_, ?_, ?_⟩
  · rw [← List.flatMap_def, ← map_samplesOf hl]
    refine List.map_congr_left ?_
    intro s hs
    obtain ⟨p, hp, e1, e2⟩ := mem_samplesOf hl hs
    refine drawn_residual (hpos s hs).1 (hpos s hs).2 ?_ ?_ ?_
    · rw [← e2]; exact hpR p hp
    · rw [← e1]; exact hpW p hp
    · exact hpW _ (List.head_mem hps)
  · simp [linspace]
  · intro q hq
    obtain ⟨t, ht, rfl⟩ := List.mem_map.1 hq
    exact plottedLine_e _ _ _
  · intro s hs q hq
    rw [List.head?_map] at hq
    cases hh : (linspace (info.tbulk.foldl min tmin) tmax 100).head? with
    | none => rw [hh] at hq; simp at hq
    | some q0 =>
      rw [hh] at hq
      simp only [Option.map_some, Option.some.injEq] at hq
      rw [← hq, linspace_head _ _ _ hh]
      have hfm := foldl_min_le info.tbulk tmin
      have : s.t ∈ (samplesOf cfg.bulk ps gs).map Sample.t := List.mem_map_of_mem hs
      rw [map_samplesOf hl] at this
      rcases List.mem_append.1 this with h | h
      · rw [zip_flatMap_fst hl (fun _ te => te.1)] at h
        obtain ⟨p, hp, h⟩ := List.mem_flatMap.1 h
        obtain ⟨te, hte, e⟩ := List.mem_map.1 h
        rw [← e]
        refine le_trans hfm.1 (le_trans (minOf_le htmin _ ?_) (hhead p hp te hte).1)
        rw [← hi]
        exact List.mem_map_of_mem (f := fun l : List ℝ => l.headD 0)
          (List.mem_map_of_mem (f := fun p : PairData => p.coda.map Prod.fst) hp)
      · cases hb : cfg.bulk with
        | false => rw [hb] at h; simp at h
        | true =>
          rw [hb] at h
          simp only [if_true] at h
          obtain ⟨q', hq', e⟩ := List.mem_map.1 h
          rw [← e]
          refine hfm.2 _ ?_
          rw [← hi, hb]
          exact List.mem_map_of_mem (List.of_mem_zip hq').1
  · intro q hq
    rw [List.getLast?_map] at hq
    cases hh : (linspace (info.tbulk.foldl min tmin) tmax 100).getLast? with
    | none => rw [hh] at hq; simp at hq
    | some q0 =>
      rw [hh] at hq
      simp only [Option.map_some, Option.some.injEq] at hq
      rw [← hq, linspace_last _ _ _ hh]
  · intro p hp q hq
    refine le_trans (hhead p hp q hq).2 (maxOf_ge htmax _ ?_)
    rw [← hi]
    exact List.mem_map_of_mem (f := fun l : List ℝ => l.getLastD 0)
      (List.mem_map_of_mem (f := fun p : PairData => p.coda.map Prod.fst) hp)

open InvertExample FitsExample in
/-- The regression of the example: all samples are drawn on the line, because the fit is exact. -/
example : ∃ fig, plotLstsq (ps1.map PairData.pair) ⟨0, 1, 1, [1, 3], [2, 1 / 2]⟩
      ⟨ps1.map (fun p => p.coda.map Prod.fst), [], ps1.map (fun p => p.coda.map Prod.snd), [],
        [[1, 1], [1, 1], [1, 1]], []⟩ = .ok fig ∧
    fig.coda.flatten ++ fig.bulk = [(1, -1), (2, -2), (1, -1), (2, -2), (1, -1), (2, -2)] := by
  have hs : stations (bandOf cfg1.bulk ps1) = ["A", "B"] := by
    simp [stations, ps1, pair1, bandOf, fromKeys, PairData.pair]
  have he : eventids (bandOf cfg1.bulk ps1) = ["e1", "e2"] := by
    simp [eventids, ps1, pair1, bandOf, fromKeys, PairData.pair]
  have hi := infoOf_eq good1.pairs ps1_ne greens1
  have hi' : infoOf G1 cfg1 (bandOf cfg1.bulk ps1) 1 = .ok
      ⟨ps1.map (fun p => p.coda.map Prod.fst), [], ps1.map (fun p => p.coda.map Prod.snd), [],
        [[1, 1], [1, 1], [1, 1]], []⟩ := by
    rw [hi]; simp [cfg1]
  obtain ⟨fig, h1, h2, -⟩ := C82_regression_figure (f := ⟨0, 1, 1, [1, 3], [2, 1 / 2]⟩)
    (R := [("A", 2), ("B", 1 / 2)]) (W := [("e1", 1), ("e2", 3)]) good1.pairs ps1_ne
    good1.some_pair (by
      intro p hp
      simp only [ps1, List.mem_cons, List.not_mem_nil, or_false] at hp
      rcases hp with rfl | rfl | rfl <;> simp [pair1])
    greens1 (by
      intro s hs
      have hR := R1_pos
      have hW := W1_pos
      simp only [samplesOf, ps1, pair1, cfg1] at hs
      simp at hs
      rcases hs with rfl | rfl | rfl | rfl | rfl | rfl <;>
        exact ⟨mul_pos (mul_pos (hR _) (hW _)) (exp_pos _), one_pos⟩)
    (by rw [hs]; rfl) (by rw [he]; rfl) (by rw [hs]; rfl) (by rw [he]; rfl)
    (by
      intro p hp
      simp only [ps1, List.mem_cons, List.not_mem_nil, or_false] at hp
      rcases hp with rfl | rfl | rfl <;> simp [pair1, valueOf, Dict.get?_cons])
    (by
      intro p hp
      simp only [ps1, List.mem_cons, List.not_mem_nil, or_false] at hp
      rcases hp with rfl | rfl | rfl <;> simp [pair1, valueOf, Dict.get?_cons]) hi'
  refine ⟨fig, h1, ?_⟩
  rw [h2]
  simp [samplesOf, ps1, pair1, cfg1, predicted, valueOf, Dict.get?_cons, R1, W1]

end Qopen
