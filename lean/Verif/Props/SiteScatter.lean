import Verif.Model.SiteScatter
import Verif.Props.SiteTotal
import Verif.Props.SitePin
import Verif.Props.StatValue

/-!
# Scatter of site responses before and after alignment (C121)
-/

namespace Qopen

open Real Site Source Util Spec

/-- Standard deviation of the logarithmic responses of a station in band `i`. -/
noncomputable def Spec.spread (events : Dict String EvRes) (i : ℕ) (s : String) : ℝ :=
  Spec.stdDev ((series events i s).map log) 0

namespace Site

theorem values_series (events : Dict String EvRes) (i : ℕ) (s : String) :
    (stationValues events i s).filterMap id = series events i s := by
  unfold stationValues stationRows series respOf
  rw [List.filterMap_map, List.filterMap_filterMap]
  refine List.filterMap_congr ?_
  intro e _
  cases e.2.R.get? s with
  | none => rfl
  | some l =>
    simp only [Option.bind_some, Function.comp, id, cellAt, numAt, List.getD_eq_getElem?_getD]
    cases l[i]? with
    | none => rfl
    | some c => cases c <;> rfl

theorem nanstdLog_values (events : Dict String EvRes) (i : ℕ) (s : String) :
    nanstdLog (stationValues events i s) =
      if series events i s = [] then none else some (Spec.spread events i s) := by
  unfold nanstdLog
  rw [values_series]
  by_cases h : series events i s = []
  · simp [h]
  · rw [if_neg h, if_neg (by simpa using h)]
    simp only [Spec.spread, Spec.stdDev, Spec.avg, Nat.cast_zero, sub_zero]

theorem series_ne_nil {events : Dict String EvRes} {i : ℕ} {s : String} :
    series events i s ≠ [] ↔ s ∈ stationsWith events i := by
  rw [mem_stationsWith]
  unfold series
  rw [ne_eq, List.filterMap_eq_nil_iff]
  push Not
  constructor
  · rintro ⟨e, he, h⟩
    exact ⟨e, he, Option.isSome_iff_ne_none.2 h⟩
  · rintro ⟨e, he, h⟩
    exact ⟨e, he, Option.isSome_iff_ne_none.1 h⟩

open Classical in
/-- The reported scatter is the mean of the standard deviations of the stations with data. -/
theorem rstd_values {events : Dict String EvRes} {i : ℕ} {l : List String} (hl : l.Nodup)
    {st : Finset String} (hst : ∀ s, s ∈ st ↔ s ∈ l ∧ s ∈ stationsWith events i) :
    rstd (l.map (stationValues events i)) =
      if st = ∅ then none else some ((∑ s ∈ st, Spec.spread events i s) / st.card) := by
  have h1 : (l.map (stationValues events i)).filterMap nanstdLog =
      (l.filter (fun s => decide (s ∈ stationsWith events i))).map (Spec.spread events i) := by
    rw [List.filterMap_map]
    clear hl hst
    induction l with
    | nil => rfl
    | cons a l ih =>
      by_cases h : a ∈ stationsWith events i
      · rw [List.filterMap_cons_some (f := nanstdLog ∘ stationValues events i)
          (b := Spec.spread events i a), ih, List.filter_cons_of_pos (by simpa using h)]
        · rfl
        · simp only [Function.comp, nanstdLog_values, if_neg (series_ne_nil.2 h)]
      · rw [List.filterMap_cons_none (f := nanstdLog ∘ stationValues events i), ih,
          List.filter_cons_of_neg (by simpa using h)]
        simp only [Function.comp, nanstdLog_values]
        rw [if_pos]
        by_contra hc
        exact h (series_ne_nil.1 hc)
  have h2 : (l.filter (fun s => decide (s ∈ stationsWith events i))).toFinset = st := by
    ext s
    simp [hst]
  have hn : (l.filter (fun s => decide (s ∈ stationsWith events i))).Nodup := hl.filter _
  unfold rstd
  simp only [h1, List.length_map]
  rw [← h2, List.toFinset_card_of_nodup hn, List.sum_toFinset _ hn]
  by_cases h : l.filter (fun s => decide (s ∈ stationsWith events i)) = []
  · simp [h]
  · rw [if_neg (by simpa using h), if_neg]
    intro hc
    apply h
    rwa [List.toFinset_eq_empty_iff] at hc

end Site

namespace Site

/-- Standard deviation of two numbers. -/
theorem stdDev_pair (a b : ℝ) : Spec.stdDev [a, b] 0 = |a - b| / 2 := by
  unfold Spec.stdDev Spec.avg
  simp only [List.map_cons, List.map_nil, List.sum_cons, List.sum_nil, List.length_cons,
    List.length_nil, Nat.cast_zero, sub_zero, add_zero, zero_add]
  have : ((a - (a + b) / ((1 + 1 : ℕ) : ℝ)) ^ 2 + (b - (a + b) / ((1 + 1 : ℕ) : ℝ)) ^ 2) /
      ((1 + 1 : ℕ) : ℝ) = ((a - b) / 2) ^ 2 := by
    push_cast
    ring
  rw [this, sqrt_sq_eq_abs, abs_div, abs_two]

theorem stdDev_sq (l : List ℝ) : Spec.stdDev l 0 ^ 2 =
    (l.map (fun x => (x - Spec.avg l) ^ 2)).sum / l.length := by
  unfold Spec.stdDev
  rw [Nat.cast_zero, sub_zero, sq_sqrt]
  refine div_nonneg (List.sum_nonneg ?_) (Nat.cast_nonneg _)
  intro x hx
  obtain ⟨y, _, rfl⟩ := List.mem_map.1 hx
  exact sq_nonneg _

/-- Variance of at most two numbers. -/
theorem stdDev_short {l : List ℝ} (h : l.length ≤ 2) : Spec.stdDev l 0 ^ 2 = sqSteps l / 4 := by
  match l, h with
  | [], _ => simp [Spec.stdDev, sqSteps]
  | [a], _ => simp [Spec.stdDev, Spec.avg, sqSteps]
  | [a, b], _ =>
    rw [stdDev_pair]
    simp only [sqSteps]
    rw [div_pow, sq_abs]
    ring

/-- Observed events of a station. -/
theorem pts_fst (events : Dict String EvRes) (i : ℕ) (s t : String)
    (h : ∀ e ∈ events, (respOf e.2 s i).isSome ↔ (respOf e.2 t i).isSome) :
    (pts events i s).map Prod.fst = (pts events i t).map Prod.fst := by
  unfold pts
  rw [List.map_filterMap, List.map_filterMap]
  refine List.filterMap_congr ?_
  intro p hp
  have hm : p.1 ∈ events := by
    obtain ⟨-, -, h3⟩ := List.mem_zipIdx (x := p.1) (i := p.2) hp
    rw [h3]
    exact List.getElem_mem _
  have := h _ hm
  cases h1 : respOf p.1.2 s i <;> cases h2 : respOf p.1.2 t i <;> simp [h1, h2] at this ⊢

/-- Response of a station for event number `k`. -/
noncomputable def valueAt (events : Dict String EvRes) (i : ℕ) (s : String) (k : ℕ) : ℝ :=
  ((events[k]?).bind (fun p => respOf p.2 s i)).getD 0

theorem adj_fst (events : Dict String EvRes) (i : ℕ) (s : String) (c : ℕ → ℝ) :
    adj events i c s =
      ((pts events i s).map Prod.fst).map (fun k => log (valueAt events i s k) + c k) := by
  unfold adj
  rw [List.map_map]
  apply List.map_congr_left
  rintro ⟨k, x⟩ hq
  obtain ⟨p, hp, hx⟩ := mem_pts.1 hq
  simp [valueAt, hp, hx]

variable {ι : Type} (st : Finset ι)

/-- Steps of series with common offsets which remove the mean of the series. -/
theorem sqSteps_center (K : List ℕ) (u : ι → ℕ → ℝ) (p : ℕ → ℝ)
    (hp : ∀ k, st.card * p k = -∑ s ∈ st, u s k) :
    ∑ s ∈ st, sqSteps (K.map (fun k => u s k + p k)) =
      ∑ s ∈ st, sqSteps (K.map (u s)) - st.card * sqSteps (K.map p) := by
  induction K with
  | nil => simp [sqSteps]
  | cons a K ih =>
    cases K with
    | nil => simp [sqSteps]
    | cons b K =>
      simp only [List.map_cons, sqSteps] at ih ⊢
      rw [Finset.sum_add_distrib, Finset.sum_add_distrib, ih]
      have e : ∑ s ∈ st, (u s a + p a - (u s b + p b)) ^ 2 =
          ∑ s ∈ st, (u s a - u s b) ^ 2 + 2 * (p a - p b) * (∑ s ∈ st, u s a - ∑ s ∈ st, u s b) +
            st.card * (p a - p b) ^ 2 := by
        rw [← Finset.sum_sub_distrib, Finset.mul_sum, ← nsmul_eq_mul, ← Finset.sum_const,
          ← Finset.sum_add_distrib, ← Finset.sum_add_distrib]
        refine Finset.sum_congr rfl ?_
        intro s _
        ring
      rw [e]
      have ha := hp a
      have hb := hp b
      have : ∑ s ∈ st, u s a - ∑ s ∈ st, u s b = -(st.card * (p a - p b)) := by linarith
      rw [this]
      ring

/-- Sum of squared deviations from the mean. -/
noncomputable def deviation (l : List ℝ) : ℝ := (l.map (fun x => (x - Spec.avg l) ^ 2)).sum

theorem sum_map_fin {α : Type} (K : List α) (f : α → ℝ) :
    (K.map f).sum = ∑ j : Fin K.length, f (K.get j) := by
  exact (Fin.sum_univ_fun_getElem K f).symm

/-- If the sum of the series is constant, common offsets only increase the deviations. -/
theorem deviation_le (K : List ℕ) (u : ι → ℕ → ℝ) (x : ℕ → ℝ) (C : ℝ)
    (hC : ∀ k ∈ K, ∑ s ∈ st, u s k = C) :
    ∑ s ∈ st, deviation (K.map (u s)) ≤ ∑ s ∈ st, deviation (K.map (fun k => u s k - x k)) := by
  by_cases hK : K = []
  · subst hK; simp [deviation]
  have hn : (K.length : ℝ) ≠ 0 := by
    simpa using hK
  have havg : ∀ s, Spec.avg (K.map (fun k => u s k - x k)) =
      Spec.avg (K.map (u s)) - Spec.avg (K.map x) := by
    intro s
    unfold Spec.avg
    rw [sum_map_fin, sum_map_fin, sum_map_fin, Finset.sum_sub_distrib]
    simp only [List.length_map]
    ring
  have hdev : ∀ f : ℕ → ℝ, deviation (K.map f) =
      ∑ j : Fin K.length, (f (K.get j) - Spec.avg (K.map f)) ^ 2 := by
    intro f
    unfold deviation
    rw [List.map_map, sum_map_fin]
    rfl
  have hCavg : ∑ s ∈ st, Spec.avg (K.map (u s)) = C := by
    unfold Spec.avg
    simp only [List.length_map, sum_map_fin]
    rw [← Finset.sum_div, Finset.sum_comm]
    rw [Finset.sum_congr rfl (fun (j : Fin K.length) _ => hC (K.get j) (List.get_mem _ _))]
    rw [Finset.sum_const, Finset.card_univ, Fintype.card_fin, nsmul_eq_mul]
    field_simp
  have key : ∑ s ∈ st, deviation (K.map (fun k => u s k - x k)) =
      ∑ s ∈ st, deviation (K.map (u s)) +
        st.card * ∑ j : Fin K.length, (x (K.get j) - Spec.avg (K.map x)) ^ 2 -
        2 * ∑ j : Fin K.length, (x (K.get j) - Spec.avg (K.map x)) *
          ∑ s ∈ st, (u s (K.get j) - Spec.avg (K.map (u s))) := by
    simp only [hdev, havg]
    have hc : (st.card : ℝ) * ∑ j : Fin K.length, (x (K.get j) - Spec.avg (K.map x)) ^ 2 =
        ∑ s ∈ st, ∑ j : Fin K.length, (x (K.get j) - Spec.avg (K.map x)) ^ 2 := by
      rw [Finset.sum_const, nsmul_eq_mul]
    rw [hc]
    simp only [Finset.mul_sum]
    rw [Finset.sum_comm (s := Finset.univ) (t := st), ← Finset.sum_add_distrib,
      ← Finset.sum_sub_distrib]
    refine Finset.sum_congr rfl ?_
    intro s _
    rw [← Finset.sum_add_distrib, ← Finset.sum_sub_distrib]
    refine Finset.sum_congr rfl ?_
    intro j _
    ring
  have hz : ∀ j : Fin K.length, ∑ s ∈ st, (u s (K.get j) - Spec.avg (K.map (u s))) = 0 := by
    intro j
    rw [Finset.sum_sub_distrib, hCavg, hC _ (List.get_mem _ _), sub_self]
  rw [key]
  simp only [hz, mul_zero, Finset.sum_const_zero, sub_zero]
  have : 0 ≤ (st.card : ℝ) * ∑ j : Fin K.length, (x (K.get j) - Spec.avg (K.map x)) ^ 2 :=
    mul_nonneg (Nat.cast_nonneg _) (Finset.sum_nonneg (fun _ _ => sq_nonneg _))
  linarith

end Site

section
variable {orc : Oracle} {rlm : List ℝ → ℝ × ℝ}
  {solve : Bool → ℕ → List (List ℝ) → List ℝ → List ℝ} {results out : Results} {sel : StationSel}
  {response : Response} {us : Bool} {smm : Option Method} {smo : Option Opts}
  {ignore : Option (List String)}

/-- **C121**: the two numbers reported for a band with data are the mean standard deviations of the
stations which remain, before and after alignment. -/
theorem C121_reported (hp : ProperResults results.events)
    (h : align orc rlm solve results sel response us smm smo ignore = .ok out) {i : ℕ}
    (hdata : ∃ e ∈ resultsOf results.events, ∃ s, (respOf e.2 s i).isSome)
    {es : Dict String EvRes} (hes : SortedById results.events es) :
    let st := stationsWith (resultsOf out.events) i
    stdBefore es i ignore = some ((∑ s ∈ st, Spec.spread es i s) / st.card) ∧
    stdAfter (resultsOf out.events) i =
      some ((∑ s ∈ st, Spec.spread (resultsOf out.events) i s) / st.card) := by
  intro st
  obtain ⟨bands, a, x, r, hrun⟩ := run_band hp h hdata
  have hst : st = a := run_stations hp hrun
  rw [sorted_unique hp.ids hes]
  have hne : st ≠ ∅ := by
    rw [hst]
    obtain ⟨s, hs⟩ := hrun.area.nonempty
    exact Finset.ne_empty_of_mem hs
  constructor
  · unfold stdBefore
    rw [hrun.largest]
    simp only
    rw [rstd_values (Finset.nodup_toList a) (st := st), if_neg hne]
    intro s
    rw [hst, Finset.mem_toList]
    constructor
    · intro hs
      exact ⟨hs, mem_stationsWith.2 (hrun.area.data s hs)⟩
    · exact fun h => h.1
  · unfold stdAfter
    rw [rstd_values (stationList_nodup _) (st := st), if_neg hne]
    intro s
    constructor
    · intro hs
      refine ⟨?_, hs⟩
      obtain ⟨e, he, h1⟩ := mem_stationsWith.1 hs
      refine mem_stationList.2 ⟨e, he, ?_⟩
      by_contra hc
      rw [← Dict.get?_eq_none] at hc
      simp [respOf, hc] at h1
    · exact fun h => h.2

/-- **C121** (partial: sum of the variances instead of mean of the standard deviations, stations with
at most two observations): alignment does not increase the scatter. -/
theorem C121_pairs_partial (hp : ProperResults results.events)
    (h : align orc rlm solve results sel response us smm smo ignore = .ok out)
    (hsol : ∀ b, IsLsqSolver (solve b)) {i : ℕ}
    (hdata : ∃ e ∈ resultsOf results.events, ∃ s, (respOf e.2 s i).isSome)
    {es : Dict String EvRes} (hes : SortedById results.events es)
    (h2 : ∀ s ∈ stationsWith (resultsOf out.events) i, (series es i s).length ≤ 2) :
    ∑ s ∈ stationsWith (resultsOf out.events) i, Spec.spread (resultsOf out.events) i s ^ 2 ≤
      ∑ s ∈ stationsWith (resultsOf out.events) i, Spec.spread es i s ^ 2 := by
  have h4 := C04_misfit_not_increased hp h hsol (i := i) hes
  obtain ⟨bands, a, x, r, hrun⟩ := run_band hp h hdata
  have hst := run_stations hp hrun
  have hl : ∀ s ∈ stationsWith (resultsOf out.events) i,
      ((series (resultsOf out.events) i s).map log).length ≤ 2 := by
    intro s hs
    rw [run_series_log hp (hsol _) hrun (hst ▸ hs)]
    have := h2 s hs
    rw [sorted_unique hp.ids hes, series_eq] at this
    unfold adj
    simpa using this
  have e1 : ∑ s ∈ stationsWith (resultsOf out.events) i, Spec.spread (resultsOf out.events) i s ^ 2 =
      ∑ s ∈ stationsWith (resultsOf out.events) i,
        sqSteps ((series (resultsOf out.events) i s).map log) / 4 :=
    Finset.sum_congr rfl (fun s hs => stdDev_short (hl s hs))
  have e2 : ∑ s ∈ stationsWith (resultsOf out.events) i, Spec.spread es i s ^ 2 =
      ∑ s ∈ stationsWith (resultsOf out.events) i, sqSteps ((series es i s).map log) / 4 :=
    Finset.sum_congr rfl (fun s hs => stdDev_short (by simpa using h2 s hs))
  rw [e1, e2, ← Finset.sum_div, ← Finset.sum_div]
  linarith

/-- **C121** (partial: sum of the variances instead of mean of the standard deviations, all stations
observed for the same events): alignment does not increase the scatter. -/
theorem C121_same_events_partial (hp : ProperResults results.events)
    (h : align orc rlm solve results sel response us smm smo ignore = .ok out)
    (hsol : ∀ b, IsLsqSolver (solve b)) {i : ℕ}
    (hdata : ∃ e ∈ resultsOf results.events, ∃ s, (respOf e.2 s i).isSome)
    {es : Dict String EvRes} (hes : SortedById results.events es)
    (hsame : ∀ e ∈ es, ∀ s ∈ stationsWith (resultsOf out.events) i,
      ∀ t ∈ stationsWith (resultsOf out.events) i, (respOf e.2 s i).isSome → (respOf e.2 t i).isSome) :
    ∑ s ∈ stationsWith (resultsOf out.events) i, Spec.spread (resultsOf out.events) i s ^ 2 ≤
      ∑ s ∈ stationsWith (resultsOf out.events) i, Spec.spread es i s ^ 2 := by
  obtain ⟨bands, a, x, r, hrun⟩ := run_band hp h hdata
  have hst := run_stations hp hrun
  rw [hst] at hsame ⊢
  have hes' := sorted_unique hp.ids hes
  rw [← hes'] at hrun
  obtain ⟨s0, hs0⟩ := hrun.area.nonempty
  have hd : ∀ s ∈ a, pts es i s ≠ [] := fun s hs => pts_ne_nil (hrun.area.data s hs)
  have hK : ∀ s ∈ a, (pts es i s).map Prod.fst = (pts es i s0).map Prod.fst := fun s hs =>
    pts_fst es i s s0 (fun e he => ⟨hsame e he s hs s0 hs0, hsame e he s0 hs0 s hs⟩)
  generalize hKdef : (pts es i s0).map Prod.fst = K at hK
  have hadj : ∀ s ∈ a, ∀ c : ℕ → ℝ, adj es i c s =
      K.map (fun k => log (valueAt es i s k) + c k) := by
    intro s hs c
    rw [adj_fst, hK s hs]
  have hcard : (a.card : ℝ) ≠ 0 := by
    have := Finset.card_pos.2 ⟨s0, hs0⟩
    exact_mod_cast this.ne'
  -- the sums over the stations are constant
  let u : String → ℕ → ℝ := fun s k => log (valueAt es i s k) + x.getD k 0
  let p : ℕ → ℝ := fun k => -(∑ s ∈ a, u s k) / a.card
  have hp0 : ∀ k, a.card * p k = -∑ s ∈ a, u s k := by
    intro k
    simp only [p]
    field_simp
  have hle := (hrun.solver (hsol _)).2.rough_le hrun.pinned hd (fun k => x.getD k 0 + p k)
  have r1 : rough es i a (fun k => x.getD k 0) = ∑ s ∈ a, sqSteps (K.map (u s)) :=
    Finset.sum_congr rfl (fun s hs => by rw [hadj s hs])
  have r2 : rough es i a (fun k => x.getD k 0 + p k) =
      ∑ s ∈ a, sqSteps (K.map (fun k => u s k + p k)) :=
    Finset.sum_congr rfl (fun s hs => by
      rw [hadj s hs]
      congr 2
      funext k
      simp only [u]
      ring)
  rw [r1, r2, sqSteps_center a K u p hp0] at hle
  have hz : sqSteps (K.map p) = 0 := by
    have h1 := sqSteps_nonneg (K.map p)
    have h2 : 0 < (a.card : ℝ) := lt_of_le_of_ne (Nat.cast_nonneg _) hcard.symm
    nlinarith
  have hconst : ∀ k ∈ K, ∀ k' ∈ K, ∑ s ∈ a, u s k = ∑ s ∈ a, u s k' := by
    intro k hk k' hk'
    have := sqSteps_zero hz _ (List.mem_map.2 ⟨k, hk, rfl⟩) _ (List.mem_map.2 ⟨k', hk', rfl⟩)
    have h1 := hp0 k
    have h2 := hp0 k'
    rw [this] at h1
    linarith
  have hKne : K ≠ [] := by
    rw [← hKdef]
    simpa using hd s0 hs0
  obtain ⟨k0, hk0⟩ := List.exists_mem_of_ne_nil K hKne
  have hdev := deviation_le a K u (fun k => x.getD k 0) _ (fun k hk => hconst k hk k0 hk0)
  have e1 : ∑ s ∈ a, Spec.spread (resultsOf out.events) i s ^ 2 =
      (∑ s ∈ a, deviation (K.map (u s))) / K.length := by
    rw [Finset.sum_div]
    refine Finset.sum_congr rfl ?_
    intro s hs
    unfold Spec.spread
    have hl : (series (resultsOf out.events) i s).map log = K.map (u s) := by
      rw [hes'] at hrun
      rw [run_series_log hp (hsol _) hrun hs, ← hes', hadj s hs]
    rw [hl, stdDev_sq, List.length_map]
    rfl
  have e2 : ∑ s ∈ a, Spec.spread es i s ^ 2 =
      (∑ s ∈ a, deviation (K.map (fun k => u s k - x.getD k 0))) / K.length := by
    rw [Finset.sum_div]
    refine Finset.sum_congr rfl ?_
    intro s hs
    unfold Spec.spread
    have hl : (series es i s).map log = K.map (fun k => u s k - x.getD k 0) := by
      rw [← adj_zero, hadj s hs]
      congr 1
      funext k
      simp only [u]
      ring
    rw [hl, stdDev_sq, List.length_map]
    rfl
  rw [e1, e2]
  exact div_le_div_of_nonneg_right hdev (Nat.cast_nonneg _)

end

/-! ## Counterexample -/

/-- Two events and three stations; only the responses of `C` differ. -/
noncomputable def scatterEvents : Dict String EvRes :=
  [("e1", ⟨[.num 1], [("A", [.num 1]), ("B", [.num 1]), ("C", [.num 1])], []⟩),
   ("e2", ⟨[.num 1], [("A", [.num 1]), ("B", [.num 1]), ("C", [.num (exp 1)])], []⟩)]

noncomputable def scatterDemo : Results :=
  { events := scatterEvents.map (fun p => (p.1, some p.2)), freq := [1], R := none, config := {} }

theorem scatter_results : resultsOf scatterDemo.events = scatterEvents := rfl

theorem scatter_proper : ProperResults scatterDemo.events := by
  refine ⟨by simp [scatterDemo, scatterEvents, Dict.WF, Dict.keys], ?_, ?_, ?_⟩
  · rw [scatter_results]
    simp [scatterEvents, Dict.WF, Dict.keys]
  · rw [scatter_results]
    intro e he s i x h
    simp only [scatterEvents, List.mem_cons, List.not_mem_nil, or_false] at he
    rcases he with rfl | rfl <;>
    · simp only [respOf, Dict.get?_cons] at h
      split_ifs at h <;> rcases i with _ | i <;> simp [numAt, Dict.get?] at h <;> rw [← h] <;>
        first | exact exp_pos 1 | exact one_pos
  · rw [scatter_results]
    intro e he s i h
    simp only [scatterEvents, List.mem_cons, List.not_mem_nil, or_false] at he
    rcases he with rfl | rfl <;>
    · simp only [respOf, Dict.get?_cons] at h
      split_ifs at h <;> rcases i with _ | i <;> simp [numAt, Dict.get?, energyOf] at h ⊢

theorem scatter_complete : CompleteResults scatterDemo.events 1 := by
  refine ⟨by rw [scatter_results]; simp [scatterEvents], scatter_proper.stations, ?_, ?_⟩
  · rw [scatter_results]
    intro e he
    simp only [scatterEvents, List.mem_cons, List.not_mem_nil, or_false] at he
    rcases he with rfl | rfl <;> simp
  · rw [scatter_results]
    intro e he
    simp only [scatterEvents, List.mem_cons, List.not_mem_nil, or_false] at he
    rcases he with rfl | rfl <;> simp

theorem scatter_sorted : SortedById scatterDemo.events scatterEvents := by
  refine ⟨by rw [scatter_results], ?_⟩
  simp only [scatterEvents, List.pairwise_cons, List.mem_singleton, forall_eq, List.not_mem_nil,
    false_imp_iff, implies_true, List.Pairwise.nil, and_true]
  decide

theorem scatter_stations : stationsWith scatterEvents 0 = {"A", "B", "C"} := by
  simp [stationsWith, scatterEvents, respOf, Dict.get?_cons, numAt]

theorem scatter_series : series scatterEvents 0 "A" = [1, 1] ∧ series scatterEvents 0 "B" = [1, 1] ∧
    series scatterEvents 0 "C" = [1, exp 1] := by
  refine ⟨?_, ?_, ?_⟩ <;> simp [series, scatterEvents, respOf, Dict.get?_cons, numAt]

/-- **C121** fails: alignment can increase the mean standard deviation of the site responses which it
reports as reduction, whatever the solver. -/
theorem C121_counterexample (orc : Oracle) (rlm : List ℝ → ℝ × ℝ)
    (solve : Bool → ℕ → List (List ℝ) → List ℝ → List ℝ) (hsol : ∀ b, IsLsqSolver (solve b))
    (us : Bool) :
    ∃ out, align orc rlm solve scatterDemo .all (.scalar 1) us none none none = .ok out ∧
      stdBefore scatterEvents 0 none = some (1 / 6) ∧
      stdAfter (resultsOf out.events) 0 = some (2 / 9) := by
  obtain ⟨out, h⟩ : ∃ out, align orc rlm solve scatterDemo .all (.scalar 1) us none none none =
      .ok out :=
    C79_alignment_succeeds scatter_complete (fun _ _ => rfl) rfl (by simp [scatterDemo])
      (by simp [scatterDemo])
  refine ⟨out, h, ?_⟩
  have hdata : ∃ e ∈ resultsOf scatterDemo.events, ∃ s, (respOf e.2 s 0).isSome := by
    rw [scatter_results]
    exact ⟨_, List.mem_cons_self, "A", by simp [respOf, Dict.get?_cons, numAt]⟩
  obtain ⟨q1, q2⟩ := C121_reported scatter_proper h hdata scatter_sorted
  obtain ⟨bands, a, x, r, hrun⟩ := run_band scatter_proper h hdata
  have hst := run_stations scatter_proper hrun
  have hsol' := hrun.solver (hsol _)
  have hser : ∀ s ∈ a, (series (resultsOf out.events) 0 s).map log =
      adj scatterEvents 0 (fun k => x.getD k 0) s := by
    intro s hs
    rw [run_series_log scatter_proper (hsol _) hrun hs, ← sorted_unique scatter_proper.ids
      scatter_sorted]
  rw [← sorted_unique scatter_proper.ids scatter_sorted] at hrun hsol'
  have ha : a = {"A", "B", "C"} := by
    have hsub : ∀ s ∈ a, s ∈ ({"A", "B", "C"} : Finset String) := by
      intro s hs
      rw [← scatter_stations, mem_stationsWith]
      exact hrun.area.data s hs
    obtain ⟨s0, hs0⟩ := hrun.area.nonempty
    ext t
    constructor
    · exact hsub t
    · intro ht
      refine (hrun.area.linked s0 hs0 t).2 (Relation.ReflTransGen.single ?_)
      refine ⟨by intro l hl; simp at hl, by intro l hl; simp at hl, _, List.mem_cons_self, ?_⟩
      have h0 := hsub s0 hs0
      simp only [Finset.mem_insert, Finset.mem_singleton] at h0 ht
      rcases h0 with rfl | rfl | rfl <;> rcases ht with rfl | rfl | rfl <;>
        simp [respOf, Dict.get?_cons, numAt]
  have hadj : ∀ c : ℕ → ℝ, adj scatterEvents 0 c "A" = [c 0, c 1] ∧
      adj scatterEvents 0 c "B" = [c 0, c 1] ∧ adj scatterEvents 0 c "C" = [c 0, 1 + c 1] := by
    intro c
    refine ⟨?_, ?_, ?_⟩ <;>
      simp [adj, pts, scatterEvents, respOf, Dict.get?_cons, numAt, List.zipIdx]
  have hsum : ∀ f : String → ℝ, ∑ s ∈ a, f s = f "A" + f "B" + f "C" := by
    intro f
    rw [ha, Finset.sum_insert (by decide), Finset.sum_insert (by decide), Finset.sum_singleton]
    ring
  have hcard : (a.card : ℝ) = 3 := by
    rw [ha]
    exact_mod_cast (by decide : ({"A", "B", "C"} : Finset String).card = 3)
  have hd : ∀ s ∈ a, pts scatterEvents 0 s ≠ [] := fun s hs => pts_ne_nil (hrun.area.data s hs)
  have hle := hsol'.2.rough_le hrun.pinned hd (fun k => if k = 0 then 1 / 3 else 0)
  unfold rough at hle
  rw [hsum, hsum, (hadj _).1, (hadj _).2.1, (hadj _).2.2, (hadj _).1, (hadj _).2.1,
    (hadj _).2.2] at hle
  simp only [sqSteps, if_true, one_ne_zero, if_false] at hle
  have hd1 : x.getD 0 0 - x.getD 1 0 = 1 / 3 := by
    have h1 : (x.getD 0 0 - x.getD 1 0 - 1 / 3) ^ 2 ≤ 0 := by nlinarith
    have h2 := pow_eq_zero_iff two_ne_zero |>.1 (le_antisymm h1 (sq_nonneg _))
    linarith
  have hs0 : ∀ s ∈ a, (series scatterEvents 0 s).map log = adj scatterEvents 0 (fun _ => 0) s :=
    fun s _ => (adj_zero _ _ _).symm
  have hA : "A" ∈ a := by rw [ha]; decide
  have hB : "B" ∈ a := by rw [ha]; decide
  have hC : "C" ∈ a := by rw [ha]; decide
  constructor
  · rw [q1, hst, hsum, hcard]
    unfold Spec.spread
    rw [hs0 _ hA, hs0 _ hB, hs0 _ hC, (hadj _).1, (hadj _).2.1, (hadj _).2.2, stdDev_pair,
      stdDev_pair]
    norm_num
  · rw [q2, hst, hsum, hcard]
    unfold Spec.spread
    rw [hser _ hA, hser _ hB, hser _ hC, (hadj _).1, (hadj _).2.1, (hadj _).2.2, stdDev_pair,
      stdDev_pair, hd1]
    have : x.getD 0 0 - (1 + x.getD 1 0) = -(2 / 3) := by linarith
    rw [this, abs_neg, abs_of_pos (by norm_num), abs_of_pos (by norm_num)]
    norm_num

/-- The hypotheses of the theorems hold for these results; here both sums of variances are known. -/
example (orc : Oracle) (rlm : List ℝ → ℝ × ℝ)
    (solve : Bool → ℕ → List (List ℝ) → List ℝ → List ℝ) (hsol : ∀ b, IsLsqSolver (solve b)) :
    ∃ out, align orc rlm solve scatterDemo .all (.scalar 1) false none none none = .ok out ∧
      ∑ s ∈ stationsWith (resultsOf out.events) 0, Spec.spread (resultsOf out.events) 0 s ^ 2 ≤
        ∑ s ∈ stationsWith (resultsOf out.events) 0, Spec.spread scatterEvents 0 s ^ 2 := by
  obtain ⟨out, h, -⟩ := C121_counterexample orc rlm solve hsol false
  have hdata : ∃ e ∈ resultsOf scatterDemo.events, ∃ s, (respOf e.2 s 0).isSome := by
    rw [scatter_results]
    exact ⟨_, List.mem_cons_self, "A", by simp [respOf, Dict.get?_cons, numAt]⟩
  refine ⟨out, h, C121_same_events_partial scatter_proper h hsol hdata scatter_sorted ?_⟩
  obtain ⟨bands, a, x, r, hrun⟩ := run_band scatter_proper h hdata
  rw [run_stations scatter_proper hrun]
  rw [← sorted_unique scatter_proper.ids scatter_sorted] at hrun
  intro e he s _ t ht _
  have ht' : t ∈ stationsWith scatterEvents 0 := by
    rw [mem_stationsWith]
    exact hrun.area.data t ht
  rw [scatter_stations] at ht'
  simp only [Finset.mem_insert, Finset.mem_singleton] at ht'
  simp only [scatterEvents, List.mem_cons, List.not_mem_nil, or_false] at he
  rcases he with rfl | rfl <;> rcases ht' with rfl | rfl | rfl <;>
    simp [respOf, Dict.get?_cons, numAt]

example (orc : Oracle) (rlm : List ℝ → ℝ × ℝ)
    (solve : Bool → ℕ → List (List ℝ) → List ℝ → List ℝ) (hsol : ∀ b, IsLsqSolver (solve b)) :
    ∃ out, align orc rlm solve scatterDemo .all (.scalar 1) false none none none = .ok out ∧
      ∑ s ∈ stationsWith (resultsOf out.events) 0, Spec.spread (resultsOf out.events) 0 s ^ 2 ≤
        ∑ s ∈ stationsWith (resultsOf out.events) 0, Spec.spread scatterEvents 0 s ^ 2 := by
  obtain ⟨out, h, -⟩ := C121_counterexample orc rlm solve hsol false
  refine ⟨out, h, C121_pairs_partial scatter_proper h hsol ?_ scatter_sorted ?_⟩
  · rw [scatter_results]
    exact ⟨_, List.mem_cons_self, "A", by simp [respOf, Dict.get?_cons, numAt]⟩
  · intro s _
    exact (List.length_filterMap_le _ _).trans (by simp [scatterEvents])

end Qopen
