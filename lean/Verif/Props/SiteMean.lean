import Verif.Model.SiteMean
import Verif.Props.SiteScatter
import Verif.Props.SiteSelect

/-!
# The mean site response measured after alignment is the requested one (C02)
-/

namespace Qopen

open Real Site Source Util Spec

namespace Site

theorem nanmeanLog_values (events : Dict String EvRes) (i : ℕ) (s : String) :
    nanmeanLog (stationValues events i s) =
      if series events i s = [] then none else some (meanLog (series events i s)) := by
  unfold nanmeanLog
  rw [values_series]
  by_cases h : series events i s = []
  · simp [h]
  · rw [if_neg h, if_neg (by simpa using h)]
    simp [meanLog]

open Classical in
/-- The mean is taken over the stations with data. -/
theorem rmean_values {events : Dict String EvRes} {i : ℕ} {l : List String} (hl : l.Nodup)
    {st : Finset String} (hst : ∀ s, s ∈ st ↔ s ∈ l ∧ s ∈ stationsWith events i) :
    rmean (l.map (stationValues events i)) =
      if st = ∅ then none else some ((∑ s ∈ st, meanLog (series events i s)) / st.card) := by
  have h1 : (l.map (stationValues events i)).filterMap nanmeanLog =
      (l.filter (fun s => decide (s ∈ stationsWith events i))).map
        (fun s => meanLog (series events i s)) := by
    rw [List.filterMap_map]
    clear hl hst
    induction l with
    | nil => rfl
    | cons a l ih =>
      by_cases h : a ∈ stationsWith events i
      · rw [List.filterMap_cons_some (f := nanmeanLog ∘ stationValues events i)
          (b := meanLog (series events i a)), ih, List.filter_cons_of_pos (by simpa using h)]
        · rfl
        · simp only [Function.comp, nanmeanLog_values, if_neg (series_ne_nil.2 h)]
      · rw [List.filterMap_cons_none (f := nanmeanLog ∘ stationValues events i), ih,
          List.filter_cons_of_neg (by simpa using h)]
        simp only [Function.comp, nanmeanLog_values]
        rw [if_pos]
        by_contra hc
        exact h (series_ne_nil.1 hc)
  have h2 : (l.filter (fun s => decide (s ∈ stationsWith events i))).toFinset = st := by
    ext s
    simp [hst]
  have hn : (l.filter (fun s => decide (s ∈ stationsWith events i))).Nodup := hl.filter _
  unfold rmean
  simp only [h1, List.length_map]
  rw [← h2, List.toFinset_card_of_nodup hn, List.sum_toFinset _ hn]
  by_cases h : l.filter (fun s => decide (s ∈ stationsWith events i)) = []
  · simp [h]
  · rw [if_neg (by simpa using h), if_neg]
    intro hc
    apply h
    rwa [List.toFinset_eq_empty_iff] at hc

theorem stationsWith_sub {events : Dict String EvRes} {i : ℕ} {s : String}
    (hs : s ∈ stationsWith events i) : s ∈ stationList events := by
  obtain ⟨e, he, h1⟩ := mem_stationsWith.1 hs
  refine mem_stationList.2 ⟨e, he, ?_⟩
  by_contra hc
  rw [← Dict.get?_eq_none] at hc
  simp [respOf, hc] at h1

theorem collectR_some {events : Dict String EvRes} {i : ℕ} {l : List String}
    (hl : ∀ s ∈ l, s ∈ stationList events) :
    collectR events i (some l) = .ok (l.map (stationValues events i)) := by
  unfold collectR
  simp only
  induction l with
  | nil => rfl
  | cons a l ih =>
    simp only [mapExc, if_pos (hl a List.mem_cons_self),
      ih (fun s hs => hl s (List.mem_cons_of_mem _ hs))]
    rfl

end Site

section
variable {orc : Oracle} {rlm : List ℝ → ℝ × ℝ}
  {solve : Bool → ℕ → List (List ℝ) → List ℝ → List ℝ} {results out : Results}
  {response : Response} {us : Bool} {smm : Option Method} {smo : Option Opts}
  {ignore : Option (List String)}

/-- **C02** for the mean of the package itself: after an alignment without named stations the mean of the
logarithmic site responses of all stations is the logarithm of the requested response. -/
theorem C02_measured_all (hp : ProperResults results.events)
    (h : align orc rlm solve results .all response us smm smo ignore = .ok out)
    (hsol : ∀ b, IsLsqSolver (solve b)) {i : ℕ}
    (hdata : ∃ e ∈ resultsOf results.events, ∃ s, (respOf e.2 s i).isSome)
    (hpos : ∀ r, requested response i = some r → 0 < r) :
    ∃ R r, collectR (resultsOf out.events) i none = .ok R ∧ requested response i = some r ∧
      rmean R = some (log r) := by
  have key := C02_pins_mean_response hp h hsol hdata (by simp) hpos
  simp only at key
  obtain ⟨hne, hr⟩ := key
  refine ⟨_, _, rfl, hr, ?_⟩
  rw [rmean_values (stationList_nodup _), if_neg hne.ne_empty, log_exp]
  intro s
  simp only [Finset.mem_filter, IsNamed, and_true]
  exact ⟨fun hs => ⟨stationsWith_sub hs, hs⟩, fun hs => hs.2⟩

/-- **C02** for the mean of the package itself: after an alignment with named stations, each of which has an entry
in the results, the mean of the logarithmic site responses of these stations is the logarithm of the requested
response. -/
theorem C02_measured_named {l : List String} (hl : l.Nodup) (hp : ProperResults results.events)
    (h : align orc rlm solve results (.names l) response us smm smo ignore = .ok out)
    (hsol : ∀ b, IsLsqSolver (solve b)) {i : ℕ}
    (hdata : ∃ e ∈ resultsOf results.events, ∃ s, (respOf e.2 s i).isSome)
    (hpos : ∀ r, requested response i = some r → 0 < r)
    (hmem : ∀ s ∈ l, ∃ e ∈ resultsOf out.events, s ∈ e.2.R.keys) :
    ∃ R r, collectR (resultsOf out.events) i (some l) = .ok R ∧ requested response i = some r ∧
      rmean R = some (log r) := by
  have key := C02_pins_mean_response hp h hsol hdata (by simp) hpos
  simp only at key
  obtain ⟨hne, hr⟩ := key
  refine ⟨_, _, collectR_some (fun s hs => mem_stationList.2 (hmem s hs)), hr, ?_⟩
  rw [rmean_values hl, if_neg hne.ne_empty, log_exp]
  intro s
  simp only [Finset.mem_filter, IsNamed]
  exact ⟨fun hs => ⟨hs.2, hs.1⟩, fun hs => ⟨hs.2, hs.1⟩⟩

/-- **C02** for a single station given as text; other stations whose name is part of this text must not have data
(see `C02_pins_mean_response`).  The station has data then, and the mean of its logarithmic site responses
is the logarithm of the requested response. -/
theorem C02_measured_station {n : String} (hp : ProperResults results.events)
    (h : align orc rlm solve results (.name n) response us smm smo ignore = .ok out)
    (hsol : ∀ b, IsLsqSolver (solve b)) {i : ℕ}
    (hdata : ∃ e ∈ resultsOf results.events, ∃ s, (respOf e.2 s i).isSome)
    (hsub : ∀ s ∈ stationsWith (resultsOf out.events) i, s ≠ n → ¬ IsSubstring s n)
    (hpos : ∀ r, requested response i = some r → 0 < r) :
    ∃ R r, collectR (resultsOf out.events) i (some [n]) = .ok R ∧ requested response i = some r ∧
      rmean R = some (log r) := by
  have key := C02_pins_mean_response hp h hsol hdata
    (by intro m hm; simp only [StationSel.name.injEq] at hm; subst hm; exact hsub) hpos
  simp only at key
  obtain ⟨hne, hr⟩ := key
  have hn : n ∈ stationsWith (resultsOf out.events) i := by
    obtain ⟨s, hs⟩ := hne
    simp only [Finset.mem_filter, IsNamed] at hs
    exact hs.2 ▸ hs.1
  refine ⟨_, _, collectR_some (l := [n]) (fun s hs => ?_), hr, ?_⟩
  · rw [List.mem_singleton.1 hs]
    exact stationsWith_sub hn
  · rw [rmean_values (List.nodup_singleton n), if_neg hne.ne_empty, log_exp]
    intro s
    simp only [Finset.mem_filter, IsNamed, List.mem_singleton]
    exact ⟨fun hs => ⟨hs.2, hs.1⟩, fun hs => ⟨hs.2, hs.1⟩⟩

end

/-- The hypotheses hold for two events at three stations, and the alignment succeeds. -/
example (orc : Oracle) (rlm : List ℝ → ℝ × ℝ)
    (solve : Bool → ℕ → List (List ℝ) → List ℝ → List ℝ) (hsol : ∀ b, IsLsqSolver (solve b)) :
    ∃ out R, align orc rlm solve scatterDemo .all (.scalar 1) false none none none = .ok out ∧
      collectR (resultsOf out.events) 0 none = .ok R ∧ rmean R = some 0 := by
  obtain ⟨out, h, -⟩ := C121_counterexample orc rlm solve hsol false
  have hdata : ∃ e ∈ resultsOf scatterDemo.events, ∃ s, (respOf e.2 s 0).isSome := by
    rw [scatter_results]
    exact ⟨_, List.mem_cons_self, "A", by simp [respOf, Dict.get?_cons, numAt]⟩
  obtain ⟨R, r, h1, h2, h3⟩ := C02_measured_all scatter_proper h hsol hdata
    (by rintro r hr; simp only [requested, Option.some.injEq] at hr; rw [← hr]; norm_num)
  simp only [requested, Option.some.injEq] at h2
  exact ⟨out, R, h, h1, by rw [h3, ← h2, log_one]⟩

theorem scatter_area {area : Finset String}
    (ha : LargestArea scatterEvents 0 (notIgnored none) area) : area = {"A", "B", "C"} := by
  have hsub : ∀ s ∈ area, s ∈ ({"A", "B", "C"} : Finset String) := by
    intro s hs
    rw [← scatter_stations, mem_stationsWith]
    exact (ha.data s hs).2
  obtain ⟨s0, hs0⟩ := ha.nonempty
  ext t
  constructor
  · exact hsub t
  · intro ht
    refine (ha.linked s0 hs0 t).2 (Relation.ReflTransGen.single ?_)
    refine ⟨by intro l hl; simp at hl, by intro l hl; simp at hl, _, List.mem_cons_self, ?_⟩
    have h0 := hsub s0 hs0
    simp only [Finset.mem_insert, Finset.mem_singleton] at h0 ht
    rcases h0 with rfl | rfl | rfl <;> rcases ht with rfl | rfl | rfl <;>
      simp [respOf, Dict.get?_cons, numAt]

/-- Two of the three stations are named; both are part of the aligned results. -/
example (orc : Oracle) (rlm : List ℝ → ℝ × ℝ)
    (solve : Bool → ℕ → List (List ℝ) → List ℝ → List ℝ) (hsol : ∀ b, IsLsqSolver (solve b)) :
    ∃ out R, align orc rlm solve scatterDemo (.names ["A", "C"]) (.scalar 2) false none none none =
        .ok out ∧
      collectR (resultsOf out.events) 0 (some ["A", "C"]) = .ok R ∧ rmean R = some (log 2) := by
  have hdata : ∃ e ∈ resultsOf scatterDemo.events, ∃ s, (respOf e.2 s 0).isSome := by
    rw [scatter_results]
    exact ⟨_, List.mem_cons_self, "A", by simp [respOf, Dict.get?_cons, numAt]⟩
  obtain ⟨out, h⟩ : ∃ out, align orc rlm solve scatterDemo (.names ["A", "C"]) (.scalar 2) false
      none none none = .ok out := by
    refine C114_succeeds_partial scatter_complete (fun _ _ => rfl) ?_ ?_ rfl (by simp [scatterDemo])
      (by simp [scatterDemo])
    · intro i hi area ha
      obtain rfl : i = 0 := by omega
      rw [scatter_results] at ha
      rw [scatter_area ha]
      exact ⟨"A", by simp, by simp [IsNamed]⟩
    · rintro i - ⟨e, he, s, hs⟩
      exact ⟨e, he, s, by simp [notIgnored], hs⟩
  obtain ⟨bands, a, x, r, hrun⟩ := run_band scatter_proper h hdata
  have hst := run_stations scatter_proper hrun
  rw [← sorted_unique scatter_proper.ids scatter_sorted] at hrun
  have ha : a = {"A", "B", "C"} := by
    have hsub : ∀ s ∈ a, s ∈ ({"A", "B", "C"} : Finset String) := by
      intro s hs
      rw [← scatter_stations, mem_stationsWith]
      exact hrun.area.data s hs
    obtain ⟨s0, hs0⟩ := hrun.area.nonempty
    ext t
    constructor
    · exact hsub t
    · intro ht
      refine (hrun.area.linked s0 hs0 t).2 (Relation.ReflTransGen.single ?_)
      refine ⟨by intro l hl; simp at hl, by intro l hl; simp at hl, _, List.mem_cons_self, ?_⟩
      have h0 := hsub s0 hs0
      simp only [Finset.mem_insert, Finset.mem_singleton] at h0 ht
      rcases h0 with rfl | rfl | rfl <;> rcases ht with rfl | rfl | rfl <;>
        simp [respOf, Dict.get?_cons, numAt]
  obtain ⟨R, r, h1, h2, h3⟩ := C02_measured_named (l := ["A", "C"]) (i := 0) (by simp) scatter_proper h
    hsol hdata (by rintro r hr; simp only [requested, Option.some.injEq] at hr; rw [← hr]; norm_num)
    (by
      intro s hs
      have : s ∈ stationsWith (resultsOf out.events) 0 := by
        rw [hst, ha]
        simp only [List.mem_cons, List.not_mem_nil, or_false] at hs
        rcases hs with rfl | rfl <;> simp
      exact mem_stationList.1 (stationsWith_sub this))
  simp only [requested, Option.some.injEq] at h2
  exact ⟨out, R, h, h1, by rw [h3, ← h2]⟩

/-- A single station is named. -/
example (orc : Oracle) (rlm : List ℝ → ℝ × ℝ)
    (solve : Bool → ℕ → List (List ℝ) → List ℝ → List ℝ) (hsol : ∀ b, IsLsqSolver (solve b)) :
    ∃ out R, align orc rlm solve scatterDemo (.name "C") (.scalar 3) true none none none = .ok out ∧
      collectR (resultsOf out.events) 0 (some ["C"]) = .ok R ∧ rmean R = some (log 3) := by
  have hdata : ∃ e ∈ resultsOf scatterDemo.events, ∃ s, (respOf e.2 s 0).isSome := by
    rw [scatter_results]
    exact ⟨_, List.mem_cons_self, "A", by simp [respOf, Dict.get?_cons, numAt]⟩
  obtain ⟨out, h⟩ : ∃ out, align orc rlm solve scatterDemo (.name "C") (.scalar 3) true
      none none none = .ok out := by
    refine C114_succeeds_partial scatter_complete (fun _ _ => rfl) ?_ ?_ rfl (by simp [scatterDemo])
      (by simp [scatterDemo])
    · intro i hi area ha
      obtain rfl : i = 0 := by omega
      rw [scatter_results] at ha
      rw [scatter_area ha]
      exact ⟨"C", by simp, by simp [IsNamed]⟩
    · rintro i - ⟨e, he, s, hs⟩
      exact ⟨e, he, s, by simp [notIgnored], hs⟩
  obtain ⟨bands, a, x, r, hrun⟩ := run_band scatter_proper h hdata
  have hst := run_stations scatter_proper hrun
  rw [← sorted_unique scatter_proper.ids scatter_sorted] at hrun
  obtain ⟨R, r, h1, h2, h3⟩ := C02_measured_station (n := "C") (i := 0) scatter_proper h hsol hdata
    (by
      intro s hs hne
      rw [hst] at hs
      have hs' : s ∈ ({"A", "B", "C"} : Finset String) := by
        rw [← scatter_stations, mem_stationsWith]
        exact hrun.area.data s hs
      simp only [Finset.mem_insert, Finset.mem_singleton] at hs'
      rcases hs' with rfl | rfl | rfl
      · simp [IsSubstring, List.infix_cons_iff]
      · simp [IsSubstring, List.infix_cons_iff]
      · exact absurd rfl hne)
    (by rintro r hr; simp only [requested, Option.some.injEq] at hr; rw [← hr]; norm_num)
  simp only [requested, Option.some.injEq] at h2
  exact ⟨out, R, h, h1, by rw [h3, ← h2]⟩

end Qopen
