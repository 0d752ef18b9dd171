import Verif.Props.SiteIdem
import Verif.Props.Stat

/-!
# Stations used for normalisation (C11) and the table of mean responses (C12)
-/

namespace Qopen

open Real Spec Source Site Util

variable {orc : Oracle} {rlm : List ℝ → ℝ × ℝ}
  {solve : Bool → ℕ → List (List ℝ) → List ℝ → List ℝ} {results out : Results}
  {sel : StationSel} {response : Response} {us : Bool} {smm : Option Method} {smo : Option Opts}
  {ignore : Option (List String)}

/-! ## C11 -/

/-- Mean over a set of stations of the mean logarithmic response. -/
noncomputable def stationMeanLog (events : Dict String EvRes) (i : ℕ) (st : Finset String) : ℝ :=
  (∑ s ∈ st, meanLog (series events i s)) / st.card

/-- **C11**: if a list of stations is given, exactly the listed stations enter the normalisation:
their mean response becomes the requested one. -/
theorem C11_listed_stations (hp : ProperResults results.events) {l : List String}
    (h : align orc rlm solve results (.names l) response us smm smo ignore = .ok out)
    (hsol : ∀ b, IsLsqSolver (solve b)) {i : ℕ}
    (hdata : ∃ e ∈ resultsOf results.events, ∃ s, (respOf e.2 s i).isSome)
    (hpos : ∀ r, requested response i = some r → 0 < r) :
    let named := (stationsWith (resultsOf out.events) i).filter (fun s => s ∈ l)
    named.Nonempty ∧
      requested response i = some (exp (stationMeanLog (resultsOf out.events) i named)) := by
  have := C02_pins_mean_response hp h hsol hdata (by intro n hn; simp at hn) hpos
  simp only [IsNamed] at this
  intro named
  have he : named = (stationsWith (resultsOf out.events) i).filter (fun s => s ∈ l) := rfl
  rw [he, stationMeanLog]
  convert this <;> exact Iff.rfl

/-- **C11** (partial): if a station is given as text, exactly this station is pinned: its mean
response becomes the requested one.  Missing: stations whose code is contained in the text must
not be present (`hsub`); without it the claim is false, see `C11_substring_counterexample`. -/
theorem C11_single_station_partial (hp : ProperResults results.events) {n : String}
    (h : align orc rlm solve results (.name n) response us smm smo ignore = .ok out)
    (hsol : ∀ b, IsLsqSolver (solve b)) {i : ℕ}
    (hdata : ∃ e ∈ resultsOf results.events, ∃ s, (respOf e.2 s i).isSome)
    (hsub : ∀ s ∈ stationsWith (resultsOf out.events) i, s ≠ n → ¬ IsSubstring s n)
    (hpos : ∀ r, requested response i = some r → 0 < r) :
    n ∈ stationsWith (resultsOf out.events) i ∧
      requested response i = some (exp (meanLog (series (resultsOf out.events) i n))) := by
  classical
  obtain ⟨h1, h2⟩ := C02_pins_mean_response hp h hsol hdata
    (by intro m hm; simp only [StationSel.name.injEq] at hm; subst hm; exact hsub) hpos
  have hs : (stationsWith (resultsOf out.events) i).filter (IsNamed (.name n)) = {n} := by
    obtain ⟨s, hs⟩ := h1
    obtain ⟨s1, s2⟩ := Finset.mem_filter.1 hs
    simp only [IsNamed] at s2
    subst s2
    ext t
    simp only [Finset.mem_filter, Finset.mem_singleton, IsNamed]
    exact ⟨fun h => h.2, fun h => ⟨h ▸ s1, h⟩⟩
  have hn : n ∈ stationsWith (resultsOf out.events) i := by
    have : n ∈ (stationsWith (resultsOf out.events) i).filter (IsNamed (.name n)) := by
      rw [hs]; simp
    exact (Finset.mem_filter.1 this).1
  rw [hs] at h2
  exact ⟨hn, by simpa using h2⟩

/-- One event, two stations, the code of one is the beginning of the other. -/
def twoStations : Results :=
  { events := [("e", some ⟨[.num 1], [("AB1", [.num 1]), ("AB12", [.num 4])], []⟩)]
    freq := [1], R := some [("AB12", [.num 5])], config := {} }

theorem two_proper : ProperResults twoStations.events := by
  have hres : resultsOf twoStations.events =
      [("e", ⟨[.num 1], [("AB1", [.num 1]), ("AB12", [.num 4])], []⟩)] := rfl
  refine ⟨by simp [twoStations, Dict.WF, Dict.keys], ?_, ?_, ?_⟩
  · rw [hres]
    simp [Dict.WF, Dict.keys]
  · rw [hres]
    intro e he s i x h
    simp only [List.mem_cons, List.not_mem_nil, or_false] at he
    subst he
    simp only [respOf, Dict.get?_cons] at h
    split_ifs at h <;> rcases i with _ | i <;> simp [numAt, Dict.get?] at h <;> linarith
  · rw [hres]
    intro e he s i h
    simp only [List.mem_cons, List.not_mem_nil, or_false] at he
    subst he
    simp only [respOf, Dict.get?_cons] at h
    split_ifs at h <;> rcases i with _ | i <;> simp [numAt, Dict.get?, energyOf] at h ⊢

theorem two_complete : CompleteResults twoStations.events 1 := by
  have hres : resultsOf twoStations.events =
      [("e", ⟨[.num 1], [("AB1", [.num 1]), ("AB12", [.num 4])], []⟩)] := rfl
  refine ⟨by rw [hres]; simp, two_proper.stations, ?_, ?_⟩
  · rw [hres]; simp
  · rw [hres]
    intro e he p hp
    simp only [List.mem_cons, List.not_mem_nil, or_false] at he
    subst he
    simp only [List.mem_cons, List.not_mem_nil, or_false] at hp
    rcases hp with rfl | rfl <;> rfl

theorem two_sorted : sortedEvents twoStations.events =
    [("e", ⟨[.num 1], [("AB1", [.num 1]), ("AB12", [.num 4])], []⟩)] :=
  (sorted_unique two_proper.ids ⟨List.Perm.refl _, by simp [resultsOf, twoStations]⟩).symm

theorem two_resp (s : String) : (respOf ⟨[.num 1], [("AB1", [.num 1]), ("AB12", [.num 4])], []⟩ s 0) =
    if s = "AB1" then some 1 else if s = "AB12" then some 4 else none := by
  simp only [respOf, Dict.get?_cons]
  by_cases h1 : s = "AB1"
  · subst h1; simp [numAt]
  · by_cases h2 : s = "AB12"
    · subst h2; simp [numAt]
    · simp [h1, h2, Ne.symm h1, Ne.symm h2, Dict.get?]

theorem two_area {ig : Option (List String)} {a : Finset String}
    (ha : IsArea (sortedEvents twoStations.events) 0 (notIgnored ig) a) :
    ∀ s, s ∈ a ↔ notIgnored ig s ∧ (s = "AB1" ∨ s = "AB12") := by
  have hdat : ∀ s ∈ a, s = "AB1" ∨ s = "AB12" := by
    intro s hs
    obtain ⟨e, he, h1⟩ := ha.data s hs
    rw [two_sorted] at he
    simp only [List.mem_cons, List.not_mem_nil, or_false] at he
    subst he
    simp only [two_resp] at h1
    by_contra hc
    push Not at hc
    simp [hc.1, hc.2] at h1
  intro s
  constructor
  · intro hs; exact ⟨ha.isOk s hs, hdat s hs⟩
  · rintro ⟨hok, hs⟩
    obtain ⟨t, ht⟩ := ha.nonempty
    rw [ha.linked t ht]
    refine Relation.ReflTransGen.single ⟨ha.isOk t ht, hok,
      ("e", ⟨[.num 1], [("AB1", [.num 1]), ("AB12", [.num 4])], []⟩), by rw [two_sorted]; simp, ?_, ?_⟩
    · simp only [two_resp]; rcases hdat t ht with rfl | rfl <;> simp
    · simp only [two_resp]; rcases hs with rfl | rfl <;> simp

/-- **C11** is false for a station given as text: the code `AB1` is contained in the text `AB12`,
so both stations are pinned and the response of `AB12` becomes 2 although 1 was requested. -/
theorem C11_substring_counterexample (orc : Oracle) (rlm : List ℝ → ℝ × ℝ) (us : Bool) :
    ∃ out, align orc rlm (fun _ => someSolver) twoStations (.name "AB12") (.scalar 1) us none none
        none = .ok out ∧
      ∃ ev, out.events.get? "e" = some (some ev) ∧ respOf ev "AB12" 0 = some 2 := by
  have hR : RWF (sortedEvents twoStations.events) := proper_rwf two_proper
  have hsub : selected (.name "AB12") "AB1" = true := by decide
  have hsub2 : selected (.name "AB12") "AB12" = true := by decide
  have hpin : ∀ a, IsArea (sortedEvents twoStations.events) 0 (notIgnored none) a →
      a = {"AB1", "AB12"} ∧ pinned a (.name "AB12") = {"AB1", "AB12"} := by
    intro a ha
    have h1 : a = {"AB1", "AB12"} := by
      ext s
      rw [two_area ha s]
      simp [notIgnored]
    refine ⟨h1, ?_⟩
    rw [pinned, h1]
    apply Finset.filter_true_of_mem
    intro s hs
    simp only [Finset.mem_insert, Finset.mem_singleton] at hs
    rcases hs with rfl | rfl
    · exact hsub
    · exact hsub2
  obtain ⟨out, h⟩ := align_total (orc := orc) (rlm := rlm) (solve := fun _ => someSolver)
    (results := twoStations) (sel := .name "AB12") (response := .scalar 1) (us := us) (smo := none)
    (ignore := none) (n := 1) two_complete.stations two_complete.some_event two_complete.energies
    two_complete.responses (fun _ _ => ⟨1, rfl⟩)
    (by
      intro i hi a ha
      have hi0 : i = 0 := by omega
      subst hi0
      rw [(hpin a (isArea_of_mem hR (largest_some ha).1)).2]
      simp)
    (by intro i _ e he s hs; exact ⟨s, by intro l h; simp at h, e, he, hs⟩)
    rfl (by simp [twoStations]) (by simp [twoStations])
  refine ⟨out, h, ?_⟩
  have hdata : ∃ e ∈ resultsOf twoStations.events, ∃ s, (respOf e.2 s 0).isSome :=
    ⟨_, List.mem_singleton.2 rfl, "AB1", by simp [two_resp]⟩
  obtain ⟨bands, a, x, r, hrun⟩ := run_band two_proper h hdata
  obtain ⟨ha, hpn⟩ := hpin a hrun.area
  have hr : r = 1 := by
    have := hrun.resp
    simpa [responseAt] using this.symm
  subst hr
  obtain ⟨hx, hmin⟩ := hrun.solver someSolver_spec
  have hd : ∀ s ∈ a, pts (sortedEvents twoStations.events) 0 s ≠ [] :=
    fun s hs => pts_ne_nil (hrun.area.data s hs)
  have hlev := hmin.level hrun.pinned hd
  rw [two_sorted] at hx hlev
  obtain ⟨x0, rfl⟩ : ∃ x0, x = [x0] := List.length_eq_one_iff.1 (by simpa using hx)
  have hx0 : x0 = - log 2 := by
    have h4 : log 4 = 2 * log 2 := by
      rw [show (4 : ℝ) = 2 ^ 2 by norm_num, log_pow]; norm_num
    rw [level, hpn, Finset.sum_pair (by decide)] at hlev
    simp only [adj, pts, List.zipIdx_cons, List.zipIdx_nil, List.filterMap_cons,
      List.filterMap_nil, two_resp] at hlev
    simp [avg, h4] at hlev
    linarith
  obtain ⟨e', he'⟩ : ∃ e', resultsOf out.events = [("e", e')] := by
    have h1 := evrel_keys hrun.rel
    rw [two_sorted] at h1
    match hro : resultsOf out.events, h1 with
    | [(_, e')], h1 =>
      simp only [List.map_cons, List.map_nil, List.cons.injEq, and_true] at h1
      exact ⟨e', by rw [h1]⟩
  have hm : ("e", some e') ∈ out.events := mem_resultsOf.1 (by rw [he']; simp)
  refine ⟨e', Dict.get?_of_mem (out_proper two_proper h).ids hm, ?_⟩
  have := run_resp two_proper hrun (k := 0)
    (p := ("e", ⟨[.num 1], [("AB1", [.num 1]), ("AB12", [.num 4])], []⟩)) (p' := ("e", e'))
    (by rw [two_sorted]; rfl) (by rw [he']; rfl) "AB12"
  simp only at this
  rw [this, two_resp, ha]
  simp only [hx0]
  simp [exp_neg, exp_log]
  norm_num

/-! ## C12 -/

open Classical in
/-- The mean of site responses: missing without data, the geometric mean of up to four or of
equal responses, otherwise computed from the robust location of the logarithms. -/
noncomputable def siteMean (rlm : List ℝ → ℝ × ℝ) (xs : List ℝ) : Option ℝ :=
  if xs = [] then none
  else if xs.length < 5 ∨ ∀ x ∈ xs, ∀ y ∈ xs, x = y then some (geoMean xs)
  else some (exp (rlm (xs.map log)).1)

theorem gmean_robust (rlm : List ℝ → ℝ × ℝ) (data : List Cell) :
    gmean rlm data none true 5 = .ok (siteMean rlm (positives data)) := by
  have hpos : ∀ x ∈ positives data, 0 < x := fun x hx => positives_pos hx
  have hg := exp_mean_log (positives data) hpos
  unfold gmean gstat
  simp only [Option.isSome_none, Bool.and_false, Bool.false_eq_true, if_false, if_true]
  unfold robustStat siteMean
  simp only [validData_maLog, List.length_map]
  by_cases h5 : (positives data).length < 5
  · simp only [h5, if_true, true_or]
    have hv : validData (((positives data).map log).map some) = (positives data).map log := by
      simp [validData]
    simp only [weightedStat, weightsMismatch, Bool.false_eq_true, if_false, maAverage, hv,
      List.length_map, bind, Except.bind, pure, Except.pure, List.length_eq_zero_iff]
    split
    · rfl
    · rw [Option.map_some, hg]
  · have hne : positives data ≠ [] := by rintro h; rw [h] at h5; simp at h5
    have hl : (positives data).length ≠ 0 := by omega
    have hptp : ptpZero (validData (maLog (maskedInvalid data))) ↔
        ∀ x ∈ positives data, ∀ y ∈ positives data, x = y := by
      rw [validData_maLog]
      unfold ptpZero
      simp only [List.mem_map, forall_exists_index, and_imp, forall_apply_eq_imp_iff₂]
      constructor
      · intro h x hx y hy
        exact log_injOn_pos (hpos x hx) (hpos y hy) (h x hx y hy)
      · intro h x hx y hy
        rw [h x hx y hy]
    simp only [h5, if_false, false_or, if_neg hne, if_neg hl]
    by_cases hc : ptpZero (validData (maLog (maskedInvalid data)))
    · rw [if_pos hc, if_pos (hptp.1 hc)]
      simp only [bind, Except.bind, pure, Except.pure, Option.map_some, hg]
    · rw [if_neg hc, if_neg (fun h => hc (hptp.2 h))]
      rfl

theorem positives_column {events : Dict String EvRes} {s : String} {i : ℕ}
    (hpos : ∀ e ∈ events, ∀ x, respOf e.2 s i = some x → 0 < x) :
    positives (column (stationRows events s) i) = series events i s := by
  unfold column stationRows series positives
  rw [List.filterMap_map, List.filterMap_filterMap]
  apply List.filterMap_congr
  intro e he
  have := hpos e he
  unfold respOf at this ⊢
  cases hg : e.2.R.get? s with
  | none => rfl
  | some l =>
    simp only [Option.bind_some, Function.comp, List.getD_eq_getElem?_getD, numAt] at this ⊢
    cases hc : l[i]? with
    | none => simp
    | some c =>
      cases c with
      | none => simp
      | nan => simp
      | num x =>
        have hx : 0 < x := this x (by rw [hg, Option.bind_some, hc])
        simp [hx]

theorem mem_stationList {events : Dict String EvRes} {s : String} :
    s ∈ stationList events ↔ ∃ e ∈ events, s ∈ e.2.R.keys := by
  unfold stationList
  simp [List.mem_flatMap]

theorem stationList_nodup (events : Dict String EvRes) : (stationList events).Nodup := by
  unfold stationList
  rw [List.nodup_reverse]
  exact List.nodup_dedup _

/-- The update of one station. -/
theorem updateMeanR_get (rlm : List ℝ → ℝ × ℝ) (events : Dict String EvRes) (l : List String)
    (hl : l.Nodup) (R R' : Dict String (List Cell))
    (h : l.foldlM (fun R sta =>
      let rows := stationRows events sta
      let nf := (rows.headD []).length
      if rows.any (fun r => r.length != nf) then .error .valueError
      else if rows.all (fun r => r.all (fun c => c.val?.isNone)) then .ok R
      else do
        let m ← gmeanlist rlm rows nf (robust := true)
        return R.set sta m) R = .ok R') (s : String) :
    (s ∉ l → R'.get? s = R.get? s) ∧
    (s ∈ l → (stationRows events s).all (fun r => r.all (fun c => c.val?.isNone)) = true →
      R'.get? s = R.get? s) ∧
    (s ∈ l → (stationRows events s).all (fun r => r.all (fun c => c.val?.isNone)) = false →
      ∃ m, gmeanlist rlm (stationRows events s) ((stationRows events s).headD []).length
        (robust := true) = .ok m ∧ R'.get? s = some m) := by
  induction l generalizing R with
  | nil =>
    simp only [List.foldlM_nil, pure, Except.pure, Except.ok.injEq] at h
    subst h
    simp
  | cons t l ih =>
    rw [List.foldlM_cons] at h
    obtain ⟨R1, h1, h2⟩ := bind_ok.1 h
    rw [List.nodup_cons] at hl
    obtain ⟨i1, i2, i3⟩ := ih hl.2 R1 h2
    simp only at h1
    split at h1
    · simp at h1
    · by_cases hall : (stationRows events t).all (fun r => r.all (fun c => c.val?.isNone)) = true
      · rw [if_pos hall] at h1
        simp only [Except.ok.injEq] at h1
        subst h1
        refine ⟨fun hs => i1 (fun hm => hs (by simp [hm])), ?_, ?_⟩
        · intro hs ha
          rcases List.mem_cons.1 hs with rfl | hs
          · exact i1 hl.1
          · exact i2 hs ha
        · intro hs ha
          rcases List.mem_cons.1 hs with rfl | hs
          · rw [hall] at ha; simp at ha
          · exact i3 hs ha
      · rw [if_neg hall] at h1
        obtain ⟨m, hm, h1⟩ := bind_ok.1 h1
        simp only [pure, Except.pure, Except.ok.injEq] at h1
        subst h1
        refine ⟨fun hs => ?_, ?_, ?_⟩
        · have : t ≠ s := by rintro rfl; exact hs (by simp)
          rw [i1 (fun hm => hs (by simp [hm])), Dict.get?_set_ne _ _ this]
        · intro hs ha
          rcases List.mem_cons.1 hs with rfl | hs
          · exact absurd ha hall
          · have : t ≠ s := by rintro rfl; exact hl.1 hs
            rw [i2 hs ha, Dict.get?_set_ne _ _ this]
        · intro hs ha
          rcases List.mem_cons.1 hs with rfl | hs
          · exact ⟨m, hm, by rw [i1 hl.1, Dict.get?_set_self]⟩
          · exact i3 hs ha

theorem retained_iff {events : Dict String EvRes} {s : String} :
    (stationRows events s).all (fun r => r.all (fun c => c.val?.isNone)) = false ↔
      ∃ e ∈ events, ∃ j, (respOf e.2 s j).isSome := by
  rw [List.all_eq_false]
  constructor
  · rintro ⟨r, hr, hc⟩
    unfold stationRows at hr
    obtain ⟨e, he, hg⟩ := List.mem_filterMap.1 hr
    simp only [Bool.not_eq_true, List.all_eq_false] at hc
    obtain ⟨c, hc1, hc2⟩ := hc
    obtain ⟨j, hj, rfl⟩ := List.getElem_of_mem hc1
    refine ⟨e, he, j, ?_⟩
    unfold respOf numAt
    rw [hg, Option.bind_some, List.getElem?_eq_getElem hj]
    cases hcj : r[j] with
    | none => rw [hcj] at hc2; simp [Cell.val?] at hc2
    | nan => rw [hcj] at hc2; simp [Cell.val?] at hc2
    | num x => rfl
  · rintro ⟨e, he, j, hj⟩
    unfold respOf at hj
    cases hg : e.2.R.get? s with
    | none => rw [hg] at hj; simp at hj
    | some l =>
      rw [hg, Option.bind_some] at hj
      refine ⟨l, List.mem_filterMap.2 ⟨e, he, hg⟩, ?_⟩
      simp only [Bool.not_eq_true, List.all_eq_false]
      unfold numAt at hj
      cases hc : l[j]? with
      | none => rw [hc] at hj; simp at hj
      | some c =>
        refine ⟨c, List.mem_of_getElem? hc, ?_⟩
        rw [hc] at hj
        cases c with
        | none => simp at hj
        | nan => simp at hj
        | num x => simp [Cell.val?]

/-- **C12** (partial): every station with a retained response has an entry in the table of mean
responses, and this entry is, band by band, the mean of the aligned responses.  Missing: stations
that lost all responses keep an old entry, see `C12_stale_mean_counterexample`. -/
theorem C12_means_of_aligned_responses_partial (hp : ProperResults results.events) {n : ℕ}
    (hn : ∀ e ∈ resultsOf results.events, e.2.W.length = n)
    (h : align orc rlm solve results sel response us smm smo ignore = .ok out) {s : String}
    (hs : ∃ e ∈ resultsOf out.events, ∃ j, (respOf e.2 s j).isSome) :
    ∃ R row, out.R = some R ∧ R.get? s = some row ∧ ∀ i < n,
      row[i]? = some (Cell.ofOption (siteMean rlm (series (resultsOf out.events) i s))) := by
  have hp' := out_proper hp h
  obtain ⟨events', Nf, bands, hout, hW, hrow, hb, hrel, hband, hup, hsome, -⟩ :=
    align_ok (proper_rwf hp) h
  have hev : resultsOf out.events = events' := by rw [hout, resultsOf_map_some]
  rw [hev] at hs ⊢
  obtain ⟨R, hRR⟩ := Option.isSome_iff_exists.1 hsome
  rw [hRR, Option.getD_some] at hup
  have hmem : s ∈ stationList events' := by
    obtain ⟨e, he, j, hj⟩ := hs
    refine mem_stationList.2 ⟨e, he, ?_⟩
    unfold respOf at hj
    cases hg : e.2.R.get? s with
    | none => rw [hg] at hj; simp at hj
    | some l => exact List.mem_map.2 ⟨_, Dict.mem_of_get? hg, rfl⟩
  have hall := retained_iff.2 hs
  obtain ⟨m, hm, hg⟩ := (updateMeanR_get rlm events' _ (stationList_nodup _) _ _ hup s).2.2 hmem hall
  refine ⟨R, m, hRR, hg, ?_⟩
  intro i hi
  unfold gmeanlist at hm
  split at hm
  · simp at hm
  · rw [if_pos rfl] at hm
    have hF := mapExc_ok.1 hm
    -- rows have at least n entries
    have hlen : n ≤ ((stationRows events' s).headD []).length := by
      cases hr : stationRows events' s with
      | nil => rw [hr] at hall; simp at hall
      | cons r rs =>
        have hmr : r ∈ stationRows events' s := by rw [hr]; simp
        unfold stationRows at hmr
        obtain ⟨e, he, hge⟩ := List.mem_filterMap.1 hmr
        rw [List.headD_cons]
        obtain ⟨ev, m1⟩ := evrel_left hrel (id := e.1) (ev' := e.2) he
        obtain ⟨k, e1, e2, hal⟩ := evrel_get hrel (sorted_WF hp.ids) m1 he
        have hl := hal.frame.lenR s
        rw [hge, Option.map_some] at hl
        cases hg0 : ev.R.get? s with
        | none => rw [hg0] at hl; simp at hl
        | some l0 =>
          rw [hg0] at hl
          simp only [Option.map_some, Option.some.injEq] at hl
          have h1 := hrow _ m1 _ (Dict.mem_of_get? hg0)
          have h2 := hn _ (mem_sortedEvents.1 m1)
          have h3 := hW _ m1
          simp only at h1 h2 h3
          omega
    have hk : i < (List.range ((stationRows events' s).headD []).length).length := by
      rw [List.length_range]; omega
    have hk' : i < m.length := by rw [← hF.length_eq]; exact hk
    have hget := List.Forall₂.get hF hk hk'
    simp only [List.get_eq_getElem, List.getElem_range] at hget
    rw [gmean_robust] at hget
    simp only [bind, Except.bind, pure, Except.pure, Except.ok.injEq] at hget
    rw [List.getElem?_eq_getElem hk', ← hget, positives_column]
    intro e he x hx
    exact hp'.positive e (by rw [hev]; exact he) s i x hx

/-- **C12**, what happens otherwise: a station without retained responses keeps its old entry (or
gets none). -/
theorem C12_unretained_entry_unchanged (hst : ∀ e ∈ resultsOf results.events, e.2.R.WF)
    (h : align orc rlm solve results sel response us smm smo ignore = .ok out) {s : String}
    (hs : ¬ ∃ e ∈ resultsOf out.events, ∃ j, (respOf e.2 s j).isSome) :
    ∃ R, out.R = some R ∧ R.get? s = (results.R.getD []).get? s := by
  have hR : RWF (sortedEvents results.events) := fun e he => hst e (mem_sortedEvents.1 he)
  obtain ⟨events', Nf, bands, hout, hW, hrow, hb, hrel, hband, hup, hsome, -⟩ := align_ok hR h
  have hev : resultsOf out.events = events' := by rw [hout, resultsOf_map_some]
  rw [hev] at hs
  obtain ⟨R, hRR⟩ := Option.isSome_iff_exists.1 hsome
  rw [hRR, Option.getD_some] at hup
  refine ⟨R, hRR, ?_⟩
  obtain ⟨i1, i2, i3⟩ := updateMeanR_get rlm events' _ (stationList_nodup _) _ _ hup s
  by_cases hm : s ∈ stationList events'
  · apply i2 hm
    by_contra hc
    exact hs (retained_iff.1 (by simpa using hc))
  · exact i1 hm

/-- **C12** is false in general: after alignment without station `AB12` no event has a response of
it, but the table still reports the old value 5. -/
theorem C12_stale_mean_counterexample (orc : Oracle) (rlm : List ℝ → ℝ × ℝ) (us : Bool) :
    ∃ out R, align orc rlm (fun _ => someSolver) twoStations .all (.scalar 1) us none none
        (some ["AB12"]) = .ok out ∧
      (∀ e ∈ resultsOf out.events, ∀ j, respOf e.2 "AB12" j = none) ∧
      out.R = some R ∧ R.get? "AB12" = some [.num 5] := by
  have hR : RWF (sortedEvents twoStations.events) := proper_rwf two_proper
  obtain ⟨out, h⟩ := align_total (orc := orc) (rlm := rlm) (solve := fun _ => someSolver)
    (results := twoStations) (sel := .all) (response := .scalar 1) (us := us) (smo := none)
    (ignore := some ["AB12"]) (n := 1) two_complete.stations two_complete.some_event
    two_complete.energies two_complete.responses (fun _ _ => ⟨1, rfl⟩)
    (by
      intro i hi a ha
      obtain ⟨s, hs⟩ := (isArea_of_mem hR (largest_some ha).1).nonempty
      exact ⟨s, Finset.mem_filter.2 ⟨hs, rfl⟩⟩)
    (by
      intro i hi e he s hs
      have hi0 : i = 0 := by omega
      subst hi0
      exact ⟨"AB1", by intro l hl; simp only [Option.some.injEq] at hl; subst hl; simp,
        _, List.mem_singleton.2 rfl, by simp [two_resp]⟩)
    rfl (by simp [twoStations]) (by simp [twoStations])
  have hno : ∀ e ∈ resultsOf out.events, ∀ j, respOf e.2 "AB12" j = none := by
    intro e he j
    obtain ⟨bands, hrel, hlen, hband⟩ := out_rel hR h
    obtain ⟨ev, m1⟩ := evrel_left hrel (id := e.1) (ev' := e.2) he
    have m2 : (e.1, ev) ∈ resultsOf twoStations.events := mem_sortedEvents.1 m1
    have hge := Dict.get?_of_mem two_proper.ids (mem_resultsOf.1 m2)
    have hge' := Dict.get?_of_mem (out_proper two_proper h).ids
      (mem_resultsOf.1 (show (e.1, e.2) ∈ resultsOf out.events from he))
    by_cases hj : j = 0
    · subst hj
      have hdata : ∃ e ∈ resultsOf twoStations.events, ∃ s, (respOf e.2 s 0).isSome :=
        ⟨_, List.mem_singleton.2 rfl, "AB1", by simp [two_resp]⟩
      obtain ⟨area, harea, hk⟩ := C05_only_largest_area two_proper h hdata
      by_contra hc
      have h1 := ((hk _ _ _ hge hge').1 "AB12").1 (Option.isSome_iff_ne_none.2 hc)
      have h2 := (harea.data _ h1.1).1
      exact h2 ["AB12"] rfl (by simp)
    · apply (C01_missing_stays_missing two_proper.ids two_proper.stations h hge hge' j).2
      have m3 : (e.1, ev) = ("e", ⟨[.num 1], [("AB1", [.num 1]), ("AB12", [.num 4])], []⟩) :=
        List.mem_singleton.1 m2
      simp only [Prod.mk.injEq] at m3
      rw [m3.2]
      obtain ⟨j', rfl⟩ := Nat.exists_eq_succ_of_ne_zero hj
      simp [respOf, Dict.get?_cons, numAt]
  obtain ⟨R, hRR, hg⟩ := C12_unretained_entry_unchanged two_proper.stations h (s := "AB12")
    (by rintro ⟨e, he, j, hj⟩; rw [hno e he j] at hj; simp at hj)
  refine ⟨out, R, h, hno, hRR, ?_⟩
  rw [hg]
  simp [twoStations, Dict.get?_cons]

end Qopen
