import Verif.Props.WrapperKeys

/-!
# C91: the weighted mean of the events (`mean='weighted'`)

A value enters the mean with the inverse misfit of the same event and band as weight.
-/

namespace Qopen

open Util Catalog Collect Invert Wrapper

namespace Spec

/-- Value and misfit of band `i` in a row of values and a row of misfits; only positive values can
enter a geometric mean. -/
noncomputable def valueWithError (i : ℕ) (p : List Cell × List Cell) : Option (ℝ × ℝ) :=
  match p.1[i]?, p.2[i]? with
  | some (.num x), some (.num e) => if 0 < x then some (x, e) else none
  | _, _ => none

/-- Values and misfits of band `i`. -/
noncomputable def valuesWithErrors (rows errs : List (List Cell)) (i : ℕ) : List (ℝ × ℝ) :=
  (rows.zip errs).filterMap (valueWithError i)

/-- Geometric mean of values `x` with weights `1 / e`. -/
noncomputable def weightedGeoMean (l : List (ℝ × ℝ)) : ℝ :=
  Real.exp ((l.map (fun p => Real.log p.1 / p.2)).sum / (l.map (fun p => 1 / p.2)).sum)

/-- Each positive value of band `i` has a positive misfit. -/
def MisfitsKnown (rows errs : List (List Cell)) (i : ℕ) : Prop :=
  ∀ p ∈ rows.zip errs, ∀ x : ℝ, p.1[i]? = some (Cell.num x) → 0 < x →
    ∃ e, p.2[i]? = some (Cell.num e) ∧ 0 < e

/-- `out` are the band-wise weighted means of `rows` with misfits `errs`; there is one row of misfits
for each row of values.  There is no mean in a band without value or with a value whose misfit is zero
or missing. -/
structure WeightedBandMeans (rows errs : List (List Cell)) (out : List Cell) : Prop where
  paired : rows.length = errs.length
  length : ∀ row ∈ rows ++ errs, out.length = row.length
  empty : ∀ i < out.length, valuesWithErrors rows errs i = [] → out[i]? = some Cell.none
  infinite : ∀ i < out.length, ∀ p ∈ rows.zip errs, ∀ x : ℝ, p.1[i]? = some (Cell.num x) → 0 < x →
    (∀ e : ℝ, p.2[i]? = some (Cell.num e) → e = 0) → out[i]? = some Cell.none
  mean : ∀ i < out.length, valuesWithErrors rows errs i ≠ [] → MisfitsKnown rows errs i →
    out[i]? = some (Cell.num (weightedGeoMean (valuesWithErrors rows errs i)))

/-- `out` are the band-wise robust means of `rows`: the geometric mean for less than five positive
values, the exponential of the robust estimate (statsmodels' `RLM`) of the logarithms otherwise; the
robust estimate is not needed if all values are equal. -/
structure RobustBandMeans (rlm : List ℝ → ℝ × ℝ) (rows : List (List Cell)) (out : List Cell) :
    Prop where
  length : ∀ row ∈ rows, out.length = row.length
  empty : ∀ i < out.length, positives (rows.filterMap (fun row => row[i]?)) = [] →
    out[i]? = some Cell.none
  few : ∀ i < out.length, positives (rows.filterMap (fun row => row[i]?)) ≠ [] →
    (positives (rows.filterMap (fun row => row[i]?))).length < 5 →
    out[i]? = some (Cell.num (geoMean (positives (rows.filterMap (fun row => row[i]?)))))
  constant : ∀ i < out.length, ∀ c, positives (rows.filterMap (fun row => row[i]?)) ≠ [] →
    (∀ x ∈ positives (rows.filterMap (fun row => row[i]?)), x = c) → out[i]? = some (Cell.num c)
  many : ∀ i < out.length, 5 ≤ (positives (rows.filterMap (fun row => row[i]?))).length →
    (∃ x ∈ positives (rows.filterMap (fun row => row[i]?)),
      ∃ y ∈ positives (rows.filterMap (fun row => row[i]?)), x ≠ y) →
    out[i]? = some (Cell.num (Real.exp
      (rlm ((positives (rows.filterMap (fun row => row[i]?))).map Real.log)).1))

end Spec

namespace WeightedMean

theorem getD_map_toFloat (r : List Cell) (i : ℕ) :
    ((r.map Cell.toFloat).getD i .nan).val? = (r[i]?).bind Cell.val? := by
  rw [List.getD_eq_getElem?_getD, List.getElem?_map]
  cases h : r[i]? with
  | none => rfl
  | some c => cases c <;> rfl

theorem weightOf_getD (r : List Cell) (i : ℕ) :
    weightOf ((r.map Cell.toFloat).getD i .nan) = match r[i]? with
      | some (.num e) => 1 / e
      | _ => 0 := by
  rw [List.getD_eq_getElem?_getD, List.getElem?_map]
  cases h : r[i]? with
  | none => rfl
  | some c => cases c <;> rfl

theorem pairs_eq {rows errs : List (List Cell)} {i : ℕ}
    (hv : ∀ p ∈ rows.zip errs, ∀ x, p.1[i]? = some (.num x) → 0 < x →
      ∃ e, p.2[i]? = some (.num e)) :
    validPairs (maLog (maskedInvalid (column (rows.map (fun r => r.map Cell.toFloat)) i)))
      ((column (errs.map (fun r => r.map Cell.toFloat)) i).map weightOf) =
    (Spec.valuesWithErrors rows errs i).map (fun p => (Real.log p.1, 1 / p.2)) := by
  unfold validPairs maLog maskedInvalid column Spec.valuesWithErrors
  induction rows generalizing errs with
  | nil => simp
  | cons r rows ih =>
    cases errs with
    | nil => simp
    | cons e errs =>
      have ih := ih (errs := errs) (fun p hp => hv p (by
        rw [List.zip_cons_cons]; exact List.mem_cons_of_mem _ hp))
      have h0 := hv (r, e) (by rw [List.zip_cons_cons]; exact List.mem_cons_self)
      simp only [List.map_cons, List.zip_cons_cons, List.filterMap_cons] at ih ⊢
      rw [ih, getD_map_toFloat, weightOf_getD]
      unfold Spec.valueWithError
      simp only at h0 ⊢
      cases hr : r[i]? with
      | none => simp
      | some c =>
        cases c with
        | none => simp
        | nan => simp
        | num x =>
          by_cases hx : 0 < x
          · obtain ⟨er, he⟩ := h0 x hr hx
            simp [he, hx]
          · cases he : e[i]? with
            | none => simp [hx]
            | some c => cases c <;> simp [hx]

theorem sum_pos_of {l : List (ℝ × ℝ)} (hne : l ≠ []) (h : ∀ p ∈ l, 0 < p.2) :
    0 < (l.map (fun p => 1 / p.2)).sum := by
  refine List.sum_pos _ ?_ (by simpa using hne)
  intro x hx
  obtain ⟨p, hp, rfl⟩ := List.mem_map.1 hx
  exact one_div_pos.2 (h p hp)

theorem badWeight_iff (rows errs : List (List Cell)) (i : ℕ) :
    badWeight (maLog (maskedInvalid (column (rows.map (fun r => r.map Cell.toFloat)) i)))
      (column (errs.map (fun r => r.map Cell.toFloat)) i) ↔
    ∃ p ∈ rows.zip errs, ∃ x : ℝ, p.1[i]? = some (Cell.num x) ∧ 0 < x ∧
      ∀ e : ℝ, p.2[i]? = some (Cell.num e) → e = 0 := by
  have hval : ∀ r : List Cell, (((r.map Cell.toFloat).getD i .nan).val?.bind
      (fun x => if 0 < x then some (Real.log x) else none)).isSome ↔ ∃ x : ℝ, r[i]? = some (Cell.num x) ∧ 0 < x := by
    intro r
    rw [getD_map_toFloat]
    cases hr : r[i]? with
    | none => simp
    | some c =>
      cases c with
      | none => simp
      | nan => simp
      | num x => by_cases hx : 0 < x <;> simp [hx]
  have herr : ∀ r : List Cell, (((r.map Cell.toFloat).getD i .nan).val? = none ∨
      (r.map Cell.toFloat).getD i .nan = .num 0) ↔ ∀ e : ℝ, r[i]? = some (Cell.num e) → e = 0 := by
    intro r
    rw [getD_map_toFloat, List.getD_eq_getElem?_getD, List.getElem?_map]
    cases hr : r[i]? with
    | none => simp
    | some c => cases c <;> simp [Cell.toFloat]
  unfold badWeight maLog maskedInvalid column
  simp only [List.map_map, List.zip_map, List.mem_map, Function.comp, Prod.exists, Prod.map]
  constructor
  · rintro ⟨_, _, ⟨r, er, hm, h⟩, h1, h2⟩
    obtain ⟨rfl, rfl⟩ := Prod.mk.inj h
    obtain ⟨x, hx, hpos⟩ := (hval r).1 h1
    exact ⟨r, er, hm, x, hx, hpos, (herr er).1 h2⟩
  · rintro ⟨r, er, hm, x, hx, hpos, h2⟩
    exact ⟨_, _, ⟨r, er, hm, rfl⟩, (hval r).2 ⟨x, hx, hpos⟩, (herr er).2 h2⟩

theorem tableMean_weighted {rlm : List ℝ → ℝ × ℝ} {errs rows : List (List Cell)} {out : List Cell}
    (hne : rows ≠ [])
    (h : tableMean rlm .weighted (errs.map (fun r => r.map Cell.toFloat))
      (rows.map (fun r => r.map Cell.toFloat)) = .ok out) :
    Spec.WeightedBandMeans rows errs out := by
  obtain ⟨r0, rest, hr0⟩ := List.exists_cons_of_ne_nil hne
  have hnf : ((rows.map (fun r => r.map Cell.toFloat)).headD []).length = r0.length := by
    rw [hr0]; simp
  unfold tableMean at h
  rw [hnf] at h
  unfold gmeanlistW at h
  simp only at h
  split at h
  · simp at h
  rename_i h1
  push Not at h1
  simp only [Except.ok.injEq] at h
  obtain ⟨hl, hall⟩ := h1
  simp only [List.length_map] at hl
  have hlen : out.length = r0.length := by rw [← h]; simp
  have hall' : ∀ r ∈ rows ++ errs, r.length = r0.length := by
    intro r hr
    have := hall (r.map Cell.toFloat) (by
      rw [List.mem_append] at hr ⊢
      exact hr.imp (fun h => List.mem_map.2 ⟨r, h, rfl⟩) (fun h => List.mem_map.2 ⟨r, h, rfl⟩))
    simpa using this
  have hbad : ∀ i < out.length, (∃ p ∈ rows.zip errs, ∃ x : ℝ, p.1[i]? = some (Cell.num x) ∧ 0 < x ∧
      ∀ e : ℝ, p.2[i]? = some (Cell.num e) → e = 0) → out[i]? = some Cell.none := by
    intro i hi hb
    rw [← h, List.getElem?_map, List.getElem?_range (hlen ▸ hi), Option.map_some,
      if_pos ((badWeight_iff rows errs i).2 hb)]
  have hget : ∀ i < out.length, (∀ p ∈ rows.zip errs, ∀ x : ℝ, p.1[i]? = some (Cell.num x) → 0 < x →
      ∃ e : ℝ, p.2[i]? = some (Cell.num e) ∧ e ≠ 0) →
      out[i]? = some (Cell.ofOption ((maAverage
      (maLog (maskedInvalid (column (rows.map (fun r => r.map Cell.toFloat)) i)))
      (some ((column (errs.map (fun r => r.map Cell.toFloat)) i).map weightOf))).map Real.exp)) := by
    intro i hi hv
    rw [← h, List.getElem?_map, List.getElem?_range (hlen ▸ hi), Option.map_some, if_neg]
    rw [badWeight_iff]
    rintro ⟨p, hp, x, hx, hpos, h0⟩
    obtain ⟨e, he, hne⟩ := hv p hp x hx hpos
    exact hne (h0 e he)
  refine ⟨hl, fun r hr => by rw [hlen, hall' r hr], ?_,
    fun i hi p hp x hx hpos h0 => hbad i hi ⟨p, hp, x, hx, hpos, h0⟩, ?_⟩
  · intro i hi he
    by_cases hv : ∀ p ∈ rows.zip errs, ∀ x : ℝ, p.1[i]? = some (Cell.num x) → 0 < x →
        ∃ e : ℝ, p.2[i]? = some (Cell.num e) ∧ e ≠ 0
    · rw [hget i hi hv]
      unfold maAverage
      simp only
      rw [pairs_eq (fun p hp x hx hpos => (hv p hp x hx hpos).imp fun _ => And.left), he]
      simp [Cell.ofOption]
    · push Not at hv
      obtain ⟨p, hp, x, hx, hpos, h0⟩ := hv
      exact hbad i hi ⟨p, hp, x, hx, hpos, h0⟩
  · intro i hi hne hk
    have hv : ∀ p ∈ rows.zip errs, ∀ x : ℝ, p.1[i]? = some (Cell.num x) → 0 < x →
        ∃ e : ℝ, p.2[i]? = some (Cell.num e) ∧ e ≠ 0 := fun p hp x hx hpos =>
      (hk p hp x hx hpos).imp fun _ h => ⟨h.1, h.2.ne'⟩
    have hpos : ∀ p ∈ Spec.valuesWithErrors rows errs i, 0 < p.2 := by
      intro q hq
      obtain ⟨p, hp, hpq⟩ := List.mem_filterMap.1 hq
      unfold Spec.valueWithError at hpq
      split at hpq
      · rename_i x e hx he
        split at hpq
        · rename_i h0
          obtain ⟨e', he', hpos⟩ := hk p hp x hx h0
          rw [he] at he'
          simp only [Option.some.injEq, Cell.num.injEq] at he' hpq
          rw [← hpq]
          simp only
          rw [he']
          exact hpos
        · simp at hpq
      · simp at hpq
    rw [hget i hi hv]
    unfold maAverage
    simp only
    rw [pairs_eq (fun p hp x hx hpos => (hv p hp x hx hpos).imp fun _ => And.left)]
    have hs := sum_pos_of hne hpos
    rw [List.map_map, List.map_map]
    unfold Function.comp
    simp only
    rw [if_neg hs.ne']
    simp only [Option.map_some, Cell.ofOption, Spec.weightedGeoMean]
    have e : (fun p : ℝ × ℝ => Real.log p.1 * (1 / p.2)) = fun p => Real.log p.1 / p.2 := by
      funext p; ring
    rw [e]

theorem gmean_few {rlm : List ℝ → ℝ × ℝ} {data : List Cell}
    (h : (Spec.positives data).length < 5) :
    gmean rlm data none true 5 = gmean rlm data none := by
  unfold gmean
  rw [C48_fall_back rlm _ true 5 5 h]

theorem gmean_many {rlm : List ℝ → ℝ × ℝ} {data : List Cell}
    (h : 5 ≤ (Spec.positives data).length)
    (hd : ∃ x ∈ Spec.positives data, ∃ y ∈ Spec.positives data, x ≠ y) :
    gmean rlm data none true 5 =
      .ok (some (Real.exp (rlm ((Spec.positives data).map Real.log)).1)) := by
  have hv := validData_maLog data
  have hl : (validData (maLog (maskedInvalid data))).length = (Spec.positives data).length := by
    rw [hv]; simp
  have hp : ¬ ptpZero (validData (maLog (maskedInvalid data))) := by
    intro hz
    obtain ⟨x, hx, y, hy, hxy⟩ := hd
    rw [hv] at hz
    have := hz _ (List.mem_map.2 ⟨x, hx, rfl⟩) _ (List.mem_map.2 ⟨y, hy, rfl⟩)
    exact hxy (Real.log_injOn_pos (positives_pos hx) (positives_pos hy) this)
  unfold gmean gstat robustStat
  simp only [Option.isSome_none, Bool.and_false, Bool.false_eq_true, if_false, if_true]
  rw [if_neg (by rw [hl]; omega), if_neg hp, hv]
  rfl

theorem tableMean_robust {rlm : List ℝ → ℝ × ℝ} {errs rows : List (List Cell)} {out : List Cell}
    (hne : rows ≠ []) (hrect : ∀ r ∈ rows, ∀ r' ∈ rows, r.length = r'.length)
    (h : tableMean rlm .robust errs (rows.map (fun r => r.map Cell.toFloat)) = .ok out) :
    Spec.RobustBandMeans rlm rows out := by
  obtain ⟨r0, rest, hr0⟩ := List.exists_cons_of_ne_nil hne
  have hnf : ((rows.map (fun r => r.map Cell.toFloat)).headD []).length = r0.length := by
    rw [hr0]; simp
  have hall : ∀ r ∈ rows, r.length = r0.length :=
    fun r hr => hrect r hr r0 (by rw [hr0]; exact List.mem_cons_self)
  unfold tableMean at h
  rw [hnf] at h
  unfold gmeanlist at h
  simp only [if_true] at h
  split at h
  · simp at h
  have hF := mapExc_ok.1 h
  have hlen : out.length = r0.length := by rw [← hF.length_eq]; simp
  have hget : ∀ i, i < out.length → ∃ m, gmean rlm
      (column (rows.map (fun r => r.map Cell.toFloat)) i) none true 5 = .ok m ∧
      out[i]? = some (Cell.ofOption m) := by
    intro i hi
    have := (List.forall₂_iff_get.1 hF).2 i (by simp; omega) hi
    simp only [List.get_eq_getElem, List.getElem_range] at this
    obtain ⟨m, hm, this⟩ := bind_ok.1 this
    simp only [pure, Except.pure, Except.ok.injEq] at this
    exact ⟨m, hm, by rw [List.getElem?_eq_getElem hi, this]⟩
  have hpos : ∀ i, i < out.length → Spec.positives
      (column (rows.map (fun r => r.map Cell.toFloat)) i) =
      Spec.positives (rows.filterMap (fun row => row[i]?)) := by
    intro i hi
    rw [column_eq hall (by omega), positives_toFloat]
  refine ⟨fun r hr => by rw [hlen, hall r hr], ?_, ?_, ?_, ?_⟩
  · intro i hi he
    obtain ⟨m, hm, ho⟩ := hget i hi
    rw [gmean_few (by rw [hpos i hi, he]; simp), C45_gmean_is_geometric_mean, hpos i hi,
      if_pos he] at hm
    simp only [Except.ok.injEq] at hm
    rw [ho, ← hm]; rfl
  · intro i hi he hf
    obtain ⟨m, hm, ho⟩ := hget i hi
    rw [gmean_few (by rw [hpos i hi]; exact hf), C45_gmean_is_geometric_mean, hpos i hi,
      if_neg he] at hm
    simp only [Except.ok.injEq] at hm
    rw [ho, ← hm]; rfl
  · intro i hi c hne hc
    obtain ⟨m, hm, ho⟩ := hget i hi
    by_cases h2 : 2 ≤ (Spec.positives (rows.filterMap (fun row => row[i]?))).length
    · have := C48_constant rlm (column (rows.map (fun r => r.map Cell.toFloat)) i) true 5 c
        (by rw [hpos i hi]; exact hc) (by rw [hpos i hi]; exact h2)
      unfold gmean at hm
      rw [this] at hm
      simp only [bind, Except.bind, pure, Except.pure, Except.ok.injEq, Option.map_some] at hm
      rw [ho, ← hm]
      obtain ⟨x, hx⟩ := List.exists_mem_of_ne_nil _ hne
      have hcp : 0 < c := by
        rw [← hc x hx]; exact positives_pos hx
      simp [Cell.ofOption, Real.exp_log hcp]
    · have h1 : (Spec.positives (rows.filterMap (fun row => row[i]?))).length = 1 := by
        have := List.length_pos_iff.2 hne
        omega
      obtain ⟨x, hx⟩ := List.length_eq_one_iff.1 h1
      rw [gmean_few (by rw [hpos i hi]; omega), C45_gmean_is_geometric_mean, hpos i hi,
        if_neg hne] at hm
      simp only [Except.ok.injEq] at hm
      rw [ho, ← hm]
      have hxc : x = c := hc x (by rw [hx]; exact List.mem_cons_self)
      rw [hx, hxc]
      simp [Cell.ofOption, Spec.geoMean]
  · intro i hi hm5 hd
    obtain ⟨m, hm, ho⟩ := hget i hi
    rw [gmean_many (by rw [hpos i hi]; exact hm5) (by rw [hpos i hi]; exact hd), hpos i hi] at hm
    simp only [Except.ok.injEq] at hm
    rw [ho, ← hm]; rfl

/-- Site responses in the mean, for any kind of mean. -/
theorem sites_spec {rlm : List ℝ → ℝ × ℝ} {mean : Mean} {freq : List ℝ}
    {events : Dict String (Dict String RVal)} {w : WrapRes}
    (h : means rlm mean freq events = .ok (some w))
    (hwf : ∀ e ∈ events, ∀ R, e.2.get? "R" = some (.sites R) → R.WF) (sta : String) :
    (Spec.siteRows events sta = [] ∧ (w.R.getD []).get? sta = none) ∨
    ∃ errs m, Spec.siteRows events sta ≠ [] ∧ (w.R.getD []).get? sta = some m ∧
      Spec.rowsWith events "error" = errs ∧
      (∀ r ∈ Spec.siteRows events sta, ∀ r' ∈ Spec.siteRows events sta, r.length = r'.length) ∧
      tableMean rlm mean (errs.map (fun r => r.map Cell.toFloat))
        ((Spec.siteRows events sta).map (fun r => r.map Cell.toFloat)) = .ok m := by
  obtain ⟨col, g0, b, errs, sites, R, hc, hg, hb, he, hs, hg0, hbm, ⟨em, hem, hem'⟩, hR, hwR, hev, _⟩ :=
    means_some h
  have hget : (w.R.getD []).get? sta = Dict.get? R sta := by
    rw [hwR]
    split
    · rfl
    · next hlen =>
      have : R = [] := by
        cases R with
        | nil => rfl
        | cons _ _ => simp at hlen
      rw [this]
      rfl
  rw [hget]
  obtain ⟨d, hd, hsta⟩ := C39_sites (by decide) (by
    intro e he r R' hr hR'
    obtain ⟨e', he', rfl⟩ := List.mem_map.1 he
    simp only [Option.some.injEq] at hr
    exact hwf e' he' R' (by rw [hr]; exact hR')) hc (by simp)
  unfold sitesArray sitesOf at hs
  rw [hd] at hs
  simp only at hs
  rw [mapExc_ok] at hs
  have hs' : List.Forall₂ (fun (x : String × List Item) (y : String × List (List Cell)) =>
      x.1 = y.1 ∧ rowsOf x.2 = .ok y.2) d sites := by
    refine hs.imp ?_
    intro x y hxy
    obtain ⟨rows, hr, hxy⟩ := bind_ok.1 hxy
    simp only [pure, Except.pure, Except.ok.injEq] at hxy
    rw [← hxy]
    exact ⟨rfl, hr⟩
  rcases hsta sta with ⟨h1, h2⟩ | ⟨xs, a, h1, h2, h3, h4⟩
  · left
    rw [stationValues_eq] at h1
    refine ⟨h1, ?_⟩
    rcases get?_forall₂ (r := fun x y => rowsOf x = .ok y) hs' sta with ⟨_, h3⟩ | ⟨x, _, h3, _⟩
    · rcases get?_forall₂ (r := fun x y => tableMean rlm mean errs x = .ok y) hR sta with
        ⟨_, h4⟩ | ⟨x, _, h4, _⟩
      · exact h4
      · rw [h3] at h4; simp at h4
    · rw [h2] at h3; simp at h3
  · right
    rcases get?_forall₂ (r := fun x y => rowsOf x = .ok y) hs' sta with
      ⟨h5, _⟩ | ⟨x, rows, h5, h6, h7⟩
    · rw [h4] at h5; simp at h5
    rw [h4] at h5
    simp only [Option.some.injEq] at h5
    subst h5
    rcases get?_forall₂ (r := fun x y => tableMean rlm mean errs x = .ok y) hR sta with
      ⟨h8, _⟩ | ⟨rows', m, h8, h9, h10⟩
    · rw [h6] at h8; simp at h8
    rw [h6] at h8
    simp only [Option.some.injEq] at h8
    subst h8
    have h1' : List.Forall₂ (Spec.Picked none "R")
        ((Spec.stationValues (events := events.mapVals some) sta).map RVal.row) xs := by
      rw [List.forall₂_map_left_iff]; exact h1
    obtain ⟨rows0, e1, e2, e3⟩ := rows_of_array h1' h3 h7
    have e4 : Spec.stationValues (events.mapVals some) sta = rows0 :=
      List.map_injective_iff.2 (fun a b hab => by simpa using hab) e1
    rcases arrayOf_spec hc (Or.inr (Or.inr rfl)) he with ⟨hx, _⟩ | ⟨errs0, hv, _, hx, _⟩
    · simp at hx
    simp only [Option.some.injEq] at hx
    rw [← stationValues_eq, e4]
    refine ⟨errs0, m, ?_, h9, valuesOf_rows hv, e3, ?_⟩
    · rintro rfl
      rw [e4] at h1
      exact h2 (List.forall₂_nil_left_iff.1 h1)
    · rw [← e2, ← hx]; exact h10

/-- Overall `g0`, `b` and `error`, for any kind of mean. -/
theorem rows_spec {rlm : List ℝ → ℝ × ℝ} {mean : Mean} {freq : List ℝ}
    {events : Dict String (Dict String RVal)} {w : WrapRes}
    (h : means rlm mean freq events = .ok (some w)) (key : String) (out : Option (List Cell))
    (hk : (key = "g0" ∧ out = w.g0) ∨ (key = "b" ∧ out = w.b) ∨ (key = "error" ∧ out = w.error)) :
    (out = none ∧ ∀ e ∈ events, e.2.get? key = none) ∨
    ∃ errs m, out = some m ∧ Spec.rowsWith events key ≠ [] ∧ Spec.rowsWith events "error" = errs ∧
      (∀ r ∈ Spec.rowsWith events key, ∀ r' ∈ Spec.rowsWith events key, r.length = r'.length) ∧
      tableMean rlm mean (errs.map (fun r => r.map Cell.toFloat))
        ((Spec.rowsWith events key).map (fun r => r.map Cell.toFloat)) = .ok m := by
  obtain ⟨col, g0, b, errs, sites, R, hc, hg, hb, he, hs, hg0, hbm, ⟨em, hem, hem'⟩, hR, hwR, hev, _⟩ :=
    means_some h
  rcases arrayOf_spec hc (Or.inr (Or.inr rfl)) he with ⟨hx, _⟩ | ⟨errs0, hve, _, hx, _⟩
  · simp at hx
  simp only [Option.some.injEq] at hx
  have hkey : key = "g0" ∨ key = "b" ∨ key = "error" := by
    rcases hk with h | h | h
    · exact Or.inl h.1
    · exact Or.inr (Or.inl h.1)
    · exact Or.inr (Or.inr h.1)
  have : ∃ a, arrayOf col key = .ok a ∧ meanIf rlm mean errs a = .ok out := by
    rcases hk with ⟨rfl, rfl⟩ | ⟨rfl, rfl⟩ | ⟨rfl, rfl⟩
    · exact ⟨g0, hg, hg0⟩
    · exact ⟨b, hb, hbm⟩
    · refine ⟨some errs, he, ?_⟩
      unfold meanIf
      simp only
      rw [hem', hem]
      rfl
  obtain ⟨a, ha, hm⟩ := this
  rcases arrayOf_spec hc hkey ha with ⟨rfl, hv⟩ | ⟨rows0, hv, hne, rfl, hrect⟩
  · left
    unfold meanIf at hm
    simp only [Except.ok.injEq] at hm
    refine ⟨hm.symm, fun e he => ?_⟩
    unfold Spec.valuesOf at hv
    rw [List.filterMap_eq_nil_iff] at hv
    exact hv (e.1, some e.2) (List.mem_map.2 ⟨e, he, rfl⟩)
  · right
    unfold meanIf at hm
    simp only at hm
    obtain ⟨m, hm, hm2⟩ := bind_ok.1 hm
    simp only [pure, Except.pure, Except.ok.injEq] at hm2
    rw [valuesOf_rows hv]
    exact ⟨errs0, m, hm2.symm, hne, valuesOf_rows hve, hrect, by rw [← hx]; exact hm⟩

theorem means_of_wrapper {rlm : List ℝ → ℝ × ℝ} {inv : List Event → Py (Option InvRes)}
    {codaNorm : Bool} {mean : Mean} {events : List Event} {w : WrapRes}
    (h : invertWrapper rlm inv codaNorm false mean events = .ok (some w)) :
    ∃ freq, means rlm mean freq w.events = .ok (some w) := by
  obtain ⟨order, ho, h⟩ := bind_ok.1 h
  rw [if_neg (by simp)] at h
  obtain ⟨st, hst, h⟩ := bind_ok.1 h
  split at h
  · simp [pure, Except.pure] at h
  obtain ⟨_, _, _, _, _, _, _, _, _, _, _, _, _, _, _, _, hev, _⟩ := means_some h
  exact ⟨_, by rw [hev]; exact h⟩

theorem filterMap_length_eq {α β : Type} {f : α → Option β} {l : List α}
    (h : (l.filterMap f).length = l.length) : ∀ a ∈ l, ∃ b, f a = some b := by
  induction l with
  | nil => simp
  | cons a l ih =>
    cases hf : f a with
    | none =>
      rw [List.filterMap_cons_none hf] at h
      have := List.length_filterMap_le f l
      simp at h
      omega
    | some b =>
      rw [List.filterMap_cons_some hf] at h
      intro x hx
      rcases List.mem_cons.1 hx with rfl | hx
      · exact ⟨b, hf⟩
      · exact ih (by simpa using h) x hx

theorem rowsWith_length {events : Dict String (Dict String RVal)} {key : String}
    (h : ∀ e ∈ events, ∃ row, e.2.get? key = some (.row row)) :
    (Spec.rowsWith events key).length = events.length := by
  unfold Spec.rowsWith
  induction events with
  | nil => rfl
  | cons e l ih =>
    obtain ⟨row, hr⟩ := h e List.mem_cons_self
    rw [List.filterMap_cons_some (b := row) (by rw [hr])]
    simp [ih (fun e he => h e (List.mem_cons_of_mem _ he))]

end WeightedMean

open WeightedMean

/-- **C91** for `mean='weighted'`: whenever `invert_wrapper` returns a result for separately inverted
events, the overall `g0`, `b` and `error` are in each band the geometric means of the values of the
events with the inverse misfits of the same events as weights, and the same is true for the site
response of each station.

A value whose misfit is zero (an exact fit) has infinite weight and there is no mean in this band.  The
call returns for all results of `invert`, see `C135_separate`. -/
theorem C91_weighted {rlm : List ℝ → ℝ × ℝ} {inv : List Event → Py (Option InvRes)}
    {codaNorm : Bool} {events : List Event} {w : WrapRes}
    (h : invertWrapper rlm inv codaNorm false .weighted events = .ok (some w)) :
    (∀ key out, (key = "g0" ∧ out = w.g0) ∨ (key = "b" ∧ out = w.b) ∨ (key = "error" ∧ out = w.error) →
      (out = none ∧ ∀ e ∈ w.events, e.2.get? key = none) ∨
      ∃ m, out = some m ∧ Spec.WeightedBandMeans (Spec.rowsWith w.events key)
        (Spec.rowsWith w.events "error") m) ∧
    ((∀ e ∈ w.events, ∀ R, e.2.get? "R" = some (.sites R) → R.WF) → ∀ sta,
      (Spec.siteRows w.events sta = [] ∧ (w.R.getD []).get? sta = none) ∨
      ∃ m, (w.R.getD []).get? sta = some m ∧
        Spec.WeightedBandMeans (Spec.siteRows w.events sta) (Spec.rowsWith w.events "error") m) := by
  obtain ⟨freq, hm⟩ := means_of_wrapper h
  constructor
  · intro key out hk
    rcases rows_spec hm key out hk with h1 | ⟨errs, m, h1, h2, h3, _, h5⟩
    · exact Or.inl h1
    · exact Or.inr ⟨m, h1, h3 ▸ tableMean_weighted h2 h5⟩
  · intro hwf sta
    rcases sites_spec hm hwf sta with h1 | ⟨errs, m, h1, h2, h3, _, h5⟩
    · exact Or.inl h1
    · exact Or.inr ⟨m, h2, h3 ▸ tableMean_weighted h1 h5⟩

/-- **C91** together with the inversion of the events (command `go`): the overall `g0` and `b` are
weighted with the misfits of the inversions of the same events; each inversion with a result takes
part.  Each station of the result is part of the results of all events. -/
theorem C91_weighted_attenuation {rlm : List ℝ → ℝ × ℝ} {env : Env} {cfg : InvCfg}
    {cpus : ℕ} {schedule : List Event → List ℕ} {events : List Event} {w : WrapRes}
    (hid : (events.map getEventid).Nodup) (hcmd : cfg.cmd = .go)
    (h : invertWrapper rlm (fun evs => invert env cfg cpus (schedule evs) evs) cfg.codaNorm.isSome
      false .weighted events = .ok (some w)) :
    ∃ order outcomes, Spec.InTimeOrder events order ∧
      List.Forall₂ (fun ev o => invert env cfg cpus (schedule [ev]) [ev] = .ok o) order outcomes ∧
      (∃ g0 b, w.g0 = some g0 ∧ w.b = some b ∧
        Spec.WeightedBandMeans ((outcomes.filterMap id).filterMap (·.g0))
          ((outcomes.filterMap id).map (·.error)) g0 ∧
        Spec.WeightedBandMeans ((outcomes.filterMap id).filterMap (·.b))
          ((outcomes.filterMap id).map (·.error)) b) ∧
      (∀ r ∈ outcomes.filterMap id, r.g0.isSome ∧ r.b.isSome) ∧
      ((∀ e ∈ w.events, ∀ R, e.2.get? "R" = some (.sites R) → R.WF) → ∀ sta,
        Spec.siteRows w.events sta ≠ [] → ∀ e ∈ w.events, ∃ R row,
          e.2.get? "R" = some (.sites R) ∧ R.get? sta = some row) := by
  obtain ⟨hmeans, hsites⟩ := C91_weighted h
  obtain ⟨order, outs, hord, h1, hg, hb, he, hne, hsome, herr⟩ := go_rows hid hcmd h
  have get : ∀ key out rows, Spec.rowsWith w.events key = rows → rows ≠ [] →
      ((key = "g0" ∧ out = w.g0) ∨ (key = "b" ∧ out = w.b) ∨ (key = "error" ∧ out = w.error)) →
      ∃ m, out = some m ∧ Spec.WeightedBandMeans rows ((outs.filterMap id).map (·.error)) m := by
    intro key out rows hr hn hk
    rcases hmeans key out hk with ⟨_, hnone⟩ | ⟨m, hm, hb⟩
    · exact absurd (hr ▸ rowsWith_nil hnone) hn
    · exact ⟨m, hm, he ▸ hr ▸ hb⟩
  obtain ⟨g, hg1, hg2⟩ := get "g0" w.g0 _ hg (filterMap_ne_nil hne fun r hr => (hsome r hr).1)
    (Or.inl ⟨rfl, rfl⟩)
  obtain ⟨bb, hb1, hb2⟩ := get "b" w.b _ hb (filterMap_ne_nil hne fun r hr => (hsome r hr).2)
    (Or.inr (Or.inl ⟨rfl, rfl⟩))
  refine ⟨order, outs, hord, h1, ⟨g, bb, hg1, hb1, hg2, hb2⟩, hsome, ?_⟩
  intro hwf sta hsta e hem
  rcases hsites hwf sta with ⟨h2, _⟩ | ⟨m, _, hm⟩
  · exact absurd h2 hsta
  have hl := hm.paired
  rw [rowsWith_length herr] at hl
  unfold Spec.siteRows at hl
  obtain ⟨row, hrow⟩ := filterMap_length_eq hl e hem
  cases hR : e.2.get? "R" with
  | none => rw [hR] at hrow; simp at hrow
  | some v =>
    rw [hR] at hrow
    cases v with
    | sites R => exact ⟨R, row, rfl, hrow⟩
    | cell _ => simp at hrow
    | row _ => simp at hrow

/-- **C91** for `mean='robust'`: overall values and site responses are in each band the robust means
of the values of the events. -/
theorem C91_robust {rlm : List ℝ → ℝ × ℝ} {inv : List Event → Py (Option InvRes)}
    {codaNorm : Bool} {events : List Event} {w : WrapRes}
    (h : invertWrapper rlm inv codaNorm false .robust events = .ok (some w)) :
    (∀ key out, (key = "g0" ∧ out = w.g0) ∨ (key = "b" ∧ out = w.b) ∨ (key = "error" ∧ out = w.error) →
      (out = none ∧ ∀ e ∈ w.events, e.2.get? key = none) ∨
      ∃ m, out = some m ∧ Spec.RobustBandMeans rlm (Spec.rowsWith w.events key) m) ∧
    ((∀ e ∈ w.events, ∀ R, e.2.get? "R" = some (.sites R) → R.WF) → ∀ sta,
      (Spec.siteRows w.events sta = [] ∧ (w.R.getD []).get? sta = none) ∨
      ∃ m, (w.R.getD []).get? sta = some m ∧
        Spec.RobustBandMeans rlm (Spec.siteRows w.events sta) m) := by
  obtain ⟨freq, hm⟩ := means_of_wrapper h
  constructor
  · intro key out hk
    rcases rows_spec hm key out hk with h1 | ⟨errs, m, h1, h2, _, h4, h5⟩
    · exact Or.inl h1
    · exact Or.inr ⟨m, h1, tableMean_robust h2 h4 h5⟩
  · intro hwf sta
    rcases sites_spec hm hwf sta with h1 | ⟨errs, m, h1, h2, _, h4, h5⟩
    · exact Or.inl h1
    · exact Or.inr ⟨m, h2, tableMean_robust h1 h4 h5⟩

/-- **C91** for equal misfits: the weighted mean is the plain mean, whatever the misfit is. -/
theorem C91_equal_weights {rows errs : List (List Cell)} {out : List Cell} {i : ℕ} {e : ℝ}
    (h : Spec.WeightedBandMeans rows errs out) (hi : i < out.length) (he : 0 < e)
    (heq : ∀ r ∈ errs, r[i]? = some (.num e))
    (hne : Spec.positives (rows.filterMap (fun row => row[i]?)) ≠ []) :
    out[i]? = some (.num (Spec.geoMean (Spec.positives (rows.filterMap (fun row => row[i]?))))) := by
  have hpairs : ∀ (rows errs : List (List Cell)), rows.length = errs.length →
      (∀ r ∈ errs, r[i]? = some (.num e)) → Spec.valuesWithErrors rows errs i =
      (Spec.positives (rows.filterMap (fun row => row[i]?))).map (fun x => (x, e)) := by
    intro rows
    induction rows with
    | nil => intro errs _ _; rfl
    | cons r rows ih =>
      intro errs hl hh
      cases errs with
      | nil => simp at hl
      | cons er errs =>
        have ih := ih errs (by simpa using hl) (fun r hr => hh r (List.mem_cons_of_mem _ hr))
        have h0 := hh er List.mem_cons_self
        unfold Spec.valuesWithErrors at ih ⊢
        rw [List.zip_cons_cons, List.filterMap_cons, ih]
        unfold Spec.valueWithError Spec.positives
        simp only
        rw [h0]
        cases hr : r[i]? with
        | none => simp [hr]
        | some c =>
          cases c with
          | none => simp [hr]
          | nan => simp [hr]
          | num x =>
            by_cases hx : 0 < x <;> simp [hr, hx]
  have hp := hpairs rows errs h.paired heq
  have hm := h.mean i hi (by rw [hp]; simpa using hne) (by
    intro p hpm x _ _
    exact ⟨e, heq p.2 (List.of_mem_zip hpm).2, he⟩)
  rw [hm, hp]
  congr 2
  unfold Spec.weightedGeoMean
  rw [List.map_map, List.map_map]
  unfold Function.comp
  simp only [List.map_const', List.sum_replicate, nsmul_eq_mul]
  rw [← exp_mean_log _ (fun x hx => positives_pos hx)]
  congr 1
  generalize Spec.positives (rows.filterMap (fun row => row[i]?)) = l at hne
  have hl : (l.length : ℝ) ≠ 0 := by
    have := List.length_pos_iff.2 hne
    positivity
  have hs : (l.map (fun x => Real.log x / e)).sum = (l.map Real.log).sum / e := by
    clear hne hl
    induction l with
    | nil => simp
    | cons a l ih => simp [ih, add_div]
  rw [hs]
  field_simp

/-! ### Examples -/

namespace WeightedExample

open WrapperExample

/-- Results of two events in one band; `sites` are the stations of the second event. -/
noncomputable def exRes (sites : List String) (id : String) : InvRes :=
  if id = "e1" then ⟨[1], some [.num 1], some [.num 2], [.num 3], [1], none,
    some [("A", [.num 1])], [("e1", ⟨[.num 1], [], []⟩)]⟩
  else ⟨[1], some [.num 4], some [.num 2], [.num 12], [1], none,
    some (sites.map (fun s => (s, [.num 1]))), [(id, ⟨[.num 1], [], []⟩)]⟩

/-- An inversion of single events with these results. -/
noncomputable def exInv (sites : List String) (evs : List Event) : Py (Option InvRes) :=
  match evs with
  | [e] => .ok (some (exRes sites (getEventid e)))
  | _ => .ok none

theorem exEntry1 (sites : List String) : eventEntry false "e1" (exRes sites "e1") = .ok
    [("g0", .row [.num 1]), ("b", .row [.num 2]), ("nstations", .row [.num 1]),
     ("error", .row [.num 3]), ("W", .row [.num 1]), ("R", .sites [("A", [.num 1])])] := by
  simp [eventEntry, exRes, Dict.get?, baseItems, eventItems, Dict.mapVals, Dict.update, Dict.set,
    sortDict, dumpOrder, List.mergeSort, List.MergeSort.Internal.splitInTwo, List.merge, List.idxOf,
    List.findIdx, List.findIdx.go]

theorem exEntry2 (sites : List String) : eventEntry false "e2" (exRes sites "e2") = .ok
    [("g0", .row [.num 4]), ("b", .row [.num 2]), ("nstations", .row [.num 1]),
     ("error", .row [.num 12]), ("W", .row [.num 1]),
     ("R", .sites (sites.map (fun s => (s, [.num 1]))))] := by
  simp [eventEntry, exRes, Dict.get?, baseItems, eventItems, Dict.mapVals, Dict.update, Dict.set,
    sortDict, dumpOrder, List.mergeSort, List.MergeSort.Internal.splitInTwo, List.merge, List.idxOf,
    List.findIdx, List.findIdx.go]

/-- The events of the result. -/
noncomputable def exEvents (sites : List String) : Dict String (Dict String RVal) :=
  [("e1", [("g0", .row [.num 1]), ("b", .row [.num 2]), ("nstations", .row [.num 1]),
     ("error", .row [.num 3]), ("W", .row [.num 1]), ("R", .sites [("A", [.num 1])])]),
   ("e2", [("g0", .row [.num 4]), ("b", .row [.num 2]), ("nstations", .row [.num 1]),
     ("error", .row [.num 12]), ("W", .row [.num 1]),
     ("R", .sites (sites.map (fun s => (s, [.num 1]))))])]

theorem exWrapper (rlm : List ℝ → ℝ × ℝ) (mean : Mean) (sites : List String) :
    invertWrapper rlm (exInv sites) false false mean [ev "x/e2" 2, ev "x/e1" 1] =
      means rlm mean [1] (exEvents sites) := by
  unfold invertWrapper
  rw [exOrder]
  have i1 : getEventid (ev "x/e1" 1) = "e1" := by rw [exId _ _ (by simp)]; rfl
  have i2 : getEventid (ev "x/e2" 2) = "e2" := by rw [exId _ _ (by simp)]; rfl
  have h1 : exInv sites [ev "x/e1" 1] = .ok (some (exRes sites "e1")) := by
    unfold exInv; simp only; rw [i1]
  have h2 : exInv sites [ev "x/e2" 2] = .ok (some (exRes sites "e2")) := by
    unfold exInv; simp only; rw [i2]
  have hl : [ev "x/e1" 1, ev "x/e2" 2].foldlM (loopStep (exInv sites) false) {} =
      .ok ⟨some [1], exEvents sites⟩ := by
    simp only [List.foldlM_cons, List.foldlM_nil, loopStep, h1, h2, i1, i2, exEntry1, exEntry2, bind,
      Except.bind, pure, Except.pure, Dict.set]
    rfl
  simp only [bind, Except.bind, separately, hl, Bool.false_eq_true, if_false]
  rfl

theorem means_eq {rlm : List ℝ → ℝ × ℝ} {mean : Mean} {freq : List ℝ}
    {events : Dict String (Dict String RVal)} {col : Dict String ColVal}
    {g0 b errs : List (List Cell)} {sites : Dict String (List (List Cell))}
    (hc : collectResults (events.mapVals some) ["g0", "b", "error", "R"] = .ok col)
    (hg : arrayOf col "g0" = .ok (some g0)) (hn : allNan g0 = false)
    (hb : arrayOf col "b" = .ok (some b)) (he : arrayOf col "error" = .ok (some errs))
    (hs : sitesArray col = .ok sites) :
    means rlm mean freq events = (do
      let gm ← tableMean rlm mean errs g0
      let bm ← tableMean rlm mean errs b
      let em ← tableMean rlm mean errs errs
      let R ← mapExc (fun kv => do
        let m ← tableMean rlm mean errs kv.2
        return (kv.1, m)) sites
      return some { freq := freq, events := events, g0 := some gm, b := some bm, error := some em
                    R := if R.length > 0 then some R else none }) := by
  unfold means
  rw [hc]
  simp only [bind, Except.bind]
  rw [hg]
  simp only [Option.map_some, hn]
  rw [hb, he]
  simp only [Option.isSome_some, Option.isNone_some, hs, meanIf, bind, Except.bind]
  rw [if_neg (by simp)]
  cases tableMean rlm mean errs g0 <;> cases tableMean rlm mean errs b <;> rfl

/-- The weighted mean of a table with one band and positive misfits is a number. -/
theorem tableMean_band (rlm : List ℝ → ℝ × ℝ) (errs rows : List ℝ) (hl : rows.length = errs.length)
    (hne : rows ≠ []) :
    ∃ out, tableMean rlm .weighted (errs.map (fun e => [.num e])) (rows.map (fun x => [.num x])) =
      .ok out := by
  unfold tableMean
  obtain ⟨r0, rest, hr⟩ := List.exists_cons_of_ne_nil hne
  have h1 : ((rows.map (fun x => [Cell.num x])).headD []).length = 1 := by rw [hr]; rfl
  rw [h1]
  simp only
  unfold gmeanlistW
  rw [if_neg (by
    push Not
    refine ⟨by simpa using hl, ?_⟩
    intro r hrm
    rw [List.mem_append, List.mem_map, List.mem_map] at hrm
    rcases hrm with ⟨_, _, rfl⟩ | ⟨_, _, rfl⟩ <;> rfl)]
  exact ⟨_, rfl⟩

theorem tableMean_mismatch (rlm : List ℝ → ℝ × ℝ) (errs rows : List (List Cell))
    (hl : rows.length ≠ errs.length) :
    tableMean rlm .weighted errs rows = .error .typeError := by
  unfold tableMean gmeanlistW
  simp only
  rw [if_pos (Or.inl hl)]

end WeightedExample

open WeightedExample WrapperExample in
/-- The weighted mean needs the same stations for all events: if an inversion gave one more station for
the second event than for the first one, `invert_wrapper` would raise `TypeError`, but not for the plain
mean.  The results of `invert` have all stations of the inventory for each event (C23), so that this
does not happen (C135). -/
theorem WeightedExample.differing_stations (rlm : List ℝ → ℝ × ℝ) :
    (∀ e ∈ [ev "x/e2" 2, ev "x/e1" 1], ∃ r, WeightedExample.exInv ["A", "B"] [e] = .ok (some r)) ∧
    invertWrapper rlm (WeightedExample.exInv ["A", "B"]) false false .weighted
      [ev "x/e2" 2, ev "x/e1" 1] = .error .typeError ∧
    ∃ w, invertWrapper rlm (WeightedExample.exInv ["A", "B"]) false false .plain
      [ev "x/e2" 2, ev "x/e1" 1] = .ok (some w) ∧ w.events.keys = ["e1", "e2"] := by
  refine ⟨fun e he => ⟨_, rfl⟩, ?_, ?_⟩
  · obtain ⟨o1, h1⟩ := tableMean_band rlm [3, 12] [1, 4] rfl (by simp)
    obtain ⟨o2, h2⟩ := tableMean_band rlm [3, 12] [2, 2] rfl (by simp)
    obtain ⟨o3, h3⟩ := tableMean_band rlm [3, 12] [3, 12] rfl (by simp)
    obtain ⟨o4, h4⟩ := tableMean_band rlm [3, 12] [1, 1] rfl (by simp)
    have h5 := tableMean_mismatch rlm [[.num 3], [.num 12]] [[.num 1]] (by simp)
    simp only [List.map_cons, List.map_nil] at h1 h2 h3 h4
    rw [WeightedExample.exWrapper, means_eq (g0 := [[.num 1], [.num 4]]) (b := [[.num 2], [.num 2]])
      (errs := [[.num 3], [.num 12]]) (sites := [("A", [[.num 1], [.num 1]]), ("B", [[.num 1]])])
      rfl rfl rfl rfl rfl rfl]
    simp only [h1, h2, h3, bind, Except.bind, mapExc, h4, h5, pure, Except.pure]
  · rw [WeightedExample.exWrapper]
    exact ⟨_, rfl, rfl⟩

open WeightedExample WrapperExample in
/-- Two events with the same station give a weighted mean: `C91_weighted` is not vacuous. -/
theorem WeightedExample.exWeighted (rlm : List ℝ → ℝ × ℝ) :
    ∃ w, invertWrapper rlm (WeightedExample.exInv ["A"]) false false .weighted
      [ev "x/e2" 2, ev "x/e1" 1] = .ok (some w) ∧ w.events = exEvents ["A"] ∧ w.g0.isSome := by
  obtain ⟨o1, h1⟩ := tableMean_band rlm [3, 12] [1, 4] rfl (by simp)
  obtain ⟨o2, h2⟩ := tableMean_band rlm [3, 12] [2, 2] rfl (by simp)
  obtain ⟨o3, h3⟩ := tableMean_band rlm [3, 12] [3, 12] rfl (by simp)
  obtain ⟨o4, h4⟩ := tableMean_band rlm [3, 12] [1, 1] rfl (by simp)
  simp only [List.map_cons, List.map_nil] at h1 h2 h3 h4
  rw [WeightedExample.exWrapper, means_eq (g0 := [[.num 1], [.num 4]]) (b := [[.num 2], [.num 2]])
    (errs := [[.num 3], [.num 12]]) (sites := [("A", [[.num 1], [.num 1]])])
    rfl rfl rfl rfl rfl rfl]
  simp only [h1, h2, h3, bind, Except.bind, mapExc, h4, pure, Except.pure]
  exact ⟨_, rfl, rfl, rfl⟩

open WeightedExample WrapperExample in
/-- The weighted mean of `g0` in this example: values 1 and 4 with misfits 3 and 12. -/
example (rlm : List ℝ → ℝ × ℝ) :
    ∃ w g, invertWrapper rlm (WeightedExample.exInv ["A"]) false false .weighted
      [ev "x/e2" 2, ev "x/e1" 1] = .ok (some w) ∧ w.g0 = some g ∧
      g[0]? = some (.num (Spec.weightedGeoMean [(1, 3), (4, 12)])) := by
  obtain ⟨w, hw, hev, hg⟩ := WeightedExample.exWeighted rlm
  rcases (C91_weighted hw).1 "g0" w.g0 (Or.inl ⟨rfl, rfl⟩) with ⟨h1, _⟩ | ⟨m, h1, h2⟩
  · rw [h1] at hg; simp at hg
  have hr : Spec.rowsWith w.events "g0" = [[.num 1], [.num 4]] := by rw [hev]; rfl
  have he : Spec.rowsWith w.events "error" = [[.num 3], [.num 12]] := by rw [hev]; rfl
  rw [hr, he] at h2
  have hp : Spec.valuesWithErrors [[.num 1], [.num 4]] [[.num 3], [.num 12]] 0 =
      [(1, 3), (4, 12)] := by
    simp [Spec.valuesWithErrors, Spec.valueWithError]
  have hl : m.length = 1 := h2.length [.num 1] (by simp)
  refine ⟨w, m, hw, h1, ?_⟩
  have := h2.mean 0 (by omega)
  rw [hp] at this
  refine this (by simp) ?_
  intro p hp x hx _
  simp only [List.zip_cons_cons, List.zip_nil_right, List.mem_cons, List.not_mem_nil, or_false] at hp
  rcases hp with rfl | rfl
  · exact ⟨3, rfl, by norm_num⟩
  · exact ⟨12, rfl, by norm_num⟩

open WeightedExample WrapperExample in
/-- `C91_robust` is not vacuous. -/
example (rlm : List ℝ → ℝ × ℝ) :
    ∃ w, invertWrapper rlm (WeightedExample.exInv ["A", "B"]) false false .robust
      [ev "x/e2" 2, ev "x/e1" 1] = .ok (some w) ∧ w.events.keys = ["e1", "e2"] := by
  have hrob : ∀ rows : List (List Cell), (∀ r ∈ rows, r.length = 1) → rows ≠ [] → ∀ errs,
      ∃ o, tableMean rlm .robust errs rows = .ok o := by
    intro rows hr hne errs
    obtain ⟨r0, rest, hr0⟩ := List.exists_cons_of_ne_nil hne
    unfold tableMean
    have h1 : (rows.headD []).length = 1 := by rw [hr0]; exact hr r0 (by rw [hr0]; simp)
    rw [h1]
    obtain ⟨o, ho, _⟩ := C49_gmeanlist_robust rlm rows 1 5 (by simp) hr
    exact ⟨o, ho⟩
  obtain ⟨o1, h1⟩ := hrob [[.num 1], [.num 4]] (by simp) (by simp) [[.num 3], [.num 12]]
  obtain ⟨o2, h2⟩ := hrob [[.num 2], [.num 2]] (by simp) (by simp) [[.num 3], [.num 12]]
  obtain ⟨o3, h3⟩ := hrob [[.num 3], [.num 12]] (by simp) (by simp) [[.num 3], [.num 12]]
  obtain ⟨o4, h4⟩ := hrob [[.num 1], [.num 1]] (by simp) (by simp) [[.num 3], [.num 12]]
  obtain ⟨o5, h5⟩ := hrob [[.num 1]] (by simp) (by simp) [[.num 3], [.num 12]]
  rw [WeightedExample.exWrapper, means_eq (g0 := [[.num 1], [.num 4]]) (b := [[.num 2], [.num 2]])
    (errs := [[.num 3], [.num 12]]) (sites := [("A", [[.num 1], [.num 1]]), ("B", [[.num 1]])])
    rfl rfl rfl rfl rfl rfl]
  simp only [h1, h2, h3, bind, Except.bind, mapExc, h4, h5, pure, Except.pure]
  exact ⟨_, rfl, rfl⟩

end Qopen
