import Verif.Model.Figures
import Verif.Props.WeightedMean
import Verif.Props.Imaging
import Verif.Props.StatValue

/-!
# C93: the figure of the results shows the reported results (imaging.py `plot_results`)
-/

namespace Qopen

open Util Catalog Collect Invert Wrapper Imaging Figures WeightedMean

namespace Spec

/-- The reported row of a quantity. -/
def reported (w : WrapRes) (key : String) : Option (List Cell) :=
  if key = "g0" then w.g0 else if key = "b" then w.b else if key = "error" then w.error else none

/-- The quantity which has to be known for a derived one. -/
def baseOf (q : String) : String :=
  if q = "lsc" ∨ q = "Qsc" then "g0" else if q = "li" ∨ q = "Qi" then "b" else q

/-- The quantities drawn by `plot_results`, besides the number of observations. -/
def drawable : List String := ["g0", "lsc", "Qsc", "b", "li", "Qi", "error"]

/-- The velocity `v` is given in the call or in the configuration of the result, or it is not needed
for the quantity. -/
def VelocityFor (q : String) (arg conf : Option ℝ) (v : ℝ) : Prop :=
  arg = some v ∨ (arg = none ∧ conf = some v) ∨ q ∉ ["Qsc", "li"]

/-- Positive values of a quantity in band `j`. -/
noncomputable def bandValues (events : Dict String (Dict String RVal)) (key : String) (j : ℕ) :
    List ℝ :=
  positives ((rowsWith events key).filterMap (fun row => row[j]?))

/-- A robust estimate of location and scale which follows shifts and reflections of the data (as
M-estimators with symmetric loss do). -/
def Equivariant (rlm : List ℝ → ℝ × ℝ) : Prop :=
  ∀ (v : List ℝ) (a c : ℝ), a ^ 2 = 1 →
    rlm (v.map (fun x => a * x + c)) = (a * (rlm v).1 + c, (rlm v).2)

end Spec

namespace FigureResults

open Classical in
/-- Mean of a column. -/
noncomputable def colMean (rlm : List ℝ → ℝ × ℝ) (mean : Mean) (col errs : List Cell) :
    Py (Option ℝ) :=
  match mean with
  | .plain => gmean rlm col none
  | .robust => gmean rlm col none true
  | .weighted => if badWeight (maLog (maskedInvalid col)) errs then .ok none
    else gmean rlm col (some (errs.map weightOf))

theorem gmean_of_gerr {rlm : List ℝ → ℝ × ℝ} {col : List Cell} {w : Option (List ℝ)} {r : Bool}
    {b : Bar} (h : gerr rlm col w true r = .ok b) : gmean rlm col w r = .ok b.1 := by
  unfold gerr at h
  obtain ⟨s, hs, h⟩ := bind_ok.1 h
  simp only [pure, Except.pure, Except.ok.injEq] at h
  unfold gmean
  rw [hs, ← h]
  rfl

theorem gerrTable_col {rlm : List ℝ → ℝ × ℝ} {mean : Mean} {rows errs : List (List Cell)} {nf : ℕ}
    {ms : List Bar} (h : gerrTable rlm mean rows errs nf = .ok ms) :
    ms.length = nf ∧ ∀ i < nf, ∃ b, ms[i]? = some b ∧
      colMean rlm mean (column rows i) (column errs i) = .ok b.1 := by
  have key : ∀ f : ℕ → Py Bar, mapExc f (List.range nf) = .ok ms →
      (∀ i b, f i = .ok b → colMean rlm mean (column rows i) (column errs i) = .ok b.1) →
      ms.length = nf ∧ ∀ i < nf, ∃ b, ms[i]? = some b ∧
        colMean rlm mean (column rows i) (column errs i) = .ok b.1 := by
    intro f hf hc
    have hF := mapExc_ok.1 hf
    have hlen : ms.length = nf := by rw [← hF.length_eq]; simp
    refine ⟨hlen, fun i hi => ?_⟩
    have := (List.forall₂_iff_get.1 hF).2 i (by simpa using hi) (by omega)
    simp only [List.get_eq_getElem, List.getElem_range] at this
    exact ⟨_, List.getElem?_eq_getElem (by omega), hc _ _ this⟩
  unfold gerrTable at h
  cases mean with
  | plain => exact key _ h (fun i b hb => gmean_of_gerr hb)
  | robust => exact key _ h (fun i b hb => gmean_of_gerr hb)
  | weighted =>
    simp only at h
    split at h
    · simp at h
    refine key _ h (fun i b hb => ?_)
    unfold gerrWeighted at hb
    unfold colMean
    simp only
    by_cases hbad : badWeight (maLog (maskedInvalid (column rows i))) (column errs i)
    · rw [if_pos hbad] at hb ⊢
      simp only [Except.ok.injEq] at hb
      rw [← hb]
    rw [if_neg hbad] at hb ⊢
    obtain ⟨r, hr, hb⟩ := bind_ok.1 hb
    simp only [pure, Except.pure, Except.ok.injEq] at hb
    have := gmean_of_gerr hr
    rw [this, ← hb]
    split <;> rfl

theorem tableMean_col {rlm : List ℝ → ℝ × ℝ} {mean : Mean} {rows errs : List (List Cell)}
    {out : List Cell} {nf : ℕ} (hnf : ∀ r ∈ rows, r.length = nf) (hne : rows ≠ [])
    (h : tableMean rlm mean errs rows = .ok out) :
    out.length = nf ∧ ∀ i < nf, ∃ o, out[i]? = some (Cell.ofOption o) ∧
      colMean rlm mean (column rows i) (column errs i) = .ok o := by
  obtain ⟨r0, rest, hr0⟩ := List.exists_cons_of_ne_nil hne
  have hn : (rows.headD []).length = nf := by
    rw [hr0]; exact hnf r0 (by rw [hr0]; exact List.mem_cons_self)
  unfold tableMean at h
  rw [hn] at h
  cases mean with
  | plain =>
    simp only at h
    unfold gmeanlist at h
    split at h
    · simp at h
    simp only [Bool.false_eq_true, if_false, Except.ok.injEq] at h
    refine ⟨by rw [← h]; simp, fun i hi => ?_⟩
    refine ⟨_, by rw [← h, List.getElem?_map, List.getElem?_range hi]; rfl, ?_⟩
    unfold colMean
    simp only
    rw [gmean_eq]
    rfl
  | robust =>
    simp only at h
    unfold gmeanlist at h
    split at h
    · simp at h
    simp only [if_true] at h
    have hF := mapExc_ok.1 h
    have hlen : out.length = nf := by rw [← hF.length_eq]; simp
    refine ⟨hlen, fun i hi => ?_⟩
    have := (List.forall₂_iff_get.1 hF).2 i (by simpa using hi) (by omega)
    simp only [List.get_eq_getElem, List.getElem_range] at this
    obtain ⟨m, hm, this⟩ := bind_ok.1 this
    simp only [pure, Except.pure, Except.ok.injEq] at this
    exact ⟨m, by rw [List.getElem?_eq_getElem (by omega), ← this], hm⟩
  | weighted =>
    simp only at h
    unfold gmeanlistW at h
    split at h
    · simp at h
    rename_i h1
    push Not at h1
    simp only [Except.ok.injEq] at h
    refine ⟨by rw [← h]; simp, fun i hi => ?_⟩
    by_cases hbad : badWeight (maLog (maskedInvalid (column rows i))) (column errs i)
    · refine ⟨none, by rw [← h, List.getElem?_map, List.getElem?_range hi]; simp [hbad, Cell.ofOption], ?_⟩
      unfold colMean
      simp only [if_pos hbad]
    refine ⟨_, by rw [← h, List.getElem?_map, List.getElem?_range hi, Option.map_some, if_neg hbad], ?_⟩
    unfold colMean
    simp only [if_neg hbad]
    rw [gmean_eq]
    have : weightsMismatch (some (List.map weightOf (column errs i))) (column rows i).length =
        false := by
      unfold weightsMismatch column
      simp only [List.length_map]
      rw [h1.1]
      simp
    rw [this]
    rfl


open Classical in
/-- `gstat` of logarithms. -/
noncomputable def logStat (rlm : List ℝ → ℝ × ℝ) (mean : Mean) (logs : List (Option ℝ))
    (errs : List Cell) : Py (Option ℝ × Option ℝ) :=
  match mean with
  | .plain => weightedStat logs none true
  | .robust => robustStat rlm logs 5
  | .weighted => if badWeight logs errs then .ok (none, none)
    else weightedStat logs (some (errs.map weightOf)) true

theorem colMean_eq (rlm : List ℝ → ℝ × ℝ) (mean : Mean) (col errs : List Cell) :
    colMean rlm mean col errs =
      (logStat rlm mean (maLog (maskedInvalid col)) errs).map (fun r => r.1.map Real.exp) := by
  cases mean
  · simp only [colMean, logStat, gmean, gstat]
    cases weightedStat (maLog (maskedInvalid col)) none true <;> rfl
  · simp only [colMean, logStat, gmean, gstat]
    cases robustStat rlm (maLog (maskedInvalid col)) 5 <;> rfl
  · simp only [colMean, logStat, gmean, gstat]
    by_cases hbad : badWeight (maLog (maskedInvalid col)) errs
    · rw [if_pos hbad, if_pos hbad]; rfl
    · rw [if_neg hbad, if_neg hbad]
      cases weightedStat (maLog (maskedInvalid col)) (some (errs.map weightOf)) true <;> rfl

theorem badWeight_map (logs : List (Option ℝ)) (errs : List Cell) (f : ℝ → ℝ) :
    badWeight (logs.map (Option.map f)) errs ↔ badWeight logs errs := by
  unfold badWeight
  rw [List.zip_map_left]
  simp only [List.mem_map, exists_exists_and_eq_and, Prod.map, Option.isSome_map, id]

theorem logStat_affine {rlm : List ℝ → ℝ × ℝ} {mean : Mean}
    (hr : mean = .robust → Spec.Equivariant rlm) (logs : List (Option ℝ)) (errs : List Cell) {a : ℝ}
    (c : ℝ) (ha : a ^ 2 = 1) :
    logStat rlm mean (logs.map (Option.map (fun x => a * x + c))) errs =
      (logStat rlm mean logs errs).map (fun r => (r.1.map (fun x => a * x + c), r.2)) := by
  cases mean
  · exact weightedStat_affine _ _ _ _ _ ha
  · exact robustStat_affine _ _ _ _ _ ha (fun v => hr rfl v a c ha)
  · simp only [logStat]
    by_cases hbad : badWeight logs errs
    · rw [if_pos hbad, if_pos ((badWeight_map _ _ _).2 hbad)]; rfl
    · rw [if_neg hbad, if_neg (fun h => hbad ((badWeight_map _ _ _).1 h))]
      exact weightedStat_affine _ _ _ _ _ ha

/-- On log scale the derived quantity is the value or its negative, up to a constant. -/
theorem dependOne_log {q : String} (hq : q ∈ Spec.drawable) {f v : ℝ} (hf : 0 < f) (hv : 0 < v) (g w : ℝ)
    (hg : needsFreq q = true → g = f) (hw : needsV0 q = true → w = v) :
    ∃ a c : ℝ, a ^ 2 = 1 ∧
      (∀ x : ℝ, ((dependOne q x g w).bind (fun y => if 0 < y then some (Real.log y) else none)) =
        (if 0 < x then some (Real.log x) else none).map (fun t => a * t + c)) ∧
      ∀ t, Real.exp (a * t + c) = Spec.derived q (Real.exp t) f v := by
  have h2 : 0 < 2 * Real.pi * f := by positivity
  simp only [Spec.drawable, List.mem_cons, List.not_mem_nil, or_false] at hq
  have hsimple : ∀ k : ℝ, 0 < k → ∀ x : ℝ,
      (if 0 < x * k then some (Real.log (x * k)) else none) =
      (if 0 < x then some (Real.log x) else none).map (fun t => 1 * t + Real.log k) := by
    intro k hk x
    by_cases hx : 0 < x
    · rw [if_pos (by positivity), if_pos hx, Real.log_mul hx.ne' hk.ne']; simp
    · rw [if_neg (by
        rw [mul_pos_iff_of_pos_right hk]; exact hx), if_neg hx]; rfl
  have hinv : ∀ k : ℝ, 0 < k → ∀ x : ℝ, x ≠ 0 →
      (if 0 < k / x then some (Real.log (k / x)) else none) =
      (if 0 < x then some (Real.log x) else none).map (fun t => -1 * t + Real.log k) := by
    intro k hk x hx0
    by_cases hx : 0 < x
    · rw [if_pos (by positivity), if_pos hx, Real.log_div hk.ne' hx.ne']
      simp only [Option.map_some, Option.some.injEq]; ring
    · rw [if_neg (by
        push Not at hx ⊢
        exact div_nonpos_of_nonneg_of_nonpos hk.le hx), if_neg hx]; rfl
  have hexp : ∀ k : ℝ, 0 < k → ∀ t, Real.exp (1 * t + Real.log k) = Real.exp t * k := by
    intro k hk t
    rw [one_mul, Real.exp_add, Real.exp_log hk]
  have hexp' : ∀ k : ℝ, 0 < k → ∀ t, Real.exp (-1 * t + Real.log k) = k / Real.exp t := by
    intro k hk t
    rw [Real.exp_add, Real.exp_log hk, neg_one_mul, Real.exp_neg]
    field_simp
  rcases hq with rfl | rfl | rfl | rfl | rfl | rfl | rfl
  · refine ⟨1, Real.log 1, by norm_num, fun x => ?_, fun t => ?_⟩
    · simpa [dependOne, plain] using hsimple 1 one_pos x
    · rw [hexp 1 one_pos]; simp [Spec.derived]
  · refine ⟨-1, Real.log (1 / 1000), by norm_num, fun x => ?_, fun t => ?_⟩
    · by_cases hx : x = 0
      · subst hx; simp [dependOne, plain]
      · have := hinv (1 / 1000) (by norm_num) x hx
        have e : 1 / x / 1000 = 1 / 1000 / x := by field_simp
        unfold dependOne
        rw [if_neg (by decide), if_pos rfl, if_neg hx, e]
        exact this
    · rw [hexp' _ (by norm_num)]
      unfold Spec.derived
      rw [if_neg (by decide), if_neg (by decide), if_pos rfl]
      field_simp
  · have := hg (by decide); have := hw (by decide); subst g w
    refine ⟨1, Real.log (v / (2 * Real.pi * f)), by norm_num, fun x => ?_, fun t => ?_⟩
    · have := hsimple (v / (2 * Real.pi * f)) (by positivity) x
      unfold dependOne
      rw [if_neg (by decide), if_neg (by decide), if_pos rfl, if_neg hf.ne', mul_div_assoc]
      exact this
    · rw [hexp _ (by positivity)]
      unfold Spec.derived
      rw [if_pos rfl, mul_div_assoc]
  · refine ⟨1, Real.log 1, by norm_num, fun x => ?_, fun t => ?_⟩
    · simpa [dependOne, plain] using hsimple 1 one_pos x
    · rw [hexp 1 one_pos]; simp [Spec.derived]
  · have := hw (by decide); subst w
    refine ⟨-1, Real.log (v / 1000), by norm_num, fun x => ?_, fun t => ?_⟩
    · by_cases hx : x = 0
      · subst hx; simp [dependOne, plain]
      · have := hinv (v / 1000) (by positivity) x hx
        have e : v / x / 1000 = v / 1000 / x := by field_simp
        unfold dependOne
        rw [if_neg (by decide), if_neg (by decide), if_neg (by decide), if_pos rfl, if_neg hx, e]
        exact this
    · rw [hexp' _ (by positivity)]
      unfold Spec.derived
      rw [if_neg (by decide), if_neg (by decide), if_neg (by decide), if_pos rfl]
      field_simp
  · have := hg (by decide); subst g
    refine ⟨1, Real.log (1 / (2 * Real.pi * f)), by norm_num, fun x => ?_, fun t => ?_⟩
    · have := hsimple (1 / (2 * Real.pi * f)) (by positivity) x
      unfold dependOne
      rw [if_neg (by decide), if_neg (by decide), if_neg (by decide), if_neg (by decide), if_pos rfl,
        if_neg hf.ne', div_eq_mul_one_div]
      exact this
    · rw [hexp _ (by positivity)]
      unfold Spec.derived
      rw [if_neg (by decide), if_pos rfl, ← div_eq_mul_one_div]
  · refine ⟨1, Real.log 1, by norm_num, fun x => ?_, fun t => ?_⟩
    · simpa [dependOne, plain] using hsimple 1 one_pos x
    · rw [hexp 1 one_pos]; simp [Spec.derived]

/-- Mean of the derived values of a column. -/
theorem colMean_derived {rlm : List ℝ → ℝ × ℝ} {mean : Mean}
    (hr : mean = .robust → Spec.Equivariant rlm) {q : String} (hq : q ∈ Spec.drawable) {f v : ℝ}
    (hf : 0 < f) (hv : 0 < v) {g w : ℝ}
    (hg : needsFreq q = true → g = f) (hw : needsV0 q = true → w = v) {col col' errs : List Cell}
    (hc : maskedInvalid col' = (maskedInvalid col).map (fun o => o.bind (fun x => dependOne q x g w)))
    {o o' : Option ℝ} (h : colMean rlm mean col errs = .ok o)
    (h' : colMean rlm mean col' errs = .ok o') :
    o' = o.map (fun x => Spec.derived q x f v) := by
  obtain ⟨a, c, ha, hlog, hexp⟩ := dependOne_log hq hf hv g w hg hw
  have hl : maLog (maskedInvalid col') =
      (maLog (maskedInvalid col)).map (Option.map (fun x => a * x + c)) := by
    rw [hc]
    unfold maLog
    rw [List.map_map, List.map_map]
    refine List.map_congr_left (fun o _ => ?_)
    cases o with
    | none => rfl
    | some x =>
      simp only [Function.comp, Option.bind_some]
      exact hlog x
  rw [colMean_eq] at h h'
  rw [hl, logStat_affine hr _ _ _ ha] at h'
  cases hs : logStat rlm mean (maLog (maskedInvalid col)) errs with
  | error e => rw [hs] at h; simp [Except.map] at h
  | ok r =>
    rw [hs] at h h'
    simp only [Except.map, Except.ok.injEq] at h h'
    rw [← h, ← h']
    cases r.1 with
    | none => rfl
    | some t => simp [hexp]

theorem array_spec {events : Dict String (Dict String RVal)} {col : Dict String ColVal}
    {only : List String} (hn : only.Nodup)
    (hcol : collectResults (events.mapVals some) only = .ok col) {key : String}
    (hk : key ∈ only) (h1 : key ≠ "eventid") (h2 : key ≠ "R") {a : List (List Cell)}
    (h : arrayOf col key = .ok (some a)) :
    Spec.rowsWith events key ≠ [] ∧
      a = (Spec.rowsWith events key).map (fun r => r.map Cell.toFloat) ∧
      ∀ r ∈ Spec.rowsWith events key, ∀ r' ∈ Spec.rowsWith events key, r.length = r'.length := by
  rcases C39_values hn hcol hk h1 h2 with ⟨h1, h2⟩ | ⟨xs, arr, h1, h2, h3, h4⟩
  · unfold arrayOf at h
    rw [h2] at h
    simp at h
  · unfold arrayOf at h
    rw [h4] at h
    simp only at h
    obtain ⟨rows, hr, h⟩ := bind_ok.1 h
    simp only [pure, Except.pure, Except.ok.injEq, Option.some.injEq] at h
    obtain ⟨rows0, e1, e2, e3⟩ := rows_of_array h1 h3 hr
    rw [valuesOf_rows e1]
    refine ⟨?_, by rw [← h, e2], e3⟩
    rintro rfl
    rw [e1] at h1
    exact h2 (List.forall₂_nil_left_iff.1 h1)

/-- A panel with a curve. -/
theorem panelOf_curve {rlm : List ℝ → ℝ × ℝ} {mean : Mean} {freq : List ℝ} {v0 : V0}
    {col : Dict String ColVal} {errs : List (List Cell)} {q : String} {p : Panel}
    (hq : q ∈ Spec.drawable) (h : panelOf rlm mean freq v0 col errs q = .ok p) :
    ∃ rows fs vs ms, arrayOf col (Spec.baseOf q) = .ok (some rows) ∧
      (∀ r ∈ rows, r.length = freq.length) ∧ v0For q v0 rows.length = .ok vs ∧
      freqsFor q (some freq) (rows.headD []).length = .ok fs ∧
      gerrTable rlm mean ((dependTable q fs vs rows).map (fun r => r.map ofOpt)) errs freq.length =
        .ok ms ∧ p = .curve (dependTable q fs vs rows) ms := by
  have hn : q ≠ "nobs" := by rintro rfl; revert hq; decide
  have hd : depMap.get? q = some (Spec.baseOf q) := by
    simp only [Spec.drawable, List.mem_cons, List.not_mem_nil, or_false] at hq
    rcases hq with rfl | rfl | rfl | rfl | rfl | rfl | rfl <;> decide
  unfold panelOf at h
  rw [if_neg hn, hd] at h
  simp only at h
  obtain ⟨a, ha, h⟩ := bind_ok.1 h
  cases a with
  | none => simp at h
  | some rows =>
    simp only at h
    obtain ⟨_, hb, h⟩ := bind_ok.1 h
    obtain ⟨d, hd, h⟩ := bind_ok.1 h
    unfold calcDependent at hd
    simp only at hd
    split at hd
    · simp at hd
    obtain ⟨vs, hvs, hd⟩ := bind_ok.1 hd
    split at hd
    · obtain ⟨fs, hfs, hd⟩ := bind_ok.1 hd
      simp only [pure, Except.pure, Except.ok.injEq] at hd
      subst hd
      simp only at h
      obtain ⟨ms, hms, h⟩ := bind_ok.1 h
      simp only [pure, Except.pure, Except.ok.injEq] at h
      refine ⟨rows, fs, vs, ms, ha, ?_, hvs, hfs, hms, h.symm⟩
      unfold checkBands at hb
      split at hb
      · next hall => simpa using hall
      · simp at hb
    · simp only [pure, Except.pure, Except.ok.injEq] at hd
      subst hd
      simp at h

theorem ofOpt_val (o : Option ℝ) : (ofOpt o).val? = o := by cases o <;> rfl

/-- A column of the table of derived values. -/
theorem column_depend (q : String) (fs : List ℝ) (v : ℝ) {j : ℕ} {g : ℝ} (hj : fs[j]? = some g) :
    ∀ rows : List (List Cell), (∀ r ∈ rows, r.length = fs.length) →
    maskedInvalid (column ((dependTable q fs (List.replicate rows.length v) rows).map
      (fun r => r.map ofOpt)) j) =
    (maskedInvalid (column rows j)).map (fun o => o.bind (fun x => dependOne q x g v)) := by
  intro rows
  induction rows with
  | nil => intro _; rfl
  | cons r rows ih =>
    intro hl
    have ih := ih (fun r hr => hl r (List.mem_cons_of_mem _ hr))
    have hr := hl r List.mem_cons_self
    have hjl : j < r.length := by
      rw [hr]; exact (List.getElem?_eq_some_iff.1 hj).1
    unfold dependTable maskedInvalid column at ih ⊢
    rw [List.length_cons, List.replicate_succ, List.zipWith_cons_cons]
    simp only [List.map_cons]
    rw [ih]
    congr 1
    unfold dependRow
    rw [List.getD_eq_getElem?_getD, List.getElem?_map, List.getElem?_zipWith,
      List.getElem?_eq_getElem hjl, hj, List.getD_eq_getElem?_getD, List.getElem?_eq_getElem hjl]
    simp only [Option.map_some, Option.getD_some, ofOpt_val]

/-- Velocities of the rows. -/
theorem v0For_replicate {q : String} {V : V0} {n : ℕ} {vs : List ℝ} {v : ℝ}
    (h : v0For q V n = .ok vs) (hV : needsV0 q = true → V = .num v) :
    ∃ v', vs = List.replicate n v' ∧ (needsV0 q = true → v' = v) := by
  unfold v0For at h
  cases V with
  | none => simp at h
  | num x =>
    simp only [Except.ok.injEq] at h
    refine ⟨x, h.symm, fun hn => ?_⟩
    simpa using hV hn
  | arr l =>
    simp only at h
    by_cases hn : needsV0 q = true
    · simp at hV; exact absurd hn (by simp [hV])
    · rw [if_neg hn] at h
      simp only [Except.ok.injEq] at h
      exact ⟨1, h.symm, fun h => absurd h hn⟩

theorem chooseV0_spec {q : String} {arg conf : Option ℝ} {v : ℝ} {rest : Py V0} {V : V0}
    (h : chooseV0 arg conf rest = .ok V) (hv : 0 < v) (hvel : Spec.VelocityFor q arg conf v) :
    needsV0 q = true → V = .num v := by
  intro hn
  rcases hvel with rfl | ⟨rfl, rfl⟩ | hq
  · unfold chooseV0 at h
    simp only at h
    rw [if_pos hv.ne'] at h
    simpa using h.symm
  · unfold chooseV0 chooseV0.inner at h
    simp only at h
    rw [if_pos hv.ne'] at h
    simpa using h.symm
  · unfold needsV0 at hn
    simp only [decide_eq_true_eq] at hn
    simp only [List.mem_cons, List.not_mem_nil, or_false] at hq
    exact absurd hn hq

theorem named {α : Type} {P : String → α → Prop} {qs : List String} {ps : List (String × α)}
    (h : List.Forall₂ (fun q (p : String × α) => p.1 = q ∧ P q p.2) qs ps) :
    ps.map Prod.fst = qs ∧ ∀ p ∈ ps, P p.1 p.2 := by
  induction h with
  | nil => simp
  | cons h _ ih =>
    refine ⟨by simp [h.1, ih.1], fun p hp => ?_⟩
    rcases List.mem_cons.1 hp with rfl | hp
    · rw [h.1]; exact h.2
    · exact ih.2 p hp

/-- Figure of separately inverted events. -/
theorem plotResults_events {rlm : List ℝ → ℝ × ℝ} {mean : Mean} {fig : FigRes} {v0 : Option ℝ}
    {quantities : List String} {panels : List (String × Panel)}
    (hg : ∃ e ∈ fig.events.head?, "g0" ∈ e.2.keys)
    (hp : plotResults rlm mean fig v0 quantities = .ok panels) :
    ∃ col V errs, collectResults (fig.events.mapVals some) ["g0", "b", "error", "v0"] = .ok col ∧
      chooseV0 v0 fig.v0 (collectedV0 col) = .ok V ∧ errorRows col mean = .ok errs ∧
      panels.map Prod.fst = quantities ∧
      ∀ p ∈ panels, panelOf rlm mean fig.freq V col errs p.1 = .ok p.2 := by
  obtain ⟨e, he, hg⟩ := hg
  unfold plotResults at hp
  obtain ⟨first, hf, hp⟩ := bind_ok.1 hp
  have hfe : first = e.2 := by
    unfold firstEvent at hf
    cases hev : fig.events with
    | nil => rw [hev] at he; simp at he
    | cons a l =>
      rw [hev] at he hf
      simp only [List.head?_cons, Option.mem_def, Option.some.injEq] at he
      simp only [Except.ok.injEq] at hf
      rw [← hf, he]
  subst hfe
  rw [if_pos hg] at hp
  obtain ⟨col, hc, hp⟩ := bind_ok.1 hp
  obtain ⟨V, hV, hp⟩ := bind_ok.1 hp
  obtain ⟨errs, herr, hp⟩ := bind_ok.1 hp
  have hF := mapExc_ok.1 hp
  have hF' : List.Forall₂ (fun q (p : String × Panel) => p.1 = q ∧
      panelOf rlm mean fig.freq V col errs q = .ok p.2) quantities panels := by
    refine hF.imp (fun q p h => ?_)
    obtain ⟨x, hx, h⟩ := bind_ok.1 h
    simp only [pure, Except.pure, Except.ok.injEq] at h
    rw [← h]
    exact ⟨rfl, hx⟩
  exact ⟨col, V, errs, hc, hV, herr,
    named (P := fun q p => panelOf rlm mean fig.freq V col errs q = .ok p) hF'⟩

theorem errorRows_spec {events : Dict String (Dict String RVal)} {col : Dict String ColVal}
    {mean : Mean} {errs : List (List Cell)}
    (hc : collectResults (events.mapVals some) ["g0", "b", "error", "v0"] = .ok col)
    (h : errorRows col mean = .ok errs) (hm : mean = .weighted) :
    errs = (Spec.rowsWith events "error").map (fun r => r.map Cell.toFloat) := by
  subst hm
  unfold errorRows at h
  simp only at h
  obtain ⟨e, he, h⟩ := bind_ok.1 h
  cases e with
  | none => simp at h
  | some e =>
    simp only [pure, Except.pure, Except.ok.injEq] at h
    rw [← h]
    exact (array_spec (by decide) hc (by decide) (by decide) (by decide) he).2.1

theorem colMean_errs {rlm : List ℝ → ℝ × ℝ} {mean : Mean} {col : List Cell}
    {e e' : List Cell} (h : mean = .weighted → e = e') :
    colMean rlm mean col e = colMean rlm mean col e' := by
  cases mean
  · rfl
  · rfl
  · rw [h rfl]

end FigureResults

open FigureResults

/-- **C93**: a figure of results shows for each requested quantity, in this order, the reported mean
over the events, drawn with the same kind of mean: in each band the reported value of `g0`, `b` or
`error`, or the quantity derived from it (quality factor, path length); a band without reported value
has no mark.

Missing: events inverted simultaneously, see `C93_simultaneous_counterexample`. -/
theorem C93_means_partial {rlm : List ℝ → ℝ × ℝ} {inv : List Event → Py (Option InvRes)}
    {codaNorm : Bool} {mean : Mean} {events : List Event} {w : WrapRes}
    (h : invertWrapper rlm inv codaNorm false mean events = .ok (some w))
    (hr : mean = .robust → Spec.Equivariant rlm)
    {fig : FigRes} (he : fig.events = w.events) (hg : ∃ e ∈ fig.events.head?, "g0" ∈ e.2.keys)
    (hfreq : ∀ f ∈ fig.freq, 0 < f) {v0 : Option ℝ} {v : ℝ} (hv : 0 < v)
    {quantities : List String} {panels : List (String × Panel)}
    (hp : plotResults rlm mean fig v0 quantities = .ok panels) :
    panels.map Prod.fst = quantities ∧
    ∀ q p, (q, p) ∈ panels → q ∈ Spec.drawable → Spec.VelocityFor q v0 fig.v0 v →
      ∃ points bars row, p = .curve points bars ∧ Spec.reported w (Spec.baseOf q) = some row ∧
        row.length = fig.freq.length ∧ bars.length = fig.freq.length ∧
        ∀ (j : ℕ) (f : ℝ) (c : Cell), fig.freq[j]? = some f → row[j]? = some c →
          bars[j]?.map Prod.fst = some (c.val?.map (fun x => Spec.derived q x f v)) := by
  obtain ⟨fr, hm⟩ := means_of_wrapper h
  obtain ⟨col, V, errs, hc, hV, herr, hq, hpan⟩ := plotResults_events hg hp
  refine ⟨hq, fun q p hmem hqd hvel => ?_⟩
  obtain ⟨rows, fs, vs, ms, ha, hl, hvs, hfs, hms, rfl⟩ := panelOf_curve hqd (hpan _ hmem)
  rw [he] at hc
  have hbase : Spec.baseOf q = "g0" ∨ Spec.baseOf q = "b" ∨ Spec.baseOf q = "error" := by
    simp only [Spec.drawable, List.mem_cons, List.not_mem_nil, or_false] at hqd
    rcases hqd with rfl | rfl | rfl | rfl | rfl | rfl | rfl <;> decide
  obtain ⟨hne, hrows, _⟩ := array_spec (by decide) hc
    (by rcases hbase with h | h | h <;> rw [h] <;> decide)
    (by rcases hbase with h | h | h <;> rw [h] <;> decide)
    (by rcases hbase with h | h | h <;> rw [h] <;> decide) ha
  obtain ⟨v', hvs', hv'⟩ := v0For_replicate hvs (chooseV0_spec hV hv hvel)
  subst hvs'
  have hrep : (Spec.baseOf q = "g0" ∧ Spec.reported w (Spec.baseOf q) = w.g0) ∨
      (Spec.baseOf q = "b" ∧ Spec.reported w (Spec.baseOf q) = w.b) ∨
      (Spec.baseOf q = "error" ∧ Spec.reported w (Spec.baseOf q) = w.error) := by
    rcases hbase with h | h | h
    · left; rw [h]; exact ⟨rfl, rfl⟩
    · right; left; rw [h]; exact ⟨rfl, rfl⟩
    · right; right; rw [h]; exact ⟨rfl, rfl⟩
  rcases rows_spec hm _ _ hrep with ⟨_, hnone⟩ | ⟨errs0, row, h1, h2, h3, h4, h5⟩
  · exact absurd (rowsWith_nil hnone) hne
  rw [← hrows] at h5
  have hrne : rows ≠ [] := by rw [hrows]; simpa using hne
  have hhead : (rows.headD []).length = fig.freq.length := by
    obtain ⟨r0, rest, h0⟩ := List.exists_cons_of_ne_nil hrne
    rw [h0]; exact hl r0 (by rw [h0]; exact List.mem_cons_self)
  obtain ⟨hrl, hrow⟩ := tableMean_col hl hrne h5
  obtain ⟨hbl, hbar⟩ := gerrTable_col hms
  refine ⟨_, ms, row, rfl, h1, hrl, hbl, ?_⟩
  intro j f c hf hcj
  have hj : j < fig.freq.length := (List.getElem?_eq_some_iff.1 hf).1
  have hfpos : 0 < f := hfreq f (List.mem_of_getElem? hf)
  obtain ⟨b, hb, hbm⟩ := hbar j hj
  obtain ⟨o, ho, hom⟩ := hrow j hj
  rw [hhead] at hfs
  have hfsl : fs.length = fig.freq.length ∧ ∃ g, fs[j]? = some g ∧ (needsFreq q = true → g = f) := by
    unfold freqsFor at hfs
    by_cases hn : needsFreq q = true
    · rw [if_pos hn] at hfs
      simp only [if_true, Except.ok.injEq] at hfs
      subst hfs
      exact ⟨rfl, f, hf, fun _ => rfl⟩
    · rw [if_neg hn] at hfs
      simp only [Except.ok.injEq] at hfs
      subst hfs
      exact ⟨by simp, 1, by simp [hj], fun h => absurd h hn⟩
  obtain ⟨hfsl, g, hgj, hgf⟩ := hfsl
  have hcol := column_depend q fs v' hgj rows (fun r hr => by rw [hl r hr, hfsl])
  rw [colMean_errs (e' := column (errs0.map (fun r => r.map Cell.toFloat)) j) (fun hw => by
    rw [errorRows_spec hc herr hw, h3])] at hbm
  have := colMean_derived hr hqd hfpos hv hgf hv' hcol hom hbm
  rw [hb, Option.map_some, this]
  rw [ho] at hcj
  simp only [Option.some.injEq] at hcj
  rw [← hcj]
  cases o <;> rfl

/-- The events with a value of `g0` in band `j`. -/
def Spec.eventsWithValue (events : Dict String (Dict String RVal)) (j : ℕ) :
    List (String × Dict String RVal) :=
  events.filter (fun e => match e.2.get? "g0" with
    | some (.row r) => match r[j]? with
      | some (.num _) => true
      | _ => false
    | _ => false)

theorem FigureResults.count_rowsWith (events : Dict String (Dict String RVal)) (j : ℕ) :
    countValues ((Spec.rowsWith events "g0").map (fun r => r.map Cell.toFloat)) j =
      (Spec.eventsWithValue events j).length := by
  unfold countValues Spec.rowsWith Spec.eventsWithValue
  induction events with
  | nil => rfl
  | cons e l ih =>
    rw [List.filterMap_cons, List.filter_cons]
    cases hg : e.2.get? "g0" with
    | none => simpa using ih
    | some x =>
      cases x with
      | cell _ => simpa using ih
      | sites _ => simpa using ih
      | row r =>
        simp only
        rw [List.map_cons, List.filter_cons]
        have : (((r.map Cell.toFloat)[j]?).bind Cell.val?).isSome = (match r[j]? with
            | some (.num _) => true
            | _ => false) := by
          rw [List.getElem?_map]
          cases r[j]? with
          | none => rfl
          | some c => cases c <;> rfl
        rw [this]
        split_ifs
        · simpa using ih
        · exact ih

/-- **C93**: the bars of the number of observations count in each band the events with a value of `g0`
in this band; a figure is drawn for any kind of mean. -/
theorem C93_nobs {rlm : List ℝ → ℝ × ℝ} {mean : Mean} {fig : FigRes} {v0 : Option ℝ}
    {quantities : List String} {panels : List (String × Panel)}
    (hg : ∃ e ∈ fig.events.head?, "g0" ∈ e.2.keys)
    (hp : plotResults rlm mean fig v0 quantities = .ok panels) (p : Panel)
    (hmem : ("nobs", p) ∈ panels) :
    ∃ n, p = .bars n ∧ n.length = fig.freq.length ∧
      ∀ j < fig.freq.length, n[j]? = some (Spec.eventsWithValue fig.events j).length := by
  obtain ⟨col, V, errs, hc, _, _, _, hpan⟩ := plotResults_events hg hp
  have h := hpan _ hmem
  unfold panelOf at h
  rw [if_pos rfl] at h
  obtain ⟨g, ha, h⟩ := bind_ok.1 h
  cases g with
  | none => simp at h
  | some g =>
    simp only [pure, Except.pure, Except.ok.injEq] at h
    obtain ⟨_, hrows, _⟩ := array_spec (by decide) hc (by decide) (by decide) (by decide) ha
    refine ⟨_, h.symm, by simp, fun j hj => ?_⟩
    rw [List.getElem?_map, List.getElem?_range hj, Option.map_some, hrows, count_rowsWith]

/-- **C93**: the grey points are the values of the events, one row for each event with a value of the
quantity: in each band the value of the event or the quantity derived from it. -/
theorem C93_points {rlm : List ℝ → ℝ × ℝ} {mean : Mean} {fig : FigRes} {v0 : Option ℝ} {v : ℝ}
    {quantities : List String} {panels : List (String × Panel)}
    (hg : ∃ e ∈ fig.events.head?, "g0" ∈ e.2.keys) (hfreq : ∀ f ∈ fig.freq, 0 < f) (hv : 0 < v)
    (hp : plotResults rlm mean fig v0 quantities = .ok panels) (q : String) (p : Panel)
    (hmem : (q, p) ∈ panels) (hq : q ∈ Spec.drawable) (hvel : Spec.VelocityFor q v0 fig.v0 v) :
    ∃ points bars, p = .curve points bars ∧
      points.length = (Spec.rowsWith fig.events (Spec.baseOf q)).length ∧
      ∀ (i j : ℕ) (row : List Cell) (f : ℝ),
        (Spec.rowsWith fig.events (Spec.baseOf q))[i]? = some row → fig.freq[j]? = some f →
        (points[i]?.bind (·[j]?)) = some (match row[j]? with
          | some (.num x) => if (q = "lsc" ∨ q = "li") ∧ x = 0 then none
              else some (Spec.derived q x f v)
          | _ => none) := by
  obtain ⟨col, V, errs, hc, hV, herr, _, hpan⟩ := plotResults_events hg hp
  obtain ⟨rows, fs, vs, ms, ha, hl, hvs, hfs, hms, rfl⟩ := panelOf_curve hq (hpan _ hmem)
  have hbase : Spec.baseOf q = "g0" ∨ Spec.baseOf q = "b" ∨ Spec.baseOf q = "error" := by
    simp only [Spec.drawable, List.mem_cons, List.not_mem_nil, or_false] at hq
    rcases hq with rfl | rfl | rfl | rfl | rfl | rfl | rfl <;> decide
  obtain ⟨hne, hrows, _⟩ := array_spec (by decide) hc
    (by rcases hbase with h | h | h <;> rw [h] <;> decide)
    (by rcases hbase with h | h | h <;> rw [h] <;> decide)
    (by rcases hbase with h | h | h <;> rw [h] <;> decide) ha
  obtain ⟨v', hvs', hv'⟩ := v0For_replicate hvs (chooseV0_spec hV hv hvel)
  subst hvs'
  have hrne : rows ≠ [] := by rw [hrows]; simpa using hne
  have hhead : (rows.headD []).length = fig.freq.length := by
    obtain ⟨r0, rest, h0⟩ := List.exists_cons_of_ne_nil hrne
    rw [h0]; exact hl r0 (by rw [h0]; exact List.mem_cons_self)
  rw [hhead] at hfs
  refine ⟨_, ms, rfl, by simp [dependTable, hrows], ?_⟩
  intro i j row f hi hf
  have hj : j < fig.freq.length := (List.getElem?_eq_some_iff.1 hf).1
  have hfpos : 0 < f := hfreq f (List.mem_of_getElem? hf)
  have hgj : ∃ g, fs[j]? = some g ∧ (needsFreq q = true → g = f) := by
    unfold freqsFor at hfs
    by_cases hn : needsFreq q = true
    · rw [if_pos hn] at hfs
      simp only [if_true, Except.ok.injEq] at hfs
      subst hfs
      exact ⟨f, hf, fun _ => rfl⟩
    · rw [if_neg hn] at hfs
      simp only [Except.ok.injEq] at hfs
      subst hfs
      exact ⟨1, by simp [hj], fun h => absurd h hn⟩
  obtain ⟨g, hgj, hgf⟩ := hgj
  have hri : rows[i]? = some (row.map Cell.toFloat) := by rw [hrows, List.getElem?_map, hi]; rfl
  have hil : i < rows.length := (List.getElem?_eq_some_iff.1 hri).1
  have hrl : row.length = fig.freq.length := by
    have := hl _ (List.mem_of_getElem? hri); simpa using this
  have hcj : ∃ c, row[j]? = some c := ⟨_, List.getElem?_eq_getElem (by omega)⟩
  obtain ⟨c, hcj⟩ := hcj
  unfold dependTable
  rw [List.getElem?_zipWith, hri, List.getElem?_replicate, if_pos hil]
  simp only [Option.bind_some]
  unfold dependRow
  rw [List.getElem?_zipWith, List.getElem?_map, hcj, hgj]
  simp only [Option.map_some, Option.some.injEq]
  cases c with
  | none => rfl
  | nan => rfl
  | num x =>
    simp only [Cell.toFloat, Cell.val?, Option.bind_some]
    by_cases hx : (q = "lsc" ∨ q = "li") ∧ x = 0
    · rw [if_pos hx]
      obtain ⟨rfl | rfl, rfl⟩ := hx <;> simp [dependOne, plain]
    · rw [if_neg hx]
      push Not at hx
      refine dependOne_eq ?_ hx (fun _ => hfpos.ne') g v' hgf hv'
      simp only [Spec.drawable, List.mem_cons, List.not_mem_nil, or_false] at hq
      rcases hq with h | h | h | h | h | h | h <;> simp [h]

namespace FigureResults

/-- Mean and errors of `gerr` from the statistics of the logarithms. -/
noncomputable def barOf (r : Option ℝ × Option ℝ) : Bar :=
  (r.1.map Real.exp,
   (match r.1, r.2 with
    | some m, some e => some (Real.exp m - Real.exp (m - e))
    | _, _ => none),
   (match r.1, r.2 with
    | some m, some e => some (Real.exp (m + e) - Real.exp m)
    | _, _ => none))

theorem gerr_plain (rlm : List ℝ → ℝ × ℝ) (col : List Cell) :
    gerr rlm col none = (weightedStat (maLog (maskedInvalid col)) none true).map barOf := by
  unfold gerr gstat
  simp only [Bool.false_and, Bool.false_eq_true, if_false]
  cases weightedStat (maLog (maskedInvalid col)) none true <;> rfl

/-- Error bars of derived values: relative errors stay. -/
theorem gerr_derived {rlm : List ℝ → ℝ × ℝ} {q : String} (hq : q ∈ Spec.drawable) {f v : ℝ}
    (hf : 0 < f) (hv : 0 < v) {g w : ℝ}
    (hg : needsFreq q = true → g = f) (hw : needsV0 q = true → w = v) {col col' : List Cell}
    (hc : maskedInvalid col' = (maskedInvalid col).map (fun o => o.bind (fun x => dependOne q x g w))) :
    gerr rlm col' none = .ok (
      if Spec.positives col = [] then (none, none, none)
      else
        let m := Spec.derived q (Spec.geoMean (Spec.positives col)) f v
        if (Spec.positives col).length < 2 then (some m, none, none)
        else
          let s := Real.exp (Spec.stdDev ((Spec.positives col).map Real.log) 1)
          (some m, some (m - m / s), some (m * s - m))) := by
  obtain ⟨a, c, ha, hlog, hexp⟩ := dependOne_log hq hf hv g w hg hw
  have hl : maLog (maskedInvalid col') =
      (maLog (maskedInvalid col)).map (Option.map (fun x => a * x + c)) := by
    rw [hc]
    unfold maLog
    rw [List.map_map, List.map_map]
    refine List.map_congr_left (fun o _ => ?_)
    cases o with
    | none => rfl
    | some x =>
      simp only [Function.comp, Option.bind_some]
      exact hlog x
  rw [gerr_plain, hl, weightedStat_affine _ _ _ _ _ ha]
  have h0 := C46_gerr_value rlm col true 5
  rw [gerr_plain] at h0
  cases hs : weightedStat (maLog (maskedInvalid col)) none true with
  | error e => rw [hs] at h0; simp [Except.map] at h0
  | ok r =>
    rw [hs] at h0
    obtain ⟨r1, r2⟩ := r
    simp only [Except.map, Except.ok.injEq] at h0 ⊢
    by_cases h1 : Spec.positives col = []
    · rw [if_pos h1] at h0 ⊢
      unfold barOf at h0 ⊢
      cases r1 with
      | none => rfl
      | some m => simp at h0
    rw [if_neg h1] at h0 ⊢
    by_cases h2 : (Spec.positives col).length < 2
    · rw [if_pos h2] at h0 ⊢
      unfold barOf at h0 ⊢
      cases r1 with
      | none => simp at h0
      | some m =>
        cases r2 with
        | none => simp at h0 ⊢; rw [hexp, h0]
        | some e => simp at h0
    rw [if_neg h2] at h0 ⊢
    unfold barOf at h0 ⊢
    cases r1 with
    | none => simp at h0
    | some m =>
      cases r2 with
      | none => simp at h0
      | some e =>
        simp only [Option.map_some, Prod.mk.injEq, Option.some.injEq, if_true] at h0 ⊢
        obtain ⟨e1, e2, e3⟩ := h0
        have hse : Real.exp (Spec.stdDev ((Spec.positives col).map Real.log) 1) = Real.exp e := by
          rw [← e1, Real.exp_add] at e3
          have := Real.exp_pos m
          have : Real.exp m * Real.exp e =
            Real.exp m * Real.exp (Spec.stdDev ((Spec.positives col).map Real.log) 1) := by linarith
          exact (mul_left_cancel₀ (Real.exp_pos m).ne' this).symm
        rw [hse, ← e1, ← hexp]
        refine ⟨rfl, ?_, ?_⟩
        · rw [Real.exp_sub]
        · rw [Real.exp_add (a * m + c) e]

/-- Plain columns of `gerrTable`. -/
theorem gerrTable_plain {rlm : List ℝ → ℝ × ℝ} {rows errs : List (List Cell)} {nf : ℕ}
    {ms : List Bar} (h : gerrTable rlm .plain rows errs nf = .ok ms) :
    ∀ i < nf, ∃ b, ms[i]? = some b ∧ gerr rlm (column rows i) none = .ok b := by
  unfold gerrTable at h
  simp only at h
  have hF := mapExc_ok.1 h
  have hlen : ms.length = nf := by rw [← hF.length_eq]; simp
  intro i hi
  have := (List.forall₂_iff_get.1 hF).2 i (by simpa using hi) (by omega)
  simp only [List.get_eq_getElem, List.getElem_range] at this
  exact ⟨_, List.getElem?_eq_getElem (by omega), this⟩

end FigureResults

/-- **C93**, error bars of the plain mean: in each band mean and errors are the geometric mean and the
geometric standard deviation of the values of the events; for derived quantities the mean is derived
from the mean of the values and the bars span the same factor; a single event has no error bar. -/
theorem C93_error_bars {rlm : List ℝ → ℝ × ℝ} {fig : FigRes} {v0 : Option ℝ} {v : ℝ}
    {quantities : List String} {panels : List (String × Panel)}
    (hg : ∃ e ∈ fig.events.head?, "g0" ∈ e.2.keys) (hfreq : ∀ f ∈ fig.freq, 0 < f) (hv : 0 < v)
    (hp : plotResults rlm .plain fig v0 quantities = .ok panels) (q : String) (p : Panel)
    (hmem : (q, p) ∈ panels) (hq : q ∈ Spec.drawable) (hvel : Spec.VelocityFor q v0 fig.v0 v) :
    ∃ points bars, p = .curve points bars ∧ bars.length = fig.freq.length ∧
      ∀ (j : ℕ) (f : ℝ), fig.freq[j]? = some f →
        bars[j]? = some (
          let values := Spec.bandValues fig.events (Spec.baseOf q) j
          let m := Spec.derived q (Spec.geoMean values) f v
          let s := Real.exp (Spec.stdDev (values.map Real.log) 1)
          if values = [] then (none, none, none)
          else if values.length < 2 then (some m, none, none)
          else (some m, some (m - m / s), some (m * s - m))) := by
  obtain ⟨col, V, errs, hc, hV, herr, _, hpan⟩ := plotResults_events hg hp
  obtain ⟨rows, fs, vs, ms, ha, hl, hvs, hfs, hms, rfl⟩ := panelOf_curve hq (hpan _ hmem)
  have hbase : Spec.baseOf q = "g0" ∨ Spec.baseOf q = "b" ∨ Spec.baseOf q = "error" := by
    simp only [Spec.drawable, List.mem_cons, List.not_mem_nil, or_false] at hq
    rcases hq with rfl | rfl | rfl | rfl | rfl | rfl | rfl <;> decide
  obtain ⟨hne, hrows, _⟩ := array_spec (by decide) hc
    (by rcases hbase with h | h | h <;> rw [h] <;> decide)
    (by rcases hbase with h | h | h <;> rw [h] <;> decide)
    (by rcases hbase with h | h | h <;> rw [h] <;> decide) ha
  obtain ⟨v', hvs', hv'⟩ := v0For_replicate hvs (chooseV0_spec hV hv hvel)
  subst hvs'
  have hrne : rows ≠ [] := by rw [hrows]; simpa using hne
  have hhead : (rows.headD []).length = fig.freq.length := by
    obtain ⟨r0, rest, h0⟩ := List.exists_cons_of_ne_nil hrne
    rw [h0]; exact hl r0 (by rw [h0]; exact List.mem_cons_self)
  rw [hhead] at hfs
  refine ⟨_, ms, rfl, (gerrTable_col hms).1, ?_⟩
  intro j f hf
  have hj : j < fig.freq.length := (List.getElem?_eq_some_iff.1 hf).1
  have hfpos : 0 < f := hfreq f (List.mem_of_getElem? hf)
  have hfsl : fs.length = fig.freq.length ∧ ∃ g, fs[j]? = some g ∧ (needsFreq q = true → g = f) := by
    unfold freqsFor at hfs
    by_cases hn : needsFreq q = true
    · rw [if_pos hn] at hfs
      simp only [if_true, Except.ok.injEq] at hfs
      subst hfs
      exact ⟨rfl, f, hf, fun _ => rfl⟩
    · rw [if_neg hn] at hfs
      simp only [Except.ok.injEq] at hfs
      subst hfs
      exact ⟨by simp, 1, by simp [hj], fun h => absurd h hn⟩
  obtain ⟨hfsl, g, hgj, hgf⟩ := hfsl
  have hcol := column_depend q fs v' hgj rows (fun r hr => by rw [hl r hr, hfsl])
  obtain ⟨b, hb, hbe⟩ := gerrTable_plain hms j hj
  rw [gerr_derived hq hfpos hv hgf hv' hcol] at hbe
  have hpos : Spec.positives (column rows j) = Spec.bandValues fig.events (Spec.baseOf q) j := by
    have hl0 : ∀ r ∈ Spec.rowsWith fig.events (Spec.baseOf q), r.length = fig.freq.length := by
      intro r hr
      have := hl (r.map Cell.toFloat) (by rw [hrows]; exact List.mem_map.2 ⟨r, hr, rfl⟩)
      simpa using this
    rw [hrows, column_eq hl0 hj, positives_toFloat]
    rfl
  rw [hpos] at hbe
  simp only [Except.ok.injEq] at hbe
  rw [hb, ← hbe]

/-! ### Simultaneous inversion of all events -/

namespace FigureResults

/-- Figure of a single inversion. -/
theorem plotResults_single {rlm : List ℝ → ℝ × ℝ} {mean : Mean} {fig : FigRes} {v0 : Option ℝ}
    {quantities : List String} {panels : List (String × Panel)}
    (hg : ∀ e ∈ fig.events.head?, "g0" ∉ e.2.keys)
    (hp : plotResults rlm mean fig v0 quantities = .ok panels) :
    ∃ V, chooseV0 v0 fig.v0 (topV0 fig) = .ok V ∧ panels.map Prod.fst = quantities ∧
      ∀ p ∈ panels, panelSingle mean fig.freq V fig p.1 = .ok p.2 := by
  unfold plotResults at hp
  obtain ⟨first, hf, hp⟩ := bind_ok.1 hp
  have hfe : "g0" ∉ first.keys := by
    unfold firstEvent at hf
    cases hev : fig.events with
    | nil => rw [hev] at hf; simp at hf
    | cons a l =>
      rw [hev] at hf hg
      simp only [Except.ok.injEq] at hf
      rw [← hf]
      exact hg a (by simp)
  rw [if_neg hfe] at hp
  obtain ⟨V, hV, hp⟩ := bind_ok.1 hp
  obtain ⟨_, _, hp⟩ := bind_ok.1 hp
  have hF := mapExc_ok.1 hp
  refine ⟨V, hV, named (P := fun q p => panelSingle mean fig.freq V fig q = .ok p) (hF.imp ?_)⟩
  intro q p h
  obtain ⟨x, hx, h⟩ := bind_ok.1 h
  simp only [pure, Except.pure, Except.ok.injEq] at h
  rw [← h]
  exact ⟨rfl, hx⟩

theorem panelSingle_curve {mean : Mean} {freq : List ℝ} {V : V0} {fig : FigRes} {q : String}
    {p : Panel} (hq : q ∈ Spec.drawable) (h : panelSingle mean freq V fig q = .ok p) :
    ∃ l v fs ms, fig.top.get? (Spec.baseOf q) = some (.row l) ∧ l.length = freq.length ∧
      V = .num v ∧ freqsFor q (some freq) l.length = .ok fs ∧
      gerrRow mean (dependRow q fs v l) freq.length = .ok ms ∧ p = .curve [] ms := by
  have hn : q ≠ "nobs" := by rintro rfl; revert hq; decide
  have hd : depMap.get? q = some (Spec.baseOf q) := by
    simp only [Spec.drawable, List.mem_cons, List.not_mem_nil, or_false] at hq
    rcases hq with rfl | rfl | rfl | rfl | rfl | rfl | rfl <;> decide
  unfold panelSingle at h
  rw [if_neg hn, hd] at h
  simp only at h
  cases ht : fig.top.get? (Spec.baseOf q) with
  | none => rw [ht] at h; simp at h
  | some x =>
    rw [ht] at h
    cases x with
    | cell _ => simp at h
    | sites _ => simp at h
    | row l =>
      simp only at h
      obtain ⟨_, hb, h⟩ := bind_ok.1 h
      obtain ⟨d, hd, h⟩ := bind_ok.1 h
      unfold calcDependent at hd
      simp only at hd
      cases V with
      | none => simp at hd
      | arr _ => simp at hd
      | num v =>
        simp only at hd
        split at hd
        · obtain ⟨fs, hfs, hd⟩ := bind_ok.1 hd
          simp only [pure, Except.pure, Except.ok.injEq] at hd
          subst hd
          simp only at h
          obtain ⟨ms, hms, h⟩ := bind_ok.1 h
          simp only [pure, Except.pure, Except.ok.injEq] at h
          refine ⟨l, v, fs, ms, rfl, ?_, rfl, hfs, hms, h.symm⟩
          unfold checkBands at hb
          split at hb
          · next hall => simpa using hall
          · simp at hb
        · simp only [Except.ok.injEq] at hd
          subst hd
          simp at h

end FigureResults

/-- **C93** for simultaneously inverted events: if a figure is drawn, the marks are the values of the
inversion or the quantities derived from them.

Missing: a figure is only drawn for a single band or `mean='robust'`, see
`C93_simultaneous_counterexample`. -/
theorem C93_simultaneous_partial {rlm : List ℝ → ℝ × ℝ} {fig : FigRes} {v0 : Option ℝ} {v : ℝ}
    {mean : Mean} {quantities : List String} {panels : List (String × Panel)}
    (hg : ∀ e ∈ fig.events.head?, "g0" ∉ e.2.keys) (hfreq : ∀ f ∈ fig.freq, 0 < f) (hv : 0 < v)
    (hp : plotResults rlm mean fig v0 quantities = .ok panels) :
    panels.map Prod.fst = quantities ∧ ∀ q p, (q, p) ∈ panels → q ∈ Spec.drawable →
      Spec.VelocityFor q v0 fig.v0 v →
      ∃ bars row, p = .curve [] bars ∧ fig.top.get? (Spec.baseOf q) = some (.row row) ∧
        row.length = fig.freq.length ∧ bars.length = fig.freq.length ∧
        ∀ (j : ℕ) (f : ℝ) (c : Cell), fig.freq[j]? = some f → row[j]? = some c →
          bars[j]?.map Prod.fst = some (match c with
            | .num x => if 0 < x then some (Spec.derived q x f v) else none
            | _ => none) := by
  obtain ⟨V, hV, hq, hpan⟩ := plotResults_single hg hp
  refine ⟨hq, fun q p hmem hqd hvel => ?_⟩
  obtain ⟨l, v', fs, ms, ht, hl, rfl, hfs, hms, rfl⟩ := panelSingle_curve hqd (hpan _ hmem)
  have hv' : needsV0 q = true → v' = v := by
    intro h
    have := chooseV0_spec hV hv hvel h
    simpa using this
  have hfl : fs.length = fig.freq.length := by
    unfold freqsFor at hfs
    split at hfs
    · simp only [hl, if_true, Except.ok.injEq] at hfs; rw [← hfs]
    · simp only [Except.ok.injEq] at hfs; rw [← hfs]; simp [hl]
  have hms' : ms = (dependRow q fs v' l).map
      (fun x => (x.bind (fun x => if 0 < x then some x else none), none, none)) := by
    unfold gerrRow at hms
    cases mean with
    | robust => simpa using hms.symm
    | plain =>
      simp only at hms
      split at hms
      · simp at hms
      · simpa using hms.symm
    | weighted =>
      simp only at hms
      split at hms
      · simp at hms
      · simpa using hms.symm
  refine ⟨ms, l, rfl, ht, hl, by rw [hms']; simp [dependRow, hl, hfl], ?_⟩
  intro j f c hf hc
  have hj : j < fig.freq.length := (List.getElem?_eq_some_iff.1 hf).1
  have hfpos : 0 < f := hfreq f (List.mem_of_getElem? hf)
  have hgj : ∃ g, fs[j]? = some g ∧ (needsFreq q = true → g = f) := by
    unfold freqsFor at hfs
    by_cases hn : needsFreq q = true
    · rw [if_pos hn] at hfs
      simp only [hl, if_true, Except.ok.injEq] at hfs
      subst hfs
      exact ⟨f, hf, fun _ => rfl⟩
    · rw [if_neg hn] at hfs
      simp only [Except.ok.injEq] at hfs
      subst hfs
      exact ⟨1, by simp [hl, hj], fun h => absurd h hn⟩
  obtain ⟨g, hgj, hgf⟩ := hgj
  rw [hms', List.getElem?_map]
  unfold dependRow
  rw [List.getElem?_zipWith, hc, hgj]
  simp only [Option.map_some, Option.some.injEq]
  cases c with
  | none => rfl
  | nan => rfl
  | num x =>
    obtain ⟨a, c, _, hlog, hexp⟩ := dependOne_log hqd hfpos hv g v' hgf hv'
    have h1 := hlog x
    simp only [Cell.val?, Option.bind_some]
    by_cases hx : 0 < x
    · rw [if_pos hx] at h1 ⊢
      cases hd : dependOne q x g v' with
      | none => rw [hd] at h1; simp at h1
      | some y =>
        rw [hd] at h1
        simp only [Option.bind_some, Option.map_some] at h1 ⊢
        by_cases hy : 0 < y
        · rw [if_pos hy] at h1 ⊢
          simp only [Option.some.injEq] at h1 ⊢
          have := hexp (Real.log x)
          rw [Real.exp_log hx, ← h1, Real.exp_log hy] at this
          exact this
        · rw [if_neg hy] at h1; simp at h1
    · rw [if_neg hx] at h1 ⊢
      cases hd : dependOne q x g v' with
      | none => rfl
      | some y =>
        rw [hd] at h1
        simp only [Option.bind_some, Option.map_none] at h1 ⊢
        by_cases hy : 0 < y
        · rw [if_pos hy] at h1; simp at h1
        · rw [if_neg hy]

/-- **C93** fails for each simultaneous inversion with several bands, unless `mean='robust'`: no
figure with any of the quantities can be drawn; for a complete result `plot_results` raises
`ValueError`. -/
theorem C93_simultaneous_counterexample (rlm : List ℝ → ℝ × ℝ) :
    (∀ (mean : Mean) (fig : FigRes) (v0 : Option ℝ) (quantities : List String) (q : String),
      mean ≠ .robust → (∀ e ∈ fig.events.head?, "g0" ∉ e.2.keys) → fig.freq.length ≠ 1 →
      q ∈ Spec.drawable → q ∈ quantities →
      ∀ panels, plotResults rlm mean fig v0 quantities ≠ .ok panels) ∧
    plotResults rlm .plain ⟨[1, 2], some 3000, [("g0", .row [.num 1, .num 4])],
      [("e1", [("W", .row [.num 1, .num 1])])]⟩ none ["g0"] = .error .valueError := by
  constructor
  · intro mean fig v0 quantities q hm hg hf hq hqs panels hp
    obtain ⟨V, hV, hqe, hpan⟩ := plotResults_single hg hp
    rw [← hqe] at hqs
    obtain ⟨⟨q', p⟩, hmem, rfl⟩ := List.mem_map.1 hqs
    obtain ⟨l, v', fs, ms, ht, hl, rfl, hfs, hms, rfl⟩ := panelSingle_curve hq (hpan _ hmem)
    unfold gerrRow at hms
    cases mean with
    | robust => exact hm rfl
    | plain => simp only at hms; rw [if_pos hf] at hms; simp at hms
    | weighted => simp only at hms; rw [if_pos hf] at hms; simp at hms
  · have h3 : (3000 : ℝ) ≠ 0 := by norm_num
    have hc : ∀ rest, chooseV0 none (some (3000 : ℝ)) rest = .ok (.num 3000) := by
      intro rest
      unfold chooseV0 chooseV0.inner
      simp only
      rw [if_pos h3]
    unfold plotResults
    simp only [firstEvent, bind, Except.bind, errorRow]
    rw [if_neg (by decide), hc]
    rfl

/-- **C93** fails for the error bars of the weighted mean: a band without misfit in one of the events
has no error bars, however many other events have a value. -/
theorem C93_weighted_errors_counterexample {rlm : List ℝ → ℝ × ℝ} {fig : FigRes} {v0 : Option ℝ}
    {quantities : List String} {panels : List (String × Panel)}
    (hg : ∃ e ∈ fig.events.head?, "g0" ∈ e.2.keys)
    (hp : plotResults rlm .weighted fig v0 quantities = .ok panels) (q : String) (p : Panel)
    (hmem : (q, p) ∈ panels) (hq : q ∈ Spec.drawable) (j : ℕ) (hj : j < fig.freq.length)
    (hmiss : ∃ row ∈ Spec.rowsWith fig.events "error", row[j]? = some .none) :
    ∃ points bars m, p = .curve points bars ∧ bars[j]? = some (m, none, none) := by
  obtain ⟨col, V, errs, hc, hV, herr, _, hpan⟩ := plotResults_events hg hp
  obtain ⟨rows, fs, vs, ms, ha, hl, hvs, hfs, hms, rfl⟩ := panelOf_curve hq (hpan _ hmem)
  unfold gerrTable at hms
  simp only at hms
  split at hms
  · simp at hms
  have hF := mapExc_ok.1 hms
  have hlen : ms.length = fig.freq.length := by rw [← hF.length_eq]; simp
  have := (List.forall₂_iff_get.1 hF).2 j (by simpa using hj) (by omega)
  simp only [List.get_eq_getElem, List.getElem_range] at this
  unfold gerrWeighted at this
  split at this
  · simp only [Except.ok.injEq] at this
    exact ⟨_, _, none, rfl, by rw [List.getElem?_eq_getElem (by omega), ← this]⟩
  obtain ⟨r, hr, this⟩ := bind_ok.1 this
  simp only [pure, Except.pure, Except.ok.injEq] at this
  rw [if_pos] at this
  · exact ⟨_, _, r.1, rfl, by rw [List.getElem?_eq_getElem (by omega), ← this]⟩
  · obtain ⟨row, hrow, hrj⟩ := hmiss
    refine ⟨.nan, ?_, Or.inl rfl⟩
    rw [errorRows_spec hc herr rfl]
    unfold column
    rw [List.map_map]
    refine List.mem_map.2 ⟨row, hrow, ?_⟩
    simp only [Function.comp]
    rw [List.getD_eq_getElem?_getD, List.getElem?_map, hrj]
    rfl

/-! ### Examples -/

open WeightedExample WrapperExample in
/-- The hypotheses of the theorems on separately inverted events are met by the result of two events:
a figure with the number of observations, `g0` and the quality factor. -/
theorem FigureResults.exFigure (rlm : List ℝ → ℝ × ℝ) :
    ∃ w panels, invertWrapper rlm (WeightedExample.exInv ["A", "B"]) false false .plain
      [ev "x/e2" 2, ev "x/e1" 1] = .ok (some w) ∧ w.events = exEvents ["A", "B"] ∧
      plotResults rlm .plain ⟨[1], some 3000, [], w.events⟩ none ["nobs", "g0", "Qsc"] =
        .ok panels ∧ (∃ e ∈ w.events.head?, "g0" ∈ e.2.keys) := by
  have h3 : (3000 : ℝ) ≠ 0 := by norm_num
  have hc : ∀ rest, chooseV0 none (some (3000 : ℝ)) rest = .ok (.num 3000) := by
    intro rest
    unfold chooseV0 chooseV0.inner
    simp only
    rw [if_pos h3]
  have hgerr : ∀ col, ∃ b, gerr rlm col none = .ok b := fun col => ⟨_, C46_gerr_value rlm col true 5⟩
  have hcol : ∃ col, collectResults ((exEvents ["A", "B"]).mapVals some) ["g0", "b", "error", "v0"] =
      .ok col ∧ arrayOf col "g0" = .ok (some [[.num 1], [.num 4]]) := ⟨_, rfl, rfl⟩
  obtain ⟨col, hcol, hg⟩ := hcol
  have htab : ∀ rows errs, ∃ m, gerrTable rlm .plain rows errs 1 = .ok m := by
    intro rows errs
    obtain ⟨b, hb⟩ := hgerr (column rows 0)
    refine ⟨[b], ?_⟩
    simp only [gerrTable, List.range_succ, List.range_zero, List.nil_append, mapExc, hb, bind,
      Except.bind, pure, Except.pure]
  have hpan : ∀ q ∈ ["g0", "Qsc"], ∃ p, panelOf rlm .plain [1] (.num 3000) col [] q = .ok p := by
    intro q hq
    obtain ⟨m, hm⟩ := htab ((dependTable q [1] [3000, 3000] [[.num 1], [.num 4]]).map
      (fun r => r.map ofOpt)) []
    simp only [List.mem_cons, List.not_mem_nil, or_false] at hq
    refine ⟨.curve (dependTable q [1] [3000, 3000] [[.num 1], [.num 4]]) m, ?_⟩
    have hd : depMap.get? q = some "g0" := by rcases hq with rfl | rfl <;> decide
    have hn : q ≠ "nobs" := by rcases hq with rfl | rfl <;> decide
    have hcalc : calcDependent q (.table [[.num 1], [.num 4]]) (some [1]) (.num 3000) =
        .ok (some (.table (dependTable q [1] [3000, 3000] [[.num 1], [.num 4]]))) := by
      rcases hq with rfl | rfl <;> rfl
    unfold panelOf
    rw [if_neg hn, hd]
    simp only [hg, bind, Except.bind, hcalc]
    simp only [checkBands, List.all_cons, List.length_cons, List.length_nil, List.all_nil]
    simp only [Nat.zero_add, decide_true, Bool.and_self, if_true]
    rw [hm]
    rfl
  obtain ⟨p1, h1⟩ := hpan "g0" (by simp)
  obtain ⟨p2, h2⟩ := hpan "Qsc" (by simp)
  have hw : ∃ w, invertWrapper rlm (WeightedExample.exInv ["A", "B"]) false false .plain
      [ev "x/e2" 2, ev "x/e1" 1] = .ok (some w) ∧ w.events = exEvents ["A", "B"] :=
    ⟨_, by rw [WeightedExample.exWrapper]; rfl, rfl⟩
  obtain ⟨w, hw, hev⟩ := hw
  refine ⟨w, [("nobs", .bars [2]), ("g0", p1), ("Qsc", p2)], hw, hev, ?_, by
    rw [hev]; exact ⟨_, rfl, by decide⟩⟩
  rw [hev]
  show plotResults rlm .plain ⟨[1], some 3000, [], exEvents ["A", "B"]⟩ none ["nobs", "g0", "Qsc"] = _
  unfold plotResults
  have hf : firstEvent ⟨[1], some 3000, [], exEvents ["A", "B"]⟩ = .ok
    [("g0", .row [.num 1]), ("b", .row [.num 2]), ("nstations", .row [.num 1]),
     ("error", .row [.num 3]), ("W", .row [.num 1]), ("R", .sites [("A", [.num 1])])] := rfl
  rw [hf]
  simp only [bind, Except.bind]
  rw [if_pos (by decide), hcol]
  simp only [hc, errorRows, mapExc, h1, h2, bind, Except.bind, pure, Except.pure]
  have h0 : panelOf rlm .plain [1] (.num 3000) col [] "nobs" = .ok (.bars [2]) := by
    unfold panelOf
    rw [if_pos rfl, hg]
    rfl
  rw [h0]

open FigureResults in
/-- `C93_means_partial` and `C93_points` are not vacuous. -/
example (rlm : List ℝ → ℝ × ℝ) : ∃ (fig : FigRes) (panels : List (String × Panel)) (p : Panel),
    plotResults rlm .plain fig none ["nobs", "g0", "Qsc"] = .ok panels ∧ ("Qsc", p) ∈ panels ∧
    ∃ points bars, p = .curve points bars ∧
      (points[1]?.bind (·[0]?)) = some (some (4 * 3000 / (2 * Real.pi * 1))) := by
  obtain ⟨w, panels, _, hev, hp, hg⟩ := exFigure rlm
  have hq := (plotResults_events hg hp).choose_spec.choose_spec.choose_spec.2.2.2.1
  have : "Qsc" ∈ panels.map Prod.fst := by rw [hq]; simp
  obtain ⟨⟨q, p⟩, hmem, rfl⟩ := List.mem_map.1 this
  refine ⟨_, panels, p, hp, hmem, ?_⟩
  obtain ⟨points, bars, rfl, _, h⟩ := C93_points (v := 3000) hg (by simp) (by norm_num) hp _ _ hmem
    (by decide) (Or.inr (Or.inl ⟨rfl, rfl⟩))
  refine ⟨points, bars, rfl, ?_⟩
  rw [h 1 0 [.num 4] 1 (by
    show (Spec.rowsWith w.events "g0")[1]? = _
    rw [hev]; rfl) rfl]
  simp only [List.getElem?_cons_zero]
  rw [if_neg (by rintro ⟨h | h, _⟩ <;> revert h <;> decide)]
  unfold Spec.derived
  rw [if_pos rfl]

/-- `C93_simultaneous_partial` is not vacuous. -/
example (rlm : List ℝ → ℝ × ℝ) : ∃ panels,
    plotResults rlm .robust ⟨[1, 2], some 3000, [("g0", .row [.num 1, .num 4])],
      [("e1", [("W", .row [.num 1, .num 1])])]⟩ none ["nobs", "g0"] = .ok panels := by
  have h3 : (3000 : ℝ) ≠ 0 := by norm_num
  have hc : ∀ rest, chooseV0 none (some (3000 : ℝ)) rest = .ok (.num 3000) := by
    intro rest
    unfold chooseV0 chooseV0.inner
    simp only
    rw [if_pos h3]
  unfold plotResults
  simp only [firstEvent, bind, Except.bind, errorRow]
  rw [if_neg (by decide), hc]
  exact ⟨_, rfl⟩

/-- `C93_weighted_errors_counterexample` is not vacuous: the second event has no values in the second
band, two other events have. -/
example (rlm : List ℝ → ℝ × ℝ) : ∃ panels,
    plotResults rlm .weighted ⟨[1], some 3000, [],
      [("e1", [("g0", .row [.num 1]), ("error", .row [.num 1])]),
       ("e2", [("g0", .row [.none]), ("error", .row [.none])]),
       ("e3", [("g0", .row [.num 2]), ("error", .row [.num 1])])]⟩ none ["g0"] = .ok panels := by
  have h3 : (3000 : ℝ) ≠ 0 := by norm_num
  have hc : ∀ rest, chooseV0 none (some (3000 : ℝ)) rest = .ok (.num 3000) := by
    intro rest
    unfold chooseV0 chooseV0.inner
    simp only
    rw [if_pos h3]
  have hcol : ∃ col, collectResults (Dict.mapVals some
      [("e1", [("g0", .row [.num 1]), ("error", .row [.num 1])]),
       ("e2", [("g0", .row [.none]), ("error", .row [.none])]),
       ("e3", [("g0", .row [.num 2]), ("error", .row [.num 1])])]) ["g0", "b", "error", "v0"] =
      .ok col ∧ arrayOf col "g0" = .ok (some [[.num 1], [.nan], [.num 2]]) ∧
      arrayOf col "error" = .ok (some [[.num 1], [.nan], [.num 1]]) := ⟨_, rfl, rfl, rfl⟩
  obtain ⟨col, hcol, hg, he⟩ := hcol
  have hw : ∃ b, gerrWeighted rlm [.num 1, .nan, .num 2] [.num 1, .nan, .num 1] = .ok b := by
    unfold gerrWeighted
    rw [if_neg (by simp [badWeight, maLog, maskedInvalid])]
    obtain ⟨b, hb⟩ : ∃ b, gerr rlm [.num 1, .nan, .num 2]
        (some ([.num 1, .nan, .num 1].map weightOf)) = .ok b := by
      unfold gerr gstat weightedStat
      simp [weightsMismatch, maLog, maskedInvalid, bind, Except.bind, pure, Except.pure]
    rw [hb]
    exact ⟨_, rfl⟩
  obtain ⟨b, hb⟩ := hw
  have hpan : panelOf rlm .weighted [1] (.num 3000) col [[.num 1], [.nan], [.num 1]] "g0" =
      .ok (.curve [[some 1], [none], [some 2]] [b]) := by
    unfold panelOf
    rw [if_neg (by decide)]
    have hd : depMap.get? "g0" = some "g0" := by decide
    rw [hd]
    have hcalc : calcDependent "g0" (.table [[.num 1], [.nan], [.num 2]]) (some [1]) (.num 3000) =
        .ok (some (.table [[some 1], [none], [some 2]])) := by rfl
    simp only [hg, bind, Except.bind, hcalc]
    simp only [checkBands, List.all_cons, List.length_cons, List.length_nil, List.all_nil]
    simp only [Nat.zero_add, decide_true, Bool.and_self, if_true]
    have : gerrTable rlm .weighted (List.map (fun r => List.map ofOpt r) [[some 1], [none], [some 2]])
        [[.num 1], [.nan], [.num 1]] 1 = .ok [b] := by
      unfold gerrTable
      simp only
      rw [if_neg (by simp)]
      have : column (List.map (fun r => List.map ofOpt r) [[some 1], [none], [some 2]]) 0 =
        [.num 1, .nan, .num 2] := rfl
      have h2 : column [[Cell.num 1], [.nan], [.num 1]] 0 = [.num 1, .nan, .num 1] := rfl
      simp only [List.range_succ, List.range_zero, List.nil_append, mapExc, this, h2, hb, bind,
        Except.bind, pure, Except.pure]
    rw [this]
    rfl
  refine ⟨[("g0", .curve [[some 1], [none], [some 2]] [b])], ?_⟩
  unfold plotResults
  simp only [firstEvent, bind, Except.bind]
  rw [if_pos (by decide), hcol]
  simp only [hc, errorRows, he, mapExc, hpan, bind, Except.bind, pure, Except.pure]

open FigureResults in
/-- **C93** for simultaneously inverted events: the panel of the number of observations has a bar of height
one for each band. -/
theorem C93_nobs_single {rlm : List ℝ → ℝ × ℝ} {fig : FigRes} {v0 : Option ℝ} {mean : Mean}
    {quantities : List String} {panels : List (String × Panel)}
    (hg : ∀ e ∈ fig.events.head?, "g0" ∉ e.2.keys)
    (hp : plotResults rlm mean fig v0 quantities = .ok panels) {p : Panel} (h : ("nobs", p) ∈ panels) :
    ∃ n, p = .bars n ∧ n.length = fig.freq.length ∧ ∀ x ∈ n, x = 1 := by
  obtain ⟨V, -, -, hpan⟩ := plotResults_single hg hp
  have := hpan _ h
  unfold panelSingle at this
  rw [if_pos rfl, Except.ok.injEq] at this
  exact ⟨_, this.symm, by simp, fun x hx => List.eq_of_mem_replicate hx⟩

/-- The hypotheses are met, see the example for `C93_simultaneous_partial`: a figure with the panel. -/
example : ∃ (fig : FigRes) (panels : List (String × Panel)) (p : Panel),
    plotResults (fun _ => (0, 0)) .robust fig none ["nobs"] = .ok panels ∧ ("nobs", p) ∈ panels ∧
    fig.freq.length = 2 := by
  refine ⟨⟨[1, 2], some 3000, [], [("e1", [("W", .row [.num 1, .num 1])])]⟩,
    [("nobs", .bars [1, 1])], .bars [1, 1], ?_, by simp, rfl⟩
  have h3 : (3000 : ℝ) ≠ 0 := by norm_num
  unfold plotResults
  simp only [firstEvent, bind, Except.bind, errorRow]
  rw [if_neg (by decide)]
  unfold chooseV0 chooseV0.inner
  simp only
  rw [if_pos h3]
  rfl

/-- **C93**: a simultaneous inversion in a single band can be drawn with weighted mean; the value in the figure is
the one of the inversion. -/
theorem C93_single_band_weighted (rlm : List ℝ → ℝ × ℝ) {f v g e : ℝ} (hv : v ≠ 0) (hg : 0 < g)
    (evs : Dict String (Dict String RVal)) (hne : evs ≠ []) (hev : ∀ x ∈ evs, "g0" ∉ x.2.keys) :
    plotResults rlm .weighted ⟨[f], some v, [("g0", .row [.num g]), ("error", .row [.num e])], evs⟩ none
      ["g0"] = .ok [("g0", .curve [] [(some g, none, none)])] := by
  have hc : ∀ rest, chooseV0 none (some v) rest = .ok (.num v) := by
    intro rest
    unfold chooseV0 chooseV0.inner
    simp only
    rw [if_pos hv]
  obtain ⟨x, l, rfl⟩ := List.exists_cons_of_ne_nil hne
  unfold plotResults
  simp only [firstEvent, bind, Except.bind, errorRow]
  rw [if_neg (hev x (by simp)), hc]
  simp [mapExc, panelSingle, depMap, Dict.get?, Cell.val?, checkBands, calcDependent, gerrRow, freqsFor,
    needsFreq, dependRow, dependOne, Imaging.plain, hg, bind, Except.bind, pure, Except.pure]
end Qopen
