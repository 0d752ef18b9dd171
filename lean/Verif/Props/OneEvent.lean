import Verif.Props.WrapperKeys
import Verif.Lemmas.SiteTotal
import Verif.Props.Tables

/-!
# A single event: simultaneous and separate inversion agree (C122)
-/

namespace Qopen

open Util Catalog Source Invert InvertFb Freqs Collect Wrapper

namespace Spec

open Classical in
/-- A positive number, `None` otherwise. -/
noncomputable def onlyPositive : Cell → Cell
  | .num x => if 0 < x then .num x else .none
  | _ => .none

end Spec

namespace Wrapper

theorem geoMean_one {x : ℝ} (hx : 0 < x) : Spec.geoMean [x] = x := by
  unfold Spec.geoMean
  simp [Real.exp_log hx]

/-- The mean of one row. -/
theorem bandMeans_one {row out : List Cell} (h : Spec.BandMeans [row] out) :
    out = row.map Spec.onlyPositive := by
  have hl := h.length row List.mem_cons_self
  refine List.ext_getElem? ?_
  intro i
  by_cases hi : i < out.length
  · obtain ⟨h1, h2⟩ := h.entries i hi
    have hr : row[i]? = some (row[i]'(hl ▸ hi)) := List.getElem?_eq_getElem (hl ▸ hi)
    have e : [row].filterMap (fun r => r[i]?) = [row[i]'(hl ▸ hi)] := by
      simp [hr]
    rw [e] at h1 h2
    rw [List.getElem?_map, hr]
    cases hc : row[i]'(hl ▸ hi) with
    | none =>
      rw [hc] at h1
      rw [h1 rfl]
      rfl
    | nan =>
      rw [hc] at h1
      rw [h1 rfl]
      rfl
    | num x =>
      rw [hc] at h1 h2
      by_cases hx : 0 < x
      · have hp : Spec.positives [Cell.num x] = [x] := by
          simp [Spec.positives, hx]
        rw [hp] at h2
        rw [h2 (by simp), geoMean_one hx]
        simp [Spec.onlyPositive, hx]
      · have hp : Spec.positives [Cell.num x] = [] := by
          simp [Spec.positives, hx]
        rw [hp] at h1
        rw [h1 rfl]
        simp [Spec.onlyPositive, hx]
  · rw [List.getElem?_eq_none (by omega), List.getElem?_eq_none (by rw [List.length_map]; omega)]

theorem orderEvents_one {ev : Event} {order : List Event} (h : orderEvents [ev] = .ok order) :
    order = [ev] := by
  unfold orderEvents timeEventPairs at h
  cases ho : getOrigin ev with
  | error e => simp [ho, sortEvents, bind, Except.bind] at h
  | ok o =>
    simp [ho, sortEvents, bind, Except.bind, pure, Except.pure] at h
    exact h.symm

end Wrapper

namespace Wrapper

theorem appendSites_all (tab : Dict String (List Item)) (R : Dict String (List Cell)) (hw : R.WF)
    (hd : ∀ k ∈ R.keys, k ∉ tab.keys) :
    appendSites none tab R = .ok (tab ++ R.map (fun p => (p.1, [Item.row p.2]))) := by
  unfold appendSites
  induction R generalizing tab with
  | nil => simp [pure, Except.pure]
  | cons a R ih =>
    have hn : a.1 ∉ tab.keys := hd a.1 (by simp [Dict.keys])
    rw [List.foldlM_cons]
    simp only [freqGetter, bind, Except.bind, pure, Except.pure] at ih ⊢
    rw [(Dict.get?_eq_none _ _).2 hn, Option.getD_none, List.nil_append,
      Dict.keys_set_of_not_mem _ hn, ih]
    · simp
    · unfold Dict.WF Dict.keys at hw ⊢
      rw [List.map_cons, List.nodup_cons] at hw
      exact hw.2
    · intro k hk hm
      have e : Dict.keys (tab ++ [(a.1, [Item.row a.2])]) = tab.keys ++ [a.1] := by
        unfold Dict.keys
        rw [List.map_append]
        rfl
      rw [e, List.mem_append, List.mem_singleton] at hm
      rcases hm with hm | rfl
      · exact hd k (by unfold Dict.keys at hk ⊢; rw [List.map_cons]; exact List.mem_cons_of_mem _ hk) hm
      · unfold Dict.WF Dict.keys at hw
        rw [List.map_cons, List.nodup_cons] at hw
        exact hw.1 hk

theorem toArray_one (row : List Cell) :
    toArray [Item.row row] = .ok [Item.row (row.map Cell.toFloat)] := by
  simp [toArray, Item.toFloat]

theorem tableMean_one (rlm : List ℝ → ℝ × ℝ) (errs : List (List Cell)) (row : List Cell) :
    ∃ m, tableMean rlm .plain errs [row] = .ok m := by
  simp [tableMean, gmeanlist]

theorem invert_g0_b {env : Env} {cfg : InvCfg} {cpus : ℕ} {schedule : List ℕ} {events : List Event}
    {r : InvRes} (hi : invert env cfg cpus schedule events = .ok (some r)) :
    (cfg.cmd ≠ .go ∧ r.g0 = none ∧ r.b = none) ∨ ∃ g b, r.g0 = some g ∧ r.b = some b := by
  unfold invert at hi
  split at hi
  · simp at hi
  obtain ⟨bands, hb, hi⟩ := bind_ok.1 hi
  obtain ⟨streams, _, hi⟩ := bind_ok.1 hi
  cases streams with
  | none => simp [pure, Except.pure] at hi
  | some streams =>
    simp only at hi
    obtain ⟨origins, _, hi⟩ := bind_ok.1 hi
    obtain ⟨stations, _, hi⟩ := bind_ok.1 hi
    obtain ⟨args, _, hi⟩ := bind_ok.1 hi
    obtain ⟨rlist, _, hi⟩ := bind_ok.1 hi
    unfold tables at hi
    split at hi
    · simp at hi
    obtain ⟨err, _, hi⟩ := bind_ok.1 hi
    obtain ⟨evs, _, hi⟩ := bind_ok.1 hi
    simp only [pure, Except.pure, Except.ok.injEq, Option.some.injEq] at hi
    rw [← hi]
    by_cases hc : cfg.cmd = .go
    · right
      simp [hc]
    · left
      simp [hc]

theorem mapExc_pure {α β : Type} {f : α → Py β} {u : α → β} (l : List α) (h : ∀ a, f a = .ok (u a)) :
    mapExc f l = .ok (l.map u) := by
  rw [mapExc_ok, List.forall₂_map_right_iff, List.forall₂_same]
  exact fun a _ => h a

theorem convert_vals (row : List Cell) :
    convert (.vals [Item.row row]) = .ok (.vals [Item.row (row.map Cell.toFloat)]) := by
  simp [convert, toArray_one, bind, Except.bind, pure, Except.pure]

theorem convert_sites (R : Dict String (List Cell)) :
    convert (.sites (R.map (fun p => (p.1, [Item.row p.2])))) =
      .ok (.sites (R.map (fun p => (p.1, [Item.row (p.2.map Cell.toFloat)])))) := by
  unfold convert
  simp only
  have h : mapExc (fun kv : String × List Item => do
      let a ← toArray kv.2
      return (kv.1, a)) (R.map (fun p => (p.1, [Item.row p.2]))) =
      .ok (R.map (fun p => (p.1, [Item.row (p.2.map Cell.toFloat)]))) := by
    rw [mapExc_ok, List.forall₂_map_right_iff, List.forall₂_map_left_iff, List.forall₂_same]
    intro p _
    simp [toArray_one, bind, Except.bind, pure, Except.pure]
  rw [h]
  rfl

theorem sitesArray_one {col : Dict String ColVal} {R : Dict String (List Cell)}
    (h : col.get? "R" = some (.sites (R.map (fun p => (p.1, [Item.row (p.2.map Cell.toFloat)]))))) :
    sitesArray col = .ok (R.map (fun p => (p.1, [p.2.map Cell.toFloat]))) := by
  unfold sitesArray sitesOf
  rw [h]
  simp only
  rw [mapExc_ok, List.forall₂_map_right_iff, List.forall₂_map_left_iff, List.forall₂_same]
  intro p _
  rfl

/-- Mean results of a single event. -/
theorem means_one {rlm : List ℝ → ℝ × ℝ} {freq : List ℝ} {id : String} {e : Dict String RVal}
    {g b : Option (List Cell)} {err : List Cell} {R : Option (Dict String (List Cell))}
    (hg : e.get? "g0" = g.map RVal.row) (hb : e.get? "b" = b.map RVal.row)
    (hgb : g.isSome = b.isSome)
    (he : e.get? "error" = some (.row err)) (hR : e.get? "R" = R.map RVal.sites)
    (hw : ∀ d, R = some d → d.WF) (hnum : ∀ l, g = some l → ∃ x, Cell.num x ∈ l) :
    ∃ w, means rlm .plain freq [(id, e)] = .ok (some w) := by
  have hcol : ∃ col, collectResults (Dict.mapVals some [(id, e)]) ["g0", "b", "error", "R"] = .ok col ∧
      arrayOf col "g0" = .ok (g.map (fun l => [l.map Cell.toFloat])) ∧
      arrayOf col "b" = .ok (b.map (fun l => [l.map Cell.toFloat])) ∧
      arrayOf col "error" = .ok (some [err.map Cell.toFloat]) ∧
      sitesArray col = .ok ((R.getD []).map (fun p => (p.1, [p.2.map Cell.toFloat]))) := by
    cases g with
    | none =>
      cases b with
      | some b => simp at hgb
      | none =>
        cases R with
        | none =>
          refine ⟨[("R", .sites []), ("error", .vals [.row (err.map Cell.toFloat)])], ?_, rfl, rfl, rfl,
            rfl⟩
          simp [collectResults, collectEvent, collectKey, Dict.mapVals, hg, hb, he, hR, freqGetter,
            append, Dict.get?_cons, Dict.set, bind, Except.bind, pure, Except.pure, mapExc, convert,
            toArray_one]
        | some R =>
          refine ⟨[("R", .sites (R.map (fun p => (p.1, [Item.row (p.2.map Cell.toFloat)])))),
            ("error", .vals [.row (err.map Cell.toFloat)])], ?_, rfl, rfl, rfl, ?_⟩
          · have := appendSites_all [] R (hw R rfl) (by simp [Dict.keys])
            simp [collectResults, collectEvent, collectKey, Dict.mapVals, hg, hb, he, hR, freqGetter,
              append, Dict.get?_cons, Dict.set, bind, Except.bind, pure, Except.pure, mapExc,
              convert_vals, sitesOf, this, convert_sites]
          · exact sitesArray_one rfl
    | some g =>
      cases b with
      | none => simp at hgb
      | some b =>
        cases R with
        | none =>
          refine ⟨[("R", .sites []), ("g0", .vals [.row (g.map Cell.toFloat)]),
            ("b", .vals [.row (b.map Cell.toFloat)]),
            ("error", .vals [.row (err.map Cell.toFloat)])], ?_, rfl, rfl, rfl, rfl⟩
          simp [collectResults, collectEvent, collectKey, Dict.mapVals, hg, hb, he, hR, freqGetter,
            append, Dict.get?_cons, Dict.set, bind, Except.bind, pure, Except.pure, mapExc, convert,
            toArray_one]
        | some R =>
          refine ⟨[("R", .sites (R.map (fun p => (p.1, [Item.row (p.2.map Cell.toFloat)])))),
            ("g0", .vals [.row (g.map Cell.toFloat)]),
            ("b", .vals [.row (b.map Cell.toFloat)]),
            ("error", .vals [.row (err.map Cell.toFloat)])], ?_, rfl, rfl, rfl, ?_⟩
          · have := appendSites_all [] R (hw R rfl) (by simp [Dict.keys])
            simp [collectResults, collectEvent, collectKey, Dict.mapVals, hg, hb, he, hR, freqGetter,
              append, Dict.get?_cons, Dict.set, bind, Except.bind, pure, Except.pure, mapExc,
              convert_vals, sitesOf, this, convert_sites]
          · exact sitesArray_one rfl
  obtain ⟨col, h1, h2, h3, h4, h5⟩ := hcol
  have hnan : (g.map (fun l => [l.map Cell.toFloat])).map allNan ≠ some true := by
    cases g with
    | none => simp
    | some l =>
      obtain ⟨x, hx⟩ := hnum l rfl
      simp only [Option.map_some, ne_eq, Option.some.injEq, allNan, List.all_eq_true,
        List.mem_singleton, forall_eq, List.mem_map, forall_exists_index, and_imp,
        forall_apply_eq_imp_iff₂]
      intro hall
      exact absurd (hall _ hx) (by simp [Cell.toFloat])
  have hsome : ∀ l : List Cell, ∃ m, tableMean rlm .plain [err.map Cell.toFloat]
      [l.map Cell.toFloat] = .ok m := fun l => tableMean_one rlm _ _
  have hif : ∀ o : Option (List Cell), ∃ m, meanIf rlm .plain [err.map Cell.toFloat]
      (o.map (fun l => [l.map Cell.toFloat])) = .ok m := by
    intro o
    cases o with
    | none => exact ⟨none, rfl⟩
    | some l =>
      obtain ⟨m, hm⟩ := hsome l
      exact ⟨some m, by simp [meanIf, hm, bind, Except.bind, pure, Except.pure]⟩
  obtain ⟨gm, hgm⟩ := hif g
  obtain ⟨bm, hbm⟩ := hif b
  obtain ⟨em, hem⟩ := hsome err
  obtain ⟨Rm, hRm⟩ : ∃ Rm, mapExc (fun kv : String × List (List Cell) => do
      let m ← tableMean rlm .plain [err.map Cell.toFloat] kv.2
      return (kv.1, m)) ((R.getD []).map (fun p => (p.1, [p.2.map Cell.toFloat]))) = .ok Rm := by
    refine Site.mapExc_total ?_
    intro p hp
    obtain ⟨q, _, rfl⟩ := List.mem_map.1 hp
    obtain ⟨m, hm⟩ := hsome q.2
    exact ⟨_, by rw [hm]; rfl⟩
  have hgb' : ¬ ((g.map (fun l => [l.map Cell.toFloat])).isSome ∧
      (b.map (fun l => [l.map Cell.toFloat])).isNone) := by
    cases g <;> cases b <;> simp at hgb ⊢
  unfold means
  rw [h1]
  simp only [bind, Except.bind, h2]
  rcases hN : (g.map (fun l => [l.map Cell.toFloat])).map allNan with _ | _ | _
  case some.true => exact absurd hN hnan
  all_goals
    simp only [h3, h4, h5, hgm, hbm, hem, if_neg hgb']
    simp only [bind, Except.bind] at hRm
    rw [hRm]
    exact ⟨_, rfl⟩

end Wrapper

namespace Wrapper

theorem announce_known {ev : Event} (hd : (Spec.originDepth ev).isSome) : announce ev = .ok () := by
  rw [announce_spec ev ?_, if_pos hd]
  unfold Spec.originDepth at hd
  unfold Spec.originTime
  cases h : ev.preferredOrigin.or ev.origins.head? with
  | none => rw [h] at hd; simp at hd
  | some o => rfl

/-- Result of a simultaneous inversion of one event. -/
theorem simultaneous_one {rlm : List ℝ → ℝ × ℝ} {inv : List Event → Py (Option InvRes)}
    {codaNorm : Bool} {mean : Mean} {ev : Event} {w : WrapRes}
    (h : invertWrapper rlm inv codaNorm true mean [ev] = .ok (some w)) :
    orderEvents [ev] = .ok [ev] ∧ ∃ r, inv [ev] = .ok (some r) ∧
      w = { freq := r.freq, events := r.events.mapVals eventItems
            g0 := r.g0, b := r.b, error := some r.error, R := r.R } := by
  obtain ⟨order, ho, h⟩ := bind_ok.1 h
  have e1 := orderEvents_one ho
  subst e1
  rw [if_pos rfl] at h
  obtain ⟨r, hr, h⟩ := bind_ok.1 h
  cases r with
  | none => simp at h
  | some r =>
    simp only [pure, Except.pure, Except.ok.injEq, Option.some.injEq] at h
    exact ⟨ho, r, hr, h.symm⟩

/-- What is known about the tables of an inversion of one event. -/
theorem invert_one {env : Env} {cfg : InvCfg} {cpus : ℕ} {schedule : List ℕ} {ev : Event}
    {r : InvRes} (hset : (stationsOf env).Nodup)
    (hs : ∀ bands, getFreqs cfg.freqs = .ok bands → Spec.Schedule cfg (bands.map Prod.snd) cpus schedule)
    (h : invert env cfg cpus schedule [ev] = .ok (some r)) :
    (getEventid ev ∈ r.events.keys ∨ cfg.codaNorm.isSome) ∧
    (∀ l, r.g0 = some l → ∃ x, Cell.num x ∈ l) ∧ ∀ R, r.R = some R → R.WF := by
  obtain ⟨bands, hb⟩ : ∃ bands, getFreqs cfg.freqs = .ok bands := by
    have h' := h
    unfold invert at h'
    split at h'
    · simp at h'
    obtain ⟨bands, hb, -⟩ := bind_ok.1 h'
    exact ⟨bands, hb⟩
  obtain ⟨stations, rlist, hst, ht, -⟩ := C23_tables (by simp) hb (hs bands hb) h
  refine ⟨?_, ?_, ?_⟩
  · cases hc : cfg.codaNorm with
    | some _ => right; rfl
    | none =>
      left
      rw [(ht.events hc).1]
      simp
  · intro l hl
    by_cases hc : cfg.cmd = .go
    · obtain ⟨row, h1, h2⟩ := ht.g0 hc
      rw [hl] at h1
      simp only [Option.some.injEq] at h1
      subst h1
      obtain ⟨r', hr'⟩ := ht.some_result
      obtain ⟨i, hi, hri⟩ := List.getElem_of_mem hr'
      have h3 := List.forall₂_iff_get.1 h2
      have h4 := h3.2 i hi (h3.1 ▸ hi)
      simp only [List.get_eq_getElem, hri] at h4
      obtain ⟨x, -, hx⟩ := h4
      exact ⟨x, hx ▸ List.getElem_mem _⟩
    · rw [(ht.fixed hc).1] at hl
      simp at hl
  · intro R hR
    by_cases hc : cfg.cmd ≠ .source ∧ cfg.codaNorm = none
    · obtain ⟨R', h1, h2, -⟩ := ht.sites hc.1 hc.2
      rw [hR] at h1
      simp only [Option.some.injEq] at h1
      subst h1
      unfold Dict.WF
      rw [h2]
      unfold resultStations at hst
      split_ifs at hst
      · obtain ⟨l, -, hst⟩ := bind_ok.1 hst
        simp only [pure, Except.pure, Except.ok.injEq] at hst
        rw [← hst]
        exact InvertFb.fromKeys_nodup _
      · simp only [Except.ok.injEq] at hst
        rw [← hst]
        exact hset
    · rw [ht.no_sites (by tauto)] at hR
      simp at hR

end Wrapper

/-- **C122**: for a catalogue with one event, if separate and simultaneous inversion both return a
result, the frequencies, source energies and source parameters of the event are the same, the result
of the event repeats the results of the simultaneous inversion, and the overall `g0`, `b`, `error` and
site responses are the same if they are positive numbers (other values are replaced by `None`). -/
theorem C122_one_event {rlm : List ℝ → ℝ × ℝ} {env : Env} {cfg : InvCfg} {cpus : ℕ}
    {schedule : List Event → List ℕ} {ev : Event} {mean : Mean} {w1 w2 : WrapRes}
    (h1 : invertWrapper rlm (fun evs => invert env cfg cpus (schedule evs) evs) cfg.codaNorm.isSome
      true mean [ev] = .ok (some w1))
    (h2 : invertWrapper rlm (fun evs => invert env cfg cpus (schedule evs) evs) cfg.codaNorm.isSome
      false .plain [ev] = .ok (some w2))
    (hset : (stationsOf env).Nodup)
    (hs : ∀ bands, getFreqs cfg.freqs = .ok bands →
      Spec.Schedule cfg (bands.map Prod.snd) cpus (schedule [ev])) :
    w2.freq = w1.freq ∧
    w2.g0 = w1.g0.map (List.map Spec.onlyPositive) ∧
    w2.b = w1.b.map (List.map Spec.onlyPositive) ∧
    w2.error = w1.error.map (List.map Spec.onlyPositive) ∧
    (∀ sta, (w2.R.getD []).get? sta = ((w1.R.getD []).get? sta).map (List.map Spec.onlyPositive)) ∧
    ∃ e, w2.events = [(getEventid ev, e)] ∧
      e.get? "g0" = w1.g0.map RVal.row ∧ e.get? "b" = w1.b.map RVal.row ∧
      e.get? "error" = w1.error.map RVal.row ∧ e.get? "R" = w1.R.map RVal.sites ∧
      ∀ k ∈ ["W", "sds", "M0", "Mw", "Mcat", "fc", "n", "gamma", "fit_error"],
        e.get? k = (w1.events.get? (getEventid ev)).bind (fun d => d.get? k) := by
  obtain ⟨hm1, hm2⟩ := C26_means_partial h2
  obtain ⟨order, ho, h1⟩ := bind_ok.1 h1
  obtain ⟨order', ho', h2⟩ := bind_ok.1 h2
  have e1 := orderEvents_one ho
  have e2 := orderEvents_one ho'
  subst e1 e2
  rw [if_pos rfl] at h1
  rw [if_neg (by simp)] at h2
  obtain ⟨r, hr, h1⟩ := bind_ok.1 h1
  obtain ⟨st, hst, h2⟩ := bind_ok.1 h2
  cases r with
  | none => simp at h1
  | some r =>
    simp only [pure, Except.pure, Except.ok.injEq, Option.some.injEq] at h1
    subst h1
    simp only at ⊢ hr
    obtain ⟨-, -, hR⟩ := invert_one hset hs hr
    obtain ⟨st', hs, hst⟩ := bind_ok.1 (by simpa only [List.foldlM_cons] using hst)
    simp only [List.foldlM_nil, pure, Except.pure, Except.ok.injEq] at hst
    subst hst
    unfold loopStep at hs
    obtain ⟨_, _, hs⟩ := bind_ok.1 hs
    obtain ⟨r2, hr2, hs⟩ := bind_ok.1 hs
    simp only at hr2
    rw [hr] at hr2
    simp only [Except.ok.injEq] at hr2
    subst hr2
    obtain ⟨e, he, hs⟩ := bind_ok.1 hs
    simp only [pure, Except.pure, Except.ok.injEq] at hs
    subst hs
    have hset : Dict.set ([] : Dict String (Dict String RVal)) (getEventid ev) e = [(getEventid ev, e)] :=
      rfl
    simp only [hset] at h2
    rw [if_neg (by simp)] at h2
    obtain ⟨_, _, _, _, _, _, _, _, _, _, _, _, _, _, _, _, hev, hfreq, _⟩ := means_some h2
    have her : Spec.EventResult r (getEventid ev) e := by
      obtain ⟨e', he', _, _, hr'⟩ := C40_results_have_known_keys hr (id := getEventid ev) (by
        by_contra hno
        push Not at hno
        unfold eventEntry at he
        rw [(Dict.get?_eq_none _ _).2 hno.1] at he
        simp [hno.2] at he)
      rw [he] at he'
      simp only [Except.ok.injEq] at he'
      rw [he']
      exact hr'
    have get : ∀ key out row, e.get? key = Option.map RVal.row row →
        ((key = "g0" ∧ out = w2.g0) ∨ (key = "b" ∧ out = w2.b) ∨ (key = "error" ∧ out = w2.error)) →
        out = row.map (List.map Spec.onlyPositive) := by
      intro key out row hrow hk
      rcases hm1 key out hk with ⟨q1, q2⟩ | ⟨⟨x, q1, q2⟩, m, q3, q4⟩
      · have := q2 (getEventid ev, e) (by rw [hev]; exact List.mem_singleton.2 rfl)
        rw [hrow] at this
        cases row with
        | none => exact q1
        | some row => simp at this
      · rw [hev] at q1 q4
        rw [List.mem_singleton] at q1
        subst q1
        cases row with
        | none => exact absurd hrow q2
        | some row =>
          have : Spec.rowsWith [(getEventid ev, e)] key = [row] := by
            unfold Spec.rowsWith
            simp [hrow]
          rw [this] at q4
          rw [q3, bandMeans_one q4]
          rfl
    refine ⟨by rw [hfreq]; rfl, get _ _ _ her.g0 (Or.inl ⟨rfl, rfl⟩),
      get _ _ _ her.b (Or.inr (Or.inl ⟨rfl, rfl⟩)), get _ _ (some r.error) her.error
      (Or.inr (Or.inr ⟨rfl, rfl⟩)), ?_, e, hev, her.g0, her.b, her.error, her.R, ?_⟩
    · intro sta
      rw [hev] at hm2
      have hsr : Spec.siteRows [(getEventid ev, e)] sta = ((r.R.getD []).get? sta).toList := by
        unfold Spec.siteRows
        simp only [List.filterMap_cons, List.filterMap_nil, her.R]
        cases r.R with
        | none => simp [Dict.get?]
        | some R =>
          simp only [Option.map_some, Option.getD_some]
          cases R.get? sta <;> rfl
      rcases hm2 (by
        intro x hx R hxR
        rw [List.mem_singleton] at hx
        subst hx
        rw [her.R] at hxR
        cases hrR : r.R with
        | none => rw [hrR] at hxR; simp at hxR
        | some R' =>
          rw [hrR] at hxR
          simp only [Option.map_some, Option.some.injEq, RVal.sites.injEq] at hxR
          rw [← hxR]
          exact hR R' hrR) sta with ⟨q1, q2⟩ | ⟨q0, m, q1, q2⟩
      · rw [hsr] at q1
        rw [q2]
        cases hg : (r.R.getD []).get? sta with
        | none => rfl
        | some row => rw [hg] at q1; simp at q1
      · rw [hsr] at q2
        rw [q1]
        cases hg : (r.R.getD []).get? sta with
        | none =>
          rw [hsr, hg] at q0
          exact absurd rfl q0
        | some row =>
          rw [hg] at q2
          rw [bandMeans_one q2]
          rfl
    · intro k hk
      rw [Dict.get?_mapVals]
      rw [List.mem_cons] at hk
      rcases hk with rfl | hk
      · rw [her.W]
        cases r.events.get? (getEventid ev) with
        | none => rfl
        | some x => simp [eventItems, Dict.get?_cons]
      · rw [her.source k hk]
        cases r.events.get? (getEventid ev) with
        | none => rfl
        | some x =>
          have hkW : "W" ≠ k := by
            rintro rfl
            revert hk
            decide
          simp [eventItems, Dict.get?_cons, hkW, Dict.get?_mapVals]

/-- **C122**, existence: if the simultaneous inversion of one event of known depth returns a result, the
separate inversion returns a result, too. -/
theorem C122_succeeds {rlm : List ℝ → ℝ × ℝ} {env : Env} {cfg : InvCfg} {cpus : ℕ}
    {schedule : List Event → List ℕ} {ev : Event} {mean : Mean} {w1 : WrapRes}
    (hset : (stationsOf env).Nodup)
    (hs : ∀ bands, getFreqs cfg.freqs = .ok bands →
      Spec.Schedule cfg (bands.map Prod.snd) cpus (schedule [ev]))
    (hd : (Spec.originDepth ev).isSome)
    (h1 : invertWrapper rlm (fun evs => invert env cfg cpus (schedule evs) evs) cfg.codaNorm.isSome
      true mean [ev] = .ok (some w1)) :
    ∃ w2, invertWrapper rlm (fun evs => invert env cfg cpus (schedule evs) evs) cfg.codaNorm.isSome
      false .plain [ev] = .ok (some w2) := by
  replace hd := announce_known hd
  obtain ⟨ho, r, hr, hw1⟩ := simultaneous_one h1
  obtain ⟨hev, hg, hR⟩ := invert_one hset hs hr
  obtain ⟨e, he, _, _, her⟩ := C40_results_have_known_keys hr hev
  obtain ⟨w, hw⟩ := means_one (rlm := rlm) (freq := r.freq) (id := getEventid ev) her.g0 her.b (by
    rcases invert_g0_b hr with ⟨-, q1, q2⟩ | ⟨g, b, q1, q2⟩ <;> simp [q1, q2]) her.error her.R hR hg
  refine ⟨w, ?_⟩
  unfold invertWrapper
  rw [ho]
  simp only [bind, Except.bind, Bool.false_eq_true, if_false, separately, List.foldlM_cons,
    List.foldlM_nil, loopStep, hd, hr, he, pure, Except.pure]
  exact hw

/-- **C122** fails without any result: the separate inversion of one event without result returns
nothing, the simultaneous inversion raises `TypeError`. -/
theorem C122_no_result_counterexample (rlm : List ℝ → ℝ × ℝ) (inv : List Event → Py (Option InvRes))
    (codaNorm : Bool) (mean : Mean) {ev : Event} (hd : (Spec.originDepth ev).isSome)
    (h : inv [ev] = .ok none) :
    invertWrapper rlm inv codaNorm false mean [ev] = .ok none ∧
    invertWrapper rlm inv codaNorm true mean [ev] = .error .typeError := by
  replace hd := announce_known hd
  obtain ⟨o, ho⟩ : ∃ o, getOrigin ev = .ok o := by
    unfold announce at hd
    obtain ⟨o, ho, -⟩ := bind_ok.1 hd
    exact ⟨o, ho⟩
  have hord : orderEvents [ev] = .ok [ev] := by
    simp [orderEvents, timeEventPairs, ho, sortEvents, bind, Except.bind, pure, Except.pure]
  unfold invertWrapper
  rw [hord]
  constructor
  · simp [bind, Except.bind, separately, loopStep, hd, h, pure, Except.pure]
  · simp [bind, Except.bind, simultaneously, h]

open JobsExample TablesExample in
/-- An inversion of one event both ways. -/
example (rlm : List ℝ → ℝ × ℝ) : ∃ w1 w2,
    invertWrapper rlm (fun evs => invert exEnv (exCfg (some 1)) 1 [] evs)
      (exCfg (some 1)).codaNorm.isSome true .plain [exEvent] = .ok (some w1) ∧
    invertWrapper rlm (fun evs => invert exEnv (exCfg (some 1)) 1 [] evs)
      (exCfg (some 1)).codaNorm.isSome false .plain [exEvent] = .ok (some w2) ∧
    w2.g0 = w1.g0.map (List.map Spec.onlyPositive) := by
  obtain ⟨r, hr⟩ := exInvert
  have hord : orderEvents [exEvent] = .ok [exEvent] := by
    have ho : getOrigin exEvent = .ok ⟨0, 0, 0, some 1, []⟩ := rfl
    simp [orderEvents, timeEventPairs, ho, sortEvents, bind, Except.bind, pure, Except.pure]
  have h1 : ∃ w1, invertWrapper rlm (fun evs => invert exEnv (exCfg (some 1)) 1 [] evs)
      (exCfg (some 1)).codaNorm.isSome true .plain [exEvent] = .ok (some w1) := by
    unfold invertWrapper
    rw [hord]
    simp only [bind, Except.bind, if_true, simultaneously, hr]
    exact ⟨_, rfl⟩
  obtain ⟨w1, h1⟩ := h1
  have hset : (stationsOf exEnv).Nodup := by rw [exStations]; simp
  have hs : ∀ bands, getFreqs (exCfg (some 1)).freqs = .ok bands →
      Spec.Schedule (exCfg (some 1)) (bands.map Prod.snd) 1 [] := fun _ _ hne => absurd rfl hne
  obtain ⟨w2, h2⟩ := C122_succeeds (schedule := fun _ => []) hset hs (by rfl) h1
  exact ⟨w1, w2, h1, h2, (C122_one_event (schedule := fun _ => []) h1 h2 hset hs).2.1⟩

/-- An event of known depth and an inversion without result. -/
example : (Spec.originDepth TablesExample.exEvent).isSome ∧
    (fun _ : List Event => (.ok none : Py (Option InvRes))) [TablesExample.exEvent] = .ok none :=
  ⟨rfl, rfl⟩

end Qopen
