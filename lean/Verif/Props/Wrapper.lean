import Verif.Model.Wrapper
import Verif.Props.Collect
import Verif.Props.Stat
import Mathlib.Data.List.Sort
import Mathlib.Data.List.Perm.Basic

/-!
# Order of the events and mean results of all events (C25, C26)
-/

namespace Qopen

open Util Catalog Source Invert Collect Wrapper

namespace Spec

/-- Origin time of an event: of the preferred origin, else of the first origin. -/
def originTime (ev : Event) : Option ℝ :=
  (ev.preferredOrigin.or ev.origins.head?).map Origin.time

/-- Depth of the same origin, if it is known. -/
def originDepth (ev : Event) : Option ℝ :=
  (ev.preferredOrigin.or ev.origins.head?).bind Origin.depth

/-- `order` are the events with an origin in order of their origin times. -/
structure InTimeOrder (events order : List Event) : Prop where
  perm : order.Perm (events.filter (fun ev => (originTime ev).isSome))
  sorted : order.Pairwise (fun a b => ∀ s t, originTime a = some s → originTime b = some t → s ≤ t)

/-- Two different events have the same origin time. -/
def Tie (events : List Event) : Prop :=
  ∃ a ∈ events, ∃ b ∈ events, a ≠ b ∧ (originTime a).isSome ∧ originTime a = originTime b

end Spec

namespace Wrapper

theorem originTime_ok {ev : Event} {o : Origin} (h : getOrigin ev = .ok o) :
    Spec.originTime ev = some o.time := by
  unfold getOrigin at h
  unfold Spec.originTime
  cases hp : ev.preferredOrigin with
  | some p => rw [hp] at h; simp only [Except.ok.injEq] at h; simp [h]
  | none =>
    rw [hp] at h
    simp only at h
    rw [pyGet_ok] at h
    rw [← List.head?_eq_getElem?] at h
    simp [h]

/-- The log message on an event needs its depth and nothing else. -/
theorem announce_spec (ev : Event) (ho : (Spec.originTime ev).isSome) :
    announce ev = if (Spec.originDepth ev).isSome then .ok () else .error .typeError := by
  have key : ∃ o, getOrigin ev = .ok o ∧ Spec.originDepth ev = o.depth := by
    unfold Spec.originTime at ho
    unfold Spec.originDepth getOrigin
    cases hp : ev.preferredOrigin with
    | some o => exact ⟨o, rfl, by simp⟩
    | none =>
      cases hq : ev.origins with
      | nil => rw [hp, hq] at ho; simp at ho
      | cons o l => exact ⟨o, by simp [pyGet], by simp⟩
  obtain ⟨o, h1, h2⟩ := key
  unfold announce
  rw [h1, h2]
  cases hd : o.depth <;> simp [bind, Except.bind, hd, pure, Except.pure]

theorem originTime_error {ev : Event} {e : PyErr} (h : getOrigin ev = .error e) :
    Spec.originTime ev = none := by
  cases ht : Spec.originTime ev with
  | none => rfl
  | some t =>
    exfalso
    unfold Spec.originTime at ht
    unfold getOrigin at h
    cases hp : ev.preferredOrigin with
    | some p => rw [hp] at h; simp at h
    | none =>
      rw [hp] at h ht
      simp only [Option.none_or, Option.map_eq_some_iff] at h ht
      obtain ⟨o, ho, _⟩ := ht
      rw [List.head?_eq_getElem?] at ho
      rw [(pyGet_ok).2 ho] at h
      simp at h

theorem pairs_eq (events : List Event) :
    timeEventPairs events =
      (events.filter (fun ev => (Spec.originTime ev).isSome)).map
        (fun ev => ((Spec.originTime ev).getD 0, ev)) := by
  induction events with
  | nil => rfl
  | cons ev l ih =>
    unfold timeEventPairs at ih ⊢
    cases h : getOrigin ev with
    | ok o =>
      rw [List.filterMap_cons_some (b := (o.time, ev)) (by rw [h]), ih,
        List.filter_cons_of_pos (by rw [originTime_ok h]; rfl)]
      simp [originTime_ok h]
    | error e =>
      rw [List.filterMap_cons_none (by rw [h]), ih,
        List.filter_cons_of_neg (by rw [originTime_error h]; simp)]

theorem orderEvents_ok {events order : List Event} (h : orderEvents events = .ok order) :
    Spec.InTimeOrder events order ∧ order ≠ [] := by
  obtain ⟨s, hs, h⟩ := bind_ok.1 h
  unfold sortEvents at hs
  split at hs
  swap
  · simp at hs
  simp only [Except.ok.injEq] at hs
  have hp : s.Perm (timeEventPairs events) := by rw [← hs]; exact List.mergeSort_perm _ _
  have hsort : s.Pairwise (fun p q => p.1 ≤ q.1) := by
    rw [← hs]
    refine (List.pairwise_mergeSort (le := fun p q : ℝ × Event => decide (p.1 ≤ q.1)) ?_ ?_ _).imp ?_
    · intro a b c; simp only [decide_eq_true_eq]; exact le_trans
    · intro a b; simp only [Bool.or_eq_true, decide_eq_true_eq]; exact le_total _ _
    · intro a b; simp
  have ho : order = s.map Prod.snd := by
    cases s with
    | nil => simp at h
    | cons p s => simpa [pure, Except.pure, eq_comm] using h
  have hne : order ≠ [] := by
    rw [ho]
    rintro he
    rw [List.map_eq_nil_iff] at he
    rw [he] at h
    simp at h
  refine ⟨⟨?_, ?_⟩, hne⟩
  · have := hp.map Prod.snd
    rw [← ho, pairs_eq, List.map_map] at this
    simpa [Function.comp_def] using this
  · rw [ho, List.pairwise_map]
    refine List.Pairwise.imp_of_mem ?_ hsort
    intro p q hpm hqm hpq t u ht hu
    have hm : ∀ p ∈ s, p.1 = (Spec.originTime p.2).getD 0 := by
      intro p hpm
      have := hp.mem_iff.1 hpm
      rw [pairs_eq] at this
      obtain ⟨ev, _, rfl⟩ := List.mem_map.1 this
      rfl
    rw [hm p hpm, hm q hqm, ht, hu] at hpq
    exact hpq

/-- Reasons for a failure in front of the first inversion. -/
theorem orderEvents_cases (events : List Event) (hn : events.Nodup) :
    (Spec.Tie events ∧ orderEvents events = .error .typeError) ∨
    ((∀ ev ∈ events, Spec.originTime ev = none) ∧ orderEvents events = .error .indexError) ∨
    (¬ Spec.Tie events ∧ (∃ ev ∈ events, (Spec.originTime ev).isSome) ∧
      ∃ order, orderEvents events = .ok order) := by
  have hpw : (timeEventPairs events).Pairwise (fun p q => p.1 = q.1 → p.2 = q.2) ↔
      ¬ Spec.Tie events := by
    rw [pairs_eq, List.pairwise_map]
    constructor
    · rintro hpw ⟨a, ha, b, hb, hne, hsome, heq⟩
      have hma : a ∈ events.filter (fun ev => (Spec.originTime ev).isSome) :=
        List.mem_filter.2 ⟨ha, hsome⟩
      have hmb : b ∈ events.filter (fun ev => (Spec.originTime ev).isSome) :=
        List.mem_filter.2 ⟨hb, by rw [← heq]; exact hsome⟩
      haveI : Std.Symm (fun a b : Event => (Spec.originTime a).getD 0 = (Spec.originTime b).getD 0 →
        a = b) := ⟨fun x y h e => (h e.symm).symm⟩
      have hpw' : (events.filter (fun ev => (Spec.originTime ev).isSome)).Pairwise
        (fun a b => (Spec.originTime a).getD 0 = (Spec.originTime b).getD 0 → a = b) := hpw
      exact hne (hpw'.forall hma hmb hne (by rw [heq]))
    · intro hnt
      refine List.Pairwise.imp_of_mem ?_ (hn.filter _)
      intro a b ha hb hne heq
      exfalso
      apply hnt
      obtain ⟨ha1, ha2⟩ := List.mem_filter.1 ha
      obtain ⟨hb1, hb2⟩ := List.mem_filter.1 hb
      refine ⟨a, ha1, b, hb1, hne, ha2, ?_⟩
      obtain ⟨x, hx⟩ := Option.isSome_iff_exists.1 ha2
      obtain ⟨y, hy⟩ := Option.isSome_iff_exists.1 hb2
      rw [hx, hy] at heq ⊢
      simpa using heq
  by_cases ht : Spec.Tie events
  · left
    refine ⟨ht, ?_⟩
    unfold orderEvents sortEvents
    rw [if_neg (by rw [hpw]; exact fun h => h ht)]
    rfl
  right
  by_cases hs : ∃ ev ∈ events, (Spec.originTime ev).isSome
  · right
    refine ⟨ht, hs, ?_⟩
    unfold orderEvents sortEvents
    rw [if_pos (hpw.2 ht)]
    simp only [bind, Except.bind]
    cases hm : (timeEventPairs events).mergeSort (fun p q => decide (p.1 ≤ q.1)) with
    | cons p s => exact ⟨_, rfl⟩
    | nil =>
      exfalso
      have hp := List.mergeSort_perm (timeEventPairs events) (fun p q => decide (p.1 ≤ q.1))
      rw [hm, List.nil_perm, pairs_eq, List.map_eq_nil_iff] at hp
      obtain ⟨ev, he, hsome⟩ := hs
      have : ev ∈ events.filter (fun ev => (Spec.originTime ev).isSome) :=
        List.mem_filter.2 ⟨he, hsome⟩
      rw [hp] at this
      simp at this
  · left
    push Not at hs
    have hnone : ∀ ev ∈ events, Spec.originTime ev = none := by
      intro ev he
      have := hs ev he
      simpa using this
    refine ⟨hnone, ?_⟩
    have hnil : timeEventPairs events = [] := by
      rw [pairs_eq, List.map_eq_nil_iff, List.filter_eq_nil_iff]
      intro ev he
      rw [hnone ev he]
      simp
    unfold orderEvents sortEvents
    rw [hnil, if_pos List.Pairwise.nil]
    simp [bind, Except.bind]

/-- Relation of the results of the inversions to the result of the loop. -/
theorem loop_spec {inv : List Event → Py (Option InvRes)} {codaNorm : Bool} {l : List Event}
    {st st' : LoopState} (h : l.foldlM (loopStep inv codaNorm) st = .ok st')
    (hn : (l.map getEventid).Nodup) (hd : ∀ ev ∈ l, getEventid ev ∉ st.events.keys) :
    ∃ outcomes : List (Option InvRes), List.Forall₂ (fun ev o => inv [ev] = .ok o) l outcomes ∧
      ∃ entries : Dict String (Dict String RVal), st'.events = st.events ++ entries ∧
        List.Forall₂ (fun (p : Event × InvRes) (e : String × Dict String RVal) =>
          e.1 = getEventid p.1 ∧ eventEntry codaNorm e.1 p.2 = .ok e.2)
          ((l.zip outcomes).filterMap (fun p => p.2.map (fun r => (p.1, r)))) entries ∧
        st'.freq = ((outcomes.filterMap id).getLast?.map InvRes.freq).or st.freq := by
  induction l generalizing st with
  | nil =>
    simp only [List.foldlM_nil, pure, Except.pure, Except.ok.injEq] at h
    subst h
    exact ⟨[], .nil, [], by simp, by simp, by simp⟩
  | cons ev l ih =>
    rw [List.foldlM_cons] at h
    obtain ⟨m, hm, h⟩ := bind_ok.1 h
    rw [List.map_cons, List.nodup_cons] at hn
    unfold loopStep at hm
    obtain ⟨_, _, hm⟩ := bind_ok.1 hm
    obtain ⟨o, ho, hm⟩ := bind_ok.1 hm
    cases o with
    | none =>
      simp only [pure, Except.pure, Except.ok.injEq] at hm
      subst hm
      obtain ⟨outs, h1, en, h2, h3, h4⟩ := ih h hn.2 (fun e he => hd e (List.mem_cons_of_mem _ he))
      refine ⟨none :: outs, .cons ho h1, en, h2, ?_, ?_⟩
      · rw [List.zip_cons_cons, List.filterMap_cons_none rfl]; exact h3
      · rw [List.filterMap_cons_none rfl]; exact h4
    | some r =>
      simp only at hm
      obtain ⟨e, he, hm⟩ := bind_ok.1 hm
      simp only [pure, Except.pure, Except.ok.injEq] at hm
      have hset := Dict.keys_set_of_not_mem (d := st.events) e (hd ev List.mem_cons_self)
      obtain ⟨outs, h1, en, h2, h3, h4⟩ := ih h hn.2 (by
        intro e' he' hmem
        rw [← hm] at hmem
        simp only at hmem
        rw [Dict.mem_keys_set] at hmem
        rcases hmem with heq | hmem
        · exact hn.1 (List.mem_map.2 ⟨e', he', heq⟩)
        · exact hd e' (List.mem_cons_of_mem _ he') hmem)
      refine ⟨some r :: outs, .cons ho h1, (getEventid ev, e) :: en, ?_, ?_, ?_⟩
      · rw [h2, ← hm]; simp only; rw [hset]; simp
      · rw [List.zip_cons_cons, List.filterMap_cons_some
          (f := fun p : Event × Option InvRes => p.2.map (fun r => (p.1, r))) (b := (ev, r)) rfl]
        exact .cons ⟨rfl, he⟩ h3
      · rw [List.filterMap_cons_some (f := id) (b := r) rfl, h4, ← hm]
        cases hl : outs.filterMap id with
        | nil => simp
        | cons a t => simp [List.getLast?_cons_cons, List.getLast?_cons]

end Wrapper

/-- **C25** for catalogues with distinct event ids: if `invert_wrapper` does not raise an exception,
exactly the events with an origin were inverted (together, or each one once), in order of origin
time, and the events of the result are the events for which the inversion gave a result, in the same
order.  Missing: the function may raise an exception for the order of events, see
`C25_equal_times_counterexample` and `C25_empty_counterexample`. -/
theorem C25_order_partial {rlm : List ℝ → ℝ × ℝ} {inv : List Event → Py (Option InvRes)}
    {codaNorm simultaneous : Bool} {mean : Mean} {events : List Event} {res : Option WrapRes}
    (hid : (events.map getEventid).Nodup)
    (h : invertWrapper rlm inv codaNorm simultaneous mean events = .ok res) :
    ∃ order, Spec.InTimeOrder events order ∧
      (simultaneous = true → ∃ r w, inv order = .ok (some r) ∧ res = some w ∧ w.freq = r.freq ∧
        w.events.keys = r.events.keys) ∧
      (simultaneous = false → ∃ outcomes : List (Option InvRes),
        List.Forall₂ (fun ev o => inv [ev] = .ok o) order outcomes ∧
        ((∀ o ∈ outcomes, o = none) → res = none) ∧
        ∀ w, res = some w → w.events.keys =
          (order.zip outcomes).filterMap (fun p => p.2.map (fun _ => getEventid p.1))) := by
  obtain ⟨order, ho, h⟩ := bind_ok.1 h
  obtain ⟨hord, _⟩ := orderEvents_ok ho
  refine ⟨order, hord, ?_, ?_⟩
  · rintro rfl
    rw [if_pos rfl] at h
    obtain ⟨r, hr, h⟩ := bind_ok.1 h
    cases r with
    | none => simp at h
    | some r =>
      simp only [pure, Except.pure, Except.ok.injEq] at h
      exact ⟨r, _, hr, h.symm, rfl, Dict.keys_mapVals _ _⟩
  · rintro rfl
    rw [if_neg (by simp)] at h
    obtain ⟨st, hst, h⟩ := bind_ok.1 h
    have hn : (order.map getEventid).Nodup := by
      refine ((hord.perm.map getEventid).nodup_iff).2 ?_
      exact hid.sublist ((List.filter_sublist).map _)
    obtain ⟨outs, h1, en, h2, h3, h4⟩ := loop_spec hst hn (by intro ev _; simp [Dict.keys])
    simp only [List.nil_append] at h2
    have hkeys : st.events.keys =
        (order.zip outs).filterMap (fun p => p.2.map (fun _ => getEventid p.1)) := by
      rw [h2]
      have e : (order.zip outs).filterMap (fun p => p.2.map (fun _ => getEventid p.1)) =
          ((order.zip outs).filterMap (fun p => p.2.map (fun r => (p.1, r)))).map
            (fun p => getEventid p.1) := by
        rw [List.map_filterMap]
        congr 1
        funext p
        cases p.2 <;> rfl
      rw [e]
      clear e
      unfold Dict.keys
      generalize (order.zip outs).filterMap (fun p => p.2.map (fun r => (p.1, r))) = ps at h3
      clear h2
      induction h3 with
      | nil => rfl
      | cons hp _ ih => rw [List.map_cons, List.map_cons, ih, hp.1]
    refine ⟨outs, h1, ?_, ?_⟩
    · intro hall
      have hnil : st.events = [] := by
        have : st.events.keys = [] := by
          rw [hkeys, List.filterMap_eq_nil_iff]
          intro p hp
          rw [hall _ (List.of_mem_zip hp).2]
          rfl
        unfold Dict.keys at this
        exact List.map_eq_nil_iff.1 this
      rw [hnil, if_pos (by rfl)] at h
      simpa [pure, Except.pure, eq_comm] using h
    · intro w hw
      subst hw
      rw [← hkeys]
      split at h
      · simp [pure, Except.pure] at h
      · unfold means at h
        obtain ⟨col, hc, h⟩ := bind_ok.1 h
        obtain ⟨g0, hg, h⟩ := bind_ok.1 h
        split at h
        · simp [pure, Except.pure] at h
        · obtain ⟨b, hb, h⟩ := bind_ok.1 h
          obtain ⟨errs, he, h⟩ := bind_ok.1 h
          cases errs with
          | none => simp at h
          | some errs =>
            simp only at h
            split at h
            · simp at h
            · obtain ⟨_, _, h⟩ := bind_ok.1 h
              obtain ⟨_, _, h⟩ := bind_ok.1 h
              obtain ⟨_, _, h⟩ := bind_ok.1 h
              obtain ⟨_, _, h⟩ := bind_ok.1 h
              obtain ⟨_, _, h⟩ := bind_ok.1 h
              simp only [pure, Except.pure, Except.ok.injEq, Option.some.injEq] at h
              rw [← h]

/-- **C25**: the exact conditions for the order of the events.  If two different events have the
same origin time `TypeError` is raised, without any event with an origin `IndexError`; otherwise the
events are processed. -/
theorem C25_failures (rlm : List ℝ → ℝ × ℝ) (inv : List Event → Py (Option InvRes))
    (codaNorm simultaneous : Bool) (mean : Mean) (events : List Event) (hn : events.Nodup) :
    (Spec.Tie events → invertWrapper rlm inv codaNorm simultaneous mean events =
      .error .typeError) ∧
    ((∀ ev ∈ events, Spec.originTime ev = none) →
      invertWrapper rlm inv codaNorm simultaneous mean events = .error .indexError) ∧
    (¬ Spec.Tie events → (∃ ev ∈ events, (Spec.originTime ev).isSome) →
      ∃ order, Spec.InTimeOrder events order ∧
        invertWrapper rlm inv codaNorm simultaneous mean events =
          if simultaneous then simultaneously inv order
          else separately rlm inv codaNorm mean order) := by
  have hw : ∀ e, orderEvents events = .error e →
      invertWrapper rlm inv codaNorm simultaneous mean events = .error e := by
    intro e he
    unfold invertWrapper
    rw [he]
    rfl
  rcases orderEvents_cases events hn with ⟨ht, he⟩ | ⟨hnone, he⟩ | ⟨ht, hs, order, ho⟩
  · refine ⟨fun _ => hw _ he, fun hnone => ?_, fun h => absurd ht h⟩
    obtain ⟨a, ha, _, _, _, hsome, _⟩ := ht
    rw [hnone a ha] at hsome
    simp at hsome
  · refine ⟨fun ⟨a, ha, _, _, _, hsome, _⟩ => ?_, fun _ => hw _ he, fun _ ⟨a, ha, hsome⟩ => ?_⟩
    · rw [hnone a ha] at hsome; simp at hsome
    · rw [hnone a ha] at hsome; simp at hsome
  · refine ⟨fun h => absurd h ht, fun hnone => ?_, fun _ _ => ⟨order, (orderEvents_ok ho).1, ?_⟩⟩
    · obtain ⟨a, ha, hsome⟩ := hs
      rw [hnone a ha] at hsome
      simp at hsome
    · unfold invertWrapper
      rw [ho]
      rfl

namespace WrapperExample

/-- An event with one origin. -/
def ev (id : String) (t : ℝ) : Event := ⟨id, none, [⟨t, 0, 0, some 0, []⟩], none, []⟩

/-- An event without origin. -/
def noOrigin : Event := ⟨"x/e0", none, [], none, []⟩

end WrapperExample

open WrapperExample in
/-- **C25** fails for events with the same origin time: `TypeError` instead of a result, whatever the
inversion does. -/
theorem C25_equal_times_counterexample (rlm : List ℝ → ℝ × ℝ)
    (inv : List Event → Py (Option InvRes)) (codaNorm simultaneous : Bool) (mean : Mean) :
    invertWrapper rlm inv codaNorm simultaneous mean [ev "x/e1" 1, ev "x/e2" 1] =
      .error .typeError := by
  refine (C25_failures rlm inv codaNorm simultaneous mean _ ?_).1 ?_
  · simp [ev]
  · exact ⟨_, List.mem_cons_self, _, List.mem_cons_of_mem _ List.mem_cons_self, by simp [ev],
      by simp [Spec.originTime, ev], by simp [Spec.originTime, ev]⟩

open WrapperExample in
/-- **C25** fails if no event has an origin: `IndexError`. -/
theorem C25_empty_counterexample (rlm : List ℝ → ℝ × ℝ)
    (inv : List Event → Py (Option InvRes)) (codaNorm simultaneous : Bool) (mean : Mean) :
    invertWrapper rlm inv codaNorm simultaneous mean [] = .error .indexError ∧
    invertWrapper rlm inv codaNorm simultaneous mean [noOrigin] = .error .indexError := by
  constructor
  · exact (C25_failures rlm inv codaNorm simultaneous mean _ List.nodup_nil).2.1 (by simp)
  · exact (C25_failures rlm inv codaNorm simultaneous mean _ (by simp)).2.1
      (by simp [Spec.originTime, noOrigin])


/-! ## C26 -/

namespace Spec

/-- `out` are the means over the rows: one entry for each band, the geometric mean of the positive
numbers of this band in the rows, `None` if there are none. -/
structure BandMeans (rows : List (List Cell)) (out : List Cell) : Prop where
  length : ∀ row ∈ rows, out.length = row.length
  entries : ∀ i < out.length,
    (positives (rows.filterMap (fun row => row[i]?)) = [] → out[i]? = some Cell.none) ∧
    (positives (rows.filterMap (fun row => row[i]?)) ≠ [] →
      out[i]? = some (Cell.num (geoMean (positives (rows.filterMap (fun row => row[i]?))))))

/-- The rows of a key in the results of the events. -/
def rowsWith (events : Dict String (Dict String RVal)) (key : String) : List (List Cell) :=
  events.filterMap (fun e => match e.2.get? key with
    | some (.row r) => some r
    | _ => none)

/-- The rows of a station in the site responses of the events. -/
def siteRows (events : Dict String (Dict String RVal)) (sta : String) : List (List Cell) :=
  events.filterMap (fun e => match e.2.get? "R" with
    | some (.sites R) => R.get? sta
    | _ => none)

end Spec

namespace Wrapper

theorem positives_toFloat (l : List Cell) :
    Spec.positives (l.map Cell.toFloat) = Spec.positives l := by
  induction l with
  | nil => rfl
  | cons c l ih =>
    unfold Spec.positives at ih ⊢
    cases c with
    | none => rw [List.map_cons, List.filterMap_cons_none rfl, List.filterMap_cons_none rfl]; exact ih
    | nan => rw [List.map_cons, List.filterMap_cons_none rfl, List.filterMap_cons_none rfl]; exact ih
    | num x =>
      by_cases hx : 0 < x
      · rw [List.map_cons, List.filterMap_cons_some (b := x) (by simp [Cell.toFloat, hx]),
          List.filterMap_cons_some (b := x) (by simp [hx]), ih]
      · rw [List.map_cons, List.filterMap_cons_none (by simp [Cell.toFloat, hx]),
          List.filterMap_cons_none (by simp [hx]), ih]

theorem rowsOf_map (rows : List (List Cell)) : rowsOf (rows.map Item.row) = .ok rows := by
  unfold rowsOf
  rw [mapExc_ok, List.forall₂_map_left_iff, List.forall₂_same]
  intro r _
  rfl

theorem rowsOf_ok {l : List Item} {rows : List (List Cell)} (h : rowsOf l = .ok rows) :
    l = rows.map Item.row := by
  unfold rowsOf at h
  rw [mapExc_ok] at h
  induction h with
  | nil => rfl
  | cons hd _ ih =>
    rw [List.map_cons, ← ih]
    rename_i a b _ _ _
    cases a with
    | row r => simp only [Except.ok.injEq] at hd; rw [hd]
    | cell c => simp at hd

/-- Items of a rectangular array of rows. -/
theorem rows_of_array {key : String} {vs : List RVal} {xs a : List Item} {rows : List (List Cell)}
    (h1 : List.Forall₂ (Spec.Picked none key) vs xs) (h2 : Spec.ArrayOf xs a)
    (h3 : rowsOf a = .ok rows) :
    ∃ rows0 : List (List Cell), vs = rows0.map RVal.row ∧ rows = rows0.map (fun r => r.map Cell.toFloat) ∧
      ∀ r ∈ rows0, ∀ r' ∈ rows0, r.length = r'.length := by
  have ha := rowsOf_ok h3
  obtain ⟨he, hshape⟩ := h2
  rw [ha] at he
  clear ha h3
  have hx : ∃ rows0 : List (List Cell), xs = rows0.map Item.row ∧ rows = rows0.map (fun r => r.map Cell.toFloat) := by
    clear h1 hshape
    induction xs generalizing rows with
    | nil =>
      rw [List.map_nil, List.map_eq_nil_iff] at he
      exact ⟨[], rfl, he⟩
    | cons x xs ih =>
      cases rows with
      | nil => simp at he
      | cons r rows =>
        rw [List.map_cons, List.map_cons, List.cons.injEq] at he
        obtain ⟨rows0, e1, e2⟩ := ih he.2
        cases x with
        | cell c => simp [Item.toFloat] at he
        | row r0 =>
          simp only [Item.toFloat, Item.row.injEq] at he
          exact ⟨r0 :: rows0, by rw [e1]; rfl, by rw [e2, he.1]; rfl⟩
  obtain ⟨rows0, rfl, hr⟩ := hx
  refine ⟨rows0, ?_, hr, ?_⟩
  · clear hr he hshape
    induction rows0 generalizing vs with
    | nil => rw [List.map_nil] at h1 ⊢; exact List.forall₂_nil_right_iff.1 h1
    | cons r rows0 ih =>
      rw [List.map_cons] at h1 ⊢
      obtain ⟨v, vs', hv, hvs, rfl⟩ := List.forall₂_cons_right_iff.1 h1
      rw [ih hvs]
      rcases hv with ⟨_, ⟨c, _, hc⟩ | ⟨l, hl, hc⟩⟩ | ⟨_, i, _, _, hi, _⟩
      · simp at hc
      · simp only [Item.row.injEq] at hc; rw [hl, hc]
      · simp at hi
  · intro r hr r' hr'
    have := hshape _ (List.mem_map.2 ⟨r, hr, rfl⟩) _ (List.mem_map.2 ⟨r', hr', rfl⟩)
    simpa [Item.shape] using this

theorem valuesOf_rows {events : Dict String (Dict String RVal)} {key : String}
    {rows : List (List Cell)}
    (h : Spec.valuesOf (events.mapVals some) key = rows.map RVal.row) :
    Spec.rowsWith events key = rows := by
  have e : Spec.rowsWith events key = (Spec.valuesOf (events.mapVals some) key).filterMap
      (fun v => match v with
        | .row r => some r
        | _ => none) := by
    unfold Spec.rowsWith Spec.valuesOf Dict.mapVals
    rw [List.filterMap_map, List.filterMap_filterMap]
    congr 1
    funext x
    simp only [Function.comp, Option.bind_some]
    cases x.2.get? key with
    | none => rfl
    | some v => cases v <;> rfl
  rw [e, h, List.filterMap_map]
  simp [Function.comp_def]

theorem arrayOf_spec {events : Dict String (Dict String RVal)} {col : Dict String ColVal}
    (hcol : collectResults (events.mapVals some) ["g0", "b", "error", "R"] = .ok col) {key : String}
    (hk : key = "g0" ∨ key = "b" ∨ key = "error") {a : Option (List (List Cell))}
    (h : arrayOf col key = .ok a) :
    (a = none ∧ Spec.valuesOf (events.mapVals some) key = []) ∨
    ∃ rows0 : List (List Cell), Spec.valuesOf (events.mapVals some) key = rows0.map RVal.row ∧ rows0 ≠ [] ∧
      a = some (rows0.map (fun r => r.map Cell.toFloat)) ∧
      ∀ r ∈ rows0, ∀ r' ∈ rows0, r.length = r'.length := by
  have hmem : key ∈ ["g0", "b", "error", "R"] := by rcases hk with rfl | rfl | rfl <;> simp
  rcases C39_values (by decide) hcol hmem (by rcases hk with rfl | rfl | rfl <;> decide)
    (by rcases hk with rfl | rfl | rfl <;> decide) with ⟨h1, h2⟩ | ⟨xs, arr, h1, h2, h3, h4⟩
  · left
    unfold arrayOf at h
    rw [h2] at h
    simp only [Except.ok.injEq] at h
    exact ⟨h.symm, h1⟩
  · right
    unfold arrayOf at h
    rw [h4] at h
    simp only at h
    obtain ⟨rows, hr, h⟩ := bind_ok.1 h
    simp only [pure, Except.pure, Except.ok.injEq] at h
    obtain ⟨rows0, e1, e2, e3⟩ := rows_of_array h1 h3 hr
    refine ⟨rows0, e1, ?_, by rw [← h, e2], e3⟩
    rintro rfl
    rw [e1] at h1
    exact h2 (List.forall₂_nil_left_iff.1 h1)

theorem column_eq {rows : List (List Cell)} {i n : ℕ} (h : ∀ r ∈ rows, r.length = n) (hi : i < n) :
    column (rows.map (fun r => r.map Cell.toFloat)) i =
      (rows.filterMap (fun r => r[i]?)).map Cell.toFloat := by
  unfold column
  induction rows with
  | nil => rfl
  | cons r rows ih =>
    have hr : i < r.length := by rw [h r List.mem_cons_self]; exact hi
    rw [List.map_cons, List.map_cons, ih (fun r hr => h r (List.mem_cons_of_mem _ hr)),
      List.filterMap_cons_some (f := fun r : List Cell => r[i]?) (b := r[i])
        (List.getElem?_eq_getElem hr), List.map_cons]
    congr 1
    simp [List.getD_eq_getElem?_getD, hr]

theorem tableMean_plain {rlm : List ℝ → ℝ × ℝ} {errs rows0 : List (List Cell)} {out : List Cell}
    (hne : rows0 ≠ []) (hrect : ∀ r ∈ rows0, ∀ r' ∈ rows0, r.length = r'.length)
    (h : tableMean rlm .plain errs (rows0.map (fun r => r.map Cell.toFloat)) = .ok out) :
    Spec.BandMeans rows0 out := by
  cases rows0 with
  | nil => exact absurd rfl hne
  | cons r0 rest =>
    unfold tableMean at h
    simp only [List.map_cons, List.headD_cons, List.length_map] at h
    have hall : ∀ r ∈ r0 :: rest, r.length = r0.length :=
      fun r hr => hrect r hr r0 List.mem_cons_self
    obtain ⟨o, ho, hlen, hent⟩ := C49_gmeanlist rlm ((r0 :: rest).map (fun r => r.map Cell.toFloat))
      r0.length (by
        intro r hr
        obtain ⟨r', hr', rfl⟩ := List.mem_map.1 hr
        rw [List.length_map]
        exact hall r' hr')
    rw [List.map_cons] at ho
    rw [ho] at h
    simp only [Except.ok.injEq] at h
    subst h
    refine ⟨fun r hr => by rw [hlen, hall r hr], fun i hi => ?_⟩
    rw [hlen] at hi
    have := hent i hi
    rw [column_eq hall hi, positives_toFloat] at this
    exact this

/-- What `means` computes. -/
theorem means_some {rlm : List ℝ → ℝ × ℝ} {mean : Mean} {freq : List ℝ}
    {events : Dict String (Dict String RVal)} {w : WrapRes}
    (h : means rlm mean freq events = .ok (some w)) :
    ∃ col g0 b errs sites R, collectResults (events.mapVals some) ["g0", "b", "error", "R"] = .ok col ∧
      arrayOf col "g0" = .ok g0 ∧ arrayOf col "b" = .ok b ∧ arrayOf col "error" = .ok (some errs) ∧
      sitesArray col = .ok sites ∧
      meanIf rlm mean errs g0 = .ok w.g0 ∧ meanIf rlm mean errs b = .ok w.b ∧
      (∃ e, w.error = some e ∧ tableMean rlm mean errs errs = .ok e) ∧
      List.Forall₂ (fun kv r => kv.1 = r.1 ∧ tableMean rlm mean errs kv.2 = .ok r.2) sites R ∧
      w.R = (if R.length > 0 then some R else none) ∧ w.events = events ∧ w.freq = freq ∧
      g0.map allNan ≠ some true := by
  unfold means at h
  obtain ⟨col, hc, h⟩ := bind_ok.1 h
  obtain ⟨g0, hg, h⟩ := bind_ok.1 h
  by_cases hn : g0.map allNan = some true
  · rw [hn] at h; simp [pure, Except.pure] at h
  split at h
  · simp [pure, Except.pure] at h
  · obtain ⟨b, hb, h⟩ := bind_ok.1 h
    obtain ⟨errs, he, h⟩ := bind_ok.1 h
    cases errs with
    | none => simp at h
    | some errs =>
      simp only at h
      split at h
      · simp at h
      · obtain ⟨g0m, hg0, h⟩ := bind_ok.1 h
        obtain ⟨bm, hbm, h⟩ := bind_ok.1 h
        obtain ⟨em, hem, h⟩ := bind_ok.1 h
        obtain ⟨sites, hs, h⟩ := bind_ok.1 h
        obtain ⟨R, hR, h⟩ := bind_ok.1 h
        simp only [pure, Except.pure, Except.ok.injEq, Option.some.injEq] at h
        subst h
        refine ⟨col, g0, b, errs, sites, R, hc, hg, hb, he, hs, hg0, hbm, ⟨em, rfl, hem⟩, ?_, rfl, rfl,
          rfl, hn⟩
        rw [mapExc_ok] at hR
        refine hR.imp ?_
        intro kv r hkv
        obtain ⟨m, hm, hkv⟩ := bind_ok.1 hkv
        simp only [pure, Except.pure, Except.ok.injEq] at hkv
        rw [← hkv]
        exact ⟨rfl, hm⟩

theorem meanIf_spec {rlm : List ℝ → ℝ × ℝ} {events : Dict String (Dict String RVal)}
    {col : Dict String ColVal} {errs : List (List Cell)}
    (hcol : collectResults (events.mapVals some) ["g0", "b", "error", "R"] = .ok col) {key : String}
    (hk : key = "g0" ∨ key = "b" ∨ key = "error") {a : Option (List (List Cell))}
    {out : Option (List Cell)} (ha : arrayOf col key = .ok a)
    (h : meanIf rlm .plain errs a = .ok out) :
    (out = none ∧ ∀ e ∈ events, e.2.get? key = none) ∨
    ((∃ e ∈ events, e.2.get? key ≠ none) ∧
      ∃ m, out = some m ∧ Spec.BandMeans (Spec.rowsWith events key) m) := by
  rcases arrayOf_spec hcol hk ha with ⟨rfl, hv⟩ | ⟨rows0, hv, hne, rfl, hrect⟩
  · left
    unfold meanIf at h
    simp only [Except.ok.injEq] at h
    refine ⟨h.symm, fun e he => ?_⟩
    unfold Spec.valuesOf at hv
    rw [List.filterMap_eq_nil_iff] at hv
    exact hv (e.1, some e.2) (List.mem_map.2 ⟨e, he, rfl⟩)
  · right
    unfold meanIf at h
    simp only at h
    obtain ⟨m, hm, h⟩ := bind_ok.1 h
    simp only [pure, Except.pure, Except.ok.injEq] at h
    refine ⟨?_, m, h.symm, ?_⟩
    · by_contra hall
      push Not at hall
      have : Spec.valuesOf (events.mapVals some) key = [] := by
        unfold Spec.valuesOf
        rw [List.filterMap_eq_nil_iff]
        intro p hp
        obtain ⟨e, he, rfl⟩ := List.mem_map.1 hp
        exact hall e he
      rw [hv, List.map_eq_nil_iff] at this
      exact hne this
    · rw [valuesOf_rows hv]
      exact tableMean_plain hne hrect hm

theorem stationValues_eq (events : Dict String (Dict String RVal)) (sta : String) :
    Spec.stationValues (events.mapVals some) sta = Spec.siteRows events sta := by
  unfold Spec.stationValues Spec.siteRows Dict.mapVals
  rw [List.filterMap_map]
  rfl

theorem get?_forall₂ {α β : Type} {r : α → β → Prop} {d : Dict String α} {d' : Dict String β}
    (h : List.Forall₂ (fun x y => x.1 = y.1 ∧ r x.2 y.2) d d') (k : String) :
    (d.get? k = none ∧ d'.get? k = none) ∨
    ∃ x y, d.get? k = some x ∧ d'.get? k = some y ∧ r x y := by
  induction h with
  | nil => exact Or.inl ⟨rfl, rfl⟩
  | cons hd _ ih =>
    rename_i a b l l' _
    obtain ⟨a1, a2⟩ := a
    obtain ⟨b1, b2⟩ := b
    simp only at hd
    obtain ⟨rfl, hr⟩ := hd
    rw [Dict.get?_cons, Dict.get?_cons]
    by_cases hk : a1 = k
    · rw [if_pos hk, if_pos hk]; exact Or.inr ⟨_, _, rfl, rfl, hr⟩
    · rw [if_neg hk, if_neg hk]; exact ih

end Wrapper

/-- **C26** for the plain mean: whenever `invert_wrapper` returns a result for separately inverted
events, the overall `g0`, `b` and `error` are the band-wise means of the rows of the events in this
result, the keys are missing if no event has them, and the overall site response of each station is
the band-wise mean of its rows.

Missing: values which are not positive do not take part in the mean, see
`C26_zero_error_counterexample`. -/
theorem C26_means_partial {rlm : List ℝ → ℝ × ℝ} {inv : List Event → Py (Option InvRes)}
    {codaNorm : Bool} {events : List Event} {w : WrapRes}
    (h : invertWrapper rlm inv codaNorm false .plain events = .ok (some w)) :
    (∀ key out, (key = "g0" ∧ out = w.g0) ∨ (key = "b" ∧ out = w.b) ∨ (key = "error" ∧ out = w.error) →
      (out = none ∧ ∀ e ∈ w.events, e.2.get? key = none) ∨
      ((∃ e ∈ w.events, e.2.get? key ≠ none) ∧
        ∃ m, out = some m ∧ Spec.BandMeans (Spec.rowsWith w.events key) m)) ∧
    ((∀ e ∈ w.events, ∀ R, e.2.get? "R" = some (.sites R) → R.WF) → ∀ sta,
      (Spec.siteRows w.events sta = [] ∧ (w.R.getD []).get? sta = none) ∨
      (Spec.siteRows w.events sta ≠ [] ∧
        ∃ m, (w.R.getD []).get? sta = some m ∧ Spec.BandMeans (Spec.siteRows w.events sta) m)) := by
  obtain ⟨order, ho, h⟩ := bind_ok.1 h
  rw [if_neg (by simp)] at h
  obtain ⟨st, hst, h⟩ := bind_ok.1 h
  split at h
  · simp [pure, Except.pure] at h
  obtain ⟨col, g0, b, errs, sites, R, hc, hg, hb, he, hs, hg0, hbm, ⟨em, hem, hem'⟩, hR, hwR, hev, _⟩ :=
    means_some h
  rw [hev]
  constructor
  · rintro key out (⟨rfl, rfl⟩ | ⟨rfl, rfl⟩ | ⟨rfl, rfl⟩)
    · exact meanIf_spec hc (Or.inl rfl) hg hg0
    · exact meanIf_spec hc (Or.inr (Or.inl rfl)) hb hbm
    · refine meanIf_spec (rlm := rlm) (errs := errs) hc (Or.inr (Or.inr rfl)) he ?_
      · unfold meanIf
        simp only
        rw [hem']
        simp [hem, bind, Except.bind, pure, Except.pure]
  · intro hwf sta
    have hget : (w.R.getD []).get? sta = Dict.get? R sta := by
      rw [hwR]
      split
      · rfl
      · next hlen =>
        have : R = [] := by
          cases R with
          | nil => rfl
          | cons _ _ => simp at hlen
        rw [this]
        rfl
    rw [hget]
    obtain ⟨d, hd, hsta⟩ := C39_sites (by decide) (by
      intro e he r R' hr hR'
      obtain ⟨e', he', rfl⟩ := List.mem_map.1 he
      simp only [Option.some.injEq] at hr
      exact hwf e' he' R' (by rw [hr]; exact hR')) hc (by simp)
    unfold sitesArray sitesOf at hs
    rw [hd] at hs
    simp only at hs
    rw [mapExc_ok] at hs
    have hs' : List.Forall₂ (fun (x : String × List Item) (y : String × List (List Cell)) =>
        x.1 = y.1 ∧ rowsOf x.2 = .ok y.2) d sites := by
      refine hs.imp ?_
      intro x y hxy
      obtain ⟨rows, hr, hxy⟩ := bind_ok.1 hxy
      simp only [pure, Except.pure, Except.ok.injEq] at hxy
      rw [← hxy]
      exact ⟨rfl, hr⟩
    rcases hsta sta with ⟨h1, h2⟩ | ⟨xs, a, h1, h2, h3, h4⟩
    · left
      rw [stationValues_eq] at h1
      refine ⟨h1, ?_⟩
      rcases get?_forall₂ (r := fun x y => rowsOf x = .ok y) hs' sta with ⟨_, h3⟩ | ⟨x, _, h3, _⟩
      · rcases get?_forall₂ (r := fun x y => tableMean rlm .plain errs x = .ok y) hR sta with ⟨_, h4⟩ | ⟨x, _, h4, _⟩
        · exact h4
        · rw [h3] at h4; simp at h4
      · rw [h2] at h3; simp at h3
    · right
      rcases get?_forall₂ (r := fun x y => rowsOf x = .ok y) hs' sta with ⟨h5, _⟩ | ⟨x, rows, h5, h6, h7⟩
      · rw [h4] at h5; simp at h5
      rw [h4] at h5
      simp only [Option.some.injEq] at h5
      subst h5
      rcases get?_forall₂ (r := fun x y => tableMean rlm .plain errs x = .ok y) hR sta with ⟨h8, _⟩ | ⟨rows', m, h8, h9, h10⟩
      · rw [h6] at h8; simp at h8
      rw [h6] at h8
      simp only [Option.some.injEq] at h8
      subst h8
      have h1' : List.Forall₂ (Spec.Picked none "R")
          ((Spec.stationValues (events := st.events.mapVals some) sta).map RVal.row) xs := by
        rw [List.forall₂_map_left_iff]; exact h1
      obtain ⟨rows0, e1, e2, e3⟩ := rows_of_array h1' h3 h7
      have e4 : Spec.stationValues (st.events.mapVals some) sta = rows0 :=
        List.map_injective_iff.2 (fun a b hab => by simpa using hab) e1
      have hne : rows0 ≠ [] := by
        rintro rfl
        rw [e4] at h1
        exact h2 (List.forall₂_nil_left_iff.1 h1)
      rw [← stationValues_eq, e4]
      exact ⟨hne, m, h9, tableMean_plain hne e3 (by rw [← e2]; exact h10)⟩

end Qopen
