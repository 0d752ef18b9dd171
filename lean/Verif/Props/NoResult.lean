import Verif.Props.Wrapper

/-!
# No result (C75)
-/

namespace Qopen

open Util Catalog Source Invert Collect Wrapper

namespace Wrapper

theorem loop_none {inv : List Event → Py (Option InvRes)} {codaNorm : Bool} {l : List Event}
    {st : LoopState} (h : ∀ ev ∈ l, announce ev = .ok () ∧ inv [ev] = .ok none) :
    l.foldlM (loopStep inv codaNorm) st = .ok st := by
  induction l with
  | nil => rfl
  | cons ev l ih =>
    rw [List.foldlM_cons]
    have e : loopStep inv codaNorm st ev = .ok st := by
      unfold loopStep
      rw [(h ev List.mem_cons_self).1, (h ev List.mem_cons_self).2]
      rfl
    rw [e]
    exact ih (fun ev' hev => h ev' (List.mem_cons_of_mem _ hev))

theorem get?_update_of_not_mem {α : Type} (d e : Dict String α) {k : String} (h : k ∉ e.keys) :
    (d.update e).get? k = d.get? k := by
  induction e generalizing d with
  | nil => rfl
  | cons a e ih =>
    simp only [Dict.keys, List.map_cons, List.mem_cons, not_or] at h
    have : d.update (a :: e) = (d.set a.1 a.2).update e := rfl
    rw [this, ih _ h.2, Dict.get?_set_ne _ _ (Ne.symm h.1)]

theorem baseItems_wf (r : InvRes) : (baseItems r).WF := by
  unfold baseItems Dict.WF Dict.keys
  cases r.g0 <;> cases r.b <;> cases r.R <;> cases r.v0 <;> simp

theorem baseItems_g0 (r : InvRes) : (baseItems r).get? "g0" = r.g0.map RVal.row := by
  unfold baseItems
  cases r.g0 <;> cases r.b <;> cases r.R <;> cases r.v0 <;> rfl

/-- The scattering strength in the result of an event. -/
theorem eventEntry_g0 {codaNorm : Bool} {evid : String} {r : InvRes} {d : Dict String RVal}
    (h : eventEntry codaNorm evid r = .ok d)
    (hx : ∀ e, r.events.get? evid = some e → "g0" ∉ e.extra.keys) :
    d.get? "g0" = r.g0.map RVal.row := by
  unfold eventEntry at h
  cases he : r.events.get? evid with
  | none =>
    rw [he] at h
    simp only at h
    split_ifs at h
    rw [(C40_sort_dict_lossless h).2.2 (baseItems_wf r), baseItems_g0]
  | some e =>
    rw [he] at h
    simp only at h
    rw [(C40_sort_dict_lossless h).2.2 (Dict.WF_update (baseItems_wf r) _),
      get?_update_of_not_mem, baseItems_g0]
    unfold eventItems
    simp only [Dict.keys, List.map_cons, List.mem_cons, not_or]
    refine ⟨by decide, ?_⟩
    have := Dict.keys_mapVals ofVal e.extra
    unfold Dict.keys at this
    rw [this]
    exact hx e he

theorem means_none {rlm : List ℝ → ℝ × ℝ} {mean : Mean} {freq : List ℝ}
    {events : Dict String (Dict String RVal)} (h : means rlm mean freq events = .ok none) :
    ∃ col rows, collectResults (events.mapVals some) ["g0", "b", "error", "R"] = .ok col ∧
      arrayOf col "g0" = .ok (some rows) ∧ allNan rows = true := by
  unfold means at h
  obtain ⟨col, hc, h⟩ := bind_ok.1 h
  obtain ⟨g0, hg, h⟩ := bind_ok.1 h
  cases g0 with
  | some rows =>
    by_cases hn : allNan rows = true
    · exact ⟨col, rows, hc, hg, hn⟩
    · simp only [Option.map_some, hn] at h
      obtain ⟨b, hb, h⟩ := bind_ok.1 h
      obtain ⟨errs, he, h⟩ := bind_ok.1 h
      cases errs with
      | none => simp at h
      | some errs =>
        simp only at h
        split at h
        · simp at h
        · obtain ⟨_, _, h⟩ := bind_ok.1 h
          obtain ⟨_, _, h⟩ := bind_ok.1 h
          obtain ⟨_, _, h⟩ := bind_ok.1 h
          obtain ⟨_, _, h⟩ := bind_ok.1 h
          obtain ⟨_, _, h⟩ := bind_ok.1 h
          simp [pure, Except.pure] at h
  | none =>
    simp only [Option.map_none] at h
    obtain ⟨b, hb, h⟩ := bind_ok.1 h
    obtain ⟨errs, he, h⟩ := bind_ok.1 h
    cases errs with
    | none => simp at h
    | some errs =>
      simp only at h
      split at h
      · simp at h
      · obtain ⟨_, _, h⟩ := bind_ok.1 h
        obtain ⟨_, _, h⟩ := bind_ok.1 h
        obtain ⟨_, _, h⟩ := bind_ok.1 h
        obtain ⟨_, _, h⟩ := bind_ok.1 h
        obtain ⟨_, _, h⟩ := bind_ok.1 h
        simp [pure, Except.pure] at h

end Wrapper

/-- **C75** (events one by one, depths are known): if the inversion of no event yields a result, there
is no result at all. -/
theorem C75_none_partial (rlm : List ℝ → ℝ × ℝ) {inv : List Event → Py (Option InvRes)}
    (codaNorm : Bool) (mean : Mean) {events : List Event} (hn : events.Nodup)
    (ht : ¬ Spec.Tie events) (ho : ∃ ev ∈ events, (Spec.originTime ev).isSome)
    (hd : ∀ ev ∈ events, (Spec.originTime ev).isSome → (Spec.originDepth ev).isSome)
    (h : ∀ ev ∈ events, (Spec.originTime ev).isSome → inv [ev] = .ok none) :
    invertWrapper rlm inv codaNorm false mean events = .ok none := by
  obtain ⟨order, hord, e⟩ := (C25_failures rlm inv codaNorm false mean events hn).2.2 ht ho
  rw [e, if_neg (by simp)]
  unfold separately
  rw [loop_none (fun ev hev => ?_)]
  · rfl
  · have := List.mem_filter.1 (hord.perm.subset hev)
    refine ⟨?_, h ev this.1 this.2⟩
    rw [announce_spec ev this.2, if_pos (hd ev this.1 this.2)]

/-- **C75** (events one by one): there is no result only if the inversion of no event yields a result
or if none of the results has a scattering strength in any band. -/
theorem C75_only_if {rlm : List ℝ → ℝ × ℝ} {inv : List Event → Py (Option InvRes)}
    {codaNorm : Bool} {mean : Mean} {events : List Event} (hid : (events.map getEventid).Nodup)
    (hx : ∀ ev ∈ events, ∀ r e, inv [ev] = .ok (some r) → r.events.get? (getEventid ev) = some e →
      "g0" ∉ e.extra.keys)
    (h : invertWrapper rlm inv codaNorm false mean events = .ok none) :
    (∀ ev ∈ events, (Spec.originTime ev).isSome → inv [ev] = .ok none) ∨
    ((∃ ev ∈ events, ∃ r l, inv [ev] = .ok (some r) ∧ r.g0 = some l) ∧
      ∀ ev ∈ events, (Spec.originTime ev).isSome → ∀ r l, inv [ev] = .ok (some r) → r.g0 = some l →
        ∀ x, Cell.num x ∉ l) := by
  obtain ⟨order, ho, h⟩ := bind_ok.1 h
  obtain ⟨hord, _⟩ := orderEvents_ok ho
  rw [if_neg (by simp)] at h
  obtain ⟨st, hst, h⟩ := bind_ok.1 h
  have hn : (order.map getEventid).Nodup := by
    refine ((hord.perm.map getEventid).nodup_iff).2 ?_
    exact hid.sublist ((List.filter_sublist).map _)
  have hmem : ∀ ev, ev ∈ order ↔ ev ∈ events ∧ (Spec.originTime ev).isSome = true := by
    intro ev
    rw [hord.perm.mem_iff, List.mem_filter]
  obtain ⟨outs, h1, en, h2, h3, -⟩ := loop_spec hst hn (by intro ev _; simp [Dict.keys])
  simp only [List.nil_append] at h2
  have hout : ∀ ev ∈ order, ∀ o, inv [ev] = .ok o → (ev, o) ∈ order.zip outs := by
    intro ev hev o hinv
    obtain ⟨i, hi, rfl⟩ := List.getElem_of_mem hev
    have hi' : i < outs.length := by rw [← h1.length_eq]; exact hi
    have := h1.get (i := i) hi hi'
    simp only [List.get_eq_getElem] at this
    rw [hinv] at this
    simp only [Except.ok.injEq] at this
    rw [this]
    rw [List.mem_iff_getElem]
    exact ⟨i, by simp [hi, hi'], by simp⟩
  have hlist : ∀ p ∈ (order.zip outs).filterMap (fun p => p.2.map (fun r => (p.1, r))),
      p.1 ∈ order ∧ inv [p.1] = .ok (some p.2) := by
    rintro ⟨ev, r⟩ hp
    obtain ⟨⟨ev', o⟩, hz, hp⟩ := List.mem_filterMap.1 hp
    simp only [Option.map_eq_some_iff, Prod.mk.injEq] at hp
    obtain ⟨r', ho', rfl, rfl⟩ := hp
    subst ho'
    refine ⟨(List.of_mem_zip hz).1, ?_⟩
    exact (List.forall₂_iff_zip.1 h1).2 hz
  by_cases hz : st.events.length = 0
  · left
    intro ev hev hsome
    have hnil : en = [] := by rw [← h2]; exact List.length_eq_zero_iff.1 hz
    rw [hnil] at h3
    have h3' := List.forall₂_nil_right_iff.1 h3
    have hevo := (hmem ev).2 ⟨hev, hsome⟩
    obtain ⟨i, hi, hie⟩ := List.getElem_of_mem hevo
    have hi' : i < outs.length := by rw [← h1.length_eq]; exact hi
    have hinv := h1.get (i := i) hi hi'
    simp only [List.get_eq_getElem, hie] at hinv
    have hz := hout ev hevo _ hinv
    have := List.filterMap_eq_nil_iff.1 h3' _ hz
    simp only [Option.map_eq_none_iff] at this
    rw [hinv, this]
  · right
    rw [if_neg hz] at h
    obtain ⟨col, rows, hc, hg, hnan⟩ := means_none h
    rcases arrayOf_spec hc (Or.inl rfl) hg with ⟨h0, -⟩ | ⟨rows0, hv, hne, hr, -⟩
    · simp at h0
    simp only [Option.some.injEq] at hr
    have hval : ((order.zip outs).filterMap (fun p => p.2.map (fun r => (p.1, r)))).filterMap
        (fun p => p.2.g0) = rows0 := by
      have e : (st.events.filterMap (fun e => e.2.get? "g0")) = rows0.map RVal.row := by
        rw [← hv]
        unfold Spec.valuesOf Dict.mapVals
        rw [List.filterMap_map]
        rfl
      rw [h2] at e
      have key : (en.filterMap (fun e => e.2.get? "g0")) =
          (((order.zip outs).filterMap (fun p => p.2.map (fun r => (p.1, r)))).filterMap
            (fun p => p.2.g0)).map RVal.row := by
        clear e
        generalize (order.zip outs).filterMap (fun p => p.2.map (fun r => (p.1, r))) = ps at h3 hlist
        clear h2 hv hr hc hg
        induction h3 with
        | nil => rfl
        | cons hp _ ih =>
          rename_i p e ps es _
          have hps := hlist p List.mem_cons_self
          have hg0 := eventEntry_g0 hp.2 (fun e' he' =>
            hx p.1 ((hmem _).1 hps.1).1 p.2 e' hps.2 (by rw [← hp.1]; exact he'))
          rw [List.filterMap_cons, List.filterMap_cons, hg0,
            ih (fun q hq => hlist q (List.mem_cons_of_mem _ hq))]
          cases p.2.g0 <;> rfl
      rw [key] at e
      exact (List.map_injective_iff.2 (fun a b hab => by simpa using hab)) e
    constructor
    · obtain ⟨l, hl⟩ := List.exists_mem_of_ne_nil _ hne
      rw [← hval] at hl
      obtain ⟨p, hp, hpl⟩ := List.mem_filterMap.1 hl
      obtain ⟨q1, q2⟩ := hlist p hp
      exact ⟨p.1, ((hmem _).1 q1).1, p.2, l, q2, hpl⟩
    · intro ev hev hsome r l hinv hl x hx'
      have hzp := hout ev ((hmem ev).2 ⟨hev, hsome⟩) _ hinv
      have hl' : l ∈ rows0 := by
        rw [← hval]
        exact List.mem_filterMap.2 ⟨(ev, r), List.mem_filterMap.2 ⟨_, hzp, rfl⟩, hl⟩
      rw [hr] at hnan
      unfold allNan at hnan
      have := List.all_eq_true.1 hnan (l.map Cell.toFloat) (List.mem_map.2 ⟨l, hl', rfl⟩)
      have := List.all_eq_true.1 this (Cell.num x) (List.mem_map.2 ⟨_, hx', rfl⟩)
      simp at this

/-- **C75** fails for the simultaneous inversion of all events: if it has no result, `TypeError` is
raised (item assignment of `None`) for every catalogue which can be ordered. -/
theorem C75_simultaneous_counterexample (rlm : List ℝ → ℝ × ℝ) {inv : List Event → Py (Option InvRes)}
    (codaNorm : Bool) (mean : Mean) {events : List Event} (hn : events.Nodup)
    (ht : ¬ Spec.Tie events) (ho : ∃ ev ∈ events, (Spec.originTime ev).isSome)
    (h : ∀ order, Spec.InTimeOrder events order → inv order = .ok none) :
    invertWrapper rlm inv codaNorm true mean events = .error .typeError := by
  obtain ⟨order, hord, e⟩ := (C25_failures rlm inv codaNorm true mean events hn).2.2 ht ho
  rw [e, if_pos rfl]
  unfold simultaneously
  rw [h order hord]
  rfl

open WrapperExample in
/-- Two events without result. -/
example (rlm : List ℝ → ℝ × ℝ) (mean : Mean) :
    invertWrapper rlm (fun _ => .ok none) false false mean [ev "x/e1" 1, ev "x/e2" 2] = .ok none ∧
    invertWrapper rlm (fun _ => .ok none) false true mean [ev "x/e1" 1, ev "x/e2" 2] =
      .error .typeError := by
  have ht : ¬ Spec.Tie [ev "x/e1" 1, ev "x/e2" 2] := by
    rintro ⟨a, ha, b, hb, hne, -, heq⟩
    simp only [List.mem_cons, List.not_mem_nil, or_false] at ha hb
    rcases ha with rfl | rfl <;> rcases hb with rfl | rfl <;> simp [Spec.originTime, ev] at hne heq
  have ho : ∃ e ∈ [ev "x/e1" 1, ev "x/e2" 2], (Spec.originTime e).isSome :=
    ⟨_, List.mem_cons_self, by simp [Spec.originTime, ev]⟩
  exact ⟨C75_none_partial rlm false mean (by simp [ev]) ht ho (by
      intro e he _
      simp only [List.mem_cons, List.not_mem_nil, or_false] at he
      rcases he with rfl | rfl <;> rfl) (fun _ _ _ => rfl),
    C75_simultaneous_counterexample rlm false mean (by simp [ev]) ht ho (fun _ _ => rfl)⟩

end Qopen
