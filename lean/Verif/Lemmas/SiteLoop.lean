import Verif.Lemmas.SiteOls
import Verif.Spec.Site
import Mathlib.Algebra.BigOperators.Group.Finset.Basic
import Mathlib.Algebra.BigOperators.Ring.Finset
import Mathlib.Algebra.Order.BigOperators.Group.Finset

/-!
# The loop over events and stations as a fold over observations
-/

namespace Qopen.Site

open Real Spec

/-- An observation: number of the event, station, response. -/
abbrev Obs := ℕ × String × ℝ

theorem cellAt_eq (l : List Cell) (i : ℕ) : cellAt l i = numAt l i := by
  unfold cellAt numAt
  rw [List.getD_eq_getElem?_getD]
  rcases l[i]? with _ | _ | _ | _ <;> rfl

/-- Observations of one event. -/
def evObs (i : ℕ) (area : Finset String) (k : ℕ) (ev : EvRes) : List Obs :=
  ev.R.filterMap (fun q => if q.1 ∈ area then (cellAt q.2 i).map (fun R => (k, q.1, R)) else none)

/-- All observations in a band, in the order of the loop. -/
def obsOf (events : Dict String EvRes) (i : ℕ) (area : Finset String) : List Obs :=
  events.zipIdx.flatMap (fun p => evObs i area p.2 p.1.2)

/-- The work done for one observation. -/
noncomputable def obsStep (us : Bool) (Ne : ℕ) (count : String → ℕ) (sel : StationSel)
    (st : LoopState) (o : Obs) : LoopState :=
  diffStep us Ne (normStep count sel st o.1 o.2.1 o.2.2) o.1 o.2.1 o.2.2

theorem loop_eq (us : Bool) (events : Dict String EvRes) (i : ℕ) (area : Finset String)
    (sel : StationSel) :
    loop us events i area sel = (obsOf events i area).foldl
      (obsStep us events.length (nStations events i) sel) {} := by
  unfold loop obsOf
  rw [List.foldl_flatMap]
  congr 1
  funext st p
  unfold evObs
  rw [List.foldl_filterMap]
  congr 1
  funext st q
  unfold visit
  by_cases h : q.1 ∈ area
  · rw [if_neg (not_not.2 h), if_pos h]
    cases cellAt q.2 i <;> rfl
  · rw [if_pos h, if_neg h]

/-- Adjusted logarithmic response. -/
noncomputable def aval (c : ℕ → ℝ) (o : Obs) : ℝ := log o.2.2 + c o.1

theorem sqSteps_snoc (l : List ℝ) (x : ℝ) :
    sqSteps (l ++ [x]) = sqSteps l + (match l.getLast? with
      | none => 0
      | some y => (y - x) ^ 2) := by
  induction l with
  | nil => simp [sqSteps]
  | cons a l ih =>
    cases l with
    | nil => simp [sqSteps]
    | cons b l =>
      simp only [List.cons_append, sqSteps] at ih ⊢
      rw [ih, List.getLast?_cons_cons]
      ring

theorem evalRow_ddAdd (c : ℕ → ℝ) (d : Dict ℕ ℝ) (hd : d.WF) (k : ℕ) (x : ℝ) :
    evalRow c (ddAdd d k x) = evalRow c d + x * c k := by
  unfold ddAdd
  induction d with
  | nil => simp [evalRow, Dict.set, Dict.get?]
  | cons p d ih =>
    obtain ⟨k', v⟩ := p
    simp only [Dict.WF, Dict.keys_cons, List.nodup_cons] at hd
    by_cases h : k' = k
    · subst h
      simp only [Dict.set, Dict.get?, if_true, Option.getD_some, evalRow, List.map_cons,
        List.sum_cons]
      ring
    · have := ih hd.2
      simp only [evalRow] at this
      simp only [Dict.set, Dict.get?, if_neg h, evalRow, List.map_cons, List.sum_cons, this]
      ring

theorem WF_ddAdd {d : Dict ℕ ℝ} (hd : d.WF) (k : ℕ) (x : ℝ) : (ddAdd d k x).WF :=
  Dict.WF_set hd _ _

/-- Sum of squared residuals of the equations. -/
def rowsSse (c : ℕ → ℝ) (rows : List (List (ℕ × ℝ) × ℝ)) : ℝ :=
  (rows.map (fun r => (r.2 - evalRow c r.1) ^ 2)).sum

/-- Observations of a station. -/
def ofSta (os : List Obs) (s : String) : List Obs := os.filter (fun o => o.2.1 = s)

/-- Invariant of the loop. -/
structure Inv (us : Bool) (Ne : ℕ) (count : String → ℕ) (sel : StationSel) (area : Finset String)
    (os : List Obs) (st : LoopState) : Prop where
  rows : ∃ rows, Rep us Ne st.ols rows ∧ (∀ r ∈ rows, GoodRow Ne r.1) ∧
    ∀ c, rowsSse c rows = ∑ s ∈ area, sqSteps ((ofSta os s).map (aval c))
  last : ∀ s, st.last.get? s = ((ofSta os s).getLast?).map (fun o => (o.1, o.2.2))
  normWF : st.normA.WF
  normLt : ∀ p ∈ st.normA, p.1 < Ne
  normA : ∀ c, evalRow c st.normA =
    ((os.filter (fun o => selected sel o.2.1)).map (fun o => 1 / count o.2.1 * c o.1)).sum
  normB : st.normB =
    - ((os.filter (fun o => selected sel o.2.1)).map (fun o => log o.2.2 * (1 / count o.2.1))).sum
  usedNodup : st.used.Nodup
  used : ∀ s, s ∈ st.used ↔ ∃ o ∈ os, o.2.1 = s ∧ selected sel s

theorem normStep_ols (count : String → ℕ) (sel : StationSel) (st : LoopState) (k : ℕ)
    (sta : String) (R : ℝ) : (normStep count sel st k sta R).ols = st.ols ∧
    (normStep count sel st k sta R).last = st.last := by
  unfold normStep; split <;> exact ⟨rfl, rfl⟩

theorem diffStep_norm (us : Bool) (Ne : ℕ) (st : LoopState) (k : ℕ) (sta : String) (R : ℝ) :
    (diffStep us Ne st k sta R).normA = st.normA ∧ (diffStep us Ne st k sta R).normB = st.normB ∧
    (diffStep us Ne st k sta R).used = st.used ∧
    (diffStep us Ne st k sta R).last = st.last.set sta (k, R) := by
  unfold diffStep; split <;> exact ⟨rfl, rfl, rfl, rfl⟩

theorem ofSta_append (os : List Obs) (o : Obs) (s : String) :
    ofSta (os ++ [o]) s = if o.2.1 = s then ofSta os s ++ [o] else ofSta os s := by
  unfold ofSta
  rw [List.filter_append]
  by_cases h : o.2.1 = s <;> simp [h]

theorem ddAdd_lt {d : Dict ℕ ℝ} {Ne k : ℕ} (h : ∀ p ∈ d, p.1 < Ne) (hk : k < Ne) (x : ℝ) :
    ∀ p ∈ ddAdd d k x, p.1 < Ne := by
  intro p hp
  have : p.1 ∈ (ddAdd d k x).keys := List.mem_map.2 ⟨p, hp, rfl⟩
  unfold ddAdd at this
  rw [Dict.mem_keys_set] at this
  rcases this with rfl | h1
  · exact hk
  · obtain ⟨q, hq, h2⟩ := List.mem_map.1 h1
    exact h2 ▸ h q hq

theorem inv_step {us : Bool} {Ne : ℕ} {count : String → ℕ} {sel : StationSel}
    {area : Finset String} {os : List Obs} {st : LoopState}
    (h : Inv us Ne count sel area os st) (o : Obs) (hk : o.1 < Ne) (hk' : ∀ x ∈ os, x.1 < Ne)
    (ha : o.2.1 ∈ area) (hd : ∀ x ∈ os, x.2.1 = o.2.1 → x.1 ≠ o.1) :
    Inv us Ne count sel area (os ++ [o]) (obsStep us Ne count sel st o) := by
  obtain ⟨k, sta, R⟩ := o
  simp only at hk ha hd
  obtain ⟨rows, hrep, hgood, hsse⟩ := h.rows
  obtain ⟨d1, d2, d3, d4⟩ := diffStep_norm us Ne (normStep count sel st k sta R) k sta R
  obtain ⟨n1, n2⟩ := normStep_ols count sel st k sta R
  have hlast : (obsStep us Ne count sel st (k, sta, R)).last = st.last.set sta (k, R) := by
    unfold obsStep; rw [d4, n2]
  have hfin : ∀ c, ∑ s ∈ area, sqSteps ((ofSta (os ++ [(k, sta, R)]) s).map (aval c)) =
      (∑ s ∈ area, sqSteps ((ofSta os s).map (aval c))) +
        (match (ofSta os sta).getLast? with
          | none => 0
          | some y => (aval c y - aval c (k, sta, R)) ^ 2) := by
    intro c
    rw [← Finset.add_sum_erase _ _ ha, ← Finset.add_sum_erase _ (fun s => sqSteps _) ha]
    have : ∀ s ∈ area.erase sta, sqSteps ((ofSta (os ++ [(k, sta, R)]) s).map (aval c)) =
        sqSteps ((ofSta os s).map (aval c)) := by
      intro s hs
      rw [ofSta_append, if_neg]
      exact (Finset.ne_of_mem_erase hs).symm
    rw [Finset.sum_congr rfl this, ofSta_append, if_pos rfl, List.map_append, List.map_cons,
      List.map_nil, sqSteps_snoc, List.getLast?_map]
    cases (ofSta os sta).getLast? with
    | none => simp
    | some y => simp only [Option.map_some]; ring
  refine ⟨?_, ?_, ?_, ?_, ?_, ?_, ?_, ?_⟩
  · -- equations
    have hl := h.last sta
    cases hg : (ofSta os sta).getLast? with
    | none =>
      rw [hg] at hl
      refine ⟨rows, ?_, hgood, ?_⟩
      · unfold obsStep diffStep
        simp only [n2, hl, Option.map_none, n1]
        exact hrep
      · intro c
        rw [hfin, hg, hsse]; simp
    | some y =>
      rw [hg] at hl
      simp only [Option.map_some] at hl
      have hy : y ∈ ofSta os sta := List.mem_of_getLast? hg
      unfold ofSta at hy
      obtain ⟨hy1, hy2⟩ := List.mem_filter.1 hy
      simp only [decide_eq_true_eq] at hy2
      have hyk : y.1 ≠ k := hd y hy1 hy2
      have hgr : GoodRow Ne [(k, 1), (y.1, -1)] := by
        refine ⟨by simp [hyk.symm], ?_⟩
        intro p hp
        simp only [List.mem_cons, List.not_mem_nil, or_false] at hp
        rcases hp with rfl | rfl
        · exact hk
        · exact hk' y hy1
      refine ⟨rows ++ [([(k, 1), (y.1, -1)], log y.2.2 - log R)], ?_, ?_, ?_⟩
      · unfold obsStep diffStep
        simp only [n2, hl, n1]
        exact rep_construct hrep _ _ hgr
      · intro r hr
        rcases List.mem_append.1 hr with hr | hr
        · exact hgood r hr
        · simp only [List.mem_singleton] at hr; subst hr; exact hgr
      · intro c
        rw [hfin, hg, ← hsse c]
        simp only [rowsSse, List.map_append, List.map_cons, List.map_nil, List.sum_append,
          List.sum_cons, List.sum_nil, evalRow, aval]
        ring
  · intro s
    rw [hlast, Dict.get?_set, ofSta_append]
    by_cases hs : sta = s
    · simp [hs]
    · simp only [if_neg hs]; exact h.last s
  all_goals
    unfold obsStep
    simp only [d1, d2, d3]
    unfold normStep
  · split
    · exact WF_ddAdd h.normWF _ _
    · exact h.normWF
  · split
    · exact ddAdd_lt h.normLt hk _
    · exact h.normLt
  · intro c
    by_cases hs : selected sel sta
    · simp only [if_pos hs, List.filter_append, List.map_append, List.sum_append]
      rw [evalRow_ddAdd _ _ h.normWF, h.normA c]
      simp [hs]
    · simp only [if_neg hs, List.filter_append, List.map_append, List.sum_append, h.normA c]
      simp [hs]
  · by_cases hs : selected sel sta
    · simp only [if_pos hs, List.filter_append, List.map_append, List.sum_append, h.normB]
      simp [hs]; ring
    · simp only [if_neg hs, List.filter_append, List.map_append, List.sum_append, h.normB]
      simp [hs]
  · split
    · simp only
      split
      · exact h.usedNodup
      · next hc =>
        have : sta ∉ st.used := by simpa using hc
        rw [List.nodup_append]
        refine ⟨h.usedNodup, by simp, ?_⟩
        rintro a ha b hb rfl
        simp only [List.mem_singleton] at hb
        exact this (hb ▸ ha)
    · exact h.usedNodup
  · intro s
    by_cases hs : selected sel sta
    · simp only [if_pos hs]
      have h1 : (s ∈ if st.used.contains sta = true then st.used else st.used ++ [sta]) ↔
          s ∈ st.used ∨ s = sta := by
        split
        · next hc =>
          have : sta ∈ st.used := by simpa using hc
          constructor
          · exact Or.inl
          · rintro (h2 | rfl)
            · exact h2
            · exact this
        · simp
      rw [h1, h.used]
      simp only [List.mem_append, List.mem_singleton]
      constructor
      · rintro (⟨o, ho, h2⟩ | rfl)
        · exact ⟨o, Or.inl ho, h2⟩
        · exact ⟨_, Or.inr rfl, rfl, hs⟩
      · rintro ⟨o, ho | rfl, h2, h3⟩
        · exact Or.inl ⟨o, ho, h2, h3⟩
        · exact Or.inr h2.symm
    · simp only [if_neg hs, h.used, List.mem_append, List.mem_singleton]
      constructor
      · rintro ⟨o, ho, h2⟩
        exact ⟨o, Or.inl ho, h2⟩
      · rintro ⟨o, ho | rfl, h2, h3⟩
        · exact ⟨o, ho, h2, h3⟩
        · simp only at h2; subst h2; exact absurd h3 hs

theorem inv_loop (us : Bool) (Ne : ℕ) (count : String → ℕ) (sel : StationSel)
    (area : Finset String) (os : List Obs) (hk : ∀ o ∈ os, o.1 < Ne)
    (ha : ∀ o ∈ os, o.2.1 ∈ area) (hd : os.Pairwise (fun x y => x.2.1 = y.2.1 → x.1 ≠ y.1)) :
    Inv us Ne count sel area os (os.foldl (obsStep us Ne count sel) {}) := by
  induction os using List.reverseRecOn with
  | nil =>
    refine ⟨⟨[], rep_nil us Ne, by simp, ?_⟩, ?_, ?_, ?_, ?_, ?_, ?_, ?_⟩
    · intro c; simp [rowsSse, ofSta, sqSteps]
    · intro s; rfl
    · exact List.nodup_nil
    · simp
    · intro c; simp [evalRow]
    · simp
    · exact List.nodup_nil
    · simp
  | append_singleton os o ih =>
    rw [List.foldl_append, List.foldl_cons, List.foldl_nil]
    rw [List.pairwise_append] at hd
    refine inv_step (ih (fun x hx => hk x (by simp [hx])) (fun x hx => ha x (by simp [hx])) hd.1) o
      (hk o (by simp)) (fun x hx => hk x (by simp [hx])) (ha o (by simp)) ?_
    intro x hx
    exact hd.2.2 x hx o (by simp)

end Qopen.Site
