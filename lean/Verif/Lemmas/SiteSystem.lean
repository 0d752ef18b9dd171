import Verif.Lemmas.SiteLoop
import Mathlib.Algebra.BigOperators.Field

/-!
# The misfit that the alignment minimises
-/

namespace Qopen.Site

open Real Spec

/-- Observations of a station in band `i`: number of event and response. -/
def pts (events : Dict String EvRes) (i : ℕ) (s : String) : List (ℕ × ℝ) :=
  events.zipIdx.filterMap (fun p => (respOf p.1.2 s i).map (fun R => (p.2, R)))

/-- Logarithmic responses of a station after adding `c k` for event `k`. -/
noncomputable def adj (events : Dict String EvRes) (i : ℕ) (c : ℕ → ℝ) (s : String) : List ℝ :=
  (pts events i s).map (fun q => log q.2 + c q.1)

/-- Arithmetic mean. -/
noncomputable def avg (l : List ℝ) : ℝ := l.sum / l.length

theorem ofSta_filterMap (R : Dict String (List Cell)) (hR : R.WF) (i : ℕ) (area : Finset String)
    (k : ℕ) (s : String) :
    ofSta (R.filterMap (fun q => if q.1 ∈ area then
      (cellAt q.2 i).map (fun R => (k, q.1, R)) else none)) s =
    if s ∈ area then (((R.get? s).bind (fun l => numAt l i)).map (fun R => (k, s, R))).toList
    else [] := by
  induction R with
  | nil => simp [ofSta]
  | cons p R ih =>
    obtain ⟨a, l⟩ := p
    simp only [Dict.WF, Dict.keys_cons, List.nodup_cons] at hR
    have ih := ih hR.2
    by_cases h : a = s
    · subst h
      have hnone : Dict.get? R a = none := (Dict.get?_eq_none R a).2 hR.1
      rw [hnone] at ih
      simp only [Option.bind_none, Option.map_none, Option.toList_none, ite_self] at ih
      simp only [Dict.get?_cons, if_true, Option.bind_some, List.filterMap_cons]
      by_cases ha : a ∈ area
      · simp only [if_pos ha, cellAt_eq] at ih ⊢
        cases numAt l i with
        | none => simpa using ih
        | some x =>
          simp only [Option.map_some, Option.toList_some]
          unfold ofSta at ih ⊢
          rw [List.filter_cons, ih]; simp
      · simp only [if_neg ha]; exact ih
    · simp only [Dict.get?_cons, if_neg h, List.filterMap_cons]
      rw [← ih]
      split
      · rfl
      · next b hb =>
        unfold ofSta
        rw [List.filter_cons]
        have : b.2.1 = a := by
          split at hb
          · rw [Option.map_eq_some_iff] at hb
            obtain ⟨_, _, rfl⟩ := hb; rfl
          · simp at hb
        simp [this, h]

theorem ofSta_evObs (ev : EvRes) (hR : ev.R.WF) (i : ℕ) (area : Finset String) (k : ℕ)
    (s : String) :
    ofSta (evObs i area k ev) s =
    if s ∈ area then ((respOf ev s i).map (fun R => (k, s, R))).toList else [] :=
  ofSta_filterMap ev.R hR i area k s

theorem filter_flatMap' {α β : Type} (l : List α) (f : α → List β) (p : β → Bool) :
    (l.flatMap f).filter p = l.flatMap (fun a => (f a).filter p) := by
  induction l with
  | nil => rfl
  | cons a l ih => simp [List.flatMap_cons, List.filter_append, ih]

theorem flatMap_congr' {α β : Type} {l : List α} {f g : α → List β} (h : ∀ a ∈ l, f a = g a) :
    l.flatMap f = l.flatMap g := by
  induction l with
  | nil => rfl
  | cons a l ih => simp [List.flatMap_cons, h a, ih (fun b hb => h b (by simp [hb]))]

theorem flatMap_toList {α β : Type} (l : List α) (f : α → Option β) :
    l.flatMap (fun a => (f a).toList) = l.filterMap f := by
  induction l with
  | nil => rfl
  | cons a l ih => rw [List.flatMap_cons, ih, List.filterMap_cons]; cases f a <;> rfl

theorem mem_of_mem_zipIdx' {α : Type} {l : List α} {p : α × ℕ} (h : p ∈ l.zipIdx) : p.1 ∈ l :=
  List.fst_mem_of_mem_zipIdx h

/-- Every event has a proper dictionary of responses. -/
def RWF (events : Dict String EvRes) : Prop := ∀ e ∈ events, e.2.R.WF

theorem ofSta_obsOf {events : Dict String EvRes} (hR : RWF events) (i : ℕ)
    {area : Finset String} {s : String} (hs : s ∈ area) :
    ofSta (obsOf events i area) s = (pts events i s).map (fun q => (q.1, s, q.2)) := by
  unfold obsOf pts
  rw [ofSta, filter_flatMap', List.map_filterMap, ← flatMap_toList]
  apply flatMap_congr'
  intro p hp
  have := ofSta_evObs p.1.2 (hR _ (mem_of_mem_zipIdx' hp)) i area p.2 s
  rw [ofSta, if_pos hs] at this
  rw [this, Option.map_map]; rfl

theorem ofSta_obsOf_map {events : Dict String EvRes} (hR : RWF events) (i : ℕ)
    {area : Finset String} {s : String} (hs : s ∈ area) (c : ℕ → ℝ) :
    (ofSta (obsOf events i area) s).map (aval c) = adj events i c s := by
  rw [ofSta_obsOf hR i hs, List.map_map]; rfl

theorem mem_evObs {i : ℕ} {area : Finset String} {k : ℕ} {ev : EvRes} {o : Obs}
    (h : o ∈ evObs i area k ev) : o.1 = k ∧ o.2.1 ∈ area ∧
      ∃ l, (o.2.1, l) ∈ ev.R ∧ numAt l i = some o.2.2 := by
  unfold evObs at h
  obtain ⟨q, hq, h1⟩ := List.mem_filterMap.1 h
  split at h1
  · next ha =>
    rw [Option.map_eq_some_iff] at h1
    obtain ⟨R, h2, rfl⟩ := h1
    exact ⟨rfl, ha, q.2, hq, by rw [← cellAt_eq]; exact h2⟩
  · simp at h1

theorem obsOf_lt {events : Dict String EvRes} {i : ℕ} {area : Finset String} {o : Obs}
    (h : o ∈ obsOf events i area) : o.1 < events.length ∧ o.2.1 ∈ area := by
  unfold obsOf at h
  obtain ⟨p, hp, h1⟩ := List.mem_flatMap.1 h
  obtain ⟨e1, e2, _⟩ := mem_evObs h1
  refine ⟨?_, e2⟩
  rw [e1]
  have := List.snd_lt_of_mem_zipIdx hp
  simpa using this

theorem obsOf_pairwise {events : Dict String EvRes} (hR : RWF events) (i : ℕ)
    (area : Finset String) :
    (obsOf events i area).Pairwise (fun x y => x.2.1 = y.2.1 → x.1 ≠ y.1) := by
  unfold obsOf
  rw [List.pairwise_flatMap]
  constructor
  · intro p hp
    have hw := hR _ (mem_of_mem_zipIdx' hp)
    unfold evObs
    rw [List.pairwise_filterMap]
    have hw' : p.1.2.R.Pairwise (fun a b => a.1 ≠ b.1) := by
      rw [Dict.WF, Dict.keys, List.nodup_iff_pairwise_ne, List.pairwise_map] at hw; exact hw
    refine hw'.imp ?_
    intro a b hab o ho o' ho' h1
    exfalso
    have : ∀ {q : String × List Cell} {o : Obs}, (if q.1 ∈ area then
        (cellAt q.2 i).map (fun R => (p.2, q.1, R)) else none) = some o → o.2.1 = q.1 := by
      intro q o h
      split at h
      · rw [Option.map_eq_some_iff] at h; obtain ⟨_, _, rfl⟩ := h; rfl
      · simp at h
    exact hab ((this ho).symm.trans (h1.trans (this ho')))
  · have : events.zipIdx.Pairwise (fun a b => a.2 ≠ b.2) := by
      have h := List.nodup_range (n := events.length)
      have h2 : events.zipIdx.map Prod.snd = List.range events.length := by
        rw [List.zipIdx_map_snd, List.range_eq_range']
      rw [← h2, List.nodup_iff_pairwise_ne, List.pairwise_map] at h
      exact h
    refine this.imp ?_
    intro a b hab x hx y hy _ h
    exact hab ((mem_evObs hx).1.symm.trans (h.trans (mem_evObs hy).1))

theorem countP_row (R : Dict String (List Cell)) (hR : R.WF) (i : ℕ) (s : String) :
    R.countP (fun p => p.1 == s && (cellAt p.2 i).isSome) =
      (((R.get? s).bind (fun l => numAt l i)).toList).length := by
  induction R with
  | nil => simp
  | cons p R ih =>
    obtain ⟨a, l⟩ := p
    simp only [Dict.WF, Dict.keys_cons, List.nodup_cons] at hR
    have ih := ih hR.2
    rw [List.countP_cons, ih]
    by_cases h : a = s
    · subst h
      have hnone : Dict.get? R a = none := (Dict.get?_eq_none R a).2 hR.1
      simp only [Dict.get?_cons, if_true, Option.bind_some, hnone, Option.bind_none]
      rw [cellAt_eq]
      cases numAt l i <;> simp
    · simp [Dict.get?_cons, h]

theorem nStations_eq {events : Dict String EvRes} (hR : RWF events) (i : ℕ) (s : String) :
    nStations events i s = (pts events i s).length := by
  have : ∀ (es : Dict String EvRes) (n : ℕ), (∀ e ∈ es, e.2.R.WF) →
      (es.flatMap (fun e => e.2.R)).countP (fun p => p.1 == s && (cellAt p.2 i).isSome) =
      ((es.zipIdx n).filterMap (fun p => (respOf p.1.2 s i).map (fun R => (p.2, R)))).length := by
    intro es
    induction es with
    | nil => intros; rfl
    | cons e es ih =>
      intro n h
      rw [List.flatMap_cons, List.countP_append, ih (n + 1) (fun e he => h e (by simp [he])),
        countP_row _ (h e (by simp)), List.zipIdx_cons, List.filterMap_cons]
      change (respOf e.2 s i).toList.length + _ = _
      cases respOf e.2 s i <;> simp; omega
  exact this events 0 hR

theorem sum_by_station (os : List Obs) (area : Finset String) (ha : ∀ o ∈ os, o.2.1 ∈ area)
    (p : String → Bool) (f : Obs → ℝ) :
    ((os.filter (fun o => p o.2.1)).map f).sum =
      ∑ s ∈ area.filter (fun s => p s), ((ofSta os s).map f).sum := by
  induction os with
  | nil => simp [ofSta]
  | cons o os ih =>
    have ih := ih (fun x hx => ha x (by simp [hx]))
    have ho := ha o (by simp)
    have key : ∀ s, ((ofSta (o :: os) s).map f).sum =
        (if o.2.1 = s then f o else 0) + ((ofSta os s).map f).sum := by
      intro s
      unfold ofSta
      by_cases h : o.2.1 = s <;> simp [h]
    simp only [key, Finset.sum_add_distrib, ← ih]
    rw [Finset.sum_ite_eq]
    by_cases h : p o.2.1 <;> simp [h, ho]

/-- The station selection of a call: the stations of the area that are pinned. -/
def pinned (area : Finset String) (sel : StationSel) : Finset String :=
  area.filter (fun s => selected sel s)

/-- The misfit function of one band. -/
noncomputable def misfit (events : Dict String EvRes) (i : ℕ) (area : Finset String)
    (sel : StationSel) (r : ℝ) (c : ℕ → ℝ) : ℝ :=
  ∑ s ∈ area, sqSteps (adj events i c s) +
    ((∑ s ∈ pinned area sel, avg (adj events i c s)) / (pinned area sel).card - log r) ^ 2

theorem sse_rows (rows : List (List (ℕ × ℝ) × ℝ)) (Ne : ℕ) (hg : ∀ r ∈ rows, GoodRow Ne r.1)
    (c : List ℝ) (hc : c.length = Ne) :
    sse (rows.map Prod.snd) (rows.map (fun r => denseRow Ne r.1)) c =
      rowsSse (fun k => c.getD k 0) rows := by
  induction rows with
  | nil => simp [sse, rowsSse]
  | cons r rows ih =>
    have ih := ih (fun r hr => hg r (by simp [hr]))
    simp only [sse, rowsSse, List.map_cons, List.zipWith_cons_cons, List.sum_cons] at ih ⊢
    rw [ih, dot_denseRow Ne r.1 (hg r (by simp)) c hc]

theorem evalRow_mapVals (c : ℕ → ℝ) (d : Dict ℕ ℝ) (n : ℝ) :
    evalRow c (Dict.mapVals (fun x => x / n) d) = evalRow c d / n := by
  unfold evalRow Dict.mapVals
  rw [List.map_map, ← sum_map_div']
  apply sum_map_congr
  intro p _
  simp only [Function.comp]; ring

/-- The equation system of one band in closed form. -/
theorem bandSystem_spec {us : Bool} {events : Dict String EvRes} (hR : RWF events) {i : ℕ}
    {area : Finset String} (hdata : ∀ s ∈ area, pts events i s ≠ []) {sel : StationSel}
    {response : Response} {A : List (List ℝ)} {b : List ℝ}
    (h : bandSystem us events i area sel response = .ok (A, b)) :
    ∃ r, responseAt response i = .ok r ∧ (pinned area sel).Nonempty ∧ A.length = b.length ∧
      (∀ row ∈ A, row.length = events.length) ∧
      ∀ c : List ℝ, c.length = events.length →
        sse b A c = misfit events i area sel r (fun k => c.getD k 0) := by
  unfold bandSystem at h
  have hinv := inv_loop us events.length (nStations events i) sel area (obsOf events i area)
    (fun o ho => (obsOf_lt ho).1) (fun o ho => (obsOf_lt ho).2) (obsOf_pairwise hR i area)
  rw [← loop_eq] at hinv
  generalize hst : loop us events i area sel = st at h hinv
  by_cases hn : st.used.length = 0
  · simp [hn, bind, Except.bind, throw, throwThe, MonadExceptOf.throw] at h
  · cases hr : responseAt response i with
    | error e => simp [hn, hr, bind, Except.bind, pure, Except.pure] at h
    | ok r =>
      simp only [hn, hr, bind, Except.bind, pure, Except.pure, if_false, Except.ok.injEq,
        Prod.mk.injEq] at h
      obtain ⟨hA, hb⟩ := h
      obtain ⟨rows, hrep, hgood, hsse⟩ := hinv.rows
      have hgn : GoodRow events.length (Dict.mapVals (fun x => x / (st.used.length : ℝ)) st.normA) := by
        constructor
        · have := hinv.normWF
          rw [← Dict.keys, Dict.keys_mapVals]; exact this
        · intro p hp
          unfold Dict.mapVals at hp
          obtain ⟨q, hq, rfl⟩ := List.mem_map.1 hp
          exact hinv.normLt q hq
      have hrep' := rep_construct hrep (Dict.mapVals (fun x => x / (st.used.length : ℝ)) st.normA)
        (st.normB / st.used.length + log r) hgn
      have hpin : ∀ s, s ∈ st.used ↔ s ∈ pinned area sel := by
        intro s
        rw [hinv.used, pinned, Finset.mem_filter]
        constructor
        · rintro ⟨o, ho, rfl, h2⟩
          exact ⟨(obsOf_lt ho).2, h2⟩
        · rintro ⟨h1, h2⟩
          have h3 := ofSta_obsOf hR i h1
          have : ofSta (obsOf events i area) s ≠ [] := by
            rw [h3]; simpa using hdata s h1
          obtain ⟨o, ho⟩ := List.exists_mem_of_ne_nil _ this
          unfold ofSta at ho
          obtain ⟨ho1, ho2⟩ := List.mem_filter.1 ho
          exact ⟨o, ho1, by simpa using ho2, h2⟩
      have hcard : st.used.length = (pinned area sel).card := by
        rw [← List.toFinset_card_of_nodup hinv.usedNodup]
        congr 1; ext s; simp [hpin]
      have hb' : b = (rows ++ [(Dict.mapVals (fun x => x / (st.used.length : ℝ)) st.normA,
          st.normB / st.used.length + log r)]).map Prod.snd := by
        rw [← hb]; exact hrep'.b
      have hA' := hA.symm.trans hrep'.mat
      refine ⟨r, rfl, ?_, ?_, ?_, ?_⟩
      · obtain ⟨s, hs⟩ := List.exists_mem_of_length_pos (Nat.pos_of_ne_zero hn)
        exact ⟨s, (hpin s).1 hs⟩
      · rw [hA', hb']; simp
      · intro row hrow
        rw [hA'] at hrow
        obtain ⟨q, _, rfl⟩ := List.mem_map.1 hrow
        exact denseRow_length _ _
      · intro c hc
        rw [hA', hb', sse_rows _ _ _ c hc]
        · simp only [rowsSse, List.map_append, List.map_cons, List.map_nil, List.sum_append,
            List.sum_cons, List.sum_nil, add_zero]
          have e1 := hsse (fun k => c.getD k 0)
          unfold rowsSse at e1
          rw [e1]
          unfold misfit
          congr 1
          · apply Finset.sum_congr rfl
            intro s hs
            rw [ofSta_obsOf_map hR i hs]
          · rw [evalRow_mapVals, hinv.normA, hinv.normB, ← hcard]
            have e2 : ∀ f : Obs → ℝ, _ := fun f =>
              sum_by_station (obsOf events i area) area (fun o ho => (obsOf_lt ho).2)
                (fun s => selected sel s) f
            rw [e2, e2]
            have e3 : ∑ s ∈ pinned area sel, avg (adj events i (fun k => c.getD k 0) s) =
                ∑ s ∈ pinned area sel, ((ofSta (obsOf events i area) s).map
                  (fun o => log o.2.2 * (1 / nStations events i o.2.1))).sum +
                ∑ s ∈ pinned area sel, ((ofSta (obsOf events i area) s).map
                  (fun o => 1 / nStations events i o.2.1 * c.getD o.1 0)).sum := by
              rw [← Finset.sum_add_distrib]
              apply Finset.sum_congr rfl
              intro s hs
              rw [ofSta_obsOf hR i (Finset.mem_filter.1 hs).1, List.map_map, List.map_map,
                ← sum_map_add', avg, adj, List.length_map, ← sum_map_div']
              apply sum_map_congr
              intro q _
              simp only [Function.comp, nStations_eq hR]
              ring
            rw [e3]
            unfold pinned
            ring
        · intro q hq
          rcases List.mem_append.1 hq with hq | hq
          · exact hgood q hq
          · simp only [List.mem_singleton] at hq; subst hq; exact hgn

end Qopen.Site
