import Verif.Props.SiteTotal

/-!
# Sparse and dense systems (C07)
-/

namespace Qopen

open Real Spec Source Site

namespace Site

/-- Two runs of the loop, one with sparse and one with dense equations. -/
structure Sim (Ne : ℕ) (st st' : LoopState) : Prop where
  normA : st.normA = st'.normA
  normB : st.normB = st'.normB
  last : st.last = st'.last
  used : st.used = st'.used
  rows : ∃ rows, Rep true Ne st.ols rows ∧ Rep false Ne st'.ols rows

theorem sim_normStep {Ne : ℕ} {st st' : LoopState} (h : Sim Ne st st') (count : String → ℕ)
    (sel : StationSel) (k : ℕ) (sta : String) (R : ℝ) :
    Sim Ne (normStep count sel st k sta R) (normStep count sel st' k sta R) := by
  unfold normStep
  split
  · exact ⟨by simp [h.normA], by simp [h.normB], h.last, by simp [h.used], h.rows⟩
  · exact h

theorem sim_diffStep {Ne : ℕ} {st st' : LoopState} (h : Sim Ne st st') {k : ℕ} {sta : String}
    (R : ℝ) (hk : k < Ne)
    (hl : ∀ kl Rl, st.last.get? sta = some (kl, Rl) → kl < Ne ∧ kl ≠ k) :
    Sim Ne (diffStep true Ne st k sta R) (diffStep false Ne st' k sta R) := by
  unfold diffStep
  rw [← h.last]
  cases hg : st.last.get? sta with
  | none => exact ⟨h.normA, h.normB, rfl, h.used, h.rows⟩
  | some p =>
    obtain ⟨kl, Rl⟩ := p
    obtain ⟨h1, h2⟩ := hl kl Rl hg
    obtain ⟨rows, r1, r2⟩ := h.rows
    have hg : GoodRow Ne [(k, 1), (kl, -1)] := by
      refine ⟨by simp [h2.symm], ?_⟩
      intro p hp
      simp only [List.mem_cons, List.not_mem_nil, or_false] at hp
      rcases hp with rfl | rfl
      · exact hk
      · exact h1
    exact ⟨h.normA, h.normB, rfl, h.used, _, rep_construct r1 _ _ hg, rep_construct r2 _ _ hg⟩

theorem sim_loop (Ne : ℕ) (count : String → ℕ) (sel : StationSel) (area : Finset String)
    (os : List Obs) (hk : ∀ o ∈ os, o.1 < Ne) (ha : ∀ o ∈ os, o.2.1 ∈ area)
    (hd : os.Pairwise (fun x y => x.2.1 = y.2.1 → x.1 ≠ y.1)) :
    Sim Ne (os.foldl (obsStep true Ne count sel) {}) (os.foldl (obsStep false Ne count sel) {}) := by
  induction os using List.reverseRecOn with
  | nil => exact ⟨rfl, rfl, rfl, rfl, [], rep_nil _ _, rep_nil _ _⟩
  | append_singleton os o ih =>
    rw [List.pairwise_append] at hd
    have hk' : ∀ o ∈ os, o.1 < Ne := fun x hx => hk x (by simp [hx])
    have ha' : ∀ o ∈ os, o.2.1 ∈ area := fun x hx => ha x (by simp [hx])
    have ih := ih hk' ha' hd.1
    have hinv := inv_loop true Ne count sel area os hk' ha' hd.1
    rw [List.foldl_append, List.foldl_append]
    simp only [List.foldl_cons, List.foldl_nil]
    refine sim_diffStep (sim_normStep ih count sel o.1 o.2.1 o.2.2) _ (hk o (by simp)) ?_
    intro kl Rl hg
    rw [(normStep_ols count sel _ o.1 o.2.1 o.2.2).2, hinv.last] at hg
    rw [Option.map_eq_some_iff] at hg
    obtain ⟨y, hy, hyy⟩ := hg
    simp only [Prod.mk.injEq] at hyy
    have hm := List.mem_of_getLast? hy
    unfold ofSta at hm
    obtain ⟨hm1, hm2⟩ := List.mem_filter.1 hm
    simp only [decide_eq_true_eq] at hm2
    rw [← hyy.1]
    exact ⟨hk' y hm1, hd.2.2 y hm1 o (by simp) hm2⟩

end Site

/-- **C07**: for every table of responses, every area and every normalisation, the coefficient
matrix and the right hand side are the same for sparse and dense equations. -/
theorem C07_same_system {events : Dict String EvRes} (hR : ∀ e ∈ events, e.2.R.WF) (i : ℕ)
    (area : Finset String) (sel : StationSel) (response : Response) :
    bandSystem true events i area sel response = bandSystem false events i area sel response := by
  have hsim := sim_loop events.length (nStations events i) sel area (obsOf events i area)
    (fun o ho => (obsOf_lt ho).1) (fun o ho => (obsOf_lt ho).2) (obsOf_pairwise hR i area)
  have hinv := inv_loop true events.length (nStations events i) sel area (obsOf events i area)
    (fun o ho => (obsOf_lt ho).1) (fun o ho => (obsOf_lt ho).2) (obsOf_pairwise hR i area)
  rw [← loop_eq, ← loop_eq] at hsim
  rw [← loop_eq] at hinv
  unfold bandSystem
  simp only
  rw [← hsim.used]
  by_cases hn : (loop true events i area sel).used.length = 0
  · simp only [hn, if_true]; rfl
  · cases hr : responseAt response i with
    | error e => simp [hn, bind, Except.bind, pure, Except.pure]
    | ok r =>
      simp only [hn, bind, Except.bind, pure, Except.pure, if_false]
      obtain ⟨rows, r1, r2⟩ := hsim.rows
      have hgn : GoodRow events.length (Dict.mapVals (fun x => x /
          ((loop true events i area sel).used.length : ℝ)) (loop true events i area sel).normA) := by
        constructor
        · have := hinv.normWF
          rw [← Dict.keys, Dict.keys_mapVals]; exact this
        · intro p hp
          unfold Dict.mapVals at hp
          obtain ⟨q, hq, rfl⟩ := List.mem_map.1 hp
          exact hinv.normLt q hq
      have q1 := rep_construct r1 _ ((loop true events i area sel).normB /
        (loop true events i area sel).used.length + log r) hgn
      have q2 := rep_construct r2 _ ((loop true events i area sel).normB /
        (loop true events i area sel).used.length + log r) hgn
      rw [← hsim.normA, ← hsim.normB, q1.mat, q1.b, q2.mat, q2.b]

/-- **C07**: the matrix has one column for each event, one row for each right hand side. -/
theorem C07_shape {us : Bool} {events : Dict String EvRes} (hR : ∀ e ∈ events, e.2.R.WF) {i : ℕ}
    {area : Finset String} (hdata : ∀ s ∈ area, ∃ e ∈ events, (respOf e.2 s i).isSome)
    {sel : StationSel} {response : Response} {A : List (List ℝ)} {b : List ℝ}
    (h : bandSystem us events i area sel response = .ok (A, b)) :
    A.length = b.length ∧ ∀ row ∈ A, row.length = events.length := by
  obtain ⟨r, _, _, h1, h2, _⟩ := bandSystem_spec hR (fun s hs => pts_ne_nil (hdata s hs)) h
  exact ⟨h1, h2⟩

/-- **C07**: with one solver for both representations, the aligned results (or the error) are
the same whatever `use_sparse` is. -/
theorem C07_same_result {orc : Oracle} {rlm : List ℝ → ℝ × ℝ}
    {solve : ℕ → List (List ℝ) → List ℝ → List ℝ} {results : Results} {sel : StationSel}
    {response : Response} {smm : Option Method} {smo : Option Opts} {ignore : Option (List String)}
    (hst : ∀ e ∈ resultsOf results.events, e.2.R.WF) :
    align orc rlm (fun _ => solve) results sel response true smm smo ignore =
    align orc rlm (fun _ => solve) results sel response false smm smo ignore := by
  have hR : RWF (sortedEvents results.events) := fun e he => hst e (mem_sortedEvents.1 he)
  have hband : ∀ us us' i, alignBand (fun _ => solve) us (sortedEvents results.events) i sel
      response ignore = alignBand (fun _ => solve) us' (sortedEvents results.events) i sel
      response ignore := by
    intro us us' i
    unfold alignBand
    cases largest (findAreas (sortedEvents results.events) i ignore) with
    | none => rfl
    | some a =>
      have := C07_same_system hR i a sel response
      cases us <;> cases us' <;> simp only [this]
  have : alignEvents (fun _ => solve) (sortedEvents results.events) sel response true ignore =
      alignEvents (fun _ => solve) (sortedEvents results.events) sel response false ignore := by
    unfold alignEvents
    simp only [hband _ false]
  unfold align
  rw [this]

/-- A system of three equations for two events: the systems exist. -/
example : ∃ A b, bandSystem true (sortedEvents demo.events) 0 {"A", "B", "C"} .all (.scalar 1) =
    .ok (A, b) ∧ bandSystem false (sortedEvents demo.events) 0 {"A", "B", "C"} .all (.scalar 1) =
    .ok (A, b) := by
  have hR : RWF (sortedEvents demo.events) := proper_rwf demo_proper
  have hd : ∀ s ∈ ({"A", "B", "C"} : Finset String), pts (sortedEvents demo.events) 0 s ≠ [] := by
    intro s hs
    apply pts_ne_nil
    simp only [Finset.mem_insert, Finset.mem_singleton] at hs
    simp only [mem_sortedEvents]
    rcases hs with rfl | rfl | rfl
    · exact ⟨("e2", ⟨[.num 3, .none], [("A", [.num 1, .none]), ("B", [.num 2, .none])], []⟩),
        by simp [demo, demoEvents, resultsOf], by simp [respOf, Dict.get?_cons, numAt]⟩
    · exact ⟨("e2", ⟨[.num 3, .none], [("A", [.num 1, .none]), ("B", [.num 2, .none])], []⟩),
        by simp [demo, demoEvents, resultsOf], by simp [respOf, Dict.get?_cons, numAt]⟩
    · exact ⟨("e1", ⟨[.num 5, .num 7], [("B", [.num 4, .num 1]), ("C", [.num 6, .nan])], []⟩),
        by simp [demo, demoEvents, resultsOf], by simp [respOf, Dict.get?_cons, numAt]⟩
  obtain ⟨⟨A, b⟩, h⟩ := bandSystem_total (us := true) hR hd (response := .scalar 1) (r := 1) rfl
    (sel := .all) ⟨"A", by simp [pinned, selected]⟩
  exact ⟨A, b, h, by rw [← C07_same_system hR]; exact h⟩

end Qopen
