import Verif.Props.SiteArea
import Verif.Lemmas.SiteTotal

/-!
# The alignment succeeds on complete results (C79); a result dictionary that meets the
hypotheses of C01–C12
-/

namespace Qopen

open Real Spec Source Site

variable {orc : Oracle} {rlm : List ℝ → ℝ × ℝ}
  {solve : Bool → ℕ → List (List ℝ) → List ℝ → List ℝ} {results out : Results}
  {response : Response} {us : Bool} {smo : Option Opts}

/-! ## C79 -/

/-- **C79**: with the default selection of stations, the alignment returns a result for every
complete result dictionary, provided one response is given for all bands or one for each band,
no source model is to be fitted and no frequency is zero. -/
theorem C79_alignment_succeeds {n : ℕ} (hc : CompleteResults results.events n)
    (hr : ∀ i < n, (requested response i).isSome) (hsmm : results.config.smm = none)
    (hf : results.freq.length ≤ n) (hf0 : ∀ f ∈ results.freq, f ≠ 0) :
    ∃ out, align orc rlm solve results .all response us none smo none = .ok out := by
  apply align_total hc.stations hc.some_event hc.energies hc.responses
  · intro i hi
    obtain ⟨r, h⟩ := Option.isSome_iff_exists.1 (hr i hi)
    exact ⟨r, (responseAt_iff response i r).2 h⟩
  · intro i _ a ha
    have hR : RWF (sortedEvents results.events) := fun e he => hc.stations e (mem_sortedEvents.1 he)
    have := (isArea_of_mem hR (largest_some ha).1).nonempty
    obtain ⟨s, hs⟩ := this
    exact ⟨s, Finset.mem_filter.2 ⟨hs, rfl⟩⟩
  · intro i _ e he s hs
    exact ⟨s, by intro l h; simp at h, e, he, hs⟩
  · exact hsmm
  · exact hf
  · exact hf0

/-- **C79**: without any event with results the alignment raises a `TypeError`. -/
theorem C79_no_events {sel : StationSel} {smm : Option Method} {ignore : Option (List String)}
    (h : resultsOf results.events = []) :
    align orc rlm solve results sel response us smm smo ignore = .error .typeError := by
  have : sortedEvents results.events = [] := by
    have h1 := (sortedEvents_spec results.events).1
    rw [h] at h1
    exact h1.eq_nil
  unfold align
  rw [this]
  rfl

/-! ## A concrete result dictionary -/

/-- Four events, one without results; stations `A`, `B`, `C` are linked by two events, `X` is
not linked to them; two bands. -/
def demoEvents : Dict String (Option EvRes) :=
  [("e2", some ⟨[.num 3, .none], [("A", [.num 1, .none]), ("B", [.num 2, .none])], []⟩),
   ("e1", some ⟨[.num 5, .num 7], [("B", [.num 4, .num 1]), ("C", [.num 6, .nan])], []⟩),
   ("e0", none),
   ("e3", some ⟨[.num 2, .num 2], [("X", [.num 9, .none])], []⟩)]

def demo : Results := { events := demoEvents, freq := [1, 2], R := none, config := {} }

theorem demo_proper : ProperResults demo.events := by
  have hres : resultsOf demo.events =
      [("e2", ⟨[.num 3, .none], [("A", [.num 1, .none]), ("B", [.num 2, .none])], []⟩),
       ("e1", ⟨[.num 5, .num 7], [("B", [.num 4, .num 1]), ("C", [.num 6, .nan])], []⟩),
       ("e3", ⟨[.num 2, .num 2], [("X", [.num 9, .none])], []⟩)] := rfl
  refine ⟨by simp [demo, demoEvents, Dict.WF, Dict.keys], ?_, ?_, ?_⟩
  · rw [hres]
    simp [Dict.WF, Dict.keys]
  · rw [hres]
    intro e he s i x h
    simp only [List.mem_cons, List.not_mem_nil, or_false] at he
    rcases he with rfl | rfl | rfl <;>
    · simp only [respOf, Dict.get?_cons] at h
      split_ifs at h <;> rcases i with _ | _ | i <;> simp [numAt, Dict.get?] at h <;> linarith
  · rw [hres]
    intro e he s i h
    simp only [List.mem_cons, List.not_mem_nil, or_false] at he
    rcases he with rfl | rfl | rfl <;>
    · simp only [respOf, Dict.get?_cons] at h
      split_ifs at h <;> rcases i with _ | _ | i <;> simp [numAt, Dict.get?, energyOf] at h ⊢

theorem demo_complete : CompleteResults demo.events 2 := by
  have hres : resultsOf demo.events =
      [("e2", ⟨[.num 3, .none], [("A", [.num 1, .none]), ("B", [.num 2, .none])], []⟩),
       ("e1", ⟨[.num 5, .num 7], [("B", [.num 4, .num 1]), ("C", [.num 6, .nan])], []⟩),
       ("e3", ⟨[.num 2, .num 2], [("X", [.num 9, .none])], []⟩)] := rfl
  refine ⟨by rw [hres]; simp, demo_proper.stations, ?_, ?_⟩
  · rw [hres]; simp
  · rw [hres]
    intro e he p hp
    simp only [List.mem_cons, List.not_mem_nil, or_false] at he
    rcases he with rfl | rfl | rfl <;>
    · simp only [List.mem_cons, List.not_mem_nil, or_false] at hp
      rcases hp with rfl | rfl <;> rfl

/-- The example meets the hypotheses of C79. -/
theorem demo_succeeds (orc : Oracle) (rlm : List ℝ → ℝ × ℝ) (us : Bool) :
    ∃ out, align orc rlm (fun _ => someSolver) demo .all (.scalar 1) us none none none = .ok out :=
  C79_alignment_succeeds demo_complete (fun _ _ => rfl) rfl (by simp [demo]) (by simp [demo])

/-- Hypotheses of C01, C02, C04, C05, C08, C09, C10: proper results, a run that returns, a solver
that meets its contract, data in band 0. -/
example (orc : Oracle) (rlm : List ℝ → ℝ × ℝ) (us : Bool) :
    ProperResults demo.events ∧
    (∃ out, align orc rlm (fun _ => someSolver) demo .all (.scalar 1) us none none none = .ok out) ∧
    (∀ b : Bool, IsLsqSolver ((fun _ => someSolver) b)) ∧
    (∃ e ∈ resultsOf demo.events, ∃ s, (respOf e.2 s 0).isSome) :=
  ⟨demo_proper, demo_succeeds orc rlm us, fun _ => someSolver_spec,
    ("e3", ⟨[.num 2, .num 2], [("X", [.num 9, .none])], []⟩),
    by simp [demo, demoEvents, resultsOf], "X", by simp [respOf, Dict.get?_cons, numAt]⟩

open Classical in
/-- What C02 says for the example: the geometric mean over stations is one in band 0. -/
example (orc : Oracle) (rlm : List ℝ → ℝ × ℝ) (us : Bool) (out : Results)
    (h : align orc rlm (fun _ => someSolver) demo .all (.scalar 1) us none none none = .ok out) :
    let st := stationsWith (resultsOf out.events) 0
    (∑ s ∈ st, meanLog (series (resultsOf out.events) 0 s)) / st.card = 0 := by
  intro st
  obtain ⟨_, h2⟩ := C02_pins_mean_response demo_proper h (fun _ => someSolver_spec) (i := 0)
    ⟨("e3", ⟨[.num 2, .num 2], [("X", [.num 9, .none])], []⟩),
      by simp [demo, demoEvents, resultsOf], "X", by simp [respOf, Dict.get?_cons, numAt]⟩
    (by intro n hn; simp at hn) (by intro r hr; simp [requested] at hr; linarith)
  have h4 : (stationsWith (resultsOf out.events) 0).filter (IsNamed .all) =
      stationsWith (resultsOf out.events) 0 := Finset.filter_true_of_mem (fun _ _ => trivial)
  rw [h4] at h2
  simp only [requested, Option.some.injEq] at h2
  have h3 := h2.symm
  rwa [exp_eq_one_iff] at h3

/-- The example is consistent in the sense of C03: with factor 2 for event `e2` the stations
report 2, 4 and 6. -/
example : ∀ e ∈ resultsOf demo.events, ∀ s R, respOf e.2 s 0 = some R →
    R * (if e.1 = "e2" then 2 else 1) =
      if s = "A" then 2 else if s = "B" then 4 else if s = "C" then 6 else 9 := by
  have hres : resultsOf demo.events =
      [("e2", ⟨[.num 3, .none], [("A", [.num 1, .none]), ("B", [.num 2, .none])], []⟩),
       ("e1", ⟨[.num 5, .num 7], [("B", [.num 4, .num 1]), ("C", [.num 6, .nan])], []⟩),
       ("e3", ⟨[.num 2, .num 2], [("X", [.num 9, .none])], []⟩)] := rfl
  rw [hres]
  intro e he s R h
  simp only [List.mem_cons, List.not_mem_nil, or_false] at he
  rcases he with rfl | rfl | rfl <;>
  · simp only [respOf, Dict.get?_cons] at h
    split_ifs at h with h1 h2 <;> simp [numAt, Dict.get?] at h <;> subst_vars <;>
      simp <;> norm_num

end Qopen
