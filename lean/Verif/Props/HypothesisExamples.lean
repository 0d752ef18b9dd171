import Verif.Props.OtherBandsSeparate
import Verif.Props.OtherBandsVelocity

/-!
# Cases which meet the hypotheses of C18, C24, C25 and C26

These theorems stand in files which come before the examples of complete inversions.
-/

namespace Qopen

open Real Spec Util Catalog Freqs Source Invert Wrapper Collect Total

namespace HypothesisExamples

section

open JobsExample

/-- **C24**: nine bands and three workers, which finish in reversed order. -/
example : ∃ r, r.length = 9 ∧
    runPool exEnv (exCfg (some 3)) exArgs [exStream 1] exBands 3 (List.range 9).reverse = .ok r ∧
    runPool exEnv (exCfg (some 3)) exArgs [exStream 1] exBands 3 (List.range 9) = .ok r ∧
    runSequential exEnv (exCfg (some 3)) exArgs [exStream 1] exBands = .ok r := by
  have h9 : exBands.length = 9 := by simp [exBands]
  have hl : (chunks (chunkSize exBands.length 3) exBands).length = 9 := by
    rw [chunkSize_one (by omega) (by omega), chunks_one, List.length_map, h9]
  obtain ⟨r, hr⟩ : ∃ r, mapExc (runBand exEnv (exCfg (some 3)) exArgs [exStream 1]) exBands = .ok r :=
    Site.mapExc_total (fun b h => ex_band _ _ (ex_bands b h).1 (ex_bands b h).2)
  have hs : runSequential exEnv (exCfg (some 3)) exArgs [exStream 1] exBands = .ok r := by
    rw [C24_sequential]; exact hr
  have h1 := (C24_any_number_of_workers_partial exEnv (exCfg (some 3)) exArgs [exStream 1] exBands 3 (by omega)
    (schedule := (List.range 9).reverse) (by rw [hl]; exact List.reverse_perm _) r).2 hs
  refine ⟨r, by rw [← (mapExc_ok.1 hr).length_eq, h9], h1, ?_, hs⟩
  exact C24_schedule exEnv (exCfg (some 3)) exArgs [exStream 1] exBands 3 (by rw [hl]; exact List.reverse_perm _)
    (by rw [hl]) h1

end

section

open BandsVelocityExample AgainExample Window InvertFb

/-- **C18**: two records, one of which is rejected. -/
example : ∃ res trs v0 sel, invertFb lib InvertExample.rankWls AgainExample.G (fun _ => .ok 1) (wb (0.2, 0.3)) inv
      [sA, slow] = .ok (some res) ∧ energies lib (wb (0.2, 0.3)) [sA, slow] = .ok trs ∧ trs.length = 2 ∧
    (sel.map Prod.fst).Sublist trs ∧ sel ≠ [] ∧ (∀ q ∈ sel, Accepts lib (wb (0.2, 0.3)) v0 q.1 q.2) ∧
    solveBand InvertExample.rankWls AgainExample.G (fun _ => .ok 1) (fullCfg (wb (0.2, 0.3)) inv v0)
      (bandOf (wb (0.2, 0.3)).bulkWindow.isSome (sel.map Prod.snd)) = .ok (some res) := by
  obtain ⟨res, h, -⟩ := low
  obtain ⟨trs, v0, sel, h1, h2, h3, h4, h5, h6, h7, h8, h9⟩ := C18_inversion_of_accepted_pairs BandsVelocityExample.pairs_nodup h
  refine ⟨res, trs, v0, sel, h, h1, ?_, h4, h7, h5, h9⟩
  rw [energies_low, Except.ok.injEq] at h1
  rw [← h1]
  rfl

end

section

open JobsExample TablesExample OtherBandsExample

/-- **C25**, **C26**: a catalogue with an event without origin, which is left out. -/
example (rlm : List ℝ → ℝ × ℝ) : ∃ w, invertWrapper rlm (fun evs => invert exEnv (exCfg (some 1)) 1 [] evs) false false
      .plain [WrapperExample.noOrigin, exEvent] = .ok (some w) ∧ w.events.keys = ["e"] ∧
    (∃ m, w.error = some m ∧ BandMeans (rowsWith w.events "error") m) := by
  have own : OwnCopies (exCfg (some 1)) [(0.25, one)] 1 [] := ⟨fun hne => absurd rfl hne, Or.inl rfl⟩
  have hset : IsSetOrder exEnv.setOrder := fun l => ⟨List.nodup_dedup l, fun _ => List.mem_dedup⟩
  have hno : originTime WrapperExample.noOrigin = none := rfl
  have hti : ¬ Tie [WrapperExample.noOrigin, exEvent] := by
    rintro ⟨a, ha, b, hb, hab, hs, he⟩
    simp only [List.mem_cons, List.not_mem_nil, or_false] at ha hb
    rcases ha with rfl | rfl <;> rcases hb with rfl | rfl
    · exact hab rfl
    · simp [hno] at hs
    · rw [he] at hs; simp [hno] at hs
    · exact hab rfl
  have hid : ([WrapperExample.noOrigin, exEvent].map getEventid).Nodup := by
    have : getEventid WrapperExample.noOrigin = "e0" := by decide
    simp [this, exId]
  obtain ⟨res, h⟩ := exInvert
  obtain ⟨o, p1, p2, p3⟩ := separate_total (rlm := rlm) (mean := .plain) hset
    (events := [WrapperExample.noOrigin, exEvent]) (hid.of_map _) freqs_one (schedule := fun _ => []) (fun _ => own.1) rfl hti
    ⟨exEvent, by simp, rfl⟩ (fun ev hev ho => by
      simp only [List.mem_cons, List.not_mem_nil, or_false] at hev
      rcases hev with rfl | rfl
      · simp [hno] at ho
      · exact ⟨rfl, _, h⟩)
  obtain ⟨w, rfl⟩ : ∃ w, o = some w := by
    cases o with
    | some w => exact ⟨w, rfl⟩
    | none => exact absurd ((p2.1 rfl) exEvent (by simp) rfl) (by simp only [h]; simp)
  refine ⟨w, p1, ?_, ?_⟩
  · obtain ⟨order, hord, -, hsep⟩ := C25_order_partial hid p1
    obtain ⟨outs, h1, -, h2⟩ := hsep rfl
    have ho : order = [exEvent] := by
      have := hord.perm
      rw [List.filter_cons_of_neg (by simp [hno]), List.filter_cons_of_pos (by rfl), List.filter_nil] at this
      exact List.perm_singleton.1 this
    subst ho
    cases h1 with
    | cons ha hb =>
      cases hb
      rw [h, Except.ok.injEq] at ha
      rw [h2 w rfl, ← ha]
      simp [exId]
  · rcases (C26_means_partial p1).1 "error" w.error (Or.inr (Or.inr ⟨rfl, rfl⟩)) with ⟨-, hx⟩ | ⟨-, m, hm⟩
    · obtain ⟨e, he⟩ := List.exists_mem_of_ne_nil _ (p3 w rfl).some_event
      obtain ⟨l, hl, -⟩ := ((p3 w rfl).complete e he).error
      rw [hx e he] at hl
      simp at hl
    · exact ⟨m, hm⟩

end

end HypothesisExamples

end Qopen
