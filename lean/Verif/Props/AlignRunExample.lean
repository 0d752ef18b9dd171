import Verif.Props.AlignRun
import Verif.Props.UselessSeparate
import Verif.Props.Accuracy

/-!
# Examples for C154
-/

namespace Qopen

open Real Spec Util Tr Energy InvertFb Window Catalog Freqs Source Invert Wrapper Site Collect AlignRun

namespace AlignRunExample

open JobsExample TablesExample

theorem order : orderEvents [exEvent] = .ok [exEvent] := by
  have ho : getOrigin exEvent = .ok ⟨0, 0, 0, some 1, []⟩ := rfl
  simp [orderEvents, timeEventPairs, ho, sortEvents, bind, Except.bind, pure, Except.pure]

section
open UselessExample

/-- The result of a separate inversion is aligned. -/
example (rlm : List ℝ → ℝ × ℝ) (solve : Bool → ℕ → List (List ℝ) → List ℝ → List ℝ) : ∃ orc w out,
    invertWrapper rlm (fun evs => invert env (exCfg (some 1)) 1 [] evs) (exCfg (some 1)).codaNorm.isSome false
      .robust [exEvent] = .ok (some w) ∧
    alignRun orc rlm solve {} (some w) .all (.scalar 1) true none none none = .ok out := by
  obtain ⟨orc, -, horc⟩ := exists_isSearch (fun _ _ => [])
  obtain ⟨w, h⟩ := separateRun rlm
  obtain ⟨out, h'⟩ := (C154_which_runs (orc := orc) (solve := solve) (us := true) (smm := none) (smo := none)
    (config := {}) (response := .scalar 1) (schedule := fun _ => []) (cpus := 1) setOrder (by simp) UselessExample.bands
    (by norm_num) (fun _ hne => absurd rfl hne) (by simp [exCfg]) h horc (by simp [requested]) (by simp)).2
    ⟨rfl, rfl, by simp [exCfg], rfl⟩
  exact ⟨orc, w, out, h, h'⟩

/-- The result of a simultaneous inversion is not. -/
example (orc : Oracle) (rlm : List ℝ → ℝ × ℝ) (solve : Bool → ℕ → List (List ℝ) → List ℝ → List ℝ) : ∃ w,
    invertWrapper rlm (fun evs => invert env (exCfg (some 1)) 1 [] evs) (exCfg (some 1)).codaNorm.isSome true
      .robust [exEvent] = .ok (some w) ∧
    alignRun orc rlm solve {} (some w) .all (.scalar 1) true none none none = .error .keyError := by
  obtain ⟨res, hr⟩ := run
  have h1 : ∃ w, invertWrapper rlm (fun evs => invert env (exCfg (some 1)) 1 [] evs)
      (exCfg (some 1)).codaNorm.isSome true .robust [exEvent] = .ok (some w) := by
    unfold invertWrapper
    rw [order]
    simp only [bind, Except.bind, if_true, simultaneously, hr]
    exact ⟨_, rfl⟩
  obtain ⟨w, h⟩ := h1
  refine ⟨w, h, ?_⟩
  rw [C154_simultaneous (schedule := fun _ => []) (cpus := 1) (by simp) UselessExample.bands
    (fun _ hne => absurd rfl hne) h, if_pos (by rfl : (exCfg (some 1)).codaNorm = none)]

end

section
open TruthChainExample SourceNearExample

/-- The result of the command `source` is not. -/
example (orc : Oracle) (rlm : List ℝ → ℝ × ℝ) (solve : Bool → ℕ → List (List ℝ) → List ℝ → List ℝ) : ∃ w,
    invertWrapper rlm (fun evs => invert env srcCfg 1 [] evs) srcCfg.codaNorm.isSome false
      .plain [exEvent] = .ok (some w) ∧
    alignRun orc rlm solve {} (some w) .all (.scalar 1) true none none none = .error .keyError := by
  obtain ⟨res, hr⟩ := result
  have hti : ¬ Tie [exEvent] := by
    rintro ⟨a, ha, b, hb, hab, -⟩
    simp at ha hb
    exact hab (ha.trans hb.symm)
  obtain ⟨o, p1, p2, -⟩ := Total.separate_total (cfg := srcCfg) (rlm := rlm) (mean := .plain) set_order
    (events := [exEvent]) (by simp)
    freqs (cpus := 1) (schedule := fun _ => []) (fun _ hne => absurd rfl hne) rfl hti ⟨exEvent, by simp, rfl⟩
    (fun ev hev _ => by simp at hev; subst hev; exact ⟨rfl, _, hr⟩)
  obtain ⟨w, rfl⟩ : ∃ w, o = some w := by
    cases o with
    | some w => exact ⟨w, rfl⟩
    | none =>
      have := p2.1 rfl exEvent (by simp) rfl
      simp only [hr] at this
      simp at this
  exact ⟨w, p1, C154_no_sites_or_energies (cfg := srcCfg) (schedule := fun _ => []) (cpus := 1) (by simp) freqs
    (fun _ hne => absurd rfl hne) (.inl rfl) p1⟩

end

end AlignRunExample

end Qopen
