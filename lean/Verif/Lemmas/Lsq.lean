import Verif.Spec.Site
import Mathlib.Analysis.InnerProductSpace.Projection.Minimal
import Mathlib.Analysis.InnerProductSpace.PiL2
import Mathlib.Topology.Algebra.Module.FiniteDimension

/-!
# Least-squares minimisers exist

So the contracts `IsLsqSolver` and `IsOls` can be met.
-/

namespace Qopen

open Spec

theorem dot_eq_sum (N : ℕ) (row q : List ℝ) (h : row.length ≤ N) :
    (List.zipWith (· * ·) row q).sum = ∑ k : Fin N, row.getD k 0 * q.getD k 0 := by
  induction N generalizing row q with
  | zero =>
    have : row = [] := List.length_eq_zero_iff.1 (by omega)
    subst this; simp
  | succ N ih =>
    rw [Fin.sum_univ_succ]
    cases row with
    | nil => simp
    | cons a row =>
      cases q with
      | nil => simp
      | cons b q =>
        simp only [List.length_cons] at h
        simp only [List.zipWith_cons_cons, List.sum_cons, ih row q (by omega), Fin.val_zero,
          List.getD_cons_zero, Fin.val_succ, List.getD_cons_succ]

theorem exists_min (N : ℕ) (y : List ℝ) (X : List (List ℝ)) (hX : ∀ r ∈ X, r.length ≤ N) :
    ∃ p : List ℝ, p.length = N ∧ ∀ q, sse y X p ≤ sse y X q := by
  let L := y.zip X
  let T : (Fin N → ℝ) →ₗ[ℝ] EuclideanSpace ℝ (Fin L.length) :=
    { toFun := fun c => WithLp.toLp 2 (fun j => ∑ k : Fin N, (L[j].2).getD k 0 * c k)
      map_add' := by
        intro a b
        ext j
        simp only [Pi.add_apply, mul_add, Finset.sum_add_distrib, PiLp.add_apply]
      map_smul' := by
        intro t a
        ext j
        simp only [Pi.smul_apply, smul_eq_mul, RingHom.id_apply, PiLp.smul_apply, Finset.mul_sum]
        apply Finset.sum_congr rfl
        intro k _
        ring }
  let u : EuclideanSpace ℝ (Fin L.length) := WithLp.toLp 2 (fun j => L[j].1)
  have hcomp : IsComplete (LinearMap.range T : Set (EuclideanSpace ℝ (Fin L.length))) :=
    Submodule.complete_of_finiteDimensional _
  obtain ⟨v, ⟨c, rfl⟩, hv⟩ := Submodule.exists_norm_eq_iInf_of_complete_subspace _ hcomp u
  have hsse : ∀ q : List ℝ, sse y X q = ‖u - T (fun k => q.getD k 0)‖ ^ 2 := by
    intro q
    rw [EuclideanSpace.real_norm_sq_eq]
    have e1 : sse y X q = (L.map (fun p => (p.1 - (List.zipWith (· * ·) p.2 q).sum) ^ 2)).sum := by
      simp only [sse, L, List.map_zip_eq_zipWith]
      rfl
    rw [e1, ← List.sum_ofFn, ← List.ofFn_getElem_eq_map]
    congr 2
    funext j
    have hm : (L[j]).2.length ≤ N := by
      apply hX
      have : L[j] ∈ L := List.getElem_mem _
      exact (List.of_mem_zip (a := L[j].1) (b := L[j].2) this).2
    simp only [Fin.getElem_fin] at hm ⊢
    rw [dot_eq_sum N _ q hm]
    rfl
  refine ⟨List.ofFn c, by simp, ?_⟩
  intro q
  rw [hsse, hsse]
  have hc : (fun k : Fin N => (List.ofFn c).getD k 0) = c := by
    funext k
    simp [List.getD_eq_getElem?_getD]
  rw [hc]
  have hle : ‖u - T c‖ ≤ ‖u - T (fun k => q.getD k 0)‖ := by
    rw [hv]
    exact ciInf_le ⟨0, by rintro _ ⟨w, rfl⟩; positivity⟩
      (⟨T (fun k => q.getD k 0), ⟨_, rfl⟩⟩ : LinearMap.range T)
  gcongr

open Classical in
/-- A least-squares solver. -/
noncomputable def someSolver (n : ℕ) (A : List (List ℝ)) (b : List ℝ) : List ℝ :=
  if h : ∀ row ∈ A, row.length ≤ n then (exists_min n b A h).choose else []

theorem someSolver_spec : IsLsqSolver someSolver := by
  intro n A b h _
  have h' : ∀ row ∈ A, row.length ≤ n := fun row hr => (h row hr).le
  have := (exists_min n b A h').choose_spec
  rw [someSolver, dif_pos h']
  exact ⟨this.1, fun c _ => this.2 c⟩

theorem exists_isOls : ∃ ols, IsOls ols := by
  have : ∀ (y : List ℝ) (X : List (List ℝ)), ∃ p, ∀ q, sse y X p ≤ sse y X q := by
    intro y X
    obtain ⟨p, _, hp⟩ := exists_min ((X.map List.length).sum) y X (by
      intro r hr
      exact List.single_le_sum (by simp) _ (List.mem_map.2 ⟨r, hr, rfl⟩))
    exact ⟨p, hp⟩
  choose ols h using this
  exact ⟨ols, h⟩

end Qopen
