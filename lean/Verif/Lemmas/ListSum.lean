import Mathlib.Algebra.Order.BigOperators.Group.List
import Mathlib.Algebra.BigOperators.Ring.List
import Mathlib.Data.Real.Basic
import Mathlib.Tactic.Linarith
import Mathlib.Tactic.Ring
import Mathlib.Tactic.Positivity

/-! Sums over lists of reals. -/

namespace Qopen

theorem sum_nonneg' {l : List ℝ} (h : ∀ x ∈ l, 0 ≤ x) : 0 ≤ l.sum := List.sum_nonneg h

theorem sum_map_nonneg {α : Type} {l : List α} {f : α → ℝ} (h : ∀ x ∈ l, 0 ≤ f x) :
    0 ≤ (l.map f).sum := by
  apply List.sum_nonneg
  intro y hy
  obtain ⟨x, hx, rfl⟩ := List.mem_map.1 hy
  exact h x hx

theorem le_sum_map {α : Type} {l : List α} {f : α → ℝ} (h : ∀ x ∈ l, 0 ≤ f x) {a : α}
    (ha : a ∈ l) : f a ≤ (l.map f).sum := by
  apply List.single_le_sum
  · intro y hy
    obtain ⟨x, hx, rfl⟩ := List.mem_map.1 hy
    exact h x hx
  · exact List.mem_map.2 ⟨a, ha, rfl⟩

theorem sum_map_pos {α : Type} {l : List α} {f : α → ℝ} (h : ∀ x ∈ l, 0 ≤ f x) {a : α}
    (ha : a ∈ l) (hp : 0 < f a) : 0 < (l.map f).sum :=
  lt_of_lt_of_le hp (le_sum_map h ha)

theorem sum_map_le_sum {α : Type} {l : List α} {f g : α → ℝ} (h : ∀ x ∈ l, f x ≤ g x) :
    (l.map f).sum ≤ (l.map g).sum := by
  induction l with
  | nil => simp
  | cons a l ih =>
    simp only [List.map_cons, List.sum_cons]
    have h1 := h a (by simp)
    have h2 := ih (fun x hx => h x (by simp [hx]))
    linarith

theorem sum_map_congr {α : Type} {l : List α} {f g : α → ℝ} (h : ∀ x ∈ l, f x = g x) :
    (l.map f).sum = (l.map g).sum := by rw [List.map_congr_left h]

theorem sum_map_add' {α : Type} (l : List α) (f g : α → ℝ) :
    (l.map (fun x => f x + g x)).sum = (l.map f).sum + (l.map g).sum := by
  induction l with
  | nil => simp
  | cons a l ih => simp only [List.map_cons, List.sum_cons, ih]; ring

theorem sum_map_sub' {α : Type} (l : List α) (f g : α → ℝ) :
    (l.map (fun x => f x - g x)).sum = (l.map f).sum - (l.map g).sum := by
  induction l with
  | nil => simp
  | cons a l ih => simp only [List.map_cons, List.sum_cons, ih]; ring

theorem sum_map_mul_left' {α : Type} (l : List α) (f : α → ℝ) (c : ℝ) :
    (l.map (fun x => c * f x)).sum = c * (l.map f).sum := by
  induction l with
  | nil => simp
  | cons a l ih => simp only [List.map_cons, List.sum_cons, ih]; ring

theorem sum_map_mul_right' {α : Type} (l : List α) (f : α → ℝ) (c : ℝ) :
    (l.map (fun x => f x * c)).sum = (l.map f).sum * c := by
  induction l with
  | nil => simp
  | cons a l ih => simp only [List.map_cons, List.sum_cons, ih]; ring

theorem sum_map_div' {α : Type} (l : List α) (f : α → ℝ) (c : ℝ) :
    (l.map (fun x => f x / c)).sum = (l.map f).sum / c := by
  simp only [div_eq_mul_inv, sum_map_mul_right']

theorem sum_map_const' {α : Type} (l : List α) (c : ℝ) :
    (l.map (fun _ => c)).sum = l.length * c := by
  simp

theorem sum_map_neg' {α : Type} (l : List α) (f : α → ℝ) :
    (l.map (fun x => - f x)).sum = - (l.map f).sum := by
  induction l with
  | nil => simp
  | cons a l ih => simp only [List.map_cons, List.sum_cons, ih]; ring

theorem sum_map_eq_zero {α : Type} {l : List α} {f : α → ℝ} (h : ∀ x ∈ l, 0 ≤ f x)
    (hs : (l.map f).sum = 0) : ∀ x ∈ l, f x = 0 := by
  intro x hx
  have := le_sum_map h hx
  exact le_antisymm (by linarith) (h x hx)

end Qopen
