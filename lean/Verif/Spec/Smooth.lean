import Verif.Model.Util

/-!
# Specification: smoothing

What it means to extend a signal over its borders and to smooth it with a centred window.
-/

namespace Qopen.Spec

open Util

/-- The signal `x` continued over its borders, as documented in `smooth`:
zeros; reflected (on the left the border sample is the mirror, on the right the
border sample is repeated); the last valid value.  Without border handling the
value outside the signal is irrelevant. -/
def extend (b : Border) (x : List ℝ) (i : ℤ) : ℝ :=
  if 0 ≤ i ∧ i < x.length then x.getD i.toNat 0
  else match b with
    | .zeros => 0
    | .reflect => if i < 0 then x.getD (-i).toNat 0 else x.getD (2 * x.length - 1 - i).toNat 0
    | .clip => if i < 0 then x.getD 0 0 else x.getD (x.length - 1) 0
    | .noBorder => 0

/-- `ω` are averaging weights for a window of `M` samples: non-negative, symmetric, sum one. -/
structure IsWeights (ω : ℕ → ℝ) (M : ℕ) : Prop where
  nonneg : ∀ k < M, 0 ≤ ω k
  symm : ∀ k < M, ω (M - 1 - k) = ω k
  sum_one : ∑ k ∈ Finset.range M, ω k = 1

/-- Value at sample `j` of the signal smoothed with weights `ω`: the window covers the samples
`j - (M-1)/2, ..., j + M/2`. -/
def smoothedAt (ω : ℕ → ℝ) (M : ℕ) (b : Border) (x : List ℝ) (j : ℕ) : ℝ :=
  ∑ k ∈ Finset.range M, ω k * extend b x ((j : ℤ) + k - ((M - 1) / 2 : ℕ))

/-- `k` is the integer next to `x`; of two equally distant ones the even one. -/
def NearestInt (x : ℝ) (k : ℤ) : Prop := |x - k| < 1 / 2 ∨ |x - k| = 1 / 2 ∧ Even k

end Qopen.Spec
