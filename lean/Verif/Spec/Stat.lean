import Verif.Py.Basic
import Mathlib.Analysis.SpecialFunctions.Pow.Real

/-!
# Specification: statistics

Textbook definitions, independent of the model of `util.py`.
-/

namespace Qopen.Spec

open Real

/-- The values that take part in a geometric mean: positive numbers. -/
noncomputable def positives (data : List Cell) : List ℝ :=
  data.filterMap (fun c => match c with
    | .num x => if 0 < x then some x else none
    | _ => none)

/-- The same together with weights. -/
noncomputable def positivesW (data : List Cell) (w : List ℝ) : List (ℝ × ℝ) :=
  (data.zip w).filterMap (fun p => match p.1 with
    | .num x => if 0 < x then some (x, p.2) else none
    | _ => none)

/-- Geometric mean `(x₁ ⋯ xₙ)^(1/n)`. -/
noncomputable def geoMean (xs : List ℝ) : ℝ := xs.prod ^ (1 / (xs.length : ℝ))

/-- Weighted geometric mean `(∏ xᵢ^wᵢ)^(1/∑wᵢ)`. -/
noncomputable def geoMeanW (xs : List (ℝ × ℝ)) : ℝ :=
  (xs.map (fun p => p.1 ^ p.2)).prod ^ (1 / (xs.map Prod.snd).sum)

/-- Arithmetic mean. -/
noncomputable def mean (xs : List ℝ) : ℝ := xs.sum / xs.length

/-- Variance with `n - ddof` in the denominator. -/
noncomputable def variance (xs : List ℝ) (ddof : ℕ) : ℝ :=
  (xs.map (fun x => (x - mean xs) ^ 2)).sum / ((xs.length : ℝ) - ddof)

end Qopen.Spec
