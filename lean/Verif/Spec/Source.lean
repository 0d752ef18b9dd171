import Verif.Py.Basic
import Mathlib.Analysis.SpecialFunctions.Pow.Real

/-!
# Specification: source spectra
-/

namespace Qopen.Spec

open Real

/-- The omega model of Abercrombie (1995): `M0 (1 + (f/fc)^(n γ))^(-1/γ)`. -/
noncomputable def omegaModel (M0 fc n gamma f : ℝ) : ℝ :=
  M0 / (1 + (f / fc) ^ (n * gamma)) ^ (1 / gamma)

/-- Root mean square of the logarithmic misfit between data points and a curve. -/
noncomputable def rmsLogMisfit (pts : List (ℝ × ℝ)) (curve : ℝ → ℝ) : ℝ :=
  sqrt ((pts.map (fun p => (log p.2 - log (curve p.1)) ^ 2)).sum / pts.length)

/-- The data points of a spectrum: frequencies with a value. -/
def points (freq : List ℝ) (omM : List Cell) : List (ℝ × ℝ) :=
  (freq.zip omM).filterMap (fun p => match p.2 with
    | .num x => some (p.1, x)
    | _ => none)

/-- Sum of squared residuals of a linear model with design matrix given by rows. -/
def sse (y : List ℝ) (X : List (List ℝ)) (p : List ℝ) : ℝ :=
  (List.zipWith (fun yi row => (yi - (List.zipWith (· * ·) row p).sum) ^ 2) y X).sum

/-- Contract of an ordinary least-squares fit: no parameters fit better. -/
def IsOls (ols : List ℝ → List (List ℝ) → List ℝ) : Prop :=
  ∀ y X q, sse y X (ols y X) ≤ sse y X q

end Qopen.Spec
