import Verif.Py.Basic
import Mathlib.Analysis.SpecialFunctions.Trigonometric.Basic

/-!
# Model of the width of the filter (core.py:97-128)

The filter design of scipy is a parameter.
-/

namespace Qopen.FilterWidth

open Real

/-- Corner frequencies as fraction of the Nyquist frequency (core.py:114-119). -/
inductive Corners
  | one (f : ℝ)
  | two (f1 f2 : ℝ)

/-- `scipy.signal.iirfilter(corners, fs, btype=.., ftype='butter')` followed by `freqz`: absolute value
of the response as a function of the angular frequency (core.py:120-122). -/
abbrev Design := ℕ → Corners → String → Py (ℝ → ℝ)

/-- `text.strip('pass')`: removes the letters `p`, `a`, `s` at both ends (core.py:120). -/
def strip (s : String) : String :=
  let p := fun c : Char => decide (c ∈ ['p', 'a', 's'])
  String.ofList ((s.toList.dropWhile p).reverse.dropWhile p).reverse

/-- core.py:114-119, corner frequencies; `None / number` raises `TypeError`. -/
noncomputable def cornersOf (sr : ℝ) (freq freqmin freqmax : Option ℝ) (type : String) : Py Corners :=
  if type = "bandpass" then
    match freqmin, freqmax with
    | some f1, some f2 => .ok (.two (f1 / (0.5 * sr)) (f2 / (0.5 * sr)))
    | _, _ => .error .typeError
  else
    match freq with
    | some f => .ok (.one (f / (0.5 * sr)))
    | none => .error .typeError

/-- Angular frequencies of `freqz` (512 values from 0 to π without end point) (core.py:122). -/
noncomputable def freqz (k : ℕ) : ℝ := π * k / 512

/-- core.py:124, sum of the powers of the response. -/
noncomputable def sumPower (h : ℝ → ℝ) (zerophase : Bool) : ℝ :=
  ((List.range 512).map (fun k => |h (freqz k)| ^ (2 * (zerophase.toNat + 1)))).sum

/-- core.py:97-128 `filter_width`.  The sampling rate is not zero.  The cache is left out, see
`Verif.Model.Util` (`cache`). -/
noncomputable def filterWidth (design : Design) (sr : ℝ) (freq freqmin freqmax : Option ℝ)
    (corners : ℕ := 2) (zerophase : Bool := false) (type : String := "bandpass") : Py ℝ := do
  let fs ← cornersOf sr freq freqmin freqmax type
  let h ← design corners fs (strip type)                                      -- 120-122
  let df := (freqz 1 - freqz 0) / 2 / π * sr                                  -- 123
  return df * sumPower h zerophase

end Qopen.FilterWidth
