import Verif.Py.Basic
import Mathlib.Analysis.SpecialFunctions.Log.Basic
import Mathlib.Analysis.SpecialFunctions.Pow.Real

/-!
# Model of the frequency bands (core.py:131-153)
-/

namespace Qopen.Freqs

open Real

/-- Options of `get_freqs`; the central frequencies by `max`, `min`, `step` or explicitly.
See core.py:131-153. -/
inductive FreqOpt
  | series (max min step width : ℝ)
  | cfreqs (l : List ℝ) (width : ℝ)
  | fbands (l : List (ℝ × ℝ))

/-- `int(x)`: truncation towards zero (core.py:139). -/
noncomputable def trunc (x : ℝ) : ℤ := if 0 ≤ x then ⌊x⌋ else ⌈x⌉

/-- core.py:139-141, central frequencies.  Zero or negative `max / min` and zero `step` (error, NaN
or infinity) are not modelled (`other`). -/
noncomputable def seriesFreqs (max min step : ℝ) : Py (List ℝ) :=
  if max / min ≤ 0 ∨ step = 0 then .error .other
  else
    let maxExp := trunc (log (max / min) / step / log 2)                      -- 139
    -- 140-141: exponents from `max_exp` down to 0
    .ok (((List.range (maxExp + 1).toNat).reverse).map (fun n : ℕ => max / 2 ^ (step * n)))

/-- core.py:143, half of the band width. -/
noncomputable def halfWidth (f width : ℝ) : ℝ := f * (2 ^ width - 1) / (2 ^ width + 1)

open Classical in
/-- `OrderedDict(pairs)` (core.py:142-153). -/
noncomputable def mkDict (l : List (ℝ × (ℝ × ℝ))) : Dict ℝ (ℝ × ℝ) :=
  l.foldl (fun d kv => d.set kv.1 kv.2) []

/-- core.py:142-144, bands around the central frequencies. -/
noncomputable def bandsOf (cf : List ℝ) (width : ℝ) : Dict ℝ (ℝ × ℝ) :=
  mkDict (cf.map (fun f => (f, (f - halfWidth f width, f + halfWidth f width))))

open Classical in
/-- Order of tuples (core.py:146). -/
noncomputable def leBand (a b : ℝ × ℝ) : Bool := decide (a.1 < b.1 ∨ a.1 = b.1 ∧ a.2 ≤ b.2)

/-- core.py:131-153 `get_freqs`.  Python's `sorted` is a stable merge sort. -/
noncomputable def getFreqs (o : FreqOpt) : Py (Dict ℝ (ℝ × ℝ)) :=
  match o with
  | .series max min step width => do
    let cf ← seriesFreqs max min step
    return bandsOf cf width
  | .cfreqs l width => .ok (bandsOf l width)
  | .fbands l =>
    .ok (mkDict ((l.mergeSort leBand).map (fun b => (0.5 * (b.1 + b.2), b)))) -- 146-148

end Qopen.Freqs
