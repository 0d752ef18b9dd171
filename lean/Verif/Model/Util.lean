import Verif.Py.Basic
import Mathlib.Analysis.SpecialFunctions.Pow.Real
import Mathlib.Analysis.SpecialFunctions.Trigonometric.Basic

/-!
# Model of `qopen/util.py`

Masked arrays are lists of `Option ℝ` (`none` = masked).  Floats are reals.
-/

namespace Qopen.Util

open Real

/-! ## Cache decorator (util.py:11-20) -/

/-- State of a cached function together with the world it acts on.  `cache` is
the dictionary `f.cache`; `evals` records the key of each completed (non-raising)
evaluation of the wrapped function, newest last (ghost variable, used only to
count evaluations).  See util.py:11-19. -/
structure CacheState (κ β σ : Type) where
  cache : Dict κ β
  evals : List κ
  world : σ

/-- util.py:15-19, the wrapper `_f`.  `keyOf` is `str(args) + str(kwargs)`.  The
wrapped function may depend on and change a world state `σ` and may raise.
Simplification: returned objects are values, so sharing of a mutable return
value between calls is not modelled. -/
def cachedCall {κ β σ args : Type} [DecidableEq κ] (keyOf : args → κ)
    (f : σ → args → Py β × σ) (s : CacheState κ β σ) (a : args) :
    Py β × CacheState κ β σ :=
  match s.cache.get? (keyOf a) with
  | some v => (.ok v, s)
  | none =>
    match f s.world a with
    | (.ok v, w) =>
      (.ok v, { cache := s.cache.set (keyOf a) v, evals := s.evals ++ [keyOf a], world := w })
    | (.error e, w) => (.error e, { s with world := w })

/-- A history of calls of the cached function: list of outcomes and final state (util.py:11-19). -/
def cachedCalls {κ β σ args : Type} [DecidableEq κ] (keyOf : args → κ)
    (f : σ → args → Py β × σ) : CacheState κ β σ → List args → List (Py β) × CacheState κ β σ
  | s, [] => ([], s)
  | s, a :: as =>
    let r := cachedCall keyOf f s a
    let rs := cachedCalls keyOf f r.2 as
    (r.1 :: rs.1, rs.2)

/-! ## Statistics (util.py:65-147) -/

/-- `np.ma.masked_invalid` on a table cell: `None` (converted to NaN by
`dtype=float`) and NaN are masked (util.py:89, 119). -/
def maskedInvalid (data : List Cell) : List (Option ℝ) := data.map Cell.val?

/-- `np.log` of a masked array: masked stays masked, values outside the domain
(`x ≤ 0`) get masked (util.py:119). -/
noncomputable def maLog (data : List (Option ℝ)) : List (Option ℝ) :=
  data.map (fun o => o.bind (fun x => if 0 < x then some (log x) else none))

/-- `data[~data.mask]` (util.py:67-73, 105). -/
def validData (data : List (Option ℝ)) : List ℝ := data.filterMap id

/-- Unmasked values together with their weights (util.py:67-76). -/
def validPairs (data : List (Option ℝ)) (w : List ℝ) : List (ℝ × ℝ) :=
  (data.zip w).filterMap (fun p => p.1.map (fun x => (x, p.2)))

/-- `np.ma.average(data, weights=weights)` for 1-D data; `none` is the masked
result (no valid data, or weights of valid data sum to zero).  See util.py:67, 73. -/
noncomputable def maAverage (data : List (Option ℝ)) (weights : Option (List ℝ)) : Option ℝ :=
  match weights with
  | none =>
    let v := validData data
    if v.length = 0 then none else some (v.sum / v.length)
  | some w =>
    let v := validPairs data w
    let s := (v.map Prod.snd).sum
    if s = 0 then none else some ((v.map (fun p => p.1 * p.2)).sum / s)

/-- `np.ma.std(data, ddof=ddof)` for 1-D data; masked (`none`) if there are not
more values than `ddof`.  See util.py:71. -/
noncomputable def maStd (data : List (Option ℝ)) (ddof : ℕ) : Option ℝ :=
  let v := validData data
  if v.length ≤ ddof then none
  else
    let m := v.sum / v.length
    some (sqrt ((v.map (fun x => (x - m) ^ 2)).sum / ((v.length : ℝ) - ddof)))

/-- Weights of another shape than the data make `np.ma.average` raise `TypeError` (util.py:67). -/
def weightsMismatch (weights : Option (List ℝ)) (n : ℕ) : Bool :=
  match weights with
  | none => false
  | some w => w.length != n

/-- util.py:73-79: weighted standard deviation around the weighted mean `m`;
`none` stands for NaN/masked (division by zero, root of a negative number). -/
noncomputable def weightedStd (data : List (Option ℝ)) (w : List ℝ) (m : ℝ) (unbiased : Bool) :
    Option ℝ :=
  let v := validPairs data w
  let V1 := (v.map Prod.snd).sum                                       -- 75
  let var := (v.map (fun p => (p.1 - m) ^ 2 * p.2)).sum / V1           -- 73
  let V2 := (v.map (fun p => p.2 ^ 2)).sum                             -- 76
  let d := 1 - V2 / V1 ^ 2
  if unbiased then
    if d = 0 ∨ var / d < 0 then none else some (sqrt (var / d))        -- 77
  else if var < 0 then none else some (sqrt var)                       -- 79

/-- util.py:65-80 `weighted_stat` for 1-D (masked) data and `axis=None`.
Returns mean and standard deviation; `none` stands for masked/NaN. -/
noncomputable def weightedStat (data : List (Option ℝ)) (weights : Option (List ℝ))
    (unbiased : Bool) : Py (Option ℝ × Option ℝ) :=
  if weightsMismatch weights data.length then .error .typeError        -- 67
  else
    let mean := maAverage data weights                                 -- 67
    let std :=
      if (validData data).length < 2 then none                         -- 68-69
      else match weights with
        | none => maStd data (if unbiased then 1 else 0)               -- 70-71
        | some w => mean.bind (fun m => weightedStd data w m unbiased) -- 72-79
    .ok (mean, std)                                                    -- 80

/-- `np.ptp(data) == 0`: all values equal (util.py:108). -/
def ptpZero (v : List ℝ) : Prop := ∀ x ∈ v, ∀ y ∈ v, x = y

open Classical in
/-- util.py:83-111 `robust_stat` for 1-D data (`axis=None`).  `rlm` stands for
`RLM(data, ones).fit()` and returns `(params[0], scale)`. -/
noncomputable def robustStat (rlm : List ℝ → ℝ × ℝ) (data : List (Option ℝ)) (fallBack : ℕ) :
    Py (Option ℝ × Option ℝ) :=
  let v := validData data                                              -- 89, 105
  if v.length < fallBack then
    weightedStat (v.map some) none true                                -- 106-107
  else if ptpZero v then                                               -- 108
    if v.length = 0 then .error .valueError   -- np.ptp of an empty array raises
    else .ok (some (v.sum / v.length), some 0)                         -- 109
  else .ok (some (rlm v).1, some (rlm v).2)                            -- 110-111

/-- util.py:114-127 `gstat` for 1-D data. -/
noncomputable def gstat (rlm : List ℝ → ℝ × ℝ) (data : List Cell) (weights : Option (List ℝ))
    (unbiased : Bool := true) (robust : Bool := false) (fallBack : ℕ := 5) :
    Py (Option ℝ × Option ℝ) :=
  let logs := maLog (maskedInvalid data)                               -- 119
  if robust && weights.isSome then .error .notImplemented              -- 120-121
  else if robust then robustStat rlm logs fallBack                     -- 122-123
  else weightedStat logs weights unbiased                              -- 124-126

/-- util.py:130-132 `gmean` for 1-D data. -/
noncomputable def gmean (rlm : List ℝ → ℝ × ℝ) (data : List Cell) (weights : Option (List ℝ))
    (robust : Bool := false) (fallBack : ℕ := 5) : Py (Option ℝ) := do
  let r ← gstat rlm data weights true robust fallBack
  return r.1.map exp

/-- util.py:142-147 `gerr` for 1-D data: mean, lower error, upper error. -/
noncomputable def gerr (rlm : List ℝ → ℝ × ℝ) (data : List Cell) (weights : Option (List ℝ))
    (unbiased : Bool := true) (robust : Bool := false) (fallBack : ℕ := 5) :
    Py (Option ℝ × Option ℝ × Option ℝ) := do
  let r ← gstat rlm data weights unbiased robust fallBack
  let err1 := match r.1, r.2 with
    | some m, some e => some (exp m - exp (m - e))                     -- 145
    | _, _ => none
  let err2 := match r.1, r.2 with
    | some m, some e => some (exp (m + e) - exp m)                     -- 146
    | _, _ => none
  return (r.1.map exp, err1, err2)                                     -- 147

/-- Column `i` of a rectangular table given by rows (util.py:91-103, 134-139). -/
def column (rows : List (List Cell)) (i : ℕ) : List Cell :=
  rows.map (fun r => r.getD i .nan)

/-- util.py:134-139 `gmeanlist(table, axis=0, weights=None, robust=robust)` for
a two-dimensional table given by its rows (all of length `nf`, otherwise
`np.array` raises `ValueError`; an empty table has no second axis, so `axis=0`
yields a single (masked) number and this case is not modelled: `nf` is given).
With `robust=False` the column means are `np.ma.average(axis=0)`, with
`robust=True` they are computed column by column (util.py:91-103).  The error
estimate is discarded. -/
noncomputable def gmeanlist (rlm : List ℝ → ℝ × ℝ) (rows : List (List Cell)) (nf : ℕ)
    (robust : Bool := false) (fallBack : ℕ := 5) : Py (List Cell) :=
  if rows.any (fun r => r.length != nf) then .error .valueError
  else if robust then
    mapExc (fun i => do
      let m ← gmean rlm (column rows i) none true fallBack
      return Cell.ofOption m) (List.range nf)
  else
    .ok ((List.range nf).map (fun i =>
      Cell.ofOption ((maAverage (maLog (maskedInvalid (column rows i))) none).map exp)))

/-! ## Smoothing (util.py:150-216) -/

/-- Python's `round` to an integer (half to even) (util.py:159). -/
noncomputable def pyRound (x : ℝ) : ℤ :=
  if Int.fract x < 1 / 2 then ⌊x⌋
  else if Int.fract x = 1 / 2 then (if Even ⌊x⌋ then ⌊x⌋ else ⌊x⌋ + 1)
  else ⌊x⌋ + 1

/-- The `window` argument of `smooth` (util.py:198). -/
inductive Window
  | flat | hanning | hamming | bartlett | blackman | other
  deriving DecidableEq, Repr

/-- The `method` argument of `smooth`; every other value means "no border
handling" (util.py:201-211). -/
inductive Border
  | zeros | reflect | clip | noBorder
  deriving DecidableEq, Repr

/-- Value number `n` of the numpy window of length `M` (util.py:212-215; numpy's
definition of hanning, hamming, bartlett and blackman). -/
noncomputable def windowVal (w : Window) (M n : ℕ) : ℝ :=
  match w with
  | .flat => 1
  | .hanning => 0.5 - 0.5 * cos (2 * π * n / (M - 1))
  | .hamming => 0.54 - 0.46 * cos (2 * π * n / (M - 1))
  | .bartlett => 2 / ((M : ℝ) - 1) * (((M : ℝ) - 1) / 2 - |(n : ℝ) - ((M : ℝ) - 1) / 2|)
  | .blackman => 0.42 - 0.5 * cos (2 * π * n / (M - 1)) + 0.08 * cos (4 * π * n / (M - 1))
  | .other => 0

/-- `w / w.sum()` (util.py:216). -/
noncomputable def windowNorm (w : Window) (M : ℕ) : List ℝ :=
  let ws := (List.range M).map (windowVal w M)
  ws.map (fun x => x / ws.sum)

/-- `np.convolve(w, s, mode='valid')` for `len(s) ≥ len(w) ≥ 1` (util.py:216). -/
def convolveValid (w s : List ℝ) : List ℝ :=
  (List.range (s.length - w.length + 1)).map (fun j =>
    ((List.range w.length).map (fun k => w.getD k 0 * s.getD (j + (w.length - 1 - k)) 0)).sum)

/-- util.py:201-211, padding of the signal; `M ≥ 3` is the window length and
`x` has at least `M` samples. `x[(M-1)//2:0:-1]` are the samples
`(M-1)//2, ..., 1`; `x[-1:-(M+1)//2:-1]` are the last `M//2` samples backwards. -/
def pad (b : Border) (x : List ℝ) (M : ℕ) : List ℝ :=
  match b with
  | .zeros => List.replicate ((M - 1) / 2) 0 ++ x ++ List.replicate (M / 2) 0
  | .reflect => ((x.drop 1).take ((M - 1) / 2)).reverse ++ x ++ x.reverse.take (M / 2)
  | .clip => List.replicate ((M - 1) / 2) (x.headD 0) ++ x ++
      List.replicate (M / 2) (x.getLastD 0)
  | .noBorder => x

/-- util.py:169-216 `smooth` on a 1-D array (`ndim` check omitted). -/
noncomputable def smooth (x : List ℝ) (windowLen : Option ℤ) (window : Window := .flat)
    (method : Border := .zeros) : Py (List ℝ) :=
  match windowLen with
  | none => .ok x                                                      -- 190-191
  | some wl =>
    if (x.length : ℤ) < wl then .error .valueError                     -- 194-195
    else if wl < 3 then .ok x                                          -- 196-197
    else if window = .other then .error .valueError                    -- 198-200
    else .ok (convolveValid (windowNorm window wl.toNat) (pad method x wl.toNat))

/-- Consecutive differences, `np.diff` (util.py:156). -/
def diff : List ℝ → List ℝ
  | a :: b :: l => (b - a) :: diff (b :: l)
  | _ => []

/-- util.py:162-163: the time grid continued by `N1` samples to the left and
`N2` samples to the right (`np.arange` of a negative number is empty). -/
noncomputable def extendGrid (t : List ℝ) (dt : ℝ) (N1 N2 : ℤ) : List ℝ :=
  (List.range N1.toNat).map (fun i : ℕ => t.headD 0 - N1 * dt + i * dt) ++ t ++
  (List.range N2.toNat).map (fun i : ℕ => t.getLastD 0 + dt + i * dt)

/-- util.py:150-166 `smooth_func`.  `f` is applied to a whole array. -/
noncomputable def smoothFunc (f : List ℝ → Py (List ℝ)) (t : List ℝ) (windowLen : Option ℝ)
    (window : Window := .flat) : Py (List ℝ) :=
  match windowLen with
  | none => f t                                                        -- 152-153
  | some wl => do
    let t1 ← pyGet t 1
    let t0 ← pyGet t 0
    let dt := t1 - t0                                                  -- 155
    if 1e-5 < ((diff t).map (fun d => |d - dt|)).sum then
      throw .valueError                                                -- 156-158
    -- a zero step makes `window_len / dt` infinite or NaN and `int` raise
    if dt = 0 then throw .valueError
    let samples := pyRound (wl / dt)                                   -- 159
    let N1 := Int.fdiv (samples - 1) 2                                 -- 160
    let N2 := Int.fdiv samples 2                                       -- 161
    let f_ ← f (extendGrid t dt N1 N2)                                 -- 162-164
    smooth f_ (some samples) window .noBorder                          -- 165

/-! ## Linear fit (util.py:219-237) -/

/-- util.py:219-237 `linear_fit`.  `fit2`, `fit1` stand for the statsmodels fit
with design matrix `[x, 1]` and `[1]`; the choice of the estimator by `method`
(line 227) is contained in them. Returns slope and intercept. -/
def linearFit (fit2 : List ℝ → List (ℝ × ℝ) → ℝ × ℝ) (fit1 : List ℝ → ℝ)
    (y x : List ℝ) (m : Option ℝ) : ℝ × ℝ :=
  match m with
  | none => fit2 y (x.map (fun a => (a, 1)))
  | some m => (m, fit1 (List.zipWith (fun b a => b - m * a) y x))

end Qopen.Util
