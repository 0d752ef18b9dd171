import Verif.Model.Util
import Mathlib.Data.List.Basic

/-!
# Model of traces, time expressions and windows (core.py:283-350, 434-490)

Times are real numbers in seconds (`UTCDateTime` has a resolution of one nanosecond).
`Trace.slice` models obspy's method of the same name (nearest sample, no padding).
-/

namespace Qopen.Tr

open Util

/-- An energy trace: obspy's `Trace` with the entries of `stats` used by `invert_fb`
(core.py:546-582, 1227-1234). -/
structure Trace where
  event : String
  station : String
  /-- `stats.starttime` -/
  start : ℝ
  /-- `stats.sampling_rate` -/
  sr : ℝ
  data : List ℝ
  origin : ℝ
  ponset : ℝ
  sonset : ℝ
  distance : ℝ
  /-- `stats.noise_level` if set -/
  noise : Option ℝ := none

/-- core.py:211-213 `get_pair`. -/
def Trace.pair (tr : Trace) : String × String := (tr.event, tr.station)

/-- `stats.endtime`; for an empty trace it is the start time.  See core.py:436, 442. -/
noncomputable def Trace.stop (tr : Trace) : ℝ :=
  tr.start + ((tr.data.length - 1 : ℕ) : ℝ) / tr.sr

/-- obspy's `round_away`: nearest integer, ties away from zero (core.py:313, 483, 597). -/
noncomputable def roundAway (x : ℝ) : ℤ := if 0 ≤ x then ⌊x + 1 / 2⌋ else -⌊-x + 1 / 2⌋

/-- obspy `Trace._ltrim` with nearest sample and without padding (core.py:313, 483, 597). -/
noncomputable def Trace.ltrim (tr : Trace) (t : ℝ) : Trace :=
  let d := roundAway ((t - tr.start) * tr.sr)
  if 0 < d then { tr with start := tr.start + d / tr.sr, data := tr.data.drop d.toNat } else tr

open Classical in
/-- obspy `Trace._rtrim` with nearest sample and without padding (core.py:313, 483, 597). -/
noncomputable def Trace.rtrim (tr : Trace) (t : ℝ) : Trace :=
  let d := roundAway ((t - tr.start) * tr.sr) - tr.data.length + 1
  if 0 ≤ d then tr
  else if t < tr.start then { tr with start := tr.stop + d / tr.sr, data := [] }
  else { tr with data := tr.data.take (tr.data.length + d).toNat }

open Classical in
/-- obspy `Trace.slice(t1, t2)` (core.py:313, 483, 597, 631). -/
noncomputable def Trace.slice (tr : Trace) (t1 t2 : ℝ) : Py Trace :=
  if t2 < t1 then .error .valueError else .ok ((tr.ltrim t1).rtrim t2)

/-! ## Time expressions (core.py:283-350) -/

/-- Python strings as lists of characters (core.py:302-327). -/
abbrev PyStr := List Char

/-- `str.lower` for ASCII letters (core.py:302). -/
def lower (s : PyStr) : PyStr := s.map Char.toLower

/-- `s.endswith(e)` (core.py:303, 321, 325). -/
def endswith (s e : PyStr) : Bool := e.isSuffixOf s

/-- `s.startswith(e)` (core.py:324-327). -/
def startswith (s e : PyStr) : Bool := e.isPrefixOf s

/-- `s[:-n]` (core.py:314, 323, 327). -/
def cutEnd (s : PyStr) (n : ℕ) : PyStr := s.take (s.length - n)

/-- `float(s)`: parsing of a number is a parameter, `none` is a string which is rejected.
Infinite and missing numbers are not modelled (core.py:314, 323, 327). -/
def pyFloat (float : PyStr → Option ℝ) (s : PyStr) : Py ℝ :=
  match float s with
  | some x => .ok x
  | none => .error .valueError

/-- core.py:321-329, all time expressions except SNR. -/
noncomputable def timePlain (float : PyStr → Option ℝ) (time : PyStr) (tr : Trace) : Py ℝ :=
  if endswith time "stt".toList || endswith time "ptt".toList then do      -- 321
    let rel := if (time.reverse.getD 2 ' ') = 'p' then tr.ponset else tr.sonset -- 322
    let x ← pyFloat float (cutEnd time 3)
    return tr.origin + x * (rel - tr.origin)                               -- 323
  else if (startswith time "s".toList || startswith time "p".toList ||
      startswith time "ot".toList) && endswith time "s".toList then do     -- 324-325
    let rel := if startswith time "p".toList then tr.ponset
      else if startswith time "s".toList then tr.sonset else tr.origin     -- 326
    let x ← pyFloat float (if startswith time "ot".toList then (cutEnd time 1).drop 2
      else (cutEnd time 1).drop 1)
    return rel + x                                                         -- 327
  else .error .valueError                                                  -- 329

open Classical in
/-- core.py:312-320, the time at which the energy falls below a multiple of the noise level. -/
noncomputable def timeSnr (float : PyStr → Option ℝ) (time : PyStr) (tr : Trace)
    (starttime : Option ℝ) : Py ℝ :=
  match starttime with
  | none => .error .assertion                                              -- 312
  | some st => do
    let sl := tr.ltrim st                                                  -- 313
    let snr ← pyFloat float (cutEnd time 3)                                -- 314
    match sl.noise with                                                    -- 315
    | none => .error .attributeError
    | some nl =>
      let index := sl.data.findIdx (fun x => decide (x < snr * nl))        -- 316-319
      return st + index / tr.sr                                            -- 320

/-- The recursive call in core.py:307, for an expression without `>`. -/
noncomputable def timeFront (float : PyStr → Option ℝ) (time : PyStr) (tr : Trace) : Py ℝ :=
  let time := lower time
  if endswith time "snr".toList then timeSnr float time tr none else timePlain float time tr

/-- core.py:283-330 `time2utc`.  The warning in line 308-310 is left out. -/
noncomputable def time2utc (float : PyStr → Option ℝ) (time : PyStr) (tr : Trace)
    (starttime : Option ℝ) : Py ℝ :=
  let time := lower time                                                   -- 302
  if endswith time "snr".toList then                                       -- 303
    if '>' ∈ time then                                                     -- 304
      let front := time.takeWhile (· ≠ '>')
      let back := (time.dropWhile (· ≠ '>')).drop 1
      if '>' ∈ back then .error .valueError                                -- 305
      else if front ≠ [] then do
        let st ← timeFront float front tr                                  -- 307
        match starttime with
        | none => .error .typeError                                        -- 308
        | some _ => timeSnr float back tr (some st)
      else timeSnr float back tr starttime
    else timeSnr float time tr starttime
  else timePlain float time tr

/-- One end of a time window: an expression or a list of expressions (core.py:333-350). -/
inductive TimeVal
  | one (s : PyStr)
  | many (l : List PyStr)

/-- A time window in the configuration (core.py:333-350). -/
abbrev Tw := TimeVal × TimeVal

/-- `max` of a list; `ValueError` if it is empty.  See core.py:342-350. -/
noncomputable def pyMax : List ℝ → Py ℝ
  | [] => .error .valueError
  | x :: l => .ok (l.foldl max x)

/-- `min` of a list; `ValueError` if it is empty.  See core.py:342-350. -/
noncomputable def pyMin : List ℝ → Py ℝ
  | [] => .error .valueError
  | x :: l => .ok (l.foldl min x)

/-- core.py:342-349, first pass. -/
noncomputable def twStart (float : PyStr → Option ℝ) (v : TimeVal) (tr : Trace) : Py ℝ :=
  match v with
  | .one s => time2utc float s tr none
  | .many l => do
    let ts ← mapExc (fun s => time2utc float s tr none) l
    pyMax ts

/-- core.py:342-350, second pass. -/
noncomputable def twEnd (float : PyStr → Option ℝ) (v : TimeVal) (tr : Trace) (st : ℝ) : Py ℝ :=
  match v with
  | .one s => time2utc float s tr (some st)
  | .many l => do
    let ts ← mapExc (fun s => time2utc float s tr (some st)) l
    pyMin ts

/-- core.py:333-350 `tw2utc` for a window with two entries. -/
noncomputable def tw2utc (float : PyStr → Option ℝ) (tw : Tw) (tr : Trace) : Py (ℝ × ℝ) := do
  let st ← twStart float tw.1 tr
  let e ← twEnd float tw.2 tr st
  return (st, e)

/-! ## Windows (core.py:434-490) -/

open Classical in
/-- core.py:434-439 `_check_times`: `true` if enough data are inside the window. -/
noncomputable def checkTimes (tr : Trace) (tw : ℝ × ℝ) (tol : ℝ := 0.5) : Bool :=
  let d1 := tw.1 - tr.start
  let d2 := tr.stop - tw.2
  decide (d1 + tol > 0 ∧ d2 + tol > 0)

/-- core.py:480-490 `_get_slice`; `none` means that the caller's list of energies loses this
trace.  Only `ValueError` of `slice` is caught, which is the only error of `slice`. -/
noncomputable def getSlice (tr : Trace) (tw : ℝ × ℝ) : Option Trace :=
  match tr.slice tw.1 tw.2 with
  | .ok sl => if checkTimes sl tw then some sl else none
  | .error _ => none

open Classical in
/-- `scipy.signal.argrelmin(data)[0]`: interior samples smaller than both neighbours (core.py:461). -/
noncomputable def argrelmin (d : List ℝ) : List ℕ :=
  (List.range d.length).filter (fun i =>
    decide (0 < i ∧ i + 1 < d.length ∧ d.getD i 0 < d.getD (i - 1) 0 ∧ d.getD i 0 < d.getD (i + 1) 0))

open Classical in
/-- `scipy.signal.argrelmax(data)[0]` (core.py:462). -/
noncomputable def argrelmax (d : List ℝ) : List ℕ :=
  (List.range d.length).filter (fun i =>
    decide (0 < i ∧ i + 1 < d.length ∧ d.getD (i - 1) 0 < d.getD i 0 ∧ d.getD (i + 1) 0 < d.getD i 0))

open Classical in
/-- core.py:465-469: the decreasing subsequence of minima. -/
noncomputable def descend (d : List ℝ) : ℕ → List ℕ → List ℕ
  | _, [] => []
  | last, mi :: l =>
    if d.getD mi 0 < d.getD last 0 then mi :: descend d mi l else descend d last l

/-- core.py:471-475: the last entry of `mins` before `ma`, or 0. -/
def minBefore (mins : List ℕ) (ma : ℕ) : ℕ :=
  ((mins.filter (fun mi => decide (mi < ma))).getLast?).getD 0

open Classical in
/-- core.py:470-477, loop over the maxima; `none` if no maximum qualifies. -/
noncomputable def cutIndex (d : List ℝ) (mins : List ℕ) (ratio : ℝ) : List ℕ → Option ℕ
  | [] => none
  | ma :: l =>
    let mi := minBefore mins ma
    if d.getD ma 0 / d.getD mi 0 > ratio then some mi else cutIndex d mins ratio l

/-- core.py:453-460, optional smoothing of the data. -/
noncomputable def smoothForCut (tr : Trace) (smoothS : Option ℝ) (w : Window) : List ℝ :=
  match smoothS with
  | none => tr.data
  | some s =>
    if s = 0 then tr.data
    else match smooth tr.data (some (pyRound (s * tr.sr))) w .clip with
      | .ok y => y
      | .error _ => tr.data

/-- core.py:452-477 `_get_local_minimum`.  Data are positive (division by zero is not
modelled). -/
noncomputable def localMinimum (tr : Trace) (smoothS : Option ℝ) (ratio : ℝ) (w : Window) :
    Option ℝ :=
  let data := smoothForCut tr smoothS w
  let mins := argrelmin data
  let maxs := argrelmax data
  match mins, maxs with
  | m0 :: ms, _ :: _ =>                                                    -- 463
    (cutIndex data (m0 :: descend data m0 ms) ratio maxs).map
      (fun mi : ℕ => tr.start + mi / tr.sr)                                    -- 477
  | _, _ => none

end Qopen.Tr
