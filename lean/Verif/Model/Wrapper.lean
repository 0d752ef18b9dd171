import Verif.Model.Invert
import Verif.Model.Collect

/-!
# Model of `invert_wrapper` (core.py:1445-1538)

The function `invert` is a parameter (`inv`), see `Qopen.Invert.invert`.  Log messages, plots and
the entry `config` of the result are left out.
-/

namespace Qopen.Wrapper

open Util Catalog Source Invert Collect

/-- Option `mean` (core.py:1451, 1511-1513). -/
inductive Mean
  | plain | robust | weighted
  deriving DecidableEq

/-- core.py:1469-1477: events with their origin times; `get_origin` raises `IndexError` for an event
without origin, which is ignored. -/
def timeEventPairs (events : List Event) : List (ℝ × Event) :=
  events.filterMap (fun ev => match getOrigin ev with
    | .ok o => some (o.time, ev)
    | .error _ => none)

open Classical in
/-- core.py:1478 `sorted`: tuples with equal times are compared by their events.  This raises
`TypeError` for different events, because events are not ordered; a sorting algorithm has to compare
two such tuples which are neighbours in the result. -/
noncomputable def sortEvents (pairs : List (ℝ × Event)) : Py (List (ℝ × Event)) :=
  if pairs.Pairwise (fun p q => p.1 = q.1 → p.2 = q.2) then
    .ok (pairs.mergeSort (fun p q => decide (p.1 ≤ q.1)))
  else .error .typeError

/-- core.py:1469-1478: `zip(*[])` is empty for a catalogue without origins. -/
noncomputable def orderEvents (events : List Event) : Py (List Event) := do
  let s ← sortEvents (timeEventPairs events)
  match s with
  | [] => .error .indexError
  | s => return s.map Prod.snd

/-- A number or list in the result of an event (core.py:1498-1499). -/
def ofVal : Val → RVal
  | .cell c => .cell c
  | .cells l => .row l

/-- The items of the result of `invert` without `freq` and `events` (core.py:1497-1503). -/
def baseItems (r : InvRes) : Dict String RVal :=
  (match r.g0 with | some l => [("g0", .row l)] | none => []) ++
  (match r.b with | some l => [("b", .row l)] | none => []) ++
  [("nstations", .row (r.nstations.map (fun n => .num n))), ("error", .row r.error)] ++
  (match r.R with | some d => [("R", .sites d)] | none => []) ++
  (match r.v0 with | some v => [("v0", .cell (.num v))] | none => [])

/-- The items of an event in the result of `invert` (core.py:1498-1499). -/
def eventItems (e : EvRes) : Dict String RVal := ("W", .row e.W) :: e.extra.mapVals ofVal

/-- core.py:1497-1503, the result of an event. -/
def eventEntry (codaNorm : Bool) (evid : String) (r : InvRes) : Py (Dict String RVal) :=
  match r.events.get? evid with
  | some e => sortDict ((baseItems r).update (eventItems e))                  -- 1498-1499
  | none => if codaNorm then sortDict (baseItems r) else .error .assertion    -- 1500-1501

/-- Results of the loop over the events: `result['freq']` and `result['events']` (core.py:1483-1503). -/
structure LoopState where
  freq : Option (List ℝ) := none
  events : Dict String (Dict String RVal) := []

/-- core.py:1486-1492: the event is announced in the log, for which its depth has to be known. -/
def announce (ev : Event) : Py Unit := do
  let o ← getOrigin ev
  match o.depth with
  | none => .error .typeError
  | some _ => return ()

/-- core.py:1485-1503, one event. -/
def loopStep (inv : List Event → Py (Option InvRes)) (codaNorm : Bool) (st : LoopState)
    (ev : Event) : Py LoopState := do
  announce ev
  let r ← inv [ev]                                                            -- 1493
  match r with
  | none => return st
  | some r =>
    let e ← eventEntry codaNorm (getEventid ev) r
    return { freq := some r.freq, events := st.events.set (getEventid ev) e } -- 1497, 1503

/-- The rows of a two-dimensional array (core.py:1507-1521). -/
def rowsOf (l : List Item) : Py (List (List Cell)) :=
  mapExc (fun x => match x with
    | .row r => .ok r
    | .cell _ => .error .other) l

/-- `col[key]` as array, `none` if the key is missing (core.py:1507-1517). -/
def arrayOf (col : Dict String ColVal) (key : String) : Py (Option (List (List Cell))) :=
  match col.get? key with
  | some (.vals l) => do
    let rows ← rowsOf l
    return some rows
  | some _ => .error .other
  | none => .ok none

/-- `np.all(np.isnan(a))` (core.py:1508). -/
def allNan (rows : List (List Cell)) : Bool := rows.all (fun r => r.all (fun c => match c with
  | .num _ => false
  | _ => true))

/-- Weight `1 / error` in core.py:1512. -/
noncomputable def weightOf (c : Cell) : ℝ :=
  match c with
  | .num e => 1 / e
  | _ => 0

/-- A value with infinite or NaN weight: its misfit is zero or missing (core.py:1511-1513). -/
def badWeight (data : List (Option ℝ)) (errs : List Cell) : Prop :=
  ∃ p ∈ data.zip errs, p.1.isSome ∧ (p.2.val? = none ∨ p.2 = .num 0)

open Classical in
/-- `gmeanlist(rows, axis=0, weights=1/errs)` for a table with `nf` columns (util.py:64-82, 112-140).
With an infinite or NaN weight numerator and denominator of `np.ma.average` are not finite; numpy masks
the quotient, the list has `None`. -/
noncomputable def gmeanlistW (rows errs : List (List Cell)) (nf : ℕ) : Py (List Cell) :=
  if rows.length ≠ errs.length ∨ ¬ ∀ r ∈ rows ++ errs, r.length = nf then .error .typeError
  else .ok ((List.range nf).map (fun i =>
    if badWeight (maLog (maskedInvalid (column rows i))) (column errs i) then .none
    else Cell.ofOption ((maAverage
      (maLog (maskedInvalid (column rows i))) (some ((column errs i).map weightOf))).map Real.exp)))

/-- `gmeanlist(rows, **kw)` with `kw` of core.py:1511-1513. -/
noncomputable def tableMean (rlm : List ℝ → ℝ × ℝ) (mean : Mean) (errs rows : List (List Cell)) :
    Py (List Cell) :=
  let nf := (rows.headD []).length
  match mean with
  | .plain => gmeanlist rlm rows nf
  | .robust => gmeanlist rlm rows nf true
  | .weighted => gmeanlistW rows errs nf

/-- Result of `invert_wrapper`; `none` for missing keys.  See core.py:1483, 1503-1527. -/
structure WrapRes where
  freq : List ℝ
  events : Dict String (Dict String RVal)
  g0 : Option (List Cell) := none
  b : Option (List Cell) := none
  error : Option (List Cell) := none
  R : Option (Dict String (List Cell)) := none

/-- `col['R']` (core.py:1507, 1518-1521). -/
def sitesArray (col : Dict String ColVal) : Py (Dict String (List (List Cell))) :=
  mapExc (fun kv => do
    let rows ← rowsOf kv.2
    return (kv.1, rows)) (sitesOf col)

/-- core.py:1514-1516, mean of `g0` or `b` if there is any. -/
noncomputable def meanIf (rlm : List ℝ → ℝ × ℝ) (mean : Mean) (errs : List (List Cell))
    (rows : Option (List (List Cell))) : Py (Option (List Cell)) :=
  match rows with
  | none => .ok none
  | some rows => do
    let m ← tableMean rlm mean errs rows
    return some m

/-- core.py:1504-1521, mean results of all events. -/
noncomputable def means (rlm : List ℝ → ℝ × ℝ) (mean : Mean) (freq : List ℝ)
    (events : Dict String (Dict String RVal)) : Py (Option WrapRes) := do
  let col ← collectResults (events.mapVals some) ["g0", "b", "error", "R"]    -- 1507
  let g0 ← arrayOf col "g0"
  match g0.map allNan with
  | some true => return none                                                  -- 1508-1510
  | _ =>
    let b ← arrayOf col "b"
    let errs ← arrayOf col "error"
    match errs with
    | none => .error .keyError                                                -- 1512
    | some errs =>
      if g0.isSome ∧ b.isNone then .error .keyError                           -- 1516
      else
        let g0m ← meanIf rlm mean errs g0
        let bm ← meanIf rlm mean errs b
        let em ← tableMean rlm mean errs errs                                 -- 1517
        let sites ← sitesArray col
        let R ← mapExc (fun kv => do
          let m ← tableMean rlm mean errs kv.2
          return (kv.1, m)) sites                                             -- 1518-1521
        return some { freq := freq, events := events, g0 := g0m, b := bm, error := some em
                      R := if R.length > 0 then some R else none }

/-- core.py:1483-1521, events one by one. -/
noncomputable def separately (rlm : List ℝ → ℝ × ℝ) (inv : List Event → Py (Option InvRes))
    (codaNorm : Bool) (mean : Mean) (events : List Event) : Py (Option WrapRes) := do
  let st ← events.foldlM (loopStep inv codaNorm) {}
  if st.events.length = 0 then return none                                    -- 1504-1506
  else means rlm mean (st.freq.getD []) st.events

/-- core.py:1480-1481, 1522-1527, all events at once; `None` as result raises `TypeError` in
line 1522.  The events in the result of `invert` have no sorted keys. -/
def simultaneously (inv : List Event → Py (Option InvRes)) (events : List Event) :
    Py (Option WrapRes) := do
  let r ← inv events
  match r with
  | none => .error .typeError
  | some r => return some { freq := r.freq, events := r.events.mapVals eventItems
                            g0 := r.g0, b := r.b, error := some r.error, R := r.R }

/-- core.py:1445-1538 `invert_wrapper`. -/
noncomputable def invertWrapper (rlm : List ℝ → ℝ × ℝ) (inv : List Event → Py (Option InvRes))
    (codaNorm simultaneous : Bool) (mean : Mean) (events : List Event) : Py (Option WrapRes) := do
  let evs ← orderEvents events
  if simultaneous then simultaneously inv evs else separately rlm inv codaNorm mean evs

end Qopen.Wrapper
