import Verif.Model.Results

/-!
# Model of `sort_dict` and `collect_results` (core.py:61-94, 353-397)
-/

namespace Qopen.Collect

/-- core.py:73-76 `DUMP_ORDER`. -/
def dumpOrder : List String :=
  ["M0", "Mw", "Mcat", "fc", "n", "gamma", "freq", "g0", "b", "nstations", "error", "W", "sds",
   "sds_error", "fit_error", "R", "events", "v0", "config"]

/-- core.py:61-71 `DUMP_CONFIG`. -/
def dumpConfig : List String :=
  ["invert_events_simultaneously", "mean", "v0", "rho0", "R0", "free_surface", "freqs", "filter",
   "optimize", "g0_bounds", "b_bounds", "seismic_moment_method", "seismic_moment_options",
   "bulk_window", "coda_normalization", "coda_window", "noise_windows", "weight", "remove_noise",
   "adjust_sonset", "adjust_sonset_options", "remove_response", "remove_response_options",
   "correct_for_elevation", "skip", "G_module"]

/-- core.py:93-94 `sort_dict`; `list.index` raises `ValueError` for unknown keys and `sorted` is
stable. -/
def sortDict {α : Type} (d : Dict String α) (order : List String := dumpOrder) :
    Py (Dict String α) :=
  if d.all (fun kv => decide (kv.1 ∈ order)) then
    .ok (d.mergeSort (fun a b => decide (order.idxOf a.1 ≤ order.idxOf b.1)))
  else .error .valueError

/-- A value in the result of an event: a number, a list with one entry per frequency band, or a
table with a list for each station (`'R'`) (core.py:1395-1416, 1497-1503). -/
inductive RVal
  | cell (c : Cell)
  | row (l : List Cell)
  | sites (d : Dict String (List Cell))

/-- A collected value: number or list (core.py:380-385). -/
inductive Item
  | cell (c : Cell)
  | row (l : List Cell)

/-- An entry of the dictionary returned by `collect_results` (core.py:372-397). -/
inductive ColVal
  | ids (l : List String)
  | vals (l : List Item)
  | sites (d : Dict String (List Item))

/-- core.py:362-366 `freq_getter` for numbers and lists; other values are not indexed here. -/
def freqGetter (freqi : Option ℕ) (r : RVal) (c : String) : Py Item :=
  match freqi with
  | none =>
    match r with
    | .cell x => .ok (.cell x)
    | .row l => .ok (.row l)
    | .sites _ => .error .other
  | some i =>
    if c = "v0" then
      match r with
      | .cell x => .ok (.cell x)
      | .row l => .ok (.row l)
      | .sites _ => .error .other
    else
      match r with
      | .cell _ => .error .typeError
      | .row l => do
        let x ← pyGet l i
        return .cell x
      | .sites _ => .error .other

/-- `col[c].append(x)` for a `defaultdict(list)` (core.py:372, 385). -/
def append (col : Dict String ColVal) (c : String) (x : Item) : Py (Dict String ColVal) :=
  match col.get? c with
  | none => .ok (col.set c (.vals [x]))
  | some (.vals l) => .ok (col.set c (.vals (l ++ [x])))
  | some _ => .error .other

/-- `col['eventid'].append(id)` (core.py:380). -/
def appendId (col : Dict String ColVal) (id : String) : Py (Dict String ColVal) :=
  match col.get? "eventid" with
  | none => .ok (col.set "eventid" (.ids [id]))
  | some (.ids l) => .ok (col.set "eventid" (.ids (l ++ [id])))
  | some _ => .error .other

/-- core.py:381-383, the rows of all stations of an event. -/
def appendSites (freqi : Option ℕ) (tab : Dict String (List Item)) (R : Dict String (List Cell)) :
    Py (Dict String (List Item)) :=
  R.foldlM (fun tab sr => do
    let x ← freqGetter freqi (.row sr.2) "R"
    return tab.set sr.1 ((tab.get? sr.1).getD [] ++ [x])) tab

/-- `col['R']` for the default dictionary created in line 374 (core.py:383). -/
def sitesOf (col : Dict String ColVal) : Dict String (List Item) :=
  match col.get? "R" with
  | some (.sites d) => d
  | _ => []

/-- core.py:378-385, one key of an event. -/
def collectKey (freqi : Option ℕ) (evid : String) (res : Dict String RVal)
    (col : Dict String ColVal) (c : String) : Py (Dict String ColVal) :=
  if c = "eventid" then appendId col evid
  else
    match res.get? c with
    | none => .ok col
    | some v =>
      if c = "R" then
        match v with
        | .sites R => do
          let d ← appendSites freqi (sitesOf col) R
          return col.set "R" (.sites d)
        | _ => .error .attributeError                                         -- 382
      else do
        let x ← freqGetter freqi v c
        append col c x

/-- core.py:375-385, one event; events without result are skipped. -/
def collectEvent (freqi : Option ℕ) (only : List String) (col : Dict String ColVal)
    (e : String × Option (Dict String RVal)) : Py (Dict String ColVal) :=
  match e.2 with
  | none => .ok col
  | some res => only.foldlM (collectKey freqi e.1 res) col

/-- `float` conversion of `None` (core.py:389-396). -/
def _root_.Qopen.Cell.toFloat : Cell → Cell
  | .none => .nan
  | c => c

/-- Length of a list, `none` for a number (core.py:389-396). -/
def Item.shape : Item → Option ℕ
  | .cell _ => none
  | .row r => some r.length

/-- Conversion of `None` to NaN (core.py:389-396). -/
def Item.toFloat : Item → Item
  | .cell c => .cell c.toFloat
  | .row r => .row (r.map Cell.toFloat)

/-- `np.array(items, dtype=float)` converts `None` to NaN; numbers mixed with lists and lists of
different length raise `ValueError`.  See core.py:389-396. -/
def toArray (l : List Item) : Py (List Item) :=
  if l.all (fun x => decide (some x.shape = l.head?.map Item.shape)) then .ok (l.map Item.toFloat)
  else .error .valueError

/-- core.py:389-396, conversion of one entry. -/
def convert (v : ColVal) : Py ColVal :=
  match v with
  | .ids l => .ok (.ids l)
  | .vals l => do
    let a ← toArray l
    return .vals a
  | .sites d => do
    let d ← mapExc (fun kv => do
      let a ← toArray kv.2
      return (kv.1, a)) d
    return .sites d

/-- core.py:368-369 default of `only`. -/
def defaultOnly : List String := ["g0", "b", "error", "R", "W", "eventid", "v0"]

/-- core.py:353-397 `collect_results`. -/
def collectResults (events : Dict String (Option (Dict String RVal)))
    (only : List String := defaultOnly) (freqi : Option ℕ := none) : Py (Dict String ColVal) := do
  let col : Dict String ColVal := if "R" ∈ only then [("R", .sites [])] else []   -- 372-374
  let col ← events.foldlM (collectEvent freqi only) col
  mapExc (fun kv => do
    let v ← convert kv.2
    return (kv.1, v)) col

end Qopen.Collect
