import Verif.Model.Run

/-!
# Model of reading stations and events in `run` (core.py:1846-1885)

`Verif/Model/Run.lean` takes these steps as given functions of the options (`Run.Env.inventory`,
`Run.Env.events`).
-/

namespace Qopen.Load

open Run

/-- Functions of ObsPy (core.py:1849-1885). -/
structure Env where
  /-- `obspy.read_inventory(path, format)` -/
  readInventory : J → J → Py J
  /-- `inventory.select(**options)` -/
  select : J → Args → Py J
  /-- `obspy.read_events(path, **options)` -/
  readEvents : String → Args → Py J
  /-- `events.filter(*conditions)` -/
  filterEvents : J → List J → Py J

/-- core.py:1851-1855, file name and format; inventories are objects. -/
def inventoryFile : J → Py (J × J)
  | .str s => .ok (.str s, .null)
  | .list [a, b] => .ok (a, b)
  | .list _ => .error .valueError
  | .dict [a, b] => .ok (.str a.1, .str b.1)
  | .dict _ => .error .valueError
  | _ => .error .typeError

/-- core.py:1851-1856. -/
def readInventory (env : Env) (inventory : J) : Py J :=
  match inventory with
  | .obj n => .ok (.obj n)
  | _ => do
    let f ← inventoryFile inventory
    env.readInventory f.1 f.2

/-- core.py:1860-1861, keyword arguments have to be a dictionary. -/
def selectInventory (env : Env) (inventory filter : J) : Py J :=
  if filter.truthy then
    match filter with
    | .dict d => env.select inventory d
    | _ => .error .typeError
  else .ok inventory

/-- core.py:1849-1864. -/
def loadInventory (env : Env) (inventory filter : J) : Py J := do
  let inv ← readInventory env inventory
  selectInventory env inv filter

/-- core.py:1871-1874, file name with format. -/
def splitFormat (events : J) (kwargs : Args) : Py (J × Args) :=
  match events with
  | .list [] => .error .indexError
  | .list [.str a, b] => .ok (.str a, kwargs.set "format" b)
  | .list (.str _ :: _) => .error .valueError
  | _ => .ok (events, kwargs)

/-- core.py:1876-1880, option `resolve_seedid`; returns the options of the reader. -/
def resolve (resolveSeedid : J) (inventory : J) (kwargs : Args) : Args :=
  let kwargs := if resolveSeedid.truthy then kwargs.set "resolve_seedid" resolveSeedid else kwargs
  let r := popD kwargs "resolve_seedid" (.bool false)
  if r.1.truthy then r.2.set "inventory" inventory else r.2

/-- core.py:1883-1884; `*filter_events` has to be a list (a text would be taken apart). -/
def filterEvents (env : Env) (events filter : J) : Py J :=
  if filter.truthy then
    match filter with
    | .list l => env.filterEvents events l
    | _ => .error .typeError
  else .ok events

/-- core.py:1875-1885, events and options of the reader afterwards. -/
def readEvents (env : Env) (events filter resolveSeedid inventory : J) (kwargs : Args) :
    Py J × Args :=
  match events with
  | .str s =>
    let kw := resolve resolveSeedid inventory kwargs
    (env.readEvents s kw >>= fun ev => filterEvents env ev filter, kw)
  | _ => (filterEvents env events filter, kwargs)

/-- core.py:1867-1885, events, and the dictionary given as `read_events_kwargs` afterwards. -/
def loadEvents (env : Env) (events filter resolveSeedid inventory : J) (kwargs : Args) :
    Py J × Args :=
  match splitFormat events kwargs with
  | .error e => (.error e, kwargs)
  | .ok (events, kwargs) => readEvents env events filter resolveSeedid inventory kwargs

end Qopen.Load
