import Verif.Model.Run

/-!
# Model of the data source (core.py:1607-1675)

The world outside of the program (web services, archives on disk, code of plugins) is a state which
may change in any way between two requests.  Functions are Lean functions from this state.
-/

namespace Qopen.Data

open Run

/-- What is asked for: the codes of the channels and the time window (UTC times, integers)
(core.py:1193-1199). -/
structure Query where
  network : String
  station : String
  location : String
  channel : String
  starttime : ℤ
  endtime : ℤ
  deriving DecidableEq

/-- Keyword arguments of `get_waveforms` (core.py:1196-1199); `event` stands for the event. -/
structure Request where
  query : Query
  event : String
  deriving DecidableEq

/-- A function which delivers waveforms: it returns something (`none` for `None`) or raises
(core.py:1617-1649). -/
abbrev Fn (σ δ : Type) := σ → Request → Except Raised (Option δ)

/-- A module `obspy.clients.*`: its class `Client`, if there is one.  The constructor may fail; the
method `get_waveforms` of the client knows nothing about events.  See core.py:1624-1635. -/
structure ClientModule (σ δ : Type) where
  client : Option (J → Py (σ → Query → Except Raised (Option δ)))

/-- The parts of ObsPy, Python and joblib used to initialise the data (core.py:1607-1675). -/
structure Env (σ δ : Type) where
  /-- `import_module('obspy.clients.' + name)`, `none` for `ImportError` -/
  clients : String → Option (ClientModule σ δ)
  /-- `import_module` with the given search path: functions of the module by name -/
  modules : List String → String → Py (String → Option (Fn σ δ))
  /-- `obspy.read` -/
  read : String → Py δ
  /-- `stream.select(...)` with the four codes, then `slice(starttime, endtime)` -/
  select : δ → String → String → String → String → δ
  slice : δ → ℤ → ℤ → δ
  /-- joblib can be imported -/
  joblib : Bool

/-- Option `data`: not given, a text, or a stream object (core.py:1617, 1638-1649). -/
inductive DataOpt (δ : Type)
  | missing
  | text (s : String)
  | stream (st : δ)

/-- Arguments of `init_data` (core.py:1617-1618). -/
structure Opts (σ δ : Type) where
  data : DataOpt δ
  clientOptions : Option J := none
  plugin : Option String := none
  cacheWaveforms : Option String := none
  getWaveforms : Option (Fn σ δ) := none

/-- `str.split(':')`: there is always at least one part (core.py:1610). -/
def splitColon : List Char → List Char × List (List Char)
  | [] => ([], [])
  | c :: cs =>
    let r := splitColon cs
    if c = ':' then ([], r.1 :: r.2) else (c :: r.1, r.2)

/-- `str.strip()`, blanks at both ends (simplified: only blanks and tabs) (core.py:1611, 1613). -/
def strip (s : List Char) : List Char :=
  ((s.dropWhile (fun c => c = ' ' || c = '\t')).reverse.dropWhile
    (fun c => c = ' ' || c = '\t')).reverse

/-- core.py:1610, `modulename, funcname = plugin.split(':')`; `ValueError` unless there are two
parts. -/
def pluginParts (plugin : String) : Py (List Char × List Char) :=
  match splitColon plugin.toList with
  | (m, [f]) => .ok (m, f)
  | _ => .error .valueError

/-- core.py:1607-1614 `_load_func`, the function and `sys.path` afterwards.  Simplified: the import
itself does not change `sys.path`. -/
def loadFunc {σ δ : Type} (env : Env σ δ) (path : List String) (plugin : Option String) :
    Py (Fn σ δ) × List String :=
  let path' := path ++ ["."]                                                  -- 1609
  match plugin with
  | none => (.error .attributeError, path')                                   -- 1610
  | some plugin =>
    match pluginParts plugin with
    | .error e => (.error e, path')
    | .ok (m, f) =>
      match env.modules path' (String.ofList (strip m)) with                  -- 1611
      | .error e => (.error e, path')
      | .ok functions =>
        match functions (String.ofList (strip f)) with                        -- 1613
        | some fn => (.ok fn, path'.dropLast)                                 -- 1612
        | none => (.error .attributeError, path'.dropLast)

/-- core.py:1644-1649, data in a file or a stream; without data there is no stream and the request
fails with `AttributeError`. -/
def fromStream {σ δ : Type} (env : Env σ δ) (st : Option δ) : Fn σ δ := fun _ r =>
  match st with
  | none => .error .exception
  | some st => .ok (some (env.slice
      (env.select st r.query.network r.query.station r.query.location r.query.channel)
      r.query.starttime r.query.endtime))

/-- core.py:1624-1629, the module of the client. -/
def clientModule {σ δ : Type} (env : Env σ δ) (o : Opts σ δ) : Option (ClientModule σ δ) :=
  match o.getWaveforms, o.data with
  | none, .text s => env.clients s
  | _, _ => none

/-- core.py:1630-1635. -/
def fromClient {σ δ : Type} (m : ClientModule σ δ) (options : Option J) : Py (Fn σ δ) :=
  match m.client with
  | none => .error .attributeError
  | some client => do
    let c ← client (options.getD (.dict []))
    return fun s r => c s r.query

/-- core.py:1638-1649. -/
def fromData {σ δ : Type} (env : Env σ δ) (d : DataOpt δ) : Py (Fn σ δ) :=
  match d with
  | .text s => do
    let st ← env.read s
    return fromStream env (some st)
  | .stream st => .ok (fromStream env (some st))
  | .missing => .ok (fromStream env none)

/-- `data == 'plugin'` (core.py:1636, 1662). -/
def isPlugin {δ : Type} : DataOpt δ → Bool
  | .text s => decide (s = "plugin")
  | _ => false

/-- core.py:1623-1649, the function which delivers the waveforms, and `sys.path` afterwards. -/
def chooseFn {σ δ : Type} (env : Env σ δ) (path : List String) (o : Opts σ δ) :
    Py (Fn σ δ) × List String :=
  match o.getWaveforms with
  | some fn => (.ok fn, path)
  | none =>
    match clientModule env o with
    | some m => (fromClient m o.clientOptions, path)
    | none =>
      if isPlugin o.data then loadFunc env path o.plugin
      else (fromData env o.data, path)

/-- What `init_data` returns: the wrapped function and, if used, the directory of the cache
(core.py:1651-1675). -/
structure Getter (σ δ : Type) where
  fn : Fn σ δ
  cache : Option String

/-- core.py:1662-1674, directory of the cache. -/
def cacheDir {σ δ : Type} (env : Env σ δ) (o : Opts σ δ) : Option String :=
  if ((clientModule env o).isSome || isPlugin o.data) && env.joblib then
    o.cacheWaveforms.filter (fun d => decide (d ≠ ""))
  else none

/-- core.py:1617-1675 `init_data`. -/
def initData {σ δ : Type} (env : Env σ δ) (path : List String) (o : Opts σ δ) :
    Py (Getter σ δ) × List String :=
  let r := chooseFn env path o
  (r.1.map (fun fn => { fn := fn, cache := cacheDir env o }), r.2)

/-- core.py:1651-1660, the wrapper without cache. -/
def wrapper {σ δ : Type} (g : Getter σ δ) (s : σ) (r : Request) : Except Raised (Option δ) :=
  match waveformWrapper (g.fn s r) with
  | .ok d => .ok d.join
  | .error e => .error e

/-- Files of the cache on disk: what was returned for directory and arguments.  The key used by
joblib contains name and arguments of the function, not the variables of the enclosing function.
See core.py:1662-1674. -/
abbrev Store (δ : Type) := Dict (String × Request) (Option δ)

/-- A call of the function returned by `init_data` (core.py:1651-1660, 1671-1672, `joblib.Memory.cache`): stored
values are returned, values returned by the wrapper are stored, exceptions are not. -/
def call {σ δ : Type} (g : Getter σ δ) (store : Store δ) (s : σ) (r : Request) :
    Except Raised (Option δ) × Store δ :=
  match g.cache with
  | none => (wrapper g s r, store)
  | some dir =>
    match store.get? (dir, r) with
    | some d => (.ok d, store)
    | none =>
      match wrapper g s r with
      | .ok d => (.ok d, store.set (dir, r) d)
      | .error e => (.error e, store)

/-- An entry of a history: somebody calls a function returned by `init_data` while the world is in
some state.  Different entries may stem from different runs of the program.
See core.py:1199, 1651-1675. -/
structure Entry (σ δ : Type) where
  getter : Getter σ δ
  world : σ
  request : Request

/-- The cache after a history of calls (core.py:1199, 1651-1675). -/
def storeAfter {σ δ : Type} : Store δ → List (Entry σ δ) → Store δ
  | st, [] => st
  | st, e :: h => storeAfter (call e.getter st e.world e.request).2 h

/-- The answers of a history of calls (core.py:1199, 1651-1675). -/
def answers {σ δ : Type} : Store δ → List (Entry σ δ) → List (Except Raised (Option δ))
  | _, [] => []
  | st, e :: h => (call e.getter st e.world e.request).1 ::
      answers (call e.getter st e.world e.request).2 h

end Qopen.Data
