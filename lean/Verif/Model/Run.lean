import Verif.Model.Collect
import Mathlib.Data.Rat.Defs
import Mathlib.Algebra.Order.Ring.Unbundled.Rat

/-!
# Model of `run`, `run_cmdline` and their helpers (core.py:1522-1604, 1648-2131)

Options and results are JSON values.  What `run` does to the world is a list of effects: calls of the
inversion, figures, directories, files.  Reading of files and catalogues, the inversion, the alignment
of sites and drawing are parameters (`Env`).  Log messages, the debugger and the time measurement are
left out, the command line parser is in `Verif/Model/CmdLine.lean`, here is the merge of
`--overwrite-conf`.
-/

namespace Qopen.Run

open Collect

/-- A value of an option or of a result: JSON value or a Python object (`obj`), e.g. an ObsPy
catalogue.  Numbers are rationals.  See core.py:1716-1978. -/
inductive J
  | null
  | bool (b : Bool)
  | num (x : ℚ)
  | str (s : String)
  | list (l : List J)
  | dict (d : List (String × J))
  | obj (n : ℕ)

/-- Options, `**args` of `run` (core.py:1716-1978). -/
abbrev Args := Dict String J

/-- Truth value of a Python value (core.py:1803, 1809-1826, 1897, 1908). -/
def J.truthy : J → Bool
  | .null => false
  | .bool b => b
  | .num x => decide (x ≠ 0)
  | .str s => decide (s ≠ "")
  | .list l => !l.isEmpty
  | .dict d => !d.isEmpty
  | .obj _ => true

mutual
/-- `json.dumps` accepts the value (core.py:1907, 1945, 1953, 1965, 1971). -/
def J.plain : J → Bool
  | .list l => plainList l
  | .dict d => plainDict d
  | .obj _ => false
  | _ => true
/-- All values of a list (core.py:1907, 1945, 1953, 1965, 1971). -/
def plainList : List J → Bool
  | [] => true
  | x :: l => x.plain && plainList l
/-- All values of a dictionary (core.py:1907, 1945, 1953, 1965, 1971). -/
def plainDict : List (String × J) → Bool
  | [] => true
  | (_, x) :: l => x.plain && plainDict l
end

/-- `args.pop(key, default)` (core.py:1705, 1798-1810, 1913-1917). -/
def popD (args : Args) (key : String) (default : J := .null) : J × Args :=
  ((args.get? key).getD default, args.pop key)

/-- `os.path.dirname` (posixpath) (core.py:1766, 1804, 1967). -/
def dirname (s : String) : String :=
  let head := (s.toList.reverse.dropWhile (fun c => decide (c ≠ '/'))).reverse
  let strip := (head.reverse.dropWhile (fun c => decide (c = '/'))).reverse
  String.ofList (if strip = [] then head else strip)

/-! ## Configuration file -/

/-- core.py:1682-1684, text of the configuration without comments. -/
def stripComments (s : List Char) : List Char :=
  ['\n'].intercalate ((s.splitOn '\n').map (fun l => l.takeWhile (fun c => decide (c ≠ '#'))))

/-- Result of opening a text file (core.py:1779-1788). -/
inductive Text
  | ok (s : List Char)
  | ioError
  | valueError

/-- A figure of a result (core.py:1541-1604). -/
inductive Fig
  | results | sites | sds | mags | eventresult | eventsites
  deriving DecidableEq

/-- Configuration passed to `logging.config.dictConfig`: the given one, or the level of the console
and, optionally, level and name of the log file (core.py:1687-1701). -/
inductive LogConf
  | given (c : J)
  | default (console : String) (file : Option (String × J))

/-- The world of `run`. -/
structure Env where
  /-- text of a file -/
  text : String → Text
  /-- `json.JSONDecoder.decode`, `none` for `ValueError` -/
  parse : List Char → Option J
  /-- `json.load(open(fname))` -/
  json : String → Py J
  /-- core.py:1851-1864, inventory and filter; `none` if an exception is raised -/
  inventory : J → J → Option J
  /-- core.py:1871-1885, events, filter, `resolve_seedid`, `read_events_kwargs` and inventory -/
  events : J → J → J → J → J → Option (List J)
  /-- core.py:1889-1890 `init_data`: `get_waveforms` and the four options -/
  initData : J → J → J → J → J → Option J
  /-- `get_eventid` -/
  eventid : J → String
  /-- `logging.config.dictConfig` and `captureWarnings` -/
  logging : LogConf → Py Unit
  /-- `os.makedirs(path, exist_ok=True)` -/
  mkdir : String → Py Unit
  /-- `open(fname, 'w')` -/
  openW : String → Py Unit
  /-- `invert_wrapper(noplots=..., **args)` -/
  invert : J → Args → Py J
  /-- `align_site_responses(result, **kw)`; the changed result -/
  align : J → Args → Py J
  /-- `calculate_source_properties(result, **kw)`; the changed result -/
  source : J → Args → Py J
  /-- creates a figure of the result with file name and options -/
  draw : Fig → J → J → Args → Py Unit
  /-- `fname.format(evid=eventid)` -/
  format : String → String → Py String

/-- Observable actions of `run` (core.py:1716-1978). -/
inductive Effect
  | message
  | mkdir (path : String)
  | copy (src dest : String)
  | logging (c : LogConf)
  | invert (noplots : J) (args : Args)
  | draw (fig : Fig) (result fname : J) (opts : Args)
  | stdout (r : J)
  | openW (fname : String)
  | dump (fname : String) (r indent : J)
  | mag (evid : String) (mw : Option ℚ)

/-- A computation with effects, which returns a value or raises (core.py:1716-1978). -/
structure Act (α : Type) where
  effects : List Effect
  out : Py α

namespace Act

/-- Sequential composition: nothing is done after an exception (core.py:1716-1978). -/
def bind {α β : Type} (m : Act α) (f : α → Act β) : Act β :=
  match m.out with
  | .ok a => ⟨m.effects ++ (f a).effects, (f a).out⟩
  | .error e => ⟨m.effects, .error e⟩

instance : Monad Act where
  pure a := ⟨[], .ok a⟩
  bind := bind

/-- A computation without effects (core.py:1716-1978). -/
def lift {α : Type} (x : Py α) : Act α := ⟨[], x⟩

/-- An action of the world which may fail (core.py:1716-1978). -/
def emit {α : Type} (e : Effect) (x : Py α) : Act α := ⟨[e], x⟩

end Act

/-- core.py:1759-1760. -/
def normConf (conf : Option String) : Option String :=
  match conf with
  | some c => if c ∈ ["None", "none", "null", ""] then none else some c
  | none => none

/-- core.py:1779-1791; the inner `none` means that the configuration cannot be read.  The options given
as arguments are preferred. -/
def loadConf (env : Env) (conf : Option String) (args : Args) : Py (Option Args) :=
  match conf with
  | none => .ok (some args)
  | some c =>
    match env.text c with
    | .ioError => .ok none
    | .valueError => .ok none
    | .ok s =>
      match env.parse (stripComments s) with
      | none => .ok none
      | some (.dict d) => .ok (some (Dict.update d args))
      | some _ => .error .attributeError

/-! ## Preparation of the options -/

/-- core.py:1794-1795, one of the two lines. -/
def setMean (args : Args) (key : String) (m : J) : Py Args :=
  match args.get? key with
  | none => .ok args
  | some (.dict d) => .ok (args.set key (.dict (Dict.setdefault d "mean" m)))
  | some _ => .error .attributeError

/-- core.py:1792-1795. -/
def meanDefault (args : Args) : Py Args :=
  match args.get? "mean" with
  | none => .ok args
  | some m => do
    let args ← setMean args "plot_results_options" m
    setMean args "plot_sites_options" m

/-- core.py:1811-1813 `plottargets`. -/
def plotTargets : List String :=
  ["energies", "optimization", "fits", "eventresult", "eventsites", "results", "sites", "sds", "mags",
   "remove_response"]

/-- core.py:1818-1820, keys of the options with file names. -/
def optionKeys : List String :=
  ["plot_energies_options", "plot_optimization_options", "plot_fits_options",
   "plot_eventresult_options", "plot_eventsites_options", "plot_results_options",
   "plot_sites_options", "plot_sds_options", "plot_mags_options", "remove_response_options"]

/-- core.py:1821-1822; `other` for a list or a string instead of a dictionary. -/
def prefixFname (p : String) (args : Args) (key : String) : Py Args :=
  match args.get? key with
  | none => .ok args
  | some (.dict d) =>
    match Dict.get? d "fname" with
    | none => .ok args
    | some (.str f) => .ok (args.set key (.dict (Dict.set d "fname" (.str (p ++ f)))))
    | some _ => .error .typeError
  | some (.list _) => .error .other
  | some (.str _) => .error .other
  | some _ => .error .typeError

/-- core.py:1817-1822, loop over the figures. -/
def prefixAll (p : String) (args : Args) : Py Args :=
  optionKeys.foldlM (prefixFname p) args

/-- core.py:1815-1816, `prefix + output`. -/
def prefixOutput (p : String) (output : J) : Py J :=
  match output with
  | .null => .ok .null
  | .str s => .ok (.str (p ++ s))
  | _ => .error .typeError

/-- core.py:1807-1808, name of the log file. -/
def prefixLog (p : String) (logfile : J) : J :=
  match logfile with
  | .str s => .str (p ++ s)
  | v => v

/-- core.py:1823-1826. -/
def setPlots (plots : J) (args : Args) : Py Args :=
  match plots with
  | .null => .ok args
  | .bool b => .ok (plotTargets.foldl (fun a t => a.set ("plot_" ++ t) (.bool b)) args)
  | _ => .error .assertion

/-- The prepared options (core.py:1792-1826). -/
structure Prep where
  args : Args
  loggingc : J
  verbose : J
  loglevel : J
  logfile : J
  output : J
  indent : J

/-- core.py:1796-1802, 1809-1810, options which are taken out. -/
def takeOut (cmd : String) (args : Args) : Prep × J :=
  let args := args.set "cmd" (.str cmd)
  let (loggingc, args) := popD args "logging"
  let (verbose, args) := popD args "verbose" (.num 0)
  let (loglevel, args) := popD args "loglevel" (.num 3)
  let (logfile, args) := popD args "logfile"
  let (pre, args) := popD args "prefix"
  let (output, args) := popD args "output"
  let (indent, args) := popD args "indent"
  ({ args := args, loggingc := loggingc, verbose := verbose, loglevel := loglevel
     logfile := logfile, output := output, indent := indent }, pre)

/-- core.py:1804-1806, directory of the prefix. -/
def prefixDir (env : Env) (p : String) : Act Unit :=
  if dirname p = "" then pure () else Act.emit (.mkdir (dirname p)) (env.mkdir (dirname p))

/-- core.py:1803-1822, everything which depends on the prefix. -/
def applyPrefix (env : Env) (pre : J) (pp : Prep) : Act Prep :=
  if pre.truthy then
    match pre with
    | .str p => do
      prefixDir env p
      let output ← Act.lift (prefixOutput p pp.output)
      let args ← Act.lift (prefixAll p pp.args)
      pure { pp with logfile := prefixLog p pp.logfile, output := output, args := args }
    | _ => Act.lift (.error .typeError)
  else pure pp

/-- core.py:1792-1826. -/
def prepare (env : Env) (cmd : String) (plots : J) (args : Args) : Act Prep := do
  let args ← Act.lift (meanDefault args)
  let pp ← applyPrefix env (takeOut cmd args).2 (takeOut cmd args).1
  let args ← Act.lift (setPlots plots pp.args)
  pure { pp with args := args }

/-! ## Logging -/

/-- core.py:59 `LOGLEVELS`. -/
def logLevels (x : ℚ) : Py String :=
  if x = 0 then .ok "CRITICAL" else if x = 1 then .ok "WARNING" else if x = 2 then .ok "INFO"
  else if x = 3 then .ok "DEBUG" else .error .keyError

/-- Number of a level, `True` and `False` are 1 and 0 (core.py:1692-1698). -/
def levelNum : J → Option ℚ
  | .num x => some x
  | .bool b => some (if b then 1 else 0)
  | _ => none

/-- Lookup of `loglevel` in `LOGLEVELS` (core.py:59, 1698). -/
def logLevelOf (v : J) : Py String :=
  match levelNum v, v with
  | some x, _ => logLevels x
  | none, .list _ => .error .typeError
  | none, .dict _ => .error .typeError
  | none, _ => .error .keyError

/-- core.py:1693, `logfile is None or loglevel == 0`. -/
def noLogFile (loglevel logfile : J) : Bool :=
  (match logfile with | .null => true | _ => false) || decide (levelNum loglevel = some 0)

/-- core.py:1693-1699. -/
def logFileConf (loglevel logfile : J) : Py (Option (String × J)) :=
  if noLogFile loglevel logfile then .ok none
  else do
    let l ← logLevelOf loglevel
    return some (l, logfile)

/-- core.py:1687-1699 `configure_logging`, up to the calls of the logging module. -/
def loggingConf (loggingc verbose loglevel logfile : J) : Py LogConf :=
  match loggingc with
  | .null =>
    match levelNum verbose with
    | none => .error .typeError                                               -- 1690
    | some v => do
      let c ← logLevels (if v > 3 then 3 else v)                              -- 1690-1692
      let f ← logFileConf loglevel logfile
      return .default c f
  | c => .ok (.given c)

/-- core.py:1687-1701. -/
def configureLogging (env : Env) (pp : Prep) : Act Unit := do
  let c ← Act.lift (loggingConf pp.loggingc pp.verbose pp.loglevel pp.logfile)
  Act.emit (.logging c) (env.logging c)

/-! ## Figures -/

/-- `'key' in value`; `other` for lists and strings.  See core.py:1552, 1934; imaging.py:546. -/
def hasKey (key : String) : J → Py Bool
  | .dict d => .ok (Dict.get? d key).isSome
  | .list _ => .error .other
  | .str _ => .error .other
  | _ => .error .typeError

/-- `any('W' in evres for evres in ...)` (core.py:1552). -/
def anyW : List J → Py Bool
  | [] => .ok false
  | e :: l => do
    let b ← hasKey "W" e
    if b then return true else anyW l

/-- The events of a result: `result.get('events', {})` (core.py:1552). -/
def eventsOf (result : Args) : Py Args :=
  match result.get? "events" with
  | none => .ok []
  | some (.dict d) => .ok d
  | some _ => .error .attributeError

/-- core.py:1552-1553. -/
def hasSpectra (result : Args) : Py Bool := do
  let evs ← eventsOf result
  let b ← anyW (evs.map Prod.snd)
  return b || (result.get? "W").isSome

/-- The first event of a result, `list(result['events'].values())[0]` (imaging.py:546). -/
def firstEvent (result : Args) : Py J :=
  match result.get? "events" with
  | none => .error .keyError
  | some (.dict ((_, e) :: _)) => .ok e
  | some (.dict []) => .error .indexError
  | some _ => .error .attributeError

/-- imaging.py:546-552, the result after `plot_results`: without `v0` if all events have been inverted
simultaneously. -/
def afterPlotResults (result : Args) : Py Args := do
  let e ← firstEvent result
  let b ← hasKey "g0" e
  return if b then result else result.pop "v0"

/-- Options of a figure and its file name (`copy` and `pop`) (core.py:1558-1603). -/
def figOptions (args : Args) (key : String) (default : String) : Py (J × Args) :=
  match args.get? key with
  | none => .ok (.str default, [])
  | some (.dict d) => .ok (popD d "fname" (.str default))
  | some _ => .error .attributeError

/-- An option which switches a figure on (core.py:1555-1597). -/
def switchedOn (args : Args) (key : String) : Bool := ((args.get? key).getD (.bool false)).truthy

/-- core.py:1555-1580, a figure of all results, if it is wanted. -/
def figure (env : Env) (fig : Fig) (wanted : Bool) (key : String) (default : String)
    (after : Args → Py Args) (args result : Args) : Act Args :=
  if wanted then do
    let o ← Act.lift (figOptions args key default)
    let r ← Act.lift (after result)
    Act.emit (.draw fig (.dict result) o.1 o.2) (env.draw fig (.dict result) o.1 o.2)
    pure r
  else pure result

/-- core.py:1582-1604, a figure of the result of an event. -/
def eventFigure (env : Env) (fig : Fig) (wanted : Bool) (key : String) (default evid : String)
    (args result : Args) : Act Unit :=
  if wanted then do
    let o ← Act.lift (figOptions args key default)
    match o.1 with
    | .str f => do
      let f ← Act.lift (env.format f evid)
      Act.emit (.draw fig (.dict result) (.str f) o.2) (env.draw fig (.dict result) (.str f) o.2)
    | _ => Act.lift (.error .attributeError)
  else pure ()

/-- core.py:1554-1580, figures of all results. -/
def figuresAll (env : Env) (wok : Bool) (args result : Args) : Act Args := do
  let result ← figure env .results (switchedOn args "plot_results" && (result.get? "g0").isSome)
    "plot_results_options" "results.pdf" afterPlotResults args result
  let result ← figure env .sites (switchedOn args "plot_sites" && (result.get? "R").isSome)
    "plot_sites_options" "sites.pdf" .ok args result
  let result ← figure env .sds (switchedOn args "plot_sds" && wok)
    "plot_sds_options" "sds.pdf" .ok args result
  figure env .mags (switchedOn args "plot_mags" && wok) "plot_mags_options" "mags.pdf" .ok args result

/-- core.py:1582-1604, figures of an event. -/
def figuresEvent (env : Env) (evid : String) (args result : Args) : Act Args := do
  eventFigure env .eventresult (switchedOn args "plot_eventresult") "plot_eventresult_options"
    "eventresult_{evid}.pdf" evid args result
  eventFigure env .eventsites (switchedOn args "plot_eventsites" && (result.get? "R").isSome)
    "plot_eventsites_options" "eventsites_{evid}.pdf" evid args result
  pure result

/-- core.py:1554, all results or a single event. -/
def figures (env : Env) (eventid : Option String) (wok : Bool) (args result : Args) : Act Args :=
  match eventid with
  | none => figuresAll env wok args result
  | some evid => figuresEvent env evid args result

/-- core.py:1541-1604 `_plot(result, eventid=eventid, **args)`; the result after drawing. -/
def plot (env : Env) (result : J) (eventid : Option String) (args : Args) : Act J :=
  if (args.get? "result").isSome || (args.get? "eventid").isSome then
    Act.lift (.error .typeError)
  else match result with
    | .dict r => do
      let wok ← Act.lift (hasSpectra r)
      let r ← figures env eventid wok args r
      pure (.dict r)
    | _ => Act.lift (.error .attributeError)

/-! ## Input files -/

/-- core.py:1704-1713 `_load_json_results`. -/
def loadResults (env : Env) (args : Args) (name : String) : Py (J × Args) :=
  match popD args name with
  | (.null, _) => .error .parseError
  | (.str f, args) => do
    let r ← env.json f
    return (r, args)
  | (v, args) => .ok (v, args)

/-- core.py:1932-1935, site responses of an event. -/
def replaceEventSites (evSites : Args) (evid : String) (evres : J) : Py J :=
  match evSites.get? evid with
  | none => .ok evres
  | some s => do
    let b ← hasKey "R" s
    if b then
      match evres with
      | .dict d => return .dict (Dict.set d "R" s)                            -- 1935
      | _ => .error .typeError
    else return evres

/-- core.py:1930-1935. -/
def replaceSitesEvents (rin sites : Args) : Py Args :=
  match rin.get? "events", sites.get? "events" with
  | some (.dict ei), some (.dict es) => do
    let ei ← mapExc (fun kv => do
      let v ← replaceEventSites es kv.1 kv.2
      return (kv.1, v)) ei
    return rin.set "events" (.dict ei)
  | some (.dict _), some _ => .error .typeError
  | some _, some _ => .error .attributeError
  | _, _ => .ok rin

/-- core.py:1928-1935, site responses from a second file. -/
def replaceSites (rin sites : J) : Py J :=
  match rin, sites with
  | .dict rin, .dict sites =>
    match Dict.get? sites "R" with
    | none => .error .keyError
    | some R => do
      let r ← replaceSitesEvents (Dict.set rin "R" R) sites
      return .dict r
  | _, _ => .error .typeError

/-! ## Reading of inventory, events and data -/

/-- Local variables after core.py:1843-1895. -/
structure Loaded where
  inventory : Option J
  events : Option (List J)
  waveforms : J
  args : Args

/-- core.py:1849-1864. -/
def loadInventory (env : Env) (args : Args) : Option (J × Args) := do
  let inv ← args.get? "inventory"
  let (filter, args) := popD (args.pop "inventory") "filter_inventory"
  let inventory ← env.inventory inv filter
  return (inventory, args)

/-- core.py:1867-1892. -/
def loadEvents (env : Env) (waveforms : J) (inventory : J) (args : Args) :
    Option (List J × J × Args) := do
  let ev ← args.get? "events"
  let (filter, args) := popD (args.pop "events") "filter_events"
  let (resolve, args) := popD args "resolve_seedid" (.bool false)
  let (kwargs, args) := popD args "read_events_kwargs" (.dict [])
  let events ← env.events ev filter resolve kwargs inventory
  let (data, args) := popD args "data"
  let (client, args) := popD args "client_options"
  let (plugin, args) := popD args "plugin"
  let (cache, args) := popD args "cache_waveforms"
  let gw ← env.initData waveforms data client plugin cache
  return (events, gw, args)

/-- core.py:1844-1895; `none` if an exception is raised. -/
def load (env : Env) (cmd : String) (align : Bool) (waveforms : J) (args : Args) : Option Loaded :=
  if cmd = "recalc_source" then
    if align then do
      let (inv, args) ← loadInventory env args
      return { inventory := some inv, events := none, waveforms := waveforms, args := args }
    else some { inventory := none, events := none, waveforms := waveforms, args := args }
  else do
    let (inv, args) ← loadInventory env args
    let (evs, gw, args) ← loadEvents env waveforms inv args
    return { inventory := some inv, events := some evs, waveforms := gw, args := args }

/-- core.py:1897-1904, the events with the given id. -/
def selectEvents (env : Env) (eventid : Option String) (events : Option (List J)) :
    Py (Option (List J)) :=
  match eventid with
  | none => .ok events
  | some id =>
    if id = "" then .ok events
    else match events with
      | none => .error .unboundLocal
      | some evs =>
        match evs.filter (fun ev => decide (env.eventid ev = id)) with
        | [] => if evs = [] then .error .indexError else .error .parseError
        | l => .ok (some l)

/-! ## The commands -/

/-- core.py:1918-1919, several stations for the alignment. -/
def alignStation (v : J) : Py J :=
  if v.truthy then
    match v with
    | .str s => .ok (if ',' ∈ s.toList then .list ((s.toList.splitOn ',').map (fun l => .str (String.ofList l)))
        else v)
    | .list l => .ok (.list l)
    | .dict _ => .error .other
    | _ => .error .typeError
  else .ok v

/-- core.py:1908-1919, options of the alignment, which are taken out. -/
def alignOptions (align : Bool) (args : Args) : Py (Args × Args) :=
  if align then do
    let (method, args) := popD args "seismic_moment_method"
    let (options, args) := popD args "seismic_moment_options"
    let (station, args) := popD args "align_sites_station"
    let (response, args) := popD args "align_sites_value" (.num 1)
    let station ← alignStation station
    return ([("seismic_moment_method", method), ("seismic_moment_options", options),
      ("station", station), ("response", response)], args)
  else return ([], args)

/-- core.py:1920-1924. -/
def addLoaded (ld : Loaded) (events : Option (List J)) (args : Args) : Args :=
  let args := match ld.inventory with
    | some i => args.set "inventory" i
    | none => args
  match events with
  | some evs => (args.set "get_waveforms" ld.waveforms).set "events" (.list evs)
  | none => args

/-- core.py:1925-1926, results of a previous run; `none` for the other commands. -/
def inputOf (env : Env) (cmd : String) (args : Args) : Py (Option J × Args) :=
  if cmd = "fixed" ∨ cmd = "source" ∨ cmd = "recalc_source" then do
    let (r, args) ← loadResults env args "input"
    return (some r, args)
  else return (none, args)

/-- core.py:1927-1938, option `input_sites`. -/
def inputSites (env : Env) (cmd : String) (rin : Option J) (args : Args) : Py (Option J × Args) :=
  match args.get? "input_sites", rin with
  | some _, some r =>
    if cmd = "source" ∨ cmd = "recalc_source" then do
      let (s, args) ← loadResults env args "input_sites"
      let r ← replaceSites r s
      return (some r, args)
    else return (rin, args)
  | _, _ => return (rin, args)

/-- core.py:1940-1941. -/
def withInput (cmd : String) (rin : Option J) (args : Args) : Args :=
  match rin with
  | some r => if cmd = "fixed" ∨ cmd = "source" then args.set "input" r else args
  | none => args

/-- core.py:1942-1945: the inversion; the result has to be serialisable. -/
def invertCmd (env : Env) (align : J) (args : Args) : Act J := do
  if (args.get? "noplots").isSome then Act.lift (.error .typeError)
  else do
    let r ← Act.emit (.invert align args) (env.invert align args)
    if r.plain then pure r else Act.lift (.error .typeError)

/-- core.py:1939-1947; `none` for an unbound variable (command `rt`). -/
def resultOf (env : Env) (cmd : String) (align : J) (rin : Option J) (args : Args) :
    Act (Option J) :=
  if cmd = "go" ∨ cmd = "fixed" ∨ cmd = "source" then do
    let r ← invertCmd env align args
    pure (some r)
  else if cmd = "recalc_source" then pure rin
  else pure none

/-- A variable which may be unbound (core.py:1943-1975). -/
def bound (r : Option J) : Py J :=
  match r with
  | some r => .ok r
  | none => .error .unboundLocal

/-- `result.setdefault('config', {}).update(kw)` (core.py:1952, 1962). -/
def updateConfig (r : J) (kw : Args) : Py J :=
  match r with
  | .dict d =>
    match Dict.get? d "config" with
    | none => .ok (.dict (Dict.set d "config" (.dict (Dict.update [] kw))))
    | some (.dict c) => .ok (.dict (Dict.set d "config" (.dict (Dict.update c kw))))
    | some _ => .error .attributeError
  | _ => .error .attributeError

/-- `json.dumps(value)` in a log message (core.py:1907, 1945, 1953). -/
def dumps (v : J) : Py Unit := if v.plain then .ok () else .error .typeError

/-- core.py:1948-1955, alignment of site responses. -/
def alignCmd (env : Env) (eventid : Option String) (kw args : Args) (r : Option J) : Act J := do
  let r ← Act.lift (bound r)
  let r ← Act.lift (env.align r kw)
  let r ← Act.lift (updateConfig r kw)
  Act.lift (dumps r)
  plot env r eventid args

/-- core.py:1956-1963, new source parameters. -/
def sourceCmd (env : Env) (eventid : Option String) (args : Args) (r : Option J) : Act J := do
  let (method, args) := popD args "seismic_moment_method"
  let (options, args) := popD args "seismic_moment_options"
  let kw : Args := [("seismic_moment_method", method), ("seismic_moment_options", options)]
  let r ← Act.lift (bound r)
  let r ← Act.lift (env.source r kw)
  let r ← Act.lift (updateConfig r kw)
  plot env r eventid args

/-- core.py:1948-1963. -/
def postProcess (env : Env) (cmd : String) (align : Bool) (eventid : Option String)
    (kw args : Args) (r : Option J) : Act (Option J) :=
  if align then do
    let r ← alignCmd env eventid kw args r
    pure (some r)
  else if cmd = "recalc_source" then do
    let r ← sourceCmd env eventid args r
    pure (some r)
  else pure r

/-- core.py:1967-1969, directory of the output file. -/
def outputDir (env : Env) (fname : String) : Act Unit :=
  if dirname fname = "" then pure ()
  else Act.emit (.mkdir (dirname fname)) (env.mkdir (dirname fname))

/-- core.py:1967-1971, output file: created before the result is written. -/
def writeResult (env : Env) (fname : String) (indent : J) (r : Option J) : Act Unit := do
  outputDir env fname
  Act.emit (.openW fname) (env.openW fname)
  let r ← Act.lift (bound r)
  Act.emit (.dump fname r indent) (dumps r)

/-- Names which stand for no output (core.py:1966). -/
def noOutput (s : String) : Bool :=
  decide (s.toList.map Char.toLower ∈ ["none".toList, "null".toList, []])

/-- core.py:1964-1971. -/
def writeOutput (env : Env) (output indent : J) (r : Option J) : Act Unit :=
  match output with
  | .null => pure ()
  | .str s =>
    if s = "stdout" then do
      let r ← Act.lift (bound r)
      Act.emit (.stdout r) (dumps r)
    else if noOutput s then pure ()
    else writeResult env s indent r
  | _ => Act.lift (.error .attributeError)

/-- core.py:1974-1975, magnitude of an event; `other` for values which are no numbers. -/
def printMag (kv : String × J) : Act Unit :=
  match kv.2 with
  | .dict d =>
    match Dict.get? d "Mw" with
    | none => Act.emit (.mag kv.1 none) (.ok ())
    | some (.num x) => Act.emit (.mag kv.1 (some x)) (.ok ())
    | some .null => Act.lift (.error .typeError)
    | some _ => Act.lift (.error .other)
  | .str _ => Act.lift (.error .other)
  | .list _ => Act.lift (.error .other)
  | _ => Act.lift (.error .typeError)

/-- Loop over the events (core.py:1972-1975). -/
def printAll : List (String × J) → Act Unit
  | [] => pure ()
  | kv :: l => do
    printMag kv
    printAll l

/-- core.py:1972-1975. -/
def printMags (want : Bool) (r : Option J) : Act Unit :=
  if want then do
    let r ← Act.lift (bound r)
    match r with
    | .dict d =>
      match Dict.get? d "events" with
      | none => pure ()
      | some (.dict evs) => printAll evs
      | some _ => Act.lift (.error .attributeError)
    | .str _ => Act.lift (.error .other)
    | .list _ => Act.lift (.error .other)
    | _ => Act.lift (.error .typeError)
  else pure ()

/-- core.py:1897-1978, the commands `go`, `fixed`, `source` and `recalc_source` with loaded data. -/
def process (env : Env) (cmd : String) (alignV : J) (eventid : Option String) (wantMag : Bool)
    (pp : Prep) (ld : Loaded) : Act J := do
  let events ← Act.lift (selectEvents env eventid ld.events)
  Act.lift (dumps (.dict ld.args))                                            -- 1907
  let (kw, args) ← Act.lift (alignOptions alignV.truthy ld.args)
  let args := addLoaded ld events args
  let (rin, args) ← Act.lift (inputOf env cmd args)
  let (rin, args) ← Act.lift (inputSites env cmd rin args)
  let args := withInput cmd rin args
  let r ← resultOf env cmd alignV rin args
  let r ← postProcess env cmd alignV.truthy eventid kw args r
  writeOutput env pp.output pp.indent r
  printMags wantMag r
  Act.lift (bound r)

/-- core.py:1831-1835, configuration for command `plot`. -/
def plotConfig (given : Bool) (args : Args) (r : Args) : Py (Args × Args) :=
  if given then .ok (r.set "config" (.dict args), args)
  else match r.get? "config" with
    | some (.dict c) => .ok (r.set "config" (.dict (Dict.update c args)), Dict.update c args)
    | some _ => .error .attributeError
    | none => .error .keyError

/-- core.py:1836-1837. -/
def plotEvent (eventid : Option String) (r : Args) : Py Args :=
  match eventid with
  | none => .ok r
  | some id =>
    match r.get? "events" with
    | some (.dict evs) =>
      match Dict.get? evs id with
      | some e => .ok (r.set "events" (.dict [(id, e)]))
      | none => .error .keyError
    | some _ => .error .typeError
    | none => .error .keyError

/-- core.py:1829-1839, command `plot`. -/
def plotCmd (env : Env) (given : Bool) (eventid : Option String) (args : Args) : Act J := do
  let (r, args) ← Act.lift (loadResults env args "input")
  match r with
  | .dict r => do
    let (r, args) ← Act.lift (plotConfig given args r)
    let r ← Act.lift (plotEvent eventid r)
    let _ ← plot env (.dict r) eventid args
    pure .null
  | _ => Act.lift (.error .typeError)

/-- core.py:1841-1978. -/
def mainCmd (env : Env) (cmd : String) (eventid : Option String) (waveforms : J) (wantMag : Bool)
    (pp : Prep) : Act J := do
  configureLogging env pp
  let (alignV, args) := popD pp.args "align_sites" (.bool false)
  match load env cmd alignV.truthy waveforms args with
  | none => pure .null
  | some ld => process env cmd alignV eventid wantMag pp ld

/-- core.py:1762-1777, command `create`; names of the example files relative to the package. -/
def create (conf : Option String) (tutorial : Bool) : List (String × String) :=
  let conf := conf.getD "conf.json"
  let join := fun f : String =>
    let d := dirname conf
    if d = "" then f else if d.toList.getLast? = some '/' then d ++ f else d ++ "/" ++ f
  ("conf.json", conf) :: (if tutorial then
    ["example_events.xml", "example_inventory.xml", "example_data.mseed"].map (fun f => (f, join f))
  else [])

/-- core.py:1745-1747, the known commands. -/
def commands : List String := ["create", "go", "fixed", "source", "recalc_source", "plot", "rt"]

/-- Arguments of `run` (core.py:1716-1722). -/
structure Call where
  cmd : String := "go"
  conf : Option String := none
  tutorial : Bool := false
  eventid : Option String := none
  waveforms : J := .null
  printMag : Bool := false
  plots : J := .null
  args : Args := []

/-- core.py:1792-1978, with merged options. -/
def runWith (env : Env) (c : Call) (args : Args) : Act J := do
  let pp ← prepare env c.cmd c.plots args
  if c.cmd = "plot" then plotCmd env (normConf c.conf).isSome c.eventid pp.args
  else mainCmd env c.cmd c.eventid c.waveforms c.printMag pp

/-- core.py:1716-1978 `run`. -/
def run (env : Env) (c : Call) : Act J :=
  if c.cmd ∈ commands then
    if c.cmd = "create" then
      ⟨(create (normConf c.conf) c.tutorial).map (fun p => .copy p.1 p.2), .ok .null⟩
    else do
      let a ← Act.lift (loadConf env (normConf c.conf) c.args)
      match a with
      | none => Act.emit .message (.ok .null)
      | some args => runWith env c args
  else Act.lift (.error .valueError)

/-- Options of the caller after the call: nested dictionaries are shared with `run`, which changes
them in place (core.py:1794-1795, 1822). -/
def callerAfter (env : Env) (c : Call) : Args :=
  match loadConf env (normConf c.conf) c.args with
  | .ok (some args) =>
    match (prepare env c.cmd c.plots args).out with
    | .ok pp => c.args.map (fun kv => match kv.2 with
      | .dict d => (kv.1, match pp.args.get? kv.1 with
        | some (.dict d') => .dict d'
        | _ => .dict d)
      | v => (kv.1, v))
    | .error _ => c.args
  | _ => c.args

/-! ## Command line -/

/-- Parameters of `run` with own names (core.py:1716-1722). -/
def ownParams : List String :=
  ["cmd", "conf", "pdb", "tutorial", "eventid", "get_waveforms", "print_mag", "plots"]

/-- core.py:2126-2127, `args.update(args.pop('overwrite_conf', {}))`.  Lists of pairs, which `update`
accepts as well, are left out. -/
def cmdlineArgs (parsed : Args) : Py Args :=
  match popD parsed "overwrite_conf" (.dict []) with
  | (.dict d, a) => .ok (Dict.update a d)
  | (.list [], a) => .ok a
  | _ => .error .typeError

/-- A text or nothing (core.py:1716-1722). -/
def J.text? : J → Option String
  | .str s => some s
  | _ => none

/-- The call `run(**args)`: parameters with own names are bound (core.py:1716-1722), the rest is
`**args`.  Command, configuration file and event id are texts, as the parser delivers them; `pdb` is
left out. -/
def callOf (args : Args) : Call where
  cmd := match args.get? "cmd" with
    | some v => (J.text? v).getD ""
    | none => "go"
  conf := ((args.get? "conf").getD .null).text?
  tutorial := ((args.get? "tutorial").getD (.bool false)).truthy
  eventid := ((args.get? "eventid").getD .null).text?
  waveforms := (args.get? "get_waveforms").getD .null
  printMag := ((args.get? "print_mag").getD (.bool false)).truthy
  plots := (args.get? "plots").getD .null
  args := args.filter (fun kv => decide (kv.1 ∉ ownParams))

/-- core.py:2121-2131, the end of `run_cmdline`: `parsed` are the values of the parser.  The command
`rt` is passed to `rt.main` (`none`), see `Verif/Model/Rt.lean`.  A `ParseError` is shown by the parser
and ends the program. -/
def runCmdline (env : Env) (parsed : Args) : Option (Act J) :=
  match parsed.get? "cmd" with
  | some (.str "rt") => none
  | _ => some (do
    let args ← Act.lift (cmdlineArgs parsed)
    run env (callOf args))

/-! ## Data source -/

/-- What a call of the data source may raise (core.py:1651-1660). -/
inductive Raised
  | keyboardInterrupt | systemExit | generatorExit | exception
  deriving DecidableEq

/-- core.py:1651-1660, the wrapper of the data source; `none` for `None`. -/
def waveformWrapper {α : Type} (r : Except Raised α) : Except Raised (Option α) :=
  match r with
  | .ok d => .ok (some d)
  | .error .exception => .ok none
  | .error e => .error e

/-! ## Configuration in the result -/

/-- core.py:1522-1526, entry `config` of the result of `invert_wrapper`. -/
def resultConfig (kwargs : Args) (simultaneous mean : J) : Py Args :=
  sortDict (Dict.set (Dict.set (dumpConfig.filterMap (fun k => (kwargs.get? k).map (fun v => (k, v))))
    "invert_events_simultaneously" simultaneous) "mean" mean) dumpConfig

/-- `njobs == 1` (core.py:1351); `True == 1` holds in Python. -/
def J.isOne : J → Bool
  | .num x => decide (x = 1)
  | .bool b => b
  | _ => false

/-- core.py:522-526, the object passed as `skip` after a call of `invert_fb`: a dictionary is changed
in place, `None` is replaced by a local dictionary.  Other values have no method `setdefault`. -/
def skipAfterBand : J → Py J
  | .null => .ok .null
  | .dict d => .ok (.dict (Dict.setdefault d "coda_window" (.num (1 / 20))))
  | _ => .error .attributeError

/-- core.py:1351-1361, the object passed as `skip` after the inversion of `bands` frequency bands (0 if
`invert` returns before): the bands share the object without pool, workers get copies. -/
def skipAfterInvert (njobs : J) (skip : J) : ℕ → Py J
  | 0 => .ok skip
  | n + 1 => do
      let s ← skipAfterBand skip
      if njobs.isOne then skipAfterInvert njobs s n else skipAfterInvert njobs skip n

/-- core.py:1480-1493, the object passed as `skip` after all calls of `invert`; each call is given by
the number of frequency bands which are inverted. -/
def skipAfter (njobs : J) (skip : J) : List ℕ → Py J
  | [] => .ok skip
  | n :: calls => do
      let s ← skipAfterInvert njobs skip n
      skipAfter njobs s calls

/-- core.py:1480-1526, entry `config` of the result, given the calls of `invert` which happened.  The
other listed options are copied before they are changed (core.py:559, 931, 1241, 1306). -/
def documented (kwargs : Args) (calls : List ℕ) (simultaneous mean : J) : Py Args :=
  match Dict.get? kwargs "skip" with
  | none => resultConfig kwargs simultaneous mean
  | some skip => do
      let s ← skipAfter ((Dict.get? kwargs "njobs").getD .null) skip calls
      resultConfig (Dict.set kwargs "skip" s) simultaneous mean

end Qopen.Run
