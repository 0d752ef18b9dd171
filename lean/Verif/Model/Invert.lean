import Verif.Model.Window
import Verif.Model.Catalog
import Verif.Model.Freqs
import Verif.Model.Source

/-!
# Model of `invert` (core.py:1034-1442)

Inventory, waveform client, distance calculation and instrument correction are parameters.  Log
messages, plots and the order of the keys of the result are left out.
-/

namespace Qopen.Invert

open Real Util Tr Energy InvertFb Window Catalog Freqs Source

/-- Coordinates of a channel (`inventory.get_coordinates`) (core.py:1093-1094, 1102). -/
structure Coord where
  latitude : ℝ
  longitude : ℝ
  elevation : ℝ
  localDepth : ℝ

/-- A trace returned by the waveform client (core.py:1199-1234). -/
structure RawTrace where
  id : String
  start : ℝ
  sr : ℝ
  data : List ℝ

/-- The surroundings of `invert`. -/
structure Env where
  /-- `inventory.get_contents()['channels']` -/
  channels : List String
  /-- `list(set(l))`: any order -/
  setOrder : List String → List String
  /-- `inventory.get_coordinates(channel, datetime)`, `none` for an exception -/
  coords : String → ℝ → Option Coord
  /-- `gps2dist_azimuth(lat1, lon1, lat2, lon2)[0]`, `none` for an exception -/
  gps : ℝ → ℝ → ℝ → ℝ → Option ℝ
  /-- `get_waveforms` for event id, channel pattern and time window -/
  getWaveforms : String → String → ℝ → ℝ → Py (Option (List RawTrace))
  /-- number of gaps longer than 1 s -/
  numGaps : List RawTrace → ℕ
  /-- `Stream.merge` -/
  merge : List RawTrace → List RawTrace
  /-- instrument correction (core.py:1249-1286), `none` for a failure -/
  response : Stream → Option (List (List ℝ))
  lib : Lib
  wls : List ℝ → List (List ℝ) → List ℝ → List ℝ × ℝ
  G : Greens
  minimize : (ℝ → Py (WithTop ℝ)) → Py ℝ
  orc : Oracle

/-- The command (core.py:1052, 1063). -/
inductive Cmd
  | go | fixed | source
  deriving DecidableEq

/-- Results of a former inversion, argument `input` (core.py:1052, 1333-1349). -/
structure FixInput where
  freq : List ℝ
  g0 : List Cell
  b : List Cell
  R : Dict String (List Cell) := []

/-- Options of `invert`; those handed over to `invert_fb` are in `wcfg` and `inv`, the entries
`freqBand`, `codaNorm`, `rho0`, `fixSites`, ... are set by `invert`.  See core.py:1034-1055. -/
structure InvCfg where
  requestWindow : ℝ × ℝ
  freqs : FreqOpt
  rho0 : ℝ
  vp : Option ℝ := none
  vs : Option ℝ := none
  removeResponse : Bool := false
  /-- `skip['distance']` -/
  skipDistance : Option ℝ := none
  /-- `skip['num_pairs']` -/
  numPairs : Option ℝ := none
  usePicks : Bool := false
  correctForElevation : Bool := false
  subtractLocalDepth : Bool := false
  njobs : Option ℕ := none
  smm : Option Method := none
  smo : Option Opts := none
  cmd : Cmd := .go
  input : Option FixInput := none
  codaNorm : Option (ℝ × ℝ) := none
  tolerance : ℝ := 0.5
  ignoreNetworkCode : Bool := false
  wcfg : WCfg
  inv : Cfg

/-! ## Pairs of events and stations (core.py:1067-1187) -/

/-- core.py:1073-1075 `origins`. -/
def originsOf (events : List Event) : Py (Dict String Origin) :=
  events.foldlM (fun d ev => do
    let o ← getOrigin ev
    return d.set (getEventid ev) o) []

/-- core.py:1076-1079 `arrivals`. -/
def arrivalsOf (events : List Event) : Py (Dict String (List Arrival)) :=
  events.foldlM (fun d ev => do
    let ar ← getArrivals ev
    return match ar with
      | some l => d.set (getEventid ev) l
      | none => d) []

/-- core.py:1076-1079: the arrivals are only needed with `use_picks`. -/
def arrivalsIf (cfg : InvCfg) (events : List Event) : Py (Dict String (List Arrival)) :=
  if cfg.usePicks then arrivalsOf events else .ok []

/-- core.py:1084 `stations`. -/
def stationsOf (env : Env) : List String := env.setOrder (env.channels.map getStation)

/-- core.py:1085 `one_channel`: the last channel of the station; the default is never used. -/
def oneChannel (env : Env) (sta : String) : String :=
  ((env.channels.filter (fun ch => decide (getStation ch = sta))).getLast?).getD ""

/-- core.py:1086-1087. -/
def allPairs (env : Env) (origins : Dict String Origin) : List (String × String) :=
  origins.keys.flatMap (fun ev => (stationsOf env).map (fun sta => (ev, sta)))

/-- core.py:1098-1114 `_get_distance`; `none` is an exception. -/
noncomputable def distance (env : Env) (cfg : InvCfg) (ori : Origin) (sta : String) : Option ℝ :=
  match env.coords (oneChannel env sta) ori.time with                         -- 1102-1104
  | none => none
  | some c =>
    match env.gps c.latitude c.longitude ori.latitude ori.longitude with      -- 1105-1106
    | none => none
    | some hdist =>
      let elev := if cfg.subtractLocalDepth then c.elevation else c.elevation + c.localDepth -- 1107-1109
      match ori.depth with                                                    -- 1110-1111
      | none => none
      | some depth =>
        let vdist := depth + elev * (if cfg.correctForElevation then 1 else 0) - c.localDepth
        some (sqrt (hdist ^ 2 + vdist ^ 2))                                   -- 1114

/-- core.py:1112-1113: local depth of more than `BOREHOLE_STATION_DEPTH`. -/
noncomputable def deepStation (env : Env) (ori : Origin) (sta : String) : Prop :=
  ∃ c, env.coords (oneChannel env sta) ori.time = some c ∧
    (∃ h, env.gps c.latitude c.longitude ori.latitude ori.longitude = some h) ∧
    ori.depth.isSome ∧ c.localDepth > 10

/-- `origins[evid]`; the key always exists.  See core.py:1100, 1139, 1146, 1194. -/
def originAt (origins : Dict String Origin) (evid : String) : Origin :=
  (origins.get? evid).getD ⟨0, 0, 0, some 0, []⟩

/-- State of the first loop over the pairs (core.py:1116-1135). -/
structure DistState where
  pairs : List (String × String)
  distances : Dict (String × String) ℝ := []

open Classical in
/-- core.py:1130-1135: the pair is too far away. -/
noncomputable def tooFar (cfg : InvCfg) (d : ℝ) : Bool :=
  match cfg.skipDistance with
  | none => false
  | some v => decide (v ≠ 0 ∧ d / 1000 > v)

/-- core.py:1117-1135, one pass of the loop. -/
noncomputable def distStep (env : Env) (cfg : InvCfg) (origins : Dict String Origin)
    (st : DistState) (pair : String × String) : DistState :=
  match distance env cfg (originAt origins pair.1) pair.2 with
  | none => { st with pairs := st.pairs.erase pair }                          -- 1120-1129
  | some d =>
    let st := { st with distances := st.distances.set pair d }                -- 1119
    if tooFar cfg d then { st with pairs := st.pairs.erase pair } else st

/-- core.py:1116-1135, distances of the pairs and pairs which are not too far away. -/
noncomputable def distLoop (env : Env) (cfg : InvCfg) (origins : Dict String Origin) : DistState :=
  (allPairs env origins).foldl (distStep env cfg origins) { pairs := allPairs env origins }

/-- `distances[pair]`; the key exists for all pairs in the list.  See core.py:1139, 1233. -/
noncomputable def distAt (distances : Dict (String × String) ℝ) (pair : String × String) : ℝ :=
  (distances.get? pair).getD 0

open Classical in
/-- Order of the keys in core.py:1138-1139. -/
noncomputable def lePair (origins : Dict String Origin) (distances : Dict (String × String) ℝ)
    (p q : String × String) : Bool :=
  let t := (originAt origins p.1).time
  let t' := (originAt origins q.1).time
  decide (t < t' ∨ t = t' ∧ distAt distances p ≤ distAt distances q)

/-- core.py:1138-1139; `sorted` is stable. -/
noncomputable def sortPairs (origins : Dict String Origin) (st : DistState) :
    List (String × String) := st.pairs.mergeSort (lePair origins st.distances)

/-- core.py:1147-1150, onsets from picks or the velocity; P and S. -/
noncomputable def firstOnsets (cfg : InvCfg) (arrivals : Dict String (List Arrival))
    (ori : Origin) (dist : ℝ) (pair : String × String) : Py (Option ℝ × Option ℝ) :=
  if cfg.usePicks then
    match arrivals.get? pair.1 with
    | none => .error .keyError
    | some l => do
      let picks ← getPicks l pair.2
      return (picks.get? ['P'], picks.get? ['S'])
  else
    match cfg.vs with
    | none => .error .typeError
    | some vs => if vs = 0 then .error .other else .ok (none, some (ori.time + dist / vs))

/-- core.py:1145-1153 `_get_onsets`. -/
noncomputable def onsets (cfg : InvCfg) (arrivals : Dict String (List Arrival))
    (ori : Origin) (dist : ℝ) (pair : String × String) : Py (Option ℝ × Option ℝ) := do
  let ps ← firstOnsets cfg arrivals ori dist pair
  match ps.1, ps.2, cfg.vp with
  | none, some s, some vp =>
    if vp = 0 then .error .other else return (some (ori.time + dist / vp), some s)
  | _, _, _ => return ps

/-- State of the loop over the onsets (core.py:1141-1164). -/
structure OnsetState where
  pairs : List (String × String)
  ponset : Dict (String × String) ℝ := []
  sonset : Dict (String × String) ℝ := []

/-- core.py:1158-1164, one pass of the loop. -/
noncomputable def onsetStep (cfg : InvCfg) (arrivals : Dict String (List Arrival))
    (origins : Dict String Origin) (distances : Dict (String × String) ℝ)
    (st : OnsetState) (pair : String × String) : Py OnsetState := do
  let ps ← onsets cfg arrivals (originAt origins pair.1) (distAt distances pair) pair
  match ps.1, ps.2 with
  | some p, some s =>
    return { st with ponset := st.ponset.set pair p, sonset := st.sonset.set pair s }
  | some p, none => return { st with ponset := st.ponset.set pair p, pairs := st.pairs.erase pair }
  | none, _ => return { st with pairs := st.pairs.erase pair }

/-- core.py:1180-1184, 1291-1294: too few pairs. -/
def tooFew (cfg : InvCfg) (n : ℕ) : Prop := n = 0 ∨ ∃ v, cfg.numPairs = some v ∧ (n : ℝ) ≤ v

/-! ## Waveforms (core.py:1189-1289) -/

/-- core.py:1192 `one_channel[station][:-1] + '?'`. -/
def pattern (env : Env) (sta : String) : String :=
  String.ofList ((oneChannel env sta).toList.dropLast ++ ['?'])

open Classical in
/-- core.py:434-442 `_check_times` for the traces of a stream. -/
noncomputable def covers (tol t1 t2 : ℝ) (tr : RawTrace) : Bool :=
  decide (t1 - tr.start + tol > 0 ∧
    tr.start + ((tr.data.length - 1 : ℕ) : ℝ) / tr.sr - t2 + tol > 0)

/-- core.py:1201-1219, checks and merge of the data. -/
noncomputable def checkData (env : Env) (cfg : InvCfg) (t1 t2 : ℝ) (raw : Option (List RawTrace)) :
    Option (List RawTrace) :=
  match raw with
  | none => none
  | some [] => some []
  | some l =>
    if env.numGaps l > 0 then none                                            -- 1203-1206
    else if (env.merge l).all (covers cfg.tolerance t1 t2) then some (env.merge l) -- 1211-1219
    else none

/-- core.py:1227-1234, the stream handed over to the inversion; `station` is determined from the
id of the first trace (`get_pair(stream[0])`). -/
noncomputable def mkStream (evid : String) (ori : Origin) (p s d : ℝ) (deep : String → Bool)
    (traces : List RawTrace) : Stream :=
  let first := traces.headD ⟨"", 0, 0, []⟩
  { event := evid, station := getStation first.id, start := first.start, sr := first.sr
    channels := traces.map RawTrace.data, origin := ori.time, ponset := p, sonset := s, distance := d
    borehole := deep (getStation first.id) }

/-- core.py:1191-1234, one pass of the loop; `none` is a skipped pair. -/
noncomputable def fetch (env : Env) (cfg : InvCfg) (origins : Dict String Origin)
    (distances : Dict (String × String) ℝ) (st : OnsetState) (deep : String → Bool)
    (pair : String × String) : Py (Option Stream) := do
  let ori := originAt origins pair.1
  let t1 := ori.time + cfg.requestWindow.1
  let t2 := ori.time + cfg.requestWindow.2
  let raw ← env.getWaveforms pair.1 (pattern env pair.2) t1 t2                -- 1199
  match checkData env cfg t1 t2 raw with
  | none => return none
  | some traces =>
    if traces.length ≠ 3 then return none                                     -- 1222-1226
    else return some (mkStream pair.1 ori ((st.ponset.get? pair).getD 0)
      ((st.sonset.get? pair).getD 0) (distAt distances pair) deep traces)

/-- core.py:1240-1288, optional instrument correction; streams with failures are skipped. -/
noncomputable def correct (env : Env) (cfg : InvCfg) (streams : List Stream) : List Stream :=
  if cfg.removeResponse then
    streams.filterMap (fun s => (env.response s).map (fun ch => { s with channels := ch }))
  else streams

open Classical in
/-- core.py:1112-1113, 1175: stations in `borehole_stations` after the loop over all pairs. -/
noncomputable def boreholes (env : Env) (origins : Dict String Origin) (sta : String) : Bool :=
  decide (sta ∈ stationsOf env ∧ ∃ ori ∈ origins.map Prod.snd, deepStation env ori sta)

open Classical in
/-- core.py:1067-1294: the streams which reach the inversion; `none` if the event is skipped. -/
noncomputable def selectStreams (env : Env) (cfg : InvCfg) (events : List Event) :
    Py (Option (List Stream)) := do
  let origins ← originsOf events
  let arrivals ← arrivalsIf cfg events
  let ds := distLoop env cfg origins
  let pairs := sortPairs origins ds
  match pairs.foldlM (onsetStep cfg arrivals origins ds.distances) { pairs := pairs } with
  | .error .other => .error .other
  | .error _ => return none                                                   -- 1165-1171
  | .ok os =>
    if tooFew cfg os.pairs.length then return none                            -- 1180-1184
    else
      let streams ← mapExc (fetch env cfg origins ds.distances os (boreholes env origins)) os.pairs
      let streams := correct env cfg (streams.filterMap id)
      if tooFew cfg streams.length then return none                           -- 1291-1294
      else return some streams

/-! ## Inversion of all bands (core.py:1313-1361) -/

/-- Station name without network code; SEED codes contain no dots.  See core.py:1318-1322. -/
def dropNetwork (sta : String) : String :=
  String.ofList (if '.' ∈ sta.toList then (sta.toList.dropWhile (· ≠ '.')).drop 1 else sta.toList)

/-- core.py:1318-1321; the borehole stations keep their network codes. -/
noncomputable def ignoreNetworks (cfg : InvCfg) (deep : String → Bool) (streams : List Stream) :
    List Stream :=
  if cfg.ignoreNetworkCode then
    streams.map (fun s => { s with station := dropNetwork s.station,
                                   borehole := deep (dropNetwork s.station) })
  else streams

/-- core.py:1322-1323 `stations`; `st.split('.', 1)[1]` raises `IndexError` without dot. -/
def resultStations (env : Env) (cfg : InvCfg) : Py (List String) :=
  if cfg.ignoreNetworkCode then do
    let l ← mapExc (fun st : String => if '.' ∈ st.toList then .ok (dropNetwork st)
      else .error .indexError) (stationsOf env)
    return fromKeys l
  else .ok (stationsOf env)

/-- core.py:1341-1342, the values of a frequency in `fix_params`; NaN is not modelled. -/
def fixCell (c : Cell) : Py (Option ℝ) :=
  match c with
  | .none => .ok none
  | .num x => .ok (some x)
  | .nan => .error .other

open Classical in
/-- core.py:1333-1342 `fix_params`, by frequency band. -/
noncomputable def fixParams (bands : Dict ℝ (ℝ × ℝ)) (fp : FixInput) :
    Py (Dict (ℝ × ℝ) (Option ℝ × Option ℝ)) :=
  if (∀ f ∈ fp.freq, f ∈ bands.keys) ∧ ∀ f ∈ bands.keys, f ∈ fp.freq then
    (fp.freq.zip (fp.g0.zip fp.b)).foldlM (fun d x => do
      let band ← dictGet bands x.1
      let g ← fixCell x.2.1
      let b ← fixCell x.2.2
      return d.set band (g, b)) []
  else .error .valueError                                                     -- 1337-1340

/-- core.py:1348-1349, one station; `None` is left out (as NaN, which is skipped in core.py:553). -/
def siteEntry (i : ℕ) (sv : String × List Cell) : Py (Option (String × ℝ)) := do
  let c ← pyGet sv.2 i
  return c.val?.map (fun x => (sv.1, x))

open Classical in
/-- core.py:1343-1349 `fix_sites_params`. -/
noncomputable def fixSites (bands : Dict ℝ (ℝ × ℝ)) (fp : FixInput) :
    Py (Dict (ℝ × ℝ) (Dict String ℝ)) :=
  (fp.freq.zipIdx).foldlM (fun d fi => do
    let band ← dictGet bands fi.1
    let l ← mapExc (siteEntry fi.2) fp.R
    return d.set band (l.filterMap id)) []

/-- Arguments of all calls of `invert_fb` (core.py:1325-1349). -/
structure BandArgs where
  fix : Bool
  sites : Bool
  params : Dict (ℝ × ℝ) (Option ℝ × Option ℝ) := []
  siteParams : Dict (ℝ × ℝ) (Dict String ℝ) := []

/-- core.py:1325-1349. -/
noncomputable def bandArgs (cfg : InvCfg) (bands : Dict ℝ (ℝ × ℝ)) : Py BandArgs :=
  match cfg.cmd with
  | .go => .ok { fix := false, sites := false }
  | .fixed =>
    match cfg.input with
    | none => .error .typeError
    | some fp => do
      let p ← fixParams bands fp
      return { fix := true, sites := false, params := p }
  | .source =>
    match cfg.input with
    | none => .error .typeError
    | some fp => do
      let p ← fixParams bands fp
      let s ← fixSites bands fp
      return { fix := true, sites := true, params := p, siteParams := s }

open Classical in
/-- Options of `invert_fb` in a band (data preparation) (core.py:1325-1361). -/
noncomputable def bandWCfg (cfg : InvCfg) (args : BandArgs) (band : ℝ × ℝ) : WCfg :=
  { cfg.wcfg with
    freqBand := band, rho0 := cfg.rho0, codaNorm := cfg.codaNorm,
    fixSites := args.sites, fixSitesParams := (args.siteParams.get? band).getD [],
    numPairs := cfg.numPairs.getD 1 }

open Classical in
/-- core.py:493-1024, the call for one band; `fix_params[freq_band]` raises `KeyError` if the band
is missing. -/
noncomputable def runBand (env : Env) (cfg : InvCfg) (args : BandArgs) (streams : List Stream)
    (band : ℝ × ℝ) : Py (Option BandResult) :=
  let call (p : Option ℝ × Option ℝ) :=
    invertFb env.lib env.wls env.G env.minimize (bandWCfg cfg args band)
      { cfg.inv with fix := args.fix, fixParams := p } streams
  if args.fix then
    match args.params.get? band with
    | some p => call p
    | none => .error .keyError
  else call (none, none)

open Classical in
/-- core.py:546-564, what `invert_fb` does to a stream in place: the traces are detrended and
filtered unless the pair is skipped. -/
noncomputable def filtered (env : Env) (wcfg : WCfg) (s : Stream) : Stream :=
  if wcfg.freqBand.1 + wcfg.freqBand.2 > s.sr then s
  else if wcfg.fixSites && (wcfg.fixSitesParams.get? s.station).isNone then s
  else { s with channels := s.channels.map (env.lib.filt (filterSpec wcfg s.sr) s.sr) }

/-- A call of `invert_fb` on streams which are shared with other calls: result and streams
afterwards (core.py:546-567, 1356-1361). -/
noncomputable def runBandInPlace (env : Env) (cfg : InvCfg) (args : BandArgs)
    (streams : List Stream) (band : ℝ × ℝ) : Py (Option BandResult × List Stream) := do
  let r ← runBand env cfg args streams band
  return (r, streams.map (filtered env (bandWCfg cfg args band)))

/-- Bands which are processed one after the other with the same streams (core.py:1351-1361). -/
noncomputable def runShared (env : Env) (cfg : InvCfg) (args : BandArgs) :
    List Stream → List (ℝ × ℝ) → Py (List (Option BandResult))
  | _, [] => .ok []
  | streams, band :: bands => do
    let r ← runBandInPlace env cfg args streams band
    let rs ← runShared env cfg args r.2 bands
    return r.1 :: rs

/-- core.py:1351-1355, `njobs == 1`: each band gets a copy of the streams (a single band uses the
streams themselves). -/
noncomputable def runSequential (env : Env) (cfg : InvCfg) (args : BandArgs)
    (streams : List Stream) (bands : List (ℝ × ℝ)) : Py (List (Option BandResult)) :=
  if bands.length > 1 then mapExc (runBand env cfg args streams) bands
  else runShared env cfg args streams bands

/-- `multiprocessing.Pool.map` cuts the tasks into chunks of this size (`Pool._map_async`)
(core.py:1356-1361). -/
def chunkSize (n workers : ℕ) : ℕ := if n % (workers * 4) = 0 then n / (workers * 4)
  else n / (workers * 4) + 1

/-- `Pool._get_tasks` (core.py:1356-1361). -/
def chunks {α : Type} (size : ℕ) (l : List α) : List (List α) :=
  if h : size = 0 ∨ l = [] then []
  else l.take size :: chunks size (l.drop size)
termination_by l.length
decreasing_by
  push Not at h
  have := List.length_pos_iff.2 h.2
  simp only [List.length_drop]
  omega

/-- The result buffer of `Pool.map` (`MapResult._set`): chunk results arrive in any order and are
stored at their place; the first exception which arrives is raised.  See core.py:1356-1361. -/
def store {β : Type} (buf : List (List β)) (i : ℕ) (r : Py (List β)) : Py (List (List β)) := do
  let r ← r
  return buf.set i r

/-- core.py:1356-1361: every chunk is pickled together with the function (and the streams bound to
it), so its bands share one copy of the streams.  `schedule` is the order in which the chunks
finish. -/
noncomputable def runPool (env : Env) (cfg : InvCfg) (args : BandArgs) (streams : List Stream)
    (bands : List (ℝ × ℝ)) (workers : ℕ) (schedule : List ℕ) : Py (List (Option BandResult)) := do
  let cs := chunks (chunkSize bands.length workers) bands
  let buf ← schedule.foldlM (fun buf i =>
    store buf i (runShared env cfg args streams (cs.getD i []))) (List.replicate cs.length [])
  return buf.flatten

/-! ## Result tables (core.py:1363-1426) -/

/-- Result of `invert`; `none` for missing keys.  See core.py:1370-1426. -/
structure InvRes where
  freq : List ℝ
  g0 : Option (List Cell)
  b : Option (List Cell)
  error : List Cell
  nstations : List ℕ
  v0 : Option ℝ
  R : Option (Dict String (List Cell))
  events : Dict String EvRes

/-- The misfit of a band as a table entry; an infinite misfit is not modelled.  See core.py:1393. -/
noncomputable def errorCell (r : Option BandResult) : Py Cell :=
  match r with
  | none => .ok .none
  | some r =>
    match r.error with
    | ⊤ => .error .other
    | (x : ℝ) => .ok (.num x)

/-- core.py:1395-1400, 1402-1408: entry of a station or event in a band. -/
def entry (table : BandResult → Option (Dict String ℝ)) (key : String) (r : Option BandResult) :
    Cell :=
  Cell.ofOption ((r.bind table).bind (fun d => d.get? key))

/-- core.py:1391-1392: the last velocity. -/
def lastV0 (rlist : List (Option BandResult)) : Option ℝ :=
  ((rlist.filterMap id).getLast?).map (fun r => r.v0)

/-- core.py:1402-1408, row of `W` of an event id; every event with this id adds an entry per
band. -/
def rowW (ids : List String) (rlist : List (Option BandResult)) (evid : String) : List Cell :=
  rlist.flatMap (fun r => (ids.filter (fun i => decide (i = evid))).map (fun _ => entry (·.W) evid r))

/-- core.py:1074, 1415: `event_dict[evid]`, the last event with the id. -/
def eventOf (events : List Event) (ev : Event) : Event :=
  (events.reverse.find? (fun e => decide (getEventid e = getEventid ev))).getD ev

/-- core.py:1410-1416, source properties of the events. -/
noncomputable def sourceEvents (env : Env) (cfg : InvCfg) (freq : List ℝ) (v0 : Option ℝ)
    (rlist : List (Option BandResult)) (events : List Event) : Py (Dict String EvRes) := do
  let ids := events.map getEventid
  let start : Dict String EvRes := (fromKeys ids).map (fun id => (id, ⟨rowW ids rlist id, [], []⟩))
  events.foldlM (fun d ev => do
    let e ← dictGet d (getEventid ev)
    let e ← insertSourceProperties env.orc freq e v0 (some cfg.rho0) cfg.smm cfg.smo
      (getMagnitude (eventOf events ev))
    return d.set (getEventid ev) e) start

/-- core.py:1369, 1402-1416, 1419: `events` of the result, empty with coda normalisation. -/
noncomputable def eventTables (env : Env) (cfg : InvCfg) (freq : List ℝ) (v0 : Option ℝ)
    (rlist : List (Option BandResult)) (events : List Event) : Py (Dict String EvRes) :=
  if cfg.codaNorm.isNone then sourceEvents env cfg freq v0 rlist events else .ok []

/-- core.py:1363-1426, from the results of the bands to the result dictionary. -/
noncomputable def tables (env : Env) (cfg : InvCfg) (events : List Event) (stations : List String)
    (freq : List ℝ) (rlist : List (Option BandResult)) : Py (Option InvRes) :=
  if rlist.all Option.isNone then .ok none                                    -- 1364-1366
  else do
    let fix := cfg.cmd ≠ .go
    let Rok := cfg.cmd ≠ .source ∧ cfg.codaNorm.isNone
    let err ← mapExc errorCell rlist
    let v0 := lastV0 rlist
    let evs ← eventTables env cfg freq v0 rlist events
    return some
      { freq := freq
        g0 := if fix then none else some (rlist.map (fun r => Cell.ofOption (r.bind (·.g0))))
        b := if fix then none else some (rlist.map (fun r => Cell.ofOption (r.bind (·.b))))
        error := err
        nstations := rlist.map (fun r => (r.map (·.nstations)).getD 0)
        v0 := v0
        R := if Rok then some (stations.map (fun st => (st, rlist.map (entry (·.R) st)))) else none
        events := evs }

/-- core.py:1351-1361: with one job the bands are processed one after the other, otherwise by a
pool of workers (`cpus` workers by default); a pool without workers raises `ValueError`. -/
noncomputable def runBands (env : Env) (cfg : InvCfg) (args : BandArgs) (streams : List Stream)
    (bands : List (ℝ × ℝ)) (cpus : ℕ) (schedule : List ℕ) : Py (List (Option BandResult)) :=
  if cfg.njobs = some 1 then runSequential env cfg args streams bands
  else if cfg.njobs = some 0 then .error .valueError
  else runPool env cfg args streams bands (cfg.njobs.getD cpus) schedule

/-- core.py:1034-1442 `invert`.  The final check in lines 1420-1423 is always passed, because a band with
a result has a value of g0 if it is not fixed. -/
noncomputable def invert (env : Env) (cfg : InvCfg) (cpus : ℕ) (schedule : List ℕ)
    (events : List Event) : Py (Option InvRes) :=
  if cfg.codaNorm.isSome ∧ cfg.cmd ≠ .go then .error .valueError              -- 1064-1065
  else do
    let bands ← getFreqs cfg.freqs                                            -- 1081
    let streams ← selectStreams env cfg events
    match streams with
    | none => return none
    | some streams =>
      let origins ← originsOf events
      let streams := ignoreNetworks cfg (boreholes env origins) streams
      let stations ← resultStations env cfg
      let args ← bandArgs cfg bands
      let rlist ← runBands env cfg args streams (bands.map Prod.snd) cpus schedule
      tables env cfg events stations bands.keys rlist

end Qopen.Invert
