import Verif.Model.Run

/-!
# Model of the instrument correction (core.py:1028-1031, 1063, 1240-1288)

`Verif/Model/Invert.lean` only knows which streams survive (`Invert.correct`); here the loop is
modelled with channels, options and figures.
-/

namespace Qopen.Response

open Run

/-- Data of a channel (core.py:1251-1279). -/
structure RTrace where
  id : String
  data : List ℝ

/-- The three channels of a pair of event and station (core.py:1251-1286). -/
structure RStream where
  event : String
  station : String
  traces : List RTrace

/-- Instrument response of a channel in the inventory: the overall sensitivity may be missing
(core.py:1277-1279). -/
structure Resp where
  sensitivity : Option ℝ
  stages : ℕ

/-- Option `remove_response` (core.py:1037, 1063). -/
inductive Mode
  | full | sensitivity
  deriving DecidableEq

/-- ObsPy and formatting of file names (core.py:1028-1031, 1240-1288). -/
structure Env where
  /-- `attach_response`: response of the channel, `none` if there is none -/
  responseOf : String → Option Resp
  /-- `Trace.remove_response(**kw)` with the response of the trace: the new data or an exception -/
  deconvolve : Args → Resp → List ℝ → Py (List ℝ)
  /-- `fname.format(evid=evid, tr=tr)` -/
  format : String → String → String → Py String

/-- Options of the correction (core.py:1037-1038, 1242-1245). -/
structure Opts where
  plot : Bool
  options : Args

/-- A figure: file name, event and channel of the data it shows (core.py:1028-1031, 1260-1264). -/
structure Figure where
  file : J
  event : String
  channel : String

/-- core.py:1063 with `None` for no correction; `AssertionError` for other values. -/
def mode : J → Py (Option Mode)
  | .null => .ok none
  | .str s => if s = "full" then .ok (some .full)
      else if s = "sensitivity" then .ok (some .sensitivity) else .error .assertion
  | _ => .error .assertion

/-- core.py:1242-1243, template of the file names; it has to be a text. -/
def template (o : Opts) : Py String :=
  match o.options.get? "fname" with
  | none => .ok "remove_response_{evid}_{tr.id}.png"
  | some (.str s) => .ok s
  | some _ => .error .attributeError

/-- core.py:1242-1245, the options handed to ObsPy apart from the name of the figure. -/
def passed (o : Opts) : Args :=
  if o.plot then (o.options.pop "fname").pop "plot" else o.options.pop "fname"

/-- core.py:1028-1030, options of `Trace.remove_response`. -/
def traceOptions (env : Env) (o : Opts) (evid : String) (tr : RTrace) : Py Args :=
  if o.plot then do
    let t ← template o
    let f ← env.format t evid tr.id
    return (passed o).setdefault "plot" (.str f)
  else .ok (passed o)

/-- core.py:1260-1264, a trace; the figure is drawn if option `plot` is set (simplified: if the
correction itself succeeds). -/
def fullTrace (env : Env) (o : Opts) (evid : String) (event : String) (tr : RTrace) :
    Py RTrace × List Figure :=
  match env.responseOf tr.id with
  | none => (.error .other, [])
  | some resp =>
    match traceOptions env o evid tr with
    | .error e => (.error e, [])
    | .ok kw =>
      match env.deconvolve kw resp tr.data with
      | .error e => (.error e, [])
      | .ok d => (.ok { tr with data := d }, match kw.get? "plot" with
        | some f => if f.truthy then [⟨f, event, tr.id⟩] else []
        | none => [])

/-- core.py:1260-1264, the loop over the traces; it ends with the first exception. -/
def fullTraces (env : Env) (o : Opts) (evid : String) (event : String) :
    List RTrace → Py (List RTrace) × List Figure
  | [] => (.ok [], [])
  | tr :: trs =>
    match fullTrace env o evid event tr with
    | (.error e, figs) => (.error e, figs)
    | (.ok tr', figs) =>
      let r := fullTraces env o evid event trs
      (r.1.map (fun l => tr' :: l), figs ++ r.2)

/-- core.py:1277-1279, division by the sensitivity; without sensitivity `AttributeError`. -/
noncomputable def sensTrace (env : Env) (tr : RTrace) : Py RTrace :=
  match (env.responseOf tr.id).bind Resp.sensitivity with
  | none => .error .attributeError
  | some s => .ok { tr with data := tr.data.map (fun x => x / s) }

/-- core.py:1280-1286, the stream with new traces, `none` after an exception. -/
def keep (s : RStream) : Py (List RTrace) → Option RStream
  | .ok l => some { s with traces := l }
  | .error _ => none

/-- core.py:1251-1286, a pass of the loop over the streams; `none` for a skipped pair. -/
noncomputable def correctStream (env : Env) (m : Mode) (o : Opts) (evid : String) (s : RStream) :
    Option RStream × List Figure :=
  if s.traces.any (fun tr => (env.responseOf tr.id).isNone) then (none, [])   -- 1252-1258
  else
    match m with
    | .full =>
      let r := fullTraces env o evid s.event s.traces
      (keep s r.1, r.2)
    | .sensitivity =>
      (keep s (mapExc (sensTrace env) s.traces), [])

/-- core.py:1240-1288, the streams after the correction and the figures in the order in which they are
drawn.  `evid` is the event of the last pair of the loop before (core.py:1190-1191). -/
noncomputable def correctAll (env : Env) (m : Mode) (o : Opts) (evid : String)
    (streams : List RStream) : List RStream × List Figure :=
  (streams.filterMap (fun s => (correctStream env m o evid s).1),
   streams.flatMap (fun s => (correctStream env m o evid s).2))

/-- core.py:1246-1248, the template has to be a text if figures are drawn. -/
def checkTemplate (o : Opts) : Py Unit :=
  if o.plot then (template o).map (fun _ => ()) else .ok ()

/-- core.py:1190-1191, 1240-1288, pairs of the loop which gets the data and streams which were
found. -/
noncomputable def removeResponse (env : Env) (option : J) (o : Opts) (pairs : List (String × String))
    (streams : List RStream) : Py (List RStream × List Figure) :=
  match mode option with
  | .error e => .error e
  | .ok none => .ok (streams, [])
  | .ok (some m) =>
    (checkTemplate o).map (fun _ => correctAll env m o ((pairs.getLast?.map Prod.fst).getD "") streams)

end Qopen.Response
