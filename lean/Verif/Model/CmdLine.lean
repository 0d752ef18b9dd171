import Verif.Model.Run

/-!
# Model of the command line parser of `run_cmdline` (core.py:1981-2131)

The option table is the one which is built by `add_argument` (core.py:1981-2119).  The parser is
`argparse` of Python 3.11 for such tables: exact names, unique abbreviations of long names, values with
`=`, concatenated short options, exclusive pairs.  `json.loads`, `int` and the digits of regular
expressions are parameters.  The parser of the command `rt` is in `Verif/Model/CmdLineRt.lean`; help
texts and messages are left out.
-/

namespace Qopen.CmdLine

open Run

/-- Conversion of a value, argument `type` of `add_argument` (core.py:2001-2118). -/
inductive Conv
  | text | json | int
  deriving DecidableEq, Repr

/-- What an option does: argument `action` of `add_argument` (core.py:2001-2118). -/
inductive Kind
  | help | version | flag (b : Bool) | count | value (c : Conv)
  deriving DecidableEq, Repr

/-- An option, call of `add_argument`; `group` is the mutually exclusive group (core.py:1982). -/
structure Opt where
  flags : List String
  dest : String
  kind : Kind
  group : Option String := none
  deriving DecidableEq, Repr

/-- Number of values which belong to the option (core.py:2001-2118). -/
def Kind.takesValue : Kind → Bool
  | .value _ => true
  | _ => false

/-- core.py:1983, `feature.replace('-', '_')`, also done by `argparse` for `--feature`. -/
def destOf (feature : String) : String :=
  String.ofList (feature.toList.map (fun c => if c = '-' then '_' else c))

/-- `add_argument('--' + feature, default=SUPPRESS, type=conv)` (core.py:2049-2118). -/
def valueOpt (conv : Conv) (feature : String) : Opt := ⟨["--" ++ feature], destOf feature, .value conv, none⟩

/-- core.py:1981-1987 `_add_bool_argument`. -/
def boolOpts (feature : String) : List Opt :=
  [⟨["--" ++ feature], destOf feature, .flag true, some feature⟩,
   ⟨["--no-" ++ feature], destOf feature, .flag false, some feature⟩]

/-- Option `-h`, added by `ArgumentParser` (core.py:2001, 2042). -/
def helpOpt : Opt := ⟨["-h", "--help"], "help", .help, none⟩

/-- core.py:2001. -/
def mainOpts : List Opt := [helpOpt, ⟨["--version"], "version", .version, none⟩]

/-- core.py:2045-2048, 2051, option `--conf`. -/
def confOpt : Opt := ⟨["-c", "--conf"], "conf", .value .text, none⟩

/-- core.py:2049-2060. -/
def commonOpts : List Opt :=
  [confOpt, ⟨["-v", "--verbose"], "verbose", .count, none⟩, ⟨["--pdb"], "pdb", .flag true, none⟩,
   ⟨["-e", "--eventid"], "eventid", .value .text, none⟩, valueOpt .text "prefix"]

/-- core.py:2061-2073. -/
def alignOpts : List Opt :=
  boolOpts "align-sites" ++ [valueOpt .text "align-sites-station", valueOpt .json "align-sites-value"]

/-- core.py:2078-2101. -/
def configOpts : List Opt :=
  ["events", "inventory", "data", "output", "input", "input-sites", "seismic-moment-method"].map
      (valueOpt .text) ++
    ["filter-events", "filter-inventory", "seismic-moment-options"].map (valueOpt .json) ++
    [valueOpt .int "njobs"] ++
    ["resolve-seedid", "invert-events-simultaneously", "print-mag"].flatMap boolOpts ++
    [valueOpt .json "overwrite-conf"]

/-- core.py:2103-2118. -/
def plotOpts : List Opt :=
  boolOpts "plots" ++ boolOpts "plot-remove-response" ++
    ["energies", "optimization", "fits", "eventresult", "eventsites", "results", "sites", "sds",
      "mags"].flatMap (fun f => boolOpts ("plot-" ++ f) ++ [valueOpt .json ("plot-" ++ f ++ "-options")])

/-- core.py:2042-2118, options of a command in the order of definition. -/
def options : String → List Opt
  | "create" => [helpOpt, ⟨["--tutorial"], "tutorial", .flag true, none⟩, confOpt]
  | "go" => [helpOpt] ++ commonOpts ++ alignOpts ++ [valueOpt .text "dump-optpkl"] ++
      [valueOpt .text "dump-fitpkl"] ++ configOpts ++ plotOpts
  | "fixed" => [helpOpt] ++ commonOpts ++ alignOpts ++ [valueOpt .text "dump-fitpkl"] ++ configOpts ++
      plotOpts
  | "source" => [helpOpt] ++ commonOpts ++ [valueOpt .text "dump-fitpkl"] ++ configOpts ++ plotOpts
  | "recalc_source" => [helpOpt] ++ commonOpts ++ alignOpts ++ configOpts ++ plotOpts
  | "plot" => [helpOpt] ++ commonOpts ++ [valueOpt .text "input"] ++ plotOpts
  | _ => []

/-- core.py:2046, 2051, 2056, values of options which are not given; the others are `SUPPRESS`. -/
def defaults (cmd : String) : Args :=
  if cmd = "create" then [("conf", .str "conf.json")]
  else [("conf", .str "conf.json"), ("pdb", .bool false)]

/-- How the program ends without a call of `run`: message with status 2, help or version with status 0.
`rt` stands for the command `rt` with these arguments, see `parseRt` (core.py:1981-1999, 2121). -/
inductive Exit
  | error | help | version | rt (args : List String)
  deriving DecidableEq

/-- Functions of Python which are not modelled (core.py:2121). -/
structure Lang where
  /-- `json.loads`, `none` for `ValueError` -/
  json : List Char → Option J
  /-- `int`, `none` for `ValueError` -/
  int : List Char → Option ℤ
  /-- `\d` of regular expressions -/
  digit : Char → Bool
  digit_dot : digit '.' = false

/-! ## argparse -/

/-- A string which looks like an option: action (if known), name, whether the value follows `=`, and
the value in the same string (core.py:2121). -/
structure Tup where
  opt : Option Opt
  name : List Char
  sep : Bool
  explicit : Option (List Char)

/-- `_option_string_actions`: names of options with their actions (core.py:2121). -/
def names (tbl : List Opt) : List (List Char × Opt) :=
  tbl.flatMap (fun o => o.flags.map (fun f => (f.toList, o)))

/-- `_option_string_actions[name]` (core.py:2121). -/
def lookup (tbl : List Opt) (name : List Char) : Option Opt :=
  ((names tbl).find? (fun p => decide (p.1 = name))).map (·.2)

/-- `s.partition('=')`; `none` if there is no `=`.  See core.py:2121. -/
def partitionEq (s : List Char) : List Char × Option (List Char) :=
  (s.takeWhile (fun c => decide (c ≠ '=')),
    match s.dropWhile (fun c => decide (c ≠ '=')) with
    | [] => none
    | _ :: v => some v)

/-- `_get_option_tuples` (core.py:2121). -/
def optionTuples (tbl : List Opt) (s : List Char) : List Tup :=
  match s with
  | '-' :: '-' :: _ =>
    let (pre, val) := partitionEq s
    ((names tbl).filter (fun p => pre.isPrefixOf p.1)).map
      (fun p => ⟨some p.2, p.1, val.isSome, val⟩)
  | _ =>
    (names tbl).filterMap (fun p =>
      if p.1 = s.take 2 then some ⟨some p.2, p.1, false, some (s.drop 2)⟩
      else if s.isPrefixOf p.1 then some ⟨some p.2, p.1, false, none⟩
      else none)

/-- `_negative_number_matcher`: `^-\d+$|^-\d*\.\d+$`.  A newline at the end, which `$` accepts as
well, is left out.  See core.py:2121. -/
def isNegative (py : Lang) (s : List Char) : Bool :=
  match s with
  | '-' :: t =>
    (!t.isEmpty && t.all py.digit) ||
      (match t.dropWhile py.digit with
      | '.' :: u => !u.isEmpty && u.all py.digit
      | _ => false)
  | _ => false

/-- `_parse_optional`; `none` for an argument.  See core.py:2121. -/
def parseOptional (py : Lang) (tbl : List Opt) (s : List Char) : Except Exit (Option Tup) :=
  if s.head? ≠ some '-' then .ok none
  else match lookup tbl s with
  | some o => .ok (some ⟨some o, s, false, none⟩)
  | none =>
    if s.length = 1 then .ok none
    else
      let (pre, val) := partitionEq s
      match val, lookup tbl pre with
      | some v, some o => .ok (some ⟨some o, pre, true, some v⟩)
      | _, _ =>
        match optionTuples tbl s with
        | [t] => .ok (some t)
        | _ :: _ :: _ => .error .error
        | [] =>
          if isNegative py s then .ok none
          else if ' ' ∈ s then .ok none
          else .ok (some ⟨none, s, false, none⟩)

/-- Class of a string, `arg_strings_pattern`: `A`, `-` or `O` (core.py:2121). -/
inductive Item
  | arg (s : List Char)
  | dash
  | opt (s : List Char) (t : Tup)

/-- `_parse_known_args`, classes of all strings (core.py:2121). -/
def classify (py : Lang) (tbl : List Opt) : List (List Char) → Except Exit (List Item)
  | [] => .ok []
  | s :: l =>
    if s = ['-', '-'] then .ok (.dash :: l.map .arg)
    else do
      let t ← parseOptional py tbl s
      let r ← classify py tbl l
      .ok ((match t with
        | none => .arg s
        | some t => .opt s t) :: r)

/-- End of the loop over one string in `consume_optional` (core.py:2121). -/
inductive Stop
  /-- the string is used up -/
  | done
  /-- the values of the option are in the next strings -/
  | next (o : Opt)
  /-- the rest of the string is not known -/
  | extra

/-- Loop in `consume_optional` for option `o` with a value in the same string; `short` if the name
begins with a single dash.  See core.py:2121. -/
def chain (tbl : List Opt) : Opt → Bool → Bool → List Char →
    Except Exit (List (Opt × Option (List Char)) × Stop)
  | o, _, _, [] => if o.kind.takesValue then .ok ([(o, some [])], .done) else .error .error
  | o, short, sep, c :: e =>
    if o.kind.takesValue then .ok ([(o, some (c :: e))], .done)
    else if short then
      if sep || c = '-' then .error .error
      else match lookup tbl ['-', c] with
      | none => .ok ([(o, none)], .extra)
      | some o' =>
        match e with
        | [] => .ok ([(o, none)], .next o')
        | d :: e' => do
          let r ← if d = '=' then chain tbl o' true true e' else chain tbl o' true false (d :: e')
          .ok ((o, none) :: r.1, r.2)
    else .error .error

/-- Values, options which were taken, and strings which were not recognised (core.py:2121). -/
structure St where
  ns : Args
  seen : List Opt := []
  extras : Bool := false

/-- `take_action`, `_get_values` and the action itself (core.py:2121). -/
def take (py : Lang) (st : St) (o : Opt) (v : Option (List Char)) : Except Exit St := do
  let val : J ← (match o.kind with
    | .value .text => .ok (.str (String.ofList (v.getD [])))
    | .value .json => (match py.json (v.getD []) with
      | some j => .ok j
      | none => .error .error)
    | .value .int => (match py.int (v.getD []) with
      | some n => .ok (.num n)
      | none => .error .error)
    | _ => .ok .null)
  if o.group.isSome && st.seen.any (fun p => decide (p.group = o.group ∧ p ≠ o)) then .error .error
  else
    let st := { st with seen := o :: st.seen }
    match o.kind with
    | .help => .error .help
    | .version => .error .version
    | .flag b => .ok { st with ns := Dict.set st.ns o.dest (.bool b) }
    | .count =>
      let n := match st.ns.get? o.dest with
        | some (.num n) => n
        | _ => 0
      .ok { st with ns := Dict.set st.ns o.dest (.num (n + 1)) }
    | .value _ => .ok { st with ns := Dict.set st.ns o.dest val }

/-- Takes several actions (core.py:2121). -/
def takeAll (py : Lang) : St → List (Opt × Option (List Char)) → Except Exit St
  | st, [] => .ok st
  | st, (o, v) :: l => do
    let st ← take py st o v
    takeAll py st l

/-- `consume_optional`; returns the state and whether the next string is used.  See core.py:2121. -/
def consume (py : Lang) (tbl : List Opt) (st : St) (t : Tup) (rest : List Item) :
    Except Exit (St × Bool) :=
  match t.opt with
  | none => .ok ({ st with extras := true }, false)
  | some o => do
    let (acts, stop) ← (match t.explicit with
      | none => .ok ([], .next o)
      | some e => chain tbl o (decide (t.name[1]? ≠ some '-')) t.sep e)
    match stop with
    | .done => do
      let st ← takeAll py st acts
      .ok (st, false)
    | .extra => do
      let st ← takeAll py st acts
      .ok ({ st with extras := true }, false)
    | .next o =>
      if o.kind.takesValue then
        match rest with
        | .arg v :: _ => do
          let st ← takeAll py st (acts ++ [(o, some v)])
          .ok (st, true)
        | _ => .error .error
      else do
        let st ← takeAll py st (acts ++ [(o, none)])
        .ok (st, false)

/-- `_parse_known_args` of a parser without positional arguments (core.py:2121). -/
def parseItems (py : Lang) (tbl : List Opt) : St → List Item → Except Exit St
  | st, [] => .ok st
  | st, .arg _ :: l => parseItems py tbl { st with extras := true } l
  | st, .dash :: l => parseItems py tbl { st with extras := true } l
  | st, .opt _ t :: l => do
    let r ← consume py tbl st t l
    match l with
    | [] => .ok r.1
    | i :: l => if r.2 then parseItems py tbl r.1 l else parseItems py tbl r.1 (i :: l)

/-- `parse_known_args` of the parser of a command (core.py:2121). -/
def parseCommand (py : Lang) (cmd : String) (args : List (List Char)) : Except Exit St := do
  let items ← classify py (options cmd) args
  parseItems py (options cmd) ⟨defaults cmd, [], false⟩ items

/-- `_parse_known_args` of the main parser: `args` are the strings of the items (core.py:2121). -/
def parseMain (py : Lang) (st : St) : List (List Char × Item) → Except Exit Args
  | [] => if st.extras then .error .error else .ok [("cmd", .null)]
  | (s, .arg _) :: l =>
    let cmd := String.ofList s
    if cmd ∈ commands then
      if cmd = "rt" then .error (.rt (l.map (fun p => String.ofList p.1)))
      else do
        let r ← parseCommand py cmd (l.map (·.1))
        if st.extras || r.extras then .error .error
        else .ok (Dict.update [("cmd", .str cmd)] r.ns)
    else .error .error
  | (_, .dash) :: _ => .error .error
  | (_, .opt _ t) :: l => do
    let (st, _) ← consume py mainOpts st t (l.map (·.2))
    parseMain py st l

/-- core.py:2121 `mainp.parse_args(args)`: values, `vars(args)`. -/
def parseArgs (py : Lang) (argv : List String) : Except Exit Args := do
  let args := argv.map String.toList
  let items ← classify py mainOpts args
  parseMain py ⟨[], [], false⟩ (args.zip items)

/-- core.py:1990-2131 `run_cmdline`: end of the program without call of `run`, or the call. -/
def cmdline (py : Lang) (env : Env) (argv : List String) : Except Exit (Option (Act J)) := do
  let parsed ← parseArgs py argv
  .ok (runCmdline env parsed)

end Qopen.CmdLine
