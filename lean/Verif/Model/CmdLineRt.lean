import Verif.Model.CmdLine
import Verif.Model.RtFigure

/-!
# Model of the command line of `qopen rt` (rt.py:298-326, core.py:2036-2041, 2121-2124)

The parser is `argparse` of Python 3.11 for a command, a number and a list of numbers as positional
arguments and the options of rt.py:309-320; the parts which do not depend on the kind of parser are
shared with `Verif/Model/CmdLine.lean`.  The conversion to `float` is a parameter; infinite and missing
numbers are left out.
-/

namespace Qopen.CmdLine

open Rt

/-- rt.py:298-299 `CHOICES_TYPE`. -/
def rtTypes : List String :=
  ["rt3d", "rt2d", "rt1d", "diff3d", "diff2d", "diff1d", "diffapprox3d", "diffapprox2d", "diffapprox1d"]

/-- rt.py:305, values of `command`. -/
def rtCommands : List String := ["calc", "calc-direct", "plot-t", "plot-r", "plot-rt"]

/-- rt.py:309-319, options.  All values are texts here, they are converted in `rtTake`; option `--type`
takes one or more values. -/
def rtOpts : List Opt :=
  [helpOpt, ⟨["-r"], "r", .value .text, none⟩, ⟨["-t"], "t", .value .text, none⟩,
   ⟨["-a", "--absorption"], "absorption", .value .text, none⟩, ⟨["--log"], "log", .flag true, none⟩,
   ⟨["--no-direct"], "no_direct", .flag true, none⟩, ⟨["--type"], "type", .value .text, none⟩]

/-- rt.py:306-308, positional arguments. -/
inductive Pos
  | command | c | l
  deriving DecidableEq

/-- Values, positional arguments which are still expected, and whether strings were not recognised
(rt.py:305-326). -/
structure RtSt where
  command : Option String := none
  c : Option ℝ := none
  ls : Option (List ℝ) := none
  r : Option ℝ := none
  t : Option ℝ := none
  absorption : Option ℝ := none
  log : Bool := false
  noDirect : Bool := false
  types : List String := ["rt3d"]
  expected : List Pos := [.command, .c, .l]
  extras : Bool := false

/-- `type=float`: the text is not a number if `none` (rt.py:307-312). -/
def rtNumber (num : List Char → Option ℝ) (v : List Char) : Except Exit ℝ :=
  match num v with
  | some x => .ok x
  | none => .error .error

/-- `type=float` for all values of an argument (rt.py:308). -/
def rtNumbers (num : List Char → Option ℝ) : List (List Char) → Except Exit (List ℝ)
  | [] => .ok []
  | v :: l => do
    let x ← rtNumber num v
    let r ← rtNumbers num l
    .ok (x :: r)

/-- rt.py:309-319, conversion of the values and action of an option. -/
def rtTake (num : List Char → Option ℝ) (st : RtSt) (dest : String) (vs : List (List Char)) :
    Except Exit RtSt :=
  match dest with
  | "help" => .error .help
  | "r" => do
    let x ← rtNumber num (vs.headD [])
    .ok { st with r := some x }
  | "t" => do
    let x ← rtNumber num (vs.headD [])
    .ok { st with t := some x }
  | "absorption" => do
    let x ← rtNumber num (vs.headD [])
    .ok { st with absorption := some x }
  | "log" => .ok { st with log := true }
  | "no_direct" => .ok { st with noDirect := true }
  | "type" =>
    if ∀ v ∈ vs, String.ofList v ∈ rtTypes then .ok { st with types := vs.map String.ofList }
    else .error .error
  | _ => .error .error

/-- rt.py:305-308, conversion of the values and action of a positional argument. -/
def posTake (num : List Char → Option ℝ) (st : RtSt) (p : Pos) (vs : List (List Char)) :
    Except Exit RtSt :=
  match p with
  | .command =>
    if String.ofList (vs.headD []) ∈ rtCommands then
      .ok { st with command := some (String.ofList (vs.headD [])) }
    else .error .error
  | .c => do
    let x ← rtNumber num (vs.headD [])
    .ok { st with c := some x }
  | .l => do
    let l ← rtNumbers num vs
    .ok { st with ls := some l }

/-- `_match_arguments_partial`: as many of the expected arguments as possible get their values, the last
one takes all which are left (rt.py:305-308, 326). -/
def assign : List Pos → List (List Char) → List (Pos × List (List Char))
  | [], _ => []
  | _, [] => []
  | [.l], v :: vs => [(.l, v :: vs)]
  | p :: ps, v :: vs => (p, [v]) :: assign ps vs

/-- Actions of the positional arguments (rt.py:305-308, 326). -/
def posTakeAll (num : List Char → Option ℝ) : RtSt → List (Pos × List (List Char)) → Except Exit RtSt
  | st, [] => .ok st
  | st, (p, vs) :: l => do
    let st ← posTake num st p vs
    posTakeAll num st l

/-- `consume_positionals` for the strings up to the next option.  If no argument can be matched, the
strings are not recognised.  See rt.py:305-308, 326. -/
def rtRun (num : List Char → Option ℝ) (st : RtSt) (vs : List (List Char)) : Except Exit RtSt := do
  let acts := assign st.expected vs
  let st' ← posTakeAll num st acts
  .ok { st' with expected := st.expected.drop acts.length, extras := st.extras || acts.isEmpty }

/-- Strings in front of the next option (rt.py:326). -/
def runOf : List Item → List (List Char)
  | .arg s :: l => s :: runOf l
  | .dash :: l => runOf l
  | _ => []

/-- Items from the next option on (rt.py:326). -/
def afterRun : List Item → List Item
  | .arg _ :: l => afterRun l
  | .dash :: l => afterRun l
  | l => l

/-- Arguments directly behind an option (the pattern `A+`) (rt.py:318-319, 326). -/
def argsOf : List Item → List (List Char)
  | .arg s :: l => s :: argsOf l
  | _ => []

/-- Actions of the options in one string; the value of a switch is not used.  See rt.py:309-326. -/
def rtTakeAll (num : List Char → Option ℝ) : RtSt → List (Opt × Option (List Char)) → Except Exit RtSt
  | st, [] => .ok st
  | st, (o, v) :: l => do
    let st ← rtTake num st o.dest [v.getD []]
    rtTakeAll num st l

/-- Values of an option from the next strings: one or more for `--type` (`nargs='+'`), otherwise one
(rt.py:309-319). -/
def rtValues (o : Opt) (rest : List Item) : List (List Char) :=
  if o.dest = "type" then argsOf rest else (argsOf rest).take 1

/-- `consume_optional`; returns the state and how many of the next strings are used.
See rt.py:309-326. -/
def rtConsume (num : List Char → Option ℝ) (st : RtSt) (t : Tup) (rest : List Item) :
    Except Exit (RtSt × ℕ) :=
  match t.opt with
  | none => .ok ({ st with extras := true }, 0)
  | some o => do
    let (acts, stop) ← (match t.explicit with
      | none => .ok ([], .next o)
      | some e => chain rtOpts o (decide (t.name[1]? ≠ some '-')) t.sep e)
    match stop with
    | .done => do
      let st ← rtTakeAll num st acts
      .ok (st, 0)
    | .extra => do
      let st ← rtTakeAll num st acts
      .ok ({ st with extras := true }, 0)
    | .next o =>
      if o.kind.takesValue then
        let vs := rtValues o rest
        if vs = [] then .error .error
        else do
          let st ← rtTakeAll num st acts
          let st ← rtTake num st o.dest vs
          .ok (st, vs.length)
      else do
        let st ← rtTakeAll num st (acts ++ [(o, none)])
        .ok (st, 0)

theorem afterRun_length (l : List Item) : (afterRun l).length ≤ l.length := by
  induction l with
  | nil => simp [afterRun]
  | cons i l ih => cases i <;> simp [afterRun] <;> omega

/-- `_parse_known_args` (rt.py:326). -/
def rtItems (num : List Char → Option ℝ) (st : RtSt) (items : List Item) : Except Exit RtSt :=
  match items with
  | [] => .ok st
  | .opt _ t :: l => do
    let r ← rtConsume num st t l
    rtItems num r.1 (l.drop r.2)
  | .arg s :: l => do
    let st ← rtRun num st (s :: runOf l)
    rtItems num st (afterRun l)
  | .dash :: l => do
    let st ← rtRun num st (runOf l)
    rtItems num st (afterRun l)
termination_by items.length
decreasing_by
  · simp only [List.length_drop, List.length_cons]; omega
  all_goals
    have := afterRun_length l
    simp only [List.length_cons]; omega

/-- End of the parser: all positional arguments are required, and all strings have to be recognised
(rt.py:305-308, 326). -/
def rtFinish (st : RtSt) : Except Exit RtArgs :=
  match st.command, st.c, st.ls with
  | some command, some c, some ls =>
    if st.extras then .error .error
    else .ok { command := command, c := c, ls := ls, r := st.r, t := st.t, absorption := st.absorption,
               log := st.log, noDirect := st.noDirect, types := st.types }
  | _, _, _ => .error .error

/-- rt.py:323-326 `create_parser(None).parse_args()`, also the parser of the command `rt`. -/
def parseRt (py : Lang) (num : List Char → Option ℝ) (argv : List String) : Except Exit RtArgs := do
  let items ← classify py rtOpts (argv.map String.toList)
  let st ← rtItems num {} items
  rtFinish st

/-- core.py:2036-2041, 2121-2124: the main parser hands the strings behind `rt` to the parser of the
command; `main` gets the values. -/
noncomputable def rtCmdline (py : Lang) (num : List Char → Option ℝ) (argv : List String) :
    Except Exit (Py RtOut) :=
  match parseArgs py argv with
  | .error (.rt rest) => do
    let a ← parseRt py num rest
    .ok (rtMain a)
  | .error e => .error e
  | .ok _ => .error .error

end Qopen.CmdLine
