import Verif.Model.CmdLineRt
import Verif.Spec.CmdLine

/-!
# Specification of the command line of `qopen rt`

`qopen rt command c l [l ...]` with the options `-r`, `-t`, `-a`, `--log`, `--no-direct` and `--type`
anywhere between the arguments.
-/

namespace Qopen.Spec

open CmdLine Rt

/-- Options of `qopen rt`. -/
def rtFlags : List Flag :=
  [⟨"-h", "help", .help⟩, ⟨"--help", "help", .help⟩, ⟨"-r", "r", .text⟩, ⟨"-t", "t", .text⟩,
   ⟨"-a", "absorption", .text⟩, ⟨"--absorption", "absorption", .text⟩, ⟨"--log", "log", .on⟩,
   ⟨"--no-direct", "no_direct", .on⟩, ⟨"--type", "type", .text⟩]

/-- Parts of the command line: neighbouring arguments, or an option with its values. -/
inductive RtPart
  | arguments (vs : List (List Char))
  | option (f : Flag) (vs : List (List Char))

/-- Options of one string as parts. -/
def rtUses (us : List Use) : List RtPart := us.map (fun u => .option u.flag [u.value])

/-- The string holds the options `us`, and last the option `f` whose value is in the next string. -/
def Opens (py : Lang) (s : List Char) (us : List Use) (f : Flag) : Prop :=
  ∀ v, NotOption py rtFlags v → Reads py rtFlags [s, v] (us ++ [⟨f, v⟩])

/-- The next string is an option, or there is none. -/
def Stops (py : Lang) (l : List (List Char)) : Prop := ∀ s ∈ l.head?, ¬ NotOption py rtFlags s

/-- The strings are these parts.  The option `--type` takes all values up to the next option, the
others take one. -/
inductive RtReads (py : Lang) : List (List Char) → List RtPart → Prop
  | nil : RtReads py [] []
  | arguments {vs l ps} : vs ≠ [] → (∀ v ∈ vs, NotOption py rtFlags v) → Stops py l → RtReads py l ps →
      RtReads py (vs ++ l) (.arguments vs :: ps)
  | string {s us l ps} : Reads py rtFlags [s] us → RtReads py l ps → RtReads py (s :: l) (rtUses us ++ ps)
  | value {s us f v l ps} : Opens py s us f → f.key ≠ "type" → NotOption py rtFlags v → RtReads py l ps →
      RtReads py (s :: v :: l) (rtUses us ++ .option f [v] :: ps)
  | types {s us f vs l ps} : Opens py s us f → f.key = "type" → vs ≠ [] →
      (∀ v ∈ vs, NotOption py rtFlags v) → Stops py l → RtReads py l ps →
      RtReads py (s :: (vs ++ l)) (rtUses us ++ .option f vs :: ps)

/-- Arguments, those which stand together in one list. -/
def rtGroups (ps : List RtPart) : List (List (List Char)) :=
  ps.filterMap (fun | .arguments vs => some vs | .option _ _ => none)

/-- Values of an option each time it is given. -/
def rtGiven (ps : List RtPart) (key : String) : List (List (List Char)) :=
  ps.filterMap (fun | .arguments _ => none | .option f vs => if f.key = key then some vs else none)

/-- Number which is given last. -/
def rtLast (num : List Char → Option ℝ) (ps : List RtPart) (key : String) : Option ℝ :=
  (rtGiven ps key).getLast?.bind (fun vs => vs.head?.bind num)

/-- The command line means these values. -/
structure RtMeans (num : List Char → Option ℝ) (ps : List RtPart) (a : RtArgs) : Prop where
  /-- the arguments are the command, the velocity and one or more mean free paths -/
  arguments : ∃ v w vs, (rtGroups ps).flatten = v :: w :: vs ∧ vs ≠ [] ∧ a.command = String.ofList v ∧
    num w = some a.c ∧ vs.map num = a.ls.map some
  command : a.command ∈ ["calc", "calc-direct", "plot-t", "plot-r", "plot-rt"]
  /-- no option stands between mean free paths -/
  together : (rtGroups ps).dropLast.flatten.length ≤ 2
  numbers : ∀ key ∈ ["r", "t", "absorption"], ∀ vs ∈ rtGiven ps key, ∀ v ∈ vs, num v ≠ none
  known : ∀ vs ∈ rtGiven ps "type", ∀ v ∈ vs, String.ofList v ∈
    ["rt3d", "rt2d", "rt1d", "diff3d", "diff2d", "diff1d", "diffapprox3d", "diffapprox2d", "diffapprox1d"]
  help : rtGiven ps "help" = []
  r : a.r = rtLast num ps "r"
  t : a.t = rtLast num ps "t"
  absorption : a.absorption = rtLast num ps "absorption"
  log : a.log = true ↔ rtGiven ps "log" ≠ []
  noDirect : a.noDirect = true ↔ rtGiven ps "no_direct" ≠ []
  types : a.types = ((rtGiven ps "type").getLast?.map (·.map String.ofList)).getD ["rt3d"]

end Qopen.Spec
