import Verif.Model.CmdLine

/-!
# Specification of the command line

The documented options of each command, and the ways in which a sequence of strings can be read as
options with values.
-/

namespace Qopen.Spec

open Run CmdLine

/-- What an option does: stores a text, a JSON value or an integer, switches on or off, counts, or shows
the help. -/
inductive Takes
  | text | json | int | on | off | count | help
  deriving DecidableEq

/-- A documented option: name on the command line, name in the configuration. -/
structure Flag where
  name : String
  key : String
  takes : Takes
  deriving DecidableEq

/-- Options of all commands except `create`. -/
def generalFlags : List Flag :=
  [⟨"-h", "help", .help⟩, ⟨"--help", "help", .help⟩,
   ⟨"-c", "conf", .text⟩, ⟨"--conf", "conf", .text⟩,
   ⟨"-v", "verbose", .count⟩, ⟨"--verbose", "verbose", .count⟩,
   ⟨"--pdb", "pdb", .on⟩,
   ⟨"-e", "eventid", .text⟩, ⟨"--eventid", "eventid", .text⟩,
   ⟨"--prefix", "prefix", .text⟩]

/-- Options of the commands which align sites. -/
def alignFlags : List Flag :=
  [⟨"--align-sites", "align_sites", .on⟩, ⟨"--no-align-sites", "align_sites", .off⟩,
   ⟨"--align-sites-station", "align_sites_station", .text⟩,
   ⟨"--align-sites-value", "align_sites_value", .json⟩]

/-- Options which replace values of the configuration. -/
def configFlags : List Flag :=
  [⟨"--events", "events", .text⟩, ⟨"--inventory", "inventory", .text⟩, ⟨"--data", "data", .text⟩,
   ⟨"--output", "output", .text⟩, ⟨"--input", "input", .text⟩, ⟨"--input-sites", "input_sites", .text⟩,
   ⟨"--seismic-moment-method", "seismic_moment_method", .text⟩,
   ⟨"--filter-events", "filter_events", .json⟩, ⟨"--filter-inventory", "filter_inventory", .json⟩,
   ⟨"--seismic-moment-options", "seismic_moment_options", .json⟩,
   ⟨"--njobs", "njobs", .int⟩,
   ⟨"--resolve-seedid", "resolve_seedid", .on⟩, ⟨"--no-resolve-seedid", "resolve_seedid", .off⟩,
   ⟨"--invert-events-simultaneously", "invert_events_simultaneously", .on⟩,
   ⟨"--no-invert-events-simultaneously", "invert_events_simultaneously", .off⟩,
   ⟨"--print-mag", "print_mag", .on⟩, ⟨"--no-print-mag", "print_mag", .off⟩,
   ⟨"--overwrite-conf", "overwrite_conf", .json⟩]

/-- Options for figures. -/
def figureFlags : List Flag :=
  [⟨"--plots", "plots", .on⟩, ⟨"--no-plots", "plots", .off⟩,
   ⟨"--plot-remove-response", "plot_remove_response", .on⟩,
   ⟨"--no-plot-remove-response", "plot_remove_response", .off⟩,
   ⟨"--plot-energies", "plot_energies", .on⟩, ⟨"--no-plot-energies", "plot_energies", .off⟩,
   ⟨"--plot-energies-options", "plot_energies_options", .json⟩,
   ⟨"--plot-optimization", "plot_optimization", .on⟩,
   ⟨"--no-plot-optimization", "plot_optimization", .off⟩,
   ⟨"--plot-optimization-options", "plot_optimization_options", .json⟩,
   ⟨"--plot-fits", "plot_fits", .on⟩, ⟨"--no-plot-fits", "plot_fits", .off⟩,
   ⟨"--plot-fits-options", "plot_fits_options", .json⟩,
   ⟨"--plot-eventresult", "plot_eventresult", .on⟩, ⟨"--no-plot-eventresult", "plot_eventresult", .off⟩,
   ⟨"--plot-eventresult-options", "plot_eventresult_options", .json⟩,
   ⟨"--plot-eventsites", "plot_eventsites", .on⟩, ⟨"--no-plot-eventsites", "plot_eventsites", .off⟩,
   ⟨"--plot-eventsites-options", "plot_eventsites_options", .json⟩,
   ⟨"--plot-results", "plot_results", .on⟩, ⟨"--no-plot-results", "plot_results", .off⟩,
   ⟨"--plot-results-options", "plot_results_options", .json⟩,
   ⟨"--plot-sites", "plot_sites", .on⟩, ⟨"--no-plot-sites", "plot_sites", .off⟩,
   ⟨"--plot-sites-options", "plot_sites_options", .json⟩,
   ⟨"--plot-sds", "plot_sds", .on⟩, ⟨"--no-plot-sds", "plot_sds", .off⟩,
   ⟨"--plot-sds-options", "plot_sds_options", .json⟩,
   ⟨"--plot-mags", "plot_mags", .on⟩, ⟨"--no-plot-mags", "plot_mags", .off⟩,
   ⟨"--plot-mags-options", "plot_mags_options", .json⟩]

/-- The options of a command. -/
inductive Flags : String → List Flag → Prop
  | create : Flags "create" [⟨"-h", "help", .help⟩, ⟨"--help", "help", .help⟩,
      ⟨"--tutorial", "tutorial", .on⟩, ⟨"-c", "conf", .text⟩, ⟨"--conf", "conf", .text⟩]
  | go : Flags "go" (generalFlags ++ alignFlags ++ [⟨"--dump-optpkl", "dump_optpkl", .text⟩,
      ⟨"--dump-fitpkl", "dump_fitpkl", .text⟩] ++ configFlags ++ figureFlags)
  | fixed : Flags "fixed" (generalFlags ++ alignFlags ++ [⟨"--dump-fitpkl", "dump_fitpkl", .text⟩] ++
      configFlags ++ figureFlags)
  | source : Flags "source" (generalFlags ++ [⟨"--dump-fitpkl", "dump_fitpkl", .text⟩] ++
      configFlags ++ figureFlags)
  | recalc : Flags "recalc_source" (generalFlags ++ alignFlags ++ configFlags ++ figureFlags)
  | plot : Flags "plot" (generalFlags ++ [⟨"--input", "input", .text⟩] ++ figureFlags)

/-- The option is followed by a value. -/
def Flag.hasValue (f : Flag) : Prop := f.takes = .text ∨ f.takes = .json ∨ f.takes = .int

/-- An option given on the command line, with its value (empty for switches). -/
structure Use where
  flag : Flag
  value : List Char

/-- `s` is the name of the option, or an abbreviation of its long name which fits no other option. -/
def Names (T : List Flag) (s : List Char) (f : Flag) : Prop :=
  f ∈ T ∧ (f.name.toList = s ∨
    ((∀ g ∈ T, g.name.toList ≠ s) ∧ s <+: f.name.toList ∧ ∀ g ∈ T, s <+: g.name.toList → g = f))

/-- A negative decimal number. -/
def Negative (py : Lang) (s : List Char) : Prop :=
  (∃ ds, s = '-' :: ds ∧ ds ≠ [] ∧ ∀ c ∈ ds, py.digit c = true) ∨
    ∃ ds es, s = '-' :: (ds ++ '.' :: es) ∧ es ≠ [] ∧ (∀ c ∈ ds, py.digit c = true) ∧
      ∀ c ∈ es, py.digit c = true

/-- A string which starts with a dash could be this option: the part in front of `=` is the beginning of
its long name, or the string begins with its short name. -/
def CouldBe (s : List Char) (f : Flag) : Prop :=
  if ['-', '-'] <+: s then s.takeWhile (fun c => decide (c ≠ '=')) <+: f.name.toList
  else f.name.toList = s.take 2

/-- A string of its own which can be the value of an option: it does not begin with a dash, is a single
dash, or cannot be an option and is a negative number or contains a space. -/
def NotOption (py : Lang) (T : List Flag) (s : List Char) : Prop :=
  s.head? ≠ some '-' ∨ s = ['-'] ∨
    ((∀ f ∈ T, ¬ CouldBe s f) ∧ (Negative py s ∨ ' ' ∈ s))

/-- Short options in one string: `cs` are the letters behind the dash, `l` the strings which follow,
of which `l'` are left. -/
inductive Short (py : Lang) (T : List Flag) :
    List Char → List (List Char) → List Use → List (List Char) → Prop
  | switch {c f l} : f ∈ T → f.name.toList = ['-', c] → ¬ f.hasValue → Short py T [c] l [⟨f, []⟩] l
  | more {c d cs f l us l'} : f ∈ T → f.name.toList = ['-', c] → ¬ f.hasValue → d ≠ '=' → d ≠ '-' →
      Short py T (d :: cs) l us l' → Short py T (c :: d :: cs) l (⟨f, []⟩ :: us) l'
  | attached {c d v f l} : f ∈ T → f.name.toList = ['-', c] → f.hasValue → d ≠ '=' →
      Short py T (c :: d :: v) l [⟨f, d :: v⟩] l
  | eq {c v f l} : f ∈ T → f.name.toList = ['-', c] → f.hasValue →
      Short py T (c :: '=' :: v) l [⟨f, v⟩] l
  | next {c v f l} : f ∈ T → f.name.toList = ['-', c] → f.hasValue → NotOption py T v →
      Short py T [c] (v :: l) [⟨f, v⟩] l

/-- The strings are these options: `--switch`, `--name=value`, `--name value`, or short options. -/
inductive Reads (py : Lang) (T : List Flag) : List (List Char) → List Use → Prop
  | nil : Reads py T [] []
  | short {c cs l us l' us'} : c ≠ '-' → Short py T (c :: cs) l us l' → Reads py T l' us' →
      Reads py T (('-' :: c :: cs) :: l) (us ++ us')
  | switch {c s f l us} : Names T ('-' :: '-' :: c :: s) f → ¬ f.hasValue → Reads py T l us →
      Reads py T (('-' :: '-' :: c :: s) :: l) (⟨f, []⟩ :: us)
  | eq {s v f l us} : Names T ('-' :: '-' :: s) f → f.hasValue → Reads py T l us →
      Reads py T (('-' :: '-' :: (s ++ '=' :: v)) :: l) (⟨f, v⟩ :: us)
  | next {c s v f l us} : Names T ('-' :: '-' :: c :: s) f → f.hasValue → NotOption py T v → Reads py T l us →
      Reads py T (('-' :: '-' :: c :: s) :: v :: l) (⟨f, v⟩ :: us)

/-- Value which is set by the option; none if the value is not valid, or for the help. -/
def useValue (py : Lang) (u : Use) : Option J :=
  match u.flag.takes with
  | .text => some (.str (String.ofList u.value))
  | .json => py.json u.value
  | .int => (py.int u.value).map (fun n => .num n)
  | .on => some (.bool true)
  | .off => some (.bool false)
  | .count => some (.num 1)
  | .help => none

/-- All values are valid, and no switch is given together with its opposite. -/
def Valid (py : Lang) (us : List Use) : Prop :=
  (∀ u ∈ us, useValue py u ≠ none) ∧
    ∀ u ∈ us, ∀ w ∈ us, u.flag.key = w.flag.key → ¬ (u.flag.takes = .on ∧ w.flag.takes = .off)

/-- Value of an option which is not given. -/
def defaultValue (cmd k : String) : Option J :=
  if k = "conf" then some (.str "conf.json")
  else if k = "pdb" ∧ cmd ≠ "create" then some (.bool false)
  else none

/-- Value under a name: the number of `-v`, otherwise the last value given, otherwise the default. -/
def givenValue (py : Lang) (cmd : String) (us : List Use) (k : String) : Option J :=
  if k = "cmd" then some (.str cmd)
  else
    let given := us.filter (fun u => decide (u.flag.key = k))
    match given.getLast? with
    | none => defaultValue cmd k
    | some u => if k = "verbose" then some (.num given.length) else useValue py u

/-- The strings of the command line as lists of letters. -/
abbrev letters (argv : List String) : List (List Char) := argv.map String.toList

/-- The string mentions the option: the beginning of its long name, or the letter of its short name. -/
def Mentions (s : List Char) (f : Flag) : Prop :=
  (['-', '-'] <+: s ∧ s.takeWhile (fun c => decide (c ≠ '=')) <+: f.name.toList) ∨
    (¬ ['-', '-'] <+: s ∧ s.head? = some '-' ∧ ∃ c ∈ s.tail, f.name.toList = ['-', c])

end Qopen.Spec
