import Verif.Model.Wrapper
import Verif.Model.Site

/-!
# Alignment of the dictionary returned by `invert_wrapper`

`Model/Site` starts with events whose source energies and site responses are known to exist.  Here the
entries of the events are looked up in the dictionary as it is.
-/

namespace Qopen.AlignRun

open Source Site Collect Wrapper

/-- Other values than tables of site responses (site.py:72-85). -/
def toVal : RVal → Option Val
  | .cell c => some (.cell c)
  | .row l => some (.cells l)
  | .sites _ => none

/-- The entries besides `W` and `R` (site.py:72-85). -/
def otherItems (d : Dict String RVal) : Dict String Val :=
  d.filterMap (fun p => if p.1 = "W" ∨ p.1 = "R" then none else (toVal p.2).map (fun v => (p.1, v)))

/-- site.py:59 `eres['W']` and site.py:227 `eres['R']`, which raise `KeyError` for a missing entry.
`W` without length (site.py:59) and `R` without items (site.py:227) raise `TypeError` and
`AttributeError`.  Simplification: both are looked up even if there is no frequency band. -/
def readEvent (d : Dict String RVal) : Py EvRes :=
  match d.get? "W" with
  | none => .error .keyError
  | some (.row W) =>
    match d.get? "R" with
    | none => .error .keyError
    | some (.sites R) => .ok ⟨W, R, otherItems d⟩
    | some _ => .error .attributeError
  | some _ => .error .typeError

/-- core.py:1951 `align_site_responses(result, ...)` for the result of core.py:1943
`invert_wrapper(...)`; without result `None['events']` raises `TypeError` (site.py:210).
Simplification: the code looks up `W` of all events and compares the lengths before it looks up `R`, so
for events with different numbers of bands, one of them without `R`, it raises `AssertionError`
instead of `KeyError`; all events of an inversion have the same number of bands (C23). -/
noncomputable def alignRun (orc : Oracle) (rlm : List ℝ → ℝ × ℝ)
    (solve : Bool → ℕ → List (List ℝ) → List ℝ → List ℝ) (config : Config) (w : Option WrapRes)
    (sel : StationSel) (response : Response) (useSparse : Bool) (smm : Option Method) (smo : Option Opts)
    (ignore : Option (List String)) : Py Results :=
  match w with
  | none => .error .typeError
  | some w => do
    let events ← mapExc (fun p : String × Dict String RVal => do
      let e ← readEvent p.2
      return (p.1, some e)) w.events
    align orc rlm solve ⟨events, w.freq, w.R, config⟩ sel response useSparse smm smo ignore

end Qopen.AlignRun
