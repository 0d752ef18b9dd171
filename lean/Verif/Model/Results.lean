import Verif.Py.Basic

/-!
# Result dictionaries (the data that qopen reads and writes as JSON)

`run` returns `{'events': {id: {...}}, 'freq': [...], 'R': {...}, 'config': ...}`
(core.py:1396-1442 and 1483-1527).
-/

namespace Qopen

/-- A further value in the result of an event: a number/`None` or a list with
one number/`None` per frequency band (core.py:1395-1416, 1497-1503). -/
inductive Val
  | cell (c : Cell)
  | cells (l : List Cell)

/-- Result of one event (core.py:1395-1416, 1497-1503): source energies `'W'`
and site responses `'R'` (one entry per frequency band, per station) and all
other keys (`g0`, `b`, `error`, `v0`, `sds`, `M0`, `Mw`, ...) in `extra`.
Simplification: `'W'` and `'R'` are always present; an event without site
responses has `R = []`.  `Model/AlignRun` looks up both in dictionaries which may lack them. -/
structure EvRes where
  W : List Cell
  R : Dict String (List Cell)
  extra : Dict String Val

/-- `rho0`, `v0`, `a or b` for numbers: `None` and `0` are false (source.py:192-199). -/
noncomputable def pyOr (a b : Option ℝ) : Option ℝ :=
  match a with
  | some x => if x = 0 then b else some x
  | none => b

/-- Truth value of an optional number (source.py:192-199, 215). -/
def truthy : Option ℝ → Prop
  | some x => x ≠ 0
  | none => False

noncomputable instance (a : Option ℝ) : Decidable (truthy a) := Classical.propDecidable _

/-- Truth value of a table cell: `None` and `0` are false, NaN is true
(source.py:217-221; imaging.py:409, 427). -/
def Cell.truthy : Cell → Prop
  | .none => False
  | .nan => True
  | .num x => x ≠ 0

noncomputable instance (c : Cell) : Decidable c.truthy := Classical.propDecidable _

end Qopen
