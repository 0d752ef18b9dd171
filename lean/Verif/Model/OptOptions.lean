import Verif.Py.Basic
import Mathlib.Data.Rat.Init
import Mathlib.Algebra.Field.Rat

/-!
# Model of the options of the optimiser (core.py:908, 921, 930-938)
-/

namespace Qopen.OptOpt

/-- Values of options of `scipy.optimize.minimize_scalar`; `other` are values which are passed on
without being looked at.  See core.py:929-938. -/
inductive Val
  | text (s : String)
  | num (x : ℚ)
  | pair (lo hi : ℚ)
  | none
  | other (n : ℕ)
  deriving DecidableEq

/-- Values of the option `optimize` (core.py:497, 921-938). -/
inductive Optimize
  | none
  | bool (b : Bool)
  | dict (d : Dict String Val)

/-- `d.setdefault(k, v)` (core.py:932-937). -/
def setDefault (d : Dict String Val) (k : String) (v : Val) : Dict String Val :=
  match d.get? k with
  | some _ => d
  | Option.none => d.set k v

/-- core.py:935-938: methods are compared as they are written. -/
def methodDefaults (g0Bounds : Val) (d : Dict String Val) : Dict String Val :=
  if d.get? "method" = some (.text "brent") ∨ d.get? "method" = some (.text "golden") then
    setDefault d "bracket" g0Bounds
  else if d.get? "method" = some (.text "bounded") then setDefault d "bounds" g0Bounds
  else d

/-- core.py:921, 928-938: the keyword arguments of the optimiser, `none` without optimisation. -/
def optimizeArgs (optimize : Optimize) (g0Bounds : Val) : Option (Dict String Val) :=
  match optimize with
  | .none => Option.none                                                      -- 921
  | .bool false => Option.none                                                -- 921
  | .bool true =>
    some (methodDefaults g0Bounds (setDefault (setDefault [] "method" (.text "golden"))
      "tol" (.num (1 / 100000000))))                                          -- 930-934
  | .dict d =>
    some (methodDefaults g0Bounds (setDefault (setDefault d "method" (.text "golden"))
      "tol" (.num (1 / 100000000))))                                          -- 932-934

end Qopen.OptOpt
