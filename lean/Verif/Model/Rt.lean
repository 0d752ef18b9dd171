import Verif.Py.Basic
import Verif.Model.InvertFb
import Mathlib.Analysis.SpecialFunctions.Pow.Real
import Mathlib.Analysis.SpecialFunctions.Trigonometric.Basic
import Mathlib.Topology.Algebra.InfiniteSum.Defs

/-!
# Model of the Green's functions (rt.py)

Real numbers stand for floats.  A value which is not a finite number (NaN, infinity, or
`ZeroDivisionError` if Python floats are used instead of numpy floats) is `none`.
`scipy.special.iv` is the power series of the modified Bessel function.  Velocity and scattering
coefficient are positive, everything else is not modelled (`other`).
-/

namespace Qopen.Rt

open Real

/-- `scipy.special.iv(n, x)` for `n = 0, 1, ...` and `x ≥ 0` (rt.py:53). -/
noncomputable def iv (n : ℕ) (x : ℝ) : ℝ :=
  ∑' k : ℕ, (x / 2) ^ (2 * k + n) / (k.factorial * (k + n).factorial)

/-- rt.py:42-44 `rt1d_direct`. -/
noncomputable def rt1dDirect (t c g0 : ℝ) : ℝ :=
  let l := 1 / g0
  1 / 2 * exp (-c * t / 2 / l)

/-- rt.py:47-54 `rt1d_coda`. -/
noncomputable def rt1dCoda (r t c g0 : ℝ) : ℝ :=
  let l := 1 / g0
  let arg0 := sqrt (c ^ 2 * t ^ 2 - r ^ 2)
  let arg1 := arg0 / 2 / l
  let t1 := 1 / 4 / l * exp (-c * t / 2 / l)
  let t2 := iv 0 arg1 + c * t * iv 1 arg1 / arg0
  t1 * t2

/-- rt.py:57-59 `rt2d_direct`. -/
noncomputable def rt2dDirect (t c g0 : ℝ) : ℝ :=
  let l := 1 / g0
  exp (-c * t / l) / (2 * π * c * t)

/-- rt.py:62-67 `rt2d_coda`. -/
noncomputable def rt2dCoda (r t c g0 : ℝ) : ℝ :=
  let l := 1 / g0
  let t1 := 1 / (2 * π * l * c * t)
  let t2 := (1 - r ^ 2 / c ^ 2 / t ^ 2) ^ (-1 / 2 : ℝ)
  let t3 := exp ((sqrt (c ^ 2 * t ^ 2 - r ^ 2) - c * t) / l)
  t1 * t2 * t3

/-- rt.py:70-73 `rt3d_direct`. -/
noncomputable def rt3dDirect (t c g0 : ℝ) : ℝ :=
  let t1 := exp (-c * t * g0)
  let t2 := 4 * π * c ^ 2 * t ^ 2
  t1 / t2

/-- rt.py:76-77 `_F`. -/
noncomputable def bigF (x : ℝ) : ℝ := sqrt (1 + 2.026 / x)

/-- rt.py:80-85 `rt3d_coda_reduced`. -/
noncomputable def rt3dReduced (r t : ℝ) : ℝ :=
  let a := 1 - r ^ 2 / t ^ 2
  let t1 := a ^ (0.125 : ℝ) / (4 * π * t / 3) ^ (1.5 : ℝ)
  let t2 := exp (t * (a ^ (0.75 : ℝ) - 1)) * bigF (t * a ^ (0.75 : ℝ))
  t1 * t2

/-- rt.py:88-90 `rt3d_coda`. -/
noncomputable def rt3dCoda (r t c g0 : ℝ) : ℝ := rt3dReduced (r * g0) (t * c * g0) * g0 ^ 3

/-- rt.py:93-97 `diff`. -/
noncomputable def diff (r t c g0 : ℝ) (dim : ℕ := 3) : ℝ :=
  let D := c / (dim * g0)
  let t1 := (4 * π * D * t) ^ (-(dim : ℝ) / 2)
  let t2 := exp (-r ^ 2 / (4 * D * t))
  t1 * t2

/-- rt.py:100-103 `diffapprox`. -/
noncomputable def diffapprox (_r t c g0 : ℝ) (dim : ℕ := 3) : ℝ :=
  let D := c / (dim * g0)
  (4 * π * D * t) ^ (-(dim : ℝ) / 2)

/-- The types of Green's functions (rt.py:108-124). -/
inductive Kind
  | rt3d | rt2d | rt1d
  | diff (dim : ℕ)
  | diffapprox (dim : ℕ)
  deriving DecidableEq

/-- rt.py:108-126, choice of the functions; `none` if `Gcoda` and `Gdirect` stay unbound because
`NotImplementedError` in line 126 is not raised. -/
def kindOf (type : String) : Option Kind :=
  if type = "rt3d" then some .rt3d
  else if type = "rt2d" then some .rt2d
  else if type = "rt1d" then some .rt1d
  else if type = "diff1d" then some (.diff 1)
  else if type = "diff2d" then some (.diff 2)
  else if type = "diff3d" then some (.diff 3)
  else if type = "diffapprox1d" then some (.diffapprox 1)
  else if type = "diffapprox2d" then some (.diffapprox 2)
  else if type = "diffapprox3d" then some (.diffapprox 3)
  else none

/-- `Gcoda(r, t, c, g0)` for a sample.  Radiative transfer is finite only behind the wave front,
diffusion only after the source time.  See rt.py:108-124, 133. -/
noncomputable def coda (k : Kind) (r t c g0 : ℝ) : Option ℝ :=
  match k with
  | .rt3d => if r < c * t then some (rt3dCoda r t c g0) else none
  | .rt2d => if r < c * t then some (rt2dCoda r t c g0) else none
  | .rt1d => if r < c * t then some (rt1dCoda r t c g0) else none
  | .diff dim => if 0 < t then some (diff r t c g0 dim) else none
  | .diffapprox dim => if 0 < t then some (diffapprox r t c g0 dim) else none

/-- `Gdirect(t, c, g0)` (rt.py:108-124, 153). -/
noncomputable def direct (k : Kind) (t c g0 : ℝ) : Option ℝ :=
  match k with
  | .rt3d => if t = 0 then none else some (rt3dDirect t c g0)
  | .rt2d => if t = 0 then none else some (rt2dDirect t c g0)
  | .rt1d => some (rt1dDirect t c g0)
  | .diff _ => some 0
  | .diffapprox _ => some 0

/-- Division of a sample (rt.py:153, 162). -/
noncomputable def over (x : Option ℝ) (d : ℝ) : Option ℝ :=
  if d = 0 then none else x.map (fun x => x / d)

/-- `Gcoda` or `Gdirect`, which is unbound for an unknown type (rt.py:108-126). -/
def bound (k : Option Kind) : Py Kind :=
  match k with
  | some k => .ok k
  | none => .error .unboundLocal

/-- rt.py:129-133, `r` and `t` are numbers. -/
noncomputable def scalarG (k : Option Kind) (r t c g0 : ℝ) : Py (Option ℝ) :=
  if t - r / c < 0 then .ok (some 0)
  else do
    let k ← bound k
    return coda k r t c g0

/-- rt.py:134-144, `r` and `t` are arrays. -/
noncomputable def pairsG (k : Option Kind) (r t : List ℝ) (c g0 : ℝ) (includeDirect : Bool) :
    Py (List (Option ℝ)) :=
  if t.length ≠ r.length then .error .valueError                              -- 135-138
  else if includeDirect then .error .notImplemented                           -- 139-141
  else do
    let k ← bound k                                                           -- 144
    return List.zipWith (fun r t => if c * t - r ≥ 0 then coda k r t c g0 else some 0) r t

/-- Number of samples in front of the wave (rt.py:148, 157). -/
noncomputable def countFront (f : ℝ → ℝ) (l : List ℝ) : ℕ := l.countP (fun x => decide (f x < 0))

/-- `a[1] - a[0]` (rt.py:147, 156). -/
def spacing (a : List ℝ) : Py ℝ :=
  match a with
  | x :: y :: _ => .ok (y - x)
  | _ => .error .indexError

/-- rt.py:145-153, `t` is an array. -/
noncomputable def timesG (k : Option Kind) (r : ℝ) (t : List ℝ) (c g0 : ℝ) (includeDirect : Bool) :
    Py (List (Option ℝ)) := do
  let eps ← spacing t                                                         -- 147
  let i := countFront (fun t => c * t - r) t                                  -- 148
  let k ← bound k
  let G := List.replicate (min (i + 1) t.length) (some 0) ++
    (t.drop (i + 1)).map (fun t => coda k r t c g0)                           -- 146, 149
  return if includeDirect ∧ 0 < i ∧ i < t.length then
    G.set i (over (direct k (r / c) c g0) (eps * c))                          -- 150-153
  else G

/-- rt.py:154-162, `r` is an array; `i` is the number of samples which are not beyond the wave
front. -/
noncomputable def distancesG (k : Option Kind) (r : List ℝ) (t c g0 : ℝ) (includeDirect : Bool) :
    Py (List (Option ℝ)) := do
  let eps ← spacing r                                                         -- 156
  let i := r.length - countFront (fun r => c * t - r) r                       -- 157-159
  let k ← bound k
  let G := (r.take i).map (fun r => coda k r t c g0) ++
    List.replicate (r.length - i) (some 0)                                    -- 155, 160
  return if includeDirect ∧ i < r.length then
    G.set i (over (direct k t c g0) eps)                                      -- 161-162
  else G

/-- Number or numpy array (rt.py:127-128). -/
inductive Arg
  | num (x : ℝ)
  | arr (l : List ℝ)

/-- Value of `G` (rt.py:127-163). -/
inductive GVal
  | num (x : Option ℝ)
  | arr (l : List (Option ℝ))

/-- rt.py:106-163 `G`. -/
noncomputable def G (r t : Arg) (c g0 : ℝ) (type : String := "rt3d") (includeDirect : Bool := true) :
    Py GVal :=
  if c ≤ 0 ∨ g0 ≤ 0 then .error .other
  else
    match r, t with
    | .num r, .num t => do
      let x ← scalarG (kindOf type) r t c g0
      return .num x
    | .arr r, .arr t => do
      let l ← pairsG (kindOf type) r t c g0 includeDirect
      return .arr l
    | .num r, .arr t => do
      let l ← timesG (kindOf type) r t c g0 includeDirect
      return .arr l
    | .arr r, .num t => do
      let l ← distancesG (kindOf type) r t c g0 includeDirect
      return .arr l

/-- rt.py:166-210 `G_rt3d`, `G_rt2d`, ... for an array of times as plug-in of the inversion; values
which are not finite are not modelled (`other`). -/
noncomputable def plugin (type : String) : InvertFb.Greens := fun r t c g0 => do
  let v ← G (.num r) (.arr t) c g0 type
  match v with
  | .arr l => if l.all Option.isSome then return l.filterMap id else .error .other
  | .num _ => .error .other

/-! ## Command line tool -/

/-- `-a`: absorption at time `t` (rt.py:225, 251, 286, 345). -/
noncomputable def absorb (la : Option ℝ) (c t : ℝ) (x : Option ℝ) : Option ℝ :=
  match la with
  | none => x
  | some la => if la = 0 then none else x.map (fun x => x * exp (-c * t / la))

/-- rt.py:323-346, the commands `calc` and `calc-direct` print a value for each mean free path. -/
noncomputable def calcCmd (direct? : Bool) (r t c : ℝ) (ls : List ℝ) (la : Option ℝ)
    (types : List String) : Py (List (Option ℝ)) :=
  match types with
  | [] => .error .other
  | type :: rest =>
    if !direct? && rest ≠ [] then .error .valueError                          -- 330-331
    else mapExc (fun l =>
      if l = 0 then .error .zeroDivision
      else if !direct? then do
        let v ← G (.num r) (.num t) c (1 / l) type
        match v with
        | .num x => return absorb la c t x
        | .arr _ => .error .other
      else
        match kindOf type with
        | some .rt1d => .ok (absorb la c t (direct .rt1d t c (1 / l)))
        | some .rt2d => .ok (absorb la c t (direct .rt2d t c (1 / l)))
        | some .rt3d => .ok (absorb la c t (direct .rt3d t c (1 / l)))
        | _ => .error .valueError) ls                                         -- 341-342

end Qopen.Rt
