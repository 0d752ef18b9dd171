import Verif.Model.Results
import Verif.Model.Util

/-!
# Model of `qopen/source.py`
-/

namespace Qopen.Source

open Real Util

/-- source.py:30, the number under the root in `sds`. -/
noncomputable def sdsArg (W f v rho : ℝ) : ℝ := W * 2.5 / π * rho * v ^ 5 / f ^ 2

/-- source.py:21-30 `sds` for Python floats: `ZeroDivisionError` for `f = 0`,
NaN for the root of a negative number. -/
noncomputable def sds (W f v rho : ℝ) : Py Cell :=
  if f = 0 then .error .zeroDivision
  else if sdsArg W f v rho < 0 then .ok .nan
  else .ok (.num (sqrt (sdsArg W f v rho)))

/-- `sds` of a table cell; NaN propagates.  (`None` never gets here.) (source.py:217-221) -/
noncomputable def sdsCell (W : Cell) (f v rho : ℝ) : Py Cell :=
  match W with
  | .num w => sds w f v rho
  | .nan => if f = 0 then .error .zeroDivision else .ok .nan
  | .none => .error .typeError

/-- source.py:33-42 `source_model` (positive `freq`, `fc`). -/
noncomputable def sourceModel (freq M0 fc n gamma : ℝ) : ℝ :=
  M0 * (1 + (freq / fc) ^ (n * gamma)) ^ (-1 / gamma)

/-- source.py:45-46 `_source_model_ab`. -/
noncomputable def sourceModelAB (freq M0 fc a b : ℝ) : ℝ :=
  M0 * (1 + (freq / fc) ^ a) ^ (-b)

/-- The `method` argument of `fit_sds` (source.py:49, 73, 84). -/
inductive Method
  | mean | fit | robustFit | other
  deriving DecidableEq, Repr

/-- Library routines used by `fit_sds`.
`ols y X`/`rlm y X`: parameters of `OLS(y, X).fit()`/`RLM(y, X).fit()`, `X` given by rows;
`rlmStat`: robust estimate used by `gstat` (never called here, see `gstat`);
`minScalar f bounds`: `scipy.optimize.minimize_scalar(f, bounds, method='bounded').x`;
`minimize f x0 bounds`: `scipy.optimize.minimize(f, x0, bounds).x` (source.py:90-93, 140-160). -/
structure Oracle where
  ols : List ℝ → List (List ℝ) → List ℝ
  rlm : List ℝ → List (List ℝ) → List ℝ
  rlmStat : List ℝ → ℝ × ℝ
  minScalar : (ℝ → ℝ) → Option (ℝ × ℝ) → ℝ
  minimize : (List ℝ → ℝ) → List ℝ → List (Option (ℝ × ℝ)) → List ℝ

/-- Keyword arguments of `fit_sds` (source.py:49-51).  `none` for the limits
stands for a false value. -/
structure Opts where
  fc : Option ℝ := none
  n : Option ℝ := some 2
  gamma : Option ℝ := some 1
  fcLim : Option (ℝ × ℝ) := none
  nLim : Option (ℝ × ℝ) := some (0.5, 10)
  gammaLim : Option (ℝ × ℝ) := some (0.5, 10)
  fc0 : ℝ := 10
  n0 : ℝ := 2
  gamma0 : ℝ := 1
  fallBack : ℕ := 5
  numPoints : Option ℕ := none

/-- `len(M0) < num_points` with `num_points is not None` (source.py:79, 88). -/
def tooFew (numPoints : Option ℕ) (len : ℕ) : Bool :=
  match numPoints with
  | none => false
  | some k => len < k

/-- `X p` for a row of the design matrix (source.py:95-114). -/
def dot (row p : List ℝ) : ℝ := (List.zipWith (· * ·) row p).sum

/-- `np.mean(res.resid ** 2)` (source.py:101, 114). -/
noncomputable def meanSq (y : List ℝ) (X : List (List ℝ)) (p : List ℝ) : ℝ :=
  ((List.zipWith (fun yi row => (yi - dot row p) ^ 2) y X).sum) / y.length

/-- source.py:95-104 `lstsq`: `pts` are the pairs (frequency, positive value of
the spectrum).  Parameters that are `None` raise `TypeError`.  Returns the
dictionary and the mean squared misfit. -/
noncomputable def lstsq (model : List ℝ → List (List ℝ) → List ℝ) (pts : List (ℝ × ℝ))
    (fc n gamma : Option ℝ) : Py (Dict String Cell × ℝ) :=
  match fc, n, gamma with
  | some fc, some n, some gamma =>
    let y := pts.map (fun p => log p.2 - log (sourceModel p.1 1 fc n gamma))
    let X := pts.map (fun _ => [1])
    let par := model y X
    let err := meanSq y X par
    .ok ([("M0", .num (exp (par.getD 0 0))), ("fit_error", .num (sqrt err))], err)
  | _, _, _ => .error .typeError

/-- source.py:106-118 `lstsqab`. -/
noncomputable def lstsqab (model : List ℝ → List (List ℝ) → List ℝ) (pts : List (ℝ × ℝ))
    (fc a : Option ℝ) : Py (Dict String Cell × ℝ) :=
  match fc, a with
  | some fc, some a =>
    let y := pts.map (fun p => log p.2)
    let X := pts.map (fun p => [1, log (sourceModelAB p.1 1 fc a 1)])
    let par := model y X
    let err := meanSq y X par
    .ok ([("M0", .num (exp (par.getD 0 0))), ("b", .num (par.getD 1 0)),
      ("fit_error", .num (sqrt err))], err)
  | _, _ => .error .typeError

/-- source.py:120-123: names of the free parameters. -/
def unknowns (o : Opts) : List String :=
  if o.n.isNone && o.gamma.isNone then (if o.fc.isNone then ["fc"] else []) ++ ["a"]
  else (if o.fc.isNone then ["fc"] else []) ++ (if o.n.isNone then ["n"] else []) ++
    (if o.gamma.isNone then ["gamma"] else [])

/-- source.py:124-132: the dictionary `wrapper`.  A scalar argument is the list
with one entry; a missing key raises `KeyError`. -/
noncomputable def wrapper (model : List ℝ → List (List ℝ) → List ℝ) (pts : List (ℝ × ℝ))
    (o : Opts) (key : String) (x : List ℝ) : Py (Dict String Cell × ℝ) :=
  if key = "fc" then lstsq model pts x[0]? o.n o.gamma
  else if key = "n" then lstsq model pts o.fc x[0]? o.gamma
  else if key = "gamma" then lstsq model pts o.fc o.n x[0]?
  else if key = "fcn" then lstsq model pts x[0]? x[1]? o.gamma
  else if key = "fcgamma" then lstsq model pts x[0]? o.n x[1]?
  else if key = "a" then lstsqab model pts o.fc x[0]?
  else if key = "fca" then lstsqab model pts x[0]? x[1]?
  else .error .keyError

/-- source.py:133-137: the dictionary `bounds`. -/
noncomputable def bounds (pts : List (ℝ × ℝ)) (o : Opts) (key : String) : Option (ℝ × ℝ) :=
  if key = "fc" then
    some (o.fcLim.getD ((pts.map Prod.fst).headD 0, (pts.map Prod.fst).getLastD 0))
  else if key = "n" then o.nLim
  else if key = "gamma" then o.gammaLim
  else match o.nLim, o.gammaLim with
    | some n, some g => some (n.1 * g.1, n.2 * g.2)
    | _, _ => none

/-- source.py:138: the dictionary `start`. -/
noncomputable def start (o : Opts) (key : String) : ℝ :=
  if key = "fc" then o.fc0 else if key = "n" then o.n0
  else if key = "gamma" then o.gamma0 else o.gamma0 * o.n0

/-- The objective handed to the optimiser (an exception of the objective would
propagate; it is the same for all arguments and raised again by the final call).
See source.py:95-118, 140-160. -/
noncomputable def objective (f : List ℝ → Py (Dict String Cell × ℝ)) (x : List ℝ) : ℝ :=
  match f x with
  | .ok r => r.2
  | .error _ => 0

/-- source.py:162-166: translate `a`, `b` to `gamma`, `n`. -/
noncomputable def translateAB (r : Dict String Cell) : Py (Dict String Cell) :=
  match r.get? "a" with
  | none => .ok r
  | some ca =>
    match ca, (r.pop "a").get? "b" with
    | .num a, some (.num b) =>
      .ok ((((r.pop "a").pop "b").set "gamma" (.num (1 / b))).set "n" (.num (a * b)))
    | _, _ => .error .keyError

/-- source.py:149-150, 157-158 and 162-167: the result for the optimal values
`xopt` of the free parameters `us`. -/
noncomputable def fitAt (model : List ℝ → List (List ℝ) → List ℝ) (pts : List (ℝ × ℝ)) (o : Opts)
    (us : List String) (xopt : List ℝ) : Py (Dict String Cell) := do
  let r ← wrapper model pts o (us.foldl (· ++ ·) "") xopt
  translateAB (Dict.update ((us.zip xopt).map (fun p => (p.1, Cell.num p.2))) r.1)

/-- Test of the limits in `scipy.optimize.minimize_scalar(..., method='bounded')` (source.py:144-148). -/
noncomputable def checkScalar (b : Option (ℝ × ℝ)) : Py Unit :=
  match b with
  | none => .error .valueError
  | some l => if l.2 < l.1 then .error .valueError else .ok ()

open Classical in
/-- Test of the limits in `scipy.optimize.minimize` (method L-BFGS-B): an entry `None` cannot be
unpacked (source.py:152-156). -/
noncomputable def checkAll (bs : List (Option (ℝ × ℝ))) : Py Unit :=
  if none ∈ bs then .error .typeError
  else if ∃ l, some l ∈ bs ∧ l.2 < l.1 then .error .valueError else .ok ()

/-- source.py:140-167, the fit for given free parameters. -/
noncomputable def fitResult (orc : Oracle) (model : List ℝ → List (List ℝ) → List ℝ)
    (pts : List (ℝ × ℝ)) (o : Opts) : Py (Dict String Cell) :=
  match unknowns o with
  | [] => do                                                            -- 141-142
    let r ← lstsq model pts o.fc o.n o.gamma
    return r.1
  | [x] =>
    if 1 < pts.length then do                                           -- 143-150
      checkScalar (bounds pts o x)
      fitAt model pts o [x]
        [orc.minScalar (fun z => objective (wrapper model pts o x) [z]) (bounds pts o x)]
    else translateAB []
  | us =>
    if us.length < pts.length then do                                   -- 151-161
      checkAll (us.map (bounds pts o))
      fitAt model pts o us
        (orc.minimize (objective (wrapper model pts o (us.foldl (· ++ ·) "")))
          (us.map (start o)) (us.map (bounds pts o)))
    else translateAB []

/-- source.py:78: `[o for f, o in zip(freq, omM) if f < fc and o is not None]`. -/
noncomputable def valuesBelow (freq : List ℝ) (omM : List Cell) (fc : ℝ) : List Cell :=
  (freq.zip omM).filterMap (fun p =>
    match p.2 with
    | .none => none
    | c => if p.1 < fc then some c else none)

/-- source.py:49-167 `fit_sds`; `none` is Python's `None`.  The spectrum and the
frequencies have the same length (`IndexError` otherwise for the fits). Values of
the spectrum that are not `None`/NaN are positive (they are results of `sds`),
otherwise `np.log` would yield NaN. -/
noncomputable def fitSds (orc : Oracle) (freq : List ℝ) (omM : List Cell) (method : Method)
    (o : Opts) : Py (Option (Dict String Cell)) :=
  match method with
  | .mean =>
    match o.fc with
    | none => .error .valueError                                        -- 73-77
    | some fc =>
      let M0 := valuesBelow freq omM fc                                 -- 78
      if tooFew o.numPoints M0.length then .ok none                     -- 79-80
      else if 0 < M0.length then do                                     -- 81-83
        let r ← gstat orc.rlmStat M0 none (unbiased := false)
        let cell := fun (x : Option ℝ) => match x with
          | some v => Cell.num v
          | none => Cell.nan
        return some [("M0", cell (r.1.map exp)), ("fit_error", cell r.2)]
      else .ok none
  | .other => .ok none
  | m =>
    if freq.length ≠ omM.length then .error .indexError
    else
      let pts := (freq.zip omM).filterMap (fun p => p.2.val?.map (fun x => (p.1, x)))  -- 85-87
      if pts.length = 0 ∨ tooFew o.numPoints pts.length then .ok none   -- 88-89
      else do
        let model := if m = .robustFit ∧ o.fallBack ≤ pts.length then orc.rlm else orc.ols
        let r ← fitResult orc model pts o
        return some r

/-- source.py:170-184 `moment_magnitude`. -/
noncomputable def momentMagnitude (M0 : ℝ) : ℝ := 2 / 3 * (log M0 / log 10) - 6.07

/-- source.py:181-183 `moment_magnitude(Mw, inverse=True)`. -/
noncomputable def momentMagnitudeInv (Mw : ℝ) : ℝ := 10 ^ (1.5 * (Mw + 6.07))

/-- source.py:217-221, the loop over frequencies: the entries appended to
`evresult['sds']`. -/
noncomputable def sdsEntries (freq : List ℝ) (W : List Cell) (v0 rho0 : Option ℝ) :
    Py (List Cell) :=
  mapExc (fun p => do
    let w ← pyGet W p.2
    match v0, rho0 with
    | some v, some r => if w.truthy ∧ v ≠ 0 ∧ r ≠ 0 then sdsCell w p.1 v r else .ok Cell.none
    | _, _ => .ok Cell.none) freq.zipIdx

/-- source.py:227-228: a NaN error becomes `None`. -/
def nanToNone (r : Dict String Cell) : Dict String Cell :=
  match r.get? "fit_error" with
  | some .nan => r.set "fit_error" .none
  | _ => r

/-- source.py:226-231: insert the result of the fit. -/
noncomputable def insertFit (extra : Dict String Val) (fit : Option (Dict String Cell)) :
    Dict String Val :=
  match fit with
  | none => extra
  | some r =>
    let r := nanToNone r
    let extra := extra.update (r.mapVals Val.cell)
    match r.get? "M0" with
    | some (.num m) => extra.set "Mw" (.cell (.num (momentMagnitude m)))
    | some _ => extra.set "Mw" (.cell .nan)
    | none => extra

/-- source.py:215-216: the list to which the loop appends. -/
noncomputable def sdsStart (ev : EvRes) (v0 rho0 : Option ℝ) : List Cell :=
  if ev.W ≠ [] ∧ truthy rho0 ∧ truthy v0 then []
  else match ev.extra.get? "sds" with
    | some (.cells l) => l
    | _ => []

/-- source.py:211-234 `insert_source_properties`.  `evresult` is a defaultdict
in `invert` (a missing `'sds'` is an empty list); in
`calculate_source_properties` `v0` and `rho0` are true and the entry exists
whenever `W` is not empty.  The final `sort_dict` is left out: dictionaries are
compared by content. -/
noncomputable def insertSourceProperties (orc : Oracle) (freq : List ℝ) (ev : EvRes)
    (v0 rho0 : Option ℝ) (smm : Option Method) (smo : Option Opts) (catmag : Option ℝ) :
    Py EvRes := do
  let new ← sdsEntries freq ev.W v0 rho0                                -- 217-221
  let spec := sdsStart ev v0 rho0 ++ new
  let extra := ev.extra.set "sds" (.cells spec)
  match smm with
  | none => return { ev with extra := extra }                           -- 222
  | some m =>
    match smo with
    | none => throw .typeError
    | some o =>
      let fit ← fitSds orc freq spec m o                                -- 223-225
      let extra := insertFit extra fit                                  -- 226-231
      let extra := match catmag with
        | some m => extra.set "Mcat" (.cell (.num m))                   -- 232-233
        | none => extra
      return { ev with extra := extra }

/-- The keys removed by source.py:200-205. -/
def poppedKeys : List String := ["sds", "M0", "fc", "n", "gamma", "fit_error"]

/-- `r.get('v0')` as a number (source.py:199). -/
def EvRes.v0 (ev : EvRes) : Option ℝ :=
  match ev.extra.get? "v0" with
  | some (.cell c) => c.val?
  | _ => none

/-- source.py:198-207, one event. -/
noncomputable def recalcEvent (orc : Oracle) (freq : List ℝ) (v02 rho0 : Option ℝ)
    (smm : Option Method) (smo : Option Opts) (ev : EvRes) : Py EvRes :=
  let v0 := pyOr (EvRes.v0 ev) v02                                      -- 199
  let ev := { ev with extra := poppedKeys.foldl (fun d k => d.pop k) ev.extra }  -- 200-205
  if truthy v0 then insertSourceProperties orc freq ev v0 rho0 smm smo none      -- 206-207
  else .ok ev

/-- Entries of `results['config']` used here (source.py:191-195). -/
structure Config where
  rho0 : Option ℝ := none
  v0 : Option ℝ := none
  smm : Option Method := none
  smo : Option Opts := none

/-- source.py:187-208 `calculate_source_properties` on the events of a result
dictionary without `None` events.  An empty options dictionary counts as
`None`. -/
noncomputable def calculateSourceProperties (orc : Oracle) (conf : Config) (freq : List ℝ)
    (events : Dict String EvRes) (rho0 v0 : Option ℝ) (smm : Option Method) (smo : Option Opts) :
    Py (Dict String EvRes) :=
  let rho0 := pyOr rho0 conf.rho0
  let v02 := pyOr v0 conf.v0
  let smm := smm.or conf.smm
  let smo := smo.or conf.smo
  if truthy rho0 then
    mapExc (fun p => do
      let e ← recalcEvent orc freq v02 rho0 smm smo p.2
      return (p.1, e)) events
  else .ok events

end Qopen.Source
