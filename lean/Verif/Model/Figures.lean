import Verif.Model.Imaging
import Verif.Model.Wrapper
import Verif.Model.Source

/-!
# Model of the data in the figures of results (imaging.py:535-678)

The functions return the drawn numbers, panel by panel.  Colours, ticks, annotations and the
arrangement of the panels (see `Verif.Model.Imaging`) are left out.  `none` is NaN or masked, which is
not drawn.
-/

namespace Qopen.Figures

open Util Collect Wrapper Imaging

/-- A result read from a file or returned by `invert_wrapper`: frequencies, velocity in the
configuration, the other entries, and the events (imaging.py:535-551, 598-609). -/
structure FigRes where
  freq : List ℝ
  v0 : Option ℝ := none
  top : Dict String RVal := []
  events : Dict String (Dict String RVal)

/-- A mean with lower and upper error (util.py:142-147; imaging.py:569-573, 636-649). -/
abbrev Bar := Option ℝ × Option ℝ × Option ℝ

/-- A panel of `plot_results`: number of observations, or the values of the events (grey points)
together with their mean (imaging.py:556-573). -/
inductive Panel
  | bars (n : List ℕ)
  | curve (points : List (List (Option ℝ))) (means : List Bar)

/-- imaging.py:45-47 `DEPMAP`. -/
def depMap : Dict String String :=
  [("g0", "g0"), ("lsc", "g0"), ("Qsc", "g0"), ("b", "b"), ("li", "b"), ("Qi", "b"), ("W", "W"),
   ("omM", "sds"), ("sds", "sds"), ("error", "error")]

/-- A number in a numpy array (imaging.py:564-573). -/
def ofOpt (x : Option ℝ) : Cell :=
  match x with
  | none => .nan
  | some x => .num x

open Classical in
/-- One column of `gerr(rows, axis=0, weights=1/errs)` (util.py:65-80, 114-147).  The weight of a
missing or zero misfit is not finite: if the value is missing, too, it does not enter the mean, but the
variance is NaN (util.py:75-77), otherwise the mean is masked. -/
noncomputable def gerrWeighted (rlm : List ℝ → ℝ × ℝ) (col errs : List Cell) : Py Bar :=
  if badWeight (maLog (maskedInvalid col)) errs then .ok (none, none, none)
  else do
    let r ← gerr rlm col (some (errs.map weightOf))
    return if ∃ e ∈ errs, e.val? = none ∨ e = .num 0 then (r.1, none, none) else r

/-- `gerr(rows, axis=0, weights=weights, robust=robust)` for a table with `nf` columns (util.py:142-147,
imaging.py:553-554, 569-570, 611-612, 636-637); weights of another shape raise `TypeError`.  The test
for less than two values (util.py:68) counts the whole table, which makes no difference: the standard
deviation of a single value is masked (`ddof=1`). -/
noncomputable def gerrTable (rlm : List ℝ → ℝ × ℝ) (mean : Mean) (rows errs : List (List Cell))
    (nf : ℕ) : Py (List Bar) :=
  match mean with
  | .plain => mapExc (fun i => gerr rlm (column rows i) none) (List.range nf)
  | .robust => mapExc (fun i => gerr rlm (column rows i) none true true) (List.range nf)
  | .weighted =>
    if rows.length ≠ errs.length ∨ ∃ r ∈ errs, r.length ≠ nf then .error .typeError
    else mapExc (fun i => gerrWeighted rlm (column rows i) (column errs i)) (List.range nf)

/-- `gerr(row, axis=0, ...)` for a single list of bands and `ax.errorbar(freq, ...)`
(imaging.py:569-573, 636-649): plain and weighted means are a single number, the mean over the bands,
which cannot be drawn over several frequencies; the robust mean is taken band by band
(util.py:91-103).  Values of a single band are drawn. -/
noncomputable def gerrRow (mean : Mean) (row : List (Option ℝ)) (nf : ℕ) : Py (List Bar) :=
  match mean with
  | .robust => .ok (row.map (fun x => (x.bind (fun x => if 0 < x then some x else none), none, none)))
  | _ =>
    if nf ≠ 1 then .error .valueError
    else .ok (row.map (fun x => (x.bind (fun x => if 0 < x then some x else none), none, none)))

/-- First event of the result (imaging.py:546, 600); an empty dictionary raises `IndexError`. -/
def firstEvent (res : FigRes) : Py (Dict String RVal) :=
  match res.events with
  | [] => .error .indexError
  | e :: _ => .ok e.2

/-- The rows of the misfit in a table of collected values (imaging.py:553, 611). -/
def errorRows (col : Dict String ColVal) (mean : Mean) : Py (List (List Cell)) :=
  match mean with
  | .weighted => do
    let e ← arrayOf col "error"
    match e with
    | some e => return e
    | none => .error .keyError
  | _ => .ok []

/-- `1 / np.array(result['error'])` for a single inversion; `None` in the list raises `TypeError`.
See imaging.py:553, 611. -/
def errorRow (res : FigRes) (mean : Mean) : Py Unit :=
  match mean with
  | .weighted =>
    match res.top.get? "error" with
    | none => .error .keyError
    | some (.row l) => if l.any (fun c => c.val?.isNone) then .error .typeError else .ok ()
    | some _ => .error .other
  | _ => .ok ()

/-- `v0 or result['config'].get('v0') or colres['v0']` (imaging.py:551). -/
noncomputable def chooseV0 (v0 conf : Option ℝ) (rest : Py V0) : Py V0 :=
  match v0 with
  | some v => if v ≠ 0 then .ok (.num v) else inner
  | none => inner
where
  /-- The second and third choice. -/
  inner : Py V0 :=
    match conf with
    | some v => if v ≠ 0 then .ok (.num v) else rest
    | none => rest

/-- `colres['v0']` in the collected results (imaging.py:551). -/
def collectedV0 (col : Dict String ColVal) : Py V0 :=
  match col.get? "v0" with
  | none => .error .keyError
  | some (.vals l) => do
    let vs ← mapExc (fun x => match x with
      | .cell (.num v) => .ok v
      | _ => .error .other) l
    return .arr vs
  | some _ => .error .other

/-- `result['v0']` of a single inversion (imaging.py:548, 551). -/
def topV0 (res : FigRes) : Py V0 :=
  match res.top.get? "v0" with
  | none => .error .keyError
  | some (.cell (.num v)) => .ok (.num v)
  | some _ => .error .other

/-- Number of events with a value in band `i` (imaging.py:561, 610, 643). -/
def countValues (rows : List (List Cell)) (i : ℕ) : ℕ :=
  (rows.filter (fun r => ((r[i]?).bind Cell.val?).isSome)).length

/-- matplotlib raises `ValueError` if the number of values is not the number of frequencies
(imaging.py:567-573, 646-650). -/
def checkBands (rows : List (List Cell)) (nf : ℕ) : Py Unit :=
  if rows.all (fun r => r.length = nf) then .ok () else .error .valueError

/-- imaging.py:556-573, a panel for the quantity `q` with events inverted one by one. -/
noncomputable def panelOf (rlm : List ℝ → ℝ × ℝ) (mean : Mean) (freq : List ℝ) (v0 : V0)
    (col : Dict String ColVal) (errs : List (List Cell)) (q : String) : Py Panel :=
  if q = "nobs" then do
    let g ← arrayOf col "g0"
    match g with
    | none => .error .keyError
    | some g => return .bars ((List.range freq.length).map (countValues g))           -- 561
  else
    match depMap.get? q with
    | none => .error .keyError
    | some key => do
      let v ← arrayOf col key
      match v with
      | none => .error .keyError                                                       -- 564
      | some rows =>
        let _ ← checkBands rows freq.length
        let d ← calcDependent q (.table rows) (some freq) v0                           -- 565
        match d with
        | some (.table t) =>
          let m ← gerrTable rlm mean (t.map (fun r => r.map ofOpt)) errs freq.length   -- 569-570
          return .curve t m
        | _ => .error .other

/-- imaging.py:556-573, a panel for the quantity `q` of a single inversion of all events. -/
noncomputable def panelSingle (mean : Mean) (freq : List ℝ) (v0 : V0) (res : FigRes) (q : String) :
    Py Panel :=
  if q = "nobs" then .ok (.bars (List.replicate freq.length 1))                        -- 559
  else
    match depMap.get? q with
    | none => .error .keyError
    | some key =>
      match res.top.get? key with
      | none => .error .keyError
      | some (.row l) => do
        let _ ← checkBands [l] freq.length
        let d ← calcDependent q (.row l) (some freq) v0
        match d with
        | some (.row r) =>
          let m ← gerrRow mean r freq.length
          return .curve [] m
        | _ => .error .other
      | some _ => .error .other

/-- imaging.py:535-588 `plot_results`: panels in the order of the quantities. -/
noncomputable def plotResults (rlm : List ℝ → ℝ × ℝ) (mean : Mean) (res : FigRes) (v0 : Option ℝ)
    (quantities : List String) : Py (List (String × Panel)) := do
  let first ← firstEvent res
  if "g0" ∈ first.keys then
    let col ← collectResults (res.events.mapVals some) ["g0", "b", "error", "v0"]      -- 550
    let v ← chooseV0 v0 res.v0 (collectedV0 col)                                       -- 551
    let errs ← errorRows col mean                                                      -- 553
    mapExc (fun q => do
      let p ← panelOf rlm mean res.freq v col errs q
      return (q, p)) quantities
  else
    let v ← chooseV0 v0 res.v0 (topV0 res)
    let _ ← errorRow res mean
    mapExc (fun q => do
      let p ← panelSingle mean res.freq v res q
      return (q, p)) quantities

/-! ## Site responses -/

/-- A panel of `plot_sites` (imaging.py:632-653). -/
structure SitePanel where
  station : String
  points : List (List (Option ℝ))
  nobs : List ℕ
  means : List Bar

/-- The figure of the site responses: panels, excluded stations, largest number of observations
(imaging.py:591-678). -/
structure SiteFig where
  panels : List SitePanel
  excluded : List String
  maxNobs : ℕ

/-- `sorted(R)` (imaging.py:513, 614, 631). -/
def sortedKeys {α : Type} (d : Dict String α) : List String :=
  d.keys.mergeSort (fun a b => decide (a ≤ b))

/-- `np.all(np.isnan(R[station]))` (imaging.py:615, 632). -/
def noValue (rows : List (List Cell)) : Bool := rows.all (fun r => r.all (fun c => c.val?.isNone))

/-- imaging.py:610, largest number of observations of a station in a band. -/
def maxObs (R : Dict String (List (List Cell))) (nf : ℕ) : ℕ :=
  (R.map (fun s => ((List.range nf).map (countValues s.2)).foldr max 0)).foldr max 0

/-- imaging.py:632-653, a panel for a station. -/
noncomputable def sitePanel (rlm : List ℝ → ℝ × ℝ) (mean : Mean) (nf : ℕ)
    (R : Dict String (List (List Cell))) (errs : List (List Cell)) (sta : String) : Py SitePanel :=
  match R.get? sta with
  | none => .error .keyError
  | some rows => do
    let _ ← checkBands rows nf
    let m ← gerrTable rlm mean rows errs nf
    return ⟨sta, rows.map (fun r => r.map Cell.val?), (List.range nf).map (countValues rows), m⟩

/-- The stations of a single inversion; values must be lists.  See imaging.py:602-607. -/
def singleSites (res : FigRes) : Py (Dict String (List Cell)) :=
  match res.top.get? "R" with
  | none => .error .keyError
  | some (.sites d) => .ok d
  | some _ => .error .other

/-- imaging.py:632-653, a panel for a station of a single inversion. -/
noncomputable def sitePanelSingle (mean : Mean) (nf : ℕ) (R : Dict String (List Cell)) (sta : String) :
    Py SitePanel :=
  match R.get? sta with
  | none => .error .keyError
  | some row => do
    let _ ← checkBands [row] nf
    let m ← gerrRow mean (row.map Cell.val?) nf
    return ⟨sta, [], row.map (fun c => if c.val?.isSome then 1 else 0), m⟩

/-- imaging.py:591-678 `plot_sites`.  Without any station with a value there is no grid for the panels
(`ValueError`). -/
noncomputable def plotSites (rlm : List ℝ → ℝ × ℝ) (mean : Mean) (res : FigRes) : Py SiteFig := do
  let first ← firstEvent res
  if "R" ∈ first.keys then
    let col ← collectResults (res.events.mapVals some) ["R", "error"]                  -- 608
    let R ← sitesArray col
    if R.length = 0 then .error .valueError                                            -- 610
    else
      let errs ← errorRows col mean                                                    -- 611
      let stations := sortedKeys R
      let shown := stations.filter (fun s => !noValue ((R.get? s).getD []))
      if shown.length = 0 then .error .valueError                                      -- 619
      else
        let ps ← mapExc (sitePanel rlm mean res.freq.length R errs) shown
        return ⟨ps, stations.filter (fun s => noValue ((R.get? s).getD [])),
          maxObs R res.freq.length⟩
  else
    let R ← singleSites res                                                            -- 603
    let _ ← errorRow res mean
    let stations := sortedKeys R
    let shown := stations.filter (fun s => !noValue [(R.get? s).getD []])
    if shown.length = 0 then .error .valueError
    else
      let ps ← mapExc (sitePanelSingle mean res.freq.length R) shown
      return ⟨ps, stations.filter (fun s => noValue [(R.get? s).getD []]), 1⟩

end Qopen.Figures
