import Verif.Model.Util

/-!
# Model of the linear inversion in one frequency band (core.py:763-1024)

The lists `tcoda`, `Ecoda`, ... are the local lists of `invert_fb` after the loop over the pairs
(`Model/Window.lean`).  Real numbers stand for floats.  statsmodels' WLS and scipy's scalar
minimisation are parameters.
-/

namespace Qopen.InvertFb

open Real Util

/-- Green's function plug-in: distance, array of times, velocity, g0 (core.py:830, 841-847). -/
abbrev Greens := ℝ → List ℝ → ℝ → ℝ → Py (List ℝ)

/-- The local lists and dictionaries of `invert_fb` which enter the inversion
(core.py:645-651, 770). -/
structure Band where
  /-- `event_station_pairs`: event id and station -/
  pairs : List (String × String)
  distances : Dict (String × String) ℝ
  tcoda : List (List ℝ)
  Ecoda : List (List ℝ)
  tbulk : List ℝ := []
  Ebulk : List ℝ := []
  weightsBulk : List ℝ := []
  tbulkWindow : Dict (String × String) (ℝ × ℝ) := []

/-- Arguments of `invert_fb` (core.py:493-510) which enter the inversion. -/
structure Cfg where
  /-- `coda_normalization is not None` -/
  codaNorm : Bool := false
  fix : Bool := false
  fixSites : Bool := false
  /-- `bulk_window` is set -/
  bulk : Bool := false
  R0 : ℝ := 1
  g0Bounds : Option (ℝ × ℝ)
  bBounds : Option (ℝ × ℝ)
  numPoints : ℕ := 1000
  smooth : Option ℝ := none
  smoothWindow : Window := .flat
  v0 : ℝ
  /-- `fix_params[freq_band]` -/
  fixParams : Option ℝ × Option ℝ := (none, none)
  /-- `fix_sites_params[freq_band]` -/
  fixSitesParams : Dict String ℝ := []
  /-- `optimize` is neither `None` nor `False` -/
  optimize : Bool := true

/-- `list(OrderedDict.fromkeys(l))` (core.py:772-773). -/
def fromKeys {α : Type} [DecidableEq α] (l : List α) : List α := l.reverse.dedup.reverse

/-- core.py:772 `eventids`. -/
def eventids (b : Band) : List String := fromKeys (b.pairs.map Prod.fst)

/-- core.py:773 `stations`. -/
def stations (b : Band) : List String := fromKeys (b.pairs.map Prod.snd)

/-- core.py:790-796, the column of `A` for a sample of `pair` (free site responses).
`l.set i` out of range does nothing where numpy would raise; the indices are always in range. -/
def freeRow (cfg : Cfg) (b : Band) (pair : String × String) : List ℝ :=
  let Ns := (stations b).length
  let Ne := (eventids b).length
  let z := List.replicate (Ns + Ne - cfg.fix.toNat) 0                   -- 790
  let z := z.set ((stations b).idxOf pair.2) 1                          -- 793
  let idx := (eventids b).idxOf pair.1                                  -- 794
  if idx > 0 then z.set (Ns + idx - 1) 1 else z                         -- 795-796

/-- core.py:803-809, the column of `A` for a sample of `pair` (fixed site responses). -/
def sourceRow (b : Band) (pair : String × String) : List ℝ :=
  (List.replicate (eventids b).length 0).set ((eventids b).idxOf pair.1) 1

/-- core.py:788-818, the column for a sample of `pair` before line 821. -/
def baseRow (cfg : Cfg) (b : Band) (pair : String × String) : List ℝ :=
  if !cfg.codaNorm && !cfg.fixSites then freeRow cfg b pair
  else if cfg.fixSites then sourceRow b pair
  else [1, 1]                                                           -- 816-818

/-- Lengths of the blocks `Ecoda + [[_] for _ in Ebulk]` (core.py:789, 802, 816). -/
def blockLengths (b : Band) : List ℕ := b.Ecoda.map List.length ++ b.Ebulk.map (fun _ => 1)

/-- The pair of block `i`: `event_station_pairs[i % len(event_station_pairs)]`
(core.py:792, 804). -/
def blockPair (b : Band) (i : ℕ) : String × String := b.pairs.getD (i % b.pairs.length) ("", "")

/-- `np.hstack` of blocks with constant columns (core.py:789-819). -/
def perSample {α : Type} (b : Band) (f : String × String → α) : List α :=
  (blockLengths b).zipIdx.flatMap (fun p => List.replicate p.1 (f (blockPair b p.2)))

/-- `np.hstack(tcoda + tbulk)` (core.py:821). -/
def times (b : Band) : List ℝ := b.tcoda.flatten ++ b.tbulk

/-- `np.hstack(Ecoda + Ebulk)` (core.py:849). -/
def energiesObs (b : Band) : List ℝ := b.Ecoda.flatten ++ b.Ebulk

/-- core.py:820-822, rows of the transposed matrix. -/
def design (cfg : Cfg) (b : Band) : List (List ℝ) :=
  if !cfg.fix then
    List.zipWith (fun row t => row.set (row.length - 1) (-t)) (perSample b (baseRow cfg b)) (times b)
  else perSample b (baseRow cfg b)

/-- `np.linspace(t1, t2, n)` (core.py:846). -/
noncomputable def linspace (t1 t2 : ℝ) (n : ℕ) : List ℝ :=
  (List.range n).map (fun i : ℕ => t1 + i * ((t2 - t1) / (n - 1)))

/-- `np.mean` of a non-empty array (core.py:847, 889). -/
noncomputable def mean (l : List ℝ) : ℝ := l.sum / l.length

/-- core.py:445-449 `Gsmooth`. -/
noncomputable def gsmooth (G : Greens) (cfg : Cfg) (r : ℝ) (t : List ℝ) (g0 : ℝ) : Py (List ℝ) :=
  smoothFunc (fun t_ => G r t_ cfg.v0 g0) t cfg.smooth cfg.smoothWindow

/-- core.py:845-847, Green's function of the bulk window. -/
noncomputable def gbulk (G : Greens) (cfg : Cfg) (r : ℝ) (tw : ℝ × ℝ) (g0 : ℝ) : Py ℝ := do
  let g ← G r (linspace tw.1 tw.2 cfg.numPoints) cfg.v0 g0
  return mean g

/-- `d[k]` (core.py:802-811, 840). -/
def dictGet {κ α : Type} [DecidableEq κ] (d : Dict κ α) (k : κ) : Py α :=
  match d.get? k with
  | some v => .ok v
  | none => .error .keyError

/-- One pass of the loop core.py:838-848. -/
noncomputable def greensOfPair (G : Greens) (cfg : Cfg) (b : Band) (g0 : ℝ)
    (p : (String × String) × ℕ) : Py (List ℝ × List ℝ) := do
  let e ← pyGet b.Ecoda p.2
  if e.length = 0 then throw .assertion                                 -- 839
  let r ← dictGet b.distances p.1                                       -- 840
  let t ← pyGet b.tcoda p.2
  let Gc ← gsmooth G cfg r t g0                                         -- 841-843
  if cfg.bulk then                                                      -- 844
    let tw ← dictGet b.tbulkWindow p.1
    let Gb ← gbulk G cfg r tw g0
    return (Gc, [Gb])
  else
    return (Gc, [])

/-- Weights of the samples (core.py:856-860); the scalar 1 stands for equal weights. -/
def weights (cfg : Cfg) (b : Band) (n : ℕ) : List ℝ :=
  if cfg.bulk then List.replicate (n - b.weightsBulk.length) 1 ++ b.weightsBulk
  else List.replicate n 1

/-- Outcome of `lstsq` with `opt=False` (core.py:905) without the plotting information. -/
structure Fit where
  /-- `⊤` stands for `np.inf` -/
  err : WithTop ℝ
  g0 : ℝ
  b : ℝ
  W : List ℝ
  R : List ℝ

/-- The bounds on `b` and `g0` checked inside `lstsq` (core.py:879-881). -/
def outside (cfg : Cfg) (b g0 : ℝ) : Prop :=
  (∃ bb, cfg.bBounds = some bb ∧ ¬ (bb.1 < b ∧ b < bb.2)) ∨
  (∃ gb, cfg.g0Bounds = some gb ∧ ¬ (gb.1 ≤ g0 ∧ g0 ≤ gb.2))

/-- core.py:882-895, source energies and site responses from the solution vector.
With coda normalisation `W` is never reported (core.py:952) and not modelled. -/
noncomputable def decode (cfg : Cfg) (bd : Band) (fixSites : Bool) (Rfix : List ℝ) (C : List ℝ) :
    List ℝ × List ℝ :=
  let Ne := (eventids bd).length
  if fixSites then (C.map exp, Rfix)                                    -- 883-884
  else if cfg.codaNorm then ([], List.replicate (stations bd).length 1) -- 895
  else
    let N1 := C.length - Ne + cfg.fix.toNat                             -- 886
    let N2 := C.length - 1 + cfg.fix.toNat                              -- 887
    let W0 := exp (mean (C.take N1)) / cfg.R0                           -- 889
    (W0 :: ((C.take N2).drop N1).map (fun c => exp c * W0),             -- 891
     (C.take N1).map (fun c => exp c / W0))                             -- 893

/-- core.py:836-850: Green's function of all samples, `np.hstack(Gcoda + Gbulk)`. -/
noncomputable def greensAll (G : Greens) (cfg : Cfg) (bd : Band) (g0 : ℝ) : Py (List ℝ) := do
  let gs ← mapExc (greensOfPair G cfg bd g0) bd.pairs.zipIdx
  return (gs.map Prod.fst).flatten ++ (gs.map Prod.snd).flatten

/-- core.py:802-811, the reference site responses of all samples, only built with `fix_sites`. -/
def siteRefs (cfg : Cfg) (bd : Band) : Py (List ℝ) :=
  if cfg.fixSites then
    mapExc (fun p : String × String => dictGet cfg.fixSitesParams p.2) (perSample bd id)
  else .ok []

/-- core.py:806, 812 `R_fix_sites`. -/
def siteRefsShort (cfg : Cfg) (bd : Band) : Py (List ℝ) :=
  if cfg.fixSites then
    mapExc (fun p : String × String => dictGet cfg.fixSitesParams p.2)
      (((List.range (blockLengths bd).length).map (blockPair bd)).take (stations bd).length)
  else .ok []

/-- core.py:852-853 (`if b_fix`). -/
noncomputable def moveB (bd : Band) (bFix : Option ℝ) (B : List ℝ) : List ℝ :=
  match bFix with
  | some bf => if bf ≠ 0 then List.zipWith (fun y t => y + bf * t) B (times bd) else B
  | none => B

/-- core.py:851-855, the right hand side of the linear system. -/
noncomputable def rhs (bd : Band) (E Gall : List ℝ) (bFix : Option ℝ) (fixSites : Bool)
    (rs : List ℝ) : List ℝ :=
  let B := List.zipWith (fun e g => log e - log g) E Gall               -- 851
  let B := moveB bd bFix B                                              -- 852-853
  if fixSites then List.zipWith (fun y r => y - log r) B rs else B      -- 854-855

open Classical in
/-- core.py:871-905, the fit for a solution of the linear system. -/
noncomputable def fitOf (cfg : Cfg) (bd : Band) (g0 : ℝ) (bFix : Option ℝ) (fixSites : Bool)
    (Rfix : List ℝ) (sol : List ℝ × ℝ) : Py Fit :=
  let C := sol.1
  let err : WithTop ℝ := ((sqrt sol.2 : ℝ) : WithTop ℝ)                 -- 871
  let WR := decode cfg bd fixSites Rfix C
  if cfg.fix then
    if cfg.codaNorm then .error .assertion                              -- 876
    else match bFix with                                                -- 875
      | some bf => .ok ⟨err, g0, bf, WR.1, WR.2⟩
      | none => .error .typeError
  else
    let bv := C.getLastD 0                                              -- 878
    .ok ⟨if outside cfg bv g0 then ⊤ else err, g0, bv, WR.1, WR.2⟩      -- 879-881

open Classical in
/-- core.py:832-905 `lstsq(g0, False, b_fix, fix_sites)`.  `wls` returns the parameters and
`mse_resid` for weights, matrix and data.  Observed energies and Green's function have to be
positive: zeros lead to infinite or missing logarithms whose treatment by statsmodels is not
modelled (`other`). -/
noncomputable def lstsq (wls : List ℝ → List (List ℝ) → List ℝ → List ℝ × ℝ) (G : Greens)
    (cfg : Cfg) (bd : Band) (g0 : ℝ) (bFix : Option ℝ) (fixSites : Bool) : Py Fit := do
  let rs ← siteRefs cfg bd
  let Rfix ← siteRefsShort cfg bd
  let Gall ← greensAll G cfg bd g0
  if (energiesObs bd).length ≠ Gall.length then throw .valueError
  if (∃ e ∈ energiesObs bd, e ≤ 0) ∨ (∃ g ∈ Gall, g ≤ 0) then throw .other
  let B := rhs bd (energiesObs bd) Gall bFix fixSites rs
  fitOf cfg bd g0 bFix fixSites Rfix (wls (weights cfg bd B.length) (design cfg bd) B) -- 868-869

open Classical in
/-- core.py:834-835, 903-904: the function handed to the optimiser. -/
noncomputable def objective (wls : List ℝ → List (List ℝ) → List ℝ → List ℝ × ℝ) (G : Greens)
    (cfg : Cfg) (bd : Band) (g0 : ℝ) : Py (WithTop ℝ) :=
  if ∃ gb, cfg.g0Bounds = some gb ∧ ¬ (gb.1 ≤ g0 ∧ g0 ≤ gb.2) then .ok ⊤
  else do
    let f ← lstsq wls G cfg bd g0 none false
    return f.err

/-- Result of a band (core.py:953-959). -/
structure BandResult where
  g0 : Option ℝ
  b : Option ℝ
  W : Option (Dict String ℝ)
  R : Option (Dict String ℝ)
  nstations : ℕ
  error : WithTop ℝ
  v0 : ℝ

/-- core.py:1019-1020. -/
def nearBounds (cfg : Cfg) (b g0 : ℝ) : Prop :=
  (∃ bb, cfg.bBounds = some bb ∧ ¬ (1.01 * bb.1 < b ∧ b < 0.99 * bb.2)) ∨
  (∃ gb, cfg.g0Bounds = some gb ∧ ¬ (1.01 * gb.1 < g0 ∧ g0 < 0.99 * gb.2))

/-- core.py:907-939, the three ways to find the fit; `none` is a skipped band.  `minimize`
stands for `scipy.optimize.minimize_scalar`. -/
noncomputable def bandFit (wls : List ℝ → List (List ℝ) → List ℝ → List ℝ × ℝ) (G : Greens)
    (minimize : (ℝ → Py (WithTop ℝ)) → Py ℝ) (cfg : Cfg) (bd : Band) : Py (Option Fit) :=
  if cfg.fix then
    match cfg.fixParams.1, cfg.fixParams.2 with                         -- 909-913
    | some g0f, some bf => do
      let f ← lstsq wls G cfg bd g0f (some bf) cfg.fixSites             -- 915
      return some f
    | _, _ => .ok none
  else if cfg.optimize then do
    let x ← minimize (objective wls G cfg bd)                           -- 938
    let f ← lstsq wls G cfg bd x none false                             -- 939
    return some f
  else
    match cfg.g0Bounds with                                             -- 922
    | some gb => do
      let f ← lstsq wls G cfg bd ((gb.1 + gb.2) / 2) none false         -- 923
      return some f
    | none => .error .typeError

open Classical in
/-- core.py:946-959, 1019-1024, the result of a fit; plots and dumps are left out. -/
noncomputable def report (cfg : Cfg) (bd : Band) (f : Fit) : Option BandResult :=
  let R : Dict String ℝ := (stations bd).zip f.R                        -- 949
  let W : Dict String ℝ := (eventids bd).zip f.W                        -- 950
  let Rok := !cfg.fixSites && !cfg.codaNorm
  let Wok := !cfg.codaNorm
  if nearBounds cfg f.b f.g0 then none                                  -- 1019-1023
  else some                                                             -- 953-959, 1024
    { g0 := if !cfg.fix then some f.g0 else none
      b := if !cfg.fix then some f.b else none
      W := if Wok then some W else none
      R := if Rok then some R else none
      nstations := f.R.length
      error := f.err
      v0 := cfg.v0 }

/-- core.py:907-1024, from the linear system to the result of the band; `none` is a skipped
band. -/
noncomputable def solveBand (wls : List ℝ → List (List ℝ) → List ℝ → List ℝ × ℝ) (G : Greens)
    (minimize : (ℝ → Py (WithTop ℝ)) → Py ℝ) (cfg : Cfg) (bd : Band) :
    Py (Option BandResult) := do
  let fit ← bandFit wls G minimize cfg bd
  return fit.bind (report cfg bd)

end Qopen.InvertFb
