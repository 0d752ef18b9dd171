import Verif.Model.InvertFb

/-!
# Specification of the inversion in one band

The data of a band are the windows of the event-station pairs.  A fit with site responses `R`,
source energies `W` and intrinsic attenuation `b` predicts the energy `G R W exp(-b t)`.
-/

namespace Qopen.Spec

open Real InvertFb

/-- The windows of one event-station pair. -/
structure PairData where
  event : String
  station : String
  distance : ℝ
  /-- times and energies of the samples in the coda window -/
  coda : List (ℝ × ℝ)
  bulkTime : ℝ := 0
  bulkEnergy : ℝ := 0
  bulkWeight : ℝ := 0
  bulkStart : ℝ := 0
  bulkEnd : ℝ := 0

/-- The pair of identifiers. -/
def PairData.pair (p : PairData) : String × String := (p.event, p.station)

/-- The input of the inversion for given windows, with or without bulk windows. -/
def bandOf (bulk : Bool) (ps : List PairData) : Band where
  pairs := ps.map PairData.pair
  distances := ps.map (fun p => (p.pair, p.distance))
  tcoda := ps.map (fun p => p.coda.map Prod.fst)
  Ecoda := ps.map (fun p => p.coda.map Prod.snd)
  tbulk := if bulk then ps.map PairData.bulkTime else []
  Ebulk := if bulk then ps.map PairData.bulkEnergy else []
  weightsBulk := if bulk then ps.map PairData.bulkWeight else []
  tbulkWindow := if bulk then ps.map (fun p => (p.pair, (p.bulkStart, p.bulkEnd))) else []

/-- One datum: observed energy `E` of an event at a station, time `t`, Green's function `G` and
weight. -/
structure Sample where
  event : String
  station : String
  t : ℝ
  E : ℝ
  G : ℝ
  w : ℝ

/-- The data for given windows and values of Green's function (coda samples, bulk value). -/
def samplesOf (bulk : Bool) (ps : List PairData) (gs : List (List ℝ × ℝ)) : List Sample :=
  (ps.zip gs).flatMap (fun q => List.zipWith
    (fun te g => ⟨q.1.event, q.1.station, te.1, te.2, g, 1⟩) q.1.coda q.2.1) ++
  if bulk then (ps.zip gs).map (fun q =>
    ⟨q.1.event, q.1.station, q.1.bulkTime, q.1.bulkEnergy, q.2.2, q.1.bulkWeight⟩) else []

/-- `gs` are the values of (smoothed) Green's function for scattering coefficient `g0`: at the
samples of each coda window, and averaged over each bulk window. -/
def IsGreens (G : Greens) (cfg : Cfg) (g0 : ℝ) (ps : List PairData) (gs : List (List ℝ × ℝ)) :
    Prop :=
  List.Forall₂ (fun p g =>
    gsmooth G cfg p.distance (p.coda.map Prod.fst) g0 = .ok g.1 ∧ g.1.length = p.coda.length ∧
    (cfg.bulk = true → gbulk G cfg p.distance (p.bulkStart, p.bulkEnd) g0 = .ok g.2)) ps gs

/-- Green's function plug-ins return one value per time. -/
def OneValuePerTime (G : Greens) : Prop :=
  ∀ r ts v g l, G r ts v g = .ok l → l.length = ts.length

/-- Energy predicted for a sample. -/
noncomputable def predicted (R W : String → ℝ) (b : ℝ) (s : Sample) : ℝ :=
  s.G * R s.station * W s.event * exp (-b * s.t)

/-- Weighted sum of squares of the logarithmic misfit between observed and predicted energy. -/
noncomputable def misfit (S : List Sample) (R W : String → ℝ) (b : ℝ) : ℝ :=
  (S.map (fun s => s.w * (log s.E - log (predicted R W b s)) ^ 2)).sum

/-- Entry of a table of reported values. -/
def valueOf (d : Dict String ℝ) (k : String) : ℝ := (d.get? k).getD 0

/-- Weighted sum of squared residuals of a linear system. -/
def wsse (w : List ℝ) (A : List (List ℝ)) (B C : List ℝ) : ℝ :=
  (List.zipWith (fun w r => w * r ^ 2) w
    (List.zipWith (fun row b => b - (List.zipWith (· * ·) row C).sum) A B)).sum

/-- Contract of statsmodels' WLS: for non-negative weights the parameters minimise the weighted
sum of squares, and `mse_resid` is this sum divided by the number of data minus the rank of the
weighted matrix. -/
def IsWls (rank : List ℝ → List (List ℝ) → ℕ)
    (wls : List ℝ → List (List ℝ) → List ℝ → List ℝ × ℝ) : Prop :=
  ∀ (n : ℕ) w A B, A ≠ [] → (∀ row ∈ A, row.length = n) →
    A.length = B.length → w.length = B.length → (∀ x ∈ w, 0 ≤ x) →
    (wls w A B).1.length = n ∧
    (∀ C, C.length = n → wsse w A B (wls w A B).1 ≤ wsse w A B C) ∧
    (wls w A B).2 = wsse w A B (wls w A B).1 / (B.length - rank w A)

/-- Weights of bulk windows are not negative. -/
def GoodWeights (ps : List PairData) : Prop := ∀ p ∈ ps, 0 ≤ p.bulkWeight

/-- Two stations recorded a common event. -/
def SameEvent (ps : List PairData) (s t : String) : Prop :=
  ∃ p ∈ ps, ∃ q ∈ ps, p.event = q.event ∧ p.station = s ∧ q.station = t

/-- All stations are connected by chains of common events. -/
def ConnectedPairs (ps : List PairData) : Prop :=
  ∀ p ∈ ps, ∀ q ∈ ps, Relation.ReflTransGen (SameEvent ps) p.station q.station

/-- Some coda window has samples at two different times. -/
def TwoTimes (ps : List PairData) : Prop :=
  ∃ p ∈ ps, ∃ x ∈ p.coda, ∃ y ∈ p.coda, x.1 ≠ y.1

end Qopen.Spec
