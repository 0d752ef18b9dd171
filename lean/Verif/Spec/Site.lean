import Verif.Model.Results
import Verif.Spec.Source
import Mathlib.Logic.Relation
import Mathlib.Data.Finset.Basic
import Mathlib.Data.Finset.Card

/-!
# Specification: site responses of many events

Independent of the model of `site.py`: what a user reads off a result dictionary.
-/

namespace Qopen.Spec

open Real

/-- The number in band `i` of a row of a result table, if there is one. -/
def numAt (l : List Cell) (i : ℕ) : Option ℝ :=
  match l[i]? with
  | some (.num x) => some x
  | _ => none

/-- Site response of station `sta` reported for an event in band `i`. -/
def respOf (ev : EvRes) (sta : String) (i : ℕ) : Option ℝ :=
  (ev.R.get? sta).bind (fun l => numAt l i)

/-- Spectral source energy of an event in band `i`. -/
def energyOf (ev : EvRes) (i : ℕ) : Option ℝ := numAt ev.W i

/-- Stations with at least one response in band `i`. -/
def stationsWith (events : Dict String EvRes) (i : ℕ) : Finset String :=
  (events.flatMap (fun e => (e.2.R.map Prod.fst).filter (fun s => (respOf e.2 s i).isSome))).toFinset

/-- The responses of a station in band `i`, one for each event that reports it. -/
def series (events : Dict String EvRes) (i : ℕ) (sta : String) : List ℝ :=
  events.filterMap (fun e => respOf e.2 sta i)

/-- Mean of the logarithms. -/
noncomputable def meanLog (xs : List ℝ) : ℝ := (xs.map log).sum / xs.length

/-- Sum of squared differences of consecutive numbers. -/
def sqSteps : List ℝ → ℝ
  | a :: b :: l => (a - b) ^ 2 + sqSteps (b :: l)
  | _ => 0

/-- Two stations share an event in band `i` (both have a response for it). Only stations
with `ok` count. -/
def ShareEvent (events : Dict String EvRes) (i : ℕ) (ok : String → Prop) (s t : String) : Prop :=
  ok s ∧ ok t ∧ ∃ e ∈ events, (respOf e.2 s i).isSome ∧ (respOf e.2 t i).isSome

/-- Two stations are linked by a chain of events sharing stations. -/
def Linked (events : Dict String EvRes) (i : ℕ) (ok : String → Prop) : String → String → Prop :=
  Relation.ReflTransGen (ShareEvent events i ok)

/-- Events with results of a result dictionary. -/
def resultsOf (d : Dict String (Option EvRes)) : Dict String EvRes :=
  d.filterMap (fun p => p.2.map (fun e => (p.1, e)))

/-- The events with results, ordered by event id. -/
def SortedById (d : Dict String (Option EvRes)) (es : Dict String EvRes) : Prop :=
  es.Perm (resultsOf d) ∧ es.Pairwise (fun a b => a.1 ≤ b.1)

/-- A result dictionary as written by an inversion: event ids are unique, stations of an
event are unique, responses are positive and come with a source energy. -/
structure ProperResults (d : Dict String (Option EvRes)) : Prop where
  ids : d.WF
  stations : ∀ e ∈ resultsOf d, e.2.R.WF
  positive : ∀ e ∈ resultsOf d, ∀ s i x, respOf e.2 s i = some x → 0 < x
  energy : ∀ e ∈ resultsOf d, ∀ s i, (respOf e.2 s i).isSome → (energyOf e.2 i).isSome

/-- A result dictionary of `n` bands as written by an inversion: at least one event with
results; every event lists a source energy (or `None`) for each band and so does every
station with its response. -/
structure CompleteResults (d : Dict String (Option EvRes)) (n : ℕ) : Prop where
  some_event : resultsOf d ≠ []
  stations : ∀ e ∈ resultsOf d, e.2.R.WF
  energies : ∀ e ∈ resultsOf d, e.2.W.length = n
  responses : ∀ e ∈ resultsOf d, ∀ p ∈ e.2.R, p.2.length = n

/-- `area` is a largest set of stations linked by events. -/
structure LargestArea (events : Dict String EvRes) (i : ℕ) (ok : String → Prop)
    (area : Finset String) : Prop where
  nonempty : area.Nonempty
  data : ∀ s ∈ area, ok s ∧ ∃ e ∈ events, (respOf e.2 s i).isSome
  linked : ∀ s ∈ area, ∀ t, t ∈ area ↔ Linked events i ok s t
  largest : ∀ s, ok s → (∃ e ∈ events, (respOf e.2 s i).isSome) → ∀ b : Finset String,
    (∀ t, t ∈ b ↔ Linked events i ok s t) → b.card ≤ area.card

/-- Not in the list of ignored stations. -/
def notIgnored (ignore : Option (List String)) (s : String) : Prop :=
  ∀ l, ignore = some l → s ∉ l

/-- Contract of a least-squares solver: `n` numbers, and no other `n` numbers have a
smaller sum of squared residuals. -/
def IsLsqSolver (solve : ℕ → List (List ℝ) → List ℝ → List ℝ) : Prop :=
  ∀ n A b, (∀ row ∈ A, row.length = n) → A.length = b.length →
    (solve n A b).length = n ∧ ∀ c, c.length = n → sse b A (solve n A b) ≤ sse b A c

/-- Set systems: two elements in a common set. -/
def InCommon {α : Type} (sets : List (Finset α)) (x y : α) : Prop := ∃ s ∈ sets, x ∈ s ∧ y ∈ s

/-- Connected by a chain of sets. -/
def Connected {α : Type} (sets : List (Finset α)) : α → α → Prop :=
  Relation.ReflTransGen (InCommon sets)

end Qopen.Spec
