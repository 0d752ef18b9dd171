import Verif.Model.JoinAreas
import Mathlib.Logic.Relation

/-!
# Specification of the joining of unconnected areas

Two areas are near to each other if a station at a corner of the one and a station at a corner of the
other are not further apart than the given distance.  Areas belong together if they are connected by a
chain of areas each of which is near to the next one.
-/

namespace Qopen.Spec

open Join

variable {K : Type} [Field K] [LinearOrder K]

/-- What is expected of Qhull, of the distance function and of Python, and that no two stations share
their coordinates: the corners are some of the points, the distance is symmetric, loops over sets visit
exactly the elements, a pair has two elements in some order. -/
structure GoodGeo (geo : Geo K) (coords : Dict String (K × K)) : Prop where
  hull : ∀ pts cs, geo.hull pts = .ok cs → cs ≠ [] ∧ ∀ c ∈ cs, c ∈ pts
  symm : ∀ c c', geo.dist c c' = geo.dist c' c
  iter : ∀ X s, s ∈ geo.iter X ↔ s ∈ X
  pair : ∀ p, s((geo.pair p).1, (geo.pair p).2) = p
  distinct : ∀ s s' c, Dict.get? coords s = some c → Dict.get? coords s' = some c → s = s'

/-- Station `s` with coordinates `c` is at a corner of the convex hull of the stations `X`. -/
def Corner (geo : Geo K) (coords : Dict String (K × K)) (X : Finset String) (s : String)
    (c : K × K) : Prop :=
  s ∈ X ∧ Dict.get? coords s = some c ∧
    ∃ cs, geo.hull ((geo.iter X).filterMap (Dict.get? coords)) = .ok cs ∧ c ∈ cs

/-- Areas `a` and `b` are near to each other: not more than `maxDistance` kilometres. -/
def Near (geo : Geo K) (coords : Dict String (K × K)) (areas : Dict String (Finset String))
    (maxDistance : K) (a b : String) : Prop :=
  a ≠ b ∧ ∃ X Y s s' c c', Dict.get? areas a = some X ∧ Dict.get? areas b = some Y ∧
    Corner geo coords X s c ∧ Corner geo coords Y s' c' ∧ geo.dist c c' / 1000 ≤ maxDistance

/-- Areas `a` and `b` belong together. -/
def Together (geo : Geo K) (coords : Dict String (K × K)) (areas : Dict String (Finset String))
    (maxDistance : K) : String → String → Prop :=
  Relation.ReflTransGen (Near geo coords areas maxDistance)

/-- Stations `s` and `s'` are a nearest pair of corners of two different areas which are near to each
other. -/
def NearestPair (geo : Geo K) (coords : Dict String (K × K)) (areas : Dict String (Finset String))
    (maxDistance : K) (s s' : String) : Prop :=
  ∃ a b X Y c c', a ≠ b ∧ Dict.get? areas a = some X ∧ Dict.get? areas b = some Y ∧
    Corner geo coords X s c ∧ Corner geo coords Y s' c' ∧ geo.dist c c' / 1000 ≤ maxDistance ∧
    ∀ t t' d d', Corner geo coords X t d → Corner geo coords Y t' d' →
      geo.dist c c' / 1000 ≤ geo.dist d d' / 1000

end Qopen.Spec
