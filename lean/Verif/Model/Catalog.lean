import Verif.Py.Basic

/-!
# Model of the access to catalogue objects (core.py:198-280)

obspy's objects are records with the attributes used by qopen.
-/

namespace Qopen.Catalog

/-- A pick: `waveform_id.get_seed_string()` and `time` (core.py:269-277). -/
structure Pick where
  seedid : String
  time : ℝ

/-- An arrival; `pick` is `pick_id.get_referred_object()`, `None` if the object does not exist.
See core.py:234-257, 263-279. -/
structure Arrival where
  phase : String
  pick : Option Pick

/-- An origin (core.py:216-218, 239, 1075). -/
structure Origin where
  time : ℝ
  latitude : ℝ
  longitude : ℝ
  /-- may be missing in a catalogue -/
  depth : Option ℝ
  arrivals : List Arrival

/-- An event; magnitudes by their value.  obspy's event objects are always true in a boolean
context because they have a resource id.  See core.py:206-231. -/
structure Event where
  resourceId : String
  preferredOrigin : Option Origin
  origins : List Origin
  preferredMagnitude : Option ℝ
  magnitudes : List ℝ

/-- `s.rsplit(sep, 1)[0]`: the part in front of the last separator, all of it without separator
(core.py:200). -/
def rcut (sep : Char) (s : List Char) : List Char :=
  if sep ∈ s then ((s.reverse.dropWhile (· ≠ sep)).drop 1).reverse else s

/-- The part after the last separator (`s.split(sep)[-1]`) (core.py:208). -/
def lastPart (sep : Char) (s : List Char) : List Char :=
  (s.reverse.takeWhile (· ≠ sep)).reverse

/-- core.py:198-203 `get_station`; `rsplit('.', 2)[0]` cuts twice. -/
def getStation (seedid : String) : String :=
  let st := rcut '.' (rcut '.' seedid.toList)                                 -- 200
  String.ofList (if st.head? = some '.' then st.drop 1 else st)               -- 201-203

/-- core.py:206-208 `get_eventid`. -/
def getEventid (ev : Event) : String := String.ofList (lastPart '/' ev.resourceId.toList)

/-- core.py:216-218 `get_origin`. -/
def getOrigin (ev : Event) : Py Origin :=
  match ev.preferredOrigin with
  | some o => .ok o
  | none => pyGet ev.origins 0

/-- core.py:221-231 `get_magnitude`; a magnitude is a true object. -/
def getMagnitude (ev : Event) : Option ℝ :=
  match ev.preferredMagnitude with
  | some m => some m
  | none => ev.magnitudes[0]?

/-- core.py:234-257 `get_arrivals`, log messages are left out. -/
def getArrivals (ev : Event) : Py (Option (List Arrival)) := do
  let o ← getOrigin ev
  if o.arrivals.length > 0 then return some o.arrivals                        -- 236-238
  else
    let o ← pyGet ev.origins 0
    if o.arrivals.length > 0 then return some o.arrivals                      -- 239-244
    else
      match (ev.origins.map Origin.arrivals).filter (fun a => decide (a.length > 0)) with -- 245
      | [] => return none
      | [c] => return some c                                                  -- 249-253
      | _ => return none

/-- `str.upper` for ASCII letters (core.py:264). -/
def upper (s : String) : List Char := s.toList.map Char.toUpper

/-- core.py:264-266, name of the phase. -/
def phaseName (s : String) : List Char :=
  if upper s = ['P', 'G'] ∨ upper s = ['S', 'G'] then (upper s).take 1 else upper s

/-- `phase in 'PS'`: substrings of `'PS'` (core.py:267). -/
def inPS (ph : List Char) : Bool := ['P', 'S'].tails.any (fun t => ph.isPrefixOf t)

/-- core.py:263-279, one pass of the loop of `get_picks`. -/
def pickStep (station : String) (picks : Dict (List Char) ℝ) (a : Arrival) :
    Py (Dict (List Char) ℝ) :=
  if inPS (phaseName a.phase) then
    match a.pick with
    | none => .error .attributeError                                          -- 270
    | some p => if station = getStation p.seedid then .ok (picks.set (phaseName a.phase) p.time)
      else .ok picks
  else .ok picks                                                              -- 267-268

/-- core.py:260-280 `get_picks`. -/
def getPicks (arrivals : List Arrival) (station : String) : Py (Dict (List Char) ℝ) :=
  arrivals.foldlM (pickStep station) []

end Qopen.Catalog
