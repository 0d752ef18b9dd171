import Verif.Model.Trace

/-!
# Model of the observed energy (core.py:156-195)

The Hilbert transform of scipy is a parameter.
-/

namespace Qopen.Energy

open Tr

/-- A stream: the traces of the components of one event-station pair (same start time and
sampling rate) with the entries of `stats` used later on (core.py:169-195, 1227-1234). -/
structure Stream where
  event : String
  station : String
  start : ℝ
  sr : ℝ
  channels : List (List ℝ)
  origin : ℝ
  ponset : ℝ
  sonset : ℝ
  distance : ℝ
  /-- the station is in `borehole_stations` -/
  borehole : Bool := false

/-- core.py:156-166 `energy1c`. -/
noncomputable def energy1c (hilbert : List ℝ → List ℝ) (data : List ℝ) (rho df fs : ℝ) : List ℝ :=
  List.zipWith (fun x h => rho * (x ^ 2 + h ^ 2) / 2 / df / fs) data (hilbert data)

/-- Smallest length (`min(Ns)`) (core.py:169-195). -/
def minLen : List ℕ → ℕ
  | [] => 0
  | n :: l => l.foldl min n

/-- Largest length (`max(Ns)`) (core.py:169-195). -/
def maxLen : List ℕ → ℕ
  | [] => 0
  | n :: l => l.foldl max n

/-- `np.sum(data, axis=0)` for lists of length `n` (core.py:169-195). -/
def sumAxis0 (n : ℕ) (data : List (List ℝ)) : List ℝ :=
  (List.range n).map (fun i => (data.map (fun d => d.getD i 0)).sum)

/-- core.py:191-194: division by the mean in the normalisation window.  The mean over an empty
window is NaN and zero mean leads to a division by zero; both are not modelled (`other`). -/
noncomputable def normalise (tr : Trace) (cn : ℝ × ℝ) : Py Trace := do
  let sl ← tr.slice (tr.origin + cn.1) (tr.origin + cn.2)
  if sl.data.sum = 0 then .error .other
  else .ok { tr with data := tr.data.map (fun x => x / (sl.data.sum / sl.data.length)) }

/-- core.py:169-195 `observed_energy`.  The change of the channel name is left out. -/
noncomputable def observedEnergy (hilbert : List ℝ → List ℝ) (st : Stream) (rho df : ℝ)
    (codaNorm : Option (ℝ × ℝ)) (fs : ℝ) (tolerance : ℕ := 1) : Py Trace :=
  let data := st.channels.map (fun d => energy1c hilbert d rho df fs)        -- 180
  let Ns := data.map List.length                                             -- 181
  if Ns = [] then .error .valueError
  else if maxLen Ns - minLen Ns > tolerance then .error .skipError           -- 182-185
  else
    let data := data.map (fun d => d.take (minLen Ns))                       -- 186-187
    let tr : Trace :=
      { event := st.event, station := st.station, start := st.start, sr := st.sr
        data := sumAxis0 (minLen Ns) data                                    -- 188
        origin := st.origin, ponset := st.ponset, sonset := st.sonset, distance := st.distance }
    match codaNorm with                                                      -- 191
    | none => .ok tr
    | some cn => normalise tr cn

end Qopen.Energy
