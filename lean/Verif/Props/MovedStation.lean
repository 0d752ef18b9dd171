import Verif.Props.FreeSurface
import Verif.Props.OtherEvents

/-!
# A station which was moved into a borehole between two events (C115)
-/

namespace Qopen

open Catalog Energy Invert Window Tr Freqs Spec

namespace MovedStation

open JobsExample TablesExample OtherEventsExample

/-- The station is at the surface until the time 0 and in a borehole of 100 m later on. -/
noncomputable def movedEnv : Env :=
  { exEnv with
    coords := fun _ t => if t = 0 then some ⟨0, 0, 0, 0⟩ else some ⟨0, 0, 0, 100⟩
    getWaveforms := fun _ _ t1 _ => .ok (some [⟨".A..Z", t1, 1, [0, 0, 2, 1, 1]⟩,
      ⟨".A..N", t1, 1, [0, 0, 2, 1, 1]⟩, ⟨".A..E", t1, 1, [0, 0, 2, 1, 1]⟩]) }

noncomputable def movedCfg : InvCfg :=
  { exCfg (some 1) with wcfg := { (exCfg (some 1)).wcfg with freeSurface := .two 4 1 } }

/-- An event eight seconds later, one metre below the station. -/
noncomputable def later : Event := ⟨"ev/f", some ⟨8, 0, 0, some 101, []⟩, [], none, []⟩

noncomputable def ori2 : Origin := ⟨8, 0, 0, some 101, []⟩

theorem laterId : getEventid later = "f" := by decide

noncomputable def stream1 : Stream := { exStream 1 with borehole := true }

noncomputable def stream2 : Stream :=
  { exStream 1 with borehole := true, event := "f", start := 8, origin := 8, ponset := 9, sonset := 9 }

theorem origins_two : originsOf [exEvent, later] = .ok [("e", ori), ("f", ori2)] := by
  unfold originsOf
  have h : getOrigin exEvent = .ok ori := rfl
  have h' : getOrigin later = .ok ori2 := rfl
  simp [exId, laterId, h, h', bind, Except.bind, pure, Except.pure, Dict.set]

/-- The streams which are handed over to the bands. -/
theorem select_two : selectStreams movedEnv movedCfg [exEvent, later] = .ok (some [stream1, stream2]) := by
  have hd : distance movedEnv movedCfg ori "A" = some 1 := by
    simp [distance, movedEnv, exEnv, movedCfg, JobsExample.exCfg, ori]
  have hd2 : distance movedEnv movedCfg ori2 "A" = some 1 := by
    simp [distance, movedEnv, exEnv, movedCfg, JobsExample.exCfg, ori2]
    norm_num
  have hst : stationsOf movedEnv = ["A"] := exStations
  have hl : distLoop movedEnv movedCfg [("e", ori), ("f", ori2)] =
      ⟨[("e", "A"), ("f", "A")], [(("e", "A"), 1), (("f", "A"), 1)]⟩ := by
    unfold distLoop allPairs
    rw [hst]
    simp only [Dict.keys, List.map_cons, List.map_nil, List.flatMap_cons, List.flatMap_nil,
      List.append_nil, List.foldl_cons, List.foldl_nil, List.cons_append, List.nil_append]
    have ht : tooFar movedCfg 1 = false := rfl
    simp [distStep, originAt, Dict.get?, hd, hd2, ht, Dict.set]
  have hdeep : boreholes movedEnv [("e", ori), ("f", ori2)] "A" = true := by
    unfold boreholes
    rw [hst]
    simp only [decide_eq_true_eq]
    exact ⟨by simp, ori2, by simp, ⟨0, 0, 0, 100⟩, by simp [movedEnv, ori2], ⟨0, rfl⟩, rfl, by norm_num⟩
  have hsort : sortPairs [("e", ori), ("f", ori2)]
      ⟨[("e", "A"), ("f", "A")], [(("e", "A"), 1), (("f", "A"), 1)]⟩ =
      [("e", "A"), ("f", "A")] := by
    unfold sortPairs
    apply List.mergeSort_of_pairwise
    simp [lePair, originAt, distAt, Dict.get?, ori, ori2]
  have hons : [("e", "A"), ("f", "A")].foldlM (onsetStep movedCfg [] [("e", ori), ("f", ori2)]
      [(("e", "A"), 1), (("f", "A"), 1)]) { pairs := [("e", "A"), ("f", "A")] } =
      .ok ⟨[("e", "A"), ("f", "A")], [(("e", "A"), 1), (("f", "A"), 9)],
        [(("e", "A"), 1), (("f", "A"), 9)]⟩ := by
    simp [onsetStep, onsets, firstOnsets, movedCfg, JobsExample.exCfg, originAt, distAt, Dict.get?,
      bind, Except.bind, pure, Except.pure, Dict.set, ori, ori2]
    norm_num
  have hc : ∀ t : ℝ, checkData movedEnv movedCfg (t + 0) (t + 4)
      (some [⟨".A..Z", t + 0, 1, [0, 0, 2, 1, 1]⟩,
    ⟨".A..N", t + 0, 1, [0, 0, 2, 1, 1]⟩, ⟨".A..E", t + 0, 1, [0, 0, 2, 1, 1]⟩]) =
    some [⟨".A..Z", t + 0, 1, [0, 0, 2, 1, 1]⟩,
    ⟨".A..N", t + 0, 1, [0, 0, 2, 1, 1]⟩, ⟨".A..E", t + 0, 1, [0, 0, 2, 1, 1]⟩] := by
    intro t
    norm_num [checkData, movedEnv, exEnv, covers, movedCfg, JobsExample.exCfg]
  have hw : ∀ ev t1 t2, movedEnv.getWaveforms ev (pattern movedEnv "A") t1 t2 =
      .ok (some [⟨".A..Z", t1, 1, [0, 0, 2, 1, 1]⟩,
    ⟨".A..N", t1, 1, [0, 0, 2, 1, 1]⟩, ⟨".A..E", t1, 1, [0, 0, 2, 1, 1]⟩]) := fun _ _ _ => rfl
  have ht1 : movedCfg.requestWindow = (0, 4) := rfl
  have hf1 : fetch movedEnv movedCfg [("e", ori), ("f", ori2)] [(("e", "A"), 1), (("f", "A"), 1)]
      ⟨[("e", "A"), ("f", "A")], [(("e", "A"), 1), (("f", "A"), 9)], [(("e", "A"), 1), (("f", "A"), 9)]⟩
      (boreholes movedEnv [("e", ori), ("f", ori2)]) ("e", "A") = .ok (some stream1) := by
    have ho : originAt [("e", ori), ("f", ori2)] "e" = ori := by simp [originAt, Dict.get?]
    unfold fetch
    simp only [ho, hw, ht1, hc, bind, Except.bind,
      List.length_cons, List.length_nil, pure, Except.pure]
    rw [if_neg (by simp)]
    unfold mkStream
    simp only [List.headD_cons, exSta, hdeep]
    simp [stream1, exStream, Dict.get?, distAt, ori]
  have hf2 : fetch movedEnv movedCfg [("e", ori), ("f", ori2)] [(("e", "A"), 1), (("f", "A"), 1)]
      ⟨[("e", "A"), ("f", "A")], [(("e", "A"), 1), (("f", "A"), 9)], [(("e", "A"), 1), (("f", "A"), 9)]⟩
      (boreholes movedEnv [("e", ori), ("f", ori2)]) ("f", "A") = .ok (some stream2) := by
    have ho : originAt [("e", ori), ("f", ori2)] "f" = ori2 := by simp [originAt, Dict.get?]
    unfold fetch
    simp only [ho, hw, ht1, hc, bind, Except.bind,
      List.length_cons, List.length_nil, pure, Except.pure]
    rw [if_neg (by simp)]
    unfold mkStream
    simp only [List.headD_cons, exSta, hdeep]
    simp [stream2, exStream, Dict.get?, distAt, ori2]
  unfold selectStreams
  simp only [origins_two, hl, hsort, bind, Except.bind]
  have ha : arrivalsIf movedCfg [exEvent, later] = .ok [] := rfl
  rw [ha]
  simp only [hons, mapExc, hf1, hf2, bind, Except.bind, pure, Except.pure]
  have hcor : correct movedEnv movedCfg [stream1, stream2] = [stream1, stream2] := rfl
  have htf : ¬ tooFew movedCfg 2 := by simp [Invert.tooFew, movedCfg, JobsExample.exCfg]
  simp [hcor, htf]

end MovedStation

open MovedStation JobsExample TablesExample in
/-- **C115** is violated by the code if events are inverted simultaneously: a station which is at the
surface at the time of an event gets the factor of boreholes for this event if it is in a borehole at
the time of another event. -/
theorem C115_moved_station_counterexample :
    ∃ (env : Env) (cfg : InvCfg) (first second : Event) (streams : List Stream) (st : Stream)
      (o1 o2 : Origin) (c1 c2 : Coord) (a b : ℝ),
      -- the station is at the surface at the time of the first event and in a borehole at the second one
      getOrigin first = .ok o1 ∧ getOrigin second = .ok o2 ∧
      env.coords (oneChannel env st.station) o1.time = some c1 ∧ c1.localDepth = 0 ∧
      env.coords (oneChannel env st.station) o2.time = some c2 ∧ c2.localDepth = 100 ∧
      cfg.ignoreNetworkCode = false ∧ cfg.wcfg.freeSurface = .two a b ∧ a ≠ b ∧
      -- the stream of the first event is inverted with the factor of boreholes
      selectStreams env cfg [first, second] = .ok (some streams) ∧ st ∈ streams ∧
      st.event = getEventid first ∧
      (∀ fs, SurfaceFactor cfg.wcfg.freeSurface st.borehole fs → fs = b) ∧
      -- without the second event it is inverted with the factor of the surface
      ¬ InBorehole env [first] st.station := by
  refine ⟨movedEnv, movedCfg, exEvent, later, [stream1, stream2], stream1, OtherEventsExample.ori, ori2,
    ⟨0, 0, 0, 0⟩, ⟨0, 0, 0, 100⟩, 4, 1, rfl, rfl, ?_, rfl, ?_, rfl, rfl, rfl, by norm_num, select_two,
    by simp, ?_, ?_, ?_⟩
  · simp [movedEnv, OtherEventsExample.ori]
  · simp [movedEnv, ori2]
  · rw [exId]; rfl
  · intro fs h
    exact (h.2 4 1 rfl).2 rfl
  · rintro ⟨-, ev, hev, o, c, d, ho, hc, -, -, hlt⟩
    simp only [List.mem_singleton] at hev
    subst hev
    have : o = OtherEventsExample.ori := (Except.ok.inj ho).symm
    subst this
    simp [movedEnv, OtherEventsExample.ori] at hc
    subst hc
    norm_num at hlt

end Qopen
