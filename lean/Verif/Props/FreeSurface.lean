import Verif.Props.Tables
import Verif.Props.Pairs
import Verif.Props.Energy
import Verif.Props.BandSteps

/-!
# Free surface correction of surface and borehole stations (C115)
-/

namespace Qopen

open Catalog Energy Invert Window Tr Freqs Spec

variable {env : Env} {cfg : InvCfg} {cpus : ℕ} {schedule : List ℕ} {events : List Event}
  {bands : Dict ℝ (ℝ × ℝ)}

namespace Spec

/-- The factor of the free surface for a station: a single number for all stations, or the first of two
numbers at the surface and the second one in boreholes. -/
def SurfaceFactor (fs : FreeSurface) (borehole : Bool) (x : ℝ) : Prop :=
  (∀ y, fs = .one y → x = y) ∧
  (∀ a b, fs = .two a b → (borehole = false → x = a) ∧ (borehole = true → x = b))

end Spec

/-- **C115**: the energies of a pair are divided by the factor of the free surface of its station. -/
theorem C115_energy {lib : Lib} {wcfg : WCfg} {s : Stream} {tr : Trace}
    (hlen : ∀ d, (lib.hilbert d).length = d.length) (hc : wcfg.codaNorm = none)
    (h : energyOf lib wcfg s = .ok (some tr)) :
    ∃ fs spec, SurfaceFactor wcfg.freeSurface s.borehole fs ∧
      ∀ i, i < tr.data.length → tr.data[i]? = some ((s.channels.map (fun c =>
        wcfg.rho0 * (((lib.filt spec s.sr c).getD i 0) ^ 2 +
          ((lib.hilbert (lib.filt spec s.sr c)).getD i 0) ^ 2) /
        (2 * lib.width s.sr spec * fs))).sum) := by
  obtain ⟨-, spec, -, -, h1⟩ := C83_filter h
  rw [hc] at h1
  have h2 := (C34_energy_is_sum_of_channel_energies hlen h1).2.2.1
  refine ⟨freeSurfaceOf wcfg s, spec, ⟨?_, ?_⟩, ?_⟩
  · intro y hy
    unfold freeSurfaceOf
    rw [hy]
  · intro a b hab
    unfold freeSurfaceOf
    rw [hab]
    exact ⟨fun h => by simp [h], fun h => by simp [h]⟩
  · intro i hi
    rw [h2 i hi, List.map_map]
    rfl

namespace Invert

theorem split_dot {a b x y : List Char} (ha : '.' ∉ a) (hb : '.' ∉ b)
    (h : a ++ '.' :: x = b ++ '.' :: y) : x = y := by
  induction a generalizing b with
  | nil =>
    cases b with
    | nil => simpa using h
    | cons c b => simp only [List.nil_append, List.cons_append, List.cons.injEq] at h; simp [← h.1] at hb
  | cons c a ih =>
    cases b with
    | nil => simp only [List.nil_append, List.cons_append, List.cons.injEq] at h; simp [h.1] at ha
    | cons d b =>
      simp only [List.cons_append, List.cons.injEq] at h
      simp only [List.mem_cons, not_or] at ha hb
      exact ih ha.2 hb.2 h.2

/-- The streams which reach the bands. -/
theorem invert_streams {res : InvRes} (h : invert env cfg cpus schedule events = .ok (some res))
    (hb : getFreqs cfg.freqs = .ok bands) :
    ∃ origins selected args rlist, originsOf events = .ok origins ∧
      selectStreams env cfg events = .ok (some selected) ∧ bandArgs cfg bands = .ok args ∧
      runBands env cfg args (ignoreNetworks cfg (boreholes env origins) selected)
        (bands.map Prod.snd) cpus schedule = .ok rlist := by
  unfold invert at h
  split at h
  · simp at h
  rw [hb] at h
  simp only [bind, Except.bind] at h
  split at h
  · simp at h
  rename_i streams hst
  cases streams with
  | none => simp [pure, Except.pure] at h
  | some streams =>
    simp only at h
    obtain ⟨origins, ho, h⟩ := bind_ok.1 h
    obtain ⟨stations, hsta, h⟩ := bind_ok.1 h
    obtain ⟨args, hargs, h⟩ := bind_ok.1 h
    obtain ⟨rlist, hr, h⟩ := bind_ok.1 h
    exact ⟨origins, streams, args, rlist, ho, hst, hargs, hr⟩

end Invert

/-- **C115** (partial): in an inversion with network codes the second factor is used exactly for the
stations which are in a borehole at the time of one of the events (for a single event: at the time of this
event).  Missing: inversions with the option `ignore_network_code` and stations which are moved between
the events of a simultaneous inversion, for which the claim is false. -/
theorem C115_borehole_stations_partial {res : InvRes} (hset : IsSetOrder env.setOrder)
    (hn : (events.map getEventid).Nodup) (hb : getFreqs cfg.freqs = .ok bands)
    (hnet : cfg.ignoreNetworkCode = false)
    (h : invert env cfg cpus schedule events = .ok (some res)) :
    ∃ streams args rlist, bandArgs cfg bands = .ok args ∧
      runBands env cfg args streams (bands.map Prod.snd) cpus schedule = .ok rlist ∧
      (∀ st, st ∈ streams ↔ ∃ ev ∈ events, ∃ sta, Usable env cfg events ev sta st) ∧
      ∀ st ∈ streams, (st.borehole = true ↔ InBorehole env events st.station) := by
  obtain ⟨origins, selected, args, rlist, -, hsel, hargs, hr⟩ := invert_streams h hb
  have h1 : ignoreNetworks cfg (boreholes env origins) selected = selected := by
    unfold ignoreNetworks
    rw [hnet]
    rfl
  rw [h1] at hr
  have hp := (C28_pairs hset hn hsel).1
  refine ⟨selected, args, rlist, hargs, hr, hp, ?_⟩
  intro st hst
  obtain ⟨ev, -, sta, ori, d, p, s, traces, st0, -, -, -, -, -, -, ⟨-, -, -, -, -, -, -, hbo⟩, hno,
    hyes⟩ := (hp st).1 hst
  cases hrem : cfg.removeResponse with
  | false => rw [hno hrem]; exact hbo
  | true =>
    obtain ⟨ch, -, rfl⟩ := hyes hrem
    exact hbo

/-- **C115** is violated by the code: with `ignore_network_code` no station is taken for a borehole
station, whatever its depth, because borehole stations are remembered with network code (station codes
contain no dot). -/
theorem C115_network_code_counterexample {res : InvRes} (hset : IsSetOrder env.setOrder)
    (hb : getFreqs cfg.freqs = .ok bands) (hnet : cfg.ignoreNetworkCode = true)
    (hcodes : ∀ ch ∈ env.channels, ∃ net sta, '.' ∉ net ∧ '.' ∉ sta ∧
      (getStation ch).toList = net ++ '.' :: sta)
    (hdata : ∀ evid pat t1 t2 raw, env.getWaveforms evid pat t1 t2 = .ok (some raw) →
      ∀ tr ∈ env.merge raw, ∃ net sta, '.' ∉ net ∧ '.' ∉ sta ∧
        (getStation tr.id).toList = net ++ '.' :: sta)
    (hn : (events.map getEventid).Nodup)
    (h : invert env cfg cpus schedule events = .ok (some res)) :
    ∃ streams args rlist, bandArgs cfg bands = .ok args ∧
      runBands env cfg args streams (bands.map Prod.snd) cpus schedule = .ok rlist ∧
      ∀ st ∈ streams, st.borehole = false := by
  obtain ⟨origins, selected, args, rlist, -, hsel, hargs, hr⟩ := invert_streams h hb
  refine ⟨_, args, rlist, hargs, hr, ?_⟩
  intro st hst
  unfold ignoreNetworks at hst
  rw [if_pos hnet] at hst
  obtain ⟨s0, hs0, rfl⟩ := List.mem_map.1 hst
  simp only
  have hp := (C28_pairs hset hn hsel).1
  obtain ⟨ev, -, sta, ori, d, p, s, traces, st0, -, -, -, -, -, ⟨raw, hraw, -, -, htr, hlen, -⟩,
    ⟨-, hhead, -⟩, hno, hyes⟩ := (hp s0).1 hs0
  have hsta : s0.station = st0.station := by
    cases hrem : cfg.removeResponse with
    | false => rw [hno hrem]
    | true => obtain ⟨ch, -, rfl⟩ := hyes hrem; rfl
  obtain ⟨tr, hhd⟩ : ∃ tr, traces.head? = some tr := by
    cases traces with
    | nil => simp at hlen
    | cons a l => exact ⟨a, rfl⟩
  have hmem : tr ∈ env.merge raw := by rw [← htr]; exact List.mem_of_mem_head? hhd
  obtain ⟨net, code, hnd, hcd, he⟩ := hdata _ _ _ _ raw hraw tr hmem
  have hname : s0.station = getStation tr.id := by rw [hsta, (hhead tr hhd).1]
  have hdrop : (dropNetwork s0.station).toList = code := by
    rcases dropNetwork_spec s0.station with ⟨net', h1, h2⟩ | ⟨h1, -⟩
    · rw [hname, he] at h2
      rw [hname]
      exact (split_dot hnd h1 h2).symm
    · rw [hname, he] at h1; simp at h1
  have : ¬ (boreholes env origins (dropNetwork s0.station) = true) := by
    unfold boreholes
    simp only [decide_eq_true_eq]
    rintro ⟨hm, -⟩
    rw [show stationsOf env = env.setOrder _ from rfl, (hset _).2, List.mem_map] at hm
    obtain ⟨ch, hch, hs⟩ := hm
    obtain ⟨n2, c2, -, -, h2⟩ := hcodes ch hch
    rw [hs, hdrop] at h2
    rw [h2] at hcd
    simp at hcd
  simpa using this

/-! ## Cases which meet the hypotheses -/

example : ∃ tr, energyOf BandStepsExample.lib { BandStepsExample.wcfg true with freeSurface := .two 4 1 }
    { BandStepsExample.stream with borehole := true } = .ok (some tr) := by
  refine ⟨{ BandStepsExample.trace with data := [1 / 2, 2, 9 / 2] }, ?_⟩
  unfold Window.energyOf
  rw [if_neg (by norm_num [BandStepsExample.wcfg, BandStepsExample.stream]),
    if_neg (by simp [BandStepsExample.wcfg])]
  simp [Energy.observedEnergy, BandStepsExample.stream, BandStepsExample.lib, BandStepsExample.wcfg,
    Energy.energy1c, Energy.maxLen, Energy.minLen,
    Energy.sumAxis0, List.range_succ, Window.freeSurfaceOf, BandStepsExample.trace]
  norm_num

namespace FreeSurfaceExample

open JobsExample TablesExample Util InvertFb Source Real

/-- A station in a depth of 100 m. -/
noncomputable def deepEnv : Env :=
  { exEnv with
    channels := ["N.A..Z"]
    coords := fun _ _ => some ⟨0, 0, 0, 100⟩
    getWaveforms := fun _ _ _ _ => .ok (some [⟨"N.A..Z", 0, 1, [0, 0, 2, 1, 1]⟩,
      ⟨"N.A..N", 0, 1, [0, 0, 2, 1, 1]⟩, ⟨"N.A..E", 0, 1, [0, 0, 2, 1, 1]⟩]) }

noncomputable def deepCfg : InvCfg := { exCfg (some 1) with ignoreNetworkCode := true }

/-- An event one metre below the station. -/
noncomputable def deepEvent : Event := ⟨"ev/e", some ⟨0, 0, 0, some 101, []⟩, [], none, []⟩

noncomputable def deepStream : Stream := { exStream 1 with station := "N.A", borehole := true }

theorem deepId : getEventid deepEvent = "e" := by decide

theorem deepSta : getStation "N.A..Z" = "N.A" := by decide

theorem deepStations : stationsOf deepEnv = ["N.A"] := by
  simp [stationsOf, deepEnv, exEnv, deepSta]

theorem deepSelect : selectStreams deepEnv deepCfg [deepEvent] = .ok (some [deepStream]) := by
  have ho : originsOf [deepEvent] = .ok [("e", ⟨0, 0, 0, some 101, []⟩)] := by
    unfold originsOf
    have h : getOrigin deepEvent = .ok ⟨0, 0, 0, some 101, []⟩ := rfl
    simp [deepId, h, bind, Except.bind, pure, Except.pure, Dict.set]
  have hd : ∀ o : Origin, o = ⟨0, 0, 0, some 101, []⟩ → distance deepEnv deepCfg o "N.A" = some 1 := by
    rintro o rfl
    simp [distance, deepEnv, exEnv, deepCfg, exCfg]
    norm_num
  have hl : distLoop deepEnv deepCfg [("e", ⟨0, 0, 0, some 101, []⟩)] =
      ⟨[("e", "N.A")], [(("e", "N.A"), 1)]⟩ := by
    unfold distLoop allPairs
    rw [deepStations]
    simp only [Dict.keys, List.map_cons, List.map_nil, List.flatMap_cons, List.flatMap_nil,
      List.append_nil, List.foldl_cons, List.foldl_nil]
    unfold distStep
    have ht : tooFar deepCfg 1 = false := rfl
    simp [originAt, Dict.get?, hd, ht, Dict.set]
  have hdeep : boreholes deepEnv [("e", ⟨0, 0, 0, some 101, []⟩)] "N.A" = true := by
    unfold boreholes
    rw [deepStations]
    simp only [decide_eq_true_eq]
    exact ⟨by simp, _, by simp; rfl, ⟨0, 0, 0, 100⟩, rfl, ⟨0, rfl⟩, by norm_num⟩
  have hsort : sortPairs [("e", ⟨0, 0, 0, some 101, []⟩)] ⟨[("e", "N.A")], [(("e", "N.A"), 1)]⟩ =
      [("e", "N.A")] := by simp [sortPairs]
  have hons : onsetStep deepCfg [] [("e", ⟨0, 0, 0, some 101, []⟩)] [(("e", "N.A"), 1)]
      { pairs := [("e", "N.A")] } ("e", "N.A") =
      .ok ⟨[("e", "N.A")], [(("e", "N.A"), 1)], [(("e", "N.A"), 1)]⟩ := by
    simp [onsetStep, onsets, firstOnsets, deepCfg, exCfg, originAt, distAt, Dict.get?, bind, Except.bind, pure,
      Except.pure, Dict.set]
  have hf : fetch deepEnv deepCfg [("e", ⟨0, 0, 0, some 101, []⟩)] [(("e", "N.A"), 1)]
      ⟨[("e", "N.A")], [(("e", "N.A"), 1)], [(("e", "N.A"), 1)]⟩
      (boreholes deepEnv [("e", ⟨0, 0, 0, some 101, []⟩)]) ("e", "N.A") = .ok (some deepStream) := by
    have hc : checkData deepEnv deepCfg (0 + 0) (0 + 4)
        (some [⟨"N.A..Z", 0, 1, [0, 0, 2, 1, 1]⟩,
      ⟨"N.A..N", 0, 1, [0, 0, 2, 1, 1]⟩, ⟨"N.A..E", 0, 1, [0, 0, 2, 1, 1]⟩]) =
      some [⟨"N.A..Z", 0, 1, [0, 0, 2, 1, 1]⟩,
      ⟨"N.A..N", 0, 1, [0, 0, 2, 1, 1]⟩, ⟨"N.A..E", 0, 1, [0, 0, 2, 1, 1]⟩] := by
      norm_num [checkData, deepEnv, exEnv, covers, deepCfg, exCfg]
    unfold fetch
    have hw : ∀ t1 t2, deepEnv.getWaveforms "e" (pattern deepEnv "N.A") t1 t2 =
        .ok (some [⟨"N.A..Z", 0, 1, [0, 0, 2, 1, 1]⟩,
      ⟨"N.A..N", 0, 1, [0, 0, 2, 1, 1]⟩, ⟨"N.A..E", 0, 1, [0, 0, 2, 1, 1]⟩]) := fun _ _ => rfl
    have ht1 : deepCfg.requestWindow = (0, 4) := rfl
    simp only [originAt, Dict.get?, if_true, Option.getD_some, hw, ht1, hc, bind, Except.bind,
      List.length_cons, List.length_nil, pure, Except.pure, distAt]
    rw [if_neg (by simp)]
    unfold mkStream
    simp only [List.headD_cons, deepSta, hdeep]
    simp [deepStream, exStream]
  unfold selectStreams
  simp only [ho, hl, hsort, bind, Except.bind]
  have ha : arrivalsIf deepCfg [deepEvent] = .ok [] := rfl
  rw [ha]
  simp only [List.foldlM_cons, List.foldlM_nil, bind, Except.bind, hons, pure, Except.pure, mapExc, hf]
  have hcor : correct deepEnv deepCfg [deepStream] = [deepStream] := rfl
  have htf : ¬ tooFew deepCfg 1 := by simp [Invert.tooFew, deepCfg, exCfg]
  simp [hcor, htf]

theorem deepInvert : ∃ res, invert deepEnv deepCfg 1 [] [deepEvent] = .ok (some res) := by
  have hfr : getFreqs deepCfg.freqs = .ok [(0.25, (0.25 - halfWidth 0.25 1, 0.25 + halfWidth 0.25 1))] := by
    simp [deepCfg, exCfg, getFreqs, bandsOf, mkDict, Dict.set]
  have hh : halfWidth 0.25 1 = 1 / 12 := by unfold halfWidth; norm_num
  rw [hh] at hfr
  have ho : originsOf [deepEvent] = .ok [("e", ⟨0, 0, 0, some 101, []⟩)] := by
    unfold originsOf
    have h : getOrigin deepEvent = .ok ⟨0, 0, 0, some 101, []⟩ := rfl
    simp [deepId, h, bind, Except.bind, pure, Except.pure, Dict.set]
  obtain ⟨r, hr, herr⟩ := ex_one (some 1) (x := 1) (band := (0.25 - 1 / 12, 0.25 + 1 / 12))
    (by norm_num) (by norm_num) (by unfold gain; rw [if_neg (by norm_num)]; norm_num)
  have hrun : runBands deepEnv deepCfg exArgs [exStream 1] [(0.25 - 1 / 12, 0.25 + 1 / 12)] 1 []
      = .ok [some r] := by
    unfold runBands
    rw [if_pos (by rfl), C24_sequential]
    have hr' : runBand deepEnv deepCfg exArgs [exStream 1] (0.25 - 1 / 12, 0.25 + 1 / 12) =
      .ok (some r) := hr
    simp only [mapExc, hr', bind, Except.bind, pure, Except.pure]
  unfold invert
  rw [if_neg (by simp [deepCfg, exCfg])]
  simp only [hfr, deepSelect, ho, bind, Except.bind]
  have hno : boreholes deepEnv [("e", ⟨0, 0, 0, some 101, []⟩)] "A" = false := by
    unfold boreholes
    rw [deepStations]
    simp
  have h1 : ignoreNetworks deepCfg (boreholes deepEnv [("e", ⟨0, 0, 0, some 101, []⟩)]) [deepStream] =
      [exStream 1] := by
    unfold ignoreNetworks
    rw [if_pos (by rfl)]
    have hd : dropNetwork deepStream.station = "A" := by
      change dropNetwork "N.A" = "A"
      decide
    simp only [List.map_cons, List.map_nil, hd, hno]
    rfl
  have h2 : resultStations deepEnv deepCfg = .ok ["A"] := by
    unfold resultStations
    rw [deepStations]
    rfl
  have h3 : bandArgs deepCfg [(0.25, (0.25 - 1 / 12, 0.25 + 1 / 12))] = .ok exArgs := rfl
  rw [h1, h2, h3]
  simp only [List.map_cons, List.map_nil, hrun]
  unfold tables
  rw [if_neg (by simp)]
  obtain ⟨x, hx⟩ := WithTop.ne_top_iff_exists.1 herr
  have h4 : mapExc errorCell [some r] = .ok [.num x] := by
    simp [mapExc, errorCell, ← hx, bind, Except.bind, pure, Except.pure]
  rw [h4]
  have h5 : ∃ evs, eventTables deepEnv deepCfg [0.25] (lastV0 [some r]) [some r] [deepEvent] = .ok evs := by
    unfold eventTables
    rw [if_pos (by rfl)]
    unfold sourceEvents
    have hrow := rowW_nodup (ids := ["e"]) (by simp) (id := "e") (by simp) [some r]
    obtain ⟨l, hl⟩ := Site.sdsEntries_total (freq := [0.25]) (W := [some r].map (entry (·.W) "e"))
      (v0 := lastV0 [some r]) (rho0 := some deepCfg.rho0) (by simp) (by norm_num)
    have hk : fromKeys ["e"] = ["e"] := by decide
    have hsmm : deepCfg.smm = none := rfl
    simp only [List.map_cons, List.map_nil, deepId, hk, List.foldlM_cons, List.foldlM_nil, dictGet,
      Dict.get?, if_true, hrow, bind, Except.bind, pure, Except.pure, insertSourceProperties] at hl ⊢
    simp only [hl, hsmm]
    exact ⟨_, rfl⟩
  obtain ⟨evs, h5⟩ := h5
  simp only [bind, Except.bind, Dict.keys, List.map_cons, List.map_nil, h5]
  exact ⟨_, rfl⟩


theorem deep_InBorehole : InBorehole deepEnv [deepEvent] "N.A" := by
  refine ⟨⟨"N.A..Z", by simp [deepEnv], deepSta⟩, deepEvent, by simp, ⟨0, 0, 0, some 101, []⟩,
    ⟨0, 0, 0, 100⟩, 0, rfl, rfl, rfl, by norm_num⟩

/-- The inversion of a station in a borehole with `ignore_network_code` meets the hypotheses. -/
example : ∃ bands streams args rlist, bandArgs deepCfg bands = .ok args ∧
    runBands deepEnv deepCfg args streams (bands.map Prod.snd) 1 [] = .ok rlist ∧
    (∀ st ∈ streams, st.borehole = false) ∧ InBorehole deepEnv [deepEvent] "N.A" := by
  obtain ⟨res, h⟩ := deepInvert
  obtain ⟨bands, hb⟩ : ∃ bands, getFreqs deepCfg.freqs = .ok bands :=
    ⟨[(0.25, (0.25 - halfWidth 0.25 1, 0.25 + halfWidth 0.25 1))],
      by simp [deepCfg, exCfg, getFreqs, bandsOf, mkDict, Dict.set]⟩
  obtain ⟨streams, args, rlist, h1, h2, h3⟩ := C115_network_code_counterexample
    (fun l => ⟨List.nodup_dedup l, fun _ => List.mem_dedup⟩) hb rfl
    (by
      intro ch hch
      rw [show deepEnv.channels = ["N.A..Z"] from rfl, List.mem_singleton] at hch
      subst hch
      exact ⟨['N'], ['A'], by decide, by decide, by rw [deepSta]; rfl⟩)
    (by
      intro _ _ _ _ raw hraw tr htr
      simp only [deepEnv, Except.ok.injEq, Option.some.injEq] at hraw
      subst hraw
      simp only [deepEnv, exEnv, id, List.mem_cons, List.not_mem_nil, or_false] at htr
      rcases htr with rfl | rfl | rfl <;> exact ⟨['N'], ['A'], by decide, by decide, by decide⟩)
    (by simp) h
  exact ⟨bands, streams, args, rlist, h1, h2, h3, deep_InBorehole⟩

example : ∃ res bands, invert exEnv (exCfg (some 1)) 1 [] [exEvent] = .ok (some res) ∧
    getFreqs (exCfg (some 1)).freqs = .ok bands ∧ IsSetOrder exEnv.setOrder ∧
    ([exEvent].map getEventid).Nodup ∧ (exCfg (some 1)).ignoreNetworkCode = false := by
  obtain ⟨res, h⟩ := exInvert
  exact ⟨res, [(0.25, (0.25 - halfWidth 0.25 1, 0.25 + halfWidth 0.25 1))], h,
    by simp [exCfg, getFreqs, bandsOf, mkDict, Dict.set],
    fun l => ⟨List.nodup_dedup l, fun _ => List.mem_dedup⟩, by simp, rfl⟩

end FreeSurfaceExample

end Qopen
