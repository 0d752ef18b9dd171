import Verif.Props.Units
import Verif.Props.TruthChain
import Verif.Props.Returns

/-!
# Catalogues with events of the same short id (C147)
-/

namespace Qopen

open Real Spec Util Catalog Freqs Source Invert Wrapper Collect

namespace Spec

/-- In the list of inversions, `r` is the last result of an event with the id. -/
def LastResult (runs : List (Event × Option InvRes)) (id : String) (ev : Event) (r : InvRes) : Prop :=
  ∃ before after, runs = before ++ (ev, some r) :: after ∧ getEventid ev = id ∧
    ∀ p ∈ after, getEventid p.1 = id → p.2 = none

/-- The ids of the events with a result, each id once. -/
def idsWithResult (runs : List (Event × Option InvRes)) : Finset String :=
  ((runs.filter (fun p => p.2.isSome)).map (fun p => getEventid p.1)).toFinset

end Spec

namespace Wrapper

/-- The loop for any catalogue. -/
theorem loop_last {inv : List Event → Py (Option InvRes)} {codaNorm : Bool} {l : List Event}
    {st' : LoopState} (h : l.foldlM (loopStep inv codaNorm) {} = .ok st') :
    ∃ outcomes : List (Option InvRes), List.Forall₂ (fun ev o => inv [ev] = .ok o) l outcomes ∧
      st'.events.WF ∧
      (∀ id d, st'.events.get? id = some d →
        ∃ ev r, LastResult (l.zip outcomes) id ev r ∧ eventEntry codaNorm id r = .ok d) ∧
      ∀ p ∈ l.zip outcomes, p.2.isSome → getEventid p.1 ∈ st'.events.keys := by
  induction l using List.reverseRecOn generalizing st' with
  | nil =>
    simp only [List.foldlM_nil, pure, Except.pure, Except.ok.injEq] at h
    subst h
    exact ⟨[], .nil, by simp [Dict.WF, Dict.keys], by simp [Dict.get?], by simp⟩
  | append_singleton l ev ih =>
    rw [List.foldlM_append] at h
    obtain ⟨m, hm, h⟩ := bind_ok.1 h
    obtain ⟨outs, h1, h2, h3, h4⟩ := ih hm
    simp only [List.foldlM_cons, List.foldlM_nil] at h
    obtain ⟨m', hm', h⟩ := bind_ok.1 h
    simp only [pure, Except.pure, Except.ok.injEq] at h
    subst h
    unfold loopStep at hm'
    obtain ⟨_, _, hm'⟩ := bind_ok.1 hm'
    obtain ⟨o, ho, hm'⟩ := bind_ok.1 hm'
    have hz : (l ++ [ev]).zip (outs ++ [o]) = l.zip outs ++ [(ev, o)] := by
      rw [List.zip_append h1.length_eq]
      rfl
    refine ⟨outs ++ [o], List.rel_append h1 (.cons ho .nil), ?_⟩
    rw [hz]
    cases o with
    | none =>
      simp only [pure, Except.pure, Except.ok.injEq] at hm'
      subst hm'
      refine ⟨h2, ?_, ?_⟩
      · intro id d hd
        obtain ⟨e, r, ⟨b, a, k1, k2, k3⟩, k4⟩ := h3 id d hd
        refine ⟨e, r, ⟨b, a ++ [(ev, none)], by rw [k1]; simp, k2, ?_⟩, k4⟩
        intro p hp hid
        rcases List.mem_append.1 hp with hp | hp
        · exact k3 p hp hid
        · rw [List.mem_singleton.1 hp]
      · intro p hp hs
        rcases List.mem_append.1 hp with hp | hp
        · exact h4 p hp hs
        · rw [List.mem_singleton.1 hp] at hs
          simp at hs
    | some r =>
      simp only at hm'
      obtain ⟨e, he, hm'⟩ := bind_ok.1 hm'
      simp only [pure, Except.pure, Except.ok.injEq] at hm'
      subst hm'
      simp only
      refine ⟨Dict.WF_set h2 _ _, ?_, ?_⟩
      · intro id d hd
        rw [Dict.get?_set] at hd
        split at hd
        · rename_i hid
          obtain rfl := Option.some.inj hd
          subst hid
          exact ⟨ev, r, ⟨l.zip outs, [], rfl, rfl, by simp⟩, he⟩
        · rename_i hid
          obtain ⟨e', r', ⟨b, a, k1, k2, k3⟩, k4⟩ := h3 id d hd
          refine ⟨e', r', ⟨b, a ++ [(ev, some r)], by rw [k1]; simp, k2, ?_⟩, k4⟩
          intro p hp hidp
          rcases List.mem_append.1 hp with hp | hp
          · exact k3 p hp hidp
          · rw [List.mem_singleton.1 hp] at hidp
            exact absurd hidp hid
      · intro p hp hs
        rw [Dict.mem_keys_set]
        rcases List.mem_append.1 hp with hp | hp
        · exact Or.inr (h4 p hp hs)
        · rw [List.mem_singleton.1 hp]
          exact Or.inl rfl

end Wrapper

section

variable {rlm : List ℝ → ℝ × ℝ} {inv : List Event → Py (Option InvRes)} {codaNorm : Bool} {mean : Mean}
  {events : List Event} {w : WrapRes}

/-- **C147** for any catalogue: the result has one entry for each short id of an event with a result; it is the entry
of the last one of these events in order of origin time. -/
theorem C147_last_wins (h : invertWrapper rlm inv codaNorm false mean events = .ok (some w)) :
    ∃ (order : List Event) (outcomes : List (Option InvRes)), InTimeOrder events order ∧
      List.Forall₂ (fun ev o => inv [ev] = .ok o) order outcomes ∧ w.events.WF ∧
      (∀ id d, w.events.get? id = some d →
        ∃ ev r, LastResult (order.zip outcomes) id ev r ∧ eventEntry codaNorm id r = .ok d) ∧
      w.events.keys.toFinset = idsWithResult (order.zip outcomes) := by
  obtain ⟨order, ho, h⟩ := bind_ok.1 h
  rw [if_neg (by simp)] at h
  obtain ⟨st, hst, h⟩ := bind_ok.1 h
  obtain ⟨outs, h1, h2, h3, h4⟩ := loop_last hst
  have hev : w.events = st.events := by
    split at h
    · simp [pure, Except.pure] at h
    · unfold means at h
      obtain ⟨col, hc, h⟩ := bind_ok.1 h
      obtain ⟨g0, hg, h⟩ := bind_ok.1 h
      split at h
      · simp [pure, Except.pure] at h
      · obtain ⟨b, hb, h⟩ := bind_ok.1 h
        obtain ⟨errs, he, h⟩ := bind_ok.1 h
        cases errs with
        | none => simp at h
        | some errs =>
          simp only at h
          split at h
          · simp at h
          · obtain ⟨_, _, h⟩ := bind_ok.1 h
            obtain ⟨_, _, h⟩ := bind_ok.1 h
            obtain ⟨_, _, h⟩ := bind_ok.1 h
            obtain ⟨_, _, h⟩ := bind_ok.1 h
            obtain ⟨_, _, h⟩ := bind_ok.1 h
            simp only [pure, Except.pure, Except.ok.injEq, Option.some.injEq] at h
            rw [← h]
  refine ⟨order, outs, (orderEvents_ok ho).1, h1, hev ▸ h2, hev ▸ h3, ?_⟩
  rw [hev]
  ext id
  unfold idsWithResult
  simp only [List.mem_toFinset, List.mem_map, List.mem_filter]
  constructor
  · intro hk
    rw [← Dict.get?_isSome, Option.isSome_iff_exists] at hk
    obtain ⟨d, hd⟩ := hk
    obtain ⟨ev, r, ⟨b, a, k1, k2, -⟩, -⟩ := h3 id d hd
    exact ⟨(ev, some r), ⟨by rw [k1]; simp, rfl⟩, k2⟩
  · rintro ⟨p, ⟨k1, k2⟩, rfl⟩
    exact h4 p k1 k2

/-- **C147**: if no two events have the same short id, no result is lost.  The full claim is that this holds for all
catalogues of events with different resource identifiers, which is false, see `C147_overwritten_counterexample`. -/
theorem C147_kept_apart_partial (hid : (events.map getEventid).Nodup)
    (h : invertWrapper rlm inv codaNorm false mean events = .ok (some w)) :
    ∃ (order : List Event) (outcomes : List (Option InvRes)), InTimeOrder events order ∧
      List.Forall₂ (fun ev o => inv [ev] = .ok o) order outcomes ∧
      (∀ ev r, (ev, some r) ∈ order.zip outcomes → ∃ d, w.events.get? (getEventid ev) = some d ∧
        eventEntry codaNorm (getEventid ev) r = .ok d) ∧
      w.events.length = (outcomes.filter (·.isSome)).length := by
  obtain ⟨order, outs, h1, h2, h3, h4, h5⟩ := C147_last_wins h
  have hn : (order.map getEventid).Nodup := by
    rw [(h1.perm.map getEventid).nodup_iff]
    exact hid.sublist (List.filter_sublist.map _)
  have hz : (order.zip outs).map (fun p => getEventid p.1) = order.map getEventid := by
    have : (fun p : Event × Option InvRes => getEventid p.1) = getEventid ∘ Prod.fst := rfl
    rw [this, ← List.map_map, List.map_fst_zip h2.length_eq.le]
  have hinj : ∀ p ∈ order.zip outs, ∀ q ∈ order.zip outs, getEventid p.1 = getEventid q.1 → p = q := by
    intro p hp q hq hpq
    exact List.inj_on_of_nodup_map (by rw [hz]; exact hn) hp hq hpq
  refine ⟨order, outs, h1, h2, ?_, ?_⟩
  · intro ev r hm
    have hk : getEventid ev ∈ w.events.keys := by
      rw [← List.mem_toFinset, h5]
      unfold idsWithResult
      simp only [List.mem_toFinset, List.mem_map, List.mem_filter]
      exact ⟨_, ⟨hm, rfl⟩, rfl⟩
    rw [← Dict.get?_isSome, Option.isSome_iff_exists] at hk
    obtain ⟨d, hd⟩ := hk
    obtain ⟨ev', r', ⟨b, a, k1, k2, -⟩, k3⟩ := h4 _ d hd
    have := hinj _ hm (ev', some r') (by rw [k1]; simp) k2.symm
    simp only [Prod.mk.injEq, Option.some.injEq] at this
    exact ⟨d, hd, this.2 ▸ k3⟩
  · have e1 : w.events.length = w.events.keys.toFinset.card := by
      rw [List.toFinset_card_of_nodup h3]
      simp [Dict.keys]
    rw [e1, h5]
    unfold idsWithResult
    rw [List.toFinset_card_of_nodup]
    · rw [List.length_map]
      have : outs = (order.zip outs).map Prod.snd := (List.map_snd_zip h2.length_eq.ge).symm
      conv_rhs => rw [this, List.filter_map, List.length_map]
      rfl
    · exact (by rw [hz]; exact hn : ((order.zip outs).map (fun p => getEventid p.1)).Nodup).sublist
        (List.filter_sublist.map _)

end

namespace SameIdsExample

open JobsExample TablesExample Window

/-- Records which start with the request. -/
noncomputable def env : Env :=
  { exEnv with
    getWaveforms := fun _ _ t1 _ => .ok (some [⟨".A..Z", t1, 1, [0, 0, 2, 1, 1]⟩,
      ⟨".A..N", t1, 1, [0, 0, 2, 1, 1]⟩, ⟨".A..E", t1, 1, [0, 0, 2, 1, 1]⟩]) }

/-- Event at any time. -/
noncomputable def event (name : String) (t : ℝ) : Event := ⟨name, some ⟨t, 0, 0, some 1, []⟩, [], none, []⟩

noncomputable def ori (t : ℝ) : Origin := ⟨t, 0, 0, some 1, []⟩

noncomputable def stream (t : ℝ) : Energy.Stream :=
  { exStream 1 with start := t, origin := t, ponset := t + 1, sonset := t + 1 }

theorem origins_at {name : String} {t : ℝ} (hn : getEventid (event name t) = "e") :
    originsOf [event name t] = .ok [("e", ori t)] := by
  unfold originsOf
  have h : getOrigin (event name t) = .ok (ori t) := rfl
  simp [hn, h, bind, Except.bind, pure, Except.pure, Dict.set]

theorem select {events : List Event} {t : ℝ} (ho : originsOf events = .ok [("e", ori t)]) :
    selectStreams env (exCfg (some 1)) events = .ok (some [stream t]) := by
  have hd : distance env (exCfg (some 1)) (ori t) "A" = some 1 := by
    simp [distance, env, exEnv, exCfg, ori]
  have hst : stationsOf env = ["A"] := exStations
  have hl : distLoop env (exCfg (some 1)) [("e", ori t)] = ⟨[("e", "A")], [(("e", "A"), 1)]⟩ := by
    unfold distLoop allPairs
    rw [hst]
    simp only [Dict.keys, List.map_cons, List.map_nil, List.flatMap_cons, List.flatMap_nil,
      List.append_nil, List.foldl_cons, List.foldl_nil]
    unfold distStep
    have ht : tooFar (exCfg (some 1)) 1 = false := rfl
    simp [originAt, Dict.get?, hd, ht, Dict.set]
  have hdeep : boreholes env [("e", ori t)] "A" = false := by
    simp [boreholes, deepStation, env, exEnv]
  have hsort : sortPairs [("e", ori t)] ⟨[("e", "A")], [(("e", "A"), 1)]⟩ = [("e", "A")] := by simp [sortPairs]
  have hons : onsetStep (exCfg (some 1)) [] [("e", ori t)] [(("e", "A"), 1)]
      { pairs := [("e", "A")] } ("e", "A") =
      .ok ⟨[("e", "A")], [(("e", "A"), t + 1)], [(("e", "A"), t + 1)]⟩ := by
    simp [onsetStep, onsets, firstOnsets, exCfg, originAt, distAt, Dict.get?, bind, Except.bind, pure,
      Except.pure, Dict.set, ori]
  have hf : fetch env (exCfg (some 1)) [("e", ori t)] [(("e", "A"), 1)]
      ⟨[("e", "A")], [(("e", "A"), t + 1)], [(("e", "A"), t + 1)]⟩
      (boreholes env [("e", ori t)]) ("e", "A") = .ok (some (stream t)) := by
    have hc : checkData env (exCfg (some 1)) (t + 0) (t + 4)
        (some [⟨".A..Z", t + 0, 1, [0, 0, 2, 1, 1]⟩,
      ⟨".A..N", t + 0, 1, [0, 0, 2, 1, 1]⟩, ⟨".A..E", t + 0, 1, [0, 0, 2, 1, 1]⟩]) =
      some [⟨".A..Z", t + 0, 1, [0, 0, 2, 1, 1]⟩,
      ⟨".A..N", t + 0, 1, [0, 0, 2, 1, 1]⟩, ⟨".A..E", t + 0, 1, [0, 0, 2, 1, 1]⟩] := by
      norm_num [checkData, env, exEnv, covers, exCfg]
    unfold fetch
    have hw : ∀ t1 t2, env.getWaveforms "e" (pattern env "A") t1 t2 =
        .ok (some [⟨".A..Z", t1, 1, [0, 0, 2, 1, 1]⟩,
      ⟨".A..N", t1, 1, [0, 0, 2, 1, 1]⟩, ⟨".A..E", t1, 1, [0, 0, 2, 1, 1]⟩]) := fun _ _ => rfl
    have ht1 : (exCfg (some 1)).requestWindow = (0, 4) := rfl
    have ht : (ori t).time = t := rfl
    simp only [originAt, Dict.get?, if_true, Option.getD_some, hw, ht1, ht, hc, bind, Except.bind,
      List.length_cons, List.length_nil, pure, Except.pure, distAt]
    rw [if_neg (by simp)]
    unfold mkStream
    simp only [List.headD_cons, exSta, hdeep]
    simp [stream, exStream, ori]
  unfold selectStreams
  simp only [ho, hl, hsort, bind, Except.bind]
  have ha : arrivalsIf (exCfg (some 1)) events = .ok [] := rfl
  rw [ha]
  simp only [List.foldlM_cons, List.foldlM_nil, bind, Except.bind, hons, pure, Except.pure, mapExc, hf]
  have hcor : correct env (exCfg (some 1)) [stream t] = [stream t] := rfl
  have htf : ¬ tooFew (exCfg (some 1)) 1 := by simp [Invert.tooFew, exCfg]
  simp [hcor, htf]

theorem run_at (t : ℝ) (band : ℝ × ℝ) : runBand env (exCfg (some 1)) exArgs [stream t] band =
    runBand exEnv (exCfg (some 1)) exArgs [exStream 1] band := by
  have e : [stream t] = [exStream 1].map (fun s => atOtherTime t s) := by
    simp [stream, exStream, atOtherTime, add_comm]
  unfold runBand
  simp only [exArgs, Bool.false_eq_true, if_false]
  rw [e]
  exact C118_absolute_times (fun _ _ => t)

theorem invert_of {events : List Event} {t : ℝ} (ho : originsOf events = .ok [("e", ori t)])
    {env' : Env} {orc : Oracle} (henv : env' = { env with orc := orc })
    {cfg' : InvCfg} {smm : Option Method} {smo : Option Opts}
    (hcfg : cfg' = { exCfg (some 1) with smm := smm, smo := smo })
    (he : ∀ rlist : List (Option InvertFb.BandResult), rlist.length = 1 →
      ∃ evs, sourceEvents env' cfg' [0.25] (lastV0 rlist) rlist events = .ok evs) :
    ∃ res, invert env' cfg' 1 [] events = .ok (some res) := by
  have hfr : getFreqs cfg'.freqs = .ok [(0.25, (0.25 - halfWidth 0.25 1, 0.25 + halfWidth 0.25 1))] := by
    subst hcfg
    simp [exCfg, getFreqs, bandsOf, mkDict, Dict.set]
  have hh : halfWidth 0.25 1 = 1 / 12 := by unfold halfWidth; norm_num
  rw [hh] at hfr
  obtain ⟨r, hr, herr⟩ := ex_one (some 1) (x := 1) (band := (0.25 - 1 / 12, 0.25 + 1 / 12))
    (by norm_num) (by norm_num) (by unfold gain; rw [if_neg (by norm_num)]; norm_num)
  rw [← run_at t] at hr
  have hrun : runBands env' cfg' exArgs [stream t] [(0.25 - 1 / 12, 0.25 + 1 / 12)] 1 []
      = .ok [some r] := by
    have : runBands env (exCfg (some 1)) exArgs [stream t] [(0.25 - 1 / 12, 0.25 + 1 / 12)] 1 []
        = .ok [some r] := by
      unfold runBands
      rw [if_pos (by rfl), C24_sequential]
      simp only [mapExc, hr, bind, Except.bind, pure, Except.pure]
    subst henv hcfg
    exact this
  have hsel : selectStreams env' cfg' events = .ok (some [stream t]) := by
    subst henv hcfg
    exact select ho
  have h1 : ignoreNetworks cfg' (boreholes env' [("e", ori t)]) [stream t] = [stream t] := by
    subst henv hcfg
    rfl
  have h2 : resultStations env' cfg' = .ok ["A"] := by
    subst henv hcfg
    have : resultStations env (exCfg (some 1)) = .ok ["A"] := by
      unfold resultStations
      rw [show stationsOf env = ["A"] from exStations]
      rfl
    exact this
  have h3 : bandArgs cfg' [(0.25, (0.25 - 1 / 12, 0.25 + 1 / 12))] = .ok exArgs := by subst hcfg; rfl
  have hcn : cfg'.codaNorm = none := by subst hcfg; rfl
  unfold invert
  rw [if_neg (by subst hcfg; simp [exCfg])]
  simp only [hfr, hsel, ho, bind, Except.bind]
  rw [h1, h2, h3]
  simp only [List.map_cons, List.map_nil, hrun]
  unfold tables
  rw [if_neg (by simp)]
  obtain ⟨x, hx⟩ := WithTop.ne_top_iff_exists.1 herr
  have h4 : mapExc errorCell [some r] = .ok [.num x] := by
    simp [mapExc, errorCell, ← hx, bind, Except.bind, pure, Except.pure]
  rw [h4]
  have h5 : ∃ evs, eventTables env' cfg' [0.25] (lastV0 [some r]) [some r] events = .ok evs := by
    unfold eventTables
    rw [hcn, if_pos (by rfl)]
    exact he _ rfl
  obtain ⟨evs, h5⟩ := h5
  simp only [bind, Except.bind, Dict.keys, List.map_cons, List.map_nil, h5]
  exact ⟨_, rfl⟩

/-- Source spectra of events with the same id. -/
theorem sources_total {events : List Event} (hid : ∀ ev ∈ events, getEventid ev = "e") (hne : events ≠ [])
    (rlist : List (Option InvertFb.BandResult)) (hl : rlist.length = 1) :
    ∃ evs, sourceEvents env (exCfg (some 1)) [0.25] (lastV0 rlist) rlist events = .ok evs := by
  unfold sourceEvents
  simp only
  generalize hd : ((InvertFb.fromKeys (events.map getEventid)).map
    (fun id => (id, (⟨rowW (events.map getEventid) rlist id, [], []⟩ : EvRes))) : Dict String EvRes) = d
  have hget : ∃ e : EvRes, Dict.get? d "e" = some e ∧ 1 ≤ e.W.length := by
    refine ⟨⟨rowW (events.map getEventid) rlist "e", [], []⟩, ?_, ?_⟩
    · subst hd
      apply Dict.get?_of_mem
      · unfold Dict.WF Dict.keys
        rw [List.map_map]
        simpa [Function.comp_def] using InvertFb.fromKeys_nodup _
      · obtain ⟨ev, l, rfl⟩ := List.exists_cons_of_ne_nil hne
        refine List.mem_map.2 ⟨"e", InvertFb.mem_fromKeys.2 ?_, rfl⟩
        simp [hid ev (by simp)]
    · obtain ⟨ev, l, rfl⟩ := List.exists_cons_of_ne_nil hne
      obtain ⟨r, rfl⟩ := List.length_eq_one_iff.1 hl
      simp [rowW, hid ev (by simp)]
  clear hd
  generalize hm : (fun ev => getMagnitude (eventOf events ev)) = mag
  have hm' : ∀ ev, getMagnitude (eventOf events ev) = mag ev := fun ev => congrFun hm ev
  simp only [hm']
  clear hm hm' hne
  induction events generalizing d with
  | nil => exact ⟨_, rfl⟩
  | cons ev l ih =>
    obtain ⟨e, he, hw⟩ := hget
    obtain ⟨L, hL⟩ := Site.sdsEntries_total (freq := [0.25]) (W := e.W)
      (v0 := lastV0 rlist) (rho0 := some (exCfg (some 1)).rho0) (by simpa using hw) (by norm_num)
    have hsmm : (exCfg (some 1)).smm = none := rfl
    have hi : ∃ e', insertSourceProperties env.orc [0.25] e (lastV0 rlist) (some (exCfg (some 1)).rho0)
        (exCfg (some 1)).smm (exCfg (some 1)).smo (mag ev) = .ok e' ∧ e'.W = e.W := by
      unfold insertSourceProperties
      simp only [hL, hsmm, bind, Except.bind]
      exact ⟨_, rfl, rfl⟩
    obtain ⟨e', h1, h2⟩ := hi
    simp only [List.foldlM_cons, hid ev (by simp), InvertFb.dictGet, he, bind, Except.bind, h1, pure, Except.pure]
    exact ih (fun x hx => hid x (by simp [hx])) _ ⟨e', Dict.get?_set_self _ _ _, by rw [h2]; exact hw⟩

theorem invert_at {name : String} {t : ℝ} (hn : getEventid (event name t) = "e") :
    ∃ res, invert env (exCfg (some 1)) 1 [] [event name t] = .ok (some res) :=
  invert_of (origins_at hn) (orc := env.orc) rfl (smm := none) (smo := none) rfl (sources_total (by simp [hn]) (by simp))

theorem bands : getFreqs (exCfg (some 1)).freqs =
    .ok [(0.25, (0.25 - halfWidth 0.25 1, 0.25 + halfWidth 0.25 1))] := by
  simp [exCfg, getFreqs, bandsOf, mkDict, Dict.set]

/-- A catalogue whose events have the id `e` or no origin has a result. -/
theorem run_total (rlm : List ℝ → ℝ × ℝ) {events : List Event} (hn : events.Nodup) (ht : ¬ Tie events)
    (hs : ∃ ev ∈ events, (originTime ev).isSome)
    (hall : ∀ ev ∈ events, (originTime ev).isSome → ∃ name t, ev = event name t ∧ getEventid ev = "e") :
    ∃ w, invertWrapper rlm (fun evs => invert env (exCfg (some 1)) 1 [] evs) false false .weighted events
      = .ok (some w) := by
  have hset : IsSetOrder env.setOrder := fun l => ⟨List.nodup_dedup l, fun _ => List.mem_dedup⟩
  obtain ⟨o, p1, p2, -⟩ := Total.separate_total (env := env) (cfg := exCfg (some 1)) (cpus := 1) (rlm := rlm)
    (mean := .weighted) hset (events := events) hn bands (schedule := fun _ => [])
    (fun _ => fun hne => absurd rfl hne) rfl ht hs (by
      intro ev hev ho
      obtain ⟨name, t, rfl, hid⟩ := hall ev hev ho
      obtain ⟨r, hr⟩ := invert_at hid
      exact ⟨rfl, _, hr⟩)
  cases o with
  | some w => exact ⟨w, p1⟩
  | none =>
    obtain ⟨ev, hev, ho⟩ := hs
    have := (p2.1 rfl) ev hev ho
    obtain ⟨name, t, rfl, hid⟩ := hall ev hev ho
    obtain ⟨r, hr⟩ := invert_at hid
    simp only [hr] at this
    simp at this

/-- The two events in order of origin time. -/
theorem two_order {n1 n2 : String} {s t : ℝ} (hst : s < t) {order : List Event}
    (h : InTimeOrder [event n2 t, event n1 s] order) : order = [event n1 s, event n2 t] := by
  obtain ⟨hp, hs⟩ := h
  have hf : [event n2 t, event n1 s].filter (fun ev => (originTime ev).isSome) = [event n2 t, event n1 s] := rfl
  rw [hf] at hp
  have hl := hp.length_eq
  match order, hl with
  | [a, b], _ =>
    have ha : a = event n2 t ∨ a = event n1 s := by simpa using hp.mem_iff.1 (List.mem_cons_self)
    rcases ha with rfl | rfl
    · have hb : [b].Perm [event n1 s] := (List.perm_cons _).1 hp
      obtain rfl : b = event n1 s := by simpa using hb
      have := (List.pairwise_cons.1 hs).1 _ (List.mem_singleton.2 rfl) t s rfl rfl
      exact absurd this (not_le.2 hst)
    · have hb : [b].Perm [event n2 t] := (List.perm_cons _).1 (hp.trans (List.Perm.swap _ _ _))
      obtain rfl : b = event n2 t := by simpa using hb
      rfl

end SameIdsExample

open SameIdsExample JobsExample in
/-- **C147** is false for events with different resource identifiers: both events of this catalogue have a result, but
only the result of the later one is reported.  The catalogue lists the later one first. -/
theorem C147_overwritten_counterexample (rlm : List ℝ → ℝ × ℝ) :
    ∃ (env : Env) (cfg : InvCfg) (early late : Event) (w : WrapRes) (r1 r2 : InvRes),
      early.resourceId ≠ late.resourceId ∧ invert env cfg 1 [] [early] = .ok (some r1) ∧
      invert env cfg 1 [] [late] = .ok (some r2) ∧
      invertWrapper rlm (fun evs => invert env cfg 1 [] evs) false false .weighted [late, early] = .ok (some w) ∧
      w.events.keys = ["e"] ∧ ∃ d, w.events.get? "e" = some d ∧ eventEntry false "e" r2 = .ok d := by
  have i1 : getEventid (event "a/e" 0) = "e" := by
    have : lastPart '/' "a/e".toList = ['e'] := by decide
    exact congrArg String.ofList this
  have i2 : getEventid (event "b/e" 8) = "e" := by
    have : lastPart '/' "b/e".toList = ['e'] := by decide
    exact congrArg String.ofList this
  have hne : event "b/e" 8 ≠ event "a/e" 0 := by
    intro h
    have := congrArg Event.resourceId h
    simp [event] at this
  have hne' : ¬ ("a/e" : String) = "b/e" := by decide
  have htie : ¬ Tie [event "b/e" 8, event "a/e" 0] := by
    rintro ⟨a, ha, b, hb, hab, -, ht⟩
    simp only [List.mem_cons, List.not_mem_nil, or_false] at ha hb
    rcases ha with rfl | rfl <;> rcases hb with rfl | rfl
    · exact hab rfl
    · norm_num [originTime, event] at ht
    · norm_num [originTime, event] at ht
    · exact hab rfl
  obtain ⟨r1, h1⟩ := invert_at i1
  obtain ⟨r2, h2⟩ := invert_at i2
  obtain ⟨w, hw⟩ := run_total rlm (events := [event "b/e" 8, event "a/e" 0]) (by simp [hne]) htie
    ⟨_, List.mem_cons_self, rfl⟩ (by
      intro ev hev _
      simp only [List.mem_cons, List.not_mem_nil, or_false] at hev
      rcases hev with rfl | rfl
      · exact ⟨_, _, rfl, i2⟩
      · exact ⟨_, _, rfl, i1⟩)
  refine ⟨env, exCfg (some 1), event "a/e" 0, event "b/e" 8, w, r1, r2, hne', h1, h2, hw, ?_⟩
  obtain ⟨order, outs, k1, k2, k3, k4, k5⟩ := C147_last_wins hw
  obtain rfl := two_order (by norm_num) k1
  match outs, k2 with
  | [o1, o2], .cons q1 (.cons q2 .nil) =>
    rw [h1] at q1
    rw [h2] at q2
    obtain rfl := Except.ok.inj q1
    obtain rfl := Except.ok.inj q2
    have hk : w.events.keys.toFinset = {"e"} := by
      rw [k5]
      simp [idsWithResult, i1, i2]
    have hk' : w.events.keys = ["e"] := by
      have hm : ∀ x, x ∈ w.events.keys ↔ x = "e" := by
        intro x
        rw [← List.mem_toFinset, hk]
        simp
      have : w.events.keys.Perm ["e"] := (List.perm_ext_iff_of_nodup k3 (by simp)).2 (by simpa using hm)
      exact List.perm_singleton.1 this
    refine ⟨hk', ?_⟩
    have : "e" ∈ w.events.keys := by rw [hk']; simp
    rw [← Dict.get?_isSome, Option.isSome_iff_exists] at this
    obtain ⟨d, hd⟩ := this
    refine ⟨d, hd, ?_⟩
    obtain ⟨ev, r, ⟨b, a, e1, e2, e3⟩, e4⟩ := k4 _ d hd
    match b, e1 with
    | [], e1 =>
      simp only [List.zip_cons_cons, List.zip_nil_right, List.nil_append, List.cons.injEq] at e1
      have := e3 (event "b/e" 8, some r2) (by rw [← e1.2]; simp) i2
      simp at this
    | [x], e1 =>
      simp only [List.zip_cons_cons, List.zip_nil_right, List.cons_append, List.nil_append, List.cons.injEq,
        Prod.mk.injEq, Option.some.injEq] at e1
      rw [← e1.2.1.2] at e4
      exact e4
    | x :: y :: l, e1 => simp at e1

open SameIdsExample JobsExample in
/-- A catalogue with an event with a result and an event without origin meets the hypotheses of `C147_last_wins` and
`C147_kept_apart_partial`. -/
example (rlm : List ℝ → ℝ × ℝ) : ∃ w : WrapRes,
    ([event "a/e" 0, ⟨"a/f", none, [], none, []⟩].map getEventid).Nodup ∧
      invertWrapper rlm (fun evs => invert env (exCfg (some 1)) 1 [] evs) false false .weighted
        [event "a/e" 0, ⟨"a/f", none, [], none, []⟩] = .ok (some w) := by
  have i1 : getEventid (event "a/e" 0) = "e" := by
    have : lastPart '/' "a/e".toList = ['e'] := by decide
    exact congrArg String.ofList this
  have i2 : getEventid ⟨"a/f", none, [], none, []⟩ = "f" := by
    have : lastPart '/' "a/f".toList = ['f'] := by decide
    exact congrArg String.ofList this
  obtain ⟨w, hw⟩ := run_total rlm (events := [event "a/e" 0, ⟨"a/f", none, [], none, []⟩]) (by simp [event])
    (by
      rintro ⟨a, ha, b, hb, hab, hs, ht⟩
      simp only [List.mem_cons, List.not_mem_nil, or_false] at ha hb
      rcases ha with rfl | rfl <;> rcases hb with rfl | rfl
      · exact hab rfl
      · simp [originTime, event] at ht
      · simp [originTime] at hs
      · exact hab rfl) ⟨_, List.mem_cons_self, rfl⟩ (by
      intro ev hev ho
      simp only [List.mem_cons, List.not_mem_nil, or_false] at hev
      rcases hev with rfl | rfl
      · exact ⟨_, _, rfl, i1⟩
      · simp [originTime] at ho)
  exact ⟨w, by simp [i1, i2], hw⟩

end Qopen
