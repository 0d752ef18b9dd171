import Verif.Props.SameIdsTogether
import Verif.Props.SourceTotal

/-!
# The catalogue magnitude in the result (C148)
-/

namespace Qopen

open Real Spec Util Catalog Freqs Source Invert InvertFb Wrapper Collect

namespace Spec

/-- The preferred magnitude of an event, otherwise its first one. -/
def catalogueMagnitude (ev : Event) : Option ℝ := ev.preferredMagnitude.or ev.magnitudes.head?

/-- The event is the last one with its id. -/
def LastWithId (events : List Event) (ev : Event) : Prop :=
  ∃ before after, events = before ++ ev :: after ∧ ∀ x ∈ after, getEventid x ≠ getEventid ev

end Spec

namespace Source

theorem insert_mcat {orc : Oracle} {freq : List ℝ} {e0 e : EvRes} {v0 rho0 : Option ℝ}
    {smm : Option Method} {smo : Option Opts} {mag : Option ℝ}
    (h : insertSourceProperties orc freq e0 v0 rho0 smm smo mag = .ok e) :
    e.extra.get? "Mcat" = ((smm.bind (fun _ => mag)).map (fun m => .cell (.num m))).or (e0.extra.get? "Mcat") := by
  unfold insertSourceProperties at h
  obtain ⟨L, hL, h⟩ := bind_ok.1 h
  cases smm with
  | none =>
    simp only [pure, Except.pure, Except.ok.injEq] at h
    subst h
    simp only [Option.bind_none, Option.map_none, Option.none_or]
    rw [Dict.get?_set_ne _ _ (by decide)]
  | some m =>
    cases smo with
    | none => simp [throw, throwThe, MonadExceptOf.throw] at h
    | some o =>
      obtain ⟨fit, hfit, h⟩ := bind_ok.1 h
      simp only [pure, Except.pure, Except.ok.injEq] at h
      subst h
      cases mag with
      | some x => simp only [Dict.get?_set_self, Option.bind_some, Option.map_some, Option.some_or]
      | none =>
        simp only [Option.bind_some, Option.map_none, Option.none_or]
        cases fit with
        | none =>
          simp only [insertFit]
          rw [Dict.get?_set_ne _ _ (by decide)]
        | some r =>
          obtain ⟨-, hk⟩ := fitSds_keys _ _ _ _ _ r hfit
          rw [insertFit_other _ _ hk _ (by decide) (by decide), Dict.get?_set_ne _ _ (by decide)]

end Source

namespace Invert

theorem getMagnitude_eq (ev : Event) : getMagnitude ev = catalogueMagnitude ev := by
  unfold getMagnitude catalogueMagnitude
  cases ev.preferredMagnitude with
  | some m => rfl
  | none => simp [List.head?_eq_getElem?]

theorem eventOf_last {events : List Event} {ev x : Event} (h : LastWithId events ev) (hx : getEventid x = getEventid ev) :
    eventOf events x = ev := by
  obtain ⟨b, a, rfl, hl⟩ := h
  unfold eventOf
  rw [List.reverse_append, List.reverse_cons, List.append_assoc, List.find?_append]
  have h1 : a.reverse.find? (fun e => decide (getEventid e = getEventid x)) = none := by
    rw [List.find?_eq_none]
    intro y hy
    simp only [decide_eq_true_eq]
    rw [hx]
    exact hl y (List.mem_reverse.1 hy)
  rw [h1]
  simp [hx]

/-- The magnitude after the loop over the events. -/
theorem sourceFold_mcat {orc : Oracle} {rho0 : Option ℝ} {smm : Option Method} {smo : Option Opts}
    {freq : List ℝ} {v0 : Option ℝ} {mag : Event → Option ℝ} {id : String} {m : Option ℝ}
    {events : List Event} {d d' : Dict String EvRes} (hm : ∀ ev ∈ events, getEventid ev = id → mag ev = m)
    (h : events.foldlM (fun d ev => do
      let e ← dictGet d (getEventid ev)
      let e ← insertSourceProperties orc freq e v0 rho0 smm smo (mag ev)
      return Dict.set d (getEventid ev) e) d = .ok d')
    {e' : EvRes} (he' : d'.get? id = some e') :
    ∃ e, d.get? id = some e ∧ (id ∈ events.map getEventid → smm.isSome → ∀ x, m = some x →
        e'.extra.get? "Mcat" = some (.cell (.num x))) ∧
      (smm = none ∨ m = none → e'.extra.get? "Mcat" = e.extra.get? "Mcat") := by
  induction events using List.reverseRecOn generalizing d' e' with
  | nil =>
    simp only [List.foldlM_nil, pure, Except.pure, Except.ok.injEq] at h
    subst h
    exact ⟨e', he', by simp, fun _ => rfl⟩
  | append_singleton l ev ih =>
    rw [List.foldlM_append] at h
    obtain ⟨y, hy, h⟩ := bind_ok.1 h
    simp only [List.foldlM_cons, List.foldlM_nil] at h
    obtain ⟨z, hz, h⟩ := bind_ok.1 h
    simp only [pure, Except.pure, Except.ok.injEq] at h
    subst h
    obtain ⟨e, he, hz⟩ := bind_ok.1 hz
    obtain ⟨e2, he2, hz⟩ := bind_ok.1 hz
    simp only [pure, Except.pure, Except.ok.injEq] at hz
    subst hz
    have hey : y.get? (getEventid ev) = some e := by
      unfold dictGet at he
      split at he
      · rename_i v hv; rw [hv]; cases he; rfl
      · simp at he
    rw [Dict.get?_set] at he'
    split at he'
    · rename_i hid
      obtain rfl := Option.some.inj he'
      have hid' : getEventid ev = id := hid
      rw [hid'] at hey
      obtain ⟨x, hx, -, hx3⟩ := ih (fun a ha => hm a (by simp [ha])) hy hey
      have hmag := hm ev (by simp) hid'
      rw [hmag] at he2
      have hi := insert_mcat he2
      refine ⟨x, hx, ?_, ?_⟩
      · intro _ hs q hq
        rw [hq] at hi
        cases smm with
        | none => simp at hs
        | some s => simpa using hi
      · intro hor
        rw [← hx3 hor, hi]
        rcases hor with rfl | rfl
        · rfl
        · cases smm <;> rfl
    · rename_i hid
      have hid' : ¬ getEventid ev = id := fun hh => hid (by simpa using hh)
      obtain ⟨x, hx, hx2, hx3⟩ := ih (fun a ha => hm a (by simp [ha])) hy he'
      refine ⟨x, hx, ?_, hx3⟩
      intro hk
      rw [List.map_append, List.mem_append] at hk
      rcases hk with hk | hk
      · exact hx2 hk
      · simp only [List.map_cons, List.map_nil, List.mem_singleton] at hk
        exact absurd hk.symm hid'

end Invert

section

variable {env : Env} {cfg : InvCfg} {cpus : ℕ} {schedule : List ℕ} {events : List Event}
  {bands : Dict ℝ (ℝ × ℝ)} {res : InvRes}

/-- **C148** for an inversion of any events: the result of an event has the magnitude of this event in the catalogue
(with equal ids that of the last event), if a method for the seismic moment is configured, otherwise none. -/
theorem C148_inversion (hc : cfg.codaNorm = none) (hb : getFreqs cfg.freqs = .ok bands)
    (h : invert env cfg cpus schedule events = .ok (some res)) {ev : Event} (hev : LastWithId events ev) :
    ∃ e, res.events.get? (getEventid ev) = some e ∧ e.extra.get? "Mcat" =
      if cfg.smm.isSome then (catalogueMagnitude ev).map (fun m => .cell (.num m)) else none := by
  have hid : getEventid ev ∈ events.map getEventid := by
    obtain ⟨b, a, rfl, -⟩ := hev
    simp
  have hk := (keys_of_invert hc hb h).1
  have hmem : getEventid ev ∈ res.events.keys := by
    rw [hk, mem_fromKeys]
    exact hid
  rw [← Dict.get?_isSome, Option.isSome_iff_exists] at hmem
  obtain ⟨e, he⟩ := hmem
  refine ⟨e, he, ?_⟩
  unfold invert at h
  split at h
  · simp at h
  rw [hb] at h
  simp only [bind, Except.bind] at h
  split at h
  · simp at h
  rename_i streams hst
  cases streams with
  | none => simp [pure, Except.pure] at h
  | some streams =>
    simp only at h
    obtain ⟨origins, ho, h⟩ := bind_ok.1 h
    obtain ⟨stations, hsta, h⟩ := bind_ok.1 h
    obtain ⟨args, hargs, h⟩ := bind_ok.1 h
    obtain ⟨rlist, hr, h⟩ := bind_ok.1 h
    unfold tables at h
    split at h
    · simp at h
    obtain ⟨err, herr, h⟩ := bind_ok.1 h
    simp only at h
    obtain ⟨evs, hevs, h⟩ := bind_ok.1 h
    simp only [pure, Except.pure, Except.ok.injEq, Option.some.injEq] at h
    subst h
    unfold eventTables at hevs
    rw [hc] at hevs
    simp only [Option.isNone_none, if_true] at hevs
    unfold sourceEvents at hevs
    obtain ⟨x, hx, h1, h2⟩ := sourceFold_mcat (mag := fun x => getMagnitude (eventOf events x)) (id := getEventid ev)
      (m := catalogueMagnitude ev) (fun x _ hxi => by
        rw [eventOf_last hev hxi, getMagnitude_eq]) hevs he
    have hx0 : x.extra.get? "Mcat" = none := by
      have := Dict.mem_of_get? hx
      simp only [List.mem_map, Prod.mk.injEq] at this
      obtain ⟨_, -, -, rfl⟩ := this
      rfl
    cases hs : cfg.smm with
    | none => rw [h2 (Or.inl hs), hx0]; rfl
    | some s =>
      cases hmg : catalogueMagnitude ev with
      | none => rw [h2 (Or.inr hmg), hx0]; rfl
      | some m => rw [h1 hid (by rw [hs]; rfl) m hmg]; rfl

/-- **C148** for events which are inverted separately: the entry of an id has the magnitude of the event it was
calculated from. -/
theorem C148_separate {rlm : List ℝ → ℝ × ℝ} {mean : Mean} {w : WrapRes} {schedule : List Event → List ℕ}
    (hc : cfg.codaNorm = none) (hb : getFreqs cfg.freqs = .ok bands)
    (h : invertWrapper rlm (fun evs => invert env cfg cpus (schedule evs) evs) false false mean events = .ok (some w))
    {id : String} {d : Dict String RVal} (hd : w.events.get? id = some d) :
    ∃ (order : List Event) (outcomes : List (Option InvRes)) (ev : Event) (r : InvRes), InTimeOrder events order ∧
      List.Forall₂ (fun ev o => invert env cfg cpus (schedule [ev]) [ev] = .ok o) order outcomes ∧
      LastResult (order.zip outcomes) id ev r ∧
      d.get? "Mcat" =
        if cfg.smm.isSome then (catalogueMagnitude ev).map (fun m => .cell (.num m)) else none := by
  obtain ⟨order, outs, h1, h2, h3, h4, h5⟩ := C147_last_wins h
  obtain ⟨ev, r, hl, he⟩ := h4 id d hd
  refine ⟨order, outs, ev, r, h1, h2, hl, ?_⟩
  have hinv : invert env cfg cpus (schedule [ev]) [ev] = .ok (some r) := by
    obtain ⟨b, a, k1, -, -⟩ := hl
    have hm : (ev, some r) ∈ order.zip outs := by rw [k1]; simp
    exact List.Forall₂.rec (motive := fun l o _ => (ev, some r) ∈ l.zip o →
      invert env cfg cpus (schedule [ev]) [ev] = .ok (some r)) (by simp)
      (fun {x y l o} hxy _ ih hmem => by
        rw [List.zip_cons_cons, List.mem_cons] at hmem
        rcases hmem with hmem | hmem
        · simp only [Prod.mk.injEq] at hmem
          rw [← hmem.1, ← hmem.2] at hxy
          exact hxy
        · exact ih hmem) h2 hm
  obtain ⟨e, g1, g2⟩ := C148_inversion hc hb hinv (ev := ev) ⟨[], [], rfl, by simp⟩
  have hid : getEventid ev = id := by
    obtain ⟨b, a, -, k2, -⟩ := hl
    exact k2
  rw [hid] at g1
  obtain ⟨d', f1, -, -, f2⟩ := C40_results_have_known_keys hinv (id := id)
    (Or.inl (List.mem_map.2 ⟨_, Dict.mem_of_get? g1, rfl⟩))
  rw [hc, Option.isSome_none, he] at f1
  obtain rfl := Except.ok.inj f1
  rw [f2.source _ (by simp), g1]
  simp only [Option.bind_some, g2]
  split
  · cases catalogueMagnitude ev <;> rfl
  · rfl

/-- **C148**: a recalculation of the source parameters keeps the magnitude. -/
theorem C148_recalculated {orc : Oracle} {conf : Config} {freq : List ℝ} {evs evs' : Dict String EvRes}
    {rho0 v0 : Option ℝ} {smm : Option Method} {smo : Option Opts} (hr : truthy (pyOr rho0 conf.rho0))
    (h : calculateSourceProperties orc conf freq evs rho0 v0 smm smo = .ok evs')
    {id : String} {e e' : EvRes} (he : evs.get? id = some e) (hwf : e.extra.WF) (he' : evs'.get? id = some e') :
    e'.extra.get? "Mcat" = e.extra.get? "Mcat" := by
  obtain ⟨x, hx, -, -, hk⟩ := C67_rest_unchanged orc conf freq evs evs' rho0 v0 smm smo hr h id e' he'
  rw [he] at hx
  obtain rfl := Option.some.inj hx
  exact hk hwf _ (by decide)

end

namespace SameIdsExample

open JobsExample TablesExample

/-- An event with two magnitudes, none of them preferred. -/
noncomputable def withMags : Event := ⟨"a/e", some ⟨0, 0, 0, some 1, []⟩, [], none, [2.5, 3]⟩

theorem id_mags : getEventid withMags = "e" := id_first

theorem mags_origins : originsOf [withMags] = .ok [("e", ori 0)] := by
  unfold originsOf
  have h : getOrigin withMags = .ok (ori 0) := rfl
  simp [id_mags, h, bind, Except.bind, pure, Except.pure, Dict.set]

theorem mags_run {orc : Oracle} (hs : IsSearch orc) :
    ∃ res, invert { env with orc := orc } { exCfg (some 1) with smm := some .mean, smo := some { fc := some 1 } } 1 []
      [withMags] = .ok (some res) := by
  refine invert_of mags_origins (orc := orc) rfl (smm := some .mean) (smo := some { fc := some 1 }) rfl ?_
  intro rlist hl
  rw [sourceEvents_nodup (by simp)]
  have hrow := rowW_nodup (ids := ["e"]) (by simp) (id := "e") (by simp) rlist
  obtain ⟨l, hL⟩ := Site.sdsEntries_total (freq := [0.25]) (W := rowW ["e"] rlist "e")
    (v0 := lastV0 rlist) (rho0 := some (exCfg (some 1)).rho0) (by rw [hrow]; simp [hl]) (by norm_num)
  have hll : l.length = 1 := by
    have := (mapExc_ok.1 hL).length_eq
    simpa using this.symm
  have hst : ∀ W a b, sdsStart ⟨W, [], []⟩ a b = [] := by
    intro W a b
    unfold sdsStart
    split <;> rfl
  obtain ⟨fit, hfit⟩ := fitSds_total hs (freq := [0.25]) (omM := l) (by rw [hll]; rfl) (m := .mean)
    (o := { fc := some 1 }) ⟨fun _ => by simp, by simp, by simp [isFit], by simp [isFit], by simp [isFit]⟩
  have hk : fromKeys ["e"] = ["e"] := by decide
  simp only [List.map_cons, List.map_nil, id_mags, hk, List.foldlM_cons, List.foldlM_nil, dictGet, Dict.get?, if_true,
    bind, Except.bind, pure, Except.pure, insertSourceProperties, hL, hst, List.nil_append, hfit]
  exact ⟨_, rfl⟩

end SameIdsExample

open SameIdsExample JobsExample in
/-- The first magnitude is part of the result of this event. -/
example {orc : Oracle} (hs : IsSearch orc) : ∃ res e,
    invert { env with orc := orc } { exCfg (some 1) with smm := some .mean, smo := some { fc := some 1 } } 1 []
      [withMags] = .ok (some res) ∧ res.events.get? "e" = some e ∧ e.extra.get? "Mcat" = some (.cell (.num 2.5)) := by
  obtain ⟨res, h⟩ := mags_run hs
  obtain ⟨e, h1, h2⟩ := C148_inversion
    (cfg := { exCfg (some 1) with smm := some .mean, smo := some { fc := some 1 } }) (ev := withMags) rfl SameIdsExample.bands h
    ⟨[], [], rfl, by simp⟩
  rw [id_mags] at h1
  refine ⟨res, e, h, h1, h2.trans ?_⟩
  have hm : catalogueMagnitude withMags = some 2.5 := by simp [catalogueMagnitude, withMags]
  rw [hm]
  rfl

open SameIdsExample JobsExample in
/-- A catalogue which meets the hypotheses of `C148_separate`. -/
example (rlm : List ℝ → ℝ × ℝ) : ∃ w d, invertWrapper rlm (fun evs => invert env (exCfg (some 1)) 1 [] evs) false false
    .weighted [event "a/e" 0] = .ok (some w) ∧ (exCfg (some 1)).codaNorm = none ∧ w.events.get? "e" = some d := by
  obtain ⟨w, h⟩ := run_total rlm (events := [event "a/e" 0]) (by simp) (by
      rintro ⟨a, ha, b, hb, hab, -⟩
      simp only [List.mem_singleton] at ha hb
      exact hab (ha.trans hb.symm)) ⟨_, List.mem_singleton.2 rfl, rfl⟩ (by
      intro ev hev _
      rw [List.mem_singleton.1 hev]
      exact ⟨_, _, rfl, id_first⟩)
  obtain ⟨r, hr⟩ := invert_at id_first
  obtain ⟨order, outs, k1, k2, k3, -⟩ := C147_kept_apart_partial (by simp) h
  have hord : order = [event "a/e" 0] := by
    have := k1.perm
    rw [show [event "a/e" 0].filter (fun ev => (originTime ev).isSome) = [event "a/e" 0] from rfl] at this
    exact List.perm_singleton.1 this
  subst hord
  match outs, k2 with
  | [o], .cons q .nil =>
    rw [hr] at q
    obtain rfl := Except.ok.inj q
    obtain ⟨d, hd, -⟩ := k3 (event "a/e" 0) r (by simp)
    rw [id_first] at hd
    exact ⟨w, d, h, rfl, hd⟩

end Qopen
