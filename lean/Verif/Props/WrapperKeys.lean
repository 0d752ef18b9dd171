import Verif.Props.Wrapper
import Verif.Props.SourceRecalc
import Verif.Props.Tables
import Verif.Props.FixedBands

/-!
# Keys of results and mean attenuation from the inversion of the events (C40, C26)
-/

namespace Qopen

open Util Catalog Source Invert Collect Wrapper InvertFb

namespace Wrapper

/-- Keys of an event which are inserted by `insert_source_properties`. -/
def sourceKeys : List String := ["sds", "Mw", "Mcat"] ++ fitKeys

/-- Only such keys, each once. -/
def GoodExtra (d : Dict String Val) : Prop := d.WF ∧ ∀ k ∈ d.keys, k ∈ sourceKeys

theorem good_set {d : Dict String Val} (h : GoodExtra d) {k : String} (hk : k ∈ sourceKeys)
    (v : Val) : GoodExtra (d.set k v) := by
  refine ⟨Dict.WF_set h.1 _ _, fun k' hk' => ?_⟩
  rw [Dict.mem_keys_set] at hk'
  rcases hk' with rfl | hk'
  · exact hk
  · exact h.2 _ hk'

theorem good_update {d e : Dict String Val} (h : GoodExtra d) (he : ∀ k ∈ e.keys, k ∈ sourceKeys) :
    GoodExtra (d.update e) := by
  induction e generalizing d with
  | nil => exact h
  | cons p e ih =>
    exact ih (good_set h (he p.1 (by simp [Dict.keys])) p.2)
      (fun k hk => he k (by
        unfold Dict.keys at hk ⊢
        rw [List.map_cons]
        exact List.mem_cons_of_mem _ hk))

theorem good_insert {orc : Oracle} {freq : List ℝ} {ev ev' : EvRes} {v0 rho0 : Option ℝ}
    {smm : Option Method} {smo : Option Opts} {m : Option ℝ} (hg : GoodExtra ev.extra)
    (h : insertSourceProperties orc freq ev v0 rho0 smm smo m = .ok ev') : GoodExtra ev'.extra := by
  unfold insertSourceProperties at h
  obtain ⟨L, hL, h⟩ := bind_ok.1 h
  simp only at h
  have hs := good_set hg (k := "sds") (by simp [sourceKeys]) (.cells (sdsStart ev v0 rho0 ++ L))
  cases smm with
  | none =>
    simp only [pure, Except.pure, Except.ok.injEq] at h
    subst h
    exact hs
  | some mm =>
    cases smo with
    | none => simp [throw, throwThe, MonadExceptOf.throw] at h
    | some o =>
      obtain ⟨fit, hf, h⟩ := bind_ok.1 h
      simp only [pure, Except.pure, Except.ok.injEq] at h
      subst h
      simp only
      have hfit : GoodExtra (insertFit (ev.extra.set "sds" (.cells (sdsStart ev v0 rho0 ++ L))) fit) := by
        cases fit with
        | none => exact hs
        | some r =>
          obtain ⟨_, hk⟩ := fitSds_keys _ _ _ _ _ _ hf
          have hk' : ∀ k ∈ ((nanToNone r).mapVals Val.cell).keys, k ∈ sourceKeys := by
            intro k hkm
            rw [Dict.keys_mapVals] at hkm
            unfold nanToNone at hkm
            split at hkm
            · rw [Dict.mem_keys_set] at hkm
              rcases hkm with rfl | hkm
              · simp [sourceKeys, fitKeys]
              · exact List.mem_append_right _ (hk k hkm)
            · exact List.mem_append_right _ (hk k hkm)
          simp only [insertFit]
          have hu := good_update hs hk'
          split
          · exact good_set hu (by simp [sourceKeys]) _
          · exact good_set hu (by simp [sourceKeys]) _
          · exact hu
      cases m with
      | none => exact hfit
      | some x => exact good_set hfit (by simp [sourceKeys]) _

theorem good_fold {env : Env} {cfg : InvCfg} {freq : List ℝ} {v0 : Option ℝ}
    {events : List Event} {mag : Event → Option ℝ} {d d' : Dict String EvRes} (hd : ∀ p ∈ d, GoodExtra p.2.extra)
    (h : events.foldlM (fun d ev => do
      let e ← dictGet d (getEventid ev)
      let e ← insertSourceProperties env.orc freq e v0 (some cfg.rho0) cfg.smm cfg.smo
        (mag ev)
      return Dict.set d (getEventid ev) e) d = .ok d') :
    ∀ p ∈ d', GoodExtra p.2.extra := by
  induction events generalizing d with
  | nil =>
    simp only [List.foldlM_nil, pure, Except.pure, Except.ok.injEq] at h
    subst h
    exact hd
  | cons ev events ih =>
    rw [List.foldlM_cons] at h
    obtain ⟨m, hm, h⟩ := bind_ok.1 h
    obtain ⟨e, he, hm⟩ := bind_ok.1 hm
    obtain ⟨e2, he2, hm⟩ := bind_ok.1 hm
    simp only [pure, Except.pure, Except.ok.injEq] at hm
    subst hm
    refine ih ?_ h
    have hge : GoodExtra e.extra := by
      unfold dictGet at he
      split at he
      · rename_i v hv
        cases he
        exact hd _ (Dict.mem_of_get? hv)
      · simp at he
    intro p hp
    rcases Invert.mem_set hp with hp | rfl
    · exact hd p hp
    · exact good_insert hge he2

/-- The events in the result of an inversion. -/
theorem good_invert {env : Env} {cfg : InvCfg} {cpus : ℕ} {schedule : List ℕ} {events : List Event}
    {res : InvRes} (h : invert env cfg cpus schedule events = .ok (some res)) :
    ∀ p ∈ res.events, GoodExtra p.2.extra := by
  unfold invert at h
  split at h
  · simp at h
  obtain ⟨bands, hb, h⟩ := bind_ok.1 h
  obtain ⟨streams, hst, h⟩ := bind_ok.1 h
  cases streams with
  | none => simp [pure, Except.pure] at h
  | some streams =>
    simp only at h
    obtain ⟨origins, ho, h⟩ := bind_ok.1 h
    obtain ⟨stations, hsta, h⟩ := bind_ok.1 h
    obtain ⟨args, hargs, h⟩ := bind_ok.1 h
    obtain ⟨rlist, hr, h⟩ := bind_ok.1 h
    unfold tables at h
    split at h
    · simp at h
    obtain ⟨err, herr, h⟩ := bind_ok.1 h
    obtain ⟨evs, hevs, h⟩ := bind_ok.1 h
    simp only [pure, Except.pure, Except.ok.injEq, Option.some.injEq] at h
    rw [← h]
    simp only
    unfold eventTables at hevs
    split at hevs
    · unfold sourceEvents at hevs
      refine good_fold (mag := fun ev => getMagnitude (eventOf events ev)) ?_ hevs
      intro p hp
      obtain ⟨id, _, rfl⟩ := List.mem_map.1 hp
      exact ⟨by simp [Dict.WF, Dict.keys], by simp [Dict.keys]⟩
    · simp only [Except.ok.injEq] at hevs
      rw [← hevs]
      simp


theorem base_get (r : InvRes) :
    (baseItems r).get? "g0" = r.g0.map RVal.row ∧ (baseItems r).get? "b" = r.b.map RVal.row ∧
    (baseItems r).get? "error" = some (.row r.error) ∧
    (baseItems r).get? "R" = r.R.map RVal.sites ∧
    (baseItems r).get? "nstations" = some (.row (r.nstations.map (fun n => .num n))) ∧
    (baseItems r).get? "v0" = r.v0.map (fun v => .cell (.num v)) ∧
    (baseItems r).WF ∧ ∀ k ∈ (baseItems r).keys, k ∈ ["g0", "b", "nstations", "error", "R", "v0"] := by
  obtain ⟨freq, g0, b, err, ns, v0, R, evs⟩ := r
  cases g0 <;> cases b <;> cases v0 <;> cases R <;>
    simp [baseItems, Dict.get?, Dict.WF, Dict.keys]

end Wrapper

namespace Spec

/-- `e` has the items of the result `r` of an inversion and of event `id` in this result. -/
structure EventResult (r : InvRes) (id : String) (e : Dict String RVal) : Prop where
  g0 : e.get? "g0" = r.g0.map RVal.row
  b : e.get? "b" = r.b.map RVal.row
  error : e.get? "error" = some (.row r.error)
  nstations : e.get? "nstations" = some (.row (r.nstations.map (fun n => .num n)))
  v0 : e.get? "v0" = r.v0.map (fun v => .cell (.num v))
  R : e.get? "R" = r.R.map RVal.sites
  W : e.get? "W" = (r.events.get? id).map (fun x => .row x.W)
  source : ∀ k ∈ ["sds", "M0", "Mw", "Mcat", "fc", "n", "gamma", "fit_error"],
    e.get? k = (r.events.get? id).bind (fun x => (x.extra.get? k).map ofVal)

end Spec

/-- **C40**: the keys in the results of an inversion are known, so re-ordering of the result of an
event never fails, and the event gets the results of the inversion without loss. -/
theorem C40_results_have_known_keys {env : Env} {cfg : InvCfg} {cpus : ℕ} {schedule : List ℕ}
    {events : List Event} {r : InvRes} (h : invert env cfg cpus schedule events = .ok (some r))
    {id : String} (hid : id ∈ r.events.keys ∨ cfg.codaNorm.isSome) :
    ∃ e, eventEntry cfg.codaNorm.isSome id r = .ok e ∧ e.WF ∧
      e.keys.Pairwise (fun a b => dumpOrder.idxOf a ≤ dumpOrder.idxOf b) ∧
      Spec.EventResult r id e := by
  obtain ⟨b1, b2, b3, b4, b5, b6, b7, b8⟩ := base_get r
  have hb : ∀ k, k ∉ ["g0", "b", "nstations", "error", "R", "v0"] → (baseItems r).get? k = none :=
    fun k hk => (Dict.get?_eq_none _ k).2 (fun hm => hk (b8 k hm))
  unfold eventEntry
  cases hev : r.events.get? id with
  | none =>
    have hc : cfg.codaNorm.isSome = true := by
      rcases hid with hid | hid
      · rw [← Dict.get?_isSome, hev] at hid; simp at hid
      · exact hid
    simp only [hc, if_true]
    obtain ⟨e, he⟩ := (C40_sort_dict_unknown_key (baseItems r) dumpOrder).1.2 (by
      intro k hk
      have := b8 k hk
      simp only [List.mem_cons, List.not_mem_nil, or_false] at this
      rcases this with rfl | rfl | rfl | rfl | rfl | rfl <;> decide)
    obtain ⟨hp, hs, hget⟩ := C40_sort_dict_lossless he
    have hget := hget b7
    refine ⟨e, he, (hp.map Prod.fst).nodup_iff.2 b7, hs, ?_⟩
    refine ⟨by rw [hget, b1], by rw [hget, b2], by rw [hget, b3], by rw [hget, b5], by rw [hget, b6],
      by rw [hget, b4], ?_, ?_⟩
    · rw [hget, hev, hb _ (by decide)]; rfl
    · intro k hk
      rw [hget, hev, hb k ?_]
      · rfl
      · simp only [List.mem_cons, List.not_mem_nil, or_false] at hk
        rcases hk with rfl | rfl | rfl | rfl | rfl | rfl | rfl | rfl <;> decide
  | some x =>
    simp only
    obtain ⟨hxw, hxk⟩ := good_invert h _ (Dict.mem_of_get? hev)
    simp only at hxw hxk
    have hW : "W" ∉ (x.extra.mapVals ofVal).keys := by
      rw [Dict.keys_mapVals]
      intro hm
      exact absurd (hxk _ hm) (by decide)
    have hiw : (eventItems x).WF := by
      unfold eventItems Dict.WF
      have e : Dict.keys (("W", RVal.row x.W) :: x.extra.mapVals ofVal) =
        "W" :: (x.extra.mapVals ofVal).keys := rfl
      rw [e, List.nodup_cons]
      refine ⟨hW, ?_⟩
      rw [Dict.keys_mapVals]
      exact hxw
    have hig : ∀ k, (eventItems x).get? k =
        if "W" = k then some (.row x.W) else (x.extra.get? k).map ofVal := by
      intro k
      unfold eventItems
      rw [Dict.get?_cons, Dict.get?_mapVals]
    have hu := Dict.get?_update (baseItems r) (eventItems x) hiw
    have huw : ((baseItems r).update (eventItems x)).WF := Dict.WF_update b7 _
    obtain ⟨e, he⟩ := (C40_sort_dict_unknown_key ((baseItems r).update (eventItems x)) dumpOrder).1.2 (by
      intro k hk
      rw [← Dict.get?_isSome, hu, hig] at hk
      by_cases hkW : "W" = k
      · rw [← hkW]; decide
      rw [if_neg hkW] at hk
      cases hx : x.extra.get? k with
      | some v =>
        have := hxk k (by rw [← Dict.get?_isSome, hx]; rfl)
        simp only [sourceKeys, fitKeys, List.cons_append, List.nil_append, List.mem_cons,
          List.not_mem_nil, or_false] at this
        rcases this with rfl | rfl | rfl | rfl | rfl | rfl | rfl | rfl <;> decide
      | none =>
        rw [hx] at hk
        simp only [Option.map_none, Option.none_or] at hk
        rw [Dict.get?_isSome] at hk
        have := b8 k hk
        simp only [List.mem_cons, List.not_mem_nil, or_false] at this
        rcases this with rfl | rfl | rfl | rfl | rfl | rfl <;> decide)
    obtain ⟨hp, hs, hget⟩ := C40_sort_dict_lossless he
    have hget := hget huw
    have hother : ∀ k, k ∉ "W" :: sourceKeys → e.get? k = (baseItems r).get? k := by
      intro k hk
      rw [List.mem_cons, not_or] at hk
      rw [hget, hu, hig, if_neg (Ne.symm hk.1), (Dict.get?_eq_none _ k).2 (fun hm => hk.2 (hxk k hm))]
      rfl
    refine ⟨e, he, (hp.map Prod.fst).nodup_iff.2 huw, hs, ?_⟩
    refine ⟨by rw [hother _ (by decide), b1], by rw [hother _ (by decide), b2],
      by rw [hother _ (by decide), b3], by rw [hother _ (by decide), b5],
      by rw [hother _ (by decide), b6], by rw [hother _ (by decide), b4], ?_, ?_⟩
    · rw [hget, hu, hig, hev, if_pos rfl]; rfl
    · intro k hk
      rw [hget, hu, hig, hev, if_neg, hb k, Option.or_none]
      · rfl
      · simp only [List.mem_cons, List.not_mem_nil, or_false] at hk
        rcases hk with rfl | rfl | rfl | rfl | rfl | rfl | rfl | rfl <;> decide
      · simp only [List.mem_cons, List.not_mem_nil, or_false] at hk
        rcases hk with rfl | rfl | rfl | rfl | rfl | rfl | rfl | rfl <;> decide

example : ∃ r, invert JobsExample.exEnv (JobsExample.exCfg (some 1)) 1 [] [TablesExample.exEvent] =
    .ok (some r) := TablesExample.exInvert

namespace Wrapper

theorem entries_rows {codaNorm : Bool} {ps : List (Event × InvRes)}
    {en : Dict String (Dict String RVal)} {key : String} {f : InvRes → Option (List Cell)}
    (h : List.Forall₂ (fun (p : Event × InvRes) (e : String × Dict String RVal) =>
      e.1 = getEventid p.1 ∧ eventEntry codaNorm e.1 p.2 = .ok e.2) ps en)
    (hp : ∀ p ∈ ps, ∀ e, eventEntry codaNorm (getEventid p.1) p.2 = .ok e →
      e.get? key = (f p.2).map RVal.row) :
    Spec.rowsWith en key = ps.filterMap (fun p => f p.2) := by
  induction h with
  | nil => rfl
  | cons hd _ ih =>
    rename_i a b l l' _
    have hk := hp a List.mem_cons_self b.2 (by rw [← hd.1]; exact hd.2)
    have ih := ih (fun p hpm => hp p (List.mem_cons_of_mem _ hpm))
    unfold Spec.rowsWith at ih ⊢
    cases hf : f a.2 with
    | none =>
      rw [hf] at hk
      rw [List.filterMap_cons_none (by rw [hk]; rfl), List.filterMap_cons_none (f := fun p : Event × InvRes => f p.2) hf, ih]
    | some row =>
      rw [hf] at hk
      rw [List.filterMap_cons_some (b := row) (by rw [hk]; rfl), 
        List.filterMap_cons_some (f := fun p : Event × InvRes => f p.2) hf, ih]

theorem successes_snd {P : Event → Option InvRes → Prop} {order : List Event}
    {outs : List (Option InvRes)} (h : List.Forall₂ P order outs) :
    ((order.zip outs).filterMap (fun p => p.2.map (fun r => (p.1, r)))).map Prod.snd =
      outs.filterMap id := by
  induction h with
  | nil => rfl
  | @cons a o _ _ _ _ ih =>
    rw [List.zip_cons_cons]
    cases o with
    | none => rw [List.filterMap_cons_none rfl, List.filterMap_cons_none rfl]; exact ih
    | some r =>
      rw [List.filterMap_cons_some
          (f := fun p : Event × Option InvRes => p.2.map (fun r => (p.1, r))) (b := (a, r)) rfl,
        List.filterMap_cons_some (f := id) (b := r) rfl, List.map_cons, ih]

theorem entries_has {codaNorm : Bool} {ps : List (Event × InvRes)}
    {en : Dict String (Dict String RVal)} {key : String} {f : InvRes → Option (List Cell)}
    (h : List.Forall₂ (fun (p : Event × InvRes) (e : String × Dict String RVal) =>
      e.1 = getEventid p.1 ∧ eventEntry codaNorm e.1 p.2 = .ok e.2) ps en)
    (hp : ∀ p ∈ ps, ∀ e, eventEntry codaNorm (getEventid p.1) p.2 = .ok e →
      e.get? key = (f p.2).map RVal.row) :
    (∃ p ∈ ps, f p.2 ≠ none) → ∃ e ∈ en, e.2.get? key ≠ none := by
  induction h with
  | nil => simp
  | cons hd _ ih =>
    rename_i a b l l' _
    rintro ⟨p, hpm, hf⟩
    rw [List.mem_cons] at hpm
    rcases hpm with rfl | hpm
    · refine ⟨b, List.mem_cons_self, ?_⟩
      rw [hp _ List.mem_cons_self b.2 (by rw [← hd.1]; exact hd.2)]
      simpa using hf
    · obtain ⟨e, he, hne⟩ := ih (fun p hpm => hp p (List.mem_cons_of_mem _ hpm)) ⟨p, hpm, hf⟩
      exact ⟨e, List.mem_cons_of_mem _ he, hne⟩

end Wrapper

namespace Wrapper

/-- The rows of `g0`, `b` and `error` in the events of the result are those of the successful
inversions. -/
theorem go_rows {rlm : List ℝ → ℝ × ℝ} {env : Env} {cfg : InvCfg} {cpus : ℕ} {mean : Mean}
    {schedule : List Event → List ℕ} {events : List Event} {w : WrapRes}
    (hid : (events.map getEventid).Nodup) (hcmd : cfg.cmd = .go)
    (h : invertWrapper rlm (fun evs => invert env cfg cpus (schedule evs) evs) cfg.codaNorm.isSome
      false mean events = .ok (some w)) :
    ∃ order outcomes, Spec.InTimeOrder events order ∧
      List.Forall₂ (fun ev o => invert env cfg cpus (schedule [ev]) [ev] = .ok o) order outcomes ∧
      Spec.rowsWith w.events "g0" = (outcomes.filterMap id).filterMap (·.g0) ∧
      Spec.rowsWith w.events "b" = (outcomes.filterMap id).filterMap (·.b) ∧
      Spec.rowsWith w.events "error" = (outcomes.filterMap id).map (·.error) ∧
      outcomes.filterMap id ≠ [] ∧
      (∀ r ∈ outcomes.filterMap id, r.g0.isSome ∧ r.b.isSome) ∧
      ∀ e ∈ w.events, ∃ row, e.2.get? "error" = some (.row row) := by
  obtain ⟨order, ho, h⟩ := bind_ok.1 h
  obtain ⟨hord, _⟩ := orderEvents_ok ho
  rw [if_neg (by simp)] at h
  obtain ⟨st, hst, h⟩ := bind_ok.1 h
  have hn : (order.map getEventid).Nodup := by
    refine ((hord.perm.map getEventid).nodup_iff).2 ?_
    exact hid.sublist ((List.filter_sublist).map _)
  obtain ⟨outs, h1, en, h2, h3, h4⟩ := loop_spec hst hn (by intro ev _; simp [Dict.keys])
  simp only [List.nil_append] at h2
  split at h
  · simp [pure, Except.pure] at h
  rename_i hlen
  obtain ⟨col, g0, b, errs, sites, R, _, _, _, _, _, _, _, _, _, _, hev, _⟩ := means_some h
  rw [hev, h2]
  rw [h2] at hlen
  -- the successful inversions
  have hps := successes_snd h1
  have hinv : ∀ p ∈ (order.zip outs).filterMap (fun p => p.2.map (fun r => (p.1, r))),
      invert env cfg cpus (schedule [p.1]) [p.1] = .ok (some p.2) := by
    intro p hp
    obtain ⟨q, hq, hqp⟩ := List.mem_filterMap.1 hp
    obtain ⟨ev, o⟩ := q
    cases o with
    | none => simp at hqp
    | some r =>
      simp only [Option.map_some, Option.some.injEq] at hqp
      subst hqp
      exact (List.forall₂_iff_zip.1 h1).2 hq
  generalize (order.zip outs).filterMap (fun p => p.2.map (fun r => (p.1, r))) = ps at h3 hps hinv
  have hent : ∀ p ∈ ps, ∀ e, eventEntry cfg.codaNorm.isSome (getEventid p.1) p.2 = .ok e →
      Spec.EventResult p.2 (getEventid p.1) e := by
    intro p hp e he
    obtain ⟨e', he', _, _, hr⟩ := C40_results_have_known_keys (hinv p hp) (id := getEventid p.1) (by
      by_contra hno
      push Not at hno
      unfold eventEntry at he
      rw [(Dict.get?_eq_none _ _).2 hno.1] at he
      simp [hno.2] at he)
    rw [he] at he'
    simp only [Except.ok.injEq] at he'
    rw [he']
    exact hr
  have hsome : ∀ r ∈ outs.filterMap id, r.g0.isSome ∧ r.b.isSome := by
    intro r hr
    rw [← hps] at hr
    obtain ⟨p, hp, rfl⟩ := List.mem_map.1 hr
    have hi := hinv p hp
    unfold invert at hi
    split at hi
    · simp at hi
    obtain ⟨bands, hb, hi⟩ := bind_ok.1 hi
    obtain ⟨streams, _, hi⟩ := bind_ok.1 hi
    cases streams with
    | none => simp [pure, Except.pure] at hi
    | some streams =>
      simp only at hi
      obtain ⟨origins, _, hi⟩ := bind_ok.1 hi
      obtain ⟨stations, _, hi⟩ := bind_ok.1 hi
      obtain ⟨args, _, hi⟩ := bind_ok.1 hi
      obtain ⟨rlist, _, hi⟩ := bind_ok.1 hi
      unfold tables at hi
      split at hi
      · simp at hi
      obtain ⟨err, _, hi⟩ := bind_ok.1 hi
      obtain ⟨evs, _, hi⟩ := bind_ok.1 hi
      simp only [pure, Except.pure, Except.ok.injEq, Option.some.injEq] at hi
      rw [← hi]
      simp [hcmd]
  have hne : ∃ p, p ∈ ps := by
    cases ps with
    | nil =>
      rw [List.forall₂_nil_left_iff.1 h3] at hlen
      simp at hlen
    | cons p ps => exact ⟨p, List.mem_cons_self⟩
  obtain ⟨p0, hp0⟩ := hne
  have hp0s := hsome p0.2 (by rw [← hps]; exact List.mem_map.2 ⟨p0, hp0, rfl⟩)
  have get : ∀ key (f : InvRes → Option (List Cell)),
      (∀ p ∈ ps, ∀ e, eventEntry cfg.codaNorm.isSome (getEventid p.1) p.2 = .ok e →
        e.get? key = (f p.2).map RVal.row) →
      Spec.rowsWith en key = (outs.filterMap id).filterMap f := by
    intro key f hf
    rw [entries_rows h3 hf, ← hps, List.filterMap_map]
    rfl
  refine ⟨order, outs, hord, h1, get "g0" (·.g0) (fun p hp e he => (hent p hp e he).g0),
    get "b" (·.b) (fun p hp e he => (hent p hp e he).b), ?_, ?_, hsome, ?_⟩
  · rw [get "error" (fun r => some r.error) (fun p hp e he => (hent p hp e he).error),
      List.filterMap_eq_map']
  · intro hnil
    rw [← hps, List.map_eq_nil_iff] at hnil
    rw [hnil] at hp0
    simp at hp0
  · intro e he
    obtain ⟨i, hi, rfl⟩ := List.getElem_of_mem he
    have hi' : i < ps.length := by rw [h3.length_eq]; exact hi
    have := List.forall₂_iff_get.1 h3
    obtain ⟨hk, hee⟩ := this.2 i hi' hi
    simp only [List.get_eq_getElem] at hk hee
    rw [hk] at hee
    exact ⟨_, (hent _ (List.getElem_mem hi') _ hee).error⟩

theorem filterMap_ne_nil {α β : Type} {l : List α} {f : α → Option β} (h : l ≠ [])
    (hf : ∀ a ∈ l, (f a).isSome) : l.filterMap f ≠ [] := by
  cases l with
  | nil => exact absurd rfl h
  | cons a l =>
    obtain ⟨b, hb⟩ := Option.isSome_iff_exists.1 (hf a List.mem_cons_self)
    rw [List.filterMap_cons_some hb]
    simp

theorem rowsWith_nil {events : Dict String (Dict String RVal)} {key : String}
    (h : ∀ e ∈ events, e.2.get? key = none) : Spec.rowsWith events key = [] := by
  unfold Spec.rowsWith
  rw [List.filterMap_eq_nil_iff]
  intro e he
  rw [h e he]

end Wrapper

/-- **C26** together with the inversion of the events (command `go`): if there is a result, the
overall `g0`, `b` and `error` are in each band the geometric mean of the (positive) values of the
inversions of the single events, with a result in this band, and `None` if there is no such value;
each event with an origin takes part exactly once.

Missing: values which are not positive do not take part in the mean, see
`C26_zero_error_counterexample`. -/
theorem C26_attenuation_partial {rlm : List ℝ → ℝ × ℝ} {env : Env} {cfg : InvCfg} {cpus : ℕ}
    {schedule : List Event → List ℕ} {events : List Event} {w : WrapRes}
    (hid : (events.map getEventid).Nodup) (hcmd : cfg.cmd = .go)
    (h : invertWrapper rlm (fun evs => invert env cfg cpus (schedule evs) evs) cfg.codaNorm.isSome
      false .plain events = .ok (some w)) :
    ∃ order outcomes, Spec.InTimeOrder events order ∧
      List.Forall₂ (fun ev o => invert env cfg cpus (schedule [ev]) [ev] = .ok o) order outcomes ∧
      ∃ g0 b err, w.g0 = some g0 ∧ w.b = some b ∧ w.error = some err ∧
        Spec.BandMeans ((outcomes.filterMap id).filterMap (·.g0)) g0 ∧
        Spec.BandMeans ((outcomes.filterMap id).filterMap (·.b)) b ∧
        Spec.BandMeans ((outcomes.filterMap id).map (·.error)) err ∧
        ∀ r ∈ outcomes.filterMap id, r.g0.isSome ∧ r.b.isSome := by
  obtain ⟨hmeans, _⟩ := C26_means_partial h
  obtain ⟨order, outs, hord, h1, hg, hb, he, hne, hsome, _⟩ := go_rows hid hcmd h
  have get : ∀ key out rows, Spec.rowsWith w.events key = rows → rows ≠ [] →
      ((key = "g0" ∧ out = w.g0) ∨ (key = "b" ∧ out = w.b) ∨ (key = "error" ∧ out = w.error)) →
      ∃ m, out = some m ∧ Spec.BandMeans rows m := by
    intro key out rows hr hn hk
    rcases hmeans key out hk with ⟨_, hnone⟩ | ⟨_, m, hm, hb⟩
    · exact absurd (hr ▸ rowsWith_nil hnone) hn
    · exact ⟨m, hm, hr ▸ hb⟩
  obtain ⟨g, hg1, hg2⟩ := get "g0" w.g0 _ hg (filterMap_ne_nil hne fun r hr => (hsome r hr).1)
    (Or.inl ⟨rfl, rfl⟩)
  obtain ⟨bb, hb1, hb2⟩ := get "b" w.b _ hb (filterMap_ne_nil hne fun r hr => (hsome r hr).2)
    (Or.inr (Or.inl ⟨rfl, rfl⟩))
  obtain ⟨er, he1, he2⟩ := get "error" w.error _ he (by simpa using hne)
    (Or.inr (Or.inr ⟨rfl, rfl⟩))
  exact ⟨order, outs, hord, h1, g, bb, er, hg1, hb1, he1, hg2, hb2, he2, hsome⟩

/-! ### Examples -/

namespace WrapperExample

/-- Results of three events in two bands: the first event has no result in the second band, the fit
of the last event is perfect in the second band. -/
noncomputable def exRes (id : String) : InvRes :=
  if id = "e1" then ⟨[1, 2], some [.num 1, .none], some [.num 2, .none], [.num 3, .none], [1, 0], none,
    some [("A", [.num 1, .none])], [("e1", ⟨[.num 1, .none], [], []⟩)]⟩
  else ⟨[1, 2], some [.num 4, .num 5], some [.num 2, .num 7], [.num 12, .num 0], [1, 1], none,
    some [("A", [.num 1, .num 1])], [(id, ⟨[.num 1, .num 2], [], []⟩)]⟩

/-- An inversion of single events with these results. -/
noncomputable def exInv (evs : List Event) : Py (Option InvRes) :=
  match evs with
  | [e] => .ok (some (exRes (getEventid e)))
  | _ => .ok none


theorem exId (id : String) (t : ℝ) (h : id ∈ ["x/e1", "x/e2"]) :
    getEventid (ev id t) = if id = "x/e1" then "e1" else "e2" := by
  simp only [List.mem_cons, List.not_mem_nil, or_false] at h
  rcases h with rfl | rfl
  · show String.ofList (lastPart '/' "x/e1".toList) = _; decide
  · show String.ofList (lastPart '/' "x/e2".toList) = _; decide

theorem exEntry1 : eventEntry false "e1" (exRes "e1") = .ok
    [("g0", .row [.num 1, .none]), ("b", .row [.num 2, .none]), ("nstations", .row [.num 1, .num 0]),
     ("error", .row [.num 3, .none]), ("W", .row [.num 1, .none]),
     ("R", .sites [("A", [.num 1, .none])])] := by
  simp [eventEntry, exRes, Dict.get?, baseItems, eventItems, Dict.mapVals, Dict.update, Dict.set,
    sortDict, dumpOrder, List.mergeSort, List.MergeSort.Internal.splitInTwo, List.merge, List.idxOf,
    List.findIdx, List.findIdx.go]

theorem exEntry2 : eventEntry false "e2" (exRes "e2") = .ok
    [("g0", .row [.num 4, .num 5]), ("b", .row [.num 2, .num 7]),
     ("nstations", .row [.num 1, .num 1]), ("error", .row [.num 12, .num 0]),
     ("W", .row [.num 1, .num 2]), ("R", .sites [("A", [.num 1, .num 1])])] := by
  simp [eventEntry, exRes, Dict.get?, baseItems, eventItems, Dict.mapVals, Dict.update, Dict.set,
    sortDict, dumpOrder, List.mergeSort, List.MergeSort.Internal.splitInTwo, List.merge, List.idxOf,
    List.findIdx, List.findIdx.go]

theorem exOrder : orderEvents [ev "x/e2" 2, ev "x/e1" 1] = .ok [ev "x/e1" 1, ev "x/e2" 2] := by
  have h : timeEventPairs [ev "x/e2" 2, ev "x/e1" 1] = [(2, ev "x/e2" 2), (1, ev "x/e1" 1)] := rfl
  unfold orderEvents sortEvents
  rw [h, if_pos (by simp)]
  simp [List.mergeSort, List.MergeSort.Internal.splitInTwo, List.merge, bind, Except.bind, pure,
    Except.pure]

end WrapperExample

open WrapperExample in
theorem WrapperExample.exWrapper (rlm : List ℝ → ℝ × ℝ) :
    ∃ w, invertWrapper rlm exInv false false .plain [ev "x/e2" 2, ev "x/e1" 1] = .ok (some w) ∧
      Spec.rowsWith w.events "error" = [[.num 3, .none], [.num 12, .num 0]] ∧
      w.events.keys = ["e1", "e2"] ∧ ∃ e, w.error = some e := by
  unfold invertWrapper
  rw [exOrder]
  have h1 : exInv [ev "x/e1" 1] = .ok (some (exRes "e1")) := by
    unfold exInv; simp only; rw [exId _ _ (by simp)]; rfl
  have h2 : exInv [ev "x/e2" 2] = .ok (some (exRes "e2")) := by
    unfold exInv; simp only; rw [exId _ _ (by simp)]; rfl
  have i1 : getEventid (ev "x/e1" 1) = "e1" := by rw [exId _ _ (by simp)]; rfl
  have i2 : getEventid (ev "x/e2" 2) = "e2" := by rw [exId _ _ (by simp)]; rfl
  have hl : [ev "x/e1" 1, ev "x/e2" 2].foldlM (loopStep exInv false) {} = .ok ⟨some [1, 2], [("e1",
    [("g0", .row [.num 1, .none]), ("b", .row [.num 2, .none]), ("nstations", .row [.num 1, .num 0]),
     ("error", .row [.num 3, .none]), ("W", .row [.num 1, .none]),
     ("R", .sites [("A", [.num 1, .none])])]), ("e2",
    [("g0", .row [.num 4, .num 5]), ("b", .row [.num 2, .num 7]),
     ("nstations", .row [.num 1, .num 1]), ("error", .row [.num 12, .num 0]),
     ("W", .row [.num 1, .num 2]), ("R", .sites [("A", [.num 1, .num 1])])])]⟩ := by
    simp only [List.foldlM_cons, List.foldlM_nil, loopStep, h1, h2, i1, i2, exEntry1, exEntry2, bind,
      Except.bind, pure, Except.pure, Dict.set]
    rfl
  simp only [bind, Except.bind, separately, hl, Bool.false_eq_true, if_false]
  refine ⟨_, rfl, rfl, rfl, _, rfl⟩

open WrapperExample in
/-- **C26** fails for a perfect fit: the misfit 0 of event e2 in the second band is a result, but the
overall misfit of this band is `None`. -/
theorem C26_zero_error_counterexample (rlm : List ℝ → ℝ × ℝ) :
    ∃ w e, invertWrapper rlm exInv false false .plain [ev "x/e2" 2, ev "x/e1" 1] = .ok (some w) ∧
      Spec.rowsWith w.events "error" = [[.num 3, .none], [.num 12, .num 0]] ∧
      w.error = some e ∧ e[0]? = some (.num (Spec.geoMean [3, 12])) ∧ e[1]? = some .none := by
  obtain ⟨w, hw, hrows, _, e, he⟩ := exWrapper rlm
  refine ⟨w, e, hw, hrows, he, ?_⟩
  rcases (C26_means_partial hw).1 "error" w.error (Or.inr (Or.inr ⟨rfl, rfl⟩)) with
    ⟨hn, _⟩ | ⟨_, m, hm, hb⟩
  · rw [he] at hn; simp at hn
  rw [he] at hm
  simp only [Option.some.injEq] at hm
  subst hm
  rw [hrows] at hb
  have hlen : e.length = 2 := hb.length _ List.mem_cons_self
  have p0 : Spec.positives ([[Cell.num 3, .none], [.num 12, .num 0]].filterMap (fun r => r[0]?)) =
      [3, 12] := by simp [Spec.positives, List.filterMap_cons]
  have p1 : Spec.positives ([[Cell.num 3, .none], [.num 12, .num 0]].filterMap (fun r => r[1]?)) =
      [] := by simp [Spec.positives, List.filterMap_cons]
  have b0 := (hb.entries 0 (by omega)).2
  have b1 := (hb.entries 1 (by omega)).1
  rw [p0] at b0
  rw [p1] at b1
  exact ⟨b0 (by simp), b1 rfl⟩

open WrapperExample in
example (rlm : List ℝ → ℝ × ℝ) : ∃ w, invertWrapper rlm exInv false false .plain
    [ev "x/e2" 2, ev "x/e1" 1] = .ok (some w) ∧ w.events.keys = ["e1", "e2"] := by
  obtain ⟨w, h, _, hk, _⟩ := exWrapper rlm
  exact ⟨w, h, hk⟩

end Qopen
