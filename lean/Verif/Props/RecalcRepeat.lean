import Verif.Props.EventSize
import Verif.Props.TruthChain
import Verif.Props.OtherBands
import Verif.Props.RunAlign
import Verif.Props.Returns

/-!
# Recalculation of the source parameters after an inversion (C146)
-/

namespace Qopen

open Real Spec Util Catalog Freqs Source Invert Wrapper Collect

namespace Spec

/-- `e` is the entry `d` of an event of a result, as it is read by the recalculation. -/
structure ReadEvent (d : Dict String RVal) (e : EvRes) : Prop where
  energies : d.get? "W" = some (.row e.W)
  values : ∀ k, k ≠ "W" → k ≠ "R" → d.get? k = (e.extra.get? k).map ofVal
  unique : e.extra.WF

/-- The same event with the same values. -/
structure UnchangedEvent (p q : String × EvRes) : Prop where
  id : q.1 = p.1
  W : q.2.W = p.2.W
  R : q.2.R = p.2.R
  values : ∀ k, q.2.extra.get? k = p.2.extra.get? k

/-- The options of an inversion which its result documents for the recalculation. -/
structure Documents (config : Config) (cfg : InvCfg) : Prop where
  density : config.rho0 = some cfg.rho0
  velocity : config.v0 = cfg.wcfg.v0
  method : config.smm = cfg.smm
  options : config.smo = cfg.smo

end Spec

namespace Source

theorem forall₂_partner {α β : Type} {r : α → β → Prop} {l : List α} {l' : List β} (h : List.Forall₂ r l l')
    {b : β} (hb : b ∈ l') : ∃ a ∈ l, r a b := by
  induction h with
  | nil => simp at hb
  | cons h1 _ ih =>
    rcases List.mem_cons.1 hb with rfl | hb
    · exact ⟨_, by simp, h1⟩
    · obtain ⟨a, h2, h3⟩ := ih hb
      exact ⟨a, by simp [h2], h3⟩

theorem ofVal_injective : Function.Injective ofVal := by
  intro a b h
  cases a <;> cases b <;> simp [ofVal] at h <;> rw [h]

/-- The calculation depends only on the energies if there is no spectrum yet. -/
theorem insert_transfer {orc : Oracle} {freq : List ℝ} {ev e1 : EvRes} {v rho : Option ℝ} {smm : Option Method}
    {smo : Option Opts} (hs : ev.extra.get? "sds" = none)
    (h : insertSourceProperties orc freq ⟨ev.W, [], []⟩ v rho smm smo none = .ok e1) :
    ∃ L fit, e1.extra = insertFit (Dict.set [] "sds" (.cells L)) fit ∧
      insertSourceProperties orc freq ev v rho smm smo none =
        .ok { ev with extra := insertFit (ev.extra.set "sds" (.cells L)) fit } := by
  obtain ⟨-, -, L, hL, fit, -, hf, he⟩ := insert_ok orc freq _ e1 v rho smm smo (Or.inl rfl) h
  have hold : sdsStart ev v rho = [] := by
    unfold sdsStart
    rw [hs]
    simp
  refine ⟨L, fit, he, ?_⟩
  unfold insertSourceProperties
  simp only at hL
  simp only [hL, bind, Except.bind, hold, List.nil_append]
  rcases hf with ⟨rfl, rfl⟩ | ⟨m, o, rfl, rfl, hfit⟩
  · rfl
  · simp only [hfit]
    rfl

/-- What is inserted into a new event. -/
theorem insert_entries {orc : Oracle} {freq : List ℝ} {W : List Cell} {e : EvRes} {v rho : Option ℝ}
    {smm : Option Method} {smo : Option Opts} {mag : Option ℝ}
    (h : insertSourceProperties orc freq ⟨W, [], []⟩ v rho smm smo mag = .ok e) :
    (∃ l, e.extra.get? "sds" = some (.cells l)) ∧
      ∀ k, k ∉ ["sds", "M0", "Mw", "Mcat", "fc", "n", "gamma", "fit_error"] → e.extra.get? k = none := by
  rw [insert_cat] at h
  cases h1 : insertSourceProperties orc freq ⟨W, [], []⟩ v rho smm smo none with
  | error x => rw [h1] at h; simp [Except.map] at h
  | ok e1 =>
    rw [h1] at h
    simp only [Except.map, Except.ok.injEq] at h
    have hcat : ∀ k, k ≠ "Mcat" → e.extra.get? k = e1.extra.get? k := by
      intro k hne
      rw [← h]
      unfold withCat
      split
      · exact Dict.get?_set_ne _ _ (Ne.symm hne)
      · rfl
    obtain ⟨-, -, L, -, fit, hk, -, he⟩ := insert_ok orc freq _ e1 v rho smm smo (Or.inl rfl) h1
    have hoth : ∀ k, k ∉ fitKeys → k ≠ "Mw" → e1.extra.get? k = (Dict.set [] "sds" (Val.cells L)).get? k := by
      intro k h2 h3
      rw [he]
      cases fit with
      | none => rfl
      | some r => exact insertFit_other _ r (hk r rfl).2 k h2 h3
    constructor
    · refine ⟨L, ?_⟩
      rw [hcat _ (by decide), hoth _ (by decide) (by decide), Dict.get?_set, if_pos rfl]
    · intro k hkk
      have h2 : k ≠ "Mcat" ∧ k ∉ fitKeys ∧ k ≠ "Mw" ∧ k ≠ "sds" := by
        simp only [List.mem_cons, List.not_mem_nil, or_false, not_or] at hkk
        simp only [fitKeys, List.mem_cons, List.not_mem_nil, or_false, not_or]
        tauto
      rw [hcat k h2.1, hoth k h2.2.1 h2.2.2.1, Dict.get?_set_ne _ _ (Ne.symm h2.2.2.2)]
      rfl

/-- One event. -/
theorem repeat_event {orc : Oracle} {freq : List ℝ} {W : List Cell} {e e2 : EvRes} {v rho : ℝ} {v02 : Option ℝ}
    {smm : Option Method} {smo : Option Opts} {mag : Option ℝ} (hv : v ≠ 0)
    (h : insertSourceProperties orc freq ⟨W, [], []⟩ (some v) (some rho) smm smo mag = .ok e)
    (hW : e2.W = W) (hwf : e2.extra.WF)
    (hk : ∀ k ∈ ["sds", "M0", "Mw", "Mcat", "fc", "n", "gamma", "fit_error"],
      e2.extra.get? k = e.extra.get? k) (hv2 : pyOr (EvRes.v0 e2) v02 = some v) (id : String) :
    ∃ e', recalcEvent orc freq v02 (some rho) smm smo e2 = .ok e' ∧ UnchangedEvent (id, e2) (id, e') := by
  rw [insert_cat] at h
  cases h1 : insertSourceProperties orc freq ⟨W, [], []⟩ (some v) (some rho) smm smo none with
  | error x => rw [h1] at h; simp [Except.map] at h
  | ok e1 =>
    rw [h1] at h
    simp only [Except.map, Except.ok.injEq] at h
    have hcat : ∀ k, k ≠ "Mcat" → e.extra.get? k = e1.extra.get? k := by
      intro k hne
      rw [← h]
      unfold withCat
      split
      · exact Dict.get?_set_ne _ _ (Ne.symm hne)
      · rfl
    set p : EvRes := { e2 with extra := poppedKeys.foldl (fun d k => d.pop k) e2.extra } with hp
    have hps : p.extra.get? "sds" = none := by
      rw [hp]
      simp only
      rw [get?_pops _ _ hwf]
      simp [poppedKeys]
    obtain ⟨L, fit, f1, f2⟩ := insert_transfer (ev := p) hps (by rw [show p.W = W from hW]; exact h1)
    have hrec : recalcEvent orc freq v02 (some rho) smm smo e2 =
        .ok { p with extra := insertFit (p.extra.set "sds" (.cells L)) fit } := by
      unfold recalcEvent
      simp only [hv2]
      rw [if_pos (show truthy (some v) from hv)]
      exact f2
    refine ⟨_, hrec, rfl, hW ▸ rfl, rfl, ?_⟩
    have hpop : ∀ k ∈ poppedKeys, (insertFit (p.extra.set "sds" (.cells L)) fit).get? k = e2.extra.get? k := by
      intro k hkk
      have k1 : k ∈ ["sds", "M0", "Mw", "Mcat", "fc", "n", "gamma", "fit_error"] ∧ k ≠ "Mcat" := by
        revert hkk k
        decide
      rw [hk k k1.1, hcat k k1.2, f1]
      apply insertFit_congr
      rw [Dict.get?_set, Dict.get?_set]
      have : p.extra.get? k = none := by
        rw [hp]
        simp only
        rw [get?_pops _ _ hwf, if_pos hkk]
      rw [this]
      rfl
    intro k
    by_cases hkk : k ∈ poppedKeys
    · exact hpop k hkk
    by_cases hm : k = "Mw"
    · subst hm
      obtain ⟨m1, m2⟩ := recalc_mw orc freq v02 (some rho) smm smo e2 _ hwf hrec
      simp only at m1 m2
      rw [hpop "M0" (by decide)] at m1 m2
      cases hM : e2.extra.get? "M0" with
      | none => exact m2 hM
      | some x =>
        simp only
        rw [m1 x hM, hk "Mw" (by decide), hcat "Mw" (by decide)]
        rw [insert_recalc hv] at h1
        obtain ⟨q1, -⟩ := recalc_mw orc freq (some v) (some rho) smm smo ⟨W, [], []⟩ e1 (by simp [Dict.WF, Dict.keys]) h1
        rw [q1 x (by rw [← hcat "M0" (by decide), ← hk "M0" (by decide)]; exact hM)]
    · exact recalc_other orc freq v02 (some rho) smm smo e2 _ hwf hrec k hkk hm

/-- All events. -/
theorem repeat_all {orc : Oracle} {config : Config} {cfg : InvCfg} {freq : List ℝ} {events : Dict String EvRes}
    {m : Option Method} {o : Option Opts} (hd : Documents config cfg) (hm : m = none ∨ m = cfg.smm)
    (ho : o = none ∨ o = cfg.smo)
    (h : ∀ p ∈ events, ∃ e', recalcEvent orc freq config.v0 (some cfg.rho0) cfg.smm cfg.smo p.2 = .ok e' ∧
      UnchangedEvent p (p.1, e')) :
    ∃ events', calculateSourceProperties orc config freq events none none m o = .ok events' ∧
      List.Forall₂ UnchangedEvent events events' := by
  have e1 : m.or config.smm = cfg.smm := by
    rw [hd.method]
    rcases hm with rfl | rfl
    · rfl
    · cases cfg.smm <;> rfl
  have e2 : o.or config.smo = cfg.smo := by
    rw [hd.options]
    rcases ho with rfl | rfl
    · rfl
    · cases cfg.smo <;> rfl
  unfold calculateSourceProperties
  simp only [e1, e2, hd.density, pyOr]
  split
  · obtain ⟨out, hout⟩ := Site.mapExc_total (l := events)
      (f := fun p => do
        let e ← recalcEvent orc freq config.v0 (some cfg.rho0) cfg.smm cfg.smo p.2
        return (p.1, e)) (fun p hp => by
        obtain ⟨e', h1, -⟩ := h p hp
        exact ⟨(p.1, e'), by simp only [h1, bind, Except.bind, pure, Except.pure]⟩)
    refine ⟨out, hout, ?_⟩
    have hf := mapExc_ok.1 hout
    rw [List.forall₂_iff_get] at hf ⊢
    refine ⟨hf.1, fun i h1 h2 => ?_⟩
    have := hf.2 i h1 h2
    obtain ⟨e', h3, h4⟩ := h _ (List.get_mem events ⟨i, h1⟩)
    simp only [h3, bind, Except.bind, pure, Except.pure, Except.ok.injEq] at this
    rw [← this]
    exact h4
  · refine ⟨events, rfl, ?_⟩
    rw [List.forall₂_same]
    exact fun p _ => ⟨rfl, rfl, rfl, fun _ => rfl⟩

end Source

section

variable {env : Env} {cfg : InvCfg} {cpus : ℕ} {schedule : List Event → List ℕ} {events : List Event}
  {bands : Dict ℝ (ℝ × ℝ)} {rlm : List ℝ → ℝ × ℝ} {mean : Mean} {w : WrapRes} {config : Config}
  {evs : Dict String EvRes} {m : Option Method} {o : Option Opts}

/-- **C146**: events which are inverted separately.  The recalculation succeeds and changes nothing, with and
without method and options of the inversion as arguments. -/
theorem C146_separate (hid : (events.map getEventid).Nodup) (hb : getFreqs cfg.freqs = .ok bands)
    (hj : ∀ evs, OwnCopies cfg bands cpus (schedule evs)) (hc : cfg.codaNorm = none)
    (h : invertWrapper rlm (fun evs => invert env cfg cpus (schedule evs) evs) false false mean events =
      .ok (some w)) (hv : ∀ p ∈ w.events, p.2.get? "v0" ≠ some (.cell (.num 0)))
    (hd : Documents config cfg) (hr : List.Forall₂ (fun p q => q.1 = p.1 ∧ ReadEvent p.2 q.2) w.events evs)
    (hm : m = none ∨ m = cfg.smm) (ho : o = none ∨ o = cfg.smo) :
    ∃ evs', calculateSourceProperties env.orc config w.freq evs none none m o = .ok evs' ∧
      List.Forall₂ UnchangedEvent evs evs' := by
  refine repeat_all hd hm ho ?_
  intro q hq
  obtain ⟨i, hi, rfl⟩ := List.getElem_of_mem hq
  have hi' : i < w.events.length := hr.length_eq ▸ hi
  obtain ⟨k1, k2⟩ := (List.forall₂_iff_get.1 hr).2 i hi' hi
  simp only [List.get_eq_getElem] at k1 k2
  have hp : w.events[i] ∈ w.events := List.getElem_mem hi'
  obtain ⟨ev, hev, hee, r, e1, e2⟩ := wrapper_entry hid h hp
  simp only [List.get_eq_getElem] at hee e2
  have hfr := (wrapper_freq hid hb (fun evs => (hj evs).1) h).1
  obtain ⟨stations, rlist, -, T0, -⟩ := tables_streams (events := [ev]) (by simp) hb (hj _).1 e1
  obtain ⟨x, hx, hins⟩ := invert_insert (events := [ev]) (by simp) hc e1 (List.mem_singleton.2 rfl)
  obtain ⟨d', f1, -, -, f2⟩ := C40_results_have_known_keys e1 (id := getEventid ev)
    (Or.inl (List.mem_map.2 ⟨_, Dict.mem_of_get? hx, rfl⟩))
  rw [hc, hee] at f1
  simp only [Option.isSome_none] at f1
  rw [e2] at f1
  obtain rfl := Except.ok.inj f1
  obtain ⟨bef, r1, aft, -, -, hrv⟩ := T0.v0
  rw [hrv] at hins
  have hv0 : w.events[i].2.get? "v0" = some (.cell (.num r1.v0)) := by rw [f2.v0, hrv]; rfl
  have hne : r1.v0 ≠ 0 := by
    intro h0
    rw [h0] at hv0
    exact hv _ hp hv0
  have hvv : EvRes.v0 evs[i].2 = some r1.v0 := by
    have := k2.values "v0" (by decide) (by decide)
    rw [hv0] at this
    unfold EvRes.v0
    cases hg : evs[i].2.extra.get? "v0" with
    | none => rw [hg] at this; simp at this
    | some y =>
      rw [hg] at this
      cases y with
      | cells l => simp [ofVal] at this
      | cell c =>
        simp only [Option.map_some, ofVal, Option.some.injEq, RVal.cell.injEq] at this
        rw [← this]
        rfl
  rw [show r.freq = w.freq by rw [hfr]; exact T0.freq] at hins
  refine repeat_event (v02 := config.v0) hne hins ?_ k2.unique ?_ ?_ _
  · have := f2.W
    rw [hx, k2.energies] at this
    simpa using this
  · intro k hk
    have hne : k ≠ "W" ∧ k ≠ "R" := by
      revert hk k
      decide
    have h1 := f2.source k hk
    rw [hx] at h1
    rw [k2.values k hne.1 hne.2] at h1
    simp only [Option.bind_some] at h1
    exact Option.map_injective ofVal_injective h1
  · rw [hvv, pyOr, if_neg hne]


/-- The entries of a simultaneous inversion. -/
theorem simultaneous_entry {p : String × Dict String RVal} {q : EvRes}
    (hid : (events.map getEventid).Nodup) (hb : getFreqs cfg.freqs = .ok bands)
    (hj : ∀ evs, OwnCopies cfg bands cpus (schedule evs)) (hc : cfg.codaNorm = none)
    (h : invertWrapper rlm (fun evs => invert env cfg cpus (schedule evs) evs) false true mean events =
      .ok (some w)) (hp : p ∈ w.events) (hr : ReadEvent p.2 q) :
    ∃ (order : List Event) (r : InvRes) (ev : Event) (x : EvRes), (order.map getEventid).Nodup ∧
      invert env cfg cpus (schedule order) order = .ok (some r) ∧ w.freq = r.freq ∧ q.W = x.W ∧
      (∀ k, k ≠ "W" → k ≠ "R" → q.extra.get? k = x.extra.get? k) ∧ x.extra.get? "v0" = none ∧
      insertSourceProperties env.orc r.freq ⟨x.W, [], []⟩ r.v0 (some cfg.rho0) cfg.smm cfg.smo
        (getMagnitude ev) = .ok x := by
  obtain ⟨order, ho, h⟩ := bind_ok.1 h
  rw [if_pos rfl] at h
  unfold simultaneously at h
  obtain ⟨r, hi, h⟩ := bind_ok.1 h
  cases r with
  | none => simp at h
  | some r =>
    simp only [pure, Except.pure, Except.ok.injEq, Option.some.injEq] at h
    have hn : (order.map getEventid).Nodup := by
      have hperm := (orderEvents_ok ho).1.1
      rw [(hperm.map getEventid).nodup_iff]
      exact hid.sublist (List.filter_sublist.map _)
    obtain ⟨stations, rlist, -, T, -⟩ := tables_streams hn hb (hj _).1 hi
    rw [← h] at hp
    simp only [Dict.mapVals, List.mem_map] at hp
    obtain ⟨y, hy, rfl⟩ := hp
    have hy1 : y.1 ∈ order.map getEventid := by
      rw [← (T.events hc).1]
      exact List.mem_map.2 ⟨y, hy, rfl⟩
    obtain ⟨ev, hev, hee⟩ := List.mem_map.1 hy1
    obtain ⟨x, hx, hins⟩ := invert_insert hn hc hi hev
    have hxy : x = y.2 := by
      have hwf : r.events.WF := by
        unfold Dict.WF
        rw [(T.events hc).1]
        exact hn
      rw [hee] at hx
      have := Dict.get?_of_mem hwf (k := y.1) (v := y.2) hy
      exact Option.some.inj (hx.symm.trans this)
    subst hxy
    refine ⟨order, r, ev, y.2, hn, hi, by rw [← h], ?_, ?_, ?_, hins⟩
    · have := hr.energies
      simpa [eventItems, Dict.get?] using this.symm
    · intro k h1 h2
      have := hr.values k h1 h2
      unfold eventItems at this
      rw [Dict.get?, if_neg (Ne.symm h1), Dict.get?_mapVals] at this
      exact (Option.map_injective ofVal_injective this).symm
    · rw [(insert_entries hins).2 "v0" (by decide)]

/-- **C146** for events which are inverted simultaneously.  The full claim is that of `C146_separate`; the velocity has
to be given as an option of the inversion, otherwise it is false, see `C146_simultaneous_counterexample`. -/
theorem C146_simultaneous_partial {v : ℝ} (hid : (events.map getEventid).Nodup)
    (hb : getFreqs cfg.freqs = .ok bands) (hj : ∀ evs, OwnCopies cfg bands cpus (schedule evs))
    (hc : cfg.codaNorm = none) (hv : cfg.wcfg.v0 = some v) (hv0 : v ≠ 0)
    (h : invertWrapper rlm (fun evs => invert env cfg cpus (schedule evs) evs) false true mean events =
      .ok (some w)) (hd : Documents config cfg)
    (hr : List.Forall₂ (fun p q => q.1 = p.1 ∧ ReadEvent p.2 q.2) w.events evs)
    (hm : m = none ∨ m = cfg.smm) (ho : o = none ∨ o = cfg.smo) :
    ∃ evs', calculateSourceProperties env.orc config w.freq evs none none m o = .ok evs' ∧
      List.Forall₂ UnchangedEvent evs evs' := by
  refine repeat_all hd hm ho ?_
  intro q hq
  obtain ⟨p, hp, -, hrd⟩ := forall₂_partner hr hq
  obtain ⟨order, r, ev, x, a1, a2, a3, a4, a5, a6, a7⟩ := simultaneous_entry hid hb hj hc h hp hrd
  rw [C144_velocity_partial a1 hb (hj _) hv a2] at a7
  rw [a3]
  refine repeat_event (v02 := config.v0) hv0 a7 a4 hrd.unique ?_ ?_ _
  · intro k hk
    have hne : k ≠ "W" ∧ k ≠ "R" := by
      revert hk k
      decide
    exact a5 k hne.1 hne.2
  · have : EvRes.v0 q.2 = none := by
      unfold EvRes.v0
      rw [a5 _ (by decide) (by decide), a6]
    rw [this, hd.velocity, hv]
    rfl

/-- What is left of the source parameters if the velocity of a simultaneous inversion was not given. -/
theorem simultaneous_lost (hid : (events.map getEventid).Nodup)
    (hb : getFreqs cfg.freqs = .ok bands) (hj : ∀ evs, OwnCopies cfg bands cpus (schedule evs))
    (hc : cfg.codaNorm = none) (hv : cfg.wcfg.v0 = none) (hr0 : cfg.rho0 ≠ 0)
    (h : invertWrapper rlm (fun evs => invert env cfg cpus (schedule evs) evs) false true mean events =
      .ok (some w)) (hd : Documents config cfg)
    (hr : List.Forall₂ (fun p q => q.1 = p.1 ∧ ReadEvent p.2 q.2) w.events evs) :
    (∀ q ∈ evs, ∃ l, q.2.extra.get? "sds" = some (.cells l)) ∧
    ∃ evs', calculateSourceProperties env.orc config w.freq evs none none m o = .ok evs' ∧
      evs'.map Prod.fst = evs.map Prod.fst ∧
      ∀ q ∈ evs', ∀ k ∈ ["sds", "M0", "fc", "n", "gamma", "fit_error"], q.2.extra.get? k = none := by
  have key : ∀ q ∈ evs, q.2.extra.WF ∧ EvRes.v0 q.2 = none ∧ ∃ l, q.2.extra.get? "sds" = some (.cells l) := by
    intro q hq
    obtain ⟨p, hp, -, hrd⟩ := forall₂_partner hr hq
    obtain ⟨order, r, ev, x, a1, a2, a3, a4, a5, a6, a7⟩ := simultaneous_entry hid hb hj hc h hp hrd
    refine ⟨hrd.unique, ?_, ?_⟩
    · unfold EvRes.v0
      rw [a5 _ (by decide) (by decide), a6]
    · rw [a5 _ (by decide) (by decide)]
      exact (insert_entries a7).1
  refine ⟨fun q hq => (key q hq).2.2, evs.map (fun q => (q.1, { q.2 with
    extra := poppedKeys.foldl (fun d k => d.pop k) q.2.extra })), ?_, by simp, ?_⟩
  · unfold calculateSourceProperties
    simp only [hd.density, hd.velocity, hv, pyOr]
    rw [if_pos (show truthy (some cfg.rho0) from hr0)]
    refine mapExc_ok.2 ?_
    rw [List.forall₂_map_right_iff, List.forall₂_same]
    intro q hq
    unfold recalcEvent
    simp only [(key q hq).2.1, pyOr]
    rw [if_neg (show ¬ truthy none from fun h => h)]
    rfl
  · intro q hq k hk
    obtain ⟨y, hy, rfl⟩ := List.mem_map.1 hq
    simp only
    rw [get?_pops _ _ (key y hy).1, if_pos]
    exact hk

end

namespace RecalcExample

open JobsExample TablesExample Window

/-- The velocity is not given. -/
noncomputable def cfg : InvCfg :=
  { exCfg (some 1) with wcfg := { (exCfg (some 1)).wcfg with v0 := none } }

/-- The velocity of the data is the one given otherwise. -/
theorem run_same {band : ℝ × ℝ} (hb : band.1 + band.2 ≤ 1) (hb2 : band.2 ≤ 0.495) :
    runBand JobsExample.exEnv cfg exArgs [exStream 1] band = runBand JobsExample.exEnv (exCfg (some 1)) exArgs [exStream 1] band := by
  have he := ex_energies (some 1) 1 hb hb2
  have he' : energies JobsExample.exEnv.lib (bandWCfg cfg exArgs band) [exStream 1] = .ok [exEnergy (gain band 1)] := he
  unfold runBand
  simp only [exArgs, Bool.false_eq_true, if_false] at he he' ⊢
  unfold invertFb
  rw [if_neg (by simp), if_neg (by simp), he, he']
  have hv : velocity (bandWCfg cfg { fix := false, sites := false } band) [exEnergy (gain band 1)] = some 1 := by
    unfold velocity
    rw [show (bandWCfg cfg { fix := false, sites := false } band).v0 = none from rfl]
    simp [exEnergy, InvertFb.mean]
  have hv' : velocity (bandWCfg (exCfg (some 1)) { fix := false, sites := false } band)
      [exEnergy (gain band 1)] = some 1 := rfl
  simp only [bind, Except.bind, hv, hv']
  rfl

theorem invert_free : ∃ res, invert JobsExample.exEnv cfg 1 [] [exEvent] = .ok (some res) := by
  have hfr : getFreqs cfg.freqs = .ok [(0.25, (0.25 - halfWidth 0.25 1, 0.25 + halfWidth 0.25 1))] := by
    simp [cfg, exCfg, getFreqs, bandsOf, mkDict, Dict.set]
  have hh : halfWidth 0.25 1 = 1 / 12 := by unfold halfWidth; norm_num
  rw [hh] at hfr
  have ho : originsOf [exEvent] = .ok [("e", ⟨0, 0, 0, some 1, []⟩)] := by
    unfold originsOf
    have h : getOrigin exEvent = .ok ⟨0, 0, 0, some 1, []⟩ := rfl
    simp [exId, h, bind, Except.bind, pure, Except.pure, Dict.set]
  obtain ⟨r, hr, herr⟩ := ex_one (some 1) (x := 1) (band := (0.25 - 1 / 12, 0.25 + 1 / 12))
    (by norm_num) (by norm_num) (by unfold gain; rw [if_neg (by norm_num)]; norm_num)
  rw [← run_same (by norm_num) (by norm_num)] at hr
  have hrun : runBands JobsExample.exEnv cfg exArgs [exStream 1] [(0.25 - 1 / 12, 0.25 + 1 / 12)] 1 []
      = .ok [some r] := by
    unfold runBands
    rw [if_pos (by rfl), C24_sequential]
    simp only [mapExc, hr, bind, Except.bind, pure, Except.pure]
  have hsel : selectStreams JobsExample.exEnv cfg [exEvent] = .ok (some [exStream 1]) := exSelect
  unfold invert
  rw [if_neg (by simp [cfg, exCfg])]
  simp only [hfr, hsel, ho, bind, Except.bind]
  have h1 : ignoreNetworks cfg (boreholes JobsExample.exEnv [("e", ⟨0, 0, 0, some 1, []⟩)]) [exStream 1] =
    [exStream 1] := rfl
  have h2 : resultStations JobsExample.exEnv cfg = .ok ["A"] := by
    unfold resultStations
    rw [exStations]
    rfl
  have h3 : bandArgs cfg [(0.25, (0.25 - 1 / 12, 0.25 + 1 / 12))] = .ok exArgs := rfl
  rw [h1, h2, h3]
  simp only [List.map_cons, List.map_nil, hrun]
  unfold tables
  rw [if_neg (by simp)]
  obtain ⟨x, hx⟩ := WithTop.ne_top_iff_exists.1 herr
  have h4 : mapExc errorCell [some r] = .ok [.num x] := by
    simp [mapExc, errorCell, ← hx, bind, Except.bind, pure, Except.pure]
  rw [h4]
  have h5 : ∃ evs, eventTables JobsExample.exEnv cfg [0.25] (lastV0 [some r]) [some r] [exEvent] = .ok evs := by
    unfold eventTables
    rw [if_pos (by rfl)]
    unfold sourceEvents
    have hrow := rowW_nodup (ids := ["e"]) (by simp) (id := "e") (by simp) [some r]
    obtain ⟨l, hl⟩ := Site.sdsEntries_total (freq := [0.25]) (W := [some r].map (entry (·.W) "e"))
      (v0 := lastV0 [some r]) (rho0 := some cfg.rho0) (by simp) (by norm_num)
    have hk : InvertFb.fromKeys ["e"] = ["e"] := by decide
    have hsmm : cfg.smm = none := rfl
    simp only [List.map_cons, List.map_nil, exId, hk, List.foldlM_cons, List.foldlM_nil, InvertFb.dictGet,
      Dict.get?, if_true, hrow, bind, Except.bind, pure, Except.pure, insertSourceProperties] at hl ⊢
    simp only [hl, hsmm]
    exact ⟨_, rfl⟩
  obtain ⟨evs, h5⟩ := h5
  simp only [bind, Except.bind, Dict.keys, List.map_cons, List.map_nil, h5]
  exact ⟨_, rfl⟩

/-- What is documented by the inversion. -/
noncomputable def documented (c : InvCfg) : Config :=
  { rho0 := some c.rho0, v0 := c.wcfg.v0, smm := c.smm, smo := c.smo }

/-- The events of a simultaneous inversion can be read. -/
theorem simultaneous_read {c : InvCfg} {r : InvRes} (hi : invert JobsExample.exEnv c 1 [] [exEvent] = .ok (some r)) (rlm : List ℝ → ℝ × ℝ) :
    ∃ w, invertWrapper rlm (fun evs => invert JobsExample.exEnv c 1 [] evs) false true .weighted [exEvent] = .ok (some w) ∧
      List.Forall₂ (fun p q => q.1 = p.1 ∧ ReadEvent p.2 q.2) w.events r.events := by
  have hti : ¬ Tie [exEvent] := by
    rintro ⟨a, ha, b, hb, hab, -⟩
    simp at ha hb
    exact hab (ha.trans hb.symm)
  obtain ⟨out, h⟩ := ((C135_simultaneous (rlm := rlm) (mean := .weighted) (codaNorm := false)
    (inv := fun evs => invert JobsExample.exEnv c 1 [] evs) (events := [exEvent]) (by simp)).1).2
    ⟨hti, [exEvent], r, ⟨by rw [List.filter_cons_of_pos (by rfl)]; exact List.Perm.refl _, by simp⟩, by simp, hi⟩
  have hw := h
  obtain ⟨order, ho, h⟩ := bind_ok.1 h
  rw [if_pos rfl] at h
  obtain rfl := orderEvents_one ho
  unfold simultaneously at h
  simp only [hi, bind, Except.bind, pure, Except.pure, Except.ok.injEq] at h
  subst h
  refine ⟨_, hw, ?_⟩
  simp only [Dict.mapVals]
  rw [List.forall₂_map_left_iff, List.forall₂_same]
  intro y hy
  obtain ⟨g1, -⟩ := good_invert hi _ hy
  refine ⟨rfl, rfl, ?_, g1⟩
  intro k h1 _
  unfold eventItems
  rw [Dict.get?, if_neg (Ne.symm h1), Dict.get?_mapVals]

end RecalcExample

open RecalcExample JobsExample TablesExample in
/-- **C146** is violated by the code if events are inverted simultaneously and the velocity is not given as an option:
the velocity is not part of the results of the events, so the recalculation with the documented options removes the
source spectrum. -/
theorem C146_simultaneous_counterexample :
    ∃ (env : Invert.Env) (cfg : InvCfg) (bands : Dict ℝ (ℝ × ℝ)) (events : List Event) (w : WrapRes)
      (evs evs' : Dict String EvRes) (config : Config), (events.map getEventid).Nodup ∧
      getFreqs cfg.freqs = .ok bands ∧ OwnCopies cfg bands 1 [] ∧ cfg.codaNorm = none ∧
      invertWrapper (fun _ => (0, 0)) (fun evs => invert env cfg 1 [] evs) false true .weighted events = .ok (some w) ∧
      Documents config cfg ∧ List.Forall₂ (fun p q => q.1 = p.1 ∧ ReadEvent p.2 q.2) w.events evs ∧ evs ≠ [] ∧
      (∀ q ∈ evs, ∃ l, q.2.extra.get? "sds" = some (.cells l)) ∧
      calculateSourceProperties env.orc config w.freq evs none none none none = .ok evs' ∧
      evs'.map Prod.fst = evs.map Prod.fst ∧ ∀ q ∈ evs', q.2.extra.get? "sds" = none := by
  obtain ⟨r, hi⟩ := invert_free
  obtain ⟨w, h, hr⟩ := simultaneous_read hi (fun _ => (0, 0))
  have hfr : getFreqs cfg.freqs = .ok [(0.25, (0.25 - halfWidth 0.25 1, 0.25 + halfWidth 0.25 1))] := by
    simp [cfg, exCfg, getFreqs, bandsOf, mkDict, Dict.set]
  have own : OwnCopies cfg [(0.25, (0.25 - halfWidth 0.25 1, 0.25 + halfWidth 0.25 1))] 1 [] :=
    ⟨fun hne => absurd rfl hne, Or.inl rfl⟩
  have hd : Documents (documented cfg) cfg := ⟨rfl, rfl, rfl, rfl⟩
  obtain ⟨k1, evs', k2, k3, k4⟩ := simultaneous_lost (m := none) (o := none) (schedule := fun _ => []) (by simp) hfr
    (fun _ => own) rfl rfl (by simp [cfg, exCfg]) h hd hr
  refine ⟨JobsExample.exEnv, cfg, _, [exEvent], w, _, evs', _, by simp, hfr, own, rfl, h, hd, hr, ?_, k1, k2, k3,
    fun q hq => k4 q hq "sds" (by simp)⟩
  obtain ⟨x, hx, -⟩ := invert_insert (events := [exEvent]) (by simp) (rfl : cfg.codaNorm = none) hi
    (List.mem_singleton.2 rfl)
  exact List.ne_nil_of_mem (Dict.mem_of_get? hx)

namespace RecalcExample

theorem get?_filter {α : Type} (d : Dict String α) (p : String → Bool) (k : String) :
    Dict.get? (d.filter (fun x => p x.1)) k = if p k then d.get? k else none := by
  induction d with
  | nil => simp [Dict.get?]
  | cons a d ih =>
    obtain ⟨j, y⟩ := a
    by_cases hj : p j = true
    · rw [List.filter_cons_of_pos (by simpa using hj), Dict.get?_cons, Dict.get?_cons, ih]
      by_cases hjk : j = k
      · subst hjk; simp [hj]
      · simp [hjk]
    · rw [List.filter_cons_of_neg (by simpa using hj), ih, Dict.get?_cons]
      by_cases hjk : j = k
      · subst hjk; simp [hj]
      · simp [hjk]

/-- A value of an event. -/
def toVal : RVal → Val
  | .cell c => .cell c
  | .row l => .cells l
  | .sites _ => .cell .none

/-- The entry of an event in the result of separate inversions, as it is read. -/
def readBack (d : Dict String RVal) : EvRes :=
  ⟨match d.get? "W" with | some (.row l) => l | _ => [], [],
    (Dict.mapVals toVal (d.filter (fun x => decide (x.1 ≠ "W") && decide (x.1 ≠ "R"))))⟩

theorem read_back {d : Dict String RVal} {l : List Cell} (hwf : d.WF) (hW : d.get? "W" = some (.row l))
    (hs : ∀ k s, d.get? k = some (.sites s) → k = "R") : ReadEvent d (readBack d) := by
  refine ⟨by unfold readBack; rw [hW], ?_, ?_⟩
  · intro k h1 h2
    unfold readBack
    simp only
    rw [Dict.get?_mapVals, get?_filter d (fun x => decide (x ≠ "W") && decide (x ≠ "R")), if_pos (by simp [h1, h2])]
    cases hk : d.get? k with
    | none => rfl
    | some y =>
      cases y with
      | cell c => rfl
      | row l => rfl
      | sites s => exact absurd (hs k s hk) h2
  · unfold readBack Dict.WF
    simp only
    rw [Dict.keys_mapVals]
    exact hwf.sublist (List.filter_sublist.map _)

/-- Only the site responses are a table of stations. -/
theorem entry_sites {r : InvRes} {id : String} {d : Dict String RVal} (hx : ∀ x, r.events.get? id = some x → x.extra.WF ∧
      "W" ∉ x.extra.keys) (h : eventEntry false id r = .ok d) :
    ∀ k s, d.get? k = some (.sites s) → k = "R" := by
  intro k s hk
  obtain ⟨b1, b2, b3, b4, b5, b6, b7, b8⟩ := base_get r
  unfold eventEntry at h
  cases hev : r.events.get? id with
  | none => rw [hev] at h; simp at h
  | some x =>
    rw [hev] at h
    simp only at h
    obtain ⟨x1, x2⟩ := hx x hev
    have hiw : (eventItems x).WF := by
      unfold eventItems Dict.WF
      rw [show Dict.keys (("W", RVal.row x.W) :: x.extra.mapVals ofVal) =
        "W" :: (x.extra.mapVals ofVal).keys from rfl, List.nodup_cons, Dict.keys_mapVals]
      exact ⟨x2, x1⟩
    obtain ⟨-, -, hget⟩ := C40_sort_dict_lossless h
    rw [hget (Dict.WF_update b7 _), Dict.get?_update _ _ hiw] at hk
    cases hi : (eventItems x).get? k with
    | some y =>
      rw [hi] at hk
      simp only [Option.some_or, Option.some.injEq] at hk
      subst hk
      unfold eventItems at hi
      rw [Dict.get?_cons, Dict.get?_mapVals] at hi
      split at hi
      · simp at hi
      · cases hz : x.extra.get? k with
        | none => rw [hz] at hi; simp at hi
        | some z => rw [hz] at hi; cases z <;> simp [ofVal] at hi
    | none =>
      rw [hi] at hk
      simp only [Option.none_or] at hk
      have := b8 k (by rw [← Dict.get?_isSome, hk]; rfl)
      simp only [List.mem_cons, List.not_mem_nil, or_false] at this
      rcases this with rfl | rfl | rfl | rfl | rfl | rfl
      · rw [b1] at hk; cases h0 : r.g0 <;> rw [h0] at hk <;> simp at hk
      · rw [b2] at hk; cases h0 : r.b <;> rw [h0] at hk <;> simp at hk
      · rw [b5] at hk; simp at hk
      · rw [b3] at hk; simp at hk
      · rfl
      · rw [b6] at hk; cases h0 : r.v0 <;> rw [h0] at hk <;> simp at hk

open JobsExample TablesExample

/-- The hypotheses of `C146_separate` are met and the result of the recalculation has the event. -/
example (rlm : List ℝ → ℝ × ℝ) : ∃ w evs evs', invertWrapper rlm (fun evs => invert JobsExample.exEnv (exCfg (some 1)) 1 []
      evs) false false .weighted [exEvent] = .ok (some w) ∧ evs ≠ [] ∧
    List.Forall₂ (fun p q => q.1 = p.1 ∧ ReadEvent p.2 q.2) w.events evs ∧
    calculateSourceProperties JobsExample.exEnv.orc (documented (exCfg (some 1))) w.freq evs none none none none =
      .ok evs' ∧ List.Forall₂ UnchangedEvent evs evs' := by
  obtain ⟨res, h⟩ := exInvert
  have hfr : getFreqs (exCfg (some 1)).freqs =
      .ok [(0.25, (0.25 - halfWidth 0.25 1, 0.25 + halfWidth 0.25 1))] := by
    simp [exCfg, getFreqs, bandsOf, mkDict, Dict.set]
  have own : OwnCopies (exCfg (some 1)) [(0.25, (0.25 - halfWidth 0.25 1, 0.25 + halfWidth 0.25 1))] 1 [] :=
    ⟨fun hne => absurd rfl hne, Or.inl rfl⟩
  have hset : IsSetOrder JobsExample.exEnv.setOrder := fun l => ⟨List.nodup_dedup l, fun _ => List.mem_dedup⟩
  have hti : ¬ Tie [exEvent] := by
    rintro ⟨a, ha, b, hb, hab, -⟩
    simp at ha hb
    exact hab (ha.trans hb.symm)
  obtain ⟨o, p1, p2, p4⟩ := Total.separate_total (rlm := rlm) (mean := .weighted) hset (events := [exEvent]) (by simp)
    hfr (schedule := fun _ => []) (fun _ => own.1) rfl hti ⟨exEvent, by simp, rfl⟩
    (fun ev hev _ => by simp at hev; subst hev; exact ⟨rfl, _, h⟩)
  obtain ⟨w, rfl⟩ : ∃ w, o = some w := by
    cases o with
    | some w => exact ⟨w, rfl⟩
    | none => exact absurd ((p2.1 rfl) exEvent (by simp) rfl) (by simp only [h]; simp)
  have p3 : invertWrapper rlm (fun evs => invert JobsExample.exEnv (exCfg (some 1)) 1 [] evs) false false .weighted
    [exEvent] = .ok (some w) := p1
  have key : ∀ p ∈ w.events, p.2.get? "v0" = some (.cell (.num 1)) ∧ ReadEvent p.2 (readBack p.2) := by
    intro p hp
    obtain ⟨ev, hev, hee, r, e1, e2⟩ := wrapper_entry (by simp) p3 hp
    have hv := C144_velocity_partial (events := [ev]) (by simp) hfr own rfl e1
    obtain ⟨x, hx, -⟩ := invert_insert (events := [ev]) (by simp) rfl e1 (List.mem_singleton.2 rfl)
    obtain ⟨d', f1, f0, -, f2⟩ := C40_results_have_known_keys e1 (id := getEventid ev)
      (Or.inl (List.mem_map.2 ⟨_, Dict.mem_of_get? hx, rfl⟩))
    rw [show (exCfg (some 1)).codaNorm.isSome = false from rfl, hee, e2] at f1
    obtain rfl := Except.ok.inj f1
    refine ⟨by rw [f2.v0, hv]; rfl, read_back f0 (by rw [f2.W, hx]; rfl) (entry_sites ?_ e2)⟩
    intro y hy
    obtain ⟨g1, g2⟩ := good_invert e1 _ (Dict.mem_of_get? hy)
    exact ⟨g1, fun hm => absurd (g2 _ hm) (by decide)⟩
  have hne : w.events ≠ [] := by
    exact (p4 w rfl).some_event
  have hr : List.Forall₂ (fun p q => q.1 = p.1 ∧ ReadEvent p.2 q.2) w.events
      (w.events.map (fun p => (p.1, readBack p.2))) := by
    rw [List.forall₂_map_right_iff, List.forall₂_same]
    exact fun p hp => ⟨rfl, (key p hp).2⟩
  obtain ⟨evs', k1, k2⟩ := C146_separate (config := documented (exCfg (some 1))) (m := none) (o := none)
    (schedule := fun _ => []) (by simp) hfr (fun _ => own) rfl p3
    (fun p hp => by rw [(key p hp).1]; simp) ⟨rfl, rfl, rfl, rfl⟩ hr (Or.inl rfl) (Or.inl rfl)
  exact ⟨w, _, evs', p3, by simpa using hne, hr, k1, k2⟩

/-- The hypotheses of `C146_simultaneous_partial` are met. -/
example (rlm : List ℝ → ℝ × ℝ) : ∃ w evs evs', invertWrapper rlm (fun evs => invert JobsExample.exEnv (exCfg (some 1)) 1 []
      evs) false true .weighted [exEvent] = .ok (some w) ∧ evs ≠ [] ∧
    calculateSourceProperties JobsExample.exEnv.orc (documented (exCfg (some 1))) w.freq evs none none none none =
      .ok evs' ∧ List.Forall₂ UnchangedEvent evs evs' := by
  obtain ⟨r, hi⟩ := exInvert
  obtain ⟨w, h, hr⟩ := simultaneous_read hi rlm
  have hfr : getFreqs (exCfg (some 1)).freqs =
      .ok [(0.25, (0.25 - halfWidth 0.25 1, 0.25 + halfWidth 0.25 1))] := by
    simp [exCfg, getFreqs, bandsOf, mkDict, Dict.set]
  have own : OwnCopies (exCfg (some 1)) [(0.25, (0.25 - halfWidth 0.25 1, 0.25 + halfWidth 0.25 1))] 1 [] :=
    ⟨fun hne => absurd rfl hne, Or.inl rfl⟩
  obtain ⟨evs', k1, k2⟩ := C146_simultaneous_partial (config := documented (exCfg (some 1))) (m := none) (o := none)
    (schedule := fun _ => []) (by simp) hfr (fun _ => own) rfl rfl one_ne_zero h ⟨rfl, rfl, rfl, rfl⟩ hr (Or.inl rfl)
    (Or.inl rfl)
  refine ⟨w, _, evs', h, ?_, k1, k2⟩
  obtain ⟨x, hx, -⟩ := invert_insert (events := [exEvent]) (by simp) (rfl : (exCfg (some 1)).codaNorm = none) hi
    (List.mem_singleton.2 rfl)
  exact List.ne_nil_of_mem (Dict.mem_of_get? hx)

end RecalcExample

section

open Run

/-- What a recalculation without method and options documents. -/
theorem C146_documented_nothing {env : Run.Env} {c : Call} {conf : Args} {r : J} (hf : Spec.Conf env c conf)
    (hw : conf.WF) (hw' : c.args.WF) (hc : c.cmd = "recalc_source")
    (ha : ¬ Spec.On ((Spec.option c conf "align_sites").getD (.bool false)))
    (hm : Spec.option c conf "seismic_moment_method" = none) (ho : Spec.option c conf "seismic_moment_options" = none)
    (h : (run env c).out = .ok r) (hr : r ≠ .null) :
    Spec.configEntry r "seismic_moment_method" = some .null ∧
      Spec.configEntry r "seismic_moment_options" = some .null := by
  obtain ⟨r0, r1, kw, h1, -, -, h2⟩ := C98_recalculated hf hw hw' hc ha h hr
  exact ⟨h2.given _ _ (by rw [h1.method, hm]; rfl), h2.given _ _ (by rw [h1.options, ho]; rfl)⟩

namespace RecalcExample

/-- A result of an inversion with a seismic moment. -/
def input : Args := [("events", .dict []), ("config", .dict [("seismic_moment_method", .str "mean"),
  ("seismic_moment_options", .dict [])])]

def env : Run.Env := { AlignExample.env with json := fun _ => .ok (.dict input) }

/-- `recalc_source` without further options. -/
def call : Call := { cmd := "recalc_source"
                     args := [("inventory", .str "stations.xml"), ("logging", .str "x"), ("input", .str "a.json")] }

end RecalcExample

/-- Without a documented method the recalculation removes the seismic moment and what is fitted with it. -/
theorem C146_without_method {orc : Oracle} {config : Config} {freq : List ℝ} {evs evs' : Dict String EvRes}
    {rho : ℝ} (hs : config.smm = none) (hd : config.rho0 = some rho) (hrho : rho ≠ 0)
    (hwf : ∀ q ∈ evs, q.2.extra.WF) (o : Option Opts)
    (h : calculateSourceProperties orc config freq evs none none none o = .ok evs') :
    ∀ q ∈ evs', ∀ k ∈ ["M0", "fc", "n", "gamma", "fit_error"], q.2.extra.get? k = none := by
  unfold calculateSourceProperties at h
  simp only [hd, hs, pyOr, Option.or_none] at h
  rw [if_pos (show truthy (some rho) from hrho)] at h
  intro q hq k hk
  obtain ⟨p, hp, hpq⟩ := forall₂_partner (mapExc_ok.1 h) hq
  obtain ⟨e, he, hpq⟩ := bind_ok.1 hpq
  simp only [pure, Except.pure, Except.ok.injEq] at hpq
  subst hpq
  have hpop : k ∈ poppedKeys ∧ k ≠ "sds" := by
    revert hk k
    decide
  obtain ⟨-, -, c⟩ := recalc_ok _ _ _ _ _ _ _ _ (hwf p hp) he
  rcases c with ⟨-, e1⟩ | ⟨-, L, -, fit, -, hf, e1⟩
  · simp only [e1]
    rw [get?_pops _ _ (hwf p hp), if_pos hpop.1]
  · rcases hf with ⟨-, rfl⟩ | ⟨m, o, hm, -⟩
    · simp only [e1, insertFit]
      rw [Dict.get?_set_ne _ _ (Ne.symm hpop.2), get?_pops _ _ (hwf p hp), if_pos hpop.1]
    · simp at hm

/-- A moment which is removed. -/
example : ∃ evs', calculateSourceProperties JobsExample.exEnv.orc { rho0 := some 1, v0 := none, smm := none, smo := none } [1]
    [("e", ⟨[.none], [], [("M0", .cell (.num 1)), ("Mw", .cell (.num 2))]⟩)] none none none none = .ok evs' ∧
    Dict.WF [("M0", Val.cell (.num 1)), ("Mw", .cell (.num 2))] ∧
    evs' = [("e", ⟨[.none], [], [("Mw", .cell (.num 2))]⟩)] := by
  refine ⟨_, ?_, by unfold Dict.WF; decide, rfl⟩
  simp [calculateSourceProperties, mapExc, recalcEvent, pyOr, truthy, EvRes.v0, poppedKeys, Dict.pop, Dict.get?, bind,
    Except.bind, pure, Except.pure]

open RecalcExample in
/-- **C146** is violated for a second recalculation by the script: a recalculation without method and options uses the
documented ones of the inversion, but afterwards the result documents that there are none. -/
theorem C146_forgotten_counterexample :
    ∃ (env : Run.Env) (c : Call) (r0 r : J), c.cmd = "recalc_source" ∧ Spec.InputWithSites env c [] r0 ∧
      Spec.option c [] "seismic_moment_method" = none ∧ (run env c).out = .ok r ∧
      Spec.configEntry r0 "seismic_moment_method" = some (.str "mean") ∧
      Spec.configEntry r "seismic_moment_method" = some .null ∧
      Spec.configEntry r "seismic_moment_options" = some .null := by
  have hout : (run env call).out = .ok (.dict [("events", .dict []),
      ("config", .dict [("seismic_moment_method", .null), ("seismic_moment_options", .null)]), ("source", .num 1)]) := by
    with_unfolding_all rfl
  refine ⟨env, call, .dict input, _, rfl, ⟨.str "a.json", .dict input, rfl, Or.inl ⟨_, rfl, rfl⟩, fun _ => rfl, ?_⟩, rfl,
    hout, rfl, rfl, rfl⟩
  intro v' h
  simp [Spec.option, call, Dict.get?] at h

open RecalcExample in
/-- The hypotheses of `C146_documented_nothing` are met. -/
example : Spec.Conf env call [] ∧ Dict.WF ([] : Args) ∧ call.args.WF ∧
    ¬ Spec.On ((Spec.option call [] "align_sites").getD (.bool false)) ∧ ∃ r, (run env call).out = .ok r ∧ r ≠ .null :=
  ⟨Or.inl ⟨rfl, rfl⟩, by unfold Dict.WF; decide, by unfold Dict.WF; decide, (off_iff _).2 rfl, .dict [("events", .dict []),
      ("config", .dict [("seismic_moment_method", .null), ("seismic_moment_options", .null)]), ("source", .num 1)],
    by with_unfolding_all rfl, by simp⟩

end

end Qopen
