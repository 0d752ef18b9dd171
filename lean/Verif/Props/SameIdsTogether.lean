import Verif.Props.SameIds
import Verif.Props.OtherBands

/-!
# Events with the same short id which are inverted together (C147)
-/

namespace Qopen

open Real Spec Util Catalog Freqs Source Invert InvertFb

namespace Source

theorem sds_of_insert_any {orc : Oracle} {freq : List ℝ} {e0 e : EvRes} {v rho : ℝ}
    {smm : Option Method} {smo : Option Opts} {mag : Option ℝ} (hv : 0 < v) (hr : 0 < rho) (hW : e0.W ≠ [])
    (h : insertSourceProperties orc freq e0 (some v) (some rho) smm smo mag = .ok e) :
    ∃ L, e.extra.get? "sds" = some (.cells L) ∧ L.length = freq.length ∧
      ∀ (i : ℕ) f w, freq[i]? = some f → e0.W[i]? = some (.num w) → 0 < f → 0 < w →
        L[i]? = some (.num (sqrt (5 * w * rho * v ^ 5 / (2 * π * f ^ 2)))) := by
  unfold insertSourceProperties at h
  obtain ⟨L, hL, h⟩ := bind_ok.1 h
  have hst : sdsStart e0 (some v) (some rho) = [] := by
    unfold sdsStart
    rw [if_pos ⟨hW, (hr.ne' : rho ≠ 0), (hv.ne' : v ≠ 0)⟩]
  simp only [hst, List.nil_append] at h
  refine ⟨L, ?_, by have := mapExc_length hL; simpa using this, ?_⟩
  · cases smm with
    | none =>
      simp only [pure, Except.pure, Except.ok.injEq] at h
      subst h
      simp only [Dict.get?_set_self]
    | some m =>
      cases smo with
      | none => simp [throw, throwThe, MonadExceptOf.throw] at h
      | some o =>
        obtain ⟨fit, hfit, h⟩ := bind_ok.1 h
        simp only [pure, Except.pure, Except.ok.injEq] at h
        subst h
        have : (insertFit (Dict.set e0.extra "sds" (.cells L)) fit).get? "sds" = some (.cells L) := by
          cases fit with
          | none => simp only [insertFit, Dict.get?_set_self]
          | some r =>
            obtain ⟨-, hk⟩ := fitSds_keys orc freq L m o r hfit
            rw [insertFit_other _ _ hk _ (by decide) (by decide), Dict.get?_set_self]
        cases mag with
        | none => exact this
        | some x => simpa only [Dict.get?_set_ne _ _ (show "Mcat" ≠ "sds" by decide)] using this
  · intro i f w hf hw hf0 hw0
    have hz : freq.zipIdx[i]? = some (f, i) := by simp [List.getElem?_zipIdx, hf]
    obtain ⟨c, h1, h2⟩ := forall₂_at (mapExc_ok.1 hL) hz
    obtain ⟨w', hw', h2⟩ := bind_ok.1 h2
    unfold pyGet at hw'
    simp only [hw] at hw'
    obtain rfl := Except.ok.inj hw'
    simp only at h2
    rw [if_pos ⟨hw0.ne', hv.ne', hr.ne'⟩] at h2
    simp only [sdsCell] at h2
    obtain ⟨x, hsx, hx0, hx2⟩ := C65_value w f v rho hw0 hf0 hv hr
    rw [hsx] at h2
    simp only [Except.ok.injEq] at h2
    rw [h1, ← h2, ← hx2, sqrt_sq hx0.le]

end Source

namespace Invert

/-- The loop over the events with any ids. -/
theorem sourceFold_any {orc : Oracle} {rho0 : Option ℝ} {smm : Option Method} {smo : Option Opts}
    {freq : List ℝ} {v0 : Option ℝ} {mag : Event → Option ℝ}
    {events : List Event} {d d' : Dict String EvRes}
    (h : events.foldlM (fun d ev => do
      let e ← dictGet d (getEventid ev)
      let e ← insertSourceProperties orc freq e v0 rho0 smm smo (mag ev)
      return Dict.set d (getEventid ev) e) d = .ok d') :
    ∀ k ∈ events.map getEventid, ∃ e e0 e', d.get? k = some e ∧ d'.get? k = some e' ∧ e0.W = e.W ∧ e'.W = e.W ∧
      ∃ ev ∈ events, insertSourceProperties orc freq e0 v0 rho0 smm smo (mag ev) = .ok e' := by
  induction events using List.reverseRecOn generalizing d' with
  | nil => simp
  | append_singleton l ev ih =>
    rw [List.foldlM_append] at h
    obtain ⟨m, hm, h⟩ := bind_ok.1 h
    have ih := ih hm
    simp only [List.foldlM_cons, List.foldlM_nil] at h
    obtain ⟨m', hm', h⟩ := bind_ok.1 h
    simp only [pure, Except.pure, Except.ok.injEq] at h
    subst h
    obtain ⟨e, he, hm'⟩ := bind_ok.1 hm'
    obtain ⟨e2, he2, hm'⟩ := bind_ok.1 hm'
    simp only [pure, Except.pure, Except.ok.injEq] at hm'
    subst hm'
    have he' : m.get? (getEventid ev) = some e := by
      unfold dictGet at he
      split at he
      · rename_i v hv; rw [hv]; cases he; rfl
      · simp at he
    have hout : ∀ (l : List Event) (d m : Dict String EvRes), l.foldlM (fun d ev => do
        let e ← dictGet d (getEventid ev)
        let e ← insertSourceProperties orc freq e v0 rho0 smm smo (mag ev)
        return Dict.set d (getEventid ev) e) d = .ok m →
        ∀ k ∉ l.map getEventid, m.get? k = d.get? k := by
      intro l
      induction l with
      | nil =>
        intro d m hm k _
        simp only [List.foldlM_nil, pure, Except.pure, Except.ok.injEq] at hm
        rw [hm]
      | cons a l ih2 =>
        intro d m hm k hk
        rw [List.foldlM_cons] at hm
        obtain ⟨y, hy, hm⟩ := bind_ok.1 hm
        obtain ⟨_, _, hy⟩ := bind_ok.1 hy
        obtain ⟨_, _, hy⟩ := bind_ok.1 hy
        simp only [pure, Except.pure, Except.ok.injEq] at hy
        subst hy
        simp only [List.map_cons, List.mem_cons, not_or] at hk
        rw [ih2 _ _ hm k hk.2, Dict.get?_set_ne _ _ (Ne.symm hk.1)]
    intro k hk
    by_cases hkk : getEventid ev = k
    · subst hkk
      by_cases hold : getEventid ev ∈ l.map getEventid
      · obtain ⟨x, x0, x', g1, g2, g3, g4, -⟩ := ih _ hold
        rw [he'] at g2
        obtain rfl := Option.some.inj g2
        exact ⟨x, e, e2, g1, Dict.get?_set_self _ _ _, g4, (insert_W he2).1.trans g4, ev, by simp, he2⟩
      · rw [hout l d m hm _ hold] at he'
        exact ⟨e, e, e2, he', Dict.get?_set_self _ _ _, rfl, (insert_W he2).1, ev, by simp, he2⟩
    · rw [List.map_append, List.mem_append] at hk
      rcases hk with hk | hk
      · obtain ⟨x, x0, x', g1, g2, g3, g4, ev', hev', g5⟩ := ih _ hk
        refine ⟨x, x0, x', g1, ?_, g3, g4, ev', by simp [hev'], g5⟩
        rw [Dict.get?_set_ne _ _ hkk]
        exact g2
      · simp only [List.map_cons, List.map_nil, List.mem_singleton] at hk
        exact absurd hk.symm hkk

/-- The loop over the events keeps the keys. -/
theorem sourceFold_keys {orc : Oracle} {rho0 : Option ℝ} {smm : Option Method} {smo : Option Opts}
    {freq : List ℝ} {v0 : Option ℝ} {mag : Event → Option ℝ}
    {events : List Event} {d d' : Dict String EvRes}
    (h : events.foldlM (fun d ev => do
      let e ← dictGet d (getEventid ev)
      let e ← insertSourceProperties orc freq e v0 rho0 smm smo (mag ev)
      return Dict.set d (getEventid ev) e) d = .ok d') : d'.keys = d.keys := by
  induction events generalizing d with
  | nil =>
    simp only [List.foldlM_nil, pure, Except.pure, Except.ok.injEq] at h
    rw [h]
  | cons ev l ih =>
    rw [List.foldlM_cons] at h
    obtain ⟨y, hy, h⟩ := bind_ok.1 h
    obtain ⟨e, he, hy⟩ := bind_ok.1 hy
    obtain ⟨_, _, hy⟩ := bind_ok.1 hy
    simp only [pure, Except.pure, Except.ok.injEq] at hy
    subst hy
    rw [ih h]
    apply Dict.keys_set_of_mem
    unfold dictGet at he
    split at he
    · rename_i v hv
      rw [← Dict.get?_isSome, hv]
      rfl
    · simp at he

theorem keys_of_invert {env : Env} {cfg : InvCfg} {cpus : ℕ} {schedule : List ℕ} {events : List Event}
    {bands : Dict ℝ (ℝ × ℝ)} {res : InvRes} (hc : cfg.codaNorm = none) (hb : getFreqs cfg.freqs = .ok bands)
    (h : invert env cfg cpus schedule events = .ok (some res)) :
    res.events.keys = fromKeys (events.map getEventid) ∧ res.freq = bands.keys := by
  unfold invert at h
  split at h
  · simp at h
  rw [hb] at h
  simp only [bind, Except.bind] at h
  split at h
  · simp at h
  rename_i streams hst
  cases streams with
  | none => simp [pure, Except.pure] at h
  | some streams =>
    simp only at h
    obtain ⟨origins, ho, h⟩ := bind_ok.1 h
    obtain ⟨stations, hsta, h⟩ := bind_ok.1 h
    obtain ⟨args, hargs, h⟩ := bind_ok.1 h
    obtain ⟨rlist, hr, h⟩ := bind_ok.1 h
    unfold tables at h
    split at h
    · simp at h
    obtain ⟨err, herr, h⟩ := bind_ok.1 h
    simp only at h
    obtain ⟨evs, hevs, h⟩ := bind_ok.1 h
    simp only [pure, Except.pure, Except.ok.injEq, Option.some.injEq] at h
    subst h
    refine ⟨?_, rfl⟩
    unfold eventTables at hevs
    rw [hc] at hevs
    simp only [Option.isNone_none, if_true] at hevs
    unfold sourceEvents at hevs
    simp only
    rw [sourceFold_keys hevs]
    simp [Dict.keys, Function.comp_def]

/-- Entries which are repeated `k` times. -/
theorem repeated_get {α β : Type} {f : α → β} {k : ℕ} (hk : 0 < k) (l : List α) (i : ℕ) :
    (l.flatMap (fun r => List.replicate k (f r)))[i]? = (l.map f)[i / k]? := by
  induction l generalizing i with
  | nil => simp
  | cons a l ih =>
    rw [List.flatMap_cons, List.map_cons]
    by_cases hi : i < k
    · rw [List.getElem?_append_left (by simpa using hi), List.getElem?_replicate, if_pos hi, Nat.div_eq_of_lt hi]
      rfl
    · push Not at hi
      rw [List.getElem?_append_right (by simpa using hi), List.length_replicate, ih]
      have : i / k = (i - k) / k + 1 := by
        rw [← Nat.add_div_right _ hk, Nat.sub_add_cancel hi]
      rw [this, List.getElem?_cons_succ]

end Invert

/-- **C147** for events which are inverted together, `k` of them with the same short id: the energies of the id are
those of one event (`row`: its energy in each band), but each of them is reported `k` times in succession, and the
spectrum of the band with number `i` is calculated from the energy of the band with number `i / k`.  For `k = 1` these
are the correct values. -/
theorem C147_together {env : Env} {cfg : InvCfg} {cpus : ℕ} {schedule : List ℕ} {events : List Event}
    {bands : Dict ℝ (ℝ × ℝ)} {res : InvRes} (hc : cfg.codaNorm = none) (hb : getFreqs cfg.freqs = .ok bands)
    (hs : Spec.Schedule cfg (bands.map Prod.snd) cpus schedule)
    (h : invert env cfg cpus schedule events = .ok (some res))
    {id : String} {k : ℕ} (hk : (events.map getEventid).count id = k) (hpos : 0 < k) :
    ∃ args selected streams rlist row e, bandArgs cfg bands = .ok args ∧
      selectStreams env cfg events = .ok (some selected) ∧
      List.Forall₂ (Spec.SameData cfg.ignoreNetworkCode) selected streams ∧
      runBands env cfg args streams (bands.map Prod.snd) cpus schedule = .ok rlist ∧
      rlist.length = bands.length ∧ Spec.IsKeyRow (·.W) id rlist row ∧
      res.events.get? id = some e ∧ e.W.length = k * bands.length ∧ (∀ i, e.W[i]? = row[i / k]?) ∧
      ∀ v, res.v0 = some v → 0 < v → 0 < cfg.rho0 →
        ∃ L, e.extra.get? "sds" = some (.cells L) ∧ L.length = bands.length ∧
          ∀ (i : ℕ) f w, bands.keys[i]? = some f → row[i / k]? = some (.num w) → 0 < f → 0 < w →
            L[i]? = some (.num (sqrt (5 * w * cfg.rho0 * v ^ 5 / (2 * π * f ^ 2)))) := by
  unfold invert at h
  split at h
  · simp at h
  rw [hb] at h
  simp only [bind, Except.bind] at h
  split at h
  · simp at h
  rename_i streams hst
  cases streams with
  | none => simp [pure, Except.pure] at h
  | some streams =>
    simp only at h
    obtain ⟨origins, ho, h⟩ := bind_ok.1 h
    obtain ⟨stations, hsta, h⟩ := bind_ok.1 h
    obtain ⟨args, hargs, h⟩ := bind_ok.1 h
    obtain ⟨rlist, hr, h⟩ := bind_ok.1 h
    have hlen := runBands_length hs hr
    have hfields := fun (r : BandResult) (hm : some r ∈ rlist) =>
      runBand_fields (runBands_mem hs hr hm).choose_spec.choose_spec
    unfold tables at h
    split at h
    · simp at h
    rename_i hnone
    have hr0 : rlist ≠ [] := by
      rintro rfl
      simp at hnone
    obtain ⟨err, herr, h⟩ := bind_ok.1 h
    simp only at h
    obtain ⟨evs, hevs, h⟩ := bind_ok.1 h
    unfold eventTables at hevs
    rw [hc] at hevs
    simp only [Option.isNone_none, if_true] at hevs
    simp only [pure, Except.pure, Except.ok.injEq, Option.some.injEq] at h
    subst h
    unfold sourceEvents at hevs
    have hid : id ∈ events.map getEventid := List.count_pos_iff.1 (by rw [hk]; exact hpos)
    obtain ⟨x, e0, e, g1, g2, g3, g4, ev, -, g5⟩ :=
      sourceFold_any (mag := fun ev => getMagnitude (eventOf events ev)) hevs id hid
    have hrow : rowW (events.map getEventid) rlist id =
        rlist.flatMap (fun r => List.replicate k (entry (·.W) id r)) := by
      unfold rowW
      congr 1
      funext r
      rw [List.map_const', ← hk, List.count, List.countP_eq_length_filter]
      congr 3
    have hx : x.W = rlist.flatMap (fun r => List.replicate k (entry (·.W) id r)) := by
      have := Dict.mem_of_get? g1
      simp only [List.mem_map, Prod.mk.injEq] at this
      obtain ⟨id', -, rfl, rfl⟩ := this
      exact hrow
    have hW : ∀ i, x.W[i]? = (rlist.map (entry (·.W) id))[i / k]? := by
      intro i
      rw [hx, repeated_get hpos]
    have hWl : x.W.length = k * bands.length := by
      rw [hx, List.length_flatMap]
      simp only [List.length_replicate, List.map_const', List.sum_replicate, smul_eq_mul]
      rw [hlen, List.length_map, mul_comm]
    refine ⟨args, streams, _, rlist, rlist.map (entry (·.W) id), e, hargs, hst, ignoreNetworks_spec _ _ _, hr,
      by simpa using hlen, ?_, g2, by rw [g4, hWl], by rw [g4]; exact hW, ?_⟩
    · apply keyRow
      intro r hm
      obtain ⟨-, -, h4, -, h6, -⟩ := hfields r hm
      obtain ⟨d, hd⟩ := Option.isSome_iff_exists.1 (h4.2 hc)
      exact ⟨d, hd, h6 d hd⟩
    · intro v hv hv0 hrho
      simp only at hv
      rw [hv] at g5
      have hne : e0.W ≠ [] := by
        rw [g3, ← List.length_pos_iff, hWl]
        have : 0 < rlist.length := List.length_pos_iff.2 hr0
        rw [hlen, List.length_map] at this
        positivity
      obtain ⟨L, l1, l2, l3⟩ := sds_of_insert_any hv0 hrho hne g5
      refine ⟨L, l1, by rw [l2]; simp [Dict.keys], ?_⟩
      intro i f w hf hw hf0 hw0
      exact l3 i f w hf (by rw [g3, hW i]; exact hw) hf0 hw0

namespace SameIdsExample

open JobsExample TablesExample

theorem id_first : getEventid (event "a/e" 0) = "e" := by
  have : lastPart '/' "a/e".toList = ['e'] := by decide
  exact congrArg String.ofList this

theorem id_second : getEventid (event "b/e" 8) = "e" := by
  have : lastPart '/' "b/e".toList = ['e'] := by decide
  exact congrArg String.ofList this

/-- Two events with the same id which are inverted together. -/
theorem invert_two_same : ∃ res, invert env (exCfg (some 1)) 1 [] [event "a/e" 0, event "b/e" 8] = .ok (some res) := by
  refine invert_of (t := 8) ?_ (orc := env.orc) rfl (smm := none) (smo := none) rfl (sources_total ?_ (by simp))
  · unfold originsOf
    have h : ∀ name t, getOrigin (event name t) = .ok (ori t) := fun _ _ => rfl
    simp [id_first, id_second, h, bind, Except.bind, pure, Except.pure, Dict.set]
  · simp [id_first, id_second]

end SameIdsExample

open SameIdsExample JobsExample in
/-- **C147** is false for events which are inverted together: with two events with the same short id and one
frequency, the result has one entry with two energies. -/
theorem C147_together_counterexample : ∃ (env : Env) (cfg : InvCfg) (first second : Event) (res : InvRes) (e : EvRes),
    first.resourceId ≠ second.resourceId ∧ invert env cfg 1 [] [first, second] = .ok (some res) ∧
      res.freq.length = 1 ∧ res.events = [("e", e)] ∧ e.W.length = 2 := by
  obtain ⟨res, h⟩ := invert_two_same
  have hids : [event "a/e" 0, event "b/e" 8].map getEventid = ["e", "e"] := by simp [id_first, id_second]
  obtain ⟨_, _, _, _, _, e, -, -, -, -, -, -, he, hl, -⟩ := C147_together (id := "e") (k := 2) rfl bands
    (fun hne => absurd rfl hne) h (by rw [hids]; decide) (by norm_num)
  obtain ⟨hk1, hk2⟩ := keys_of_invert rfl bands h
  rw [hids, show fromKeys ["e", "e"] = ["e"] by decide] at hk1
  have hk : res.events.keys = ["e"] ∧ res.freq = [0.25] := ⟨hk1, hk2⟩
  refine ⟨env, exCfg (some 1), event "a/e" 0, event "b/e" 8, res, e, by decide, h, by rw [hk.2]; rfl, ?_, ?_⟩
  · match hres : res.events, hk.1 with
    | [(a, b)], hk =>
      simp only [Dict.keys, List.map_cons, List.map_nil, List.cons.injEq, and_true] at hk
      subst hk
      rw [hres] at he
      simp only [Dict.get?, if_true, Option.some.injEq] at he
      rw [he]
  · rw [hl]
    rfl

end Qopen
