import Verif.Props.Jobs
import Verif.Props.SourceRecalc
import Verif.Props.Freqs
import Mathlib.Data.List.TakeWhile

/-!
# C23, C27: result tables and fixed attenuation
-/

namespace Qopen

open Real Util Tr Energy InvertFb Window Invert Freqs Catalog Source

/-! ## C23 -/

namespace Spec

/-- An order in which a pool may finish its tasks: each of them once; without a pool there are no
tasks. -/
def Schedule (cfg : InvCfg) (bands : List (ℝ × ℝ)) (cpus : ℕ) (schedule : List ℕ) : Prop :=
  cfg.njobs ≠ some 1 → schedule.Perm
    (List.range (chunks (chunkSize bands.length (cfg.njobs.getD cpus)) bands).length)

end Spec

namespace Invert

theorem rowW_nodup {ids : List String} (hn : ids.Nodup) {id : String} (hid : id ∈ ids)
    (rlist : List (Option BandResult)) :
    rowW ids rlist id = rlist.map (entry (·.W) id) := by
  have h1 : ids.filter (fun i => decide (i = id)) = [id] := by
    have : (fun i : String => decide (i = id)) = (fun i => i == id) := by
      funext i; rw [Bool.eq_iff_iff]; simp
    rw [this, List.filter_beq, List.count_eq_one_of_mem hn hid]
    rfl
  unfold rowW
  rw [h1]
  induction rlist with
  | nil => rfl
  | cons a l ih => rw [List.flatMap_cons, ih]; rfl

theorem insert_W {orc : Oracle} {freq : List ℝ} {ev ev' : EvRes} {v0 rho0 : Option ℝ}
    {smm : Option Method} {smo : Option Opts} {m : Option ℝ}
    (h : insertSourceProperties orc freq ev v0 rho0 smm smo m = .ok ev') :
    ev'.W = ev.W ∧ ev'.R = ev.R := by
  unfold insertSourceProperties at h
  obtain ⟨L, hL, h⟩ := bind_ok.1 h
  simp only at h
  cases smm with
  | none =>
    simp only [pure, Except.pure, Except.ok.injEq] at h
    subst h
    exact ⟨rfl, rfl⟩
  | some mm =>
    cases smo with
    | none => simp [throw, throwThe, MonadExceptOf.throw] at h
    | some o =>
      obtain ⟨fit, hf, h⟩ := bind_ok.1 h
      simp only [pure, Except.pure, Except.ok.injEq] at h
      subst h
      exact ⟨rfl, rfl⟩

theorem eventOf_nodup {events : List Event} (hn : (events.map getEventid).Nodup) {ev : Event} (hev : ev ∈ events) :
    eventOf events ev = ev := by
  unfold eventOf
  cases hf : events.reverse.find? (fun e => decide (getEventid e = getEventid ev)) with
  | none => rfl
  | some e =>
    have h1 := List.find?_some hf
    have h2 := List.mem_reverse.1 (List.mem_of_find?_eq_some hf)
    exact List.inj_on_of_nodup_map hn h2 hev (by simpa using h1)

theorem foldlM_congr_mem {α β : Type} {f g : β → α → Py β} {l : List α} (h : ∀ x ∈ l, ∀ d, f d x = g d x) (d : β) :
    l.foldlM f d = l.foldlM g d := by
  induction l generalizing d with
  | nil => rfl
  | cons x l ih =>
    rw [List.foldlM_cons, List.foldlM_cons, h x (by simp)]
    congr 1
    funext d'
    exact ih (fun y hy => h y (by simp [hy])) d'

/-- Without equal ids each event has its own magnitude. -/
theorem sourceEvents_nodup {env : Env} {cfg : InvCfg} {freq : List ℝ} {v0 : Option ℝ}
    {rlist : List (Option BandResult)} {events : List Event} (hn : (events.map getEventid).Nodup) :
    sourceEvents env cfg freq v0 rlist events =
      events.foldlM (fun d ev => do
        let e ← dictGet d (getEventid ev)
        let e ← insertSourceProperties env.orc freq e v0 (some cfg.rho0) cfg.smm cfg.smo (getMagnitude ev)
        return Dict.set d (getEventid ev) e)
      ((fromKeys (events.map getEventid)).map
        (fun id => (id, ⟨rowW (events.map getEventid) rlist id, [], []⟩))) := by
  unfold sourceEvents
  apply foldlM_congr_mem
  intro ev hev d
  rw [eventOf_nodup hn hev]

theorem sourceFold_spec {env : Env} {cfg : InvCfg} {freq : List ℝ} {v0 : Option ℝ}
    {events : List Event} {d d' : Dict String EvRes} (hd : d.WF)
    (h : events.foldlM (fun d ev => do
      let e ← dictGet d (getEventid ev)
      let e ← insertSourceProperties env.orc freq e v0 (some cfg.rho0) cfg.smm cfg.smo
        (getMagnitude ev)
      return Dict.set d (getEventid ev) e) d = .ok d') :
    d'.keys = d.keys ∧ ∀ k e', d'.get? k = some e' → ∃ e, d.get? k = some e ∧ e'.W = e.W := by
  induction events generalizing d with
  | nil =>
    simp only [List.foldlM_nil, pure, Except.pure, Except.ok.injEq] at h
    subst h
    exact ⟨rfl, fun k e' h => ⟨e', h, rfl⟩⟩
  | cons ev events ih =>
    rw [List.foldlM_cons] at h
    obtain ⟨m, hm, h⟩ := bind_ok.1 h
    obtain ⟨e, he, hm⟩ := bind_ok.1 hm
    obtain ⟨e2, he2, hm⟩ := bind_ok.1 hm
    simp only [pure, Except.pure, Except.ok.injEq] at hm
    subst hm
    have he' : d.get? (getEventid ev) = some e := by
      unfold dictGet at he
      split at he
      · rename_i v hv; rw [hv]; cases he; rfl
      · simp at he
    have hk : getEventid ev ∈ d.keys := by
      rw [← Dict.get?_isSome, he']; rfl
    obtain ⟨h1, h2⟩ := ih (Dict.WF_set hd _ _) h
    refine ⟨by rw [h1, Dict.keys_set_of_mem _ hk], ?_⟩
    intro k e' hke
    obtain ⟨e3, h3, h4⟩ := h2 k e' hke
    by_cases hkk : getEventid ev = k
    · subst hkk
      rw [Dict.get?_set_self] at h3
      cases h3
      exact ⟨e, he', h4.trans (insert_W he2).1⟩
    · rw [Dict.get?_set_ne _ _ hkk] at h3
      exact ⟨e3, h3, h4⟩

theorem fromKeys_nodup {α : Type} [DecidableEq α] {l : List α} (h : l.Nodup) : fromKeys l = l := by
  unfold fromKeys
  rw [List.dedup_eq_self.2 (List.nodup_reverse.2 h), List.reverse_reverse]

theorem sourceEvents_spec {env : Env} {cfg : InvCfg} {freq : List ℝ} {v0 : Option ℝ}
    {rlist : List (Option BandResult)} {events : List Event} {d' : Dict String EvRes}
    (hn : (events.map getEventid).Nodup)
    (h : sourceEvents env cfg freq v0 rlist events = .ok d') :
    d'.keys = events.map getEventid ∧
    ∀ id e, d'.get? id = some e →
      e.W = rlist.map (entry (·.W) id) := by
  rw [sourceEvents_nodup hn, fromKeys_nodup hn] at h
  have hk : Dict.keys ((events.map getEventid).map (fun id =>
      (id, (⟨rowW (events.map getEventid) rlist id, [], []⟩ : EvRes)))) = events.map getEventid := by
    simp [Dict.keys, Function.comp_def]
  obtain ⟨h1, h2⟩ := sourceFold_spec (by unfold Dict.WF; rw [hk]; exact hn) h
  refine ⟨h1.trans hk, ?_⟩
  intro id e he
  obtain ⟨e0, h3, h4⟩ := h2 id e he
  have h5 := Dict.mem_of_get? h3
  simp only [List.map_map, List.mem_map, Function.comp, Prod.mk.injEq] at h5
  obtain ⟨ev, hev, rfl, rfl⟩ := h5
  rw [h4]
  exact rowW_nodup hn (List.mem_map.2 ⟨ev, hev, rfl⟩) rlist

theorem chunks_flatten {α : Type} {n : ℕ} (hn : n ≠ 0) (l : List α) : (chunks n l).flatten = l := by
  induction h : l.length using Nat.strong_induction_on generalizing l with
  | _ m ih =>
    unfold chunks
    by_cases h0 : l = []
    · rw [dif_pos (Or.inr h0), h0]; rfl
    · rw [dif_neg (by push Not; exact ⟨hn, h0⟩), List.flatten_cons]
      have := List.length_pos_iff.2 h0
      rw [ih (l.drop n).length (by rw [List.length_drop]; omega) _ rfl, List.take_append_drop]

theorem runShared_length {env : Env} {cfg : InvCfg} {args : BandArgs} {streams : List Stream}
    {bands : List (ℝ × ℝ)} {r : List (Option BandResult)}
    (h : runShared env cfg args streams bands = .ok r) : r.length = bands.length := by
  induction bands generalizing streams r with
  | nil =>
    unfold runShared at h
    simp only [Except.ok.injEq] at h
    rw [← h, List.length_nil, List.length_nil]
  | cons b bands ih =>
    unfold runShared at h
    obtain ⟨x, hx, h⟩ := bind_ok.1 h
    obtain ⟨rs, hrs, h⟩ := bind_ok.1 h
    simp only [pure, Except.pure, Except.ok.injEq] at h
    rw [← h, List.length_cons, List.length_cons, ih hrs]

theorem flatten_length {α β : Type} {f : List α → Py (List β)} (hf : ∀ c r, f c = .ok r → r.length = c.length)
    {cs : List (List α)} {rs : List (List β)} (h : mapExc f cs = .ok rs) :
    rs.flatten.length = cs.flatten.length := by
  replace h := mapExc_ok.1 h
  induction h with
  | nil => rfl
  | cons h1 _ ih => rw [List.flatten_cons, List.flatten_cons, List.length_append, List.length_append, ih, hf _ _ h1]

theorem chunkSize_ne_zero {n workers : ℕ} (hn : n ≠ 0) : chunkSize n workers ≠ 0 := by
  unfold chunkSize
  split
  · rename_i h
    intro h0
    have := Nat.div_add_mod n (workers * 4)
    rw [h, h0, Nat.mul_zero] at this
    exact hn this.symm
  · exact Nat.succ_ne_zero _

theorem runBands_length {env : Env} {cfg : InvCfg} {args : BandArgs} {streams : List Stream}
    {bands : List (ℝ × ℝ)} {cpus : ℕ} {schedule : List ℕ} {r : List (Option BandResult)}
    (hs : Spec.Schedule cfg bands cpus schedule)
    (h : runBands env cfg args streams bands cpus schedule = .ok r) : r.length = bands.length := by
  unfold runBands at h
  split at h
  · rw [C24_sequential] at h
    exact mapExc_length h
  · rename_i h1
    split at h
    · simp at h
    · obtain ⟨rs, h2, rfl⟩ := (pool_spec _ _ _ (hs h1) _).1 h
      rw [flatten_length (fun c r => runShared_length) h2]
      by_cases h0 : bands = []
      · subst h0
        unfold chunks
        simp
      · rw [chunks_flatten (chunkSize_ne_zero (fun h => h0 (List.length_eq_zero_iff.1 h)))]

theorem runShared_mem {env : Env} {cfg : InvCfg} {args : BandArgs} {streams : List Stream}
    {bands : List (ℝ × ℝ)} {rs : List (Option BandResult)} {r : Option BandResult}
    (h : runShared env cfg args streams bands = .ok rs) (hr : r ∈ rs) :
    ∃ streams' band, runBand env cfg args streams' band = .ok r := by
  induction bands generalizing streams rs with
  | nil =>
    unfold runShared at h
    simp only [Except.ok.injEq] at h
    rw [← h] at hr
    simp at hr
  | cons b bands ih =>
    unfold runShared at h
    obtain ⟨x, hx, h⟩ := bind_ok.1 h
    obtain ⟨rs', hrs, h⟩ := bind_ok.1 h
    simp only [pure, Except.pure, Except.ok.injEq] at h
    rw [← h] at hr
    rcases List.mem_cons.1 hr with rfl | hr
    · unfold runBandInPlace at hx
      obtain ⟨y, hy, hx⟩ := bind_ok.1 hx
      simp only [pure, Except.pure, Except.ok.injEq] at hx
      rw [← hx]
      exact ⟨_, _, hy⟩
    · exact ih hrs hr

theorem mapExc_mem {α β : Type} {f : α → Py β} {l : List α} {rs : List β} {r : β}
    (h : mapExc f l = .ok rs) (hr : r ∈ rs) : ∃ a ∈ l, f a = .ok r := by
  replace h := mapExc_ok.1 h
  induction h with
  | nil => simp at hr
  | cons h1 _ ih =>
    rcases List.mem_cons.1 hr with rfl | hr
    · exact ⟨_, by simp, h1⟩
    · obtain ⟨a, ha, h2⟩ := ih hr
      exact ⟨a, by simp [ha], h2⟩

/-- Every band result is the outcome of an inversion of the band. -/
theorem runBands_mem {env : Env} {cfg : InvCfg} {args : BandArgs} {streams : List Stream}
    {bands : List (ℝ × ℝ)} {cpus : ℕ} {schedule : List ℕ} {rs : List (Option BandResult)}
    {r : Option BandResult} (hs : Spec.Schedule cfg bands cpus schedule)
    (h : runBands env cfg args streams bands cpus schedule = .ok rs) (hr : r ∈ rs) :
    ∃ streams' band, runBand env cfg args streams' band = .ok r := by
  unfold runBands at h
  split at h
  · rw [C24_sequential] at h
    obtain ⟨b, -, hb⟩ := mapExc_mem h hr
    exact ⟨_, b, hb⟩
  · rename_i h1
    split at h
    · simp at h
    · obtain ⟨rs', h2, rfl⟩ := (pool_spec _ _ _ (hs h1) _).1 h
      obtain ⟨l, hl, hr⟩ := List.mem_flatten.1 hr
      obtain ⟨c, -, hc⟩ := mapExc_mem h2 hl
      exact runShared_mem hc hr

theorem fromKeys_nodup_list {α : Type} [DecidableEq α] (l : List α) : (fromKeys l).Nodup := by
  unfold fromKeys
  exact List.nodup_reverse.2 (List.nodup_dedup _)

theorem WF_zip {β : Type} {l : List String} (h : l.Nodup) (m : List β) :
    Dict.WF (l.zip m : Dict String β) := by
  unfold Dict.WF Dict.keys
  refine h.sublist ?_
  clear h
  induction l generalizing m with
  | nil => simp
  | cons a l ih =>
    cases m with
    | nil => simp
    | cons b m => simpa using ih m

theorem ite_some {α : Type} {p : Prop} [Decidable p] {a d : α}
    (h : (if p then some a else none) = some d) : a = d := by
  by_cases hp : p
  · rw [if_pos hp] at h; exact Option.some.inj h
  · rw [if_neg hp] at h; simp at h

theorem isSome_ite {α : Type} (p : Prop) [Decidable p] (a : α) :
    (if p then some a else none).isSome = true ↔ p := by
  by_cases h : p <;> simp [h]

theorem invertFb_fields {lib : Lib} {wls : List ℝ → List (List ℝ) → List ℝ → List ℝ × ℝ}
    {G : Greens} {minimize : (ℝ → Py (WithTop ℝ)) → Py ℝ} {cfg : WCfg} {inv : Cfg}
    {streams : List Stream} {r : BandResult}
    (h : invertFb lib wls G minimize cfg inv streams = .ok (some r)) :
    (r.g0.isSome ↔ inv.fix = false) ∧ (r.b.isSome ↔ inv.fix = false) ∧
    (r.W.isSome ↔ cfg.codaNorm = none) ∧
    (r.R.isSome ↔ cfg.fixSites = false ∧ cfg.codaNorm = none) ∧
    (∀ d, r.W = some d → d.WF) ∧ ∀ d, r.R = some d → d.WF := by
  unfold invertFb at h
  split at h
  · simp at h
  · obtain ⟨trs, -, h⟩ := bind_ok.1 h
    split at h
    · simp [pure, Except.pure] at h
    · obtain ⟨st, -, h⟩ := bind_ok.1 h
      split at h
      · simp [pure, Except.pure] at h
      · unfold solveBand at h
        obtain ⟨fit, -, h⟩ := bind_ok.1 h
        simp only [pure, Except.pure, Except.ok.injEq, Option.bind_eq_some_iff] at h
        obtain ⟨f, -, h⟩ := h
        unfold report at h
        simp only at h
        split at h
        · simp at h
        · simp only [Option.some.injEq] at h
          subst h
          simp only [fullCfg]
          refine ⟨(isSome_ite _ _).trans ?_, (isSome_ite _ _).trans ?_, (isSome_ite _ _).trans ?_,
            (isSome_ite _ _).trans ?_, ?_, ?_⟩
          · simp
          · simp
          · simp
          · simp
          · intro d hd
            rw [← ite_some hd]
            exact WF_zip (fromKeys_nodup_list _) _
          · intro d hd
            rw [← ite_some hd]
            exact WF_zip (fromKeys_nodup_list _) _

theorem runBand_fields {env : Env} {cfg : InvCfg} {args : BandArgs} {streams : List Stream}
    {band : ℝ × ℝ} {r : BandResult} (h : runBand env cfg args streams band = .ok (some r)) :
    (r.g0.isSome ↔ args.fix = false) ∧ (r.b.isSome ↔ args.fix = false) ∧
    (r.W.isSome ↔ cfg.codaNorm = none) ∧
    (r.R.isSome ↔ args.sites = false ∧ cfg.codaNorm = none) ∧
    (∀ d, r.W = some d → d.WF) ∧ ∀ d, r.R = some d → d.WF := by
  unfold runBand at h
  simp only at h
  split at h
  · split at h
    · exact invertFb_fields h
    · simp at h
  · exact invertFb_fields h

theorem bandArgs_flags {cfg : InvCfg} {bands : Dict ℝ (ℝ × ℝ)} {args : BandArgs}
    (h : bandArgs cfg bands = .ok args) :
    (args.fix = false ↔ cfg.cmd = .go) ∧ (args.sites = false ↔ cfg.cmd ≠ .source) := by
  unfold bandArgs at h
  cases hc : cfg.cmd with
  | go =>
    rw [hc] at h
    simp only [Except.ok.injEq] at h
    rw [← h]; simp
  | fixed =>
    rw [hc] at h
    simp only at h
    split at h
    · simp at h
    · obtain ⟨p, -, h⟩ := bind_ok.1 h
      simp only [pure, Except.pure, Except.ok.injEq] at h
      rw [← h]; simp
  | source =>
    rw [hc] at h
    simp only at h
    split at h
    · simp at h
    · obtain ⟨p, -, h⟩ := bind_ok.1 h
      obtain ⟨p2, -, h⟩ := bind_ok.1 h
      simp only [pure, Except.pure, Except.ok.injEq] at h
      rw [← h]; simp

end Invert

namespace Spec

/-- A table row with one entry per band: `None` exactly for bands without result, the value of the
band otherwise. -/
def IsFullRow (f : BandResult → Option ℝ) (rlist : List (Option BandResult)) (row : List Cell) :
    Prop :=
  List.Forall₂ (fun r c => match r with
    | none => c = .none
    | some r => ∃ x, f r = some x ∧ c = .num x) rlist row

/-- A table row of a station or event with one entry per band: `None` exactly if the band has no
result or the station or event does not occur in it, the value in this band otherwise. -/
def IsKeyRow (f : BandResult → Option (Dict String ℝ)) (key : String)
    (rlist : List (Option BandResult)) (row : List Cell) : Prop :=
  List.Forall₂ (fun r c => match r with
    | none => c = .none
    | some r => ∃ d, f r = some d ∧
      ((∀ x, (key, x) ∈ d → c = .num x) ∧ (key ∉ d.keys → c = .none))) rlist row

/-- The tables of a result, given the results of the bands. -/
structure Tables (cfg : InvCfg) (bands : Dict ℝ (ℝ × ℝ)) (stations ids : List String)
    (rlist : List (Option BandResult)) (res : InvRes) : Prop where
  freq : res.freq = bands.map Prod.fst
  one_result_per_band : rlist.length = bands.length
  some_result : ∃ r, some r ∈ rlist
  v0 : ∃ before r after, rlist = before ++ some r :: after ∧ (∀ x ∈ after, x = none) ∧
    res.v0 = some r.v0
  g0 : cfg.cmd = .go → ∃ row, res.g0 = some row ∧ IsFullRow (·.g0) rlist row
  b : cfg.cmd = .go → ∃ row, res.b = some row ∧ IsFullRow (·.b) rlist row
  fixed : cfg.cmd ≠ .go → res.g0 = none ∧ res.b = none
  error : List.Forall₂ (fun r c => match r with
    | none => c = .none
    | some r => ∃ x : ℝ, r.error = x ∧ c = .num x) rlist res.error
  nstations : List.Forall₂ (fun r n => match r with
    | none => n = 0
    | some r => n = r.nstations) rlist res.nstations
  sites : cfg.cmd ≠ .source → cfg.codaNorm = none → ∃ R, res.R = some R ∧ R.keys = stations ∧
    ∀ st row, (st, row) ∈ R → IsKeyRow (·.R) st rlist row
  no_sites : cfg.cmd = .source ∨ cfg.codaNorm ≠ none → res.R = none
  events : cfg.codaNorm = none → res.events.keys = ids ∧
    ∀ id e, (id, e) ∈ res.events → IsKeyRow (·.W) id rlist e.W
  no_events : cfg.codaNorm ≠ none → res.events = []

/-- `name` is the station code of `full`, the part after the first dot if there is one. -/
def StationCode (full name : String) : Prop :=
  (∃ net, '.' ∉ net ∧ full.toList = net ++ '.' :: name.toList) ∨ ('.' ∉ full.toList ∧ name = full)

/-- The same data, with or without network code in the name of the station. -/
structure SameData (ignoreNetwork : Bool) (s s' : Stream) : Prop where
  station : if ignoreNetwork then StationCode s.station s'.station else s'.station = s.station
  data : s'.event = s.event ∧ s'.start = s.start ∧ s'.sr = s.sr ∧ s'.channels = s.channels ∧
    s'.origin = s.origin ∧ s'.ponset = s.ponset ∧ s'.sonset = s.sonset ∧ s'.distance = s.distance

end Spec

namespace Invert

theorem fullRow {f : BandResult → Option ℝ} {rlist : List (Option BandResult)}
    (h : ∀ r, some r ∈ rlist → (f r).isSome) :
    Spec.IsFullRow f rlist (rlist.map (fun r => Cell.ofOption (r.bind f))) := by
  unfold Spec.IsFullRow
  rw [List.forall₂_map_right_iff, List.forall₂_same]
  intro r hr
  cases r with
  | none => rfl
  | some r =>
    obtain ⟨x, hx⟩ := Option.isSome_iff_exists.1 (h r hr)
    exact ⟨x, hx, by simp [hx, Cell.ofOption]⟩

theorem keyRow {f : BandResult → Option (Dict String ℝ)} {key : String}
    {rlist : List (Option BandResult)} (h : ∀ r, some r ∈ rlist → ∃ d, f r = some d ∧ d.WF) :
    Spec.IsKeyRow f key rlist (rlist.map (entry f key)) := by
  unfold Spec.IsKeyRow
  rw [List.forall₂_map_right_iff, List.forall₂_same]
  intro r hr
  cases r with
  | none => rfl
  | some r =>
    obtain ⟨d, hd, hwf⟩ := h r hr
    refine ⟨d, hd, ?_, ?_⟩
    · intro x hx
      simp [entry, hd, Dict.get?_of_mem hwf hx, Cell.ofOption]
    · intro hx
      simp [entry, hd, (Dict.get?_eq_none d key).2 hx, Cell.ofOption]

theorem dropNetwork_spec (s : String) : Spec.StationCode s (dropNetwork s) := by
  unfold dropNetwork
  by_cases h : '.' ∈ s.toList
  · left
    rw [if_pos h]
    refine ⟨s.toList.takeWhile (fun c => decide (c ≠ '.')), ?_, ?_⟩
    · intro hm
      have := List.mem_takeWhile_imp hm
      simp at this
    · have h1 : s.toList.takeWhile (fun c => decide (c ≠ '.')) ++
          s.toList.dropWhile (fun c => decide (c ≠ '.')) = s.toList := List.takeWhile_append_dropWhile
      have h2 := List.head?_dropWhile_not (fun c => decide (c ≠ '.')) s.toList
      cases hd : s.toList.dropWhile (fun c => decide (c ≠ '.')) with
      | nil =>
        exfalso
        rw [List.dropWhile_eq_nil_iff] at hd
        simpa using hd _ h
      | cons a r =>
        rw [hd] at h1 h2
        simp at h2
        subst h2
        rw [String.toList_ofList, List.drop_succ_cons, List.drop_zero, h1]
  · right
    rw [if_neg h]
    exact ⟨h, String.ofList_toList⟩

theorem ignoreNetworks_spec (cfg : InvCfg) (deep : String → Bool) (streams : List Stream) :
    List.Forall₂ (Spec.SameData cfg.ignoreNetworkCode) streams (ignoreNetworks cfg deep streams) := by
  unfold ignoreNetworks
  by_cases h : cfg.ignoreNetworkCode = true
  · rw [if_pos h, List.forall₂_map_right_iff, List.forall₂_same]
    intro s _
    exact ⟨by simp only [h, if_true]; exact dropNetwork_spec _, rfl, rfl, rfl, rfl, rfl, rfl, rfl, rfl⟩
  · rw [if_neg h, List.forall₂_same]
    intro s _
    exact ⟨by simp [h], rfl, rfl, rfl, rfl, rfl, rfl, rfl, rfl⟩

theorem lastV0_spec {rlist : List (Option BandResult)} (h : ∃ r, some r ∈ rlist) :
    ∃ before r after, rlist = before ++ some r :: after ∧ (∀ x ∈ after, x = none) ∧
      lastV0 rlist = some r.v0 := by
  induction rlist using List.reverseRecOn with
  | nil => simp at h
  | append_singleton l x ih =>
    cases x with
    | some r =>
      exact ⟨l, r, [], rfl, by simp, by simp [lastV0]⟩
    | none =>
      obtain ⟨r, hr⟩ := h
      simp only [List.mem_append, List.mem_singleton, reduceCtorEq, or_false] at hr
      obtain ⟨b, r', a, h1, h2, h3⟩ := ih ⟨r, hr⟩
      refine ⟨b, r', a ++ [none], by rw [h1]; simp, ?_, ?_⟩
      · intro x hx
        rcases List.mem_append.1 hx with h | h
        · exact h2 x h
        · simpa using h
      · rw [← h3]
        simp [lastV0]

end Invert

/-- The tables of a result and the streams they are calculated from. -/
theorem Invert.tables_streams {env : Env} {cfg : InvCfg} {cpus : ℕ} {schedule : List ℕ} {events : List Event}
    {bands : Dict ℝ (ℝ × ℝ)} {res : InvRes}
    (hn : (events.map getEventid).Nodup) (hb : getFreqs cfg.freqs = .ok bands)
    (hs : Spec.Schedule cfg (bands.map Prod.snd) cpus schedule)
    (h : invert env cfg cpus schedule events = .ok (some res)) :
    ∃ stations rlist, resultStations env cfg = .ok stations ∧
      Spec.Tables cfg bands stations (events.map getEventid) rlist res ∧
      ∃ args selected origins streams, bandArgs cfg bands = .ok args ∧
        selectStreams env cfg events = .ok (some selected) ∧ originsOf events = .ok origins ∧
        streams = ignoreNetworks cfg (boreholes env origins) selected ∧
        runBands env cfg args streams (bands.map Prod.snd) cpus schedule = .ok rlist := by
  unfold invert at h
  split at h
  · simp at h
  rw [hb] at h
  simp only [bind, Except.bind] at h
  split at h
  · simp at h
  rename_i streams hst
  cases streams with
  | none => simp [pure, Except.pure] at h
  | some streams =>
    simp only at h
    obtain ⟨origins, ho, h⟩ := bind_ok.1 h
    obtain ⟨stations, hsta, h⟩ := bind_ok.1 h
    obtain ⟨args, hargs, h⟩ := bind_ok.1 h
    obtain ⟨rlist, hr, h⟩ := bind_ok.1 h
    refine ⟨stations, rlist, hsta, ?_, args, streams, origins, _, hargs, hst, ho, rfl, hr⟩
    have hlen := runBands_length hs hr
    have hfl := bandArgs_flags hargs
    have hfields := fun (r : BandResult) (hm : some r ∈ rlist) =>
      runBand_fields (runBands_mem hs hr hm).choose_spec.choose_spec
    unfold tables at h
    split at h
    · simp at h
    rename_i hnone
    obtain ⟨err, herr, h⟩ := bind_ok.1 h
    simp only at h
    obtain ⟨evs, hevs, h⟩ := bind_ok.1 h
    unfold eventTables at hevs
    simp only [pure, Except.pure, Except.ok.injEq, Option.some.injEq] at h
    subst h
    constructor
    · rfl
    · simpa using hlen
    · simp only [List.all_eq_true, not_forall] at hnone
      obtain ⟨r, hm, hne⟩ := hnone
      cases r with
      | none => simp at hne
      | some r => exact ⟨r, hm⟩
    · apply lastV0_spec
      simp only [List.all_eq_true, not_forall] at hnone
      obtain ⟨r, hm, hne⟩ := hnone
      cases r with
      | none => simp at hne
      | some r => exact ⟨r, hm⟩
    · intro hgo
      simp only [hgo]
      exact ⟨_, rfl, fullRow (fun r hm => (hfields r hm).1.2 (hfl.1.2 hgo))⟩
    · intro hgo
      simp only [hgo]
      exact ⟨_, rfl, fullRow (fun r hm => (hfields r hm).2.1.2 (hfl.1.2 hgo))⟩
    · intro hgo
      simp [hgo]
    · have := mapExc_ok.1 herr
      refine this.imp ?_
      intro r c hc
      cases r with
      | none => simpa [errorCell] using hc.symm
      | some r =>
        simp only [errorCell] at hc
        split at hc
        · simp at hc
        · rename_i x hx
          simp only [Except.ok.injEq] at hc
          exact ⟨x, hx, hc.symm⟩
    · simp only
      rw [List.forall₂_map_right_iff, List.forall₂_same]
      intro r _
      cases r <;> rfl
    · intro h1 h2
      refine ⟨_, if_pos ⟨h1, by simp [h2]⟩, by simp [Dict.keys, Function.comp_def], ?_⟩
      intro st row hm
      simp only [List.mem_map, Prod.mk.injEq] at hm
      obtain ⟨st', -, rfl, rfl⟩ := hm
      apply keyRow
      intro r hm
      obtain ⟨-, -, -, h4, -, h6⟩ := hfields r hm
      obtain ⟨d, hd⟩ := Option.isSome_iff_exists.1 (h4.2 ⟨hfl.2.2 h1, h2⟩)
      exact ⟨d, hd, h6 d hd⟩
    · intro h1
      simp only
      rw [if_neg]
      rintro ⟨h2, h3⟩
      rcases h1 with h1 | h1
      · exact h2 h1
      · exact h1 (by simpa using h3)
    · intro h1
      simp only
      rw [h1] at hevs
      simp only [Option.isNone_none, if_true] at hevs
      obtain ⟨h2, h3⟩ := sourceEvents_spec hn hevs
      refine ⟨h2, ?_⟩
      intro id e hm
      rw [h3 id e (Dict.get?_of_mem (by unfold Dict.WF; rw [h2]; exact hn) hm)]
      apply keyRow
      intro r hm
      obtain ⟨-, -, h4, -, h6, -⟩ := hfields r hm
      obtain ⟨d, hd⟩ := Option.isSome_iff_exists.1 (h4.2 h1)
      exact ⟨d, hd, h6 d hd⟩
    · intro h1
      simp only
      rw [if_neg (by simpa using h1)] at hevs
      simpa [pure, Except.pure] using hevs.symm

/-- **C23** The tables of every result of an inversion have one entry per band, in the order of the
bands, and an entry is `None` exactly if the band (or the station or event in this band) has no
result. -/
theorem C23_tables {env : Env} {cfg : InvCfg} {cpus : ℕ} {schedule : List ℕ} {events : List Event}
    {bands : Dict ℝ (ℝ × ℝ)} {res : InvRes}
    (hn : (events.map getEventid).Nodup) (hb : getFreqs cfg.freqs = .ok bands)
    (hs : Spec.Schedule cfg (bands.map Prod.snd) cpus schedule)
    (h : invert env cfg cpus schedule events = .ok (some res)) :
    ∃ stations rlist, resultStations env cfg = .ok stations ∧
      Spec.Tables cfg bands stations (events.map getEventid) rlist res ∧
      ∃ args selected streams, bandArgs cfg bands = .ok args ∧
        selectStreams env cfg events = .ok (some selected) ∧
        List.Forall₂ (Spec.SameData cfg.ignoreNetworkCode) selected streams ∧
        runBands env cfg args streams (bands.map Prod.snd) cpus schedule = .ok rlist := by
  obtain ⟨stations, rlist, h1, h2, args, selected, origins, streams, h3, h4, -, rfl, h5⟩ :=
    tables_streams hn hb hs h
  exact ⟨stations, rlist, h1, h2, args, selected, _, h3, h4, ignoreNetworks_spec _ _ _, h5⟩

theorem stationCode_unique {full a b : String} (h : Spec.StationCode full a)
    (h' : Spec.StationCode full b) : a = b := by
  have key : ∀ (n m x y : List Char), '.' ∉ n → '.' ∉ m → n ++ '.' :: x = m ++ '.' :: y → x = y := by
    intro n
    induction n with
    | nil =>
      intro m x y _ hm he
      cases m with
      | nil => simpa using he
      | cons c m =>
        simp only [List.nil_append, List.cons_append, List.cons.injEq] at he
        exact absurd (by rw [he.1]; exact List.mem_cons_self) hm
    | cons c n ih =>
      intro m x y hn hm he
      cases m with
      | nil =>
        simp only [List.nil_append, List.cons_append, List.cons.injEq] at he
        exact absurd (by rw [← he.1]; exact List.mem_cons_self) hn
      | cons d m =>
        simp only [List.cons_append, List.cons.injEq] at he
        exact ih m x y (fun h => hn (List.mem_cons_of_mem _ h)) (fun h => hm (List.mem_cons_of_mem _ h))
          he.2
  rcases h with ⟨n, h1, h2⟩ | ⟨h1, h2⟩ <;> rcases h' with ⟨m, g1, g2⟩ | ⟨g1, g2⟩
  · rw [h2] at g2
    have := key n m _ _ h1 g1 g2
    exact String.toList_injective this
  · exact absurd (by rw [h2]; simp) g1
  · exact absurd (by rw [g2]; simp) h1
  · rw [h2, g2]

/-- **C23** The site responses are listed for every station of the inventory exactly once; stations
with different network codes are joined if the network code is ignored. -/
theorem C23_stations {env : Env} {cfg : InvCfg} {stations : List String}
    (hset : ∀ l, (env.setOrder l).Nodup ∧ ∀ x, x ∈ env.setOrder l ↔ x ∈ l)
    (h : resultStations env cfg = .ok stations) :
    stations.Nodup ∧ ∀ x, x ∈ stations ↔ ∃ ch ∈ env.channels,
      if cfg.ignoreNetworkCode then Spec.StationCode (getStation ch) x else x = getStation ch := by
  unfold resultStations at h
  have hmem : ∀ x, x ∈ stationsOf env ↔ ∃ ch ∈ env.channels, getStation ch = x := by
    intro x
    unfold stationsOf
    rw [(hset _).2, List.mem_map]
  by_cases hi : cfg.ignoreNetworkCode = true
  · rw [if_pos hi] at h
    obtain ⟨l, hl, h⟩ := bind_ok.1 h
    simp only [pure, Except.pure, Except.ok.injEq] at h
    subst h
    have hl' : l = (stationsOf env).map dropNetwork := by
      have h2 := mapExc_ok.1 hl
      clear hl h
      generalize stationsOf env = sl at h2
      induction h2 with
      | nil => rfl
      | cons ha _ ih =>
        split_ifs at ha
        simp only [Except.ok.injEq] at ha
        rw [List.map_cons, ← ih, ha]
    refine ⟨fromKeys_nodup_list _, fun x => ?_⟩
    rw [mem_fromKeys, hl', List.mem_map]
    simp only [hi, if_true]
    constructor
    · rintro ⟨st, hst, rfl⟩
      obtain ⟨ch, hc, rfl⟩ := (hmem st).1 hst
      exact ⟨ch, hc, dropNetwork_spec _⟩
    · rintro ⟨ch, hc, hx⟩
      exact ⟨_, (hmem _).2 ⟨ch, hc, rfl⟩, stationCode_unique (dropNetwork_spec _) hx⟩
  · rw [if_neg hi] at h
    simp only [Except.ok.injEq] at h
    subst h
    refine ⟨(hset _).1, fun x => ?_⟩
    simp only [hi, if_false, Bool.false_eq_true]
    rw [hmem]
    simp only [eq_comm]

/-- **C23** A station without network code leads to an error if network codes are to be ignored. -/
theorem C23_ignore_network_error {env : Env} {cfg : InvCfg}
    (hset : ∀ l, ∀ x, x ∈ env.setOrder l ↔ x ∈ l)
    (hi : cfg.ignoreNetworkCode = true) {ch : String} (hc : ch ∈ env.channels)
    (hd : '.' ∉ (getStation ch).toList) : ∃ e, resultStations env cfg = .error e := by
  cases h : resultStations env cfg with
  | error e => exact ⟨e, rfl⟩
  | ok l =>
    exfalso
    unfold resultStations at h
    rw [if_pos hi] at h
    obtain ⟨l', hl, -⟩ := bind_ok.1 h
    have h2 := mapExc_ok.1 hl
    have hm : getStation ch ∈ stationsOf env := by
      unfold stationsOf
      rw [hset]
      exact List.mem_map_of_mem hc
    obtain ⟨y, hy, -⟩ : ∃ y, (if '.' ∈ (getStation ch).toList then .ok (dropNetwork (getStation ch))
        else .error .indexError : Py String) = .ok y ∧ y ∈ l' := by
      clear hl h
      generalize stationsOf env = sl at h2 hm
      induction h2 with
      | nil => simp at hm
      | cons ha hrest ih =>
        rcases List.mem_cons.1 hm with rfl | hm
        · exact ⟨_, ha, List.mem_cons_self⟩
        · obtain ⟨y, h1, h2⟩ := ih hm
          exact ⟨y, h1, List.mem_cons_of_mem _ h2⟩
    rw [if_neg hd] at hy
    simp at hy

namespace TablesExample

open JobsExample

/-- An event in a depth of 1 m. -/
noncomputable def exEvent : Event := ⟨"ev/e", some ⟨0, 0, 0, some 1, []⟩, [], none, []⟩

theorem exId : getEventid exEvent = "e" := by decide

theorem exSta : getStation ".A..Z" = "A" := by decide

theorem exStations : stationsOf exEnv = ["A"] := by
  simp [stationsOf, exEnv, exSta]

theorem exSelect : selectStreams exEnv (exCfg (some 1)) [exEvent] = .ok (some [exStream 1]) := by
  have ho : originsOf [exEvent] = .ok [("e", ⟨0, 0, 0, some 1, []⟩)] := by
    unfold originsOf
    have h : getOrigin exEvent = .ok ⟨0, 0, 0, some 1, []⟩ := rfl
    simp [exId, h, bind, Except.bind, pure, Except.pure, Dict.set]
  have hd : ∀ o : Origin, o = ⟨0, 0, 0, some 1, []⟩ → distance exEnv (exCfg (some 1)) o "A" = some 1 := by
    rintro o rfl
    simp [distance, exEnv, exCfg]
  have hl : distLoop exEnv (exCfg (some 1)) [("e", ⟨0, 0, 0, some 1, []⟩)] =
      ⟨[("e", "A")], [(("e", "A"), 1)]⟩ := by
    unfold distLoop allPairs
    rw [exStations]
    simp only [Dict.keys, List.map_cons, List.map_nil, List.flatMap_cons, List.flatMap_nil,
      List.append_nil, List.foldl_cons, List.foldl_nil]
    unfold distStep
    have ht : tooFar (exCfg (some 1)) 1 = false := rfl
    simp [originAt, Dict.get?, hd, ht, Dict.set]
  have hdeep : boreholes exEnv [("e", ⟨0, 0, 0, some 1, []⟩)] "A" = false := by
    simp [boreholes, deepStation, exEnv]
  have hsort : sortPairs [("e", ⟨0, 0, 0, some 1, []⟩)] ⟨[("e", "A")], [(("e", "A"), 1)]⟩ =
      [("e", "A")] := by simp [sortPairs]
  have hons : onsetStep (exCfg (some 1)) [] [("e", ⟨0, 0, 0, some 1, []⟩)] [(("e", "A"), 1)]
      { pairs := [("e", "A")] } ("e", "A") =
      .ok ⟨[("e", "A")], [(("e", "A"), 1)], [(("e", "A"), 1)]⟩ := by
    simp [onsetStep, onsets, firstOnsets, exCfg, originAt, distAt, Dict.get?, bind, Except.bind, pure,
      Except.pure, Dict.set]
  have hf : fetch exEnv (exCfg (some 1)) [("e", ⟨0, 0, 0, some 1, []⟩)] [(("e", "A"), 1)]
      ⟨[("e", "A")], [(("e", "A"), 1)], [(("e", "A"), 1)]⟩
      (boreholes exEnv [("e", ⟨0, 0, 0, some 1, []⟩)]) ("e", "A") = .ok (some (exStream 1)) := by
    have hc : checkData exEnv (exCfg (some 1)) (0 + 0) (0 + 4)
        (some [⟨".A..Z", 0, 1, [0, 0, 2, 1, 1]⟩,
      ⟨".A..N", 0, 1, [0, 0, 2, 1, 1]⟩, ⟨".A..E", 0, 1, [0, 0, 2, 1, 1]⟩]) =
      some [⟨".A..Z", 0, 1, [0, 0, 2, 1, 1]⟩,
      ⟨".A..N", 0, 1, [0, 0, 2, 1, 1]⟩, ⟨".A..E", 0, 1, [0, 0, 2, 1, 1]⟩] := by
      norm_num [checkData, exEnv, covers, exCfg]
    unfold fetch
    have hw : ∀ t1 t2, exEnv.getWaveforms "e" (pattern exEnv "A") t1 t2 =
        .ok (some [⟨".A..Z", 0, 1, [0, 0, 2, 1, 1]⟩,
      ⟨".A..N", 0, 1, [0, 0, 2, 1, 1]⟩, ⟨".A..E", 0, 1, [0, 0, 2, 1, 1]⟩]) := fun _ _ => rfl
    have ht1 : (exCfg (some 1)).requestWindow = (0, 4) := rfl
    simp only [originAt, Dict.get?, if_true, Option.getD_some, hw, ht1, hc, bind, Except.bind,
      List.length_cons, List.length_nil, pure, Except.pure, distAt]
    rw [if_neg (by simp)]
    unfold mkStream
    simp only [List.headD_cons, exSta, hdeep]
    simp [exStream]
  unfold selectStreams
  simp only [ho, hl, hsort, bind, Except.bind]
  have ha : arrivalsIf (exCfg (some 1)) [exEvent] = .ok [] := rfl
  rw [ha]
  simp only [List.foldlM_cons, List.foldlM_nil, bind, Except.bind, hons, pure, Except.pure, mapExc, hf]
  have hcor : correct exEnv (exCfg (some 1)) [exStream 1] = [exStream 1] := rfl
  have htf : ¬ tooFew (exCfg (some 1)) 1 := by simp [Invert.tooFew, exCfg]
  simp [hcor, htf]

theorem exInvert : ∃ res, invert exEnv (exCfg (some 1)) 1 [] [exEvent] = .ok (some res) := by
  have hfr : getFreqs (exCfg (some 1)).freqs = .ok [(0.25, (0.25 - halfWidth 0.25 1, 0.25 + halfWidth 0.25 1))] := by
    simp [exCfg, getFreqs, bandsOf, mkDict, Dict.set]
  have hh : halfWidth 0.25 1 = 1 / 12 := by unfold halfWidth; norm_num
  rw [hh] at hfr
  have ho : originsOf [exEvent] = .ok [("e", ⟨0, 0, 0, some 1, []⟩)] := by
    unfold originsOf
    have h : getOrigin exEvent = .ok ⟨0, 0, 0, some 1, []⟩ := rfl
    simp [exId, h, bind, Except.bind, pure, Except.pure, Dict.set]
  obtain ⟨r, hr, herr⟩ := ex_one (some 1) (x := 1) (band := (0.25 - 1 / 12, 0.25 + 1 / 12))
    (by norm_num) (by norm_num) (by unfold gain; rw [if_neg (by norm_num)]; norm_num)
  have hrun : runBands exEnv (exCfg (some 1)) exArgs [exStream 1] [(0.25 - 1 / 12, 0.25 + 1 / 12)] 1 []
      = .ok [some r] := by
    unfold runBands
    rw [if_pos (by rfl), C24_sequential]
    simp only [mapExc, hr, bind, Except.bind, pure, Except.pure]
  unfold invert
  rw [if_neg (by simp [exCfg])]
  simp only [hfr, exSelect, ho, bind, Except.bind]
  have h1 : ignoreNetworks (exCfg (some 1)) (boreholes exEnv [("e", ⟨0, 0, 0, some 1, []⟩)]) [exStream 1] =
    [exStream 1] := rfl
  have h2 : resultStations exEnv (exCfg (some 1)) = .ok ["A"] := by
    unfold resultStations
    rw [exStations]
    rfl
  have h3 : bandArgs (exCfg (some 1)) [(0.25, (0.25 - 1 / 12, 0.25 + 1 / 12))] = .ok exArgs := rfl
  rw [h1, h2, h3]
  simp only [List.map_cons, List.map_nil, hrun]
  unfold tables
  rw [if_neg (by simp)]
  obtain ⟨x, hx⟩ := WithTop.ne_top_iff_exists.1 herr
  have h4 : mapExc errorCell [some r] = .ok [.num x] := by
    simp [mapExc, errorCell, ← hx, bind, Except.bind, pure, Except.pure]
  rw [h4]
  have h5 : ∃ evs, eventTables exEnv (exCfg (some 1)) [0.25] (lastV0 [some r]) [some r] [exEvent] = .ok evs := by
    unfold eventTables
    rw [if_pos (by rfl)]
    unfold sourceEvents
    have hrow := rowW_nodup (ids := ["e"]) (by simp) (id := "e") (by simp) [some r]
    obtain ⟨l, hl⟩ := Site.sdsEntries_total (freq := [0.25]) (W := [some r].map (entry (·.W) "e"))
      (v0 := lastV0 [some r]) (rho0 := some (exCfg (some 1)).rho0) (by simp) (by norm_num)
    have hk : fromKeys ["e"] = ["e"] := by decide
    have hsmm : (exCfg (some 1)).smm = none := rfl
    simp only [List.map_cons, List.map_nil, exId, hk, List.foldlM_cons, List.foldlM_nil, dictGet,
      Dict.get?, if_true, hrow, bind, Except.bind, pure, Except.pure, insertSourceProperties] at hl ⊢
    simp only [hl, hsmm]
    exact ⟨_, rfl⟩
  obtain ⟨evs, h5⟩ := h5
  simp only [bind, Except.bind, Dict.keys, List.map_cons, List.map_nil, h5]
  exact ⟨_, rfl⟩

/-- Three channels of two stations, one of them in two networks. -/
noncomputable def exEnvNet : Env :=
  { exEnv with channels := ["A.S..Z", "B.S..Z", "B.T..Z"], setOrder := List.dedup }

/-- Network codes are ignored. -/
noncomputable def exCfgNet : InvCfg := { exCfg (some 1) with ignoreNetworkCode := true }

example : (∀ l, (exEnvNet.setOrder l).Nodup ∧ ∀ x, x ∈ exEnvNet.setOrder l ↔ x ∈ l) ∧
    resultStations exEnvNet exCfgNet = .ok ["S", "T"] := by
  refine ⟨fun l => ⟨List.nodup_dedup l, fun x => List.mem_dedup⟩, ?_⟩
  have h1 : stationsOf exEnvNet = ["A.S", "B.S", "B.T"] := by
    change List.dedup (["A.S..Z", "B.S..Z", "B.T..Z"].map getStation) = _
    decide
  unfold resultStations
  rw [h1, if_pos (by rfl)]
  rfl

end TablesExample

open JobsExample TablesExample in
example : ∃ (bands : Dict ℝ (ℝ × ℝ)) (res : InvRes) (stations : List String)
    (rlist : List (Option BandResult)),
    invert exEnv (exCfg (some 1)) 1 [] [exEvent] = .ok (some res) ∧
    Spec.Tables (exCfg (some 1)) bands stations ["e"] rlist res := by
  obtain ⟨res, h⟩ := exInvert
  have hfr : getFreqs (exCfg (some 1)).freqs =
      .ok [(0.25, (0.25 - halfWidth 0.25 1, 0.25 + halfWidth 0.25 1))] := by
    simp [exCfg, getFreqs, bandsOf, mkDict, Dict.set]
  obtain ⟨stations, rlist, -, ht, -⟩ := C23_tables (by simp) hfr (fun hne => absurd rfl hne) h
  simp only [List.map_cons, List.map_nil, exId] at ht
  exact ⟨_, res, stations, rlist, h, ht⟩

end Qopen
