import Verif.Lemmas.Totality
import Verif.Props.TruthChain
import Verif.Props.NoResult
import Verif.Props.TruthExample
import Verif.Props.FigureEvent
import Verif.Props.Events

/-!
# C135: when an inversion of several events returns, and when its figures are drawn
-/

namespace Qopen

open Util Catalog Collect Invert Wrapper Imaging Figures Total Spec Freqs

namespace Spec

/-- The result of an event inverted on its own, with `nf` bands; `go`: attenuation was inverted, too;
`stations`: the stations with a row of site responses, if these were inverted. -/
structure CompleteEvent (go : Bool) (stations : Option (List String)) (nf : ℕ) (e : Dict String RVal) : Prop where
  g0 : go = true → ∃ l x, e.get? "g0" = some (.row l) ∧ l.length = nf ∧ Cell.num x ∈ l
  b : go = true → ∃ l, e.get? "b" = some (.row l) ∧ l.length = nf
  fixed : go = false → e.get? "g0" = none ∧ e.get? "b" = none
  error : ∃ l, e.get? "error" = some (.row l) ∧ l.length = nf
  v0 : ∃ v, e.get? "v0" = some (.cell (.num v))
  R : ∀ st, stations = some st → ∃ d, e.get? "R" = some (.sites d) ∧ d.WF ∧ d.keys = st ∧
    ∀ p ∈ d, p.2.length = nf
  noR : stations = none → e.get? "R" = none

end Spec

namespace Total

variable {env : Env} {cfg : InvCfg} {cpus : ℕ} {bands : Dict ℝ (ℝ × ℝ)} {rlm : List ℝ → ℝ × ℝ}
  {mean : Mean}

/-- The stations of all results. -/
noncomputable def stationRows (env : Env) (cfg : InvCfg) : Option (List String) :=
  if cfg.cmd = .source ∨ cfg.codaNorm.isSome then none
  else match resultStations env cfg with
    | .ok l => some l
    | .error _ => none

theorem complete_of_invert {sch : List ℕ} {ev : Event} {r : InvRes} (hset : IsSetOrder env.setOrder)
    (hb : getFreqs cfg.freqs = .ok bands) (hs : Schedule cfg (bands.map Prod.snd) cpus sch)
    (h : invert env cfg cpus sch [ev] = .ok (some r)) :
    r.freq = bands.map Prod.fst ∧ ∃ e, eventEntry cfg.codaNorm.isSome (getEventid ev) r = .ok e ∧
      CompleteEvent (decide (cfg.cmd = .go)) (stationRows env cfg) bands.length e := by
  obtain ⟨stations, rlist, hsta, T, -⟩ := C23_tables (events := [ev]) (by simp) hb hs h
  obtain ⟨e, h1, -, -, h2⟩ := C40_results_have_known_keys h (id := getEventid ev) (by
    cases hc : cfg.codaNorm with
    | none => left; rw [(T.events hc).1]; simp
    | some x => right; rfl)
  refine ⟨T.freq, e, h1, ?_, ?_, ?_, ?_, ?_, ?_, ?_⟩
  · intro hg
    obtain ⟨row, hr, hrow⟩ := T.g0 (by simpa using hg)
    obtain ⟨br, hbr⟩ := T.some_result
    obtain ⟨c, hc, hcc⟩ := FigureSites.forall₂_left hrow _ hbr
    obtain ⟨x, -, rfl⟩ := hcc
    exact ⟨row, x, by rw [h2.g0, hr]; rfl, by rw [← hrow.length_eq, T.one_result_per_band], hc⟩
  · intro hg
    obtain ⟨row, hr, hrow⟩ := T.b (by simpa using hg)
    exact ⟨row, by rw [h2.b, hr]; rfl, by rw [← hrow.length_eq, T.one_result_per_band]⟩
  · intro hg
    obtain ⟨e1, e2⟩ := T.fixed (by simpa using hg)
    exact ⟨by rw [h2.g0, e1]; rfl, by rw [h2.b, e2]; rfl⟩
  · exact ⟨_, h2.error, by rw [← T.error.length_eq, T.one_result_per_band]⟩
  · obtain ⟨_, br, _, _, _, hv⟩ := T.v0
    exact ⟨br.v0, by rw [h2.v0, hv]; rfl⟩
  · intro st hst
    unfold stationRows at hst
    rw [hsta] at hst
    split at hst
    · simp at hst
    rename_i hR
    push Not at hR
    simp only [Option.some.injEq] at hst
    subst hst
    obtain ⟨d, hd, hk, hrow⟩ := T.sites hR.1 (by simpa using hR.2)
    refine ⟨d, by rw [h2.R, hd]; rfl, ?_, hk, ?_⟩
    · unfold Dict.WF
      have := (C23_stations hset hsta).1
      rw [← hk] at this
      exact this
    · intro p hp
      rw [← (hrow p.1 p.2 hp).length_eq, T.one_result_per_band]
  · intro hst
    unfold stationRows at hst
    rw [hsta] at hst
    split at hst
    · rename_i hR
      rw [h2.R, T.no_sites (hR.imp id (fun h hn => by rw [hn] at h; simp at h))]
      rfl
    · simp at hst

theorem CompleteEvent_R {go : Bool} {st : Option (List String)} {nf : ℕ} {e : Dict String RVal}
    (h : CompleteEvent go st nf e) {v : RVal} (hv : e.get? "R" = some v) :
    ∃ d, v = .sites d ∧ d.WF ∧ st = some d.keys ∧ ∀ p ∈ d, p.2.length = nf := by
  cases st with
  | none => rw [h.noR rfl] at hv; simp at hv
  | some st =>
    obtain ⟨d, h1, h2, h3, h4⟩ := h.R st rfl
    rw [h1, Option.some.injEq] at hv
    exact ⟨d, hv.symm, h2, by rw [h3], h4⟩

/-- Each station has a row in each event. -/
theorem length_siteRows {go : Bool} {st : Option (List String)} {nf : ℕ}
    {events : Dict String (Dict String RVal)} (h : ∀ e ∈ events, CompleteEvent go st nf e.2)
    {sta : String} (hne : siteRows events sta ≠ []) : (siteRows events sta).length = events.length := by
  have hmem : ∃ l, st = some l ∧ sta ∈ l := by
    obtain ⟨row, hrow⟩ := List.exists_mem_of_ne_nil _ hne
    obtain ⟨e, he, hrow⟩ := List.mem_filterMap.1 hrow
    cases hR : e.2.get? "R" with
    | none => rw [hR] at hrow; simp at hrow
    | some v =>
      obtain ⟨d, rfl, -, hst, -⟩ := CompleteEvent_R (h e he) hR
      rw [hR] at hrow
      refine ⟨d.keys, hst, ?_⟩
      have hrow : d.get? sta = some row := hrow
      rw [← Dict.get?_isSome, hrow]
      rfl
  obtain ⟨l, hl, hsl⟩ := hmem
  clear hne
  unfold siteRows
  induction events with
  | nil => rfl
  | cons e es ih =>
    obtain ⟨d, h1, -, h2, -⟩ := (h e List.mem_cons_self).R l hl
    rw [← h2, ← Dict.get?_isSome] at hsl
    obtain ⟨row, hrow⟩ := Option.isSome_iff_exists.1 hsl
    rw [List.filterMap_cons_some (b := row) (by simp only [h1, hrow])]
    simp only [List.length_cons]
    rw [ih (fun e he => h e (List.mem_cons_of_mem _ he))]

theorem fits_of_complete {go : Bool} {st : Option (List String)} {nf : ℕ} {e : Dict String RVal}
    (h : CompleteEvent go st nf e)
    {only : List String} (ho : ∀ c ∈ only, c ∈ ["g0", "b", "error", "R", "v0"]) :
    Fits only (fun c => if c = "v0" then none else some nf) nf e := by
  constructor
  · intro v hv
    obtain ⟨d, h1, -, -, h2⟩ := CompleteEvent_R h hv
    exact ⟨d, h1, h2⟩
  · intro c hc hR v hv
    have := ho c hc
    simp only [List.mem_cons, List.not_mem_nil, or_false] at this
    rcases this with rfl | rfl | rfl | rfl | rfl
    · right
      cases go with
      | false => rw [(h.fixed rfl).1] at hv; simp at hv
      | true =>
        obtain ⟨l, x, h1, h2, -⟩ := h.g0 rfl
        rw [h1, Option.some.injEq] at hv
        exact ⟨l, hv.symm, by simp [h2]⟩
    · right
      cases go with
      | false => rw [(h.fixed rfl).2] at hv; simp at hv
      | true =>
        obtain ⟨l, h1, h2⟩ := h.b rfl
        rw [h1, Option.some.injEq] at hv
        exact ⟨l, hv.symm, by simp [h2]⟩
    · right
      obtain ⟨l, h1, h2⟩ := h.error
      rw [h1, Option.some.injEq] at hv
      exact ⟨l, hv.symm, by simp [h2]⟩
    · exact absurd rfl hR
    · left
      obtain ⟨x, h1⟩ := h.v0
      rw [h1, Option.some.injEq] at hv
      exact ⟨_, hv.symm, by simp⟩

/-- A collected key is there as soon as an event has it. -/
theorem arrayOf_some {events : Dict String (Dict String RVal)} {only : List String}
    {col : Dict String ColVal} (hn : only.Nodup)
    (h : collectResults (events.mapVals some) only = .ok col) {c : String} (hc : c ∈ only)
    (h1 : c ≠ "eventid") (h2 : c ≠ "R") {a : Option (List (List Cell))} (ha : arrayOf col c = .ok a) :
    (a = none ↔ ∀ e ∈ events, e.2.get? c = none) ∧
    ∀ rows, a = some rows → rows = (rowsWith events c).map (fun r => r.map Cell.toFloat) := by
  have hval : Spec.valuesOf (events.mapVals some) c = [] ↔ ∀ e ∈ events, e.2.get? c = none := by
    unfold Spec.valuesOf Dict.mapVals
    rw [List.filterMap_eq_nil_iff]
    constructor
    · intro h e he
      exact h (e.1, some e.2) (List.mem_map.2 ⟨e, he, rfl⟩)
    · intro h q hq
      obtain ⟨e, he, rfl⟩ := List.mem_map.1 hq
      exact h e he
  constructor
  · rw [← hval]
    rcases C39_values hn h hc h1 h2 with ⟨e1, e2⟩ | ⟨xs, b, e1, e2, -, e3⟩
    · unfold arrayOf at ha
      rw [e2] at ha
      simp only [Except.ok.injEq] at ha
      simp [← ha, e1]
    · unfold arrayOf at ha
      rw [e3] at ha
      simp only at ha
      obtain ⟨rows, -, ha⟩ := bind_ok.1 ha
      simp only [pure, Except.pure, Except.ok.injEq] at ha
      constructor
      · intro h; rw [h] at ha; simp at ha
      · intro h
        rw [h] at e1
        exact absurd (List.forall₂_nil_left_iff.1 e1) e2
  · rintro rows rfl
    exact (FigureResults.array_spec hn h hc h1 h2 ha).2.1

theorem length_valuesOf {events : Dict String (Dict String RVal)} {c : String}
    (h : ∀ e ∈ events, ∃ v, e.2.get? c = some v) :
    (Spec.valuesOf (events.mapVals some) c).length = events.length := by
  unfold Spec.valuesOf Dict.mapVals
  induction events with
  | nil => rfl
  | cons e l ih =>
    obtain ⟨v, hv⟩ := h e List.mem_cons_self
    rw [List.map_cons, List.filterMap_cons_some (b := v) (by simpa using hv)]
    simp only [List.length_cons]
    rw [ih (fun e he => h e (List.mem_cons_of_mem _ he))]

theorem length_rowsWith {events : Dict String (Dict String RVal)} {c : String}
    (h : ∀ e ∈ events, ∃ l, e.2.get? c = some (.row l)) :
    (rowsWith events c).length = events.length := by
  unfold rowsWith
  induction events with
  | nil => rfl
  | cons e l ih =>
    obtain ⟨v, hv⟩ := h e List.mem_cons_self
    rw [List.filterMap_cons_some (b := v) (by simp only [hv])]
    simp only [List.length_cons]
    rw [ih (fun e he => h e (List.mem_cons_of_mem _ he))]

/-- The collected rows of site responses: one row for each event. -/
theorem sites_rows {go : Bool} {st : Option (List String)} {nf : ℕ}
    {events : Dict String (Dict String RVal)} (hf : ∀ e ∈ events, CompleteEvent go st nf e.2)
    {only : List String} {col : Dict String ColVal} {R : Dict String (List (List Cell))}
    (hn : only.Nodup) (hc : "R" ∈ only) (h : collectResults (events.mapVals some) only = .ok col)
    (hs : sitesArray col = .ok R) :
    R.WF ∧ (∀ p ∈ R, p.2 ≠ [] ∧ p.2.length = events.length) ∧
    ∀ sta, (siteRows events sta = [] ∧ R.get? sta = none) ∨ (siteRows events sta ≠ [] ∧
      R.get? sta = some ((siteRows events sta).map (fun r => r.map Cell.toFloat))) := by
  obtain ⟨hw, hspec⟩ := FigureSites.sites_array hn hc h (fun e he R hR => by
    obtain ⟨d, h1, h2, -⟩ := CompleteEvent_R (hf e he) hR
    simp only [RVal.sites.injEq] at h1
    rw [h1]; exact h2) hs
  refine ⟨hw, ?_, hspec⟩
  intro p hp
  have hg := Dict.get?_of_mem hw hp
  rcases hspec p.1 with ⟨-, h1⟩ | ⟨h1, h2⟩
  · rw [hg] at h1; simp at h1
  · rw [hg, Option.some.injEq] at h2
    rw [h2]
    exact ⟨by simpa using h1, by rw [List.length_map, length_siteRows hf h1]⟩

/-- The collected table of a quantity: one row for each event. -/
theorem array_rows {go : Bool} {st : Option (List String)} {nf : ℕ}
    {events : Dict String (Dict String RVal)} (hne : events ≠ [])
    (hf : ∀ e ∈ events, CompleteEvent go st nf e.2)
    {only : List String} {col : Dict String ColVal} (hn : only.Nodup)
    (h : collectResults (events.mapVals some) only = .ok col)
    (hC : Collected (fun c => if c = "v0" then none else some nf) nf col)
    {c : String} (hc : c ∈ only) (hk : c ∈ ["g0", "b", "error"]) :
    ∃ a, arrayOf col c = .ok a ∧ (a = none ↔ c ≠ "error" ∧ go = false) ∧
      ∀ rows, a = some rows → rows ≠ [] ∧ rows.length = events.length ∧ (∀ r ∈ rows, r.length = nf) ∧
        rows = (rowsWith events c).map (fun r => r.map Cell.toFloat) := by
  have hcR : c ≠ "R" := by rintro rfl; simp at hk
  have hcv : c ≠ "v0" := by rintro rfl; simp at hk
  have hce : c ≠ "eventid" := by rintro rfl; simp at hk
  obtain ⟨a, ha, hal⟩ := arrayOf_total hC (key := c) (n := nf) hcR (by simp [hcv])
  obtain ⟨h1, h2⟩ := arrayOf_some hn h hc hce hcR ha
  have hall : ¬ (c ≠ "error" ∧ go = false) → ∀ e ∈ events, ∃ l, e.2.get? c = some (.row l) := by
    intro hno e he
    simp only [List.mem_cons, List.not_mem_nil, or_false] at hk
    rcases hk with rfl | rfl | rfl
    · obtain ⟨l, x, h1, -⟩ := (hf e he).g0 (by simpa using hno); exact ⟨l, h1⟩
    · obtain ⟨l, h1, -⟩ := (hf e he).b (by simpa using hno); exact ⟨l, h1⟩
    · obtain ⟨l, h1, -⟩ := (hf e he).error; exact ⟨l, h1⟩
  have hnone : (c ≠ "error" ∧ go = false) → ∀ e ∈ events, e.2.get? c = none := by
    rintro ⟨hno, hgo⟩ e he
    simp only [List.mem_cons, List.not_mem_nil, or_false] at hk
    rcases hk with rfl | rfl | rfl
    · exact ((hf e he).fixed hgo).1
    · exact ((hf e he).fixed hgo).2
    · exact absurd rfl hno
  obtain ⟨e0, he0⟩ := List.exists_mem_of_ne_nil _ hne
  have hiff : a = none ↔ c ≠ "error" ∧ go = false := by
    rw [h1]
    constructor
    · intro h0
      by_contra hno
      obtain ⟨l, hl⟩ := hall hno e0 he0
      rw [h0 e0 he0] at hl
      simp at hl
    · exact hnone
  refine ⟨a, ha, hiff, ?_⟩
  intro rows hrows
  have hno : ¬ (c ≠ "error" ∧ go = false) := by rw [← hiff, hrows]; simp
  have hlen : rows.length = events.length := by
    rw [h2 rows hrows, List.length_map, length_rowsWith (hall hno)]
  refine ⟨fun h0 => hne ?_, hlen, hal rows hrows, h2 rows hrows⟩
  rw [h0] at hlen
  exact List.length_eq_zero_iff.1 hlen.symm

/-- The mean over complete results. -/
theorem means_total {go : Bool} {st : Option (List String)} {nf : ℕ}
    {events : Dict String (Dict String RVal)} (hne : events ≠ [])
    (hf : ∀ e ∈ events, CompleteEvent go st nf e.2) (freq : List ℝ) :
    ∃ w, means rlm mean freq events = .ok (some w) ∧ w.freq = freq ∧ w.events = events := by
  obtain ⟨col, hcol, hC⟩ := collect_total (events := events) (only := ["g0", "b", "error", "R"])
    (fun e he => fits_of_complete (hf e he) (by decide)) (by decide)
  obtain ⟨e0, he0⟩ := List.exists_mem_of_ne_nil _ hne
  have hn : (["g0", "b", "error", "R"] : List String).Nodup := by decide
  obtain ⟨g0, hg, hg0, hgl⟩ := array_rows hne hf hn hcol hC (c := "g0") (by decide) (by decide)
  obtain ⟨b, hb, hb0, hbl⟩ := array_rows hne hf hn hcol hC (c := "b") (by decide) (by decide)
  obtain ⟨er, her, he0', herl⟩ := array_rows hne hf hn hcol hC (c := "error") (by decide) (by decide)
  obtain ⟨R, hR, hRl⟩ := sitesArray_total hC
  obtain ⟨-, hRn, -⟩ := sites_rows hf hn (by decide) hcol hR
  cases er with
  | none => simp at he0'
  | some errs =>
    obtain ⟨hen, hel, hes, -⟩ := herl errs rfl
    obtain ⟨em, hem⟩ := tableMean_total rlm (mean := mean) hes hen (fun _ => ⟨rfl, hes⟩)
    obtain ⟨Rm, hRm⟩ := mapExc_total (l := R)
      (f := fun kv : String × List (List Cell) => (do
        let m ← tableMean rlm mean errs kv.2
        return (kv.1, m) : Py _)) (by
        intro p hp
        obtain ⟨m, h⟩ := tableMean_total rlm (mean := mean) (errs := errs) (hRl p hp) (hRn p hp).1
          (fun _ => ⟨by rw [hel, (hRn p hp).2], hes⟩)
        exact ⟨(p.1, m), by rw [h]; rfl⟩)
    have hmean : ∀ a : Option (List (List Cell)), (∀ rows, a = some rows → rows ≠ [] ∧
        rows.length = events.length ∧ ∀ r ∈ rows, r.length = nf) →
        ∃ m, meanIf rlm mean errs a = .ok m := by
      intro a ha
      cases a with
      | none => exact ⟨none, rfl⟩
      | some rows =>
        obtain ⟨h1, h2, h3⟩ := ha rows rfl
        obtain ⟨m, h⟩ := tableMean_total rlm (mean := mean) (errs := errs) h3 h1
          (fun _ => ⟨by rw [hel, h2], hes⟩)
        exact ⟨some m, by unfold meanIf; simp only [h]; rfl⟩
    obtain ⟨gm, hgm⟩ := hmean g0 (fun rows h => ⟨(hgl rows h).1, (hgl rows h).2.1, (hgl rows h).2.2.1⟩)
    obtain ⟨bm, hbm⟩ := hmean b (fun rows h => ⟨(hbl rows h).1, (hbl rows h).2.1, (hbl rows h).2.2.1⟩)
    have hfin : ¬ (g0.isSome ∧ b.isNone) := by
      rintro ⟨h1, h2⟩
      rw [Option.isNone_iff_eq_none] at h2
      have : g0 = none := hg0.2 ⟨by decide, (hb0.1 h2).2⟩
      rw [this] at h1
      simp at h1
    have hnan : g0.map allNan ≠ some true := by
      intro h
      cases g0 with
      | none => simp at h
      | some rows =>
        simp only [Option.map_some, Option.some.injEq] at h
        cases go with
        | false => simp at hg0
        | true =>
          obtain ⟨l, x, h1, -, h2⟩ := (hf e0 he0).g0 rfl
          have hrows := (hgl rows rfl).2.2.2
          have hl : l ∈ rowsWith events "g0" :=
            List.mem_filterMap.2 ⟨e0, he0, by rw [h1]⟩
          unfold allNan at h
          rw [List.all_eq_true] at h
          have := h (l.map Cell.toFloat) (by rw [hrows]; exact List.mem_map.2 ⟨l, hl, rfl⟩)
          rw [List.all_eq_true] at this
          have := this (.num x) (List.mem_map.2 ⟨_, h2, rfl⟩)
          simp at this
    unfold means
    have hx : g0.map allNan = none ∨ g0.map allNan = some false := by
      cases hx : g0.map allNan with
      | none => left; rfl
      | some x =>
        cases x with
        | true => exact absurd hx hnan
        | false => right; rfl
    have hRm' := hRm
    simp only [bind, Except.bind] at hRm'
    rcases hx with hx | hx <;>
    · simp only [hcol, hg, bind, Except.bind, hx, hb, her]
      rw [if_neg hfin]
      simp only [hgm, hbm, hem, hR]
      rw [hRm']
      exact ⟨_, rfl, rfl, rfl⟩

/-- The loop over the events. -/
theorem loop_total {inv : List Event → Py (Option InvRes)} {codaNorm : Bool}
    {P : Dict String RVal → Prop} {F : List ℝ}
    {l : List Event} {st : LoopState} (hst : ∀ e ∈ st.events, P e.2)
    (hF : st.events ≠ [] → st.freq = some F)
    (h : ∀ ev ∈ l, announce ev = .ok () ∧ ∃ o, inv [ev] = .ok o ∧ ∀ r, o = some r →
      r.freq = F ∧ ∃ e, eventEntry codaNorm (getEventid ev) r = .ok e ∧ P e) :
    ∃ st', l.foldlM (loopStep inv codaNorm) st = .ok st' ∧
      (∀ e ∈ st'.events, P e.2) ∧ (st'.events ≠ [] → st'.freq = some F) ∧
      (st'.events = [] ↔ st.events = [] ∧ ∀ ev ∈ l, inv [ev] = .ok none) := by
  induction l generalizing st with
  | nil => exact ⟨st, rfl, hst, hF, by simp⟩
  | cons ev l ih =>
    obtain ⟨h1, o, h2, h3⟩ := h ev List.mem_cons_self
    rw [List.foldlM_cons]
    unfold loopStep
    simp only [h1, h2, bind, Except.bind]
    cases o with
    | none =>
      obtain ⟨st', e1, e2, e4, e3⟩ := ih hst hF (fun ev hev => h ev (List.mem_cons_of_mem _ hev))
      refine ⟨st', e1, e2, e4, ?_⟩
      rw [e3]
      simp [h2]
    | some r =>
      obtain ⟨hrF, e, he, hc⟩ := h3 r rfl
      simp only [he, pure, Except.pure]
      have hset : ∀ q ∈ st.events.set (getEventid ev) e, q ∈ st.events ∨ q.2 = e := by
        clear ih hst hF
        generalize st.events = d
        induction d with
        | nil => intro q hq; simp [Dict.set] at hq; right; rw [hq]
        | cons a tab ih =>
          intro q hq
          unfold Dict.set at hq
          split_ifs at hq
          · rcases List.mem_cons.1 hq with rfl | hq
            · right; rfl
            · left; exact List.mem_cons_of_mem _ hq
          · rcases List.mem_cons.1 hq with rfl | hq
            · left; exact List.mem_cons_self
            · rcases ih q hq with h | h
              · left; exact List.mem_cons_of_mem _ h
              · right; exact h
      obtain ⟨st', e1, e2, e4, e3⟩ := ih (st := { freq := some r.freq, events := st.events.set (getEventid ev) e })
        (by
          intro q hq
          rcases hset q hq with h | h
          · exact hst q h
          · rw [h]; exact hc)
        (fun _ => by simp only [hrF])
        (fun ev hev => h ev (List.mem_cons_of_mem _ hev))
      refine ⟨st', e1, e2, e4, ?_⟩
      rw [e3]
      have : st.events.set (getEventid ev) e ≠ [] := by
        cases st.events <;> unfold Dict.set
        · simp
        · split_ifs <;> simp
      simp [this, h2]

variable {events : List Event} {schedule : List Event → List ℕ}

/-- What the result of separate inversions looks like. -/
structure Separate (env : Env) (cfg : InvCfg) (bands : Dict ℝ (ℝ × ℝ)) (w : WrapRes) : Prop where
  freq : w.freq = bands.map Prod.fst
  some_event : w.events ≠ []
  complete : ∀ e ∈ w.events, CompleteEvent (decide (cfg.cmd = .go)) (stationRows env cfg) bands.length e.2

theorem separate_total (hset : IsSetOrder env.setOrder) (hn : events.Nodup)
    (hb : getFreqs cfg.freqs = .ok bands)
    (hs : ∀ evs, Schedule cfg (bands.map Prod.snd) cpus (schedule evs))
    {inv : List Event → Py (Option InvRes)} (hinv : inv = fun evs => invert env cfg cpus (schedule evs) evs)
    (ht : ¬ Tie events) (hs' : ∃ ev ∈ events, (originTime ev).isSome)
    (hall : ∀ ev ∈ events, (originTime ev).isSome → (originDepth ev).isSome ∧ ∃ o, inv [ev] = .ok o) :
    ∃ out, invertWrapper rlm inv cfg.codaNorm.isSome false mean events = .ok out ∧
      (out = none ↔ ∀ ev ∈ events, (originTime ev).isSome → inv [ev] = .ok none) ∧
      ∀ w, out = some w → Separate env cfg bands w := by
  obtain ⟨order, hord, he⟩ := (C25_failures rlm inv cfg.codaNorm.isSome false mean events hn).2.2 ht hs'
  have hmem : ∀ ev, ev ∈ order ↔ ev ∈ events ∧ (originTime ev).isSome = true := by
    intro ev
    rw [hord.perm.mem_iff, List.mem_filter]
  obtain ⟨st, e1, e2, e4, e3⟩ := loop_total (inv := inv) (codaNorm := cfg.codaNorm.isSome)
    (P := CompleteEvent (decide (cfg.cmd = .go)) (stationRows env cfg) bands.length) (F := bands.map Prod.fst)
    (l := order) (st := {}) (by simp) (by simp) (by
      intro ev hev
      obtain ⟨h1, h2⟩ := (hmem ev).1 hev
      obtain ⟨h3, o, h4⟩ := hall ev h1 h2
      refine ⟨by rw [announce_spec ev h2, if_pos h3], o, h4, ?_⟩
      rintro r rfl
      rw [hinv] at h4
      exact complete_of_invert hset hb (hs [ev]) h4)
  have hnone : st.events = [] ↔ ∀ ev ∈ events, (originTime ev).isSome → inv [ev] = .ok none := by
    rw [e3]
    simp only [true_and, hmem, and_imp]
  rw [he, if_neg (by simp)]
  unfold separately
  simp only [e1, bind, Except.bind]
  by_cases h0 : st.events = []
  · rw [if_pos (by rw [h0]; rfl)]
    exact ⟨none, rfl, by simp only [true_iff]; exact hnone.1 h0, by simp⟩
  · rw [if_neg (by rwa [List.length_eq_zero_iff])]
    obtain ⟨w, hw, hw1, hw2⟩ := means_total (rlm := rlm) (mean := mean) h0 e2 (st.freq.getD [])
    refine ⟨some w, hw, by simp only [reduceCtorEq, false_iff]; exact fun h => h0 (hnone.2 h), ?_⟩
    intro w' hw'
    obtain rfl := Option.some.inj hw'
    refine ⟨by rw [hw1, e4 h0]; rfl, by rw [hw2]; exact h0, ?_⟩
    rw [hw2]
    exact e2

theorem separate_only_if {inv : List Event → Py (Option InvRes)} {codaNorm : Bool} (hn : events.Nodup)
    {out : Option WrapRes} (h : invertWrapper rlm inv codaNorm false mean events = .ok out) :
    ¬ Tie events ∧ (∃ ev ∈ events, (originTime ev).isSome) ∧
      ∀ ev ∈ events, (originTime ev).isSome → (originDepth ev).isSome ∧ ∃ o, inv [ev] = .ok o := by
  obtain ⟨f1, f2, -⟩ := C25_failures rlm inv codaNorm false mean events hn
  refine ⟨fun ht => ?_, ?_, ?_⟩
  · rw [f1 ht] at h; simp at h
  · by_contra hno
    push Not at hno
    rw [f2 (fun ev hev => by simpa using hno ev hev)] at h
    simp at h
  · intro ev hev ho
    constructor
    · by_contra hd
      obtain ⟨e, he⟩ := C120_stop_counterexample (rlm := rlm) (inv := inv)
        (codaNorm := codaNorm) (mean := mean) hn hev ho (Or.inr (by simpa using hd))
      rw [he] at h; simp at h
    · cases hi : inv [ev] with
      | ok o => exact ⟨o, rfl⟩
      | error e =>
        obtain ⟨e', he⟩ := C120_stop_counterexample (rlm := rlm) (inv := inv)
          (codaNorm := codaNorm) (mean := mean) hn hev ho (Or.inl ⟨e, hi⟩)
        rw [he] at h; simp at h

theorem firstEvent_total {res : FigRes} (h : res.events ≠ []) :
    ∃ e, e ∈ res.events ∧ firstEvent res = .ok e.2 := by
  unfold firstEvent
  cases hv : res.events with
  | nil => exact absurd hv h
  | cons e l => exact ⟨e, List.mem_cons_self, rfl⟩

theorem checkBands_total {rows : List (List Cell)} {nf : ℕ} (h : ∀ r ∈ rows, r.length = nf) :
    checkBands rows nf = .ok () := by
  unfold checkBands
  rw [if_pos]
  rw [List.all_eq_true]
  intro r hr
  simpa using h r hr

/-- The misfits used as weights: one row for each event. -/
theorem errorRows_total {go : Bool} {st : Option (List String)} {nf : ℕ}
    {events : Dict String (Dict String RVal)} (hne : events ≠ [])
    (hf : ∀ e ∈ events, CompleteEvent go st nf e.2)
    {only : List String} {col : Dict String ColVal} (hn : only.Nodup)
    (h : collectResults (events.mapVals some) only = .ok col)
    (hC : Collected (fun c => if c = "v0" then none else some nf) nf col) (hc : "error" ∈ only)
    (mean : Mean) : ∃ errs, errorRows col mean = .ok errs ∧ ∀ rows : List (List Cell),
      rows.length = events.length → ErrsFit mean errs rows nf := by
  unfold errorRows
  cases mean with
  | plain => exact ⟨[], rfl, fun _ _ h => by simp at h⟩
  | robust => exact ⟨[], rfl, fun _ _ h => by simp at h⟩
  | weighted =>
    obtain ⟨a, ha, h0, hl⟩ := array_rows hne hf hn h hC hc (by decide)
    cases a with
    | none => simp at h0
    | some rows =>
      obtain ⟨-, h1, h2, -⟩ := hl rows rfl
      simp only [ha, bind, Except.bind]
      exact ⟨rows, rfl, fun r hr _ => ⟨by rw [h1, hr], h2⟩⟩

/-- The figure of the site responses. -/
theorem plotSites_total {go : Bool} {st : Option (List String)} {fig : FigRes} (hne : fig.events ≠ [])
    (hc : ∀ e ∈ fig.events, CompleteEvent go st fig.freq.length e.2) (hR : st ≠ none) :
    ((∃ sta, HasValue fig.events sta) → ∃ sf, plotSites rlm mean fig = .ok sf) ∧
    ((¬ ∃ sta, HasValue fig.events sta) → plotSites rlm mean fig = .error .valueError) := by
  obtain ⟨e0, he0, hfirst⟩ := firstEvent_total hne
  obtain ⟨col, hcol, hC⟩ := collect_total (events := fig.events) (only := ["R", "error"])
    (fun e he => fits_of_complete (hc e he) (by decide)) (by decide)
  obtain ⟨R, hRa, hRl⟩ := sitesArray_total hC
  obtain ⟨hw, hRn, hspec⟩ := sites_rows hc (by decide) (by decide) hcol hRa
  obtain ⟨errs, herr, hfit⟩ := errorRows_total hne hc (by decide) hcol hC (by decide) mean
  have hkey : "R" ∈ e0.2.keys := by
    obtain ⟨l, hl⟩ := Option.ne_none_iff_exists'.1 hR
    obtain ⟨d, hd, -⟩ := (hc e0 he0).R l hl
    rw [← Dict.get?_isSome, hd]
    rfl
  have hshown : ∀ sta, sta ∈ (sortedKeys R).filter (fun s => !noValue ((R.get? s).getD [])) ↔
      HasValue fig.events sta := by
    intro sta
    rw [List.mem_filter, (FigureSites.sortedKeys_perm R).mem_iff, ← Dict.get?_isSome]
    rcases hspec sta with ⟨h1, h2⟩ | ⟨h1, h2⟩
    · rw [h2]
      simp only [Option.isSome_none, Bool.false_eq_true, false_and, false_iff]
      rintro ⟨row, hrow, _⟩
      rw [h1] at hrow
      simp at hrow
    · rw [h2, ← FigureSites.noValue_iff]
      simp
  unfold plotSites
  simp only [hfirst, bind, Except.bind]
  rw [if_pos hkey]
  simp only [hcol, hRa, herr]
  constructor
  · rintro ⟨sta, hsta⟩
    have hmem := (hshown sta).2 hsta
    rw [if_neg (fun h0 => by
      rw [List.length_eq_zero_iff] at h0
      rw [h0] at hmem
      simp [sortedKeys, Dict.keys] at hmem),
      if_neg (fun h0 => by
      rw [List.length_eq_zero_iff] at h0
      rw [h0] at hmem
      simp at hmem)]
    obtain ⟨ps, hps⟩ := mapExc_total (f := sitePanel rlm mean fig.freq.length R errs)
      (l := (sortedKeys R).filter (fun s => !noValue ((R.get? s).getD []))) (by
        intro s hs
        have hk := (FigureSites.sortedKeys_perm R).mem_iff.1 (List.mem_filter.1 hs).1
        rw [← Dict.get?_isSome] at hk
        obtain ⟨rows, hrows⟩ := Option.isSome_iff_exists.1 hk
        obtain ⟨m, hmm⟩ := gerrTable_total rlm rows errs fig.freq.length
          (hfit rows (hRn _ (Dict.mem_of_get? hrows)).2)
        unfold sitePanel
        rw [hrows]
        simp only [checkBands_total (hRl _ (Dict.mem_of_get? hrows)), hmm, bind, Except.bind]
        exact ⟨_, rfl⟩)
    rw [hps]
    exact ⟨_, rfl⟩
  · intro hno
    have hnil : (sortedKeys R).filter (fun s => !noValue ((R.get? s).getD [])) = [] := by
      rw [List.eq_nil_iff_forall_not_mem]
      intro s hs
      exact hno ⟨s, (hshown s).1 hs⟩
    rw [hnil]
    simp

/-- The collected velocities. -/
theorem collectedV0_total {events : Dict String (Dict String RVal)} {col : Dict String ColVal}
    {only : List String} (hn : only.Nodup) (hmem : "v0" ∈ only)
    (hcol : collectResults (events.mapVals some) only = .ok col) (hne : events ≠ [])
    (h : ∀ e ∈ events, ∃ v, e.2.get? "v0" = some (.cell (.num v))) :
    ∃ l : List ℝ, collectedV0 col = .ok (.arr l) ∧ l.length = events.length := by
  have hlen := length_valuesOf (c := "v0") (fun e he => let ⟨_, hv⟩ := h e he; ⟨_, hv⟩)
  have hall : ∀ v ∈ Spec.valuesOf (events.mapVals some) "v0", ∃ x : ℝ, v = .cell (.num x) := by
    intro v hv
    unfold Spec.valuesOf Dict.mapVals at hv
    obtain ⟨q, hq, hqv⟩ := List.mem_filterMap.1 hv
    obtain ⟨e, he, rfl⟩ := List.mem_map.1 hq
    obtain ⟨x, hx⟩ := h e he
    simp only [Option.bind_some] at hqv
    rw [hx, Option.some.injEq] at hqv
    exact ⟨x, hqv.symm⟩
  rcases C39_values hn hcol hmem (by decide) (by decide) with ⟨e1, -⟩ | ⟨xs, a, e1, -, ⟨rfl, -⟩, e3⟩
  · rw [e1] at hlen
    exact absurd (List.length_eq_zero_iff.1 hlen.symm) hne
  · obtain ⟨l, hl⟩ := mapExc_total (l := xs.map Item.toFloat)
      (f := fun x => (match x with | .cell (.num v) => .ok v | _ => .error .other : Py ℝ)) (by
        intro x hx
        obtain ⟨y, hy, rfl⟩ := List.mem_map.1 hx
        obtain ⟨v, hv, hp⟩ := FigureSites.forall₂_right e1 y hy
        obtain ⟨z, rfl⟩ := hall v hv
        rcases hp with ⟨-, ⟨b, hb, rfl⟩ | ⟨b, hb, -⟩⟩ | ⟨hne', -⟩
        · simp only [RVal.cell.injEq] at hb
          rw [← hb]
          exact ⟨z, rfl⟩
        · simp at hb
        · exact absurd rfl hne')
    refine ⟨l, ?_, ?_⟩
    · unfold collectedV0
      rw [e3]
      exact bind_ok.2 ⟨l, hl, rfl⟩
    · rw [mapExc_length hl, List.length_map, ← e1.length_eq, hlen]

theorem panel_total {freq : List ℝ} {v0 : V0} (errs : List (List Cell))
    {rows : List (List Cell)} {q : String} (hq : q ∈ plain ++ ["lsc", "Qsc", "li", "Qi"])
    (hr : ∀ r ∈ rows, r.length = freq.length) (hne : rows ≠ [])
    (hm : ∀ t : List (List Cell), t.length = rows.length → ErrsFit mean errs t freq.length)
    (hv : v0 = .arr l ∧ l.length = rows.length ∨ ∃ v, v0 = .num v) :
    ∃ t m, checkBands rows freq.length = .ok () ∧
      calcDependent q (.table rows) (some freq) v0 = .ok (some (.table t)) ∧
      gerrTable rlm mean (t.map (fun r => r.map ofOpt)) errs freq.length = .ok m := by
  have hhead : (rows.headD []).length = freq.length := by
    cases rows with
    | nil => exact absurd rfl hne
    | cons a rows => exact hr a List.mem_cons_self
  obtain ⟨vs, hvs, hvl⟩ : ∃ vs, v0For q v0 rows.length = .ok vs ∧ vs.length = rows.length := by
    rcases hv with ⟨rfl, hl⟩ | ⟨v, rfl⟩
    · unfold v0For
      simp only [hl, if_true]
      split_ifs <;> exact ⟨_, rfl, by simp [hl]⟩
    · exact ⟨_, rfl, by simp⟩
  obtain ⟨f, hf⟩ : ∃ f, freqsFor q (some freq) freq.length = .ok f := by
    unfold freqsFor
    simp only [if_true]
    split_ifs <;> exact ⟨_, rfl⟩
  obtain ⟨m, hmm⟩ := gerrTable_total rlm ((dependTable q f vs rows).map (fun r => r.map ofOpt)) errs
    freq.length (hm _ (by rw [List.length_map]; unfold dependTable; rw [List.length_zipWith, hvl, min_self]))
  refine ⟨dependTable q f vs rows, m, checkBands_total hr, ?_, hmm⟩
  unfold calcDependent
  simp only [hhead]
  rw [if_neg]
  · simp only [hvs, bind, Except.bind]
    rw [if_pos hq]
    simp only [hf]
    rfl
  · rw [List.any_eq_true]
    rintro ⟨r, hr', hne'⟩
    rw [hr r hr'] at hne'
    simp at hne'

/-- The figure of the results. -/
theorem plotResults_total {st : Option (List String)} {fig : FigRes} (hne : fig.events ≠ [])
    (hc : ∀ e ∈ fig.events, CompleteEvent true st fig.freq.length e.2) (v0 : Option ℝ) {qs : List String}
    (hq : ∀ q ∈ qs, q = "nobs" ∨ q ∈ drawable) :
    ∃ ps, plotResults rlm mean fig v0 qs = .ok ps := by
  obtain ⟨e0, he0, hfirst⟩ := firstEvent_total hne
  obtain ⟨col, hcol, hC⟩ := collect_total (events := fig.events) (only := ["g0", "b", "error", "v0"])
    (fun e he => fits_of_complete (hc e he) (by decide)) (by decide)
  obtain ⟨errs, herr, hfit⟩ := errorRows_total hne hc (by decide) hcol hC (by decide) mean
  obtain ⟨l, hl, hll⟩ := collectedV0_total (by decide) (by decide) hcol hne (fun e he => (hc e he).v0)
  obtain ⟨V, hV, hVl⟩ : ∃ V, chooseV0 v0 fig.v0 (collectedV0 col) = .ok V ∧
      (V = .arr l ∧ l.length = fig.events.length ∨ ∃ v, V = .num v) := by
    unfold chooseV0 chooseV0.inner
    rw [hl]
    split
    · split_ifs
      · exact ⟨_, rfl, Or.inr ⟨_, rfl⟩⟩
      · split
        · split_ifs
          · exact ⟨_, rfl, Or.inr ⟨_, rfl⟩⟩
          · exact ⟨_, rfl, Or.inl ⟨rfl, hll⟩⟩
        · exact ⟨_, rfl, Or.inl ⟨rfl, hll⟩⟩
    · split
      · split_ifs
        · exact ⟨_, rfl, Or.inr ⟨_, rfl⟩⟩
        · exact ⟨_, rfl, Or.inl ⟨rfl, hll⟩⟩
      · exact ⟨_, rfl, Or.inl ⟨rfl, hll⟩⟩
  have harr : ∀ c ∈ ["g0", "b", "error"], ∃ rows, arrayOf col c = .ok (some rows) ∧
      (∀ r ∈ rows, r.length = fig.freq.length) ∧ rows.length = fig.events.length := by
    intro c hc'
    obtain ⟨a, ha, h0, hl⟩ := array_rows hne hc (by decide) hcol hC (c := c) (by
      simp only [List.mem_cons, List.not_mem_nil, or_false] at hc' ⊢
      tauto) hc'
    cases a with
    | none => simp at h0
    | some rows => exact ⟨rows, ha, (hl rows rfl).2.2.1, (hl rows rfl).2.1⟩
  have hkey : "g0" ∈ e0.2.keys := by
    rw [← Dict.get?_isSome]
    obtain ⟨l, x, h1, -⟩ := (hc e0 he0).g0 rfl
    rw [h1]; rfl
  unfold plotResults
  simp only [hfirst, bind, Except.bind]
  rw [if_pos hkey]
  simp only [hcol, hV, herr]
  refine mapExc_total ?_
  intro q hq'
  suffices ∃ p, panelOf rlm mean fig.freq V col errs q = .ok p by
    obtain ⟨p, hp⟩ := this
    exact ⟨(q, p), by rw [hp]; rfl⟩
  unfold panelOf
  rcases hq q hq' with rfl | hqd
  · obtain ⟨rows, h1, -⟩ := harr "g0" (by decide)
    rw [if_pos rfl]
    simp only [h1]
    exact ⟨_, rfl⟩
  · obtain ⟨c, hdc, hcm, hpl, hqn⟩ : ∃ c, depMap.get? q = some c ∧ c ∈ ["g0", "b", "error"] ∧
        q ∈ plain ++ ["lsc", "Qsc", "li", "Qi"] ∧ q ≠ "nobs" := by
      simp only [drawable, List.mem_cons, List.not_mem_nil, or_false] at hqd
      rcases hqd with rfl | rfl | rfl | rfl | rfl | rfl | rfl <;>
        exact ⟨_, rfl, by decide, by decide, by decide⟩
    obtain ⟨rows, h1, h2, h3⟩ := harr c hcm
    obtain ⟨t, m, k1, k2, k3⟩ := panel_total (rlm := rlm) (mean := mean) (l := l) (freq := fig.freq) (v0 := V) errs
      hpl h2 (fun h0 => by
        rw [h0] at h3
        exact hne (List.length_eq_zero_iff.1 h3.symm)) (fun t ht => hfit t (ht.trans h3))
      (by rw [h3]; exact hVl)
    rw [if_neg hqn, hdc]
    simp only [h1, k1, k2, k3, bind, Except.bind]
    exact ⟨_, rfl⟩

end Total

open Total

section

variable {env : Env} {cfg : InvCfg} {cpus : ℕ} {bands : Dict ℝ (ℝ × ℝ)} {rlm : List ℝ → ℝ × ℝ}
  {mean : Mean} {events : List Event} {schedule : List Event → List ℕ}

/-- **C135**: if each event is inverted separately, the whole inversion returns if and only if each
inversion of a single event returns and the events can be put in order and announced: after the
inversions nothing can fail, with any mean.  The result is `None` if and only if no event has a
result. -/
theorem C135_separate (hset : IsSetOrder env.setOrder) (hid : (events.map getEventid).Nodup)
    (hb : getFreqs cfg.freqs = .ok bands)
    (hs : ∀ evs, Schedule cfg (bands.map Prod.snd) cpus (schedule evs)) :
    let inv := fun evs => invert env cfg cpus (schedule evs) evs
    ((∃ out, invertWrapper rlm inv cfg.codaNorm.isSome false mean events = .ok out) ↔
      ¬ Tie events ∧ (∃ ev ∈ events, (originTime ev).isSome) ∧
      ∀ ev ∈ events, (originTime ev).isSome → (originDepth ev).isSome ∧ ∃ o, inv [ev] = .ok o) ∧
    ∀ out, invertWrapper rlm inv cfg.codaNorm.isSome false mean events = .ok out →
      (out = none ↔ ∀ ev ∈ events, (originTime ev).isSome → inv [ev] = .ok none) := by
  intro inv
  have hn : events.Nodup := hid.of_map _
  refine ⟨⟨fun ⟨out, h⟩ => separate_only_if hn h, fun ⟨a, b, c⟩ => ?_⟩, ?_⟩
  · obtain ⟨out, h, -⟩ := separate_total (rlm := rlm) hset hn hb hs (inv := inv) rfl a b c
    exact ⟨out, h⟩
  · intro out h
    obtain ⟨a, b, c⟩ := separate_only_if hn h
    obtain ⟨out', h', hi, -⟩ := separate_total (rlm := rlm) hset hn hb hs (inv := inv) rfl a b c
    rw [h, Except.ok.injEq] at h'
    rw [h']; exact hi

/-- **C135**: the figure of the site responses of separately inverted events is drawn if and
only if there is a value to show; without any value it raises `ValueError`. -/
theorem C135_sites_figure (hset : IsSetOrder env.setOrder)
    (hid : (events.map getEventid).Nodup) (hb : getFreqs cfg.freqs = .ok bands)
    (hs : ∀ evs, Schedule cfg (bands.map Prod.snd) cpus (schedule evs))
    (hcmd : cfg.cmd ≠ .source) (hco : cfg.codaNorm = none) {w : WrapRes}
    (h : invertWrapper rlm (fun evs => invert env cfg cpus (schedule evs) evs) cfg.codaNorm.isSome false
      mean events = .ok (some w))
    {fig : FigRes} (hf : fig.freq = w.freq) (he : fig.events = w.events) {mean' : Mean} :
    ((∃ sta, HasValue w.events sta) → ∃ sf, plotSites rlm mean' fig = .ok sf) ∧
    ((¬ ∃ sta, HasValue w.events sta) → plotSites rlm mean' fig = .error .valueError) := by
  have hn : events.Nodup := hid.of_map _
  obtain ⟨a, b, c⟩ := separate_only_if hn h
  obtain ⟨out', h', hi, hw⟩ := separate_total (rlm := rlm) hset hn hb hs rfl a b c
  rw [h, Except.ok.injEq] at h'
  have hw := hw w h'.symm
  rw [← he]
  refine plotSites_total (by rw [he]; exact hw.some_event)
    (by rw [he, hf, hw.freq, List.length_map]; exact hw.complete) ?_
  have hex : ¬ ∀ ev ∈ events, (originTime ev).isSome →
      invert env cfg cpus (schedule [ev]) [ev] = .ok none := by
    rw [← hi, ← h']
    simp
  push Not at hex
  obtain ⟨ev, hev, ho, hne⟩ := hex
  obtain ⟨-, o, ho'⟩ := c ev hev ho
  cases o with
  | none => exact absurd ho' hne
  | some r =>
    obtain ⟨l, -, hl, -⟩ := C23_tables (by simp) hb (hs [ev]) ho'
    unfold stationRows
    rw [if_neg (by simp [hcmd, hco]), hl]
    simp

/-- **C135**: the figure of the results of separately inverted events is drawn for every list of
the documented quantities, whatever velocity is given. -/
theorem C135_results_figure (hset : IsSetOrder env.setOrder)
    (hid : (events.map getEventid).Nodup) (hb : getFreqs cfg.freqs = .ok bands)
    (hs : ∀ evs, Schedule cfg (bands.map Prod.snd) cpus (schedule evs))
    (hcmd : cfg.cmd = .go) {w : WrapRes}
    (h : invertWrapper rlm (fun evs => invert env cfg cpus (schedule evs) evs) cfg.codaNorm.isSome false
      mean events = .ok (some w))
    {fig : FigRes} (hf : fig.freq = w.freq) (he : fig.events = w.events) {mean' : Mean} (v0 : Option ℝ) {qs : List String}
    (hq : ∀ q ∈ qs, q = "nobs" ∨ q ∈ drawable) :
    ∃ ps, plotResults rlm mean' fig v0 qs = .ok ps := by
  have hn : events.Nodup := hid.of_map _
  obtain ⟨a, b, c⟩ := separate_only_if hn h
  obtain ⟨out', h', -, hw⟩ := separate_total (rlm := rlm) hset hn hb hs rfl a b c
  rw [h, Except.ok.injEq] at h'
  have hw := hw w h'.symm
  have hgo : decide (cfg.cmd = .go) = true := by simpa using hcmd
  refine plotResults_total (by rw [he]; exact hw.some_event)
    (by rw [he, hf, hw.freq, List.length_map, ← hgo]; exact hw.complete) v0 hq

/-- **C135**: if all events are inverted at once, the whole inversion returns if and only if the events
can be put in order and the inversion of the ordered events has a result; it never returns `None`. -/
theorem C135_simultaneous {inv : List Event → Py (Option InvRes)} {codaNorm : Bool}
    (hid : (events.map getEventid).Nodup) :
    ((∃ out, invertWrapper rlm inv codaNorm true mean events = .ok out) ↔
      ¬ Tie events ∧ ∃ order r, InTimeOrder events order ∧ order ≠ [] ∧ inv order = .ok (some r)) ∧
    ∀ out, invertWrapper rlm inv codaNorm true mean events = .ok out → out ≠ none := by
  have hn : events.Nodup := hid.of_map _
  obtain ⟨f1, f2, f3⟩ := C25_failures rlm inv codaNorm true mean events hn
  have hcase : ∀ out, invertWrapper rlm inv codaNorm true mean events = .ok out →
      ¬ Tie events ∧ (∃ order r, InTimeOrder events order ∧ order ≠ [] ∧ inv order = .ok (some r)) ∧
        out ≠ none := by
    intro out h
    have ht : ¬ Tie events := fun ht => by rw [f1 ht] at h; simp at h
    have ho : ∃ ev ∈ events, (originTime ev).isSome := by
      by_contra hno
      push Not at hno
      rw [f2 (fun ev hev => by simpa using hno ev hev)] at h
      simp at h
    obtain ⟨order, hord, he⟩ := f3 ht ho
    rw [he, if_pos rfl] at h
    obtain ⟨o, h1, h2⟩ := bind_ok.1 h
    cases o with
    | none => simp at h2
    | some r =>
      refine ⟨ht, ⟨order, r, hord, ?_, h1⟩, ?_⟩
      · obtain ⟨ev, hev, hs⟩ := ho
        intro h0
        have := hord.perm.mem_iff.2 (List.mem_filter.2 ⟨hev, hs⟩)
        rw [h0] at this
        simp at this
      · simp only [pure, Except.pure, Except.ok.injEq] at h2
        rw [← h2]; simp
  refine ⟨⟨fun ⟨out, h⟩ => ⟨(hcase out h).1, (hcase out h).2.1⟩, ?_⟩, fun out h => (hcase out h).2.2⟩
  rintro ⟨ht, order, r, hord, hne, h⟩
  unfold invertWrapper
  rw [Wrapper.orderEvents_eq hn ht hord hne]
  simp only [bind, Except.bind, if_true]
  unfold simultaneously
  simp only [h, bind, Except.bind]
  exact ⟨_, rfl⟩

/-- **C135**: the figure of the site responses of a single event is drawn if and only if the result has
site responses, some station has a value, and each station with a value has one entry per frequency. -/
theorem C135_event_sites {res : OneRes} (hwf : ∀ R, res.R = some R → R.WF) :
    (∃ F, plotEventsites res = .ok F) ↔ ∃ R, res.R = some R ∧ (∃ p ∈ R, ∃ x : ℝ, Cell.num x ∈ p.2) ∧
      ∀ p ∈ R, (∃ x : ℝ, Cell.num x ∈ p.2) → p.2.length = res.freq.length := by
  unfold plotEventsites
  cases hR : res.R with
  | none => simp
  | some R =>
    have hw := hwf R hR
    have hval : ∀ l : List Cell, l.all (fun c => c.val?.isNone) = false ↔ ∃ x : ℝ, Cell.num x ∈ l := by
      intro l
      rw [← Bool.not_eq_true, List.all_eq_true]
      push Not
      constructor
      · rintro ⟨c, hc, hn⟩
        cases c with
        | num x => exact ⟨x, hc⟩
        | none => simp [Cell.val?] at hn
        | nan => simp [Cell.val?] at hn
      · rintro ⟨x, hx⟩
        exact ⟨_, hx, by simp [Cell.val?]⟩
    have hsite : (∃ ps, mapExc (eventSite R res.freq.length) (sortedKeys R) = .ok ps) ↔
        ∀ p ∈ R, (∃ x : ℝ, Cell.num x ∈ p.2) → p.2.length = res.freq.length := by
      constructor
      · rintro ⟨ps, hps⟩ p hp hx
        have hk : p.1 ∈ sortedKeys R :=
          (FigureSites.sortedKeys_perm R).mem_iff.2 (List.mem_map.2 ⟨p, hp, rfl⟩)
        obtain ⟨q, -, hq⟩ := FigureSites.forall₂_left (mapExc_ok.1 hps) _ hk
        unfold eventSite at hq
        rw [Dict.get?_of_mem hw hp] at hq
        simp only [(hval p.2).2 hx, Bool.false_eq_true, if_false] at hq
        by_contra hne
        rw [if_pos hne] at hq
        simp at hq
      · intro h
        refine mapExc_total ?_
        intro s hs
        have hk := (FigureSites.sortedKeys_perm R).mem_iff.1 hs
        rw [← Dict.get?_isSome] at hk
        obtain ⟨l, hl⟩ := Option.isSome_iff_exists.1 hk
        unfold eventSite
        rw [hl]
        simp only
        by_cases ha : l.all (fun c => c.val?.isNone) = true
        · rw [if_pos ha]; exact ⟨_, rfl⟩
        · rw [if_neg ha, if_neg (by
            rw [not_not]
            exact h _ (Dict.mem_of_get? hl) ((hval l).1 (by simpa using ha)))]
          exact ⟨_, rfl⟩
    have hsome : (R.map Prod.snd).flatten.filterMap Cell.val? = [] ↔
        ¬ ∃ p ∈ R, ∃ x : ℝ, Cell.num x ∈ p.2 := by
      rw [List.filterMap_eq_nil_iff]
      push Not
      constructor
      · intro h p hp x hx
        have := h _ (List.mem_flatten.2 ⟨p.2, List.mem_map.2 ⟨p, hp, rfl⟩, hx⟩)
        simp [Cell.val?] at this
      · intro h c hc
        obtain ⟨l, hl, hc⟩ := List.mem_flatten.1 hc
        obtain ⟨p, hp, rfl⟩ := List.mem_map.1 hl
        cases c with
        | num x => exact absurd hc (h p hp x)
        | none => rfl
        | nan => rfl
    simp only [Option.some.injEq, exists_eq_left']
    rw [← hsite]
    constructor
    · rintro ⟨F, h⟩
      by_cases h0 : R.length = 0
      · rw [if_pos h0] at h; simp at h
      · rw [if_neg h0] at h
        obtain ⟨ps, hps, h⟩ := bind_ok.1 h
        refine ⟨?_, ps, hps⟩
        by_contra hno
        rw [hsome.2 hno] at h
        simp at h
    · rintro ⟨⟨p, hp, hx⟩, ps, hps⟩
      rw [if_neg (fun h0 => by rw [List.length_eq_zero_iff] at h0; rw [h0] at hp; simp at hp)]
      simp only [hps, bind, Except.bind]
      cases hv : (R.map Prod.snd).flatten.filterMap Cell.val? with
      | nil => exact absurd ⟨p, hp, hx⟩ (hsome.1 hv)
      | cons x xs => exact ⟨_, rfl⟩

end

/-! ## Examples -/

namespace ReturnsExample

open TruthChainExample JobsExample TablesExample

/-- The inversion of an event with origin and one without returns; the figures are drawn. -/
example (rlm : List ℝ → ℝ × ℝ) (noOrigin : Event) (hno : noOrigin.origins = [])
    (hpref : noOrigin.preferredOrigin = none)
    (hidne : getEventid noOrigin ≠ getEventid exEvent) :
    (∃ w, invertWrapper rlm (fun evs => invert env cfg 1 [] evs) false false .robust
      [noOrigin, exEvent] = .ok (some w)) ∧
    ∀ w, invertWrapper rlm (fun evs => invert env cfg 1 [] evs) false false .robust
      [noOrigin, exEvent] = .ok (some w) → ∃ ps, plotResults rlm .plain
        { freq := w.freq, events := w.events, top := [], v0 := none } none
        ["g0", "Qsc", "nobs", "li", "error"] = .ok ps := by
  have hid : ([noOrigin, exEvent].map getEventid).Nodup := by simpa using hidne
  have hs : ∀ evs : List Event, Schedule cfg (bands.map Prod.snd) 1 ((fun _ => []) evs) :=
    fun _ hne => absurd (show cfg.njobs = some 1 from rfl) hne
  have hO : originTime noOrigin = none := by simp [originTime, hno, hpref]
  obtain ⟨hiff, hnone⟩ := C135_separate (rlm := rlm) (mean := .robust) (events := [noOrigin, exEvent])
    (schedule := fun _ => []) set_order hid freqs hs
  obtain ⟨r, hr⟩ := invert_one'
  obtain ⟨out, hout⟩ := hiff.2 ⟨by
      rintro ⟨a, ha, b, hb, hne, h1, h2⟩
      simp only [List.mem_cons, List.not_mem_nil, or_false] at ha hb
      rcases ha with rfl | rfl <;> rcases hb with rfl | rfl
      · exact hne rfl
      · rw [hO] at h1; simp at h1
      · rw [h2, hO] at h1; simp at h1
      · exact hne rfl, ⟨exEvent, by simp, rfl⟩, by
      intro ev hev ho
      simp only [List.mem_cons, List.not_mem_nil, or_false] at hev
      rcases hev with rfl | rfl
      · rw [hO] at ho; simp at ho
      · exact ⟨rfl, _, hr⟩⟩
  constructor
  · cases out with
    | none =>
      have := (hnone _ hout).1 rfl exEvent (by simp) rfl
      simp only [hr] at this
      simp at this
    | some w => exact ⟨w, hout⟩
  · intro w hw
    exact C135_results_figure (schedule := fun _ => []) set_order hid freqs hs rfl hw
      rfl rfl none (by decide)

/-- With one event at once. -/
example (rlm : List ℝ → ℝ × ℝ) : ∃ out, invertWrapper rlm (fun evs => invert env cfg 1 [] evs) false true
    .weighted [exEvent] = .ok out := by
  obtain ⟨r, hr⟩ := invert_one'
  refine (C135_simultaneous (by simp)).1.2 ⟨?_, [exEvent], r, ⟨?_, by simp⟩, by simp, hr⟩
  · rintro ⟨a, ha, b, hb, hne, -⟩
    simp only [List.mem_cons, List.not_mem_nil, or_false] at ha hb
    exact hne (ha.trans hb.symm)
  · rw [List.filter_cons_of_pos (by rfl)]
    exact List.Perm.refl _

/-- A station with a value and one without; the row without a value may have any length. -/
example : ∃ F, plotEventsites 
    { freq := [1, 2], R := some [("A", [.num 1, .none]), ("B", [.none])], events := [] } = .ok F := by
  refine (C135_event_sites ?_).2 ⟨_, rfl, ⟨_, List.mem_cons_self, 1, by simp⟩, ?_⟩
  · intro R hR
    obtain rfl := Option.some.inj hR
    show [_, _].Nodup
    simp
  · intro p hp ⟨x, hx⟩
    simp only [List.mem_cons, List.not_mem_nil, or_false] at hp
    rcases hp with rfl | rfl
    · rfl
    · simp at hx

end ReturnsExample

end Qopen
