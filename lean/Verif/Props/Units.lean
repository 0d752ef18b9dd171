import Verif.Lemmas.Move
import Verif.Props.Windows
import Verif.Props.TimeAxis
import Verif.Props.InvertOrder
import Verif.Props.InvertOrderSource

/-!
# Absolute times and units of the waveforms (C118, C119)
-/

namespace Qopen

open Real Util Tr Energy InvertFb Window Spec Move

namespace Move

variable {lib : Lib} {cfg : WCfg} {v0 : ℝ} {f : String × String → ℝ}

/-- Two states of the loop over the energies, the second one with all energies of pair `p`
multiplied by `f p`; `acc` are the accepted pairs. -/
structure WRel (cfg : WCfg) (f : String × String → ℝ) (acc : List (String × String))
    (st st' : WState) : Prop where
  energies : st'.energies = st.energies
  distances : st'.distances = st.distances
  tcoda : st'.tcoda = st.tcoda
  tbulk : st'.tbulk = st.tbulk
  weightsBulk : st'.weightsBulk = st.weightsBulk
  tbulkWindow : st'.tbulkWindow = st.tbulkWindow
  len : acc.length = st.Ecoda.length
  Ecoda : st'.Ecoda = List.zipWith (fun p e => e.map (f p * ·)) acc st.Ecoda
  lenBulk : cfg.bulkWindow.isSome → acc.length = st.Ebulk.length
  noBulk : cfg.bulkWindow.isSome = false → st.Ebulk = []
  Ebulk : st'.Ebulk = List.zipWith (fun p e => f p * e) acc st.Ebulk

/-- Two outcomes: the same error, or related states. -/
def PyRel {α : Type} (P : α → α → Prop) : Py α → Py α → Prop
  | .ok a, .ok b => P a b
  | .error e, .error e' => e = e'
  | _, _ => False

/-- What a step does with pair `p`: it is removed or accepted. -/
def Stepped (cfg : WCfg) (f : String × String → ℝ) (acc : List (String × String)) (st : WState)
    (p : String × String) (s s' : WState) : Prop :=
  (s.energies = st.energies.erase p ∧ WRel cfg f acc s s') ∨
  (s.energies = st.energies ∧ WRel cfg f (acc ++ [p]) s s')

variable {acc : List (String × String)} {st st' : WState} {tr : Trace} {c : ℝ}

theorem removed (h : WRel cfg f acc st st') :
    PyRel (Stepped cfg f acc st tr.pair) (.ok (st.remove tr)) (.ok (st'.remove (move c (f tr.pair) tr))) := by
  left
  refine ⟨rfl, ?_⟩
  obtain ⟨h1, h2, h3, h4, h5, h6, h7, h8, h9, h9', h10⟩ := h
  refine ⟨?_, h2, h3, h4, h5, h6, h7, h8, h9, h9', h10⟩
  simp only [WState.remove, h1, move_pair]

/-- The values of a bulk window in other units. -/
def scaleBulk (k : ℝ) (b : Bulk) : Bulk := ⟨b.N, k * b.E, b.t⟩

theorem timeAxis_move (k start : ℝ) (n : ℕ) :
    timeAxis (move c k tr) v0 (start + c) n = timeAxis tr v0 start n := by
  unfold timeAxis
  apply List.map_congr_left
  intro i _
  simp only [move]
  ring

theorem collect_move (h : WRel cfg f acc st st') (bulk : Option Bulk)
    (hb : bulk.isSome = cfg.bulkWindow.isSome) (w : ℝ × ℝ) :
    PyRel (Stepped cfg f acc st tr.pair) (collect cfg v0 st tr bulk w)
      (collect cfg v0 st' (move c (f tr.pair) tr) (bulk.map (scaleBulk (f tr.pair))) (later c w)) := by
  unfold collect
  rw [getSlice_move]
  cases getSlice tr w with
  | none => exact removed h
  | some esl =>
    have ed : (move c (f tr.pair) esl).data = esl.data.map (f tr.pair * ·) := rfl
    have et : (later c w).1 = w.1 + c := rfl
    simp only [Option.map_some, ed, et, List.length_map, timeAxis_move]
    cases bulk with
    | none =>
      right
      obtain ⟨h1, h2, h3, h4, h5, h6, h7, h8, h9, h9', h10⟩ := h
      refine ⟨rfl, h1, h2, by simp only [h3], h4, h5, h6, by simp [h7], ?_, ?_, ?_, ?_⟩
      · simp only [h8]
        rw [List.zipWith_append h7]
        rfl
      · intro hs
        rw [← hb] at hs
        simp at hs
      · exact h9'
      · have : st.Ebulk = [] := h9' (by rw [← hb]; rfl)
        simp only [h10, this, List.zipWith_nil_right]
    | some b =>
      simp only [Option.map_some, scaleBulk]
      cases weightUnit cfg.weight.2 esl.data.length b.N with
      | error e => exact rfl
      | ok unit =>
        right
        have hb' : cfg.bulkWindow.isSome = true := by rw [← hb]; rfl
        obtain ⟨h1, h2, h3, h4, h5, h6, h7, h8, h9, h9', h10⟩ := h
        refine ⟨rfl, h1, h2, by simp only [h3], by simp only [h4], by simp only [h5], h6,
          by simp [h7], ?_, ?_, ?_, ?_⟩
        · simp only [h8]
          rw [List.zipWith_append h7]
          rfl
        · intro _
          simp [h9 hb']
        · intro hs; rw [hb'] at hs; simp at hs
        · simp only [h10]
          rw [List.zipWith_append (h9 hb')]
          rfl

variable (hf : 0 < f tr.pair)
include hf

theorem checkMaximum_move (h : WRel cfg f acc st st') (bulk : Option Bulk)
    (hb : bulk.isSome = cfg.bulkWindow.isSome) (w : ℝ × ℝ) :
    PyRel (Stepped cfg f acc st tr.pair) (checkMaximum lib cfg v0 st tr bulk w)
      (checkMaximum lib cfg v0 st' (move c (f tr.pair) tr) (bulk.map (scaleBulk (f tr.pair)))
        (later c w)) := by
  unfold checkMaximum
  cases cfg.skipMaximum with
  | none => exact collect_move h bulk hb w
  | some mwin =>
    simp only
    rw [tw2utc_move hf]
    cases tw2utc lib.float mwin tr with
    | error e => exact rfl
    | ok mw =>
      have ed : (move c (f tr.pair) tr).data = tr.data.map (f tr.pair * ·) := rfl
      simp only [Except.map, bind, Except.bind, ed, argmax_scale hf]
      cases argmax tr.data with
      | error e => exact rfl
      | ok i =>
        have ec : ((later c mw).1 < (move c (f tr.pair) tr).start + i / (move c (f tr.pair) tr).sr ∧
            (move c (f tr.pair) tr).start + i / (move c (f tr.pair) tr).sr < (later c mw).2) ↔
            (mw.1 < tr.start + i / tr.sr ∧ tr.start + i / tr.sr < mw.2) := by
          simp only [later, move]
          constructor <;> rintro ⟨h1, h2⟩ <;> constructor <;> linarith
        simp only [ec]
        split_ifs
        · exact collect_move h bulk hb w
        · exact removed h

theorem cutCoda_move (h : WRel cfg f acc st st') (bulk : Option Bulk)
    (hb : bulk.isSome = cfg.bulkWindow.isSome) (w : ℝ × ℝ) :
    PyRel (Stepped cfg f acc st tr.pair) (cutCoda lib cfg v0 st tr bulk w)
      (cutCoda lib cfg v0 st' (move c (f tr.pair) tr) (bulk.map (scaleBulk (f tr.pair)))
        (later c w)) := by
  unfold cutCoda
  cases cfg.cutCoda with
  | none => exact checkMaximum_move hf h bulk hb w
  | some cc =>
    have es : seamWindow cc (later c w) = later c (seamWindow cc w) := by
      unfold seamWindow
      cases cc.smooth with
      | none => rfl
      | some s =>
        simp only
        split_ifs
        · rfl
        · simp only [later, Prod.mk.injEq]; constructor <;> ring
    simp only [es, getSlice_move]
    cases getSlice tr (seamWindow cc w) with
    | none => exact removed h
    | some esl =>
      have ew : ∀ o : Option ℝ, cutWindow (later c w) (o.map (· + c)) = later c (cutWindow w o) := by
        intro o
        cases o with
        | none => rfl
        | some t => simp only [cutWindow, Option.map_some, later, min_add_add_right]
      simp only [Option.map_some, localMinimum_move hf, ew]
      have el : ∀ u : ℝ × ℝ, (later c u).2 - (later c u).1 = u.2 - u.1 := by
        intro u; simp only [later]; ring
      simp only [el]
      split_ifs
      · exact removed h
      · exact checkMaximum_move hf h bulk hb _

theorem codaPart_move (h : WRel cfg f acc st st') (bulk : Option Bulk)
    (hb : bulk.isSome = cfg.bulkWindow.isSome) :
    PyRel (Stepped cfg f acc st tr.pair) (codaPart lib cfg v0 st tr bulk)
      (codaPart lib cfg v0 st' (move c (f tr.pair) tr) (bulk.map (scaleBulk (f tr.pair)))) := by
  have e : smoothTrace cfg (move c (f tr.pair) tr) =
      (smoothTrace cfg tr).map (move c (f tr.pair)) := by
    unfold smoothTrace
    cases cfg.smooth with
    | none => rfl
    | some s =>
      simp only
      split_ifs
      · rfl
      · have ed : (move c (f tr.pair) tr).data = tr.data.map (f tr.pair * ·) := rfl
        have es : (move c (f tr.pair) tr).sr = tr.sr := rfl
        rw [ed, es, smooth_scale]
        cases smooth tr.data (some (pyRound (tr.sr * s))) cfg.smoothWindow .zeros <;> rfl
  have hp : ∀ t, smoothTrace cfg tr = .ok t → t.pair = tr.pair := by
    intro t ht
    unfold smoothTrace at ht
    cases hs : cfg.smooth with
    | none => rw [hs] at ht; simp only [Except.ok.injEq] at ht; rw [ht]
    | some s =>
      rw [hs] at ht
      simp only at ht
      split_ifs at ht
      · simp only [Except.ok.injEq] at ht; rw [ht]
      · obtain ⟨d, _, ht⟩ := bind_ok.1 ht
        simp only [pure, Except.pure, Except.ok.injEq] at ht
        rw [← ht]; rfl
  unfold codaPart
  rw [e]
  cases ht : smoothTrace cfg tr with
  | error e => exact rfl
  | ok t =>
    have hpt := hp t ht
    rw [← hpt] at hf ⊢
    simp only [Except.map, bind, Except.bind]
    rw [tw2utc_move hf]
    cases tw2utc lib.float cfg.codaWindow t with
    | error e => exact rfl
    | ok w =>
      have el : (later c w).2 - (later c w).1 = w.2 - w.1 := by simp only [later]; ring
      simp only [Except.map, el]
      split_ifs
      · exact removed h
      · exact cutCoda_move hf h bulk hb w

theorem step_move (h : WRel cfg f acc st st') :
    PyRel (Stepped cfg f acc st tr.pair) (step lib cfg v0 st tr)
      (step lib cfg v0 st' (move c (f tr.pair) tr)) := by
  have h' : WRel cfg f acc { st with distances := st.distances.set tr.pair tr.distance }
      { st' with distances := st'.distances.set tr.pair tr.distance } := by
    obtain ⟨h1, h2, h3, h4, h5, h6, h7, h8, h9, h9', h10⟩ := h
    exact ⟨h1, by simp only [h2], h3, h4, h5, h6, h7, h8, h9, h9', h10⟩
  have ep : (move c (f tr.pair) tr).pair = tr.pair := rfl
  have edist : (move c (f tr.pair) tr).distance = tr.distance := rfl
  unfold step
  simp only [ep, edist]
  cases hbw : cfg.bulkWindow with
  | none => exact codaPart_move hf h' none (by rw [hbw]; rfl)
  | some bw =>
    simp only
    rw [tw2utc_move hf]
    cases tw2utc lib.float bw tr with
    | error e => exact rfl
    | ok w =>
      simp only [Except.map, bind, Except.bind, getSlice_move]
      cases getSlice tr w with
      | none => exact removed h'
      | some esl =>
        have ed : (move c (f tr.pair) esl).data = esl.data.map (f tr.pair * ·) := rfl
        have et : (later c w).1 = w.1 + c := rfl
        have en : (esl.data.map (f tr.pair * ·) = []) ↔ esl.data = [] := by simp
        have es : (f tr.pair * esl.data.sum ≤ 0) ↔ esl.data.sum ≤ 0 := by
          constructor
          · intro h; by_contra hc; push Not at hc; exact absurd h (not_le.2 (mul_pos hf hc))
          · intro h; exact mul_nonpos_of_nonneg_of_nonpos hf.le h
        simp only [Option.map_some, ed, et, en, sum_scale, es, List.length_map, timeAxis_move,
          mean_scale]
        by_cases c1 : esl.data = []
        · rw [if_pos c1, if_pos c1]; exact rfl
        rw [if_neg c1, if_neg c1]
        by_cases c2 : esl.data.sum ≤ 0
        · rw [if_pos c2, if_pos c2]; exact rfl
        rw [if_neg c2, if_neg c2]
        have ez : ∀ ts : List ℝ, (List.zipWith (· * ·) (esl.data.map (f tr.pair * ·)) ts).sum =
            f tr.pair * (List.zipWith (· * ·) esl.data ts).sum := by
          intro ts
          rw [List.zipWith_map_left]
          have := sum_scale (k := f tr.pair) (List.zipWith (· * ·) esl.data ts)
          rw [← this, List.map_zipWith]
          congr 2
          funext x y
          ring
        simp only [ez, mul_div_mul_left _ _ hf.ne']
        refine codaPart_move hf (c := c) (st := { st with
            distances := st.distances.set tr.pair tr.distance
            tbulkWindow := st.tbulkWindow.set tr.pair ((timeAxis tr v0 w.1 esl.data.length).headD 0,
              (timeAxis tr v0 w.1 esl.data.length).getLastD 0) })
          (st' := { st' with
            distances := st'.distances.set tr.pair tr.distance
            tbulkWindow := st'.tbulkWindow.set tr.pair ((timeAxis tr v0 w.1 esl.data.length).headD 0,
              (timeAxis tr v0 w.1 esl.data.length).getLastD 0) })
          ?_ (some ⟨esl.data.length, InvertFb.mean esl.data,
          (List.zipWith (· * ·) esl.data (timeAxis tr v0 w.1 esl.data.length)).sum / esl.data.sum⟩)
          (by rw [hbw]; rfl)
        obtain ⟨h1, h2, h3, h4, h5, h6, h7, h8, h9, h9', h10⟩ := h'
        exact ⟨h1, h2, h3, h4, h5, by simp only [h.tbulkWindow], h7, h8, h9, h9', h10⟩

omit hf

theorem loop_move (hf : ∀ p, 0 < f p) (cs : String × String → ℝ) (trs : List Trace)
    (hnd : (acc ++ trs.map Trace.pair).Nodup) (h : WRel cfg f acc st st')
    (he : st.energies = acc ++ trs.map Trace.pair) :
    PyRel (fun s s' => WRel cfg f s.energies s s') (trs.foldlM (step lib cfg v0) st)
      ((trs.map (fun tr => move (cs tr.pair) (f tr.pair) tr)).foldlM (step lib cfg v0) st') := by
  induction trs generalizing acc st st' with
  | nil =>
    simp only [List.map_nil, List.append_nil] at he
    show WRel cfg f st.energies st st'
    rw [he]; exact h
  | cons tr trs ih =>
    simp only [List.map_cons, List.foldlM_cons]
    have hs := step_move (lib := lib) (v0 := v0) (c := cs tr.pair) (tr := tr) (hf _) h
    cases h1 : step lib cfg v0 st tr with
    | error e =>
      rw [h1] at hs
      cases h2 : step lib cfg v0 st' (move (cs tr.pair) (f tr.pair) tr) with
      | error e' => rw [h2] at hs; exact hs
      | ok s' => rw [h2] at hs; exact hs.elim
    | ok s =>
      rw [h1] at hs
      cases h2 : step lib cfg v0 st' (move (cs tr.pair) (f tr.pair) tr) with
      | error e' => rw [h2] at hs; exact hs.elim
      | ok s' =>
        rw [h2] at hs
        simp only [List.map_cons] at he hnd
        rcases hs with ⟨g1, g2⟩ | ⟨g1, g2⟩
        · refine ih (acc := acc) ?_ g2 ?_
          · rw [List.nodup_append] at hnd ⊢
            refine ⟨hnd.1, (List.nodup_cons.1 hnd.2.1).2, ?_⟩
            intro a ha b hb
            exact hnd.2.2 a ha b (List.mem_cons_of_mem _ hb)
          · rw [g1, he, List.erase_append_right, List.erase_cons_head]
            intro hm
            exact (List.nodup_append.1 hnd).2.2 _ hm _ List.mem_cons_self rfl
        · refine ih (acc := acc ++ [tr.pair]) ?_ g2 ?_
          · simpa using hnd
          · rw [g1, he]; simp

theorem loop_move_any (hf : ∀ p, 0 < f p) (cs : Trace → ℝ) (trs : List Trace)
    (h : WRel cfg f acc st st') :
    PyRel (fun s s' => ∃ acc, WRel cfg f acc s s') (trs.foldlM (step lib cfg v0) st)
      ((trs.map (fun tr => move (cs tr) (f tr.pair) tr)).foldlM (step lib cfg v0) st') := by
  induction trs generalizing acc st st' with
  | nil => exact ⟨acc, h⟩
  | cons tr trs ih =>
    simp only [List.map_cons, List.foldlM_cons]
    have hs := step_move (lib := lib) (v0 := v0) (c := cs tr) (tr := tr) (hf _) h
    cases h1 : step lib cfg v0 st tr with
    | error e =>
      rw [h1] at hs
      cases h2 : step lib cfg v0 st' (move (cs tr) (f tr.pair) tr) with
      | error e' => rw [h2] at hs; exact hs
      | ok s' => rw [h2] at hs; exact hs.elim
    | ok s =>
      rw [h1] at hs
      cases h2 : step lib cfg v0 st' (move (cs tr) (f tr.pair) tr) with
      | error e' => rw [h2] at hs; exact hs.elim
      | ok s' =>
        rw [h2] at hs
        rcases hs with ⟨_, g2⟩ | ⟨_, g2⟩
        · exact ih g2
        · exact ih g2

theorem wrel_one (h : WRel cfg (fun _ => 1) acc st st') : st' = st := by
  obtain ⟨h1, h2, h3, h4, h5, h6, h7, h8, h9, h9', h10⟩ := h
  have e8 : st'.Ecoda = st.Ecoda := by
    rw [h8]
    apply List.ext_getElem
    · simp [h7]
    · intro n _ _; simp
  have e10 : st'.Ebulk = st.Ebulk := by
    rw [h10]
    cases hb : cfg.bulkWindow.isSome with
    | false => rw [h9' hb]; simp
    | true =>
      apply List.ext_getElem
      · simp [h9 hb]
      · intro n _ _; simp
  cases st; cases st'
  simp only at h1 h2 h3 h4 h5 h6 e8 e10
  subst h1 h2 h3 h4 h5 h6 e8 e10
  rfl

theorem windows_later (cs : Trace → ℝ) (trs : List Trace) :
    windows lib cfg v0 (trs.map (fun tr => move (cs tr) 1 tr)) = windows lib cfg v0 trs := by
  unfold windows
  have he : (trs.map (fun tr => move (cs tr) 1 tr)).map Trace.pair = trs.map Trace.pair := by
    rw [List.map_map]; rfl
  rw [he]
  have h0 : WRel cfg (fun _ => 1) [] { energies := trs.map Trace.pair }
      { energies := trs.map Trace.pair } :=
    ⟨rfl, rfl, rfl, rfl, rfl, rfl, rfl, rfl, fun _ => rfl, fun _ => rfl, rfl⟩
  have := loop_move_any (lib := lib) (v0 := v0) (fun _ => one_pos) cs trs h0
  cases h1 : trs.foldlM (step lib cfg v0) { energies := trs.map Trace.pair } with
  | error e =>
    rw [h1] at this
    cases h2 : (trs.map (fun tr => move (cs tr) 1 tr)).foldlM (step lib cfg v0)
        { energies := trs.map Trace.pair } with
    | error e' => rw [h2] at this; exact congrArg _ (Eq.symm this)
    | ok s => rw [h2] at this; exact this.elim
  | ok s =>
    rw [h1] at this
    cases h2 : (trs.map (fun tr => move (cs tr) 1 tr)).foldlM (step lib cfg v0)
        { energies := trs.map Trace.pair } with
    | error e' => rw [h2] at this; exact this.elim
    | ok s' =>
      rw [h2] at this
      obtain ⟨acc, hw⟩ := this
      rw [wrel_one hw]

/-- Preparation of all streams, each at another time and in other units. -/
theorem energies_move {cs as : Stream → ℝ} (ha : ∀ s, as s ≠ 0)
    (hl : (∀ s, as s = 1) ∨ Linear lib)
    (hn : (∀ s, gain cfg (as s) = 1) ∨ Homogeneous cfg.noiseFunc) {c k : String × String → ℝ}
    (streams : List Stream) (hc : ∀ s ∈ streams, cs s = c (s.event, s.station))
    (hk : ∀ s ∈ streams, gain cfg (as s) = k (s.event, s.station)) :
    energies lib cfg (streams.map (fun s => moveS (cs s) (as s) s)) =
      (energies lib cfg streams).map (List.map (fun tr => move (c tr.pair) (k tr.pair) tr)) := by
  have h1 : ∀ streams : List Stream, (∀ s ∈ streams, cs s = c (s.event, s.station)) →
      (∀ s ∈ streams, gain cfg (as s) = k (s.event, s.station)) →
      mapExc (energyOf lib cfg) (streams.map (fun s => moveS (cs s) (as s) s)) =
      (mapExc (energyOf lib cfg) streams).map
        (List.map (Option.map (fun tr => move (c tr.pair) (k tr.pair) tr))) := by
    intro streams
    induction streams with
    | nil => intro _ _; rfl
    | cons s l ih =>
      intro hc hk
      rw [List.map_cons, mapExc, mapExc, energyOf_move (hl.imp_left (fun h => h s)) (ha s),
        ih (fun t ht => hc t (List.mem_cons_of_mem _ ht)) (fun t ht => hk t (List.mem_cons_of_mem _ ht))]
      cases h : energyOf lib cfg s with
      | error e => rfl
      | ok ot =>
        cases mapExc (energyOf lib cfg) l with
        | error e => rfl
        | ok ts =>
          cases ot with
          | none => rfl
          | some t =>
            simp only [Except.map, bind, Except.bind, pure, Except.pure, List.map_cons,
              Option.map_some, energyOf_pair h, ← hc s (by simp), ← hk s (by simp)]
  have h2 : ∀ trs : List Trace, (∀ tr ∈ trs, 0 < k tr.pair ∧
        (k tr.pair = 1 ∨ Homogeneous cfg.noiseFunc)) →
      mapExc (noiseStep lib cfg) (trs.map (fun tr => move (c tr.pair) (k tr.pair) tr)) =
      (mapExc (noiseStep lib cfg) trs).map
        (List.map (Option.map (fun tr => move (c tr.pair) (k tr.pair) tr))) := by
    intro trs
    induction trs with
    | nil => intro _; rfl
    | cons t l ih =>
      intro h
      rw [List.map_cons, mapExc, mapExc, noiseStep_move (h t (by simp)).1 (h t (by simp)).2,
        ih (fun t ht => h t (List.mem_cons_of_mem _ ht))]
      cases hh : noiseStep lib cfg t with
      | error e => rfl
      | ok ot =>
        cases mapExc (noiseStep lib cfg) l with
        | error e => rfl
        | ok ts =>
          cases ot with
          | none => rfl
          | some t' =>
            simp only [Except.map, bind, Except.bind, pure, Except.pure, List.map_cons,
              Option.map_some, noiseStep_pair hh]
  unfold energies
  rw [h1 streams hc hk]
  cases he : mapExc (energyOf lib cfg) streams with
  | error e => rfl
  | ok es =>
    have hfm : ∀ l : List (Option Trace),
        (l.map (Option.map (fun tr => move (c tr.pair) (k tr.pair) tr))).filterMap id =
        (l.filterMap id).map (fun tr => move (c tr.pair) (k tr.pair) tr) := by
      intro l; rw [List.filterMap_map, List.map_filterMap]; rfl
    simp only [Except.map, bind, Except.bind, hfm]
    rw [h2]
    · cases mapExc (noiseStep lib cfg) (es.filterMap id) with
      | error e => rfl
      | ok l => simp only [Except.map, pure, Except.pure, hfm]
    · intro tr htr
      have hsub := mapExc_filter_sublist he (fun s => (s.event, s.station)) Trace.pair
        (fun _ _ => energyOf_pair)
      have := hsub.subset (List.mem_map.2 ⟨tr, htr, rfl⟩)
      obtain ⟨s, hs, hsp⟩ := List.mem_map.1 this
      rw [← hsp, ← hk s hs]
      exact ⟨gain_pos (ha s), hn.imp_left (fun h => h s)⟩

theorem velocity_move (c k : String × String → ℝ) (trs : List Trace) :
    velocity cfg (trs.map (fun tr => move (c tr.pair) (k tr.pair) tr)) = velocity cfg trs := by
  unfold velocity
  cases cfg.v0 with
  | some v => rfl
  | none =>
    simp only [List.map_eq_nil_iff]
    split_ifs
    · rfl
    · congr 2
      rw [List.map_map]
      apply List.map_congr_left
      intro tr _
      simp only [Function.comp_apply, move]
      congr 1
      ring

end Move

variable {lib : Lib} {cfg : WCfg} {inv : Cfg} {G : Greens}
  {wls : List ℝ → List (List ℝ) → List ℝ → List ℝ × ℝ} {rank : List ℝ → List (List ℝ) → ℕ}
  {minimize : (ℝ → Py (WithTop ℝ)) → Py ℝ} {streams : List Stream}

namespace Spec

/-- The same recording at another time: data, origin time and onsets are later by `c`. -/
noncomputable def atOtherTime (c : ℝ) (s : Stream) : Stream :=
  { s with
    start := s.start + c, origin := s.origin + c, ponset := s.ponset + c, sonset := s.sonset + c }

/-- The same recording in other units: all waveforms are multiplied by `a`. -/
noncomputable def inOtherUnits (a : ℝ) (s : Stream) : Stream :=
  { s with channels := s.channels.map (List.map (a * ·)) }

/-- `ps` are the windows of the pairs which pass all checks, in the order of the data, for
velocity `v0`. -/
def AcceptedPairs (lib : Lib) (cfg : WCfg) (streams : List Stream) (v0 : ℝ)
    (ps : List PairData) : Prop :=
  ∃ (trs : List Trace) (sel : List (Trace × PairData)), energies lib cfg streams = .ok trs ∧ velocity cfg trs = some v0 ∧
    (sel.map Prod.fst).Sublist trs ∧ (∀ q ∈ sel, Accepts lib cfg v0 q.1 q.2) ∧
    (∀ tr ∈ trs, tr ∉ sel.map Prod.fst → ∀ p, ¬ Accepts lib cfg v0 tr p) ∧
    ps = sel.map Prod.snd

end Spec

/-- **C118**: absolute times do not matter.  If data, origin time and onsets of each event-station
pair are moved by any time, the outcome of the inversion of a band is the same. -/
theorem C118_absolute_times (c : String → String → ℝ) :
    invertFb lib wls G minimize cfg inv
        (streams.map (fun s => atOtherTime (c s.event s.station) s)) =
      invertFb lib wls G minimize cfg inv streams := by
  have e1 : streams.map (fun s => atOtherTime (c s.event s.station) s) =
      streams.map (fun s => moveS (c s.event s.station) 1 s) := by
    apply List.map_congr_left
    intro s _
    simp [atOtherTime, moveS]
  have hg : Move.gain cfg 1 = 1 := by simp [Move.gain]
  rw [e1]
  unfold invertFb
  simp only [List.map_eq_nil_iff]
  by_cases hs : streams = []
  · rw [if_pos hs, if_pos hs]
  rw [if_neg hs, if_neg hs, energies_move (cs := fun s => c s.event s.station) (as := fun _ => 1)
    (fun _ => one_ne_zero) (.inl (fun _ => rfl)) (.inl (fun _ => hg)) (c := fun p => c p.1 p.2)
    (k := fun _ => 1) streams (fun _ _ => rfl) (fun _ _ => hg)]
  cases energies lib cfg streams with
  | error e => rfl
  | ok trs =>
    simp only [Except.map, bind, Except.bind]
    have hv := velocity_move (cfg := cfg) (fun p => c p.1 p.2) (fun _ => 1) trs
    rw [hv]
    cases velocity cfg trs with
    | none => rfl
    | some v0 =>
      simp only
      rw [windows_later (fun tr => c tr.pair.1 tr.pair.2) trs]

/-- **C119**: with coda normalisation the units of the waveforms do not matter, for each
event-station pair. -/
theorem C119_coda_normalization (hl : Linear lib) (hc : cfg.codaNorm.isSome)
    {a : String → String → ℝ} (ha : ∀ e s, a e s ≠ 0) :
    invertFb lib wls G minimize cfg inv
        (streams.map (fun s => inOtherUnits (a s.event s.station) s)) =
      invertFb lib wls G minimize cfg inv streams := by
  have e1 : streams.map (fun s => inOtherUnits (a s.event s.station) s) =
      streams.map (fun s => moveS 0 (a s.event s.station) s) := by
    apply List.map_congr_left
    intro s _
    simp [inOtherUnits, moveS]
  have hg : ∀ x, Move.gain cfg x = 1 := by intro x; simp [Move.gain, hc]
  rw [e1]
  unfold invertFb
  simp only [List.map_eq_nil_iff]
  by_cases hs : streams = []
  · rw [if_pos hs, if_pos hs]
  rw [if_neg hs, if_neg hs, energies_move (cs := fun _ => 0) (as := fun s => a s.event s.station)
    (fun _ => ha _ _) (.inr hl) (.inl (fun _ => hg _)) (c := fun _ => 0)
    (k := fun _ => 1) streams (fun _ _ => rfl) (fun _ _ => hg _)]
  cases energies lib cfg streams with
  | error e => rfl
  | ok trs =>
    simp only [Except.map, bind, Except.bind]
    have hv := velocity_move (cfg := cfg) (fun _ => 0) (fun _ => 1) trs
    rw [hv]
    cases velocity cfg trs with
    | none => rfl
    | some v0 =>
      simp only
      rw [windows_later (fun _ => 0) trs]

/-- **C119**: without coda normalisation, multiplying all waveforms of each event by `aE` and of
each station by `aS` has exactly one effect: the same pairs are accepted with the same windows,
and all their energies are multiplied by the squares of these factors. -/
theorem C119_energies_of_accepted_pairs (hl : Linear lib) (hn : Homogeneous cfg.noiseFunc)
    (hc : cfg.codaNorm = none) (hnd : (streams.map (fun s => (s.event, s.station))).Nodup)
    {aE aS : String → ℝ} (haE : ∀ e, aE e ≠ 0) (haS : ∀ s, aS s ≠ 0) :
    let streams' := streams.map (fun s => inOtherUnits (aE s.event * aS s.station) s)
    (∃ r, (r = .ok none ∨ ∃ e, r = .error e) ∧
      invertFb lib wls G minimize cfg inv streams = r ∧
      invertFb lib wls G minimize cfg inv streams' = r) ∨
    ∃ v0 ps, AcceptedPairs lib cfg streams v0 ps ∧ ps ≠ [] ∧ (ps.map PairData.pair).Nodup ∧
      invertFb lib wls G minimize cfg inv streams =
        solveBand wls G minimize (fullCfg cfg inv v0) (bandOf cfg.bulkWindow.isSome ps) ∧
      invertFb lib wls G minimize cfg inv streams' =
        solveBand wls G minimize (fullCfg cfg inv v0) (bandOf cfg.bulkWindow.isSome
          (ps.map (recalibrate (fun e => aE e ^ 2) (fun s => aS s ^ 2)))) := by
  intro streams'
  have e1 : streams' = streams.map (fun s => moveS 0 (aE s.event * aS s.station) s) := by
    apply List.map_congr_left
    intro s _
    simp [inOtherUnits, moveS]
  have hg : ∀ x, Move.gain cfg x = x ^ 2 := by intro x; simp [Move.gain, hc]
  rw [e1]
  unfold invertFb
  simp only [List.map_eq_nil_iff]
  by_cases hs : streams = []
  · rw [if_pos hs, if_pos hs]
    exact .inl ⟨_, .inl rfl, rfl, rfl⟩
  rw [if_neg hs, if_neg hs, energies_move (cs := fun _ => 0)
    (as := fun s => aE s.event * aS s.station)
    (fun _ => mul_ne_zero (haE _) (haS _)) (.inr hl) (.inr hn) (c := fun _ => 0)
    (k := fun p => aE p.1 ^ 2 * aS p.2 ^ 2) streams (fun _ _ => rfl)
    (fun _ _ => by rw [hg, mul_pow])]
  cases he : energies lib cfg streams with
  | error e => exact .inl ⟨_, .inr ⟨e, rfl⟩, rfl, rfl⟩
  | ok trs =>
    simp only [Except.map, bind, Except.bind]
    have hv := velocity_move (cfg := cfg) (fun _ => 0) (fun p => aE p.1 ^ 2 * aS p.2 ^ 2) trs
    rw [hv]
    cases hv0 : velocity cfg trs with
    | none => exact .inl ⟨_, .inl rfl, rfl, rfl⟩
    | some v0 =>
      simp only
      have hnd' : (trs.map Trace.pair).Nodup := hnd.sublist (energies_pairs he)
      set f : String × String → ℝ := fun p => aE p.1 ^ 2 * aS p.2 ^ 2 with hf
      have hfpos : ∀ p, 0 < f p := fun p =>
        mul_pos (sq_pos_of_ne_zero (haE _)) (sq_pos_of_ne_zero (haS _))
      have hpairs : (trs.map (fun tr => move 0 (f tr.pair) tr)).map Trace.pair =
          trs.map Trace.pair := by
        rw [List.map_map]; rfl
      have hloop := loop_move (lib := lib) (cfg := cfg) (v0 := v0) (f := f) hfpos (fun _ => 0) trs
        (acc := []) (st := { energies := trs.map Trace.pair })
        (st' := { energies := trs.map Trace.pair }) (by simpa using hnd')
        ⟨rfl, rfl, rfl, rfl, rfl, rfl, rfl, rfl, fun _ => rfl, fun _ => rfl, rfl⟩ rfl
      have hw : windows lib cfg v0 (trs.map (fun tr => move 0 (f tr.pair) tr)) =
          (trs.map (fun tr => move 0 (f tr.pair) tr)).foldlM (step lib cfg v0)
            { energies := trs.map Trace.pair } := by
        unfold windows
        rw [hpairs]
      cases h1 : windows lib cfg v0 trs with
      | error e =>
        have h1' := h1
        unfold windows at h1'
        rw [h1'] at hloop
        rw [hw]
        cases h2 : (trs.map (fun tr => move 0 (f tr.pair) tr)).foldlM (step lib cfg v0)
            { energies := trs.map Trace.pair } with
        | error e' =>
          rw [h2] at hloop
          have : e = e' := hloop
          subst this
          exact .inl ⟨_, .inr ⟨e, rfl⟩, rfl, rfl⟩
        | ok s => rw [h2] at hloop; exact hloop.elim
      | ok st =>
        have h1' := h1
        unfold windows at h1'
        rw [h1'] at hloop
        rw [hw]
        cases h2 : (trs.map (fun tr => move 0 (f tr.pair) tr)).foldlM (step lib cfg v0)
            { energies := trs.map Trace.pair } with
        | error e' => rw [h2] at hloop; exact hloop.elim
        | ok st' =>
          rw [h2] at hloop
          have hr : WRel cfg f st.energies st st' := hloop
          have hlen : st'.Ecoda.length = st.Ecoda.length := by
            rw [hr.Ecoda, List.length_zipWith, hr.len, min_self]
          simp only [hlen]
          by_cases hcn : st.Ecoda.length = 0 ∨ (st.Ecoda.length : ℝ) < cfg.numPairs
          · rw [if_pos hcn, if_pos hcn]
            exact .inl ⟨_, .inl rfl, rfl, rfl⟩
          rw [if_neg hcn, if_neg hcn]
          right
          obtain ⟨sel, b1, b2, b3, c1, c2, c3, c4, c5, c6, c7⟩ := C18_windows_belong_to_pairs hnd' h1
          have hpair : ∀ q ∈ sel, q.2.pair = q.1.pair := by
            intro q hq
            obtain ⟨e1, e2, _⟩ := b2 q hq
            unfold PairData.pair Trace.pair
            rw [e1, e2]
          have hpairs : (sel.map Prod.snd).map PairData.pair = (sel.map Prod.fst).map Trace.pair := by
            rw [List.map_map, List.map_map]
            exact List.map_congr_left hpair
          have hndp : ((sel.map Prod.snd).map PairData.pair).Nodup := by
            rw [hpairs]; exact hnd'.sublist (b1.map _)
          set R := recalibrate (fun e => aE e ^ 2) (fun s => aS s ^ 2) with hR
          have hRp : ∀ p, (R p).pair = p.pair := fun p => rfl
          have hndp' : (((sel.map Prod.snd).map R).map PairData.pair).Nodup := by
            rw [List.map_map, show PairData.pair ∘ R = PairData.pair from rfl]; exact hndp
          have hz : ∀ {β : Type} (u : PairData → β) (v : String × String → β → β),
              List.zipWith v ((sel.map Prod.snd).map PairData.pair) ((sel.map Prod.snd).map u) =
              (sel.map Prod.snd).map (fun p => v p.pair (u p)) := by
            intro β u v
            rw [List.zipWith_map, List.zipWith_self]
          refine ⟨v0, sel.map Prod.snd, ⟨trs, sel, he, hv0, b1, b2, b3, rfl⟩, ?_, hndp, ?_, ?_⟩
          · intro h0
            apply hcn
            left
            rw [c3, h0]
            rfl
          · apply solveBand_congr
            · exact c1
            · exact c2
            · exact c3
            · exact c4
            · exact c5
            · exact c6
            · intro k hk
              have hk' : k ∈ (sel.map Prod.snd).map PairData.pair := by
                have e : st.band.pairs = st.energies := rfl
                rw [e, c1] at hk
                exact hk
              obtain ⟨p, hp, rfl⟩ := List.mem_map.1 hk'
              obtain ⟨q, hq, rfl⟩ := List.mem_map.1 hp
              refine (c7 q hq).1.trans ?_
              symm
              exact get?_map_pair hndp (fun p => p.distance) hp
            · intro hb k hk
              have hb' : cfg.bulkWindow.isSome = true := hb
              have hk' : k ∈ (sel.map Prod.snd).map PairData.pair := by
                have e : st.band.pairs = st.energies := rfl
                rw [e, c1] at hk
                exact hk
              obtain ⟨p, hp, rfl⟩ := List.mem_map.1 hk'
              obtain ⟨q, hq, rfl⟩ := List.mem_map.1 hp
              refine ((c7 q hq).2 hb').trans ?_
              symm
              simp only [bandOf, hb', if_true]
              exact get?_map_pair hndp (fun p => (p.bulkStart, p.bulkEnd)) hp
          · apply solveBand_congr
            · show st'.energies = _
              rw [hr.energies, c1]
              simp only [bandOf, List.map_map]
              rfl
            · show st'.tcoda = _
              rw [hr.tcoda, c2]
              simp only [bandOf, List.map_map]
              apply List.map_congr_left
              intro q _
              simp [hR, recalibrate]
            · show st'.Ecoda = _
              rw [hr.Ecoda, c1, c3]
              simp only [bandOf]
              rw [hz]
              simp only [List.map_map]
              apply List.map_congr_left
              intro q _
              simp [hR, recalibrate, hf, PairData.pair]
            · show st'.tbulk = _
              rw [hr.tbulk, c4]
              simp only [bandOf, List.map_map]
              rfl
            · show st'.Ebulk = _
              rw [hr.Ebulk, c1, c5]
              simp only [bandOf]
              split_ifs
              · rw [hz]
                simp only [List.map_map]
                apply List.map_congr_left
                intro q _
                simp [hR, recalibrate, hf, PairData.pair]
              · simp
            · show st'.weightsBulk = _
              rw [hr.weightsBulk, c6]
              simp only [bandOf, List.map_map]
              rfl
            · intro k hk
              have hk' : k ∈ (sel.map Prod.snd).map PairData.pair := by
                have e : st'.band.pairs = st'.energies := rfl
                rw [e, hr.energies, c1] at hk
                exact hk
              obtain ⟨p, hp, rfl⟩ := List.mem_map.1 hk'
              obtain ⟨q, hq, rfl⟩ := List.mem_map.1 hp
              have ed : st'.band.distances = st.distances := hr.distances
              rw [ed]
              refine (c7 q hq).1.trans ?_
              symm
              exact get?_map_pair (p := R q.2) hndp' (fun p => p.distance) (List.mem_map_of_mem (f := R) hp)
            · intro hb k hk
              have hb' : cfg.bulkWindow.isSome = true := hb
              have hk' : k ∈ (sel.map Prod.snd).map PairData.pair := by
                have e : st'.band.pairs = st'.energies := rfl
                rw [e, hr.energies, c1] at hk
                exact hk
              obtain ⟨p, hp, rfl⟩ := List.mem_map.1 hk'
              obtain ⟨q, hq, rfl⟩ := List.mem_map.1 hp
              have ed : st'.band.tbulkWindow = st.tbulkWindow := hr.tbulkWindow
              rw [ed]
              refine ((c7 q hq).2 hb').trans ?_
              symm
              simp only [bandOf, hb', if_true]
              exact get?_map_pair (p := R q.2) hndp' (fun p => (p.bulkStart, p.bulkEnd))
                (List.mem_map_of_mem (f := R) hp)

/-- **C119**: units of seismometers and events for commands `go` and `fixed`.  If all waveforms of
each event are multiplied by `aE` and of each station by `aS`, from the waveforms to the result:
the attenuation parameters and the misfit are the same, site responses are multiplied by `aS²`
divided by its geometric mean, and spectral source energies by `aE²` times this mean. -/
theorem C119_calibration (hwls : IsWls rank wls) (hr : FullRank rank) (hG : OneValuePerTime G)
    (hl : Linear lib) (hn : Homogeneous cfg.noiseFunc) (hc : cfg.codaNorm = none)
    (hfs : cfg.fixSites = false)
    (hnd : (streams.map (fun s => (s.event, s.station))).Nodup)
    (hin : ∀ v0 ps, AcceptedPairs lib cfg streams v0 ps → ps ≠ [] →
      GoodInput (fullCfg cfg inv v0) ps ∧ ConnectedPairs ps ∧ (inv.fix = false → TwoTimes ps) ∧
      (inv.fix = false → inv.optimize = true →
        ∀ g0, WithinBounds (fullCfg cfg inv v0) g0 → CanCompare G (fullCfg cfg inv v0) ps g0))
    {aE aS : String → ℝ} (haE : ∀ e, aE e ≠ 0) (haS : ∀ s, aS s ≠ 0) {res : Option BandResult}
    (h : invertFb lib wls G minimize cfg inv streams = .ok res) :
    ∃ res', invertFb lib wls G minimize cfg inv
        (streams.map (fun s => inOtherUnits (aE s.event * aS s.station) s)) = .ok res' ∧
      (res = none ∧ res' = none ∨ ∃ v0 ps, AcceptedPairs lib cfg streams v0 ps ∧
        Option.Rel (SameUpTo (fun s => aS s ^ 2 / meanFactor (fun s => aS s ^ 2) ps)
          (fun e => aE e ^ 2 * meanFactor (fun s => aS s ^ 2) ps)) res res') := by
  rcases C119_energies_of_accepted_pairs (wls := wls) (G := G) (minimize := minimize) (inv := inv)
    hl hn hc hnd haE haS with ⟨r, hr', h1, h2⟩ | ⟨v0, ps, ha, hne, -, h1, h2⟩
  · rw [h1] at h
    subst h
    refine ⟨res, h2, .inl ?_⟩
    rcases hr' with h | ⟨e, h⟩
    · cases h; exact ⟨rfl, rfl⟩
    · cases h
  · obtain ⟨g1, g2, g3, g4⟩ := hin v0 ps ha hne
    rw [h1] at h
    have hcod : (fullCfg cfg inv v0).codaNorm = false := by
      show cfg.codaNorm.isSome = false
      rw [hc]; rfl
    obtain ⟨res', k1, k2⟩ := C113_calibration (kE := fun e => aE e ^ 2) (kS := fun s => aS s ^ 2)
      hwls hr hG g1 hcod hfs g2 g3 g4 (fun e => sq_pos_of_ne_zero (haE e))
      (fun s => sq_pos_of_ne_zero (haS s)) (List.Perm.refl _) h
    exact ⟨res', h2.trans k1, .inr ⟨v0, ps, ha, k2⟩⟩

/-- **C119**: units of the waveforms of each event for command `source`: the spectral source
energies are multiplied by the squares of the factors, everything else is the same. -/
theorem C119_source (hwls : IsWls rank wls) (hr : FullRank rank) (hG : OneValuePerTime G)
    (hl : Linear lib) (hn : Homogeneous cfg.noiseFunc) (hc : cfg.codaNorm = none)
    (hfx : inv.fix = true) (hfs : cfg.fixSites = true)
    (href : ∀ s r, cfg.fixSitesParams.get? s = some r → 0 < r)
    (hnd : (streams.map (fun s => (s.event, s.station))).Nodup)
    (hin : ∀ v0 ps, AcceptedPairs lib cfg streams v0 ps → ps ≠ [] →
      GoodInput (fullCfg cfg inv v0) ps)
    {aE : String → ℝ} (haE : ∀ e, aE e ≠ 0) {res : Option BandResult}
    (h : invertFb lib wls G minimize cfg inv streams = .ok res) :
    ∃ res', invertFb lib wls G minimize cfg inv
        (streams.map (fun s => inOtherUnits (aE s.event) s)) = .ok res' ∧
      Option.Rel (SameSources (fun e => aE e ^ 2)) res res' := by
  have key := C119_energies_of_accepted_pairs (wls := wls) (G := G) (minimize := minimize)
    (inv := inv) hl hn hc hnd haE (aS := fun _ => 1) (fun _ => one_ne_zero)
  simp only [mul_one, one_pow] at key
  rcases key with ⟨r, hr', h1, h2⟩ | ⟨v0, ps, ha, hne, -, h1, h2⟩
  · rw [h1] at h
    subst h
    refine ⟨res, h2, ?_⟩
    rcases hr' with h | ⟨e, h⟩
    · cases h; exact .none
    · cases h
  · rw [h1] at h
    have hcod : (fullCfg cfg inv v0).codaNorm = false := by
      show cfg.codaNorm.isSome = false
      rw [hc]; rfl
    obtain ⟨res', k1, k2⟩ := C113_source (kE := fun e => aE e ^ 2)
      hwls hr hG (hin v0 ps ha hne) hcod hfx hfs href (fun e => sq_pos_of_ne_zero (haE e))
      (List.Perm.refl _) h
    exact ⟨res', h2.trans k1, k2⟩

/-- The windows of a trace are determined by it. -/
theorem accepts_unique {v0 : ℝ} {tr : Trace} {p q : PairData} (hp : Accepts lib cfg v0 tr p)
    (hq : Accepts lib cfg v0 tr q) : p = q := by
  obtain ⟨a1, a2, a3, ⟨t, w, esl, a4, ⟨w0, a5, a6, a7⟩, -, a8, a9⟩, a10, a11⟩ := hp
  obtain ⟨b1, b2, b3, ⟨t', w', esl', b4, ⟨w0', b5, b6, b7⟩, -, b8, b9⟩, b10, b11⟩ := hq
  obtain rfl : t = t' := by rw [a4] at b4; exact Except.ok.inj b4
  obtain rfl : w0 = w0' := by rw [a5] at b5; exact Except.ok.inj b5
  have hw : w = w' := by
    cases hc : cfg.cutCoda with
    | none => rw [hc] at a7 b7; exact a7.trans b7.symm
    | some c =>
      rw [hc] at a7 b7
      obtain ⟨-, x, x1, x2⟩ := a7
      obtain ⟨-, y, y1, y2⟩ := b7
      obtain rfl : x = y := by rw [x1] at y1; exact Option.some.inj y1
      exact x2.trans y2.symm
  subst hw
  obtain rfl : esl = esl' := by rw [a8] at b8; exact Option.some.inj b8
  have hcoda : p.coda = q.coda := a9.trans b9.symm
  have hbulk : p.bulkTime = q.bulkTime ∧ p.bulkEnergy = q.bulkEnergy ∧
      p.bulkWeight = q.bulkWeight ∧ p.bulkStart = q.bulkStart ∧ p.bulkEnd = q.bulkEnd := by
    cases hb : cfg.bulkWindow with
    | none =>
      obtain ⟨x1, x2, x3, x4, x5⟩ := a11 hb
      obtain ⟨y1, y2, y3, y4, y5⟩ := b11 hb
      exact ⟨x1.trans y1.symm, x2.trans y2.symm, x3.trans y3.symm, x4.trans y4.symm,
        x5.trans y5.symm⟩
    | some bw =>
      obtain ⟨u, x, n, x1, x2, -, x4, x5, x6, x7, x8, x9⟩ := a10 bw hb
      obtain ⟨u', y, m, y1, y2, -, y4, y5, y6, y7, y8, y9⟩ := b10 bw hb
      obtain rfl : u = u' := by rw [x1] at y1; exact Except.ok.inj y1
      obtain rfl : x = y := by rw [x2] at y2; exact Option.some.inj y2
      have hnm : n = m := by
        rw [hcoda] at x9
        rcases x9 with ⟨z1, z2⟩ | ⟨z1, z2⟩ | ⟨z1, z2⟩ <;> rw [z1] at y9 <;> simp at y9 <;>
          exact z2.trans y9.symm
      subst hnm
      exact ⟨x5.trans y5.symm, x4.trans y4.symm, x8.trans y8.symm, x6.trans y6.symm,
        x7.trans y7.symm⟩
  obtain ⟨c1, c2, c3, c4, c5⟩ := hbulk
  cases p
  cases q
  simp only at *
  subst a1 a2 a3 hcoda c1 c2 c3 c4 c5
  rw [b1, b2, b3]

/-- `AcceptedPairs` describes one list of pairs and one velocity only. -/
theorem acceptedPairs_unique (hnd : (streams.map (fun s => (s.event, s.station))).Nodup)
    {v0 v0' : ℝ} {ps ps' : List PairData} (h : AcceptedPairs lib cfg streams v0 ps)
    (h' : AcceptedPairs lib cfg streams v0' ps') : v0 = v0' ∧ ps = ps' := by
  obtain ⟨trs, sel, a1, a2, a3, a4, a5, rfl⟩ := h
  obtain ⟨trs', sel', b1, b2, b3, b4, b5, rfl⟩ := h'
  obtain rfl : trs = trs' := by rw [a1] at b1; exact Except.ok.inj b1
  obtain rfl : v0 = v0' := by rw [a2] at b2; exact Option.some.inj b2
  refine ⟨rfl, ?_⟩
  have hnd' : trs.Nodup := (hnd.sublist (energies_pairs a1)).of_map _
  have hm : ∀ {sel : List (Trace × PairData)}, (sel.map Prod.fst).Sublist trs →
      (∀ q ∈ sel, Accepts lib cfg v0 q.1 q.2) →
      (∀ tr ∈ trs, tr ∉ sel.map Prod.fst → ∀ p, ¬ Accepts lib cfg v0 tr p) →
      ∀ tr, tr ∈ sel.map Prod.fst ↔ tr ∈ trs ∧ ∃ p, Accepts lib cfg v0 tr p := by
    intro sel h1 h2 h3 tr
    constructor
    · intro h
      obtain ⟨q, hq, rfl⟩ := List.mem_map.1 h
      exact ⟨h1.subset h, q.2, h2 q hq⟩
    · rintro ⟨h, p, hp⟩
      by_contra hn
      exact h3 tr h hn p hp
  have hfst : sel.map Prod.fst = sel'.map Prod.fst := by
    have e : ∀ {l : List Trace}, l.Sublist trs → ∀ (s : Trace → Prop) [DecidablePred s],
        (∀ tr, tr ∈ l ↔ tr ∈ trs ∧ s tr) → l = trs.filter (fun tr => s tr) := by
      intro l hl s _ hs
      have h1 : l.Sublist (trs.filter (fun tr => s tr)) := by
        have := hl.filter (fun tr => decide (s tr))
        rwa [List.filter_eq_self.2 (fun tr htr => by simpa using ((hs tr).1 htr).2)] at this
      refine h1.eq_of_length_le ?_
      apply List.Subperm.length_le
      apply List.subperm_of_subset (hnd'.filter _)
      intro tr htr
      rw [List.mem_filter] at htr
      exact (hs tr).2 ⟨htr.1, by simpa using htr.2⟩
    classical
    rw [e a3 (fun tr => ∃ p, Accepts lib cfg v0 tr p) (hm a3 a4 a5),
      e b3 (fun tr => ∃ p, Accepts lib cfg v0 tr p) (hm b3 b4 b5)]
  clear hm a3 b3 a5 b5
  induction sel generalizing sel' with
  | nil =>
    cases sel' with
    | nil => rfl
    | cons q l => simp at hfst
  | cons q l ih =>
    cases sel' with
    | nil => simp at hfst
    | cons q' l' =>
      simp only [List.map_cons, List.cons.injEq] at hfst ⊢
      refine ⟨?_, ih (fun x hx => a4 x (by simp [hx])) l' (fun x hx => b4 x (by simp [hx])) hfst.2⟩
      have h1 := a4 q (by simp)
      have h2 := b4 q' (by simp)
      rw [← hfst.1] at h2
      exact accepts_unique h1 h2

/-- The inversion of a band with enough accepted pairs is the inversion of these. -/
theorem invertFb_accepted (hnd : (streams.map (fun s => (s.event, s.station))).Nodup)
    {trs : List Trace} {v0 : ℝ} {st : WState} (he : energies lib cfg streams = .ok trs)
    (hv : velocity cfg trs = some v0) (hw : windows lib cfg v0 trs = .ok st)
    (hc : ¬ (st.Ecoda.length = 0 ∨ (st.Ecoda.length : ℝ) < cfg.numPairs)) :
    ∃ ps, AcceptedPairs lib cfg streams v0 ps ∧ invertFb lib wls G minimize cfg inv streams =
      solveBand wls G minimize (fullCfg cfg inv v0) (bandOf cfg.bulkWindow.isSome ps) := by
  have hnd' : (trs.map Trace.pair).Nodup := hnd.sublist (energies_pairs he)
  obtain ⟨sel, b1, b2, b3, c1, c2, c3, c4, c5, c6, c7⟩ := C18_windows_belong_to_pairs hnd' hw
  have hpair : ∀ q ∈ sel, q.2.pair = q.1.pair := by
    intro q hq
    obtain ⟨e1, e2, _⟩ := b2 q hq
    unfold PairData.pair Trace.pair
    rw [e1, e2]
  have hndp : ((sel.map Prod.snd).map PairData.pair).Nodup := by
    have e : (sel.map Prod.snd).map PairData.pair = (sel.map Prod.fst).map Trace.pair := by
      rw [List.map_map, List.map_map]
      exact List.map_congr_left hpair
    rw [e]
    exact hnd'.sublist (b1.map _)
  refine ⟨sel.map Prod.snd, ⟨trs, sel, he, hv, b1, b2, b3, rfl⟩, ?_⟩
  unfold invertFb
  rw [if_neg, he]
  · simp only [bind, Except.bind]
    rw [hv]
    simp only
    rw [hw]
    simp only
    rw [if_neg hc]
    apply solveBand_congr
    · exact c1
    · exact c2
    · exact c3
    · exact c4
    · exact c5
    · exact c6
    · intro k hk
      have hk' : k ∈ (sel.map Prod.snd).map PairData.pair := by
        have e : st.band.pairs = st.energies := rfl
        rw [e, c1] at hk
        exact hk
      obtain ⟨p, hp, rfl⟩ := List.mem_map.1 hk'
      obtain ⟨q, hq, rfl⟩ := List.mem_map.1 hp
      exact (c7 q hq).1.trans (get?_map_pair hndp (fun p => p.distance) hp).symm
    · intro hb k hk
      have hb' : cfg.bulkWindow.isSome = true := hb
      have hk' : k ∈ (sel.map Prod.snd).map PairData.pair := by
        have e : st.band.pairs = st.energies := rfl
        rw [e, c1] at hk
        exact hk
      obtain ⟨p, hp, rfl⟩ := List.mem_map.1 hk'
      obtain ⟨q, hq, rfl⟩ := List.mem_map.1 hp
      refine ((c7 q hq).2 hb').trans ?_
      symm
      simp only [bandOf, hb', if_true]
      exact get?_map_pair hndp (fun p => (p.bulkStart, p.bulkEnd)) hp
  · rintro rfl
    have : trs = [] := by
      simp [energies, mapExc, bind, Except.bind, pure, Except.pure] at he
      exact he
    subst this
    simp [windows, pure, Except.pure] at hw
    subst hw
    simp at hc

namespace UnitsExample

open TimeAxisExample InvertExample

/-- Two channels of a recording of event "e" whose energies are those of `exTrace`. -/
noncomputable def exStream (st : String) : Stream :=
  { event := "e", station := st, channels := [[0, 2, 2, 1, 1, 1], [0, 0, 0, 1, 0, 0]]
    start := 0, sr := 1, origin := 0, ponset := 0.5, sonset := 1, distance := 1 }

noncomputable def exStreams : List Stream := [exStream "A", exStream "C"]

/-- Configuration without correction of the free surface. -/
noncomputable def uCfg : WCfg := { exCfg with freeSurface := .one 1 }

noncomputable def uInv : Cfg :=
  { g0Bounds := some (1 / 2, 3 / 2), bBounds := none, v0 := 1, optimize := false }

theorem linear : Linear exLib := ⟨fun _ _ => rfl, fun _ _ _ _ => rfl⟩

theorem homogeneous : Homogeneous uCfg.noiseFunc := by
  intro k _ l
  cases l <;> simp [uCfg, exCfg]

theorem energy (st : String) : Window.energyOf exLib uCfg (exStream st) = .ok (some (exTrace st)) := by
  unfold Window.energyOf
  rw [if_neg (by norm_num [uCfg, exCfg, exStream]), if_neg (by simp [uCfg, exCfg])]
  have : observedEnergy exLib.hilbert ⟨(exStream st).event, (exStream st).station,
      (exStream st).start, 1, (exStream st).channels.map (exLib.filt (filterSpec uCfg 1) 1),
      (exStream st).origin, (exStream st).ponset, (exStream st).sonset, (exStream st).distance,
      (exStream st).borehole⟩ uCfg.rho0
      (exLib.width 1 (filterSpec uCfg 1)) uCfg.codaNorm (freeSurfaceOf uCfg (exStream st)) =
      .ok (exTrace st) := by
    simp [observedEnergy, exLib, exStream, uCfg, exCfg, energy1c, freeSurfaceOf, minLen, maxLen,
      sumAxis0, exTrace, List.range_succ]
    norm_num
  have e : (exStream st).sr = 1 := rfl
  simp only [e]
  rw [this]

theorem energies_ex : energies exLib uCfg exStreams = .ok [exTrace "A", exTrace "C"] := by
  have hn : ∀ st, noiseStep exLib uCfg (exTrace st) = .ok (some (exTrace st)) := by
    intro st
    simp [noiseStep, uCfg, exCfg, mapExc, adjust, bind, Except.bind, pure, Except.pure]
  simp [energies, exStreams, mapExc, energy, hn, bind, Except.bind, pure, Except.pure]

theorem windows_ex : ∃ st, windows exLib uCfg 1 [exTrace "A", exTrace "C"] = .ok st ∧
    st.Ecoda.length = 2 := by
  have hb : ∀ tr : Trace, tr.origin = 0 → tw2utc exFloat (.one "OT+1s".toList, .one "OT+2s".toList) tr
      = .ok (1, 2) := fun tr h => ex_tw h (num := "+1".toList) (num' := "+2".toList) (by decide)
      (by simp [exFloat]) (by decide) (by simp [exFloat])
  have hc : ∀ tr : Trace, tr.origin = 0 → tw2utc exFloat (.one "OT+3s".toList, .one "OT+4s".toList) tr
      = .ok (3, 4) := fun tr h => ex_tw h (num := "+3".toList) (num' := "+4".toList) (by decide)
      (by simp [exFloat]) (by decide) (by simp [exFloat])
  have hgood : ∀ (s : WState) (n : String), ∃ s', step exLib uCfg 1 s (exTrace n) = .ok s' ∧
      s'.Ecoda.length = s.Ecoda.length + 1 := by
    intro s n
    unfold step
    simp only [uCfg, exCfg, exLib, hb (exTrace n) rfl, bind, Except.bind, ex_bulk]
    rw [if_neg (by simp), if_neg (by norm_num)]
    unfold codaPart smoothTrace cutCoda checkMaximum collect
    simp only [bind, Except.bind, hc (exTrace n) rfl, ex_coda]
    rw [if_neg (by norm_num)]
    simp only [weightUnit, pure, Except.pure]
    exact ⟨_, rfl, by simp⟩
  unfold windows
  simp only [List.foldlM_cons, List.foldlM_nil]
  obtain ⟨s1, h1, h1'⟩ := hgood { energies := [("e", "A"), ("e", "C")] } "A"
  obtain ⟨s2, h2, h2'⟩ := hgood s1 "C"
  refine ⟨s2, ?_, ?_⟩
  · have e0 : ({ energies := List.map Trace.pair [exTrace "A", exTrace "C"] } : WState)
        = { energies := [("e", "A"), ("e", "C")] } := rfl
    rw [e0, h1]
    simp only [bind, Except.bind, h2, pure, Except.pure]
  · rw [h2', h1']
    rfl

theorem accepted_ex : AcceptedPairs exLib uCfg exStreams 1 [exPair "A", exPair "C"] := by
  refine ⟨_, [(exTrace "A", exPair "A"), (exTrace "C", exPair "C")], energies_ex, rfl,
    List.Sublist.refl _, ?_, ?_, rfl⟩
  · intro q hq
    simp only [List.mem_cons, List.not_mem_nil, or_false] at hq
    rcases hq with rfl | rfl
    · exact ex_accepts "A"
    · exact ex_accepts "C"
  · intro tr h hn
    exact absurd h hn

theorem nodup_ex : (exStreams.map (fun s => (s.event, s.station))).Nodup := by
  simp [exStreams, exStream]

theorem good_ex (inv : Cfg) (h : 0 < inv.R0) :
    GoodInput (fullCfg uCfg inv 1) [exPair "A", exPair "C"] where
  pairs := by simp [exPair, PairData.pair]
  some_pair := by simp
  weights := by
    intro p hp
    simp only [List.mem_cons, List.not_mem_nil, or_false] at hp
    rcases hp with rfl | rfl <;> simp [exPair]
  R0 := h

theorem result_ex (minimize : (ℝ → Py (WithTop ℝ)) → Py ℝ) :
    ∃ r, invertFb exLib rankWls G1 minimize uCfg uInv exStreams = .ok (some r) := by
  obtain ⟨st, h1, h2⟩ := windows_ex
  obtain ⟨ps, h3, h4⟩ := invertFb_accepted (wls := rankWls) (G := G1) (minimize := minimize)
    (inv := uInv) nodup_ex energies_ex rfl h1 (by rw [h2]; norm_num [uCfg, exCfg])
  obtain rfl : ps = [exPair "A", exPair "C"] := (acceptedPairs_unique nodup_ex h3 accepted_ex).2
  rw [h4]
  have hgr : IsGreens G1 (fullCfg uCfg uInv 1) 1 [exPair "A", exPair "C"]
      [([1, 1], 1), ([1, 1], 1)] := by
    have hb : ∀ (c : Cfg) (r : ℝ) (w : ℝ × ℝ), c.numPoints = 1000 → gbulk G1 c r w 1 = .ok 1 := by
      intro c r w h
      have hm : ∀ l : List ℝ, l ≠ [] → InvertFb.mean (l.map (fun _ => (1 : ℝ))) = 1 := by
        intro l hl
        unfold InvertFb.mean
        rw [List.map_const', List.sum_replicate, List.length_replicate, nsmul_eq_mul, mul_one]
        exact div_self (by simpa using hl)
      have hne : InvertFb.linspace w.1 w.2 c.numPoints ≠ [] := by
        rw [← List.length_pos_iff, InvertFb.linspace, List.length_map, List.length_range, h]
        norm_num
      simp only [gbulk, G1, bind, Except.bind, pure, Except.pure, hm _ hne]
    simp [IsGreens, exPair, gsmooth, smoothFunc, fullCfg, uCfg, exCfg, G1]
    exact hb _ _ _ rfl
  have hl : ∃ f, lstsq rankWls G1 (fullCfg uCfg uInv 1)
      (bandOf (fullCfg uCfg uInv 1).bulk [exPair "A", exPair "C"]) 1 none false = .ok f ∧ f.g0 = 1 := by
    rw [lstsq_eq (good_ex uInv (by norm_num [uInv])).pairs _ hgr _ rfl rfl (by simp)]
    · exact ⟨_, rfl, rfl⟩
    · intro p hp
      simp only [List.mem_cons, List.not_mem_nil, or_false] at hp
      rcases hp with rfl | rfl <;> simp [exPair]
    · intro s hs
      simp [samplesOf, exPair, fullCfg, uCfg, exCfg] at hs
      rcases hs with rfl | rfl | rfl | rfl | rfl | rfl <;> norm_num
  obtain ⟨f, hf, hg⟩ := hl
  have hnear : ¬ nearBounds (fullCfg uCfg uInv 1) f.b f.g0 := by
    rw [hg]
    rintro (⟨gb, h1, h2⟩ | ⟨gb, h1, h2⟩)
    · simp [fullCfg, uInv] at h1
    · simp only [fullCfg, uInv, Option.some.injEq] at h1
      subst h1
      norm_num at h2
  have hfit : bandFit rankWls G1 minimize (fullCfg uCfg uInv 1)
      (bandOf (fullCfg uCfg uInv 1).bulk [exPair "A", exPair "C"]) = .ok (some f) := by
    unfold bandFit
    rw [if_neg (by simp [fullCfg, uInv]), if_neg (by simp [fullCfg, uInv])]
    have e : ((1 / 2 + 3 / 2) / 2 : ℝ) = 1 := by norm_num
    have e2 : (fullCfg uCfg uInv 1).g0Bounds = some (1 / 2, 3 / 2) := rfl
    rw [e2]
    simp only [e]
    rw [hf]
    rfl
  have hrep : ∃ r, report (fullCfg uCfg uInv 1)
      (bandOf (fullCfg uCfg uInv 1).bulk [exPair "A", exPair "C"]) f = some r := by
    unfold report
    rw [if_neg hnear]
    exact ⟨_, rfl⟩
  obtain ⟨r, hr⟩ := hrep
  refine ⟨r, ?_⟩
  have e : uCfg.bulkWindow.isSome = (fullCfg uCfg uInv 1).bulk := rfl
  rw [e]
  unfold solveBand
  rw [hfit]
  simp only [bind, Except.bind, pure, Except.pure, Option.bind_some, hr]

/-- Amplitudes at station "C" are ten times as large. -/
noncomputable def aS (s : String) : ℝ := if s = "C" then 10 else 1

example (minimize : (ℝ → Py (WithTop ℝ)) → Py ℝ) : ∃ r r',
    invertFb exLib rankWls G1 minimize uCfg uInv exStreams = .ok (some r) ∧
    invertFb exLib rankWls G1 minimize uCfg uInv
      (exStreams.map (fun s => inOtherUnits (3 * aS s.station) s)) = .ok (some r') ∧
    SameUpTo (fun s => aS s ^ 2 / meanFactor (fun s => aS s ^ 2) [exPair "A", exPair "C"])
      (fun _ => 3 ^ 2 * meanFactor (fun s => aS s ^ 2) [exPair "A", exPair "C"]) r r' := by
  obtain ⟨r, hr⟩ := result_ex minimize
  obtain ⟨res', h1, h2⟩ := C119_calibration (aE := fun _ => 3) (aS := aS) rankWls_spec
    someRank_full one_value_G1 linear homogeneous rfl rfl nodup_ex (by
      intro v0 ps h _
      obtain ⟨rfl, rfl⟩ := acceptedPairs_unique nodup_ex h accepted_ex
      refine ⟨good_ex uInv (by norm_num [uInv]), ?_, fun _ => ?_, by simp [uInv]⟩
      · intro p hp q hq
        refine .single ⟨p, hp, q, hq, ?_, rfl, rfl⟩
        simp only [List.mem_cons, List.not_mem_nil, or_false] at hp hq
        rcases hp with rfl | rfl <;> rcases hq with rfl | rfl <;> rfl
      · exact ⟨exPair "A", by simp, (3, 2), by simp [exPair], (4, 1), by simp [exPair], by norm_num⟩)
    (by intro; norm_num) (by intro s; unfold aS; split <;> norm_num) hr
  rcases h2 with ⟨h2, -⟩ | ⟨v0, ps, h2, h3⟩
  · cases h2
  · obtain ⟨rfl, rfl⟩ := acceptedPairs_unique nodup_ex h2 accepted_ex
    cases h3 with
    | some h3 => exact ⟨r, _, hr, h1, h3⟩

/-- Site responses are known. -/
noncomputable def sCfg : WCfg :=
  { uCfg with fixSites := true, fixSitesParams := [("A", 2), ("C", 1 / 2)] }

noncomputable def sInv : Cfg := { uInv with fix := true, fixParams := (some 1, some 1) }

theorem energies_source : energies exLib sCfg exStreams = .ok [exTrace "A", exTrace "C"] := by
  have he : ∀ s, sCfg.fixSitesParams.get? s ≠ none →
      Window.energyOf exLib sCfg (exStream s) = Window.energyOf exLib uCfg (exStream s) := by
    intro s hs
    unfold Window.energyOf
    have h1 : (sCfg.fixSites && (sCfg.fixSitesParams.get? (exStream s).station).isNone) = false := by
      have : (exStream s).station = s := rfl
      rw [this]
      cases h : sCfg.fixSitesParams.get? s with
      | none => exact absurd h hs
      | some r => rfl
    have h2 : (uCfg.fixSites && (uCfg.fixSitesParams.get? (exStream s).station).isNone) = false := rfl
    rw [h1, h2]
    rfl
  have hn : ∀ st, noiseStep exLib sCfg (exTrace st) = .ok (some (exTrace st)) := by
    intro st
    simp [noiseStep, sCfg, uCfg, exCfg, mapExc, adjust, bind, Except.bind, pure, Except.pure]
  simp [energies, exStreams, mapExc, he "A" (by simp [sCfg, Dict.get?]),
    he "C" (by simp [sCfg, Dict.get?]), energy, hn, bind, Except.bind, pure, Except.pure]

theorem accepted_source : AcceptedPairs exLib sCfg exStreams 1 [exPair "A", exPair "C"] := by
  refine ⟨_, [(exTrace "A", exPair "A"), (exTrace "C", exPair "C")], energies_source, rfl,
    List.Sublist.refl _, ?_, ?_, rfl⟩
  · intro q hq
    simp only [List.mem_cons, List.not_mem_nil, or_false] at hq
    rcases hq with rfl | rfl
    · exact ex_accepts "A"
    · exact ex_accepts "C"
  · intro tr h hn
    exact absurd h hn

/-- The hypotheses of `C119_source`. -/
example : Linear exLib ∧ Homogeneous sCfg.noiseFunc ∧ sCfg.codaNorm = none ∧ sInv.fix = true ∧
    sCfg.fixSites = true ∧ (∀ s r, sCfg.fixSitesParams.get? s = some r → 0 < r) ∧
    (∃ v0 ps, AcceptedPairs exLib sCfg exStreams v0 ps) ∧
    ∀ v0 ps, AcceptedPairs exLib sCfg exStreams v0 ps → ps ≠ [] →
      GoodInput (fullCfg sCfg sInv v0) ps := by
  refine ⟨linear, homogeneous, rfl, rfl, rfl, ?_, ⟨_, _, accepted_source⟩, ?_⟩
  · intro s r h
    by_cases hA : s = "A"
    · subst hA
      simp [sCfg, Dict.get?] at h
      rw [← h]; norm_num
    · by_cases hC : s = "C"
      · subst hC
        simp [sCfg, Dict.get?] at h
        rw [← h]; norm_num
      · simp [sCfg, Dict.get?, Ne.symm hA, Ne.symm hC] at h
  · intro v0 ps h _
    obtain ⟨rfl, rfl⟩ := acceptedPairs_unique nodup_ex h accepted_source
    exact ⟨(good_ex uInv (by norm_num [uInv])).pairs, by simp,
      (good_ex uInv (by norm_num [uInv])).weights, by norm_num [fullCfg, sInv, uInv]⟩

/-- The recordings of station "C" a day later, with the same result. -/
example (minimize : (ℝ → Py (WithTop ℝ)) → Py ℝ) : ∃ r,
    invertFb exLib rankWls G1 minimize uCfg uInv (exStreams.map (fun s =>
      atOtherTime ((fun _ st => if st = "C" then 86400 else 0) s.event s.station) s)) =
      .ok (some r) := by
  obtain ⟨r, hr⟩ := result_ex minimize
  have h := C118_absolute_times (lib := exLib) (wls := rankWls) (G := G1) (minimize := minimize)
    (cfg := uCfg) (inv := uInv) (streams := exStreams) (fun _ st => if st = "C" then 86400 else 0)
  exact ⟨r, h.trans hr⟩

/-- Coda normalisation in the example. -/
noncomputable def nCfg : WCfg := { uCfg with codaNorm := some (3, 4) }

example (minimize : (ℝ → Py (WithTop ℝ)) → Py ℝ) :
    invertFb exLib rankWls G1 minimize nCfg uInv
      (exStreams.map (fun s => inOtherUnits ((fun _ st => aS st) s.event s.station) s)) =
    invertFb exLib rankWls G1 minimize nCfg uInv exStreams :=
  C119_coda_normalization (a := fun _ st => aS st) linear rfl
    (by intro _ s; unfold aS; split <;> norm_num)

/-- The energies of the example are divided by the mean 3/2 in the window. -/
example : normalise (exTrace "A") (3, 4) =
    .ok { exTrace "A" with data := (exTrace "A").data.map (fun x => x / (3 / 2)) } := by
  have hs : (exTrace "A").slice ((exTrace "A").origin + 3) ((exTrace "A").origin + 4) =
      .ok { exTrace "A" with start := 3, data := [2, 1] } := by
    have := ex_coda "A"
    unfold getSlice at this
    have e : (exTrace "A").origin = 0 := rfl
    rw [e, zero_add, zero_add]
    cases hsl : (exTrace "A").slice 3 4 with
    | error e => rw [hsl] at this; simp at this
    | ok t =>
      rw [hsl] at this
      simp only at this
      split_ifs at this
      simpa using this
  unfold normalise
  simp only [hs, bind, Except.bind]
  norm_num

end UnitsExample

end Qopen
