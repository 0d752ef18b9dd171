import Verif.Spec.Window
import Mathlib.Data.List.GetD

/-! # Lemmas on the loop over the windows -/

namespace Qopen.Window

open Real Util Tr Energy InvertFb Spec

variable {lib : Lib} {cfg : WCfg} {v0 : ℝ} {st st' : WState} {tr : Trace}

theorem collect_cases {bulk : Option Bulk} {w : ℝ × ℝ} (h : collect cfg v0 st tr bulk w = .ok st') :
    (getSlice tr w = none ∧ st' = st.remove tr) ∨
    ∃ esl, getSlice tr w = some esl ∧
      ((bulk = none ∧ st' = { st with
          tcoda := st.tcoda ++ [timeAxis tr v0 w.1 esl.data.length]
          Ecoda := st.Ecoda ++ [esl.data] }) ∨
       ∃ b unit, bulk = some b ∧ weightUnit cfg.weight.2 esl.data.length b.N = .ok unit ∧
        st' = { st with
          tcoda := st.tcoda ++ [timeAxis tr v0 w.1 esl.data.length]
          Ecoda := st.Ecoda ++ [esl.data]
          weightsBulk := st.weightsBulk ++ [cfg.weight.1 * unit]
          tbulk := st.tbulk ++ [b.t]
          Ebulk := st.Ebulk ++ [b.E] }) := by
  unfold collect at h
  cases hs : getSlice tr w with
  | none =>
    simp only [hs, Except.ok.injEq] at h
    exact Or.inl ⟨rfl, h.symm⟩
  | some esl =>
    right
    refine ⟨esl, rfl, ?_⟩
    cases bulk with
    | none =>
      simp only [hs, Except.ok.injEq] at h
      exact Or.inl ⟨rfl, h.symm⟩
    | some b =>
      simp only [hs] at h
      obtain ⟨unit, hu, h⟩ := bind_ok.1 h
      simp only [pure, Except.pure, Except.ok.injEq] at h
      exact Or.inr ⟨b, unit, rfl, hu, h.symm⟩

theorem checkMaximum_cases {bulk : Option Bulk} {w : ℝ × ℝ}
    (h : checkMaximum lib cfg v0 st tr bulk w = .ok st') :
    (¬ MaximumOk lib cfg tr ∧ st' = st.remove tr) ∨
    (MaximumOk lib cfg tr ∧ collect cfg v0 st tr bulk w = .ok st') := by
  unfold checkMaximum at h
  cases hm : cfg.skipMaximum with
  | none =>
    simp only [hm] at h
    refine Or.inr ⟨?_, h⟩
    intro mwin hw
    rw [hm] at hw
    simp at hw
  | some mwin =>
    simp only [hm] at h
    obtain ⟨mw, hmw, h⟩ := bind_ok.1 h
    obtain ⟨i, hi, h⟩ := bind_ok.1 h
    by_cases hc : mw.1 < tr.start + i / tr.sr ∧ tr.start + i / tr.sr < mw.2
    · rw [if_pos hc] at h
      refine Or.inr ⟨?_, h⟩
      intro mwin' hw
      rw [hm] at hw
      simp only [Option.some.injEq] at hw
      subst hw
      exact ⟨mw, i, hmw, hi, hc⟩
    · rw [if_neg hc] at h
      simp only [Except.ok.injEq] at h
      refine Or.inl ⟨?_, h.symm⟩
      intro hok
      obtain ⟨mw', i', h1, h2, h3⟩ := hok mwin hm
      rw [hmw] at h1
      rw [hi] at h2
      simp only [Except.ok.injEq] at h1 h2
      subst h1 h2
      exact hc h3

theorem cutCoda_cases {bulk : Option Bulk} {w0 : ℝ × ℝ}
    (h0 : tw2utc lib.float cfg.codaWindow tr = .ok w0) (hlen : cfg.skipCoda ≤ w0.2 - w0.1)
    (h : cutCoda lib cfg v0 st tr bulk w0 = .ok st') :
    ((∀ w, ¬ CodaWindow lib cfg tr w) ∧ st' = st.remove tr) ∨
    ∃ w, CodaWindow lib cfg tr w ∧ (∀ w', CodaWindow lib cfg tr w' → w' = w) ∧
      checkMaximum lib cfg v0 st tr bulk w = .ok st' := by
  unfold cutCoda at h
  cases hc : cfg.cutCoda with
  | none =>
    simp only [hc] at h
    refine Or.inr ⟨w0, ⟨w0, h0, hlen, by rw [hc]⟩, ?_, h⟩
    rintro w' ⟨w1, h1, _, h3⟩
    rw [hc] at h3
    rw [h0] at h1
    simp only [Except.ok.injEq] at h1
    rw [h1]
    exact h3
  | some c =>
    simp only [hc] at h
    cases hs : getSlice tr (seamWindow c w0) with
    | none =>
      simp only [hs, Except.ok.injEq] at h
      refine Or.inl ⟨?_, h.symm⟩
      rintro w ⟨w1, h1, _, h3⟩
      rw [hc] at h3
      obtain ⟨_, esl, h4, _⟩ := h3
      rw [h0] at h1
      simp only [Except.ok.injEq] at h1
      subst h1
      rw [hs] at h4
      simp at h4
    | some esl =>
      simp only [hs] at h
      by_cases hl : (cutWindow w0 (localMinimum esl c.smooth c.ratio
          (c.window.getD cfg.smoothWindow))).2 - (cutWindow w0 (localMinimum esl c.smooth c.ratio
          (c.window.getD cfg.smoothWindow))).1 < cfg.skipCoda
      · rw [if_pos hl] at h
        simp only [Except.ok.injEq] at h
        refine Or.inl ⟨?_, h.symm⟩
        rintro w ⟨w1, h1, _, h3⟩
        rw [hc] at h3
        obtain ⟨hle, esl', h4, h5⟩ := h3
        rw [h0] at h1
        simp only [Except.ok.injEq] at h1
        subst h1
        rw [hs] at h4
        simp only [Option.some.injEq] at h4
        subst h4
        rw [← h5] at hl
        exact absurd hl (not_lt.2 hle)
      · rw [if_neg hl] at h
        refine Or.inr ⟨_, ⟨w0, h0, hlen, ?_⟩, ?_, h⟩
        · rw [hc]
          exact ⟨not_lt.1 hl, esl, hs, rfl⟩
        · rintro w' ⟨w1, h1, _, h3⟩
          rw [hc] at h3
          obtain ⟨hle, esl', h4, h5⟩ := h3
          rw [h0] at h1
          simp only [Except.ok.injEq] at h1
          subst h1
          rw [hs] at h4
          simp only [Option.some.injEq] at h4
          subst h4
          exact h5

theorem codaPart_cases {bulk : Option Bulk} (h : codaPart lib cfg v0 st tr bulk = .ok st') :
    ∃ tr', smoothTrace cfg tr = .ok tr' ∧
    (((∀ w, CodaWindow lib cfg tr' w → MaximumOk lib cfg tr' → getSlice tr' w = none) ∧
        st' = st.remove tr') ∨
    ∃ w, CodaWindow lib cfg tr' w ∧ MaximumOk lib cfg tr' ∧ (getSlice tr' w).isSome ∧
      collect cfg v0 st tr' bulk w = .ok st') := by
  unfold codaPart at h
  obtain ⟨tr', htr, h⟩ := bind_ok.1 h
  obtain ⟨w0, hw0, h⟩ := bind_ok.1 h
  refine ⟨tr', htr, ?_⟩
  by_cases hl : w0.2 - w0.1 < cfg.skipCoda
  · rw [if_pos hl] at h
    simp only [Except.ok.injEq] at h
    refine Or.inl ⟨?_, h.symm⟩
    rintro w ⟨w1, h1, h2, _⟩
    rw [hw0] at h1
    simp only [Except.ok.injEq] at h1
    subst h1
    exact absurd hl (not_lt.2 h2)
  · rw [if_neg hl] at h
    rcases cutCoda_cases hw0 (not_lt.1 hl) h with ⟨h1, h2⟩ | ⟨w, h1, h2, h3⟩
    · exact Or.inl ⟨fun w hw _ => absurd hw (h1 w), h2⟩
    · rcases checkMaximum_cases h3 with ⟨h4, h5⟩ | ⟨h4, h5⟩
      · exact Or.inl ⟨fun w _ hm => absurd hm h4, h5⟩
      · rcases collect_cases h5 with ⟨h6, h7⟩ | ⟨esl, h6, _⟩
        · exact Or.inl ⟨fun w' hw' _ => by rw [h2 w' hw']; exact h6, h7⟩
        · exact Or.inr ⟨w, h1, h4, by rw [h6]; rfl, h5⟩

theorem smoothTrace_same {tr' : Trace} (h : smoothTrace cfg tr = .ok tr') :
    tr'.event = tr.event ∧ tr'.station = tr.station ∧ tr'.start = tr.start ∧ tr'.sr = tr.sr ∧
    tr'.sonset = tr.sonset ∧ tr'.distance = tr.distance := by
  unfold smoothTrace at h
  split at h
  · simp only [Except.ok.injEq] at h; subst h; simp
  · split at h
    · simp only [Except.ok.injEq] at h; subst h; simp
    · obtain ⟨d, _, h⟩ := bind_ok.1 h
      simp only [pure, Except.pure, Except.ok.injEq] at h
      subst h
      simp

theorem timeAxis_eq (tr : Trace) (v0 w : ℝ) (d : List ℝ) :
    timeAxis tr v0 w d.length = (d.zipIdx.map (fun ei => (sampleTime tr v0 w ei.2, ei.1))).map Prod.fst := by
  rw [List.map_map]
  unfold timeAxis sampleTime
  have : List.range d.length = d.zipIdx.map Prod.snd := by
    rw [List.zipIdx_map_snd, List.range_eq_range']
  rw [this, List.map_map]
  rfl

theorem zipIdx_fst (tr : Trace) (v0 w : ℝ) (d : List ℝ) :
    d = (d.zipIdx.map (fun ei => (sampleTime tr v0 w ei.2, ei.1))).map Prod.snd := by
  rw [List.map_map]
  exact (List.zipIdx_map_fst 0 d).symm

theorem balanced_eq (tr : Trace) (v0 w : ℝ) (d : List ℝ) :
    (List.zipWith (· * ·) d (timeAxis tr v0 w d.length)).sum =
      (d.zipIdx.map (fun ei => ei.1 * sampleTime tr v0 w ei.2)).sum := by
  rw [timeAxis_eq, List.map_map]
  conv_lhs => arg 1; arg 2; rw [← List.zipIdx_map_fst 0 d]
  rw [List.zipWith_map_left, List.zipWith_map_right, List.zipWith_self]
  rfl

theorem timeAxis_head (tr : Trace) (v0 w : ℝ) {d : List ℝ} (h : d ≠ []) :
    (timeAxis tr v0 w d.length).headD 0 = sampleTime tr v0 w 0 := by
  unfold timeAxis sampleTime
  cases d with
  | nil => exact absurd rfl h
  | cons a l => rw [List.length_cons, List.range_succ_eq_map]; rfl

theorem timeAxis_last (tr : Trace) (v0 w : ℝ) {d : List ℝ} (h : d ≠ []) :
    (timeAxis tr v0 w d.length).getLastD 0 = sampleTime tr v0 w (d.length - 1) := by
  unfold timeAxis sampleTime
  cases d with
  | nil => exact absurd rfl h
  | cons a l => rw [List.length_cons, List.range_succ, List.map_append]; simp

/-- Outcome of one pass of the loop: the trace is rejected, or its windows are appended. -/
def Outcome (lib : Lib) (cfg : WCfg) (v0 : ℝ) (st : WState) (tr : Trace) (st' : WState) : Prop :=
  st'.distances = st.distances.set tr.pair tr.distance ∧
  (∀ k, k ≠ tr.pair → st'.tbulkWindow.get? k = st.tbulkWindow.get? k) ∧
  ((st'.energies = st.energies.erase tr.pair ∧ st'.tcoda = st.tcoda ∧ st'.Ecoda = st.Ecoda ∧
      st'.tbulk = st.tbulk ∧ st'.Ebulk = st.Ebulk ∧ st'.weightsBulk = st.weightsBulk ∧
      ∀ p, ¬ Accepts lib cfg v0 tr p) ∨
   ∃ p, Accepts lib cfg v0 tr p ∧ st'.energies = st.energies ∧
      st'.tcoda = st.tcoda ++ [p.coda.map Prod.fst] ∧
      st'.Ecoda = st.Ecoda ++ [p.coda.map Prod.snd] ∧
      st'.tbulk = st.tbulk ++ (if cfg.bulkWindow.isSome then [p.bulkTime] else []) ∧
      st'.Ebulk = st.Ebulk ++ (if cfg.bulkWindow.isSome then [p.bulkEnergy] else []) ∧
      st'.weightsBulk = st.weightsBulk ++ (if cfg.bulkWindow.isSome then [p.bulkWeight] else []) ∧
      (cfg.bulkWindow.isSome → st'.tbulkWindow.get? tr.pair = some (p.bulkStart, p.bulkEnd)))

theorem pair_eq {tr tr' : Trace} (h1 : tr'.event = tr.event) (h2 : tr'.station = tr.station) :
    tr'.pair = tr.pair := by unfold Trace.pair; rw [h1, h2]

theorem step_outcome (h : step lib cfg v0 st tr = .ok st') : Outcome lib cfg v0 st tr st' := by
  unfold step at h
  simp only at h
  cases hb : cfg.bulkWindow with
  | none =>
    simp only [hb] at h
    obtain ⟨tr', htr, h⟩ := codaPart_cases h
    obtain ⟨e1, e2, e3, e4, e5, e6⟩ := smoothTrace_same htr
    rcases h with ⟨h1, rfl⟩ | ⟨w, h1, h2, h3, h4⟩
    · refine ⟨rfl, fun _ _ => rfl, Or.inl ⟨?_, rfl, rfl, rfl, rfl, rfl, ?_⟩⟩
      · simp only [WState.remove, pair_eq e1 e2]
      · rintro p ⟨_, _, _, ⟨tr2, w, esl, a1, a2, a3, a4, _⟩, _⟩
        rw [htr] at a1
        simp only [Except.ok.injEq] at a1
        subst a1
        rw [h1 w a2 a3] at a4
        simp at a4
    · rcases collect_cases h4 with ⟨h5, _⟩ | ⟨esl, h5, ⟨_, rfl⟩ | ⟨b, unit, hbb, _⟩⟩
      · rw [h5] at h3; simp at h3
      · have hax : timeAxis tr' v0 w.1 esl.data.length = timeAxis tr v0 w.1 esl.data.length := by
          unfold timeAxis; rw [e4, e5, e6]
        refine ⟨rfl, fun _ _ => rfl, Or.inr ⟨⟨tr.event, tr.station, tr.distance,
          esl.data.zipIdx.map (fun ei => (sampleTime tr v0 w.1 ei.2, ei.1)), 0, 0, 0, 0, 0⟩,
          ⟨rfl, rfl, rfl, ⟨tr', w, esl, htr, h1, h2, h5, rfl⟩, ?_, ?_⟩, rfl, ?_, ?_, ?_, ?_, ?_, ?_⟩⟩
        · intro bw hbw; rw [hb] at hbw; simp at hbw
        · intro _; exact ⟨rfl, rfl, rfl, rfl, rfl⟩
        · simp only [hax, timeAxis_eq]
        · simp only [← zipIdx_fst]
        · simp [hb]
        · simp [hb]
        · simp [hb]
        · simp [hb]
      · simp at hbb
  | some bw =>
    simp only [hb] at h
    obtain ⟨w, hw, h⟩ := bind_ok.1 h
    cases hs : getSlice tr w with
    | none =>
      simp only [hs, Except.ok.injEq] at h
      subst h
      refine ⟨rfl, fun _ _ => rfl, Or.inl ⟨rfl, rfl, rfl, rfl, rfl, rfl, ?_⟩⟩
      rintro p ⟨_, _, _, _, h5, _⟩
      obtain ⟨w', esl, unit, a1, a2, _⟩ := h5 bw hb
      rw [hw] at a1
      simp only [Except.ok.injEq] at a1
      subst a1
      rw [hs] at a2
      simp at a2
    | some bsl =>
      simp only [hs] at h
      by_cases hnil : bsl.data = []
      · rw [if_pos hnil] at h; simp at h
      rw [if_neg hnil] at h
      by_cases hsum : bsl.data.sum ≤ 0
      · rw [if_pos hsum] at h; simp at h
      rw [if_neg hsum] at h
      obtain ⟨tr', htr, h⟩ := codaPart_cases h
      obtain ⟨e1, e2, e3, e4, e5, e6⟩ := smoothTrace_same htr
      rcases h with ⟨h1, rfl⟩ | ⟨w', h1, h2, h3, h4⟩
      · refine ⟨rfl, ?_, Or.inl ⟨?_, rfl, rfl, rfl, rfl, rfl, ?_⟩⟩
        · intro k hk
          simp only [WState.remove]
          exact Dict.get?_set_ne _ _ (Ne.symm hk)
        · simp only [WState.remove, pair_eq e1 e2]
        · rintro p ⟨_, _, _, ⟨tr2, w, esl, a1, a2, a3, a4, _⟩, _⟩
          rw [htr] at a1
          simp only [Except.ok.injEq] at a1
          subst a1
          rw [h1 w a2 a3] at a4
          simp at a4
      · rcases collect_cases h4 with ⟨h5, _⟩ | ⟨esl, h5, ⟨hbb, _⟩ | ⟨b, unit, hbb, hu, rfl⟩⟩
        · rw [h5] at h3; simp at h3
        · simp at hbb
        · simp only [Option.some.injEq] at hbb
          subst hbb
          have hax : timeAxis tr' v0 w'.1 esl.data.length = timeAxis tr v0 w'.1 esl.data.length := by
            unfold timeAxis; rw [e4, e5, e6]
          refine ⟨rfl, ?_, Or.inr ⟨⟨tr.event, tr.station, tr.distance,
            esl.data.zipIdx.map (fun ei => (sampleTime tr v0 w'.1 ei.2, ei.1)),
            (bsl.data.zipIdx.map (fun ei => ei.1 * sampleTime tr v0 w.1 ei.2)).sum / bsl.data.sum,
            mean bsl.data, cfg.weight.1 * unit, sampleTime tr v0 w.1 0,
            sampleTime tr v0 w.1 (bsl.data.length - 1)⟩,
            ⟨rfl, rfl, rfl, ⟨tr', w', esl, htr, h1, h2, h5, rfl⟩, ?_, ?_⟩, rfl, ?_, ?_, ?_, ?_, ?_, ?_⟩⟩
          · intro k hk
            exact Dict.get?_set_ne _ _ (Ne.symm hk)
          · intro bw' hbw
            rw [hb] at hbw
            simp only [Option.some.injEq] at hbw
            subst hbw
            refine ⟨w, bsl, unit, hw, hs, not_le.1 hsum, rfl, rfl, rfl, rfl, rfl, ?_⟩
            simp only [List.length_map, List.length_zipIdx]
            unfold weightUnit at hu
            split at hu
            · next e => left; simp only [Except.ok.injEq] at hu; exact ⟨e, hu.symm⟩
            · next e => right; left; simp only [Except.ok.injEq] at hu; exact ⟨e, hu.symm⟩
            · next e => right; right; simp only [Except.ok.injEq] at hu; exact ⟨e, hu.symm⟩
            · simp at hu
          · intro hn; rw [hb] at hn; simp at hn
          · simp only [hax, timeAxis_eq]
          · simp only [← zipIdx_fst]
          · simp only [hb, Option.isSome_some, if_true, balanced_eq]
          · simp only [hb, Option.isSome_some, if_true]
          · simp only [hb, Option.isSome_some, if_true]
          · intro _
            simp only [Dict.get?_set_self]
            rw [timeAxis_head _ _ _ hnil, timeAxis_last _ _ _ hnil]

/-- The state after the loop over `trs`, starting with some pairs already handled. -/
theorem loop_outcome (trs : List Trace) (hnd : (trs.map Trace.pair).Nodup) (st st' : WState)
    (hst : ∀ tr ∈ trs, tr.pair ∈ st.energies) (hnd' : st.energies.Nodup)
    (h : trs.foldlM (step lib cfg v0) st = .ok st') :
    ∃ sel : List (Trace × PairData),
      (sel.map Prod.fst).Sublist trs ∧
      (∀ q ∈ sel, Accepts lib cfg v0 q.1 q.2) ∧
      (∀ tr ∈ trs, tr ∉ sel.map Prod.fst → ∀ p, ¬ Accepts lib cfg v0 tr p) ∧
      st'.energies = st.energies.filter (fun k => decide (k ∉ trs.map Trace.pair ∨
        k ∈ (sel.map Prod.fst).map Trace.pair)) ∧
      st'.tcoda = st.tcoda ++ sel.map (fun q => q.2.coda.map Prod.fst) ∧
      st'.Ecoda = st.Ecoda ++ sel.map (fun q => q.2.coda.map Prod.snd) ∧
      st'.tbulk = st.tbulk ++ (if cfg.bulkWindow.isSome then sel.map (fun q => q.2.bulkTime) else []) ∧
      st'.Ebulk = st.Ebulk ++ (if cfg.bulkWindow.isSome then sel.map (fun q => q.2.bulkEnergy) else []) ∧
      st'.weightsBulk = st.weightsBulk ++
        (if cfg.bulkWindow.isSome then sel.map (fun q => q.2.bulkWeight) else []) ∧
      (∀ tr ∈ trs, st'.distances.get? tr.pair = some tr.distance) ∧
      (∀ k, k ∉ trs.map Trace.pair → st'.distances.get? k = st.distances.get? k ∧
        st'.tbulkWindow.get? k = st.tbulkWindow.get? k) ∧
      (cfg.bulkWindow.isSome → ∀ q ∈ sel,
        st'.tbulkWindow.get? q.1.pair = some (q.2.bulkStart, q.2.bulkEnd)) := by
  induction trs generalizing st with
  | nil =>
    simp only [List.foldlM_nil, pure, Except.pure, Except.ok.injEq] at h
    subst h
    refine ⟨[], by simp, by simp, by simp, ?_, by simp, by simp, by simp, by simp, by simp, by simp,
      by simp, by simp⟩
    simp
  | cons tr trs ih =>
    rw [List.foldlM_cons] at h
    obtain ⟨st1, h1, h⟩ := bind_ok.1 h
    obtain ⟨o1, o2, o3⟩ := step_outcome h1
    rw [List.map_cons, List.nodup_cons] at hnd
    have hne : ∀ t ∈ trs, t.pair ≠ tr.pair := by
      intro t ht e
      exact hnd.1 (e ▸ List.mem_map.2 ⟨t, ht, rfl⟩)
    have hdist : st1.distances.get? tr.pair = some tr.distance := by
      rw [o1]; simp
    have hdist' : ∀ k, k ≠ tr.pair → st1.distances.get? k = st.distances.get? k := by
      intro k hk; rw [o1, Dict.get?_set_ne _ _ (Ne.symm hk)]
    rcases o3 with ⟨a1, a2, a3, a4, a5, a6, a7⟩ | ⟨p, a0, a1, a2, a3, a4, a5, a6, a7⟩
    · obtain ⟨sel, b1, b2, b3, b4, b5, b6, b7, b8, b9, b10, b11, b12⟩ := ih hnd.2 st1
        (fun t ht => by
          rw [a1, List.Nodup.mem_erase_iff hnd']
          exact ⟨hne t ht, hst t (by simp [ht])⟩) (by rw [a1]; exact hnd'.erase _) h
      have hself : tr ∉ sel.map Prod.fst := fun hm =>
        hnd.1 (List.mem_map.2 ⟨tr, b1.subset hm, rfl⟩)
      refine ⟨sel, b1.trans (List.sublist_cons_self _ _), b2, ?_, ?_, by rw [b5, a2], by rw [b6, a3],
        by rw [b7, a4], by rw [b8, a5], by rw [b9, a6], ?_, ?_, b12⟩
      · intro t ht hn p
        rcases List.mem_cons.1 ht with rfl | ht
        · exact a7 p
        · exact b3 t ht hn p
      · rw [b4, a1, hnd'.erase_eq_filter, List.filter_filter]
        apply List.filter_congr
        intro k _
        have hmem : tr.pair ∉ (sel.map Prod.fst).map Trace.pair := by
          intro hm
          obtain ⟨t, ht, e⟩ := List.mem_map.1 hm
          exact hne t (b1.subset ht) e
        by_cases hk : k = tr.pair
        · subst hk
          simp [hmem, hnd.1]
          simpa using hmem
        · simp [hk]
      · intro t ht
        rcases List.mem_cons.1 ht with rfl | ht
        · rw [(b11 _ hnd.1).1, hdist]
        · exact b10 t ht
      · intro k hk
        rw [List.map_cons, List.mem_cons, not_or] at hk
        rw [(b11 k hk.2).1, (b11 k hk.2).2, hdist' k hk.1, o2 k hk.1]
        exact ⟨rfl, rfl⟩
    · obtain ⟨sel, b1, b2, b3, b4, b5, b6, b7, b8, b9, b10, b11, b12⟩ := ih hnd.2 st1
        (fun t ht => by rw [a1]; exact hst t (by simp [ht])) (by rw [a1]; exact hnd') h
      refine ⟨(tr, p) :: sel, ?_, ?_, ?_, ?_, ?_, ?_, ?_, ?_, ?_, ?_, ?_, ?_⟩
      · exact List.Sublist.cons_cons _ b1
      · intro q hq
        rcases List.mem_cons.1 hq with rfl | hq
        · exact a0
        · exact b2 q hq
      · intro t ht hn q
        rw [List.map_cons, List.mem_cons, not_or] at hn
        rcases List.mem_cons.1 ht with rfl | ht
        · exact absurd rfl hn.1
        · exact b3 t ht hn.2 q
      · rw [b4, a1]
        apply List.filter_congr
        intro k _
        by_cases hk : k = tr.pair
        · subst hk
          simp [hnd.1]
        · apply decide_eq_decide.2
          simp only [List.map_cons, List.mem_cons, hk, false_or]
      · rw [b5, a2]; simp
      · rw [b6, a3]; simp
      · rw [b7, a4]; split <;> simp
      · rw [b8, a5]; split <;> simp
      · rw [b9, a6]; split <;> simp
      · intro t ht
        rcases List.mem_cons.1 ht with rfl | ht
        · rw [(b11 _ hnd.1).1, hdist]
        · exact b10 t ht
      · intro k hk
        rw [List.map_cons, List.mem_cons, not_or] at hk
        rw [(b11 k hk.2).1, (b11 k hk.2).2, hdist' k hk.1, o2 k hk.1]
        exact ⟨rfl, rfl⟩
      · intro hb q hq
        rcases List.mem_cons.1 hq with rfl | hq
        · rw [(b11 _ hnd.1).2]; exact a7 hb
        · exact b12 hb q hq

end Qopen.Window
