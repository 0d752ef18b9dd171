import Verif.Model.FigureBand

/-!
# Figure of the observed energies of a band: C108
-/

namespace Qopen

open Util Tr InvertFb FigBand

namespace Spec

/-- The row shows the trace: labels of station and event, each sample at its time after origin time,
lines at the onsets. -/
structure ShowsTrace (tr : Trace) (row : EnergyPanel) : Prop where
  station : row.station = tr.station
  event : row.event = tr.event
  samples : ∀ (k : ℕ) (t x : ℝ), row.points[k]? = some (t, x) ↔
    tr.data[k]? = some x ∧ t = tr.start + k / tr.sr - tr.origin
  ponset : row.ponset = tr.ponset - tr.origin
  sonset : row.sonset = tr.sonset - tr.origin

end Spec

namespace FigBand

theorem energyPanel_ok {bulkw codaw : Dict (String × String) (ℝ × ℝ)} {tr : Trace} {row : EnergyPanel} :
    energyPanel bulkw codaw none tr = .ok row ↔ ∃ spans, spansOf bulkw codaw tr = .ok spans ∧
      row = ⟨tr.station, tr.event, (energyTimes tr).zip tr.data, tr.ponset - tr.origin,
        tr.sonset - tr.origin, spans⟩ := by
  unfold energyPanel
  simp only [bind_ok]
  constructor
  · rintro ⟨s, h1, h2⟩
    simp only [pure, Except.pure, Except.ok.injEq] at h2
    exact ⟨s, h1, h2.symm⟩
  · rintro ⟨s, h1, h2⟩
    exact ⟨s, h1, by rw [h2]; rfl⟩

end FigBand

variable {bulkw codaw : Dict (String × String) (ℝ × ℝ)} {trs : List Trace} {rows : List EnergyPanel}

/-- **C108**: the figure has one row per trace, in the same order, which shows the whole trace against
the time after origin time. -/
theorem C108_rows (h : plotEnergies bulkw codaw none trs = .ok rows) :
    List.Forall₂ Spec.ShowsTrace trs rows := by
  unfold plotEnergies at h
  rw [mapExc_ok] at h
  refine h.imp ?_
  intro tr row hr
  obtain ⟨spans, -, rfl⟩ := energyPanel_ok.1 hr
  refine ⟨rfl, rfl, ?_, rfl, rfl⟩
  intro k t x
  rw [List.getElem?_zip_eq_some]
  constructor
  · rintro ⟨h1, h2⟩
    refine ⟨h2, ?_⟩
    have hk : k < tr.data.length := (List.getElem?_eq_some_iff.1 h2).1
    simp only [energyTimes, List.getElem?_map, List.getElem?_range hk, Option.map_some,
      Option.some.injEq] at h1
    rw [← h1]; ring
  · rintro ⟨h2, rfl⟩
    have hk : k < tr.data.length := (List.getElem?_eq_some_iff.1 h2).1
    refine ⟨?_, h2⟩
    simp only [energyTimes, List.getElem?_map, List.getElem?_range hk, Option.map_some,
      Option.some.injEq]
    ring

/-- **C108** (part): if there are bulk and coda windows, a row marks exactly the two windows of the
inversion for this event and station: a time after origin time is inside of the first (second) span
exactly if the absolute time is inside of the bulk (coda) window.  Missing: figures without bulk
windows. -/
theorem C108_windows_partial (hb : bulkw ≠ []) (hc : codaw ≠ [])
    (h : plotEnergies bulkw codaw none trs = .ok rows) :
    List.Forall₂ (fun tr row => ∃ bulk coda s1 s2, Dict.get? bulkw tr.pair = some bulk ∧
      Dict.get? codaw tr.pair = some coda ∧ row.spans = [s1, s2] ∧
      (∀ t, (s1.1 ≤ t ∧ t ≤ s1.2) ↔ (bulk.1 ≤ tr.origin + t ∧ tr.origin + t ≤ bulk.2)) ∧
      (∀ t, (s2.1 ≤ t ∧ t ≤ s2.2) ↔ (coda.1 ≤ tr.origin + t ∧ tr.origin + t ≤ coda.2))) trs rows := by
  unfold plotEnergies at h
  rw [mapExc_ok] at h
  refine h.imp ?_
  intro tr row hr
  obtain ⟨spans, hs, rfl⟩ := energyPanel_ok.1 hr
  unfold spansOf at hs
  rw [if_neg (by rintro (h | h) <;> contradiction)] at hs
  obtain ⟨b, h1, hs⟩ := bind_ok.1 hs
  obtain ⟨c, h2, hs⟩ := bind_ok.1 hs
  simp only [pure, Except.pure, Except.ok.injEq] at hs
  have hget : ∀ {d : Dict (String × String) (ℝ × ℝ)} {k v}, dictGet d k = .ok v → Dict.get? d k = some v := by
    intro d k v hd
    unfold dictGet at hd
    split at hd
    · simp only [Except.ok.injEq] at hd; rw [← hd]; assumption
    · simp at hd
  refine ⟨b, c, _, _, hget h1, hget h2, hs.symm, ?_, ?_⟩
  · intro t; constructor <;> rintro ⟨h, h'⟩ <;> constructor <;> simp only at * <;> linarith
  · intro t; constructor <;> rintro ⟨h, h'⟩ <;> constructor <;> simp only at * <;> linarith

/-- **C108** (part): the figure can be drawn if each pair of event and station has its windows (bulk
windows only if they are used).  Missing: option `downsample_to`. -/
theorem C108_drawn_partial
    (hb : bulkw ≠ [] → ∀ tr ∈ trs, (Dict.get? bulkw tr.pair).isSome)
    (hc : ∀ tr ∈ trs, (Dict.get? codaw tr.pair).isSome) :
    ∃ rows, plotEnergies bulkw codaw none trs = .ok rows := by
  unfold plotEnergies
  have : ∀ tr ∈ trs, ∃ row, energyPanel bulkw codaw none tr = .ok row := by
    intro tr htr
    simp only [energyPanel_ok]
    have : ∃ spans, spansOf bulkw codaw tr = .ok spans := by
      unfold spansOf
      by_cases h : bulkw = [] ∨ codaw = []
      · rw [if_pos h]; exact ⟨_, rfl⟩
      · rw [if_neg h]
        push Not at h
        obtain ⟨b, h1⟩ := Option.isSome_iff_exists.1 (hb h.1 tr htr)
        obtain ⟨c, h2⟩ := Option.isSome_iff_exists.1 (hc tr htr)
        exact ⟨_, bind_ok.2 ⟨b, by simp [dictGet, h1], bind_ok.2 ⟨c, by simp [dictGet, h2], rfl⟩⟩⟩
    obtain ⟨spans, hs⟩ := this
    exact ⟨_, spans, hs, rfl⟩
  clear hb hc
  induction trs with
  | nil => exact ⟨[], rfl⟩
  | cons a l ih =>
    obtain ⟨r, hr⟩ := this a (by simp)
    obtain ⟨rs, hrs⟩ := ih (fun tr htr => this tr (by simp [htr]))
    refine ⟨r :: rs, ?_⟩
    rw [mapExc_ok] at hrs ⊢
    exact List.Forall₂.cons hr hrs

/-- **C108**, violated: with the option `downsample_to` no figure of any trace can be drawn. -/
theorem C108_downsample_counterexample (d : ℝ) (tr : Trace) (trs : List Trace) :
    plotEnergies bulkw codaw (some d) (tr :: trs) = .error .typeError := rfl

namespace EnergiesExample

def tr1 : Trace := ⟨"e", "A", 100, 2, [5, 6, 7], 100, 101, 102, 3000, none⟩

/-- The third sample is drawn one second after the origin time. -/
example : ∃ row, plotEnergies [(("e", "A"), (102, 103))] [(("e", "A"), (103, 104))] none [tr1] =
      .ok [row] ∧ row.points[2]? = some (1, 7) ∧ row.ponset = 1 ∧ row.sonset = 2 := by
  obtain ⟨rows, h⟩ := C108_drawn_partial (bulkw := [(("e", "A"), (102, 103))])
    (codaw := [(("e", "A"), (103, 104))]) (trs := [tr1]) (by simp [tr1, Trace.pair, Dict.get?_cons])
    (by simp [tr1, Trace.pair, Dict.get?_cons])
  have h1 := C108_rows h
  have h2 := C108_windows_partial (by simp) (by simp) h
  cases h1 with
  | cons h1 h' =>
    cases h'
    refine ⟨_, h, ?_, ?_, ?_⟩
    · rw [h1.samples]; norm_num [tr1]
    · rw [h1.ponset]; norm_num [tr1]
    · rw [h1.sonset]; norm_num [tr1]

end EnergiesExample

open EnergiesExample in
/-- **C108**, violated: without bulk window the coda window is not marked although it is known. -/
theorem C108_coda_window_counterexample :
    ∃ row, plotEnergies [] [(("e", "A"), (103, 104))] none [tr1] = .ok [row] ∧
      Dict.get? [(("e", "A"), ((103 : ℝ), (104 : ℝ)))] tr1.pair = some (103, 104) ∧
      row.spans = [] := by
  obtain ⟨rows, h⟩ := C108_drawn_partial (bulkw := [])
    (codaw := [(("e", "A"), (103, 104))]) (trs := [tr1]) (by simp)
    (by simp [tr1, Trace.pair, Dict.get?_cons])
  have h' := h
  unfold plotEnergies at h'
  rw [mapExc_ok] at h'
  cases h' with
  | cons h1 h2 =>
    cases h2
    obtain ⟨spans, hs, rfl⟩ := energyPanel_ok.1 h1
    refine ⟨_, h, by simp [tr1, Trace.pair, Dict.get?_cons], ?_⟩
    simp [spansOf] at hs
    exact hs

end Qopen
