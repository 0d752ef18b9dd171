import Verif.Lemmas.Merge
import Verif.Lemmas.SiteSystem

/-!
# Areas
-/

namespace Qopen.Site

open Real Spec

theorem mem_eventStations {ev : EvRes} (hR : ev.R.WF) (ignore : Option (List String)) (i : ℕ)
    (s : String) :
    s ∈ eventStations ignore i ev ↔ (respOf ev s i).isSome ∧ notIgnored ignore s := by
  unfold eventStations
  rw [List.mem_toFinset, List.mem_map]
  have hign : ∀ s, considered ignore s = true ↔ notIgnored ignore s := by
    intro s
    unfold considered
    cases ignore with
    | none => simp [notIgnored]
    | some l => simp [notIgnored]
  constructor
  · rintro ⟨p, hp, rfl⟩
    obtain ⟨h1, h2⟩ := List.mem_filter.1 hp
    rw [Bool.and_eq_true, hign, cellAt_eq] at h2
    refine ⟨?_, h2.2⟩
    rw [respOf, Dict.get?_of_mem hR (v := p.2) h1]
    exact h2.1
  · rintro ⟨h1, h2⟩
    unfold respOf at h1
    cases hg : ev.R.get? s with
    | none => simp [hg] at h1
    | some l =>
      refine ⟨(s, l), List.mem_filter.2 ⟨Dict.mem_of_get? hg, ?_⟩, rfl⟩
      rw [Bool.and_eq_true, hign, cellAt_eq]
      rw [hg, Option.bind_some] at h1
      exact ⟨h1, h2⟩

/-- The sets that are merged. -/
def stationSets (events : Dict String EvRes) (i : ℕ) (ignore : Option (List String)) :
    List (Finset String) :=
  (events.map (fun e => eventStations ignore i e.2)).filter (fun a => 0 < a.card)

theorem mem_stationSets {events : Dict String EvRes} {i : ℕ} {ignore : Option (List String)}
    {a : Finset String} : a ∈ stationSets events i ignore ↔
      a.Nonempty ∧ ∃ e ∈ events, eventStations ignore i e.2 = a := by
  unfold stationSets
  rw [List.mem_filter, List.mem_map, decide_eq_true_eq, Finset.card_pos, and_comm]

theorem inCommon_iff {events : Dict String EvRes} (hR : RWF events) (i : ℕ)
    (ignore : Option (List String)) (s t : String) :
    InCommon (stationSets events i ignore) s t ↔ ShareEvent events i (notIgnored ignore) s t := by
  constructor
  · rintro ⟨a, ha, hs, ht⟩
    obtain ⟨_, e, he, rfl⟩ := mem_stationSets.1 ha
    rw [mem_eventStations (hR e he)] at hs ht
    exact ⟨hs.2, ht.2, e, he, hs.1, ht.1⟩
  · rintro ⟨h1, h2, e, he, hs, ht⟩
    refine ⟨eventStations ignore i e.2, mem_stationSets.2 ⟨⟨s, ?_⟩, e, he, rfl⟩, ?_, ?_⟩
    · exact (mem_eventStations (hR e he) _ _ _).2 ⟨hs, h1⟩
    · exact (mem_eventStations (hR e he) _ _ _).2 ⟨hs, h1⟩
    · exact (mem_eventStations (hR e he) _ _ _).2 ⟨ht, h2⟩

theorem connected_iff {events : Dict String EvRes} (hR : RWF events) (i : ℕ)
    (ignore : Option (List String)) (s t : String) :
    Connected (stationSets events i ignore) s t ↔ Linked events i (notIgnored ignore) s t := by
  unfold Connected Linked
  have : InCommon (stationSets events i ignore) = ShareEvent events i (notIgnored ignore) := by
    funext a b; exact propext (inCommon_iff hR i ignore a b)
  rw [this]

theorem findAreas_spec {events : Dict String EvRes} (hR : RWF events) (i : ℕ)
    (ignore : Option (List String)) :
    (findAreas events i ignore).Pairwise Disjoint ∧
    (∀ a ∈ findAreas events i ignore, a.Nonempty) ∧
    (∀ s, (∃ a ∈ findAreas events i ignore, s ∈ a) ↔
      notIgnored ignore s ∧ ∃ e ∈ events, (respOf e.2 s i).isSome) ∧
    ∀ a ∈ findAreas events i ignore, ∀ s ∈ a, ∀ t,
      t ∈ a ↔ Linked events i (notIgnored ignore) s t := by
  obtain ⟨h1, h2, h3, h4⟩ := mergeSets_spec (stationSets events i ignore)
  change (findAreas events i ignore).Pairwise Disjoint at h1
  change ∀ x y, Connected (findAreas events i ignore) x y ↔ _ at h2
  change ∀ x, (∃ s ∈ findAreas events i ignore, x ∈ s) ↔ _ at h3
  change _ → ∀ s ∈ findAreas events i ignore, s.Nonempty at h4
  refine ⟨h1, h4 (fun a ha => (mem_stationSets.1 ha).1), ?_, ?_⟩
  · intro s
    rw [h3]
    constructor
    · rintro ⟨a, ha, hs⟩
      obtain ⟨_, e, he, rfl⟩ := mem_stationSets.1 ha
      rw [mem_eventStations (hR e he)] at hs
      exact ⟨hs.2, e, he, hs.1⟩
    · rintro ⟨hi, e, he, hs⟩
      have := (mem_eventStations (hR e he) ignore i s).2 ⟨hs, hi⟩
      exact ⟨_, mem_stationSets.2 ⟨⟨s, this⟩, e, he, rfl⟩, this⟩
  · intro a ha s hs t
    rw [← connected_iff hR, ← h2]
    constructor
    · intro ht; exact connected_of_mem ha hs ht
    · intro hc; exact connected_disjoint h1 ha hs hc

theorem largest_foldl (l : List (Finset String)) (a : Finset String) :
    let m := l.foldl (fun m b => if m.card < b.card then b else m) a
    (m = a ∨ m ∈ l) ∧ a.card ≤ m.card ∧ ∀ b ∈ l, b.card ≤ m.card := by
  induction l generalizing a with
  | nil => simp
  | cons c l ih =>
    simp only [List.foldl_cons]
    obtain ⟨h1, h2, h3⟩ := ih (if a.card < c.card then c else a)
    refine ⟨?_, ?_, ?_⟩
    · rcases h1 with h1 | h1
      · rw [h1]
        split
        · simp
        · simp
      · simp [h1]
    · refine le_trans ?_ h2
      split <;> omega
    · intro b hb
      rcases List.mem_cons.1 hb with rfl | hb
      · refine le_trans ?_ h2
        split <;> omega
      · exact h3 b hb

theorem largest_some {l : List (Finset String)} {a : Finset String} (h : largest l = some a) :
    a ∈ l ∧ ∀ b ∈ l, b.card ≤ a.card := by
  cases l with
  | nil => simp [largest] at h
  | cons c l =>
    simp only [largest, Option.some.injEq] at h
    obtain ⟨h1, h2, h3⟩ := largest_foldl l c
    rw [h] at h1 h2 h3
    refine ⟨by simpa using h1, ?_⟩
    intro b hb
    rcases List.mem_cons.1 hb with rfl | hb
    · exact h2
    · exact h3 b hb

theorem largest_none {l : List (Finset String)} : largest l = none ↔ l = [] := by
  cases l <;> simp [largest]

/-- What is known about the area used for alignment in one band. -/
structure IsArea (events : Dict String EvRes) (i : ℕ) (ok : String → Prop) (area : Finset String) :
    Prop where
  nonempty : area.Nonempty
  data : ∀ s ∈ area, ∃ e ∈ events, (respOf e.2 s i).isSome
  isOk : ∀ s ∈ area, ok s
  linked : ∀ s ∈ area, ∀ t, t ∈ area ↔ Linked events i ok s t

theorem isArea_of_mem {events : Dict String EvRes} (hR : RWF events) {i : ℕ}
    {ignore : Option (List String)} {a : Finset String} (h : a ∈ findAreas events i ignore) :
    IsArea events i (notIgnored ignore) a := by
  obtain ⟨h1, h2, h3, h4⟩ := findAreas_spec hR i ignore
  exact ⟨h2 a h, fun s hs => ((h3 s).1 ⟨a, h, hs⟩).2, fun s hs => ((h3 s).1 ⟨a, h, hs⟩).1,
    h4 a h⟩

theorem pts_ne_nil {events : Dict String EvRes} {i : ℕ} {s : String}
    (h : ∃ e ∈ events, (respOf e.2 s i).isSome) : pts events i s ≠ [] := by
  obtain ⟨e, he, hs⟩ := h
  obtain ⟨k, hk, rfl⟩ := List.getElem_of_mem he
  obtain ⟨x, hx⟩ := Option.isSome_iff_exists.1 hs
  apply List.ne_nil_of_mem (a := (k, x))
  unfold pts
  rw [List.mem_filterMap]
  refine ⟨(events[k], k), ?_, by simp [hx]⟩
  rw [List.mem_zipIdx_iff_getElem?]
  simp [hk]

theorem mem_pts {events : Dict String EvRes} {i : ℕ} {s : String} {k : ℕ} {x : ℝ} :
    (k, x) ∈ pts events i s ↔ ∃ p, events[k]? = some p ∧ respOf p.2 s i = some x := by
  unfold pts
  rw [List.mem_filterMap]
  constructor
  · rintro ⟨⟨p, n⟩, h1, h2⟩
    rw [List.mem_zipIdx_iff_getElem?] at h1
    rw [Option.map_eq_some_iff] at h2
    obtain ⟨y, h3, h4⟩ := h2
    simp only [Prod.mk.injEq] at h4
    obtain ⟨rfl, rfl⟩ := h4
    exact ⟨p, h1, h3⟩
  · rintro ⟨p, h1, h2⟩
    exact ⟨(p, k), List.mem_zipIdx_iff_getElem?.2 h1, by simp [h2]⟩

end Qopen.Site
