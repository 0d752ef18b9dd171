import Verif.Props.FigureResults

/-!
# C94: the figure of the site responses shows the reported site responses (imaging.py `plot_sites`)
-/

namespace Qopen

open Util Catalog Collect Invert Wrapper Imaging Figures WeightedMean FigureResults

namespace Spec

/-- A station has a value in some event and band. -/
def HasValue (events : Dict String (Dict String RVal)) (sta : String) : Prop :=
  ∃ row ∈ siteRows events sta, ∃ x : ℝ, Cell.num x ∈ row

/-- The rows with a value in band `j`. -/
def rowsWithValue (rows : List (List Cell)) (j : ℕ) : List (List Cell) :=
  rows.filter (fun r => match r[j]? with
    | some (.num _) => true
    | _ => false)

end Spec

namespace FigureSites

theorem appendSites_WF {freqi : Option ℕ} {tab tab' : Dict String (List Item)}
    {R : Dict String (List Cell)} (h : appendSites freqi tab R = .ok tab') (hw : tab.WF) :
    tab'.WF := by
  unfold appendSites at h
  induction R generalizing tab with
  | nil =>
    simp only [List.foldlM_nil, pure, Except.pure, Except.ok.injEq] at h
    rw [← h]; exact hw
  | cons sr R ih =>
    rw [List.foldlM_cons] at h
    obtain ⟨m, hm, h⟩ := bind_ok.1 h
    obtain ⟨x, hx, hm⟩ := bind_ok.1 hm
    simp only [pure, Except.pure, Except.ok.injEq] at hm
    subst hm
    exact ih h (Dict.WF_set hw _ _)

theorem loop_WF {only : List String} {freqi : Option ℕ} (hn : only.Nodup) (hc : "R" ∈ only)
    (events : Dict String (Option (Dict String RVal))) {col col' : Dict String ColVal}
    (h : events.foldlM (collectEvent freqi only) col = .ok col') {d : Dict String (List Item)}
    (hd : col.get? "R" = some (.sites d)) (hw : d.WF) :
    ∃ d', col'.get? "R" = some (.sites d') ∧ d'.WF := by
  induction events generalizing col d with
  | nil =>
    simp only [List.foldlM_nil, pure, Except.pure, Except.ok.injEq] at h
    subst h
    exact ⟨d, hd, hw⟩
  | cons e events ih =>
    rw [List.foldlM_cons] at h
    obtain ⟨m, hm, h⟩ := bind_ok.1 h
    unfold collectEvent at hm
    cases he : e.2 with
    | none =>
      rw [he] at hm
      simp only [Except.ok.injEq] at hm
      subst hm
      exact ih h hd hw
    | some res =>
      rw [he] at hm
      obtain ⟨m1, m2, g1, g2, g3⟩ := collectKeys_mem hn hm hc
      rcases collectKey_sites g2 (g1.trans hd) with ⟨hr, hv⟩ | ⟨R, dm, hr, ha, hv⟩
      · exact ih h (g3.trans hv) hw
      · exact ih h (g3.trans hv) (appendSites_WF ha hw)

theorem mapExc_keys {α β : Type} {f : α → Py β} {d : Dict String α} {d' : Dict String β}
    (h : mapExc (fun kv : String × α => do
      let v ← f kv.2
      return (kv.1, v)) d = .ok d') : d'.keys = d.keys := by
  have hF := mapExc_ok.1 h
  clear h
  unfold Dict.keys
  induction hF with
  | nil => rfl
  | cons h _ ih =>
    obtain ⟨v, _, h⟩ := bind_ok.1 h
    simp only [pure, Except.pure, Except.ok.injEq] at h
    rw [List.map_cons, List.map_cons, ih, ← h]

/-- The collected site responses. -/
theorem sites_array {events : Dict String (Dict String RVal)} {only : List String}
    {col : Dict String ColVal} {R : Dict String (List (List Cell))} (hn : only.Nodup)
    (hc : "R" ∈ only) (h : collectResults (events.mapVals some) only = .ok col)
    (hwf : ∀ e ∈ events, ∀ R, e.2.get? "R" = some (.sites R) → R.WF)
    (hs : sitesArray col = .ok R) :
    R.WF ∧ ∀ sta, (Spec.siteRows events sta = [] ∧ R.get? sta = none) ∨
      (Spec.siteRows events sta ≠ [] ∧
        R.get? sta = some ((Spec.siteRows events sta).map (fun r => r.map Cell.toFloat))) := by
  have hwf' : ∀ e ∈ events.mapVals some, ∀ r R, e.2 = some r → r.get? "R" = some (.sites R) → R.WF := by
    intro e he r R' hr hR'
    obtain ⟨e', he', rfl⟩ := List.mem_map.1 he
    simp only [Option.some.injEq] at hr
    exact hwf e' he' R' (by rw [hr]; exact hR')
  obtain ⟨d, hd, hsta⟩ := C39_sites hn hwf' h hc
  have hdw : d.WF := by
    obtain ⟨m, hm, h⟩ := bind_ok.1 h
    rw [if_pos hc] at hm
    obtain ⟨d', hd', hw⟩ := loop_WF hn hc _ hm (d := []) rfl (by simp [Dict.WF])
    rcases mapVals_get? h "R" with ⟨h3, _⟩ | ⟨v, v', h3, h4, h5⟩
    · rw [hd'] at h3; simp at h3
    · rw [hd'] at h3
      simp only [Option.some.injEq] at h3
      subst h3
      unfold convert at h4
      obtain ⟨d2, h2, h4⟩ := bind_ok.1 h4
      simp only [pure, Except.pure, Except.ok.injEq] at h4
      subst h4
      rw [hd] at h5
      simp only [Option.some.injEq, ColVal.sites.injEq] at h5
      subst h5
      unfold Dict.WF
      rw [mapExc_keys h2]
      exact hw
  unfold sitesArray sitesOf at hs
  rw [hd] at hs
  simp only at hs
  refine ⟨by unfold Dict.WF; rw [mapExc_keys hs]; exact hdw, fun sta => ?_⟩
  rcases hsta sta with ⟨h1, h2⟩ | ⟨xs, a, h1, h2, h3, h4⟩
  · left
    rw [stationValues_eq] at h1
    refine ⟨h1, ?_⟩
    rcases mapVals_get? hs sta with ⟨_, h3⟩ | ⟨v, v', h3, _⟩
    · exact h3
    · rw [h2] at h3; simp at h3
  · right
    rcases mapVals_get? hs sta with ⟨h5, _⟩ | ⟨x, rows, h5, h6, h7⟩
    · rw [h4] at h5; simp at h5
    rw [h4] at h5
    simp only [Option.some.injEq] at h5
    subst h5
    have h1' : List.Forall₂ (Spec.Picked none "R")
        ((Spec.stationValues (events := events.mapVals some) sta).map RVal.row) xs := by
      rw [List.forall₂_map_left_iff]; exact h1
    obtain ⟨rows0, e1, e2, e3⟩ := rows_of_array h1' h3 h6
    have e4 : Spec.stationValues (events.mapVals some) sta = rows0 :=
      List.map_injective_iff.2 (fun a b hab => by simpa using hab) e1
    rw [← stationValues_eq, e4]
    refine ⟨?_, by rw [h7, e2]⟩
    rintro rfl
    rw [e4] at h1
    exact h2 (List.forall₂_nil_left_iff.1 h1)

/-- The steps of `plot_sites` for separately inverted events. -/
theorem plotSites_events {rlm : List ℝ → ℝ × ℝ} {mean : Mean} {fig : FigRes} {sf : SiteFig}
    (hg : ∃ e ∈ fig.events.head?, "R" ∈ e.2.keys) (hp : plotSites rlm mean fig = .ok sf) :
    ∃ col R errs, collectResults (fig.events.mapVals some) ["R", "error"] = .ok col ∧
      sitesArray col = .ok R ∧ errorRows col mean = .ok errs ∧
      List.Forall₂ (fun s p => sitePanel rlm mean fig.freq.length R errs s = .ok p)
        ((sortedKeys R).filter (fun s => !noValue ((R.get? s).getD []))) sf.panels ∧
      sf.excluded = (sortedKeys R).filter (fun s => noValue ((R.get? s).getD [])) ∧
      sf.maxNobs = maxObs R fig.freq.length := by
  obtain ⟨e, he, hg⟩ := hg
  unfold plotSites at hp
  obtain ⟨first, hf, hp⟩ := bind_ok.1 hp
  have hfe : first = e.2 := by
    unfold firstEvent at hf
    cases hev : fig.events with
    | nil => rw [hev] at he; simp at he
    | cons a l =>
      rw [hev] at he hf
      simp only [List.head?_cons, Option.mem_def, Option.some.injEq] at he
      simp only [Except.ok.injEq] at hf
      rw [← hf, he]
  subst hfe
  rw [if_pos hg] at hp
  obtain ⟨col, hc, hp⟩ := bind_ok.1 hp
  obtain ⟨R, hR, hp⟩ := bind_ok.1 hp
  split at hp
  · simp at hp
  obtain ⟨errs, herr, hp⟩ := bind_ok.1 hp
  simp only at hp
  split at hp
  · simp at hp
  obtain ⟨ps, hps, hp⟩ := bind_ok.1 hp
  simp only [pure, Except.pure, Except.ok.injEq] at hp
  subst hp
  exact ⟨col, R, errs, hc, hR, herr, mapExc_ok.1 hps, rfl, rfl⟩

theorem sortedKeys_perm {α : Type} (d : Dict String α) : (sortedKeys d).Perm d.keys :=
  List.mergeSort_perm _ _

theorem sortedKeys_sorted {α : Type} {d : Dict String α} (hw : d.WF) :
    (sortedKeys d).Pairwise (· < ·) := by
  have h1 : (sortedKeys d).Pairwise (fun a b => a ≤ b) := by
    have := List.pairwise_mergeSort (le := fun a b : String => decide (a ≤ b))
      (fun a b c h1 h2 => by simp only [decide_eq_true_eq] at *; exact String.le_trans h1 h2)
      (fun a b => by simpa using String.le_total a b) d.keys
    exact this.imp (fun h => by simpa using h)
  have h2 : (sortedKeys d).Nodup := (sortedKeys_perm d).nodup_iff.2 hw
  exact (h1.and h2).imp (fun h => String.not_le.1 (fun h' => h.2 (String.le_antisymm h.1 h')))

theorem sitePanel_ok {rlm : List ℝ → ℝ × ℝ} {mean : Mean} {nf : ℕ}
    {R : Dict String (List (List Cell))} {errs : List (List Cell)} {sta : String} {p : SitePanel}
    (h : sitePanel rlm mean nf R errs sta = .ok p) :
    p.station = sta ∧ ∃ rows, R.get? sta = some rows ∧ (∀ r ∈ rows, r.length = nf) ∧
      gerrTable rlm mean rows errs nf = .ok p.means ∧
      p.points = rows.map (fun r => r.map Cell.val?) ∧
      p.nobs = (List.range nf).map (countValues rows) := by
  unfold sitePanel at h
  cases hR : R.get? sta with
  | none => rw [hR] at h; simp at h
  | some rows =>
    rw [hR] at h
    simp only at h
    obtain ⟨_, hb, h⟩ := bind_ok.1 h
    obtain ⟨m, hm, h⟩ := bind_ok.1 h
    simp only [pure, Except.pure, Except.ok.injEq] at h
    subst h
    refine ⟨rfl, rows, rfl, ?_, hm, rfl, rfl⟩
    unfold checkBands at hb
    split at hb
    · next hall => simpa using hall
    · simp at hb

theorem panels_stations {l : List String} {ps : List SitePanel}
    (h : List.Forall₂ (fun s p => p.station = s) l ps) : ps.map SitePanel.station = l := by
  induction h with
  | nil => rfl
  | cons h _ ih => rw [List.map_cons, ih, h]

theorem forall₂_right {α β : Type} {r : α → β → Prop} {l : List α} {l' : List β}
    (h : List.Forall₂ r l l') : ∀ b ∈ l', ∃ a ∈ l, r a b := by
  induction h with
  | nil => simp
  | cons h _ ih =>
    intro b hb
    rcases List.mem_cons.1 hb with rfl | hb
    · exact ⟨_, List.mem_cons_self, h⟩
    · obtain ⟨a, ha, hr⟩ := ih b hb
      exact ⟨a, List.mem_cons_of_mem _ ha, hr⟩

theorem forall₂_left {α β : Type} {r : α → β → Prop} {l : List α} {l' : List β}
    (h : List.Forall₂ r l l') : ∀ a ∈ l, ∃ b ∈ l', r a b := by
  induction h with
  | nil => simp
  | cons h _ ih =>
    intro a ha
    rcases List.mem_cons.1 ha with rfl | ha
    · exact ⟨_, List.mem_cons_self, h⟩
    · obtain ⟨b, hb, hr⟩ := ih a ha
      exact ⟨b, List.mem_cons_of_mem _ hb, hr⟩

theorem le_foldr_max {l : List ℕ} {n : ℕ} (h : n ∈ l) : n ≤ l.foldr max 0 := by
  induction l with
  | nil => simp at h
  | cons a l ih =>
    rcases List.mem_cons.1 h with rfl | h
    · exact le_max_left _ _
    · exact (ih h).trans (le_max_right _ _)

theorem foldr_max_mem {l : List ℕ} (h : l.foldr max 0 ≠ 0) : l.foldr max 0 ∈ l := by
  induction l with
  | nil => simp at h
  | cons a l ih =>
    rw [List.foldr_cons] at h ⊢
    rcases le_total a (l.foldr max 0) with h' | h'
    · rw [max_eq_right h'] at h ⊢
      exact List.mem_cons_of_mem _ (ih h)
    · rw [max_eq_left h']
      exact List.mem_cons_self

theorem noValue_iff (events : Dict String (Dict String RVal)) (sta : String) :
    noValue ((Spec.siteRows events sta).map (fun r => r.map Cell.toFloat)) = false ↔
      Spec.HasValue events sta := by
  unfold noValue Spec.HasValue
  rw [← Bool.not_eq_true, List.all_eq_true]
  push Not
  constructor
  · rintro ⟨r, hr, h⟩
    obtain ⟨row, hrow, rfl⟩ := List.mem_map.1 hr
    simp only [Bool.not_eq_true] at h
    rw [← Bool.not_eq_true, List.all_eq_true] at h
    push Not at h
    obtain ⟨c, hc, h⟩ := h
    obtain ⟨c0, hc0, rfl⟩ := List.mem_map.1 hc
    refine ⟨row, hrow, ?_⟩
    cases c0 with
    | none => simp [Cell.toFloat] at h
    | nan => simp [Cell.toFloat] at h
    | num x => exact ⟨x, hc0⟩
  · rintro ⟨row, hrow, x, hx⟩
    refine ⟨_, List.mem_map.2 ⟨row, hrow, rfl⟩, ?_⟩
    simp only [Bool.not_eq_true]
    rw [← Bool.not_eq_true, List.all_eq_true]
    push Not
    exact ⟨_, List.mem_map.2 ⟨_, hx, rfl⟩, by simp [Cell.toFloat]⟩

theorem countValues_rows (rows : List (List Cell)) (j : ℕ) :
    countValues (rows.map (fun r => r.map Cell.toFloat)) j = (Spec.rowsWithValue rows j).length := by
  unfold countValues Spec.rowsWithValue
  induction rows with
  | nil => rfl
  | cons r l ih =>
    rw [List.map_cons, List.filter_cons, List.filter_cons]
    have : (((r.map Cell.toFloat)[j]?).bind Cell.val?).isSome = (match r[j]? with
        | some (.num _) => true
        | _ => false) := by
      rw [List.getElem?_map]
      cases r[j]? with
      | none => rfl
      | some c => cases c <;> rfl
    rw [this]
    split_ifs
    · simpa using ih
    · exact ih

end FigureSites

open FigureSites

/-- **C94**: the figure of the site responses has one panel for each station with a value in any event
and band, in alphabetic order; the other stations of the events are listed as excluded. -/
theorem C94_stations {rlm : List ℝ → ℝ × ℝ} {mean : Mean} {fig : FigRes} {sf : SiteFig}
    (hg : ∃ e ∈ fig.events.head?, "R" ∈ e.2.keys)
    (hwf : ∀ e ∈ fig.events, ∀ R, e.2.get? "R" = some (.sites R) → R.WF)
    (hp : plotSites rlm mean fig = .ok sf) :
    (sf.panels.map SitePanel.station).Pairwise (· < ·) ∧ sf.excluded.Pairwise (· < ·) ∧
    (∀ sta, sta ∈ sf.panels.map SitePanel.station ↔ Spec.HasValue fig.events sta) ∧
    ∀ sta, sta ∈ sf.excluded ↔
      Spec.siteRows fig.events sta ≠ [] ∧ ¬ Spec.HasValue fig.events sta := by
  obtain ⟨col, R, errs, hc, hs, _, hF, hex, _⟩ := plotSites_events hg hp
  obtain ⟨hw, hR⟩ := sites_array (by decide) (by decide) hc hwf hs
  have hmap : sf.panels.map SitePanel.station =
      (sortedKeys R).filter (fun s => !noValue ((R.get? s).getD [])) := by
    refine panels_stations ?_
    exact hF.imp (fun s p h => (sitePanel_ok h).1)
  have hsort := sortedKeys_sorted hw
  refine ⟨by rw [hmap]; exact hsort.filter _, by rw [hex]; exact hsort.filter _, ?_, ?_⟩
  · intro sta
    rw [hmap, List.mem_filter, (sortedKeys_perm R).mem_iff, ← Dict.get?_isSome]
    rcases hR sta with ⟨h1, h2⟩ | ⟨h1, h2⟩
    · rw [h2]
      simp only [Option.isSome_none, Bool.false_eq_true, false_and, false_iff]
      rintro ⟨row, hrow, _⟩
      rw [h1] at hrow
      simp at hrow
    · rw [h2, ← noValue_iff]
      simp
  · intro sta
    rw [hex, List.mem_filter, (sortedKeys_perm R).mem_iff, ← Dict.get?_isSome]
    rcases hR sta with ⟨h1, h2⟩ | ⟨h1, h2⟩
    · rw [h2]
      simp [h1]
    · rw [h2, ← noValue_iff]
      simp [h1]

/-- **C94**: the panel of a station shows the values of the events with this station and counts in each
band the events with a value; the largest count is the upper end of the scale of the colours. -/
theorem C94_points {rlm : List ℝ → ℝ × ℝ} {mean : Mean} {fig : FigRes} {sf : SiteFig}
    (hg : ∃ e ∈ fig.events.head?, "R" ∈ e.2.keys)
    (hwf : ∀ e ∈ fig.events, ∀ R, e.2.get? "R" = some (.sites R) → R.WF)
    (hp : plotSites rlm mean fig = .ok sf) :
    (∀ p ∈ sf.panels,
      p.points = (Spec.siteRows fig.events p.station).map (fun row => row.map Cell.val?) ∧
      p.nobs.length = fig.freq.length ∧
      ∀ j < fig.freq.length,
        p.nobs[j]? = some (Spec.rowsWithValue (Spec.siteRows fig.events p.station) j).length) ∧
    (∀ p ∈ sf.panels, ∀ n ∈ p.nobs, n ≤ sf.maxNobs) ∧
    (sf.maxNobs ≠ 0 → ∃ p ∈ sf.panels, sf.maxNobs ∈ p.nobs) := by
  obtain ⟨col, R, errs, hc, hs, _, hF, hex, hmax⟩ := plotSites_events hg hp
  obtain ⟨hw, hR⟩ := sites_array (by decide) (by decide) hc hwf hs
  have hpan : ∀ p ∈ sf.panels, sitePanel rlm mean fig.freq.length R errs p.station = .ok p := by
    intro p hp
    obtain ⟨s, _, h⟩ := forall₂_right hF p hp
    rw [(sitePanel_ok h).1]; exact h
  have hrows : ∀ sta rows, R.get? sta = some rows →
      rows = (Spec.siteRows fig.events sta).map (fun r => r.map Cell.toFloat) := by
    intro sta rows h
    rcases hR sta with ⟨_, h2⟩ | ⟨_, h2⟩
    · rw [h2] at h; simp at h
    · rw [h2] at h; simpa using h.symm
  refine ⟨fun p hp => ?_, fun p hp n hn => ?_, fun h0 => ?_⟩
  · obtain ⟨_, rows, h1, _, _, h4, h5⟩ := sitePanel_ok (hpan p hp)
    have := hrows _ _ h1
    subst this
    refine ⟨?_, by rw [h5]; simp, fun j hj => ?_⟩
    · rw [h4, List.map_map]
      refine List.map_congr_left (fun r _ => ?_)
      simp only [Function.comp, List.map_map]
      refine List.map_congr_left (fun c _ => ?_)
      cases c <;> rfl
    · rw [h5, List.getElem?_map, List.getElem?_range hj, Option.map_some, countValues_rows]
  · obtain ⟨_, rows, h1, _, _, _, h5⟩ := sitePanel_ok (hpan p hp)
    rw [hmax]
    unfold maxObs
    refine le_trans ?_ (le_foldr_max (List.mem_map.2 ⟨_, Dict.mem_of_get? h1, rfl⟩))
    rw [h5] at hn
    exact le_foldr_max hn
  · rw [hmax] at h0 ⊢
    unfold maxObs at h0 ⊢
    have hm := foldr_max_mem h0
    generalize hM : (R.map (fun s => ((List.range fig.freq.length).map (countValues s.2)).foldr max 0)
      ).foldr max 0 = M at *
    obtain ⟨⟨sta, rows⟩, hmem, he⟩ := List.mem_map.1 hm
    simp only at he
    have h1 := Dict.get?_of_mem hw hmem
    have hv : M ∈ (List.range fig.freq.length).map (countValues rows) := by
      rw [← he]
      exact foldr_max_mem (by rw [he]; exact h0)
    obtain ⟨j, hj, hcj⟩ := List.mem_map.1 hv
    have hnv : noValue rows = false := by
      rw [← Bool.not_eq_true]
      intro hall
      apply h0
      rw [← hcj]
      unfold countValues
      rw [List.length_eq_zero_iff, List.filter_eq_nil_iff]
      intro r hr hs
      unfold noValue at hall
      rw [List.all_eq_true] at hall
      have := hall r hr
      rw [List.all_eq_true] at this
      cases hrj : r[j]? with
      | none => rw [hrj] at hs; simp at hs
      | some c =>
        rw [hrj] at hs
        have := this c (List.mem_of_getElem? hrj)
        simp only [Option.bind_some] at hs
        cases h : c.val? <;> simp [h] at this hs
    obtain ⟨p, hp, h⟩ := forall₂_left hF sta (by
      rw [List.mem_filter, (sortedKeys_perm R).mem_iff, ← Dict.get?_isSome, h1]
      simp [hnv])
    obtain ⟨_, rows', g1, _, _, _, g5⟩ := sitePanel_ok h
    rw [h1] at g1
    simp only [Option.some.injEq] at g1
    subst g1
    exact ⟨p, hp, by rw [g5]; exact hv⟩

/-- **C94**: with the same kind of mean as in the inversion, the marks in the panel of a station are
the reported site responses of this station.

Missing: no figure for events inverted simultaneously or, with the weighted mean, for stations which
are not used by all events (see the counterexamples). -/
theorem C94_means_partial {rlm : List ℝ → ℝ × ℝ} {inv : List Event → Py (Option InvRes)}
    {codaNorm : Bool} {mean : Mean} {events : List Event} {w : WrapRes}
    (h : invertWrapper rlm inv codaNorm false mean events = .ok (some w))
    {fig : FigRes} (he : fig.events = w.events) {sf : SiteFig}
    (hg : ∃ e ∈ fig.events.head?, "R" ∈ e.2.keys)
    (hwf : ∀ e ∈ fig.events, ∀ R, e.2.get? "R" = some (.sites R) → R.WF)
    (hp : plotSites rlm mean fig = .ok sf) (p : SitePanel) (hmem : p ∈ sf.panels) :
    ∃ row, (w.R.getD []).get? p.station = some row ∧ row.length = fig.freq.length ∧
      p.means.map Prod.fst = row.map Cell.val? := by
  obtain ⟨fr, hm⟩ := means_of_wrapper h
  obtain ⟨col, R, errs, hc, hs, herr, hF, _, _⟩ := plotSites_events hg hp
  obtain ⟨hw, hR⟩ := sites_array (by decide) (by decide) hc hwf hs
  obtain ⟨s, _, hsp⟩ := forall₂_right hF p hmem
  obtain ⟨rfl, rows, h1, h2, h3, _, _⟩ := sitePanel_ok hsp
  rcases hR p.station with ⟨_, hx⟩ | ⟨hne, hx⟩
  · rw [hx] at h1; simp at h1
  rw [hx] at h1
  simp only [Option.some.injEq] at h1
  rw [he] at hne h1 hwf
  rcases sites_spec hm hwf p.station with ⟨h4, _⟩ | ⟨errs0, row, _, h5, h6, _, h8⟩
  · exact absurd h4 hne
  rw [h1] at h8
  have hrne : rows ≠ [] := by rw [← h1]; simpa using hne
  obtain ⟨hrl, hrow⟩ := tableMean_col h2 hrne h8
  obtain ⟨hbl, hbar⟩ := gerrTable_col h3
  refine ⟨row, h5, hrl, ?_⟩
  apply List.ext_getElem?
  intro j
  rw [List.getElem?_map, List.getElem?_map]
  by_cases hj : j < fig.freq.length
  · obtain ⟨b, hb, hbm⟩ := hbar j hj
    obtain ⟨o, ho, hom⟩ := hrow j hj
    have herrs : mean = .weighted →
        errs = (Spec.rowsWith w.events "error").map (fun r => r.map Cell.toFloat) := by
      rintro rfl
      unfold errorRows at herr
      simp only at herr
      obtain ⟨e, he', herr⟩ := bind_ok.1 herr
      cases e with
      | none => simp at herr
      | some e =>
        simp only [pure, Except.pure, Except.ok.injEq] at herr
        rw [← herr]
        rw [he] at hc
        exact (array_spec (by decide) hc (by decide) (by decide) (by decide) he').2.1
    rw [colMean_errs (e' := column (errs0.map (fun r => r.map Cell.toFloat)) j) (fun hw => by
      rw [herrs hw, h6]), hom] at hbm
    simp only [Except.ok.injEq] at hbm
    rw [hb, ho, Option.map_some, Option.map_some, ← hbm, Cell.val?_ofOption]
  · rw [List.getElem?_eq_none (by omega), List.getElem?_eq_none (by omega)]
    rfl

/-- **C94**, events inverted simultaneously: a figure which is drawn has a panel for each station with a
value in the result, in alphabetical order, with the reported (positive) responses as marks and one
observation for each band with a value; the other stations are listed as excluded.

Missing: the figure is only drawn for a single band or with `mean='robust'`, see the
counterexample. -/
theorem C94_single_partial {rlm : List ℝ → ℝ × ℝ} {mean : Mean} {fig : FigRes} {sf : SiteFig}
    {R : Dict String (List Cell)} (hR : fig.top.get? "R" = some (.sites R)) (hw : R.WF)
    (hg : ∀ e ∈ fig.events.head?, "R" ∉ e.2.keys) (hp : plotSites rlm mean fig = .ok sf) :
    (sf.panels.map SitePanel.station).Pairwise (· < ·) ∧ sf.excluded.Pairwise (· < ·) ∧
    (∀ sta, sta ∈ sf.panels.map SitePanel.station ↔
      ∃ row, R.get? sta = some row ∧ ∃ x : ℝ, Cell.num x ∈ row) ∧
    (∀ sta, sta ∈ sf.excluded ↔ ∃ row, R.get? sta = some row ∧ ∀ x : ℝ, Cell.num x ∉ row) ∧
    sf.maxNobs = 1 ∧
    ∀ p ∈ sf.panels, ∃ row, R.get? p.station = some row ∧ row.length = fig.freq.length ∧
      p.means.length = row.length ∧ p.nobs.length = row.length ∧
      ∀ (j : ℕ) c, row[j]? = some c →
        (∀ x, c = .num x → 0 < x → p.means[j]? = some (some x, none, none)) ∧
        ((∀ x, c ≠ .num x) → p.nobs[j]? = some 0) ∧ ((∃ x, c = .num x) → p.nobs[j]? = some 1) := by
  unfold plotSites at hp
  obtain ⟨first, hfi, hp⟩ := bind_ok.1 hp
  have hfe : "R" ∉ first.keys := by
    unfold firstEvent at hfi
    cases hev : fig.events with
    | nil => rw [hev] at hfi; simp at hfi
    | cons a l =>
      rw [hev] at hfi hg
      simp only [Except.ok.injEq] at hfi
      rw [← hfi]
      exact hg a (by simp)
  rw [if_neg hfe] at hp
  obtain ⟨R', hR', hp⟩ := bind_ok.1 hp
  have : R' = R := by
    unfold singleSites at hR'
    rw [hR] at hR'
    simpa using hR'.symm
  subst this
  obtain ⟨_, _, hp⟩ := bind_ok.1 hp
  simp only at hp
  split at hp
  · simp at hp
  obtain ⟨ps, hps, hp⟩ := bind_ok.1 hp
  simp only [pure, Except.pure, Except.ok.injEq] at hp
  subst hp
  have hF := mapExc_ok.1 hps
  have hpan : ∀ s p, sitePanelSingle mean fig.freq.length R' s = .ok p → p.station = s ∧
      ∃ row, R'.get? s = some row ∧ row.length = fig.freq.length ∧
      p.means = row.map (fun c => (c.val?.bind (fun x => if 0 < x then some x else none), none, none)) ∧
      p.nobs = row.map (fun c => if c.val?.isSome then 1 else 0) := by
    intro s p h
    unfold sitePanelSingle at h
    cases hr : R'.get? s with
    | none => rw [hr] at h; simp at h
    | some row =>
      rw [hr] at h
      simp only at h
      obtain ⟨_, hb, h⟩ := bind_ok.1 h
      obtain ⟨m, hms, h⟩ := bind_ok.1 h
      simp only [pure, Except.pure, Except.ok.injEq] at h
      subst h
      refine ⟨rfl, row, rfl, ?_, ?_, rfl⟩
      · unfold checkBands at hb
        split at hb
        · next hall => simpa using hall
        · simp at hb
      · unfold gerrRow at hms
        cases mean with
        | robust => simp only [Except.ok.injEq] at hms; rw [← hms, List.map_map]; rfl
        | plain =>
          simp only at hms
          split at hms
          · simp at hms
          · simp only [Except.ok.injEq] at hms; rw [← hms, List.map_map]; rfl
        | weighted =>
          simp only at hms
          split at hms
          · simp at hms
          · simp only [Except.ok.injEq] at hms; rw [← hms, List.map_map]; rfl
  have hmap : ps.map SitePanel.station =
      (sortedKeys R').filter (fun s => !noValue [(R'.get? s).getD []]) := by
    refine panels_stations ?_
    exact hF.imp (fun s p h => (hpan s p h).1)
  have hnv : ∀ row : List Cell, noValue [row] = true ↔ ∀ x : ℝ, Cell.num x ∉ row := by
    intro row
    simp only [noValue, List.all_cons, List.all_nil, Bool.and_true, List.all_eq_true]
    constructor
    · intro h x hx
      simpa [Cell.val?] using h _ hx
    · intro h c hc
      cases c with
      | num x => exact absurd hc (h x)
      | nan => rfl
      | none => rfl
  have hsort := sortedKeys_sorted hw
  simp only
  refine ⟨by rw [hmap]; exact hsort.filter _, hsort.filter _, ?_, ?_, trivial, ?_⟩
  · intro sta
    rw [hmap, List.mem_filter, (sortedKeys_perm R').mem_iff, ← Dict.get?_isSome]
    cases hr : R'.get? sta with
    | none => simp
    | some row =>
      simp only [Option.isSome_some, Option.getD_some, true_and, Option.some.injEq, exists_eq_left',
        Bool.not_eq_true', ← Bool.not_eq_true, hnv]
      push Not
      rfl
  · intro sta
    rw [List.mem_filter, (sortedKeys_perm R').mem_iff, ← Dict.get?_isSome]
    cases hr : R'.get? sta with
    | none => simp
    | some row => simp [hnv]
  · intro p hp
    obtain ⟨s, _, hs⟩ := forall₂_right hF p hp
    obtain ⟨rfl, row, h1, h2, h3, h4⟩ := hpan s p hs
    refine ⟨row, h1, h2, by rw [h3, List.length_map], by rw [h4, List.length_map], ?_⟩
    intro j c hc
    rw [h3, h4, List.getElem?_map, List.getElem?_map, hc]
    refine ⟨?_, ?_, ?_⟩
    · rintro x rfl hx
      simp [Cell.val?, hx]
    · intro hx
      cases c with
      | num x => exact absurd rfl (hx x)
      | nan => rfl
      | none => rfl
    · rintro ⟨x, rfl⟩
      rfl

/-- `C94_single_partial` is not vacuous. -/
example (rlm : List ℝ → ℝ × ℝ) : ∃ sf, plotSites rlm .robust ⟨[1, 2], some 3000,
      [("R", .sites [("A", [.num 1, .nan])])], [("e1", [("W", .row [.num 1, .num 1])])]⟩ = .ok sf ∧
    sf.panels.map SitePanel.station = ["A"] := by
  unfold plotSites
  simp only [firstEvent, bind, Except.bind]
  rw [if_neg (by decide)]
  have hs : singleSites ⟨[1, 2], some 3000, [("R", .sites [("A", [.num 1, .nan])])],
      [("e1", [("W", .row [.num 1, .num 1])])]⟩ = .ok [("A", [.num 1, .nan])] := rfl
  have hk : sortedKeys [("A", [Cell.num 1, .nan])] = ["A"] := by
    simp [sortedKeys, Dict.keys, List.mergeSort]
  have hf : List.filter (fun s => !noValue [(Dict.get? [("A", [Cell.num 1, .nan])] s).getD []])
      ["A"] = ["A"] := by
    simp [noValue, Dict.get?]
  obtain ⟨p, hp, hps⟩ : ∃ p, sitePanelSingle .robust 2 [("A", [Cell.num 1, .nan])] "A" = .ok p ∧
      p.station = "A" := ⟨_, rfl, rfl⟩
  simp only [hs, errorRow, hk, hf, List.length_cons, List.length_nil, Nat.zero_add, mapExc, hp, bind,
    Except.bind]
  exact ⟨_, rfl, by simp [hps]⟩

/-- **C94** fails for each simultaneous inversion with several bands, unless `mean='robust'`: no
figure of the site responses can be drawn; a complete result gives `ValueError`. -/
theorem C94_simultaneous_counterexample (rlm : List ℝ → ℝ × ℝ) :
    (∀ (mean : Mean) (fig : FigRes), mean ≠ .robust → (∀ e ∈ fig.events.head?, "R" ∉ e.2.keys) →
      fig.freq.length ≠ 1 → ∀ sf, plotSites rlm mean fig ≠ .ok sf) ∧
    plotSites rlm .plain ⟨[1, 2], some 3000, [("R", .sites [("A", [.num 1, .num 4])])],
      [("e1", [("W", .row [.num 1, .num 1])])]⟩ = .error .valueError := by
  constructor
  · intro mean fig hm hg hf sf hp
    unfold plotSites at hp
    obtain ⟨first, hfi, hp⟩ := bind_ok.1 hp
    have hfe : "R" ∉ first.keys := by
      unfold firstEvent at hfi
      cases hev : fig.events with
      | nil => rw [hev] at hfi; simp at hfi
      | cons a l =>
        rw [hev] at hfi hg
        simp only [Except.ok.injEq] at hfi
        rw [← hfi]
        exact hg a (by simp)
    rw [if_neg hfe] at hp
    obtain ⟨R, hR, hp⟩ := bind_ok.1 hp
    obtain ⟨_, _, hp⟩ := bind_ok.1 hp
    simp only at hp
    split at hp
    · simp at hp
    rename_i hlen
    obtain ⟨ps, hps, hp⟩ := bind_ok.1 hp
    obtain ⟨s, hs⟩ := List.exists_mem_of_length_pos (Nat.pos_of_ne_zero hlen)
    obtain ⟨p, _, h⟩ := forall₂_left (mapExc_ok.1 hps) s hs
    unfold sitePanelSingle at h
    cases hr : R.get? s with
    | none => rw [hr] at h; simp at h
    | some row =>
      rw [hr] at h
      simp only at h
      obtain ⟨_, _, h⟩ := bind_ok.1 h
      obtain ⟨m, hms, h⟩ := bind_ok.1 h
      unfold gerrRow at hms
      cases mean with
      | robust => exact hm rfl
      | plain => simp only at hms; rw [if_pos hf] at hms; simp at hms
      | weighted => simp only at hms; rw [if_pos hf] at hms; simp at hms
  · unfold plotSites
    simp only [firstEvent, bind, Except.bind]
    rw [if_neg (by decide)]
    have hs : singleSites ⟨[1, 2], some 3000, [("R", .sites [("A", [.num 1, .num 4])])],
        [("e1", [("W", .row [.num 1, .num 1])])]⟩ = .ok [("A", [.num 1, .num 4])] := rfl
    have hk : sortedKeys [("A", [Cell.num 1, .num 4])] = ["A"] := by
      simp [sortedKeys, Dict.keys, List.mergeSort]
    have hf : List.filter (fun s => !noValue [(Dict.get? [("A", [Cell.num 1, .num 4])] s).getD []])
        ["A"] = ["A"] := by
      simp [noValue, Dict.get?]
    have hp : sitePanelSingle .plain 2 [("A", [Cell.num 1, .num 4])] "A" = .error .valueError := rfl
    simp only [hs, errorRow, hk, hf, List.length_cons, List.length_nil, Nat.zero_add, mapExc, hp, bind,
      Except.bind]
    rfl

open WeightedExample in
/-- With the weighted mean there is no figure as soon as a drawn station is missing in the result of an
event.  The results of an inversion have all stations in all events, `C135_sites_figure`. -/
theorem FigureSites.differing_stations (rlm : List ℝ → ℝ × ℝ) :
    (∀ (fig : FigRes) (sta : String), (∃ e ∈ fig.events.head?, "R" ∈ e.2.keys) →
      (∀ e ∈ fig.events, ∀ R, e.2.get? "R" = some (.sites R) → R.WF) →
      Spec.HasValue fig.events sta →
      (Spec.siteRows fig.events sta).length ≠ (Spec.rowsWith fig.events "error").length →
      ∀ sf, plotSites rlm .weighted fig ≠ .ok sf) ∧
    plotSites rlm .weighted ⟨[1], some 3000, [],
      [("e1", [("error", .row [.num 3]), ("R", .sites [("B", [.num 1])])]),
       ("e2", [("error", .row [.num 12]), ("R", .sites [("A", [.num 1]), ("B", [.num 1])])])]⟩ =
      .error .typeError := by
  constructor
  · intro fig sta hg hwf hv hne sf hp
    obtain ⟨col, R, errs, hc, hs, herr, hF, _, _⟩ := plotSites_events hg hp
    obtain ⟨hw, hR⟩ := sites_array (by decide) (by decide) hc hwf hs
    have hmem := ((C94_stations hg hwf hp).2.2.1 sta).2 hv
    obtain ⟨p, hp', rfl⟩ := List.mem_map.1 hmem
    obtain ⟨s, _, hsp⟩ := forall₂_right hF p hp'
    obtain ⟨rfl, rows, h1, h2, h3, _, _⟩ := sitePanel_ok hsp
    rcases hR p.station with ⟨_, hx⟩ | ⟨_, hx⟩
    · rw [hx] at h1; simp at h1
    rw [hx] at h1
    simp only [Option.some.injEq] at h1
    unfold errorRows at herr
    simp only at herr
    obtain ⟨e, he', herr⟩ := bind_ok.1 herr
    cases e with
    | none => simp at herr
    | some e =>
      simp only [pure, Except.pure, Except.ok.injEq] at herr
      have herrs := (array_spec (by decide) hc (by decide) (by decide) (by decide) he').2.1
      unfold gerrTable at h3
      simp only at h3
      rw [if_pos] at h3
      · simp at h3
      · left
        rw [← h1, ← herr, herrs]
        simpa using hne
  · have hcol : ∃ col, collectResults (Dict.mapVals some
      [("e1", [("error", .row [.num 3]), ("R", .sites [("B", [.num 1])])]),
       ("e2", [("error", .row [.num 12]), ("R", .sites [("A", [.num 1]), ("B", [.num 1])])])])
      ["R", "error"] = .ok col ∧
      sitesArray col = .ok [("B", [[.num 1], [.num 1]]), ("A", [[.num 1]])] ∧
      arrayOf col "error" = .ok (some [[.num 3], [.num 12]]) := ⟨_, rfl, rfl, rfl⟩
    obtain ⟨col, hcol, hs, he⟩ := hcol
    unfold plotSites
    simp only [firstEvent, bind, Except.bind]
    rw [if_pos (by decide), hcol]
    simp only [hs, errorRows, he, bind, Except.bind, pure, Except.pure]
    rw [if_neg (by simp)]
    have hk : sortedKeys [("B", [[Cell.num 1], [.num 1]]), ("A", [[.num 1]])] = ["A", "B"] := by
      simp [sortedKeys, Dict.keys, List.mergeSort, List.MergeSort.Internal.splitInTwo, List.merge]
    rw [hk]
    have hf : List.filter (fun s => !noValue ((Dict.get?
        [("B", [[Cell.num 1], [.num 1]]), ("A", [[.num 1]])] s).getD [])) ["A", "B"] = ["A", "B"] := by
      simp [noValue, Dict.get?]
    rw [hf, if_neg (by simp)]
    simp only [mapExc, bind, Except.bind]
    have : sitePanel rlm .weighted 1 [("B", [[Cell.num 1], [.num 1]]), ("A", [[.num 1]])]
        [[.num 3], [.num 12]] "A" = .error .typeError := by
      unfold sitePanel
      have hg : Dict.get? [("B", [[Cell.num 1], [.num 1]]), ("A", [[.num 1]])] "A" =
        some [[.num 1]] := by simp [Dict.get?]
      rw [hg]
      simp only [checkBands, gerrTable, bind, Except.bind]
      rw [if_pos (by simp), if_pos (by simp)]
    simp only [List.length_cons, List.length_nil, Nat.zero_add]
    rw [this]

open WeightedExample WrapperExample in
/-- `C94_stations`, `C94_points` and `C94_means_partial` are not vacuous: the result of two events. -/
example (rlm : List ℝ → ℝ × ℝ) :
    ∃ w sf, invertWrapper rlm (WeightedExample.exInv ["B", "A"]) false false .plain
      [ev "x/e2" 2, ev "x/e1" 1] = .ok (some w) ∧
      (∃ e ∈ w.events.head?, "R" ∈ e.2.keys) ∧
      (∀ e ∈ w.events, ∀ R, e.2.get? "R" = some (.sites R) → R.WF) ∧
      plotSites rlm .plain ⟨[1], some 3000, [], w.events⟩ = .ok sf ∧
      sf.panels.map SitePanel.station = ["A", "B"] ∧ sf.maxNobs = 2 := by
  have hw : ∃ w, invertWrapper rlm (WeightedExample.exInv ["B", "A"]) false false .plain
      [ev "x/e2" 2, ev "x/e1" 1] = .ok (some w) ∧ w.events = exEvents ["B", "A"] :=
    ⟨_, by rw [WeightedExample.exWrapper]; rfl, rfl⟩
  obtain ⟨w, hw, hev⟩ := hw
  have hcol : ∃ col, collectResults ((exEvents ["B", "A"]).mapVals some) ["R", "error"] = .ok col ∧
      sitesArray col = .ok [("A", [[.num 1], [.num 1]]), ("B", [[.num 1]])] ∧
      arrayOf col "error" = .ok (some [[.num 3], [.num 12]]) := ⟨_, rfl, rfl, rfl⟩
  obtain ⟨col, hcol, hs, he⟩ := hcol
  have htab : ∀ rows errs, ∃ m, gerrTable rlm .plain rows errs 1 = .ok m := by
    intro rows errs
    obtain ⟨b, hb⟩ : ∃ b, gerr rlm (column rows 0) none = .ok b :=
      ⟨_, C46_gerr_value rlm (column rows 0) true 5⟩
    refine ⟨[b], ?_⟩
    simp only [gerrTable, List.range_succ, List.range_zero, List.nil_append, mapExc,
      hb, bind, Except.bind, pure, Except.pure]
  have hk : sortedKeys [("A", [[Cell.num 1], [.num 1]]), ("B", [[.num 1]])] = ["A", "B"] := by
    simp [sortedKeys, Dict.keys, List.mergeSort, List.MergeSort.Internal.splitInTwo, List.merge]
  have hf : List.filter (fun s => !noValue ((Dict.get?
      [("A", [[Cell.num 1], [.num 1]]), ("B", [[.num 1]])] s).getD [])) ["A", "B"] = ["A", "B"] := by
    simp [noValue, Dict.get?]
  obtain ⟨m1, h1⟩ := htab [[.num 1], [.num 1]] []
  obtain ⟨m2, h2⟩ := htab [[.num 1]] []
  have hp1 : sitePanel rlm .plain 1 [("A", [[Cell.num 1], [.num 1]]), ("B", [[.num 1]])] [] "A" =
      .ok ⟨"A", [[some 1], [some 1]], [2], m1⟩ := by
    unfold sitePanel
    have hg : Dict.get? [("A", [[Cell.num 1], [.num 1]]), ("B", [[.num 1]])] "A" =
      some [[.num 1], [.num 1]] := by simp [Dict.get?]
    rw [hg]
    simp only [checkBands, bind, Except.bind]
    rw [if_pos (by simp), h1]
    rfl
  have hp2 : sitePanel rlm .plain 1 [("A", [[Cell.num 1], [.num 1]]), ("B", [[.num 1]])] [] "B" =
      .ok ⟨"B", [[some 1]], [1], m2⟩ := by
    unfold sitePanel
    have hg : Dict.get? [("A", [[Cell.num 1], [.num 1]]), ("B", [[.num 1]])] "B" =
      some [[.num 1]] := by simp [Dict.get?]
    rw [hg]
    simp only [checkBands, bind, Except.bind]
    rw [if_pos (by simp), h2]
    rfl
  refine ⟨w, ⟨[⟨"A", [[some 1], [some 1]], [2], m1⟩, ⟨"B", [[some 1]], [1], m2⟩], [], 2⟩, hw, ?_, ?_,
    ?_, rfl, rfl⟩
  · rw [hev]; exact ⟨_, rfl, by decide⟩
  · rw [hev]
    intro e he R hR
    simp only [exEvents, List.mem_cons, List.not_mem_nil, or_false] at he
    rcases he with rfl | rfl
    · simp [Dict.get?] at hR
      subst hR
      simp [Dict.WF, Dict.keys]
    · simp [Dict.get?] at hR
      subst hR
      simp [Dict.WF, Dict.keys]
  · rw [hev]
    unfold plotSites
    have hfi : firstEvent ⟨[1], some 3000, [], exEvents ["B", "A"]⟩ = .ok
      [("g0", .row [.num 1]), ("b", .row [.num 2]), ("nstations", .row [.num 1]),
       ("error", .row [.num 3]), ("W", .row [.num 1]), ("R", .sites [("A", [.num 1])])] := rfl
    rw [hfi]
    simp only [bind, Except.bind]
    rw [if_pos (by decide), hcol]
    simp only [hs, errorRows, bind, Except.bind, pure, Except.pure]
    rw [if_neg (by simp), hk, hf, if_neg (by simp)]
    simp only [mapExc, bind, Except.bind, List.length_cons, List.length_nil, Nat.zero_add, hp1, hp2,
      pure, Except.pure]
    have hf' : List.filter (fun s => noValue ((Dict.get?
        [("A", [[Cell.num 1], [.num 1]]), ("B", [[.num 1]])] s).getD [])) ["A", "B"] = [] := by
      simp [noValue, Dict.get?]
    rw [hf']
    rfl

end Qopen
