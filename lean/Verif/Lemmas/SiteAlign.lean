import Verif.Lemmas.SiteMath
import Verif.Props.SourceRecalc

/-!
# The complete alignment
-/

namespace Qopen.Site

open Real Spec Source

/-! ## order of events -/

theorem sortedEvents_spec (d : Dict String (Option EvRes)) : SortedById d (sortedEvents d) := by
  unfold SortedById sortedEvents resultsOf
  refine ⟨List.mergeSort_perm _ _, ?_⟩
  have := List.pairwise_mergeSort (le := fun (a b : String × EvRes) => decide (a.1 ≤ b.1))
    (by intro a b c h1 h2; simp only [decide_eq_true_eq] at *; exact String.le_trans h1 h2)
    (by intro a b; simp only [Bool.or_eq_true, decide_eq_true_eq]; exact String.le_total _ _)
    (d.filterMap (fun p => p.2.map (fun e => (p.1, e))))
  refine this.imp ?_
  intro a b h; simpa using h

theorem resultsOf_sublist_keys (d : Dict String (Option EvRes)) :
    ((resultsOf d).map Prod.fst).Sublist (d.map Prod.fst) := by
  induction d with
  | nil => simp [resultsOf]
  | cons p d ih =>
    obtain ⟨id, o⟩ := p
    unfold resultsOf at ih ⊢
    cases o with
    | none => simpa using ih.trans (List.sublist_cons_self _ _)
    | some e => simpa using ih

theorem resultsOf_nodup {d : Dict String (Option EvRes)} (h : d.WF) : (resultsOf d).WF :=
  (resultsOf_sublist_keys d).nodup h

theorem sorted_unique {d : Dict String (Option EvRes)} (h : d.WF) {es : Dict String EvRes}
    (hs : SortedById d es) : es = sortedEvents d := by
  obtain ⟨h1, h2⟩ := hs
  obtain ⟨g1, g2⟩ := sortedEvents_spec d
  have hp : es.Perm (sortedEvents d) := h1.trans g1.symm
  have hnd := resultsOf_nodup h
  refine List.Perm.eq_of_pairwise ?_ h2 g2 hp
  intro a b ha hb hab hba
  have e : a.1 = b.1 := String.le_antisymm hab hba
  have ma : a ∈ resultsOf d := h1.mem_iff.1 ha
  have mb : b ∈ resultsOf d := g1.mem_iff.1 hb
  have ga := Dict.get?_of_mem hnd (k := a.1) (v := a.2) ma
  have gb := Dict.get?_of_mem hnd (k := b.1) (v := b.2) mb
  rw [e, gb] at ga
  simp only [Option.some.injEq] at ga
  exact Prod.ext e ga.symm

theorem mem_sortedEvents {d : Dict String (Option EvRes)} {e : String × EvRes} :
    e ∈ sortedEvents d ↔ e ∈ resultsOf d := (sortedEvents_spec d).1.mem_iff

theorem mem_resultsOf {d : Dict String (Option EvRes)} {id : String} {ev : EvRes} :
    (id, ev) ∈ resultsOf d ↔ (id, some ev) ∈ d := by
  unfold resultsOf
  rw [List.mem_filterMap]
  constructor
  · rintro ⟨⟨a, o⟩, h1, h2⟩
    rw [Option.map_eq_some_iff] at h2
    obtain ⟨e, h3, h4⟩ := h2
    simp only [Prod.mk.injEq] at h4
    simp only at h3
    rw [← h4.1, ← h4.2, ← h3]; exact h1
  · intro h
    exact ⟨_, h, rfl⟩

theorem resultsOf_map_some (es : Dict String EvRes) :
    resultsOf (es.map (fun p => (p.1, some p.2))) = es := by
  unfold resultsOf
  rw [List.filterMap_map]
  induction es with
  | nil => rfl
  | cons e es ih => simp [ih]

/-! ## recalculation of source properties leaves energies and responses alone -/

theorem insertSource_frame {orc : Oracle} {freq : List ℝ} {ev ev' : EvRes} {v0 rho0 : Option ℝ}
    {smm : Option Method} {smo : Option Opts} {cm : Option ℝ}
    (h : insertSourceProperties orc freq ev v0 rho0 smm smo cm = .ok ev') :
    ev'.W = ev.W ∧ ev'.R = ev.R := by
  unfold insertSourceProperties at h
  obtain ⟨L, hL, h⟩ := bind_ok.1 h
  cases smm with
  | none =>
    simp only [pure, Except.pure, Except.ok.injEq] at h
    subst h
    exact ⟨rfl, rfl⟩
  | some m =>
    cases smo with
    | none => simp [throw, throwThe, MonadExceptOf.throw] at h
    | some o =>
      obtain ⟨fit, hf, h⟩ := bind_ok.1 h
      simp only [pure, Except.pure, Except.ok.injEq] at h
      subst h
      exact ⟨rfl, rfl⟩

theorem recalc_frame {orc : Oracle} {freq : List ℝ} {ev ev' : EvRes} {v02 rho0 : Option ℝ}
    {smm : Option Method} {smo : Option Opts}
    (h : recalcEvent orc freq v02 rho0 smm smo ev = .ok ev') :
    ev'.W = ev.W ∧ ev'.R = ev.R := by
  unfold recalcEvent at h
  simp only at h
  split at h
  · have := insertSource_frame h
    exact this
  · simp only [Except.ok.injEq] at h
    subst h
    exact ⟨rfl, rfl⟩

theorem calc_frame {orc : Oracle} {conf : Config} {freq : List ℝ} {events events' : Dict String EvRes}
    {rho0 v0 : Option ℝ} {smm : Option Method} {smo : Option Opts}
    (h : calculateSourceProperties orc conf freq events rho0 v0 smm smo = .ok events') :
    EvRel (fun _ ev ev' => ev'.W = ev.W ∧ ev'.R = ev.R) events events' := by
  unfold calculateSourceProperties at h
  simp only at h
  split at h
  · have hF := mapExc_ok.1 h
    refine ⟨hF.length_eq, ?_⟩
    intro k p p' h1 h2
    obtain ⟨hk, e1⟩ := List.getElem?_eq_some_iff.1 h1
    obtain ⟨hk', e2⟩ := List.getElem?_eq_some_iff.1 h2
    have := List.Forall₂.get hF hk hk'
    simp only [List.get_eq_getElem, e1, e2] at this
    obtain ⟨e, he, hq⟩ := bind_ok.1 this
    simp only [pure, Except.pure, Except.ok.injEq] at hq
    subst hq
    exact ⟨rfl, recalc_frame he⟩
  · simp only [Except.ok.injEq] at h
    subst h
    refine ⟨rfl, ?_⟩
    intro k p p' h1 h2
    rw [h1] at h2
    simp only [Option.some.injEq] at h2
    subst h2
    exact ⟨rfl, rfl, rfl⟩

theorem AlignedEv.congr {n : ℕ} {bands : List (Option (Finset String) × List ℝ)} {k : ℕ}
    {a b c : EvRes} (h : AlignedEv n bands k a b) (hW : c.W = b.W) (hR : c.R = b.R) :
    AlignedEv n bands k a c := by
  have hs : ∀ j, SameBand j b c := fun j => by
    refine ⟨by simp [energyOf, hW], fun s => by simp [respOf, hR]⟩
  refine ⟨⟨by rw [hR]; exact h.frame.keys, by rw [hW]; exact h.frame.lenW,
    fun s => by rw [hR]; exact h.frame.lenR s⟩, ?_, ?_⟩
  · intro i bf hi; exact (h.band i bf hi).congr_right (hs _)
  · intro j hj; exact (h.other j hj).trans (hs j)

/-! ## the bands -/

theorem numberOfFreqs_aux (events : Dict String EvRes) (m : ℕ) (n : Option ℕ)
    (h : events.foldlM freqStep (some m) = .ok n) : n = some m ∧ ∀ e ∈ events, e.2.W.length = m := by
  induction events with
  | nil =>
    simp only [List.foldlM_nil, pure, Except.pure, Except.ok.injEq] at h
    exact ⟨h.symm, by simp⟩
  | cons e es ih =>
    rw [List.foldlM_cons] at h
    obtain ⟨a, h1, h2⟩ := bind_ok.1 h
    unfold freqStep at h1
    simp only at h1
    split at h1
    · next he =>
      simp only [Except.ok.injEq] at h1
      subst h1
      obtain ⟨g1, g2⟩ := ih h2
      refine ⟨g1, ?_⟩
      intro x hx
      rcases List.mem_cons.1 hx with rfl | hx
      · exact he.symm
      · exact g2 x hx
    · simp at h1

theorem numberOfFreqs_ok {events : Dict String EvRes} {n : ℕ}
    (h : numberOfFreqs events = .ok (some n)) : ∀ e ∈ events, e.2.W.length = n := by
  cases events with
  | nil => simp
  | cons e es =>
    unfold numberOfFreqs at h
    rw [List.foldlM_cons] at h
    obtain ⟨a, h1, h2⟩ := bind_ok.1 h
    simp only [freqStep, Except.ok.injEq] at h1
    subst h1
    obtain ⟨g1, g2⟩ := numberOfFreqs_aux es _ _ h2
    simp only [Option.some.injEq] at g1
    intro x hx
    rcases List.mem_cons.1 hx with rfl | hx
    · exact g1.symm
    · rw [g2 x hx, g1]

/-- The flag that is used after line 220. -/
def effSparse (us : Bool) (events : Dict String EvRes) : Bool := us && events.length != 1

theorem alignEvents_ok {solve : Bool → ℕ → List (List ℝ) → List ℝ → List ℝ}
    {events events' : Dict String EvRes} {sel : StationSel} {response : Response} {us : Bool}
    {ignore : Option (List String)} (hR : RWF events)
    (h : alignEvents solve events sel response us ignore = .ok events') :
    ∃ Nf bands, (∀ e ∈ events, e.2.W.length = Nf) ∧
      (∀ e ∈ events, ∀ p ∈ e.2.R, Nf ≤ p.2.length) ∧
      bands.length = Nf ∧ EvRel (AlignedEv 0 bands) events events' ∧
      ∀ i bf, bands[i]? = some bf →
        alignBand solve (effSparse us events) events i sel response ignore = .ok bf := by
  unfold alignEvents at h
  obtain ⟨o, h1, h⟩ := bind_ok.1 h
  cases o with
  | none => simp [throw, throwThe, MonadExceptOf.throw] at h
  | some Nf =>
    simp only at h
    split at h
    · simp [throw, throwThe, MonadExceptOf.throw, bind, Except.bind] at h
    · next hc =>
      obtain ⟨bands, h2, h3⟩ := bind_ok.1 h
      have hF := mapExc_ok.1 h2
      refine ⟨Nf, bands, numberOfFreqs_ok h1, ?_, ?_, rescaleResults_ok hR h3, ?_⟩
      · intro e he p hp
        by_contra hlt
        apply hc
        rw [List.any_eq_true]
        refine ⟨e, he, ?_⟩
        rw [List.any_eq_true]
        exact ⟨p, hp, by simpa using hlt⟩
      · rw [← hF.length_eq, List.length_range]
      · intro i bf hi
        obtain ⟨hk, e⟩ := List.getElem?_eq_some_iff.1 hi
        have hk' : i < (List.range Nf).length := by rw [hF.length_eq]; exact hk
        have := List.Forall₂.get hF hk' hk
        simp only [List.get_eq_getElem, List.getElem_range] at this
        rw [e] at this
        exact this

theorem alignBand_ok {solve : Bool → ℕ → List (List ℝ) → List ℝ → List ℝ}
    {events : Dict String EvRes} {sel : StationSel} {response : Response} {us : Bool}
    {ignore : Option (List String)} {i : ℕ} {bf : Option (Finset String) × List ℝ}
    (hR : RWF events) (h : alignBand solve us events i sel response ignore = .ok bf) :
    (findAreas events i ignore = [] ∧ bf = (none, List.replicate events.length 1)) ∨
    ∃ (a : Finset String) (x : List ℝ) (r : ℝ), bf = (some a, x.map exp) ∧ IsArea events i (notIgnored ignore) a ∧
      largest (findAreas events i ignore) = some a ∧
      responseAt response i = .ok r ∧ (pinned a sel).Nonempty ∧
      (IsLsqSolver (solve us) → x.length = events.length ∧
        IsMin events i a sel r (fun k => x.getD k 0)) := by
  unfold alignBand at h
  cases hl : largest (findAreas events i ignore) with
  | none =>
    rw [hl] at h
    simp only [Except.ok.injEq] at h
    exact Or.inl ⟨largest_none.1 hl, h.symm⟩
  | some a =>
    rw [hl] at h
    obtain ⟨⟨A, b⟩, h1, h2⟩ := bind_ok.1 h
    simp only [pure, Except.pure, Except.ok.injEq] at h2
    obtain ⟨l1, l2⟩ := largest_some hl
    have ha := isArea_of_mem hR l1
    have hd : ∀ s ∈ a, pts events i s ≠ [] := fun s hs => pts_ne_nil (ha.data s hs)
    obtain ⟨r, hr, hp, hlen, hrow, hsse⟩ := bandSystem_spec hR hd h1
    refine Or.inr ⟨a, _, r, h2.symm, ha, rfl, hr, hp, ?_⟩
    intro hsolve
    obtain ⟨s1, s2⟩ := hsolve events.length A b hrow hlen
    refine ⟨s1, ?_⟩
    intro c'
    have hc : ((List.range events.length).map c').length = events.length := by simp
    have := s2 _ hc
    rw [hsse _ s1, hsse _ hc] at this
    refine le_trans this (le_of_eq (misfit_congr ?_))
    intro k hk
    simp [List.getD_eq_getElem?_getD, hk]

theorem align_ok {orc : Oracle} {rlm : List ℝ → ℝ × ℝ}
    {solve : Bool → ℕ → List (List ℝ) → List ℝ → List ℝ} {results out : Results}
    {sel : StationSel} {response : Response} {us : Bool} {smm : Option Method} {smo : Option Opts}
    {ignore : Option (List String)} (hR : RWF (sortedEvents results.events))
    (h : align orc rlm solve results sel response us smm smo ignore = .ok out) :
    ∃ events' Nf bands, out.events = events'.map (fun p => (p.1, some p.2)) ∧
      (∀ e ∈ sortedEvents results.events, e.2.W.length = Nf) ∧
      (∀ e ∈ sortedEvents results.events, ∀ p ∈ e.2.R, Nf ≤ p.2.length) ∧
      bands.length = Nf ∧ EvRel (AlignedEv 0 bands) (sortedEvents results.events) events' ∧
      (∀ i bf, bands[i]? = some bf →
        alignBand solve (effSparse us (sortedEvents results.events))
          (sortedEvents results.events) i sel response ignore = .ok bf) ∧
      updateMeanR rlm events' (results.R.getD []) = .ok (out.R.getD []) ∧ out.R.isSome ∧
      out.freq = results.freq ∧ out.config = results.config := by
  unfold align at h
  obtain ⟨e1, h1, h⟩ := bind_ok.1 h
  obtain ⟨e2, h2, h⟩ := bind_ok.1 h
  obtain ⟨R, h3, h⟩ := bind_ok.1 h
  simp only [pure, Except.pure, Except.ok.injEq] at h
  subst h
  obtain ⟨Nf, bands, b1, b2, b3, b4, b5⟩ := alignEvents_ok hR h1
  refine ⟨e2, Nf, bands, rfl, b1, b2, b3, ?_, b5, h3, rfl, rfl, rfl⟩
  have hc := calc_frame h2
  refine ⟨b4.1.trans hc.1, ?_⟩
  intro k p p' g1 g2
  have hk : k < e1.length := by rw [hc.1]; exact (List.getElem?_eq_some_iff.1 g2).1
  have g3 := List.getElem?_eq_getElem hk
  obtain ⟨f1, f2⟩ := b4.2 k p _ g1 g3
  obtain ⟨f3, f4, f5⟩ := hc.2 k _ p' g3 g2
  exact ⟨f3.trans f1, f2.congr f4 f5⟩

end Qopen.Site
