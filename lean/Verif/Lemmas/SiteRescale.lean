import Verif.Lemmas.SiteLoop

/-!
# Rescaling of results
-/

namespace Qopen.Site

open Real Spec

/-- Effect of the rescaling on band `i` of one event. -/
structure BandStep (area : Option (Finset String)) (f : ℝ) (i : ℕ) (ev ev' : EvRes) : Prop where
  noW : energyOf ev i = none → energyOf ev' i = none ∧ ∀ s, respOf ev' s i = respOf ev s i
  resp : ∀ w, energyOf ev i = some w → ∀ s, respOf ev' s i =
    (respOf ev s i).bind (fun R => if ∃ a, area = some a ∧ s ∈ a then some (R * f) else none)
  noArea : ∀ w, energyOf ev i = some w → area = none → ∀ s, respOf ev s i = none
  energy : ∀ w, energyOf ev i = some w →
    ((∃ s, (respOf ev' s i).isSome) → energyOf ev' i = some (w / f)) ∧
    ((¬ ∃ s, (respOf ev' s i).isSome) → energyOf ev' i = none)

/-- Nothing changes in band `i`. -/
def SameBand (i : ℕ) (ev ev' : EvRes) : Prop :=
  energyOf ev' i = energyOf ev i ∧ ∀ s, respOf ev' s i = respOf ev s i

/-- What all steps keep. -/
structure SameFrame (ev ev' : EvRes) : Prop where
  keys : ev'.R.map Prod.fst = ev.R.map Prod.fst
  lenW : ev'.W.length = ev.W.length
  lenR : ∀ s, (ev'.R.get? s).map List.length = (ev.R.get? s).map List.length

theorem SameFrame.refl (ev : EvRes) : SameFrame ev ev := ⟨rfl, rfl, fun _ => rfl⟩

theorem SameFrame.trans {a b c : EvRes} (h : SameFrame a b) (h' : SameFrame b c) : SameFrame a c :=
  ⟨h'.keys.trans h.keys, h'.lenW.trans h.lenW,
    fun s => (h'.lenR s).trans (h.lenR s)⟩

theorem numAt_set_self (l : List Cell) (i : ℕ) (c : Cell) (h : i < l.length) :
    numAt (l.set i c) i = c.val? := by
  unfold numAt
  rw [List.getElem?_set_self h]
  cases c <;> rfl

theorem numAt_set_ne (l : List Cell) {i j : ℕ} (c : Cell) (h : i ≠ j) :
    numAt (l.set i c) j = numAt l j := by
  unfold numAt
  rw [List.getElem?_set_ne h]

theorem lt_of_numAt {l : List Cell} {i : ℕ} {x : ℝ} (h : numAt l i = some x) : i < l.length := by
  by_contra hc
  unfold numAt at h
  rw [List.getElem?_eq_none (by omega)] at h
  simp at h

theorem rescaleStation_ok {i : ℕ} {area : Option (Finset String)} {f : ℝ}
    {p p' : String × List Cell} (h : rescaleStation i area f p = .ok p') :
    p'.1 = p.1 ∧ p'.2.length = p.2.length ∧ (∀ j, j ≠ i → numAt p'.2 j = numAt p.2 j) ∧
    numAt p'.2 i = (numAt p.2 i).bind
      (fun R => if ∃ a, area = some a ∧ p.1 ∈ a then some (R * f) else none) ∧
    (area = none → numAt p.2 i = none) := by
  unfold rescaleStation at h
  rw [cellAt_eq] at h
  cases hn : numAt p.2 i with
  | none =>
    simp only [hn, Except.ok.injEq] at h
    subst h
    simp [hn]
  | some R =>
    have hi := lt_of_numAt hn
    simp only [hn] at h
    cases area with
    | none => simp at h
    | some a =>
      simp only at h
      split at h
      · next hm =>
        simp only [Except.ok.injEq] at h
        subst h
        refine ⟨rfl, by simp, fun j hj => numAt_set_ne _ _ (Ne.symm hj), ?_, by simp⟩
        simp [numAt_set_self _ _ _ hi, hm]
      · next hm =>
        simp only [Except.ok.injEq] at h
        subst h
        refine ⟨rfl, by simp, fun j hj => numAt_set_ne _ _ (Ne.symm hj), ?_, by simp⟩
        simp [numAt_set_self _ _ _ hi, not_not.1 hm]

theorem rescaleRow_ok {i : ℕ} {area : Option (Finset String)} {f : ℝ}
    {R R' : Dict String (List Cell)} (h : mapExc (rescaleStation i area f) R = .ok R') :
    R'.map Prod.fst = R.map Prod.fst ∧
    (∀ s, (R'.get? s).map List.length = (R.get? s).map List.length) ∧
    (∀ j, j ≠ i → ∀ s, (R'.get? s).bind (fun l => numAt l j) = (R.get? s).bind (fun l => numAt l j)) ∧
    (∀ s, (R'.get? s).bind (fun l => numAt l i) = ((R.get? s).bind (fun l => numAt l i)).bind
      (fun x => if ∃ a, area = some a ∧ s ∈ a then some (x * f) else none)) ∧
    (area = none → ∀ s, (R.get? s).bind (fun l => numAt l i) = none) := by
  have hF := mapExc_ok.1 h
  clear h
  induction hF with
  | nil => simp
  | cons h1 h2 ih =>
    rename_i p q l l'
    obtain ⟨s0, r⟩ := p
    obtain ⟨s1, r'⟩ := q
    obtain ⟨e1, e2, e3, e4, e5⟩ := rescaleStation_ok h1
    simp only at e1 e2 e3 e4 e5
    subst e1
    obtain ⟨i1, i2, i3, i4, i5⟩ := ih
    refine ⟨by simp [i1], ?_, ?_, ?_, ?_⟩
    · intro s
      simp only [Dict.get?_cons]
      split
      · simp [e2]
      · exact i2 s
    · intro j hj s
      simp only [Dict.get?_cons]
      split
      · simp [e3 j hj]
      · exact i3 j hj s
    · intro s
      simp only [Dict.get?_cons]
      split
      · next hs => subst hs; simp [e4]
      · exact i4 s
    · intro ha s
      simp only [Dict.get?_cons]
      split
      · simp [e5 ha]
      · exact i5 ha s

theorem all_none_iff (R : Dict String (List Cell)) (hR : R.WF) (i : ℕ) :
    R.all (fun p => (cellAt p.2 i).isNone) = true ↔
      ¬ ∃ s, ((R.get? s).bind (fun l => numAt l i)).isSome := by
  rw [List.all_eq_true]
  constructor
  · rintro h ⟨s, hs⟩
    cases hg : R.get? s with
    | none => simp [hg] at hs
    | some l =>
      have := h (s, l) (Dict.mem_of_get? hg)
      rw [cellAt_eq] at this
      rw [hg, Option.bind_some] at hs
      rw [Option.isNone_iff_eq_none] at this
      simp [this] at hs
  · intro h p hp
    by_contra hc
    apply h
    refine ⟨p.1, ?_⟩
    rw [Dict.get?_of_mem hR (v := p.2) hp, Option.bind_some, ← cellAt_eq]
    cases hx : cellAt p.2 i with
    | none => simp [hx] at hc
    | some x => rfl

theorem rescaleEvent_ok {i : ℕ} {area : Option (Finset String)} {f : ℝ} {ev ev' : EvRes}
    (hR : ev.R.WF) (h : rescaleEvent i area f ev = .ok ev') :
    SameFrame ev ev' ∧ BandStep area f i ev ev' ∧ ∀ j, j ≠ i → SameBand j ev ev' := by
  unfold rescaleEvent at h
  rw [cellAt_eq] at h
  cases hw : numAt ev.W i with
  | none =>
    simp only [hw, Except.ok.injEq] at h
    subst h
    refine ⟨.refl _, ⟨fun _ => ⟨hw, fun _ => rfl⟩, ?_, ?_, ?_⟩, fun j _ => ⟨rfl, fun _ => rfl⟩⟩
    · intro w h; rw [energyOf, hw] at h; simp at h
    · intro w h; rw [energyOf, hw] at h; simp at h
    · intro w h; rw [energyOf, hw] at h; simp at h
  | some w =>
    have hi := lt_of_numAt hw
    simp only [hw] at h
    obtain ⟨R, h1, h2⟩ := bind_ok.1 h
    obtain ⟨r1, r2, r3, r4, r5⟩ := rescaleRow_ok h1
    have hRw : Dict.WF R := by
      unfold Dict.WF Dict.keys at hR ⊢; rw [r1]; exact hR
    have hall := all_none_iff R hRw i
    split at h2
    · next hc =>
      simp only [pure, Except.pure, Except.ok.injEq] at h2
      subst h2
      refine ⟨⟨r1, by simp, r2⟩, ⟨?_, ?_, ?_, ?_⟩, ?_⟩
      · intro h; rw [energyOf, hw] at h; simp at h
      · intro w' _ s; exact r4 s
      · intro w' _ ha s; exact r5 ha s
      · intro w' _
        refine ⟨fun he => absurd he (hall.1 hc), fun _ => ?_⟩
        simp only [energyOf]
        rw [numAt_set_self _ _ _ (by simpa using hi)]; rfl
      · intro j hj
        refine ⟨?_, fun s => r3 j hj s⟩
        simp only [energyOf]
        rw [numAt_set_ne _ _ (Ne.symm hj), numAt_set_ne _ _ (Ne.symm hj)]
    · next hc =>
      simp only [pure, Except.pure, Except.ok.injEq] at h2
      subst h2
      refine ⟨⟨r1, by simp, r2⟩, ⟨?_, ?_, ?_, ?_⟩, ?_⟩
      · intro h; rw [energyOf, hw] at h; simp at h
      · intro w' _ s; exact r4 s
      · intro w' _ ha s; exact r5 ha s
      · intro w' hw'
        rw [energyOf, hw] at hw'
        simp only [Option.some.injEq] at hw'
        subst hw'
        refine ⟨fun _ => ?_, fun he => absurd (hall.2 he) hc⟩
        simp only [energyOf]
        rw [numAt_set_self _ _ _ hi]; rfl
      · intro j hj
        refine ⟨?_, fun s => r3 j hj s⟩
        simp only [energyOf]
        rw [numAt_set_ne _ _ (Ne.symm hj)]

/-- Effect of the rescaling of the bands `n, n+1, …` on event number `k`. -/
structure AlignedEv (n : ℕ) (bands : List (Option (Finset String) × List ℝ)) (k : ℕ)
    (ev ev' : EvRes) : Prop where
  frame : SameFrame ev ev'
  band : ∀ i bf, bands[i]? = some bf → BandStep bf.1 (bf.2.getD k 1) (n + i) ev ev'
  other : ∀ j, j < n ∨ n + bands.length ≤ j → SameBand j ev ev'

theorem BandStep.congr_left {area : Option (Finset String)} {f : ℝ} {i : ℕ} {a b c : EvRes}
    (hs : SameBand i a b) (h : BandStep area f i b c) : BandStep area f i a c := by
  obtain ⟨h1, h2⟩ := hs
  refine ⟨?_, ?_, ?_, ?_⟩
  · intro h'; rw [← h1] at h'
    refine ⟨(h.noW h').1, fun s => ?_⟩
    rw [(h.noW h').2, h2]
  · intro w h' s; rw [← h1] at h'
    rw [h.resp w h' s, h2]
  · intro w h' ha s; rw [← h1] at h'
    rw [← h2]; exact h.noArea w h' ha s
  · intro w h'; rw [← h1] at h'
    exact h.energy w h'

theorem BandStep.congr_right {area : Option (Finset String)} {f : ℝ} {i : ℕ} {a b c : EvRes}
    (h : BandStep area f i a b) (hs : SameBand i b c) : BandStep area f i a c := by
  obtain ⟨h1, h2⟩ := hs
  refine ⟨?_, ?_, ?_, ?_⟩
  · intro h'
    rw [h1]
    exact ⟨(h.noW h').1, fun s => by rw [h2, (h.noW h').2]⟩
  · intro w h' s; rw [h2, h.resp w h' s]
  · intro w h' ha s; exact h.noArea w h' ha s
  · intro w h'
    simp only [h1, h2]
    exact h.energy w h'

theorem SameBand.trans {i : ℕ} {a b c : EvRes} (h : SameBand i a b) (h' : SameBand i b c) :
    SameBand i a c := ⟨h'.1.trans h.1, fun s => (h'.2 s).trans (h.2 s)⟩

/-- Lists of events related event by event. -/
def EvRel (P : ℕ → EvRes → EvRes → Prop) (a b : Dict String EvRes) : Prop :=
  a.length = b.length ∧ ∀ k p p', a[k]? = some p → b[k]? = some p' → p'.1 = p.1 ∧ P k p.2 p'.2

theorem rescaleBand_ok {events events' : Dict String EvRes} {i : ℕ}
    {bf : Option (Finset String) × List ℝ} (h : rescaleBand events i bf = .ok events') :
    EvRel (fun k ev ev' => rescaleEvent i bf.1 (bf.2.getD k 1) ev = .ok ev') events events' := by
  unfold rescaleBand at h
  have hF := mapExc_ok.1 h
  have hl := hF.length_eq
  refine ⟨by simpa using hl, ?_⟩
  intro k p p' h1 h2
  have hk0 : k < List.length events := (List.getElem?_eq_some_iff.1 h1).1
  have hk : k < events.zipIdx.length := by simpa using hk0
  have hk' : k < events'.length := (List.getElem?_eq_some_iff.1 h2).1
  have := List.Forall₂.get hF hk hk'
  simp only [List.get_eq_getElem, List.getElem_zipIdx, zero_add] at this
  obtain ⟨e, he, hq⟩ := bind_ok.1 this
  simp only [pure, Except.pure, Except.ok.injEq] at hq
  have e1 : events[k] = p := by
    have := (List.getElem?_eq_some_iff.1 h1).2; exact this
  have e2 : events'[k] = p' := (List.getElem?_eq_some_iff.1 h2).2
  rw [e1] at he hq
  rw [e2] at hq
  rw [← hq]
  exact ⟨rfl, he⟩

theorem RWF_getElem? {events : Dict String EvRes} (h : ∀ e ∈ events, e.2.R.WF) {k : ℕ}
    {p : String × EvRes} (hp : events[k]? = some p) : p.2.R.WF :=
  h p (List.mem_of_getElem? hp)

theorem rescaleResults_aux (bands : List (Option (Finset String) × List ℝ)) (n : ℕ)
    (events events' : Dict String EvRes) (hR : ∀ e ∈ events, e.2.R.WF)
    (h : (bands.zipIdx n).foldlM (fun evs p => rescaleBand evs p.2 p.1) events = .ok events') :
    EvRel (AlignedEv n bands) events events' := by
  induction bands generalizing n events with
  | nil =>
    simp only [List.zipIdx_nil, List.foldlM_nil, pure, Except.pure, Except.ok.injEq] at h
    subst h
    refine ⟨rfl, ?_⟩
    intro k p p' h1 h2
    rw [h1] at h2
    simp only [Option.some.injEq] at h2
    subst h2
    exact ⟨rfl, .refl _, by simp, fun j _ => ⟨rfl, fun _ => rfl⟩⟩
  | cons bf bands ih =>
    rw [List.zipIdx_cons, List.foldlM_cons] at h
    obtain ⟨evs, h1, h2⟩ := bind_ok.1 h
    have hb := rescaleBand_ok h1
    have hstep : ∀ k p p', events[k]? = some p → evs[k]? = some p' →
        p'.1 = p.1 ∧ SameFrame p.2 p'.2 ∧ BandStep bf.1 (bf.2.getD k 1) n p.2 p'.2 ∧
          ∀ j, j ≠ n → SameBand j p.2 p'.2 := by
      intro k p p' e1 e2
      obtain ⟨f1, f2⟩ := hb.2 k p p' e1 e2
      exact ⟨f1, rescaleEvent_ok (RWF_getElem? hR e1) f2⟩
    have hR' : ∀ e ∈ evs, e.2.R.WF := by
      intro e he
      obtain ⟨k, hk, rfl⟩ := List.getElem_of_mem he
      have hk' : k < events.length := by rw [hb.1]; exact hk
      have := hstep k _ _ (List.getElem?_eq_getElem hk') (List.getElem?_eq_getElem hk)
      have hw := hR _ (List.getElem_mem hk')
      unfold Dict.WF Dict.keys at hw ⊢
      rw [this.2.1.keys]; exact hw
    have ih := ih (n + 1) evs hR' h2
    refine ⟨hb.1.trans ih.1, ?_⟩
    intro k p p' e1 e2
    have hk : k < evs.length := by
      rw [ih.1]; exact (List.getElem?_eq_some_iff.1 e2).1
    have e3 := List.getElem?_eq_getElem hk
    obtain ⟨f1, f2, f3, f4⟩ := hstep k p _ e1 e3
    obtain ⟨g1, g2⟩ := ih.2 k _ _ e3 e2
    refine ⟨g1.trans f1, f2.trans g2.frame, ?_, ?_⟩
    · intro i bf' hi
      cases i with
      | zero =>
        simp only [List.getElem?_cons_zero, Option.some.injEq] at hi
        subst hi
        exact f3.congr_right (g2.other n (Or.inl (by omega)))
      | succ i =>
        simp only [List.getElem?_cons_succ] at hi
        have := g2.band i bf' hi
        have e : n + 1 + i = n + (i + 1) := by omega
        rw [e] at this
        exact this.congr_left (f4 _ (by omega))
    · intro j hj
      simp only [List.length_cons] at hj
      exact (f4 j (by omega)).trans (g2.other j (by omega))

theorem rescaleResults_ok {bands : List (Option (Finset String) × List ℝ)}
    {events events' : Dict String EvRes} (hR : ∀ e ∈ events, e.2.R.WF)
    (h : rescaleResults events bands = .ok events') :
    EvRel (AlignedEv 0 bands) events events' :=
  rescaleResults_aux bands 0 events events' hR h

end Qopen.Site
