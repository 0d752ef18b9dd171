import Verif.Props.SitePin
import Verif.Props.SiteTotal
import Verif.Props.SourceRecalc
import Verif.Lemmas.SiteTotal

/-!
# C151: alignment changes nothing else

The alignment multiplies site responses and divides source energies by one factor per event and band
(C01), leaves out what is not in the largest area (C05) and determines the source parameters again.
Here: it does nothing else.  No value appears where there was none, tables keep their stations and
their shape, and everything else written in the result of an event (catalogue magnitude, velocity,
origin, attenuation, error, ...) is still there, as are the frequencies and the configuration.
-/

namespace Qopen

open Real Spec Site Source

namespace Spec

/-- The entries of an event which describe its source spectrum. -/
def sourceEntries : List String := ["sds", "M0", "fc", "n", "gamma", "fit_error", "Mw"]

/-- An event before and after: same stations and same shape of the tables, no number where there was
none, all entries other than those on the source unchanged. -/
structure OnlyRescaled (ev ev' : EvRes) : Prop where
  stations : ev'.R.map Prod.fst = ev.R.map Prod.fst
  bands : ev'.W.length = ev.W.length
  rows : ∀ s, (ev'.R.get? s).map List.length = (ev.R.get? s).map List.length
  noEnergy : ∀ i, energyOf ev i = none → energyOf ev' i = none
  noResponse : ∀ s i, respOf ev s i = none → respOf ev' s i = none
  rest : ev.extra.WF → ∀ k ∉ sourceEntries, ev'.extra.get? k = ev.extra.get? k

end Spec

namespace Site

theorem calc_rest {orc : Oracle} {conf : Config} {freq : List ℝ} {events events' : Dict String EvRes}
    {rho0 v0 : Option ℝ} {smm : Option Method} {smo : Option Opts}
    (h : calculateSourceProperties orc conf freq events rho0 v0 smm smo = .ok events') :
    EvRel (fun _ ev ev' => ev.extra.WF → ∀ k ∉ sourceEntries, ev'.extra.get? k = ev.extra.get? k)
      events events' := by
  unfold calculateSourceProperties at h
  simp only at h
  split at h
  · have hF := mapExc_ok.1 h
    refine ⟨hF.length_eq, ?_⟩
    intro k p p' h1 h2
    obtain ⟨hk, e1⟩ := List.getElem?_eq_some_iff.1 h1
    obtain ⟨hk', e2⟩ := List.getElem?_eq_some_iff.1 h2
    have := List.Forall₂.get hF hk hk'
    simp only [List.get_eq_getElem, e1, e2] at this
    obtain ⟨e, he, hq⟩ := bind_ok.1 this
    simp only [pure, Except.pure, Except.ok.injEq] at hq
    subst hq
    refine ⟨rfl, fun hwf k hk => ?_⟩
    simp only [sourceEntries, List.mem_cons, not_or] at hk
    exact recalc_other orc freq _ _ _ _ _ _ hwf he k (by simp [poppedKeys]; tauto) (by tauto)
  · simp only [Except.ok.injEq] at h
    subst h
    refine ⟨rfl, ?_⟩
    intro k p p' h1 h2
    rw [h1] at h2
    simp only [Option.some.injEq] at h2
    subst h2
    exact ⟨rfl, fun _ _ _ => rfl⟩

theorem AlignedEv.noEnergy {bands : List (Option (Finset String) × List ℝ)} {k : ℕ} {ev ev' : EvRes}
    (h : AlignedEv 0 bands k ev ev') (i : ℕ) (hi : energyOf ev i = none) : energyOf ev' i = none := by
  cases hb : bands[i]? with
  | none =>
    have := (h.other i (Or.inr (by simpa using List.getElem?_eq_none_iff.1 hb))).1
    rw [← hi]; exact this
  | some bf =>
    have := h.band i bf hb
    rw [Nat.zero_add] at this
    exact (this.noW hi).1

theorem AlignedEv.noResponse {bands : List (Option (Finset String) × List ℝ)} {k : ℕ}
    {ev ev' : EvRes} (h : AlignedEv 0 bands k ev ev') (s : String) (i : ℕ)
    (hi : respOf ev s i = none) : respOf ev' s i = none := by
  cases hb : bands[i]? with
  | none =>
    have := (h.other i (Or.inr (by simpa using List.getElem?_eq_none_iff.1 hb))).2 s
    rw [← hi]; exact this
  | some bf =>
    have := h.band i bf hb
    rw [Nat.zero_add] at this
    cases hw : energyOf ev i with
    | none => rw [(this.noW hw).2 s, hi]
    | some w =>
      rw [this.resp w hw s, hi]
      simp

theorem align_frame {orc : Oracle} {rlm : List ℝ → ℝ × ℝ}
    {solve : Bool → ℕ → List (List ℝ) → List ℝ → List ℝ} {results out : Results}
    {sel : StationSel} {response : Response} {us : Bool} {smm : Option Method} {smo : Option Opts}
    {ignore : Option (List String)} (hR : RWF (sortedEvents results.events))
    (h : align orc rlm solve results sel response us smm smo ignore = .ok out) :
    ∃ events', out.events = events'.map (fun p => (p.1, some p.2)) ∧
      EvRel (fun _ => OnlyRescaled) (sortedEvents results.events) events' := by
  unfold align at h
  obtain ⟨e1, h1, h⟩ := bind_ok.1 h
  obtain ⟨e2, h2, h⟩ := bind_ok.1 h
  obtain ⟨R, h3, h⟩ := bind_ok.1 h
  simp only [pure, Except.pure, Except.ok.injEq] at h
  subst h
  obtain ⟨Nf, bands, b1, b2, b3, b4, b5⟩ := alignEvents_ok hR h1
  have hx := alignEvents_extra h1
  have hc := calc_frame h2
  have hd := calc_rest h2
  refine ⟨e2, rfl, b4.1.trans hc.1, ?_⟩
  intro k p p' g1 g2
  have hk : k < e1.length := by rw [hc.1]; exact (List.getElem?_eq_some_iff.1 g2).1
  have g3 := List.getElem?_eq_getElem hk
  obtain ⟨f1, f2⟩ := b4.2 k p _ g1 g3
  obtain ⟨f3, f4, f5⟩ := hc.2 k _ p' g3 g2
  obtain ⟨-, f6⟩ := hx.2 k p _ g1 g3
  obtain ⟨-, f7⟩ := hd.2 k _ p' g3 g2
  have f8 := f2.congr f4 f5
  refine ⟨f3.trans f1, f8.frame.keys, f8.frame.lenW, f8.frame.lenR, f8.noEnergy, f8.noResponse, ?_⟩
  intro hwf k hk
  rw [f6] at f7
  exact f7 hwf k hk

end Site

variable {orc : Oracle} {rlm : List ℝ → ℝ × ℝ}
  {solve : Bool → ℕ → List (List ℝ) → List ℝ → List ℝ} {results out : Results}
  {sel : StationSel} {response : Response} {us : Bool} {smm : Option Method} {smo : Option Opts}
  {ignore : Option (List String)}

/-- **C151**: alignment changes nothing else: frequencies and configuration are the given ones, and
every event is the event with the same id of the given results, only rescaled. -/
theorem C151_nothing_else (hst : ∀ e ∈ resultsOf results.events, e.2.R.WF)
    (h : align orc rlm solve results sel response us smm smo ignore = .ok out) :
    out.freq = results.freq ∧ out.config = results.config ∧
    (∀ id ev', (id, ev') ∈ resultsOf out.events →
      ∃ ev, (id, ev) ∈ resultsOf results.events ∧ OnlyRescaled ev ev') ∧
    (∀ id ev, (id, ev) ∈ resultsOf results.events →
      ∃ ev', (id, ev') ∈ resultsOf out.events ∧ OnlyRescaled ev ev') := by
  have hR : RWF (sortedEvents results.events) := fun e he => hst e (mem_sortedEvents.1 he)
  obtain ⟨-, -, -, -, -, -, -, -, -, -, -, c1, c2⟩ := align_ok hR h
  obtain ⟨events', hout, hrel⟩ := align_frame hR h
  refine ⟨c1, c2, ?_, ?_⟩
  · intro id ev' hm
    rw [hout, resultsOf_map_some] at hm
    obtain ⟨k, hk, e⟩ := List.getElem_of_mem hm
    have hk' : k < (sortedEvents results.events).length := by rw [hrel.1]; exact hk
    obtain ⟨f1, f2⟩ := hrel.2 k _ _ (List.getElem?_eq_getElem hk') (List.getElem?_eq_getElem hk)
    rw [e] at f1 f2
    refine ⟨(sortedEvents results.events)[k].2, mem_sortedEvents.1 ?_, f2⟩
    simp only at f1
    rw [f1]
    exact List.getElem_mem hk'
  · intro id ev hm
    rw [← mem_sortedEvents] at hm
    obtain ⟨k, hk, e⟩ := List.getElem_of_mem hm
    have hk' : k < events'.length := by rw [← hrel.1]; exact hk
    obtain ⟨f1, f2⟩ := hrel.2 k _ _ (List.getElem?_eq_getElem hk) (List.getElem?_eq_getElem hk')
    rw [e] at f1 f2
    refine ⟨events'[k].2, ?_, f2⟩
    rw [hout, resultsOf_map_some]
    simp only at f1
    rw [← f1]
    exact List.getElem_mem hk'

namespace AlignFrameExample

/-- Two events and two bands; the second event has nothing in the first band.  The first event has a
catalogue magnitude and a velocity. -/
def given : Results :=
  { events := [("e2", some ⟨[.none, .num 3], [("A", [.none, .num 2]), ("B", [.none, .num 5])], []⟩),
      ("e1", some ⟨[.num 1, .num 2], [("A", [.num 4, .num 1]), ("B", [.num 1, .none])],
        [("Mcat", .cell (.num 2)), ("v0", .cell (.num 3500))]⟩),
      ("e3", none)]
    freq := [1, 2], R := none, config := { rho0 := some 2700 } }

theorem given_results : resultsOf given.events =
    [("e2", ⟨[.none, .num 3], [("A", [.none, .num 2]), ("B", [.none, .num 5])], []⟩),
      ("e1", ⟨[.num 1, .num 2], [("A", [.num 4, .num 1]), ("B", [.num 1, .none])],
        [("Mcat", .cell (.num 2)), ("v0", .cell (.num 3500))]⟩)] := rfl

theorem given_complete : CompleteResults given.events 2 := by
  refine ⟨by rw [given_results]; simp, ?_, ?_, ?_⟩ <;>
  · rw [given_results]
    simp [Dict.WF, Dict.keys]
    try aesop

/-- These results meet the hypotheses.  The catalogue magnitude and the velocity of the event are
still there after the alignment, and the second event has got no source energy in the first band. -/
example (orc : Oracle) (rlm : List ℝ → ℝ × ℝ)
    (solve : Bool → ℕ → List (List ℝ) → List ℝ → List ℝ) (us : Bool) :
    ∃ out, align orc rlm solve given .all (.scalar 1) us none none none = .ok out ∧
      (∃ ev, ("e1", ev) ∈ resultsOf out.events ∧
        ev.extra.get? "Mcat" = some (.cell (.num 2)) ∧
        ev.extra.get? "v0" = some (.cell (.num 3500)) ∧ respOf ev "B" 1 = none) ∧
      ∃ ev, ("e2", ev) ∈ resultsOf out.events ∧ energyOf ev 0 = none := by
  obtain ⟨out, h⟩ := C79_alignment_succeeds (orc := orc) (rlm := rlm) (solve := solve) (us := us)
    (smo := none) (response := .scalar 1) given_complete (fun _ _ => rfl) rfl (by simp [given])
    (by simp [given])
  obtain ⟨-, -, -, h4⟩ := C151_nothing_else given_complete.stations h
  refine ⟨out, h, ?_, ?_⟩
  · obtain ⟨ev, hm, ho⟩ := h4 "e1" _ (by rw [given_results]; simp; rfl)
    have hwf : Dict.WF ([("Mcat", .cell (.num 2)), ("v0", .cell (.num 3500))] : Dict String Val) := by
      simp [Dict.WF, Dict.keys]
    refine ⟨ev, hm, ?_, ?_, ho.noResponse "B" 1 rfl⟩
    · rw [ho.rest hwf "Mcat" (by decide)]; rfl
    · rw [ho.rest hwf "v0" (by decide)]; rfl
  · obtain ⟨ev, hm, ho⟩ := h4 "e2" _ (by rw [given_results]; simp; rfl)
    exact ⟨ev, hm, ho.noEnergy 0 rfl⟩

end AlignFrameExample

/-- **C151**: without a density in the configuration the entries on the source are left alone, too.
They still describe the source energies before the alignment. -/
theorem C151_without_density (hr : ¬ truthy results.config.rho0)
    (h : align orc rlm solve results sel response us smm smo ignore = .ok out) :
    ∀ id ev', (id, ev') ∈ resultsOf out.events →
      ∃ ev, (id, ev) ∈ resultsOf results.events ∧ ev'.extra = ev.extra := by
  unfold align at h
  obtain ⟨e1, h1, h⟩ := bind_ok.1 h
  obtain ⟨e2, h2, h⟩ := bind_ok.1 h
  obtain ⟨R, h3, h⟩ := bind_ok.1 h
  simp only [pure, Except.pure, Except.ok.injEq] at h
  subst h
  have hx := alignEvents_extra h1
  have h2' : e2 = e1 := by
    unfold calculateSourceProperties at h2
    simp only at h2
    split at h2
    · next hc => exact absurd (by simpa [pyOr] using hc) hr
    · simpa using h2.symm
  subst h2'
  intro id ev' hm
  simp only [resultsOf_map_some] at hm
  obtain ⟨k, hk, e⟩ := List.getElem_of_mem hm
  have hk' : k < (sortedEvents results.events).length := by rw [hx.1]; exact hk
  obtain ⟨f1, f2⟩ := hx.2 k _ _ (List.getElem?_eq_getElem hk') (List.getElem?_eq_getElem hk)
  rw [e] at f1 f2
  refine ⟨(sortedEvents results.events)[k].2, mem_sortedEvents.1 ?_, f2⟩
  simp only at f1
  rw [f1]
  exact List.getElem_mem hk'

/-- Without a density: a magnitude determined before the alignment is kept. -/
example (orc : Oracle) (rlm : List ℝ → ℝ × ℝ)
    (solve : Bool → ℕ → List (List ℝ) → List ℝ → List ℝ) (us : Bool) :
    ∃ out, align orc rlm solve { AlignFrameExample.given with config := {} } .all (.scalar 1) us none
        none none = .ok out ∧
      ∀ id ev', (id, ev') ∈ resultsOf out.events →
        ∃ ev, (id, ev) ∈ resultsOf AlignFrameExample.given.events ∧ ev'.extra = ev.extra := by
  obtain ⟨out, h⟩ := C79_alignment_succeeds (orc := orc) (rlm := rlm) (solve := solve) (us := us)
    (results := { AlignFrameExample.given with config := {} })
    (smo := none) (response := .scalar 1) AlignFrameExample.given_complete (fun _ _ => rfl) rfl
    (by simp [AlignFrameExample.given]) (by simp [AlignFrameExample.given])
  exact ⟨out, h, C151_without_density
    (results := { AlignFrameExample.given with config := {} }) (by simp [truthy]) h⟩

end Qopen
