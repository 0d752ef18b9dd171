import Verif.Props.AlignFrame
import Verif.Props.SiteGauge
import Verif.Props.SiteArea
import Verif.Props.SourceTotal

/-!
# C152: magnitudes of aligned results

Aligned source energies do not depend on the solver (C08), on the references of the single inversions
(C117) and on a repetition of the alignment (C10).  The same holds for everything that is derived from
them: source spectrum, moment, magnitude, corner frequency, fall-off, sharpness and fit error.
-/

namespace Qopen

open Real Spec Site Source

namespace Spec

/-- All source energies are numbers or `None` (as written by an inversion). -/
def NoNan (ev : EvRes) : Prop := ∀ c ∈ ev.W, c ≠ .nan

/-- Entries determined from the source energies. -/
def derivedEntries : List String := ["sds", "M0", "fc", "n", "gamma", "fit_error"]

end Spec

namespace Site

variable {orc : Oracle} {rlm : List ℝ → ℝ × ℝ}
  {solve solve' : Bool → ℕ → List (List ℝ) → List ℝ → List ℝ} {results results' out out' : Results}
  {sel : StationSel} {response : Response} {us us' : Bool} {smm smm' : Option Method}
  {smo smo' : Option Opts} {ignore : Option (List String)} {K : String → ℕ → ℝ}

theorem row_ext {a b : List Cell} (ha : ∀ c ∈ a, c ≠ .nan) (hb : ∀ c ∈ b, c ≠ .nan)
    (hl : a.length = b.length) (h : ∀ i, numAt a i = numAt b i) : a = b := by
  apply List.ext_getElem hl
  intro i h1 h2
  have := h i
  unfold numAt at this
  rw [List.getElem?_eq_getElem h1, List.getElem?_eq_getElem h2] at this
  have n1 := ha _ (List.getElem_mem h1)
  have n2 := hb _ (List.getElem_mem h2)
  cases hx : a[i] <;> cases hy : b[i] <;> simp_all

theorem rescaleEvent_noNan {i : ℕ} {area : Option (Finset String)} {f : ℝ} {ev ev' : EvRes}
    (h : rescaleEvent i area f ev = .ok ev') (hn : NoNan ev) : NoNan ev' := by
  unfold rescaleEvent at h
  have key : ∀ (l : List Cell) (c : Cell), (∀ x ∈ l, x ≠ .nan) → c ≠ .nan → ∀ x ∈ l.set i c, x ≠ .nan := by
    intro l c hl hc x hx
    rcases List.mem_or_eq_of_mem_set hx with hx | rfl
    · exact hl x hx
    · exact hc
  split at h
  · simp only [Except.ok.injEq] at h
    rw [← h]; exact hn
  · obtain ⟨R, -, h⟩ := bind_ok.1 h
    split at h <;>
    · simp only [pure, Except.pure, Except.ok.injEq] at h
      subst h
      first
        | exact key _ _ (key _ _ hn (by simp)) (by simp)
        | exact key _ _ hn (by simp)

theorem rescaleResults_noNan (bands : List (Option (Finset String) × List ℝ)) (n : ℕ)
    (events events' : Dict String EvRes)
    (h : (bands.zipIdx n).foldlM (fun evs p => rescaleBand evs p.2 p.1) events = .ok events') :
    EvRel (fun _ ev ev' => NoNan ev → NoNan ev') events events' := by
  induction bands generalizing n events with
  | nil =>
    simp only [List.zipIdx_nil, List.foldlM_nil, pure, Except.pure, Except.ok.injEq] at h
    subst h
    refine ⟨rfl, ?_⟩
    intro k p p' h1 h2
    rw [h1] at h2
    simp only [Option.some.injEq] at h2
    subst h2
    exact ⟨rfl, id⟩
  | cons bf bands ih =>
    rw [List.zipIdx_cons, List.foldlM_cons] at h
    obtain ⟨evs, h1, h2⟩ := bind_ok.1 h
    have hb := rescaleBand_ok h1
    have ih := ih (n + 1) evs h2
    refine ⟨hb.1.trans ih.1, ?_⟩
    intro k p p' e1 e2
    have hk : k < evs.length := by
      rw [ih.1]; exact (List.getElem?_eq_some_iff.1 e2).1
    have e3 := List.getElem?_eq_getElem hk
    obtain ⟨f1, f2⟩ := hb.2 k p _ e1 e3
    obtain ⟨g1, g2⟩ := ih.2 k _ _ e3 e2
    exact ⟨g1.trans f1, fun hn => g2 (rescaleEvent_noNan f2 hn)⟩

theorem alignEvents_noNan {sel : StationSel}
    {response : Response} {us : Bool} {ignore : Option (List String)} {events events' : Dict String EvRes}
    (h : alignEvents solve events sel response us ignore = .ok events') :
    EvRel (fun _ ev ev' => NoNan ev → NoNan ev') events events' := by
  unfold alignEvents at h
  obtain ⟨o, h1, h⟩ := bind_ok.1 h
  cases o with
  | none => simp [throw, throwThe, MonadExceptOf.throw] at h
  | some Nf =>
    simp only at h
    split at h
    · simp [throw, throwThe, MonadExceptOf.throw, bind, Except.bind] at h
    · obtain ⟨bands, h2, h3⟩ := bind_ok.1 h
      exact rescaleResults_noNan bands 0 events events' h3

/-- The event of aligned results is the recalculation of the rescaled event. -/
def Recalculated (orc : Oracle) (results : Results) (smm : Option Method) (smo : Option Opts)
    (mid ev' : EvRes) : Prop :=
  (truthy results.config.rho0 ∧ recalcEvent orc results.freq (pyOr none results.config.v0)
      (pyOr none results.config.rho0) (smm.or results.config.smm) (smo.or results.config.smo) mid =
        .ok ev') ∨
  (¬ truthy results.config.rho0 ∧ ev' = mid)

theorem calc_recalc {orc : Oracle} {results : Results} {events events' : Dict String EvRes}
    (h : calculateSourceProperties orc results.config results.freq events none none smm smo =
      .ok events') :
    EvRel (fun _ => Recalculated orc results smm smo) events events' := by
  unfold calculateSourceProperties at h
  simp only at h
  split at h
  · next hc =>
    have hF := mapExc_ok.1 h
    refine ⟨hF.length_eq, ?_⟩
    intro k p p' h1 h2
    obtain ⟨hk, e1⟩ := List.getElem?_eq_some_iff.1 h1
    obtain ⟨hk', e2⟩ := List.getElem?_eq_some_iff.1 h2
    have := List.Forall₂.get hF hk hk'
    simp only [List.get_eq_getElem, e1, e2] at this
    obtain ⟨e, he, hq⟩ := bind_ok.1 this
    simp only [pure, Except.pure, Except.ok.injEq] at hq
    subst hq
    exact ⟨rfl, Or.inl ⟨by simpa [pyOr] using hc, he⟩⟩
  · next hc =>
    simp only [Except.ok.injEq] at h
    subst h
    refine ⟨rfl, ?_⟩
    intro k p p' h1 h2
    rw [h1] at h2
    simp only [Option.some.injEq] at h2
    subst h2
    exact ⟨rfl, Or.inr ⟨by simpa [pyOr] using hc, rfl⟩⟩

theorem align_recalc (hids : results.events.WF) (hst : ∀ e ∈ resultsOf results.events, e.2.R.WF)
    (h : align orc rlm solve results sel response us smm smo ignore = .ok out) {id : String}
    {ev' : EvRes} (g : out.events.get? id = some (some ev')) :
    ∃ ev mid, results.events.get? id = some (some ev) ∧ mid.extra = ev.extra ∧ mid.W = ev'.W ∧
      ev'.W.length = ev.W.length ∧ (NoNan ev → NoNan ev') ∧
      Recalculated orc results smm smo mid ev' := by
  have hR : RWF (sortedEvents results.events) := fun e he => hst e (mem_sortedEvents.1 he)
  unfold align at h
  obtain ⟨e1, h1, h⟩ := bind_ok.1 h
  obtain ⟨e2, h2, h⟩ := bind_ok.1 h
  obtain ⟨R, h3, h⟩ := bind_ok.1 h
  simp only [pure, Except.pure, Except.ok.injEq] at h
  subst h
  obtain ⟨Nf, bands, b1, b2, b3, b4, b5⟩ := alignEvents_ok hR h1
  have hm := mem_resultsOf.2 (Dict.mem_of_get? g)
  simp only [resultsOf_map_some] at hm
  obtain ⟨k, hk, e⟩ := List.getElem_of_mem hm
  have g2 : e2[k]? = some (id, ev') := by rw [List.getElem?_eq_getElem hk, e]
  have hc := calc_frame h2
  have hk1 : k < e1.length := by rw [hc.1]; exact hk
  have g3 := List.getElem?_eq_getElem hk1
  have hk0 : k < (sortedEvents results.events).length := by rw [b4.1]; exact hk1
  have g1 := List.getElem?_eq_getElem hk0
  obtain ⟨f1, f2⟩ := b4.2 k _ _ g1 g3
  obtain ⟨f3, f4, f5⟩ := hc.2 k _ _ g3 g2
  obtain ⟨-, f6⟩ := (alignEvents_extra h1).2 k _ _ g1 g3
  obtain ⟨-, f7⟩ := (alignEvents_noNan h1).2 k _ _ g1 g3
  obtain ⟨-, f8⟩ := (calc_recalc h2).2 k _ _ g3 g2
  simp only at f3 f4 f5 f8
  refine ⟨(sortedEvents results.events)[k].2, e1[k].2, ?_, f6, f4.symm, ?_, ?_, f8⟩
  · rw [← get_iff_sorted hids, f3, f1]
    exact List.getElem_mem hk0
  · rw [f4, f2.frame.lenW]
  · intro hn
    have := f7 hn
    unfold NoNan at this ⊢
    rw [f4]; exact this

end Site

variable {orc : Oracle} {rlm : List ℝ → ℝ × ℝ}
  {solve solve' : Bool → ℕ → List (List ℝ) → List ℝ → List ℝ} {results results' out out' : Results}
  {sel : StationSel} {response : Response} {us us' : Bool} {smm : Option Method}
  {smo : Option Opts} {ignore : Option (List String)} {K : String → ℕ → ℝ}

/-- **C152**: whatever least-squares solver is used, sparse or dense, all entries of an event (source
spectrum, moment, magnitude, ...) are the same after the alignment. -/
theorem C152_solver_independent (hp : ProperResults results.events)
    (hx : ∀ e ∈ resultsOf results.events, e.2.extra.WF ∧ NoNan e.2)
    (hs : ∀ b, IsLsqSolver (solve b)) (hs' : ∀ b, IsLsqSolver (solve' b))
    (h : align orc rlm solve results sel response us smm smo ignore = .ok out)
    (h' : align orc rlm solve' results sel response us' smm smo ignore = .ok out')
    {id : String} {ev ev' : EvRes} (g : out.events.get? id = some (some ev))
    (g' : out'.events.get? id = some (some ev')) (k : String) :
    ev'.extra.get? k = ev.extra.get? k := by
  obtain ⟨a, m, a1, a2, a3, a4, a5, a6⟩ := align_recalc hp.ids hp.stations h g
  obtain ⟨b, m', b1, b2, b3, b4, b5, b6⟩ := align_recalc hp.ids hp.stations h' g'
  rw [a1] at b1
  simp only [Option.some.injEq] at b1
  subst b1
  obtain ⟨hwf, hn⟩ := hx _ (mem_resultsOf.2 (Dict.mem_of_get? a1))
  have hW : m'.W = m.W := by
    rw [a3, b3]
    refine row_ext (b5 hn) (a5 hn) (b4.trans a4.symm) fun i => ?_
    exact ((C08_solver_independent hp hs hs' h h' g g' i).1).symm
  simp only at hwf
  rcases a6 with ⟨t, r⟩ | ⟨t, rfl⟩ <;> rcases b6 with ⟨t', r'⟩ | ⟨t', rfl⟩
  · have hwm : m.extra.WF := by rw [a2]; exact hwf
    have hwm' : m'.extra.WF := by rw [b2]; exact hwf
    have hd := recalc_determined orc results.freq _ _ _ _ m' m ev' ev hwm' hwm hW (by rw [a2, b2]) r' r
    by_cases hk : k ∈ poppedKeys
    · exact hd.1 k hk
    · by_cases hk' : k = "Mw"
      · subst hk'; exact hd.2 (by rw [a2, b2])
      · rw [recalc_other orc _ _ _ _ _ _ _ hwm r k hk hk',
          recalc_other orc _ _ _ _ _ _ _ hwm' r' k hk hk', a2, b2]
  · exact absurd t t'
  · exact absurd t' t
  · rw [a2, b2]

/-- **C152**: aligning aligned results again with the same options does not change any entry of an
event. -/
theorem C152_repeated (hp : ProperResults results.events)
    (hx : ∀ e ∈ resultsOf results.events, e.2.extra.WF ∧ NoNan e.2)
    (hs : ∀ b, IsLsqSolver (solve b)) (hs' : ∀ b, IsLsqSolver (solve' b))
    (h : align orc rlm solve results sel response us smm smo ignore = .ok out)
    (h' : align orc rlm solve' out sel response us' smm smo ignore = .ok out')
    {id : String} {ev ev' : EvRes} (g : out.events.get? id = some (some ev))
    (g' : out'.events.get? id = some (some ev')) (k : String) :
    ev'.extra.get? k = ev.extra.get? k := by
  have hp' := out_proper hp h
  obtain ⟨a, m, a1, a2, a3, a4, a5, a6⟩ := align_recalc hp.ids hp.stations h g
  obtain ⟨b, m', b1, b2, b3, b4, b5, b6⟩ := align_recalc hp'.ids hp'.stations h' g'
  rw [g] at b1
  simp only [Option.some.injEq] at b1
  subst b1
  obtain ⟨hwf, hn⟩ := hx _ (mem_resultsOf.2 (Dict.mem_of_get? a1))
  have hR : RWF (sortedEvents results.events) := proper_rwf hp
  obtain ⟨-, -, -, -, -, -, -, -, -, -, -, c1, c2⟩ := align_ok hR h
  have hW : m'.W = m.W := by
    rw [a3, b3]
    exact row_ext (b5 (a5 hn)) (a5 hn) b4 fun i => (C10_idempotent hp hs hs' h h' g g' i).1
  simp only at hwf
  unfold Recalculated at b6
  rw [c1, c2] at b6
  rcases a6 with ⟨t, r⟩ | ⟨t, e⟩ <;> rcases b6 with ⟨t', r'⟩ | ⟨t', e'⟩
  · have hwm : m.extra.WF := by rw [a2]; exact hwf
    have hwe : ev.extra.WF := recalc_WF orc _ _ _ _ _ _ _ hwm r
    have hwm' : m'.extra.WF := by rw [b2]; exact hwe
    have hv : m'.extra.get? "v0" = m.extra.get? "v0" := by
      rw [b2, recalc_other orc _ _ _ _ _ _ _ hwm r "v0" (by simp [poppedKeys]) (by simp)]
    have hd := recalc_determined orc results.freq _ _ _ _ m' m ev' ev hwm' hwm hW hv r' r
    by_cases hk : k ∈ poppedKeys
    · exact hd.1 k hk
    · by_cases hk' : k = "Mw"
      · subst hk'
        have m1 := recalc_mw orc _ _ _ _ _ _ _ hwm' r'
        have m0 := recalc_mw orc _ _ _ _ _ _ _ hwm r
        have e := hd.1 "M0" (by simp [poppedKeys])
        cases hM : ev.extra.get? "M0" with
        | none => rw [m1.2 (by rw [e, hM]), b2]
        | some v => rw [m1.1 v (by rw [e, hM]), m0.1 v hM]
      · rw [recalc_other orc _ _ _ _ _ _ _ hwm' r' k hk hk', b2]
  · exact absurd t t'
  · exact absurd t' t
  · rw [e', b2]

/-- **C152**: if the single inversions use other references (other normalisations of the site
responses, for each event and band) and the velocities of the events are the same, source spectrum,
moment, corner frequency, fall-off, sharpness and fit error after the alignment are the same; so is
the magnitude if a moment is determined. -/
theorem C152_references_of_inversions (hp : ProperResults results.events)
    (hids : results'.events.WF) (hst : ∀ e ∈ resultsOf results'.events, e.2.R.WF)
    (hK : ∀ id i, 0 < K id i) (hrel : OtherReferences K results.events results'.events)
    (hx : ∀ e ∈ resultsOf results.events, e.2.extra.WF ∧ NoNan e.2)
    (hx' : ∀ e ∈ resultsOf results'.events, e.2.extra.WF ∧ NoNan e.2)
    (hsame : ∀ id ev ev', results.events.get? id = some (some ev) →
      results'.events.get? id = some (some ev') →
        ev'.W.length = ev.W.length ∧ ev'.extra.get? "v0" = ev.extra.get? "v0")
    (hconf : results'.config = results.config) (hfreq : results'.freq = results.freq)
    (hr : truthy results.config.rho0)
    (hs : ∀ b, IsLsqSolver (solve b)) (hs' : ∀ b, IsLsqSolver (solve' b))
    (h : align orc rlm solve results sel response us smm smo ignore = .ok out)
    (h' : align orc rlm solve' results' sel response us' smm smo ignore = .ok out')
    {id : String} {ev ev' : EvRes} (g : out.events.get? id = some (some ev))
    (g' : out'.events.get? id = some (some ev')) :
    (∀ k ∈ derivedEntries, ev'.extra.get? k = ev.extra.get? k) ∧
    ((ev.extra.get? "M0").isSome → ev'.extra.get? "Mw" = ev.extra.get? "Mw") := by
  obtain ⟨a, m, a1, a2, a3, a4, a5, a6⟩ := align_recalc hp.ids hp.stations h g
  obtain ⟨b, m', b1, b2, b3, b4, b5, b6⟩ := align_recalc hids hst h' g'
  obtain ⟨hwf, hn⟩ := hx _ (mem_resultsOf.2 (Dict.mem_of_get? a1))
  obtain ⟨hwf', hn'⟩ := hx' _ (mem_resultsOf.2 (Dict.mem_of_get? b1))
  obtain ⟨s1, s2⟩ := hsame id a b a1 b1
  have hW : m'.W = m.W := by
    rw [a3, b3]
    exact row_ext (b5 hn') (a5 hn) (by rw [b4, a4, s1]) fun i =>
      (C117_references_of_inversions hp hids hst hK hrel hs hs' h h' g g' i).1
  simp only at hwf hwf'
  unfold Recalculated at b6
  rw [hconf, hfreq] at b6
  rcases a6 with ⟨-, r⟩ | ⟨t, -⟩
  · rcases b6 with ⟨-, r'⟩ | ⟨t', -⟩
    · have hwm : m.extra.WF := by rw [a2]; exact hwf
      have hwm' : m'.extra.WF := by rw [b2]; exact hwf'
      have hd := recalc_determined orc results.freq _ _ _ _ m' m ev' ev hwm' hwm hW
        (by rw [a2, b2, s2]) r' r
      refine ⟨hd.1, fun hM => ?_⟩
      obtain ⟨v, hv⟩ := Option.isSome_iff_exists.1 hM
      have e := hd.1 "M0" (by simp [poppedKeys])
      rw [(recalc_mw orc _ _ _ _ _ _ _ hwm' r').1 v (by rw [e, hv]),
        (recalc_mw orc _ _ _ _ _ _ _ hwm r).1 v hv]
    · exact absurd hr t'
  · exact absurd hr t

namespace AlignSourceExample

/-- The demonstration results with density and velocity. -/
noncomputable def conf : Config := { rho0 := some 2700, v0 := some 3000 }

theorem demo_extra : ∀ e ∈ resultsOf demo.events, e.2.extra.WF ∧ NoNan e.2 := by
  have hres : resultsOf demo.events =
      [("e2", ⟨[.num 3, .none], [("A", [.num 1, .none]), ("B", [.num 2, .none])], []⟩),
       ("e1", ⟨[.num 5, .num 7], [("B", [.num 4, .num 1]), ("C", [.num 6, .nan])], []⟩),
       ("e3", ⟨[.num 2, .num 2], [("X", [.num 9, .none])], []⟩)] := rfl
  rw [hres]
  simp [Dict.WF, Dict.keys, NoNan]

theorem ref_extra : ∀ e ∈ resultsOf demoRef.events, e.2.extra.WF ∧ NoNan e.2 := by
  have hres : resultsOf demoRef.events =
      [("e3", ⟨[.num 2, .num 2], [("X", [.num 9, .none])], []⟩),
      ("e1", ⟨[.num (5 / 10), .num 7], [("C", [.num (6 * 10), .nan]), ("B", [.num (4 * 10), .num 1])], []⟩),
      ("e2", ⟨[.num 3, .none], [("A", [.num 1, .none]), ("B", [.num 2, .none])], []⟩)] := rfl
  rw [hres]
  simp [Dict.WF, Dict.keys, NoNan]

theorem usable {m : Method} (h : (some Method.mean).or (none : Option Method) = some m) :
    ∃ o, (some ({ fc := some 10 } : Opts)).or none = some o ∧ UsableOpts [1, 2] m o := by
  simp only [Option.some_or, Option.some.injEq] at h
  subst h
  exact ⟨_, rfl, by simp, by simp [isFit], by simp [isFit], by simp [isFit], by simp [isFit]⟩

theorem succeeds {orc : Oracle} (hs : IsSearch orc) (rlm : List ℝ → ℝ × ℝ) (us : Bool)
    {results : Results} (hc : CompleteResults results.events 2)
    (hx : ∀ e ∈ resultsOf results.events, e.2.extra.WF ∧ NoNan e.2) (hf : results.freq = [1, 2])
    (hconf : results.config = conf) :
    ∃ out, align orc rlm (fun _ => someSolver) results .all (.scalar 1) us (some .mean)
      (some { fc := some 10 }) none = .ok out := by
  refine C79_succeeds_with_source_model hs hc (fun _ _ => rfl) ?_ (fun e he => (hx e he).1)
    (by rw [hf]; simp) (by rw [hf]; simp)
  intro m hm
  rw [hconf] at hm ⊢
  rw [hf]
  exact usable hm

theorem has_event {orc : Oracle} {rlm : List ℝ → ℝ × ℝ} {us : Bool} {results out : Results}
    (hp : ProperResults results.events) {id : String} {ev : EvRes}
    (he : (id, ev) ∈ resultsOf results.events)
    (h : align orc rlm (fun _ => someSolver) results .all (.scalar 1) us (some .mean)
      (some { fc := some 10 }) none = .ok out) :
    ∃ ev', out.events.get? id = some (some ev') := by
  obtain ⟨ev', hm, -⟩ := (C151_nothing_else hp.stations h).2.2.2 id ev he
  exact ⟨ev', Dict.get?_of_mem (out_proper hp h).ids (mem_resultsOf.1 hm)⟩

/-- The hypotheses are met by the demonstration results: sparse and dense path, moment from the mean
of the spectrum below the corner frequency. -/
example {orc : Oracle} (hs : IsSearch orc) (rlm : List ℝ → ℝ × ℝ) :
    ∃ out out' ev ev', align orc rlm (fun _ => someSolver) { demo with config := conf } .all
        (.scalar 1) true (some .mean) (some { fc := some 10 }) none = .ok out ∧
      align orc rlm (fun _ => someSolver) { demo with config := conf } .all
        (.scalar 1) false (some .mean) (some { fc := some 10 }) none = .ok out' ∧
      out.events.get? "e1" = some (some ev) ∧ out'.events.get? "e1" = some (some ev') ∧
      ∀ k, ev'.extra.get? k = ev.extra.get? k := by
  have hp : ProperResults ({ demo with config := conf } : Results).events := demo_proper
  obtain ⟨out, h⟩ := succeeds hs rlm true (results := { demo with config := conf }) demo_complete
    demo_extra rfl rfl
  obtain ⟨out', h'⟩ := succeeds hs rlm false (results := { demo with config := conf }) demo_complete
    demo_extra rfl rfl
  obtain ⟨ev, g⟩ := has_event hp (id := "e1") (List.mem_cons_of_mem _ (List.mem_cons_self ..)) h
  obtain ⟨ev', g'⟩ := has_event hp (id := "e1") (List.mem_cons_of_mem _ (List.mem_cons_self ..)) h'
  exact ⟨out, out', ev, ev', h, h', g, g', C152_solver_independent hp demo_extra
    (fun _ => someSolver_spec) (fun _ => someSolver_spec) h h' g g'⟩

/-- Alignment of the aligned demonstration results (without method for the moment). -/
example (orc : Oracle) (rlm : List ℝ → ℝ × ℝ) : ∃ out out' ev ev',
    align orc rlm (fun _ => someSolver) { demo with config := conf } .all (.scalar 1) true none none
      none = .ok out ∧
    align orc rlm (fun _ => someSolver) out .all (.scalar 1) true none none none = .ok out' ∧
    out.events.get? "e1" = some (some ev) ∧ out'.events.get? "e1" = some (some ev') ∧
    ∀ k, ev'.extra.get? k = ev.extra.get? k := by
  have hp : ProperResults ({ demo with config := conf } : Results).events := demo_proper
  obtain ⟨out, h⟩ := C79_alignment_succeeds (orc := orc) (rlm := rlm) (solve := fun _ => someSolver)
    (results := { demo with config := conf }) (us := true) (smo := none) (response := .scalar 1)
    demo_complete (fun _ _ => rfl) rfl (by simp [demo]) (by simp [demo])
  obtain ⟨_, _, _, _, _, _, _, _, _, _, _, hfr, hcf⟩ := align_ok (proper_rwf hp) h
  obtain ⟨out', h'⟩ := C79_alignment_succeeds (orc := orc) (rlm := rlm)
    (solve := fun _ => someSolver) (results := out) (response := .scalar 1) (us := true)
    (smo := none) (out_complete hp.ids demo_complete h) (fun _ _ => rfl)
    (by rw [hcf]; rfl) (by rw [hfr]; simp [demo]) (by rw [hfr]; simp [demo])
  obtain ⟨ev, hm, -⟩ := (C151_nothing_else hp.stations h).2.2.2 "e1" _
    (List.mem_cons_of_mem _ (List.mem_cons_self ..))
  obtain ⟨ev', hm', -⟩ := (C151_nothing_else (out_proper hp h).stations h').2.2.2 "e1" _ hm
  have g := Dict.get?_of_mem (out_proper hp h).ids (mem_resultsOf.1 hm)
  have g' := Dict.get?_of_mem (out_proper (out_proper hp h) h').ids (mem_resultsOf.1 hm')
  exact ⟨out, out', ev, ev', h, h', g, g', C152_repeated hp demo_extra
    (fun _ => someSolver_spec) (fun _ => someSolver_spec) h h' g g'⟩

/-- Event `e1` with ten times larger responses in the first band: same spectrum and moment. -/
example {orc : Oracle} (hs : IsSearch orc) (rlm : List ℝ → ℝ × ℝ) :
    ∃ out out' ev ev', align orc rlm (fun _ => someSolver) { demo with config := conf } .all
        (.scalar 1) true (some .mean) (some { fc := some 10 }) none = .ok out ∧
      align orc rlm (fun _ => someSolver) { demoRef with config := conf } .all
        (.scalar 1) true (some .mean) (some { fc := some 10 }) none = .ok out' ∧
      out.events.get? "e1" = some (some ev) ∧ out'.events.get? "e1" = some (some ev') ∧
      ∀ k ∈ derivedEntries, ev'.extra.get? k = ev.extra.get? k := by
  have hp : ProperResults ({ demo with config := conf } : Results).events := demo_proper
  have hK : ∀ id i, 0 < demoK id i := fun id i => by unfold demoK; split_ifs <;> norm_num
  have hids : ({ demoRef with config := conf } : Results).events.WF := by
    simp [demoRef, Dict.WF, Dict.keys]
  have hp' : ProperResults ({ demoRef with config := conf } : Results).events :=
    other_proper hp hids demoRef_complete.stations hK demoRef_rel
  obtain ⟨out, h⟩ := succeeds hs rlm true (results := { demo with config := conf }) demo_complete
    demo_extra rfl rfl
  obtain ⟨out', h'⟩ := succeeds hs rlm true (results := { demoRef with config := conf })
    demoRef_complete ref_extra rfl rfl
  obtain ⟨ev, g⟩ := has_event hp (id := "e1") (List.mem_cons_of_mem _ (List.mem_cons_self ..)) h
  obtain ⟨ev', g'⟩ := has_event hp' (id := "e1") (List.mem_cons_of_mem _ (List.mem_cons_self ..)) h'
  refine ⟨out, out', ev, ev', h, h', g, g', (C152_references_of_inversions hp hids
    demoRef_complete.stations hK demoRef_rel demo_extra ref_extra ?_ rfl rfl (by simp [truthy, conf])
    (fun _ => someSolver_spec) (fun _ => someSolver_spec) h h' g g').1⟩
  intro id a b ha hb
  have m := mem_resultsOf.2 (Dict.mem_of_get? ha)
  have m' := mem_resultsOf.2 (Dict.mem_of_get? hb)
  refine ⟨by rw [demoRef_complete.energies _ m', demo_complete.energies _ m], ?_⟩
  have key : a.extra = [] ∧ b.extra = [] := by
    constructor
    · simp only [resultsOf, demo, demoEvents, List.filterMap_cons, List.filterMap_nil,
        Option.map_some, Option.map_none, List.mem_cons, Prod.mk.injEq, List.not_mem_nil,
        or_false] at m
      rcases m with ⟨-, rfl⟩ | ⟨-, rfl⟩ | ⟨-, rfl⟩ <;> rfl
    · simp only [resultsOf, demoRef, List.filterMap_cons, List.filterMap_nil,
        Option.map_some, List.mem_cons, Prod.mk.injEq, List.not_mem_nil,
        or_false] at m'
      rcases m' with ⟨-, rfl⟩ | ⟨-, rfl⟩ | ⟨-, rfl⟩ <;> rfl
  rw [key.1, key.2]

end AlignSourceExample

end Qopen
