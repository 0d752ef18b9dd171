import Verif.Model.AlignRun
import Verif.Props.ProperInversion
import Verif.Props.SourceTotal

/-!
# Which results of a run can be aligned (C154)

The alignment reads source energies and site responses of the single events.  The result of a separate
inversion with free site responses has them and the alignment succeeds.  The results of a simultaneous
inversion, of the command `source` and of an inversion with coda normalisation do not: the alignment
raises an exception, and the run ends without output.
-/

namespace Qopen

open Real Spec Util Tr Energy InvertFb Window Catalog Freqs Source Invert Wrapper Site Collect AlignRun

section

variable {env : Env} {cfg : InvCfg} {cpus : ℕ} {schedule : List Event → List ℕ} {events : List Event}
  {bands : Dict ℝ (ℝ × ℝ)} {w : WrapRes} {rlm : List ℝ → ℝ × ℝ} {mean : Mean}
  {orc : Oracle} {solve : Bool → ℕ → List (List ℝ) → List ℝ → List ℝ}
  {sel : StationSel} {response : Response} {us : Bool} {smm : Option Method}
  {smo : Option Opts} {ignore : Option (List String)} {config : Config}

theorem mapExc_all_error {α β : Type} {f : α → Py β} {l : List α} {e : PyErr} (hne : l ≠ [])
    (h : ∀ a ∈ l, f a = .error e) : mapExc f l = .error e := by
  cases l with
  | nil => exact absurd rfl hne
  | cons a l =>
    rw [mapExc, h a List.mem_cons_self]
    rfl

theorem alignRun_keyError (hne : w.events ≠ []) (h : ∀ p ∈ w.events, readEvent p.2 = .error .keyError) :
    alignRun orc rlm solve config (some w) sel response us smm smo ignore = .error .keyError := by
  unfold alignRun
  simp only
  rw [mapExc_all_error (e := .keyError) hne]
  · rfl
  · intro p hp
    rw [h p hp]
    rfl

theorem readEvent_noSites {d : Dict String RVal} {W : List Cell} (hW : d.get? "W" = some (.row W))
    (hR : d.get? "R" = none) : readEvent d = .error .keyError := by
  unfold readEvent
  rw [hW, hR]

theorem readEvent_noEnergies {d : Dict String RVal} (hW : d.get? "W" = none) :
    readEvent d = .error .keyError := by
  unfold readEvent
  rw [hW]

theorem otherItems_WF {d : Dict String RVal} (h : d.WF) : (otherItems d).WF := by
  unfold Dict.WF at h ⊢
  refine h.sublist ?_
  unfold otherItems Dict.keys
  rw [List.map_filterMap]
  clear h
  induction d with
  | nil => simp
  | cons p d ih =>
    rw [List.filterMap_cons, List.map_cons]
    cases hp : (Option.map Prod.fst (if p.1 = "W" ∨ p.1 = "R" then none else
        (toVal p.2).map (fun v => (p.1, v)))) with
    | none => simpa [hp] using ih.cons p.1
    | some k =>
      have hk : k = p.1 := by
        split_ifs at hp
        · simp at hp
        · cases hv : toVal p.2 with
          | none => rw [hv] at hp; simp at hp
          | some v => rw [hv] at hp; simpa using hp.symm
      subst hk
      simpa [hp] using ih.cons_cons p.1

/-- **C154**: nothing to align. -/
theorem C154_no_result :
    alignRun orc rlm solve config none sel response us smm smo ignore = .error .typeError := rfl

/-- **C154**: the results of a simultaneous inversion can not be aligned; the events have source energies
but the site responses are common to all events. -/
theorem C154_simultaneous (hid : (events.map getEventid).Nodup) (hb : getFreqs cfg.freqs = .ok bands)
    (hs : ∀ evs, Schedule cfg (bands.map Prod.snd) cpus (schedule evs)) {codaNorm : Bool}
    (h : invertWrapper rlm (fun evs => invert env cfg cpus (schedule evs) evs) codaNorm true mean
      events = .ok (some w)) :
    alignRun orc rlm solve config (some w) sel response us smm smo ignore =
      .error (if cfg.codaNorm = none then .keyError else .typeError) := by
  obtain ⟨order, ho, h⟩ := bind_ok.1 h
  obtain ⟨hord, hone⟩ := orderEvents_ok ho
  rw [if_pos rfl] at h
  unfold simultaneously at h
  obtain ⟨r, hr, h⟩ := bind_ok.1 h
  cases r with
  | none => simp at h
  | some r =>
    simp only [pure, Except.pure, Except.ok.injEq, Option.some.injEq] at h
    subst h
    have hn : (order.map getEventid).Nodup := by
      refine ((hord.perm.map getEventid).nodup_iff).2 ?_
      exact hid.sublist ((List.filter_sublist).map _)
    obtain ⟨stations, rlist, -, T0, -⟩ := tables_streams hn hb (hs _) hr
    by_cases hc : cfg.codaNorm = none
    · rw [if_pos hc]
      obtain ⟨hek, -⟩ := T0.events hc
      apply alignRun_keyError
      · intro h0
        have h1 : r.events.keys = [] := by
          have := congrArg Dict.keys h0
          rw [Dict.keys_mapVals] at this
          exact this
        rw [hek] at h1
        exact hone (List.map_eq_nil_iff.1 h1)
      · intro p hp
        obtain ⟨q, hq, rfl⟩ := List.mem_map.1 hp
        obtain ⟨-, hxk⟩ := good_invert hr q hq
        refine readEvent_noSites (W := q.2.W) rfl ?_
        show (eventItems q.2).get? "R" = none
        unfold eventItems
        rw [Dict.get?_cons, if_neg (by decide), Dict.get?_mapVals,
          (Dict.get?_eq_none _ _).2 (fun hm => absurd (hxk _ hm) (by decide))]
        rfl
    · rw [if_neg hc]
      have h0 := T0.no_events hc
      unfold alignRun
      simp only [h0]
      exact C79_no_events rfl

/-- **C154**: the results of the command `source` and of an inversion with coda normalisation can not be
aligned; there are no site responses or no source energies. -/
theorem C154_no_sites_or_energies (hid : (events.map getEventid).Nodup) (hb : getFreqs cfg.freqs = .ok bands)
    (hs : ∀ evs, Schedule cfg (bands.map Prod.snd) cpus (schedule evs))
    (hno : cfg.cmd = .source ∨ cfg.codaNorm ≠ none)
    (h : invertWrapper rlm (fun evs => invert env cfg cpus (schedule evs) evs) cfg.codaNorm.isSome false mean
      events = .ok (some w)) :
    alignRun orc rlm solve config (some w) sel response us smm smo ignore = .error .keyError := by
  obtain ⟨-, hne⟩ := wrapper_freq hid hb hs h
  refine alignRun_keyError hne ?_
  rintro ⟨id, d⟩ hp
  obtain ⟨ev, hev, rfl, r, e1, e2⟩ := wrapper_entry hid h hp
  obtain ⟨stations, rlist, -, T0, -⟩ := tables_streams (events := [ev]) (by simp) hb (hs _) e1
  by_cases hc : cfg.codaNorm = none
  · obtain ⟨hek, -⟩ := T0.events hc
    have hm : getEventid ev ∈ r.events.keys := by rw [hek]; simp
    obtain ⟨d', f1, -, -, f2⟩ := C40_results_have_known_keys e1 (Or.inl hm)
    rw [e2] at f1
    obtain rfl := Except.ok.inj f1
    rw [← Dict.get?_isSome] at hm
    obtain ⟨x, hx⟩ := Option.isSome_iff_exists.1 hm
    refine readEvent_noSites (W := x.W) ?_ ?_
    · simp only [f2.W, hx, Option.map_some]
    · simp only [f2.R, T0.no_sites hno, Option.map_none]
  · obtain ⟨d', f1, -, -, f2⟩ := C40_results_have_known_keys e1 (id := getEventid ev)
      (Or.inr (by cases hn : cfg.codaNorm with
        | none => exact absurd hn hc
        | some _ => rfl))
    rw [e2] at f1
    obtain rfl := Except.ok.inj f1
    refine readEvent_noEnergies ?_
    simp only [f2.W, T0.no_events hc]
    rfl

/-- The entries of separate inversions can be read. -/
theorem read_separate (hid : (events.map getEventid).Nodup) (hb : getFreqs cfg.freqs = .ok bands)
    (hs : ∀ evs, Schedule cfg (bands.map Prod.snd) cpus (schedule evs))
    (hc : cfg.codaNorm = none) (hcmd : cfg.cmd ≠ .source)
    (h : invertWrapper rlm (fun evs => invert env cfg cpus (schedule evs) evs) false false mean
      events = .ok (some w)) (config : Config) :
    ∃ results, results.config = config ∧ ReadAs w results ∧
      (∀ e ∈ resultsOf results.events, e.2.extra.WF) ∧
      ∀ orc solve sel response us smm smo ignore,
        alignRun orc rlm solve config (some w) sel response us smm smo ignore =
          align orc rlm solve results sel response us smm smo ignore := by
  have hwf := wrapper_ids hid h
  have key : ∀ p ∈ w.events, ∃ W R, p.2.get? "W" = some (.row W) ∧ p.2.get? "R" = some (.sites R) ∧ p.2.WF := by
    rintro ⟨id, d⟩ hp
    obtain ⟨ev, hev, rfl, r, e1, e2⟩ := wrapper_entry hid h hp
    obtain ⟨stations, rlist, -, T0, -⟩ := tables_streams (events := [ev]) (by simp) hb (hs _) e1
    obtain ⟨T, hT, -⟩ := T0.sites hcmd hc
    obtain ⟨hek, -⟩ := T0.events hc
    have hm : getEventid ev ∈ r.events.keys := by rw [hek]; simp
    obtain ⟨d', f1, f0, -, f2⟩ := C40_results_have_known_keys e1 (Or.inl hm)
    rw [hc] at f1
    simp only [Option.isSome_none] at f1
    rw [e2] at f1
    obtain rfl := Except.ok.inj f1
    rw [← Dict.get?_isSome] at hm
    obtain ⟨x, hx⟩ := Option.isSome_iff_exists.1 hm
    exact ⟨x.W, T, by simp only [f2.W, hx, Option.map_some], by simp only [f2.R, hT, Option.map_some], f0⟩
  have hread : ∀ p ∈ w.events, ∃ q, (do let e ← readEvent p.2; return (p.1, some e) : Py (String × Option EvRes)) =
      .ok q := by
    intro p hp
    obtain ⟨W, R, k1, k2, -⟩ := key p hp
    unfold readEvent
    rw [k1, k2]
    exact ⟨_, rfl⟩
  obtain ⟨evs, hevs⟩ := Site.mapExc_total hread
  have hF := mapExc_ok.1 hevs
  have hF' : List.Forall₂ (fun p q => q.1 = p.1 ∧ ∃ W R, p.2.get? "W" = some (.row W) ∧
      p.2.get? "R" = some (.sites R) ∧ p.2.WF ∧ q.2 = some ⟨W, R, otherItems p.2⟩) w.events evs := by
    rw [List.forall₂_iff_get] at hF ⊢
    refine ⟨hF.1, fun i h1 h2 => ?_⟩
    have hq := hF.2 i h1 h2
    obtain ⟨W, R, k1, k2, k3⟩ := key _ (List.get_mem w.events ⟨i, h1⟩)
    unfold readEvent at hq
    rw [k1, k2] at hq
    simp only [bind, Except.bind, pure, Except.pure, Except.ok.injEq] at hq
    rw [← hq]
    exact ⟨rfl, W, R, k1, k2, k3, rfl⟩
  have hkeys : Dict.keys evs = w.events.keys := by
    unfold Dict.keys
    have := (hF'.imp (fun p q hpq => hpq.1)).flip
    rw [← List.forall₂_eq_eq_eq, List.forall₂_map_left_iff, List.forall₂_map_right_iff]
    exact this
  refine ⟨⟨evs, w.freq, w.R, config⟩, rfl, ⟨rfl, hkeys, ?_⟩, ?_, ?_⟩
  · intro id d hd
    obtain ⟨j, hj, e⟩ := List.getElem_of_mem hd
    obtain ⟨hlen, hget⟩ := List.forall₂_iff_get.1 hF'
    have hj' : j < evs.length := hlen ▸ hj
    obtain ⟨g1, W, R, g2, g3, -, g4⟩ := hget j hj hj'
    simp only [List.get_eq_getElem, e] at g1 g2 g3 g4
    refine ⟨⟨W, R, otherItems d⟩, ?_, g2, g3⟩
    refine Dict.get?_of_mem (by unfold Dict.WF; rw [hkeys]; exact hwf) ?_
    rw [← g4, ← g1]
    exact List.getElem_mem hj'
  · rintro ⟨id, ev⟩ he
    have hm := mem_resultsOf.1 he
    obtain ⟨j, hj, e⟩ := List.getElem_of_mem hm
    obtain ⟨hlen, hget⟩ := List.forall₂_iff_get.1 hF'
    have hj' : j < w.events.length := hlen ▸ hj
    obtain ⟨g1, W, R, g2, g3, g5, g4⟩ := hget j hj' hj
    simp only [List.get_eq_getElem] at g4 g5
    simp only at e
    rw [e] at g4
    obtain rfl := Option.some.inj g4
    exact otherItems_WF g5
  · intro orc solve sel response us smm smo ignore
    unfold alignRun
    simp only [hevs]
    rfl

/-- **C154**: the results of a separate inversion with free site responses can be aligned, with all
stations as reference and with or without a model for the sources. -/
theorem C154_separate (hset : IsSetOrder env.setOrder) (hid : (events.map getEventid).Nodup)
    (hb : getFreqs cfg.freqs = .ok bands) (hf0 : ∀ f ∈ bands.map Prod.fst, f ≠ 0)
    (hs : ∀ evs, Schedule cfg (bands.map Prod.snd) cpus (schedule evs))
    (hc : cfg.codaNorm = none) (hcmd : cfg.cmd ≠ .source) (h0 : 0 < cfg.inv.R0)
    (h : invertWrapper rlm (fun evs => invert env cfg cpus (schedule evs) evs) false false mean
      events = .ok (some w)) (hsearch : IsSearch orc)
    (hresp : ∀ i < bands.length, (requested response i).isSome)
    (hu : ∀ m, smm.or config.smm = some m →
      ∃ o, smo.or config.smo = some o ∧ UsableOpts (bands.map Prod.fst) m o) :
    ∃ out, alignRun orc rlm solve config (some w) .all response us smm smo none = .ok out := by
  obtain ⟨results, hconf, hread, hwf, heq⟩ := read_separate hid hb hs hc hcmd h config
  obtain ⟨-, k2, k3, -⟩ := C153_requirements hset hid hb hs hc hcmd h0 h hread
  rw [heq]
  refine C79_succeeds_with_source_model hsearch k2 hresp ?_ hwf ?_ ?_
  · rw [hconf, k3]; exact hu
  · rw [k3, List.length_map]
  · rw [k3]; exact hf0

/-- **C154**: the alignment in a run succeeds for results of separate inversions with free site responses
and without coda normalisation only. -/
theorem C154_which_runs (hset : IsSetOrder env.setOrder) (hid : (events.map getEventid).Nodup)
    (hb : getFreqs cfg.freqs = .ok bands) (hf0 : ∀ f ∈ bands.map Prod.fst, f ≠ 0)
    (hs : ∀ evs, Schedule cfg (bands.map Prod.snd) cpus (schedule evs)) (h0 : 0 < cfg.inv.R0)
    {simultaneous : Bool} {o : Option WrapRes}
    (h : invertWrapper rlm (fun evs => invert env cfg cpus (schedule evs) evs) cfg.codaNorm.isSome simultaneous
      mean events = .ok o) (hsearch : IsSearch orc)
    (hresp : ∀ i < bands.length, (requested response i).isSome)
    (hu : ∀ m, smm.or config.smm = some m →
      ∃ o, smo.or config.smo = some o ∧ UsableOpts (bands.map Prod.fst) m o) :
    (∃ out, alignRun orc rlm solve config o .all response us smm smo none = .ok out) ↔
      o.isSome ∧ simultaneous = false ∧ cfg.cmd ≠ .source ∧ cfg.codaNorm = none := by
  cases o with
  | none => simp [C154_no_result]
  | some w =>
    cases simultaneous with
    | true =>
      rw [C154_simultaneous hid hb hs h]
      simp
    | false =>
      by_cases hno : cfg.cmd = .source ∨ cfg.codaNorm ≠ none
      · rw [C154_no_sites_or_energies hid hb hs hno h]
        simp only [reduceCtorEq, exists_false, Option.isSome_some, true_and, false_iff]
        rintro ⟨h1, h2⟩
        rcases hno with hno | hno
        · exact h1 hno
        · exact hno h2
      · push Not at hno
        rw [hno.2] at h
        have := C154_separate (orc := orc) (solve := solve) (us := us) hset hid hb hf0 hs hno.2 hno.1 h0 h hsearch
          hresp hu
        simp [this, hno.1, hno.2]

end

end Qopen
