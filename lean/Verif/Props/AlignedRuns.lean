import Verif.Props.ProperInversion
import Verif.Props.Reproducible

/-!
# Aligned results of repeated runs (C149, C150, C153)

Stations without usable data and the order of sets and channels have no influence on the site responses
and source energies after the alignment of separate inversions.
-/

namespace Qopen

open Real Spec Util Tr Energy InvertFb Window Catalog Freqs Source Invert Wrapper Site Collect

section

variable {env : Env} {cfg : InvCfg} {cpus : ℕ} {schedule : List Event → List ℕ} {events : List Event}
  {bands : Dict ℝ (ℝ × ℝ)} {w w' : WrapRes} {rlm : List ℝ → ℝ × ℝ} {mean : Mean}
  {drop : List String} {order : List String → List String} {chs : List String}
  {orc : Oracle} {solve solve' : Bool → ℕ → List (List ℝ) → List ℝ → List ℝ} {results results' out out' : Results}
  {sel : StationSel} {response : Response} {us us' : Bool} {smm smm' : Option Method}
  {smo smo' : Option Opts} {ignore : Option (List String)}

/-- The same responses in all bands. -/
def SameResponses (T T' : Dict String (List Cell)) : Prop :=
  ∀ sta i, (T'.get? sta).bind (fun l => numAt l i) = (T.get? sta).bind (fun l => numAt l i)

theorem sameResponses_of_sites {T T' : Dict String (List Cell)} (h : SameSites T T') : SameResponses T T' := by
  intro sta i
  obtain ⟨h1, h2⟩ := h sta
  cases hT' : T'.get? sta with
  | some row => rw [h1 row hT']
  | none =>
    cases hT : T.get? sta with
    | none => rfl
    | some row =>
      have := h2 hT' row hT
      simp only [Option.bind_none, Option.bind_some, numAt]
      cases hc : row[i]? with
      | none => rfl
      | some c => rw [this c (List.mem_of_getElem? hc)]

theorem otherReferences_of_same (hw : w.events.WF) (hr : ReadAs w results) (hr' : ReadAs w' results')
    (h : List.Forall₂ (fun x y => x.1 = y.1 ∧ y.2.get? "W" = x.2.get? "W" ∧
      ∀ T T', x.2.get? "R" = some (.sites T) → y.2.get? "R" = some (.sites T') → SameResponses T T')
      w.events w'.events) :
    results.events.WF ∧ results'.events.WF ∧
      OtherReferences (fun _ _ => 1) results.events results'.events := by
  have hkeys : w.events.keys = w'.events.keys := by
    unfold Dict.keys
    have := h.imp (fun x y hxy => hxy.1)
    rw [← List.forall₂_eq_eq_eq, List.forall₂_map_left_iff, List.forall₂_map_right_iff]
    exact this
  have hwf : results.events.WF := by unfold Dict.WF; rw [hr.ids]; exact hw
  have hwf' : results'.events.WF := by unfold Dict.WF; rw [hr'.ids, ← hkeys]; exact hw
  have hboth : ∀ id, id ∈ w.events.keys → ∃ d d' ev ev', (id, d) ∈ w.events ∧ (id, d') ∈ w'.events ∧
      d'.get? "W" = d.get? "W" ∧
      (∀ T T', d.get? "R" = some (.sites T) → d'.get? "R" = some (.sites T') → SameResponses T T') ∧
      results.events.get? id = some (some ev) ∧ d.get? "W" = some (.row ev.W) ∧
      d.get? "R" = some (.sites ev.R) ∧ results'.events.get? id = some (some ev') ∧
      d'.get? "W" = some (.row ev'.W) ∧ d'.get? "R" = some (.sites ev'.R) := by
    intro id hid
    obtain ⟨⟨id', d⟩, hd, rfl⟩ := List.mem_map.1 hid
    obtain ⟨j, hj, e⟩ := List.getElem_of_mem hd
    obtain ⟨hlen, hget⟩ := List.forall₂_iff_get.1 h
    have hj' : j < w'.events.length := hlen ▸ hj
    obtain ⟨g1, g2, g3⟩ := hget j hj hj'
    simp only [List.get_eq_getElem, e] at g1 g2 g3
    have hd' : (id', w'.events[j].2) ∈ w'.events := by
      rw [g1]
      exact List.getElem_mem hj'
    obtain ⟨ev, k1, k2, k3⟩ := hr.entries _ _ hd
    obtain ⟨ev', l1, l2, l3⟩ := hr'.entries _ _ hd'
    exact ⟨d, _, ev, ev', hd, hd', g2, g3, k1, k2, k3, l1, l2, l3⟩
  have hin : ∀ {d : Dict String (Option EvRes)} {id : String} {o : Option EvRes}, d.get? id = some o → id ∈ d.keys :=
    fun hg => List.mem_map.2 ⟨_, Dict.mem_of_get? hg, rfl⟩
  refine ⟨hwf, hwf', ⟨?_, ?_⟩⟩
  · intro id
    constructor
    · rintro ⟨ev, hev⟩
      have := hin hev
      rw [hr.ids] at this
      obtain ⟨d, d', ev, ev', -, -, -, -, -, -, -, h1, -⟩ := hboth id this
      exact ⟨ev', h1⟩
    · rintro ⟨ev, hev⟩
      have := hin hev
      rw [hr'.ids, ← hkeys] at this
      obtain ⟨d, d', ev, ev', -, -, -, -, h1, -⟩ := hboth id this
      exact ⟨ev, h1⟩
  · intro id ev ev' hev hev'
    have := hin hev
    rw [hr.ids] at this
    obtain ⟨d, d', a, a', -, -, hW, hR, k1, k2, k3, l1, l2, l3⟩ := hboth id this
    rw [hev] at k1
    rw [hev'] at l1
    obtain rfl := Option.some.inj (Option.some.inj k1)
    obtain rfl := Option.some.inj (Option.some.inj l1)
    have hs := hR _ _ k3 l3
    have hW' : ev'.W = ev.W := by
      rw [l2, k2] at hW
      simpa using hW
    refine ⟨?_, ?_⟩
    · intro s i
      unfold respOf
      rw [hs s i]
      simp
    · intro i
      unfold Spec.energyOf
      rw [hW']
      simp

theorem aligned_same (hp : ProperResults results.events) (hc' : results'.events.WF)
    (hst : ∀ e ∈ resultsOf results'.events, e.2.R.WF)
    (hrel : OtherReferences (fun _ _ => 1) results.events results'.events)
    (hsol : ∀ b, IsLsqSolver (solve b)) (hsol' : ∀ b, IsLsqSolver (solve' b))
    (h : align orc rlm solve results sel response us smm smo ignore = .ok out)
    (h' : align orc rlm solve' results' sel response us' smm' smo' ignore = .ok out')
    {id : String} {ev ev' : EvRes} (g : out.events.get? id = some (some ev))
    (g' : out'.events.get? id = some (some ev')) (i : ℕ) :
    energyOf ev' i = energyOf ev i ∧ ∀ s, respOf ev' s i = respOf ev s i :=
  C117_references_of_inversions hp hc' hst (fun _ _ => one_pos) hrel hsol hsol' h h' g g' i

/-- **C149**: stations without usable data have no influence on source energies and site responses after
the alignment of separate inversions. -/
theorem C149_aligned (hset : IsSetOrder env.setOrder) (hid : (events.map getEventid).Nodup)
    (hr : ∀ ev ∈ events, OnsetsReadable cfg [ev])
    (hw : ∀ evid pat t1 t2, ∃ d, env.getWaveforms evid pat t1 t2 = .ok d)
    (hown : ∀ ev ∈ events, OwnRecords env cfg [ev]) (hties : ∀ ev ∈ events, NoTies env cfg [ev])
    (hu : ∀ ev ∈ events, Useless env cfg [ev] drop)
    -- station codes without network code are not mistaken for dropped stations
    (hcodes : cfg.ignoreNetworkCode = true → ∀ ch ∈ env.channels, dropNetwork (getStation ch) ∉ drop)
    (hb : getFreqs cfg.freqs = .ok bands)
    (hs : ∀ evs, Schedule cfg (bands.map Prod.snd) cpus (schedule evs))
    (hc : cfg.codaNorm = none) (hcmd : cfg.cmd ≠ .source) (h0 : 0 < cfg.inv.R0)
    (hinv : invertWrapper rlm (fun evs => invert env cfg cpus (schedule evs) evs) false false mean
      events = .ok (some w))
    (hinv' : invertWrapper rlm (fun evs => invert (Without env drop) cfg cpus (schedule evs) evs) false false
      mean events = .ok (some w'))
    (hread : ReadAs w results) (hread' : ReadAs w' results')
    (hsol : ∀ b, IsLsqSolver (solve b)) (hsol' : ∀ b, IsLsqSolver (solve' b))
    (h : align orc rlm solve results sel response us smm smo ignore = .ok out)
    (h' : align orc rlm solve' results' sel response us' smm' smo' ignore = .ok out')
    {id : String} {ev ev' : EvRes} (g : out.events.get? id = some (some ev))
    (g' : out'.events.get? id = some (some ev')) (i : ℕ) :
    energyOf ev' i = energyOf ev i ∧ ∀ s, respOf ev' s i = respOf ev s i := by
  have hcn : cfg.codaNorm.isSome = false := by rw [hc]; rfl
  have hn : events.Nodup := List.Nodup.of_map _ hid
  obtain ⟨o, k1, k2⟩ := C149_separate (drop := drop) (mean := mean) (rlm := rlm) hset hn hr hw hown hties hu hcodes
    hb hs (out := some w) (by rw [hcn]; exact hinv)
  rw [hcn, hinv'] at k1
  obtain rfl := Except.ok.inj k1
  cases k2 with
  | some k2 =>
    obtain ⟨-, -, hrel⟩ := otherReferences_of_same (wrapper_ids hid hinv) hread hread'
      (k2.events.imp (fun x y hxy => ⟨hxy.1, hxy.2.other "W" (by simp),
        fun T T' hT hT' => sameResponses_of_sites (hxy.2.sites T T' hT hT')⟩))
    have hp := (C153_requirements hset hid hb hs hc hcmd h0 hinv hread).1
    have hp' := (C153_requirements (env := Without env drop) hset hid hb hs hc hcmd h0 hinv' hread').1
    exact aligned_same hp hp'.ids hp'.stations hrel hsol hsol' h h' g g' i

/-- **C150**: neither the order of sets nor that of the channels has an influence on source energies and
site responses after the alignment of separate inversions. -/
theorem C150_aligned (hset : IsSetOrder env.setOrder) (hset' : IsSetOrder order)
    (hch : SameStations env.channels chs) (hid : (events.map getEventid).Nodup)
    (hr : ∀ ev ∈ events, OnsetsReadable cfg [ev])
    (hw : ∀ evid pat t1 t2, ∃ d, env.getWaveforms evid pat t1 t2 = .ok d)
    (hown : ∀ ev ∈ events, OwnRecords env cfg [ev]) (hties : ∀ ev ∈ events, NoTies env cfg [ev])
    (hb : getFreqs cfg.freqs = .ok bands)
    (hs : ∀ evs, Schedule cfg (bands.map Prod.snd) cpus (schedule evs))
    (hc : cfg.codaNorm = none) (hcmd : cfg.cmd ≠ .source) (h0 : 0 < cfg.inv.R0)
    (hinv : invertWrapper rlm (fun evs => invert env cfg cpus (schedule evs) evs) false false mean
      events = .ok (some w))
    (hinv' : invertWrapper rlm (fun evs => invert (Reordered env order chs) cfg cpus (schedule evs) evs) false
      false mean events = .ok (some w'))
    (hread : ReadAs w results) (hread' : ReadAs w' results')
    (hsol : ∀ b, IsLsqSolver (solve b)) (hsol' : ∀ b, IsLsqSolver (solve' b))
    (h : align orc rlm solve results sel response us smm smo ignore = .ok out)
    (h' : align orc rlm solve' results' sel response us' smm' smo' ignore = .ok out')
    {id : String} {ev ev' : EvRes} (g : out.events.get? id = some (some ev))
    (g' : out'.events.get? id = some (some ev')) (i : ℕ) :
    energyOf ev' i = energyOf ev i ∧ ∀ s, respOf ev' s i = respOf ev s i := by
  have hcn : cfg.codaNorm.isSome = false := by rw [hc]; rfl
  have hn : events.Nodup := List.Nodup.of_map _ hid
  obtain ⟨o, k1, k2⟩ := C150_separate (chs := chs) (mean := mean) (rlm := rlm) hset hset' hch hn hr hw hown hties
    hb hs (out := some w) (by rw [hcn]; exact hinv)
  rw [hcn, hinv'] at k1
  obtain rfl := Except.ok.inj k1
  cases k2 with
  | some k2 =>
    obtain ⟨-, -, hrel⟩ := otherReferences_of_same (wrapper_ids hid hinv) hread hread'
      (k2.events.imp (fun x y hxy => ⟨hxy.1, hxy.2.other "W" (by simp), fun T T' hT hT' sta i => by
        rw [(hxy.2.sites T T' hT hT').2 sta]⟩))
    have hp := (C153_requirements hset hid hb hs hc hcmd h0 hinv hread).1
    have hp' := (C153_requirements (env := Reordered env order chs) hset' hid hb hs hc hcmd h0 hinv' hread').1
    exact aligned_same hp hp'.ids hp'.stations hrel hsol hsol' h h' g g' i

end

/-! ## Examples -/

namespace AlignedRunsExample

open JobsExample TablesExample UselessExample ReproducibleExample

theorem freq_ne : ∀ f ∈ ([(0.25, (0.25 - halfWidth 0.25 1, 0.25 + halfWidth 0.25 1))] : Dict ℝ (ℝ × ℝ)).map Prod.fst,
    f ≠ 0 := by
  intro f hf
  simp only [List.map_cons, List.map_nil, List.mem_singleton] at hf
  rw [hf]
  norm_num

/-- A run of any environment for the station of the example can be read and aligned. -/
theorem readable_aligned {env' : Env} {w : WrapRes} (orc : Oracle) (rlm : List ℝ → ℝ × ℝ) (us : Bool)
    (hset : IsSetOrder env'.setOrder)
    (h : invertWrapper rlm (fun evs => invert env' (exCfg (some 1)) 1 [] evs) false false .robust [exEvent] =
      .ok (some w)) :
    ∃ results out, ReadAs w results ∧ ProperResults results.events ∧ CompleteResults results.events 1 ∧
      align orc rlm (fun _ => someSolver) results .all (.scalar 2) us none none none = .ok out ∧
      resultsOf out.events ≠ [] := by
  have hs : ∀ evs : List Event, Schedule (exCfg (some 1))
      (([(0.25, (0.25 - halfWidth 0.25 1, 0.25 + halfWidth 0.25 1))] : Dict ℝ (ℝ × ℝ)).map Prod.snd) 1
      ((fun _ => [] : List Event → List ℕ) evs) := fun _ hne => absurd rfl hne
  have hcmd : (exCfg (some 1)).cmd ≠ .source := by simp [exCfg]
  have h0 : 0 < (exCfg (some 1)).inv.R0 := by norm_num [exCfg]
  obtain ⟨results, hconf, hread, -⟩ := C125_readable (env := env') (schedule := fun _ => []) hset (by simp)
    UselessExample.bands hs rfl hcmd h {}
  obtain ⟨k1, k2, -⟩ := C153_requirements (env := env') (schedule := fun _ => []) hset (by simp)
    UselessExample.bands hs rfl hcmd h0 h hread
  obtain ⟨out, ho⟩ := C153_alignment_succeeds (env := env') (schedule := fun _ => []) (orc := orc)
    (solve := fun _ => someSolver) (response := .scalar 2) (us := us) (smo := none) hset (by simp)
    UselessExample.bands freq_ne hs rfl hcmd h0 h hread (fun _ _ => rfl) (by rw [hconf])
  exact ⟨results, out, hread, k1, k2, ho, (out_complete k1.ids k2 ho).some_event⟩

/-- The example of the useless station meets the hypotheses of C153 and of C149 with alignment. -/
example (orc : Oracle) (rlm : List ℝ → ℝ × ℝ) (us us' : Bool) : ∃ w w' results results' out out',
    invertWrapper rlm (fun evs => invert env (exCfg (some 1)) 1 [] evs) false false .robust [exEvent] =
      .ok (some w) ∧ ReadAs w results ∧
    invertWrapper rlm (fun evs => invert (Without env ["X.B"]) (exCfg (some 1)) 1 [] evs) false false .robust
      [exEvent] = .ok (some w') ∧ ReadAs w' results' ∧
    align orc rlm (fun _ => someSolver) results .all (.scalar 2) us none none none = .ok out ∧
    align orc rlm (fun _ => someSolver) results' .all (.scalar 2) us' none none none = .ok out' ∧
    resultsOf out.events ≠ [] ∧ resultsOf out'.events ≠ [] ∧
    ∀ id ev ev' i, out.events.get? id = some (some ev) → out'.events.get? id = some (some ev') →
      energyOf ev' i = energyOf ev i ∧ ∀ s, respOf ev' s i = respOf ev s i := by
  obtain ⟨w, h⟩ := separateRun rlm
  obtain ⟨o, h', hrel⟩ := C149_separate (drop := ["X.B"]) (schedule := fun _ => []) setOrder (by simp)
    (by simpa using readable) client (by simpa using own) (by simpa using noTies) (by simpa using useless)
    (fun h => by simp [exCfg] at h) UselessExample.bands (fun _ hne => absurd rfl hne) h
  cases hrel with
  | @some _ w' hrel =>
    obtain ⟨results, out, h1, -, -, h2, h3⟩ := readable_aligned orc rlm us setOrder h
    obtain ⟨results', out', h1', -, -, h2', h3'⟩ := readable_aligned (env' := Without env ["X.B"]) orc rlm us' setOrder h'
    refine ⟨w, w', results, results', out, out', h, h1, h', h1', h2, h2', h3, h3', ?_⟩
    intro id ev ev' i g g'
    exact C149_aligned (drop := ["X.B"]) (schedule := fun _ => []) setOrder (by simp) (by simpa using readable)
      client (by simpa using own) (by simpa using noTies) (by simpa using useless) (fun h => by simp [exCfg] at h)
      UselessExample.bands (fun _ hne => absurd rfl hne) rfl (by simp [exCfg]) (by norm_num [exCfg]) h h' h1 h1'
      (fun _ => someSolver_spec) (fun _ => someSolver_spec) h2 h2' g g' i

/-- The example with another order of the stations. -/
example (orc : Oracle) (rlm : List ℝ → ℝ × ℝ) (us us' : Bool) : ∃ w w' results results' out out',
    invertWrapper rlm (fun evs => invert env (exCfg (some 1)) 1 [] evs) false false .robust [exEvent] =
      .ok (some w) ∧ ReadAs w results ∧
    invertWrapper rlm (fun evs => invert (Reordered env (fun l => l.dedup.reverse) ["X.B..Z", ".A..Z"])
      (exCfg (some 1)) 1 [] evs) false false .robust [exEvent] = .ok (some w') ∧ ReadAs w' results' ∧
    align orc rlm (fun _ => someSolver) results .all (.scalar 2) us none none none = .ok out ∧
    align orc rlm (fun _ => someSolver) results' .all (.scalar 2) us' none none none = .ok out' ∧
    resultsOf out.events ≠ [] ∧ resultsOf out'.events ≠ [] ∧
    ∀ id ev ev' i, out.events.get? id = some (some ev) → out'.events.get? id = some (some ev') →
      energyOf ev' i = energyOf ev i ∧ ∀ s, respOf ev' s i = respOf ev s i := by
  obtain ⟨w, h⟩ := separateRun rlm
  obtain ⟨o, h', hrel⟩ := C150_separate (schedule := fun _ => []) setOrder reverseOrder same (by simp)
    (by simpa using readable) client (by simpa using own) (by simpa using noTies) UselessExample.bands
    (fun _ hne => absurd rfl hne) h
  cases hrel with
  | @some _ w' hrel =>
    obtain ⟨results, out, h1, -, -, h2, h3⟩ := readable_aligned orc rlm us setOrder h
    obtain ⟨results', out', h1', -, -, h2', h3'⟩ :=
      readable_aligned (env' := Reordered env (fun l => l.dedup.reverse) ["X.B..Z", ".A..Z"]) orc rlm us' reverseOrder h'
    refine ⟨w, w', results, results', out, out', h, h1, h', h1', h2, h2', h3, h3', ?_⟩
    intro id ev ev' i g g'
    exact C150_aligned (schedule := fun _ => []) setOrder reverseOrder same (by simp) (by simpa using readable)
      client (by simpa using own) (by simpa using noTies)
      UselessExample.bands (fun _ hne => absurd rfl hne) rfl (by simp [exCfg]) (by norm_num [exCfg]) h h' h1 h1'
      (fun _ => someSolver_spec) (fun _ => someSolver_spec) h2 h2' g g' i

end AlignedRunsExample

end Qopen
