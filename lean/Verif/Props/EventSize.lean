import Verif.Props.Units
import Verif.Props.OtherEvents
import Verif.Props.SourceScale
import Verif.Props.AgainExample
import Verif.Props.Accuracy

/-!
# Size of an event (C145)

The waveforms of an event are multiplied by a factor: the event is larger or smaller, but of the same
shape.  From the waveforms to the table of results.
-/

namespace Qopen

open Real Spec Util Tr Energy InvertFb Window Catalog Freqs Source Invert Move

namespace Spec

/-- A trace with all samples multiplied by `k`. -/
noncomputable def amplify (k : ℝ) (tr : RawTrace) : RawTrace := { tr with data := tr.data.map (k * ·) }

/-- The same surroundings, but the waveforms of each event are multiplied by the factor of the event. -/
noncomputable def louder (a : String → ℝ) (env : Env) : Env :=
  { env with getWaveforms := fun id pat t1 t2 =>
      (env.getWaveforms id pat t1 t2).map (Option.map (List.map (amplify (a id)))) }

/-- Gaps of data do not depend on the amplitude, merging of traces and the instrument correction are
linear. -/
structure LinearInput (env : Env) : Prop where
  gaps : ∀ k ≠ 0, ∀ l, env.numGaps (l.map (amplify k)) = env.numGaps l
  merge : ∀ k ≠ 0, ∀ l, env.merge (l.map (amplify k)) = (env.merge l).map (amplify k)
  response : ∀ k ≠ 0, ∀ s, env.response (inOtherUnits k s) =
    (env.response s).map (List.map (List.map (k * ·)))

/-- The second result is the first one for events with amplitudes multiplied by `a`: the source energies
are multiplied by `a²`, the source spectra and moments by `|a|`, the magnitudes are shifted by
`2/3 log10 |a|`; everything else is the same. -/
structure SameButSize (a : String → ℝ) (res res' : InvRes) : Prop where
  freq : res'.freq = res.freq
  g0 : res'.g0 = res.g0
  b : res'.b = res.b
  error : res'.error = res.error
  nstations : res'.nstations = res.nstations
  v0 : res'.v0 = res.v0
  R : res'.R = res.R
  keys : res'.events.keys = res.events.keys
  events : ∀ id e, res.events.get? id = some e → ∃ e', res'.events.get? id = some e' ∧
    e'.W = e.W.map (Cell.scale (a id ^ 2)) ∧ e'.R = e.R ∧ ScaledSource |a id| e.extra e'.extra

/-- Data for which the inversion with the commands `go` and `fixed` is possible and unique. -/
structure Solvable (env : Env) (cfg : InvCfg) (bands : Dict ℝ (ℝ × ℝ)) (events : List Event) : Prop where
  pairs : ∀ streams, StreamsOf env cfg events streams →
    (streams.map (fun s => (s.event, s.station))).Nodup
  windows : ∀ i c ps, WindowsOf env cfg bands events i c ps → ps ≠ [] →
    GoodInput c ps ∧ ConnectedPairs ps ∧ (c.fix = false → TwoTimes ps) ∧
    (c.fix = false → c.optimize = true → ∀ g0, WithinBounds c g0 → CanCompare env.G c ps g0)

/-- What is needed for the source parameters: positive density and velocity, and two frequencies with
energies for each event if neither fall-off nor sharpness are given. -/
structure SourceReady (cfg : InvCfg) (res : InvRes) : Prop where
  rho : 0 < cfg.rho0
  v0 : ∀ v, res.v0 = some v → 0 < v
  freq : cfg.smm ≠ none → ∀ o, cfg.smo = some o → o.n = none → o.gamma = none →
    (∀ f ∈ res.freq, 0 < f) ∧ PositiveOpts o ∧ ∀ id e, res.events.get? id = some e → TwoEnergies res.freq e.W

end Spec

namespace Invert

/-- Results of a band for other sizes of the events. -/
structure SizeRel (a : String → ℝ) (r r' : BandResult) : Prop where
  g0 : r'.g0 = r.g0
  b : r'.b = r.b
  v0 : r'.v0 = r.v0
  error : r'.error = r.error
  nstations : r'.nstations = r.nstations
  R : ∀ s, (r'.R.bind (fun d => d.get? s)) = r.R.bind (fun d => d.get? s)
  W : ∀ e, (r'.W.bind (fun d => d.get? e)) = (r.W.bind (fun d => d.get? e)).map (a e ^ 2 * ·)

/-! ## waveforms -/

section

variable {env : Env} {cfg : InvCfg} {a : String → ℝ}

/-- The stream with the size of its event. -/
noncomputable def sized (a : String → ℝ) (s : Stream) : Stream := inOtherUnits (a s.event) s

theorem checkData_louder (hi : LinearInput env) {k : ℝ} (hk : k ≠ 0) (t1 t2 : ℝ)
    (raw : Option (List RawTrace)) :
    checkData (louder a env) cfg t1 t2 (raw.map (List.map (amplify k))) =
      (checkData env cfg t1 t2 raw).map (List.map (amplify k)) := by
  match raw with
  | none => rfl
  | some [] => rfl
  | some (x :: l) =>
    have e1 : (louder a env).numGaps ((x :: l).map (amplify k)) = env.numGaps (x :: l) := hi.gaps k hk _
    have e2 : (louder a env).merge ((x :: l).map (amplify k)) = (env.merge (x :: l)).map (amplify k) :=
      hi.merge k hk _
    have e3 : ∀ l : List RawTrace, (l.map (amplify k)).all (covers cfg.tolerance t1 t2) =
        l.all (covers cfg.tolerance t1 t2) := by
      intro l
      rw [List.all_map]
      congr 1
      funext tr
      simp [covers, amplify]
    have u : ∀ (env : Env) x l, checkData env cfg t1 t2 (some (x :: l)) = if env.numGaps (x :: l) > 0 then none
        else if (env.merge (x :: l)).all (covers cfg.tolerance t1 t2) then some (env.merge (x :: l))
        else none := fun _ _ _ => rfl
    rw [Option.map_some, List.map_cons, u, ← List.map_cons (f := amplify k), e1, e2, e3, u]
    split
    · rfl
    · split <;> rfl

theorem mkStream_louder (id : String) (ori : Origin) (p s d : ℝ) (deep : String → Bool) (k : ℝ)
    (traces : List RawTrace) : mkStream id ori p s d deep (traces.map (amplify k)) =
      inOtherUnits k (mkStream id ori p s d deep traces) := by
  cases traces with
  | nil => simp [mkStream, inOtherUnits]
  | cons x l => simp [mkStream, inOtherUnits, amplify, Function.comp_def]

theorem fetch_louder (hi : LinearInput env) (ha : ∀ e, a e ≠ 0) (origins : Dict String Origin)
    (distances : Dict (String × String) ℝ) (st : OnsetState) (deep : String → Bool)
    (pair : String × String) : fetch (louder a env) cfg origins distances st deep pair =
      (fetch env cfg origins distances st deep pair).map (Option.map (sized a)) := by
  unfold fetch
  simp only
  have e0 : pattern (louder a env) pair.2 = pattern env pair.2 := rfl
  rw [e0]
  have e1 : (louder a env).getWaveforms pair.1 (pattern env pair.2)
      ((originAt origins pair.1).time + cfg.requestWindow.1)
      ((originAt origins pair.1).time + cfg.requestWindow.2) = (env.getWaveforms pair.1 (pattern env pair.2)
      ((originAt origins pair.1).time + cfg.requestWindow.1)
      ((originAt origins pair.1).time + cfg.requestWindow.2)).map
        (Option.map (List.map (amplify (a pair.1)))) := rfl
  rw [e1]
  cases env.getWaveforms pair.1 (pattern env pair.2)
      ((originAt origins pair.1).time + cfg.requestWindow.1)
      ((originAt origins pair.1).time + cfg.requestWindow.2) with
  | error e => rfl
  | ok raw =>
    simp only [Except.map, bind, Except.bind]
    rw [checkData_louder hi (ha pair.1)]
    cases checkData env cfg _ _ raw with
    | none => rfl
    | some traces =>
      simp only [Option.map_some, List.length_map]
      split
      · rfl
      · simp only [pure, Except.pure, mkStream_louder, Option.map_some]
        rfl

theorem correct_louder (hi : LinearInput env) (ha : ∀ e, a e ≠ 0) (streams : List Stream) :
    correct (louder a env) cfg (streams.map (sized a)) = (correct env cfg streams).map (sized a) := by
  unfold correct
  split
  · rw [List.filterMap_map, List.map_filterMap]
    apply List.filterMap_congr
    intro s _
    have e1 : (louder a env).response (sized a s) = (env.response s).map (List.map (List.map (a s.event * ·))) :=
      hi.response _ (ha _) s
    simp only [Function.comp]
    rw [e1]
    cases env.response s <;> rfl
  · rfl

theorem ignoreNetworks_louder (deep : String → Bool) (streams : List Stream) :
    ignoreNetworks cfg deep (streams.map (sized a)) = (ignoreNetworks cfg deep streams).map (sized a) := by
  unfold ignoreNetworks
  split
  · rw [List.map_map, List.map_map]
    rfl
  · rfl

theorem filterMap_id_map {α β : Type} (f : α → β) (l : List (Option α)) :
    (l.map (Option.map f)).filterMap id = (l.filterMap id).map f := by
  rw [List.filterMap_map, List.map_filterMap]
  rfl

theorem selectStreams_louder (hi : LinearInput env) (ha : ∀ e, a e ≠ 0) (events : List Event) :
    selectStreams (louder a env) cfg events =
      (selectStreams env cfg events).map (Option.map (List.map (sized a))) := by
  unfold selectStreams
  cases originsOf events with
  | error e => rfl
  | ok origins =>
    cases arrivalsIf cfg events with
    | error e => rfl
    | ok arrivals =>
      have e0 : distLoop (louder a env) cfg origins = distLoop env cfg origins := rfl
      have e1 : boreholes (louder a env) origins = boreholes env origins := rfl
      simp only [bind, Except.bind, e0, e1]
      split
      · rfl
      · rfl
      · next os hos =>
        split
        · rfl
        · have e2 : mapExc (fetch (louder a env) cfg origins (distLoop env cfg origins).distances os
              (boreholes env origins)) os.pairs =
              (mapExc (fetch env cfg origins (distLoop env cfg origins).distances os
                (boreholes env origins)) os.pairs).map (List.map (Option.map (sized a))) := by
            rw [← mapExc_map]
            congr 1
            funext p
            exact fetch_louder hi ha _ _ _ _ _
          rw [e2]
          cases mapExc (fetch env cfg origins (distLoop env cfg origins).distances os
                (boreholes env origins)) os.pairs with
          | error e => rfl
          | ok l =>
            simp only [Except.map, filterMap_id_map, correct_louder hi ha]
            by_cases ht : tooFew cfg (correct env cfg (l.filterMap id)).length
            · rw [if_pos (by rw [filterMap_id_map, correct_louder hi ha, List.length_map]; exact ht), if_pos ht]
              rfl
            · rw [if_neg (by rw [filterMap_id_map, correct_louder hi ha, List.length_map]; exact ht), if_neg ht]
              rfl

end

/-! ## source parameters -/

theorem sdsEntries_louder {freq : List ℝ} {W : List Cell} {u rho q : ℝ} (hq : q ≠ 0) :
    sdsEntries freq (W.map (Cell.scale q)) (some u) (some rho) =
      sdsEntries freq W (some u) (some (q * rho)) := by
  unfold sdsEntries
  congr 1
  funext p
  have hg : pyGet (W.map (Cell.scale q)) p.2 = (pyGet W p.2).map (Cell.scale q) := by
    unfold pyGet
    rw [List.getElem?_map]
    cases W[p.2]? <;> rfl
  rw [hg]
  cases pyGet W p.2 with
  | error e => rfl
  | ok w =>
    simp only [Except.map, bind, Except.bind]
    have ht : (Cell.scale q w).truthy ↔ w.truthy := by
      cases w <;> simp [Cell.scale, Cell.truthy, hq]
    simp only [ht, ne_eq, mul_eq_zero, hq, false_or]
    split
    · cases w with
      | num w =>
        have : sdsArg (q * w) p.1 u rho = sdsArg w p.1 u (q * rho) := by unfold sdsArg; ring
        simp only [Cell.scale, sdsCell, sds, this]
      | nan => rfl
      | none => rfl
    · rfl

/-- Entry of the catalogue magnitude. -/
noncomputable def withCat (smm : Option Method) (mag : Option ℝ) (e : EvRes) : EvRes :=
  match smm, mag with
  | some _, some m => { e with extra := e.extra.set "Mcat" (.cell (.num m)) }
  | _, _ => e

theorem insert_cat {orc : Oracle} {freq : List ℝ} {ev : EvRes} {v rho : Option ℝ} {smm : Option Method}
    {smo : Option Opts} (mag : Option ℝ) : insertSourceProperties orc freq ev v rho smm smo mag =
      (insertSourceProperties orc freq ev v rho smm smo none).map (withCat smm mag) := by
  unfold insertSourceProperties
  cases sdsEntries freq ev.W v rho with
  | error e => rfl
  | ok L =>
    simp only [bind, Except.bind]
    cases smm with
    | none => cases mag <;> rfl
    | some m =>
      cases smo with
      | none => rfl
      | some o =>
        simp only
        cases fitSds orc freq (sdsStart ev v rho ++ L) m o with
        | error e => rfl
        | ok fit => cases mag <;> rfl

/-- Only the product of energy and density matters. -/
theorem insert_product {orc : Oracle} {freq : List ℝ} {W : List Cell} {u rho q : ℝ} {smm : Option Method}
    {smo : Option Opts} {mag : Option ℝ} (hq : q ≠ 0) :
    insertSourceProperties orc freq ⟨W.map (Cell.scale q), [], []⟩ (some u) (some rho) smm smo mag =
      (insertSourceProperties orc freq ⟨W, [], []⟩ (some u) (some (q * rho)) smm smo mag).map
        (fun e => { e with W := W.map (Cell.scale q) }) := by
  have hst : ∀ W a b, sdsStart ⟨W, [], []⟩ a b = [] := by
    intro W a b
    unfold sdsStart
    split <;> rfl
  unfold insertSourceProperties
  simp only [sdsEntries_louder hq, hst]
  cases sdsEntries freq W (some u) (some (q * rho)) with
  | error e => rfl
  | ok L =>
    simp only [bind, Except.bind]
    cases smm with
    | none => rfl
    | some m =>
      cases smo with
      | none => rfl
      | some o =>
        simp only
        cases fitSds orc freq ([] ++ L) m o with
        | error e => rfl
        | ok fit => rfl

theorem insert_recalc {orc : Oracle} {freq : List ℝ} {W : List Cell} {u rho : ℝ} {smm : Option Method}
    {smo : Option Opts} (hu : u ≠ 0) :
    insertSourceProperties orc freq ⟨W, [], []⟩ (some u) (some rho) smm smo none =
      recalcEvent orc freq (some u) (some rho) smm smo ⟨W, [], []⟩ := by
  have e : pyOr (EvRes.v0 ⟨W, [], []⟩) (some u) = some u := by rw [velocity_eq]; rfl
  unfold recalcEvent
  simp only [e]
  rw [if_pos (show truthy (some u) from hu)]
  rfl

theorem scaled_withCat {k : ℝ} {smm : Option Method} {mag : Option ℝ} {e e' : EvRes}
    (h : ScaledSource k e.extra e'.extra) :
    ScaledSource k (withCat smm mag e).extra (withCat smm mag e').extra := by
  unfold withCat
  split
  · obtain ⟨h1, h2, h3, h4, h5⟩ := h
    have ne : ∀ {x : Dict String Val} {v : Val} {key : String}, key ≠ "Mcat" →
        (x.set "Mcat" v).get? key = x.get? key := fun hk => Dict.get?_set_ne _ _ (Ne.symm hk)
    refine ⟨?_, ?_, ?_, ?_, ?_⟩
    · intro L; rw [ne (by simp), ne (by simp)]; exact h1 L
    · intro M; rw [ne (by simp), ne (by simp)]; exact h2 M
    · intro M; rw [ne (by simp), ne (by simp), ne (by simp)]; exact h3 M
    · rw [ne (by simp), ne (by simp), ne (by simp), ne (by simp)]; exact h4
    · intro key k1 k2 k3
      by_cases hk : key = "Mcat"
      · subst hk; simp
      · rw [ne hk, ne hk]; exact h5 key k1 k2 k3
  · exact h

theorem insert_louder_aux {orc : Oracle} {freq : List ℝ} {W : List Cell} {v rho a : ℝ} {smm : Option Method}
    {smo : Option Opts} {mag : Option ℝ} (hs : IsSearch orc) (h1 : IsOls orc.ols)
    (h2 : smm = some .robustFit → FollowsShift orc.rlm) (hr : 0 < rho) (hv : 0 < v) (ha : a ≠ 0)
    (hd : ∀ o, smo = some o → o.n = none → o.gamma = none → (∀ f ∈ freq, 0 < f) ∧ PositiveOpts o ∧
      TwoEnergies freq W) {e : EvRes}
    (h : insertSourceProperties orc freq ⟨W, [], []⟩ (some v) (some rho) smm smo mag = .ok e) :
    ∃ e', insertSourceProperties orc freq ⟨W.map (Cell.scale (a ^ 2)), [], []⟩ (some v) (some rho) smm smo mag
        = .ok e' ∧ e.W = W ∧ e'.W = W.map (Cell.scale (a ^ 2)) ∧ e'.R = e.R ∧
      ScaledSource |a| e.extra e'.extra := by
  have hq : 0 < a ^ 2 := sq_pos_of_ne_zero ha
  have hW := (insert_W h).1
  rw [insert_cat, insert_recalc hv.ne'] at h
  cases hr0 : recalcEvent orc freq (some v) (some rho) smm smo ⟨W, [], []⟩ with
  | error x => rw [hr0] at h; simp [Except.map] at h
  | ok e0 =>
    rw [hr0] at h
    simp only [Except.map, Except.ok.injEq] at h
    subst h
    have hvo : ∀ u, velocityOf ⟨W, [], []⟩ u = u := fun _ => rfl
    obtain ⟨e1, k1, k2, k3, k4⟩ := recalc_scale (v' := v) (rho' := a ^ 2 * rho) hs h1 h2 hr (by positivity)
      (by simp [Dict.WF, Dict.keys]) (by rwa [hvo]) (by rwa [hvo]) hd hr0
    have hk : spectrumFactor rho (velocityOf ⟨W, [], []⟩ v) (a ^ 2 * rho) (velocityOf ⟨W, [], []⟩ v) = |a| := by
      rw [hvo]
      unfold spectrumFactor
      rw [show a ^ 2 * rho * v ^ 5 / (rho * v ^ 5) = a ^ 2 by field_simp]
      exact sqrt_sq_eq_abs a
    rw [hk] at k4
    refine ⟨withCat smm mag { e1 with W := W.map (Cell.scale (a ^ 2)) }, ?_, hW, ?_, ?_, ?_⟩
    · rw [insert_cat, insert_product hq.ne', insert_recalc hv.ne', k1]
      rfl
    · unfold withCat; split <;> rfl
    · unfold withCat; split <;> exact k3
    · exact scaled_withCat k4

theorem insert_louder {orc : Oracle} {freq : List ℝ} {W : List Cell} {v rho a : ℝ} {smm : Option Method}
    {smo : Option Opts} {mag : Option ℝ} (hs : smm ≠ none → IsSearch orc) (h1 : smm ≠ none → IsOls orc.ols)
    (h2 : smm = some .robustFit → FollowsShift orc.rlm) (hr : 0 < rho) (hv : 0 < v) (ha : a ≠ 0)
    (hd : smm ≠ none → ∀ o, smo = some o → o.n = none → o.gamma = none → (∀ f ∈ freq, 0 < f) ∧ PositiveOpts o ∧
      TwoEnergies freq W) {e : EvRes}
    (h : insertSourceProperties orc freq ⟨W, [], []⟩ (some v) (some rho) smm smo mag = .ok e) :
    ∃ e', insertSourceProperties orc freq ⟨W.map (Cell.scale (a ^ 2)), [], []⟩ (some v) (some rho) smm smo mag
        = .ok e' ∧ e.W = W ∧ e'.W = W.map (Cell.scale (a ^ 2)) ∧ e'.R = e.R ∧
      ScaledSource |a| e.extra e'.extra := by
  by_cases hm : smm = none
  · subst hm
    obtain ⟨orc0, g1, g2, g3, -⟩ := exists_isGlobalSearch 1
    exact insert_louder_aux (orc := orc0) (smm := none) (smo := none) (mag := mag) g1.toIsSearch g2 (by simp) hr hv ha
      (by simp) h
  · exact insert_louder_aux (hs hm) (h1 hm) h2 hr hv ha (hd hm) h

/-! ## tables -/

section

variable {env env' : Env} {cfg : InvCfg} {a : String → ℝ} {rlist rlist' : List (Option BandResult)}

theorem sized_entry {r r' : Option BandResult} (h : Option.Rel (SizeRel a) r r') :
    (∀ s, entry (·.R) s r' = entry (·.R) s r) ∧
      ∀ e, entry (·.W) e r' = Cell.scale (a e ^ 2) (entry (·.W) e r) := by
  cases h with
  | none => exact ⟨fun _ => rfl, fun _ => rfl⟩
  | some h =>
    refine ⟨fun s => ?_, fun e => ?_⟩
    · unfold entry
      simp only [Option.bind_some]
      rw [h.R]
    · unfold entry
      simp only [Option.bind_some]
      rw [h.W]
      cases Option.bind _ _ <;> rfl

theorem map_eq_of_forall₂ {α β γ : Type} {P : α → β → Prop} {f : α → γ} {g : β → γ} {l : List α} {l' : List β}
    (h : List.Forall₂ P l l') (hfg : ∀ x y, P x y → g y = f x) : l'.map g = l.map f := by
  induction h with
  | nil => rfl
  | cons h _ ih => rw [List.map_cons, List.map_cons, ih, hfg _ _ h]

theorem sized_rowW (h : List.Forall₂ (Option.Rel (SizeRel a)) rlist rlist') (ids : List String) (id : String) :
    rowW ids rlist' id = (rowW ids rlist id).map (Cell.scale (a id ^ 2)) := by
  unfold rowW
  rw [List.map_flatMap, List.flatMap_def, List.flatMap_def]
  congr 1
  apply map_eq_of_forall₂ h
  intro r r' hr
  rw [List.map_map]
  apply List.map_congr_left
  intro _ _
  exact (sized_entry hr).2 id

theorem sized_lastV0 (h : List.Forall₂ (Option.Rel (SizeRel a)) rlist rlist') : lastV0 rlist' = lastV0 rlist := by
  unfold lastV0
  have : List.Forall₂ (SizeRel a) (rlist.filterMap id) (rlist'.filterMap id) := by
    induction h with
    | nil => exact .nil
    | cons h _ ih =>
      cases h with
      | none => exact ih
      | some h => exact .cons h ih
  rw [← List.getLast?_map, ← List.getLast?_map, map_eq_of_forall₂ this (fun _ _ h => h.v0)]

theorem sized_error (h : List.Forall₂ (Option.Rel (SizeRel a)) rlist rlist') :
    mapExc errorCell rlist' = mapExc errorCell rlist := by
  have he : ∀ r r', Option.Rel (SizeRel a) r r' → errorCell r' = errorCell r := by
    intro r r' h
    cases h with
    | none => rfl
    | some h =>
      unfold errorCell
      simp only [h.error]
  induction h with
  | nil => rfl
  | cons h _ ih =>
    simp only [mapExc]
    rw [he _ _ h, ih]

/-- The loop over the events. -/
theorem sized_events {orc : Oracle} {freq : List ℝ} {v rho : ℝ} {smm : Option Method} {smo : Option Opts}
    (hs : smm ≠ none → IsSearch orc) (h1 : smm ≠ none → IsOls orc.ols)
    (h2 : smm = some .robustFit → FollowsShift orc.rlm) (hr : 0 < rho) (hv : 0 < v) (ha : ∀ e, a e ≠ 0)
    {events : List Event} (hn : (events.map getEventid).Nodup) {d d' r : Dict String EvRes}
    (hkeys : d'.keys = d.keys)
    (hstart : ∀ ev ∈ events, ∃ W, d.get? (getEventid ev) = some ⟨W, [], []⟩ ∧
      d'.get? (getEventid ev) = some ⟨W.map (Cell.scale (a (getEventid ev) ^ 2)), [], []⟩ ∧
      (smm ≠ none → ∀ o, smo = some o → o.n = none → o.gamma = none → (∀ f ∈ freq, 0 < f) ∧ PositiveOpts o ∧
        TwoEnergies freq W))
    (h : events.foldlM (fun d ev => do
      let e ← dictGet d (getEventid ev)
      let e ← insertSourceProperties orc freq e (some v) (some rho) smm smo (getMagnitude ev)
      return d.set (getEventid ev) e) d = .ok r) :
    ∃ r', events.foldlM (fun d ev => do
      let e ← dictGet d (getEventid ev)
      let e ← insertSourceProperties orc freq e (some v) (some rho) smm smo (getMagnitude ev)
      return d.set (getEventid ev) e) d' = Except.ok r' ∧ r'.keys = r.keys ∧
      (∀ id ∉ events.map getEventid, r.get? id = d.get? id ∧ r'.get? id = d'.get? id) ∧
      ∀ ev ∈ events, ∃ e e', r.get? (getEventid ev) = some e ∧ r'.get? (getEventid ev) = some e' ∧
        e'.W = e.W.map (Cell.scale (a (getEventid ev) ^ 2)) ∧ e'.R = e.R ∧
        ScaledSource |a (getEventid ev)| e.extra e'.extra := by
  induction events generalizing d d' with
  | nil =>
    simp only [List.foldlM_nil, pure, Except.pure, Except.ok.injEq] at h
    subst h
    exact ⟨d', rfl, hkeys, fun _ _ => ⟨rfl, rfl⟩, by simp⟩
  | cons ev events ih =>
    rw [List.map_cons, List.nodup_cons] at hn
    obtain ⟨W, g1, g2, g3⟩ := hstart ev List.mem_cons_self
    rw [List.foldlM_cons] at h ⊢
    obtain ⟨d1, hd0, h⟩ := bind_ok.1 h
    obtain ⟨e0, he0, hd0'⟩ := bind_ok.1 hd0
    obtain ⟨e1, he1, hd1⟩ := bind_ok.1 hd0'
    simp only [pure, Except.pure, Except.ok.injEq] at hd1
    have ee : e0 = ⟨W, [], []⟩ := by
      unfold dictGet at he0
      rw [g1] at he0
      simpa using he0.symm
    subst ee
    obtain ⟨e1', i1, i2, i3, i4, i5⟩ := insert_louder hs h1 h2 hr hv (ha (getEventid ev)) g3 he1
    have hdg : dictGet d' (getEventid ev) = .ok ⟨W.map (Cell.scale (a (getEventid ev) ^ 2)), [], []⟩ := by
      unfold dictGet; rw [g2]
    have hstep : (do
        let e ← dictGet d' (getEventid ev)
        let e ← insertSourceProperties orc freq e (some v) (some rho) smm smo (getMagnitude ev)
        return d'.set (getEventid ev) e) = Except.ok (d'.set (getEventid ev) e1') := by
      rw [hdg]
      simp only [bind, Except.bind]
      rw [i1]
      rfl
    rw [hstep]
    clear hd0 hd0' hstep
    subst hd1
    have hne : ∀ ev' ∈ events, getEventid ev ≠ getEventid ev' :=
      fun ev' hev' e => hn.1 (e ▸ List.mem_map.2 ⟨ev', hev', rfl⟩)
    obtain ⟨r', r1, r2, r3, r4⟩ := ih hn.2 (d := d.set (getEventid ev) e1) (d' := d'.set (getEventid ev) e1')
      (by
        have hm : getEventid ev ∈ d.keys := List.mem_map.2 ⟨_, Dict.mem_of_get? g1, rfl⟩
        rw [Dict.keys_set_of_mem _ hm, Dict.keys_set_of_mem _ (hkeys ▸ hm), hkeys])
      (by
        intro ev' hev'
        rw [Dict.get?_set_ne _ _ (hne ev' hev'), Dict.get?_set_ne _ _ (hne ev' hev')]
        exact hstart ev' (List.mem_cons_of_mem _ hev')) h
    refine ⟨r', r1, r2, ?_, ?_⟩
    · intro id hid
      rw [List.map_cons, List.mem_cons, not_or] at hid
      obtain ⟨x1, x2⟩ := r3 id hid.2
      rw [x1, x2, Dict.get?_set_ne _ _ (Ne.symm hid.1), Dict.get?_set_ne _ _ (Ne.symm hid.1)]
      exact ⟨rfl, rfl⟩
    · intro ev' hev'
      rcases List.mem_cons.1 hev' with rfl | hev'
      · obtain ⟨x1, x2⟩ := r3 _ hn.1
        rw [Dict.get?_set_self] at x1 x2
        exact ⟨e1, e1', x1, x2, by rw [i2, i3], i4, i5⟩
      · exact r4 ev' hev'

theorem sized_tables (horc : env'.orc = env.orc) (hs : cfg.smm ≠ none → IsSearch env.orc)
    (h1 : cfg.smm ≠ none → IsOls env.orc.ols)
    (h2 : cfg.smm = some .robustFit → FollowsShift env.orc.rlm) (hc : cfg.codaNorm = none)
    (ha : ∀ e, a e ≠ 0) {events : List Event} (hn : (events.map getEventid).Nodup) {stations : List String}
    {freq : List ℝ} (hr : List.Forall₂ (Option.Rel (SizeRel a)) rlist rlist') {r : Option InvRes}
    (hready : ∀ res, r = some res → SourceReady cfg res)
    (h : tables env cfg events stations freq rlist = .ok r) :
    ∃ r', tables env' cfg events stations freq rlist' = .ok r' ∧ Option.Rel (SameButSize a) r r' := by
  have hall : rlist'.all Option.isNone = rlist.all Option.isNone := by
    clear h
    induction hr with
    | nil => rfl
    | cons h _ ih =>
      rw [List.all_cons, List.all_cons, ih]
      cases h <;> rfl
  unfold tables at h ⊢
  rw [hall]
  split at h
  · next hnone =>
    rw [if_pos hnone]
    obtain rfl := Except.ok.inj h
    exact ⟨none, rfl, .none⟩
  · next hsome =>
    rw [if_neg hsome]
    obtain ⟨err, herr, h⟩ := bind_ok.1 h
    simp only at h
    obtain ⟨evs, hevs, h⟩ := bind_ok.1 h
    simp only [pure, Except.pure, Except.ok.injEq] at h
    subst h
    have hrd := hready _ rfl
    rw [sized_error hr, herr]
    simp only [bind, Except.bind]
    have hv : ∃ v, lastV0 rlist = some v := by
      unfold lastV0
      have : rlist.filterMap id ≠ [] := by
        intro e
        apply hsome
        rw [List.all_eq_true]
        intro x hx
        cases x with
        | none => rfl
        | some b =>
          have : b ∈ rlist.filterMap id := List.mem_filterMap.2 ⟨some b, hx, rfl⟩
          rw [e] at this
          simp at this
      rw [List.getLast?_eq_some_getLast this]
      exact ⟨_, rfl⟩
    obtain ⟨v, hv⟩ := hv
    have hvp : 0 < v := hrd.v0 v hv
    have key : ∃ evs', eventTables env' cfg freq (lastV0 rlist') rlist' events = .ok evs' ∧
        evs'.keys = evs.keys ∧ ∀ id e, evs.get? id = some e → ∃ e', evs'.get? id = some e' ∧
          e'.W = e.W.map (Cell.scale (a id ^ 2)) ∧ e'.R = e.R ∧ ScaledSource |a id| e.extra e'.extra := by
      unfold eventTables at hevs ⊢
      rw [hc] at hevs ⊢
      simp only [Option.isNone_none, if_true] at hevs ⊢
      rw [sourceEvents_nodup hn] at hevs ⊢
      rw [sized_lastV0 hr, hv, horc]
      rw [hv] at hevs
      rw [fromKeys_nodup hn] at hevs ⊢
      have hk : ∀ rl : List (Option BandResult), Dict.keys ((events.map getEventid).map (fun id =>
          (id, (⟨rowW (events.map getEventid) rl id, [], []⟩ : EvRes)))) = events.map getEventid := by
        intro rl
        simp [Dict.keys, Function.comp_def]
      have hg : ∀ (rl : List (Option BandResult)) ev, ev ∈ events →
          Dict.get? ((events.map getEventid).map (fun id =>
          (id, (⟨rowW (events.map getEventid) rl id, [], []⟩ : EvRes)))) (getEventid ev) =
            some ⟨rowW (events.map getEventid) rl (getEventid ev), [], []⟩ := by
        intro rl ev hev
        apply Dict.get?_of_mem
        · unfold Dict.WF; rw [hk]; exact hn
        · exact List.mem_map.2 ⟨getEventid ev, List.mem_map.2 ⟨ev, hev, rfl⟩, rfl⟩
      -- the rows are those of the result
      obtain ⟨hins, hout⟩ := sourceFold_insert (by unfold Dict.WF; rw [hk]; exact hn) hn hevs
      obtain ⟨evs', f1, f2, f3, f4⟩ := sized_events (a := a) hs h1 h2 hrd.rho hvp ha hn
        (d' := (events.map getEventid).map (fun id =>
          (id, (⟨rowW (events.map getEventid) rlist' id, [], []⟩ : EvRes))))
        (by rw [hk, hk])
        (by
          intro ev hev
          refine ⟨_, hg rlist ev hev, ?_, ?_⟩
          · rw [hg rlist' ev hev, sized_rowW hr]
          · intro hm o ho hn0 hg0
            obtain ⟨q1, q2, q3⟩ := hrd.freq hm o ho hn0 hg0
            obtain ⟨x, x', y1, y2, y3⟩ := hins ev hev
            rw [hg rlist ev hev] at y1
            obtain rfl := Option.some.inj y1
            have := q3 _ _ y2
            rw [(insert_W y3).1] at this
            exact ⟨q1, q2, this⟩) hevs
      refine ⟨evs', f1, f2, ?_⟩
      intro id e he
      have hid : id ∈ events.map getEventid := by
        by_contra hid
        rw [(f3 id hid).1] at he
        have hm := List.mem_map_of_mem (f := Prod.fst) (Dict.mem_of_get? he)
        exact hid ((hk rlist) ▸ hm)
      obtain ⟨ev, hev, rfl⟩ := List.mem_map.1 hid
      obtain ⟨x, x', y1, y2, y3⟩ := f4 ev hev
      rw [he] at y1
      obtain rfl := Option.some.inj y1
      exact ⟨x', y2, y3⟩
    obtain ⟨evs', k1, k2, k3⟩ := key
    rw [k1]
    refine ⟨_, rfl, .some ?_⟩
    have hR : ∀ st, rlist'.map (entry (·.R) st) = rlist.map (entry (·.R) st) := fun st =>
      map_eq_of_forall₂ hr (fun _ _ h => (sized_entry h).1 st)
    constructor
    · rfl
    · simp only
      rw [map_eq_of_forall₂ hr (f := fun r => Cell.ofOption (r.bind (·.g0)))]
      intro x y h
      cases h with
      | none => rfl
      | some h => simp [h.g0]
    · simp only
      rw [map_eq_of_forall₂ hr (f := fun r => Cell.ofOption (r.bind (·.b)))]
      intro x y h
      cases h with
      | none => rfl
      | some h => simp [h.b]
    · rfl
    · simp only
      apply map_eq_of_forall₂ hr
      intro x y h
      cases h with
      | none => rfl
      | some h => simp [h.nstations]
    · exact sized_lastV0 hr
    · simp only [hR]
    · exact k2
    · exact k3

end

/-! ## inversion -/

theorem _root_.Qopen.Spec.OwnCopies.run_ok {env : Env} {cfg : InvCfg} {args : BandArgs} {streams : List Stream}
    {bands : Dict ℝ (ℝ × ℝ)} {cpus : ℕ} {schedule : List ℕ} {rlist : List (Option BandResult)}
    (hj : OwnCopies cfg bands cpus schedule) (h0 : cfg.njobs ≠ some 0)
    (h : mapExc (runBand env cfg args streams) (bands.map Prod.snd) = .ok rlist) :
    runBands env cfg args streams (bands.map Prod.snd) cpus schedule = .ok rlist := by
  unfold runBands
  split
  · rw [C24_sequential]
    exact h
  · rename_i hne
    rcases hj.2 with h1 | h1
    · exact absurd h1 hne
    · rw [C24_any_number_of_workers_partial env cfg args streams _ _ (by simpa using h1) (hj.1 hne),
        C24_sequential]
      exact h

theorem mapExc_rel {α β β' : Type} {f : α → Py β} {g : α → Py β'} {P : β → β' → Prop} {l : List α}
    {r : List β} (h : mapExc f l = .ok r) (hfg : ∀ x ∈ l, ∀ y, f x = .ok y → ∃ y', g x = .ok y' ∧ P y y') :
    ∃ r', mapExc g l = .ok r' ∧ List.Forall₂ P r r' := by
  induction l generalizing r with
  | nil =>
    obtain rfl := Except.ok.inj h
    exact ⟨[], rfl, .nil⟩
  | cons x l ih =>
    have h' := mapExc_ok.1 h
    cases h' with
    | cons h1 h2 =>
      obtain ⟨r', k1, k2⟩ := ih (mapExc_ok.2 h2) (fun x hx => hfg x (List.mem_cons_of_mem _ hx))
      obtain ⟨y', k3, k4⟩ := hfg x List.mem_cons_self _ h1
      refine ⟨y' :: r', ?_, .cons k4 k2⟩
      exact mapExc_ok.2 (.cons k3 (mapExc_ok.1 k1))

/-- From the bands to the result. -/
theorem invert_louder {env : Env} {cfg : InvCfg} {cpus : ℕ} {schedule : List ℕ} {events : List Event}
    {bands : Dict ℝ (ℝ × ℝ)} {a : String → ℝ} {r : Option InvRes} (hi : LinearInput env)
    (hs : cfg.smm ≠ none → IsSearch env.orc)
    (h1 : cfg.smm ≠ none → IsOls env.orc.ols)
    (h2 : cfg.smm = some .robustFit → FollowsShift env.orc.rlm) (hc : cfg.codaNorm = none)
    (ha : ∀ e, a e ≠ 0) (hn : (events.map getEventid).Nodup) (hb : getFreqs cfg.freqs = .ok bands)
    (hj : OwnCopies cfg bands cpus schedule) (hready : ∀ res, r = some res → SourceReady cfg res)
    (hband : ∀ args streams (i : ℕ) band o, bandArgs cfg bands = .ok args → StreamsOf env cfg events streams →
      (bands.map Prod.snd)[i]? = some band → runBand env cfg args streams band = .ok o →
      ∃ o', runBand env cfg args (streams.map (sized a)) band = .ok o' ∧ Option.Rel (SizeRel a) o o')
    (h : invert env cfg cpus schedule events = .ok r) :
    ∃ r', invert (louder a env) cfg cpus schedule events = .ok r' ∧ Option.Rel (SameButSize a) r r' := by
  unfold invert at h ⊢
  rw [hc] at h ⊢
  rw [if_neg (by simp)] at h ⊢
  rw [hb] at h ⊢
  simp only [bind, Except.bind] at h ⊢
  rw [selectStreams_louder hi ha]
  cases hst : selectStreams env cfg events with
  | error e => rw [hst] at h; simp at h
  | ok sel =>
    rw [hst] at h
    cases sel with
    | none =>
      simp only [pure, Except.pure, Except.ok.injEq] at h
      subst h
      exact ⟨none, rfl, .none⟩
    | some selected =>
      simp only [Except.map, Option.map_some] at h ⊢
      cases ho : originsOf events with
      | error e => rw [ho] at h; simp at h
      | ok origins =>
        rw [ho] at h
        simp only at h ⊢
        have e1 : boreholes (louder a env) origins = boreholes env origins := rfl
        have e2 : resultStations (louder a env) cfg = resultStations env cfg := rfl
        rw [e1, e2, ignoreNetworks_louder]
        cases hsta : resultStations env cfg with
        | error e => rw [hsta] at h; simp at h
        | ok stations =>
          rw [hsta] at h
          simp only at h ⊢
          cases hargs : bandArgs cfg bands with
          | error e => rw [hargs] at h; simp at h
          | ok args =>
            rw [hargs] at h
            simp only at h ⊢
            have h0 : cfg.njobs ≠ some 0 := by
              intro e
              unfold runBands at h
              rw [if_neg (by rw [e]; simp), if_pos e] at h
              simp at h
            cases hrl : runBands env cfg args (ignoreNetworks cfg (boreholes env origins) selected)
                (bands.map Prod.snd) cpus schedule with
            | error e => rw [hrl] at h; simp at h
            | ok rlist =>
              rw [hrl] at h
              simp only at h
              obtain ⟨rlist', k1, k2⟩ := mapExc_rel (g := runBand (louder a env) cfg args
                ((ignoreNetworks cfg (boreholes env origins) selected).map (sized a)))
                (P := Option.Rel (SizeRel a)) (hj.run hrl) (by
                  intro band hm o ho'
                  obtain ⟨i, hi', e⟩ := List.mem_iff_getElem.1 hm
                  exact hband args _ i band o hargs ⟨selected, origins, hst, ho, rfl⟩
                    (by rw [List.getElem?_eq_getElem hi', e]) ho')
              rw [hj.run_ok h0 k1]
              exact sized_tables rfl hs h1 h2 hc ha hn k2 hready h

theorem sizeRel_of_sources {a : String → ℝ} {r r' : BandResult} (h : SameSources (fun e => a e ^ 2) r r') :
    SizeRel a r r' := by
  obtain ⟨d, d', e1, e2, e3⟩ := h.W
  exact ⟨h.g0, h.b, h.v0, h.error, h.nstations, fun s => by rw [h.R],
    fun e => by rw [e1, e2]; exact e3 e⟩

theorem runBand_of_call {env : Env} {cfg : InvCfg} {bands : Dict ℝ (ℝ × ℝ)} {args : BandArgs}
    {streams streams' : List Stream} {band : ℝ × ℝ} {o o' : Option BandResult}
    (ha : bandArgs cfg bands = .ok args) (h : runBand env cfg args streams band = .ok o)
    (h' : invertFb env.lib env.wls env.G env.minimize (bandWCfg cfg args band)
      { cfg.inv with fix := args.fix, fixParams := (args.params.get? band).getD (none, none) }
      streams' = .ok o') : runBand env cfg args streams' band = .ok o' := by
  unfold runBand at h ⊢
  simp only at h ⊢
  split at h
  · next hf =>
    split at h
    · next p hp =>
      rw [hp] at h'
      rw [if_pos hf]
      exact h'
    · simp at h
  · next hf =>
    rw [if_neg hf]
    have hp : args.params = [] := by
      unfold bandArgs at ha
      cases hc : cfg.cmd with
      | go =>
        rw [hc] at ha
        rw [← Except.ok.inj ha]
      | fixed =>
        exact absurd ((bandArgs_flags ha).1.1 (by simpa using hf)) (by rw [hc]; simp)
      | source =>
        exact absurd ((bandArgs_flags ha).1.1 (by simpa using hf)) (by rw [hc]; simp)
    rw [hp] at h'
    exact h'

end Invert

/-- **C145**: size of the events with the command `source`.  If the waveforms of each event are multiplied by a
factor `a`, the inversion is possible for the same data; the source energies are multiplied by `a²`, the source
spectra and seismic moments by `|a|`, the moment magnitudes are shifted by `2/3 log10 |a|`.  Corner frequencies,
fall-off, misfits, numbers of stations and the velocity are the same, and an event does not influence the
others. -/
theorem C145_source {rank : List ℝ → List (List ℝ) → ℕ} {env : Env} {cfg : InvCfg} {cpus : ℕ}
    {schedule : List ℕ} {events : List Event} {bands : Dict ℝ (ℝ × ℝ)} {a : String → ℝ} {r : Option InvRes}
    (hwls : IsWls rank env.wls) (hrk : FullRank rank) (hG : OneValuePerTime env.G)
    (hl : Linear env.lib) (hnoise : Homogeneous cfg.wcfg.noiseFunc) (hi : LinearInput env)
    (hs : cfg.smm ≠ none → IsSearch env.orc)
    (h1 : cfg.smm ≠ none → IsOls env.orc.ols)
    (h2 : cfg.smm = some .robustFit → FollowsShift env.orc.rlm) (hc : cfg.codaNorm = none)
    (hcmd : cfg.cmd = .source) (ha : ∀ e, a e ≠ 0) (hn : (events.map getEventid).Nodup)
    (hb : getFreqs cfg.freqs = .ok bands) (hj : OwnCopies cfg bands cpus schedule)
    (hx : SourceData env cfg bands events) (hready : ∀ res, r = some res → SourceReady cfg res)
    (h : invert env cfg cpus schedule events = .ok r) :
    ∃ r', invert (louder a env) cfg cpus schedule events = .ok r' ∧ Option.Rel (SameButSize a) r r' := by
  refine invert_louder hi hs h1 h2 hc ha hn hb hj hready ?_ h
  intro args streams i band o hargs hstr hband ho
  have hcall := runBand_call hargs ho
  have hfl := bandArgs_flags hargs
  have key := C119_energies_of_accepted_pairs (wls := env.wls) (G := env.G) (minimize := env.minimize)
    (inv := { cfg.inv with fix := args.fix, fixParams := (args.params.get? band).getD (none, none) })
    (cfg := bandWCfg cfg args band) hl hnoise hc (hx.pairs streams hstr) ha (aS := fun _ => 1)
    (fun _ => one_ne_zero)
  simp only [mul_one, one_pow] at key
  rcases key with ⟨q, hq, k1, k2⟩ | ⟨v0, ps, hacc, hne, -, k1, k2⟩
  · rw [hcall] at k1
    subst k1
    refine ⟨o, runBand_of_call hargs ho k2, ?_⟩
    rcases hq with hq | ⟨e, hq⟩
    · cases hq; exact .none
    · cases hq
  · obtain ⟨g1, g2⟩ := hx.windows i _ ps ⟨args, streams, band, v0, hargs, hstr, hband, hacc, rfl⟩ hne
    rw [hcall] at k1
    have hcod : (bandCfg cfg args band v0).codaNorm = false := by
      show cfg.codaNorm.isSome = false
      rw [hc]; rfl
    obtain ⟨o', m1, m2⟩ := C113_source (kE := fun e => a e ^ 2) (cfg := bandCfg cfg args band v0)
      hwls hrk hG g1 hcod (by
        show args.fix = true
        by_contra hh
        have := hfl.1.1 (by simpa using hh)
        rw [hcmd] at this
        simp at this) (by
        show args.sites = true
        by_contra hh
        exact hfl.2.1 (by simpa using hh) hcmd) g2
      (fun e => sq_pos_of_ne_zero (ha e)) (List.Perm.refl _) k1.symm
    refine ⟨o', runBand_of_call hargs ho (k2.trans m1), ?_⟩
    cases m2 with
    | none => exact .none
    | some m2 => exact .some (sizeRel_of_sources m2)

/-- **C145**: size of the events with the commands `go` and `fixed`.  If the waveforms of each event are multiplied
by a factor `a`, attenuation, site responses, misfits and the velocity are the same; the source energies are
multiplied by `a²`, the source spectra and seismic moments by `|a|`, the moment magnitudes are shifted by
`2/3 log10 |a|`. -/
theorem C145_inversion {rank : List ℝ → List (List ℝ) → ℕ} {env : Env} {cfg : InvCfg} {cpus : ℕ}
    {schedule : List ℕ} {events : List Event} {bands : Dict ℝ (ℝ × ℝ)} {a : String → ℝ} {r : Option InvRes}
    (hwls : IsWls rank env.wls) (hrk : FullRank rank) (hG : OneValuePerTime env.G)
    (hl : Linear env.lib) (hnoise : Homogeneous cfg.wcfg.noiseFunc) (hi : LinearInput env)
    (hs : cfg.smm ≠ none → IsSearch env.orc)
    (h1 : cfg.smm ≠ none → IsOls env.orc.ols)
    (h2 : cfg.smm = some .robustFit → FollowsShift env.orc.rlm) (hc : cfg.codaNorm = none)
    (hcmd : cfg.cmd ≠ .source) (ha : ∀ e, a e ≠ 0) (hn : (events.map getEventid).Nodup)
    (hb : getFreqs cfg.freqs = .ok bands) (hj : OwnCopies cfg bands cpus schedule)
    (hx : Solvable env cfg bands events) (hready : ∀ res, r = some res → SourceReady cfg res)
    (h : invert env cfg cpus schedule events = .ok r) :
    ∃ r', invert (louder a env) cfg cpus schedule events = .ok r' ∧ Option.Rel (SameButSize a) r r' := by
  refine invert_louder hi hs h1 h2 hc ha hn hb hj hready ?_ h
  intro args streams i band o hargs hstr hband ho
  have hcall := runBand_call hargs ho
  have hfl := bandArgs_flags hargs
  have hsites : args.sites = false := hfl.2.2 hcmd
  obtain ⟨o', m1, m2⟩ := C119_calibration (aE := a) (aS := fun _ => 1) (cfg := bandWCfg cfg args band)
    hwls hrk hG hl hnoise hc hsites (hx.pairs streams hstr)
    (by
      intro v0 ps hacc hne
      exact hx.windows i _ ps ⟨args, streams, band, v0, hargs, hstr, hband, hacc, rfl⟩ hne)
    ha (fun _ => one_ne_zero) hcall
  simp only [mul_one] at m1
  refine ⟨o', runBand_of_call hargs ho m1, ?_⟩
  rcases m2 with ⟨rfl, rfl⟩ | ⟨v0, ps, -, m2⟩
  · exact .none
  · have hmf : meanFactor (fun _ => (1 : ℝ) ^ 2) ps = 1 := by
      unfold meanFactor
      simp [geoMean]
    cases m2 with
    | none => exact .none
    | some m2 =>
      refine .some ⟨m2.g0, m2.b, m2.v0, m2.error, m2.nstations, ?_, ?_⟩
      · obtain ⟨d, d', e1, e2, e3⟩ := m2.R
        intro s
        rw [e1, e2]
        simp only [Option.bind_some]
        rw [e3 s, hmf]
        cases d.get? s <;> simp
      · obtain ⟨d, d', e1, e2, e3⟩ := m2.W
        intro e
        rw [e1, e2]
        simp only [Option.bind_some]
        rw [e3 e, hmf]
        cases d.get? e <;> simp


namespace EventSizeExample

open JobsExample TablesExample TruthChainExample SourceNearExample OtherEventsExample

theorem linear_lib : Linear env.lib := by
  constructor
  · intro k l
    rfl
  · intro spec sr k l
    cases spec with
    | highpass f => rfl
    | bandpass f g =>
      simp only [env, exEnv, exFilt]
      split
      · simp [Function.comp_def]
      · rfl

theorem linear_input (orc : Oracle) : LinearInput { env with orc := orc } :=
  ⟨fun _ _ _ => rfl, fun _ _ _ => rfl, fun _ _ _ => rfl⟩

/-- Magnitudes from the values below 1 Hz. -/
noncomputable def magCfg : InvCfg := { srcCfg with smm := some .mean, smo := some { fc := some 1 } }

/-- The inversion of two events with magnitudes. -/
theorem result_mags {orc : Oracle} (hs : IsSearch orc) :
    ∃ res, invert { env with orc := orc } magCfg 1 [] [exEvent, second] = .ok (some res) := by
  obtain ⟨res, h⟩ := result_two
  have hnd : ([exEvent, second].map getEventid).Nodup := by simp [exId, secondId]
  unfold invert at h ⊢
  rw [if_neg (by simp [srcCfg, again, cfg, JobsExample.exCfg])] at h
  rw [if_neg (by simp [magCfg, srcCfg, again, cfg, JobsExample.exCfg])]
  have hfr : getFreqs srcCfg.freqs = .ok bands := freqs
  have hfr' : getFreqs magCfg.freqs = .ok bands := freqs
  have hsel : selectStreams { env with orc := orc } magCfg [exEvent, second] = .ok (some [exStream 1, streamF]) :=
    select_two
  simp only [hfr, select_two, origins_two, bind, Except.bind] at h
  simp only [hfr', hsel, origins_two, bind, Except.bind]
  have h1 : ∀ o, ignoreNetworks srcCfg (boreholes env o) [exStream 1, streamF] = [exStream 1, streamF] :=
    fun _ => rfl
  have h1' : ∀ o, ignoreNetworks magCfg (boreholes { env with orc := orc } o) [exStream 1, streamF] =
    [exStream 1, streamF] := fun _ => rfl
  have h2 : resultStations env srcCfg = .ok ["A"] := by
    unfold resultStations
    have : stationsOf env = ["A"] := exStations
    rw [this]
    rfl
  have h2' : resultStations { env with orc := orc } magCfg = .ok ["A"] := h2
  have h3' : bandArgs magCfg bands = .ok args := band_args
  rw [h1, h2, band_args] at h
  rw [h1', h2', h3']
  simp only at h ⊢
  have hrun : runBands { env with orc := orc } magCfg args [exStream 1, streamF] (bands.map Prod.snd) 1 [] =
    runBands env srcCfg args [exStream 1, streamF] (bands.map Prod.snd) 1 [] := rfl
  rw [hrun]
  cases hrl : runBands env srcCfg args [exStream 1, streamF] (bands.map Prod.snd) 1 [] with
  | error e => rw [hrl] at h; simp at h
  | ok rlist =>
    rw [hrl] at h
    simp only at h ⊢
    have hlen : rlist.length = 1 := by
      have := (own []).run hrl
      have := (mapExc_ok.1 this).length_eq
      simpa [bands] using this.symm
    unfold tables at h ⊢
    split at h
    · simp at h
    rename_i hsome
    rw [if_neg hsome]
    cases herr : mapExc errorCell rlist with
    | error e => rw [herr] at h; simp [bind, Except.bind] at h
    | ok err =>
      simp only [bind, Except.bind]
      have hins : ∀ id mag, id ∈ ["e", "f"] → ∃ e, insertSourceProperties orc [0.25]
          ⟨rowW ["e", "f"] rlist id, [], []⟩ (lastV0 rlist) (some magCfg.rho0) magCfg.smm magCfg.smo mag =
            .ok e := by
        intro id mag hid
        have hrow := rowW_nodup (ids := ["e", "f"]) (by simp) hid rlist
        obtain ⟨l, hl⟩ := Site.sdsEntries_total (freq := [0.25]) (W := rowW ["e", "f"] rlist id)
          (v0 := lastV0 rlist) (rho0 := some magCfg.rho0) (by rw [hrow]; simp [hlen]) (by norm_num)
        have hll : l.length = 1 := by
          have := (mapExc_ok.1 hl).length_eq
          simpa using this.symm
        have hst : ∀ W a b, sdsStart ⟨W, [], []⟩ a b = [] := by
          intro W a b
          unfold sdsStart
          split <;> rfl
        obtain ⟨fit, hfit⟩ := fitSds_total hs (freq := [0.25]) (omM := l) (by rw [hll]; rfl) (m := .mean)
          (o := { fc := some 1 }) ⟨fun _ => by simp, by simp, by simp [isFit], by simp [isFit], by simp [isFit]⟩
        unfold insertSourceProperties
        have hrho : some magCfg.rho0 = some srcCfg.rho0 := rfl
        rw [hrho] at hl
        simp only [hst, List.nil_append, bind, Except.bind, magCfg]
        rw [hl]
        simp only
        rw [hfit]
        exact ⟨_, rfl⟩
      have hev : ∃ evs, eventTables { env with orc := orc } magCfg bands.keys (lastV0 rlist) rlist
          [exEvent, second] = .ok evs := by
        unfold eventTables
        rw [if_pos (by rfl)]
        rw [sourceEvents_nodup (by simp [exId, secondId])]
        obtain ⟨e1, he1⟩ := hins "e" (getMagnitude exEvent) (by simp)
        obtain ⟨e2, he2⟩ := hins "f" (getMagnitude second) (by simp)
        have hk : fromKeys ["e", "f"] = ["e", "f"] := by decide
        have hbk : bands.keys = [0.25] := rfl
        simp only [List.map_cons, List.map_nil, exId, secondId, hk, List.foldlM_cons, List.foldlM_nil, dictGet,
          Dict.get?, if_true, bind, Except.bind, pure, Except.pure, hbk, he1]
        simp only [Dict.set, if_true, Dict.get?, show ¬ ("e" = "f") by decide, show ¬ ("f" = "e") by decide,
          if_false, he2]
        exact ⟨_, rfl⟩
      obtain ⟨evs, hev⟩ := hev
      rw [hev]
      exact ⟨_, rfl⟩

theorem data_mags (orc : Oracle) : SourceData { env with orc := orc } magCfg bands [exEvent, second] :=
  ⟨data_two.pairs, data_two.windows⟩

theorem velocity_mags {orc : Oracle} {res : InvRes}
    (h : invert { env with orc := orc } magCfg 1 [] [exEvent, second] = .ok (some res)) : res.v0 = some 1 :=
  (given_velocity (bands := bands) (env := { env with orc := orc }) (cfg := magCfg) (v := 1)
    (by simp [exId, secondId]) freqs (own []) (data_mags orc).pairs rfl h).1

/-- Two events, the amplitudes of the first one are multiplied by 10, those of the second one by -3. -/
example : ∃ orc res res', invert { env with orc := orc } magCfg 1 [] [exEvent, second] = .ok (some res) ∧
    invert (louder (fun id => if id = "e" then 10 else -3) { env with orc := orc }) magCfg 1 []
      [exEvent, second] = .ok (some res') ∧
    SameButSize (fun id => if id = "e" then 10 else -3) res res' := by
  obtain ⟨orc, hs, h1, -, -⟩ := exists_isGlobalSearch 1
  obtain ⟨res, h⟩ := result_mags hs.toIsSearch
  have hn : ([exEvent, second].map getEventid).Nodup := by simp [exId, secondId]
  obtain ⟨r', k1, k2⟩ := C145_source (a := fun id => if id = "e" then 10 else -3) (env := { env with orc := orc })
    (cfg := magCfg) InvertExample.rankWls_spec InvertExample.someRank_full one_value linear_lib
    (fun k _ l => by simp [magCfg, srcCfg, again, cfg, JobsExample.exCfg]) (linear_input orc)
    (fun _ => hs.toIsSearch) (fun _ => h1) (by simp [magCfg]) rfl rfl
    (by intro e; split <;> norm_num) hn freqs (own []) (data_mags orc)
    (by
      intro res' hr
      obtain rfl := Option.some.inj hr
      refine ⟨by norm_num [magCfg, srcCfg, again, cfg, JobsExample.exCfg], fun v hv => ?_, ?_⟩
      · rw [velocity_mags h] at hv
        rw [← Option.some.inj hv]
        norm_num
      · intro _ o ho hn0 _
        simp only [magCfg, Option.some.injEq] at ho
        rw [← ho] at hn0
        simp at hn0) h
  cases k2 with
  | some k2 => exact ⟨orc, res, _, h, k1, k2⟩

/-- The windows of the example of `Props/TruthExample` can be compared with the model. -/
theorem solvable : Solvable env cfg bands [exEvent] := by
  refine ⟨exact_data.pairs, ?_⟩
  intro i c ps h hne
  have hx := exact_data.exact_windows i c ps h hne
  obtain ⟨rfl, rfl⟩ := windows_unique h
  refine ⟨hx.good, hx.connected, hx.two_times, ?_⟩
  intro _ _ g0 _
  refine ⟨?_, [([exp 3, exp 4], 0)], ?_, ?_⟩
  · intro p hp
    obtain rfl := List.mem_singleton.1 hp
    simp [TruthChainExample.pair]
  · simp [IsGreens, TruthChainExample.pair, gsmooth, smoothFunc, bandCfg, fullCfg, bandWCfg, cfg,
      JobsExample.exCfg, env]
  · intro s hs
    have hbulk : (bandCfg cfg exArgs band 1).bulk = false := rfl
    rw [hbulk] at hs
    simp [samplesOf, TruthChainExample.pair] at hs
    rcases hs with rfl | rfl <;> exact ⟨by norm_num, exp_pos _⟩

/-- An inversion for attenuation, site responses and source energies, amplitudes multiplied by 10: the
energy is 100 times as large. -/
example : ∃ res res' e e' x, invert env cfg 1 [] [exEvent] = .ok (some res) ∧
    invert (louder (fun _ => 10) env) cfg 1 [] [exEvent] = .ok (some res') ∧
    SameButSize (fun _ => 10) res res' ∧ res.events.get? "e" = some e ∧ res'.events.get? "e" = some e' ∧
    e.W[0]? = some (.num x) ∧ e'.W[0]? = some (.num (100 * x)) := by
  obtain ⟨res, h⟩ := invert_one'
  obtain ⟨r', k1, k2⟩ := C145_inversion (a := fun _ => 10) (env := env) (cfg := cfg) InvertExample.rankWls_spec
    InvertExample.someRank_full one_value linear_lib
    (fun k _ l => by simp [cfg, JobsExample.exCfg]) (linear_input env.orc) (by simp [cfg, JobsExample.exCfg])
    (by simp [cfg, JobsExample.exCfg]) (by simp [cfg, JobsExample.exCfg]) rfl (by simp [cfg, JobsExample.exCfg])
    (fun _ => by norm_num) (by simp) freqs (own []) solvable
    (by
      intro res' hr
      obtain rfl := Option.some.inj hr
      refine ⟨by norm_num [cfg, JobsExample.exCfg], fun v hv => ?_, by simp [cfg, JobsExample.exCfg]⟩
      rw [(given_velocity (v := 1) (by simp) freqs (own []) exact_data.pairs rfl h).1] at hv
      rw [← Option.some.inj hv]
      norm_num) h
  obtain ⟨c, ps, hwin, hne, ht⟩ := one_truth h
  obtain ⟨-, rfl⟩ := windows_unique hwin
  cases k2 with
  | some k2 =>
    obtain ⟨stations, rlist, -, T, -⟩ := tables_streams (by simp) freqs (own []).1 h
    have hk : "e" ∈ res.events.keys := by
      rw [(T.events rfl).1]
      simp [exId]
    rw [← Dict.get?_isSome] at hk
    obtain ⟨e, he⟩ := Option.isSome_iff_exists.1 hk
    obtain ⟨e', he', hW, -⟩ := k2.events _ _ he
    have hx := ht.energies _ _ (Dict.mem_of_get? he)
    rw [if_pos ⟨TruthChainExample.pair, by simp, rfl⟩] at hx
    refine ⟨res, _, e, e', _, h, k1, k2, he, he', hx, ?_⟩
    rw [hW, List.getElem?_map, hx]
    norm_num [Cell.scale]

end EventSizeExample

end Qopen
