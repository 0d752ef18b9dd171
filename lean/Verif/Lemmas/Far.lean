import Verif.Lemmas.Move

/-!
# Traces with distances in another unit of length

`far l tr` is the trace `tr` with its distance multiplied by `l`.  Every step of the data
preparation commutes with it if velocities are multiplied, too.
-/

namespace Qopen.Far

open Real Util Tr Energy InvertFb Window

/-- Distance multiplied by `l`. -/
noncomputable def far (l : ℝ) (tr : Trace) : Trace := { tr with distance := l * tr.distance }

variable {l : ℝ} {tr : Trace} {lib : Lib} {cfg : WCfg} {v0 : ℝ}

theorem ltrim_far (t : ℝ) : (far l tr).ltrim t = far l (tr.ltrim t) := by
  have e1 : (far l tr).start = tr.start := rfl
  have e2 : (far l tr).sr = tr.sr := rfl
  unfold Trace.ltrim
  simp only [e1, e2]
  split_ifs <;> rfl

theorem rtrim_far (t : ℝ) : (far l tr).rtrim t = far l (tr.rtrim t) := by
  have e1 : (far l tr).start = tr.start := rfl
  have e2 : (far l tr).sr = tr.sr := rfl
  have e3 : (far l tr).stop = tr.stop := rfl
  have e4 : (far l tr).data = tr.data := rfl
  unfold Trace.rtrim
  simp only [e1, e2, e3, e4]
  split_ifs <;> rfl

theorem slice_far (t1 t2 : ℝ) : (far l tr).slice t1 t2 = (tr.slice t1 t2).map (far l) := by
  unfold Trace.slice
  rw [ltrim_far, rtrim_far]
  split_ifs <;> rfl

theorem getSlice_far (w : ℝ × ℝ) : getSlice (far l tr) w = (getSlice tr w).map (far l) := by
  unfold getSlice
  rw [slice_far]
  cases tr.slice w.1 w.2 with
  | error e => rfl
  | ok sl =>
    simp only [Except.map]
    have : checkTimes (far l sl) w = checkTimes sl w := rfl
    rw [this]
    split_ifs <;> rfl

theorem timeSnr_far (float : PyStr → Option ℝ) (time : PyStr) (st : Option ℝ) :
    timeSnr float time (far l tr) st = timeSnr float time tr st := by
  unfold timeSnr
  cases st with
  | none => rfl
  | some st => simp only [ltrim_far]; rfl

theorem time2utc_far (float : PyStr → Option ℝ) (time : PyStr) (st : Option ℝ) :
    time2utc float time (far l tr) st = time2utc float time tr st := by
  have h1 : ∀ t, timePlain float t (far l tr) = timePlain float t tr := fun t => rfl
  have h2 : ∀ t, timeFront float t (far l tr) = timeFront float t tr := by
    intro t
    unfold timeFront
    simp only [h1, timeSnr_far]
  unfold time2utc
  simp only [h1, h2, timeSnr_far]

theorem tw2utc_far (float : PyStr → Option ℝ) (tw : Tw) :
    tw2utc float tw (far l tr) = tw2utc float tw tr := by
  have h1 : ∀ v, twStart float v (far l tr) = twStart float v tr := by
    intro v
    unfold twStart
    cases v <;> simp only [time2utc_far]
  have h2 : ∀ v st, twEnd float v (far l tr) st = twEnd float v tr st := by
    intro v st
    unfold twEnd
    cases v <;> simp only [time2utc_far]
  unfold tw2utc
  simp only [h1, h2]

/-! ## Energies -/

theorem adjust_far : adjust lib cfg (far l tr) = (adjust lib cfg tr).map (far l) := by
  unfold adjust
  cases cfg.adjustWindow with
  | none => rfl
  | some w =>
    simp only [tw2utc_far, slice_far]
    cases tw2utc lib.float w tr with
    | error e => rfl
    | ok mw =>
      simp only [bind, Except.bind]
      cases tr.slice mw.1 mw.2 with
      | error e => rfl
      | ok sl =>
        simp only [Except.map]
        have : argmax (far l sl).data = argmax sl.data := rfl
        rw [this]
        cases argmax sl.data <;> rfl

theorem noiseLevel_far (nw : Tw) : noiseLevel lib (far l tr) nw = noiseLevel lib tr nw := by
  unfold noiseLevel
  simp only [tw2utc_far, slice_far]
  cases tw2utc lib.float nw tr with
  | error e => rfl
  | ok w =>
    simp only [bind, Except.bind]
    cases tr.slice w.1 w.2 <;> rfl

theorem noiseStep_far : noiseStep lib cfg (far l tr) =
    (noiseStep lib cfg tr).map (Option.map (far l)) := by
  have hn : noiseLevel lib (far l tr) = noiseLevel lib tr := funext noiseLevel_far
  unfold noiseStep
  rw [hn]
  cases mapExc (noiseLevel lib tr) cfg.noiseWindows with
  | error e => rfl
  | ok levels =>
    have hmap : ∀ t : Trace, (do
          let tr ← adjust lib cfg (far l t)
          return some tr : Py (Option Trace)) =
        (do
          let tr ← adjust lib cfg t
          return some tr : Py (Option Trace)).map (Option.map (far l)) := by
      intro t
      rw [adjust_far]
      cases adjust lib cfg t <;> rfl
    have hb : ∀ f : List (Option ℝ) → Py (Option Trace), (Except.ok levels >>= f) = f levels :=
      fun _ => rfl
    rw [hb, hb]
    dsimp only
    by_cases hr : cfg.removeNoise = true
    · simp only [hr, if_true]
      by_cases hc : (levels.filterMap id).length = 0
      · rw [if_pos hc, if_pos hc]; rfl
      · rw [if_neg hc, if_neg hc]
        exact hmap { tr with noise := some (cfg.noiseFunc (levels.filterMap id)),
                             data := removeNoise (cfg.noiseFunc (levels.filterMap id)) tr.data }
    · simp only [hr, if_false]
      by_cases hc : (levels.filterMap id).length = 0
      · rw [if_pos hc, if_pos hc]
        exact hmap tr
      · rw [if_neg hc, if_neg hc]
        exact hmap { tr with noise := some (cfg.noiseFunc (levels.filterMap id)) }

/-- A stream with its distance multiplied by `l`. -/
noncomputable def farS (l : ℝ) (s : Stream) : Stream := { s with distance := l * s.distance }

theorem normalise_far (cn : ℝ × ℝ) : normalise (far l tr) cn = (normalise tr cn).map (far l) := by
  unfold normalise
  have e : (far l tr).origin = tr.origin := rfl
  rw [e, slice_far]
  cases tr.slice (tr.origin + cn.1) (tr.origin + cn.2) with
  | error e => rfl
  | ok sl =>
    simp only [Except.map, bind, Except.bind]
    have : (far l sl).data = sl.data := rfl
    rw [this]
    split_ifs <;> rfl

theorem observedEnergy_far {hilbert : List ℝ → List ℝ} {s : Stream} {rho df : ℝ}
    {cn : Option (ℝ × ℝ)} {fs : ℝ} :
    observedEnergy hilbert (farS l s) rho df cn fs =
      (observedEnergy hilbert s rho df cn fs).map (far l) := by
  unfold observedEnergy
  have e : (farS l s).channels = s.channels := rfl
  simp only [e]
  split
  · rfl
  · split
    · rfl
    · cases cn with
      | none => rfl
      | some cn =>
        dsimp only
        rw [← normalise_far cn]
        rfl

theorem energyOf_far {s : Stream} : Window.energyOf lib cfg (farS l s) =
    (Window.energyOf lib cfg s).map (Option.map (far l)) := by
  unfold Window.energyOf
  have e1 : (farS l s).sr = s.sr := rfl
  have e2 : (farS l s).station = s.station := rfl
  simp only [e1, e2]
  split
  · rfl
  · split
    · rfl
    · have e3 : ∀ d df, observedEnergy lib.hilbert { farS l s with channels := d } cfg.rho0 df
          cfg.codaNorm (freeSurfaceOf cfg (farS l s)) = (observedEnergy lib.hilbert
          { s with channels := d } cfg.rho0 df cfg.codaNorm (freeSurfaceOf cfg s)).map (far l) :=
        fun d df => observedEnergy_far (s := { s with channels := d })
      have e5 : (farS l s).channels = s.channels := rfl
      have e6 := e3 (s.channels.map (lib.filt (filterSpec cfg s.sr) s.sr))
        (lib.width s.sr (filterSpec cfg s.sr))
      simp only [e1, e2] at e6
      rw [e5, e6]
      generalize observedEnergy lib.hilbert _ _ _ _ _ = x
      cases x with
      | error e => cases e <;> rfl
      | ok tr => rfl

theorem mapExc_far {α β : Type} {f g : α → Py (Option β)} {u : α → α} {w : β → β}
    (h : ∀ a, f (u a) = (g a).map (Option.map w)) (as : List α) :
    mapExc f (as.map u) = (mapExc g as).map (List.map (Option.map w)) := by
  induction as with
  | nil => rfl
  | cons a as ih =>
    rw [List.map_cons, mapExc, mapExc, h, ih]
    cases g a with
    | error e => rfl
    | ok o => cases mapExc g as <;> rfl

theorem energies_far (streams : List Stream) : energies lib cfg (streams.map (farS l)) =
    (energies lib cfg streams).map (List.map (far l)) := by
  have hfm : ∀ os : List (Option Trace), (os.map (Option.map (far l))).filterMap id =
      (os.filterMap id).map (far l) := by
    intro os; rw [List.filterMap_map, List.map_filterMap]; rfl
  unfold energies
  rw [mapExc_far (g := Window.energyOf lib cfg) (w := far l) (fun _ => energyOf_far)]
  cases mapExc (Window.energyOf lib cfg) streams with
  | error e => rfl
  | ok es =>
    simp only [Except.map, bind, Except.bind, hfm]
    rw [mapExc_far (g := noiseStep lib cfg) (w := far l) (fun _ => noiseStep_far)]
    cases mapExc (noiseStep lib cfg) (es.filterMap id) with
    | error e => rfl
    | ok l => simp only [Except.map, pure, Except.pure, hfm]

/-! ## Windows -/

/-- The state of the loop with distances multiplied by `l`. -/
noncomputable def farSt (l : ℝ) (st : WState) : WState :=
  { st with distances := st.distances.mapVals (l * ·) }

theorem mapVals_set {κ α β : Type} [DecidableEq κ] (f : α → β) (d : Dict κ α) (k : κ) (v : α) :
    Dict.mapVals f (d.set k v) = Dict.set (Dict.mapVals f d) k (f v) := by
  induction d with
  | nil => rfl
  | cons p d ih =>
    obtain ⟨k', v'⟩ := p
    have e : Dict.mapVals f ((k', v') :: d) = (k', f v') :: Dict.mapVals f d := rfl
    rw [e]
    unfold Dict.set
    split
    · rfl
    · rw [← ih]; rfl

theorem timeAxis_far (hl : l ≠ 0) (start : ℝ) (n : ℕ) :
    timeAxis (far l tr) (l * v0) start n = timeAxis tr v0 start n := by
  unfold timeAxis far
  simp only [mul_div_mul_left _ _ hl]

theorem collect_far (hl : l ≠ 0) (st : WState) (bulk : Option Bulk) (w : ℝ × ℝ) :
    collect cfg (l * v0) (farSt l st) (far l tr) bulk w =
      (collect cfg v0 st tr bulk w).map (farSt l) := by
  unfold collect
  rw [getSlice_far]
  cases getSlice tr w with
  | none => rfl
  | some esl =>
    have e : (far l esl).data = esl.data := rfl
    simp only [Option.map_some, e, timeAxis_far hl]
    cases bulk with
    | none => rfl
    | some b =>
      simp only [bind, Except.bind]
      cases weightUnit cfg.weight.2 esl.data.length b.N <;> rfl

theorem checkMaximum_far (hl : l ≠ 0) (st : WState) (bulk : Option Bulk) (w : ℝ × ℝ) :
    checkMaximum lib cfg (l * v0) (farSt l st) (far l tr) bulk w =
      (checkMaximum lib cfg v0 st tr bulk w).map (farSt l) := by
  unfold checkMaximum
  cases cfg.skipMaximum with
  | none => exact collect_far hl st bulk w
  | some mw =>
    have e : argmax (far l tr).data = argmax tr.data := rfl
    have e2 : (far l tr).start = tr.start := rfl
    have e3 : (far l tr).sr = tr.sr := rfl
    simp only [tw2utc_far, e, e2, e3]
    cases tw2utc lib.float mw tr with
    | error e => rfl
    | ok m =>
      simp only [bind, Except.bind]
      cases argmax tr.data with
      | error e => rfl
      | ok i =>
        simp only
        split_ifs
        · exact collect_far hl st bulk w
        · rfl

theorem cutCoda_far (hl : l ≠ 0) (st : WState) (bulk : Option Bulk) (w : ℝ × ℝ) :
    cutCoda lib cfg (l * v0) (farSt l st) (far l tr) bulk w =
      (cutCoda lib cfg v0 st tr bulk w).map (farSt l) := by
  unfold cutCoda
  cases cfg.cutCoda with
  | none => exact checkMaximum_far hl st bulk w
  | some c =>
    simp only [getSlice_far]
    cases getSlice tr (seamWindow c w) with
    | none => rfl
    | some esl =>
      have e : ∀ s r w, localMinimum (far l esl) s r w = localMinimum esl s r w := fun _ _ _ => rfl
      simp only [Option.map_some, e]
      split
      · rfl
      · exact checkMaximum_far hl st bulk _

theorem codaPart_far (hl : l ≠ 0) (st : WState) (bulk : Option Bulk) :
    codaPart lib cfg (l * v0) (farSt l st) (far l tr) bulk =
      (codaPart lib cfg v0 st tr bulk).map (farSt l) := by
  have hs : smoothTrace cfg (far l tr) = (smoothTrace cfg tr).map (far l) := by
    unfold smoothTrace
    have e : (far l tr).data = tr.data := rfl
    have e2 : (far l tr).sr = tr.sr := rfl
    cases cfg.smooth with
    | none => rfl
    | some s =>
      simp only [e, e2]
      split
      · rfl
      · simp only [bind, Except.bind]
        cases smooth tr.data (some (pyRound (tr.sr * s))) cfg.smoothWindow .zeros <;> rfl
  unfold codaPart
  rw [hs]
  cases smoothTrace cfg tr with
  | error e => rfl
  | ok tr' =>
    simp only [Except.map, bind, Except.bind, tw2utc_far]
    cases tw2utc lib.float cfg.codaWindow tr' with
    | error e => rfl
    | ok w =>
      simp only
      split
      · rfl
      · exact cutCoda_far hl st bulk w

theorem step_far (hl : l ≠ 0) (st : WState) :
    step lib cfg (l * v0) (farSt l st) (far l tr) = (step lib cfg v0 st tr).map (farSt l) := by
  unfold step
  have e : ∀ st : WState, ({ farSt l st with
      distances := (farSt l st).distances.set (far l tr).pair (far l tr).distance } : WState) =
      farSt l { st with distances := st.distances.set tr.pair tr.distance } := by
    intro st
    unfold farSt
    simp only [mapVals_set]
    rfl
  simp only [e]
  cases cfg.bulkWindow with
  | none => exact codaPart_far hl _ _
  | some bw =>
    simp only [tw2utc_far, getSlice_far]
    cases tw2utc lib.float bw tr with
    | error e => rfl
    | ok w =>
      simp only [bind, Except.bind]
      cases getSlice tr w with
      | none => rfl
      | some esl =>
        have e : (far l esl).data = esl.data := rfl
        simp only [Option.map_some, e, timeAxis_far hl]
        split
        · rfl
        · split
          · rfl
          · rw [← codaPart_far hl]
            congr 1
            unfold farSt
            simp only [mapVals_set]
            rfl

theorem windows_far (hl : l ≠ 0) (trs : List Trace) :
    windows lib cfg (l * v0) (trs.map (far l)) = (windows lib cfg v0 trs).map (farSt l) := by
  have key : ∀ (trs : List Trace) (st : WState),
      (trs.map (far l)).foldlM (step lib cfg (l * v0)) (farSt l st) =
        (trs.foldlM (step lib cfg v0) st).map (farSt l) := by
    intro trs
    induction trs with
    | nil => intro st; rfl
    | cons tr trs ih =>
      intro st
      rw [List.map_cons, List.foldlM_cons, List.foldlM_cons, step_far hl]
      cases step lib cfg v0 st tr with
      | error e => rfl
      | ok st1 => exact ih st1
  have := key trs { energies := trs.map Trace.pair }
  unfold windows
  rw [← this]
  rw [List.map_map]
  rfl

/-- Velocities are multiplied by `l`. -/
def fast (l : ℝ) (cfg : WCfg) : WCfg := { cfg with v0 := cfg.v0.map (l * ·) }

theorem velocity_far (trs : List Trace) :
    velocity (fast l cfg) (trs.map (far l)) = (velocity cfg trs).map (l * ·) := by
  unfold velocity fast
  cases cfg.v0 with
  | some v => rfl
  | none =>
    simp only [Option.map_none, List.map_eq_nil_iff]
    split
    · rfl
    · simp only [Option.map_some, Option.some.injEq, List.map_map]
      unfold InvertFb.mean
      rw [List.length_map, List.length_map, ← mul_div_assoc, ← List.sum_map_mul_left]
      congr 2
      apply List.map_congr_left
      intro tr _
      simp only [Function.comp_apply, far]
      ring

end Qopen.Far
