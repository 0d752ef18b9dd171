import Verif.Model.Run
import Verif.Props.Pairs

/-!
# Failing data sources (C71)
-/

namespace Qopen

open Run Catalog Energy InvertFb Window Freqs Source

namespace Spec

/-- A data source for event id, channel pattern and time window: a stream, nothing (`None`) or an
exception. -/
abbrev DataSource := String → String → ℝ → ℝ → Except Raised (Option (List Invert.RawTrace))

/-- The inversion with this data source behind the wrapper of `init_data`.  Only interrupts may leave
the wrapper, they end the inversion. -/
noncomputable def withSource (env : Invert.Env) (src : DataSource) : Invert.Env :=
  { env with getWaveforms := fun ev pat t1 t2 => match waveformWrapper (src ev pat t1 t2) with
      | .ok d => .ok d.join
      | .error _ => .error .other }

/-- The second source gives the same data, but no data or an empty stream instead of an exception. -/
def EmptyInsteadOfFailing (src src' : DataSource) : Prop :=
  ∀ ev pat t1 t2, src' ev pat t1 t2 = src ev pat t1 t2 ∨
    (src ev pat t1 t2 = .error .exception ∧
      (src' ev pat t1 t2 = .ok none ∨ src' ev pat t1 t2 = .ok (some [])))

/-- The source is not interrupted by the user or by the end of the program. -/
def Uninterrupted (src : DataSource) : Prop :=
  ∀ ev pat t1 t2 e, src ev pat t1 t2 = .error e → e = .exception

end Spec

/-- **C71**: the wrapper returns the data if the source returns, `None` if it raises an ordinary
exception and lets everything else through. -/
theorem C71_wrapper {α : Type} (r : Except Raised α) :
    (∀ d, waveformWrapper r = .ok (some d) ↔ r = .ok d) ∧
    (waveformWrapper r = .ok none ↔ r = .error .exception) ∧
    ∀ e, waveformWrapper r = .error e ↔ r = .error e ∧ e ≠ .exception := by
  refine ⟨fun d => ?_, ?_, fun e => ?_⟩ <;>
  · rcases r with e' | d'
    · cases e' <;> simp [waveformWrapper] <;> (try rintro rfl; decide)
    · simp [waveformWrapper]

open Invert in
theorem fetch_source {env : Invert.Env} {cfg : InvCfg} {src src' : Spec.DataSource}
    (h : Spec.EmptyInsteadOfFailing src src') (origins : Dict String Origin)
    (distances : Dict (String × String) ℝ) (st : OnsetState) (deep : String → Bool)
    (pair : String × String) :
    fetch (Spec.withSource env src) cfg origins distances st deep pair =
      fetch (Spec.withSource env src') cfg origins distances st deep pair := by
  have key : ∀ s : Spec.DataSource, fetch (Spec.withSource env s) cfg origins distances st deep pair =
      (match waveformWrapper (s pair.1 (pattern env pair.2)
          ((originAt origins pair.1).time + cfg.requestWindow.1)
          ((originAt origins pair.1).time + cfg.requestWindow.2)) with
        | .ok d => Except.ok d.join
        | .error _ => .error .other) >>= (fun raw =>
        match checkData env cfg ((originAt origins pair.1).time + cfg.requestWindow.1)
          ((originAt origins pair.1).time + cfg.requestWindow.2) raw with
        | none => return none
        | some traces =>
          if traces.length ≠ 3 then return none
          else return some (mkStream pair.1 (originAt origins pair.1) ((st.ponset.get? pair).getD 0)
            ((st.sonset.get? pair).getD 0) (distAt distances pair) deep traces)) := fun _ => rfl
  rw [key, key]
  rcases h pair.1 (pattern env pair.2) ((originAt origins pair.1).time + cfg.requestWindow.1)
    ((originAt origins pair.1).time + cfg.requestWindow.2) with e | ⟨e, e' | e'⟩
  · rw [e]
  · rw [e, e']; rfl
  · rw [e, e']; rfl

open Invert in
theorem select_source {env : Invert.Env} {cfg : InvCfg} {src src' : Spec.DataSource}
    (h : Spec.EmptyInsteadOfFailing src src') (events : List Event) :
    selectStreams (Spec.withSource env src) cfg events =
      selectStreams (Spec.withSource env src') cfg events := by
  unfold selectStreams
  have e : ∀ origins distances st deep, fetch (Spec.withSource env src) cfg origins distances st deep =
      fetch (Spec.withSource env src') cfg origins distances st deep := by
    intros
    funext pair
    exact fetch_source h _ _ _ _ _
  simp only [e]
  rfl

/-- **C71**: the result of the inversion does not depend on whether a source raises an exception or
returns no data: pairs without data are left out. -/
theorem C71_as_missing {env : Invert.Env} {cfg : Invert.InvCfg} {src src' : Spec.DataSource}
    (h : Spec.EmptyInsteadOfFailing src src') (cpus : ℕ) (schedule : List ℕ) (events : List Event) :
    Invert.invert (Spec.withSource env src) cfg cpus schedule events =
      Invert.invert (Spec.withSource env src') cfg cpus schedule events := by
  have h1 : ∀ s, Invert.boreholes (Spec.withSource env s) = Invert.boreholes env := fun _ => rfl
  have h2 : ∀ s, Invert.resultStations (Spec.withSource env s) = Invert.resultStations env :=
    fun _ => rfl
  have h5 : ∀ s, Invert.runShared (Spec.withSource env s) = Invert.runShared env := by
    intro s
    funext cfg args streams bands
    induction bands generalizing streams with
    | nil => rfl
    | cons band bands ih =>
      unfold Invert.runShared
      simp only [ih]
      rfl
  have h3 : ∀ s, Invert.runBands (Spec.withSource env s) = Invert.runBands env := by
    intro s
    unfold Invert.runBands Invert.runSequential Invert.runPool
    simp only [h5]
    rfl
  have h4 : ∀ s, Invert.tables (Spec.withSource env s) = Invert.tables env := fun _ => rfl
  unfold Invert.invert
  rw [select_source h]
  simp only [h1, h2, h3, h4]

open Invert in
theorem fetch_uninterrupted {env : Invert.Env} {cfg : InvCfg} {src : Spec.DataSource}
    (h : Spec.Uninterrupted src) (origins : Dict String Origin)
    (distances : Dict (String × String) ℝ) (st : OnsetState) (deep : String → Bool)
    (pair : String × String) :
    ∃ o, fetch (Spec.withSource env src) cfg origins distances st deep pair = .ok o := by
  have hg : ∃ raw, (Spec.withSource env src).getWaveforms pair.1 (pattern env pair.2)
      ((originAt origins pair.1).time + cfg.requestWindow.1)
      ((originAt origins pair.1).time + cfg.requestWindow.2) = .ok raw := by
    unfold Spec.withSource
    simp only
    cases hs : src pair.1 (pattern env pair.2) ((originAt origins pair.1).time + cfg.requestWindow.1)
      ((originAt origins pair.1).time + cfg.requestWindow.2) with
    | ok d => exact ⟨_, rfl⟩
    | error e => rw [h _ _ _ _ _ hs]; exact ⟨_, rfl⟩
  obtain ⟨raw, hg⟩ := hg
  unfold fetch
  simp only [show pattern (Spec.withSource env src) = pattern env from rfl]
  rw [hg]
  simp only [bind, Except.bind]
  split
  · exact ⟨_, rfl⟩
  · split <;> exact ⟨_, rfl⟩

open Invert in
/-- **C71**: a data source which is not interrupted never makes the selection of data fail: if it
fails, it fails for every other source as well. -/
theorem C71_no_failure {env : Invert.Env} {cfg : InvCfg} {src : Spec.DataSource}
    (h : Spec.Uninterrupted src) {events : List Event} {e : PyErr}
    (he : selectStreams (Spec.withSource env src) cfg events = .error e) (src' : Spec.DataSource) :
    selectStreams (Spec.withSource env src') cfg events = .error e := by
  unfold selectStreams at he ⊢
  cases ho : originsOf events with
  | error e' => rw [ho] at he; exact he
  | ok origins =>
    rw [ho] at he
    simp only [bind, Except.bind] at he ⊢
    cases ha : arrivalsIf cfg events with
    | error e' => rw [ha] at he; exact he
    | ok arrivals =>
      rw [ha] at he
      simp only at he ⊢
      have e1 : ∀ s, distLoop (Spec.withSource env s) cfg origins = distLoop env cfg origins :=
        fun _ => rfl
      rw [e1] at he ⊢
      split at he <;> rename_i hos
      · exact he
      · simp [pure, Except.pure] at he
      · exfalso
        rename_i os
        split_ifs at he
        · simp [pure, Except.pure] at he
        have hall : ∃ l, mapExc (fetch (Spec.withSource env src) cfg origins
            (distLoop env cfg origins).distances os (boreholes (Spec.withSource env src) origins))
            os.pairs = .ok l := by
          choose f hf using fetch_uninterrupted (env := env) (cfg := cfg) h origins
            (distLoop env cfg origins).distances os (boreholes (Spec.withSource env src) origins)
          refine ⟨os.pairs.map f, ?_⟩
          rw [mapExc_ok, List.forall₂_map_right_iff, List.forall₂_same]
          exact fun p _ => hf p
        obtain ⟨l, hl⟩ := hall
        rw [hl] at he
        simp only [pure, Except.pure] at he
        split_ifs at he

open Invert in
/-- **C71**: every pair which reaches the inversion has data from the source, pairs with failing
source are left out. -/
theorem C71_skipped {env : Invert.Env} {cfg : InvCfg} {src : Spec.DataSource} {events : List Event}
    {streams : List Stream}
    (h : selectStreams (Spec.withSource env src) cfg events = .ok (some streams)) {st : Stream}
    (hst : st ∈ streams) :
    ∃ sta t1 t2 traces, src st.event (pattern env sta) t1 t2 = .ok (some traces) ∧ traces ≠ [] := by
  unfold selectStreams at h
  obtain ⟨origins, -, h⟩ := bind_ok.1 h
  obtain ⟨arrivals, -, h⟩ := bind_ok.1 h
  simp only at h
  split at h
  · simp at h
  · simp [pure, Except.pure] at h
  · rename_i os hos
    split_ifs at h
    · simp [pure, Except.pure] at h
    obtain ⟨l, hl, h⟩ := bind_ok.1 h
    split_ifs at h
    · simp [pure, Except.pure] at h
    simp only [pure, Except.pure, Except.ok.injEq, Option.some.injEq] at h
    subst h
    have hc : ∃ s0 ∈ l.filterMap id, s0.event = st.event := by
      unfold correct at hst
      split_ifs at hst
      · obtain ⟨s0, h0, hs⟩ := List.mem_filterMap.1 hst
        simp only [Option.map_eq_some_iff] at hs
        obtain ⟨ch, -, rfl⟩ := hs
        exact ⟨s0, h0, rfl⟩
      · exact ⟨st, hst, rfl⟩
    obtain ⟨s0, h0, he⟩ := hc
    rw [← he]
    obtain ⟨o, ho, hs⟩ := List.mem_filterMap.1 h0
    simp only [id] at hs
    subst hs
    rw [mapExc_ok] at hl
    obtain ⟨i, hi, hio⟩ := List.getElem_of_mem ho
    have hp := hl.get (i := i) (by rw [hl.length_eq]; exact hi) hi
    simp only [List.get_eq_getElem] at hp
    rw [hio] at hp
    generalize os.pairs[i]'(by rw [hl.length_eq]; exact hi) = pair at hp
    unfold fetch at hp
    obtain ⟨raw, hraw, hp⟩ := bind_ok.1 hp
    split at hp
    · simp [pure, Except.pure] at hp
    · rename_i traces ht
      split_ifs at hp with h3
      · simp [pure, Except.pure] at hp
      simp only [pure, Except.pure, Except.ok.injEq, Option.some.injEq] at hp
      have hev : s0.event = pair.1 := by rw [← hp]; rfl
      rw [hev]
      have hraw' : (match waveformWrapper (src pair.1 (pattern env pair.2) _ _) with
        | .ok d => Except.ok d.join
        | .error _ => .error PyErr.other) = Except.ok raw := hraw
      generalize (originAt origins pair.1).time + cfg.requestWindow.1 = t1 at *
      generalize (originAt origins pair.1).time + cfg.requestWindow.2 = t2 at *
      cases raw with
      | none => simp [checkData] at ht
      | some raw =>
        refine ⟨pair.2, t1, t2, raw, ?_, ?_⟩
        · split at hraw'
          · rename_i d hd
            simp only [Except.ok.injEq] at hraw'
            cases d with
            | none => simp at hraw'
            | some d =>
              have := ((C71_wrapper _).1 d).1 hd
              rw [this]
              simp only [Option.join_some] at hraw'
              rw [hraw']
          · simp at hraw'
        · rintro rfl
          simp only [checkData, Option.some.injEq] at ht
          subst ht
          simp at h3

open PairsExample in
/-- The hypotheses can be met: a source which fails for one of two stations. -/
example : ∃ src src' : Spec.DataSource, Spec.EmptyInsteadOfFailing src src' ∧
    Spec.Uninterrupted src ∧ (∃ t, src "1" "GR.A..HH?" 0 1 = .ok (some t) ∧ t ≠ []) ∧
    src "1" "GR.B..HH?" 0 1 = .error .exception ∧ src' "1" "GR.B..HH?" 0 1 = .ok none := by
  refine ⟨fun _ pat t _ => if pat = "GR.A..HH?" then .ok (some [⟨"GR.A..HHZ", t, 1, [1]⟩])
      else .error .exception,
    fun _ pat t _ => if pat = "GR.A..HH?" then .ok (some [⟨"GR.A..HHZ", t, 1, [1]⟩]) else .ok none,
    ?_, ?_, ⟨[⟨"GR.A..HHZ", 0, 1, [1]⟩], by simp, by simp⟩, by simp, by simp⟩
  · intro ev pat t1 t2
    by_cases hp : pat = "GR.A..HH?"
    · left; simp [hp]
    · right; simp [hp]
  · intro ev pat t1 t2 e he
    by_cases hp : pat = "GR.A..HH?"
    · simp [hp] at he
    · simpa [hp] using he.symm

end Qopen
