import Verif.Model.Invert
import Verif.Lemmas.SiteTotal
import Verif.Props.TimeAxis

/-!
# C24: results and number of jobs
-/

namespace Qopen

open Real Util Tr Energy InvertFb Window Invert

namespace Invert

variable {env : Env} {cfg : InvCfg} {args : BandArgs} {streams : List Stream}

theorem runShared_one (band : ℝ × ℝ) :
    runShared env cfg args streams [band] = mapExc (runBand env cfg args streams) [band] := by
  unfold runShared runShared runBandInPlace mapExc mapExc
  cases runBand env cfg args streams band <;> rfl

/-- The result buffer after all chunks of the schedule have been stored. -/
theorem store_fold {β : Type} (f : ℕ → Py (List β)) (sched : List ℕ) (hn : sched.Nodup)
    (buf : List (List β)) (hs : ∀ i ∈ sched, i < buf.length) (out : List (List β)) :
    sched.foldlM (fun b i => store b i (f i)) buf = .ok out ↔
      out.length = buf.length ∧ (∀ i ∈ sched, ∃ r, f i = .ok r ∧ out[i]? = some r) ∧
      ∀ i, i ∉ sched → out[i]? = buf[i]? := by
  induction sched generalizing buf with
  | nil =>
    simp only [List.foldlM_nil, pure, Except.pure, Except.ok.injEq, List.not_mem_nil, false_imp_iff,
      implies_true, true_and, not_false_eq_true, forall_const]
    constructor
    · rintro rfl; simp
    · rintro ⟨-, h⟩; exact (List.ext_getElem? h).symm
  | cons a l ih =>
    rw [List.nodup_cons] at hn
    rw [List.foldlM_cons]
    cases hf : f a with
    | error e =>
      simp only [store, bind, Except.bind, hf]
      constructor
      · intro h; simp at h
      · rintro ⟨-, h, -⟩
        obtain ⟨r, h1, -⟩ := h a (by simp)
        rw [hf] at h1; simp at h1
    | ok r =>
      have ha := hs a (by simp)
      simp only [store, bind, Except.bind, hf, pure, Except.pure]
      have ih' := ih hn.2 (buf.set a r) (by intro i hi; simpa using hs i (by simp [hi]))
      simp only [store, bind, Except.bind, pure, Except.pure] at ih'
      refine Iff.trans ih' ?_
      rw [List.length_set]
      constructor
      · rintro ⟨h1, h2, h3⟩
        refine ⟨h1, ?_, ?_⟩
        · intro i hi
          rcases List.mem_cons.1 hi with rfl | hi
          · exact ⟨r, hf, by rw [h3 i hn.1, List.getElem?_set_self ha]⟩
          · exact h2 i hi
        · intro i hi
          simp only [List.mem_cons, not_or] at hi
          rw [h3 i hi.2, List.getElem?_set_ne (Ne.symm hi.1)]
      · rintro ⟨h1, h2, h3⟩
        refine ⟨h1, fun i hi => h2 i (by simp [hi]), ?_⟩
        intro i hi
        by_cases hia : i = a
        · subst hia
          obtain ⟨r', h4, h5⟩ := h2 i (by simp)
          rw [hf] at h4
          cases h4
          rw [h5, List.getElem?_set_self ha]
        · rw [List.getElem?_set_ne (Ne.symm hia), h3 i (by simp [hia, hi])]

/-- The outcome of the pool: the chunks in order, whatever the schedule. -/
theorem pool_spec (bands : List (ℝ × ℝ)) (workers : ℕ) (schedule : List ℕ)
    (hs : schedule.Perm (List.range (chunks (chunkSize bands.length workers) bands).length))
    (r : List (Option BandResult)) :
    runPool env cfg args streams bands workers schedule = .ok r ↔
      ∃ rs, mapExc (runShared env cfg args streams)
        (chunks (chunkSize bands.length workers) bands) = .ok rs ∧ r = rs.flatten := by
  unfold runPool
  simp only
  set cs := chunks (chunkSize bands.length workers) bands with hcs
  rw [bind_ok]
  simp only [pure, Except.pure, Except.ok.injEq]
  have hmem : ∀ i, i ∈ schedule ↔ i < cs.length := by
    intro i; rw [hs.mem_iff, List.mem_range]
  have key : ∀ out, schedule.foldlM (fun buf i =>
      store buf i (runShared env cfg args streams (cs.getD i []))) (List.replicate cs.length []) =
      .ok out ↔ mapExc (runShared env cfg args streams) cs = .ok out := by
    intro out
    rw [store_fold _ _ (hs.nodup_iff.2 List.nodup_range) _
      (by intro i hi; simpa using (hmem i).1 hi), mapExc_ok, List.forall₂_iff_get]
    rw [List.length_replicate]
    constructor
    · rintro ⟨h1, h2, -⟩
      refine ⟨h1.symm, ?_⟩
      intro i hi hi'
      obtain ⟨r, h3, h4⟩ := h2 i ((hmem i).2 hi)
      simp only [List.get_eq_getElem]
      rw [List.getElem?_eq_getElem hi'] at h4
      cases h4
      rw [← h3, List.getD_eq_getElem _ _ hi]
    · rintro ⟨h1, h2⟩
      refine ⟨h1.symm, ?_, ?_⟩
      · intro i hi
        have hi := (hmem i).1 hi
        have hi' : i < out.length := by omega
        refine ⟨out[i], ?_, List.getElem?_eq_getElem hi'⟩
        rw [List.getD_eq_getElem _ _ hi]
        exact h2 i hi hi'
      · intro i hi
        rw [hmem] at hi
        rw [List.getElem?_eq_none (by omega), List.getElem?_eq_none (by simp; omega)]
  constructor
  · rintro ⟨out, h1, rfl⟩; exact ⟨out, (key out).1 h1, rfl⟩
  · rintro ⟨out, h1, rfl⟩; exact ⟨out, (key out).2 h1, rfl⟩

theorem chunks_one {α : Type} (l : List α) : chunks 1 l = l.map (fun a => [a]) := by
  induction l with
  | nil => unfold chunks; simp
  | cons a l ih =>
    unfold chunks
    rw [dif_neg (by simp)]
    simp [ih]

theorem chunkSize_one {n workers : ℕ} (h0 : 0 < n) (h : n ≤ 4 * workers) :
    chunkSize n workers = 1 := by
  unfold chunkSize
  have hw : 0 < workers * 4 := by omega
  rcases Nat.lt_or_ge n (workers * 4) with h1 | h1
  · rw [Nat.mod_eq_of_lt h1, if_neg (by omega), Nat.div_eq_of_lt h1]
  · have : n = workers * 4 := by omega
    rw [this, Nat.mod_self, if_pos rfl, Nat.div_self hw]

theorem mapExc_singletons {α β : Type} (f : α → Py β) (g : List α → Py (List β))
    (hg : ∀ a, g [a] = mapExc f [a]) (l : List α) (r : List β) :
    (∃ rs, mapExc g (l.map (fun a => [a])) = .ok rs ∧ r = rs.flatten) ↔ mapExc f l = .ok r := by
  induction l generalizing r with
  | nil =>
    simp only [List.map_nil, mapExc, Except.ok.injEq]
    constructor
    · rintro ⟨_, rfl, rfl⟩; rfl
    · rintro rfl; exact ⟨_, rfl, rfl⟩
  | cons a l ih =>
    have hc : ∀ {α β : Type} (f : α → Py β) (a : α) (l : List α), mapExc f (a :: l) = (do
        let b ← f a
        let bs ← mapExc f l
        return b :: bs) := fun _ _ _ => rfl
    rw [List.map_cons, hc g, hc f, hg, hc f]
    have hnil : mapExc f [] = .ok [] := rfl
    rw [hnil]
    cases hfa : f a with
    | error e => simp [bind, Except.bind]
    | ok b =>
      simp only [bind, Except.bind, pure, Except.pure]
      constructor
      · rintro ⟨rs, h, rfl⟩
        cases hm : mapExc g (l.map (fun a => [a])) with
        | error e => rw [hm] at h; simp at h
        | ok rs' =>
          rw [hm] at h
          simp only [Except.ok.injEq] at h
          subst h
          rw [(ih rs'.flatten).1 ⟨rs', hm, rfl⟩]
          simp
      · intro h
        cases hm : mapExc f l with
        | error e => rw [hm] at h; simp at h
        | ok r' =>
          rw [hm] at h
          simp only [Except.ok.injEq] at h
          subst h
          obtain ⟨rs, h1, h2⟩ := (ih r').2 hm
          rw [h1]
          exact ⟨[b] :: rs, rfl, by simp [← h2]⟩

end Invert

/-- **C24** With one job every band is inverted with the original waveforms. -/
theorem C24_sequential (env : Env) (cfg : InvCfg) (args : BandArgs) (streams : List Stream)
    (bands : List (ℝ × ℝ)) :
    runSequential env cfg args streams bands = mapExc (runBand env cfg args streams) bands := by
  unfold runSequential
  split
  · rfl
  · rename_i h
    match bands, h with
    | [], _ => rfl
    | [b], _ => exact runShared_one b
    | _ :: _ :: _, h => exact absurd h (by simp)

/-- **C24** The results of a pool do not depend on the order in which the tasks are finished. -/
theorem C24_schedule (env : Env) (cfg : InvCfg) (args : BandArgs) (streams : List Stream)
    (bands : List (ℝ × ℝ)) (workers : ℕ) {s s' : List ℕ}
    (hs : s.Perm (List.range (chunks (chunkSize bands.length workers) bands).length))
    (hs' : s'.Perm (List.range (chunks (chunkSize bands.length workers) bands).length))
    {r : List (Option BandResult)}
    (h : runPool env cfg args streams bands workers s = .ok r) :
    runPool env cfg args streams bands workers s' = .ok r :=
  (pool_spec bands workers s' hs' r).2 ((pool_spec bands workers s hs r).1 h)

/-- **C24** (partial: only for up to four bands per worker) The results for any number of workers
and any order in which the tasks are finished are those of sequential processing, and each of them
is obtained from the original waveforms. -/
theorem C24_any_number_of_workers_partial (env : Env) (cfg : InvCfg) (args : BandArgs)
    (streams : List Stream) (bands : List (ℝ × ℝ)) (workers : ℕ) (hw : bands.length ≤ 4 * workers)
    {schedule : List ℕ} (hs : schedule.Perm
      (List.range (chunks (chunkSize bands.length workers) bands).length))
    (r : List (Option BandResult)) :
    runPool env cfg args streams bands workers schedule = .ok r ↔
      runSequential env cfg args streams bands = .ok r := by
  rw [pool_spec bands workers schedule hs r, C24_sequential]
  by_cases h0 : bands.length = 0
  · have : bands = [] := List.length_eq_zero_iff.1 h0
    subst this
    have hc : chunks (chunkSize ([] : List (ℝ × ℝ)).length workers) ([] : List (ℝ × ℝ)) = [] := by
      unfold chunks; simp
    rw [hc]
    simp only [mapExc, Except.ok.injEq]
    constructor
    · rintro ⟨_, rfl, rfl⟩; rfl
    · rintro rfl; exact ⟨_, rfl, rfl⟩
  · rw [chunkSize_one (by omega) hw, chunks_one]
    exact mapExc_singletons _ _ runShared_one bands r

namespace JobsExample

/-- Signal without energy in the lowest band: its filter removes everything, all other filters
let everything pass. -/
noncomputable def exFilt : FilterSpec → ℝ → List ℝ → List ℝ
  | .highpass _, _, l => l
  | .bandpass f _, _, l => if f < 0.015 then l.map (fun _ => 0) else l

noncomputable def exEnv : Env :=
  { channels := [".A..Z"], setOrder := List.dedup
    coords := fun _ _ => some ⟨0, 0, 0, 0⟩, gps := fun _ _ _ _ => some 0
    getWaveforms := fun _ _ _ _ => .ok (some [⟨".A..Z", 0, 1, [0, 0, 2, 1, 1]⟩,
      ⟨".A..N", 0, 1, [0, 0, 2, 1, 1]⟩, ⟨".A..E", 0, 1, [0, 0, 2, 1, 1]⟩])
    numGaps := fun _ => 0, merge := id, response := fun _ => none
    lib := { float := TimeAxisExample.exFloat, hilbert := fun l => l, filt := exFilt, width := fun _ _ => 1 }
    wls := someWls, G := fun _ t _ _ => .ok (t.map (fun _ => 1)), minimize := fun _ => .ok 1
    orc := ⟨fun _ _ => [], fun _ _ => [], fun _ => (0, 0), fun _ _ => 0, fun _ x _ => x⟩ }

noncomputable def exCfg (njobs : Option ℕ) : InvCfg :=
  { requestWindow := (0, 4), freqs := .cfreqs [0.25] 1, rho0 := 1, njobs := njobs
    vp := some 1, vs := some 1
    wcfg := { freqBand := (0, 0), rho0 := 1, noiseFunc := fun _ => 0, v0 := some 1
              skipMaximum := some (.one "OT+1s".toList, .one "OT+4s".toList)
              codaWindow := (.one "OT+3s".toList, .one "OT+4s".toList) }
    inv := { g0Bounds := none, bBounds := none, v0 := 1 } }

/-- The stream with all channels multiplied by `x`. -/
noncomputable def exStream (x : ℝ) : Stream :=
  { event := "e", station := "A", start := 0, sr := 1
    channels := [[0, 0, 2 * x, x, x], [0, 0, 2 * x, x, x], [0, 0, 2 * x, x, x]]
    origin := 0, ponset := 1, sonset := 1, distance := 1 }

/-- No fixed parameters. -/
def exArgs : BandArgs := { fix := false, sites := false }

/-- Nine frequency bands. -/
noncomputable def exBands : List (ℝ × ℝ) :=
  (List.range 9).map (fun i : ℕ => (0.01 * ((i : ℝ) + 1), 0.01 * ((i : ℝ) + 2)))

/-- The envelope of the stream. -/
noncomputable def exEnergy (x : ℝ) : Trace :=
  { event := "e", station := "A", start := 0, sr := 1
    data := [0, 0, 3 * x ^ 2, 3 / 4 * x ^ 2, 3 / 4 * x ^ 2]
    origin := 0, ponset := 1, sonset := 1, distance := 1, noise := none }

open TimeAxisExample

/-- What remains of the factor after the filter. -/
noncomputable def gain (band : ℝ × ℝ) (x : ℝ) : ℝ := if band.1 < 0.015 then 0 else x

theorem ex_filtered (njobs : Option ℕ) (x : ℝ) {band : ℝ × ℝ} (hb : band.1 + band.2 ≤ 1)
    (hb2 : band.2 ≤ 0.495) :
    filtered exEnv (bandWCfg (exCfg njobs) exArgs band) (exStream x) = exStream (gain band x) := by
  unfold filtered
  rw [if_neg (by simpa [bandWCfg, exStream] using hb), if_neg (by simp [bandWCfg, exArgs])]
  unfold filterSpec
  rw [if_neg (by simpa [bandWCfg, exStream] using hb2)]
  unfold gain
  by_cases h : band.1 < 0.015
  · simp [exEnv, exFilt, bandWCfg, exStream, h]
  · simp [exEnv, exFilt, bandWCfg, exStream, h]

theorem ex_energies (njobs : Option ℕ) (x : ℝ) {band : ℝ × ℝ} (hb : band.1 + band.2 ≤ 1)
    (hb2 : band.2 ≤ 0.495) :
    energies exEnv.lib (bandWCfg (exCfg njobs) exArgs band) [exStream x] =
      .ok [exEnergy (gain band x)] := by
  have hf := ex_filtered njobs x hb hb2
  unfold filtered at hf
  rw [if_neg (by simpa [bandWCfg, exStream] using hb), if_neg (by simp [bandWCfg, exArgs])] at hf
  have h1 : energyOf exEnv.lib (bandWCfg (exCfg njobs) exArgs band) (exStream x) =
      .ok (some (exEnergy (gain band x))) := by
    unfold energyOf
    rw [if_neg (by simpa [bandWCfg, exStream] using hb), if_neg (by simp [bandWCfg, exArgs])]
    simp only
    rw [hf]
    have : observedEnergy exEnv.lib.hilbert (exStream (gain band x))
        (bandWCfg (exCfg njobs) exArgs band).rho0
        (exEnv.lib.width (exStream x).sr (filterSpec (bandWCfg (exCfg njobs) exArgs band)
          (exStream x).sr)) (bandWCfg (exCfg njobs) exArgs band).codaNorm
        (freeSurfaceOf (bandWCfg (exCfg njobs) exArgs band) (exStream x)) =
        .ok (exEnergy (gain band x)) := by
      unfold observedEnergy
      simp only [exStream, energy1c, exEnv, bandWCfg, exCfg, freeSurfaceOf, List.map_cons, List.map_nil,
        List.zipWith_cons_cons, List.zipWith_nil_left, List.length_cons, List.length_nil, minLen,
        maxLen, List.foldl_cons, List.foldl_nil, sumAxis0, List.range_succ, List.range_zero]
      norm_num [exEnergy, List.range_succ]
      rw [if_neg (by simp)]
      ring_nf
    rw [this]
  have h2 : noiseStep exEnv.lib (bandWCfg (exCfg njobs) exArgs band) (exEnergy (gain band x)) =
      .ok (some (exEnergy (gain band x))) := by
    unfold noiseStep adjust
    simp [bandWCfg, exCfg, mapExc, bind, Except.bind, pure, Except.pure]
  unfold energies
  simp [mapExc, h1, h2, bind, Except.bind, pure, Except.pure]

theorem ex_slice (x : ℝ) : getSlice (exEnergy x) (3, 4) =
    some { exEnergy x with start := 3, data := [3 / 4 * x ^ 2, 3 / 4 * x ^ 2] } := by
  have := slice_int (tr := exEnergy x) rfl rfl (a := 3) (b := 4) (by norm_num) (by simp [exEnergy])
  push_cast at this
  rw [this]
  simp [exEnergy]

theorem ex_tw14 (x : ℝ) : tw2utc exFloat (.one "OT+1s".toList, .one "OT+4s".toList) (exEnergy x)
    = .ok (1, 4) := ex_tw rfl (num := "+1".toList) (num' := "+4".toList) (by decide)
      (by simp [exFloat]) (by decide) (by simp [exFloat])

theorem ex_tw34 (x : ℝ) : tw2utc exFloat (.one "OT+3s".toList, .one "OT+4s".toList) (exEnergy x)
    = .ok (3, 4) := ex_tw rfl (num := "+3".toList) (num' := "+4".toList) (by decide)
      (by simp [exFloat]) (by decide) (by simp [exFloat])

/-- The data of the inversion. -/
noncomputable def exBand (y : ℝ) (tw : Dict (String × String) (ℝ × ℝ)) : Band :=
  ⟨[("e", "A")], [(("e", "A"), 1)], [[3, 4]], [[3 / 4 * y ^ 2, 3 / 4 * y ^ 2]], [], [], [], tw⟩

theorem ex_zero (njobs : Option ℕ) {x : ℝ} {band : ℝ × ℝ} (hb : band.1 + band.2 ≤ 1)
    (hb2 : band.2 ≤ 0.495) (hx : gain band x = 0) :
    runBand exEnv (exCfg njobs) exArgs [exStream x] band = .ok none := by
  unfold runBand
  simp only [exArgs, Bool.false_eq_true, if_false]
  unfold invertFb
  rw [if_neg (by simp)]
  have he := ex_energies njobs x hb hb2
  rw [hx] at he
  simp only [exArgs] at he
  rw [he]
  have hw : ∃ st, windows exEnv.lib (bandWCfg (exCfg njobs) exArgs band) 1 [exEnergy 0] = .ok st ∧
      st.Ecoda = [] := by
    unfold windows
    simp only [List.foldlM_cons, List.foldlM_nil]
    unfold step codaPart smoothTrace cutCoda checkMaximum
    simp only [bandWCfg, exCfg, exEnv, bind, Except.bind, pure, Except.pure, ex_tw34, ex_tw14]
    rw [if_neg (by norm_num)]
    have ha : argmax (exEnergy 0).data = .ok 0 := by
      simp [argmax, exEnergy]
    rw [ha]
    simp only
    rw [if_neg (by norm_num [exEnergy])]
    exact ⟨_, rfl, rfl⟩
  obtain ⟨st, h1, h2⟩ := hw
  simp only [exArgs] at h1
  simp only [bind, Except.bind, velocity]
  have hv : (bandWCfg (exCfg njobs) { fix := false, sites := false } band).v0 = some 1 := rfl
  rw [hv]
  simp only [h1, h2]
  rw [if_pos (by simp)]
  rfl

theorem ex_one (njobs : Option ℕ) {x : ℝ} {band : ℝ × ℝ} (hb : band.1 + band.2 ≤ 1)
    (hb2 : band.2 ≤ 0.495) (hx : gain band x ≠ 0) :
    ∃ r, runBand exEnv (exCfg njobs) exArgs [exStream x] band = .ok (some r) ∧ r.error ≠ ⊤ := by
  set y := gain band x with hy
  have hy2 : 0 < y ^ 2 := by positivity
  unfold runBand
  simp only [exArgs, Bool.false_eq_true, if_false]
  unfold invertFb
  rw [if_neg (by simp)]
  have he := ex_energies njobs x hb hb2
  rw [← hy] at he
  simp only [exArgs] at he
  rw [he]
  have hw : ∃ st, windows exEnv.lib (bandWCfg (exCfg njobs) exArgs band) 1 [exEnergy y] = .ok st ∧
      st.energies = [("e", "A")] ∧ st.distances = [(("e", "A"), 1)] ∧ st.tcoda = [[3, 4]] ∧
      st.Ecoda = [[3 / 4 * y ^ 2, 3 / 4 * y ^ 2]] ∧ st.tbulk = [] ∧ st.Ebulk = [] ∧
      st.weightsBulk = [] := by
    unfold windows
    simp only [List.foldlM_cons, List.foldlM_nil]
    unfold step codaPart smoothTrace cutCoda checkMaximum
    simp only [bandWCfg, exCfg, exEnv, bind, Except.bind, pure, Except.pure, ex_tw34, ex_tw14]
    rw [if_neg (by norm_num)]
    have ha : argmax (exEnergy y).data = .ok 2 := by
      have h3 : (0 : ℝ) ≤ 3 * y ^ 2 := by positivity
      have h4 : 3 / 4 * y ^ 2 ≤ 3 * y ^ 2 := by linarith
      have h5 : (0 : ℝ) ≠ 3 * y ^ 2 := by positivity
      have h6 : ¬ y = 0 := hx
      simp [argmax, exEnergy, max_eq_right h3, max_eq_left h4, List.idxOf_cons, h6]
    rw [ha]
    simp only
    rw [if_pos (by norm_num [exEnergy])]
    unfold collect
    rw [ex_slice]
    refine ⟨_, rfl, rfl, rfl, ?_, rfl, rfl, rfl, rfl⟩
    simp [timeAxis, exEnergy, List.range_succ]
    norm_num
  obtain ⟨st, h1, h2, h3, h4, h5, h6, h7, h8⟩ := hw
  simp only [exArgs] at h1
  simp only [bind, Except.bind, velocity]
  have hv : (bandWCfg (exCfg njobs) { fix := false, sites := false } band).v0 = some 1 := rfl
  rw [hv]
  simp only [h1, h5]
  rw [if_neg (by norm_num [bandWCfg, exCfg])]
  have hbd : st.band = (exBand y st.tbulkWindow) := by
    unfold WState.band exBand
    rw [h2, h3, h4, h5, h6, h7, h8]
  rw [hbd]
  set c := fullCfg (bandWCfg (exCfg njobs) { fix := false, sites := false } band)
    { (exCfg njobs).inv with fix := false, fixParams := (none, none) } 1 with hc
  have e1 : c.fixSites = false := rfl
  have e2 : c.bulk = false := rfl
  have e3 : c.fix = false := rfl
  have e4 : c.optimize = true := rfl
  have e5 : c.smooth = none := rfl
  have e6 : c.bBounds = none := rfl
  have e7 : c.g0Bounds = none := rfl
  clear_value c
  unfold solveBand bandFit
  rw [if_neg (by simp [e3]), if_pos e4]
  have hG : greensAll exEnv.G c (exBand y st.tbulkWindow) 1 = .ok [1, 1] := by
    simp [exBand, greensAll, mapExc, greensOfPair, gsmooth, smoothFunc, e5, e2, pyGet, dictGet, Dict.get?, exEnv,
      bind, Except.bind, pure, Except.pure]
  have hl : ∃ f, lstsq exEnv.wls exEnv.G c (exBand y st.tbulkWindow) 1 none false = .ok f ∧
      f.err ≠ ⊤ := by
    unfold lstsq
    rw [hG]
    simp only [siteRefs, siteRefsShort, e1, Bool.false_eq_true, if_false, bind, Except.bind, energiesObs, exBand]
    have hpos : ¬ (3 / 4 * y ^ 2 ≤ 0) := by push Not; positivity
    have a1 : ¬ ([[3 / 4 * y ^ 2, 3 / 4 * y ^ 2]].flatten ++ ([] : List ℝ)).length ≠
        ([1, 1] : List ℝ).length := by simp
    have a2 : ¬ ((∃ e ∈ [[3 / 4 * y ^ 2, 3 / 4 * y ^ 2]].flatten ++ ([] : List ℝ), e ≤ 0) ∨
        ∃ g ∈ ([1, 1] : List ℝ), g ≤ 0) := by
      rintro (⟨e, he, h0⟩ | ⟨e, he, h0⟩)
      · simp only [List.flatten_cons, List.flatten_nil, List.append_nil, List.mem_cons,
          List.not_mem_nil, or_false, or_self] at he
        rw [he] at h0
        exact hpos h0
      · simp only [List.mem_cons, List.not_mem_nil, or_false, or_self] at he
        rw [he] at h0
        norm_num at h0
    simp only [a1, a2, if_false, pure, Except.pure]
    unfold fitOf
    simp only [e3, Bool.false_eq_true, if_false]
    refine ⟨_, rfl, ?_⟩
    simp [outside, e6, e7]
  obtain ⟨f, hf, hferr⟩ := hl
  have hm : ∀ g, exEnv.minimize g = .ok 1 := fun _ => rfl
  simp only [hm, hf, bind, Except.bind, pure, Except.pure, Option.bind_some]
  unfold report
  rw [if_neg (by simp [nearBounds, e6, e7])]
  exact ⟨_, rfl, hferr⟩

theorem ex_band (njobs : Option ℕ) (x : ℝ) {band : ℝ × ℝ} (hb : band.1 + band.2 ≤ 1)
    (hb2 : band.2 ≤ 0.495) : ∃ r, runBand exEnv (exCfg njobs) exArgs [exStream x] band = .ok r := by
  by_cases hx : gain band x = 0
  · exact ⟨_, ex_zero njobs hb hb2 hx⟩
  · obtain ⟨r, hr, -⟩ := ex_one njobs hb hb2 hx
    exact ⟨_, hr⟩

theorem ex_shared (njobs : Option ℕ) (x : ℝ) {bands : List (ℝ × ℝ)}
    (hb : ∀ band ∈ bands, band.1 + band.2 ≤ 1 ∧ band.2 ≤ 0.495) :
    ∃ r, runShared exEnv (exCfg njobs) exArgs [exStream x] bands = .ok r := by
  induction bands generalizing x with
  | nil => exact ⟨[], rfl⟩
  | cons band bands ih =>
    obtain ⟨h1, h2⟩ := hb band (by simp)
    obtain ⟨r, hr⟩ := ex_band njobs x h1 h2
    obtain ⟨rs, hrs⟩ := ih (gain band x) (fun b h => hb b (by simp [h]))
    unfold runShared runBandInPlace
    simp only [hr, bind, Except.bind, pure, Except.pure, List.map_cons, List.map_nil,
      ex_filtered njobs x h1 h2, hrs]
    exact ⟨_, rfl⟩

theorem ex_bands : ∀ band ∈ exBands, band.1 + band.2 ≤ 1 ∧ band.2 ≤ 0.495 := by
  intro band hb
  simp only [exBands, List.mem_map, List.mem_range] at hb
  obtain ⟨i, hi, rfl⟩ := hb
  have : (i : ℝ) ≤ 8 := by exact_mod_cast Nat.lt_succ_iff.1 hi
  constructor
  · simp only; linarith
  · simp only; linarith

theorem mem_of_chunk {α : Type} {n : ℕ} {l c : List α} (hc : c ∈ chunks n l) : ∀ a ∈ c, a ∈ l := by
  induction h : l.length using Nat.strong_induction_on generalizing l with
  | _ m ih =>
    unfold chunks at hc
    split at hc
    · simp at hc
    · rename_i h0
      push Not at h0
      rcases List.mem_cons.1 hc with rfl | hc
      · intro a ha; exact List.mem_of_mem_take ha
      · intro a ha
        have := List.length_pos_iff.2 h0.2
        exact List.mem_of_mem_drop (ih (l.drop n).length (by rw [List.length_drop]; omega) hc rfl a ha)

end JobsExample

open JobsExample in
/-- **C24** (counterexample to the full claim) With nine bands and two jobs the pool hands two bands
to a worker at a time; the second one gets waveforms which have already been filtered for the first
one.  Here the second band has a result with one job and none with two jobs. -/
theorem C24_counterexample : ∃ (env : Env) (cfg : Option ℕ → InvCfg) (args : BandArgs)
    (streams : List Stream) (bands : List (ℝ × ℝ)),
    bands.length = 9 ∧ (∀ n, cfg n = { cfg none with njobs := n }) ∧
    ∃ r1, runBands env (cfg (some 1)) args streams bands 1 [] = .ok r1 ∧
    (∃ x, r1[1]? = some (some x)) ∧
    ∀ schedule : List ℕ, schedule.Perm (List.range (chunks (chunkSize bands.length 2) bands).length) →
      ∃ r2, runBands env (cfg (some 2)) args streams bands 1 schedule = .ok r2 ∧
        r2[1]? = some none := by
  refine ⟨exEnv, exCfg, exArgs, [exStream 1], exBands, by simp [exBands], fun n => rfl, ?_⟩
  have hb := ex_bands
  obtain ⟨r1, hr1⟩ : ∃ r, mapExc (runBand exEnv (exCfg (some 1)) exArgs [exStream 1]) exBands = .ok r :=
    Site.mapExc_total (fun b h => ex_band _ _ (hb b h).1 (hb b h).2)
  have h9 : exBands.length = 9 := by simp [exBands]
  have g0 : ∀ x, gain exBands[0] x = 0 := by
    intro x
    unfold gain
    rw [if_pos]
    norm_num [exBands]
  have g1 : ∀ x, gain exBands[1] x = x := by
    intro x
    unfold gain
    rw [if_neg]
    norm_num [exBands]
  have hb0 := hb exBands[0] (List.getElem_mem (by omega))
  have hb1 := hb exBands[1] (List.getElem_mem (by omega))
  refine ⟨r1, ?_, ?_, ?_⟩
  · unfold runBands
    rw [if_pos (by simp [exCfg]), C24_sequential]
    exact hr1
  · have hf := mapExc_ok.1 hr1
    have hl : 1 < r1.length := by rw [← hf.length_eq]; omega
    have := hf.get (i := 1) (by omega) hl
    obtain ⟨r, hr, -⟩ := ex_one (some 1) (x := 1) hb1.1 hb1.2 (by rw [g1]; norm_num)
    simp only [List.get_eq_getElem] at this
    rw [hr] at this
    simp only [Except.ok.injEq] at this
    exact ⟨r, by rw [List.getElem?_eq_getElem hl, ← this]⟩
  · intro schedule hs
    obtain ⟨rs, hrs⟩ : ∃ rs, mapExc (runShared exEnv (exCfg (some 2)) exArgs [exStream 1])
        (chunks (chunkSize exBands.length 2) exBands) = .ok rs :=
      Site.mapExc_total (fun c hc => ex_shared _ _ (fun b h => hb b (mem_of_chunk hc b h)))
    refine ⟨rs.flatten, ?_, ?_⟩
    · unfold runBands
      rw [if_neg (by simp [exCfg]), if_neg (by simp [exCfg])]
      exact (pool_spec _ _ _ hs _).2 ⟨rs, hrs, rfl⟩
    · have hcs : chunkSize exBands.length 2 = 2 := by rw [h9]; rfl
      rw [hcs] at hrs
      have hc : chunks 2 exBands = [exBands[0], exBands[1]] :: chunks 2 (exBands.drop 2) := by
        conv_lhs => unfold chunks
        rw [dif_neg (by simp [exBands])]
        congr 1
      rw [hc] at hrs
      have hf := mapExc_ok.1 hrs
      cases hf with
      | cons h _ =>
        unfold runShared runShared runShared runBandInPlace at h
        simp only [ex_zero (some 2) hb0.1 hb0.2 (g0 1), bind, Except.bind, pure, Except.pure,
          List.map_cons, List.map_nil, ex_filtered (some 2) 1 hb0.1 hb0.2, g0,
          ex_zero (some 2) hb1.1 hb1.2 (g1 0), Except.ok.injEq] at h
        subst h
        rfl

end Qopen
