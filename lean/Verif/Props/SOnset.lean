import Verif.Props.BandSteps
import Verif.Props.TimeAxis
import Verif.Props.Jobs

/-!
# Adjusted S-onsets: C104
-/

namespace Qopen

open Real Util Tr Energy Spec Window

namespace Spec

/-- Sample `k` is the first one with the largest value in the time window `(t1, t2)`; at the ends of the
window samples are assigned to the window up to half a sampling interval. -/
def FirstPeak (tr : Trace) (t1 t2 : ℝ) (k : ℕ) : Prop :=
  ∃ x, tr.data[k]? = some x ∧
    t1 - 1 / 2 / tr.sr ≤ trueTime tr k ∧ trueTime tr k ≤ t2 + 1 / 2 / tr.sr ∧
    ∀ j y, tr.data[j]? = some y → t1 ≤ trueTime tr j → trueTime tr j ≤ t2 →
      y ≤ x ∧ (j < k → y < x)

/-- The metadata and samples of two traces agree except for the S-onset. -/
def SameButOnset (a b : Trace) : Prop := { a with sonset := b.sonset } = b

end Spec

theorem le_foldl_max (l : List ℝ) : ∀ x : ℝ, x ≤ l.foldl max x ∧ ∀ y ∈ l, y ≤ l.foldl max x := by
  induction l with
  | nil => intro x; simp
  | cons a l ih =>
    intro x
    obtain ⟨h1, h2⟩ := ih (max x a)
    rw [List.foldl_cons]
    refine ⟨(le_max_left _ _).trans h1, ?_⟩
    intro y hy
    rcases List.mem_cons.1 hy with rfl | hy
    · exact (le_max_right _ _).trans h1
    · exact h2 y hy

theorem foldl_max_mem (l : List ℝ) : ∀ x : ℝ, l.foldl max x ∈ x :: l := by
  induction l with
  | nil => intro x; simp
  | cons a l ih =>
    intro x
    rw [List.foldl_cons]
    rcases List.mem_cons.1 (ih (max x a)) with h | h
    · rw [h]
      rcases max_choice x a with e | e <;> rw [e] <;> simp
    · exact List.mem_cons_of_mem _ (List.mem_cons_of_mem _ h)

/-- `np.argmax` is the first position of the largest value. -/
theorem argmax_spec {d : List ℝ} {i : ℕ} (h : argmax d = .ok i) :
    ∃ x, d[i]? = some x ∧ ∀ (j : ℕ) y, d[j]? = some y → y ≤ x ∧ (j < i → y < x) := by
  cases d with
  | nil => simp [argmax] at h
  | cons a l =>
    simp only [argmax, Except.ok.injEq] at h
    have hm := foldl_max_mem l a
    have hlt := List.idxOf_lt_length_iff.2 hm
    refine ⟨l.foldl max a, ?_, ?_⟩
    · rw [← h, List.getElem?_eq_getElem hlt, List.getElem_idxOf hlt]
    · intro j y hj
      have hy : y ∈ a :: l := List.mem_of_getElem? hj
      have hle : y ≤ l.foldl max a := by
        obtain ⟨h1, h2⟩ := le_foldl_max l a
        rcases List.mem_cons.1 hy with rfl | hy
        · exact h1
        · exact h2 y hy
      refine ⟨hle, fun hji => lt_of_le_of_ne hle ?_⟩
      intro e
      obtain ⟨hjl, he⟩ := List.getElem?_eq_some_iff.1 hj
      rw [← h] at hji
      have := List.not_of_lt_findIdx (p := (· == l.foldl max a)) (xs := a :: l) hji
      simp [he, e] at this

/-- The onset which is found in a window. -/
theorem adjust_spec {lib : Lib} {cfg : WCfg} {tr tr' : Trace} {w : Tw} {mw : ℝ × ℝ}
    (hw : cfg.adjustWindow = some w) (hmw : tw2utc lib.float w tr = .ok mw) (hsr : 0 < tr.sr)
    (h : adjust lib cfg tr = .ok tr') :
    SameButOnset tr tr' ∧ ∃ k, FirstPeak tr mw.1 mw.2 k ∧
      (tr.start ≤ mw.1 → |tr'.sonset - trueTime tr k| ≤ 1 / 2 / tr.sr) ∧
      (mw.1 ≤ tr.start → tr'.sonset = trueTime tr k - (tr.start - mw.1)) := by
  unfold adjust at h
  rw [hw] at h
  simp only [hmw] at h
  obtain ⟨mw', e, h⟩ := bind_ok.1 h
  cases e
  obtain ⟨sl, hsl, h⟩ := bind_ok.1 h
  obtain ⟨i, hi, h⟩ := bind_ok.1 h
  simp only [pure, Except.pure, Except.ok.injEq] at h
  subst h
  refine ⟨rfl, ?_⟩
  obtain ⟨n, m, hn, hd, hin, hall, -⟩ := slice_spec hsr hsl
  obtain ⟨x, hx, hmax⟩ := argmax_spec hi
  have hget : ∀ j, sl.data[j]? = if j < m then tr.data[n + j]? else none := by
    intro j
    rw [hd, List.getElem?_take, List.getElem?_drop]
  have him : i < m := by
    by_contra hc
    rw [hget, if_neg hc] at hx
    simp at hx
  have hx' : tr.data[n + i]? = some x := by rw [hget, if_pos him] at hx; exact hx
  obtain ⟨hl, -⟩ := List.getElem?_eq_some_iff.1 hx'
  refine ⟨n + i, ⟨x, hx', (hin _ (by omega) (by omega) hl).1, (hin _ (by omega) (by omega) hl).2,
    ?_⟩, ?_, ?_⟩
  · intro j y hj h1 h2
    obtain ⟨hjl, -⟩ := List.getElem?_eq_some_iff.1 hj
    obtain ⟨ha, hb⟩ := hall j hjl h1 h2
    have := hmax (j - n) y (by rw [hget, if_pos (by omega), show n + (j - n) = j by omega]; exact hj)
    exact ⟨this.1, fun hjk => this.2 (by omega)⟩
  · intro hs
    have := hn.2 hs
    have e : mw.1 + (i : ℝ) / tr.sr - trueTime tr (n + i) = -(tr.start + n / tr.sr - mw.1) := by
      unfold trueTime
      push_cast
      ring
    simp only
    rw [e, abs_neg]
    exact this
  · intro hs
    have := hn.1 hs
    subst this
    unfold trueTime
    push_cast
    ring

theorem noiseStep_adjust {lib : Lib} {cfg : WCfg} {tr tr' : Trace}
    (h : noiseStep lib cfg tr = .ok (some tr')) :
    ∃ t, adjust lib cfg t = .ok tr' ∧ t.sonset = tr.sonset ∧ t.pair = tr.pair ∧ t.sr = tr.sr ∧
      t.start = tr.start := by
  unfold noiseStep at h
  obtain ⟨ls, hls, h⟩ := bind_ok.1 h
  simp only at h
  generalize ls.filterMap id = levels at h
  by_cases h0 : levels.length = 0
  · rw [if_pos h0] at h
    by_cases hr : cfg.removeNoise = true
    · rw [if_pos hr] at h
      simp [pure, Except.pure] at h
    · rw [if_neg hr] at h
      obtain ⟨t, ht, h⟩ := bind_ok.1 h
      simp only [pure, Except.pure, Except.ok.injEq, Option.some.injEq] at h
      subst h
      exact ⟨_, ht, rfl, rfl, rfl, rfl⟩
  · rw [if_neg h0] at h
    obtain ⟨t, ht, h⟩ := bind_ok.1 h
    simp only [pure, Except.pure, Except.ok.injEq, Option.some.injEq] at h
    subst h
    refine ⟨_, ht, ?_⟩
    split <;> exact ⟨rfl, rfl, rfl, rfl⟩

theorem energyOf_meta {lib : Lib} {cfg : WCfg} {s : Stream} {tr : Trace}
    (h : Window.energyOf lib cfg s = .ok (some tr)) :
    tr.sonset = s.sonset ∧ tr.pair = (s.event, s.station) ∧ tr.sr = s.sr ∧ tr.start = s.start := by
  unfold Window.energyOf at h
  split at h
  · simp at h
  split at h
  · simp at h
  simp only at h
  split at h
  next t ht =>
    simp only [Except.ok.injEq, Option.some.injEq] at h
    subst h
    unfold observedEnergy at ht
    simp only at ht
    split at ht
    · simp at ht
    split at ht
    · simp at ht
    split at ht
    · simp only [Except.ok.injEq] at ht
      subst ht
      exact ⟨rfl, rfl, rfl, rfl⟩
    · unfold normalise at ht
      obtain ⟨sl, -, ht⟩ := bind_ok.1 ht
      split at ht
      · simp at ht
      · simp only [Except.ok.injEq] at ht
        subst ht
        exact ⟨rfl, rfl, rfl, rfl⟩
  · simp at h
  · simp at h

theorem energies_mem {lib : Lib} {cfg : WCfg} {streams : List Stream} {trs : List Trace}
    (h : energies lib cfg streams = .ok trs) : ∀ tr' ∈ trs, ∃ s ∈ streams, ∃ t,
      adjust lib cfg t = .ok tr' ∧ t.sonset = s.sonset ∧ t.pair = (s.event, s.station) ∧
      t.sr = s.sr ∧ t.start = s.start := by
  unfold energies at h
  obtain ⟨es, h1, h⟩ := bind_ok.1 h
  obtain ⟨es', h2, h⟩ := bind_ok.1 h
  simp only [pure, Except.pure, Except.ok.injEq] at h
  subst h
  intro tr' htr'
  obtain ⟨o, ho, e⟩ := List.mem_filterMap.1 htr'
  simp only [id] at e
  subst e
  rw [mapExc_ok] at h1 h2
  obtain ⟨t, ht, hts⟩ := mem_forall₂_right h2 ho
  obtain ⟨o', ho', e⟩ := List.mem_filterMap.1 ht
  simp only [id] at e
  subst e
  obtain ⟨s, hs, hss⟩ := mem_forall₂_right h1 ho'
  obtain ⟨a, b, c, d⟩ := energyOf_meta hss
  obtain ⟨u, hu, e1, e2, e3, e4⟩ := noiseStep_adjust hts
  exact ⟨s, hs, u, hu, e1.trans a, e2.trans b, e3.trans c, e4.trans d⟩

/-- **C104**: with the option `adjust_sonset` the S-onset of each energy envelope is put to the first
sample with the largest energy in the given window, up to half a sampling interval, if the data start
before the window; the window is evaluated with the S-onset given before.
Missing for the full claim: data which start inside the window, see `C104_late_counterexample`. -/
theorem C104_onset_partial {lib : Lib} {cfg : WCfg} {streams : List Stream} {trs : List Trace} {w : Tw}
    (hsr : ∀ s ∈ streams, 0 < s.sr) (hw : cfg.adjustWindow = some w)
    (h : energies lib cfg streams = .ok trs) : ∀ tr ∈ trs, ∃ s ∈ streams,
      tr.pair = (s.event, s.station) ∧ ∃ mw,
        tw2utc lib.float w { tr with sonset := s.sonset } = .ok mw ∧
        (tr.start ≤ mw.1 → ∃ k, FirstPeak tr mw.1 mw.2 k ∧
          |tr.sonset - trueTime tr k| ≤ 1 / 2 / tr.sr) := by
  intro tr htr
  obtain ⟨s, hs, t, ht, e1, e2, e3, -⟩ := energies_mem h tr htr
  have ht' := ht
  unfold adjust at ht'
  rw [hw] at ht'
  obtain ⟨mw, hmw, -⟩ := bind_ok.1 ht'
  obtain ⟨hsame, k, hk, h1, -⟩ := adjust_spec hw hmw (by rw [e3]; exact hsr s hs) ht
  have hback : { tr with sonset := s.sonset } = t := by
    rw [← e1, ← hsame]
  refine ⟨s, hs, ?_, mw, by rw [hback]; exact hmw, ?_⟩
  · rw [← e2, ← hsame]; rfl
  · intro hst
    rw [← hsame] at hst ⊢
    exact ⟨k, hk, h1 hst⟩

/-- **C104**: without the option the S-onsets stay as they are. -/
theorem C104_unadjusted {lib : Lib} {cfg : WCfg} {streams : List Stream} {trs : List Trace}
    (hw : cfg.adjustWindow = none) (h : energies lib cfg streams = .ok trs) :
    ∀ tr ∈ trs, ∃ s ∈ streams, tr.pair = (s.event, s.station) ∧ tr.sonset = s.sonset := by
  intro tr htr
  obtain ⟨s, hs, t, ht, e1, e2, -, -⟩ := energies_mem h tr htr
  unfold adjust at ht
  rw [hw] at ht
  cases ht
  exact ⟨s, hs, e2, e1⟩

namespace SOnsetExample

open TimeAxisExample

/-- The S-onset is adjusted in the window from 1 s to 4 s. -/
noncomputable def cfg : WCfg :=
  { TimeAxisExample.exCfg with adjustWindow := some (.one "OT+1s".toList, .one "OT+4s".toList) }

/-- One component, sampled each second. -/
noncomputable def stream (station : String) (start : ℝ) : Stream :=
  { event := "e", station := station, start := start, sr := 1, channels := [[2, 4, 6, 2, 2]]
    origin := 0, ponset := 1, sonset := 1, distance := 1 }

/-- Its envelope. -/
noncomputable def env (station : String) (start sonset : ℝ) : Trace :=
  { event := "e", station := station, start := start, sr := 1, data := [1, 4, 9, 1, 1]
    origin := 0, ponset := 1, sonset := sonset, distance := 1 }

theorem energy (st : String) (start : ℝ) :
    Window.energyOf exLib cfg (stream st start) = .ok (some (env st start 1)) := by
  unfold Window.energyOf
  rw [if_neg (by norm_num [cfg, TimeAxisExample.exCfg, stream]), if_neg (by simp [cfg, TimeAxisExample.exCfg])]
  have : observedEnergy exLib.hilbert (stream st start) cfg.rho0
      (exLib.width (stream st start).sr (filterSpec cfg (stream st start).sr)) cfg.codaNorm
      (freeSurfaceOf cfg (stream st start)) = .ok (env st start 1) := by
    unfold observedEnergy
    simp only [stream, energy1c, exLib, cfg, TimeAxisExample.exCfg, freeSurfaceOf, List.map_cons,
      List.map_nil, List.zipWith_cons_cons, List.zipWith_nil_left, List.length_cons, List.length_nil,
      minLen, maxLen, List.foldl_cons, List.foldl_nil, sumAxis0, List.range_succ, List.range_zero]
    norm_num [env, List.range_succ]
  simp only [exLib, List.map_id'] at this ⊢
  rw [this]

theorem window (st : String) (start sonset : ℝ) :
    tw2utc exFloat (.one "OT+1s".toList, .one "OT+4s".toList) (env st start sonset) = .ok (1, 4) :=
  ex_tw rfl (num := "+1".toList) (num' := "+4".toList) (by decide) (by simp [exFloat]) (by decide)
    (by simp [exFloat])

theorem noise (st : String) (start : ℝ) :
    noiseStep exLib cfg (env st start 1) =
      (adjust exLib cfg (env st start 1) >>= fun tr => .ok (some tr)) := by
  unfold noiseStep
  simp [cfg, TimeAxisExample.exCfg, mapExc, bind, Except.bind, pure, Except.pure]

theorem round_int (n : ℤ) : roundAway (n : ℝ) = n := by
  unfold roundAway
  split
  · rw [Int.floor_eq_iff]
    constructor <;> push_cast <;> linarith
  · have : ⌊(-(n : ℝ) + 1 / 2)⌋ = -n := by
      rw [Int.floor_eq_iff]
      constructor <;> push_cast <;> linarith
    rw [this, neg_neg]

/-- Data which start at the origin time. -/
theorem early (st : String) : adjust exLib cfg (env st 0 1) = .ok (env st 0 2) := by
  have hs : (env st 0 1).slice 1 4 = .ok { env st 0 1 with start := 1, data := [4, 9, 1, 1] } := by
    have r1 := round_int 1
    have r3 := round_int 3
    push_cast at r1 r3
    unfold Trace.slice Trace.ltrim Trace.rtrim
    norm_num [env, r1, r3]
  unfold adjust
  simp only [cfg, window, exLib, bind, Except.bind, pure, Except.pure, hs]
  norm_num [argmax, env, List.idxOf_cons]

/-- Data which start two seconds later. -/
theorem late (st : String) : adjust exLib cfg (env st 2 1) = .ok (env st 2 3) := by
  have hs : (env st 2 1).slice 1 4 = .ok { env st 2 1 with data := [1, 4, 9] } := by
    have r1 := round_int (-1)
    have r2 := round_int 2
    push_cast at r1 r2
    unfold Trace.slice Trace.ltrim Trace.rtrim
    norm_num [env, r1, r2]
    rfl
  unfold adjust
  simp only [cfg, window, exLib, bind, Except.bind, pure, Except.pure, hs]
  norm_num [argmax, env, List.idxOf_cons]

/-- Data which start after the window. -/
theorem after (st : String) : adjust exLib cfg (env st 9 1) = .error .valueError := by
  have hs : ∃ t, (env st 9 1).slice 1 4 = .ok t ∧ t.data = [] := by
    have r1 := round_int (-8)
    have r2 := round_int (-5)
    push_cast at r1 r2
    unfold Trace.slice Trace.ltrim Trace.rtrim
    norm_num [env, r1, r2]
  obtain ⟨t, ht, h0⟩ := hs
  unfold adjust
  simp only [cfg, window, exLib, bind, Except.bind, pure, Except.pure, ht, h0, argmax]

/-- The hypotheses of C104 can be met: the energy has its maximum at 2 s, the S-onset is moved from
1 s to 2 s. -/
example : (∀ s ∈ [stream "A" 0], 0 < s.sr) ∧ energies exLib cfg [stream "A" 0] = .ok [env "A" 0 2] := by
  refine ⟨by simp [stream], ?_⟩
  unfold energies
  simp [mapExc, energy, noise, early, bind, Except.bind, pure, Except.pure]

end SOnsetExample

open SOnsetExample in
/-- **C104** (counterexample to the full claim): data which start inside the window; the energy has its
maximum at 4 s, but the S-onset is moved to 3 s. -/
theorem C104_late_counterexample : ∃ (lib : Lib) (cfg : WCfg) (w : Tw) (s : Stream) (tr : Trace),
    cfg.adjustWindow = some w ∧ 0 < s.sr ∧ energies lib cfg [s] = .ok [tr] ∧
    tw2utc lib.float w { tr with sonset := s.sonset } = .ok (1, 4) ∧
    (∀ k, FirstPeak tr 1 4 k ↔ k = 2) ∧ trueTime tr 2 = 4 ∧ tr.sonset = 3 ∧ tr.sr = 1 := by
  refine ⟨TimeAxisExample.exLib, cfg, _, stream "A" 2, env "A" 2 3, rfl, by simp [stream], ?_,
    window "A" 2 1, ?_, by norm_num [trueTime, env], rfl, rfl⟩
  · unfold energies
    simp [mapExc, energy, noise, late, bind, Except.bind, pure, Except.pure]
  · intro k
    constructor
    · rintro ⟨x, hx, -, h2, hall⟩
      have h9 := (hall 2 9 rfl (by norm_num [trueTime, env]) (by norm_num [trueTime, env])).1
      match k, hx with
      | 0, hx => simp [env] at hx; linarith
      | 1, hx => simp [env] at hx; linarith
      | 2, hx => rfl
      | 3, hx => simp [env] at hx; linarith
      | 4, hx => simp [env] at hx; linarith
      | n + 5, hx => simp [env] at hx
    · rintro rfl
      refine ⟨9, rfl, by norm_num [trueTime, env], by norm_num [trueTime, env], ?_⟩
      intro j y hj _ _
      match j, hj with
      | 0, hj => simp [env] at hj; subst hj; norm_num
      | 1, hj => simp [env] at hj; subst hj; norm_num
      | 2, hj => simp [env] at hj; subst hj; norm_num
      | 3, hj => simp [env] at hj; subst hj; norm_num
      | 4, hj => simp [env] at hj; subst hj; norm_num
      | n + 5, hj => simp [env] at hj

open SOnsetExample in
/-- **C104** (counterexample to the full claim): one pair without data in the window stops the inversion
of the frequency band for all pairs, although the other pair can be used. -/
theorem C104_empty_counterexample : ∃ (lib : Lib) (cfg : WCfg) (a b : Stream) (tr : Trace),
    energies lib cfg [a] = .ok [tr] ∧ energies lib cfg [a, b] = .error .valueError := by
  refine ⟨TimeAxisExample.exLib, cfg, stream "A" 0, stream "B" 9, env "A" 0 2, ?_, ?_⟩
  · unfold energies
    simp [mapExc, energy, noise, early, bind, Except.bind, pure, Except.pure]
  · unfold energies
    simp [mapExc, energy, noise, early, after, bind, Except.bind, pure, Except.pure]

end Qopen
