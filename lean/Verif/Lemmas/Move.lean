import Verif.Model.Window

/-!
# Traces at another time and with other units

`move c k tr` is the trace `tr` with all times later by `c` and all energies multiplied by `k`.
Every step of the data preparation commutes with it.
-/

namespace Qopen.Move

open Real Util Tr Energy InvertFb Window

/-- All times later by `c`, energies (and noise level) multiplied by `k`. -/
noncomputable def move (c k : ℝ) (tr : Trace) : Trace :=
  { tr with
    start := tr.start + c, origin := tr.origin + c, ponset := tr.ponset + c,
    sonset := tr.sonset + c, data := tr.data.map (k * ·), noise := tr.noise.map (k * ·) }

/-- A window later by `c`. -/
def later (c : ℝ) (w : ℝ × ℝ) : ℝ × ℝ := (w.1 + c, w.2 + c)

variable {c k : ℝ} {tr : Trace}

theorem move_pair : (move c k tr).pair = tr.pair := rfl

theorem stop_move : (move c k tr).stop = tr.stop + c := by
  simp only [Trace.stop, move, List.length_map]; ring

theorem ltrim_move (t : ℝ) : (move c k tr).ltrim (t + c) = move c k (tr.ltrim t) := by
  have e : t + c - (move c k tr).start = t - tr.start := by simp [move]
  have es : (move c k tr).sr = tr.sr := rfl
  unfold Trace.ltrim
  simp only [e, es]
  split_ifs
  · simp only [move, List.map_drop, Trace.mk.injEq, true_and, and_true]
    ring
  · rfl

theorem rtrim_move (t : ℝ) : (move c k tr).rtrim (t + c) = move c k (tr.rtrim t) := by
  have e : t + c - (move c k tr).start = t - tr.start := by simp [move]
  have es : (move c k tr).sr = tr.sr := rfl
  have el : (move c k tr).data.length = tr.data.length := by simp [move]
  have e2 : (t + c < (move c k tr).start) ↔ t < tr.start := by simp [move]
  unfold Trace.rtrim
  simp only [e, es, el, e2, stop_move]
  split_ifs
  · rfl
  · simp only [move, List.map_nil, Trace.mk.injEq, true_and, and_true]; ring
  · simp only [move, List.map_take]

theorem slice_move (t1 t2 : ℝ) :
    (move c k tr).slice (t1 + c) (t2 + c) = (tr.slice t1 t2).map (move c k) := by
  unfold Trace.slice
  rw [ltrim_move, rtrim_move]
  by_cases h : t2 < t1
  · rw [if_pos h, if_pos (by linarith)]; rfl
  · rw [if_neg h, if_neg (by linarith)]; rfl

/-! ## Time expressions -/

variable {float : PyStr → Option ℝ}

theorem timePlain_move (time : PyStr) :
    timePlain float time (move c k tr) = (timePlain float time tr).map (· + c) := by
  unfold timePlain
  split_ifs with h1 h2 h3 h4 h5 h6 h7
  all_goals first | rfl | skip
  all_goals
    simp only [bind, Except.bind, pure, Except.pure]
    split
    · rfl
    · simp only [move, Except.map, Except.ok.injEq]; ring

theorem findIdx_scale (hk : 0 < k) (x : ℝ) (l : List ℝ) (nl : ℝ) :
    (l.map (k * ·)).findIdx (fun y => decide (y < x * (k * nl))) =
      l.findIdx (fun y => decide (y < x * nl)) := by
  rw [List.findIdx_map]
  congr 1
  funext y
  simp only [Function.comp_apply, decide_eq_decide]
  rw [show x * (k * nl) = k * (x * nl) by ring]
  exact mul_lt_mul_iff_right₀ hk

theorem timeSnr_move (hk : 0 < k) (time : PyStr) (st : Option ℝ) :
    timeSnr float time (move c k tr) (st.map (· + c)) = (timeSnr float time tr st).map (· + c) := by
  unfold timeSnr
  cases st with
  | none => rfl
  | some s =>
    simp only [Option.map_some, ltrim_move, bind, Except.bind]
    split
    · rfl
    · rename_i x _
      have e : (move c k (tr.ltrim s)).noise = (tr.ltrim s).noise.map (k * ·) := rfl
      rw [e]
      cases (tr.ltrim s).noise with
      | none => rfl
      | some nl =>
        have e2 : (move c k (tr.ltrim s)).data = (tr.ltrim s).data.map (k * ·) := rfl
        simp only [Option.map_some, pure, Except.pure, Except.map, Except.ok.injEq, e2]
        rw [findIdx_scale hk]
        simp only [move]
        ring

theorem timeFront_move (hk : 0 < k) (time : PyStr) :
    timeFront float time (move c k tr) = (timeFront float time tr).map (· + c) := by
  unfold timeFront
  simp only
  split_ifs
  · exact timeSnr_move hk _ none
  · exact timePlain_move _

theorem time2utc_move (hk : 0 < k) (time : PyStr) (st : Option ℝ) :
    time2utc float time (move c k tr) (st.map (· + c)) =
      (time2utc float time tr st).map (· + c) := by
  unfold time2utc
  simp only
  split_ifs
  · rfl
  · rw [timeFront_move hk]
    cases timeFront float _ tr with
    | error e => rfl
    | ok t =>
      simp only [Except.map, bind, Except.bind]
      cases st with
      | none => rfl
      | some s => exact timeSnr_move hk _ (some t)
  · exact timeSnr_move hk _ st
  · exact timeSnr_move hk _ st
  · exact timePlain_move _

theorem mapExc_map {α β : Type} {f g : α → Py β} {u : β → β} (l : List α)
    (h : ∀ a, g a = (f a).map u) : mapExc g l = (mapExc f l).map (List.map u) := by
  induction l with
  | nil => rfl
  | cons a l ih =>
    rw [mapExc, mapExc, h a, ih]
    cases f a with
    | error e => rfl
    | ok b =>
      cases mapExc f l <;> rfl

theorem foldl_max_shift (l : List ℝ) (x : ℝ) :
    (l.map (· + c)).foldl max (x + c) = l.foldl max x + c := by
  induction l generalizing x with
  | nil => rfl
  | cons a l ih =>
    simp only [List.map_cons, List.foldl_cons, max_add_add_right, ih]

theorem foldl_min_shift (l : List ℝ) (x : ℝ) :
    (l.map (· + c)).foldl min (x + c) = l.foldl min x + c := by
  induction l generalizing x with
  | nil => rfl
  | cons a l ih =>
    simp only [List.map_cons, List.foldl_cons, min_add_add_right, ih]

theorem pyMax_shift (l : List ℝ) : pyMax (l.map (· + c)) = (pyMax l).map (· + c) := by
  cases l with
  | nil => rfl
  | cons a l => simp only [List.map_cons, pyMax, foldl_max_shift]; rfl

theorem pyMin_shift (l : List ℝ) : pyMin (l.map (· + c)) = (pyMin l).map (· + c) := by
  cases l with
  | nil => rfl
  | cons a l => simp only [List.map_cons, pyMin, foldl_min_shift]; rfl

theorem twStart_move (hk : 0 < k) (v : TimeVal) :
    twStart float v (move c k tr) = (twStart float v tr).map (· + c) := by
  cases v with
  | one s => exact time2utc_move hk s none
  | many l =>
    simp only [twStart]
    rw [mapExc_map (f := fun s => time2utc float s tr none)
      (g := fun s => time2utc float s (move c k tr) none) (u := (· + c)) l
      (fun s => time2utc_move hk s none)]
    cases mapExc (fun s => time2utc float s tr none) l with
    | error e => rfl
    | ok ts => exact pyMax_shift ts

theorem twEnd_move (hk : 0 < k) (v : TimeVal) (st : ℝ) :
    twEnd float v (move c k tr) (st + c) = (twEnd float v tr st).map (· + c) := by
  cases v with
  | one s => exact time2utc_move hk s (some st)
  | many l =>
    simp only [twEnd]
    rw [mapExc_map (f := fun s => time2utc float s tr (some st))
      (g := fun s => time2utc float s (move c k tr) (some (st + c))) (u := (· + c)) l
      (fun s => time2utc_move hk s (some st))]
    cases mapExc (fun s => time2utc float s tr (some st)) l with
    | error e => rfl
    | ok ts => exact pyMin_shift ts

theorem tw2utc_move (hk : 0 < k) (tw : Tw) :
    tw2utc float tw (move c k tr) = (tw2utc float tw tr).map (later c) := by
  unfold tw2utc
  rw [twStart_move hk]
  cases twStart float tw.1 tr with
  | error e => rfl
  | ok st =>
    simp only [Except.map, bind, Except.bind]
    rw [twEnd_move hk]
    cases twEnd float tw.2 tr st <;> rfl

/-! ## Windows -/

theorem checkTimes_move (tw : ℝ × ℝ) : checkTimes (move c k tr) (later c tw) = checkTimes tr tw := by
  unfold checkTimes
  simp only [stop_move, later, decide_eq_decide]
  simp only [move]
  rw [show tw.1 + c - (tr.start + c) = tw.1 - tr.start by ring,
    show tr.stop + c - (tw.2 + c) = tr.stop - tw.2 by ring]

theorem getSlice_move (tw : ℝ × ℝ) :
    getSlice (move c k tr) (later c tw) = (getSlice tr tw).map (move c k) := by
  unfold getSlice
  have := slice_move (c := c) (k := k) (tr := tr) tw.1 tw.2
  have e : (move c k tr).slice (later c tw).1 (later c tw).2 =
      (tr.slice tw.1 tw.2).map (move c k) := this
  rw [e]
  cases tr.slice tw.1 tw.2 with
  | error e => rfl
  | ok sl =>
    simp only [Except.map, checkTimes_move (c := c) (k := k) (tr := sl) tw]
    split_ifs <;> rfl

theorem getD_scale (d : List ℝ) (i : ℕ) : (d.map (k * ·)).getD i 0 = k * d.getD i 0 := by
  simp only [List.getD_eq_getElem?_getD, List.getElem?_map]
  cases d[i]? <;> simp

theorem argrelmin_scale (hk : 0 < k) (d : List ℝ) : argrelmin (d.map (k * ·)) = argrelmin d := by
  unfold argrelmin
  rw [List.length_map]
  apply List.filter_congr
  intro i _
  simp only [getD_scale, mul_lt_mul_iff_right₀ hk]

theorem argrelmax_scale (hk : 0 < k) (d : List ℝ) : argrelmax (d.map (k * ·)) = argrelmax d := by
  unfold argrelmax
  rw [List.length_map]
  apply List.filter_congr
  intro i _
  simp only [getD_scale, mul_lt_mul_iff_right₀ hk]

theorem descend_scale (hk : 0 < k) (d : List ℝ) (l : List ℕ) (n : ℕ) :
    descend (d.map (k * ·)) n l = descend d n l := by
  induction l generalizing n with
  | nil => rfl
  | cons a l ih =>
    simp only [descend, getD_scale, mul_lt_mul_iff_right₀ hk, ih]

theorem cutIndex_scale (hk : 0 < k) (d : List ℝ) (mins : List ℕ) (ratio : ℝ) (l : List ℕ) :
    cutIndex (d.map (k * ·)) mins ratio l = cutIndex d mins ratio l := by
  induction l with
  | nil => rfl
  | cons a l ih =>
    simp only [cutIndex, getD_scale, mul_div_mul_left _ _ hk.ne', ih]

theorem convolve_scale (w s : List ℝ) :
    convolveValid w (s.map (k * ·)) = (convolveValid w s).map (k * ·) := by
  unfold convolveValid
  rw [List.length_map, List.map_map]
  apply List.map_congr_left
  intro j _
  simp only [getD_scale, Function.comp_apply]
  rw [← List.sum_map_mul_left]
  congr 1
  apply List.map_congr_left
  intro i _
  ring

theorem pad_scale (b : Border) (x : List ℝ) (M : ℕ) :
    pad b (x.map (k * ·)) M = (pad b x M).map (k * ·) := by
  cases b with
  | zeros => simp [pad]
  | reflect => simp [pad, List.map_drop, List.map_take]
  | clip =>
    have h1 : (x.map (k * ·)).headD 0 = k * x.headD 0 := by cases x <;> simp
    have h2 : (x.map (k * ·)).getLastD 0 = k * x.getLastD 0 := by
      rw [List.getLastD_eq_getLast?, List.getLastD_eq_getLast?, List.getLast?_map]
      cases x.getLast? <;> simp
    simp only [pad, h1, h2, List.map_append, List.map_replicate]
  | noBorder => rfl

theorem smooth_scale (x : List ℝ) (wl : Option ℤ) (w : Util.Window) (b : Border) :
    smooth (x.map (k * ·)) wl w b = (smooth x wl w b).map (List.map (k * ·)) := by
  unfold smooth
  cases wl with
  | none => rfl
  | some wl =>
    simp only [List.length_map]
    split_ifs
    · rfl
    · rfl
    · rfl
    · simp only [Except.map, Except.ok.injEq, pad_scale, convolve_scale]

theorem smoothForCut_move (s : Option ℝ) (w : Util.Window) :
    smoothForCut (move c k tr) s w = (smoothForCut tr s w).map (k * ·) := by
  unfold smoothForCut
  cases s with
  | none => rfl
  | some s =>
    simp only
    split_ifs
    · rfl
    · have := smooth_scale (k := k) tr.data (some (pyRound (s * tr.sr))) w .clip
      simp only [move]
      rw [this]
      cases smooth tr.data (some (pyRound (s * tr.sr))) w .clip <;> rfl

theorem localMinimum_move (hk : 0 < k) (s : Option ℝ) (ratio : ℝ) (w : Util.Window) :
    localMinimum (move c k tr) s ratio w = (localMinimum tr s ratio w).map (· + c) := by
  unfold localMinimum
  simp only [smoothForCut_move, argrelmin_scale hk, argrelmax_scale hk]
  split
  · rw [descend_scale hk, cutIndex_scale hk]
    cases cutIndex _ _ ratio _ with
    | none => rfl
    | some i =>
      simp only [Option.map_some, move, Option.some.injEq]
      ring
  · rfl

/-! ## Energies -/

theorem sum_scale (d : List ℝ) : (d.map (k * ·)).sum = k * d.sum := by
  simpa using List.sum_map_mul_left d id k

theorem mean_scale (d : List ℝ) : mean (d.map (k * ·)) = k * mean d := by
  unfold mean
  rw [sum_scale, List.length_map, mul_div_assoc]

variable {lib : Lib} {cfg : WCfg}

theorem noiseLevel_move (hk : 0 < k) (nw : Tw) :
    noiseLevel lib (move c k tr) nw = (noiseLevel lib tr nw).map (Option.map (k * ·)) := by
  unfold noiseLevel
  rw [tw2utc_move hk]
  cases tw2utc lib.float nw tr with
  | error e => rfl
  | ok w =>
    simp only [Except.map, bind, Except.bind, later, slice_move]
    cases tr.slice w.1 w.2 with
    | error e => rfl
    | ok sl =>
      have e : (move c k sl).data = sl.data.map (k * ·) := rfl
      simp only [e, pure, Except.pure, Except.ok.injEq, List.length_map, mean_scale]
      split_ifs <;> rfl

theorem removeNoise_scale (hk : 0 < k) (nl : ℝ) (d : List ℝ) :
    removeNoise (k * nl) (d.map (k * ·)) = (removeNoise nl d).map (k * ·) := by
  unfold removeNoise
  rw [List.map_map, List.map_map]
  apply List.map_congr_left
  intro x _
  simp only [Function.comp_apply]
  have e : k * x - k * nl < k * nl / 100 ↔ x - nl < nl / 100 := by
    rw [show k * x - k * nl = k * (x - nl) by ring, mul_div_assoc]
    exact mul_lt_mul_iff_right₀ hk
  simp only [e]
  split_ifs <;> ring

theorem foldl_max_scale (hk : 0 < k) (l : List ℝ) (x : ℝ) :
    (l.map (k * ·)).foldl max (k * x) = k * l.foldl max x := by
  induction l generalizing x with
  | nil => rfl
  | cons a l ih =>
    simp only [List.map_cons, List.foldl_cons]
    rw [← mul_max_of_nonneg _ _ hk.le, ih]

theorem idxOf_scale (hk : 0 < k) (l : List ℝ) (x : ℝ) :
    (l.map (k * ·)).idxOf (k * x) = l.idxOf x := by
  induction l with
  | nil => rfl
  | cons a l ih =>
    simp only [List.map_cons, List.idxOf_cons, ih]
    have : (k * a == k * x) = (a == x) := by
      rw [Bool.eq_iff_iff]
      simp [hk.ne']
    rw [this]

theorem argmax_scale (hk : 0 < k) (d : List ℝ) : argmax (d.map (k * ·)) = argmax d := by
  unfold argmax
  cases d with
  | nil => rfl
  | cons x l =>
    simp only [List.map_cons]
    rw [foldl_max_scale hk, ← List.map_cons, idxOf_scale hk]

theorem adjust_move (hk : 0 < k) :
    adjust lib cfg (move c k tr) = (adjust lib cfg tr).map (move c k) := by
  unfold adjust
  cases cfg.adjustWindow with
  | none => rfl
  | some w =>
    simp only
    rw [tw2utc_move hk]
    cases tw2utc lib.float w tr with
    | error e => rfl
    | ok mw =>
      simp only [Except.map, bind, Except.bind, later, slice_move]
      cases tr.slice mw.1 mw.2 with
      | error e => rfl
      | ok sl =>
        have e : (move c k sl).data = sl.data.map (k * ·) := rfl
        simp only [e, argmax_scale hk]
        cases argmax sl.data with
        | error e => rfl
        | ok i =>
          simp only [pure, Except.pure, Except.ok.injEq, move, Trace.mk.injEq, true_and, and_true]
          ring

/-- The function for the noise level scales with its arguments, for example mean, minimum or
maximum. -/
def Homogeneous (f : List ℝ → ℝ) : Prop := ∀ k > 0, ∀ l, f (l.map (k * ·)) = k * f l

theorem noiseStep_move (hk : 0 < k) (hf : k = 1 ∨ Homogeneous cfg.noiseFunc) :
    noiseStep lib cfg (move c k tr) = (noiseStep lib cfg tr).map (Option.map (move c k)) := by
  have hf' : ∀ l, cfg.noiseFunc (l.map (k * ·)) = k * cfg.noiseFunc l := by
    intro l
    rcases hf with rfl | hf
    · simp
    · exact hf k hk l
  unfold noiseStep
  rw [mapExc_map (f := noiseLevel lib tr) cfg.noiseWindows (fun nw => noiseLevel_move hk nw)]
  cases mapExc (noiseLevel lib tr) cfg.noiseWindows with
  | error e => rfl
  | ok ls =>
    have e : (ls.map (Option.map (k * ·))).filterMap id = (ls.filterMap id).map (k * ·) := by
      rw [List.filterMap_map, List.map_filterMap]; rfl
    simp only [Except.map, bind, Except.bind, e, List.length_map, hf']
    by_cases h0 : (ls.filterMap id).length = 0
    · rw [if_pos h0, if_pos h0]
      by_cases h1 : cfg.removeNoise = true
      · rw [if_pos h1, if_pos h1]; rfl
      · rw [if_neg h1, if_neg h1, adjust_move hk]
        cases adjust lib cfg tr <;> rfl
    · rw [if_neg h0, if_neg h0]
      have e3 : (if cfg.removeNoise = true then
            { move c k tr with
              noise := some (k * cfg.noiseFunc (ls.filterMap id))
              data := removeNoise (k * cfg.noiseFunc (ls.filterMap id)) (move c k tr).data }
          else { move c k tr with noise := some (k * cfg.noiseFunc (ls.filterMap id)) } : Trace) =
          move c k (if cfg.removeNoise = true then
            { tr with
              noise := some (cfg.noiseFunc (ls.filterMap id))
              data := removeNoise (cfg.noiseFunc (ls.filterMap id)) tr.data }
          else { tr with noise := some (cfg.noiseFunc (ls.filterMap id)) }) := by
        split_ifs
        · simp only [move, removeNoise_scale hk, Option.map_some]
        · simp only [move, Option.map_some]
      rw [e3, adjust_move hk]
      cases adjust lib cfg _ <;> rfl

/-! ## Observed energy -/

/-- A stream with all times later by `c` and the waveforms multiplied by `a`. -/
noncomputable def moveS (c a : ℝ) (s : Stream) : Stream :=
  { s with
    start := s.start + c, origin := s.origin + c, ponset := s.ponset + c, sonset := s.sonset + c,
    channels := s.channels.map (List.map (a * ·)) }

/-- The operation on a waveform commutes with a factor. -/
def Scales (f : List ℝ → List ℝ) : Prop := ∀ a d, f (d.map (a * ·)) = (f d).map (a * ·)

variable {a : ℝ} {s : Stream}

theorem energy1c_scale {hilbert : List ℝ → List ℝ} (ha : a = 1 ∨ Scales hilbert) (d : List ℝ)
    (rho df fs : ℝ) :
    energy1c hilbert (d.map (a * ·)) rho df fs = (energy1c hilbert d rho df fs).map (a ^ 2 * ·) := by
  have h : hilbert (d.map (a * ·)) = (hilbert d).map (a * ·) := by
    rcases ha with rfl | ha
    · simp
    · exact ha a d
  unfold energy1c
  rw [h, List.zipWith_map, List.map_zipWith]
  congr 1
  funext x y
  ring

theorem energy1c_length {hilbert : List ℝ → List ℝ} (d : List ℝ) (rho df fs : ℝ) :
    (energy1c hilbert d rho df fs).length = min d.length (hilbert d).length := by
  simp [energy1c]

theorem normalise_move (hk : k ≠ 0) (cn : ℝ × ℝ) :
    normalise (move c k tr) cn = (normalise tr cn).map (fun t => move c 1
      { t with noise := t.noise.map (k * ·) }) := by
  unfold normalise
  have e : (move c k tr).slice ((move c k tr).origin + cn.1) ((move c k tr).origin + cn.2) =
      (tr.slice (tr.origin + cn.1) (tr.origin + cn.2)).map (move c k) := by
    rw [← slice_move]
    congr 1 <;> simp only [move] <;> ring
  rw [e]
  cases tr.slice (tr.origin + cn.1) (tr.origin + cn.2) with
  | error e => rfl
  | ok sl =>
    have e1 : (move c k sl).data = sl.data.map (k * ·) := rfl
    simp only [Except.map, bind, Except.bind, e1, sum_scale, List.length_map]
    by_cases h0 : sl.data.sum = 0
    · rw [if_pos h0, if_pos (by rw [h0, mul_zero])]
    · rw [if_neg h0, if_neg (mul_ne_zero hk h0)]
      simp only [move, List.map_map, Except.ok.injEq, Trace.mk.injEq, true_and, Option.map_map]
      refine ⟨?_, ?_⟩
      · apply List.map_congr_left
        intro x _
        simp only [Function.comp_apply]
        rw [mul_div_assoc k sl.data.sum, mul_div_mul_left _ _ hk, one_mul]
      · cases tr.noise <;> simp

/-- Factor of the energies of a stream: the square of the factor of the waveforms; with coda
normalisation there is none. -/
noncomputable def gain (cfg : WCfg) (a : ℝ) : ℝ := if cfg.codaNorm.isSome then 1 else a ^ 2

theorem observedEnergy_move {hilbert : List ℝ → List ℝ} (ha : a = 1 ∨ Scales hilbert)
    (ha0 : a ≠ 0) (rho df fs : ℝ) (cn : Option (ℝ × ℝ)) (tol : ℕ) :
    observedEnergy hilbert (moveS c a s) rho df cn fs tol =
      (observedEnergy hilbert s rho df cn fs tol).map
        (move c (if cn.isSome then 1 else a ^ 2)) := by
  have e1 : (moveS c a s).channels.map (fun d => energy1c hilbert d rho df fs) =
      (s.channels.map (fun d => energy1c hilbert d rho df fs)).map (List.map (a ^ 2 * ·)) := by
    simp only [moveS, List.map_map]
    apply List.map_congr_left
    intro d _
    exact energy1c_scale ha d rho df fs
  have e2 : ((s.channels.map (fun d => energy1c hilbert d rho df fs)).map
      (List.map (a ^ 2 * ·))).map List.length =
      (s.channels.map (fun d => energy1c hilbert d rho df fs)).map List.length := by
    rw [List.map_map]
    apply List.map_congr_left
    intro d _
    simp
  unfold observedEnergy
  simp only [e1, e2]
  set l := s.channels.map (fun d => energy1c hilbert d rho df fs)
  set n := minLen (l.map List.length)
  by_cases h1 : l.map List.length = []
  · rw [if_pos h1, if_pos h1]; rfl
  rw [if_neg h1, if_neg h1]
  by_cases h2 : maxLen (l.map List.length) - n > tol
  · rw [if_pos h2, if_pos h2]; rfl
  rw [if_neg h2, if_neg h2]
  have e3 : sumAxis0 n ((l.map (List.map (a ^ 2 * ·))).map (fun d => d.take n)) =
      (sumAxis0 n (l.map (fun d => d.take n))).map (a ^ 2 * ·) := by
    simp only [sumAxis0, List.map_map]
    apply List.map_congr_left
    intro i _
    simp only [Function.comp_apply, Function.comp_def]
    rw [← List.sum_map_mul_left]
    congr 1
    apply List.map_congr_left
    intro d _
    rw [← List.map_take, getD_scale]
  rw [e3]
  cases cn with
  | none => rfl
  | some cn =>
    simp only [Option.isSome_some, if_true]
    refine (normalise_move (c := c) (pow_ne_zero 2 ha0) cn (tr :=
      { event := s.event, station := s.station, start := s.start, sr := s.sr,
        data := sumAxis0 n (l.map (fun d => d.take n)), origin := s.origin, ponset := s.ponset,
        sonset := s.sonset, distance := s.distance })).trans ?_
    unfold normalise
    cases Trace.slice _ _ _ with
    | error e => rfl
    | ok sl =>
      simp only [bind, Except.bind]
      split_ifs
      · rfl
      · rfl

/-- The routines of scipy and obspy are linear in the waveform as far as factors are concerned. -/
structure Linear (lib : Lib) : Prop where
  hilbert : Scales lib.hilbert
  filt : ∀ spec sr, Scales (lib.filt spec sr)

theorem energyOf_move (hl : a = 1 ∨ Linear lib) (ha0 : a ≠ 0) :
    energyOf lib cfg (moveS c a s) =
      (energyOf lib cfg s).map (Option.map (move c (gain cfg a))) := by
  have e : (⟨(moveS c a s).event, s.station, (moveS c a s).start, s.sr,
      (moveS c a s).channels.map (lib.filt (filterSpec cfg s.sr) s.sr), (moveS c a s).origin,
      (moveS c a s).ponset, (moveS c a s).sonset, (moveS c a s).distance,
      (moveS c a s).borehole⟩ : Stream) =
      moveS c a { s with channels := s.channels.map (lib.filt (filterSpec cfg s.sr) s.sr) } := by
    simp only [moveS, List.map_map, Stream.mk.injEq, true_and, and_true]
    apply List.map_congr_left
    intro d _
    rcases hl with rfl | hl
    · simp
    · exact hl.filt _ _ a d
  have ef : freeSurfaceOf cfg (moveS c a s) = freeSurfaceOf cfg s := rfl
  unfold energyOf
  have esr : (moveS c a s).sr = s.sr := rfl
  have est : (moveS c a s).station = s.station := rfl
  simp only [esr, est, ef]
  by_cases h1 : cfg.freqBand.1 + cfg.freqBand.2 > s.sr
  · rw [if_pos h1, if_pos h1]; rfl
  rw [if_neg h1, if_neg h1]
  by_cases h2 : (cfg.fixSites && (cfg.fixSitesParams.get? s.station).isNone) = true
  · rw [if_pos h2, if_pos h2]; rfl
  rw [if_neg h2, if_neg h2, e,
    observedEnergy_move (hl.imp_right Linear.hilbert) ha0]
  cases observedEnergy lib.hilbert { s with channels := s.channels.map (lib.filt (filterSpec cfg s.sr) s.sr) }
    cfg.rho0 (lib.width s.sr (filterSpec cfg s.sr)) cfg.codaNorm (freeSurfaceOf cfg s) with
  | ok tr => rfl
  | error e => cases e <;> rfl

theorem gain_pos (ha0 : a ≠ 0) : 0 < gain cfg a := by
  unfold gain
  split_ifs
  · exact one_pos
  · positivity

end Qopen.Move
