import Verif.Model.Window
import Verif.Lemmas.ListSum

/-!
# Observed energy: C34, C35; noise removal: C22
-/

namespace Qopen

open Tr Energy

namespace Energy

theorem foldl_min_le (l : List ℕ) (n : ℕ) : l.foldl min n ≤ n ∧ ∀ x ∈ l, l.foldl min n ≤ x := by
  induction l generalizing n with
  | nil => simp
  | cons a l ih =>
    obtain ⟨h1, h2⟩ := ih (min n a)
    refine ⟨h1.trans (min_le_left _ _), ?_⟩
    intro x hx
    rcases List.mem_cons.1 hx with rfl | hx
    · exact h1.trans (min_le_right _ _)
    · exact h2 x hx

theorem foldl_min_mem (l : List ℕ) (n : ℕ) : l.foldl min n = n ∨ l.foldl min n ∈ l := by
  induction l generalizing n with
  | nil => simp
  | cons a l ih =>
    rcases ih (min n a) with h | h
    · rcases min_choice n a with h' | h'
      · left; rw [List.foldl_cons, h, h']
      · right; rw [List.foldl_cons, h, h']; simp
    · right; simp only [List.foldl_cons, List.mem_cons]; exact Or.inr h

theorem minLen_le {l : List ℕ} {x : ℕ} (h : x ∈ l) : minLen l ≤ x := by
  cases l with
  | nil => simp at h
  | cons n l =>
    rcases List.mem_cons.1 h with rfl | h
    · exact (foldl_min_le l _).1
    · exact (foldl_min_le l _).2 x h

theorem minLen_mem {l : List ℕ} (h : l ≠ []) : minLen l ∈ l := by
  cases l with
  | nil => simp at h
  | cons n l =>
    rcases foldl_min_mem l n with h | h
    · rw [minLen, h]; simp
    · exact List.mem_cons_of_mem _ h

theorem le_foldl_max (l : List ℕ) (n : ℕ) : n ≤ l.foldl max n ∧ ∀ x ∈ l, x ≤ l.foldl max n := by
  induction l generalizing n with
  | nil => simp
  | cons a l ih =>
    obtain ⟨h1, h2⟩ := ih (max n a)
    refine ⟨(le_max_left _ _).trans h1, ?_⟩
    intro x hx
    rcases List.mem_cons.1 hx with rfl | hx
    · exact (le_max_right _ _).trans h1
    · exact h2 x hx

theorem foldl_max_mem (l : List ℕ) (n : ℕ) : l.foldl max n = n ∨ l.foldl max n ∈ l := by
  induction l generalizing n with
  | nil => simp
  | cons a l ih =>
    rcases ih (max n a) with h | h
    · rcases max_choice n a with h' | h'
      · left; rw [List.foldl_cons, h, h']
      · right; rw [List.foldl_cons, h, h']; simp
    · right; simp only [List.foldl_cons, List.mem_cons]; exact Or.inr h

theorem le_maxLen {l : List ℕ} {x : ℕ} (h : x ∈ l) : x ≤ maxLen l := by
  cases l with
  | nil => simp at h
  | cons n l =>
    rcases List.mem_cons.1 h with rfl | h
    · exact (le_foldl_max l _).1
    · exact (le_foldl_max l _).2 x h

theorem maxLen_mem {l : List ℕ} (h : l ≠ []) : maxLen l ∈ l := by
  cases l with
  | nil => simp at h
  | cons n l =>
    rcases foldl_max_mem l n with h | h
    · rw [maxLen, h]; simp
    · exact List.mem_cons_of_mem _ h

variable {hilbert : List ℝ → List ℝ} {st : Stream} {rho df fs : ℝ} {tol : ℕ} {tr : Trace}

theorem lengths_eq (hlen : ∀ d, (hilbert d).length = d.length) :
    (st.channels.map (fun d => energy1c hilbert d rho df fs)).map List.length =
      st.channels.map List.length := by
  rw [List.map_map]
  apply List.map_congr_left
  intro c _
  simp [energy1c, hlen]

/-- The trace before normalisation. -/
noncomputable def rawTrace (hilbert : List ℝ → List ℝ) (st : Stream) (rho df fs : ℝ) : Trace :=
  { event := st.event, station := st.station, start := st.start, sr := st.sr
    data := (List.range (minLen (st.channels.map List.length))).map (fun i =>
      (st.channels.map (fun c => rho * ((c.getD i 0) ^ 2 + ((hilbert c).getD i 0) ^ 2) / 2 / df / fs)).sum)
    origin := st.origin, ponset := st.ponset, sonset := st.sonset, distance := st.distance }

open Classical in
theorem observedEnergy_eq (hlen : ∀ d, (hilbert d).length = d.length) (cn : Option (ℝ × ℝ)) :
    observedEnergy hilbert st rho df cn fs tol =
      if st.channels = [] then .error .valueError
      else if maxLen (st.channels.map List.length) - minLen (st.channels.map List.length) > tol then
        .error .skipError
      else match cn with
        | none => .ok (rawTrace hilbert st rho df fs)
        | some cn => normalise (rawTrace hilbert st rho df fs) cn := by
  unfold observedEnergy
  simp only
  rw [lengths_eq hlen]
  have hnil : (st.channels.map List.length = []) ↔ st.channels = [] := by simp
  by_cases h : st.channels = []
  · rw [if_pos h, if_pos (hnil.2 h)]
  · rw [if_neg h, if_neg (fun h' => h (hnil.1 h'))]
    split
    · rfl
    · have hd : sumAxis0 (minLen (st.channels.map List.length))
          ((st.channels.map (fun d => energy1c hilbert d rho df fs)).map
            (fun d => d.take (minLen (st.channels.map List.length)))) =
          (rawTrace hilbert st rho df fs).data := by
        unfold sumAxis0 rawTrace
        simp only
        apply List.map_congr_left
        intro i hi
        rw [List.mem_range] at hi
        rw [List.map_map, List.map_map]
        congr 1
        apply List.map_congr_left
        intro c hc
        have hci : i < c.length := lt_of_lt_of_le hi (minLen_le (List.mem_map.2 ⟨c, hc, rfl⟩))
        have hhi : i < (hilbert c).length := by rw [hlen]; exact hci
        simp only [Function.comp, energy1c, List.getD_eq_getElem?_getD]
        rw [List.getElem?_take_of_lt hi, List.getElem?_zipWith, List.getElem?_eq_getElem hci,
          List.getElem?_eq_getElem hhi]
        rfl
      rw [hd]
      rfl

end Energy

open Classical in
/-- **C34**: the observed energy has the length of the shortest channel, and each sample is the
sum over the channels of `rho (x² + H(x)²) / (2 df fs)`; times and header are those of the stream.
The lengths of the channels differ at most by the tolerance. -/
theorem C34_energy_is_sum_of_channel_energies {hilbert : List ℝ → List ℝ}
    (hlen : ∀ d, (hilbert d).length = d.length) {st : Stream} {rho df fs : ℝ} {tol : ℕ} {tr : Trace}
    (h : observedEnergy hilbert st rho df none fs tol = .ok tr) :
    (∃ c ∈ st.channels, tr.data.length = c.length) ∧
    (∀ c ∈ st.channels, tr.data.length ≤ c.length ∧ c.length ≤ tr.data.length + tol) ∧
    (∀ i, i < tr.data.length → tr.data[i]? = some ((st.channels.map (fun c =>
      rho * ((c.getD i 0) ^ 2 + ((hilbert c).getD i 0) ^ 2) / (2 * df * fs))).sum)) ∧
    tr.pair = (st.event, st.station) ∧ tr.start = st.start ∧ tr.sr = st.sr ∧
    tr.origin = st.origin ∧ tr.ponset = st.ponset ∧ tr.sonset = st.sonset ∧
    tr.distance = st.distance := by
  rw [observedEnergy_eq hlen] at h
  by_cases h1 : st.channels = []
  · rw [if_pos h1] at h; simp at h
  · rw [if_neg h1] at h
    split at h
    · simp at h
    · next htol =>
      simp only [Except.ok.injEq] at h
      have hl : tr.data.length = minLen (st.channels.map List.length) := by rw [← h]; simp [rawTrace]
      have hne : st.channels.map List.length ≠ [] := by simpa using h1
      refine ⟨?_, ?_, ?_, ?_, ?_⟩
      · obtain ⟨c, hc, he⟩ := List.mem_map.1 (minLen_mem hne)
        exact ⟨c, hc, by rw [hl, he]⟩
      · intro c hc
        have hm : c.length ∈ st.channels.map List.length := List.mem_map.2 ⟨c, hc, rfl⟩
        have := minLen_le hm
        have := le_maxLen hm
        rw [hl]; omega
      · intro i hi
        rw [hl] at hi
        rw [← h]
        unfold rawTrace
        simp only
        rw [List.getElem?_map, List.getElem?_range hi]
        simp only [Option.map_some, Option.some.injEq]
        congr 1
        apply List.map_congr_left
        intro c _
        rw [div_div, div_div, mul_assoc]
      · rw [← h]; rfl
      · rw [← h]; exact ⟨rfl, rfl, rfl, rfl, rfl, rfl⟩

/-- **C34**: energies are not negative. -/
theorem C34_energy_nonneg {hilbert : List ℝ → List ℝ}
    (hlen : ∀ d, (hilbert d).length = d.length) {st : Stream} {rho df fs : ℝ} (hrho : 0 ≤ rho)
    (hdf : 0 ≤ df) (hfs : 0 ≤ fs) {tol : ℕ} {tr : Trace}
    (h : observedEnergy hilbert st rho df none fs tol = .ok tr) : ∀ x ∈ tr.data, 0 ≤ x := by
  intro x hx
  obtain ⟨-, -, h3, -⟩ := C34_energy_is_sum_of_channel_energies hlen h
  obtain ⟨i, hi, rfl⟩ := List.getElem_of_mem hx
  have := h3 i hi
  rw [List.getElem?_eq_getElem hi, Option.some.injEq] at this
  rw [this]
  exact sum_map_nonneg (fun c _ => by positivity)

open Classical in
/-- **C34**: a stream is rejected exactly if the lengths of two channels differ by more than the
tolerance. -/
theorem C34_rejected_iff {hilbert : List ℝ → List ℝ}
    (hlen : ∀ d, (hilbert d).length = d.length) {st : Stream} {rho df fs : ℝ} {tol : ℕ} :
    observedEnergy hilbert st rho df none fs tol = .error .skipError ↔
      ∃ c ∈ st.channels, ∃ c' ∈ st.channels, c.length + tol < c'.length := by
  rw [observedEnergy_eq hlen]
  by_cases h1 : st.channels = []
  · simp [h1]
  · rw [if_neg h1]
    have hne : st.channels.map List.length ≠ [] := by simpa using h1
    constructor
    · intro h
      split at h
      · next htol =>
        obtain ⟨c, hc, he⟩ := List.mem_map.1 (minLen_mem hne)
        obtain ⟨c', hc', he'⟩ := List.mem_map.1 (maxLen_mem hne)
        exact ⟨c, hc, c', hc', by omega⟩
      · simp at h
    · rintro ⟨c, hc, c', hc', h⟩
      have := minLen_le (List.mem_map.2 ⟨c, hc, rfl⟩ : c.length ∈ st.channels.map List.length)
      have := le_maxLen (List.mem_map.2 ⟨c', hc', rfl⟩ : c'.length ∈ st.channels.map List.length)
      rw [if_pos (by omega)]

/-- Amplitudes multiplied by `k`. -/
def scaleStream (k : ℝ) (st : Stream) : Stream :=
  { st with channels := st.channels.map (List.map (k * ·)) }

namespace Energy

/-- A trace with all samples multiplied by `a`. -/
def scaleTrace (a : ℝ) (tr : Trace) : Trace := { tr with data := tr.data.map (a * ·) }

theorem rawTrace_scale {hilbert : List ℝ → List ℝ} (hlin : ∀ (k : ℝ) d, hilbert (d.map (k * ·)) =
    (hilbert d).map (k * ·)) (k : ℝ) (st : Stream) (rho df fs : ℝ) :
    rawTrace hilbert (scaleStream k st) rho df fs =
      scaleTrace (k ^ 2) (rawTrace hilbert st rho df fs) := by
  have hl : (scaleStream k st).channels.map List.length = st.channels.map List.length := by
    simp only [scaleStream, List.map_map]
    apply List.map_congr_left
    intro c _
    simp
  have hg : ∀ (l : List ℝ) (i : ℕ), (l.map (k * ·)).getD i 0 = k * l.getD i 0 := by
    intro l i
    simp only [List.getD_eq_getElem?_getD, List.getElem?_map]
    cases l[i]? <;> simp
  unfold rawTrace scaleTrace
  rw [hl]
  simp only [scaleStream, List.map_map, Trace.mk.injEq, true_and, and_true]
  apply List.map_congr_left
  intro i _
  simp only [Function.comp]
  rw [← sum_map_mul_left']
  apply sum_map_congr
  intro c _
  simp only [Function.comp, hlin, hg]
  ring

theorem roundAway_congr {a b : ℝ} (h : a = b) : roundAway a = roundAway b := by rw [h]

theorem slice_scale (a : ℝ) (tr : Trace) (t1 t2 : ℝ) :
    (scaleTrace a tr).slice t1 t2 = (tr.slice t1 t2).map (scaleTrace a) := by
  have hl : ∀ tr : Trace, (scaleTrace a tr).ltrim t1 = scaleTrace a (tr.ltrim t1) := by
    intro tr
    unfold Trace.ltrim scaleTrace
    simp only
    split
    · simp [List.map_drop]
    · rfl
  have hr : ∀ tr : Trace, (scaleTrace a tr).rtrim t2 = scaleTrace a (tr.rtrim t2) := by
    intro tr
    unfold Trace.rtrim scaleTrace Trace.stop
    simp only [List.length_map]
    split
    · rfl
    · split
      · simp
      · simp [List.map_take]
  unfold Trace.slice
  split
  · rfl
  · simp only [Except.map, hl, hr]

end Energy

/-- **C34**: the energy is quadratic in the amplitude: multiplying all components by `k` multiplies
all energies by `k²` (and does not change whether the stream is accepted). -/
theorem C34_quadratic {hilbert : List ℝ → List ℝ} (hlen : ∀ d, (hilbert d).length = d.length)
    (hlin : ∀ (k : ℝ) d, hilbert (d.map (k * ·)) = (hilbert d).map (k * ·)) (k : ℝ) (st : Stream)
    (rho df fs : ℝ) (tol : ℕ) :
    observedEnergy hilbert (scaleStream k st) rho df none fs tol =
      (observedEnergy hilbert st rho df none fs tol).map
        (fun tr => { tr with data := tr.data.map (k ^ 2 * ·) }) := by
  rw [observedEnergy_eq hlen, observedEnergy_eq hlen, rawTrace_scale hlin]
  have h1 : (scaleStream k st).channels = [] ↔ st.channels = [] := by simp [scaleStream]
  have hl : (scaleStream k st).channels.map List.length = st.channels.map List.length := by
    simp only [scaleStream, List.map_map]
    apply List.map_congr_left
    intro c _
    simp
  rw [hl]
  by_cases h : st.channels = []
  · rw [if_pos h, if_pos (h1.2 h)]; rfl
  · rw [if_neg h, if_neg (fun h' => h (h1.1 h'))]
    split <;> rfl

/-- **C34**: the energy is proportional to the density. -/
theorem C34_proportional_to_density {hilbert : List ℝ → List ℝ}
    (hlen : ∀ d, (hilbert d).length = d.length) (k : ℝ) (st : Stream) (rho df fs : ℝ) (tol : ℕ) :
    observedEnergy hilbert st (k * rho) df none fs tol =
      (observedEnergy hilbert st rho df none fs tol).map
        (fun tr => { tr with data := tr.data.map (k * ·) }) := by
  have hraw : rawTrace hilbert st (k * rho) df fs = scaleTrace k (rawTrace hilbert st rho df fs) := by
    unfold rawTrace scaleTrace
    simp only [List.map_map, Trace.mk.injEq, true_and, and_true]
    apply List.map_congr_left
    intro i _
    simp only [Function.comp]
    rw [← sum_map_mul_left']
    apply sum_map_congr
    intro c _
    ring
  rw [observedEnergy_eq hlen, observedEnergy_eq hlen, hraw]
  by_cases h : st.channels = []
  · rw [if_pos h, if_pos h]; rfl
  · rw [if_neg h, if_neg h]
    split <;> rfl

/-- **C35**: with coda normalisation the mean energy in the normalisation window is one. -/
theorem C35_mean_is_one {hilbert : List ℝ → List ℝ} (hlen : ∀ d, (hilbert d).length = d.length)
    {st : Stream} {rho df fs : ℝ} {tol : ℕ} {cn : ℝ × ℝ} {tr : Trace}
    (h : observedEnergy hilbert st rho df (some cn) fs tol = .ok tr) :
    ∃ sl, tr.slice (st.origin + cn.1) (st.origin + cn.2) = .ok sl ∧ sl.data ≠ [] ∧
      sl.data.sum / sl.data.length = 1 := by
  rw [observedEnergy_eq hlen] at h
  split at h
  · simp at h
  · split at h
    · simp at h
    · unfold normalise at h
      obtain ⟨sl, hsl, h⟩ := bind_ok.1 h
      by_cases hs : sl.data.sum = 0
      · rw [if_pos hs] at h; simp at h
      · rw [if_neg hs] at h
        simp only [Except.ok.injEq] at h
        have hne : sl.data ≠ [] := by rintro h0; rw [h0] at hs; simp at hs
        have hN : (sl.data.length : ℝ) ≠ 0 := by
          have := List.length_pos_iff.2 hne
          positivity
        set m := sl.data.sum / sl.data.length with hm
        have hm0 : m ≠ 0 := div_ne_zero hs hN
        have htr : tr = scaleTrace m⁻¹ (rawTrace hilbert st rho df fs) := by
          rw [← h]
          unfold scaleTrace
          simp only [Trace.mk.injEq, true_and, and_true]
          apply List.map_congr_left
          intro x _
          rw [div_eq_mul_inv, mul_comm]
        have hsl' : (rawTrace hilbert st rho df fs).slice (st.origin + cn.1) (st.origin + cn.2) =
            .ok sl := hsl
        refine ⟨scaleTrace m⁻¹ sl, ?_, ?_, ?_⟩
        · rw [htr, slice_scale, hsl']; rfl
        · simpa [scaleTrace] using hne
        · simp only [scaleTrace, List.length_map]
          have : (sl.data.map (m⁻¹ * ·)).sum = m⁻¹ * sl.data.sum := by
            rw [sum_map_mul_left', List.map_id']
          rw [this, mul_div_assoc, ← hm, inv_mul_cancel₀ hm0]

/-- **C35**: with coda normalisation the amplitude of the stream does not matter. -/
theorem C35_amplitude_does_not_matter {hilbert : List ℝ → List ℝ}
    (hlen : ∀ d, (hilbert d).length = d.length)
    (hlin : ∀ (k : ℝ) d, hilbert (d.map (k * ·)) = (hilbert d).map (k * ·)) {k : ℝ} (hk : k ≠ 0)
    (st : Stream) (rho df fs : ℝ) (tol : ℕ) (cn : ℝ × ℝ) :
    observedEnergy hilbert (scaleStream k st) rho df (some cn) fs tol =
      observedEnergy hilbert st rho df (some cn) fs tol := by
  rw [observedEnergy_eq hlen, observedEnergy_eq hlen, rawTrace_scale hlin]
  have h1 : (scaleStream k st).channels = [] ↔ st.channels = [] := by simp [scaleStream]
  have hl : (scaleStream k st).channels.map List.length = st.channels.map List.length := by
    simp only [scaleStream, List.map_map]
    apply List.map_congr_left
    intro c _
    simp
  rw [hl]
  by_cases h : st.channels = []
  · rw [if_pos h, if_pos (h1.2 h)]
  · rw [if_neg h, if_neg (fun h' => h (h1.1 h'))]
    split
    · rfl
    · simp only
      unfold normalise
      have ho : (scaleTrace (k ^ 2) (rawTrace hilbert st rho df fs)).origin =
          (rawTrace hilbert st rho df fs).origin := rfl
      rw [ho, slice_scale]
      cases (rawTrace hilbert st rho df fs).slice ((rawTrace hilbert st rho df fs).origin + cn.1)
        ((rawTrace hilbert st rho df fs).origin + cn.2) with
      | error e => rfl
      | ok sl =>
        simp only [Except.map, bind, Except.bind]
        have hs : (scaleTrace (k ^ 2) sl).data.sum = k ^ 2 * sl.data.sum := by
          simp only [scaleTrace]
          rw [sum_map_mul_left', List.map_id']
        have hlen' : (scaleTrace (k ^ 2) sl).data.length = sl.data.length := by simp [scaleTrace]
        rw [hs, hlen']
        have hk2 : k ^ 2 ≠ 0 := pow_ne_zero 2 hk
        by_cases h0 : sl.data.sum = 0
        · simp [h0]
        · rw [if_neg h0, if_neg (mul_ne_zero hk2 h0)]
          simp only [scaleTrace, List.map_map, Except.ok.injEq, Trace.mk.injEq, true_and, and_true]
          apply List.map_congr_left
          intro x _
          simp only [Function.comp]
          have e : k ^ 2 * sl.data.sum / (sl.data.length : ℝ) =
              k ^ 2 * (sl.data.sum / sl.data.length) := by ring
          rw [e, mul_div_mul_left _ _ hk2]

/-! A case which meets the hypotheses: two components of different length, constant "Hilbert
transform" -/

example : ∃ tr, observedEnergy (fun d => d)
    ⟨"e", "s", 0, 1, [[1, 2, 3], [1, 1]], 0, 1, 2, 5, false⟩ 2 1 none 4 1 = .ok tr ∧
    tr.data = [1, 5 / 2] := by
  refine ⟨rawTrace (fun d => d) ⟨"e", "s", 0, 1, [[1, 2, 3], [1, 1]], 0, 1, 2, 5, false⟩ 2 1 4,
    ?_, ?_⟩
  · rw [observedEnergy_eq (fun _ => rfl)]
    simp [maxLen, minLen]
  · simp [rawTrace, minLen, List.range_succ]
    norm_num

example : ∃ tr, observedEnergy (fun d => d)
    ⟨"e", "s", 0, 1, [[1, 2, 3], [1, 1]], 0, 1, 2, 5, false⟩ 2 1 (some (0, 1)) 4 1 = .ok tr := by
  rw [observedEnergy_eq (fun _ => rfl)]
  have h0 : roundAway 0 = 0 := by simp [roundAway]; norm_num
  have h1 : roundAway 1 = 1 := by
    simp only [roundAway, zero_le_one, if_true]
    rw [Int.floor_eq_iff]; norm_num
  simp [maxLen, minLen, normalise, rawTrace, Trace.slice, Trace.ltrim, Trace.rtrim, bind, Except.bind,
    List.range_succ, h0, h1]
  norm_num

/-! ## C22 -/

/-- **C22**: after noise removal every sample is at least a hundredth of the noise level (hence
positive for a positive noise level), samples well above the noise level are reduced by exactly
this level, and the number and order of the samples do not change. -/
theorem C22_noise_removal {nl : ℝ} (hnl : 0 < nl) (data : List ℝ) :
    (Window.removeNoise nl data).length = data.length ∧
    (∀ y ∈ Window.removeNoise nl data, nl / 100 ≤ y ∧ 0 < y) ∧
    (∀ (i : ℕ) x, data[i]? = some x → nl + nl / 100 ≤ x →
      (Window.removeNoise nl data)[i]? = some (x - nl)) ∧
    (∀ (i j : ℕ) x x' y y', data[i]? = some x → data[j]? = some x' →
      (Window.removeNoise nl data)[i]? = some y → (Window.removeNoise nl data)[j]? = some y' →
      x ≤ x' → y ≤ y') := by
  unfold Window.removeNoise
  refine ⟨by simp, ?_, ?_, ?_⟩
  · intro y hy
    obtain ⟨x, -, rfl⟩ := List.mem_map.1 hy
    have : (0:ℝ) < nl / 100 := by positivity
    split
    · exact ⟨le_rfl, this⟩
    · next h => push Not at h; exact ⟨h, lt_of_lt_of_le this h⟩
  · intro i x hi hx
    rw [List.getElem?_map, hi]
    simp only [Option.map_some, Option.some.injEq]
    rw [if_neg (by linarith)]
  · intro i j x x' y y' hi hj hy hy' hle
    rw [List.getElem?_map, hi] at hy
    rw [List.getElem?_map, hj] at hy'
    simp only [Option.map_some, Option.some.injEq] at hy hy'
    rw [← hy, ← hy']
    split <;> split <;> linarith

example : (Window.removeNoise 1 [5, 1, 0.5])[0]? = some 4 := by
  rw [(C22_noise_removal one_pos [5, 1, 0.5]).2.2.1 0 5 rfl (by norm_num)]
  norm_num

end Qopen
