import Verif.Model.Trace
import Verif.Lemmas.SiteTotal
import Mathlib.Order.Bounds.Basic

/-!
# Time expressions and time windows: C30, C31, C32

`float` stands for Python's `float(...)` on strings; the only assumption is that it rejects the
empty string.
-/

namespace Qopen

open Tr

namespace Spec

/-- What the documentation says about time expressions without signal-to-noise ratio: the string
(in lower case) is one of `ot x s`, `p x s`, `s x s`, `x ptt`, `x stt` for a number `x`, and the
time is relative to origin, P-onset, S-onset, P travel time or S travel time. -/
def DocTime (float : PyStr → Option ℝ) (tr : Trace) (time : PyStr) (t : ℝ) : Prop :=
  ∃ num x, float num = some x ∧
    ((time = "ot".toList ++ num ++ "s".toList ∧ t = tr.origin + x) ∨
     (time = "p".toList ++ num ++ "s".toList ∧ t = tr.ponset + x) ∨
     (time = "s".toList ++ num ++ "s".toList ∧ t = tr.sonset + x) ∨
     (time = num ++ "ptt".toList ∧ t = tr.origin + x * (tr.ponset - tr.origin)) ∨
     (time = num ++ "stt".toList ∧ t = tr.origin + x * (tr.sonset - tr.origin)))

/-- `n` is the index of the sample nearest to time `t` (the first sample if `t` is before the
trace). -/
def NearestSample (tr : Trace) (t : ℝ) (n : ℕ) : Prop :=
  (t ≤ tr.start → n = 0) ∧ (tr.start ≤ t → |tr.start + n / tr.sr - t| ≤ 1 / 2 / tr.sr)

end Spec

open Spec

namespace Tr

theorem endswith_iff {s e : PyStr} : endswith s e = true ↔ ∃ p, s = p ++ e := by
  unfold endswith
  rw [List.isSuffixOf_iff_suffix]
  constructor
  · rintro ⟨p, h⟩; exact ⟨p, h.symm⟩
  · rintro ⟨p, h⟩; exact ⟨p, h.symm⟩

theorem startswith_iff {s e : PyStr} : startswith s e = true ↔ ∃ p, s = e ++ p := by
  unfold startswith
  rw [List.isPrefixOf_iff_prefix]
  constructor
  · rintro ⟨p, h⟩; exact ⟨p, h.symm⟩
  · rintro ⟨p, h⟩; exact ⟨p, h.symm⟩

theorem cutEnd_append (p e : PyStr) : cutEnd (p ++ e) e.length = p := by
  unfold cutEnd
  simp

theorem pyFloat_ok {float : PyStr → Option ℝ} {s : PyStr} {x : ℝ} :
    pyFloat float s = .ok x ↔ float s = some x := by
  unfold pyFloat
  cases float s <;> simp

theorem getLast_eq {s p q : PyStr} {a b : Char} (h1 : s = p ++ [a]) (h2 : s = q ++ [b]) : a = b := by
  rw [h1] at h2
  have := List.append_inj' h2 rfl
  simpa using this.2

/-- The documented strings are accepted, all other strings (not ending with `snr`) are rejected. -/
theorem timePlain_spec {float : PyStr → Option ℝ} (h0 : float [] = none) (tr : Trace) (time : PyStr) :
    (∃ t, timePlain float time tr = .ok t ∧ DocTime float tr time t) ∨
    (timePlain float time tr = .error .valueError ∧ ∀ t, ¬ DocTime float tr time t) := by
  unfold timePlain
  by_cases htt : (endswith time "stt".toList || endswith time "ptt".toList) = true
  · rw [if_pos htt]
    -- travel times
    have hform : ∃ p c, time = p ++ [c, 't', 't'] ∧ (c = 's' ∨ c = 'p') := by
      rcases Bool.or_eq_true_iff.1 htt with h | h
      · obtain ⟨p, h⟩ := endswith_iff.1 h
        exact ⟨p, 's', h, Or.inl rfl⟩
      · obtain ⟨p, h⟩ := endswith_iff.1 h
        exact ⟨p, 'p', h, Or.inr rfl⟩
    obtain ⟨p, c, hp, hc⟩ := hform
    have hcut : cutEnd time 3 = p := by rw [hp]; exact cutEnd_append p [c, 't', 't']
    have hget : time.reverse.getD 2 ' ' = c := by rw [hp]; simp
    rw [hcut, hget]
    have hnos : ∀ q, time ≠ q ++ "s".toList := by
      intro q hq
      have h2 : time = (p ++ [c, 't']) ++ ['t'] := by rw [hp]; simp
      exact absurd (getLast_eq h2 hq) (by decide)
    cases hf : float p with
    | some x =>
      left
      have : pyFloat float p = .ok x := pyFloat_ok.2 hf
      refine ⟨tr.origin + x * ((if c = 'p' then tr.ponset else tr.sonset) - tr.origin), ?_, p, x, hf, ?_⟩
      · simp only [this, bind, Except.bind, pure, Except.pure]
      · rcases hc with rfl | rfl
        · right; right; right; right
          exact ⟨hp, by simp⟩
        · right; right; right; left
          exact ⟨hp, by simp⟩
    | none =>
      right
      constructor
      · simp [pyFloat, hf, bind, Except.bind]
      · rintro t ⟨num, x, hx, h | h | h | h | h⟩
        · exact hnos _ h.1
        · exact hnos _ h.1
        · exact hnos _ h.1
        · have h3 := h.1
          rw [hp] at h3
          have := List.append_inj' h3 rfl
          rw [this.1, hx] at hf
          simp at hf
        · have h3 := h.1
          rw [hp] at h3
          have := List.append_inj' h3 rfl
          rw [this.1, hx] at hf
          simp at hf
  · rw [if_neg htt]
    have hnott : ∀ num, time ≠ num ++ "ptt".toList ∧ time ≠ num ++ "stt".toList := by
      intro num
      constructor
      · intro h; exact htt (Bool.or_eq_true_iff.2 (Or.inr (endswith_iff.2 ⟨num, h⟩)))
      · intro h; exact htt (Bool.or_eq_true_iff.2 (Or.inl (endswith_iff.2 ⟨num, h⟩)))
    by_cases hs : ((startswith time "s".toList || startswith time "p".toList ||
        startswith time "ot".toList) && endswith time "s".toList) = true
    · rw [if_pos hs]
      obtain ⟨hst, hend⟩ := Bool.and_eq_true_iff.1 hs
      obtain ⟨q, hq⟩ := endswith_iff.1 hend
      have hcut : cutEnd time 1 = q := by rw [hq]; exact cutEnd_append q "s".toList
      rw [hcut]
      -- the three kinds of first letters
      have hkind : (∃ r, time = "s".toList ++ r) ∨ (∃ r, time = "p".toList ++ r) ∨
          (∃ r, time = "ot".toList ++ r) := by
        rcases Bool.or_eq_true_iff.1 hst with h | h
        · rcases Bool.or_eq_true_iff.1 h with h | h
          · exact Or.inl (startswith_iff.1 h)
          · exact Or.inr (Or.inl (startswith_iff.1 h))
        · exact Or.inr (Or.inr (startswith_iff.1 h))
      rcases hkind with ⟨r, hr⟩ | ⟨r, hr⟩ | ⟨r, hr⟩
      · -- S
        have e1 : startswith time "p".toList = false := by rw [hr]; simp [startswith, List.isPrefixOf]
        have e2 : startswith time "s".toList = true := by rw [hr]; simp [startswith, List.isPrefixOf]
        have e3 : startswith time "ot".toList = false := by rw [hr]; simp [startswith, List.isPrefixOf]
        simp only [e1, e2, e3, Bool.false_eq_true, if_false, if_true]
        cases hf : float (q.drop 1) with
        | some x =>
          left
          refine ⟨tr.sonset + x, ?_, q.drop 1, x, hf, ?_⟩
          · simp only [pyFloat_ok.2 hf, bind, Except.bind, pure, Except.pure]
          · right; right; left
            refine ⟨?_, rfl⟩
            cases q with
            | nil => simp [h0] at hf
            | cons a q' =>
              rw [hr] at hq
              rw [hr]
              simp at hq ⊢
              exact hq.2
        | none =>
          right
          constructor
          · rw [pyFloat, hf]; rfl
          · rintro t ⟨num, x, hx, h | h | h | h | h⟩
            · have := h.1; rw [hr] at this; simp at this
            · have := h.1; rw [hr] at this; simp at this
            · have h1 := h.1
              rw [hq] at h1
              have h2 := (List.append_inj' h1 rfl).1
              rw [h2] at hf
              simp [hx] at hf
            · exact (hnott num).1 h.1
            · exact (hnott num).2 h.1
      · -- P
        have e1 : startswith time "p".toList = true := by rw [hr]; simp [startswith, List.isPrefixOf]
        have e3 : startswith time "ot".toList = false := by rw [hr]; simp [startswith, List.isPrefixOf]
        simp only [e1, e3, Bool.false_eq_true, if_false, if_true]
        cases hf : float (q.drop 1) with
        | some x =>
          left
          refine ⟨tr.ponset + x, ?_, q.drop 1, x, hf, ?_⟩
          · simp only [pyFloat_ok.2 hf, bind, Except.bind, pure, Except.pure]
          · right; left
            refine ⟨?_, rfl⟩
            cases q with
            | nil => simp [h0] at hf
            | cons a q' =>
              rw [hr] at hq
              rw [hr]
              simp at hq ⊢
              exact hq.2
        | none =>
          right
          constructor
          · rw [pyFloat, hf]; rfl
          · rintro t ⟨num, x, hx, h | h | h | h | h⟩
            · have := h.1; rw [hr] at this; simp at this
            · have h1 := h.1
              rw [hq] at h1
              have h2 := (List.append_inj' h1 rfl).1
              rw [h2] at hf
              simp [hx] at hf
            · have := h.1; rw [hr] at this; simp at this
            · exact (hnott num).1 h.1
            · exact (hnott num).2 h.1
      · -- OT
        have e1 : startswith time "p".toList = false := by rw [hr]; simp [startswith, List.isPrefixOf]
        have e2 : startswith time "s".toList = false := by rw [hr]; simp [startswith, List.isPrefixOf]
        have e3 : startswith time "ot".toList = true := by rw [hr]; simp [startswith, List.isPrefixOf]
        simp only [e1, e2, e3, Bool.false_eq_true, if_false, if_true]
        cases hf : float (q.drop 2) with
        | some x =>
          left
          refine ⟨tr.origin + x, ?_, q.drop 2, x, hf, ?_⟩
          · simp only [pyFloat_ok.2 hf, bind, Except.bind, pure, Except.pure]
          · left
            refine ⟨?_, rfl⟩
            match q, hq, hf with
            | [], _, hf => simp [h0] at hf
            | [a], _, hf => simp [h0] at hf
            | a :: b :: q', hq, _ =>
              rw [hr] at hq
              rw [hr]
              simp at hq ⊢
              exact hq.2.2
        | none =>
          right
          constructor
          · rw [pyFloat, hf]; rfl
          · rintro t ⟨num, x, hx, h | h | h | h | h⟩
            · have h1 := h.1
              rw [hq] at h1
              have h2 := (List.append_inj' h1 rfl).1
              rw [h2] at hf
              simp [hx] at hf
            · have := h.1; rw [hr] at this; simp at this
            · have := h.1; rw [hr] at this; simp at this
            · exact (hnott num).1 h.1
            · exact (hnott num).2 h.1
    · rw [if_neg hs]
      right
      refine ⟨rfl, ?_⟩
      rintro t ⟨num, x, hx, h | h | h | h | h⟩
      · apply hs
        rw [h.1, Bool.and_eq_true_iff]
        exact ⟨by simp [startswith], endswith_iff.2 ⟨_, rfl⟩⟩
      · apply hs
        rw [h.1, Bool.and_eq_true_iff]
        exact ⟨by simp [startswith], endswith_iff.2 ⟨_, rfl⟩⟩
      · apply hs
        rw [h.1, Bool.and_eq_true_iff]
        exact ⟨by simp [startswith], endswith_iff.2 ⟨_, rfl⟩⟩
      · exact (hnott num).1 h.1
      · exact (hnott num).2 h.1

theorem docTime_unique {float : PyStr → Option ℝ} {tr : Trace} {time : PyStr} {t t' : ℝ}
    (h0 : float [] = none) (h : DocTime float tr time t) (h' : DocTime float tr time t') : t = t' := by
  obtain ⟨num, x, hx, h⟩ := h
  obtain ⟨num', x', hx', h'⟩ := h'
  have key : num = num' → x = x' := by
    intro e
    rw [e, hx'] at hx
    simpa using hx.symm
  have hlast : ∀ {a b : PyStr} {c : Char}, a ++ ['s'] = b ++ [c, 't', 't'] → False := by
    intro a b c e
    have e2 := congrArg List.getLast? e
    simp at e2
  rcases h with h | h | h | h | h <;> rcases h' with h' | h' | h' | h' | h' <;>
    have e := h.1.symm.trans h'.1 <;> rw [h.2, h'.2]
  all_goals first
    | (exact absurd e (fun e => hlast e))
    | (exact absurd e (fun e => hlast e.symm))
    | (rw [key (by simpa using e)]; done)
    | (exfalso; simp at e; done)
    | (exact absurd (List.append_inj' e rfl).2 (by decide))

end Tr

/-- **C31**: a time string which is not a signal-to-noise expression resolves to the documented
time, case-insensitively, and every string which is not documented is rejected with `ValueError`. -/
theorem C31_time_strings {float : PyStr → Option ℝ} (h0 : float [] = none) (tr : Trace)
    (s : PyStr) (st : Option ℝ) (hs : ¬ ∃ p, lower s = p ++ "snr".toList) :
    (∀ t, time2utc float s tr st = .ok t ↔ DocTime float tr (lower s) t) ∧
    ((∀ t, ¬ DocTime float tr (lower s) t) → time2utc float s tr st = .error .valueError) := by
  have he : endswith (lower s) "snr".toList = false := by
    rw [← Bool.not_eq_true]
    exact fun h => hs (endswith_iff.1 h)
  have : time2utc float s tr st = timePlain float (lower s) tr := by
    unfold time2utc
    simp only [he, Bool.false_eq_true, if_false]
  rw [this]
  rcases timePlain_spec h0 tr (lower s) with ⟨t, h1, h2⟩ | ⟨h1, h2⟩
  · refine ⟨?_, fun h => absurd h2 (h t)⟩
    intro t'
    rw [h1]
    constructor
    · intro h; simp only [Except.ok.injEq] at h; rw [← h]; exact h2
    · intro h; rw [docTime_unique h0 h2 h]
  · refine ⟨?_, fun _ => h1⟩
    intro t'
    rw [h1]
    constructor
    · intro h; simp at h
    · intro h; exact absurd h (h2 t')

/-- **C31**: upper and lower case do not matter. -/
theorem C31_case_insensitive {float : PyStr → Option ℝ} (tr : Trace) (s s' : PyStr) (st : Option ℝ)
    (h : lower s = lower s') : time2utc float s tr st = time2utc float s' tr st := by
  unfold time2utc
  rw [h]

example {float : PyStr → Option ℝ} (h0 : float [] = none) (hf : float "-5".toList = some (-5))
    (tr : Trace) : time2utc float "OT-5s".toList tr none = .ok (tr.origin - 5) := by
  refine ((C31_time_strings h0 tr _ none ?_).1 _).2
    ⟨"-5".toList, -5, hf, Or.inl ⟨by decide, by ring⟩⟩
  rintro ⟨p, hp⟩
  have := congrArg List.getLast? hp
  simp [lower] at this

example {float : PyStr → Option ℝ} (h0 : float [] = none) (hf : float "2.5".toList = some 2.5)
    (tr : Trace) : time2utc float "2.5Stt".toList tr none =
      .ok (tr.origin + 2.5 * (tr.sonset - tr.origin)) := by
  refine ((C31_time_strings h0 tr _ none ?_).1 _).2
    ⟨"2.5".toList, 2.5, hf, Or.inr (Or.inr (Or.inr (Or.inr ⟨by decide, rfl⟩)))⟩
  rintro ⟨p, hp⟩
  have := congrArg List.getLast? hp
  simp [lower] at this

/-! ## C30 -/

namespace Tr

theorem roundAway_nonneg {x : ℝ} (hx : 0 ≤ x) : 0 ≤ roundAway x ∧ |(roundAway x : ℝ) - x| ≤ 1 / 2 := by
  unfold roundAway
  rw [if_pos hx]
  refine ⟨Int.floor_nonneg.2 (by linarith), ?_⟩
  have h1 := Int.floor_le (x + 1 / 2)
  have h2 := Int.lt_floor_add_one (x + 1 / 2)
  rw [abs_le]
  constructor <;> linarith

theorem roundAway_nonpos {x : ℝ} (hx : x ≤ 0) : roundAway x ≤ 0 := by
  unfold roundAway
  split
  · next h =>
    have : x = 0 := le_antisymm hx h
    subst this
    norm_num
  · have : 0 ≤ ⌊-x + 1 / 2⌋ := Int.floor_nonneg.2 (by linarith)
    omega

theorem lower_lower (s : PyStr) : lower (lower s) = lower s := by
  unfold lower
  rw [List.map_map]
  apply List.map_congr_left
  intro c _
  simp only [Function.comp_apply]
  by_cases h : c.val ≥ 'A'.val ∧ c.val ≤ 'Z'.val
  · have hv : c.toLower.val = c.val + ('a'.val - 'A'.val) := by
      unfold Char.toLower
      rw [dif_pos h]
    have h2 : ¬ (c.toLower.val ≥ 'A'.val ∧ c.toLower.val ≤ 'Z'.val) := by
      rintro ⟨_, h2⟩
      rw [hv] at h2
      have a1 : 'A'.val.toNat ≤ c.val.toNat := UInt32.le_iff_toNat_le.1 h.1
      have a2 : c.val.toNat ≤ 'Z'.val.toNat := UInt32.le_iff_toNat_le.1 h.2
      have a3 := UInt32.le_iff_toNat_le.1 h2
      rw [UInt32.toNat_add] at a3
      have e1 : ('a'.val - 'A'.val).toNat = 32 := rfl
      have e2 : 'A'.val.toNat = 65 := rfl
      have e3 : 'Z'.val.toNat = 90 := rfl
      rw [e1, e3] at a3
      rw [e2] at a1
      rw [e3] at a2
      omega
    generalize c.toLower = d at h2
    unfold Char.toLower
    rw [dif_neg h2]
  · have : c.toLower = c := by unfold Char.toLower; rw [dif_neg h]
    rw [this, this]

/-- Cutting the start of a trace keeps the data from the nearest sample on. -/
theorem ltrim_spec (tr : Trace) (hsr : 0 < tr.sr) (t : ℝ) :
    ∃ n, NearestSample tr t n ∧ (tr.ltrim t).data = tr.data.drop n ∧ (tr.ltrim t).noise = tr.noise ∧
      (tr.ltrim t).start = tr.start + n / tr.sr ∧ (tr.ltrim t).sr = tr.sr := by
  refine ⟨(roundAway ((t - tr.start) * tr.sr)).toNat, ⟨?_, ?_⟩, ?_⟩
  · intro h
    have := roundAway_nonpos (x := (t - tr.start) * tr.sr)
      (mul_nonpos_of_nonpos_of_nonneg (by linarith) hsr.le)
    omega
  · intro h
    obtain ⟨h1, h2⟩ := roundAway_nonneg (x := (t - tr.start) * tr.sr)
      (mul_nonneg (by linarith) hsr.le)
    have e : (((roundAway ((t - tr.start) * tr.sr)).toNat : ℕ) : ℝ)
        = (roundAway ((t - tr.start) * tr.sr) : ℝ) := by
      have : (((roundAway ((t - tr.start) * tr.sr)).toNat : ℕ) : ℤ)
        = roundAway ((t - tr.start) * tr.sr) := Int.toNat_of_nonneg h1
      exact_mod_cast this
    rw [e]
    have e2 : tr.start + (roundAway ((t - tr.start) * tr.sr) : ℝ) / tr.sr - t
        = ((roundAway ((t - tr.start) * tr.sr) : ℝ) - (t - tr.start) * tr.sr) / tr.sr := by
      field_simp
      ring
    rw [e2, abs_div, abs_of_pos hsr]
    gcongr
  · unfold Trace.ltrim
    by_cases h : 0 < roundAway ((t - tr.start) * tr.sr)
    · simp only [if_pos h]
      refine ⟨trivial, trivial, ?_, trivial⟩
      have : (((roundAway ((t - tr.start) * tr.sr)).toNat : ℕ) : ℤ)
        = roundAway ((t - tr.start) * tr.sr) := Int.toNat_of_nonneg h.le
      congr 2
      exact_mod_cast this.symm
    · simp only [if_neg h]
      have : (roundAway ((t - tr.start) * tr.sr)).toNat = 0 := by omega
      rw [this]
      simp

end Tr

namespace Spec

/-- `t` is the time, counted from `st`, of the first sample at or after `st` which is smaller than
`level`; all samples between are not below the level.  If there is no such sample, `t` is the time
of the end of the data. -/
def FirstBelow (tr : Trace) (st level t : ℝ) : Prop :=
  ∃ n k : ℕ, NearestSample tr st n ∧ t = st + k / tr.sr ∧
    (∀ (i : ℕ) (x : ℝ), n ≤ i → i < n + k → tr.data[i]? = some x → level ≤ x) ∧
    ((∃ x, tr.data[n + k]? = some x ∧ x < level) ∨
      (k = tr.data.length - n))

end Spec

theorem timeSnr_spec {float : PyStr → Option ℝ} {tr : Trace} (hsr : 0 < tr.sr) {num : PyStr} {x nl st : ℝ}
    (hx : float num = some x) (hn : tr.noise = some nl) :
    ∃ t, timeSnr float (num ++ "snr".toList) tr (some st) = .ok t ∧ FirstBelow tr st (x * nl) t := by
  obtain ⟨n, h1, h2, h3, h4, h5⟩ := Tr.ltrim_spec tr hsr st
  unfold timeSnr
  have hcut : cutEnd (num ++ "snr".toList) 3 = num := Tr.cutEnd_append num "snr".toList
  simp only [hcut, Tr.pyFloat_ok.2 hx, bind, Except.bind, h3, hn, pure, Except.pure]
  refine ⟨_, rfl, n, _, h1, rfl, ?_, ?_⟩
  · intro i y hi1 hi2 hy
    rw [h2] at hi2
    have hlt : i - n < (tr.data.drop n).findIdx (fun y => decide (y < x * nl)) := by omega
    have := List.not_of_lt_findIdx hlt
    have hge : (tr.data.drop n)[i - n]? = some y := by
      rw [List.getElem?_drop, show n + (i - n) = i by omega]; exact hy
    obtain ⟨hl, e⟩ := List.getElem?_eq_some_iff.1 hge
    rw [e] at this
    simpa using this
  · rw [h2]
    by_cases hl : (tr.data.drop n).findIdx (fun y => decide (y < x * nl)) < (tr.data.drop n).length
    · left
      have := List.findIdx_getElem (w := hl)
      refine ⟨(tr.data.drop n)[(tr.data.drop n).findIdx (fun y => decide (y < x * nl))], ?_, ?_⟩
      · rw [← List.getElem?_drop, List.getElem?_eq_getElem hl]
      · simpa using this
    · right
      have := List.findIdx_le_length (xs := tr.data.drop n) (p := fun y => decide (y < x * nl))
      rw [List.length_drop] at this hl
      omega

/-- **C30**: `x SNR` resolves to the first sample after the start time of the window with energy
below `x` times the noise level, or to the end of the data. -/
theorem C30_snr {float : PyStr → Option ℝ} {tr : Trace} (hsr : 0 < tr.sr) {s num : PyStr}
    {x nl st : ℝ} (hs : lower s = num ++ "snr".toList) (hgt : '>' ∉ num)
    (hx : float num = some x) (hn : tr.noise = some nl) :
    ∃ t, time2utc float s tr (some st) = .ok t ∧ FirstBelow tr st (x * nl) t := by
  have he : endswith (lower s) "snr".toList = true := Tr.endswith_iff.2 ⟨num, hs⟩
  have hg : '>' ∉ lower s := by rw [hs]; simp [hgt]
  unfold time2utc
  simp only [he, if_true, if_neg hg]
  rw [hs]
  exact timeSnr_spec hsr hx hn

/-- **C30**: `time>x SNR` counts from the time in front of the expression instead. -/
theorem C30_snr_after_time {float : PyStr → Option ℝ} (h0 : float [] = none) {tr : Trace}
    (hsr : 0 < tr.sr) {s front num : PyStr} {x nl st t0 : ℝ}
    (hs : lower s = front ++ '>' :: num ++ "snr".toList) (hf : '>' ∉ front) (hgt : '>' ∉ num)
    (hfront : DocTime float tr front t0)
    (hx : float num = some x) (hn : tr.noise = some nl) :
    ∃ t, time2utc float s tr (some st) = .ok t ∧ FirstBelow tr t0 (x * nl) t := by
  have he : endswith (lower s) "snr".toList = true := Tr.endswith_iff.2 ⟨_, hs⟩
  have hlow : lower front = front := by
    have hl := Tr.lower_lower s
    rw [hs] at hl
    simp only [lower, List.map_append] at hl
    have := List.append_inj hl (by simp)
    exact (List.append_inj this.1 (by simp)).1
  have hs' : lower s = front ++ '>' :: (num ++ "snr".toList) := by rw [hs]; simp
  have htake : (lower s).takeWhile (· ≠ '>') = front := by
    rw [hs', List.takeWhile_append_of_pos]
    · simp
    · intro a ha
      simp only [ne_eq, decide_not, Bool.not_eq_eq_eq_not, Bool.not_true, decide_eq_false_iff_not]
      intro e; rw [e] at ha; exact hf ha
  have hdrop : ((lower s).dropWhile (· ≠ '>')).drop 1 = num ++ "snr".toList := by
    rw [hs', List.dropWhile_append_of_pos]
    · simp
    · intro a ha
      simp only [ne_eq, decide_not, Bool.not_eq_eq_eq_not, Bool.not_true, decide_eq_false_iff_not]
      intro e; rw [e] at ha; exact hf ha
  have hmem : '>' ∈ lower s := by rw [hs']; simp
  have hback : '>' ∉ num ++ "snr".toList := by simp [hgt]
  have hnosnr : ¬ ∃ p, lower front = p ++ "snr".toList := by
    rw [hlow]
    rintro ⟨p, hp⟩
    have h1 : front = (p ++ ['s', 'n']) ++ ['r'] := by rw [hp]; simp
    obtain ⟨m, y, _, h | h | h | h | h⟩ := hfront
    · exact absurd (Tr.getLast_eq h1 h.1) (by decide)
    · exact absurd (Tr.getLast_eq h1 h.1) (by decide)
    · exact absurd (Tr.getLast_eq h1 h.1) (by decide)
    · have h2 : front = (m ++ ['p', 't']) ++ ['t'] := by rw [h.1]; simp
      exact absurd (Tr.getLast_eq h1 h2) (by decide)
    · have h2 : front = (m ++ ['s', 't']) ++ ['t'] := by rw [h.1]; simp
      exact absurd (Tr.getLast_eq h1 h2) (by decide)
  have hne : front ≠ [] := by
    rintro rfl
    obtain ⟨m, y, _, h | h | h | h | h⟩ := hfront <;> simp at h
  have hplain : timeFront float front tr = .ok t0 := by
    have he2 : endswith (lower front) "snr".toList = false := by
      rw [← Bool.not_eq_true]
      exact fun h => hnosnr (Tr.endswith_iff.1 h)
    have e1 : timeFront float front tr = time2utc float front tr none := by
      unfold timeFront time2utc
      simp only [he2, Bool.false_eq_true, if_false]
    rw [e1]
    exact ((C31_time_strings h0 tr front none hnosnr).1 t0).2 (by rw [hlow]; exact hfront)
  unfold time2utc
  simp only [he, if_true, if_pos hmem, htake, hdrop, if_neg hback, if_pos hne, hplain, bind, Except.bind]
  exact timeSnr_spec hsr hx hn

/-- Noise level 1, envelope falling below twice the noise at the third sample after the start. -/
noncomputable def snrTrace : Trace :=
  { event := "e", station := "s", start := 0, sr := 1, data := [5, 4, 3, 1, 7], origin := 0,
    ponset := 1, sonset := 2, distance := 1, noise := some 1 }

example {float : PyStr → Option ℝ} (hf : float "2".toList = some 2) :
    time2utc float "2SNR".toList snrTrace (some 1) = .ok 3 := by
  obtain ⟨t, h1, n, k, h2, h3, h4, h5⟩ := C30_snr (float := float) (tr := snrTrace) (s := "2SNR".toList)
    (num := "2".toList) (x := 2) (nl := 1) (st := 1) (by norm_num [snrTrace]) (by decide) (by decide)
    hf rfl
  rw [h1, h3]
  have hn : n = 1 := by
    have := h2.2 (by norm_num [snrTrace])
    simp only [snrTrace, zero_add, div_one, abs_le] at this
    have a1 : (n : ℝ) < 2 := by linarith
    have a2 : (0 : ℝ) < n := by linarith
    have : n < 2 := by exact_mod_cast a1
    have : 0 < n := by exact_mod_cast a2
    omega
  subst hn
  have hk : k = 2 := by
    by_contra hne
    rcases Nat.lt_or_gt_of_ne hne with h | h
    · rcases h5 with ⟨x, hx, hlt⟩ | h5
      · interval_cases k <;> simp [snrTrace] at hx <;> subst hx <;> norm_num at hlt
      · simp [snrTrace] at h5; omega
    · have := h4 3 1 (by omega) (by omega) (by simp [snrTrace])
      norm_num at this
  subst hk
  norm_num [snrTrace]

example {float : PyStr → Option ℝ} (h0 : float [] = none) (hf : float "2".toList = some 2)
    (hf1 : float "+1".toList = some 1) :
    ∃ t, time2utc float "OT+1s>2SNR".toList snrTrace (some 0) = .ok t ∧
      FirstBelow snrTrace 1 (2 * 1) t :=
  C30_snr_after_time h0 (tr := snrTrace) (s := "OT+1s>2SNR".toList) (front := "ot+1s".toList)
    (num := "2".toList) (x := 2) (nl := 1) (st := 0) (by norm_num [snrTrace]) (by decide)
    (by decide) (by decide) ⟨"+1".toList, 1, hf1, Or.inl ⟨by decide, by norm_num [snrTrace]⟩⟩ hf rfl

/-! ## C32 -/

namespace Tr

theorem pyMax_isGreatest {l : List ℝ} {m : ℝ} (h : pyMax l = .ok m) : IsGreatest {x | x ∈ l} m := by
  cases l with
  | nil => simp [pyMax] at h
  | cons x l =>
    simp only [pyMax, Except.ok.injEq] at h
    subst h
    induction l generalizing x with
    | nil => simp [IsGreatest, upperBounds]
    | cons y l ih =>
      simp only [List.foldl_cons]
      obtain ⟨h1, h2⟩ := ih (max x y)
      constructor
      · simp only [Set.mem_setOf_eq, List.mem_cons] at h1 ⊢
        rcases h1 with h1 | h1
        · rcases max_choice x y with e | e
          · left; rw [h1, e]
          · right; left; rw [h1, e]
        · exact Or.inr (Or.inr h1)
      · intro z hz
        simp only [Set.mem_setOf_eq, List.mem_cons] at hz
        have hb : max x y ≤ l.foldl max (max x y) := h2 (by simp)
        rcases hz with rfl | rfl | hz
        · exact (le_max_left _ _).trans hb
        · exact (le_max_right _ _).trans hb
        · exact h2 (by simp [hz])

theorem pyMin_isLeast {l : List ℝ} {m : ℝ} (h : pyMin l = .ok m) : IsLeast {x | x ∈ l} m := by
  cases l with
  | nil => simp [pyMin] at h
  | cons x l =>
    simp only [pyMin, Except.ok.injEq] at h
    subst h
    induction l generalizing x with
    | nil => simp [IsLeast, lowerBounds]
    | cons y l ih =>
      simp only [List.foldl_cons]
      obtain ⟨h1, h2⟩ := ih (min x y)
      constructor
      · simp only [Set.mem_setOf_eq, List.mem_cons] at h1 ⊢
        rcases h1 with h1 | h1
        · rcases min_choice x y with e | e
          · left; rw [h1, e]
          · right; left; rw [h1, e]
        · exact Or.inr (Or.inr h1)
      · intro z hz
        simp only [Set.mem_setOf_eq, List.mem_cons] at hz
        have hb : l.foldl min (min x y) ≤ min x y := h2 (by simp)
        rcases hz with rfl | rfl | hz
        · exact hb.trans (min_le_left _ _)
        · exact hb.trans (min_le_right _ _)
        · exact h2 (by simp [hz])

end Tr

theorem mem_forall₂_left {α β : Type*} {R : α → β → Prop} {l : List α} {m : List β}
    (h : List.Forall₂ R l m) {a : α} (ha : a ∈ l) : ∃ b ∈ m, R a b := by
  induction h with
  | nil => simp at ha
  | cons h1 _ ih =>
    rcases List.mem_cons.1 ha with rfl | ha
    · exact ⟨_, by simp, h1⟩
    · obtain ⟨b, hb, hr⟩ := ih ha
      exact ⟨b, by simp [hb], hr⟩

theorem mem_forall₂_right {α β : Type*} {R : α → β → Prop} {l : List α} {m : List β}
    (h : List.Forall₂ R l m) {b : β} (hb : b ∈ m) : ∃ a ∈ l, R a b := by
  induction h with
  | nil => simp at hb
  | cons h1 _ ih =>
    rcases List.mem_cons.1 hb with rfl | hb
    · exact ⟨_, by simp, h1⟩
    · obtain ⟨a, ha, hr⟩ := ih hb
      exact ⟨a, by simp [ha], hr⟩

/-- **C32**: a window given by two lists of time expressions starts at the latest candidate and ends
at the earliest candidate (where signal-to-noise expressions count from the start of the window).
It is rejected if and only if a list is empty or one of the expressions is not valid. -/
theorem C32_latest_start_earliest_end (float : PyStr → Option ℝ) (l1 l2 : List PyStr) (tr : Trace)
    (a b : ℝ) :
    tw2utc float (.many l1, .many l2) tr = .ok (a, b) ↔
      (∀ s ∈ l1, ∃ t, time2utc float s tr none = .ok t) ∧
      IsGreatest {t | ∃ s ∈ l1, time2utc float s tr none = .ok t} a ∧
      (∀ s ∈ l2, ∃ t, time2utc float s tr (some a) = .ok t) ∧
      IsLeast {t | ∃ s ∈ l2, time2utc float s tr (some a) = .ok t} b := by
  have hset : ∀ (st : Option ℝ) (l : List PyStr) (ts : List ℝ),
      List.Forall₂ (fun s t => time2utc float s tr st = .ok t) l ts →
      {x | x ∈ ts} = {t | ∃ s ∈ l, time2utc float s tr st = .ok t} := by
    intro st l ts h
    ext x
    constructor
    · intro hx; exact mem_forall₂_right h hx
    · rintro ⟨s, hs, hx⟩
      obtain ⟨y, hy, e⟩ := mem_forall₂_left h hs
      rw [hx] at e
      simp only [Except.ok.injEq] at e
      rw [e]; exact hy
  have hall : ∀ (st : Option ℝ) (l : List PyStr) (ts : List ℝ),
      List.Forall₂ (fun s t => time2utc float s tr st = .ok t) l ts →
      ∀ s ∈ l, ∃ t, time2utc float s tr st = .ok t := by
    intro st l ts h s hs
    obtain ⟨y, _, e⟩ := mem_forall₂_left h hs
    exact ⟨y, e⟩
  constructor
  · intro h
    unfold tw2utc at h
    obtain ⟨a', h1, h⟩ := bind_ok.1 h
    obtain ⟨b', h2, h⟩ := bind_ok.1 h
    simp only [pure, Except.pure, Except.ok.injEq, Prod.mk.injEq] at h
    obtain ⟨rfl, rfl⟩ := h
    unfold twStart at h1
    unfold twEnd at h2
    obtain ⟨ts1, h1, h1'⟩ := bind_ok.1 h1
    obtain ⟨ts2, h2, h2'⟩ := bind_ok.1 h2
    have f1 := mapExc_ok.1 h1
    have f2 := mapExc_ok.1 h2
    refine ⟨hall _ _ _ f1, ?_, hall _ _ _ f2, ?_⟩
    · rw [← hset _ _ _ f1]; exact Tr.pyMax_isGreatest h1'
    · rw [← hset _ _ _ f2]; exact Tr.pyMin_isLeast h2'
  · rintro ⟨h1, h2, h3, h4⟩
    obtain ⟨ts1, e1⟩ := Site.mapExc_total (f := fun s => time2utc float s tr none) (l := l1) h1
    obtain ⟨ts2, e2⟩ := Site.mapExc_total (f := fun s => time2utc float s tr (some a)) (l := l2) h3
    have f1 := mapExc_ok.1 e1
    have f2 := mapExc_ok.1 e2
    rw [← hset _ _ _ f1] at h2
    rw [← hset _ _ _ f2] at h4
    have m1 : pyMax ts1 = .ok a := by
      cases hts : ts1 with
      | nil => rw [hts] at h2; exact absurd h2.1 (by simp)
      | cons x l =>
        have hh : pyMax (x :: l) = .ok (l.foldl max x) := rfl
        rw [hh, (Tr.pyMax_isGreatest hh).unique (hts ▸ h2)]
    have m2 : pyMin ts2 = .ok b := by
      cases hts : ts2 with
      | nil => rw [hts] at h4; exact absurd h4.1 (by simp)
      | cons x l =>
        have hh : pyMin (x :: l) = .ok (l.foldl min x) := rfl
        rw [hh, (Tr.pyMin_isLeast hh).unique (hts ▸ h4)]
    unfold tw2utc twStart twEnd
    simp only [e1, e2, m1, m2, bind, Except.bind, pure, Except.pure]

example {float : PyStr → Option ℝ} (h0 : float [] = none) (hf : float "+1".toList = some 1)
    (hf9 : float "+9".toList = some 9) (hf2 : float "2".toList = some 2) :
    tw2utc float (.many ["OT+1s".toList, "S+1s".toList], .many ["OT+9s".toList, "2SNR".toList]) snrTrace
      = .ok (3, 3) := by
  have n1 : ¬ ∃ p, lower "OT+1s".toList = p ++ "snr".toList := by
    rintro ⟨p, hp⟩; have := congrArg List.getLast? hp; simp [lower] at this
  have n2 : ¬ ∃ p, lower "S+1s".toList = p ++ "snr".toList := by
    rintro ⟨p, hp⟩; have := congrArg List.getLast? hp; simp [lower] at this
  have n3 : ¬ ∃ p, lower "OT+9s".toList = p ++ "snr".toList := by
    rintro ⟨p, hp⟩; have := congrArg List.getLast? hp; simp [lower] at this
  have t1 : time2utc float "OT+1s".toList snrTrace none = .ok 1 :=
    ((C31_time_strings h0 snrTrace _ none n1).1 1).2
      ⟨_, 1, hf, Or.inl ⟨by decide, by norm_num [snrTrace]⟩⟩
  have t2 : time2utc float "S+1s".toList snrTrace none = .ok 3 :=
    ((C31_time_strings h0 snrTrace _ none n2).1 3).2
      ⟨_, 1, hf, Or.inr (Or.inr (Or.inl ⟨by decide, by norm_num [snrTrace]⟩))⟩
  have t3 : time2utc float "OT+9s".toList snrTrace (some 3) = .ok 9 :=
    ((C31_time_strings h0 snrTrace _ (some 3) n3).1 9).2
      ⟨_, 9, hf9, Or.inl ⟨by decide, by norm_num [snrTrace]⟩⟩
  have t4 : time2utc float "2SNR".toList snrTrace (some 3) = .ok 3 := by
    obtain ⟨t, h1, n, k, h2, h3, h4, h5⟩ := C30_snr (float := float) (tr := snrTrace)
      (s := "2SNR".toList) (num := "2".toList) (x := 2) (nl := 1) (st := 3)
      (by norm_num [snrTrace]) (by decide) (by decide) hf2 rfl
    rw [h1, h3]
    have hn : n = 3 := by
      have := h2.2 (by norm_num [snrTrace])
      simp only [snrTrace, zero_add, div_one, abs_le] at this
      have a1 : (n : ℝ) < 4 := by linarith
      have a2 : (2 : ℝ) < n := by linarith
      have : n < 4 := by exact_mod_cast a1
      have : 2 < n := by exact_mod_cast a2
      omega
    subst hn
    have hk : k = 0 := by
      by_contra hne
      have := h4 3 1 (by omega) (by omega) (by simp [snrTrace])
      norm_num at this
    subst hk
    norm_num [snrTrace]
  refine (C32_latest_start_earliest_end _ _ _ _ _ _).2 ⟨?_, ⟨⟨_, by simp, t2⟩, ?_⟩, ?_, ⟨⟨_, by simp, t4⟩, ?_⟩⟩
  · simp only [List.mem_cons, List.not_mem_nil, or_false, forall_eq_or_imp, forall_eq]
    exact ⟨⟨_, t1⟩, ⟨_, t2⟩⟩
  · rintro t ⟨s, hs, ht⟩
    simp only [List.mem_cons, List.not_mem_nil, or_false] at hs
    rcases hs with rfl | rfl
    · rw [t1] at ht; simp only [Except.ok.injEq] at ht; rw [← ht]; norm_num
    · rw [t2] at ht; simp only [Except.ok.injEq] at ht; rw [← ht]
  · simp only [List.mem_cons, List.not_mem_nil, or_false, forall_eq_or_imp, forall_eq]
    exact ⟨⟨_, t3⟩, ⟨_, t4⟩⟩
  · rintro t ⟨s, hs, ht⟩
    simp only [List.mem_cons, List.not_mem_nil, or_false] at hs
    rcases hs with rfl | rfl
    · rw [t3] at ht; simp only [Except.ok.injEq] at ht; rw [← ht]; norm_num
    · rw [t4] at ht; simp only [Except.ok.injEq] at ht; rw [← ht]

end Qopen
