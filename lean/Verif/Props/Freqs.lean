import Verif.Model.Freqs
import Mathlib.Data.List.Chain
import Mathlib.Data.List.Sort
import Mathlib.Analysis.SpecialFunctions.Pow.Asymptotics

/-!
# Frequency bands (C36)
-/

namespace Qopen

open Real Freqs

namespace Freqs

theorem foldl_set_nodup {κ α : Type} [DecidableEq κ] (l : List (κ × α)) (d : Dict κ α)
    (h : (d.keys ++ l.map Prod.fst).Nodup) :
    l.foldl (fun d kv => d.set kv.1 kv.2) d = d ++ l := by
  induction l generalizing d with
  | nil => simp
  | cons p l ih =>
    have hp : p.1 ∉ d.keys := by
      intro hm
      rw [List.nodup_append] at h
      exact h.2.2 p.1 hm p.1 (by simp) rfl
    rw [List.foldl_cons, Dict.keys_set_of_not_mem _ hp, ih]
    · simp
    · have e : Dict.keys (d ++ [(p.1, p.2)]) = d.keys ++ [p.1] := by
        unfold Dict.keys
        rw [List.map_append]
        rfl
      rw [e, List.append_assoc]
      exact h

theorem mkDict_nodup (l : List (ℝ × (ℝ × ℝ))) (h : (l.map Prod.fst).Nodup) : mkDict l = l := by
  unfold mkDict
  rw [foldl_set_nodup l [] (by simpa using h)]
  rfl

theorem bandsOf_nodup {cf : List ℝ} (h : cf.Nodup) (width : ℝ) :
    bandsOf cf width = cf.map (fun f => (f, (f - halfWidth f width, f + halfWidth f width))) := by
  unfold bandsOf
  apply mkDict_nodup
  rw [List.map_map]
  simpa [Function.comp_def] using h

end Freqs

/-- **C36**: Every band has its central frequency as arithmetic centre and the requested width in
octaves: the upper corner is `2 ** width` times the lower one. -/
theorem C36_band_width {cf : List ℝ} {width f lo hi : ℝ} {d : Dict ℝ (ℝ × ℝ)}
    (h : getFreqs (.cfreqs cf width) = .ok d) (hm : (f, (lo, hi)) ∈ d) (hf : 0 < f) :
    0 < lo ∧ (lo + hi) / 2 = f ∧ hi = 2 ^ width * lo := by
  simp only [getFreqs, Except.ok.injEq] at h
  subst h
  have key : ∀ (l : List (ℝ × (ℝ × ℝ))) (d : Dict ℝ (ℝ × ℝ)) (P : ℝ × (ℝ × ℝ) → Prop),
      (∀ x ∈ l, P x) → (∀ x ∈ d, P x) →
      ∀ x ∈ (open Classical in l.foldl (fun d kv => d.set kv.1 kv.2) d), P x := by
    intro l
    induction l with
    | nil => intro d P _ hd; exact hd
    | cons p l ih =>
      intro d P hl hd
      rw [List.foldl_cons]
      apply ih _ P (fun x hx => hl x (List.mem_cons_of_mem _ hx))
      have hp := hl p (by simp)
      clear ih hl
      induction d with
      | nil =>
        intro x hx
        simp only [Dict.set, List.mem_singleton] at hx
        rw [hx]; exact hp
      | cons q d ih =>
        intro x hx
        simp only [Dict.set] at hx
        split at hx
        · next heq =>
          rcases List.mem_cons.1 hx with rfl | hx
          · rw [heq]; exact hp
          · exact hd x (List.mem_cons_of_mem _ hx)
        · rcases List.mem_cons.1 hx with rfl | hx
          · exact hd _ (by simp)
          · exact ih (fun y hy => hd y (List.mem_cons_of_mem _ hy)) x hx
  have := key (cf.map (fun f => (f, (f - halfWidth f width, f + halfWidth f width)))) []
    (fun x => x.2.1 = x.1 - halfWidth x.1 width ∧ x.2.2 = x.1 + halfWidth x.1 width)
    (by intro x hx; obtain ⟨f, _, rfl⟩ := List.mem_map.1 hx; simp) (by simp) _ hm
  obtain ⟨h1, h2⟩ := this
  simp only at h1 h2
  have hw : (0 : ℝ) < 2 ^ width := rpow_pos_of_pos (by norm_num) _
  unfold halfWidth at h1 h2
  have e1 : lo = 2 * f / (2 ^ width + 1) := by rw [h1]; field_simp; ring
  have e2 : hi = 2 ^ width * (2 * f / (2 ^ width + 1)) := by rw [h2]; field_simp; ring
  refine ⟨by rw [e1]; positivity, ?_, by rw [e2, e1]⟩
  rw [h1, h2]; ring

/-- **C36**: For different central frequencies there is one band for each, in the given order. -/
theorem C36_central_frequencies {cf : List ℝ} (hcf : cf.Nodup) (width : ℝ) :
    ∃ d, getFreqs (.cfreqs cf width) = .ok d ∧ d.keys = cf := by
  refine ⟨_, rfl, ?_⟩
  rw [bandsOf_nodup hcf]
  simp [Dict.keys, Function.comp_def]

namespace Freqs

theorem seriesFreqs_spec {fmax fmin step : ℝ} (h0 : 0 < fmin) (h1 : fmin ≤ fmax) (hs : 0 < step) :
    ∃ cf, seriesFreqs fmax fmin step = .ok cf ∧ cf.getLast? = some fmax ∧
      cf.IsChain (fun f g => g = f * 2 ^ step) ∧ cf.Pairwise (· < ·) ∧
      (∀ f ∈ cf, fmin ≤ f ∧ f ≤ fmax) ∧ ∀ f, cf.head? = some f → f / 2 ^ step < fmin := by
  have hmax : 0 < fmax := lt_of_lt_of_le h0 h1
  have hq : 0 < fmax / fmin := div_pos hmax h0
  have h2 : 0 < log 2 := log_pos (by norm_num)
  have hx : 0 ≤ log (fmax / fmin) / step / log 2 := by
    apply div_nonneg (div_nonneg (log_nonneg ?_) hs.le) h2.le
    rw [le_div_iff₀ h0]; linarith
  set x := log (fmax / fmin) / step / log 2 with hxdef
  obtain ⟨N, hN⟩ := Int.eq_ofNat_of_zero_le (Int.floor_nonneg.2 hx)
  have hN1 : (N : ℝ) ≤ x := by
    have := Int.floor_le x; rw [hN] at this; exact_mod_cast this
  have hN2 : x < N + 1 := by
    have := Int.lt_floor_add_one x; rw [hN] at this; exact_mod_cast this
  have hlog : log (fmax / fmin) = x * step * log 2 := by rw [hxdef]; field_simp
  have hfm : fmax = fmin * 2 ^ (step * x) := by
    have : fmax / fmin = 2 ^ (step * x) := by
      rw [rpow_def_of_pos (by norm_num), ← exp_log hq, hlog]; ring_nf
    rw [← this]; field_simp
  have heq : seriesFreqs fmax fmin step =
      .ok (((List.range (N + 1)).reverse).map (fun n : ℕ => fmax / 2 ^ (step * n))) := by
    unfold seriesFreqs
    rw [if_neg (by push Not; exact ⟨hq, hs.ne'⟩)]
    simp only
    rw [← hxdef]
    unfold trunc
    rw [if_pos hx, hN]
    have : ((N : ℤ) + 1).toNat = N + 1 := by omega
    rw [this]
  have h2p : ∀ y : ℝ, (0 : ℝ) < 2 ^ y := fun y => rpow_pos_of_pos (by norm_num) _
  have hmono : ∀ a b : ℕ, b < a → fmax / 2 ^ (step * a) < fmax / 2 ^ (step * b) := by
    intro a b hab
    apply div_lt_div_of_pos_left hmax (h2p _)
    apply rpow_lt_rpow_of_exponent_lt (by norm_num)
    have : (b : ℝ) < a := by exact_mod_cast hab
    nlinarith
  have hrev : ∀ n, (List.range (n + 1)).reverse = n :: (List.range n).reverse := by
    intro n; rw [List.range_succ]; simp
  refine ⟨_, heq, ?_, ?_, ?_, ?_, ?_⟩
  · rw [List.getLast?_map, List.getLast?_reverse, List.range_succ_eq_map]
    simp
  · clear heq hN hN1 hN2
    induction N with
    | zero => simp
    | succ n ih =>
      rw [hrev, List.map_cons]
      rw [hrev] at ih ⊢
      rw [List.map_cons] at ih ⊢
      refine List.IsChain.cons_cons ?_ ih
      have : (2 : ℝ) ^ (step * ((n + 1 : ℕ) : ℝ)) = 2 ^ (step * n) * 2 ^ step := by
        rw [← rpow_add (by norm_num)]; push_cast; ring_nf
      rw [this]
      have := (h2p step).ne'
      have := (h2p (step * n)).ne'
      field_simp
  · rw [List.pairwise_map, List.pairwise_reverse]
    refine List.Pairwise.imp ?_ List.pairwise_lt_range
    intro a b hab
    exact hmono b a hab
  · intro f hf
    simp only [List.mem_map, List.mem_reverse, List.mem_range] at hf
    obtain ⟨n, hn, rfl⟩ := hf
    constructor
    · rw [le_div_iff₀ (h2p _)]
      refine le_trans ?_ hfm.symm.le
      apply mul_le_mul_of_nonneg_left _ h0.le
      apply rpow_le_rpow_of_exponent_le (by norm_num)
      have : (n : ℝ) ≤ N := by exact_mod_cast Nat.lt_succ_iff.1 hn
      nlinarith
    · apply div_le_self hmax.le
      apply one_le_rpow (by norm_num)
      positivity
  · intro f hf
    rw [hrev, List.map_cons] at hf
    simp only [List.head?_cons, Option.some.injEq] at hf
    subst hf
    rw [div_div, ← rpow_add (by norm_num), div_lt_iff₀ (h2p _)]
    nth_rewrite 1 [hfm]
    apply mul_lt_mul_of_pos_left _ h0
    apply rpow_lt_rpow_of_exponent_lt (by norm_num)
    nlinarith

end Freqs

/-- **C36**: For `min <= max` the central frequencies increase by the factor `2 ** step` from one to
the next, the last one is `max`, all are at least `min`, and the series cannot be extended. -/
theorem C36_series {fmax fmin step : ℝ} (width : ℝ) (h0 : 0 < fmin) (h1 : fmin ≤ fmax)
    (hs : 0 < step) :
    ∃ d, getFreqs (.series fmax fmin step width) = .ok d ∧
      d.keys.getLast? = some fmax ∧ d.keys.IsChain (fun f g => g = f * 2 ^ step) ∧
      (∀ f ∈ d.keys, fmin ≤ f ∧ f ≤ fmax) ∧ (∀ f, d.keys.head? = some f → f / 2 ^ step < fmin) ∧
      getFreqs (.cfreqs d.keys width) = .ok d := by
  obtain ⟨cf, h, a1, a2, a3, a4, a5⟩ := seriesFreqs_spec h0 h1 hs
  have hnd : cf.Nodup := a3.imp (fun h => ne_of_lt h)
  have hk : Dict.keys (bandsOf cf width) = cf := by
    rw [bandsOf_nodup hnd]; simp [Dict.keys, Function.comp_def]
  refine ⟨bandsOf cf width, ?_, ?_, ?_, ?_, ?_, ?_⟩
  · simp only [getFreqs, h, bind, Except.bind, pure, Except.pure]
  · rw [hk]; exact a1
  · rw [hk]; exact a2
  · rw [hk]; exact a4
  · rw [hk]; exact a5
  · rw [hk]; rfl

/-- Three octaves. -/
example : ∃ d, getFreqs (.series 8 1 1 1) = .ok d ∧ d.keys.getLast? = some 8 := by
  obtain ⟨d, h, h', _⟩ := C36_series (fmax := 8) (fmin := 1) (step := 1) 1 (by norm_num) (by norm_num)
    (by norm_num)
  exact ⟨d, h, h'⟩

/-- With `max` smaller than `min` by less than a step there is one frequency below `min`. -/
theorem C36_min_counterexample :
    ∃ (fmax fmin step width : ℝ) (d : Dict ℝ (ℝ × ℝ)), 0 < fmax ∧ 0 < fmin ∧ 0 < step ∧
      getFreqs (.series fmax fmin step width) = .ok d ∧ ∃ f ∈ d.keys, f < fmin := by
  have hl : log ((1 : ℝ) / 2) = - log 2 := by rw [one_div, log_inv]
  have h2 : log 2 ≠ 0 := (log_pos (by norm_num)).ne'
  have ht : trunc (log ((1 : ℝ) / 2) / 2 / log 2) = 0 := by
    have : log ((1 : ℝ) / 2) / 2 / log 2 = -1 / 2 := by rw [hl]; field_simp
    rw [this]
    unfold trunc
    rw [if_neg (by norm_num), Int.ceil_eq_iff]
    norm_num
  refine ⟨1, 2, 2, 1, bandsOf [1] 1, by norm_num, by norm_num, by norm_num, ?_, 1, ?_, by norm_num⟩
  · simp only [getFreqs, seriesFreqs]
    rw [if_neg (by norm_num), ht]
    simp [bind, Except.bind, pure, Except.pure]
  · rw [bandsOf_nodup (by simp)]
    simp [Dict.keys]

namespace Freqs

theorem leBand_trans (a b c : ℝ × ℝ) (h1 : leBand a b = true) (h2 : leBand b c = true) :
    leBand a c = true := by
  unfold leBand at *
  simp only [decide_eq_true_eq] at *
  rcases h1 with h1 | ⟨h1, h1'⟩ <;> rcases h2 with h2 | ⟨h2, h2'⟩
  · left; linarith
  · left; linarith
  · left; linarith
  · right; constructor <;> linarith

theorem leBand_total (a b : ℝ × ℝ) : (leBand a b || leBand b a) = true := by
  unfold leBand
  simp only [Bool.or_eq_true, decide_eq_true_eq]
  rcases lt_trichotomy a.1 b.1 with h | h | h
  · left; left; exact h
  · rcases le_total a.2 b.2 with h' | h'
    · left; right; exact ⟨h, h'⟩
    · right; right; exact ⟨h.symm, h'⟩
  · right; left; exact h

end Freqs

/-- **C36** (for bands with different centres): The bands are the given ones, sorted by their lower
(then upper) corner frequency, with the arithmetic centre as central frequency.
Missing: bands with the same centre, see the counterexample. -/
theorem C36_explicit_bands_partial (l : List (ℝ × ℝ))
    (h : (l.map (fun b => (b.1 + b.2) / 2)).Nodup) :
    ∃ d, getFreqs (.fbands l) = .ok d ∧ (d.map Prod.snd).Perm l ∧
      (d.map Prod.snd).Pairwise (fun a b => a.1 < b.1 ∨ a.1 = b.1 ∧ a.2 ≤ b.2) ∧
      ∀ f b, (f, b) ∈ d → f = (b.1 + b.2) / 2 := by
  have hp : (l.mergeSort leBand).Perm l := List.mergeSort_perm l _
  have hc : (fun b : ℝ × ℝ => 0.5 * (b.1 + b.2)) = fun b => (b.1 + b.2) / 2 := by
    funext b; ring
  have hn : (((l.mergeSort leBand).map (fun b : ℝ × ℝ => (0.5 * (b.1 + b.2), b))).map Prod.fst).Nodup := by
    rw [List.map_map]
    have : (Prod.fst ∘ fun b : ℝ × ℝ => (0.5 * (b.1 + b.2), b)) = fun b => (b.1 + b.2) / 2 := by
      funext b; simp only [Function.comp]; ring
    rw [this]
    exact (hp.map _).nodup_iff.2 h
  refine ⟨_, rfl, ?_, ?_, ?_⟩
  · rw [mkDict_nodup _ hn, List.map_map]
    simpa [Function.comp_def] using hp
  · rw [mkDict_nodup _ hn, List.map_map]
    have := List.pairwise_mergeSort leBand_trans leBand_total l
    simp only [Function.comp_def, List.map_id']
    refine this.imp ?_
    intro a b hab
    unfold leBand at hab
    simpa using hab
  · intro f b hm
    rw [mkDict_nodup _ hn] at hm
    obtain ⟨b', _, he⟩ := List.mem_map.1 hm
    simp only [Prod.mk.injEq] at he
    rw [← he.1, ← he.2]; ring

example : ([(1, 2), (0, 1)] : List (ℝ × ℝ)).map (fun b => (b.1 + b.2) / 2) |>.Nodup := by
  norm_num

/-- Two bands with the same centre collapse to one. -/
theorem C36_explicit_bands_counterexample :
    ∃ (l : List (ℝ × ℝ)) (d : Dict ℝ (ℝ × ℝ)), l.Nodup ∧ getFreqs (.fbands l) = .ok d ∧
      ∃ b ∈ l, b ∉ d.map Prod.snd := by
  refine ⟨[(1, 4), (2, 3)], _, by norm_num, rfl, (1, 4), by simp, ?_⟩
  have hs : ([(1, 4), (2, 3)] : List (ℝ × ℝ)).mergeSort leBand = [(1, 4), (2, 3)] := by
    apply List.mergeSort_of_pairwise
    norm_num [leBand]
  rw [hs]
  unfold mkDict
  simp only [List.map_cons, List.map_nil, List.foldl_cons, List.foldl_nil, Dict.set]
  norm_num

end Qopen
