import Verif.Lemmas.InvertFb
import Mathlib.Data.List.GetD

/-!
# From solution vectors to site responses and source energies
-/

namespace Qopen.InvertFb

open Real Util Spec

variable {cfg : Cfg} {bd : Band}

theorem wsse_map (S : List Sample) (row : Sample → List ℝ) (y : Sample → ℝ) (C : List ℝ) :
    wsse (S.map Sample.w) (S.map row) (S.map y) C =
      (S.map (fun s => s.w * (y s - dot (row s) C) ^ 2)).sum := by
  unfold wsse
  rw [zipWith_map_same, zipWith_map_same]
  rfl

/-- Number of unknowns with free site responses. -/
def nFree (cfg : Cfg) (bd : Band) : ℕ :=
  (stations bd).length + (eventids bd).length - cfg.fix.toNat

theorem freeRow_length (pair : String × String) : (freeRow cfg bd pair).length = nFree cfg bd := by
  unfold freeRow nFree
  simp only
  split <;> simp

/-- The exponent of the source energy of event `e` relative to the first event. -/
noncomputable def evPart (bd : Band) (C : List ℝ) (e : String) : ℝ :=
  if 0 < (eventids bd).idxOf e then
    C.getD ((stations bd).length + (eventids bd).idxOf e - 1) 0 else 0

/-- The entry of station `s`. -/
noncomputable def staPart (bd : Band) (C : List ℝ) (s : String) : ℝ :=
  C.getD ((stations bd).idxOf s) 0

theorem freeRow_getD_last (hfix : cfg.fix = false) {pair : String × String}
    (hs : pair.2 ∈ stations bd) (he : pair.1 ∈ eventids bd) :
    (freeRow cfg bd pair).getD (nFree cfg bd - 1) 0 = 0 := by
  have h1 := List.idxOf_lt_length_iff.2 hs
  have h2 := List.idxOf_lt_length_iff.2 he
  unfold freeRow nFree
  simp only [hfix, Bool.toNat_false, Nat.sub_zero]
  split
  · rw [getD_set _ _ _ _ (by rw [List.length_set, List.length_replicate]; omega), if_neg (by omega),
      getD_set _ _ _ _ (by rw [List.length_replicate]; omega), if_neg (by omega),
      getD_replicate_zero]
  · rw [getD_set _ _ _ _ (by rw [List.length_replicate]; omega), if_neg (by omega),
      getD_replicate_zero]

theorem dot_freeRow {pair : String × String} (hs : pair.2 ∈ stations bd) (he : pair.1 ∈ eventids bd)
    (C : List ℝ) : dot (freeRow cfg bd pair) C = staPart bd C pair.2 + evPart bd C pair.1 := by
  have h1 := List.idxOf_lt_length_iff.2 hs
  have h2 := List.idxOf_lt_length_iff.2 he
  have hf : cfg.fix.toNat ≤ 1 := Bool.toNat_le _
  unfold freeRow staPart evPart
  simp only
  by_cases h0 : 0 < (eventids bd).idxOf pair.1
  · rw [if_pos h0, if_pos h0,
      dot_set _ _ _ _ (by rw [List.length_set, List.length_replicate]; omega),
      getD_set _ _ _ _ (by rw [List.length_replicate]; omega), if_neg (by omega),
      getD_replicate_zero, dot_set _ _ _ _ (by rw [List.length_replicate]; omega),
      getD_replicate_zero, dot_replicate_zero]
    ring
  · rw [if_neg h0, if_neg h0, dot_set _ _ _ _ (by rw [List.length_replicate]; omega),
      getD_replicate_zero, dot_replicate_zero]
    ring

theorem rowOf_free_length (hc : cfg.codaNorm = false) (hfs : cfg.fixSites = false) (s : Sample) :
    (rowOf cfg bd s).length = nFree cfg bd := by
  unfold rowOf baseRow
  simp only [hc, hfs, Bool.not_false, Bool.and_self, if_true]
  split
  · exact freeRow_length _
  · rw [List.length_set]; exact freeRow_length _

/-- The matrix applied to a vector: sum of the entries of station and event, minus `b t`. -/
theorem dot_rowOf_free (hc : cfg.codaNorm = false) (hfs : cfg.fixSites = false) {s : Sample}
    (hs : s.station ∈ stations bd) (he : s.event ∈ eventids bd) (C : List ℝ) :
    dot (rowOf cfg bd s) C = staPart bd C s.station + evPart bd C s.event -
      (if cfg.fix then 0 else C.getD (nFree cfg bd - 1) 0 * s.t) := by
  have h1 := List.idxOf_lt_length_iff.2 hs
  have h2 := List.idxOf_lt_length_iff.2 he
  have hd := dot_freeRow (cfg := cfg) (bd := bd) (pair := (s.event, s.station)) hs he C
  simp only at hd
  unfold rowOf baseRow
  simp only [hc, hfs, Bool.not_false, Bool.and_self, if_true]
  cases hfix : cfg.fix with
  | true => simp only [if_true, hd]; ring
  | false =>
    simp only [Bool.false_eq_true, if_false]
    rw [freeRow_length, dot_set _ _ _ _ (by
      rw [freeRow_length]
      unfold nFree
      rw [hfix, Bool.toNat_false]
      omega), hd, freeRow_getD_last hfix hs he]
    ring

/-- Source energy of the first event. -/
noncomputable def W0 (cfg : Cfg) (bd : Band) (C : List ℝ) : ℝ :=
  exp (mean (C.take (stations bd).length)) / cfg.R0

theorem W0_pos (hR : 0 < cfg.R0) (C : List ℝ) : 0 < W0 cfg bd C := by
  unfold W0; positivity

theorem decode_free (hc : cfg.codaNorm = false) (hne : (eventids bd) ≠ [])
    (hns : (stations bd) ≠ []) {C : List ℝ}
    (hC : C.length = nFree cfg bd) {Rfix : List ℝ} :
    (decode cfg bd false Rfix C).2.length = (stations bd).length ∧
    (decode cfg bd false Rfix C).1.length = (eventids bd).length ∧
    (∀ s ∈ stations bd, valueOf ((stations bd).zip (decode cfg bd false Rfix C).2) s =
      exp (staPart bd C s) / W0 cfg bd C) ∧
    (∀ e ∈ eventids bd, valueOf ((eventids bd).zip (decode cfg bd false Rfix C).1) e =
      exp (evPart bd C e) * W0 cfg bd C) := by
  have hNe : 0 < (eventids bd).length := List.length_pos_iff.2 hne
  have hNs : 0 < (stations bd).length := List.length_pos_iff.2 hns
  have hf : cfg.fix.toNat ≤ 1 := Bool.toNat_le _
  have hN1 : C.length - (eventids bd).length + cfg.fix.toNat = (stations bd).length := by
    rw [hC, nFree]; omega
  have hN2 : C.length - 1 + cfg.fix.toNat = (stations bd).length + (eventids bd).length - 1 := by
    rw [hC, nFree]
    cases hfx : cfg.fix <;> simp only [Bool.toNat_false, Bool.toNat_true] <;> omega
  have hlenge : (stations bd).length + (eventids bd).length - 1 ≤ C.length := by
    rw [hC, nFree]; omega
  unfold decode
  simp only [Bool.false_eq_true, if_false, hc, hN1, hN2]
  have hl2 : ((C.take (stations bd).length).map
      (fun c => exp c / (exp (mean (C.take (stations bd).length)) / cfg.R0))).length =
      (stations bd).length := by
    rw [List.length_map, List.length_take]; omega
  have hl1 : (exp (mean (C.take (stations bd).length)) / cfg.R0 ::
      ((C.take ((stations bd).length + (eventids bd).length - 1)).drop (stations bd).length).map
        (fun c => exp c * (exp (mean (C.take (stations bd).length)) / cfg.R0))).length =
      (eventids bd).length := by
    rw [List.length_cons, List.length_map, List.length_drop, List.length_take]; omega
  refine ⟨hl2, hl1, ?_, ?_⟩
  · intro s hs
    have h1 := List.idxOf_lt_length_iff.2 hs
    unfold valueOf
    rw [get?_zip _ _ _ hl2, List.getElem?_map, List.getElem?_take, if_pos h1,
      List.getElem?_eq_getElem (by omega)]
    simp only [Option.map_some, Option.getD_some, W0, staPart]
    rw [List.getD_eq_getElem _ _ (by omega)]
  · intro e he
    have h1 := List.idxOf_lt_length_iff.2 he
    unfold valueOf
    rw [get?_zip _ _ _ hl1]
    unfold evPart
    cases hi : (eventids bd).idxOf e with
    | zero => simp [W0]
    | succ j =>
      rw [hi] at h1
      rw [List.getElem?_cons_succ, List.getElem?_map, List.getElem?_drop, List.getElem?_take,
        if_pos (by omega), List.getElem?_eq_getElem (by omega)]
      simp only [Option.map_some, Option.getD_some, W0, Nat.succ_pos, if_true]
      rw [show (stations bd).length + (j + 1) - 1 = (stations bd).length + j by omega,
        List.getD_eq_getElem _ _ (by omega)]

/-- A vector with given site responses, source energies and attenuation. -/
noncomputable def encode (cfg : Cfg) (bd : Band) (R W : String → ℝ) (b : ℝ) : List ℝ :=
  (stations bd).map (fun s => log (R s) + log (W ((eventids bd).headD ""))) ++
  (eventids bd).tail.map (fun e => log (W e) - log (W ((eventids bd).headD ""))) ++
  (if cfg.fix then [] else [b])

theorem encode_length (hne : (eventids bd) ≠ []) (R W : String → ℝ) (b : ℝ) :
    (encode cfg bd R W b).length = nFree cfg bd := by
  have hNe : 0 < (eventids bd).length := List.length_pos_iff.2 hne
  unfold encode nFree
  cases hf : cfg.fix <;> simp <;> omega

theorem encode_sta (R W : String → ℝ) (b : ℝ) {s : String} (hs : s ∈ stations bd) :
    staPart bd (encode cfg bd R W b) s = log (R s) + log (W ((eventids bd).headD "")) := by
  have h1 := List.idxOf_lt_length_iff.2 hs
  unfold staPart encode
  rw [List.append_assoc, List.getD_append _ _ _ _ (by simpa using h1),
    List.getD_eq_getElem _ _ (by simpa using h1)]
  simp

theorem encode_ev (R W : String → ℝ) (b : ℝ) {e : String} (he : e ∈ eventids bd) :
    evPart bd (encode cfg bd R W b) e = log (W e) - log (W ((eventids bd).headD "")) := by
  have h1 := List.idxOf_lt_length_iff.2 he
  unfold evPart
  cases hev : eventids bd with
  | nil => rw [hev] at he; simp at he
  | cons e0 es =>
    by_cases h : e0 = e
    · subst h
      simp
    · have hidx : (e0 :: es).idxOf e = es.idxOf e + 1 := by
        have hb : (e0 == e) = false := by simp [h]
        rw [List.idxOf_cons, hb]
        rfl
      have hes : e ∈ es := by
        rw [hev] at he
        exact (List.mem_cons.1 he).resolve_left (fun h' => h h'.symm)
      have h2 := List.idxOf_lt_length_iff.2 hes
      rw [hidx, if_pos (by omega)]
      unfold encode
      rw [hev, List.tail_cons, List.append_assoc,
        show (stations bd).length + (es.idxOf e + 1) - 1 = (stations bd).length + es.idxOf e by omega,
        List.getD_append_right _ _ _ _ (by simp), List.length_map, Nat.add_sub_cancel_left,
        List.getD_append _ _ _ _ (by simpa using h2), List.getD_eq_getElem _ _ (by simpa using h2)]
      simp

theorem encode_last (hfix : cfg.fix = false) (hne : (eventids bd) ≠ []) (R W : String → ℝ) (b : ℝ) :
    (encode cfg bd R W b).getD (nFree cfg bd - 1) 0 = b := by
  have hNe : 0 < (eventids bd).length := List.length_pos_iff.2 hne
  unfold encode nFree
  rw [hfix]
  simp only [Bool.false_eq_true, if_false, Bool.toNat_false, Nat.sub_zero]
  rw [List.getD_append_right _ _ _ _ (by simp; omega)]
  simp only [List.length_append, List.length_map, List.length_tail]
  rw [show (stations bd).length + (eventids bd).length - 1 -
    ((stations bd).length + ((eventids bd).length - 1)) = 0 by omega]
  rfl

/-- Residual of the linear system and logarithmic misfit. -/
theorem residual_free (hc : cfg.codaNorm = false) (hfs : cfg.fixSites = false) {s : Sample}
    (hs : s.station ∈ stations bd) (he : s.event ∈ eventids bd) (hG : 0 < s.G)
    {R W : String → ℝ} {b : ℝ} {C : List ℝ} {bFix : Option ℝ}
    (hR : 0 < R s.station) (hW : 0 < W s.event)
    (hsum : staPart bd C s.station + evPart bd C s.event = log (R s.station) + log (W s.event))
    (hb : if cfg.fix then bFix = some b else bFix = none ∧ C.getD (nFree cfg bd - 1) 0 = b) :
    target bFix none s - dot (rowOf cfg bd s) C = log s.E - log (predicted R W b s) := by
  rw [dot_rowOf_free hc hfs hs he, hsum]
  have hp : log (predicted R W b s) = log s.G + log (R s.station) + log (W s.event) - b * s.t := by
    unfold predicted
    rw [log_mul (by positivity) (exp_pos _).ne', log_mul (by positivity) hW.ne',
      log_mul hG.ne' hR.ne', log_exp]
    ring
  rw [hp]
  unfold target
  cases hf : cfg.fix with
  | true =>
    rw [hf] at hb
    simp only [if_true] at hb
    subst hb
    simp only [Option.getD_some, if_true]
    ring
  | false =>
    rw [hf] at hb
    simp only [Bool.false_eq_true, if_false] at hb
    rw [hb.1, hb.2]
    simp only [Option.getD_none, Bool.false_eq_true, if_false]
    ring

end Qopen.InvertFb
