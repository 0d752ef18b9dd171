import Verif.Model.FigureBand
import Verif.Props.Invert
import Mathlib.Data.Nat.Digits.Lemmas

/-!
# Files of the figures of a band: C106
-/

namespace Qopen

open Real Util Tr InvertFb FigBand Spec

namespace FigBand

/-! ## Decimal numbers -/

theorem digitChar_inj {a b : ℕ} (ha : a < 10) (hb : b < 10)
    (h : Nat.digitChar a = Nat.digitChar b) : a = b := by
  interval_cases a <;> interval_cases b <;> first | rfl | (exfalso; revert h; decide)

/-- Characters of a formatted frequency. -/
def numChar (c : Char) : Prop := c = '.' ∨ ∃ d, d < 10 ∧ c = Nat.digitChar d

theorem digitChar_ne {d : ℕ} (hd : d < 10) :
    Nat.digitChar d ≠ '.' ∧ Nat.digitChar d ≠ '_' ∧ Nat.digitChar d ≠ '-' ∧
      Nat.digitChar d ≠ 'H' ∧ Nat.digitChar d ≠ 'z' := by
  interval_cases d <;> decide

theorem numChar_ne {c : Char} (h : numChar c) : c ≠ '_' ∧ c ≠ '-' ∧ c ≠ 'H' ∧ c ≠ 'z' := by
  rcases h with rfl | ⟨d, hd, rfl⟩
  · decide
  · exact (digitChar_ne hd).2

theorem intDigits_mem {n : ℕ} {c : Char} (h : c ∈ intDigits n) : ∃ d, d < 10 ∧ c = Nat.digitChar d := by
  unfold intDigits at h
  obtain ⟨d, hd, rfl⟩ := List.mem_map.1 h
  rw [List.mem_reverse] at hd
  refine ⟨d, ?_, rfl⟩
  rcases List.mem_append.1 hd with h | h
  · exact Nat.digits_lt_base (by norm_num) h
  · rw [(List.mem_replicate.1 h).2]; norm_num

theorem show2_mem {n : ℕ} {c : Char} (h : c ∈ show2 n) : numChar c := by
  unfold show2 at h
  rcases List.mem_append.1 h with h | h
  · exact Or.inr (intDigits_mem h)
  · simp only [List.mem_cons, List.not_mem_nil, or_false] at h
    rcases h with rfl | rfl | rfl
    · exact Or.inl rfl
    · exact Or.inr ⟨_, Nat.mod_lt _ (by norm_num), rfl⟩
    · exact Or.inr ⟨_, Nat.mod_lt _ (by norm_num), rfl⟩

theorem map_digitChar_inj {l m : List ℕ} (hl : ∀ d ∈ l, d < 10) (hm : ∀ d ∈ m, d < 10)
    (h : l.map Nat.digitChar = m.map Nat.digitChar) : l = m := by
  induction l generalizing m with
  | nil => cases m with
    | nil => rfl
    | cons b m => simp at h
  | cons a l ih => cases m with
    | nil => simp at h
    | cons b m =>
      simp only [List.map_cons, List.cons.injEq] at h
      rw [digitChar_inj (hl a (by simp)) (hm b (by simp)) h.1,
        ih (fun d hd => hl d (by simp [hd])) (fun d hd => hm d (by simp [hd])) h.2]

theorem intDigits_inj {m n : ℕ} (h : intDigits m = intDigits n) : m = n := by
  have hd : ∀ k : ℕ, ∀ d ∈ (Nat.digits 10 k ++
      List.replicate (2 - (Nat.digits 10 k).length) 0).reverse, d < 10 := by
    intro k d hd
    rw [List.mem_reverse] at hd
    rcases List.mem_append.1 hd with h | h
    · exact Nat.digits_lt_base (by norm_num) h
    · rw [(List.mem_replicate.1 h).2]; norm_num
  have hv : ∀ k : ℕ, Nat.ofDigits 10 (Nat.digits 10 k ++
      List.replicate (2 - (Nat.digits 10 k).length) 0) = k := by
    intro k
    rw [Nat.ofDigits_append, Nat.ofDigits_digits]
    have : ∀ j, Nat.ofDigits 10 (List.replicate j (0 : ℕ)) = 0 := by
      intro j
      induction j with
      | zero => rfl
      | succ j ih => rw [List.replicate_succ, Nat.ofDigits_cons, ih]
    rw [this]; simp
  have := List.reverse_injective (map_digitChar_inj (hd m) (hd n) h)
  rw [← hv m, this, hv n]

/-- The last character outside a class splits a list uniquely. -/
theorem split_last {P : Char → Prop} {a a' s s' : List Char} {c c' : Char}
    (hs : ∀ x ∈ s, P x) (hs' : ∀ x ∈ s', P x) (hc : ¬ P c) (hc' : ¬ P c')
    (h : a ++ c :: s = a' ++ c' :: s') : a = a' ∧ c = c' ∧ s = s' := by
  have h' := congrArg List.reverse h
  simp only [List.reverse_append, List.reverse_cons, List.append_assoc] at h'
  have key : ∀ (u u' v v' : List Char), (∀ x ∈ u, P x) → (∀ x ∈ u', P x) →
      u ++ ([c] ++ v) = u' ++ ([c'] ++ v') → u = u' ∧ c = c' ∧ v = v' := by
    intro u
    induction u with
    | nil =>
      intro u' v v' _ hu' e
      cases u' with
      | nil => simp at e; exact ⟨rfl, e.1, e.2⟩
      | cons x u' =>
        simp at e
        exact absurd (hu' x (by simp)) (by rw [← e.1]; exact hc)
    | cons y u ih =>
      intro u' v v' hu hu' e
      cases u' with
      | nil =>
        simp at e
        exact absurd (hu y (by simp)) (by rw [e.1]; exact hc')
      | cons x u' =>
        simp only [List.cons_append, List.cons.injEq] at e
        obtain ⟨e1, e2, e3⟩ := ih u' v v' (fun z hz => hu z (by simp [hz]))
          (fun z hz => hu' z (by simp [hz])) e.2
        exact ⟨by rw [e.1, e1], e2, e3⟩
  obtain ⟨e1, e2, e3⟩ := key _ _ _ _ (by simpa using hs) (by simpa using hs') h'
  exact ⟨List.reverse_injective e3, e2, List.reverse_injective e1⟩

theorem show2_inj {m n : ℕ} (h : show2 m = show2 n) : m = n := by
  unfold show2 at h
  have hP : ∀ k : ℕ, ∀ x ∈ [Nat.digitChar (k / 10 % 10), Nat.digitChar (k % 10)], x ≠ '.' := by
    intro k x hx
    simp only [List.mem_cons, List.not_mem_nil, or_false] at hx
    rcases hx with rfl | rfl
    · exact (digitChar_ne (Nat.mod_lt _ (by norm_num))).1
    · exact (digitChar_ne (Nat.mod_lt _ (by norm_num))).1
  obtain ⟨h1, -, h2⟩ := split_last (P := fun x => x ≠ '.') (hP m) (hP n) (by simp) (by simp) h
  have h1 := intDigits_inj h1
  simp only [List.cons.injEq, and_true] at h2
  have h3 := digitChar_inj (Nat.mod_lt _ (by norm_num)) (Nat.mod_lt _ (by norm_num)) h2.1
  have h4 := digitChar_inj (Nat.mod_lt _ (by norm_num)) (Nat.mod_lt _ (by norm_num)) h2.2
  omega

theorem hundredths_ne {f g : ℝ} (hf : 0 ≤ f) (hg : 0 ≤ g) (h : 0.01 ≤ |f - g|) :
    hundredths f ≠ hundredths g := by
  have key : ∀ {x y : ℝ}, 0 ≤ y → 0.01 ≤ x - y → hundredths y < hundredths x := by
    intro x y hy hxy
    unfold hundredths
    have h1 : round (100 * y) + 1 ≤ round (100 * x) := by
      rw [← round_add_one, round_eq, round_eq]
      apply Int.floor_le_floor
      linarith
    have h0 : 0 ≤ round (100 * y) := by
      rw [round_eq]
      apply Int.floor_nonneg.2
      linarith
    omega
  rcases le_total 0 (f - g) with h0 | h0
  · rw [abs_of_nonneg h0] at h
    exact (key hg h).ne'
  · rw [abs_of_nonpos h0] at h
    exact (key hf (by linarith)).ne

/-! ## Names -/

/-- The part of the default names after the event. -/
noncomputable def tailOf (band : ℝ × ℝ) : List Char :=
  show2 (hundredths band.1) ++ "Hz-".toList ++ show2 (hundredths band.2) ++ "Hz.png".toList

theorem format_default (k : Kind) (evid : List Char) (band : ℝ × ℝ) :
    format (defaultTpl k) evid band = k.head ++ evid ++ '_' :: tailOf band := by
  simp [format, defaultTpl, tailOf]

theorem tail_split {a a' : List Char} {band band' : ℝ × ℝ}
    (h : a ++ '_' :: tailOf band = a' ++ '_' :: tailOf band') :
    a = a' ∧ hundredths band.1 = hundredths band'.1 ∧ hundredths band.2 = hundredths band'.2 := by
  have e : ∀ (a : List Char) (b : ℝ × ℝ), a ++ '_' :: tailOf b =
      (((a ++ '_' :: show2 (hundredths b.1)) ++ ['H', 'z']) ++ '-' :: show2 (hundredths b.2)) ++
        "Hz.png".toList := by
    intro a b
    have : "Hz-".toList = ['H', 'z', '-'] := rfl
    simp [tailOf, this]
  rw [e, e] at h
  have h := List.append_cancel_right h
  obtain ⟨h1, -, h2⟩ := split_last (P := numChar) (fun x hx => show2_mem hx)
    (fun x hx => show2_mem hx) (fun hx => (numChar_ne hx).2.1 rfl)
    (fun hx => (numChar_ne hx).2.1 rfl) h
  have h1 := List.append_cancel_right h1
  obtain ⟨h3, -, h4⟩ := split_last (P := numChar) (fun x hx => show2_mem hx)
    (fun x hx => show2_mem hx) (fun hx => (numChar_ne hx).1 rfl)
    (fun hx => (numChar_ne hx).1 rfl) h1
  exact ⟨h3, show2_inj h4, show2_inj h2⟩

theorem head_inj {k k' : Kind} {a a' : List Char} (h : k.head ++ a = k'.head ++ a') :
    k = k' ∧ a = a' := by
  have e1 : Kind.head .energies = ['e', 'n', 'e', 'r', 'g', 'i', 'e', 's', '_'] := rfl
  have e2 : Kind.head .optimization =
    ['o', 'p', 't', 'i', 'm', 'i', 'z', 'a', 't', 'i', 'o', 'n', '_'] := rfl
  have e3 : Kind.head .fits = ['f', 'i', 't', 's', '_'] := rfl
  cases k <;> cases k' <;> simp_all

theorem replace_id {l : List Char} (h : ∀ c ∈ l, c ≠ '_') : replaceUnderscores l = l := by
  induction l with
  | nil => rfl
  | cons c l ih =>
    cases l with
    | nil => rfl
    | cons d r =>
      rw [replaceUnderscores, if_neg (fun hh => h c (by simp) hh.1),
        ih (fun x hx => h x (by simp [hx]))]

theorem tail_no_underscore (band : ℝ × ℝ) : ∀ c ∈ tailOf band, c ≠ '_' := by
  intro c hc
  unfold tailOf at hc
  simp only [List.mem_append] at hc
  have h1 : "Hz-".toList = ['H', 'z', '-'] := rfl
  have h2 : "Hz.png".toList = ['H', 'z', '.', 'p', 'n', 'g'] := rfl
  rw [h1, h2] at hc
  rcases hc with ((hc | hc) | hc) | hc
  · exact (numChar_ne (show2_mem hc)).1
  · simp at hc; rcases hc with rfl | rfl | rfl <;> decide
  · exact (numChar_ne (show2_mem hc)).1
  · simp at hc; rcases hc with rfl | rfl | rfl | rfl | rfl | rfl <;> decide

theorem figName_one (e : String) (band : ℝ × ℝ) (k : Kind) :
    figName [e] e band (defaultTpl k) = k.head ++ e.toList ++ '_' :: tailOf band := by
  rw [figName, if_pos (by simp), format_default]

theorem figName_several {ids : List String} (hi : ids.length ≠ 1) (first : String) (band : ℝ × ℝ)
    (k : Kind) : figName ids first band (defaultTpl k) = k.head ++ tailOf band := by
  rw [figName, if_neg hi, format_default, List.append_nil]
  have h : ∀ (u : List Char), (∀ c ∈ u, c ≠ '_') → ∀ v : List Char, (∀ c ∈ v, c ≠ '_') →
      replaceUnderscores (u ++ '_' :: '_' :: v) = u ++ '_' :: v := by
    intro u hu v hv
    induction u with
    | nil => rw [List.nil_append, replaceUnderscores, if_pos ⟨rfl, rfl⟩, replace_id hv]; rfl
    | cons c u ih =>
      have ih := ih (fun x hx => hu x (by simp [hx]))
      cases u with
      | nil =>
        simp only [List.cons_append, List.nil_append] at ih ⊢
        rw [replaceUnderscores, if_neg (fun hh => hu c (by simp) hh.1), ih]
      | cons d u =>
        simp only [List.cons_append] at ih ⊢
        rw [replaceUnderscores, if_neg (fun hh => hu c (by simp) hh.1), ih]
  have hd : ∃ u : List Char, (∀ c ∈ u, c ≠ '_') ∧ k.head = u ++ ['_'] := by
    cases k
    · exact ⟨['e', 'n', 'e', 'r', 'g', 'i', 'e', 's'], by decide, rfl⟩
    · exact ⟨['o', 'p', 't', 'i', 'm', 'i', 'z', 'a', 't', 'i', 'o', 'n'], by decide, rfl⟩
    · exact ⟨['f', 'i', 't', 's'], by decide, rfl⟩
  obtain ⟨u, hu, e⟩ := hd
  rw [e, List.append_assoc, List.append_assoc]
  exact h u hu _ (tail_no_underscore band)

end FigBand

/-- **C106** (part): with the default options figures of different kind, of different events, or of
bands whose limits differ by 0.01 Hz or more are written to different files.  Missing: bands which
are closer. -/
theorem C106_different_files_partial (k k' : Kind) (e e' : String) (band band' : ℝ × ℝ)
    (hp : 0 ≤ band.1 ∧ 0 ≤ band.2 ∧ 0 ≤ band'.1 ∧ 0 ≤ band'.2)
    (h : k ≠ k' ∨ e ≠ e' ∨ 0.01 ≤ |band.1 - band'.1| ∨ 0.01 ≤ |band.2 - band'.2|) :
    figName [e] e band (defaultTpl k) ≠ figName [e'] e' band' (defaultTpl k') := by
  intro heq
  rw [figName_one, figName_one] at heq
  obtain ⟨h1, h2, h3⟩ := tail_split heq
  obtain ⟨h4, h5⟩ := head_inj h1
  rcases h with h | h | h | h
  · exact h h4
  · exact h (String.ext h5)
  · exact hundredths_ne hp.1 hp.2.2.1 h h2
  · exact hundredths_ne hp.2.1 hp.2.2.2 h h3

example : figName ["ev1"] "ev1" (1.5, 3) (defaultTpl .fits) ≠
    figName ["ev1"] "ev1" (3, 6) (defaultTpl .fits) :=
  C106_different_files_partial _ _ _ _ _ _ (by norm_num)
    (Or.inr (Or.inr (Or.inl (by norm_num [abs_of_neg]))))

/-- **C106** (part): the same for an inversion of several events together (the name has no event). -/
theorem C106_several_events_partial (k k' : Kind) (ids : List String) (hi : ids.length ≠ 1)
    (first first' : String) (band band' : ℝ × ℝ)
    (hp : 0 ≤ band.1 ∧ 0 ≤ band.2 ∧ 0 ≤ band'.1 ∧ 0 ≤ band'.2)
    (h : k ≠ k' ∨ 0.01 ≤ |band.1 - band'.1| ∨ 0.01 ≤ |band.2 - band'.2|) :
    figName ids first band (defaultTpl k) ≠ figName ids first' band' (defaultTpl k') := by
  intro heq
  rw [figName_several hi, figName_several hi] at heq
  obtain ⟨h4, h5⟩ := head_inj heq
  obtain ⟨-, h2, h3⟩ := tail_split (a := []) (a' := []) (band := band) (band' := band')
    (by rw [h5])
  rcases h with h | h | h
  · exact h h4
  · exact hundredths_ne hp.1 hp.2.2.1 h h2
  · exact hundredths_ne hp.2.1 hp.2.2.2 h h3

example : figName ["ev1", "ev2"] "ev1" (1.5, 3) (defaultTpl .energies) ≠
    figName ["ev1", "ev2"] "ev1" (1.5, 3) (defaultTpl .fits) :=
  C106_several_events_partial _ _ _ (by simp) _ _ _ _ (by norm_num) (Or.inl (by simp))

theorem hundredths_eq {f : ℝ} {n : ℕ} (h : (n : ℝ) ≤ 100 * f + 1 / 2 ∧ 100 * f + 1 / 2 < n + 1) :
    hundredths f = n := by
  have : round (100 * f) = (n : ℤ) := by
    rw [round_eq]
    exact Int.floor_eq_iff.2 (by push_cast; exact h)
  rw [hundredths, this]; rfl

/-- The names are the documented ones. -/
example : figName ["ev1", "ev2"] "ev1" (1.5, 3) (defaultTpl .energies) =
    "energies_01.50Hz-03.00Hz.png".toList ∧
    figName ["ev1"] "ev1" (1.5, 128) (defaultTpl .fits) = "fits_ev1_01.50Hz-128.00Hz.png".toList := by
  have h1 : hundredths 1.5 = 150 := hundredths_eq (by norm_num)
  have h2 : hundredths 3 = 300 := hundredths_eq (by norm_num)
  have h3 : hundredths 128 = 12800 := hundredths_eq (by norm_num)
  have s1 : show2 150 = ['0', '1', '.', '5', '0'] := by norm_num [show2, intDigits]
  have s2 : show2 300 = ['0', '3', '.', '0', '0'] := by norm_num [show2, intDigits]
  have s3 : show2 12800 = ['1', '2', '8', '.', '0', '0'] := by norm_num [show2, intDigits]
  constructor
  · rw [figName_several (by simp)]
    simp only [tailOf, h1, h2, s1, s2]
    rfl
  · rw [figName_one]
    simp only [tailOf, h1, h3, s1, s3]
    rfl

/-- **C106** fails for close bands: the figure of one overwrites the figure of the other. -/
theorem C106_close_bands_counterexample :
    ∃ band band' : ℝ × ℝ, band ≠ band' ∧ 0 < band.1 ∧ band.1 < band.2 ∧ 0 < band'.1 ∧
      band'.1 < band'.2 ∧ ∀ k e, figName [e] e band (defaultTpl k) =
        figName [e] e band' (defaultTpl k) := by
  refine ⟨(0.101, 0.202), (0.102, 0.204), by norm_num, by norm_num, by norm_num, by norm_num,
    by norm_num, ?_⟩
  intro k e
  have h1 : hundredths 0.101 = 10 := hundredths_eq (by norm_num)
  have h2 : hundredths 0.202 = 20 := hundredths_eq (by norm_num)
  have h3 : hundredths 0.102 = 10 := hundredths_eq (by norm_num)
  have h4 : hundredths 0.204 = 20 := hundredths_eq (by norm_num)
  rw [figName_one, figName_one]
  simp only [tailOf, h1, h2, h3, h4]

/-! ## Failing figures -/

variable {G : Greens} {cfg : Cfg} {bd : Band}
  {wls : List ℝ → List (List ℝ) → List ℝ → List ℝ × ℝ} {minimize : (ℝ → Py (WithTop ℝ)) → Py ℝ}

/-- **C106**: figures never change the result of a band nor make it fail, whichever figures are
requested and whether or not they can be drawn. -/
theorem C106_result_unchanged (fc : FigCfg) (band : ℝ × ℝ) (draw : Fit → Kind → Py Unit) :
    (solveBandFigs wls G minimize cfg bd fc band draw).map Prod.snd =
      solveBand wls G minimize cfg bd := by
  unfold solveBandFigs solveBand
  cases bandFit wls G minimize cfg bd with
  | error e => rfl
  | ok o => cases o <;> rfl

/-- **C106**: if all requested figures can be drawn they are all written, also for a band which is
skipped later because of the bounds. -/
theorem C106_all_drawn (fc : FigCfg) (band : ℝ × ℝ) (draw : Fit → Kind → Py Unit) (f : Fit)
    (hf : bandFit wls G minimize cfg bd = .ok (some f)) (hd : ∀ k, draw f k = .ok ())
    (hb : bd.pairs ≠ []) {files : List (List Char)} {res : Option BandResult}
    (h : solveBandFigs wls G minimize cfg bd fc band draw = .ok (files, res)) :
    ∀ k, (k = .energies ∧ fc.plotEnergies = true ∨
        k = .optimization ∧ fc.plotOptimization = true ∧ cfg.fix = false ∧ cfg.optimize = true ∨
        k = .fits ∧ fc.plotFits = true) →
      figName (eventids bd) ((bd.pairs.map Prod.fst).headD "") band (fc.tpl k) ∈ files := by
  intro k hk
  unfold solveBandFigs at h
  rw [hf] at h
  simp only [bind, Except.bind, pure, Except.pure, Except.ok.injEq, Prod.mk.injEq] at h
  have hall : ∀ (name : Kind → List Char) (ks : List Kind),
      drawAll (draw f) name ks = ks.map name := by
    intro name ks
    induction ks with
    | nil => rfl
    | cons a ks ih => simp [drawAll, hd, ih]
  rw [← h.1, hall]
  refine List.mem_map.2 ⟨k, ?_, rfl⟩
  have hn : 0 < bd.pairs.length := List.length_pos_iff.2 hb
  unfold requested
  rcases hk with ⟨rfl, h1⟩ | ⟨rfl, h1, h2, h3⟩ | ⟨rfl, h1⟩ <;> simp [*]

/-- A band with a result for which the figure of the fits is written. -/
example (minimize : (ℝ → Py (WithTop ℝ)) → Py ℝ) : ∃ files res,
    solveBandFigs someWls InvertExample.G1 minimize InvertExample.cfg1
      (bandOf InvertExample.cfg1.bulk InvertExample.ps1) { plotFits := true } (1.5, 3)
      (fun _ _ => .ok ()) = .ok (files, some res) ∧
    figName (eventids (bandOf InvertExample.cfg1.bulk InvertExample.ps1))
      (((bandOf InvertExample.cfg1.bulk InvertExample.ps1).pairs.map Prod.fst).headD "") (1.5, 3)
      (defaultTpl .fits) ∈ files := by
  obtain ⟨res, R', W', h, -⟩ := InvertExample.example_result minimize
  have h' := C106_result_unchanged (wls := someWls) (G := InvertExample.G1) (minimize := minimize)
    (cfg := InvertExample.cfg1) (bd := bandOf InvertExample.cfg1.bulk InvertExample.ps1)
    { plotFits := true } (1.5, 3) (fun _ _ => .ok ())
  rw [h] at h'
  cases hs : solveBandFigs someWls InvertExample.G1 minimize InvertExample.cfg1
      (bandOf InvertExample.cfg1.bulk InvertExample.ps1) { plotFits := true } (1.5, 3)
      (fun _ _ => .ok ()) with
  | error e => rw [hs] at h'; cases h'
  | ok o =>
    rw [hs] at h'
    obtain ⟨files, r⟩ := o
    simp only [Except.map, Except.ok.injEq] at h'
    subst h'
    obtain ⟨of, hf, h2⟩ := bind_ok.1 h
    cases of with
    | none => simp [pure, Except.pure] at h2
    | some f =>
      exact ⟨files, res, rfl, C106_all_drawn _ _ _ f hf (fun _ => rfl) (by simp [bandOf, InvertExample.ps1])
        hs .fits (Or.inr (Or.inr ⟨rfl, rfl⟩))⟩

/-- **C106** (part): a figure is written if it and all requested figures before it (energies,
optimisation, fits) can be drawn.  Missing: independence from the figures before. -/
theorem C106_before_failure_partial (draw : Kind → Py Unit) (name : Kind → List Char)
    (pre post : List Kind) (k : Kind) (h : ∀ j ∈ pre ++ [k], draw j = .ok ()) :
    name k ∈ drawAll draw name (pre ++ k :: post) := by
  induction pre with
  | nil => simp [drawAll, h k (by simp)]
  | cons a pre ih =>
    have ha := h a (by simp)
    simp only [List.cons_append, drawAll, ha]
    exact List.mem_cons_of_mem _ (ih (fun j hj => h j (by simp at hj ⊢; tauto)))

example : "b".toList ∈ drawAll (fun k => if k = .fits then .error .other else .ok ())
    (fun k => if k = .energies then "a".toList else "b".toList) [.energies, .optimization, .fits] :=
  C106_before_failure_partial _ _ [.energies] [.fits] .optimization (by
    intro j hj
    simp only [List.cons_append, List.nil_append, List.mem_cons, List.not_mem_nil, or_false] at hj
    rcases hj with rfl | rfl <;> rfl)

/-- **C106** fails for a figure after one which cannot be drawn: with the option `downsample_to` the
energies cannot be drawn, and the figure of the fits is not written although it could be. -/
theorem C106_failure_counterexample (tr : Trace) :
    ∃ (draw : Kind → Py Unit) (name : Kind → List Char),
      draw .energies = (plotEnergies [] [] (some 10) [tr]).map (fun _ => ()) ∧
      draw .fits = .ok () ∧
      requested { plotEnergies := true, plotFits := true } { g0Bounds := none, bBounds := none, v0 := 3000 } 1 =
        [.energies, .fits] ∧
      drawAll draw name [.energies, .fits] = [] := by
  refine ⟨fun k => match k with
    | .energies => (plotEnergies [] [] (some 10) [tr]).map (fun _ => ())
    | _ => .ok (), fun k => k.head, rfl, rfl, rfl, rfl⟩

end Qopen
