import Verif.Lemmas.CmdLineRt

/-!
# Lemmas about the command line of `qopen rt`: strings and parts
-/

namespace Qopen.CmdLine

open Run Rt
open Spec (RtPart rtGroups rtGiven rtLast rtUses rtFlags RtReads Opens Stops)

section

variable {tbl : List Opt} {py : Lang}

/-- The first string of options which are read. -/
theorem reads_head (t : TableOK tbl) (h2 : TwoLong (flat tbl)) {s : List Char} {l : List (List Char)}
    {us : List Spec.Use} (h : Spec.Reads py (flat tbl) (s :: l) us) :
    s ≠ ['-', '-'] ∧ ∃ tp o acts stop us1 us2 l', parseOptional py tbl s = .ok (some tp) ∧ tp.opt = some o ∧
      acting tbl o tp = .ok (acts, stop) ∧ Fits py tbl acts stop l us1 l' ∧
      Spec.Reads py (flat tbl) l' us2 ∧ us = us1 ++ us2 := by
  refine ⟨fun e => reads_tokens t h2 h s (by simp) (Or.inl e), ?_⟩
  cases h with
  | @short c cs l us l' us' hc hs hr =>
    obtain ⟨c', x, o, f, acts, stop, e, hso, hn, hl, hf⟩ := short_complete t hs
    simp only [List.cons.injEq] at e
    obtain ⟨rfl, rfl⟩ := e
    have hd : decide ((['-', c] : List Char)[1]? ≠ some '-') = true := by simp [hc]
    have hm : (['-', c], o) ∈ names tbl := hn ▸ hso.1
    cases cs with
    | nil => exact ⟨_, o, acts, stop, us, us', l', po_exact t hm, rfl, hl, hf, hr, rfl⟩
    | cons d v =>
      rw [letters] at hl
      by_cases hd' : d = '='
      · subst hd'
        rw [if_pos rfl] at hl
        refine ⟨_, o, acts, stop, us, us', l', po_eq (v := v) t hm, rfl, ?_, hf, hr, rfl⟩
        simp only [acting, hd]
        exact hl
      · rw [if_neg hd'] at hl
        refine ⟨_, o, acts, stop, us, us', l', po_attached t hm hd', rfl, ?_, hf, hr, rfl⟩
        simp only [acting, hd]
        exact hl
  | @switch c s f l us hn hv hr =>
    obtain ⟨o, hso, hpo⟩ := po_long (py := py) (v := none) t rfl hn
    exact ⟨_, o, [], .next o, [⟨f, []⟩], us, l, hpo, rfl, rfl,
      ⟨[], f, List.Forall₂.nil, hso, Or.inl ⟨hv, rfl, rfl⟩⟩, hr, rfl⟩
  | @eq s v f l us hn hv hr =>
    obtain ⟨o, hso, hpo⟩ := po_long (py := py) (v := some v) t rfl hn
    obtain ⟨c, l', hfl⟩ := names_long t rfl hn
    have hd : decide (f.name.toList[1]? ≠ some '-') = false := by rw [hfl]; simp
    refine ⟨_, o, [(o, some v)], .done, [⟨f, v⟩], us, l, hpo, rfl, ?_, ⟨single hso (some v), rfl⟩, hr, rfl⟩
    simp only [acting, hd, chain_long]
    exact ⟨(takes_value hso).2 hv, trivial⟩
  | @next c s v f l us hn hv hp hr =>
    obtain ⟨o, hso, hpo⟩ := po_long (py := py) (v := none) t rfl hn
    exact ⟨_, o, [], .next o, [⟨f, v⟩], us, l, hpo, rfl, rfl,
      ⟨[], f, List.Forall₂.nil, hso, Or.inr ⟨hv, v, rfl, hp, rfl⟩⟩, hr, rfl⟩

theorem reads_nil {us : List Spec.Use} {T : List Spec.Flag} (h : Spec.Reads py T [] us) : us = [] := by
  cases h; rfl

/-- Options which are read are in the table. -/
theorem reads_mem {T : List Spec.Flag} {l : List (List Char)} {us : List Spec.Use}
    (h : Spec.Reads py T l us) : ∀ u ∈ us, u.flag ∈ T := by
  have hshort : ∀ {cs l us l'}, Spec.Short py T cs l us l' → ∀ u ∈ us, u.flag ∈ T := by
    intro cs l us l' h
    induction h with
    | switch hf => simpa using hf
    | more hf _ _ _ _ _ ih => simpa using ⟨hf, ih⟩
    | attached hf => simpa using hf
    | eq hf => simpa using hf
    | next hf => simpa using hf
  induction h with
  | nil => simp
  | short _ hs _ ih =>
    intro u hu
    rw [List.mem_append] at hu
    exact hu.elim (hshort hs u) (ih u)
  | switch hn _ _ ih => simpa using ⟨hn.1, ih⟩
  | eq hn _ _ ih => simpa using ⟨hn.1, ih⟩
  | next hn _ _ _ ih => simpa using ⟨hn.1, ih⟩

/-- A string which can be a value is no option. -/
theorem not_reads_plain (t : TableOK tbl) (h2 : TwoLong (flat tbl)) {v : List Char}
    {us : List Spec.Use} (h : Spec.Reads py (flat tbl) [v] us) : ¬ Spec.NotOption py (flat tbl) v := by
  intro hv
  obtain ⟨-, tp, -, -, -, -, -, -, hpo, -⟩ := reads_head t h2 h
  rw [po_plain t hv] at hpo
  cases hpo

end

section

variable {py : Lang} {num : List Char → Option ℝ}

theorem takeAll_parts {acts : List (Opt × Option (List Char))} {us : List Spec.Use}
    (h : Acts rtOpts acts us) (st : RtSt) : rtTakeAll num st acts = partsTake num st (rtUses us) := by
  induction h generalizing st with
  | nil => rfl
  | @cons a u acts us hau _ ih =>
    obtain ⟨o, w⟩ := a
    obtain ⟨hs, hw⟩ := hau
    have hd : u.flag.key = o.dest := hs.2.1
    simp only [rtTakeAll, rtUses, List.map_cons, partsTake, partTake, hd, hw]
    simp only [ih]
    rfl

/-- Second part of `rtConsume`. -/
def rtEnd (num : List Char → Option ℝ) (st : RtSt) (rest : List Item)
    (acts : List (Opt × Option (List Char))) : Stop → Except Exit (RtSt × ℕ)
  | .done => do
    let st ← rtTakeAll num st acts
    .ok (st, 0)
  | .extra => do
    let st ← rtTakeAll num st acts
    .ok ({ st with extras := true }, 0)
  | .next o =>
    if o.kind.takesValue then
      if rtValues o rest = [] then .error .error
      else do
        let st ← rtTakeAll num st acts
        let st ← rtTake num st o.dest (rtValues o rest)
        .ok (st, (rtValues o rest).length)
    else do
      let st ← rtTakeAll num st (acts ++ [(o, none)])
      .ok (st, 0)

theorem rtConsume_some {st : RtSt} {t : Tup} {rest : List Item} {o : Opt} (ho : t.opt = some o) :
    rtConsume num st t rest = (acting rtOpts o t >>= fun r => rtEnd num st rest r.1 r.2) := by
  unfold rtConsume acting rtEnd
  rw [ho]
  congr 1

theorem rtTakeAll_extras {st st' : RtSt} {acts : List (Opt × Option (List Char))}
    (h : rtTakeAll num st acts = .ok st') : st'.extras = st.extras := by
  induction acts generalizing st with
  | nil => simp only [rtTakeAll, Except.ok.injEq] at h; rw [h]
  | cons a acts ih =>
    simp only [rtTakeAll, ebind_ok] at h
    obtain ⟨s, h1, h2⟩ := h
    rw [ih h2, rtTake_extras h1]

theorem rtEnd_extras {st st' : RtSt} {rest : List Item} {acts : List (Opt × Option (List Char))}
    {stop : Stop} {n : ℕ} (h : rtEnd num st rest acts stop = .ok (st', n)) (hx : st.extras = true) :
    st'.extras = true := by
  unfold rtEnd at h
  split at h
  · simp only [ebind_ok, Except.ok.injEq, Prod.mk.injEq] at h
    obtain ⟨s, h1, rfl, -⟩ := h
    rw [rtTakeAll_extras h1, hx]
  · simp only [ebind_ok, Except.ok.injEq, Prod.mk.injEq] at h
    obtain ⟨s, h1, rfl, -⟩ := h
    rfl
  · split at h
    · split at h
      · cases h
      · simp only [ebind_ok, Except.ok.injEq, Prod.mk.injEq] at h
        obtain ⟨s, h1, s2, h2, rfl, -⟩ := h
        rw [rtTake_extras h2, rtTakeAll_extras h1, hx]
    · simp only [ebind_ok, Except.ok.injEq, Prod.mk.injEq] at h
      obtain ⟨s, h1, rfl, -⟩ := h
      rw [rtTakeAll_extras h1, hx]

theorem rtItems_extras {items : List Item} {st st' : RtSt} (h : rtItems num st items = .ok st')
    (hx : st.extras = true) : st'.extras = true := by
  induction hn : items.length using Nat.strong_induction_on generalizing items st with
  | _ n ih =>
  cases items with
  | nil => rw [rtItems] at h; injection h with h; rw [← h, hx]
  | cons i l =>
    have hl : (afterRun l).length < n := by
      have := afterRun_length l
      rw [← hn, List.length_cons]; omega
    cases i with
    | arg s =>
      rw [rtItems, ebind_ok] at h
      obtain ⟨s1, h1, h2⟩ := h
      exact ih _ hl h2 (run_extras h1 hx) rfl
    | dash =>
      rw [rtItems, ebind_ok] at h
      obtain ⟨s1, h1, h2⟩ := h
      exact ih _ hl h2 (run_extras h1 hx) rfl
    | opt s t =>
      rw [rtItems, ebind_ok] at h
      obtain ⟨⟨s1, k⟩, h1, h2⟩ := h
      refine ih _ ?_ h2 ?_ rfl
      · rw [← hn]; simp only [List.length_drop, List.length_cons]; omega
      · cases ho : t.opt with
        | none =>
          unfold rtConsume at h1
          rw [ho] at h1
          simp only [Except.ok.injEq, Prod.mk.injEq] at h1
          rw [← h1.1]
        | some o =>
          rw [rtConsume_some ho, ebind_ok] at h1
          obtain ⟨r, -, h1⟩ := h1
          exact rtEnd_extras h1 hx

/-- Strings up to the next option. -/
theorem classify_run {l : List (List Char)} {items : List Item} (hd : ['-', '-'] ∉ l)
    (hc : classify py rtOpts l = .ok items) :
    ∃ vs l2, l = vs ++ l2 ∧ (∀ v ∈ vs, Spec.NotOption py rtFlags v) ∧ Stops py l2 ∧ runOf items = vs ∧
      argsOf items = vs ∧ classify py rtOpts l2 = .ok (afterRun items) ∧
      afterRun items = items.drop vs.length := by
  induction l generalizing items with
  | nil =>
    rw [classify] at hc
    injection hc with hc
    subst hc
    exact ⟨[], [], rfl, by simp, by simp [Stops], rfl, rfl, rfl, rfl⟩
  | cons s l ih =>
    have hs : s ≠ ['-', '-'] := fun e => hd (by simp [e])
    obtain ⟨r, items', h1, h2, rfl⟩ := classify_cons hc hs
    rcases po_sound table_rt h1 with ⟨rfl, hp⟩ | ⟨tp, rfl, hio⟩
    · obtain ⟨vs, l2, rfl, h3, h4, h5, h6, h7, h8⟩ := ih (fun e => hd (by simp [e])) h2
      refine ⟨s :: vs, l2, rfl, ?_, h4, ?_, ?_, ?_, ?_⟩
      · intro v hv
        rw [List.mem_cons] at hv
        rcases hv with rfl | hv
        · rw [← flat_rt]; exact hp
        · exact h3 v hv
      · simp only [runOf, h5]
      · simp only [argsOf, h6]
      · simp only [afterRun, h7]
      · simp only [afterRun, h8, List.length_cons, List.drop_succ_cons]
    · refine ⟨[], s :: l, rfl, by simp, ?_, rfl, rfl, hc, rfl⟩
      intro s' hs' hp
      simp only [List.head?_cons, Option.mem_def, Option.some.injEq] at hs'
      subst hs'
      rw [← flat_rt] at hp
      rw [po_plain table_rt hp] at h1
      cases h1

theorem partsTake_option {st st' : RtSt} {us : List Spec.Use} {f : Spec.Flag} {vs : List (List Char)} :
    partsTake num st (rtUses us ++ [.option f vs]) = .ok st' ↔
      ∃ s, partsTake num st (rtUses us) = .ok s ∧ rtTake num s f.key vs = .ok st' := by
  rw [partsTake_append]
  simp only [partsTake, partTake, ebind_ok, Except.ok.injEq, exists_eq_right]

/-- A successful parse reads the strings as parts. -/
theorem rt_sound {l : List (List Char)} {items : List Item} {st st' : RtSt} (hd : ['-', '-'] ∉ l)
    (hc : classify py rtOpts l = .ok items) (h : rtItems num st items = .ok st')
    (hx : st'.extras = false) : ∃ ps, RtReads py l ps ∧ partsTake num st ps = .ok st' := by
  induction hn : l.length using Nat.strong_induction_on generalizing l items st with
  | _ n ih =>
  cases l with
  | nil =>
    rw [classify] at hc
    injection hc with hc
    subst hc
    rw [rtItems] at h
    exact ⟨[], RtReads.nil, h⟩
  | cons s l =>
    have hs : s ≠ ['-', '-'] := fun e => hd (by simp [e])
    have hd' : ['-', '-'] ∉ l := fun e => hd (by simp [e])
    obtain ⟨r, items', h1, h2, rfl⟩ := classify_cons hc hs
    obtain ⟨vs, l2, rfl, g1, g2, g3, g4, g5, g6⟩ := classify_run hd' h2
    have hl2 : l2.length < n := by rw [← hn]; simp
    have hd2 : ['-', '-'] ∉ l2 := fun e => hd' (by simp [e])
    rcases po_sound table_rt h1 with ⟨rfl, hp⟩ | ⟨tp, rfl, hio⟩
    · simp only at h
      rw [rtItems, ebind_ok, g3] at h
      obtain ⟨s1, h3, h4⟩ := h
      obtain ⟨ps, hr, hps⟩ := ih l2.length hl2 hd2 g5 h4 rfl
      refine ⟨.arguments (s :: vs) :: ps, ?_, ?_⟩
      · refine RtReads.arguments (vs := s :: vs) (by simp) ?_ g2 hr
        intro v hv
        rw [List.mem_cons] at hv
        rcases hv with rfl | hv
        · rw [← flat_rt]; exact hp
        · exact g1 v hv
      · simp only [partsTake, ebind_ok]
        exact ⟨s1, h3, hps⟩
    · simp only at h
      rw [rtItems, ebind_ok] at h
      obtain ⟨⟨s1, k⟩, h3, h4⟩ := h
      simp only at h4
      have hx1 : s1.extras = false := by
        by_contra hne
        rw [rtItems_extras h4 (by simpa using hne)] at hx
        cases hx
      cases ho : tp.opt with
      | none =>
        unfold rtConsume at h3
        rw [ho] at h3
        simp only [Except.ok.injEq, Prod.mk.injEq] at h3
        rw [← h3.1] at hx1; cases hx1
      | some o =>
        rw [rtConsume_some ho, ebind_ok] at h3
        obtain ⟨⟨acts, stop⟩, ha, hf⟩ := h3
        have hstep := acting_sound (py := py) table_rt hio ho ha
        simp only at hf
        unfold rtEnd at hf
        cases stop with
        | extra =>
          simp only [ebind_ok, Except.ok.injEq, Prod.mk.injEq] at hf
          obtain ⟨s2, -, rfl, -⟩ := hf
          cases hx1
        | done =>
          simp only [ebind_ok, Except.ok.injEq, Prod.mk.injEq] at hf
          obtain ⟨s2, e2, rfl, rfl⟩ := hf
          obtain ⟨us, hacts, hr⟩ := hstep
          rw [List.drop_zero] at h4
          obtain ⟨ps, hr', hps⟩ := ih (vs ++ l2).length (by rw [← hn]; simp) hd' h2 h4 rfl
          refine ⟨rtUses us ++ ps, RtReads.string ?_ hr', ?_⟩
          · have := hr [] [] Spec.Reads.nil
            rw [List.append_nil, flat_rt] at this
            exact this
          · rw [partsTake_append]
            exact ⟨s2, by rw [← takeAll_parts hacts]; exact e2, hps⟩
        | next o' =>
          obtain ⟨us, f', hacts, hs', hr1, hr2⟩ := hstep
          have hkey : f'.key = o'.dest := hs'.2.1
          simp only at hf
          split at hf
          · next hv =>
            have hv' := (takes_value hs').1 hv
            have hop : Opens py s us f' := by
              intro v hpv
              have := hr2 hv' hs v [] [] (by rw [flat_rt]; exact hpv) Spec.Reads.nil
              rw [List.append_nil, flat_rt] at this
              exact this
            split at hf
            · cases hf
            · next hne =>
              simp only [ebind_ok, Except.ok.injEq, Prod.mk.injEq] at hf
              obtain ⟨s2, e2, s3, e3, rfl, rfl⟩ := hf
              rw [takeAll_parts hacts] at e2
              rw [← hkey] at e3
              by_cases hty : o'.dest = "type"
              · have hval : rtValues o' items' = vs := by rw [rtValues, if_pos hty, g4]
                rw [hval] at hne e3 h4
                rw [← g6] at h4
                obtain ⟨ps, hr', hps⟩ := ih l2.length hl2 hd2 g5 h4 rfl
                refine ⟨_, RtReads.types hop (hkey.trans hty) hne g1 g2 hr', ?_⟩
                rw [List.append_cons, partsTake_append]
                exact ⟨s3, partsTake_option.2 ⟨s2, e2, e3⟩, hps⟩
              · have hval : rtValues o' items' = vs.take 1 := by rw [rtValues, if_neg hty, g4]
                rw [hval] at hne e3 h4
                cases vs with
                | nil => exact absurd rfl hne
                | cons v vs =>
                  simp only [List.take_succ_cons, List.take_zero, List.length_singleton] at hne e3 h4
                  have hvd : v ≠ ['-', '-'] := fun e => hd' (by simp [e])
                  rw [List.cons_append] at h2
                  obtain ⟨r3, items3, p1, p2, rfl⟩ := classify_cons h2 hvd
                  simp only [List.drop_succ_cons, List.drop_zero] at h4
                  obtain ⟨ps, hr', hps⟩ := ih (vs ++ l2).length (by rw [← hn]; simp)
                    (fun e => hd' (by simp only [List.cons_append]; exact List.mem_cons_of_mem _ e)) p2 h4 rfl
                  refine ⟨_, RtReads.value hop (by rw [hkey]; exact hty) (g1 v (by simp)) hr', ?_⟩
                  rw [List.append_cons, partsTake_append]
                  exact ⟨s3, partsTake_option.2 ⟨s2, e2, e3⟩, hps⟩
          · next hv =>
            have hv' : ¬ f'.hasValue := fun hh => hv ((takes_value hs').2 hh)
            simp only [ebind_ok, Except.ok.injEq, Prod.mk.injEq] at hf
            obtain ⟨s2, e2, rfl, rfl⟩ := hf
            rw [List.drop_zero] at h4
            obtain ⟨ps, hr', hps⟩ := ih (vs ++ l2).length (by rw [← hn]; simp) hd' h2 h4 rfl
            refine ⟨rtUses (us ++ [⟨f', []⟩]) ++ ps, RtReads.string ?_ hr', ?_⟩
            · have := hr1 hv' hs [] [] Spec.Reads.nil
              rw [List.append_nil, flat_rt] at this
              exact this
            · rw [partsTake_append]
              exact ⟨s2, (takeAll_parts (hacts.snoc hs' none) st).symm.trans e2, hps⟩

/-- Strings which are read are neither `--` nor begin with `--=`. -/
theorem rtReads_tokens {l : List (List Char)} {ps : List RtPart} (h : RtReads py l ps) :
    ∀ s ∈ l, ¬ (s = ['-', '-'] ∨ ['-', '-', '='] <+: s) := by
  have hpl : ∀ {v}, Spec.NotOption py rtFlags v → ¬ (v = ['-', '-'] ∨ ['-', '-', '='] <+: v) := by
    intro v hv hh
    rw [← flat_rt] at hv
    exact not_plain twoLong_rt hh hv
  have hop : ∀ {s us f}, Opens py s us f → ¬ (s = ['-', '-'] ∨ ['-', '-', '='] <+: s) := by
    intro s us f ho
    have := ho ['x'] (Or.inl (by simp))
    rw [← flat_rt] at this
    exact reads_tokens table_rt twoLong_rt this s (by simp)
  induction h with
  | nil => simp
  | @arguments vs l ps hne hv _ _ ih =>
    intro s hs
    rw [List.mem_append] at hs
    rcases hs with hs | hs
    · exact hpl (hv s hs)
    · exact ih s hs
  | @string s us l ps hr _ ih =>
    intro s' hs
    rw [List.mem_cons] at hs
    rcases hs with rfl | hs
    · rw [← flat_rt] at hr
      exact reads_tokens table_rt twoLong_rt hr s' (by simp)
    · exact ih s' hs
  | @value s us f v l ps ho _ hv _ ih =>
    intro s' hs
    rw [List.mem_cons, List.mem_cons] at hs
    rcases hs with rfl | rfl | hs
    · exact hop ho
    · exact hpl hv
    · exact ih s' hs
  | @types s us f vs l ps ho _ _ hv _ _ ih =>
    intro s' hs
    rw [List.mem_cons, List.mem_append] at hs
    rcases hs with rfl | hs | hs
    · exact hop ho
    · exact hpl (hv s' hs)
    · exact ih s' hs

theorem classify_plain {vs l : List (List Char)} {items : List Item}
    (hv : ∀ v ∈ vs, Spec.NotOption py rtFlags v) (hc : classify py rtOpts l = .ok items) :
    classify py rtOpts (vs ++ l) = .ok (vs.map .arg ++ items) := by
  induction vs with
  | nil => exact hc
  | cons v vs ih =>
    have h1 := hv v (by simp)
    rw [← flat_rt] at h1
    have hvd : v ≠ ['-', '-'] := fun hh => not_plain twoLong_rt (Or.inl hh) h1
    rw [List.cons_append, classify, if_neg hvd, po_plain table_rt h1,
      ih (fun w hw => hv w (by simp [hw]))]
    rfl

/-- Items in front of which a run ends. -/
theorem stops_items {l : List (List Char)} {items : List Item} (hd : ['-', '-'] ∉ l) (hst : Stops py l)
    (hc : classify py rtOpts l = .ok items) :
    runOf items = [] ∧ argsOf items = [] ∧ afterRun items = items := by
  obtain ⟨vs, l2, rfl, h1, h2, h3, h4, h5, h6⟩ := classify_run hd hc
  cases vs with
  | nil => exact ⟨h3, h4, by rw [h6]; rfl⟩
  | cons v vs => exact absurd (h1 v (by simp)) (hst v (by simp))

theorem run_items {items : List Item} (vs : List (List Char))
    (h : runOf items = [] ∧ argsOf items = [] ∧ afterRun items = items) :
    runOf (vs.map .arg ++ items) = vs ∧ argsOf (vs.map .arg ++ items) = vs ∧
      afterRun (vs.map .arg ++ items) = items := by
  induction vs with
  | nil => exact h
  | cons v vs ih => simp [runOf, argsOf, afterRun, ih]

/-- Values in the next string. -/
theorem opens_acting {s : List Char} {us : List Spec.Use} {f : Spec.Flag} (h : Opens py s us f) :
    s ≠ ['-', '-'] ∧ ∃ tp o acts o', parseOptional py rtOpts s = .ok (some tp) ∧ tp.opt = some o ∧
      acting rtOpts o tp = .ok (acts, .next o') ∧ Acts rtOpts acts us ∧ Same rtOpts o' f ∧ f.hasValue := by
  have hx : Spec.NotOption py rtFlags ['x'] := Or.inl (by simp)
  have hr := h ['x'] hx
  rw [← flat_rt] at hr hx
  obtain ⟨hne, tp, o, acts, stop, us1, us2, l', h1, h2, h3, hf, h4, h5⟩ := reads_head table_rt twoLong_rt hr
  refine ⟨hne, tp, o, acts, ?_⟩
  have no : ∀ {us2}, ¬ Spec.Reads py (flat rtOpts) [['x']] us2 := fun hh =>
    not_reads_plain table_rt twoLong_rt hh hx
  cases stop with
  | extra => exact hf.elim
  | done =>
    obtain ⟨-, rfl⟩ := hf
    exact absurd h4 no
  | next o' =>
    obtain ⟨us0, f', ha, hs, ⟨-, -, rfl⟩ | ⟨hv, v, e, -, rfl⟩⟩ := hf
    · exact absurd h4 no
    · simp only [List.cons.injEq] at e
      obtain ⟨rfl, rfl⟩ := e
      have := reads_nil h4
      subst this
      rw [List.append_nil] at h5
      have h6 := List.append_inj' h5 rfl
      simp only [List.cons.injEq, Spec.Use.mk.injEq, and_true] at h6
      obtain ⟨rfl, rfl⟩ := h6
      exact ⟨o', h1, h2, h3, ha, hs, hv⟩

/-- Strings which can be read as parts are parsed. -/
theorem rt_complete {l : List (List Char)} {ps : List RtPart} (h : RtReads py l ps) :
    ∃ items, classify py rtOpts l = .ok items ∧
      ∀ st st', partsTake num st ps = .ok st' → rtItems num st items = .ok st' := by
  induction h with
  | nil => exact ⟨[], rfl, fun st st' h => by rw [rtItems]; exact h⟩
  | @arguments vs l ps hne hv hst hr ih =>
    obtain ⟨items, hc, ih⟩ := ih
    have hd : ['-', '-'] ∉ l := fun e => rtReads_tokens hr _ e (Or.inl rfl)
    refine ⟨_, classify_plain hv hc, ?_⟩
    intro st st' h
    simp only [partsTake, ebind_ok] at h
    obtain ⟨s1, h1, h2⟩ := h
    cases vs with
    | nil => exact absurd rfl hne
    | cons v vs =>
      obtain ⟨g1, -, g3⟩ := run_items vs (stops_items hd hst hc)
      rw [List.map_cons, List.cons_append, rtItems, ebind_ok, g1, g3]
      exact ⟨s1, h1, ih s1 st' h2⟩
  | @string s us l ps hr _ ih =>
    obtain ⟨items, hc, ih⟩ := ih
    rw [← flat_rt] at hr
    obtain ⟨hne, tp, o, acts, stop, us1, us2, l', h1, h2, h3, hf, h4, rfl⟩ :=
      reads_head table_rt twoLong_rt hr
    refine ⟨.opt s tp :: items, by rw [classify, if_neg hne, h1, hc]; rfl, ?_⟩
    intro st st' h
    rw [partsTake_append] at h
    obtain ⟨s1, e1, e2⟩ := h
    rw [rtItems, ebind_ok]
    refine ⟨(s1, 0), ?_, ih s1 st' e2⟩
    rw [rtConsume_some h2, ebind_ok]
    refine ⟨_, h3, ?_⟩
    unfold rtEnd
    cases stop with
    | extra => exact hf.elim
    | done =>
      obtain ⟨hacts, rfl⟩ := hf
      have := reads_nil h4
      subst this
      rw [List.append_nil] at e1
      simp only [ebind_ok]
      exact ⟨s1, by rw [takeAll_parts hacts]; exact e1, rfl⟩
    | next o' =>
      obtain ⟨us0, f', hacts, hs', ⟨hv', rfl, rfl⟩ | ⟨hv', v, e, -⟩⟩ := hf
      · have := reads_nil h4
        subst this
        rw [List.append_nil] at e1
        simp only
        rw [if_neg (fun hh => hv' ((takes_value hs').1 hh)), ebind_ok]
        exact ⟨s1, by rw [takeAll_parts (hacts.snoc hs' none)]; exact e1, rfl⟩
      · cases e
  | @value s us f v l ps ho hk hv _ ih =>
    obtain ⟨items, hc, ih⟩ := ih
    obtain ⟨hne, tp, o, acts, o', h1, h2, h3, hacts, hs, hval⟩ := opens_acting ho
    have hcv := classify_plain (vs := [v]) (by simpa using hv) hc
    simp only [List.cons_append, List.nil_append, List.map_cons, List.map_nil] at hcv
    refine ⟨.opt s tp :: .arg v :: items, by rw [classify, if_neg hne, h1, hcv]; rfl, ?_⟩
    intro st st' h
    rw [List.append_cons, partsTake_append] at h
    obtain ⟨s1, e1, e2⟩ := h
    obtain ⟨s0, e0, e1⟩ := partsTake_option.1 e1
    have hkey : f.key = o'.dest := hs.2.1
    have hvs : rtValues o' (.arg v :: items) = [v] := by
      rw [rtValues, if_neg (by rw [← hkey]; exact hk)]
      simp [argsOf]
    rw [rtItems, ebind_ok]
    refine ⟨(s1, 1), ?_, ih s1 st' e2⟩
    rw [rtConsume_some h2, ebind_ok]
    refine ⟨_, h3, ?_⟩
    unfold rtEnd
    simp only [hvs, (takes_value hs).2 hval, if_true]
    rw [if_neg (by simp), ebind_ok]
    refine ⟨s0, by rw [takeAll_parts hacts]; exact e0, ?_⟩
    rw [ebind_ok]
    exact ⟨s1, by rw [← hkey]; exact e1, rfl⟩
  | @types s us f vs l ps ho hk hvne hv hst hr ih =>
    obtain ⟨items, hc, ih⟩ := ih
    have hd : ['-', '-'] ∉ l := fun e => rtReads_tokens hr _ e (Or.inl rfl)
    obtain ⟨hne, tp, o, acts, o', h1, h2, h3, hacts, hs, hval⟩ := opens_acting ho
    refine ⟨.opt s tp :: (vs.map .arg ++ items),
      by rw [classify, if_neg hne, h1, classify_plain hv hc]; rfl, ?_⟩
    intro st st' h
    rw [List.append_cons, partsTake_append] at h
    obtain ⟨s1, e1, e2⟩ := h
    obtain ⟨s0, e0, e1⟩ := partsTake_option.1 e1
    have hkey : f.key = o'.dest := hs.2.1
    obtain ⟨-, g2, -⟩ := run_items vs (stops_items hd hst hc)
    have hvs : rtValues o' (vs.map .arg ++ items) = vs := by
      rw [rtValues, if_pos (by rw [← hkey]; exact hk), g2]
    rw [rtItems, ebind_ok]
    refine ⟨(s1, vs.length), ?_, ?_⟩
    · rw [rtConsume_some h2, ebind_ok]
      refine ⟨_, h3, ?_⟩
      unfold rtEnd
      simp only [hvs, (takes_value hs).2 hval, if_true]
      rw [if_neg hvne, ebind_ok]
      refine ⟨s0, by rw [takeAll_parts hacts]; exact e0, ?_⟩
      rw [ebind_ok]
      exact ⟨s1, by rw [← hkey]; exact e1, rfl⟩
    · simp only
      rw [List.drop_left' (by simp)]
      exact ih s1 st' e2

/-- Parts which are read have values. -/
theorem reads_parts {l : List (List Char)} {ps : List RtPart} (h : RtReads py l ps) :
    ∀ p ∈ ps, PartOK p := by
  have huse : ∀ {l us}, Spec.Reads py rtFlags l us → ∀ p ∈ rtUses us, PartOK p := by
    intro l us hr p hp
    simp only [rtUses, List.mem_map] at hp
    obtain ⟨u, hu, rfl⟩ := hp
    refine ⟨by simp, fun _ => ⟨_, rfl⟩, ?_⟩
    rw [← flat_rt] at hr
    obtain ⟨o, hs⟩ := same_of_flat (reads_mem hr u hu)
    exact ⟨o, (same_mem hs).1, hs.2.1.symm⟩
  have hopen : ∀ {s us f}, Opens py s us f → (∀ p ∈ rtUses us, PartOK p) ∧
      ∃ o ∈ rtOpts, o.dest = f.key := by
    intro s us f ho
    have hr := ho ['x'] (Or.inl (by simp))
    refine ⟨fun p hp => huse hr p (by simp only [rtUses, List.map_append] at hp ⊢; exact List.mem_append_left _ hp), ?_⟩
    rw [← flat_rt] at hr
    obtain ⟨o, hs⟩ := same_of_flat (reads_mem hr ⟨f, ['x']⟩ (by simp))
    exact ⟨o, (same_mem hs).1, hs.2.1.symm⟩
  induction h with
  | nil => simp
  | @arguments vs l ps hne _ _ _ ih =>
    intro p hp
    rw [List.mem_cons] at hp
    rcases hp with rfl | hp
    · exact hne
    · exact ih p hp
  | @string s us l ps hr _ ih =>
    intro p hp
    rw [List.mem_append] at hp
    rcases hp with hp | hp
    · exact huse hr p hp
    · exact ih p hp
  | @value s us f v l ps ho hk _ _ ih =>
    intro p hp
    rw [List.mem_append, List.mem_cons] at hp
    rcases hp with hp | rfl | hp
    · exact (hopen ho).1 p hp
    · exact ⟨by simp, fun _ => ⟨v, rfl⟩, (hopen ho).2⟩
    · exact ih p hp
  | @types s us f vs l ps ho hk hne _ _ _ ih =>
    intro p hp
    rw [List.mem_append, List.mem_cons] at hp
    rcases hp with hp | rfl | hp
    · exact (hopen ho).1 p hp
    · exact ⟨hne, fun hh => absurd hk hh, (hopen ho).2⟩
    · exact ih p hp

/-! ## Readings of given strings -/

theorem po_error {tbl : List Opt} {s : List Char} {e : Exit} (h : parseOptional py tbl s = .error e) :
    e = .error := by
  unfold parseOptional at h
  split at h
  · cases h
  split at h
  · cases h
  split at h
  · cases h
  simp only at h
  split at h
  · cases h
  split at h
  · cases h
  · injection h with h; exact h.symm
  split at h
  · cases h
  split at h <;> cases h

theorem classify_error {tbl : List Opt} {l : List (List Char)} {e : Exit}
    (h : classify py tbl l = .error e) : e = .error := by
  induction l with
  | nil => rw [classify] at h; cases h
  | cons s l ih =>
    rw [classify] at h
    split at h
    · cases h
    · cases hp : parseOptional py tbl s with
      | error e' =>
        rw [hp] at h
        simp only [bind, Except.bind, Except.error.injEq] at h
        rw [← h]; exact po_error hp
      | ok r =>
        rw [hp] at h
        cases hc : classify py tbl l with
        | error e' =>
          rw [hc] at h
          simp only [bind, Except.bind, Except.error.injEq] at h
          rw [← h] at ih ⊢
          exact ih hc
        | ok items => rw [hc] at h; simp [bind, Except.bind] at h

theorem opens_not_plain {s : List Char} {us : List Spec.Use} {f : Spec.Flag} (h : Opens py s us f) :
    ¬ Spec.NotOption py rtFlags s := by
  intro hs
  obtain ⟨-, tp, -, -, -, hpo, -⟩ := opens_acting h
  rw [← flat_rt] at hs
  rw [po_plain table_rt hs] at hpo
  cases hpo

theorem string_not_plain {s : List Char} {us : List Spec.Use} (h : Spec.Reads py rtFlags [s] us) :
    ¬ Spec.NotOption py rtFlags s := by
  rw [← flat_rt] at h ⊢
  exact not_reads_plain table_rt twoLong_rt h

/-- A string with an option whose value follows is not complete. -/
theorem opens_not_complete {s : List Char} {us us' : List Spec.Use} {f : Spec.Flag}
    (h : Opens py s us f) (h' : Spec.Reads py rtFlags [s] us') : False := by
  obtain ⟨-, tp, o, acts, o', h1, h2, h3, -, hs, hv⟩ := opens_acting h
  rw [← flat_rt] at h'
  obtain ⟨-, tp', oo, acts', stop, us1, us2, l', g1, g2, g3, hf, -⟩ := reads_head table_rt twoLong_rt h'
  rw [h1] at g1
  simp only [Except.ok.injEq, Option.some.injEq] at g1
  subst g1
  rw [h2] at g2
  simp only [Option.some.injEq] at g2
  subst g2
  rw [h3] at g3
  simp only [Except.ok.injEq, Prod.mk.injEq] at g3
  obtain ⟨-, rfl⟩ := g3
  obtain ⟨us0, f', -, hs', ⟨hv', -⟩ | ⟨-, v, e, -⟩⟩ := hf
  · exact hv' ((takes_value hs').1 ((takes_value hs).2 hv))
  · cases e

theorem reads_arguments {vs l : List (List Char)} {s : List Char} {ps : List RtPart} (hne : vs ≠ [])
    (hv : ∀ v ∈ vs, Spec.NotOption py rtFlags v) (hs : ¬ Spec.NotOption py rtFlags s)
    (h : RtReads py (vs ++ s :: l) ps) : ∃ ps', ps = .arguments vs :: ps' ∧ RtReads py (s :: l) ps' := by
  obtain ⟨v, vs', rfl⟩ := List.exists_cons_of_ne_nil hne
  have hv0 := hv v (by simp)
  generalize hL : v :: vs' ++ s :: l = L at h
  cases h with
  | nil => cases hL
  | @arguments ws l' ps' _ hw hst hr =>
    have : ws = v :: vs' ∧ l' = s :: l := by
      rw [List.append_eq_append_iff] at hL
      rcases hL with ⟨as, e1, e2⟩ | ⟨as, e1, e2⟩
      · cases as with
        | nil => exact ⟨by simpa using e1, by simpa using e2.symm⟩
        | cons x as =>
          simp only [List.cons_append, List.cons.injEq] at e2
          obtain ⟨rfl, -⟩ := e2
          exact absurd (hw s (by rw [e1]; simp)) hs
      · cases as with
        | nil => exact ⟨by simpa using e1.symm, by simpa using e2⟩
        | cons x as =>
          exact absurd (hv x (by rw [e1]; simp)) (hst x (by rw [e2]; simp))
    obtain ⟨rfl, rfl⟩ := this
    exact ⟨ps', rfl, hr⟩
  | string hr => simp only [List.cons_append, List.cons.injEq] at hL; rw [hL.1] at hv0; exact absurd hv0 (string_not_plain hr)
  | value ho => simp only [List.cons_append, List.cons.injEq] at hL; rw [hL.1] at hv0; exact absurd hv0 (opens_not_plain ho)
  | types ho => simp only [List.cons_append, List.cons.injEq] at hL; rw [hL.1] at hv0; exact absurd hv0 (opens_not_plain ho)

theorem reads_string {l : List (List Char)} {s : List Char} {us : List Spec.Use} {ps : List RtPart}
    (hr0 : Spec.Reads py (flat rtOpts) [s] us) (hs : ¬ Spec.NotOption py rtFlags s)
    (h : RtReads py (s :: l) ps) : ∃ us' ps', ps = rtUses us' ++ ps' ∧ RtReads py l ps' := by
  rw [flat_rt] at hr0
  generalize hL : s :: l = L at h
  cases h with
  | nil => cases hL
  | @arguments ws l' ps' hne hw hst hr =>
    cases ws with
    | nil => exact absurd rfl hne
    | cons w ws =>
      simp only [List.cons_append, List.cons.injEq] at hL
      exact absurd (hw w (by simp)) (hL.1 ▸ hs)
  | @string s' us' l' ps' _ hr =>
    simp only [List.cons.injEq] at hL
    obtain ⟨rfl, rfl⟩ := hL
    exact ⟨us', ps', rfl, hr⟩
  | value ho => simp only [List.cons.injEq] at hL; rw [hL.1] at hr0; exact (opens_not_complete ho hr0).elim
  | types ho => simp only [List.cons.injEq] at hL; rw [hL.1] at hr0; exact (opens_not_complete ho hr0).elim

theorem reads_group {l : List (List Char)} {w : List Char} {ps : List RtPart}
    (hw : Spec.NotOption py rtFlags w) (h : RtReads py (w :: l) ps) :
    ∃ g ps', ps = .arguments g :: ps' := by
  generalize hL : w :: l = L at h
  cases h with
  | nil => cases hL
  | @arguments ws l' ps' => exact ⟨ws, ps', rfl⟩
  | string hr => simp only [List.cons.injEq] at hL; rw [hL.1] at hw; exact absurd hw (string_not_plain hr)
  | value ho => simp only [List.cons.injEq] at hL; rw [hL.1] at hw; exact absurd hw (opens_not_plain ho)
  | types ho => simp only [List.cons.injEq] at hL; rw [hL.1] at hw; exact absurd hw (opens_not_plain ho)

theorem opens_type : Opens py "--type".toList [] ⟨"--type", "type", .text⟩ := by
  intro v hv
  exact Spec.Reads.next (c := 't') (s := "ype".toList) ⟨by simp [rtFlags], Or.inl rfl⟩ (Or.inl rfl) hv
    Spec.Reads.nil

theorem reads_type {l : List (List Char)} {v w : List Char} {ps : List RtPart}
    (_hv : Spec.NotOption py rtFlags v) (hw : Spec.NotOption py rtFlags w)
    (h : RtReads py ("--type".toList :: v :: w :: l) ps) :
    ∃ f us vs ps', f.key = "type" ∧ w ∈ vs ∧ ps = rtUses us ++ .option f vs :: ps' := by
  generalize hL : "--type".toList :: v :: w :: l = L at h
  have hn := opens_not_plain (py := py) opens_type
  cases h with
  | nil => cases hL
  | @arguments ws l' ps' hne hw hst hr =>
    cases ws with
    | nil => exact absurd rfl hne
    | cons w ws =>
      simp only [List.cons_append, List.cons.injEq] at hL
      exact absurd (hw w (by simp)) (hL.1 ▸ hn)
  | string hr =>
    simp only [List.cons.injEq] at hL
    rw [← hL.1] at hr
    exact (opens_not_complete opens_type hr).elim
  | @value s us f v' l' ps' ho hk =>
    simp only [List.cons.injEq] at hL
    rw [← hL.1] at ho
    obtain ⟨-, tp, o, acts, o', h1, h2, h3, -, hs, -⟩ := opens_acting ho
    obtain ⟨-, tp', oo, acts', oo', g1, g2, g3, -, hs', -⟩ := opens_acting (py := py) opens_type
    rw [h1] at g1
    simp only [Except.ok.injEq, Option.some.injEq] at g1
    subst g1
    rw [h2] at g2
    simp only [Option.some.injEq] at g2
    subst g2
    rw [h3] at g3
    simp only [Except.ok.injEq, Prod.mk.injEq, Stop.next.injEq] at g3
    obtain ⟨-, rfl⟩ := g3
    exact absurd (hs.2.1.trans hs'.2.1.symm) hk
  | @types s us f vs l' ps' ho hk hne hvs hst =>
    simp only [List.cons.injEq] at hL
    refine ⟨f, us, vs, ps', hk, ?_, rfl⟩
    rcases vs with _ | ⟨x, _ | ⟨y, vs⟩⟩
    · exact absurd rfl hne
    · simp only [List.cons_append, List.nil_append, List.cons.injEq] at hL
      exact absurd hw (hst w (by rw [← hL.2.2]; simp))
    · simp only [List.cons_append, List.cons.injEq] at hL
      rw [hL.2.2.1]; simp

end

end Qopen.CmdLine
