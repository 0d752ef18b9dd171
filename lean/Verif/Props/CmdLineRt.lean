import Verif.Lemmas.CmdLineRtRead

/-!
# C141: the command line of `qopen rt`
-/

namespace Qopen

open Run CmdLine Rt

section

variable {py : Lang} {num : List Char → Option ℝ}

/-- **C141.** The command line of `qopen rt` is accepted if and only if it can be read as a command, a
velocity and one or more mean free paths with options in between, and then these are the values with
which the tool works. -/
theorem C141_values {argv : List String} (hd : "--" ∉ argv) {a : RtArgs} :
    parseRt py num argv = .ok a ↔
      ∃ ps, Spec.RtReads py (Spec.letters argv) ps ∧ Spec.RtMeans num ps a := by
  have hd' : ['-', '-'] ∉ Spec.letters argv := by
    intro h
    obtain ⟨s, hs, e⟩ := List.mem_map.1 h
    have : s = "--" := String.toList_inj.1 (by rw [e]; rfl)
    exact hd (this ▸ hs)
  unfold parseRt
  simp only [ebind_ok]
  constructor
  · rintro ⟨items, hc, st, h1, h2⟩
    have hx : st.extras = false := by
      unfold rtFinish at h2
      split at h2
      · split at h2
        · cases h2
        · next h => simpa using h
      · cases h2
    obtain ⟨ps, hr, hp⟩ := rt_sound hd' hc h1 hx
    have hi := (parts_iff inv_empty (reads_parts hr)).1 st hp hx
    exact ⟨ps, hr, (finish_iff hi).1 h2⟩
  · rintro ⟨ps, hr, hm⟩
    obtain ⟨items, hc, hg⟩ := rt_complete (num := num) hr
    obtain ⟨st, hp, hx⟩ := (parts_iff inv_empty (reads_parts hr)).2 (ok_of_means hm)
    have hi := (parts_iff inv_empty (reads_parts hr)).1 st hp hx
    exact ⟨items, hc, st, hg _ _ hp, (finish_iff hi).2 hm⟩

/-! ## Examples -/

section examples

/-- `qopen rt plot-t 1600 -r100 500 1000 --log --type rt3d rt2d -t 5`. -/
def exRt : List String :=
  ["plot-t", "1600", "-r100", "500", "1000", "--log", "--type", "rt3d", "rt2d", "-t", "5"]

/-- Parts of this command line. -/
def exRtParts : List Spec.RtPart :=
  [.arguments ["plot-t".toList, "1600".toList], .option ⟨"-r", "r", .text⟩ ["100".toList],
   .arguments ["500".toList, "1000".toList], .option ⟨"--log", "log", .on⟩ [[]],
   .option ⟨"--type", "type", .text⟩ ["rt3d".toList, "rt2d".toList],
   .option ⟨"-t", "t", .text⟩ ["5".toList]]

/-- The numbers of this command line. -/
noncomputable def exNum (s : List Char) : Option ℝ :=
  if s = "1600".toList then some 1600 else if s = "100".toList then some 100
  else if s = "500".toList then some 500 else if s = "1000".toList then some 1000
  else if s = "5".toList then some 5 else none

theorem exRt_reads (py : Lang) : Spec.RtReads py (Spec.letters exRt) exRtParts := by
  have hp : ∀ {v : List Char}, v.head? ≠ some '-' → Spec.NotOption py Spec.rtFlags v := fun h => Or.inl h
  have hn : ∀ {s : List Char} {us : List Spec.Use}, Spec.Reads py Spec.rtFlags [s] us →
      ∀ l, Spec.Stops py (s :: l) := by
    intro s us h l s' hs'
    simp only [List.head?_cons, Option.mem_def, Option.some.injEq] at hs'
    subst hs'
    exact string_not_plain h
  have ho : ∀ {s : List Char} {us : List Spec.Use} {f : Spec.Flag}, Spec.Opens py s us f →
      ∀ l, Spec.Stops py (s :: l) := by
    intro s us f h l s' hs'
    simp only [List.head?_cons, Option.mem_def, Option.some.injEq] at hs'
    subst hs'
    exact opens_not_plain h
  have h1 : Spec.Reads py Spec.rtFlags ["-r100".toList] [⟨⟨"-r", "r", .text⟩, "100".toList⟩] :=
    Spec.Reads.short (c := 'r') (cs := "100".toList) (us' := []) (by decide)
      (Spec.Short.attached (by simp [Spec.rtFlags]) rfl (Or.inl rfl) (by decide)) Spec.Reads.nil
  have h2 : Spec.Reads py Spec.rtFlags ["--log".toList] [⟨⟨"--log", "log", .on⟩, []⟩] :=
    Spec.Reads.switch (c := 'l') (s := "og".toList) ⟨by simp [Spec.rtFlags], Or.inl rfl⟩
      (by simp [Spec.Flag.hasValue]) Spec.Reads.nil
  have h3 : Spec.Opens py "-t".toList [] ⟨"-t", "t", .text⟩ := fun v hv =>
    Spec.Reads.short (c := 't') (cs := []) (us' := []) (by decide)
      (Spec.Short.next (by simp [Spec.rtFlags]) rfl (Or.inl rfl) hv) Spec.Reads.nil
  refine Spec.RtReads.arguments (vs := ["plot-t".toList, "1600".toList]) (by simp) ?_ (hn h1 _) ?_
  · intro v hv
    simp only [List.mem_cons, List.not_mem_nil, or_false] at hv
    rcases hv with rfl | rfl <;> exact hp (by decide)
  refine Spec.RtReads.string h1 ?_
  refine Spec.RtReads.arguments (vs := ["500".toList, "1000".toList]) (by simp) ?_ (hn h2 _) ?_
  · intro v hv
    simp only [List.mem_cons, List.not_mem_nil, or_false] at hv
    rcases hv with rfl | rfl <;> exact hp (by decide)
  refine Spec.RtReads.string h2 ?_
  refine Spec.RtReads.types (us := []) (vs := ["rt3d".toList, "rt2d".toList]) opens_type rfl (by simp) ?_
    (ho h3 _) ?_
  · intro v hv
    simp only [List.mem_cons, List.not_mem_nil, or_false] at hv
    rcases hv with rfl | rfl <;> exact hp (by decide)
  exact Spec.RtReads.value (us := []) h3 (by decide) (hp (by decide)) Spec.RtReads.nil

/-- Its values. -/
noncomputable def exRtArgs : RtArgs :=
  { command := "plot-t", c := 1600, ls := [500, 1000], r := some 100, t := some 5, log := true,
    types := ["rt3d", "rt2d"] }

theorem exRt_means : Spec.RtMeans exNum exRtParts exRtArgs := by
  refine ⟨⟨"plot-t".toList, "1600".toList, ["500".toList, "1000".toList], rfl,
    by simp, by decide, ?_, ?_⟩, by decide, by decide, ?_, by decide, by decide, ?_, ?_, rfl, ?_,
    ?_, by decide⟩
  all_goals simp [exNum, exRtParts, exRtArgs, Spec.rtGiven, Spec.rtLast]

example (py : Lang) : parseRt py exNum exRt = .ok exRtArgs :=
  (C141_values (by decide)).2 ⟨exRtParts, exRt_reads py, exRt_means⟩

end examples

/-- **C141.** `qopen rt` does what `main` does with the values which the command line means, and does
nothing if the command line cannot be read. -/
theorem C141_command {argv : List String} (hd : "--" ∉ argv) {out : Py RtOut} :
    rtCmdline py num ("rt" :: argv) = .ok out ↔
      ∃ ps a, Spec.RtReads py (Spec.letters argv) ps ∧ Spec.RtMeans num ps a ∧ out = rtMain a := by
  have hne : "rt".toList ≠ ['-', '-'] := by decide
  have hpo : parseOptional py mainOpts "rt".toList = .ok none := by
    unfold parseOptional; rw [if_pos (by decide)]
  have hmap : ∀ (l : List (List Char)) (items : List Item), items.length = l.length →
      (l.zip items).map (·.1) = l := fun l items hl => List.map_fst_zip (by omega)
  have key : ∀ {items}, classify py mainOpts (argv.map String.toList) = .ok items →
      parseArgs py ("rt" :: argv) = .error (.rt argv) := by
    intro items hc
    have hcl : classify py mainOpts (("rt" :: argv).map String.toList) =
        .ok (.arg "rt".toList :: items) := by
      rw [List.map_cons, classify, if_neg hne, hpo, hc]; rfl
    have e1 : parseArgs py ("rt" :: argv) = parseMain py ⟨[], [], false⟩
        ((("rt" :: argv).map String.toList).zip (.arg "rt".toList :: items)) := by
      simp only [parseArgs, hcl, bind, Except.bind]
    rw [e1, List.map_cons, List.zip_cons_cons, parseMain]
    simp only [String.ofList_toList]
    rw [if_pos (by decide), if_pos trivial]
    congr 2
    have : ((argv.map String.toList).zip items).map (fun p => String.ofList p.1) =
        (((argv.map String.toList).zip items).map (·.1)).map String.ofList := by
      rw [List.map_map]; rfl
    rw [this, hmap _ _ (classify_length hc), List.map_map]
    conv_rhs => rw [← List.map_id argv]
    exact List.map_congr_left (fun s _ => String.ofList_toList)
  have hfin : ∀ {items}, classify py mainOpts (argv.map String.toList) = .ok items →
      (rtCmdline py num ("rt" :: argv) = .ok out ↔ ∃ a, parseRt py num argv = .ok a ∧ rtMain a = out) := by
    intro items hc
    unfold rtCmdline
    rw [key hc]
    simp only [ebind_ok, Except.ok.injEq]
  constructor
  · intro h
    cases hc : classify py mainOpts (argv.map String.toList) with
    | error e =>
      exfalso
      have hcl : classify py mainOpts (("rt" :: argv).map String.toList) = .error e := by
        rw [List.map_cons, classify, if_neg hne, hpo, hc]; rfl
      have hpa : parseArgs py ("rt" :: argv) = .error e := by
        simp only [parseArgs, hcl, bind, Except.bind]
      have he := classify_error hc
      unfold rtCmdline at h
      rw [hpa, he] at h
      cases h
    | ok items =>
      obtain ⟨a, h1, h2⟩ := (hfin hc).1 h
      obtain ⟨ps, hr, hm⟩ := (C141_values hd).1 h1
      exact ⟨ps, a, hr, hm, h2.symm⟩
  · rintro ⟨ps, a, hr, hm, rfl⟩
    obtain ⟨items, hc, -⟩ := classify_total (py := py) (tbl := mainOpts) (l := argv.map String.toList)
      (fun s hs => main_ok (rtReads_tokens hr s hs))
    exact (hfin hc).2 ⟨a, (C141_values hd).2 ⟨ps, hr, hm⟩, rfl⟩

example (py : Lang) : rtCmdline py exNum ("rt" :: exRt) = .ok (rtMain exRtArgs) :=
  (C141_command (by decide)).2 ⟨exRtParts, exRtArgs, exRt_reads py, exRt_means, rfl⟩

/-- **C141.** An option between the mean free paths is refused: behind the command, the velocity and at
least one mean free path, no further argument may follow an option which is complete. -/
theorem C141_between {vs : List String} {s w : String} {l : List String} {us : List Spec.Use}
    (hd : "--" ∉ vs ++ s :: w :: l) (hvs : ∀ v ∈ vs, Spec.NotOption py Spec.rtFlags v.toList)
    (hl : 3 ≤ vs.length) (hs : Spec.Reads py Spec.rtFlags [s.toList] us)
    (hw : Spec.NotOption py Spec.rtFlags w.toList) (a : RtArgs) :
    parseRt py num (vs ++ s :: w :: l) ≠ .ok a := by
  intro h
  obtain ⟨ps, hr, hm⟩ := (C141_values hd).1 h
  simp only [Spec.letters, List.map_append, List.map_cons] at hr
  have hr0 := hs
  rw [← flat_rt] at hr0
  have hsn : ¬ Spec.NotOption py Spec.rtFlags s.toList := by
    rw [← flat_rt]
    exact not_reads_plain table_rt twoLong_rt hr0
  have hne : vs.map String.toList ≠ [] := by
    intro e
    rw [List.map_eq_nil_iff] at e
    rw [e] at hl; simp at hl
  obtain ⟨ps1, rfl, hr1⟩ := reads_arguments hne (by simpa using hvs) hsn hr
  obtain ⟨us1, ps2, rfl, hr2⟩ := reads_string hr0 hsn hr1
  obtain ⟨g, ps3, e⟩ := reads_group hw hr2
  have ht := hm.together
  have hg : Spec.rtGroups (.arguments (vs.map String.toList) :: (Spec.rtUses us1 ++ ps2)) =
      vs.map String.toList :: (Spec.rtGroups (Spec.rtUses us1) ++ g :: Spec.rtGroups ps3) := by
    rw [e, ← List.singleton_append, rtGroups_append, rtGroups_append]
    rfl
  rw [hg, List.dropLast_cons_of_ne_nil (by simp), List.flatten_cons, List.length_append,
    List.length_map] at ht
  omega

/-- `qopen rt plot-t 1600 500 --log 1000` is refused. -/
example (py : Lang) (a : RtArgs) : parseRt py exNum ["plot-t", "1600", "500", "--log", "1000"] ≠ .ok a := by
  refine C141_between (vs := ["plot-t", "1600", "500"]) (l := []) (us := [⟨⟨"--log", "log", .on⟩, []⟩])
    (by decide) ?_ (by decide) ?_ (Or.inl (by decide)) a
  · intro v hv
    simp only [List.mem_cons, List.not_mem_nil, or_false] at hv
    rcases hv with rfl | rfl | rfl <;> exact Or.inl (by decide)
  · exact Spec.Reads.switch (c := 'l') (s := "og".toList) ⟨by simp [Spec.rtFlags], Or.inl rfl⟩
      (by simp [Spec.Flag.hasValue]) Spec.Reads.nil

/-- **C141.** The option `--type` takes all strings up to the next option: in front of the arguments it
takes them as names of Green's functions, and the command line is refused unless the next argument is
such a name. -/
theorem C141_type {v w : String} {l : List String} (hd : "--" ∉ "--type" :: v :: w :: l)
    (hv : Spec.NotOption py Spec.rtFlags v.toList) (hw : Spec.NotOption py Spec.rtFlags w.toList)
    {a : RtArgs} (h : parseRt py num ("--type" :: v :: w :: l) = .ok a) :
    w ∈ ["rt3d", "rt2d", "rt1d", "diff3d", "diff2d", "diff1d", "diffapprox3d", "diffapprox2d",
      "diffapprox1d"] := by
  obtain ⟨ps, hr, hm⟩ := (C141_values hd).1 h
  simp only [Spec.letters, List.map_cons] at hr
  obtain ⟨f, us, vs, ps1, hk, hw', rfl⟩ := reads_type hv hw hr
  have := hm.known vs (by
    rw [rtGiven_append, ← List.singleton_append, rtGiven_append, rtGiven_option, if_pos hk]
    simp) w.toList hw'
  rwa [String.ofList_toList] at this

/-- `qopen rt --type rt2d calc 1600 500 -r 100 -t 5` is refused. -/
example (py : Lang) (a : RtArgs) :
    parseRt py exNum ["--type", "rt2d", "calc", "1600", "500", "-r", "100", "-t", "5"] ≠ .ok a := fun h =>
  absurd (C141_type (by decide) (Or.inl (by decide)) (Or.inl (by decide)) h) (by decide)

end

end Qopen
