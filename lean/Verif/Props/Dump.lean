import Verif.Model.Dump
import Verif.Props.FigureNames
import Verif.Props.FigureOpt

/-!
# Dumps for external plotting: C127
-/

namespace Qopen

open Real Util Tr InvertFb FigBand Spec Imaging

variable {G : Greens} {cfg : Cfg} {wls : List ℝ → List (List ℝ) → List ℝ → List ℝ × ℝ}

namespace Spec

/-- A text as it is written in a template: percent signs are doubled. -/
def quoted (a : List Char) : List Char := a.flatMap (fun c => if c = '%' then ['%', '%'] else [c])

/-- The template is `a%sb` with the percent signs of the texts `a` and `b` doubled. -/
def Template (tpl a b : List Char) : Prop := tpl = quoted a ++ '%' :: 's' :: quoted b

/-- Name of a band in the names of files, as in `ev1_01.50Hz-03.00Hz`. -/
noncomputable def bandName (evid : String) (band : ℝ × ℝ) : List Char :=
  evid.toList ++ ['_'] ++ show2 (hundredths band.1) ++ ['H', 'z', '-'] ++
    show2 (hundredths band.2) ++ ['H', 'z']

/-- A requested dump has a template with one conversion. -/
def GoodTemplate (tpl : List Char) : Prop := tpl = [] ∨ ∃ a b, Template tpl a b

end Spec

namespace FigBand

theorem dumpLabel_eq (evid : String) (band : ℝ × ℝ) : dumpLabel evid band = bandName evid band := by
  have h1 : "Hz-".toList = ['H', 'z', '-'] := rfl
  have h2 : "Hz".toList = ['H', 'z'] := rfl
  simp [dumpLabel, bandName, h1, h2]

theorem parse_quoted (a r : List Char) :
    parsePercent (quoted a ++ r) = (parsePercent r).map (a.map some ++ ·) := by
  induction a with
  | nil => cases h : parsePercent r <;> simp [quoted, h, Except.map]
  | cons c a ih =>
    by_cases hc : c = '%'
    · have e : quoted (c :: a) ++ r = '%' :: '%' :: (quoted a ++ r) := by simp [quoted, hc]
      rw [e, parsePercent, if_pos rfl, if_neg (by decide), if_pos rfl, ih]
      cases parsePercent r <;> simp [Except.map, bind, Except.bind, pure, Except.pure, hc]
    · have e : quoted (c :: a) ++ r = c :: (quoted a ++ r) := by simp [quoted, hc]
      rw [e]
      cases h : quoted a ++ r with
      | nil =>
        rw [h, parsePercent] at ih
        rw [parsePercent, if_neg hc]
        cases hr : parsePercent r with
        | error e => rw [hr] at ih; simp [Except.map] at ih
        | ok l => rw [hr] at ih; simpa [Except.map] using ih
      | cons d x =>
        rw [h] at ih
        rw [parsePercent, if_neg hc, ih]
        cases parsePercent r <;> simp [Except.map, bind, Except.bind, pure, Except.pure]

theorem parse_text (b : List Char) : parsePercent (quoted b) = .ok (b.map some) := by
  have := parse_quoted b []
  rw [List.append_nil] at this
  rw [this]; simp [parsePercent, Except.map]

theorem parse_template (a b : List Char) :
    parsePercent (quoted a ++ '%' :: 's' :: quoted b) = .ok (a.map some ++ none :: b.map some) := by
  rw [parse_quoted, parsePercent, if_pos rfl, if_pos rfl, parse_text]
  rfl

theorem flatMap_some (a l : List Char) : (a.map some).flatMap (fillPart l) = a := by
  induction a with
  | nil => rfl
  | cons c a ih => simp only [List.map_cons, List.flatMap_cons, ih]; rfl

theorem percent_template {tpl a b : List Char} (h : Template tpl a b) (l : List Char) :
    percent tpl l = .ok (a ++ l ++ b) := by
  obtain rfl := h
  have hn : ∀ c : List Char, (c.map some).count (none : Option Char) = 0 := by
    intro c; rw [List.count_eq_zero]; simp
  unfold percent
  rw [parse_template]
  simp only [bind, Except.bind, pure, Except.pure]
  rw [if_pos (by rw [List.count_append, List.count_cons_self, hn, hn])]
  rw [List.flatMap_append, List.flatMap_cons, flatMap_some, flatMap_some]
  simp [fillPart]

theorem template_ne {tpl a b : List Char} (h : Template tpl a b) : tpl ≠ [] := by
  obtain rfl := h; simp

/-- The fit with records is the fit of the band. -/
theorem fitRec_fst (s : Search) (bd : Band) (dc : DumpCfg) :
    (fitRec wls G s cfg bd dc).map (fun o => o.map Prod.fst) =
      bandFit wls G (fun f => s.run f) cfg bd := by
  by_cases hfix : cfg.fix = true
  · unfold fitRec bandFit
    simp only [hfix, if_true]
    rcases cfg.fixParams with ⟨_ | g, _ | b⟩
    · rfl
    · rfl
    · rfl
    · dsimp only
      cases hl : lstsq wls G cfg bd g (some b) cfg.fixSites with
      | error e => rfl
      | ok f =>
        obtain ⟨info, hi⟩ := infoOf_of_lstsq hl
        simp [bind, Except.bind, hi, pure, Except.pure, Except.map]
  · simp only [Bool.not_eq_true] at hfix
    by_cases hopt : cfg.optimize = true
    · by_cases hp : dc.plotOptimization = true
      · rw [← C124_same_result wls G bd dc.num s hfix hopt]
        unfold fitRec
        simp only [hfix, hopt, hp, if_true, Bool.false_eq_true, if_false]
        cases ho : optimiseRec wls G cfg bd dc.num s with
        | error e => rfl
        | ok fr =>
          obtain ⟨xr, -, h⟩ := bind_ok.1 ho
          obtain ⟨f, hf, h⟩ := bind_ok.1 h
          obtain ⟨info, hi, h⟩ := bind_ok.1 h
          cases h
          have hg : f.g0 = xr.1 := (lstsq_misfit_bounds hfix hf).1
          simp [bind, Except.bind, hg, hi, pure, Except.pure, Except.map]
      · unfold fitRec bandFit
        simp only [hfix, hopt, hp, if_true, Bool.false_eq_true, if_false]
        cases hx : s.run (objective wls G cfg bd) with
        | error e => rfl
        | ok x =>
          cases hl : lstsq wls G cfg bd x none false with
          | error e => simp [bind, Except.bind, hl, Except.map]
          | ok f =>
            obtain ⟨info, hi⟩ := infoOf_of_lstsq hl
            simp [bind, Except.bind, hl, hi, pure, Except.pure, Except.map]
    · unfold fitRec bandFit
      simp only [hfix, hopt, Bool.false_eq_true, if_false]
      rcases cfg.g0Bounds with _ | gb
      · rfl
      · dsimp only
        cases hl : lstsq wls G cfg bd ((gb.1 + gb.2) / 2) none false with
        | error e => rfl
        | ok f =>
          obtain ⟨info, hi⟩ := infoOf_of_lstsq hl
          simp [bind, Except.bind, hi, pure, Except.pure, Except.map]

/-- Values of a fit. -/
theorem lstsq_values {bd : Band} {g0 : ℝ} {f : Fit} {bFix : Option ℝ} {fixSites : Bool}
    (hf : lstsq wls G cfg bd g0 bFix fixSites = .ok f) :
    f.g0 = g0 ∧ (cfg.fix = true → bFix = some f.b) := by
  obtain ⟨rs, -, hf⟩ := bind_ok.1 hf
  obtain ⟨Rf, -, hf⟩ := bind_ok.1 hf
  obtain ⟨Ga, -, hf⟩ := bind_ok.1 hf
  simp only [bind, Except.bind, throw, throwThe, MonadExceptOf.throw, pure, Except.pure] at hf
  split at hf
  · simp at hf
  · split at hf
    · simp at hf
    · unfold fitOf at hf
      simp only at hf
      cases hfx : cfg.fix with
      | true =>
        rw [hfx] at hf
        simp only [if_true] at hf
        split at hf
        · simp at hf
        · cases bFix with
          | none => simp at hf
          | some bf =>
            simp only [Except.ok.injEq] at hf
            subst hf; simp
      | false =>
        rw [hfx] at hf
        simp only [Bool.false_eq_true, if_false, Except.ok.injEq] at hf
        subst hf; simp

/-- What is dumped: the fit, its `info` and the records. -/
theorem fitRec_some {s : Search} {bd : Band} {dc : DumpCfg} {f : Fit} {info : Info} {rs : Records}
    (h : fitRec wls G s cfg bd dc = .ok (some (f, info, rs))) :
    infoOf G cfg bd f.g0 = .ok info ∧ (cfg.fix = true → cfg.fixParams = (some f.g0, some f.b)) ∧
    (dc.plotOptimization = false → rs = {}) ∧
    (cfg.fix = false → cfg.optimize = true → dc.plotOptimization = true →
      optimiseRec wls G cfg bd dc.num s = .ok (f, rs)) := by
  unfold fitRec at h
  split_ifs at h with h1 h2 h3
  · rcases hp : cfg.fixParams with ⟨_ | g, _ | b⟩
    · rw [hp] at h; simp at h
    · rw [hp] at h; simp at h
    · rw [hp] at h; simp at h
    · rw [hp] at h
      obtain ⟨f', hf, h⟩ := bind_ok.1 h
      obtain ⟨i', hi, h⟩ := bind_ok.1 h
      simp only [pure, Except.pure, Except.ok.injEq, Option.some.injEq, Prod.mk.injEq] at h
      obtain ⟨rfl, rfl, rfl⟩ := h
      obtain ⟨v1, v2⟩ := lstsq_values hf
      refine ⟨by rw [v1]; exact hi, fun _ => by rw [v1, v2 h1], ?_, ?_⟩
      · intro hn; simp [recordOnce, hn]
      · intro hn; rw [h1] at hn; cases hn
  · obtain ⟨fr, hf, h⟩ := bind_ok.1 h
    obtain ⟨i', hi, h⟩ := bind_ok.1 h
    simp only [pure, Except.pure, Except.ok.injEq, Option.some.injEq, Prod.mk.injEq] at h
    obtain ⟨rfl, rfl, rfl⟩ := h
    exact ⟨hi, fun hn => absurd hn h1, by intro hn; simp [h3] at hn, fun _ _ _ => hf⟩
  · obtain ⟨x, -, h⟩ := bind_ok.1 h
    obtain ⟨f', hf, h⟩ := bind_ok.1 h
    obtain ⟨i', hi, h⟩ := bind_ok.1 h
    simp only [pure, Except.pure, Except.ok.injEq, Option.some.injEq, Prod.mk.injEq] at h
    obtain ⟨rfl, rfl, rfl⟩ := h
    obtain ⟨v1, -⟩ := lstsq_values hf
    exact ⟨by rw [v1]; exact hi, fun hn => absurd hn h1, fun _ => rfl, fun _ _ hn => absurd hn h3⟩
  · rcases hp : cfg.g0Bounds with _ | gb
    · rw [hp] at h; simp at h
    · rw [hp] at h
      obtain ⟨f', hf, h⟩ := bind_ok.1 h
      obtain ⟨i', hi, h⟩ := bind_ok.1 h
      simp only [pure, Except.pure, Except.ok.injEq, Option.some.injEq, Prod.mk.injEq] at h
      obtain ⟨rfl, rfl, rfl⟩ := h
      obtain ⟨v1, -⟩ := lstsq_values hf
      refine ⟨by rw [v1]; exact hi, fun hn => absurd hn h1, ?_, fun _ hn => absurd hn h2⟩
      intro hn; simp [recordOnce, hn]

theorem dumpFile_good {io : List Char → Py Unit} (hio : ∀ n, io n = .ok ()) {tpl : List Char}
    (h : GoodTemplate tpl) (l : List Char) (d : Dumped) :
    ∃ files, dumpFile io tpl l d = .ok files ∧
      (∀ a b, Template tpl a b → files = [(a ++ l ++ b, d)]) ∧ (tpl = [] → files = []) := by
  rcases h with rfl | ⟨a, b, h⟩
  · exact ⟨[], by simp [dumpFile], fun a b h => absurd rfl (template_ne h), fun _ => rfl⟩
  · refine ⟨[(a ++ l ++ b, d)], ?_, ?_, fun e => absurd e (template_ne h)⟩
    · simp [dumpFile, template_ne h, percent_template h, hio, bind, Except.bind, pure, Except.pure]
    · intro a' b' h'
      have := percent_template h l
      rw [percent_template h' l, Except.ok.injEq] at this
      rw [this]

/-- The files of a band with a fit. -/
theorem dumpAll_good {io : List Char → Py Unit} (hio : ∀ n, io n = .ok ()) {dc : DumpCfg}
    (h1 : GoodTemplate dc.optpkl) (h2 : GoodTemplate dc.fitpkl) {bd : Band} {p : String × String}
    {r : List (String × String)} (hbd : bd.pairs = p :: r) (es : List FitTrace) (band : ℝ × ℝ)
    (f : Fit) (info : Info) (rs : Records) :
    ∃ A B, dumpAll io dc cfg bd es band f info rs = (A ++ B, .ok ()) ∧
      (∀ a b, Template dc.optpkl a b →
        A = [(a ++ bandName p.1 band ++ b, .opt rs.record rs.tried bd.pairs)]) ∧
      (dc.optpkl = [] → A = []) ∧
      (∀ a b, Template dc.fitpkl a b → B = [(a ++ bandName p.1 band ++ b,
        .fit es f.g0 f.b ((eventids bd).zip f.W) ((stations bd).zip f.R) cfg.v0 info)]) ∧
      (dc.fitpkl = [] → B = []) := by
  unfold dumpAll
  split_ifs with h
  · exact ⟨[], [], rfl, fun a b ht => absurd h.1 (template_ne ht), fun _ => rfl,
      fun a b ht => absurd h.2 (template_ne ht), fun _ => rfl⟩
  · rw [hbd]
    obtain ⟨A, a1, a2, a3⟩ := dumpFile_good hio h1 (dumpLabel p.1 band)
      (.opt rs.record rs.tried (p :: r))
    obtain ⟨B, b1, b2, b3⟩ := dumpFile_good hio h2 (dumpLabel p.1 band)
      (.fit es f.g0 f.b ((eventids bd).zip f.W) ((stations bd).zip f.R) cfg.v0 info)
    rw [dumpLabel_eq] at a2 b2
    simp only [a1, b1]
    exact ⟨A, B, rfl, a2, a3, b2, b3⟩

end FigBand

/-- **C127** (part): dumps do not change the result of a band if the names of the files have one place
for the band and the files can be written.  Missing: other names and files. -/
theorem C127_result_unchanged_partial (s : Search) {bd : Band} (hbd : bd.pairs ≠ [])
    {dc : DumpCfg} (h1 : GoodTemplate dc.optpkl) (h2 : GoodTemplate dc.fitpkl)
    {io : List Char → Py Unit} (hio : ∀ n, io n = .ok ()) (es : List FitTrace) (band : ℝ × ℝ) :
    (solveBandDump wls G s cfg bd dc io es band).2 =
      solveBand wls G (fun f => s.run f) cfg bd := by
  obtain ⟨p, r, hp⟩ := List.exists_cons_of_ne_nil hbd
  unfold solveBand
  rw [← fitRec_fst s bd dc]
  unfold solveBandDump
  rcases fitRec wls G s cfg bd dc with e | _ | ⟨f, info, rs⟩
  · rfl
  · rfl
  · obtain ⟨A, B, h, -⟩ := dumpAll_good (cfg := cfg) hio h1 h2 hp es band f info rs
    simp only [h]
    rfl

/-- **C127**: the dump of the fit of a band is written to a file named by the first event and the band,
and it contains the attenuation, source energies, site responses and velocity which are reported for
the band together with the windows of the fit. -/
theorem C127_fit (s : Search) {bd : Band} {p : String × String} {r : List (String × String)}
    (hbd : bd.pairs = p :: r) {dc : DumpCfg} (h1 : GoodTemplate dc.optpkl) {a b : List Char}
    (h2 : Template dc.fitpkl a b) {io : List Char → Py Unit} (hio : ∀ n, io n = .ok ())
    {es : List FitTrace} {band : ℝ × ℝ} {files : List (List Char × Dumped)} {res : BandResult}
    (h : solveBandDump wls G s cfg bd dc io es band = (files, .ok (some res))) :
    ∃ g0 b' W R info, (a ++ bandName p.1 band ++ b, .fit es g0 b' W R res.v0 info) ∈ files ∧
      attenuation cfg res = (some g0, some b') ∧ infoOf G cfg bd g0 = .ok info ∧
      (∀ W', res.W = some W' → W = W') ∧ (∀ R', res.R = some R' → R = R') := by
  unfold solveBandDump at h
  rcases hf : fitRec wls G s cfg bd dc with e | _ | ⟨f, info, rs⟩
  · rw [hf] at h; simp at h
  · rw [hf] at h; simp at h
  · rw [hf] at h
    obtain ⟨A, B, hd, -, -, hB, -⟩ := dumpAll_good (cfg := cfg) hio h1 (Or.inr ⟨a, b, h2⟩) hbd es band f info rs
    simp only [hd, Prod.mk.injEq, Except.ok.injEq] at h
    obtain ⟨hi, hx, -, -⟩ := fitRec_some hf
    obtain ⟨-, r1, r2, r3, r4, -, -, r7⟩ := report_some h.2
    refine ⟨f.g0, f.b, (eventids bd).zip f.W, (stations bd).zip f.R, info, ?_, ?_, hi, ?_, ?_⟩
    · rw [← h.1, hB a b h2, r7]; simp
    · unfold attenuation
      cases hfx : cfg.fix with
      | true => simp [hx hfx]
      | false => simp [r1, r2, hfx]
    · intro W' hW
      rw [r3] at hW
      split_ifs at hW
      exact Option.some.inj hW
    · intro R' hR
      rw [r4] at hR
      split_ifs at hR
      exact Option.some.inj hR

/-- **C127**: bands which are skipped because the parameters are near the bounds are dumped as well;
the dump contains the rejected parameters. -/
theorem C127_skipped (s : Search) {bd : Band} {p : String × String} {r : List (String × String)}
    (hbd : bd.pairs = p :: r) {dc : DumpCfg} (h1 : GoodTemplate dc.optpkl) {a b : List Char}
    (h2 : Template dc.fitpkl a b) {io : List Char → Py Unit} (hio : ∀ n, io n = .ok ())
    {es : List FitTrace} {band : ℝ × ℝ} {files : List (List Char × Dumped)}
    (hfix : cfg.fix = false)
    (h : solveBandDump wls G s cfg bd dc io es band = (files, .ok none)) :
    ∃ g0 b' W R info, (a ++ bandName p.1 band ++ b, .fit es g0 b' W R cfg.v0 info) ∈ files ∧
      ((∃ lo hi, cfg.bBounds = some (lo, hi) ∧ ¬ (1.01 * lo < b' ∧ b' < 0.99 * hi)) ∨
       (∃ lo hi, cfg.g0Bounds = some (lo, hi) ∧ ¬ (1.01 * lo < g0 ∧ g0 < 0.99 * hi))) := by
  have hs := C127_result_unchanged_partial (wls := wls) (G := G) (cfg := cfg) s (bd := bd)
    (by rw [hbd]; simp) h1 (Or.inr ⟨a, b, h2⟩) hio es band
  rw [h] at hs
  rcases InvertFb.suppressed_bandFit hs.symm with hn | ⟨f, hf, hb⟩
  · rw [hfix] at hn; simp at hn
  · rw [← fitRec_fst s bd dc] at hf
    unfold solveBandDump at h
    rcases hfr : fitRec wls G s cfg bd dc with e | _ | ⟨f', info, rs⟩
    · rw [hfr] at hf; simp [Except.map] at hf
    · rw [hfr] at hf; simp [Except.map] at hf
    · rw [hfr] at hf h
      simp only [Except.map, Option.map_some, Except.ok.injEq, Option.some.injEq] at hf
      subst hf
      obtain ⟨A, B, hd, -, -, hB, -⟩ := dumpAll_good (cfg := cfg) hio h1 (Or.inr ⟨a, b, h2⟩) hbd es band f' info rs
      simp only [hd, Prod.mk.injEq] at h
      refine ⟨f'.g0, f'.b, (eventids bd).zip f'.W, (stations bd).zip f'.R, info, ?_, hb⟩
      rw [← h.1, hB a b h2]; simp

/-- **C127** (part): with `plot_optimization` the dump of the optimisation contains all values of g0
for which the optimiser asked inside of the bounds, in this order, with their misfits, and the fits for
different ones of these values and for the result.  Missing: the same without
`plot_optimization`. -/
theorem C127_optimisation_partial (s : Search) {bd : Band} {p : String × String}
    {r : List (String × String)} (hbd : bd.pairs = p :: r) {dc : DumpCfg} {a b : List Char}
    (h1 : Template dc.optpkl a b) (h2 : GoodTemplate dc.fitpkl) {io : List Char → Py Unit}
    (hio : ∀ n, io n = .ok ()) {es : List FitTrace} {band : ℝ × ℝ}
    {files : List (List Char × Dumped)} {res : Option BandResult} (hfix : cfg.fix = false)
    (hopt : cfg.optimize = true) (hp : dc.plotOptimization = true) (hnum : 1 ≤ dc.num)
    (h : solveBandDump wls G s cfg bd dc io es band = (files, .ok res)) :
    ∃ record tried, (a ++ bandName p.1 band ++ b, .opt record tried bd.pairs) ∈ files ∧
      List.Forall₂ (fun x q => q.2 = x ∧ objective wls G cfg bd x = .ok q.1)
        (allowedOnly cfg (asked (objective wls G cfg bd) s)) tried ∧
      (∀ q ∈ record, lstsq wls G cfg bd q.fit.g0 none false = .ok q.fit ∧
        infoOf G cfg bd q.fit.g0 = .ok q.info) ∧
      (record.map (fun q => q.fit.g0)).Nodup ∧ record.length ≤ dc.num ∧
      (∀ x, res.bind BandResult.g0 = some x → x ∈ record.map (fun q => q.fit.g0)) := by
  unfold solveBandDump at h
  rcases hf : fitRec wls G s cfg bd dc with e | _ | ⟨f, info, rs⟩
  · rw [hf] at h; simp at h
  · exfalso
    unfold fitRec at hf
    simp only [hfix, hopt, hp, Bool.false_eq_true, if_false, if_true] at hf
    obtain ⟨fr, -, hf⟩ := bind_ok.1 hf
    obtain ⟨i, -, hf⟩ := bind_ok.1 hf
    simp [pure, Except.pure] at hf
  · rw [hf] at h
    obtain ⟨A, B, hd, hA, -⟩ := dumpAll_good (cfg := cfg) hio (Or.inr ⟨a, b, h1⟩) h2 hbd es band f info rs
    simp only [hd, Prod.mk.injEq, Except.ok.injEq] at h
    obtain ⟨-, -, -, ho⟩ := fitRec_some hf
    obtain ⟨i1, i2, i3, i4, i5, -⟩ := optimiseRec_inv hnum hfix (ho hfix hopt hp)
    refine ⟨rs.record, rs.tried, ?_, i1, i2, i3, i4, ?_⟩
    · rw [← h.1, hA a b h1]; simp
    · intro x hy
      rcases res with _ | res
      · simp at hy
      · obtain ⟨-, r1, -⟩ := report_some h.2
        simp only [Option.bind_some, r1, hfix, Bool.not_false, if_true, Option.some.injEq] at hy
        rw [← hy]; exact i5

/-- **C127** (part): dumps of different events or of bands whose limits differ by 0.01 Hz or more are
written to different files.  Missing: bands which are closer. -/
theorem C127_different_files_partial {tpl a b : List Char} (ht : Template tpl a b) (e e' : String)
    (band band' : ℝ × ℝ) (hp : 0 ≤ band.1 ∧ 0 ≤ band.2 ∧ 0 ≤ band'.1 ∧ 0 ≤ band'.2)
    (h : e ≠ e' ∨ 0.01 ≤ |band.1 - band'.1| ∨ 0.01 ≤ |band.2 - band'.2|) :
    percent tpl (dumpLabel e band) ≠ percent tpl (dumpLabel e' band') := by
  rw [percent_template ht, percent_template ht]
  intro heq
  simp only [Except.ok.injEq] at heq
  have heq := List.append_cancel_left (List.append_cancel_right heq)
  have hl : ∀ (e : String) (band : ℝ × ℝ),
      dumpLabel e band ++ ".png".toList = e.toList ++ '_' :: tailOf band := by
    intro e band
    have h1 : "Hz".toList = ['H', 'z'] := rfl
    have h2 : ".png".toList = ['.', 'p', 'n', 'g'] := rfl
    have h3 : "Hz.png".toList = ['H', 'z', '.', 'p', 'n', 'g'] := rfl
    simp [dumpLabel, tailOf, h1, h2, h3]
  have heq : dumpLabel e band ++ ".png".toList = dumpLabel e' band' ++ ".png".toList := by rw [heq]
  rw [hl, hl] at heq
  obtain ⟨h1, h2, h3⟩ := tail_split heq
  rcases h with h | h | h
  · exact h (String.ext h1)
  · exact hundredths_ne hp.1 hp.2.2.1 h h2
  · exact hundredths_ne hp.2.1 hp.2.2.2 h h3

/-! ## Examples -/

namespace DumpExample

/-- The template `fit_%s.pkl`. -/
theorem template : Template "fit_%s.pkl".toList "fit_".toList ".pkl".toList := by
  rfl

/-- A percent sign in a name: `fit_100%%_%s.pkl`. -/
theorem template_percent :
    Template "fit_100%%_%s.pkl".toList "fit_100%_".toList ".pkl".toList := by
  rfl

theorem template' : Template "opt_%s.pkl".toList "opt_".toList ".pkl".toList := by
  rfl

/-- Both dumps are requested. -/
def both (plot : Bool) : DumpCfg := ⟨"opt_%s.pkl".toList, "fit_%s.pkl".toList, plot, 7⟩

end DumpExample

open InvertExample DumpExample in
/-- A band with a result: both files are written. -/
example (s : Search) : ∃ files res W,
    solveBandDump someWls G1 s cfg1 (bandOf cfg1.bulk ps1) (both false) (fun _ => .ok ()) [] (1.5, 3) =
      (files, .ok (some res)) ∧ res.W = some W ∧
    ∃ R info, ("fit_".toList ++ bandName "e1" (1.5, 3) ++ ".pkl".toList,
      .fit [] 1 1 W R res.v0 info) ∈ files := by
  obtain ⟨res, R', W', h, hatt, -, -, -, hW, -⟩ := example_result (fun f => s.run f)
  have hbd : (bandOf cfg1.bulk ps1).pairs = ("e1", "A") :: (ps1.tail.map PairData.pair) := rfl
  have hr := C127_result_unchanged_partial (wls := someWls) (G := G1) (cfg := cfg1) s
    (bd := bandOf cfg1.bulk ps1) (by rw [hbd]; simp) (dc := both false) (Or.inr ⟨_, _, template'⟩)
    (Or.inr ⟨_, _, template⟩) (io := fun _ => .ok ()) (fun _ => rfl) [] (1.5, 3)
  rw [h] at hr
  cases hs : solveBandDump someWls G1 s cfg1 (bandOf cfg1.bulk ps1) (both false) (fun _ => .ok ()) []
      (1.5, 3) with
  | mk files r =>
    rw [hs] at hr
    dsimp only at hr
    subst hr
    obtain ⟨g0, b', W, R, info, hm, ha, -, hW', -⟩ := C127_fit s hbd (Or.inr ⟨_, _, template'⟩)
      template (fun _ => rfl) hs
    rw [hatt] at ha
    simp only [Prod.mk.injEq, Option.some.injEq] at ha
    obtain ⟨rfl, rfl⟩ := ha
    obtain rfl := hW' W' hW
    exact ⟨files, res, W, rfl, hW, R, info, hm⟩

example : percent "opt_%s.pkl".toList (dumpLabel "ev1" (1.5, 3)) ≠
    percent "opt_%s.pkl".toList (dumpLabel "ev2" (1.5, 3)) :=
  C127_different_files_partial DumpExample.template' _ _ _ _ (by norm_num) (Or.inl (by decide))

/-- The names are `opt_ev1_01.50Hz-03.00Hz.pkl`. -/
example : percent "opt_%s.pkl".toList (dumpLabel "ev1" (1.5, 3)) =
    .ok "opt_ev1_01.50Hz-03.00Hz.pkl".toList := by
  have h1 : hundredths 1.5 = 150 := hundredths_eq (by norm_num)
  have h2 : hundredths 3 = 300 := hundredths_eq (by norm_num)
  have s1 : show2 150 = ['0', '1', '.', '5', '0'] := by norm_num [show2, intDigits]
  have s2 : show2 300 = ['0', '3', '.', '0', '0'] := by norm_num [show2, intDigits]
  rw [percent_template DumpExample.template', dumpLabel]
  simp only [h1, h2, s1, s2]
  rfl

namespace DumpExample

open InvertExample OptExample

theorem fitOpt (plot : Bool) : ∃ info rs,
    fitRec someWls G2 search2 cfgOpt (bandOf cfgOpt.bulk ps1) (both plot) =
      .ok (some (⟨0, 1 / 2, 1 - 1 / 2, [1, 3], [2, 1 / 2]⟩, info, rs)) := by
  have h := fitRec_fst (wls := someWls) (G := G2) (cfg := cfgOpt) search2 (bandOf cfgOpt.bulk ps1)
    (both plot)
  obtain ⟨i, i', hr⟩ := run2
  rw [← C124_same_result _ _ _ 7 search2 rfl rfl, hr] at h
  rcases hf : fitRec someWls G2 search2 cfgOpt (bandOf cfgOpt.bulk ps1) (both plot) with
    e | _ | ⟨f, info, rs⟩
  · rw [hf] at h; simp [Except.map] at h
  · rw [hf] at h; simp [Except.map] at h
  · rw [hf] at h
    simp only [Except.map, Option.map_some, Except.ok.injEq, Option.some.injEq] at h
    subst h
    exact ⟨info, rs, rfl⟩

theorem skippedOpt (plot : Bool) : ∃ files,
    solveBandDump someWls G2 search2 cfgOpt (bandOf cfgOpt.bulk ps1) (both plot) (fun _ => .ok ()) []
      (1.5, 3) = (files, .ok none) := by
  obtain ⟨info, rs, hf⟩ := fitOpt plot
  have hbd : (bandOf cfgOpt.bulk ps1).pairs = ("e1", "A") :: (ps1.tail.map PairData.pair) := rfl
  obtain ⟨A, B, hd, -⟩ := dumpAll_good (cfg := cfgOpt) (io := fun _ => .ok ()) (fun _ => rfl)
    (dc := both plot) (Or.inr ⟨_, _, template'⟩) (Or.inr ⟨_, _, template⟩) hbd [] (1.5, 3)
    ⟨0, 1 / 2, 1 - 1 / 2, [1, 3], [2, 1 / 2]⟩ info rs
  refine ⟨A ++ B, ?_⟩
  unfold solveBandDump
  simp only [hf, hd]
  have hn : nearBounds cfgOpt (1 - 1 / 2) (1 / 2) := Or.inr ⟨_, rfl, by norm_num⟩
  unfold report
  simp only [if_pos hn]

end DumpExample

open InvertExample OptExample DumpExample in
/-- The band is skipped, the dump exists and contains the two steps inside of the bounds. -/
example : ∃ files, solveBandDump someWls G2 search2 cfgOpt (bandOf cfgOpt.bulk ps1) (both true)
      (fun _ => .ok ()) [] (1.5, 3) = (files, .ok none) ∧
    (∃ g0 b W R v0 info, ("fit_".toList ++ bandName "e1" (1.5, 3) ++ ".pkl".toList,
      .fit [] g0 b W R v0 info) ∈ files) ∧
    ∃ record tried pairs, ("opt_".toList ++ bandName "e1" (1.5, 3) ++ ".pkl".toList,
      .opt record tried pairs) ∈ files ∧ tried.map Prod.snd = [1 / 2, 3 / 2] := by
  obtain ⟨files, h⟩ := skippedOpt true
  have hbd : (bandOf cfgOpt.bulk ps1).pairs = ("e1", "A") :: (ps1.tail.map PairData.pair) := rfl
  obtain ⟨g0, b, W, R, info, hm, -⟩ := C127_skipped search2 hbd (Or.inr ⟨_, _, template'⟩) template
    (fun _ => rfl) rfl h
  obtain ⟨record, tried, hm', ht, -⟩ := C127_optimisation_partial search2 hbd template'
    (Or.inr ⟨_, _, template⟩) (fun _ => rfl) rfl rfl rfl (by decide) h
  refine ⟨files, h, ⟨_, _, _, _, _, _, hm⟩, record, tried, _, hm', ?_⟩
  rw [asked2] at ht
  have hal : allowedOnly cfgOpt [1 / 2, 3 / 2, 2] = [1 / 2, 3 / 2] := by
    have h1 : allowed cfgOpt (1 / 2) := by
      by_contra hn; rw [← outOfBounds_iff, bound2] at hn; norm_num at hn
    have h2 : allowed cfgOpt (3 / 2) := by
      by_contra hn; rw [← outOfBounds_iff, bound2] at hn; norm_num at hn
    have h3 : ¬ allowed cfgOpt 2 := by
      rw [← outOfBounds_iff, bound2]; norm_num
    unfold allowedOnly
    rw [List.filter_cons_of_pos (by simpa using h1), List.filter_cons_of_pos (by simpa using h2),
      List.filter_cons_of_neg (by simpa using h3), List.filter_nil]
  rw [hal] at ht
  generalize tried = l at ht
  cases ht with
  | cons q1 ht => cases ht with
    | cons q2 ht => cases ht; simp [q1.1, q2.1]

/-! ## Where the dumps fail -/

open InvertExample OptExample DumpExample in
/-- **C127** fails without `plot_optimization`: the optimiser asked for the misfit at three values, two
of them inside of the bounds, and the dump of the optimisation is empty. -/
theorem C127_empty_counterexample : ∃ files,
    solveBandDump someWls G2 search2 cfgOpt (bandOf cfgOpt.bulk ps1) (both false) (fun _ => .ok ()) []
      (1.5, 3) = (files, .ok none) ∧
    asked (objective someWls G2 cfgOpt (bandOf cfgOpt.bulk ps1)) search2 = [1 / 2, 3 / 2, 2] ∧
    ("opt_".toList ++ bandName "e1" (1.5, 3) ++ ".pkl".toList,
      .opt [] [] (bandOf cfgOpt.bulk ps1).pairs) ∈ files := by
  obtain ⟨files, h⟩ := skippedOpt false
  refine ⟨files, h, asked2, ?_⟩
  obtain ⟨info, rs, hf⟩ := fitOpt false
  obtain ⟨-, -, he, -⟩ := fitRec_some hf
  obtain rfl := he rfl
  have hbd : (bandOf cfgOpt.bulk ps1).pairs = ("e1", "A") :: (ps1.tail.map PairData.pair) := rfl
  obtain ⟨A, B, hd, hA, -⟩ := dumpAll_good (cfg := cfgOpt) (io := fun _ => .ok ()) (fun _ => rfl)
    (dc := both false) (Or.inr ⟨_, _, template'⟩) (Or.inr ⟨_, _, template⟩) hbd [] (1.5, 3)
    ⟨0, 1 / 2, 1 - 1 / 2, [1, 3], [2, 1 / 2]⟩ info {}
  unfold solveBandDump at h
  simp only [hf, hd, Prod.mk.injEq] at h
  rw [← h.1, hA _ _ template']
  simp

open InvertExample in
/-- **C127** fails for a name without place for the band, as `fit.pkl`: the band has a result, with the
dump it ends with a `TypeError` instead. -/
theorem C127_name_counterexample (s : Search) : ∃ res,
    solveBand someWls G1 (fun f => s.run f) cfg1 (bandOf cfg1.bulk ps1) = .ok (some res) ∧
    solveBandDump someWls G1 s cfg1 (bandOf cfg1.bulk ps1) { fitpkl := "fit.pkl".toList }
      (fun _ => .ok ()) [] (1.5, 3) = ([], .error .typeError) := by
  obtain ⟨res, R', W', h, -⟩ := example_result (fun f => s.run f)
  refine ⟨res, h, ?_⟩
  have hf := fitRec_fst (wls := someWls) (G := G1) (cfg := cfg1) s (bandOf cfg1.bulk ps1)
    { fitpkl := "fit.pkl".toList }
  obtain ⟨of, hb, h2⟩ := bind_ok.1 h
  rw [hb] at hf
  rcases hfr : fitRec someWls G1 s cfg1 (bandOf cfg1.bulk ps1) { fitpkl := "fit.pkl".toList } with
    e | _ | ⟨f, info, rs⟩
  · rw [hfr] at hf; simp [Except.map] at hf
  · rw [hfr] at hf
    simp only [Except.map, Option.map_none, Except.ok.injEq] at hf
    subst hf; simp [pure, Except.pure] at h2
  · unfold solveBandDump
    simp only [hfr]
    have hp : ∀ l, percent "fit.pkl".toList l = .error .typeError := by
      intro l
      unfold percent
      rw [show "fit.pkl".toList = quoted "fit.pkl".toList from rfl, parse_text]
      rfl
    have hbd : (bandOf cfg1.bulk ps1).pairs = ("e1", "A") :: (ps1.tail.map PairData.pair) := rfl
    have hne : "fit.pkl".toList ≠ [] := by decide
    simp only [dumpAll, hbd, dumpFile, hp, hne, if_false, and_false, if_true, bind, Except.bind]

end Qopen
