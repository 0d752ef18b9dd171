import Verif.Props.Tables
import Verif.Props.Windows

/-!
# C27, C29: fixed attenuation of a band, number of pairs in a band
-/

namespace Qopen

open Real Util Tr Energy InvertFb Window Invert Freqs Catalog Source

/-! ## C29 -/

/-- **C29** (band) A band is skipped if no pair or fewer than `skip['num_pairs']` pairs pass all
checks, otherwise it is inverted. -/
theorem C29_band {lib : Lib} {wls : List ℝ → List (List ℝ) → List ℝ → List ℝ × ℝ}
    {G : Greens} {minimize : (ℝ → Py (WithTop ℝ)) → Py ℝ} {cfg : WCfg} {inv : Cfg}
    {streams : List Stream} {trs : List Trace} {v0 : ℝ} {st : WState} (hne : streams ≠ [])
    (hnd : (trs.map Trace.pair).Nodup)
    (he : energies lib cfg streams = .ok trs) (hv : velocity cfg trs = some v0)
    (hw : windows lib cfg v0 trs = .ok st) :
    ((({tr | tr ∈ trs ∧ ∃ p, Spec.Accepts lib cfg v0 tr p} : Set Trace).ncard = 0 ∨
        (({tr | tr ∈ trs ∧ ∃ p, Spec.Accepts lib cfg v0 tr p} : Set Trace).ncard : ℝ) < cfg.numPairs) →
      invertFb lib wls G minimize cfg inv streams = .ok none) ∧
    (¬ (({tr | tr ∈ trs ∧ ∃ p, Spec.Accepts lib cfg v0 tr p} : Set Trace).ncard = 0 ∨
        (({tr | tr ∈ trs ∧ ∃ p, Spec.Accepts lib cfg v0 tr p} : Set Trace).ncard : ℝ) < cfg.numPairs) →
      invertFb lib wls G minimize cfg inv streams =
        solveBand wls G minimize (fullCfg cfg inv v0) st.band) := by
  obtain ⟨sel, h1, h2, h3, -, -, h6, -⟩ := C18_windows_belong_to_pairs hnd hw
  have hset : ({tr | tr ∈ trs ∧ ∃ p, Spec.Accepts lib cfg v0 tr p} : Set Trace) =
      {tr | tr ∈ sel.map Prod.fst} := by
    ext tr
    simp only [Set.mem_setOf_eq]
    constructor
    · rintro ⟨ht, p, hp⟩
      by_contra hn
      exact h3 tr ht hn p hp
    · intro ht
      obtain ⟨q, hq, rfl⟩ := List.mem_map.1 ht
      exact ⟨h1.subset ht, q.2, h2 q hq⟩
  have hcard : ({tr | tr ∈ trs ∧ ∃ p, Spec.Accepts lib cfg v0 tr p} : Set Trace).ncard =
      st.Ecoda.length := by
    classical
    rw [hset, h6]
    have hn : (sel.map Prod.fst).Nodup := (List.Nodup.of_map _ hnd).sublist h1
    have : ({tr | tr ∈ sel.map Prod.fst} : Set Trace) = ((sel.map Prod.fst).toFinset : Set Trace) := by
      ext; simp
    rw [this, Set.ncard_coe_finset, List.toFinset_card_of_nodup hn]
    simp [Spec.bandOf]
  rw [hcard]
  unfold invertFb
  rw [if_neg hne, he]
  simp only [bind, Except.bind, hv, hw]
  constructor
  · intro h
    rw [if_pos h]; rfl
  · intro h
    rw [if_neg h]

/-! ## C27 -/

namespace Invert

theorem mem_set {κ α : Type} [DecidableEq κ] {d : Dict κ α} {k : κ} {v : α} {x : κ × α}
    (h : x ∈ d.set k v) : x ∈ d ∨ x = (k, v) := by
  induction d with
  | nil =>
    simp only [Dict.set, List.mem_singleton] at h
    exact Or.inr h
  | cons y d ih =>
    obtain ⟨k', v'⟩ := y
    unfold Dict.set at h
    split at h
    · rename_i hk
      rcases List.mem_cons.1 h with rfl | h
      · exact Or.inr (by simp [hk])
      · exact Or.inl (by simp [h])
    · rcases List.mem_cons.1 h with rfl | h
      · exact Or.inl (by simp)
      · rcases ih h with h | h
        · exact Or.inl (by simp [h])
        · exact Or.inr h

theorem mkDict_all {P : ℝ × (ℝ × ℝ) → Prop} {l : List (ℝ × (ℝ × ℝ))} (hl : ∀ x ∈ l, P x) :
    (∀ x ∈ mkDict l, P x) ∧ (mkDict l).WF := by
  unfold mkDict
  have key : ∀ d : Dict ℝ (ℝ × ℝ), (∀ x ∈ d, P x) → d.WF →
      (∀ x ∈ l.foldl (fun d kv => d.set kv.1 kv.2) d, P x) ∧
      Dict.WF (l.foldl (fun d kv => d.set kv.1 kv.2) d) := by
    induction l with
    | nil => intro d hd hw; exact ⟨hd, hw⟩
    | cons a l ih =>
      intro d hd hw
      rw [List.foldl_cons]
      refine ih (fun x hx => hl x (by simp [hx])) _ ?_ (Dict.WF_set hw _ _)
      intro x hx
      rcases mem_set hx with hx | rfl
      · exact hd x hx
      · exact hl a (by simp)
  exact key [] (by simp) (by simp [Dict.WF])

/-- The bands have distinct frequencies, which are the centres of the bands. -/
theorem bands_spec {o : FreqOpt} {bands : Dict ℝ (ℝ × ℝ)} (h : getFreqs o = .ok bands) :
    (∀ x ∈ bands, x.1 = 0.5 * (x.2.1 + x.2.2)) ∧ bands.WF := by
  have hof : ∀ cf width, (∀ x ∈ bandsOf cf width, x.1 = 0.5 * (x.2.1 + x.2.2)) ∧
      (bandsOf cf width).WF := by
    intro cf width
    apply mkDict_all
    intro x hx
    obtain ⟨f, -, rfl⟩ := List.mem_map.1 hx
    simp only
    ring
  cases o with
  | series a b c w =>
    obtain ⟨cf, -, h⟩ := bind_ok.1 h
    simp only [pure, Except.pure, Except.ok.injEq] at h
    rw [← h]
    exact hof cf w
  | cfreqs l w =>
    simp only [getFreqs, Except.ok.injEq] at h
    rw [← h]
    exact hof l w
  | fbands l =>
    simp only [getFreqs, Except.ok.injEq] at h
    rw [← h]
    apply mkDict_all
    intro x hx
    obtain ⟨f, -, rfl⟩ := List.mem_map.1 hx
    rfl

theorem dictGet_ok {κ α : Type} [DecidableEq κ] {d : Dict κ α} {k : κ} {v : α}
    (h : dictGet d k = .ok v) : d.get? k = some v := by
  unfold dictGet at h
  split at h
  · rename_i w hw
    rw [hw]; cases h; rfl
  · simp at h

open Classical in
/-- A loop which stores a value for the band of each frequency. -/
theorem bandFold {β γ : Type} {bands : Dict ℝ (ℝ × ℝ)} (fr : β → ℝ) (val : β → Py γ)
    (hc : ∀ x ∈ bands, x.1 = 0.5 * (x.2.1 + x.2.2)) (L : List β) (hn : (L.map fr).Nodup)
    {d d' : Dict (ℝ × ℝ) γ}
    (h : L.foldlM (fun d x => do
      let band ← dictGet bands (fr x)
      let v ← val x
      return Dict.set d band v) d = .ok d') :
    (∀ x ∈ L, ∃ band v, (fr x, band) ∈ bands ∧ val x = .ok v ∧ d'.get? band = some v) ∧
    ∀ k, (∀ x ∈ L, (fr x, k) ∉ bands) → d'.get? k = d.get? k := by
  induction L generalizing d with
  | nil =>
    simp only [List.foldlM_nil, pure, Except.pure, Except.ok.injEq] at h
    subst h
    simp
  | cons x L ih =>
    rw [List.map_cons, List.nodup_cons] at hn
    rw [List.foldlM_cons] at h
    obtain ⟨m, hm, h⟩ := bind_ok.1 h
    obtain ⟨band, hb, hm⟩ := bind_ok.1 hm
    obtain ⟨v, hv, hm⟩ := bind_ok.1 hm
    simp only [pure, Except.pure, Except.ok.injEq] at hm
    subst hm
    have hmem := Dict.mem_of_get? (dictGet_ok hb)
    obtain ⟨h1, h2⟩ := ih hn.2 h
    constructor
    · intro y hy
      rcases List.mem_cons.1 hy with rfl | hy
      · refine ⟨band, v, hmem, hv, ?_⟩
        rw [h2, Dict.get?_set_self]
        intro z hz hzb
        apply hn.1
        have e1 := hc _ hmem
        have e2 := hc _ hzb
        simp only at e1 e2
        rw [e1, ← e2]
        exact List.mem_map.2 ⟨z, hz, rfl⟩
      · exact h1 y hy
    · intro k hk
      rw [h2 k (fun z hz => hk z (by simp [hz])), Dict.get?_set_ne]
      rintro rfl
      exact hk x (by simp) hmem

theorem fixCell_ok {c : Cell} {o : Option ℝ} (h : fixCell c = .ok o) : o = c.val? := by
  cases c with
  | none => simp only [fixCell, Except.ok.injEq] at h; rw [← h]; rfl
  | num x => simp only [fixCell, Except.ok.injEq] at h; rw [← h]; rfl
  | nan => simp [fixCell] at h

theorem siteFold {i : ℕ} {R : Dict String (List Cell)} {l : List (Option (String × ℝ))}
    (hR : R.WF) (h : mapExc (siteEntry i) R = .ok l) (sta : String) :
    Dict.get? (l.filterMap id) sta = (R.get? sta).bind (fun row => (row[i]?).bind Cell.val?) := by
  induction R generalizing l with
  | nil =>
    simp only [mapExc, Except.ok.injEq] at h
    subst h
    rfl
  | cons x R ih =>
    obtain ⟨k, row⟩ := x
    have hc : mapExc (siteEntry i) ((k, row) :: R) = (do
      let b ← siteEntry i (k, row)
      let bs ← mapExc (siteEntry i) R
      return b :: bs) := rfl
    rw [hc] at h
    obtain ⟨b, hb, h⟩ := bind_ok.1 h
    obtain ⟨bs, hbs, h⟩ := bind_ok.1 h
    simp only [pure, Except.pure, Except.ok.injEq] at h
    subst h
    unfold siteEntry at hb
    obtain ⟨c, hcc, hb⟩ := bind_ok.1 hb
    simp only [pure, Except.pure, Except.ok.injEq] at hb
    have hrow := pyGet_ok.1 hcc
    unfold Dict.WF at hR
    rw [Dict.keys_cons, List.nodup_cons] at hR
    have ih := ih hR.2 hbs
    rw [Dict.get?_cons]
    cases hv : c.val? with
    | none =>
      rw [hv] at hb
      simp only [Option.map_none] at hb
      subst hb
      rw [List.filterMap_cons_none rfl]
      split
      · rename_i hk
        rw [ih, ← hk, (Dict.get?_eq_none R _).2 hR.1]
        simp [hrow, hv]
      · exact ih
    | some x =>
      rw [hv] at hb
      simp only [Option.map_some] at hb
      subst hb
      have e : List.filterMap id (some (k, x) :: bs) = (k, x) :: List.filterMap id bs := rfl
      rw [e]
      rw [Dict.get?_cons]
      split
      · simp [hrow, hv]
      · exact ih

end Invert

namespace Spec

/-- The `i`-th entries of the input belong to the frequency `f`. -/
structure FixEntry (fp : FixInput) (f : ℝ) (g b : Option ℝ) (R : String → Option ℝ) : Prop where
  entry : ∃ i : ℕ, fp.freq[i]? = some f ∧ (fp.g0[i]?).map Cell.val? = some g ∧
    (fp.b[i]?).map Cell.val? = some b ∧
    ∀ sta, R sta = (fp.R.get? sta).bind (fun row => (row[i]?).bind Cell.val?)

end Spec

/-- **C27** With commands `fixed` and `source` every band is inverted with the scattering
coefficient and attenuation which the input has for the central frequency of this band, and with
command `source` with the site responses which the input has for this frequency. -/
theorem C27_right_band {env : Env} {cfg : InvCfg} {bands : Dict ℝ (ℝ × ℝ)} {args : BandArgs}
    {fp : FixInput} (hb : getFreqs cfg.freqs = .ok bands) (hin : cfg.input = some fp)
    (hcmd : cfg.cmd ≠ .go) (hn : fp.freq.Nodup) (hg : fp.g0.length = fp.freq.length)
    (hlb : fp.b.length = fp.freq.length) (hR : fp.R.WF) (hargs : bandArgs cfg bands = .ok args)
    {f : ℝ} {band : ℝ × ℝ} (hf : (f, band) ∈ bands) :
    ∃ g b R, Spec.FixEntry fp f g b R ∧
      (∀ streams, runBand env cfg args streams band =
        invertFb env.lib env.wls env.G env.minimize (bandWCfg cfg args band)
          { cfg.inv with fix := true, fixParams := (g, b) } streams) ∧
      ((bandWCfg cfg args band).fixSites = true ↔ cfg.cmd = .source) ∧
      (cfg.cmd = .source → ∀ sta, (bandWCfg cfg args band).fixSitesParams.get? sta = R sta) := by
  obtain ⟨hc, hw⟩ := bands_spec hb
  have hP : ∀ p, fixParams bands fp = .ok p → ∃ i : ℕ, ∃ g b, fp.freq[i]? = some f ∧
      (fp.g0[i]?).map Cell.val? = some g ∧ (fp.b[i]?).map Cell.val? = some b ∧
      p.get? band = some (g, b) := by
    intro p hp
    unfold fixParams at hp
    split at hp
    · rename_i hset
      have hp' : (fp.freq.zip (fp.g0.zip fp.b)).foldlM (fun d x => do
          let band ← dictGet bands x.1
          let v ← (do
            let g ← fixCell x.2.1
            let b ← fixCell x.2.2
            return (g, b))
          return Dict.set d band v) [] = .ok p := by
        rw [← hp]
        congr 1
        funext d x
        cases dictGet bands x.1 with
        | error e => rfl
        | ok v =>
          simp only [bind, Except.bind]
          cases fixCell x.2.1 with
          | error e => rfl
          | ok g =>
            simp only
            cases fixCell x.2.2 <;> rfl
      have hfst : (fp.freq.zip (fp.g0.zip fp.b)).map Prod.fst = fp.freq := by
        rw [List.map_fst_zip]
        rw [List.length_zip]; omega
      obtain ⟨h1, -⟩ := bandFold Prod.fst _ hc _ (by rw [hfst]; exact hn) hp'
      have hfm : f ∈ fp.freq := hset.2 f (List.mem_map.2 ⟨_, hf, rfl⟩)
      obtain ⟨i, hi, rfl⟩ := List.getElem_of_mem hfm
      have hig : i < fp.g0.length := by omega
      have hib : i < fp.b.length := by omega
      have hx : (fp.freq[i], (fp.g0[i], fp.b[i])) ∈ fp.freq.zip (fp.g0.zip fp.b) := by
        rw [List.mem_iff_getElem]
        exact ⟨i, by simp [List.length_zip]; omega, by simp⟩
      obtain ⟨band', v, h2, h3, h4⟩ := h1 _ hx
      have hbb : band' = band := by
        have := Dict.get?_of_mem hw hf
        rw [Dict.get?_of_mem hw h2] at this
        exact Option.some.inj this
      subst hbb
      obtain ⟨g, hg', h3⟩ := bind_ok.1 h3
      obtain ⟨b, hb', h3⟩ := bind_ok.1 h3
      simp only [pure, Except.pure, Except.ok.injEq] at h3
      refine ⟨i, g, b, List.getElem?_eq_getElem hi, ?_, ?_, by rw [h4, h3]⟩
      · rw [List.getElem?_eq_getElem hig, Option.map_some, fixCell_ok hg']
      · rw [List.getElem?_eq_getElem hib, Option.map_some, fixCell_ok hb']
    · simp at hp
  have hS : ∀ s, fixSites bands fp = .ok s → ∀ i : ℕ, fp.freq[i]? = some f →
      ∀ sta, ((s.get? band).getD []).get? sta =
        (fp.R.get? sta).bind (fun row => (row[i]?).bind Cell.val?) := by
    intro s hs i hi sta
    unfold fixSites at hs
    have hs' : (fp.freq.zipIdx).foldlM (fun d fi => do
          let band ← dictGet bands fi.1
          let v ← (do
            let l ← mapExc (siteEntry fi.2) fp.R
            return l.filterMap id)
          return Dict.set d band v) [] = .ok s := by
      rw [← hs]
      congr 1
      funext d x
      cases dictGet bands x.1 with
      | error e => rfl
      | ok v =>
        simp only [bind, Except.bind]
        cases mapExc (siteEntry x.2) fp.R <;> rfl
    obtain ⟨h1, -⟩ := bandFold Prod.fst _ hc _ (by rw [List.zipIdx_map_fst]; exact hn) hs'
    obtain ⟨band', v, h2, h3, h4⟩ := h1 (f, i) (List.mem_zipIdx_iff_getElem?.2 hi)
    have hbb : band' = band := by
      have := Dict.get?_of_mem hw hf
      rw [Dict.get?_of_mem hw h2] at this
      exact Option.some.inj this
    subst hbb
    obtain ⟨l, hl, h3⟩ := bind_ok.1 h3
    simp only [pure, Except.pure, Except.ok.injEq] at h3
    rw [h4, Option.getD_some, ← h3]
    exact siteFold hR hl sta
  unfold bandArgs at hargs
  rw [hin] at hargs
  cases hcm : cfg.cmd with
  | go => exact absurd hcm hcmd
  | fixed =>
    rw [hcm] at hargs
    obtain ⟨p, hp, h⟩ := bind_ok.1 hargs
    simp only [pure, Except.pure, Except.ok.injEq] at h
    obtain ⟨i, g, b, h1, h2, h3, h4⟩ := hP p hp
    subst h
    refine ⟨g, b, _, ⟨i, h1, h2, h3, fun _ => rfl⟩, ?_, by simp [bandWCfg], by simp⟩
    intro streams
    unfold runBand
    simp [h4]
  | source =>
    rw [hcm] at hargs
    obtain ⟨p, hp, h⟩ := bind_ok.1 hargs
    obtain ⟨s, hs, h⟩ := bind_ok.1 h
    simp only [pure, Except.pure, Except.ok.injEq] at h
    obtain ⟨i, g, b, h1, h2, h3, h4⟩ := hP p hp
    subst h
    refine ⟨g, b, _, ⟨i, h1, h2, h3, fun _ => rfl⟩, ?_, by simp [bandWCfg], ?_⟩
    · intro streams
      unfold runBand
      simp [h4]
    · intro _ sta
      exact hS s hs i h1 sta

/-- **C27** A band without scattering coefficient or attenuation in the input has no result. -/
theorem C27_missing_attenuation {env : Env} {cfg : InvCfg} {bands : Dict ℝ (ℝ × ℝ)} {args : BandArgs}
    {fp : FixInput} (hb : getFreqs cfg.freqs = .ok bands) (hin : cfg.input = some fp)
    (hcmd : cfg.cmd ≠ .go) (hn : fp.freq.Nodup) (hg : fp.g0.length = fp.freq.length)
    (hlb : fp.b.length = fp.freq.length) (hR : fp.R.WF) (hargs : bandArgs cfg bands = .ok args)
    {f : ℝ} {band : ℝ × ℝ} (hf : (f, band) ∈ bands)
    {i : ℕ} (hi : fp.freq[i]? = some f) (hnone : fp.g0[i]? = some .none ∨ fp.b[i]? = some .none)
    (streams : List Stream) (r : BandResult) :
    runBand env cfg args streams band ≠ .ok (some r) := by
  obtain ⟨g, b, R, ⟨j, h1, h2, h3, -⟩, hrun, -⟩ :=
    C27_right_band (env := env) hb hin hcmd hn hg hlb hR hargs hf
  have hij : j = i := by
    obtain ⟨a1, a2⟩ := List.getElem?_eq_some_iff.1 h1
    obtain ⟨b1, b2⟩ := List.getElem?_eq_some_iff.1 hi
    exact (List.Nodup.getElem_inj_iff hn).1 (a2.trans b2.symm)
  subst hij
  have hgb : g = none ∨ b = none := by
    rcases hnone with h | h
    · rw [h] at h2
      exact Or.inl (Option.some.inj h2).symm
    · rw [h] at h3
      exact Or.inr (Option.some.inj h3).symm
  rw [hrun]
  intro h
  unfold invertFb at h
  split at h
  · simp at h
  · obtain ⟨trs, -, h⟩ := bind_ok.1 h
    split at h
    · simp [pure, Except.pure] at h
    · obtain ⟨st, -, h⟩ := bind_ok.1 h
      split at h
      · simp [pure, Except.pure] at h
      · unfold solveBand at h
        obtain ⟨fit, hfit, h⟩ := bind_ok.1 h
        simp only [pure, Except.pure, Except.ok.injEq, Option.bind_eq_some_iff] at h
        obtain ⟨f, rfl, h⟩ := h
        unfold bandFit at hfit
        simp only [fullCfg, if_true] at hfit
        rcases hgb with rfl | rfl
        · simp at hfit
        · cases g <;> simp at hfit

/-- **C27** The order of the frequencies in the input plays no role: inputs with the same values at
each frequency lead to the same result in each band. -/
theorem C27_order {env : Env} {cfg : InvCfg} {bands : Dict ℝ (ℝ × ℝ)} {args args' : BandArgs}
    {fp fp' : FixInput} (hb : getFreqs cfg.freqs = .ok bands)
    (hcmd : cfg.cmd = .fixed)
    (hn : fp.freq.Nodup) (hg : fp.g0.length = fp.freq.length)
    (hlb : fp.b.length = fp.freq.length) (hR : fp.R.WF)
    (hn' : fp'.freq.Nodup) (hg' : fp'.g0.length = fp'.freq.length)
    (hlb' : fp'.b.length = fp'.freq.length) (hR' : fp'.R.WF)
    (hsame : ∀ x, x ∈ fp.freq.zip (fp.g0.zip fp.b) ↔ x ∈ fp'.freq.zip (fp'.g0.zip fp'.b))
    (hargs : bandArgs { cfg with input := some fp } bands = .ok args)
    (hargs' : bandArgs { cfg with input := some fp' } bands = .ok args')
    {f : ℝ} {band : ℝ × ℝ} (hf : (f, band) ∈ bands) (streams : List Stream) :
    runBand env { cfg with input := some fp } args streams band =
      runBand env { cfg with input := some fp' } args' streams band := by
  obtain ⟨g, b, R, ⟨i, h1, h2, h3, -⟩, hrun, hs, -⟩ := C27_right_band (env := env)
    (cfg := { cfg with input := some fp }) hb rfl (by rw [hcmd]; simp) hn hg hlb hR hargs hf
  obtain ⟨g', b', R', ⟨i', h1', h2', h3', -⟩, hrun', hs', -⟩ := C27_right_band (env := env)
    (cfg := { cfg with input := some fp' }) hb rfl (by rw [hcmd]; simp) hn' hg' hlb' hR' hargs' hf
  rw [hrun, hrun']
  obtain ⟨c, hc, rfl⟩ := Option.map_eq_some_iff.1 h2
  obtain ⟨e, he, rfl⟩ := Option.map_eq_some_iff.1 h3
  obtain ⟨c', hc', rfl⟩ := Option.map_eq_some_iff.1 h2'
  obtain ⟨e', he', rfl⟩ := Option.map_eq_some_iff.1 h3'
  have hm : (f, (c, e)) ∈ fp.freq.zip (fp.g0.zip fp.b) := by
    rw [List.mem_iff_getElem?]
    exact ⟨i, by simp [List.getElem?_zip_eq_some, h1, hc, he]⟩
  rw [hsame, List.mem_iff_getElem?] at hm
  obtain ⟨j, hj⟩ := hm
  simp only [List.getElem?_zip_eq_some] at hj
  have hij : j = i' := by
    obtain ⟨a1, a2⟩ := List.getElem?_eq_some_iff.1 hj.1
    obtain ⟨b1, b2⟩ := List.getElem?_eq_some_iff.1 h1'
    exact (List.Nodup.getElem_inj_iff hn').1 (a2.trans b2.symm)
  subst hij
  have e1 : c = c' := Option.some.inj (hj.2.1.symm.trans hc')
  have e2 : e = e' := Option.some.inj (hj.2.2.symm.trans he')
  subst e1 e2
  have hw : ∀ (fp : FixInput) (args : BandArgs),
      bandArgs { cfg with input := some fp } bands = .ok args →
      args.sites = false ∧ args.siteParams = [] := by
    intro fp args h
    unfold bandArgs at h
    simp only [hcmd] at h
    obtain ⟨p, -, h⟩ := bind_ok.1 h
    simp only [pure, Except.pure, Except.ok.injEq] at h
    subst h
    exact ⟨rfl, rfl⟩
  have hbw : bandWCfg { cfg with input := some fp } args band =
      bandWCfg { cfg with input := some fp' } args' band := by
    unfold bandWCfg
    rw [(hw fp args hargs).1, (hw fp args hargs).2, (hw fp' args' hargs').1, (hw fp' args' hargs').2]
  rw [hbw]

/-- Only the values of the site responses matter, not their order. -/
theorem lstsq_congr {wls : List ℝ → List (List ℝ) → List ℝ → List ℝ × ℝ} {G : Greens} {cfg : Cfg}
    {P : Dict String ℝ} (hP : ∀ s, P.get? s = cfg.fixSitesParams.get? s) (bd : Band) (g0 : ℝ)
    (b : Option ℝ) (fs : Bool) :
    lstsq wls G { cfg with fixSitesParams := P } bd g0 b fs = lstsq wls G cfg bd g0 b fs := by
  have hd : (fun p : String × String => dictGet P p.2) =
      fun p => dictGet cfg.fixSitesParams p.2 := by
    funext p
    unfold dictGet
    rw [hP]
  have h1 : siteRefs { cfg with fixSitesParams := P } bd = siteRefs cfg bd := by
    unfold siteRefs
    simp only [hd]
  have h2 : siteRefsShort { cfg with fixSitesParams := P } bd = siteRefsShort cfg bd := by
    unfold siteRefsShort
    simp only [hd]
  unfold InvertFb.lstsq
  rw [h1, h2]
  rfl

theorem solveBand_sites {wls : List ℝ → List (List ℝ) → List ℝ → List ℝ × ℝ} {G : Greens}
    {minimize : (ℝ → Py (WithTop ℝ)) → Py ℝ} {cfg : Cfg} {P : Dict String ℝ}
    (hP : ∀ s, P.get? s = cfg.fixSitesParams.get? s) (bd : Band) :
    solveBand wls G minimize { cfg with fixSitesParams := P } bd =
      solveBand wls G minimize cfg bd := by
  have hl : ∀ g0 b fs, lstsq wls G { cfg with fixSitesParams := P } bd g0 b fs =
      lstsq wls G cfg bd g0 b fs := fun g0 b fs => lstsq_congr hP bd g0 b fs
  have ho : objective wls G { cfg with fixSitesParams := P } bd = objective wls G cfg bd := by
    funext g0
    unfold InvertFb.objective
    rw [hl]
  unfold solveBand bandFit
  simp only [hl, ho]
  rfl

theorem invertFb_congr {lib : Lib} {wls : List ℝ → List (List ℝ) → List ℝ → List ℝ × ℝ} {G : Greens}
    {minimize : (ℝ → Py (WithTop ℝ)) → Py ℝ} {cfg : WCfg} {inv : Cfg} {P : Dict String ℝ}
    (hP : ∀ s, P.get? s = cfg.fixSitesParams.get? s) (streams : List Stream) :
    invertFb lib wls G minimize { cfg with fixSitesParams := P } inv streams =
      invertFb lib wls G minimize cfg inv streams := by
  have he : energies lib { cfg with fixSitesParams := P } streams = energies lib cfg streams := by
    have h1 : energyOf lib { cfg with fixSitesParams := P } = energyOf lib cfg := by
      funext s
      unfold energyOf
      simp only [hP]
      rfl
    unfold energies
    rw [h1]
    rfl
  have hs : ∀ v0 bd, solveBand wls G minimize (fullCfg { cfg with fixSitesParams := P } inv v0) bd =
      solveBand wls G minimize (fullCfg cfg inv v0) bd := by
    intro v0 bd
    have hl : ∀ g0 b fs, lstsq wls G (fullCfg { cfg with fixSitesParams := P } inv v0) bd g0 b fs =
        lstsq wls G (fullCfg cfg inv v0) bd g0 b fs := fun g0 b fs =>
      lstsq_congr (cfg := fullCfg cfg inv v0) (P := P) hP bd g0 b fs
    have ho : objective wls G (fullCfg { cfg with fixSitesParams := P } inv v0) bd =
        objective wls G (fullCfg cfg inv v0) bd := by
      funext g0
      unfold InvertFb.objective
      rw [hl]
      rfl
    unfold solveBand bandFit
    simp only [hl, ho]
    rfl
  unfold invertFb
  rw [he]
  simp only [hs]
  rfl

/-- **C27** The order of the frequencies and of the stations in the input plays no role, also with
fixed site responses: inputs with the same values for each frequency and station lead to the same
result in each band. -/
theorem C27_order_sites {env : Env} {cfg : InvCfg} {bands : Dict ℝ (ℝ × ℝ)} {args args' : BandArgs}
    {fp fp' : FixInput} (hb : getFreqs cfg.freqs = .ok bands) (hcmd : cfg.cmd ≠ .go)
    (hn : fp.freq.Nodup) (hg : fp.g0.length = fp.freq.length)
    (hlb : fp.b.length = fp.freq.length) (hR : fp.R.WF)
    (hn' : fp'.freq.Nodup) (hg' : fp'.g0.length = fp'.freq.length)
    (hlb' : fp'.b.length = fp'.freq.length) (hR' : fp'.R.WF)
    (hsame : ∀ f g b R, Spec.FixEntry fp f g b R ↔ Spec.FixEntry fp' f g b R)
    (hargs : bandArgs { cfg with input := some fp } bands = .ok args)
    (hargs' : bandArgs { cfg with input := some fp' } bands = .ok args')
    {f : ℝ} {band : ℝ × ℝ} (hf : (f, band) ∈ bands) (streams : List Stream) :
    runBand env { cfg with input := some fp } args streams band =
      runBand env { cfg with input := some fp' } args' streams band := by
  obtain ⟨g, b, R, hE, hrun, hs, hv⟩ := C27_right_band (env := env)
    (cfg := { cfg with input := some fp }) hb rfl hcmd hn hg hlb hR hargs hf
  obtain ⟨g', b', R', hE', hrun', hs', hv'⟩ := C27_right_band (env := env)
    (cfg := { cfg with input := some fp' }) hb rfl hcmd hn' hg' hlb' hR' hargs' hf
  rw [hrun, hrun']
  rw [hsame] at hE
  obtain ⟨⟨i, h1, h2, h3, h4⟩⟩ := hE
  obtain ⟨⟨i', h1', h2', h3', h4'⟩⟩ := hE'
  have hij : i = i' := by
    obtain ⟨a1, a2⟩ := List.getElem?_eq_some_iff.1 h1
    obtain ⟨b1, b2⟩ := List.getElem?_eq_some_iff.1 h1'
    exact (List.Nodup.getElem_inj_iff hn').1 (a2.trans b2.symm)
  subst hij
  have eg : g = g' := Option.some.inj (h2.symm.trans h2')
  have eb : b = b' := Option.some.inj (h3.symm.trans h3')
  have eR : R = R' := by funext sta; rw [h4, h4']
  subst eg eb eR
  have hsites : args.sites = args'.sites := by
    have h : (args.sites = true) ↔ (args'.sites = true) := hs.trans hs'.symm
    exact Bool.eq_iff_iff.2 h
  have hc3 : cfg.cmd = .source ∨ cfg.cmd = .fixed := by
    cases h : cfg.cmd
    · exact absurd h hcmd
    · exact Or.inr rfl
    · exact Or.inl rfl
  rcases hc3 with hc | hc
  · have hP : ∀ sta, (bandWCfg { cfg with input := some fp } args band).fixSitesParams.get? sta =
        (bandWCfg { cfg with input := some fp' } args' band).fixSitesParams.get? sta := by
      intro sta
      rw [hv hc, hv' hc]
    have hcong := invertFb_congr (lib := env.lib) (wls := env.wls) (G := env.G)
      (minimize := env.minimize) (inv := { cfg.inv with fix := true, fixParams := (g, b) }) hP streams
    refine Eq.trans ?_ hcong
    unfold bandWCfg
    rw [hsites]
  · have hw : ∀ (fp : FixInput) (args : BandArgs),
        bandArgs { cfg with input := some fp } bands = .ok args → args.siteParams = [] := by
      intro fp args h
      unfold bandArgs at h
      simp only [hc] at h
      obtain ⟨p, -, h⟩ := bind_ok.1 h
      simp only [pure, Except.pure, Except.ok.injEq] at h
      subst h
      rfl
    unfold bandWCfg
    rw [hsites, hw fp args hargs, hw fp' args' hargs']

/-- **C27** If the frequencies of the input are not the central frequencies of the bands, the
inversion is rejected with `ValueError`. -/
theorem C27_different_frequencies {cfg : InvCfg} {bands : Dict ℝ (ℝ × ℝ)} {fp : FixInput}
    (hin : cfg.input = some fp) (hcmd : cfg.cmd ≠ .go)
    (hne : ∃ f, ¬ (f ∈ fp.freq ↔ f ∈ bands.map Prod.fst)) :
    bandArgs cfg bands = .error .valueError := by
  have hP : fixParams bands fp = .error .valueError := by
    unfold fixParams
    rw [if_neg]
    rintro ⟨h1, h2⟩
    obtain ⟨f, hf⟩ := hne
    exact hf ⟨h1 f, h2 f⟩
  unfold bandArgs
  rw [hin]
  cases hc : cfg.cmd with
  | go => exact absurd hc hcmd
  | fixed => simp [hP, bind, Except.bind]
  | source => simp [hP, bind, Except.bind]

/-- **C27** With commands `fixed` and `source` there is only a result if the frequencies of the
input are the central frequencies of the bands. -/
theorem C27_same_frequencies {env : Env} {cfg : InvCfg} {cpus : ℕ} {schedule : List ℕ}
    {events : List Event} {bands : Dict ℝ (ℝ × ℝ)} {fp : FixInput} {res : InvRes}
    (hb : getFreqs cfg.freqs = .ok bands) (hin : cfg.input = some fp) (hcmd : cfg.cmd ≠ .go)
    (h : invert env cfg cpus schedule events = .ok (some res)) :
    ∀ f, f ∈ fp.freq ↔ f ∈ bands.map Prod.fst := by
  by_contra hne
  push Not at hne
  have hv := C27_different_frequencies hin hcmd (by
    obtain ⟨f, hf⟩ := hne
    exact ⟨f, by tauto⟩ : ∃ f, ¬ (f ∈ fp.freq ↔ f ∈ bands.map Prod.fst))
  unfold invert at h
  split at h
  · simp at h
  rw [hb] at h
  simp only [bind, Except.bind, hv] at h
  split at h
  · simp at h
  · split at h
    · simp [pure, Except.pure] at h
    · split at h
      · simp at h
      · split at h <;> simp at h

namespace FixedExample

open JobsExample

/-- Frequencies in another order than in the input. -/
noncomputable def exFix : FixInput := { freq := [2, 1], g0 := [.num 20, .none], b := [.num 0.2, .num 0.1] }

noncomputable def exCfg (cmd : Cmd) : InvCfg :=
  { JobsExample.exCfg none with freqs := .cfreqs [1, 2] 1, cmd := cmd, input := some exFix }

/-- The bands. -/
noncomputable def exBands : Dict ℝ (ℝ × ℝ) :=
  [(1, (1 - halfWidth 1 1, 1 + halfWidth 1 1)), (2, (2 - halfWidth 2 1, 2 + halfWidth 2 1))]

theorem exFreqs (cmd : Cmd) : getFreqs (exCfg cmd).freqs = .ok exBands := by
  simp [exCfg, getFreqs, bandsOf, mkDict, Dict.set, exBands]

theorem exArgs_ok : ∃ args, bandArgs (exCfg .fixed) exBands = .ok args := by
  unfold bandArgs
  simp only [exCfg, fixParams, exFix]
  rw [if_pos (by simp [exBands])]
  simp [exBands, dictGet, Dict.get?, fixCell, bind, Except.bind, pure, Except.pure]

end FixedExample

open FixedExample in
/-- The band around 2 Hz is inverted with the first entry of the input, the band around 1 Hz is
skipped. -/
example : ∃ args, bandArgs (exCfg .fixed) exBands = .ok args ∧
    (∀ streams, runBand JobsExample.exEnv (exCfg .fixed) args streams
      (2 - halfWidth 2 1, 2 + halfWidth 2 1) =
      invertFb JobsExample.exEnv.lib JobsExample.exEnv.wls JobsExample.exEnv.G JobsExample.exEnv.minimize
        (bandWCfg (exCfg .fixed) args (2 - halfWidth 2 1, 2 + halfWidth 2 1))
        { (exCfg .fixed).inv with fix := true, fixParams := (some 20, some 0.2) } streams) ∧
    ∀ streams r, runBand JobsExample.exEnv (exCfg .fixed) args streams
      (1 - halfWidth 1 1, 1 + halfWidth 1 1) ≠ .ok (some r) := by
  obtain ⟨args, hargs⟩ := exArgs_ok
  refine ⟨args, hargs, ?_, ?_⟩
  · obtain ⟨g, b, R, ⟨i, h1, h2, h3, -⟩, hrun, -⟩ := C27_right_band (env := JobsExample.exEnv)
      (exFreqs .fixed) (fp := exFix) rfl (by simp [exCfg]) (by simp [exFix]) rfl rfl (by simp [exFix, Dict.WF]) hargs
      (f := 2) (band := (2 - halfWidth 2 1, 2 + halfWidth 2 1)) (by simp [exBands])
    have hi : i = 0 := by
      match i, h1 with
      | 0, _ => rfl
      | 1, h => simp [exFix] at h
      | n + 2, h => simp [exFix] at h
    subst hi
    simp only [exFix, List.getElem?_cons_zero, Option.map_some, Option.some.injEq, Cell.val?] at h2 h3
    subst h2 h3
    exact hrun
  · intro streams r
    exact C27_missing_attenuation (exFreqs .fixed) (fp := exFix) rfl (by simp [exCfg]) (by simp [exFix])
      rfl rfl (by simp [exFix, Dict.WF]) hargs (f := 1) (by simp [exBands]) (i := 1) rfl (Or.inl rfl) streams r

namespace FixedExample

/-- Input with site responses. -/
noncomputable def exFix1 : FixInput :=
  { freq := [2, 1], g0 := [.num 20, .num 10], b := [.num 0.2, .num 0.1],
    R := [("A", [.num 3, .num 4]), ("B", [.num 5, .none])] }

/-- The same input in another order. -/
noncomputable def exFix2 : FixInput :=
  { freq := [1, 2], g0 := [.num 10, .num 20], b := [.num 0.1, .num 0.2],
    R := [("B", [.none, .num 5]), ("A", [.num 4, .num 3])] }

theorem exFix_same (f : ℝ) (g b : Option ℝ) (R : String → Option ℝ) :
    Spec.FixEntry exFix1 f g b R ↔ Spec.FixEntry exFix2 f g b R := by
  constructor
  · rintro ⟨i, h1, h2, h3, h4⟩
    match i, h1, h2, h3, h4 with
    | 0, h1, h2, h3, h4 =>
      refine ⟨1, h1, h2, h3, fun sta => (h4 sta).trans ?_⟩
      by_cases ha : "A" = sta
      · subst ha; simp [exFix1, exFix2, Dict.get?]
      · by_cases hb : "B" = sta
        · subst hb; simp [exFix1, exFix2, Dict.get?]
        · simp [exFix1, exFix2, Dict.get?, ha, hb]
    | 1, h1, h2, h3, h4 =>
      refine ⟨0, h1, h2, h3, fun sta => (h4 sta).trans ?_⟩
      by_cases ha : "A" = sta
      · subst ha; simp [exFix1, exFix2, Dict.get?]
      · by_cases hb : "B" = sta
        · subst hb; simp [exFix1, exFix2, Dict.get?]
        · simp [exFix1, exFix2, Dict.get?, ha, hb]
    | n + 2, h1, _, _, _ => simp [exFix1] at h1
  · rintro ⟨i, h1, h2, h3, h4⟩
    match i, h1, h2, h3, h4 with
    | 0, h1, h2, h3, h4 =>
      refine ⟨1, h1, h2, h3, fun sta => (h4 sta).trans ?_⟩
      by_cases ha : "A" = sta
      · subst ha; simp [exFix1, exFix2, Dict.get?]
      · by_cases hb : "B" = sta
        · subst hb; simp [exFix1, exFix2, Dict.get?]
        · simp [exFix1, exFix2, Dict.get?, ha, hb]
    | 1, h1, h2, h3, h4 =>
      refine ⟨0, h1, h2, h3, fun sta => (h4 sta).trans ?_⟩
      by_cases ha : "A" = sta
      · subst ha; simp [exFix1, exFix2, Dict.get?]
      · by_cases hb : "B" = sta
        · subst hb; simp [exFix1, exFix2, Dict.get?]
        · simp [exFix1, exFix2, Dict.get?, ha, hb]
    | n + 2, h1, _, _, _ => simp [exFix2] at h1

theorem exArgs_sites (fp : FixInput) (h : fp = exFix1 ∨ fp = exFix2) :
    ∃ args, bandArgs { exCfg .source with input := some fp } exBands = .ok args := by
  have hp : ∃ p, fixParams exBands fp = .ok p := by
    unfold fixParams
    rcases h with rfl | rfl
    all_goals
      rw [if_pos (by simp [exBands, exFix1, exFix2])]
      simp [exFix1, exFix2, exBands, dictGet, Dict.get?, fixCell, bind, Except.bind, pure, Except.pure]
  have hs : ∃ p, fixSites exBands fp = .ok p := by
    unfold fixSites
    rcases h with rfl | rfl
    all_goals
      simp [exFix1, exFix2, exBands, dictGet, Dict.get?, siteEntry, mapExc, List.zipIdx, pyGet, bind,
        Except.bind, pure, Except.pure]
  obtain ⟨p, hp⟩ := hp
  obtain ⟨q, hq⟩ := hs
  exact ⟨_, bind_ok.2 ⟨p, hp, bind_ok.2 ⟨q, hq, rfl⟩⟩⟩

end FixedExample

open FixedExample in
/-- Both inputs lead to the same result in the band around 2 Hz. -/
example : ∃ args args', bandArgs { exCfg .source with input := some exFix1 } exBands = .ok args ∧
    bandArgs { exCfg .source with input := some exFix2 } exBands = .ok args' ∧
    ∀ streams, runBand JobsExample.exEnv { exCfg .source with input := some exFix1 } args streams
        (2 - halfWidth 2 1, 2 + halfWidth 2 1) =
      runBand JobsExample.exEnv { exCfg .source with input := some exFix2 } args' streams
        (2 - halfWidth 2 1, 2 + halfWidth 2 1) := by
  obtain ⟨args, ha⟩ := exArgs_sites exFix1 (Or.inl rfl)
  obtain ⟨args', ha'⟩ := exArgs_sites exFix2 (Or.inr rfl)
  exact ⟨args, args', ha, ha', fun streams => C27_order_sites (exFreqs .source) (by simp [exCfg])
    (by simp [exFix1]) rfl rfl (by simp [exFix1, Dict.WF]) (by simp [exFix2]) rfl rfl
    (by simp [exFix2, Dict.WF]) exFix_same ha ha' (f := 2) (by simp [exBands]) streams⟩

end Qopen
