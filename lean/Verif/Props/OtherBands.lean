import Verif.Props.Accuracy
import Verif.Props.FixedBands

/-!
# Frequency bands are inverted for themselves (C144)

The results of a frequency band do not depend on which other bands are configured.
-/

namespace Qopen

open Real Spec Util Tr Energy InvertFb Window Catalog Freqs Source Invert

namespace Spec

/-- The results of frequency `f` (scattering coefficient, attenuation, error, number of stations, site
responses, source energies) are the same in both results: `i` and `j` are the places of the frequency. -/
structure SameAt (res res' : InvRes) (i j : ℕ) : Prop where
  error : ∃ c, res.error[i]? = some c ∧ res'.error[j]? = some c
  nstations : ∃ n, res.nstations[i]? = some n ∧ res'.nstations[j]? = some n
  g0 : ∀ row, res.g0 = some row → ∃ row' c, res'.g0 = some row' ∧ row[i]? = some c ∧ row'[j]? = some c
  b : ∀ row, res.b = some row → ∃ row' c, res'.b = some row' ∧ row[i]? = some c ∧ row'[j]? = some c
  sites : ∀ T, res.R = some T → ∃ T', res'.R = some T' ∧ T'.keys = T.keys ∧
    ∀ s row row', (s, row) ∈ T → (s, row') ∈ T' → ∃ c, row[i]? = some c ∧ row'[j]? = some c
  events : res'.events.keys = res.events.keys
  energies : ∀ id e e', (id, e) ∈ res.events → (id, e') ∈ res'.events →
    ∃ c, e.W[i]? = some c ∧ e'.W[j]? = some c

/-- There is no result for the frequency at place `i`. -/
structure EmptyAt (res : InvRes) (i : ℕ) : Prop where
  error : res.error[i]? = some .none
  nstations : res.nstations[i]? = some 0
  g0 : ∀ row, res.g0 = some row → row[i]? = some .none
  b : ∀ row, res.b = some row → row[i]? = some .none
  sites : ∀ T, res.R = some T → ∀ s row, (s, row) ∈ T → row[i]? = some .none
  energies : ∀ id e, (id, e) ∈ res.events → e.W[i]? = some .none

/-- Two inputs of the commands `fixed` and `source` have the same values for the frequency `f`; nothing
is required for the command `go`. -/
def SameInput (cmd : Cmd) (inp inp' : Option FixInput) (f : ℝ) : Prop :=
  cmd ≠ .go → ∃ fp fp', inp = some fp ∧ inp' = some fp' ∧
    (fp.freq.Nodup ∧ fp.g0.length = fp.freq.length ∧ fp.b.length = fp.freq.length ∧ fp.R.WF) ∧
    (fp'.freq.Nodup ∧ fp'.g0.length = fp'.freq.length ∧ fp'.b.length = fp'.freq.length ∧ fp'.R.WF) ∧
    ∀ g b R, FixEntry fp f g b R ↔ FixEntry fp' f g b R

end Spec

namespace Invert

/-- The call for a band is the same for both configurations. -/
theorem runBand_same {env : Env} {cfg : InvCfg} {fo : FreqOpt} {nj : Option ℕ} {inp : Option FixInput}
    {bands bands' : Dict ℝ (ℝ × ℝ)} {args args' : BandArgs} (hb : getFreqs cfg.freqs = .ok bands)
    (hb' : getFreqs fo = .ok bands') (hargs : bandArgs cfg bands = .ok args)
    (hargs' : bandArgs { cfg with freqs := fo, njobs := nj, input := inp } bands' = .ok args')
    {f : ℝ} {band : ℝ × ℝ} (hf : (f, band) ∈ bands) (hf' : (f, band) ∈ bands')
    (hin : SameInput cfg.cmd cfg.input inp f) (streams : List Stream) :
    runBand env cfg args streams band =
      runBand env { cfg with freqs := fo, njobs := nj, input := inp } args' streams band := by
  by_cases hgo : cfg.cmd = .go
  · have h1 : args = { fix := false, sites := false } := by
      unfold bandArgs at hargs
      rw [hgo] at hargs
      exact (Except.ok.inj hargs).symm
    have h2 : args' = { fix := false, sites := false } := by
      unfold bandArgs at hargs'
      simp only [hgo] at hargs'
      exact (Except.ok.inj hargs').symm
    rw [h1, h2]
    rfl
  obtain ⟨fp, fp', e1, e2, ⟨n1, n2, n3, n4⟩, ⟨n1', n2', n3', n4'⟩, hsame⟩ := hin hgo
  subst e2
  obtain ⟨g, b, R, hE, hrun, hs, hv⟩ := C27_right_band (env := env) hb e1 hgo n1 n2 n3 n4 hargs hf
  obtain ⟨g', b', R', hE', hrun', hs', hv'⟩ := C27_right_band (env := env)
    (cfg := { cfg with freqs := fo, njobs := nj, input := some fp' }) hb' rfl hgo n1' n2' n3' n4' hargs' hf'
  rw [hrun, hrun']
  rw [hsame] at hE
  obtain ⟨⟨i, h1, h2, h3, h4⟩⟩ := hE
  obtain ⟨⟨i', h1', h2', h3', h4'⟩⟩ := hE'
  have hij : i = i' := by
    obtain ⟨a1, a2⟩ := List.getElem?_eq_some_iff.1 h1
    obtain ⟨b1, b2⟩ := List.getElem?_eq_some_iff.1 h1'
    exact (List.Nodup.getElem_inj_iff n1').1 (a2.trans b2.symm)
  subst hij
  have eg : g = g' := Option.some.inj (h2.symm.trans h2')
  have eb : b = b' := Option.some.inj (h3.symm.trans h3')
  have eR : R = R' := by funext sta; rw [h4, h4']
  subst eg eb eR
  have hsites : args.sites = args'.sites := by
    have h : (args.sites = true) ↔ (args'.sites = true) := hs.trans hs'.symm
    exact Bool.eq_iff_iff.2 h
  have hc3 : cfg.cmd = .source ∨ cfg.cmd = .fixed := by
    cases h : cfg.cmd
    · exact absurd h hgo
    · exact Or.inr rfl
    · exact Or.inl rfl
  rcases hc3 with hc | hc
  · have hP : ∀ sta, (bandWCfg cfg args band).fixSitesParams.get? sta = (bandWCfg { cfg with
        freqs := fo, njobs := nj, input := some fp' } args' band).fixSitesParams.get? sta := by
      intro sta
      rw [hv hc, hv' hc]
    have hcong := invertFb_congr (lib := env.lib) (wls := env.wls) (G := env.G)
      (minimize := env.minimize) (inv := { cfg.inv with fix := true, fixParams := (g, b) }) hP streams
    refine Eq.trans ?_ hcong
    unfold bandWCfg
    rw [hsites]
  · have hw : ∀ (c : InvCfg) (bands : Dict ℝ (ℝ × ℝ)) (args : BandArgs), c.cmd = .fixed →
        bandArgs c bands = .ok args → args.siteParams = [] := by
      intro c bands args hc h
      unfold bandArgs at h
      simp only [hc] at h
      cases hi : c.input with
      | none => rw [hi] at h; simp at h
      | some fp =>
        rw [hi] at h
        obtain ⟨p, -, h⟩ := bind_ok.1 h
        simp only [pure, Except.pure, Except.ok.injEq] at h
        subst h
        rfl
    unfold bandWCfg
    rw [hsites, hw cfg bands args hc hargs,
      hw { cfg with freqs := fo, njobs := nj, input := some fp' } bands' args' hc hargs']

theorem place_of {bands : Dict ℝ (ℝ × ℝ)} {f : ℝ} {band : ℝ × ℝ} (hf : (f, band) ∈ bands) :
    ∃ i : ℕ, (bands.map Prod.fst)[i]? = some f ∧ (bands.map Prod.snd)[i]? = some band := by
  obtain ⟨i, hi, h⟩ := List.mem_iff_getElem.1 hf
  exact ⟨i, by simp [hi, h], by simp [hi, h]⟩

theorem forall₂_at {α β : Type} {P : α → β → Prop} {l : List α} {l' : List β} (h : List.Forall₂ P l l')
    {i : ℕ} {a : α} (hi : l[i]? = some a) : ∃ b, l'[i]? = some b ∧ P a b := by
  obtain ⟨h1, h2⟩ := List.getElem?_eq_some_iff.1 hi
  have hl : i < l'.length := by rw [← h.length_eq]; exact h1
  refine ⟨l'[i], List.getElem?_eq_getElem hl, ?_⟩
  have := h.get h1 hl
  simp only [List.get_eq_getElem] at this
  rw [h2] at this
  exact this

theorem same_entry {α : Type} {P : Option BandResult → α → Prop} (hu : ∀ o c c', P o c → P o c' → c = c')
    {rlist rlist' : List (Option BandResult)} {row row' : List α} (h : List.Forall₂ P rlist row)
    (h' : List.Forall₂ P rlist' row') {i j : ℕ} {o : Option BandResult} (hi : rlist[i]? = some o)
    (hj : rlist'[j]? = some o) : ∃ c, row[i]? = some c ∧ row'[j]? = some c := by
  obtain ⟨c, h1, h2⟩ := forall₂_at h hi
  obtain ⟨c', h1', h2'⟩ := forall₂_at h' hj
  exact ⟨c, h1, by rw [hu o c c' h2 h2']; exact h1'⟩

theorem tables_same {cfg cfg' : InvCfg} {bands bands' : Dict ℝ (ℝ × ℝ)} {stations ids : List String}
    {rlist rlist' : List (Option BandResult)} {res res' : InvRes} (hcmd : cfg'.cmd = cfg.cmd)
    (hcn : cfg'.codaNorm = cfg.codaNorm) (T : Tables cfg bands stations ids rlist res)
    (T' : Tables cfg' bands' stations ids rlist' res') {i j : ℕ} {o : Option BandResult}
    (hi : rlist[i]? = some o) (hj : rlist'[j]? = some o) : SameAt res res' i j := by
  have hfull : ∀ f : BandResult → Option ℝ, ∀ {row row'}, IsFullRow f rlist row → IsFullRow f rlist' row' →
      ∃ c, row[i]? = some c ∧ row'[j]? = some c := by
    intro f row row' h h'
    refine same_entry ?_ h h' hi hj
    rintro (_ | r) c c' h1 h2
    · simp only at h1 h2; rw [h1, h2]
    · obtain ⟨x, x1, x2⟩ := h1
      obtain ⟨y, y1, y2⟩ := h2
      rw [x1] at y1
      rw [x2, y2, Option.some.inj y1]
  have hkey : ∀ (f : BandResult → Option (Dict String ℝ)) (key : String), ∀ {row row'},
      IsKeyRow f key rlist row → IsKeyRow f key rlist' row' → ∃ c, row[i]? = some c ∧ row'[j]? = some c := by
    intro f key row row' h h'
    refine same_entry ?_ h h' hi hj
    rintro (_ | r) c c' h1 h2
    · simp only at h1 h2; rw [h1, h2]
    · obtain ⟨d, x1, x2, x3⟩ := h1
      obtain ⟨d', y1, y2, y3⟩ := h2
      rw [x1] at y1
      obtain rfl := Option.some.inj y1
      by_cases hk : key ∈ d.keys
      · obtain ⟨⟨k, x⟩, hm, rfl⟩ := List.mem_map.1 hk
        rw [x2 x hm, y2 x hm]
      · rw [x3 hk, y3 hk]
  refine ⟨?_, ?_, ?_, ?_, ?_, ?_, ?_⟩
  · refine same_entry ?_ T.error T'.error hi hj
    rintro (_ | r) c c' h1 h2
    · simp only at h1 h2; rw [h1, h2]
    · obtain ⟨x, x1, x2⟩ := h1
      obtain ⟨y, y1, y2⟩ := h2
      rw [x1] at y1
      rw [x2, y2, WithTop.coe_inj.1 y1]
  · refine same_entry ?_ T.nstations T'.nstations hi hj
    rintro (_ | r) c c' h1 h2
    · simp only at h1 h2; rw [h1, h2]
    · simp only at h1 h2; rw [h1, h2]
  · intro row hr
    by_cases hgo : cfg.cmd = .go
    · obtain ⟨row0, h0, h1⟩ := T.g0 hgo
      obtain ⟨row', h0', h1'⟩ := T'.g0 (hcmd.trans hgo)
      rw [hr] at h0
      obtain rfl := Option.some.inj h0
      obtain ⟨c, h2, h3⟩ := hfull _ h1 h1'
      exact ⟨row', c, h0', h2, h3⟩
    · rw [(T.fixed hgo).1] at hr; simp at hr
  · intro row hr
    by_cases hgo : cfg.cmd = .go
    · obtain ⟨row0, h0, h1⟩ := T.b hgo
      obtain ⟨row', h0', h1'⟩ := T'.b (hcmd.trans hgo)
      rw [hr] at h0
      obtain rfl := Option.some.inj h0
      obtain ⟨c, h2, h3⟩ := hfull _ h1 h1'
      exact ⟨row', c, h0', h2, h3⟩
    · rw [(T.fixed hgo).2] at hr; simp at hr
  · intro R hR
    by_cases hx : cfg.cmd ≠ .source ∧ cfg.codaNorm = none
    · obtain ⟨R0, h0, h1, h2⟩ := T.sites hx.1 hx.2
      obtain ⟨R', h0', h1', h2'⟩ := T'.sites (by rw [hcmd]; exact hx.1) (by rw [hcn]; exact hx.2)
      rw [hR] at h0
      obtain rfl := Option.some.inj h0
      refine ⟨R', h0', by rw [h1, h1'], ?_⟩
      intro s row row' hm hm'
      exact hkey _ s (h2 s row hm) (h2' s row' hm')
    · rw [T.no_sites (by by_contra hh; push Not at hh; exact hx hh)] at hR
      simp at hR
  · by_cases hx : cfg.codaNorm = none
    · rw [(T.events hx).1, (T'.events (hcn.trans hx)).1]
    · rw [T.no_events hx, T'.no_events (by rw [hcn]; exact hx)]
  · intro id e e' hm hm'
    by_cases hx : cfg.codaNorm = none
    · exact hkey _ id ((T.events hx).2 id e hm) ((T'.events (hcn.trans hx)).2 id e' hm')
    · rw [T.no_events hx] at hm; simp at hm

theorem tables_empty {cfg : InvCfg} {bands : Dict ℝ (ℝ × ℝ)} {stations ids : List String}
    {rlist : List (Option BandResult)} {res : InvRes} (T : Tables cfg bands stations ids rlist res)
    {i : ℕ} (hi : rlist[i]? = some none) : EmptyAt res i := by
  refine ⟨?_, ?_, ?_, ?_, ?_, ?_⟩
  · obtain ⟨c, h1, h2⟩ := forall₂_at T.error hi
    simp only at h2; rw [h1, h2]
  · obtain ⟨c, h1, h2⟩ := forall₂_at T.nstations hi
    simp only at h2; rw [h1, h2]
  · intro row hr
    by_cases hgo : cfg.cmd = .go
    · obtain ⟨row0, h0, h1⟩ := T.g0 hgo
      rw [hr] at h0
      obtain rfl := Option.some.inj h0
      obtain ⟨c, h1, h2⟩ := forall₂_at h1 hi
      simp only at h2; rw [h1, h2]
    · rw [(T.fixed hgo).1] at hr; simp at hr
  · intro row hr
    by_cases hgo : cfg.cmd = .go
    · obtain ⟨row0, h0, h1⟩ := T.b hgo
      rw [hr] at h0
      obtain rfl := Option.some.inj h0
      obtain ⟨c, h1, h2⟩ := forall₂_at h1 hi
      simp only at h2; rw [h1, h2]
    · rw [(T.fixed hgo).2] at hr; simp at hr
  · intro R hR s row hm
    by_cases hx : cfg.cmd ≠ .source ∧ cfg.codaNorm = none
    · obtain ⟨R0, h0, h1, h2⟩ := T.sites hx.1 hx.2
      rw [hR] at h0
      obtain rfl := Option.some.inj h0
      obtain ⟨c, h1, h2⟩ := forall₂_at (h2 s row hm) hi
      simp only at h2; rw [h1, h2]
    · rw [T.no_sites (by by_contra hh; push Not at hh; exact hx hh)] at hR
      simp at hR
  · intro id e hm
    by_cases hx : cfg.codaNorm = none
    · obtain ⟨c, h1, h2⟩ := forall₂_at ((T.events hx).2 id e hm) hi
      simp only at h2; rw [h1, h2]
    · rw [T.no_events hx] at hm; simp at hm

/-- Without result of the inversion no band has a result (or there are no data). -/
theorem invert_none {env : Env} {cfg : InvCfg} {cpus : ℕ} {schedule : List ℕ} {events : List Event}
    {bands : Dict ℝ (ℝ × ℝ)} (hb : getFreqs cfg.freqs = .ok bands)
    (h : invert env cfg cpus schedule events = .ok none) :
    selectStreams env cfg events = .ok none ∨
    ∃ rlist args selected origins streams, bandArgs cfg bands = .ok args ∧
        selectStreams env cfg events = .ok (some selected) ∧ originsOf events = .ok origins ∧
        streams = ignoreNetworks cfg (boreholes env origins) selected ∧
        runBands env cfg args streams (bands.map Prod.snd) cpus schedule = .ok rlist ∧
        ∀ r ∈ rlist, r = none := by
  unfold invert at h
  split at h
  · simp at h
  rw [hb] at h
  simp only [bind, Except.bind] at h
  split at h
  · simp at h
  rename_i streams hst
  cases streams with
  | none => exact Or.inl hst
  | some streams =>
    simp only at h
    obtain ⟨origins, ho, h⟩ := bind_ok.1 h
    obtain ⟨stations, hsta, h⟩ := bind_ok.1 h
    obtain ⟨args, hargs, h⟩ := bind_ok.1 h
    obtain ⟨rlist, hr, h⟩ := bind_ok.1 h
    refine Or.inr ⟨rlist, args, streams, origins, _, hargs, hst, ho, rfl, hr, ?_⟩
    unfold tables at h
    split at h
    · rename_i hall
      intro r hm
      have := List.all_eq_true.1 hall r hm
      simpa using this
    · simp only [bind, Except.bind] at h
      split at h
      · simp at h
      · split at h
        · simp at h
        · simp [pure, Except.pure] at h

/-- The spectral value of a band: a function of the energy, the frequency, velocity and density. -/
noncomputable def specCell (w : Cell) (f : ℝ) (v0 rho0 : Option ℝ) : Py Cell :=
  match v0, rho0 with
  | some v, some r => if w.truthy ∧ v ≠ 0 ∧ r ≠ 0 then sdsCell w f v r else .ok Cell.none
  | _, _ => .ok Cell.none

theorem sds_of_insert {orc : Oracle} {freq : List ℝ} {W : List Cell} {v0 rho0 : Option ℝ}
    {smm : Option Method} {smo : Option Opts} {mag : Option ℝ} {e : EvRes}
    (h : insertSourceProperties orc freq ⟨W, [], []⟩ v0 rho0 smm smo mag = .ok e) :
    ∃ L, e.extra.get? "sds" = some (.cells L) ∧ ∀ (i : ℕ) f w, freq[i]? = some f → W[i]? = some w →
      ∃ c, L[i]? = some c ∧ specCell w f v0 rho0 = .ok c := by
  unfold insertSourceProperties at h
  obtain ⟨L, hL, h⟩ := bind_ok.1 h
  have hst : sdsStart (⟨W, [], []⟩ : EvRes) v0 rho0 = [] := by
    unfold sdsStart
    split <;> rfl
  simp only [hst, List.nil_append] at h
  refine ⟨L, ?_, ?_⟩
  · cases smm with
    | none =>
      simp only [pure, Except.pure, Except.ok.injEq] at h
      subst h
      simp only [Dict.get?_set_self]
    | some m =>
      cases smo with
      | none => simp [throw, throwThe, MonadExceptOf.throw] at h
      | some o =>
        obtain ⟨fit, hfit, h⟩ := bind_ok.1 h
        simp only [pure, Except.pure, Except.ok.injEq] at h
        subst h
        have : (insertFit (Dict.set [] "sds" (.cells L)) fit).get? "sds" = some (.cells L) := by
          cases fit with
          | none => simp only [insertFit, Dict.get?_set_self]
          | some r =>
            obtain ⟨-, hk⟩ := fitSds_keys orc freq L m o r hfit
            rw [insertFit_other _ _ hk _ (by decide) (by decide), Dict.get?_set_self]
        cases mag with
        | none => exact this
        | some x => simpa only [Dict.get?_set_ne _ _ (show "Mcat" ≠ "sds" by decide)] using this
  · intro i f w hf hw
    have hz : freq.zipIdx[i]? = some (f, i) := by simp [List.getElem?_zipIdx, hf]
    obtain ⟨c, h1, h2⟩ := forall₂_at (mapExc_ok.1 hL) hz
    refine ⟨c, h1, ?_⟩
    obtain ⟨w', hw', h2⟩ := bind_ok.1 h2
    unfold pyGet at hw'
    simp only [hw] at hw'
    obtain rfl := Except.ok.inj hw'
    exact h2

end Invert

/-- **C144**: the other bands.  The same events are inverted with two configurations which differ in the
frequencies (and maybe in the number of jobs, and with the commands `fixed` and `source` in the input,
which must have the same values for frequency `f`), and each band is inverted with its own copy of the
waveforms.  A band which occurs in both configurations has the same results in both of them: scattering
coefficient, attenuation, error, number of stations, site responses and source energies. -/
theorem C144_other_bands_partial {env : Env} {cfg : InvCfg} {fo : FreqOpt} {nj : Option ℕ}
    {inp : Option FixInput} {cpus cpus' : ℕ} {schedule schedule' : List ℕ} {events : List Event}
    {bands bands' : Dict ℝ (ℝ × ℝ)} {res res' : InvRes} (hn : (events.map getEventid).Nodup)
    (hb : getFreqs cfg.freqs = .ok bands) (hb' : getFreqs fo = .ok bands')
    (hj : OwnCopies cfg bands cpus schedule)
    (hj' : OwnCopies { cfg with freqs := fo, njobs := nj, input := inp } bands' cpus' schedule')
    (h : invert env cfg cpus schedule events = .ok (some res))
    (h' : invert env { cfg with freqs := fo, njobs := nj, input := inp } cpus' schedule' events =
      .ok (some res')) {f : ℝ} {band : ℝ × ℝ} (hf : (f, band) ∈ bands) (hf' : (f, band) ∈ bands')
    (hin : SameInput cfg.cmd cfg.input inp f) :
    ∃ i j : ℕ, res.freq[i]? = some f ∧ res'.freq[j]? = some f ∧ SameAt res res' i j := by
  obtain ⟨stations, rlist, s1, T, args, sel, ori, str, h3, h4, h5, h6, h7⟩ :=
    tables_streams hn hb hj.1 h
  obtain ⟨stations', rlist', s1', T', args', sel', ori', str', h3', h4', h5', h6', h7'⟩ :=
    tables_streams (cfg := { cfg with freqs := fo, njobs := nj, input := inp }) hn hb' hj'.1 h'
  have e1 : stations' = stations := by
    have : resultStations env { cfg with freqs := fo, njobs := nj, input := inp } =
      resultStations env cfg := rfl
    rw [this, s1] at s1'
    exact (Except.ok.inj s1').symm
  have e2 : sel' = sel := by
    have : selectStreams env { cfg with freqs := fo, njobs := nj, input := inp } events =
      selectStreams env cfg events := rfl
    rw [this, h4] at h4'
    exact (Option.some.inj (Except.ok.inj h4')).symm
  have e3 : ori' = ori := by
    rw [h5] at h5'
    exact (Except.ok.inj h5').symm
  subst e1 e2 e3
  have e4 : str' = str := by rw [h6, h6']; rfl
  subst e4
  obtain ⟨i, hi, hi2⟩ := place_of hf
  obtain ⟨j, hk, hk2⟩ := place_of hf'
  obtain ⟨o, ho, ho2⟩ := forall₂_at (mapExc_ok.1 (hj.run h7)) hi2
  obtain ⟨o', ho', ho2'⟩ := forall₂_at (mapExc_ok.1 (hj'.run h7')) hk2
  have hoo : o' = o := by
    rw [← runBand_same hb hb' h3 h3' hf hf' hin, ho2] at ho2'
    exact (Except.ok.inj ho2').symm
  subst hoo
  exact ⟨i, j, by rw [T.freq]; exact hi, by rw [T'.freq]; exact hk, tables_same (cfg := cfg)
    (cfg' := { cfg with freqs := fo, njobs := nj, input := inp }) rfl rfl T T' ho ho'⟩

/-- **C144**: if one of the configurations has no result at all, the band is empty in the other one. -/
theorem C144_no_result_partial {env : Env} {cfg : InvCfg} {fo : FreqOpt} {nj : Option ℕ}
    {inp : Option FixInput} {cpus cpus' : ℕ} {schedule schedule' : List ℕ} {events : List Event}
    {bands bands' : Dict ℝ (ℝ × ℝ)} {res : InvRes} (hn : (events.map getEventid).Nodup)
    (hb : getFreqs cfg.freqs = .ok bands) (hb' : getFreqs fo = .ok bands')
    (hj : OwnCopies cfg bands cpus schedule)
    (hj' : OwnCopies { cfg with freqs := fo, njobs := nj, input := inp } bands' cpus' schedule')
    (h : invert env cfg cpus schedule events = .ok (some res))
    (h' : invert env { cfg with freqs := fo, njobs := nj, input := inp } cpus' schedule' events = .ok none)
    {f : ℝ} {band : ℝ × ℝ} (hf : (f, band) ∈ bands) (hf' : (f, band) ∈ bands')
    (hin : SameInput cfg.cmd cfg.input inp f) :
    ∃ i : ℕ, res.freq[i]? = some f ∧ EmptyAt res i := by
  obtain ⟨stations, rlist, s1, T, args, sel, ori, str, h3, h4, h5, h6, h7⟩ :=
    tables_streams hn hb hj.1 h
  have hsel : selectStreams env { cfg with freqs := fo, njobs := nj, input := inp } events =
      selectStreams env cfg events := rfl
  rcases invert_none (cfg := { cfg with freqs := fo, njobs := nj, input := inp }) hb' h' with
    h8 | ⟨rlist', args', sel', ori', str', h3', h4', h5', h6', h7', hall⟩
  · rw [hsel, h4] at h8
    simp at h8
  have e2 : sel' = sel := by
    rw [hsel, h4] at h4'
    exact (Option.some.inj (Except.ok.inj h4')).symm
  have e3 : ori' = ori := by
    rw [h5] at h5'
    exact (Except.ok.inj h5').symm
  subst e2 e3
  have e4 : str' = str := by rw [h6, h6']; rfl
  subst e4
  obtain ⟨i, hi, hi2⟩ := place_of hf
  obtain ⟨j, hk, hk2⟩ := place_of hf'
  obtain ⟨o, ho, ho2⟩ := forall₂_at (mapExc_ok.1 (hj.run h7)) hi2
  obtain ⟨o', ho', ho2'⟩ := forall₂_at (mapExc_ok.1 (hj'.run h7')) hk2
  have hoo : o' = o := by
    rw [← runBand_same hb hb' h3 h3' hf hf' hin, ho2] at ho2'
    exact (Except.ok.inj ho2').symm
  have : o = none := by
    rw [← hoo]
    exact hall o' (List.mem_of_getElem? ho')
  subst this
  exact ⟨i, by rw [T.freq]; exact hi, tables_empty T ho⟩


/-- **C144**: the source displacement spectrum.  If both configurations report the same velocity (for
example because it is given in the configuration), the spectral values of the common band agree. -/
theorem C144_spectra_partial {env : Env} {cfg : InvCfg} {fo : FreqOpt} {nj : Option ℕ}
    {inp : Option FixInput} {cpus cpus' : ℕ} {schedule schedule' : List ℕ} {events : List Event}
    {bands bands' : Dict ℝ (ℝ × ℝ)} {res res' : InvRes} (hn : (events.map getEventid).Nodup)
    (hb : getFreqs cfg.freqs = .ok bands) (hb' : getFreqs fo = .ok bands')
    (hj : OwnCopies cfg bands cpus schedule)
    (hj' : OwnCopies { cfg with freqs := fo, njobs := nj, input := inp } bands' cpus' schedule')
    (hc : cfg.codaNorm = none)
    (h : invert env cfg cpus schedule events = .ok (some res))
    (h' : invert env { cfg with freqs := fo, njobs := nj, input := inp } cpus' schedule' events =
      .ok (some res')) {f : ℝ} {band : ℝ × ℝ} (hf : (f, band) ∈ bands) (hf' : (f, band) ∈ bands')
    (hin : SameInput cfg.cmd cfg.input inp f) (hv : res.v0 = res'.v0) {ev : Event} (hev : ev ∈ events) :
    ∃ e e' L L' c, ∃ i j : ℕ, res.freq[i]? = some f ∧ res'.freq[j]? = some f ∧
      res.events.get? (getEventid ev) = some e ∧ res'.events.get? (getEventid ev) = some e' ∧
      e.extra.get? "sds" = some (.cells L) ∧ e'.extra.get? "sds" = some (.cells L') ∧
      L[i]? = some c ∧ L'[j]? = some c := by
  obtain ⟨i, j, hi, hk, hsame⟩ := C144_other_bands_partial hn hb hb' hj hj' h h' hf hf' hin
  obtain ⟨e, he, hins⟩ := invert_insert hn hc h hev
  obtain ⟨e', he', hins'⟩ := invert_insert
    (cfg := { cfg with freqs := fo, njobs := nj, input := inp }) hn hc h' hev
  obtain ⟨w, hw, hw'⟩ := hsame.energies _ e e' (Dict.mem_of_get? he) (Dict.mem_of_get? he')
  obtain ⟨L, hL, hLi⟩ := sds_of_insert hins
  obtain ⟨L', hL', hLi'⟩ := sds_of_insert hins'
  obtain ⟨c, h1, h2⟩ := hLi i f w hi hw
  obtain ⟨c', h1', h2'⟩ := hLi' j f w hk hw'
  simp only [← hv, h2, Except.ok.injEq] at h2'
  subst h2'
  exact ⟨e, e', L, L', c, i, j, hi, hk, he, he', hL, hL', h1, h1'⟩

/-- **C144** (counterexample to the claim without the hypothesis of own copies): with two jobs a band
which is inverted alone has a result, and has none if it is the second one of nine bands. -/
theorem C144_shared_counterexample : ∃ (env : Env) (cfg : InvCfg) (args : BandArgs)
    (streams : List Stream) (bands : List (ℝ × ℝ)) (band : ℝ × ℝ) (x : BandResult),
    cfg.njobs = some 2 ∧ bands[1]? = some band ∧
    runBands env cfg args streams [band] 1 [0] = .ok [some x] ∧
    ∀ schedule : List ℕ, schedule.Perm (List.range (chunks (chunkSize bands.length 2) bands).length) →
      ∃ r, runBands env cfg args streams bands 1 schedule = .ok r ∧ r[1]? = some none := by
  obtain ⟨env, cfg, args, streams, bands, h9, hcfg, r1, hr1, ⟨x, hx⟩, hall⟩ := C24_counterexample
  have hlen : 1 < bands.length := by omega
  have hb : bands[1]? = some bands[1] := List.getElem?_eq_getElem hlen
  refine ⟨env, cfg (some 2), args, streams, bands, bands[1], x, by rw [hcfg], hb, ?_, hall⟩
  have h1 : mapExc (runBand env (cfg (some 1)) args streams) bands = .ok r1 := by
    unfold runBands at hr1
    rw [if_pos (by rw [hcfg]), C24_sequential] at hr1
    exact hr1
  obtain ⟨o, ho, ho2⟩ := forall₂_at (mapExc_ok.1 h1) hb
  rw [hx] at ho
  obtain rfl := Option.some.inj ho
  have h2 : runBand env (cfg (some 2)) args streams bands[1] = .ok (some x) := by
    rw [← ho2, hcfg (some 1), hcfg (some 2)]
    rfl
  unfold runBands
  rw [if_neg (by rw [hcfg]; simp), if_neg (by rw [hcfg]; simp)]
  have hch : chunks (chunkSize [bands[1]].length 2) [bands[1]] = [[bands[1]]] := by
    have : chunkSize [bands[1]].length 2 = 1 := by
      simp [chunkSize]
    rw [this]
    unfold chunks
    simp
    unfold chunks
    simp
  have := (pool_spec (env := env) (cfg := cfg (some 2)) (args := args) (streams := streams)
    [bands[1]] 2 [0] (by rw [hch]; exact List.Perm.refl _) [some x]).2
    ⟨[[some x]], by
      rw [hch]
      simp [mapExc, runShared_one, h2, bind, Except.bind, pure, Except.pure], rfl⟩
  rw [show (cfg (some 2)).njobs.getD 1 = 2 by rw [hcfg]; rfl]
  exact this


/-- **C144**: a velocity given in the configuration is the one which is reported, whatever bands there
are; together with the previous theorem the spectra agree. -/
theorem C144_velocity_partial {env : Env} {cfg : InvCfg} {cpus : ℕ} {schedule : List ℕ}
    {events : List Event} {bands : Dict ℝ (ℝ × ℝ)} {res : InvRes} {v : ℝ}
    (hn : (events.map getEventid).Nodup) (hb : getFreqs cfg.freqs = .ok bands)
    (hj : OwnCopies cfg bands cpus schedule) (hv : cfg.wcfg.v0 = some v)
    (h : invert env cfg cpus schedule events = .ok (some res)) : res.v0 = some v := by
  obtain ⟨stations, rlist, -, T, args, selected, origins, streams, h3, h4, h5, h6, h7⟩ :=
    tables_streams hn hb hj.1 h
  obtain ⟨bef, r, aft, e, -, hrv⟩ := T.v0
  obtain ⟨i, hi⟩ := List.mem_iff_getElem?.1 (show some r ∈ rlist by rw [e]; simp)
  obtain ⟨band, -, hband⟩ := forall₂_at (mapExc_ok.1 (hj.run h7)).flip hi
  have hcall := runBand_call h3 hband
  unfold invertFb at hcall
  split at hcall
  · simp at hcall
  obtain ⟨trs, -, hcall⟩ := bind_ok.1 hcall
  have hvel : velocity (bandWCfg cfg args band) trs = some v := by
    unfold velocity
    rw [show (bandWCfg cfg args band).v0 = some v from hv]
  rw [hvel] at hcall
  obtain ⟨st, -, hcall⟩ := bind_ok.1 hcall
  split at hcall
  · simp [pure, Except.pure] at hcall
  · obtain ⟨f, g0, bFix, -, hrep, -⟩ := solveBand_ok hcall
    rw [hrv, (report_some hrep).2.2.2.2.2.2.2]
    rfl

namespace OtherBandsExample

open JobsExample TablesExample

/-- Two bands. -/
noncomputable def two : FreqOpt := .cfreqs [0.2, 0.25] 1

noncomputable def one : ℝ × ℝ := (0.25 - 1 / 12, 0.25 + 1 / 12)

noncomputable def low : ℝ × ℝ := (0.2 - 1 / 15, 0.2 + 1 / 15)

theorem freqs_one : getFreqs (exCfg (some 1)).freqs = .ok [(0.25, one)] := by
  have hh : halfWidth 0.25 1 = 1 / 12 := by unfold halfWidth; norm_num
  simp [exCfg, getFreqs, bandsOf, mkDict, Dict.set, one, hh]

theorem freqs_two : getFreqs two = .ok [(0.2, low), (0.25, one)] := by
  have h1 : halfWidth 0.25 1 = 1 / 12 := by unfold halfWidth; norm_num
  have h2 : halfWidth 0.2 1 = 1 / 15 := by unfold halfWidth; norm_num
  have h3 : ¬ ((0.2 : ℝ) = 0.25) := by norm_num
  simp [two, getFreqs, bandsOf, mkDict, Dict.set, one, low, h1, h2, h3]

/-- The inversion of both bands. -/
theorem invert_two : ∃ res, invert exEnv { exCfg (some 1) with freqs := two, njobs := some 1, input := none }
    1 [] [exEvent] = .ok (some res) := by
  set cfg : InvCfg := { exCfg (some 1) with freqs := two, njobs := some 1, input := none } with hcfg
  have ho : originsOf [exEvent] = .ok [("e", ⟨0, 0, 0, some 1, []⟩)] := by
    unfold originsOf
    have h : getOrigin exEvent = .ok ⟨0, 0, 0, some 1, []⟩ := rfl
    simp [exId, h, bind, Except.bind, pure, Except.pure, Dict.set]
  obtain ⟨r, hr, herr⟩ := ex_one (some 1) (x := 1) (band := one)
    (by norm_num [one]) (by norm_num [one]) (by unfold JobsExample.gain; rw [if_neg (by norm_num [one])]; norm_num)
  obtain ⟨r', hr', herr'⟩ := ex_one (some 1) (x := 1) (band := low)
    (by norm_num [low]) (by norm_num [low]) (by unfold JobsExample.gain; rw [if_neg (by norm_num [low])]; norm_num)
  have hrun : runBands exEnv cfg exArgs [exStream 1] [low, one] 1 [] = .ok [some r', some r] := by
    unfold runBands
    rw [if_pos (by rfl), C24_sequential]
    have e1 : runBand exEnv cfg exArgs [exStream 1] one = .ok (some r) := hr
    have e2 : runBand exEnv cfg exArgs [exStream 1] low = .ok (some r') := hr'
    simp only [mapExc, e1, e2, bind, Except.bind, pure, Except.pure]
  have hsel : selectStreams exEnv cfg [exEvent] = .ok (some [exStream 1]) := exSelect
  have hfr : getFreqs cfg.freqs = .ok [(0.2, low), (0.25, one)] := freqs_two
  unfold invert
  rw [if_neg (by simp [cfg, exCfg])]
  simp only [hfr, hsel, ho, bind, Except.bind]
  have h1 : ignoreNetworks cfg (boreholes exEnv [("e", ⟨0, 0, 0, some 1, []⟩)]) [exStream 1] =
    [exStream 1] := rfl
  have h2 : resultStations exEnv cfg = .ok ["A"] := by
    unfold resultStations
    rw [exStations]
    rfl
  have h3 : bandArgs cfg [(0.2, low), (0.25, one)] = .ok exArgs := rfl
  rw [h1, h2, h3]
  simp only [List.map_cons, List.map_nil, hrun]
  unfold tables
  rw [if_neg (by simp)]
  obtain ⟨x, hx⟩ := WithTop.ne_top_iff_exists.1 herr
  obtain ⟨x', hx'⟩ := WithTop.ne_top_iff_exists.1 herr'
  have h4 : mapExc errorCell [some r', some r] = .ok [.num x', .num x] := by
    simp [mapExc, errorCell, ← hx, ← hx', bind, Except.bind, pure, Except.pure]
  rw [h4]
  have h5 : ∃ evs, eventTables exEnv cfg [0.2, 0.25] (lastV0 [some r', some r]) [some r', some r]
      [exEvent] = .ok evs := by
    unfold eventTables
    rw [if_pos (by rfl)]
    unfold sourceEvents
    have hrow := rowW_nodup (ids := ["e"]) (by simp) (id := "e") (by simp) [some r', some r]
    obtain ⟨l, hl⟩ := Site.sdsEntries_total (freq := [0.2, 0.25])
      (W := [some r', some r].map (entry (·.W) "e"))
      (v0 := lastV0 [some r', some r]) (rho0 := some cfg.rho0) (by simp) (by norm_num)
    have hk : fromKeys ["e"] = ["e"] := by decide
    have hsmm : cfg.smm = none := rfl
    simp only [List.map_cons, List.map_nil, exId, hk, List.foldlM_cons, List.foldlM_nil, dictGet,
      Dict.get?, if_true, hrow, bind, Except.bind, pure, Except.pure, insertSourceProperties] at hl ⊢
    simp only [hl, hsmm]
    exact ⟨_, rfl⟩
  obtain ⟨evs, h5⟩ := h5
  simp only [bind, Except.bind, Dict.keys, List.map_cons, List.map_nil, h5]
  exact ⟨_, rfl⟩

/-- The band at 0.25 Hz has the same results with and without the band at 0.2 Hz; the velocity is given. -/
example : ∃ res res', invert exEnv (exCfg (some 1)) 1 [] [exEvent] = .ok (some res) ∧
    invert exEnv { exCfg (some 1) with freqs := two, njobs := some 1, input := none } 1 [] [exEvent] =
      .ok (some res') ∧ SameAt res res' 0 1 ∧ res.v0 = res'.v0 := by
  obtain ⟨res, h⟩ := exInvert
  obtain ⟨res', h'⟩ := invert_two
  have own : OwnCopies (exCfg (some 1)) [(0.25, one)] 1 [] := ⟨fun hne => absurd rfl hne, Or.inl rfl⟩
  have own' : OwnCopies { exCfg (some 1) with freqs := two, njobs := some 1, input := none }
    [(0.2, low), (0.25, one)] 1 [] := ⟨fun hne => absurd rfl hne, Or.inl rfl⟩
  obtain ⟨i, j, hi, hk, hs⟩ := C144_other_bands_partial (f := 0.25) (band := one) (by simp) freqs_one
    freqs_two own own' h h' (by simp) (by simp) (fun hne => absurd rfl hne)
  have e1 := C144_velocity_partial (v := 1) (by simp) freqs_one own rfl h
  have e2 := C144_velocity_partial (v := 1) (by simp) freqs_two own' rfl h'
  refine ⟨res, res', h, h', ?_, e1.trans e2.symm⟩
  obtain ⟨_, _, -, T, -⟩ := tables_streams (by simp) freqs_one own.1 h
  obtain ⟨_, _, -, T', -⟩ := tables_streams (by simp) freqs_two own'.1 h'
  have f1 : res.freq = [0.25] := T.freq
  have f2 : res'.freq = [0.2, 0.25] := T'.freq
  rw [f1] at hi
  rw [f2] at hk
  have i0 : i = 0 := by
    rcases i with _ | i
    · rfl
    · simp at hi
  have j1 : j = 1 := by
    rcases j with _ | _ | j
    · norm_num at hk
    · rfl
    · simp at hk
  rwa [i0, j1] at hs

end OtherBandsExample

end Qopen
