import Verif.Props.Truth
import Verif.Props.InvertRepeat
import Verif.Props.FixedBands

/-!
# The commands `fixed` and `source` repeat the inversion of all bands (C126)
-/

namespace Qopen

open Real Spec Util Tr Energy InvertFb Window Catalog Freqs Source Invert Wrapper

variable {wls : List ℝ → List (List ℝ) → List ℝ → List ℝ × ℝ} {rank : List ℝ → List (List ℝ) → ℕ}
  {G : Greens} {minimize : (ℝ → Py (WithTop ℝ)) → Py ℝ} {lib : Lib} {w : WCfg} {inv : InvertFb.Cfg}
  {streams : List Stream} {env : Env} {cfg : InvCfg} {bands : Dict ℝ (ℝ × ℝ)} {events : List Event}

namespace Spec

/-- The result of an inversion as input of the commands `fixed` and `source`. -/
def inputOf (res : InvRes) : Option FixInput :=
  match res.g0, res.b with
  | some g, some b => some ⟨res.freq, g, b, res.R.getD []⟩
  | _, _ => none

/-- The same options with another command and its input. -/
def again (cfg : InvCfg) (cmd : Cmd) (fp : FixInput) : InvCfg :=
  { cfg with cmd := cmd, input := some fp }

/-- The windows of all bands determine all parameters: distinct pairs, connected by events, some
window with two times; lower bounds are not negative. -/
structure WellPosed (env : Env) (cfg : InvCfg) (bands : Dict ℝ (ℝ × ℝ)) (events : List Event) :
    Prop where
  pairs : ∀ streams, StreamsOf env cfg events streams →
    (streams.map (fun s => (s.event, s.station))).Nodup
  windows : ∀ i c ps, WindowsOf env cfg bands events i c ps → ps ≠ [] →
    GoodInput c ps ∧ ConnectedPairs ps ∧ TwoTimes ps ∧ PositiveBounds c

end Spec

namespace Window

/-- A band with a result: all calls with the same data end in the same linear system. -/
theorem invertFb_system {r : BandResult}
    (hnd : (streams.map (fun s => (s.event, s.station))).Nodup)
    (h : invertFb lib wls G minimize w inv streams = .ok (some r)) :
    ∃ v0 ps, AcceptedPairs lib w streams v0 ps ∧ ps ≠ [] ∧
      ∀ inv', invertFb lib wls G minimize w inv' streams =
        solveBand wls G minimize (fullCfg w inv' v0) (bandOf w.bulkWindow.isSome ps) := by
  have h0 := h
  unfold invertFb at h
  split at h
  · simp at h
  obtain ⟨trs, htrs, h⟩ := bind_ok.1 h
  cases hv : velocity w trs with
  | none => rw [hv] at h; simp [pure, Except.pure] at h
  | some v0 =>
    rw [hv] at h
    obtain ⟨st, hst, h⟩ := bind_ok.1 h
    have hnd' : (trs.map Trace.pair).Nodup := hnd.sublist (energies_pairs htrs)
    by_cases hc : st.Ecoda.length = 0 ∨ (st.Ecoda.length : ℝ) < w.numPairs
    · rw [if_pos hc] at h
      simp [pure, Except.pure] at h
    · obtain ⟨ps, h1, -⟩ := invertFb_accepted (wls := wls) (G := G) (minimize := minimize)
        (inv := inv) hnd htrs hv hst hc
      refine ⟨v0, ps, h1, ?_, ?_⟩
      · rintro rfl
        obtain ⟨sel, b1, b2, b3, c1, c2, c3, -⟩ := C18_windows_belong_to_pairs hnd' hst
        have := (acceptedPairs_unique hnd h1 ⟨trs, sel, htrs, hv, b1, b2, b3, rfl⟩).2
        apply hc
        left
        rw [c3, ← this]
        rfl
      · intro inv'
        obtain ⟨ps', h1', h2'⟩ := invertFb_accepted (wls := wls) (G := G) (minimize := minimize)
          (inv := inv') hnd htrs hv hst hc
        rw [h2', (acceptedPairs_unique hnd h1' h1).2]

/-- A band without result has no result with unknown attenuation. -/
theorem invertFb_none (h : invertFb lib wls G minimize w inv streams = .ok none) :
    invertFb lib wls G minimize w { inv with fix := true, fixParams := (none, none) } streams =
      .ok none := by
  unfold invertFb at h ⊢
  split at h
  · rename_i hs
    rw [if_pos hs]
  rename_i hs
  rw [if_neg hs]
  obtain ⟨trs, htrs, h⟩ := bind_ok.1 h
  simp only [htrs, bind, Except.bind]
  cases hv : velocity w trs with
  | none => rfl
  | some v0 =>
    rw [hv] at h
    obtain ⟨st, hst, h⟩ := bind_ok.1 h
    simp only [hst]
    split_ifs
    · rfl
    · rfl

/-- With fixed attenuation the error is finite. -/
theorem _root_.Qopen.InvertFb.error_of_fixed {c : InvertFb.Cfg} {bd : Band} {r : BandResult}
    (hc : c.codaNorm = false) (hfx : c.fix = true)
    (h : solveBand wls G minimize c bd = .ok (some r)) : r.error ≠ ⊤ := by
  obtain ⟨f, g0, bFix, hf, hrep, hb⟩ := solveBand_ok h
  obtain ⟨-, -, -, -, -, -, r6, -⟩ := report_some hrep
  rw [r6]
  unfold InvertFb.lstsq at hf
  obtain ⟨rs, -, hf⟩ := bind_ok.1 hf
  obtain ⟨Rf, -, hf⟩ := bind_ok.1 hf
  obtain ⟨Ga, -, hf⟩ := bind_ok.1 hf
  dsimp only at hf
  split at hf
  · simp [bind, Except.bind, throw, throwThe, MonadExceptOf.throw] at hf
  split at hf
  · simp [bind, Except.bind, throw, throwThe, MonadExceptOf.throw] at hf
  unfold fitOf at hf
  simp only [hfx, hc, if_true, Bool.false_eq_true, if_false] at hf
  cases bFix with
  | none => simp at hf
  | some bf =>
    simp only [Except.ok.injEq] at hf
    rw [← hf]
    exact WithTop.coe_ne_top

/-- The same site responses and source energies. -/
def SameBand (o o' : Option BandResult) : Prop :=
  Option.Rel (fun r r' => r'.R = r.R ∧ r'.W = r.W ∧ r'.nstations = r.nstations ∧ r'.v0 = r.v0 ∧
    r'.error ≠ ⊤) o o'

/-- One band with its own attenuation. -/
theorem fixed_again {o : Option BandResult} (hwls : IsWls rank wls) (hr : FullRank rank)
    (hG : OneValuePerTime G) (hnd : (streams.map (fun s => (s.event, s.station))).Nodup)
    (hc : w.codaNorm = none) (hfs : w.fixSites = false) (hfx : inv.fix = false)
    (hgood : ∀ v0 ps, AcceptedPairs lib w streams v0 ps → ps ≠ [] →
      GoodInput (fullCfg w inv v0) ps ∧ ConnectedPairs ps ∧ TwoTimes ps ∧
        PositiveBounds (fullCfg w inv v0))
    (h : invertFb lib wls G minimize w inv streams = .ok o) :
    ∃ o', invertFb lib wls G minimize w
        { inv with fix := true, fixParams := (o.bind (·.g0), o.bind (·.b)) } streams = .ok o' ∧
      SameBand o o' := by
  cases o with
  | none => exact ⟨none, invertFb_none h, .none⟩
  | some r =>
    obtain ⟨v0, ps, hacc, hne, hsys⟩ := invertFb_system hnd h
    obtain ⟨k1, k2, k3, k4⟩ := hgood v0 ps hacc hne
    rw [hsys] at h
    have hc' : (fullCfg w inv v0).codaNorm = false := by simp [fullCfg, hc]
    obtain ⟨g0, b, R, W, gs, r', e1, e2, e3, e4, -, e5, e6, e7, e8, e9, -⟩ :=
      C116_fixed (minimize' := minimize) hwls hr hG k1 hc' hfx hfs k4 k2 k3 h
    refine ⟨some r', ?_, .some ⟨by rw [e6, e3], by rw [e7, e4], e8, e9, ?_⟩⟩
    · rw [hsys]
      simp only [Option.bind_some, e1, e2]
      exact e5
    · exact error_of_fixed (by exact hc') rfl e5

end Window

namespace Invert

open Classical in
theorem fixParams_total {fp : FixInput} (hf : fp.freq = bands.keys)
    (hg : ∀ c ∈ fp.g0, c ≠ .nan) (hb : ∀ c ∈ fp.b, c ≠ .nan) : ∃ p, fixParams bands fp = .ok p := by
  unfold fixParams
  rw [if_pos ⟨fun f h => hf ▸ h, fun f h => hf ▸ h⟩]
  have hcell : ∀ c : Cell, c ≠ .nan → ∃ o, fixCell c = .ok o := by
    intro c hc
    cases c with
    | none => exact ⟨_, rfl⟩
    | num x => exact ⟨_, rfl⟩
    | nan => exact absurd rfl hc
  have key : ∀ (l : List (ℝ × Cell × Cell)), (∀ x ∈ l, x.1 ∈ bands.keys ∧ x.2.1 ≠ .nan ∧
      x.2.2 ≠ .nan) → ∀ d : Dict (ℝ × ℝ) (Option ℝ × Option ℝ),
      ∃ p, l.foldlM (fun d x => do
        let band ← dictGet bands x.1
        let g ← fixCell x.2.1
        let b ← fixCell x.2.2
        return Dict.set d band (g, b)) d = .ok p := by
    intro l
    induction l with
    | nil => exact fun _ d => ⟨d, rfl⟩
    | cons x l ih =>
      intro hl d
      obtain ⟨h1, h2, h3⟩ := hl x (by simp)
      rw [← Dict.get?_isSome] at h1
      obtain ⟨band, h1⟩ := Option.isSome_iff_exists.1 h1
      obtain ⟨g, h2⟩ := hcell _ h2
      obtain ⟨b, h3⟩ := hcell _ h3
      obtain ⟨p, hp⟩ := ih (fun y hy => hl y (by simp [hy])) (Dict.set d band (g, b))
      refine ⟨p, ?_⟩
      rw [List.foldlM_cons]
      simp only [dictGet, h1, h2, h3, bind, Except.bind, pure, Except.pure] at hp ⊢
      exact hp
  apply key
  rintro ⟨f, g, b⟩ hx
  have h1 := List.of_mem_zip hx
  have h2 := List.of_mem_zip h1.2
  exact ⟨hf ▸ h1.1, hg _ h2.1, hb _ h2.2⟩

open Classical in
theorem fixSites_total {fp : FixInput} (hf : fp.freq = bands.keys)
    (hR : ∀ x ∈ fp.R, x.2.length = fp.freq.length) : ∃ s, fixSites bands fp = .ok s := by
  unfold fixSites
  have key : ∀ (l : List (ℝ × ℕ)), (∀ x ∈ l, x.1 ∈ bands.keys ∧ x.2 < fp.freq.length) →
      ∀ d : Dict (ℝ × ℝ) (Dict String ℝ),
      ∃ p, l.foldlM (fun d fi => do
        let band ← dictGet bands fi.1
        let l ← mapExc (siteEntry fi.2) fp.R
        return Dict.set d band (l.filterMap id)) d = .ok p := by
    intro l
    induction l with
    | nil => exact fun _ d => ⟨d, rfl⟩
    | cons x l ih =>
      intro hl d
      obtain ⟨h1, h2⟩ := hl x (by simp)
      rw [← Dict.get?_isSome] at h1
      obtain ⟨band, h1⟩ := Option.isSome_iff_exists.1 h1
      obtain ⟨m, hm⟩ : ∃ m, mapExc (siteEntry x.2) fp.R = .ok m := by
        apply Site.mapExc_total
        intro sv hsv
        have hlt : x.2 < sv.2.length := by rw [hR sv hsv]; exact h2
        unfold siteEntry
        rw [pyGet_ok.2 (List.getElem?_eq_getElem hlt)]
        exact ⟨_, rfl⟩
      obtain ⟨p, hp⟩ := ih (fun y hy => hl y (by simp [hy])) (Dict.set d band (m.filterMap id))
      refine ⟨p, ?_⟩
      rw [List.foldlM_cons]
      simp only [dictGet, h1, hm, bind, Except.bind, pure, Except.pure] at hp ⊢
      exact hp
  apply key
  rintro ⟨f, i⟩ hx
  obtain ⟨-, h1, h2⟩ := List.mem_zipIdx hx
  constructor
  · rw [← hf, h2]; exact List.getElem_mem _
  · simpa using h1

theorem invert_parts {cpus : ℕ} {schedule : List ℕ} {res : InvRes}
    (hb : getFreqs cfg.freqs = .ok bands)
    (h : invert env cfg cpus schedule events = .ok (some res)) :
    ∃ selected origins stations args rlist, selectStreams env cfg events = .ok (some selected) ∧
      originsOf events = .ok origins ∧ resultStations env cfg = .ok stations ∧
      bandArgs cfg bands = .ok args ∧
      runBands env cfg args (ignoreNetworks cfg (boreholes env origins) selected)
        (bands.map Prod.snd) cpus schedule = .ok rlist ∧
      tables env cfg events stations bands.keys rlist = .ok (some res) := by
  unfold invert at h
  split at h
  · simp at h
  rw [hb] at h
  simp only [bind, Except.bind] at h
  split at h
  · simp at h
  rename_i streams hst
  cases streams with
  | none => simp [pure, Except.pure] at h
  | some streams =>
    simp only at h
    obtain ⟨origins, ho, h⟩ := bind_ok.1 h
    obtain ⟨stations, hsta, h⟩ := bind_ok.1 h
    obtain ⟨args, hargs, h⟩ := bind_ok.1 h
    obtain ⟨rlist, hr, h⟩ := bind_ok.1 h
    exact ⟨streams, origins, stations, args, rlist, hst, ho, hsta, hargs, hr, h⟩

theorem invert_of_parts {cpus : ℕ} {schedule : List ℕ} {selected : List Stream}
    {origins : Dict String Origin} {stations : List String} {args : BandArgs}
    {rlist : List (Option BandResult)} {o : Option InvRes} (hc : cfg.codaNorm = none)
    (hb : getFreqs cfg.freqs = .ok bands) (h1 : selectStreams env cfg events = .ok (some selected))
    (h2 : originsOf events = .ok origins) (h3 : resultStations env cfg = .ok stations)
    (h4 : bandArgs cfg bands = .ok args)
    (h5 : runBands env cfg args (ignoreNetworks cfg (boreholes env origins) selected)
        (bands.map Prod.snd) cpus schedule = .ok rlist)
    (h6 : tables env cfg events stations bands.keys rlist = .ok o) :
    invert env cfg cpus schedule events = .ok o := by
  unfold invert
  rw [if_neg (by simp [hc]), hb]
  simp only [bind, Except.bind, h1, h2, h3, h4, h5, h6]

/-- What the tables of two lists of results have in common. -/
theorem tables_again {fp : FixInput} {cmd : Cmd} {stations : List String} {freq : List ℝ}
    {rlist rlist' : List (Option BandResult)} {res : InvRes} {Q : BandResult → BandResult → Prop}
    (hQ : ∀ r r', Q r r' → r'.W = r.W ∧ r'.nstations = r.nstations ∧ r'.v0 = r.v0 ∧ r'.error ≠ ⊤ ∧
      (cmd = .fixed → r'.R = r.R))
    (hcmd : cfg.cmd = .go) (hcm : cmd ≠ .go) (hs : List.Forall₂ (Option.Rel Q) rlist rlist')
    (h : tables env cfg events stations freq rlist = .ok (some res)) :
    ∃ res', tables env (again cfg cmd fp) events stations freq rlist' = .ok (some res') ∧
      res'.freq = res.freq ∧ res'.events = res.events ∧ res'.nstations = res.nstations ∧
      res'.v0 = res.v0 ∧ res'.g0 = none ∧ res'.b = none ∧ (cmd = .fixed → res'.R = res.R) ∧
      (cmd = .source → res'.R = none) := by
  have hmap : ∀ {α : Type} (f : Option BandResult → α), (∀ r r', Q r r' → f (some r') = f (some r)) →
      rlist'.map f = rlist.map f := by
    intro α f hf
    clear h
    induction hs with
    | nil => rfl
    | cons a _ ih =>
      rw [List.map_cons, List.map_cons, ih]
      congr 1
      cases a with
      | none => rfl
      | some a => exact hf _ _ a
  unfold tables at h ⊢
  split at h
  · simp at h
  rename_i hall
  have hall' : ¬ rlist'.all Option.isNone := by
    intro h1
    apply hall
    have := hmap (fun o => o.isNone) (fun _ _ _ => rfl)
    rw [List.all_eq_true] at h1 ⊢
    intro o ho
    have hm : o.isNone ∈ rlist'.map (fun o => o.isNone) := by
      rw [this]; exact List.mem_map.2 ⟨o, ho, rfl⟩
    obtain ⟨o', ho', e⟩ := List.mem_map.1 hm
    rw [← e]; exact h1 o' ho'
  rw [if_neg hall']
  obtain ⟨err, herr, h⟩ := bind_ok.1 h
  obtain ⟨evs, hevs, h⟩ := bind_ok.1 h
  simp only [pure, Except.pure, Except.ok.injEq, Option.some.injEq] at h
  obtain ⟨err', herr'⟩ : ∃ e, mapExc errorCell rlist' = .ok e := by
    apply Site.mapExc_total
    intro o ho
    obtain ⟨j, hj, rfl⟩ := List.getElem_of_mem ho
    have := (List.forall₂_iff_get.1 hs).2 j (hs.length_eq ▸ hj) hj
    simp only [List.get_eq_getElem] at this
    generalize rlist[j]'(hs.length_eq ▸ hj) = o1 at this
    generalize rlist'[j] = o2 at this ⊢
    cases this with
    | none => exact ⟨_, rfl⟩
    | some a =>
      obtain ⟨x, hx⟩ := WithTop.ne_top_iff_exists.1 (hQ _ _ a).2.2.2.1
      refine ⟨.num x, ?_⟩
      simp only [errorCell, ← hx]
  have hv : lastV0 rlist' = lastV0 rlist := by
    have : ∀ l : List (Option BandResult), lastV0 l =
        ((l.map (Option.map (·.v0))).filterMap id).getLast? := by
      intro l
      unfold lastV0
      rw [← List.getLast?_map, List.map_filterMap, List.filterMap_map]
      rfl
    rw [this, this, hmap _ (fun r r' hq => by simp [(hQ r r' hq).2.2.1])]
  have hW : ∀ id, entry (·.W) id = entry (·.W) id := fun _ => rfl
  have hev : eventTables env (again cfg cmd fp) freq (lastV0 rlist') rlist' events =
      eventTables env cfg freq (lastV0 rlist) rlist events := by
    have hrow : ∀ ids id, rowW ids rlist' id = rowW ids rlist id := by
      intro ids id
      unfold rowW
      rw [List.flatMap_def, List.flatMap_def, hmap]
      intro r r' hq
      simp [entry, (hQ r r' hq).1]
    unfold eventTables sourceEvents
    rw [hv]
    simp only [hrow]
    rfl
  rw [herr']
  simp only [bind, Except.bind, hev, hevs, pure, Except.pure, Except.ok.injEq, Option.some.injEq]
  refine ⟨_, rfl, ?_⟩
  subst h
  have hn : rlist'.map (fun r => (r.map (·.nstations)).getD 0) =
      rlist.map (fun r => (r.map (·.nstations)).getD 0) :=
    hmap _ (fun r r' hq => by simp [(hQ r r' hq).2.1])
  have hg : (again cfg cmd fp).cmd ≠ .go := hcm
  simp only [hn, hv, hg, ne_eq, not_false_eq_true, if_true, true_and]
  constructor
  · rintro rfl
    have hR : ∀ st, rlist'.map (entry (·.R) st) = rlist.map (entry (·.R) st) := by
      intro st
      exact hmap _ (fun r r' hq => by simp [entry, (hQ r r' hq).2.2.2.2 rfl])
    simp [again, hcmd, hR]
  · rintro rfl
    simp [again]

theorem mapExc_of_runs {cpus : ℕ} {schedule : List ℕ} {args : BandArgs} {streams : List Stream}
    {rlist : List (Option BandResult)} (hj : OwnCopies cfg bands cpus schedule)
    (h0 : cfg.njobs ≠ some 0)
    (h : mapExc (runBand env cfg args streams) (bands.map Prod.snd) = .ok rlist) :
    runBands env cfg args streams (bands.map Prod.snd) cpus schedule = .ok rlist := by
  unfold runBands
  rw [if_neg h0]
  split
  · rwa [C24_sequential]
  · rename_i hne
    rcases hj.2 with h1 | h1
    · exact absurd h1 hne
    · rw [C24_any_number_of_workers_partial env cfg args streams _ _ (by simpa using h1)
        (hj.1 hne), C24_sequential]
      exact h

/-- The values of a row for a band. -/
def valuesOf (o : Option BandResult) (stations : List String) (sta : String) : Option ℝ :=
  if sta ∈ stations then (o.bind (·.R)).bind (fun d => d.get? sta) else none

theorem invert_again {cmd : Cmd} {cpus cpus' : ℕ} {schedule schedule' : List ℕ} {res : InvRes}
    {Q : BandResult → BandResult → Prop}
    (hset : IsSetOrder env.setOrder)
    (hQ : ∀ r r', Q r r' → r'.W = r.W ∧ r'.nstations = r.nstations ∧ r'.v0 = r.v0 ∧ r'.error ≠ ⊤ ∧
      (cmd = .fixed → r'.R = r.R))
    (hb : getFreqs cfg.freqs = .ok bands) (hc : cfg.codaNorm = none) (hcmd : cfg.cmd = .go)
    (hcm : cmd ≠ .go) (hj : OwnCopies cfg bands cpus schedule)
    (hj' : OwnCopies cfg bands cpus' schedule') (h0 : cfg.njobs ≠ some 0)
    (hband : ∀ streams stations band o P (i : ℕ) v, StreamsOf env cfg events streams →
      resultStations env cfg = .ok stations → (bands.map Prod.snd)[i]? = some band →
      invertFb env.lib env.wls env.G env.minimize
        (bandWCfg cfg { fix := false, sites := false } band)
        { cfg.inv with fix := false, fixParams := (none, none) } streams = .ok o →
      (v = true ↔ cmd = .source) →
      (cmd = .source → ∀ sta, Dict.get? P sta = valuesOf o stations sta) →
      (cmd = .fixed → P = []) →
      ∃ o', invertFb env.lib env.wls env.G env.minimize
        { bandWCfg cfg { fix := false, sites := false } band with fixSites := v, fixSitesParams := P }
        { cfg.inv with fix := true, fixParams := (o.bind (·.g0), o.bind (·.b)) } streams = .ok o' ∧
        Option.Rel Q o o')
    (h : invert env cfg cpus schedule events = .ok (some res)) :
    ∃ fp res', inputOf res = some fp ∧
      invert env (again cfg cmd fp) cpus' schedule' events = .ok (some res') ∧
      res'.freq = res.freq ∧ res'.events = res.events ∧ res'.nstations = res.nstations ∧
      res'.v0 = res.v0 ∧ res'.g0 = none ∧ res'.b = none ∧ (cmd = .fixed → res'.R = res.R) ∧
      (cmd = .source → res'.R = none) := by
  obtain ⟨selected, origins, stations, args, rlist, h1, h2, h3, h4, h5, h6⟩ := invert_parts hb h
  have hargs : args = { fix := false, sites := false } := by
    unfold bandArgs at h4
    rw [hcmd] at h4
    exact (Except.ok.inj h4).symm
  subst hargs
  set streams := ignoreNetworks cfg (boreholes env origins) selected with hstr
  have hso : StreamsOf env cfg events streams := ⟨selected, origins, h1, h2, rfl⟩
  have hrun := hj.run h5
  have hrun2 := mapExc_ok.1 hrun
  have hlen : rlist.length = bands.length := by simpa using hrun2.length_eq.symm
  have hres : ∃ err evs, res =
      { freq := bands.keys
        g0 := some (rlist.map (fun r => Cell.ofOption (r.bind (·.g0))))
        b := some (rlist.map (fun r => Cell.ofOption (r.bind (·.b))))
        error := err
        nstations := rlist.map (fun r => (r.map (·.nstations)).getD 0)
        v0 := lastV0 rlist
        R := some (stations.map (fun st => (st, rlist.map (entry (·.R) st))))
        events := evs } := by
    have h6' := h6
    unfold tables at h6'
    split at h6'
    · simp at h6'
    obtain ⟨err, -, h6'⟩ := bind_ok.1 h6'
    obtain ⟨evs, -, h6'⟩ := bind_ok.1 h6'
    simp only [pure, Except.pure, Except.ok.injEq, Option.some.injEq] at h6'
    refine ⟨err, evs, ?_⟩
    rw [← h6']
    simp [hcmd, hc]
  obtain ⟨err, evs, hres⟩ := hres
  set fp : FixInput := ⟨bands.keys, rlist.map (fun r => Cell.ofOption (r.bind (·.g0))),
    rlist.map (fun r => Cell.ofOption (r.bind (·.b))),
    stations.map (fun st => (st, rlist.map (entry (·.R) st)))⟩ with hfp
  have hin : inputOf res = some fp := by rw [hres]; rfl
  have hklen : bands.keys.length = bands.length := by simp [Dict.keys]
  obtain ⟨p, hp⟩ : ∃ p, fixParams bands fp = .ok p := by
    apply fixParams_total rfl
    · intro c hc
      obtain ⟨r, -, rfl⟩ := List.mem_map.1 hc
      cases r.bind (·.g0) <;> simp [Cell.ofOption]
    · intro c hc
      obtain ⟨r, -, rfl⟩ := List.mem_map.1 hc
      cases r.bind (·.b) <;> simp [Cell.ofOption]
  obtain ⟨s, hs⟩ : ∃ s, fixSites bands fp = .ok s := by
    apply fixSites_total rfl
    intro x hx
    obtain ⟨st, -, rfl⟩ := List.mem_map.1 hx
    simp [hfp, hlen, hklen]
  have hRWF : fp.R.WF := by
    unfold Dict.WF
    have : fp.R.keys = stations := by simp [hfp, Dict.keys, Function.comp_def]
    rw [this]
    exact (C23_stations hset h3).1
  obtain ⟨args', hargs'⟩ : ∃ a, bandArgs (again cfg cmd fp) bands = .ok a := by
    unfold bandArgs
    cases cmd with
    | go => exact absurd rfl hcm
    | fixed => exact ⟨_, by simp only [again, hp, bind, Except.bind, pure, Except.pure]; rfl⟩
    | source => exact ⟨_, by simp only [again, hp, hs, bind, Except.bind, pure, Except.pure]; rfl⟩
  have hsp : cmd = .fixed → args'.siteParams = [] := by
    rintro rfl
    unfold bandArgs at hargs'
    simp only [again, hp, bind, Except.bind, pure, Except.pure, Except.ok.injEq] at hargs'
    rw [← hargs']
  have hgo : (again cfg cmd fp).cmd ≠ .go := hcm
  have hall : ∀ (i : ℕ) band, (bands.map Prod.snd)[i]? = some band → ∃ o o', rlist[i]? = some o ∧
      runBand env (again cfg cmd fp) args' streams band = .ok o' ∧ Option.Rel Q o o' := by
    intro i band hi
    obtain ⟨o, ho, hcall⟩ := forall₂_getElem? hrun2 hi
    have hcall' := runBand_call h4 hcall
    obtain ⟨f, hf⟩ : ∃ f, bands[i]? = some (f, band) := by
      rw [List.getElem?_map] at hi
      cases hx : bands[i]? with
      | none => simp [hx] at hi
      | some x => rw [hx] at hi; exact ⟨x.1, by simp at hi; rw [← hi]⟩
    obtain ⟨g, b, R, ⟨j, j1, j2, j3, j4⟩, k1, k2, k3⟩ := C27_right_band (env := env)
      (cfg := again cfg cmd fp) (fp := fp) hb rfl hgo (bands_spec hb).2
      (by simp [hfp, hlen, hklen]) (by simp [hfp, hlen, hklen]) hRWF hargs'
      (List.mem_of_getElem? hf)
    have hij : j = i := by
      have hi' : bands.keys[i]? = some f := by simp [Dict.keys, hf]
      have hnd : bands.keys.Nodup := (bands_spec hb).2
      have j1' : bands.keys[j]? = some f := j1
      exact List.nodup_iff_getElem?_ne_getElem?.mp hnd |> fun hh => by
        by_contra hne
        rcases lt_or_gt_of_ne hne with hlt | hlt
        · exact hh j i hlt (List.getElem?_eq_some_iff.1 hi').1 (j1'.trans hi'.symm)
        · exact hh i j hlt (List.getElem?_eq_some_iff.1 j1').1 (hi'.trans j1'.symm)
    subst hij
    have hval : ∀ x : Option ℝ, (Cell.ofOption x).val? = x := by rintro (_ | _) <;> rfl
    have hg : g = o.bind (·.g0) := by
      simp only [hfp, List.getElem?_map, ho, Option.map_some, hval, Option.some.injEq] at j2
      exact j2.symm
    have hb' : b = o.bind (·.b) := by
      simp only [hfp, List.getElem?_map, ho, Option.map_some, hval, Option.some.injEq] at j3
      exact j3.symm
    have hR : ∀ sta, R sta = valuesOf o stations sta := by
      intro sta
      rw [j4]
      have hget : fp.R.get? sta = if sta ∈ stations then some (rlist.map (entry (·.R) sta))
          else none := by
        split
        · rename_i hm
          exact Dict.get?_of_mem hRWF (List.mem_map.2 ⟨sta, hm, rfl⟩)
        · rename_i hm
          rw [Dict.get?_eq_none]
          simpa [hfp, Dict.keys, Function.comp_def] using hm
      rw [hget]
      unfold valuesOf
      split
      · simp only [Option.bind_some, List.getElem?_map, ho, Option.map_some, entry, hval]
      · rfl
    obtain ⟨o', ho', hQo⟩ := hband streams stations band o
      (bandWCfg (again cfg cmd fp) args' band).fixSitesParams j
      (bandWCfg (again cfg cmd fp) args' band).fixSites hso h3 hi hcall' k2
      (fun e sta => by rw [k3 e, hR]) (fun e => by
        change (args'.siteParams.get? band).getD [] = []
        rw [hsp e]; rfl)
    refine ⟨o, o', ho, ?_, hQo⟩
    rw [k1, hg, hb']
    exact ho'
  have htot : ∃ rlist', mapExc (runBand env (again cfg cmd fp) args' streams)
      (bands.map Prod.snd) = .ok rlist' := by
    apply Site.mapExc_total
    intro band hm
    obtain ⟨i, hi⟩ := List.mem_iff_getElem?.1 hm
    obtain ⟨o, o', -, h', -⟩ := hall i band hi
    exact ⟨o', h'⟩
  obtain ⟨rlist', hr'⟩ := htot
  have hrel : List.Forall₂ (Option.Rel Q) rlist rlist' := by
    have hr2 := mapExc_ok.1 hr'
    have hl' : rlist'.length = bands.length := by simpa using hr2.length_eq.symm
    rw [List.forall₂_iff_get]
    refine ⟨by omega, fun i hi hi' => ?_⟩
    have hib : (bands.map Prod.snd)[i]? = some ((bands.map Prod.snd)[i]'(by simp; omega)) :=
      List.getElem?_eq_getElem _
    obtain ⟨o, o', a1, a2, a3⟩ := hall i _ hib
    obtain ⟨y, hy, e⟩ := forall₂_getElem? hr2 hib
    rw [a2] at e
    obtain rfl := Except.ok.inj e
    rw [List.getElem?_eq_getElem hi] at a1
    rw [List.getElem?_eq_getElem hi'] at hy
    simp only [List.get_eq_getElem]
    rw [Option.some.inj a1, Option.some.inj hy]
    exact a3
  obtain ⟨res', t1, t2⟩ := tables_again (fp := fp) (cmd := cmd) hQ hcmd hcm hrel h6
  refine ⟨fp, res', hin, ?_, t2⟩
  refine invert_of_parts (cfg := again cfg cmd fp) (selected := selected) (origins := origins)
    (stations := stations) (args := args') (rlist := rlist') hc hb h1 h2 h3 hargs' ?_ t1
  exact mapExc_of_runs (cfg := again cfg cmd fp) hj' h0 hr'

end Invert

/-- **C126**: the command `fixed` with the attenuation of an inversion of the same data reports the
same site responses, source energies (and source properties), velocities and numbers of stations in
all bands.  Bands without result stay without result. -/
theorem C126_fixed {cpus cpus' : ℕ} {schedule schedule' : List ℕ} {res : InvRes}
    (hwls : IsWls rank env.wls) (hr : FullRank rank) (hG : OneValuePerTime env.G)
    (hset : IsSetOrder env.setOrder)
    (hb : getFreqs cfg.freqs = .ok bands) (hc : cfg.codaNorm = none) (hcmd : cfg.cmd = .go)
    (hj : OwnCopies cfg bands cpus schedule) (hj' : OwnCopies cfg bands cpus' schedule')
    (h0 : cfg.njobs ≠ some 0) (hx : WellPosed env cfg bands events)
    (h : invert env cfg cpus schedule events = .ok (some res)) :
    ∃ fp res', inputOf res = some fp ∧
      invert env (again cfg .fixed fp) cpus' schedule' events = .ok (some res') ∧
      res'.freq = res.freq ∧ res'.R = res.R ∧ res'.events = res.events ∧
      res'.nstations = res.nstations ∧ res'.v0 = res.v0 := by
  have key := invert_again (cmd := .fixed) (cpus' := cpus') (schedule' := schedule')
    (Q := fun r r' => r'.R = r.R ∧ r'.W = r.W ∧ r'.nstations = r.nstations ∧ r'.v0 = r.v0 ∧
      r'.error ≠ ⊤) hset (fun r r' hq => ⟨hq.2.1, hq.2.2.1, hq.2.2.2.1, hq.2.2.2.2, fun _ => hq.1⟩)
    hb hc hcmd (by simp) hj hj' h0 (by
      intro streams stations band o P i v hs hst hi ho hv _ hP
      obtain rfl : v = false := by simpa using hv
      obtain rfl := hP rfl
      refine fixed_again (w := bandWCfg cfg { fix := false, sites := false } band)
        (inv := { cfg.inv with fix := false, fixParams := (none, none) }) hwls hr hG
        (hx.pairs _ hs) hc rfl rfl ?_ ho
      intro v0 ps hacc hne
      exact hx.windows i _ ps ⟨{ fix := false, sites := false }, streams, band, v0, by
        unfold bandArgs; rw [hcmd], hs, hi, hacc, rfl⟩ hne) h
  obtain ⟨fp, res', a1, a2, a3, a4, a5, a6, -, -, a7, -⟩ := key
  exact ⟨fp, res', a1, a2, a3, a7 rfl, a4, a5, a6⟩

end Qopen
