import Verif.Props.UselessStations
import Verif.Props.EventSizeWrapper
import Verif.Props.OtherBandsSeparate
import Verif.Props.FigureResults

/-!
# Stations without usable data have no influence on separate inversions (C149)
-/

namespace Qopen

open Real Spec Util Catalog Freqs Source Invert InvertFb Wrapper Collect Total FigureResults

/-! ## Specification -/

namespace Spec

/-- The tables of site responses agree but for empty rows. -/
def SameSites (T T' : Dict String (List Cell)) : Prop :=
  ∀ sta, (∀ row, T'.get? sta = some row → T.get? sta = some row) ∧
    (T'.get? sta = none → ∀ row, T.get? sta = some row → ∀ c ∈ row, c = Cell.none)

/-- The results of an event agree but for empty rows in the table of site responses. -/
structure SameEntry (e e' : Dict String RVal) : Prop where
  other : ∀ key ∈ ["g0", "b", "error", "nstations", "v0", "W", "sds", "M0", "Mw", "Mcat", "fc", "n", "gamma",
    "fit_error"], e'.get? key = e.get? key
  noSites : e'.get? "R" = none ↔ e.get? "R" = none
  sites : ∀ T T', e.get? "R" = some (.sites T) → e'.get? "R" = some (.sites T') → SameSites T T'

/-- The results of all events and their means agree but for empty rows in the tables of site responses. -/
structure SameButEmptyMeans (w w' : WrapRes) : Prop where
  freq : w'.freq = w.freq
  g0 : w'.g0 = w.g0
  b : w'.b = w.b
  error : w'.error = w.error
  sites : SameSites (w.R.getD []) (w'.R.getD [])
  events : List.Forall₂ (fun x y => x.1 = y.1 ∧ SameEntry x.2 y.2) w.events w'.events

end Spec

theorem sameEntry {r r' : InvRes} {id : String} {e e' : Dict String RVal} (hs : SameButEmptyRows r r')
    (h : EventResult r id e) (h' : EventResult r' id e') : SameEntry e e' := by
  refine ⟨?_, ?_, ?_⟩
  · intro key hkey
    have hsrc : ∀ k ∈ ["sds", "M0", "Mw", "Mcat", "fc", "n", "gamma", "fit_error"], e'.get? k = e.get? k := by
      intro k hk
      rw [h.source k hk, h'.source k hk, hs.events]
    simp only [List.mem_cons, List.not_mem_nil, or_false] at hkey
    rcases hkey with rfl | rfl | rfl | rfl | rfl | rfl | hk
    · rw [h.g0, h'.g0, hs.g0]
    · rw [h.b, h'.b, hs.b]
    · rw [h.error, h'.error, hs.error]
    · rw [h.nstations, h'.nstations, hs.nstations]
    · rw [h.v0, h'.v0, hs.v0]
    · rw [h.W, h'.W, hs.events]
    · exact hsrc key (by simpa using hk)
  · rw [h.R, h'.R]
    simpa using hs.noSites
  · intro T T' hT hT'
    rw [h.R] at hT
    rw [h'.R] at hT'
    obtain ⟨t, ht, hT⟩ := Option.map_eq_some_iff.1 hT
    obtain ⟨t', ht', hT'⟩ := Option.map_eq_some_iff.1 hT'
    obtain rfl := RVal.sites.inj hT
    obtain rfl := RVal.sites.inj hT'
    exact hs.sites t t' ht ht'

namespace Wrapper

/-- The mean of a band without values is missing. -/
theorem colMean_empty {rlm : List ℝ → ℝ × ℝ} {mean : Mean} {col errs : List Cell} {o : Option ℝ}
    (hc : ∀ c ∈ col, c.val? = none) (h : colMean rlm mean col errs = .ok o) : o = none := by
  have hl : ∀ x ∈ maLog (maskedInvalid col), x = none := by
    intro x hx
    unfold maLog maskedInvalid at hx
    obtain ⟨y, hy, rfl⟩ := List.mem_map.1 hx
    obtain ⟨c, hcc, rfl⟩ := List.mem_map.1 hy
    rw [hc c hcc]
    rfl
  have hv : validData (maLog (maskedInvalid col)) = [] := by
    unfold validData
    rw [List.filterMap_eq_nil_iff]
    intro x hx
    rw [hl x hx]
    rfl
  have hp : ∀ w, validPairs (maLog (maskedInvalid col)) w = [] := by
    intro w
    unfold validPairs
    rw [List.filterMap_eq_nil_iff]
    intro x hx
    rw [hl x.1 (List.of_mem_zip hx).1]
    rfl
  unfold colMean at h
  cases mean with
  | plain =>
    simp only at h
    rw [gmean_eq] at h
    simp [weightsMismatch, maAverage, hv] at h
    exact h.symm
  | robust =>
    simp only at h
    unfold gmean gstat robustStat at h
    simp only [hv] at h
    simp [weightedStat, weightsMismatch, maAverage, validData, bind, Except.bind, pure, Except.pure] at h
    exact h.symm
  | weighted =>
    simp only at h
    split at h
    · exact (Except.ok.inj h).symm
    · rw [gmean_eq] at h
      split at h
      · simp at h
      · simp [maAverage, hp] at h
        exact h.symm

end Wrapper

section

variable {env : Env} {cfg : InvCfg} {cpus : ℕ} {schedule : List Event → List ℕ} {events : List Event}
  {bands : Dict ℝ (ℝ × ℝ)} {rlm : List ℝ → ℝ × ℝ} {mean : Mean} {drop : List String}

/-- Means of results which agree but for empty rows. -/
theorem means_rows {go : Bool} {st st' : Option (List String)} {nf : ℕ} {freq : List ℝ} {w w' : WrapRes}
    {d d' : Dict String (Dict String RVal)} (hne : d ≠ [])
    (hf : ∀ e ∈ d, CompleteEvent go st nf e.2) (hf' : ∀ e ∈ d', CompleteEvent go st' nf e.2)
    (hd : List.Forall₂ (fun x y => x.1 = y.1 ∧ SameEntry x.2 y.2) d d')
    (h : means rlm mean freq d = .ok (some w)) (h' : means rlm mean freq d' = .ok (some w')) :
    SameButEmptyMeans w w' := by
  have hne' : d' ≠ [] := by
    rintro rfl
    cases hd
    exact hne rfl
  have hn : (["g0", "b", "error", "R"] : List String).Nodup := by decide
  obtain ⟨col, g0, b, errs, sites, R, hc, hg, hb, he, hs, hg0, hbm, ⟨em, hem, hem'⟩, hR, hwR, hev, hfr, -⟩ :=
    means_some h
  obtain ⟨col', g0', b', errs', sites', R', hc', hg', hb', he', hs', hg0', hbm', ⟨em', hem1, hem2⟩, hR', hwR',
    hev', hfr', -⟩ := means_some h'
  obtain ⟨c0, hc0, hC⟩ := collect_total (events := d) (only := ["g0", "b", "error", "R"])
    (fun e he => fits_of_complete (hf e he) (by decide)) (by decide)
  rw [hc, Except.ok.injEq] at hc0
  subst hc0
  obtain ⟨c0, hc0, hC'⟩ := collect_total (events := d') (only := ["g0", "b", "error", "R"])
    (fun e he => fits_of_complete (hf' e he) (by decide)) (by decide)
  rw [hc', Except.ok.injEq] at hc0
  subst hc0
  have hrows : ∀ key ∈ ["g0", "b", "error"], rowsWith d' key = rowsWith d key := by
    intro key hk
    unfold rowsWith
    clear hne hf hf' h h' hne' hc hc' hC hC' hev hev'
    induction hd with
    | nil => rfl
    | @cons x y l l' hxy hl ih =>
      rw [List.filterMap_cons, List.filterMap_cons, hxy.2.other key (by
        simp only [List.mem_cons, List.not_mem_nil, or_false] at hk ⊢
        tauto), ih]
  have harr : ∀ key ∈ ["g0", "b", "error"], ∀ a a', arrayOf col key = .ok a → arrayOf col' key = .ok a' →
      a' = a := by
    intro key hk a a' ha ha'
    obtain ⟨a1, h1, h2, h3⟩ := array_rows hne hf hn hc hC (c := key) (by
      simp only [List.mem_cons, List.not_mem_nil, or_false] at hk ⊢
      tauto) hk
    obtain ⟨a1', h1', h2', h3'⟩ := array_rows hne' hf' hn hc' hC' (c := key) (by
      simp only [List.mem_cons, List.not_mem_nil, or_false] at hk ⊢
      tauto) hk
    rw [ha] at h1
    rw [ha'] at h1'
    obtain rfl := Except.ok.inj h1
    obtain rfl := Except.ok.inj h1'
    cases a with
    | none => exact h2'.2 (h2.1 rfl)
    | some rows =>
      cases a' with
      | none => exact absurd (h2.2 (h2'.1 rfl)) (by simp)
      | some rows' => rw [(h3 rows rfl).2.2.2, (h3' rows' rfl).2.2.2, hrows key hk]
  obtain rfl := harr "g0" (by simp) _ _ hg hg'
  obtain rfl := harr "b" (by simp) _ _ hb hb'
  obtain rfl := Option.some.inj (harr "error" (by simp) _ _ he he')
  rw [hg0, Except.ok.injEq] at hg0'
  rw [hbm, Except.ok.injEq] at hbm'
  rw [hem', Except.ok.injEq] at hem2
  refine ⟨by rw [hfr, hfr'], hg0'.symm, hbm'.symm, by rw [hem, hem1, hem2], ?_, by rw [hev, hev']; exact hd⟩
  obtain ⟨-, s1, s2⟩ := sites_rows hf hn (by decide) hc hs
  obtain ⟨-, s1', s2'⟩ := sites_rows hf' hn (by decide) hc' hs'
  have hw : ∀ {x : WrapRes} {R : Dict String (List Cell)}, x.R = (if R.length > 0 then some R else none) →
      x.R.getD [] = R := by
    intro x R hx
    rw [hx]
    split
    · rfl
    · rename_i hz
      have : R.length = 0 := by omega
      rw [List.length_eq_zero_iff.1 this]
      rfl
  rw [hw hwR, hw hwR']
  -- rows of a station in the results of the events
  have hstep : ∀ sta, ∀ x ∈ d, ∀ y ∈ d', SameEntry x.2 y.2 →
      (∀ row, siteAt sta y.2 = some row → siteAt sta x.2 = some row) ∧
      (siteAt sta y.2 = none → ∀ row, siteAt sta x.2 = some row → ∀ c ∈ row, c = Cell.none) := by
    intro sta x hx y hy hxy
    cases hst : st with
    | none =>
      have hxn := (hf x hx).noR hst
      have hyn := hxy.noSites.2 hxn
      unfold siteAt
      rw [hxn, hyn]
      simp
    | some l =>
      obtain ⟨T, k1, -⟩ := (hf x hx).R l hst
      cases hst' : st' with
      | none =>
        have hyn := (hf' y hy).noR hst'
        rw [hxy.noSites.1 hyn] at k1
        simp at k1
      | some l' =>
        obtain ⟨T', k1', -⟩ := (hf' y hy).R l' hst'
        have := hxy.sites T T' k1 k1' sta
        unfold siteAt
        rw [k1, k1']
        exact this
  intro sta
  constructor
  · intro row hrow
    rcases get?_forall₂ (r := fun a b => tableMean rlm mean errs' a = .ok b) hR' sta with ⟨-, hz⟩ | ⟨x', y', hx', hy', hxy'⟩
    · rw [hz] at hrow; simp at hrow
    rcases s2' sta with ⟨-, hz⟩ | ⟨hnn, hg2⟩
    · rw [hz] at hx'; simp at hx'
    -- all events have a row of the station
    have hall : ∀ y ∈ d', ∃ r, siteAt sta y.2 = some r := by
      obtain ⟨r0, hr0⟩ := List.exists_mem_of_ne_nil _ hnn
      obtain ⟨y0, hy0, hr0⟩ := List.mem_filterMap.1 hr0
      cases hst' : st' with
      | none =>
        have := (hf' y0 hy0).noR hst'
        rw [this] at hr0
        simp at hr0
      | some l =>
        obtain ⟨T0, k1, -, k3, -⟩ := (hf' y0 hy0).R l hst'
        rw [k1] at hr0
        simp only at hr0
        have hm : sta ∈ l := by
          rw [← k3, ← Dict.get?_isSome, hr0]
          rfl
        intro y hy
        obtain ⟨T, q1, -, q3, -⟩ := (hf' y hy).R l hst'
        rw [← q3, ← Dict.get?_isSome] at hm
        obtain ⟨r, hr⟩ := Option.isSome_iff_exists.1 hm
        exact ⟨r, by unfold siteAt; rw [q1]; exact hr⟩
    have hsame : siteRows d sta = siteRows d' sta := by
      show d.filterMap (fun e => siteAt sta e.2) = d'.filterMap (fun e => siteAt sta e.2)
      have hstep' := hstep sta
      clear hne hf hf' h h' hne' hc hc' hC hC' hev hev' hrows s1 s2 s1' s2' hg2 hnn hstep
      induction hd with
      | nil => rfl
      | @cons x y l l' hxy hl ih =>
        obtain ⟨r, hr⟩ := hall y List.mem_cons_self
        have hx := (hstep' x List.mem_cons_self y List.mem_cons_self hxy.2).1 r hr
        rw [List.filterMap_cons_some (f := fun e : String × Dict String RVal => siteAt sta e.2) hx,
          List.filterMap_cons_some (f := fun e : String × Dict String RVal => siteAt sta e.2) hr,
          ih (fun y hy => hall y (List.mem_cons_of_mem _ hy))
            (fun a ha b hb => hstep' a (List.mem_cons_of_mem _ ha) b (List.mem_cons_of_mem _ hb))]
    rcases s2 sta with ⟨hz, -⟩ | ⟨-, hg1⟩
    · exact absurd (hsame ▸ hz) hnn
    rcases get?_forall₂ (r := fun a b => tableMean rlm mean errs' a = .ok b) hR sta with ⟨hz, -⟩ | ⟨x, y, hx, hy, hxy⟩
    · rw [hg1] at hz; simp at hz
    rw [hg1, Option.some.injEq] at hx
    rw [hg2, Option.some.injEq] at hx'
    rw [← hx, hsame, hx', hxy', Except.ok.injEq] at hxy
    rw [hy, ← hxy, ← hy', hrow]
  · intro hnone row hrow c hcm
    rcases get?_forall₂ (r := fun a b => tableMean rlm mean errs' a = .ok b) hR sta with ⟨-, hz⟩ | ⟨x, y, hx, hy, hxy⟩
    · rw [hz] at hrow; simp at hrow
    rw [hrow, Option.some.injEq] at hy
    subst hy
    rcases s2' sta with ⟨hz', -⟩ | ⟨-, hg2⟩
    swap
    · rcases get?_forall₂ (r := fun a b => tableMean rlm mean errs' a = .ok b) hR' sta with ⟨hz, -⟩ | ⟨_, _, -, hz, -⟩
      · rw [hg2] at hz; simp at hz
      · rw [hnone] at hz; simp at hz
    rcases s2 sta with ⟨-, hz⟩ | ⟨hnn, hg1⟩
    · rw [hz] at hx; simp at hx
    rw [hg1, Option.some.injEq] at hx
    have hempty : ∀ r ∈ siteRows d sta, ∀ c ∈ r, c = Cell.none := by
      intro r hr
      obtain ⟨e, hee, hr⟩ := List.mem_filterMap.1 hr
      obtain ⟨i, hi⟩ := List.mem_iff_getElem?.1 hee
      obtain ⟨y, hy, hxy2⟩ := forall₂_at hd hi
      have hym : y ∈ d' := List.mem_of_getElem? hy
      refine (hstep sta e hee y hym hxy2.2).2 ?_ r hr
      have := List.filterMap_eq_nil_iff.1 hz' y hym
      exact this
    have hlen : ∀ r ∈ x, r.length = nf := by
      intro r hr
      rw [← hx] at hr
      obtain ⟨r0, hr0, rfl⟩ := List.mem_map.1 hr
      obtain ⟨e, hee, h0⟩ := List.mem_filterMap.1 hr0
      rw [List.length_map]
      cases hst : st with
      | none => rw [(hf e hee).noR hst] at h0; simp at h0
      | some l =>
        obtain ⟨T, k1, -, -, k4⟩ := (hf e hee).R l hst
        rw [k1] at h0
        exact k4 _ (Dict.mem_of_get? h0)
    have hxne : x ≠ [] := by
      rw [← hx]
      simpa using hnn
    obtain ⟨hl, hcols⟩ := tableMean_col hlen hxne hxy
    obtain ⟨i, hi⟩ := List.mem_iff_getElem?.1 hcm
    obtain ⟨hilt, -⟩ := List.getElem?_eq_some_iff.1 hi
    obtain ⟨o, ho, hcol⟩ := hcols i (by omega)
    have := colMean_empty (by
      intro c hc
      unfold column at hc
      obtain ⟨r, hr, rfl⟩ := List.mem_map.1 hc
      rw [← hx] at hr
      obtain ⟨r0, hr0, rfl⟩ := List.mem_map.1 hr
      rw [List.getD_eq_getElem?_getD, List.getElem?_map]
      cases hri : r0[i]? with
      | none => rfl
      | some c =>
        rw [hempty r0 hr0 c (List.mem_of_getElem? hri)]
        rfl) hcol
    rw [ho, Option.some.injEq] at hi
    rw [← hi, this]
    rfl

/-- Separate inversions with another environment, in which the result of each event agrees but for empty rows. -/
theorem separate_rows {env' : Env} {Q : Dict String RVal → Dict String RVal → Prop}
    (hset : IsSetOrder env.setOrder) (hset' : IsSetOrder env'.setOrder) (hn : events.Nodup)
    (hb : getFreqs cfg.freqs = .ok bands)
    (hs : ∀ evs, Schedule cfg (bands.map Prod.snd) cpus (schedule evs)) {out : Option WrapRes}
    (hone : ∀ ev ∈ events, ∀ r, invert env cfg cpus (schedule [ev]) [ev] = .ok r →
      ∃ r', invert env' cfg cpus (schedule [ev]) [ev] = .ok r' ∧
        Option.Rel (fun r r' => SameButEmptyRows r r' ∧
          ∀ id e e', EventResult r id e → EventResult r' id e' → Q e e') r r')
    (h : invertWrapper rlm (fun evs => invert env cfg cpus (schedule evs) evs) cfg.codaNorm.isSome false mean
      events = .ok out) :
    ∃ out', invertWrapper rlm (fun evs => invert env' cfg cpus (schedule evs) evs)
      cfg.codaNorm.isSome false mean events = .ok out' ∧ Option.Rel (fun w w' => SameButEmptyMeans w w' ∧
        List.Forall₂ (fun x y => x.1 = y.1 ∧ Q x.2 y.2) w.events w'.events) out out' := by
  obtain ⟨t1, t2, t3⟩ := separate_only_if hn h
  obtain ⟨o, p1, p2, p3⟩ := separate_total (rlm := rlm) (mean := mean) hset hn hb hs rfl t1 t2 t3
  rw [h, Except.ok.injEq] at p1
  subst p1
  obtain ⟨out', h', q2, q3⟩ := separate_total (env := env') (rlm := rlm) (mean := mean) (cfg := cfg)
    (cpus := cpus) (schedule := schedule) hset' hn hb hs rfl t1 t2 (by
      intro ev hev ho
      obtain ⟨k1, o, k2⟩ := t3 ev hev ho
      obtain ⟨r', k3, -⟩ := hone ev hev o k2
      exact ⟨k1, r', k3⟩)
  refine ⟨out', h', ?_⟩
  have hnone : out = none ↔ out' = none := by
    rw [p2, q2]
    constructor
    · intro hall ev hev ho
      obtain ⟨r', k1, k2⟩ := hone ev hev _ (hall ev hev ho)
      cases k2
      exact k1
    · intro hall ev hev ho
      obtain ⟨-, o, k2⟩ := t3 ev hev ho
      obtain ⟨r', k3, k4⟩ := hone ev hev o k2
      have k5 := hall ev hev ho
      rw [k3, Except.ok.injEq] at k5
      subst k5
      cases k4
      exact k2
  cases out with
  | none => rw [hnone.1 rfl]; exact .none
  | some w =>
    cases out' with
    | none => exact absurd (hnone.2 rfl) (by simp)
    | some w' =>
      have hS := p3 w rfl
      have hS' := q3 w' rfl
      refine .some ?_
      obtain ⟨order, hord, h⟩ := bind_ok.1 h
      obtain ⟨order', hord', h'⟩ := bind_ok.1 h'
      rw [hord] at hord'
      obtain rfl := Except.ok.inj hord'
      obtain ⟨hp, -⟩ := orderEvents_ok hord
      have hmem : ∀ ev ∈ order, ev ∈ events := fun ev hev =>
        (List.mem_filter.1 (hp.perm.mem_iff.1 hev)).1
      rw [if_neg (by simp)] at h h'
      unfold separately at h h'
      obtain ⟨st, hst, h⟩ := bind_ok.1 h
      obtain ⟨st', hst', h'⟩ := bind_ok.1 h'
      split at h
      · simp [pure, Except.pure] at h
      split at h'
      · simp [pure, Except.pure] at h'
      obtain ⟨l1, l2⟩ := loop_rel (P := fun _ e e' => SameEntry e e' ∧ Q e e') (by
        intro ev hev o o' ho ho'
        obtain ⟨r', k1, k2⟩ := hone ev (hmem ev hev) o ho
        rw [k1, Except.ok.injEq] at ho'
        subst ho'
        cases k2 with
        | none => exact .none
        | @some r r' k2 =>
          refine .some ⟨k2.1.freq, ?_⟩
          intro e e' he he'
          exact ⟨sameEntry k2.1 (entry_result ho he) (entry_result k1 he'),
            k2.2 _ e e' (entry_result ho he) (entry_result k1 he')⟩) rfl .nil hst hst'
      rw [l1] at h'
      obtain ⟨_, _, _, _, _, _, _, _, _, _, _, _, _, _, _, _, hw1, _⟩ := means_some h
      obtain ⟨_, _, _, _, _, _, _, _, _, _, _, _, _, _, _, _, hw1', _⟩ := means_some h'
      refine ⟨means_rows (by rw [← hw1]; exact hS.some_event) (by rw [← hw1]; exact hS.complete)
        (by rw [← hw1']; exact hS'.complete) (l2.imp (fun x y hxy => ⟨hxy.1, hxy.2.1⟩)) h h', ?_⟩
      rw [hw1, hw1']
      exact l2.imp (fun x y hxy => ⟨hxy.1, hxy.2.2⟩)

/-- **C149** Events which are inverted separately: stations without usable record have no influence on the
results of the events and on their means, but for rows in the tables of site responses, which contain
nothing. -/
theorem C149_separate (hset : IsSetOrder env.setOrder) (hn : events.Nodup)
    (hr : ∀ ev ∈ events, OnsetsReadable cfg [ev])
    (hw : ∀ evid pat t1 t2, ∃ d, env.getWaveforms evid pat t1 t2 = .ok d)
    (hown : ∀ ev ∈ events, OwnRecords env cfg [ev]) (hties : ∀ ev ∈ events, NoTies env cfg [ev])
    (hu : ∀ ev ∈ events, Useless env cfg [ev] drop)
    -- station codes without network code are not mistaken for dropped stations
    (hcodes : cfg.ignoreNetworkCode = true → ∀ ch ∈ env.channels, dropNetwork (getStation ch) ∉ drop)
    (hb : getFreqs cfg.freqs = .ok bands)
    (hs : ∀ evs, Schedule cfg (bands.map Prod.snd) cpus (schedule evs)) {out : Option WrapRes}
    (h : invertWrapper rlm (fun evs => invert env cfg cpus (schedule evs) evs) cfg.codaNorm.isSome false mean
      events = .ok out) :
    ∃ out', invertWrapper rlm (fun evs => invert (Without env drop) cfg cpus (schedule evs) evs)
      cfg.codaNorm.isSome false mean events = .ok out' ∧ Option.Rel SameButEmptyMeans out out' := by
  have hone : ∀ ev ∈ events, ∀ r, invert env cfg cpus (schedule [ev]) [ev] = .ok r →
      ∃ r', invert (Without env drop) cfg cpus (schedule [ev]) [ev] = .ok r' ∧
        Option.Rel (fun r r' => SameButEmptyRows r r' ∧
          ∀ id e e', EventResult r id e → EventResult r' id e' → True) r r' := by
    intro ev hev r hri
    obtain ⟨r', h1, h2⟩ := C149_inversion (drop := drop) hset (by simp) (hr ev hev) hw (hown ev hev)
      (hties ev hev) (hu ev hev) hcodes hb (hs [ev]) hri
    refine ⟨r', h1, ?_⟩
    rcases h2 with ⟨rfl, rfl⟩ | ⟨res, res', rfl, rfl, h3⟩
    · exact .none
    · exact .some ⟨h3, fun _ _ _ _ _ => trivial⟩
  obtain ⟨out', h', hrel⟩ := separate_rows (env' := Without env drop) (Q := fun _ _ => True) hset hset hn hb hs
    hone h
  refine ⟨out', h', ?_⟩
  cases hrel with
  | none => exact .none
  | some hrel => exact .some hrel.1

end

namespace UselessExample

open JobsExample TablesExample

/-- The separate inversion of an event at two stations, one of them without coordinates. -/
theorem separateRun (rlm : List ℝ → ℝ × ℝ) : ∃ w,
    invertWrapper rlm (fun evs => invert env (exCfg (some 1)) 1 [] evs) (exCfg (some 1)).codaNorm.isSome false
      .robust [exEvent] = .ok (some w) := by
  obtain ⟨res, h⟩ := run
  have hti : ¬ Tie [exEvent] := by
    rintro ⟨a, ha, b, hb, hab, -⟩
    simp at ha hb
    exact hab (ha.trans hb.symm)
  obtain ⟨o, p1, p2, -⟩ := separate_total (rlm := rlm) (mean := .robust) setOrder (events := [exEvent]) (by simp)
    bands (cpus := 1) (schedule := fun _ => []) (fun _ hne => absurd rfl hne) rfl hti ⟨exEvent, by simp, rfl⟩
    (fun ev hev _ => by simp at hev; subst hev; exact ⟨rfl, _, h⟩)
  obtain ⟨w, rfl⟩ : ∃ w, o = some w := by
    cases o with
    | some w => exact ⟨w, rfl⟩
    | none =>
      have := p2.1 rfl exEvent (by simp) rfl
      simp only [h] at this
      simp at this
  exact ⟨w, p1⟩

/-- The row of the useless station disappears, everything else stays the same. -/
example (rlm : List ℝ → ℝ × ℝ) : ∃ w w',
    invertWrapper rlm (fun evs => invert env (exCfg (some 1)) 1 [] evs) (exCfg (some 1)).codaNorm.isSome false
      .robust [exEvent] = .ok (some w) ∧
    invertWrapper rlm (fun evs => invert (Without env ["X.B"]) (exCfg (some 1)) 1 [] evs)
      (exCfg (some 1)).codaNorm.isSome false .robust [exEvent] = .ok (some w') ∧ SameButEmptyMeans w w' := by
  obtain ⟨w, p1⟩ := separateRun rlm
  obtain ⟨out', q1, q2⟩ := C149_separate (drop := ["X.B"]) (schedule := fun _ => []) setOrder (by simp)
    (by simpa using readable) client (by simpa using own)
    (by
      intro e he
      rw [List.mem_singleton.1 he]
      intro ev hev ev' hev' sta sta' st st' h1 h2 _ _
      have m1 := ((C28_pairs setOrder (by simp) select).1 st).2 ⟨ev, hev, sta, h1⟩
      have m2 := ((C28_pairs setOrder (by simp) select).1 st').2 ⟨ev', hev', sta', h2⟩
      rw [List.mem_singleton] at m1 m2
      rw [m1, m2])
    (by simpa using useless) (fun h => by simp [exCfg] at h) bands (fun _ hne => absurd rfl hne) p1
  cases q2 with
  | some q2 => exact ⟨w, _, p1, q1, q2⟩

end UselessExample

end Qopen
