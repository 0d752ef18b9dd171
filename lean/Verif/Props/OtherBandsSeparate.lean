import Verif.Props.OtherBands
import Verif.Props.Returns

/-!
# Other frequency bands, events inverted separately (C144)
-/

namespace Qopen

open Real Spec Util Catalog Freqs Source Invert Wrapper Collect Total

namespace Spec

/-- The means over all events agree in the band with place `i` in the first and `j` in the second result. -/
structure SameMeansAt (w w' : WrapRes) (i j : ℕ) : Prop where
  error : ∃ l l' c, w.error = some l ∧ w'.error = some l' ∧ l[i]? = some c ∧ l'[j]? = some c
  g0 : (w.g0 = none ∧ w'.g0 = none) ∨
    ∃ l l' c, w.g0 = some l ∧ w'.g0 = some l' ∧ l[i]? = some c ∧ l'[j]? = some c
  b : (w.b = none ∧ w'.b = none) ∨
    ∃ l l' c, w.b = some l ∧ w'.b = some l' ∧ l[i]? = some c ∧ l'[j]? = some c
  sites : ∀ sta, ((w.R.getD []).get? sta = none ∧ (w'.R.getD []).get? sta = none) ∨
    ∃ l l' c, (w.R.getD []).get? sta = some l ∧ (w'.R.getD []).get? sta = some l' ∧
      l[i]? = some c ∧ l'[j]? = some c

end Spec

namespace Wrapper

/-- A positive value with its error. -/
noncomputable def posPair (p : Cell × Cell) : Option (ℝ × Cell) :=
  match p.1 with
  | .num x => if 0 < x then some (x, p.2) else none
  | _ => none

noncomputable def posPairs (rows errs : List (List Cell)) (i : ℕ) : List (ℝ × Cell) :=
  ((column rows i).zip (column errs i)).filterMap posPair

theorem valid_logs {cs es : List Cell} (h : cs.length = es.length) :
    validData (maLog (maskedInvalid cs)) = ((cs.zip es).filterMap posPair).map (fun p => log p.1) := by
  induction cs generalizing es with
  | nil => rfl
  | cons c cs ih =>
    cases es with
    | nil => simp at h
    | cons e es =>
      have hh := ih (es := es) (by simpa using h)
      unfold validData maLog maskedInvalid at hh ⊢
      cases c with
      | num x =>
        by_cases hx : 0 < x <;>
        · simp [Cell.val?, posPair, hx] at hh ⊢
          exact hh
      | _ =>
        simp [Cell.val?, posPair] at hh ⊢
        exact hh

theorem valid_weights {cs es : List Cell} (h : cs.length = es.length) :
    validPairs (maLog (maskedInvalid cs)) (es.map weightOf) =
      ((cs.zip es).filterMap posPair).map (fun p => (log p.1, weightOf p.2)) := by
  induction cs generalizing es with
  | nil => rfl
  | cons c cs ih =>
    cases es with
    | nil => simp at h
    | cons e es =>
      have hh := ih (es := es) (by simpa using h)
      unfold validPairs maLog maskedInvalid at hh ⊢
      cases c with
      | num x =>
        by_cases hx : 0 < x <;>
        · simp [Cell.val?, posPair, hx] at hh ⊢
          exact hh
      | _ =>
        simp [Cell.val?, posPair] at hh ⊢
        exact hh

theorem bad_weight {cs es : List Cell} (h : cs.length = es.length) :
    badWeight (maLog (maskedInvalid cs)) es ↔
      ∃ p ∈ (cs.zip es).filterMap posPair, p.2.val? = none ∨ p.2 = .num 0 := by
  induction cs generalizing es with
  | nil => simp [badWeight, maLog, maskedInvalid]
  | cons c cs ih =>
    cases es with
    | nil => simp at h
    | cons e es =>
      have hh := ih (es := es) (by simpa using h)
      unfold badWeight maLog maskedInvalid at hh ⊢
      cases c with
      | num x =>
        by_cases hx : 0 < x <;>
        · simp [Cell.val?, posPair, hx] at hh ⊢
          rw [hh]
      | _ =>
        simp [Cell.val?, posPair] at hh ⊢
        rw [hh]

/-- The mean of a band is a function of the positive values of this band and their errors. -/
theorem tableMean_congr {rlm : List ℝ → ℝ × ℝ} {mean : Mean} {errs rows errs' rows' : List (List Cell)}
    {out out' : List Cell} {i j : ℕ} (hl : rows.length = errs.length) (hl' : rows'.length = errs'.length)
    (h : tableMean rlm mean errs rows = .ok out) (h' : tableMean rlm mean errs' rows' = .ok out')
    (hi : i < (rows.headD []).length) (hj : j < (rows'.headD []).length)
    (hp : posPairs rows errs i = posPairs rows' errs' j) :
    ∃ c, out[i]? = some c ∧ out'[j]? = some c := by
  have hc : (column rows i).length = (column errs i).length := by simp [column, hl]
  have hc' : (column rows' j).length = (column errs' j).length := by simp [column, hl']
  have hv := valid_logs hc
  have hv' := valid_logs hc'
  have hw := valid_weights hc
  have hw' := valid_weights hc'
  have hb := bad_weight hc
  have hb' := bad_weight hc'
  unfold posPairs at hp
  rw [hp] at hv hw hb
  rw [← hv'] at hv
  rw [← hw'] at hw
  have hbb := hb.trans hb'.symm
  unfold tableMean at h h'
  cases mean with
  | plain =>
    simp only at h h'
    unfold gmeanlist at h h'
    split at h
    · simp at h
    split at h'
    · simp at h'
    simp only [Bool.false_eq_true, if_false, Except.ok.injEq] at h h'
    subst h h'
    refine ⟨_, by rw [List.getElem?_map, List.getElem?_range hi]; rfl, ?_⟩
    rw [List.getElem?_map, List.getElem?_range hj]
    simp only [Option.map_some, maAverage, hv]
  | robust =>
    simp only at h h'
    unfold gmeanlist at h h'
    split at h
    · simp at h
    split at h'
    · simp at h'
    simp only [if_true] at h h'
    obtain ⟨c, hc1, hc2⟩ := forall₂_at (mapExc_ok.1 h) (List.getElem?_range hi)
    obtain ⟨c', hc1', hc2'⟩ := forall₂_at (mapExc_ok.1 h') (List.getElem?_range hj)
    refine ⟨c, hc1, ?_⟩
    have : gmean rlm (column rows i) none true = gmean rlm (column rows' j) none true := by
      have hr : robustStat rlm (maLog (maskedInvalid (column rows i))) 5 =
          robustStat rlm (maLog (maskedInvalid (column rows' j))) 5 := by
        unfold robustStat
        rw [hv]
      unfold gmean gstat
      simp only [Option.isSome_none, Bool.and_false, Bool.false_eq_true, if_false, if_true, hr]
    rw [this, hc2', Except.ok.injEq] at hc2
    rw [hc1', hc2]
  | weighted =>
    simp only at h h'
    unfold gmeanlistW at h h'
    split at h
    · simp at h
    split at h'
    · simp at h'
    simp only [Except.ok.injEq] at h h'
    subst h h'
    refine ⟨_, by rw [List.getElem?_map, List.getElem?_range hi]; rfl, ?_⟩
    rw [List.getElem?_map, List.getElem?_range hj]
    simp only [Option.map_some, Option.some.injEq]
    by_cases hbad : badWeight (maLog (maskedInvalid (column rows i))) (column errs i)
    · rw [if_pos hbad, if_pos (hbb.1 hbad)]
    · rw [if_neg hbad, if_neg (fun hx => hbad (hbb.2 hx))]
      simp only [maAverage, hw]

/-- A row of the result of an event. -/
def rowAt (key : String) (e : Dict String RVal) : Option (List Cell) :=
  match e.get? key with
  | some (.row r) => some r
  | _ => none

/-- The row of a station in the result of an event. -/
def siteAt (sta : String) (e : Dict String RVal) : Option (List Cell) :=
  match e.get? "R" with
  | some (.sites R) => R.get? sta
  | _ => none

/-- A positive value of a band and its error in the result of an event. -/
noncomputable def bandPair (sel : Dict String RVal → Option (List Cell)) (i : ℕ) (e : Dict String RVal) :
    Option (ℝ × Cell) :=
  posPair ((((sel e).getD [])[i]?).getD .nan, (((((rowAt "error" e).getD [])[i]?).getD .nan).toFloat))

theorem posPair_toFloat (c e : Cell) : posPair (c.toFloat, e) = posPair (c, e) := by
  cases c <;> rfl

theorem posPairs_eq {sel : Dict String RVal → Option (List Cell)} {events : Dict String (Dict String RVal)} {i nf : ℕ}
    (hi : i < nf) (h : ∀ e ∈ events, (∃ r, sel e.2 = some r ∧ r.length = nf) ∧
      ∃ r, rowAt "error" e.2 = some r ∧ r.length = nf) :
    posPairs ((events.filterMap (fun e => sel e.2)).map (fun r => r.map Cell.toFloat))
      ((events.filterMap (fun e => rowAt "error" e.2)).map (fun r => r.map Cell.toFloat)) i =
      events.filterMap (fun e => bandPair sel i e.2) := by
  induction events with
  | nil => rfl
  | cons e l ih =>
    obtain ⟨⟨r, hr, hrl⟩, er, her, herl⟩ := h e List.mem_cons_self
    have ih := ih (fun e he => h e (List.mem_cons_of_mem _ he))
    unfold posPairs at ih ⊢
    rw [List.filterMap_cons_some (f := fun e : String × Dict String RVal => sel e.2) hr,
      List.filterMap_cons_some (f := fun e : String × Dict String RVal => rowAt "error" e.2) her]
    simp only [List.map_cons, column, List.zip_cons_cons, List.filterMap_cons]
    simp only [column] at ih
    rw [ih]
    have h1 : bandPair sel i e.2 = posPair ((r.map Cell.toFloat).getD i .nan, (er.map Cell.toFloat).getD i .nan) := by
      unfold bandPair
      have hir : i < r.length := by omega
      have hie : i < er.length := by omega
      simp only [hr, her, Option.getD_some, List.getD_eq_getElem?_getD, List.getElem?_map,
        List.getElem?_eq_getElem hir, List.getElem?_eq_getElem hie, Option.map_some, posPair_toFloat]
    rw [h1]

/-- Two loops over the same events. -/
theorem loop_band {inv inv' : List Event → Py (Option InvRes)} {cn : Bool} {β : Type}
    {F F' : Dict String RVal → Option β} {l : List Event} {st st' s s' : LoopState}
    (hn : (l.map getEventid).Nodup) (hd : ∀ ev ∈ l, getEventid ev ∉ st.events.keys)
    (hd' : ∀ ev ∈ l, getEventid ev ∉ st'.events.keys)
    (h : ∀ ev ∈ l, ∀ o o', inv [ev] = .ok o → inv' [ev] = .ok o' →
      (∀ r r' e e', o = some r → o' = some r' → eventEntry cn (getEventid ev) r = .ok e →
        eventEntry cn (getEventid ev) r' = .ok e' → F e = F' e') ∧
      (∀ r e, o = some r → o' = none → eventEntry cn (getEventid ev) r = .ok e → F e = none) ∧
      (∀ r e, o' = some r → o = none → eventEntry cn (getEventid ev) r = .ok e → F' e = none))
    (he : st.events.filterMap (fun e => F e.2) = st'.events.filterMap (fun e => F' e.2))
    (h1 : l.foldlM (loopStep inv cn) st = .ok s) (h2 : l.foldlM (loopStep inv' cn) st' = .ok s') :
    s.events.filterMap (fun e => F e.2) = s'.events.filterMap (fun e => F' e.2) := by
  induction l generalizing st st' with
  | nil =>
    simp only [List.foldlM_nil, pure, Except.pure, Except.ok.injEq] at h1 h2
    subst h1 h2
    exact he
  | cons ev l ih =>
    rw [List.foldlM_cons] at h1 h2
    obtain ⟨t, ht, h1⟩ := bind_ok.1 h1
    obtain ⟨t', ht', h2⟩ := bind_ok.1 h2
    unfold loopStep at ht ht'
    obtain ⟨_, -, ht⟩ := bind_ok.1 ht
    obtain ⟨_, -, ht'⟩ := bind_ok.1 ht'
    obtain ⟨o, ho, ht⟩ := bind_ok.1 ht
    obtain ⟨o', ho', ht'⟩ := bind_ok.1 ht'
    obtain ⟨k1, k2, k3⟩ := h ev List.mem_cons_self o o' ho ho'
    rw [List.map_cons, List.nodup_cons] at hn
    have hset : ∀ {d : Dict String (Dict String RVal)} {e}, getEventid ev ∉ d.keys →
        d.set (getEventid ev) e = d ++ [(getEventid ev, e)] := fun hk => Dict.keys_set_of_not_mem _ hk
    have hfresh : ∀ {d : Dict String (Dict String RVal)} {e}, (∀ ev' ∈ ev :: l, getEventid ev' ∉ d.keys) →
        ∀ ev' ∈ l, getEventid ev' ∉ (d ++ [(getEventid ev, e)] : Dict String (Dict String RVal)).keys := by
      intro d e hk ev' hev'
      simp only [Dict.keys, List.map_append, List.map_cons, List.map_nil, List.mem_append,
        List.mem_singleton, not_or]
      exact ⟨hk ev' (List.mem_cons_of_mem _ hev'), fun heq => hn.1 (heq ▸ List.mem_map_of_mem hev')⟩
    have hold : ∀ {d : Dict String (Dict String RVal)}, (∀ ev' ∈ ev :: l, getEventid ev' ∉ d.keys) →
        ∀ ev' ∈ l, getEventid ev' ∉ d.keys := fun hk ev' hev' => hk ev' (List.mem_cons_of_mem _ hev')
    refine ih hn.2 ?_ ?_ (fun ev hev => h ev (List.mem_cons_of_mem _ hev)) ?_ h1 h2
    · cases o with
      | none =>
        simp only [pure, Except.pure, Except.ok.injEq] at ht
        subst ht
        exact hold hd
      | some r =>
        simp only at ht
        obtain ⟨e, hee, ht⟩ := bind_ok.1 ht
        simp only [pure, Except.pure, Except.ok.injEq] at ht
        subst ht
        simp only [hset (hd ev List.mem_cons_self)]
        exact hfresh hd
    · cases o' with
      | none =>
        simp only [pure, Except.pure, Except.ok.injEq] at ht'
        subst ht'
        exact hold hd'
      | some r =>
        simp only at ht'
        obtain ⟨e, hee, ht'⟩ := bind_ok.1 ht'
        simp only [pure, Except.pure, Except.ok.injEq] at ht'
        subst ht'
        simp only [hset (hd' ev List.mem_cons_self)]
        exact hfresh hd'
    · cases o with
      | none =>
        simp only [pure, Except.pure, Except.ok.injEq] at ht
        subst ht
        cases o' with
        | none =>
          simp only [pure, Except.pure, Except.ok.injEq] at ht'
          subst ht'
          exact he
        | some r' =>
          simp only at ht'
          obtain ⟨e', hee', ht'⟩ := bind_ok.1 ht'
          simp only [pure, Except.pure, Except.ok.injEq] at ht'
          subst ht'
          simp only [hset (hd' ev List.mem_cons_self), List.filterMap_append, List.filterMap_cons,
            List.filterMap_nil, k3 r' e' rfl rfl hee', List.append_nil]
          exact he
      | some r =>
        simp only at ht
        obtain ⟨e, hee, ht⟩ := bind_ok.1 ht
        simp only [pure, Except.pure, Except.ok.injEq] at ht
        subst ht
        cases o' with
        | none =>
          simp only [pure, Except.pure, Except.ok.injEq] at ht'
          subst ht'
          simp only [hset (hd ev List.mem_cons_self), List.filterMap_append, List.filterMap_cons,
            List.filterMap_nil, k2 r e rfl rfl hee, List.append_nil]
          exact he
        | some r' =>
          simp only at ht'
          obtain ⟨e', hee', ht'⟩ := bind_ok.1 ht'
          simp only [pure, Except.pure, Except.ok.injEq] at ht'
          subst ht'
          simp only [hset (hd ev List.mem_cons_self), hset (hd' ev List.mem_cons_self),
            List.filterMap_append, List.filterMap_cons,
            List.filterMap_nil, k1 r r' e e' rfl rfl hee hee', he]

end Wrapper

section

variable {env : Env} {cfg : InvCfg} {fo : FreqOpt} {nj : Option ℕ} {inp : Option FixInput}
  {cpus cpus' : ℕ} {schedule schedule' : List Event → List ℕ} {events : List Event}
  {bands bands' : Dict ℝ (ℝ × ℝ)} {rlm : List ℝ → ℝ × ℝ} {mean : Mean} {w w' : WrapRes}

/-- The means of a band of a result. -/
theorem means_band {go : Bool} {st : Option (List String)} {nf nf' i j : ℕ} {freq freq' : List ℝ}
    {d d' : Dict String (Dict String RVal)} (hne : d ≠ []) (hne' : d' ≠ [])
    (hf : ∀ e ∈ d, CompleteEvent go st nf e.2) (hf' : ∀ e ∈ d', CompleteEvent go st nf' e.2)
    (hi : i < nf) (hj : j < nf')
    (hrow : ∀ key ∈ ["g0", "b", "error"], d.filterMap (fun e => bandPair (rowAt key) i e.2) =
      d'.filterMap (fun e => bandPair (rowAt key) j e.2))
    (hsite : ∀ sta, d.filterMap (fun e => bandPair (siteAt sta) i e.2) =
      d'.filterMap (fun e => bandPair (siteAt sta) j e.2))
    (h : means rlm mean freq d = .ok (some w)) (h' : means rlm mean freq' d' = .ok (some w')) :
    SameMeansAt w w' i j := by
  have hn : (["g0", "b", "error", "R"] : List String).Nodup := by decide
  obtain ⟨col, g0, b, errs, sites, R, hc, hg, hb, he, hs, hg0, hbm, ⟨em, hem, hem'⟩, hR, hwR, -, -, -⟩ :=
    means_some h
  obtain ⟨col', g0', b', errs', sites', R', hc', hg', hb', he', hs', hg0', hbm', ⟨em', hem1, hem2⟩, hR', hwR',
    -, -, -⟩ := means_some h'
  obtain ⟨c0, hc0, hC⟩ := collect_total (events := d) (only := ["g0", "b", "error", "R"])
    (fun e he => fits_of_complete (hf e he) (by decide)) (by decide)
  rw [hc, Except.ok.injEq] at hc0
  subst hc0
  obtain ⟨c0, hc0, hC'⟩ := collect_total (events := d') (only := ["g0", "b", "error", "R"])
    (fun e he => fits_of_complete (hf' e he) (by decide)) (by decide)
  rw [hc', Except.ok.injEq] at hc0
  subst hc0
  obtain ⟨a1, ha1, hga, hgl⟩ := array_rows hne hf hn hc hC (c := "g0") (by decide) (by decide)
  obtain ⟨a2, ha2, hba, hbl⟩ := array_rows hne hf hn hc hC (c := "b") (by decide) (by decide)
  obtain ⟨a3, ha3, -, hel⟩ := array_rows hne hf hn hc hC (c := "error") (by decide) (by decide)
  obtain ⟨a1', ha1', hga', hgl'⟩ := array_rows hne' hf' hn hc' hC' (c := "g0") (by decide) (by decide)
  obtain ⟨a2', ha2', hba', hbl'⟩ := array_rows hne' hf' hn hc' hC' (c := "b") (by decide) (by decide)
  obtain ⟨a3', ha3', -, hel'⟩ := array_rows hne' hf' hn hc' hC' (c := "error") (by decide) (by decide)
  rw [hg, Except.ok.injEq] at ha1
  rw [hb, Except.ok.injEq] at ha2
  rw [he, Except.ok.injEq] at ha3
  rw [hg', Except.ok.injEq] at ha1'
  rw [hb', Except.ok.injEq] at ha2'
  rw [he', Except.ok.injEq] at ha3'
  subst ha1 ha2 ha3 ha1' ha2' ha3'
  obtain ⟨e1, e2, e3, e4⟩ := hel errs rfl
  obtain ⟨e1', e2', e3', e4'⟩ := hel' errs' rfl
  have hhead : ∀ {n : ℕ} {rows : List (List Cell)}, rows ≠ [] → (∀ r ∈ rows, r.length = n) →
      (rows.headD []).length = n := by
    intro n rows h1 h2
    cases rows with
    | nil => exact absurd rfl h1
    | cons r l => exact h2 r List.mem_cons_self
  have herr : ∀ e ∈ d, ∃ r, rowAt "error" e.2 = some r ∧ r.length = nf := by
    intro e hem
    obtain ⟨l, k1, k2⟩ := (hf e hem).error
    exact ⟨l, by unfold rowAt; rw [k1], k2⟩
  have herr' : ∀ e ∈ d', ∃ r, rowAt "error" e.2 = some r ∧ r.length = nf' := by
    intro e hem
    obtain ⟨l, k1, k2⟩ := (hf' e hem).error
    exact ⟨l, by unfold rowAt; rw [k1], k2⟩
  have hkey : ∀ {key : String} {rows rows' : List (List Cell)} {o o' : List Cell}, key ∈ ["g0", "b", "error"] →
      (∀ e ∈ d, ∃ r, rowAt key e.2 = some r ∧ r.length = nf) →
      (∀ e ∈ d', ∃ r, rowAt key e.2 = some r ∧ r.length = nf') →
      (rows ≠ [] ∧ rows.length = d.length ∧ (∀ r ∈ rows, r.length = nf) ∧
        rows = (rowsWith d key).map (fun r => r.map Cell.toFloat)) →
      (rows' ≠ [] ∧ rows'.length = d'.length ∧ (∀ r ∈ rows', r.length = nf') ∧
        rows' = (rowsWith d' key).map (fun r => r.map Cell.toFloat)) →
      tableMean rlm mean errs rows = .ok o → tableMean rlm mean errs' rows' = .ok o' →
      ∃ c, o[i]? = some c ∧ o'[j]? = some c := by
    intro key rows rows' o o' hk hx hx' hr hr' hm hm'
    refine tableMean_congr (by rw [hr.2.1, e2]) (by rw [hr'.2.1, e2']) hm hm' (by rw [hhead hr.1 hr.2.2.1]; exact hi)
      (by rw [hhead hr'.1 hr'.2.2.1]; exact hj) ?_
    have k1 := posPairs_eq (sel := rowAt key) hi (fun e he => ⟨hx e he, herr e he⟩)
    have k2 := posPairs_eq (sel := rowAt key) hj (fun e he => ⟨hx' e he, herr' e he⟩)
    rw [hr.2.2.2, hr'.2.2.2, e4, e4']
    exact (k1.trans (hrow key hk)).trans k2.symm
  refine ⟨?_, ?_, ?_, ?_⟩
  · obtain ⟨c, h1, h2⟩ := hkey (key := "error") (by simp) herr herr' ⟨e1, e2, e3, e4⟩ ⟨e1', e2', e3', e4'⟩ hem' hem2
    exact ⟨em, em', c, hem, hem1, h1, h2⟩
  · cases go with
    | false =>
      left
      rw [hga.2 ⟨by decide, rfl⟩] at hg0
      rw [hga'.2 ⟨by decide, rfl⟩] at hg0'
      simp only [meanIf, Except.ok.injEq] at hg0 hg0'
      exact ⟨hg0.symm, hg0'.symm⟩
    | true =>
      right
      obtain ⟨rows, rfl⟩ : ∃ r, g0 = some r := Option.ne_none_iff_exists'.1 (fun hx => by simpa using hga.1 hx)
      obtain ⟨rows', rfl⟩ : ∃ r, g0' = some r := Option.ne_none_iff_exists'.1 (fun hx => by simpa using hga'.1 hx)
      obtain ⟨m, hm, hg0⟩ := bind_ok.1 hg0
      obtain ⟨m', hm', hg0'⟩ := bind_ok.1 hg0'
      simp only [pure, Except.pure, Except.ok.injEq] at hg0 hg0'
      obtain ⟨c, h1, h2⟩ := hkey (key := "g0") (by simp)
        (fun e hem => by
          obtain ⟨l, x, k1, k2, -⟩ := (hf e hem).g0 rfl
          exact ⟨l, by unfold rowAt; rw [k1], k2⟩)
        (fun e hem => by
          obtain ⟨l, x, k1, k2, -⟩ := (hf' e hem).g0 rfl
          exact ⟨l, by unfold rowAt; rw [k1], k2⟩) (hgl rows rfl) (hgl' rows' rfl) hm hm'
      exact ⟨m, m', c, hg0.symm, hg0'.symm, h1, h2⟩
  · cases go with
    | false =>
      left
      rw [hba.2 ⟨by decide, rfl⟩] at hbm
      rw [hba'.2 ⟨by decide, rfl⟩] at hbm'
      simp only [meanIf, Except.ok.injEq] at hbm hbm'
      exact ⟨hbm.symm, hbm'.symm⟩
    | true =>
      right
      obtain ⟨rows, rfl⟩ : ∃ r, b = some r := Option.ne_none_iff_exists'.1 (fun hx => by simpa using hba.1 hx)
      obtain ⟨rows', rfl⟩ : ∃ r, b' = some r := Option.ne_none_iff_exists'.1 (fun hx => by simpa using hba'.1 hx)
      obtain ⟨m, hm, hbm⟩ := bind_ok.1 hbm
      obtain ⟨m', hm', hbm'⟩ := bind_ok.1 hbm'
      simp only [pure, Except.pure, Except.ok.injEq] at hbm hbm'
      obtain ⟨c, h1, h2⟩ := hkey (key := "b") (by simp)
        (fun e hem => by
          obtain ⟨l, k1, k2⟩ := (hf e hem).b rfl
          exact ⟨l, by unfold rowAt; rw [k1], k2⟩)
        (fun e hem => by
          obtain ⟨l, k1, k2⟩ := (hf' e hem).b rfl
          exact ⟨l, by unfold rowAt; rw [k1], k2⟩) (hbl rows rfl) (hbl' rows' rfl) hm hm'
      exact ⟨m, m', c, hbm.symm, hbm'.symm, h1, h2⟩
  · intro sta
    obtain ⟨-, s1, s2⟩ := sites_rows hf hn (by decide) hc hs
    obtain ⟨-, s1', s2'⟩ := sites_rows hf' hn (by decide) hc' hs'
    have hw : ∀ {x : WrapRes} {R : Dict String (List Cell)}, x.R = (if R.length > 0 then some R else none) →
        x.R.getD [] = R := by
      intro x R hx
      rw [hx]
      split
      · rfl
      · rename_i hz
        have : R.length = 0 := by omega
        rw [List.length_eq_zero_iff.1 this]
        rfl
    rw [hw hwR, hw hwR']
    have hsta : ∀ {n : ℕ} {d : Dict String (Dict String RVal)}, (∀ e ∈ d, CompleteEvent go st n e.2) →
        siteRows d sta = d.filterMap (fun e => siteAt sta e.2) := fun _ => rfl
    have hrows : ∀ {n : ℕ} {d : Dict String (Dict String RVal)}, (∀ e ∈ d, CompleteEvent go st n e.2) → d ≠ [] →
        ((∀ l, st = some l → sta ∉ l) → siteRows d sta = []) ∧
        (∀ l, st = some l → sta ∈ l → ∀ e ∈ d, ∃ r, siteAt sta e.2 = some r ∧ r.length = n) := by
      intro n d hd hdn
      constructor
      · intro hno
        rw [hsta hd, List.filterMap_eq_nil_iff]
        intro e he
        unfold siteAt
        cases st with
        | none => rw [(hd e he).noR rfl]
        | some l =>
          obtain ⟨dd, k1, k2, k3, -⟩ := (hd e he).R l rfl
          rw [k1]
          simp only
          rw [Dict.get?_eq_none, k3]
          exact hno l rfl
      · intro l hl hm e he
        obtain ⟨dd, k1, k2, k3, k4⟩ := (hd e he).R l hl
        rw [← k3, ← Dict.get?_isSome] at hm
        obtain ⟨r, hr⟩ := Option.isSome_iff_exists.1 hm
        exact ⟨r, by unfold siteAt; rw [k1]; exact hr, k4 _ (Dict.mem_of_get? hr)⟩
    by_cases hst : ∃ l, st = some l ∧ sta ∈ l
    · right
      obtain ⟨l, hl, hm⟩ := hst
      have q := (hrows hf hne).2 l hl hm
      have q' := (hrows hf' hne').2 l hl hm
      have hnn : ∀ {n : ℕ} {d : Dict String (Dict String RVal)}, (∀ e ∈ d, CompleteEvent go st n e.2) → d ≠ [] →
          siteRows d sta ≠ [] := by
        intro n d hd hdn hz
        obtain ⟨e, he⟩ := List.exists_mem_of_ne_nil _ hdn
        obtain ⟨r, hr, -⟩ := (hrows hd hdn).2 l hl hm e he
        rw [hsta hd, List.filterMap_eq_nil_iff] at hz
        rw [hz e he] at hr
        simp at hr
      rcases s2 sta with ⟨hz, -⟩ | ⟨-, hg⟩
      · exact absurd hz (hnn hf hne)
      rcases s2' sta with ⟨hz, -⟩ | ⟨-, hg'⟩
      · exact absurd hz (hnn hf' hne')
      rcases get?_forall₂ (r := fun a b => tableMean rlm mean errs a = .ok b) hR sta with ⟨hz, -⟩ | ⟨x, y, hx, hy, hxy⟩
      · rw [hg] at hz; simp at hz
      rcases get?_forall₂ (r := fun a b => tableMean rlm mean errs' a = .ok b) hR' sta with ⟨hz, -⟩ | ⟨x', y', hx', hy', hxy'⟩
      · rw [hg'] at hz; simp at hz
      rw [hg, Option.some.injEq] at hx
      rw [hg', Option.some.injEq] at hx'
      have p := s1 _ (Dict.mem_of_get? hg)
      have p' := s1' _ (Dict.mem_of_get? hg')
      simp only [hx] at p
      simp only [hx'] at p'
      have hlen : ∀ r ∈ x, r.length = nf := by
        intro r hr
        rw [← hx] at hr
        obtain ⟨r0, hr0, rfl⟩ := List.mem_map.1 hr
        rw [hsta hf] at hr0
        obtain ⟨e, hee, h0⟩ := List.mem_filterMap.1 hr0
        obtain ⟨r1, h1, h2⟩ := q e hee
        rw [h1, Option.some.injEq] at h0
        rw [List.length_map, ← h0, h2]
      have hlen' : ∀ r ∈ x', r.length = nf' := by
        intro r hr
        rw [← hx'] at hr
        obtain ⟨r0, hr0, rfl⟩ := List.mem_map.1 hr
        rw [hsta hf'] at hr0
        obtain ⟨e, hee, h0⟩ := List.mem_filterMap.1 hr0
        obtain ⟨r1, h1, h2⟩ := q' e hee
        rw [h1, Option.some.injEq] at h0
        rw [List.length_map, ← h0, h2]
      obtain ⟨c, h1, h2⟩ := tableMean_congr (by rw [p.2, e2]) (by rw [p'.2, e2']) hxy hxy'
        (by rw [hhead p.1 hlen]; exact hi) (by rw [hhead p'.1 hlen']; exact hj) (by
          have k1 := posPairs_eq (sel := siteAt sta) hi (fun e he => ⟨q e he, herr e he⟩)
          have k2 := posPairs_eq (sel := siteAt sta) hj (fun e he => ⟨q' e he, herr' e he⟩)
          rw [← hx, ← hx', e4, e4']
          exact (k1.trans (hsite sta)).trans k2.symm)
      exact ⟨y, y', c, hy, hy', h1, h2⟩
    · left
      have hno : ∀ l, st = some l → sta ∉ l := fun l hl hm => hst ⟨l, hl, hm⟩
      have z := (hrows hf hne).1 hno
      have z' := (hrows hf' hne').1 hno
      rcases s2 sta with ⟨-, hg⟩ | ⟨hz, -⟩
      swap
      · exact absurd z hz
      rcases s2' sta with ⟨-, hg'⟩ | ⟨hz, -⟩
      swap
      · exact absurd z' hz
      constructor
      · rcases get?_forall₂ (r := fun a b => tableMean rlm mean errs a = .ok b) hR sta with ⟨-, hz⟩ | ⟨x, y, hx, -⟩
        · exact hz
        · rw [hg] at hx; simp at hx
      · rcases get?_forall₂ (r := fun a b => tableMean rlm mean errs' a = .ok b) hR' sta with ⟨-, hz⟩ | ⟨x, y, hx, -⟩
        · exact hz
        · rw [hg'] at hx; simp at hx

/-- A value which is the same in both results. -/
theorem bandPair_eq {sel : Dict String RVal → Option (List Cell)} {i j : ℕ} {e e' : Dict String RVal} {c er : Cell}
    (h1 : ((sel e).getD [])[i]? = some c ∧ ((sel e').getD [])[j]? = some c)
    (h2 : ((rowAt "error" e).getD [])[i]? = some er ∧ ((rowAt "error" e').getD [])[j]? = some er) :
    bandPair sel i e = bandPair sel j e' := by
  unfold bandPair
  rw [h1.1, h1.2, h2.1, h2.2]

theorem bandPair_none {sel : Dict String RVal → Option (List Cell)} {i : ℕ} {e : Dict String RVal}
    (h : ∀ row, sel e = some row → row[i]? = some .none) : bandPair sel i e = none := by
  unfold bandPair
  cases hs : sel e with
  | none => simp [posPair]
  | some row => simp [h row hs, posPair]

theorem bandPair_missing {sel : Dict String RVal → Option (List Cell)} {i j : ℕ} {e e' : Dict String RVal}
    (h : sel e = none) (h' : sel e' = none) : bandPair sel i e = bandPair sel j e' := by
  rw [bandPair_none (by simp [h]), bandPair_none (by simp [h'])]

/-- The values of an event in a common band. -/
theorem pair_same {go : Bool} {st : Option (List String)} {nf nf' i j : ℕ} {r r' : InvRes} {id : String}
    {e e' : Dict String RVal} (hs : SameAt r r' i j) (h : EventResult r id e) (h' : EventResult r' id e')
    (hc : CompleteEvent go st nf e) (hc' : CompleteEvent go st nf' e') :
    (∀ key ∈ ["g0", "b", "error"], bandPair (rowAt key) i e = bandPair (rowAt key) j e') ∧
      ∀ sta, bandPair (siteAt sta) i e = bandPair (siteAt sta) j e' := by
  obtain ⟨er, her, her'⟩ := hs.error
  have hE : ((rowAt "error" e).getD [])[i]? = some er ∧ ((rowAt "error" e').getD [])[j]? = some er := by
    unfold rowAt
    rw [h.error, h'.error]
    exact ⟨her, her'⟩
  constructor
  · intro key hk
    simp only [List.mem_cons, List.not_mem_nil, or_false] at hk
    rcases hk with rfl | rfl | rfl
    · cases hg : r.g0 with
      | some row =>
        obtain ⟨row', c, k1, k2, k3⟩ := hs.g0 row hg
        refine bandPair_eq (c := c) (er := er) ?_ hE
        unfold rowAt
        rw [h.g0, h'.g0, hg, k1]
        exact ⟨k2, k3⟩
      | none =>
        have hgo : go = false := by
          cases go with
          | false => rfl
          | true =>
            obtain ⟨l, x, hl, -⟩ := hc.g0 rfl
            rw [h.g0, hg] at hl
            simp at hl
        refine bandPair_missing ?_ ?_
        · unfold rowAt; rw [(hc.fixed hgo).1]
        · unfold rowAt; rw [(hc'.fixed hgo).1]
    · cases hg : r.b with
      | some row =>
        obtain ⟨row', c, k1, k2, k3⟩ := hs.b row hg
        refine bandPair_eq (c := c) (er := er) ?_ hE
        unfold rowAt
        rw [h.b, h'.b, hg, k1]
        exact ⟨k2, k3⟩
      | none =>
        have hgo : go = false := by
          cases go with
          | false => rfl
          | true =>
            obtain ⟨l, hl, -⟩ := hc.b rfl
            rw [h.b, hg] at hl
            simp at hl
        refine bandPair_missing ?_ ?_
        · unfold rowAt; rw [(hc.fixed hgo).2]
        · unfold rowAt; rw [(hc'.fixed hgo).2]
    · exact bandPair_eq hE hE
  · intro sta
    cases hR : r.R with
    | none =>
      have hst : st = none := by
        cases st with
        | none => rfl
        | some l =>
          obtain ⟨d, hd, -⟩ := hc.R l rfl
          rw [h.R, hR] at hd
          simp at hd
      refine bandPair_missing ?_ ?_
      · unfold siteAt; rw [hc.noR hst]
      · unfold siteAt; rw [hc'.noR hst]
    | some T =>
      obtain ⟨T', hT', hkeys, hall⟩ := hs.sites T hR
      have e1 : siteAt sta e = T.get? sta := by unfold siteAt; rw [h.R, hR]; rfl
      have e2 : siteAt sta e' = T'.get? sta := by unfold siteAt; rw [h'.R, hT']; rfl
      cases hg : T.get? sta with
      | none =>
        refine bandPair_missing (e1.trans hg) (e2.trans ?_)
        rw [Dict.get?_eq_none, hkeys, ← Dict.get?_eq_none]
        exact hg
      | some row =>
        have hm : (T'.get? sta).isSome := by
          rw [Dict.get?_isSome, hkeys, ← Dict.get?_isSome, hg]
          rfl
        obtain ⟨row', hg'⟩ := Option.isSome_iff_exists.1 hm
        obtain ⟨c, k1, k2⟩ := hall sta row row' (Dict.mem_of_get? hg) (Dict.mem_of_get? hg')
        refine bandPair_eq (c := c) (er := er) ?_ hE
        rw [e1, e2, hg, hg']
        exact ⟨k1, k2⟩

theorem pair_empty {i : ℕ} {r : InvRes} {id : String} {e : Dict String RVal} (hs : EmptyAt r i)
    (h : EventResult r id e) : (∀ key ∈ ["g0", "b", "error"], bandPair (rowAt key) i e = none) ∧
      ∀ sta, bandPair (siteAt sta) i e = none := by
  constructor
  · intro key hk
    simp only [List.mem_cons, List.not_mem_nil, or_false] at hk
    refine bandPair_none ?_
    intro row hrow
    unfold rowAt at hrow
    rcases hk with rfl | rfl | rfl
    · rw [h.g0] at hrow
      cases hg : r.g0 with
      | none => rw [hg] at hrow; simp at hrow
      | some l =>
        rw [hg] at hrow
        simp only [Option.map_some, Option.some.injEq] at hrow
        exact hs.g0 row (hrow ▸ hg)
    · rw [h.b] at hrow
      cases hg : r.b with
      | none => rw [hg] at hrow; simp at hrow
      | some l =>
        rw [hg] at hrow
        simp only [Option.map_some, Option.some.injEq] at hrow
        exact hs.b row (hrow ▸ hg)
    · rw [h.error] at hrow
      simp only [Option.some.injEq] at hrow
      exact hrow ▸ hs.error
  · intro sta
    refine bandPair_none ?_
    intro row hrow
    unfold siteAt at hrow
    rw [h.R] at hrow
    cases hg : r.R with
    | none => rw [hg] at hrow; simp at hrow
    | some T =>
      rw [hg] at hrow
      simp only [Option.map_some] at hrow
      exact hs.sites T hg sta row (Dict.mem_of_get? hrow)

/-- The entry of an event holds the result of its inversion. -/
theorem entry_result {ev : Event} {r : InvRes} {e : Dict String RVal} {sch : List ℕ}
    (h : invert env cfg cpus sch [ev] = .ok (some r))
    (he : eventEntry cfg.codaNorm.isSome (getEventid ev) r = .ok e) : EventResult r (getEventid ev) e := by
  obtain ⟨e', he', _, _, hr⟩ := C40_results_have_known_keys h (id := getEventid ev) (by
    by_contra hno
    push Not at hno
    unfold eventEntry at he
    rw [(Dict.get?_eq_none _ _).2 hno.1] at he
    simp [hno.2] at he)
  rw [he, Except.ok.injEq] at he'
  rw [he']
  exact hr

/-- There is only one place of a frequency. -/
theorem place_unique {d : Dict ℝ (ℝ × ℝ)} (hd : d.keys.Nodup) {i j : ℕ} {f : ℝ}
    (hi : (d.map Prod.fst)[i]? = some f) (hj : (d.map Prod.fst)[j]? = some f) : i = j := by
  have hn : (d.map Prod.fst).Nodup := hd
  obtain ⟨h1, e1⟩ := List.getElem?_eq_some_iff.1 hi
  obtain ⟨h2, e2⟩ := List.getElem?_eq_some_iff.1 hj
  exact (hn.getElem_inj_iff).1 (e1.trans e2.symm)

/-- **C144**: events which are inverted separately.  The mean scattering coefficient, attenuation, error and
site responses of a band, which are calculated from the results of all events, are the same if the other
frequency bands are different, for each kind of mean. -/
theorem C144_separate_partial (hset : IsSetOrder env.setOrder) (hid : (events.map getEventid).Nodup)
    (hb : getFreqs cfg.freqs = .ok bands) (hb' : getFreqs fo = .ok bands')
    (hj : ∀ evs, OwnCopies cfg bands cpus (schedule evs))
    (hj' : ∀ evs, OwnCopies { cfg with freqs := fo, njobs := nj, input := inp } bands' cpus' (schedule' evs))
    (h : invertWrapper rlm (fun evs => invert env cfg cpus (schedule evs) evs) cfg.codaNorm.isSome false mean
      events = .ok (some w))
    (h' : invertWrapper rlm (fun evs => invert env { cfg with freqs := fo, njobs := nj, input := inp } cpus'
      (schedule' evs) evs) cfg.codaNorm.isSome false mean events = .ok (some w'))
    {f : ℝ} {band : ℝ × ℝ} (hf : (f, band) ∈ bands) (hf' : (f, band) ∈ bands')
    (hin : SameInput cfg.cmd cfg.input inp f) :
    ∃ i j : ℕ, w.freq[i]? = some f ∧ w'.freq[j]? = some f ∧ SameMeansAt w w' i j := by
  have hne : events.Nodup := hid.of_map _
  obtain ⟨t1, t2, t3⟩ := separate_only_if hne h
  obtain ⟨t1', t2', t3'⟩ := separate_only_if hne h'
  obtain ⟨o1, p1, -, p2⟩ := separate_total (rlm := rlm) (mean := mean) hset hne hb (fun evs => (hj evs).1) rfl t1 t2 t3
  rw [h, Except.ok.injEq] at p1
  have hS := p2 w p1.symm
  obtain ⟨o1', p1', -, p2'⟩ := separate_total (rlm := rlm) (mean := mean)
    (cfg := { cfg with freqs := fo, njobs := nj, input := inp }) hset hne hb' (fun evs => (hj' evs).1) rfl t1' t2' t3'
  rw [h', Except.ok.injEq] at p1'
  have hS' := p2' w' p1'.symm
  obtain ⟨i, hi, -⟩ := place_of hf
  obtain ⟨j, hk, -⟩ := place_of hf'
  refine ⟨i, j, by rw [hS.freq]; exact hi, by rw [hS'.freq]; exact hk, ?_⟩
  obtain ⟨order, hord, h⟩ := bind_ok.1 h
  obtain ⟨order', hord', h'⟩ := bind_ok.1 h'
  rw [hord, Except.ok.injEq] at hord'
  subst hord'
  obtain ⟨hp, -⟩ := orderEvents_ok hord
  have hmem : ∀ ev ∈ order, ev ∈ events := fun ev hev =>
    (List.mem_filter.1 (hp.perm.mem_iff.1 hev)).1
  have hn : (order.map getEventid).Nodup := by
    refine ((hp.perm.map getEventid).nodup_iff).2 ?_
    exact hid.sublist ((List.filter_sublist).map _)
  rw [if_neg (by simp)] at h h'
  unfold separately at h h'
  obtain ⟨st, hst, h⟩ := bind_ok.1 h
  obtain ⟨st', hst', h'⟩ := bind_ok.1 h'
  split at h
  · simp [pure, Except.pure] at h
  split at h'
  · simp [pure, Except.pure] at h'
  obtain ⟨_, _, _, _, _, _, _, _, _, _, _, _, _, _, _, _, hw, _⟩ := means_some h
  obtain ⟨_, _, _, _, _, _, _, _, _, _, _, _, _, _, _, _, hw', _⟩ := means_some h'
  have hcomp : ∀ {cfg : InvCfg} {bands : Dict ℝ (ℝ × ℝ)} {cpus : ℕ} {sch : List ℕ} {ev : Event} {r : InvRes}
      {e : Dict String RVal}, getFreqs cfg.freqs = .ok bands → OwnCopies cfg bands cpus sch →
      invert env cfg cpus sch [ev] = .ok (some r) →
      eventEntry cfg.codaNorm.isSome (getEventid ev) r = .ok e →
      r.freq = bands.map Prod.fst ∧ CompleteEvent (decide (cfg.cmd = .go)) (stationRows env cfg) bands.length e := by
    intro cfg bands cpus sch ev r e hb hj h he
    obtain ⟨k1, e0, k2, k3⟩ := complete_of_invert hset hb hj.1 h
    rw [he, Except.ok.injEq] at k2
    exact ⟨k1, k2 ▸ k3⟩
  have hin' : SameInput cfg.cmd inp cfg.input f := by
    intro hne
    obtain ⟨fp, fp', a1, a2, a3, a4, a5⟩ := hin hne
    exact ⟨fp', fp, a2, a1, a4, a3, fun g b R => (a5 g b R).symm⟩
  have key : ∀ sel : Dict String RVal → Option (List Cell),
      ((∃ k ∈ ["g0", "b", "error"], sel = rowAt k) ∨ ∃ sta, sel = siteAt sta) →
      st.events.filterMap (fun e => bandPair sel i e.2) = st'.events.filterMap (fun e => bandPair sel j e.2) := by
    intro sel hsel
    refine loop_band (F := bandPair sel i) (F' := bandPair sel j) (st := {}) (st' := {}) hn
      (fun ev _ => by simp [Dict.keys]) (fun ev _ => by simp [Dict.keys]) ?_ rfl hst hst'
    intro ev hev o o' ho ho'
    refine ⟨?_, ?_, ?_⟩
    · rintro r r' e e' rfl rfl he he'
      obtain ⟨c1, c2⟩ := hcomp hb (hj [ev]) ho he
      obtain ⟨c1', c2'⟩ := hcomp (cfg := { cfg with freqs := fo, njobs := nj, input := inp }) hb' (hj' [ev]) ho' he'
      obtain ⟨i0, j0, hi0, hj0, hsame⟩ := C144_other_bands_partial (by simp) hb hb' (hj [ev]) (hj' [ev]) ho ho' hf hf' hin
      rw [c1] at hi0
      rw [c1'] at hj0
      rw [place_unique (bands_spec hb).2 hi0 hi, place_unique (bands_spec hb').2 hj0 hk] at hsame
      obtain ⟨q1, q2⟩ := pair_same hsame (entry_result ho he)
        (entry_result (cfg := { cfg with freqs := fo, njobs := nj, input := inp }) ho' he') c2 c2'
      rcases hsel with ⟨k, hkk, rfl⟩ | ⟨sta, rfl⟩
      · exact q1 k hkk
      · exact q2 sta
    · rintro r e rfl rfl he
      obtain ⟨c1, c2⟩ := hcomp hb (hj [ev]) ho he
      obtain ⟨i0, hi0, hempty⟩ := C144_no_result_partial (by simp) hb hb' (hj [ev]) (hj' [ev]) ho ho' hf hf' hin
      rw [c1] at hi0
      rw [place_unique (bands_spec hb).2 hi0 hi] at hempty
      obtain ⟨q1, q2⟩ := pair_empty hempty (entry_result ho he)
      rcases hsel with ⟨k, hkk, rfl⟩ | ⟨sta, rfl⟩
      · exact q1 k hkk
      · exact q2 sta
    · rintro r e rfl rfl he
      obtain ⟨c1, c2⟩ := hcomp (cfg := { cfg with freqs := fo, njobs := nj, input := inp }) hb' (hj' [ev]) ho' he
      obtain ⟨i0, hi0, hempty⟩ := C144_no_result_partial (cfg := { cfg with freqs := fo, njobs := nj, input := inp })
        (fo := cfg.freqs) (nj := cfg.njobs) (inp := cfg.input) (by simp) hb' hb (hj' [ev]) (hj [ev]) ho' ho hf' hf hin'
      rw [c1] at hi0
      rw [place_unique (bands_spec hb').2 hi0 hk] at hempty
      obtain ⟨q1, q2⟩ := pair_empty hempty
        (entry_result (cfg := { cfg with freqs := fo, njobs := nj, input := inp }) ho' he)
      rcases hsel with ⟨k, hkk, rfl⟩ | ⟨sta, rfl⟩
      · exact q1 k hkk
      · exact q2 sta
  have hlen : ∀ {d : Dict ℝ (ℝ × ℝ)} {i : ℕ}, (d.map Prod.fst)[i]? = some f → i < d.length := by
    intro d i hd
    obtain ⟨h1, -⟩ := List.getElem?_eq_some_iff.1 hd
    simpa using h1
  exact means_band (by rw [← hw]; exact hS.some_event) (by rw [← hw']; exact hS'.some_event)
    (by rw [← hw]; exact hS.complete) (by rw [← hw']; exact hS'.complete) (hlen hi) (hlen hk)
    (fun k hkk => key _ (Or.inl ⟨k, hkk, rfl⟩)) (fun sta => key _ (Or.inr ⟨sta, rfl⟩)) h h'

end

namespace OtherBandsExample

open JobsExample TablesExample

/-- The means of the band at 0.25 Hz are the same with and without the band at 0.2 Hz. -/
example (rlm : List ℝ → ℝ × ℝ) : ∃ w w', invertWrapper rlm (fun evs => invert exEnv (exCfg (some 1)) 1 [] evs)
      (exCfg (some 1)).codaNorm.isSome false .weighted [exEvent] = .ok (some w) ∧
    invertWrapper rlm (fun evs => invert exEnv { exCfg (some 1) with freqs := two, njobs := some 1, input := none } 1 []
      evs) (exCfg (some 1)).codaNorm.isSome false .weighted [exEvent] = .ok (some w') ∧
    ∃ i j, w.freq[i]? = some 0.25 ∧ w'.freq[j]? = some 0.25 ∧ SameMeansAt w w' i j := by
  obtain ⟨res, h⟩ := exInvert
  obtain ⟨res', h'⟩ := invert_two
  have own : OwnCopies (exCfg (some 1)) [(0.25, one)] 1 [] := ⟨fun hne => absurd rfl hne, Or.inl rfl⟩
  have own' : OwnCopies { exCfg (some 1) with freqs := two, njobs := some 1, input := none }
    [(0.2, low), (0.25, one)] 1 [] := ⟨fun hne => absurd rfl hne, Or.inl rfl⟩
  have hset : IsSetOrder exEnv.setOrder := fun l => ⟨List.nodup_dedup l, fun _ => List.mem_dedup⟩
  have hti : ¬ Tie [exEvent] := by
    rintro ⟨a, ha, b, hb, hab, -⟩
    simp at ha hb
    exact hab (ha.trans hb.symm)
  obtain ⟨o, p1, p2, -⟩ := separate_total (rlm := rlm) (mean := .weighted) hset (events := [exEvent]) (by simp)
    freqs_one (schedule := fun _ => []) (fun _ => own.1) rfl hti ⟨exEvent, by simp, rfl⟩
    (fun ev hev _ => by simp at hev; subst hev; exact ⟨rfl, _, h⟩)
  obtain ⟨o', p1', p2', -⟩ := separate_total (rlm := rlm) (mean := .weighted)
    (cfg := { exCfg (some 1) with freqs := two, njobs := some 1, input := none }) hset (events := [exEvent]) (by simp)
    freqs_two (schedule := fun _ => []) (fun _ => own'.1) rfl hti ⟨exEvent, by simp, rfl⟩
    (fun ev hev _ => by simp at hev; subst hev; exact ⟨rfl, _, h'⟩)
  obtain ⟨w, rfl⟩ : ∃ w, o = some w := by
    cases o with
    | some w => exact ⟨w, rfl⟩
    | none => exact absurd ((p2.1 rfl) exEvent (by simp) rfl) (by simp only [h]; simp)
  obtain ⟨w', rfl⟩ : ∃ w, o' = some w := by
    cases o' with
    | some w => exact ⟨w, rfl⟩
    | none => exact absurd ((p2'.1 rfl) exEvent (by simp) rfl) (by simp only [h']; simp)
  refine ⟨w, w', p1, p1', ?_⟩
  exact C144_separate_partial (schedule := fun _ => []) (schedule' := fun _ => []) (band := one) hset (by simp) freqs_one
    freqs_two (fun _ => own) (fun _ => own') p1 p1' (by simp) (by simp) (fun hne => absurd rfl hne)

end OtherBandsExample

end Qopen
