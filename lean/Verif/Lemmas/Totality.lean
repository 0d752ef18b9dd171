import Verif.Props.FigureSites
import Verif.Lemmas.InvertFb

/-!
# Collecting complete results never fails
-/

namespace Qopen

open Util Catalog Collect Invert Wrapper Imaging Figures

/-- The requested items `only` of an event have the given shapes: a number for shape `none`, a list of
length `n` for shape `some n`; the site responses are lists of length `nf`. -/
structure Fits (only : List String) (sh : String → Option ℕ) (nf : ℕ) (e : Dict String RVal) : Prop where
  R : ∀ v, e.get? "R" = some v → ∃ d, v = .sites d ∧ ∀ p ∈ d, p.2.length = nf
  other : ∀ c ∈ only, c ≠ "R" → ∀ v, e.get? c = some v →
    (∃ x, v = .cell x ∧ sh c = none) ∨ ∃ l, v = .row l ∧ sh c = some l.length

namespace Total

theorem mapExc_total {α β : Type} {f : α → Py β} {l : List α} (h : ∀ a ∈ l, ∃ b, f a = .ok b) :
    ∃ l', mapExc f l = .ok l' := by
  induction l with
  | nil => exact ⟨[], rfl⟩
  | cons a l ih =>
    obtain ⟨b, hb⟩ := h a List.mem_cons_self
    obtain ⟨l', hl⟩ := ih (fun x hx => h x (List.mem_cons_of_mem _ hx))
    exact ⟨b :: l', by simp [mapExc, hb, hl, bind, Except.bind, pure, Except.pure]⟩

/-- What is collected so far. -/
structure Collected (sh : String → Option ℕ) (nf : ℕ) (col : Dict String ColVal) : Prop where
  wf : col.WF
  R : ∀ v, col.get? "R" = some v → ∃ d, v = .sites d ∧ ∀ p ∈ d, ∀ x ∈ p.2, x.shape = some nf
  other : ∀ c, c ≠ "R" → ∀ v, col.get? c = some v → ∃ l, v = .vals l ∧ ∀ x ∈ l, x.shape = sh c

theorem appendSites_total {nf : ℕ} {R : Dict String (List Cell)} (hR : ∀ p ∈ R, p.2.length = nf)
    {tab : Dict String (List Item)} (ht : ∀ p ∈ tab, ∀ x ∈ p.2, x.shape = some nf) :
    ∃ tab', appendSites none tab R = .ok tab' ∧ ∀ p ∈ tab', ∀ x ∈ p.2, x.shape = some nf := by
  unfold appendSites
  induction R generalizing tab with
  | nil => exact ⟨tab, rfl, ht⟩
  | cons sr R ih =>
    rw [List.foldlM_cons]
    simp only [freqGetter, bind, Except.bind, pure, Except.pure]
    refine ih (fun p hp => hR p (List.mem_cons_of_mem _ hp)) ?_
    intro p hp x hx
    have hmem : ∀ q ∈ tab.set sr.1 ((tab.get? sr.1).getD [] ++ [Item.row sr.2]),
        q ∈ tab ∨ q.2 = (tab.get? sr.1).getD [] ++ [Item.row sr.2] := by
      generalize (tab.get? sr.1).getD [] ++ [Item.row sr.2] = v
      clear ih ht hR hp
      induction tab with
      | nil => intro q hq; simp [Dict.set] at hq; right; rw [hq]
      | cons a tab ih =>
        intro q hq
        unfold Dict.set at hq
        split_ifs at hq
        · rcases List.mem_cons.1 hq with rfl | hq
          · right; rfl
          · left; exact List.mem_cons_of_mem _ hq
        · rcases List.mem_cons.1 hq with rfl | hq
          · left; exact List.mem_cons_self
          · rcases ih q hq with h | h
            · left; exact List.mem_cons_of_mem _ h
            · right; exact h
    rcases hmem p hp with h | h
    · exact ht p h x hx
    · rw [h] at hx
      rcases List.mem_append.1 hx with hx | hx
      · cases hg : tab.get? sr.1 with
        | none => rw [hg] at hx; simp at hx
        | some l =>
          rw [hg] at hx
          exact ht _ (Dict.mem_of_get? hg) x hx
      · simp only [List.mem_singleton] at hx
        subst hx
        simp only [Item.shape, hR sr List.mem_cons_self]

theorem collectKey_total {only : List String} {sh : String → Option ℕ} {nf : ℕ} {id : String}
    {e : Dict String RVal} (hf : Fits only sh nf e) {c : String} (hc : c ∈ only) (hid : c ≠ "eventid")
    {col : Dict String ColVal} (h : Collected sh nf col) :
    ∃ col', collectKey none id e col c = .ok col' ∧ Collected sh nf col' := by
  unfold collectKey
  rw [if_neg hid]
  cases hg : e.get? c with
  | none => exact ⟨col, rfl, h⟩
  | some v =>
    simp only
    by_cases hR : c = "R"
    · subst hR
      rw [if_pos rfl]
      obtain ⟨d, rfl, hd⟩ := hf.R v hg
      have hs : ∀ p ∈ sitesOf col, ∀ x ∈ p.2, x.shape = some nf := by
        unfold sitesOf
        cases hr : col.get? "R" with
        | none => simp
        | some v =>
          obtain ⟨d', rfl, hd'⟩ := h.R v hr
          exact hd'
      obtain ⟨t, ht, hts⟩ := appendSites_total hd hs
      refine ⟨col.set "R" (.sites t), by simp only [ht, bind, Except.bind, pure, Except.pure], ?_⟩
      refine ⟨Dict.WF_set h.wf _ _, ?_, ?_⟩
      · intro v hv
        rw [Dict.get?_set_self, Option.some.injEq] at hv
        exact ⟨t, hv.symm, hts⟩
      · intro k hk v hv
        rw [Dict.get?_set_ne _ _ (Ne.symm hk)] at hv
        exact h.other k hk v hv
    · rw [if_neg hR]
      obtain ⟨x, hx, hxs⟩ : ∃ x, freqGetter none v c = .ok x ∧ x.shape = sh c := by
        rcases hf.other c hc hR v hg with ⟨y, rfl, hy⟩ | ⟨l, rfl, hl⟩
        · exact ⟨.cell y, rfl, hy.symm⟩
        · exact ⟨.row l, rfl, hl.symm⟩
      simp only [hx, bind, Except.bind]
      unfold append
      have key : ∀ l : List Item, (∀ y ∈ l, y.shape = sh c) → Collected sh nf (col.set c (.vals l)) := by
        intro l hl
        refine ⟨Dict.WF_set h.wf _ _, ?_, ?_⟩
        · intro v hv
          rw [Dict.get?_set_ne _ _ hR] at hv
          exact h.R v hv
        · intro k hk v hv
          by_cases hkc : c = k
          · subst hkc
            rw [Dict.get?_set_self, Option.some.injEq] at hv
            exact ⟨l, hv.symm, hl⟩
          · rw [Dict.get?_set_ne _ _ hkc] at hv
            exact h.other k hk v hv
      cases hcg : col.get? c with
      | none => exact ⟨_, rfl, key [x] (by simpa using hxs)⟩
      | some w =>
        obtain ⟨l, rfl, hl⟩ := h.other c hR w hcg
        refine ⟨_, rfl, key _ ?_⟩
        intro y hy
        rcases List.mem_append.1 hy with hy | hy
        · exact hl y hy
        · rw [List.mem_singleton.1 hy]; exact hxs

theorem collectEvent_total {only keys : List String} {sh : String → Option ℕ} {nf : ℕ} {id : String}
    {e : Dict String RVal} (hf : Fits only sh nf e) (hsub : ∀ c ∈ keys, c ∈ only ∧ c ≠ "eventid")
    {col : Dict String ColVal} (h : Collected sh nf col) :
    ∃ col', keys.foldlM (collectKey none id e) col = .ok col' ∧ Collected sh nf col' := by
  induction keys generalizing col with
  | nil => exact ⟨col, rfl, h⟩
  | cons c keys ih =>
    obtain ⟨h1, h2⟩ := hsub c List.mem_cons_self
    obtain ⟨col1, e1, e2⟩ := collectKey_total (id := id) hf h1 h2 h
    rw [List.foldlM_cons, e1]
    exact ih (fun c hc => hsub c (List.mem_cons_of_mem _ hc)) e2

theorem toArray_total {l : List Item} {s : Option ℕ} (h : ∀ x ∈ l, x.shape = s) :
    toArray l = .ok (l.map Item.toFloat) := by
  unfold toArray
  rw [if_pos]
  rw [List.all_eq_true]
  intro x hx
  cases l with
  | nil => simp at hx
  | cons a l => simp [h x hx, h a List.mem_cons_self]

theorem shape_toFloat (x : Item) : x.toFloat.shape = x.shape := by
  cases x <;> simp [Item.toFloat, Item.shape]

theorem convert_total {sh : Option ℕ} {nf : ℕ} {k : String} {v : ColVal}
    (h : (k = "R" ∧ ∃ d, v = .sites d ∧ ∀ p ∈ d, ∀ x ∈ p.2, x.shape = some nf) ∨
      (k ≠ "R" ∧ ∃ l, v = .vals l ∧ ∀ x ∈ l, x.shape = sh)) :
    ∃ v', convert v = .ok v' ∧
      ((k = "R" ∧ ∃ d, v' = .sites d ∧ ∀ p ∈ d, ∀ x ∈ p.2, x.shape = some nf) ∨
      (k ≠ "R" ∧ ∃ l, v' = .vals l ∧ ∀ x ∈ l, x.shape = sh)) := by
  rcases h with ⟨hk, d, rfl, hs⟩ | ⟨hk, l, rfl, hs⟩
  · have hm : mapExc (fun kv : String × List Item => (do let a ← toArray kv.2; return (kv.1, a) : Py _))
        d = .ok (d.map (fun p => (p.1, p.2.map Item.toFloat))) := by
      rw [mapExc_ok, List.forall₂_map_right_iff, List.forall₂_same]
      intro p hp
      rw [toArray_total (hs p hp)]
      rfl
    refine ⟨.sites (d.map (fun p => (p.1, p.2.map Item.toFloat))), ?_, Or.inl ⟨hk, _, rfl, ?_⟩⟩
    · unfold convert
      simp only [hm]
      rfl
    · intro p hp x hx
      obtain ⟨q, hq, rfl⟩ := List.mem_map.1 hp
      obtain ⟨y, hy, rfl⟩ := List.mem_map.1 hx
      rw [shape_toFloat, hs q hq y hy]
  · refine ⟨.vals (l.map Item.toFloat), ?_, Or.inr ⟨hk, _, rfl, ?_⟩⟩
    · unfold convert
      simp only [toArray_total hs]
      rfl
    · intro x hx
      obtain ⟨y, hy, rfl⟩ := List.mem_map.1 hx
      rw [shape_toFloat, hs y hy]

theorem Collected.entry {sh : String → Option ℕ} {nf : ℕ} {col : Dict String ColVal}
    (h : Collected sh nf col) {k : String} {v : ColVal} (hg : col.get? k = some v) :
    (k = "R" ∧ ∃ d, v = .sites d ∧ ∀ p ∈ d, ∀ x ∈ p.2, x.shape = some nf) ∨
      (k ≠ "R" ∧ ∃ l, v = .vals l ∧ ∀ x ∈ l, x.shape = sh k) := by
  by_cases hk : k = "R"
  · subst hk; exact Or.inl ⟨rfl, h.R _ hg⟩
  · exact Or.inr ⟨hk, h.other _ hk _ hg⟩

/-- Complete results can be collected. -/
theorem collect_total {only : List String} {sh : String → Option ℕ} {nf : ℕ}
    {events : Dict String (Dict String RVal)} (hf : ∀ e ∈ events, Fits only sh nf e.2)
    (hid : "eventid" ∉ only) :
    ∃ col, collectResults (events.mapVals some) only = .ok col ∧ Collected sh nf col := by
  unfold collectResults
  have h0 : Collected sh nf (if "R" ∈ only then [("R", ColVal.sites [])] else []) := by
    split_ifs
    · refine ⟨by simp [Dict.WF], ?_, ?_⟩
      · intro v hv
        simp [Dict.get?] at hv
        exact ⟨[], hv.symm, by simp⟩
      · intro c hc v hv
        simp [Dict.get?, Ne.symm hc] at hv
    · exact ⟨by simp [Dict.WF], by simp, by simp⟩
  have : ∀ (l : Dict String (Dict String RVal)) col, (∀ e ∈ l, Fits only sh nf e.2) → Collected sh nf col →
      ∃ col', (Dict.mapVals some l).foldlM (collectEvent none only) col = .ok col' ∧ Collected sh nf col' := by
    intro l
    induction l with
    | nil => intro col _ h; exact ⟨col, rfl, h⟩
    | cons e l ih =>
      intro col hf h
      obtain ⟨col1, e1, e2⟩ := collectEvent_total (id := e.1) (hf e List.mem_cons_self)
        (keys := only) (fun c hc => ⟨hc, fun h => hid (h ▸ hc)⟩) h
      obtain ⟨col2, e3, e4⟩ := ih col1 (fun e he => hf e (List.mem_cons_of_mem _ he)) e2
      refine ⟨col2, ?_, e4⟩
      simp only [Dict.mapVals, List.map_cons, List.foldlM_cons]
      rw [show collectEvent none only col (e.1, some e.2) = .ok col1 from e1]
      exact e3
  obtain ⟨col1, e1, e2⟩ := this events _ hf h0
  obtain ⟨col2, e3⟩ := mapExc_total (l := col1)
    (f := fun kv : String × ColVal => (do let v ← convert kv.2; return (kv.1, v) : Py _)) (by
      intro kv hkv
      obtain ⟨v, hv, -⟩ := convert_total (e2.entry (Dict.get?_of_mem e2.wf hkv))
      exact ⟨(kv.1, v), by rw [hv]; rfl⟩)
  refine ⟨col2, by simp only [bind, Except.bind, e1]; exact e3, ?_⟩
  have hent : ∀ (k : String) (v' : ColVal), Dict.get? col2 k = some v' →
      (k = "R" ∧ ∃ d, v' = .sites d ∧ ∀ p ∈ d, ∀ x ∈ p.2, x.shape = some nf) ∨
      (k ≠ "R" ∧ ∃ l, v' = .vals l ∧ ∀ x ∈ l, x.shape = sh k) := by
    intro k v' hv'
    rcases mapVals_get? e3 k with ⟨-, h2⟩ | ⟨v, w, h1, h2, h3⟩
    · rw [h2] at hv'; simp at hv'
    · rw [h3, Option.some.injEq] at hv'
      subst hv'
      obtain ⟨w', hw', hw⟩ := convert_total (e2.entry h1)
      rw [h2, Except.ok.injEq] at hw'
      subst hw'
      exact hw
  refine ⟨?_, ?_, ?_⟩
  · unfold Dict.WF
    rw [FigureSites.mapExc_keys e3]
    exact e2.wf
  · intro v hv
    rcases hent _ v hv with ⟨-, h⟩ | ⟨h, -⟩
    · exact h
    · exact absurd rfl h
  · intro c hc v hv
    rcases hent _ v hv with ⟨h, -⟩ | ⟨-, h⟩
    · exact absurd h hc
    · exact h

/-- Rows of a collected array. -/
theorem rowsOf_total {l : List Item} {n : ℕ} (h : ∀ x ∈ l, x.shape = some n) :
    ∃ rows, rowsOf l = .ok rows ∧ (∀ r ∈ rows, r.length = n) ∧ rows.length = l.length := by
  unfold rowsOf
  obtain ⟨rows, hr⟩ := mapExc_total (l := l)
    (f := fun x => (match x with | .row r => .ok r | .cell _ => .error .other : Py (List Cell))) (by
      intro x hx
      cases x with
      | cell c => have := h _ hx; simp [Item.shape] at this
      | row r => exact ⟨r, rfl⟩)
  refine ⟨rows, hr, ?_, mapExc_length hr⟩
  intro r hr'
  obtain ⟨x, hx, hxr⟩ := FigureSites.forall₂_right (mapExc_ok.1 hr) r hr'
  cases x with
  | cell c => simp at hxr
  | row r' =>
    simp only [Except.ok.injEq] at hxr
    subst hxr
    have := h _ hx
    simpa [Item.shape] using this

theorem arrayOf_total {sh : String → Option ℕ} {nf n : ℕ} {col : Dict String ColVal}
    (h : Collected sh nf col) {key : String} (hk : key ≠ "R") (hs : sh key = some n) :
    ∃ a, arrayOf col key = .ok a ∧ ∀ rows, a = some rows → ∀ r ∈ rows, r.length = n := by
  unfold arrayOf
  cases hg : col.get? key with
  | none => exact ⟨none, rfl, by simp⟩
  | some v =>
    obtain ⟨l, rfl, hl⟩ := h.other key hk v hg
    obtain ⟨rows, h1, h2, -⟩ := rowsOf_total (n := n) (fun x hx => by rw [hl x hx, hs])
    refine ⟨some rows, by simp only [h1]; rfl, ?_⟩
    intro r hr
    rw [Option.some.injEq] at hr
    rw [← hr]; exact h2

theorem sitesArray_total {sh : String → Option ℕ} {nf : ℕ} {col : Dict String ColVal}
    (h : Collected sh nf col) :
    ∃ R, sitesArray col = .ok R ∧ ∀ p ∈ R, ∀ r ∈ p.2, r.length = nf := by
  have hs : ∀ p ∈ sitesOf col, ∀ x ∈ p.2, x.shape = some nf := by
    unfold sitesOf
    cases hr : col.get? "R" with
    | none => simp
    | some v =>
      obtain ⟨d', rfl, hd'⟩ := h.R v hr
      exact hd'
  unfold sitesArray
  obtain ⟨R, hR⟩ := mapExc_total (l := sitesOf col)
    (f := fun kv : String × List Item => (do let rows ← rowsOf kv.2; return (kv.1, rows) : Py _)) (by
      intro p hp
      obtain ⟨rows, h1, -⟩ := rowsOf_total (hs p hp)
      exact ⟨(p.1, rows), by rw [h1]; rfl⟩)
  refine ⟨R, hR, ?_⟩
  intro p hp r hr
  obtain ⟨q, hq, hqp⟩ := FigureSites.forall₂_right (mapExc_ok.1 hR) p hp
  obtain ⟨rows, h1, h2, -⟩ := rowsOf_total (hs q hq)
  rw [h1] at hqp
  obtain rfl := Except.ok.inj hqp
  exact h2 r hr

theorem gstat_total (rlm : List ℝ → ℝ × ℝ) (data : List Cell) (unbiased robust : Bool) :
    ∃ r, gstat rlm data none unbiased robust 5 = .ok r := by
  unfold gstat
  simp only [Option.isSome_none, Bool.and_false, Bool.false_eq_true, if_false]
  split_ifs
  · unfold robustStat weightedStat
    simp only [weightsMismatch, Bool.false_eq_true, if_false]
    by_cases h1 : (validData (maLog (maskedInvalid data))).length < 5
    · rw [if_pos h1]; exact ⟨_, rfl⟩
    · rw [if_neg h1]
      split
      · rw [if_neg (by omega)]; exact ⟨_, rfl⟩
      · exact ⟨_, rfl⟩
  · unfold weightedStat
    simp only [weightsMismatch, Bool.false_eq_true, if_false]
    exact ⟨_, rfl⟩

/-- The misfits fit a table with `n` bands. -/
def ErrsFit (mean : Mean) (errs rows : List (List Cell)) (n : ℕ) : Prop :=
  mean = .weighted → errs.length = rows.length ∧ ∀ r ∈ errs, r.length = n

theorem tableMean_total (rlm : List ℝ → ℝ × ℝ) {mean : Mean}
    {errs rows : List (List Cell)} {n : ℕ} (h : ∀ r ∈ rows, r.length = n) (hne : rows ≠ [])
    (hm : ErrsFit mean errs rows n) : ∃ m, tableMean rlm mean errs rows = .ok m := by
  have hhead : (rows.headD []).length = n := by
    cases rows with
    | nil => exact absurd rfl hne
    | cons a rows => exact h a List.mem_cons_self
  have hl : (rows.any (fun r => r.length != (rows.headD []).length)) = false := by
    rw [← Bool.not_eq_true, List.any_eq_true]
    rintro ⟨r, hr, hne⟩
    rw [hhead, h r hr] at hne
    simp at hne
  unfold tableMean
  cases mean with
  | weighted =>
    obtain ⟨h1, h2⟩ := hm rfl
    simp only [gmeanlistW, hhead]
    rw [if_neg]
    · exact ⟨_, rfl⟩
    · push Not
      refine ⟨h1.symm, fun r hr => ?_⟩
      rcases List.mem_append.1 hr with hr | hr
      · exact h r hr
      · exact h2 r hr
  | plain =>
    simp only [gmeanlist, hl, Bool.false_eq_true, if_false]
    exact ⟨_, rfl⟩
  | robust =>
    simp only [gmeanlist, hl, Bool.false_eq_true, if_false, if_true]
    refine mapExc_total ?_
    intro i _
    obtain ⟨r, hr⟩ := gstat_total rlm (column rows i) true true
    refine ⟨Cell.ofOption (r.1.map Real.exp), ?_⟩
    unfold gmean
    simp only [hr, bind, Except.bind, pure, Except.pure]

theorem gerr_total (rlm : List ℝ → ℝ × ℝ) (data : List Cell) (unbiased robust : Bool) :
    ∃ r, gerr rlm data none unbiased robust = .ok r := by
  obtain ⟨r, hr⟩ := gstat_total rlm data unbiased robust
  unfold gerr
  simp only [hr, bind, Except.bind, pure, Except.pure]
  exact ⟨_, rfl⟩

theorem gerrTable_total (rlm : List ℝ → ℝ × ℝ) {mean : Mean}
    (rows errs : List (List Cell)) (nf : ℕ) (hm : ErrsFit mean errs rows nf) :
    ∃ m, gerrTable rlm mean rows errs nf = .ok m := by
  unfold gerrTable
  cases mean with
  | weighted =>
    obtain ⟨h1, h2⟩ := hm rfl
    simp only
    rw [if_neg (by push Not; exact ⟨h1.symm, h2⟩)]
    refine mapExc_total ?_
    intro i _
    unfold gerrWeighted
    split
    · exact ⟨_, rfl⟩
    · unfold gerr gstat weightedStat
      have : weightsMismatch (some ((column errs i).map weightOf))
          (maLog (maskedInvalid (column rows i))).length = false := by
        simp [weightsMismatch, maLog, maskedInvalid, column, h1]
      simp only [Bool.false_and, Bool.false_eq_true, if_false, this]
      exact ⟨_, rfl⟩
  | plain => exact mapExc_total (fun i _ => gerr_total rlm _ true false)
  | robust => exact mapExc_total (fun i _ => gerr_total rlm _ true true)

end Total
end Qopen
