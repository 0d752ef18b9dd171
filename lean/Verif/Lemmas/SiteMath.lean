import Verif.Lemmas.SiteArea
import Verif.Lemmas.SiteRescale

/-!
# Minimisers of the misfit
-/

namespace Qopen.Site

open Real Spec

/-! ## sums of squared steps -/

theorem sqSteps_nonneg (l : List ℝ) : 0 ≤ sqSteps l := by
  induction l with
  | nil => simp [sqSteps]
  | cons a l ih =>
    cases l with
    | nil => simp [sqSteps]
    | cons b l => simp only [sqSteps]; positivity

theorem sqSteps_add_const (l : List ℝ) (t : ℝ) : sqSteps (l.map (fun x => x + t)) = sqSteps l := by
  induction l with
  | nil => rfl
  | cons a l ih =>
    cases l with
    | nil => rfl
    | cons b l =>
      simp only [List.map_cons, sqSteps] at ih ⊢
      rw [ih]; ring

theorem sqSteps_zero {l : List ℝ} (h : sqSteps l = 0) : ∀ x ∈ l, ∀ y ∈ l, x = y := by
  have key : ∀ (l : List ℝ) (a : ℝ), sqSteps (a :: l) = 0 → ∀ x ∈ l, x = a := by
    intro l
    induction l with
    | nil => simp
    | cons b l ih =>
      intro a h x hx
      simp only [sqSteps] at h
      have h1 := sqSteps_nonneg (b :: l)
      have h2 := sq_nonneg (a - b)
      have hb : a = b := by
        have : (a - b) ^ 2 = 0 := by linarith
        have := pow_eq_zero_iff (two_ne_zero) |>.1 this
        linarith
      rcases List.mem_cons.1 hx with rfl | hx
      · exact hb.symm
      · rw [hb]; exact ih b (by linarith) x hx
  cases l with
  | nil => simp
  | cons a l =>
    intro x hx y hy
    have := key l a h
    have hx' : x = a := (List.mem_cons.1 hx).elim id (this x)
    have hy' : y = a := (List.mem_cons.1 hy).elim id (this y)
    rw [hx', hy']

theorem sqSteps_of_const {l : List ℝ} (h : ∀ x ∈ l, ∀ y ∈ l, x = y) : sqSteps l = 0 := by
  induction l with
  | nil => rfl
  | cons a l ih =>
    cases l with
    | nil => rfl
    | cons b l =>
      simp only [sqSteps]
      rw [ih (fun x hx y hy => h x (by simp [hx]) y (by simp [hy])),
        h a (by simp) b (by simp)]
      ring

theorem sqSteps_midpoint {α : Type} (l : List α) (f g : α → ℝ) :
    sqSteps (l.map (fun q => (f q + g q) / 2)) =
      sqSteps (l.map f) / 2 + sqSteps (l.map g) / 2 - sqSteps (l.map (fun q => f q - g q)) / 4 := by
  induction l with
  | nil => simp [sqSteps]
  | cons a l ih =>
    cases l with
    | nil => simp [sqSteps]
    | cons b l =>
      simp only [List.map_cons, sqSteps] at ih ⊢
      rw [ih]; ring

/-! ## the two parts of the misfit -/

variable {events : Dict String EvRes} {i : ℕ} {area : Finset String} {sel : StationSel} {r : ℝ}

/-- Roughness: sum of squared steps over all stations of the area. -/
noncomputable def rough (events : Dict String EvRes) (i : ℕ) (area : Finset String) (c : ℕ → ℝ) :
    ℝ := ∑ s ∈ area, sqSteps (adj events i c s)

/-- Level: mean over pinned stations. -/
noncomputable def level (events : Dict String EvRes) (i : ℕ) (area : Finset String)
    (sel : StationSel) (c : ℕ → ℝ) : ℝ :=
  (∑ s ∈ pinned area sel, avg (adj events i c s)) / (pinned area sel).card

theorem misfit_eq (c : ℕ → ℝ) : misfit events i area sel r c =
    rough events i area c + (level events i area sel c - log r) ^ 2 := rfl

theorem adj_shift (c : ℕ → ℝ) (t : ℝ) (s : String) :
    adj events i (fun k => c k + t) s = (adj events i c s).map (fun x => x + t) := by
  unfold adj
  rw [List.map_map]
  apply List.map_congr_left
  intro q _
  simp only [Function.comp]; ring

theorem adj_ne_nil {s : String} (h : pts events i s ≠ []) (c : ℕ → ℝ) : adj events i c s ≠ [] := by
  unfold adj; simpa using h

theorem avg_shift {l : List ℝ} (h : l ≠ []) (t : ℝ) : avg (l.map (fun x => x + t)) = avg l + t := by
  unfold avg
  have hl : (l.length : ℝ) ≠ 0 := by
    have := List.length_pos_of_ne_nil h; positivity
  rw [sum_map_add' l (fun x => x) (fun _ => t), sum_map_const', List.length_map, List.map_id']
  field_simp

theorem rough_shift (c : ℕ → ℝ) (t : ℝ) :
    rough events i area (fun k => c k + t) = rough events i area c := by
  unfold rough
  apply Finset.sum_congr rfl
  intro s _
  rw [adj_shift, sqSteps_add_const]

theorem level_shift (hp : (pinned area sel).Nonempty) (hd : ∀ s ∈ area, pts events i s ≠ [])
    (c : ℕ → ℝ) (t : ℝ) :
    level events i area sel (fun k => c k + t) = level events i area sel c + t := by
  unfold level
  have hc : ((pinned area sel).card : ℝ) ≠ 0 := by
    have := Finset.card_pos.2 hp; positivity
  have : ∀ s ∈ pinned area sel, avg (adj events i (fun k => c k + t) s) =
      avg (adj events i c s) + t := by
    intro s hs
    rw [adj_shift, avg_shift (adj_ne_nil (hd s (Finset.mem_filter.1 hs).1) c)]
  rw [Finset.sum_congr rfl this, Finset.sum_add_distrib, Finset.sum_const, nsmul_eq_mul]
  field_simp

/-- `c` minimises the misfit. -/
def IsMin (events : Dict String EvRes) (i : ℕ) (area : Finset String) (sel : StationSel) (r : ℝ)
    (c : ℕ → ℝ) : Prop := ∀ c', misfit events i area sel r c ≤ misfit events i area sel r c'

theorem IsMin.level (hp : (pinned area sel).Nonempty) (hd : ∀ s ∈ area, pts events i s ≠ [])
    {c : ℕ → ℝ} (h : IsMin events i area sel r c) : level events i area sel c = log r := by
  have := h (fun k => c k + (log r - Site.level events i area sel c))
  rw [misfit_eq, misfit_eq, rough_shift, level_shift hp hd] at this
  have h2 : (Site.level events i area sel c - log r) ^ 2 ≤ 0 := by
    have e : Site.level events i area sel c + (log r - Site.level events i area sel c) - log r = 0 := by
      ring
    rw [e] at this
    linarith
  have := pow_eq_zero_iff (two_ne_zero) |>.1 (le_antisymm h2 (sq_nonneg _))
  linarith

theorem IsMin.rough_le (hp : (pinned area sel).Nonempty) (hd : ∀ s ∈ area, pts events i s ≠ [])
    {c : ℕ → ℝ} (h : IsMin events i area sel r c) (c' : ℕ → ℝ) :
    rough events i area c ≤ rough events i area c' := by
  have := h (fun k => c' k + (log r - Site.level events i area sel c'))
  rw [misfit_eq, misfit_eq, rough_shift, level_shift hp hd, h.level hp hd] at this
  have e : Site.level events i area sel c' + (log r - Site.level events i area sel c') - log r = 0 := by
    ring
  rw [e] at this
  linarith

theorem isMin_of (hp : (pinned area sel).Nonempty) (hd : ∀ s ∈ area, pts events i s ≠ [])
    {c : ℕ → ℝ} (h1 : Site.level events i area sel c = log r)
    (h2 : ∀ c', rough events i area c ≤ rough events i area c') : IsMin events i area sel r c := by
  intro c'
  rw [misfit_eq, misfit_eq, h1, sub_self]
  have := h2 c'
  have := sq_nonneg (Site.level events i area sel c' - log r)
  simp only [ne_eq, OfNat.ofNat_ne_zero, not_false_eq_true, zero_pow, add_zero]
  linarith

/-- Steps of differences of factors. -/
theorem rough_midpoint (c c' : ℕ → ℝ) :
    rough events i area (fun k => (c k + c' k) / 2) =
      rough events i area c / 2 + rough events i area c' / 2 -
        (∑ s ∈ area, sqSteps ((pts events i s).map (fun q => c q.1 - c' q.1))) / 4 := by
  unfold rough
  rw [Finset.sum_div, Finset.sum_div, Finset.sum_div, ← Finset.sum_add_distrib,
    ← Finset.sum_sub_distrib]
  apply Finset.sum_congr rfl
  intro s _
  have := sqSteps_midpoint (pts events i s) (fun q => log q.2 + c q.1) (fun q => log q.2 + c' q.1)
  unfold adj
  have e1 : (pts events i s).map (fun q => log q.2 + (c q.1 + c' q.1) / 2) =
      (pts events i s).map (fun q => (log q.2 + c q.1 + (log q.2 + c' q.1)) / 2) := by
    apply List.map_congr_left
    intro q _
    ring
  have e2 : (pts events i s).map (fun q => log q.2 + c q.1 - (log q.2 + c' q.1)) =
      (pts events i s).map (fun q => c q.1 - c' q.1) := by
    apply List.map_congr_left
    intro q _
    ring
  rw [e1, this, e2]

/-- Two minimisers differ by a constant on all events seen by the stations of the area, and
the constant is zero. -/
theorem IsMin.unique {ok : String → Prop} (ha : IsArea events i ok area)
    (hp : (pinned area sel).Nonempty) {c c' : ℕ → ℝ} (h : IsMin events i area sel r c)
    (h' : IsMin events i area sel r c') {s : String} (hs : s ∈ area) {k : ℕ} {x : ℝ}
    (hk : (k, x) ∈ pts events i s) : c k = c' k := by
  have hd : ∀ s ∈ area, pts events i s ≠ [] := fun s hs => pts_ne_nil (ha.data s hs)
  have r1 := h.rough_le hp hd c'
  have r2 := h'.rough_le hp hd c
  have r3 := h.rough_le hp hd (fun k => (c k + c' k) / 2)
  rw [rough_midpoint] at r3
  have hnn : ∀ s ∈ area, 0 ≤ sqSteps ((pts events i s).map (fun q => c q.1 - c' q.1)) :=
    fun s _ => sqSteps_nonneg _
  have hsum : ∑ s ∈ area, sqSteps ((pts events i s).map (fun q => c q.1 - c' q.1)) = 0 := by
    have := Finset.sum_nonneg hnn
    linarith
  have hz := (Finset.sum_eq_zero_iff_of_nonneg hnn).1 hsum
  -- the difference is constant along each station
  have hconst : ∀ s ∈ area, ∀ q ∈ pts events i s, ∀ q' ∈ pts events i s,
      c q.1 - c' q.1 = c q'.1 - c' q'.1 := by
    intro s hs q hq q' hq'
    exact sqSteps_zero (hz s hs) _ (List.mem_map.2 ⟨q, hq, rfl⟩) _ (List.mem_map.2 ⟨q', hq', rfl⟩)
  -- and along chains of stations
  have hchain : ∀ t, Linked events i ok s t → ∀ q ∈ pts events i t,
      c q.1 - c' q.1 = c k - c' k := by
    intro t ht
    have hmem : t ∈ area ∧ ∀ q ∈ pts events i t, c q.1 - c' q.1 = c k - c' k := by
      induction ht with
      | refl => exact ⟨hs, fun q hq => hconst s hs q hq _ hk⟩
      | tail hl h1 ih =>
        rename_i t u
        have hu : u ∈ area := (ha.linked s hs u).2 (hl.tail h1)
        refine ⟨hu, ?_⟩
        obtain ⟨_, _, e, he, h2, h3⟩ := h1
        obtain ⟨n, hn, rfl⟩ := List.getElem_of_mem he
        obtain ⟨y, hy⟩ := Option.isSome_iff_exists.1 h2
        obtain ⟨z, hz⟩ := Option.isSome_iff_exists.1 h3
        have m1 : (n, y) ∈ pts events i t := mem_pts.2 ⟨_, List.getElem?_eq_getElem hn, hy⟩
        have m2 : (n, z) ∈ pts events i u := mem_pts.2 ⟨_, List.getElem?_eq_getElem hn, hz⟩
        intro q hq
        rw [hconst u hu q hq _ m2]
        have h5 := ih.2 _ m1
        exact h5
    exact hmem.2
  have hall : ∀ t ∈ area, ∀ q ∈ pts events i t, c q.1 = c' q.1 + (c k - c' k) := by
    intro t ht q hq
    have := hchain t ((ha.linked s hs t).1 ht) q hq
    linarith
  -- the level fixes the constant
  have hlev : Site.level events i area sel c =
      Site.level events i area sel (fun n => c' n + (c k - c' k)) := by
    unfold Site.level
    congr 1
    apply Finset.sum_congr rfl
    intro t ht
    congr 1
    unfold adj
    apply List.map_congr_left
    intro q hq
    rw [hall t (Finset.mem_filter.1 ht).1 q hq]
  rw [level_shift hp hd, h.level hp hd, h'.level hp hd] at hlev
  linarith

/-! ## data after rescaling -/

theorem adj_congr {c c' : ℕ → ℝ} (h : ∀ k < events.length, c k = c' k) (s : String) :
    adj events i c s = adj events i c' s := by
  unfold adj
  apply List.map_congr_left
  rintro ⟨k, x⟩ hq
  obtain ⟨p, hp, _⟩ := mem_pts.1 hq
  simp only [h k (List.getElem?_eq_some_iff.1 hp).1]

theorem misfit_congr {c c' : ℕ → ℝ} (h : ∀ k < events.length, c k = c' k) :
    misfit events i area sel r c = misfit events i area sel r c' := by
  unfold misfit
  simp only [adj_congr h]

theorem series_eq (events : Dict String EvRes) (i : ℕ) (s : String) :
    series events i s = (pts events i s).map Prod.snd := by
  unfold series pts
  rw [List.map_filterMap]
  have : ∀ (es : Dict String EvRes) (n : ℕ), es.filterMap (fun e => respOf e.2 s i) =
      (es.zipIdx n).filterMap (fun p => ((respOf p.1.2 s i).map (fun R => (p.2, R))).map Prod.snd) := by
    intro es
    induction es with
    | nil => intros; rfl
    | cons e es ih =>
      intro n
      rw [List.zipIdx_cons, List.filterMap_cons, List.filterMap_cons, ih (n + 1)]
      cases respOf e.2 s i <;> rfl
  exact this events 0

theorem adj_zero (events : Dict String EvRes) (i : ℕ) (s : String) :
    adj events i (fun _ => 0) s = (series events i s).map log := by
  rw [series_eq, adj, List.map_map]
  apply List.map_congr_left
  intro q _
  simp

/-- Observations of stations in the area after rescaling. -/
theorem pts_aligned {bands : List (Option (Finset String) × List ℝ)} {events' : Dict String EvRes}
    (h : EvRel (AlignedEv 0 bands) events events') {a : Finset String} {fs : List ℝ}
    (hb : bands[i]? = some (some a, fs))
    (hW : ∀ e ∈ events, ∀ s, (respOf e.2 s i).isSome → (energyOf e.2 i).isSome) {s : String}
    (hs : s ∈ a) :
    pts events' i s = (pts events i s).map (fun q => (q.1, q.2 * fs.getD q.1 1)) := by
  have key : ∀ (es es' : Dict String EvRes) (n : ℕ), es.length = es'.length →
      (∀ k p p', es[k]? = some p → es'[k]? = some p' →
        respOf p'.2 s i = (respOf p.2 s i).map (fun R => R * fs.getD (n + k) 1)) →
      (es'.zipIdx n).filterMap (fun p => (respOf p.1.2 s i).map (fun R => (p.2, R))) =
      ((es.zipIdx n).filterMap (fun p => (respOf p.1.2 s i).map (fun R => (p.2, R)))).map
        (fun q => (q.1, q.2 * fs.getD q.1 1)) := by
    intro es
    induction es with
    | nil =>
      intro es' n hl _
      have : es' = [] := List.length_eq_zero_iff.1 hl.symm
      subst this; rfl
    | cons e es ih =>
      intro es' n hl hp
      cases es' with
      | nil => simp at hl
      | cons e' es' =>
        have h0 := hp 0 e e' rfl rfl
        have h1 := ih es' (n + 1) (by simpa using hl) (fun k p p' h1 h2 => by
          have := hp (k + 1) p p' h1 h2
          rw [this]; congr 2; ext R; congr 2; omega)
        simp only [List.zipIdx_cons, List.filterMap_cons, h0, h1, Nat.add_zero]
        cases respOf e.2 s i <;> rfl
  refine key events events' 0 h.1 ?_
  intro k p p' h1 h2
  obtain ⟨_, h3⟩ := h.2 k p p' h1 h2
  have hbs := h3.band i _ hb
  rw [Nat.zero_add] at hbs ⊢
  cases hr : respOf p.2 s i with
  | none =>
    cases hw : energyOf p.2 i with
    | none => rw [(hbs.noW hw).2, hr]; rfl
    | some w => rw [hbs.resp w hw, hr]; rfl
  | some x =>
    obtain ⟨w, hw⟩ := Option.isSome_iff_exists.1 (hW p (List.mem_of_getElem? h1) s (by simp [hr]))
    rw [hbs.resp w hw, hr]
    simp [hs]

theorem adj_aligned {bands : List (Option (Finset String) × List ℝ)} {events' : Dict String EvRes}
    (h : EvRel (AlignedEv 0 bands) events events') {a : Finset String} {x : List ℝ}
    (hx : x.length = events.length) (hb : bands[i]? = some (some a, x.map exp))
    (hW : ∀ e ∈ events, ∀ s, (respOf e.2 s i).isSome → (energyOf e.2 i).isSome)
    (hpos : ∀ e ∈ events, ∀ s y, respOf e.2 s i = some y → 0 < y) {s : String}
    (hs : s ∈ a) (c : ℕ → ℝ) :
    adj events' i c s = adj events i (fun k => x.getD k 0 + c k) s := by
  unfold adj
  rw [pts_aligned h hb hW hs, List.map_map]
  apply List.map_congr_left
  rintro ⟨k, y⟩ hq
  obtain ⟨p, hp, hy⟩ := mem_pts.1 hq
  have hk : k < x.length := by rw [hx]; exact (List.getElem?_eq_some_iff.1 hp).1
  have hyp := hpos p (List.mem_of_getElem? hp) s y hy
  simp only [Function.comp, List.getD_eq_getElem?_getD, List.getElem?_map,
    List.getElem?_eq_getElem hk, Option.map_some, Option.getD_some]
  rw [log_mul hyp.ne' (exp_ne_zero _), log_exp]
  ring

end Qopen.Site
