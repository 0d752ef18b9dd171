import Verif.Props.SiteIdem
import Verif.Props.SitePin
import Verif.Props.SiteSelect

/-!
# Separate inversion of events with alignment recovers the truth (C125): the alignment
-/

namespace Qopen

open Real Spec Source Site

variable {orc : Oracle} {rlm : List ℝ → ℝ × ℝ}
  {solve : Bool → ℕ → List (List ℝ) → List ℝ → List ℝ} {results out : Results}
  {sel : StationSel} {response : Response} {us : Bool} {smm : Option Method}
  {smo : Option Opts} {ignore : Option (List String)} {R W : String → ℝ}

namespace Spec

/-- Each event was inverted with its own reference: what it reports in band `i` are the true
responses of its stations times a factor and its true source energy divided by the same factor,
so the products are right. -/
def RightProducts (events : Dict String EvRes) (i : ℕ) (R W : String → ℝ) : Prop :=
  ∀ e ∈ events, ∀ s x w, respOf e.2 s i = some x → energyOf e.2 i = some w → x * w = R s * W e.1

/-- The events report the true responses times `c` and the true source energies divided by `c`. -/
def TrueUpTo (c : ℝ) (events : Dict String EvRes) (i : ℕ) (R W : String → ℝ) : Prop :=
  ∀ e ∈ events, (∀ s x, respOf e.2 s i = some x → x = c * R s) ∧
    ∀ w, energyOf e.2 i = some w → w = W e.1 / c

end Spec

namespace Site

theorem event_before (hp : ProperResults results.events)
    (h : align orc rlm solve results sel response us smm smo ignore = .ok out)
    {e : String × EvRes} (he : e ∈ resultsOf out.events) :
    out.events.get? e.1 = some (some e.2) ∧ ∃ ev, results.events.get? e.1 = some (some ev) := by
  have ho := out_proper hp h
  refine ⟨Dict.get?_of_mem ho.ids (mem_resultsOf.1 he), ?_⟩
  obtain ⟨events', Nf, bands, hout, hW, hrow, hb, hrel, hband, -⟩ := align_ok (proper_rwf hp) h
  have hev : resultsOf out.events = events' := by rw [hout, resultsOf_map_some]
  rw [hev] at he
  obtain ⟨ev, m⟩ := evrel_left hrel (id := e.1) (ev' := e.2) he
  exact ⟨ev, Dict.get?_of_mem hp.ids (mem_resultsOf.1 (mem_sortedEvents.1 m))⟩

theorem event_after (hp : ProperResults results.events)
    (h : align orc rlm solve results sel response us smm smo ignore = .ok out)
    {e : String × EvRes} (he : e ∈ resultsOf results.events) :
    results.events.get? e.1 = some (some e.2) ∧ ∃ ev, out.events.get? e.1 = some (some ev) := by
  have ho := out_proper hp h
  refine ⟨Dict.get?_of_mem hp.ids (mem_resultsOf.1 he), ?_⟩
  obtain ⟨events', Nf, bands, hout, hW, hrow, hb, hrel, hband, -⟩ := align_ok (proper_rwf hp) h
  have hev : resultsOf out.events = events' := by rw [hout, resultsOf_map_some]
  have hm : e.1 ∈ events'.map Prod.fst := by
    rw [evrel_keys hrel]
    exact List.mem_map.2 ⟨e, mem_sortedEvents.2 he, rfl⟩
  obtain ⟨p, hp', e1⟩ := List.mem_map.1 hm
  refine ⟨p.2, Dict.get?_of_mem ho.ids (mem_resultsOf.1 ?_)⟩
  rw [hev, ← e1]
  exact hp'

end Site

/-- The factor of band `i` of an event. -/
theorem event_scale (hp : ProperResults results.events)
    (h : align orc rlm solve results sel response us smm smo ignore = .ok out) {i : ℕ}
    (hR : ∀ s, 0 < R s) (hW : ∀ id, 0 < W id)
    (hx : RightProducts (resultsOf results.events) i R W)
    {e : String × EvRes} (he : e ∈ resultsOf out.events) {w : ℝ} (hw : energyOf e.2 i = some w)
    {s : String} {x : ℝ} (hs : respOf e.2 s i = some x) : 0 < w ∧ x = W e.1 / w * R s := by
  obtain ⟨g2, ev, g1⟩ := event_before hp h he
  obtain ⟨x0, w0, r1, r2, r3⟩ := C01_product_preserved hp.ids hp.stations h g1 g2 hs hw
  have key := hx (e.1, ev) (mem_resultsOf.2 (Dict.mem_of_get? g1)) s x0 w0 r1 r2
  have hpos : 0 < x := (out_proper hp h).positive e he s i x hs
  have e1 : x * w = R s * W e.1 := r3.trans key
  have hw0 : 0 < w := by
    have : 0 < x * w := by rw [e1]; exact mul_pos (hR s) (hW _)
    exact (pos_iff_pos_of_mul_pos this).1 hpos
  refine ⟨hw0, ?_⟩
  field_simp
  linarith

/-- **C125**: alignment of exact results.  If every event reports the true site responses and the
true source energy up to a factor of its own, then after the alignment there is one factor for each
band: all events report the true responses times this factor and the true source energies divided
by it, for every least-squares minimiser. -/
theorem C125_alignment (hp : ProperResults results.events)
    (h : align orc rlm solve results sel response us smm smo ignore = .ok out)
    (hsol : ∀ b, IsLsqSolver (solve b)) {i : ℕ} (hR : ∀ s, 0 < R s) (hW : ∀ id, 0 < W id)
    (hdata : ∃ e ∈ resultsOf results.events, ∃ s, (respOf e.2 s i).isSome)
    (hx : RightProducts (resultsOf results.events) i R W) :
    ∃ c, 0 < c ∧ TrueUpTo c (resultsOf out.events) i R W := by
  have ho := out_proper hp h
  obtain ⟨area, harea, hkeep⟩ := C05_only_largest_area hp h hdata
  -- factors which make the results consistent
  let g : String → ℝ := fun id => match results.events.get? id with
    | some (some ev) => match energyOf ev i with
      | some w => if 0 < w then w / W id else 1
      | none => 1
    | _ => 1
  have hg : ∀ id, 0 < g id := by
    intro id
    simp only [g]
    split
    · split
      · split
        · rename_i hw
          exact div_pos hw (hW id)
        · exact one_pos
      · exact one_pos
    · exact one_pos
  have hcons : ∀ e ∈ resultsOf results.events, ∀ s x, respOf e.2 s i = some x →
      x * g e.1 = R s := by
    intro e he s x hs
    have g1 := (event_after hp h he).1
    obtain ⟨w, hw⟩ := Option.isSome_iff_exists.1 (hp.energy e he s i (by rw [hs]; rfl))
    have e1 := hx e he s x w hs hw
    have hxp := hp.positive e he s i x hs
    have hwp : 0 < w := by
      have : 0 < x * w := by rw [e1]; exact mul_pos (hR s) (hW _)
      exact (pos_iff_pos_of_mul_pos this).1 hxp
    have e2 : g e.1 = w / W e.1 := by
      simp only [g, g1, hw, if_pos hwp]
    rw [e2, ← mul_div_assoc, e1]
    exact mul_div_cancel_right₀ _ (hW e.1).ne'
  have hsame := fun {e e'} he he' {s x x'} hs hs' =>
    C03_consistent_data hp h hsol (i := i) g hg R hcons (e := e) (e' := e') he he' (s := s) (R := x)
      (R' := x') hs hs'
  -- the factor of a station
  obtain ⟨s0, hs0⟩ := harea.nonempty
  have hstation : ∀ s ∈ area, ∃ e ∈ resultsOf out.events, ∃ x, respOf e.2 s i = some x := by
    intro s hs
    obtain ⟨-, e, he, hr⟩ := harea.data s hs
    obtain ⟨g1, ev, g2⟩ := event_after hp h he
    have := ((hkeep e.1 e.2 ev g1 g2).1 s).2 ⟨hs, hr⟩
    obtain ⟨x, hx⟩ := Option.isSome_iff_exists.1 this
    exact ⟨(e.1, ev), mem_resultsOf.2 (Dict.mem_of_get? g2), x, hx⟩
  have hinarea : ∀ e ∈ resultsOf out.events, ∀ s x, respOf e.2 s i = some x → s ∈ area := by
    intro e he s x hs
    obtain ⟨g2, ev, g1⟩ := event_before hp h he
    exact (((hkeep e.1 ev e.2 g1 g2).1 s).1 (by rw [hs]; rfl)).1
  obtain ⟨e0, he0, x0, hx0⟩ := hstation s0 hs0
  obtain ⟨w0, hw0⟩ := Option.isSome_iff_exists.1 (ho.energy e0 he0 s0 i (by rw [hx0]; rfl))
  have hc0 := (event_scale hp h hR hW hx he0 hw0 hx0).1
  -- all stations of the area have the same factor
  have hlinked : ∀ t, Linked (resultsOf results.events) i (notIgnored ignore) s0 t →
      ∀ e ∈ resultsOf out.events, ∀ x, respOf e.2 t i = some x → x = W e0.1 / w0 * R t := by
    intro t ht
    induction ht with
    | refl =>
      intro e he x hs
      rw [hsame he he0 hs hx0]
      exact (event_scale hp h hR hW hx he0 hw0 hx0).2
    | tail h1 h2 ih =>
      rename_i b c
      intro e he x hs
      obtain ⟨-, -, e1, he1, hb, hc⟩ := h2
      have hba : b ∈ area := (harea.linked s0 hs0 b).2 h1
      have hca : c ∈ area := hinarea e he c x hs
      obtain ⟨g1, ev, g2⟩ := event_after hp h he1
      have hm := mem_resultsOf.2 (Dict.mem_of_get? g2)
      obtain ⟨xb, hxb⟩ := Option.isSome_iff_exists.1 (((hkeep e1.1 e1.2 ev g1 g2).1 b).2 ⟨hba, hb⟩)
      obtain ⟨xc, hxc⟩ := Option.isSome_iff_exists.1 (((hkeep e1.1 e1.2 ev g1 g2).1 c).2 ⟨hca, hc⟩)
      obtain ⟨w1, hw1⟩ := Option.isSome_iff_exists.1 (ho.energy _ hm b i (by rw [hxb]; rfl))
      have k1 := ih _ hm xb hxb
      have k2 := (event_scale hp h hR hW hx hm hw1 hxb).2
      have k3 := (event_scale hp h hR hW hx hm hw1 hxc).2
      have k4 : W e0.1 / w0 = W e1.1 / w1 := by
        have : W e0.1 / w0 * R b = W e1.1 / w1 * R b := k1.symm.trans k2
        exact mul_right_cancel₀ (hR b).ne' this
      rw [hsame he hm hs hxc, k3, k4]
  refine ⟨W e0.1 / w0, div_pos (hW _) hc0, ?_⟩
  intro e he
  have hresp : ∀ s x, respOf e.2 s i = some x → x = W e0.1 / w0 * R s := by
    intro s x hs
    exact hlinked s ((harea.linked s0 hs0 s).1 (hinarea e he s x hs)) e he x hs
  refine ⟨hresp, ?_⟩
  intro w hw
  obtain ⟨g2, ev, g1⟩ := event_before hp h he
  have hev : (energyOf ev i).isSome := by
    cases hn : energyOf ev i with
    | some y => rfl
    | none =>
      rw [(C01_missing_stays_missing hp.ids hp.stations h g1 g2 i).1 hn] at hw
      simp at hw
  have hex : ∃ s, respOf e.2 s i ≠ none := by
    by_contra hcon
    push Not at hcon
    rw [((hkeep e.1 ev e.2 g1 g2).2 hev).2 hcon] at hw
    simp at hw
  obtain ⟨s, hs⟩ := hex
  obtain ⟨x, hs⟩ := Option.ne_none_iff_exists'.1 hs
  have k1 := hresp s x hs
  obtain ⟨k2, k3⟩ := event_scale hp h hR hW hx he hw hs
  have k4 : W e0.1 / w0 = W e.1 / w := mul_right_cancel₀ (hR s).ne' (k1.symm.trans k3)
  rw [k4]
  have := (hW e.1).ne'
  field_simp

theorem meanLog_const {l : List ℝ} {y : ℝ} (hl : l ≠ []) (h : ∀ x ∈ l, x = y) :
    meanLog l = log y := by
  unfold meanLog
  have e : l.map log = List.replicate l.length (log y) := by
    rw [List.eq_replicate_iff]
    refine ⟨List.length_map _, ?_⟩
    intro z hz
    obtain ⟨x, hx, rfl⟩ := List.mem_map.1 hz
    rw [h x hx]
  have hn : (l.length : ℝ) ≠ 0 := by
    have := List.length_pos_iff.2 hl
    positivity
  rw [e, List.sum_replicate, nsmul_eq_mul]
  field_simp

open Classical in
/-- Geometric mean of `R` over a set of stations. -/
theorem geo_eq {A : Finset String} (hR : ∀ s, 0 < R s) :
    (∏ s ∈ A, R s) ^ (1 / (A.card : ℝ)) = exp ((∑ s ∈ A, log (R s)) / A.card) := by
  rw [rpow_def_of_pos (Finset.prod_pos fun s _ => hR s),
    log_prod (fun s _ => (hR s).ne'), mul_one_div]

open Classical in
/-- **C125**: the factor which remains after the alignment of exact results is the one of the
reference: the requested response divided by the geometric mean of the true responses of the named
stations which keep a response. -/
theorem C125_factor (hp : ProperResults results.events)
    (h : align orc rlm solve results sel response us smm smo ignore = .ok out)
    (hsol : ∀ b, IsLsqSolver (solve b)) {i : ℕ} (hR : ∀ s, 0 < R s) (hW : ∀ id, 0 < W id)
    (hdata : ∃ e ∈ resultsOf results.events, ∃ s, (respOf e.2 s i).isSome)
    (hx : RightProducts (resultsOf results.events) i R W)
    (hsub : ∀ n, sel = .name n → ∀ s ∈ stationsWith (resultsOf out.events) i, s ≠ n →
      ¬ IsSubstring s n)
    (hpos : ∀ r, requested response i = some r → 0 < r) :
    let named := (stationsWith (resultsOf out.events) i).filter (IsNamed sel)
    ∃ r, requested response i = some r ∧ 0 < r ∧
      TrueUpTo (r / (∏ s ∈ named, R s) ^ (1 / (named.card : ℝ))) (resultsOf out.events) i R W := by
  intro named
  obtain ⟨c, hc, htrue⟩ := C125_alignment hp h hsol hR hW hdata hx
  obtain ⟨hne, hreq⟩ := C02_pins_mean_response hp h hsol hdata hsub hpos
  refine ⟨_, hreq, exp_pos _, ?_⟩
  have hs : ∀ s ∈ named, meanLog (series (resultsOf out.events) i s) = log c + log (R s) := by
    intro s hs
    have hm := (Finset.mem_filter.1 hs).1
    rw [mem_stationsWith] at hm
    obtain ⟨e, he, hsome⟩ := hm
    obtain ⟨x, hx⟩ := Option.isSome_iff_exists.1 hsome
    rw [← log_mul hc.ne' (hR s).ne']
    refine meanLog_const (List.ne_nil_of_mem (List.mem_filterMap.2 ⟨e, he, hx⟩)) ?_
    intro y hy
    obtain ⟨e', he', hy⟩ := List.mem_filterMap.1 hy
    exact (htrue e' he').1 s y hy
  have hcard : (named.card : ℝ) ≠ 0 := by
    have := Finset.card_pos.2 hne
    positivity
  have e1 : exp ((∑ s ∈ named, meanLog (series (resultsOf out.events) i s)) / named.card) =
      c * (∏ s ∈ named, R s) ^ (1 / (named.card : ℝ)) := by
    rw [Finset.sum_congr rfl hs, Finset.sum_add_distrib, Finset.sum_const, nsmul_eq_mul, add_div,
      mul_div_cancel_left₀ _ hcard, exp_add, exp_log hc, geo_eq hR]
  have hgp : 0 < (∏ s ∈ named, R s) ^ (1 / (named.card : ℝ)) :=
    rpow_pos_of_pos (Finset.prod_pos fun s _ => hR s) _
  have e2 : exp ((∑ s ∈ named, meanLog (series (resultsOf out.events) i s)) / named.card) /
      (∏ s ∈ named, R s) ^ (1 / (named.card : ℝ)) = c := by
    rw [e1]
    exact mul_div_cancel_right₀ _ hgp.ne'
  have goal := htrue
  rw [← e2] at goal
  exact goal

open Classical in
/-- **C125**: if the requested response is the geometric mean of the true responses of the named
stations, the alignment of exact results returns the truth. -/
theorem C125_truth (hp : ProperResults results.events)
    (h : align orc rlm solve results sel response us smm smo ignore = .ok out)
    (hsol : ∀ b, IsLsqSolver (solve b)) {i : ℕ} (hR : ∀ s, 0 < R s) (hW : ∀ id, 0 < W id)
    (hdata : ∃ e ∈ resultsOf results.events, ∃ s, (respOf e.2 s i).isSome)
    (hx : RightProducts (resultsOf results.events) i R W)
    (hsub : ∀ n, sel = .name n → ∀ s ∈ stationsWith (resultsOf out.events) i, s ≠ n →
      ¬ IsSubstring s n)
    (hgeo : requested response i = some
      ((∏ s ∈ (stationsWith (resultsOf out.events) i).filter (IsNamed sel), R s) ^
        (1 / (((stationsWith (resultsOf out.events) i).filter (IsNamed sel)).card : ℝ)))) :
    ∀ e ∈ resultsOf out.events, (∀ s x, respOf e.2 s i = some x → x = R s) ∧
      ∀ w, energyOf e.2 i = some w → w = W e.1 := by
  have hgp : 0 < (∏ s ∈ (stationsWith (resultsOf out.events) i).filter (IsNamed sel), R s) ^
      (1 / (((stationsWith (resultsOf out.events) i).filter (IsNamed sel)).card : ℝ)) :=
    rpow_pos_of_pos (Finset.prod_pos fun s _ => hR s) _
  obtain ⟨r, h1, -, h2⟩ := C125_factor hp h hsol hR hW hdata hx hsub (by
    intro r hr
    rw [hgeo] at hr
    rw [← Option.some.inj hr]
    exact hgp)
  rw [hgeo] at h1
  rw [← Option.some.inj h1, div_self hgp.ne'] at h2
  intro e he
  obtain ⟨a, b⟩ := h2 e he
  refine ⟨fun s x hs => by rw [a s x hs, one_mul], fun w hw => by rw [b w hw, div_one]⟩

theorem geoMean_const {l : List ℝ} {y : ℝ} (hy : 0 < y) (hl : l ≠ []) (h : ∀ x ∈ l, x = y) :
    geoMean l = y := by
  have e : l = List.replicate l.length y := List.eq_replicate_iff.2 ⟨rfl, h⟩
  have hn : (l.length : ℝ) ≠ 0 := by
    have := List.length_pos_iff.2 hl
    positivity
  unfold geoMean
  rw [e, List.prod_replicate, List.length_replicate, ← rpow_natCast, ← rpow_mul hy.le,
    mul_one_div_cancel hn, rpow_one]

/-- **C125**: the table of mean site responses after the alignment of exact results: every station
which keeps a response in a band has its true response times the factor of the band, whatever the
robust estimator does. -/
theorem C125_mean_site_responses (hp : ProperResults results.events)
    (h : align orc rlm solve results sel response us smm smo ignore = .ok out) {n : ℕ}
    (hn : ∀ e ∈ resultsOf results.events, e.2.W.length = n) {i : ℕ} (hi : i < n)
    (hR : ∀ s, 0 < R s) {c : ℝ} (hc : 0 < c) (ht : TrueUpTo c (resultsOf out.events) i R W)
    {s : String} (hs : s ∈ stationsWith (resultsOf out.events) i) :
    ∃ T row, out.R = some T ∧ T.get? s = some row ∧ row[i]? = some (.num (c * R s)) := by
  rw [mem_stationsWith] at hs
  obtain ⟨e, he, hr⟩ := hs
  obtain ⟨T, row, a1, a2, a3⟩ := C12_means_of_aligned_responses_partial hp hn h ⟨e, he, i, hr⟩
  refine ⟨T, row, a1, a2, ?_⟩
  rw [a3 i hi]
  obtain ⟨x, hx⟩ := Option.isSome_iff_exists.1 hr
  have hne : series (resultsOf out.events) i s ≠ [] :=
    List.ne_nil_of_mem (List.mem_filterMap.2 ⟨e, he, hx⟩)
  have hall : ∀ y ∈ series (resultsOf out.events) i s, y = c * R s := by
    intro y hy
    obtain ⟨e', he', hy⟩ := List.mem_filterMap.1 hy
    exact (ht e' he').1 s y hy
  unfold siteMean
  rw [if_neg hne, if_pos (Or.inr fun y hy z hz => by rw [hall y hy, hall z hz]),
    geoMean_const (mul_pos hc (hR s)) hne hall]
  rfl

/-! ## A case which meets the hypotheses -/

namespace TruthExample

/-- True responses. -/
noncomputable def R1 (s : String) : ℝ :=
  if s = "A" then 2 else if s = "B" then 4 else if s = "C" then 6 else 9

/-- True source energies. -/
noncomputable def W1 (id : String) : ℝ := if id = "e1" then 5 else if id = "e2" then 3 / 2 else 2

theorem R1_pos (s : String) : 0 < R1 s := by unfold R1; split_ifs <;> norm_num

theorem W1_pos (id : String) : 0 < W1 id := by unfold W1; split_ifs <;> norm_num

theorem right1 : RightProducts (resultsOf demo.events) 0 R1 W1 := by
  have hres : resultsOf demo.events =
      [("e2", ⟨[.num 3, .none], [("A", [.num 1, .none]), ("B", [.num 2, .none])], []⟩),
       ("e1", ⟨[.num 5, .num 7], [("B", [.num 4, .num 1]), ("C", [.num 6, .nan])], []⟩),
       ("e3", ⟨[.num 2, .num 2], [("X", [.num 9, .none])], []⟩)] := rfl
  rw [hres]
  intro e he s x w h hw
  simp only [List.mem_cons, List.not_mem_nil, or_false] at he
  rcases he with rfl | rfl | rfl <;>
  · simp only [respOf, Dict.get?_cons] at h
    simp [numAt, energyOf] at hw
    split_ifs at h with h1 h2 <;> simp [numAt, Dict.get?] at h <;> subst_vars <;>
      simp [R1, W1] <;> norm_num

theorem data1 : ∃ e ∈ resultsOf demo.events, ∃ s, (respOf e.2 s 0).isSome := by
  obtain ⟨e, he, h⟩ := demo_ids (k := "e1") (by simp)
  exact ⟨e, he, "B", (demo_resp he).1.2 (by simp [h])⟩

/-- With station `B` and its true response as reference the example can be aligned. -/
theorem align1 (orc : Oracle) (rlm : List ℝ → ℝ × ℝ) (us : Bool) :
    ∃ out, align orc rlm (fun _ => someSolver) demo (.names ["B"]) (.scalar 4) us none none none =
      .ok out := by
  refine C114_succeeds_partial demo_complete (fun _ _ => rfl) ?_ ?_ rfl (by simp [demo])
    (by simp [demo])
  · intro i hi area ha
    have : i = 0 ∨ i = 1 := by omega
    rcases this with rfl | rfl
    · exact ⟨"B", by rw [demo_largest ha]; simp, by simp [IsNamed]⟩
    · exact ⟨"B", demo_area1 ha, by simp [IsNamed]⟩
  · rintro i hi ⟨e, he, s, hs⟩
    exact ⟨e, he, s, by simp [notIgnored], hs⟩

/-- What C125 says for it: events `e1` and `e2` report the truth, though `e2` had another
reference before. -/
example (orc : Oracle) (rlm : List ℝ → ℝ × ℝ) (us : Bool) (out : Results)
    (h : align orc rlm (fun _ => someSolver) demo (.names ["B"]) (.scalar 4) us none none none =
      .ok out) :
    ∀ e ∈ resultsOf out.events, (∀ s x, respOf e.2 s 0 = some x → x = R1 s) ∧
      ∀ w, energyOf e.2 0 = some w → w = W1 e.1 := by
  classical
  have hsol : ∀ b : Bool, IsLsqSolver ((fun _ => someSolver) b) := fun _ => someSolver_spec
  have hsub : ∀ n, StationSel.names ["B"] = .name n →
      ∀ s ∈ stationsWith (resultsOf out.events) 0, s ≠ n → ¬ IsSubstring s n := by
    intro n hn; simp at hn
  have hne := (C02_pins_mean_response demo_proper h hsol data1 hsub
    (by intro r hr; simp [requested] at hr; linarith)).1
  have hB : (stationsWith (resultsOf out.events) 0).filter (IsNamed (.names ["B"])) = {"B"} := by
    obtain ⟨s, hs⟩ := hne
    have hall : ∀ t ∈ (stationsWith (resultsOf out.events) 0).filter (IsNamed (.names ["B"])),
        t = "B" := by
      intro t ht
      simpa [IsNamed] using (Finset.mem_filter.1 ht).2
    rw [Finset.eq_singleton_iff_unique_mem]
    have e := hall s hs
    subst e
    exact ⟨hs, hall⟩
  refine C125_truth demo_proper h hsol R1_pos W1_pos data1 right1 hsub ?_
  rw [hB]
  simp [requested, R1]

end TruthExample

end Qopen
