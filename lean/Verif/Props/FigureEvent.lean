import Verif.Props.FigureMags
import Verif.Props.Imaging

/-!
# C97: figures of a single event
-/

namespace Qopen

open Real Source Spec Util Figures Imaging

open FigureSites (forall₂_right forall₂_left)

namespace Spec

/-- Quantities with one value in each band, drawn as a curve. -/
def curves : List String := ["g0", "b", "W", "error", "lsc", "Qsc", "li", "Qi"]

/-- The reported value from which a quantity is derived. -/
def source (q : String) : String :=
  if q = "lsc" ∨ q = "Qsc" then "g0" else if q = "li" ∨ q = "Qi" then "b" else q

/-- The velocity of an event figure: of the call, or else reported, or else configured; 0 counts as not
given. -/
def VelocityOf (given reported conf : Option ℝ) (v : ℝ) : Prop :=
  (given = some v ∧ v ≠ 0) ∨ ((given = none ∨ given = some 0) ∧ (reported = some v ∧ v ≠ 0 ∨
    (reported = none ∨ reported = some 0) ∧ conf = some v))

/-- An entry reported for the only event: of the event, or else of the result. -/
def reportedEntry (top : Dict String Val) (event : Dict String Val) (k : String) : Option Val :=
  match event.get? k with
  | some v => some v
  | none => top.get? k

end Spec

theorem pyOr_velocity (given reported conf : Option ℝ) (v : ℝ) :
    pyOr (pyOr given reported) conf = some v ↔ Spec.VelocityOf given reported conf v := by
  unfold Spec.VelocityOf pyOr
  cases given with
  | none =>
    cases reported with
    | none => simp
    | some b =>
      by_cases hb : b = 0
      · subst hb; simp; intro h1 h2; exact absurd h1.symm h2
      · simp [hb]; intro h; subst h; exact hb
  | some a =>
    by_cases ha : a = 0
    · subst ha
      cases reported with
      | none => simp; intro h1 h2; exact absurd h1.symm h2
      | some b =>
        by_cases hb : b = 0
        · subst hb; simp; intro h1 h2; exact absurd h1.symm h2
        · simp [hb]
          constructor
          · rintro rfl; exact Or.inr ⟨rfl, hb⟩
          · rintro (⟨h1, h2⟩ | ⟨h1, -⟩)
            · exact absurd h1.symm h2
            · exact h1
    · simp [ha]; intro h; subst h; exact ha

theorem merged_get (res : OneRes) (quantities : List String) (id : String) (e : Dict String Val)
    (hev : res.events = [(id, e)]) (hwf : e.WF)
    (hq : "W" ∈ quantities ∨ "sds" ∈ quantities) :
    ∃ r, mergedRes res quantities = .ok r ∧ ∀ k, r.get? k = Spec.reportedEntry res.top e k := by
  refine ⟨Dict.update res.top e, ?_, ?_⟩
  · unfold mergedRes
    rw [if_pos hq, hev]
  · intro k
    rw [Dict.get?_update _ _ hwf]
    unfold Spec.reportedEntry
    cases e.get? k <;> rfl

/-- Entries of the event, also if spectra are not requested and the result agrees with the event. -/
theorem merged_some {res : OneRes} {quantities : List String} {id : String} {e : Dict String Val}
    (hev : res.events = [(id, e)]) (hwf : e.WF)
    (hW : "W" ∈ quantities ∨ "sds" ∈ quantities ∨ ∀ k v, e.get? k = some v →
      res.top.get? k = none ∨ res.top.get? k = some v)
    {r : Dict String Val} (hr : mergedRes res quantities = .ok r) {k : String} {w : Val}
    (hw : r.get? k = some w) : Spec.reportedEntry res.top e k = some w := by
  by_cases hq : "W" ∈ quantities ∨ "sds" ∈ quantities
  · obtain ⟨r', hr', hget⟩ := merged_get res quantities id e hev hwf hq
    rw [hr] at hr'
    simp only [Except.ok.injEq] at hr'
    subst hr'
    rw [← hget, hw]
  · unfold mergedRes at hr
    rw [if_neg hq] at hr
    simp only [Except.ok.injEq] at hr
    subst hr
    unfold Spec.reportedEntry
    cases he : e.get? k with
    | none => exact hw
    | some v =>
      have h3 := (hW.resolve_left (fun h => hq (Or.inl h))).resolve_left (fun h => hq (Or.inr h))
      rcases h3 k v he with h | h
      · rw [h] at hw; simp at hw
      · rw [h] at hw; exact hw

theorem depMap_curves {q : String} (hq : q ∈ Spec.curves) : depMap.get? q = some (Spec.source q) := by
  simp only [Spec.curves, List.mem_cons, List.not_mem_nil, or_false] at hq
  rcases hq with rfl | rfl | rfl | rfl | rfl | rfl | rfl | rfl <;> decide

/-- **C97** (values): the figure of an event has one panel for each requested quantity, in this order.
The panel of the spectrum is the one of `plot_sds` (see C95) for the entries of the event; the curve of
another quantity has in each band the reported value, or the quantity derived from the reported g0 or
b with the frequency of the band and the velocity of the call, or else the reported one, or else the
configured one; missing values leave a gap.  Missing, because it is false (see below): results in which
means over several events differ from the values of the event, if spectra are not requested. -/
theorem C97_values_partial (res : OneRes) (v0 : Option ℝ) (quantities : List String) (smm : Option Method)
    (smo : Dict String Cell) (id : String) (e : Dict String Val) (hev : res.events = [(id, e)])
    (hwf : e.WF) (hW : "W" ∈ quantities ∨ "sds" ∈ quantities ∨ ∀ k v, e.get? k = some v →
      res.top.get? k = none ∨ res.top.get? k = some v)
    (hq : ∀ q ∈ quantities, q = "sds" ∨ q ∈ Spec.curves) (hf : ∀ f ∈ res.freq, 0 < f)
    (v : ℝ) (hv : Spec.VelocityOf v0 res.v0 res.confV0 v)
    (ps : List (String × EventPanel))
    (h : plotEventresult res v0 quantities smm smo = .ok ps) :
    List.Forall₂ (fun (q : String) (p : String × EventPanel) => p.1 = q ∧
      (q = "sds" → ∃ (r : Dict String Val) (P : _), (∀ k, r.get? k = Spec.reportedEntry res.top e k) ∧
        plotSds res.freq r smm smo = .ok P ∧ p.2 = .sds P) ∧
      (q ∈ Spec.curves → ∃ row c, Spec.reportedEntry res.top e (Spec.source q) = some (.cells row) ∧
        p.2 = .curve c ∧ c.length = res.freq.length ∧ row.length = res.freq.length ∧
        ((q = "lsc" ∨ q = "li" → Cell.num 0 ∉ row) →
        ∀ (j : ℕ) (x : Cell) (f : ℝ), row[j]? = some x → res.freq[j]? = some f →
          c[j]? = some (match x with
            | .num x => some (Spec.derived q x f v)
            | _ => none)))) quantities ps := by
  unfold plotEventresult at h
  obtain ⟨r, hr, h⟩ := bind_ok.1 h
  have hget : ∀ k w, r.get? k = some w → Spec.reportedEntry res.top e k = some w :=
    fun k w hw => merged_some hev hwf hW hr hw
  have hF := forall₂_mem_left (mapExc_ok.1 h)
  refine hF.imp ?_
  rintro q p ⟨hqm, hp⟩
  obtain ⟨P, hP, hp⟩ := bind_ok.1 hp
  simp only [pure, Except.pure, Except.ok.injEq] at hp
  subst hp
  rw [(pyOr_velocity v0 res.v0 res.confV0 v).2 hv] at hP
  refine ⟨rfl, ?_, ?_⟩
  · rintro rfl
    unfold eventPanel at hP
    rw [if_pos rfl] at hP
    obtain ⟨P', hP', hP⟩ := bind_ok.1 hP
    simp only [pure, Except.pure, Except.ok.injEq] at hP
    obtain ⟨r', hr', hget'⟩ := merged_get res quantities id e hev hwf (Or.inr hqm)
    rw [hr] at hr'
    simp only [Except.ok.injEq] at hr'
    subst hr'
    exact ⟨r, P', hget', hP', hP.symm⟩
  · intro hc
    have hns : q ≠ "sds" := by rintro rfl; revert hc; decide
    unfold eventPanel at hP
    rw [if_neg hns, depMap_curves hc] at hP
    simp only at hP
    cases hen : r.get? (Spec.source q) with
    | none => rw [hen] at hP; simp at hP
    | some w =>
      cases w with
      | cell c => rw [hen] at hP; simp at hP
      | cells row =>
        rw [hen] at hP
        have hen' := hget _ _ hen
        simp only at hP
        split at hP
        · simp at hP
        · next hlen =>
          rw [not_not] at hlen
          obtain ⟨d, hd, hP⟩ := bind_ok.1 hP
          split at hP
          · next c =>
            simp only [pure, Except.pure, Except.ok.injEq] at hP
            subst hP
            have hlenc : c.length = res.freq.length := by
              unfold calcDependent at hd
              simp only at hd
              split at hd
              · obtain ⟨fs, hfs, hd⟩ := bind_ok.1 hd
                simp only [pure, Except.pure, Except.ok.injEq, Option.some.injEq, Derived.row.injEq]
                  at hd
                subst hd
                have : fs.length = row.length := by
                  unfold freqsFor at hfs
                  split at hfs
                  · simp only at hfs
                    split at hfs
                    · simp only [Except.ok.injEq] at hfs; subst hfs; exact hlen.symm
                    · split at hfs <;> simp at hfs
                  · simp only [Except.ok.injEq] at hfs; subst hfs; simp
                unfold dependRow
                rw [List.length_zipWith, this, hlen]
                simp
              · simp at hd
            refine ⟨row, c, hen', rfl, hlenc, hlen, ?_⟩
            intro h0 j x f hx hfj
            obtain ⟨out, ho, -, hval⟩ := C76_row q hc row res.freq v hlen hf
              (fun hl c' hc' hz => h0 hl (hz ▸ hc'))
            rw [ho] at hd
            simp only [Except.ok.injEq, Option.some.injEq, Derived.row.injEq] at hd
            subst hd
            exact hval j x f hx hfj
          · simp at hP

/-- **C97** (total): with a velocity, a value (or `None`) for each band, and a spectrum which can be
drawn, the figure is made.  The method `'mean'` is excluded (see C95). -/
theorem C97_total_partial (res : OneRes) (v0 : Option ℝ) (quantities : List String)
    (smm : Option Method) (smo : Dict String Cell) (id : String) (e : Dict String Val)
    (hev : res.events = [(id, e)]) (hwf : e.WF) (hW : "W" ∈ quantities ∨ "sds" ∈ quantities)
    (hq : ∀ q ∈ quantities, q = "sds" ∨ q ∈ Spec.curves) (hf : ∀ f ∈ res.freq, 0 < f)
    (hne : res.freq ≠ []) (v : ℝ) (hv : Spec.VelocityOf v0 res.v0 res.confV0 v)
    (hrow : ∀ q ∈ quantities, q ∈ Spec.curves → ∃ row,
      Spec.reportedEntry res.top e (Spec.source q) = some (.cells row) ∧ row.length = res.freq.length)
    (hsds : "sds" ∈ quantities → smm ≠ some .mean ∧
      ∀ r : Dict String Val, (∀ k, r.get? k = Spec.reportedEntry res.top e k) →
        Spec.SourceResult res.freq.length r) :
    ∃ ps, plotEventresult res v0 quantities smm smo = .ok ps := by
  obtain ⟨r, hr, hget⟩ := merged_get res quantities id e hev hwf hW
  have hall : ∃ ps, mapExc (fun q => do
      let p ← eventPanel res.freq (some v) r smm smo q
      return (q, p)) quantities = .ok ps := by
    apply Site.mapExc_total
    intro q hqm
    have : ∃ p, eventPanel res.freq (some v) r smm smo q = .ok p := by
      unfold eventPanel
      rcases hq q hqm with rfl | hc
      · rw [if_pos rfl]
        obtain ⟨hm, hs⟩ := hsds hqm
        have hsr := hs r hget
        obtain ⟨ns, hns, hnl⟩ := hsr.nstations
        have hlarge : ∃ M, largest (ns.map Cell.num) = .ok M := by
          cases ns with
          | nil => simp at hnl; exact absurd (List.length_eq_zero_iff.1 hnl.symm) hne
          | cons a ns =>
            unfold largest
            have : (List.map Cell.num (a :: ns)).filterMap Cell.val? = a :: ns := by
              rw [List.filterMap_map]
              have : (Cell.val? ∘ Cell.num) = fun x => some x := rfl
              rw [this, List.filterMap_some]
            rw [this]
            simp only
            rw [if_neg (by simp [Cell.val?])]
            exact ⟨_, rfl⟩
        obtain ⟨M, hM⟩ := hlarge
        obtain ⟨P, hP⟩ := plotSds_total res.freq r smm hm smo M hsr
        have hsame : plotSds res.freq r smm smo = plotSds res.freq r smm smo true false none none
            (some M) := by
          unfold plotSds
          have : colourOf r true false none none none = colourOf r true false none none (some M) := by
            unfold colourOf scaleEnd
            rw [hns]
            simp only [hM]
          rw [this]
        exact ⟨_, by rw [hsame, hP]; rfl⟩
      · have hns : q ≠ "sds" := by rintro rfl; revert hc; decide
        obtain ⟨row, h1, h2⟩ := hrow q hqm hc
        rw [if_neg hns, depMap_curves hc]
        simp only [hget, h1]
        rw [if_neg (by simp [h2])]
        have hd : ∃ out, calcDependent q (.row row) (some res.freq) (.num v) = .ok (some (.row out)) := by
          unfold calcDependent
          have hmem : q ∈ plain ++ ["lsc", "Qsc", "li", "Qi"] := by
            simp only [Spec.curves, List.mem_cons, List.not_mem_nil, or_false] at hc
            rcases hc with rfl | rfl | rfl | rfl | rfl | rfl | rfl | rfl <;> simp [plain]
          simp only
          rw [if_pos hmem]
          unfold freqsFor
          simp only [h2, if_true]
          split <;> exact ⟨_, rfl⟩
        obtain ⟨out, hd⟩ := hd
        rw [hd]
        exact ⟨_, rfl⟩
    obtain ⟨p, hp⟩ := this
    exact ⟨(q, p), by rw [hp]; rfl⟩
  obtain ⟨ps, hps⟩ := hall
  unfold plotEventresult
  rw [(pyOr_velocity v0 res.v0 res.confV0 v).2 hv]
  exact ⟨ps, bind_ok.2 ⟨r, hr, hps⟩⟩

/-- **C97** (sites): the figure of the site responses of an event has one panel for each station in
alphabetic order; it shows the reported values, and no curve iff there is none.  The vertical axis
goes from the smallest to the largest value of all stations, if these differ. -/
theorem C97_sites (res : OneRes) (R : Dict String (List Cell)) (hR : res.R = some R) (hwf : R.WF)
    (F : EventSites) (h : plotEventsites res = .ok F) :
    (∀ s, s ∈ F.panels.map Prod.fst ↔ s ∈ R.keys) ∧
    (F.panels.map Prod.fst).Pairwise (· < ·) ∧
    (∀ p ∈ F.panels, ∃ l, R.get? p.1 = some l ∧ (p.2 = none ↔ ∀ x, Cell.num x ∉ l) ∧
      ∀ c, p.2 = some c → c = l.map Cell.val?) ∧
    (∀ a b, F.ylim = some (a, b) → a < b ∧ (∃ s ∈ R, Cell.num a ∈ s.2) ∧ (∃ s ∈ R, Cell.num b ∈ s.2) ∧
      ∀ s ∈ R, ∀ x, Cell.num x ∈ s.2 → a ≤ x ∧ x ≤ b) ∧
    (F.ylim = none ↔ ∃ a, ∀ s ∈ R, ∀ x, Cell.num x ∈ s.2 → x = a) := by
  unfold plotEventsites at h
  rw [hR] at h
  simp only at h
  split at h
  · simp at h
  · obtain ⟨panels, hp, h⟩ := bind_ok.1 h
    have hF := mapExc_ok.1 hp
    have hsite : ∀ s p, eventSite R res.freq.length s = .ok p → p.1 = s ∧ ∃ l, R.get? s = some l ∧
        (p.2 = none ↔ ∀ x, Cell.num x ∉ l) ∧ ∀ c, p.2 = some c → c = l.map Cell.val? := by
      intro s p hs
      unfold eventSite at hs
      split at hs
      · simp at hs
      · next l hl =>
        have hnone : (l.all fun c => c.val?.isNone) = true ↔ ∀ x, Cell.num x ∉ l := by
          rw [List.all_eq_true]
          constructor
          · intro h x hx
            have := h _ hx
            simp [Cell.val?] at this
          · intro h c hc
            cases c with
            | num x => exact absurd hc (h x)
            | none => rfl
            | nan => rfl
        split at hs
        · next hn =>
          simp only [Except.ok.injEq] at hs
          subst hs
          exact ⟨rfl, l, hl, by simpa using hnone.1 hn, by simp⟩
        · next hn =>
          split at hs
          · simp at hs
          · simp only [Except.ok.injEq] at hs
            subst hs
            refine ⟨rfl, l, hl, ?_, by rintro _ ⟨⟩; rfl⟩
            rw [← hnone]; simp [hn]
    have hkeys : panels.map Prod.fst = sortedKeys R := by
      have : List.Forall₂ (fun a b => a = b) (sortedKeys R) (panels.map Prod.fst) := by
        rw [List.forall₂_map_right_iff]
        exact hF.imp (fun s p hs => (hsite s p hs).1.symm)
      exact (List.forall₂_eq_eq_eq ▸ this : sortedKeys R = panels.map Prod.fst).symm
    have hvals : ∀ x, x ∈ (R.map Prod.snd).flatten.filterMap Cell.val? ↔ ∃ s ∈ R, Cell.num x ∈ s.2 := by
      intro x
      rw [List.mem_filterMap]
      constructor
      · rintro ⟨c, hc, hx⟩
        cases c <;> simp [Cell.val?] at hx
        subst hx
        obtain ⟨l, hl, hc⟩ := List.mem_flatten.1 hc
        obtain ⟨s, hs, rfl⟩ := List.mem_map.1 hl
        exact ⟨s, hs, hc⟩
      · rintro ⟨s, hs, hx⟩
        exact ⟨_, List.mem_flatten.2 ⟨_, List.mem_map.2 ⟨s, hs, rfl⟩, hx⟩, rfl⟩
    split at h
    · simp at h
    · next x xs hx =>
      simp only [pure, Except.pure, Except.ok.injEq] at h
      subst h
      rw [hx] at hvals
      obtain ⟨m1, m2⟩ := foldl_min_spec xs x
      obtain ⟨n1, n2⟩ := foldl_max_spec xs x
      refine ⟨?_, ?_, ?_, ?_, ?_⟩
      · intro s
        rw [hkeys]
        exact (FigureSites.sortedKeys_perm R).mem_iff
      · rw [hkeys]
        exact FigureSites.sortedKeys_sorted hwf
      · intro p hpm
        obtain ⟨s, hs, hsp⟩ := forall₂_right hF p hpm
        obtain ⟨h1, h2⟩ := hsite s p hsp
        rw [h1]
        exact h2
      · intro a b hab
        simp only at hab
        split at hab
        · next hne =>
          simp only [Option.some.injEq, Prod.mk.injEq] at hab
          obtain ⟨rfl, rfl⟩ := hab
          refine ⟨lt_of_le_of_ne (le_trans (m2 x (by simp)) (n2 x (by simp))) hne, (hvals _).1 m1,
            (hvals _).1 n1, fun s hs y hy => ?_⟩
          have hy' := (hvals y).2 ⟨s, hs, hy⟩
          exact ⟨m2 y hy', n2 y hy'⟩
        · simp at hab
      · simp only
        constructor
        · intro hn
          split at hn
          · simp at hn
          · next heq =>
            rw [ne_eq, not_not] at heq
            refine ⟨xs.foldl min x, fun s hs y hy => ?_⟩
            have hy' := (hvals y).2 ⟨s, hs, hy⟩
            exact le_antisymm (heq ▸ n2 y hy') (m2 y hy')
        · rintro ⟨a, ha⟩
          rw [if_neg]
          rw [ne_eq, not_not]
          obtain ⟨s1, hs1, hx1⟩ := (hvals _).1 m1
          obtain ⟨s2, hs2, hx2⟩ := (hvals _).1 n1
          rw [ha s1 hs1 _ hx1, ha s2 hs2 _ hx2]

/-! ## Example -/

namespace EventExample

noncomputable def res : OneRes where
  freq := [1, 2]
  v0 := some 3000
  top := [("g0", .cells [.num 1e-6, .none]), ("b", .cells [.num 0.1, .none]),
    ("error", .cells [.num 0.5, .none]), ("nstations", .cells [.num 2, .num 0])]
  R := some [("b", [.num 1, .none]), ("a", [.num 3, .none]), ("c", [.none, .none])]
  events := [("ev", [("W", .cells [.num 10, .none]), ("sds", .cells [.num 4, .none])])]

/-- non-vacuity of `C97_values_partial` and `C97_total_partial` -/
example : (∃ ps, plotEventresult res none ["Qsc", "li", "error", "W", "sds"] (some .fit) [] = .ok ps) ∧
    Spec.VelocityOf none res.v0 res.confV0 3000 := by
  have hv : Spec.VelocityOf none res.v0 res.confV0 3000 :=
    Or.inr ⟨Or.inl rfl, Or.inl ⟨rfl, by norm_num⟩⟩
  refine ⟨?_, hv⟩
  apply C97_total_partial res none _ (some .fit) [] "ev" _ rfl (by simp [Dict.WF, Dict.keys])
    (by simp) ?_ (by simp [res]) (by simp [res]) 3000 hv
  · intro q hq hc
    simp only [List.mem_cons, List.not_mem_nil, or_false] at hq
    rcases hq with rfl | rfl | rfl | rfl | rfl
    · exact ⟨_, rfl, rfl⟩
    · exact ⟨_, rfl, rfl⟩
    · exact ⟨_, rfl, rfl⟩
    · exact ⟨_, rfl, rfl⟩
    · exact absurd hc (by decide)
  · intro _
    refine ⟨by simp, fun r hr => ⟨⟨_, (hr _).trans rfl, rfl⟩, ⟨[2, 0], (hr _).trans rfl, rfl⟩, ?_⟩⟩
    intro k hk v hv
    rw [hr] at hv
    simp only [List.mem_cons, List.not_mem_nil, or_false] at hk
    rcases hk with rfl | rfl | rfl | rfl | rfl <;> simp [Spec.reportedEntry, res, Dict.get?_cons] at hv
  · intro q hq
    simp only [List.mem_cons, List.not_mem_nil, or_false] at hq
    rcases hq with rfl | rfl | rfl | rfl | rfl <;> simp [Spec.curves]

/-- non-vacuity of `C97_sites` -/
example : ∃ F, plotEventsites res = .ok F ∧ F.ylim = some (1, 3) := by
  simp [plotEventsites, res, sortedKeys, Dict.keys, List.mergeSort, List.MergeSort.Internal.splitInTwo,
    List.merge, mapExc, eventSite, Dict.get?_cons, bind, Except.bind, pure, Except.pure, Cell.val?]
  have : List.filterMap Cell.val? [Cell.none, Cell.num 3, Cell.none, Cell.none, Cell.none] = [3] := rfl
  rw [this]
  norm_num

/-- Results of two events as shown by command `plot` for the event `ev`: the mean of g0 is reported for
all events, the value of the event itself differs. -/
noncomputable def several : OneRes where
  freq := [1]
  v0 := some 3000
  top := [("g0", .cells [.num 1e-6]), ("b", .cells [.num 0.1])]
  events := [("ev", [("W", .cells [.num 10]), ("g0", .cells [.num 2e-6]), ("b", .cells [.num 0.1])])]

end EventExample

open EventExample in
/-- **C97** (counterexample): if neither `W` nor the spectrum is requested, the figure of an event shows
the mean over all events of the results instead of the value of the event. -/
theorem C97_mean_counterexample :
    plotEventresult several none ["g0", "b"] (some .fit) [] =
      .ok [("g0", .curve [some 1e-6]), ("b", .curve [some 0.1])] ∧
    (several.events.map (fun p => p.2.get? "g0")) = [some (.cells [.num 2e-6])] ∧
    ∃ P, plotEventresult several none ["g0", "W"] (some .fit) [] =
      .ok [("g0", .curve [some 2e-6]), P] := by
  refine ⟨?_, rfl, ("W", .curve [some 10]), ?_⟩ <;>
  simp [plotEventresult, mergedRes, several, mapExc, eventPanel, bind, Except.bind, pure, Except.pure,
    depMap, Dict.get?_cons, Dict.update, Dict.set, calcDependent, freqsFor, dependRow, dependOne,
    pyOr, plain]

end Qopen
