import Verif.Props.FigureResults

/-!
# C93: velocities of the events in the figure of the results (imaging.py `plot_results`)
-/

namespace Qopen

open Util Catalog Collect Invert Wrapper Imaging Figures WeightedMean FigureResults

namespace FigureVelocity

theorem filterMap_full {α β : Type} {f : α → Option β} : ∀ {l : List α},
    (l.filterMap f).length = l.length → ∀ (i : ℕ) (a : α), l[i]? = some a → (l.filterMap f)[i]? = f a := by
  intro l
  induction l with
  | nil => simp
  | cons x l ih =>
    intro h i a hi
    cases hx : f x with
    | none =>
      rw [List.filterMap_cons_none hx, List.length_cons] at h
      have := List.length_filterMap_le f l
      omega
    | some y =>
      rw [List.filterMap_cons_some hx] at h ⊢
      cases i with
      | zero =>
        simp only [List.getElem?_cons_zero, Option.some.injEq] at hi
        subst hi
        simp [hx]
      | succ i =>
        simp only [List.getElem?_cons_succ] at hi ⊢
        exact ih (by simpa using h) i a hi

/-- The collected velocities. -/
theorem collectedV0_spec {events : Dict String (Dict String RVal)} {col : Dict String ColVal} {V : V0}
    (hc : collectResults (events.mapVals some) ["g0", "b", "error", "v0"] = .ok col)
    (h : collectedV0 col = .ok V) :
    ∃ vs : List ℝ, V = .arr vs ∧
      events.filterMap (fun e => e.2.get? "v0") = vs.map (fun v => .cell (.num v)) := by
  rcases C39_values (by decide) hc (c := "v0") (by decide) (by decide) (by decide) with
    ⟨-, h2⟩ | ⟨xs, arr, h1, -, h3, h4⟩
  · unfold collectedV0 at h
    rw [h2] at h
    simp at h
  · unfold collectedV0 at h
    rw [h4] at h
    simp only at h
    obtain ⟨vs, hvs, h⟩ := bind_ok.1 h
    simp only [pure, Except.pure, Except.ok.injEq] at h
    refine ⟨vs, h.symm, ?_⟩
    have hv : Spec.valuesOf (events.mapVals some) "v0" = events.filterMap (fun e => e.2.get? "v0") := by
      unfold Spec.valuesOf Dict.mapVals
      rw [List.filterMap_map]
      rfl
    rw [← hv]
    have hF := mapExc_ok.1 hvs
    rw [h3.1] at hF
    clear hv hvs h4 h h3
    generalize Spec.valuesOf (events.mapVals some) "v0" = ws at h1
    induction h1 generalizing vs with
    | nil => rw [List.map_nil] at hF; rw [List.forall₂_nil_left_iff.1 hF]; rfl
    | @cons w x ws xs hw _ ih =>
      rw [List.map_cons] at hF
      cases hF with
      | @cons _ v _ vs' hx hF =>
      rw [List.map_cons, ih _ hF]
      congr 1
      rcases hw with ⟨-, ⟨a, rfl, rfl⟩ | ⟨l, rfl, rfl⟩⟩ | ⟨h, -⟩
      · cases a <;> simp [Item.toFloat, Cell.toFloat] at hx ⊢
        exact hx
      · simp [Item.toFloat] at hx
      · exact absurd rfl h

end FigureVelocity

open FigureVelocity

/-- **C93**: if neither the call nor the configuration gives a velocity, quality factors and path
lengths of an event are derived with the velocity found in the inversion of this event. -/
theorem C93_event_velocities {rlm : List ℝ → ℝ × ℝ} {mean : Mean} {fig : FigRes} {v0 : Option ℝ}
    {quantities : List String} {panels : List (String × Panel)}
    (hg : ∃ e ∈ fig.events.head?, "g0" ∈ e.2.keys) (hfreq : ∀ f ∈ fig.freq, 0 < f)
    (hv0 : v0 = none ∨ v0 = some 0) (hconf : fig.v0 = none ∨ fig.v0 = some 0)
    (hp : plotResults rlm mean fig v0 quantities = .ok panels) (q : String) (p : Panel)
    (hmem : (q, p) ∈ panels) (hq : q = "Qsc" ∨ q = "li")
    (hrow : ∀ e ∈ fig.events, ∃ row, e.2.get? (Spec.baseOf q) = some (.row row)) :
    ∃ points bars, p = .curve points bars ∧ points.length = fig.events.length ∧
      ∀ (i j : ℕ) (e : String × Dict String RVal) (row : List Cell) (f : ℝ),
        fig.events[i]? = some e → e.2.get? (Spec.baseOf q) = some (.row row) →
        fig.freq[j]? = some f →
        ∃ v, e.2.get? "v0" = some (.cell (.num v)) ∧
          (points[i]?.bind (·[j]?)) = some (match row[j]? with
            | some (.num x) => if q = "li" ∧ x = 0 then none else some (Spec.derived q x f v)
            | _ => none) := by
  have hqd : q ∈ Spec.drawable := by rcases hq with rfl | rfl <;> decide
  have hnv : needsV0 q = true := by rcases hq with rfl | rfl <;> decide
  obtain ⟨col, V, errs, hc, hV, -, -, hpan⟩ := plotResults_events hg hp
  obtain ⟨rows, fs, vs, ms, ha, hl, hvs, hfs, hms, rfl⟩ := panelOf_curve hqd (hpan _ hmem)
  have hbase : Spec.baseOf q = "g0" ∨ Spec.baseOf q = "b" := by rcases hq with rfl | rfl <;> decide
  obtain ⟨hne, hrows, _⟩ := array_spec (by decide) hc
    (by rcases hbase with h | h <;> rw [h] <;> decide)
    (by rcases hbase with h | h <;> rw [h] <;> decide)
    (by rcases hbase with h | h <;> rw [h] <;> decide) ha
  have hV' : collectedV0 col = .ok V := by
    rw [← hV]
    unfold chooseV0 chooseV0.inner
    rcases hv0 with rfl | rfl <;> rcases hconf with h | h <;> rw [h] <;> simp
  obtain ⟨ws, rfl, hws⟩ := collectedV0_spec hc hV'
  have hvs' : vs = ws ∧ ws.length = rows.length := by
    unfold v0For at hvs
    simp only [hnv, if_true] at hvs
    split_ifs at hvs with h1 h2
    simp only [Except.ok.injEq] at hvs
    exact ⟨hvs.symm, h1⟩
  obtain ⟨rfl, hlen⟩ := hvs'
  have hrw : (Spec.rowsWith fig.events (Spec.baseOf q)).length = fig.events.length := by
    unfold Spec.rowsWith
    have : ∀ l : Dict String (Dict String RVal),
        (∀ e ∈ l, ∃ row, e.2.get? (Spec.baseOf q) = some (.row row)) →
        (List.filterMap (fun e : String × Dict String RVal => match e.2.get? (Spec.baseOf q) with
          | some (.row r) => some r
          | _ => none) l).length = List.length l := by
      intro l
      induction l with
      | nil => intro _; rfl
      | cons e l ih =>
        intro hl
        obtain ⟨row, hr⟩ := hl e List.mem_cons_self
        rw [List.filterMap_cons_some (b := row) (by rw [hr]), List.length_cons, List.length_cons,
          ih (fun e he => hl e (List.mem_cons_of_mem _ he))]
    exact this _ hrow
  have hrl : rows.length = fig.events.length := by rw [hrows, List.length_map, hrw]
  have hwl : (List.filterMap (fun e : String × Dict String RVal => e.2.get? "v0") fig.events).length =
      fig.events.length := by
    rw [hws, List.length_map, hlen, hrl]
  have hrne : rows ≠ [] := by rw [hrows]; simpa using hne
  have hhead : (rows.headD []).length = fig.freq.length := by
    obtain ⟨r0, rest, h0⟩ := List.exists_cons_of_ne_nil hrne
    rw [h0]; exact hl r0 (by rw [h0]; exact List.mem_cons_self)
  rw [hhead] at hfs
  refine ⟨_, ms, rfl, by simp [dependTable, hlen, hrl], ?_⟩
  intro i j e row f hi he hf
  have hj : j < fig.freq.length := (List.getElem?_eq_some_iff.1 hf).1
  have hfpos : 0 < f := hfreq f (List.mem_of_getElem? hf)
  have hil : i < List.length fig.events := (List.getElem?_eq_some_iff.1 hi).1
  have hgj : ∃ g, fs[j]? = some g ∧ (needsFreq q = true → g = f) := by
    unfold freqsFor at hfs
    by_cases hn : needsFreq q = true
    · rw [if_pos hn] at hfs
      simp only [if_true, Except.ok.injEq] at hfs
      subst hfs
      exact ⟨f, hf, fun _ => rfl⟩
    · rw [if_neg hn] at hfs
      simp only [Except.ok.injEq] at hfs
      subst hfs
      exact ⟨1, by simp [hj], fun h => absurd h hn⟩
  obtain ⟨g, hgj, hgf⟩ := hgj
  have hri : rows[i]? = some (row.map Cell.toFloat) := by
    have := filterMap_full (f := fun e : String × Dict String RVal =>
      match e.2.get? (Spec.baseOf q) with
      | some (.row r) => some r
      | _ => none) hrw i e hi
    rw [hrows, List.getElem?_map, show (Spec.rowsWith fig.events (Spec.baseOf q))[i]? = _ from this]
    simp only [he, Option.map_some]
  obtain ⟨v, hv⟩ : ∃ v, vs[i]? = some v := ⟨_, List.getElem?_eq_getElem (by omega)⟩
  refine ⟨v, ?_, ?_⟩
  · rw [← filterMap_full (f := fun e : String × Dict String RVal => e.2.get? "v0") hwl i e hi, hws,
      List.getElem?_map, hv]
    rfl
  have hrl' : row.length = fig.freq.length := by
    have := hl _ (List.mem_of_getElem? hri); simpa using this
  obtain ⟨c, hcj⟩ : ∃ c, row[j]? = some c := ⟨_, List.getElem?_eq_getElem (by omega)⟩
  unfold dependTable
  rw [List.getElem?_zipWith, hri, hv]
  simp only [Option.bind_some]
  unfold dependRow
  rw [List.getElem?_zipWith, List.getElem?_map, hcj, hgj]
  simp only [Option.map_some, Option.some.injEq]
  cases c with
  | none => rfl
  | nan => rfl
  | num x =>
    simp only [Cell.toFloat, Cell.val?, Option.bind_some]
    by_cases hx : q = "li" ∧ x = 0
    · rw [if_pos hx]
      obtain ⟨rfl, rfl⟩ := hx
      simp [dependOne, plain]
    · rw [if_neg hx]
      push Not at hx
      refine dependOne_eq ?_ ?_ (fun _ => hfpos.ne') g v hgf (fun _ => rfl)
      · rcases hq with h | h <;> simp [h]
      · rintro (h | h)
        · rcases hq with h' | h' <;> rw [h'] at h <;> simp at h
        · exact hx h

/-- Two events with their own velocities. -/
example (rlm : List ℝ → ℝ × ℝ) : ∃ (fig : FigRes) (panels : List (String × Panel)) (p : Panel),
    plotResults rlm .plain fig none ["Qsc"] = .ok panels ∧ ("Qsc", p) ∈ panels ∧
    ∃ points bars, p = .curve points bars ∧
      (points[1]?.bind (·[0]?)) = some (some (4 * 3500 / (2 * Real.pi * 1))) := by
  let fig : FigRes := ⟨[1], none, [],
      [("e1", [("g0", .row [.num 1]), ("v0", .cell (.num 3000))]),
       ("e2", [("g0", .row [.num 4]), ("v0", .cell (.num 3500))])]⟩
  have hgerr : ∀ c : List Cell, ∃ b, gerr rlm c none = .ok b := by
    intro c
    unfold gerr gstat
    exact ⟨_, rfl⟩
  have htab : ∀ rows errs : List (List Cell), ∃ ms, gerrTable rlm .plain rows errs 1 = .ok ms := by
    intro rows errs
    obtain ⟨b, hb⟩ := hgerr (column rows 0)
    refine ⟨[b], ?_⟩
    simp only [gerrTable, List.range_succ, List.range_zero, List.nil_append, mapExc, hb, bind,
      Except.bind, pure, Except.pure]
  obtain ⟨m, hm⟩ := htab ((dependTable "Qsc" [1] [3000, 3500] [[.num 1], [.num 4]]).map
      (fun r => r.map ofOpt)) []
  obtain ⟨col, hcol, hg, hv⟩ : ∃ col, collectResults (Dict.mapVals some fig.events)
      ["g0", "b", "error", "v0"] = .ok col ∧ arrayOf col "g0" = .ok (some [[.num 1], [.num 4]]) ∧
      collectedV0 col = .ok (.arr [3000, 3500]) := ⟨_, rfl, rfl, rfl⟩
  have hcalc : calcDependent "Qsc" (.table [[.num 1], [.num 4]]) (some [1]) (.arr [3000, 3500]) =
      .ok (some (.table (dependTable "Qsc" [1] [3000, 3500] [[.num 1], [.num 4]]))) := rfl
  have hpan : panelOf rlm .plain [1] (.arr [3000, 3500]) col [] "Qsc" =
      .ok (.curve (dependTable "Qsc" [1] [3000, 3500] [[.num 1], [.num 4]]) m) := by
    unfold panelOf
    have hd : depMap.get? "Qsc" = some "g0" := by decide
    rw [if_neg (by decide), hd]
    simp only [hg, bind, Except.bind, hcalc]
    simp only [checkBands, List.all_cons, List.length_cons, List.length_nil, List.all_nil]
    simp only [Nat.zero_add, decide_true, Bool.and_self, if_true]
    rw [hm]
    rfl
  have hp : plotResults rlm .plain fig none ["Qsc"] =
      .ok [("Qsc", .curve (dependTable "Qsc" [1] [3000, 3500] [[.num 1], [.num 4]]) m)] := by
    unfold plotResults
    simp only [fig, firstEvent, bind, Except.bind]
    rw [if_pos (by decide), hcol]
    simp only [chooseV0, chooseV0.inner, hv, errorRows, mapExc, hpan, bind, Except.bind, pure,
      Except.pure]
  refine ⟨fig, _, _, hp, List.mem_cons_self, ?_⟩
  obtain ⟨points, bars, h1, -, h⟩ := C93_event_velocities (fig := fig) (v0 := none)
    ⟨_, rfl, by decide⟩ (by simp [fig]) (Or.inl rfl) (Or.inl rfl) hp _ _ List.mem_cons_self
    (Or.inl rfl) (by
      intro e he
      simp only [fig, List.mem_cons, List.not_mem_nil, or_false] at he
      rcases he with rfl | rfl
      · exact ⟨_, rfl⟩
      · exact ⟨_, rfl⟩)
  refine ⟨points, bars, h1, ?_⟩
  obtain ⟨v, hv, h⟩ := h 1 0 _ [.num 4] 1 rfl rfl rfl
  have : v = 3500 := by
    have h2 : (some (RVal.cell (.num 3500)) : Option RVal) = some (.cell (.num v)) := hv
    simpa using h2.symm
  rw [h, this]
  simp [Spec.derived]

end Qopen
