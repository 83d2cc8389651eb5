import Verif.Lemmas.Piecewise
import Verif.Props.FitTable

/-! # C80: the binning table of `OptimalPWBinning` -/
set_option linter.unusedSectionVars false
namespace OptBinning
open Spec

variable {F : Type*} [Field F] [LinearOrder F] [IsStrictOrderedRing F]

theorem weight_unit {α : Type*} {recs : List (Rec α)} (hu : ∀ r ∈ recs, r.w = 1) (p : Rec α → Prop) [DecidablePred p] :
    weight recs p = ((recs.countP fun r => decide (p r) : ℕ) : ℚ) := by
  unfold weight
  rw [List.countP_eq_length_filter]
  have : (recs.filter fun r => decide (p r)).map (fun r => r.w) = (recs.filter fun r => decide (p r)).map fun _ => (1 : ℚ) :=
    List.map_congr_left fun r hr => hu r (List.mem_of_mem_filter hr)
  rw [this]
  simp

/-- The row index of a value: what the empirical options assign. -/
theorem assign_inRow {sc : SpecialCodes F} (hp : ProperCodes sc) {s : List F} (hs : s.Pairwise (· ≤ ·)) (x : Option F) (k : ℕ) :
    assignSpecialMissing (s.length + 1) sc (fun i => (i : ℤ)) none none ((digitize false s x : ℕ) : ℤ) x = (k : ℤ) ↔
      InRow s sc k x := by
  have hgrp : ∀ j, InGroup sc j x →
      assignSpecialMissing (s.length + 1) sc (fun i => (i : ℤ)) none none ((digitize false s x : ℕ) : ℤ) x =
        ((s.length + 1 + j : ℕ) : ℤ) ∧ IsSpecialValue sc x ∧ x ≠ none := by
    intro j hj
    cases sc with
    | none => exact hj.elim
    | list l =>
      obtain ⟨rfl, hx⟩ := hj
      cases x with
      | none => exact absurd hx hp.1
      | some v => exact ⟨by rw [assign_list _ _ _ _ _ _ _ hx]; simp, hx, by simp⟩
    | dict gs =>
      obtain ⟨g, hg, hx⟩ := hj
      cases x with
      | none => exact absurd ⟨g, List.mem_of_getElem? hg, hx⟩ hp.1
      | some v =>
        obtain ⟨hlt, hg'⟩ := List.getElem?_eq_some_iff.1 hg
        exact ⟨by rw [assign_dict _ gs _ _ _ _ _ hp.2 hlt (by rw [hg']; exact hx)]; rfl, ⟨g, List.mem_of_getElem? hg, hx⟩, by simp⟩
  have hex : IsSpecialValue sc x → ∃ j, InGroup sc j x := by
    intro hx
    cases sc with
    | none => exact hx.elim
    | list l => exact ⟨0, rfl, hx⟩
    | dict gs =>
      obtain ⟨g, hg, hx⟩ := hx
      obtain ⟨i, hi, rfl⟩ := List.mem_iff_getElem.1 hg
      exact ⟨i, gs[i], List.getElem?_eq_getElem hi, hx⟩
  cases x with
  | none =>
    rw [assign_missing]
    simp only [Option.getD_none, Nat.cast_inj]
    constructor
    · intro h
      exact Or.inr (Or.inr ⟨by rw [← groupCount_eq]; exact h.symm, rfl⟩)
    · rintro (⟨v, hv, -⟩ | ⟨j, -, hj⟩ | ⟨h, -⟩)
      · simp at hv
      · exact absurd (hgrp j hj).2.1 hp.1
      · rw [← groupCount_eq] at h; exact h.symm
  | some v =>
    by_cases hx : IsSpecialValue sc (some v)
    · obtain ⟨j, hj⟩ := hex hx
      rw [(hgrp j hj).1, Nat.cast_inj]
      constructor
      · intro h
        exact Or.inr (Or.inl ⟨j, h.symm, hj⟩)
      · rintro (⟨w, -, hw, -⟩ | ⟨i, rfl, hi⟩ | ⟨-, h⟩)
        · exact absurd hx hw
        · have e1 := (hgrp j hj).1
          rw [(hgrp i hi).1] at e1
          exact (Nat.cast_injective e1).symm
        · simp at h
    · rw [assign_clean _ _ _ _ _ _ _ hx, Nat.cast_inj, inInterval_iff hs]
      constructor
      · intro h
        exact Or.inl ⟨v, rfl, hx, h⟩
      · rintro (⟨w, hw, -, hi⟩ | ⟨i, -, hi⟩ | ⟨-, h⟩)
        · cases hw; exact hi
        · exact absurd (hgrp i hi).2.1 hx
        · simp at h

/-- What the inner `OptimalBinning` contributes: sorted split points and, per class, the histogram of the clean records. -/
theorem pwInner_columns {c : PWCfg F} {sv : SolverCfg} {clean : List (Rec F)} {f : Fitted F} (ho : c.outlier = none)
    (hr : Respects sv c.solver) (hsort : ∀ l, (c.prebin l).Pairwise (· ≤ ·)) (hx : ∀ r ∈ clean, r.x ≠ none)
    (hy : ∀ r ∈ clean, r.y ≠ none) (hw : WholeWeights clean) (h : pwInner c clean = .ok f) :
    f.splits.Pairwise (· ≤ ·) ∧ ∀ event : Bool,
      (f.column event).length = f.splits.length + 3 ∧
      ∀ k, (((((f.column event).take ((f.column event).length - 2)).getD k 0 : ℕ)) : ℚ) =
        weight clean fun r => r.y = some event ∧ ((digitize false f.splits r.x : ℕ) : ℤ) = (k : ℤ) := by
  have hcl : (splitData .none { outlier := c.outlier } clean).clean = clean := by
    rw [ho]
    simp only [splitData, fixBounds]
    refine List.filter_eq_self.2 fun r hr' => ?_
    have h1 := hx r hr'
    have h2 := hy r hr'
    cases hxx : r.x <;> cases hyy : r.y <;> simp_all [Rec.isMissing, Rec.isSpecial, SpecialCodes.codes]
  have key : ∀ (st st' : PrebinState F) (splits : List F), splits.Pairwise (· ≤ ·) →
      fitFrom { ({} : PrebinCfg) with catUser := false } .none c.solver (splitData .none { outlier := c.outlier } clean) st splits =
        .ok (st', f) →
      f.splits.Pairwise (· ≤ ·) ∧ ∀ event : Bool,
      (f.column event).length = f.splits.length + 3 ∧
      ∀ k, (((((f.column event).take ((f.column event).length - 2)).getD k 0 : ℕ)) : ℚ) =
        weight clean fun r => r.y = some event ∧ ((digitize false f.splits r.x : ℕ) : ℤ) = (k : ℤ) := by
    intro st st' splits hsp hf
    obtain ⟨hsub, hcol⟩ := fitFrom_column rfl (fun nev ev hn => hr.last nev ev hn) (by rw [hcl]; exact hx) (by rw [hcl]; exact hw)
      hsp hf
    refine ⟨hsp.sublist hsub, fun event => ?_⟩
    obtain ⟨reg, heq, hlen, hreg⟩ := hcol event
    change f.column event = _ at heq
    have h1 := specialCounts_length (.none : SpecialCodes F) (splitData .none { outlier := c.outlier } clean).special event
    have h2 : (f.column event).length = f.splits.length + 3 := by
      rw [heq]
      simp only [List.length_append, hlen, h1, SpecialCodes.count, List.length_singleton]
    refine ⟨h2, fun k => ?_⟩
    have h3 : (f.column event).take ((f.column event).length - 2) = reg := by
      rw [h2, heq, List.take_append_of_le_length (by omega), List.take_of_length_le (by omega)]
    rw [h3, hreg k, hcl]
    unfold weight
    congr 2
    refine List.filter_congr fun r hr' => ?_
    rw [Bool.eq_iff_iff]
    simp only [Bool.and_eq_true, beq_iff_eq, decide_eq_true_eq, Nat.cast_inj]
    exact and_congr_left fun _ => by
      have := isEvent_beq r (hy r hr') event
      rwa [beq_iff_eq] at this
  unfold pwInner at h
  cases hu : c.userSplits with
  | none =>
    rw [hu] at h
    obtain ⟨st', hf⟩ := fitNumerical_from h
    exact key _ _ _ (hsort _) hf
  | some us =>
    rw [hu] at h
    simp only at h
    cases hfu : fitUser {} .none { outlier := c.outlier } c.solver { userSplits := us, fixed := c.fixed } clean with
    | error e => rw [hfu] at h; simp [Except.map] at h
    | ok r =>
      rw [hfu] at h
      simp only [Except.map, Except.ok.injEq] at h
      subst h
      unfold fitUser at hfu
      split_ifs at hfu with h0
      · simp [throw, throwThe, MonadExceptOf.throw, bind, Except.bind] at hfu
      · cases hs : sortUserSplits (α := F) { userSplits := us, fixed := c.fixed } with
        | error e => simp [hs, bind, Except.bind, pure, Except.pure] at hfu
        | ok q =>
          simp only [hs, bind, Except.bind, pure, Except.pure] at hfu
          exact key _ _ _ (sorted_sortUserSplits (st1 := q.1) (l := q.2) (by rw [hs])) hfu

/-- The Non-event or Event column of the table. -/
def PWFitted.column (f : PWFitted F) (event : Bool) : List ℕ := if event then f.event else f.nonevent

/-- What a successful fit returns. -/
theorem pwFit_ok {c : PWCfg F} {lb ub : Option F} {recs : List (Rec F)} {f : PWFitted F} (h : pwFit c lb ub recs = .ok f) :
    ∃ g : Fitted F, pwInner c (splitData c.sc { outlier := c.outlier } recs).clean = .ok g ∧ f.splits = g.splits ∧
      f.coef = c.regress (splitData c.sc { outlier := c.outlier } recs).clean g.splits lb ub ∧
      (∀ e : Bool, f.column e = (g.column e).take ((g.column e).length - 2) ++
        (specialCounts c.sc (splitData c.sc { outlier := c.outlier } recs).special e ++
          [pwMissingCount (splitData c.sc { outlier := c.outlier } recs).missing e])) ∧
      f.neSpecial = specialCounts c.sc (splitData c.sc { outlier := c.outlier } recs).special false ∧
      f.evSpecial = specialCounts c.sc (splitData c.sc { outlier := c.outlier } recs).special true ∧
      f.neMissing = pwMissingCount (splitData c.sc { outlier := c.outlier } recs).missing false ∧
      f.evMissing = pwMissingCount (splitData c.sc { outlier := c.outlier } recs).missing true := by
  unfold pwFit at h
  cases hi : pwInner c (splitData c.sc { outlier := c.outlier } recs).clean with
  | error e => simp [hi, bind, Except.bind] at h
  | ok g =>
    simp only [hi, bind, Except.bind] at h
    split_ifs at h with h0
    · simp only [pure, Except.pure, Except.ok.injEq] at h
      subst h
      exact ⟨g, rfl, rfl, rfl, fun e => by cases e <;> simp [PWFitted.column, Fitted.column], rfl, rfl, rfl, rfl⟩

theorem pwMissingCount_eq {recs : List (Rec F)} (hu : ∀ r ∈ recs, r.w = 1) (e : Bool) :
    pwMissingCount recs e = truncWeight (recs.filter fun q => q.isEvent == e) := by
  have h := truncWeight_weight (recs := recs) (fun r hr => ⟨1, by simp [hu r hr]⟩) (fun q => q.isEvent == e)
  rw [weight_unit hu] at h
  have := Nat.cast_injective h
  rw [this]
  exact List.countP_congr fun r _ => by simp

/-- C80: in the table of a fitted binary piecewise binning, every row (intervals of the split points, groups of special codes,
missing values) counts exactly the training records of the class whose value belongs to the row. -/
theorem C80_histogram {c : PWCfg F} {sv : SolverCfg} {lb ub : Option F} {recs : List (Rec F)} {f : PWFitted F}
    (ho : c.outlier = none) (hr : Respects sv c.solver) (hsort : ∀ l, (c.prebin l).Pairwise (· ≤ ·)) (hp : ProperCodes c.sc)
    (hk : KnownTargets recs) (hu : ∀ r ∈ recs, r.w = 1) (h : pwFit c lb ub recs = .ok f) :
    f.splits.Pairwise (· ≤ ·) ∧
    f.nonevent.length = f.splits.length + 1 + nGroups c.sc + 1 ∧
    f.event.length = f.splits.length + 1 + nGroups c.sc + 1 ∧
    ∀ k : ℕ, f.nonevent.getD k 0 = countClass recs false (InRow f.splits c.sc k) ∧
      f.event.getD k 0 = countClass recs true (InRow f.splits c.sc k) := by
  obtain ⟨g, hi, hs, -, hcol, -⟩ := pwFit_ok h
  have hw : WholeWeights recs := fun r hr => ⟨1, by simp [hu r hr]⟩
  have hso : ({ outlier := c.outlier } : SplitOpts F) = {} := by rw [ho]
  rw [hso] at hi hcol
  have hg := fun r hr => (C01_groups c.sc recs r).1.1 hr
  obtain ⟨hsorted, hinner⟩ := pwInner_columns ho hr hsort (fun r hr => (hg r hr).2.1) (fun r hr => hk r (hg r hr).1)
    (fun r hr => hw r (hg r hr).1) hi
  rw [hs]
  have hum : ∀ r ∈ (splitData c.sc {} recs).missing, r.w = 1 := fun r hr => hu r (List.mem_of_mem_filter hr)
  have main : ∀ e : Bool, (f.column e).length = g.splits.length + 1 + nGroups c.sc + 1 ∧
      ∀ k : ℕ, (f.column e).getD k 0 = countClass recs e (InRow g.splits c.sc k) := by
    intro e
    have hl := (hinner e).1
    have hcl := specialCounts_length c.sc (splitData c.sc {} recs).special e
    refine ⟨?_, fun k => ?_⟩
    · rw [hcol e]
      simp only [List.length_append, List.length_take, hl, hcl, List.length_singleton, groupCount_eq]
      omega
    · rw [hcol e, pwMissingCount_eq hum]
      have hc := histogram_core hp hk hw e (nb := g.splits.length + 1) (v0 := fun x => ((digitize false g.splits x : ℕ) : ℤ))
        (reg := (g.column e).take ((g.column e).length - 2)) (by rw [List.length_take, hl]; omega)
        (fun k _ => (hinner e).2 k) (fun r _ k hk => by
          have h1 := digitize_le false g.splits r.x
          have h2 : digitize false g.splits r.x = k := Nat.cast_injective hk
          omega) k
      rw [weight_unit hu] at hc
      have hc := Nat.cast_injective hc
      rw [hc]
      unfold countClass
      refine List.countP_congr fun r _ => ?_
      simp only [decide_eq_true_eq]
      exact and_congr_right fun _ => assign_inRow hp hsorted r.x k
  exact ⟨hsorted, (main false).1, (main true).1, fun k => ⟨(main false).2 k, (main true).2 k⟩⟩

/-- Every value belongs to exactly one row of the table. -/
theorem inRow_unique {sc : SpecialCodes F} (hp : ProperCodes sc) {s : List F} (hs : s.Pairwise (· ≤ ·)) (x : Option F) :
    ∃ k < s.length + 1 + nGroups sc + 1, InRow s sc k x ∧ ∀ j, InRow s sc j x → j = k := by
  obtain ⟨k, hk⟩ : ∃ k : ℕ, InRow s sc k x := by
    cases x with
    | none => exact ⟨_, Or.inr (Or.inr ⟨rfl, rfl⟩)⟩
    | some v =>
      by_cases hx : IsSpecialValue sc (some v)
      · obtain ⟨i, -, hi⟩ := assign_special (β := ℤ) hp hx
        exact ⟨_, (assign_inRow hp hs _ (s.length + 1 + i)).1 (by rw [hi]; rfl)⟩
      · exact ⟨_, Or.inl ⟨v, rfl, hx, (inInterval_iff hs v _).1 rfl⟩⟩
  refine ⟨k, ?_, hk, fun j hj => ?_⟩
  · rcases hk with ⟨v, -, -, hi⟩ | ⟨j, rfl, hj⟩ | ⟨rfl, -⟩
    · have := hi.1; omega
    · have : j < nGroups sc := by
        cases sc with
        | none => exact hj.elim
        | list l => have := hj.1; simp [nGroups, this]
        | dict gs => obtain ⟨g, hg, -⟩ := hj; exact (List.getElem?_eq_some_iff.1 hg).1
      omega
    · omega
  · have h1 := (assign_inRow hp hs x k).2 hk
    have h2 := (assign_inRow hp hs x j).2 hj
    rw [h1] at h2
    exact (Nat.cast_injective h2).symm

/-- C80: the totals of the table are the numbers of non-events and events of the training data. -/
theorem C80_totals {c : PWCfg F} {sv : SolverCfg} {lb ub : Option F} {recs : List (Rec F)} {f : PWFitted F}
    (ho : c.outlier = none) (hr : Respects sv c.solver) (hsort : ∀ l, (c.prebin l).Pairwise (· ≤ ·)) (hp : ProperCodes c.sc)
    (hk : KnownTargets recs) (hu : ∀ r ∈ recs, r.w = 1) (h : pwFit c lb ub recs = .ok f) :
    f.nonevent.sum = recs.countP (fun r => r.y = some false) ∧ f.event.sum = recs.countP (fun r => r.y = some true) := by
  obtain ⟨hs, hl0, hl1, hh⟩ := C80_histogram ho hr hsort hp hk hu h
  choose idx hidx hin huniq using fun x => inRow_unique hp hs x
  have main : ∀ (e : Bool) (col : List ℕ), col.length = f.splits.length + 1 + nGroups c.sc + 1 →
      (∀ k : ℕ, col.getD k 0 = countClass recs e (InRow f.splits c.sc k)) → col.sum = recs.countP fun r => r.y = some e := by
    intro e col hl hc
    have hw1 : ∀ (l : List (Rec F)), (∀ r ∈ l, r.w = 1) → (l.map Rec.w).sum = ((l.length : ℕ) : ℚ) := by
      intro l hl
      rw [show l.map Rec.w = l.map fun _ => (1 : ℚ) from List.map_congr_left fun r hr => hl r hr]
      simp
    have key := sum_filter_classes recs (fun r => decide (r.y = some e)) (fun r => idx r.x) col.length
      (fun _ => true) (fun r _ => by rw [hl]; exact hidx r.x)
    simp only [if_true, Bool.and_true] at key
    have h1 : ((col.sum : ℕ) : ℚ) = ((recs.countP (fun r => decide (r.y = some e)) : ℕ) : ℚ) := by
      rw [list_sum_range, Nat.cast_sum, List.countP_eq_length_filter, ← hw1 _ (fun r hr => hu r (List.mem_of_mem_filter hr)),
        ← key]
      refine Finset.sum_congr rfl fun k _ => ?_
      rw [hw1 _ (fun r hr => hu r (List.mem_of_mem_filter hr)), hc k, countClass, List.countP_eq_length_filter]
      congr 2
      refine List.filter_congr fun r _ => ?_
      rw [Bool.eq_iff_iff]
      simp only [decide_eq_true_eq, Bool.and_eq_true, beq_iff_eq]
      exact and_congr_right fun _ => ⟨fun h => (huniq r.x k h).symm, fun h => h ▸ hin r.x⟩
    exact Nat.cast_injective h1
  exact ⟨main false _ hl0 fun k => (hh k).1, main true _ hl1 fun k => (hh k).2⟩

theorem inGroup_lt {α : Type*} {sc : SpecialCodes α} {j : ℕ} {x : Option α} (hj : InGroup sc j x) : j < nGroups sc := by
  cases sc with
  | none => exact hj.elim
  | list l => have := hj.1; simp [nGroups, this]
  | dict gs => obtain ⟨g, hg, -⟩ := hj; exact (List.getElem?_eq_some_iff.1 hg).1

/-- C80: the coefficient columns: the coefficients of the bins; in the special and missing rows column `c0` shows the event rate
of the training records of the row (0 if one class is absent) and the other columns 0. -/
theorem C80_coefficients {c : PWCfg F} {sv : SolverCfg} {lb ub : Option F} {recs : List (Rec F)} {f : PWFitted F}
    (ho : c.outlier = none) (hr : Respects sv c.solver) (hsort : ∀ l, (c.prebin l).Pairwise (· ≤ ·)) (hp : ProperCodes c.sc)
    (hk : KnownTargets recs) (hu : ∀ r ∈ recs, r.w = 1) (hcoef : f.coef.length = f.splits.length + 1)
    (h : pwFit c lb ub recs = .ok f) (i : ℕ) :
    (f.coefColumn c.sc i).length = f.nonevent.length ∧
    (∀ k ≤ f.splits.length, (f.coefColumn c.sc i).getD k 0 = (f.coef.getD k []).getD i 0) ∧
    ∀ k, f.splits.length < k → (f.coefColumn c.sc i).getD k 0 =
      if i = 0 ∧ 0 < countClass recs true (InRow f.splits c.sc k) ∧ 0 < countClass recs false (InRow f.splits c.sc k) then
        classRate (countClass recs true (InRow f.splits c.sc k)) (countClass recs false (InRow f.splits c.sc k))
      else 0 := by
  obtain ⟨hs, hl0, hl1, hh⟩ := C80_histogram ho hr hsort hp hk hu h
  have hcnt := groupCount_eq c.sc
  refine ⟨?_, fun k hk => ?_, fun k hk => ?_⟩
  · unfold PWFitted.coefColumn
    split_ifs <;> simp only [List.length_append, List.length_map, List.length_drop, List.length_range, List.length_replicate] <;> omega
  · unfold PWFitted.coefColumn
    rw [List.getD_append _ _ _ _ (by simp; omega)]
    rw [List.getD_eq_getElem _ _ (by simp; omega), List.getElem_map, List.getD_eq_getElem f.coef _ (by omega)]
  · unfold PWFitted.coefColumn
    rw [List.getD_append_right _ _ _ _ (by simp; omega)]
    simp only [List.length_map, List.length_range, hcoef]
    by_cases hi : i = 0
    · simp only [hi, if_true, true_and]
      rw [List.getD_eq_getElem?_getD, List.getElem?_drop, hl1,
        show f.splits.length + 1 + nGroups c.sc + 1 - (c.sc.count + 1) + (k - (f.splits.length + 1)) = k by omega]
      by_cases hkl : k < f.splits.length + 1 + nGroups c.sc + 1
      · rw [List.getElem?_map, List.getElem?_range hkl]
        simp only [Option.map_some, Option.getD_some, PWFitted.rowRate, (hh k).1, (hh k).2, classRate, Nat.cast_add]
      · rw [List.getElem?_eq_none (by simp; omega), Option.getD_none]
        have h1 := (hh k).2
        rw [List.getD_eq_default _ _ (by omega)] at h1
        rw [← h1]
        simp
    · simp only [hi, if_false, false_and]
      rw [List.getD_eq_getElem?_getD, List.getElem?_replicate]
      split_ifs <;> rfl

end OptBinning
