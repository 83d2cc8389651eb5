import Verif.Model.PiecewiseC
import Verif.Props.Piecewise3
import Verif.Props.ContinuousTable
import Verif.Props.ContinuousTransform
import Verif.Props.UserParamsC

/-! # C85: `ContinuousOptimalPWBinning` -/
set_option linter.unusedSectionVars false
namespace OptBinning
open Spec

variable {F : Type*} [Field F] [LinearOrder F] [IsStrictOrderedRing F]

/-- The optimisation does not depend on the special and missing rows. -/
theorem fitCoreC_extra {α : Type*} [LinearOrder α] {solver : SolverC} {clean : List (RecC α)} {special special' : List RowC}
    {missing missing' : RowC} {st st' : PrebinState α} {splits : List α} {g : FittedC α}
    (h : fitCoreC false solver clean none special missing st splits = .ok (st', g)) :
    ∃ reg, g.rows = reg ++ special ++ [missing] ∧
      fitCoreC false solver clean none special' missing' st splits = .ok (st', ⟨g.status, g.splits, reg ++ special' ++ [missing']⟩) := by
  unfold fitCoreC at h ⊢
  by_cases hc : clean = []
  · exfalso
    by_cases hl : splits.length = 0
    · simp [hl, hc, bind, Except.bind, pure, Except.pure, throw, throwThe, MonadExceptOf.throw] at h
    · cases hpb : computePrebinsC false clean st splits with
      | error e => simp [hl, hpb, bind, Except.bind] at h
      | ok pb =>
        simp only [hl, hpb, if_false, if_pos hc, bind, Except.bind, pure, Except.pure, throw, throwThe, MonadExceptOf.throw] at h
        cases h
  · by_cases hl : splits.length = 0
    · simp only [hl, if_true, hc, if_false, bind, Except.bind, pure, Except.pure, Option.toList_none, List.append_nil,
        Except.ok.injEq, Prod.mk.injEq] at h ⊢
      obtain ⟨h1, h2⟩ := h
      subst h1 h2
      exact ⟨_, rfl, rfl, rfl⟩
    · cases hpb : computePrebinsC false clean st splits with
      | error e => simp [hl, hpb, bind, Except.bind] at h
      | ok pb =>
        simp only [hl, hpb, if_false, hc, bind, Except.bind, pure, Except.pure, Option.toList_none, List.append_nil,
          Except.ok.injEq, Prod.mk.injEq] at h ⊢
        obtain ⟨h1, h2⟩ := h
        subst h1 h2
        exact ⟨_, rfl, rfl, rfl⟩

theorem splitDataC_idem {α : Type*} [LinearOrder α] {sc : SpecialCodes α} {l : List (RecC α)}
    (h : ∀ r ∈ l, r.x ≠ none ∧ r.y ≠ none) : (splitDataC .none none l).clean = l := by
  simp only [splitDataC, List.filter_eq_self]
  intro r hr
  obtain ⟨h1, h2⟩ := h r hr
  simp [RecC.isMissing, RecC.isSpecial, SpecialCodes.codes, Option.isSome_iff_ne_none, h1, h2]

section
variable {c : PWCfgC F} {lb₀ ub₀ lb ub : Option F} {old old' : MissingStats} {recs : List (RecC F)} {f : PWFittedC F}
  {ms mm : PWOpt F}

/-- The inner fit is a fit whose pre-binning finds the cut points, or the user splits in increasing order. -/
theorem pwInnerC_prebin {clean : List (RecC F)} {r : MissingStats × FittedC F} (h : pwInnerC c clean = .ok r) : ∃ pb : List (RecC F) → List F,
    (c.userSplits = none → pb = c.prebin) ∧
    (∀ us, c.userSplits = some us → us ≠ [] ∧ ∃ sorted : List F, sorted.Perm us ∧ sorted.Pairwise (· < ·) ∧ pb = fun _ => sorted) ∧
    fitNumericalC .none c.outlier pb c.solver {} clean = .ok r := by
  unfold pwInnerC at h
  cases hus : c.userSplits with
  | none => rw [hus] at h; exact ⟨c.prebin, fun _ => rfl, fun us h => (by cases h), h⟩
  | some us =>
    rw [hus] at h
    simp only at h
    split at h
    · cases h
    rename_i h2
    split at h
    · cases h
    rename_i q h3
    simp only [Except.ok.injEq] at h
    unfold fitUserC at h3
    by_cases h0 : us.length = 0
    · simp [h0, bind, Except.bind, throw, throwThe, MonadExceptOf.throw] at h3
    cases hso : sortUserSplits ({ userSplits := us, fixed := c.fixed.map FlagArray.values } : PrebinState F) with
    | error e => simp [h0, hso, bind, Except.bind] at h3
    | ok so =>
      obtain ⟨st1, sorted⟩ := so
      cases hsp : specialRows (.none : SpecialCodes F) (splitDataC .none c.outlier clean).special with
      | error e => simp [h0, hso, hsp, bind, Except.bind, throw, throwThe, MonadExceptOf.throw] at h3
      | ok special =>
        cases hq : fitCoreC false c.solver (splitDataC .none c.outlier clean).clean none special
            (missingRow {} (splitDataC .none c.outlier clean).missing) st1 sorted with
        | error e => simp [h0, hso, hsp, hq, bind, Except.bind] at h3
        | ok q' =>
          simp only [h0, if_false, hso, hsp, hq, bind, Except.bind, pure, Except.pure, Except.ok.injEq] at h3
          have hl : ∀ fx, c.fixed.map FlagArray.values = some fx → fx.length = us.length := by
            intro fx hfx
            cases hf : c.fixed with
            | none => rw [hf] at hfx; cases hfx
            | some g =>
              rw [hf, Option.map_some, Option.some.injEq] at hfx
              rw [← hfx]
              exact (checkUserSplits_ok.1 h2 g hf).1
          obtain ⟨k1, k2, -, -⟩ := sortUserSplits_sorted hl hso
          have hnd : us.Nodup := by
            unfold sortUserSplits at hso
            split_ifs at hso with hn
            exact hn
          have hne : us ≠ [] := fun hc => h0 (by simp [hc])
          have hsne : sorted ≠ [] := fun hc => by rw [hc] at k1; exact hne (List.nil_perm.1 k1)
          obtain ⟨pb, -, -, -, -, c5⟩ := fitCoreC_any_state hsne hq
          obtain ⟨st2, d1, -⟩ := c5 {} rfl
          refine ⟨fun _ => sorted, fun h => (by cases h), fun us' e => ?_, ?_⟩
          · cases e
            refine ⟨hne, sorted, k1, ?_, rfl⟩
            have := k1.nodup_iff.2 hnd
            exact (k2.and this).imp fun h => lt_of_le_of_ne h.1 h.2
          · unfold fitNumericalC
            simp only [hsp, d1, bind, Except.bind, pure, Except.pure, Except.ok.injEq]
            rw [← h, ← h3]

/-- C85: split points and table are those of a `ContinuousOptimalBinning` with the same parameters and special codes, fitted to
the same records (without outlier detection) — for a fit with user splits, those of a fit whose pre-binning finds exactly the user
splits, in increasing order. -/
theorem C85_same_table (ho : c.outlier = none) (h : pwFitC c lb₀ ub₀ old recs = .ok (old', f)) :
    ∃ (pb : List (RecC F) → List F) (g : FittedC F), (c.userSplits = none → pb = c.prebin) ∧
      (∀ us, c.userSplits = some us → us ≠ [] ∧ ∃ sorted : List F, sorted.Perm us ∧ sorted.Pairwise (· < ·) ∧ pb = fun _ => sorted) ∧
      fitNumericalC c.sc none pb c.solver old recs = .ok (old', g) ∧ g.splits = f.splits ∧ g.rows = f.rows := by
  unfold pwFitC at h
  rw [ho] at h
  cases hi : pwInnerC c (splitDataC c.sc none recs).clean with
  | error e => simp [hi, bind, Except.bind] at h
  | ok r =>
    cases hs : specialRows c.sc (splitDataC c.sc none recs).special with
    | error e => simp [hi, hs, bind, Except.bind, throw, throwThe, MonadExceptOf.throw] at h
    | ok special =>
      simp only [hi, hs, bind, Except.bind, pure, Except.pure, Except.ok.injEq, Prod.mk.injEq] at h
      obtain ⟨h1, h2⟩ := h
      obtain ⟨pb, hpb1, hpb2, hi⟩ := pwInnerC_prebin hi
      rw [ho] at hi
      obtain ⟨o, g⟩ := r
      obtain ⟨sp, st', hs', hf⟩ := fitNumericalC_cases hi
      rw [splitDataC_idem (sc := c.sc) (fun r hr => ⟨(splitC_clean_x hr).2.1, (splitC_clean_x hr).2.2.1⟩)] at hf
      obtain ⟨reg, hreg, hnew⟩ := fitCoreC_extra (special' := special)
        (missing' := missingRow old (splitDataC c.sc none recs).missing) hf
      simp only [specialRows, Except.ok.injEq] at hs'
      have hl : sp.length = 1 := by rw [← hs']; rfl
      refine ⟨pb, ⟨g.status, g.splits, reg ++ special ++ [missingRow old (splitDataC c.sc none recs).missing]⟩, hpb1, hpb2, ?_, by rw [← h2], ?_⟩
      · simp only [fitNumericalC, hs, hnew, bind, Except.bind, pure, Except.pure, Except.ok.injEq, Prod.mk.injEq]
        exact ⟨h1, trivial⟩
      rw [← h2]
      simp only
      rw [hreg]
      have : (reg ++ sp ++ [missingRow {} (splitDataC .none none (splitDataC c.sc none recs).clean).missing]).length - 2 = reg.length := by
        simp [hl]
      rw [this, List.append_assoc reg sp, List.take_left]

/-- As `C85_same_table`, with sorted cut points. -/
theorem pwFitC_sorted (ho : c.outlier = none) (hsort : c.userSplits = none → ∀ l, (c.prebin l).Pairwise (· ≤ ·))
    (h : pwFitC c lb₀ ub₀ old recs = .ok (old', f)) :
    ∃ (pb : List (RecC F) → List F) (g : FittedC F), (∀ l, (pb l).Pairwise (· ≤ ·)) ∧ (∀ us, c.userSplits = some us → ∀ l, (pb l).Perm us) ∧
      fitNumericalC c.sc none pb c.solver old recs = .ok (old', g) ∧ g.splits = f.splits ∧ g.rows = f.rows := by
  obtain ⟨pb, g, h1, h2, h3⟩ := C85_same_table ho h
  refine ⟨pb, g, fun l => ?_, fun us hu l => ?_, h3⟩
  · cases hu : c.userSplits with
    | none => rw [h1 hu]; exact hsort hu l
    | some us =>
      obtain ⟨-, s, -, k2, rfl⟩ := h2 us hu
      exact k2.imp le_of_lt
  · obtain ⟨-, s, k1, -, rfl⟩ := h2 us hu
    exact k1

theorem pwFitC_parts (h : pwFitC c lb₀ ub₀ old recs = .ok (old', f)) :
    specialRows c.sc (splitDataC c.sc c.outlier recs).special = .ok f.special ∧
    f.missing = missingRow old (splitDataC c.sc c.outlier recs).missing ∧
    f.coef = c.regress (splitDataC c.sc c.outlier recs).clean f.splits lb₀ ub₀ := by
  unfold pwFitC at h
  cases hi : pwInnerC c (splitDataC c.sc c.outlier recs).clean with
  | error e => simp [hi, bind, Except.bind] at h
  | ok r =>
    cases hs : specialRows c.sc (splitDataC c.sc c.outlier recs).special with
    | error e => simp [hi, hs, bind, Except.bind, throw, throwThe, MonadExceptOf.throw] at h
    | ok special =>
      simp only [hi, hs, bind, Except.bind, pure, Except.pure, Except.ok.injEq, Prod.mk.injEq] at h
      obtain ⟨h1, h2⟩ := h
      subst h2
      exact ⟨rfl, rfl, rfl⟩

/-- The row index of a value. -/
theorem idxC_inRow {sc : SpecialCodes F} (hp : ProperCodes sc) {s : List F} (hs : s.Pairwise (· ≤ ·)) (x : Option F) (k : ℕ) :
    idxC s sc x = (k : ℤ) ↔ InRow s sc k x := by
  rw [← assign_inRow hp hs x k]
  have : idxC s sc x = assignSpecialMissing (s.length + 1) sc (fun i => (i : ℤ)) none none ((digitize false s x : ℕ) : ℤ) x := by
    unfold idxC
    cases x with
    | none => rw [transformOne_missing, assign_missing]
    | some v =>
      by_cases hv : IsSpecialValue sc (some v)
      · obtain ⟨i, -, hi⟩ := assign_special (β := ℤ) hp hv
        unfold transformOne
        rw [hi, hi]
      · rw [transformOne_clean _ _ _ _ _ _ _ hv, assign_clean _ _ _ _ _ _ _ hv]
  rw [this]

theorem targetsIn_idx {sc : SpecialCodes F} (hp : ProperCodes sc) {s : List F} (hs : s.Pairwise (· ≤ ·)) (k : ℕ) :
    targetsIn recs (InRow s sc k) = ysOf (recs.filter fun r => decide (idxC s sc r.x = (k : ℤ))) := by
  unfold targetsIn targetsOf ysOf
  congr 1
  refine List.filter_congr fun r _ => ?_
  rw [decide_eq_decide, idxC_inRow hp hs]

/-- C85: row `k` of the table (intervals of the split points, groups of special codes, missing values) summarises exactly the
targets of the training records whose value belongs to the row. -/
theorem C85_rows {sv : SolverCfgC} (ho : c.outlier = none) (hr : RespectsC sv c.solver)
    (hsort : c.userSplits = none → ∀ l, (c.prebin l).Pairwise (· ≤ ·)) (hp : ProperCodes c.sc) (hk : KnownTargetsC recs) (hu : UnitWeights recs)
    (h : pwFitC c lb₀ ub₀ old recs = .ok (old', f)) :
    f.splits.Pairwise (· ≤ ·) ∧ f.rows.length = f.splits.length + 1 + nGroups c.sc + 1 ∧
    ∀ k < f.rows.length, ∃ row, f.rows[k]? = some row ∧
      Summarises (targetsIn recs (InRow f.splits c.sc k)) row.cnt row.sum row.var row.mn row.mx row.zeros := by
  obtain ⟨pb, g, hsort, -, hg, e1, e2⟩ := pwFitC_sorted ho hsort h
  obtain ⟨hl, hrows⟩ := C50_rows hp hk hu hsort hr hg
  have hs : f.splits.Pairwise (· ≤ ·) := by
    obtain ⟨special, st', hs, hf⟩ := fitNumericalC_cases hg
    have hpl : PlainC recs := ⟨hk, hu⟩
    have hcl : PlainC (splitDataC c.sc none recs).clean := hpl.subset fun r hr => (splitC_clean_x hr).1
    obtain ⟨hsub, -⟩ := fitCoreC_rows (fun cells hn => hr.last cells hn)
      (fun r hr => (splitC_clean_x hr).2.1) hcl.whole (hsort _) hf
    rw [← e1]
    exact (hsort _).sublist hsub
  refine ⟨hs, by rw [← e2, hl, e1, groupCount_eq], fun k hkl => ?_⟩
  rw [← e2] at hkl ⊢
  obtain ⟨row, h1, h2⟩ := hrows k hkl
  refine ⟨row, h1, ?_⟩
  rw [targetsOf_eq, e1, ← targetsIn_idx hp hs] at h2
  exact h2

/-- C85: with user splits every split point of the table is one of them. -/
theorem C85_user_splits (ho : c.outlier = none) {sv : SolverCfgC} (hr : RespectsC sv c.solver) (hk : KnownTargetsC recs) (hu : UnitWeights recs)
    {us : List F} (hus : c.userSplits = some us) (h : pwFitC c lb₀ ub₀ old recs = .ok (old', f)) :
    us ≠ [] ∧ us.Nodup ∧ ∀ s ∈ f.splits, s ∈ us := by
  obtain ⟨pb, g, -, h2, hg, e1, e2⟩ := C85_same_table ho h
  obtain ⟨hne, sorted, k1, k2, rfl⟩ := h2 us hus
  refine ⟨hne, k1.nodup_iff.1 (k2.imp ne_of_lt), fun s hs => k1.subset ?_⟩
  obtain ⟨special, st', -, hf⟩ := fitNumericalC_cases hg
  have hpl : PlainC recs := ⟨hk, hu⟩
  have hcl : PlainC (splitDataC c.sc none recs).clean := hpl.subset fun r hr => (splitC_clean_x hr).1
  obtain ⟨hsub, -⟩ := fitCoreC_rows (fun cells hn => hr.last cells hn)
    (fun r hr => (splitC_clean_x hr).2.1) hcl.whole (k2.imp le_of_lt) hf
  rw [← e1] at hs
  exact hsub.subset hs

/-- C85: the totals of the columns Count, Sum and Zeros count are those of all training targets. -/
theorem C85_totals {sv : SolverCfgC} (ho : c.outlier = none) (hr : RespectsC sv c.solver)
    (hsort : c.userSplits = none → ∀ l, (c.prebin l).Pairwise (· ≤ ·)) (hp : ProperCodes c.sc) (hk : KnownTargetsC recs) (hu : UnitWeights recs)
    (h : pwFitC c lb₀ ub₀ old recs = .ok (old', f)) :
    tRecords f.rows = recs.length ∧ tSum f.rows = (recs.filterMap RecC.y).sum ∧
    tZeros f.rows = (recs.filterMap RecC.y).count 0 := by
  obtain ⟨pb, g, hsort, -, hg, -, e2⟩ := pwFitC_sorted ho hsort h
  obtain ⟨h1, h2, -, h4⟩ := C51_totals hp hk hu hsort hr hg
  rw [e2] at h1 h2 h4
  exact ⟨h1, h2, h4⟩

/-- C85: a clean value is mapped to the polynomial of its interval, moved into the bounds given to `transform`. -/
theorem C85_value (hs : f.splits.Pairwise (· ≤ ·)) (hb : BoundsOk lb ub) {sc : SpecialCodes F} {v : F}
    (hv : ¬ IsSpecialValue sc (some v)) {k : ℕ} (hk : InInterval f.splits k v) :
    ∃ r, f.value sc ms mm lb ub (some v) = .num r ∧ IsClamp lb ub (pieces f.coef k v) r := by
  refine ⟨_, pwApply_clean _ _ _ _ _ hv, ?_⟩
  rw [pwClean_eq, (inInterval_iff hs v k).2 hk]
  exact pwClip_isClamp hb _

theorem C85_value_unbounded (hs : f.splits.Pairwise (· ≤ ·)) {sc : SpecialCodes F} {v : F}
    (hv : ¬ IsSpecialValue sc (some v)) {k : ℕ} (hk : InInterval f.splits k v) :
    f.value sc ms mm none none (some v) = .num (pieces f.coef k v) := by
  unfold PWFittedC.value
  rw [pwApply_clean _ _ _ _ _ hv, pwClean_eq, (inInterval_iff hs v k).2 hk]
  rfl

/-- C85: increasing pieces without downward jumps give an increasing transform, for any bounds. -/
theorem C85_ascending (hs : f.splits.Pairwise (· ≤ ·)) (hP : AscendingPieces f.splits (pieces f.coef)) {sc : SpecialCodes F}
    {v w : F} (h : v ≤ w) (hv : ¬ IsSpecialValue sc (some v)) (hw : ¬ IsSpecialValue sc (some w)) :
    ∃ a b, f.value sc ms mm lb ub (some v) = .num a ∧ f.value sc ms mm lb ub (some w) = .num b ∧ a ≤ b := by
  refine ⟨_, _, pwApply_clean _ _ _ _ _ hv, pwApply_clean _ _ _ _ _ hw, ?_⟩
  rw [pwClean_eq, pwClean_eq]
  exact pwClip_mono _ _ (ascending_digitize hs hP h)

/-- C85: special and missing values: with `"empirical"` the mean of the training targets of the group (0 if there are none), with
a number that number. -/
theorem C85_special_missing {sv : SolverCfgC} (ho : c.outlier = none) (hr : RespectsC sv c.solver)
    (hsort : c.userSplits = none → ∀ l, (c.prebin l).Pairwise (· ≤ ·)) (hp : ProperCodes c.sc) (hk : KnownTargetsC recs) (hu : UnitWeights recs)
    (h : pwFitC c lb₀ ub₀ old recs = .ok (old', f)) :
    (∀ j x, InGroup c.sc j x → f.value c.sc .empirical mm lb ub x = .num ((Spec.mean (targetsIn recs (InGroup c.sc j)) : ℚ) : F)) ∧
    (f.value c.sc ms .empirical lb ub none = .num ((Spec.mean (targetsIn recs fun x => x = none) : ℚ) : F)) ∧
    (∀ j x q, InGroup c.sc j x → f.value c.sc (.number q) mm lb ub x = .num q) ∧
    (∀ q, f.value c.sc ms (.number q) lb ub none = .num q) := by
  obtain ⟨hs, hl, -⟩ := C85_rows ho hr hsort hp hk hu h
  obtain ⟨p1, p2, -⟩ := pwFitC_parts h
  rw [ho] at p1 p2
  have hpl : PlainC recs := ⟨hk, hu⟩
  have hsp : PlainC (splitDataC c.sc none recs).special := hpl.subset List.filter_sublist.subset
  have hmi : PlainC (splitDataC c.sc none recs).missing := hpl.subset List.filter_sublist.subset
  refine ⟨fun j x hj => ?_, ?_, fun j x q hj => ?_, fun q => ?_⟩
  · unfold PWFittedC.value
    rw [pwApply_group hp _ _ _ _ _ hj]
    have hlt := inGroup_lt hj
    rw [← groupCount_eq] at hlt
    obtain ⟨row, hrow, hsum⟩ := (specialRows_spec hsp p1).2 j hlt
    simp only [PWOpt.value, Option.map_none, Option.getD_none, hrow]
    rw [← idx_special (splits := f.splits) hp hlt, ← targetsIn_idx hp hs] at hsum
    have hsame : targetsIn recs (InRow f.splits c.sc (f.splits.length + 1 + j)) = targetsIn recs (InGroup c.sc j) := by
      unfold targetsIn targetsOf
      congr 1
      refine List.filter_congr fun r _ => ?_
      rw [decide_eq_decide]
      constructor
      · rintro (⟨v, -, -, hv⟩ | ⟨j', h1, h2⟩ | ⟨h1, -⟩)
        · have := hv.1; omega
        · have : j' = j := by omega
          rw [← this]; exact h2
        · rw [← groupCount_eq] at h1; omega
      · exact fun h => Or.inr (Or.inl ⟨j, rfl, h⟩)
    rw [hsame] at hsum
    unfold NVal.ofRow NVal.num
    rw [row_mean hsum]
    rfl
  · unfold PWFittedC.value
    rw [pwApply_missing]
    simp only [PWOpt.value, Option.map_none, Option.getD_none]
    have hsum := missingRow_spec (old := old) hmi
    rw [← p2, ← idx_missing (splits := f.splits) hp hk, ← targetsIn_idx hp hs] at hsum
    have hsame : targetsIn recs (InRow f.splits c.sc (f.splits.length + 1 + c.sc.count)) = targetsIn recs (fun x => x = none) := by
      unfold targetsIn targetsOf
      congr 1
      refine List.filter_congr fun r _ => ?_
      rw [decide_eq_decide]
      constructor
      · rintro (⟨v, -, -, hv⟩ | ⟨j', h1, h2⟩ | ⟨-, h1⟩)
        · have := hv.1; omega
        · have := inGroup_lt h2; rw [← groupCount_eq] at this; omega
        · exact h1
      · exact fun h => Or.inr (Or.inr ⟨by rw [groupCount_eq], h⟩)
    rw [hsame] at hsum
    unfold NVal.ofRow NVal.num
    rw [row_mean hsum]
    rfl
  · unfold PWFittedC.value
    rw [pwApply_group hp _ _ _ _ _ hj]
    rfl
  · unfold PWFittedC.value
    rw [pwApply_missing]
    rfl

/-- C85: the coefficient columns: the coefficients of the bins; in the special and missing rows column `c0` shows the mean target
of the row and the other columns 0. -/
theorem C85_coefficients {sv : SolverCfgC} (ho : c.outlier = none) (hr : RespectsC sv c.solver)
    (hsort : c.userSplits = none → ∀ l, (c.prebin l).Pairwise (· ≤ ·)) (hp : ProperCodes c.sc) (hk : KnownTargetsC recs) (hu : UnitWeights recs)
    (hcoef : f.coef.length = f.splits.length + 1) (h : pwFitC c lb₀ ub₀ old recs = .ok (old', f)) (i : ℕ) :
    (f.coefColumn c.sc i).length = f.rows.length ∧
    (∀ k ≤ f.splits.length, (f.coefColumn c.sc i)[k]? = some (.num ((f.coef.getD k []).getD i 0))) ∧
    ∀ k, f.splits.length < k → k < f.rows.length → (f.coefColumn c.sc i)[k]? =
      some (.num (if i = 0 then ((Spec.mean (targetsIn recs (InRow f.splits c.sc k)) : ℚ) : F) else 0)) := by
  obtain ⟨hs, hl, hrow⟩ := C85_rows ho hr hsort hp hk hu h
  have hcnt := groupCount_eq c.sc
  refine ⟨?_, fun k hk => ?_, fun k hk1 hk2 => ?_⟩
  · unfold PWFittedC.coefColumn
    split_ifs <;> simp only [List.length_append, List.length_map, List.length_drop, List.length_replicate] <;> omega
  · unfold PWFittedC.coefColumn
    rw [List.getElem?_append_left (by simp; omega), List.getElem?_map, List.getElem?_eq_getElem (by omega),
      List.getD_eq_getElem f.coef _ (by omega)]
    rfl
  · unfold PWFittedC.coefColumn
    rw [List.getElem?_append_right (by simp; omega)]
    simp only [List.length_map, hcoef]
    by_cases hi : i = 0
    · simp only [hi, if_true]
      rw [List.getElem?_drop, show f.rows.length - (c.sc.count + 1) + (k - (f.splits.length + 1)) = k by omega, List.getElem?_map]
      obtain ⟨row, h1, h2⟩ := hrow k hk2
      rw [h1]
      simp only [Option.map_some, NVal.ofRow, NVal.num]
      rw [row_mean h2]
      rfl
    · simp only [hi, if_false]
      rw [List.getElem?_replicate, if_pos (by omega)]
      rfl

/-- C85: Min and Max of the totals row are those of the targets of the records with a clean value; the targets of special and
missing records are left out, although Count, Sum and Zeros count of the same row include them. -/
theorem C85_total_min_max {sv : SolverCfgC} (ho : c.outlier = none) (hr : RespectsC sv c.solver)
    (hsort : c.userSplits = none → ∀ l, (c.prebin l).Pairwise (· ≤ ·)) (hp : ProperCodes c.sc) (hk : KnownTargetsC recs) (hu : UnitWeights recs)
    (h : pwFitC c lb₀ ub₀ old recs = .ok (old', f)) :
    ∃ m M, f.totalMin c.sc = some m ∧ f.totalMax c.sc = some M ∧
      IsMin (targetsIn recs fun x => x ≠ none ∧ ¬ IsSpecialValue c.sc x) m ∧
      IsMax (targetsIn recs fun x => x ≠ none ∧ ¬ IsSpecialValue c.sc x) M := by
  obtain ⟨pb, g, hsort, -, hg, e1, e2⟩ := pwFitC_sorted ho hsort h
  have hpl : PlainC recs := ⟨hk, hu⟩
  obtain ⟨special, st', hsp, hf⟩ := fitNumericalC_cases hg
  have hcl : PlainC (splitDataC c.sc none recs).clean := hpl.subset fun r hr => (splitC_clean_x hr).1
  have hspl : PlainC (splitDataC c.sc none recs).special := hpl.subset List.filter_sublist.subset
  have hsl := (specialRows_spec hspl hsp).1
  obtain ⟨-, reg, hrows, hlen, hreg⟩ := fitCoreC_rows (fun cells hn => hr.last cells hn)
    (fun r hr => (splitC_clean_x hr).2.1) hcl.whole (hsort _) hf
  have hne := (fitCoreC_cases hf).1
  have htake : f.rows.take (f.rows.length - (c.sc.count + 1)) = reg := by
    rw [← e2, hrows]
    have : (reg ++ ((none : Option RowC).toList ++ (special ++ [missingRow old (splitDataC c.sc none recs).missing]))).length -
        (c.sc.count + 1) = reg.length := by simp [hsl]
    rw [this, List.take_left]
  have hysc : ysOf (splitDataC c.sc none recs).clean = targetsIn recs fun x => x ≠ none ∧ ¬ IsSpecialValue c.sc x := by
    unfold targetsIn targetsOf ysOf
    congr 1
    simp only [splitDataC]
    refine List.filter_congr fun r hr => ?_
    rw [Bool.eq_iff_iff]
    have h1 := hk r hr
    have h2 : r.isSpecial c.sc = true ↔ IsSpecialValue c.sc r.x := isSpecial_iff _ _
    simp only [Bool.and_eq_true, Bool.not_eq_true', RecC.isMissing, Bool.or_eq_false_iff, decide_eq_true_eq, ← h2,
      Bool.not_eq_true, Option.isNone_eq_false_iff, Option.isSome_iff_ne_none]
    tauto
  -- the regular rows summarise a partition of the clean records
  have hall : List.Forall₂ RowC.Is ((List.range reg.length).map fun k =>
      ysOf ((splitDataC c.sc none recs).clean.filter fun r => digitize false g.splits r.x == k)) reg := by
    rw [List.forall₂_iff_get]
    refine ⟨by simp, fun i h1 h2 => ?_⟩
    obtain ⟨l, hperm, hl⟩ := hreg i (by omega)
    have hlp : PlainC l := hcl.subset fun r hr => (List.filter_sublist.subset (hperm.subset hr))
    simp only [List.get_eq_getElem, List.getElem_map, List.getElem_range]
    rw [List.getElem?_eq_getElem h2] at hl
    simp only [Option.some.injEq] at hl
    have hy := hperm.filterMap RecC.y
    rcases hl with hl | hl
    · rw [hl]; exact (cellOf_summarises hlp).perm hy
    · rw [hl]; exact (summaryC_summarises hlp).perm hy
  have hempty : ∀ y r, y = [] → RowC.Is y r → r ∈ reg → r.mn = none ∧ r.mx = none := by
    rintro y r rfl hi hm
    have hc0 : r.cnt = 0 := hi.count
    obtain ⟨k, hk', hrk⟩ := List.mem_iff_getElem.1 hm
    obtain ⟨l, hperm, hl⟩ := hreg k (by omega)
    have hlp : PlainC l := hcl.subset fun r hr => (List.filter_sublist.subset (hperm.subset hr))
    have hz : truncWeightC l = 0 → l = [] := by
      intro h0
      have h3 := (hlp.ys).2.2.1
      have h4 := (hlp.ys).2.2.2.1
      rw [← List.length_eq_zero_iff]; omega
    rw [List.getElem?_eq_getElem hk', hrk] at hl
    simp only [Option.some.injEq] at hl
    rcases hl with hl | hl
    · rw [hl] at hc0
      have := hz hc0
      subst this
      rw [hl]; simp [cellOf, CellC.row]
    · rw [hl] at hc0
      have := hz hc0
      subst this
      rw [hl]; simp [summaryC, allKnown]
  obtain ⟨m1, m2⟩ := optmin_rows hall hempty
  have hflat : (((List.range reg.length).map fun k =>
      ysOf ((splitDataC c.sc none recs).clean.filter fun r => digitize false g.splits r.x == k)).flatten).Perm
        (ysOf (splitDataC c.sc none recs).clean) := by
    have h1 := (flatten_classes (splitDataC c.sc none recs).clean (fun r => digitize false g.splits r.x) reg.length (fun r _ => by
      have := digitize_le false g.splits r.x; omega)).filterMap RecC.y
    have h2 := ysOf_flatten ((List.range reg.length).map fun k =>
      (splitDataC c.sc none recs).clean.filter fun r => digitize false g.splits r.x == k)
    rw [List.map_map] at h2
    rw [show (fun k => ysOf ((splitDataC c.sc none recs).clean.filter fun r => digitize false g.splits r.x == k)) =
      ysOf ∘ fun k => (splitDataC c.sc none recs).clean.filter fun r => digitize false g.splits r.x == k from rfl, ← h2]
    exact h1
  have hne2 : ysOf (splitDataC c.sc none recs).clean ≠ [] := by
    intro h0
    have h4 := (hcl.ys).2.2.2.1
    rw [h0] at h4
    exact hne (List.length_eq_zero_iff.1 h4.symm)
  have hne3 : ((List.range reg.length).map fun k =>
      ysOf ((splitDataC c.sc none recs).clean.filter fun r => digitize false g.splits r.x == k)).flatten ≠ [] := by
    intro h0
    rw [h0] at hflat
    exact hne2 (List.nil_perm.1 hflat)
  obtain ⟨m, em, hm⟩ := isMin_min? hne3
  obtain ⟨M, eM, hM⟩ := isMax_max? hne3
  refine ⟨m, M, ?_, ?_, ?_, ?_⟩
  · unfold PWFittedC.totalMin tMin; rw [htake, m1, em]
  · unfold PWFittedC.totalMax tMax; rw [htake, m2, eM]
  · rw [← hysc]; exact ⟨hflat.mem_iff.1 hm.1, fun y hy => hm.2 y (hflat.mem_iff.2 hy)⟩
  · rw [← hysc]; exact ⟨hflat.mem_iff.1 hM.1, fun y hy => hM.2 y (hflat.mem_iff.2 hy)⟩

end

/-! ## C86: the significance tests of `analysis` -/

/-- C86, what `analysis` of a piecewise table (binary or continuous) tests: with `m` groups of special codes the neighbouring
pairs among the regular rows and the first `m - 1` special rows.  The English claim (exactly the neighbouring regular bins) holds
only for one group: `C86_only_one_group`. -/
theorem C86_pairs_partial (sc : SpecialCodes F) (splits : List F) (nRows : ℕ)
    (hn : nRows = splits.length + 1 + nGroups sc + 1) (hg : 0 < nGroups sc) (p : ℕ × ℕ) :
    p ∈ pwTestPairs nRows ↔ p.2 = p.1 + 1 ∧ p.2 < splits.length + nGroups sc := by
  obtain ⟨a, b⟩ := p
  unfold pwTestPairs
  simp only [List.mem_map, List.mem_range, Prod.mk.injEq]
  constructor
  · rintro ⟨i, hi, rfl, rfl⟩
    omega
  · rintro ⟨h1, h2⟩
    exact ⟨a, by omega, rfl, h1.symm⟩

/-- C86, finding: `analysis` tests exactly the neighbouring regular bins if and only if there is one group of special codes (none,
a list, or a dict with one entry); with more groups it also tests special rows against each other and the last bin. -/
theorem C86_only_one_group (sc : SpecialCodes F) (splits : List F) (nRows : ℕ)
    (hn : nRows = splits.length + 1 + nGroups sc + 1) (hg : 0 < nGroups sc) :
    (∀ p, p ∈ pwTestPairs nRows ↔ p.2 = p.1 + 1 ∧ p.2 ≤ splits.length) ↔ nGroups sc = 1 := by
  constructor
  · intro h
    by_contra hne
    have h1 := (C86_pairs_partial sc splits nRows hn hg (splits.length, splits.length + 1)).2 ⟨rfl, by simp; omega⟩
    have h2 := (h _).1 h1
    simp at h2
  · intro h p
    rw [C86_pairs_partial sc splits nRows hn hg p, h]
    constructor
    · rintro ⟨h1, h2⟩; exact ⟨h1, by omega⟩
    · rintro ⟨h1, h2⟩; exact ⟨h1, by omega⟩

/-- C86 for a fitted table. -/
theorem C86_fitted {c : PWCfg F} {sv : SolverCfg} {lb ub : Option F} {recs : List (Rec F)} {f : PWFitted F}
    (ho : c.outlier = none) (hr : Respects sv c.solver) (hsort : ∀ l, (c.prebin l).Pairwise (· ≤ ·)) (hp : ProperCodes c.sc)
    (hk : KnownTargets recs) (hu : ∀ r ∈ recs, r.w = 1) (hg : nGroups c.sc = 1) (h : pwFit c lb ub recs = .ok f) (p : ℕ × ℕ) :
    p ∈ pwTestPairs f.nonevent.length ↔ p.2 = p.1 + 1 ∧ p.2 ≤ f.splits.length := by
  obtain ⟨-, hl, -⟩ := C80_histogram ho hr hsort hp hk hu h
  exact (C86_only_one_group c.sc f.splits _ hl (by omega)).2 hg p

end OptBinning
