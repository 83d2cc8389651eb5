import Verif.Props.Categorical

/-! # Further properties of `fit` (C01, C16, C32): effects of the filters of the clean records, state after the refinement -/
set_option linter.unusedSectionVars false
namespace OptBinning
open Spec

variable {α : Type*} [LinearOrder α]

open scoped Classical in
/-- C01: the records used for binning, with all filters: those with known value and target that are not special, without the ones the outlier
detector flags, and, if a bound is given, those not below `fix_lb` (not above `fix_ub` if only that is given); bounds are inclusive. -/
theorem C01_clean_records (sc : SpecialCodes α) (so : SplitOpts α) (recs : List (Rec α)) :
    let base := recs.filter fun r => decide (r.x ≠ none ∧ r.y ≠ none ∧ ¬ IsSpecialValue sc r.x)
    let unflagged := match so.outlier with
      | none => base
      | some flags => ((base.zip (flags base)).filter fun (q : Rec α × Bool) => q.2 = false).map Prod.fst
    (splitData sc so recs).clean = unflagged.filter fun r => match so.fixLb, so.fixUb with
      | some lb, _ => ∃ v, r.x = some v ∧ lb ≤ v
      | none, some ub => ∃ v, r.x = some v ∧ v ≤ ub
      | none, none => True := by
  intro base unflagged
  have hbase : (recs.filter fun r => !r.isMissing && !r.isSpecial sc) = base := by
    refine List.filter_congr fun r _ => ?_
    have h := contains_codes_iff sc r.x
    have : (!r.isMissing && !r.isSpecial sc) = true ↔ (r.x ≠ none ∧ r.y ≠ none ∧ ¬ IsSpecialValue sc r.x) := by
      rw [← h]
      simp only [Rec.isMissing, Rec.isSpecial, Bool.and_eq_true, Bool.not_eq_true', Bool.or_eq_false_iff]
      cases r.x <;> cases r.y <;> simp
    rw [Bool.eq_iff_iff, this]; simp
  have hsel : ∀ (l : List (Rec α)) (m : List Bool), select l (m.map (!·)) = ((l.zip m).filter fun q => q.2 = false).map Prod.fst := by
    intro l
    induction l with
    | nil => intro m; rfl
    | cons a l ih =>
      intro m
      cases m with
      | nil => rfl
      | cons b m =>
        have := ih m
        unfold select at this ⊢
        cases b <;> simp [this]
  have hun : (match so.outlier with
      | none => recs.filter fun r => !r.isMissing && !r.isSpecial sc
      | some det => select (recs.filter fun r => !r.isMissing && !r.isSpecial sc)
          ((det (recs.filter fun r => !r.isMissing && !r.isSpecial sc)).map (!·))) = unflagged := by
    simp only [hbase, unflagged]
    cases so.outlier with
    | none => rfl
    | some det => exact hsel _ _
  have hclean : (splitData sc so recs).clean = fixBounds so unflagged := congrArg (fixBounds so) hun
  rw [hclean]
  unfold fixBounds
  cases so.fixLb with
  | some lb =>
    refine List.filter_congr fun r _ => ?_
    cases hx : r.x <;> simp
  | none =>
    cases so.fixUb with
    | some ub =>
      refine List.filter_congr fun r _ => ?_
      cases hx : r.x <;> simp
    | none => simp

/-- Non-vacuity: an outlier detector flagging values above 6 and the lower bound 2. -/
example : (splitData (.list [some 9]) { outlier := some fun l => l.map fun r => decide (6 < r.x.getD 0), fixLb := some 2 }
    [⟨some 9, some true, 1⟩, ⟨some 1, some true, 1⟩, ⟨some 2, some false, 1⟩, ⟨some 7, some true, 1⟩, ⟨some (6 : ℕ), some true, 1⟩]).clean =
    [⟨some 2, some false, 1⟩, ⟨some 6, some true, 1⟩] := by decide

/-- C16: after the refinement of sorted user splits with flags the object keeps exactly the remaining splits, each with its own flag. -/
theorem C16_remaining_user_splits {cfg : PrebinCfg} {recs : List (Rec α)} {splits : List α} {st : PrebinState α} {pb : Prebins α} {fx : List Bool}
    (hu : st.userSplits = splits) (hfx : st.fixed = some fx) (hl : fx.length = splits.length)
    (h : computePrebins cfg recs st splits = .ok pb) :
    pb.st.userSplits = pb.splits ∧ ∃ fx', pb.st.fixed = some fx' ∧ fx'.length = pb.splits.length ∧
      (pb.splits.zip fx').Sublist (splits.zip fx) := by
  induction hn : splits.length using Nat.strong_induction_on generalizing splits st fx with
  | _ n ih =>
    rw [computePrebins] at h
    simp only at h
    split_ifs at h with h0 h1 h2
    · cases h; exact ⟨hu, fx, hfx, hl, List.Sublist.refl _⟩
    · cases h; exact ⟨hu, fx, hfx, hl, List.Sublist.refl _⟩
    · have hm := maskSplits_any (c := cfg.catUser) (n := splits.length) (by omega)
        (by simp [pureMask, length_prebinCounts, prebinNumber]) h1
      have hlt := length_select_lt hm.1 hm.2
      generalize maskSplits cfg.catUser (pureMask
          (prebinCounts cfg.catUser (prebinNumber cfg.catUser splits) splits recs false)
          (prebinCounts cfg.catUser (prebinNumber cfg.catUser splits) splits recs true)) = mask at hm hlt h
      simp only [hfx] at h
      split_ifs at h with h3
      have hzip : ∀ (l : List α) (f : List Bool) (m : List Bool), f.length = l.length →
          (select l m).zip (select f m) = select (l.zip f) m := by
        intro l
        induction l with
        | nil => intro f m hf; rw [List.length_nil, List.length_eq_zero_iff] at hf; subst hf; simp [select]
        | cons a l ih =>
          intro f m hf
          cases f with
          | nil => simp at hf
          | cons b f =>
            cases m with
            | nil => simp [select]
            | cons c m =>
              have := ih f m (by simpa using hf)
              unfold select at this ⊢
              cases c <;> simp [this]
      have := ih _ (hn ▸ hlt) (st := { st with nRefinements := st.nRefinements + 1, fixed := some (select fx (mask.map (!·))), userSplits := select st.userSplits (mask.map (!·)) })
        (fx := select fx (mask.map (!·))) (by simp only [hu]) rfl
        (by rw [length_select _ _ (by simp [hm.1, hl]), length_select _ _ (by simp [hm.1])]) h rfl
      obtain ⟨h4, fx', h5, h6, h7⟩ := this
      refine ⟨h4, fx', h5, h6, h7.trans ?_⟩
      rw [hzip _ _ _ hl]
      exact select_sublist _ _
    · cases h; exact ⟨hu, fx, hfx, hl, List.Sublist.refl _⟩

/-- C16 finding: for unsorted user splits the mask of the sorted splits is applied to the unsorted ones, so the object loses another split than the one
removed: of `[2, 1]` the split 1 is removed by the refinement (its bin holds only non-events), but `user_splits` becomes `[1]`. -/
theorem C16_unsorted_user_splits_corrupted :
    ∃ (pb : Prebins ℕ), computePrebins {} [⟨some 0, some false, 1⟩, ⟨some 1, some false, 1⟩, ⟨some 1, some true, 1⟩, ⟨some 2, some false, 1⟩, ⟨some 3, some true, 1⟩]
      { userSplits := [2, 1], fixed := some [false, false] } [1, 2] = .ok pb ∧ pb.splits = [2] ∧ pb.st.userSplits = [1] := by
  refine ⟨⟨{ userSplits := [1], fixed := some [false], nRefinements := 1 }, [2], [2, 1], [1, 1]⟩, ?_, rfl, rfl⟩
  have c1 : prebinCounts false 2 [2] ([⟨some 0, some false, 1⟩, ⟨some 1, some false, 1⟩, ⟨some 1, some true, 1⟩, ⟨some 2, some false, 1⟩, ⟨some 3, some true, 1⟩] : List (Rec ℕ)) false = [2, 1] := by decide +kernel
  have c2 : prebinCounts false 2 [2] ([⟨some 0, some false, 1⟩, ⟨some 1, some false, 1⟩, ⟨some 1, some true, 1⟩, ⟨some 2, some false, 1⟩, ⟨some 3, some true, 1⟩] : List (Rec ℕ)) true = [1, 1] := by decide +kernel
  have c3 : prebinCounts false 3 [1, 2] ([⟨some 0, some false, 1⟩, ⟨some 1, some false, 1⟩, ⟨some 1, some true, 1⟩, ⟨some 2, some false, 1⟩, ⟨some 3, some true, 1⟩] : List (Rec ℕ)) false = [1, 1, 1] := by decide +kernel
  have c4 : prebinCounts false 3 [1, 2] ([⟨some 0, some false, 1⟩, ⟨some 1, some false, 1⟩, ⟨some 1, some true, 1⟩, ⟨some 2, some false, 1⟩, ⟨some 3, some true, 1⟩] : List (Rec ℕ)) true = [0, 1, 1] := by decide +kernel
  have h2 : computePrebins {} [⟨some 0, some false, 1⟩, ⟨some 1, some false, 1⟩, ⟨some 1, some true, 1⟩, ⟨some 2, some false, 1⟩, ⟨some 3, some true, 1⟩]
      { userSplits := [1], fixed := some [false], nRefinements := 1 } [2] = .ok ⟨{ userSplits := [1], fixed := some [false], nRefinements := 1 }, [2], [2, 1], [1, 1]⟩ := by
    rw [computePrebins]
    simp [prebinNumber, c1, c2, pureMask]
  rw [computePrebins]
  simp [prebinNumber, c3, c4, pureMask, maskSplits, select]
  exact h2

variable {κ : Type} [DecidableEq κ]

/-- C32, default value if neither special nor missing values are treated empirically: all events (also special and missing ones) over the
records of the regular rows only. -/
theorem C32_default_mixed (nb : ℕ) (ms mm : MetricOpt) (hs : ms ≠ .empirical) (hm : mm ≠ .empirical) (nonevent event : List ℕ) :
    meanEventRate nb ms mm nonevent event =
      ((event.sum : ℕ) : ℚ) / (((event.take nb).sum + (nonevent.take nb).sum : ℕ) : ℚ) := by
  have : (ms.isEmpirical || mm.isEmpirical) = false := by
    cases ms <;> cases mm <;> simp_all [MetricOpt.isEmpirical]
  rw [meanEventRate, this]; rfl

end OptBinning
