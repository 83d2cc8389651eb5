import Mathlib.Data.List.GetD
import Verif.Lemmas.Fit3
import Verif.Lemmas.Table
import Verif.Props.Solver

/-!
# Properties C01–C06 and table-level forms of C09–C12: `fit` and `transform` of a numerical variable
-/
set_option linter.unusedSectionVars false
set_option linter.unusedSimpArgs false
namespace OptBinning
open Spec Finset

variable {α : Type*} [LinearOrder α]

/-! ## C01 -/

/-- C01: the three groups are exactly the records that are clean (known value and target, not special), special, missing. -/
theorem C01_groups (sc : SpecialCodes α) (recs : List (Rec α)) (r : Rec α) :
    (r ∈ (splitData sc {} recs).clean ↔ r ∈ recs ∧ r.x ≠ none ∧ r.y ≠ none ∧ ¬ IsSpecialValue sc r.x) ∧
    (r ∈ (splitData sc {} recs).special ↔ r ∈ recs ∧ IsSpecialValue sc r.x) ∧
    (r ∈ (splitData sc {} recs).missing ↔ r ∈ recs ∧ (r.x = none ∨ r.y = none)) := by
  have h := contains_codes_iff sc r.x
  refine ⟨?_, ?_, ?_⟩
  · simp only [splitData, fixBounds, List.mem_filter, Bool.and_eq_true, Bool.not_eq_true', Rec.isMissing, Rec.isSpecial,
      Bool.or_eq_false_iff, ← h]
    cases r.x <;> cases r.y <;> simp
  · simp only [splitData, List.mem_filter, Rec.isSpecial, h]
  · simp only [splitData, List.mem_filter, Rec.isMissing, Bool.or_eq_true, Option.isNone_iff_eq_none]

/-- C01: the order inside each group is the input order (also with an outlier detector or bounds). -/
theorem C01_order (sc : SpecialCodes α) (so : SplitOpts α) (recs : List (Rec α)) :
    (splitData sc so recs).clean.Sublist recs ∧ (splitData sc so recs).special.Sublist recs ∧
    (splitData sc so recs).missing.Sublist recs := by
  refine ⟨?_, List.filter_sublist, List.filter_sublist⟩
  have hf : ∀ l : List (Rec α), (fixBounds so l).Sublist l := by
    intro l
    unfold fixBounds
    cases so.fixLb <;> cases so.fixUb <;> simp [List.filter_sublist]
  simp only [splitData]
  refine (hf _).trans ?_
  cases so.outlier with
  | none => exact List.filter_sublist
  | some det => exact (select_sublist _ _).trans List.filter_sublist

/-- C01: if all targets are known, every record is in exactly one group: the groups together are a rearrangement of the
input, so nothing is dropped and nothing counted twice. -/
theorem C01_partition (sc : SpecialCodes α) (hsc : ProperCodes sc) (recs : List (Rec α)) (hk : KnownTargets recs) :
    ((splitData sc {} recs).clean ++ ((splitData sc {} recs).special ++ (splitData sc {} recs).missing)).Perm recs ∧
    (splitData sc {} recs).clean.length + (splitData sc {} recs).special.length +
      (splitData sc {} recs).missing.length = recs.length := by
  have h := split_perm hsc.1 (recs := recs) fun r hr hy => absurd hy (hk r hr)
  refine ⟨h, ?_⟩
  have := h.length_eq
  simp only [List.length_append] at this
  omega

/-- C01, limit of the statement: a special value with an unknown target is put into the special *and* the missing group. -/
theorem C01_special_with_missing_target_counted_twice (c : α) (w : ℚ) :
    (splitData (.list [some c]) {} [⟨some c, none, w⟩]).special = [⟨some c, none, w⟩] ∧
    (splitData (.list [some c]) {} [⟨some c, none, w⟩]).missing = [⟨some c, none, w⟩] := by
  simp [splitData, Rec.isSpecial, Rec.isMissing, SpecialCodes.codes]

/-- C01, limit of the statement: with NaN as a special code, missing records are counted twice. -/
theorem C01_nan_special_code_counted_twice (w : ℚ) :
    (splitData (α := α) (.list [none]) {} [⟨none, some true, w⟩]).special = [⟨none, some true, w⟩] ∧
    (splitData (α := α) (.list [none]) {} [⟨none, some true, w⟩]).missing = [⟨none, some true, w⟩] := by
  simp [splitData, Rec.isSpecial, Rec.isMissing, SpecialCodes.codes]

/-- If both bounds are given only the lower one is applied (finding). -/
theorem C01_fix_ub_ignored : (splitData (α := ℕ) .none { fixLb := some 1, fixUb := some 3 } [⟨some 5, some true, 1⟩]).clean
    = [⟨some 5, some true, 1⟩] := by decide

/-! ### a running example -/

/-- Twelve records: values 1..8 with targets, two special, two missing. -/
def exRecs : List (Rec ℕ) :=
  [⟨some 1, some false, 1⟩, ⟨some 99, some true, 1⟩, ⟨some 2, some true, 1⟩, ⟨none, some false, 1⟩, ⟨some 3, some false, 2⟩,
   ⟨some 4, some true, 1⟩, ⟨some 5, some true, 1⟩, ⟨some 6, some false, 1⟩, ⟨none, some true, 1⟩, ⟨some 98, some false, 1⟩,
   ⟨some 7, some true, 3⟩, ⟨some 8, some false, 1⟩]

def exCodes : SpecialCodes ℕ := .dict [("a", [some 99]), ("b", [some 98, some 97])]

theorem exCodes_proper : ProperCodes exCodes := by
  refine ⟨by simp [exCodes, IsSpecialValue], ?_⟩
  simp [exCodes]

theorem exRecs_known : KnownTargets exRecs := by
  unfold KnownTargets exRecs; simp

theorem exRecs_whole : WholeWeights exRecs := by
  intro r hr
  simp only [exRecs, List.mem_cons, List.not_mem_nil, or_false] at hr
  rcases hr with rfl | rfl | rfl | rfl | rfl | rfl | rfl | rfl | rfl | rfl | rfl | rfl <;>
    first
      | exact ⟨1, Nat.cast_one.symm⟩
      | exact ⟨2, (Nat.cast_ofNat (R := ℚ)).symm⟩
      | exact ⟨3, (Nat.cast_ofNat (R := ℚ)).symm⟩

example : (splitData exCodes {} exRecs).clean.length = 8 ∧ (splitData exCodes {} exRecs).special.length = 2 ∧
    (splitData exCodes {} exRecs).missing.length = 2 := by decide

/-! ## C04 -/

/-- C04: the index of a regular value is the number of the half-open interval which contains it. -/
theorem C04_interval (f : Fitted α) (sc : SpecialCodes α) (ms mm : MetricOpt) (hs : f.splits.Pairwise (· ≤ ·)) (v : α)
    (hv : ¬ IsSpecialValue sc (some v)) (k : ℕ) :
    transformIndices f sc ms mm [some v] = [(k : ℤ)] ↔ InInterval f.splits k v := by
  simp only [transformIndices, List.map_cons, List.map_nil, List.cons.injEq, and_true]
  rw [transformOne_clean _ _ _ _ _ _ _ hv, ← inInterval_iff hs v k]
  exact_mod_cast Iff.rfl

/-- C04: exactly one interval contains a value, hence the index is total, unique and at most the number of splits. -/
theorem C04_unique (s : List α) (hs : s.Pairwise (· ≤ ·)) (v : α) : ∃! k, InInterval s k v :=
  ⟨digitize false s (some v), (inInterval_iff hs v _).1 rfl, fun k hk => ((inInterval_iff hs v k).2 hk).symm⟩

/-- C04: transform works value by value. -/
theorem C04_pointwise (f : Fitted α) (sc : SpecialCodes α) (ms mm : MetricOpt) (xs ys : List (Option α)) :
    transformIndices f sc ms mm (xs ++ ys) = transformIndices f sc ms mm xs ++ transformIndices f sc ms mm ys ∧
    (transformIndices f sc ms mm xs).length = xs.length := by
  simp [transformIndices]

/-- C04: the index is monotone in the value. -/
theorem C04_monotone (f : Fitted α) (sc : SpecialCodes α) (ms mm : MetricOpt) {v w : α} (h : v ≤ w)
    (hv : ¬ IsSpecialValue sc (some v)) (hw : ¬ IsSpecialValue sc (some w)) :
    ∃ a b : ℤ, transformIndices f sc ms mm [some v, some w] = [a, b] ∧ 0 ≤ a ∧ a ≤ b ∧ b ≤ f.splits.length := by
  refine ⟨_, _, rfl, ?_, ?_, ?_⟩ <;> simp only [transformOne_clean _ _ _ _ _ _ _ hv, transformOne_clean _ _ _ _ _ _ _ hw]
  · exact Int.natCast_nonneg _
  · simp only [digitize, Bool.false_eq_true, if_false]
    exact_mod_cast List.countP_mono_left (by
      intro s _ hs
      simp only [decide_eq_true_eq] at *
      exact hs.trans h)
  · exact_mod_cast digitize_le false f.splits (some w)

example : transformIndices (⟨"OPTIMAL", [3, 5, 7], [], []⟩ : Fitted ℕ) exCodes .empirical .empirical
    [some 2, some 3, some 4, some 7, some 100, some 99, some 98, none] = [0, 1, 1, 3, 3, 4, 5, 6] := by decide

/-! ## C05 -/

/-- C05: with `"empirical"` (or any non-integer) options, a missing value gets the last index. -/
theorem C05_missing (f : Fitted α) (sc : SpecialCodes α) (ms mm : MetricOpt) (hm : mm.forIndices = none) :
    transformIndices f sc ms mm [none] = [(((f.splits.length + 1) + sc.count : ℕ) : ℤ)] := by
  simp [transformIndices, transformOne_missing, hm]

/-- C05: special codes given as a list all get the index right after the regular bins. -/
theorem C05_special_list (f : Fitted α) (l : List (Option α)) (ms mm : MetricOpt) (hm : ms.forIndices = none) (v : α)
    (hv : some v ∈ l) :
    transformIndices f (.list l) ms mm [some v] = [((f.splits.length + 1 : ℕ) : ℤ)] := by
  simp [transformIndices, transformOne_list _ _ _ _ _ _ _ hv, hm]

/-- C05: the codes of the i-th dict group get the i-th index after the regular bins. -/
theorem C05_special_dict (f : Fitted α) (gs : List (String × List (Option α))) (hp : ProperCodes (.dict gs))
    (ms mm : MetricOpt) (hm : ms.forIndices = none) {i : ℕ} (hi : i < gs.length) (v : α) (hv : some v ∈ gs[i].2) :
    transformIndices f (.dict gs) ms mm [some v] = [((f.splits.length + 1 + i : ℕ) : ℤ)] := by
  simp [transformIndices, transformOne_dict _ _ _ _ _ _ _ hp.2 hi hv, hm]

/-- C05: with `"empirical"` options, indices up to the number of splits mean a regular value and all others do not. -/
theorem C05_no_confusion (f : Fitted α) (sc : SpecialCodes α) (hp : ProperCodes sc) (x : Option α) :
    ∃ k : ℕ, transformIndices f sc .empirical .empirical [x] = [(k : ℤ)] ∧ k ≤ f.splits.length + 1 + sc.count ∧
      (k ≤ f.splits.length ↔ x ≠ none ∧ ¬ IsSpecialValue sc x) ∧
      (k = f.splits.length + 1 + sc.count ↔ x = none) := by
  simp only [transformIndices, List.map_cons, List.map_nil, List.cons.injEq, and_true, MetricOpt.forIndices]
  cases x with
  | none =>
    refine ⟨_, transformOne_missing _ _ _ _ _ _, le_rfl, ?_, ?_⟩
    · simp; omega
    · simp
  | some v =>
    by_cases hs : IsSpecialValue sc (some v)
    · obtain ⟨i, hi, h⟩ := special_index (β := ℤ) hp hs
      refine ⟨f.splits.length + 1 + i, by rw [h]; rfl, by omega, ?_, ?_⟩
      · constructor
        · intro h; omega
        · rintro ⟨-, h⟩; exact absurd hs h
      · constructor
        · intro h; omega
        · intro h; simp at h
    · have hd := digitize_le false f.splits (some v)
      refine ⟨_, transformOne_clean _ _ _ _ _ _ _ hs, by omega, ?_, ?_⟩
      · simp [hs, hd]
      · constructor
        · intro h; omega
        · intro h; simp at h

/-- C05, finding: with the default `metric_missing=0` the index of a missing value is 0, the index of the first regular
bin. -/
theorem C05_default_collides (f : Fitted α) (sc : SpecialCodes α) (ms : MetricOpt) :
    transformIndices f sc ms (.int 0) [none] = [0] := by
  simp [transformIndices, transformOne_missing, MetricOpt.forIndices]

/-! ## C03 -/

/-- Both columns of the table. -/
def Fitted.column (f : Fitted α) (event : Bool) : List ℕ := if event then f.event else f.nonevent

/-- Rows for regular, special and missing values are the histogram of transform as soon as the regular rows are. -/
theorem histogram_core {sc : SpecialCodes α} {recs : List (Rec α)} (hsc : ProperCodes sc) (hk : KnownTargets recs)
    (hw : WholeWeights recs) (event : Bool) {nb : ℕ} {v0 : Option α → ℤ} {reg : List ℕ} (hlen : reg.length = nb)
    (hreg : ∀ k < nb, ((reg.getD k 0 : ℕ) : ℚ) =
      weight (splitData sc {} recs).clean fun r => r.y = some event ∧ v0 r.x = (k : ℤ))
    (hlt : ∀ r ∈ (splitData sc {} recs).clean, ∀ k : ℕ, v0 r.x = (k : ℤ) → k < nb) (k : ℕ) :
    (((reg ++ (specialCounts sc (splitData sc {} recs).special event ++
        [truncWeight ((splitData sc {} recs).missing.filter fun q => q.isEvent == event)])).getD k 0 : ℕ) : ℚ) =
      weight recs fun r => r.y = some event ∧
        assignSpecialMissing nb sc (fun i => (i : ℤ)) none none (v0 r.x) r.x = (k : ℤ) := by
  have hcl := specialCounts_length sc (splitData sc {} recs).special event
  have hperm := (C01_partition sc hsc recs hk).1
  rw [← weight_perm hperm, weight_append, weight_append]
  -- contributions of the three groups
  have hC : weight (splitData sc {} recs).clean (fun r => r.y = some event ∧
      assignSpecialMissing nb sc (fun i => (i : ℤ)) none none (v0 r.x) r.x = (k : ℤ)) =
      if k < nb then ((reg.getD k 0 : ℕ) : ℚ) else 0 := by
    have hcl' : ∀ r ∈ (splitData sc {} recs).clean,
        assignSpecialMissing nb sc (fun i => (i : ℤ)) none none (v0 r.x) r.x = v0 r.x := by
      intro r hr
      obtain ⟨-, h1, h2, h3⟩ := (C01_groups sc recs r).1.1 hr
      cases hx : r.x with
      | none => exact absurd hx h1
      | some v => rw [hx] at h3; exact assign_clean _ _ _ _ _ _ _ h3
    split_ifs with hk1
    · rw [hreg k hk1]
      refine weight_congr fun r hr => ?_
      rw [hcl' r hr]
    · refine weight_eq_zero fun r hr hp => ?_
      rw [hcl' r hr] at hp
      exact hk1 (hlt r hr k hp.2)
  have hS : weight (splitData sc {} recs).special (fun r => r.y = some event ∧
      assignSpecialMissing nb sc (fun i => (i : ℤ)) none none (v0 r.x) r.x = (k : ℤ)) =
      if nb ≤ k ∧ k < nb + sc.count then
        (((specialCounts sc (splitData sc {} recs).special event).getD (k - nb) 0 : ℕ) : ℚ) else 0 := by
    have hsp : ∀ r ∈ (splitData sc {} recs).special, IsSpecialValue sc r.x ∧ r.y ≠ none := fun r hr => by
      obtain ⟨h1, h2⟩ := (C01_groups sc recs r).2.1.1 hr
      exact ⟨h2, hk r h1⟩
    split_ifs with hk1
    · rw [specialCounts_getD hsc (fun r hr => hw r ((C01_groups sc recs r).2.1.1 hr).1) hsp nb v0 event
        (j := k - nb) (by omega)]
      refine weight_congr fun r hr => ?_
      rw [show nb + (k - nb) = k by omega]
    · refine weight_eq_zero fun r hr hp => ?_
      obtain ⟨i, hi, hix⟩ := assign_special (β := ℤ) hsc (hsp r hr).1
      rw [hix, Option.getD_none] at hp
      have h2 : nb + i = k := by exact_mod_cast hp.2
      exact hk1 ⟨by omega, by omega⟩
  have hM : weight (splitData sc {} recs).missing (fun r => r.y = some event ∧
      assignSpecialMissing nb sc (fun i => (i : ℤ)) none none (v0 r.x) r.x = (k : ℤ)) =
      if k = nb + sc.count then
        ((truncWeight ((splitData sc {} recs).missing.filter fun q => q.isEvent == event) : ℕ) : ℚ) else 0 := by
    have hms : ∀ r ∈ (splitData sc {} recs).missing, r.x = none ∧ r.y ≠ none := fun r hr => by
      obtain ⟨h1, h2⟩ := (C01_groups sc recs r).2.2.1 hr
      exact ⟨h2.resolve_right (hk r h1), hk r h1⟩
    split_ifs with hk1
    · rw [truncWeight_weight fun r hr => hw r ((C01_groups sc recs r).2.2.1 hr).1]
      refine weight_congr fun r hr => ?_
      rw [isEvent_beq r (hms r hr).2, (hms r hr).1, assign_missing]
      simp [hk1]
    · refine weight_eq_zero fun r hr hp => ?_
      rw [(hms r hr).1, assign_missing, Option.getD_none] at hp
      have h2 : nb + sc.count = k := by exact_mod_cast hp.2
      omega
  rw [hC, hS, hM]
  rcases Nat.lt_or_ge k nb with h1 | h1
  · rw [List.getD_append _ _ _ _ (by omega)]
    simp [h1, show ¬ nb ≤ k by omega, show ¬ k = nb + sc.count by omega]
  · rw [List.getD_append_right _ _ _ _ (by omega), hlen]
    rcases Nat.lt_or_ge k (nb + sc.count) with h2 | h2
    · rw [List.getD_append _ _ _ _ (by omega)]
      simp [show ¬ k < nb by omega, h1, h2, show ¬ k = nb + sc.count by omega]
    · rw [List.getD_append_right _ _ _ _ (by omega), hcl]
      rcases Nat.eq_or_lt_of_le h2 with h3 | h3
      · rw [show k - nb - sc.count = 0 by omega]
        simp [show ¬ k < nb by omega, ← h3]
      · obtain ⟨m, hm⟩ := Nat.exists_eq_succ_of_ne_zero (show k - nb - sc.count ≠ 0 by omega)
        rw [hm]
        simp [show ¬ k < nb by omega, show ¬ k < nb + sc.count by omega, show ¬ k = nb + sc.count by omega]

/-- The table of a fit is the histogram of transform. -/
theorem histogram_aux {cfg : PrebinCfg} {sc : SpecialCodes α} {solver : Solver} {st st' : PrebinState α}
    {recs : List (Rec α)} {splits : List α} {f : Fitted α} {c : SolverCfg} (hcat : cfg.catUser = false)
    (hsc : ProperCodes sc) (hk : KnownTargets recs) (hw : WholeWeights recs) (hsolver : Respects c solver)
    (hsort : splits.Pairwise (· ≤ ·)) (h : fitFrom cfg sc solver (splitData sc {} recs) st splits = .ok (st', f))
    (event : Bool) :
    (f.column event).length = f.splits.length + 1 + sc.count + 1 ∧
    ∀ k : ℕ, (((f.column event).getD k 0 : ℕ) : ℚ) =
      weight recs fun r => r.y = some event ∧ transformIndices f sc .empirical .empirical [r.x] = [(k : ℤ)] := by
  obtain ⟨-, hcol⟩ := fitFrom_column hcat (fun nev ev hn => hsolver.last nev ev hn)
    (fun r hr => ((C01_groups sc recs r).1.1 hr).2.1) (fun r hr => hw r ((C01_groups sc recs r).1.1 hr).1) hsort h
  obtain ⟨reg, heq, hlen, hreg⟩ := hcol event
  have hcl := specialCounts_length sc (splitData sc {} recs).special event
  change f.column event = _ at heq
  refine ⟨by rw [heq]; simp [hlen, hcl]; omega, ?_⟩
  intro k
  have hv0 : ∀ r ∈ (splitData sc {} recs).clean, (if r.x.isSome && !sc.codes.contains r.x then
      if (if f.splits.length = 0 then 0 else digitize false f.splits r.x) < f.splits.length + 1 then
        (((if f.splits.length = 0 then 0 else digitize false f.splits r.x) : ℕ) : ℤ) else -1 else -1) =
      (digitize false f.splits r.x : ℤ) := by
    intro r hr
    obtain ⟨-, h1, h2, h3⟩ := (C01_groups sc recs r).1.1 hr
    cases hx : r.x with
    | none => exact absurd hx h1
    | some v =>
      rw [hx] at h3
      rw [← transformOne_clean f.splits sc (fun i => (i : ℤ)) (-1) none none v h3]
      simp only [transformOne, assign_clean _ _ _ _ _ _ _ h3]
  have key := histogram_core hsc hk hw event (nb := f.splits.length + 1) (v0 := fun x =>
      if x.isSome && !sc.codes.contains x then
        if (if f.splits.length = 0 then 0 else digitize false f.splits x) < f.splits.length + 1 then
          (((if f.splits.length = 0 then 0 else digitize false f.splits x) : ℕ) : ℤ) else -1 else -1) hlen ?_ ?_ k
  · rw [heq, key]
    refine weight_congr fun r _ => ?_
    simp only [transformIndices, transformOne, List.map_cons, List.map_nil, List.cons.injEq, and_true,
      MetricOpt.forIndices]
  · intro j hj
    rw [hreg j]
    unfold weight
    congr 2
    refine List.filter_congr fun r hr => ?_
    obtain ⟨-, h1, h2, h3⟩ := (C01_groups sc recs r).1.1 hr
    have := isEvent_beq r h2 event
    beta_reduce
    rw [hv0 r hr, Bool.eq_iff_iff]
    simp only [Bool.and_eq_true, this, beq_iff_eq, decide_eq_true_eq, Nat.cast_inj]
  · intro r hr j hj
    beta_reduce at hj
    rw [hv0 r hr] at hj
    have := digitize_le false f.splits r.x
    have h2 : digitize false f.splits r.x = j := by exact_mod_cast hj
    omega

/-- C03: for a numerical variable, row `k` of the Non-event/Event column of the table is the weight (with unit weights:
the number) of the training records of that class which `transform(metric="indices")` with empirical options sends to
`k` — for regular, special and missing rows, and with as many rows as there are indices. -/
theorem C03_histogram {cfg : PrebinCfg} {sc : SpecialCodes α} {prebin : List (Rec α) → List α} {solver : Solver}
    {c : SolverCfg} {recs : List (Rec α)} {f : Fitted α} (hsc : ProperCodes sc) (hk : KnownTargets recs)
    (hw : WholeWeights recs) (hsolver : Respects c solver) (hsort : ∀ l, (prebin l).Pairwise (· ≤ ·))
    (h : fitNumerical cfg sc {} prebin solver recs = .ok f) (event : Bool) :
    (f.column event).length = f.splits.length + 1 + sc.count + 1 ∧
    ∀ k : ℕ, (((f.column event).getD k 0 : ℕ) : ℚ) =
      weight recs fun r => r.y = some event ∧ transformIndices f sc .empirical .empirical [r.x] = [(k : ℤ)] := by
  unfold fitNumerical at h
  cases hf : fitFrom { cfg with catUser := false } sc solver (splitData sc {} recs) {}
      (prebin (splitData sc {} recs).clean) with
  | error e => simp [hf, bind, Except.bind] at h
  | ok r =>
    simp only [hf, bind, Except.bind, pure, Except.pure, Except.ok.injEq] at h
    subst h
    exact histogram_aux rfl hsc hk hw hsolver (hsort _) hf event

theorem sorted_sortUserSplits {st st1 : PrebinState α} {l : List α} (h : sortUserSplits st = .ok (st1, l)) :
    l.Pairwise (· ≤ ·) := by
  unfold sortUserSplits at h
  split_ifs at h
  cases hf : st.fixed with
  | none =>
    simp only [hf, Except.ok.injEq, Prod.mk.injEq] at h
    rw [← h.2]
    exact List.pairwise_insertionSort (· ≤ ·) _
  | some fx =>
    simp only [hf, Except.ok.injEq, Prod.mk.injEq] at h
    rw [← h.2, List.pairwise_map]
    have : Std.Total (fun a b : α × Bool => a.1 ≤ b.1) := ⟨fun a b => le_total _ _⟩
    have : IsTrans (α × Bool) (fun a b : α × Bool => a.1 ≤ b.1) := ⟨fun a b c => le_trans⟩
    exact List.pairwise_insertionSort (fun a b : α × Bool => a.1 ≤ b.1) _

/-- C03 for a numerical variable with user splits (given in any order). -/
theorem C03_histogram_user_splits {cfg : PrebinCfg} {sc : SpecialCodes α} {solver : Solver} {c : SolverCfg}
    {st st' : PrebinState α} {recs : List (Rec α)} {f : Fitted α} (hsc : ProperCodes sc) (hk : KnownTargets recs)
    (hw : WholeWeights recs) (hsolver : Respects c solver)
    (h : fitUser cfg sc {} solver st recs = .ok (st', f)) (event : Bool) :
    (f.column event).length = f.splits.length + 1 + sc.count + 1 ∧
    ∀ k : ℕ, (((f.column event).getD k 0 : ℕ) : ℚ) =
      weight recs fun r => r.y = some event ∧ transformIndices f sc .empirical .empirical [r.x] = [(k : ℤ)] := by
  unfold fitUser at h
  split_ifs at h with h0
  · simp [throw, throwThe, MonadExceptOf.throw, bind, Except.bind] at h
  · cases hs : sortUserSplits st with
    | error e => simp [hs, bind, Except.bind, pure, Except.pure] at h
    | ok r =>
      simp only [hs, bind, Except.bind, pure, Except.pure] at h
      exact histogram_aux rfl hsc hk hw hsolver (sorted_sortUserSplits (st1 := r.1) (l := r.2) (by rw [hs])) h event

/-! ### a concrete fit (non-vacuity of C02, C03) -/

/-- A solver that keeps every pre-bin as a bin. -/
noncomputable def exSolver (div : ℝ → ℝ → ℝ) : Solver := fun nev ev =>
  if h : ev.length = nev.length ∧ 0 < nev.length then
    .feasible (Classical.choose (C08_every_partition_accepted { nonevent := nev, event := ev, div := div } ⟨h.1, h.2⟩ rfl rfl
      (fun _ => true) ⟨h.2, rfl⟩))
  else .other "UNKNOWN"

theorem exSolver_respects (div : ℝ → ℝ → ℝ) : Respects { div := div } (exSolver div) := by
  refine Or.inl ⟨0, fun nev ev => ?_⟩
  unfold exSolver
  split_ifs with h
  · exact (Classical.choose_spec (C08_every_partition_accepted { nonevent := nev, event := ev, div := div } ⟨h.1, h.2⟩ rfl
      rfl (fun _ => true) ⟨h.2, rfl⟩)).1
  · exact ⟨by decide, by decide⟩

theorem exSolver_solve (div : ℝ → ℝ → ℝ) (nev ev : List ℕ) (h : ev.length = nev.length ∧ 0 < nev.length) :
    solve nev.length (exSolver div nev ev) = ("FEASIBLE", List.replicate nev.length true) := by
  unfold exSolver
  rw [dif_pos h]
  have := (Classical.choose_spec (C08_every_partition_accepted { nonevent := nev, event := ev, div := div } ⟨h.1, h.2⟩ rfl
      rfl (fun _ => true) ⟨h.2, rfl⟩)).2
  simp only [solve, Prod.mk.injEq, true_and]
  rw [this]
  simp

theorem exPrebins : computePrebins {} (splitData exCodes {} exRecs).clean {} [3, 5, 7] =
    .ok ⟨{}, [3, 5, 7], [1, 2, 1, 1], [1, 1, 1, 3]⟩ := by
  rw [computePrebins]
  have h1 : prebinCounts false 4 [3, 5, 7] (splitData exCodes {} exRecs).clean false = [1, 2, 1, 1] := by decide +kernel
  have h2 : prebinCounts false 4 [3, 5, 7] (splitData exCodes {} exRecs).clean true = [1, 1, 1, 3] := by decide +kernel
  simp [prebinNumber, h1, h2, pureMask]

/-- The concrete table. -/
theorem exFit : fitNumerical {} exCodes {} (fun _ => [3, 5, 7]) (exSolver fun _ _ => 0) exRecs =
    .ok ⟨"FEASIBLE", [3, 5, 7], [1, 2, 1, 1, 0, 1, 1], [1, 1, 1, 3, 1, 0, 1]⟩ := by
  have h3 := exSolver_solve (fun _ _ => 0) [1, 2, 1, 1] [1, 1, 1, 3] (by decide)
  have hs : ∀ e, specialCounts exCodes (splitData exCodes {} exRecs).special e = if e then [1, 0] else [0, 1] := by
    decide +kernel
  have hm : ∀ e, truncWeight ((splitData exCodes {} exRecs).missing.filter fun q => q.isEvent == e) = 1 := by
    decide +kernel
  simp only [fitNumerical, fitFrom, fitCore, exPrebins, bind, Except.bind, pure, Except.pure, hs, hm]
  rw [show fitOptimizer false (exSolver fun _ _ => 0) [3, 5, 7] [1, 2, 1, 1] [1, 1, 1, 3] =
    ⟨"FEASIBLE", [3, 5, 7], [true, true, true, true]⟩ by
      rw [fitOptimizer, h3]; rfl]
  rfl

example : ProperCodes exCodes ∧ KnownTargets exRecs ∧ WholeWeights exRecs ∧
    Respects { div := fun _ _ => 0 } (exSolver fun _ _ => 0) ∧ [3, 5, 7].Pairwise (· ≤ ·) :=
  ⟨exCodes_proper, exRecs_known, exRecs_whole, exSolver_respects _, by decide⟩

/-! ## C02 -/

theorem list_sum_range (l : List ℕ) : l.sum = ∑ k ∈ range l.length, l.getD k 0 := by
  induction l with
  | nil => simp
  | cons a l ih => rw [List.sum_cons, List.length_cons, sum_range_succ', ih]; simp [Nat.add_comm]

theorem totals_aux {f : Fitted α} {sc : SpecialCodes α} (hsc : ProperCodes sc) {recs : List (Rec α)} {event : Bool}
    (hl : (f.column event).length = f.splits.length + 1 + sc.count + 1)
    (hh : ∀ k : ℕ, (((f.column event).getD k 0 : ℕ) : ℚ) =
      weight recs fun r => r.y = some event ∧ transformIndices f sc .empirical .empirical [r.x] = [(k : ℤ)]) :
    (((f.column event).sum : ℕ) : ℚ) = weight recs fun r => r.y = some event := by
  choose idx hidx using fun x => C05_no_confusion f sc hsc x
  rw [list_sum_range, Nat.cast_sum]
  simp only [hh]
  have key := sum_filter_classes recs (fun r => decide (r.y = some event)) (fun r => idx r.x) (f.column event).length
    (fun _ => true) (fun r _ => by rw [hl]; have := (hidx r.x).2.1; omega)
  simp only [if_true, Bool.and_true] at key
  unfold weight
  rw [← key]
  refine sum_congr rfl fun k _ => ?_
  congr 2
  refine List.filter_congr fun r _ => ?_
  beta_reduce
  rw [(hidx r.x).1, Bool.eq_iff_iff]
  simp

/-- C02: the columns of the table add up to the (weighted) number of non-event and event records of the training data. -/
theorem C02_totals {cfg : PrebinCfg} {sc : SpecialCodes α} {prebin : List (Rec α) → List α} {solver : Solver}
    {c : SolverCfg} {recs : List (Rec α)} {f : Fitted α} (hsc : ProperCodes sc) (hk : KnownTargets recs)
    (hw : WholeWeights recs) (hsolver : Respects c solver) (hsort : ∀ l, (prebin l).Pairwise (· ≤ ·))
    (h : fitNumerical cfg sc {} prebin solver recs = .ok f) :
    ((f.nonevent.sum : ℕ) : ℚ) = weight recs (fun r => r.y = some false) ∧
    ((f.event.sum : ℕ) : ℚ) = weight recs (fun r => r.y = some true) := by
  have h0 := C03_histogram hsc hk hw hsolver hsort h
  exact ⟨totals_aux hsc (h0 false).1 (h0 false).2, totals_aux hsc (h0 true).1 (h0 true).2⟩

/-- C02 with unit weights: the totals are the numbers of records. -/
theorem C02_totals_unit {cfg : PrebinCfg} {sc : SpecialCodes α} {prebin : List (Rec α) → List α} {solver : Solver}
    {c : SolverCfg} {recs : List (Rec α)} {f : Fitted α} (hsc : ProperCodes sc) (hk : KnownTargets recs)
    (hw : ∀ r ∈ recs, r.w = 1) (hsolver : Respects c solver) (hsort : ∀ l, (prebin l).Pairwise (· ≤ ·))
    (h : fitNumerical cfg sc {} prebin solver recs = .ok f) :
    f.nonevent.sum = recs.countP (fun r => r.y = some false) ∧ f.event.sum = recs.countP (fun r => r.y = some true) ∧
    f.nonevent.sum + f.event.sum = recs.length := by
  have hw' : WholeWeights recs := fun r hr => ⟨1, by simp [hw r hr]⟩
  obtain ⟨h1, h2⟩ := C02_totals hsc hk hw' hsolver hsort h
  have key : ∀ p : Rec α → Bool, ((recs.filter p).map fun r => r.w).sum = ((recs.countP p : ℕ) : ℚ) := by
    intro p
    rw [List.countP_eq_length_filter]
    have : (recs.filter p).map (fun r => r.w) = (recs.filter p).map fun _ => (1 : ℚ) :=
      List.map_congr_left fun r hr => hw r (List.mem_of_mem_filter hr)
    rw [this]
    simp
  unfold weight at h1 h2
  rw [key] at h1 h2
  have e1 : f.nonevent.sum = recs.countP (fun r => r.y = some false) := by exact_mod_cast h1
  have e2 : f.event.sum = recs.countP (fun r => r.y = some true) := by exact_mod_cast h2
  refine ⟨e1, e2, ?_⟩
  rw [e1, e2]
  clear h1 h2 e1 e2 key h hw hw'
  induction recs with
  | nil => rfl
  | cons r recs ih =>
    have := ih fun q hq => hk q (by simp [hq])
    have hr := hk r (by simp)
    rw [List.countP_cons, List.countP_cons, List.length_cons]
    cases hy : r.y with
    | none => exact absurd hy hr
    | some b => cases b <;> simp <;> omega

/-- C02 for user splits. -/
theorem C02_totals_user_splits {cfg : PrebinCfg} {sc : SpecialCodes α} {solver : Solver} {c : SolverCfg}
    {st st' : PrebinState α} {recs : List (Rec α)} {f : Fitted α} (hsc : ProperCodes sc) (hk : KnownTargets recs)
    (hw : WholeWeights recs) (hsolver : Respects c solver)
    (h : fitUser cfg sc {} solver st recs = .ok (st', f)) :
    ((f.nonevent.sum : ℕ) : ℚ) = weight recs (fun r => r.y = some false) ∧
    ((f.event.sum : ℕ) : ℚ) = weight recs (fun r => r.y = some true) := by
  have h0 := C03_histogram_user_splits hsc hk hw hsolver h
  exact ⟨totals_aux hsc (h0 false).1 (h0 false).2, totals_aux hsc (h0 true).1 (h0 true).2⟩

/-- C02, limit of the statement: with fractional sample weights every cell is truncated to an integer, so totals are lost
even if they are whole numbers (here the event weights add up to 3 and the Event column to 2). -/
theorem C02_fractional_weights_lost :
    ∃ (recs : List (Rec ℕ)) (f : Fitted ℕ), KnownTargets recs ∧ (∀ r ∈ recs, 0 ≤ r.w) ∧
      fitNumerical {} .none {} (fun _ => [2]) (fun _ _ => .other "UNKNOWN") recs = .ok f ∧
      weight recs (fun r => r.y = some true) = 3 ∧ f.event.sum = 2 := by
  set recs : List (Rec ℕ) := [⟨some 1, some true, 3 / 2⟩, ⟨some 1, some false, 3 / 2⟩, ⟨some 3, some true, 3 / 2⟩,
    ⟨some 3, some false, 3 / 2⟩] with hr
  refine ⟨recs, ⟨"UNKNOWN", [], [2, 0, 0], [2, 0, 0]⟩, ?_, ?_, ?_, ?_, rfl⟩
  · unfold KnownTargets; simp [hr]
  · intro r h
    simp only [hr, List.mem_cons, List.not_mem_nil, or_false] at h
    rcases h with rfl | rfl | rfl | rfl <;> norm_num
  · have h1 : ∀ e, prebinCounts false 2 [2] (splitData .none {} recs).clean e = [1, 1] := by decide +kernel
    have h0 : computePrebins {} (splitData .none {} recs).clean {} [2] = .ok ⟨{}, [2], [1, 1], [1, 1]⟩ := by
      rw [computePrebins]
      simp [prebinNumber, h1, pureMask]
    have hs : ∀ e, specialCounts .none (splitData .none {} recs).special e = [0] := by decide +kernel
    have hm : ∀ e, truncWeight ((splitData .none {} recs).missing.filter fun q => q.isEvent == e) = 0 := by
      decide +kernel
    simp only [fitNumerical, fitFrom, fitCore, h0, bind, Except.bind, pure, Except.pure, hs, hm]
    rfl
  · decide +kernel

/-! ## C06 -/

/-- C06: the refinement always returns (for every divergence, data and split list, if no split is flagged as fixed). -/
theorem C06_terminates (cfg : PrebinCfg) (recs : List (Rec α)) (st : PrebinState α) (hst : st.fixed = none)
    (splits : List α) : ∃ pb, computePrebins cfg recs st splits = .ok pb := by
  induction hn : splits.length using Nat.strong_induction_on generalizing splits st with
  | _ n ih =>
    rw [computePrebins]
    simp only [hst]
    split_ifs with h0 h1 h2
    · exact ⟨_, rfl⟩
    · exact ⟨_, rfl⟩
    · have hm := maskSplits_any (c := cfg.catUser) (n := splits.length) (by omega)
        (by simp [pureMask, length_prebinCounts, prebinNumber]) h1
      exact ih _ (hn ▸ length_select_lt hm.1 hm.2) _ rfl _ rfl
    · exact ⟨_, rfl⟩

/-- C06: what the refinement returns for the IV and JS divergences: a sub-list of the splits (same order) for which every
pre-bin `s[k-1] ≤ v < s[k]` has at least one event and one non-event, or no splits. -/
theorem C06_no_pure_prebin {recs : List (Rec α)} {st : PrebinState α} {splits : List α} {pb : Prebins α}
    (hsort : splits.Pairwise (· ≤ ·)) (hx : ∀ r ∈ recs, r.x ≠ none)
    (h : computePrebins {} recs st splits = .ok pb) :
    pb.splits.Sublist splits ∧ (pb.splits ≠ [] → ∀ k ≤ pb.splits.length, ∀ event : Bool,
      1 ≤ ((recs.filter fun r => r.isEvent == event && digitize false pb.splits r.x == k).map Rec.w).sum ∧
      ∃ r ∈ recs, r.isEvent = event ∧ ∃ v, r.x = some v ∧ InInterval pb.splits k v) := by
  obtain ⟨hsub, hcase⟩ := computePrebins_spec _ _ _ _ _ h
  refine ⟨hsub, fun hne k hk event => ?_⟩
  rcases hcase with ⟨h1, -⟩ | ⟨-, h2, h3, h4⟩
  · exact absurd h1 hne
  have h4 := h4 rfl
  have hpure : ∀ i < pb.splits.length + 1, pb.nonevent.getD i 0 ≠ 0 ∧ pb.event.getD i 0 ≠ 0 := by
    intro i hi
    rw [List.any_eq_false] at h4
    have l1 : pb.nonevent.length = pb.splits.length + 1 := by rw [h2, length_prebinCounts]; simp [prebinNumber]
    have l2 : pb.event.length = pb.splits.length + 1 := by rw [h3, length_prebinCounts]; simp [prebinNumber]
    have hmem : (pureMask pb.nonevent pb.event)[i]'(by simp [pureMask, l1, l2]; omega) ∈ pureMask pb.nonevent pb.event :=
      List.getElem_mem _
    have := h4 _ hmem
    simp only [pureMask, List.getElem_map, List.getElem_zip, id, Bool.or_eq_true, beq_iff_eq, not_or] at this
    rw [List.getD_eq_getElem _ _ (by omega), List.getD_eq_getElem _ _ (by omega)]
    exact this
  have hcnt : truncWeight (recs.filter fun r => r.isEvent == event && digitize false pb.splits r.x == k) ≠ 0 := by
    have hp := hpure k (by omega)
    rw [h2, h3] at hp
    simp only [prebinNumber, Bool.false_eq_true, if_false] at hp
    rw [prebinCounts_getD _ _ _ _ _ (by omega), prebinCounts_getD _ _ _ _ _ (by omega)] at hp
    cases event
    · exact hp.1
    · exact hp.2
  have hge : 1 ≤ ((recs.filter fun r => r.isEvent == event && digitize false pb.splits r.x == k).map Rec.w).sum := by
    unfold truncWeight at hcnt
    by_contra hlt
    exact hcnt (Nat.floor_eq_zero.2 (not_le.1 hlt))
  refine ⟨hge, ?_⟩
  have hne' : (recs.filter fun r => r.isEvent == event && digitize false pb.splits r.x == k) ≠ [] := by
    intro hc
    rw [hc] at hge
    norm_num at hge
  obtain ⟨r, hr⟩ := List.exists_mem_of_ne_nil _ hne'
  obtain ⟨hr1, hr2⟩ := List.mem_filter.1 hr
  simp only [Bool.and_eq_true, beq_iff_eq] at hr2
  refine ⟨r, hr1, hr2.1, ?_⟩
  cases hv : r.x with
  | none => exact absurd hv (hx r hr1)
  | some v =>
    refine ⟨v, rfl, (inInterval_iff (hsort.sublist hsub) v k).1 ?_⟩
    rw [← hv]; exact hr2.2

/-- C06: nothing is removed if no pre-bin is pure, or if the divergence tolerates pure pre-bins. -/
theorem C06_identity {cfg : PrebinCfg} (hcat : cfg.catUser = false) {recs : List (Rec α)} {st : PrebinState α}
    {splits : List α}
    (h : cfg.keepPure = true ∨ ∀ k ≤ splits.length, ∀ event : Bool,
      1 ≤ ((recs.filter fun r => r.isEvent == event && digitize false splits r.x == k).map Rec.w).sum) :
    ∃ pb, computePrebins cfg recs st splits = .ok pb ∧ pb.splits = splits := by
  rw [computePrebins]
  simp only
  split_ifs with h0 h1 h2
  · exact ⟨_, rfl, rfl⟩
  · exact ⟨_, rfl, rfl⟩
  · exfalso
    have h := h.resolve_left h2
    obtain ⟨b, hb, hbt⟩ := List.any_eq_true.1 h1
    obtain ⟨i, hi, rfl⟩ := List.mem_iff_getElem.1 hb
    simp only [hcat, prebinNumber, Bool.false_eq_true, if_false] at hi hbt
    have hi' : i < splits.length + 1 := by simpa [pureMask, length_prebinCounts] using hi
    simp only [pureMask, prebinCounts, List.getElem_map, List.getElem_zip, List.getElem_range, id, Bool.or_eq_true,
      beq_iff_eq] at hbt
    have hz : ∀ event : Bool, truncWeight (recs.filter fun r => r.isEvent == event && digitize false splits r.x == i) ≠ 0 := by
      intro event hc
      unfold truncWeight at hc
      rw [Nat.floor_eq_zero] at hc
      exact absurd hc (not_lt.2 (h i (by omega) event))
    rcases hbt with hbt | hbt
    · exact hz false hbt
    · exact hz true hbt
  · exact ⟨_, rfl, rfl⟩

/-- C06: no record is lost: the pre-bin counts add up to the clean records. -/
theorem C06_no_record_lost {cfg : PrebinCfg} (hcat : cfg.catUser = false) {recs : List (Rec α)} (hw : WholeWeights recs)
    {st : PrebinState α} {splits : List α} {pb : Prebins α} (h : computePrebins cfg recs st splits = .ok pb)
    (hne : pb.splits ≠ []) :
    ((pb.nonevent.sum : ℕ) : ℚ) = weight recs (fun r => r.isEvent = false) ∧
    ((pb.event.sum : ℕ) : ℚ) = weight recs (fun r => r.isEvent = true) := by
  obtain ⟨hsub, hcase⟩ := computePrebins_spec _ _ _ _ _ h
  rcases hcase with ⟨h1, -⟩ | ⟨-, h2, h3, h4⟩
  · exact absurd h1 hne
  have key : ∀ event : Bool, (((prebinCounts false (pb.splits.length + 1) pb.splits recs event).sum : ℕ) : ℚ) =
      weight recs (fun r => r.isEvent = event) := by
    intro event
    have hk := sum_filter_classes recs (fun r => r.isEvent == event) (fun r => digitize false pb.splits r.x)
      (pb.splits.length + 1) (fun _ => true) (fun r _ => Nat.lt_succ_of_le (digitize_le _ _ _))
    simp only [if_true, Bool.and_true] at hk
    have e : weight recs (fun r => r.isEvent = event) = ((recs.filter fun r => r.isEvent == event).map Rec.w).sum := by
      unfold weight
      congr 2
    rw [e, ← hk, list_sum_range, length_prebinCounts, Nat.cast_sum]
    refine sum_congr rfl fun i hi => ?_
    rw [prebinCounts_getD _ _ _ _ _ (mem_range.1 hi), truncWeight_whole (wholeWeights_filter hw _)]
  simp only [hcat, prebinNumber, Bool.false_eq_true, if_false] at h2 h3
  exact ⟨h2 ▸ key false, h3 ▸ key true⟩

/-- Refinement at work: the pre-bin `[2, 3)` is pure, its split is removed. -/
example : computePrebins {} [⟨some 1, some true, 1⟩, ⟨some 1, some false, 1⟩, ⟨some 2, some true, 1⟩, ⟨some 3, some false, 1⟩,
    ⟨some 3, some true, 1⟩] {} [2, 3] = .ok ⟨{ nRefinements := 1 }, [2], [1, 1], [1, 2]⟩ := by
  rw [computePrebins]
  have h1 : prebinCounts false 3 [2, 3] [⟨some 1, some true, 1⟩, ⟨some 1, some false, 1⟩, ⟨some 2, some true, 1⟩,
    ⟨some 3, some false, 1⟩, ⟨some 3, some true, 1⟩] false = [1, 0, 1] := by decide +kernel
  have h2 : prebinCounts false 3 [2, 3] [⟨some 1, some true, 1⟩, ⟨some 1, some false, 1⟩, ⟨some 2, some true, 1⟩,
    ⟨some 3, some false, 1⟩, ⟨some 3, some true, 1⟩] true = [1, 1, 1] := by decide +kernel
  simp only [prebinNumber, h1, h2, List.length_cons, List.length_nil, Bool.false_eq_true, if_false]
  rw [show (select [2, 3] ((maskSplits false (pureMask [1, 0, 1] [1, 1, 1])).map (!·))) = [2] by decide]
  rw [computePrebins]
  have h3 : prebinCounts false 2 [2] [⟨some 1, some true, 1⟩, ⟨some 1, some false, 1⟩, ⟨some 2, some true, 1⟩,
    ⟨some 3, some false, 1⟩, ⟨some 3, some true, 1⟩] false = [1, 1] := by decide +kernel
  have h4 : prebinCounts false 2 [2] [⟨some 1, some true, 1⟩, ⟨some 1, some false, 1⟩, ⟨some 2, some true, 1⟩,
    ⟨some 3, some false, 1⟩, ⟨some 3, some true, 1⟩] true = [1, 2] := by decide +kernel
  simp [prebinNumber, h3, h4, pureMask]

end OptBinning
