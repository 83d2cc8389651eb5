import Verif.Model.Json

/-!
# C38: saving and loading

The claim "an object restored with `read_json` from a file written by `to_json` transforms every value as the original
did" is false of the code; what is restored is the binning table only.
-/
set_option linter.unusedSectionVars false

namespace OptBinning

variable {α : Type*} [LinearOrder α]

/-- C38, the part that holds: the binning table (name, special codes, splits, counts, range) of the restored object is
that of the saved one.  (Which objects can be saved at all, and that a restored one cannot be saved again: C115.) -/
theorem C38_table_restored_partial (o fresh : BinningObj α) (f : Fitted α) (lo hi : Option α) :
    ∃ file, (o.store f lo hi).toJson = .ok file ∧ (fresh.readJson file).table = (o.store f lo hi).table :=
  ⟨_, rfl, rfl⟩

/-- C38: before `fit` (or `read_json`) nothing can be saved and nothing transformed, whatever the object holds. -/
theorem C38_not_fitted (o : BinningObj α) (h : o.isFitted = false) (ms mm : MetricOpt) (x : List (Option α)) :
    o.toJson = .error "NotFittedError" ∧ o.transform ms mm x = .error "NotFittedError" := by
  simp [BinningObj.toJson, BinningObj.transform, h]

/-- C38, finding: the claim fails for every fitted object and all inputs: a fresh object that read the file cannot
transform anything, while the original can. -/
theorem C38_restored_cannot_transform (name : String) (sc : SpecialCodes α) (o : BinningObj α) (f : Fitted α)
    (lo hi : Option α) (ms mm : MetricOpt) (x : List (Option α)) :
    ∃ file, (o.store f lo hi).toJson = .ok file ∧
      (∃ y, (o.store f lo hi).transform ms mm x = .ok y) ∧
      (({ name := name, special := sc } : BinningObj α).readJson file).transform ms mm x = .error "TypeError" :=
  ⟨_, rfl, ⟨_, rfl⟩, rfl⟩

/-- C38, finding: an object fitted before on other data silently keeps its old transformation after `read_json`, although
its binning table is the new one. -/
theorem C38_stale_transform (o o2 : BinningObj α) (f f2 : Fitted α) (lo hi lo2 hi2 : Option α) (ms mm : MetricOpt)
    (x : List (Option α)) :
    ∃ file, (o.store f lo hi).toJson = .ok file ∧
      ((o2.store f2 lo2 hi2).readJson file).table = (o.store f lo hi).table ∧
      ((o2.store f2 lo2 hi2).readJson file).transform ms mm x = (o2.store f2 lo2 hi2).transform ms mm x :=
  ⟨_, rfl, rfl, rfl⟩

/-- The old and the new transformation really differ: splits [5] against splits [1]. -/
example : ((({ name := "a", special := .none } : BinningObj ℕ).store ⟨"OPTIMAL", [5], [1, 1], [1, 1]⟩ none none).transform
      .empirical .empirical [some 3]).toOption = some [0] ∧
    ((({ name := "a", special := .none } : BinningObj ℕ).store ⟨"OPTIMAL", [1], [1, 1], [1, 1]⟩ none none).transform
      .empirical .empirical [some 3]).toOption = some [1] := by decide

end OptBinning
