import Mathlib.Data.Rat.Floor
import Mathlib.Order.Defs.LinearOrder
import Mathlib.Data.List.Sort
import Mathlib.Tactic.Linarith
import Verif.Model.ModelData
import Verif.Spec.Table

/-!
# Model of the fit path of `OptimalBinning` (`binning/preprocessing.py`, `binning/binning.py`,
`binning/binning_statistics.py`) and of `transform` (`binning/transformations.py`)

Values of the variable live in an arbitrary linear order `α` (for numerical variables the non-NaN floats, for categorical
variables with user splits the integer codes).
-/
namespace OptBinning

variable {α : Type*} [LinearOrder α]

/-- preprocessing.py:193-201, transformations.py:117-125: the flattened codes. -/
def SpecialCodes.codes : SpecialCodes α → List (Option α)
  | .none => []
  | .list l => l
  | .dict gs => gs.flatMap Prod.snd

/-- transformations.py:136-144 `n_special`; binning_statistics.py:570-573. -/
def SpecialCodes.count : SpecialCodes α → ℕ
  | .none => 1
  | .list _ => 1
  | .dict gs => gs.length

/-- Result of `split_data`. -/
structure Split (α : Type*) where
  clean : List (Rec α)
  missing : List (Rec α)
  special : List (Rec α)

/-- preprocessing.py:188-191 `missing_mask`. -/
def Rec.isMissing (r : Rec α) : Bool := r.x.isNone || r.y.isNone

/-- preprocessing.py:216 `special_mask`; pandas `isin` matches NaN codes with NaN values. -/
def Rec.isSpecial (sc : SpecialCodes α) (r : Rec α) : Bool := sc.codes.contains r.x

/-- Optional arguments of `split_data` which filter the clean records. `outlier` is `detector.fit(..).get_support()`
as a function of the clean records. -/
structure SplitOpts (α : Type*) where
  outlier : Option (List (Rec α) → List Bool) := none
  fixLb : Option α := none
  fixUb : Option α := none

/-- NumPy Boolean-mask selection `l[mask]`. -/
def select {β : Type*} (l : List β) (mask : List Bool) : List β :=
  (l.zip mask).filterMap fun p => if p.2 then some p.1 else none

/-- preprocessing.py:251-261.  `fix_ub` is only looked at if `fix_lb` is not given. A NaN never satisfies a bound (the
clean records contain none). -/
def fixBounds (o : SplitOpts α) (clean : List (Rec α)) : List (Rec α) :=
  match o.fixLb, o.fixUb with
  | some lb, _ => clean.filter fun r => r.x.elim false fun v => decide (lb ≤ v)
  | none, some ub => clean.filter fun r => r.x.elim false fun v => decide (v ≤ ub)
  | none, none => clean

/-- preprocessing.py:45-285 `split_data` for a numerical variable (argument validation omitted; the three groups keep
the records together with target and weight, the code selects `x`, `y`, `sample_weight` with the same masks). -/
def splitData (sc : SpecialCodes α) (o : SplitOpts α) (recs : List (Rec α)) : Split α :=
  let clean := recs.filter fun r => !r.isMissing && !r.isSpecial sc
  let clean := match o.outlier with
    | none => clean
    | some det => select clean ((det clean).map (!·))
  { clean := fixBounds o clean
    missing := recs.filter fun r => r.isMissing
    special := recs.filter fun r => r.isSpecial sc }

/-- `np.digitize(v, splits, right)` for an increasing array `splits`: the number of splits at most (below) `v`; NaN is
put after all splits. -/
def digitize (right : Bool) (splits : List α) : Option α → ℕ
  | none => splits.length
  | some v => splits.countP fun s => if right then decide (s < v) else decide (s ≤ v)

/-- binning.py:1048-1049: `y0 = (y == 0)`, `y1 = ~y0`. -/
def Rec.isEvent (r : Rec α) : Bool := !(r.y == some false)

/-- `np.sum(sw[mask])` stored in an `int64` array (binning.py:1093-1094; binning_statistics.py:123-133 with the final
`astype(np.int64)` of 261): truncation (weights are non-negative). -/
def truncWeight (recs : List (Rec α)) : ℕ := ⌊(recs.map Rec.w).sum⌋₊

/-- binning.py:1088-1094: weights of the records with the given target class per pre-bin. -/
def prebinCounts (right : Bool) (nb : ℕ) (splits : List α) (recs : List (Rec α)) (event : Bool) : List ℕ :=
  (List.range nb).map fun i => truncWeight (recs.filter fun r => r.isEvent == event && digitize right splits r.x == i)

/-- Static options read by the pre-binning refinement.  `catUser` is `dtype == "categorical" and user_splits is not
None`; `keepPure` is `divergence in ("hellinger", "triangular")`. -/
structure PrebinCfg where
  catUser : Bool := false
  keepPure : Bool := false

/-- binning.py:1081-1086 `n_bins`. -/
def prebinNumber (catUser : Bool) (splits : List α) : ℕ := if catUser then splits.length else splits.length + 1

/-- binning.py:1104-1109: which splits are dropped, given which pre-bins are pure. -/
def maskSplits (catUser : Bool) (rm : List Bool) : List Bool :=
  if catUser then rm
  else rm.take (rm.length - 2) ++ [rm.getD (rm.length - 2) false || rm.getD (rm.length - 1) false]

/-- The mutable attributes `self.user_splits`, `self.user_splits_fixed`, `self._n_refinements`,
`self._flag_min_n_event_nonevent` (binning.py:1099-1125). -/
structure PrebinState (α : Type*) where
  userSplits : List α := []
  fixed : Option (List Bool) := none
  nRefinements : ℕ := 0
  flagMin : Bool := false

/-- Value returned by `_compute_prebins`, with the object state after the call. -/
structure Prebins (α : Type*) where
  st : PrebinState α
  splits : List α
  nonevent : List ℕ
  event : List ℕ

theorem length_select {β : Type*} (l : List β) (mask : List Bool) (h : mask.length = l.length) :
    (select l mask).length = mask.count true := by
  induction l generalizing mask with
  | nil => simp only [List.length_nil, List.length_eq_zero_iff] at h; subst h; simp [select]
  | cons a l ih =>
    cases mask with
    | nil => simp at h
    | cons b mask =>
      have := ih mask (by simpa using h)
      cases b <;> simp_all [select]

/-- binning.py:1096 `mask_remove = (n_nonevent == 0) | (n_event == 0)`. -/
def pureMask (nev ev : List ℕ) : List Bool := (nev.zip ev).map fun p => p.1 == 0 || p.2 == 0

theorem length_prebinCounts (right : Bool) (nb : ℕ) (splits : List α) (recs : List (Rec α)) (event : Bool) :
    (prebinCounts right nb splits recs event).length = nb := by simp [prebinCounts]

theorem maskSplits_any {c : Bool} {n : ℕ} {rm : List Bool} (hn : 0 < n) (hl : rm.length = if c then n else n + 1)
    (h : rm.any id = true) : (maskSplits c rm).length = n ∧ true ∈ maskSplits c rm := by
  cases c with
  | true => exact ⟨by simpa [maskSplits] using hl, by simpa [maskSplits] using h⟩
  | false =>
    simp only [Bool.false_eq_true, if_false] at hl
    refine ⟨by simp [maskSplits, hl]; omega, ?_⟩
    obtain ⟨b, hb, hbt⟩ := List.any_eq_true.1 h
    obtain ⟨i, hi, rfl⟩ := List.mem_iff_getElem.1 hb
    simp only [id] at hbt
    simp only [maskSplits, Bool.false_eq_true, if_false, List.mem_append, List.mem_singleton]
    by_cases h1 : i < rm.length - 2
    · left
      rw [← hbt]
      exact List.mem_iff_getElem.2 ⟨i, by simp; omega, by simp⟩
    · right
      have : i = rm.length - 2 ∨ i = rm.length - 1 := by omega
      rcases this with h2 | h2 <;> subst h2 <;> simp [List.getD, hi, hbt]

theorem length_select_lt {β : Type*} {l : List β} {mask : List Bool} (h : mask.length = l.length)
    (ht : true ∈ mask) : (select l (mask.map (!·))).length < l.length := by
  rw [length_select _ _ (by simpa using h)]
  have h1 : (mask.map (!·)).count true = mask.count false := by
    clear h ht
    induction mask with
    | nil => rfl
    | cons b m ih => cases b <;> simp [ih]
  have h2 : mask.count false + mask.count true = mask.length := by
    clear h ht h1
    induction mask with
    | nil => rfl
    | cons b m ih => cases b <;> simp <;> omega
  have h3 : 0 < mask.count true := List.count_pos_iff.2 ht
  omega

/-- binning.py:1076-1136 `_compute_prebins`.  The error value stands for the `ValueError` of 1117. -/
def computePrebins (cfg : PrebinCfg) (recs : List (Rec α)) (st : PrebinState α) (splits : List α) :
    Except String (Prebins α) :=
  if _hn : splits.length = 0 then .ok ⟨st, splits, [], []⟩
  else
    let nb := prebinNumber cfg.catUser splits
    let nev := prebinCounts cfg.catUser nb splits recs false
    let ev := prebinCounts cfg.catUser nb splits recs true
    if _hany : (pureMask nev ev).any id = true then
      if cfg.keepPure then .ok ⟨{ st with flagMin := true }, splits, nev, ev⟩
      else
        let mask := maskSplits cfg.catUser (pureMask nev ev)
        let st1 := { st with nRefinements := st.nRefinements + 1 }
        match st.fixed with
        | none => computePrebins cfg recs st1 (select splits (mask.map (!·)))
        | some fx =>
          if (fx.zipWith and mask).any id then .error "Fixed user_splits are removed"
          else
            computePrebins cfg recs
              { st1 with fixed := some (select fx (mask.map (!·))),
                         userSplits := select st.userSplits (mask.map (!·)) }
              (select splits (mask.map (!·)))
    else .ok ⟨st, splits, nev, ev⟩
termination_by splits.length
decreasing_by
  all_goals
    have h := maskSplits_any (c := cfg.catUser) (rm := pureMask nev ev) (n := splits.length) (by omega)
      (by simp [pureMask, nev, ev, nb, length_prebinCounts, prebinNumber]) _hany
    exact length_select_lt h.1 h.2

/-- What the external solver answers for given pre-bin counts. -/
abbrev Solver := List ℕ → List ℕ → SolverAnswer

/-- Options of the optimisation, as prepared by `_fit_optimizer` (binning.py:917-1015): the limits and the resolved trend
may depend on the pre-bin counts (automatic trend, minimum counts). -/
structure SolverCfg where
  opts : List ℕ → List ℕ → Opts := fun _ _ => {}
  div : ℝ → ℝ → ℝ
  test : Option (ℕ → ℕ → ℕ → ℕ → Bool) := none
  policy : Spec.Policy := .consecutive
  minDiff : ℚ := 0

/-- The arguments of `build_model` (binning.py:1020-1021). -/
def SolverCfg.input (c : SolverCfg) (nev ev : List ℕ) : BinaryInput :=
  { nonevent := nev, event := ev, div := c.div, test := c.test, policy := c.policy, minDiff := c.minDiff }

/-- The external CP solver respects the model built by `BinningCP` (`reg` is the regularisation coefficient). -/
def RespectsCP (c : SolverCfg) (reg : ℤ) (solver : Solver) : Prop :=
  ∀ nev ev, (solver nev ev).Valid (acceptsCP (c.opts nev ev) (c.input nev ev)) (objectiveCP (c.opts nev ev) (c.input nev ev) reg)

/-- The external MIP solver respects the model built by `BinningMIP`. -/
def RespectsMIP (c : SolverCfg) (reg : ℝ) (solver : Solver) : Prop :=
  ∀ nev ev, (solver nev ev).Valid (acceptsMIP (c.opts nev ev) (c.input nev ev)) (objectiveMIP (c.opts nev ev) (c.input nev ev) reg)

/-- `solver="cp"` or `solver="mip"`. -/
def Respects (c : SolverCfg) (solver : Solver) : Prop :=
  (∃ reg, RespectsCP c reg solver) ∨ ∃ reg, RespectsMIP c reg solver

/-- Result of `_fit_optimizer`. -/
structure OptimizerResult (α : Type*) where
  status : String
  splits : List α
  solution : List Bool

/-- binning.py:898-1043 `_fit_optimizer` (trend selection and option preparation are part of the solver's input and not
of this function). -/
def fitOptimizer (catUser : Bool) (solver : Solver) (splits : List α) (nev ev : List ℕ) : OptimizerResult α :=
  if nev.length ≤ 1 then ⟨"OPTIMAL", splits, List.replicate splits.length false⟩
  else
    let r := solve nev.length (solver nev ev)
    ⟨r.1, select splits (if catUser then r.2 else r.2.dropLast), r.2⟩

/-- binning_statistics.py:229-241: the loop of `bin_info` for one class. -/
def accumBins : List Bool → List ℕ → ℕ → List ℕ
  | true :: s, c :: cs, acc => (c + acc) :: accumBins s cs 0
  | false :: s, c :: cs, acc => accumBins s cs (acc + c)
  | _, _, _ => []

/-- binning_statistics.py:136-150 `target_info_special` for one class. -/
def specialCounts (sc : SpecialCodes α) (special : List (Rec α)) (event : Bool) : List ℕ :=
  match sc with
  | .dict gs => gs.map fun g => truncWeight (special.filter fun r => g.2.contains r.x && r.isEvent == event)
  | _ => [truncWeight (special.filter fun r => r.isEvent == event)]

/-- binning_statistics.py:225-261 `bin_info` for one class; `others` is the count of the "others" bin if there is one. -/
def binInfo (solution : List Bool) (counts : List ℕ) (others : Option ℕ) (special : List ℕ) (missing : ℕ) : List ℕ :=
  accumBins solution counts 0 ++ (if solution.length = 0 then [counts.getD 0 0] else []) ++
    others.toList ++ special ++ [missing]

/-- A fitted object: `splits`, `status`, and the Non-event/Event columns of the binning table. -/
structure Fitted (α : Type*) where
  status : String
  splits : List α
  nonevent : List ℕ
  event : List ℕ

/-- binning.py:804-860: refinement of the given pre-binning splits, optimisation, `bin_info`.  `others`, `special` and
`missing` are the counts of the "others" bin (if any), of the special rows and of the missing row per class. -/
def fitCore (cfg : PrebinCfg) (solver : Solver) (clean : List (Rec α)) (others : Bool → Option ℕ)
    (special : Bool → List ℕ) (missing : Bool → ℕ) (st : PrebinState α) (splits : List α) :
    Except String (PrebinState α × Fitted α) := do
  let pb ← computePrebins cfg clean st splits
  let r := fitOptimizer cfg.catUser solver pb.splits pb.nonevent pb.event
  let col (event : Bool) (counts : List ℕ) : List ℕ :=
    binInfo r.solution
      (if pb.splits.length = 0 then [truncWeight (clean.filter fun q => q.isEvent == event)] else counts)
      (others event) (special event) (missing event)
  pure (pb.st, ⟨r.status, r.splits, col false pb.nonevent, col true pb.event⟩)

/-- `fitCore` for a numerical variable. `splits` are the sorted splits of the pre-binning or the sorted user splits. -/
def fitFrom (cfg : PrebinCfg) (sc : SpecialCodes α) (solver : Solver) (s : Split α) (st : PrebinState α)
    (splits : List α) : Except String (PrebinState α × Fitted α) :=
  fitCore cfg solver s.clean (fun _ => none) (specialCounts sc s.special)
    (fun event => truncWeight (s.missing.filter fun q => q.isEvent == event)) st splits

/-- `OptimalBinning.fit` of a numerical variable without `user_splits` (binning.py:700-877); `prebin` is the external
pre-binning (binning.py:885-891), an arbitrary function of the clean records; rounding to `split_digits` (1068-1069) is
part of it. -/
def fitNumerical (cfg : PrebinCfg) (sc : SpecialCodes α) (so : SplitOpts α) (prebin : List (Rec α) → List α)
    (solver : Solver) (recs : List (Rec α)) : Except String (Fitted α) := do
  let s := splitData sc so recs
  let r ← fitFrom { cfg with catUser := false } sc solver s {} (prebin s.clean)
  pure r.2

/-- binning.py:789-802: sort the user splits, permute the flags with the same permutation, and store the permuted flags
(but not the sorted splits) in the object. The error value stands for the `ValueError` of 790. -/
def sortUserSplits (st : PrebinState α) : Except String (PrebinState α × List α) :=
  if st.userSplits.Nodup then
    match st.fixed with
    | none => .ok (st, st.userSplits.insertionSort (· ≤ ·))
    | some fx =>
      let ps := (st.userSplits.zip fx).insertionSort fun a b => a.1 ≤ b.1
      .ok ({ st with fixed := some (ps.map Prod.snd) }, ps.map Prod.fst)
  else .error "User splits are not unique."

/-- `OptimalBinning.fit` of a numerical variable with `user_splits` (binning.py:772-807); returns also the state of the
object, from which a second `fit` starts.  With an empty list of user splits the refinement, which also computes the
special and missing counts, is skipped (779-782) and `bin_info` fails with a `TypeError` on the counts `None`. -/
def fitUser (cfg : PrebinCfg) (sc : SpecialCodes α) (so : SplitOpts α) (solver : Solver) (st : PrebinState α)
    (recs : List (Rec α)) : Except String (PrebinState α × Fitted α) := do
  if st.userSplits.length = 0 then throw "TypeError"
  let s := splitData sc so recs
  let (st1, sorted) ← sortUserSplits st
  fitFrom { cfg with catUser := false } sc solver s st1 sorted

/-- `_apply_transform` (transformations.py:199-227) on one value: the assignments for special and missing values after
the regular bins.  `v0` is the value assigned so far, `nb` the number of regular bins, `mv i` is `metric_value[i]`;
`ms`/`mm` is `none` if special/missing values take their own `metric_value` and `some v` if they take the value `v`. -/
def assignSpecialMissing {β : Type*} (nb : ℕ) (sc : SpecialCodes α) (mv : ℕ → β) (ms mm : Option β) (v0 : β)
    (x : Option α) : β :=
  let v1 := match sc with
    | .none => v0
    | .list _ => if sc.codes.contains x then ms.getD (mv nb) else v0
    | .dict gs => (gs.zipIdx).foldl (fun v g => if g.1.2.contains x then ms.getD (mv (nb + g.2)) else v) v0
  if x.isNone then mm.getD (mv (nb + sc.count)) else v1

/-- `_apply_transform` (transformations.py:176-227) on one value, numerical case, generic in the kind of metric value;
`unk` is `cat_unknown`. -/
def transformOne {β : Type*} (splits : List α) (sc : SpecialCodes α) (mv : ℕ → β) (unk : β) (ms mm : Option β)
    (x : Option α) : β :=
  let nb := splits.length + 1
  let v0 := if x.isSome && !sc.codes.contains x then
      let i := if splits.length = 0 then 0 else digitize false splits x
      if i < nb then mv i else unk
    else unk
  assignSpecialMissing nb sc mv ms mm v0 x

/-- Kinds of `metric_special` / `metric_missing` (transformations.py:63-90). -/
inductive MetricOpt
  | empirical
  | int (k : ℤ)
  | float (q : ℚ)

/-- transformations.py:205-210, 220-225 with `metric == "indices"`. -/
def MetricOpt.forIndices : MetricOpt → Option ℤ
  | .empirical => none
  | .int k => some k
  | .float _ => none

/-- `transform(x, metric="indices", metric_special, metric_missing)` of a fitted numerical variable
(transformations.py:152-163, 230-316). -/
def transformIndices (f : Fitted α) (sc : SpecialCodes α) (ms mm : MetricOpt) (x : List (Option α)) : List ℤ :=
  x.map (transformOne f.splits sc (fun i => (i : ℤ)) (-1) ms.forIndices mm.forIndices)

end OptBinning
