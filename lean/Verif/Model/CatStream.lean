import Verif.Model.Stream
import Verif.Model.Categorical

/-! # Model of `OptimalBinningSketch` for a categorical variable (`binning/distributed/binning_sketch.py`)

The data are held by a `BCatSketch` (`Model/BSketch.lean`).  Objects that never received data are not modelled here
(`NotFittedError`, binning_sketch.py:581-582), nor are timings, `information` and the streaming statistics. -/
namespace OptBinning
variable {κ : Type} [LinearOrder κ]

/-- The constructor arguments that matter (binning_sketch.py:369-379); `keepPure` is `divergence in ("hellinger", "triangular")`. -/
structure CatStreamCfg where
  cutoff : Option ℚ := none
  heur : Bool := false
  maxPrebins : ℕ := 20
  keepPure : Bool := false

/-- Value of `_compute_cat_prebins`; the regrouped categories are not used by the caller (binning_sketch.py:735-737 binds a local name). -/
structure CatPrebins where
  splits : List ℚ
  nonevent : List ℕ
  event : List ℕ
deriving DecidableEq, Repr

/-- binning_sketch.py:786-798: the counts of the groups; the splits are compared with the positions in the *current* list of groups. -/
def regroupCounts (splits : List ℚ) (cs : List ℕ) : List ℕ :=
  (groupCodes false (splits.length + 1) (splits.map Int.ceil) cs).map List.sum

/-- binning_sketch.py:767: `self.cat_heuristic and len(categories) > self.max_n_prebins`. -/
def CatStreamCfg.big (cfg : CatStreamCfg) (nev : List ℕ) : Bool := cfg.heur && decide (cfg.maxPrebins < nev.length)

/-- binning_sketch.py:768-769 `mask_size`; `n` is `self._bsketch.n` (the quotient is exact here). -/
def CatStreamCfg.sizeMask (cfg : CatStreamCfg) (n : ℕ) (nev ev : List ℕ) : List Bool :=
  (nev.zip ev).map fun p => decide (((p.1 + p.2 : ℕ) : ℚ) < (n : ℚ) / (cfg.maxPrebins : ℚ))

/-- binning_sketch.py:765-770 `mask_remove`. -/
def CatStreamCfg.removeMask (cfg : CatStreamCfg) (n : ℕ) (nev ev : List ℕ) : List Bool :=
  if cfg.big nev then List.zipWith (· || ·) (pureMask nev ev) (cfg.sizeMask n nev ev) else pureMask nev ev

/-- binning_sketch.py:763-806 `_compute_cat_prebins`: 777 uses `mask_size`, which is unbound if 769 was not executed; with one group
`mask_remove[-2]` (782) does not exist; if 777 leaves nothing to remove the call repeats itself. -/
def catPrebins (cfg : CatStreamCfg) (n : ℕ) (splits : List ℚ) (nev ev : List ℕ) : Except String CatPrebins :=
  if (cfg.removeMask n nev ev).any id = true then
    if cfg.keepPure && cfg.heur && !cfg.big nev then .error "UnboundLocalError"
    else
      let rm := if cfg.keepPure && cfg.heur then cfg.sizeMask n nev ev else cfg.removeMask n nev ev
      if rm.length ≤ 1 then .error "IndexError"
      else if _hm : rm.length = splits.length + 1 ∧ 0 < splits.length ∧ rm.any id = true then
        let splits' := select splits ((maskSplits false rm).map (!·))
        catPrebins cfg n splits' (regroupCounts splits' nev) (regroupCounts splits' ev)
      else .error "RecursionError"
  else .ok ⟨splits, nev, ev⟩
termination_by splits.length
decreasing_by
  have h := maskSplits_any (c := false) (rm := rm) (n := splits.length) _hm.2.1 _hm.1 _hm.2.2
  exact length_select_lt h.1 h.2

/-- bsketch.py:384 `np.array([0.5 + i for i in range(len(categories) - 1)])`. -/
def catSplits (n : ℕ) : List ℚ := (List.range (n - 1)).map fun (i : ℕ) => 1/2 + (i : ℚ)

/-- The result of `solve`: the binning table with the categories, and the number of pre-bins. -/
structure CatStreamFit (κ : Type) where
  table : CatFitted κ
  nPrebins : ℕ

/-- binning_sketch.py:614-622 for one class: `total` is the number of all records of the class in the sketch. -/
def catStreamColumn (solution : List Bool) (nsplits : ℕ) (counts : List ℕ) (total : ℕ) (others : Option ℕ) (spec miss : ℕ) : List ℕ :=
  binInfo solution (if nsplits = 0 then [total] else counts) others [spec] miss

/-- binning_sketch.py:570-647, 702-741 `solve()` of the object with the `i`-th sketch (which is not changed). -/
def CWorld.solve (cfg : CatStreamCfg) (solver : Solver) (w : CWorld κ) (i : ℕ) : Except String (CatStreamFit κ) :=
  match w.objs[i]?, w.total i false, w.total i true with
  | some o, some tne, some te =>
    let b := catBins cfg.cutoff (tne + te) (w.items i)
    match catPrebins cfg (tne + te) (catSplits b.items.length) (b.items.map fun t => t.2.1) (b.items.map fun t => t.2.2) with
    | .error m => .error m
    | .ok pb =>
      let r := fitOptimizer false solver pb.splits pb.nonevent pb.event
      let oth (c : ℕ) : Option ℕ := if b.others.length = 0 then none else some c
      .ok { table := ⟨r.status, r.splits, b.items.map Prod.fst, b.others,
              catStreamColumn r.solution pb.splits.length pb.nonevent tne (oth b.othersNe) o.specNe o.missNe,
              catStreamColumn r.solution pb.splits.length pb.event te (oth b.othersE) o.specE o.missE⟩
            nPrebins := pb.splits.length + 1 }
  | _, _, _ => .error "AttributeError"

end OptBinning
