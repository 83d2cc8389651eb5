import Mathlib.Data.Rat.Floor
import Mathlib.Algebra.Order.Field.Rat
import Mathlib.Data.List.Sort

/-! # Model of `binning/distributed/gk.py` (floats as exact rationals, values of any linear order, `_sum` omitted) -/
namespace OptBinning
variable {α : Type*} [LinearOrder α]

/-- gk.py:16-34 `Entry`. -/
structure Entry (α : Type*) where
  value : α
  g : ℤ
  delta : ℤ
deriving DecidableEq, Repr

/-- gk.py:37-55: the attributes of a `GK` object (`mn`, `mx` are `none` for the initial infinities). -/
structure GK (α : Type*) where
  eps : ℚ
  entries : List (Entry α) := []
  incoming : List α := []
  count : ℕ := 0
  mn : Option α := none
  mx : Option α := none
deriving DecidableEq, Repr

/-- `int(1.0 / eps) + 1`, gk.py:55. -/
def compressEvery (eps : ℚ) : ℕ := ⌊1 / eps⌋.toNat + 1

/-- The loop of gk.py:144-180, on the not yet processed incoming entries and the not yet processed entries; the result is
`merged`.  `tn.g += t.g` is the update of the head of the remaining list. -/
def mergeLoop (thr : ℚ) : List (Entry α) → List (Entry α) → List (Entry α)
  | [], [] => []
  | [], [t] => [t]
  | [], t :: tn :: js =>
    if ((t.g + tn.g + tn.delta : ℤ) : ℚ) ≤ thr then mergeLoop thr [] ({ tn with g := tn.g + t.g } :: js)
    else t :: mergeLoop thr [] (tn :: js)
  | [t], [] => [t]
  | t :: tn :: is, [] =>
    if ((t.g + tn.g + tn.delta : ℤ) : ℚ) ≤ thr then mergeLoop thr ({ tn with g := tn.g + t.g } :: is) []
    else t :: mergeLoop thr (tn :: is) []
  | ti :: is, [tj] =>
    if ti.value < tj.value then
      if ((ti.g + tj.g + tj.delta : ℤ) : ℚ) ≤ thr then mergeLoop thr is [{ tj with g := tj.g + ti.g }]
      else { ti with delta := tj.g + tj.delta - ti.g } :: mergeLoop thr is [tj]
    else tj :: mergeLoop thr (ti :: is) []
  | ti :: is, tj :: tn :: js =>
    if ti.value < tj.value then
      if ((ti.g + tj.g + tj.delta : ℤ) : ℚ) ≤ thr then mergeLoop thr is ({ tj with g := tj.g + ti.g } :: tn :: js)
      else { ti with delta := tj.g + tj.delta - ti.g } :: mergeLoop thr is (tj :: tn :: js)
    else if ((tj.g + tn.g + tn.delta : ℤ) : ℚ) ≤ thr then mergeLoop thr (ti :: is) ({ tn with g := tn.g + tj.g } :: js)
    else tj :: mergeLoop thr (ti :: is) (tn :: js)
termination_by inc ents => inc.length + ents.length

/-- `sorted(incoming, key=lambda e: e.value)`. -/
def sortEntries (l : List (Entry α)) : List (Entry α) := l.insertionSort fun a b => a.value ≤ b.value

/-- gk.py:127-183 `merge_compress(entries)`. -/
def GK.mergeCompress (k : GK α) (extra : List (Entry α)) : GK α :=
  let thr : ℚ := 2 * k.eps * ((k.count : ℚ) - 1)
  let incoming := sortEntries (k.incoming.map (fun v => (⟨v, 1, 0⟩ : Entry α)) ++ extra)
  { k with entries := mergeLoop thr incoming k.entries, incoming := [] }

/-- gk.py:57-60 `__len__` (its effect on the object). -/
def GK.flush (k : GK α) : GK α := if k.incoming.length = 0 then k else k.mergeCompress []

/-- gk.py:62-74 `add`. -/
def GK.add (k : GK α) (v : α) : GK α :=
  let k1 : GK α := { k with
    incoming := k.incoming ++ [v]
    count := k.count + 1
    mn := some (k.mn.elim v fun m => if v < m then v else m)
    mx := some (k.mx.elim v fun m => if v > m then v else m) }
  if k1.count % compressEvery k1.eps = 0 then k1.mergeCompress [] else k1

/-- gk.py:205-211: the search loop; the entry before the first one with `g_sum + delta > bound`. -/
def searchEntries (bound : ℤ) : ℤ → Option α → List (Entry α) → Option α
  | _, prev, [] => prev
  | gsum, prev, e :: es => if gsum + e.g + e.delta > bound then prev else searchEntries bound (gsum + e.g) (some e.value) es

/-- gk.py:189-214 `quantile(q)`: the object afterwards and the value (`none` would be the infinite `_min`). -/
def GK.quantile (k : GK α) (q : ℚ) : Except String (GK α × Option α) :=
  if ¬ (0 ≤ q ∧ q ≤ 1) then .error "ValueError"
  else if k.count = 0 then .error "ValueError"
  else
    let k := k.flush
    let rank : ℤ := ⌊q * ((k.count : ℚ) - 1) + 1⌋
    let spread : ℤ := ⌊k.eps * ((k.count : ℚ) - 1)⌋
    .ok (k, (searchEntries (rank + spread) 0 none k.entries).or k.mn)

/-- gk.py:93-117: the entries that stand for the merged sketch `b` (already compressed). -/
def GK.asEntries (b : GK α) : List (Entry α) :=
  let spread : ℤ := ⌊b.eps * ((b.count : ℚ) - 1)⌋
  match b.entries, b.mn with
  | e0 :: es, some m =>
    let first : List (Entry α) := [⟨m, e0.g + e0.delta - 1 - spread, 0⟩]
    let mid : List (Entry α) := List.zipWith (fun t tp1 => ⟨t.value, tp1.g + (tp1.delta - t.delta), 0⟩) (e0 :: es) es
    let last := (e0 :: es).getLast (by simp)
    let lastE : List (Entry α) := [⟨last.value, spread + 1 - last.delta, 0⟩]
    (first ++ mid ++ lastE).filter fun e => decide (e.g > 0)
  | _, _ => []

/-- gk.py:85-125 `merge(gk)`: both objects afterwards (`gk` is compressed by the call). -/
def GK.merge (a b : GK α) : Except String (GK α × GK α) :=
  if a.eps ≠ b.eps then .error "Exception"
  else if b.count = 0 then .ok (a, b)
  else if a.count = 0 then
    .ok ({ a with entries := b.entries, incoming := b.incoming, count := b.count, mn := b.mn, mx := b.mx }, b)
  else
    let b := b.mergeCompress []
    let a1 : GK α := { a with
      count := a.count + b.count
      mn := match a.mn, b.mn with | some x, some y => some (min x y) | x, y => x.or y
      mx := match a.mx, b.mx with | some x, some y => some (max x y) | x, y => x.or y }
    .ok (a1.mergeCompress b.asEntries, b)

/-- The operations of one sketch that keep the stream of a single source.  `compress` is the effect on the sketch of being merged into
another sketch (gk.py:98 compresses the argument of `merge`). -/
inductive GKOp (α : Type*)
  | add (v : α)
  | len
  | quantile (q : ℚ)
  | compress

/-- Effect of an operation on the object. -/
def GK.step (k : GK α) : GKOp α → GK α
  | .add v => k.add v
  | .len => k.flush
  | .quantile q => match k.quantile q with | .ok r => r.1 | .error _ => k
  | .compress => k.mergeCompress []

/-- A history of operations on a new `GK(eps)`. -/
def GK.run (eps : ℚ) (ops : List (GKOp α)) : GK α := ops.foldl GK.step { eps := eps }

/-- The values added in a history. -/
def addedValues (ops : List (GKOp α)) : List α := ops.filterMap fun | .add v => some v | _ => none

/-- Operations of a sketch that also collects sketches built elsewhere with the same `eps`. -/
inductive MergeOp (α : Type*)
  | op (o : GKOp α)
  | merge (ops : List (GKOp α))

/-- Effect of such an operation. -/
def GK.mergeStep (k : GK α) : MergeOp α → GK α
  | .op o => k.step o
  | .merge ops => match k.merge (GK.run k.eps ops) with | .ok r => r.1 | .error _ => k

/-- A history of operations and merges on a new `GK(eps)`. -/
def GK.runMerge (eps : ℚ) (ops : List (MergeOp α)) : GK α := ops.foldl GK.mergeStep { eps := eps }

/-- All values that went into the sketch. -/
def collectedValues (ops : List (MergeOp α)) : List α :=
  ops.flatMap fun | .op o => addedValues [o] | .merge l => addedValues l

end OptBinning
