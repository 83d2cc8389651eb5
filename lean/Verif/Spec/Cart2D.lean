import Verif.Model.Cart2D
import Mathlib.Logic.Relation

/-!
# What a user knows about a decision tree on the grid of pre-bins
-/
namespace OptBinning.Spec

/-- The cell in row `r` and column `c` passes from node `p` to node `v`: to the left child if the split feature is at most the
threshold, otherwise to the right child. -/
def TreeNext (t : CartTree) (r c : ℕ) (p v : ℕ) : Prop :=
  p < t.left.length ∧
  if ((if t.feature.getD p 0 = 1 then (r : ℚ) else (c : ℚ)) ≤ t.threshold.getD p 0) then t.left.getD p 0 = (v : ℤ)
  else t.right.getD p 0 = (v : ℤ)

/-- The cell arrives at leaf `l` when it descends from the root. -/
def LeafAt (t : CartTree) (r c l : ℕ) : Prop :=
  Relation.ReflTransGen (TreeNext t r c) 0 l ∧ l < t.left.length ∧ t.left.getD l 0 = -1

/-- The two cells arrive at the same leaf. -/
def SameLeaf (t : CartTree) (r c r' c' : ℕ) : Prop := ∃ l, LeafAt t r c l ∧ LeafAt t r' c' l

/-- The block is a union of leaves: with a cell it contains every cell of the grid in the same leaf. -/
def UnionOfLeaves (t : CartTree) (m n : ℕ) (b : Block) : Prop :=
  ∀ r c r' c', r < m → c < n → r' < m → c' < n → SameLeaf t r c r' c' → b.Mem r c → b.Mem r' c'

/-- The block meets at least two leaves. -/
def TwoLeaves (t : CartTree) (b : Block) : Prop := ∃ r c r' c', b.Mem r c ∧ b.Mem r' c' ∧ ¬ SameLeaf t r c r' c'

end OptBinning.Spec
