import Verif.Spec.Binning
import Mathlib.Data.Rat.Defs
import Mathlib.Algebra.Order.Ring.Rat
import Mathlib.Data.Int.Notation

/-!
# Specification: how a person reads the label of a bin (C108)
-/
namespace OptBinning.Spec

/-- The value of a digit. -/
def digitValue (c : Char) : ℕ := c.toNat - '0'.toNat

/-- The number written by a sequence of digits. -/
def readDigits (l : List Char) : ℕ := l.foldl (fun a c => 10 * a + digitValue c) 0

/-- The number written as digits, optionally followed by a point and digits. -/
def readUnsigned (l : List Char) : ℚ :=
  let frac := (l.dropWhile (· ≠ '.')).drop 1
  (readDigits (l.takeWhile (· ≠ '.')) : ℚ) + (readDigits frac : ℚ) / 10 ^ frac.length

/-- The number written in decimal notation, with an optional sign. -/
def readDecimal : List Char → ℚ
  | '-' :: l => - readUnsigned l
  | l => readUnsigned l

/-- `q` has at most `d` decimals. -/
def HasDecimals (d : ℕ) (q : ℚ) : Prop := ∃ z : ℤ, q * 10 ^ d = z

/-- Half a unit of the last of `d` decimals. -/
def halfUnit (d : ℕ) : ℚ := 1 / 2 / 10 ^ d

/-- A text of digits, signs and points. -/
def Numeral (l : List Char) : Prop := l ≠ [] ∧ ∀ c ∈ l, c ∈ "0123456789.-".toList

/-- The label says "from `lo` (included) to `hi` (excluded)", where `none` stands for no bound. -/
def Says (label : List Char) (lo hi : Option ℚ) : Prop :=
  ∃ a b : List Char, label = (if lo = none then '(' else '[') :: a ++ ", ".toList ++ b ++ ")".toList ∧
    (lo = none → a = "-inf".toList) ∧ (∀ q, lo = some q → Numeral a ∧ readDecimal a = q) ∧
    (hi = none → b = "inf".toList) ∧ (∀ q, hi = some q → Numeral b ∧ readDecimal b = q)

/-- Two numbers are equal up to half a unit of the last of `d` decimals. -/
def Shown (d : ℕ) (printed true_ : ℚ) : Prop := |printed - true_| ≤ halfUnit d ∧ (HasDecimals d true_ → printed = true_)

end OptBinning.Spec
