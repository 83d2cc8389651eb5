import Verif.Model.Fit
import Mathlib.Data.Nat.Digits.Defs

/-!
# Model of the labels of the bins: `bin_str_format`, the column "Bin" of the binning tables and `transform(metric="bins")`
(binning_statistics.py:63-77, 381-385, 575-585, 1194-1200, 1660-1670; transformations.py:93-97, 152-173, 261-268, 308-316)

Texts are lists of characters.  Splits are finite rationals (a double is one; the sign of a negative zero is not modelled).
-/
namespace OptBinning

/-- Rounding of a non-negative number to an integer, ties to even (what `format(q, ".df")` does with `q * 10 ** d`). -/
def roundEven (q : ℚ) : ℕ :=
  let n := ⌊q⌋₊
  if q - n < 1 / 2 then n else if 1 / 2 < q - n then n + 1 else if n % 2 = 0 then n else n + 1

/-- A natural number in decimal. -/
def natText (n : ℕ) : List Char := if n = 0 then ['0'] else (Nat.digits 10 n).reverse.map Nat.digitChar

/-- `n` in decimal, with leading zeros up to `d` digits. -/
def padText (d n : ℕ) : List Char := List.replicate (d - (Nat.digits 10 n).length) '0' ++ (Nat.digits 10 n).reverse.map Nat.digitChar

/-- `"{0:.{1}f}".format(q, d)` of a finite number. -/
def fmtFixed (d : ℕ) (q : ℚ) : List Char :=
  let m := roundEven (|q| * 10 ^ d)
  (if q < 0 then ['-'] else []) ++ natText (m / 10 ^ d) ++ (if d = 0 then [] else '.' :: padText d (m % 10 ^ d))

/-- binning_statistics.py:63-77 `bin_str_format` for `bins = [-inf] + splits + [inf]`; label number `k`. -/
def binLabel (d : ℕ) (splits : List ℚ) (k : ℕ) : List Char :=
  let hi : List Char := if k < splits.length then fmtFixed d (splits.getD k 0) else ['i', 'n', 'f']
  if k = 0 then ['(', '-', 'i', 'n', 'f', ',', ' '] ++ hi ++ [')']
  else ['['] ++ fmtFixed d (splits.getD (k - 1) 0) ++ [',', ' '] ++ hi ++ [')']

/-- binning_statistics.py:582-585, transformations.py:165-168: the labels after those of the bins. -/
def extraLabels : SpecialCodes ℚ → List (List Char)
  | .dict gs => gs.map (fun g => g.1.toList) ++ [['M', 'i', 's', 's', 'i', 'n', 'g']]
  | _ => [['S', 'p', 'e', 'c', 'i', 'a', 'l'], ['M', 'i', 's', 's', 'i', 'n', 'g']]

/-- The column "Bin" of a binning table of a numerical variable (binning_statistics.py:575-585, 1194-1200, 1660-1670), without
the totals. -/
def binColumn (d : ℕ) (splits : List ℚ) (sc : SpecialCodes ℚ) : List (List Char) :=
  (List.range (splits.length + 1)).map (binLabel d splits) ++ extraLabels sc

/-- binning_statistics.py:381-385 `_check_build_parameters`, transformations.py:93-97 `_check_show_digits`. -/
def checkShowDigits (d : ℤ) : Except String ℕ := if 0 ≤ d ∧ d ≤ 8 then .ok d.toNat else .error "ValueError"

/-- `binning_table.build(show_digits=d)`, the column "Bin". -/
def buildLabels (d : ℤ) (splits : List ℚ) (sc : SpecialCodes ℚ) : Except String (List (List Char)) :=
  match checkShowDigits d with
  | .error e => .error e
  | .ok d => .ok (binColumn d splits sc)

/-- `transform(x, metric="bins", show_digits=d)` of a fitted numerical variable (transformations.py:255-263, 308-316): special and
missing values get their own label whatever `metric_special`, `metric_missing` (205-216, 220-223). -/
def transformBins (d : ℤ) (splits : List ℚ) (sc : SpecialCodes ℚ) (x : List (Option ℚ)) : Except String (List (List Char)) :=
  match checkShowDigits d with
  | .error e => .error e
  | .ok d => .ok (x.map (transformOne splits sc (fun i => (binColumn d splits sc).getD i []) [] none none))

end OptBinning
