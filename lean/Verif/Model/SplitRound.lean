import Verif.Model.UserParams
import Verif.Model.CatParams

/-!
# Model of `split_digits`: the rounding of the pre-binning splits

`binning/binning.py:1063-1072`, `binning/continuous_binning.py:888-889`.
-/
namespace OptBinning

/-- `np.round(q)`: the nearest integer, the even one of two (`np.rint`), on exact values. -/
def roundHalfEven (q : ℚ) : ℤ :=
  if Int.fract q < 1 / 2 then ⌊q⌋
  else if 1 / 2 < Int.fract q then ⌊q⌋ + 1
  else if ⌊q⌋ % 2 = 0 then ⌊q⌋ else ⌊q⌋ + 1

/-- `np.round(q, d)` (binning.py:1069): `rint(q * 10**d) / 10**d`, on exact values (the code computes it on doubles). -/
def npRound (d : ℤ) (q : ℚ) : ℚ := (roundHalfEven (q * 10 ^ d) : ℚ) / 10 ^ d

/-- `OptimalBinning(dtype="categorical", split_digits=…).fit(x, y)` (binning.py:879-896, 1045-1074): the splits of the pre-binning, which lie between the codes
0, 1, … of the categories, are rounded like those of a numerical variable. -/
def fitCatRounded {κ : Type} [LinearOrder κ] (p : Params) (cutoff : Option XQ) (sc : SpecialCodes κ) (rank : List (Rec κ) → List κ)
    (prebin : List (Rec ℚ) → List ℚ) (solver : Solver) (recs : List (Rec κ)) : Except String (CatFitted κ) :=
  fitCatParams p cutoff sc rank (fun l => (prebin l).map (p.rounded npRound)) solver recs

end OptBinning
