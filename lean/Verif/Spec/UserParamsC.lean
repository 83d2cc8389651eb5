import Verif.Model.UserParamsC
import Verif.Spec.UserParams

/-!
# Specification: user splits of a continuous target (C120)
-/
namespace OptBinning.Spec

/-- The cut a user split stands for: with `split_digits=d`, the split rounded to `d` digits (`rnd d`). -/
def asCutC {α : Type*} (p : ParamsC) (rnd : ℤ → α → α) (t : α) : α :=
  match p.splitDigits with
  | none => t
  | some d => rnd d t

end OptBinning.Spec
