import Verif.Model.Fit

/-!
# Model of `to_json` / `read_json` and of the object state (`binning/binning.py`)

Numerical variables.  The file is the structure of the values written; JSON syntax, the list-to-array conversion
(binning.py:1230-1232), values `json.dump` cannot write, and floating point printing are not modelled here; see `Model/JsonFile.lean`.
-/
namespace OptBinning

variable {α : Type*} [LinearOrder α]

/-- The attributes of a `BinningTable` (binning_statistics.py:465-479) that are written to the file. -/
structure TableData (α : Type*) where
  name : String
  dtype : String
  special : SpecialCodes α
  splits : List α
  nonevent : List ℕ
  event : List ℕ
  minX : Option α
  maxX : Option α
  userSplits : Option (List α)

/-- The attributes of an `OptimalBinning` object read by `transform`, `status` and `binning_table`
(binning.py:458-531): constructor arguments `name`, `special_codes`, and fitted state, `None` before `fit`. -/
structure BinningObj (α : Type*) where
  name : String
  special : SpecialCodes α
  isFitted : Bool := false
  splitsOptimal : Option (List α) := none
  status : Option String := none
  nonevent : Option (List ℕ) := none
  event : Option (List ℕ) := none
  table : Option (TableData α) := none

/-- binning.py:844-877: what `fit` stores, given its result and the range of the clean values. -/
def BinningObj.store (o : BinningObj α) (f : Fitted α) (minX maxX : Option α) : BinningObj α :=
  { o with
    isFitted := true
    splitsOptimal := some f.splits
    status := some f.status
    nonevent := some f.nonevent
    event := some f.event
    table := some ⟨o.name, "numerical", o.special, f.splits, f.nonevent, f.event, minX, maxX, none⟩ }

/-- binning.py:1180-1214 `to_json` (numerical dtype): the file contents. -/
def BinningObj.toJson (o : BinningObj α) : Except String (TableData α) :=
  if o.isFitted then
    match o.table with
    | some t => .ok t
    | none => .error "AttributeError"
  else .error "NotFittedError"

/-- binning.py:1216-1234 `read_json`: marks the object as fitted and creates the binning table; no other attribute is
assigned. -/
def BinningObj.readJson (o : BinningObj α) (file : TableData α) : BinningObj α :=
  { o with isFitted := true, table := some file }

/-- binning.py:656-665, transformations.py:252-262 `transform(x, metric="indices")`: `len(None)` is a `TypeError`. -/
def BinningObj.transform (o : BinningObj α) (ms mm : MetricOpt) (x : List (Option α)) : Except String (List ℤ) :=
  if o.isFitted then
    match o.splitsOptimal with
    | none => .error "TypeError"
    | some s => .ok (x.map (transformOne s o.special (fun i => (i : ℤ)) (-1) ms.forIndices mm.forIndices))
  else .error "NotFittedError"

end OptBinning
