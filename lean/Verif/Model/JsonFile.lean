import Verif.Model.Params

/-!
# Model of `to_json` and `read_json` with Python and numpy values and the file they write
(binning/binning.py:846-861, 1144-1149, 1180-1234, binning/continuous_binning.py:711-722, 982-1043,
binning/multiclass_binning.py:615-617, 878-924, binning/base.py:16-20)

`Model/Json.lean` treats the file as a record of attributes.  Here the attributes are Python or numpy values, `json.dump` (Python standard
library, default encoder) fails on numpy values other than `float64`, the file is truncated when it is opened for writing, and `read_json`
turns lists into arrays.  `np.array` of a list with different element types (which coerces them to a common type) is modelled without the
coercion.  Not modelled: categorical variables with `user_splits` and the text format of the file.
-/
namespace OptBinning

/-- Python and numpy values.  `npInt`: a numpy integer scalar; `npFloat`: `numpy.float64`, a subclass of Python's `float`; `ndarray`:
an array, as the list of its entries. -/
inductive PyVal
  | none
  | bool (b : Bool)
  | int (n : ℤ)
  | float (v : XQ)
  | str (s : String)
  | npInt (n : ℤ)
  | npFloat (v : XQ)
  | list (l : List PyVal)
  | dict (l : List (String × PyVal))
  | ndarray (l : List PyVal)

/-- JSON documents, as read back by `json.load`. -/
inductive Json
  | null
  | bool (b : Bool)
  | int (n : ℤ)
  | float (v : XQ)
  | str (s : String)
  | arr (l : List Json)
  | obj (l : List (String × Json))

mutual
/-- `json.dump` (`json.JSONEncoder.default` raises `TypeError` for numpy integers and arrays; NaN and infinities are written). -/
def PyVal.dump : PyVal → Except String Json
  | .none => .ok .null
  | .bool b => .ok (.bool b)
  | .int n => .ok (.int n)
  | .float v => .ok (.float v)
  | .str s => .ok (.str s)
  | .npInt _ => .error "TypeError"
  | .npFloat v => .ok (.float v)
  | .list l => match PyVal.dumpList l with
    | .ok js => .ok (.arr js)
    | .error e => .error e
  | .dict l => match PyVal.dumpDict l with
    | .ok js => .ok (.obj js)
    | .error e => .error e
  | .ndarray _ => .error "TypeError"
/-- The elements of a list. -/
def PyVal.dumpList : List PyVal → Except String (List Json)
  | [] => .ok []
  | v :: l => match PyVal.dump v with
    | .error e => .error e
    | .ok j => match PyVal.dumpList l with
      | .error e => .error e
      | .ok js => .ok (j :: js)
/-- The entries of a dictionary with string keys. -/
def PyVal.dumpDict : List (String × PyVal) → Except String (List (String × Json))
  | [] => .ok []
  | (k, v) :: l => match PyVal.dump v with
    | .error e => .error e
    | .ok j => match PyVal.dumpDict l with
      | .error e => .error e
      | .ok js => .ok ((k, j) :: js)
end

mutual
/-- `json.load`. -/
def Json.load : Json → PyVal
  | .null => .none
  | .bool b => .bool b
  | .int n => .int n
  | .float v => .float v
  | .str s => .str s
  | .arr l => .list (Json.loadList l)
  | .obj l => .dict (Json.loadDict l)
def Json.loadList : List Json → List PyVal
  | [] => []
  | j :: l => Json.load j :: Json.loadList l
def Json.loadDict : List (String × Json) → List (String × PyVal)
  | [] => []
  | (k, j) :: l => (k, Json.load j) :: Json.loadDict l
end

mutual
/-- `ndarray.tolist()`: entries become Python values. -/
def PyVal.toPy : PyVal → PyVal
  | .npInt n => .int n
  | .npFloat v => .float v
  | .ndarray l => .list (PyVal.toPyList l)
  | v => v
def PyVal.toPyList : List PyVal → List PyVal
  | [] => []
  | v :: l => PyVal.toPy v :: PyVal.toPyList l
end

mutual
/-- The entries of `np.array(list)`. -/
def PyVal.toNp : PyVal → PyVal
  | .int n => .npInt n
  | .float v => .npFloat v
  | .list l => .ndarray (PyVal.toNpList l)
  | v => v
def PyVal.toNpList : List PyVal → List PyVal
  | [] => []
  | v :: l => PyVal.toNp v :: PyVal.toNpList l
end

/-- `v.tolist()`; only arrays have this method. -/
def PyVal.tolist : PyVal → Except String PyVal
  | .ndarray l => .ok (.list (PyVal.toPyList l))
  | _ => .error "AttributeError"

/-- Length of a list. -/
def PyVal.len? : PyVal → Option ℕ
  | .list l => some l.length
  | _ => Option.none

/-- `np.array` of a list which contains lists of different lengths, or lists and other values, is a `ValueError`. -/
def ragged : List PyVal → Bool
  | [] => false
  | v :: l => l.any fun w => w.len? != v.len?

/-- `if isinstance(v, list): v = np.array(v)` (binning.py:1230-1232). -/
def PyVal.arrayIfList : PyVal → Except String PyVal
  | .list l => if ragged l then .error "ValueError" else .ok (.ndarray (PyVal.toNpList l))
  | v => .ok v

/-- The attributes of a binning table, by name of the constructor argument. -/
abbrev Attrs := List (String × PyVal)

/-- Which class the object has. -/
inductive Estimator
  | binary | continuous | multiclass
  deriving DecidableEq

/-- `to_json` writes these attributes with `.tolist()` (binning.py:1199-1205, continuous_binning.py:1001-1011, multiclass_binning.py:896-898),
and the others as they are. -/
def Estimator.arrays : Estimator → List String
  | .binary => ["splits", "n_nonevent", "n_event"]
  | .continuous => ["splits", "n_records", "sums", "stds", "min_target", "max_target", "n_zeros"]
  | .multiclass => ["splits", "n_event", "classes"]

/-- The names of the attributes, in the order written (binning.py:1194-1211, continuous_binning.py:996-1017, multiclass_binning.py:892-898);
also the arguments of the table's constructor (binning_statistics.py:465-467, 1577-1579, 1127). -/
def Estimator.keys : Estimator → List String
  | .binary => ["name", "dtype", "special_codes", "splits", "n_nonevent", "n_event", "min_x", "max_x", "categories", "cat_others", "user_splits"]
  | .continuous => ["name", "dtype", "special_codes", "splits", "n_records", "sums", "stds", "min_target", "max_target", "n_zeros", "min_x", "max_x",
      "categories", "cat_others", "user_splits"]
  | .multiclass => ["name", "special_codes", "splits", "n_event", "classes"]

/-- Contents of a file: a document written completely, or the beginning of one. -/
inductive Contents
  | complete (j : Json)
  | truncated

/-- The files, by path. -/
abbrev Files := String → Option Contents

/-- The part of an object used here: the flag `_is_fitted` and `_binning_table` (`None` before `fit`). -/
structure Saver where
  isFitted : Bool := false
  table : Option Attrs := none

/-- The dictionary built by `to_json` from the table (binning.py:1194-1211). -/
def toDict (E : Estimator) : Attrs → Except String Attrs
  | [] => .ok []
  | (k, v) :: l =>
    match (if k ∈ E.arrays then v.tolist else .ok v) with
    | .error e => .error e
    | .ok w =>
      match toDict E l with
      | .error e => .error e
      | .ok ws => .ok ((k, w) :: ws)

/-- `to_json(path)` (binning.py:1180-1214, continuous_binning.py:982-1020, multiclass_binning.py:878-901): result, and files afterwards.
The file is opened with "w", which truncates it, before `json.dump` writes. -/
def Saver.toJson (E : Estimator) (o : Saver) (path : Option String) (fs : Files) : Except String Unit × Files :=
  match path with
  | none => (.error "ValueError", fs)
  | some p =>
    if o.isFitted = false then (.error "NotFittedError", fs)
    else
      match o.table with
      | none => (.error "AttributeError", fs)
      | some t =>
        match toDict E t with
        | .error e => (.error e, fs)
        | .ok d =>
          match (PyVal.dict d).dump with
          | .error e => (.error e, Function.update fs p (some .truncated))
          | .ok j => (.ok (), Function.update fs p (some (.complete j)))

/-- binning.py:1230-1232 over all keys. -/
def convertAll : Attrs → Except String Attrs
  | [] => .ok []
  | (k, v) :: l =>
    match v.arrayIfList with
    | .error e => .error e
    | .ok w =>
      match convertAll l with
      | .error e => .error e
      | .ok ws => .ok ((k, w) :: ws)

/-- `read_json(path)` (binning.py:1216-1234, continuous_binning.py:1022-1043, multiclass_binning.py:903-924).  `OptimalBinning` does not check
for `None` (`open(None)` is a `TypeError`); the flag is set first.  A document with other keys is a `TypeError` of the table's constructor
(keys with default values may be missing there; files without them are not modelled). -/
def Saver.readJson (E : Estimator) (o : Saver) (path : Option String) (fs : Files) : Except String Unit × Saver :=
  match path with
  | none => if E = .binary then (.error "TypeError", { o with isFitted := true }) else (.error "ValueError", o)
  | some p =>
    match fs p with
    | none => (.error "FileNotFoundError", { o with isFitted := true })
    | some .truncated => (.error "JSONDecodeError", { o with isFitted := true })
    | some (.complete j) =>
      match j.load with
      | .dict d =>
        match convertAll d with
        | .error e => (.error e, { o with isFitted := true })
        | .ok t => if t.map Prod.fst = E.keys then (.ok (), { o with isFitted := true, table := some t }) else (.error "TypeError", { o with isFitted := true })
      | _ => (.error "AttributeError", { o with isFitted := true })

/-- `binning_table` (binning.py:1144-1149). -/
def Saver.binningTable (o : Saver) : Except String (Option Attrs) :=
  if o.isFitted then .ok o.table else .error "NotFittedError"

/-- The type of the array of values: integers or `float64` (arrays with missing values are `float64`). -/
inductive XArr
  | ints (l : List ℤ)
  | floats (l : List ℚ)

/-- `x_clean.min()` (binning.py:851); the array is not empty. -/
def XArr.min : XArr → PyVal
  | .ints l => .npInt (l.min?.getD 0)
  | .floats l => .npFloat (.num (l.min?.getD 0))

/-- `x_clean.max()` (binning.py:852). -/
def XArr.max : XArr → PyVal
  | .ints l => .npInt (l.max?.getD 0)
  | .floats l => .npFloat (.num (l.max?.getD 0))

/-- An array of counts. -/
def countArray (l : List ℕ) : PyVal := .ndarray (l.map fun (n : ℕ) => .npInt n)
/-- An array of floats. -/
def floatArray (l : List ℚ) : PyVal := .ndarray (l.map fun q => .npFloat (.num q))

/-- The table stored by `OptimalBinning.fit` for a numerical variable (binning.py:846-860); `categories` and `cat_others` are empty lists
(preprocessing.py:283-285). -/
def numTable (name : String) (special userSplits : PyVal) (x : XArr) (splits : List ℚ) (ne ev : List ℕ) : Attrs :=
  [("name", .str name), ("dtype", .str "numerical"), ("special_codes", special), ("splits", floatArray splits), ("n_nonevent", countArray ne),
    ("n_event", countArray ev), ("min_x", x.min), ("max_x", x.max), ("categories", .list []), ("cat_others", .list []), ("user_splits", userSplits)]

/-- The table stored by `OptimalBinning.fit` for a categorical variable without `user_splits`: `categories` is the array returned by
`categorical_transform` (preprocessing.py:24-29, 278), `others` the list `[]` without `cat_cutoff`, else an array (263-274). -/
def catTable (name : String) (special : PyVal) (categories : List PyVal) (others : PyVal) (splits : List ℚ) (ne ev : List ℕ) : Attrs :=
  [("name", .str name), ("dtype", .str "categorical"), ("special_codes", special), ("splits", floatArray splits), ("n_nonevent", countArray ne),
    ("n_event", countArray ev), ("min_x", .none), ("max_x", .none), ("categories", .ndarray categories), ("cat_others", others), ("user_splits", .none)]

/-- The table stored by `ContinuousOptimalBinning.fit` for a numerical variable (continuous_binning.py:711-722). -/
def numTableC (name : String) (special userSplits : PyVal) (x : XArr) (splits : List ℚ) (n : List ℕ) (sums stds lo hi : List XQ) (zeros : List ℕ) : Attrs :=
  [("name", .str name), ("dtype", .str "numerical"), ("special_codes", special), ("splits", floatArray splits), ("n_records", countArray n),
    ("sums", .ndarray (sums.map .npFloat)), ("stds", .ndarray (stds.map .npFloat)), ("min_target", .ndarray (lo.map .npFloat)),
    ("max_target", .ndarray (hi.map .npFloat)), ("n_zeros", countArray zeros), ("min_x", x.min), ("max_x", x.max), ("categories", .list []),
    ("cat_others", .list []), ("user_splits", userSplits)]

/-- The table stored by `MulticlassOptimalBinning.fit` (multiclass_binning.py:615-617); `classes = np.unique(y)` is an integer array. -/
def tableM (name : String) (special : PyVal) (splits : List ℚ) (ev : List (List ℕ)) (classes : List ℤ) : Attrs :=
  [("name", .str name), ("special_codes", special), ("splits", floatArray splits), ("n_event", .ndarray (ev.map countArray)),
    ("classes", .ndarray (classes.map .npInt))]

end OptBinning
