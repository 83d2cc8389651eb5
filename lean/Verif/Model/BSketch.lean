import Verif.Model.GK
import Verif.Model.Fit
import Verif.Spec.SketchHistory

/-! # Model of `binning/distributed/bsketch.py` (`sketch="gk"`)

The objects live in a heap, so that sharing of `GK` objects and of the `[nonevent, event]` lists after `merge` is visible.  All
sketches of a program have the same parameters (`OptimalBinningSketch.merge` requires it, binning_sketch.py:541-561).  Merging a sketch
with itself is not modelled faithfully and excluded from the statements. -/
namespace OptBinning
open Spec (SkOp)

/-! ## Numerical variables -/
section Numerical
variable {α : Type*} [LinearOrder α]

/-- bsketch.py:85-103: the attributes of a `BSketch`; `e` and `ne` are references to `GK` objects. -/
structure BObj where
  e : ℕ
  ne : ℕ
  missE : ℕ := 0
  missNe : ℕ := 0
  specE : ℕ := 0
  specNe : ℕ := 0
deriving DecidableEq, Repr

/-- The sketches of a program and the `GK` objects. -/
structure BWorld (α : Type*) where
  eps : ℚ
  sc : SpecialCodes α
  gks : List (GK α) := []
  objs : List BObj := []

/-- Dereference. -/
def BWorld.gk (w : BWorld α) (r : ℕ) : GK α := w.gks[r]?.getD { eps := w.eps }

/-- bsketch.py:98-100 `BSketch(...)`. -/
def BWorld.create (w : BWorld α) : BWorld α :=
  { w with
    gks := w.gks ++ [{ eps := w.eps }, { eps := w.eps }]
    objs := w.objs ++ [{ e := w.gks.length, ne := w.gks.length + 1 }] }

/-- `for v in vs: sketch.add(v)`. -/
def GK.addAll (k : GK α) (vs : List α) : GK α := vs.foldl GK.add k

/-- bsketch.py:124-131: the values of the clean records with `y == 1` (`ev`) or `~(y == 1)`. -/
def cleanValues (ev : Bool) (clean : List (Rec α)) : List α :=
  (clean.filter fun r => (r.y == some true) == ev).filterMap Rec.x

/-- bsketch.py:105-146 `add(x, y)` on the `i`-th sketch. -/
def BWorld.add (w : BWorld α) (i : ℕ) (recs : List (Rec α)) : BWorld α :=
  match w.objs[i]? with
  | none => w
  | some o =>
    let s := splitData w.sc {} recs
    let g1 := w.gks.set o.e ((w.gk o.e).addAll (cleanValues true s.clean))
    let w1 := { w with gks := g1 }
    let g2 := g1.set o.ne ((w1.gk o.ne).addAll (cleanValues false s.clean))
    { w with
      gks := g2
      objs := w.objs.set i { o with
        missE := o.missE + s.missing.countP (fun r => r.y == some true)
        missNe := o.missNe + s.missing.countP (fun r => r.y == some false)
        specE := o.specE + s.special.countP (fun r => r.y == some true)
        specNe := o.specNe + s.special.countP (fun r => r.y == some false) } }

/-- `a.merge(b)` of two different `GK` objects of the heap (gk.py:85-125 also compresses `b`). -/
def BWorld.mergeGK (w : BWorld α) (a b : ℕ) : BWorld α :=
  match (w.gk a).merge (w.gk b) with
  | .ok r => { w with gks := (w.gks.set b r.2).set a r.1 }
  | .error _ => w

/-- bsketch.py:176-228 `merge(bsketch)` and `_copy`. -/
def BWorld.merge (w : BWorld α) (i j : ℕ) : BWorld α :=
  match w.objs[i]?, w.objs[j]? with
  | some a, some b =>
    if (w.gk b.e).count = 0 ∧ (w.gk b.ne).count = 0 then w
    else if (w.gk a.e).count = 0 ∧ (w.gk a.ne).count = 0 then { w with objs := w.objs.set i b }
    else
      let w2 := (w.mergeGK a.e b.e).mergeGK a.ne b.ne
      { w2 with
        objs := w.objs.set i { a with
          missE := a.missE + b.missE
          missNe := a.missNe + b.missNe
          specE := a.specE + b.specE
          specNe := a.specNe + b.specNe } }
  | _, _ => w

/-- One operation. -/
def BWorld.step (w : BWorld α) : SkOp (Rec α) → BWorld α
  | .new => w.create
  | .add i recs => w.add i recs
  | .merge i j => w.merge i j

/-- A program with `BSketch` objects. -/
def BWorld.run (eps : ℚ) (sc : SpecialCodes α) (ops : List (SkOp (Rec α))) : BWorld α :=
  ops.foldl BWorld.step { eps := eps, sc := sc }

/-- bsketch.py:238-258 `n_event` (`true`), `n_nonevent` (`false`) of the `i`-th sketch. -/
def BWorld.total (w : BWorld α) (i : ℕ) (ev : Bool) : Option ℕ :=
  (w.objs[i]?).map fun o =>
    if ev then (w.gk o.e).count + o.missE + o.specE else (w.gk o.ne).count + o.missNe + o.specNe

/-- bsketch.py:230-236 `_mergeable` (`sketch="gk"`, codes compared as sets). -/
def mergeable (eps eps' : ℚ) (K K' : ℕ) (codes codes' : Option (List α)) : Bool :=
  let specialEq := match codes, codes' with
    | some c, some c' => c.all (c'.contains ·) && c'.all (c.contains ·)
    | _, _ => true
  eps == eps' && K == K' && specialEq

/-- bsketch.py:46-62, 148-174: one row of `bins(splits)`, for increasing `splits`; `len(sketch)` compresses the sketch first. -/
def GK.bins (k : GK α) (splits : List α) : List ℤ :=
  (List.range (splits.length + 1)).map fun i =>
    ((k.flush.entries.filter fun e => splits.countP (fun s => decide (s < e.value)) == i).map Entry.g).sum

end Numerical

/-! ## Categorical variables -/
section Categorical
variable {κ : Type} [LinearOrder κ]

/-- bsketch.py:285-305: the attributes of a `BCatSketch`; the dictionary maps a category to the reference of a list
`[nonevent, event]`. -/
structure CObj (κ : Type) where
  d : List (κ × ℕ) := []
  missE : ℕ := 0
  missNe : ℕ := 0
  specE : ℕ := 0
  specNe : ℕ := 0

/-- The categorical sketches of a program and the lists `[nonevent, event]`. -/
structure CWorld (κ : Type) where
  sc : SpecialCodes κ
  cells : List (ℕ × ℕ) := []
  objs : List (CObj κ) := []

/-- Dereference. -/
def CWorld.cell (w : CWorld κ) (r : ℕ) : ℕ × ℕ := w.cells[r]?.getD (0, 0)

/-- `self._d_categories[c][0] += a; self._d_categories[c][1] += b` for the reference `r`. -/
def bump (cells : List (ℕ × ℕ)) (r : ℕ) (p : ℕ × ℕ) : List (ℕ × ℕ) :=
  cells.set r ((cells[r]?.getD (0, 0)).1 + p.1, (cells[r]?.getD (0, 0)).2 + p.2)

/-- bsketch.py:326-336: one clean record. -/
def addCategory (st : List (ℕ × ℕ) × List (κ × ℕ)) (r : Rec κ) : List (ℕ × ℕ) × List (κ × ℕ) :=
  match r.x with
  | none => st
  | some c =>
    let p : ℕ × ℕ := if r.y == some false then (1, 0) else (0, 1)
    match st.2.lookup c with
    | some ref => (bump st.1 ref p, st.2)
    | none => (st.1 ++ [p], st.2 ++ [(c, st.1.length)])

/-- bsketch.py:307-347 `add(x, y)` on the `i`-th sketch. -/
def CWorld.add (w : CWorld κ) (i : ℕ) (recs : List (Rec κ)) : CWorld κ :=
  match w.objs[i]? with
  | none => w
  | some o =>
    let s := splitData w.sc {} recs
    let r := s.clean.foldl addCategory (w.cells, o.d)
    { w with
      cells := r.1
      objs := w.objs.set i { o with
        d := r.2
        missE := o.missE + s.missing.countP (fun r => r.y == some true)
        missNe := o.missNe + s.missing.countP (fun r => r.y == some false)
        specE := o.specE + s.special.countP (fun r => r.y == some true)
        specNe := o.specNe + s.special.countP (fun r => r.y == some false) } }

/-- bsketch.py:399-404: one category of the merged sketch. -/
def mergeCategory (st : List (ℕ × ℕ) × List (κ × ℕ)) (kr : κ × ℕ) : List (ℕ × ℕ) × List (κ × ℕ) :=
  match st.2.lookup kr.1 with
  | some ref => (bump st.1 ref (st.1[kr.2]?.getD (0, 0)), st.2)
  | none => (st.1, st.2 ++ [kr])

/-- bsketch.py:389-410 `merge(bcatsketch)`. -/
def CWorld.merge (w : CWorld κ) (i j : ℕ) : CWorld κ :=
  match w.objs[i]?, w.objs[j]? with
  | some a, some b =>
    let r := b.d.foldl mergeCategory (w.cells, a.d)
    { w with
      cells := r.1
      objs := w.objs.set i { a with
        d := r.2
        missE := a.missE + b.missE
        missNe := a.missNe + b.missNe
        specE := a.specE + b.specE
        specNe := a.specNe + b.specNe } }
  | _, _ => w

/-- One operation. -/
def CWorld.step (w : CWorld κ) : SkOp (Rec κ) → CWorld κ
  | .new => { w with objs := w.objs ++ [{}] }
  | .add i recs => w.add i recs
  | .merge i j => w.merge i j

/-- A program with `BCatSketch` objects. -/
def CWorld.run (sc : SpecialCodes κ) (ops : List (SkOp (Rec κ))) : CWorld κ := ops.foldl CWorld.step { sc := sc }

/-- The dictionary of the `i`-th sketch with its counts: `(category, nonevents, events)` in insertion order. -/
def CWorld.items (w : CWorld κ) (i : ℕ) : List (κ × ℕ × ℕ) :=
  ((w.objs[i]?.map CObj.d).getD []).map fun kr => (kr.1, w.cell kr.2)

/-- bsketch.py:426-446 `n_event`, `n_nonevent` of the `i`-th sketch. -/
def CWorld.total (w : CWorld κ) (i : ℕ) (ev : Bool) : Option ℕ :=
  (w.objs[i]?).map fun o =>
    if ev then ((w.items i).map fun t => t.2.2).sum + o.missE + o.specE
    else ((w.items i).map fun t => t.2.1).sum + o.missNe + o.specNe

/-- What `BCatSketch.bins()` returns: the categories with their counts in increasing order of event rate, and the categories
with the total counts of "others" (bsketch.py:349-387). -/
structure CatBins (κ : Type) where
  items : List (κ × ℕ × ℕ)
  others : List κ
  othersNe : ℕ
  othersE : ℕ

/-- bsketch.py:359-378: event rate of an item. -/
def itemRate (t : κ × ℕ × ℕ) : ℚ := (t.2.2 : ℚ) / ((t.2.1 + t.2.2 : ℕ) : ℚ)

/-- bsketch.py:349-387 `bins()`; `n` is `self.n`. -/
def catBins (cutoff : Option ℚ) (n : ℕ) (items : List (κ × ℕ × ℕ)) : CatBins κ :=
  let small (t : κ × ℕ × ℕ) : Bool := match cutoff with
    | none => false
    | some c => decide (((t.2.1 + t.2.2 : ℕ) : ℚ) / (n : ℚ) < c)
  { items := (items.filter fun t => !small t).insertionSort fun a b => itemRate a ≤ itemRate b
    others := (items.filter small).map Prod.fst
    othersNe := ((items.filter small).map fun t => t.2.1).sum
    othersE := ((items.filter small).map fun t => t.2.2).sum }

end Categorical
end OptBinning
