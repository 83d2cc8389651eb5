import Verif.Spec.Table2D
import Verif.Props.Params2D
import Verif.Props.Metrics
import Verif.Props.Labels
import Verif.Lemmas.Plot2D

/-!
# C111: the table, the labels and the plot of `OptimalBinning2D`
-/
namespace OptBinning
open Finset Spec

set_option linter.unusedSectionVars false

variable {α β : Type} [DecidableEq α] [DecidableEq β]

open Classical in
/-- What is used of a fit. -/
structure TableFacts (e : Ext2D α β Bool) (f : Fitted2D α β) : Prop where
  lengths : f.event.length = f.boxes.length + 2 ∧ f.nonevent.length = f.boxes.length + 2
  nonempty : 0 < f.boxes.length
  rows : ∀ i < f.boxes.length, f.event.getD i 0 = binCount e f i true ∧ f.nonevent.getD i 0 = binCount e f i false
  positive : ∀ i < f.boxes.length, 0 < f.event.getD i 0 ∧ 0 < f.nonevent.getD i 0
  special : f.event.getD f.boxes.length 0 = specialCount2D e true ∧ f.nonevent.getD f.boxes.length 0 = specialCount2D e false
  missing : f.event.getD (f.boxes.length + 1) 0 = missingCount2D e true ∧ f.nonevent.getD (f.boxes.length + 1) 0 = missingCount2D e false
  totals : f.event.sum + f.nonevent.sum = e.recs.length +
    e.recs.countP fun r => decide ((r.x = none ∨ r.y = none ∨ r.z = none) ∧ (IsCode e.scx r.x ∨ IsCode e.scy r.y))
  transform : ∀ u v, Known f.axisX u → Known f.axisY v → ¬ IsCode e.scx (some u) → ¬ IsCode e.scy (some v) →
    ∀ i (hi : i < f.boxes.length), InBox f.axisX f.axisY f.boxes[i] u v →
    (∀ ms mm, f.eventRate e.scx e.scy ms mm (some u) (some v) = f.rate i) ∧
    ∀ ms mm, f.woe e.scx e.scy ms mm (some u) (some v) =
      Real.log (((f.nonevent.getD i 0 : ℕ) : ℝ) / ((f.nonevent.sum : ℕ) : ℝ) / (((f.event.getD i 0 : ℕ) : ℝ) / ((f.event.sum : ℕ) : ℝ)))
  shape : f.m = (prepare2D e.dx e.dy e.scx e.scy e.prebinX e.prebinY e.recs).m ∧ f.n = (prepare2D e.dx e.dy e.scx e.scy e.prebinX e.prebinY e.recs).n
  matrix : ∃ sel init, Covers f.m f.n sel ∧ f.P = pMatrix f.n init sel ∧ sel.length = f.boxes.length ∧
    ∀ u v, Known f.axisX u → Known f.axisY v → ∀ i (hi : i < f.boxes.length) (hi' : i < sel.length),
      InBox f.axisX f.axisY f.boxes[i] u v ↔ sel[i].block.Mem ((prepare2D e.dx e.dy e.scx e.scy e.prebinX e.prebinY e.recs).row v)
        ((prepare2D e.dx e.dy e.scx e.scy e.prebinX e.prebinY e.recs).col u)

section
variable {R : Type} [CommRing R] [LinearOrder R] [IsStrictOrderedRing R]

theorem tableFacts_job (j : Job2D α β R) (h : j.Succeeds) (e : Ext2D α β Bool) (h1 : j.recs = e.recs) (h2 : j.scx = e.scx)
    (h3 : j.scy = e.scy) (h4 : j.prepared = prepare2D e.dx e.dy e.scx e.scy e.prebinX e.prebinY e.recs) (st : String) (rf : ℕ) :
    TableFacts e { j.fit with status := st, refinements := rf } := by
  obtain ⟨sel, hf⟩ := j.facts h
  have hl : j.fit.boxes.length = sel.length := by rw [hf.boxes]; simp
  have hsp := C44_special_missing_rows j h
  have hlim := (C45_limits j h).1
  constructor
  · exact ⟨hsp.1, hsp.2.1⟩
  · show 0 < j.fit.boxes.length
    obtain ⟨i, hi, -⟩ := hf.covers.exists_unique (r := 0) (c := 0) (Nat.succ_pos _) (Nat.succ_pos _)
    omega
  · intro i hi
    have := C44_rows j h hi
    have key : ∀ r, InBin2D j i r ↔ InBinOf e j.fit.axisX j.fit.axisY j.fit.boxes i r := by
      intro r
      simp only [InBin2D, InBinOf, h2, h3]
    unfold binCount
    rw [← h1]
    exact ⟨this.1.trans (List.countP_congr fun r _ => by simp only [decide_eq_true_eq]; rw [key r]),
      this.2.trans (List.countP_congr fun r _ => by simp only [decide_eq_true_eq]; rw [key r])⟩
  · exact fun i hi => ⟨(hlim i hi).1, (hlim i hi).2.1⟩
  · unfold specialCount2D
    rw [← h1, ← h2, ← h3]
    refine ⟨?_, ?_⟩
    · refine hsp.2.2.2.1.trans (List.countP_congr fun r _ => by simp)
    · refine hsp.2.2.1.trans (List.countP_congr fun r _ => by simp)
  · unfold missingCount2D
    rw [← h1]
    refine ⟨?_, ?_⟩
    · refine hsp.2.2.2.2.2.trans (List.countP_congr fun r _ => by simp)
    · refine hsp.2.2.2.2.1.trans (List.countP_congr fun r _ => by simp)
  · rw [← h1, ← h2, ← h3]
    convert C44_totals j h
  · intro u v hu hv hx hy i hi hb
    rw [← h2] at hx ⊢
    rw [← h3] at hy ⊢
    exact ⟨fun ms mm => C43_transform_event_rate j h hu hv hx hy ms mm hi hb, fun ms mm => C43_transform_woe j h hu hv hx hy ms mm hi hb⟩
  · rw [← h4]; exact ⟨hf.m, hf.n⟩
  · obtain ⟨init, hP⟩ := hf.P
    refine ⟨sel, init, ?_, ?_, hl.symm, ?_⟩
    · show Covers j.fit.m j.fit.n sel
      rw [hf.m, hf.n]; exact hf.covers
    · show j.fit.P = pMatrix j.fit.n init sel
      rw [hf.n]; exact hP
    · intro u v hu hv i hi hi'
      rw [← h4]
      exact hf.inBox h.wellFormed hu hv _ hi'

end

theorem tableFacts {p : Params2DB} {e : Ext2D α β Bool} (he : Good2D e) {f : Fitted2D α β} (h : fitArgs2D p e = .ok f)
    (hs : f.status = "OPTIMAL" ∨ f.status = "FEASIBLE") : TableFacts e f := by
  have run : ∀ {R : Type} [CommRing R] [LinearOrder R] [IsStrictOrderedRing R] (j : CartJob2D α β R), j.recs = e.recs → j.scx = e.scx → j.scy = e.scy →
      j.prepared = prepare2D e.dx e.dy e.scx e.scy e.prebinX e.prebinY e.recs → j.theTree.WellFormed → (∀ o p, (j.solver o p).Valid o p) →
      runJob2D p.strategy j = .ok f → TableFacts e f := by
    intro R _ _ _ j h1 h2 h3 h4 ht hv hr
    rcases runJob2D_ok hr with ⟨-, rfl⟩ | ⟨-, rfl⟩
    · obtain ⟨s, hs', st, rf, e'⟩ := j.transfer ⟨h4 ▸ he.prepared, ht, fun p => hv _ p, hs⟩
      rw [e']
      exact tableFacts_job (j.grid s) hs' e h1 h2 h3 h4 st rf
    · exact tableFacts_job j.toJob2D ⟨h4 ▸ he.prepared, fun p => hv _ p, hs⟩ e h1 h2 h3 h4 _ _
  rcases (fitArgs2D_ok h).2 with ⟨-, h'⟩ | ⟨-, h'⟩
  · exact run (p.jobCP e) rfl rfl rfl rfl (he.tree _) he.cp h'
  · exact run (p.jobMIP e) rfl rfl rfl rfl (he.tree _) he.mip h'

/-! ### the rows -/

theorem sum_zipWith (l l' : List ℕ) (hl : l.length = l'.length) :
    (List.zipWith (fun ne e => (⟨ne, e⟩ : Row)) l l').map (fun r => r.event) = l' ∧
    (List.zipWith (fun ne e => (⟨ne, e⟩ : Row)) l l').map (fun r => r.nonevent) = l := by
  induction l generalizing l' with
  | nil => cases l' with
    | nil => exact ⟨rfl, rfl⟩
    | cons => simp at hl
  | cons a l ih => cases l' with
    | nil => simp at hl
    | cons b l' =>
      obtain ⟨h1, h2⟩ := ih l' (by simpa using hl)
      exact ⟨by simp [h1], by simp [h2]⟩

theorem TableFacts.columns {e : Ext2D α β Bool} {f : Fitted2D α β} (t : TableFacts e f) :
    f.rows.map (fun r => r.event) = f.event ∧ f.rows.map (fun r => r.nonevent) = f.nonevent :=
  sum_zipWith _ _ (by rw [t.lengths.1, t.lengths.2])

theorem TableFacts.rows_length {e : Ext2D α β Bool} {f : Fitted2D α β} (t : TableFacts e f) : f.rows.length = f.boxes.length + 2 := by
  rw [Fitted2D.rows, List.length_zipWith, t.lengths.1, t.lengths.2, min_self]

theorem TableFacts.row {e : Ext2D α β Bool} {f : Fitted2D α β} (t : TableFacts e f) {i : ℕ} (hi : i < f.rows.length) :
    f.rows[i] = ⟨f.nonevent.getD i 0, f.event.getD i 0⟩ := by
  have hl := t.rows_length
  simp only [Fitted2D.rows, List.getElem_zipWith]
  rw [List.getD_eq_getElem _ _ (by rw [t.lengths.2]; omega), List.getD_eq_getElem _ _ (by rw [t.lengths.1]; omega)]

theorem TableFacts.events {e : Ext2D α β Bool} {f : Fitted2D α β} (t : TableFacts e f) :
    Spec.events f.rows = f.event.sum ∧ Spec.nonevents f.rows = f.nonevent.sum :=
  ⟨congrArg List.sum t.columns.1, congrArg List.sum t.columns.2⟩

theorem TableFacts.mixed {e : Ext2D α β Bool} {f : Fitted2D α β} (t : TableFacts e f) : f.rows.filter Spec.Row.mixed ≠ [] := by
  intro h
  have h0 : 0 < f.rows.length := by rw [t.rows_length]; omega
  have hm : f.rows[0].mixed = true := by
    rw [t.row h0]
    exact (mixed_iff _).2 ⟨(t.positive 0 t.nonempty).1, (t.positive 0 t.nonempty).2⟩
  have : f.rows[0] ∈ f.rows.filter Spec.Row.mixed := List.mem_filter.2 ⟨List.getElem_mem _, hm⟩
  rw [h] at this
  cases this

theorem TableFacts.build {e : Ext2D α β Bool} {f : Fitted2D α β} (t : TableFacts e f) (sort : List Row → List Row) :
    ∃ b, f.build sort = .ok b ∧ buildTable sort f.rows = .ok b.stats ∧ b.count = f.rows.map (fun r => r.event + r.nonevent) ∧
      b.share = b.count.map (fun (c : ℕ) => (c : ℝ) / ((f.nonevent.sum + f.event.sum : ℕ) : ℝ)) ∧
      b.totals = ⟨f.nonevent.sum + f.event.sum, f.nonevent.sum, f.event.sum, (f.event.sum : ℝ) / ((f.nonevent.sum + f.event.sum : ℕ) : ℝ), b.stats.tIv, b.stats.tJs⟩ ∧
      b.D = (fun q => f.cellRate (f.P q)) ∧ b.W = fun q => Real.log (1 / f.cellRate (f.P q) - 1) + Real.log ((f.event.sum : ℝ) / (f.nonevent.sum : ℝ)) := by
  have hb : buildTable sort f.rows = .ok (buildCore sort f.rows) := by unfold buildTable; rw [if_neg t.mixed]
  refine ⟨_, by unfold Fitted2D.build; rw [hb], hb, rfl, rfl, rfl, rfl, rfl⟩

theorem sum_split {l : List ℕ} {n : ℕ} (hl : l.length = n + 2) : l.sum = (∑ i ∈ range n, l.getD i 0) + l.getD n 0 + l.getD (n + 1) 0 := by
  have : l.sum = ∑ i ∈ range l.length, l.getD i 0 := by
    rw [Finset.sum_range]
    conv_lhs => rw [← List.ofFn_get l, List.sum_ofFn]
    refine Finset.sum_congr rfl fun i _ => ?_
    rw [List.getD_eq_getElem _ _ i.2]; rfl
  rw [this, hl, Finset.sum_range_succ, Finset.sum_range_succ]

/-- Divergence terms of a bin with event share `p` and non-event share `q`, as documented. -/
noncomputable def Spec.ivTerm (p q : ℝ) : ℝ := (p - q) * Real.log (p / q)
noncomputable def Spec.jsTerm (p q : ℝ) : ℝ := (p * Real.log (p / ((p + q) / 2)) + q * Real.log (q / ((p + q) / 2))) / 2

theorem js_pos {p q : ℝ} (hp : 0 < p) (hq : 0 < q) : jensenShannon p q = jsTerm p q := by
  unfold jensenShannon jsTerm kullbackLeibler xlogy
  simp only [if_neg hp.ne', if_neg hq.ne']

theorem iv_term (p q : ℝ) : jeffrey p q = ivTerm p q := by
  unfold jeffrey ivTerm xlogy
  by_cases h : p - q = 0
  · simp [h]
  · rw [if_neg h]

/-- C111: the binning table of every fit can be built.  Its totals add up the bins, Special and Missing (records which are both count
twice); the row of a bin shows the number of records of the bin, their share of the total, the event rate, the weight of evidence,
and the terms of the information value and of the Jensen-Shannon divergence. -/
theorem C111_rows (p : Params2DB) (e : Ext2D α β Bool) (he : Good2D e) {f : Fitted2D α β} (h : fitArgs2D p e = .ok f)
    (hs : f.status = "OPTIMAL" ∨ f.status = "FEASIBLE") (sort : List Row → List Row) :
    ∃ b : Built2D, f.build sort = .ok b ∧
    b.totals.event = (∑ i ∈ range f.boxes.length, binCount e f i true) + specialCount2D e true + missingCount2D e true ∧
    b.totals.nonevent = (∑ i ∈ range f.boxes.length, binCount e f i false) + specialCount2D e false + missingCount2D e false ∧
    b.totals.count = b.totals.event + b.totals.nonevent ∧
    b.totals.rate = (b.totals.event : ℝ) / (b.totals.count : ℝ) ∧
    ∀ i < f.boxes.length, ∀ ev nev : ℕ, ev = binCount e f i true → nev = binCount e f i false →
      b.count[i]? = some (ev + nev) ∧
      b.share[i]? = some (((ev + nev : ℕ) : ℝ) / (b.totals.count : ℝ)) ∧
      b.stats.eventRate[i]? = some ((ev : ℝ) / ((ev + nev : ℕ) : ℝ)) ∧
      b.stats.woe[i]? = some (Real.log (((nev : ℝ) / (b.totals.nonevent : ℝ)) / ((ev : ℝ) / (b.totals.event : ℝ)))) ∧
      b.stats.iv[i]? = some (ivTerm ((ev : ℝ) / (b.totals.event : ℝ)) ((nev : ℝ) / (b.totals.nonevent : ℝ))) ∧
      b.stats.js[i]? = some (jsTerm ((ev : ℝ) / (b.totals.event : ℝ)) ((nev : ℝ) / (b.totals.nonevent : ℝ))) := by
  have t := tableFacts he h hs
  obtain ⟨b, hb, hbt, hc, hsh, ht, -, -⟩ := t.build sort
  refine ⟨b, hb, ?_, ?_, ?_, ?_, ?_⟩
  · rw [ht, ← t.special.1, ← t.missing.1]
    show f.event.sum = _
    rw [sum_split t.lengths.1]
    congr 2
    exact Finset.sum_congr rfl fun i hi => (t.rows i (Finset.mem_range.1 hi)).1
  · rw [ht, ← t.special.2, ← t.missing.2]
    show f.nonevent.sum = _
    rw [sum_split t.lengths.2]
    congr 2
    exact Finset.sum_congr rfl fun i hi => (t.rows i (Finset.mem_range.1 hi)).2
  · rw [ht]; exact Nat.add_comm _ _
  · rw [ht]
  · intro i hi ev nev hev hnev
    rw [← (t.rows i hi).1] at hev
    rw [← (t.rows i hi).2] at hnev
    have hi' : i < f.rows.length := by rw [t.rows_length]; omega
    have hrow := t.row hi'
    rw [← hev, ← hnev] at hrow
    have hpos := t.positive i hi
    rw [← hev, ← hnev] at hpos
    have hcount : b.count[i]? = some (ev + nev) := by
      rw [hc, List.getElem?_map, List.getElem?_eq_getElem hi', hrow]; rfl
    have hte : (b.totals.event : ℝ) = (Spec.events f.rows : ℝ) := by rw [ht, t.events.1]
    have htn : (b.totals.nonevent : ℝ) = (Spec.nonevents f.rows : ℝ) := by rw [ht, t.events.2]
    have hm : f.rows[i].mixed = true := by rw [hrow]; exact (mixed_iff _).2 hpos
    obtain ⟨p1, p2⟩ := events_pos_of_mem (List.getElem_mem hi') hm
    have q1 : (0 : ℝ) < (Spec.events f.rows : ℝ) := by exact_mod_cast p1
    have q2 : (0 : ℝ) < (Spec.nonevents f.rows : ℝ) := by exact_mod_cast p2
    have q3 : (0 : ℝ) < (ev : ℝ) := by exact_mod_cast hpos.1
    have q4 : (0 : ℝ) < (nev : ℝ) := by exact_mod_cast hpos.2
    obtain ⟨w1, w2, -, -⟩ := C20_table_woe sort hbt hi' (by rw [hrow]; exact hpos.1) (by rw [hrow]; exact hpos.2)
    rw [hrow] at w1 w2
    have hcore := buildTable_ok hbt
    refine ⟨hcount, ?_, ?_, ?_, ?_, ?_⟩
    · rw [hsh, List.getElem?_map, hcount, ht]; rfl
    · rw [w1]
      simp only [Spec.rate]
      push_cast; rfl
    · rw [w2, hte, htn]; rfl
    · rw [hcore, hte, htn, ← iv_term]
      simp only [buildCore, List.getElem?_map, List.getElem?_eq_getElem hi', Option.map_some, hm, if_true, cast_sum_map, hrow]
      rw [events_eq, nonevents_eq, if_pos (hrow ▸ hm)]
    · rw [hcore, hte, htn, ← js_pos (by positivity) (by positivity)]
      simp only [buildCore, List.getElem?_map, List.getElem?_eq_getElem hi', Option.map_some, hm, if_true, cast_sum_map, hrow]
      rw [events_eq, nonevents_eq, if_pos (hrow ▸ hm)]

/-- C111: the last two rows are "Special" and "Missing", for records with a special code, with a missing value or target; the column
"Count (%)" adds up to one, "Count" to the number of records plus the number of those which are special and missing; total IV and JS
are the sums of their columns, not negative, and JS is at most log 2; the KS, Gini and HHI attributes lie in [0, 1]. -/
theorem C111_totals (p : Params2DB) (e : Ext2D α β Bool) (he : Good2D e) {f : Fitted2D α β} (h : fitArgs2D p e = .ok f)
    (hs : f.status = "OPTIMAL" ∨ f.status = "FEASIBLE") (sort : List Row → List Row) {b : Built2D} (hb : f.build sort = .ok b) :
    b.count.length = f.boxes.length + 2 ∧ b.count[f.boxes.length]? = some (specialCount2D e true + specialCount2D e false) ∧
    b.count[f.boxes.length + 1]? = some (missingCount2D e true + missingCount2D e false) ∧
    b.share.sum = 1 ∧ b.count.sum = b.totals.count ∧
    (b.totals.count = e.recs.length + @List.countP _ (fun r => @decide ((r.x = none ∨ r.y = none ∨ r.z = none) ∧
      (IsCode e.scx r.x ∨ IsCode e.scy r.y)) (Classical.dec _)) e.recs) ∧
    b.totals.iv = b.stats.iv.sum ∧ b.totals.js = b.stats.js.sum ∧ 0 ≤ b.totals.iv ∧ 0 ≤ b.totals.js ∧ b.totals.js ≤ Real.log 2 ∧
    (IsArgsort sort → (0 ≤ b.stats.gini ∧ b.stats.gini ≤ 1) ∧ (0 ≤ b.stats.ks ∧ b.stats.ks ≤ 1) ∧ (0 < b.stats.hhi ∧ b.stats.hhi ≤ 1)) := by
  have t := tableFacts he h hs
  obtain ⟨b', hb', hbt, hc, hsh, ht, -, -⟩ := t.build sort
  obtain rfl : b' = b := by rw [hb'] at hb; exact Except.ok.inj hb
  have hlen : b'.count.length = f.boxes.length + 2 := by rw [hc, List.length_map, t.rows_length]
  have hsum : b'.count.sum = f.nonevent.sum + f.event.sum := by
    have : ∀ l : List Row, (l.map fun r => r.event + r.nonevent).sum = (l.map fun r => r.nonevent).sum + (l.map fun r => r.event).sum := by
      intro l
      induction l with
      | nil => rfl
      | cons a l ih => simp only [List.map_cons, List.sum_cons, ih]; omega
    rw [hc, this, t.columns.1, t.columns.2]
  have hrow : ∀ i (hi : i < f.boxes.length + 2), b'.count[i]? = some (f.event.getD i 0 + f.nonevent.getD i 0) := by
    intro i hi
    have hi' : i < f.rows.length := by rw [t.rows_length]; exact hi
    rw [hc, List.getElem?_map, List.getElem?_eq_getElem hi', t.row hi']; rfl
  have hnz : ((f.nonevent.sum + f.event.sum : ℕ) : ℝ) ≠ 0 := by
    have h0 := (t.positive 0 t.nonempty).1
    rw [List.getD_eq_getElem _ _ (by rw [t.lengths.1]; omega)] at h0
    have := List.le_sum_of_mem (List.getElem_mem (l := f.event) (n := 0) (by rw [t.lengths.1]; omega))
    exact_mod_cast (by omega : f.nonevent.sum + f.event.sum ≠ 0)
  have hcore := buildTable_ok hbt
  refine ⟨hlen, ?_, ?_, ?_, ?_, ?_, ?_, ?_, ?_, ?_, ?_, ?_⟩
  · rw [hrow _ (by omega), t.special.1, t.special.2]
  · rw [hrow _ (by omega), t.missing.1, t.missing.2]
  · have : ∀ (l : List ℕ) (d : ℝ), (l.map fun (c : ℕ) => (c : ℝ) / d).sum = (l.sum : ℕ) / d := by
      intro l d
      induction l with
      | nil => simp
      | cons a l ih => simp only [List.map_cons, List.sum_cons, ih]; push_cast; ring
    rw [hsh, this, hsum, div_self hnz]
  · rw [hsum, ht]
  · have h1 := t.totals
    rw [ht]
    show f.nonevent.sum + f.event.sum = _
    rw [Nat.add_comm]
    convert h1
  · rw [ht, hcore]; rfl
  · rw [ht, hcore]; rfl
  · rw [ht]; exact (C21_nonneg sort hbt).1
  · rw [ht]; exact (C21_nonneg sort hbt).2.1
  · rw [ht]; exact (C21_bounds sort hbt).1
  · intro hsort
    obtain ⟨h1, h2, h3, -⟩ := C23_ranges sort hsort hbt
    refine ⟨h1, h2, lt_of_lt_of_le ?_ h3.1, h3.2⟩
    rw [t.rows_length]
    positivity

/-- C111: `transform` of a pair of known values, neither missing nor special, returns what the table shows in the row of the bin of
the pair. -/
theorem C111_transform (p : Params2DB) (e : Ext2D α β Bool) (he : Good2D e) {f : Fitted2D α β} (h : fitArgs2D p e = .ok f)
    (hs : f.status = "OPTIMAL" ∨ f.status = "FEASIBLE") (sort : List Row → List Row) {b : Built2D} (hb : f.build sort = .ok b)
    {u : α} {v : β} (hu : Known f.axisX u) (hv : Known f.axisY v) (hx : ¬ IsCode e.scx (some u)) (hy : ¬ IsCode e.scy (some v))
    {i : ℕ} (hi : i < f.boxes.length) (hib : InBox f.axisX f.axisY f.boxes[i] u v) :
    (∀ ms mm, b.stats.eventRate[i]? = some ((f.eventRate e.scx e.scy ms mm (some u) (some v) : ℚ) : ℝ)) ∧
    ∀ ms mm, b.stats.woe[i]? = some (f.woe e.scx e.scy ms mm (some u) (some v)) := by
  have t := tableFacts he h hs
  obtain ⟨b', hb', -, -, -, -, hrows⟩ := C111_rows p e he h hs sort
  obtain rfl : b' = b := by rw [hb'] at hb; exact Except.ok.inj hb
  obtain ⟨-, -, h3, h4, -, -⟩ := hrows i hi _ _ rfl rfl
  obtain ⟨t1, t2⟩ := t.transform u v hu hv hx hy i hi hib
  obtain ⟨b'', hb'', -, -, -, ht, -, -⟩ := t.build sort
  obtain rfl : b'' = b' := by rw [hb''] at hb'; exact Except.ok.inj hb'
  refine ⟨fun ms mm => ?_, fun ms mm => ?_⟩
  · rw [h3, t1, Fitted2D.rate, Fitted2D.count, (t.rows i hi).1, (t.rows i hi).2]
    push_cast; rfl
  · rw [h4, t2, (t.rows i hi).1, (t.rows i hi).2, ht]

/-! ### the matrices and the plot -/

/-- The cell of a pair of values in the pre-binning grid: row and column. -/
def Spec.gridCell {τ : Type} (e : Ext2D α β τ) (u : α) (v : β) : ℕ × ℕ :=
  let g := prepare2D e.dx e.dy e.scx e.scy e.prebinX e.prebinY e.recs
  (g.row v, g.col u)

/-- C111: the matrix of the plot shows in the cell of a pair of known values the number of the bin of the pair, coloured by the event
rate, or by the weight of evidence, of the row of this bin in the table. -/
theorem C111_matrix (p : Params2DB) (e : Ext2D α β Bool) (he : Good2D e) {f : Fitted2D α β} (h : fitArgs2D p e = .ok f)
    (hs : f.status = "OPTIMAL" ∨ f.status = "FEASIBLE") (sort : List Row → List Row) {b : Built2D} (hb : f.build sort = .ok b)
    {u : α} {v : β} (hu : Known f.axisX u) (hv : Known f.axisY v) :
    (gridCell e u v).1 < f.m ∧ (gridCell e u v).2 < f.n ∧
    ∃ i, ∃ hi : i < f.boxes.length, InBox f.axisX f.axisY f.boxes[i] u v ∧ f.P ((gridCell e u v).1 * f.n + (gridCell e u v).2) = i ∧
      b.stats.eventRate[i]? = some (b.D ((gridCell e u v).1 * f.n + (gridCell e u v).2)) ∧
      b.stats.woe[i]? = some (b.W ((gridCell e u v).1 * f.n + (gridCell e u v).2)) := by
  have t := tableFacts he h hs
  obtain ⟨sel, init, hcov, hP, hl, hin⟩ := t.matrix
  set g := prepare2D e.dx e.dy e.scx e.scy e.prebinX e.prebinY e.recs with hg
  have hr : g.row v < f.m := by rw [t.shape.1]; exact g.row_lt v
  have hc : g.col u < f.n := by rw [t.shape.2]; exact g.col_lt u
  obtain ⟨i, hi, hm, -⟩ := hcov.exists_unique hr hc
  have hi' : i < f.boxes.length := by omega
  have hPi : f.P (g.row v * f.n + g.col u) = i := by
    rw [hP]
    exact (covers_cell hcov init hr hc hi).2 hm
  refine ⟨hr, hc, i, hi', (hin u v hu hv i hi' hi).2 hm, hPi, ?_⟩
  obtain ⟨b', hb', -, -, -, -, hrows⟩ := C111_rows p e he h hs sort
  obtain rfl : b' = b := by rw [hb'] at hb; exact Except.ok.inj hb
  obtain ⟨-, -, h3, h4, -, -⟩ := hrows i hi' _ _ rfl rfl
  obtain ⟨b'', hb'', -, -, -, ht, hD, hW⟩ := t.build sort
  obtain rfl : b'' = b' := by rw [hb''] at hb'; exact Except.ok.inj hb'
  have hpos := t.positive i hi'
  have hrate : f.cellRate i = (binCount e f i true : ℝ) / ((binCount e f i true + binCount e f i false : ℕ) : ℝ) := by
    rw [Fitted2D.cellRate, (t.rows i hi').1, (t.rows i hi').2]
    push_cast; rfl
  have le_sum : ∀ l : List ℕ, 0 < l.getD i 0 → 0 < l.sum := by
    intro l hl
    have hil : i < l.length := by
      by_contra hc
      rw [List.getD_eq_default _ _ (by omega)] at hl
      omega
    rw [List.getD_eq_getElem _ _ hil] at hl
    exact hl.trans_le (List.le_sum_of_mem (List.getElem_mem hil))
  have q1 : (0 : ℝ) < ((f.event.sum : ℕ) : ℝ) := by exact_mod_cast le_sum _ hpos.1
  have q2 : (0 : ℝ) < ((f.nonevent.sum : ℕ) : ℝ) := by exact_mod_cast le_sum _ hpos.2
  rw [(t.rows i hi').1, (t.rows i hi').2] at hpos
  have q3 : (0 : ℝ) < (binCount e f i true : ℝ) := by exact_mod_cast hpos.1
  have q4 : (0 : ℝ) < (binCount e f i false : ℝ) := by exact_mod_cast hpos.2
  constructor
  · rw [h3, hD]
    show _ = some (f.cellRate (f.P (g.row v * f.n + g.col u)))
    rw [hPi, hrate]
  · rw [h4, hW, ht]
    show _ = some (Real.log (1 / f.cellRate (f.P (g.row v * f.n + g.col u)) - 1) + _)
    rw [hPi, hrate]
    have e1 : 1 / ((binCount e f i true : ℝ) / ((binCount e f i true + binCount e f i false : ℕ) : ℝ)) - 1 =
        (binCount e f i false : ℝ) / (binCount e f i true : ℝ) := by
      push_cast
      field_simp
      ring
    rw [e1, ← Real.log_mul (by positivity) (by positivity)]
    congr 2
    field_simp

/-- What the step lines of `plot` must show for the values `metric` of the bins: one line per different sequence of bins along the
rows, drawn over the columns, and one per different sequence along the columns, drawn over the rows; at every column (row) the value
of the bin there. -/
def Spec.LinesShow {γ : Type} (m n : ℕ) (P : ℕ → ℕ) (metric : ℕ → γ)
    (lines : List (List ℕ × Except String (List γ)) × List (List ℕ × Except String (List γ))) : Prop :=
  (∀ r < m, ∃ L ∈ lines.1, ∃ y, L.2 = .ok y ∧ y.length = n + 1 ∧ ∀ c < n, y[c]? = some (metric (P (r * n + c)))) ∧
  (∀ L ∈ lines.1, ∃ r < m, ∃ y, L.2 = .ok y ∧ y.length = n + 1 ∧ ∀ c < n, y[c]? = some (metric (P (r * n + c)))) ∧
  (lines.1.map Prod.fst).Nodup ∧
  (∀ c < n, ∃ L ∈ lines.2, ∃ y, L.2 = .ok y ∧ y.length = m + 1 ∧ ∀ r < m, y[r]? = some (metric (P (r * n + c)))) ∧
  (∀ L ∈ lines.2, ∃ c < n, ∃ y, L.2 = .ok y ∧ y.length = m + 1 ∧ ∀ r < m, y[r]? = some (metric (P (r * n + c)))) ∧
  (lines.2.map Prod.fst).Nodup

theorem linesShow {γ : Type} {m n : ℕ} {sel : List Rect} (h : Covers m n sel) (init : ℕ → ℕ) (hm : 0 < m) (hn : 0 < n) (mv : ℕ → γ) :
    LinesShow m n (pMatrix n init sel) mv (plotLines m n (pMatrix n init sel) mv) := by
  obtain ⟨⟨a1, a2⟩, ⟨b1, b2⟩⟩ := plotLines_spec h init hm hn mv
  have get : ∀ (k : ℕ) (g : ℕ → γ) (z : γ), ((List.range k).map g ++ [z]).length = k + 1 ∧ ∀ c < k, ((List.range k).map g ++ [z])[c]? = some (g c) := by
    intro k g z
    refine ⟨by simp, fun c hc => ?_⟩
    rw [List.getElem?_append_left (by simpa using hc)]
    simp [hc]
  refine ⟨fun r hr => ⟨_, a1 r hr, _, rfl, get _ _ _⟩, fun L hL => ?_, ?_, fun c hc => ⟨_, b1 c hc, _, rfl, get _ _ _⟩, fun L hL => ?_, ?_⟩
  · obtain ⟨r, hr, rfl⟩ := a2 L hL
    exact ⟨r, hr, _, rfl, get _ _ _⟩
  · simp only [plotLines, List.map_map]
    rw [show (Prod.fst ∘ fun path => (path, drawStep n (stepLine (maxWidth m fun i => (List.range n).map fun j => pMatrix n init sel (i * n + j)) mv path))) = id from rfl,
      List.map_id]
    exact nodup_pathsOf _ _
  · obtain ⟨c, hc, rfl⟩ := b2 L hL
    exact ⟨c, hc, _, rfl, get _ _ _⟩
  · simp only [plotLines, List.map_map]
    rw [show (Prod.fst ∘ fun path => (path, drawStep m (stepLine (maxWidth n fun j => (List.range m).map fun i => pMatrix n init sel (i * n + j)) mv path))) = id from rfl,
      List.map_id]
    exact nodup_pathsOf _ _

/-- C111: `plot` never fails on the table of a fit, and its step lines show the values (event rates, weights of evidence) of the bins. -/
theorem C111_plot_lines (p : Params2DB) (e : Ext2D α β Bool) (he : Good2D e) {f : Fitted2D α β} (h : fitArgs2D p e = .ok f)
    (hs : f.status = "OPTIMAL" ∨ f.status = "FEASIBLE") {γ : Type} (metric : ℕ → γ) :
    LinesShow f.m f.n f.P metric (plotLines f.m f.n f.P metric) := by
  have t := tableFacts he h hs
  obtain ⟨sel, init, hcov, hP, -, -⟩ := t.matrix
  rw [hP]
  exact linesShow hcov init (by rw [t.shape.1]; exact Nat.succ_pos _) (by rw [t.shape.2]; exact Nat.succ_pos _) metric

/-! ### labels -/

theorem fmtBound_lo (d : ℕ) {lo : EQ} (h : lo ≠ ⊤) : ∃ a : Option ℚ, (a = none ↔ lo = ⊥) ∧ (a = none → fmtBound d lo = "-inf".toList) ∧
    ∀ q, a = some q → Numeral (fmtBound d lo) ∧ readDecimal (fmtBound d lo) = q ∧ ∃ s, lo = fin s ∧ Shown d q s := by
  match lo, h with
  | none, _ => exact ⟨none, ⟨fun _ => rfl, fun _ => rfl⟩, fun _ => rfl, fun q hq => by cases hq⟩
  | some none, h => exact absurd rfl h
  | some (some q), _ =>
    refine ⟨some (readDecimal (fmtFixed d q)), ⟨fun hc => (by cases hc), fun hc => (by cases hc)⟩, fun hc => (by cases hc), fun r hr => ?_⟩
    cases hr
    exact ⟨fmtFixed_numeral d q, rfl, q, rfl, C108_printed d q⟩

theorem fmtBound_hi (d : ℕ) {hi : EQ} (h : hi ≠ ⊥) : ∃ a : Option ℚ, (a = none ↔ hi = ⊤) ∧ (a = none → fmtBound d hi = "inf".toList) ∧
    ∀ q, a = some q → Numeral (fmtBound d hi) ∧ readDecimal (fmtBound d hi) = q ∧ ∃ s, hi = fin s ∧ Shown d q s := by
  match hi, h with
  | none, h => exact absurd rfl h
  | some none, _ => exact ⟨none, ⟨fun _ => rfl, fun _ => rfl⟩, fun _ => rfl, fun q hq => by cases hq⟩
  | some (some q), _ =>
    refine ⟨some (readDecimal (fmtFixed d q)), ⟨fun hc => (by cases hc), fun hc => (by cases hc)⟩, fun hc => (by cases hc), fun r hr => ?_⟩
    cases hr
    exact ⟨fmtFixed_numeral d q, rfl, q, rfl, C108_printed d q⟩

/-- A range containing a value is told by its label. -/
theorem label_tells (ax : Axis α) (d : ℕ) {lo hi : EQ} {u : α} (h : OnRange ax lo hi u) : Tells ax d (ax.label d lo hi) lo hi := by
  cases ax with
  | numerical val =>
    have h1 : lo ≠ ⊤ := fun hc => by
      have := lt_of_le_of_lt h.1 h.2
      rw [hc] at this
      exact not_top_lt this
    have h2 : hi ≠ ⊥ := fun hc => by
      have := lt_of_le_of_lt h.1 h.2
      rw [hc] at this
      exact not_lt_bot this
    obtain ⟨a, a1, a2, a3⟩ := fmtBound_lo d h1
    obtain ⟨b, b1, b2, b3⟩ := fmtBound_hi d h2
    refine ⟨a, b, ⟨fmtBound d lo, fmtBound d hi, ?_, a2, fun q hq => ⟨(a3 q hq).1, (a3 q hq).2.1⟩, b2,
      fun q hq => ⟨(b3 q hq).1, (b3 q hq).2.1⟩⟩, a1, b1, fun q hq => (a3 q hq).2.2, fun q hq => (b3 q hq).2.2⟩
    unfold binFmt
    have e : (lo = ⊥ ∨ lo = ⊤) ↔ a = none := by rw [a1]; simp [h1]
    simp only [e]
    by_cases ha : a = none <;> simp [ha]
  | categorical cats =>
    have hlh : lo < hi := by
      obtain ⟨k, -, h1, h2⟩ := h
      exact lt_of_le_of_lt h1 h2
    intro c
    rw [← inMask_iff hlh c]
    simp [Axis.inMask]

/-- C111: the columns "Bin x" and "Bin y" have one label for every bin, which tells its range, then "Special" and "Missing"; a number
of digits outside 0..8 is refused. -/
theorem C111_labels (p : Params2DB) (e : Ext2D α β Bool) (he : Good2D e) {f : Fitted2D α β} (h : fitArgs2D p e = .ok f)
    (hs : f.status = "OPTIMAL" ∨ f.status = "FEASIBLE") (d : ℤ) :
    (¬ (0 ≤ d ∧ d ≤ 8) → binColumns2D f.axisX f.axisY f.boxes d = .error "ValueError") ∧
    (0 ≤ d ∧ d ≤ 8 → ∃ cx cy, binColumns2D f.axisX f.axisY f.boxes d = .ok (cx, cy) ∧
      cx.length = f.boxes.length + 2 ∧ cy.length = f.boxes.length + 2 ∧
      (∀ i (hi : i < f.boxes.length), ∃ lx ly, cx[i]? = some lx ∧ cy[i]? = some ly ∧
        Tells f.axisX d.toNat lx f.boxes[i].xlo f.boxes[i].xhi ∧ Tells f.axisY d.toNat ly f.boxes[i].ylo f.boxes[i].yhi) ∧
      cx[f.boxes.length]? = some (.text "Special".toList) ∧ cy[f.boxes.length]? = some (.text "Special".toList) ∧
      cx[f.boxes.length + 1]? = some (.text "Missing".toList) ∧ cy[f.boxes.length + 1]? = some (.text "Missing".toList)) := by
  have t := tableFacts he h hs
  refine ⟨fun hd => by simp [binColumns2D, checkShowDigits, hd], fun hd => ?_⟩
  have hb : checkShowDigits d = .ok d.toNat := if_pos hd
  unfold binColumns2D
  rw [hb]
  refine ⟨_, _, rfl, by simp, by simp, fun i hi => ?_, ?_, ?_, ?_, ?_⟩
  · have hpos := (t.positive i hi).1
    rw [(t.rows i hi).1] at hpos
    obtain ⟨r, -, hr⟩ := List.countP_pos_iff.1 hpos
    simp only [decide_eq_true_eq] at hr
    obtain ⟨⟨u, v, hi2, hx0, hy0, hz0, hc1, hc2, hin⟩, hz⟩ := hr
    refine ⟨f.axisX.label d.toNat f.boxes[i].xlo f.boxes[i].xhi, f.axisY.label d.toNat f.boxes[i].ylo f.boxes[i].yhi, ?_, ?_,
      label_tells _ _ hin.1, label_tells _ _ hin.2⟩
    · rw [List.getElem?_append_left (by simpa using hi)]; simp [hi]
    · rw [List.getElem?_append_left (by simpa using hi)]; simp [hi]
  · rw [List.getElem?_append_right (by simp)]; simp
  · rw [List.getElem?_append_right (by simp)]; simp
  · rw [List.getElem?_append_right (by simp)]; simp
  · rw [List.getElem?_append_right (by simp)]; simp

/-! ### the total IV is the optimal value -/

theorem list_range_sum (n : ℕ) (g : ℕ → ℝ) : ((List.range n).map g).sum = ∑ i ∈ Finset.range n, g i := by
  induction n with
  | zero => simp
  | succ n ih => rw [List.range_succ, List.map_append, List.sum_append, ih, Finset.sum_range_succ]; simp

/-- C111: when no record is special or missing and the other conditions of C110 hold, the "Totals" entry of the column "IV" of the table
of an OPTIMAL fit is the largest IV of all the binnings of the pre-binning grid which respect the arguments. -/
theorem C111_iv_optimal (p : Params2DB) (e : Ext2D α β Bool) (he : Good2D e) {f : Fitted2D α β} (h : fitArgs2D p e = .ok f)
    (hs : f.status = "OPTIMAL") (hm : p.solver = "mip") (hst : p.strategy = "grid") (hg : p.gamma = .num 0) (hd : p.divergence = "iv")
    (hclean : ∀ r ∈ e.recs, r.x ≠ none ∧ r.y ≠ none ∧ r.z ≠ none ∧ ¬ IsCode e.scx r.x ∧ ¬ IsCode e.scy r.y)
    (sort : List Row → List Row) {b : Built2D} (hb : f.build sort = .ok b) {T : Finset Block} (hT : AllowedArgs2D p e T) :
    gridDivergence p e T ≤ b.totals.iv := by
  have t := tableFacts he h (Or.inl hs)
  have key := C110_optimal p e he h hs hm hst hg hT
  obtain ⟨b', hb', hbt, -, -, ht, -, -⟩ := t.build sort
  obtain rfl : b' = b := by rw [hb'] at hb; exact Except.ok.inj hb
  have z1 : ∀ ev, specialCount2D e ev = 0 := fun ev => by
    unfold specialCount2D
    rw [List.countP_eq_zero]
    intro r hr
    have := hclean r hr
    simp [this.2.2.2.1, this.2.2.2.2]
  have z2 : ∀ ev, missingCount2D e ev = 0 := fun ev => by
    unfold missingCount2D
    rw [List.countP_eq_zero]
    intro r hr
    have := hclean r hr
    simp [this.1, this.2.1, this.2.2.1]
  have hrows : f.rows = (List.range (f.boxes.length + 2)).map fun i => (⟨f.nonevent.getD i 0, f.event.getD i 0⟩ : Row) := by
    apply List.ext_getElem
    · rw [t.rows_length]; simp
    · intro i h1 h2
      rw [t.row h1]; simp
  have hsum : ∀ l : List ℕ, l.length = f.boxes.length + 2 → l.getD f.boxes.length 0 = 0 → l.getD (f.boxes.length + 1) 0 = 0 →
      l.sum = (l.take f.boxes.length).sum := fun l hl h1 h2 => by
    conv_lhs => rw [← List.take_append_drop f.boxes.length l]
    rw [List.sum_append]
    have : (l.drop f.boxes.length).sum = 0 := by
      rw [List.getD_eq_getElem _ _ (by omega)] at h1 h2
      rw [List.drop_eq_getElem_cons (by omega), List.drop_eq_getElem_cons (by omega), h1, h2, List.drop_eq_nil_of_le (by omega)]
      rfl
    omega
  have s1 := hsum f.event t.lengths.1 (by rw [t.special.1, z1]) (by rw [t.missing.1, z2])
  have s2 := hsum f.nonevent t.lengths.2 (by rw [t.special.2, z1]) (by rw [t.missing.2, z2])
  refine key.trans (le_of_eq ?_)
  have hiv : b'.totals.iv = divSum jeffrey (Spec.events f.rows) (Spec.nonevents f.rows) f.rows := by
    rw [ht, ← build_tIv sort, ← buildTable_ok hbt]
  rw [hiv, t.events.1, t.events.2, divSum, hrows, List.map_map, list_range_sum, Finset.sum_range_succ, Finset.sum_range_succ]
  have y1 : ((⟨f.nonevent.getD f.boxes.length 0, f.event.getD f.boxes.length 0⟩ : Row).mixed) = false := by
    rw [t.special.1, z1]; simp [Row.mixed]
  have y2 : ((⟨f.nonevent.getD (f.boxes.length + 1) 0, f.event.getD (f.boxes.length + 1) 0⟩ : Row).mixed) = false := by
    rw [t.missing.1, z2]; simp [Row.mixed]
  simp only [Function.comp_apply, y1, y2, Bool.false_eq_true, if_false, add_zero]
  unfold tableDivergence2D
  rw [hd]
  refine Finset.sum_congr rfl fun i hi => ?_
  have hi' := Finset.mem_range.1 hi
  rw [if_pos ((mixed_iff _).2 ⟨(t.positive i hi').1, (t.positive i hi').2⟩), s1, s2]
  show jeffrey _ _ = _
  simp only [Rat.cast_div, Rat.cast_natCast]

/-! ### the hypotheses can be met -/

theorem exCodeX (x : Option ℕ) : IsCode exExt2D.scx x ↔ x = some 7 := by
  simp [IsCode, exExt2D]

theorem exCodeY (x : Option ℕ) : ¬ IsCode exExt2D.scy x := by
  rintro ⟨l, h, -⟩
  cases h

/-- The table, the labels and the plot of the fit `exParams2D_fit`, with special and missing records; one
of the 12 records is both, and counted twice. -/
example : ∃ (f : Fitted2D ℕ ℕ) (b : Built2D), fitArgs2D exParams2D exExt2D = .ok f ∧ f.build id = .ok b ∧ 2 ≤ f.boxes.length ∧
    b.count.length = f.boxes.length + 2 ∧ b.totals.count = 13 ∧
    (∃ c, binColumns2D f.axisX f.axisY f.boxes 2 = .ok c) ∧ LinesShow f.m f.n f.P (fun i => i) (plotLines f.m f.n f.P fun i => i) := by
  obtain ⟨f, hf, hs⟩ := exParams2D_fit
  obtain ⟨h1, h2⟩ := C110_limits exParams2D exExt2D exExt2D_good hf (Or.inl hs)
  obtain ⟨b, hb, -⟩ := C111_rows exParams2D exExt2D exExt2D_good hf (Or.inl hs) id
  have ht := C111_totals _ _ exExt2D_good hf (Or.inl hs) id hb
  refine ⟨f, b, hf, hb, by exact_mod_cast h2.1 2 rfl, ht.1, ?_, ?_, C111_plot_lines _ _ exExt2D_good hf (Or.inl hs) _⟩
  · rw [ht.2.2.2.2.2.1]
    have e1 : exExt2D.recs = exRecs2D := rfl
    rw [e1, List.countP_congr (q := fun r => decide ((r.x = none ∨ r.y = none ∨ r.z = none) ∧ r.x = some 7)) fun r _ => by
      simp only [exCodeX, exCodeY, or_false, decide_eq_true_eq]]
    decide
  · obtain ⟨cx, cy, hc, -⟩ := (C111_labels _ _ exExt2D_good hf (Or.inl hs) 2).2 (by decide)
    exact ⟨_, hc⟩

/-- The clean records of `exRecs2D`. -/
noncomputable def exClean2D : Ext2D ℕ ℕ Bool := { exExt2D with recs := exRecs2D.take 9 }

theorem exClean2D_good : Good2D exClean2D where
  prepared := ⟨exSucceeds2D.1.1.1, exSucceeds2D.1.1.2, exSucceeds2D.1.1.3, exSucceeds2D.1.1.4, exSucceeds2D.1.1.5⟩
  tree := fun _ => exCartTree_wellFormed
  cp := idealSolver_valid
  mip := idealMIP_valid

/-- The arguments of `exParams2D` with `divergence="iv"`. -/
def exParamsIV : Params2DB := { exParams2D with divergence := "iv" }

theorem exClean2D_allowed : AllowedArgs2D exParamsIV exClean2D exTiling2D := by
  have h := exParams2D_allowed
  have ho : absoluteSizes exParamsIV.opts (exParamsIV.minBinSize.map XQ.value) (exParamsIV.maxBinSize.map XQ.value) exClean2D.recs.length =
      absoluteSizes exParams2D.opts (exParams2D.minBinSize.map XQ.value) (exParams2D.maxBinSize.map XQ.value) exExt2D.recs.length := by
    have h9 : exClean2D.recs.length = 9 := rfl
    have h12 : exExt2D.recs.length = 12 := rfl
    rw [h9, h12]
    simp [absoluteSizes, exParamsIV, exParams2D, XQ.value, Params2DB.opts]
    norm_num
  unfold AllowedArgs2D at h ⊢
  rw [ho]
  exact h

theorem exParamsIV_fit : ∃ f, fitArgs2D exParamsIV exClean2D = .ok f ∧ f.status = "OPTIMAL" := by
  have hv : ValidParams2DB exParamsIV := by
    have hc : check2DB exParamsIV = .ok () := by decide +kernel
    exact ((C110_checks_binary _).2.1 hc).1 _ _ rfl rfl
  obtain ⟨f, hf⟩ := (C110_returns exParamsIV exClean2D hv).1 rfl
  refine ⟨f, hf, ?_⟩
  rcases (fitArgs2D_ok hf).2 with ⟨hc, -⟩ | ⟨-, h'⟩
  · exact absurd hc (by decide)
  · rcases runJob2D_ok h' with ⟨h1, -⟩ | ⟨-, rfl⟩
    · exact absurd h1 (by decide)
    · set j := (exParamsIV.jobMIP exClean2D).toJob2D with hj
      have hA : j.Allowed exTiling2D := exClean2D_allowed
      obtain ⟨s, hs⟩ := exists_spread (fun b => b.total j.prepared.events + b.total j.prepared.nonevents)
        (tiling_nonempty (Nat.succ_pos _) (Nat.succ_pos _) hA.tiling)
      obtain ⟨a, ha, _⟩ := binary_complete (R := ℝ) (coef := j.coef) (gamma := j.gamma) (reg := j.reg) hA hs
      exact idealMIP_optimal (by rfl) ⟨a, ha⟩

/-- The hypotheses of `C111_iv_optimal` hold together. -/
example : ∃ (f : Fitted2D ℕ ℕ) (b : Built2D), fitArgs2D exParamsIV exClean2D = .ok f ∧ f.build id = .ok b ∧
    gridDivergence exParamsIV exClean2D exTiling2D ≤ b.totals.iv := by
  obtain ⟨f, hf, hs⟩ := exParamsIV_fit
  obtain ⟨b, hb, -⟩ := C111_rows exParamsIV exClean2D exClean2D_good hf (Or.inl hs) id
  have hclean : ∀ r ∈ exClean2D.recs, r.x ≠ none ∧ r.y ≠ none ∧ r.z ≠ none ∧ ¬ IsCode exClean2D.scx r.x ∧ ¬ IsCode exClean2D.scy r.y := by
    have : ∀ r ∈ exRecs2D.take 9, r.x ≠ none ∧ r.y ≠ none ∧ r.z ≠ none ∧ ¬ r.x = some 7 := by decide
    intro r hr
    obtain ⟨h1, h2, h3, h4⟩ := this r hr
    exact ⟨h1, h2, h3, fun hc => h4 ((exCodeX _).1 hc), exCodeY _⟩
  exact ⟨f, b, hf, hb, C111_iv_optimal _ _ exClean2D_good hf hs rfl rfl rfl rfl hclean id hb exClean2D_allowed⟩

end OptBinning
