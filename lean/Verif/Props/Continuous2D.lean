import Verif.Lemmas.Continuous2D
import Verif.Lemmas.Continuous2
import Verif.Spec.Continuous2D

/-!
# C87–C89: two-dimensional binning of a continuous target — bins, transform, table, limits, trends
-/
namespace OptBinning

open Spec

set_option linter.unusedSectionVars false

variable {α β : Type} [DecidableEq α] [DecidableEq β] {Q : Type} [CommRing Q] [LinearOrder Q] [IsStrictOrderedRing Q]

theorem JobC2D.facts (j : JobC2D α β Q) (h : j.Succeeds) :
    ∃ sel, FactsC2D j.scx j.scy j.opts j.recs j.init j.prepared j.fit sel := by
  obtain ⟨sel, _, _, _, _, hf⟩ := fitC2D_facts (scx := j.scx) (scy := j.scy) (o := j.opts) (coef := j.coef)
    (gamma := j.gamma) (reg := j.reg) (solver := j.solver j.opts) (init := j.init) (recs := j.recs) (p := j.prepared)
    (h.solver _) h.status
  exact ⟨sel, hf⟩

/-- **C87.** After a successful fit every pair of known values lies in exactly one of the bins. -/
theorem C87_partition (j : JobC2D α β Q) (h : j.Succeeds) {u : α} {v : β} (hu : Known j.fit.axisX u)
    (hv : Known j.fit.axisY v) :
    ∃! i, ∃ hi : i < j.fit.boxes.length, InBox j.fit.axisX j.fit.axisY j.fit.boxes[i] u v := by
  obtain ⟨sel, hf⟩ := j.facts h
  exact hf.geo.partition h.wellFormed hu hv

/-- **C87.** For a clean pair of known values, `transform(metric="indices")` returns the number of the bin which
contains the pair. -/
theorem C87_transform_indices (j : JobC2D α β Q) (h : j.Succeeds) {u : α} {v : β} (hu : Known j.fit.axisX u)
    (hv : Known j.fit.axisY v) (hx : ¬ IsCode j.scx (some u)) (hy : ¬ IsCode j.scy (some v)) (ms mm : Option ℤ) {i : ℕ}
    (hi : i < j.fit.boxes.length) :
    j.fit.indices j.scx j.scy ms mm (some u) (some v) = (i : ℤ) ↔ InBox j.fit.axisX j.fit.axisY j.fit.boxes[i] u v := by
  obtain ⟨sel, hf⟩ := j.facts h
  rw [FittedC2D.indices, transform2D_clean hx hy]
  constructor
  · intro he
    obtain ⟨k, ⟨hk, hkb⟩, hun⟩ := hf.geo.partition h.wellFormed hu hv
    rw [hf.geo.transform h.wellFormed _ _ hu hv hk hkb] at he
    have : k = i := by exact_mod_cast he
    subst this
    exact hkb
  · intro hb
    exact hf.geo.transform h.wellFormed _ _ hu hv hi hb

/-! ## C88: the table -/

theorem cell_total (p : Prepared2D α β ℚ) (w : ℚ → ℚ) (b : Block) :
    b.total (fun i j => ((p.cell i j).map w).sum) =
      ((p.clean.filter fun r => decide (b.Mem (p.row r.2.1) (p.col r.1))).map fun r => w r.2.2).sum := by
  rw [← total_records b (fun r : α × β × ℚ => p.row r.2.1) (fun r => p.col r.1) (fun r => w r.2.2)]
  simp only [Prepared2D.cell, List.map_map]
  rfl

theorem cell_count (p : Prepared2D α β ℚ) (b : Block) :
    b.total p.records = (p.clean.filter fun r => decide (b.Mem (p.row r.2.1) (p.col r.1))).length := by
  have h := total_count p (fun _ => true) b
  simp only [List.countP_true, Bool.and_true] at h
  rw [← List.countP_eq_length_filter, ← h]
  rfl

theorem knownTargets_pos {recs : List (Rec2 α β ℚ)} {q : Rec2 α β ℚ → Prop} {r : Rec2 α β ℚ} (h : q r) :
    knownTargets (r :: recs) q = r.z.toList ++ knownTargets recs q := by
  unfold knownTargets
  rw [List.filter_cons_of_pos (by simpa using h), List.filterMap_cons]
  cases r.z <;> rfl

theorem knownTargets_neg {recs : List (Rec2 α β ℚ)} {q : Rec2 α β ℚ → Prop} {r : Rec2 α β ℚ} (h : ¬ q r) :
    knownTargets (r :: recs) q = knownTargets recs q := by
  unfold knownTargets
  rw [List.filter_cons_of_neg (by simpa using h)]

open Classical in
/-- The targets of the clean records which satisfy `q`. -/
theorem clean_targets (scx : Option (List (Option α))) (scy : Option (List (Option β))) (recs : List (Rec2 α β ℚ))
    (q : α → β → Prop) :
    ((clean2D scx scy recs).filter fun r => decide (q r.1 r.2.1)).map (fun r => r.2.2) =
      knownTargets recs fun r => ¬ RecMissing r ∧ ¬ RecSpecial scx scy r ∧ ∃ u v, r.x = some u ∧ r.y = some v ∧ q u v := by
  unfold clean2D
  induction recs with
  | nil => rfl
  | cons r l ih =>
    obtain ⟨x, y, z⟩ := r
    have hsp : RecSpecial scx scy (Rec2.mk x y z) ↔ Rec2.isSpecial scx scy (Rec2.mk x y z) = true := by
      simp [Rec2.isSpecial, isCode_iff, RecSpecial]
    have hmi : RecMissing (Rec2.mk x y z) ↔ (Rec2.mk x y z).isMissing = true := by
      simp [Rec2.isMissing, RecMissing, or_assoc]
    rw [List.filterMap_cons]
    by_cases hc : (!(Rec2.mk x y z).isMissing && !Rec2.isSpecial scx scy (Rec2.mk x y z)) = true
    · rw [if_pos hc]
      rw [Bool.and_eq_true, Bool.not_eq_true', Bool.not_eq_true'] at hc
      rcases x with _ | u
      · simp [Rec2.isMissing] at hc
      rcases y with _ | v
      · simp [Rec2.isMissing] at hc
      rcases z with _ | w
      · simp [Rec2.isMissing] at hc
      have h1 : ¬ RecMissing (Rec2.mk (some u) (some v) (some w)) := by rw [hmi, hc.1]; simp
      have h2 : ¬ RecSpecial scx scy (Rec2.mk (some u) (some v) (some w)) := by rw [hsp, hc.2]; simp
      by_cases hq : q u v
      · rw [knownTargets_pos ⟨h1, h2, u, v, rfl, rfl, hq⟩, ← ih]
        simp [hq]
      · rw [knownTargets_neg, ← ih]
        · simp [hq]
        · rintro ⟨_, _, u', v', hu, hv, h'⟩
          cases hu; cases hv
          exact hq h'
    · rw [if_neg hc, knownTargets_neg, ← ih]
      rw [hmi, hsp]
      rintro ⟨h1, h2, _⟩
      simp [h1, h2] at hc

/-- The training targets of bin `i`. -/
noncomputable def JobC2D.binTargets (j : JobC2D α β Q) (i : ℕ) (hi : i < j.fit.boxes.length) : List ℚ :=
  knownTargets j.recs (RecInBox j.scx j.scy j.fit.axisX j.fit.axisY j.fit.boxes[i])

theorem FactsC2D.targets {j : JobC2D α β Q} {sel : List Rect}
    (hf : FactsC2D j.scx j.scy j.opts j.recs j.init j.prepared j.fit sel) (hw : j.prepared.WellFormed) {i : ℕ}
    (hi : i < sel.length) (hi' : i < j.fit.boxes.length) :
    (j.prepared.clean.filter fun r => decide (sel[i].block.Mem (j.prepared.row r.2.1) (j.prepared.col r.1))).map
      (fun r => r.2.2) = j.binTargets i hi' := by
  classical
  rw [JobC2D.binTargets, show (RecInBox j.scx j.scy j.fit.axisX j.fit.axisY j.fit.boxes[i]) = fun r : Rec2 α β ℚ =>
    ¬ RecMissing r ∧ ¬ RecSpecial j.scx j.scy r ∧ ∃ u v, r.x = some u ∧ r.y = some v ∧
      InBox j.fit.axisX j.fit.axisY j.fit.boxes[i] u v from rfl, ← clean_targets]
  congr 1
  refine List.filter_congr fun r hr => ?_
  have hk := hw.known r hr
  have e := hf.geo.inBox hw (hf.geo.axisX ▸ hk.1) (hf.geo.axisY ▸ hk.2) hi' hi
  simp only [e]

theorem FactsC2D.totals {j : JobC2D α β Q} {sel : List Rect}
    (hf : FactsC2D j.scx j.scy j.opts j.recs j.init j.prepared j.fit sel) (hw : j.prepared.WellFormed) {i : ℕ}
    (hi : i < sel.length) (hi' : i < j.fit.boxes.length) :
    sel[i].block.total j.prepared.records = (j.binTargets i hi').length ∧
    sel[i].block.total j.prepared.sums = (j.binTargets i hi').sum ∧
    sel[i].block.total j.prepared.squares = ((j.binTargets i hi').map (· ^ 2)).sum := by
  rw [← hf.targets hw hi hi', cell_count]
  refine ⟨by simp, ?_, ?_⟩
  · have := cell_total j.prepared id sel[i].block
    simp only [List.map_id, id] at this
    exact this
  · have := cell_total j.prepared (· ^ 2) sel[i].block
    rw [List.map_map]
    exact this

theorem FactsC2D.row {j : JobC2D α β Q} {sel : List Rect}
    (hf : FactsC2D j.scx j.scy j.opts j.recs j.init j.prepared j.fit sel) {i : ℕ}
    (hi : i < sel.length) : j.fit.rows[i]? = some (rowOfRect j.prepared.n j.prepared.records j.prepared.sums
      j.prepared.squares sel[i]) := by
  rw [hf.rows, List.getElem?_append_left (by simpa using hi), List.getElem?_map, List.getElem?_eq_getElem hi]
  rfl

theorem rowOfRect_eq {m n : ℕ} {R : ℕ → ℕ → ℕ} {S SS : ℕ → ℕ → ℚ} {t : Rect} (h : t ∈ allRects m n) :
    rowOfRect n R S SS t = ⟨t.block.total R, some (t.block.total S),
      if t.block.total SS / ((t.block.total R : ℕ) : ℚ) - (t.block.total S / ((t.block.total R : ℕ) : ℚ)) ^ 2 < 0 then none
      else some (t.block.total SS / ((t.block.total R : ℕ) : ℚ) - (t.block.total S / ((t.block.total R : ℕ) : ℚ)) ^ 2)⟩ := by
  have h' := (mem_allRects.1 h).2.2.2
  simp only [rowOfRect, sum_row h']

theorem variance_nonneg' (ys : List ℚ) : 0 ≤ variance ys := by
  unfold variance
  refine div_nonneg (List.sum_nonneg ?_) (by positivity)
  intro x hx
  obtain ⟨y, _, rfl⟩ := List.mem_map.1 hx
  positivity

/-- **C88.** Row `i` of the binning table describes exactly the targets of the clean training records in bin `i`: their
number (at least one), their sum and their variance (the square of the column "Std"). -/
theorem C88_rows (j : JobC2D α β Q) (h : j.Succeeds) {i : ℕ} (hi : i < j.fit.boxes.length) :
    ∃ r : Row2C, j.fit.rows[i]? = some r ∧ j.binTargets i hi ≠ [] ∧ Describes (j.binTargets i hi) r.cnt r.sum r.var ∧
      r.mean = some (Spec.mean (j.binTargets i hi)) := by
  obtain ⟨sel, hf⟩ := j.facts h
  have hl := hf.geo.length
  have his : i < sel.length := by omega
  obtain ⟨e1, e2, e3⟩ := hf.totals h.wellFormed his hi
  have hpos := hf.admissible.nonempty _ (Geo.mem his)
  rw [e1] at hpos
  have hne : j.binTargets i hi ≠ [] := List.ne_nil_of_length_pos hpos
  refine ⟨_, hf.row his, hne, ?_, ?_⟩
  · rw [rowOfRect_eq (hf.geo.covers.rects _ (List.getElem_mem his)), e1, e2, e3, ← variance_eq hne,
      if_neg (not_lt.2 (variance_nonneg' _))]
    exact ⟨rfl, rfl, fun _ => rfl⟩
  · rw [rowOfRect_eq (hf.geo.covers.rects _ (List.getElem_mem his)), e1, e2]
    simp only [Row2C.mean, hpos, if_true, Option.map_some, Spec.mean]

/-- **C88.** After the bins the table has two more rows: the records with a special code and the records with a missing
value or target.  Their counts are the numbers of these records; if no target among them is missing, the rows describe
exactly these targets, otherwise "Sum" and "Std" are NaN. -/
theorem C88_special_missing_rows (j : JobC2D α β Q) (h : j.Succeeds) :
    j.fit.rows.length = j.fit.boxes.length + 2 ∧
    ∀ k q, (k = j.fit.boxes.length ∧ q = RecSpecial j.scx j.scy) ∨ (k = j.fit.boxes.length + 1 ∧ q = RecMissing) →
      ∃ r : Row2C, j.fit.rows[k]? = some r ∧
        r.cnt = @List.countP _ (fun r => @decide (q r) (Classical.dec _)) j.recs ∧
        ((∀ r ∈ j.recs, q r → r.z ≠ none) → Describes (knownTargets j.recs q) r.cnt r.sum r.var) ∧
        ((∃ r ∈ j.recs, q r ∧ r.z = none) → r.sum = none ∧ r.var = none) := by
  classical
  obtain ⟨sel, hf⟩ := j.facts h
  have hl := hf.geo.length
  refine ⟨by rw [hf.rows]; simp [hl], ?_⟩
  have known : ∀ l : List (Option ℚ), (∀ z ∈ l, z ≠ none) → allKnown l = some (l.filterMap id) := by
    intro l hl
    exact if_neg fun hn => hl none hn rfl
  have unknown : ∀ l : List (Option ℚ), none ∈ l → allKnown l = none := fun l hl => if_pos hl
  have key : ∀ (b : Rec2 α β ℚ → Bool) (q : Rec2 α β ℚ → Prop), (∀ r, b r = true ↔ q r) →
      let r := rowOfTargets ((j.recs.filter b).map Rec2.z)
      r.cnt = j.recs.countP (fun r => decide (q r)) ∧
        ((∀ r ∈ j.recs, q r → r.z ≠ none) → Describes (knownTargets j.recs q) r.cnt r.sum r.var) ∧
        ((∃ r ∈ j.recs, q r ∧ r.z = none) → r.sum = none ∧ r.var = none) := by
    intro b q hb
    have eb : b = fun r => decide (q r) := by
      funext r
      rw [Bool.eq_iff_iff, hb, decide_eq_true_eq]
    subst eb
    refine ⟨?_, ?_, ?_⟩
    · simp [rowOfTargets, List.countP_eq_length_filter]
    · intro hz
      have hk := known ((j.recs.filter fun r => decide (q r)).map Rec2.z) (by
        intro z hz'
        obtain ⟨r, hr, rfl⟩ := List.mem_map.1 hz'
        rw [List.mem_filter, decide_eq_true_eq] at hr
        exact hz r hr.1 hr.2)
      have et : ((j.recs.filter fun r => decide (q r)).map Rec2.z).filterMap id = knownTargets j.recs q := by
        rw [List.filterMap_map]; rfl
      rw [et] at hk
      have hlen : ((j.recs.filter fun r => decide (q r)).map Rec2.z).length = (knownTargets j.recs q).length := by
        rw [← et]
        have : ∀ l : List (Option ℚ), none ∉ l → l.length = (l.filterMap id).length := by
          intro l
          induction l with
          | nil => intro _; rfl
          | cons z l ih =>
            intro ht
            rcases z with _ | z
            · simp at ht
            · simp [ih (fun h => ht (List.mem_cons_of_mem _ h))]
        refine this _ fun hn => ?_
        obtain ⟨r, hr, hrz⟩ := List.mem_map.1 hn
        rw [List.mem_filter, decide_eq_true_eq] at hr
        exact hz r hr.1 hr.2 hrz
      simp only [rowOfTargets, sumNaN, hk, Option.map_some]
      refine ⟨hlen, rfl, fun hne => ?_⟩
      have : (knownTargets j.recs q).length ≠ 0 := fun h0 => hne (List.length_eq_zero_iff.1 h0)
      rw [if_neg (by rw [hlen]; exact this)]
      rfl
    · rintro ⟨r, hr, hq, hz⟩
      have hn : none ∈ (j.recs.filter fun r => decide (q r)).map Rec2.z := by
        rw [List.mem_map]
        exact ⟨r, by rw [List.mem_filter, decide_eq_true_eq]; exact ⟨hr, hq⟩, hz⟩
      have hne : ((j.recs.filter fun r => decide (q r)).map Rec2.z).length ≠ 0 := by
        intro h0
        rw [List.length_eq_zero_iff.1 h0] at hn
        simp at hn
      simp only [rowOfTargets, sumNaN, unknown _ hn, Option.map_none, if_neg hne, and_self]
  intro k q hkq
  rcases hkq with ⟨rfl, rfl⟩ | ⟨rfl, rfl⟩
  · refine ⟨rowOfTargets (special2D j.scx j.scy j.recs), ?_, key (fun r => r.isSpecial j.scx j.scy) _ fun r => ?_⟩
    · rw [hf.rows, List.getElem?_append_right (by simp [hl])]; simp [hl]
    · simp [Rec2.isSpecial, isCode_iff, RecSpecial]
  · refine ⟨rowOfTargets (missing2D j.recs), ?_, key Rec2.isMissing _ fun r => ?_⟩
    · rw [hf.rows, List.getElem?_append_right (by simp [hl])]; simp [hl]
    · simp [Rec2.isMissing, RecMissing, or_assoc]

open Classical in
/-- **C88 (with finding).** The total "Count" is the number of training records plus the number of records which are both
missing and special: those are counted twice.  If all targets are known, the total "Sum" likewise is the sum of all targets
plus that of the records counted twice. -/
theorem C88_totals (j : JobC2D α β Q) (h : j.Succeeds) :
    tRecords2 j.fit.rows = j.recs.length + j.recs.countP (fun r => decide (RecMissing r ∧ RecSpecial j.scx j.scy r)) ∧
    ((∀ r ∈ j.recs, r.z ≠ none) → tSum2 j.fit.rows = (knownTargets j.recs fun _ => True).sum +
      (knownTargets j.recs fun r => RecMissing r ∧ RecSpecial j.scx j.scy r).sum) := by
  obtain ⟨sel, hf⟩ := j.facts h
  have hrect : ∀ t ∈ sel, t ∈ allRects j.prepared.m j.prepared.n := hf.geo.covers.rects
  have inAll : ∀ r ∈ j.prepared.clean, (Block.mk 0 j.prepared.m 0 j.prepared.n).Mem (j.prepared.row r.2.1) (j.prepared.col r.1) :=
    fun r _ => ⟨Nat.zero_le _, j.prepared.row_lt _, Nat.zero_le _, j.prepared.col_lt _⟩
  have hall : (j.prepared.clean.filter fun r => decide ((Block.mk 0 j.prepared.m 0 j.prepared.n).Mem (j.prepared.row r.2.1)
      (j.prepared.col r.1))) = j.prepared.clean := List.filter_eq_self.2 fun r hr => by simpa using inAll r hr
  have cnt : (sel.map fun t => t.block.total j.prepared.records).sum = j.prepared.clean.length := by
    rw [sum_sel hf.geo.covers fun b => b.total j.prepared.records, tiling_total hf.geo.covers.tiling]
    have := cell_count j.prepared ⟨0, j.prepared.m, 0, j.prepared.n⟩
    rw [hall] at this
    simpa [Block.total, Nat.Ico_zero_eq_range] using this
  have sm : (sel.map fun t => t.block.total j.prepared.sums).sum = (j.prepared.clean.map fun r => r.2.2).sum := by
    rw [sum_sel hf.geo.covers fun b => b.total j.prepared.sums, tiling_total hf.geo.covers.tiling]
    have := cell_total j.prepared id ⟨0, j.prepared.m, 0, j.prepared.n⟩
    rw [hall] at this
    simpa [Block.total, Nat.Ico_zero_eq_range, Prepared2D.sums] using this
  have hclean : j.prepared.clean.map (fun r => r.2.2) =
      knownTargets j.recs fun r => ¬ RecMissing r ∧ ¬ RecSpecial j.scx j.scy r := by
    have := clean_targets j.scx j.scy j.recs fun _ _ => True
    simp only [decide_true, List.filter_true] at this
    have e : j.prepared.clean = clean2D j.scx j.scy j.recs := rfl
    rw [e, this]
    congr 1
    funext r
    refine propext ⟨fun h => ⟨h.1, h.2.1⟩, fun h => ⟨h.1, h.2, ?_⟩⟩
    have h1 := h.1
    obtain ⟨x, y, z⟩ := r
    rcases x with _ | u
    · exact absurd (Or.inl rfl) h1
    rcases y with _ | v
    · exact absurd (Or.inr (Or.inl rfl)) h1
    exact ⟨u, v, rfl, rfl, trivial⟩
  have hmi : ∀ r : Rec2 α β ℚ, r.isMissing = true ↔ RecMissing r := fun r => by simp [Rec2.isMissing, RecMissing, or_assoc]
  have hsp : ∀ r : Rec2 α β ℚ, r.isSpecial j.scx j.scy = true ↔ RecSpecial j.scx j.scy r := fun r => by
    simp [Rec2.isSpecial, isCode_iff, RecSpecial]
  have lenClean : j.prepared.clean.length = j.recs.countP fun r => decide (¬ RecMissing r ∧ ¬ RecSpecial j.scx j.scy r) := by
    have e : j.prepared.clean.length = (j.prepared.clean.map fun r => r.2.2).length := by simp
    rw [e, hclean]
    generalize j.recs = l
    induction l with
    | nil => rfl
    | cons r l ih =>
      by_cases hq : ¬ RecMissing r ∧ ¬ RecSpecial j.scx j.scy r
      · rw [knownTargets_pos hq, List.countP_cons_of_pos (by simpa using hq), List.length_append, ih]
        rcases hz : r.z with _ | z
        · exact absurd (Or.inr (Or.inr hz)) hq.1
        · simp [Nat.add_comm]
      · rw [knownTargets_neg hq, List.countP_cons_of_neg (by simpa using hq), ih]
  constructor
  · rw [tRecords2, hf.rows, List.map_append, List.sum_append, List.map_map]
    have e : (sel.map (Row2C.cnt ∘ rowOfRect j.prepared.n j.prepared.records j.prepared.sums j.prepared.squares)) =
        sel.map fun t => t.block.total j.prepared.records := by
      refine List.map_congr_left fun t ht => ?_
      simp [rowOfRect_eq (hrect t ht)]
    rw [e, cnt, lenClean]
    simp only [List.map_cons, List.map_nil, List.sum_cons, List.sum_nil, rowOfTargets, special2D, missing2D, List.length_map,
      ← List.countP_eq_length_filter]
    generalize j.recs = l
    induction l with
    | nil => rfl
    | cons r l ih =>
      have e1 : ∀ r : Rec2 α β ℚ, decide (¬ RecMissing r ∧ ¬ RecSpecial j.scx j.scy r) =
          (!r.isMissing && !r.isSpecial j.scx j.scy) := fun r => by
        rw [Bool.eq_iff_iff]; simp [← hmi, ← hsp]
      have e2 : ∀ r : Rec2 α β ℚ, decide (RecMissing r ∧ RecSpecial j.scx j.scy r) =
          (r.isMissing && r.isSpecial j.scx j.scy) := fun r => by
        rw [Bool.eq_iff_iff]; simp [← hmi, ← hsp]
      simp only [e1, e2] at ih ⊢
      simp only [List.countP_cons, List.length_cons]
      cases r.isMissing <;> cases r.isSpecial j.scx j.scy <;> simp <;> omega
  · intro hz
    have known : ∀ (b : Rec2 α β ℚ → Bool) (q : Rec2 α β ℚ → Prop), (∀ r, b r = true ↔ q r) →
        (rowOfTargets ((j.recs.filter b).map Rec2.z)).sum = some (knownTargets j.recs q).sum := by
      intro b q hb
      have eb : b = fun r => decide (q r) := by
        funext r
        rw [Bool.eq_iff_iff, hb, decide_eq_true_eq]
      subst eb
      have hn : none ∉ (j.recs.filter fun r => decide (q r)).map Rec2.z := by
        intro hn
        obtain ⟨r, hr, hrz⟩ := List.mem_map.1 hn
        exact hz r (List.mem_filter.1 hr).1 hrz
      simp only [rowOfTargets, sumNaN, allKnown, if_neg hn, Option.map_some, List.filterMap_map, knownTargets]
      rfl
    rw [tSum2, hf.rows, List.map_append, List.map_map, nansum, List.filterMap_append, List.sum_append]
    have e : (sel.map (Row2C.sum ∘ rowOfRect j.prepared.n j.prepared.records j.prepared.sums j.prepared.squares)) =
        (sel.map fun t => t.block.total j.prepared.sums).map some := by
      rw [List.map_map]
      refine List.map_congr_left fun t ht => ?_
      simp [rowOfRect_eq (hrect t ht)]
    rw [e, List.filterMap_map, show (id ∘ some : ℚ → Option ℚ) = some from rfl, List.filterMap_some, sm, hclean]
    simp only [List.map_cons, List.map_nil, special2D, missing2D, known _ _ hsp, known _ _ hmi]
    simp only [List.filterMap_cons, id, List.filterMap_nil, List.sum_cons, List.sum_nil]
    clear known cnt sm hclean lenClean e hall inAll
    generalize j.recs = l at hz
    induction l with
    | nil => simp [knownTargets]
    | cons r l ih =>
      have ih := ih fun r hr => hz r (List.mem_cons_of_mem _ hr)
      obtain ⟨z, hz'⟩ := Option.ne_none_iff_exists'.1 (hz r List.mem_cons_self)
      rw [knownTargets_pos (q := fun _ => True) trivial]
      by_cases h1 : RecMissing r <;> by_cases h2 : RecSpecial j.scx j.scy r
      · rw [knownTargets_neg (q := fun r => ¬ RecMissing r ∧ ¬ RecSpecial j.scx j.scy r) (by tauto), knownTargets_pos h1, knownTargets_pos h2,
          knownTargets_pos (q := fun r => RecMissing r ∧ RecSpecial j.scx j.scy r) ⟨h1, h2⟩]
        simp only [hz', Option.toList_some, List.sum_append, List.sum_singleton]
        linarith
      · rw [knownTargets_neg (q := fun r => ¬ RecMissing r ∧ ¬ RecSpecial j.scx j.scy r) (by tauto), knownTargets_pos h1, knownTargets_neg h2,
          knownTargets_neg (q := fun r => RecMissing r ∧ RecSpecial j.scx j.scy r) (by tauto)]
        simp only [hz', Option.toList_some, List.sum_append, List.sum_singleton]
        linarith
      · rw [knownTargets_neg (q := fun r => ¬ RecMissing r ∧ ¬ RecSpecial j.scx j.scy r) (by tauto), knownTargets_neg h1, knownTargets_pos h2,
          knownTargets_neg (q := fun r => RecMissing r ∧ RecSpecial j.scx j.scy r) (by tauto)]
        simp only [hz', Option.toList_some, List.sum_append, List.sum_singleton]
        linarith
      · rw [knownTargets_pos (q := fun r => ¬ RecMissing r ∧ ¬ RecSpecial j.scx j.scy r) ⟨h1, h2⟩, knownTargets_neg h1, knownTargets_neg h2,
          knownTargets_neg (q := fun r => RecMissing r ∧ RecSpecial j.scx j.scy r) (by tauto)]
        simp only [hz', Option.toList_some, List.sum_append, List.sum_singleton]
        linarith

/-- **C88.** If all targets are known, the total IV is `Σ |mean of the row - total mean| · share of the row`, over all rows. -/
theorem C88_iv (j : JobC2D α β Q) (h : j.Succeeds) (hz : ∀ r ∈ j.recs, r.z ≠ none) :
    ∃ means : List ℚ, means.length = j.fit.rows.length ∧
      (∀ i (hi : i < j.fit.rows.length) (hm : i < means.length), j.fit.rows[i].mean = some means[i]) ∧
      tIv2 j.fit.rows = some (List.zipWith (fun (r : Row2C) (m : ℚ) => |m - tMean2 j.fit.rows| * r.share j.fit.rows)
        j.fit.rows means).sum ∧
      tWoe2 j.fit.rows = some (means.map fun m => |m - tMean2 j.fit.rows|).sum := by
  have hsome : ∀ r ∈ j.fit.rows, r.mean ≠ none := by
    intro r hr
    obtain ⟨hlen, hrows⟩ := C88_special_missing_rows j h
    obtain ⟨i, hi, rfl⟩ := List.getElem_of_mem hr
    rw [Row2C.mean]
    split_ifs with hc
    · rw [ne_eq, Option.map_eq_none_iff]
      by_cases hb : i < j.fit.boxes.length
      · obtain ⟨r, hr', _, hd, _⟩ := C88_rows j h hb
        rw [List.getElem?_eq_getElem hi] at hr'
        cases hr'
        rw [hd.2.1]; simp
      · by_cases hs : i = j.fit.boxes.length
        · obtain ⟨r, hr', _, hd, _⟩ := hrows i _ (Or.inl ⟨hs, rfl⟩)
          rw [List.getElem?_eq_getElem hi] at hr'
          cases hr'
          rw [(hd fun r hr _ => hz r hr).2.1]; simp
        · obtain ⟨r, hr', _, hd, _⟩ := hrows i _ (Or.inr ⟨by omega, rfl⟩)
          rw [List.getElem?_eq_getElem hi] at hr'
          cases hr'
          rw [(hd fun r hr _ => hz r hr).2.1]; simp
    · simp
  have known : ∀ (l : List Row2C), (∀ r ∈ l, r.mean ≠ none) → ∀ (f : Row2C → ℚ → ℚ), sumNaN (l.map fun r => r.mean.map (f r)) =
      some (List.zipWith f l (l.map fun r => r.mean.getD 0)).sum := by
    intro l hl f
    have hn : none ∉ l.map fun r => r.mean.map (f r) := by
      intro hn
      obtain ⟨r, hr, hrn⟩ := List.mem_map.1 hn
      exact hl r hr (Option.map_eq_none_iff.1 hrn)
    rw [sumNaN, allKnown, if_neg hn, Option.map_some, List.filterMap_map]
    congr 2
    clear hn
    induction l with
    | nil => rfl
    | cons r l ih =>
      obtain ⟨m, hm⟩ := Option.ne_none_iff_exists'.1 (hl r List.mem_cons_self)
      simp only [List.filterMap_cons, List.map_cons, List.zipWith_cons_cons, Function.comp, hm, Option.map_some, id,
        Option.getD_some]
      rw [← ih fun r hr => hl r (List.mem_cons_of_mem _ hr)]
      rfl
  refine ⟨j.fit.rows.map fun r => r.mean.getD 0, by simp, fun i hi hm => ?_, ?_, ?_⟩
  · obtain ⟨m, hm⟩ := Option.ne_none_iff_exists'.1 (hsome _ (List.getElem_mem hi))
    simp [hm]
  · rw [← known _ hsome, tIv2]
    congr 1
    refine List.map_congr_left fun r _ => ?_
    simp only [Row2C.iv, Row2C.woe, Option.map_map]
    rfl
  · have := known _ hsome fun _ m => |m - tMean2 j.fit.rows|
    rw [tWoe2]
    simp only [Row2C.woe, Option.map_map]
    refine this.trans ?_
    congr 2
    rw [List.zipWith_map_right, List.zipWith_self, List.map_map]
    rfl

/-- **C88 (finding).** One training record with a missing target (`check_input=False`) makes the total IV and WoE of the
table NaN. -/
theorem C88_missing_target_iv_nan (j : JobC2D α β Q) (h : j.Succeeds) (hz : ∃ r ∈ j.recs, r.z = none) :
    tIv2 j.fit.rows = none ∧ tWoe2 j.fit.rows = none := by
  obtain ⟨_, hrows⟩ := C88_special_missing_rows j h
  obtain ⟨r, hr, hcnt, _, hn⟩ := hrows _ _ (Or.inr ⟨rfl, rfl⟩)
  obtain ⟨r0, hr0, hz0⟩ := hz
  have hmis : RecMissing r0 := Or.inr (Or.inr hz0)
  have hs := (hn ⟨r0, hr0, hmis, hz0⟩).1
  have hpos : 0 < r.cnt := by
    rw [hcnt, List.countP_pos_iff]
    exact ⟨r0, hr0, by simpa using hmis⟩
  have hmean : r.mean = none := by simp [Row2C.mean, hs]; omega
  have hmem : r ∈ j.fit.rows := List.mem_of_getElem? hr
  constructor
  · rw [tIv2, sumNaN, allKnown, if_pos, Option.map_none]
    rw [List.mem_map]
    exact ⟨r, hmem, by simp [Row2C.iv, Row2C.woe, hmean]⟩
  · rw [tWoe2, sumNaN, allKnown, if_pos, Option.map_none]
    rw [List.mem_map]
    exact ⟨r, hmem, by simp [Row2C.woe, hmean]⟩

/-! ## C87: the mean transform -/

/-- **C87.** For a clean pair of known values in bin `i`, `transform(metric="mean")` returns the mean of the targets of the
training records in bin `i`, whatever `metric_special` and `metric_missing` are. -/
theorem C87_transform_mean (j : JobC2D α β Q) (h : j.Succeeds) {u : α} {v : β} (hu : Known j.fit.axisX u)
    (hv : Known j.fit.axisY v) (hx : ¬ IsCode j.scx (some u)) (hy : ¬ IsCode j.scy (some v)) (ms mm : Option ℚ) {i : ℕ}
    (hi : i < j.fit.boxes.length) (hb : InBox j.fit.axisX j.fit.axisY j.fit.boxes[i] u v) :
    j.fit.mean j.scx j.scy ms mm (some u) (some v) = some (Spec.mean (j.binTargets i hi)) := by
  obtain ⟨sel, hf⟩ := j.facts h
  obtain ⟨r, hr, _, _, hm⟩ := C88_rows j h hi
  simp only [FittedC2D.mean]
  rw [transform2D_clean hx hy, hf.geo.transform h.wellFormed _ _ hu hv hi hb, List.getD_eq_getElem?_getD, List.getElem?_map]
  have : (if ms.isSome && mm.isSome then j.fit.rows.take j.fit.boxes.length else j.fit.rows)[i]? = some r := by
    split_ifs
    · rw [List.getElem?_take_of_lt hi, hr]
    · exact hr
  rw [this]
  simpa using hm

/-- **C87.** A pair with a missing value gets the given `metric_missing` or, for `"empirical"`, the mean of the missing row
of the table; a pair with a special code and no missing value gets the given `metric_special` or the mean of the special
row. -/
theorem C87_transform_special_missing (j : JobC2D α β Q) (h : j.Succeeds) (ms mm : Option ℚ) (x : Option α) (y : Option β) :
    ((x = none ∨ y = none) → ∃ r, j.fit.rows[j.fit.boxes.length + 1]? = some r ∧
      j.fit.mean j.scx j.scy ms mm x y = (mm.map some).getD r.mean) ∧
    (¬ (x = none ∨ y = none) → (IsCode j.scx x ∨ IsCode j.scy y) → ∃ r, j.fit.rows[j.fit.boxes.length]? = some r ∧
      j.fit.mean j.scx j.scy ms mm x y = (ms.map some).getD r.mean) := by
  obtain ⟨_, hrows⟩ := C88_special_missing_rows j h
  obtain ⟨r1, hr1, _⟩ := hrows _ _ (Or.inl ⟨rfl, rfl⟩)
  obtain ⟨r2, hr2, _⟩ := hrows _ _ (Or.inr ⟨rfl, rfl⟩)
  constructor
  · intro hm
    refine ⟨r2, hr2, ?_⟩
    have : (x.isNone || y.isNone) = true := by
      rcases hm with rfl | rfl <;> simp
    simp only [FittedC2D.mean, transform2D, this]
    cases mm with
    | some c => simp
    | none => simp [List.getD_eq_getElem?_getD, List.getElem?_map, hr2]
  · intro hm hc
    refine ⟨r1, hr1, ?_⟩
    have hm : (x.isNone || y.isNone) = false := by
      rw [Bool.or_eq_false_iff, Option.isNone_eq_false_iff, Option.isNone_eq_false_iff, Option.isSome_iff_ne_none,
        Option.isSome_iff_ne_none]
      push Not at hm
      exact hm
    have hs : (isCode j.scx x || isCode j.scy y) = true := by
      rw [Bool.or_eq_true, isCode_iff, isCode_iff]; exact hc
    have hne : ((j.scx.any fun l => !l.isEmpty) || (j.scy.any fun l => !l.isEmpty)) = true := by
      rcases hc with ⟨l, hl', hl⟩ | ⟨l, hl', hl⟩
      · have : l ≠ [] := List.ne_nil_of_mem hl
        simp [this, hl']
      · have : l ≠ [] := List.ne_nil_of_mem hl
        simp [this, hl']
    simp only [FittedC2D.mean, transform2D, hm, hs, hne]
    cases ms with
    | some c => simp
    | none => simp [List.getD_eq_getElem?_getD, List.getElem?_map, hr1]

/-- **C87 (finding).** A clean pair which lies in no bin — an unseen category or the number `inf` — gets the index 0 of the
first bin and the mean 0. -/
theorem C87_unknown (j : JobC2D α β Q) (h : j.Succeeds) {u : α} {v : β}
    (hu : ¬ Known j.fit.axisX u ∨ ¬ Known j.fit.axisY v) (hx : ¬ IsCode j.scx (some u)) (hy : ¬ IsCode j.scy (some v))
    (ms mm : Option ℤ) (ms' mm' : Option ℚ) :
    j.fit.indices j.scx j.scy ms mm (some u) (some v) = 0 ∧ j.fit.mean j.scx j.scy ms' mm' (some u) (some v) = some 0 := by
  obtain ⟨sel, hf⟩ := j.facts h
  have key : ∀ {γ : Type} (ax : Axis γ) (lo hi : EQ) (w : γ), OnRange ax lo hi w → Known ax w := by
    intro γ ax lo hi w hw
    cases ax with
    | numerical val =>
      have : val w < hi := hw.2
      exact ne_top_of_lt this
    | categorical cats =>
      obtain ⟨k, hk, _⟩ := hw
      exact List.mem_of_getElem? hk
  have hno : ∀ i (hi : i < j.fit.boxes.length), ¬ InBox j.fit.axisX j.fit.axisY j.fit.boxes[i] u v := by
    rintro i hi ⟨h1, h2⟩
    rcases hu with hu | hu
    · exact hu (key _ _ _ _ h1)
    · exact hu (key _ _ _ _ h2)
  simp only [FittedC2D.indices, FittedC2D.mean]
  rw [transform2D_clean hx hy, transform2D_clean hx hy]
  exact ⟨hf.geo.transform_none h.wellFormed _ _ hno, hf.geo.transform_none h.wellFormed _ _ hno⟩

/-! ## C89: limits and trends -/

/-- The mean of the training targets of bin `i` (0 if there is no such bin). -/
noncomputable def JobC2D.binMean (j : JobC2D α β Q) (i : ℕ) : ℚ :=
  if hi : i < j.fit.boxes.length then Spec.mean (j.binTargets i hi) else 0

theorem FactsC2D.binMean {j : JobC2D α β Q} {sel : List Rect}
    (hf : FactsC2D j.scx j.scy j.opts j.recs j.init j.prepared j.fit sel) (hw : j.prepared.WellFormed) (i : ℕ)
    (hi : i < sel.length) : j.binMean i = blockMean j.prepared.records j.prepared.sums sel[i].block := by
  have hl := hf.geo.length
  have hi' : i < j.fit.boxes.length := by omega
  obtain ⟨e1, e2, _⟩ := hf.totals hw hi hi'
  rw [JobC2D.binMean, dif_pos hi', blockMean, e1, e2, Spec.mean]

/-- **C89.** Every bin of a successful fit has at least one clean training record and respects the limits on its size, and
the number of bins respects its limits. (`max_bin_size` is rounded up to a number of records.) -/
theorem C89_limits (j : JobC2D α β Q) (h : j.Succeeds) :
    (∀ i (hi : i < j.fit.boxes.length),
      0 < (j.binTargets i hi).length ∧
      (∀ q, j.minBinSize = some q → q * j.recs.length ≤ (j.binTargets i hi).length) ∧
      (∀ q, j.maxBinSize = some q → ((j.binTargets i hi).length : ℚ) < q * j.recs.length + 1)) ∧
    Within j.o.minBins j.o.maxBins (j.fit.boxes.length : ℕ) := by
  obtain ⟨sel, hf⟩ := j.facts h
  have hl := hf.geo.length
  have ha := hf.admissible
  constructor
  · intro i hi
    have his : i < sel.length := by omega
    have hm := Geo.mem his
    obtain ⟨e1, _, _⟩ := hf.totals h.wellFormed his hi
    rw [← e1]
    refine ⟨ha.nonempty _ hm, ?_, ?_⟩
    · intro q hq
      have := (ha.size _ hm).1 ⌈q * (j.recs.length : ℚ)⌉ (by simp [JobC2D.opts, absoluteSizes, hq])
      have h2 := Int.le_ceil (q * (j.recs.length : ℚ))
      have h3 : ((⌈q * (j.recs.length : ℚ)⌉ : ℤ) : ℚ) ≤ (((sel[i].block.total j.prepared.records : ℕ) : ℤ) : ℚ) := by
        exact_mod_cast this
      push_cast at h3 ⊢
      linarith
    · intro q hq
      have := (ha.size _ hm).2 ⌈q * (j.recs.length : ℚ)⌉ (by simp [JobC2D.opts, absoluteSizes, hq])
      have h2 := Int.ceil_lt_add_one (q * (j.recs.length : ℚ))
      have h3 : (((sel[i].block.total j.prepared.records : ℕ) : ℤ) : ℚ) ≤ ((⌈q * (j.recs.length : ℚ)⌉ : ℤ) : ℚ) := by
        exact_mod_cast this
      push_cast at h3 ⊢
      linarith
  · have : (sel.map Rect.block).toFinset.card = sel.length := by
      rw [List.toFinset_card_of_nodup (hf.geo.covers.nodup.map Rect.block_injective), List.length_map]
    have hn := ha.number
    rw [this, ← hl] at hn
    exact hn

/-- **C89.** Neighbouring bins follow the requested trends: along `x` (along `y`) the mean of the next bin is larger
(smaller) by more than the requested minimum difference. -/
theorem C89_neighbours (j : JobC2D α β Q) (h : j.Succeeds) {i k : ℕ} (hi : i < j.fit.boxes.length)
    (hk : k < j.fit.boxes.length) :
    (BoxNextX j.fit.boxes[i] j.fit.boxes[k] → StepOK j.o.trendX j.o.minDiffX (j.binMean i) (j.binMean k)) ∧
    (BoxNextY j.fit.boxes[i] j.fit.boxes[k] → StepOK j.o.trendY j.o.minDiffY (j.binMean i) (j.binMean k)) := by
  obtain ⟨sel, hf⟩ := j.facts h
  exact hf.geo.neighbours h.wellFormed hf.admissible.trends (hf.binMean h.wellFormed) hi hk

/-- **C89.** Moving along `x` with `y` fixed, the mean of the bin never moves against the requested trend of `x`; the same
along `y`.  (For a category the position is its rank.) -/
theorem C89_along_lines (j : JobC2D α β Q) (h : j.Succeeds) {u u' : α} {v v' : β} (hu : Known j.fit.axisX u)
    (hu' : Known j.fit.axisX u') (hv : Known j.fit.axisY v) (hv' : Known j.fit.axisY v') {i k : ℕ}
    (hi : i < j.fit.boxes.length) (hk : k < j.fit.boxes.length)
    (hib : InBox j.fit.axisX j.fit.axisY j.fit.boxes[i] u v) (hkb : InBox j.fit.axisX j.fit.axisY j.fit.boxes[k] u' v') :
    (v = v' → j.fit.axisX.code u ≤ j.fit.axisX.code u' → 0 ≤ j.o.minDiffX →
      (j.o.trendX = some .ascending → j.binMean i ≤ j.binMean k) ∧
      (j.o.trendX = some .descending → j.binMean k ≤ j.binMean i)) ∧
    (u = u' → j.fit.axisY.code v ≤ j.fit.axisY.code v' → 0 ≤ j.o.minDiffY →
      (j.o.trendY = some .ascending → j.binMean i ≤ j.binMean k) ∧
      (j.o.trendY = some .descending → j.binMean k ≤ j.binMean i)) := by
  obtain ⟨sel, hf⟩ := j.facts h
  exact hf.geo.along_lines h.wellFormed hf.admissible.trends (hf.binMean h.wellFormed) hu hu' hv hv' hi hk hib hkb

end OptBinning
