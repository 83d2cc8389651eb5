import Verif.Lemmas.Records2D

/-!
# C43–C46: two-dimensional binning of a binary target — bins, transform, table, constraints, trends
-/
namespace OptBinning

open Spec

set_option linter.unusedSectionVars false

variable {α β : Type} [DecidableEq α] [DecidableEq β] {R : Type} [CommRing R] [LinearOrder R] [IsStrictOrderedRing R]

theorem Job2D.facts (j : Job2D α β R) (h : j.Succeeds) :
    ∃ sel, Facts2D j.scx j.scy j.opts j.recs j.prepared j.fit sel := by
  obtain ⟨sel, _, _, _, _, hf⟩ := fit2D_facts (scx := j.scx) (scy := j.scy) (o := j.opts) (coef := j.coef) (gamma := j.gamma)
    (reg := j.reg) (solver := j.solver j.opts) (init := j.init) (recs := j.recs) (p := j.prepared) (h.solver _) h.status
  exact ⟨sel, hf⟩

theorem Facts2D.inside {scx : Option (List (Option α))} {scy : Option (List (Option β))} {o : Opts2D}
    {recs : List (Rec2 α β Bool)} {p : Prepared2D α β Bool} {f : Fitted2D α β} {sel : List Rect}
    (hf : Facts2D scx scy o recs p f sel) {i : ℕ} (hi : i < sel.length) : sel[i].block.Inside p.m p.n :=
  allRects_inside (hf.covers.rects _ (List.getElem_mem hi))

theorem Facts2D.inBox {scx : Option (List (Option α))} {scy : Option (List (Option β))} {o : Opts2D}
    {recs : List (Rec2 α β Bool)} {p : Prepared2D α β Bool} {f : Fitted2D α β} {sel : List Rect}
    (hf : Facts2D scx scy o recs p f sel) (hw : p.WellFormed) {u : α} {v : β} (hu : Known f.axisX u)
    (hv : Known f.axisY v) {i : ℕ} (hi : i < f.boxes.length) (hi' : i < sel.length) :
    InBox f.axisX f.axisY f.boxes[i] u v ↔ sel[i].block.Mem (p.row v) (p.col u) := by
  rw [hf.axisX] at hu ⊢
  rw [hf.axisY] at hv ⊢
  rw [← Prepared2D.inBox_iff hw (hf.inside hi') hu hv]
  simp only [hf.boxes, List.getElem_map]

/-- **C43.** After a successful fit every pair of known values lies in exactly one of the bins. -/
theorem C43_partition (j : Job2D α β R) (h : j.Succeeds) {u : α} {v : β} (hu : Known j.fit.axisX u)
    (hv : Known j.fit.axisY v) :
    ∃! i, ∃ hi : i < j.fit.boxes.length, InBox j.fit.axisX j.fit.axisY j.fit.boxes[i] u v := by
  obtain ⟨sel, hf⟩ := j.facts h
  have hl : j.fit.boxes.length = sel.length := by rw [hf.boxes]; simp
  obtain ⟨i, hi, hm, hun⟩ := hf.covers.exists_unique (j.prepared.row_lt v) (j.prepared.col_lt u)
  refine ⟨i, ⟨by omega, (hf.inBox h.wellFormed hu hv _ hi).2 hm⟩, ?_⟩
  rintro k ⟨hk, hkm⟩
  exact hun k (by omega) ((hf.inBox h.wellFormed hu hv hk (by omega)).1 hkm)

theorem isCode_iff {γ : Type} [DecidableEq γ] (sc : Option (List (Option γ))) (x : Option γ) :
    isCode sc x = true ↔ IsCode sc x := by
  cases sc <;> simp [isCode, IsCode]

theorem isCode_false {γ : Type} [DecidableEq γ] {sc : Option (List (Option γ))} {x : Option γ} (h : ¬ IsCode sc x) :
    isCode sc x = false := by
  rw [← Bool.not_eq_true, isCode_iff]; exact h

theorem transform2D_clean {γ : Type} {ax : Axis α} {ay : Axis β} {boxes : List Box2} {scx : Option (List (Option α))}
    {scy : Option (List (Option β))} {mv : ℕ → γ} {fill dflt : γ} {ms mm : Option γ} {u : α} {v : β}
    (hx : ¬ IsCode scx (some u)) (hy : ¬ IsCode scy (some v)) :
    transform2D ax ay boxes scx scy mv fill dflt ms mm (some u) (some v) = transformClean2D ax ay boxes mv dflt u v := by
  simp [transform2D, isCode_false hx, isCode_false hy]

theorem boxes_lt (j : Job2D α β R) (h : j.Succeeds) {i : ℕ} (hi : i < j.fit.boxes.length) :
    j.fit.boxes[i].xlo < j.fit.boxes[i].xhi ∧ j.fit.boxes[i].ylo < j.fit.boxes[i].yhi := by
  obtain ⟨sel, hf⟩ := j.facts h
  have hl : j.fit.boxes.length = sel.length := by rw [hf.boxes]; simp
  have e : j.fit.boxes[i] = boxOf j.prepared.splitsX j.prepared.splitsY (sel[i]'(by omega)).block := by
    simp only [hf.boxes, List.getElem_map]
  rw [e]
  exact boxOf_lt h.wellFormed (hf.inside _)

theorem maskBox_iff (j : Job2D α β R) (h : j.Succeeds) (u : α) (v : β) {i : ℕ} (hi : i < j.fit.boxes.length) :
    (j.fit.axisX.inMask j.fit.boxes[i].xlo j.fit.boxes[i].xhi u &&
      j.fit.axisY.inMask j.fit.boxes[i].ylo j.fit.boxes[i].yhi v) = true ↔
      InBox j.fit.axisX j.fit.axisY j.fit.boxes[i] u v := by
  have := boxes_lt j h hi
  rw [Bool.and_eq_true, inMask_iff this.1, inMask_iff this.2]
  rfl

theorem transformClean_of_inBox (j : Job2D α β R) (h : j.Succeeds) {γ : Type} (mv : ℕ → γ) (dflt : γ) {u : α} {v : β}
    (hu : Known j.fit.axisX u) (hv : Known j.fit.axisY v) {i : ℕ} (hi : i < j.fit.boxes.length)
    (hb : InBox j.fit.axisX j.fit.axisY j.fit.boxes[i] u v) :
    transformClean2D j.fit.axisX j.fit.axisY j.fit.boxes mv dflt u v = mv i := by
  obtain ⟨k, ⟨hk, hkb⟩, hun⟩ := C43_partition j h hu hv
  have hik : i = k := hun i ⟨hi, hb⟩
  subst hik
  have := foldl_unique (fun b : Box2 => j.fit.axisX.inMask b.xlo b.xhi u && j.fit.axisY.inMask b.ylo b.yhi v) mv
    j.fit.boxes 0 dflt i hi ((maskBox_iff j h u v hi).2 hb) fun q hq hne => by
      rw [← Bool.not_eq_true, maskBox_iff j h u v hq]
      exact fun hqb => hne (hun q ⟨hq, hqb⟩)
  rw [Nat.zero_add] at this
  exact this

/-- **C43.** For a clean pair of known values, `transform(metric="indices")` returns the number of the bin which
contains the pair. -/
theorem C43_transform_indices (j : Job2D α β R) (h : j.Succeeds) {u : α} {v : β} (hu : Known j.fit.axisX u)
    (hv : Known j.fit.axisY v) (hx : ¬ IsCode j.scx (some u)) (hy : ¬ IsCode j.scy (some v)) (ms mm : Option ℤ) {i : ℕ}
    (hi : i < j.fit.boxes.length) :
    j.fit.indices j.scx j.scy ms mm (some u) (some v) = (i : ℤ) ↔ InBox j.fit.axisX j.fit.axisY j.fit.boxes[i] u v := by
  rw [Fitted2D.indices, transform2D_clean hx hy]
  constructor
  · intro he
    obtain ⟨k, ⟨hk, hkb⟩, hun⟩ := C43_partition j h hu hv
    rw [transformClean_of_inBox j h _ _ hu hv hk hkb] at he
    have : k = i := by exact_mod_cast he
    subst this
    exact hkb
  · intro hb
    exact transformClean_of_inBox j h _ _ hu hv hi hb

/-- **C43.** A pair with a missing value gets the value of the missing row or the given `metric_missing`; a pair with a
special code and no missing value gets the value of the special row or the given `metric_special`. -/
theorem C43_transform_special_missing (f : Fitted2D α β) (scx : Option (List (Option α))) (scy : Option (List (Option β)))
    (ms mm : Option ℤ) (x : Option α) (y : Option β) :
    ((x = none ∨ y = none) → f.indices scx scy ms mm x y = mm.getD (f.boxes.length + 1)) ∧
    (¬ (x = none ∨ y = none) → (IsCode scx x ∨ IsCode scy y) → f.indices scx scy ms mm x y = ms.getD f.boxes.length) := by
  constructor
  · intro h
    have : (x.isNone || y.isNone) = true := by
      rcases h with rfl | rfl <;> simp
    simp [Fitted2D.indices, transform2D, this]
  · intro h hc
    have hm : (x.isNone || y.isNone) = false := by
      rw [Bool.or_eq_false_iff, Option.isNone_eq_false_iff, Option.isNone_eq_false_iff, Option.isSome_iff_ne_none,
        Option.isSome_iff_ne_none]
      push Not at h
      exact h
    have hs : (isCode scx x || isCode scy y) = true := by
      rw [Bool.or_eq_true, isCode_iff, isCode_iff]; exact hc
    have hne : ((scx.any fun l => !l.isEmpty) || (scy.any fun l => !l.isEmpty)) = true := by
      rcases hc with ⟨l, rfl, hl⟩ | ⟨l, rfl, hl⟩
      · have : l ≠ [] := List.ne_nil_of_mem hl
        simp [this]
      · have : l ≠ [] := List.ne_nil_of_mem hl
        simp [this]
    simp only [Fitted2D.indices, transform2D, hm, hs, hne]
    simp

/-- **C43 (finding).** A clean pair which lies in no bin — a category not seen in training, or the number `inf` — gets the
index 0 of the first bin (`z_clean_transform` starts with zeros), not -1. -/
theorem C43_unknown_gets_first_bin (j : Job2D α β R) (h : j.Succeeds) {u : α} {v : β}
    (hno : ∀ i (hi : i < j.fit.boxes.length), ¬ InBox j.fit.axisX j.fit.axisY j.fit.boxes[i] u v)
    (hx : ¬ IsCode j.scx (some u)) (hy : ¬ IsCode j.scy (some v)) (ms mm : Option ℤ) :
    j.fit.indices j.scx j.scy ms mm (some u) (some v) = 0 := by
  rw [Fitted2D.indices, transform2D_clean hx hy]
  refine foldl_none2D (fun b : Box2 => j.fit.axisX.inMask b.xlo b.xhi u && j.fit.axisY.inMask b.ylo b.yhi v)
    (fun i => (i : ℤ)) j.fit.boxes 0 0 fun b hb => ?_
  obtain ⟨i, hi, rfl⟩ := List.getElem_of_mem hb
  rw [← Bool.not_eq_true, maskBox_iff j h u v hi]
  exact hno i hi

/-- Unseen categories and `inf` are in no bin. -/
theorem C43_unknown_in_no_bin (j : Job2D α β R) {u : α} {v : β}
    (hu : ¬ Known j.fit.axisX u ∨ ¬ Known j.fit.axisY v) {i : ℕ} (hi : i < j.fit.boxes.length) :
    ¬ InBox j.fit.axisX j.fit.axisY j.fit.boxes[i] u v := by
  have key : ∀ {γ : Type} (ax : Axis γ) (lo hi : EQ) (w : γ), OnRange ax lo hi w → Known ax w := by
    intro γ ax lo hi w hw
    cases ax with
    | numerical val =>
      have : val w < hi := hw.2
      exact ne_top_of_lt this
    | categorical cats =>
      obtain ⟨k, hk, _⟩ := hw
      exact List.mem_of_getElem? hk
  rintro ⟨h1, h2⟩
  rcases hu with hu | hu
  · exact hu (key _ _ _ _ h1)
  · exact hu (key _ _ _ _ h2)

/-! ## C44: the table -/

/-- The record is clean and its pair of values lies in bin `i`. -/
def InBin2D (j : Job2D α β R) (i : ℕ) (r : Rec2 α β Bool) : Prop :=
  ∃ u v, ∃ hi : i < j.fit.boxes.length, r.x = some u ∧ r.y = some v ∧ r.z ≠ none ∧ ¬ IsCode j.scx r.x ∧ ¬ IsCode j.scy r.y ∧
    InBox j.fit.axisX j.fit.axisY j.fit.boxes[i] u v

open Classical in
theorem countP_clean (scx : Option (List (Option α))) (scy : Option (List (Option β))) (recs : List (Rec2 α β Bool))
    (q : α × β × Bool → Bool) :
    (clean2D scx scy recs).countP q = recs.countP fun r => decide (∃ t, q t = true ∧ r.x = some t.1 ∧ r.y = some t.2.1 ∧
      r.z = some t.2.2 ∧ ¬ IsCode scx r.x ∧ ¬ IsCode scy r.y) := by
  rw [clean2D, List.countP_filterMap]
  refine List.countP_congr fun r _ => ?_
  obtain ⟨x, y, z⟩ := r
  simp only [Rec2.isSpecial, decide_eq_true_eq]
  by_cases hs : isCode scx x = true ∨ isCode scy y = true
  · have h1 : (isCode scx x || isCode scy y) = true := by simpa using hs
    rw [isCode_iff, isCode_iff] at hs
    simp only [h1, Bool.not_true, Bool.and_false, Bool.false_eq_true, if_false, Option.map_none, Option.getD_none,
      false_iff]
    rintro ⟨t, _, _, _, _, h3, h4⟩
    tauto
  · have h1 : (isCode scx x || isCode scy y) = false := by rw [← Bool.not_eq_true]; simpa using hs
    rw [isCode_iff, isCode_iff] at hs
    push Not at hs
    rcases x with _ | u
    · simp [Rec2.isMissing]
    rcases y with _ | v
    · simp [Rec2.isMissing]
    rcases z with _ | w
    · simp [Rec2.isMissing]
    simp only [Rec2.isMissing, h1]
    constructor
    · intro hq
      exact ⟨(u, v, w), by simpa using hq, rfl, rfl, rfl, hs.1, hs.2⟩
    · rintro ⟨⟨u', v', w'⟩, hq, h2, h3, h4, _⟩
      simp only [Option.some.injEq] at h2 h3 h4
      subst h2 h3 h4
      simpa using hq

theorem Facts2D.total_eq {j : Job2D α β R} {sel : List Rect} (hf : Facts2D j.scx j.scy j.opts j.recs j.prepared j.fit sel)
    (hw : j.prepared.WellFormed) (q : Bool → Bool) {i : ℕ} (hi : i < sel.length) (hi' : i < j.fit.boxes.length) :
    sel[i].block.total (fun a b => (j.prepared.cell a b).countP q) =
      j.prepared.clean.countP fun r => @decide (InBox j.fit.axisX j.fit.axisY j.fit.boxes[i] r.1 r.2.1) (Classical.dec _) && q r.2.2 := by
  rw [total_count]
  refine List.countP_congr fun r hr => ?_
  have hk := hw.known r hr
  have e := hf.inBox hw (hf.axisX ▸ hk.1) (hf.axisY ▸ hk.2) hi' hi
  simp only [Bool.and_eq_true, decide_eq_true_eq, e]

open Classical in
/-- **C44.** Row `i` of the binning table counts exactly the clean training records in bin `i`, by target. -/
theorem C44_rows (j : Job2D α β R) (h : j.Succeeds) {i : ℕ} (hi : i < j.fit.boxes.length) :
    j.fit.event.getD i 0 = (j.recs.countP fun r => decide (InBin2D j i r ∧ r.z = some true)) ∧
    j.fit.nonevent.getD i 0 = (j.recs.countP fun r => decide (InBin2D j i r ∧ r.z = some false)) := by
  obtain ⟨sel, hf⟩ := j.facts h
  have hl : j.fit.boxes.length = sel.length := by rw [hf.boxes]; simp
  have his : i < sel.length := by omega
  have key : ∀ (q : Bool → Bool) (w : Bool), (∀ z, q z = true ↔ z = w) →
      sel[i].block.total (fun a b => (j.prepared.cell a b).countP q) =
        j.recs.countP fun r => decide (InBin2D j i r ∧ r.z = some w) := by
    intro q w hq
    rw [hf.total_eq h.wellFormed q his hi]
    have : j.prepared.clean = clean2D j.scx j.scy j.recs := rfl
    rw [this, countP_clean]
    refine List.countP_congr fun r _ => ?_
    simp only [decide_eq_true_eq, Bool.and_eq_true, hq]
    constructor
    · rintro ⟨t, ⟨hb, hz⟩, h1, h2, h3, h4, h5⟩
      exact ⟨⟨t.1, t.2.1, hi, h1, h2, by rw [h3]; simp, h4, h5, hb⟩, by rw [h3, hz]⟩
    · rintro ⟨⟨u, v, _, h1, h2, _, h4, h5, hb⟩, hz⟩
      exact ⟨(u, v, w), ⟨hb, rfl⟩, h1, h2, hz, h4, h5⟩
  constructor
  · rw [hf.event, List.getD_append _ _ _ _ (by simpa using his), List.getD_eq_getElem _ _ (by simpa using his),
      List.getElem_map]
    exact key (fun z => z) true (by simp)
  · rw [hf.nonevent, List.getD_append _ _ _ _ (by simpa using his), List.getD_eq_getElem _ _ (by simpa using his),
      List.getElem_map]
    exact key (fun z => !z) false (by simp)

open Classical in
/-- **C44.** The last two rows count the records with a special code and the records with a missing value or target; a
missing target counts as an event. -/
theorem C44_special_missing_rows (j : Job2D α β R) (h : j.Succeeds) :
    j.fit.event.length = j.fit.boxes.length + 2 ∧ j.fit.nonevent.length = j.fit.boxes.length + 2 ∧
    j.fit.nonevent.getD j.fit.boxes.length 0 =
      (j.recs.countP fun r => decide ((IsCode j.scx r.x ∨ IsCode j.scy r.y) ∧ r.z = some false)) ∧
    j.fit.event.getD j.fit.boxes.length 0 =
      (j.recs.countP fun r => decide ((IsCode j.scx r.x ∨ IsCode j.scy r.y) ∧ r.z ≠ some false)) ∧
    j.fit.nonevent.getD (j.fit.boxes.length + 1) 0 =
      (j.recs.countP fun r => decide ((r.x = none ∨ r.y = none ∨ r.z = none) ∧ r.z = some false)) ∧
    j.fit.event.getD (j.fit.boxes.length + 1) 0 =
      (j.recs.countP fun r => decide ((r.x = none ∨ r.y = none ∨ r.z = none) ∧ r.z ≠ some false)) := by
  obtain ⟨sel, hf⟩ := j.facts h
  have hl : j.fit.boxes.length = sel.length := by rw [hf.boxes]; simp
  have hsp : ∀ q : Option Bool → Bool, (special2D j.scx j.scy j.recs).countP q =
      j.recs.countP fun r => decide ((IsCode j.scx r.x ∨ IsCode j.scy r.y) ∧ q r.z = true) := by
    intro q
    rw [special2D, List.countP_map, List.countP_filter]
    refine List.countP_congr fun r _ => ?_
    simp only [Function.comp, Rec2.isSpecial, Bool.and_eq_true, Bool.or_eq_true, isCode_iff, decide_eq_true_eq]
    tauto
  have hmi : ∀ q : Option Bool → Bool, (missing2D j.recs).countP q =
      j.recs.countP fun r => decide ((r.x = none ∨ r.y = none ∨ r.z = none) ∧ q r.z = true) := by
    intro q
    rw [missing2D, List.countP_map, List.countP_filter]
    refine List.countP_congr fun r _ => ?_
    simp only [Function.comp, Rec2.isMissing, Bool.and_eq_true, Bool.or_eq_true, Option.isNone_iff_eq_none, decide_eq_true_eq]
    tauto
  rw [hl, hf.event, hf.nonevent, hsp, hsp, hmi, hmi]
  refine ⟨by simp, by simp, ?_, ?_, ?_, ?_⟩
  · rw [List.getD_append_right _ _ _ _ (by simp)]; simp
  · rw [List.getD_append_right _ _ _ _ (by simp)]; simp
  · rw [List.getD_append_right _ _ _ _ (by simp)]; simp
  · rw [List.getD_append_right _ _ _ _ (by simp)]; simp

theorem total_indicator {S : Type*} [AddCommMonoid S] {m n : ℕ} {b : Block} (hb : b.Inside m n) (M : ℕ → ℕ → S) :
    b.total M = ∑ r ∈ Finset.range m, ∑ c ∈ Finset.range n, if b.Mem r c then M r c else 0 := by
  obtain ⟨h1, h2, h3, h4⟩ := hb
  have e1 : ∑ r ∈ Finset.range m, ∑ c ∈ Finset.range n, (if b.Mem r c then M r c else 0) =
      ∑ r ∈ Finset.range m, if b.top ≤ r ∧ r < b.bottom then ∑ c ∈ Finset.Ico b.left b.right, M r c else 0 := by
    refine Finset.sum_congr rfl fun r _ => ?_
    by_cases hr : b.top ≤ r ∧ r < b.bottom
    · simp only [hr, and_self, if_true]
      have : ∀ c, b.Mem r c ↔ c ∈ Finset.Ico b.left b.right := fun c => by
        simp only [Block.Mem, Finset.mem_Ico]; tauto
      simp only [this]
      rw [← Finset.sum_filter]
      congr 1
      ext c
      simp only [Finset.mem_filter, Finset.mem_range, Finset.mem_Ico]
      omega
    · have : ∀ c, ¬ b.Mem r c := fun c hm => hr ⟨hm.1, hm.2.1⟩
      simp [this, hr]
  rw [e1, Block.total, ← Finset.sum_filter]
  congr 1
  ext r
  simp only [Finset.mem_filter, Finset.mem_range, Finset.mem_Ico]
  omega

/-- The totals of the blocks of a tiling add up to the total of the grid. -/
theorem tiling_total {S : Type*} [AddCommMonoid S] {m n : ℕ} {T : Finset Block} (h : IsTiling m n T) (M : ℕ → ℕ → S) :
    ∑ b ∈ T, b.total M = ∑ r ∈ Finset.range m, ∑ c ∈ Finset.range n, M r c := by
  rw [Finset.sum_congr rfl fun b hb => total_indicator (h.1 b hb) M, Finset.sum_comm]
  refine Finset.sum_congr rfl fun r hr => ?_
  rw [Finset.sum_comm]
  refine Finset.sum_congr rfl fun c hc => ?_
  obtain ⟨b, ⟨hb, hm⟩, hu⟩ := h.2 r (Finset.mem_range.1 hr) c (Finset.mem_range.1 hc)
  rw [Finset.sum_eq_single b]
  · simp [hm]
  · intro b' hb' hne
    have : ¬ b'.Mem r c := fun hm' => hne (hu b' ⟨hb', hm'⟩)
    simp [this]
  · exact fun hn => absurd hb hn

theorem sum_sel {S : Type*} [AddCommMonoid S] {m n : ℕ} {sel : List Rect} (h : Covers m n sel) (g : Block → S) :
    (sel.map fun t => g t.block).sum = ∑ b ∈ (sel.map Rect.block).toFinset, g b := by
  rw [List.sum_toFinset _ (h.nodup.map Rect.block_injective), List.map_map]
  rfl

theorem grid_count {τ : Type} (p : Prepared2D α β τ) (q : τ → Bool) :
    ∑ r ∈ Finset.range p.m, ∑ c ∈ Finset.range p.n, (p.cell r c).countP q = p.clean.countP fun r => q r.2.2 := by
  have h := total_count p q ⟨0, p.m, 0, p.n⟩
  simp only [Block.total, Nat.Ico_zero_eq_range] at h
  rw [h]
  refine List.countP_congr fun r _ => ?_
  have h1 := p.row_lt r.2.1
  have h2 := p.col_lt r.1
  simp [Block.Mem, h1, h2]

theorem Facts2D.sum_event {j : Job2D α β R} {sel : List Rect}
    (hf : Facts2D j.scx j.scy j.opts j.recs j.prepared j.fit sel) (q : Bool → Bool) :
    (sel.map fun t => t.block.total fun a b => (j.prepared.cell a b).countP q).sum =
      j.prepared.clean.countP fun r => q r.2.2 := by
  rw [sum_sel hf.covers (fun b => b.total fun a b => (j.prepared.cell a b).countP q), tiling_total hf.covers.tiling,
    grid_count]

open Classical in
/-- **C44 (with finding).** The counts of the table add up to the number of training records plus the number of records
which have both a missing and a special entry: those are counted twice. -/
theorem C44_totals (j : Job2D α β R) (h : j.Succeeds) :
    j.fit.event.sum + j.fit.nonevent.sum = j.recs.length +
      j.recs.countP fun r => decide ((r.x = none ∨ r.y = none ∨ r.z = none) ∧ (IsCode j.scx r.x ∨ IsCode j.scy r.y)) := by
  obtain ⟨sel, hf⟩ := j.facts h
  have e1 := hf.sum_event fun z => z
  have e2 := hf.sum_event fun z => !z
  have hev : (sel.map fun t => t.block.total j.prepared.events) =
      sel.map fun t => t.block.total fun a b => (j.prepared.cell a b).countP fun z => z := rfl
  have hne : (sel.map fun t => t.block.total j.prepared.nonevents) =
      sel.map fun t => t.block.total fun a b => (j.prepared.cell a b).countP fun z => !z := rfl
  rw [hf.event, hf.nonevent, List.sum_append, List.sum_append, hev, hne, e1, e2]
  simp only [List.sum_cons, List.sum_nil, Nat.add_zero]
  have c : j.prepared.clean.countP (fun r => r.2.2) + j.prepared.clean.countP (fun r => !r.2.2) = j.prepared.clean.length := by
    have := List.length_eq_countP_add_countP (fun r : α × β × Bool => r.2.2) (l := j.prepared.clean)
    rw [this]
    simp
  have s : ∀ l : List (Option Bool), l.countP (· != some false) + l.countP (· == some false) = l.length := by
    intro l
    have := List.length_eq_countP_add_countP (fun z : Option Bool => z == some false) (l := l)
    rw [this, Nat.add_comm]
    congr 2
    funext z
    cases h : (z == some false) <;> simp [bne, h]
  have lens : j.prepared.clean.length + (special2D j.scx j.scy j.recs).length + (missing2D j.recs).length =
      j.recs.length + j.recs.countP fun r => decide ((r.x = none ∨ r.y = none ∨ r.z = none) ∧ (IsCode j.scx r.x ∨ IsCode j.scy r.y)) := by
    have hclean : j.prepared.clean.length = j.recs.countP fun r => !r.isMissing && !r.isSpecial j.scx j.scy := by
      have : j.prepared.clean = clean2D j.scx j.scy j.recs := rfl
      rw [this, ← List.countP_true, clean2D, List.countP_filterMap]
      refine List.countP_congr fun r _ => ?_
      obtain ⟨x, y, z⟩ := r
      cases hm : (!(Rec2.mk x y z).isMissing && !Rec2.isSpecial j.scx j.scy (Rec2.mk x y z))
      · simp
      · rcases x with _ | u
        · simp [Rec2.isMissing] at hm
        rcases y with _ | v
        · simp [Rec2.isMissing] at hm
        rcases z with _ | w
        · simp [Rec2.isMissing] at hm
        simp
    rw [hclean, special2D, missing2D, List.length_map, List.length_map, ← List.countP_eq_length_filter,
      ← List.countP_eq_length_filter]
    generalize j.recs = l
    induction l with
    | nil => rfl
    | cons r l ih =>
      have hmi : (r.x = none ∨ r.y = none ∨ r.z = none) ↔ r.isMissing = true := by
        simp [Rec2.isMissing, or_assoc]
      have hsp : (IsCode j.scx r.x ∨ IsCode j.scy r.y) ↔ r.isSpecial j.scx j.scy = true := by
        simp [Rec2.isSpecial, isCode_iff]
      simp only [List.countP_cons, List.length_cons, hmi, hsp]
      generalize List.countP (fun r => decide ((r.x = none ∨ r.y = none ∨ r.z = none) ∧ (IsCode j.scx r.x ∨ IsCode j.scy r.y))) l = k at ih ⊢
      cases r.isMissing <;> cases r.isSpecial j.scx j.scy <;> simp <;> omega
  have s1 := s (special2D j.scx j.scy j.recs)
  have s2 := s (missing2D j.recs)
  omega

/-! ## C45: limits on the bins -/

theorem Facts2D.row {j : Job2D α β R} {sel : List Rect} (hf : Facts2D j.scx j.scy j.opts j.recs j.prepared j.fit sel)
    {i : ℕ} (hi : i < sel.length) :
    j.fit.event.getD i 0 = sel[i].block.total j.prepared.events ∧
    j.fit.nonevent.getD i 0 = sel[i].block.total j.prepared.nonevents := by
  constructor
  · rw [hf.event, List.getD_append _ _ _ _ (by simpa using hi), List.getD_eq_getElem _ _ (by simpa using hi),
      List.getElem_map]
  · rw [hf.nonevent, List.getD_append _ _ _ _ (by simpa using hi), List.getD_eq_getElem _ _ (by simpa using hi),
      List.getElem_map]

/-- Number of records of row `i` of the table. -/
def Fitted2D.count (f : Fitted2D α β) (i : ℕ) : ℕ := f.event.getD i 0 + f.nonevent.getD i 0

/-- Event rate of row `i` of the table. -/
def Fitted2D.rate (f : Fitted2D α β) (i : ℕ) : ℚ := ((f.event.getD i 0 : ℕ) : ℚ) / ((f.count i : ℕ) : ℚ)

/-- **C45.** Every bin of a successful fit has both target classes and respects the limits on its records, events and
non-events, and the number of bins respects its limits. (`max_bin_size` is rounded up to a number of records.) -/
theorem C45_limits (j : Job2D α β R) (h : j.Succeeds) :
    (∀ i < j.fit.boxes.length,
      0 < j.fit.event.getD i 0 ∧ 0 < j.fit.nonevent.getD i 0 ∧
      (∀ q, j.minBinSize = some q → q * j.recs.length ≤ j.fit.count i) ∧
      (∀ q, j.maxBinSize = some q → (j.fit.count i : ℚ) < q * j.recs.length + 1) ∧
      Within j.o.minEvent j.o.maxEvent (j.fit.event.getD i 0 : ℕ) ∧
      Within j.o.minNonevent j.o.maxNonevent (j.fit.nonevent.getD i 0 : ℕ)) ∧
    Within j.o.minBins j.o.maxBins (j.fit.boxes.length : ℕ) := by
  obtain ⟨sel, hf⟩ := j.facts h
  have hl : j.fit.boxes.length = sel.length := by rw [hf.boxes]; simp
  have ha := hf.admissible
  constructor
  · intro i hi
    have his : i < sel.length := by omega
    have hm : sel[i].block ∈ (sel.map Rect.block).toFinset := by
      rw [List.mem_toFinset]; exact List.mem_map_of_mem (List.getElem_mem his)
    obtain ⟨e1, e2⟩ := hf.row his
    rw [Fitted2D.count, e1, e2]
    refine ⟨(ha.mixed _ hm).1, (ha.mixed _ hm).2, ?_, ?_, ha.events _ hm, ha.nonevents _ hm⟩
    · intro q hq
      have := (ha.size _ hm).1 ⌈q * (j.recs.length : ℚ)⌉ (by simp [Job2D.opts, absoluteSizes, hq])
      have h2 := Int.le_ceil (q * (j.recs.length : ℚ))
      have h3 : ((⌈q * (j.recs.length : ℚ)⌉ : ℤ) : ℚ) ≤
          (((sel[i].block.total j.prepared.events + sel[i].block.total j.prepared.nonevents : ℕ) : ℤ) : ℚ) := by exact_mod_cast this
      push_cast at h3 ⊢
      linarith
    · intro q hq
      have := (ha.size _ hm).2 ⌈q * (j.recs.length : ℚ)⌉ (by simp [Job2D.opts, absoluteSizes, hq])
      have h2 := Int.ceil_lt_add_one (q * (j.recs.length : ℚ))
      have h3 : (((sel[i].block.total j.prepared.events + sel[i].block.total j.prepared.nonevents : ℕ) : ℤ) : ℚ) ≤
          ((⌈q * (j.recs.length : ℚ)⌉ : ℤ) : ℚ) := by exact_mod_cast this
      push_cast at h3 ⊢
      linarith
  · have : (sel.map Rect.block).toFinset.card = sel.length := by
      rw [List.toFinset_card_of_nodup (hf.covers.nodup.map Rect.block_injective), List.length_map]
    have hn := ha.number
    rw [this, ← hl] at hn
    exact hn

/-! ## C46: trends -/

/-- Bin `b` begins in direction `x` where bin `a` ends, and their `y` intervals overlap. -/
def BoxNextX (a b : Box2) : Prop := a.xhi = b.xlo ∧ a.ylo < b.yhi ∧ b.ylo < a.yhi

/-- Bin `b` begins in direction `y` where bin `a` ends, and their `x` intervals overlap. -/
def BoxNextY (a b : Box2) : Prop := a.yhi = b.ylo ∧ a.xlo < b.xhi ∧ b.xlo < a.xhi

theorem bound_lt_iff {s : List EQ} (hs : IsSplits s) {a b : ℕ} (ha : a ≤ s.length + 1) (hb : b ≤ s.length + 1) (d e : EQ) :
    ([⊥] ++ s ++ [⊤]).getD a d < ([⊥] ++ s ++ [⊤]).getD b e ↔ a < b := by
  constructor
  · intro h
    by_contra hn
    rcases Nat.lt_or_eq_of_le (not_lt.1 hn) with h1 | h1
    · exact lt_asymm h (bound_strictMono hs h1 ha _ _)
    · subst h1
      have hlen : b < ([⊥] ++ s ++ [⊤] : List EQ).length := by simp; omega
      rw [List.getD_eq_getElem _ _ hlen, List.getD_eq_getElem _ _ hlen] at h
      exact lt_irrefl _ h
  · intro h; exact bound_strictMono hs h hb _ _

theorem bound_eq_iff {s : List EQ} (hs : IsSplits s) {a b : ℕ} (ha : a ≤ s.length + 1) (hb : b ≤ s.length + 1) (d e : EQ) :
    ([⊥] ++ s ++ [⊤]).getD a d = ([⊥] ++ s ++ [⊤]).getD b e ↔ a = b := by
  constructor
  · intro h
    have h1 := (bound_lt_iff hs ha hb d e).not.1 (by rw [h]; exact lt_irrefl _)
    have h2 := (bound_lt_iff hs hb ha e d).not.1 (by rw [h]; exact lt_irrefl _)
    omega
  · rintro rfl
    have hlen : a < ([⊥] ++ s ++ [⊤] : List EQ).length := by simp; omega
    rw [List.getD_eq_getElem _ _ hlen, List.getD_eq_getElem _ _ hlen]

theorem boxNext_iff {τ : Type} {p : Prepared2D α β τ} (hw : p.WellFormed) {a b : Block} (ha : a.Inside p.m p.n)
    (hb : b.Inside p.m p.n) :
    (BoxNextX (boxOf p.splitsX p.splitsY a) (boxOf p.splitsX p.splitsY b) ↔ NextInX a b) ∧
    (BoxNextY (boxOf p.splitsX p.splitsY a) (boxOf p.splitsX p.splitsY b) ↔ NextInY a b) := by
  obtain ⟨a1, a2, a3, a4⟩ := ha
  obtain ⟨b1, b2, b3, b4⟩ := hb
  simp only [Prepared2D.m, Prepared2D.n] at *
  simp only [BoxNextX, BoxNextY, boxOf, NextInX, NextInY]
  rw [bound_eq_iff hw.splitsX (by omega) (by omega), bound_lt_iff hw.splitsY (by omega) (by omega),
    bound_lt_iff hw.splitsY (by omega) (by omega), bound_eq_iff hw.splitsY (by omega) (by omega),
    bound_lt_iff hw.splitsX (by omega) (by omega), bound_lt_iff hw.splitsX (by omega) (by omega)]
  constructor
  · refine and_congr_right fun _ => ⟨fun h => ⟨max a.top b.top, by omega⟩, ?_⟩
    rintro ⟨r, h⟩
    omega
  · refine and_congr_right fun _ => ⟨fun h => ⟨max a.left b.left, by omega⟩, ?_⟩
    rintro ⟨r, h⟩
    omega

/-- **C46.** Neighbouring bins follow the requested trends: along `x` (along `y`) the event rate of the next bin is larger
(smaller) by more than the requested minimum difference. -/
theorem C46_neighbours (j : Job2D α β R) (h : j.Succeeds) {i k : ℕ} (hi : i < j.fit.boxes.length)
    (hk : k < j.fit.boxes.length) :
    (BoxNextX j.fit.boxes[i] j.fit.boxes[k] → StepOK j.o.trendX j.o.minDiffX (j.fit.rate i) (j.fit.rate k)) ∧
    (BoxNextY j.fit.boxes[i] j.fit.boxes[k] → StepOK j.o.trendY j.o.minDiffY (j.fit.rate i) (j.fit.rate k)) := by
  obtain ⟨sel, hf⟩ := j.facts h
  have hl : j.fit.boxes.length = sel.length := by rw [hf.boxes]; simp
  have his : i < sel.length := by omega
  have hks : k < sel.length := by omega
  have hb := hf.boxes
  have e1 : j.fit.boxes[i] = boxOf j.prepared.splitsX j.prepared.splitsY sel[i].block := by
    simp only [hb, List.getElem_map]
  have e2 : j.fit.boxes[k] = boxOf j.prepared.splitsX j.prepared.splitsY sel[k].block := by
    simp only [hb, List.getElem_map]
  have r : ∀ i (hi : i < sel.length), j.fit.rate i = blockRate j.prepared.nonevents j.prepared.events sel[i].block := by
    intro i hi
    obtain ⟨h1, h2⟩ := hf.row hi
    rw [Fitted2D.rate, Fitted2D.count, h1, h2, blockRate]
  have hn := boxNext_iff h.wellFormed (hf.inside his) (hf.inside hks)
  have m1 : sel[i].block ∈ (sel.map Rect.block).toFinset := by
    rw [List.mem_toFinset]; exact List.mem_map_of_mem (List.getElem_mem his)
  have m2 : sel[k].block ∈ (sel.map Rect.block).toFinset := by
    rw [List.mem_toFinset]; exact List.mem_map_of_mem (List.getElem_mem hks)
  rw [e1, e2, r i his, r k hks, hn.1, hn.2]
  exact ⟨hf.admissible.trends.1 _ m1 _ m2, hf.admissible.trends.2 _ m1 _ m2⟩

/-- Along one line of cells of a tiling the rate changes in the direction of the trend. -/
theorem line_step {T : Finset Block} {m n : ℕ} (h : IsTiling m n T) {rate : Block → ℚ}
    {t : Trend2D} {diff : ℚ} (hd : 0 ≤ diff) (ht : ∀ a ∈ T, ∀ b ∈ T, NextInX a b → StepOK (some t) diff (rate a) (rate b))
    {r : ℕ} (hr : r < m) (c k : ℕ) (hc : c + k < n) {a b : Block} (ha : a ∈ T) (hb : b ∈ T) (ham : a.Mem r c)
    (hbm : b.Mem r (c + k)) : (t = .ascending → rate a ≤ rate b) ∧ (t = .descending → rate b ≤ rate a) := by
  induction k generalizing b with
  | zero =>
    obtain ⟨w, _, hu⟩ := h.2 r hr c hc
    have e1 := hu a ⟨ha, ham⟩
    have e2 := hu b ⟨hb, hbm⟩
    subst e1 e2
    exact ⟨fun _ => le_refl _, fun _ => le_refl _⟩
  | succ k ih =>
    obtain ⟨w, ⟨hw, hwm⟩, hu⟩ := h.2 r hr (c + k) (by omega)
    have hprev := ih (by omega) hw hwm
    have step : (t = .ascending → rate w ≤ rate b) ∧ (t = .descending → rate b ≤ rate w) := by
      by_cases hwb : w = b
      · subst hwb; exact ⟨fun _ => le_refl _, fun _ => le_refl _⟩
      · have hnot : ¬ w.Mem r (c + (k + 1)) := by
          intro hw2
          obtain ⟨v, _, hv⟩ := h.2 r hr (c + (k + 1)) hc
          exact hwb ((hv w ⟨hw, hw2⟩).trans (hv b ⟨hb, hbm⟩).symm)
        have hnot2 : ¬ b.Mem r (c + k) := fun hb2 => hwb (hu b ⟨hb, hb2⟩).symm
        have hnext : NextInX w b := by
          simp only [Block.Mem] at *
          refine ⟨by omega, r, by omega⟩
        have := ht w hw b hb hnext
        constructor
        · rintro rfl
          simp only [StepOK] at this
          linarith
        · rintro rfl
          simp only [StepOK] at this
          linarith
    exact ⟨fun e => (hprev.1 e).trans (step.1 e), fun e => (step.2 e).trans (hprev.2 e)⟩

/-- A block with rows and columns exchanged. -/
def Block.swap (b : Block) : Block := ⟨b.left, b.right, b.top, b.bottom⟩

theorem Block.swap_mem {b : Block} {r c : ℕ} : (Block.swap b).Mem c r ↔ b.Mem r c := by
  simp only [Block.swap, Block.Mem]; tauto

theorem Block.swap_swap (b : Block) : Block.swap (Block.swap b) = b := rfl

theorem line_step_y {T : Finset Block} {m n : ℕ} (h : IsTiling m n T) {rate : Block → ℚ}
    {t : Trend2D} {diff : ℚ} (hd : 0 ≤ diff) (ht : ∀ a ∈ T, ∀ b ∈ T, NextInY a b → StepOK (some t) diff (rate a) (rate b))
    {c : ℕ} (hc : c < n) (r k : ℕ) (hr : r + k < m) {a b : Block} (ha : a ∈ T) (hb : b ∈ T) (ham : a.Mem r c)
    (hbm : b.Mem (r + k) c) : (t = .ascending → rate a ≤ rate b) ∧ (t = .descending → rate b ≤ rate a) := by
  have hmem : ∀ b, b ∈ T.image Block.swap ↔ Block.swap b ∈ T := by
    intro b
    rw [Finset.mem_image]
    constructor
    · rintro ⟨a, ha, rfl⟩; exact ha
    · intro hb; exact ⟨Block.swap b, hb, rfl⟩
  have h' : IsTiling n m (T.image Block.swap) := by
    refine ⟨fun b hb => ?_, fun r' hr' c' hc' => ?_⟩
    · have := h.1 _ ((hmem b).1 hb)
      simp only [Block.Inside, Block.swap] at this ⊢
      omega
    · obtain ⟨b, ⟨hb, hm⟩, hu⟩ := h.2 c' hc' r' hr'
      refine ⟨Block.swap b, ⟨(hmem _).2 hb, Block.swap_mem.2 hm⟩, ?_⟩
      rintro w ⟨hw, hwm⟩
      have := hu (Block.swap w) ⟨(hmem w).1 hw, Block.swap_mem.2 hwm⟩
      rw [← this]
      rfl
  exact line_step h' (rate := fun b => rate (Block.swap b)) (t := t) hd
    (fun a ha b hb hab => ht _ ((hmem a).1 ha) _ ((hmem b).1 hb) hab) hc r k hr (a := Block.swap a) (b := Block.swap b)
    ((hmem _).2 ha) ((hmem _).2 hb) (Block.swap_mem.2 ham) (Block.swap_mem.2 hbm)

theorem col_mono {τ : Type} {p : Prepared2D α β τ} {u u' : α} (h : p.axisX.code u ≤ p.axisX.code u') : p.col u ≤ p.col u' := by
  simp only [Prepared2D.col, digitize, Bool.false_eq_true, if_false]
  refine List.countP_mono_left fun s _ hs => ?_
  rw [decide_eq_true_eq] at hs ⊢
  exact hs.trans h

theorem row_mono {τ : Type} {p : Prepared2D α β τ} {v v' : β} (h : p.axisY.code v ≤ p.axisY.code v') : p.row v ≤ p.row v' := by
  simp only [Prepared2D.row, digitize, Bool.false_eq_true, if_false]
  refine List.countP_mono_left fun s _ hs => ?_
  rw [decide_eq_true_eq] at hs ⊢
  exact hs.trans h

/-- **C46.** Moving along `x` with `y` fixed, the event rate of the bin never moves against the requested trend of `x`;
the same along `y`.  (For a category the position is its rank.) -/
theorem C46_along_lines (j : Job2D α β R) (h : j.Succeeds) {u u' : α} {v v' : β} (hu : Known j.fit.axisX u)
    (hu' : Known j.fit.axisX u') (hv : Known j.fit.axisY v) (hv' : Known j.fit.axisY v') {i k : ℕ}
    (hi : i < j.fit.boxes.length) (hk : k < j.fit.boxes.length)
    (hib : InBox j.fit.axisX j.fit.axisY j.fit.boxes[i] u v) (hkb : InBox j.fit.axisX j.fit.axisY j.fit.boxes[k] u' v') :
    (v = v' → j.fit.axisX.code u ≤ j.fit.axisX.code u' → 0 ≤ j.o.minDiffX →
      (j.o.trendX = some .ascending → j.fit.rate i ≤ j.fit.rate k) ∧
      (j.o.trendX = some .descending → j.fit.rate k ≤ j.fit.rate i)) ∧
    (u = u' → j.fit.axisY.code v ≤ j.fit.axisY.code v' → 0 ≤ j.o.minDiffY →
      (j.o.trendY = some .ascending → j.fit.rate i ≤ j.fit.rate k) ∧
      (j.o.trendY = some .descending → j.fit.rate k ≤ j.fit.rate i)) := by
  obtain ⟨sel, hf⟩ := j.facts h
  have hl : j.fit.boxes.length = sel.length := by rw [hf.boxes]; simp
  have his : i < sel.length := by omega
  have hks : k < sel.length := by omega
  have r : ∀ i (hi : i < sel.length), j.fit.rate i = blockRate j.prepared.nonevents j.prepared.events sel[i].block := by
    intro i hi
    obtain ⟨h1, h2⟩ := hf.row hi
    rw [Fitted2D.rate, Fitted2D.count, h1, h2, blockRate]
  have m1 : sel[i].block ∈ (sel.map Rect.block).toFinset := by
    rw [List.mem_toFinset]; exact List.mem_map_of_mem (List.getElem_mem his)
  have m2 : sel[k].block ∈ (sel.map Rect.block).toFinset := by
    rw [List.mem_toFinset]; exact List.mem_map_of_mem (List.getElem_mem hks)
  have b1 := (hf.inBox h.wellFormed hu hv hi his).1 hib
  have b2 := (hf.inBox h.wellFormed hu' hv' hk hks).1 hkb
  rw [r i his, r k hks]
  have htr := hf.admissible.trends
  constructor
  · rintro rfl hle hd
    rw [hf.axisX] at hle
    have hcol := col_mono hle
    have e : j.prepared.col u' = j.prepared.col u + (j.prepared.col u' - j.prepared.col u) := by omega
    have hlt := j.prepared.col_lt u'
    rw [e] at b2 hlt
    constructor
    · intro ht
      refine (line_step hf.covers.tiling hd (t := .ascending) ?_ (j.prepared.row_lt v) _ _ hlt m1 m2 b1 b2).1 rfl
      intro a ha b hb hab
      have := htr.1 a ha b hb hab
      rwa [show j.opts.trendX = some .ascending from ht] at this
    · intro ht
      refine (line_step hf.covers.tiling hd (t := .descending) ?_ (j.prepared.row_lt v) _ _ hlt m1 m2 b1 b2).2 rfl
      intro a ha b hb hab
      have := htr.1 a ha b hb hab
      rwa [show j.opts.trendX = some .descending from ht] at this
  · rintro rfl hle hd
    rw [hf.axisY] at hle
    have hrow := row_mono hle
    have e : j.prepared.row v' = j.prepared.row v + (j.prepared.row v' - j.prepared.row v) := by omega
    have hlt := j.prepared.row_lt v'
    rw [e] at b2 hlt
    constructor
    · intro ht
      refine (line_step_y hf.covers.tiling hd (t := .ascending) ?_ (j.prepared.col_lt u) _ _ hlt m1 m2 b1 b2).1 rfl
      intro a ha b hb hab
      have := htr.2 a ha b hb hab
      rwa [show j.opts.trendY = some .ascending from ht] at this
    · intro ht
      refine (line_step_y hf.covers.tiling hd (t := .descending) ?_ (j.prepared.col_lt u) _ _ hlt m1 m2 b1 b2).2 rfl
      intro a ha b hb hab
      have := htr.2 a ha b hb hab
      rwa [show j.opts.trendY = some .descending from ht] at this

/-! ## C43: event rate and WoE transforms -/

/-- **C43.** For a clean pair of known values in bin `i`, `transform(metric="event_rate")` returns the event rate of the
table row of bin `i`. -/
theorem C43_transform_event_rate (j : Job2D α β R) (h : j.Succeeds) {u : α} {v : β} (hu : Known j.fit.axisX u)
    (hv : Known j.fit.axisY v) (hx : ¬ IsCode j.scx (some u)) (hy : ¬ IsCode j.scy (some v)) (ms mm : Option ℚ) {i : ℕ}
    (hi : i < j.fit.boxes.length) (hb : InBox j.fit.axisX j.fit.axisY j.fit.boxes[i] u v) :
    j.fit.eventRate j.scx j.scy ms mm (some u) (some v) = j.fit.rate i := by
  have hm := (C45_limits j h).1 i hi
  rw [Fitted2D.eventRate, transform2D_clean hx hy, transformClean_of_inBox j h _ _ hu hv hi hb, tableRate2D]
  simp only [hm.1, hm.2.1, and_self, if_true]
  rfl

/-- **C43.** … and `transform(metric="woe")` returns `log ((nonevents of bin i / nonevents) / (events of bin i / events))`,
where the totals include the special and the missing row. -/
theorem C43_transform_woe (j : Job2D α β R) (h : j.Succeeds) {u : α} {v : β} (hu : Known j.fit.axisX u)
    (hv : Known j.fit.axisY v) (hx : ¬ IsCode j.scx (some u)) (hy : ¬ IsCode j.scy (some v)) (ms mm : Option ℝ) {i : ℕ}
    (hi : i < j.fit.boxes.length) (hb : InBox j.fit.axisX j.fit.axisY j.fit.boxes[i] u v) :
    j.fit.woe j.scx j.scy ms mm (some u) (some v) =
      Real.log (((j.fit.nonevent.getD i 0 : ℕ) : ℝ) / ((j.fit.nonevent.sum : ℕ) : ℝ) /
        (((j.fit.event.getD i 0 : ℕ) : ℝ) / ((j.fit.event.sum : ℕ) : ℝ))) := by
  have hm := (C45_limits j h).1 i hi
  rw [Fitted2D.woe, transform2D_clean hx hy, transformClean_of_inBox j h _ _ hu hv hi hb, tableWoe2D]
  simp only [hm.1, hm.2.1, and_self, if_true, tableRate2D]
  have le_sum : ∀ l : List ℕ, 0 < l.getD i 0 → 0 < l.sum := by
    intro l hl
    have hil : i < l.length := by
      by_contra hc
      rw [List.getD_eq_default _ _ (by omega)] at hl
      omega
    rw [List.getD_eq_getElem _ _ hil] at hl
    exact hl.trans_le (List.le_sum_of_mem (List.getElem_mem hil))
  have h1 : (0 : ℝ) < ((j.fit.event.sum : ℕ) : ℝ) := by exact_mod_cast le_sum _ hm.1
  have h2 : (0 : ℝ) < ((j.fit.nonevent.sum : ℕ) : ℝ) := by exact_mod_cast le_sum _ hm.2.1
  have h3 : (0 : ℝ) < ((j.fit.event.getD i 0 : ℕ) : ℝ) := by exact_mod_cast hm.1
  have h4 : (0 : ℝ) < ((j.fit.nonevent.getD i 0 : ℕ) : ℝ) := by exact_mod_cast hm.2.1
  have e : 1 / (((((j.fit.event.getD i 0 : ℕ) : ℚ) / ((j.fit.event.getD i 0 + j.fit.nonevent.getD i 0 : ℕ) : ℚ)) : ℚ) : ℝ) - 1 =
      ((j.fit.nonevent.getD i 0 : ℕ) : ℝ) / ((j.fit.event.getD i 0 : ℕ) : ℝ) := by
    push_cast
    field_simp
    ring
  rw [e, ← Real.log_mul (by positivity) (by positivity)]
  congr 1
  field_simp

end OptBinning
