import Verif.Spec.Sketch
import Verif.Model.GK
import Mathlib.Tactic.Linarith
import Mathlib.Tactic.Ring
import Mathlib.Tactic.Push

/-! # The merge loop of the Greenwald-Khanna sketch -/
namespace OptBinning
open Spec (numLt numLe)
variable {α : Type*} [LinearOrder α]

/-- Total weight of a list of entries. -/
def gsum (l : List (Entry α)) : ℤ := (l.map Entry.g).sum

omit [LinearOrder α] in
@[simp] theorem gsum_nil : gsum ([] : List (Entry α)) = 0 := rfl
omit [LinearOrder α] in
@[simp] theorem gsum_cons (e : Entry α) (l : List (Entry α)) : gsum (e :: l) = e.g + gsum l := by simp [gsum]

/-- The stored entries describe the ranks in `S` from the cumulative weight `A` on. -/
def Ranks (S : List α) : ℤ → List (Entry α) → Prop
  | _, [] => True
  | A, e :: es => (A + e.g ≤ numLe S e.value ∧ (numLt S e.value : ℤ) < A + e.g + e.delta) ∧ Ranks S (A + e.g) es

/-- Weight of the entries with a value below `v`. -/
def wLt (l : List (Entry α)) (v : α) : ℤ := (l.map fun e => if e.value < v then e.g else 0).sum

/-- Weight of the entries with a value at most `v`. -/
def wLe (l : List (Entry α)) (v : α) : ℤ := (l.map fun e => if e.value ≤ v then e.g else 0).sum

@[simp] theorem wLt_nil (v : α) : wLt ([] : List (Entry α)) v = 0 := rfl
@[simp] theorem wLe_nil (v : α) : wLe ([] : List (Entry α)) v = 0 := rfl
@[simp] theorem wLt_cons (e : Entry α) (l : List (Entry α)) (v : α) : wLt (e :: l) v = (if e.value < v then e.g else 0) + wLt l v := by
  simp [wLt]
@[simp] theorem wLe_cons (e : Entry α) (l : List (Entry α)) (v : α) : wLe (e :: l) v = (if e.value ≤ v then e.g else 0) + wLe l v := by
  simp [wLe]

/-- Upper rank bound, relative to the weight before, that an incoming entry `e` gets from the remaining entries. -/
def upper (e : Entry α) : List (Entry α) → ℤ
  | [] => e.g
  | t :: ts => if e.value < t.value then t.g + t.delta else t.g + upper e ts

/-- Invariant on the remaining entries. -/
def InvE (S : List α) (inc : List (Entry α)) : ℤ → List (Entry α) → Prop
  | _, [] => True
  | A, e :: es => (A + e.g + wLt inc e.value ≤ numLe S e.value ∧ (numLt S e.value : ℤ) < A + e.g + wLt inc e.value + e.delta) ∧
      InvE S inc (A + e.g) es

/-- Invariant on the remaining incoming entries. -/
def InvI (S : List α) (ents : List (Entry α)) : ℤ → List (Entry α) → Prop
  | _, [] => True
  | A, e :: es => (A + e.g + wLe ents e.value ≤ numLe S e.value ∧ (numLt S e.value : ℤ) < A + upper e ents) ∧
      InvI S ents (A + e.g) es

/-- Entries in increasing order of value. -/
def Sorted (l : List (Entry α)) : Prop := l.Pairwise fun a b => a.value ≤ b.value

theorem wLt_nonneg {l : List (Entry α)} (h : ∀ e ∈ l, 0 ≤ e.g) (v : α) : 0 ≤ wLt l v := by
  induction l with
  | nil => simp
  | cons e l ih =>
    have := ih fun e he => h e (List.mem_cons_of_mem _ he)
    have := h e List.mem_cons_self
    simp only [wLt_cons]; split_ifs <;> omega

/-- Emitting an incoming entry below all remaining entries. -/
theorem InvE.emitInc {S : List α} {ti : Entry α} {is : List (Entry α)} {A : ℤ} {es : List (Entry α)}
    (h : InvE S (ti :: is) A es) (hlt : ∀ e ∈ es, ti.value < e.value) : InvE S is (A + ti.g) es := by
  induction es generalizing A with
  | nil => trivial
  | cons e es ih =>
    obtain ⟨⟨h1, h2⟩, h3⟩ := h
    have hv := hlt e List.mem_cons_self
    simp only [wLt_cons, hv, if_true] at h1 h2
    refine ⟨⟨by omega, by omega⟩, ?_⟩
    have := ih h3 fun e he => hlt e (List.mem_cons_of_mem _ he)
    rwa [show A + ti.g + e.g = A + e.g + ti.g by ring]

/-- Moving weight in front. -/
theorem InvE.congr {S : List α} {inc inc' : List (Entry α)} {A A' : ℤ} {es : List (Entry α)} (h : InvE S inc A es)
    (hw : ∀ e ∈ es, A + wLt inc e.value = A' + wLt inc' e.value) : InvE S inc' A' es := by
  induction es generalizing A A' with
  | nil => trivial
  | cons e es ih =>
    obtain ⟨⟨h1, h2⟩, h3⟩ := h
    have hv := hw e List.mem_cons_self
    refine ⟨⟨by omega, by omega⟩, ih h3 fun e' he => ?_⟩
    have := hw e' (List.mem_cons_of_mem _ he); omega

theorem InvI.congr {S : List α} {ents ents' : List (Entry α)} {A A' : ℤ} {is : List (Entry α)} (h : InvI S ents A is)
    (hw : ∀ e ∈ is, A' + wLe ents' e.value ≤ A + wLe ents e.value) (hu : ∀ e ∈ is, A + upper e ents = A' + upper e ents') :
    InvI S ents' A' is := by
  induction is generalizing A A' with
  | nil => trivial
  | cons e is ih =>
    obtain ⟨⟨h1, h2⟩, h3⟩ := h
    have hv := hw e List.mem_cons_self
    have hv' := hu e List.mem_cons_self
    refine ⟨⟨by omega, by omega⟩, ih h3 (fun e' he => ?_) fun e' he => ?_⟩
    · have := hw e' (List.mem_cons_of_mem _ he); omega
    · have := hu e' (List.mem_cons_of_mem _ he); omega

theorem Sorted.tail {e : Entry α} {l : List (Entry α)} (h : Sorted (e :: l)) : Sorted l := (List.pairwise_cons.mp h).2

theorem Sorted.head_le {e : Entry α} {l : List (Entry α)} (h : Sorted (e :: l)) {a : Entry α} (ha : a ∈ e :: l) : e.value ≤ a.value := by
  rcases List.mem_cons.mp ha with rfl | ha
  · exact le_rfl
  · exact (List.pairwise_cons.mp h).1 a ha

/-- Replacing the head by an entry with the same value keeps the order. -/
theorem Sorted.head {e e' : Entry α} {l : List (Entry α)} (h : Sorted (e :: l)) (hv : e'.value = e.value) : Sorted (e' :: l) := by
  refine List.pairwise_cons.mpr ⟨fun a ha => ?_, h.tail⟩
  rw [hv]; exact (List.pairwise_cons.mp h).1 a ha

theorem wLe_nonneg {l : List (Entry α)} (h : ∀ e ∈ l, 0 ≤ e.g) (v : α) : 0 ≤ wLe l v := by
  induction l with
  | nil => simp
  | cons e l ih =>
    have := ih fun e he => h e (List.mem_cons_of_mem _ he)
    have := h e List.mem_cons_self
    simp only [wLe_cons]; split_ifs <;> omega

theorem wLt_zero {l : List (Entry α)} {v : α} (h : ∀ e ∈ l, v ≤ e.value) : wLt l v = 0 := by
  induction l with
  | nil => simp
  | cons e l ih =>
    have := ih fun e he => h e (List.mem_cons_of_mem _ he)
    have := h e List.mem_cons_self
    rw [wLt_cons, if_neg (not_lt.mpr this)]; omega

/-- gk.py:164-168: an incoming entry is merged into the next entry. -/
theorem step_incMerge {S : List α} {ti tj : Entry α} {is js : List (Entry α)} {A : ℤ} (hv : ti.value < tj.value)
    (he : Sorted (tj :: js)) (hg : 0 ≤ ti.g) (h1 : InvE S (ti :: is) A (tj :: js)) (h2 : InvI S (tj :: js) A (ti :: is)) :
    InvE S is A ({ tj with g := tj.g + ti.g } :: js) ∧ InvI S ({ tj with g := tj.g + ti.g } :: js) A is := by
  obtain ⟨⟨a, b⟩, c⟩ := h1
  obtain ⟨-, d⟩ := h2
  refine ⟨⟨⟨?_, ?_⟩, ?_⟩, d.congr (fun e _ => ?_) fun e _ => ?_⟩
  · simp only [wLt_cons, hv, if_true] at a ⊢; omega
  · simp only [wLt_cons, hv, if_true] at b ⊢; omega
  · have := c.emitInc fun e hm => lt_of_lt_of_le hv (he.head_le (List.mem_cons_of_mem _ hm))
    rw [← add_assoc]; exact this
  · simp only [wLe_cons]; split_ifs <;> omega
  · simp only [upper]; split_ifs <;> omega

/-- gk.py:169-171: an incoming entry is written before the next entry. -/
theorem step_incEmit {S : List α} {ti tj : Entry α} {is js : List (Entry α)} {A : ℤ} (hv : ti.value < tj.value)
    (he : Sorted (tj :: js)) (hge : ∀ e ∈ tj :: js, 0 ≤ e.g) (h1 : InvE S (ti :: is) A (tj :: js)) (h2 : InvI S (tj :: js) A (ti :: is)) :
    (A + ti.g ≤ numLe S ti.value ∧ (numLt S ti.value : ℤ) < A + ti.g + (tj.g + tj.delta - ti.g)) ∧
    InvE S is (A + ti.g) (tj :: js) ∧ InvI S (tj :: js) (A + ti.g) is := by
  obtain ⟨⟨a, b⟩, c⟩ := h2
  have := wLe_nonneg hge ti.value
  refine ⟨⟨by omega, ?_⟩, h1.emitInc fun e hm => lt_of_lt_of_le hv (he.head_le hm), c⟩
  simp only [upper, hv, if_true] at b; omega

/-- gk.py:180: an entry is written before the next incoming entry. -/
theorem step_entEmit {S : List α} {ti tj : Entry α} {is js : List (Entry α)} {A : ℤ} (hv : ¬ ti.value < tj.value)
    (hi : Sorted (ti :: is)) (h1 : InvE S (ti :: is) A (tj :: js)) (h2 : InvI S (tj :: js) A (ti :: is)) :
    (A + tj.g ≤ numLe S tj.value ∧ (numLt S tj.value : ℤ) < A + tj.g + tj.delta) ∧
    InvE S (ti :: is) (A + tj.g) js ∧ InvI S js (A + tj.g) (ti :: is) := by
  obtain ⟨⟨a, b⟩, c⟩ := h1
  have hle : ∀ e ∈ ti :: is, tj.value ≤ e.value := fun e hm => (not_lt.mp hv).trans (hi.head_le hm)
  rw [wLt_zero hle] at a b
  refine ⟨⟨by omega, by omega⟩, c, h2.congr (fun e hm => ?_) fun e hm => ?_⟩
  · rw [wLe_cons, if_pos (hle e hm)]; omega
  · simp only [upper]; rw [if_neg (not_lt.mpr (hle e hm))]; omega

/-- gk.py:176-179: an entry is merged into the next entry while incoming entries remain. -/
theorem step_entMerge {S : List α} {ti tj tn : Entry α} {is js : List (Entry α)} {A : ℤ} (hv : ¬ ti.value < tj.value)
    (hi : Sorted (ti :: is)) (hg : 0 ≤ tj.g) (h1 : InvE S (ti :: is) A (tj :: tn :: js))
    (h2 : InvI S (tj :: tn :: js) A (ti :: is)) :
    InvE S (ti :: is) A ({ tn with g := tn.g + tj.g } :: js) ∧ InvI S ({ tn with g := tn.g + tj.g } :: js) A (ti :: is) := by
  obtain ⟨⟨a, b⟩, ⟨c, d⟩, e⟩ := h1
  have hle : ∀ e ∈ ti :: is, tj.value ≤ e.value := fun e hm => (not_lt.mp hv).trans (hi.head_le hm)
  refine ⟨⟨⟨?_, ?_⟩, ?_⟩, h2.congr (fun e hm => ?_) fun e hm => ?_⟩
  · simp only at c ⊢; omega
  · simp only at d ⊢; omega
  · rw [show A + (tn.g + tj.g) = A + tj.g + tn.g by ring]; exact e
  · simp only [wLe_cons]; rw [if_pos (hle e hm)]; split_ifs <;> omega
  · simp only [upper]; rw [if_neg (not_lt.mpr (hle e hm))]; split_ifs <;> omega

omit [LinearOrder α] in
theorem mem_head_g {P : Entry α → Prop} {t t' : Entry α} {l : List (Entry α)} (h : ∀ e ∈ t :: l, P e) (ht : P t') : ∀ e ∈ t' :: l, P e := by
  intro e he
  rcases List.mem_cons.mp he with rfl | he
  · exact ht
  · exact h e (List.mem_cons_of_mem _ he)

/-- The entries written by the loop carry valid rank bounds. -/
theorem mergeLoop_ranks (thr : ℚ) (S : List α) (inc ents : List (Entry α)) (A : ℤ) (hi : Sorted inc) (he : Sorted ents)
    (hgi : ∀ e ∈ inc, 0 ≤ e.g) (hge : ∀ e ∈ ents, 0 ≤ e.g) (hd : ∀ e ∈ inc, e.delta = 0)
    (h1 : InvE S inc A ents) (h2 : InvI S ents A inc) : Ranks S A (mergeLoop thr inc ents) := by
  fun_induction mergeLoop thr inc ents generalizing A with
  | case1 => trivial
  | case2 t =>
    obtain ⟨⟨a, b⟩, -⟩ := h1
    simp only [wLt_nil, add_zero] at a b
    exact ⟨⟨a, b⟩, trivial⟩
  | case3 t tn js hc ih =>
    obtain ⟨⟨a, b⟩, ⟨c, d⟩, e⟩ := h1
    refine ih A hi (he.tail.head rfl) hgi ?_ hd ⟨⟨?_, ?_⟩, ?_⟩ trivial
    · intro x hx
      rcases List.mem_cons.mp hx with rfl | hx
      · have := hge t (by simp); have := hge tn (by simp); simp only; omega
      · exact hge x (by simp [hx])
    · simp only [wLt_nil, add_zero] at *; omega
    · simp only [wLt_nil, add_zero] at *; omega
    · simpa [add_assoc, add_comm, add_left_comm] using e
  | case4 t tn js hc ih =>
    obtain ⟨⟨a, b⟩, e⟩ := h1
    simp only [wLt_nil, add_zero] at a b
    exact ⟨⟨a, b⟩, ih _ hi he.tail hgi (fun x hx => hge x (List.mem_cons_of_mem _ hx)) hd e trivial⟩
  | case5 t =>
    obtain ⟨⟨a, b⟩, -⟩ := h2
    have := hd t (by simp)
    simp only [wLe_nil, upper, add_zero] at a b
    exact ⟨⟨a, by omega⟩, trivial⟩
  | case6 t tn is hc ih =>
    obtain ⟨⟨a, b⟩, ⟨c, d⟩, e⟩ := h2
    refine ih A (hi.tail.head rfl) he ?_ hge ?_ trivial ⟨⟨?_, ?_⟩, ?_⟩
    · intro x hx
      rcases List.mem_cons.mp hx with rfl | hx
      · have := hgi t (by simp); have := hgi tn (by simp); simp only; omega
      · exact hgi x (by simp [hx])
    · intro x hx
      rcases List.mem_cons.mp hx with rfl | hx
      · exact hd tn (by simp)
      · exact hd x (by simp [hx])
    · simp only [wLe_nil, add_zero] at *; omega
    · simp only [upper] at *; omega
    · simpa [add_assoc, add_comm, add_left_comm] using e
  | case7 t tn is hc ih =>
    obtain ⟨⟨a, b⟩, e⟩ := h2
    have := hd t (by simp)
    simp only [wLe_nil, upper, add_zero] at a b
    exact ⟨⟨a, by omega⟩, ih _ hi.tail he (fun x hx => hgi x (List.mem_cons_of_mem _ hx)) hge
      (fun x hx => hd x (List.mem_cons_of_mem _ hx)) trivial e⟩
  | case8 ti is tj hv hc ih =>
    have := hgi ti (by simp); have := hge tj (by simp)
    obtain ⟨a, b⟩ := step_incMerge hv he (hgi ti (by simp)) h1 h2
    exact ih A hi.tail (he.head rfl) (fun e hm => hgi e (List.mem_cons_of_mem _ hm))
      (mem_head_g hge (by simp only; omega)) (fun e hm => hd e (List.mem_cons_of_mem _ hm)) a b
  | case9 ti is tj hv hc ih =>
    obtain ⟨a, b, c⟩ := step_incEmit hv he hge h1 h2
    exact ⟨a, ih _ hi.tail he (fun e hm => hgi e (List.mem_cons_of_mem _ hm)) hge (fun e hm => hd e (List.mem_cons_of_mem _ hm)) b c⟩
  | case10 ti is tj hv ih =>
    obtain ⟨a, b, c⟩ := step_entEmit hv hi h1 h2
    exact ⟨a, ih _ hi he.tail hgi (fun e hm => hge e (List.mem_cons_of_mem _ hm)) hd b c⟩
  | case11 ti is tj tn js hv hc ih =>
    have := hgi ti (by simp); have := hge tj (by simp)
    obtain ⟨a, b⟩ := step_incMerge hv he (hgi ti (by simp)) h1 h2
    exact ih A hi.tail (he.head rfl) (fun e hm => hgi e (List.mem_cons_of_mem _ hm))
      (mem_head_g hge (by simp only; omega)) (fun e hm => hd e (List.mem_cons_of_mem _ hm)) a b
  | case12 ti is tj tn js hv hc ih =>
    obtain ⟨a, b, c⟩ := step_incEmit hv he hge h1 h2
    exact ⟨a, ih _ hi.tail he (fun e hm => hgi e (List.mem_cons_of_mem _ hm)) hge (fun e hm => hd e (List.mem_cons_of_mem _ hm)) b c⟩
  | case13 ti is tj tn js hv hc ih =>
    have := hge tj (by simp); have := hge tn (by simp)
    obtain ⟨a, b⟩ := step_entMerge hv hi (hge tj (by simp)) h1 h2
    exact ih A hi (he.tail.head rfl) hgi (mem_head_g (t := tn) (fun e hm => hge e (List.mem_cons_of_mem _ hm)) (by simp only; omega)) hd a b
  | case14 ti is tj tn js hv hc ih =>
    obtain ⟨a, b, c⟩ := step_entEmit hv hi h1 h2
    exact ⟨a, ih _ hi he.tail hgi (fun e hm => hge e (List.mem_cons_of_mem _ hm)) hd b c⟩

/-- The loop keeps the total weight. -/
theorem mergeLoop_gsum (thr : ℚ) (inc ents : List (Entry α)) : gsum (mergeLoop thr inc ents) = gsum inc + gsum ents := by
  fun_induction mergeLoop thr inc ents <;> simp_all <;> ring

/-- The loop only keeps stored values. -/
theorem mergeLoop_values (thr : ℚ) (P : α → Prop) (inc ents : List (Entry α)) (hi : ∀ e ∈ inc, P e.value) (he : ∀ e ∈ ents, P e.value) :
    ∀ e ∈ mergeLoop thr inc ents, P e.value := by
  fun_induction mergeLoop thr inc ents <;> simp_all

/-- Entries in order stay in order. -/
theorem mergeLoop_sorted (thr : ℚ) (inc ents : List (Entry α)) (hi : Sorted inc) (he : Sorted ents) : Sorted (mergeLoop thr inc ents) := by
  have key : ∀ (l : List (Entry α)) (m : α), (∀ e ∈ l, m ≤ e.value) → Sorted l → ∀ t : Entry α, t.value = m → Sorted (t :: l) :=
    fun l m h1 h2 t ht => List.pairwise_cons.mpr ⟨fun a ha => ht ▸ h1 a ha, h2⟩
  fun_induction mergeLoop thr inc ents with
  | case1 => exact List.Pairwise.nil
  | case2 t => exact he
  | case3 t tn js hc ih => exact ih hi (he.tail.head rfl)
  | case4 t tn js hc ih =>
    exact key _ _ (mergeLoop_values thr _ _ _ (by simp) fun e hm => he.head_le (List.mem_cons_of_mem _ hm)) (ih hi he.tail) t rfl
  | case5 t => exact hi
  | case6 t tn is hc ih => exact ih (hi.tail.head rfl) he
  | case7 t tn is hc ih =>
    exact key _ _ (mergeLoop_values thr _ _ _ (fun e hm => hi.head_le (List.mem_cons_of_mem _ hm)) (by simp)) (ih hi.tail he) t rfl
  | case8 ti is tj hv hc ih => exact ih hi.tail (he.head rfl)
  | case9 ti is tj hv hc ih =>
    exact key _ _ (mergeLoop_values thr _ _ _ (fun e hm => hi.head_le (List.mem_cons_of_mem _ hm))
      fun e hm => hv.le.trans (he.head_le hm)) (ih hi.tail he) _ rfl
  | case10 ti is tj hv ih =>
    exact key _ _ (mergeLoop_values thr _ _ _ (fun e hm => (not_lt.mp hv).trans (hi.head_le hm)) (by simp)) (ih hi he.tail) _ rfl
  | case11 ti is tj tn js hv hc ih => exact ih hi.tail (he.head rfl)
  | case12 ti is tj tn js hv hc ih =>
    exact key _ _ (mergeLoop_values thr _ _ _ (fun e hm => hi.head_le (List.mem_cons_of_mem _ hm))
      fun e hm => hv.le.trans (he.head_le hm)) (ih hi.tail he) _ rfl
  | case13 ti is tj tn js hv hc ih => exact ih hi (he.tail.head rfl)
  | case14 ti is tj tn js hv hc ih =>
    exact key _ _ (mergeLoop_values thr _ _ _ (fun e hm => (not_lt.mp hv).trans (hi.head_le hm))
      fun e hm => he.head_le (List.mem_cons_of_mem _ hm)) (ih hi he.tail) _ rfl

/-- Weights stay positive. -/
theorem mergeLoop_pos (thr : ℚ) (inc ents : List (Entry α)) (hi : ∀ e ∈ inc, 0 < e.g) (he : ∀ e ∈ ents, 0 < e.g) :
    ∀ e ∈ mergeLoop thr inc ents, 0 < e.g := by
  fun_induction mergeLoop thr inc ents <;> simp_all [add_pos]

/-- No entry becomes wider than the threshold. -/
theorem mergeLoop_width (thr B : ℚ) (hB : thr ≤ B) (inc ents : List (Entry α)) (hi : ∀ e ∈ inc, ((e.g + e.delta : ℤ) : ℚ) ≤ B)
    (he : ∀ e ∈ ents, ((e.g + e.delta : ℤ) : ℚ) ≤ B) : ∀ e ∈ mergeLoop thr inc ents, ((e.g + e.delta : ℤ) : ℚ) ≤ B := by
  fun_induction mergeLoop thr inc ents with
  | case1 => simp
  | case2 t => exact he
  | case3 t tn js hc ih =>
    refine ih hi (mem_head_g (t := tn) (fun e hm => he e (List.mem_cons_of_mem _ hm)) ?_)
    push_cast at hc ⊢; linarith
  | case4 t tn js hc ih =>
    exact List.forall_mem_cons.mpr ⟨he t (by simp), ih hi fun e hm => he e (List.mem_cons_of_mem _ hm)⟩
  | case5 t => exact hi
  | case6 t tn is hc ih =>
    refine ih (mem_head_g (t := tn) (fun e hm => hi e (List.mem_cons_of_mem _ hm)) ?_) he
    push_cast at hc ⊢; linarith
  | case7 t tn is hc ih =>
    exact List.forall_mem_cons.mpr ⟨hi t (by simp), ih (fun e hm => hi e (List.mem_cons_of_mem _ hm)) he⟩
  | case8 ti is tj hv hc ih =>
    refine ih (fun e hm => hi e (List.mem_cons_of_mem _ hm)) (mem_head_g he ?_)
    push_cast at hc ⊢; linarith
  | case9 ti is tj hv hc ih =>
    refine List.forall_mem_cons.mpr ⟨?_, ih (fun e hm => hi e (List.mem_cons_of_mem _ hm)) he⟩
    have := he tj (by simp); push_cast at this ⊢; linarith
  | case10 ti is tj hv ih =>
    exact List.forall_mem_cons.mpr ⟨he tj (by simp), ih hi (by simp)⟩
  | case11 ti is tj tn js hv hc ih =>
    refine ih (fun e hm => hi e (List.mem_cons_of_mem _ hm)) (mem_head_g he ?_)
    push_cast at hc ⊢; linarith
  | case12 ti is tj tn js hv hc ih =>
    refine List.forall_mem_cons.mpr ⟨?_, ih (fun e hm => hi e (List.mem_cons_of_mem _ hm)) he⟩
    have := he tj (by simp); push_cast at this ⊢; linarith
  | case13 ti is tj tn js hv hc ih =>
    refine ih hi (mem_head_g (t := tn) (fun e hm => he e (List.mem_cons_of_mem _ hm)) ?_)
    push_cast at hc ⊢; linarith
  | case14 ti is tj tn js hv hc ih =>
    exact List.forall_mem_cons.mpr ⟨he tj (by simp), ih hi fun e hm => he e (List.mem_cons_of_mem _ hm)⟩

/-! ## From the summaries to the loop invariant -/

/-- The multiset that weighted entries stand for. -/
def expand (l : List (Entry α)) : List α := l.flatMap fun e => List.replicate e.g.toNat e.value

theorem numLe_append (S T : List α) (v : α) : numLe (S ++ T) v = numLe S v + numLe T v := by simp [numLe]
theorem numLt_append (S T : List α) (v : α) : numLt (S ++ T) v = numLt S v + numLt T v := by simp [numLt]

theorem numLe_expand {l : List (Entry α)} (h : ∀ e ∈ l, 0 < e.g) (v : α) : (numLe (expand l) v : ℤ) = wLe l v := by
  induction l with
  | nil => rfl
  | cons e l ih =>
    have h1 := ih fun e he => h e (List.mem_cons_of_mem _ he)
    have h2 := h e List.mem_cons_self
    have h3 : numLe (List.replicate e.g.toNat e.value) v = if e.value ≤ v then e.g.toNat else 0 := by
      unfold numLe; rw [List.countP_replicate]; simp
    have h4 : expand (e :: l) = List.replicate e.g.toNat e.value ++ expand l := by simp [expand]
    rw [h4, numLe_append, h3, wLe_cons, ← h1]
    push_cast
    split_ifs
    · rw [Int.toNat_of_nonneg h2.le]
    · simp

theorem numLt_expand {l : List (Entry α)} (h : ∀ e ∈ l, 0 < e.g) (v : α) : (numLt (expand l) v : ℤ) = wLt l v := by
  induction l with
  | nil => rfl
  | cons e l ih =>
    have h1 := ih fun e he => h e (List.mem_cons_of_mem _ he)
    have h2 := h e List.mem_cons_self
    have h3 : numLt (List.replicate e.g.toNat e.value) v = if e.value < v then e.g.toNat else 0 := by
      unfold numLt; rw [List.countP_replicate]; simp
    have h4 : expand (e :: l) = List.replicate e.g.toNat e.value ++ expand l := by simp [expand]
    rw [h4, numLt_append, h3, wLt_cons, ← h1]
    push_cast
    split_ifs
    · rw [Int.toNat_of_nonneg h2.le]
    · simp

omit [LinearOrder α] in
theorem length_expand {l : List (Entry α)} (h : ∀ e ∈ l, 0 < e.g) : ((expand l).length : ℤ) = gsum l := by
  induction l with
  | nil => rfl
  | cons e l ih =>
    have h1 := ih fun e he => h e (List.mem_cons_of_mem _ he)
    have h2 := h e List.mem_cons_self
    have h4 : expand (e :: l) = List.replicate e.g.toNat e.value ++ expand l := by simp [expand]
    rw [h4, List.length_append, List.length_replicate, gsum_cons, ← h1]
    push_cast
    rw [Int.toNat_of_nonneg h2.le]

theorem numLe_mono (S : List α) {a b : α} (h : a ≤ b) : numLe S a ≤ numLe S b := by
  apply List.countP_mono_left
  intro s _ hs; simp only [decide_eq_true_eq] at hs ⊢; exact hs.trans h

theorem numLt_mono (S : List α) {a b : α} (h : a ≤ b) : numLt S a ≤ numLt S b := by
  apply List.countP_mono_left
  intro s _ hs; simp only [decide_eq_true_eq] at hs ⊢; exact lt_of_lt_of_le hs h

theorem wLt_le_wLe {l : List (Entry α)} (h : ∀ e ∈ l, 0 < e.g) (v : α) : wLt l v ≤ wLe l v := by
  induction l with
  | nil => simp
  | cons e l ih =>
    have h1 := ih fun e he => h e (List.mem_cons_of_mem _ he)
    have h2 := h e List.mem_cons_self
    simp only [wLt_cons, wLe_cons]
    by_cases h3 : e.value < v
    · rw [if_pos h3, if_pos h3.le]; omega
    · rw [if_neg h3]; split_ifs <;> omega

theorem InvE.init {S : List α} {inc : List (Entry α)} (hi : ∀ e ∈ inc, 0 < e.g) {A : ℤ} {ents : List (Entry α)} (h : Ranks S A ents) :
    InvE (S ++ expand inc) inc A ents := by
  induction ents generalizing A with
  | nil => trivial
  | cons e es ih =>
    obtain ⟨⟨a, b⟩, c⟩ := h
    have h1 := wLt_le_wLe hi e.value
    have h2 := numLe_expand hi e.value
    have h3 := numLt_expand hi e.value
    refine ⟨⟨?_, ?_⟩, ih c⟩
    · rw [numLe_append]; push_cast; omega
    · rw [numLt_append]; push_cast; omega

theorem Ranks.wLe_le {S : List α} {A : ℤ} {ents : List (Entry α)} (h : Ranks S A ents) (hs : Sorted ents) (v : α)
    (hA : A ≤ numLe S v) : A + wLe ents v ≤ numLe S v := by
  induction ents generalizing A with
  | nil => simpa using hA
  | cons e es ih =>
    obtain ⟨⟨a, b⟩, c⟩ := h
    rw [wLe_cons]
    by_cases h1 : e.value ≤ v
    · rw [if_pos h1]
      have h2 := numLe_mono S h1
      have := ih c hs.tail (by omega)
      omega
    · rw [if_neg h1]
      have : wLe es v = 0 := by
        have : ∀ e' ∈ es, ¬ e'.value ≤ v := fun e' he' hle => h1 ((hs.head_le (List.mem_cons_of_mem _ he')).trans hle)
        clear ih c hs hA
        induction es with
        | nil => rfl
        | cons x xs ihx =>
          rw [wLe_cons, if_neg (this x (by simp)), ihx fun e' he' => this e' (List.mem_cons_of_mem _ he')]; rfl
      omega

theorem Ranks.lt_upper {S : List α} {A : ℤ} {ents : List (Entry α)} (h : Ranks S A ents) (ht : A + gsum ents = S.length)
    (e : Entry α) (hg : 0 < e.g) : (numLt S e.value : ℤ) < A + upper e ents := by
  induction ents generalizing A with
  | nil =>
    simp only [gsum_nil, add_zero] at ht
    have : numLt S e.value ≤ S.length := List.countP_le_length
    simp only [upper]; omega
  | cons t ts ih =>
    obtain ⟨⟨a, b⟩, c⟩ := h
    simp only [upper]
    split_ifs with h1
    · have := numLt_mono S h1.le; omega
    · have := ih c (by rw [gsum_cons] at ht; omega); omega

theorem InvI.init {S : List α} {inc ents : List (Entry α)} (hi : ∀ e ∈ inc, 0 < e.g) (hs : Sorted inc) (he : Sorted ents)
    (h : Ranks S 0 ents) (ht : gsum ents = S.length) : InvI (S ++ expand inc) ents 0 inc := by
  have key : ∀ p q : List (Entry α), inc = p ++ q → InvI (S ++ expand inc) ents (gsum p) q := by
    intro p q
    induction q generalizing p with
    | nil => intro _; trivial
    | cons e q ih =>
      intro hpq
      have h1 : ∀ a ∈ p, a.value ≤ e.value := by
        intro a ha
        have := hs
        rw [hpq] at this
        exact (List.pairwise_append.mp this).2.2 a ha e (by simp)
      have h2 : ∀ a ∈ e :: q, e.value ≤ a.value := by
        have := hs
        rw [hpq] at this
        intro a ha
        exact Sorted.head_le (List.pairwise_append.mp this).2.1 ha
      have hpos : ∀ a ∈ p, 0 < a.g := fun a ha => hi a (by rw [hpq]; simp [ha])
      have hle : wLe inc e.value = gsum p + wLe (e :: q) e.value := by
        have : ∀ p : List (Entry α), (∀ a ∈ p, a.value ≤ e.value) → wLe (p ++ e :: q) e.value = gsum p + wLe (e :: q) e.value := by
          intro p hp
          induction p with
          | nil => simp
          | cons a p ihp =>
            have := ihp fun a ha => hp a (List.mem_cons_of_mem _ ha)
            rw [List.cons_append, wLe_cons, if_pos (hp a (by simp)), this, gsum_cons]; ring
        rw [hpq]; exact this p h1
      have hlt : wLt inc e.value ≤ gsum p := by
        have : ∀ p : List (Entry α), (∀ a ∈ p, 0 < a.g) → wLt (p ++ e :: q) e.value ≤ gsum p := by
          intro p hp
          induction p with
          | nil => rw [List.nil_append, wLt_zero h2]; simp
          | cons a p ihp =>
            have h3 := ihp fun a ha => hp a (List.mem_cons_of_mem _ ha)
            have h4 := hp a (by simp)
            rw [List.cons_append, wLt_cons, gsum_cons]; split_ifs <;> omega
        rw [hpq]; exact this p hpos
      have hge : e.g ≤ wLe (e :: q) e.value := by
        rw [wLe_cons, if_pos le_rfl]
        have := wLe_nonneg (l := q) (fun a ha => (hi a (by rw [hpq]; simp [ha])).le) e.value
        omega
      have h5 := numLe_expand hi e.value
      have h6 := numLt_expand hi e.value
      have h7 := h.wLe_le he e.value (by omega)
      have h8 := h.lt_upper (by omega) e (hi e (by rw [hpq]; simp))
      refine ⟨⟨?_, ?_⟩, ?_⟩
      · rw [numLe_append]; push_cast; omega
      · rw [numLt_append]; push_cast; omega
      · have := ih (p ++ [e]) (by simpa using hpq)
        have h9 : gsum (p ++ [e]) = gsum p + e.g := by simp [gsum]
        rwa [h9] at this
  simpa using key [] inc rfl

theorem numLe_congr {S T : List α} (h : S.Perm T) (v : α) : numLe S v = numLe T v := h.countP_eq _
theorem numLt_congr {S T : List α} (h : S.Perm T) (v : α) : numLt S v = numLt T v := h.countP_eq _

theorem Ranks.congr {S T : List α} (h : S.Perm T) {A : ℤ} {l : List (Entry α)} (hr : Ranks S A l) : Ranks T A l := by
  induction l generalizing A with
  | nil => trivial
  | cons e l ih => exact ⟨⟨by rw [← numLe_congr h]; exact hr.1.1, by rw [← numLt_congr h]; exact hr.1.2⟩, ih hr.2⟩

/-- A list of entries is a summary of the stream `S`. -/
structure Summary (S : List α) (l : List (Entry α)) : Prop where
  ranks : Ranks S 0 l
  total : gsum l = S.length
  sorted : Sorted l
  pos : ∀ e ∈ l, 0 < e.g
  mem : ∀ e ∈ l, e.value ∈ S

theorem Summary.congr {S T : List α} (h : S.Perm T) {l : List (Entry α)} (hs : Summary S l) : Summary T l :=
  ⟨hs.ranks.congr h, by rw [hs.total, h.length_eq], hs.sorted, hs.pos, fun e he => h.subset (hs.mem e he)⟩

/-- The loop merges a summary of `S` with exactly known weighted values. -/
theorem Summary.merge {S : List α} {inc ents : List (Entry α)} (h : Summary S ents) (thr : ℚ) (hs : Sorted inc)
    (hi : ∀ e ∈ inc, 0 < e.g) (hd : ∀ e ∈ inc, e.delta = 0) : Summary (S ++ expand inc) (mergeLoop thr inc ents) where
  ranks := mergeLoop_ranks thr _ _ _ 0 hs h.sorted (fun e he => (hi e he).le) (fun e he => (h.pos e he).le) hd (InvE.init hi h.ranks)
    (InvI.init hi hs h.sorted h.ranks h.total)
  total := by rw [mergeLoop_gsum, h.total, List.length_append, ← length_expand hi]; push_cast; ring
  sorted := mergeLoop_sorted thr _ _ hs h.sorted
  pos := mergeLoop_pos thr _ _ hi h.pos
  mem := by
    apply mergeLoop_values thr (fun v => v ∈ S ++ expand inc)
    · intro e he
      rw [List.mem_append]; right
      simp only [expand, List.mem_flatMap, List.mem_replicate]
      exact ⟨e, he, by have := hi e he; omega, rfl⟩
    · intro e he; exact List.mem_append_left _ (h.mem e he)

theorem sortEntries_perm (l : List (Entry α)) : (sortEntries l).Perm l := List.perm_insertionSort _ _

theorem sortEntries_sorted (l : List (Entry α)) : Sorted (sortEntries l) := by
  have : Std.Total fun a b : Entry α => a.value ≤ b.value := ⟨fun a b => le_total _ _⟩
  have : IsTrans (Entry α) fun a b => a.value ≤ b.value := ⟨fun a b c => le_trans⟩
  exact List.pairwise_insertionSort _ _

omit [LinearOrder α] in
theorem expand_perm {l l' : List (Entry α)} (h : l.Perm l') : (expand l).Perm (expand l') := List.Perm.flatMap_right _ h

omit [LinearOrder α] in
theorem expand_ones (l : List α) : expand (l.map fun v => (⟨v, 1, 0⟩ : Entry α)) = l := by
  induction l with
  | nil => rfl
  | cons a l ih => simpa [expand] using ih

end OptBinning
