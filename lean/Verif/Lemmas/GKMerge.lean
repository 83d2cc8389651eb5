import Verif.Props.GK

/-! # Merging Greenwald-Khanna sketches -/
namespace OptBinning
open Spec (numLt numLe HasRankWithin IsMinOf IsMaxOf)
variable {α : Type*} [LinearOrder α]

/-- The upper rank bounds are increasing (from `R` on) and end below the total weight. -/
def Mono : ℤ → ℤ → List (Entry α) → Prop
  | R, A, [] => R ≤ A
  | R, A, e :: es => R ≤ A + e.g + e.delta ∧ Mono (A + e.g + e.delta) (A + e.g) es

omit [LinearOrder α] in
theorem Mono.shift {R R' A A' : ℤ} {es : List (Entry α)} (h : Mono R A es) (hr : R' - A' ≤ R - A) : Mono R' A' es := by
  induction es generalizing R R' A A' with
  | nil => have : R ≤ A := h; show R' ≤ A'; omega
  | cons e es ih => exact ⟨by have := h.1; omega, ih h.2 (by omega)⟩

theorem mergeLoop_mono (thr : ℚ) (inc ents : List (Entry α)) (R A : ℤ) (hgi : ∀ e ∈ inc, 0 ≤ e.g)
    (hd : ∀ e ∈ inc, e.delta = 0) (h : Mono R A ents) : Mono R A (mergeLoop thr inc ents) := by
  fun_induction mergeLoop thr inc ents generalizing R A with
  | case1 => exact h
  | case2 t => exact h
  | case3 t tn js hc ih =>
    refine ih R A hgi hd ⟨?_, ?_⟩
    · have := h.1; have := h.2.1; simp only; omega
    · exact h.2.2.shift (by simp only; omega)
  | case4 t tn js hc ih => exact ⟨h.1, ih _ _ hgi hd h.2⟩
  | case5 t =>
    have := hgi t (by simp); have := hd t (by simp); have : R ≤ A := h
    refine ⟨by omega, ?_⟩
    show A + t.g + t.delta ≤ A + t.g
    omega
  | case6 t tn is hc ih =>
    refine ih R A (mem_head_g (t := tn) (fun e hm => hgi e (List.mem_cons_of_mem _ hm)) ?_)
      (mem_head_g (t := tn) (fun e hm => hd e (List.mem_cons_of_mem _ hm)) (hd tn (by simp))) h
    have := hgi t (by simp); have := hgi tn (by simp); simp only; omega
  | case7 t tn is hc ih =>
    have := hgi t (by simp); have := hd t (by simp); have : R ≤ A := h
    refine ⟨by omega, ih _ _ (fun e hm => hgi e (List.mem_cons_of_mem _ hm)) (fun e hm => hd e (List.mem_cons_of_mem _ hm)) ?_⟩
    show A + t.g + t.delta ≤ A + t.g
    omega
  | case8 ti is tj hv hc ih =>
    have := hgi ti (by simp)
    refine ih R A (fun e hm => hgi e (List.mem_cons_of_mem _ hm)) (fun e hm => hd e (List.mem_cons_of_mem _ hm)) ⟨?_, h.2.shift ?_⟩
    · have := h.1; simp only; omega
    · simp only; omega
  | case9 ti is tj hv hc ih =>
    have := hgi ti (by simp)
    refine ⟨by have := h.1; simp only; omega, ih _ _ (fun e hm => hgi e (List.mem_cons_of_mem _ hm))
      (fun e hm => hd e (List.mem_cons_of_mem _ hm)) ⟨by simp only; omega, h.2.shift (by simp only; omega)⟩⟩
  | case10 ti is tj hv ih => exact ⟨h.1, ih _ _ hgi hd h.2⟩
  | case11 ti is tj tn js hv hc ih =>
    have := hgi ti (by simp)
    refine ih R A (fun e hm => hgi e (List.mem_cons_of_mem _ hm)) (fun e hm => hd e (List.mem_cons_of_mem _ hm)) ⟨?_, h.2.shift ?_⟩
    · have := h.1; simp only; omega
    · simp only; omega
  | case12 ti is tj tn js hv hc ih =>
    have := hgi ti (by simp)
    refine ⟨by have := h.1; simp only; omega, ih _ _ (fun e hm => hgi e (List.mem_cons_of_mem _ hm))
      (fun e hm => hd e (List.mem_cons_of_mem _ hm)) ⟨by simp only; omega, h.2.shift (by simp only; omega)⟩⟩
  | case13 ti is tj tn js hv hc ih =>
    refine ih R A hgi hd ⟨?_, ?_⟩
    · have := h.1; have := h.2.1; simp only; omega
    · exact h.2.2.shift (by simp only; omega)
  | case14 ti is tj tn js hv hc ih => exact ⟨h.1, ih _ _ hgi hd h.2⟩

/-- With unit incoming weights no `delta` becomes negative. -/
theorem mergeLoop_delta (thr : ℚ) (inc ents : List (Entry α)) (hi : ents = [] ∨ ∀ e ∈ inc, e.g = 1) (hd : ∀ e ∈ inc, e.delta = 0)
    (he : ∀ e ∈ ents, 0 < e.g ∧ 0 ≤ e.delta) : ∀ e ∈ mergeLoop thr inc ents, 0 ≤ e.delta := by
  fun_induction mergeLoop thr inc ents with
  | case1 => simp
  | case2 t => simpa using (he t (by simp)).2
  | case3 t tn js hc ih =>
    refine ih (.inr (by simp)) hd (mem_head_g (t := tn) (fun e hm => he e (List.mem_cons_of_mem _ hm)) ?_)
    have := he t (by simp); have := he tn (by simp); simp only; omega
  | case4 t tn js hc ih =>
    exact List.forall_mem_cons.mpr ⟨(he t (by simp)).2, ih (.inr (by simp)) hd fun e hm => he e (List.mem_cons_of_mem _ hm)⟩
  | case5 t => simpa using (hd t (by simp)).ge
  | case6 t tn is hc ih =>
    exact ih (.inl rfl) (mem_head_g (t := tn) (fun e hm => hd e (List.mem_cons_of_mem _ hm)) (hd tn (by simp))) he
  | case7 t tn is hc ih =>
    exact List.forall_mem_cons.mpr ⟨(hd t (by simp)).ge, ih (.inl rfl) (fun e hm => hd e (List.mem_cons_of_mem _ hm)) he⟩
  | case8 ti is tj hv hc ih =>
    replace hi := hi.resolve_left (by simp)
    refine ih (.inr fun e hm => hi e (List.mem_cons_of_mem _ hm)) (fun e hm => hd e (List.mem_cons_of_mem _ hm)) (mem_head_g he ?_)
    have := he tj (by simp); have := hi ti (by simp); simp only; omega
  | case9 ti is tj hv hc ih =>
    replace hi := hi.resolve_left (by simp)
    refine List.forall_mem_cons.mpr ⟨?_, ih (.inr fun e hm => hi e (List.mem_cons_of_mem _ hm)) (fun e hm => hd e (List.mem_cons_of_mem _ hm)) he⟩
    have := he tj (by simp); have := hi ti (by simp); simp only; omega
  | case10 ti is tj hv ih =>
    exact List.forall_mem_cons.mpr ⟨(he tj (by simp)).2, ih (.inl rfl) hd (by simp)⟩
  | case11 ti is tj tn js hv hc ih =>
    replace hi := hi.resolve_left (by simp)
    refine ih (.inr fun e hm => hi e (List.mem_cons_of_mem _ hm)) (fun e hm => hd e (List.mem_cons_of_mem _ hm)) (mem_head_g he ?_)
    have := he tj (by simp); have := hi ti (by simp); simp only; omega
  | case12 ti is tj tn js hv hc ih =>
    replace hi := hi.resolve_left (by simp)
    refine List.forall_mem_cons.mpr ⟨?_, ih (.inr fun e hm => hi e (List.mem_cons_of_mem _ hm)) (fun e hm => hd e (List.mem_cons_of_mem _ hm)) he⟩
    have := he tj (by simp); have := hi ti (by simp); simp only; omega
  | case13 ti is tj tn js hv hc ih =>
    replace hi := hi.resolve_left (by simp)
    refine ih (.inr hi) hd (mem_head_g (t := tn) (fun e hm => he e (List.mem_cons_of_mem _ hm)) ?_)
    have := he tj (by simp); have := he tn (by simp); simp only; omega
  | case14 ti is tj tn js hv hc ih =>
    replace hi := hi.resolve_left (by simp)
    exact List.forall_mem_cons.mpr ⟨(he tj (by simp)).2, ih (.inr hi) hd fun e hm => he e (List.mem_cons_of_mem _ hm)⟩

/-- The entries made from a sketch without the first one, gk.py:104-117 (before dropping weights that are not positive). -/
def tailW (sp : ℤ) (t : Entry α) : List (Entry α) → List (Entry α)
  | [] => [⟨t.value, sp + 1 - t.delta, 0⟩]
  | e :: es => ⟨t.value, e.g + (e.delta - t.delta), 0⟩ :: tailW sp e es

omit [LinearOrder α] in
theorem tailW_values (sp : ℤ) (P : α → Prop) : ∀ (es : List (Entry α)) (t : Entry α), (∀ e ∈ t :: es, P e.value) →
    ∀ e ∈ tailW sp t es, P e.value := by
  intro es
  induction es with
  | nil => intro t h; simpa [tailW] using h t (by simp)
  | cons e es ih =>
    intro t h
    exact List.forall_mem_cons.mpr ⟨h t (by simp), ih e fun x hx => h x (List.mem_cons_of_mem _ hx)⟩

omit [LinearOrder α] in
theorem tailW_eq (sp : ℤ) : ∀ (es : List (Entry α)) (t : Entry α),
    List.zipWith (fun t tp1 => (⟨t.value, tp1.g + (tp1.delta - t.delta), 0⟩ : Entry α)) (t :: es) es ++
      [⟨((t :: es).getLast (by simp)).value, sp + 1 - ((t :: es).getLast (by simp)).delta, 0⟩] = tailW sp t es := by
  intro es
  induction es with
  | nil => intro t; rfl
  | cons e es ih =>
    intro t
    have := ih e
    simp only [List.zipWith_cons_cons, tailW, List.cons_append, List.getLast_cons_cons]
    exact congrArg _ this

theorem wLe_zero {l : List (Entry α)} {v : α} (h : ∀ e ∈ l, v < e.value) : wLe l v = 0 := by
  induction l with
  | nil => rfl
  | cons e l ih =>
    rw [wLe_cons, if_neg (not_le.mpr (h e (by simp))), ih fun e he => h e (List.mem_cons_of_mem _ he)]; rfl

theorem numLe_le_numLt (S : List α) {a b : α} (h : a < b) : numLe S a ≤ numLt S b := by
  apply List.countP_mono_left
  intro s _ hs; simp only [decide_eq_true_eq] at hs ⊢; exact lt_of_le_of_lt hs h

/-- The weights that stand for the merged sketch follow the counts of its stream. -/
theorem tailW_le {T : List α} {sp : ℤ} (hsp : 0 ≤ sp) : ∀ (es : List (Entry α)) (t : Entry α) (A : ℤ), Ranks T A es →
    A + gsum es = T.length → Sorted (t :: es) → (∀ e ∈ es, e.g + e.delta ≤ 2 * sp + 1) → A ≤ numLe T t.value →
    ∀ v, t.value ≤ v → (numLe T v : ℤ) + 1 ≤ A + t.delta + wLe (tailW sp t es) v ∧
      A + t.delta + wLe (tailW sp t es) v ≤ numLe T v + 2 * sp + 1 := by
  intro es
  induction es with
  | nil =>
    intro t A _ htot _ _ hA v hv
    have h1 : numLe T v ≤ T.length := List.countP_le_length
    have h2 := numLe_mono T hv
    simp only [gsum_nil, add_zero] at htot
    simp only [tailW, wLe_cons, hv, if_true, wLe_nil]
    constructor <;> omega
  | cons e es ih =>
    intro t A hr htot hs hw hA v hv
    rw [gsum_cons] at htot
    simp only [tailW, wLe_cons, hv, if_true]
    by_cases h1 : e.value ≤ v
    · have := ih e (A + e.g) hr.2 (by omega) hs.tail (fun x hx => hw x (List.mem_cons_of_mem _ hx)) hr.1.1 v h1
      constructor <;> [have := this.1; have := this.2] <;> omega
    · push Not at h1
      have h2 : wLe (tailW sp e es) v = 0 := by
        apply wLe_zero
        apply tailW_values sp (fun a => v < a)
        intro x hx
        exact lt_of_lt_of_le h1 (hs.tail.head_le hx)
      have h3 := numLe_le_numLt T h1
      have h4 := numLe_mono T hv
      have h5 := hw e (by simp)
      have h6 := hr.1.2
      rw [h2]
      constructor <;> omega

theorem tailW_lt {T : List α} {sp : ℤ} (hsp : 0 ≤ sp) : ∀ (es : List (Entry α)) (t : Entry α) (A : ℤ), Ranks T A es →
    A + gsum es = T.length → Sorted (t :: es) → (∀ e ∈ es, e.g + e.delta ≤ 2 * sp + 1) → A ≤ numLe T t.value →
    ∀ v, t.value < v → (numLt T v : ℤ) + 1 ≤ A + t.delta + wLt (tailW sp t es) v ∧
      A + t.delta + wLt (tailW sp t es) v ≤ numLt T v + 2 * sp + 1 := by
  intro es
  induction es with
  | nil =>
    intro t A _ htot _ _ hA v hv
    have h1 : numLt T v ≤ T.length := List.countP_le_length
    have h2 := numLe_le_numLt T hv
    simp only [gsum_nil, add_zero] at htot
    simp only [tailW, wLt_cons, hv, if_true, wLt_nil]
    constructor <;> omega
  | cons e es ih =>
    intro t A hr htot hs hw hA v hv
    rw [gsum_cons] at htot
    simp only [tailW, wLt_cons, hv, if_true]
    by_cases h1 : e.value < v
    · have := ih e (A + e.g) hr.2 (by omega) hs.tail (fun x hx => hw x (List.mem_cons_of_mem _ hx)) hr.1.1 v h1
      constructor <;> [have := this.1; have := this.2] <;> omega
    · push Not at h1
      have h2 : wLt (tailW sp e es) v = 0 := by
        apply wLt_zero
        apply tailW_values sp (fun a => v ≤ a)
        intro x hx
        exact h1.trans (hs.tail.head_le hx)
      have h3 := numLt_mono T h1
      have h4 := numLe_le_numLt T hv
      have h5 := hw e (by simp)
      have h6 := hr.1.2
      rw [h2]
      constructor <;> omega

omit [LinearOrder α] in
theorem tailW_gsum (sp : ℤ) : ∀ (es : List (Entry α)) (t : Entry α), gsum (tailW sp t es) = gsum es + sp + 1 - t.delta := by
  intro es
  induction es with
  | nil => intro t; simp [tailW]
  | cons e es ih => intro t; simp only [tailW, gsum_cons, ih e]; ring

omit [LinearOrder α] in
theorem tailW_nonneg {sp : ℤ} (hsp : 0 ≤ sp) : ∀ (es : List (Entry α)) (t : Entry α) (A : ℤ), Mono (A + t.delta) A es →
    ∀ e ∈ tailW sp t es, 0 ≤ e.g := by
  intro es
  induction es with
  | nil =>
    intro t A h
    have : A + t.delta ≤ A := h
    intro e he
    simp only [tailW, List.mem_singleton] at he
    subst he; simp only; omega
  | cons e es ih =>
    intro t A h
    refine List.forall_mem_cons.mpr ⟨by have := h.1; simp only; omega, ih e (A + e.g) h.2⟩

/-- Dropping zero weights changes nothing. -/
theorem wLe_filter {l : List (Entry α)} (h : ∀ e ∈ l, 0 ≤ e.g) (v : α) : wLe (l.filter fun e => decide (e.g > 0)) v = wLe l v := by
  induction l with
  | nil => rfl
  | cons e l ih =>
    have h1 := ih fun e he => h e (List.mem_cons_of_mem _ he)
    have h2 := h e (by simp)
    by_cases h3 : e.g > 0
    · rw [List.filter_cons_of_pos (by simpa using h3), wLe_cons, wLe_cons, h1]
    · rw [List.filter_cons_of_neg (by simpa using h3), wLe_cons, h1]; split_ifs <;> omega

theorem wLt_filter {l : List (Entry α)} (h : ∀ e ∈ l, 0 ≤ e.g) (v : α) : wLt (l.filter fun e => decide (e.g > 0)) v = wLt l v := by
  induction l with
  | nil => rfl
  | cons e l ih =>
    have h1 := ih fun e he => h e (List.mem_cons_of_mem _ he)
    have h2 := h e (by simp)
    by_cases h3 : e.g > 0
    · rw [List.filter_cons_of_pos (by simpa using h3), wLt_cons, wLt_cons, h1]
    · rw [List.filter_cons_of_neg (by simpa using h3), wLt_cons, h1]; split_ifs <;> omega

omit [LinearOrder α] in
theorem gsum_filter {l : List (Entry α)} (h : ∀ e ∈ l, 0 ≤ e.g) : gsum (l.filter fun e => decide (e.g > 0)) = gsum l := by
  induction l with
  | nil => rfl
  | cons e l ih =>
    have h1 := ih fun e he => h e (List.mem_cons_of_mem _ he)
    have h2 := h e (by simp)
    by_cases h3 : e.g > 0
    · rw [List.filter_cons_of_pos (by simpa using h3), gsum_cons, gsum_cons, h1]
    · rw [List.filter_cons_of_neg (by simpa using h3), gsum_cons, h1]; omega

end OptBinning
