import Verif.Model.ProcessSketch
import Verif.Spec.ProcessSketch
import Verif.Lemmas.ProcessSelect

/-! # The loops of `BinningProcessSketch` -/
namespace OptBinning
open Spec
variable {Ω χ υ V μ : Type*}

/-- The common shape of the loops. -/
def loopObjs (f : String → Ω → Ω × Option String) : List String → PDict Ω → PDict Ω × Option String
  | [], d => (d, none)
  | n :: ns, d =>
    match d.get n with
    | none => (d, some "KeyError")
    | some o =>
      match f n o with
      | (o', some e) => (d.set n o', some e)
      | (o', none) => loopObjs f ns (d.set n o')

theorem loopObjs_ran (f : String → Ω → Ω × Option String) (ns : List String) (hn : ns.Nodup) (d : PDict Ω) :
    RanUntil f ns d.get (loopObjs f ns d).1.get (loopObjs f ns d).2 := by
  induction ns generalizing d with
  | nil => exact ⟨0, le_rfl, by simp, by simp [loopObjs], by simp [loopObjs], by simp⟩
  | cons n ns ih =>
    obtain ⟨hn1, hn2⟩ := List.nodup_cons.1 hn
    unfold loopObjs
    cases hg : d.get n with
    | none =>
      refine ⟨0, by simp, by simp, by simp, by simp, ?_⟩
      intro m hm
      simp only [List.getElem?_cons_zero, Option.some.injEq] at hm
      subst hm
      exact .inl ⟨hg, hg, rfl⟩
    | some o =>
      simp only
      rcases hf : f n o with ⟨o', _ | e⟩
      · simp only
        obtain ⟨k, h0, h1, h2, h3, h4⟩ := ih hn2 (d.set n o')
        refine ⟨k + 1, by simpa using h0, ?_, ?_, by simpa using h3, ?_⟩
        · intro m hm
          rw [List.take_succ_cons, List.mem_cons] at hm
          rcases hm with rfl | hm
          · refine ⟨o, o', hg, hf, ?_⟩
            rw [h2 m fun hc => hn1 (List.mem_of_mem_take hc), PDict.get_set_same]
          · obtain ⟨a, b, g1, g2, g3⟩ := h1 m hm
            have hne : m ≠ n := fun hc => hn1 (hc ▸ List.mem_of_mem_take hm)
            rw [PDict.get_set_other _ _ hne] at g1
            exact ⟨a, b, g1, g2, g3⟩
        · intro m hm
          rw [List.take_succ_cons, List.mem_cons, not_or] at hm
          rw [h2 m hm.2, PDict.get_set_other _ _ hm.1]
        · intro m hm
          rw [List.getElem?_cons_succ] at hm
          have hne : m ≠ n := fun hc => hn1 (hc ▸ List.mem_of_getElem? hm)
          rcases h4 m hm with h | h
          · rw [PDict.get_set_other _ _ hne] at h; exact .inl h
          · rw [PDict.get_set_other _ _ hne] at h; exact .inr h
      · simp only
        refine ⟨0, by simp, by simp, ?_, by simp, ?_⟩
        · intro m hm
          simp only [Nat.zero_add, List.take_succ_cons, List.take_zero, List.mem_singleton] at hm
          rw [PDict.get_set_other _ _ hm]
        · intro m hm
          simp only [List.getElem?_cons_zero, Option.some.injEq] at hm
          subst hm
          exact .inr ⟨o, o', e, hg, hf, PDict.get_set_same _ _ _, rfl⟩

theorem solveObjs_loop (K : VarClass Ω χ υ V μ) (ns : List String) (d : PDict Ω) : solveObjs K ns d = loopObjs (fun _ => K.solve) ns d := by
  induction ns generalizing d with
  | nil => rfl
  | cons n ns ih =>
    simp only [solveObjs, loopObjs, ih]
    cases d.get n with
    | none => rfl
    | some o => rcases h : K.solve o with ⟨o', _ | e⟩ <;> simp [h]

/-- The effect of `merge` on one variable, if the other process has an object for it. -/
def mergeVar (K : VarClass Ω χ υ V μ) (other : PDict Ω) (n : String) (a : Ω) : Ω × Option String :=
  match other.get n with
  | some b => K.merge a b
  | none => (a, some "KeyError")

/-- The column of the variable. -/
def Chunk.col (c : Chunk χ υ) (n : String) : List χ := (PDict.get c.cols n).getD []

theorem mergeObjs_ran (K : VarClass Ω χ υ V μ) (other : PDict Ω) (ns : List String) (hn : ns.Nodup) (d : PDict Ω) :
    RanUntil (mergeVar K other) ns d.get (mergeObjs K other ns d).1.get (mergeObjs K other ns d).2 := by
  induction ns generalizing d with
  | nil => exact ⟨0, le_rfl, by simp, by simp [mergeObjs], by simp [mergeObjs], by simp⟩
  | cons n ns ih =>
    obtain ⟨hn1, hn2⟩ := List.nodup_cons.1 hn
    unfold mergeObjs
    cases hg : d.get n with
    | none =>
      refine ⟨0, by simp, by simp, by simp, by simp, ?_⟩
      intro m hm
      simp only [List.getElem?_cons_zero, Option.some.injEq] at hm
      subst hm
      exact .inl ⟨hg, hg, rfl⟩
    | some o =>
      cases hb : other.get n with
      | none =>
        refine ⟨0, by simp, by simp, by simp, by simp, ?_⟩
        intro m hm
        simp only [List.getElem?_cons_zero, Option.some.injEq] at hm
        subst hm
        exact .inr ⟨o, o, "KeyError", hg, by simp [mergeVar, hb], hg, rfl⟩
      | some b =>
      simp only
      rcases hf : K.merge o b with ⟨o', _ | e⟩
      · simp only
        obtain ⟨k, h0, h1, h2, h3, h4⟩ := ih hn2 (d.set n o')
        refine ⟨k + 1, by simpa using h0, ?_, ?_, by simpa using h3, ?_⟩
        · intro m hm
          rw [List.take_succ_cons, List.mem_cons] at hm
          rcases hm with rfl | hm
          · refine ⟨o, o', hg, by rw [mergeVar, hb]; exact hf, ?_⟩
            rw [h2 m fun hc => hn1 (List.mem_of_mem_take hc), PDict.get_set_same]
          · obtain ⟨a, b, g1, g2, g3⟩ := h1 m hm
            have hne : m ≠ n := fun hc => hn1 (hc ▸ List.mem_of_mem_take hm)
            rw [PDict.get_set_other _ _ hne] at g1
            exact ⟨a, b, g1, g2, g3⟩
        · intro m hm
          rw [List.take_succ_cons, List.mem_cons, not_or] at hm
          rw [h2 m hm.2, PDict.get_set_other _ _ hm.1]
        · intro m hm
          rw [List.getElem?_cons_succ] at hm
          have hne : m ≠ n := fun hc => hn1 (hc ▸ List.mem_of_getElem? hm)
          rcases h4 m hm with h | h
          · rw [PDict.get_set_other _ _ hne] at h; exact .inl h
          · rw [PDict.get_set_other _ _ hne] at h; exact .inr h
      · simp only
        refine ⟨0, by simp, by simp, ?_, by simp, ?_⟩
        · intro m hm
          simp only [Nat.zero_add, List.take_succ_cons, List.take_zero, List.mem_singleton] at hm
          rw [PDict.get_set_other _ _ hm]
        · intro m hm
          simp only [List.getElem?_cons_zero, Option.some.injEq] at hm
          subst hm
          exact .inr ⟨o, o', e, hg, by rw [mergeVar, hb]; exact hf, PDict.get_set_same _ _ _, rfl⟩

/-- The columns that belong to variables, in the order of the data frame. -/
def Chunk.known (c : Chunk χ υ) (names : List String) : List String := (c.cols.map Prod.fst).filter fun n => names.contains n

theorem addCols_loop (K : VarClass Ω χ υ V μ) (names : List String) (y : List υ) (cols : List (String × List χ)) (g : String → List χ)
    (hg : ∀ p ∈ cols, g p.1 = p.2) (d : PDict Ω) :
    addCols K names y cols d = loopObjs (fun n o => K.add o (g n) y) ((cols.map Prod.fst).filter fun n => names.contains n) d := by
  induction cols generalizing d with
  | nil => rfl
  | cons p cs ih =>
    obtain ⟨n, x⟩ := p
    have hx : g n = x := hg (n, x) (by simp)
    have ih' := fun d => ih (fun p hp => hg p (List.mem_cons_of_mem _ hp)) d
    rw [addCols, List.map_cons, List.filter_cons]
    by_cases hc : names.contains n = true
    · rw [if_pos hc, if_pos hc, loopObjs]
      cases d.get n with
      | none => rfl
      | some o =>
        simp only [hx]
        rcases K.add o x y with ⟨o', _ | e⟩
        · exact ih' _
        · rfl
    · rw [if_neg hc, if_neg hc]
      exact ih' d

theorem addCols_ran (K : VarClass Ω χ υ V μ) (names : List String) (c : Chunk χ υ) (hn : (c.cols.map Prod.fst).Nodup) (d : PDict Ω) :
    RanUntil (fun n o => K.add o (c.col n) c.y) (c.known names) d.get (addCols K names c.y c.cols d).1.get (addCols K names c.y c.cols d).2 := by
  rw [addCols_loop K names c.y c.cols c.col ?_ d]
  · exact loopObjs_ran _ _ (hn.filter _) _
  · intro p hp
    unfold Chunk.col PDict.get
    generalize c.cols = cols at *
    induction cols with
    | nil => simp at hp
    | cons q cs ih =>
      rw [List.map_cons, List.nodup_cons] at hn
      rw [List.find?_cons]
      rcases List.mem_cons.1 hp with rfl | hp
      · simp
      · have hne : q.1 ≠ p.1 := fun hc => hn.1 (hc ▸ List.mem_map_of_mem hp)
        simp only [beq_iff_eq, hne, beq_eq_false_iff_ne.2 hne]
        exact ih hn.2 hp

/-- Without exception every variable was treated. -/
theorem Spec.RanUntil.all {f : String → Ω → Ω × Option String} {ns : List String} {b a : String → Option Ω} (h : RanUntil f ns b a none) :
    (∀ n ∈ ns, ∃ o o', b n = some o ∧ f n o = (o', none) ∧ a n = some o') ∧ ∀ n, n ∉ ns → a n = b n := by
  obtain ⟨k, h0, h1, h2, h3, h4⟩ := h
  have hk : k = ns.length := h3.1 rfl
  subst hk
  rw [List.take_of_length_le (by omega)] at h1 h2
  exact ⟨h1, h2⟩

theorem initObjs_ok (K : VarClass Ω χ υ V μ) (ns : List String) (hn : ns.Nodup) (d : PDict Ω) {d' : PDict Ω} (h : initObjs K ns d = (d', none)) :
    (∀ n ∈ ns, ∃ o, K.new n = .ok o ∧ d'.get n = some o) ∧ ∀ n, n ∉ ns → d'.get n = d.get n := by
  induction ns generalizing d with
  | nil =>
    simp only [initObjs, Prod.mk.injEq, and_true] at h
    subst h
    simp
  | cons n ns ih =>
    obtain ⟨hn1, hn2⟩ := List.nodup_cons.1 hn
    unfold initObjs at h
    cases hk : K.new n with
    | error e => rw [hk] at h; simp at h
    | ok o =>
      rw [hk] at h
      simp only at h
      obtain ⟨h1, h2⟩ := ih hn2 _ h
      refine ⟨fun m hm => ?_, fun m hm => ?_⟩
      · rcases List.mem_cons.1 hm with rfl | hm
        · exact ⟨o, hk, by rw [h2 m hn1, PDict.get_set_same]⟩
        · exact h1 m hm
      · rw [List.mem_cons, not_or] at hm
        rw [h2 m hm.2, PDict.get_set_other _ _ hm.1]

end OptBinning
