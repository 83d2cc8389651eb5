import Mathlib.Data.List.GetD
import Mathlib.Data.List.Dedup
import Verif.Model.Categorical
import Verif.Lemmas.Fit3

set_option linter.unusedSectionVars false
set_option linter.unusedSimpArgs false

namespace OptBinning
open Spec

variable {κ : Type} [LinearOrder κ]

theorem mem_groupCodes (right : Bool) (nb : ℕ) (splits : List ℤ) {cats : List κ} (hn : cats.Nodup) (v : κ) (k : ℕ) :
    v ∈ (groupCodes right nb splits cats).getD k [] ↔
      k < nb ∧ v ∈ cats ∧ digitize right splits (some ((cats.idxOf v : ℕ) : ℤ)) = k := by
  by_cases hk : k < nb
  · have : (groupCodes right nb splits cats).getD k [] =
        (cats.zipIdx.filter fun p => digitize right splits (some (p.2 : ℤ)) == k).map Prod.fst := by
      simp [groupCodes, List.getD, hk]
    rw [this]
    simp only [List.mem_map, List.mem_filter, Prod.exists, beq_iff_eq, hk, true_and]
    constructor
    · rintro ⟨a, i, ⟨h1, h2⟩, rfl⟩
      have h3 := List.mem_zipIdx_iff_getElem?.1 h1
      simp only at h3
      obtain ⟨hi, h3⟩ := List.getElem?_eq_some_iff.1 h3
      have hv : a ∈ cats := h3 ▸ List.getElem_mem hi
      have : cats.idxOf a = i := by rw [← h3]; exact hn.idxOf_getElem i hi
      exact ⟨hv, by rw [this]; exact h2⟩
    · rintro ⟨hv, h2⟩
      refine ⟨v, cats.idxOf v, ⟨List.mem_zipIdx_iff_getElem?.2 ?_, h2⟩, rfl⟩
      simp only
      rw [List.getElem?_eq_some_iff]
      exact ⟨List.idxOf_lt_length_of_mem hv, List.getElem_idxOf _⟩
  · simp [groupCodes, List.getD, hk]

theorem length_groupCodes {γ : Type*} (right : Bool) (nb : ℕ) (splits : List ℤ) (cats : List γ) :
    (groupCodes right nb splits cats).length = nb := by simp [groupCodes]

theorem catFold_none {β : Type*} (bins : List (List κ)) (g : ℕ → β) (m : ℕ) (v : β) (c : κ) (h : ∀ b ∈ bins, c ∉ b) :
    (bins.zipIdx m).foldl (fun v b => if (some c).elim false (fun c => b.1.contains c) then g b.2 else v) v = v := by
  induction bins generalizing m v with
  | nil => rfl
  | cons b bins ih =>
    rw [List.zipIdx_cons, List.foldl_cons]
    have h1 : b.contains c = false := by simpa using h b (by simp)
    simp only [Option.elim_some, h1, Bool.false_eq_true, if_false]
    exact ih (m + 1) v fun q hq => h q (by simp [hq])

theorem catFold_some {β : Type*} (bins : List (List κ)) (g : ℕ → β) (m i : ℕ) (v : β) (c : κ) (hi : i < bins.length)
    (hc : c ∈ bins.getD i []) (hu : ∀ j, c ∈ bins.getD j [] → j = i) :
    (bins.zipIdx m).foldl (fun v b => if (some c).elim false (fun c => b.1.contains c) then g b.2 else v) v =
      g (m + i) := by
  induction bins generalizing m v i with
  | nil => simp at hi
  | cons b bins ih =>
    rw [List.zipIdx_cons, List.foldl_cons]
    cases i with
    | zero =>
      have h1 : b.contains c = true := by simpa using hc
      simp only [Option.elim_some, h1, if_true, Nat.add_zero]
      refine catFold_none bins g (m + 1) _ c fun q hq hcq => ?_
      obtain ⟨j, hj, rfl⟩ := List.mem_iff_getElem.1 hq
      have := hu (j + 1) (by simpa [List.getD, hj] using hcq)
      omega
    | succ i =>
      have := ih (m + 1) i (if (some c).elim false (fun c => b.contains c) then g m else v) (by simpa using hi)
        (by simpa using hc) (fun j hj => by have := hu (j + 1) (by simpa using hj); omega)
      rw [show m + (i + 1) = m + 1 + i by omega]
      exact this

theorem transformCatClean_unknown {β : Type*} (bins : List (List κ)) (mv : ℕ → β) (unk : β) (c : κ)
    (h : ∀ b ∈ bins, c ∉ b) : transformCatClean bins mv unk (some c) = unk :=
  catFold_none bins mv 0 unk c h

theorem transformCatClean_known {β : Type*} (bins : List (List κ)) (mv : ℕ → β) (unk : β) (c : κ) {i : ℕ}
    (hi : i < bins.length) (hc : c ∈ bins.getD i []) (hu : ∀ j, c ∈ bins.getD j [] → j = i) :
    transformCatClean bins mv unk (some c) = mv i := by
  have := catFold_some bins mv 0 i unk c hi hc hu
  rwa [Nat.zero_add] at this

/-- Ceiling the splits does not change the bin of an integer code. -/
theorem digitize_ceil (splits : List ℚ) (i : ℕ) :
    digitize false (splits.map Int.ceil) (some (i : ℤ)) = digitize false splits (some (i : ℚ)) := by
  simp only [digitize, List.countP_map, Bool.false_eq_true, if_false]
  congr 1
  funext s
  simp only [Function.comp, Int.ceil_le]
  push_cast
  rfl

theorem inCats_iff (cs : List κ) (r : Rec κ) : r.inCats cs = true ↔ ∃ v ∈ cs, r.x = some v := by
  cases hx : r.x with
  | none => simp [Rec.inCats, hx]
  | some v => simp [Rec.inCats, hx]

/-- `cutoffOthers` returns distinct categories of the clean records. -/
theorem cutoffOthers_mem {cutoff : Option ℚ} {clean : List (Rec κ)} {others : List κ}
    (h : cutoffOthers cutoff clean = .ok others) :
    others.Nodup ∧ ∀ v, v ∈ others ↔ (∃ r ∈ clean, r.x = some v) ∧
      ∃ q, cutoff = some q ∧ ((catCount clean v : ℕ) : ℚ) < q * (clean.length : ℚ) := by
  cases cutoff with
  | none =>
    simp only [cutoffOthers, Except.ok.injEq] at h
    subst h
    simp
  | some q =>
    simp only [cutoffOthers, categoricalCutoff] at h
    split_ifs at h with h1
    simp only [Except.ok.injEq] at h
    subst h
    refine ⟨(List.nodup_dedup _).filter _, fun v => ?_⟩
    simp only [List.mem_filter, List.mem_dedup, List.mem_filterMap, decide_eq_true_eq, Option.some.injEq, exists_eq_left',
      Int.lt_ceil]
    have : (clean.countP fun r => r.x == some v) = catCount clean v := by
      unfold catCount
      refine List.countP_congr fun r _ => by simp
    rw [this]
    push_cast
    rfl

theorem categoricalCutoff_error (q : ℚ) (clean : List (Rec κ)) :
    (∃ e, categoricalCutoff q clean = .error e) ↔
      ∀ r ∈ clean, ∃ v, r.x = some v ∧ ((catCount clean v : ℕ) : ℚ) < q * (clean.length : ℚ) := by
  simp only [categoricalCutoff]
  have key : ∀ r ∈ clean, r.inCats ((clean.filterMap Rec.x).dedup.filter fun c =>
      decide (((clean.countP fun r => r.x == some c : ℕ) : ℤ) < ⌈q * (clean.length : ℚ)⌉)) = true ↔
      ∃ v, r.x = some v ∧ ((catCount clean v : ℕ) : ℚ) < q * (clean.length : ℚ) := by
    intro r hr
    rw [inCats_iff]
    simp only [List.mem_filter, List.mem_dedup, List.mem_filterMap, decide_eq_true_eq, Int.lt_ceil]
    have : ∀ v, (clean.countP fun r => r.x == some v) = catCount clean v := fun v => by
      unfold catCount
      refine List.countP_congr fun r _ => by simp
    simp only [this]
    constructor
    · rintro ⟨v, ⟨-, h2⟩, h3⟩; exact ⟨v, h3, by exact_mod_cast h2⟩
    · rintro ⟨v, h2, h3⟩; exact ⟨v, ⟨⟨r, hr, h2⟩, by exact_mod_cast h3⟩, h2⟩
  split_ifs with h1
  · simp only [Except.error.injEq, exists_eq', true_iff]
    rw [List.countP_eq_zero] at h1
    intro r hr
    exact (key r hr).1 (by simpa using h1 r hr)
  · simp only [reduceCtorEq, exists_false, false_iff]
    intro h2
    apply h1
    rw [List.countP_eq_zero]
    intro r hr
    simpa using (key r hr).2 (h2 r hr)

theorem weight_encode (cats : List κ) (l : List (Rec κ)) (p : Rec ℚ → Bool) :
    (((l.map (Rec.encode cats)).filter p).map Rec.w).sum =
      ((l.filter fun r => p (r.encode cats)).map Rec.w).sum := by
  rw [List.filter_map, List.map_map]
  rfl

end OptBinning
