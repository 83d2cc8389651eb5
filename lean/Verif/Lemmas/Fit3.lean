import Verif.Lemmas.Fit2

set_option linter.unusedSectionVars false
set_option linter.unusedSimpArgs false

namespace OptBinning
open Spec Finset

variable {α : Type*} [LinearOrder α]

theorem mem_codes_iff (sc : SpecialCodes α) (x : Option α) : x ∈ sc.codes ↔ IsSpecialValue sc x := by
  cases sc with
  | none => simp [SpecialCodes.codes, IsSpecialValue]
  | list l => simp [SpecialCodes.codes, IsSpecialValue]
  | dict gs => simp [SpecialCodes.codes, IsSpecialValue]

theorem contains_codes_iff (sc : SpecialCodes α) (x : Option α) : sc.codes.contains x = true ↔ IsSpecialValue sc x := by
  rw [List.contains_iff_mem, mem_codes_iff]

/-! ### the loop over the dict of special codes -/

theorem foldl_none {β : Type*} (gs : List (String × List (Option α))) (x : Option α) (g : ℕ → β) (m : ℕ) (v : β)
    (h : ∀ q ∈ gs, x ∉ q.2) :
    (gs.zipIdx m).foldl (fun v q => if q.1.2.contains x then g q.2 else v) v = v := by
  induction gs generalizing m v with
  | nil => rfl
  | cons q gs ih =>
    rw [List.zipIdx_cons, List.foldl_cons]
    have h1 : q.2.contains x = false := by simpa using h q (by simp)
    simp only [h1, Bool.false_eq_true, if_false]
    exact ih (m + 1) v fun q hq => h q (by simp [hq])

theorem foldl_some {β : Type*} (gs : List (String × List (Option α))) (x : Option α) (g : ℕ → β) (m i : ℕ) (v : β)
    (hd : gs.Pairwise fun a b => ∀ c, ¬ (c ∈ a.2 ∧ c ∈ b.2)) (hi : i < gs.length) (hx : x ∈ gs[i].2) :
    (gs.zipIdx m).foldl (fun v q => if q.1.2.contains x then g q.2 else v) v = g (m + i) := by
  induction gs generalizing m v i with
  | nil => simp at hi
  | cons q gs ih =>
    rw [List.zipIdx_cons, List.foldl_cons]
    obtain ⟨hq, hgs⟩ := List.pairwise_cons.1 hd
    cases i with
    | zero =>
      have h1 : q.2.contains x = true := by simpa using hx
      simp only [h1, if_true, Nat.add_zero]
      exact foldl_none gs x g (m + 1) _ fun b hb hxb => hq b hb x ⟨by simpa using hx, hxb⟩
    | succ i =>
      have := ih (m + 1) i (if q.2.contains x then g m else v) hgs (by simpa using hi) (by simpa using hx)
      rw [show m + (i + 1) = m + 1 + i by omega]
      exact this

/-! ### transform of one value -/

variable {β : Type*}

theorem assign_clean (nb : ℕ) (sc : SpecialCodes α) (mv : ℕ → β) (ms mm : Option β) (v0 : β) (v : α)
    (hs : ¬ IsSpecialValue sc (some v)) : assignSpecialMissing nb sc mv ms mm v0 (some v) = v0 := by
  have h1 : sc.codes.contains (some v) = false := by
    rw [Bool.eq_false_iff]; intro hc; exact hs ((contains_codes_iff _ _).1 hc)
  cases sc with
  | none => simp [assignSpecialMissing]
  | list l => simp only [assignSpecialMissing, h1]; simp
  | dict gs =>
    have hn : ∀ q ∈ gs, some v ∉ q.2 := fun q hq hx => hs ⟨q, hq, hx⟩
    simp only [assignSpecialMissing]
    rw [foldl_none gs (some v) (fun j => ms.getD (mv (nb + j))) 0 _ hn]
    simp

theorem assign_missing (nb : ℕ) (sc : SpecialCodes α) (mv : ℕ → β) (ms mm : Option β) (v0 : β) :
    assignSpecialMissing nb sc mv ms mm v0 none = mm.getD (mv (nb + sc.count)) := by
  simp [assignSpecialMissing]

theorem assign_list (nb : ℕ) (l : List (Option α)) (mv : ℕ → β) (ms mm : Option β) (v0 : β) (v : α)
    (hs : some v ∈ l) :
    assignSpecialMissing nb (.list l) mv ms mm v0 (some v) = ms.getD (mv nb) := by
  simp [assignSpecialMissing, SpecialCodes.codes, hs]

theorem assign_dict (nb : ℕ) (gs : List (String × List (Option α))) (mv : ℕ → β)
    (ms mm : Option β) (v0 : β) (v : α) (hd : gs.Pairwise fun a b => ∀ c, ¬ (c ∈ a.2 ∧ c ∈ b.2)) {i : ℕ}
    (hi : i < gs.length) (hx : some v ∈ gs[i].2) :
    assignSpecialMissing nb (.dict gs) mv ms mm v0 (some v) = ms.getD (mv (nb + i)) := by
  simp only [assignSpecialMissing]
  rw [foldl_some gs (some v) (fun j => ms.getD (mv (nb + j))) 0 i _ hd hi hx]
  simp

/-- Index (among the special rows) of a special value. -/
theorem assign_special {sc : SpecialCodes α} (hp : ProperCodes sc) {x : Option α} (hx : IsSpecialValue sc x) :
    ∃ i < sc.count, ∀ (nb : ℕ) (mv : ℕ → β) (ms mm : Option β) (v0 : β),
      assignSpecialMissing nb sc mv ms mm v0 x = ms.getD (mv (nb + i)) := by
  obtain ⟨v, rfl⟩ : ∃ v, x = some v := by
    cases x with
    | none => exact absurd hx hp.1
    | some v => exact ⟨v, rfl⟩
  cases sc with
  | none => exact absurd hx (by simp [IsSpecialValue])
  | list l => exact ⟨0, by simp [SpecialCodes.count], fun nb mv ms mm v0 => assign_list _ _ _ _ _ _ _ hx⟩
  | dict gs =>
    obtain ⟨g, hg, hxg⟩ := hx
    obtain ⟨i, hi, rfl⟩ := List.mem_iff_getElem.1 hg
    exact ⟨i, by simpa [SpecialCodes.count] using hi, fun nb mv ms mm v0 => assign_dict _ _ _ _ _ _ _ hp.2 hi hxg⟩

theorem transformOne_clean (splits : List α) (sc : SpecialCodes α) (mv : ℕ → β) (unk : β) (ms mm : Option β) (v : α)
    (hs : ¬ IsSpecialValue sc (some v)) :
    transformOne splits sc mv unk ms mm (some v) = mv (digitize false splits (some v)) := by
  have h1 : sc.codes.contains (some v) = false := by
    rw [Bool.eq_false_iff]; intro hc; exact hs ((contains_codes_iff _ _).1 hc)
  have h2 := digitize_le false splits (some v)
  have h3 : (if splits.length = 0 then 0 else digitize false splits (some v)) = digitize false splits (some v) := by
    split_ifs with h
    · omega
    · rfl
  have h4 : digitize false splits (some v) < splits.length + 1 := by omega
  simp only [transformOne, assign_clean _ _ _ _ _ _ _ hs, h1, h3, h4, if_true]; simp

theorem transformOne_missing (splits : List α) (sc : SpecialCodes α) (mv : ℕ → β) (unk : β) (ms mm : Option β) :
    transformOne splits sc mv unk ms mm none = mm.getD (mv (splits.length + 1 + sc.count)) := by
  simp [transformOne, assign_missing]

theorem transformOne_list (splits : List α) (l : List (Option α)) (mv : ℕ → β) (unk : β) (ms mm : Option β) (v : α)
    (hs : some v ∈ l) :
    transformOne splits (.list l) mv unk ms mm (some v) = ms.getD (mv (splits.length + 1)) := by
  simp [transformOne, assign_list _ _ _ _ _ _ _ hs]

theorem transformOne_dict (splits : List α) (gs : List (String × List (Option α))) (mv : ℕ → β) (unk : β)
    (ms mm : Option β) (v : α) (hd : gs.Pairwise fun a b => ∀ c, ¬ (c ∈ a.2 ∧ c ∈ b.2)) {i : ℕ} (hi : i < gs.length)
    (hx : some v ∈ gs[i].2) :
    transformOne splits (.dict gs) mv unk ms mm (some v) = ms.getD (mv (splits.length + 1 + i)) := by
  simp only [transformOne]
  exact assign_dict _ _ _ _ _ _ _ hd hi hx

/-- Index (among the special rows) of a special value. -/
theorem special_index {sc : SpecialCodes α} (hp : ProperCodes sc) {x : Option α} (hx : IsSpecialValue sc x) :
    ∃ i < sc.count, ∀ (splits : List α) (mv : ℕ → β) (unk : β) (ms mm : Option β),
      transformOne splits sc mv unk ms mm x = ms.getD (mv (splits.length + 1 + i)) := by
  obtain ⟨i, hi, h⟩ := assign_special (β := β) hp hx
  exact ⟨i, hi, fun splits mv unk ms mm => h _ _ _ _ _⟩

/-! ### the three groups -/

theorem weight_append (a b : List (Rec α)) (p : Rec α → Prop) [DecidablePred p] :
    weight (a ++ b) p = weight a p + weight b p := by simp [weight]

theorem weight_perm {a b : List (Rec α)} (h : a.Perm b) (p : Rec α → Prop) [DecidablePred p] :
    weight a p = weight b p := by
  unfold weight
  exact ((h.filter _).map _).sum_eq

theorem weight_congr {a : List (Rec α)} {p q : Rec α → Prop} [DecidablePred p] [DecidablePred q]
    (h : ∀ r ∈ a, p r ↔ q r) : weight a p = weight a q := by
  unfold weight
  congr 2
  exact List.filter_congr fun r hr => by simp [h r hr]

theorem weight_eq_zero {a : List (Rec α)} {p : Rec α → Prop} [DecidablePred p] (h : ∀ r ∈ a, ¬ p r) :
    weight a p = 0 := by
  unfold weight
  have : a.filter (fun r => decide (p r)) = [] := by
    rw [List.filter_eq_nil_iff]; intro r hr; simpa using h r hr
  simp [this]

theorem split_perm {sc : SpecialCodes α} (hp : ¬ IsSpecialValue sc none) {recs : List (Rec α)}
    (hk : ∀ r ∈ recs, r.y = none → ¬ IsSpecialValue sc r.x) :
    ((splitData sc {} recs).clean ++ ((splitData sc {} recs).special ++ (splitData sc {} recs).missing)).Perm recs := by
  simp only [splitData, fixBounds]
  have h1 : (recs.filter fun r => !(r.isMissing || r.isSpecial sc)) =
      recs.filter fun r => !r.isMissing && !r.isSpecial sc := List.filter_congr fun r _ => by simp
  rw [← h1]
  have h2 : ((recs.filter fun r => r.isSpecial sc) ++ recs.filter fun r => r.isMissing).Perm
      (recs.filter fun r => r.isMissing || r.isSpecial sc) := by
    clear h1
    induction recs with
    | nil => simp
    | cons r recs ih =>
      have ih' := ih fun q hq => hk q (by simp [hq])
      by_cases hs : r.isSpecial sc = true
      · have hm : r.isMissing = false := by
          have hsv : IsSpecialValue sc r.x := (contains_codes_iff _ _).1 hs
          rw [Bool.eq_false_iff]
          intro hm
          simp only [Rec.isMissing, Bool.or_eq_true, Option.isNone_iff_eq_none] at hm
          rcases hm with hm | hm
          · rw [hm] at hsv; exact hp hsv
          · exact hk r (by simp) hm hsv
        simpa [List.filter_cons, hs, hm] using ih'
      · by_cases hm : r.isMissing = true
        · simp only [List.filter_cons, hs, hm, Bool.false_eq_true, if_false, if_true, Bool.or_false]
          exact List.perm_middle.trans (ih'.cons r)
        · simpa [List.filter_cons, hs, hm] using ih'
  refine (List.Perm.append_left _ h2).trans ?_
  exact List.perm_append_comm.trans (List.filter_append_perm _ recs)

theorem filter_not_perm (l : List (Rec α)) (p : Rec α → Bool) :
    (l.filter (fun r => !p r) ++ l.filter p).Perm l :=
  List.perm_append_comm.trans (List.filter_append_perm p l)

theorem truncWeight_weight {recs : List (Rec α)} (h : WholeWeights recs) (q : Rec α → Bool) :
    ((truncWeight (recs.filter q) : ℕ) : ℚ) = weight recs (fun r => q r = true) := by
  rw [truncWeight_whole (wholeWeights_filter h _)]
  simp [weight]

theorem isEvent_beq (r : Rec α) (h : r.y ≠ none) (e : Bool) : (r.isEvent == e) = true ↔ r.y = some e := by
  cases hy : r.y with
  | none => exact absurd hy h
  | some b => cases b <;> cases e <;> simp [Rec.isEvent, hy]

theorem specialCounts_length (sc : SpecialCodes α) (special : List (Rec α)) (event : Bool) :
    (specialCounts sc special event).length = sc.count := by
  cases sc <;> simp [specialCounts, SpecialCodes.count]

/-- The special rows of the table are the histogram of transform. -/
theorem specialCounts_getD {sc : SpecialCodes α} (hp : ProperCodes sc) {special : List (Rec α)} (hw : WholeWeights special)
    (hs : ∀ r ∈ special, IsSpecialValue sc r.x ∧ r.y ≠ none) (nb : ℕ) (v0 : Option α → ℤ) (event : Bool) {j : ℕ}
    (hj : j < sc.count) :
    (((specialCounts sc special event).getD j 0 : ℕ) : ℚ) = weight special fun r => r.y = some event ∧
      assignSpecialMissing nb sc (fun i => (i : ℤ)) none none (v0 r.x) r.x = ((nb + j : ℕ) : ℤ) := by
  cases sc with
  | none =>
    have : special = [] := List.eq_nil_iff_forall_not_mem.2 fun r hr => (hs r hr).1
    subst this
    have hj : j = 0 := by simpa [SpecialCodes.count] using hj
    subst hj
    simp [specialCounts, truncWeight, weight]
  | list l =>
    have hj : j = 0 := by simpa [SpecialCodes.count] using hj
    subst hj
    simp only [specialCounts, List.getD_cons_zero]
    rw [truncWeight_weight hw]
    refine weight_congr fun r hr => ?_
    rw [isEvent_beq r (hs r hr).2]
    have hx := (hs r hr).1
    cases hxv : r.x with
    | none => rw [hxv] at hx; exact absurd hx hp.1
    | some v =>
      rw [hxv] at hx
      rw [assign_list _ _ _ _ _ _ _ hx]
      simp
  | dict gs =>
    have hj : j < gs.length := by simpa [SpecialCodes.count] using hj
    simp only [specialCounts]
    have hg : (gs.map fun g => truncWeight (special.filter fun r => g.2.contains r.x && r.isEvent == event)).getD j 0 =
        truncWeight (special.filter fun r => gs[j].2.contains r.x && r.isEvent == event) := by
      simp [List.getD, hj]
    rw [hg, truncWeight_weight hw]
    refine weight_congr fun r hr => ?_
    rw [Bool.and_eq_true, isEvent_beq r (hs r hr).2]
    have hx := (hs r hr).1
    cases hxv : r.x with
    | none => rw [hxv] at hx; exact absurd hx hp.1
    | some v =>
      rw [hxv] at hx
      obtain ⟨g, hg, hxg⟩ := hx
      obtain ⟨i, hi, rfl⟩ := List.mem_iff_getElem.1 hg
      rw [assign_dict _ _ _ _ _ _ _ hp.2 hi hxg]
      have : some v ∈ gs[j].2 ↔ i = j := by
        constructor
        · intro hxj
          by_contra hne
          have hd := List.pairwise_iff_getElem.1 hp.2
          rcases Nat.lt_or_gt_of_ne hne with hlt | hlt
          · exact hd i j hi hj hlt _ ⟨hxg, hxj⟩
          · exact hd j i hj hi hlt _ ⟨hxj, hxg⟩
        · rintro rfl; exact hxg
      simp only [List.contains_iff_mem, this]
      constructor
      · rintro ⟨h1, h2⟩
        exact ⟨h2, by subst h1; simp⟩
      · rintro ⟨h1, h2⟩
        refine ⟨?_, h1⟩
        simp at h2
        omega

end OptBinning
