import Verif.Model.BSketch
import Verif.Lemmas.Fit3
import Verif.Props.GKMerge

/-! # Counting lemmas for `BSketch` -/
namespace OptBinning
open Spec (SkOp owned ownedAll)
variable {α : Type*} [LinearOrder α]

/-- Clean records with target `ev`. -/
def cleanN (sc : SpecialCodes α) (ev : Bool) (rows : List (Rec α)) : ℕ := (splitData sc {} rows).clean.countP fun r => r.y == some ev
/-- Missing records with target `ev`. -/
def missN (sc : SpecialCodes α) (ev : Bool) (rows : List (Rec α)) : ℕ := (splitData sc {} rows).missing.countP fun r => r.y == some ev
/-- Special records with target `ev`. -/
def specN (sc : SpecialCodes α) (ev : Bool) (rows : List (Rec α)) : ℕ := (splitData sc {} rows).special.countP fun r => r.y == some ev

theorem cleanN_append (sc : SpecialCodes α) (ev : Bool) (a b : List (Rec α)) : cleanN sc ev (a ++ b) = cleanN sc ev a + cleanN sc ev b := by
  simp [cleanN, splitData, fixBounds]
theorem missN_append (sc : SpecialCodes α) (ev : Bool) (a b : List (Rec α)) : missN sc ev (a ++ b) = missN sc ev a + missN sc ev b := by
  simp [missN, splitData]
theorem specN_append (sc : SpecialCodes α) (ev : Bool) (a b : List (Rec α)) : specN sc ev (a ++ b) = specN sc ev a + specN sc ev b := by
  simp [specN, splitData]

theorem length_cleanValues (sc : SpecialCodes α) (ev : Bool) (rows : List (Rec α)) :
    (cleanValues ev (splitData sc {} rows).clean).length = cleanN sc ev rows := by
  induction rows with
  | nil => rfl
  | cons r rows ih =>
    have h1 : cleanN sc ev (r :: rows) = cleanN sc ev [r] + cleanN sc ev rows := cleanN_append sc ev [r] rows
    have h2 : cleanValues ev (splitData sc {} (r :: rows)).clean =
        cleanValues ev (splitData sc {} [r]).clean ++ cleanValues ev (splitData sc {} rows).clean := by
      have : (splitData sc {} (r :: rows)).clean = (splitData sc {} [r]).clean ++ (splitData sc {} rows).clean := by
        simp only [splitData, fixBounds]; rw [← List.filter_append]; rfl
      rw [this]; simp [cleanValues]
    rw [h1, h2, List.length_append, ih]
    congr 1
    obtain ⟨x, y, wt⟩ := r
    cases x with
    | none => simp [cleanN, cleanValues, splitData, fixBounds, Rec.isMissing]
    | some x =>
      cases y with
      | none => simp [cleanN, cleanValues, splitData, fixBounds, Rec.isMissing]
      | some y =>
        by_cases hs : (⟨some x, some y, wt⟩ : Rec α).isSpecial sc
        · simp [cleanN, cleanValues, splitData, fixBounds, hs]
        · cases y <;> cases ev <;> simp [cleanN, cleanValues, splitData, fixBounds, Rec.isMissing, hs]

/-- Every record with a known target is counted exactly once. -/
theorem total_counts (sc : SpecialCodes α) (hp : none ∉ sc.codes) (ev : Bool) (rows : List (Rec α)) :
    cleanN sc ev rows + missN sc ev rows + specN sc ev rows = rows.countP fun r => r.y == some ev := by
  induction rows with
  | nil => rfl
  | cons r rows ih =>
    have h1 := cleanN_append sc ev [r] rows
    have h2 := missN_append sc ev [r] rows
    have h3 := specN_append sc ev [r] rows
    rw [List.singleton_append] at h1 h2 h3
    rw [h1, h2, h3, List.countP_cons, ← ih]
    have : cleanN sc ev [r] + missN sc ev [r] + specN sc ev [r] = if (r.y == some ev) = true then 1 else 0 := by
      obtain ⟨x, y, wt⟩ := r
      have hn : sc.codes.contains none = false := by simpa using hp
      cases y with
      | none =>
        simp only [cleanN, missN, specN, splitData, fixBounds]
        cases h : (⟨x, none, wt⟩ : Rec α).isSpecial sc <;> simp [Rec.isMissing, h]
      | some y =>
        cases x with
        | none =>
          have h : (⟨none, some y, wt⟩ : Rec α).isSpecial sc = false := hn
          cases y <;> cases ev <;> simp [cleanN, missN, specN, splitData, fixBounds, Rec.isMissing, h]
        | some x =>
          cases h : (⟨some x, some y, wt⟩ : Rec α).isSpecial sc <;> cases y <;> cases ev <;>
            simp [cleanN, missN, specN, splitData, fixBounds, Rec.isMissing, h]
    omega

theorem eps_add (k : GK α) (v : α) : (k.add v).eps = k.eps ∧ (k.add v).count = k.count + 1 := by
  unfold GK.add; simp only; split_ifs <;> exact ⟨rfl, rfl⟩

theorem addAll_eps (k : GK α) (vs : List α) : (k.addAll vs).eps = k.eps ∧ (k.addAll vs).count = k.count + vs.length := by
  induction vs generalizing k with
  | nil => exact ⟨rfl, rfl⟩
  | cons v vs ih =>
    have h := ih (k.add v)
    have h2 := eps_add k v
    unfold GK.addAll at h ⊢
    rw [List.foldl_cons, h.1, h.2, h2.1, h2.2, List.length_cons]
    exact ⟨rfl, by omega⟩

theorem merge_count {a b : GK α} (h : a.eps = b.eps) : ∃ r, a.merge b = .ok r ∧ r.1.eps = a.eps ∧ r.1.count = a.count + b.count ∧
    r.2.eps = b.eps ∧ r.2.count = b.count := by
  unfold GK.merge
  rw [if_neg (by simpa using h)]
  split_ifs with h1 h2
  · exact ⟨_, rfl, rfl, by simp [h1], rfl, rfl⟩
  · exact ⟨_, rfl, rfl, by simp [h2], rfl, rfl⟩
  · exact ⟨_, rfl, rfl, rfl, rfl, rfl⟩

end OptBinning
