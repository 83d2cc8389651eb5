import Verif.Lemmas.GKMerge

/-! # C26: merging Greenwald-Khanna sketches -/
namespace OptBinning
open Spec (numLt numLe HasRankWithin IsMinOf IsMaxOf)
variable {α : Type*} [LinearOrder α]

/-- A sketch that was filled by `add` only. -/
structure Plain (S : List α) (k : GK α) : Prop where
  desc : Describes S k
  mono : Mono 0 0 k.entries
  delta : ∀ e ∈ k.entries, 0 ≤ e.delta

theorem Describes.entries_pos {S : List α} {k : GK α} (h : Describes S k) : ∀ e ∈ k.entries, 0 < e.g := by
  obtain ⟨S0, -, hs⟩ := h.parts; exact hs.pos

theorem Plain.compress {S : List α} {k : GK α} (h : Plain S k) : Plain S (k.mergeCompress []) := by
  have hall : ∀ e ∈ sortEntries (k.incoming.map fun v => (⟨v, 1, 0⟩ : Entry α)), e.g = 1 ∧ e.delta = 0 := by
    intro e he
    have := (sortEntries_perm _).subset he
    simp only [List.mem_map] at this
    obtain ⟨v, -, rfl⟩ := this
    exact ⟨rfl, rfl⟩
  refine ⟨h.desc.compress.1, ?_, ?_⟩
  · simp only [GK.mergeCompress, List.append_nil]
    exact mergeLoop_mono _ _ _ 0 0 (fun e he => by rw [(hall e he).1]; decide) (fun e he => (hall e he).2) h.mono
  · simp only [GK.mergeCompress, List.append_nil]
    exact mergeLoop_delta _ _ _ (.inr fun e he => (hall e he).1) (fun e he => (hall e he).2)
      fun e he => ⟨h.desc.entries_pos e he, h.delta e he⟩

theorem Plain.flush {S : List α} {k : GK α} (h : Plain S k) : Plain S k.flush := by
  unfold GK.flush; split_ifs
  · exact h
  · exact h.compress

theorem Plain.add {S : List α} {k : GK α} (h : Plain S k) (heps : 0 ≤ k.eps) (v : α) : Plain (S ++ [v]) (k.add v) := by
  have hd := h.desc.add heps v
  have hall : ∀ l : List α, ∀ e ∈ sortEntries (l.map fun v => (⟨v, 1, 0⟩ : Entry α)), e.g = 1 ∧ e.delta = 0 := by
    intro l e he
    have := (sortEntries_perm _).subset he
    simp only [List.mem_map] at this
    obtain ⟨v, -, rfl⟩ := this
    exact ⟨rfl, rfl⟩
  refine ⟨hd, ?_, ?_⟩
  · unfold GK.add; simp only
    split_ifs
    · simp only [GK.mergeCompress, List.append_nil]
      exact mergeLoop_mono _ _ _ 0 0 (fun e he => by rw [(hall _ e he).1]; decide) (fun e he => (hall _ e he).2) h.mono
    · exact h.mono
  · unfold GK.add; simp only
    split_ifs
    · simp only [GK.mergeCompress, List.append_nil]
      exact mergeLoop_delta _ _ _ (.inr fun e he => (hall _ e he).1) (fun e he => (hall _ e he).2)
        fun e he => ⟨h.desc.entries_pos e he, h.delta e he⟩
    · exact h.delta

theorem Plain.step {S : List α} {k : GK α} (h : Plain S k) (heps : 0 ≤ k.eps) (op : GKOp α) :
    Plain (S ++ addedValues [op]) (k.step op) := by
  cases op with
  | add v => simpa [addedValues, GK.step] using h.add heps v
  | len => simpa [addedValues, GK.step] using h.flush
  | quantile q =>
    simp only [GK.step, GK.quantile, addedValues, List.filterMap_cons, List.filterMap_nil, List.append_nil]
    split_ifs
    all_goals first | exact h | exact h.flush
  | compress => simpa [addedValues, GK.step] using h.compress

theorem plain_run (eps : ℚ) (heps : 0 < eps) (ops : List (GKOp α)) : Plain (addedValues ops) (GK.run eps ops) := by
  have key : ∀ (ops : List (GKOp α)) (S : List α) (k : GK α), Plain S k → k.eps = eps →
      Plain (S ++ addedValues ops) (ops.foldl GK.step k) := by
    intro ops
    induction ops with
    | nil => intro S k h _; simpa [addedValues] using h
    | cons op ops ih =>
      intro S k h he
      have := ih _ _ (h.step (by rw [he]; exact heps.le) op) (by rw [eps_step, he])
      have h2 : S ++ addedValues (op :: ops) = S ++ addedValues [op] ++ addedValues ops := by
        rw [List.append_assoc]; congr 1
        simp only [addedValues, ← List.filterMap_append, List.singleton_append]
      rw [h2]; exact this
  have := key ops [] { eps := eps } ⟨describes_new eps, by show (0 : ℤ) ≤ 0; exact le_rfl, by simp⟩ rfl
  simpa [GK.run] using this

/-- The stream `T` follows `S` up to `E` in every count. -/
structure Approx (S T : List α) (E : ℤ) : Prop where
  le1 : ∀ v, (numLe S v : ℤ) - E ≤ numLe T v
  le2 : ∀ v, (numLe T v : ℤ) ≤ numLe S v + E
  lt1 : ∀ v, (numLt S v : ℤ) - E ≤ numLt T v
  lt2 : ∀ v, (numLt T v : ℤ) ≤ numLt S v + E
  len1 : S.length ≤ T.length
  len2 : (T.length : ℤ) ≤ S.length + E
  mem : ∀ t ∈ T, t ∈ S

theorem Approx.refl (S : List α) : Approx S S 0 := ⟨by simp, by simp, by simp, by simp, le_rfl, by simp, fun _ h => h⟩

theorem Approx.append {S S' T T' : List α} {E E' : ℤ} (h : Approx S T E) (h' : Approx S' T' E') : Approx (S ++ S') (T ++ T') (E + E') := by
  refine ⟨fun v => ?_, fun v => ?_, fun v => ?_, fun v => ?_, ?_, ?_, ?_⟩
  · rw [numLe_append, numLe_append]; have := h.le1 v; have := h'.le1 v; push_cast; omega
  · rw [numLe_append, numLe_append]; have := h.le2 v; have := h'.le2 v; push_cast; omega
  · rw [numLt_append, numLt_append]; have := h.lt1 v; have := h'.lt1 v; push_cast; omega
  · rw [numLt_append, numLt_append]; have := h.lt2 v; have := h'.lt2 v; push_cast; omega
  · have := h.len1; have := h'.len1; simp only [List.length_append]; omega
  · have := h.len2; have := h'.len2; simp only [List.length_append]; push_cast; omega
  · intro t ht
    rcases List.mem_append.mp ht with ht | ht
    · exact List.mem_append_left _ (h.mem t ht)
    · exact List.mem_append_right _ (h'.mem t ht)

theorem Approx.perm {S S' T T' : List α} {E : ℤ} (h : Approx S T E) (hs : S.Perm S') (ht : T.Perm T') : Approx S' T' E := by
  refine ⟨fun v => ?_, fun v => ?_, fun v => ?_, fun v => ?_, ?_, ?_, ?_⟩
  · rw [← numLe_congr hs, ← numLe_congr ht]; exact h.le1 v
  · rw [← numLe_congr hs, ← numLe_congr ht]; exact h.le2 v
  · rw [← numLt_congr hs, ← numLt_congr ht]; exact h.lt1 v
  · rw [← numLt_congr hs, ← numLt_congr ht]; exact h.lt2 v
  · rw [← hs.length_eq, ← ht.length_eq]; exact h.len1
  · rw [← hs.length_eq, ← ht.length_eq]; exact h.len2
  · intro t h1; exact hs.subset (h.mem t (ht.symm.subset h1))

omit [LinearOrder α] in
theorem tailW_width {sp : ℤ} {B : ℚ} (hB : (sp : ℚ) + 1 ≤ B) : ∀ (es : List (Entry α)) (t : Entry α), (∀ e ∈ t :: es, 0 ≤ e.delta) →
    (∀ e ∈ es, ((e.g + e.delta : ℤ) : ℚ) ≤ B) → ∀ e ∈ tailW sp t es, ((e.g : ℤ) : ℚ) ≤ B ∧ e.delta = 0 := by
  intro es
  induction es with
  | nil =>
    intro t h _ e he
    simp only [tailW, List.mem_singleton] at he
    have : (0 : ℚ) ≤ (t.delta : ℚ) := by exact_mod_cast h t (by simp)
    subst he; refine ⟨?_, rfl⟩; push_cast; linarith
  | cons e es ih =>
    intro t h hw
    refine List.forall_mem_cons.mpr ⟨⟨?_, rfl⟩, ih e (fun x hx => h x (List.mem_cons_of_mem _ hx)) fun x hx => hw x (List.mem_cons_of_mem _ hx)⟩
    have : (0 : ℚ) ≤ (t.delta : ℚ) := by exact_mod_cast h t (by simp)
    have h2 := hw e (by simp); push_cast at h2 ⊢; linarith

/-- What gk.py:93-117 makes of a sketch that was filled by `add`: weighted values that follow its stream up to twice its spread. -/
theorem asEntries_spec {S : List α} {b : GK α} (h : Plain S b) (hinc : b.incoming = []) (heps : 0 ≤ b.eps) (hne : S ≠ []) :
    let sp := ⌊b.eps * ((b.count : ℚ) - 1)⌋
    (∀ e ∈ b.asEntries, 0 < e.g ∧ e.delta = 0 ∧ ((e.g : ℤ) : ℚ) ≤ max 1 (2 * b.eps * ((b.count : ℚ) - 1))) ∧ Approx S (expand b.asEntries) (2 * sp) := by
  intro sp
  obtain ⟨S0, hp, hs⟩ := h.desc.parts
  rw [hinc, List.append_nil] at hp
  have hs := hs.congr hp
  have hlen : 0 < S.length := List.length_pos_iff_ne_nil.mpr hne
  have hcount := h.desc.count
  have hn1 : (0 : ℚ) ≤ (b.count : ℚ) - 1 := by
    have : (1 : ℚ) ≤ (b.count : ℚ) := by rw [hcount]; exact_mod_cast hlen
    linarith
  have hsp : 0 ≤ sp := Int.floor_nonneg.mpr (mul_nonneg heps hn1)
  have hW : ∀ e ∈ b.entries, e.g + e.delta ≤ 2 * sp + 1 := by
    intro e hem
    have := h.desc.width e hem
    rw [mul_assoc] at this
    exact width_le_spread (mul_nonneg heps hn1) this
  rcases h.desc.mn with ⟨h1, -⟩ | ⟨m, hm, hmin⟩
  · exact absurd h1 hne
  have hmono := h.mono
  have hdelta := h.delta
  have htot := hs.total
  have hr := hs.ranks
  have hsort := hs.sorted
  have hmem := hs.mem
  unfold GK.asEntries
  rw [hm]
  cases hent : b.entries with
  | nil => rw [hent] at htot; simp at htot; omega
  | cons e0 es =>
    rw [hent] at hW hmono hdelta htot hr hsort hmem
    simp only
    rw [List.append_assoc, tailW_eq sp es e0]
    obtain ⟨hR, hr'⟩ := hr
    rw [zero_add] at hR hr'
    rw [gsum_cons] at htot
    have hR0 : 1 ≤ e0.g + e0.delta := by have := hR.2; omega
    have hW0 := hW e0 (by simp)
    set first : Entry α := ⟨m, e0.g + e0.delta - 1 - sp, 0⟩ with hfirst
    have hnn : ∀ e ∈ tailW sp e0 es, 0 ≤ e.g := tailW_nonneg hsp es e0 e0.g (by have := hmono.2; rwa [zero_add] at this)
    have hWq := h.desc.width
    rw [hent] at hWq
    have hspB : (sp : ℚ) + 1 ≤ max 1 (2 * b.eps * ((b.count : ℚ) - 1)) := by
      have h5 : (sp : ℚ) ≤ b.eps * ((b.count : ℚ) - 1) := Int.floor_le _
      by_cases h6 : sp ≤ 0
      · apply le_max_of_le_left; have : (sp : ℚ) ≤ 0 := by exact_mod_cast h6
        linarith
      · apply le_max_of_le_right
        have : (1 : ℚ) ≤ (sp : ℚ) := by exact_mod_cast (by omega : (1 : ℤ) ≤ sp)
        linarith
    have hwid := tailW_width hspB es e0 hdelta fun e he => hWq e (List.mem_cons_of_mem _ he)
    set L := ([first] ++ tailW sp e0 es).filter fun e => decide (e.g > 0) with hL
    have hLpos : ∀ e ∈ L, 0 < e.g := by intro e he; rw [hL, List.mem_filter] at he; simpa using he.2
    have hLmem : ∀ e ∈ L, e.value ∈ S := by
      intro e he
      rw [hL, List.mem_filter] at he
      rcases List.mem_append.mp he.1 with h1 | h1
      · simp only [List.mem_singleton] at h1; rw [h1]; exact hmin.1
      · exact tailW_values sp (fun v => v ∈ S) es e0 hmem e h1
    have hLd : ∀ e ∈ L, e.delta = 0 ∧ ((e.g : ℤ) : ℚ) ≤ max 1 (2 * b.eps * ((b.count : ℚ) - 1)) := by
      intro e he
      rw [hL, List.mem_filter] at he
      rcases List.mem_append.mp he.1 with h1 | h1
      · simp only [List.mem_singleton] at h1; rw [h1]
        refine ⟨rfl, le_trans ?_ (hWq e0 (by simp))⟩
        simp only [hfirst]; exact_mod_cast (by omega : e0.g + e0.delta - 1 - sp ≤ e0.g + e0.delta)
      · exact ⟨(hwid e h1).2, (hwid e h1).1⟩
    -- the dropped first weight
    set w0 : ℤ := if e0.g + e0.delta - 1 - sp > 0 then e0.g + e0.delta - 1 - sp else 0 with hw0
    have hwLe : ∀ v, wLe L v = (if m ≤ v then w0 else 0) + wLe (tailW sp e0 es) v := by
      intro v
      rw [hL, List.filter_append, ← wLe_filter hnn v]
      by_cases h1 : e0.g + e0.delta - 1 - sp > 0
      · rw [List.filter_cons_of_pos (by simpa [hfirst] using h1), List.filter_nil, List.singleton_append, wLe_cons, hw0, if_pos h1]
      · rw [List.filter_cons_of_neg (by simpa [hfirst] using h1), List.filter_nil, List.nil_append, hw0, if_neg h1]; simp
    have hwLt : ∀ v, wLt L v = (if m < v then w0 else 0) + wLt (tailW sp e0 es) v := by
      intro v
      rw [hL, List.filter_append, ← wLt_filter hnn v]
      by_cases h1 : e0.g + e0.delta - 1 - sp > 0
      · rw [List.filter_cons_of_pos (by simpa [hfirst] using h1), List.filter_nil, List.singleton_append, wLt_cons, hw0, if_pos h1]
      · rw [List.filter_cons_of_neg (by simpa [hfirst] using h1), List.filter_nil, List.nil_append, hw0, if_neg h1]; simp
    have hgs : gsum L = w0 + gsum (tailW sp e0 es) := by
      rw [hL, List.filter_append, ← gsum_filter hnn]
      by_cases h1 : e0.g + e0.delta - 1 - sp > 0
      · rw [List.filter_cons_of_pos (by simpa [hfirst] using h1), List.filter_nil, List.singleton_append, gsum_cons, hw0, if_pos h1]
      · rw [List.filter_cons_of_neg (by simpa [hfirst] using h1), List.filter_nil, List.nil_append, hw0, if_neg h1]; simp
    have hw1 : e0.g + e0.delta - 1 - sp ≤ w0 := by rw [hw0]; split_ifs <;> omega
    have hw2 : w0 ≤ e0.g + e0.delta - 1 := by rw [hw0]; split_ifs <;> omega
    have hw3 : w0 ≤ sp := by rw [hw0]; split_ifs <;> omega
    have hw4 : 0 ≤ w0 := by rw [hw0]; split_ifs <;> omega
    have hm0 : m ≤ e0.value := hmin.2 _ (hmem e0 (by simp))
    have hLEs := tailW_le (T := S) hsp es e0 e0.g hr' (by omega) hsort (fun e he => hW e (List.mem_cons_of_mem _ he)) hR.1
    have hLTs := tailW_lt (T := S) hsp es e0 e0.g hr' (by omega) hsort (fun e he => hW e (List.mem_cons_of_mem _ he)) hR.1
    have boundLe : ∀ v, (numLe S v : ℤ) - 2 * sp ≤ wLe L v ∧ wLe L v ≤ numLe S v + 2 * sp := by
      intro v
      rw [hwLe v]
      by_cases h1 : e0.value ≤ v
      · rw [if_pos (hm0.trans h1)]
        have := hLEs v h1
        constructor <;> omega
      · push Not at h1
        have h2 : wLe (tailW sp e0 es) v = 0 := wLe_zero (tailW_values sp (fun a => v < a) es e0 fun x hx => lt_of_lt_of_le h1 (hsort.head_le hx))
        have h3 := numLe_le_numLt S h1
        have h4 := hR.2
        rw [h2]
        split_ifs with h5
        · constructor <;> omega
        · have : numLe S v = 0 := by
            unfold numLe; rw [List.countP_eq_zero]; intro s hs'
            simp only [decide_eq_true_eq, not_le]
            exact lt_of_lt_of_le (not_le.mp h5) (hmin.2 s hs')
          constructor <;> omega
    have boundLt : ∀ v, (numLt S v : ℤ) - 2 * sp ≤ wLt L v ∧ wLt L v ≤ numLt S v + 2 * sp := by
      intro v
      rw [hwLt v]
      by_cases h1 : e0.value < v
      · rw [if_pos (lt_of_le_of_lt hm0 h1)]
        have := hLTs v h1
        constructor <;> omega
      · push Not at h1
        have h2 : wLt (tailW sp e0 es) v = 0 := wLt_zero (tailW_values sp (fun a => v ≤ a) es e0 fun x hx => h1.trans (hsort.head_le hx))
        have h3 := numLt_mono S h1
        have h4 := hR.2
        rw [h2]
        split_ifs with h5
        · constructor <;> omega
        · have : numLt S v = 0 := by
            unfold numLt; rw [List.countP_eq_zero]; intro s hs'
            simp only [decide_eq_true_eq, not_lt]
            exact (not_lt.mp h5).trans (hmin.2 s hs')
          constructor <;> omega
    have htg := tailW_gsum sp es e0
    refine ⟨fun e he => ⟨hLpos e he, (hLd e he).1, (hLd e he).2⟩, ?_⟩
    refine ⟨fun v => ?_, fun v => ?_, fun v => ?_, fun v => ?_, ?_, ?_, ?_⟩
    · rw [numLe_expand hLpos]; exact (boundLe v).1
    · rw [numLe_expand hLpos]; exact (boundLe v).2
    · rw [numLt_expand hLpos]; exact (boundLt v).1
    · rw [numLt_expand hLpos]; exact (boundLt v).2
    · have := length_expand hLpos; omega
    · rw [length_expand hLpos]; omega
    · intro t ht
      simp only [expand, List.mem_flatMap, List.mem_replicate] at ht
      obtain ⟨e, he, -, rfl⟩ := ht
      exact hLmem e he

/-- A sketch that collected adds and merges: it exactly describes a stream that follows `S` up to `E`. -/
structure Collects (S : List α) (E : ℤ) (k : GK α) : Prop where
  parts : ∃ T0, Approx S (T0 ++ k.incoming) E ∧ Summary T0 k.entries
  width : ∀ e ∈ k.entries, ((e.g + e.delta : ℤ) : ℚ) ≤ max 1 (2 * k.eps * ((k.count : ℚ) - 1))
  count : k.count = S.length
  mn : (S = [] ∧ k.mn = none) ∨ ∃ m, k.mn = some m ∧ IsMinOf S m
  mx : (S = [] ∧ k.mx = none) ∨ ∃ m, k.mx = some m ∧ IsMaxOf S m

theorem Describes.collects {S : List α} {k : GK α} (h : Describes S k) : Collects S 0 k := by
  obtain ⟨S0, hp, hs⟩ := h.parts
  exact ⟨⟨S0, (Approx.refl S).perm (List.Perm.refl _) hp.symm, hs⟩, h.width, h.count, h.mn, h.mx⟩

theorem Collects.compressWith {S S' : List α} {E E' : ℤ} {k : GK α} {extra : List (Entry α)}
    (hparts : ∃ T0, Approx S (T0 ++ k.incoming) E ∧ Summary T0 k.entries)
    (hx : ∀ e ∈ extra, 0 < e.g ∧ e.delta = 0 ∧ ((e.g : ℤ) : ℚ) ≤ max 1 (2 * k.eps * ((k.count : ℚ) - 1)))
    (hax : Approx S' (expand extra) E')
    (hw : ∀ e ∈ k.entries, ((e.g + e.delta : ℤ) : ℚ) ≤ max 1 (2 * k.eps * ((k.count : ℚ) - 1))) :
    (∃ T0, Approx (S ++ S') (T0 ++ (k.mergeCompress extra).incoming) (E + E') ∧ Summary T0 (k.mergeCompress extra).entries) ∧
    ∀ e ∈ (k.mergeCompress extra).entries, ((e.g + e.delta : ℤ) : ℚ) ≤ max 1 (2 * k.eps * ((k.count : ℚ) - 1)) := by
  obtain ⟨T0, ha, hs⟩ := hparts
  simp only [GK.mergeCompress, List.append_nil]
  set inc := k.incoming.map (fun v => (⟨v, 1, 0⟩ : Entry α)) ++ extra with hinc
  have hperm := sortEntries_perm inc
  have hall : ∀ e ∈ sortEntries inc, 0 < e.g ∧ e.delta = 0 ∧ ((e.g : ℤ) : ℚ) ≤ max 1 (2 * k.eps * ((k.count : ℚ) - 1)) := by
    intro e he
    have := hperm.subset he
    rw [hinc, List.mem_append, List.mem_map] at this
    rcases this with ⟨v, -, rfl⟩ | h
    · exact ⟨Int.one_pos, rfl, by simp⟩
    · exact hx e h
  refine ⟨⟨_, ?_, hs.merge _ (sortEntries_sorted inc) (fun e he => (hall e he).1) fun e he => (hall e he).2.1⟩, ?_⟩
  · refine (ha.append hax).perm (List.Perm.refl _) ?_
    rw [List.append_assoc]
    refine List.Perm.append_left T0 (List.Perm.trans ?_ (expand_perm hperm).symm)
    have h1 : expand inc = k.incoming ++ expand extra := by
      have h2 : expand inc = expand (k.incoming.map fun v => (⟨v, 1, 0⟩ : Entry α)) ++ expand extra := by
        simp only [hinc, expand, List.flatMap_append]
      rw [h2, expand_ones]
    rw [h1]
  · apply mergeLoop_width _ _ (le_max_right _ _)
    · intro e he
      rw [(hall e he).2.1, add_zero]; exact (hall e he).2.2
    · exact hw

theorem Collects.compress {S : List α} {E : ℤ} {k : GK α} (h : Collects S E k) : Collects S E (k.mergeCompress []) := by
  have := Collects.compressWith (S' := []) (E' := 0) (extra := []) h.parts (by simp) (by simpa [expand] using Approx.refl ([] : List α)) h.width
  simp only [List.append_nil, add_zero] at this
  exact ⟨by simpa using this.1, this.2, h.count, h.mn, h.mx⟩

theorem Collects.flush {S : List α} {E : ℤ} {k : GK α} (h : Collects S E k) : Collects S E k.flush ∧ k.flush.incoming = [] := by
  unfold GK.flush
  split_ifs with h0
  · exact ⟨h, List.length_eq_zero_iff.mp h0⟩
  · have := Collects.compressWith (S' := []) (E' := 0) (extra := []) h.parts (by simp) (by simpa [expand] using Approx.refl ([] : List α)) h.width
    simp only [List.append_nil, add_zero] at this
    exact ⟨⟨by simpa using this.1, this.2, h.count, h.mn, h.mx⟩, rfl⟩

theorem isMinOf_append {S S' : List α} {a b : α} (ha : IsMinOf S a) (hb : IsMinOf S' b) : IsMinOf (S ++ S') (min a b) := by
  refine ⟨?_, fun s hs => ?_⟩
  · rcases min_choice a b with h | h <;> rw [h, List.mem_append]
    · exact .inl ha.1
    · exact .inr hb.1
  · rcases List.mem_append.mp hs with h | h
    · exact (min_le_left _ _).trans (ha.2 s h)
    · exact (min_le_right _ _).trans (hb.2 s h)

theorem isMaxOf_append {S S' : List α} {a b : α} (ha : IsMaxOf S a) (hb : IsMaxOf S' b) : IsMaxOf (S ++ S') (max a b) := by
  refine ⟨?_, fun s hs => ?_⟩
  · rcases max_choice a b with h | h <;> rw [h, List.mem_append]
    · exact .inl ha.1
    · exact .inr hb.1
  · rcases List.mem_append.mp hs with h | h
    · exact (ha.2 s h).trans (le_max_left _ _)
    · exact (hb.2 s h).trans (le_max_right _ _)

theorem Collects.add {S : List α} {E : ℤ} {k : GK α} (h : Collects S E k) (heps : 0 ≤ k.eps) (v : α) : Collects (S ++ [v]) E (k.add v) := by
  unfold GK.add
  simp only
  set k1 : GK α := { k with
    incoming := k.incoming ++ [v]
    count := k.count + 1
    mn := some (k.mn.elim v fun m => if v < m then v else m)
    mx := some (k.mx.elim v fun m => if v > m then v else m) } with hk1
  have h1 : Collects (S ++ [v]) E k1 := by
    obtain ⟨T0, ha, hs⟩ := h.parts
    refine ⟨⟨T0, ?_, hs⟩, ?_, ?_, ?_, ?_⟩
    · simp only [hk1]; rw [← List.append_assoc]
      have := ha.append (Approx.refl [v])
      rwa [add_zero] at this
    · intro e he
      refine (h.width e he).trans (max_le_max le_rfl ?_)
      simp only [hk1]; push_cast; nlinarith
    · simp [hk1, h.count]
    · right
      refine ⟨_, rfl, ?_⟩
      rcases h.mn with ⟨rfl, hm⟩ | ⟨m, hm, hm1⟩
      · rw [hm]; simp [IsMinOf]
      · have := isMinOf_append hm1 (b := v) (S' := [v]) (by simp [IsMinOf])
        rw [hm]
        simp only [Option.elim_some]
        split_ifs with hlt
        · rwa [min_eq_right hlt.le] at this
        · rwa [min_eq_left (not_lt.mp hlt)] at this
    · right
      refine ⟨_, rfl, ?_⟩
      rcases h.mx with ⟨rfl, hm⟩ | ⟨m, hm, hm1⟩
      · rw [hm]; simp [IsMaxOf]
      · have := isMaxOf_append hm1 (b := v) (S' := [v]) (by simp [IsMaxOf])
        rw [hm]
        simp only [Option.elim_some]
        split_ifs with hlt
        · rwa [max_eq_right hlt.le] at this
        · rwa [max_eq_left (not_lt.mp hlt)] at this
  split_ifs
  · have := Collects.compressWith (S' := []) (E' := 0) (extra := []) h1.parts (by simp) (by simpa [expand] using Approx.refl ([] : List α)) h1.width
    simp only [List.append_nil, add_zero] at this
    exact ⟨by simpa using this.1, this.2, h1.count, h1.mn, h1.mx⟩
  · exact h1

theorem Collects.step {S : List α} {E : ℤ} {k : GK α} (h : Collects S E k) (heps : 0 ≤ k.eps) (op : GKOp α) :
    Collects (S ++ addedValues [op]) E (k.step op) := by
  cases op with
  | add v => simpa [addedValues, GK.step] using h.add heps v
  | len => simpa [addedValues, GK.step] using h.flush.1
  | quantile q =>
    simp only [GK.step, GK.quantile, addedValues, List.filterMap_cons, List.filterMap_nil, List.append_nil]
    split_ifs
    all_goals first | exact h | exact h.flush.1
  | compress => simpa [addedValues, GK.step] using h.compress

/-- Merging a sketch filled by `add` into any sketch: the error grows by at most twice the spread of the merged sketch. -/
theorem Collects.merge {S S' : List α} {E : ℤ} {a b : GK α} (h : Collects S E a) (hb : Plain S' b) (heps : 0 ≤ a.eps) (he : a.eps = b.eps) :
    ∃ r E', a.merge b = .ok r ∧ Collects (S ++ S') E' r.1 ∧ r.1.eps = a.eps ∧
      (E' = E ∨ E' = 0 ∨ (S ≠ [] ∧ S' ≠ [] ∧ E' = E + 2 * ⌊a.eps * ((S'.length : ℚ) - 1)⌋)) := by
  unfold GK.merge
  rw [if_neg (by simpa using he)]
  by_cases hb0 : b.count = 0
  · rw [if_pos hb0]
    have : S' = [] := by rw [hb.desc.count] at hb0; exact List.length_eq_zero_iff.mp hb0
    exact ⟨_, E, rfl, by simpa [this] using h, rfl, .inl rfl⟩
  · rw [if_neg hb0]
    by_cases ha0 : a.count = 0
    · rw [if_pos ha0]
      have hS : S = [] := by rw [h.count] at ha0; exact List.length_eq_zero_iff.mp ha0
      have hc := hb.desc.collects
      refine ⟨_, 0, rfl, ?_, rfl, .inr (.inl rfl)⟩
      rw [hS, List.nil_append]
      exact ⟨hc.parts, by simp only [he]; exact hc.width, hc.count, hc.mn, hc.mx⟩
    · rw [if_neg ha0]
      have hS : S ≠ [] := by intro hS; rw [h.count, hS] at ha0; simp at ha0
      have hS' : S' ≠ [] := by intro hS; rw [hb.desc.count, hS] at hb0; simp at hb0
      have hbc := hb.compress
      set b1 := b.mergeCompress [] with hb1
      have hb1e : b1.eps = a.eps := by rw [he]; rfl
      have hb1c : b1.count = S'.length := hbc.desc.count
      have hspec := asEntries_spec hbc rfl (by rw [hb1e]; exact heps) hS'
      simp only [hb1e, hb1c] at hspec
      set sp := ⌊a.eps * ((S'.length : ℚ) - 1)⌋ with hsp
      set a1 : GK α := { a with
        count := a.count + b1.count
        mn := match a.mn, b1.mn with | some x, some y => some (min x y) | x, y => x.or y
        mx := match a.mx, b1.mx with | some x, some y => some (max x y) | x, y => x.or y } with ha1
      have hl1 : 0 < S.length := List.length_pos_iff_ne_nil.mpr hS
      have hl2 : 0 < S'.length := List.length_pos_iff_ne_nil.mpr hS'
      have hl1q : (1 : ℚ) ≤ (S.length : ℚ) := by exact_mod_cast hl1
      have hl2q : (1 : ℚ) ≤ (S'.length : ℚ) := by exact_mod_cast hl2
      have ha1c : ((a1.count : ℕ) : ℚ) = (S.length : ℚ) + (S'.length : ℚ) := by
        simp only [ha1, hb1c, h.count]; push_cast; ring
      have hx : ∀ e ∈ b1.asEntries, 0 < e.g ∧ e.delta = 0 ∧ ((e.g : ℤ) : ℚ) ≤ max 1 (2 * a1.eps * ((a1.count : ℚ) - 1)) := by
        intro e hem
        obtain ⟨h1, h2, h3⟩ := hspec.1 e hem
        refine ⟨h1, h2, ?_⟩
        refine h3.trans (max_le_max le_rfl ?_)
        have h7 : a1.eps = a.eps := rfl
        rw [ha1c, h7]
        nlinarith
      have hw : ∀ e ∈ a1.entries, ((e.g + e.delta : ℤ) : ℚ) ≤ max 1 (2 * a1.eps * ((a1.count : ℚ) - 1)) := by
        intro e hem
        refine (h.width e hem).trans (max_le_max le_rfl ?_)
        have h7 : a1.eps = a.eps := rfl
        rw [ha1c, h7, h.count]
        nlinarith
      have hcomp := Collects.compressWith (k := a1) (extra := b1.asEntries) h.parts hx hspec.2 hw
      refine ⟨_, _, rfl, ⟨hcomp.1, hcomp.2, ?_, ?_, ?_⟩, rfl, .inr (.inr ⟨hS, hS', rfl⟩)⟩
      · show a1.count = _
        simp only [ha1, h.count, hb1c, List.length_append]
      · right
        rcases h.mn with ⟨h1, -⟩ | ⟨m, hm, hmm⟩
        · exact absurd h1 hS
        · rcases hbc.desc.mn with ⟨h1, -⟩ | ⟨m', hm', hmm'⟩
          · exact absurd h1 hS'
          · refine ⟨min m m', ?_, isMinOf_append hmm hmm'⟩
            show a1.mn = _
            simp only [ha1, hm, hm']
      · right
        rcases h.mx with ⟨h1, -⟩ | ⟨m, hm, hmm⟩
        · exact absurd h1 hS
        · rcases hbc.desc.mx with ⟨h1, -⟩ | ⟨m', hm', hmm'⟩
          · exact absurd h1 hS'
          · refine ⟨max m m', ?_, isMaxOf_append hmm hmm'⟩
            show a1.mx = _
            simp only [ha1, hm, hm']

theorem eps_mergeStep (k : GK α) (op : MergeOp α) : (k.mergeStep op).eps = k.eps := by
  cases op with
  | op o => exact eps_step k o
  | merge ops =>
    simp only [GK.mergeStep, GK.merge]
    split_ifs <;> simp [GK.mergeCompress]

/-- The state after any history of adds, queries and merges. -/
theorem collects_run (eps : ℚ) (heps : 0 < eps) (ops : List (MergeOp α)) :
    (GK.runMerge eps ops).eps = eps ∧ ∃ E : ℤ, 0 ≤ E ∧ (E : ℚ) ≤ 2 * eps * (((collectedValues ops).length - 1 : ℕ) : ℚ) ∧
      Collects (collectedValues ops) E (GK.runMerge eps ops) := by
  have key : ∀ (ops : List (MergeOp α)) (S : List α) (k : GK α), k.eps = eps →
      (∃ E : ℤ, 0 ≤ E ∧ (E : ℚ) ≤ 2 * eps * ((S.length - 1 : ℕ) : ℚ) ∧ Collects S E k) →
      (ops.foldl GK.mergeStep k).eps = eps ∧ ∃ E : ℤ, 0 ≤ E ∧ (E : ℚ) ≤ 2 * eps * (((S ++ collectedValues ops).length - 1 : ℕ) : ℚ) ∧
        Collects (S ++ collectedValues ops) E (ops.foldl GK.mergeStep k) := by
    intro ops
    induction ops with
    | nil => intro S k he h; simpa [collectedValues, he] using h
    | cons op ops ih =>
      intro S k he ⟨E, hE0, hE, h⟩
      have hstep : ∃ E : ℤ, 0 ≤ E ∧ (E : ℚ) ≤ 2 * eps * (((S ++ collectedValues [op]).length - 1 : ℕ) : ℚ) ∧
          Collects (S ++ collectedValues [op]) E (k.mergeStep op) := by
        have hmono : ∀ S' : List α, 2 * eps * ((S.length - 1 : ℕ) : ℚ) ≤ 2 * eps * (((S ++ S').length - 1 : ℕ) : ℚ) := by
          intro S'
          apply mul_le_mul_of_nonneg_left _ (by linarith)
          exact_mod_cast (by rw [List.length_append]; omega : S.length - 1 ≤ (S ++ S').length - 1)
        cases op with
        | op o =>
          have := h.step (by rw [he]; exact heps.le) o
          exact ⟨E, hE0, hE.trans (hmono _), by simpa [collectedValues, GK.mergeStep] using this⟩
        | merge l =>
          have hpl := plain_run (α := α) eps heps l
          have hre : (GK.run eps l).eps = eps := (describes_run eps heps l).2
          obtain ⟨r, E', hr, hc, hre', hE'⟩ := h.merge hpl (by rw [he]; exact heps.le) (by rw [he, hre])
          have hcv : collectedValues [MergeOp.merge l] = addedValues l := by simp [collectedValues]
          have hms : k.mergeStep (.merge l) = r.1 := by
            simp only [GK.mergeStep, he, hr]
          rw [hms, hcv]
          refine ⟨E', ?_, ?_, hc⟩
          · rcases hE' with rfl | rfl | ⟨-, hS', rfl⟩
            · exact hE0
            · exact le_rfl
            · have : 0 ≤ ⌊k.eps * (((addedValues l).length : ℚ) - 1)⌋ := by
                apply Int.floor_nonneg.mpr
                apply mul_nonneg (by rw [he]; exact heps.le)
                have : (1 : ℚ) ≤ ((addedValues l).length : ℚ) := by
                  exact_mod_cast List.length_pos_iff_ne_nil.mpr hS'
                linarith
              omega
          · rcases hE' with rfl | rfl | ⟨hS, hS', rfl⟩
            · exact hE.trans (hmono _)
            · rw [Int.cast_zero]; positivity
            · have h1 : 0 < S.length := List.length_pos_iff_ne_nil.mpr hS
              have h2 : 0 < (addedValues l).length := List.length_pos_iff_ne_nil.mpr hS'
              have h3 := Int.floor_le (k.eps * (((addedValues l).length : ℚ) - 1))
              rw [Nat.cast_sub (by omega)] at hE
              rw [Nat.cast_sub (by rw [List.length_append]; omega), List.length_append]
              rw [he] at h3 ⊢
              push_cast at hE ⊢
              nlinarith
      have := ih _ _ (by rw [eps_mergeStep, he]) hstep
      have h2 : S ++ collectedValues (op :: ops) = S ++ collectedValues [op] ++ collectedValues ops := by
        simp [collectedValues]
      rw [h2]; exact this
  have := key ops [] { eps := eps } rfl ⟨0, le_rfl, by simp, (describes_new eps).collects⟩
  simpa [GK.runMerge] using this

/-- C26: after any history of adds, queries and merges of other sketches, the sketch has counted every value exactly once, knows the
exact least and greatest value, and its stored weights add up to at least the number of values and exceed it by at most
`2 eps (n - 1)`. -/
theorem C26_merge_counts (eps : ℚ) (heps : 0 < eps) (ops : List (MergeOp α)) :
    let k := (GK.runMerge eps ops).flush
    let S := collectedValues ops
    k.count = S.length ∧ (S ≠ [] → ∃ a b, k.mn = some a ∧ IsMinOf S a ∧ k.mx = some b ∧ IsMaxOf S b) ∧
    (S.length : ℤ) ≤ (k.entries.map Entry.g).sum ∧
    (((k.entries.map Entry.g).sum : ℤ) : ℚ) ≤ S.length + 2 * eps * ((S.length - 1 : ℕ) : ℚ) := by
  obtain ⟨he, E, hE0, hE, h⟩ := collects_run eps heps ops
  obtain ⟨hF, hinc⟩ := h.flush
  intro k S
  obtain ⟨T, ha, hs⟩ := hF.parts
  rw [hinc, List.append_nil] at ha
  have htot : (k.entries.map Entry.g).sum = T.length := hs.total
  refine ⟨hF.count, fun hne => ?_, ?_, ?_⟩
  · rcases hF.mn with ⟨h1, -⟩ | ⟨a, ha1, ha2⟩
    · exact absurd h1 hne
    rcases hF.mx with ⟨h1, -⟩ | ⟨b, hb1, hb2⟩
    · exact absurd h1 hne
    exact ⟨a, b, ha1, ha2, hb1, hb2⟩
  · rw [htot]; exact_mod_cast ha.len1
  · rw [htot]
    have h1 : ((T.length : ℤ) : ℚ) ≤ (S.length : ℚ) + (E : ℚ) := by exact_mod_cast ha.len2
    linarith

/-- C26: after any history of adds, queries and merges, `quantile(q)` returns one of the collected values, and one of its ranks among all
collected values differs from the requested rank by at most `3 eps (n - 1)`. -/
theorem C26_merged_quantile (eps : ℚ) (heps : 0 < eps) (ops : List (MergeOp α)) (q : ℚ) (hq0 : 0 ≤ q) (hq1 : q ≤ 1)
    (hne : collectedValues ops ≠ []) :
    ∃ k v, (GK.runMerge eps ops).quantile q = .ok (k, some v) ∧
      HasRankWithin (collectedValues ops) v (⌊q * (((collectedValues ops).length : ℚ) - 1)⌋ + 1)
        ⌊3 * eps * (((collectedValues ops).length : ℚ) - 1)⌋ := by
  obtain ⟨he, E, hE0, hE, hD⟩ := collects_run eps heps ops
  set k0 := GK.runMerge eps ops with hk0
  set S := collectedValues ops with hS
  obtain ⟨hF, hinc⟩ := hD.flush
  obtain ⟨hfe, hfc, -⟩ := eps_flush k0
  obtain ⟨T, ha, hs⟩ := hF.parts
  rw [hinc, List.append_nil] at ha
  have hlen : 0 < S.length := List.length_pos_iff_ne_nil.mpr hne
  have hn1 : (0 : ℚ) ≤ (S.length : ℚ) - 1 := by
    have : (1 : ℚ) ≤ (S.length : ℚ) := by exact_mod_cast hlen
    linarith
  unfold GK.quantile
  rw [if_neg (by push Not; exact ⟨hq0, hq1⟩), if_neg (by rw [hD.count]; omega)]
  have hcount : ((k0.flush.count : ℕ) : ℚ) = (S.length : ℚ) := by rw [hF.count]
  simp only [hcount, hfe, he]
  set sp : ℤ := ⌊eps * ((S.length : ℚ) - 1)⌋ with hsp
  have hsp0 : 0 ≤ sp := Int.floor_nonneg.mpr (mul_nonneg heps.le hn1)
  have hrank : ⌊q * ((S.length : ℚ) - 1) + 1⌋ = ⌊q * ((S.length : ℚ) - 1)⌋ + 1 := Int.floor_add_one _
  set rank : ℤ := ⌊q * ((S.length : ℚ) - 1)⌋ + 1 with hrk
  have herr : sp + E ≤ ⌊3 * eps * ((S.length : ℚ) - 1)⌋ := by
    apply Int.le_floor.mpr
    have h1 : (sp : ℚ) ≤ eps * ((S.length : ℚ) - 1) := Int.floor_le _
    rw [Nat.cast_sub hlen, Nat.cast_one] at hE
    push_cast; linarith
  set err : ℤ := ⌊3 * eps * ((S.length : ℚ) - 1)⌋ with herr0
  have hr1 : 1 ≤ rank := by
    have := Int.floor_nonneg.mpr (mul_nonneg hq0 hn1); omega
  have hrn : rank ≤ S.length := by
    have : q * ((S.length : ℚ) - 1) ≤ (S.length : ℚ) - 1 := mul_le_of_le_one_left hn1 hq1
    have h2 := Int.floor_le (q * ((S.length : ℚ) - 1))
    have h3 : ((⌊q * ((S.length : ℚ) - 1)⌋ : ℤ) : ℚ) + 1 ≤ (S.length : ℚ) := by linarith
    have h4 : ⌊q * ((S.length : ℚ) - 1)⌋ + 1 ≤ (S.length : ℤ) := by exact_mod_cast h3
    exact h4
  rw [hrank]
  have hW : ∀ e ∈ k0.flush.entries, e.g + e.delta ≤ 2 * sp + 1 := by
    intro e hem
    have := hF.width e hem
    rw [hcount, hfe, he, mul_assoc] at this
    exact width_le_spread (mul_nonneg heps.le hn1) this
  have hsearch := search_spec (S := T) (rank + sp) (2 * sp + 1) k0.flush.entries 0 none hs.ranks hW hs.mem (by simp)
  have hlen1 := ha.len1
  cases hres : searchEntries (rank + sp) 0 none k0.flush.entries with
  | none =>
    rw [hres] at hsearch
    rcases hF.mn with ⟨h1, -⟩ | ⟨m, hm, hmin⟩
    · exact absurd h1 hne
    · refine ⟨k0.flush, m, by rw [hm]; rfl, rank_of_bounds hmin.1 ?_ ?_ (by omega)⟩
      · have : numLt S m = 0 := by
          unfold numLt; rw [List.countP_eq_zero]; intro s hs'; simpa using hmin.2 s hs'
        omega
      · rcases hsearch.2 with h1 | h1
        · have := hs.total; rw [h1] at this; simp at this; omega
        · omega
  | some v =>
    rw [hres] at hsearch
    obtain ⟨h1, h2, h3⟩ := hsearch
    have h4 := ha.le2 v
    have h5 := ha.lt1 v
    refine ⟨k0.flush, v, rfl, rank_of_bounds (ha.mem v h1) (by omega) ?_ (by omega)⟩
    rcases h3 with h | h
    · omega
    · rw [zero_add, hs.total] at h; omega

/-- C26: two sketches can be merged exactly when they have the same `eps`. -/
theorem C26_mergeable (a b : GK α) : (∃ r, a.merge b = .ok r) ↔ a.eps = b.eps := by
  unfold GK.merge
  constructor
  · rintro ⟨r, h⟩
    by_contra hne
    rw [if_pos hne] at h; simp at h
  · intro h
    rw [if_neg (by simpa using h)]
    split_ifs <;> exact ⟨_, rfl⟩

/-- A sketch of `[1]` that merges a sketch of `[4, 11, 9]`, `eps = 1/2`. -/
def exMerged : List (MergeOp ℕ) := [.op (.add 1), .merge ([4, 11, 9].map GKOp.add)]

/-- C26 finding: after a merge the error of one sketch, `eps (n - 1)`, is exceeded: among 1, 4, 9, 11 with `eps = 1/2` the query
`quantile(0)` (rank 1, allowed error 1) returns 9, which has rank 3. -/
theorem C26_merge_loses_precision :
    ((GK.runMerge (1/2) exMerged).quantile 0).toOption.map Prod.snd = some (some 9) ∧
    collectedValues exMerged = [1, 4, 11, 9] ∧ ¬ HasRankWithin (collectedValues exMerged) 9 1 ⌊(1/2 : ℚ) * (4 - 1)⌋ := by
  refine ⟨by decide +kernel, rfl, ?_⟩
  rintro ⟨-, r, h1, h2, h3, h4⟩
  have e1 : numLt (collectedValues exMerged) 9 = 2 := by decide
  have e2 : ⌊(1/2 : ℚ) * (4 - 1)⌋ = 1 := by norm_num [Int.floor_eq_iff]
  rw [e1] at h1; rw [e2] at h3; omega

/-- C26 finding: after a merge the stored weights (which `bins` adds up) can exceed the number of values: 12 for 11 values. -/
theorem C26_weights_exceed_count :
    let k := (GK.runMerge (1/3) ([.op (.add 6), .merge ([1, 2, 0, 10, 9, 0, 1, 7, 9, 6].map GKOp.add)] : List (MergeOp ℕ))).flush
    k.count = 11 ∧ (k.entries.map Entry.g).sum = 12 := by
  decide +kernel

end OptBinning
