import Verif.Lemmas.BSketch

/-! # C26: counts of the numerical sketch -/
namespace OptBinning
open Spec (SkOp owned ownedAll IsSpecialValue)
variable {α : Type*} [LinearOrder α]

/-- The records that a sketch can account for when it is merged: at least one of them has a known value that is no special code and a
known target, or none has a known target. -/
def Spec.settled (sc : SpecialCodes α) (rows : List (Rec α)) : Bool :=
  rows.any (fun r => r.x.isSome && r.y.isSome && !sc.codes.contains r.x) || rows.all fun r => r.y.isNone

/-- Both sides of a merge are settled. -/
def Spec.bothSettled (sc : SpecialCodes α) (a b : List (Rec α)) : Bool := Spec.settled sc a && Spec.settled sc b

/-- The object `o` holds the counts of `rows`. -/
structure Holds (w : BWorld α) (o : BObj) (rows : List (Rec α)) : Prop where
  e : (w.gk o.e).count = cleanN w.sc true rows
  ne : (w.gk o.ne).count = cleanN w.sc false rows
  missE : o.missE = missN w.sc true rows
  missNe : o.missNe = missN w.sc false rows
  specE : o.specE = specN w.sc true rows
  specNe : o.specNe = specN w.sc false rows

/-- The references of `o` are valid and different. -/
structure ValidRefs (w : BWorld α) (o : BObj) : Prop where
  e : o.e < w.gks.length
  ne : o.ne < w.gks.length
  diff : o.e ≠ o.ne

/-- Two objects share no `GK` object. -/
structure NoShare (o o' : BObj) : Prop where
  ee : o.e ≠ o'.e
  en : o.e ≠ o'.ne
  ne : o.ne ≠ o'.e
  nn : o.ne ≠ o'.ne

/-- Invariant of the programs that never use a sketch after it was merged into another one. -/
structure BInv (w : BWorld α) (s : List (Option (List (Rec α)))) : Prop where
  len : w.objs.length = s.length
  eps : ∀ k ∈ w.gks, k.eps = w.eps
  live : ∀ (i : ℕ) rows, s[i]? = some (some rows) → ∃ o, w.objs[i]? = some o ∧ ValidRefs w o ∧ Holds w o rows
  disj : ∀ (i j : ℕ) ri rj oi oj, i ≠ j → s[i]? = some (some ri) → s[j]? = some (some rj) → w.objs[i]? = some oi → w.objs[j]? = some oj →
    NoShare oi oj

omit [LinearOrder α] in
theorem gk_set (w : BWorld α) (r : ℕ) (v : GK α) (h : r < w.gks.length) (r' : ℕ) :
    BWorld.gk { w with gks := w.gks.set r v } r' = if r = r' then v else w.gk r' := by
  unfold BWorld.gk
  simp only [List.getElem?_set]
  split_ifs with h1
  · subst h1; simp
  · rfl

omit [LinearOrder α] in
theorem gk_eps {w : BWorld α} (h : ∀ k ∈ w.gks, k.eps = w.eps) (r : ℕ) : (w.gk r).eps = w.eps := by
  unfold BWorld.gk
  cases hr : w.gks[r]? with
  | none => rfl
  | some k => exact h k (List.mem_of_getElem? hr)

omit [LinearOrder α] in
theorem eps_set {w : BWorld α} (h : ∀ k ∈ w.gks, k.eps = w.eps) (r : ℕ) (v : GK α) (hv : v.eps = w.eps) :
    ∀ k ∈ w.gks.set r v, k.eps = w.eps := by
  intro k hk
  rcases List.mem_or_eq_of_mem_set hk with h1 | h1
  · exact h k h1
  · rw [h1]; exact hv

theorem BInv.create {w : BWorld α} {s : List (Option (List (Rec α)))} (h : BInv w s) : BInv w.create (s ++ [some []]) := by
  have hgk : ∀ r, r < w.gks.length → w.create.gk r = w.gk r := by
    intro r hr
    simp only [BWorld.gk, BWorld.create]
    rw [List.getElem?_append_left hr]
  have hnew : ∀ r, (w.create.gk (w.gks.length + r)).count = 0 := by
    intro r
    simp only [BWorld.gk, BWorld.create]
    rw [List.getElem?_append_right (by omega)]
    rcases r with _ | _ | r <;> simp
  have hsplit : ∀ i rows, (s ++ [some []])[i]? = some (some rows) → (s[i]? = some (some rows)) ∨ (i = s.length ∧ rows = []) := by
    intro i rows hi
    rcases Nat.lt_trichotomy i s.length with h1 | h1 | h1
    · rw [List.getElem?_append_left h1] at hi; exact .inl hi
    · subst h1; simp at hi; exact .inr ⟨rfl, hi⟩
    · rw [List.getElem?_append_right h1.le] at hi
      have : i - s.length ≠ 0 := by omega
      cases hx : i - s.length with
      | zero => omega
      | succ n => rw [hx] at hi; simp at hi
  have hobj1 : ∀ (i : ℕ) o, w.objs[i]? = some o → w.create.objs[i]? = some o := by
    intro i o ho
    simp only [BWorld.create]
    rw [List.getElem?_append_left (List.getElem?_eq_some_iff.mp ho).1]; exact ho
  have hobj2 : w.create.objs[s.length]? = some { e := w.gks.length, ne := w.gks.length + 1 } := by
    simp [BWorld.create, ← h.len]
  refine ⟨by simp [BWorld.create, h.len], ?_, ?_, ?_⟩
  · intro k hk
    simp only [BWorld.create, List.mem_append] at hk
    rcases hk with hk | hk
    · exact h.eps k hk
    · simp at hk; rw [hk]; rfl
  · intro i rows hi
    rcases hsplit i rows hi with h1 | ⟨rfl, rfl⟩
    · obtain ⟨o, ho, hv, hh⟩ := h.live i rows h1
      refine ⟨o, hobj1 i o ho, ⟨?_, ?_, hv.diff⟩, ⟨?_, ?_, hh.missE, hh.missNe, hh.specE, hh.specNe⟩⟩
      · simp only [BWorld.create, List.length_append]; have := hv.e; omega
      · simp only [BWorld.create, List.length_append]; have := hv.ne; omega
      · rw [hgk _ hv.e]; exact hh.e
      · rw [hgk _ hv.ne]; exact hh.ne
    · refine ⟨_, hobj2, ⟨?_, ?_, ?_⟩, ⟨hnew 0, hnew 1, rfl, rfl, rfl, rfl⟩⟩
      · simp [BWorld.create]
      · simp [BWorld.create]
      · simp
  · intro i j ri rj oi oj hij hi hj hoi hoj
    rcases hsplit i ri hi with h1 | ⟨rfl, rfl⟩ <;> rcases hsplit j rj hj with h2 | ⟨rfl, rfl⟩
    · obtain ⟨o, ho, hv, -⟩ := h.live i ri h1
      obtain ⟨o', ho', hv', -⟩ := h.live j rj h2
      rw [hobj1 i o ho] at hoi; rw [hobj1 j o' ho'] at hoj
      simp only [Option.some.injEq] at hoi hoj; subst hoi; subst hoj
      exact h.disj i j ri rj o o' hij h1 h2 ho ho'
    · obtain ⟨o, ho, hv, -⟩ := h.live i ri h1
      rw [hobj1 i o ho] at hoi; rw [hobj2] at hoj
      simp only [Option.some.injEq] at hoi hoj; subst hoi; subst hoj
      have := hv.e; have := hv.ne
      exact ⟨by simp only; omega, by simp only; omega, by simp only; omega, by simp only; omega⟩
    · obtain ⟨o, ho, hv, -⟩ := h.live j rj h2
      rw [hobj1 j o ho] at hoj; rw [hobj2] at hoi
      simp only [Option.some.injEq] at hoi hoj; subst hoi; subst hoj
      have := hv.e; have := hv.ne
      exact ⟨by simp only; omega, by simp only; omega, by simp only; omega, by simp only; omega⟩
    · exact absurd rfl hij

omit [LinearOrder α] in
/-- `s.set i (some rows)` for a live `i`. -/
theorem getElem?_set_live {s : List (Option (List (Rec α)))} {i j : ℕ} {v : Option (List (Rec α))} {rows : List (Rec α)}
    (h : (s.set i v)[j]? = some (some rows)) : (i = j ∧ v = some rows) ∨ (i ≠ j ∧ s[j]? = some (some rows)) := by
  rw [List.getElem?_set] at h
  split_ifs at h with h1 h2
  · left; simpa [h1] using h
  · right; exact ⟨h1, h⟩

theorem BInv.add {w : BWorld α} {s : List (Option (List (Rec α)))} (h : BInv w s) {i : ℕ} {l : List (Rec α)} (hi : s[i]? = some (some l))
    (recs : List (Rec α)) : BInv (w.add i recs) (s.set i (some (l ++ recs))) ∧ (w.add i recs).sc = w.sc ∧ (w.add i recs).eps = w.eps := by
  obtain ⟨o, ho, hv, hh⟩ := h.live i l hi
  unfold BWorld.add
  rw [ho]
  simp only
  have hlt := (List.getElem?_eq_some_iff.mp ho).1
  set sp := splitData w.sc {} recs with hsp
  set g1 := w.gks.set o.e ((w.gk o.e).addAll (cleanValues true sp.clean)) with hg1
  have e1 : ∀ r, BWorld.gk { w with gks := g1 } r = if o.e = r then (w.gk o.e).addAll (cleanValues true sp.clean) else w.gk r :=
    gk_set w _ _ hv.e
  have hl1 : g1.length = w.gks.length := by simp [hg1]
  have e2 : BWorld.gk { w with gks := g1 } o.ne = w.gk o.ne := by rw [e1, if_neg hv.diff]
  rw [e2]
  set g2 := g1.set o.ne ((w.gk o.ne).addAll (cleanValues false sp.clean)) with hg2
  have e3 : ∀ r, BWorld.gk { w with gks := g2 } r = if o.ne = r then (w.gk o.ne).addAll (cleanValues false sp.clean) else
      if o.e = r then (w.gk o.e).addAll (cleanValues true sp.clean) else w.gk r := by
    intro r
    have := gk_set { w with gks := g1 } o.ne ((w.gk o.ne).addAll (cleanValues false sp.clean)) (by simp only; rw [hl1]; exact hv.ne) r
    simp only at this
    rw [this, e1]
  have hl2 : g2.length = w.gks.length := by simp [hg2, hl1]
  have heps2 : ∀ k ∈ g2, k.eps = w.eps := by
    have h1 := eps_set h.eps o.e ((w.gk o.e).addAll (cleanValues true sp.clean)) (by rw [(addAll_eps _ _).1, gk_eps h.eps])
    exact eps_set (w := { w with gks := g1 }) h1 o.ne _ (by simp only; rw [(addAll_eps _ _).1, gk_eps h.eps])
  refine ⟨⟨by simp [h.len], heps2, ?_, ?_⟩, trivial, trivial⟩
  · intro j rows hj
    rcases getElem?_set_live hj with ⟨rfl, h1⟩ | ⟨h1, h2⟩
    · simp only [Option.some.injEq] at h1; subst h1
      refine ⟨_, List.getElem?_set_self hlt, ⟨?_, ?_, ?_⟩, ⟨?_, ?_, ?_, ?_, ?_, ?_⟩⟩
      · simp only [hl2]; exact hv.e
      · simp only [hl2]; exact hv.ne
      · exact hv.diff
      · show (BWorld.gk { w with gks := g2 } o.e).count = _
        rw [e3, if_neg (Ne.symm hv.diff), if_pos rfl, (addAll_eps _ _).2, cleanN_append, hh.e, length_cleanValues]
      · show (BWorld.gk { w with gks := g2 } o.ne).count = _
        rw [e3, if_pos rfl, (addAll_eps _ _).2, cleanN_append, hh.ne, length_cleanValues]
      · simp only [missN_append, hh.missE]; rfl
      · simp only [missN_append, hh.missNe]; rfl
      · simp only [specN_append, hh.specE]; rfl
      · simp only [specN_append, hh.specNe]; rfl
    · obtain ⟨o', ho', hv', hh'⟩ := h.live j rows h2
      have hd := h.disj i j l rows o o' h1 hi h2 ho ho'
      refine ⟨o', by rw [List.getElem?_set_ne h1]; exact ho', ⟨by simp only [hl2]; exact hv'.e, by simp only [hl2]; exact hv'.ne, hv'.diff⟩,
        ⟨?_, ?_, hh'.missE, hh'.missNe, hh'.specE, hh'.specNe⟩⟩
      · show (BWorld.gk { w with gks := g2 } o'.e).count = _
        rw [e3, if_neg hd.ne, if_neg hd.ee]; exact hh'.e
      · show (BWorld.gk { w with gks := g2 } o'.ne).count = _
        rw [e3, if_neg hd.nn, if_neg hd.en]; exact hh'.ne
  · intro j k rj rk oj ok hjk hj hk hoj hok
    have key : ∀ (j : ℕ) rj oj, (s.set i (some (l ++ recs)))[j]? = some (some rj) →
        (w.objs.set i { o with
          missE := o.missE + sp.missing.countP (fun r => r.y == some true)
          missNe := o.missNe + sp.missing.countP (fun r => r.y == some false)
          specE := o.specE + sp.special.countP (fun r => r.y == some true)
          specNe := o.specNe + sp.special.countP (fun r => r.y == some false) })[j]? = some oj →
        ∃ r o', s[j]? = some (some r) ∧ w.objs[j]? = some o' ∧ o'.e = oj.e ∧ o'.ne = oj.ne := by
      intro j rj oj hj hoj
      rcases getElem?_set_live hj with ⟨rfl, h1⟩ | ⟨h1, h2⟩
      · rw [List.getElem?_set_self hlt] at hoj
        simp only [Option.some.injEq] at hoj
        subst hoj
        exact ⟨l, o, hi, ho, rfl, rfl⟩
      · rw [List.getElem?_set_ne h1] at hoj
        exact ⟨rj, oj, h2, hoj, rfl, rfl⟩
    obtain ⟨r1, o1, a1, a2, a3, a4⟩ := key j rj oj hj hoj
    obtain ⟨r2, o2, b1, b2, b3, b4⟩ := key k rk ok hk hok
    have := h.disj j k r1 r2 o1 o2 hjk a1 b1 a2 b2
    exact ⟨by rw [← a3, ← b3]; exact this.ee, by rw [← a3, ← b4]; exact this.en, by rw [← a4, ← b3]; exact this.ne,
      by rw [← a4, ← b4]; exact this.nn⟩

theorem settled_zero {sc : SpecialCodes α} {rows : List (Rec α)} (h : Spec.settled sc rows = true) (h1 : cleanN sc true rows = 0)
    (h2 : cleanN sc false rows = 0) (ev : Bool) : missN sc ev rows = 0 ∧ specN sc ev rows = 0 := by
  have hall : ∀ r ∈ rows, r.y = none := by
    unfold Spec.settled at h
    rw [Bool.or_eq_true] at h
    rcases h with h | h
    · exfalso
      rw [List.any_eq_true] at h
      obtain ⟨r, hr, hc⟩ := h
      simp only [Bool.and_eq_true, Bool.not_eq_true'] at hc
      have hmem : r ∈ (splitData sc {} rows).clean := by
        simp only [splitData, fixBounds, List.mem_filter]
        refine ⟨hr, ?_⟩
        have h3 : r.isMissing = false := by
          unfold Rec.isMissing
          simp [hc.1.1, hc.1.2]
        have h4 : r.isSpecial sc = false := hc.2
        rw [h3, h4]; rfl
      obtain ⟨y, hy⟩ := Option.isSome_iff_exists.mp hc.1.2
      cases y with
      | true => unfold cleanN at h1; rw [List.countP_eq_zero] at h1; exact h1 r hmem (by simp [hy])
      | false => unfold cleanN at h2; rw [List.countP_eq_zero] at h2; exact h2 r hmem (by simp [hy])
    · intro r hr
      have := List.all_eq_true.mp h r hr
      simpa using this
  constructor
  · unfold missN; rw [List.countP_eq_zero]
    intro r hr
    simp only [splitData, List.mem_filter] at hr
    simp [hall r hr.1]
  · unfold specN; rw [List.countP_eq_zero]
    intro r hr
    simp only [splitData, List.mem_filter] at hr
    simp [hall r hr.1]

theorem mergeGK_spec {w : BWorld α} (heps : ∀ k ∈ w.gks, k.eps = w.eps) {a b : ℕ} (ha : a < w.gks.length) (hb : b < w.gks.length) : (∀ k ∈ (w.mergeGK a b).gks, k.eps = w.eps) ∧ (w.mergeGK a b).gks.length = w.gks.length ∧
      (w.mergeGK a b).eps = w.eps ∧ (w.mergeGK a b).sc = w.sc ∧ (w.mergeGK a b).objs = w.objs ∧
      ((w.mergeGK a b).gk a).count = (w.gk a).count + (w.gk b).count ∧
      ∀ r, r ≠ a → r ≠ b → (w.mergeGK a b).gk r = w.gk r := by
  obtain ⟨r, hr, h1, h2, h3, h4⟩ := merge_count (a := w.gk a) (b := w.gk b) (by rw [gk_eps heps, gk_eps heps])
  unfold BWorld.mergeGK
  rw [hr]
  simp only
  have g1 := gk_set w b r.2 hb
  have g2 := gk_set { w with gks := w.gks.set b r.2 } a r.1 (by simpa using ha)
  simp only at g2
  have e1 := eps_set heps b r.2 (by rw [h3, gk_eps heps])
  refine ⟨eps_set (w := { w with gks := w.gks.set b r.2 }) e1 a r.1 (by rw [h1]; exact gk_eps heps a), by simp, trivial, trivial, trivial, ?_, ?_⟩
  · rw [g2, if_pos rfl, h2]
  · intro x hxa hxb
    rw [g2, if_neg (Ne.symm hxa), g1, if_neg (Ne.symm hxb)]

omit [LinearOrder α] in
/-- A live sketch of the state after a merge. -/
theorem merge_live {s : List (Option (List (Rec α)))} {i j k : ℕ} {a b rows : List (Rec α)}
    (h : ((s.set i (some (a ++ b))).set j none)[k]? = some (some rows)) :
    j ≠ k ∧ ((i = k ∧ rows = a ++ b) ∨ (i ≠ k ∧ s[k]? = some (some rows))) := by
  rcases getElem?_set_live h with ⟨-, h1⟩ | ⟨h1, h2⟩
  · simp at h1
  · refine ⟨h1, ?_⟩
    rcases getElem?_set_live h2 with ⟨h3, h4⟩ | h3
    · left; exact ⟨h3, by simpa using h4.symm⟩
    · right; exact h3

theorem BInv.merge {w : BWorld α} {s : List (Option (List (Rec α)))} (h : BInv w s) {i j : ℕ} {a b : List (Rec α)} (hij : i ≠ j)
    (hi : s[i]? = some (some a)) (hj : s[j]? = some (some b)) (hok : Spec.bothSettled w.sc a b = true) :
    BInv (w.merge i j) ((s.set i (some (a ++ b))).set j none) ∧ (w.merge i j).sc = w.sc ∧ (w.merge i j).eps = w.eps := by
  obtain ⟨oa, hoa, hva, hha⟩ := h.live i a hi
  obtain ⟨ob, hob, hvb, hhb⟩ := h.live j b hj
  have hlt := (List.getElem?_eq_some_iff.mp hoa).1
  simp only [Spec.bothSettled, Bool.and_eq_true] at hok
  unfold BWorld.merge
  rw [hoa, hob]
  simp only
  by_cases hb0 : (w.gk ob.e).count = 0 ∧ (w.gk ob.ne).count = 0
  · rw [if_pos hb0]
    refine ⟨⟨by simp [h.len], h.eps, ?_, ?_⟩, rfl, rfl⟩
    · intro k rows hk
      rcases merge_live hk with ⟨-, ⟨rfl, rfl⟩ | ⟨h1, h2⟩⟩
      · have hz := settled_zero hok.2 (by rw [← hhb.e]; exact hb0.1) (by rw [← hhb.ne]; exact hb0.2)
        refine ⟨oa, hoa, hva, ⟨?_, ?_, ?_, ?_, ?_, ?_⟩⟩
        · rw [cleanN_append, hha.e, ← hhb.e, hb0.1]; rfl
        · rw [cleanN_append, hha.ne, ← hhb.ne, hb0.2]; rfl
        · rw [missN_append, hha.missE, (hz true).1]; rfl
        · rw [missN_append, hha.missNe, (hz false).1]; rfl
        · rw [specN_append, hha.specE, (hz true).2]; rfl
        · rw [specN_append, hha.specNe, (hz false).2]; rfl
      · exact h.live k rows h2
    · intro k l rk rl ok ol hkl hk hl hok' hol
      rcases merge_live hk with ⟨-, ⟨rfl, rfl⟩ | ⟨h1, h2⟩⟩ <;> rcases merge_live hl with ⟨-, ⟨rfl, rfl⟩ | ⟨h3, h4⟩⟩
      · exact absurd rfl hkl
      · exact h.disj _ _ _ _ ok ol hkl hi h4 hok' hol
      · exact h.disj _ _ _ _ ok ol hkl h2 hi hok' hol
      · exact h.disj _ _ _ _ ok ol hkl h2 h4 hok' hol
  · rw [if_neg hb0]
    by_cases ha0 : (w.gk oa.e).count = 0 ∧ (w.gk oa.ne).count = 0
    · rw [if_pos ha0]
      refine ⟨⟨by simp [h.len], h.eps, ?_, ?_⟩, rfl, rfl⟩
      · intro k rows hk
        rcases merge_live hk with ⟨-, ⟨rfl, rfl⟩ | ⟨h1, h2⟩⟩
        · have hz := settled_zero hok.1 (by rw [← hha.e]; exact ha0.1) (by rw [← hha.ne]; exact ha0.2)
          refine ⟨ob, List.getElem?_set_self hlt, ⟨hvb.e, hvb.ne, hvb.diff⟩, ⟨?_, ?_, ?_, ?_, ?_, ?_⟩⟩
          · show (w.gk ob.e).count = _
            rw [cleanN_append, hhb.e, ← hha.e, ha0.1, zero_add]
          · show (w.gk ob.ne).count = _
            rw [cleanN_append, hhb.ne, ← hha.ne, ha0.2, zero_add]
          · rw [missN_append, hhb.missE, (hz true).1, zero_add]
          · rw [missN_append, hhb.missNe, (hz false).1, zero_add]
          · rw [specN_append, hhb.specE, (hz true).2, zero_add]
          · rw [specN_append, hhb.specNe, (hz false).2, zero_add]
        · obtain ⟨o, ho, hv, hh⟩ := h.live k rows h2
          exact ⟨o, by simp only; rw [List.getElem?_set_ne h1]; exact ho, ⟨hv.e, hv.ne, hv.diff⟩, ⟨hh.e, hh.ne, hh.missE, hh.missNe, hh.specE, hh.specNe⟩⟩
      · intro k l rk rl ok ol hkl hk hl hok' hol
        simp only at hok' hol
        rcases merge_live hk with ⟨hjk, ⟨rfl, rfl⟩ | ⟨h1, h2⟩⟩ <;> rcases merge_live hl with ⟨hjl, ⟨rfl, rfl⟩ | ⟨h3, h4⟩⟩
        · exact absurd rfl hkl
        · rw [List.getElem?_set_self hlt] at hok'
          rw [List.getElem?_set_ne h3] at hol
          simp only [Option.some.injEq] at hok'; subst hok'
          exact h.disj _ _ _ _ ob ol hjl hj h4 hob hol
        · rw [List.getElem?_set_self hlt] at hol
          rw [List.getElem?_set_ne h1] at hok'
          simp only [Option.some.injEq] at hol; subst hol
          exact h.disj _ _ _ _ ok ob (Ne.symm hjk) h2 hj hok' hob
        · rw [List.getElem?_set_ne h1] at hok'
          rw [List.getElem?_set_ne h3] at hol
          exact h.disj _ _ _ _ ok ol hkl h2 h4 hok' hol
    · rw [if_neg ha0]
      have hd := h.disj i j a b oa ob hij hi hj hoa hob
      obtain ⟨m1, m2, m3, m4, m5, m6, m7⟩ := mergeGK_spec h.eps hva.e hvb.e
      set w1 := w.mergeGK oa.e ob.e with hw1
      have m1' : ∀ k ∈ w1.gks, k.eps = w1.eps := by rw [m3]; exact m1
      obtain ⟨n1, n2, n3, n4, n5, n6, n7⟩ := mergeGK_spec m1' (a := oa.ne) (b := ob.ne) (by rw [m2]; exact hva.ne) (by rw [m2]; exact hvb.ne)
      set w2 := w1.mergeGK oa.ne ob.ne with hw2
      have ge : (w2.gk oa.e).count = (w.gk oa.e).count + (w.gk ob.e).count := by
        rw [n7 _ hva.diff hd.en, m6]
      have gn : (w2.gk oa.ne).count = (w.gk oa.ne).count + (w.gk ob.ne).count := by
        rw [n6, m7 _ (Ne.symm hva.diff) hd.ne, m7 _ (Ne.symm hd.en) (Ne.symm hvb.diff)]
      have gother : ∀ r, r ≠ oa.e → r ≠ oa.ne → r ≠ ob.e → r ≠ ob.ne → w2.gk r = w.gk r := by
        intro r h1 h2 h3 h4
        rw [n7 _ h2 h4, m7 _ h1 h3]
      have hsc : w2.sc = w.sc := by rw [n4, m4]
      have hln : w2.gks.length = w.gks.length := by rw [n2, m2]
      have hep : w2.eps = w.eps := by rw [n3, m3]
      refine ⟨⟨by simp [h.len], ?_, ?_, ?_⟩, hsc, hep⟩
      · intro k hk; rw [n1 k hk, m3]; exact hep.symm
      · intro k rows hk
        rcases merge_live hk with ⟨hjk, ⟨rfl, rfl⟩ | ⟨h1, h2⟩⟩
        · refine ⟨_, List.getElem?_set_self hlt, ⟨?_, ?_, ?_⟩, ⟨?_, ?_, ?_, ?_, ?_, ?_⟩⟩
          · simp only; rw [hln]; exact hva.e
          · simp only; rw [hln]; exact hva.ne
          · exact hva.diff
          · show (w2.gk oa.e).count = _
            rw [ge, hha.e, hhb.e]; simp only [hsc, cleanN_append]
          · show (w2.gk oa.ne).count = _
            rw [gn, hha.ne, hhb.ne]; simp only [hsc, cleanN_append]
          · simp only [hsc, missN_append, hha.missE, hhb.missE]
          · simp only [hsc, missN_append, hha.missNe, hhb.missNe]
          · simp only [hsc, specN_append, hha.specE, hhb.specE]
          · simp only [hsc, specN_append, hha.specNe, hhb.specNe]
        · obtain ⟨o, ho, hv, hh⟩ := h.live k rows h2
          have d1 := h.disj i k a rows oa o h1 hi h2 hoa ho
          have d2 := h.disj j k b rows ob o hjk hj h2 hob ho
          refine ⟨o, by simp only; rw [List.getElem?_set_ne h1]; exact ho, ⟨by simp only; rw [hln]; exact hv.e, by simp only; rw [hln]; exact hv.ne, hv.diff⟩,
            ⟨?_, ?_, ?_, ?_, ?_, ?_⟩⟩
          · show (w2.gk o.e).count = _
            rw [gother _ (Ne.symm d1.ee) (Ne.symm d1.ne) (Ne.symm d2.ee) (Ne.symm d2.ne)]; simp only [hsc]; exact hh.e
          · show (w2.gk o.ne).count = _
            rw [gother _ (Ne.symm d1.en) (Ne.symm d1.nn) (Ne.symm d2.en) (Ne.symm d2.nn)]; simp only [hsc]; exact hh.ne
          · simp only [hsc]; exact hh.missE
          · simp only [hsc]; exact hh.missNe
          · simp only [hsc]; exact hh.specE
          · simp only [hsc]; exact hh.specNe
      · intro k l rk rl ok ol hkl hk hl hok' hol
        simp only at hok' hol
        rcases merge_live hk with ⟨hjk, ⟨rfl, rfl⟩ | ⟨h1, h2⟩⟩ <;> rcases merge_live hl with ⟨hjl, ⟨rfl, rfl⟩ | ⟨h3, h4⟩⟩
        · exact absurd rfl hkl
        · rw [List.getElem?_set_self hlt] at hok'
          rw [List.getElem?_set_ne h3] at hol
          simp only [Option.some.injEq] at hok'; subst hok'
          have := h.disj _ _ _ _ oa ol hkl hi h4 hoa hol
          exact ⟨this.ee, this.en, this.ne, this.nn⟩
        · rw [List.getElem?_set_self hlt] at hol
          rw [List.getElem?_set_ne h1] at hok'
          simp only [Option.some.injEq] at hol; subst hol
          have := h.disj _ _ _ _ ok oa hkl h2 hi hok' hoa
          exact ⟨this.ee, this.en, this.ne, this.nn⟩
        · rw [List.getElem?_set_ne h1] at hok'
          rw [List.getElem?_set_ne h3] at hol
          exact h.disj _ _ _ _ ok ol hkl h2 h4 hok' hol

theorem bInv_run (eps : ℚ) (sc : SpecialCodes α) (ops : List (SkOp (Rec α))) {s : List (Option (List (Rec α)))}
    (hs : ownedAll (Spec.bothSettled sc) ops = some s) :
    BInv (BWorld.run eps sc ops) s ∧ (BWorld.run eps sc ops).sc = sc ∧ (BWorld.run eps sc ops).eps = eps := by
  have key : ∀ (ops : List (SkOp (Rec α))) (w : BWorld α) (s0 s : List (Option (List (Rec α)))), BInv w s0 → w.sc = sc → w.eps = eps →
      ops.foldlM (owned (Spec.bothSettled sc)) s0 = some s →
      BInv (ops.foldl BWorld.step w) s ∧ (ops.foldl BWorld.step w).sc = sc ∧ (ops.foldl BWorld.step w).eps = eps := by
    intro ops
    induction ops with
    | nil => intro w s0 s h h1 h2 h3; simp at h3; subst h3; exact ⟨h, h1, h2⟩
    | cons op ops ih =>
      intro w s0 s h h1 h2 h3
      rw [List.foldlM_cons] at h3
      cases hop : owned (Spec.bothSettled sc) s0 op with
      | none => rw [hop] at h3; simp at h3
      | some s1 =>
        rw [hop] at h3
        have h3 : ops.foldlM (owned (Spec.bothSettled sc)) s1 = some s := h3
        rw [List.foldl_cons]
        have hstep : BInv (w.step op) s1 ∧ (w.step op).sc = sc ∧ (w.step op).eps = eps := by
          cases op with
          | new => simp only [owned, Option.some.injEq] at hop; subst hop; exact ⟨h.create, h1, h2⟩
          | add i recs =>
            simp only [owned] at hop
            split at hop
            · next l hl => simp only [Option.some.injEq] at hop; subst hop; have := h.add hl recs; rw [h1, h2] at this; exact this
            · simp at hop
          | merge i j =>
            simp only [owned] at hop
            split_ifs at hop with hij
            split at hop
            · next a b ha hb =>
              split_ifs at hop with hok
              simp only [Option.some.injEq] at hop; subst hop
              have := h.merge hij ha hb (by rw [h1]; exact hok); rw [h1, h2] at this; exact this
            · simp at hop
        exact ih _ _ _ hstep.1 hstep.2.1 hstep.2.2 h3
  exact key ops _ [] s ⟨rfl, by simp, by simp, by simp⟩ rfl rfl hs

/-- C26: in every program of creations, chunks and merges that never uses a sketch after it was merged into another one, and in which both
sides of every merge are settled, `n_event`/`n_nonevent` of every sketch is the number of records with that target among all
records fed to it or to the sketches merged into it (special codes do not contain NaN). -/
theorem C26_sketch_counts (eps : ℚ) (sc : SpecialCodes α) (hsc : ¬ IsSpecialValue sc none) (ops : List (SkOp (Rec α)))
    {s : List (Option (List (Rec α)))} (hs : ownedAll (Spec.bothSettled sc) ops = some s) (i : ℕ) (rows : List (Rec α))
    (hi : s[i]? = some (some rows)) (ev : Bool) :
    (BWorld.run eps sc ops).total i ev = some (rows.countP fun r => r.y == some ev) := by
  obtain ⟨h, h1, -⟩ := bInv_run eps sc ops hs
  obtain ⟨o, ho, -, hh⟩ := h.live i rows hi
  have := total_counts sc (by rw [mem_codes_iff]; exact hsc) ev rows
  unfold BWorld.total
  rw [ho]
  simp only [Option.map_some, Option.some.injEq]
  rw [← this]
  cases ev with
  | true => rw [if_pos rfl, hh.e, hh.missE, hh.specE, h1]
  | false => rw [if_neg (by simp), hh.ne, hh.missNe, hh.specNe, h1]

/-- Three chunks, one special record, one missing record; sketch 2 collects the other two (the second merge is a copy). -/
def exProgram : List (SkOp (Rec ℕ)) :=
  [.new, .new, .new, .add 0 [⟨some 3, some true, 1⟩, ⟨some 9, some false, 1⟩, ⟨none, some true, 1⟩],
   .add 1 [⟨some 5, some false, 1⟩, ⟨some 7, some true, 1⟩], .merge 2 0, .add 2 [⟨some 4, some true, 1⟩], .merge 2 1]

/-- Non-vacuity: the program is allowed, and sketch 2 stands for all six records. -/
example : (ownedAll (Spec.bothSettled (.list [some 9])) exProgram).map (fun s => s.map (Option.map List.length)) = some [none, none, some 6] ∧
    (BWorld.run (1/4) (.list [some 9]) exProgram).total 2 true = some 4 ∧
    (BWorld.run (1/4) (.list [some 9]) exProgram).total 2 false = some 2 := by
  decide +kernel

/-- C26 finding: merging a sketch that has only missing or special records changes nothing: its counts are lost. -/
theorem C26_merge_drops_missing (w : BWorld α) (i j : ℕ) (a b : BObj) (ha : w.objs[i]? = some a) (hb : w.objs[j]? = some b)
    (he : (w.gk b.e).count = 0) (hn : (w.gk b.ne).count = 0) : w.merge i j = w := by
  simp [BWorld.merge, ha, hb, he, hn]

/-- C26 finding, concretely: a chunk of three records with a missing value is lost by the merge. -/
theorem C26_merge_drops_missing_example :
    (BWorld.run (1/4) .none ([.new, .new, .add 0 [⟨some 1, some true, 1⟩],
      .add 1 [⟨none, some true, 1⟩, ⟨none, some true, 1⟩, ⟨none, some false, 1⟩], .merge 0 1] : List (SkOp (Rec ℕ)))).total 0 true = some 1 := by
  decide +kernel

/-- C26 finding: a sketch that has only missing or special records forgets them when it merges another one. -/
theorem C26_merge_forgets_missing :
    (BWorld.run (1/4) .none ([.new, .new, .add 0 [⟨none, some true, 1⟩, ⟨none, some true, 1⟩], .add 1 [⟨some 1, some true, 1⟩],
      .merge 0 1] : List (SkOp (Rec ℕ)))).total 0 true = some 1 := by
  decide +kernel

/-- C26 finding: after merging into an empty sketch the two sketches share their state, records added later to the merged sketch also
appear in the other one. -/
theorem C26_merge_aliases :
    (BWorld.run (1/4) .none ([.new, .new, .add 1 [⟨some 1, some true, 1⟩], .merge 0 1] : List (SkOp (Rec ℕ)))).total 0 true = some 1 ∧
    (BWorld.run (1/4) .none ([.new, .new, .add 1 [⟨some 1, some true, 1⟩], .merge 0 1, .add 1 [⟨some 2, some true, 1⟩]] :
      List (SkOp (Rec ℕ)))).total 0 true = some 2 := by
  decide +kernel

/-- C26 finding: `_mergeable` accepts two sketches of which only one has special codes. -/
theorem C26_mergeable_ignores_codes (eps : ℚ) (K : ℕ) (codes : List α) : mergeable eps eps K K none (some codes) = true := by
  simp [mergeable]

end OptBinning
