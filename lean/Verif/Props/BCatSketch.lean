import Verif.Props.BSketch

/-! # C27: the categorical sketch counts like a batch computation -/
namespace OptBinning
open Spec (SkOp owned ownedAll IsSpecialValue)
variable {κ : Type} [LinearOrder κ]

/-- Number of records with the category `c` (no special code) and the target `ev`. -/
def Spec.catTarget (sc : SpecialCodes κ) (rows : List (Rec κ)) (c : κ) (ev : Bool) : ℕ :=
  rows.countP fun r => decide (r.x = some c ∧ r.y = some ev) && !sc.codes.contains (some c)

open Spec (catTarget)

/-- References used by a dictionary. -/
def refs (d : List (κ × ℕ)) : List ℕ := d.map Prod.snd

/-- A well-formed dictionary. -/
structure WfDict (cells : List (ℕ × ℕ)) (d : List (κ × ℕ)) : Prop where
  keys : (d.map Prod.fst).Nodup
  rnd : (refs d).Nodup
  lt : ∀ r ∈ refs d, r < cells.length

/-- The counts a dictionary has for a category. -/
def val (cells : List (ℕ × ℕ)) (d : List (κ × ℕ)) (c : κ) : ℕ × ℕ := (d.lookup c).elim (0, 0) fun r => cells[r]?.getD (0, 0)

theorem lookup_mem {d : List (κ × ℕ)} {c : κ} {r : ℕ} (h : d.lookup c = some r) : (c, r) ∈ d := by
  induction d with
  | nil => simp at h
  | cons kr d ih =>
    rw [List.lookup_cons] at h
    by_cases hc : c = kr.1
    · subst hc; simp at h; subst h; simp
    · have : (c == kr.1) = false := by simpa using hc
      rw [this] at h; exact List.mem_cons_of_mem _ (ih h)

theorem lookup_of_mem {d : List (κ × ℕ)} (hn : (d.map Prod.fst).Nodup) {c : κ} {r : ℕ} (h : (c, r) ∈ d) : d.lookup c = some r := by
  induction d with
  | nil => simp at h
  | cons kr d ih =>
    rw [List.lookup_cons]
    rw [List.map_cons, List.nodup_cons] at hn
    rcases List.mem_cons.mp h with h1 | h1
    · subst h1; simp
    · have : c ≠ kr.1 := by
        intro hc; subst hc
        exact hn.1 (List.mem_map.mpr ⟨_, h1, rfl⟩)
      have : (c == kr.1) = false := by simpa using this
      rw [this]; exact ih hn.2 h1

theorem lookup_none_iff {d : List (κ × ℕ)} {c : κ} : d.lookup c = none ↔ c ∉ d.map Prod.fst := by
  induction d with
  | nil => simp
  | cons kr d ih =>
    rw [List.lookup_cons, List.map_cons, List.mem_cons]
    by_cases hc : c = kr.1
    · subst hc; simp
    · have : (c == kr.1) = false := by simpa using hc
      rw [this]; simp only [ih, hc, false_or]

omit [LinearOrder κ] in
theorem WfDict.inj {cells : List (ℕ × ℕ)} {d : List (κ × ℕ)} (h : WfDict cells d) {c c' : κ} {r : ℕ} (h1 : (c, r) ∈ d) (h2 : (c', r) ∈ d) : c = c' := by
  have hr := h.rnd
  obtain ⟨i, hi, e1⟩ := List.mem_iff_getElem.mp h1
  obtain ⟨j, hj, e2⟩ := List.mem_iff_getElem.mp h2
  have e3 : (refs d)[i]'(by simpa [refs] using hi) = (refs d)[j]'(by simpa [refs] using hj) := by simp [refs, e1, e2]
  have := (List.Nodup.getElem_inj_iff hr).mp e3
  subst this
  rw [e1] at e2; exact (Prod.mk.inj e2).1

theorem getD_bump (cells : List (ℕ × ℕ)) (r : ℕ) (p : ℕ × ℕ) (hr : r < cells.length) (r' : ℕ) :
    (bump cells r p)[r']?.getD (0, 0) =
      if r = r' then ((cells[r]?.getD (0, 0)).1 + p.1, (cells[r]?.getD (0, 0)).2 + p.2) else cells[r']?.getD (0, 0) := by
  unfold bump
  rw [List.getElem?_set]
  by_cases h : r = r'
  · subst h; simp [hr]
  · simp [h]

/-- Bumping the counter of one category. -/
theorem val_bump {cells : List (ℕ × ℕ)} {d : List (κ × ℕ)} (h : WfDict cells d) {c : κ} {r : ℕ} (hl : d.lookup c = some r) (p : ℕ × ℕ) (c' : κ) :
    val (bump cells r p) d c' = if c = c' then ((val cells d c').1 + p.1, (val cells d c').2 + p.2) else val cells d c' := by
  have hm := lookup_mem hl
  have hr : r < cells.length := h.lt r (List.mem_map.mpr ⟨_, hm, rfl⟩)
  unfold val
  by_cases hc : c = c'
  · subst hc
    rw [hl, if_pos rfl]
    simp only [Option.elim_some]
    rw [getD_bump _ _ _ hr, if_pos rfl]
  · rw [if_neg hc]
    cases hl' : d.lookup c' with
    | none => rfl
    | some r' =>
      simp only [Option.elim_some]
      rw [getD_bump _ _ _ hr, if_neg]
      intro he; subst he
      exact hc (h.inj hm (lookup_mem hl'))

/-- Outside a dictionary nothing changes. -/
theorem val_bump_other {cells : List (ℕ × ℕ)} {d : List (κ × ℕ)} {r : ℕ} (hr : r < cells.length) (hn : r ∉ refs d) (p : ℕ × ℕ) (c : κ) :
    val (bump cells r p) d c = val cells d c := by
  unfold val
  cases hl : d.lookup c with
  | none => rfl
  | some r' =>
    simp only [Option.elim_some]
    rw [getD_bump _ _ _ hr, if_neg]
    intro he; subst he
    exact hn (List.mem_map.mpr ⟨_, lookup_mem hl, rfl⟩)

theorem val_append (cells : List (ℕ × ℕ)) (d : List (κ × ℕ)) (kr : κ × ℕ) (hk : d.lookup kr.1 = none) (c : κ) :
    val cells (d ++ [kr]) c = if kr.1 = c then cells[kr.2]?.getD (0, 0) else val cells d c := by
  unfold val
  rw [List.lookup_append]
  by_cases hc : kr.1 = c
  · subst hc
    rw [hk, if_pos rfl]
    obtain ⟨k, r⟩ := kr
    simp
  · rw [if_neg hc]
    have : ([kr] : List (κ × ℕ)).lookup c = none := by
      rw [lookup_none_iff]; simpa using fun h => hc h.symm
    rw [this]; simp

theorem val_cells_append {cells : List (ℕ × ℕ)} {d : List (κ × ℕ)} (h : ∀ r ∈ refs d, r < cells.length) (p : ℕ × ℕ) (c : κ) :
    val (cells ++ [p]) d c = val cells d c := by
  unfold val
  cases hl : d.lookup c with
  | none => rfl
  | some r =>
    simp only [Option.elim_some]
    rw [List.getElem?_append_left (h r (List.mem_map.mpr ⟨_, lookup_mem hl, rfl⟩))]

theorem WfDict.append {cells cells' : List (ℕ × ℕ)} {d : List (κ × ℕ)} (h : WfDict cells d) {kr : κ × ℕ} (hk : d.lookup kr.1 = none)
    (hr : kr.2 ∉ refs d) (hl : kr.2 < cells'.length) (hll : cells.length ≤ cells'.length) : WfDict cells' (d ++ [kr]) := by
  refine ⟨?_, ?_, ?_⟩
  · rw [List.map_append, List.nodup_append]
    refine ⟨h.keys, by simp, ?_⟩
    intro a ha b hb
    simp at hb; subst hb
    intro he; subst he
    exact (lookup_none_iff.mp hk) ha
  · unfold refs; rw [List.map_append, List.nodup_append]
    refine ⟨h.rnd, by simp, ?_⟩
    intro a ha b hb
    simp at hb; subst hb
    intro he; subst he
    exact hr ha
  · intro r hr'
    unfold refs at hr'
    rw [List.map_append, List.mem_append] at hr'
    rcases hr' with h1 | h1
    · exact lt_of_lt_of_le (h.lt r h1) hll
    · simp at h1; subst h1; exact hl

omit [LinearOrder κ] in
theorem WfDict.bump {cells : List (ℕ × ℕ)} {d : List (κ × ℕ)} (h : WfDict cells d) (r : ℕ) (p : ℕ × ℕ) : WfDict (bump cells r p) d :=
  ⟨h.keys, h.rnd, by intro x hx; simpa [OptBinning.bump] using h.lt x hx⟩

/-- What changes when a dictionary is updated. -/
structure Update (cells cells' : List (ℕ × ℕ)) (d d' : List (κ × ℕ)) : Prop where
  wf : WfDict cells' d'
  len : cells.length ≤ cells'.length
  frame : ∀ r, r < cells.length → r ∉ refs d → cells'[r]?.getD (0, 0) = cells[r]?.getD (0, 0)
  refs : ∀ r ∈ refs d', r ∈ refs d ∨ cells.length ≤ r

theorem addCategory_spec {cells : List (ℕ × ℕ)} {d : List (κ × ℕ)} (h : WfDict cells d) (c : κ) (y : Bool) (wt : ℚ) :
    let st := addCategory (cells, d) ⟨some c, some y, wt⟩
    Update cells st.1 d st.2 ∧ (∀ c', c' ∈ st.2.map Prod.fst ↔ c' ∈ d.map Prod.fst ∨ c' = c) ∧
    ∀ c', val st.1 st.2 c' = if c = c' then ((val cells d c').1 + (if y then 0 else 1), (val cells d c').2 + (if y then 1 else 0))
      else val cells d c' := by
  intro st
  have hp : ∀ a b : ℕ × ℕ, (if ((⟨some c, some y, wt⟩ : Rec κ).y == some false) then a else b) = if y then b else a := by
    intro a b; cases y <;> rfl
  cases hl : d.lookup c with
  | some r =>
    have hst : st = (bump cells r (if y then (0, 1) else (1, 0)), d) := by
      simp only [st, addCategory, hl, hp]
    have hr : r < cells.length := h.lt r (List.mem_map.mpr ⟨_, lookup_mem hl, rfl⟩)
    rw [hst]
    refine ⟨⟨h.bump _ _, by simp [bump], ?_, fun r hr => .inl hr⟩, ?_, ?_⟩
    · intro r' _ hn
      rw [getD_bump _ _ _ hr, if_neg]
      intro he; subst he; exact hn (List.mem_map.mpr ⟨_, lookup_mem hl, rfl⟩)
    · intro c'
      refine ⟨.inl, ?_⟩
      rintro (h1 | rfl)
      · exact h1
      · exact List.mem_map.mpr ⟨_, lookup_mem hl, rfl⟩
    · intro c'
      rw [val_bump h hl]
      cases y <;> rfl
  | none =>
    have hst : st = (cells ++ [if y then (0, 1) else (1, 0)], d ++ [(c, cells.length)]) := by
      simp only [st, addCategory, hl, hp]
    rw [hst]
    have hnr : cells.length ∉ refs d := fun hm => lt_irrefl _ (h.lt _ hm)
    refine ⟨⟨h.append (kr := (c, cells.length)) hl hnr (by simp) (by simp), by simp, ?_, ?_⟩, ?_, ?_⟩
    · intro r hr _
      rw [List.getElem?_append_left hr]
    · intro r hr
      unfold OptBinning.refs at hr
      rw [List.map_append, List.mem_append] at hr
      rcases hr with h1 | h1
      · exact .inl h1
      · simp at h1; exact .inr h1.ge
    · intro c'; simp
    · intro c'
      rw [val_append _ _ _ hl]
      by_cases hc : c = c'
      · subst hc
        have : val cells d c = (0, 0) := by unfold val; rw [hl]; rfl
        rw [if_pos rfl, if_pos rfl, this]
        cases y <;> simp
      · rw [if_neg hc, if_neg hc]
        exact val_cells_append h.lt _ c'

omit [LinearOrder κ] in
theorem Update.trans {c1 c2 c3 : List (ℕ × ℕ)} {d1 d2 d3 : List (κ × ℕ)} (h : Update c1 c2 d1 d2) (h' : Update c2 c3 d2 d3) : Update c1 c3 d1 d3 := by
  refine ⟨h'.wf, h.len.trans h'.len, ?_, ?_⟩
  · intro r hr hn
    have hn2 : r ∉ OptBinning.refs d2 := fun hm => by
      rcases h.refs r hm with h1 | h1
      · exact hn h1
      · omega
    rw [h'.frame r (lt_of_lt_of_le hr h.len) hn2, h.frame r hr hn]
  · intro r hr
    rcases h'.refs r hr with h1 | h1
    · exact h.refs r h1
    · exact .inr (h.len.trans h1)

theorem catTarget_append (sc : SpecialCodes κ) (a b : List (Rec κ)) (c : κ) (ev : Bool) :
    catTarget sc (a ++ b) c ev = catTarget sc a c ev + catTarget sc b c ev := by simp [catTarget]

/-- The dictionary has the counts of `rows`. -/
def HasCounts (sc : SpecialCodes κ) (cells : List (ℕ × ℕ)) (d : List (κ × ℕ)) (rows : List (Rec κ)) : Prop :=
  ∀ c, val cells d c = (catTarget sc rows c false, catTarget sc rows c true) ∧
    (c ∈ d.map Prod.fst ↔ 0 < catTarget sc rows c false + catTarget sc rows c true)

theorem addRows_spec (sc : SpecialCodes κ) (rows recs : List (Rec κ)) {cells : List (ℕ × ℕ)} {d : List (κ × ℕ)} (h : WfDict cells d)
    (hc : HasCounts sc cells d rows) :
    let st := (splitData sc {} recs).clean.foldl addCategory (cells, d)
    Update cells st.1 d st.2 ∧ HasCounts sc st.1 st.2 (rows ++ recs) := by
  induction recs generalizing rows cells d with
  | nil =>
    refine ⟨⟨h, le_rfl, fun _ _ _ => rfl, fun r hr => .inl hr⟩, ?_⟩
    rw [List.append_nil]; exact hc
  | cons r recs ih =>
    have hsplit : (splitData sc {} (r :: recs)).clean = (splitData sc {} [r]).clean ++ (splitData sc {} recs).clean := by
      simp only [splitData, fixBounds]; rw [← List.filter_append]; rfl
    intro st
    have happ : rows ++ r :: recs = (rows ++ [r]) ++ recs := by simp
    have key : ∃ st1, (splitData sc {} [r]).clean.foldl addCategory (cells, d) = st1 ∧ Update cells st1.1 d st1.2 ∧
        HasCounts sc st1.1 st1.2 (rows ++ [r]) := by
      refine ⟨_, rfl, ?_⟩
      have hdrop : (!r.isMissing && !r.isSpecial sc) = false → (splitData sc {} [r]).clean = [] := by
        intro h1; simp only [splitData, fixBounds]; rw [List.filter_cons_of_neg (by simp [h1])]; rfl
      have hzero : (∀ c ev, catTarget sc [r] c ev = 0) → HasCounts sc cells d (rows ++ [r]) := by
        intro hz c
        have := hc c
        rw [catTarget_append, catTarget_append, hz, hz]; simpa using this
      have hskip : (!r.isMissing && !r.isSpecial sc) = false → (∀ c ev, catTarget sc [r] c ev = 0) →
          Update cells ((splitData sc {} [r]).clean.foldl addCategory (cells, d)).1 d ((splitData sc {} [r]).clean.foldl addCategory (cells, d)).2 ∧
          HasCounts sc ((splitData sc {} [r]).clean.foldl addCategory (cells, d)).1 ((splitData sc {} [r]).clean.foldl addCategory (cells, d)).2
            (rows ++ [r]) := by
        intro h1 h2
        rw [hdrop h1]
        exact ⟨⟨h, le_rfl, fun _ _ _ => rfl, fun r hr => .inl hr⟩, hzero h2⟩
      obtain ⟨x, y, wt⟩ := r
      cases x with
      | none => exact hskip (by simp [Rec.isMissing]) (by intro c ev; simp [catTarget])
      | some x =>
        cases y with
        | none => exact hskip (by simp [Rec.isMissing]) (by intro c ev; simp [catTarget])
        | some y =>
          by_cases hs : sc.codes.contains (some x) = true
          · refine hskip (by simp only [Rec.isSpecial, hs]; simp) ?_
            intro c ev
            unfold catTarget
            rw [List.countP_eq_zero]
            intro q hq
            simp only [List.mem_singleton] at hq; subst hq
            simp only [Bool.and_eq_true, decide_eq_true_eq, Option.some.injEq, Bool.not_eq_true', not_and]
            rintro ⟨rfl, -⟩; rw [hs]; simp
          · have hs' : sc.codes.contains (some x) = false := by simpa using hs
            have hcl : (splitData sc {} [(⟨some x, some y, wt⟩ : Rec κ)]).clean = [⟨some x, some y, wt⟩] := by
              simp only [splitData, fixBounds]
              rw [List.filter_cons_of_pos (by simp only [Rec.isMissing, Rec.isSpecial, hs']; simp)]; rfl
            rw [hcl, List.foldl_cons, List.foldl_nil]
            obtain ⟨s1, s2, s3⟩ := addCategory_spec h x y wt
            refine ⟨s1, fun c => ?_⟩
            obtain ⟨v1, v2⟩ := hc c
            rw [s3 c, s2 c, catTarget_append, catTarget_append, v2]
            by_cases hxc : x = c
            · subst hxc
              rw [if_pos rfl, v1]
              have hct : ∀ ev, catTarget sc [(⟨some x, some y, wt⟩ : Rec κ)] x ev = if y = ev then 1 else 0 := by
                intro ev
                unfold catTarget
                rw [List.countP_singleton]
                have : (!sc.codes.contains (some x)) = true := by rw [hs']; rfl
                simp only [this, Bool.and_true, decide_eq_true_eq, true_and, Option.some.injEq]
              rw [hct, hct]
              cases y <;> simp
            · have hct : ∀ ev, catTarget sc [(⟨some x, some y, wt⟩ : Rec κ)] c ev = 0 := by
                intro ev
                unfold catTarget
                rw [List.countP_singleton]; simp [hxc]
              rw [if_neg hxc, hct, hct]
              refine ⟨by simpa using v1, ?_⟩
              constructor
              · rintro (h1 | h1)
                · simpa using h1
                · exact absurd h1.symm hxc
              · intro h1; left; simpa using h1
    obtain ⟨st1, e1, u1, c1⟩ := key
    have := ih (rows ++ [r]) u1.wf c1
    have hst : st = (splitData sc {} recs).clean.foldl addCategory st1 := by
      simp only [st]; rw [hsplit, List.foldl_append, e1]
    rw [hst, happ]
    exact ⟨u1.trans this.1, this.2⟩

theorem val_congr {cells cells' : List (ℕ × ℕ)} {d : List (κ × ℕ)} (h : ∀ r ∈ refs d, cells'[r]?.getD (0, 0) = cells[r]?.getD (0, 0)) (c : κ) :
    val cells' d c = val cells d c := by
  unfold val
  cases hl : d.lookup c with
  | none => rfl
  | some r => simp only [Option.elim_some]; exact h r (List.mem_map.mpr ⟨_, lookup_mem hl, rfl⟩)

theorem val_cons (cells : List (ℕ × ℕ)) (kr : κ × ℕ) (d : List (κ × ℕ)) (c : κ) :
    val cells (kr :: d) c = if kr.1 = c then cells[kr.2]?.getD (0, 0) else val cells d c := by
  unfold val
  rw [List.lookup_cons]
  by_cases hc : kr.1 = c
  · subst hc; simp
  · have : (c == kr.1) = false := by simpa using fun h => hc h.symm
    rw [this, if_neg hc]

/-- bsketch.py:399-404: the loop over the categories of the merged sketch. -/
theorem mergeRows_spec (bd : List (κ × ℕ)) {cells : List (ℕ × ℕ)} {d : List (κ × ℕ)} (h : WfDict cells d) (hb : WfDict cells bd)
    (hdis : ∀ r ∈ refs d, r ∉ refs bd) :
    let st := bd.foldl mergeCategory (cells, d)
    WfDict st.1 st.2 ∧ st.1.length = cells.length ∧ (∀ r, r ∉ refs d → st.1[r]?.getD (0, 0) = cells[r]?.getD (0, 0)) ∧
    (∀ r ∈ refs st.2, r ∈ refs d ∨ r ∈ refs bd) ∧ (∀ c, c ∈ st.2.map Prod.fst ↔ c ∈ d.map Prod.fst ∨ c ∈ bd.map Prod.fst) ∧
    ∀ c, val st.1 st.2 c = ((val cells d c).1 + (val cells bd c).1, (val cells d c).2 + (val cells bd c).2) := by
  induction bd generalizing cells d with
  | nil =>
    refine ⟨h, rfl, fun _ _ => rfl, fun r hr => .inl hr, fun c => by simp, fun c => by simp [val]⟩
  | cons kr bd ih =>
    intro st
    have hb1 := hb.keys
    have hb2 := hb.rnd
    rw [List.map_cons, List.nodup_cons] at hb1
    have hb2' : kr.2 ∉ refs bd ∧ (refs bd).Nodup := List.nodup_cons.mp hb2
    have hbt : WfDict cells bd := ⟨hb1.2, hb2'.2, fun r hr => hb.lt r (List.mem_cons_of_mem _ hr)⟩
    have hkr : kr.2 ∉ refs d := fun hm => hdis _ hm (List.mem_cons_self)
    have hdis' : ∀ r ∈ refs d, r ∉ refs bd := fun r hr hm => hdis r hr (List.mem_cons_of_mem _ hm)
    have hnb : val cells bd kr.1 = (0, 0) := by
      unfold val; rw [lookup_none_iff.mpr hb1.1]; rfl
    cases hl : d.lookup kr.1 with
    | some r =>
      have hm := lookup_mem hl
      have hrm : r ∈ refs d := List.mem_map.mpr ⟨_, hm, rfl⟩
      have hr : r < cells.length := h.lt r hrm
      have hst : st = bd.foldl mergeCategory (bump cells r (cells[kr.2]?.getD (0, 0)), d) := by
        simp only [st, List.foldl_cons, mergeCategory, hl]
      have hwb : WfDict (bump cells r (cells[kr.2]?.getD (0, 0))) bd := hbt.bump _ _
      obtain ⟨i1, i2, i3, i4, i5, i6⟩ := ih (h.bump r _) hwb hdis'
      rw [hst]
      refine ⟨i1, by rw [i2]; simp [bump], ?_, ?_, ?_, ?_⟩
      · intro r' hr'
        rw [i3 r' hr', getD_bump _ _ _ hr, if_neg]
        intro he; subst he; exact hr' hrm
      · intro r' hr'
        rcases i4 r' hr' with h1 | h1
        · exact .inl h1
        · exact .inr (List.mem_cons_of_mem _ h1)
      · intro c
        rw [i5 c, List.map_cons, List.mem_cons]
        constructor
        · rintro (h1 | h1)
          · exact .inl h1
          · exact .inr (.inr h1)
        · rintro (h1 | rfl | h1)
          · exact .inl h1
          · exact .inl (List.mem_map.mpr ⟨_, hm, rfl⟩)
          · exact .inr h1
      · intro c
        rw [i6 c, val_bump h hl, val_bump_other hr (hdis' r hrm), val_cons]
        by_cases hc : kr.1 = c
        · subst hc
          simp only [if_true, hnb]; simp
        · rw [if_neg hc, if_neg hc]
    | none =>
      have hst : st = bd.foldl mergeCategory (cells, d ++ [kr]) := by
        simp only [st, List.foldl_cons, mergeCategory, hl]
      have hlt : kr.2 < cells.length := hb.lt _ List.mem_cons_self
      have hw : WfDict cells (d ++ [kr]) := h.append hl hkr hlt le_rfl
      have hrefs : ∀ r, r ∈ refs (d ++ [kr]) ↔ r ∈ refs d ∨ r = kr.2 := by intro r; simp [refs]
      obtain ⟨i1, i2, i3, i4, i5, i6⟩ := ih hw hbt (by
        intro r hr
        rcases (hrefs r).mp hr with h1 | rfl
        · exact hdis' r h1
        · exact hb2'.1)
      rw [hst]
      refine ⟨i1, i2, ?_, ?_, ?_, ?_⟩
      · intro r' hr'
        by_cases he : r' = kr.2
        · -- the shared cell is not changed by the remaining categories
          subst he
          have hx := i6 kr.1
          rw [val_append _ _ _ hl, if_pos rfl, hnb] at hx
          have hmem : (kr.1, kr.2) ∈ (bd.foldl mergeCategory (cells, d ++ [kr])).2 := by
            have : ∀ (l : List (κ × ℕ)) (s : List (ℕ × ℕ) × List (κ × ℕ)) (x : κ × ℕ), x ∈ s.2 → x ∈ (l.foldl mergeCategory s).2 := by
              intro l
              induction l with
              | nil => intro s x hx; exact hx
              | cons a l ihl =>
                intro s x hx
                rw [List.foldl_cons]
                apply ihl
                unfold mergeCategory
                split
                · exact hx
                · exact List.mem_append_left _ hx
            exact this _ _ _ (by simp)
          have hlk := lookup_of_mem i1.keys hmem
          unfold val at hx
          rw [hlk] at hx
          simpa using hx
        · exact i3 r' (fun hm => by
            rcases (hrefs r').mp hm with h1 | h1
            · exact hr' h1
            · exact he h1)
      · intro r' hr'
        rcases i4 r' hr' with h1 | h1
        · rcases (hrefs r').mp h1 with h2 | h2
          · exact .inl h2
          · exact .inr (by rw [h2]; exact List.mem_cons_self)
        · exact .inr (List.mem_cons_of_mem _ h1)
      · intro c
        rw [i5 c]; simp [or_assoc]
      · intro c
        rw [i6 c, val_append _ _ _ hl, val_cons]
        by_cases hc : kr.1 = c
        · subst hc
          have : val cells d kr.1 = (0, 0) := by unfold val; rw [hl]; rfl
          simp only [if_true, hnb, this]; simp
        · rw [if_neg hc, if_neg hc]

/-- The object `o` holds the counts of `rows`. -/
structure CHolds (w : CWorld κ) (o : CObj κ) (rows : List (Rec κ)) : Prop where
  wf : WfDict w.cells o.d
  counts : HasCounts w.sc w.cells o.d rows
  missE : o.missE = missN w.sc true rows
  missNe : o.missNe = missN w.sc false rows
  specE : o.specE = specN w.sc true rows
  specNe : o.specNe = specN w.sc false rows

/-- Invariant of the programs that never use a sketch after it was merged into another one. -/
structure CInv (w : CWorld κ) (s : List (Option (List (Rec κ)))) : Prop where
  len : w.objs.length = s.length
  live : ∀ (i : ℕ) rows, s[i]? = some (some rows) → ∃ o, w.objs[i]? = some o ∧ CHolds w o rows
  disj : ∀ (i j : ℕ) ri rj oi oj, i ≠ j → s[i]? = some (some ri) → s[j]? = some (some rj) → w.objs[i]? = some oi → w.objs[j]? = some oj →
    ∀ r ∈ refs oi.d, r ∉ refs oj.d

theorem CInv.create {w : CWorld κ} {s : List (Option (List (Rec κ)))} (h : CInv w s) :
    CInv { w with objs := w.objs ++ [{}] } (s ++ [some []]) := by
  have hsplit : ∀ (i : ℕ) rows, (s ++ [some []])[i]? = some (some rows) → (s[i]? = some (some rows)) ∨ (i = s.length ∧ rows = []) := by
    intro i rows hi
    rcases Nat.lt_trichotomy i s.length with h1 | h1 | h1
    · rw [List.getElem?_append_left h1] at hi; exact .inl hi
    · subst h1; simp at hi; exact .inr ⟨rfl, hi⟩
    · rw [List.getElem?_append_right h1.le] at hi
      cases hx : i - s.length with
      | zero => omega
      | succ n => rw [hx] at hi; simp at hi
  have hobj1 : ∀ (i : ℕ) o, w.objs[i]? = some o → (w.objs ++ [({} : CObj κ)])[i]? = some o := by
    intro i o ho
    rw [List.getElem?_append_left (List.getElem?_eq_some_iff.mp ho).1]; exact ho
  have hobj2 : (w.objs ++ [({} : CObj κ)])[s.length]? = some {} := by simp [← h.len]
  refine ⟨by simp [h.len], ?_, ?_⟩
  · intro i rows hi
    rcases hsplit i rows hi with h1 | ⟨rfl, rfl⟩
    · obtain ⟨o, ho, hh⟩ := h.live i rows h1
      exact ⟨o, hobj1 i o ho, ⟨hh.wf, hh.counts, hh.missE, hh.missNe, hh.specE, hh.specNe⟩⟩
    · refine ⟨_, hobj2, ⟨⟨by simp, by simp [refs], by simp [refs]⟩, ?_, rfl, rfl, rfl, rfl⟩⟩
      intro c; simp [val, catTarget]
  · intro i j ri rj oi oj hij hi hj hoi hoj
    simp only at hoi hoj
    rcases hsplit i ri hi with h1 | ⟨rfl, rfl⟩ <;> rcases hsplit j rj hj with h2 | ⟨rfl, rfl⟩
    · obtain ⟨o, ho, -⟩ := h.live i ri h1
      obtain ⟨o', ho', -⟩ := h.live j rj h2
      rw [hobj1 i o ho] at hoi; rw [hobj1 j o' ho'] at hoj
      simp only [Option.some.injEq] at hoi hoj; subst hoi; subst hoj
      exact h.disj i j ri rj o o' hij h1 h2 ho ho'
    · rw [hobj2] at hoj; simp only [Option.some.injEq] at hoj; subst hoj; simp [refs]
    · rw [hobj2] at hoi; simp only [Option.some.injEq] at hoi; subst hoi; simp [refs]
    · exact absurd rfl hij

theorem CHolds.transfer {w w' : CWorld κ} {o : CObj κ} {rows : List (Rec κ)} (h : CHolds w o rows) (hsc : w'.sc = w.sc)
    (hl : w.cells.length ≤ w'.cells.length) (hc : ∀ r ∈ refs o.d, w'.cells[r]?.getD (0, 0) = w.cells[r]?.getD (0, 0)) : CHolds w' o rows := by
  refine ⟨⟨h.wf.keys, h.wf.rnd, fun r hr => lt_of_lt_of_le (h.wf.lt r hr) hl⟩, ?_, by rw [hsc]; exact h.missE, by rw [hsc]; exact h.missNe,
    by rw [hsc]; exact h.specE, by rw [hsc]; exact h.specNe⟩
  intro c
  rw [hsc, val_congr hc]
  exact h.counts c

theorem CInv.add {w : CWorld κ} {s : List (Option (List (Rec κ)))} (h : CInv w s) {i : ℕ} {l : List (Rec κ)} (hi : s[i]? = some (some l))
    (recs : List (Rec κ)) : CInv (w.add i recs) (s.set i (some (l ++ recs))) ∧ (w.add i recs).sc = w.sc := by
  obtain ⟨o, ho, hh⟩ := h.live i l hi
  have hlt := (List.getElem?_eq_some_iff.mp ho).1
  obtain ⟨u, hc⟩ := addRows_spec w.sc l recs hh.wf hh.counts
  unfold CWorld.add
  rw [ho]
  simp only
  set st := (splitData w.sc {} recs).clean.foldl addCategory (w.cells, o.d) with hst
  have fresh : ∀ (j : ℕ) rows o', i ≠ j → s[j]? = some (some rows) → w.objs[j]? = some o' → ∀ r ∈ refs o'.d, r ∉ refs st.2 := by
    intro j rows o' hij hj ho' r hr hm
    obtain ⟨o2, ho2, hh2⟩ := h.live j rows hj
    rw [ho'] at ho2; simp only [Option.some.injEq] at ho2; subst ho2
    rcases u.refs r hm with h1 | h1
    · exact h.disj i j l rows o o' hij hi hj ho ho' r h1 hr
    · have := hh2.wf.lt r hr; omega
  refine ⟨⟨by simp [h.len], ?_, ?_⟩, trivial⟩
  · intro j rows hj
    rcases getElem?_set_live hj with ⟨rfl, h1⟩ | ⟨h1, h2⟩
    · simp only [Option.some.injEq] at h1; subst h1
      refine ⟨_, List.getElem?_set_self hlt, ⟨u.wf, hc, ?_, ?_, ?_, ?_⟩⟩
      · simp only [missN_append, hh.missE]; rfl
      · simp only [missN_append, hh.missNe]; rfl
      · simp only [specN_append, hh.specE]; rfl
      · simp only [specN_append, hh.specNe]; rfl
    · obtain ⟨o', ho', hh'⟩ := h.live j rows h2
      refine ⟨o', by simp only; rw [List.getElem?_set_ne h1]; exact ho', hh'.transfer rfl u.len ?_⟩
      intro r hr
      exact u.frame r (hh'.wf.lt r hr) (fun hm => h.disj i j l rows o o' h1 hi h2 ho ho' r hm hr)
  · intro j k rj rk oj ok hjk hj hk hoj hok
    simp only at hoj hok
    rcases getElem?_set_live hj with ⟨rfl, h1⟩ | ⟨h1, h2⟩ <;> rcases getElem?_set_live hk with ⟨rfl, h3⟩ | ⟨h3, h4⟩
    · exact absurd rfl hjk
    · rw [List.getElem?_set_self hlt] at hoj
      rw [List.getElem?_set_ne h3] at hok
      simp only [Option.some.injEq] at hoj; subst hoj
      intro r hr hm
      exact fresh k rk ok hjk h4 hok r hm hr
    · rw [List.getElem?_set_self hlt] at hok
      rw [List.getElem?_set_ne h1] at hoj
      simp only [Option.some.injEq] at hok; subst hok
      intro r hr hm
      exact fresh j rj oj h1 h2 hoj r hr hm
    · rw [List.getElem?_set_ne h1] at hoj
      rw [List.getElem?_set_ne h3] at hok
      exact h.disj j k rj rk oj ok hjk h2 h4 hoj hok

theorem CInv.merge {w : CWorld κ} {s : List (Option (List (Rec κ)))} (h : CInv w s) {i j : ℕ} {a b : List (Rec κ)} (hij : i ≠ j)
    (hi : s[i]? = some (some a)) (hj : s[j]? = some (some b)) :
    CInv (w.merge i j) ((s.set i (some (a ++ b))).set j none) ∧ (w.merge i j).sc = w.sc := by
  obtain ⟨oa, hoa, hha⟩ := h.live i a hi
  obtain ⟨ob, hob, hhb⟩ := h.live j b hj
  have hlt := (List.getElem?_eq_some_iff.mp hoa).1
  obtain ⟨m1, m2, m3, m4, m5, m6⟩ := mergeRows_spec ob.d hha.wf hhb.wf (h.disj i j a b oa ob hij hi hj hoa hob)
  unfold CWorld.merge
  rw [hoa, hob]
  simp only
  set st := ob.d.foldl mergeCategory (w.cells, oa.d) with hst
  have fresh : ∀ (k : ℕ) rows o', i ≠ k → j ≠ k → s[k]? = some (some rows) → w.objs[k]? = some o' → ∀ r ∈ refs o'.d, r ∉ refs st.2 := by
    intro k rows o' hik hjk hk ho' r hr hm
    rcases m4 r hm with h1 | h1
    · exact h.disj i k a rows oa o' hik hi hk hoa ho' r h1 hr
    · exact h.disj j k b rows ob o' hjk hj hk hob ho' r h1 hr
  refine ⟨⟨by simp [h.len], ?_, ?_⟩, trivial⟩
  · intro k rows hk
    rcases merge_live hk with ⟨hjk, ⟨rfl, rfl⟩ | ⟨h1, h2⟩⟩
    · refine ⟨_, List.getElem?_set_self hlt, ⟨m1, ?_, ?_, ?_, ?_, ?_⟩⟩
      · intro c
        show val st.1 st.2 c = _ ∧ (c ∈ st.2.map Prod.fst ↔ _)
        rw [m6 c, m5 c, (hha.counts c).1, (hhb.counts c).1, (hha.counts c).2, (hhb.counts c).2]
        simp only [catTarget_append, true_and]
        omega
      · simp only [missN_append, hha.missE, hhb.missE]
      · simp only [missN_append, hha.missNe, hhb.missNe]
      · simp only [specN_append, hha.specE, hhb.specE]
      · simp only [specN_append, hha.specNe, hhb.specNe]
    · obtain ⟨o, ho, hh⟩ := h.live k rows h2
      refine ⟨o, by simp only; rw [List.getElem?_set_ne h1]; exact ho, hh.transfer rfl (by simp only; rw [m2]) ?_⟩
      intro r hr
      exact m3 r (fun hm => h.disj i k a rows oa o h1 hi h2 hoa ho r hm hr)
  · intro k l rk rl ok ol hkl hk hl hok hol
    simp only at hok hol
    rcases merge_live hk with ⟨hjk, ⟨rfl, rfl⟩ | ⟨h1, h2⟩⟩ <;> rcases merge_live hl with ⟨hjl, ⟨rfl, rfl⟩ | ⟨h3, h4⟩⟩
    · exact absurd rfl hkl
    · rw [List.getElem?_set_self hlt] at hok
      rw [List.getElem?_set_ne h3] at hol
      simp only [Option.some.injEq] at hok; subst hok
      intro r hr hm
      exact fresh l rl ol h3 hjl h4 hol r hm hr
    · rw [List.getElem?_set_self hlt] at hol
      rw [List.getElem?_set_ne h1] at hok
      simp only [Option.some.injEq] at hol; subst hol
      intro r hr hm
      exact fresh k rk ok h1 hjk h2 hok r hr hm
    · rw [List.getElem?_set_ne h1] at hok
      rw [List.getElem?_set_ne h3] at hol
      exact h.disj _ _ _ _ ok ol hkl h2 h4 hok hol

theorem cInv_run (sc : SpecialCodes κ) (ops : List (SkOp (Rec κ))) {s : List (Option (List (Rec κ)))}
    (hs : ownedAll (fun _ _ => true) ops = some s) : CInv (CWorld.run sc ops) s ∧ (CWorld.run sc ops).sc = sc := by
  have key : ∀ (ops : List (SkOp (Rec κ))) (w : CWorld κ) (s0 s : List (Option (List (Rec κ)))), CInv w s0 → w.sc = sc →
      ops.foldlM (owned fun _ _ => true) s0 = some s → CInv (ops.foldl CWorld.step w) s ∧ (ops.foldl CWorld.step w).sc = sc := by
    intro ops
    induction ops with
    | nil => intro w s0 s h h1 h3; simp at h3; subst h3; exact ⟨h, h1⟩
    | cons op ops ih =>
      intro w s0 s h h1 h3
      rw [List.foldlM_cons] at h3
      cases hop : owned (fun _ _ => true) s0 op with
      | none => rw [hop] at h3; simp at h3
      | some s1 =>
        rw [hop] at h3
        have h3 : ops.foldlM (owned fun _ _ => true) s1 = some s := h3
        rw [List.foldl_cons]
        have hstep : CInv (w.step op) s1 ∧ (w.step op).sc = sc := by
          cases op with
          | new => simp only [owned, Option.some.injEq] at hop; subst hop; exact ⟨h.create, h1⟩
          | add i recs =>
            simp only [owned] at hop
            split at hop
            · next l hl => simp only [Option.some.injEq] at hop; subst hop; have := h.add hl recs; rw [h1] at this; exact this
            · simp at hop
          | merge i j =>
            simp only [owned] at hop
            split_ifs at hop with hij
            split at hop
            · next a b ha hb =>
              simp only [Option.some.injEq] at hop; subst hop
              have := h.merge hij ha hb; rw [h1] at this; exact this
            · simp at hop
        exact ih _ _ _ hstep.1 hstep.2 h3
  exact key ops _ [] s ⟨rfl, by simp, by simp⟩ rfl hs

/-- C27: in every program of creations, chunks and merges that never uses a sketch after it was merged into another one, the dictionary
of every sketch has each category of its records once, with exactly its numbers of non-events and events. -/
theorem C27_counts (sc : SpecialCodes κ) (ops : List (SkOp (Rec κ))) {s : List (Option (List (Rec κ)))}
    (hs : ownedAll (fun _ _ => true) ops = some s) (i : ℕ) (rows : List (Rec κ)) (hi : s[i]? = some (some rows)) :
    (((CWorld.run sc ops).items i).map Prod.fst).Nodup ∧
    ∀ c ne e, (c, ne, e) ∈ (CWorld.run sc ops).items i ↔
      ne = catTarget sc rows c false ∧ e = catTarget sc rows c true ∧ 0 < ne + e := by
  obtain ⟨h, h1⟩ := cInv_run sc ops hs
  obtain ⟨o, ho, hh⟩ := h.live i rows hi
  set w := CWorld.run sc ops with hw
  have hitems : w.items i = o.d.map fun kr => (kr.1, w.cell kr.2) := by simp [CWorld.items, ho]
  rw [hitems]
  refine ⟨?_, ?_⟩
  · rw [List.map_map]; exact hh.wf.keys
  · intro c ne e
    have hv := (hh.counts c).1
    have hk := (hh.counts c).2
    rw [h1] at hv hk
    constructor
    · intro hm
      rw [List.mem_map] at hm
      obtain ⟨kr, hkr, he⟩ := hm
      simp only [Prod.mk.injEq] at he
      obtain ⟨rfl, he⟩ := he
      have hl := lookup_of_mem hh.wf.keys (c := kr.1) (r := kr.2) hkr
      have hv' : val w.cells o.d kr.1 = w.cell kr.2 := by unfold val; rw [hl]; rfl
      rw [hv', he] at hv
      obtain ⟨rfl, rfl⟩ := Prod.mk.inj hv
      exact ⟨rfl, rfl, hk.mp (List.mem_map.mpr ⟨kr, hkr, rfl⟩)⟩
    · rintro ⟨rfl, rfl, hpos⟩
      obtain ⟨kr, hkr, rfl⟩ := List.mem_map.mp (hk.mpr hpos)
      refine List.mem_map.mpr ⟨kr, hkr, ?_⟩
      have hl := lookup_of_mem hh.wf.keys (c := kr.1) (r := kr.2) hkr
      have hv' : val w.cells o.d kr.1 = w.cell kr.2 := by unfold val; rw [hl]; rfl
      rw [← hv', hv]

/-- C27: two programs whose sketches stand for the same records, in whatever order and chunks, have the same dictionary up to the
order of the categories. -/
theorem C27_order_irrelevant (sc : SpecialCodes κ) (ops ops' : List (SkOp (Rec κ))) {s s' : List (Option (List (Rec κ)))}
    (hs : ownedAll (fun _ _ => true) ops = some s) (hs' : ownedAll (fun _ _ => true) ops' = some s') (i i' : ℕ) (rows rows' : List (Rec κ))
    (hi : s[i]? = some (some rows)) (hi' : s'[i']? = some (some rows')) (hp : rows.Perm rows') :
    ((CWorld.run sc ops).items i).Perm ((CWorld.run sc ops').items i') := by
  obtain ⟨n1, m1⟩ := C27_counts sc ops hs i rows hi
  obtain ⟨n2, m2⟩ := C27_counts sc ops' hs' i' rows' hi'
  have hc : ∀ c ev, catTarget sc rows c ev = catTarget sc rows' c ev := fun c ev => hp.countP_eq _
  apply (List.perm_ext_iff_of_nodup n1.of_map n2.of_map).mpr
  rintro ⟨c, ne, e⟩
  rw [m1, m2, hc, hc]

theorem sum_counts (sc : SpecialCodes κ) (rows : List (Rec κ)) (ev : Bool) (ks : List κ) (hn : ks.Nodup)
    (hall : ∀ c, 0 < catTarget sc rows c ev → c ∈ ks) : (ks.map fun c => catTarget sc rows c ev).sum = cleanN sc ev rows := by
  induction rows with
  | nil => simp [catTarget, cleanN, splitData, fixBounds]
  | cons r rows ih =>
    have h1 := fun c => catTarget_append sc [r] rows c ev
    have h2 := cleanN_append sc ev [r] rows
    rw [List.singleton_append] at h2
    have h3 : (ks.map fun c => catTarget sc (r :: rows) c ev) = ks.map fun c => catTarget sc [r] c ev + catTarget sc rows c ev := by
      apply List.map_congr_left; intro c _; exact h1 c
    rw [h3, List.sum_map_add, h2, ih (fun c hc => hall c (by have := h1 c; rw [List.singleton_append] at this; omega))]
    congr 1
    obtain ⟨x, y, wt⟩ := r
    cases x with
    | none => simp [catTarget, cleanN, splitData, fixBounds, Rec.isMissing]
    | some x =>
      by_cases hok : y = some ev ∧ sc.codes.contains (some x) = false
      · obtain ⟨rfl, hs⟩ := hok
        have hcl : cleanN sc ev [(⟨some x, some ev, wt⟩ : Rec κ)] = 1 := by
          simp only [cleanN, splitData, fixBounds]
          rw [List.filter_cons_of_pos (by simp only [Rec.isMissing, Rec.isSpecial, hs]; simp)]; simp
        have hct : ∀ c, catTarget sc [(⟨some x, some ev, wt⟩ : Rec κ)] c ev = if x = c then 1 else 0 := by
          intro c
          unfold catTarget
          rw [List.countP_singleton]
          by_cases hxc : x = c
          · subst hxc
            have : (!sc.codes.contains (some x)) = true := by rw [hs]; rfl
            simp only [this, Bool.and_true, decide_eq_true_eq]; simp
          · simp [hxc]
        have hx : x ∈ ks := hall x (by
          have := h1 x; rw [List.singleton_append, hct x, if_pos rfl] at this; omega)
        rw [hcl, List.map_congr_left (fun c _ => hct c)]
        clear h3 h2 h1 ih hall
        induction ks with
        | nil => simp at hx
        | cons k ks ihk =>
          rw [List.nodup_cons] at hn
          rw [List.map_cons, List.sum_cons]
          rcases List.mem_cons.mp hx with rfl | hx'
          · have : (ks.map fun c => if x = c then 1 else 0).sum = 0 := by
              apply List.sum_eq_zero; intro z hz
              obtain ⟨c, hc, rfl⟩ := List.mem_map.mp hz
              rw [if_neg]; rintro rfl; exact hn.1 hc
            rw [this]; simp
          · have : x ≠ k := by rintro rfl; exact hn.1 hx'
            rw [ihk hn.2 hx', if_neg this]
      · have hz : ∀ c, catTarget sc [(⟨some x, y, wt⟩ : Rec κ)] c ev = 0 := by
          intro c
          unfold catTarget
          rw [List.countP_eq_zero]
          intro q hq
          simp only [List.mem_singleton] at hq; subst hq
          simp only [Bool.and_eq_true, decide_eq_true_eq, Option.some.injEq, Bool.not_eq_true', not_and]
          rintro ⟨rfl, rfl⟩ hs; exact hok ⟨rfl, hs⟩
        have hcl : cleanN sc ev [(⟨some x, y, wt⟩ : Rec κ)] = 0 := by
          unfold cleanN
          rw [List.countP_eq_zero]
          intro q hq
          simp only [splitData, fixBounds, List.mem_filter, List.mem_singleton] at hq
          obtain ⟨rfl, hq⟩ := hq
          simp only [beq_iff_eq]
          intro hy
          apply hok
          simp only [Bool.and_eq_true, Bool.not_eq_true'] at hq
          exact ⟨hy, hq.2⟩
        rw [hcl, List.map_congr_left (fun c _ => hz c)]; simp

/-- C27: `n_event`/`n_nonevent` is the number of records with that target (special codes do not contain NaN). -/
theorem C27_totals (sc : SpecialCodes κ) (hsc : ¬ IsSpecialValue sc none) (ops : List (SkOp (Rec κ))) {s : List (Option (List (Rec κ)))}
    (hs : ownedAll (fun _ _ => true) ops = some s) (i : ℕ) (rows : List (Rec κ)) (hi : s[i]? = some (some rows)) (ev : Bool) :
    (CWorld.run sc ops).total i ev = some (rows.countP fun r => r.y == some ev) := by
  obtain ⟨hn, hm⟩ := C27_counts sc ops hs i rows hi
  obtain ⟨h, h1⟩ := cInv_run sc ops hs
  obtain ⟨o, ho, hh⟩ := h.live i rows hi
  rw [← total_counts sc (by rw [mem_codes_iff]; exact hsc) ev rows]
  unfold CWorld.total
  rw [ho]
  simp only [Option.map_some, Option.some.injEq]
  have hsum : ∀ (ev : Bool) (g : κ × ℕ × ℕ → ℕ), (∀ t ∈ (CWorld.run sc ops).items i, g t = catTarget sc rows t.1 ev) →
      (((CWorld.run sc ops).items i).map g).sum = cleanN sc ev rows := by
    intro ev g hg
    rw [List.map_congr_left hg, ← sum_counts sc rows ev _ hn, List.map_map]
    · rfl
    · intro c hc
      have : (c, catTarget sc rows c false, catTarget sc rows c true) ∈ (CWorld.run sc ops).items i :=
        (hm _ _ _).mpr ⟨rfl, rfl, by cases ev <;> omega⟩
      exact List.mem_map.mpr ⟨_, this, rfl⟩
  cases ev with
  | true =>
    rw [if_pos rfl, hsum true (fun t => t.2.2) (fun t ht => ((hm t.1 t.2.1 t.2.2).mp ht).2.1), hh.missE, hh.specE, h1]
  | false =>
    rw [if_neg (by simp), hsum false (fun t => t.2.1) (fun t ht => ((hm t.1 t.2.1 t.2.2).mp ht).1), hh.missNe, hh.specNe, h1]

omit [LinearOrder κ] in
/-- C27: `bins()` lists every category of the dictionary once, either with its counts, in increasing order of event rate, or among the
others, whose counts are added up. -/
theorem C27_bins (cutoff : Option ℚ) (n : ℕ) (items : List (κ × ℕ × ℕ)) :
    let b := catBins cutoff n items
    (b.items.map Prod.fst ++ b.others).Perm (items.map Prod.fst) ∧ (∀ t ∈ b.items, t ∈ items) ∧
    (b.items.map itemRate).Pairwise (· ≤ ·) ∧
    (b.items.map fun t => t.2.1).sum + b.othersNe = (items.map fun t => t.2.1).sum ∧
    (b.items.map fun t => t.2.2).sum + b.othersE = (items.map fun t => t.2.2).sum := by
  intro b
  set small : κ × ℕ × ℕ → Bool := fun t => match cutoff with
    | none => false
    | some c => decide (((t.2.1 + t.2.2 : ℕ) : ℚ) / (n : ℚ) < c) with hsmall
  have hp : b.items.Perm (items.filter fun t => !small t) := List.perm_insertionSort _ _
  have hall : ((items.filter fun t => !small t) ++ items.filter small).Perm items := by
    have := List.filter_append_perm small items
    exact (List.perm_append_comm).trans this
  refine ⟨?_, ?_, ?_, ?_, ?_⟩
  · have h1 : (b.items ++ items.filter small).Perm items := (hp.append_right _).trans hall
    have := h1.map Prod.fst
    rwa [List.map_append] at this
  · intro t ht
    have := hp.subset ht
    exact List.mem_of_mem_filter this
  · have : Std.Total fun a b : κ × ℕ × ℕ => itemRate a ≤ itemRate b := ⟨fun a b => le_total _ _⟩
    have : IsTrans (κ × ℕ × ℕ) fun a b => itemRate a ≤ itemRate b := ⟨fun a b c => le_trans⟩
    have h1 := List.pairwise_insertionSort (fun a b : κ × ℕ × ℕ => itemRate a ≤ itemRate b) (items.filter fun t => !small t)
    exact List.pairwise_map.mpr h1
  · have h1 := ((hp.append_right (items.filter small)).trans hall).map fun t => t.2.1
    have h2 := h1.sum_eq
    rw [List.map_append, List.sum_append] at h2
    exact h2
  · have h1 := ((hp.append_right (items.filter small)).trans hall).map fun t => t.2.2
    have h2 := h1.sum_eq
    rw [List.map_append, List.sum_append] at h2
    exact h2

/-- Two chunks in two sketches, merged. -/
def exCatProgram : List (SkOp (Rec ℕ)) :=
  [.new, .new, .add 0 [⟨some 3, some true, 1⟩, ⟨some 5, some false, 1⟩], .add 1 [⟨some 3, some false, 1⟩, ⟨some 8, some true, 1⟩, ⟨none, some true, 1⟩],
   .merge 0 1, .add 0 [⟨some 8, some true, 1⟩]]

/-- Non-vacuity: the program is allowed and its counts are those of the six records. -/
example : (ownedAll (fun _ _ => true) exCatProgram).map (fun s => s.map (Option.map List.length)) = some [some 6, none] ∧
    (CWorld.run .none exCatProgram).items 0 = [(3, 1, 1), (5, 1, 0), (8, 0, 2)] ∧ (CWorld.run .none exCatProgram).total 0 true = some 4 := by
  decide +kernel

/-- C27 finding: after a merge the sketches share the counters of the categories that were new; records added later to the first
sketch also change the merged one. -/
theorem C27_merge_aliases :
    (CWorld.run .none exCatProgram).items 1 = [(3, 1, 0), (8, 0, 2)] := by
  decide +kernel

/-- C27 finding: the cut-off of the sketch is relative to all records, also missing and special ones, the one of a batch computation to
the clean records only: a category with half of the clean records becomes "others". -/
theorem C27_cutoff_counts_missing :
    let w := CWorld.run (κ := ℕ) .none [.new, .add 0 ([⟨some 1, some true, 1⟩, ⟨some 2, some false, 1⟩] ++ List.replicate 8 ⟨none, some true, 1⟩)]
    (catBins (some (1/5)) 10 (w.items 0)).others = [1, 2] := by
  decide +kernel

end OptBinning
