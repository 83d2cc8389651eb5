import Verif.Model.Stream
import Verif.Spec.Stream
import Verif.Props.SketchBins
import Verif.Lemmas.Table
import Verif.Lemmas.CatUser

/-! # Lemmas about streaming binning -/
namespace OptBinning
open Spec (usedValues specialCount missingCount classCount IsSpecialValue numLe numLt)
variable {α : Type*} [LinearOrder α]

/-! ## the records -/

theorem special_iff (sc : SpecialCodes α) (r : Rec α) : r.isSpecial sc = true ↔ IsSpecialValue sc r.x := contains_codes_iff sc r.x

theorem cleanValues_eq (sc : SpecialCodes α) (ev : Bool) (recs : List (Rec α)) :
    cleanValues ev (splitData sc {} recs).clean = usedValues sc ev recs := by
  induction recs with
  | nil => rfl
  | cons r recs ih =>
    have h2 : cleanValues ev (splitData sc {} (r :: recs)).clean =
        cleanValues ev (splitData sc {} [r]).clean ++ cleanValues ev (splitData sc {} recs).clean := by
      have : (splitData sc {} (r :: recs)).clean = (splitData sc {} [r]).clean ++ (splitData sc {} recs).clean := by
        simp only [splitData, fixBounds]; rw [← List.filter_append]; rfl
      rw [this]; simp [cleanValues]
    have h3 : usedValues sc ev (r :: recs) = usedValues sc ev [r] ++ usedValues sc ev recs := by
      simp only [usedValues]; rw [← List.filterMap_append]; rfl
    rw [h2, h3, ih]
    congr 1
    have hs := special_iff sc r
    obtain ⟨x, y, wt⟩ := r
    cases x with
    | none => simp [cleanValues, usedValues, splitData, fixBounds, Rec.isMissing]
    | some x =>
      cases y with
      | none => simp [cleanValues, usedValues, splitData, fixBounds, Rec.isMissing]
      | some y =>
        by_cases hp : IsSpecialValue sc (some x)
        · have : (⟨some x, some y, wt⟩ : Rec α).isSpecial sc = true := hs.mpr hp
          simp [cleanValues, usedValues, splitData, fixBounds, this, hp]
        · have : (⟨some x, some y, wt⟩ : Rec α).isSpecial sc = false := by
            rw [← Bool.not_eq_true, hs]; exact hp
          cases y <;> cases ev <;> simp [cleanValues, usedValues, splitData, fixBounds, Rec.isMissing, this, hp]

theorem specN_eq (sc : SpecialCodes α) (ev : Bool) (recs : List (Rec α)) : specN sc ev recs = specialCount sc ev recs := by
  unfold specN specialCount splitData
  rw [List.countP_filter]
  apply List.countP_congr
  intro r _
  simp [special_iff]

theorem missN_eq (sc : SpecialCodes α) (ev : Bool) (recs : List (Rec α)) : missN sc ev recs = missingCount ev recs := by
  unfold missN missingCount splitData
  rw [List.countP_filter]
  apply List.countP_congr
  intro r _
  obtain ⟨x, y, wt⟩ := r
  cases x <;> cases y <;> simp [Rec.isMissing]

theorem usedValues_append (sc : SpecialCodes α) (ev : Bool) (a b : List (Rec α)) :
    usedValues sc ev (a ++ b) = usedValues sc ev a ++ usedValues sc ev b := by simp [usedValues]

/-- Every record of a class is used, special or missing. -/
theorem class_parts (sc : SpecialCodes α) (hsc : ¬ IsSpecialValue sc none) (ev : Bool) (recs : List (Rec α)) :
    (usedValues sc ev recs).length + missingCount ev recs + specialCount sc ev recs = classCount ev recs := by
  have hn : none ∉ sc.codes := by
    intro h
    exact hsc ((contains_codes_iff sc none).1 (by simpa using h))
  have := total_counts sc hn ev recs
  rw [← cleanValues_eq, length_cleanValues, ← missN_eq sc, ← specN_eq, this]
  unfold classCount
  apply List.countP_congr
  intro r _
  simp

/-! ## the sketches -/

theorem addAll_run (eps : ℚ) (ops : List (GKOp α)) (vs : List α) :
    (GK.run eps ops).addAll vs = GK.run eps (ops ++ vs.map GKOp.add) := by
  unfold GK.run GK.addAll
  rw [List.foldl_append, List.foldl_map]
  rfl

theorem addedValues_append (a b : List (GKOp α)) : addedValues (a ++ b) = addedValues a ++ addedValues b := by simp [addedValues]

theorem addedValues_adds (vs : List α) : addedValues (vs.map GKOp.add) = vs := by
  induction vs with
  | nil => rfl
  | cons v vs ih => simpa [addedValues] using ih

theorem run_snoc (eps : ℚ) (ops : List (GKOp α)) (o : GKOp α) : GK.run eps (ops ++ [o]) = (GK.run eps ops).step o := by
  unfold GK.run; rw [List.foldl_append]; rfl

/-- The sketch `k` was filled with `vs` by single additions. -/
def Filled (eps : ℚ) (k : GK α) (vs : List α) : Prop := ∃ ops, k = GK.run eps ops ∧ addedValues ops = vs

theorem Filled.new (eps : ℚ) : Filled eps ({ eps := eps } : GK α) [] := ⟨[], rfl, rfl⟩

theorem Filled.addAll {eps : ℚ} {k : GK α} {vs : List α} (h : Filled eps k vs) (ws : List α) : Filled eps (k.addAll ws) (vs ++ ws) := by
  obtain ⟨ops, rfl, rfl⟩ := h
  exact ⟨_, addAll_run eps ops ws, by rw [addedValues_append, addedValues_adds]⟩

theorem Filled.flush {eps : ℚ} {k : GK α} {vs : List α} (h : Filled eps k vs) : Filled eps k.flush vs := by
  obtain ⟨ops, rfl, rfl⟩ := h
  exact ⟨ops ++ [GKOp.len], (run_snoc eps ops .len).symm, by rw [addedValues_append]; simp [addedValues]⟩

theorem Filled.compress {eps : ℚ} {k : GK α} {vs : List α} (h : Filled eps k vs) : Filled eps (k.mergeCompress []) vs := by
  obtain ⟨ops, rfl, rfl⟩ := h
  exact ⟨ops ++ [GKOp.compress], (run_snoc eps ops .compress).symm, by rw [addedValues_append]; simp [addedValues]⟩

theorem Filled.eps {eps : ℚ} (heps : 0 < eps) {k : GK α} {vs : List α} (h : Filled eps k vs) : k.eps = eps ∧ k.count = vs.length := by
  obtain ⟨ops, rfl, rfl⟩ := h
  obtain ⟨hD, he⟩ := describes_run eps heps ops
  exact ⟨he, hD.count⟩

/-- The object holds `recs`. -/
structure Stream.Holding (cfg : StreamCfg α) (s : Stream α) (recs : List (Rec α)) : Prop where
  e : Filled cfg.eps s.e (usedValues cfg.sc true recs)
  ne : Filled cfg.eps s.ne (usedValues cfg.sc false recs)
  missE : s.missE = missingCount true recs
  missNe : s.missNe = missingCount false recs
  specE : s.specE = specialCount cfg.sc true recs
  specNe : s.specNe = specialCount cfg.sc false recs

theorem Stream.Holding.new (cfg : StreamCfg α) : (Stream.new cfg).Holding cfg [] :=
  ⟨Filled.new _, Filled.new _, rfl, rfl, rfl, rfl⟩

theorem Stream.Holding.add {cfg : StreamCfg α} {s : Stream α} {recs : List (Rec α)} (h : s.Holding cfg recs) (new : List (Rec α)) :
    (s.add cfg new).Holding cfg (recs ++ new) := by
  have hm : ∀ ev, (splitData cfg.sc {} new).missing.countP (fun r => r.y == some ev) = missingCount ev new := fun ev =>
    missN_eq cfg.sc ev new
  have hs : ∀ ev, (splitData cfg.sc {} new).special.countP (fun r => r.y == some ev) = specialCount cfg.sc ev new := fun ev =>
    specN_eq cfg.sc ev new
  refine ⟨?_, ?_, ?_, ?_, ?_, ?_⟩
  · rw [usedValues_append]; simp only [Stream.add, cleanValues_eq]; exact h.e.addAll _
  · rw [usedValues_append]; simp only [Stream.add, cleanValues_eq]; exact h.ne.addAll _
  · simp only [Stream.add, hm, h.missE, missingCount, List.countP_append]
  · simp only [Stream.add, hm, h.missNe, missingCount, List.countP_append]
  · simp only [Stream.add, hs, h.specE, specialCount, List.countP_append]
  · simp only [Stream.add, hs, h.specNe, specialCount, List.countP_append]

/-- `merge_sketches` never fails; it leaves the events alone, may compress the other sketch, and returns a sketch built by two merges. -/
theorem mergeSketches_ok {cfg : StreamCfg α} (heps : 0 < cfg.eps) {s : Stream α} {recs : List (Rec α)} (h : s.Holding cfg recs) :
    ∃ all ne' ops, s.mergeSketches cfg = .ok (all, { s with ne := ne' }) ∧ (ne' = s.ne ∨ ne' = s.ne.mergeCompress []) ∧
      all = GK.runMerge cfg.eps ops ∧ collectedValues ops = usedValues cfg.sc true recs ++ usedValues cfg.sc false recs := by
  obtain ⟨oe, he, hev⟩ := h.e
  obtain ⟨on, hn, hnv⟩ := h.ne
  have hee := (h.e.eps heps).1
  have hne := (h.ne.eps heps).1
  obtain ⟨r1, hr1, h1e, -, -, -⟩ := merge_count (a := ({ eps := cfg.eps } : GK α)) (b := s.e) hee.symm
  have h1e' : r1.1.eps = s.ne.eps := by rw [h1e, hne]
  obtain ⟨r2, hr2, -, -, -, -⟩ := merge_count h1e'
  have hr12 : r1.2 = s.e := by
    unfold GK.merge at hr1
    rw [if_neg (by simp [hee])] at hr1
    by_cases h0 : s.e.count = 0
    · rw [if_pos h0, Except.ok.injEq] at hr1; rw [← hr1]
    · rw [if_neg h0, if_pos (by rfl), Except.ok.injEq] at hr1; rw [← hr1]
  refine ⟨r2.1, r2.2, [.merge oe, .merge on], ?_, ?_, ?_, ?_⟩
  · unfold Stream.mergeSketches
    simp only [hr1, bind, Except.bind, hr2, pure, Except.pure, hr12]
  · unfold GK.merge at hr2
    rw [if_neg (by simp [h1e'])] at hr2
    by_cases h0 : s.ne.count = 0
    · rw [if_pos h0, Except.ok.injEq] at hr2; left; rw [← hr2]
    · rw [if_neg h0] at hr2
      by_cases h1 : r1.1.count = 0
      · rw [if_pos h1, Except.ok.injEq] at hr2; left; rw [← hr2]
      · rw [if_neg h1, Except.ok.injEq] at hr2; right; rw [← hr2]
  · unfold GK.runMerge
    simp only [List.foldl_cons, List.foldl_nil, GK.mergeStep]
    rw [← he, hr1]
    simp only [h1e]
    rw [← hn, hr2]
  · simp [collectedValues, hev, hnv]

theorem Stream.Holding.solve {cfg : StreamCfg α} (heps : 0 < cfg.eps) {s : Stream α} {recs : List (Rec α)} (h : s.Holding cfg recs)
    (solver : Solver) : (s.solve cfg solver).2.Holding cfg recs ∧ (s.solve cfg solver).2.nAdd = s.nAdd := by
  unfold Stream.solve
  by_cases h0 : s.nAdd = 0
  · rw [if_pos h0]; exact ⟨h, rfl⟩
  rw [if_neg h0]
  obtain ⟨all, ne', ops, hm, hne', -, -⟩ := mergeSketches_ok heps h
  have hF : Filled cfg.eps ne' (usedValues cfg.sc false recs) := by
    rcases hne' with rfl | rfl
    · exact h.ne
    · exact h.ne.compress
  simp only [hm]
  cases all.quantiles (percentiles cfg.maxPrebins) with
  | error m => exact ⟨⟨h.e, hF, h.missE, h.missNe, h.specE, h.specNe⟩, rfl⟩
  | ok splits =>
    simp only
    cases streamPrebins cfg.keepPure s.e ne' splits with
    | error m => exact ⟨⟨h.e.flush, hF.flush, h.missE, h.missNe, h.specE, h.specNe⟩, rfl⟩
    | ok pb => exact ⟨⟨h.e.flush, hF.flush, h.missE, h.missNe, h.specE, h.specNe⟩, rfl⟩

omit [LinearOrder α] in
theorem streamed_append (a b : List (StreamOp α)) : streamed (a ++ b) = streamed a ++ streamed b := by simp [streamed]

/-- After any history the object holds the records it was given. -/
theorem holding_run (cfg : StreamCfg α) (heps : 0 < cfg.eps) (ops : List (StreamOp α)) :
    (Stream.run cfg ops).Holding cfg (streamed ops) ∧ ((Stream.run cfg ops).nAdd = 0 ↔ ∀ recs, StreamOp.add recs ∉ ops) := by
  induction ops using List.reverseRecOn with
  | nil => exact ⟨Stream.Holding.new cfg, by simp [Stream.run, Stream.new]⟩
  | append_singleton ops o ih =>
    have hstep : Stream.run cfg (ops ++ [o]) = (Stream.run cfg ops).step cfg o := by
      unfold Stream.run; rw [List.foldl_append]; rfl
    rw [hstep, streamed_append]
    cases o with
    | add recs =>
      refine ⟨by simpa [streamed, Stream.step] using ih.1.add recs, ?_⟩
      simp only [Stream.step, Stream.add, Nat.add_eq_zero_iff, one_ne_zero, and_false, false_iff]
      push Not
      exact ⟨recs, by simp⟩
    | solve solver =>
      have := ih.1.solve heps solver
      refine ⟨by simpa [streamed, Stream.step] using this.1, ?_⟩
      rw [show (Stream.run cfg ops).step cfg (.solve solver) = ((Stream.run cfg ops).solve cfg solver).2 from rfl, this.2, ih.2]
      simp

end OptBinning
