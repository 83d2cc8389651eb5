import Verif.Lemmas.CatStream3
import Verif.Lemmas.Stream
import Verif.Props.BCatSketch
import Verif.Props.Categorical
import Verif.Spec.CatStream

/-! # What `solve()` of a categorical streaming object returns -/
namespace OptBinning
open Finset Spec
variable {κ : Type} [LinearOrder κ]

theorem groupCount_nil (ev : Bool) (rows : List (Rec κ)) : groupCount [] ev rows = 0 := by simp [groupCount]

theorem groupCount_cons (sc : SpecialCodes κ) {c : κ} {g : List κ} (hc : c ∉ g) (hs : ¬ IsSpecialValue sc (some c)) (ev : Bool)
    (rows : List (Rec κ)) : groupCount (c :: g) ev rows = catTarget sc rows c ev + groupCount g ev rows := by
  have hs' : sc.codes.contains (some c) = false := by
    rw [Bool.eq_false_iff]; intro h; rw [List.contains_iff_mem, mem_codes_iff] at h; exact hs h
  unfold groupCount catTarget
  induction rows with
  | nil => rfl
  | cons r rows ih =>
    rw [List.countP_cons, List.countP_cons, List.countP_cons, ih]
    have key : ((if decide (r.y = some ev ∧ ∃ c_1 ∈ c :: g, r.x = some c_1) = true then 1 else 0) : ℕ) =
        (if (decide (r.x = some c ∧ r.y = some ev) && !sc.codes.contains (some c)) = true then 1 else 0) +
        if decide (r.y = some ev ∧ ∃ c ∈ g, r.x = some c) = true then 1 else 0 := by
      simp only [hs', Bool.not_false, Bool.and_true, decide_eq_true_eq]
      by_cases hy : r.y = some ev
      · by_cases hx : r.x = some c
        · have h2 : ¬ ∃ c' ∈ g, r.x = some c' := by
            rintro ⟨c', h1, h2⟩; rw [hx] at h2; cases h2; exact hc h1
          simp [hx, hy, hc]
        · simp [hx, hy]
      · simp [hy]
    rw [key]; omega

theorem groupCount_eq_sum (sc : SpecialCodes κ) {g : List κ} (hn : g.Nodup) (hs : ∀ c ∈ g, ¬ IsSpecialValue sc (some c)) (ev : Bool)
    (rows : List (Rec κ)) : groupCount g ev rows = (g.map fun c => catTarget sc rows c ev).sum := by
  induction g with
  | nil => simp [groupCount_nil]
  | cons c g ih =>
    rw [groupCount_cons sc (List.nodup_cons.1 hn).1 (hs c (by simp)), List.map_cons, List.sum_cons,
      ih (List.nodup_cons.1 hn).2 (fun c hc => hs c (by simp [hc]))]

theorem catTarget_special {sc : SpecialCodes κ} {rows : List (Rec κ)} {c : κ} (h : IsSpecialValue sc (some c)) (ev : Bool) :
    catTarget sc rows c ev = 0 := by
  have : sc.codes.contains (some c) = true := by rw [List.contains_iff_mem, mem_codes_iff]; exact h
  simp only [catTarget, this]
  simp

theorem trainCategory_iff (sc : SpecialCodes κ) (rows : List (Rec κ)) (c : κ) :
    0 < catTarget sc rows c false + catTarget sc rows c true ↔ IsTrainCategory sc rows c := by
  constructor
  · intro h
    have hs : ¬ IsSpecialValue sc (some c) := by
      intro hs; rw [catTarget_special hs, catTarget_special hs] at h; omega
    refine ⟨hs, ?_⟩
    have : ∃ ev, 0 < catTarget sc rows c ev := by
      rcases Nat.eq_zero_or_pos (catTarget sc rows c false) with h1 | h1
      · exact ⟨true, by omega⟩
      · exact ⟨false, h1⟩
    obtain ⟨ev, hev⟩ := this
    obtain ⟨r, hr, hp⟩ := List.countP_pos_iff.1 hev
    simp only [Bool.and_eq_true, decide_eq_true_eq] at hp
    exact ⟨r, hr, hp.1.1, by rw [hp.1.2]; simp⟩
  · rintro ⟨hs, r, hr, hx, hy⟩
    have hs' : sc.codes.contains (some c) = false := by
      rw [Bool.eq_false_iff]; intro h; rw [List.contains_iff_mem, mem_codes_iff] at h; exact hs h
    cases hyv : r.y with
    | none => exact absurd hyv hy
    | some ev =>
      have : 0 < catTarget sc rows c ev := List.countP_pos_iff.2 ⟨r, hr, by simp only [hs']; simp [hx, hyv]⟩
      cases ev <;> omega

/-- The sketch, as seen by `bins()`. -/
theorem catBins_facts (sc : SpecialCodes κ) (hsc : ¬ IsSpecialValue sc none) {ops : List (SkOp (Rec κ))} {s : List (Option (List (Rec κ)))}
    (hs : ownedAll (fun _ _ => true) ops = some s) {i : ℕ} {rows : List (Rec κ)} (hi : s[i]? = some (some rows)) (cutoff : Option ℚ) (n : ℕ) :
    let b := catBins cutoff n ((CWorld.run sc ops).items i)
    (b.items.map Prod.fst).Nodup ∧ b.others.Nodup ∧ (∀ c ∈ b.items.map Prod.fst, c ∉ b.others) ∧
    (∀ c, (c ∈ b.items.map Prod.fst ∨ c ∈ b.others) ↔ IsTrainCategory sc rows c) ∧
    (b.items.map fun t => t.2.1) = (b.items.map Prod.fst).map (fun c => catTarget sc rows c false) ∧
    (b.items.map fun t => t.2.2) = (b.items.map Prod.fst).map (fun c => catTarget sc rows c true) ∧
    b.othersNe = groupCount b.others false rows ∧ b.othersE = groupCount b.others true rows ∧
    ((b.items.map Prod.fst).map (fun c => catTarget sc rows c false)).sum + b.othersNe + missingCount false rows + specialCount sc false rows
      = classCount false rows ∧
    ((b.items.map Prod.fst).map (fun c => catTarget sc rows c true)).sum + b.othersE + missingCount true rows + specialCount sc true rows
      = classCount true rows ∧
    (b.items.map Prod.fst).Pairwise (fun x y => groupRate [x] rows ≤ groupRate [y] rows) ∧
    (∀ c, c ∈ b.others ↔ IsTrainCategory sc rows c ∧ ∃ q, cutoff = some q ∧
      ((groupCount [c] false rows + groupCount [c] true rows : ℕ) : ℚ) / (n : ℚ) < q) := by
  intro b
  set items := (CWorld.run sc ops).items i with hitems
  obtain ⟨hn, hm⟩ := C27_counts sc ops hs i rows hi
  rw [← hitems] at hn hm
  obtain ⟨p1, p2, p3, p4, p5⟩ := C27_bins cutoff n items
  have hnd : (b.items.map Prod.fst ++ b.others).Nodup := (p1.nodup_iff).2 hn
  obtain ⟨n1, n2, n3⟩ := List.nodup_append.1 hnd
  have hmem : ∀ c, (c ∈ b.items.map Prod.fst ∨ c ∈ b.others) ↔ IsTrainCategory sc rows c := by
    intro c
    rw [← List.mem_append, p1.mem_iff, ← trainCategory_iff, List.mem_map]
    constructor
    · rintro ⟨⟨c', ne, e⟩, h1, rfl⟩
      have := (hm _ _ _).1 h1
      rw [← this.1, ← this.2.1]; exact this.2.2
    · intro h; exact ⟨(c, _, _), (hm _ _ _).2 ⟨rfl, rfl, h⟩, rfl⟩
  have hval : ∀ t ∈ items, t.2.1 = catTarget sc rows t.1 false ∧ t.2.2 = catTarget sc rows t.1 true := by
    rintro ⟨c, ne, e⟩ ht
    have := (hm _ _ _).1 ht
    exact ⟨this.1, this.2.1⟩
  have hsub : ∀ t ∈ b.items, t ∈ items := p2
  have e1 : (b.items.map fun t => t.2.1) = (b.items.map Prod.fst).map (fun c => catTarget sc rows c false) := by
    rw [List.map_map]; exact List.map_congr_left fun t ht => (hval t (hsub t ht)).1
  have e2 : (b.items.map fun t => t.2.2) = (b.items.map Prod.fst).map (fun c => catTarget sc rows c true) := by
    rw [List.map_map]; exact List.map_congr_left fun t ht => (hval t (hsub t ht)).2
  have hspec : ∀ c ∈ b.others, ¬ IsSpecialValue sc (some c) := fun c hc => ((hmem c).1 (.inr hc)).1
  have o1 : b.othersNe = groupCount b.others false rows := by
    rw [groupCount_eq_sum sc n2 hspec]
    show ((items.filter _).map _).sum = (((items.filter _).map Prod.fst).map _).sum
    rw [List.map_map]
    exact congrArg List.sum (List.map_congr_left fun t ht => (hval t (List.mem_of_mem_filter ht)).1)
  have o2 : b.othersE = groupCount b.others true rows := by
    rw [groupCount_eq_sum sc n2 hspec]
    show ((items.filter _).map _).sum = (((items.filter _).map Prod.fst).map _).sum
    rw [List.map_map]
    exact congrArg List.sum (List.map_congr_left fun t ht => (hval t (List.mem_of_mem_filter ht)).2)
  have hclean : ∀ ev (g : κ × ℕ × ℕ → ℕ), (∀ t ∈ items, g t = catTarget sc rows t.1 ev) → (items.map g).sum = cleanN sc ev rows := by
    intro ev g hg
    rw [List.map_congr_left hg, ← sum_counts sc rows ev _ hn, List.map_map]
    · rfl
    · intro c hc
      have : 0 < catTarget sc rows c false + catTarget sc rows c true := by cases ev <;> omega
      exact List.mem_map.2 ⟨_, (hm c _ _).2 ⟨rfl, rfl, this⟩, rfl⟩
  have htot : ∀ ev, cleanN sc ev rows + missingCount ev rows + specialCount sc ev rows = classCount ev rows := by
    intro ev
    have := total_counts sc (by rw [mem_codes_iff]; exact hsc) ev rows
    rw [← missN_eq sc, ← specN_eq, this]
    unfold classCount
    apply List.countP_congr
    intro r _
    simp
  have hitem : ∀ t ∈ items, t.2.1 = groupCount [t.1] false rows ∧ t.2.2 = groupCount [t.1] true rows := by
    intro t ht
    have hv := hval t ht
    have hns : ¬ IsSpecialValue sc (some t.1) := by
      have : t.1 ∈ items.map Prod.fst := List.mem_map.2 ⟨t, ht, rfl⟩
      rw [← p1.mem_iff, List.mem_append] at this
      exact ((hmem t.1).1 this).1
    have hg : ∀ ev, groupCount [t.1] ev rows = catTarget sc rows t.1 ev := by
      intro ev
      rw [groupCount_cons sc (by simp) hns, groupCount_nil]; rfl
    exact ⟨by rw [hv.1, hg], by rw [hv.2, hg]⟩
  refine ⟨n1, n2, fun c h1 h2 => n3 c h1 c h2 rfl, hmem, e1, e2, o1, o2, ?_, ?_, ?_, ?_⟩
  · rw [← e1, p4, hclean false _ fun t ht => (hval t ht).1]; exact htot false
  · rw [← e2, p5, hclean true _ fun t ht => (hval t ht).2]; exact htot true
  · rw [List.pairwise_map]
    rw [List.pairwise_map] at p3
    have hrate : ∀ t ∈ items, itemRate t = groupRate [t.1] rows := by
      intro t ht
      obtain ⟨h1, h2⟩ := hitem t ht
      rw [itemRate, groupRate, h1, h2]
    exact p3.imp_of_mem fun ha hb h => by rw [← hrate _ (hsub _ ha), ← hrate _ (hsub _ hb)]; exact h
  · intro c
    have hb : c ∈ b.others ↔ ∃ t ∈ items, t.1 = c ∧ ∃ q, cutoff = some q ∧ ((t.2.1 + t.2.2 : ℕ) : ℚ) / (n : ℚ) < q := by
      show c ∈ (items.filter _).map Prod.fst ↔ _
      rw [List.mem_map]
      constructor
      · rintro ⟨t, h1, h2⟩
        obtain ⟨h3, h4⟩ := List.mem_filter.1 h1
        refine ⟨t, h3, h2, ?_⟩
        cases hc : cutoff with
        | none => rw [hc] at h4; simp at h4
        | some q => rw [hc] at h4; exact ⟨q, rfl, by simpa using h4⟩
      · rintro ⟨t, h3, h2, q, h4, h5⟩
        refine ⟨t, List.mem_filter.2 ⟨h3, ?_⟩, h2⟩
        rw [h4]; simpa using h5
    rw [hb]
    constructor
    · rintro ⟨t, h1, h2, q, h3, h4⟩
      obtain ⟨h5, h6⟩ := hitem t h1
      rw [h5, h6, h2] at h4
      refine ⟨?_, q, h3, h4⟩
      rw [← hmem, ← List.mem_append, p1.mem_iff]
      exact List.mem_map.2 ⟨t, h1, h2⟩
    · rintro ⟨h1, q, h3, h4⟩
      rw [← hmem, ← List.mem_append, p1.mem_iff] at h1
      obtain ⟨t, h1, h2⟩ := List.mem_map.1 h1
      obtain ⟨h5, h6⟩ := hitem t h1
      exact ⟨t, h1, h2, q, h3, by rw [h5, h6, h2]; exact h4⟩

/-- The counts of the categories of one class. -/
def catCounts (sc : SpecialCodes κ) (rows : List (Rec κ)) (cats : List κ) (ev : Bool) : List ℕ := cats.map fun c => catTarget sc rows c ev

/-- The rows of "others", if there is such a row. -/
def othersRow (others : List κ) (ev : Bool) (rows : List (Rec κ)) : List ℕ := if others.length = 0 then [] else [groupCount others ev rows]

/-- What `solve()` returns, in terms of the records. -/
structure CatStreamSpec (cfg : CatStreamCfg) (sc : SpecialCodes κ) (solver : Solver) (rows : List (Rec κ)) (f : CatStreamFit κ) (S : List ℕ) : Prop where
  nodup : f.table.categories.Nodup
  nodupOthers : f.table.others.Nodup
  disj : ∀ c ∈ f.table.categories, c ∉ f.table.others
  mem : ∀ c, (c ∈ f.table.categories ∨ c ∈ f.table.others) ↔ IsTrainCategory sc rows c
  ordered : f.table.categories.Pairwise fun x y => groupRate [x] rows ≤ groupRate [y] rows
  others : ∀ c, c ∈ f.table.others ↔ IsTrainCategory sc rows c ∧ ∃ q, cfg.cutoff = some q ∧
      ((groupCount [c] false rows + groupCount [c] true rows : ℕ) : ℚ) / ((classCount false rows + classCount true rows : ℕ) : ℚ) < q
  total : ∀ ev, (catCounts sc rows f.table.categories ev).sum + groupCount f.table.others ev rows + missingCount ev rows + specialCount sc ev rows
      = classCount ev rows
  nPrebins : f.nPrebins = S.length + 1
  prebins : ∃ pb, catPrebins cfg (classCount false rows + classCount true rows) (catSplits (catCounts sc rows f.table.categories false).length)
    (catCounts sc rows f.table.categories false) (catCounts sc rows f.table.categories true) = .ok pb
  empty : f.table.categories = [] → S = []
  good : f.table.categories ≠ [] → GoodCatPrebins (catCounts sc rows f.table.categories false) (catCounts sc rows f.table.categories true) S
  single : S = [] → f.table.splits = [] ∧ f.table.status = "OPTIMAL" ∧ ∀ ev, f.table.column ev =
    [classCount ev rows] ++ othersRow f.table.others ev rows ++ [specialCount sc ev rows] ++ [missingCount ev rows]
  solved : S ≠ [] → let c := fun ev => groupSums (cnt S) S.length (catCounts sc rows f.table.categories ev)
    let r := solve (S.length + 1) (solver (c false) (c true))
    f.table.splits = select (S.map half) r.2.dropLast ∧ f.table.status = r.1 ∧ ∀ ev, f.table.column ev =
      accumBins r.2 (c ev) 0 ++ othersRow f.table.others ev rows ++ [specialCount sc ev rows] ++ [missingCount ev rows]

theorem catStream_unpack {cfg : CatStreamCfg} (hm : 0 < cfg.maxPrebins) {sc : SpecialCodes κ} (hsc : ¬ IsSpecialValue sc none) {solver : Solver}
    {ops : List (SkOp (Rec κ))} {s : List (Option (List (Rec κ)))} (hs : ownedAll (fun _ _ => true) ops = some s) {i : ℕ} {rows : List (Rec κ)}
    (hi : s[i]? = some (some rows)) :
    (∃ f S, (CWorld.run sc ops).solve cfg solver i = .ok f ∧ CatStreamSpec cfg sc solver rows f S) ∨
    (∃ cats others : List κ, cats ≠ [] ∧ (∀ c ∈ cats, c ∉ others) ∧ (∀ c, (c ∈ cats ∨ c ∈ others) ↔ IsTrainCategory sc rows c) ∧
      (∀ c, c ∈ others ↔ IsTrainCategory sc rows c ∧ ∃ q, cfg.cutoff = some q ∧
        ((groupCount [c] false rows + groupCount [c] true rows : ℕ) : ℚ) / ((classCount false rows + classCount true rows : ℕ) : ℚ) < q) ∧
      (((cfg.keepPure && cfg.heur) = false ∧ (CWorld.run sc ops).solve cfg solver i = .error "IndexError" ∧
          (groupCount cats false rows = 0 ∨ groupCount cats true rows = 0)) ∨
       ((cfg.keepPure && cfg.heur) = true ∧ (CWorld.run sc ops).solve cfg solver i = .error "UnboundLocalError"))) := by
  obtain ⟨h, h1⟩ := cInv_run sc ops hs
  obtain ⟨o, ho, hh⟩ := h.live i rows hi
  set w := CWorld.run sc ops with hw
  have htot : ∀ ev, w.total i ev = some (classCount ev rows) := by
    intro ev
    rw [C27_totals sc hsc ops hs i rows hi ev]
    congr 1
    unfold classCount
    apply List.countP_congr
    intro r _
    simp
  obtain ⟨b1, b2, b3, b4, b5, b6, b7, b8, b9, b10, b11, b12⟩ := catBins_facts sc hsc hs hi cfg.cutoff (classCount false rows + classCount true rows)
  rw [← hw] at b1 b2 b3 b4 b5 b6 b7 b8 b9 b10 b11 b12
  have hmiss : ∀ ev, (if ev then o.missE else o.missNe) = missingCount ev rows := by
    intro ev; rw [← missN_eq sc, ← h1]; cases ev
    · exact hh.missNe
    · exact hh.missE
  have hspc : ∀ ev, (if ev then o.specE else o.specNe) = specialCount sc ev rows := by
    intro ev; rw [← specN_eq, ← h1]; cases ev
    · exact hh.specNe
    · exact hh.specE
  unfold CWorld.solve
  rw [ho, htot, htot]
  simp only
  set b := catBins cfg.cutoff (classCount false rows + classCount true rows) (w.items i) with hb
  set cats := b.items.map Prod.fst with hcats
  have c5 : (b.items.map fun t => t.2.1) = catCounts sc rows cats false := b5
  have c6 : (b.items.map fun t => t.2.2) = catCounts sc rows cats true := b6
  have hlen : b.items.length = (catCounts sc rows cats false).length := by simp [catCounts, hcats]
  rw [c5, c6, hlen]
  set nev := catCounts sc rows cats false with hnev
  set ev := catCounts sc rows cats true with hev
  have hl : nev.length = ev.length := by simp [hnev, hev, catCounts]
  have hpos : ∀ j < nev.length, 0 < nev.getD j 0 + ev.getD j 0 := by
    intro j hj
    have hj' : j < cats.length := by simpa [hnev, catCounts] using hj
    rw [List.getD_eq_getElem _ _ hj, List.getD_eq_getElem _ _ (by omega)]
    simp only [hnev, hev, catCounts, List.getElem_map]
    rw [trainCategory_iff]
    exact (b4 _).1 (.inl (List.getElem_mem _))
  have b9' : nev.sum + b.othersNe + missingCount false rows + specialCount sc false rows = classCount false rows := b9
  have b10' : ev.sum + b.othersE + missingCount true rows + specialCount sc true rows = classCount true rows := b10
  have htotal : ∀ v, (catCounts sc rows cats v).sum + groupCount b.others v rows + missingCount v rows + specialCount sc v rows
      = classCount v rows := by
    intro v; cases v
    · rw [← b7]; exact b9'
    · rw [← b8]; exact b10'
  have hothers : ∀ v, (if b.others.length = 0 then (none : Option ℕ) else some (if v then b.othersE else b.othersNe)).toList = othersRow b.others v rows := by
    intro v
    unfold othersRow
    by_cases h0 : b.others.length = 0
    · rw [if_pos h0, if_pos h0]; rfl
    · rw [if_neg h0, if_neg h0]
      cases v
      · rw [← b7]; rfl
      · rw [← b8]; rfl
  have hspecial : ∀ c ∈ cats, ¬ IsSpecialValue sc (some c) := fun c hc => ((b4 c).1 (.inl hc)).1
  by_cases hce : cats = []
  · left
    have hn0 : nev = [] := by simp [hnev, catCounts, hce]
    have he0 : ev = [] := by simp [hev, catCounts, hce]
    have hp : catPrebins cfg (classCount false rows + classCount true rows) (catSplits nev.length) nev ev = .ok ⟨[], [], []⟩ := by
      rw [hn0, he0, catPrebins, if_neg]
      · rfl
      · unfold CatStreamCfg.removeMask; split_ifs <;> simp [pureMask, CatStreamCfg.sizeMask]
    rw [hp]
    refine ⟨_, [], rfl, ?_⟩
    refine ⟨b1, b2, b3, b4, b11, b12, htotal, rfl, ⟨_, hp⟩, fun _ => rfl, fun h => absurd hce h, ?_, fun h => absurd rfl h⟩
    intro _
    refine ⟨rfl, rfl, fun v => ?_⟩
    cases v
    · show binInfo [] [classCount false rows] _ [o.specNe] o.missNe = _
      rw [← hothers false, ← hspc false, ← hmiss false]
      simp [binInfo, accumBins]
    · show binInfo [] [classCount true rows] _ [o.specE] o.missE = _
      rw [← hothers true, ← hspc true, ← hmiss true]
      simp [binInfo, accumBins]
  rcases catPrebins_main (cfg := cfg) (N := classCount false rows + classCount true rows) hm hl
    (by have := List.length_pos_iff.2 hce; simp [hnev, catCounts]; omega) hpos (by omega) with ⟨S, hp, hg⟩ | ⟨k1, k2, k3⟩ | ⟨k1, k2⟩
  · left
    rw [hp]
    refine ⟨_, S, rfl, ?_⟩
    refine ⟨b1, b2, b3, b4, b11, b12, htotal, by simp [catPrebinsOf], ⟨_, hp⟩, fun h => absurd h hce, fun _ => hg, ?_, ?_⟩
    · intro hS
      subst hS
      refine ⟨rfl, rfl, fun v => ?_⟩
      cases v
      · show binInfo [] [classCount false rows] _ [o.specNe] o.missNe = _
        rw [← hothers false, ← hspc false, ← hmiss false]
        simp [binInfo, accumBins]
      · show binInfo [] [classCount true rows] _ [o.specE] o.missE = _
        rw [← hothers true, ← hspc true, ← hmiss true]
        simp [binInfo, accumBins]
    · intro hS
      have hSl : 0 < S.length := List.length_pos_iff.2 hS
      intro c r
      have hfit : fitOptimizer false solver (catPrebinsOf S nev ev).splits (catPrebinsOf S nev ev).nonevent (catPrebinsOf S nev ev).event =
          ⟨r.1, select (S.map half) r.2.dropLast, r.2⟩ := by
        unfold fitOptimizer catPrebinsOf
        simp only [length_groupSums]
        rw [if_neg (by omega)]
        rfl
      have hrl : r.2.length = S.length + 1 := solve_length _ _
      refine ⟨by simp only [hfit], by simp only [hfit], fun v => ?_⟩
      have hns : ¬ (catPrebinsOf S nev ev).splits.length = 0 := by simp [catPrebinsOf]; omega
      cases v
      · show catStreamColumn _ _ _ _ _ o.specNe o.missNe = _
        rw [hfit, catStreamColumn, if_neg hns, binInfo, if_neg (by rw [hrl]; omega), ← hothers false, ← hspc false, ← hmiss false]
        simp only [List.append_nil]
        rfl
      · show catStreamColumn _ _ _ _ _ o.specE o.missE = _
        rw [hfit, catStreamColumn, if_neg hns, binInfo, if_neg (by rw [hrl]; omega), ← hothers true, ← hspc true, ← hmiss true]
        simp only [List.append_nil]
        rfl
  · right
    refine ⟨cats, b.others, hce, b3, b4, b12, .inl ⟨k1, by rw [k2], ?_⟩⟩
    rw [groupCount_eq_sum sc b1 hspecial, groupCount_eq_sum sc b1 hspecial]
    exact k3
  · right
    exact ⟨cats, b.others, hce, b3, b4, b12, .inr ⟨k1, by rw [k2]⟩⟩

end OptBinning
