import Verif.Props.CatStream
import Verif.Props.FitTable

/-!
# C73 (continued) and C74: event rates of the rows, and when `solve` succeeds for a categorical streaming object
-/
set_option linter.unusedSectionVars false
namespace OptBinning
open Finset Spec
variable {κ : Type} [LinearOrder κ]

section
variable {cfg : CatStreamCfg} {sc : SpecialCodes κ} {solver : Solver} {c : SolverCfg} {ops : List (SkOp (Rec κ))}
  {s : List (Option (List (Rec κ)))} {i : ℕ} {rows : List (Rec κ)} {f : CatStreamFit κ}

theorem groupCount_sum (sc : SpecialCodes κ) {g : List κ} (hn : g.Nodup) (hs : ∀ c ∈ g, ¬ IsSpecialValue sc (some c)) (ev : Bool) :
    groupCount g ev rows = (g.map fun v => groupCount [v] ev rows).sum := by
  rw [groupCount_eq_sum sc hn hs]
  congr 1
  refine List.map_congr_left fun v hv => ?_
  rw [groupCount_eq_sum sc (List.nodup_singleton v) (fun c hc => by rw [List.mem_singleton.1 hc]; exact hs v hv)]
  simp

theorem cross_sum (e t : κ → ℕ) (g h : List κ) (hx : ∀ a ∈ g, ∀ b ∈ h, e a * t b ≤ e b * t a) :
    (g.map e).sum * (h.map t).sum ≤ (h.map e).sum * (g.map t).sum := by
  induction g with
  | nil => simp
  | cons a g ih =>
    have h1 : e a * (h.map t).sum ≤ (h.map e).sum * t a := by
      clear ih
      induction h with
      | nil => simp
      | cons b h ih2 =>
        have := ih2 fun a' ha' b' hb' => hx a' ha' b' (List.mem_cons_of_mem _ hb')
        have h2 := hx a (by simp) b (by simp)
        simp only [List.map_cons, List.sum_cons]
        nlinarith
    have h2 := ih fun a' ha' b' hb' => hx a' (List.mem_cons_of_mem _ ha') b' hb'
    simp only [List.map_cons, List.sum_cons]
    nlinarith

/-- C73: the event rates of the regular groups never decrease from one row to the next. -/
theorem C73_rates_ascending (hm : 0 < cfg.maxPrebins) (hsc : ¬ IsSpecialValue sc none) (hs : ownedAll (fun _ _ => true) ops = some s)
    (hi : s[i]? = some (some rows)) (hf : (CWorld.run sc ops).solve cfg solver i = .ok f) {k k' : ℕ} (hkk : k < k')
    (hk' : k' ≤ f.table.splits.length) (hn : f.table.bins.getD k' [] ≠ []) :
    groupRate (f.table.bins.getD k []) rows ≤ groupRate (f.table.bins.getD k' []) rows := by
  obtain ⟨S, h⟩ := catStream_spec hm hsc hs hi hf
  have hsp : ∀ k, ∀ v ∈ f.table.bins.getD k [], ¬ IsSpecialValue sc (some v) ∧ 0 < groupCount [v] false rows + groupCount [v] true rows := by
    intro k v hv
    have ht : IsTrainCategory sc rows v := by
      rcases (mem_bins h.nodup _ _).1 hv with ⟨-, h1, -⟩ | ⟨-, h1⟩
      · exact (h.mem v).1 (.inl h1)
      · exact (h.mem v).1 (.inr h1)
    refine ⟨ht.1, ?_⟩
    have := (trainCategory_iff sc rows v).2 ht
    rw [groupCount_eq_sum sc (List.nodup_singleton v) (fun c hc => by rw [List.mem_singleton.1 hc]; exact ht.1),
      groupCount_eq_sum sc (List.nodup_singleton v) (fun c hc => by rw [List.mem_singleton.1 hc]; exact ht.1)]
    simpa using this
  set g := f.table.bins.getD k [] with hg
  set g' := f.table.bins.getD k' [] with hg'
  set t : κ → ℕ := fun v => groupCount [v] false rows + groupCount [v] true rows with ht
  have hx := cross_sum (fun v => groupCount [v] true rows) t g g' (by
    intro a ha b hb
    have h1 := C73_ordered hm hsc hs hi hf hkk hk' ha hb
    have ha' : (0 : ℚ) < ((t a : ℕ) : ℚ) := by exact_mod_cast (hsp k a ha).2
    have hb' : (0 : ℚ) < ((t b : ℕ) : ℚ) := by exact_mod_cast (hsp k' b hb).2
    unfold groupRate at h1
    rw [div_le_div_iff₀ ha' hb'] at h1
    exact_mod_cast h1)
  have e1 : ∀ k, ∀ ev, groupCount (f.table.bins.getD k []) ev rows = ((f.table.bins.getD k []).map fun v => groupCount [v] ev rows).sum :=
    fun k ev => groupCount_sum sc (bins_getD_nodup h.nodup h.nodupOthers k) (fun v hv => (hsp k v hv).1) ev
  have e2 : ∀ l : List κ, (l.map t).sum = (l.map fun v => groupCount [v] false rows).sum + (l.map fun v => groupCount [v] true rows).sum := by
    intro l; rw [ht, List.sum_map_add]
  rw [e2, e2, ← e1 k, ← e1 k', ← e1 k, ← e1 k'] at hx
  have hpos : 0 < groupCount g' false rows + groupCount g' true rows := by
    obtain ⟨v, hv⟩ := List.exists_mem_of_ne_nil _ hn
    rw [hg', e1 k', e1 k', ← e2]
    exact lt_of_lt_of_le (hsp k' v hv).2 (List.single_le_sum (fun _ _ => Nat.zero_le _) _ (List.mem_map_of_mem hv))
  unfold groupRate
  rcases Nat.eq_zero_or_pos (groupCount g false rows + groupCount g true rows) with h0 | h0
  · rw [h0, Nat.cast_zero, div_zero]; positivity
  · rw [div_le_div_iff₀ (by exact_mod_cast h0) (by exact_mod_cast hpos)]
    exact_mod_cast hx

/-- C74: unless `divergence` is "hellinger" or "triangular" together with `cat_heuristic`, `solve` succeeds exactly if there is no category to
bin or both classes have a record in such a category; otherwise it raises `IndexError`. -/
theorem C74_solvable (hm : 0 < cfg.maxPrebins) (hsc : ¬ IsSpecialValue sc none) (hs : ownedAll (fun _ _ => true) ops = some s)
    (hi : s[i]? = some (some rows)) (hk : (cfg.keepPure && cfg.heur) = false) :
    ((∃ f, (CWorld.run sc ops).solve cfg solver i = .ok f) ↔ (∀ v, ¬ IsMainCategory cfg sc rows v) ∨
      ∀ ev, ∃ r ∈ rows, r.y = some ev ∧ ∃ v, r.x = some v ∧ IsMainCategory cfg sc rows v) ∧
    ((∀ f, (CWorld.run sc ops).solve cfg solver i ≠ .ok f) → (CWorld.run sc ops).solve cfg solver i = .error "IndexError") := by
  rcases catStream_unpack (solver := solver) hm hsc hs hi with ⟨f, S, h1, h2⟩ | ⟨cats, others, k1, k2, k3, k4, ⟨-, k5, k6⟩ | ⟨k5, -⟩⟩
  · have hmain := main_iff (cfg := cfg) h2.disj h2.mem h2.others
    refine ⟨⟨fun _ => ?_, fun _ => ⟨f, h1⟩⟩, fun h => absurd h1 (h f)⟩
    by_cases hc : f.table.categories = []
    · left; intro v hv; rw [← hmain, hc] at hv; simp at hv
    · right
      intro ev
      have hg := (h2.good hc).mixed 0 (Nat.zero_le _)
      have hpos : 0 < groupCount f.table.categories ev rows := by
        rw [groupCount_eq_sum sc h2.nodup (fun v hv => ((h2.mem v).1 (.inl hv)).1)]
        have hle : grpSum (cnt S) (catCounts sc rows f.table.categories ev) 0 ≤ (catCounts sc rows f.table.categories ev).sum := by
          rw [← sum_groupSums (φ := cnt S) (k := S.length) (fun j _ => cnt_le_length _ _)]
          have h3 := getD_groupSums (cnt S) S.length (catCounts sc rows f.table.categories ev) (Nat.zero_le _)
          rw [← h3, List.getD_eq_getElem _ _ (by simp)]
          exact List.single_le_sum (fun _ _ => Nat.zero_le _) _ (List.getElem_mem _)
        refine lt_of_lt_of_le ?_ hle
        cases ev
        · exact hg.1
        · exact hg.2
      obtain ⟨r, h3, h4, v, h5, h6⟩ := (groupCount_pos_iff _ _ _).1 hpos
      exact ⟨r, h3, h4, v, h6, (hmain v).1 h5⟩
  · have hmain := main_iff (cfg := cfg) k2 k3 k4
    refine ⟨⟨fun ⟨f, hf⟩ => by rw [k5] at hf; simp at hf, fun h => ?_⟩, fun _ => k5⟩
    exfalso
    rcases h with h | h
    · obtain ⟨v, hv⟩ := List.exists_mem_of_ne_nil _ k1
      exact h v ((hmain v).1 hv)
    · have hpos : ∀ ev, 0 < groupCount cats ev rows := by
        intro ev
        obtain ⟨r, h3, h4, v, h5, h6⟩ := h ev
        exact (groupCount_pos_iff _ _ _).2 ⟨r, h3, h4, v, (hmain v).2 h6, h5⟩
      have := hpos false; have := hpos true; omega
  · rw [hk] at k5; simp at k5

/-- C74 finding: with `divergence` "hellinger" or "triangular" and `cat_heuristic`, at most `max_n_prebins` categories to bin (`M`) and one of
them without records of one class, `solve` raises `UnboundLocalError`. -/
theorem C74_unbound (hm : 0 < cfg.maxPrebins) (hsc : ¬ IsSpecialValue sc none) (hs : ownedAll (fun _ _ => true) ops = some s)
    (hi : s[i]? = some (some rows)) (hk : cfg.keepPure = true) (hh : cfg.heur = true) {M : List κ} (hM : ∀ v, IsMainCategory cfg sc rows v → v ∈ M)
    (hM2 : M.length ≤ cfg.maxPrebins) {v : κ} (hv : IsMainCategory cfg sc rows v) {ev : Bool} (hp : groupCount [v] ev rows = 0) :
    (CWorld.run sc ops).solve cfg solver i = .error "UnboundLocalError" := by
  rcases catStream_unpack (solver := solver) hm hsc hs hi with ⟨f, S, -, h2⟩ | ⟨cats, others, -, -, -, -, ⟨k5, -⟩ | ⟨-, k5⟩⟩
  · exfalso
    have hmain := main_iff (cfg := cfg) h2.disj h2.mem h2.others
    obtain ⟨pb, hpb⟩ := h2.prebins
    have hlen : f.table.categories.length ≤ cfg.maxPrebins := by
      refine le_trans ?_ hM2
      exact (List.subperm_of_subset h2.nodup fun v hv => hM v ((hmain v).1 hv)).length_le
    have hbig : cfg.big (catCounts sc rows f.table.categories false) = false := by
      simp [CatStreamCfg.big, catCounts]; omega
    have hvc := (hmain v).2 hv
    obtain ⟨j, hj, hjv⟩ := List.getElem_of_mem hvc
    have hany : (cfg.removeMask (classCount false rows + classCount true rows) (catCounts sc rows f.table.categories false)
        (catCounts sc rows f.table.categories true)).any id = true := by
      unfold CatStreamCfg.removeMask
      rw [hbig]
      simp only [Bool.false_eq_true, if_false, pureMask, List.any_map]
      rw [List.any_eq_true]
      refine ⟨(catTarget sc rows v false, catTarget sc rows v true), ?_, ?_⟩
      · refine List.mem_iff_getElem.2 ⟨j, by simp [catCounts]; exact hj, ?_⟩
        simp [catCounts, hjv]
      · rw [groupCount_eq_sum sc (List.nodup_singleton v) (fun c hc => by rw [List.mem_singleton.1 hc]; exact hv.1.1)] at hp
        cases ev <;> simp_all
    rw [catPrebins, if_pos hany, if_pos (by simp [hk, hh, hbig])] at hpb
    simp at hpb
  · simp [hk, hh] at k5
  · exact k5

end

/-! ## examples -/

/-- How the examples are evaluated: everything but `_compute_cat_prebins` by computation. -/
theorem CWorld.solve_eval {cfg : CatStreamCfg} {solver : Solver} {w : CWorld κ} {i a b : ℕ} (ho : (w.objs[i]?).isSome = true)
    (h0 : w.total i false = some a) (h1 : w.total i true = some b) {items : List (κ × ℕ × ℕ)} {others : List κ}
    (hb : (catBins cfg.cutoff (a + b) (w.items i)).items = items) (hb2 : (catBins cfg.cutoff (a + b) (w.items i)).others = others) {pb : CatPrebins}
    (hp : catPrebins cfg (a + b) (catSplits items.length) (items.map fun t => t.2.1) (items.map fun t => t.2.2) = .ok pb) :
    ∃ f, w.solve cfg solver i = .ok f ∧ f.nPrebins = pb.splits.length + 1 ∧ f.table.categories = items.map Prod.fst ∧ f.table.others = others := by
  obtain ⟨o, ho⟩ := Option.isSome_iff_exists.1 ho
  subst hb
  unfold CWorld.solve
  rw [ho, h0, h1]
  simp only
  rw [hp]
  exact ⟨_, rfl, rfl, rfl, hb2⟩

def exCatStream : List (Rec ℕ) :=
  (List.replicate 3 ⟨some 1, some false, 1⟩) ++ [⟨some 1, some true, 1⟩, ⟨some 2, some false, 1⟩, ⟨some 2, some true, 1⟩, ⟨some 3, some false, 1⟩] ++
  (List.replicate 4 ⟨some 3, some true, 1⟩) ++ [⟨some 7, some true, 1⟩, ⟨none, some false, 1⟩, ⟨some 99, some true, 1⟩]

def exCatStreamOps : List (SkOp (Rec ℕ)) :=
  [.new, .new, .add 1 (exCatStream.take 6), .add 0 (exCatStream.drop 6), .merge 0 1]

def exCatStreamCfg : CatStreamCfg := { cutoff := some (1/10), maxPrebins := 20 }

/-- The hypotheses of C73 are met by a program with two objects, a merge, a rare category, a special and a missing value; there are three
pre-bins. -/
example : 0 < exCatStreamCfg.maxPrebins ∧ ¬ IsSpecialValue (.list [some 99] : SpecialCodes ℕ) none ∧
    Respects { div := fun _ _ => 0 } (exSolver fun _ _ => 0) ∧
    ownedAll (fun _ _ => true) exCatStreamOps = some [some (exCatStream.drop 6 ++ exCatStream.take 6), none] ∧
    ∃ f, (CWorld.run (.list [some 99]) exCatStreamOps).solve exCatStreamCfg (exSolver fun _ _ => 0) 0 = .ok f ∧ f.nPrebins = 3 ∧
      f.table.categories = [1, 2, 3] ∧ f.table.others = [7] := by
  refine ⟨by decide, by simp [IsSpecialValue], exSolver_respects _, by decide +kernel, ?_⟩
  refine CWorld.solve_eval (a := 6) (b := 8) (items := [(1, 3, 1), (2, 1, 1), (3, 1, 4)]) (by decide +kernel) (by decide +kernel) (by decide +kernel)
    (by decide +kernel) (by decide +kernel) (pb := ⟨catSplits 3, [3, 1, 1], [1, 1, 4]⟩) ?_
  rw [catPrebins, if_neg (by decide +kernel)]
  rfl

/-- One call of `_compute_cat_prebins` that removes something. -/
theorem catPrebins_step {cfg : CatStreamCfg} (hk : cfg.keepPure = false) {n : ℕ} {splits splits' : List ℚ} {nev ev nev' ev' : List ℕ}
    {rm : List Bool} (hr : cfg.removeMask n nev ev = rm) (h1 : rm.any id = true) (h2 : rm.length = splits.length + 1) (h3 : 0 < splits.length)
    (hs : select splits ((maskSplits false rm).map (!·)) = splits') (hn : regroupCounts splits' nev = nev') (he : regroupCounts splits' ev = ev') :
    catPrebins cfg n splits nev ev = catPrebins cfg n splits' nev' ev' := by
  rw [catPrebins]
  simp only [hk, Bool.false_and, Bool.false_eq_true, if_false, hr]
  rw [if_pos h1, if_neg (by omega), dif_pos ⟨h2, h3, h1⟩, hs, hn, he]

/-- C73 finding: three of these six categories have records of both classes, and the cut points of the first call separate four groups with
records; but the cut points are compared with positions in the shorter and shorter lists of groups, so that all of them are removed. -/
theorem C73_collapse :
    catPrebins {} 20 (catSplits 6) [1, 3, 3, 2, 0, 0] [0, 1, 2, 2, 3, 3] = .ok ⟨[], [9], [11]⟩ := by
  rw [catPrebins_step (rm := [true, false, false, false, true, true]) (splits' := [3/2, 5/2, 7/2]) (nev' := [4, 3, 2, 0]) (ev' := [1, 2, 2, 6]) rfl
      (by decide +kernel) (by decide) (by decide +kernel) (by decide) (by decide +kernel) (by decide +kernel) (by decide +kernel),
    catPrebins_step (rm := [false, false, false, true]) (splits' := [3/2, 5/2]) (nev' := [7, 2, 0]) (ev' := [3, 2, 6]) rfl
      (by decide +kernel) (by decide) (by decide +kernel) (by decide) (by decide +kernel) (by decide +kernel) (by decide +kernel),
    catPrebins_step (rm := [false, false, true]) (splits' := [3/2]) (nev' := [9, 0]) (ev' := [5, 6]) rfl
      (by decide +kernel) (by decide) (by decide +kernel) (by decide) (by decide +kernel) (by decide +kernel) (by decide +kernel),
    catPrebins_step (rm := [false, true]) (splits' := []) (nev' := [9]) (ev' := [11]) rfl
      (by decide +kernel) (by decide) (by decide +kernel) (by decide) (by decide +kernel) (by decide +kernel) (by decide +kernel),
    catPrebins, if_neg (by decide +kernel)]

/-- The records behind `C73_collapse`. -/
def exCollapse : List (Rec ℕ) :=
  [⟨some 1, some false, 1⟩] ++ List.replicate 3 ⟨some 2, some false, 1⟩ ++ [⟨some 2, some true, 1⟩] ++ List.replicate 3 ⟨some 3, some false, 1⟩ ++
  List.replicate 2 ⟨some 3, some true, 1⟩ ++ List.replicate 2 ⟨some 4, some false, 1⟩ ++ List.replicate 2 ⟨some 4, some true, 1⟩ ++
  List.replicate 3 ⟨some 5, some true, 1⟩ ++ List.replicate 3 ⟨some 6, some true, 1⟩ 

/-- C73 finding: all six categories end up in one bin, whatever the solver would have answered. -/
theorem C73_collapse_table (solver : Solver) :
    ∃ f, (CWorld.run .none [.new, .add 0 exCollapse]).solve {} solver 0 = .ok f ∧ f.nPrebins = 1 ∧ f.table.splits = [] ∧
      f.table.categories = [1, 2, 3, 4, 5, 6] := by
  obtain ⟨f, h1, h2, h3, h4⟩ := CWorld.solve_eval (solver := solver) (cfg := {}) (w := CWorld.run (.none : SpecialCodes ℕ) [.new, .add 0 exCollapse]) (i := 0)
    (a := 9) (b := 11)
    (items := [(1, 1, 0), (2, 3, 1), (3, 3, 2), (4, 2, 2), (5, 0, 3), (6, 0, 3)]) (by decide +kernel) (by decide +kernel) (by decide +kernel)
    (by decide +kernel) (others := []) (by decide +kernel) C73_collapse
  have hs : ownedAll (fun _ _ => true) ([.new, .add 0 exCollapse] : List (SkOp (Rec ℕ))) = some [some exCollapse] := by decide +kernel
  exact ⟨f, h1, h2, (C73_single_prebin (by decide) (by simp [IsSpecialValue]) hs rfl h1 h2 true).1, h3⟩

/-- C73 finding, a concrete case: the only category has two non-events and one event, the missing record is an event; the Event column adds up to 3. -/
theorem C73_double_counting (solver : Solver) :
    ∃ f, (CWorld.run .none ([.new, .add 0 [⟨some 1, some false, 1⟩, ⟨some 1, some true, 1⟩, ⟨none, some true, 1⟩]] : List (SkOp (Rec ℕ)))).solve {} solver 0 = .ok f ∧
      (f.table.column true).sum = 3 := by
  have hs : ownedAll (fun _ _ => true) ([.new, .add 0 [⟨some 1, some false, 1⟩, ⟨some 1, some true, 1⟩, ⟨none, some true, 1⟩]] : List (SkOp (Rec ℕ))) =
    some [some [⟨some 1, some false, 1⟩, ⟨some 1, some true, 1⟩, ⟨none, some true, 1⟩]] := by decide +kernel
  obtain ⟨f, h1, h2, h3, h4⟩ := CWorld.solve_eval (solver := solver) (cfg := {}) (i := 0) (a := 1) (b := 2)
    (w := CWorld.run .none ([.new, .add 0 [⟨some 1, some false, 1⟩, ⟨some 1, some true, 1⟩, ⟨none, some true, 1⟩]] : List (SkOp (Rec ℕ))))
    (items := [(1, 1, 1)]) (by decide +kernel) (by decide +kernel) (by decide +kernel)
    (by decide +kernel) (others := []) (by decide +kernel) (pb := ⟨[], [1], [1]⟩) (by rw [catPrebins, if_neg (by decide +kernel)]; rfl)
  refine ⟨f, h1, ?_⟩
  rw [(C73_single_prebin (by decide) (by simp [IsSpecialValue]) hs rfl h1 h2 true).2.2, h4]
  decide +kernel

/-- The hypotheses of C74 are met: two pure categories of the same class (`IndexError`), and a pure category with `divergence="hellinger"` and
`cat_heuristic=True` (`UnboundLocalError`). -/
example (solver : Solver) :
    (CWorld.run .none ([.new, .add 0 [⟨some 1, some false, 1⟩, ⟨some 2, some false, 1⟩]] : List (SkOp (Rec ℕ)))).solve {} solver 0 = .error "IndexError" ∧
    (CWorld.run .none ([.new, .add 0 [⟨some 1, some false, 1⟩, ⟨some 2, some false, 1⟩, ⟨some 2, some true, 1⟩]] : List (SkOp (Rec ℕ)))).solve
      { keepPure := true, heur := true } solver 0 = .error "UnboundLocalError" := by
  constructor
  · have hs : ownedAll (fun _ _ => true) ([.new, .add 0 [⟨some 1, some false, 1⟩, ⟨some 2, some false, 1⟩]] : List (SkOp (Rec ℕ))) =
      some [some [⟨some 1, some false, 1⟩, ⟨some 2, some false, 1⟩]] := by decide +kernel
    obtain ⟨h1, h2⟩ := C74_solvable (cfg := {}) (sc := .none) (solver := solver) (by decide) (by simp [IsSpecialValue]) hs (i := 0) rfl rfl
    refine h2 fun f hf => ?_
    rcases h1.1 ⟨f, hf⟩ with h | h
    · exact h 1 ⟨⟨by simp [IsSpecialValue], by simp⟩, by simp⟩
    · obtain ⟨r, h3, h4, -⟩ := h true
      simp only [List.mem_cons, List.not_mem_nil, or_false] at h3
      rcases h3 with rfl | rfl <;> simp at h4
  · have hs : ownedAll (fun _ _ => true) ([.new, .add 0 [⟨some 1, some false, 1⟩, ⟨some 2, some false, 1⟩, ⟨some 2, some true, 1⟩]] : List (SkOp (Rec ℕ))) =
      some [some [⟨some 1, some false, 1⟩, ⟨some 2, some false, 1⟩, ⟨some 2, some true, 1⟩]] := by decide +kernel
    refine C74_unbound (cfg := { keepPure := true, heur := true }) (sc := .none) (M := [1, 2]) (by decide) (by simp [IsSpecialValue]) hs rfl rfl rfl ?_ (by decide)
      (v := 1) ?_ (ev := true) (by decide +kernel)
    · intro v hv
      have := hv.1.2
      simp at this
      simp; omega
    · exact ⟨⟨by simp [IsSpecialValue], by simp⟩, by simp⟩

end OptBinning
