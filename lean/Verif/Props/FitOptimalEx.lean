import Verif.Props.FitOptimal

/-!
# C103: a fit with status OPTIMAL exists; the reported divergence is not maximal if records are missing
-/
namespace OptBinning
open Finset Spec

variable {α : Type*} [LinearOrder α]

/-- An optimum exists: the value depends on the finitely many binnings only. -/
theorem exists_best_mip {o : Opts} {inp : BinaryInput} {reg : ℝ} (hw : inp.Wf) (hg : o.gamma = false) (h : ∃ a, acceptsMIP o inp a) :
    ∃ a, acceptsMIP o inp a ∧ ∀ b, acceptsMIP o inp b → objectiveMIP o inp reg b ≤ objectiveMIP o inp reg a := by
  classical
  set P : (Fin inp.n → Bool) → Prop := fun s => ∃ a, acceptsMIP o inp a ∧ ∀ i : Fin inp.n, (a.x i i != 0) = s i with hP
  set V : (Fin inp.n → Bool) → ℝ := fun s => totalOverBins inp.n (fun k => if hk : k < inp.n then s ⟨k, hk⟩ else false)
    (binDivergence inp.div inp.n inp.ne inp.ev) with hV
  have hval : ∀ a, acceptsMIP o inp a → ∀ s : Fin inp.n → Bool, (∀ i : Fin inp.n, (a.x i i != 0) = s i) → objectiveMIP o inp reg a = V s := by
    intro a ha s hs
    rw [C17_objective_mip hw ha hg, hV]
    have e2 : binsOf inp.n (fun k => a.x k k != 0) = binsOf inp.n (fun k => if hk : k < inp.n then s ⟨k, hk⟩ else false) :=
      binsOf_congr fun k hk => by simp only [dif_pos hk]; exact hs ⟨k, hk⟩
    unfold totalOverBins
    rw [e2]
  obtain ⟨a₀, ha₀⟩ := h
  obtain ⟨s, hs, hmax⟩ := Finset.exists_max_image (univ.filter P) V ⟨fun i => a₀.x i i != 0, by simp [hP]; exact ⟨a₀, ha₀, fun _ => rfl⟩⟩
  obtain ⟨a, ha, has⟩ := (Finset.mem_filter.1 hs).2
  refine ⟨a, ha, fun b hb => ?_⟩
  rw [hval a ha s has, hval b hb (fun i => b.x i i != 0) fun _ => rfl]
  exact hmax _ (Finset.mem_filter.2 ⟨mem_univ _, b, hb, fun _ => rfl⟩)

open Classical in
/-- A solver which finds the optimum. -/
noncomputable def bestMIP (c : SolverCfg) : Solver := fun nev ev =>
  if h : ∃ a, acceptsMIP (c.opts nev ev) (c.input nev ev) a ∧ ∀ b, acceptsMIP (c.opts nev ev) (c.input nev ev) b →
      objectiveMIP (c.opts nev ev) (c.input nev ev) 0 b ≤ objectiveMIP (c.opts nev ev) (c.input nev ev) 0 a then
    .optimal (Classical.choose h)
  else .other "UNKNOWN"

theorem bestMIP_respects (c : SolverCfg) : RespectsMIP c 0 (bestMIP c) := by
  intro nev ev
  unfold bestMIP
  split_ifs with h
  · exact Classical.choose_spec h
  · exact ⟨by decide, by decide⟩

theorem bestMIP_optimal (c : SolverCfg) {nev ev : List ℕ} (hl : ev.length = nev.length) (hn : 0 < nev.length)
    (hg : (c.opts nev ev).gamma = false) (h : ∃ a, acceptsMIP (c.opts nev ev) (c.input nev ev) a) :
    (solve nev.length (bestMIP c nev ev)).1 = "OPTIMAL" := by
  unfold bestMIP
  rw [dif_pos (exists_best_mip ⟨hl, hn⟩ hg h)]
  rfl

theorem computePrebins_ok (cfg : PrebinCfg) (recs : List (Rec α)) (st : PrebinState α) (splits : List α) (hst : st.fixed = none) :
    ∃ pb, computePrebins cfg recs st splits = .ok pb := by
  induction hn : splits.length using Nat.strong_induction_on generalizing splits st with
  | _ n ih =>
    rw [computePrebins]
    simp only
    split_ifs with h0 h1 h2
    · exact ⟨_, rfl⟩
    · exact ⟨_, rfl⟩
    · simp only [hst]
      refine ih _ ?_ _ _ rfl rfl
      have h := maskSplits_any (c := cfg.catUser) (n := splits.length) (by omega) (by simp [pureMask, length_prebinCounts, prebinNumber]) h1
      have := length_select_lt h.1 h.2
      omega
    · exact ⟨_, rfl⟩

/-- The binning with one bin. -/
theorem one_bin {n : ℕ} (hn : 0 < n) : IsBinning n (fun k => decide (k = n - 1)) ∧ (∀ s e, IsBin n (fun k => decide (k = n - 1)) s e → s = 0 ∧ e = n - 1) ∧
    numBins n (fun k => decide (k = n - 1)) = 1 := by
  refine ⟨⟨hn, by simp⟩, ?_, ?_⟩
  · intro s e hb
    have he : e = n - 1 := by simpa using hb.2.2.1
    refine ⟨?_, he⟩
    rcases hb.2.2.2.1 with h | h
    · exact h
    · have : s - 1 = n - 1 := by simpa using h
      have := hb.1
      omega
  · unfold numBins
    rw [Finset.card_eq_one]
    refine ⟨n - 1, ?_⟩
    ext k
    simp only [mem_filter, mem_range, decide_eq_true_eq, mem_singleton]
    omega

/-- Non-vacuity of `C103_monotone_mip`: with any accepted arguments of this kind and any data, a solver which finds the optimum leads
to a fit with status OPTIMAL. -/
theorem C103_attained (p : Params) (hull : List ℚ → Option ℚ) (stale : Bool) (pv : ℕ → ℕ → ℕ → ℕ → ℝ) (sc : SpecialCodes α) (so : SplitOpts α)
    (prebin : List (Rec α) → List α) (recs : List (Rec α)) (hacc : checkParameters p = .ok ()) (hp : OnlyTrend p)
    (hd : p.divergence = .iv ∨ p.divergence = .js) (hg : p.gamma = .num 0) :
    ∃ solver f, RespectsMIP (p.cfg hull stale pv recs.length) 0 solver ∧ fitParams p sc so prebin solver recs = .ok f ∧ f.status = "OPTIMAL" := by
  have hk : p.divergence.keepsPure = false := by rcases hd with hd | hd <;> rw [hd] <;> rfl
  obtain ⟨pb, hpb⟩ := computePrebins_ok { keepPure := p.divergence.keepsPure, catUser := false } (splitData sc so recs).clean {} (prebin (splitData sc so recs).clean) rfl
  have hfit : ∃ f, fitParams p sc so prebin (bestMIP (p.cfg hull stale pv recs.length)) recs = .ok f ∧
      f.status = (fitOptimizer false (bestMIP (p.cfg hull stale pv recs.length)) pb.splits pb.nonevent pb.event).1 := by
    unfold fitParams
    rw [hacc]
    simp only [fitNumerical, fitFrom, fitCore, hpb, bind, Except.bind, pure, Except.pure]
    exact ⟨_, rfl, rfl⟩
  obtain ⟨f, hf, hst⟩ := hfit
  refine ⟨bestMIP (p.cfg hull stale pv recs.length), f, bestMIP_respects _, hf, ?_⟩
  · rw [hst]
    obtain ⟨-, hcase⟩ := computePrebins_spec _ _ _ _ _ hpb
    rcases hcase with ⟨h1, h2, h3⟩ | ⟨h1, h2, h3, -⟩
    · simp [fitOptimizer, h2]
    · simp only [prebinNumber, Bool.false_eq_true, if_false] at h2 h3
      have hlen : pb.nonevent.length = pb.splits.length + 1 := by rw [h2, length_prebinCounts]
      have hlen' : pb.event.length = pb.splits.length + 1 := by rw [h3, length_prebinCounts]
      have hpos : 0 < pb.splits.length := List.length_pos_iff.2 h1
      have hopt := options_none (n := recs.length) (stale := stale) hk (resolve_plain (Or.inr hp) hull pb.nonevent pb.event) pv
      unfold fitOptimizer
      rw [if_neg (by omega)]
      refine bestMIP_optimal _ (by omega) (by omega) (by rw [hopt]; simp [hg]) ?_
      rw [hopt]
      have hwf : ((p.cfg hull stale pv recs.length).input pb.nonevent pb.event).Wf := ⟨by show pb.event.length = pb.nonevent.length; omega, by show 0 < pb.nonevent.length; omega⟩
      obtain ⟨b1, b2, b3⟩ := one_bin (n := ((p.cfg hull stale pv recs.length).input pb.nonevent pb.event).n) hwf.2
      have hno : ∀ s e s' e', IsBin _ _ s e → IsBin _ _ s' e' → e < e' → False := fun s e s' e' h h' hlt => by
        have := b2 s e h; have := b2 s' e' h'; omega
      have hmax : ∀ b, p.maxBins = some b → (1 : ℤ) ≤ b := fun b hb => by
        have := (((C102_checks p).2.1 hacc).2 0 0).maxBins b hb; omega
      refine (acceptsMIP.complete_cuts (sol := fun k => decide (k = ((p.cfg hull stale pv recs.length).input pb.nonevent pb.event).n - 1)) hwf
        (by simp [SolverCfg.input, Params.cfg, hp.maxPvalue]) (by simp [SolverCfg.input, Params.cfg, hp.minRateDiff, XQ.value]) ?_ ?_).imp fun a h => h.1
      · exact ⟨b1, by simp [hp.minBins, AtLeast], fun b hb => by rw [b3]; exact_mod_cast hmax b (by simpa using hb), by simp [hp.minBinSize, AtLeast],
          by simp [hp.maxBinSize, AtMost], by simp [hp.minNonevent, AtLeast], by simp [hp.maxNonevent, AtMost], by simp [hp.minEvent, AtLeast],
          by simp [hp.maxEvent, AtMost], by
            rcases hp.trend with ht | ht <;> rw [ht]
            · exact fun s e s' e' h h' hlt => (hno s e s' e' h h' hlt).elim
            · exact fun s e s' e' h h' hlt => (hno s e s' e' h h' hlt).elim, by simp⟩
      · rcases hp.trend with ht | ht
        · exact Or.inl ⟨by simp only [ht]; rfl, fun k hk hs => by simp at hs; omega⟩
        · exact Or.inr ⟨by simp only [ht]; rfl, fun k hk hs => by simp at hs; omega⟩

end OptBinning
