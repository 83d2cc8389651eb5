import Verif.Model.Labels
import Verif.Spec.Labels
import Verif.Props.Fit
import Mathlib.Data.Nat.Digits.Lemmas
import Mathlib.Data.List.TakeWhile
import Mathlib.Tactic.Linarith
import Mathlib.Tactic.Ring
import Mathlib.Tactic.FieldSimp
import Mathlib.Tactic.IntervalCases

/-!
# C108: the labels of the bins
-/
namespace OptBinning
open Spec

/-! ### rounding -/

theorem roundEven_near {q : ℚ} (h : 0 ≤ q) : |(roundEven q : ℚ) - q| ≤ 1 / 2 := by
  have h1 := Nat.floor_le h
  have h2 := Nat.lt_floor_add_one q
  unfold roundEven
  simp only
  rw [abs_le]
  split_ifs <;> push_cast <;> constructor <;> linarith

theorem roundEven_nat (n : ℕ) : roundEven (n : ℚ) = n := by
  unfold roundEven
  simp

/-! ### digits -/

theorem digitValue_char {a : ℕ} (h : a < 10) : digitValue (Nat.digitChar a) = a ∧ Nat.digitChar a ≠ '.' ∧ Nat.digitChar a ≠ ',' ∧
    Nat.digitChar a ≠ '-' ∧ Nat.digitChar a ≠ 'i' := by
  interval_cases a <;> decide

theorem readDigits_append (l : List Char) (c : Char) : readDigits (l ++ [c]) = 10 * readDigits l + digitValue c := by
  simp [readDigits]

theorem readDigits_digits {ds : List ℕ} (h : ∀ a ∈ ds, a < 10) : readDigits (ds.reverse.map Nat.digitChar) = Nat.ofDigits 10 ds := by
  induction ds with
  | nil => rfl
  | cons a ds ih =>
    rw [List.reverse_cons, List.map_append, List.map_cons, List.map_nil, readDigits_append, ih fun b hb => h b (by simp [hb]),
      (digitValue_char (h a (by simp))).1, Nat.ofDigits_cons]
    ring

theorem digits_lt {n a : ℕ} (h : a ∈ Nat.digits 10 n) : a < 10 := Nat.digits_lt_base (by norm_num) h

theorem readDigits_zeros (k : ℕ) (l : List Char) : readDigits (List.replicate k '0' ++ l) = readDigits l := by
  induction k with
  | zero => rfl
  | succ k ih =>
    rw [List.replicate_succ, List.cons_append]
    exact ih

theorem readDigits_nat (n : ℕ) : readDigits (natText n) = n := by
  unfold natText
  split_ifs with h
  · rw [h]; rfl
  · rw [readDigits_digits fun a ha => digits_lt ha, Nat.ofDigits_digits]

theorem readDigits_pad (d n : ℕ) : readDigits (padText d n) = n := by
  unfold padText
  rw [readDigits_zeros, readDigits_digits fun a ha => digits_lt ha, Nat.ofDigits_digits]

theorem padText_length {d n : ℕ} (h : n < 10 ^ d) : (padText d n).length = d := by
  have : (Nat.digits 10 n).length ≤ d := by
    rcases Nat.eq_zero_or_pos n with rfl | hn
    · simp
    · rw [Nat.digits_len 10 n (by norm_num) (by omega)]
      have := (Nat.log_lt_iff_lt_pow (by norm_num) (by omega : n ≠ 0)).2 h
      omega
  unfold padText
  simp
  omega

/-- Characters of a printed number. -/
theorem natText_chars {n : ℕ} {c : Char} (h : c ∈ natText n) : c ≠ '.' ∧ c ≠ ',' ∧ c ≠ '-' ∧ c ≠ 'i' := by
  unfold natText at h
  split_ifs at h with h0
  · rw [List.mem_singleton] at h; rw [h]; decide
  · rw [List.mem_map] at h
    obtain ⟨a, ha, rfl⟩ := h
    exact (digitValue_char (digits_lt (List.mem_reverse.1 ha))).2

theorem padText_chars {d n : ℕ} {c : Char} (h : c ∈ padText d n) : c ≠ '.' ∧ c ≠ ',' ∧ c ≠ '-' ∧ c ≠ 'i' := by
  unfold padText at h
  rw [List.mem_append] at h
  rcases h with h | h
  · rw [(List.mem_replicate.1 h).2]; decide
  · rw [List.mem_map] at h
    obtain ⟨a, ha, rfl⟩ := h
    exact (digitValue_char (digits_lt (List.mem_reverse.1 ha))).2

theorem natText_ne (n : ℕ) : natText n ≠ [] := by
  unfold natText
  split_ifs with h
  · simp
  · simp [Nat.digits_ne_nil_iff_ne_zero, h]

theorem readUnsigned_text (d m : ℕ) :
    readUnsigned (natText (m / 10 ^ d) ++ (if d = 0 then [] else '.' :: padText d (m % 10 ^ d))) = (m : ℚ) / 10 ^ d := by
  have hn : ∀ c ∈ natText (m / 10 ^ d), (decide (c ≠ '.')) = true := fun c hc => by simp [(natText_chars hc).1]
  unfold readUnsigned
  rcases Nat.eq_zero_or_pos d with rfl | hd
  · simp only [if_true, List.append_nil, pow_zero, Nat.div_one] at hn ⊢
    rw [List.takeWhile_eq_self_iff.2 hn, List.dropWhile_eq_nil_iff.2 hn, readDigits_nat]
    simp [readDigits]
  · rw [if_neg (by omega)]
    have e1 : (natText (m / 10 ^ d) ++ '.' :: padText d (m % 10 ^ d)).takeWhile (· ≠ '.') = natText (m / 10 ^ d) := by
      rw [List.takeWhile_append_of_pos hn]
      simp
    have e2 : (natText (m / 10 ^ d) ++ '.' :: padText d (m % 10 ^ d)).dropWhile (· ≠ '.') = '.' :: padText d (m % 10 ^ d) := by
      rw [List.dropWhile_append_of_pos hn]
      simp
    simp only [e1, e2, List.drop_succ_cons, List.drop_zero]
    rw [readDigits_nat, readDigits_pad, padText_length (Nat.mod_lt _ (by positivity))]
    have := Nat.div_add_mod m (10 ^ d)
    have hp : (10 ^ d : ℚ) ≠ 0 := by positivity
    field_simp
    have h2 : ((10 ^ d * (m / 10 ^ d) + m % 10 ^ d : ℕ) : ℚ) = (m : ℚ) := by rw [this]
    push_cast at h2
    linarith

theorem readDecimal_fmt (d : ℕ) (q : ℚ) :
    readDecimal (fmtFixed d q) = (if q < 0 then -1 else 1) * ((roundEven (|q| * 10 ^ d) : ℚ) / 10 ^ d) := by
  unfold fmtFixed
  simp only
  split_ifs with h h0 h0
  · simp only [List.append_nil, List.cons_append, List.nil_append, readDecimal]
    have := readUnsigned_text d (roundEven (|q| * 10 ^ d))
    rw [if_pos h0, List.append_nil] at this
    rw [this]; ring
  · simp only [List.cons_append, List.nil_append, readDecimal]
    have := readUnsigned_text d (roundEven (|q| * 10 ^ d))
    rw [if_neg h0] at this
    rw [this]; ring
  · have hne : ∀ l, natText (roundEven (|q| * 10 ^ d) / 10 ^ d) ≠ '-' :: l := fun l hl =>
      (natText_chars (c := '-') (by rw [hl]; simp)).2.2.1 rfl
    have := readUnsigned_text d (roundEven (|q| * 10 ^ d))
    rw [if_pos h0, List.append_nil] at this
    rw [List.append_nil, List.nil_append, one_mul, ← this]
    generalize natText _ = t at hne ⊢
    unfold readDecimal
    split
    · exact absurd rfl (hne _)
    · rfl
  · have hne : ∀ l, natText (roundEven (|q| * 10 ^ d) / 10 ^ d) ++ '.' :: padText d (roundEven (|q| * 10 ^ d) % 10 ^ d) ≠ '-' :: l := fun l hl => by
      cases ht : natText (roundEven (|q| * 10 ^ d) / 10 ^ d) with
      | nil => exact natText_ne _ ht
      | cons c t =>
        rw [ht] at hl
        simp only [List.cons_append, List.cons.injEq] at hl
        exact (natText_chars (c := c) (by rw [ht]; simp)).2.2.1 hl.1
    have := readUnsigned_text d (roundEven (|q| * 10 ^ d))
    rw [if_neg h0] at this
    rw [List.nil_append, one_mul, ← this]
    generalize natText _ ++ _ = t at hne ⊢
    unfold readDecimal
    split
    · exact absurd rfl (hne _)
    · rfl

/-- C108: a printed number differs from the true one by at most half a unit of the last decimal; it is exact if the true number
has no more decimals than are shown. -/
theorem C108_printed (d : ℕ) (q : ℚ) :
    |readDecimal (fmtFixed d q) - q| ≤ halfUnit d ∧ (HasDecimals d q → readDecimal (fmtFixed d q) = q) := by
  have hp : (0 : ℚ) < 10 ^ d := by positivity
  have hq : q = (if q < 0 then -1 else 1) * |q| := by
    split_ifs with h
    · rw [abs_of_neg h]; ring
    · rw [abs_of_nonneg (not_lt.1 h)]; ring
  rw [readDecimal_fmt]
  constructor
  · have key := roundEven_near (q := |q| * 10 ^ d) (by positivity)
    have e : (if q < 0 then -1 else 1) * ((roundEven (|q| * 10 ^ d) : ℚ) / 10 ^ d) - q =
        (if q < 0 then -1 else 1) * (((roundEven (|q| * 10 ^ d) : ℚ) - |q| * 10 ^ d) / 10 ^ d) := by
      conv_lhs => rw [show (if q < 0 then (-1 : ℚ) else 1) * ((roundEven (|q| * 10 ^ d) : ℚ) / 10 ^ d) - q =
        (if q < 0 then (-1 : ℚ) else 1) * ((roundEven (|q| * 10 ^ d) : ℚ) / 10 ^ d) - (if q < 0 then -1 else 1) * |q| by rw [← hq]]
      field_simp
    rw [e, abs_mul, abs_div, abs_of_pos hp]
    have hs : |(if q < 0 then (-1 : ℚ) else 1)| = 1 := by split_ifs <;> simp
    rw [hs, one_mul]
    unfold halfUnit
    exact div_le_div_of_nonneg_right key hp.le
  · rintro ⟨z, hz⟩
    have hz' : |q| * 10 ^ d = ((z.natAbs : ℕ) : ℚ) := by
      rw [Nat.cast_natAbs, Int.cast_abs, ← hz, abs_mul, abs_of_pos hp]
    rw [hz', roundEven_nat, ← hz', mul_div_cancel_right₀ _ hp.ne']
    exact hq.symm

theorem digitChar_mem {a : ℕ} (h : a < 10) : Nat.digitChar a ∈ "0123456789.-".toList := by
  interval_cases a <;> decide

theorem natText_numeral {n : ℕ} {c : Char} (h : c ∈ natText n) : c ∈ "0123456789.-".toList := by
  unfold natText at h
  split_ifs at h with h0
  · rw [List.mem_singleton] at h; rw [h]; decide
  · rw [List.mem_map] at h
    obtain ⟨a, ha, rfl⟩ := h
    exact digitChar_mem (digits_lt (List.mem_reverse.1 ha))

theorem padText_numeral {d n : ℕ} {c : Char} (h : c ∈ padText d n) : c ∈ "0123456789.-".toList := by
  unfold padText at h
  rw [List.mem_append] at h
  rcases h with h | h
  · rw [(List.mem_replicate.1 h).2]; decide
  · rw [List.mem_map] at h
    obtain ⟨a, ha, rfl⟩ := h
    exact digitChar_mem (digits_lt (List.mem_reverse.1 ha))

theorem fmtFixed_numeral (d : ℕ) (q : ℚ) : Numeral (fmtFixed d q) := by
  unfold fmtFixed
  simp only
  refine ⟨by simp [natText_ne], fun c hc => ?_⟩
  rw [List.mem_append, List.mem_append] at hc
  rcases hc with (hc | hc) | hc
  · split_ifs at hc
    · rw [List.mem_singleton] at hc; rw [hc]; decide
    · cases hc
  · exact natText_numeral hc
  · split_ifs at hc
    · cases hc
    · rw [List.mem_cons] at hc
      rcases hc with rfl | hc
      · decide
      · exact padText_numeral hc

/-- The bounds printed in label number `k`. -/
def printedLo (d : ℕ) (splits : List ℚ) (k : ℕ) : Option ℚ := if k = 0 then none else some (readDecimal (fmtFixed d (splits.getD (k - 1) 0)))
/-- The bounds printed in label number `k`. -/
def printedHi (d : ℕ) (splits : List ℚ) (k : ℕ) : Option ℚ := if k < splits.length then some (readDecimal (fmtFixed d (splits.getD k 0))) else none

theorem binLabel_says (d : ℕ) (splits : List ℚ) (k : ℕ) : Says (binLabel d splits k) (printedLo d splits k) (printedHi d splits k) := by
  have hhi : ∀ b, b = (if k < splits.length then fmtFixed d (splits.getD k 0) else ['i', 'n', 'f']) →
      (printedHi d splits k = none → b = "inf".toList) ∧ (∀ q, printedHi d splits k = some q → Numeral b ∧ readDecimal b = q) := by
    rintro b rfl
    by_cases h : k < splits.length
    · have e : printedHi d splits k = some (readDecimal (fmtFixed d (splits.getD k 0))) := if_pos h
      rw [e, if_pos h]
      exact ⟨fun hc => (by cases hc), fun q hq => ⟨fmtFixed_numeral _ _, Option.some.inj hq⟩⟩
    · have e : printedHi d splits k = none := if_neg h
      rw [e, if_neg h]
      exact ⟨fun _ => rfl, fun q hq => by cases hq⟩
  by_cases h0 : k = 0
  · refine ⟨"-inf".toList, _, ?_, fun _ => rfl, fun q hq => ?_, hhi _ rfl⟩
    · unfold binLabel printedLo
      simp only [h0, if_true]
      rfl
    · simp [printedLo, h0] at hq
  · refine ⟨fmtFixed d (splits.getD (k - 1) 0), _, ?_, fun hc => ?_, fun q hq => ?_, hhi _ rfl⟩
    · unfold binLabel printedLo
      simp only [if_neg h0, reduceCtorEq, if_false]
      simp
    · simp [printedLo, h0] at hc
    · simp only [printedLo, if_neg h0, Option.some.injEq] at hq
      exact ⟨fmtFixed_numeral _ _, hq⟩

theorem binColumn_length (d : ℕ) (splits : List ℚ) (sc : SpecialCodes ℚ) : (binColumn d splits sc).length = splits.length + 1 + sc.count + 1 := by
  unfold binColumn
  cases sc <;> simp [extraLabels, SpecialCodes.count]
  omega

theorem binColumn_regular (d : ℕ) (splits : List ℚ) (sc : SpecialCodes ℚ) {k : ℕ} (h : k ≤ splits.length) :
    (binColumn d splits sc)[k]? = some (binLabel d splits k) := by
  unfold binColumn
  rw [List.getElem?_append_left (by simp; omega), List.getElem?_map, List.getElem?_range (by omega)]
  rfl

theorem binColumn_extra (d : ℕ) (splits : List ℚ) (sc : SpecialCodes ℚ) (i : ℕ) :
    (binColumn d splits sc)[splits.length + 1 + i]? = (extraLabels sc)[i]? := by
  unfold binColumn
  rw [List.getElem?_append_right (by simp)]
  simp

/-- C108: `show_digits` outside 0..8 is refused by the table and by `transform`; otherwise the column "Bin" has one label per row. -/
theorem C108_show_digits (d : ℤ) (splits : List ℚ) (sc : SpecialCodes ℚ) (xs : List (Option ℚ)) :
    (0 ≤ d ∧ d ≤ 8 → ∃ col ys, buildLabels d splits sc = .ok col ∧ col.length = splits.length + 1 + sc.count + 1 ∧
      transformBins d splits sc xs = .ok ys ∧ ys.length = xs.length) ∧
    (¬ (0 ≤ d ∧ d ≤ 8) → buildLabels d splits sc = .error "ValueError" ∧ transformBins d splits sc xs = .error "ValueError") := by
  unfold buildLabels transformBins checkShowDigits
  refine ⟨fun h => ?_, fun h => ?_⟩
  · simp only [if_pos h]
    exact ⟨_, _, rfl, binColumn_length _ _ _, rfl, by simp⟩
  · simp only [if_neg h, and_self]

/-- C108: the label given to a value by `transform(metric="bins")` is the entry "Bin" of the row of the table whose number
`transform(metric="indices")` gives for the same value. -/
theorem C108_same_row (d : ℤ) (hd : 0 ≤ d ∧ d ≤ 8) (f : Fitted ℚ) (sc : SpecialCodes ℚ) (hp : ProperCodes sc) (x : Option ℚ) :
    ∃ (k : ℕ) (L : List Char) (col : List (List Char)), buildLabels d f.splits sc = .ok col ∧ col[k]? = some L ∧
      transformIndices f sc .empirical .empirical [x] = [(k : ℤ)] ∧ transformBins d f.splits sc [x] = .ok [L] := by
  have hb : buildLabels d f.splits sc = .ok (binColumn d.toNat f.splits sc) := by simp only [buildLabels, checkShowDigits, if_pos hd]
  have ht : transformBins d f.splits sc [x] =
      .ok [transformOne f.splits sc (fun i => (binColumn d.toNat f.splits sc).getD i []) [] none none x] := by
    simp only [transformBins, checkShowDigits, if_pos hd, List.map_cons, List.map_nil]
  have hti : transformIndices f sc .empirical .empirical [x] = [transformOne f.splits sc (fun i => (i : ℤ)) (-1) none none x] := rfl
  have key : ∀ k : ℕ, k < (binColumn d.toNat f.splits sc).length → transformOne f.splits sc (fun i => (i : ℤ)) (-1) none none x = (k : ℤ) →
      transformOne f.splits sc (fun i => (binColumn d.toNat f.splits sc).getD i []) [] none none x = (binColumn d.toNat f.splits sc).getD k [] →
      ∃ (k : ℕ) (L : List Char) (col : List (List Char)), buildLabels d f.splits sc = .ok col ∧ col[k]? = some L ∧
      transformIndices f sc .empirical .empirical [x] = [(k : ℤ)] ∧ transformBins d f.splits sc [x] = .ok [L] := by
    intro k hk h1 h2
    refine ⟨k, (binColumn d.toNat f.splits sc).getD k [], _, hb, ?_, by rw [hti, h1], by rw [ht, h2]⟩
    rw [List.getD_eq_getElem _ _ hk, List.getElem?_eq_getElem hk]
  have hlen := binColumn_length d.toNat f.splits sc
  cases x with
  | none => exact key (f.splits.length + 1 + sc.count) (by omega) (transformOne_missing _ _ _ _ _ _) (transformOne_missing _ _ _ _ _ _)
  | some v =>
    by_cases hs : IsSpecialValue sc (some v)
    · cases sc with
      | none => exact absurd hs (by simp [IsSpecialValue])
      | list l => exact key (f.splits.length + 1) (by rw [hlen]; omega) (transformOne_list _ _ _ _ _ _ _ hs) (transformOne_list _ _ _ _ _ _ _ hs)
      | dict gs =>
        obtain ⟨g, hg, hv⟩ := hs
        obtain ⟨i, hi, rfl⟩ := List.getElem_of_mem hg
        exact key (f.splits.length + 1 + i) (by rw [hlen]; simp only [SpecialCodes.count]; omega) (transformOne_dict _ _ _ _ _ _ _ hp.2 hi hv) (transformOne_dict _ _ _ _ _ _ _ hp.2 hi hv)
    · have := digitize_le false f.splits (some v)
      exact key (digitize false f.splits (some v)) (by omega) (transformOne_clean _ _ _ _ _ _ _ hs) (transformOne_clean _ _ _ _ _ _ _ hs)

/-- C108: the label of a regular value names an interval that contains the value, up to half a unit of the last decimal shown, and
exactly if the splits have no more decimals than are shown.  Inner bounds are the splits of the bin, "-inf" and "inf" appear only in
the first and the last bin. -/
theorem C108_interval (d : ℤ) (hd : 0 ≤ d ∧ d ≤ 8) (splits : List ℚ) (hs : splits.Pairwise (· ≤ ·)) (sc : SpecialCodes ℚ) (v : ℚ)
    (hv : ¬ IsSpecialValue sc (some v)) :
    ∃ (k : ℕ) (L : List Char) (lo hi : Option ℚ), InInterval splits k v ∧ transformBins d splits sc [some v] = .ok [L] ∧ Says L lo hi ∧
      (lo = none ↔ k = 0) ∧ (hi = none ↔ k = splits.length) ∧
      (∀ a, lo = some a → ∃ s, splits[k - 1]? = some s ∧ Shown d.toNat a s ∧ a - halfUnit d.toNat ≤ v) ∧
      (∀ b, hi = some b → ∃ s, splits[k]? = some s ∧ Shown d.toNat b s ∧ v < b + halfUnit d.toNat) ∧
      ((∀ s ∈ splits, HasDecimals d.toNat s) → (∀ a, lo = some a → a ≤ v) ∧ ∀ b, hi = some b → v < b) := by
  have hin := (inInterval_iff hs v _).1 rfl
  set k := digitize false splits (some v) with hk
  have hkl : k ≤ splits.length := hin.1
  have hlo : ∀ a, printedLo d.toNat splits k = some a → ∃ s, splits[k - 1]? = some s ∧ s ≤ v ∧ Shown d.toNat a s := by
    intro a ha
    unfold printedLo at ha
    split_ifs at ha with h0
    have hlt : k - 1 < splits.length := by omega
    rw [List.getD_eq_getElem _ _ hlt] at ha
    refine ⟨splits[k - 1], List.getElem?_eq_getElem hlt, hin.2.1 _ (by omega) (List.getElem?_eq_getElem hlt), ?_⟩
    rw [← Option.some.inj ha]
    exact C108_printed _ _
  have hhi : ∀ b, printedHi d.toNat splits k = some b → ∃ s, splits[k]? = some s ∧ v < s ∧ Shown d.toNat b s := by
    intro b hb
    unfold printedHi at hb
    split_ifs at hb with h0
    rw [List.getD_eq_getElem _ _ h0] at hb
    refine ⟨splits[k], List.getElem?_eq_getElem h0, hin.2.2 _ (List.getElem?_eq_getElem h0), ?_⟩
    rw [← Option.some.inj hb]
    exact C108_printed _ _
  refine ⟨k, binLabel d.toNat splits k, printedLo d.toNat splits k, printedHi d.toNat splits k, hin, ?_, binLabel_says _ _ _, ?_, ?_, ?_, ?_, ?_⟩
  · simp only [transformBins, checkShowDigits, if_pos hd, List.map_cons, List.map_nil]
    rw [transformOne_clean _ _ _ _ _ _ _ hv, ← hk, List.getD_eq_getElem?_getD, binColumn_regular _ _ _ hkl]
    rfl
  · unfold printedLo; split_ifs with h <;> simp [h]
  · unfold printedHi; split_ifs with h
    · simp; omega
    · simp; omega
  · intro a ha
    obtain ⟨s, h1, h2, h3⟩ := hlo a ha
    refine ⟨s, h1, h3, ?_⟩
    have := (abs_le.1 h3.1).2
    linarith
  · intro b hb
    obtain ⟨s, h1, h2, h3⟩ := hhi b hb
    refine ⟨s, h1, h3, ?_⟩
    have := (abs_le.1 h3.1).1
    linarith
  · intro hdec
    constructor
    · intro a ha
      obtain ⟨s, h1, h2, h3⟩ := hlo a ha
      rw [h3.2 (hdec s (List.mem_of_getElem? h1))]; exact h2
    · intro b hb
      obtain ⟨s, h1, h2, h3⟩ := hhi b hb
      rw [h3.2 (hdec s (List.mem_of_getElem? h1))]; exact h2

/-- C108: special codes and missing values get the name of their group ("Special" without names) and "Missing". -/
theorem C108_special_missing (d : ℤ) (hd : 0 ≤ d ∧ d ≤ 8) (splits : List ℚ) :
    (∀ sc, transformBins d splits sc [none] = .ok ["Missing".toList]) ∧
    (∀ l v, some v ∈ l → transformBins d splits (.list l) [some v] = .ok ["Special".toList]) ∧
    (∀ (gs : List (String × List (Option ℚ))), ProperCodes (.dict gs) → ∀ g ∈ gs, ∀ v, some v ∈ g.2 →
      transformBins d splits (.dict gs) [some v] = .ok [g.1.toList]) := by
  have ht : ∀ sc x, transformBins d splits sc [x] =
      .ok [transformOne splits sc (fun i => (binColumn d.toNat splits sc).getD i []) [] none none x] := fun sc x => by
    simp only [transformBins, checkShowDigits, if_pos hd, List.map_cons, List.map_nil]
  refine ⟨fun sc => ?_, fun l v hl => ?_, fun gs hp g hg v hv => ?_⟩
  · rw [ht, transformOne_missing, Option.getD_none, List.getD_eq_getElem?_getD, binColumn_extra]
    cases sc with
    | none => rfl
    | list l => rfl
    | dict gs => simp [extraLabels, SpecialCodes.count]
  · have := binColumn_extra d.toNat splits (.list l) 0
    rw [ht, transformOne_list _ _ _ _ _ _ _ hl, Option.getD_none, List.getD_eq_getElem?_getD]
    rw [Nat.add_zero] at this
    rw [this]
    rfl
  · obtain ⟨i, hi, rfl⟩ := List.getElem_of_mem hg
    rw [ht, transformOne_dict _ _ _ _ _ _ _ hp.2 hi hv, Option.getD_none, List.getD_eq_getElem?_getD, binColumn_extra]
    simp [extraLabels, List.getElem?_append_left, hi]

theorem fmtFixed_no_comma (d : ℕ) (q : ℚ) : ∀ c ∈ fmtFixed d q, (decide (c ≠ ',')) = true := fun c hc => by
  have := (fmtFixed_numeral d q).2 c hc
  rw [decide_eq_true_iff]
  rintro rfl
  revert this
  decide

/-- C108: the labels of different bins differ if any two splits differ by more than a unit of the last decimal shown. -/
theorem C108_distinct (d : ℕ) (splits : List ℚ) (sc : SpecialCodes ℚ) (hs : splits.Pairwise fun a b => a + 1 / 10 ^ d < b) (j k : ℕ)
    (hjk : j < k) (hk : k ≤ splits.length) :
    ∃ L L', (binColumn d splits sc)[j]? = some L ∧ (binColumn d splits sc)[k]? = some L' ∧ L ≠ L' := by
  refine ⟨_, _, binColumn_regular d splits sc (by omega), binColumn_regular d splits sc hk, fun he => ?_⟩
  have hk0 : k ≠ 0 := by omega
  by_cases hj : j = 0
  · unfold binLabel at he
    simp [hj, hk0] at he
  · have key : ∀ i, i ≠ 0 → (binLabel d splits i).tail.takeWhile (· ≠ ',') = fmtFixed d (splits.getD (i - 1) 0) := fun i hi => by
      unfold binLabel
      simp only [if_neg hi, List.cons_append, List.nil_append, List.tail_cons, List.append_assoc]
      rw [List.takeWhile_append_of_pos (fmtFixed_no_comma _ _)]
      simp
    have h1 := key j hj
    have h2 := key k hk0
    rw [he, h2] at h1
    have hj' : j - 1 < splits.length := by omega
    have hk' : k - 1 < splits.length := by omega
    rw [List.getD_eq_getElem _ _ hj', List.getD_eq_getElem _ _ hk'] at h1
    have hlt := List.pairwise_iff_getElem.1 hs (j - 1) (k - 1) hj' hk' (by omega)
    have a1 := (abs_le.1 (C108_printed d splits[j - 1]).1)
    have a2 := (abs_le.1 (C108_printed d splits[k - 1]).1)
    rw [h1] at a2
    have : 2 * halfUnit d = 1 / 10 ^ d := by unfold halfUnit; ring
    linarith [a1.1, a1.2, a2.1, a2.2]

/-- Finding: with the default `show_digits=2` two different bins may have the same label, so that `transform(metric="bins")` merges
them, and a label may name an empty interval. -/
theorem C108_collision : buildLabels 2 [1 / 1000, 2 / 1000, 3 / 1000] .none =
    .ok ["(-inf, 0.00)".toList, "[0.00, 0.00)".toList, "[0.00, 0.00)".toList, "[0.00, inf)".toList, "Special".toList, "Missing".toList] := by
  decide +kernel

/-- A label with negative, rounded bounds; the values -1.005 and 0.5 get it. -/
example : transformBins 2 [-67 / 66, 5 / 9] (.list [some 9]) [some (-1005 / 1000), some (1 / 2), some 9, none] =
    .ok ["[-1.02, 0.56)".toList, "[-1.02, 0.56)".toList, "Special".toList, "Missing".toList] := by
  decide +kernel

example : ([-67 / 66, 5 / 9] : List ℚ).Pairwise (fun a b => a + 1 / 10 ^ 2 < b) ∧ ([-67 / 66, 5 / 9] : List ℚ).Pairwise (· ≤ ·) := by
  constructor <;> norm_num

example : ProperCodes (.dict [("a", [some 9]), ("b", [some 8])] : SpecialCodes ℚ) ∧ HasDecimals 2 (-67 / 20) :=
  ⟨⟨by simp [IsSpecialValue], by simp⟩, -335, by norm_num⟩

end OptBinning
