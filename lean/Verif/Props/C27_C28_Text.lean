import Mathlib.Tactic.Tauto
import Verif.Proof.Numbers
import Verif.Proof.Trim
import Verif.Spec.Save
import Verif.Spec.Decimal
/-!
# C27 numbers survive printing and parsing; C28 trimming keeps content
-/
namespace Afs
open Spec

/-! ### C27 -/

theorem readDigits_value (s : Bytes) (h : ∀ c ∈ s, isDigitByte c = true) (acc : Nat) :
    readDigits acc s = (s.foldl (fun v c => v * 10 + (c.toNat - 48)) acc, []) := by
  induction s generalizing acc with
  | nil => rfl
  | cons c s ih =>
    rw [readDigits, if_pos (h c (by simp)), ih (fun x hx => h x (by simp [hx]))]; rfl

theorem decFuel_head (fuel n : Nat) (hn : 0 < n) (hf : n < 10 ^ fuel) : (decFuel fuel n).head? ≠ some 48 := by
  induction fuel generalizing n with
  | zero => omega
  | succ f ih =>
    rw [decFuel]
    split
    · rename_i h
      have : ∀ k : Nat, k < 10 → 0 < k → digitByte k ≠ 48 := by decide
      simpa using this n h hn
    · rename_i h
      have h1 := ih (n / 10) (by omega) (by
        rw [Nat.pow_succ] at hf
        omega)
      have hne : decFuel f (n / 10) ≠ [] := by
        cases f with
        | zero => simp at hf; omega
        | succ f => rw [decFuel]; split <;> simp
      cases hd : decFuel f (n / 10) with
      | nil => exact absurd hd hne
      | cons x xs => rw [hd] at h1; simpa using h1

theorem digit_range {c : UInt8} (h : isDigitByte c = true) : 48 ≤ c ∧ c ≤ 57 := by
  unfold isDigitByte at h
  simpa using h

/-- `%u` prints the decimal numeral of the number. -/
theorem C27_print_is_decimal (n : Nat) : Decimal n (printNat n) := by
  refine ⟨printNat_ne n, fun c hc => digit_range (printNat_digits n c hc), ?_, ?_⟩
  · have h := readDigits_value (printNat n) (printNat_digits n) 0
    rw [readDigits_printNat] at h
    exact (congrArg Prod.fst h).symm
  · intro h
    by_cases hn : n = 0
    · subst hn; rfl
    · exact absurd h (decFuel_head _ _ (by omega) (lt_ten_pow n))

/-- Every `int` printed with `%d` reads back as itself with `atoi`. -/
theorem C27_int (i : Int) (h : IsInt i) : atoi (printInt i) = i := atoi_printInt i h.1 h.2

/-- Every `int` printed with `%06d` reads back as itself with `atoi`. -/
theorem C27_int06 (i : Int) (h : IsInt i) : atoi (printInt06 i) = i := atoi_printInt06 i h.1 h.2

/-- `%06d` has at least six characters. -/
theorem C27_int06_width (i : Int) : 6 ≤ (printInt06 i).length := by
  unfold printInt06
  split <;> simp <;> omega

/-- Every `unsigned` printed with `%u` reads back as itself with `(unsigned)atoi`, also above
    2^31, where `atoi` by itself is negative. -/
theorem C27_unsigned (n : Nat) (h : IsUInt n) : uOfInt (atoi (printNat n)) = n := uOfInt_atoi_printNat n h

/-- Every 64-bit number printed with `%lld` reads back as itself with `strtol`. -/
theorem C27_int64 (i : Int) (h : IsInt64 i) : strtol (printInt i) = i := strtol_printInt i h.1 h.2

/-- Every pair printed with `%ux%u` reads back as itself. -/
theorem C27_pair (x y : Nat) (hx : IsUInt x) (hy : IsUInt y) :
    scanUxU (printNat x ++ b! "x" ++ printNat y) = some (x, y) := scanUxU_print x y hx hy

/-- Different numbers are printed differently. -/
theorem C27_injective (i j : Int) (hi : IsInt64 i) (hj : IsInt64 j) (h : printInt i = printInt j) : i = j := by
  rw [← C27_int64 i hi, ← C27_int64 j hj, h]

/-- Reading skips leading white space: an `int` in an indented XML text reads the same. -/
theorem C27_leading_space (i : Int) (h : IsInt i) (ws : Bytes) (hw : ∀ c ∈ ws, c = 32 ∨ c = 10 ∨ c = 13) :
    atoi (ws ++ printInt i) = i := by
  have key : skipSpace (ws ++ printInt i) = skipSpace (printInt i) := by
    induction ws with
    | nil => rfl
    | cons c ws ih =>
      rw [List.cons_append, skipSpace, if_pos, ih (fun c hc => hw c (by simp [hc]))]
      rcases hw c (by simp) with rfl | rfl | rfl <;> decide
  have h2 : atoi (ws ++ printInt i) = atoi (printInt i) := by
    unfold atoi strtol readSigned
    rw [key]
  exact h2.trans (C27_int i h)

/-- The result of `atoi` is always an `int`, whatever the text. -/
theorem C27_atoi_range (s : Bytes) : IsInt (atoi s) := by
  unfold atoi intOfLong intOfU uOfInt IsInt two32
  have : (strtol s % ((4294967296 : Nat) : Int)).toNat < 4294967296 := by omega
  split <;> omega

/-- A text that is no number reads as 0 — not as an error. -/
theorem C27_not_a_number (s : Bytes) (h : ∀ c ∈ s, ¬ (48 ≤ c ∧ c ≤ 57)) : atoi s = 0 := by
  have hsk : ∀ t : Bytes, (∀ c ∈ t, ¬ (48 ≤ c ∧ c ≤ 57)) → ∀ c ∈ skipSpace t, ¬ (48 ≤ c ∧ c ≤ 57) := by
    intro t
    induction t with
    | nil => simp [skipSpace]
    | cons c t ih =>
      intro ht
      rw [skipSpace]
      split
      · exact ih (fun x hx => ht x (by simp [hx]))
      · exact ht
  have hs := hsk s h
  have hr : readSigned s = none := by
    unfold readSigned
    cases he : skipSpace s with
    | nil => rfl
    | cons c cs =>
      rw [he] at hs
      simp only
      generalize hb : (if (c == 45 || c == 43) = true then cs else c :: cs) = body
      have hbody : ∀ x ∈ body, ¬ (48 ≤ x ∧ x ≤ 57) := by
        subst hb
        split
        · exact fun x hx => hs x (by simp [hx])
        · exact hs
      cases body with
      | nil => rfl
      | cons d ds =>
        simp only
        rw [if_neg]
        intro hd
        exact hbody d (by simp) (digit_range hd)
  unfold atoi strtol
  rw [hr]
  decide

/-- A decimal number that does not fit 64 bits reads as the nearest number that does. -/
theorem C27_int64_saturates (i : Int) :
    strtol (printInt i) = if i > 9223372036854775807 then 9223372036854775807
      else if i < -9223372036854775808 then -9223372036854775808 else i := by
  by_cases h : i < 0
  · rw [printInt, if_pos h, strtol, readSigned_neg (printNat_digits _) (printNat_ne _)]
    simp only [readDigits_printNat, if_true]
    split <;> split <;> try split
    all_goals omega
  · have := readSigned_digits (r := []) (printNat_digits i.natAbs) (printNat_ne _) (by simp)
    rw [List.append_nil] at this
    rw [printInt, if_neg h, strtol, this]
    simp only [readDigits_printNat]
    rw [if_neg (by simp)]
    split <;> split <;> try split
    all_goals omega

example : strtol (b! "9223372036854775808") = 9223372036854775807 := by decide

/-- Numbers outside the `int` range do not survive `atoi`: 2^32 + 7 reads as 7. -/
theorem C27_overflow_wraps : atoi (b! "4294967303") = 7 := by decide

/-- Non-trivial instances: the extreme values. -/
example : atoi (printInt (-2147483648)) = -2147483648 ∧ atoi (printInt06 (-42)) = -42 ∧
    printInt06 (-42) = b! "-00042" ∧ printInt06 1234567 = b! "1234567" ∧
    uOfInt (atoi (b! "4294967295")) = 4294967295 ∧ scanUxU (b! "640x480") = some (640, 480) := by
  refine ⟨C27_int _ (by decide), C27_int06 _ (by decide), ?_, ?_, ?_, ?_⟩ <;> decide +kernel

/-! ### C28 -/

/-- Characters that are trimmed. -/
def Spec.Blank (c : UInt8) : Prop := c = 32 ∨ c = 10 ∨ c = 13

theorem isTrimByte_iff (c : UInt8) : isTrimByte c = true ↔ Blank c := by
  unfold isTrimByte Blank
  simp only [Bool.or_eq_true, beq_iff_eq]
  tauto

theorem noEnds_trimmed {s : Bytes} (h : NoEnds s) : Trimmed s := by
  intro c hc
  have : isTrimByte c = false := hc.elim (h.1 c) (h.2 c)
  have hn : ¬ Blank c := fun hb => by rw [(isTrimByte_iff c).mpr hb] at this; cases this
  unfold Blank at hn
  tauto

/-- Trimming takes blanks off both ends and nothing else, and takes them all. -/
theorem C28_trim (s : Bytes) : ∃ a b, s = a ++ stringTrim s ++ b ∧ (∀ c ∈ a, Blank c) ∧ (∀ c ∈ b, Blank c) ∧
    Trimmed (stringTrim s) := by
  obtain ⟨a, b, h1, h2, h3, h4⟩ := stringTrim_spec s
  exact ⟨a, b, h1, fun c hc => (isTrimByte_iff c).mp (h2 c hc), fun c hc => (isTrimByte_iff c).mp (h3 c hc),
    noEnds_trimmed h4⟩

theorem trimmed_noEnds' {s : Bytes} (h : Trimmed s) : NoEnds s := by
  constructor
  · intro c hc
    have := h c (.inl hc)
    simp [isTrimByte, this]
  · intro c hc
    have := h c (.inr hc)
    simp [isTrimByte, this]

/-- The result is determined by that: whatever trimmed text sits between blanks is the result. -/
theorem C28_trim_unique (a t b : Bytes) (ha : ∀ c ∈ a, Blank c) (hb : ∀ c ∈ b, Blank c) (ht : Trimmed t) :
    stringTrim (a ++ t ++ b) = t :=
  trim_unique rfl (fun c hc => (isTrimByte_iff c).mpr (ha c hc)) (fun c hc => (isTrimByte_iff c).mpr (hb c hc))
    (trimmed_noEnds' ht)

/-- Trimming twice is trimming once. -/
theorem C28_idempotent (s : Bytes) : stringTrim (stringTrim s) = stringTrim s := by
  obtain ⟨_, _, _, _, _, h⟩ := C28_trim s
  simpa using C28_trim_unique [] (stringTrim s) [] (by simp) (by simp) h

/-- A text without blanks at its ends is kept; a blank inside is kept too. -/
theorem C28_keeps (s : Bytes) (h : Trimmed s) : stringTrim s = s := by
  simpa using C28_trim_unique [] s [] (by simp) (by simp) h

/-- Indenting a text does not change what is read. -/
theorem C28_indent (s a b : Bytes) (ha : ∀ c ∈ a, Blank c) (hb : ∀ c ∈ b, Blank c) :
    stringTrim (a ++ s ++ b) = stringTrim s := by
  obtain ⟨a', b', h1, h2, h3, h4⟩ := C28_trim s
  have := C28_trim_unique (a ++ a') (stringTrim s) (b' ++ b)
    (fun c hc => (List.mem_append.mp hc).elim (ha c) (h2 c))
    (fun c hc => (List.mem_append.mp hc).elim (h3 c) (hb c)) h4
  rw [← this]
  congr 1
  conv => lhs; rw [h1]
  simp

/-- Cutting keeps exactly the characters from `i` to before `j`. -/
theorem C28_cut (s : Bytes) (i j : Nat) (h1 : i ≤ j) (h2 : j ≤ s.length) :
    stringCut s i j = (s.take j).drop i := stringCut_eq s i j h1 h2

/-- Cutting at positions outside the text leaves the text alone — except an empty range, which
    empties it wherever it lies. -/
theorem C28_cut_outside (s : Bytes) (i j : Nat) (h : i > j ∨ (i ≠ j ∧ (i ≥ s.length ∨ j > s.length))) :
    stringCut s i j = s := by
  unfold stringCut
  rcases h with h | ⟨h1, h2⟩
  · rw [if_pos h]
  · by_cases h3 : i > j
    · rw [if_pos h3]
    · rw [if_neg h3, if_neg h1, if_pos h2]

/-- A tab is no blank: it stays. -/
example : stringTrim (b! " \n a b\t\r\n") = b! "a b\t" := by decide +kernel

end Afs
