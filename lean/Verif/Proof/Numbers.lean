import Verif.Model.Numbers
/-! # Facts about printed numbers -/
namespace Afs

theorem decFuel_digits (fuel n : Nat) : ∀ c ∈ decFuel fuel n, isDigitByte c = true := by
  induction fuel generalizing n with
  | zero => simp [decFuel]
  | succ f ih =>
    have dig : ∀ k : Nat, k < 10 → isDigitByte (digitByte k) = true := by decide
    rw [decFuel]
    split
    · rename_i h
      intro c hc; simp at hc; subst hc; exact dig n h
    · intro c hc
      simp at hc
      rcases hc with hc | hc
      · exact ih _ c hc
      · subst hc; exact dig _ (by omega)

theorem readDigits_append (l : Bytes) (h : ∀ c ∈ l, isDigitByte c = true) (acc : Nat) (r : Bytes) :
    readDigits acc (l ++ r) = readDigits (readDigits acc l).1 r := by
  induction l generalizing acc with
  | nil => simp [readDigits]
  | cons c l ih =>
    have hc := h c (by simp)
    rw [List.cons_append, readDigits, readDigits, if_pos hc, if_pos hc]
    exact ih (fun c hc => h c (by simp [hc])) _

theorem digit_val (k : Nat) (h : k < 10) : (digitByte k).toNat - 48 = k := by
  have : ∀ k : Nat, k < 10 → (digitByte k).toNat - 48 = k := by decide
  exact this k h

theorem isDigit_ofNat (k : Nat) (h : k < 10) : isDigitByte (digitByte k) = true := by
  have : ∀ k : Nat, k < 10 → isDigitByte (digitByte k) = true := by decide
  exact this k h

theorem readDigits_decFuel (fuel n : Nat) (h : n < 10 ^ fuel) (hf : 0 < fuel) :
    readDigits 0 (decFuel fuel n) = (n, []) := by
  induction fuel generalizing n with
  | zero => omega
  | succ f ih =>
    rw [decFuel]
    split
    · rename_i h10
      simp [readDigits, isDigit_ofNat n h10, digit_val n h10]
    · rename_i h10
      have hf : 0 < f := by
        rcases Nat.eq_zero_or_pos f with rfl | hf
        · simp at h; omega
        · exact hf
      have hlt : n / 10 < 10 ^ f := by
        rw [Nat.pow_succ] at h
        exact Nat.div_lt_of_lt_mul (by rw [Nat.mul_comm]; exact h)
      rw [readDigits_append _ (decFuel_digits _ _), ih _ hlt hf]
      have hm : n % 10 < 10 := by omega
      simp [readDigits, isDigit_ofNat _ hm, digit_val _ hm]
      omega

theorem lt_ten_pow (n : Nat) : n < 10 ^ (n + 1) := by
  have : n < 2 ^ n := Nat.lt_two_pow_self
  have h1 : 2 ^ n ≤ 10 ^ n := Nat.pow_le_pow_left (by omega) n
  have h2 : 10 ^ n ≤ 10 ^ (n + 1) := Nat.pow_le_pow_right (by omega) (by omega)
  omega

theorem printNat_digits (n : Nat) : ∀ c ∈ printNat n, isDigitByte c = true := decFuel_digits _ _

theorem readDigits_printNat (n : Nat) : readDigits 0 (printNat n) = (n, []) :=
  readDigits_decFuel _ _ (lt_ten_pow n) (by omega)

theorem printNat_ne (n : Nat) : printNat n ≠ [] := by
  unfold printNat; rw [decFuel]; split <;> simp

theorem digit_not_space (c : UInt8) (h : isDigitByte c = true) :
    isSpaceByte c = false ∧ (c == 45) = false ∧ (c == 43) = false ∧ (c == 120) = false := by
  have key : ∀ c : UInt8, isDigitByte c = true →
    isSpaceByte c = false ∧ (c == 45) = false ∧ (c == 43) = false ∧ (c == 120) = false := by
    intro c hc
    unfold isDigitByte isSpaceByte at *
    simp [UInt8.le_iff_toNat_le] at hc ⊢
    refine ⟨⟨?_, ?_⟩, ?_, ?_, ?_⟩
    · rintro rfl; simp at hc
    · omega
    · rintro rfl; simp at hc
    · rintro rfl; simp at hc
    · rintro rfl; simp at hc
  exact key c h

/-- Zeros in front of a number do not change it. -/
theorem readDigits_zeros (k : Nat) (r : Bytes) : readDigits 0 (List.replicate k 48 ++ r) = readDigits 0 r := by
  induction k with
  | zero => simp
  | succ k ih =>
    rw [List.replicate_succ, List.cons_append, readDigits, if_pos (by decide)]
    simpa using ih

/-- Unsigned digits followed by something that is no digit. -/
theorem readSigned_digits {d r : Bytes} (hd : ∀ c ∈ d, isDigitByte c = true) (hne : d ≠ [])
    (hr : ∀ c, r.head? = some c → isDigitByte c = false) :
    readSigned (d ++ r) = some (false, (readDigits 0 d).1, r) := by
  cases d with
  | nil => exact absurd rfl hne
  | cons c d =>
    have hc := digit_not_space c (hd c (by simp))
    have hrest : readDigits 0 ((c :: d) ++ r) = ((readDigits 0 (c :: d)).1, r) := by
      rw [readDigits_append _ hd]
      cases r with
      | nil => simp [readDigits]
      | cons x r => rw [readDigits, if_neg (by simp [hr x rfl])]
    simp only [List.cons_append] at hrest
    simp [readSigned, skipSpace, hc.1, hc.2.1, hc.2.2.1, hd c (by simp), hrest]

theorem readSigned_neg {d : Bytes} (hd : ∀ c ∈ d, isDigitByte c = true) (hne : d ≠ []) :
    readSigned (45 :: d) = some (true, (readDigits 0 d).1, []) := by
  cases d with
  | nil => exact absurd rfl hne
  | cons c d =>
    have hrest : readDigits 0 (c :: d) = ((readDigits 0 (c :: d)).1, []) := by
      have := readDigits_append _ hd 0 []
      rw [List.append_nil] at this
      conv => lhs; rw [this]
      simp [readDigits]
    unfold readSigned
    rw [skipSpace, if_neg (by decide)]
    simp only [beq_self_eq_true, Bool.true_or, if_true]
    rw [if_pos (hd c (by simp))]
    rw [hrest]

theorem strtol_printInt (i : Int) (h1 : -9223372036854775808 ≤ i) (h2 : i ≤ 9223372036854775807) :
    strtol (printInt i) = i := by
  unfold printInt strtol
  by_cases h : i < 0
  · rw [if_pos h, readSigned_neg (printNat_digits _) (printNat_ne _), readDigits_printNat]
    simp only [if_true]
    rw [if_pos (by omega)]; omega
  · have := readSigned_digits (printNat_digits i.natAbs) (printNat_ne _) (r := []) (by simp)
    rw [List.append_nil] at this
    rw [if_neg h, this, readDigits_printNat]
    simp only [Bool.false_eq_true, if_false]
    rw [if_pos (by omega)]; omega

theorem intOfLong_id (i : Int) (h1 : INT_MIN ≤ i) (h2 : i ≤ INT_MAX) : intOfLong i = i := by
  unfold INT_MIN INT_MAX at *
  unfold intOfLong intOfU uOfInt two32
  by_cases h : 0 ≤ i
  · rw [show (i % ((4294967296 : Nat) : Int)).toNat = i.toNat by omega, if_pos (by omega)]; omega
  · rw [show (i % ((4294967296 : Nat) : Int)).toNat = (i + 4294967296).toNat by omega, if_neg (by omega)]; omega

theorem atoi_printInt (i : Int) (h1 : INT_MIN ≤ i) (h2 : i ≤ INT_MAX) : atoi (printInt i) = i := by
  unfold atoi
  rw [strtol_printInt i (by unfold INT_MIN at h1; omega) (by unfold INT_MAX at h2; omega), intOfLong_id i h1 h2]

theorem printInt_nat (n : Nat) : printInt n = printNat n := by
  unfold printInt
  rw [if_neg (by omega)]; simp

theorem uOfInt_intOfLong (n : Nat) (h : n < two32) : uOfInt (intOfLong n) = n := by
  unfold two32 at h
  unfold intOfLong uOfInt intOfU two32
  rw [show (((n : Int)) % ((4294967296 : Nat) : Int)).toNat = n by omega]
  split <;> omega

/-- `%u` read back with `atoi` into an `unsigned int`. -/
theorem uOfInt_atoi_printNat (n : Nat) (h : n < two32) : uOfInt (atoi (printNat n)) = n := by
  unfold atoi
  rw [← printInt_nat, strtol_printInt _ (by unfold two32 at h; omega) (by unfold two32 at h; omega)]
  exact uOfInt_intOfLong n h

theorem strtol_printInt06 (i : Int) (h1 : -9223372036854775808 ≤ i) (h2 : i ≤ 9223372036854775807) :
    strtol (printInt06 i) = i := by
  unfold printInt06 strtol
  by_cases h : i < 0
  · rw [if_pos h, readSigned_neg, readDigits_zeros, readDigits_printNat]
    · simp only [if_true]
      rw [if_pos (by omega)]; omega
    · intro c hc
      rcases List.mem_append.mp hc with hc | hc
      · rw [(List.mem_replicate.mp hc).2]; decide
      · exact printNat_digits _ c hc
    · simp [printNat_ne]
  · have := readSigned_digits (d := List.replicate (6 - (printNat i.natAbs).length) 48 ++ printNat i.natAbs)
      (r := []) ?_ (by simp [printNat_ne]) (by simp)
    · rw [List.append_nil] at this
      rw [if_neg h, this, readDigits_zeros, readDigits_printNat]
      simp only [Bool.false_eq_true, if_false]
      rw [if_pos (by omega)]; omega
    · intro c hc
      rcases List.mem_append.mp hc with hc | hc
      · rw [(List.mem_replicate.mp hc).2]; decide
      · exact printNat_digits _ c hc

theorem atoi_printInt06 (i : Int) (h1 : INT_MIN ≤ i) (h2 : i ≤ INT_MAX) : atoi (printInt06 i) = i := by
  unfold atoi
  rw [strtol_printInt06 i (by unfold INT_MIN at h1; omega) (by unfold INT_MAX at h2; omega), intOfLong_id i h1 h2]

theorem scanU_print (n : Nat) (h : n < two32) (r : Bytes) (hr : ∀ c, r.head? = some c → isDigitByte c = false) :
    scanU (printNat n ++ r) = some (n, r) := by
  unfold scanU
  rw [readSigned_digits (printNat_digits n) (printNat_ne n) hr, readDigits_printNat]
  unfold two32 at h
  simp only [Bool.false_eq_true, if_false]
  rw [if_pos (by omega)]
  unfold u32 two32
  rw [Nat.mod_eq_of_lt h]

/-- `%ux%u` read back. -/
theorem scanUxU_print (x y : Nat) (hx : x < two32) (hy : y < two32) :
    scanUxU (printNat x ++ [120] ++ printNat y) = some (x, y) := by
  unfold scanUxU
  rw [List.append_assoc, scanU_print x hx _ (by simp; decide)]
  have := scanU_print y hy [] (by simp)
  rw [List.append_nil] at this
  simp [this]

end Afs
