import Verif.Model.Xml.Parse
import Verif.Spec.Xml
/-!
# Character decoding of encoded text
-/
namespace Afs.Xml
open Afs Afs.Spec

theorem char_lt (c : Char) : c.toNat < 1114112 := by
  have h := c.valid
  simp only [UInt32.isValidChar, Nat.isValidChar] at h
  simp only [Char.toNat]
  omega

theorem or_192 : ∀ x < 32, 192 ||| x = 192 + x := by decide
theorem or_224 : ∀ x < 16, 224 ||| x = 224 + x := by decide
theorem or_240 : ∀ x < 8, 240 ||| x = 240 + x := by decide
theorem or_128 : ∀ x < 64, 128 ||| x = 128 + x := by decide

theorem addChar_eq (c : Char) : addChar c.toNat = String.utf8EncodeChar c := by
  have hc := char_lt c
  simp only [Char.toNat] at hc
  unfold addChar String.utf8EncodeChar
  simp only [Char.toNat]
  generalize c.val.toNat = v at *
  by_cases h1 : v < 128
  · simp [h1, Nat.lt_succ_iff.mp h1]
  · by_cases h2 : v < 2048
    · have : ¬ v ≤ 127 := by omega
      have h3 : v ≤ 2047 := by omega
      simp only [h1, h2, this, h3, if_true, if_false]
      rw [or_192 _ (by omega), or_128 _ (by omega)]
      rw [show 192 + v / 64 = v / 64 % 32 + 192 by omega, show 128 + v % 64 = v % 64 + 128 by omega]
    · by_cases h3 : v < 65536
      · have : ¬ v ≤ 127 := by omega
        have h4 : ¬ v ≤ 2047 := by omega
        have h5 : v ≤ 65535 := by omega
        simp only [h1, h2, h3, this, h4, h5, if_true, if_false]
        rw [or_224 _ (by omega), or_128 _ (by omega), or_128 _ (by omega)]
        rw [show 224 + v / 4096 = v / 4096 % 16 + 224 by omega,
          show 128 + v / 64 % 64 = v / 64 % 64 + 128 by omega, show 128 + v % 64 = v % 64 + 128 by omega]
      · have : ¬ v ≤ 127 := by omega
        have h4 : ¬ v ≤ 2047 := by omega
        have h5 : ¬ v ≤ 65535 := by omega
        simp only [h1, h2, h3, this, h4, h5, if_false]
        rw [or_240 _ (by omega), or_128 _ (by omega), or_128 _ (by omega), or_128 _ (by omega)]
        rw [show 240 + v / 262144 = v / 262144 % 8 + 240 by omega,
          show 128 + v / 4096 % 64 = v / 4096 % 64 + 128 by omega,
          show 128 + v / 64 % 64 = v / 64 % 64 + 128 by omega, show 128 + v % 64 = v % 64 + 128 by omega]

/-- What both `getc` functions do on well-formed text. -/
structure GoodDec (dec : Bytes → List (Option Nat)) : Prop where
  nil : dec [] = []
  char : ∀ (c : Char) (r : Bytes), Allowed c →
    dec (String.utf8EncodeChar c ++ r) = some c.toNat :: dec r

theorem u8 {n : Nat} (h : n < 256) : (UInt8.ofNat n).toNat = n := by
  simp [Nat.mod_eq_of_lt h]

theorem isCont_of (x : Nat) : isCont (UInt8.ofNat (x % 64 + 128)) = true := by
  have := u8 (n := x % 64 + 128) (by omega)
  simp only [isCont, this]
  simp; omega

theorem badChar_allowed {v : Nat} (h : 32 ≤ v ∨ v = 9 ∨ v = 10 ∨ v = 13) : badChar v = false := by
  unfold badChar
  rcases h with h | rfl | rfl | rfl
  · have : ¬ (v : Int) < 32 := by omega
    simp [this]
  · rfl
  · rfl
  · rfl

theorem good_decode : GoodDec decode where
  nil := rfl
  char := by
    intro c r hc
    have hv := char_lt c
    obtain ⟨h1, h2⟩ := hc
    simp only [Char.toNat] at hv h1 h2 ⊢
    unfold String.utf8EncodeChar
    generalize c.val.toNat = v at *
    by_cases a1 : v ≤ 127
    · simp only [a1, if_true, List.singleton_append]
      rw [decode.eq_def]
      simp only [u8 (show v < 256 by omega), show v < 128 by omega, if_true, badChar_allowed h1]
      simp
    · by_cases a2 : v ≤ 2047
      · simp only [a1, a2, if_true, if_false]
        simp only [List.cons_append, List.nil_append]
        rw [decode.eq_def]
        have e1 := u8 (show v / 64 % 32 + 192 < 256 by omega)
        have e2 := u8 (show v % 64 + 128 < 256 by omega)
        simp only [e1, e2, isCont_of, show ¬ v / 64 % 32 + 192 < 128 by omega,
          show 192 ≤ v / 64 % 32 + 192 ∧ v / 64 % 32 + 192 < 224 by omega, if_true, if_false]
        have e3 : (v / 64 % 32 + 192) % 32 * 64 + (v % 64 + 128) % 64 = v := by omega
        rw [e3]
        simp [show ¬ v < 128 by omega]
      · by_cases a3 : v ≤ 65535
        · simp only [a1, a2, a3, if_true, if_false]
          simp only [List.cons_append, List.nil_append]
          rw [decode.eq_def]
          have e1 := u8 (show v / 4096 % 16 + 224 < 256 by omega)
          have e2 := u8 (show v / 64 % 64 + 128 < 256 by omega)
          have e3 := u8 (show v % 64 + 128 < 256 by omega)
          simp only [e1, e2, e3, isCont_of, show ¬ v / 4096 % 16 + 224 < 128 by omega,
            show ¬ (192 ≤ v / 4096 % 16 + 224 ∧ v / 4096 % 16 + 224 < 224) by omega,
            show 224 ≤ v / 4096 % 16 + 224 ∧ v / 4096 % 16 + 224 < 240 by omega, if_true, if_false,
            and_self]
          have e4 : ((v / 4096 % 16 + 224) % 16 * 64 + (v / 64 % 64 + 128) % 64) * 64 +
              (v % 64 + 128) % 64 = v := by omega
          rw [e4]
          simp [show ¬ v < 2048 by omega, show ¬ v = 65279 by omega]
        · simp only [a1, a2, a3, if_false]
          simp only [List.cons_append, List.nil_append]
          rw [decode.eq_def]
          have e1 := u8 (show v / 262144 % 8 + 240 < 256 by omega)
          have e2 := u8 (show v / 4096 % 64 + 128 < 256 by omega)
          have e3 := u8 (show v / 64 % 64 + 128 < 256 by omega)
          have e4 := u8 (show v % 64 + 128 < 256 by omega)
          simp only [e1, e2, e3, e4, isCont_of, show ¬ v / 262144 % 8 + 240 < 128 by omega,
            show ¬ (192 ≤ v / 262144 % 8 + 240 ∧ v / 262144 % 8 + 240 < 224) by omega,
            show ¬ (224 ≤ v / 262144 % 8 + 240 ∧ v / 262144 % 8 + 240 < 240) by omega,
            show 240 ≤ v / 262144 % 8 + 240 ∧ v / 262144 % 8 + 240 < 248 by omega, if_true, if_false,
            and_self]
          have e5 : (((v / 262144 % 8 + 240) % 8 * 64 + (v / 4096 % 64 + 128) % 64) * 64 +
              (v / 64 % 64 + 128) % 64) * 64 + (v % 64 + 128) % 64 = v := by omega
          rw [e5]
          simp [show ¬ v < 65536 by omega]

theorem good_decodeFile : GoodDec decodeFile where
  nil := rfl
  char := by
    intro c r hc
    have hv := char_lt c
    obtain ⟨h1, h2⟩ := hc
    simp only [Char.toNat] at hv h1 h2 ⊢
    unfold String.utf8EncodeChar
    generalize c.val.toNat = v at *
    by_cases a1 : v ≤ 127
    · simp only [a1, if_true, List.singleton_append]
      rw [decodeFile.eq_def]
      simp only [u8 (show v < 256 by omega), show v < 128 by omega, if_true, badChar_allowed h1]
      simp
    · by_cases a2 : v ≤ 2047
      · simp only [a1, a2, if_true, if_false]
        simp only [List.cons_append, List.nil_append]
        rw [decodeFile.eq_def]
        have e1 := u8 (show v / 64 % 32 + 192 < 256 by omega)
        have e2 := u8 (show v % 64 + 128 < 256 by omega)
        simp only [e1, e2, isCont_of, show ¬ v / 64 % 32 + 192 < 128 by omega,
          show 192 ≤ v / 64 % 32 + 192 ∧ v / 64 % 32 + 192 < 224 by omega, if_true, if_false]
        have e3 : (v / 64 % 32 + 192) % 32 * 64 + (v % 64 + 128) % 64 = v := by omega
        rw [e3]
        simp [show ¬ v < 128 by omega]
      · by_cases a3 : v ≤ 65535
        · simp only [a1, a2, a3, if_true, if_false]
          simp only [List.cons_append, List.nil_append]
          rw [decodeFile.eq_def]
          have e1 := u8 (show v / 4096 % 16 + 224 < 256 by omega)
          have e2 := u8 (show v / 64 % 64 + 128 < 256 by omega)
          have e3 := u8 (show v % 64 + 128 < 256 by omega)
          simp only [e1, e2, e3, isCont_of, show ¬ v / 4096 % 16 + 224 < 128 by omega,
            show ¬ (192 ≤ v / 4096 % 16 + 224 ∧ v / 4096 % 16 + 224 < 224) by omega,
            show 224 ≤ v / 4096 % 16 + 224 ∧ v / 4096 % 16 + 224 < 240 by omega, if_true, if_false]
          have e4 : ((v / 4096 % 16 + 224) % 16 * 64 + (v / 64 % 64 + 128) % 64) * 64 +
              (v % 64 + 128) % 64 = v := by omega
          rw [e4]
          simp [show ¬ v < 2048 by omega, show ¬ v = 65279 by omega]
        · simp only [a1, a2, a3, if_false]
          simp only [List.cons_append, List.nil_append]
          rw [decodeFile.eq_def]
          have e1 := u8 (show v / 262144 % 8 + 240 < 256 by omega)
          have e2 := u8 (show v / 4096 % 64 + 128 < 256 by omega)
          have e3 := u8 (show v / 64 % 64 + 128 < 256 by omega)
          have e4 := u8 (show v % 64 + 128 < 256 by omega)
          simp only [e1, e2, e3, e4, isCont_of, show ¬ v / 262144 % 8 + 240 < 128 by omega,
            show ¬ (192 ≤ v / 262144 % 8 + 240 ∧ v / 262144 % 8 + 240 < 224) by omega,
            show ¬ (224 ≤ v / 262144 % 8 + 240 ∧ v / 262144 % 8 + 240 < 240) by omega,
            show 240 ≤ v / 262144 % 8 + 240 ∧ v / 262144 % 8 + 240 < 248 by omega, if_true, if_false]
          have e5 : (((v / 262144 % 8 + 240) % 8 * 64 + (v / 4096 % 64 + 128) % 64) * 64 +
              (v / 64 % 64 + 128) % 64) * 64 + (v % 64 + 128) % 64 = v := by omega
          rw [e5]
          simp [show ¬ v < 65536 by omega]

theorem cstr_of {s : Bytes} (h : ∀ b ∈ s, b ≠ 0) : cstr s = s := by
  unfold cstr
  induction s with
  | nil => rfl
  | cons b s ih =>
    rw [List.takeWhile_cons, if_pos (by simpa using h b (by simp)),
      ih (fun c hc => h c (by simp [hc]))]

theorem high_byte (x : Nat) : 128 ≤ (UInt8.ofNat (128 ||| x)).toNat := by
  rw [UInt8.toNat_ofNat']
  apply Nat.ge_two_pow_of_testBit (i := 7)
  rw [show (2 : Nat) ^ 8 = 2 ^ 8 from rfl, Nat.testBit_mod_two_pow]
  simp only [Nat.testBit_or]
  rw [show Nat.testBit 128 7 = true from by decide]
  simp

theorem addChar_print {c : Nat} (h : 32 ≤ c ∨ c = 9 ∨ c = 10 ∨ c = 13) :
    ∀ b ∈ addChar c, PrintableByte b := by
  have h192 : ∀ x, 192 ||| x = 128 ||| (64 ||| x) := fun x => by rw [← Nat.or_assoc]; rfl
  have h224 : ∀ x, 224 ||| x = 128 ||| (96 ||| x) := fun x => by rw [← Nat.or_assoc]; rfl
  have h240 : ∀ x, 240 ||| x = 128 ||| (112 ||| x) := fun x => by rw [← Nat.or_assoc]; rfl
  have hi : ∀ x, PrintableByte (UInt8.ofNat (128 ||| x)) := fun x => .inl (by have := high_byte x; omega)
  intro b hb
  unfold addChar at hb
  split at hb
  · rw [List.mem_singleton] at hb
    subst hb
    unfold PrintableByte
    rw [UInt8.toNat_ofNat']
    omega
  · split at hb
    · simp only [List.mem_cons, List.not_mem_nil, or_false] at hb
      rcases hb with rfl | rfl
      · rw [h192]; exact hi _
      · exact hi _
    · split at hb
      · simp only [List.mem_cons, List.not_mem_nil, or_false] at hb
        rcases hb with rfl | rfl | rfl
        · rw [h224]; exact hi _
        · exact hi _
        · exact hi _
      · simp only [List.mem_cons, List.not_mem_nil, or_false] at hb
        rcases hb with rfl | rfl | rfl | rfl
        · rw [h240]; exact hi _
        · exact hi _
        · exact hi _
        · exact hi _

theorem cstr_print {s : Bytes} (h : ∀ b ∈ s, PrintableByte b) : cstr s = s :=
  cstr_of fun b hb e => by
    have := h b hb
    rw [e] at this
    exact absurd this (by simp [PrintableByte])

theorem clean_print {s : Bytes} (h : Spec.CleanText s) : ∀ b ∈ s, PrintableByte b := by
  obtain ⟨cs, hc, rfl⟩ := h
  intro b hb
  obtain ⟨c, hcs, hb⟩ := List.mem_flatMap.mp hb
  rw [← addChar_eq] at hb
  exact addChar_print (hc c hcs).1 b hb

end Afs.Xml
