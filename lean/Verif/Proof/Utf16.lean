import Verif.Proof.XmlBytes
import Verif.Spec.Utf16
import Verif.Proof.XmlParse
/-!
# Reading UTF-16 files
-/
namespace Afs.Xml
open Afs Afs.Spec

theorem unit16_bytes (be : Bool) {u : Nat} (hu : u < 65536) (r : Bytes) :
    units16 be (unitBytes be u ++ r) = some u :: units16 be r := by
  have h1 : (UInt8.ofNat (u / 256)).toNat = u / 256 := u8 (by omega)
  have h2 : (UInt8.ofNat (u % 256)).toNat = u % 256 := u8 (by omega)
  cases be with
  | true =>
    simp only [unitBytes, if_true, List.cons_append, List.nil_append, units16, unit16, h1, h2]
    congr 2; omega
  | false =>
    simp only [unitBytes, if_false, List.cons_append, List.nil_append, units16, unit16, h1, h2, Bool.false_eq_true]
    congr 2; omega

theorem units16_all (be : Bool) : ∀ (us : List Nat), (∀ u ∈ us, u < 65536) →
    units16 be (us.flatMap (unitBytes be)) = us.map some
  | [], _ => rfl
  | u :: us, h => by
    rw [List.flatMap_cons, unit16_bytes be (h u (by simp)), units16_all be us (fun x hx => h x (by simp [hx]))]
    rfl

theorem codeUnits_lt (c : Char) : ∀ u ∈ codeUnits c, u < 65536 := by
  have := char_lt c
  unfold codeUnits
  split
  · simp; omega
  · simp only [List.mem_cons, List.not_mem_nil, or_false]
    rintro u (h | h) <;> omega

theorem char_not_surrogate (c : Char) : c.toNat < 55296 ∨ 57343 < c.toNat := by
  have h := c.valid
  simp only [UInt32.isValidChar, Nat.isValidChar] at h
  simp only [Char.toNat]
  omega

theorem badUnit_ok {v : Nat} (h : 32 ≤ v ∨ v = 9 ∨ v = 10 ∨ v = 13) : badUnit v = false := by
  unfold badUnit; exact badChar_allowed h

theorem decodeUnits_char {c : Char} (hc : Allowed c) (hd : ¬ EndsDFFF c) (r : List (Option Nat)) :
    decodeUnits ((codeUnits c).map some ++ r) = some c.toNat :: decodeUnits r := by
  obtain ⟨h1, _⟩ := hc
  have h3 := char_not_surrogate c
  have h4 := char_lt c
  unfold EndsDFFF at hd
  unfold codeUnits
  generalize c.toNat = v at *
  by_cases hv : v < 65536
  · simp only [hv, if_true, List.map_cons, List.map_nil, List.cons_append, List.nil_append]
    rw [decodeUnits.eq_def]
    have : isHighUnit v = false := by unfold isHighUnit; simp; omega
    simp [badUnit_ok h1, this]
  · simp only [hv, if_false, List.map_cons, List.map_nil, List.cons_append, List.nil_append]
    rw [decodeUnits.eq_def]
    have e1 : isHighUnit (55296 + (v - 65536) / 1024) = true := by unfold isHighUnit; simp; omega
    have e2 : isLowUnit (56320 + (v - 65536) % 1024) = true := by unfold isLowUnit; simp; omega
    have e3 : pairUnits (55296 + (v - 65536) / 1024) (56320 + (v - 65536) % 1024) = v := by unfold pairUnits; omega
    simp [badUnit_ok (v := 55296 + (v - 65536) / 1024) (by omega), e1, e2, e3, lowHalf]

theorem decodeUnits_all : ∀ (cs : List Char), (∀ c ∈ cs, Allowed c ∧ ¬ EndsDFFF c) →
    decodeUnits ((cs.flatMap codeUnits).map some) = cs.map fun c => some c.toNat
  | [], _ => rfl
  | c :: cs, h => by
    rw [List.flatMap_cons, List.map_append, decodeUnits_char (h c (by simp)).1 (h c (by simp)).2,
      decodeUnits_all cs (fun x hx => h x (by simp [hx]))]
    rfl

theorem decodeFile_utf16 (be : Bool) (cs : List Char) (h : ∀ c ∈ cs, Allowed c ∧ ¬ EndsDFFF c) :
    decodeFile (utf16File be cs) = cs.map fun c => some c.toNat := by
  have hu : ∀ u ∈ cs.flatMap codeUnits, u < 65536 := by
    intro u hu
    obtain ⟨c, _, hc⟩ := List.mem_flatMap.mp hu
    exact codeUnits_lt c u hc
  have key : decode16 be ((cs.flatMap codeUnits).flatMap (unitBytes be)) = cs.map fun c => some c.toNat := by
    unfold decode16; rw [units16_all be _ hu, decodeUnits_all cs h]
  unfold utf16File byteOrderMark
  cases be with
  | true => rw [if_pos rfl, List.cons_append, decodeFile.eq_def]; simp [key]
  | false => rw [if_neg (by simp), List.cons_append, decodeFile.eq_def]; simp [key]

/-- A decoder that is good on characters is good on texts. -/
theorem dec_text {dec} (hd : GoodDec dec) (cs : List Char) (h : ∀ c ∈ cs, Allowed c) :
    dec (utf8File cs) = cs.map fun c => some c.toNat := by
  have := dec_clean hd cs h []
  simp only [List.append_nil, hd.nil] at this
  exact this

end Afs.Xml
