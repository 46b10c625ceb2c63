import Verif.Spec.Grammar
import Verif.Proof.XmlRound
import Verif.Proof.Utf16
/-!
# Reading documents of the grammar, character by character
-/
namespace Afs.Xml
open Afs Afs.Spec Afs.Spec.Grammar

/-- Running over characters. -/
def R (s : PS) (cs : List Char) : PS := run s (cs.map fun c => some c.toNat)

theorem R_nil (s : PS) : R s [] = s := rfl
theorem R_cons (s : PS) (c : Char) (cs : List Char) : R s (c :: cs) = R (step s (some c.toNat)) cs := rfl
theorem R_append (s : PS) (a b : List Char) : R s (a ++ b) = R (R s a) b := by
  unfold R; rw [List.map_append, run_append]

theorem char_eq {c d : Char} (h : c.toNat = d.toNat) : c = d := Char.ext (UInt32.toNat_inj.mp h)
theorem toNat_ne {c d : Char} (h : c ≠ d) : c.toNat ≠ d.toNat := fun e => h (char_eq e)

theorem utf8_nil : utf8File [] = [] := rfl
theorem utf8_cons (c : Char) (s : List Char) : utf8File (c :: s) = String.utf8EncodeChar c ++ utf8File s := rfl
theorem utf8_append (a b : List Char) : utf8File (a ++ b) = utf8File a ++ utf8File b := by simp [utf8File]
theorem utf8_one (c : Char) : utf8File [c] = String.utf8EncodeChar c := by simp [utf8File]

theorem utf8_ascii {c : Char} (h : c.toNat < 128) : String.utf8EncodeChar c = [UInt8.ofNat c.toNat] := by
  rw [← addChar_eq, addChar, if_pos h]

theorem xmlChar_ok {c : Char} (h : XmlChar c) : 32 ≤ c.toNat ∨ c.toNat = 9 ∨ c.toNat = 10 ∨ c.toNat = 13 := by
  unfold XmlChar at h; omega

theorem space_nat {c : Char} (h : Space c) : isSpace c.toNat = true := by
  rcases h with rfl | rfl | rfl | rfl <;> decide

/-! ### References -/

/-- Control states in which `&` starts a reference. -/
structure TakesRefs (s : PS) (K : Bytes → PC) : Prop where
  amp : ∀ b, step { s with pc := K b } (some 38) = { s with pc := .ent (K b) [] }
  res : ∀ b ch acc, resume { s with pc := .ent (K b) acc } (K b) ch = { s with pc := K (b ++ addChar ch) }

theorem refs_main {s : PS} (h : s.opq = true) : TakesRefs s .main where
  amp := by intro b; simp [step, h]
  res := by intro b ch acc; rfl

theorem refs_qval (s : PS) (e : Head) (an : Bytes) {q : Nat} (hq : q ≠ 38) : TakesRefs s (.qval e an q) where
  amp := by intro b; simp [step, Ne.symm hq]
  res := by intro b ch acc; rfl

theorem R_ent (s : PS) (k : PC) : ∀ (n : List Char) (acc : Bytes), (∀ c ∈ n, c.toNat < 128 ∧ isEntChar c.toNat = true) →
    acc.length + n.length ≤ 63 → R { s with pc := .ent k acc } n = { s with pc := .ent k (acc ++ utf8File n) }
  | [], acc, _, _ => by simp [R_nil, utf8_nil]
  | c :: n, acc, h, hl => by
    have hc := h c (by simp)
    rw [R_cons, step_ent hc.2 (by simp at hl; omega), R_ent s k n _ (fun x hx => h x (by simp [hx])) (by simp at hl ⊢; omega),
      utf8_cons, utf8_ascii hc.1]
    simp

theorem R_ref_name {s : PS} {K : Bytes → PC} (hk : TakesRefs s K) (b : Bytes) {n : List Char} {c : Char}
    (hn : ∀ x ∈ n, x.toNat < 128 ∧ isEntChar x.toNat = true) (hl : n.length ≤ 63) (hc : entityChar (utf8File n) = some c.toNat) :
    R { s with pc := K b } (['&'] ++ n ++ [';']) = { s with pc := K (b ++ utf8File [c]) } := by
  rw [List.append_assoc, List.singleton_append, R_cons, show ('&' : Char).toNat = 38 from rfl, hk.amp, R_append,
    R_ent s _ n [] hn (by simpa using hl), List.nil_append, R_cons, R_nil, show (';' : Char).toNat = 59 from rfl,
    step_ent_end hc, hk.res, addChar_eq, utf8_one]

theorem ofNat_toNat {n : Nat} (h : n < 256) : (UInt8.ofNat n).toNat = n := u8 h

theorem digitVal_dec {c : Char} (h : Decimal c) : digitVal (UInt8.ofNat c.toNat) = digit c ∧ digit c < 10 := by
  unfold Decimal at h
  unfold digitVal digit
  rw [ofNat_toNat (by omega)]
  constructor
  · rw [if_pos h, if_pos h.2]
  · rw [if_pos h.2]; omega

theorem digitVal_hex {c : Char} (h : Hexadecimal c) : digitVal (UInt8.ofNat c.toNat) = digit c ∧ digit c < 16 := by
  unfold Hexadecimal at h
  unfold digitVal digit
  rw [ofNat_toNat (by omega)]
  rcases h with h | h | h
  · rw [if_pos h, if_pos h.2]; omega
  · rw [if_neg (by omega), if_neg (by omega), if_pos (by omega), if_neg (by omega), if_pos (by omega)]; omega
  · rw [if_neg (by omega), if_pos (by omega), if_neg (by omega), if_neg (by omega)]; omega

theorem digitsLoop_number (base : Nat) : ∀ (ds : List Char) (acc : Nat),
    (∀ d ∈ ds, d.toNat < 128 ∧ digitVal (UInt8.ofNat d.toNat) = digit d ∧ digit d < base) →
    digitsLoop base (utf8File ds) acc = ds.foldl (fun a d => a * base + digit d) acc
  | [], acc, _ => rfl
  | d :: ds, acc, h => by
    obtain ⟨h1, h2, h3⟩ := h d (by simp)
    rw [utf8_cons, utf8_ascii h1, List.singleton_append, digitsLoop, h2, if_pos h3,
      digitsLoop_number base ds _ (fun x hx => h x (by simp [hx]))]
    rfl

theorem intOfU_char {c : Char} : intOfU (min c.toNat 9223372036854775807) = (c.toNat : Int) := by
  have := char_lt c
  rw [Nat.min_eq_left (by omega)]
  unfold intOfU two32
  simp
  omega

theorem entity_dec {ds : List Char} {c : Char} (hne : ds ≠ []) (hd : ∀ d ∈ ds, Decimal d) (hv : number 10 ds = c.toNat)
    (hc : XmlChar c) : entityChar (utf8File ('#' :: ds)) = some c.toNat := by
  cases ds with
  | nil => exact absurd rfl hne
  | cons d ds =>
    have hd0 := hd d (by simp)
    have h := digitsLoop_number 10 (d :: ds) 0 (fun x hx => ⟨by have := hd x hx; unfold Decimal at this; omega,
      digitVal_dec (hd x hx)⟩)
    rw [show (d :: ds).foldl (fun a d => a * 10 + digit d) 0 = c.toNat from hv] at h
    have e : utf8File ('#' :: d :: ds) = 35 :: utf8File (d :: ds) := rfl
    have e2 : utf8File (d :: ds) = UInt8.ofNat d.toNat :: utf8File ds := by
      rw [utf8_cons, utf8_ascii (by unfold Decimal at hd0; omega)]; rfl
    have hx : UInt8.ofNat d.toNat ≠ 120 := by
      intro hx
      have := congrArg UInt8.toNat hx
      rw [ofNat_toNat (by unfold Decimal at hd0; omega)] at this
      unfold Decimal at hd0
      simp at this; omega
    rw [e]
    unfold entityChar
    rw [e2] at h ⊢
    split
    · rename_i heq; injection heq with _ h2; injection h2 with h3 _; exact absurd h3 hx
    · rename_i heq
      injection heq with _ h2
      subst h2
      rw [h, intOfU_char]
      have : badChar (c.toNat : Int) = false := badChar_allowed (xmlChar_ok hc)
      simp [this]
    · rename_i h1 h2; exact absurd rfl (h2 _)

theorem strtol16_plain {ds : List Char} (hd : ∀ d ∈ ds, Hexadecimal d) : strtol16 (utf8File ds) = digitsLoop 16 (utf8File ds) 0 := by
  unfold strtol16
  split
  · rename_i x d rest heq
    rw [if_neg]
    rintro ⟨hx, _⟩
    have hmem : x ∈ utf8File ds := by rw [heq]; simp
    unfold utf8File at hmem
    obtain ⟨c, hc, hxc⟩ := List.mem_flatMap.mp hmem
    have hh := hd c hc
    unfold Hexadecimal at hh
    rw [utf8_ascii (by omega)] at hxc
    simp at hxc
    have := congrArg UInt8.toNat hxc
    rw [ofNat_toNat (by omega)] at this
    rcases hx with rfl | rfl <;> (simp at this; omega)
  · rfl

theorem entity_hex {ds : List Char} {c : Char} (hd : ∀ d ∈ ds, Hexadecimal d) (hv : number 16 ds = c.toNat)
    (hc : XmlChar c) : entityChar (utf8File ('#' :: 'x' :: ds)) = some c.toNat := by
  have h := digitsLoop_number 16 ds 0 (fun x hx => ⟨by have := hd x hx; unfold Hexadecimal at this; omega,
    digitVal_hex (hd x hx)⟩)
  rw [show ds.foldl (fun a d => a * 16 + digit d) 0 = c.toNat from hv] at h
  have e : utf8File ('#' :: 'x' :: ds) = 35 :: 120 :: utf8File ds := rfl
  rw [e]
  have em : ∀ x : Bytes, entityChar (35 :: 120 :: x) =
      if badChar (intOfU (min (strtol16 x) 9223372036854775807)) then none
      else some (intOfU (min (strtol16 x) 9223372036854775807)).toNat := fun _ => rfl
  rw [em, strtol16_plain hd, h, intOfU_char]
  have : badChar (c.toNat : Int) = false := badChar_allowed (xmlChar_ok hc)
  simp [this]

theorem ent_decimal {c : Char} (h : Decimal c) : c.toNat < 128 ∧ isEntChar c.toNat = true := by
  unfold Decimal at h; unfold isEntChar; simp; omega

theorem ent_hex {c : Char} (h : Hexadecimal c) : c.toNat < 128 ∧ isEntChar c.toNat = true := by
  unfold Hexadecimal at h; unfold isEntChar; simp; omega

theorem R_reference {s : PS} {K : Bytes → PC} (hk : TakesRefs s K) (b : Bytes) {r : List Char} {c : Char} (h : Reference r c) :
    R { s with pc := K b } r = { s with pc := K (b ++ utf8File [c]) } := by
  cases h with
  | amp => exact R_ref_name hk b (n := "amp".toList) (by decide) (by decide) (by decide +kernel)
  | lt => exact R_ref_name hk b (n := "lt".toList) (by decide) (by decide) (by decide +kernel)
  | gt => exact R_ref_name hk b (n := "gt".toList) (by decide) (by decide) (by decide +kernel)
  | quot => exact R_ref_name hk b (n := "quot".toList) (by decide) (by decide) (by decide +kernel)
  | apos => exact R_ref_name hk b (n := "apos".toList) (by decide) (by decide) (by decide +kernel)
  | @dec ds _ hne hl hd hv hc =>
    have := R_ref_name hk b (n := '#' :: ds) (by
      intro x hx
      rcases List.mem_cons.mp hx with rfl | hx
      · decide
      · exact ent_decimal (hd x hx)) (by simp; omega) (entity_dec hne hd hv hc)
    simpa using this
  | @hex ds _ hne hl hd hv hc =>
    have := R_ref_name hk b (n := '#' :: 'x' :: ds) (by
      intro x hx
      rcases List.mem_cons.mp hx with rfl | hx
      · decide
      · rcases List.mem_cons.mp hx with rfl | hx
        · decide
        · exact ent_hex (hd x hx)) (by simp; omega) (entity_hex hd hv hc)
    simpa using this

end Afs.Xml
