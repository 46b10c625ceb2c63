import Verif.Proof.Utf8
/-!
# Running the reader over written text
-/
namespace Afs.Xml
open Afs Afs.Spec

/-- Reading the bytes `w` from state `s`. -/
def feed (dec : Bytes → List (Option Nat)) (s : PS) (w : Bytes) : PS := run s (dec w)

theorem run_append (s : PS) (a b : List (Option Nat)) : run s (a ++ b) = run (run s a) b := by
  simp [run, List.foldl_append]

theorem run_cons (s : PS) (c : Option Nat) (l : List (Option Nat)) : run s (c :: l) = run (step s c) l := rfl

theorem run_nil (s : PS) : run s [] = s := rfl

section
variable {dec : Bytes → List (Option Nat)} (hd : GoodDec dec)
include hd

theorem dec_clean (cs : List Char) (h : ∀ c ∈ cs, Allowed c) (r : Bytes) :
    dec (cs.flatMap String.utf8EncodeChar ++ r) = cs.map (fun c => some c.toNat) ++ dec r := by
  induction cs with
  | nil => rfl
  | cons c cs ih =>
    rw [List.flatMap_cons, List.append_assoc, hd.char c _ (h c (by simp)), ih (fun x hx => h x (by simp [hx]))]
    rfl

theorem feed_append {w : Bytes} (hw : CleanText w) (s : PS) (r : Bytes) :
    feed dec s (w ++ r) = feed dec (feed dec s w) r := by
  obtain ⟨cs, hc, rfl⟩ := hw
  have h1 := dec_clean hd cs hc r
  have h2 := dec_clean hd cs hc []
  rw [List.append_nil, hd.nil, List.append_nil] at h2
  unfold feed
  rw [h1, h2, run_append]

theorem feed_char {c : Char} (hc : Allowed c) (s : PS) (r : Bytes) :
    feed dec s (String.utf8EncodeChar c ++ r) = feed dec (step s (some c.toNat)) r := by
  unfold feed
  rw [hd.char c r hc, run_cons]

theorem feed_nil (s : PS) : feed dec s [] = s := by unfold feed; rw [hd.nil, run_nil]

end

/-- ASCII bytes that are allowed in text. -/
def okByte (b : UInt8) : Bool :=
  (32 ≤ b.toNat && b.toNat < 128) || b.toNat == 9 || b.toNat == 10 || b.toNat == 13

theorem encode_ascii {b : UInt8} (h : b.toNat < 128) :
    String.utf8EncodeChar (Char.ofNat b.toNat) = [b] ∧ (Char.ofNat b.toNat).toNat = b.toNat := by
  have hv : (Char.ofNat b.toNat).toNat = b.toNat := by
    have : b.toNat.isValidChar := by left; omega
    simp [Char.ofNat, this, Char.toNat, Char.ofNatAux]
  refine ⟨?_, hv⟩
  unfold String.utf8EncodeChar
  have h2 : (Char.ofNat b.toNat).val.toNat = b.toNat := hv
  simp only [h2]
  rw [if_pos (by omega)]
  simp

theorem okByte_allowed {b : UInt8} (h : okByte b = true) : Allowed (Char.ofNat b.toNat) := by
  have hlt : b.toNat < 128 := by
    simp [okByte] at h
    omega
  have := (encode_ascii hlt).2
  unfold Allowed
  rw [this]
  simp [okByte] at h
  omega

theorem feed_byte {dec} (hd : GoodDec dec) {b : UInt8} (h : okByte b = true) (s : PS) (r : Bytes) :
    feed dec s (b :: r) = feed dec (step s (some b.toNat)) r := by
  have hlt : b.toNat < 128 := by
    simp [okByte] at h
    omega
  have h2 := feed_char hd (okByte_allowed h) s r
  rw [(encode_ascii hlt).1, (encode_ascii hlt).2] at h2
  exact h2

theorem clean_ascii {w : Bytes} (h : ∀ b ∈ w, okByte b = true) : CleanText w := by
  refine ⟨w.map fun b => Char.ofNat b.toNat, ?_, ?_⟩
  · intro c hc
    simp only [List.mem_map] at hc
    obtain ⟨b, hb, rfl⟩ := hc
    exact okByte_allowed (h b hb)
  · induction w with
    | nil => rfl
    | cons b w ih =>
      have hlt : b.toNat < 128 := by
        have := h b (by simp)
        simp [okByte] at this
        omega
      rw [List.map_cons, List.flatMap_cons, (encode_ascii hlt).1, ← ih (fun x hx => h x (by simp [hx]))]
      rfl

theorem clean_append {a b : Bytes} (ha : CleanText a) (hb : CleanText b) : CleanText (a ++ b) := by
  obtain ⟨cs, hc, rfl⟩ := ha
  obtain ⟨ds, hd, rfl⟩ := hb
  refine ⟨cs ++ ds, ?_, by simp⟩
  intro c h
  simp only [List.mem_append] at h
  exact h.elim (hc c) (hd c)

theorem clean_nil : CleanText [] := ⟨[], by simp, rfl⟩

theorem plain_ok {n : Bytes} (h : PlainName n) : ∀ b ∈ n, okByte b = true := by
  intro b hb
  have := h.2 b hb
  simp [okByte]
  omega

theorem plain_clean {n : Bytes} (h : PlainName n) : CleanText n := clean_ascii (plain_ok h)

/-! ### Entities -/

theorem entity_amp : entityChar (b! "amp") = some 38 := by decide +kernel
theorem entity_lt : entityChar (b! "lt") = some 60 := by decide +kernel
theorem entity_gt : entityChar (b! "gt") = some 62 := by decide +kernel
theorem entity_quot : entityChar (b! "quot") = some 34 := by decide +kernel

/-- Text produced by `writeString` for one allowed character. -/
def escChar (c : Char) : Bytes :=
  if c.toNat = 38 then b! "&amp;"
  else if c.toNat = 60 then b! "&lt;"
  else if c.toNat = 62 then b! "&gt;"
  else if c.toNat = 34 then b! "&quot;"
  else String.utf8EncodeChar c

theorem entityName_of_toNat {b : UInt8} :
    entityName b = if b.toNat = 38 then some (b! "amp") else if b.toNat = 60 then some (b! "lt")
      else if b.toNat = 62 then some (b! "gt") else if b.toNat = 34 then some (b! "quot") else none := by
  unfold entityName
  simp only [← UInt8.toNat_inj]
  rfl

theorem writeString_none {w : Bytes} (h : ∀ b ∈ w, entityName b = none) (r : Bytes) :
    writeString (w ++ r) = w ++ writeString r := by
  induction w with
  | nil => rfl
  | cons b w ih =>
    rw [List.cons_append, writeString, h b (by simp)]
    simp only [List.cons_append]
    rw [ih (fun x hx => h x (by simp [hx]))]

theorem writeString_char (c : Char) (r : Bytes) :
    writeString (String.utf8EncodeChar c ++ r) = escChar c ++ writeString r := by
  have hv := char_lt c
  by_cases hs : c.toNat < 128
  · have h1 : String.utf8EncodeChar c = [UInt8.ofNat c.toNat] := by
      rw [← addChar_eq, addChar, if_pos hs]
    have h2 : (UInt8.ofNat c.toNat).toNat = c.toNat := u8 (by omega)
    unfold escChar
    rw [h1, List.singleton_append, writeString, entityName_of_toNat, h2]
    by_cases a : c.toNat = 38
    · simp [a]
    · by_cases b : c.toNat = 60
      · simp [b]
      · by_cases d : c.toNat = 62
        · simp [d]
        · by_cases e : c.toNat = 34
          · simp [e]
          · simp [a, b, d, e]
  · have h1 : escChar c = String.utf8EncodeChar c := by
      unfold escChar
      rw [if_neg (by omega), if_neg (by omega), if_neg (by omega), if_neg (by omega)]
    rw [h1]
    apply writeString_none
    intro b hb
    have : 128 ≤ b.toNat := by
      simp only [Char.toNat] at hs
      unfold String.utf8EncodeChar at hb
      simp only at hb
      rw [if_neg (by omega)] at hb
      generalize c.val.toNat = v at *
      split at hb
      · simp only [List.mem_cons, List.not_mem_nil, or_false] at hb
        rcases hb with rfl | rfl
        · rw [u8 (by omega)]; omega
        · rw [u8 (by omega)]; omega
      · split at hb
        · simp only [List.mem_cons, List.not_mem_nil, or_false] at hb
          rcases hb with rfl | rfl | rfl <;> (rw [u8 (by omega)]; omega)
        · simp only [List.mem_cons, List.not_mem_nil, or_false] at hb
          rcases hb with rfl | rfl | rfl | rfl <;> (rw [u8 (by omega)]; omega)
    rw [entityName_of_toNat]
    rw [if_neg (by omega), if_neg (by omega), if_neg (by omega), if_neg (by omega)]

theorem allowed_38 {c : Char} : Allowed c → CleanText (escChar c) := by
  intro h
  unfold escChar
  split
  · exact clean_ascii (by decide)
  · split
    · exact clean_ascii (by decide)
    · split
      · exact clean_ascii (by decide)
      · split
        · exact clean_ascii (by decide)
        · exact ⟨[c], by simpa using h, by simp⟩

theorem writeString_clean {w : Bytes} (hw : CleanText w) : CleanText (writeString w) := by
  obtain ⟨cs, hc, rfl⟩ := hw
  induction cs with
  | nil => exact clean_nil
  | cons c cs ih =>
    rw [List.flatMap_cons, writeString_char]
    exact clean_append (allowed_38 (hc c (by simp))) (ih (fun x hx => hc x (by simp [hx])))

theorem writeString_append_clean {a b : Bytes} (ha : CleanText a) :
    writeString (a ++ b) = writeString a ++ writeString b := by
  obtain ⟨cs, hc, rfl⟩ := ha
  clear hc
  induction cs with
  | nil => rfl
  | cons c cs ih =>
    rw [List.flatMap_cons, List.append_assoc, writeString_char, writeString_char, ih, List.append_assoc]

end Afs.Xml
