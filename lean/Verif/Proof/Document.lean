import Verif.Spec.Document
import Verif.Props.C27_C28_Text
import Verif.Proof.Schema
import Verif.Proof.Under
/-! # Texts and numbers of documents -/
namespace Afs
open Spec Xml Spec.Schema Spec.Document

theorem mem_takeWhile (p : UInt8 → Bool) (s : Bytes) (c : UInt8) (h : c ∈ s.takeWhile p) : p c = true := by
  induction s with
  | nil => cases h
  | cons a s ih =>
    by_cases ha : p a = true
    · rw [List.takeWhile_cons_of_pos ha] at h
      rcases List.mem_cons.mp h with rfl | h
      · exact ha
      · exact ih h
    · rw [List.takeWhile_cons_of_neg ha] at h; cases h

/-- Both ends cut off. -/
theorem ends_split (p : UInt8 → Bool) (s : Bytes) : ∃ a b, s = a ++ ((s.dropWhile p).reverse.dropWhile p).reverse ++ b ∧
    (∀ c ∈ a, p c = true) ∧ (∀ c ∈ b, p c = true) := by
  refine ⟨s.takeWhile p, ((s.dropWhile p).reverse.takeWhile p).reverse, ?_, ?_, ?_⟩
  · rw [List.append_assoc, ← List.reverse_append, List.takeWhile_append_dropWhile, List.reverse_reverse, List.takeWhile_append_dropWhile]
  · exact fun c hc => mem_takeWhile p _ c hc
  · intro c hc
    rw [List.mem_reverse] at hc
    exact mem_takeWhile p _ c hc

theorem head_dropWhile (p : UInt8 → Bool) (s : Bytes) (c : UInt8) (h : (s.dropWhile p).head? = some c) : p c = false := by
  induction s with
  | nil => cases h
  | cons a s ih =>
    by_cases ha : p a = true
    · rw [List.dropWhile_cons_of_pos ha] at h; exact ih h
    · rw [List.dropWhile_cons_of_neg ha] at h
      injection h with h
      rw [← h]; simpa using ha

theorem last_dropWhile (p : UInt8 → Bool) (s : Bytes) (c : UInt8) (h : (s.dropWhile p).getLast? = some c) : s.getLast? = some c := by
  induction s with
  | nil => cases h
  | cons a s ih =>
    by_cases ha : p a = true
    · rw [List.dropWhile_cons_of_pos ha] at h
      have := ih h
      cases s with
      | nil => cases this
      | cons b s => rw [List.getLast?_cons_cons]; exact this
    · rw [List.dropWhile_cons_of_neg ha] at h; exact h

theorem ends_noEnds (p : UInt8 → Bool) (s : Bytes) :
    (∀ c, (((s.dropWhile p).reverse.dropWhile p).reverse).head? = some c → p c = false) ∧
    (∀ c, (((s.dropWhile p).reverse.dropWhile p).reverse).getLast? = some c → p c = false) := by
  constructor
  · intro c h
    rw [List.head?_reverse] at h
    have := last_dropWhile p _ c h
    rw [List.getLast?_reverse] at this
    exact head_dropWhile p s c this
  · intro c h
    rw [List.getLast?_reverse] at h
    exact head_dropWhile p _ c h

theorem isEdge_eq : isEdge = isTrimByte := by
  funext c
  unfold isEdge isTrimByte
  cases c == 32 <;> cases c == 10 <;> cases c == 13 <;> rfl

theorem stringTrim_trim (s : Bytes) : stringTrim s = trim s := by
  obtain ⟨a, b, h, ha, hb⟩ := ends_split isEdge s
  have hn := ends_noEnds isEdge s
  rw [isEdge_eq] at ha hb hn
  refine trim_unique h ha hb ?_
  unfold trim
  rw [isEdge_eq]
  exact hn

theorem edge_white {c : UInt8} (h : isEdge c = true) : isWhite c = true := by
  unfold isEdge at h
  unfold isWhite
  revert h
  cases c == 32 <;> cases c == 10 <;> cases c == 13 <;> simp

theorem strip_trim (s : Bytes) : strip (trim s) = strip s := by
  obtain ⟨a, b, h, ha, hb⟩ := ends_split isEdge s
  conv => rhs; rw [h]
  exact (strip_pad _ _ _ (fun c hc => edge_white (ha c hc)) (fun c hc => edge_white (hb c hc))).symm

theorem white_space {c : UInt8} (h : isWhite c = true) : isSpaceByte c = true := by
  unfold isWhite at h
  simp only [Bool.or_eq_true, beq_iff_eq] at h
  rcases h with ((rfl | rfl) | rfl) | rfl <;> decide

theorem skipSpace_white (a s : Bytes) (h : ∀ c ∈ a, isWhite c = true) : skipSpace (a ++ s) = skipSpace s := by
  induction a with
  | nil => rfl
  | cons c a ih => rw [List.cons_append, skipSpace, if_pos (white_space (h c (by simp))), ih fun c hc => h c (by simp [hc])]

theorem readSigned_white (a s : Bytes) (h : ∀ c ∈ a, isWhite c = true) : readSigned (a ++ s) = readSigned s := by
  unfold readSigned
  rw [skipSpace_white a s h]

theorem white_no_digit {c : UInt8} (h : isWhite c = true) : isDigitByte c = false := by
  unfold isWhite at h
  simp only [Bool.or_eq_true, beq_iff_eq] at h
  rcases h with ((rfl | rfl) | rfl) | rfl <;> decide

theorem digit_of_range {c : UInt8} (h : 48 ≤ c ∧ c ≤ 57) : isDigitByte c = true := by
  unfold isDigitByte; simp [h.1, h.2]

theorem readDigits_digits {d : Bytes} (h : Digits d) : (readDigits 0 d).1 = digitsValue d := by
  rw [readDigits_value d (fun c hc => digit_of_range (h.2 c hc)) 0]
  rfl

theorem readSigned_sign {c : UInt8} (hc : c = 43 ∨ c = 45) {d r : Bytes} (hd : Digits d) (hr : ∀ x, r.head? = some x → isDigitByte x = false) :
    readSigned (c :: (d ++ r)) = some (c == 45, digitsValue d, r) := by
  have hdd : ∀ x ∈ d, isDigitByte x = true := fun x hx => digit_of_range (hd.2 x hx)
  have hrest : readDigits 0 (d ++ r) = (digitsValue d, r) := by
    rw [readDigits_append _ hdd, readDigits_digits hd]
    cases r with
    | nil => rfl
    | cons x r => rw [readDigits, if_neg (by simp [hr x rfl])]
  cases d with
  | nil => exact absurd rfl hd.1
  | cons x d =>
    have hx := hdd x (by simp)
    rw [List.cons_append] at hrest
    unfold readSigned
    rcases hc with rfl | rfl
    · rw [skipSpace, if_neg (by decide)]
      simp [hx, hrest]
    · rw [skipSpace, if_neg (by decide)]
      simp [hx, hrest]

theorem white_head {b : Bytes} (h : ∀ c ∈ b, isWhite c = true) : ∀ x, b.head? = some x → isDigitByte x = false := by
  intro x hx
  exact white_no_digit (h x (List.mem_of_head? hx))

theorem readSigned_nat {d r : Bytes} (hd : Digits d) (hr : ∀ x, r.head? = some x → isDigitByte x = false) :
    readSigned (d ++ r) = some (false, digitsValue d, r) := by
  rw [readSigned_digits (fun x hx => digit_of_range (hd.2 x hx)) hd.1 hr, readDigits_digits hd]

theorem strtol_number {s : Bytes} (h : integer s) : strtol s = asLong (number s) := by
  obtain ⟨a, b, hs, ha, hb⟩ := ends_split isWhite s
  rw [show ((s.dropWhile isWhite).reverse.dropWhile isWhite).reverse = strip s from rfl] at hs
  have e : readSigned s = readSigned (strip s ++ b) := by
    conv => lhs; rw [hs, List.append_assoc, readSigned_white _ _ ha]
  unfold strtol number
  rw [e]
  rcases h with h | ⟨c, d, hc, hd, hsd⟩
  · rw [readSigned_nat h (white_head hb)]
    obtain ⟨h1, h2⟩ := h
    cases hst : strip s with
    | nil => exact absurd hst h1
    | cons c d =>
      have := h2 c (by rw [hst]; simp)
      have n1 : c ≠ 45 := by rintro rfl; exact absurd this.1 (by decide)
      have n2 : c ≠ 43 := by rintro rfl; exact absurd this.1 (by decide)
      dsimp only
      rw [if_neg n1, if_neg n2]
      unfold asLong
      simp only [Bool.false_eq_true, if_false]
      split <;> omega
  · rw [hsd, List.cons_append, readSigned_sign hc hd (white_head hb)]
    dsimp only
    unfold asLong
    rcases hc with rfl | rfl
    · have : ((43 : UInt8) == 45) = false := by decide
      have n : ¬ (43 : UInt8) = 45 := by decide
      simp only [this, n, Bool.false_eq_true, if_false, if_true]
      split <;> omega
    · simp only [beq_self_eq_true, if_true]
      split <;> omega

theorem intOfLong_bmod (v : Int) : intOfLong v = Int.bmod v 4294967296 := by
  unfold intOfLong intOfU uOfInt two32 Int.bmod
  have : ((v % ((4294967296 : Nat) : Int)).toNat % 4294967296 : Nat) = (v % ((4294967296 : Nat) : Int)).toNat := by omega
  rw [this]
  dsimp only
  split <;> split <;> omega

theorem atoi_number {s : Bytes} (h : integer s) : atoi s = asInt (number s) := by
  unfold atoi asInt
  rw [strtol_number h, intOfLong_bmod]

theorem unsigned_integer {s : Bytes} (h : unsignedInt s) : integer s := .inl h.1

theorem number_digits {s : Bytes} (h : Digits (strip s)) : number s = (digitsValue (strip s) : Int) := by
  unfold number
  obtain ⟨h1, h2⟩ := h
  cases hst : strip s with
  | nil => exact absurd hst h1
  | cons c d =>
    have := h2 c (by rw [hst]; simp)
    have n1 : c ≠ 45 := by rintro rfl; exact absurd this.1 (by decide)
    have n2 : c ≠ 43 := by rintro rfl; exact absurd this.1 (by decide)
    dsimp only
    rw [if_neg n1, if_neg n2]

theorem uOfInt_atoi_number {s : Bytes} (h : unsignedInt s) : uOfInt (atoi s) = (number s).toNat := by
  unfold atoi
  rw [strtol_number (unsigned_integer h), number_digits h.1]
  have := h.2
  have e : asLong (digitsValue (strip s) : Int) = (digitsValue (strip s) : Int) := by unfold asLong; omega
  rw [e, uOfInt_intOfLong _ (by unfold two32; exact this)]
  simp

theorem strtol_unsigned {s : Bytes} (h : unsignedInt s) : strtol s = number s := by
  rw [strtol_number (unsigned_integer h), number_digits h.1]
  have := h.2
  unfold asLong; omega

theorem parent_integer {s : Bytes} (h : parentIdType s) : integer s := h.1

theorem number_trim (s : Bytes) : number (trim s) = number s := by unfold number; rw [strip_trim]

theorem integer_trim {s : Bytes} (h : integer s) : integer (trim s) := (padded_integer _ _ (strip_trim s)).mpr h

theorem unsigned_trim {s : Bytes} (h : unsignedInt s) : unsignedInt (trim s) := (padded_unsigned _ _ (strip_trim s)).mpr h

theorem splitOn_pieces (s : Bytes) : splitOn semicolon s = pieces s := by
  induction s with
  | nil => rfl
  | cons c s ih =>
    have e : pieces (c :: s) = if c = 59 then [] :: pieces s else match pieces s with | [] => [[c]] | h :: t => (c :: h) :: t := rfl
    rw [splitOn, ih, e]
    unfold semicolon
    split
    · rfl
    · cases pieces s <;> rfl

/-! ### Sizes -/

theorem scanU_nat {d r : Bytes} (hd : Digits d) (hv : digitsValue d < 4294967296) (hr : ∀ x, r.head? = some x → isDigitByte x = false) :
    scanU (d ++ r) = some (digitsValue d, r) := by
  unfold scanU
  rw [readSigned_nat hd hr]
  simp only [Bool.false_eq_true, if_false]
  rw [if_pos (by omega)]
  unfold u32 two32
  rw [Nat.mod_eq_of_lt hv]

theorem takeWhile_digits {a : Bytes} (h : Digits a) (r : Bytes) :
    (a ++ 120 :: r).takeWhile (· != 120) = a ∧ (a ++ 120 :: r).dropWhile (· != 120) = 120 :: r := by
  have h2 := h.2
  clear h
  induction a with
  | nil => simp
  | cons c a ih =>
    have : c ≠ 120 := by rintro rfl; exact absurd (h2 120 (by simp)).2 (by decide)
    obtain ⟨i1, i2⟩ := ih fun c hc => h2 c (by simp [hc])
    constructor
    · rw [List.cons_append, List.takeWhile_cons_of_pos (by simp [this]), i1]
    · rw [List.cons_append, List.dropWhile_cons_of_pos (by simp [this]), i2]

theorem extractXY_size {s : Option Bytes} (h : ∀ v, s = some v → SizeText v) :
    Page.extractXY s = some ((Document.size s).1, (Document.size s).2) := by
  cases s with
  | none => rfl
  | some v =>
    rcases h v rfl with rfl | ⟨a, b, ha, hb, hva, hvb, rfl⟩
    · rfl
    · unfold Page.extractXY
      have hne : (a ++ [120] ++ b).length ≠ 0 := by simp
      dsimp only
      rw [if_neg hne]
      unfold scanUxU
      rw [List.append_assoc, List.singleton_append, scanU_nat ha hva (by intro x hx; injection hx with hx; rw [← hx]; decide)]
      have := scanU_nat (r := []) hb hvb (by simp)
      rw [List.append_nil] at this
      have e := takeWhile_digits ha b
      dsimp only
      rw [if_pos rfl, this]
      unfold Document.size
      dsimp only
      rw [e.1, e.2]
      rfl

end Afs
