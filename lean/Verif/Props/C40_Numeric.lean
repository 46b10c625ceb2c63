import Verif.Spec.Html
import Verif.Spec.CharRef
import Verif.Model.Xml.Parse
import Verif.Props.C38_C40_Search
/-! # C40: the character a reference stands for -/
namespace Afs
open Xml Spec

theorem digitOf_val {c : UInt8} {base : Nat} (hb : base ≤ 36) :
    digitVal c < base ↔ ∃ d, digitOf c = some d ∧ d < base := by
  unfold digitVal digitOf
  split
  · simp
  · split
    · simp; omega
    · split
      · simp; omega
      · simp; omega

theorem digitVal_of {c : UInt8} {d : Nat} (h : digitOf c = some d) : digitVal c = d := by
  unfold digitOf at h
  unfold digitVal
  split at h
  · rename_i e; rw [if_pos e]; exact Option.some.inj h
  · rename_i e
    rw [if_neg e]
    split at h
    · rename_i e; rw [if_pos e]; have := Option.some.inj h; omega
    · rename_i e
      rw [if_neg e]
      split at h
      · rename_i e; rw [if_pos e]; have := Option.some.inj h; omega
      · exact nomatch h

theorem loop_stop {base : Nat} (hb : base ≤ 36) {tail : Bytes} (h : ∀ c ∈ tail.head?, ∀ d, digitOf c = some d → base ≤ d) (acc : Nat) :
    digitsLoop base tail acc = acc := by
  cases tail with
  | nil => rfl
  | cons c r =>
    rw [digitsLoop, if_neg]
    intro hc
    obtain ⟨d, h1, h2⟩ := (digitOf_val hb).mp hc
    have := h c rfl d h1
    omega

theorem loop_digits {base : Nat} {ds : Bytes} {v : Nat} (h : Digits base ds v) :
    ∀ tail acc, digitsLoop base (ds ++ tail) acc = digitsLoop base tail (acc * base ^ ds.length + v) := by
  induction h with
  | nil => intro tail acc; simp
  | @snoc ds v c d hd hc hlt ih =>
    intro tail acc
    rw [List.append_assoc, ih, List.singleton_append, digitsLoop, digitVal_of hc, if_pos hlt]
    congr 1
    rw [List.length_append, List.length_singleton, Nat.pow_succ, Nat.add_mul, Nat.mul_assoc, Nat.add_assoc]

theorem loop_leading {base : Nat} (hb : base ≤ 36) {s : Bytes} {v : Nat} (h : Leading base s v) : digitsLoop base s 0 = v := by
  obtain ⟨ds, tail, rfl, h1, h2⟩ := h
  rw [loop_digits h1, loop_stop hb h2]
  simp

/-- The digits a text begins with. -/
theorem leading_exists (base : Nat) (s : Bytes) : ∃ v, Leading base s v := by
  suffices H : ∀ (s : Bytes) (ds : Bytes) (v : Nat), Digits base ds v → ∃ v, Leading base (ds ++ s) v by
    simpa using H s [] 0 .nil
  intro s
  induction s with
  | nil => intro ds v h; exact ⟨v, ds, [], rfl, h, by simp⟩
  | cons c r ih =>
    intro ds v h
    by_cases hc : ∃ d, digitOf c = some d ∧ d < base
    · obtain ⟨d, h1, h2⟩ := hc
      have := ih (ds ++ [c]) _ (.snoc h h1 h2)
      simpa using this
    · refine ⟨v, ds, c :: r, rfl, h, ?_⟩
      intro x hx d hd
      obtain rfl : c = x := by simpa using hx
      exact Nat.not_lt.mp fun hlt => hc ⟨d, hd, hlt⟩

theorem hexStart_iff (s : Bytes) : HexStart s ↔ ∃ x d r, s = 48 :: x :: d :: r ∧ ((x = 120 ∨ x = 88) ∧ digitVal d < 16) := by
  unfold HexStart
  constructor
  · rintro ⟨x, d, r, e, hx, h⟩
    exact ⟨x, d, r, e, hx, (digitOf_val (by decide)).mpr h⟩
  · rintro ⟨x, d, r, e, hx, h⟩
    exact ⟨x, d, r, e, hx, (digitOf_val (by decide)).mp h⟩

theorem strtol16_plain {s : Bytes} (h : ¬ HexStart s) : strtol16 s = digitsLoop 16 s 0 := by
  rw [hexStart_iff] at h
  unfold strtol16
  split
  · rename_i x d r
    rw [if_neg]
    intro hc
    exact h ⟨x, d, r, rfl, hc⟩
  · rfl

theorem strtol16_prefix {x : UInt8} {s : Bytes} (h : HexStart (48 :: x :: s)) : strtol16 (48 :: x :: s) = digitsLoop 16 s 0 := by
  rw [hexStart_iff] at h
  obtain ⟨y, d, r, e, hc⟩ := h
  injection e with _ e
  injection e with e1 e2
  subst e1 e2
  unfold strtol16
  simp only
  rw [if_pos hc]

theorem charOf_int (v : Nat) :
    (if badChar (intOfU (min v 9223372036854775807)) then none else some (intOfU (min v 9223372036854775807)).toNat) = charOfNumber v := by
  unfold charOfNumber intOfU badChar two32
  simp only [Nat.reducePow, Nat.reduceSub]
  have hlt : min v 9223372036854775807 % 4294967296 < 4294967296 := Nat.mod_lt _ (by decide)
  generalize min v 9223372036854775807 % 4294967296 = w at hlt
  by_cases h1 : 2147483648 ≤ w
  · have h3 : ¬ w < 2147483648 := by omega
    rw [if_pos h1]
    simp [h3]
    omega
  · have h3 : w < 2147483648 := by omega
    rw [if_neg h1]
    by_cases h2 : w < 32 ∧ w ≠ 9 ∧ w ≠ 10 ∧ w ≠ 13
    · rw [if_pos h2]
      simp [h3]
      omega
    · rw [if_neg h2]
      simp [h3]
      omega

/-- The character of a numeric reference is the one of its number. -/
theorem C40_numeric (s : Bytes) (v : Nat) (h : RefNumber s v) : entityChar (35 :: s) = charOfNumber v := by
  rw [← charOf_int]
  cases h with
  | dec h1 h2 =>
    rw [← loop_leading (by decide) h2]
    unfold entityChar
    cases s with
    | nil => rfl
    | cons c r =>
      have : c ≠ 120 := by simpa using h1
      split
      · rename_i e
        injection e with _ e
        injection e with e _
        exact absurd e this
      · rename_i e
        injection e with _ e
        subst e
        rfl
      · rename_i h3
        exact absurd rfl (h3 _)
  | hex h1 h2 =>
    rw [← loop_leading (by decide) h2, ← strtol16_plain h1]
    rfl
  | hex0x h1 h2 =>
    rw [← loop_leading (by decide) h2, ← strtol16_prefix h1]
    rfl

/-- Whatever follows `&#` has exactly one number. -/
theorem C40_one_number (s : Bytes) : ∃ v, RefNumber s v ∧ ∀ w, RefNumber s w → w = v := by
  have hu : ∀ w, RefNumber s w → w = (match s with | 120 :: t => strtol16 t | _ => digitsLoop 10 s 0) := by
    intro w h
    cases h with
    | dec h1 h2 =>
      rw [← loop_leading (by decide) h2]
      split
      · simp at h1
      · rfl
    | hex h1 h2 => rw [← loop_leading (by decide) h2, ← strtol16_plain h1]; rfl
    | hex0x h1 h2 => rw [← loop_leading (by decide) h2, ← strtol16_prefix h1]; rfl
  have he : ∃ v, RefNumber s v := by
    by_cases h : s.head? = some 120
    · cases s with
      | nil => simp at h
      | cons c t =>
        obtain rfl : c = 120 := by simpa using h
        by_cases hx : HexStart t
        · have hx' := hx
          obtain ⟨x, d, r, rfl, _⟩ := hx'
          obtain ⟨v, hv⟩ := leading_exists 16 (d :: r)
          exact ⟨v, .hex0x hx hv⟩
        · obtain ⟨v, hv⟩ := leading_exists 16 t
          exact ⟨v, .hex hx hv⟩
    · obtain ⟨v, hv⟩ := leading_exists 10 s
      exact ⟨v, .dec h hv⟩
  obtain ⟨v, hv⟩ := he
  exact ⟨v, hv, fun w hw => (hu w hw).trans (hu v hv).symm⟩

/-- A reference that begins with something else is a name of the table, or no character. -/
theorem C40_named (name : Bytes) (h : name.head? ≠ some 35) (v : Nat) : entityChar name = some v ↔ (name, v) ∈ entityTable := by
  have hv : ∀ p ∈ entityTable, 32 ≤ p.2 := by decide +kernel
  rw [← C40_entity_lookup_exact]
  unfold entityChar
  split
  · simp at h
  · simp at h
  · skip
    cases he : entityValue name with
    | none => simp [badChar]
    | some x =>
      have := hv _ ((C40_entity_lookup_exact name x).mp he)
      simp only at this
      have hb : badChar (x : Int) = false := by
        unfold badChar
        have : ¬ (x : Int) < 32 := by omega
        simp [this]
      simp [hb]

/-- The names are those of HTML 4 and five more, with the characters HTML 4 gives them; a name that is none of these is no character. -/
theorem C40_html (name : Bytes) (h : name.head? ≠ some 35) (v : Nat) :
    entityChar name = some v ↔ ∃ s, (s, v) ∈ Spec.Html.named ++ Spec.Html.others ∧ name = s.toUTF8.toList := by
  rw [C40_named name h]
  have h1 : ∀ p ∈ entityTable, ∃ q ∈ Spec.Html.named ++ Spec.Html.others, q.2 = p.2 ∧ p.1 = q.1.toUTF8.toList := by decide +kernel
  have h2 : ∀ q ∈ Spec.Html.named ++ Spec.Html.others, (q.1.toUTF8.toList, q.2) ∈ entityTable := by decide +kernel
  constructor
  · intro hm
    obtain ⟨⟨s, w⟩, hq, e1, e2⟩ := h1 _ hm
    cases e1
    exact ⟨s, hq, e2⟩
  · rintro ⟨s, hs, rfl⟩
    exact h2 _ hs

/-- Numbers above 32 bits are cut off, in silence: this reference is read as the letter A. -/
theorem C40_wraps : entityChar (b! "#4294967361") = some 65 ∧ entityChar (b! "#x100000041") = some 65 := by decide +kernel

/-- What follows the digits does not count, and no digits at all are no character. -/
theorem C40_rest_ignored : entityChar (b! "#65zz") = some 65 ∧ entityChar (b! "#x41#9") = some 65 ∧ entityChar (b! "#") = none ∧
    entityChar (b! "#x") = none ∧ entityChar (b! "#x0X41") = some 65 := by decide +kernel

example : RefNumber (b! "x0X41") 65 := by
  have h : Digits 16 (b! "41") 65 := .snoc (ds := b! "4") (v := 4) (c := 49) (d := 1)
    (.snoc (ds := []) (v := 0) (c := 52) (d := 4) .nil (by decide) (by decide)) (by decide) (by decide)
  exact .hex0x ⟨88, 52, [49], rfl, .inr rfl, 4, by decide, by decide⟩ ⟨b! "41", [], rfl, h, by simp⟩

end Afs
