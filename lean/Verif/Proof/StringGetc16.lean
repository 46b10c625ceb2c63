import Verif.Proof.StringGetc
import Verif.Proof.Utf16
/-!
# Strings in UTF-16 in memory
-/
namespace Afs.Xml
open Afs Spec

theorem unit16_hl (be : Bool) {u : Nat} (h : u < 65536) :
    unitBytes be u = (if be then [UInt8.ofNat (u / 256), UInt8.ofNat (u % 256)] else [UInt8.ofNat (u % 256), UInt8.ofNat (u / 256)]) ∧
    (UInt8.ofNat (u / 256)).toNat = u / 256 ∧ (UInt8.ofNat (u % 256)).toNat = u % 256 := by
  refine ⟨rfl, ?_, ?_⟩ <;> simp only [UInt8.toNat_ofNat'] <;> omega

theorem badUnit_iff (u : Nat) : badUnit u = true ↔ u < 0x20 ∧ u ≠ 9 ∧ u ≠ 10 ∧ u ≠ 13 := by
  unfold badUnit badChar; simp; omega

theorem isHigh_iff (u : Nat) : isHighUnit u = true ↔ 0xD800 ≤ u ∧ u < 0xDC00 := by
  unfold isHighUnit; simp; omega

theorem lowHalf_eq {u l : Nat} (h : 0xD800 ≤ u ∧ u < 0xDC00) :
    lowHalf u (some l) = if 0xDC00 ≤ l ∧ l < 0xDFFF then some ((u - 0xD800) * 0x400 + (l - 0xDC00) + 0x10000) else none := by
  unfold lowHalf isLowUnit pairUnits
  dsimp only
  by_cases hl : 0xDC00 ≤ l ∧ l < 0xDFFF
  · have : (!(decide (l < 56320) || decide (57343 ≤ l))) = true := by simp; omega
    rw [if_pos hl, if_pos this, Option.some_inj]
    omega
  · have : ¬ (!(decide (l < 56320) || decide (57343 ≤ l))) = true := by simp; omega
    rw [if_neg hl, if_neg this]

theorem cu_bad {u : Nat} (us : List Nat) (h : u < 0x20 ∧ u ≠ 9 ∧ u ≠ 10 ∧ u ≠ 13) :
    charsOfUnits (u :: us) = none :: charsOfUnits us := by
  rw [charsOfUnits.eq_def]; dsimp only; rw [if_pos h]

theorem cu_plain {u : Nat} (us : List Nat) (h : ¬ (u < 0x20 ∧ u ≠ 9 ∧ u ≠ 10 ∧ u ≠ 13)) (h' : ¬ (0xD800 ≤ u ∧ u < 0xDC00)) :
    charsOfUnits (u :: us) = some u :: charsOfUnits us := by
  rw [charsOfUnits.eq_def]; dsimp only; rw [if_neg h, if_neg h']

theorem cu_last {u : Nat} (h : ¬ (u < 0x20 ∧ u ≠ 9 ∧ u ≠ 10 ∧ u ≠ 13)) (h' : 0xD800 ≤ u ∧ u < 0xDC00) :
    charsOfUnits [u] = [none] := by
  rw [charsOfUnits.eq_def]; dsimp only; rw [if_neg h, if_pos h']

theorem cu_pair {u : Nat} (l : Nat) (r : List Nat) (h : ¬ (u < 0x20 ∧ u ≠ 9 ∧ u ≠ 10 ∧ u ≠ 13)) (h' : 0xD800 ≤ u ∧ u < 0xDC00) :
    charsOfUnits (u :: l :: r) = if l < 0x100 then none :: charsOfUnits (l :: r)
      else (if 0xDC00 ≤ l ∧ l < 0xDFFF then some ((u - 0xD800) * 0x400 + (l - 0xDC00) + 0x10000) else none) :: charsOfUnits r := by
  rw [charsOfUnits.eq_def]; dsimp only; rw [if_neg h, if_pos h']

/-- The encoding. -/
def encOf (be : Bool) : Enc := if be then .be else .le

/-- One call at a code unit. -/
theorem getc16_ok (be : Bool) (us : List Nat) (h : GoesOn be us) (tail : Bytes) :
    ∃ x us', us'.Sublist us ∧ stringGetc (encOf be) (us.flatMap (unitBytes be) ++ (endOf16 be ++ tail)) =
        .ok (x, encOf be, us'.flatMap (unitBytes be) ++ (endOf16 be ++ tail)) ∧
      ((us = [] ∧ x = none ∧ us' = []) ∨ charsOfUnits us = x :: charsOfUnits us') := by
  cases us with
  | nil =>
    refine ⟨none, [], .refl _, ?_, .inl ⟨rfl, rfl, rfl⟩⟩
    cases be <;> simp [encOf, endOf16, stringGetc, getc16, getcLE, peek, unit16]
  | cons u us =>
    obtain ⟨hu, hz⟩ := h u (by simp)
    obtain ⟨e0, e1, e2⟩ := unit16_hl be hu
    have hm : unit16 be (if be then UInt8.ofNat (u / 256) else UInt8.ofNat (u % 256))
        (if be then UInt8.ofNat (u % 256) else UInt8.ofNat (u / 256)) = u := by
      cases be <;> simp [unit16, -UInt8.toNat_ofNat', e1, e2] <;> omega
    by_cases hb : badUnit u = true
    · refine ⟨none, us, List.sublist_cons_self .., ?_, .inr ?_⟩
      · cases be
        · simp only [Bool.false_eq_true, if_false] at hm hz e0
          simp [encOf, stringGetc, getc16, getcLE, peek, e0, hm, hz, hb]
        · simp only [if_true] at hm hz e0
          have : UInt8.ofNat (u / 256) ≠ 0 := fun h => by rw [h] at e1; simp at e1; omega
          simp [encOf, stringGetc, getc16, getcBE, peek, e0, hm, this, hb]
      · exact cu_bad us ((badUnit_iff u).1 hb)
    · have hb' := hb
      rw [badUnit_iff] at hb'
      by_cases hh : isHighUnit u = true
      · have hh' := (isHigh_iff u).1 hh
        cases us with
        | nil =>
          refine ⟨none, [], List.sublist_cons_self .., ?_, .inr ?_⟩
          · cases be
            · simp only [Bool.false_eq_true, if_false] at hm hz e0
              simp [encOf, stringGetc, getc16, getcLE, peek, e0, hm, hz, hb, hh, endOf16]
            · simp only [if_true] at hm hz e0
              have : UInt8.ofNat (u / 256) ≠ 0 := fun h => by rw [h] at e1; simp at e1; omega
              simp [encOf, stringGetc, getc16, getcBE, peek, e0, hm, this, hb, hh, endOf16]
          · rw [cu_last hb' hh', charsOfUnits]
        | cons l r =>
          obtain ⟨hlu, hlz⟩ := h l (by simp)
          obtain ⟨f0, f1, f2⟩ := unit16_hl be hlu
          have fm : unit16 be (if be then UInt8.ofNat (l / 256) else UInt8.ofNat (l % 256))
              (if be then UInt8.ofNat (l % 256) else UInt8.ofNat (l / 256)) = l := by
            cases be <;> simp [unit16, -UInt8.toNat_ofNat', f1, f2] <;> omega
          have hc : charsOfUnits (u :: l :: r) = if l < 0x100 then none :: charsOfUnits (l :: r)
              else lowHalf u (some l) :: charsOfUnits r := by
            rw [cu_pair l r hb' hh', lowHalf_eq hh']
          by_cases hl : l < 0x100
          · refine ⟨none, l :: r, List.sublist_cons_self .., ?_, .inr (by rw [hc, if_pos hl])⟩
            have hz0 : UInt8.ofNat (l / 256) = 0 := by rw [← UInt8.toNat_inj, f1]; simp; omega
            cases be
            · simp only [Bool.false_eq_true, if_false] at hm hz e0 f0
              rw [hz0] at f0
              simp [encOf, stringGetc, getc16, getcLE, peek, e0, hm, hz, hb, hh, f0]
            · simp only [if_true] at hlz
              omega
          · refine ⟨lowHalf u (some l), r, by simp, ?_, .inr (by rw [hc, if_neg hl])⟩
            have hz0 : UInt8.ofNat (l / 256) ≠ 0 := fun h => by rw [h] at f1; simp at f1; omega
            cases be
            · simp only [Bool.false_eq_true, if_false] at hm hz e0 f0 fm
              simp [encOf, stringGetc, getc16, getcLE, peek, e0, hm, hz, hb, hh, f0, hz0, fm]
            · simp only [if_true] at hm hz e0 f0 fm
              have : UInt8.ofNat (u / 256) ≠ 0 := fun h => by rw [h] at e1; simp at e1; omega
              simp [encOf, stringGetc, getc16, getcBE, peek, e0, hm, this, hb, hh, f0, hz0, fm]
      · have hh' := hh
        rw [isHigh_iff] at hh'
        refine ⟨some u, us, List.sublist_cons_self .., ?_, .inr ?_⟩
        · cases be
          · simp only [Bool.false_eq_true, if_false] at hm hz e0
            simp [encOf, stringGetc, getc16, getcLE, peek, e0, hm, hz, hb, hh]
          · simp only [if_true] at hm hz e0
            have : UInt8.ofNat (u / 256) ≠ 0 := fun h => by rw [h] at e1; simp at e1; omega
            simp [encOf, stringGetc, getc16, getcBE, peek, e0, hm, this, hb, hh]
        · exact cu_plain us hb' hh'

/-- Pulling from memory is running over the characters and the `EOF`s. -/
theorem loadMem_run16 (be : Bool) (tail : Bytes) : ∀ (n : Nat) (s : PS) (us : List Nat) (e : Nat), GoesOn be us →
    (∃ r, (run s (charsOfUnits us ++ List.replicate e none)).pc = .done r) → (charsOfUnits us).length + e ≤ n →
    loadMem n s (encOf be) (us.flatMap (unitBytes be) ++ (endOf16 be ++ tail)) =
      .ok (some (run s (charsOfUnits us ++ List.replicate e none)).result) := by
  have hnil : charsOfUnits [] = [] := by rw [charsOfUnits]
  intro n
  induction n with
  | zero =>
    intro s us e h0 ⟨r, hr⟩ hn
    have h1 : charsOfUnits us = [] := List.eq_nil_of_length_eq_zero (by omega)
    have h2 : e = 0 := by omega
    subst h2
    rw [h1] at hr ⊢
    simp only [List.replicate_zero, List.append_nil] at hr ⊢
    have hr' : s.pc = .done r := hr
    simp only [loadMem, hr']
    rw [show run s [] = s from rfl]
    simp [PS.result, hr']
  | succ n ih =>
    intro s us e h0 hd hn
    unfold loadMem
    split
    · rename_i r hr
      rw [run_done' hr]
    · rename_i hpc
      obtain ⟨x, us', e1, e2, e3⟩ := getc16_ok be us h0 tail
      rw [e2]
      simp only [Res.bind]
      have h0' : GoesOn be us' := fun u hu => h0 u (e1.subset hu)
      rcases e3 with ⟨rfl, rfl, rfl⟩ | e3
      · rw [hnil] at hd hn ⊢
        cases e with
        | zero =>
          exfalso
          obtain ⟨r, hr⟩ := hd
          exact hpc r hr
        | succ e =>
          have := ih (step s none) [] e h0
            (by rw [hnil]; simpa [List.replicate_succ, run] using hd) (by rw [hnil]; simp at hn ⊢; omega)
          rw [this, hnil]
          simp [List.replicate_succ, run]
      · rw [e3] at hd hn ⊢
        have := ih (step s x) us' e h0' (by simpa [run] using hd) (by simp at hn ⊢; omega)
        rw [this]
        simp [run]

theorem charsOfUnits_length : ∀ (us : List Nat), (charsOfUnits us).length ≤ us.length
  | [] => by simp [charsOfUnits]
  | u :: us => by
    have h1 := charsOfUnits_length us
    by_cases hb : u < 0x20 ∧ u ≠ 9 ∧ u ≠ 10 ∧ u ≠ 13
    · rw [cu_bad us hb]; simpa using h1
    · by_cases hh : 0xD800 ≤ u ∧ u < 0xDC00
      · cases us with
        | nil => rw [cu_last hb hh]; simp
        | cons l r =>
          have h2 := charsOfUnits_length r
          rw [cu_pair l r hb hh]
          split
          · simpa using h1
          · simp; omega
      · rw [cu_plain us hb hh]; simpa using h1

theorem charsOfUnits_text : ∀ (cs : List Char), (∀ c ∈ cs, Allowed c ∧ ¬ EndsDFFF c) →
    charsOfUnits (cs.flatMap codeUnits) = cs.map fun c => some c.toNat
  | [], _ => by simp [charsOfUnits]
  | c :: cs, h => by
    have ih := charsOfUnits_text cs fun x hx => h x (by simp [hx])
    obtain ⟨⟨h1, _⟩, hd⟩ := h c (by simp)
    have h3 := char_not_surrogate c
    have h4 := char_lt c
    unfold EndsDFFF at hd
    rw [List.flatMap_cons, List.map_cons, ← ih]
    generalize cs.flatMap codeUnits = us
    unfold codeUnits
    generalize c.toNat = v at *
    by_cases hv : v < 65536
    · rw [if_pos hv, List.cons_append, List.nil_append, cu_plain us (by omega) (by omega)]
    · rw [if_neg hv, List.cons_append, List.cons_append, List.nil_append, cu_pair _ us (by omega) (by omega),
        if_neg (by omega), if_pos (by omega)]
      congr 2; omega

theorem goesOn_text (cs : List Char) (h : ∀ c ∈ cs, Allowed c) : GoesOn false (cs.flatMap codeUnits) := by
  intro u hu
  obtain ⟨c, hc, hu⟩ := List.mem_flatMap.mp hu
  refine ⟨codeUnits_lt c u hu, ?_⟩
  rw [if_neg (by simp)]
  obtain ⟨h1, _⟩ := h c hc
  unfold codeUnits at hu
  split at hu
  · simp at hu; omega
  · simp at hu; omega

theorem loadMem_mark (be : Bool) (n : Nat) (x : Bytes) :
    loadMem (n + 1) PS.init .utf8 (byteOrderMark be ++ x) = loadMem (n + 1) PS.init (encOf be) x := by
  have e : getcUtf8 (byteOrderMark be ++ x) = getc16 be x := by
    rw [getcUtf8.eq_def]; cases be <;> simp [byteOrderMark, peek]
  rw [loadMem, loadMem]
  cases be <;> simp [PS.init, stringGetc, e, encOf]

end Afs.Xml
