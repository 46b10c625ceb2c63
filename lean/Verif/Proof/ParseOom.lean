import Verif.Model.Xml.ParseOom
import Verif.Proof.ParseMem7
/-!
# The reader when memory is refused: every step
-/
namespace Afs.ParseMem
open Afs Afs.Xml Afs.Links Afs.Spec

/-- Nothing is refused. -/
def nothing : Refusals := fun _ => false

/-- The same refusals, but every growth of a buffer is granted. -/
def growing (no : Refusals) : Refusals := fun r => no r && r != .grow

/-- Undefined behaviour, now or when the function is left: `buffer` is freed already. -/
def Doom (r : Res MS) : Prop := r = .ub ∨ ∃ m, r = .ok m ∧ m.pc = .fail none ∧ m.buf = none

theorem Doom.ub : Doom .ub := .inl rfl

/-! ### Refused growths -/

/-- Either growths do not matter or the outcome is undefined behaviour. -/
def Dz (no : Refusals) (r r' : Res MS) : Prop := r = r' ∨ no .grow = true ∧ Doom r

theorem Dz.refl {no : Refusals} (r : Res MS) : Dz no r r := .inl rfl

theorem Dz.bind {α : Type} {no : Refusals} {r : Res α} {k k' : α → Res MS} (h : ∀ x, r = .ok x → Dz no (k x) (k' x)) : Dz no (r >>= k) (r >>= k') := by
  cases r with
  | ub => exact .inl rfl
  | ok x => exact h x rfl

theorem Dz.ite {no : Refusals} {p : Prop} [Decidable p] {a a' b b' : Res MS} (h1 : Dz no a a') (h2 : Dz no b b') :
    Dz no (if p then a else b) (if p then a' else b') := by split <;> assumption

theorem growing_grow (no : Refusals) : growing no .grow = false := by simp [growing]
theorem growing_other (no : Refusals) {r : Request} (h : r ≠ .grow) : growing no r = no r := by simp [growing, h]

theorem addBuf_dz (no : Refusals) (s : MS) (f : CBuf → Res CBuf) {k k' : MS → Res MS} (hk : ∀ s, Dz no (k s) (k' s)) :
    Dz no (s.addBuf no f k) (s.addBuf (growing no) f k') := by
  unfold MS.addBuf
  refine Dz.bind fun b _ => ?_
  rw [growing_grow]
  simp only [Bool.false_and, Bool.false_eq_true, if_false]
  split
  · rename_i h
    simp only [Bool.and_eq_true] at h
    exact .inr ⟨h.1, .inr ⟨_, rfl, rfl, rfl⟩⟩
  · exact Dz.bind fun s _ => hk s

theorem attrError_an (s : MS) (h : s.an = none) : s.attrError = .ub := by
  unfold MS.attrError MS.freeAttr
  rw [h]; rfl

theorem attrError_av (s : MS) (h : s.av = none) : s.attrError = .ub := by
  unfold MS.attrError MS.freeAttr
  rw [h]
  cases s.an <;> rfl

theorem addName_dz (no : Refusals) (s : MS) (f : CBuf → Res CBuf) {k k' : MS → Res MS} (hk : ∀ s, Dz no (k s) (k' s)) :
    Dz no (s.addName no f k) (s.addName (growing no) f k') := by
  unfold MS.addName
  refine Dz.bind fun b _ => ?_
  rw [growing_grow]
  simp only [Bool.false_and, Bool.false_eq_true, if_false]
  split
  · rename_i h
    simp only [Bool.and_eq_true] at h
    exact .inr ⟨h.1, .inl (attrError_an _ rfl)⟩
  · exact Dz.bind fun s _ => hk s

theorem addValue_dz (no : Refusals) (s : MS) (f : CBuf → Res CBuf) {k k' : MS → Res MS} (hk : ∀ s, Dz no (k s) (k' s)) :
    Dz no (s.addValue no f k) (s.addValue (growing no) f k') := by
  unfold MS.addValue
  refine Dz.bind fun b _ => ?_
  rw [growing_grow]
  simp only [Bool.false_and, Bool.false_eq_true, if_false]
  split
  · rename_i h
    simp only [Bool.and_eq_true] at h
    exact .inr ⟨h.1, .inl (attrError_av _ rfl)⟩
  · exact Dz.bind fun s _ => hk s

theorem flush_dz (A : Heap → Nat) (no : Refusals) (s : MS) {k k' : MS → Res MS} (hk : ∀ s, Dz no (k s) (k' s)) :
    Dz no (s.flushNo A no k) (s.flushNo A (growing no) k') := by
  unfold MS.flushNo
  refine Dz.bind fun b _ => Dz.ite (hk _) (Dz.bind fun b _ => Dz.bind fun _ _ => Dz.ite (Dz.bind fun t _ => ?_) (hk _))
  rw [growing_other no (by decide)]
  exact Dz.ite (.refl _) (Dz.bind fun r _ => hk _)

theorem addSpecial_dz (A : Heap → Nat) (no : Refusals) (c : Bool) (s : MS) : s.addSpecialNo A no c = s.addSpecialNo A (growing no) c := by
  unfold MS.addSpecialNo
  rw [growing_other no (by decide)]

theorem addDirective_dz (A : Heap → Nat) (no : Refusals) (s : MS) : s.addDirectiveNo A no = s.addDirectiveNo A (growing no) := by
  unfold MS.addDirectiveNo
  rw [growing_other no (by decide)]

theorem declBody_dz (A : Heap → Nat) (no : Refusals) (s : MS) (ch : Option Nat) : Dz no (s.declBodyNo A no ch) (s.declBodyNo A (growing no) ch) := by
  unfold MS.declBodyNo
  cases ch with
  | none => exact addBuf_dz _ _ _ fun _ => .refl _
  | some c =>
    exact Dz.ite (.inl (addDirective_dz A no s)) (Dz.ite (.refl _) (addBuf_dz _ _ _ fun _ => .refl _))

theorem element_dz (A : Heap → Nat) (no : Refusals) (s : MS) (t : Bytes) (ch : Option Nat) : s.elementNo A no t ch = s.elementNo A (growing no) t ch := by
  unfold MS.elementNo
  rw [growing_other no (r := .node) (by decide), growing_other no (r := .name) (by decide), growing_other no (r := .value) (by decide)]

theorem afterName_dz (A : Heap → Nat) (no : Refusals) (s : MS) (ch : Option Nat) : Dz no (s.afterNameNo A no ch) (s.afterNameNo A (growing no) ch) := by
  unfold MS.afterNameNo
  refine Dz.bind fun s _ => Dz.bind fun b _ => Dz.bind fun t _ => Dz.bind fun c0 _ => ?_
  refine Dz.ite (.refl _) (Dz.ite (.refl _) (Dz.ite (.refl _) (Dz.ite (declBody_dz A no s ch) (Dz.ite (.refl _) (Dz.ite (.refl _) (.inl (element_dz A no s t ch)))))))

theorem afterValue_dz (no : Refusals) (s : MS) (n : Nat) (ch : Option Nat) : s.afterValueNo no n ch = s.afterValueNo (growing no) n ch := by
  unfold MS.afterValueNo
  rw [growing_other no (by decide)]

theorem resume_dz (no : Refusals) (s : MS) (k : MPC) (ch : Nat) : Dz no (s.resumeNo no k ch) (s.resumeNo (growing no) k ch) := by
  unfold MS.resumeNo
  split
  case h_1 => exact addBuf_dz _ _ _ fun _ => .refl _
  case h_2 => exact addBuf_dz _ _ _ fun _ => .refl _
  case h_3 => exact addBuf_dz _ _ _ fun _ => .refl _
  case h_4 => exact addName_dz _ _ _ fun _ => .refl _
  case h_5 => exact addName_dz _ _ _ fun _ => .refl _
  case h_6 => exact addValue_dz _ _ _ fun _ => .refl _
  case h_7 => exact addValue_dz _ _ _ fun _ => .refl _
  case h_8 => exact .refl _

theorem entity_dz (no : Refusals) (s : MS) (k : MPC) (e : CBuf) (ch : Option Nat) : Dz no (s.entityNo no k e ch) (s.entityNo (growing no) k e ch) := by
  unfold MS.entityNo
  cases ch with
  | none => exact .refl _
  | some c =>
    refine Dz.ite (.refl _) (Dz.bind fun e _ => Dz.ite (Dz.bind fun t _ => ?_) (.refl _))
    cases entityChar t with
    | none => exact .refl _
    | some v => exact resume_dz no s k v

theorem nameChar_dz (A : Heap → Nat) (no : Refusals) (s : MS) (c : Nat) : Dz no (s.nameCharNo A no c) (s.nameCharNo A (growing no) c) := by
  unfold MS.nameCharNo
  refine addBuf_dz _ _ _ fun s => Dz.bind fun b _ => Dz.bind fun st _ => Dz.ite (afterName_dz A no s _) (.refl _)

theorem mainTail_dz (no : Refusals) (s : MS) (c : Nat) : Dz no (s.mainTailNo no c) (s.mainTailNo (growing no) c) := by
  unfold MS.mainTailNo
  exact Dz.ite (.refl _) (Dz.ite (addBuf_dz _ _ _ fun _ => .refl _) (.refl _))

theorem mainChar_dz (A : Heap → Nat) (no : Refusals) (s : MS) (c : Nat) : Dz no (s.mainCharNo A no c) (s.mainCharNo A (growing no) c) := by
  unfold MS.mainCharNo
  exact Dz.ite (flush_dz A no s fun s => mainTail_dz no s c) (mainTail_dz no s c)

/-- At every step: either it makes no difference whether growths are refused, or one is and the outcome is undefined. -/
theorem step_dz (A : Heap → Nat) (no : Refusals) (s : MS) (ch : Option Nat) : Dz no (s.stepNo A no ch) (s.stepNo A (growing no) ch) := by
  obtain ⟨pc, h, p, f, o, b, a, v⟩ := s
  unfold MS.stepNo
  cases pc with
  | main =>
    cases ch with
    | none => exact .refl _
    | some c => exact Dz.ite (flush_dz A no _ fun _ => .refl _) (mainChar_dz A no _ c)
  | name =>
    cases ch with
    | none => exact afterName_dz A no _ _
    | some c =>
      exact Dz.bind fun b _ => Dz.ite (afterName_dz A no _ _) (Dz.ite (.refl _) (Dz.ite (.refl _) (Dz.ite (.refl _) (nameChar_dz A no _ c))))
  | comment =>
    cases ch with
    | none => exact .refl _
    | some c => exact Dz.bind fun b _ => Dz.bind fun e _ => Dz.ite (.inl (addSpecial_dz A no _ _)) (addBuf_dz _ _ _ fun _ => .refl _)
  | cdata =>
    cases ch with
    | none => exact .refl _
    | some c => exact Dz.bind fun b _ => Dz.bind fun e _ => Dz.ite (.inl (addSpecial_dz A no _ _)) (addBuf_dz _ _ _ fun _ => .refl _)
  | pi =>
    cases ch with
    | none => exact .refl _
    | some c => exact Dz.bind fun b _ => Dz.bind fun e _ => Dz.ite (.inl (addDirective_dz A no _)) (addBuf_dz _ _ _ fun _ => .refl _)
  | decl =>
    cases ch with
    | none => exact .refl _
    | some c => exact declBody_dz A no _ _
  | close => exact .refl _
  | slash n => exact .refl _
  | attr n => exact .refl _
  | attrSlash n c => exact .refl _
  | qname n q =>
    cases ch with
    | none => exact .refl _
    | some c => exact Dz.ite (.refl _) (addName_dz _ _ _ fun _ => .refl _)
  | aname n =>
    cases ch with
    | none => exact .refl _
    | some c => exact Dz.ite (.refl _) (Dz.ite (.refl _) (addName_dz _ _ _ fun _ => .refl _))
  | aeq n => exact .refl _
  | vskip n => exact .refl _
  | qval n q =>
    cases ch with
    | none => exact .inl (afterValue_dz no _ n none)
    | some c => exact Dz.ite (.inl (afterValue_dz no _ n _)) (Dz.ite (.refl _) (addValue_dz _ _ _ fun _ => .refl _))
  | uval n =>
    cases ch with
    | none => exact .inl (afterValue_dz no _ n none)
    | some c => exact Dz.ite (.inl (afterValue_dz no _ n _)) (Dz.ite (.refl _) (addValue_dz _ _ _ fun _ => .refl _))
  | valSlash n c => exact .refl _
  | ent k e => exact entity_dz no _ k e ch
  | eof => exact .refl _
  | fail d => exact .refl _

end Afs.ParseMem
