import Verif.Model.Object
/-!
# Files when writes fail
-/
namespace Afs.Spec
open Afs

/-- `f` is `t` without some of its white space. -/
inductive Thinned : Bytes → Bytes → Prop
  | nil : Thinned [] []
  | keep {c : UInt8} {t f : Bytes} : Thinned t f → Thinned (c :: t) (c :: f)
  | drop {c : UInt8} {t f : Bytes} : c = 32 ∨ c = 9 ∨ c = 10 ∨ c = 13 → Thinned t f → Thinned (c :: t) f

/-- The disk takes `k` bytes and then nothing more (it is full, or the program dies). -/
def fullAfter (k : Nat) : Nat → Bool := fun i => decide (i < k)

/-- Nothing fails. -/
def noFailure : Nat → Bool := fun _ => true

/-- A function that saves to a file writes over the old contents and does not notice failures.  `saved` is what the function returns and what is in
    the file when nothing fails (`none`: the file is not touched); `on canOpen ok old` is the same when the file can be opened or not, for the
    writes that get through, and for the old contents. -/
structure WritesInPlace (saved : Bool × Option Bytes) (on : Bool → (Nat → Bool) → Option Bytes → Bool × Option Bytes) : Prop where
  /-- A file that cannot be opened is not touched, and the function reports it. -/
  closed : ∀ ok old, on false ok old = (false, old)
  /-- An object that cannot be saved: the function reports it; the file is emptied, or not touched. -/
  refused : saved.1 = false → ∀ ok old, on true ok old = (false, saved.2.or old)
  /-- Nothing fails: the text, whatever was in the file. -/
  good : saved.1 = true → ∀ old, on true noFailure old = saved
  /-- The disk takes `k` bytes: success is reported, and the file holds the first `k` bytes of the text and nothing of the old contents. -/
  full : ∀ s, saved = (true, some s) → ∀ k old, on true (fullAfter k) old = (true, some (s.take k))
  /-- Whatever fails: success is reported, and the file holds a beginning of the text, of which white space may be missing. -/
  any : ∀ s, saved = (true, some s) → ∀ ok old, ∃ p rest f, s = p ++ rest ∧ Thinned p f ∧ on true ok old = (true, some f)

end Afs.Spec
