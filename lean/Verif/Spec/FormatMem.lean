import Verif.Model.FormatMem
/-!
# Programs with boxing formats

For property C77: programs that create, copy, configure, load and free boxing formats, and have configurations of their own.
-/
namespace Afs.Spec.FormatMem
open Afs Xml Afs.FormatMem

variable {L : ConfigLib}

/-- A program: the memory, the references to formats it holds (with repetitions) and the configurations it owns. -/
structure World (L : ConfigLib) where
  mem : Mem L
  held : List Nat
  own : List Nat

def World.start : World L := ⟨Mem.empty, [], []⟩

/-- The calls a program makes. -/
inductive Call (L : ConfigLib) where
  | config (v : L.Config)
  | dropConfig (c : Nat)
  | create
  | create2 (c : Option Nat)
  | init
  | newRef (a : Nat)
  | free (a : Nat)
  | clone (a : Nat)
  | setConfig (a : Nat) (c : Option Nat)
  | load (a : Nat) (node : Node)

def World.step (w : World L) : Call L → Res (World L)
  | .config v => .ok ⟨(newConfig w.mem v).1, w.held, (newConfig w.mem v).2 :: w.own⟩
  | .dropConfig c => do
    let m ← freeConfig w.mem (some c)
    .ok ⟨m, w.held, w.own.erase c⟩
  | .create => do
    let r ← FormatMem.create w.mem
    .ok ⟨r.1, r.2 :: w.held, w.own⟩
  | .create2 c => do
    let r ← FormatMem.create2 w.mem c
    .ok ⟨r.1, r.2 :: w.held, w.own⟩
  | .init => .ok ⟨(FormatMem.init w.mem).1, (FormatMem.init w.mem).2 :: w.held, w.own⟩
  | .newRef a => do
    let m ← FormatMem.newRef w.mem a
    .ok ⟨m, a :: w.held, w.own⟩
  | .free a => do
    let m ← FormatMem.free w.mem a
    .ok ⟨m, w.held.erase a, w.own⟩
  | .clone a => do
    let r ← FormatMem.clone w.mem a
    .ok ⟨r.1, r.2 :: w.held, w.own⟩
  | .setConfig a c => do
    let m ← FormatMem.setConfig w.mem a c
    .ok ⟨m, w.held, w.own⟩
  | .load a node => do
    let r ← FormatMem.loadXml w.mem a node
    .ok ⟨r.1, w.held, w.own⟩

/-- A pointer to a configuration that is there: the program's own, or that of a format the program can get at. -/
def There (w : World L) (c : Option Nat) : Prop := ∀ x, c = some x → ∃ v, w.mem.configs x = some v

/-- The configuration of a format. -/
def Has (w : World L) (a c : Nat) : Prop := ∃ b, w.mem.formats a = some b ∧ b.config = some c

/-- A format all of whose fields are written. -/
def Written (w : World L) (a : Nat) : Prop := ∃ b, w.mem.formats a = some b ∧ b.numbers.isSome = true

/-- What callers must see to. -/
def Legal (w : World L) : Call L → Prop
  | .config _ => True
  | .dropConfig c => c ∈ w.own
  | .create => True
  | .create2 c => There w c
  | .init => True
  | .newRef a => a ∈ w.held
  | .free a => a ∈ w.held
  | .clone a => a ∈ w.held ∧ Written w a
  | .setConfig a c => a ∈ w.held ∧ There w c ∧ ∀ x, c = some x → ¬ Has w a x
  | .load a _ => a ∈ w.held

def World.run (w : World L) : List (Call L) → Res (World L)
  | [] => .ok w
  | c :: cs => do
    let w ← w.step c
    World.run w cs

def LegalRun (w : World L) : List (Call L) → Prop
  | [] => True
  | c :: cs => Legal w c ∧ ∀ w', w.step c = .ok w' → LegalRun w' cs

/-- The states a program that keeps the rules can reach. -/
def Reached (w : World L) : Prop := ∃ cs, LegalRun World.start cs ∧ cs.length < 2147483646 ∧ World.start.run cs = .ok w

/-- The value in a configuration the program points at. -/
def valueAt (w : World L) (c : Option Nat) : Option L.Config := c.bind w.mem.configs

/-- A format of its configuration: new, or copied from one (a copy has fields of its own and a name read anew, see C49). -/
def Settled (f : Format L) : Prop := f = Format.init f.config ∨ f = (Format.init f.config).clone

/-- What a call did: one format reads as given, all others read as before. -/
def Effect (w w' : World L) (a : Nat) (f : Format L) : Prop :=
  readFormat w'.mem a = .ok f ∧ ∀ x g, x ≠ a → readFormat w.mem x = .ok g → readFormat w'.mem x = .ok g

/-- All that could be read can still be read, and reads the same. -/
def ReadsSame (w w' : World L) : Prop := ∀ x g, readFormat w.mem x = .ok g → readFormat w'.mem x = .ok g

end Afs.Spec.FormatMem
