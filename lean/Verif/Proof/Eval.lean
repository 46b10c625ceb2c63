import Verif.Proof.XmlParse
/-!
# Reading a long text line by line

`runLines` is `run`, but the state is computed after each line: so the kernel can run the reader on texts of several thousand
characters without building up what is left to compute.
-/
namespace Afs.Xml.Eval
open Afs Afs.Xml

def wBytes : Bytes → Nat
  | [] => 0
  | b :: l => b.toNat + wBytes l

def wAttrs : List (Bytes × Option Bytes) → Nat
  | [] => 0
  | (a, none) :: l => wBytes a + wAttrs l
  | (a, some v) :: l => wBytes a + wBytes v + wAttrs l

mutual
def wNode : Node → Nat
  | .elem n as cs => wBytes n + wAttrs as + wNodes cs
  | .text s => wBytes s
def wNodes : List Node → Nat
  | [] => 0
  | n :: l => wNode n + wNodes l
end

def wFrames : List Frame → Nat
  | [] => 0
  | f :: l => wBytes f.name + wAttrs f.attrs + wNodes f.rev + wFrames l

def wPC : PC → Nat
  | .main b | .name b | .comment b | .cdata b | .pi b | .decl b | .slash b => wBytes b
  | .attr e => wBytes e.1 + wAttrs e.2
  | .qname e _ an | .aname e an | .aeq e an | .vskip e an => wBytes e.1 + wAttrs e.2 + wBytes an
  | .qval e an _ av | .uval e an av => wBytes e.1 + wAttrs e.2 + wBytes an + wBytes av
  | _ => 0

/-- A number that needs all of the state. -/
def wState (s : PS) : Nat := wPC s.pc + wFrames s.stack + (match s.root with | none => 0 | some n => wNode n) + s.opq.toNat

def runLines (s : PS) : List (List (Option Nat)) → PS
  | [] => s
  | l :: ls => bif Nat.ble 0 (wState (run s l)) then runLines (run s l) ls else s

theorem runLines_eq (s : PS) (ls : List (List (Option Nat))) : runLines s ls = run s ls.flatten := by
  induction ls generalizing s with
  | nil => rfl
  | cons l ls ih =>
    have h : Nat.ble 0 (wState (run s l)) = true := Nat.ble_eq.mpr (Nat.zero_le _)
    rw [runLines, h, cond_true, ih, List.flatten_cons, run_append]

/-- A line of printable ASCII, tabs and line feeds. -/
def asciiLine (l : Bytes) : Bool := l.all fun b => decide (b.toNat < 128) && !badChar b.toNat

theorem decode_asciiLine {l : Bytes} (h : asciiLine l = true) (s : Bytes) :
    decode (l ++ s) = (l.map fun b => some b.toNat) ++ decode s := by
  induction l with
  | nil => rfl
  | cons b l ih =>
    unfold asciiLine at h ih
    rw [List.all_cons, Bool.and_eq_true, Bool.and_eq_true, decide_eq_true_eq, Bool.not_eq_true'] at h
    rw [List.cons_append, decode.eq_def]
    dsimp only
    rw [if_pos h.1.1, h.1.2, ih h.2]
    rfl

theorem decode_lines {ls : List Bytes} (h : ls.all asciiLine = true) :
    decode ls.flatten = (ls.map fun l => l.map fun b => some b.toNat).flatten := by
  induction ls with
  | nil => rfl
  | cons l ls ih =>
    rw [List.all_cons, Bool.and_eq_true] at h
    rw [List.flatten_cons, decode_asciiLine h.1, ih h.2, List.map_cons, List.flatten_cons]

/-- What reading the lines gives. -/
def readLines (ls : List Bytes) : Option Node :=
  (run (runLines PS.init (ls.map fun l => l.map fun b => some b.toNat)) [none, none, none]).result

theorem loadString_lines {ls : List Bytes} (h : ls.all asciiLine = true) : loadString ls.flatten = readLines ls := by
  unfold loadString loadData readLines
  rw [runLines_eq, decode_lines h]

end Afs.Xml.Eval
