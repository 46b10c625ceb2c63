import Verif.Model.Xml.WriteFail
import Verif.Spec.Disk
import Verif.Proof.XmlRound
/-!
# The writer as a list of tokens
-/
namespace Afs.Xml
open Afs Afs.Spec

@[simp] theorem W.pure_bind' {α β : Type} (a : α) (f : α → W β) : (Pure.pure a >>= f : W β) = f a := rfl

theorem W.assoc {α β γ : Type} (m : W α) (f : α → W β) (g : β → W γ) : (m >>= f >>= g : W γ) = m >>= fun a => f a >>= g := by
  funext o
  change W.bind (W.bind m f) g o = W.bind m (fun a => W.bind (f a) g) o
  unfold W.bind
  cases h : m o with
  | mk o' r => cases r <;> rfl

theorem W.bind_pure' {α : Type} (m : W α) : (m >>= fun a => Pure.pure a : W α) = m := by
  funext o
  change W.bind m W.pure o = m o
  unfold W.bind W.pure
  cases h : m o with
  | mk o' r => cases r <;> rfl

variable (ok : Nat → Bool)

theorem wBytes_append (a b : Bytes) : wBytes ok (a ++ b) = (do wBytes ok a; wBytes ok b) := by
  induction a with
  | nil => rfl
  | cons c a ih => rw [List.cons_append, wBytes, wBytes, ih, W.assoc]

theorem wBytes_one (c : UInt8) : wBytes ok [c] = wPutc ok c := by
  rw [wBytes, wBytes]; exact W.bind_pure' _

theorem wEntity_eq (n : Bytes) : wEntity ok n = wBytes ok ([38] ++ n ++ [59]) := by
  rw [wBytes_append, wBytes_append, wBytes_one, wBytes_one, W.assoc]; rfl

theorem wString_eq (s : Bytes) : wString ok s = wBytes ok (writeString s) := by
  induction s with
  | nil => rfl
  | cons c s ih =>
    rw [wString, writeString]
    cases entityName c with
    | none => dsimp only; rw [wBytes, ih]
    | some n => dsimp only; rw [wBytes_append, wEntity_eq, ih]

theorem wQuoted_eq (q : UInt8) (s : Bytes) : wQuoted ok q s = wBytes ok (writeQuoted q s) := by
  induction s with
  | nil => rfl
  | cons c s ih =>
    rw [wQuoted, writeQuoted]
    split
    · rfl
    · cases entityName c with
      | none => dsimp only; rw [wBytes, ih]
      | some n => dsimp only; rw [wBytes_append, wEntity_eq, ih]

theorem wName_eq (s : Bytes) : wName ok s = wBytes ok (writeName s) := by
  cases s with
  | nil => rfl
  | cons q s =>
    rw [wName, writeName]
    split
    · rw [List.cons_append, wBytes, wBytes_append, wBytes_one, wQuoted_eq]
    · rfl

theorem wOpenName_eq (n : Bytes) : wOpenName ok n = wBytes ok (writeOpenName n) := by
  unfold wOpenName writeOpenName
  split
  · rfl
  · exact wName_eq ok n

/-- What the writer does, as a list: bytes that must get through (and the columns they take), and white space. -/
inductive Tok where
  | solid (t : Bytes) (inc : Nat)
  | white (t : Bytes)

/-- The bytes of a token. -/
def Tok.bytes : Tok → Bytes
  | .solid t _ => t
  | .white t => t

/-- Writing tokens. -/
def wToks : List Tok → Int → W Int
  | [], col => pure col
  | .solid t inc :: r, col => do wBytes ok t; wToks r (col + inc)
  | .white t :: r, col => do
    let col ← wWs ok t col
    wToks r col

theorem wToks_append (a b : List Tok) (col : Int) : wToks ok (a ++ b) col = (do let c ← wToks ok a col; wToks ok b c) := by
  induction a generalizing col with
  | nil => rfl
  | cons x a ih =>
    cases x with
    | solid t inc => rw [List.cons_append, wToks, wToks, W.assoc]; congr 1; funext _; exact ih _
    | white t => rw [List.cons_append, wToks, wToks, W.assoc]; congr 1; funext _; exact ih _

/-- The width of an attribute with the space before. -/
def attrWidth (a : Bytes × Option Bytes) : Nat := 1 + a.1.length + match a.2 with | none => 0 | some v => v.length + 3

theorem wToks_solid (t : Bytes) (inc : Nat) (col : Int) : wToks ok [.solid t inc] col = (do wBytes ok t; pure (col + inc)) := by
  rw [wToks]; rfl

theorem wToks_white (t : Bytes) (col : Int) : wToks ok [.white t] col = wWs ok t col := by
  rw [wToks]; exact W.bind_pure' _

theorem wAttrs_eq (as : List (Bytes × Option Bytes)) (col : Int) :
    wAttrs ok as col = wToks ok (as.map fun a => .solid (writeAttr a) (attrWidth a)) col := by
  induction as generalizing col with
  | nil => rfl
  | cons a as ih =>
    obtain ⟨n, v⟩ := a
    cases v with
    | none =>
      rw [wAttrs, List.map_cons, wToks, ← ih]
      unfold writeAttr attrWidth
      dsimp only
      rw [List.append_nil, wBytes_append, wBytes_one, wName_eq, W.assoc]
      rw [show col + ((1 + n.length + 0 : Nat) : Int) = col + 1 + n.length + 0 by push_cast; omega]
    | some v =>
      rw [wAttrs, List.map_cons, wToks, ← ih]
      unfold writeAttr attrWidth
      dsimp only
      rw [show ([61, 34] : Bytes) = [61] ++ [34] from rfl]
      simp only [wBytes_append, wBytes_one, wName_eq, wString_eq, W.assoc]
      rw [show col + ((1 + n.length + (v.length + 3) : Nat) : Int) = col + 1 + n.length + (v.length + 3) by push_cast; omega]

mutual
/-- The tokens of a node. -/
def toks (cb : SaveCb) (anc : List Bytes) : Node → List Tok
  | .text s => [.solid (writeString s) s.length]
  | .elem n attrs [] =>
    [.white (cb anc (.elem n attrs []) .beforeOpen), .solid ([60] ++ writeOpenName n) (n.length + 1)] ++
      attrs.map (fun a => .solid (writeAttr a) (attrWidth a)) ++
      [.solid (if isDirective n then [62] else [32, 47, 62]) (if isDirective n then 1 else 3), .white (cb anc (.elem n attrs []) .afterOpen)]
  | .elem n attrs (c :: cs) =>
    [.white (cb anc (.elem n attrs (c :: cs)) .beforeOpen), .solid ([60] ++ writeOpenName n) (n.length + 1)] ++
      attrs.map (fun a => .solid (writeAttr a) (attrWidth a)) ++
      [.solid [62] 1, .white (cb anc (.elem n attrs (c :: cs)) .afterOpen)] ++ toksList cb (n :: anc) (c :: cs) ++
      (if isDirective n then []
       else [.white (cb anc (.elem n attrs (c :: cs)) .beforeClose), .solid ([60, 47] ++ writeString n ++ [62]) (n.length + 3),
        .white (cb anc (.elem n attrs (c :: cs)) .afterClose)])
/-- The tokens of a list of nodes. -/
def toksList (cb : SaveCb) (anc : List Bytes) : List Node → List Tok
  | [] => []
  | c :: cs => toks cb anc c ++ toksList cb anc cs
end

theorem wOpen_eq (ws n : Bytes) (attrs : List (Bytes × Option Bytes)) (col : Int) :
    wOpen ok ws n attrs col = wToks ok ([.white ws, .solid ([60] ++ writeOpenName n) (n.length + 1)] ++
      attrs.map (fun a => .solid (writeAttr a) (attrWidth a))) col := by
  unfold wOpen
  rw [wToks_append]
  simp only [wToks, wBytes_append, wBytes_one, wOpenName_eq, W.assoc, W.pure_bind']
  congr 1
  funext c
  rw [wAttrs_eq, show c + (n.length : Int) + 1 = c + ((n.length + 1 : Nat) : Int) by push_cast; omega]

theorem wClose_eq (ws1 ws2 n : Bytes) (col : Int) :
    wClose ok ws1 ws2 n col = wToks ok [.white ws1, .solid ([60, 47] ++ writeString n ++ [62]) (n.length + 3), .white ws2] col := by
  unfold wClose
  rw [show ([60, 47] : Bytes) = [60] ++ [47] from rfl]
  simp only [wToks, wBytes_append, wBytes_one, wString_eq, W.assoc]
  congr 1
  funext c
  rw [W.bind_pure', show c + (n.length : Int) + 3 = c + ((n.length + 3 : Nat) : Int) by push_cast; omega]

mutual
theorem wNode_eq (cb : SaveCb) : ∀ (anc : List Bytes) (t : Node) (col : Int), wNode ok cb anc t col = wToks ok (toks cb anc t) col
  | anc, .text s, col => by
    rw [wNode, toks, wToks_solid, wString_eq]
  | anc, .elem n as [], col => by
    rw [wNode, toks, wToks_append, wOpen_eq]
    congr 1
    funext c
    simp only [wToks, W.bind_pure']
    congr 2
    split <;> rfl
  | anc, .elem n as (x :: xs), col => by
    rw [wNode, toks, wToks_append, wToks_append, wToks_append, wOpen_eq, W.assoc, W.assoc]
    congr 1
    funext c
    simp only [wToks, wBytes_one, W.assoc, W.pure_bind']
    congr 1
    funext _
    congr 1
    funext c
    rw [wNodes_eq cb _ (x :: xs)]
    congr 1
    funext c
    split
    · rfl
    · exact wClose_eq ok _ _ _ _
theorem wNodes_eq (cb : SaveCb) : ∀ (anc : List Bytes) (ts : List Node) (col : Int), wNodes ok cb anc ts col = wToks ok (toksList cb anc ts) col
  | anc, [], col => by rw [wNodes, toksList]; rfl
  | anc, t :: ts, col => by
    rw [wNodes, toksList, wToks_append, wNode_eq cb anc t]
    congr 1
    funext c
    exact wNodes_eq cb anc ts c
end

/-! ### The text of the tokens, and the columns -/

mutual
theorem toks_bytes (cb : SaveCb) : ∀ (anc : List Bytes) (t : Node), (toks cb anc t).flatMap Tok.bytes = writeNode cb anc t
  | anc, .text s => by rw [toks, writeNode]; simp [Tok.bytes]
  | anc, .elem n as [] => by
    rw [toks, writeNode]
    simp [Tok.bytes, List.flatMap_map]
  | anc, .elem n as (x :: xs) => by
    rw [toks, writeNode, ← toksList_bytes cb (n :: anc) (x :: xs)]
    split <;> simp [Tok.bytes, List.flatMap_map]
theorem toksList_bytes (cb : SaveCb) : ∀ (anc : List Bytes) (ts : List Node), (toksList cb anc ts).flatMap Tok.bytes = writeNodes cb anc ts
  | anc, [] => by rw [toksList, writeNodes]; rfl
  | anc, t :: ts => by
    rw [toksList, writeNodes, List.flatMap_append, toks_bytes cb anc t, toksList_bytes cb anc ts]
end

/-- The column behind tokens. -/
def colToks : List Tok → Nat → Nat
  | [], col => col
  | .solid _ inc :: r, col => colToks r (col + inc)
  | .white t :: r, col => colToks r (colWs col t)

theorem colToks_append (a b : List Tok) (col : Nat) : colToks (a ++ b) col = colToks b (colToks a col) := by
  induction a generalizing col with
  | nil => rfl
  | cons x a ih => cases x <;> simp [colToks, ih]

theorem colToks_attrs (as : List (Bytes × Option Bytes)) (col : Nat) :
    colToks (as.map fun a => .solid (writeAttr a) (attrWidth a)) col = colAttrs col as := by
  induction as generalizing col with
  | nil => rfl
  | cons a as ih =>
    obtain ⟨n, v⟩ := a
    rw [List.map_cons, colToks, ih, attrWidth]
    cases v <;> simp [colAttrs, Nat.add_assoc]

mutual
theorem toks_col (cb : SaveCb) : ∀ (anc : List Bytes) (t : Node) (col : Nat), colToks (toks cb anc t) col = colNode cb anc col t
  | anc, .text s, col => by rw [toks, colNode]; rfl
  | anc, .elem n as [], col => by
    rw [toks, colNode]
    simp only [colToks_append, colToks_attrs, colToks, List.cons_append, List.nil_append, ← Nat.add_assoc]
  | anc, .elem n as (x :: xs), col => by
    rw [toks, colNode]
    split <;>
    simp only [colToks_append, colToks_attrs, colToks, toksList_col cb, ← Nat.add_assoc]
theorem toksList_col (cb : SaveCb) : ∀ (anc : List Bytes) (ts : List Node) (col : Nat), colToks (toksList cb anc ts) col = colNodes cb anc col ts
  | anc, [], col => by rw [toksList, colNodes]; rfl
  | anc, t :: ts, col => by
    rw [toksList, colNodes, colToks_append, toks_col cb anc t, toksList_col cb anc ts]
end

end Afs.Xml
