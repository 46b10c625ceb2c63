import Verif.Proof.WriteFail2
import Verif.Proof.Cut5
import Mathlib.Data.List.Forall2
/-!
# Documents of which white space got lost

A document written while writes fail is the beginning of a document like it, in which some of the layout is missing.
-/
namespace Afs.Xml
open Afs Afs.Spec

/-- A token, or the beginning of its white space. -/
def ThinTok : Tok → Tok → Prop
  | .solid t i, x => x = .solid t i
  | .white w, x => ∃ w', x = .white w' ∧ w' <+: w

theorem putc_file (ok : Nat → Bool) (c : UInt8) (o : Out) :
    ((wPutc ok c o).2 = none ∧ (wPutc ok c o).1.file = o.file) ∨ ((wPutc ok c o).2 = some () ∧ (wPutc ok c o).1.file = o.file ++ [c]) := by
  unfold wPutc
  split
  · exact .inr ⟨rfl, rfl⟩
  · exact .inl ⟨rfl, rfl⟩

theorem bytes_file (ok : Nat → Bool) (t : Bytes) (o : Out) :
    (wBytes ok t o).1.file <+: o.file ++ t ∧ ((wBytes ok t o).2.isSome = true → (wBytes ok t o).1.file = o.file ++ t) := by
  induction t generalizing o with
  | nil => exact ⟨by rw [List.append_nil]; exact List.prefix_refl _, fun _ => (List.append_nil _).symm⟩
  | cons c t ih =>
    rw [wBytes, W.bind_run]
    have h := putc_file ok c o
    cases hm : wPutc ok c o with
    | mk o' r =>
      rw [hm] at h
      rcases h with ⟨h1, h2⟩ | ⟨h1, h2⟩ <;> dsimp only at h1 h2 <;> subst h1
      · exact ⟨by dsimp only; rw [h2]; exact List.prefix_append _ _, fun h => by cases h⟩
      · dsimp only
        obtain ⟨h3, h4⟩ := ih o'
        rw [h2, List.append_assoc] at h3 h4
        exact ⟨h3, h4⟩

theorem ws_file (ok : Nat → Bool) (t : Bytes) (col : Int) (o : Out) :
    (wWs ok t col o).2.isSome = true ∧ ∃ t', t' <+: t ∧ (wWs ok t col o).1.file = o.file ++ t' := by
  induction t generalizing o col with
  | nil => exact ⟨rfl, [], List.prefix_refl _, (List.append_nil _).symm⟩
  | cons c t ih =>
    rw [wWs]
    dsimp only
    have h := putc_file ok c o
    cases hm : wPutc ok c o with
    | mk o' r =>
      rw [hm] at h
      rcases h with ⟨h1, h2⟩ | ⟨h1, h2⟩ <;> dsimp only at h1 h2 <;> subst h1
      · exact ⟨rfl, [], List.nil_prefix, by dsimp only; rw [h2, List.append_nil]⟩
      · dsimp only
        obtain ⟨h3, t', h4, h5⟩ := ih (if c = 10 then 0 else if c = 9 then (col + 8) - (col + 8).tmod 8 else col + 1) o'
        exact ⟨h3, c :: t', by rw [List.cons_prefix_cons]; exact ⟨rfl, h4⟩, by rw [h5, h2]; simp⟩

theorem thin_self (l : List Tok) : List.Forall₂ ThinTok l l := by
  induction l with
  | nil => exact .nil
  | cons x l ih =>
    refine .cons ?_ ih
    cases x with
    | solid t i => rfl
    | white w => exact ⟨w, rfl, List.prefix_refl _⟩

/-- Whatever fails, the file is the beginning of the tokens, of whose white space the ends may be missing. -/
theorem toks_file (ok : Nat → Bool) (l : List Tok) (col : Int) (o : Out) :
    ∃ l', List.Forall₂ ThinTok l l' ∧ (wToks ok l col o).1.file <+: o.file ++ l'.flatMap Tok.bytes ∧
      ((wToks ok l col o).2.isSome = true → (wToks ok l col o).1.file = o.file ++ l'.flatMap Tok.bytes) := by
  induction l generalizing o col with
  | nil => exact ⟨[], .nil, by simp [wToks]; exact List.prefix_refl _, fun _ => by simp [wToks]; rfl⟩
  | cons x l ih =>
    cases x with
    | solid t inc =>
      rw [wToks, W.bind_run]
      have hb := bytes_file ok t o
      cases hm : wBytes ok t o with
      | mk o' r =>
        rw [hm] at hb
        cases r with
        | none =>
          refine ⟨.solid t inc :: l, thin_self _, ?_, fun h => by cases h⟩
          rw [List.flatMap_cons, ← List.append_assoc]
          exact hb.1.trans (List.prefix_append _ _)
        | some x =>
          dsimp only
          obtain ⟨l', h1, h2, h3⟩ := ih (col + inc) o'
          have e : o'.file = o.file ++ t := hb.2 rfl
          rw [e, List.append_assoc] at h2 h3
          exact ⟨.solid t inc :: l', .cons rfl h1, h2, h3⟩
    | white t =>
      rw [wToks, W.bind_run]
      have hb := ws_file ok t col o
      cases hm : wWs ok t col o with
      | mk o' r =>
        rw [hm] at hb
        cases r with
        | none => cases hb.1
        | some c =>
          dsimp only
          obtain ⟨-, t', h4, h5⟩ := hb
          obtain ⟨l', h1, h2, h3⟩ := ih c o'
          rw [h5, List.append_assoc] at h2 h3
          exact ⟨.white t' :: l', .cons ⟨t', rfl, h4⟩ h1, h2, h3⟩

/-! ### Trees with white space -/

/-- A text of white space, if there is any. -/
def ws (w : Bytes) : List Node := if w = [] then [] else [.text w]

/-- Only spaces and line ends. -/
def Spaces (w : Bytes) : Prop := ∀ c ∈ w, isTrimByte c = true

theorem Spaces.prefix {w w' : Bytes} (h : Spaces w) (hp : w' <+: w) : Spaces w' := fun c hc => h c (hp.subset hc)

mutual
/-- The second node is the first with white space in its elements. -/
inductive Pad : Node → Node → Prop
  | text {s : Bytes} : Pad (.text s) (.text s)
  | leaf {n : Bytes} {as : List (Bytes × Option Bytes)} : Pad (.elem n as []) (.elem n as [])
  | elem {n : Bytes} {as : List (Bytes × Option Bytes)} {c : Node} {cs cs' : List Node} {w w' : Bytes} : isDirective n = false →
      Spaces w → Spaces w' → PadL (c :: cs) cs' → Pad (.elem n as (c :: cs)) (.elem n as (ws w ++ cs' ++ ws w'))
/-- The second list is the first with white space. -/
inductive PadL : List Node → List Node → Prop
  | nil : PadL [] []
  | cons {c c' : Node} {cs cs' : List Node} {w w' : Bytes} : Spaces w → Spaces w' → Pad c c' → PadL cs cs' →
      PadL (c :: cs) (ws w ++ [c'] ++ ws w' ++ cs')
end

theorem writeNodes_append (cb : SaveCb) (anc : List Bytes) (a b : List Node) : writeNodes cb anc (a ++ b) = writeNodes cb anc a ++ writeNodes cb anc b := by
  induction a with
  | nil => rw [writeNodes]; rfl
  | cons x a ih => rw [List.cons_append, writeNodes, writeNodes, ih, List.append_assoc]

theorem writeString_spaces {w : Bytes} (h : Spaces w) : writeString w = w := by
  induction w with
  | nil => rfl
  | cons c w ih =>
    rw [writeString, ih fun d hd => h d (by simp [hd])]
    have hc := h c (by simp)
    simp [isTrimByte] at hc
    rcases hc with (rfl | rfl) | rfl <;> rfl

theorem writeNodes_ws (cb : SaveCb) (anc : List Bytes) {w : Bytes} (h : Spaces w) : writeNodes cb anc (ws w) = w := by
  unfold ws
  split
  · rename_i h; rw [h, writeNodes]
  · rw [writeNodes, writeNode, writeNodes, writeString_spaces h, List.append_nil]

theorem thin_append {a b l : List Tok} (h : List.Forall₂ ThinTok (a ++ b) l) :
    ∃ a' b', l = a' ++ b' ∧ List.Forall₂ ThinTok a a' ∧ List.Forall₂ ThinTok b b' := by
  induction a generalizing l with
  | nil => exact ⟨[], l, rfl, .nil, h⟩
  | cons x a ih =>
    cases h with
    | @cons _ y _ l' h1 h2 =>
      obtain ⟨a', b', e, h3, h4⟩ := ih h2
      exact ⟨y :: a', b', by rw [e]; rfl, .cons h1 h3, h4⟩

theorem thin_solids {as : List (Bytes × Option Bytes)} {l : List Tok}
    (h : List.Forall₂ ThinTok (as.map fun a => .solid (writeAttr a) (attrWidth a)) l) : l.flatMap Tok.bytes = as.flatMap writeAttr := by
  induction as generalizing l with
  | nil => cases h; rfl
  | cons a as ih =>
    cases h with
    | cons h1 h2 =>
      have h1 : _ = _ := h1
      subst h1
      rw [List.flatMap_cons, List.flatMap_cons, ih h2]
      rfl

theorem thin_white {w : Bytes} {l : List Tok} (h : List.Forall₂ ThinTok [.white w] l) : ∃ w', w' <+: w ∧ l = [.white w'] := by
  cases h with
  | cons h1 h2 =>
    cases h2
    obtain ⟨w', e, hp⟩ := h1
    exact ⟨w', hp, by rw [e]⟩

theorem thin_solid {t : Bytes} {i : Nat} {l : List Tok} (h : List.Forall₂ ThinTok [.solid t i] l) : l = [.solid t i] := by
  cases h with
  | cons h1 h2 =>
    cases h2
    have h1 : _ = _ := h1
    rw [h1]

theorem plain_directive {n : Bytes} (h : PlainName n) : isDirective n = false := by
  obtain ⟨⟨hne, _⟩, hal⟩ := h
  cases n with
  | nil => exact absurd rfl hne
  | cons c n =>
    have := hal c (by simp)
    unfold isDirective
    simp only [List.head?_cons, Bool.or_eq_false_iff, beq_eq_false_iff_ne, ne_eq, Option.some.injEq]
    constructor <;> rintro rfl <;> exact absurd this (by decide)

/-- Tokens of a tag. -/
theorem thin_open {w n : Bytes} {as : List (Bytes × Option Bytes)} {r l : List Tok}
    (h : List.Forall₂ ThinTok ([.white w, .solid ([60] ++ writeOpenName n) (n.length + 1)] ++
      as.map (fun a => .solid (writeAttr a) (attrWidth a)) ++ r) l) :
    ∃ w' r', w' <+: w ∧ List.Forall₂ ThinTok r r' ∧
      l.flatMap Tok.bytes = w' ++ ([60] ++ writeOpenName n ++ as.flatMap writeAttr ++ r'.flatMap Tok.bytes) := by
  obtain ⟨a, r', rfl, ha, hr⟩ := thin_append h
  obtain ⟨b, c, rfl, hb, hc⟩ := thin_append ha
  obtain ⟨d, e, rfl, hd, he⟩ := thin_append (a := [.white w]) (b := [.solid ([60] ++ writeOpenName n) (n.length + 1)]) hb
  obtain ⟨w', hw, rfl⟩ := thin_white hd
  have he := thin_solid he
  subst he
  refine ⟨w', r', hw, hr, ?_⟩
  simp only [List.flatMap_append, thin_solids hc]
  simp [Tok.bytes]

mutual
theorem thin_node {cb : SaveCb} (hcb : SpaceCb cb) : ∀ (t : Node) (anc : List Bytes) (l : List Tok), CleanTree t →
    List.Forall₂ ThinTok (toks cb anc t) l → ∃ w t' w', Spaces w ∧ Spaces w' ∧ Pad t t' ∧
      l.flatMap Tok.bytes = w ++ writeNode noCb anc t' ++ w'
  | .text s, anc, l, _, h => by
    rw [toks] at h
    have := thin_solid h
    subst this
    exact ⟨[], .text s, [], by simp [Spaces], by simp [Spaces], .text, by rw [writeNode]; simp [Tok.bytes]⟩
  | .elem n as [], anc, l, _, h => by
    rw [toks] at h
    obtain ⟨w, r, hw, hr, e⟩ := thin_open h
    obtain ⟨a, b, rfl, ha, hb⟩ := thin_append (a := [_]) (b := [_]) hr
    have ha := thin_solid ha
    subst ha
    obtain ⟨w', hw', rfl⟩ := thin_white hb
    refine ⟨w, .elem n as [], w', Spaces.prefix (hcb _ _ _) hw, Spaces.prefix (hcb _ _ _) hw', .leaf, ?_⟩
    rw [e, writeNode]
    simp [Tok.bytes, noCb]
  | .elem n as (x :: xs), anc, l, hc, h => by
    have hall : PlainName n ∧ ∀ c ∈ x :: xs, CleanTree c := by
      generalize ht : Node.elem n as (x :: xs) = t at hc
      cases hc with
      | text _ => cases ht
      | cdata _ => unfold Node.newCDATA at ht; cases ht
      | elem hn' has hcs => cases ht; exact ⟨hn', hcs⟩
    have hdir := plain_directive hall.1
    rw [toks, hdir] at h
    simp only [Bool.false_eq_true, if_false] at h
    rw [List.append_assoc, List.append_assoc] at h
    obtain ⟨w, r, hw, hr, e⟩ := thin_open h
    obtain ⟨a1, r1, rfl, ha1, hr1⟩ := thin_append hr
    obtain ⟨a2, a3, rfl, ha2, ha3⟩ := thin_append (a := [_]) (b := [_]) ha1
    have ha4 := thin_solid ha2
    subst ha4
    obtain ⟨w1, hw1, rfl⟩ := thin_white ha3
    obtain ⟨b, r2, rfl, hb, hr2⟩ := thin_append hr1
    obtain ⟨c, r3, rfl, hc3, hr3⟩ := thin_append (a := [_]) (b := [_, _]) hr2
    obtain ⟨w2, hw2, rfl⟩ := thin_white hc3
    obtain ⟨d, r4, rfl, hd, hr4⟩ := thin_append (a := [_]) (b := [_]) hr3
    have hd' := thin_solid hd
    subst hd'
    obtain ⟨w3, hw3, rfl⟩ := thin_white hr4
    obtain ⟨ks, hp, hks⟩ := thin_nodes hcb (x :: xs) (n :: anc) b hall.2 hb
    refine ⟨w, .elem n as (ws w1 ++ ks ++ ws w2), w3, Spaces.prefix (hcb _ _ _) hw, Spaces.prefix (hcb _ _ _) hw3,
      .elem hdir (Spaces.prefix (hcb _ _ _) hw1) (Spaces.prefix (hcb _ _ _) hw2) hp, ?_⟩
    have hne : ∃ y ys, ws w1 ++ ks ++ ws w2 = y :: ys := by
      cases hq : ws w1 ++ ks ++ ws w2 with
      | cons y ys => exact ⟨y, ys, rfl⟩
      | nil =>
        cases hp
        simp at hq
    obtain ⟨y, ys, hy⟩ := hne
    rw [e, hy, writeNode, ← hy, hdir, writeNodes_append, writeNodes_append, writeNodes_ws _ _ (Spaces.prefix (hcb _ _ _) hw1),
      writeNodes_ws _ _ (Spaces.prefix (hcb _ _ _) hw2), ← hks]
    simp [Tok.bytes, noCb]
theorem thin_nodes {cb : SaveCb} (hcb : SpaceCb cb) : ∀ (ts : List Node) (anc : List Bytes) (l : List Tok), (∀ t ∈ ts, CleanTree t) →
    List.Forall₂ ThinTok (toksList cb anc ts) l → ∃ ts', PadL ts ts' ∧ l.flatMap Tok.bytes = writeNodes noCb anc ts'
  | [], anc, l, _, h => by
    rw [toksList] at h
    cases h
    exact ⟨[], .nil, by rw [writeNodes]; rfl⟩
  | t :: ts, anc, l, hc, h => by
    rw [toksList] at h
    obtain ⟨a, b, rfl, ha, hb⟩ := thin_append h
    obtain ⟨w, t', w', h1, h2, h3, h4⟩ := thin_node hcb t anc a (hc t (by simp)) ha
    obtain ⟨ts', h5, h6⟩ := thin_nodes hcb ts anc b (fun t ht => hc t (by simp [ht])) hb
    refine ⟨_, .cons h1 h2 h3 h5, ?_⟩
    rw [List.flatMap_append, h4, h6, writeNodes_append, writeNodes_append, writeNodes_append, writeNodes_ws _ _ h1, writeNodes_ws _ _ h2,
      writeNodes, writeNodes, List.append_nil]
end

end Afs.Xml

namespace Afs
open Spec Xml

theorem spaces_clean {w : Bytes} (h : Spaces w) : CleanText w := by
  refine clean_ascii fun c hc => ?_
  have := h c hc
  simp [isTrimByte] at this
  rcases this with (rfl | rfl) | rfl <;> decide

theorem filter_ws (w : Bytes) : (ws w).filter isElem = [] := by
  unfold ws
  split <;> rfl

theorem mem_ws {w : Bytes} {x : Node} (h : x ∈ ws w) : x = .text w ∧ w ≠ [] := by
  unfold ws at h
  split at h
  · cases h
  · rename_i hw; simp at h; exact ⟨h, hw⟩

theorem textOf_ws (w : Bytes) (l : List Node) : textOf (ws w ++ l) = w ++ textOf l := by
  unfold ws
  split
  · rename_i h; rw [h]; rfl
  · rfl

/-- What is known of a padded node. -/
structure PaddedTree (t t' : Node) : Prop where
  clean : CleanTree t'
  full : NoEmptyText t'
  same : norm t' = t
  el : isElem t' = true

mutual
theorem pad_node : ∀ {t t' : Node}, Pad t t' → Savable t → PaddedTree t t'
  | _, _, .text, hs => by cases hs
  | _, _, .leaf, hs => ⟨hs.clean, hs.noEmpty, hs.norm, rfl⟩
  | _, _, .elem (n := n) (as := as) (c := c) (cs := cs) (cs' := cs') (w := w) (w' := w') hd hw hw' hl, hs => by
    generalize ht : Node.elem n as (c :: cs) = t at hs
    cases hs with
    | cdata _ => unfold Node.newCDATA at ht; cases ht
    | leaf h1 h2 h3 h4 h5 =>
      cases ht
      cases hl with
      | @cons _ c' _ cs'' v v' hv hv' hp hn =>
        cases hp
        cases hn
        rename_i s
        refine ⟨.elem h1 h2 ?_, .elem ?_, ?_, rfl⟩
        · intro x hx
          simp only [List.append_nil, List.mem_append, List.mem_singleton] at hx
          rcases hx with (hx | (hx | hx) | hx) | hx
          · rw [(mem_ws hx).1]; exact .text (spaces_clean hw)
          · rw [(mem_ws hx).1]; exact .text (spaces_clean hv)
          · rw [hx]; exact .text h3
          · rw [(mem_ws hx).1]; exact .text (spaces_clean hv')
          · rw [(mem_ws hx).1]; exact .text (spaces_clean hw')
        · intro x hx
          simp only [List.append_nil, List.mem_append, List.mem_singleton] at hx
          rcases hx with (hx | (hx | hx) | hx) | hx
          · rw [(mem_ws hx).1]; exact .text (mem_ws hx).2
          · rw [(mem_ws hx).1]; exact .text (mem_ws hx).2
          · rw [hx]; exact .text h4
          · rw [(mem_ws hx).1]; exact .text (mem_ws hx).2
          · rw [(mem_ws hx).1]; exact .text (mem_ws hx).2
        · rw [norm_elem, any_eq_filter]
          simp only [List.filter_append, filter_ws, List.nil_append, List.append_nil]
          rw [List.filter_cons_of_neg (by simp [Afs.isElem])]
          simp only [List.filter_nil, List.isEmpty_nil, Bool.not_true, Bool.false_eq_true, if_false]
          unfold leafText
          rw [if_neg (by simp)]
          have e : textOf (ws w ++ (ws v ++ [.text s] ++ ws v') ++ ws w') = (w ++ v) ++ s ++ (v' ++ w') := by
            simp only [List.append_assoc, textOf_ws, List.cons_append, List.nil_append]
            rw [textOf, textOf_ws, show ws w' = ws w' ++ [] by simp, textOf_ws]
            simp [textOf]
          rw [e, trim_unique (a := w ++ v) (t := s) (b := v' ++ w') rfl ?_ ?_ h5]
          · intro x hx
            rcases List.mem_append.mp hx with hx | hx
            · exact hw x hx
            · exact hv x hx
          · intro x hx
            rcases List.mem_append.mp hx with hx | hx
            · exact hv' x hx
            · exact hw' x hx
    | branch h1 h2 h3 =>
      cases ht
      obtain ⟨a, b, e⟩ := pad_nodes hl h3
      refine ⟨.elem h1 h2 ?_, .elem ?_, ?_, rfl⟩
      · intro x hx
        simp only [List.mem_append] at hx
        rcases hx with (hx | hx) | hx
        · rw [(mem_ws hx).1]; exact .text (spaces_clean hw)
        · exact a x hx
        · rw [(mem_ws hx).1]; exact .text (spaces_clean hw')
      · intro x hx
        simp only [List.mem_append] at hx
        rcases hx with (hx | hx) | hx
        · rw [(mem_ws hx).1]; exact .text (mem_ws hx).2
        · exact b x hx
        · rw [(mem_ws hx).1]; exact .text (mem_ws hx).2
      · rw [norm_elem, any_eq_filter]
        simp only [List.filter_append, filter_ws, List.nil_append, List.append_nil]
        have hne : cs'.filter Afs.isElem ≠ [] := by
          intro h0
          rw [h0] at e
          cases e
        rw [e]
        simp [hne]
theorem pad_nodes : ∀ {ts ts' : List Node}, PadL ts ts' → (∀ t ∈ ts, Savable t) →
    (∀ t ∈ ts', CleanTree t) ∧ (∀ t ∈ ts', NoEmptyText t) ∧ (ts'.filter isElem).map norm = ts
  | _, _, .nil, _ => ⟨by simp, by simp, rfl⟩
  | _, _, .cons (c := c) (c' := c') (cs := cs) (cs' := cs') (w := w) (w' := w') hw hw' hp hl, hs => by
    have hc := pad_node hp (hs c (by simp))
    obtain ⟨a, b, e⟩ := pad_nodes hl fun t ht => hs t (by simp [ht])
    refine ⟨?_, ?_, ?_⟩
    · intro x hx
      simp only [List.mem_append, List.mem_singleton] at hx
      rcases hx with ((hx | hx) | hx) | hx
      · rw [(mem_ws hx).1]; exact .text (spaces_clean hw)
      · rw [hx]; exact hc.clean
      · rw [(mem_ws hx).1]; exact .text (spaces_clean hw')
      · exact a x hx
    · intro x hx
      simp only [List.mem_append, List.mem_singleton] at hx
      rcases hx with ((hx | hx) | hx) | hx
      · rw [(mem_ws hx).1]; exact .text (mem_ws hx).2
      · rw [hx]; exact hc.full
      · rw [(mem_ws hx).1]; exact .text (mem_ws hx).2
      · exact b x hx
    · simp only [List.filter_append, filter_ws, List.nil_append, List.append_nil]
      rw [List.filter_cons_of_pos hc.el]
      simp [hc.same, e]
end

/-- Layout of a document: what is written behind the declaration, before the root and behind it. -/
def rootCb (w0 w1 w2 : Bytes) : SaveCb := fun anc t p =>
  match anc, p, t with
  | [], .afterOpen, _ => w0
  | [_], .beforeOpen, _ => w1
  | [_], .afterClose, _ => w2
  | [_], .afterOpen, .elem _ _ [] => w2
  | _, _, _ => []

theorem rootCb_space {w0 w1 w2 : Bytes} (h0 : Spaces w0) (h1 : Spaces w1) (h2 : Spaces w2) : SpaceCb (rootCb w0 w1 w2) := by
  intro anc t p
  unfold rootCb
  split
  · exact h0
  · exact h1
  · exact h2
  · exact h2
  · intro c hc; cases hc

mutual
theorem rootCb_inside (w0 w1 w2 : Bytes) : ∀ (t : Node) (a b : Bytes) (anc anc' : List Bytes), writeNode (rootCb w0 w1 w2) (a :: b :: anc) t = writeNode noCb anc' t
  | .text s, a, b, anc, anc' => by rw [writeNode, writeNode]
  | .elem n as [], a, b, anc, anc' => by
    rw [writeNode, writeNode]; rfl
  | .elem n as (x :: xs), a, b, anc, anc' => by
    rw [writeNode, writeNode, rootCb_insides w0 w1 w2 (x :: xs) n a (b :: anc) (n :: anc')]; rfl
theorem rootCb_insides (w0 w1 w2 : Bytes) : ∀ (ts : List Node) (a b : Bytes) (anc anc' : List Bytes),
    writeNodes (rootCb w0 w1 w2) (a :: b :: anc) ts = writeNodes noCb anc' ts
  | [], a, b, anc, anc' => by rw [writeNodes, writeNodes]
  | t :: ts, a, b, anc, anc' => by
    rw [writeNodes, writeNodes, rootCb_inside w0 w1 w2 t a b anc anc', rootCb_insides w0 w1 w2 ts a b anc anc']
end

/-- The root with its layout. -/
theorem rootCb_root (w0 w1 w2 : Bytes) {n : Bytes} (hn : isDirective n = false) (as : List (Bytes × Option Bytes)) (cs : List Node) (a : Bytes) :
    writeNode (rootCb w0 w1 w2) [a] (.elem n as cs) = w1 ++ writeNode noCb [a] (.elem n as cs) ++ w2 := by
  cases cs with
  | nil =>
    rw [writeNode, writeNode]
    simp [rootCb, noCb, List.append_assoc]
  | cons x xs =>
    rw [writeNode, writeNode, hn, rootCb_insides w0 w1 w2 (x :: xs) n a [] (n :: [a])]
    simp [rootCb, noCb, List.append_assoc]

theorem _root_.Afs.Xml.Pad.root {n : Bytes} {as : List (Bytes × Option Bytes)} {cs : List Node} {t : Node} (h : Pad (.elem n as cs) t) : ∃ cs', t = .elem n as cs' := by
  cases h <;> exact ⟨_, rfl⟩

/-- A document written while writes fail. -/
theorem doc_fail (ok : Nat → Bool) {cb : SaveCb} (hcb : SpaceCb cb) {n : Bytes} {as : List (Bytes × Option Bytes)} {cs : List Node}
    (hn : PlainName n) (hs : Savable (.elem n as cs)) (hb : cb [] (.elem xmlDecl [] [.elem n as cs]) .beforeOpen = []) :
    ∃ w0 w1 w2 cs', Spaces w0 ∧ Spaces w1 ∧ Spaces w2 ∧ PaddedTree (.elem n as cs) (.elem n as cs') ∧
      (Xml.saveFileOn ok cb (.elem xmlDecl [] [.elem n as cs])).2 <+:
        saveText (rootCb w0 w1 w2) [] (.elem xmlDecl [] [.elem n as cs']) := by
  obtain ⟨l, hl, hpre, heq⟩ := toks_file ok (toks cb [] (.elem xmlDecl [] [.elem n as cs])) 0 ⟨[], 0⟩
  rw [List.nil_append] at hpre heq
  have hl' := hl
  rw [toks, hb, toksList, toksList, List.append_nil, if_pos (by rfl : isDirective xmlDecl = true), List.append_nil, List.append_assoc] at hl'
  obtain ⟨w, r, hw, hr, e⟩ := thin_open hl'
  have hw0 : w = [] := List.prefix_nil.mp hw
  subst hw0
  obtain ⟨a1, r1, rfl, ha1, hr1⟩ := thin_append hr
  obtain ⟨a2, a3, rfl, ha2, ha3⟩ := thin_append (a := [_]) (b := [_]) ha1
  have ha4 := thin_solid ha2
  subst ha4
  obtain ⟨w0, hw0, rfl⟩ := thin_white ha3
  obtain ⟨w1, t', w2, hw1, hw2, hp, hrest⟩ := thin_node hcb _ _ _ hs.clean hr1
  obtain ⟨cs', rfl⟩ := hp.root
  have hs0 : Spaces w0 := Spaces.prefix (hcb _ _ _) hw0
  have hs2 : Spaces (w2 ++ [10]) := by
    intro c hc
    rcases List.mem_append.mp hc with hc | hc
    · exact hw2 c hc
    · simp at hc; subst hc; rfl
  refine ⟨w0, w1, w2 ++ [10], cs', hs0, hw1, hs2, pad_node hp hs, ?_⟩
  obtain ⟨v, -, hv⟩ := saveText_newline (rootCb w0 w1 (w2 ++ [10])) [] (.elem xmlDecl [] [.elem n as cs'])
  have hform : saveText (rootCb w0 w1 (w2 ++ [10])) [] (.elem xmlDecl [] [.elem n as cs']) = l.flatMap Tok.bytes ++ [10] ++ v := by
    rw [hv, e, writeNode, writeNodes, writeNodes, rootCb_root _ _ _ (plain_directive hn), if_pos (by rfl : isDirective xmlDecl = true)]
    rw [List.flatMap_append, hrest]
    simp [Tok.bytes, rootCb]
  rw [hform]
  unfold Xml.saveFileOn
  rw [wNode_eq]
  cases hm : wToks ok (toks cb [] (.elem xmlDecl [] [.elem n as cs])) 0 ⟨[], 0⟩ with
  | mk o r =>
    rw [hm] at hpre heq
    cases r with
    | none => exact hpre.trans ⟨[10] ++ v, by simp⟩
    | some col =>
      have e2 : o.file = l.flatMap Tok.bytes := heq rfl
      dsimp only
      split
      · dsimp only; rw [e2]; exact ⟨[10] ++ v, by simp⟩
      · split
        · have hq := putc_file ok 10 o
          cases hq' : wPutc ok 10 o with
          | mk o' q =>
            rw [hq'] at hq
            rcases hq with ⟨h1, h2⟩ | ⟨h1, h2⟩ <;> dsimp only at h1 h2 <;> subst h1
            · dsimp only; rw [h2, e2]; exact ⟨[10] ++ v, by simp⟩
            · dsimp only; rw [h2, e2]; exact ⟨v, by simp⟩
        · dsimp only; rw [e2]; exact ⟨[10] ++ v, by simp⟩

/-! ### Loading -/

/-- A document with layout is read as the tree without it. -/
theorem read_padded {cb : SaveCb} (hcb : SpaceCb cb) {n : Bytes} {as : List (Bytes × Option Bytes)} {cs cs' : List Node} (hn : PlainName n)
    (h : PaddedTree (.elem n as cs) (.elem n as cs')) :
    ∃ T, Xml.loadFile (saveText cb [] (.elem xmlDecl [] [.elem n as cs'])) = some T ∧ IsRead T (.elem xmlDecl [] [.elem n as cs]) := by
  have hc := h.clean
  have hall : CleanAttrs as ∧ ∀ c ∈ cs', CleanTree c := by
    generalize ht : Node.elem n as cs' = t at hc
    cases hc with
    | text _ => cases ht
    | cdata _ =>
      unfold Node.newCDATA at ht
      injection ht with h1 _ _
      have := hn.2 33 (by rw [h1]; simp [Node.cdataOpen])
      exact absurd this (by decide)
    | elem hn' has hcs => cases ht; exact ⟨has, hcs⟩
  obtain ⟨A, _, e⟩ := load_document good_decodeFile hcb.white hn hall.1 hall.2
  refine ⟨_, e, ?_, ?_⟩
  · have hw : Afs.isElem (withWhite cb [xmlDecl] (.elem n as cs')) = true := by rw [isElem_withWhite]; rfl
    refine .elem ?_ ?_
    · generalize withWhite cb [xmlDecl] (.elem n as cs') = w at hw
      cases w with
      | text => cases hw
      | elem => by_cases hA : A = [] <;> simp [NoAdjacentText, hA]
    · intro x hx
      rcases List.mem_append.mp hx with hx | hx
      · split at hx
        · simp at hx
        · simp at hx; subst hx; exact .text
      · simp at hx; subst hx; exact normal_withWhite _ _ _
  · have hw : Afs.isElem (withWhite cb [xmlDecl] (.elem n as cs')) = true := by rw [isElem_withWhite]; rfl
    rw [norm_elem]
    have hf : ((if A = [] then [] else [.text A]) ++ [withWhite cb [xmlDecl] (.elem n as cs')] : List Node).filter Afs.isElem =
        [withWhite cb [xmlDecl] (.elem n as cs')] := by
      rw [List.filter_append, List.filter_cons_of_pos hw]
      split <;> rfl
    rw [any_eq_filter, hf]
    simp only [List.isEmpty_cons, Bool.not_false, if_true, List.map_cons, List.map_nil]
    rw [norm_withWhite hcb h.full, h.same]

/-- The beginning of a file written while writes fail. -/
theorem fail_cut {cb : SaveCb} (hcb : SpaceCb cb) {n : Bytes} {as : List (Bytes × Option Bytes)} {cs : List Node} (hn : PlainName n)
    (hs : Savable (.elem n as cs)) (hb : cb [] (.elem xmlDecl [] [.elem n as cs]) .beforeOpen = []) (ok : Nat → Bool) {f : Bytes}
    (hf : f <+: (Xml.saveFileOn ok cb (.elem xmlDecl [] [.elem n as cs])).2) :
    Xml.loadFile f = none ∨ (∃ T, Xml.loadFile f = some T ∧ IsRead T (.elem xmlDecl [] [.elem n as cs])) ∨
    (StopsByName n f ∧ ∃ T, Xml.loadFile f = some T ∧ NoName n T) ∨
    (EndsBehindName n f ∧ ∃ W : List Node, (∀ x ∈ W, isElem x = false) ∧ Xml.loadFile f = some (.elem xmlDecl [] (W ++ [.elem n [] []]))) := by
  obtain ⟨w0, w1, w2, cs', h0, h1, h2, hp, hpre⟩ := doc_fail ok hcb hn hs hb
  have hcb' := rootCb_space h0 h1 h2
  have key := saved_cut good_decodeFile part_decodeFile hcb'.white hn hp.clean rfl f.length
  dsimp only at key
  rw [← List.prefix_iff_eq_take.mp (hf.trans hpre)] at key
  rcases key with h | h | h | h
  · exact .inl h
  · obtain ⟨T, e, hT⟩ := read_padded hcb' hn hp
    exact .inr (.inl ⟨T, (show Xml.loadFile f = Xml.loadFile _ from h).trans e, hT⟩)
  · exact .inr (.inr (.inl h))
  · exact .inr (.inr (.inr h))

variable {o : Bool} {cb : SaveCb} {compact : Bool} {n : Bytes} {as : List (Bytes × Option Bytes)} {cs : List Node}

/-- The same for any loader. -/
theorem fail_load (hcb : SpaceCb cb) (hn : PlainName n) (hs : Savable (.elem n as cs))
    (hb : cb [] (Node.newXML.addChild (.elem n as cs)) .beforeOpen = []) {β : Type} (load : Node → β) (fail good : β)
    (hload : ∀ T, IsRead T (.elem xmlDecl [] [.elem n as cs]) → load T = good) {ok : Nat → Bool} {old : Option Bytes} {b : Bool} {f f' : Bytes}
    (h : docFileOn true ok o cb compact (some (.elem n as cs)) old = (b, some f)) (hf : f' <+: f) :
    loadFromFile load fail f' = fail ∨ loadFromFile load fail f' = good ∨
    (StopsByName n f' ∧ ∃ T, NoName n T ∧ loadFromFile load fail f' = load T) ∨
    (EndsBehindName n f' ∧ ∃ W : List Node, (∀ x ∈ W, isElem x = false) ∧
      loadFromFile load fail f' = load (.elem xmlDecl [] (W ++ [.elem n [] []]))) := by
  have hb' : (if compact then noCb else cb) [] (Node.newXML.addChild (.elem n as cs)) .beforeOpen = [] := by
    cases compact
    · exact hb
    · rfl
  unfold docFileOn at h
  simp only [if_true] at h
  rw [newXML_addChild] at hb' h
  injection h with _ h
  injection h with h
  subst h
  unfold loadFromFile
  rcases fail_cut (spaceCb_if hcb compact) hn hs hb' ok hf with h | ⟨T, h, hT⟩ | ⟨h0, T, h1, h2⟩ | ⟨h0, W, h1, h2⟩
  · exact .inl (by rw [h])
  · exact .inr (.inl (by rw [h]; exact hload T hT))
  · exact .inr (.inr (.inl ⟨h0, T, h2, by rw [h1]⟩))
  · exact .inr (.inr (.inr ⟨h0, W, h1, by rw [h2]⟩))

/-- A loader that wants the root element. -/
theorem root_fail (hcb : SpaceCb cb) (hn : PlainName n) (hs : Savable (.elem n as cs))
    (hb : cb [] (Node.newXML.addChild (.elem n as cs)) .beforeOpen = []) {β : Type} (load : Node → β) (fail good empty : β)
    (hl : ∀ T, NoName n T → load T = fail)
    (he : ∀ W : List Node, (∀ x ∈ W, isElem x = false) → load (.elem xmlDecl [] (W ++ [.elem n [] []])) = empty)
    (hload : ∀ T, IsRead T (.elem xmlDecl [] [.elem n as cs]) → load T = good) {ok : Nat → Bool} {old : Option Bytes} {b : Bool} {f f' : Bytes}
    (h : docFileOn true ok o cb compact (some (.elem n as cs)) old = (b, some f)) (hf : f' <+: f) :
    loadFromFile load fail f' = fail ∨ loadFromFile load fail f' = good ∨
    EndsBehindName n f' ∧ loadFromFile load fail f' = empty := by
  rcases fail_load hcb hn hs hb load fail good hload h hf with h | h | ⟨_, T, h1, h2⟩ | ⟨h, W, h1, h2⟩
  · exact .inl h
  · exact .inr (.inl h)
  · exact .inl (h2.trans (hl T h1))
  · exact .inr (.inr ⟨h, h2.trans (he W h1)⟩)

/-- A loader that wants something in the root element too. -/
theorem content_fail (hcb : SpaceCb cb) (hn : PlainName n) (hs : Savable (.elem n as cs))
    (hb : cb [] (Node.newXML.addChild (.elem n as cs)) .beforeOpen = []) {β : Type} (load : Node → β) (fail good : β) (P : β → Prop)
    (hp : P fail) (hl : ∀ T, NoName n T → load T = fail)
    (he : ∀ W : List Node, (∀ x ∈ W, isElem x = false) → P (load (.elem xmlDecl [] (W ++ [.elem n [] []]))))
    (hload : ∀ T, IsRead T (.elem xmlDecl [] [.elem n as cs]) → load T = good) {ok : Nat → Bool} {old : Option Bytes} {b : Bool} {f f' : Bytes}
    (h : docFileOn true ok o cb compact (some (.elem n as cs)) old = (b, some f)) (hf : f' <+: f) :
    P (loadFromFile load fail f') ∨ loadFromFile load fail f' = good := by
  rcases fail_load hcb hn hs hb load fail good hload h hf with h | h | ⟨_, T, h1, h2⟩ | ⟨_, W, h1, h2⟩
  · exact .inl (by rw [h]; exact hp)
  · exact .inr h
  · exact .inl (by rw [h2, hl T h1]; exact hp)
  · exact .inl (by rw [h2]; exact he W h1)

/-- A loader that does not care. -/
theorem list_fail (hcb : SpaceCb cb) (hn : PlainName n) (hs : Savable (.elem n as cs))
    (hb : cb [] (Node.newXML.addChild (.elem n as cs)) .beforeOpen = []) {β : Type} (load : Node → β) (fail good : β)
    (hload : ∀ T, IsRead T (.elem xmlDecl [] [.elem n as cs]) → load T = good) {ok : Nat → Bool} {old : Option Bytes} {b : Bool} {f f' : Bytes}
    (h : docFileOn true ok o cb compact (some (.elem n as cs)) old = (b, some f)) (hf : f' <+: f) :
    loadFromFile load fail f' = fail ∨ loadFromFile load fail f' = good ∨ StopsByName n f' := by
  rcases fail_load hcb hn hs hb load fail good hload h hf with h | h | ⟨h, _⟩ | ⟨⟨w, h1, h2⟩, _⟩
  · exact .inl h
  · exact .inr (.inl h)
  · exact .inr (.inr h)
  · exact .inr (.inr ⟨w, h1, h2 ▸ List.prefix_refl _⟩)

/-! ### Documents of several elements -/

/-- A document of several elements with layout is read as the elements without it. -/
theorem isRead_padded {ks ts : List Node} (hne : ts ≠ []) (hfull : ∀ t ∈ ks, NoEmptyText t) (hsame : (ks.filter isElem).map norm = ts) (A : Bytes) :
    IsRead (.elem xmlDecl [] (((xmlItemsList noCb [xmlDecl] ks).foldl itemStep (A, [])).2.reverse)) (.elem xmlDecl [] ts) := by
  have hels : itemEls (xmlItemsList noCb [xmlDecl] ks) = (ks.filter isElem).map (withWhite noCb [xmlDecl]) := xmlItemsList_els _ _ _
  have hall : ∀ n ∈ itemEls (xmlItemsList noCb [xmlDecl] ks), isElem n = true := by
    rw [hels]
    intro n hn
    obtain ⟨t, ht, rfl⟩ := List.mem_map.mp hn
    rw [isElem_withWhite]; exact (List.mem_filter.mp ht).2
  generalize hq : (xmlItemsList noCb [xmlDecl] ks).foldl itemStep (A, []) = q
  have hj := foldl_joinText (xmlItemsList noCb [xmlDecl] ks) (A, [])
  rw [hq] at hj
  have hsplit : q.2.reverse ++ (if q.1 = [] then [] else [.text q.1]) = joinText A (xmlItemsList noCb [xmlDecl] ks) := by
    rw [List.reverse_nil, List.nil_append] at hj
    rw [← hj]
    unfold flushRev
    split <;> simp
  have hmem : ∀ x ∈ q.2.reverse, NormalTree x := by
    intro x hx
    have : x ∈ joinText A (xmlItemsList noCb [xmlDecl] ks) := by rw [← hsplit]; exact List.mem_append_left _ hx
    rcases mem_joinText this with ⟨s, rfl⟩ | hx
    · exact .text
    · rw [hels] at hx
      obtain ⟨t, ht, rfl⟩ := List.mem_map.mp hx
      exact normal_withWhite _ _ _
  have hf : q.2.reverse.filter isElem = (ks.filter isElem).map (withWhite noCb [xmlDecl]) := by
    have := joinText_els A _ hall
    rw [← hsplit, List.filter_append, hels] at this
    rw [← this]
    split <;> simp [isElem]
  refine ⟨.elem (noAdj_prefix _ _ (hsplit ▸ joinText_noAdj A _ hall)) hmem, ?_⟩
  have hmap : ((ks.filter isElem).map (withWhite noCb [xmlDecl])).map norm = ts := by
    rw [← hsame, List.map_map]
    apply List.map_congr_left
    intro x hx
    exact norm_withWhite (cb := noCb) (by intro _ _ _ c hc; cases hc) (hfull x (List.mem_filter.mp hx).1) _
  have hne' : ks.filter isElem ≠ [] := by
    intro h0
    rw [h0] at hsame
    exact hne hsame.symm
  rw [norm_elem, any_eq_filter, hf, hmap]
  simp [hne']

/-- A document of several elements written while writes fail. -/
theorem docs_fail (ok : Nat → Bool) {cb : SaveCb} (hcb : SpaceCb cb) {t : Node} {ts : List Node}
    (hs : ∀ x ∈ t :: ts, Savable x) (hb : cb [] (.elem xmlDecl [] (t :: ts)) .beforeOpen = []) :
    ∃ k ks, (∀ x ∈ k :: ks, CleanTree x) ∧ (∀ x ∈ k :: ks, NoEmptyText x) ∧ ((k :: ks).filter isElem).map norm = t :: ts ∧
      (Xml.saveFileOn ok cb (.elem xmlDecl [] (t :: ts))).2 <+: saveText noCb [] (.elem xmlDecl [] (k :: ks)) := by
  obtain ⟨l, hl, hpre, heq⟩ := toks_file ok (toks cb [] (.elem xmlDecl [] (t :: ts))) 0 ⟨[], 0⟩
  rw [List.nil_append] at hpre heq
  have hl' := hl
  rw [toks, hb, if_pos (by rfl : isDirective xmlDecl = true), List.append_nil, List.append_assoc] at hl'
  obtain ⟨w, r, hw, hr, e⟩ := thin_open hl'
  have hw0 : w = [] := List.prefix_nil.mp hw
  subst hw0
  obtain ⟨a1, r1, rfl, ha1, hr1⟩ := thin_append hr
  obtain ⟨a2, a3, rfl, ha2, ha3⟩ := thin_append (a := [_]) (b := [_]) ha1
  have ha4 := thin_solid ha2
  subst ha4
  obtain ⟨w0, hw0, rfl⟩ := thin_white ha3
  have hs0 : Spaces w0 := Spaces.prefix (hcb _ _ _) hw0
  have hs2 : Spaces [10] := by intro c hc; simp at hc; subst hc; rfl
  obtain ⟨ks, hp, hrest⟩ := thin_nodes hcb _ _ _ (fun x hx => (hs x hx).clean) hr1
  obtain ⟨c1, c2, c3⟩ := pad_nodes hp hs
  have hne : ∃ y ys, ws w0 ++ ks ++ ws [10] = y :: ys := by
    cases hq : ws w0 ++ ks ++ ws [10] with
    | cons y ys => exact ⟨y, ys, rfl⟩
    | nil => simp [ws] at hq
  obtain ⟨y, ys, hy⟩ := hne
  refine ⟨y, ys, ?_, ?_, ?_, ?_⟩
  · rw [← hy]
    intro x hx
    simp only [List.mem_append] at hx
    rcases hx with (hx | hx) | hx
    · rw [(mem_ws hx).1]; exact .text (spaces_clean hs0)
    · exact c1 x hx
    · rw [(mem_ws hx).1]; exact .text (spaces_clean hs2)
  · rw [← hy]
    intro x hx
    simp only [List.mem_append] at hx
    rcases hx with (hx | hx) | hx
    · rw [(mem_ws hx).1]; exact .text (mem_ws hx).2
    · exact c2 x hx
    · rw [(mem_ws hx).1]; exact .text (mem_ws hx).2
  · rw [← hy]
    simp only [List.filter_append, filter_ws, List.nil_append, List.append_nil]
    exact c3
  obtain ⟨v, -, hv⟩ := saveText_newline noCb [] (.elem xmlDecl [] (y :: ys))
  have hform : saveText noCb [] (.elem xmlDecl [] (y :: ys)) = l.flatMap Tok.bytes ++ [10] ++ v := by
    rw [hv, e, writeNode, ← hy, if_pos (by rfl : isDirective xmlDecl = true), writeNodes_append, writeNodes_append, writeNodes_ws _ _ hs0,
      writeNodes_ws _ _ hs2]
    rw [List.flatMap_append, hrest]
    simp [Tok.bytes, noCb]
  rw [hform]
  unfold Xml.saveFileOn
  rw [wNode_eq]
  cases hm : wToks ok (toks cb [] (.elem xmlDecl [] (t :: ts))) 0 ⟨[], 0⟩ with
  | mk o r =>
    rw [hm] at hpre heq
    cases r with
    | none => exact hpre.trans ⟨[10] ++ v, by simp⟩
    | some col =>
      have e2 : o.file = l.flatMap Tok.bytes := heq rfl
      dsimp only
      split
      · dsimp only; rw [e2]; exact ⟨[10] ++ v, by simp⟩
      · split
        · have hq := putc_file ok 10 o
          cases hq' : wPutc ok 10 o with
          | mk o' q =>
            rw [hq'] at hq
            rcases hq with ⟨h1, h2⟩ | ⟨h1, h2⟩ <;> dsimp only at h1 h2 <;> subst h1
            · dsimp only; rw [h2, e2]; exact ⟨[10] ++ v, by simp⟩
            · dsimp only; rw [h2, e2]; exact ⟨v, by simp⟩
        · dsimp only; rw [e2]; exact ⟨[10] ++ v, by simp⟩

/-- The beginning of a document of several elements written while writes fail. -/
theorem docs_cut (ok : Nat → Bool) {cb : SaveCb} (hcb : SpaceCb cb) {t : Node} {ts : List Node}
    (hs : ∀ x ∈ t :: ts, Savable x) (hb : cb [] (.elem xmlDecl [] (t :: ts)) .beforeOpen = []) {f : Bytes}
    (hf : f <+: (Xml.saveFileOn ok cb (.elem xmlDecl [] (t :: ts))).2) :
    Xml.loadFile f = none ∨ Xml.loadFile f = some (.elem [] [] []) ∨ Xml.loadFile f = some (.elem xmlDecl [] []) ∨
    ∃ kids, IsRead (.elem xmlDecl [] kids) (.elem xmlDecl [] (t :: ts)) ∧ ∃ pre, pre <+: kids ∧
      (Xml.loadFile f = some (.elem xmlDecl [] pre) ∨ ∃ b, Xml.loadFile f = some (.elem xmlDecl [] (pre ++ [.elem b [] []]))) := by
  obtain ⟨k, ks, h1, h2, h3, hpre⟩ := docs_fail ok hcb hs hb
  have hno : SpaceCb noCb := by intro _ _ _ c hc; cases hc
  obtain ⟨A, e⟩ := load_documents good_decodeFile hno.white (ts := k :: ks) (by simp) h1
  have hr := isRead_padded (by simp) h2 h3 A
  generalize ((xmlItemsList noCb [xmlDecl] (k :: ks)).foldl itemStep (A, [])).2.reverse = kids at e hr
  obtain ⟨r, hd⟩ : ∃ r, saveText noCb [] (.elem xmlDecl [] (k :: ks)) = declaration ++ r := by
    obtain ⟨w, _, e⟩ := saveText_newline noCb [] (.elem xmlDecl [] (k :: ks))
    rw [e, declaration_eq, writeNode]
    have h1 : writeOpenName xmlDecl = xmlDecl := by decide
    have h2 : isDirective xmlDecl = true := by decide
    simp [h1, h2, noCb]
  obtain ⟨cs, hcs, ec⟩ := save_docs_clean hno.white (ts := k :: ks) (by simp) h1
  obtain ⟨cs', er, hsub⟩ := utf8_strip declaration cs r (by decide +kernel) (by rw [← hd]; exact ec.symm)
  have hal : ∀ c ∈ cs', Allowed c := fun c hc => hcs c (hsub c hc)
  subst er
  have hf := hf.trans hpre
  rw [hd] at hf e
  have hfk := List.prefix_iff_eq_take.mp hf
  generalize f.length = j at hfk
  subst hfk
  by_cases hk : j ≤ declaration.length
  · rw [List.take_append_of_le_length hk]
    have e := eofs_feed decodeFile (declaration.take j)
    have := ascii_lit good_decodeFile (w := declaration.take j) (fun b hb => (by decide +kernel : ∀ b ∈ declaration, okByte b = true) b (List.mem_of_mem_take hb))
      PS.init []
    rw [List.append_nil, feed_nil good_decodeFile] at this
    rw [this] at e
    rcases decl_cuts j hk with h | h | h
    · exact .inl ((show Xml.loadFile _ = _ from e).trans h)
    · exact .inr (.inl ((show Xml.loadFile _ = _ from e).trans h))
    · exact .inr (.inr (.inl ((show Xml.loadFile _ = _ from e).trans h)))
  obtain ⟨j, rfl⟩ : ∃ i, j = declaration.length + i := ⟨j - declaration.length, by omega⟩
  rw [show (declaration ++ utf8File cs').take (declaration.length + j) = declaration ++ (utf8File cs').take j by
    rw [List.take_append, List.take_of_length_le (by omega)]; simp]
  rcases any_cut good_decodeFile part_decodeFile hal e j with h | ⟨kids', hk, pre, hp, h⟩
  · exact .inl h
  · cases hk
    exact .inr (.inr (.inr ⟨kids, hr, pre, hp, h⟩))

end Afs
