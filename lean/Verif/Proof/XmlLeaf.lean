import Verif.Proof.XmlReader
/-!
# In every tree the XML reader returns, comments and the like are leaves
-/
namespace Afs.Xml
open Afs.Spec

namespace Leaf

/-- A name of an element proper. -/
def Plainly (n : Bytes) : Prop := ¬ (n.head? = some 33 ∨ n.head? = some 63)

/-- Frames: children are fine, and only the first one may be special. -/
def Frames : List Frame → Prop
  | [] => True
  | [f] => (∀ c ∈ f.rev, LeafTree c) ∧ (Plainly f.name ∨ f.attrs = [])
  | f :: g :: fs => (∀ c ∈ f.rev, LeafTree c) ∧ Plainly f.name ∧ Frames (g :: fs)

def Pc : PC → Prop
  | .slash n => Plainly n
  | .attr e => Plainly e.1
  | .attrSlash e _ => Plainly e.1
  | .valSlash e _ => Plainly e.1
  | .qname e _ _ => Plainly e.1
  | .aname e _ => Plainly e.1
  | .aeq e _ => Plainly e.1
  | .vskip e _ => Plainly e.1
  | .qval e _ _ _ => Plainly e.1
  | .uval e _ _ => Plainly e.1
  | .ent k _ => Pc k
  | .done r => ∀ n, r = some n → LeafDoc n
  | _ => True

def Core (s : PS) : Prop := Frames s.stack ∧ ∀ n, s.root = some n → LeafDoc n

def Ok (s : PS) : Prop := Core s ∧ Pc s.pc

theorem frames_rev {f : Frame} {fs : List Frame} (h : Frames (f :: fs)) : ∀ c ∈ f.rev, LeafTree c := by
  cases fs with
  | nil => exact h.1
  | cons g fs => exact h.1

theorem frames_add {f : Frame} {fs : List Frame} (h : Frames (f :: fs)) {n : Node} (hn : LeafTree n) :
    Frames ({ f with rev := n :: f.rev } :: fs) := by
  have : ∀ c ∈ n :: f.rev, LeafTree c := by
    intro c hc
    rcases List.mem_cons.mp hc with rfl | hc
    · exact hn
    · exact frames_rev h c hc
  cases fs with
  | nil => exact ⟨this, h.2⟩
  | cons g fs => exact ⟨this, h.2⟩

theorem node_leaf {f : Frame} (h : ∀ c ∈ f.rev, LeafTree c) (hp : Plainly f.name) : LeafTree f.node :=
  .elem (fun e => absurd e hp) fun c hc => h c (List.mem_reverse.mp hc)

theorem node_doc {f : Frame} (h : Frames [f]) : LeafDoc f.node := by
  by_cases hp : Plainly f.name
  · exact .inl (node_leaf h.1 hp)
  · refine .inr ⟨f.name, f.rev.reverse, ?_, Classical.not_not.mp hp, fun c hc => h.1 c (List.mem_reverse.mp hc)⟩
    rw [Frame.node, h.2.resolve_left hp]

theorem ok_error {s : PS} (h : Core s) : Ok s.error := ⟨h, fun _ e => by cases e⟩

theorem ok_finish {s : PS} (h : Core s) : Ok s.finish := by
  unfold PS.finish
  split
  · exact ⟨h, h.2⟩
  · rename_i f e
    refine ⟨h, ?_⟩
    intro n hn
    cases hn
    have := h.1
    rw [e] at this
    exact node_doc this
  · exact ok_error h

theorem core_addNode {s : PS} (h : Core s) {n : Node} (hn : LeafTree n) : Core (s.addNode n) := by
  unfold PS.addNode
  split
  · split
    · exact ⟨h.1, by intro m hm; cases hm; exact .inl hn⟩
    · exact h
  · rename_i f fs e
    have := h.1
    rw [e] at this
    exact ⟨frames_add this hn, h.2⟩

theorem leaf_special (n : Bytes) : LeafTree (.elem n [] []) := .elem (fun _ => ⟨rfl, rfl⟩) (by simp)

theorem leaf_plain {n : Bytes} (hp : Plainly n) (as) : LeafTree (.elem n as []) := .elem (fun e => absurd e hp) (by simp)

theorem core_push {s : PS} (h : Core s) (e : Head) (he : Plainly e.1) : Core (s.push e) := by
  refine ⟨?_, h.2⟩
  show Frames (⟨e.1, e.2, []⟩ :: s.stack)
  cases hs : s.stack with
  | nil => exact ⟨by simp, .inl he⟩
  | cons g fs => exact ⟨by simp, he, hs ▸ h.1⟩

theorem core_flush {s : PS} (h : Core s) (buf : Bytes) : Core (s.flush buf) := by
  unfold PS.flush
  split
  · exact h
  · split
    · exact core_addNode h .text
    · exact h

theorem ok_pop {s : PS} (h : Core s) : Ok s.pop := by
  unfold PS.pop
  split
  · exact ok_error h
  · rename_i f e
    have hf := h.1
    rw [e] at hf
    exact ⟨⟨trivial, by intro n hn; cases hn; exact node_doc hf⟩, trivial⟩
  · rename_i f g fs e
    have hf := h.1
    rw [e] at hf
    exact ⟨⟨frames_add hf.2.2 (node_leaf hf.1 hf.2.1), h.2⟩, trivial⟩

theorem ok_afterHead {s : PS} (h : Core s) (e : Head) (he : Plainly e.1) (c : Nat) : Ok (s.afterHead e c) := by
  unfold PS.afterHead
  split
  · exact ⟨core_addNode h (leaf_plain he _), trivial⟩
  · exact ⟨core_push h e he, trivial⟩

theorem ok_addSpecial {s : PS} (h : Core s) (buf : Bytes) : Ok (s.addSpecial buf) := by
  unfold PS.addSpecial
  split
  · exact ok_error h
  · exact ⟨core_addNode h (leaf_special _), trivial⟩

theorem ok_addDirective {s : PS} (h : Core s) (buf : Bytes) : Ok (s.addDirective buf) := by
  unfold PS.addDirective
  split
  · exact ok_error h
  · split
    · rename_i he
      refine ⟨⟨?_, h.2⟩, trivial⟩
      show Frames (⟨buf, [], []⟩ :: s.stack)
      rw [List.isEmpty_iff.mp he]
      exact ⟨by simp, .inr rfl⟩
    · exact ⟨core_addNode h (leaf_special _), trivial⟩

theorem ok_declBody {s : PS} (h : Core s) (buf : Bytes) (ch : Option Nat) : Ok (s.declBody buf ch) := by
  unfold PS.declBody
  split
  · exact ⟨h, trivial⟩
  · split
    · exact ok_addDirective h buf
    · split <;> exact ⟨h, trivial⟩

theorem ok_closeBody {s : PS} (h : Core s) (ch : Option Nat) : Ok (s.closeBody ch) := by
  unfold PS.closeBody
  split
  · exact ok_pop h
  · split
    · exact ok_pop h
    · exact ⟨h, trivial⟩

theorem ok_afterName {s : PS} (h : Core s) (buf : Bytes) (ch : Option Nat) : Ok (s.afterName buf ch) := by
  unfold PS.afterName
  split
  · exact ⟨h, trivial⟩
  split
  · exact ⟨h, trivial⟩
  split
  · exact ⟨h, trivial⟩
  rename_i h63
  split
  · exact ok_declBody h buf ch
  rename_i h33
  have hp : Plainly buf := fun e => e.elim h33 h63
  split
  · split
    · exact ok_error h
    · split
      · exact ok_closeBody h ch
      · exact ok_error h
  split
  · exact ok_error h
  split
  · exact ok_finish (core_addNode h (leaf_special _))
  · split
    · exact ⟨h, hp⟩
    · split
      · exact ⟨h, hp⟩
      · exact ok_afterHead h _ hp _

theorem ok_afterAttrName {s : PS} (h : Core s) (e : Head) (he : Plainly e.1) (an : Bytes) (ch : Option Nat) :
    Ok (s.afterAttrName e an ch) := by
  unfold PS.afterAttrName
  dsimp only
  split
  · exact ok_error h
  · split
    · exact ok_error h
    · split
      · exact ⟨h, he⟩
      · split
        · exact ⟨h, he⟩
        · exact ok_error h

theorem ok_afterValue {s : PS} (h : Core s) (e : Head) (an av : Bytes) (he : Plainly e.1) (ch : Option Nat) :
    Ok (s.afterValue e an av ch) := by
  unfold PS.afterValue
  dsimp only
  split
  · exact ⟨h, he⟩
  · split
    · exact ⟨h, he⟩
    · split
      · exact ok_afterHead h (e.1, Node.setAttrList an (some (cstr av)) e.2) he _
      · exact ⟨h, he⟩

theorem ok_resume {s : PS} (h : Core s) (k : PC) (hk : Pc k) (ch : Nat) : Ok (resume s k ch) := by
  unfold resume
  split
  · exact ⟨h, trivial⟩
  · exact ⟨h, trivial⟩
  · exact ⟨h, trivial⟩
  · split
    · exact ok_afterAttrName h _ hk _ _
    · exact ⟨h, hk⟩
  · exact ⟨h, hk⟩
  · exact ⟨h, hk⟩
  · exact ⟨h, hk⟩
  · exact ok_error h

theorem ok_step {s : PS} (hs : Ok s) (ch : Option Nat) : Ok (step s ch) := by
  obtain ⟨h, hp⟩ := hs
  unfold step
  split <;> rename_i epc <;> rw [epc] at hp
  · exact ⟨h, hp⟩
  · exact ok_finish h
  · split
    · exact ⟨core_flush h _, trivial⟩
    · dsimp only
      rename_i buf c _
      have e1 : Core (if (isSpace c && !s.opq && !buf.isEmpty) = true then s.flush buf else s) := by
        split
        · exact core_flush h _
        · exact h
      split
      · exact ⟨e1, trivial⟩
      · split <;> exact ⟨e1, trivial⟩
  · exact ok_afterName h _ _
  · split
    · exact ok_afterName h _ _
    split
    · exact ok_error h
    split
    · exact ⟨h, trivial⟩
    split
    · exact ok_error h
    dsimp only
    split
    · exact ok_afterName h _ _
    · exact ⟨h, trivial⟩
  · exact ok_error h
  · split
    · exact ok_addSpecial h _
    · exact ⟨h, trivial⟩
  · exact ok_error h
  · split
    · exact ok_addSpecial h _
    · exact ⟨h, trivial⟩
  · exact ok_error h
  · split
    · exact ok_addDirective h _
    · exact ⟨h, trivial⟩
  · exact ok_error h
  · exact ok_declBody h _ _
  · exact ok_closeBody h _
  · split
    · exact ok_afterHead h (_, []) hp _
    · exact ok_error h
  · exact ok_error h
  · split
    · exact ⟨h, hp⟩
    split
    · exact ⟨h, hp⟩
    split
    · exact ok_error h
    split
    · exact ok_afterHead h _ hp _
    split <;> exact ⟨h, hp⟩
  · split
    · exact ok_afterHead h _ hp _
    · exact ok_error h
  · exact ok_afterAttrName h _ hp _ _
  · split
    · exact ⟨h, hp⟩
    split
    · exact ok_afterAttrName h _ hp _ _
    · exact ⟨h, hp⟩
  · exact ok_afterAttrName h _ hp _ _
  · split
    · exact ok_afterAttrName h _ hp _ _
    split
    · exact ⟨h, hp⟩
    · exact ⟨h, hp⟩
  · exact ok_error h
  · split
    · exact ⟨h, hp⟩
    split
    · exact ⟨h, hp⟩
    · exact ok_error h
  · exact ok_error h
  · split
    · exact ⟨h, hp⟩
    split <;> exact ⟨h, hp⟩
  · exact ok_afterValue h _ _ _ hp _
  · split
    · exact ok_afterValue h _ _ _ hp _
    split <;> exact ⟨h, hp⟩
  · exact ok_afterValue h _ _ _ hp _
  · split
    · exact ok_afterValue h _ _ _ hp _
    split <;> exact ⟨h, hp⟩
  · split
    · exact ok_afterHead h _ hp _
    · exact ok_error h
  · exact ok_error h
  · split
    · split
      · exact ⟨h, hp⟩
      · exact ok_error h
    split
    · split
      · exact ok_error h
      · rw [Pc] at hp; exact ok_resume h _ hp _
    · exact ok_error h

theorem ok_run {s : PS} (hs : Ok s) (l : List (Option Nat)) : Ok (run s l) := by
  unfold run
  induction l generalizing s with
  | nil => exact hs
  | cons c l ih => exact ih (ok_step hs c)

end Leaf

theorem loadData_leaf {l : List (Option Nat)} {t : Node} (h : loadData l = some t) : LeafDoc t := by
  unfold loadData at h
  have hg := Leaf.ok_run (Leaf.ok_run (s := PS.init) ⟨⟨trivial, by intro n h; cases h⟩, trivial⟩ l) [none, none, none]
  generalize run (run PS.init l) [none, none, none] = s at *
  unfold PS.result at h
  split at h
  · rename_i r e
    have := hg.2
    rw [e] at this
    exact this t h
  · cases h

end Afs.Xml
