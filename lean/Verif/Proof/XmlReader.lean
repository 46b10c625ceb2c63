import Verif.Model.Xml.Parse
import Verif.Spec.Xml
/-!
# Every tree the XML reader returns is in normal form
-/
namespace Afs.Xml
open Afs.Spec

def GoodAttrs (as : List (Bytes × Option Bytes)) : Prop := (as.map Prod.fst).Nodup ∧ ∀ a ∈ as, a.2 ≠ none

def GoodFrame (f : Frame) : Prop :=
  GoodAttrs f.attrs ∧ NoAdjacentText f.rev.reverse ∧ ∀ c ∈ f.rev, ReaderTree c

def NoTextLast (st : List Frame) : Prop := ∀ f fs, st = f :: fs → ∀ t r, f.rev ≠ .text t :: r

def RootOk (n : Node) : Prop := ReaderTree n ∧ ∃ m as cs, n = .elem m as cs

def GoodPC (st : List Frame) : PC → Prop
  | .main _ => NoTextLast st
  | .attr e => GoodAttrs e.2
  | .attrSlash e _ => GoodAttrs e.2
  | .valSlash e _ => GoodAttrs e.2
  | .qname e _ _ => GoodAttrs e.2
  | .aname e _ => GoodAttrs e.2
  | .aeq e an => GoodAttrs e.2 ∧ an ∉ e.2.map Prod.fst
  | .vskip e an => GoodAttrs e.2 ∧ an ∉ e.2.map Prod.fst
  | .qval e an _ _ => GoodAttrs e.2 ∧ an ∉ e.2.map Prod.fst
  | .uval e an _ => GoodAttrs e.2 ∧ an ∉ e.2.map Prod.fst
  | .ent k _ => GoodPC st k
  | .done r => ∀ n, r = some n → RootOk n
  | _ => True

def Core (s : PS) : Prop :=
  (∀ f ∈ s.stack, GoodFrame f) ∧ (∀ n, s.root = some n → RootOk n) ∧ (s.stack = [] → s.root = none → s.opq = false)

def Good (s : PS) : Prop := Core s ∧ GoodPC s.stack s.pc

theorem noAdj_elem {l : List Node} (h : NoAdjacentText l) (n as cs) : NoAdjacentText (l ++ [.elem n as cs]) := by
  induction l with
  | nil => exact trivial
  | cons x xs ih =>
    cases x with
    | text s =>
      obtain ⟨h1, h2, h3⟩ := h
      refine ⟨h1, ?_, ih h3⟩
      cases xs with
      | nil => intro t cs' e; simp at e
      | cons y ys =>
        intro t cs' e
        have e1 : y = .text t := (List.cons.inj e).1
        exact h2 t ys (by rw [e1])
    | elem _ _ _ => exact ih h

theorem noAdj_text {l : List Node} (h : NoAdjacentText l) (s : Bytes) (hs : s ≠ [])
    (hl : ∀ t, l.getLast? ≠ some (.text t)) : NoAdjacentText (l ++ [.text s]) := by
  induction l with
  | nil => exact ⟨hs, by simp, trivial⟩
  | cons x xs ih =>
    cases x with
    | text s' =>
      obtain ⟨h1, h2, h3⟩ := h
      cases xs with
      | nil => exact absurd rfl (hl s')
      | cons y ys =>
        refine ⟨h1, ?_, ih h3 (by simpa using hl)⟩
        intro t cs' e
        have e1 : y = .text t := (List.cons.inj e).1
        exact h2 t ys (by rw [e1])
    | elem _ _ _ =>
      apply ih h
      intro t
      cases xs with
      | nil => simp
      | cons y ys => simpa using hl t

theorem goodFrame_node {f : Frame} (h : GoodFrame f) : RootOk f.node :=
  ⟨.elem h.1.1 h.1.2 h.2.1 (fun c hc => h.2.2 c (List.mem_reverse.mp hc)), f.name, f.attrs, f.rev.reverse, rfl⟩

theorem goodFrame_add {f : Frame} (h : GoodFrame f) {n as cs} (hn : ReaderTree (.elem n as cs)) :
    GoodFrame { f with rev := .elem n as cs :: f.rev } := by
  refine ⟨h.1, ?_, ?_⟩
  · show NoAdjacentText (Node.elem n as cs :: f.rev).reverse
    rw [List.reverse_cons]; exact noAdj_elem h.2.1 _ _ _
  · intro c hc
    rcases List.mem_cons.mp hc with rfl | hc
    · exact hn
    · exact h.2.2 c hc

theorem goodFrame_text {f : Frame} (h : GoodFrame f) {t : Bytes} (ht : t ≠ []) (hl : ∀ t r, f.rev ≠ .text t :: r) :
    GoodFrame { f with rev := .text t :: f.rev } := by
  refine ⟨h.1, ?_, ?_⟩
  · show NoAdjacentText (Node.text t :: f.rev).reverse
    rw [List.reverse_cons]
    apply noAdj_text h.2.1 _ ht
    intro u
    rw [List.getLast?_reverse]
    cases hr : f.rev with
    | nil => simp
    | cons x xs =>
      intro e
      simp only [List.head?_cons, Option.some.injEq] at e
      exact hl u xs (by rw [hr, e])
  · intro c hc
    rcases List.mem_cons.mp hc with rfl | hc
    · exact .text ht
    · exact h.2.2 c hc

theorem good_error {s : PS} (h : Core s) : Good s.error := ⟨h, fun _ e => by cases e⟩

theorem good_finish {s : PS} (h : Core s) : Good s.finish := by
  unfold PS.finish
  split
  · exact ⟨h, h.2.1⟩
  · rename_i f e
    refine ⟨h, ?_⟩
    intro n hn
    cases hn
    exact goodFrame_node (h.1 f (by rw [e]; simp))
  · exact good_error h

theorem core_addNode {s : PS} (h : Core s) {n as cs} (hn : ReaderTree (.elem n as cs)) :
    Core (s.addNode (.elem n as cs)) ∧ NoTextLast (s.addNode (.elem n as cs)).stack := by
  unfold PS.addNode
  split
  · rename_i e
    split
    · refine ⟨⟨by rw [show ({s with root := some (Node.elem n as cs)} : PS).stack = [] from e]; simp, ?_, ?_⟩, ?_⟩
      · intro m hm; cases hm; exact ⟨hn, _, _, _, rfl⟩
      · intro _ hr; cases hr
      · intro f fs e'; rw [show ({s with root := some (Node.elem n as cs)} : PS).stack = [] from e] at e'; cases e'
    · exact ⟨h, by intro f fs e'; rw [e] at e'; cases e'⟩
  · rename_i f fs e
    have hf := h.1 f (by rw [e]; simp)
    refine ⟨⟨?_, h.2.1, by intro e'; cases e'⟩, ?_⟩
    · intro g hg
      rcases List.mem_cons.mp hg with rfl | hg
      · exact goodFrame_add hf hn
      · exact h.1 g (by rw [e]; simp [hg])
    · intro g gs e'
      cases e'
      intro t r e''
      cases e''

theorem readerTree_leaf (n : Bytes) {as} (h : GoodAttrs as) : ReaderTree (.elem n as []) :=
  .elem h.1 h.2 trivial (by simp)

theorem goodAttrs_nil : GoodAttrs [] := ⟨List.nodup_nil, by simp⟩

theorem core_push {s : PS} (h : Core s) (e : Head) (he : GoodAttrs e.2) :
    Core (s.push e) ∧ NoTextLast (s.push e).stack := by
  refine ⟨⟨?_, h.2.1, by intro e'; cases e'⟩, ?_⟩
  · intro g hg
    rcases List.mem_cons.mp hg with rfl | hg
    · exact ⟨he, trivial, by simp⟩
    · exact h.1 g hg
  · intro g gs e'
    cases e'
    simp

theorem good_pop {s : PS} (h : Core s) : Good s.pop := by
  unfold PS.pop
  split
  · exact good_error h
  · rename_i f e
    have hf := h.1 f (by rw [e]; simp)
    refine ⟨⟨by simp, ?_, ?_⟩, ?_⟩
    · intro n hn; cases hn; exact goodFrame_node hf
    · intro _ hr; cases hr
    · intro g gs e'; cases e'
  · rename_i f g fs e
    have hf := h.1 f (by rw [e]; simp)
    have hg := h.1 g (by rw [e]; simp)
    refine ⟨⟨?_, h.2.1, by intro e'; cases e'⟩, ?_⟩
    · intro x hx
      rcases List.mem_cons.mp hx with rfl | hx
      · exact goodFrame_add hg (goodFrame_node hf).1
      · exact h.1 x (by rw [e]; simp [hx])
    · intro x xs e'
      cases e'
      intro t r e''
      cases e''

theorem core_flush {s : PS} (h : Core s) (hl : NoTextLast s.stack) (buf : Bytes) : Core (s.flush buf) := by
  unfold PS.flush
  split
  · exact h
  · rename_i hb
    split
    · rename_i ho
      unfold PS.addNode
      split
      · rename_i e
        split
        · rename_i hr
          have := h.2.2 e hr
          rw [ho] at this; cases this
        · exact h
      · rename_i f fs e
        have hf := h.1 f (by rw [e]; simp)
        refine ⟨?_, h.2.1, by intro e'; cases e'⟩
        intro x hx
        rcases List.mem_cons.mp hx with rfl | hx
        · exact goodFrame_text hf hb (hl f fs e)
        · exact h.1 x (by rw [e]; simp [hx])
    · exact h

theorem flush_out {s : PS} (h : s.opq = false) (buf : Bytes) : s.flush buf = s := by
  unfold PS.flush; simp [h]

theorem good_afterHead {s : PS} (h : Core s) (e : Head) (he : GoodAttrs e.2) (c : Nat) : Good (s.afterHead e c) := by
  unfold PS.afterHead
  split
  · exact core_addNode h (readerTree_leaf _ he)
  · exact core_push h e he

theorem good_addSpecial {s : PS} (h : Core s) (buf : Bytes) : Good (s.addSpecial buf) := by
  unfold PS.addSpecial
  split
  · exact good_error h
  · exact core_addNode h (readerTree_leaf _ goodAttrs_nil)

theorem good_addDirective {s : PS} (h : Core s) (buf : Bytes) : Good (s.addDirective buf) := by
  unfold PS.addDirective
  split
  · exact good_error h
  · split
    · exact core_push h (buf, []) goodAttrs_nil
    · exact core_addNode h (readerTree_leaf _ goodAttrs_nil)

theorem good_declBody {s : PS} (h : Core s) (buf : Bytes) (ch : Option Nat) : Good (s.declBody buf ch) := by
  unfold PS.declBody
  split
  · exact ⟨h, trivial⟩
  · split
    · exact good_addDirective h buf
    · split <;> exact ⟨h, trivial⟩

theorem good_closeBody {s : PS} (h : Core s) (ch : Option Nat) : Good (s.closeBody ch) := by
  unfold PS.closeBody
  split
  · exact good_pop h
  · split
    · exact good_pop h
    · exact ⟨h, trivial⟩

theorem good_afterName {s : PS} (h : Core s) (buf : Bytes) (ch : Option Nat) : Good (s.afterName buf ch) := by
  unfold PS.afterName
  split
  · exact ⟨h, trivial⟩
  split
  · exact ⟨h, trivial⟩
  split
  · exact ⟨h, trivial⟩
  split
  · exact good_declBody h buf ch
  split
  · split
    · exact good_error h
    · split
      · exact good_closeBody h ch
      · exact good_error h
  split
  · exact good_error h
  split
  · exact good_finish (core_addNode h (readerTree_leaf _ goodAttrs_nil)).1
  · split
    · exact ⟨h, goodAttrs_nil⟩
    · split
      · exact ⟨h, trivial⟩
      · exact good_afterHead h _ goodAttrs_nil _

theorem findAttr_none' {an : Bytes} {as : List (Bytes × Option Bytes)} (hv : ∀ a ∈ as, a.2 ≠ none)
    (h : Node.findAttr an as = none) : an ∉ as.map Prod.fst := by
  induction as with
  | nil => simp
  | cons a as ih =>
    obtain ⟨n, v⟩ := a
    rw [Node.findAttr] at h
    by_cases e : n = an
    · rw [if_pos e] at h
      exact absurd h (hv (n, v) (by simp))
    · rw [if_neg e] at h
      have := ih (fun a ha => hv a (by simp [ha])) h
      simp only [List.map_cons, List.mem_cons, not_or]
      exact ⟨fun e' => e e'.symm, this⟩

theorem good_afterAttrName {s : PS} (h : Core s) (e : Head) (he : GoodAttrs e.2) (an : Bytes) (ch : Option Nat) :
    Good (s.afterAttrName e an ch) := by
  unfold PS.afterAttrName
  dsimp only
  split
  · exact good_error h
  · rename_i hn
    have hn' := findAttr_none' he.2 (by simpa using hn)
    split
    · exact good_error h
    · split
      · exact ⟨h, he, hn'⟩
      · split
        · exact ⟨h, he, hn'⟩
        · exact good_error h

theorem setAttr_good {an av : Bytes} {as : List (Bytes × Option Bytes)} (h : GoodAttrs as) (hn : an ∉ as.map Prod.fst) :
    GoodAttrs (Node.setAttrList an (some av) as) := by
  have e : Node.setAttrList an (some av) as = as ++ [(an, some av)] := by
    clear h
    induction as with
    | nil => rfl
    | cons a as ih =>
      obtain ⟨n, v⟩ := a
      simp only [List.map_cons, List.mem_cons, not_or] at hn
      rw [Node.setAttrList, if_neg (fun e => hn.1 e.symm), ih hn.2]; rfl
  rw [e]
  constructor
  · rw [List.map_append, List.nodup_append]
    refine ⟨h.1, by simp, ?_⟩
    intro a ha b hb
    simp only [List.map_cons, List.map_nil, List.mem_singleton] at hb
    rintro rfl
    exact hn (hb ▸ ha)
  · intro a ha
    rcases List.mem_append.mp ha with ha | ha
    · exact h.2 a ha
    · simp only [List.mem_singleton] at ha
      rw [ha]; simp

theorem good_afterValue {s : PS} (h : Core s) (e : Head) (an av : Bytes)
    (he : GoodAttrs e.2 ∧ an ∉ e.2.map Prod.fst) (ch : Option Nat) : Good (s.afterValue e an av ch) := by
  have hg := setAttr_good (av := cstr av) he.1 he.2
  unfold PS.afterValue
  dsimp only
  split
  · exact ⟨h, hg⟩
  · split
    · exact ⟨h, hg⟩
    · split
      · exact good_afterHead h _ hg _
      · exact ⟨h, hg⟩

theorem good_resume {s : PS} (h : Core s) (k : PC) (hk : GoodPC s.stack k) (ch : Nat) : Good (resume s k ch) := by
  unfold resume
  split
  · exact ⟨h, hk⟩
  · exact ⟨h, trivial⟩
  · exact ⟨h, trivial⟩
  · split
    · exact good_afterAttrName h _ hk _ _
    · exact ⟨h, hk⟩
  · exact ⟨h, hk⟩
  · exact ⟨h, hk⟩
  · exact ⟨h, hk⟩
  · exact good_error h

theorem good_step {s : PS} (hs : Good s) (ch : Option Nat) : Good (step s ch) := by
  obtain ⟨h, hp⟩ := hs
  unfold step
  split <;> rename_i epc <;> rw [epc] at hp
  · exact ⟨h, hp⟩
  · exact good_finish h
  · -- main
    split
    · exact ⟨core_flush h hp _, trivial⟩
    · dsimp only
      rename_i buf c _
      have e1 : (if (isSpace c && !s.opq && !buf.isEmpty) = true then s.flush buf else s) = s := by
        by_cases ho : s.opq = true
        · simp [ho]
        · rw [flush_out (by simpa using ho)]; simp
      rw [e1]
      split
      · exact ⟨h, hp⟩
      · split <;> exact ⟨h, hp⟩
  · exact good_afterName h _ _
  · -- name
    split
    · exact good_afterName h _ _
    split
    · exact good_error h
    split
    · exact ⟨h, trivial⟩
    split
    · exact good_error h
    dsimp only
    split
    · exact good_afterName h _ _
    · exact ⟨h, trivial⟩
  · exact good_error h
  · split
    · exact good_addSpecial h _
    · exact ⟨h, trivial⟩
  · exact good_error h
  · split
    · exact good_addSpecial h _
    · exact ⟨h, trivial⟩
  · exact good_error h
  · split
    · exact good_addDirective h _
    · exact ⟨h, trivial⟩
  · exact good_error h
  · exact good_declBody h _ _
  · exact good_closeBody h _
  · split
    · exact good_afterHead h _ goodAttrs_nil _
    · exact good_error h
  · exact good_error h
  · -- attr
    split
    · exact ⟨h, hp⟩
    split
    · exact ⟨h, hp⟩
    split
    · exact good_error h
    split
    · exact good_afterHead h _ hp _
    split <;> exact ⟨h, hp⟩
  · split
    · exact good_afterHead h _ hp _
    · exact good_error h
  · exact good_afterAttrName h _ hp _ _
  · split
    · exact ⟨h, hp⟩
    split
    · exact good_afterAttrName h _ hp _ _
    · exact ⟨h, hp⟩
  · exact good_afterAttrName h _ hp _ _
  · split
    · exact good_afterAttrName h _ hp _ _
    split
    · exact ⟨h, hp⟩
    · exact ⟨h, hp⟩
  · exact good_error h
  · split
    · exact ⟨h, hp⟩
    split
    · exact ⟨h, hp⟩
    · exact good_error h
  · exact good_error h
  · split
    · exact ⟨h, hp⟩
    split <;> exact ⟨h, hp⟩
  · exact good_afterValue h _ _ _ hp _
  · split
    · exact good_afterValue h _ _ _ hp _
    split <;> exact ⟨h, hp⟩
  · exact good_afterValue h _ _ _ hp _
  · split
    · exact good_afterValue h _ _ _ hp _
    split <;> exact ⟨h, hp⟩
  · split
    · exact good_afterHead h _ hp _
    · exact good_error h
  · exact good_error h
  · split
    · split
      · exact ⟨h, hp⟩
      · exact good_error h
    split
    · split
      · exact good_error h
      · rw [GoodPC] at hp; exact good_resume h _ hp _
    · exact good_error h

theorem good_run {s : PS} (hs : Good s) (l : List (Option Nat)) : Good (run s l) := by
  unfold run
  induction l generalizing s with
  | nil => exact hs
  | cons c l ih => exact ih (good_step hs c)

theorem good_init : Good PS.init :=
  ⟨⟨by simp [PS.init], (by intro n h; cases h), fun _ _ => rfl⟩, (by intro f fs e; cases e)⟩

theorem loadData_good {l : List (Option Nat)} {t : Node} (h : loadData l = some t) : RootOk t := by
  unfold loadData at h
  have hg := good_run (good_run good_init l) [none, none, none]
  generalize run (run PS.init l) [none, none, none] = s at *
  unfold PS.result at h
  split at h
  · rename_i r e
    have := hg.2
    rw [e] at this
    exact this t h
  · cases h

end Afs.Xml
