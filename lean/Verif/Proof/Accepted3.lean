import Verif.Proof.Accepted2
/-! # Every accepted text is one of the grammar Spec/Accepted: what is known at each place -/
namespace Afs.Xml.Acc
open Afs Afs.Xml Afs.Spec.Accepted

/-- The open elements behind a text that ends with a tag. -/
inductive Frames : Stream → List Frame → Prop
  | first {j b h e c ns} : Text j b → Opening h e → Items c ns → Frames (j ++ h ++ c) [⟨e.1, e.2, ns.reverse⟩]
  | push {p f fs t b h e c ns} : Frames p (f :: fs) → Text t b → Start h e → Items c ns →
      Frames (p ++ t ++ h ++ c) (⟨e.1, e.2, ns.reverse⟩ :: inside f fs (textNodes b))

/-- The outermost element is complete. -/
inductive Complete : Stream → Node → Prop
  | single {j b t n} : Text j b → Single t n → Complete (j ++ t) n
  | closed {j b h e c ns t d u} : Text j b → Opening h e → Items c ns → Text t d → End e.1 u →
      Complete (j ++ h ++ c ++ t ++ u) (.elem e.1 e.2 (ns ++ textNodes d))

/-- Behind a tag. -/
inductive Ctx : Stream → List Frame → Option Node → Bool → Prop
  | top : Ctx [] [] none false
  | root {p n o} : Complete p n → Ctx p [] (some n) o
  | inside {p st} : Frames p st → Ctx p st none true

/-- Before a tag. -/
inductive Lt : Stream → List Frame → Option Node → Bool → Prop
  | top {p b} : Text p b → Lt p [] none false
  | inside {p f fs t b} : Frames p (f :: fs) → Text t b → Lt (p ++ t) (inside f fs (textNodes b)) none true

/-- Within a tag: what is behind (and including) its `<`. -/
inductive Sub : Stream → PC → Prop
  | name {t b} : Name t b → Sub (some 60 :: t) (.name b)
  | comment {u ch t b} : Named u (b! "!--") ch → Until CommentEnd (b! "!--") t b → Sub (u ++ t) (.comment b)
  | cdata {u ch t b} : Named u (b! "![CDATA[") ch → Until CDataEnd (b! "![CDATA[") t b → Sub (u ++ t) (.cdata b)
  | pi {u b0 ch t b} : Named u b0 ch → IsPI b0 → Until PIEnd b0 t b → Sub (u ++ t) (.pi b)
  | decl {u b ch t x} : Named u b ch → IsDecl b → ch ≠ some 62 → Run (· ≠ 62) t x → Sub (u ++ t) (.decl (b ++ kept ch ++ x))
  | slash {u b} : Named u b (some 47) → Plain b → Sub u (.slash b)
  | attr {u e} : InTag u e → Sub u (.attr e)
  | attrSlash {u e c} : InTag u e → (c = 47 ∨ c = 63) → Sub (u ++ [some c]) (.attrSlash e c)
  | qname {u e q b} : (q = 34 ∨ q = 39) → Sub u (.qname e q b)
  | aname {u e t b} : InTag u e → AttrName t b → Sub (u ++ t) (.aname e b)
  | aeq {u e t b w} : InTag u e → AttrName t b → Spaces w → upToNul b ∉ e.2.map Prod.fst → Sub (u ++ (t ++ w)) (.aeq e (upToNul b))
  | vskip {u e a an} : InTag u e → AttrEq a an → an ∉ e.2.map Prod.fst → Sub (u ++ a) (.vskip e an)
  | qval {u e a an q w av} : InTag u e → AttrEq a an → an ∉ e.2.map Prod.fst → (q = 34 ∨ q = 39) → Run (· ≠ q) w av →
      Sub (u ++ a ++ [some q] ++ w) (.qval e an q av)
  | uval {u e a an c w av} : InTag u e → AttrEq a an → an ∉ e.2.map Prod.fst → isSpace c = false → c ≠ 34 → c ≠ 39 → Run Bare w av →
      Sub (u ++ a ++ [some c] ++ w) (.uval e an (UInt8.ofNat c :: av))
  | valSlash {u e} : InBare u e → Sub (u ++ [some 47]) (.valSlash e 47)

/-- Places that can be reached behind a complete outermost element, other than text. -/
inductive Late : PC → Prop
  | name {b} : Late (.name b)
  | comment {b} : Late (.comment b)
  | cdata {b} : Late (.cdata b)
  | pi {b} : Late (.pi b)
  | decl {b} : Late (.decl b)

inductive Inv : Stream → PS → Prop
  | main {p st r o t b buf} : Ctx p st r o → Text t b → (o = true → buf = b) → Inv (p ++ t) ⟨.main buf, st, r, o⟩
  | sub {p st r o u k} : Lt p st r o → Sub u k → Inv (p ++ u) ⟨k, st, r, o⟩
  | late {p k n o} : Late k → Inv p ⟨k, [], some n, o⟩
  | close {p f fs u c w} : Lt p (f :: fs) none true → Named u (47 :: f.name) (some c) → c ≠ 62 → (∀ x ∈ w, ∃ y, x = some y ∧ y ≠ 62) →
      Inv (p ++ (u ++ w)) ⟨.close, f :: fs, none, true⟩
  | ent {p k st r o} {acc : List Nat} : Inv p ⟨k, st, r, o⟩ → (∀ x ∈ acc, isEntChar x = true) → acc.length ≤ 63 →
      Inv (p ++ some 38 :: acc.map some) ⟨.ent k (acc.map UInt8.ofNat), st, r, o⟩
  | done {p q v st r o} : Document p v → Inv (p ++ q) ⟨.done (some v), st, r, o⟩
  | fail {p st r o} : Inv p ⟨.done none, st, r, o⟩

theorem Inv.of_eq {p q : Stream} {s s' : PS} (h : Inv p s) (h1 : p = q) (h2 : s = s') : Inv q s' := h1 ▸ h2 ▸ h

theorem lt_root {p : Stream} {st : List Frame} {r : Option Node} {o : Bool} (h : Lt p st r o) : r = none := by cases h <;> rfl

theorem lt_second {p : Stream} {st : List Frame} {r : Option Node} {o : Bool} (h : Lt p st r o) (k : PC) :
    PS.secondRoot ⟨k, st, r, o⟩ = false := by
  rw [lt_root h]
  cases st <;> rfl

theorem lt_cons {p : Stream} {f : Frame} {fs : List Frame} {r : Option Node} {o : Bool} (h : Lt p (f :: fs) r o) : o = true := by
  cases h; rfl

/-- One more thing in the innermost element. -/
theorem frames_item {p : Stream} {st : List Frame} {r : Option Node} {o : Bool} {m : Stream} {n : Node} (h : Lt p st r o)
    (f : Frame) (fs : List Frame) (hs : st = f :: fs) (hm : Item m n) : Frames (p ++ m) ({ f with rev := n :: f.rev } :: fs) := by
  cases h with
  | top => cases hs
  | @inside p f0 fs0 t b h1 h2 =>
    unfold inside at hs
    injection hs with hs1 hs2
    subst hs1 hs2
    cases h1 with
    | @first j b' h e c ns a1 a2 a3 =>
      have := Frames.first a1 a2 (.snoc a3 h2 hm)
      simpa [List.append_assoc] using this
    | @push p' f' fs' t' b' h e c ns a1 a2 a3 a4 =>
      have := Frames.push a1 a2 a3 (.snoc a4 h2 hm)
      simpa [List.append_assoc] using this

theorem frames_open {p : Stream} {st : List Frame} {r : Option Node} {o : Bool} {m : Stream} {e : Head} (h : Lt p st r o)
    (hm : Start m e) : Frames (p ++ m) (⟨e.1, e.2, []⟩ :: st) := by
  cases h with
  | top h1 =>
    have := Frames.first h1 (.inl hm) .nil
    simpa using this
  | inside h1 h2 =>
    have := Frames.push h1 h2 hm .nil
    simpa using this

/-- Back to text, behind a tag. -/
theorem inv_main {p : Stream} {st : List Frame} {r : Option Node} {o : Bool} (h : Ctx p st r o) : Inv p ⟨.main [], st, r, o⟩ := by
  have := Inv.main h .nil (fun _ => rfl)
  simpa using this

theorem push_inv {p : Stream} {st : List Frame} {r : Option Node} {o : Bool} {m : Stream} {e : Head} (h : Lt p st r o) (k : PC)
    (hm : Start m e) : Inv (p ++ m) { PS.push ⟨k, st, r, o⟩ e with pc := .main [] } := by
  have hr := lt_root h
  subst hr
  exact inv_main (.inside (frames_open h hm))

theorem add_inv {p : Stream} {st : List Frame} {r : Option Node} {o : Bool} {m : Stream} {n : Node} (h : Lt p st r o) (k : PC)
    (hm : Item m n) (hs : Single m n) : Inv (p ++ m) { PS.addNode ⟨k, st, r, o⟩ n with pc := .main [] } := by
  have hr := lt_root h
  subst hr
  cases st with
  | nil =>
    have h' : ∃ b, Text p b := by
      cases h with
      | top h1 => exact ⟨_, h1⟩
    obtain ⟨b, h1⟩ := h'
    exact inv_main (.root (.single h1 hs))
  | cons f fs =>
    have ho := lt_cons h
    subst ho
    exact inv_main (.inside (frames_item h f fs rfl hm))

theorem special_inv {p : Stream} {st : List Frame} {r : Option Node} {o : Bool} {m : Stream} {b : Bytes} (h : Lt p st r o) (k : PC)
    (hm : Comment m b ∨ CData m b) : Inv (p ++ m) (PS.addSpecial ⟨k, st, r, o⟩ b) := by
  unfold PS.addSpecial
  rw [lt_second h]
  exact add_inv h k (hm.elim .comment .cdata) (.inl ⟨b, hm, rfl⟩)

theorem directive_inv {p : Stream} {st : List Frame} {r : Option Node} {o : Bool} {m : Stream} {b : Bytes} (h : Lt p st r o) (k : PC)
    (hm : PI m b ∨ Decl m b) : Inv (p ++ m) (PS.addDirective ⟨k, st, r, o⟩ b) := by
  unfold PS.addDirective
  rw [lt_second h]
  have hr := lt_root h
  subst hr
  cases st with
  | nil =>
    have h' : ∃ x, Text p x := by
      cases h with
      | top h1 => exact ⟨_, h1⟩
    obtain ⟨x, h1⟩ := h'
    have := Frames.first h1 (.inr ⟨b, hm, rfl⟩) .nil
    exact inv_main (.inside (by simpa [PS.push] using this))
  | cons f fs =>
    have ho := lt_cons h
    subst ho
    exact inv_main (.inside (frames_item h f fs rfl (hm.elim .pi .decl)))

theorem empty_inv {p : Stream} {st : List Frame} {r : Option Node} {o : Bool} {m : Stream} {e : Head} (h : Lt p st r o) (k : PC)
    (hm : EmptyTag m e) : Inv (p ++ m) (PS.afterHead ⟨k, st, r, o⟩ e 47) :=
  add_inv h k (.empty hm) (.inr ⟨e, hm, rfl⟩)

theorem start_inv {p : Stream} {st : List Frame} {r : Option Node} {o : Bool} {m : Stream} {e : Head} (h : Lt p st r o) (k : PC)
    (hm : Start m e) {c : Nat} (hc : c ≠ 47) : Inv (p ++ m) (PS.afterHead ⟨k, st, r, o⟩ e c) := by
  unfold PS.afterHead
  rw [if_neg hc]
  exact push_inv h k hm

theorem pop_inv {p : Stream} {f : Frame} {fs : List Frame} {u : Stream} (h : Lt p (f :: fs) none true) (k : PC) (hu : End f.name u) :
    Inv (p ++ u) (PS.pop ⟨k, f :: fs, none, true⟩) := by
  generalize hst : f :: fs = st at h
  cases h with
  | @inside p f0 fs0 t b h1 h2 =>
    unfold inside at hst
    injection hst with e1 e2
    subst e1 e2
    cases h1 with
    | @first j b' h e c ns a1 a2 a3 =>
      have := Complete.closed a1 a2 a3 h2 hu
      have := inv_main (o := true) (.root this)
      simpa [PS.pop, Frame.node, inside] using this
    | @push p' f' fs' t' b' h e c ns a1 a2 a3 a4 =>
      have hi := Item.elem a3 a4 h2 hu
      have := frames_item (.inside a1 a2) _ _ rfl hi
      have := inv_main (.inside this)
      simpa [PS.pop, Frame.node, inside, List.append_assoc] using this

theorem cut_inv {p : Stream} {st : List Frame} {r : Option Node} {o : Bool} {u : Stream} {n : Bytes} (h : Lt p st r o) (k : PC)
    (hu : Named u n none) (hn : Plain n) : Inv (p ++ u) (PS.finish (PS.addNode ⟨k, st, r, o⟩ (.elem n [] []))) := by
  have key : ∀ v, Document (p ++ u) v → ∀ st r o, Inv (p ++ u) ⟨.done (some v), st, r, o⟩ := by
    intro v hv st r o
    have := Inv.done (q := []) (st := st) (r := r) (o := o) hv
    simpa using this
  cases h with
  | top h1 => exact key _ (.inRootName h1 hu hn) _ _ _
  | @inside p f0 fs0 t b h1 h2 =>
    cases h1 with
    | @first j b' h e c ns a1 a2 a3 =>
      have := key _ (.inName a1 a2 a3 h2 hu hn)
      have := this [⟨e.1, e.2, .elem n [] [] :: ((textNodes b).reverse ++ ns.reverse)⟩] none true
      simpa [PS.addNode, PS.finish, inside, Frame.node] using this
    | push => exact .fail

theorem closeBody_inv {p : Stream} {f : Frame} {fs : List Frame} {u : Stream} {ch : Option Nat} (h : Lt p (f :: fs) none true) (k : PC)
    (hu : Named u (47 :: f.name) ch) : Inv (p ++ u) (PS.closeBody ⟨k, f :: fs, none, true⟩ ch) := by
  unfold PS.closeBody
  cases ch with
  | none => exact pop_inv h k (.short hu (.inr rfl))
  | some c =>
    dsimp only
    split
    · rename_i hc
      subst hc
      exact pop_inv h k (.short hu (.inl rfl))
    · rename_i hc
      have := Inv.close h hu hc (w := []) (by simp)
      simpa using this

theorem declBody_inv {p : Stream} {st : List Frame} {r : Option Node} {o : Bool} {u : Stream} {b : Bytes} {ch : Option Nat} (h : Lt p st r o)
    (k : PC) (hu : Named u b ch) (hb : IsDecl b) : Inv (p ++ u) (PS.declBody ⟨k, st, r, o⟩ b ch) := by
  unfold PS.declBody
  cases ch with
  | none =>
    have := Inv.sub h (.decl hu hb (by simp) .nil)
    simpa [kept] using this
  | some c =>
    dsimp only
    split
    · rename_i hc
      subst hc
      exact directive_inv h k (.inr (.short hu hb))
    · rename_i hc
      split
      · rename_i hc'
        subst hc'
        exact (named_amp hu).elim
      · have := Inv.sub h (.decl hu hb (by simpa using hc) .nil)
        simpa [kept] using this

theorem afterName_inv {p : Stream} {st : List Frame} {r : Option Node} {o : Bool} {u : Stream} {b : Bytes} {ch : Option Nat} (h : Lt p st r o)
    (k : PC) (hu : Named u b ch) : Inv (p ++ u) (PS.afterName ⟨k, st, r, o⟩ b ch) := by
  unfold PS.afterName
  split
  · rename_i hb
    subst hb
    have := Inv.sub h (.comment hu .nil)
    simpa using this
  rename_i hb1
  split
  · rename_i hb
    subst hb
    have := Inv.sub h (.cdata (b := b! "![CDATA[") hu .nil)
    rw [List.append_nil] at this
    exact this
  rename_i hb2
  split
  · rename_i hb
    have := Inv.sub h (.pi hu hb .nil)
    simpa using this
  rename_i hb3
  split
  · rename_i hb
    exact declBody_inv h k hu ⟨hb, hb1, hb2⟩
  rename_i hb4
  split
  · rename_i hb
    cases st with
    | nil => exact .fail
    | cons f fs =>
      dsimp only
      split
      · rename_i hn
        have : b = 47 :: f.name := by
          cases b with
          | nil => cases hb
          | cons x b => simp at hb hn; rw [hb, hn]
        subst this
        have := lt_root h
        subst this
        have := lt_cons h
        subst this
        exact closeBody_inv h k hu
      · exact .fail
  rename_i hb5
  have hp : Plain b := ⟨hb3, hb4, hb5⟩
  rw [lt_second h]
  cases ch with
  | none => exact cut_inv h k hu hp
  | some c =>
    simp only [Bool.false_eq_true, if_false]
    split
    · rename_i hc
      exact .sub h (.attr (.name hu hp hc))
    · rename_i hc
      split
      · rename_i hc'
        subst hc'
        exact .sub h (.slash hu hp)
      · rename_i hc'
        have : c = 62 := by
          cases hu with
          | fin _ hx =>
            rcases hx with hx | hx | hx
            · exact absurd hx hc
            · exact hx
            · exact absurd hx.1 hc'
          | special _ _ hs =>
            exfalso
            rcases hs with hs | hs | hs
            · rw [hs] at hb3; exact hb3 rfl
            · exact hb1 hs
            · exact hb2 hs
        subst this
        exact start_inv h k (.name hu hp) hc'

end Afs.Xml.Acc
