import Verif.Spec.Accepted
import Verif.Proof.XmlRead
/-! # Texts of the grammar Spec/Accepted are read as it says -/
namespace Afs.Xml.Acc
open Afs Afs.Xml Afs.Spec.Accepted

theorem run_snoc (s : PS) (l : Stream) (c : Option Nat) : Xml.run s (l ++ [c]) = step (Xml.run s l) c := by
  simp [Xml.run]

theorem run_app (s : PS) (l r : Stream) : Xml.run s (l ++ r) = Xml.run (Xml.run s l) r := by
  simp [Xml.run]

theorem run_cons' (s : PS) (c : Option Nat) (r : Stream) : Xml.run s (c :: r) = Xml.run (step s c) r := rfl

theorem run_nil' (s : PS) : Xml.run s [] = s := rfl

/-! ### References -/

theorem ent_acc {s : PS} {k : PC} (acc : List Nat) (h : ∀ x ∈ acc, isEntChar x = true) :
    ∀ a0 : Bytes, a0.length + acc.length ≤ 63 →
      Xml.run { s with pc := .ent k a0 } (acc.map some) = { s with pc := .ent k (a0 ++ acc.map UInt8.ofNat) } := by
  induction acc with
  | nil => intro a0 _; simp [Xml.run]
  | cons x acc ih =>
    intro a0 hl
    simp only [List.length_cons] at hl
    have hx := h x (by simp)
    have e : step { s with pc := .ent k a0 } (some x) = { s with pc := .ent k (a0 ++ [UInt8.ofNat x]) } := by
      simp only [step, hx, if_true]
      rw [if_pos (by omega)]
    rw [List.map_cons, run_cons', e, ih (fun y hy => h y (by simp [hy])) _ (by simp; omega)]
    simp

/-- Places that take characters, and the place with one more. -/
inductive Takes : PC → Nat → PC → Prop
  | main {b c} : Takes (.main b) c (.main (b ++ addChar c))
  | name {b c} : Takes (.name b) c (.name (b ++ addChar c))
  | decl {b c} : Takes (.decl b) c (.decl (b ++ addChar c))
  | aname {e b c} : Takes (.aname e b) c (.aname e (b ++ addChar c))
  | qval {e an q b c} : Takes (.qval e an q b) c (.qval e an q (b ++ addChar c))
  | uval {e an b c} : Takes (.uval e an b) c (.uval e an (b ++ addChar c))

theorem resume_takes {s : PS} {k k' : PC} {v : Nat} (h : Takes k v k') : resume s k v = { s with pc := k' } := by
  cases h <;> rfl

theorem run_ref {s : PS} {k k' : PC} {r : Stream} {v : Nat} (hr : Ref r v) (hk : Takes k v k')
    (h : step { s with pc := k } (some 38) = { s with pc := .ent k [] }) :
    Xml.run { s with pc := k } r = { s with pc := k' } := by
  obtain ⟨acc, h1, h2, h3, rfl⟩ := hr
  rw [List.cons_append, run_cons', h, run_app, ent_acc acc h1 [] (by simpa using h2), run_cons', run_nil']
  have : isEntChar 59 = false := by decide
  simp only [List.nil_append, step, this, Bool.false_eq_true, if_false, if_true, h3]
  exact resume_takes hk

theorem step_amp_main (s : PS) (b : Bytes) : step { s with pc := .main b } (some 38) = { s with pc := .ent (.main b) [] } := by
  simp [step, isSpace]

theorem step_amp_name (s : PS) (b : Bytes) : step { s with pc := .name b } (some 38) = { s with pc := .ent (.name b) [] } := by
  simp [step, isSpace]

theorem step_amp_decl (s : PS) (b : Bytes) : step { s with pc := .decl b } (some 38) = { s with pc := .ent (.decl b) [] } := by
  simp [step, PS.declBody]

theorem step_amp_aname (s : PS) (e : Head) (b : Bytes) :
    step { s with pc := .aname e b } (some 38) = { s with pc := .ent (.aname e b) [] } := by
  simp [step, isSpace]

theorem step_amp_qval (s : PS) (e : Head) (an b : Bytes) (q : Nat) (hq : q ≠ 38) :
    step { s with pc := .qval e an q b } (some 38) = { s with pc := .ent (.qval e an q b) [] } := by
  simp [step, hq.symm]

theorem step_amp_uval (s : PS) (e : Head) (an b : Bytes) :
    step { s with pc := .uval e an b } (some 38) = { s with pc := .ent (.uval e an b) [] } := by
  simp [step, isSpace]

/-! ### Runs of characters -/

theorem run_text {t : Stream} {b : Bytes} (h : Text t b) (s : PS) (ho : s.opq = true) (b0 : Bytes) :
    Xml.run { s with pc := .main b0 } t = { s with pc := .main (b0 ++ b) } := by
  induction h with
  | nil => simp [Xml.run]
  | @char t b c _ h1 h2 ih =>
    rw [run_snoc, ih]
    simp [step, h1, h2, ho, List.append_assoc]
  | @ref t b r v _ hr ih =>
    rw [run_app, ih, run_ref hr .main (step_amp_main _ _), List.append_assoc]

/-- Nothing is made of text here. -/
def Idle (s : PS) : Prop := ∀ b, s.flush b = s

theorem run_idle {t : Stream} {b : Bytes} (h : Text t b) (s : PS) (hi : Idle s) (b0 : Bytes) :
    ∃ b', Xml.run { s with pc := .main b0 } t = { s with pc := .main b' } := by
  induction h with
  | nil => exact ⟨b0, rfl⟩
  | @char t b c _ h1 h2 ih =>
    obtain ⟨b', ih⟩ := ih
    rw [run_snoc, ih]
    have hf : PS.flush { s with pc := .main b' } b' = { s with pc := .main b' } := by
      have := hi b'
      unfold PS.flush PS.addNode at this ⊢
      dsimp only at this ⊢
      split
      · rfl
      · rename_i hb
        rw [if_neg hb] at this
        split
        · rename_i ho
          rw [if_pos ho] at this
          cases hs : s.stack with
          | nil =>
            rw [hs] at this
            dsimp only at this ⊢
            cases hr : s.root with
            | none => rw [hr] at this; dsimp only at this; exact absurd (congrArg PS.root this) (by simp [hr])
            | some => rfl
          | cons f fs =>
            rw [hs] at this
            dsimp only at this
            have := congrArg PS.stack this
            rw [hs] at this
            simp at this
            have := congrArg Frame.rev this
            simp at this
        · rfl
    simp only [step, h1, h2, if_false, hf]
    split <;> split <;> simp
  | @ref t b r v _ hr ih =>
    obtain ⟨b', ih⟩ := ih
    rw [run_app, ih, run_ref hr .main (step_amp_main _ _)]
    exact ⟨_, rfl⟩

theorem run_name {t : Stream} {b : Bytes} (h : Name t b) (s : PS) :
    Xml.run { s with pc := .name [] } t = { s with pc := .name b } := by
  induction h with
  | nil => rfl
  | @char t b c _ h1 h2 ih =>
    rw [run_snoc, ih]
    obtain ⟨a1, a2, a3, a4, a5, a6⟩ := h1
    unfold Special at h2
    have e1 : (isSpace c || c == 62 || (c == 47 && !b.isEmpty)) = false := by
      cases b <;> simp_all
    have e2 : ¬ (c < 48 ∧ c ≠ 33 ∧ c ≠ 45 ∧ c ≠ 46 ∧ c ≠ 47) := by omega
    have e3 : ¬ (b ++ addChar c = b! "?" ∨ b ++ addChar c = b! "!--" ∨ b ++ addChar c = Node.cdataOpen) := h2
    simp only [step, e1, Bool.false_eq_true, if_false, a4, a5, e2, e3]
  | @ref t b r v _ hr ih =>
    rw [run_app, ih, run_ref hr .name (step_amp_name _ _)]

theorem run_lt (s : PS) (b : Bytes) : step { s with pc := .main b } (some 60) = { s.flush b with pc := .name [] } := by
  simp only [step, if_true]
  unfold PS.flush PS.addNode
  dsimp only
  split
  · rfl
  · split
    · cases hs : s.stack with
      | nil => cases hr : s.root <;> simp [hs, hr]
      | cons => simp
    · rfl

theorem pop_pc (s : PS) (k : PC) : PS.pop { s with pc := k } = s.pop := by
  unfold PS.pop
  dsimp only
  split <;> rfl

theorem finish_pc (s : PS) (k : PC) : PS.finish { s with pc := k } = s.finish := by
  unfold PS.finish
  dsimp only
  split <;> rfl

theorem addNode_pc (s : PS) (k : PC) (n : Node) : PS.addNode { s with pc := k } n = { s.addNode n with pc := k } := by
  unfold PS.addNode
  dsimp only
  split
  · split <;> rfl
  · rfl

theorem closeBody_pc (s : PS) (k : PC) (ch : Option Nat) : PS.closeBody { s with pc := k } ch = s.closeBody ch := by
  unfold PS.closeBody
  simp only [pop_pc]

theorem addDirective_pc (s : PS) (k : PC) (b : Bytes) : PS.addDirective { s with pc := k } b = s.addDirective b := by
  unfold PS.addDirective
  simp only [addNode_pc]
  rfl

theorem addSpecial_pc (s : PS) (k : PC) (b : Bytes) : PS.addSpecial { s with pc := k } b = s.addSpecial b := by
  unfold PS.addSpecial
  simp only [addNode_pc]
  rfl

theorem declBody_pc (s : PS) (k : PC) (b : Bytes) (ch : Option Nat) : PS.declBody { s with pc := k } b ch = s.declBody b ch := by
  unfold PS.declBody
  simp only [addDirective_pc]

theorem afterHead_pc (s : PS) (k : PC) (e : Head) (ch : Nat) : PS.afterHead { s with pc := k } e ch = s.afterHead e ch := by
  unfold PS.afterHead
  simp only [addNode_pc]
  rfl

theorem afterName_pc (s : PS) (k : PC) (b : Bytes) (ch : Option Nat) : PS.afterName { s with pc := k } b ch = s.afterName b ch := by
  unfold PS.afterName
  simp only [declBody_pc, closeBody_pc, afterHead_pc, addNode_pc, finish_pc]
  rfl

theorem run_named {u : Stream} {b : Bytes} {ch : Option Nat} (h : Named u b ch) (s : PS) (b0 : Bytes) :
    Xml.run { s with pc := .main b0 } u = (s.flush b0).afterName b ch := by
  cases h with
  | @fin t b c h1 h2 =>
    rw [List.cons_append, run_cons', run_lt, run_snoc, run_name h1]
    have e1 : (isSpace c || c == 62 || (c == 47 && !b.isEmpty)) = true := by
      rcases h2 with h | h | ⟨h, hb⟩
      · simp [h]
      · simp [h]
      · subst h; cases b <;> simp_all
    simp only [step, e1, if_true, afterName_pc]
  | none h1 =>
    rw [List.cons_append, run_cons', run_lt, run_snoc, run_name h1]
    simp only [step, afterName_pc]
  | @special t b c h1 h2 h3 =>
    rw [List.cons_append, run_cons', run_lt, run_snoc, run_name h1]
    obtain ⟨a1, a2, a3, a4, a5, a6⟩ := h2
    have e1 : (isSpace c || c == 62 || (c == 47 && !b.isEmpty)) = false := by
      cases b <;> simp_all
    have e2 : ¬ (c < 48 ∧ c ≠ 33 ∧ c ≠ 45 ∧ c ≠ 46 ∧ c ≠ 47) := by omega
    have e3 : b ++ addChar c = b! "?" ∨ b ++ addChar c = b! "!--" ∨ b ++ addChar c = Node.cdataOpen := h3
    simp only [step, e1, Bool.false_eq_true, if_false, a4, a5, e2, e3, if_true, afterName_pc]

/-! ### Comments and the like -/

theorem commentEnd_iff (b : Bytes) : CommentEnd b ↔
    b.length > 4 ∧ b.reverse.getD 2 0 ≠ 45 ∧ b.reverse.getD 1 0 = 45 ∧ b.reverse.getD 0 0 = 45 := by
  constructor
  · rintro ⟨x, c, rfl, h1, h2⟩
    refine ⟨h2, ?_, ?_, ?_⟩ <;> simp [h1]
  · rintro ⟨h1, h2, h3, h4⟩
    cases hb : b.reverse with
    | nil => rw [← List.length_reverse, hb] at h1; simp at h1
    | cons x r =>
      cases r with
      | nil => rw [← List.length_reverse, hb] at h1; simp at h1
      | cons y r =>
        cases r with
        | nil => rw [← List.length_reverse, hb] at h1; simp at h1
        | cons z r =>
          rw [hb] at h2 h3 h4
          simp at h2 h3 h4
          subst h3 h4
          have := congrArg List.reverse hb
          rw [List.reverse_reverse] at this
          exact ⟨r.reverse, z, by rw [this]; simp, h2, h1⟩

theorem cdataEnd_iff (b : Bytes) : CDataEnd b ↔ b.reverse.take 2 = Node.cdataClose := by
  constructor
  · rintro ⟨x, rfl⟩
    rw [List.reverse_append]
    rfl
  · intro h
    have h' : b.reverse = [93, 93] ++ b.reverse.drop 2 := by
      conv => lhs; rw [← List.take_append_drop 2 b.reverse, h]
      rfl
    have := congrArg List.reverse h'
    rw [List.reverse_reverse, List.reverse_append] at this
    exact ⟨_, this⟩

theorem piEnd_iff (b : Bytes) : PIEnd b ↔ b.getLast? = some 63 := by
  constructor
  · rintro ⟨x, rfl⟩
    simp
  · intro h
    rw [List.getLast?_eq_some_iff] at h
    exact h

theorem step_comment (s : PS) (b : Bytes) (c : Nat) :
    (¬ (c = 62 ∧ CommentEnd b) → step { s with pc := .comment b } (some c) = { s with pc := .comment (b ++ addChar c) }) ∧
    (CommentEnd b → step { s with pc := .comment b } (some 62) = s.addSpecial b) := by
  constructor
  · intro h
    rw [commentEnd_iff] at h
    simp only [step]
    rw [if_neg h]
  · intro h
    rw [commentEnd_iff] at h
    simp only [step]
    rw [if_pos ⟨trivial, h⟩, addSpecial_pc]

theorem step_cdata (s : PS) (b : Bytes) (c : Nat) :
    (¬ (c = 62 ∧ CDataEnd b) → step { s with pc := .cdata b } (some c) = { s with pc := .cdata (b ++ addChar c) }) ∧
    (CDataEnd b → step { s with pc := .cdata b } (some 62) = s.addSpecial b) := by
  constructor
  · intro h
    rw [cdataEnd_iff] at h
    simp only [step]
    rw [if_neg h]
  · intro h
    rw [cdataEnd_iff] at h
    simp only [step]
    rw [if_pos ⟨trivial, h⟩, addSpecial_pc]

theorem step_pi (s : PS) (b : Bytes) (c : Nat) :
    (¬ (c = 62 ∧ PIEnd b) → step { s with pc := .pi b } (some c) = { s with pc := .pi (b ++ addChar c) }) ∧
    (PIEnd b → step { s with pc := .pi b } (some 62) = s.addDirective b) := by
  constructor
  · intro h
    rw [piEnd_iff] at h
    simp only [step]
    rw [if_neg h]
  · intro h
    rw [piEnd_iff] at h
    simp only [step]
    rw [if_pos ⟨trivial, h⟩, addDirective_pc]

theorem run_until {k : Bytes → PC} {stop : Bytes → Prop} {b0 : Bytes} {t : Stream} {b : Bytes} (h : Until stop b0 t b) (s : PS)
    (hk : ∀ b c, ¬ (c = 62 ∧ stop b) → step { s with pc := k b } (some c) = { s with pc := k (b ++ addChar c) }) :
    Xml.run { s with pc := k b0 } t = { s with pc := k b } := by
  induction h with
  | nil => rfl
  | char _ h1 ih => rw [run_snoc, ih, hk _ _ h1]

theorem run_comment {t : Stream} {b : Bytes} (h : Comment t b) (s : PS) (b0 : Bytes) :
    Xml.run { s with pc := .main b0 } t = (s.flush b0).addSpecial b := by
  obtain ⟨u, ch, t, h1, h2, h3, rfl⟩ := h
  rw [run_snoc, run_app, run_named h1]
  have e : (s.flush b0).afterName (b! "!--") ch = { s.flush b0 with pc := .comment (b! "!--") } := by
    unfold PS.afterName
    rw [if_pos rfl]
  rw [e, run_until h2 _ (fun b c => (step_comment _ b c).1), (step_comment _ b 0).2 h3]

theorem run_cdata {t : Stream} {b : Bytes} (h : CData t b) (s : PS) (b0 : Bytes) :
    Xml.run { s with pc := .main b0 } t = (s.flush b0).addSpecial b := by
  obtain ⟨u, ch, t, h1, h2, h3, rfl⟩ := h
  rw [run_snoc, run_app, run_named h1]
  have e : (s.flush b0).afterName (b! "![CDATA[") ch = { s.flush b0 with pc := .cdata (b! "![CDATA[") } := by
    unfold PS.afterName
    rw [if_neg (by decide), if_pos (show b! "![CDATA[" = Node.cdataOpen from rfl)]
  rw [e, run_until h2 _ (fun b c => (step_cdata _ b c).1), (step_cdata _ b 0).2 h3]

theorem afterName_pi {s : PS} {b : Bytes} (h : IsPI b) (ch : Option Nat) : s.afterName b ch = { s with pc := .pi b } := by
  unfold IsPI at h
  unfold PS.afterName
  rw [if_neg (by rintro rfl; exact absurd h (by decide)), if_neg (by rintro rfl; exact absurd h (by decide)), if_pos h]

theorem afterName_decl {s : PS} {b : Bytes} (h : IsDecl b) (ch : Option Nat) : s.afterName b ch = s.declBody b ch := by
  obtain ⟨h1, h2, h3⟩ := h
  unfold PS.afterName
  have h3' : b ≠ Node.cdataOpen := h3
  rw [if_neg h2, if_neg h3', if_neg (by rw [h1]; decide), if_pos h1]

theorem run_pi {t : Stream} {b : Bytes} (h : PI t b) (s : PS) (b0 : Bytes) :
    Xml.run { s with pc := .main b0 } t = (s.flush b0).addDirective b := by
  obtain ⟨u, x, ch, t, h1, h0, h2, h3, rfl⟩ := h
  rw [run_snoc, run_app, run_named h1, afterName_pi h0, run_until h2 _ (fun b c => (step_pi _ b c).1), (step_pi _ b 0).2 h3]

theorem run_declText {t : Stream} {b : Bytes} (h : Run (· ≠ 62) t b) (s : PS) (b0 : Bytes) :
    Xml.run { s with pc := .decl b0 } t = { s with pc := .decl (b0 ++ b) } := by
  induction h with
  | nil => simp [Xml.run]
  | @char t b c _ h1 h2 ih =>
    rw [run_snoc, ih]
    simp [step, PS.declBody, h1, h2, List.append_assoc]
  | @ref t b r v _ hr ih =>
    rw [run_app, ih, run_ref hr .decl (step_amp_decl _ _), List.append_assoc]

theorem named_amp {u : Stream} {b : Bytes} (h : Named u b (some 38)) : False := by
  cases h with
  | fin _ h => rcases h with h | h | h <;> simp [isSpace] at h
  | special _ h _ => exact h.2.2.2.2.1 rfl

theorem run_decl {t : Stream} {b : Bytes} (h : Decl t b) (s : PS) (b0 : Bytes) :
    Xml.run { s with pc := .main b0 } t = (s.flush b0).addDirective b := by
  cases h with
  | short h1 h2 =>
    rw [run_named h1, afterName_decl h2]
    simp [PS.declBody]
  | @long u b ch t x h1 h2 h3 h4 =>
    have e : (s.flush b0).declBody b ch = { s.flush b0 with pc := .decl (b ++ kept ch) } := by
      unfold PS.declBody
      cases ch with
      | none => rfl
      | some c =>
        have : c ≠ 38 := by rintro rfl; exact named_amp h1
        have h3' : c ≠ 62 := fun e => h3 (by rw [e])
        simp [h3', this, kept]
    rw [run_snoc, run_app, run_named h1, afterName_decl h2, e, run_declText h4]
    simp only [step, PS.declBody, if_true, addDirective_pc]

/-! ### Tags -/

theorem afterName_end {s : PS} {n : Bytes} {f : Frame} {fs : List Frame} (hs : s.stack = f :: fs) (hn : f.name = n) (ch : Option Nat) :
    s.afterName (47 :: n) ch = s.closeBody ch := by
  unfold PS.afterName
  rw [if_neg (by intro e; injection e with e _; exact absurd e (by decide)), if_neg (by intro e; injection e with e _; exact absurd e (by decide)),
    if_neg (by rw [List.head?_cons]; decide), if_neg (by rw [List.head?_cons]; decide), if_pos (by rfl), hs]
  dsimp only
  rw [if_pos (by rw [hn]; rfl)]

theorem run_close {s : PS} {w : Stream} (h : ∀ x ∈ w, ∃ y, x = some y ∧ y ≠ 62) :
    Xml.run { s with pc := .close } w = { s with pc := .close } := by
  induction w with
  | nil => rfl
  | cons x w ih =>
    obtain ⟨y, rfl, hy⟩ := h x (by simp)
    rw [run_cons']
    have : step { s with pc := .close } (some y) = { s with pc := .close } := by
      simp [step, PS.closeBody, hy]
    rw [this, ih (fun x hx => h x (by simp [hx]))]

theorem run_end {n : Bytes} {t : Stream} (h : End n t) (s : PS) (b0 : Bytes) {f : Frame} {fs : List Frame} (hs : (s.flush b0).stack = f :: fs)
    (hn : f.name = n) : Xml.run { s with pc := .main b0 } t = (s.flush b0).pop := by
  cases h with
  | short h1 h2 =>
    rw [run_named h1, afterName_end hs hn]
    rcases h2 with rfl | rfl <;> simp [PS.closeBody]
  | @long u c w ch h1 h2 h3 h4 =>
    have e : (s.flush b0).closeBody (some c) = { s.flush b0 with pc := .close } := by simp [PS.closeBody, h2]
    rw [run_snoc, run_app, run_named h1, afterName_end hs hn, e, run_close h3]
    rcases h4 with rfl | rfl <;> simp [step, PS.closeBody, pop_pc]

theorem afterName_plain {s : PS} {b : Bytes} (h : Plain b) (hr : s.secondRoot = false) (c : Nat) : s.afterName b (some c) =
    if isSpace c then { s with pc := .attr (b, []) } else if c = 47 then { s with pc := .slash b } else s.afterHead (b, []) c := by
  obtain ⟨h1, h2, h3⟩ := h
  unfold PS.afterName
  rw [if_neg (by rintro rfl; exact h2 (by rfl)), if_neg (by rintro rfl; exact h2 (by rfl)), if_neg h1, if_neg h2, if_neg h3, if_neg (by rw [hr]; decide)]

theorem afterName_plain_none {s : PS} {b : Bytes} (h : Plain b) (hr : s.secondRoot = false) : s.afterName b none =
    (s.addNode (.elem b [] [])).finish := by
  obtain ⟨h1, h2, h3⟩ := h
  unfold PS.afterName
  rw [if_neg (by rintro rfl; exact h2 (by rfl)), if_neg (by rintro rfl; exact h2 (by rfl)), if_neg h1, if_neg h2, if_neg h3, if_neg (by rw [hr]; decide)]

theorem run_attrName {t : Stream} {b : Bytes} (h : AttrName t b) (s : PS) (e : Head) :
    Xml.run { s with pc := .attr e } t = { s with pc := .aname e b } := by
  induction h with
  | @first c h1 h2 h3 h4 h5 h6 h7 =>
    rw [run_cons', run_nil']
    simp [step, h1, h2, h3, h4, h5, h6, h7]
  | @char t b c _ h1 h2 h3 h4 h5 h6 ih =>
    rw [run_snoc, ih]
    simp [step, h1, h2, h3, h4, h5, h6]
  | @ref t b r v _ hr ih =>
    rw [run_app, ih, run_ref hr .aname (step_amp_aname _ _ _)]

theorem run_aeq {w : Stream} (h : Spaces w) (s : PS) (e : Head) (an : Bytes) :
    Xml.run { s with pc := .aeq e an } w = { s with pc := .aeq e an } := by
  induction w with
  | nil => rfl
  | cons x w ih =>
    obtain ⟨c, rfl, hc⟩ := h x (by simp)
    rw [run_cons']
    have : step { s with pc := .aeq e an } (some c) = { s with pc := .aeq e an } := by simp [step, hc]
    rw [this, ih (fun x hx => h x (by simp [hx]))]

theorem run_vskip {w : Stream} (h : Spaces w) (s : PS) (e : Head) (an : Bytes) :
    Xml.run { s with pc := .vskip e an } w = { s with pc := .vskip e an } := by
  induction w with
  | nil => rfl
  | cons x w ih =>
    obtain ⟨c, rfl, hc⟩ := h x (by simp)
    rw [run_cons']
    have : step { s with pc := .vskip e an } (some c) = { s with pc := .vskip e an } := by simp [step, hc]
    rw [this, ih (fun x hx => h x (by simp [hx]))]

theorem run_attrEq {a : Stream} {an : Bytes} (h : AttrEq a an) (s : PS) (e : Head) (hn : an ∉ e.2.map Prod.fst) :
    Xml.run { s with pc := .attr e } a = { s with pc := .vskip e an } := by
  obtain ⟨t, b, w, w', h1, h2, h3, rfl, rfl⟩ := h
  have hf : Node.findAttr (upToNul b) e.2 = none := findAttr_none hn
  have hf' : Node.findAttr (cstr b) e.2 = none := hf
  rw [run_app, run_snoc, run_app, run_attrName h1]
  cases w with
  | nil =>
    rw [run_nil']
    have : step { s with pc := .aname e b } (some 61) = { s with pc := .vskip e (upToNul b) } := by
      simp [step, PS.afterAttrName, hf', isSpace]
      rfl
    rw [this, run_vskip h3]
  | cons x w =>
    obtain ⟨c, rfl, hc⟩ := h2 x (by simp)
    rw [run_cons']
    have : step { s with pc := .aname e b } (some c) = { s with pc := .aeq e (upToNul b) } := by
      simp [step, PS.afterAttrName, hf', hc]
      rfl
    rw [this, run_aeq (fun x hx => h2 x (by simp [hx]))]
    have : step { s with pc := .aeq e (upToNul b) } (some 61) = { s with pc := .vskip e (upToNul b) } := by
      simp [step, isSpace]
    rw [this, run_vskip h3]

theorem run_qval {w : Stream} {av : Bytes} {q : Nat} (hq : q = 34 ∨ q = 39) (h : Run (· ≠ q) w av) (s : PS) (e : Head) (an b0 : Bytes) :
    Xml.run { s with pc := .qval e an q b0 } w = { s with pc := .qval e an q (b0 ++ av) } := by
  induction h with
  | nil => simp [Xml.run]
  | @char t b c _ h1 h2 ih =>
    rw [run_snoc, ih]
    simp [step, h1, h2, List.append_assoc]
  | @ref t b r v _ hr ih =>
    rw [run_app, ih, run_ref hr .qval (step_amp_qval _ _ _ _ _ (by omega)), List.append_assoc]

theorem run_uval {w : Stream} {av : Bytes} (h : Run Bare w av) (s : PS) (e : Head) (an b0 : Bytes) :
    Xml.run { s with pc := .uval e an b0 } w = { s with pc := .uval e an (b0 ++ av) } := by
  induction h with
  | nil => simp [Xml.run]
  | @char t b c _ h1 h2 ih =>
    rw [run_snoc, ih]
    obtain ⟨a1, a2, a3, a4⟩ := h1
    simp [step, a1, a2, a3, a4, h2, List.append_assoc]
  | @ref t b r v _ hr ih =>
    rw [run_app, ih, run_ref hr .uval (step_amp_uval _ _ _ _), List.append_assoc]

theorem withAttr_eq {e : Head} {an av : Bytes} (h : an ∉ e.2.map Prod.fst) :
    (e.1, Node.setAttrList an (some (cstr av)) e.2) = withAttr e an av := by
  rw [setAttr_new h]; rfl

mutual
theorem run_inTag : ∀ {t : Stream} {e : Head}, InTag t e → ∀ (s : PS) (b0 : Bytes), (s.flush b0).secondRoot = false →
    Xml.run { s with pc := .main b0 } t = { s.flush b0 with pc := .attr e }
  | _, _, .name h1 h2 h3, s, b0, hr => by
    rw [run_named h1, afterName_plain h2 hr, if_pos h3]
  | _, _, .space h1 h2, s, b0, hr => by
    rw [run_snoc, run_inTag h1 s b0 hr]
    simp [step, h2]
  | _, _, .quoted (q := q) (ch := ch) h1 h2 h3 h4 h5 h6, s, b0, hr => by
    rw [run_snoc, run_app, run_snoc, run_app, run_inTag h1 s b0 hr, run_attrEq h2 _ _ h3]
    have : ∀ (z : PS) (e : Head) (an : Bytes), step { z with pc := .vskip e an } (some q) = { z with pc := .qval e an q [] } := by
      intro z e an
      rcases h4 with rfl | rfl <;> simp [step, isSpace]
    rw [this, run_qval h4 h5]
    rcases h6 with rfl | rfl
    · simp only [step, if_true, PS.afterValue, List.nil_append, withAttr_eq h3]
      rcases h4 with rfl | rfl <;> simp
    · simp only [step, PS.afterValue, List.nil_append, withAttr_eq h3]
  | _, _, .bare (ch := ch) h1 h2, s, b0, hr => by
    obtain ⟨e0, an, av, h3, rfl, h4⟩ := run_inBare h1 s b0 hr
    rw [run_snoc, h4]
    rcases h2 with rfl | rfl | ⟨c, rfl, hc⟩
    · simp only [step, PS.afterValue, withAttr_eq h3]
    · simp only [step, PS.afterValue, withAttr_eq h3]
      simp
    · have : c ≠ 47 ∧ c ≠ 63 ∧ c ≠ 62 := by
        refine ⟨?_, ?_, ?_⟩ <;> (rintro rfl; simp [isSpace] at hc)
      simp only [step, PS.afterValue, withAttr_eq h3]
      simp [hc, this]
theorem run_inBare : ∀ {t : Stream} {e : Head}, InBare t e → ∀ (s : PS) (b0 : Bytes), (s.flush b0).secondRoot = false →
    ∃ e0 an av, an ∉ e0.2.map Prod.fst ∧ e = withAttr e0 an av ∧
      Xml.run { s with pc := .main b0 } t = { s.flush b0 with pc := .uval e0 an av }
  | _, _, .mk (e := e) (an := an) (c := c) (av := av) h1 h2 h3 h4 h5 h6 h7, s, b0, hr => by
    refine ⟨e, an, UInt8.ofNat c :: av, h3, rfl, ?_⟩
    rw [run_app, run_snoc, run_app, run_inTag h1 s b0 hr, run_attrEq h2 _ _ h3]
    have : ∀ (z : PS) (e : Head) (an : Bytes), step { z with pc := .vskip e an } (some c) = { z with pc := .uval e an [UInt8.ofNat c] } := by
      intro z e an
      simp [step, h4, h5, h6]
    rw [this, run_uval h7]
    rfl
end

theorem run_start {t : Stream} {e : Head} (h : Start t e) (s : PS) (b0 : Bytes) (hr : (s.flush b0).secondRoot = false) :
    Xml.run { s with pc := .main b0 } t = { (s.flush b0).push e with pc := .main [] } := by
  cases h with
  | name h1 h2 =>
    rw [run_named h1, afterName_plain h2 hr]
    simp [isSpace, PS.afterHead]
  | attrs h1 =>
    rw [run_snoc, run_inTag h1 s b0 hr]
    simp [step, isSpace, PS.afterHead, PS.push]
  | bare h1 =>
    obtain ⟨e0, an, av, h3, rfl, h4⟩ := run_inBare h1 s b0 hr
    rw [run_snoc, h4]
    simp only [step, PS.afterValue, withAttr_eq h3]
    simp [isSpace, PS.afterHead, PS.push]
  | question h1 =>
    rw [run_app, run_inTag h1 s b0 hr]
    simp [Xml.run, step, isSpace, PS.afterHead, PS.push]

theorem run_emptyTag {t : Stream} {e : Head} (h : EmptyTag t e) (s : PS) (b0 : Bytes) (hr : (s.flush b0).secondRoot = false) :
    Xml.run { s with pc := .main b0 } t = { (s.flush b0).addNode (.elem e.1 e.2 []) with pc := .main [] } := by
  cases h with
  | name h1 h2 =>
    rw [run_snoc, run_named h1, afterName_plain h2 hr]
    simp [isSpace, PS.afterHead, step, addNode_pc]
  | attrs h1 =>
    rw [run_app, run_inTag h1 s b0 hr]
    simp [Xml.run, step, isSpace, PS.afterHead, addNode_pc]
  | bare h1 =>
    obtain ⟨e0, an, av, h3, rfl, h4⟩ := run_inBare h1 s b0 hr
    rw [run_app, h4]
    simp only [Xml.run, List.foldl, step, PS.afterValue, withAttr_eq h3]
    simp [isSpace, PS.afterHead, addNode_pc]

end Afs.Xml.Acc
