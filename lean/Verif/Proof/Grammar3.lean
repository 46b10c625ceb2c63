import Verif.Proof.Grammar2
/-!
# Reading documents of the grammar: sections, comments, instructions, content, documents
-/
namespace Afs.Xml
open Afs Afs.Spec Afs.Spec.Grammar

/-! ### The last byte of a text -/

theorem addChar_last {c : Nat} (h : ¬ c < 128) : ∃ q b, addChar c = q ++ [b] ∧ 128 ≤ b.toNat := by
  unfold addChar
  rw [if_neg h]
  split
  · exact ⟨[_], _, rfl, high_byte _⟩
  · split
    · exact ⟨[_, _], _, rfl, high_byte _⟩
    · exact ⟨[_, _, _], _, rfl, high_byte _⟩

/-- If the last byte of a text is an ASCII character, that is its last character. -/
theorem utf8_last {p : List Char} {q : Bytes} {b : UInt8} (hb : b.toNat < 128) (h : utf8File p = q ++ [b]) :
    ∃ p' c, p = p' ++ [c] ∧ c.toNat = b.toNat ∧ utf8File p' = q := by
  rcases List.eq_nil_or_concat p with rfl | ⟨p', c, rfl⟩
  · rw [utf8_nil] at h
    exact absurd h.symm (by simp)
  · rw [List.concat_eq_append] at h ⊢
    rw [utf8_append, utf8_one] at h
    by_cases hc : c.toNat < 128
    · rw [utf8_ascii hc] at h
      have := List.append_inj' h rfl
      refine ⟨p', c, rfl, ?_, this.1⟩
      have h2 := this.2
      injection h2 with h2 _
      rw [← h2, ofNat_toNat (by omega)]
    · obtain ⟨r, x, e, hx⟩ := addChar_last hc
      rw [← addChar_eq, e, ← List.append_assoc] at h
      have := (List.append_inj' h rfl).2
      injection this with this _
      rw [this] at hx; omega

/-- A loop that copies characters. -/
theorem R_loop (s : PS) (K : Bytes → PC) (b0 : Bytes) (d : List Char)
    (h : ∀ pre c post, d = pre ++ c :: post → step { s with pc := K (b0 ++ utf8File pre) } (some c.toNat) =
      { s with pc := K (b0 ++ utf8File pre ++ addChar c.toNat) }) :
    R { s with pc := K b0 } d = { s with pc := K (b0 ++ utf8File d) } := by
  have key : ∀ post pre, d = pre ++ post → R { s with pc := K (b0 ++ utf8File pre) } post = { s with pc := K (b0 ++ utf8File d) } := by
    intro post
    induction post with
    | nil => intro pre hp; rw [R_nil, hp, List.append_nil]
    | cons c post ih =>
      intro pre hp
      rw [R_cons, h pre c post hp, addChar_eq, ← utf8_one, List.append_assoc, ← utf8_append]
      exact ih (pre ++ [c]) (by rw [hp]; simp)
  have := key d [] rfl
  rwa [utf8_nil, List.append_nil] at this

theorem addNode_pc (s : PS) (pc : PC) (n : Node) : { PS.addNode { s with pc := pc } n with pc := .main [] } = { s.addNode n with pc := .main [] } := by
  obtain ⟨pc, st, ro, oq⟩ := s
  cases st <;> cases ro <;> rfl

/-! ### CDATA sections -/

theorem R_cdata {s : PS} (hs : s.secondRoot = false) {t d : List Char} (h : CData t d) :
    ∃ r, t = '<' :: r ∧ R { s with pc := .name [] } r = { s.addNode (Node.newCDATA (utf8File d)) with pc := .main [] } := by
  obtain ⟨h1, h2, rfl⟩ := h
  refine ⟨"![CDATA[".toList ++ d ++ "]]>".toList, rfl, ?_⟩
  rw [R_append, R_append, show R { s with pc := .name [] } "![CDATA[".toList = { s with pc := .cdata Node.cdataOpen } from run_cdata_open s]
  rw [R_loop s .cdata Node.cdataOpen d]
  · generalize utf8File d = u
    rw [show "]]>".toList = [']', ']', '>'] from rfl, R_cons, R_cons, R_cons, R_nil]
    have e1 : ∀ p, step { s with pc := .cdata p } (some ']'.toNat) = { s with pc := .cdata (p ++ [93]) } := by
      intro p
      simp [step, addChar]
    rw [e1, e1]
    have hs' : ({ s with pc := PC.cdata (Node.cdataOpen ++ u ++ [93] ++ [93]) } : PS).secondRoot = false := hs
    have hn : Node.newCDATA u = .elem (Node.cdataOpen ++ u ++ [93] ++ [93]) [] [] := by simp [Node.newCDATA, Node.cdataClose]
    rw [hn, ← addNode_pc s (.cdata (Node.cdataOpen ++ u ++ [93] ++ [93]))]
    simp only [step]
    rw [if_pos ⟨rfl, by simp [Node.cdataClose]⟩]
    simp only [PS.addSpecial, hs']
    simp
  · intro pre c post hd
    simp only [step]
    rw [if_neg]
    rintro ⟨h62, hb⟩
    obtain ⟨q, hq⟩ := ends_brackets hb
    rw [show (b! "]]") = [93] ++ [93] from rfl, ← List.append_assoc] at hq
    obtain ⟨p1, c1, rfl, e1, hq1⟩ := utf8_last (by decide) hq
    obtain ⟨p2, c2, rfl, e2, hq2⟩ := utf8_last (by decide) hq1
    have hc := char_eq (d := '>') h62
    have hc1 := char_eq (d := ']') e1
    have hc2 := char_eq (d := ']') e2
    subst hc hc1 hc2
    exact h2 ⟨p2, post, by rw [hd]; simp⟩

/-! ### Comments -/

theorem run_comment_open (s : PS) : R { s with pc := .name [] } "!--".toList = { s with pc := .comment (b! "!--") } := rfl

theorem R_comment {s : PS} (hs : s.secondRoot = false) {t d : List Char} (h : Comment t d) :
    ∃ r, t = '<' :: r ∧
      R { s with pc := .name [] } r = { s.addNode (rawNode ("!--".toList ++ d ++ "--".toList)) with pc := .main [] } := by
  obtain ⟨h1, h2, h3, h4, rfl⟩ := h
  refine ⟨"!--".toList ++ d ++ "-->".toList, rfl, ?_⟩
  rw [R_append, R_append, run_comment_open]
  rw [R_loop s .comment (b! "!--") d]
  · obtain ⟨u, x, hu, hx⟩ : ∃ u x, utf8File d = u ++ [x] ∧ x ≠ 45 := by
      rcases List.eq_nil_or_concat (utf8File d) with h0 | ⟨u, x, hu⟩
      · exfalso
        cases d with
        | nil => exact h2 rfl
        | cons c d =>
          rw [utf8_cons, ← addChar_eq] at h0
          have := List.append_eq_nil_iff.mp h0
          by_cases hc : c.toNat < 128
          · rw [addChar, if_pos hc] at this; exact absurd this.1 (by simp)
          · obtain ⟨q, b, e, _⟩ := addChar_last hc
            rw [e] at this; exact absurd this.1 (by simp)
      · rw [List.concat_eq_append] at hu
        refine ⟨u, x, hu, ?_⟩
        rintro rfl
        obtain ⟨p, c, hp, hc, _⟩ := utf8_last (by decide) hu
        apply h4
        rw [hp, char_eq (d := '-') hc]
        simp
    have hn : rawNode ("!--".toList ++ d ++ "--".toList) = .elem ((b! "!--") ++ (u ++ [x]) ++ [45] ++ [45]) [] [] := by
      unfold rawNode
      rw [utf8_append, utf8_append, hu, show utf8File "!--".toList = (b! "!--") from by decide +kernel,
        show utf8File "--".toList = [45] ++ [45] from by decide +kernel]
      simp
    rw [hn, hu, show "-->".toList = ['-', '-', '>'] from rfl, R_cons, R_cons, R_cons, R_nil]
    have e1 : ∀ p, step { s with pc := .comment p } (some '-'.toNat) = { s with pc := .comment (p ++ [45]) } := by
      intro p
      simp [step, addChar]
    rw [e1, e1]
    have hs' : ({ s with pc := PC.comment ((b! "!--") ++ (u ++ [x]) ++ [45] ++ [45]) } : PS).secondRoot = false := hs
    rw [← addNode_pc s (.comment ((b! "!--") ++ (u ++ [x]) ++ [45] ++ [45]))]
    simp only [step]
    rw [if_pos ⟨rfl, by simp, by simpa using hx, by simp, by simp⟩]
    simp only [PS.addSpecial, hs']
    simp
  · intro pre c post hd
    simp only [step]
    rw [if_neg]
    rintro ⟨h62, hl, _, hb1, hb0⟩
    rcases List.eq_nil_or_concat (utf8File pre) with h0 | ⟨u, x, hu⟩
    · rw [h0] at hl; simp at hl
    · rw [List.concat_eq_append] at hu
      rcases List.eq_nil_or_concat u with rfl | ⟨v, y, hv⟩
      · rw [hu] at hl; simp at hl
      · rw [List.concat_eq_append] at hv
        subst hv
        rw [hu] at hb1 hb0
        simp at hb1 hb0
        subst hb1 hb0
        obtain ⟨p1, c1, rfl, e1, hq1⟩ := utf8_last (by decide) hu
        obtain ⟨p2, c2, rfl, e2, hq2⟩ := utf8_last (by decide) hq1
        have hc1 := char_eq (d := '-') e1
        have hc2 := char_eq (d := '-') e2
        subst hc1 hc2
        exact h3 ⟨p2, c :: post, by rw [hd]; simp⟩

/-! ### Processing instructions -/

theorem R_pi {s : PS} {t d : List Char} (h1 : ∀ c ∈ d, XmlChar c) (h0 : d ≠ [] ∧ d.head? ≠ some '>')
    (h2 : ¬ "?>".toList <:+: d) (ht : t = "<?".toList ++ d ++ "?>".toList) :
    ∃ r, t = '<' :: r ∧ R { s with pc := .name [] } r =
      PS.addDirective { s with pc := .pi (utf8File ("?".toList ++ d ++ "?".toList)) } (utf8File ("?".toList ++ d ++ "?".toList)) := by
  subst ht
  refine ⟨"?".toList ++ d ++ "?>".toList, rfl, ?_⟩
  rw [R_append, R_append, show R { s with pc := .name [] } "?".toList = { s with pc := .pi (b! "?") } from rfl]
  rw [R_loop s .pi (b! "?") d]
  · have hn : utf8File ("?".toList ++ d ++ "?".toList) = (b! "?") ++ utf8File d ++ [63] := by
      rw [utf8_append, utf8_append, show utf8File "?".toList = [63] from by decide +kernel]
    rw [hn, show "?>".toList = ['?', '>'] from rfl, R_cons, R_cons, R_nil]
    have e1 : ∀ p, step { s with pc := .pi p } (some '?'.toNat) = { s with pc := .pi (p ++ [63]) } := by
      intro p
      simp [step, addChar]
    rw [e1]
    simp only [step]
    rw [if_pos ⟨rfl, List.getLast?_concat⟩]
  · intro pre c post hd
    simp only [step]
    rw [if_neg]
    rintro ⟨h62, hb⟩
    have hc := char_eq (d := '>') h62
    subst hc
    rcases List.eq_nil_or_concat (utf8File pre) with h0' | ⟨u, x, hu⟩
    · cases pre with
      | nil => exact h0.2 (by rw [hd]; rfl)
      | cons c pre =>
        rw [utf8_cons, ← addChar_eq] at h0'
        have := List.append_eq_nil_iff.mp h0'
        by_cases hc : c.toNat < 128
        · rw [addChar, if_pos hc] at this; exact absurd this.1 (by simp)
        · obtain ⟨q, b, e, _⟩ := addChar_last hc
          rw [e] at this; exact absurd this.1 (by simp)
    · rw [List.concat_eq_append] at hu
      rw [hu, ← List.append_assoc, List.getLast?_concat] at hb
      injection hb with hb
      subst hb
      obtain ⟨p1, c1, rfl, e1, hq1⟩ := utf8_last (by decide) hu
      have hc1 := char_eq (d := '?') e1
      subst hc1
      exact h2 ⟨p1, post, by rw [hd]; simp⟩

theorem pi_head {t d : List Char} (h : PI t d) : d ≠ [] ∧ d.head? ≠ some '>' := by
  obtain ⟨⟨n, s, rfl, ⟨c, r, rfl, hc, _⟩, _⟩, _⟩ := h
  refine ⟨by simp, ?_⟩
  rintro e
  simp at e
  subst e
  exact absurd hc (by decide)

/-! ### Content -/

/-- Reading text inside an element. -/
def Goes (t : List Char) (l : List Item) : Prop :=
  ∀ p n as fs root, R (content p n as fs root) t = content (l.foldl itemStep p) n as fs root

theorem goes_data {d : List Char} (h : CharData d) : Goes d [.txt (utf8File d)] := by
  intro p n as fs root
  have := R_loop (content p n as fs root) .main p.1 d (by
    intro pre c post hd
    have := h.1 c (by rw [hd]; simp)
    have h60 : c.toNat ≠ 60 := toNat_ne (d := '<') this.2.1
    have h38 : c.toNat ≠ 38 := toNat_ne (d := '&') this.2.2
    simp [step, content, h60, h38])
  exact this

theorem goes_tag {t r : List Char} {x : Node} (ht : t = '<' :: r)
    (h : ∀ s : PS, s.secondRoot = false → s.stack ≠ [] → R { s with pc := .name [] } r = { s.addNode x with pc := .main [] }) : Goes t [.el x] := by
  intro p n as fs root
  rw [ht, R_cons, show ('<' : Char).toNat = 60 from rfl, step_lt, h (content ([], flushRev p.1 p.2) n as fs root) rfl (by simp [content])]
  rfl

theorem Goes.append {t1 t2 : List Char} {l1 l2 : List Item} (h1 : Goes t1 l1) (h2 : Goes t2 l2) : Goes (t1 ++ t2) (l1 ++ l2) := by
  intro p n as fs root
  rw [R_append, h1, h2, List.foldl_append]

theorem goes_cdata {t d : List Char} (h : CData t d) : Goes t [.el (Node.newCDATA (utf8File d))] := by
  obtain ⟨r, hr, _⟩ := R_cdata (s := PS.init) rfl h
  refine goes_tag hr fun s hs _ => ?_
  obtain ⟨r', hr', e⟩ := R_cdata hs h
  rw [hr] at hr'; injection hr' with _ hr'; rw [hr', e]

theorem goes_comment {t d : List Char} (h : Comment t d) : Goes t [.el (rawNode ("!--".toList ++ d ++ "--".toList))] := by
  obtain ⟨r, hr, _⟩ := R_comment (s := PS.init) rfl h
  refine goes_tag hr fun s hs _ => ?_
  obtain ⟨r', hr', e⟩ := R_comment hs h
  rw [hr] at hr'; injection hr' with _ hr'; rw [hr', e]

theorem goes_pi {t d : List Char} (h : PI t d) : Goes t [.el (rawNode ("?".toList ++ d ++ "?".toList))] := by
  obtain ⟨r, hr, _⟩ := R_pi (s := PS.init) h.2.1 (pi_head h) h.2.2.1 h.2.2.2
  refine goes_tag hr fun s hs hst => ?_
  obtain ⟨r', hr', e⟩ := R_pi (s := s) h.2.1 (pi_head h) h.2.2.1 h.2.2.2
  rw [hr] at hr'; injection hr' with _ hr'
  rw [hr', e]
  have hraw : rawNode ("?".toList ++ d ++ "?".toList) = .elem (utf8File ("?".toList ++ d ++ "?".toList)) [] [] := rfl
  rw [hraw]
  generalize utf8File ("?".toList ++ d ++ "?".toList) = u at *
  have hs' : ({ s with pc := PC.pi u } : PS).secondRoot = false := hs
  have hst' : s.stack.isEmpty = false := by cases hh : s.stack <;> simp_all
  unfold PS.addDirective
  rw [hs']
  simp only [Bool.false_eq_true, if_false, hst']
  rw [addNode_pc]

theorem goes_empty {t n : List Char} {as} (h : EmptyTag t n as) : Goes t [.el (tagNode n as [])] := by
  obtain ⟨r, hr, _⟩ := R_empty (s := PS.init) rfl h
  refine goes_tag hr fun s hs _ => ?_
  obtain ⟨r', hr', e⟩ := R_empty hs h
  rw [hr] at hr'; injection hr' with _ hr'; rw [hr', e]

theorem goes_ref {r : List Char} {c : Char} (h : Reference r c) : Goes r [.txt (utf8File [c])] := by
  intro p n as fs root
  exact R_reference (refs_main (s := content p n as fs root) rfl) p.1 h

theorem tag_name {t n : List Char} {as} (h : StartTag t n as) : Name n := by
  obtain ⟨_, hb, _⟩ := h; cases hb; assumption

/-- The inside of an element and its end tag. -/
theorem R_inside {b e n : List Char} {bs : List Item} (hn : Name n) (hb : Goes b bs) (he : EndTag e n)
    (as : List (Bytes × Option Bytes)) (fs : List Frame) (root : Option Node) :
    R (content ([], []) (utf8File n) as fs root) (b ++ e) =
      (content ([], (joinText [] bs).reverse) (utf8File n) as fs root).pop := by
  obtain ⟨f, hf⟩ : ∃ f, f = (List.foldl itemStep ([], []) bs) := ⟨_, rfl⟩
  have hj := foldl_joinText bs ([], [])
  simp only [List.reverse_nil, List.nil_append] at hj
  have hj2 := congrArg List.reverse hj
  rw [List.reverse_reverse] at hj2
  rw [R_append, hb]
  obtain ⟨r, rfl, h⟩ := R_end (s := content ([], flushRev (bs.foldl itemStep ([], [])).1 (bs.foldl itemStep ([], [])).2) (utf8File n) as fs root)
    (f := ⟨utf8File n, as, flushRev (bs.foldl itemStep ([], [])).1 (bs.foldl itemStep ([], [])).2⟩) rfl hn rfl he
  rw [R_cons, show ('<' : Char).toNat = 60 from rfl, step_lt, h, hj2]

theorem goes_elem {t n b e : List Char} {as} {bs : List Item} (ht : StartTag t n as) (hb : Goes b bs) (he : EndTag e n) :
    Goes (t ++ b ++ e) [.el (tagNode n as (joinText [] bs))] := by
  intro p m cs fs root
  obtain ⟨r, rfl, h⟩ := R_start (s := content ([], flushRev p.1 p.2) m cs fs root) rfl ht
  rw [List.append_assoc, R_append, R_cons, show ('<' : Char).toNat = 60 from rfl, step_lt, h]
  have := R_inside (tag_name ht) hb he (attrs as) (⟨m, cs, flushRev p.1 p.2⟩ :: fs) root
  rw [show ({ PS.push (content ([], flushRev p.1 p.2) m cs fs root) (utf8File n, attrs as) with pc := .main [] } : PS) =
    content ([], []) (utf8File n) (attrs as) (⟨m, cs, flushRev p.1 p.2⟩ :: fs) root from rfl, this]
  simp [content, PS.pop, itemStep, Frame.node, tagNode, attrs]

theorem goes_content {t : List Char} {l : List Item} (h : Content t l) : Goes t l := by
  induction h with
  | data h => exact goes_data h
  | ref h1 h2 _ ih => exact ((goes_data h1).append (goes_ref h2)).append ih
  | cdata h1 h2 _ ih => exact ((goes_data h1).append (goes_cdata h2)).append ih
  | comment h1 h2 _ ih => exact ((goes_data h1).append (goes_comment h2)).append ih
  | pi h1 h2 _ ih => exact ((goes_data h1).append (goes_pi h2)).append ih
  | empty h1 h2 _ ih => exact ((goes_data h1).append (goes_empty h2)).append ih
  | elem h1 h2 _ h4 _ ih1 ih2 =>
    have := ((goes_data h1).append (goes_elem h2 ih1 h4)).append ih2
    simpa using this

theorem goes_element {t : List Char} {n : Node} (h : Element t n) : Goes t [.el n] := by
  cases h with
  | empty h => exact goes_empty h
  | full h1 h2 h3 => exact goes_elem h1 (goes_content h2) h3

theorem spaces_data {w : List Char} (h : Spaces w) : CharData w := by
  refine ⟨fun c hc => ?_, ?_⟩
  · rcases h c hc with rfl | rfl | rfl | rfl <;> decide
  · rintro ⟨a, b, rfl⟩
    have := h ']' (by simp)
    exact absurd this (by decide)

theorem goes_misc {t : List Char} {l : List Item} (h : Misc t l) : Goes t l := by
  induction h with
  | nil => exact fun _ _ _ _ _ => rfl
  | comment h1 h2 _ ih => exact ((goes_data (spaces_data h1)).append (goes_comment h2)).append ih
  | pi h1 h2 _ ih => exact ((goes_data (spaces_data h1)).append (goes_pi h2)).append ih

/-! ### Documents -/

theorem pseudo_mem {n v s : List Char} (h : Pseudo n v s) : ∀ c ∈ s, c ∈ n ∨ c ∈ v ∨ Space c ∨ c = '=' ∨ c = '"' ∨ c = '\'' := by
  obtain ⟨ws, w1, w2, q, _, h1, h2, h3, hq, rfl⟩ := h
  intro c hc
  simp only [List.mem_append, List.mem_singleton] at hc
  rcases hc with ((((((hc | hc) | hc) | hc) | hc) | hc) | hc) | hc
  · exact .inr (.inr (.inl (h1 c hc)))
  · exact .inl hc
  · exact .inr (.inr (.inl (h2 c hc)))
  · exact .inr (.inr (.inr (.inl hc)))
  · exact .inr (.inr (.inl (h3 c hc)))
  · subst hc; rcases hq with h | h <;> simp [h]
  · exact .inr (.inl hc)
  · subst hc; rcases hq with h | h <;> simp [h]

/-- A declaration has only these characters. -/
theorem decl_mem {d : List Char} (h : XmlDecl d) : ∀ c ∈ d, XmlChar c ∧ c ≠ '?' ∧ c ≠ '>' := by
  obtain ⟨v, e, s, w, h1, h2, h3, h4, rfl⟩ := h
  have lit : ∀ l : List Char, (∀ c ∈ l, XmlChar c ∧ c ≠ '?' ∧ c ≠ '>') → ∀ c ∈ l, XmlChar c ∧ c ≠ '?' ∧ c ≠ '>' := fun _ h => h
  have hsp : ∀ c, Space c ∨ c = '=' ∨ c = '"' ∨ c = '\'' → XmlChar c ∧ c ≠ '?' ∧ c ≠ '>' := by
    rintro c ((rfl | rfl | rfl | rfl) | rfl | rfl | rfl) <;> decide
  have hp : ∀ n v s, Pseudo n v s → (∀ c ∈ n, XmlChar c ∧ c ≠ '?' ∧ c ≠ '>') → (∀ c ∈ v, XmlChar c ∧ c ≠ '?' ∧ c ≠ '>') →
      ∀ c ∈ s, XmlChar c ∧ c ≠ '?' ∧ c ≠ '>' := by
    intro n v s h hn hv c hc
    rcases pseudo_mem h c hc with h | h | h
    · exact hn c h
    · exact hv c h
    · exact hsp c h
  intro c hc
  simp only [List.mem_append] at hc
  rcases hc with (((hc | hc) | hc) | hc) | hc
  · exact lit "xml".toList (by decide) c hc
  · exact hp _ _ _ h1 (by decide) (by decide) c hc
  · rcases h2 with rfl | ⟨enc, henc, h2⟩
    · cases hc
    · exact hp _ _ _ h2 (by decide) (by rcases henc with rfl | rfl | rfl <;> decide) c hc
  · rcases h3 with rfl | ⟨b, hb, h3⟩
    · cases hc
    · exact hp _ _ _ h3 (by decide) (by rcases hb with rfl | rfl <;> decide) c hc
  · exact hsp c (.inl (h4 c hc))

theorem R_decl {d : List Char} (h : XmlDecl d) :
    R PS.init ("<?".toList ++ d ++ "?>".toList) = content ([], []) (utf8File ("?".toList ++ d ++ "?".toList)) [] [] none := by
  have hm := decl_mem h
  have hh : d ≠ [] ∧ d.head? ≠ some '>' := by
    obtain ⟨v, e, s, w, _, _, _, _, rfl⟩ := h
    exact ⟨by simp, by simp⟩
  obtain ⟨r, hr, e⟩ := R_pi (s := PS.init) (t := "<?".toList ++ d ++ "?>".toList) (fun c hc => (hm c hc).1) hh (by
    rintro ⟨a, b, e⟩
    exact (hm '?' (by rw [← e]; simp)).2.1 rfl) rfl
  rw [hr, R_cons]
  have : step PS.init (some '<'.toNat) = { PS.init with pc := .name [] } := by simp [step, PS.init, PS.flush]
  rw [this, e]
  rfl

theorem fold_last (l : List Item) (n : Node) (p : Bytes × List Node) : ((l ++ [Item.el n]).foldl itemStep p).1 = [] := by
  rw [List.foldl_append]; rfl

theorem misc_last {t : List Char} {l : List Item} (h : Misc t l) : l = [] ∨ ∃ l' n, l = l' ++ [.el n] := by
  induction h with
  | nil => exact .inl rfl
  | comment _ _ _ ih =>
    rcases ih with rfl | ⟨l', n, rfl⟩
    · exact .inr ⟨[_], _, rfl⟩
    · exact .inr ⟨_ :: _ :: l', n, rfl⟩
  | pi _ _ _ ih =>
    rcases ih with rfl | ⟨l', n, rfl⟩
    · exact .inr ⟨[_], _, rfl⟩
    · exact .inr ⟨_ :: _ :: l', n, rfl⟩

theorem R_out_spaces (n : Option Node) : ∀ w, Spaces w → R ⟨.main [], [], n, false⟩ w = ⟨.main [], [], n, false⟩
  | [], _ => rfl
  | c :: w, h => by
    have hc := space_nat (h c (by simp))
    have h60 : c.toNat ≠ 60 := by intro e; rw [e] at hc; exact absurd hc (by decide)
    have h38 : c.toNat ≠ 38 := by intro e; rw [e] at hc; exact absurd hc (by decide)
    have : step ⟨.main [], [], n, false⟩ (some c.toNat) = ⟨.main [], [], n, false⟩ := by
      simp [step, hc, h60, h38]
    rw [R_cons, this, R_out_spaces n w fun x hx => h x (by simp [hx])]

theorem end_spaces (n : Node) (opq : Bool) {w : List Char} (h : Spaces w) :
    (run (R ⟨.main [], [], some n, opq⟩ w) [none, none, none]).result = some n := by
  cases opq with
  | false => rw [R_out_spaces _ w h]; rfl
  | true =>
    have := R_loop ⟨.main [], [], some n, true⟩ .main [] w (by
      intro pre c post hd
      have hc := space_nat (h c (by rw [hd]; simp))
      have h60 : c.toNat ≠ 60 := by intro e; rw [e] at hc; exact absurd hc (by decide)
      have h38 : c.toNat ≠ 38 := by intro e; rw [e] at hc; exact absurd hc (by decide)
      simp [step, h60, h38])
    rw [this]; rfl

theorem R_document {t : List Char} {v : Node} (h : Document t v) : (run (R PS.init t) [none, none, none]).result = some v := by
  cases h with
  | @declared d m w e m' w' is is' n h1 h2 h3 h4 h5 h6 =>
    rw [R_append, R_append, R_append, R_append, R_append, R_decl h1]
    rw [goes_misc h2, goes_data (spaces_data h3), goes_element h4, goes_misc h5, goes_data (spaces_data h6)]
    have hl : ∃ l' x, is ++ [.txt (utf8File w), .el n] ++ is' = l' ++ [.el x] := by
      rcases misc_last h5 with rfl | ⟨l', x, rfl⟩
      · exact ⟨is ++ [.txt (utf8File w)], n, by simp⟩
      · exact ⟨is ++ [.txt (utf8File w), .el n] ++ l', x, by simp⟩
    have hf : is'.foldl itemStep (List.foldl itemStep (List.foldl itemStep (is.foldl itemStep ([], [])) [.txt (utf8File w)]) [.el n]) =
        (is ++ [Item.txt (utf8File w), Item.el n] ++ is').foldl itemStep ([], []) := by
      simp [List.foldl_append]
    rw [hf]
    have hj := foldl_joinText (is ++ [.txt (utf8File w), .el n] ++ is') ([], [])
    obtain ⟨l', x, hl⟩ := hl
    rw [hl] at hj ⊢
    rw [fold_last, flushRev, if_pos rfl] at hj
    simp only [List.reverse_nil, List.nil_append] at hj
    rw [← hj]
    rfl
  | @bare w e w' _ h1 h2 h3 =>
    rw [R_append, R_append, show PS.init = ⟨.main [], [], none, false⟩ from rfl, R_out_spaces _ w h1]
    have hlt : step ⟨.main [], [], none, false⟩ (some 60) = { PS.init with pc := .name [] } := by
      simp [step, PS.init, PS.flush]
    cases h2 with
    | @empty _ n as h =>
      obtain ⟨r, rfl, he⟩ := R_empty (s := PS.init) rfl h
      rw [R_cons, show ('<' : Char).toNat = 60 from rfl, hlt, he]
      exact end_spaces _ false h3
    | @full t n as b bs e h4 h5 h6 =>
      obtain ⟨r, rfl, hs⟩ := R_start (s := PS.init) rfl h4
      rw [List.append_assoc, R_append, R_cons, show ('<' : Char).toNat = 60 from rfl, hlt, hs]
      have := R_inside (tag_name h4) (goes_content h5) h6 (attrs as) [] none
      rw [show ({ PS.push PS.init (utf8File n, attrs as) with pc := .main [] } : PS) = content ([], []) (utf8File n) (attrs as) [] none from rfl, this]
      have h2 := end_spaces (tagNode n as (joinText [] bs)) true h3
      simpa [content, PS.pop, Frame.node, tagNode, attrs] using h2

end Afs.Xml
