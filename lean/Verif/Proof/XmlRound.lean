import Verif.Proof.XmlRead
/-!
# Reading back whole trees
-/
namespace Afs.Xml
open Afs Afs.Spec

/-! ### CDATA -/

theorem run_cdata_open (s : PS) :
    run { s with pc := .name [] } (Node.cdataOpen.map fun b => some b.toNat) =
      { s with pc := .cdata Node.cdataOpen } := rfl

theorem ends_brackets {p : Bytes} (h : (Node.cdataOpen ++ p).reverse.take 2 = Node.cdataClose) :
    ∃ q, p = q ++ b! "]]" := by
  rw [List.reverse_append] at h
  cases hr : p.reverse with
  | nil => rw [hr] at h; exact absurd h (by decide)
  | cons x t =>
    cases t with
    | nil =>
      rw [hr] at h
      have h2 : [x, (91 : UInt8)] = [93, 93] := h
      injection h2 with _ h3
      injection h3 with h4 _
      exact absurd h4 (by decide)
    | cons y t =>
      rw [hr] at h
      have h2 : [x, y] = [93, 93] := h
      injection h2 with h3 h4
      injection h4 with h5 _
      refine ⟨t.reverse, ?_⟩
      have := congrArg List.reverse hr
      rw [List.reverse_reverse] at this
      rw [this, h3, h5]
      simp

theorem step_cdata {s : PS} {p : Bytes} {c : Char} (h : c.toNat = 62 → ¬ ∃ q, p = q ++ b! "]]") :
    step { s with pc := .cdata (Node.cdataOpen ++ p) } (some c.toNat) =
      { s with pc := .cdata (Node.cdataOpen ++ (p ++ String.utf8EncodeChar c)) } := by
  simp only [step]
  rw [if_neg, addChar_eq, List.append_assoc]
  rintro ⟨h1, h2⟩
  exact h h1 (ends_brackets h2)

theorem feed_cdata {dec} (hd : GoodDec dec) {s : PS} (hs : s.secondRoot = false) {d : Bytes} (h : CleanData d)
    (r : Bytes) :
    feed dec { s with pc := .name [] } (Node.cdataOpen ++ d ++ Node.cdataClose ++ (62 :: r)) =
      feed dec { s.addNode (Node.newCDATA d) with pc := .main [] } r := by
  obtain ⟨⟨cs, hc, rfl⟩, hno⟩ := h
  rw [List.append_assoc, List.append_assoc, ascii_lit hd (by decide), run_cdata_open]
  have key : ∀ (post pre : List Char), cs = pre ++ post → ∀ rest,
      feed dec { s with pc := .cdata (Node.cdataOpen ++ pre.flatMap String.utf8EncodeChar) }
        (post.flatMap String.utf8EncodeChar ++ rest) =
      feed dec { s with pc := .cdata (Node.cdataOpen ++ cs.flatMap String.utf8EncodeChar) } rest := by
    intro post
    induction post with
    | nil => intro pre hp rest; rw [hp]; simp
    | cons c post ih =>
      intro pre hp rest
      rw [List.flatMap_cons, List.append_assoc, feed_char hd (hc c (by rw [hp]; simp)), step_cdata]
      · have := ih (pre ++ [c]) (by rw [hp]; simp) rest
        simpa using this
      · rintro h62 ⟨q, hq⟩
        apply hno
        rw [hp, List.flatMap_append, hq, List.flatMap_cons]
        have hc62 : String.utf8EncodeChar c = [62] := by
          rw [← addChar_eq, h62]; rfl
        rw [hc62]
        exact ⟨q, post.flatMap String.utf8EncodeChar, by simp⟩
  have h0 := key cs [] rfl (Node.cdataClose ++ (62 :: r))
  simp only [List.flatMap_nil, List.append_nil] at h0
  rw [h0, show Node.cdataClose ++ 62 :: r = 93 :: 93 :: 62 :: r from rfl]
  generalize cs.flatMap String.utf8EncodeChar = d
  rw [feed_byte hd (by decide), feed_byte hd (by decide), feed_byte hd (by decide)]
  have e1 : ∀ p, step { s with pc := .cdata p } (some (93 : UInt8).toNat) = { s with pc := .cdata (p ++ [93]) } := by
    intro p
    simp [step, addChar]
  rw [e1, e1]
  have e2 : step { s with pc := .cdata (Node.cdataOpen ++ d ++ [93] ++ [93]) } (some (62 : UInt8).toNat) =
      { s.addNode (Node.newCDATA d) with pc := .main [] } := by
    have hs' : ({ s with pc := PC.cdata (Node.cdataOpen ++ d ++ [93] ++ [93]) } : PS).secondRoot = false := hs
    simp only [step]
    rw [if_pos ⟨rfl, by simp [Node.cdataClose]⟩]
    simp only [PS.addSpecial, hs']
    have : Node.newCDATA d = .elem (Node.cdataOpen ++ d ++ [93] ++ [93]) [] [] := by
      simp [Node.newCDATA, Node.cdataClose]
    rw [this]
    obtain ⟨pc, st, ro, oq⟩ := s
    cases st <;> cases ro <;> rfl
  rw [e2]

/-! ### Content of an element -/

/-- Pending text becomes a text node. -/
def flushRev (b : Bytes) (rev : List Node) : List Node := if b = [] then rev else .text b :: rev

/-- What one item of content does to pending text and children. -/
def itemStep (p : Bytes × List Node) : Item → Bytes × List Node
  | .txt s => (p.1 ++ s, p.2)
  | .el n => ([], n :: flushRev p.1 p.2)

theorem foldl_joinText (l : List Item) (p : Bytes × List Node) :
    (flushRev (l.foldl itemStep p).1 (l.foldl itemStep p).2).reverse = p.2.reverse ++ joinText p.1 l := by
  induction l generalizing p with
  | nil => unfold flushRev joinText; split <;> simp_all
  | cons i l ih =>
    rw [List.foldl_cons, ih]
    cases i with
    | txt s => rfl
    | el n => simp only [itemStep, joinText, flushRev]; split <;> simp

/-- State inside an element. -/
def content (p : Bytes × List Node) (n : Bytes) (as : List (Bytes × Option Bytes)) (fs : List Frame)
    (root : Option Node) : PS := ⟨.main p.1, ⟨n, as, p.2⟩ :: fs, root, true⟩

theorem content_second (p n as fs root) : (content p n as fs root).secondRoot = false := rfl

theorem white_ok {c : UInt8} (h : c = 32 ∨ c = 9 ∨ c = 10 ∨ c = 13) : okByte c = true := by
  rcases h with rfl | rfl | rfl | rfl <;> decide

theorem feed_white {dec} (hd : GoodDec dec) {w : Bytes} (hw : ∀ c ∈ w, c = 32 ∨ c = 9 ∨ c = 10 ∨ c = 13)
    (s : PS) (ho : s.opq = true) (b : Bytes) (r : Bytes) :
    feed dec { s with pc := .main b } (w ++ r) = feed dec { s with pc := .main (b ++ w) } r := by
  induction w generalizing b with
  | nil => simp
  | cons c w ih =>
    have h := hw c (by simp)
    have e : step { s with pc := .main b } (some c.toNat) = { s with pc := .main (b ++ [c]) } := by
      rcases h with rfl | rfl | rfl | rfl <;> simp [step, isSpace, ho, addChar]
    rw [List.cons_append, feed_byte hd (white_ok h), e, ih (fun x hx => hw x (by simp [hx]))]
    simp

theorem feed_white_out {dec} (hd : GoodDec dec) {w : Bytes} (hw : ∀ c ∈ w, c = 32 ∨ c = 9 ∨ c = 10 ∨ c = 13)
    (s : PS) (ho : s.opq = false) (r : Bytes) :
    feed dec { s with pc := .main [] } (w ++ r) = feed dec { s with pc := .main [] } r := by
  induction w with
  | nil => simp
  | cons c w ih =>
    have h := hw c (by simp)
    have e : step { s with pc := .main [] } (some c.toNat) = { s with pc := .main [] } := by
      rcases h with rfl | rfl | rfl | rfl <;> simp [step, isSpace, ho]
    rw [List.cons_append, feed_byte hd (white_ok h), e, ih (fun x hx => hw x (by simp [hx]))]

theorem feed_content_white {dec} (hd : GoodDec dec) {w : Bytes} (hw : ∀ c ∈ w, c = 32 ∨ c = 9 ∨ c = 10 ∨ c = 13)
    (p n as fs root) (r : Bytes) :
    feed dec (content p n as fs root) (w ++ r) = feed dec (content (itemStep p (.txt w)) n as fs root) r :=
  feed_white hd hw (content p n as fs root) rfl p.1 r

theorem step_lt (p n as fs root) :
    step (content p n as fs root) (some 60) =
      { content ([], flushRev p.1 p.2) n as fs root with pc := .name [] } := by
  unfold content flushRev
  by_cases h : p.1 = []
  · simp [step, PS.flush, h]
  · simp [step, PS.flush, h, PS.addNode]

theorem isDirective_plain {n : Bytes} (h : PlainName n) : isDirective n = false := by
  obtain ⟨q1, q2, q3, q4, q5, q6⟩ := alnum_head (n := n) h.2
  simp [isDirective, q4, q5]

theorem writeString_plain {n : Bytes} (h : AlNum n) : writeString n = n := by
  have := writeString_none (w := n) (r := []) (by
    intro b hb
    obtain ⟨p1, p2, p3, p4, p5, p6, p7, p8, p9, p10, p11, p12⟩ := plain_ge (h b hb)
    rw [entityName_of_toNat]
    simp [p2, p4, p5, p10])
  simpa [writeString] using this

/-- Result of reading `w` inside an element, for a node and its items. -/
def Reads (dec : Bytes → List (Option Nat)) (w : Bytes) (l : List Item) : Prop :=
  ∀ p n as fs root r, feed dec (content p n as fs root) (w ++ r) =
    feed dec (content (l.foldl itemStep p) n as fs root) r

theorem Reads.append {dec w1 w2 l1 l2} (h1 : Reads dec w1 l1) (h2 : Reads dec w2 l2) :
    Reads dec (w1 ++ w2) (l1 ++ l2) := by
  intro p n as fs root r
  rw [List.append_assoc, h1, h2, List.foldl_append]

theorem Reads.nil {dec} : Reads dec [] [] := fun _ _ _ _ _ _ => rfl

theorem reads_list {dec} {cb : SaveCb} {cs : List Node} (h : ∀ c ∈ cs, ∀ anc, Reads dec (writeNode cb anc c) (xmlItems cb anc c))
    (anc : List Bytes) : Reads dec (writeNodes cb anc cs) (xmlItemsList cb anc cs) := by
  induction cs with
  | nil => exact Reads.nil
  | cons c cs ih =>
    rw [writeNodes, xmlItemsList]
    exact (h c (by simp) anc).append (ih (fun x hx => h x (by simp [hx])))

/-- The inside of a non-empty plain element, after its start tag, up to and including its close
    tag. -/
theorem feed_body {dec} (hd : GoodDec dec) {cb : SaveCb} (hcb : WhiteCb cb) {n : Bytes} (hn : PlainName n)
    (as : List (Bytes × Option Bytes)) {cs : List Node}
    (ih : ∀ c ∈ cs, ∀ anc, Reads dec (writeNode cb anc c) (xmlItems cb anc c)) (anc : List Bytes) (nd : Node)
    (fs : List Frame) (root : Option Node) (r : Bytes) :
    feed dec (content ([], []) n as fs root)
      (cb anc nd .afterOpen ++ (writeNodes cb (n :: anc) cs ++ (cb anc nd .beforeClose ++
        (60 :: 47 :: (n ++ 62 :: r))))) =
    feed dec ({ content ([], (joinText [] (.txt (cb anc nd .afterOpen) :: xmlItemsList cb (n :: anc) cs ++
        [.txt (cb anc nd .beforeClose)])).reverse) n as fs root with pc := .name [] } : PS).pop r := by
  rw [feed_content_white hd (hcb _ _ _), reads_list ih (n :: anc), feed_content_white hd (hcb _ _ _),
    feed_byte hd (by decide), show (60 : UInt8).toNat = 60 from rfl, step_lt]
  have hj := foldl_joinText (.txt (cb anc nd .afterOpen) :: xmlItemsList cb (n :: anc) cs ++
        [.txt (cb anc nd .beforeClose)]) ([], [])
  rw [List.cons_append, List.foldl_cons, List.foldl_append, List.foldl_cons, List.foldl_nil] at hj
  have hj2 := congrArg List.reverse hj
  rw [List.reverse_reverse] at hj2
  simp only [List.reverse_nil, List.nil_append] at hj2
  rw [hj2]
  exact feed_close hd (s := { content ([], (joinText [] (.txt (cb anc nd .afterOpen) :: xmlItemsList cb (n :: anc) cs ++
        [.txt (cb anc nd .beforeClose)])).reverse) n as fs root with pc := .name [] })
        (f := ⟨n, as, (joinText [] (.txt (cb anc nd .afterOpen) :: xmlItemsList cb (n :: anc) cs ++
        [.txt (cb anc nd .beforeClose)])).reverse⟩) (fs := fs) rfl hn r

/-- Every clean tree, written inside an element, is read back as its items. -/
theorem reads_node {dec} (hd : GoodDec dec) {cb : SaveCb} (hcb : WhiteCb cb) {t : Node} (ht : CleanTree t) :
    ∀ anc, Reads dec (writeNode cb anc t) (xmlItems cb anc t) := by
  induction ht with
  | @text s hs =>
    intro anc p n as fs root r
    rw [writeNode, xmlItems]
    exact feed_writeString hd (collects_main (s := content p n as fs root) rfl) p.1 hs r
  | @cdata d hdta =>
    intro anc p n as fs root r
    have hdir : isDirective (Node.cdataOpen ++ d ++ Node.cdataClose) = true := by
      simp [isDirective, Node.cdataOpen]
    have hopen : writeOpenName (Node.cdataOpen ++ d ++ Node.cdataClose) = Node.cdataOpen ++ d ++ Node.cdataClose := by
      unfold writeOpenName
      rw [if_pos]
      right; right
      simp [Node.cdataOpen]
    unfold Node.newCDATA
    rw [writeNode, xmlItems, hdir, hopen, List.flatMap_nil]
    simp only [if_true, List.append_nil, List.append_assoc, List.singleton_append]
    rw [feed_content_white hd (hcb _ _ _), List.cons_append, feed_byte hd (by decide), show (60 : UInt8).toNat = 60 from rfl, step_lt]
    have := feed_cdata hd (s := content ([], flushRev (itemStep p (.txt (cb anc (Node.elem
        (Node.cdataOpen ++ (d ++ Node.cdataClose)) [] []) Ws.beforeOpen))).1 p.2) n as fs root) rfl hdta
        (cb anc (Node.elem (Node.cdataOpen ++ (d ++ Node.cdataClose)) [] []) Ws.afterOpen ++ r)
    simp only [List.append_assoc] at this
    simp only [List.append_assoc, List.cons_append]
    erw [this]
    erw [feed_content_white hd (hcb _ _ _) ([], _)]
    simp [Node.newCDATA, itemStep, content, PS.addNode]
  | @elem n as cs hn has hcs ih =>
    intro anc p m bs fs root r
    cases cs with
    | nil =>
      rw [writeNode, xmlItems, isDirective_plain hn]
      simp only [Bool.false_eq_true, if_false, List.append_assoc]
      rw [feed_content_white hd (hcb _ _ _), List.singleton_append, feed_byte hd (by decide), show (60 : UInt8).toNat = 60 from rfl, step_lt]
      have := feed_empty hd (s := content ([], flushRev (itemStep p (.txt (cb anc (Node.elem n as []) Ws.beforeOpen))).1 p.2)
        m bs fs root) rfl hn has (cb anc (Node.elem n as []) Ws.afterOpen ++ r)
      erw [this]
      erw [feed_content_white hd (hcb _ _ _) ([], _)]
      rfl
    | cons c cs =>
      rw [writeNode, xmlItems, isDirective_plain hn]
      simp only [Bool.false_eq_true, if_false, List.append_assoc, List.singleton_append]
      rw [feed_content_white hd (hcb _ _ _), List.cons_append, feed_byte hd (by decide), show (60 : UInt8).toNat = 60 from rfl, step_lt]
      generalize hA : itemStep p (.txt (cb anc (Node.elem n as (c :: cs)) Ws.beforeOpen)) = q
      have := feed_open hd (s := content ([], flushRev q.1 q.2) m bs fs root) rfl hn has
        (cb anc (Node.elem n as (c :: cs)) Ws.afterOpen ++ (writeNodes cb (n :: anc) (c :: cs) ++
          (cb anc (Node.elem n as (c :: cs)) Ws.beforeClose ++ (60 :: 47 :: (n ++ 62 ::
            (cb anc (Node.elem n as (c :: cs)) Ws.afterClose ++ r))))))
      rw [writeString_plain hn.2]
      simp only [List.cons_append, List.nil_append]
      erw [this]
      erw [feed_body hd hcb hn as ih anc (Node.elem n as (c :: cs)) (⟨m, bs, flushRev q.1 q.2⟩ :: fs) root]
      have hpop : ∀ L : List Node, ({ content ([], L) n as (⟨m, bs, flushRev q.1 q.2⟩ :: fs) root with pc := .name [] } : PS).pop =
          content ([], .elem n as L.reverse :: flushRev q.1 q.2) m bs fs root := by
        intro L; rfl
      rw [hpop, feed_content_white hd (hcb _ _ _), List.reverse_reverse]
      have hf : List.foldl itemStep p [Item.txt (cb anc (Node.elem n as (c :: cs)) Ws.beforeOpen),
        Item.el (Node.elem n as (joinText [] (Item.txt (cb anc (Node.elem n as (c :: cs)) Ws.afterOpen) ::
          xmlItemsList cb (n :: anc) (c :: cs) ++ [Item.txt (cb anc (Node.elem n as (c :: cs)) Ws.beforeClose)]))),
        Item.txt (cb anc (Node.elem n as (c :: cs)) Ws.afterClose)] =
        itemStep ([], Node.elem n as (joinText [] (Item.txt (cb anc (Node.elem n as (c :: cs)) Ws.afterOpen) ::
          xmlItemsList cb (n :: anc) (c :: cs) ++ [Item.txt (cb anc (Node.elem n as (c :: cs)) Ws.beforeClose)])) ::
          flushRev q.1 q.2) (Item.txt (cb anc (Node.elem n as (c :: cs)) Ws.afterClose)) := by
        rw [List.foldl_cons, hA]; rfl
      simp only [List.cons_append] at hf ⊢
      rw [hf]

/-! ### Whole documents -/

theorem saveText_newline (cb : SaveCb) (anc : List Bytes) (t : Node) :
    ∃ w : Bytes, (w = [] ∨ w = [10]) ∧ saveText cb anc t = writeNode cb anc t ++ w := by
  unfold saveText
  split
  · exact ⟨[10], .inr rfl, rfl⟩
  · exact ⟨[], .inl rfl, rfl⟩

theorem newline_white {w : Bytes} (h : w = [] ∨ w = [10]) : ∀ c ∈ w, c = 32 ∨ c = 9 ∨ c = 10 ∨ c = 13 := by
  rcases h with rfl | rfl <;> simp

/-- The result when only white space is left to read after the root element. -/
theorem end_root {dec} (hd : GoodDec dec) (n : Node) (opq : Bool) {w : Bytes}
    (hw : ∀ c ∈ w, c = 32 ∨ c = 9 ∨ c = 10 ∨ c = 13) :
    (run (feed dec ⟨.main [], [], some n, opq⟩ w) [none, none, none]).result = some n := by
  cases opq with
  | true =>
    have := feed_white hd hw ⟨.main [], [], some n, true⟩ rfl [] []
    rw [List.append_nil] at this
    rw [this, feed_nil hd]
    rfl
  | false =>
    have := feed_white_out hd hw ⟨.main [], [], some n, false⟩ rfl []
    rw [List.append_nil] at this
    rw [this, feed_nil hd]
    rfl

/-- A document whose root is a plain element is read back, white space included. -/
theorem load_elem {dec} (hd : GoodDec dec) {cb : SaveCb} (hcb : WhiteCb cb) (anc : List Bytes)
    {n : Bytes} {as : List (Bytes × Option Bytes)} {cs : List Node} (hn : PlainName n) (has : CleanAttrs as)
    (hcs : ∀ c ∈ cs, CleanTree c) :
    loadData (dec (saveText cb anc (.elem n as cs))) = some (withWhite cb anc (.elem n as cs)) := by
  obtain ⟨w, hw, e⟩ := saveText_newline cb anc (.elem n as cs)
  have hw' := newline_white hw
  unfold loadData
  change (run (feed dec PS.init _) _).result = _
  rw [e]
  have hlt : step PS.init (some 60) = { PS.init with pc := .name [] } := by
    simp [step, PS.init, PS.flush]
  cases cs with
  | nil =>
    rw [writeNode, isDirective_plain hn, withWhite]
    simp only [Bool.false_eq_true, if_false, List.append_assoc, List.cons_append, List.nil_append]
    have h0 := feed_white_out hd (hcb anc (.elem n as []) .beforeOpen) PS.init rfl
      (60 :: (writeOpenName n ++ (as.flatMap writeAttr ++ (32 :: 47 :: 62 ::
        (cb anc (.elem n as []) .afterOpen ++ w)))))
    erw [h0]
    rw [feed_byte hd (by decide), show (60 : UInt8).toNat = 60 from rfl]
    erw [hlt]
    rw [feed_empty hd (s := PS.init) rfl hn has]
    exact end_root hd (.elem n as []) false (by
      intro c hc
      rcases List.mem_append.mp hc with h | h
      · exact hcb _ _ _ c h
      · exact hw' c h)
  | cons c cs =>
    rw [writeNode, isDirective_plain hn, withWhite, writeString_plain hn.2]
    simp only [Bool.false_eq_true, if_false, List.append_assoc, List.cons_append, List.nil_append]
    have h0 := feed_white_out hd (hcb anc (.elem n as (c :: cs)) .beforeOpen) PS.init rfl
      (60 :: (writeOpenName n ++ (as.flatMap writeAttr ++ (62 ::
        (cb anc (.elem n as (c :: cs)) .afterOpen ++ (writeNodes cb (n :: anc) (c :: cs) ++
          (cb anc (.elem n as (c :: cs)) .beforeClose ++ (60 :: 47 :: (n ++ 62 ::
            (cb anc (.elem n as (c :: cs)) .afterClose ++ w))))))))))
    erw [h0]
    rw [feed_byte hd (by decide), show (60 : UInt8).toNat = 60 from rfl]
    erw [hlt]
    rw [feed_open hd (s := PS.init) rfl hn has]
    have h1 := feed_body hd hcb hn as (fun x hx => reads_node hd hcb (hcs x hx)) anc
      (.elem n as (c :: cs)) [] none (cb anc (.elem n as (c :: cs)) .afterClose ++ w)
    erw [h1]
    have hpop : ∀ L : List Node, ({ content ([], L) n as [] none with pc := .name [] } : PS).pop =
          ⟨.main [], [], some (.elem n as L.reverse), true⟩ := by
        intro L; rfl
    rw [hpop, List.reverse_reverse]
    have h2 := end_root hd (.elem n as (joinText [] (.txt (cb anc (.elem n as (c :: cs)) .afterOpen) ::
      xmlItemsList cb (n :: anc) (c :: cs) ++ [.txt (cb anc (.elem n as (c :: cs)) .beforeClose)]))) true
      (w := cb anc (.elem n as (c :: cs)) .afterClose ++ w) (by
      intro c hc
      rcases List.mem_append.mp hc with h | h
      · exact hcb _ _ _ c h
      · exact hw' c h)
    simp only [List.cons_append] at h2
    simpa using h2

theorem run_decl : run { PS.init with pc := .name [] } ((xmlDecl ++ [62]).map fun b : UInt8 => some b.toNat) =
    content ([], []) xmlDecl [] [] none := rfl

/-- Reading a content list up to the end of the input: what follows the last element is dropped. -/
theorem end_content {dec} (hd : GoodDec dec) (p : Bytes × List Node) (n : Bytes) (as : List (Bytes × Option Bytes)) {w : Bytes}
    (hw : ∀ c ∈ w, c = 32 ∨ c = 9 ∨ c = 10 ∨ c = 13) :
    (run (feed dec (content p n as [] none) w) [none, none, none]).result = some (.elem n as p.2.reverse) := by
  have := feed_content_white hd hw p n as [] none []
  rw [List.append_nil] at this
  rw [this, feed_nil hd]
  rfl

/-- A document with an XML declaration and one plain element is read back, white space included. -/
theorem load_document {dec} (hd : GoodDec dec) {cb : SaveCb} (hcb : WhiteCb cb)
    {n : Bytes} {as : List (Bytes × Option Bytes)} {cs : List Node} (hn : PlainName n) (has : CleanAttrs as)
    (hcs : ∀ c ∈ cs, CleanTree c) :
    ∃ A : Bytes, (∀ c ∈ A, c = 32 ∨ c = 9 ∨ c = 10 ∨ c = 13) ∧
    loadData (dec (saveText cb [] (Node.newXML.addChild (.elem n as cs)))) =
      some (.elem xmlDecl [] ((if A = [] then [] else [.text A]) ++ [withWhite cb [xmlDecl] (.elem n as cs)])) := by
  have hdoc : Node.newXML.addChild (.elem n as cs) = .elem xmlDecl [] [.elem n as cs] := rfl
  rw [hdoc]
  obtain ⟨w, hw, e⟩ := saveText_newline cb [] (.elem xmlDecl [] [.elem n as cs])
  have hw' := newline_white hw
  generalize hD : Node.elem xmlDecl [] [.elem n as cs] = D at *
  refine ⟨cb [] D .afterOpen ++ cb [xmlDecl] (.elem n as cs) .beforeOpen, ?_, ?_⟩
  · intro c hc
    rcases List.mem_append.mp hc with h | h
    · exact hcb _ _ _ c h
    · exact hcb _ _ _ c h
  unfold loadData
  change (run (feed dec PS.init _) _).result = _
  rw [e]
  have hlt : step PS.init (some 60) = { PS.init with pc := .name [] } := by
    simp [step, PS.init, PS.flush]
  have hwr : writeNode cb [] D = cb [] D .beforeOpen ++ (60 :: ((xmlDecl ++ [62]) ++ (cb [] D .afterOpen ++
      writeNode cb [xmlDecl] (.elem n as cs)))) := by
    rw [← hD, writeNode, writeNodes, writeNodes]
    have h1 : writeOpenName xmlDecl = xmlDecl := by decide
    have h2 : isDirective xmlDecl = true := by decide
    simp [h1, h2]
  have h0 := feed_white_out hd (hcb [] D .beforeOpen) PS.init rfl
      (60 :: ((xmlDecl ++ [62]) ++ (cb [] D .afterOpen ++ (writeNode cb [xmlDecl] (.elem n as cs) ++ w))))
  rw [hwr]
  simp only [List.append_assoc, List.cons_append, List.nil_append] at h0 ⊢
  erw [h0]
  rw [feed_byte hd (by decide), show (60 : UInt8).toNat = 60 from rfl]
  erw [hlt]
  have h1 := ascii_lit hd (w := xmlDecl ++ [62]) (by decide) { PS.init with pc := .name [] }
    (cb [] D .afterOpen ++ (writeNode cb [xmlDecl] (.elem n as cs) ++ w))
  rw [run_decl] at h1
  simp only [List.append_assoc, List.cons_append, List.nil_append] at h1
  rw [h1, feed_content_white hd (hcb _ _ _), reads_node hd hcb (CleanTree.elem hn has hcs), end_content hd _ _ _ hw']
  have hit : ∃ B : Bytes, xmlItems cb [xmlDecl] (.elem n as cs) = [.txt (cb [xmlDecl] (.elem n as cs) .beforeOpen),
      .el (withWhite cb [xmlDecl] (.elem n as cs)), .txt B] := by
    cases cs with
    | nil => exact ⟨_, by rw [xmlItems, withWhite]⟩
    | cons c cs => exact ⟨_, by rw [xmlItems, withWhite]⟩
  obtain ⟨B, hB⟩ := hit
  rw [hB]
  simp only [List.foldl_cons, List.foldl_nil, itemStep, List.nil_append, flushRev]
  split <;> simp

end Afs.Xml
