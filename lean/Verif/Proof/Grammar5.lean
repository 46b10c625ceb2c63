import Verif.Proof.Grammar4
import Verif.Proof.XmlDoc
/-!
# Characters of documents; documents have one root
-/
namespace Afs.Xml
open Afs Afs.Spec Afs.Spec.Grammar

/-! ### UTF-8 -/

theorem utf8File_inj {a b : List Char} (h : utf8File a = utf8File b) : a = b := by
  apply String.ofList_injective
  apply String.toByteArray_inj.mp
  rw [String.bytes_ofList, String.bytes_ofList]
  unfold List.utf8Encode
  exact congrArg _ h

/-! ### All characters of a document are XML characters -/

theorem all_append {a b : List Char} (ha : ∀ c ∈ a, XmlChar c) (hb : ∀ c ∈ b, XmlChar c) : ∀ c ∈ a ++ b, XmlChar c := by
  intro c hc
  rcases List.mem_append.mp hc with h | h
  · exact ha c h
  · exact hb c h

theorem spaces_xml {w : List Char} (h : Spaces w) : ∀ c ∈ w, XmlChar c := fun c hc => (spaces_Data h c hc).1

theorem ref_xml {r : List Char} {c : Char} (h : Reference r c) : ∀ x ∈ r, XmlChar x := by
  cases h with
  | amp => decide
  | lt => decide
  | gt => decide
  | quot => decide
  | apos => decide
  | dec _ _ hd _ _ =>
    refine all_append (all_append (by decide) fun x hx => ?_) (by decide)
    have := hd x hx; unfold Decimal at this; unfold XmlChar; omega
  | hex _ _ hd _ _ =>
    refine all_append (all_append (by decide) fun x hx => ?_) (by decide)
    have := hd x hx; unfold Hexadecimal at this; unfold XmlChar; omega

theorem attSrc_xml {q : Char} {t v : List Char} (h : AttText q t v) : ∀ c ∈ t, XmlChar c := by
  induction h with
  | nil => simp
  | char h1 _ _ _ _ ih => intro c hc; rcases List.mem_cons.mp hc with rfl | hc; exact h1; exact ih c hc
  | ref h1 _ ih => exact all_append (ref_xml h1) ih

theorem name_xml {n : List Char} (h : Name n) : ∀ c ∈ n, XmlChar c := fun c hc => nameChar_xml ((name_chars h).2 c hc)

theorem quote_xml {q : Char} (h : q = '"' ∨ q = '\'') : ∀ c ∈ [q], XmlChar c := by
  rcases h with rfl | rfl <;> decide

theorem attributes_xml {t : List Char} {as} (h : Attributes t as) : ∀ c ∈ t, XmlChar c := by
  induction h with
  | nil => simp
  | cons _ h1 h2 h3 h4 h5 h6 _ ih =>
    exact all_append (all_append (all_append (all_append (all_append (all_append (all_append (all_append (spaces_xml h1) (name_xml h2))
      (spaces_xml h3)) (by decide)) (spaces_xml h4)) (quote_xml h5)) (attSrc_xml h6)) (quote_xml h5)) ih

theorem body_xml {t n : List Char} {as} (h : TagBody t n as) : ∀ c ∈ t, XmlChar c := by
  obtain ⟨h1, h2, _, h4⟩ := h
  exact all_append (all_append (name_xml h1) (attributes_xml h2)) (spaces_xml h4)

theorem start_xml {t n : List Char} {as} (h : StartTag t n as) : ∀ c ∈ t, XmlChar c := by
  obtain ⟨b, hb, rfl⟩ := h
  exact all_append (all_append (by decide) (body_xml hb)) (by decide)

theorem empty_xml {t n : List Char} {as} (h : EmptyTag t n as) : ∀ c ∈ t, XmlChar c := by
  obtain ⟨b, hb, rfl⟩ := h
  exact all_append (all_append (by decide) (body_xml hb)) (by decide)

theorem end_xml {t n : List Char} (hn : Name n) (h : EndTag t n) : ∀ c ∈ t, XmlChar c := by
  obtain ⟨w, hw, rfl⟩ := h
  exact all_append (all_append (all_append (by decide) (name_xml hn)) (spaces_xml hw)) (by decide)

theorem cdata_xml {t d : List Char} (h : CData t d) : ∀ c ∈ t, XmlChar c := by
  obtain ⟨h1, _, rfl⟩ := h
  exact all_append (all_append (by decide) h1) (by decide)

theorem comment_xml {t d : List Char} (h : Comment t d) : ∀ c ∈ t, XmlChar c := by
  obtain ⟨h1, _, _, _, rfl⟩ := h
  exact all_append (all_append (by decide) h1) (by decide)

theorem pi_xml {t d : List Char} (h : PI t d) : ∀ c ∈ t, XmlChar c := by
  obtain ⟨_, h1, _, rfl⟩ := h
  exact all_append (all_append (by decide) h1) (by decide)

theorem data_xml {d : List Char} (h : CharData d) : ∀ c ∈ d, XmlChar c := fun c hc => (h.1 c hc).1

theorem content_xml {t : List Char} {l : List Item} (h : Content t l) : ∀ c ∈ t, XmlChar c := by
  induction h with
  | data h => exact data_xml h
  | ref h1 h2 _ ih => exact all_append (all_append (data_xml h1) (ref_xml h2)) ih
  | cdata h1 h2 _ ih => exact all_append (all_append (data_xml h1) (cdata_xml h2)) ih
  | comment h1 h2 _ ih => exact all_append (all_append (data_xml h1) (comment_xml h2)) ih
  | pi h1 h2 _ ih => exact all_append (all_append (data_xml h1) (pi_xml h2)) ih
  | empty h1 h2 _ ih => exact all_append (all_append (data_xml h1) (empty_xml h2)) ih
  | elem h1 h2 _ h4 _ ih1 ih2 =>
    exact all_append (all_append (all_append (all_append (data_xml h1) (start_xml h2)) ih1) (end_xml (tag_name h2) h4)) ih2

theorem element_xml {t : List Char} {n : Node} (h : Element t n) : ∀ c ∈ t, XmlChar c := by
  cases h with
  | empty h => exact empty_xml h
  | full h1 h2 h3 => exact all_append (all_append (start_xml h1) (content_xml h2)) (end_xml (tag_name h1) h3)

theorem misc_xml {t : List Char} {l : List Item} (h : Misc t l) : ∀ c ∈ t, XmlChar c := by
  induction h with
  | nil => simp
  | comment h1 h2 _ ih => exact all_append (all_append (spaces_xml h1) (comment_xml h2)) ih
  | pi h1 h2 _ ih => exact all_append (all_append (spaces_xml h1) (pi_xml h2)) ih

theorem document_xml {t : List Char} {v : Node} (h : Document t v) : ∀ c ∈ t, XmlChar c := by
  cases h with
  | declared h1 h2 h3 h4 h5 h6 =>
    exact all_append (all_append (all_append (all_append (all_append (all_append (all_append (by decide) fun c hc => (decl_mem h1 c hc).1)
      (by decide)) (misc_xml h2)) (spaces_xml h3)) (element_xml h4)) (misc_xml h5)) (spaces_xml h6)
  | bare h1 h2 h3 => exact all_append (all_append (spaces_xml h1) (element_xml h2)) (spaces_xml h3)

/-- Documents without U+FEFF are read. -/
theorem load_doc {dec} (hd : GoodDec dec) {t : List Char} {v : Node} (h : Document t v) (hf : Char.ofNat 0xFEFF ∉ t) :
    (∀ c ∈ t, Allowed c) ∧ loadData (dec (utf8File t)) = some v := by
  have ha : ∀ c ∈ t, Allowed c := by
    intro c hc
    refine ⟨xmlChar_ok (document_xml h c hc), fun e => hf ?_⟩
    have : c = Char.ofNat 0xFEFF := char_eq (by rw [e]; rfl)
    rwa [← this]
  refine ⟨ha, ?_⟩
  unfold loadData
  rw [dec_text hd t ha]
  exact R_document h

/-! ### Clean output -/

theorem white_clean {w : Bytes} (h : ∀ b ∈ w, b = 32 ∨ b = 9 ∨ b = 10 ∨ b = 13) : CleanText w :=
  clean_ascii fun b hb => white_ok (h b hb)

theorem alnum_clean {n : Bytes} (h : PlainName n) : CleanText n := clean_ascii fun b hb => alnum_okByte (h.2 b hb)

theorem attrs_clean : ∀ {as : List (Bytes × Option Bytes)}, (∀ a ∈ as, PlainName a.1 ∧ ∃ v, a.2 = some v ∧ CleanText v) →
    CleanText (as.flatMap writeAttr)
  | [], _ => clean_nil
  | (n, v) :: as, h => by
    obtain ⟨hn, v, rfl, hv⟩ := h (n, v) (by simp)
    dsimp only at hn
    rw [List.flatMap_cons]
    refine clean_append ?_ (attrs_clean (as := as) fun a ha => h a (by simp [ha]))
    unfold writeAttr
    rw [writeName_plain hn.2]
    exact clean_append (clean_append (clean_ascii (by decide)) (alnum_clean hn))
      (clean_append (clean_append (clean_ascii (by decide)) (writeString_clean hv)) (clean_ascii (by decide)))

theorem nodes_clean {cb : SaveCb} : ∀ {cs : List Node}, (∀ c ∈ cs, ∀ anc, CleanText (writeNode cb anc c)) → ∀ anc, CleanText (writeNodes cb anc cs)
  | [], _, anc => by rw [writeNodes]; exact clean_nil
  | c :: cs, h, anc => by
    rw [writeNodes]
    exact clean_append (h c (by simp) anc) (nodes_clean (fun x hx => h x (by simp [hx])) anc)

theorem node_clean {cb : SaveCb} (hcb : WhiteCb cb) {t : Node} (ht : CleanTree t) : ∀ anc, CleanText (writeNode cb anc t) := by
  induction ht with
  | text hs => intro anc; rw [writeNode]; exact writeString_clean hs
  | @cdata d hd =>
    intro anc
    have hdir : isDirective (Node.cdataOpen ++ d ++ Node.cdataClose) = true := by simp [isDirective, Node.cdataOpen]
    have hopen : writeOpenName (Node.cdataOpen ++ d ++ Node.cdataClose) = Node.cdataOpen ++ d ++ Node.cdataClose := by
      unfold writeOpenName
      rw [if_pos]
      right; right
      simp [Node.cdataOpen]
    unfold Node.newCDATA
    rw [writeNode, hdir, hopen]
    refine clean_append (clean_append (clean_append (clean_append (clean_append (white_clean (hcb _ _ _)) (clean_ascii (by decide)))
      (clean_append (clean_append (clean_ascii (by decide)) hd.1) (clean_ascii (by decide)))) (attrs_clean (by simp)))
      (clean_ascii (by decide))) (white_clean (hcb _ _ _))
  | @elem n as cs hn has hcs ih =>
    intro anc
    obtain ⟨w, _, e, _⟩ := writeNode_elem cb anc (as := as) hn cs
    rw [e]
    refine clean_append (clean_append (white_clean (hcb _ _ _)) ?_) (white_clean (hcb _ _ _))
    have h0 : CleanText ([60] ++ n ++ as.flatMap writeAttr) :=
      clean_append (clean_append (clean_ascii (by decide)) (alnum_clean hn)) (attrs_clean has.2)
    cases cs with
    | nil => exact clean_append h0 (clean_ascii (by decide))
    | cons c cs =>
      exact clean_append (clean_append (clean_append (clean_append (clean_append (clean_append (clean_append h0 (clean_ascii (by decide)))
        (white_clean (hcb _ _ _))) (nodes_clean ih _)) (white_clean (hcb _ _ _))) (clean_ascii (by decide))) (alnum_clean hn))
        (clean_ascii (by decide))

/-- Clean output without U+FFFE and U+FFFF consists of XML characters. -/
theorem clean_xml {s : List Char} (hc : CleanText (utf8File s)) (hn : NoNoncharacter (utf8File s)) : ∀ c ∈ s, XmlChar c := by
  obtain ⟨cs, ha, e⟩ := hc
  have := utf8File_inj (b := cs) e
  subst this
  intro c hc
  have hA := ha c hc
  have hlt := char_lt c
  have hv : c.toNat < 0xD800 ∨ 0xDFFF < c.toNat := by
    rcases c.valid with h | h
    · exact .inl h
    · exact .inr h.1
  have h1 : c.toNat ≠ 0xFFFE := by
    intro h
    obtain ⟨a, b, rfl⟩ := List.append_of_mem hc
    apply hn.1
    refine ⟨utf8File a, utf8File b, ?_⟩
    rw [utf8_append, utf8_cons, ← addChar_eq, h, List.append_assoc]
    rfl
  have h2 : c.toNat ≠ 0xFFFF := by
    intro h
    obtain ⟨a, b, rfl⟩ := List.append_of_mem hc
    apply hn.2
    refine ⟨utf8File a, utf8File b, ?_⟩
    rw [utf8_append, utf8_cons, ← addChar_eq, h, List.append_assoc]
    rfl
  unfold Allowed at hA
  unfold XmlChar
  omega

theorem clean_split {n : Bytes} {as : List (Bytes × Option Bytes)} {cs : List Node} (hn : PlainName n) (h : Savable (.elem n as cs)) :
    CleanAttrs as ∧ ∀ c ∈ cs, CleanTree c := by
  have hc := h.clean
  generalize ht : Node.elem n as cs = t at hc
  cases hc with
  | text _ => cases ht
  | cdata _ =>
    unfold Node.newCDATA at ht
    injection ht with h1 _ _
    have := hn.2 33 (by rw [h1]; simp [Node.cdataOpen])
    exact absurd this (by decide)
  | elem hn' has hcs => cases ht; exact ⟨has, hcs⟩

theorem save_clean {cb : SaveCb} (hcb : WhiteCb cb) (anc : List Bytes) {t : Node} (ht : CleanTree t) : CleanText (saveText cb anc t) := by
  obtain ⟨z, hz, ez⟩ := saveText_newline cb anc t
  rw [ez]
  exact clean_append (node_clean hcb ht anc) (white_clean (newline_white hz))

theorem save_docs_clean {cb : SaveCb} (hcb : WhiteCb cb) {ts : List Node} (hne : ts ≠ []) (ht : ∀ t ∈ ts, CleanTree t) :
    CleanText (saveText cb [] (.elem xmlDecl [] ts)) := by
  obtain ⟨z, hz, ez⟩ := saveText_newline cb [] (.elem xmlDecl [] ts)
  rw [ez]
  refine clean_append ?_ (white_clean (newline_white hz))
  cases ts with
  | nil => exact absurd rfl hne
  | cons t ts =>
    rw [writeNode]
    have h1 : writeOpenName xmlDecl = xmlDecl := by decide
    have h2 : isDirective xmlDecl = true := by decide
    rw [h1, h2]
    simp only [List.flatMap_nil, List.append_nil, if_true]
    exact clean_append (clean_append (clean_append (clean_append (clean_append (white_clean (hcb _ _ _)) (clean_ascii (by decide)))
      (clean_ascii (by decide))) (clean_ascii (by decide))) (white_clean (hcb _ _ _)))
      (nodes_clean (fun c hc => node_clean hcb (ht c hc)) _)

/-- A saved element is a document. -/
theorem wellFormed_bare {cb : SaveCb} (hcb : WhiteCb cb) (anc : List Bytes) {n : Bytes} {as cs} (hn : PlainName n)
    (h : Savable (.elem n as cs)) (hx : NoNoncharacter (saveText cb anc (.elem n as cs))) : WellFormed (saveText cb anc (.elem n as cs)) := by
  obtain ⟨has, hcs⟩ := clean_split hn h
  obtain ⟨s, e, hd⟩ := out_bare hcb anc hn has hcs
  have hc := save_clean hcb anc h.clean
  rw [e] at hc hx
  exact ⟨s, _, e, hd (clean_xml hc hx)⟩

/-- A saved document is a document. -/
theorem wellFormed_doc {cb : SaveCb} (hcb : WhiteCb cb) {n : Bytes} {as cs} (hn : PlainName n) (h : Savable (.elem n as cs))
    (hb : cb [] (Node.newXML.addChild (.elem n as cs)) .beforeOpen = [])
    (hx : NoNoncharacter (saveText cb [] (Node.newXML.addChild (.elem n as cs)))) :
    WellFormed (saveText cb [] (Node.newXML.addChild (.elem n as cs))) := by
  obtain ⟨has, hcs⟩ := clean_split hn h
  obtain ⟨s, v, e, hd⟩ := out_doc hcb hn has hcs hb
  have hc : CleanText (saveText cb [] (Node.newXML.addChild (.elem n as cs))) :=
    save_docs_clean hcb (by simp) (by intro t ht; simp at ht; subst ht; exact h.clean)
  rw [e] at hc hx
  exact ⟨s, v, e, hd (clean_xml hc hx)⟩

/-! ### One root -/

/-- Comments and processing instructions have such names. -/
def isRaw : Node → Bool
  | .elem n _ _ => n.head? == some 33 || n.head? == some 63
  | .text _ => true

theorem joinText_raw (p : Bytes) (l : List Item) : (joinText p l).filter (fun x => !isRaw x) =
    (itemEls l).filter fun x => !isRaw x := by
  induction l generalizing p with
  | nil => unfold joinText; split <;> rfl
  | cons i l ih =>
    cases i with
    | txt s => rw [joinText, ih]; rfl
    | el n =>
      rw [joinText, List.filter_append, itemEls, List.filter_cons, List.filter_cons, ih]
      split <;> rfl

theorem misc_raw {t : List Char} {l : List Item} (h : Misc t l) :
    (itemEls l).filter (fun x => !isRaw x) = [] := by
  induction h with
  | nil => rfl
  | comment _ _ _ ih =>
    rw [itemEls, itemEls, List.filter_cons_of_neg, ih]
    simp only [rawNode, isRaw]
    rw [List.append_assoc, utf8_append, show utf8File "!--".toList = (b! "!--") from by decide +kernel]
    simp
  | pi _ _ _ ih =>
    rw [itemEls, itemEls, List.filter_cons_of_neg, ih]
    simp only [rawNode, isRaw]
    rw [List.append_assoc, utf8_append, show utf8File "?".toList = [63] from by decide +kernel]
    simp

theorem name_not_raw {n : List Char} (h : Name n) : ((utf8File n).head? == some 33 || (utf8File n).head? == some 63) = false := by
  obtain ⟨_, _, _, h4, h5, _⟩ := name_plainHead h
  simp [h4, h5]

theorem element_tag {t : List Char} {x : Node} (h : Element t x) : ∃ n as cs, Name n ∧ x = tagNode n as cs := by
  cases h with
  | empty h => obtain ⟨_, hb, _⟩ := h; cases hb; exact ⟨_, _, _, by assumption, rfl⟩
  | full h1 h2 h3 => exact ⟨_, _, _, tag_name h1, rfl⟩

/-- With a declaration there is exactly one element among the children; without, the tree is it. -/
theorem one_root {s : List Char} {v : Node} (h : Document s v) :
    (isRaw v = true ∧ (v.children.filter fun x => !isRaw x).length = 1) ∨ isRaw v = false := by
  cases h with
  | @declared d m w e m' w' is is' n h1 h2 h3 h4 h5 h6 =>
    left
    constructor
    · simp only [isRaw]
      rw [List.append_assoc, utf8_append, show utf8File "?".toList = [63] from by decide +kernel]
      simp
    · simp only [Node.children]
      rw [joinText_raw, itemEls_append, itemEls_append, List.filter_append, List.filter_append, misc_raw h2, misc_raw h5, itemEls, itemEls]
      obtain ⟨nm, as, cs, hn, rfl⟩ := element_tag h4
      simp only [itemEls]
      rw [List.filter_cons_of_pos]
      · rfl
      · simp only [tagNode, isRaw, name_not_raw hn]; rfl
  | bare h1 h2 h3 =>
    right
    obtain ⟨nm, as, cs, hn, rfl⟩ := element_tag h2
    simp only [tagNode, isRaw]
    exact name_not_raw hn

end Afs.Xml
