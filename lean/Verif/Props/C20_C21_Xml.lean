import Verif.Proof.Save
import Verif.Proof.XmlReader
import Verif.Proof.XmlLeaf
import Verif.Proof.NodeEq
import Verif.Proof.XmlSecond
import Verif.Proof.XmlBytes
/-!
# C20: escaped text survives, C21: documents survive writing and reading, C45: saved text is complete
-/
namespace Afs
open Spec Xml

theorem whiteCb_noCb : WhiteCb noCb := by intro anc n w c hc; simp [noCb] at hc

/-! ### Written without white space, a tree in reader normal form is unchanged -/

theorem joinText_noCb (anc : List Bytes) (cs : List Node) (hna : NoAdjacentText cs)
    (h : ∀ c ∈ cs, ∀ n as ks, c = .elem n as ks → xmlItems noCb anc c = [.txt [], .el c, .txt []]) :
    ∀ p : Bytes, (p = [] ∨ ∀ t cs', cs ≠ .text t :: cs') →
      joinText p (xmlItemsList noCb anc cs ++ [.txt []]) = (if p = [] then [] else [.text p]) ++ cs := by
  induction cs with
  | nil => intro p _; rw [xmlItemsList]; simp [joinText]
  | cons c cs ih =>
    intro p hp
    cases c with
    | text s =>
      have hp0 : p = [] := by
        rcases hp with hp | hp
        · exact hp
        · exact absurd rfl (hp s cs)
      subst hp0
      obtain ⟨h1, h2, h3⟩ := hna
      rw [xmlItemsList, xmlItems, List.append_assoc, List.singleton_append, joinText, List.nil_append,
        ih h3 (fun c hc => h c (by simp [hc])) s (.inr h2)]
      simp [h1]
    | elem n as ks =>
      have hh := h (.elem n as ks) (by simp) n as ks rfl
      rw [xmlItemsList, hh]
      simp only [List.cons_append, List.nil_append, joinText, List.append_nil]
      rw [ih hna (fun c hc => h c (by simp [hc])) [] (.inl rfl)]
      simp

theorem normal_items {t : Node} (ht : NormalTree t) :
    ∀ anc n as ks, t = .elem n as ks → xmlItems noCb anc t = [.txt [], .el t, .txt []] := by
  induction ht with
  | text => intro anc n as ks h; cases h
  | @elem n as cs hna _ ih =>
    intro anc m bs ks h
    cases cs with
    | nil => rw [xmlItems]; rfl
    | cons c cs =>
      have := joinText_noCb (n :: anc) (c :: cs) hna (fun x hx n' as' ks' e => ih x hx (n :: anc) n' as' ks' e) [] (.inl rfl)
      rw [xmlItems]
      simp only [noCb, List.cons_append, joinText, List.append_nil]
      rw [this]
      simp

theorem withWhite_noCb {t : Node} (ht : NormalTree t) (anc : List Bytes) : withWhite noCb anc t = t := by
  cases ht with
  | text => rw [withWhite]
  | @elem n as cs hna hcs =>
    cases cs with
    | nil => rw [withWhite]
    | cons c cs =>
      have := joinText_noCb (n :: anc) (c :: cs) hna
        (fun x hx n' as' ks' e => normal_items (hcs x hx) (n :: anc) n' as' ks' e) [] (.inl rfl)
      rw [withWhite]
      simp only [noCb, List.cons_append, joinText, List.append_nil]
      rw [this]
      simp

/-! ### C21 -/

/-- A clean tree with a plain root element, written with any white-space callback, is read back
    as the same tree with the callback's white space as text, by the string and the file reader. -/
theorem C21_roundtrip (cb : SaveCb) (hcb : WhiteCb cb) (anc : List Bytes) (n : Bytes)
    (as : List (Bytes × Option Bytes)) (cs : List Node) (hn : PlainName n) (hc : CleanTree (.elem n as cs)) :
    loadString (saveText cb anc (.elem n as cs)) = some (withWhite cb anc (.elem n as cs)) ∧
    loadFile (saveText cb anc (.elem n as cs)) = some (withWhite cb anc (.elem n as cs)) := by
  generalize ht : Node.elem n as cs = t at hc
  cases hc with
  | text _ => cases ht
  | cdata _ =>
    unfold Node.newCDATA at ht
    injection ht with h1 _ _
    have := hn.2 33 (by rw [h1]; simp [Node.cdataOpen])
    exact absurd this (by decide)
  | elem hn' has hcs =>
    cases ht
    exact ⟨load_elem good_decode hcb anc hn has hcs, load_elem good_decodeFile hcb anc hn has hcs⟩

/-- Without white space nothing changes at all. -/
theorem C21_roundtrip_exact (anc : List Bytes) (n : Bytes)
    (as : List (Bytes × Option Bytes)) (cs : List Node) (hn : PlainName n) (hc : CleanTree (.elem n as cs))
    (hnorm : NormalTree (.elem n as cs)) :
    loadString (saveText noCb anc (.elem n as cs)) = some (.elem n as cs) ∧
    loadFile (saveText noCb anc (.elem n as cs)) = some (.elem n as cs) := by
  have := C21_roundtrip noCb whiteCb_noCb anc n as cs hn hc
  rwa [withWhite_noCb hnorm] at this

/-- The same for a document with an XML declaration: the element is the only element child of the
    declaration node, possibly after white space. -/
theorem C21_roundtrip_document (cb : SaveCb) (hcb : WhiteCb cb) (n : Bytes)
    (as : List (Bytes × Option Bytes)) (cs : List Node) (hn : PlainName n) (has : CleanAttrs as)
    (hcs : ∀ c ∈ cs, CleanTree c) :
    (∃ A : Bytes, (∀ c ∈ A, c = 32 ∨ c = 9 ∨ c = 10 ∨ c = 13) ∧
      loadString (saveText cb [] (Node.newXML.addChild (.elem n as cs))) =
        some (.elem xmlDecl [] ((if A = [] then [] else [.text A]) ++ [withWhite cb [xmlDecl] (.elem n as cs)]))) ∧
    (∃ A : Bytes, (∀ c ∈ A, c = 32 ∨ c = 9 ∨ c = 10 ∨ c = 13) ∧
      loadFile (saveText cb [] (Node.newXML.addChild (.elem n as cs))) =
        some (.elem xmlDecl [] ((if A = [] then [] else [.text A]) ++ [withWhite cb [xmlDecl] (.elem n as cs)]))) :=
  ⟨load_document good_decode hcb hn has hcs, load_document good_decodeFile hcb hn has hcs⟩

/-- Whatever bytes are read, a delivered tree has an element as root, no element has two attributes
    of one name or an attribute without value, no text node is empty and no two texts follow each
    other: documents with repeated attributes are refused. -/
theorem C21_reader_normal_form (s : Bytes) (t : Node) (h : loadString s = some t ∨ loadFile s = some t) :
    ReaderTree t ∧ ∃ n as cs, t = .elem n as cs := by
  rcases h with h | h
  · exact loadData_good h
  · exact loadData_good h

/-- In every tree that is read, comments, CDATA sections, processing instructions and declarations have neither attributes nor
    children — except one at the very beginning of the document, which contains the rest. -/
theorem C21_special_nodes_are_leaves (s : Bytes) (t : Node) (h : loadString s = some t ∨ loadFile s = some t) : LeafDoc t := by
  rcases h with h | h
  · exact loadData_leaf h
  · exact loadData_leaf h

set_option maxRecDepth 100000 in
/-- The exception occurs, for a declaration of the document type too. -/
theorem C21_leading_declaration_contains_the_rest :
    loadString (b! "<!DOCTYPE a><!-- b --><a>t<?p?></a>") =
      some (.elem (b! "!DOCTYPE a") [] [.elem (b! "!-- b --") [] [], .elem (b! "a") [] [.text (b! "t"), .elem (b! "?p?") [] []]]) ∧
    ¬ LeafTree (.elem (b! "!DOCTYPE a") [] [.text []]) := by
  refine ⟨by decide +kernel, ?_⟩
  intro h
  cases h with
  | elem h _ => exact absurd (h (.inl (by decide +kernel))).2 (by simp)

/-- Something is read, a repeated attribute is refused. -/
example : loadString (b! "<a x=\"1\" y=\"2\">t</a>") =
      some (.elem (b! "a") [(b! "x", some (b! "1")), (b! "y", some (b! "2"))] [.text (b! "t")]) ∧
    loadString (b! "<a x=\"1\" x=\"2\"/>") = none := ⟨rfl, rfl⟩

/-- Whatever bytes are read – raw or as character references – a delivered tree contains no
    control character in any text or element name, and no NUL anywhere: what the library
    copies into C strings is never cut short.  In an attribute name or value only the very
    first byte can be a control character. -/
theorem C21_no_control_characters (s : Bytes) (t : Node) (h : loadString s = some t ∨ loadFile s = some t) :
    PrintableTree t := by
  rcases h with h | h
  · exact loadData_print (decode_PN s) h
  · exact loadData_print (decodeFile_PN s) h

/-- Character references are read, those of control characters are refused. -/
example : loadString (b! "<a>x&#65;&#x42;&#10;</a>") = some (.elem (b! "a") [] [.text (b! "xAB\n")]) ∧
    loadString (b! "<a>x&#1;</a>") = none ∧ loadString (b! "<a>x&#x1F;</a>") = none := ⟨rfl, rfl, rfl⟩

/-- The first byte of an unquoted value can indeed become a control character, or vanish
    together with the rest of the value: `x=ā` is read as the byte 1 and `x=Āb` as the
    empty string (mxml-file.c:2282 stores the low byte of the character). -/
theorem C21_unquoted_value_garbled :
    loadString (b! "<a x=ā />") = some (.elem (b! "a") [(b! "x", some [1])] []) ∧
    loadString (b! "<a x=Āb />") = some (.elem (b! "a") [(b! "x", some [])] []) := ⟨rfl, rfl⟩

theorem writeQuoted_stops (q : UInt8) (m r : Bytes) (h : q ∉ m) : writeQuoted q (m ++ q :: r) = writeString m := by
  induction m with
  | nil => simp [writeQuoted, writeString]
  | cons c m ih =>
    have hc : c ≠ q := fun e => h (by simp [e])
    rw [List.cons_append, writeQuoted, if_neg hc, writeString, ih (fun e => h (by simp [e]))]

/-- An attribute name in quotes is written with its quotes and with markup inside escaped. -/
theorem C21_quoted_name_written (q : UInt8) (hq : q = 34 ∨ q = 39) (m : Bytes) (h : q ∉ m) :
    writeName ([q] ++ m ++ [q]) = [q] ++ writeString m ++ [q] := by
  rw [List.append_assoc, List.singleton_append, writeName, if_pos hq, writeQuoted_stops q m [] h]
  rfl

set_option maxRecDepth 100000 in
/-- The reader however refuses every such attribute: after the closing quote of the name it
    looks for `=` at the quote itself (mxml-file.c:2206, 2234-2241). -/
theorem C21_quoted_name_refused :
    saveText noCb [] (.elem (b! "a") [(b! "'x<y'", some (b! "1"))] []) = b! "<a 'x&lt;y'=\"1\" />\n" ∧
    loadString (b! "<a 'x&lt;y'=\"1\" />\n") = none ∧ loadString (b! "<a 'x' =\"1\" />\n") = none :=
  ⟨by decide, rfl, rfl⟩

/-- One document after the other is not a document: a second root element is refused. -/
theorem C21_two_roots_rejected (cb cb' : SaveCb) (hcb : WhiteCb cb) (hcb' : WhiteCb cb') (anc anc' : List Bytes)
    (n n' : Bytes) (as as' : List (Bytes × Option Bytes)) (cs cs' : List Node) (hn : PlainName n) (hn' : PlainName n')
    (has : CleanAttrs as) (hcs : ∀ c ∈ cs, CleanTree c) :
    loadString (saveText cb anc (.elem n as cs) ++ saveText cb' anc' (.elem n' as' cs')) = none ∧
    loadFile (saveText cb anc (.elem n as cs) ++ saveText cb' anc' (.elem n' as' cs')) = none :=
  ⟨load_two good_decode hcb hcb' anc anc' hn hn' has hcs, load_two good_decodeFile hcb hcb' anc anc' hn hn' has hcs⟩

example : PlainName (b! "a") ∧ PlainName (b! "b") ∧ CleanAttrs [] ∧ WhiteCb noCb :=
  ⟨by decide, by decide, cleanAttrs_nil, whiteCb_noCb⟩

/-- Non-vacuity: a tree with attributes, text with markup characters, nested and empty elements and
    CDATA. -/
def sampleTree : Node :=
  .elem (b! "file") [(b! "id", some (b! "a<\"&>b")), (b! "x1", some [])]
    [.elem (b! "name") [] [.text (b! "R&D <draft>")], .elem (b! "empty") [] [],
     .elem (b! "data") [] [Node.newCDATA (b! "<raw>&]] >")], .text (b! " tail ")]

theorem clean_lit {s : Bytes} (h : s.all okByte = true) : CleanText s := clean_ascii (by simpa using h)

example : CleanTree sampleTree ∧ NormalTree sampleTree := by
  constructor
  · refine .elem (by decide) ⟨by decide, ?_⟩ ?_
    · intro a ha
      simp only [List.mem_cons, List.not_mem_nil, or_false] at ha
      rcases ha with rfl | rfl
      · exact ⟨by decide, _, rfl, clean_lit (by decide)⟩
      · exact ⟨by decide, _, rfl, clean_lit (by decide)⟩
    · intro c hc
      simp only [List.mem_cons, List.not_mem_nil, or_false] at hc
      rcases hc with rfl | rfl | rfl | rfl
      · refine .elem (by decide) ⟨by decide, by simp⟩ ?_
        intro c hc
        simp only [List.mem_singleton] at hc
        subst hc
        exact .text (clean_lit (by decide))
      · exact .elem (by decide) ⟨by decide, by simp⟩ (by simp)
      · refine .elem (by decide) ⟨by decide, by simp⟩ ?_
        intro c hc
        simp only [List.mem_singleton] at hc
        subst hc
        exact .cdata ⟨clean_lit (by decide), by decide⟩
      · exact .text (clean_lit (by decide))
  · refine .elem ?_ ?_
    · simp [NoAdjacentText]
    · intro c hc
      simp only [List.mem_cons, List.not_mem_nil, or_false] at hc
      rcases hc with rfl | rfl | rfl | rfl
      · refine .elem (by simp [NoAdjacentText]) ?_
        intro c hc
        simp only [List.mem_singleton] at hc
        subst hc
        exact .text
      · exact .elem (by simp [NoAdjacentText]) (by simp)
      · refine .elem (by simp [NoAdjacentText, Node.newCDATA]) ?_
        intro c hc
        simp only [List.mem_singleton] at hc
        subst hc
        exact .elem (by simp [NoAdjacentText]) (by simp)
      · exact .text

/-- The reader returns on every input: three `EOF` results in a row end it from any state. -/
theorem C21_reader_always_returns (l : List (Option Nat)) :
    ∃ r, (run (run PS.init l) [none, none, none]).pc = .done r := by
  generalize run PS.init l = s
  have hdone : ∀ (s : PS) r, s.pc = .done r → (step s none).pc = .done r := by
    intro s r h; simp [step, h]
  have hdone3 : ∀ (s : PS), (∃ r, s.pc = .done r) → ∃ r, (run s [none]).pc = .done r := by
    rintro s ⟨r, h⟩; exact ⟨r, hdone s r h⟩
  have hfin : ∀ s : PS, ∃ r, s.finish.pc = .done r := by
    intro s
    unfold PS.finish
    split
    · exact ⟨_, rfl⟩
    · exact ⟨_, rfl⟩
    · exact ⟨_, rfl⟩
  -- states in which one `EOF` ends the reader
  have hmain : ∀ (s : PS) b, s.pc = .main b → ∃ r, (step s none).pc = .done r := by
    intro s b h; simp only [step, h]; exact hfin s
  have hpop : ∀ s : PS, (∃ r, s.pop.pc = .done r) ∨ ∃ b, s.pop.pc = .main b := by
    intro s
    unfold PS.pop
    split
    · exact .inl ⟨_, rfl⟩
    · exact .inr ⟨_, rfl⟩
    · exact .inr ⟨_, rfl⟩
  -- after one `EOF` the state is done, or one more `EOF` ends it
  have hone : ∀ s : PS, (∃ r, (step s none).pc = .done r) ∨ ∃ r, (step (step s none) none).pc = .done r := by
    intro s
    have viaPop : ∀ t : PS, step s none = t.pop →
        (∃ r, (step s none).pc = .done r) ∨ ∃ r, (step (step s none) none).pc = .done r := by
      intro t e
      rw [e]
      rcases hpop t with h | ⟨b, h⟩
      · exact .inl h
      · exact .inr (hmain _ _ h)
    cases hpc : s.pc with
    | main b => exact .inl (hmain s b hpc)
    | name b =>
      have e : step s none = s.afterName b none := by simp [step, hpc]
      by_cases h1 : b = b! "!--"
      · right
        have : step s none = { s with pc := .comment b } := by rw [e]; simp [PS.afterName, h1]
        rw [this]; exact ⟨_, rfl⟩
      · by_cases h2 : b = Node.cdataOpen
        · right
          have : step s none = { s with pc := .cdata b } := by rw [e]; simp [PS.afterName, h2]; decide
          rw [this]; exact ⟨_, rfl⟩
        · by_cases h3 : b.head? = some 63
          · right
            have : step s none = { s with pc := .pi b } := by rw [e]; simp [PS.afterName, h1, h2, h3]
            rw [this]; exact ⟨_, rfl⟩
          · by_cases h4 : b.head? = some 33
            · right
              have : step s none = { s with pc := .decl (b ++ [255]) } := by
                rw [e]; simp [PS.afterName, h1, h2, h4, PS.declBody]
              rw [this]; exact ⟨_, rfl⟩
            · by_cases h5 : b.head? = some 47
              · cases hst : s.stack with
                | nil =>
                  left
                  have : step s none = s.error := by rw [e]; simp [PS.afterName, h1, h2, h5, hst]
                  rw [this]; exact ⟨_, rfl⟩
                | cons f fs =>
                  by_cases h6 : b.drop 1 = f.name
                  · refine viaPop s ?_
                    rw [e]; simp [PS.afterName, h1, h2, h5, hst, h6, PS.closeBody]
                  · left
                    have h6' : ¬ b.tail = f.name := by simpa using h6
                    have : step s none = s.error := by rw [e]; simp [PS.afterName, h1, h2, h5, hst, h6']
                    rw [this]; exact ⟨_, rfl⟩
              · left
                by_cases h7 : s.secondRoot = true
                · have : step s none = s.error := by rw [e]; simp [PS.afterName, h1, h2, h3, h4, h5, h7]
                  rw [this]; exact ⟨_, rfl⟩
                · have : step s none = (s.addNode (.elem b [] [])).finish := by
                    rw [e]; simp [PS.afterName, h1, h2, h3, h4, h5, h7]
                  rw [this]; exact hfin _
    | comment b => left; simp [step, hpc, PS.error]
    | cdata b => left; simp [step, hpc, PS.error]
    | pi b => left; simp [step, hpc, PS.error]
    | decl b => left; simp [step, hpc, PS.error]
    | close => refine viaPop s ?_; simp [step, hpc, PS.closeBody]
    | slash n => left; simp [step, hpc, PS.error]
    | attr e => left; simp [step, hpc, PS.error]
    | attrSlash e c => left; simp [step, hpc, PS.error]
    | qname e q an =>
      left
      simp only [step, hpc, PS.afterAttrName]
      split <;> exact ⟨_, rfl⟩
    | aname e an =>
      left
      simp only [step, hpc, PS.afterAttrName]
      split <;> exact ⟨_, rfl⟩
    | aeq e an => left; simp [step, hpc, PS.error]
    | vskip e an => left; simp [step, hpc, PS.error]
    | qval e an q av => right; simp [step, hpc, PS.afterValue, PS.error]
    | uval e an av => right; simp [step, hpc, PS.afterValue, PS.error]
    | valSlash e c => left; simp [step, hpc, PS.error]
    | ent k acc => left; simp [step, hpc, PS.error]
    | done r => left; exact ⟨r, hdone s r hpc⟩
  simp only [run, List.foldl_cons, List.foldl_nil]
  rcases hone s with ⟨r, h⟩ | ⟨r, h⟩
  · exact ⟨r, hdone _ _ (hdone _ _ h)⟩
  · exact ⟨r, hdone _ _ h⟩

/-- CDATA containing its own end mark is not written back as it was: the document breaks. -/
theorem C21_cdata_end_mark_breaks :
    loadString (saveText noCb [] (.elem (b! "d") [] [Node.newCDATA (b! "a]]>b")])) =
      some (.elem (b! "d") [] [.elem (b! "![CDATA[a]]") [] [], .text (b! "b]]>")]) ∧
    (Node.elem (b! "d") [] [.elem (b! "![CDATA[a]]") [] [], .text (b! "b]]>")]) ≠
      .elem (b! "d") [] [Node.newCDATA (b! "a]]>b")] :=
  ⟨rfl, by simp⟩

/-- Two texts in a row come back as one. -/
theorem C21_adjacent_texts_merge :
    loadString (saveText noCb [] (.elem (b! "d") [] [.text (b! "a"), .text (b! "b")])) =
      some (.elem (b! "d") [] [.text (b! "ab")]) := rfl

/-! ### C20 -/

theorem clean_two {n a v s : Bytes} (hn : PlainName n) (ha : PlainName a) (hv : CleanText v) (hs : CleanText s)
    : CleanTree (.elem n [(a, some v)] [.text s]) := by
  refine .elem hn ⟨by simp, ?_⟩ ?_
  · intro x hx
    simp only [List.mem_singleton] at hx
    subst hx
    exact ⟨ha, v, rfl, hv⟩
  · intro c hc
    simp only [List.mem_singleton] at hc
    subst hc
    exact .text hs

/-- Any element text and attribute value of allowed characters is read back byte for byte. -/
theorem C20_text_and_attribute_survive (n a v s : Bytes) (hn : PlainName n) (ha : PlainName a)
    (hv : CleanText v) (hs : CleanText s) (hne : s ≠ []) :
    ∃ t, loadString (saveText noCb [] (.elem n [(a, some v)] [.text s])) = some t ∧
      loadFile (saveText noCb [] (.elem n [(a, some v)] [.text s])) = some t ∧
      t.element = some n ∧ t.getAttr a = some v ∧ t.getOpaque = some s := by
  have h := C21_roundtrip_exact [] n [(a, some v)] [.text s] hn (clean_two hn ha hv hs)
    (.elem (by simp [NoAdjacentText, hne]) (by
      intro c hc
      simp only [List.mem_singleton] at hc
      subst hc
      exact .text))
  exact ⟨_, h.1, h.2, rfl, by simp [Node.getAttr, Node.attrs, Node.findAttr], rfl⟩

/-- What is written for a text contains no markup character. -/
theorem C20_written_text_has_no_markup (s : Bytes) : ∀ c ∈ writeString s, c ≠ 60 ∧ c ≠ 62 ∧ c ≠ 34 := by
  induction s with
  | nil => simp [writeString]
  | cons b s ih =>
    intro c hc
    rw [writeString] at hc
    cases hb : entityName b with
    | none =>
      rw [hb] at hc
      rcases List.mem_cons.mp hc with rfl | hc
      · rw [entityName_of_toNat] at hb
        refine ⟨?_, ?_, ?_⟩ <;> (rintro rfl; simp at hb)
      · exact ih c hc
    | some n =>
      rw [hb] at hc
      simp only [List.mem_append, List.mem_singleton] at hc
      rcases hc with ((rfl | hc) | rfl) | hc
      · decide
      · have hn : n = b! "amp" ∨ n = b! "lt" ∨ n = b! "gt" ∨ n = b! "quot" := by
          unfold entityName at hb
          split at hb
          · injection hb with h; exact .inl h.symm
          · split at hb
            · injection hb with h; exact .inr (.inl h.symm)
            · split at hb
              · injection hb with h; exact .inr (.inr (.inl h.symm))
              · split at hb
                · injection hb with h; exact .inr (.inr (.inr h.symm))
                · simp at hb
        have hcs : ∀ m ∈ [b! "amp", b! "lt", b! "gt", b! "quot"], ∀ c ∈ m, c ≠ 60 ∧ c ≠ 62 ∧ c ≠ 34 := by decide
        exact hcs n (by simpa using hn) c hc
      · decide
      · exact ih c hc

/-- Setting an attribute: reading it back gives the new value, whether or not it was there before;
    every other attribute keeps its value and no attribute is doubled. -/
theorem C20_set_attribute (n a : Bytes) (v : Option Bytes) (as : List (Bytes × Option Bytes)) (cs : List Node) :
    ((Node.elem n as cs).setAttr a v).getAttr a = v ∧
    (∀ b, b ≠ a → ((Node.elem n as cs).setAttr a v).getAttr b = (Node.elem n as cs).getAttr b) ∧
    ((as.map Prod.fst).Nodup → (((Node.elem n as cs).setAttr a v).attrs.map Prod.fst).Nodup) ∧
    ((Node.elem n as cs).setAttr a v).children = cs := by
  have hk : ∀ l : List (Bytes × Option Bytes), ∀ k, k ∈ (Node.setAttrList a v l).map Prod.fst → k = a ∨ k ∈ l.map Prod.fst := by
    intro l
    induction l with
    | nil => intro k hk; simp [Node.setAttrList] at hk; exact .inl hk
    | cons p l ih =>
      intro k hk
      obtain ⟨q, w⟩ := p
      rw [Node.setAttrList] at hk
      split at hk
      · exact .inr (by simpa using hk)
      · rcases List.mem_cons.mp hk with h | h
        · exact .inr (by simp [h])
        · rcases ih k h with h | h
          · exact .inl h
          · exact .inr (by simp [List.mem_cons]; right; simpa using h)
  refine ⟨?_, ?_, ?_, rfl⟩
  · show Node.findAttr a (Node.setAttrList a v as) = v
    induction as with
    | nil => simp [Node.setAttrList, Node.findAttr]
    | cons p l ih =>
      obtain ⟨q, w⟩ := p
      rw [Node.setAttrList]
      split
      · rename_i h; simp [Node.findAttr, h]
      · rename_i h; simp [Node.findAttr, h, ih]
  · intro b hb
    show Node.findAttr b (Node.setAttrList a v as) = Node.findAttr b as
    induction as with
    | nil => simp [Node.setAttrList, Node.findAttr, Ne.symm hb]
    | cons p l ih =>
      obtain ⟨q, w⟩ := p
      rw [Node.setAttrList]
      split
      · rename_i h; subst h; simp [Node.findAttr, Ne.symm hb]
      · simp [Node.findAttr, ih]
  · show _ → ((Node.setAttrList a v as).map Prod.fst).Nodup
    induction as with
    | nil => intro _; simp [Node.setAttrList]
    | cons p l ih =>
      obtain ⟨q, w⟩ := p
      intro hd
      rw [Node.setAttrList]
      split
      · simpa using hd
      · rename_i h
        rw [List.map_cons, List.nodup_cons] at hd ⊢
        refine ⟨fun hm => ?_, ih hd.2⟩
        rcases hk l q hm with e | e
        · exact h e
        · exact hd.1 e

/-- Non-vacuity: an attribute that is there, and one that is not. -/
example : ((Node.elem (b! "d") [(b! "x", some (b! "1"))] []).setAttr (b! "x") (some (b! "2"))).getAttr (b! "x") =
    some (b! "2") := rfl

/-- A control character cannot be read back: the whole text is lost without an error when it is in
    the root element, and the document is refused when it is deeper. -/
theorem C20_control_character_lost :
    loadString (saveText noCb [] (.elem (b! "d") [] [.text [97, 1, 98]])) = some (.elem (b! "d") [] []) ∧
    loadString (saveText noCb [] (.elem (b! "d") [] [.elem (b! "e") [] [.text [97, 1, 98]]])) = none :=
  ⟨rfl, rfl⟩

/-- The byte order mark U+FEFF inside a text is dropped. -/
theorem C20_bom_dropped :
    loadString (saveText noCb [] (.elem (b! "d") [] [.text [97, 0xEF, 0xBB, 0xBF, 98]])) =
      some (.elem (b! "d") [] [.text [97, 98]]) := rfl

example : CleanText (b! "R&D <\"draft\"> 1 > 0") ∧ PlainName (b! "name") :=
  ⟨clean_lit (by decide), by decide⟩

/-- Non-ASCII text is covered: "é€😀" as UTF-8. -/
example : CleanText [0xC3, 0xA9, 0xE2, 0x82, 0xAC, 0xF0, 0x9F, 0x98, 0x80] :=
  ⟨['é', '€', '😀'], by decide, by decide⟩

/-! ### C45 -/

/-- The saved string is the complete text, whatever its length: the first buffer of 8192 bytes is
    never returned cut off. -/
theorem C45_saved_string_complete (cb : SaveCb) (anc : List Bytes) (n : Node) (h : saveText cb anc n ≠ []) :
    saveAllocString cb anc n = some (saveText cb anc n) := saveAlloc_complete cb anc n h

example : saveText noCb [] sampleTree ≠ [] := by decide +kernel

end Afs
