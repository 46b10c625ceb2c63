import Verif.Proof.Grammar5
import Verif.Props.C52_C53_Encoding
import Verif.Props.C22_C23_Layouts
import Verif.Props.C24_Metadata
import Verif.Props.C25_Files
import Verif.Props.C26_Toc
import Verif.Props.C50_C51_Control
/-!
# C54 the reader reads XML documents; C55 what is saved is XML

The documents are those of the XML recommendation's grammar in Spec/Grammar.lean.
-/
namespace Afs
open Spec Spec.Grammar Xml

/-! ## C54 -/

/-- Every document of the grammar is read from a string and from a file, as the tree the grammar
    gives it.  (The reader drops a U+FEFF.) -/
theorem C54_reads (s : List Char) (v : Node) (h : Document s v) (hf : Char.ofNat 0xFEFF ∉ s) :
    Xml.loadString (utf8File s) = some v ∧ Xml.loadFile (utf8File s) = some v :=
  ⟨(load_doc good_decode h hf).2, (load_doc good_decodeFile h hf).2⟩

/-- The same for files in UTF-16, of either byte order (but for the characters C52 excludes). -/
theorem C54_reads_utf16 (bigEndian : Bool) (s : List Char) (v : Node) (h : Document s v) (hf : Char.ofNat 0xFEFF ∉ s)
    (hd : ∀ c ∈ s, ¬ EndsDFFF c) : Xml.loadFile (utf16File bigEndian s) = some v := by
  rw [C52_utf16_file bigEndian s fun c hc => ⟨(load_doc good_decode h hf).1 c hc, hd c hc⟩]
  exact (C54_reads s v h hf).2

/-- So a text has at most one tree. -/
theorem C54_unambiguous (s : List Char) (v w : Node) (h : Document s v) (h' : Document s w) (hf : Char.ofNat 0xFEFF ∉ s) : v = w :=
  Option.some.inj ((C54_reads s v h hf).1.symm.trans (C54_reads s w h' hf).1)

/-- A text that is not read is not a document. -/
theorem C54_refused (s : List Char) (hf : Char.ofNat 0xFEFF ∉ s) (h : Xml.loadString (utf8File s) = none) : ¬ ∃ v, Document s v := by
  rintro ⟨v, hv⟩
  rw [(C54_reads s v hv hf).1] at h
  cases h

/-- A document with a declaration, comments, both kinds of quotes, references, a CDATA section, a
    processing instruction and a character outside ASCII. -/
def exDocument : List Char :=
  "<?xml version=\"1.0\" encoding='utf-8'?>\n<!-- hi - there -->\n<a x = '1&lt;\"' y_1=\"ü\" >t&#65;]<b/><![CDATA[<&>]]]]><?p q?></a >\n".toList

theorem exDocument_ok : ∃ v, Document exDocument v := by
  have hd : XmlDecl "xml version=\"1.0\" encoding='utf-8'".toList :=
    ⟨" version=\"1.0\"".toList, " encoding='utf-8'".toList, [], [],
      ⟨" ".toList, [], [], '"', by decide +kernel, by decide +kernel, by decide +kernel, by decide +kernel, by decide +kernel, by decide +kernel⟩,
      .inr ⟨"utf-8".toList, .inl rfl, " ".toList, [], [], '\'', by decide +kernel, by decide +kernel, by decide +kernel, by decide +kernel, by decide +kernel, by decide +kernel⟩,
      .inl rfl, by decide +kernel, by decide +kernel⟩
  have hc : Comment "<!-- hi - there -->".toList " hi - there ".toList :=
    ⟨by decide +kernel, by decide +kernel, by decide +kernel, by decide +kernel, by decide +kernel⟩
  have hm := Misc.comment (w := ['\n']) (by decide +kernel) hc .nil
  have ha : Attributes " x = '1&lt;\"' y_1=\"ü\"".toList [("x".toList, "1<\"".toList), ("y_1".toList, "ü".toList)] := by
    have h0 : AttText '"' "ü".toList "ü".toList := .char (by decide +kernel) (by decide +kernel) (by decide +kernel) (by decide +kernel) .nil
    have h1 := Attributes.cons (ws := [' ']) (n := "y_1".toList) (w1 := []) (w2 := []) (by decide +kernel) (by decide +kernel)
      ⟨'y', "_1".toList, (by decide +kernel), by decide +kernel, by decide +kernel⟩ (by decide +kernel) (by decide +kernel) (.inl rfl) h0 .nil
    have h2 : AttText '\'' "1&lt;\"".toList "1<\"".toList :=
      .char (by decide +kernel) (by decide +kernel) (by decide +kernel) (by decide +kernel) (.ref .lt (.char (by decide +kernel) (by decide +kernel) (by decide +kernel) (by decide +kernel) .nil))
    exact Attributes.cons (ws := [' ']) (n := "x".toList) (w1 := [' ']) (w2 := [' ']) (by decide +kernel) (by decide +kernel)
      ⟨'x', [], (by decide +kernel), by decide +kernel, by decide +kernel⟩ (by decide +kernel) (by decide +kernel) (.inr rfl) h2 h1
  have hs : StartTag "<a x = '1&lt;\"' y_1=\"ü\" >".toList "a".toList [("x".toList, "1<\"".toList), ("y_1".toList, "ü".toList)] :=
    ⟨_, .mk (n := "a".toList) (w := [' ']) ⟨'a', [], (by decide +kernel), by decide +kernel, by decide +kernel⟩ ha (by decide +kernel) (by decide +kernel), by decide +kernel⟩
  have hb : EmptyTag "<b/>".toList "b".toList [] :=
    ⟨_, .mk (n := "b".toList) (w := []) ⟨'b', [], (by decide +kernel), by decide +kernel, by decide +kernel⟩ .nil (by decide +kernel) (by decide +kernel), by decide +kernel⟩
  have hk := Content.cdata (d := []) (t := "<![CDATA[<&>]]]]>".toList) (x := "<&>]]".toList) ⟨by decide +kernel, by decide +kernel⟩
    ⟨by decide +kernel, by decide +kernel, by decide +kernel⟩
    (.pi (d := []) (t := "<?p q?>".toList) (x := "p q".toList) ⟨by decide +kernel, by decide +kernel⟩
      ⟨⟨['p'], [' ', 'q'], (by decide +kernel), ⟨'p', [], (by decide +kernel), by decide +kernel, by decide +kernel⟩, .inr ⟨' ', ['q'], (by decide +kernel), by decide +kernel⟩⟩, by decide +kernel, by decide +kernel, by decide +kernel⟩
      (.data (d := []) ⟨by decide +kernel, by decide +kernel⟩))
  have ht := Content.ref (d := ['t']) (r := "&#65;".toList) (c := 'A') ⟨by decide +kernel, by decide +kernel⟩
    (.dec (ds := ['6', '5']) (by decide +kernel) (by decide +kernel) (by decide +kernel) (by decide +kernel) (by decide +kernel))
    (Content.empty (d := [']']) ⟨by decide +kernel, by decide +kernel⟩ hb hk)
  have he := Element.full hs ht (e := "</a >".toList) ⟨[' '], by decide +kernel, by decide +kernel⟩
  have h := Document.declared hd hm (w := ['\n']) (by decide +kernel) he .nil (w' := ['\n']) (by decide +kernel)
  refine ⟨_, cast (congrArg (Document · _) ?_) h⟩
  decide +kernel

example : Char.ofNat 0xFEFF ∉ exDocument ∧ Xml.loadString (utf8File exDocument) =
    some (.elem (b! "?xml version=\"1.0\" encoding='utf-8'?") [] [.text [10], .elem (b! "!-- hi - there --") [] [], .text [10],
      .elem (b! "a") [(b! "x", some (b! "1<\"")), (b! "y_1", some [0xC3, 0xBC])]
        [.text (b! "tA]"), .elem (b! "b") [] [], .elem (b! "![CDATA[<&>]]]]") [] [], .elem (b! "?p q?") [] []]]) := by
  decide +kernel

set_option maxRecDepth 100000 in
/-- What the grammar of Spec/Grammar.lean leaves out although XML has it, is indeed not read:
    an empty comment is not seen to end, and comments are refused before or after an element without a
    declaration.  A character outside ASCII at the start of an attribute name is
    cut to one byte (mxml-file.c:2184). -/
theorem C54_not_read :
    Xml.loadString (b! "<a><!----></a>") = none ∧
    Xml.loadString (b! "<a><!----></a><!-- --></a>") = some (.elem (b! "a") [] [.elem (b! "!----></a><!-- --") [] []]) ∧
    Xml.loadString (b! "<!-- x --><a/>") = none ∧ Xml.loadString (b! "<a/><!-- x -->") = none ∧
    Xml.loadString ((b! "<a ") ++ [0xC3, 0xBC] ++ (b! "='1'/>")) = some (.elem (b! "a") [([0xFC], some (b! "1"))] []) := by
  decide +kernel

/-! ## C55 -/

theorem doc_wellFormed {openFirst : Bool} {cb : SaveCb} (hcb : SpaceCb cb) (compact : Bool) {n : Bytes} {as cs} (hn : PlainName n)
    (hs : Savable (.elem n as cs)) (hb : cb [] (Node.newXML.addChild (.elem n as cs)) .beforeOpen = []) :
    (∀ t, docString cb compact (some (.elem n as cs)) = some t → NoNoncharacter t → WellFormed t) ∧
    (∀ ok t, docFile openFirst cb compact (some (.elem n as cs)) = (ok, some t) → NoNoncharacter t → WellFormed t) := by
  have hb' : (if compact then noCb else cb) [] (Node.newXML.addChild (.elem n as cs)) .beforeOpen = [] := by
    cases compact
    · exact hb
    · rfl
  have h := wellFormed_doc (spaceCb_if hcb compact).white hn hs hb'
  constructor
  · intro t ht
    unfold docString at ht
    dsimp only at ht
    rw [newXML_addChild] at ht h
    rw [saveAlloc_elem] at ht
    cases ht
    exact h
  · intro ok t ht
    unfold docFile at ht
    dsimp only at ht
    cases ht
    exact h

theorem elem_wellFormed {cb : SaveCb} (hcb : SpaceCb cb) (compact : Bool) {n : Bytes} {as cs} (hn : PlainName n)
    (hs : Savable (.elem n as cs)) :
    ∀ t, elemString cb compact (some (.elem n as cs)) = some t → NoNoncharacter t → WellFormed t := by
  intro t ht
  unfold elemString at ht
  dsimp only at ht
  rw [saveAlloc_elem] at ht
  cases ht
  exact wellFormed_bare (spaceCb_if hcb compact).white _ hn hs

/-- A saved page is a well-formed XML document. -/
theorem C55_page (p : Page) (h : p.writable) (compact : Bool) :
    (∀ t, p.saveString compact = some t → NoNoncharacter t → WellFormed t) ∧
    (∀ ok t, p.saveFile compact = (ok, some t) → NoNoncharacter t → WellFormed t) := by
  unfold Page.saveString Page.saveFile
  rw [Page.saveXml_eq]
  exact doc_wellFormed pageCb_space compact (by decide) (Page.node_savable h.1) (by rw [newXML_addChild]; rfl)

set_option maxRecDepth 100000 in
example : ∃ t, (Page.mk (some (b! "<a&b>")) 1 0 1 5 7 0 0).saveString false = some t ∧ NoNoncharacter t ∧ t =
    (b! "<?xml version=\"1.0\" encoding=\"utf-8\"?>\n    <pages layoutId=\"&lt;a&amp;b&gt;\" frame=\"1\" section=\"0\" count=\"1\" dimension=\"5x7\" />\n") := by
  unfold NoNoncharacter
  exact ⟨_, rfl, by decide +kernel⟩

/-- A saved preview is. -/
theorem C55_preview (p : Preview) (h : p.storable) (compact : Bool) :
    (∀ t, p.saveString compact = some t → NoNoncharacter t → WellFormed t) ∧
    (∀ ok t, p.saveFile compact = (ok, some t) → NoNoncharacter t → WellFormed t) := by
  unfold Preview.saveString Preview.saveFile
  rw [Preview.saveXml_eq h.1]
  exact doc_wellFormed previewCb_space compact (by decide) (Preview.node_savable h) (by rw [newXML_addChild]; rfl)

/-- A saved section is. -/
theorem C55_section (s : Section) (h : s.isValid = true) (compact : Bool) :
    (∀ t, s.saveString compact = some t → NoNoncharacter t → WellFormed t) ∧
    (∀ ok t, s.saveFile compact = (ok, some t) → NoNoncharacter t → WellFormed t) := by
  unfold Section.saveString Section.saveFile
  rw [Section.saveXml_eq h, if_neg (by simp [h])]
  exact doc_wellFormed sectionCb_space compact (by decide) s.node_savable (by rw [newXML_addChild]; rfl)

/-- A saved list of sections is. -/
theorem C55_sections (s : Sections) (h : Sections.isValid (some s) = true) (compact : Bool) :
    (∀ t, s.saveString compact = some t → NoNoncharacter t → WellFormed t) ∧
    (∀ ok t, s.saveFile compact = (ok, some t) → NoNoncharacter t → WellFormed t) := by
  unfold Sections.saveString Sections.saveFile
  rw [Sections.saveXml_eq h, if_neg (by simp [h])]
  exact doc_wellFormed sectionsCb_space compact (by decide) s.node_savable (by rw [newXML_addChild]; rfl)

/-- A saved layout definition is. -/
theorem C55_layout (d : LayoutDef) (h : d.storable) (compact : Bool) :
    (∀ t, d.saveString compact = some t → NoNoncharacter t → WellFormed t) ∧
    (∀ ok t, d.saveFile compact = (ok, some t) → NoNoncharacter t → WellFormed t) := by
  unfold LayoutDef.saveString LayoutDef.saveFile
  rw [LayoutDef.saveXml_eq h.1]
  exact doc_wellFormed layoutCb_space compact (by decide) (LayoutDef.node_savable h) (by rw [newXML_addChild]; rfl)

/-- A saved list of layout definitions is. -/
theorem C55_layouts (d : LayoutDefs) (h : d.storable) (compact : Bool) :
    (∀ t, d.saveString compact = some t → NoNoncharacter t → WellFormed t) ∧
    (∀ ok t, d.saveFile compact = (ok, some t) → NoNoncharacter t → WellFormed t) := by
  unfold LayoutDefs.saveString LayoutDefs.saveFile
  rw [LayoutDefs.saveXml_eq h]
  refine ⟨elem_wellFormed layoutsCb_space compact (by decide) (LayoutDefs.node_savable h), ?_⟩
  intro ok t ht
  split at ht
  · cases ht
  · exact (doc_wellFormed layoutsCb_space compact (by decide) (LayoutDefs.node_savable h) (by rw [newXML_addChild]; rfl)).2 ok t ht

/-- A saved metadata source is. -/
theorem C55_source (s : MetaSource) (h : s.storable) (compact : Bool) :
    (∀ t, s.saveString compact = some t → NoNoncharacter t → WellFormed t) ∧
    (∀ ok t, s.saveFile compact = (ok, some t) → NoNoncharacter t → WellFormed t) := by
  unfold MetaSource.saveString MetaSource.saveFile
  rw [if_neg (by simp [h.1]), MetaSource.saveXml_eq h.1]
  exact doc_wellFormed metaSourceCb_space compact (by decide) (MetaSource.node_savable h) (by rw [newXML_addChild]; rfl)

/-- Saved metadata is. -/
theorem C55_metadata (m : TocMeta) (h : m.storable) (compact : Bool) :
    (∀ t, m.saveString compact = some t → NoNoncharacter t → WellFormed t) ∧
    (∀ ok t, m.saveFile compact = (ok, some t) → NoNoncharacter t → WellFormed t) := by
  unfold TocMeta.saveString TocMeta.saveFile
  rw [TocMeta.saveXml_eq h.1]
  exact ⟨elem_wellFormed tocMetaCb_space compact (by decide) (TocMeta.node_savable h),
    (doc_wellFormed tocMetaCb_space compact (by decide) (TocMeta.node_savable h) (by rw [newXML_addChild]; rfl)).2⟩

/-- A saved metadata source of a file is. -/
theorem C55_file_source (s : FileMetaSource) (h : s.storable) (compact : Bool) :
    (∀ t, s.saveString compact = some t → NoNoncharacter t → WellFormed t) ∧
    (∀ ok t, s.saveFile compact = (ok, some t) → NoNoncharacter t → WellFormed t) := by
  unfold FileMetaSource.saveString FileMetaSource.saveFile
  rw [if_neg (by simp [h.1]), FileMetaSource.saveXml_eq h.1]
  exact doc_wellFormed fileMetaSourceCb_space compact (by decide) (FileMetaSource.node_savable h) (by rw [newXML_addChild]; rfl)

/-- Saved metadata of a file is. -/
theorem C55_file_metadata (m : FileMeta) (h : m.storable) (compact : Bool) :
    (∀ t, m.saveString compact = some t → NoNoncharacter t → WellFormed t) ∧
    (∀ ok t, m.saveFile compact = (ok, some t) → NoNoncharacter t → WellFormed t) := by
  unfold FileMeta.saveString FileMeta.saveFile
  rw [FileMeta.saveXml_eq h]
  exact ⟨elem_wellFormed fileMetaCb_space compact (by decide) (FileMeta.node_savable h),
    (doc_wellFormed fileMetaCb_space compact (by decide) (FileMeta.node_savable h) (by rw [newXML_addChild]; rfl)).2⟩

/-- A saved file entry is, in both data formats (to a file: saved compact). -/
theorem C55_file (f : File) (h : f.writable) (v1 : Bool) :
    (∀ compact t, f.saveString compact v1 = some t → NoNoncharacter t → WellFormed t) ∧
    (∀ ok t, f.saveFile true v1 = .ok (ok, some t) → NoNoncharacter t → WellFormed t) := by
  unfold File.saveString File.saveFile
  rw [File.saveXml_eq h]
  refine ⟨fun compact => elem_wellFormed fileCb_space compact (by decide) (File.node_savable h v1), fun ok t ht => ?_⟩
  have := (doc_wellFormed (openFirst := true) fileCb_space true (by decide) (File.node_savable h v1) (by rw [newXML_addChild]; rfl)).2 ok t
  exact this (Res.ok.inj ht)

/-- A saved list of files is (saved compact). -/
theorem C55_files (f : Files) (h : ∀ x ∈ f.list, x.writable) :
    (∀ t, f.saveString true = .ok (some t) → NoNoncharacter t → WellFormed t) ∧
    (∀ ok t, f.saveFile true = .ok (ok, some t) → NoNoncharacter t → WellFormed t) := by
  unfold Files.saveString Files.saveFile
  rw [Files.saveXml_eq h]
  have := doc_wellFormed (openFirst := false) filesCb_space true (by decide) (Files.node_savable h) (by rw [newXML_addChild]; rfl)
  exact ⟨fun t ht => this.1 t (Res.ok.inj ht), fun ok t ht => this.2 ok t (Res.ok.inj ht)⟩

/-- A saved reel is. -/
theorem C55_reel (r : Reel) (h : r.writable) (compact : Bool) :
    (∀ t, r.saveString compact = some t → NoNoncharacter t → WellFormed t) ∧
    (∀ ok t, r.saveFile compact = (ok, some t) → NoNoncharacter t → WellFormed t) := by
  unfold Reel.saveString Reel.saveFile
  rw [Reel.saveXml_eq h, if_neg (by simp [h.1])]
  exact doc_wellFormed reelCb_space compact (by decide) (Reel.node_savable h) (by rw [newXML_addChild]; rfl)

/-- A saved list of reels is. -/
theorem C55_reels (r : Reels) (h : ∀ x ∈ r.list, x.writable) (compact : Bool) :
    (∀ t, r.saveString compact = some t → NoNoncharacter t → WellFormed t) ∧
    (∀ ok t, r.saveFile compact = (ok, some t) → NoNoncharacter t → WellFormed t) := by
  unfold Reels.saveString Reels.saveFile
  rw [Reels.saveXml_eq h]
  exact doc_wellFormed reelsCb_space compact (by decide) (Reels.node_savable h) (by rw [newXML_addChild]; rfl)

/-- A saved table of contents is. -/
theorem C55_toc (t : TocData) (h : t.writable) (compact : Bool) :
    (∀ s, t.saveString compact = some s → NoNoncharacter s → WellFormed s) ∧
    (∀ ok s, t.saveFile compact = (ok, some s) → NoNoncharacter s → WellFormed s) := by
  unfold TocData.saveString TocData.saveFile
  rw [TocData.saveXml_eq h, if_neg (by simp [h.1])]
  exact doc_wellFormed tocCb_space compact (by decide) (TocData.node_savable h) (by rw [newXML_addChild]; rfl)

/-- Saved administrative metadata is. -/
theorem C55_admin (a : Admin) (h : a.storable) (compact : Bool) :
    (∀ t, a.saveString compact = some t → NoNoncharacter t → WellFormed t) ∧
    (∀ ok t, a.saveFile compact = (ok, some t) → NoNoncharacter t → WellFormed t) := by
  unfold Admin.saveString Admin.saveFile
  rw [Admin.saveXml_eq]
  exact doc_wellFormed adminCb_space compact (by decide) (Admin.node_savable h) (by rw [newXML_addChild]; rfl)

variable {L : ConfigLib}

/-- A saved boxing format is. -/
theorem C55_format (f : Format L) (h : ∀ c, f.config = some c → ConfigWritable L c) (compact : Bool) :
    (∀ t, f.saveString compact = some t → NoNoncharacter t → WellFormed t) ∧
    (∀ ok t, f.saveFile compact = (ok, some t) → NoNoncharacter t → WellFormed t) := by
  unfold Format.saveString Format.saveFile
  cases hcfg : f.config with
  | none =>
    rw [Format.saveXml_none hcfg]
    exact doc_wellFormed formatCb_space compact (by decide) (.branch (by decide) cleanAttrs_nil (by simp)) (by rw [newXML_addChild]; rfl)
  | some c =>
    rw [Format.saveXml_some hcfg]
    have hs := Format.configNode_savable (h c hcfg)
    rw [Format.configNode_eq (h c hcfg).1] at hs ⊢
    exact doc_wellFormed formatCb_space compact (by decide) hs (by rw [newXML_addChild]; rfl)

/-- Saved technical metadata is. -/
theorem C55_technical (t : TechMeta L) (h : t.writable) (compact : Bool) :
    (∀ s, t.saveString compact = some s → NoNoncharacter s → WellFormed s) ∧
    (∀ ok s, t.saveFile compact = (ok, some s) → NoNoncharacter s → WellFormed s) := by
  obtain ⟨⟨f, hf, hfs⟩, ⟨x, hx, hxw⟩, ha⟩ := h
  have ht : ∀ y, t.tocs = some y → ∀ z ∈ y.list, z.writable := by
    intro y hy; rw [hx] at hy; injection hy with hy; subst hy; exact hxw
  unfold TechMeta.saveString TechMeta.saveFile
  have hc : t.complete = true := by simp [TechMeta.complete, hx, hf]
  rw [if_neg (by simp [hc]), if_neg (by simp [hc]), TechMeta.saveXml_eq hf ht ha]
  exact doc_wellFormed techCb_space compact (by decide) (TechMeta.nodeOf_savable hfs ht ha) (by rw [newXML_addChild]; rfl)

/-- A text with a declaration and several elements side by side is not a document. -/
theorem several_not_wellFormed {cb : SaveCb} (hcb : SpaceCb cb) {ts : List Node} (hl : 2 ≤ ts.length) (h : ∀ t ∈ ts, Savable t)
    (hr : ∀ t ∈ ts, isRaw t = false) : ¬ WellFormed (saveText cb [] (.elem xmlDecl [] ts)) := by
  rintro ⟨s, v, e, hd⟩
  have hne : ts ≠ [] := by rintro rfl; simp at hl
  obtain ⟨cs, hcs, ec⟩ := save_docs_clean hcb.white hne fun t ht => (h t ht).clean
  have es : cs = s := utf8File_inj (ec.symm.trans e)
  have hf : Char.ofNat 0xFEFF ∉ s := by
    intro hm
    exact (hcs _ (es ▸ hm)).2 rfl
  obtain ⟨⟨T, h1, hn, h2⟩, _⟩ := read_documents hcb hne h
  rw [e, (C54_reads s v hd hf).1] at h1
  cases h1
  have key : ∀ x : Node, isRaw (norm x) = isRaw x := by
    intro x; cases x <;> rw [norm] <;> rfl
  cases v with
  | text b => rw [norm] at h2; cases h2
  | elem n as ks =>
    rw [norm_elem] at h2
    injection h2 with h3 h4 h5
    subst h3
    rcases one_root hd with ⟨_, hone⟩ | hraw
    · simp only [Node.children] at hone
      have hfil : (ks.filter isElem).filter (fun x => !isRaw x) = ks.filter fun x => !isRaw x := by
        rw [List.filter_filter]
        apply List.filter_congr
        intro x _
        cases x <;> simp [isElem, isRaw]
      split at h5
      · have : ((ks.filter isElem).map norm).filter (fun x => !isRaw x) = ts := by
          rw [h5]
          exact List.filter_eq_self.mpr fun t ht => by simp [hr t ht]
        rw [List.filter_map, show (fun x => !isRaw x) ∘ norm = fun x => !isRaw x from funext fun x => by simp [key], hfil] at this
        have hlen := congrArg List.length this
        rw [List.length_map, hone] at hlen
        omega
      · have hlen := congrArg List.length h5
        unfold leafText at hlen
        split at hlen <;> simp at hlen <;> omega
    · simp only [isRaw] at hraw; exact absurd hraw (by decide)

/-- Saved control data never is: it has two elements side by side.  (This library reads it all the same, C51.) -/
theorem C55_control_not_wellFormed (c : ControlData L) (h : c.writable) (compact : Bool) :
    (∀ s, c.saveString compact = some s → ¬ WellFormed s) ∧ (∀ ok s, c.saveFile compact = (ok, some s) → ¬ WellFormed s) := by
  obtain ⟨⟨a, hadm, has⟩, t, htech, ⟨f, hf, hfs⟩, ⟨x, hx, hxw⟩, ha⟩ := h
  have ht : ∀ y, t.tocs = some y → ∀ z ∈ y.list, z.writable := by
    intro y hy; rw [hx] at hy; injection hy with hy; subst hy; exact hxw
  have hc : c.complete = true := by simp [ControlData.complete, hadm, htech]
  have hs : c.saveXml = some [a.node, TechMeta.nodeOf f t.tocs t.apps] := by
    unfold ControlData.saveXml
    rw [hadm, htech]
    simp only [Option.bind_some, Admin.saveXml_eq, TechMeta.saveXml_eq hf ht ha, Option.map_some]
  have hd : ControlData.document [a.node, TechMeta.nodeOf f t.tocs t.apps] =
      .elem xmlDecl [] [a.node, TechMeta.nodeOf f t.tocs t.apps] := rfl
  have hn := several_not_wellFormed (spaceCb_if controlCb_space compact) (ts := [a.node, TechMeta.nodeOf f t.tocs t.apps]) (by simp)
    (by
      intro n hn
      simp only [List.mem_cons, List.not_mem_nil, or_false] at hn
      rcases hn with rfl | rfl
      · exact Admin.node_savable has
      · exact TechMeta.nodeOf_savable hfs ht ha)
    (by
      intro n hn
      simp only [List.mem_cons, List.not_mem_nil, or_false] at hn
      rcases hn with rfl | rfl <;> rfl)
  unfold ControlData.saveString ControlData.saveFile
  rw [hc, hs]
  simp only [Bool.true_eq_false, if_false]
  rw [hd, saveAlloc_elem]
  constructor
  · intro s e; cases e; exact hn
  · intro ok s e; cases e; exact hn

end Afs
