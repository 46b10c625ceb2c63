import Verif.Proof.ControlSchema2
import Verif.Props.C50_C51_Control
import Verif.Props.C61_Schema
import Verif.Props.C64_Documents
/-!
# C67: control data and the published schema

The project publishes a schema for control data (xsd/control_frame.xsd, xsd/boxing_format.xsd).  These theorems say what the library
loads from any document of it, and which saved objects follow it.  The schema is transcribed in Spec/ControlSchema.lean; it has two
editions there, `published` and `written`, because the published one is not what the library writes: no saved object follows the
published edition, and the boxing format of a document that does follow it is loaded as an empty one.
-/
namespace Afs
open Spec Xml Spec.Schema Spec.Document

/-! ## Loading documents of the schema -/

section
variable {D : Char → Prop} {T : Bytes → Prop} {e : Edition}

/-- Administrative metadata: with an XML declaration every document loads, as what it says, whatever was in the object before.
    Without one (when the document *is* the element) every document is refused, and the object stays as it was. -/
theorem C67_admin {doc : Node} (hc : Conforms (b! "AdministrativeMetadata") (adminType T e) doc) (hp : PlainDoc doc) (a : Admin) :
    ∃ n, root doc = some n ∧
      (doc.element ≠ some (b! "AdministrativeMetadata") → a.loadXml doc = (true, adminOf n)) ∧
      (doc.element = some (b! "AdministrativeMetadata") → a.loadXml doc = (false, a)) := by
  obtain ⟨as, cs, h1, h2, h3, h4, h5, h6⟩ := root_below (by decide) rfl hc hp
  refine ⟨_, h1, fun h => admin_loads h2 h3 a (h5 h), fun h => ?_⟩
  have hnone : find doc (b! "AdministrativeMetadata") = none := by
    rw [h6 h]
    exact none_inside h2 h3 (by decide) (by cases e <;> (unfold adminType; simp only [docTyNames, docPartNames]; decide))
  unfold Admin.loadXml
  rw [hnone]

/-- In a document of the published schema classes have no names, so nothing is set. -/
theorem settings_published {n : Bytes} {as cs} (h : Valid (formatType .published) as cs) (hp : Plain (.elem n as cs)) :
    settings (.elem n as cs) = [] := by
  unfold settings
  rw [List.flatMap_eq_nil_iff]
  intro x hx
  obtain ⟨as', cs', rfl, hv, _, _⟩ := valid_childrenOf h (plain_children hp) (nm := b! "class") (ty := classType .published) rfl rfl hx
  rw [classType, Valid] at hv
  have : as' = [] := by
    cases as' with
    | nil => rfl
    | cons a l =>
      obtain ⟨d, hd, _⟩ := hv.1.1 a (List.mem_cons_self ..)
      cases hd
  subst this
  rfl

variable {L : ConfigLib}

/-- What a document of the published schema says about the boxing format is lost: the load succeeds and the format is the one of an
    empty configuration. -/
theorem C67_published_format_is_lost {doc : Node} (hc : Conforms (b! "work") (formatType .published) doc) (hp : PlainDoc doc)
    (hd : doc.element ≠ some (b! "work")) (f : Format L) : f.loadXml doc = (true, Format.create2 (some L.create)) := by
  obtain ⟨as, cs, h1, h2, h3, h4, h5, h6⟩ := root_below (by decide) rfl hc hp
  have hn : find doc (b! "NULL") = none := by
    rw [h4 _ (by decide) (by decide)]
    exact none_inside h2 h3 (by decide) (by unfold formatType classType propertyType; simp only [docTyNames, docPartNames]; decide)
  have := work_loads h2 h3 f hn (h5 hd)
  rw [settings_published h2 h3] at this
  exact this

variable (hL : LawfulConfig L)
include hL


/-- Boxing formats: with an XML declaration every document of the schema loads, as a format made from a configuration that has
    exactly the settings of the document (later ones win). -/
theorem C67_format {doc : Node} (hc : Conforms (b! "work") (formatType e) doc) (hp : PlainDoc doc) (f : Format L) :
    ∃ n, root doc = some n ∧
      (doc.element ≠ some (b! "work") → ∃ c : L.Config, f.loadXml doc = (true, Format.create2 (some c)) ∧
        (NoAlias (settings n) → Holds L c (settings n))) ∧
      (doc.element = some (b! "work") → f.loadXml doc = (false, f)) := by
  obtain ⟨as, cs, h1, h2, h3, h4, h5, h6⟩ := root_below (by decide) rfl hc hp
  have hn : find doc (b! "NULL") = none := by
    rw [h4 _ (by decide) (by decide)]
    exact none_inside h2 h3 (by decide) (by unfold formatType classType propertyType; simp only [docTyNames, docPartNames]; decide)
  refine ⟨_, h1, fun h => ⟨_, work_loads h2 h3 f hn (h5 h), holds_settings hL⟩, fun h => ?_⟩
  have hw : find doc (b! "work") = none := by
    rw [h6 h]
    exact none_inside h2 h3 (by decide) (by unfold formatType classType propertyType; simp only [docTyNames, docPartNames]; decide)
  unfold Format.loadXml
  rw [hn, hw]

/-- Technical metadata: with an XML declaration a document loads exactly if the files in `Tocs` are valid and name the files of their
    metadata; then the object is what the document says.  If not, the object has lost its boxing format and its tables of contents.
    Without declaration every document is refused. -/
theorem C67_technical {doc : Node} (hc : Conforms (b! "TechnicalMetadata") (technicalType D e) doc) (hp : PlainDoc doc) (t : TechMeta L) :
    ∃ n x, root doc = some n ∧ child n (b! "Tocs") = some x ∧
      (doc.element ≠ some (b! "TechnicalMetadata") →
        ((t.loadXml doc).1 = true ↔ FilesFit x) ∧ (FilesFit x → SaysTechnical t (t.loadXml doc).2 n) ∧
        (¬ FilesFit x → (t.loadXml doc).2 = { t with format := none, tocs := none })) ∧
      (doc.element = some (b! "TechnicalMetadata") → t.loadXml doc = (false, t)) := by
  obtain ⟨as, cs, h1, h2, h3, h4, h5, h6⟩ := root_below (by decide) rfl hc hp
  obtain ⟨x, hx⟩ := child_needed (n := b! "TechnicalMetadata") h2 (tech_parts (D := D) (e := e) rfl).2.2.2.2.1
  refine ⟨_, x, h1, hx, fun h => ?_, fun h => ?_⟩
  · obtain ⟨y, hy, h7⟩ := technical_loads hL h2 h3 t (h5 h)
    rw [hx] at hy
    injection hy with hy
    subst hy
    exact h7
  · have hnone : find doc (b! "TechnicalMetadata") = none := by
      rw [h6 h]
      exact none_inside h2 h3 (by decide) (by
        cases e <;> (unfold technicalType boxerFormatType formatType classType propertyType
                     simp only [Edition.tocs, Edition.applications, docTyNames, docPartNames, filesType, fileType, dataType, locationType, previewType, pagesType,
                       fileMetadataType, fileMetadataSourceType, fileMetadataSourceDataType]
                     decide))
    unfold TechMeta.loadXml
    rw [hnone]

/-- Control data: whatever the name of the element around the two parts, every document loads, with or without declaration and even
    when its technical metadata cannot be loaded; nothing is left of what the object held before. -/
theorem C67_control {name : Bytes} (hn : name.head? ≠ some 33 ∧ name.head? ≠ some 63)
    (hne : name ≠ b! "AdministrativeMetadata" ∧ name ≠ b! "TechnicalMetadata") {doc : Node}
    (hc : Conforms name (controlType D T e) doc) (hp : PlainDoc doc) (c : ControlData L) :
    ∃ n a m x t, root doc = some n ∧ child n (b! "AdministrativeMetadata") = some a ∧ child n (b! "TechnicalMetadata") = some m ∧
      child m (b! "Tocs") = some x ∧ c.loadXml doc = (true, ⟨some (adminOf a), some t⟩) ∧
      (FilesFit x → SaysTechnical TechMeta.create t m) ∧ (¬ FilesFit x → t = TechMeta.create) := by
  have hx : (b! "?xml").isPrefixOf name = false := by
    cases name with
    | nil => rfl
    | cons c r =>
      have : c ≠ 63 := fun h => hn.2 (by rw [h]; rfl)
      show (decide _ && _) = false
      simp [Ne.symm this]
  obtain ⟨as, cs, h1, h2, h3, h4, h5, h6⟩ := root_below hn hx hc hp
  have hk : PlainList cs := plain_children h3
  obtain ⟨a, ha⟩ := child_needed (n := name) h2 (nm := b! "AdministrativeMetadata") rfl
  obtain ⟨m, hm⟩ := child_needed (n := name) h2 (nm := b! "TechnicalMetadata") rfl
  obtain ⟨aas, acs, rfl, hav, hak, hap⟩ := valid_child h2 hk (ty := adminType T e) rfl rfl ha
  obtain ⟨mas, mcs, rfl, hmv, hmk, hmp⟩ := valid_child h2 hk (ty := technicalType D e) rfl rfl hm
  have fa := find_child (n := name) h2 hk (nm := b! "AdministrativeMetadata") (by decide) (by cases e <;> rfl)
  have fm := find_child (n := name) h2 hk (nm := b! "TechnicalMetadata") (by decide) (by cases e <;> rfl)
  rw [ha, ← h4 _ (by decide) (Ne.symm hne.1)] at fa
  rw [hm, ← h4 _ (by decide) (Ne.symm hne.2)] at fm
  obtain ⟨x, hx, l1, l2, l3⟩ := technical_loads hL hmv hmp (TechMeta.create : TechMeta L) fm
  refine ⟨_, _, _, x, (TechMeta.create.loadXml doc).2, h1, ha, hm, hx, ?_, l2, fun h => (l3 h).trans rfl⟩
  unfold ControlData.loadXml
  rw [fa, fm]
  dsimp only
  rw [admin_loads hav hap Admin.create fa]

end

/-! ## Saved objects -/

theorem padded_dateTime (T : Bytes → Prop) : Padded (dateTime T) := fun s t h => by unfold dateTime; rw [h]
theorem loose_admin (T) (e : Edition) : Loose (adminType T e) := by
  simp [adminType, Loose, LooseParts, padded_string, padded_dateTime]
theorem loose_format (e : Edition) : Loose (formatType e) := by
  simp [formatType, classType, propertyType, Loose, LooseParts]
theorem loose_tocs (D) (e : Edition) : LooseParts (Edition.tocs D e) := by
  cases e <;> simp [Edition.tocs, LooseParts, loose_file, loose_files]
theorem loose_technical (D) (e : Edition) : Loose (technicalType D e) := by
  have := loose_tocs D
  cases e <;> simp [technicalType, boxerFormatType, Edition.applications, Loose, LooseParts, loose_format, this]

/-- Saved administrative metadata follow the schema exactly in the edition for what is written, and if the creation date, if there is
    one, is an `xs:dateTime`. -/
theorem C67_saved_admin (T : Bytes → Prop) (e : Edition) (a : Admin) (h : a.storable) (compact : Bool) :
    (∃ t d, a.saveString compact = some t ∧ Xml.loadString t = some d ∧
      (Conforms (b! "AdministrativeMetadata") (adminType T e) d ↔ e = .written ∧ ∀ x, a.creationDate = some x → T (strip x))) ∧
    (∃ t d, a.saveFile compact = (true, some t) ∧ Xml.loadFile t = some d ∧
      (Conforms (b! "AdministrativeMetadata") (adminType T e) d ↔ e = .written ∧ ∀ x, a.creationDate = some x → T (strip x))) := by
  unfold Admin.saveString Admin.saveFile
  rw [Admin.saveXml_eq]
  exact doc_conforms adminCb_space compact (by decide) (by decide) (Admin.node_savable h) (Admin.shape a) (loose_admin T e) (Admin.valid h)

section
variable {L : ConfigLib}

/-- What a document read back can follow: its one element has the name. -/
theorem conforms_read {d : Node} {ts : List Node} (h : IsRead d (.elem xmlDecl [] ts)) {name : Bytes}
    (hn : name.head? ≠ some 33 ∧ name.head? ≠ some 63) {ty : Ty} (hc : Conforms name ty d) :
    ∀ nm, nm.head? ≠ some 33 ∧ nm.head? ≠ some 63 → nm ≠ name → ts.filter (named nm) = [] := by
  intro nm hnm hne
  have hl := isRead_namedChildren h nm
  obtain ⟨as, cs, -, rfl | ⟨q, ks, rfl, -, he⟩⟩ := hc
  · have := isRead_element h
    rw [Node.element, Node.element] at this
    injection this with this
    exact absurd (by rw [this]; decide) hn.2
  · rw [Node.children, Node.children, named_elements (cs := ks) hnm, he] at hl
    have : [Node.elem name as cs].filter (named nm) = [] := by
      refine List.filter_eq_nil_iff.mpr ?_
      intro x hx
      rw [List.mem_singleton.mp hx]
      unfold named
      rw [Node.element]
      simp [Ne.symm hne]
    rw [this] at hl
    generalize ts.filter (named nm) = l at hl
    cases hl
    rfl

/-- A saved boxing format follows the schema exactly in the edition for what is written, and if it has a configuration. -/
theorem C67_saved_format (e : Edition) (f : Format L) (h : f.storable) (compact : Bool) :
    (∃ t d, f.saveString compact = some t ∧ Xml.loadString t = some d ∧
      (Conforms (b! "work") (formatType e) d ↔ e = .written ∧ f.config ≠ none)) ∧
    (∃ t d, f.saveFile compact = (true, some t) ∧ Xml.loadFile t = some d ∧
      (Conforms (b! "work") (formatType e) d ↔ e = .written ∧ f.config ≠ none)) := by
  unfold Format.saveString Format.saveFile
  cases hcfg : f.config with
  | none =>
    rw [Format.saveXml_none hcfg]
    have hs : ∀ t ∈ [Node.elem (b! "NULL") [] []], Savable t := by
      intro t ht
      rw [List.mem_singleton.mp ht]
      exact .branch (by decide) cleanAttrs_nil (by simp)
    obtain ⟨⟨d1, h1, r1⟩, d2, h2, r2⟩ := read_documents (spaceCb_if formatCb_space compact) (by simp) hs
    have key : ∀ d, IsRead d (.elem xmlDecl [] [Node.elem (b! "NULL") [] []]) → ¬ Conforms (b! "work") (formatType e) d := by
      intro d hd hc
      have := conforms_read hd (by decide) hc (b! "NULL") (by decide) (by decide)
      revert this
      decide
    refine ⟨⟨_, d1, saveAlloc_elem _ _ _ _ _, h1, iff_of_false (key _ r1) (by simp)⟩, ⟨_, d2, rfl, h2, iff_of_false (key _ r2) (by simp)⟩⟩
  | some c =>
    rw [Format.saveXml_some hcfg]
    have hst := (h.2 c hcfg).1
    have hs := Format.configNode_savable hst
    have hsh := configNode_shape hst.1
    have hv := config_valid e hst.1
    rw [Format.configNode_eq hst.1] at hs hsh hv ⊢
    refine doc_conforms formatCb_space compact (by decide) (by decide) hs hsh (loose_format e) (hv.trans ?_)
    simp

/-- Saved technical metadata follow the schema exactly in the edition for what is written, and if there is a configuration, the
    list of tables of contents follows the schema of files (C61; it may not be empty), and so does the list of applications. -/
theorem C67_saved_technical {D : Char → Prop} (hD : HasDigits D) (e : Edition) (t : TechMeta L) (h : t.writable) (compact : Bool) :
    (∃ s d, t.saveString compact = some s ∧ Xml.loadString s = some d ∧
      (Conforms (b! "TechnicalMetadata") (technicalType D e) d ↔ e = .written ∧ (∀ f, t.format = some f → f.config ≠ none) ∧
        (∀ x, t.tocs = some x → x.conforms D) ∧ ∀ x, t.apps = some x → x.conforms D)) ∧
    (∃ s d, t.saveFile compact = (true, some s) ∧ Xml.loadFile s = some d ∧
      (Conforms (b! "TechnicalMetadata") (technicalType D e) d ↔ e = .written ∧ (∀ f, t.format = some f → f.config ≠ none) ∧
        (∀ x, t.tocs = some x → x.conforms D) ∧ ∀ x, t.apps = some x → x.conforms D)) := by
  obtain ⟨⟨f, hf, hfs⟩, ⟨x, hx, hxw⟩, ha⟩ := h
  have ht : ∀ y, t.tocs = some y → ∀ z ∈ y.list, z.writable := by
    intro y hy; rw [hx] at hy; injection hy with hy; subst hy; exact hxw
  have hc : t.complete = true := by simp [TechMeta.complete, hx, hf]
  have hv := tech_valid hD (e := e) hfs ht ha
  unfold TechMeta.saveString TechMeta.saveFile
  rw [if_neg (by simp [hc]), if_neg (by simp [hc]), TechMeta.saveXml_eq hf ht ha]
  refine doc_conforms techCb_space compact (by decide) (by decide) (TechMeta.nodeOf_savable hfs ht ha) (tech_shape hfs _ _)
    (loose_technical D e) (hv.trans ?_)
  rw [hx, hf]
  simp

/-- Saved control data follow no edition, whatever the element of the type `ControlFrame` should be called: what is written is the two
    parts without an element around them, which is not an XML document. -/
theorem C67_saved_control {D : Char → Prop} {T : Bytes → Prop} (e : Edition) (c : ControlData L) (h : c.writable) (compact : Bool)
    {name : Bytes} (hn : name.head? ≠ some 33 ∧ name.head? ≠ some 63) :
    (∃ s d, c.saveString compact = some s ∧ Xml.loadString s = some d ∧ ¬ Conforms name (controlType D T e) d) ∧
    (∃ s d, c.saveFile compact = (true, some s) ∧ Xml.loadFile s = some d ∧ ¬ Conforms name (controlType D T e) d) := by
  obtain ⟨⟨a, hadm, has⟩, t, htech, ⟨f, hf, hfs⟩, ⟨x, hx, hxw⟩, ha⟩ := h
  have ht : ∀ y, t.tocs = some y → ∀ z ∈ y.list, z.writable := by
    intro y hy; rw [hx] at hy; injection hy with hy; subst hy; exact hxw
  have hc : c.complete = true := by simp [ControlData.complete, hadm, htech]
  have hs : c.saveXml = some [a.node, TechMeta.nodeOf f t.tocs t.apps] := by
    unfold ControlData.saveXml
    rw [hadm, htech]
    simp only [Option.bind_some, Admin.saveXml_eq, TechMeta.saveXml_eq hf ht ha, Option.map_some]
  have hd : ControlData.document [a.node, TechMeta.nodeOf f t.tocs t.apps] =
      .elem xmlDecl [] [a.node, TechMeta.nodeOf f t.tocs t.apps] := rfl
  have hsav : ∀ n ∈ [a.node, TechMeta.nodeOf f t.tocs t.apps], Savable n := by
    intro n hn
    simp only [List.mem_cons, List.not_mem_nil, or_false] at hn
    rcases hn with rfl | rfl
    · exact Admin.node_savable has
    · exact TechMeta.nodeOf_savable hfs ht ha
  have key : ∀ d, IsRead d (.elem xmlDecl [] [a.node, TechMeta.nodeOf f t.tocs t.apps]) → ¬ Conforms name (controlType D T e) d := by
    intro d hd hc
    have k := conforms_read hd hn hc
    have ka : ¬ b! "AdministrativeMetadata" ≠ name := by
      intro hne
      have := k _ (by decide) hne
      rw [List.filter_eq_nil_iff] at this
      exact this a.node (by simp) rfl
    have kt : ¬ b! "TechnicalMetadata" ≠ name := by
      intro hne
      have := k _ (by decide) hne
      rw [List.filter_eq_nil_iff] at this
      exact this (TechMeta.nodeOf f t.tocs t.apps) (by simp) rfl
    have e1 := Classical.not_not.mp ka
    have e2 := Classical.not_not.mp kt
    exact absurd (e1.trans e2.symm) (by decide)
  obtain ⟨⟨T1, h1, r1⟩, ⟨T2, h2, r2⟩⟩ := read_documents (spaceCb_if controlCb_space compact) (by simp) hsav
  unfold ControlData.saveString ControlData.saveFile
  rw [hc, hs]
  simp only [Bool.true_eq_false, if_false]
  rw [hd, saveAlloc_elem]
  exact ⟨⟨_, _, rfl, h1, key _ r1⟩, ⟨_, _, rfl, h2, key _ r2⟩⟩

end

/-! ## Texts -/

section
variable {D : Char → Prop} {T : Bytes → Prop} {e : Edition} {L : ConfigLib} (hL : LawfulConfig L)

theorem proper_element {name : Bytes} (hn : name.head? ≠ some 33 ∧ name.head? ≠ some 63) :
    (name.head? != some 33 && name.head? != some 63) = true := by
  simp only [Bool.and_eq_true, bne_iff_ne, ne_eq]
  exact hn

include hL in
/-- Control data from a text in memory. -/
theorem C67_control_string {name : Bytes} (hn : name.head? ≠ some 33 ∧ name.head? ≠ some 63)
    (hne : name ≠ b! "AdministrativeMetadata" ∧ name ≠ b! "TechnicalMetadata") {s : Bytes} (hs : s ≠ []) {doc : Node}
    (hd : Xml.loadString s = some doc) (hc : Conforms name (controlType D T e) doc) (hp : PlainTextsList (roots doc)) (c : ControlData L) :
    ∃ n a m x t, root doc = some n ∧ child n (b! "AdministrativeMetadata") = some a ∧ child n (b! "TechnicalMetadata") = some m ∧
      child m (b! "Tocs") = some x ∧ c.loadString s = (true, ⟨some (adminOf a), some t⟩) ∧
      (FilesFit x → SaysTechnical TechMeta.create t m) ∧ (¬ FilesFit x → t = TechMeta.create) := by
  obtain ⟨n, a, m, x, t, h1, h2, h3, h4, h5, h6⟩ :=
    C67_control hL hn hne hc (plainDoc_of_texts (proper_element hn) (loadData_leaf hd) hc hp) c
  refine ⟨n, a, m, x, t, h1, h2, h3, h4, ?_, h6⟩
  unfold ControlData.loadString loadFromString
  rw [if_neg (by simpa using hs), hd]
  exact h5

include hL in
/-- Control data from a file. -/
theorem C67_control_file {name : Bytes} (hn : name.head? ≠ some 33 ∧ name.head? ≠ some 63)
    (hne : name ≠ b! "AdministrativeMetadata" ∧ name ≠ b! "TechnicalMetadata") {s : Bytes} {doc : Node}
    (hd : Xml.loadFile s = some doc) (hc : Conforms name (controlType D T e) doc) (hp : PlainTextsList (roots doc)) (c : ControlData L) :
    ∃ n a m x t, root doc = some n ∧ child n (b! "AdministrativeMetadata") = some a ∧ child n (b! "TechnicalMetadata") = some m ∧
      child m (b! "Tocs") = some x ∧ c.loadFile s = (true, ⟨some (adminOf a), some t⟩) ∧
      (FilesFit x → SaysTechnical TechMeta.create t m) ∧ (¬ FilesFit x → t = TechMeta.create) := by
  obtain ⟨n, a, m, x, t, h1, h2, h3, h4, h5, h6⟩ :=
    C67_control hL hn hne hc (plainDoc_of_texts (proper_element hn) (loadData_leaf hd) hc hp) c
  refine ⟨n, a, m, x, t, h1, h2, h3, h4, ?_, h6⟩
  unfold ControlData.loadFile loadFromFile
  rw [hd]
  exact h5

end

/-! ## Examples -/

/-- A boxing format in the written edition, with a property given twice and one without value. -/
def exWork67 : Node := .elem (b! "work") [(b! "version", some (b! "2"))]
  [.elem (b! "!-- settings --") [] [],
   .elem (b! "class") [(b! "version", some (b! "7")), (b! "key", some (b! "A"))]
    [.elem (b! "property") [(b! "value", some (b! "1")), (b! "key", some (b! "p"))] [],
     .elem (b! "property") [(b! "key", some (b! "p")), (b! "value", some (b! "2"))] [],
     .elem (b! "property") [(b! "key", some (b! "q"))] []],
   .elem (b! "class") [] [.elem (b! "property") [(b! "key", some (b! "p")), (b! "value", some (b! "3"))] []]]

/-- Administrative metadata in both editions, with all elements. -/
def exAdmin67 : Node := .elem (b! "AdministrativeMetadata") []
  [.elem (b! "ReelId") [] [.text (b! " r1 ")], .elem (b! "PrintReelId") [] [], .elem (b! "JobId") [] [.text (b! "j")],
   .elem (b! "Title") [] [.text (b! "t")], .elem (b! "Description") [] [.text (b! "d")], .elem (b! "?pi?") [] [], .elem (b! "Creator") [] [.text (b! "c")],
   .elem (b! "CreationDate") [] [.text (b! "2020-01-01T00:00:00")], .elem (b! "Location") [] [.text (b! "l")]]

/-- The whole, in the written edition. -/
def exControl67 : Node := .elem (b! "ControlFrame") [(b! "version", some (b! "1"))]
  [exAdmin67, .elem (b! "TechnicalMetadata") []
    [.elem (b! "BoxerFormat") [] [exWork67], .elem (b! "Tocs") [] [.elem (b! "files") [] [exFile64]],
     .elem (b! "Applications") [] [.elem (b! "files") [] [exFile64, exFile64]]]]

def exDoc67 : Node := .elem (b! "?xml version=\"1.0\"?") [] [exControl67]

/-- A boxing format in the published edition. -/
def exWork67p : Node := .elem (b! "work") []
  [.elem (b! "class") [] [.elem (b! "property") [(b! "key", some (b! "p")), (b! "value", some (b! "1"))] []]]

/-- The whole, in the published edition. -/
def exControl67p : Node := .elem (b! "ControlFrame") []
  [exAdmin67, .elem (b! "TechnicalMetadata") [(b! "version", some (b! "x"))]
    [.elem (b! "BoxerFormat") [] [exWork67p], .elem (b! "Tocs") [] [exFile64]]]

def exDoc67p : Node := .elem (b! "?xml version=\"1.0\"?") [] [.elem (b! "!--c--") [] [], exControl67p]

theorem string_attr {as : List (Bytes × Option Bytes)} {ds : List Attr} (hr : ∀ d ∈ ds, d.required = false) (hs : ∀ d ∈ ds, d.type = Schema.string)
    (ha : ∀ a ∈ as, a.1 ∈ ds.map Attr.name ∧ a.2 ≠ none) : AttrsOk ds as := by
  refine ⟨?_, fun d hd h => by rw [hr d hd] at h; cases h⟩
  intro a h
  obtain ⟨h1, h2⟩ := ha a h
  obtain ⟨d, hd, e⟩ := List.mem_map.mp h1
  obtain ⟨v, hv⟩ := Option.ne_none_iff_exists'.mp h2
  exact ⟨d, hd, e, v, hv, by rw [hs d hd]; trivial⟩

theorem property67 {as : List (Bytes × Option Bytes)} (ha : ∀ a ∈ as, a.1 ∈ [b! "key", b! "value"] ∧ a.2 ≠ none) : Valid propertyType as [] := by
  rw [propertyType, Valid]
  exact ⟨string_attr (by simp) (by simp) ha, rfl, rfl⟩

theorem part_more {name : Bytes} {lo : Nat} {ty : Ty} {rest : Parts} {as cs} {ys : List Node} (h : Valid ty as cs)
    (hr : InOrder (.cons name 0 none ty rest) (elements ys)) (hn : (name.head? != some 33 && name.head? != some 63) = true := by decide +kernel)
    (hlo : lo ≤ 1 := by decide) : InOrder (.cons name lo none ty rest) (elements (.elem name as cs :: ys)) := by
  have e : elements (.elem name as cs :: ys) = .elem name as cs :: elements ys := by
    unfold elements; rw [List.filter_cons_of_pos]; rw [isElement, hn]
  rw [InOrder] at hr
  obtain ⟨xs, zs, h1, -, -, h4, h5⟩ := hr
  rw [e, InOrder]
  refine ⟨.elem name as cs :: xs, zs, by rw [h1]; rfl, by simp; omega, by simp, ?_, h5⟩
  intro x hx
  rcases List.mem_cons.mp hx with rfl | hx
  · exact ⟨_, _, rfl, h⟩
  · exact h4 x hx

theorem exAdmin67_valid {T : Bytes → Prop} (hT : T (b! "2020-01-01T00:00:00")) (e : Edition) : Valid (adminType T e) [] exAdmin67.children := by
  have hl : e.least ≤ 1 := by cases e <;> decide
  refine seq_valid (noAttrs (by simp)) ?_
  refine part_one (text_valid trivial) (part_one (by rw [Valid]; exact ⟨noAttrs (by simp), rfl, trivial⟩) (part_one (text_valid trivial)
    (part_one (text_valid trivial) (part_one (text_valid trivial) (part_skip (part_one (text_valid trivial) (part_one (text_valid ?_)
      (part_one (text_valid trivial) part_end (hlo := hl)) (hlo := hl)) (hlo := hl))) (hlo := hl)) (hlo := hl)) (hlo := hl)) (hlo := hl)) (hlo := hl)
  exact cast (congrArg T (by decide +kernel)) hT

theorem exWork67_valid : Valid (formatType .written) exWork67.attrs exWork67.children := by
  refine seq_valid (string_attr (by simp) (by simp) (by decide)) (part_skip (part_more ?_ (part_more ?_ (part_none part_end))))
  · exact seq_valid (string_attr (by simp [Edition.classAttrs]) (by simp [Edition.classAttrs]) (by decide +kernel))
      (part_more (property67 (by decide +kernel)) (part_more (property67 (by decide +kernel)) (part_more (property67 (by decide +kernel)) (part_none part_end))))
  · exact seq_valid (noAttrs (by simp [Edition.classAttrs])) (part_more (property67 (by decide +kernel)) (part_none part_end))

theorem exWork67p_valid : Valid (formatType .published) exWork67p.attrs exWork67p.children := by
  refine seq_valid (noAttrs (by simp)) (part_more ?_ (part_none part_end))
  exact seq_valid (noAttrs (by simp [Edition.classAttrs])) (part_more (property67 (by decide +kernel)) (part_none part_end))

theorem exDoc67_conforms {D : Char → Prop} (hD : HasDigits D) {T : Bytes → Prop} (hT : T (b! "2020-01-01T00:00:00")) :
    Conforms (b! "ControlFrame") (controlType D T .written) exDoc67 := by
  refine ⟨_, _, ?_, .inr ⟨_, _, rfl, ⟨b! " version=\"1.0\"?", rfl⟩, rfl⟩⟩
  refine seq_valid (string_attr (by simp) (by simp) (by decide)) (part_one (exAdmin67_valid hT _) (part_one (seq_valid (noAttrs (by simp)) ?_) part_end))
  refine part_one (seq_valid (noAttrs (by simp)) (part_one exWork67_valid part_end)) (part_one (seq_valid (noAttrs (by simp)) (part_one ?_ part_end))
    (part_one (seq_valid (noAttrs (by simp)) (part_one ?_ part_end)) part_end))
  · exact seq_valid (noAttrs (by simp)) (part_more (exFile64_valid hD) (part_none part_end))
  · exact seq_valid (noAttrs (by simp)) (part_more (exFile64_valid hD) (part_more (exFile64_valid hD) (part_none part_end)))

theorem exDoc67p_conforms {D : Char → Prop} (hD : HasDigits D) {T : Bytes → Prop} (hT : T (b! "2020-01-01T00:00:00")) :
    Conforms (b! "ControlFrame") (controlType D T .published) exDoc67p := by
  refine ⟨_, _, ?_, .inr ⟨_, _, rfl, ⟨b! " version=\"1.0\"?", rfl⟩, rfl⟩⟩
  refine seq_valid (noAttrs (by simp)) (part_one (exAdmin67_valid hT _) (part_one (seq_valid (string_attr (by simp) (by simp) (by decide)) ?_) part_end))
  exact part_one (seq_valid (noAttrs (by simp)) (part_one exWork67p_valid part_end)) (part_one (seq_valid (noAttrs (by simp)) (part_one (exFile64_valid hD) part_end))
    part_end)

theorem exDoc67_plain : PlainDoc exDoc67 := plainListB_sound _ (by decide +kernel)
theorem exDoc67p_plain : PlainDoc exDoc67p := plainListB_sound _ (by decide +kernel)

theorem exFits67 : ∀ n : Node, fileNodes n = [exFile64] ∨ fileNodes n = [exFile64, exFile64] → FilesFit n := by
  have hv : ValidFile (fileOf exFile64) := (C37_file _).mp (by decide +kernel)
  have hs : ∀ m ∈ childrenOf exFile64 (b! "metadata"), ∀ s ∈ childrenOf m (b! "source"), attr s (b! "fileId") ≠ none := by decide +kernel
  intro n hn f hf
  have : f = exFile64 := by rcases hn with hn | hn <;> (rw [hn] at hf; simpa using hf)
  rw [this]
  exact ⟨hv, hs⟩

theorem exNodes67 : ∃ a m x y, root exDoc67 = some exControl67 ∧ child exControl67 (b! "AdministrativeMetadata") = some a ∧
    child exControl67 (b! "TechnicalMetadata") = some m ∧ child m (b! "Tocs") = some x ∧ child m (b! "Applications") = some y ∧
    adminOf a = ⟨some (b! "r1"), some [], some (b! "t"), some (b! "d"), some (b! "c"), some (b! "2020-01-01T00:00:00")⟩ ∧
    techSettings m = [(b! "A", b! "version", b! "7"), (b! "A", b! "p", b! "1"), (b! "A", b! "p", b! "2")] ∧
    fileNodes x = [exFile64] ∧ fileNodes y = [exFile64, exFile64] :=
  ⟨_, _, _, _, by decide +kernel, rfl, rfl, rfl, rfl, by decide +kernel, by decide +kernel, by decide +kernel, by decide +kernel⟩

/-- The document of the written edition is loaded as what it says, by every lawful library. -/
theorem C67_example_written {L : ConfigLib} (hL : LawfulConfig L) (c : ControlData L) :
    ∃ g : L.Config, c.loadXml exDoc67 = (true, ⟨some ⟨some (b! "r1"), some [], some (b! "t"), some (b! "d"), some (b! "c"), some (b! "2020-01-01T00:00:00")⟩,
        some ⟨some (Format.create2 (some g)), some ⟨some [fileOf exFile64]⟩, some ⟨some [fileOf exFile64, fileOf exFile64]⟩⟩⟩) ∧
      configGet L g (b! "A") (b! "p") = some (b! "2") ∧ configGet L g (b! "A") (b! "version") = some (b! "7") ∧
      configGet L g (b! "A") (b! "q") = none ∧ (∀ k, HasClass L g k ↔ k = b! "A") := by
  have hc := exDoc67_conforms (D := fun _ => True) (fun _ _ _ => trivial) (T := fun _ => True) trivial
  have hp := exDoc67_plain
  obtain ⟨a, m, x, y, k1, k2, k3, k4, k5, k6, k7, k8, k9⟩ := exNodes67
  have hfit := exFits67
  generalize exDoc67 = d at *
  generalize exControl67 = r at *
  obtain ⟨n, a', m', x', t, h1, h2, h3, h4, h5, h6, h7⟩ := C67_control hL (by decide) (by decide) hc hp c
  rw [k1] at h1; injection h1 with h1; subst h1
  rw [k2] at h2; injection h2 with h2; subst h2
  rw [k3] at h3; injection h3 with h3; subst h3
  rw [k4] at h4; injection h4 with h4; subst h4
  obtain ⟨⟨g, hg, hh⟩, ht, ha1, ha2⟩ := h6 (hfit _ (.inl k8))
  obtain ⟨q1, q2, q3⟩ := hh (by rw [k7]; unfold NoAlias; decide)
  have e2 := (ha2 y k5).1 (hfit _ (.inr k9))
  refine ⟨g, ?_, ?_, ?_, ?_, ?_⟩
  · rw [h5, k6]
    obtain ⟨t1, t2, t3⟩ := t
    simp only at hg ht e2
    rw [hg, ht, e2, k4, Option.map_some]
    unfold tocsOf
    rw [k8, k9]
    rfl
  · rw [q1, k7]; rfl
  · rw [q1, k7]; rfl
  · rw [q1, k7]; rfl
  · intro k
    rw [q2, k7]
    simp [eq_comm]

theorem exNodes67p : ∃ a m x, root exDoc67p = some exControl67p ∧ child exControl67p (b! "AdministrativeMetadata") = some a ∧
    child exControl67p (b! "TechnicalMetadata") = some m ∧ child m (b! "Tocs") = some x ∧ child m (b! "Applications") = none ∧
    techSettings m = [] ∧ fileNodes x = [exFile64] ∧ child m (b! "BoxerFormat") = some (.elem (b! "BoxerFormat") [] [exWork67p]) :=
  ⟨_, _, _, by decide +kernel, rfl, rfl, rfl, rfl, by decide +kernel, by decide +kernel, rfl⟩

/-- The document of the published edition is loaded too, with its file, but without the property of its boxing format. -/
theorem C67_example_published {L : ConfigLib} (hL : LawfulConfig L) (c : ControlData L) :
    ∃ (a : Admin) (g : L.Config), c.loadXml exDoc67p = (true, ⟨some a, some ⟨some (Format.create2 (some g)), some ⟨some [fileOf exFile64]⟩, none⟩⟩) ∧
      (∀ k p, configGet L g k p = none) ∧ a.reelId = some (b! "r1") := by
  have hc := exDoc67p_conforms (D := fun _ => True) (fun _ _ _ => trivial) (T := fun _ => True) trivial
  have hp := exDoc67p_plain
  obtain ⟨a, m, x, k1, k2, k3, k4, k5, k6, k7, _⟩ := exNodes67p
  have hr : (adminOf a).reelId = some (b! "r1") := by
    have k2' : child exControl67p (b! "AdministrativeMetadata") = some exAdmin67 := rfl
    rw [k2'] at k2; injection k2 with k2; subst k2
    decide +kernel
  have hfit := exFits67
  generalize exDoc67p = d at *
  generalize exControl67p = r at *
  obtain ⟨n, a', m', x', t, h1, h2, h3, h4, h5, h6, h7⟩ := C67_control hL (by decide) (by decide) hc hp c
  rw [k1] at h1; injection h1 with h1; subst h1
  rw [k2] at h2; injection h2 with h2; subst h2
  rw [k3] at h3; injection h3 with h3; subst h3
  rw [k4] at h4; injection h4 with h4; subst h4
  obtain ⟨⟨g, hg, hh⟩, ht, ha1, ha2⟩ := h6 (hfit _ (.inl k7))
  obtain ⟨q1, q2, q3⟩ := hh (by rw [k6]; simp [NoAlias])
  refine ⟨adminOf a, g, ?_, fun k p => by rw [q1, k6]; rfl, hr⟩
  rw [h5]
  obtain ⟨t1, t2, t3⟩ := t
  have e3 := ha1 k5
  simp only at hg ht e3
  rw [hg, ht, e3, k4, Option.map_some]
  unfold tocsOf
  rw [k7]
  rfl

/-- Administrative metadata without an XML declaration: a document of both editions, refused. -/
theorem C67_example_refused (a : Admin) (e : Edition) :
    Conforms (b! "AdministrativeMetadata") (adminType (fun _ => True) e) exAdmin67 ∧ a.loadXml exAdmin67 = (false, a) := by
  have hc : Conforms (b! "AdministrativeMetadata") (adminType (fun _ => True) e) exAdmin67 := ⟨_, _, exAdmin67_valid trivial e, .inl rfl⟩
  refine ⟨hc, ?_⟩
  obtain ⟨n, -, -, h⟩ := C67_admin hc (plainListB_sound _ (by decide +kernel)) a
  exact h rfl

/-- Saved objects that follow the written edition exist: the example of C48 does if its creation date is a date. -/
theorem C67_example_saved (compact : Bool) : ∃ t d, adminExample.saveString compact = some t ∧ Xml.loadString t = some d ∧
    Conforms (b! "AdministrativeMetadata") (adminType (fun s => s = b! "2020-01-01") .written) d ∧
    ¬ Conforms (b! "AdministrativeMetadata") (adminType (fun s => s = b! "2020-01-01") .published) d ∧
    ¬ Conforms (b! "AdministrativeMetadata") (adminType (fun s => s = b! "2020-01-01T00:00:00") .written) d := by
  obtain ⟨⟨t, d, h1, h2, h3⟩, -⟩ := C67_saved_admin (fun s => s = b! "2020-01-01") .written _ adminExample_storable compact
  obtain ⟨⟨t', d', h1', h2', h3'⟩, -⟩ := C67_saved_admin (fun s => s = b! "2020-01-01") .published _ adminExample_storable compact
  obtain ⟨⟨t'', d'', h1'', h2'', h3''⟩, -⟩ := C67_saved_admin (fun s => s = b! "2020-01-01T00:00:00") .written _ adminExample_storable compact
  rw [h1] at h1' h1''
  injection h1' with h1'; injection h1'' with h1''
  subst h1'; subst h1''
  rw [h2] at h2' h2''
  injection h2' with h2'; injection h2'' with h2''
  subst h2'; subst h2''
  refine ⟨t, d, h1, h2, h3.mpr ⟨rfl, ?_⟩, fun h => absurd (h3'.mp h).1 (by simp), fun h => ?_⟩
  · intro x hx
    have : x = b! "2020-01-01" := by injection hx with hx; exact hx.symm
    subst this
    decide
  · have := (h3''.mp h).2 (b! "2020-01-01") rfl
    revert this
    decide

end Afs
