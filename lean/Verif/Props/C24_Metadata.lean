import Verif.Proof.IoMeta
/-!
# C24 metadata survives save and load
-/
namespace Afs
open Spec Xml

theorem metaSourceCb_space : SpaceCb MetaSource.cb :=
  cb_white (by intro a n w; unfold MetaSource.cb cbOf; dsimp only; (repeat' split) <;> decide)
theorem tocMetaCb_space : SpaceCb TocMeta.cb :=
  cb_white (by intro a n w; unfold TocMeta.cb cbOf; dsimp only; (repeat' split) <;> decide)
theorem fileMetaSourceCb_space : SpaceCb FileMetaSource.cb :=
  cb_white (by intro a n w; unfold FileMetaSource.cb cbOf; dsimp only; (repeat' split) <;> decide)
theorem fileMetaCb_space : SpaceCb FileMeta.cb :=
  cb_white (by intro a n w; unfold FileMeta.cb cbOf; dsimp only; (repeat' split) <;> decide)

/-- A metadata source loads as itself. -/
theorem C24_source (s : MetaSource) (h : s.storable) (compact : Bool) :
    (∃ t, s.saveString compact = some t ∧ MetaSource.create.loadString t = (true, s)) ∧
    (∃ t, s.saveFile compact = (true, some t) ∧ MetaSource.create.loadFile t = (true, s)) := by
  unfold MetaSource.saveString MetaSource.saveFile MetaSource.loadString MetaSource.loadFile
  rw [if_neg (by simp [h.1]), MetaSource.saveXml_eq h.1]
  refine doc_roundtrip metaSourceCb_space compact (by decide) (MetaSource.node_savable h) _ _ _ fun T hT => ?_
  obtain ⟨d, h1, h2⟩ := isRead_doc (nm := b! "source") (by decide) rfl hT
  exact MetaSource.loadXml_of h h1 h2

/-- TOC metadata loads as itself: all sources in order.  (`save_string` writes the element alone,
    `save_file` a document.) -/
theorem C24_metadata (m : TocMeta) (h : m.storable) (compact : Bool) :
    (∃ t, m.saveString compact = some t ∧ TocMeta.create.loadString t = (true, m)) ∧
    (∃ t, m.saveFile compact = (true, some t) ∧ TocMeta.create.loadFile t = (true, m)) := by
  unfold TocMeta.saveString TocMeta.saveFile TocMeta.loadString TocMeta.loadFile
  rw [TocMeta.saveXml_eq h.1]
  constructor
  · exact elem_roundtrip tocMetaCb_space compact (by decide) (TocMeta.node_savable h) _ _ _ fun T hT =>
      TocMeta.loadXml_of h (isRead_self hT rfl) hT
  · refine (doc_roundtrip tocMetaCb_space compact (by decide) (TocMeta.node_savable h) _ _ _ fun T hT => ?_).2
    obtain ⟨d, h1, h2⟩ := isRead_doc (nm := b! "metadata") (by decide) rfl hT
    exact TocMeta.loadXml_of h h1 h2

/-- A metadata source of a file loads as itself. -/
theorem C24_file_source (s : FileMetaSource) (h : s.storable) (compact : Bool) :
    (∃ t, s.saveString compact = some t ∧ FileMetaSource.create.loadString t = (true, s)) ∧
    (∃ t, s.saveFile compact = (true, some t) ∧ FileMetaSource.create.loadFile t = (true, s)) := by
  unfold FileMetaSource.saveString FileMetaSource.saveFile FileMetaSource.loadString FileMetaSource.loadFile
  rw [if_neg (by simp [h.1]), FileMetaSource.saveXml_eq h.1]
  refine doc_roundtrip fileMetaSourceCb_space compact (by decide) (FileMetaSource.node_savable h) _ _ _ fun T hT => ?_
  obtain ⟨d, h1, h2⟩ := isRead_doc (nm := b! "source") (by decide) rfl hT
  exact FileMetaSource.loadXml_of h h1 h2

/-- The metadata of a file loads as itself: all sources in order. -/
theorem C24_file_metadata (m : FileMeta) (h : m.storable) (compact : Bool) :
    (∃ t, m.saveString compact = some t ∧ FileMeta.create.loadString t = (true, m)) ∧
    (∃ t, m.saveFile compact = (true, some t) ∧ FileMeta.create.loadFile t = (true, m)) := by
  unfold FileMeta.saveString FileMeta.saveFile FileMeta.loadString FileMeta.loadFile
  rw [FileMeta.saveXml_eq h]
  constructor
  · exact elem_roundtrip fileMetaCb_space compact (by decide) (FileMeta.node_savable h) _ _ _ fun T hT =>
      FileMeta.loadXml_of h (isRead_self hT rfl) hT
  · refine (doc_roundtrip fileMetaCb_space compact (by decide) (FileMeta.node_savable h) _ _ _ fun T hT => ?_).2
    obtain ⟨d, h1, h2⟩ := isRead_doc (nm := b! "metadata") (by decide) rfl hT
    exact FileMeta.loadXml_of h h1 h2

/-! ### The excluded cases are really lost -/

set_option maxRecDepth 100000 in
/-- Data containing `]]>` is cut off there. -/
theorem C24_cdata_end_cuts :
    let s : MetaSource := ⟨some (b! "f"), 1, -1, some (b! "a]]>b"), none⟩
    s.isValid = true ∧ ∃ t, s.saveString true = some t ∧
      MetaSource.create.loadString t = (true, { s with data := some (b! "a") }) :=
  ⟨by decide, _, rfl, by decide +kernel⟩

set_option maxRecDepth 100000 in
/-- The format id of a file metadata source without data is lost. -/
theorem C24_format_without_data_lost :
    let s : FileMetaSource := ⟨none, some (b! "f"), 3, 4⟩
    s.isValid = true ∧ ∃ t, s.saveString true = some t ∧
      FileMetaSource.create.loadString t = (true, { s with formatId := none }) :=
  ⟨by decide, _, rfl, by decide +kernel⟩

set_option maxRecDepth 100000 in
/-- An empty tag list is lost. -/
theorem C24_empty_tags_lost :
    let s : MetaSource := ⟨some (b! "f"), 1, 2, none, some [[]]⟩
    s.isValid = true ∧ ∃ t, s.saveString true = some t ∧
      MetaSource.create.loadString t = (true, { s with tags := none }) :=
  ⟨by decide, _, rfl, by decide +kernel⟩

/-- Data that ends in `]]` is not one of them: the brackets the XML library leaves on the text
    are removed once. -/
example : stripBrackets (b! "a]]" ++ b! "]]") = b! "a]]" := by decide

/-- Non-trivial instance: XML inside the data, two tags. -/
example : (TocMeta.mk (some [⟨some (b! "f&1"), 1, -1, some (b! "<x a=\"1\">]]&</x>"), some (splitOn semicolon (b! "t1;t 2"))⟩,
    ⟨some (b! "g"), 2, 77, none, none⟩])).storable := by
  refine ⟨by decide, ?_⟩
  intro x hx
  simp only [Option.getD_some, List.mem_cons, List.not_mem_nil, or_false] at hx
  rcases hx with rfl | rfl
  · refine ⟨by decide, attrField_ascii (by decide), by decide, by decide, ?_, ?_⟩
    · intro d hd
      cases hd
      exact ⟨clean_ascii (by decide), by decide⟩
    · intro l hl
      cases hl
      exact ⟨b! "t1;t 2", textField_ascii (by decide), rfl⟩
  · refine ⟨by decide, attrField_ascii (by decide), by decide, by decide, ?_, ?_⟩
    · intro d hd; cases hd
    · intro d hd; cases hd

/-- Non-trivial instance for files: an embedded and a referenced source. -/
example : (FileMeta.mk (some [⟨some (b! "<a/>"), some (b! "fmt"), -1, -1⟩, ⟨none, none, 5, 1⟩])).storable := by
  refine ⟨by simp, ?_⟩
  intro x hx
  simp only [Option.getD_some, List.mem_cons, List.not_mem_nil, or_false] at hx
  rcases hx with rfl | rfl
  · refine ⟨by decide, attrField_ascii (by decide), by decide, by decide, ?_, ?_⟩
    · intro d hd
      cases hd
      exact ⟨clean_ascii (by decide), by decide⟩
    · intro h; cases h
  · exact ⟨by decide, attrField_none, by decide, by decide, (by intro d hd; cases hd), fun _ => rfl⟩

set_option maxRecDepth 100000 in
/-- Metadata given as plain text instead of CDATA is read as well, without the white space
    around it; a file metadata source without `sourceId` refers to source -1. -/
theorem C24_plain_text_data (d : Bytes) :
    MetaSource.create.loadXml (.elem (b! "source")
        [(b! "formatId", some (b! "f")), (b! "id", some (b! "1")), (b! "fileId", some (b! "2"))]
        [.elem (b! "data") [] [.text d]]) = (true, ⟨some (b! "f"), 1, 2, some (stringTrim d), none⟩) ∧
    FileMetaSource.create.loadXml (.elem (b! "source") [(b! "fileId", some (b! "3"))]
        [.elem (b! "data") [(b! "formatId", some (b! "g"))] [.text d]]) =
      (true, ⟨some (stringTrim d), some (b! "g"), 3, -1⟩) :=
  ⟨rfl, Prod.ext (Bool.or_true _) rfl⟩

end Afs
