import Verif.Proof.DocumentEx
import Verif.Spec.Loading
import Verif.Proof.NodeEq
import Verif.Proof.XmlLeaf
/-!
# C64: documents that follow the published schema load with exactly the values they state

The schema is that of C61.  Documents may come from anywhere: comments, processing instructions and white space between elements,
leading zeros and signs of numbers, any order of attributes.  `PlainDoc` is what is demanded beyond the schema: texts are in one
piece, sizes of pages are written `NxM`, ids of sources are numerals; counterexamples show that each of these is needed.
-/
namespace Afs
open Spec Xml Spec.Schema Spec.Document

/-! ## The index -/

/-- An index: whatever was in the object, the load has no undefined behaviour, it succeeds exactly if every metadata source has its
    ids and every part is valid, and then the object is what the document says. -/
theorem C64_index {D : Char → Prop} {doc : Node} (hc : Conforms (b! "Index") (indexType D) doc) (hp : PlainDoc doc) (t : TocData) :
    ∃ n r, root doc = some n ∧ t.loadXml doc = .ok r ∧ LoadsAs r (HasIds n ∧ Acceptable (indexOf n)) (indexOf n) := by
  obtain ⟨as, cs, h1, h2, h3, h4⟩ := root_find (by decide) rfl hc hp
  obtain ⟨r, hr, hl⟩ := index_loads h3 h4 t doc h2
  exact ⟨_, r, h1, hr, hl⟩

mutual
theorem plain_of_texts : ∀ {n : Node}, LeafTree n → PlainTexts n → Plain n
  | .text _, _, _ => by rw [Plain]; trivial
  | .elem n as cs, hl, h => by
    rw [PlainTexts] at h
    rw [Plain]
    cases hl with
    | elem h1 h2 =>
      refine ⟨fun he => (h1 ?_).2, h.1, h.2.1, h.2.2.1, h.2.2.2.1, plainList_of_texts h2 h.2.2.2.2⟩
      unfold isElement at he
      rcases Bool.and_eq_false_iff.mp he with he | he
      · exact .inl (by simpa using he)
      · exact .inr (by simpa using he)
theorem plainList_of_texts : ∀ {cs : List Node}, (∀ c ∈ cs, LeafTree c) → PlainTextsList cs → PlainList cs
  | [], _, _ => by rw [PlainList]; trivial
  | c :: cs, hl, h => by
    rw [PlainTextsList] at h
    rw [PlainList]
    exact ⟨plain_of_texts (hl c (.head _)) h.1, plainList_of_texts (fun c hc => hl c (.tail _ hc)) h.2⟩
end

/-- What the reader returns and a schema describes is plain as soon as its texts are. -/
theorem plainDoc_of_texts {name : Bytes} {ty : Ty} {doc : Node} (hn : (name.head? != some 33 && name.head? != some 63) = true)
    (hl : LeafDoc doc) (hc : Conforms name ty doc) (h : PlainTextsList (roots doc)) : PlainDoc doc := by
  refine plainList_of_texts ?_ h
  obtain ⟨as, cs, _, hd⟩ := hc
  have hleaf : ∀ c ∈ doc.children, LeafTree c := by
    rcases hl with hl | ⟨n, cs, rfl, _, h⟩
    · cases hl with
      | text => intro c hc; cases hc
      | elem _ h2 => exact h2
    · exact h
  rcases hd with rfl | ⟨d, ks, rfl, hx, _⟩
  · have hlt : LeafTree (.elem name as cs) := by
      rcases hl with hl | ⟨n, cs', e, hs, _⟩
      · exact hl
      · injection e with e1 e2 e3
        subst e1
        simp only [Bool.and_eq_true, bne_iff_ne, ne_eq] at hn
        exact absurd hs (not_or.mpr hn)
    intro c hc
    rw [roots] at hc
    split at hc
    · exact hleaf c hc
    · rw [List.mem_singleton.mp hc]; exact hlt
  · intro c hc
    rw [roots, if_pos (List.isPrefixOf_iff_prefix.mpr hx)] at hc
    exact hleaf c hc

/-- The same for the text of a document in memory. -/
theorem C64_index_string {D : Char → Prop} {s : Bytes} (hs : s ≠ []) {doc : Node} (hd : Xml.loadString s = some doc)
    (hc : Conforms (b! "Index") (indexType D) doc) (hp : PlainTextsList (roots doc)) (t : TocData) :
    ∃ n r, root doc = some n ∧ t.loadString s = .ok r ∧ LoadsAs r (HasIds n ∧ Acceptable (indexOf n)) (indexOf n) := by
  obtain ⟨n, r, h1, h2, h3⟩ := C64_index hc (plainDoc_of_texts (by decide +kernel) (loadData_leaf hd) hc hp) t
  refine ⟨n, r, h1, ?_, h3⟩
  unfold TocData.loadString loadFromString
  rw [if_neg (by simpa using hs), hd]
  exact h2

/-- And for a file. -/
theorem C64_index_file {D : Char → Prop} {s : Bytes} {doc : Node} (hd : Xml.loadFile s = some doc)
    (hc : Conforms (b! "Index") (indexType D) doc) (hp : PlainTextsList (roots doc)) (t : TocData) :
    ∃ n r, root doc = some n ∧ t.loadFile s = .ok r ∧ LoadsAs r (HasIds n ∧ Acceptable (indexOf n)) (indexOf n) := by
  obtain ⟨n, r, h1, h2, h3⟩ := C64_index hc (plainDoc_of_texts (by decide +kernel) (loadData_leaf hd) hc hp) t
  refine ⟨n, r, h1, ?_, h3⟩
  unfold TocData.loadFile loadFromFile
  rw [hd]
  exact h2

/-- What is loaded does not depend on the object loaded into, nor on anything outside the element `Index`. -/
theorem C64_index_same {D : Char → Prop} {doc doc' : Node} (hc : Conforms (b! "Index") (indexType D) doc) (hp : PlainDoc doc)
    (hc' : Conforms (b! "Index") (indexType D) doc') (hp' : PlainDoc doc') (he : root doc = root doc') (t t' : TocData)
    {x : TocData} (h : t.loadXml doc = .ok (true, x)) : t'.loadXml doc' = .ok (true, x) := by
  obtain ⟨n, r, h1, h2, h3, h4⟩ := C64_index hc hp t
  obtain ⟨n', r', h1', h2', h3', h4'⟩ := C64_index hc' hp' t'
  rw [he, h1'] at h1
  injection h1 with h1
  subst h1
  rw [h] at h2
  injection h2 with h2
  subst h2
  have hcond := h3.mp rfl
  rw [h2']
  have e1 := h3'.mpr hcond
  have e2 := h4' hcond
  have e3 := h4 hcond
  cases r' with
  | mk b y => simp only at e1 e2 e3; rw [e1, e2, ← e3]

/-! ## The parts -/

theorem C64_file {D : Char → Prop} {doc : Node} (hc : Conforms (b! "file") (fileType D) doc) (hp : PlainDoc doc) :
    ∃ n, root doc = some n ∧ LoadsAs (File.create.loadXml doc)
      ((∀ p, (fileOf n).preview = some p → ∀ q ∈ p.pages.getD [], ValidPage q) ∧
        (∀ m ∈ childrenOf n (b! "metadata"), ∀ s ∈ childrenOf m (b! "source"), attr s (b! "fileId") ≠ none) ∧
        (∀ m, (fileOf n).metadata = some m → ValidFileMeta m)) (fileOf n) := by
  obtain ⟨as, cs, h1, h2, h3, h4⟩ := root_find (by decide) rfl hc hp
  have e : File.create.loadXml doc = File.create.loadXml (.elem (b! "file") as cs) := by
    unfold File.loadXml; rw [h2, selfOrFind_self]
  rw [e]
  exact ⟨_, h1, file_loads h3 h4⟩

theorem C64_reel {D : Char → Prop} {doc : Node} (hc : Conforms (b! "reel") (reelType D) doc) (hp : PlainDoc doc) :
    ∃ n, root doc = some n ∧ LoadsAs (Reel.create.loadXml doc)
      ((∀ fs ∈ childrenOf n (b! "files"), ∀ f ∈ childrenOf fs (b! "file"), ∀ m ∈ childrenOf f (b! "metadata"),
          ∀ s ∈ childrenOf m (b! "source"), attr s (b! "fileId") ≠ none) ∧
        ∀ f, (reelOf n).files = some f → ValidFiles f) (reelOf n) := by
  obtain ⟨as, cs, h1, h2, h3, h4⟩ := root_find (by decide) rfl hc hp
  have e : Reel.create.loadXml doc = Reel.create.loadXml (.elem (b! "reel") as cs) := by
    unfold Reel.loadXml; rw [h2, selfOrFind_self]
  rw [e]
  exact ⟨_, h1, reel_loads h3 h4⟩

theorem C64_preview {D : Char → Prop} {doc : Node} (hc : Conforms (b! "preview") (previewType D) doc) (hp : PlainDoc doc) :
    ∃ n, root doc = some n ∧
      LoadsAs (Preview.create.loadXml doc) (∀ q ∈ (previewOf n).pages.getD [], ValidPage q) (previewOf n) := by
  obtain ⟨as, cs, h1, h2, h3, h4⟩ := root_find (by decide) rfl hc hp
  have e : Preview.create.loadXml doc = Preview.create.loadXml (.elem (b! "preview") as cs) := by
    unfold Preview.loadXml; rw [h2, selfOrFind_self]
  rw [e]
  exact ⟨_, h1, preview_loads h3 h4⟩

theorem C64_pages {D : Char → Prop} {doc : Node} (hc : Conforms (b! "pages") (pagesType D) doc) (hp : PlainDoc doc) :
    ∃ n, root doc = some n ∧ Page.create.loadXml doc = (true, pageOf n) := by
  obtain ⟨as, cs, h1, h2, h3, h4⟩ := root_find (by decide) rfl hc hp
  have e : Page.create.loadXml doc = Page.create.loadXml (.elem (b! "pages") as cs) := by
    unfold Page.loadXml; rw [h2, selfOrFind_self]
  obtain ⟨l1, l2⟩ := page_loads h3 h4
  rw [e]
  exact ⟨_, h1, Prod.ext (l1.mpr trivial) (l2 trivial)⟩

theorem C64_file_metadata {doc : Node} (hc : Conforms (b! "metadata") fileMetadataType doc) (hp : PlainDoc doc) :
    ∃ n, root doc = some n ∧ LoadsAs (FileMeta.create.loadXml doc)
      ((∀ s ∈ childrenOf n (b! "source"), attr s (b! "fileId") ≠ none) ∧ ValidFileMeta (fileMetaOf n)) (fileMetaOf n) := by
  obtain ⟨as, cs, h1, h2, h3, h4⟩ := root_find (by decide) rfl hc hp
  have e : FileMeta.create.loadXml doc = FileMeta.create.loadXml (.elem (b! "metadata") as cs) := by
    unfold FileMeta.loadXml; rw [h2, selfOrFind_self]
  rw [e]
  exact ⟨_, h1, fileMeta_loads h3 h4⟩

theorem C64_metadata {doc : Node} (hc : Conforms (b! "metadata") metadataType doc) (hp : PlainDoc doc) :
    ∃ n, root doc = some n ∧ LoadsAs (TocMeta.create.loadXml doc)
      ((∀ s ∈ childrenOf n (b! "source"), attr s (b! "id") ≠ none ∧ attr s (b! "fileId") ≠ none) ∧
        ∀ s ∈ (metadataOf n).sources.getD [], ValidMetaSource s) (metadataOf n) := by
  obtain ⟨as, cs, h1, h2, h3, h4⟩ := root_find (by decide) rfl hc hp
  have e : TocMeta.create.loadXml doc = TocMeta.create.loadXml (.elem (b! "metadata") as cs) := by
    unfold TocMeta.loadXml; rw [h2, selfOrFind_self]
  rw [e]
  exact ⟨_, h1, meta_loads h3 h4⟩

theorem C64_layouts {doc : Node} (hc : Conforms (b! "layoutDefinitions") layoutDefinitionsType doc) (hp : PlainDoc doc) :
    ∃ n r, root doc = some n ∧ LayoutDefs.create.loadXml doc = .ok r ∧ LoadsAs r
      ((∀ x ∈ (layoutsOf n).defs.getD [], ValidLayout x ∧ ∀ s, x.sections = some s → ((s.sections.getD []).map Section.id).Nodup) ∧
        (((layoutsOf n).defs.getD []).map LayoutDef.id).Nodup) (layoutsOf n) := by
  obtain ⟨as, cs, h1, h2, h3, h4⟩ := root_find (by decide) rfl hc hp
  have e : LayoutDefs.create.loadXml doc = LayoutDefs.create.loadXml (.elem (b! "layoutDefinitions") as cs) := by
    unfold LayoutDefs.loadXml; rw [h2, selfOrFind_self]
  obtain ⟨r, hr, hl⟩ := layouts_loads h3 (plain_children (n := .elem (b! "layoutDefinitions") as cs) h4)
  rw [e]
  exact ⟨_, r, h1, hr, hl⟩

theorem C64_section {doc : Node} (hc : Conforms (b! "section") sectionType doc) (hp : PlainDoc doc) :
    ∃ n, root doc = some n ∧ LoadsAs (Section.create.loadXml doc) (ValidSection (sectionOf n)) (sectionOf n) := by
  obtain ⟨as, cs, h1, h2, h3, h4⟩ := root_find (by decide) rfl hc hp
  have e : Section.create.loadXml doc = Section.create.loadXml (.elem (b! "section") as cs) := by
    unfold Section.loadXml; rw [h2, selfOrFind_self]
  rw [e]
  exact ⟨_, h1, section_loads h3⟩

/-! ## Non-vacuity: a document no part of which the library would write like this -/

/-- A document with comments, a processing instruction, signs, leading zeros and white space. -/
def exText64 : Bytes := b! "<?xml version=\"1.0\"?><!-- made by hand --><Index version=\"1.0.0\"><indexType> reel </indexType><jobId>j</jobId><!-- x --><reelId>r 1</reelId><metadata><?p?><source fileId=\"007\" id=\"+3\" formatId=\"f\"><tags>a;b;</tags></source></metadata><layoutDefinitions><previewLayout><id>1</id><name>n</name><sections><section rotation=\"90\" id=\"1\" x=\"0\" y=\" 5\" w=\"10\" h=\"20\">?</section></sections></previewLayout></layoutDefinitions><reels><reel><id>r</id><files><!--y--><file><id>-1</id><uniqueId/><name>x</name><date>2020-01-01</date><data><checksum>c</checksum><size>4294967295</size><start frame=\"1\" byte=\"2\"/><end byte=\"4\" frame=\"3\"/></data><preview><pages dimension=\"3x4\" layoutId=\"1\" count=\"1\"/></preview><metadata><source fileId=\"5\"><data> d </data></source></metadata></file></files></reel></reels></Index>"

/-- Its element `file`. -/
def exFile64 : Node :=
  .elem (b! "file") [] [.elem (b! "id") [] [.text (b! "-1")], .elem (b! "uniqueId") [] [], .elem (b! "name") [] [.text (b! "x")],
    .elem (b! "date") [] [.text (b! "2020-01-01")],
    .elem (b! "data") [] [.elem (b! "checksum") [] [.text (b! "c")], .elem (b! "size") [] [.text (b! "4294967295")],
      .elem (b! "start") [(b! "frame", some (b! "1")), (b! "byte", some (b! "2"))] [],
      .elem (b! "end") [(b! "byte", some (b! "4")), (b! "frame", some (b! "3"))] []],
    .elem (b! "preview") [] [.elem (b! "pages") [(b! "dimension", some (b! "3x4")), (b! "layoutId", some (b! "1")), (b! "count", some (b! "1"))] []],
    .elem (b! "metadata") [] [.elem (b! "source") [(b! "fileId", some (b! "5"))] [.elem (b! "data") [] [.text (b! " d ")]]]]

/-- Its element `Index`. -/
def exIndex64 : Node :=
  .elem (b! "Index") [(b! "version", some (b! "1.0.0"))] [.elem (b! "indexType") [] [.text (b! " reel ")], .elem (b! "jobId") [] [.text (b! "j")],
    .elem (b! "!-- x --") [] [], .elem (b! "reelId") [] [.text (b! "r 1")],
    .elem (b! "metadata") [] [.elem (b! "?p?") [] [], .elem (b! "source") [(b! "fileId", some (b! "007")), (b! "id", some (b! "+3")), (b! "formatId", some (b! "f"))]
      [.elem (b! "tags") [] [.text (b! "a;b;")]]],
    .elem (b! "layoutDefinitions") [] [.elem (b! "previewLayout") [] [.elem (b! "id") [] [.text (b! "1")], .elem (b! "name") [] [.text (b! "n")],
      .elem (b! "sections") [] [.elem (b! "section") [(b! "rotation", some (b! "90")), (b! "id", some (b! "1")), (b! "x", some (b! "0")),
        (b! "y", some (b! " 5")), (b! "w", some (b! "10")), (b! "h", some (b! "20"))] [.text (b! "?")]]]],
    .elem (b! "reels") [] [.elem (b! "reel") [] [.elem (b! "id") [] [.text (b! "r")], .elem (b! "files") [] [.elem (b! "!--y--") [] [], exFile64]]]]

def exDoc64 : Node := .elem (b! "?xml version=\"1.0\"?") [] [.elem (b! "!-- made by hand --") [] [], exIndex64]

set_option maxRecDepth 100000 in
theorem exText64_doc : Xml.loadString exText64 = some exDoc64 := by decide +kernel

theorem digit64 {D : Char → Prop} (hD : HasDigits D) {l : List Char} (h : l.all (fun c => decide (48 ≤ c.toNat) && decide (c.toNat ≤ 57)) = true) :
    ∀ c ∈ l, D c := by
  intro c hc
  have := List.all_eq_true.mp h c hc
  simp only [Bool.and_eq_true, decide_eq_true_eq] at this
  exact hD c this.1 this.2

theorem exFile64_valid {D : Char → Prop} (hD : HasDigits D) : Valid (fileType D) [] exFile64.children := by
  refine seq_valid (noAttrs (by simp)) ?_
  refine part_one (text_valid (integerB_sound (by decide +kernel))) ?_
  refine part_one (by rw [Valid]; exact ⟨noAttrs (by simp), rfl, trivial⟩) ?_
  refine part_one (text_valid trivial) ?_
  refine part_one (text_valid ⟨"2020-01-01".toList, [], by decide +kernel,
    ⟨"2020".toList, "01".toList, "01".toList, '-', '-', by decide +kernel, .inr rfl, .inr rfl, by decide +kernel, .inr ⟨by decide +kernel, by decide +kernel⟩,
      digit64 hD (by decide +kernel)⟩, .inl rfl⟩) ?_
  refine part_none ?_
  refine part_one (seq_valid (noAttrs (by simp)) ?_) ?_
  · refine part_one (text_valid trivial) (part_one (text_valid (unsignedB_sound (by decide +kernel))) (part_one ?_ (part_one ?_ part_end)))
    · rw [locationType, Valid]
      refine ⟨⟨?_, by simp⟩, rfl, rfl⟩
      intro a ha
      simp only [List.mem_cons, List.not_mem_nil, or_false] at ha
      rcases ha with rfl | rfl
      · exact ⟨_, .head _, rfl, _, rfl, unsignedB_sound (by decide +kernel)⟩
      · exact ⟨_, .tail _ (.head _), rfl, _, rfl, unsignedB_sound (by decide +kernel)⟩
    · rw [locationType, Valid]
      refine ⟨⟨?_, by simp⟩, rfl, rfl⟩
      intro a ha
      simp only [List.mem_cons, List.not_mem_nil, or_false] at ha
      rcases ha with rfl | rfl
      · exact ⟨_, .tail _ (.head _), rfl, _, rfl, unsignedB_sound (by decide +kernel)⟩
      · exact ⟨_, .head _, rfl, _, rfl, unsignedB_sound (by decide +kernel)⟩
  refine part_one (seq_valid (noAttrs (by simp)) (part_none (part_one ?_ part_end))) ?_
  · rw [pagesType, Valid]
    refine ⟨⟨?_, by simp⟩, rfl, rfl⟩
    intro a ha
    simp only [List.mem_cons, List.not_mem_nil, or_false] at ha
    rcases ha with rfl | rfl | rfl
    · exact ⟨_, .tail _ (.tail _ (.tail _ (.tail _ (.head _)))), rfl, _, rfl, "3".toList, 'x', "4".toList, by decide +kernel, .inl rfl,
        digit64 hD (by decide +kernel)⟩
    · exact ⟨_, .head _, rfl, _, rfl, unsignedB_sound (by decide +kernel)⟩
    · exact ⟨_, .tail _ (.tail _ (.tail _ (.head _))), rfl, _, rfl, unsignedB_sound (by decide +kernel)⟩
  refine part_one (seq_valid (noAttrs (by simp)) (part_one (seq_valid ⟨?_, by simp⟩ (part_one ?_ part_end)) part_end)) part_end
  · intro a ha
    rw [List.mem_singleton.mp ha]
    exact ⟨_, .head _, rfl, _, rfl, unsignedB_sound (by decide +kernel)⟩
  · rw [fileMetadataSourceDataType, Valid]
    exact ⟨noAttrs (by simp), rfl, trivial⟩

mutual
theorem texts_of_plain : ∀ {n : Node}, Plain n → PlainTexts n
  | .text _, _ => by rw [PlainTexts]; trivial
  | .elem n as cs, h => by
    rw [Plain] at h
    rw [PlainTexts]
    exact ⟨h.2.1, h.2.2.1, h.2.2.2.1, h.2.2.2.2.1, texts_of_plainList h.2.2.2.2.2⟩
theorem texts_of_plainList : ∀ {cs : List Node}, PlainList cs → PlainTextsList cs
  | [], _ => by rw [PlainTextsList]; trivial
  | c :: cs, h => by
    rw [PlainList] at h
    rw [PlainTextsList]
    exact ⟨texts_of_plain h.1, texts_of_plainList h.2⟩
end

/-- The document follows the schema. -/
theorem exDoc64_conforms {D : Char → Prop} (hD : HasDigits D) : Conforms (b! "Index") (indexType D) exDoc64 := by
  refine ⟨_, _, ?_, .inr ⟨_, _, rfl, ⟨b! " version=\"1.0\"?", rfl⟩, rfl⟩⟩
  refine seq_valid ⟨?_, by simp⟩ ?_
  · intro a ha
    rw [List.mem_singleton.mp ha]
    exact ⟨_, .head _, rfl, _, rfl, "1".toList, '.', "0".toList, '.', "0".toList, by decide +kernel, by decide, digit64 hD (by decide +kernel)⟩
  refine part_one (text_valid trivial) (part_one (text_valid trivial) (part_skip (part_one (text_valid trivial) ?_)))
  refine part_one (seq_valid (noAttrs (by simp)) (part_skip (part_one (seq_valid ⟨?_, by simp⟩ (part_one (text_valid trivial) part_end)) part_end))) ?_
  · intro a ha
    simp only [List.mem_cons, List.not_mem_nil, or_false] at ha
    rcases ha with rfl | rfl | rfl
    · exact ⟨_, .tail _ (.tail _ (.head _)), rfl, _, rfl, unsignedB_sound (by decide +kernel)⟩
    · exact ⟨_, .head _, rfl, _, rfl, trivial⟩
    · exact ⟨_, .tail _ (.head _), rfl, _, rfl, trivial⟩
  refine part_one (seq_valid (noAttrs (by simp)) (part_one (seq_valid (noAttrs (by simp)) ?_) part_end)) ?_
  · refine part_one (text_valid trivial) (part_one (text_valid trivial) (part_one (seq_valid (noAttrs (by simp)) (part_one ?_ part_end)) part_end))
    rw [sectionType, Valid]
    refine ⟨⟨?_, ?_⟩, rfl, trivial⟩
    · intro a ha
      simp only [List.mem_cons, List.not_mem_nil, or_false] at ha
      rcases ha with rfl | rfl | rfl | rfl | rfl | rfl
      · exact ⟨_, .tail _ (.tail _ (.tail _ (.tail _ (.tail _ (.head _))))), rfl, _, rfl, unsignedB_sound (by decide +kernel)⟩
      · exact ⟨_, .head _, rfl, _, rfl, unsignedB_sound (by decide +kernel)⟩
      · exact ⟨_, .tail _ (.head _), rfl, _, rfl, unsignedB_sound (by decide +kernel)⟩
      · exact ⟨_, .tail _ (.tail _ (.head _)), rfl, _, rfl, unsignedB_sound (by decide +kernel)⟩
      · exact ⟨_, .tail _ (.tail _ (.tail _ (.head _))), rfl, _, rfl, unsignedB_sound (by decide +kernel)⟩
      · exact ⟨_, .tail _ (.tail _ (.tail _ (.tail _ (.head _)))), rfl, _, rfl, unsignedB_sound (by decide +kernel)⟩
    · intro d hd _
      simp only [List.mem_cons, List.not_mem_nil, or_false] at hd
      rcases hd with rfl | rfl | rfl | rfl | rfl | rfl <;> simp
  refine part_one (seq_valid (noAttrs (by simp)) (part_one (seq_valid (noAttrs (by simp)) ?_) part_end)) part_end
  exact part_one (text_valid trivial) (part_one (seq_valid (noAttrs (by simp)) (part_skip (part_one (exFile64_valid hD) part_end))) part_end)

theorem exDoc64_plain : PlainDoc exDoc64 := plainListB_sound _ (by decide +kernel)

/-- What it says. -/
def exValue64 : TocData where
  version := some (b! "1.0.0")
  indexType := some (b! "reel")
  jobId := some (b! "j")
  reelId := some (b! "r 1")
  reels := some ⟨some [⟨some (b! "r"), some ⟨some [{
      name := some (b! "x")
      date := some (b! "2020-01-01")
      checksum := some (b! "c")
      size := 4294967295
      id := -1
      startFrame := 1
      startByte := 2
      endFrame := 3
      endByte := 4
      uniqueId := none
      parentId := -2
      types := 3
      preview := some ⟨some [⟨some (b! "1"), 0, 0, 1, 3, 4, 0, 0⟩], -1⟩
      fileFormat := some (b! "undefined")
      metadata := some ⟨some [⟨some (b! "d"), none, 5, -1⟩]⟩ }]⟩⟩]⟩
  metadata := some ⟨some [⟨some (b! "f"), 3, 7, none, some [b! "a", b! "b", b! ""]⟩]⟩
  layouts := some ⟨some [⟨some (b! "1"), some (b! "n"), some ⟨some [⟨1, 0, 5, 10, 20, 90⟩]⟩⟩]⟩

theorem exValue64_fine : indexOf exIndex64 = exValue64 ∧ HasIds exIndex64 ∧ root exDoc64 = some exIndex64 ∧ exText64 ≠ [] := by
  refine ⟨by decide +kernel, by unfold HasIds; decide +kernel, by decide +kernel, by decide +kernel⟩

theorem exValue64_acceptable : Acceptable exValue64 := by
  refine ⟨?_, ?_, ?_⟩
  · intro m hm
    have hm : some (TocMeta.mk (some [⟨some (b! "f"), 3, 7, none, some [b! "a", b! "b", b! ""]⟩])) = some m := hm
    injection hm with hm
    subst hm
    intro s hs
    rw [List.mem_singleton.mp hs]
    exact (C37_metadata_source _).mp (by decide +kernel)
  · intro d hd
    have hd : some (LayoutDefs.mk (some [⟨some (b! "1"), some (b! "n"), some ⟨some [⟨1, 0, 5, 10, 20, 90⟩]⟩⟩])) = some d := hd
    injection hd with hd
    subst hd
    refine ⟨?_, by simp⟩
    intro x hx
    rw [List.mem_singleton.mp hx]
    refine ⟨(C37_layout _).mp (by decide +kernel), ?_⟩
    intro s hs
    injection hs with hs
    subst hs
    simp
  · intro r hr x hx
    have hr' : exValue64.reels = some r := hr
    have : ∀ x ∈ (exValue64.reels.bind Reels.reels).getD [], x.isValid = true := by decide +kernel
    rw [hr'] at this
    exact (C37_reel _).mp (this x hx)

/-- The document says this, meets all conditions, and is loaded as this (by C64_index_string, whatever the object was). -/
theorem C64_example (t : TocData) : indexOf exIndex64 = exValue64 ∧ t.loadString exText64 = .ok (true, exValue64) := by
  obtain ⟨hv, hids, hn, hne⟩ := exValue64_fine
  refine ⟨hv, ?_⟩
  have hacc : Acceptable (indexOf exIndex64) := by rw [hv]; exact exValue64_acceptable
  have hd := exText64_doc
  have hc := exDoc64_conforms (D := fun _ => True) fun _ _ _ => trivial
  have hp := exDoc64_plain
  generalize exDoc64 = d at *
  generalize exText64 = s at *
  generalize exValue64 = v at *
  generalize exIndex64 = i at *
  obtain ⟨n, r, h1, h2, h3, h4⟩ := C64_index_string hne hd hc (texts_of_plainList hp) t
  rw [hn] at h1
  injection h1 with h1
  rw [← h1] at h3 h4
  rw [h2, Res.ok.injEq]
  exact Prod.ext (h3.mpr ⟨hids, hacc⟩) ((h4 ⟨hids, hacc⟩).trans hv)

/-! ## What is demanded beyond the schema is needed -/

/-- A text of a file in a CDATA section is lost, and behind a comment it is cut; the schema allows both. -/
def exName64 (cs : List Node) : Node := .elem (b! "previewLayout") [] [.elem (b! "id") [] [.text (b! "1")], .elem (b! "name") [] cs,
  .elem (b! "sections") [] [.elem (b! "section") [(b! "id", some (b! "1")), (b! "x", some (b! "0")), (b! "y", some (b! "0")),
    (b! "w", some (b! "1")), (b! "h", some (b! "1")), (b! "rotation", some (b! "0"))] []]]

theorem exName64_conforms (cs : List Node) (he : elements cs = []) : Conforms (b! "previewLayout") previewLayoutType (exName64 cs) := by
  refine ⟨_, _, ?_, .inl rfl⟩
  refine seq_valid (noAttrs (by simp)) ?_ (by simp [chars, charsOf])
  refine part_one (text_valid trivial) (part_one (by rw [Valid]; exact ⟨noAttrs (by simp), he, trivial⟩)
    (part_one (seq_valid (noAttrs (by simp)) (part_one ?_ part_end)) part_end))
  rw [sectionType, Valid]
  refine ⟨⟨?_, ?_⟩, rfl, trivial⟩
  · intro a ha
    simp only [List.mem_cons, List.not_mem_nil, or_false] at ha
    rcases ha with rfl | rfl | rfl | rfl | rfl | rfl
    · exact ⟨_, .head _, rfl, _, rfl, unsignedB_sound (by decide +kernel)⟩
    · exact ⟨_, .tail _ (.head _), rfl, _, rfl, unsignedB_sound (by decide +kernel)⟩
    · exact ⟨_, .tail _ (.tail _ (.head _)), rfl, _, rfl, unsignedB_sound (by decide +kernel)⟩
    · exact ⟨_, .tail _ (.tail _ (.tail _ (.head _))), rfl, _, rfl, unsignedB_sound (by decide +kernel)⟩
    · exact ⟨_, .tail _ (.tail _ (.tail _ (.tail _ (.head _)))), rfl, _, rfl, unsignedB_sound (by decide +kernel)⟩
    · exact ⟨_, .tail _ (.tail _ (.tail _ (.tail _ (.tail _ (.head _))))), rfl, _, rfl, unsignedB_sound (by decide +kernel)⟩
  · intro d hd _
    simp only [List.mem_cons, List.not_mem_nil, or_false] at hd
    rcases hd with rfl | rfl | rfl | rfl | rfl | rfl <;> simp

/-- A name in a CDATA section is lost: the layout definition loads without a name. -/
theorem C64_text_in_cdata_is_lost : ∃ doc, Conforms (b! "previewLayout") previewLayoutType doc ∧
    (layoutOf doc).name = some (b! "n") ∧ (LayoutDef.create.loadXml doc).1 = true ∧ (LayoutDef.create.loadXml doc).2.name = none :=
  ⟨exName64 [.elem (b! "![CDATA[n]]") [] []], exName64_conforms _ (by decide +kernel), by decide +kernel, by decide +kernel, by decide +kernel⟩

/-- A name with a comment in it is cut at the comment. -/
theorem C64_text_with_comment_is_cut : ∃ doc, Conforms (b! "previewLayout") previewLayoutType doc ∧
    (layoutOf doc).name = some (b! "ab") ∧ (LayoutDef.create.loadXml doc).1 = true ∧ (LayoutDef.create.loadXml doc).2.name = some (b! "a") :=
  ⟨exName64 [.text (b! "a"), .elem (b! "!-- --") [] [], .text (b! "b")], exName64_conforms _ (by decide +kernel), by decide +kernel,
    by decide +kernel, by decide +kernel⟩

/-- Sizes the schema allows that are refused: `10X10`, `x10`. -/
theorem C64_size_forms_refused {D : Char → Prop} (hD : HasDigits D) (v : Bytes) (hv : v = b! "10X10" ∨ v = b! "x10") :
    Conforms (b! "pages") (pagesType D) (.elem (b! "pages") [(b! "dimension", some v)] []) ∧
      ∀ p : Page, (p.loadXml (.elem (b! "pages") [(b! "dimension", some v)] [])).1 = false := by
  refine ⟨⟨_, _, ?_, .inl rfl⟩, ?_⟩
  · rw [pagesType, Valid]
    refine ⟨⟨?_, by simp⟩, rfl, rfl⟩
    intro a ha
    rw [List.mem_singleton.mp ha]
    refine ⟨_, .tail _ (.tail _ (.tail _ (.tail _ (.head _)))), rfl, _, rfl, ?_⟩
    rcases hv with rfl | rfl
    · exact ⟨"10".toList, 'X', "10".toList, by decide +kernel, .inr rfl, digit64 hD (by decide +kernel)⟩
    · exact ⟨[], 'x', "10".toList, by decide +kernel, .inl rfl, digit64 hD (by decide +kernel)⟩
  · intro p
    have e : Page.extractXY ((Node.elem (b! "pages") [(b! "dimension", some v)] []).getAttr (b! "dimension")) = none := by
      rcases hv with rfl | rfl <;> decide +kernel
    unfold Page.loadXml
    rw [selfOrFind_self]
    dsimp only
    rw [e]

/-- A source of the index may lack its ids by the schema; such an index is refused. -/
theorem C64_source_without_ids_refused : Conforms (b! "source") sourceType (.elem (b! "source") [] [.elem (b! "tags") [] []]) ∧
    PlainDoc (.elem (b! "source") [] [.elem (b! "tags") [] []]) ∧
    ∀ s : MetaSource, (s.loadXml (.elem (b! "source") [] [.elem (b! "tags") [] []])).1 = false := by
  refine ⟨⟨_, _, seq_valid (noAttrs (by simp)) (part_one (by rw [Valid]; exact ⟨noAttrs (by simp), rfl, trivial⟩) part_end), .inl rfl⟩,
    plainListB_sound _ (by decide +kernel), fun s => ?_⟩
  unfold MetaSource.loadXml
  rw [selfOrFind_self]
  rfl

/-- Numbers of the schema that do not fit into an `int` become negative: a file id of 3000000000 is read as -1294967296.  (This is
    what the specification `asInt` says; positions and frames of 2³¹ and more are concerned too.) -/
theorem C64_large_numbers_wrap : Document.int (some (b! "3000000000")) (-1) = -1294967296 ∧ atoi (b! "3000000000") = -1294967296 := by
  refine ⟨by decide +kernel, by decide +kernel⟩

/-- A preview without pages follows the schema and loads, but a file with it is not valid and is refused as member of a list. -/
theorem C64_preview_without_pages {D : Char → Prop} : Conforms (b! "preview") (previewType D) (.elem (b! "preview") [] []) ∧
    (Preview.create.loadXml (.elem (b! "preview") [] [])).1 = true ∧
    ∀ f : File, f.types.testBit 1 = true → f.preview = some (Preview.create.loadXml (.elem (b! "preview") [] [])).2 → f.isValid = false := by
  refine ⟨⟨_, _, seq_valid (noAttrs (by simp)) (part_none (part_none part_end)), .inl rfl⟩, by decide +kernel, ?_⟩
  intro f ht hf
  cases hv : f.isValid with
  | false => rfl
  | true =>
    have h := (C37_file f).mp hv
    obtain ⟨p, hp, l, hl, _⟩ := h.2.2.2.2.1 ht
    rw [hf] at hp
    injection hp with hp
    have e : (Preview.create.loadXml (.elem (b! "preview") [] [])).2.pages = none := by decide +kernel
    rw [hp, hl] at e
    cases e

end Afs
