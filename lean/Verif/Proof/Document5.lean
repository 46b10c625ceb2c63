import Verif.Proof.Document4
/-! # Loading documents that follow the schema: previews and metadata -/
namespace Afs
open Spec Xml Spec.Schema Spec.Document

/-! ### Previews -/

theorem strClone_eq (s : Option Bytes) : strClone s = s := by cases s <;> rfl

theorem page_size {as cs} (h : Plain (.elem (b! "pages") as cs)) {a : Bytes} (ha : a = b! "dimension" ∨ a = b! "overlap") :
    ∀ v, attr (.elem (b! "pages") as cs) a = some v → SizeText v := by
  rw [Plain] at h
  exact fun v => h.2.2.2.1 rfl a v ha

theorem pages_attr {D as} (ha : AttrsOk [(⟨b! "layoutId", unsignedInt, false⟩ : Attr), ⟨b! "frame", unsignedInt, false⟩, ⟨b! "section", unsignedInt, false⟩,
  ⟨b! "count", unsignedInt, false⟩, ⟨b! "dimension", dimensionType D, false⟩, ⟨b! "overlap", string, false⟩] as) (cs : List Node) {nm : Bytes}
    (hn : nm ∈ [b! "frame", b! "section", b! "count"]) :
    ((intAttr (.elem (b! "pages") as cs) nm).map uOfInt).getD 0 = unsigned (attr (.elem (b! "pages") as cs) nm) := by
  have e := uintAttr_unsigned (n := .elem (b! "pages") as cs) ha (nm := nm) (by
    intro d hd hdn
    simp only [List.mem_cons, List.not_mem_nil, or_false] at hd hn
    rcases hd with rfl | rfl | rfl | rfl | rfl | rfl <;> first | rfl | (subst hdn; rcases hn with h | h | h <;> cases h))
  unfold intAttr
  rw [getAttr_attr, Option.map_map]
  cases hh : attr (.elem (b! "pages") as cs) nm with
  | none => rfl
  | some v =>
    rw [hh] at e
    simp only [Option.map_some, Option.some.injEq] at e
    simp only [Option.map_some, Option.getD_some, Function.comp, e]
    rfl

theorem page_loads {D as cs} (h : Valid (pagesType D) as cs) (hpl : Plain (.elem (b! "pages") as cs)) :
    LoadsAs (Page.create.loadXml (.elem (b! "pages") as cs)) True (pageOf (.elem (b! "pages") as cs)) := by
  rw [pagesType, Valid] at h
  have ha := h.1
  unfold Page.loadXml
  rw [selfOrFind_self]
  dsimp only
  rw [getAttr_attr, getAttr_attr, getAttr_attr, extractXY_size (page_size hpl (.inl rfl)), extractXY_size (page_size hpl (.inr rfl))]
  dsimp only
  have e0 : Page.create.startFrame = 0 := rfl
  have e1 : Page.create.startSection = 0 := rfl
  have e2 : Page.create.sectionCount = 0 := rfl
  rw [e0, e1, e2, pages_attr ha cs (by simp), pages_attr ha cs (by simp), pages_attr ha cs (by simp), strClone_eq]
  exact ⟨by simp, fun _ => rfl⟩

theorem preview_loop (ns : List Node) : ∀ (f : Preview),
    f.loadPages ns = loopG Page.create.loadXml Preview.addPage f (ns.filter (named (b! "pages"))) := by
  induction ns with
  | nil => intro f; rfl
  | cons n ns ih =>
    intro f
    cases n with
    | text s => rw [Preview.loadPages, List.filter_cons_of_neg (by simp [named, Node.element])]; exact ih f
    | elem m as cs =>
      rw [Preview.loadPages]
      split
      · rename_i h
        rw [List.filter_cons_of_pos (by simp [named, Node.element, h]), loopG]; dsimp only; rw [ih]
      · rename_i h
        rw [List.filter_cons_of_neg (by simpa [named, Node.element] using h)]; exact ih f

/-- The condition for a preview to load. -/
def PreviewFit (p : Preview) : Prop := ∀ q ∈ p.pages.getD [], ValidPage q

theorem preview_loads {D as cs} (h : Valid (previewType D) as cs) (hpl : Plain (.elem (b! "preview") as cs)) :
    LoadsAs (Preview.create.loadXml (.elem (b! "preview") as cs)) (PreviewFit (previewOf (.elem (b! "preview") as cs)))
      (previewOf (.elem (b! "preview") as cs)) := by
  have hk : PlainList cs := plain_children hpl
  unfold Preview.loadXml
  rw [selfOrFind_self]
  dsimp only
  rw [intElement_int h hpl (by decide) (by decide) rfl rfl rfl (fun s hs => unsigned_integer hs), int_getD, preview_loop, Node.children,
    named_elements (by decide), show (elements cs).filter (named (b! "pages")) = childrenOf (.elem (b! "preview") as cs) (b! "pages") from
      (childrenOf_eq (.elem (b! "preview") as cs) _).symm]
  have hl : ∀ n ∈ childrenOf (.elem (b! "preview") as cs) (b! "pages"), LoadsAs (Page.create.loadXml n) True (pageOf n) := by
    intro n hn
    obtain ⟨as', cs', rfl, hv, _, hpx⟩ := valid_childrenOf h hk (ty := pagesType D) rfl rfl hn
    exact page_loads hv hpx
  have := list_loads (mk := fun v => (⟨v, Document.int (text (.elem (b! "preview") as cs) (b! "dpi")) (-1)⟩ : Preview)) (add := Preview.addPage)
    (p := Page.isValid) (by intro v x; unfold Preview.addPage; cases h1 : x.isValid <;> simp [h1]) _ hl
  refine LoadsAs.congr this ?_
  unfold PreviewFit previewOf
  rw [listOf_getD]
  simp only [true_and, C37_page, List.mem_map, forall_exists_index, and_imp, forall_apply_eq_imp_iff₂]

/-! ### Metadata of files -/

theorem stripBrackets_raw (d : Bytes) : stripBrackets (d ++ b! "]]") = d := by
  unfold stripBrackets
  have e : (b! "]]" : Bytes).length = 2 := rfl
  have e2 : (d ++ b! "]]").length - 2 = d.length := by rw [List.length_append, e]; omega
  rw [e2, List.drop_left, if_pos rfl, List.take_left]

theorem isPrefix_cdata (d : Bytes) : (b! "![CDATA[").isPrefixOf (b! "![CDATA[" ++ d ++ b! "]]") = true := by
  rw [List.isPrefixOf_iff_prefix, List.append_assoc]
  exact List.prefix_append _ _

theorem loadData_raw {as cs} (hpl : Plain (.elem (b! "data") as cs)) (he : elements cs = []) :
    loadData none (.elem (b! "data") as cs) = rawContent (.elem (b! "data") as cs) := by
  rw [Plain] at hpl
  rcases hpl.2.2.1 rfl he with rfl | ⟨t, rfl⟩ | ⟨d, rfl⟩
  · rfl
  · unfold loadData rawContent
    simp [firstCData, Node.getCDATA, Node.children, isCData, nodeText, Node.getOpaque, Document.content, stringTrim_trim, chars, charsOf]
  · unfold rawContent
    have e1 : (Node.elem (b! "data") as [.elem (b! "![CDATA[" ++ d ++ b! "]]") [] []]).children.any isCData = true := by
      rw [Node.children, List.any_cons, isCData, isPrefix_cdata]; rfl
    rw [if_pos e1]
    have e8 : (b! "![CDATA[" : Bytes).length = 8 := rfl
    have e2 : (b! "![CDATA[" ++ d ++ b! "]]").drop 8 = d ++ b! "]]" := by rw [List.append_assoc, ← e8, List.drop_left]
    have e3 : (b! "![CDATA[" ++ d ++ b! "]]").take 8 = Node.cdataOpen := by rw [List.append_assoc, ← e8, List.take_left]; rfl
    have e4 : (b! "![CDATA[" ++ d ++ b! "]]").length - 10 = d.length := by
      rw [List.length_append, List.length_append, e8]; have : (b! "]]" : Bytes).length = 2 := rfl
      omega
    have e5 : firstCData (Node.elem (b! "data") as [.elem (b! "![CDATA[" ++ d ++ b! "]]") [] []]).children = some d := by
      rw [Node.children, firstCData, Node.getCDATA, if_pos e3, e2]
      dsimp only
      rw [stripBrackets_raw]
    unfold loadData
    rw [e5, Node.children, chars, List.flatMap_cons, List.flatMap_nil, charsOf,
      if_pos (by rw [List.append_assoc]; exact List.prefix_append _ _), e2, e4, List.take_left, List.append_nil]

theorem child_absent {n : Bytes} {as cs} {ds ps} (h : Valid (.seq ds ps) as cs) {nm : Bytes} (hp : partTy nm ps = none) :
    child (.elem n as cs) nm = none := by
  rw [Valid] at h
  cases hc : child (.elem n as cs) nm with
  | none => rfl
  | some x =>
    obtain ⟨_, h2, as', cs', rfl⟩ := mem_childrenOf (List.mem_of_head? hc)
    exact absurd h2 (inOrder_no_part h.2.2 hp as' cs')

theorem attrs_seq {ds ps as cs} (h : Valid (.seq ds ps) as cs) : AttrsOk ds as := by rw [Valid] at h; exact h.1

theorem fileSource_loads {as cs} (h : Valid fileMetadataSourceType as cs) (hpl : Plain (.elem (b! "source") as cs)) :
    LoadsAs (FileMetaSource.create.loadXml (.elem (b! "source") as cs))
      (attr (.elem (b! "source") as cs) (b! "fileId") ≠ none ∧ ValidFileMetaSource (fileSourceOf (.elem (b! "source") as cs)))
      (fileSourceOf (.elem (b! "source") as cs)) := by
  have hk : PlainList cs := plain_children hpl
  have ha : AttrsOk _ (Node.elem (b! "source") as cs).attrs := attrs_seq h
  unfold FileMetaSource.loadXml
  rw [selfOrFind_self]
  dsimp only
  have hu : ∀ nm : Bytes, ∀ d ∈ [(⟨b! "fileId", unsignedInt, false⟩ : Attr), ⟨b! "sourceId", unsignedInt, false⟩], d.name = nm → d.type = unsignedInt := by
    intro nm d hd _
    simp only [List.mem_cons, List.not_mem_nil, or_false] at hd
    rcases hd with rfl | rfl <;> rfl
  rw [intAttr_int ha (hu (b! "fileId")), intAttr_int ha (hu (b! "sourceId")), find_child h hk (nm := b! "data") (by decide) rfl, int_getD]
  obtain ⟨x, hx⟩ := child_needed (n := b! "source") h (nm := b! "data") rfl
  obtain ⟨as', cs', rfl, hv, _, hpx⟩ := valid_child h hk (ty := fileMetadataSourceDataType) rfl rfl hx
  rw [fileMetadataSourceDataType, Valid] at hv
  rw [hx]
  cases hf : attr (.elem (b! "source") as cs) (b! "fileId") with
  | none => exact ⟨by simp, fun hh => absurd rfl hh.1⟩
  | some v =>
    dsimp only [Option.map_some]
    have e : (⟨loadData FileMetaSource.create.data (.elem (b! "data") as' cs'), strClone ((Node.elem (b! "data") as' cs').getAttr (b! "formatId")),
        asInt (number v), Document.int (attr (.elem (b! "source") as cs) (b! "sourceId")) (-1)⟩ : FileMetaSource) =
        fileSourceOf (.elem (b! "source") as cs) := by
      unfold fileSourceOf
      rw [hx, hf, getAttr_attr, strClone_eq]
      have : FileMetaSource.create.data = none := rfl
      rw [this, loadData_raw hpx hv.2.1]
      rfl
    rw [e]
    refine ⟨?_, fun _ => rfl⟩
    rw [C37_file_metadata_source]
    simp

theorem fileMeta_loop (ns : List Node) : ∀ f : FileMeta, f.loadLoop ns = loopG FileMetaSource.create.loadXml FileMeta.addSource f ns := by
  induction ns with
  | nil => intro f; rfl
  | cons n ns ih => intro f; rw [FileMeta.loadLoop, loopG]; dsimp only; rw [ih]

/-- The sources of the metadata of a file name the file. -/
def FileMetaIds (n : Node) : Prop := ∀ s ∈ childrenOf n (b! "source"), attr s (b! "fileId") ≠ none

theorem fileMeta_loads {as cs} (h : Valid fileMetadataType as cs) (hpl : Plain (.elem (b! "metadata") as cs)) :
    LoadsAs (FileMeta.create.loadXml (.elem (b! "metadata") as cs))
      (FileMetaIds (.elem (b! "metadata") as cs) ∧ ValidFileMeta (fileMetaOf (.elem (b! "metadata") as cs)))
      (fileMetaOf (.elem (b! "metadata") as cs)) := by
  have hk : PlainList cs := plain_children hpl
  unfold FileMeta.loadXml
  rw [selfOrFind_self]
  dsimp only
  rw [findAll_children h hk (by decide) rfl, fileMeta_loop]
  have hl : ∀ n ∈ childrenOf (.elem (b! "metadata") as cs) (b! "source"),
      LoadsAs (FileMetaSource.create.loadXml n) (attr n (b! "fileId") ≠ none ∧ ValidFileMetaSource (fileSourceOf n)) (fileSourceOf n) := by
    intro n hn
    obtain ⟨as', cs', rfl, hv, _, hpx⟩ := valid_childrenOf h hk (ty := fileMetadataSourceType) rfl rfl hn
    exact fileSource_loads hv hpx
  have := list_loads (mk := FileMeta.mk) (add := FileMeta.addSource)
    (p := FileMetaSource.isValid) (by intro v x; unfold FileMeta.addSource; cases h1 : x.isValid <;> simp [h1]) _ hl
  refine LoadsAs.congr this ?_
  unfold FileMetaIds ValidFileMeta fileMetaOf
  rw [listOf_getD]
  simp only [C37_file_metadata_source, List.mem_map, forall_exists_index, and_imp, forall_apply_eq_imp_iff₂]
  constructor
  · intro h; exact ⟨fun n hn => (h n hn).1.1, fun n hn => (h n hn).2⟩
  · rintro ⟨h1, h2⟩ n hn; exact ⟨⟨h1 n hn, h2 n hn⟩, h2 n hn⟩

/-! ### Metadata of the index -/

theorem source_loads {as cs} (h : Valid sourceType as cs) (hpl : Plain (.elem (b! "source") as cs)) :
    LoadsAs (MetaSource.create.loadXml (.elem (b! "source") as cs))
      (attr (.elem (b! "source") as cs) (b! "id") ≠ none ∧ attr (.elem (b! "source") as cs) (b! "fileId") ≠ none ∧
        ValidMetaSource (sourceOf (.elem (b! "source") as cs)))
      (sourceOf (.elem (b! "source") as cs)) := by
  have hk : PlainList cs := plain_children hpl
  have ha : AttrsOk _ (Node.elem (b! "source") as cs).attrs := attrs_seq h
  unfold MetaSource.loadXml
  rw [selfOrFind_self]
  dsimp only
  have ei : intAttr (.elem (b! "source") as cs) (b! "id") = (attr (.elem (b! "source") as cs) (b! "id")).map fun s => asInt (number s) := by
    unfold intAttr
    rw [getAttr_attr]
    cases hh : attr (.elem (b! "source") as cs) (b! "id") with
    | none => rfl
    | some v =>
      rw [Plain] at hpl
      simp only [Option.map_some]
      rw [atoi_number (hpl.2.2.2.2.1 rfl v hh)]
  have ef := intAttr_int ha (nm := b! "fileId") (by
    intro d hd hdn
    simp only [List.mem_cons, List.not_mem_nil, or_false] at hd
    rcases hd with rfl | rfl | rfl
    · cases hdn
    · cases hdn
    · rfl)
  have hno : child (.elem (b! "source") as cs) (b! "data") = none := child_absent h rfl
  rw [ei, ef, find_child h hk (nm := b! "data") (by decide) rfl, hno, find_child h hk (nm := b! "tags") (by decide) rfl]
  obtain ⟨x, hx⟩ := child_needed (n := b! "source") h (nm := b! "tags") rfl
  obtain ⟨as', cs', rfl, hv, _, hpx⟩ := valid_child h hk (ty := .text [] string) rfl rfl hx
  rw [hx]
  cases hi : attr (.elem (b! "source") as cs) (b! "id") with
  | none => exact ⟨by simp, fun hh => absurd rfl hh.1⟩
  | some v =>
    cases hf : attr (.elem (b! "source") as cs) (b! "fileId") with
    | none => exact ⟨by simp, fun hh => absurd rfl hh.2.1⟩
    | some w =>
      dsimp only [Option.map_some]
      rw [getAttr_attr, strClone_eq]
      have e : MetaSource.setTags ⟨attr (.elem (b! "source") as cs) (b! "formatId"), asInt (number v), asInt (number w), MetaSource.create.data,
          MetaSource.create.tags⟩ (nodeText (some (.elem (b! "tags") as' cs'))) = sourceOf (.elem (b! "source") as cs) := by
        unfold sourceOf text
        rw [hx, hi, hf, nodeText_content hpx (by decide)]
        dsimp only [Option.bind_some]
        generalize Document.content (.elem (b! "tags") as' cs') = t
        unfold MetaSource.setTags
        cases t with
        | none => rfl
        | some t =>
          dsimp only
          cases t with
          | nil => rfl
          | cons c t => rw [if_neg (by simp), if_neg (by simp), splitOn_pieces]; rfl
      rw [e]
      refine ⟨?_, fun _ => rfl⟩
      rw [C37_metadata_source]
      simp

theorem meta_loop (ns : List Node) : ∀ f : TocMeta, f.loadLoop ns = loopG MetaSource.create.loadXml TocMeta.addSource f ns := by
  induction ns with
  | nil => intro f; rfl
  | cons n ns ih => intro f; rw [TocMeta.loadLoop, loopG]; dsimp only; rw [ih]

/-- The sources have an id and name a file. -/
def MetaIds (n : Node) : Prop := ∀ s ∈ childrenOf n (b! "source"), attr s (b! "id") ≠ none ∧ attr s (b! "fileId") ≠ none

theorem meta_loads {as cs} (h : Valid metadataType as cs) (hpl : Plain (.elem (b! "metadata") as cs)) :
    LoadsAs (TocMeta.create.loadXml (.elem (b! "metadata") as cs))
      (MetaIds (.elem (b! "metadata") as cs) ∧ ∀ s ∈ (metadataOf (.elem (b! "metadata") as cs)).sources.getD [], ValidMetaSource s)
      (metadataOf (.elem (b! "metadata") as cs)) := by
  have hk : PlainList cs := plain_children hpl
  unfold TocMeta.loadXml
  rw [selfOrFind_self]
  dsimp only
  rw [findAll_children h hk (by decide) rfl, meta_loop]
  have hl : ∀ n ∈ childrenOf (.elem (b! "metadata") as cs) (b! "source"),
      LoadsAs (MetaSource.create.loadXml n) (attr n (b! "id") ≠ none ∧ attr n (b! "fileId") ≠ none ∧ ValidMetaSource (sourceOf n)) (sourceOf n) := by
    intro n hn
    obtain ⟨as', cs', rfl, hv, _, hpx⟩ := valid_childrenOf h hk (ty := sourceType) rfl rfl hn
    exact source_loads hv hpx
  have := list_loads (mk := TocMeta.mk) (add := TocMeta.addSource)
    (p := MetaSource.isValid) (by intro v x; unfold TocMeta.addSource; cases h1 : x.isValid <;> simp [h1]) _ hl
  refine LoadsAs.congr this ?_
  unfold MetaIds metadataOf
  rw [listOf_getD]
  simp only [C37_metadata_source, List.mem_map, forall_exists_index, and_imp, forall_apply_eq_imp_iff₂]
  constructor
  · intro h; exact ⟨fun n hn => ⟨(h n hn).1.1, (h n hn).1.2.1⟩, fun n hn => (h n hn).2⟩
  · rintro ⟨h1, h2⟩ n hn; exact ⟨⟨(h1 n hn).1, (h1 n hn).2, h2 n hn⟩, h2 n hn⟩

end Afs
