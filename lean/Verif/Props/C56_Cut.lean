import Verif.Proof.Cut5
import Verif.Props.C54_C55_Grammar
/-!
# C56 a file cut short is refused, or loaded whole

The library writes files in place: a crash, or a full disk, while saving leaves the beginning of
the text.  `s.take k` is that beginning, for any `k`.
-/
namespace Afs
open Spec Spec.Grammar Xml

/-- Any text with the declaration the library writes: if it is read, then its beginnings are refused,
    or read as the first few children of the declaration, to which an empty element may be added. -/
theorem C56_any (t : List Char) (ht : ∀ c ∈ t, Allowed c) (v : Node)
    (hv : Xml.loadFile (declaration ++ utf8File t) = some v) (k : Nat) :
    Xml.loadFile (declaration ++ (utf8File t).take k) = none ∨
    ∃ kids, v = .elem xmlDecl [] kids ∧ ∃ pre, pre <+: kids ∧
      (Xml.loadFile (declaration ++ (utf8File t).take k) = some (.elem xmlDecl [] pre) ∨
       ∃ name, Xml.loadFile (declaration ++ (utf8File t).take k) = some (.elem xmlDecl [] (pre ++ [.elem name [] []]))) :=
  any_cut good_decodeFile part_decodeFile ht hv k

/-! ## Objects of which something must be in the file -/

/-- A section. -/
theorem C56_section (x : Section) (h : x.isValid = true) (compact ok : Bool) (s : Bytes) (hs : x.saveFile compact = (ok, some s))
    (before : Section) (k : Nat) :
    (before.loadFile (s.take k)).1 = false ∨ before.loadFile (s.take k) = before.loadFile s := by
  unfold Section.saveFile at hs
  rw [Section.saveXml_eq h, if_neg (by simp [h])] at hs
  refine content_cut sectionCb_space (by decide) x.node_savable (by rw [newXML_addChild]; rfl) before.loadXml (false, before)
    (fun r => r.1 = false) rfl ?_ ?_ hs k
  · intro T hT
    unfold Section.loadXml
    rw [selfOrFind_noName hT]
  · intro W hW
    unfold Section.loadXml
    rw [selfOrFind_emptyRoot hW (by decide)]
    rfl

/-- A layout definition. -/
theorem C56_layout (x : LayoutDef) (h : x.storable) (compact ok : Bool) (s : Bytes) (hs : x.saveFile compact = (ok, some s))
    (before : LayoutDef) (k : Nat) :
    (before.loadFile (s.take k)).1 = false ∨ before.loadFile (s.take k) = before.loadFile s := by
  unfold LayoutDef.saveFile at hs
  rw [LayoutDef.saveXml_eq h.1] at hs
  refine content_cut layoutCb_space (by decide) (LayoutDef.node_savable h) (by rw [newXML_addChild]; rfl) before.loadXml (false, before)
    (fun r => r.1 = false) rfl ?_ ?_ hs k
  · intro T hT
    unfold LayoutDef.loadXml
    rw [selfOrFind_noName hT]
  · intro W hW
    unfold LayoutDef.loadXml
    rw [selfOrFind_emptyRoot hW (by decide)]
    rfl

/-- A metadata source. -/
theorem C56_source (x : MetaSource) (h : x.storable) (compact ok : Bool) (s : Bytes) (hs : x.saveFile compact = (ok, some s))
    (before : MetaSource) (k : Nat) :
    (before.loadFile (s.take k)).1 = false ∨ before.loadFile (s.take k) = before.loadFile s := by
  unfold MetaSource.saveFile at hs
  rw [if_neg (by simp [h.1]), MetaSource.saveXml_eq h.1] at hs
  refine content_cut metaSourceCb_space (by decide) (MetaSource.node_savable h) (by rw [newXML_addChild]; rfl) before.loadXml (false, before)
    (fun r => r.1 = false) rfl ?_ ?_ hs k
  · intro T hT
    unfold MetaSource.loadXml
    rw [selfOrFind_noName hT]
  · intro W hW
    unfold MetaSource.loadXml
    rw [selfOrFind_emptyRoot hW (by decide)]
    rfl

/-- A metadata source of a file. -/
theorem C56_file_source (x : FileMetaSource) (h : x.storable) (compact ok : Bool) (s : Bytes) (hs : x.saveFile compact = (ok, some s))
    (before : FileMetaSource) (k : Nat) :
    (before.loadFile (s.take k)).1 = false ∨ before.loadFile (s.take k) = before.loadFile s := by
  unfold FileMetaSource.saveFile at hs
  rw [if_neg (by simp [h.1]), FileMetaSource.saveXml_eq h.1] at hs
  refine content_cut fileMetaSourceCb_space (by decide) (FileMetaSource.node_savable h) (by rw [newXML_addChild]; rfl) before.loadXml
    (false, before) (fun r => r.1 = false) rfl ?_ ?_ hs k
  · intro T hT
    unfold FileMetaSource.loadXml
    rw [selfOrFind_noName hT]
  · intro W hW
    unfold FileMetaSource.loadXml
    rw [selfOrFind_emptyRoot hW (by decide)]
    rfl

/-- A reel. -/
theorem C56_reel (x : Reel) (h : x.writable) (compact ok : Bool) (s : Bytes) (hs : x.saveFile compact = (ok, some s))
    (before : Reel) (k : Nat) :
    (before.loadFile (s.take k)).1 = false ∨ before.loadFile (s.take k) = before.loadFile s := by
  unfold Reel.saveFile at hs
  rw [Reel.saveXml_eq h, if_neg (by simp [h.1])] at hs
  refine content_cut reelCb_space (by decide) (Reel.node_savable h) (by rw [newXML_addChild]; rfl) before.loadXml (false, before)
    (fun r => r.1 = false) rfl ?_ ?_ hs k
  · intro T hT
    unfold Reel.loadXml
    rw [selfOrFind_noName hT]
  · intro W hW
    unfold Reel.loadXml
    rw [selfOrFind_emptyRoot hW (by decide)]
    rfl

variable {L : ConfigLib}

/-- Technical metadata. -/
theorem C56_technical (x : TechMeta L) (h : x.writable) (compact ok : Bool) (s : Bytes) (hs : x.saveFile compact = (ok, some s))
    (before : TechMeta L) (k : Nat) :
    (before.loadFile (s.take k)).1 = false ∨ before.loadFile (s.take k) = before.loadFile s := by
  obtain ⟨⟨f, hf, hfs⟩, ⟨y, hy, hyw⟩, ha⟩ := h
  have ht : ∀ y, x.tocs = some y → ∀ z ∈ y.list, z.writable := by
    intro z hz; rw [hy] at hz; injection hz with hz; subst hz; exact hyw
  unfold TechMeta.saveFile at hs
  have hc : x.complete = true := by simp [TechMeta.complete, hy, hf]
  rw [if_neg (by simp [hc]), TechMeta.saveXml_eq hf ht ha] at hs
  refine content_cut techCb_space (by decide) (TechMeta.nodeOf_savable hfs ht ha) (by rw [newXML_addChild]; rfl) before.loadXml (false, before)
    (fun r => r.1 = false) rfl ?_ ?_ hs k
  · intro T hT
    unfold TechMeta.loadXml
    rw [find_noName hT]
  · intro W hW
    unfold TechMeta.loadXml
    rw [find_emptyRoot hW]
    rfl

/-! ## Objects whose every part may be missing -/

/-- A page of a preview: refused and untouched, or loaded whole, or cut exactly behind the name of the
    root element. -/
theorem C56_page (x : Page) (h : x.writable) (compact ok : Bool) (s : Bytes) (hs : x.saveFile compact = (ok, some s))
    (before : Page) (k : Nat) :
    before.loadFile (s.take k) = (false, before) ∨ before.loadFile (s.take k) = before.loadFile s ∨
    EndsBehindName (b! "pages") (s.take k) := by
  unfold Page.saveFile at hs
  rw [Page.saveXml_eq] at hs
  refine root_cut pageCb_space (by decide) (Page.node_savable h.1) (by rw [newXML_addChild]; rfl) before.loadXml (false, before) ?_ hs k
  intro T hT
  unfold Page.loadXml
  rw [selfOrFind_noName hT]

/-- A preview. -/
theorem C56_preview (x : Preview) (h : x.storable) (compact ok : Bool) (s : Bytes) (hs : x.saveFile compact = (ok, some s))
    (before : Preview) (k : Nat) :
    before.loadFile (s.take k) = (false, before) ∨ before.loadFile (s.take k) = before.loadFile s ∨
    EndsBehindName (b! "preview") (s.take k) := by
  unfold Preview.saveFile at hs
  rw [Preview.saveXml_eq h.1] at hs
  refine root_cut previewCb_space (by decide) (Preview.node_savable h) (by rw [newXML_addChild]; rfl) before.loadXml (false, before) ?_ hs k
  intro T hT
  unfold Preview.loadXml
  rw [selfOrFind_noName hT]

/-- A list of sections. -/
theorem C56_sections (x : Sections) (h : Sections.isValid (some x) = true) (compact ok : Bool) (s : Bytes)
    (hs : x.saveFile compact = (ok, some s)) (before : Sections) (k : Nat) :
    before.loadFile (s.take k) = (false, before) ∨ before.loadFile (s.take k) = before.loadFile s ∨
    EndsBehindName (b! "sections") (s.take k) := by
  unfold Sections.saveFile at hs
  rw [Sections.saveXml_eq h, if_neg (by simp [h])] at hs
  refine root_cut sectionsCb_space (by decide) x.node_savable (by rw [newXML_addChild]; rfl) before.loadXml (false, before) ?_ hs k
  intro T hT
  unfold Sections.loadXml
  rw [selfOrFind_noName hT]

/-- A list of layout definitions. -/
theorem C56_layouts (x : LayoutDefs) (h : x.storable) (compact ok : Bool) (s : Bytes) (hs : x.saveFile compact = (ok, some s))
    (before : LayoutDefs) (k : Nat) :
    before.loadFile (s.take k) = .ok (false, before) ∨ before.loadFile (s.take k) = before.loadFile s ∨
    EndsBehindName (b! "layoutDefinitions") (s.take k) := by
  unfold LayoutDefs.saveFile at hs
  rw [LayoutDefs.saveXml_eq h] at hs
  split at hs
  · cases hs
  refine root_cut layoutsCb_space (by decide) (LayoutDefs.node_savable h) (by rw [newXML_addChild]; rfl) before.loadXml (.ok (false, before)) ?_ hs k
  intro T hT
  unfold LayoutDefs.loadXml
  rw [selfOrFind_noName hT]

/-- Metadata. -/
theorem C56_metadata (x : TocMeta) (h : x.storable) (compact ok : Bool) (s : Bytes) (hs : x.saveFile compact = (ok, some s))
    (before : TocMeta) (k : Nat) :
    before.loadFile (s.take k) = (false, before) ∨ before.loadFile (s.take k) = before.loadFile s ∨
    EndsBehindName (b! "metadata") (s.take k) := by
  unfold TocMeta.saveFile at hs
  rw [TocMeta.saveXml_eq h.1] at hs
  refine root_cut tocMetaCb_space (by decide) (TocMeta.node_savable h) (by rw [newXML_addChild]; rfl) before.loadXml (false, before) ?_ hs k
  intro T hT
  unfold TocMeta.loadXml
  rw [selfOrFind_noName hT]

/-- Metadata of a file. -/
theorem C56_file_metadata (x : FileMeta) (h : x.storable) (compact ok : Bool) (s : Bytes) (hs : x.saveFile compact = (ok, some s))
    (before : FileMeta) (k : Nat) :
    before.loadFile (s.take k) = (false, before) ∨ before.loadFile (s.take k) = before.loadFile s ∨
    EndsBehindName (b! "metadata") (s.take k) := by
  unfold FileMeta.saveFile at hs
  rw [FileMeta.saveXml_eq h] at hs
  refine root_cut fileMetaCb_space (by decide) (FileMeta.node_savable h) (by rw [newXML_addChild]; rfl) before.loadXml (false, before) ?_ hs k
  intro T hT
  unfold FileMeta.loadXml
  rw [selfOrFind_noName hT]

/-- A file entry (saved compact). -/
theorem C56_file (x : File) (h : x.writable) (v1 ok : Bool) (s : Bytes) (hs : x.saveFile true v1 = .ok (ok, some s))
    (before : File) (k : Nat) :
    before.loadFile (s.take k) = (false, before) ∨ before.loadFile (s.take k) = before.loadFile s ∨
    EndsBehindName (b! "file") (s.take k) := by
  unfold File.saveFile at hs
  rw [File.saveXml_eq h] at hs
  refine root_cut fileCb_space (compact := true) (o := true) (ok := ok) (by decide) (File.node_savable h v1) (by rw [newXML_addChild]; rfl)
    before.loadXml (false, before) ?_ (Res.ok.inj hs) k
  intro T hT
  unfold File.loadXml
  rw [selfOrFind_noName hT]

/-- A table of contents. -/
theorem C56_toc (x : TocData) (h : x.writable) (compact ok : Bool) (s : Bytes) (hs : x.saveFile compact = (ok, some s))
    (before : TocData) (k : Nat) :
    before.loadFile (s.take k) = .ok (false, before) ∨ before.loadFile (s.take k) = before.loadFile s ∨
    EndsBehindName (b! "Index") (s.take k) := by
  unfold TocData.saveFile at hs
  rw [TocData.saveXml_eq h, if_neg (by simp [h.1])] at hs
  refine root_cut tocCb_space (by decide) (TocData.node_savable h) (by rw [newXML_addChild]; rfl) before.loadXml (.ok (false, before)) ?_ hs k
  intro T hT
  unfold TocData.loadXml
  rw [selfOrFind_noName hT]

/-- Administrative metadata. -/
theorem C56_admin (x : Admin) (h : x.storable) (compact ok : Bool) (s : Bytes) (hs : x.saveFile compact = (ok, some s))
    (before : Admin) (k : Nat) :
    before.loadFile (s.take k) = (false, before) ∨ before.loadFile (s.take k) = before.loadFile s ∨
    EndsBehindName (b! "AdministrativeMetadata") (s.take k) := by
  unfold Admin.saveFile at hs
  rw [Admin.saveXml_eq] at hs
  refine root_cut adminCb_space (by decide) (Admin.node_savable h) (by rw [newXML_addChild]; rfl) before.loadXml (false, before) ?_ hs k
  intro T hT
  unfold Admin.loadXml
  rw [find_noName hT]

/-- A boxing format with a configuration. -/
theorem C56_format (x : Format L) (c : L.Config) (hc : x.config = some c) (h : ConfigWritable L c) (compact ok : Bool) (s : Bytes)
    (hs : x.saveFile compact = (ok, some s)) (before : Format L) (k : Nat) :
    before.loadFile (s.take k) = (false, before) ∨ before.loadFile (s.take k) = before.loadFile s ∨
    EndsBehindName (b! "work") (s.take k) := by
  unfold Format.saveFile at hs
  rw [Format.saveXml_some hc] at hs
  have hv := Format.configNode_savable h
  rw [Format.configNode_eq h.1] at hs hv
  refine root_cut formatCb_space (by decide) hv (by rw [newXML_addChild]; rfl) before.loadXml (false, before) ?_ hs k
  intro T hT
  unfold Format.loadXml
  rw [find_noName hT]
  have : find T (b! "NULL") = none := by
    cases T with
    | text s => unfold find; rw [descendants]; rfl
    | elem m as cs =>
      rw [find_eq_findL]
      exact findL_none fun hm => by
        obtain ⟨r, hr⟩ := (hT.2 _ hm).1
        simp at hr
  rw [this]

/-! ## Lists -/

/-- A list of files (saved compact): refused, loaded whole, or cut not later than behind the name of
    the root element. -/
theorem C56_files (x : Files) (h : ∀ f ∈ x.list, f.writable) (ok : Bool) (s : Bytes) (hs : x.saveFile true = .ok (ok, some s))
    (before : Files) (k : Nat) :
    before.loadFile (s.take k) = (false, before) ∨ before.loadFile (s.take k) = before.loadFile s ∨
    StopsByName (b! "files") (s.take k) := by
  unfold Files.saveFile at hs
  rw [Files.saveXml_eq h] at hs
  exact list_cut filesCb_space (compact := true) (by decide) (Files.node_savable h) (by rw [newXML_addChild]; rfl) before.loadXml
    (false, before) (Res.ok.inj hs) k

/-- A list of reels. -/
theorem C56_reels (x : Reels) (h : ∀ r ∈ x.list, r.writable) (compact ok : Bool) (s : Bytes) (hs : x.saveFile compact = (ok, some s))
    (before : Reels) (k : Nat) :
    before.loadFile (s.take k) = (false, before) ∨ before.loadFile (s.take k) = before.loadFile s ∨
    StopsByName (b! "reels") (s.take k) := by
  unfold Reels.saveFile at hs
  rw [Reels.saveXml_eq h] at hs
  exact list_cut reelsCb_space (by decide) (Reels.node_savable h) (by rw [newXML_addChild]; rfl) before.loadXml (false, before) hs k

/-! ## Control data -/

theorem control_prefix {kids pre : List Node} {a t : Node} (ha : named (b! "AdministrativeMetadata") a = true)
    (hr : IsRead (.elem xmlDecl [] kids) (.elem xmlDecl [] [a, t])) (hp : pre <+: kids)
    (ht : findL pre (b! "TechnicalMetadata") ≠ none) : findL pre (b! "AdministrativeMetadata") ≠ none := by
  obtain ⟨rest, rfl⟩ := hp
  have h2 := hr.2
  rw [norm_elem] at h2
  injection h2 with _ _ h2
  have h3 : ((pre ++ rest).filter isElem).map norm = [a, t] := by
    split at h2
    · exact h2
    · have := congrArg List.length h2
      unfold leafText at this
      split at this <;> simp at this
  rw [List.filter_append] at h3
  cases hf : pre.filter isElem with
  | nil =>
    rw [List.filter_eq_nil_iff] at hf
    exact absurd (findL_texts (fun x hx => by simpa using hf x hx) _) ht
  | cons x xs =>
    rw [hf, List.cons_append, List.map_cons] at h3
    injection h3 with h3 _
    have hx : x ∈ pre := (List.mem_filter.mp (hf ▸ List.mem_cons_self ..)).1
    have hn : named (b! "AdministrativeMetadata") x = true := by rw [← named_norm, h3]; exact ha
    obtain ⟨l, r, rfl⟩ := List.append_of_mem hx
    rw [findL_append, findL_cons]
    intro e
    have e1 : findL [x] (b! "AdministrativeMetadata") = none := by
      cases h1 : findL l (b! "AdministrativeMetadata") with
      | some y => rw [h1] at e; cases e
      | none =>
        cases h2 : findL [x] (b! "AdministrativeMetadata") with
        | some y => rw [h1, h2] at e; cases e
        | none => rfl
    cases x with
    | text s => cases hn
    | elem n as cs =>
      have : n = b! "AdministrativeMetadata" := by simpa [named, Node.element] using hn
      subst this
      rw [findL_self] at e1
      cases e1

theorem findL_prefix {pre kids : List Node} {nm : Bytes} {x : Node} (hp : pre <+: kids) (h : findL pre nm = some x) :
    findL kids nm = some x := by
  obtain ⟨r, rfl⟩ := hp
  rw [findL_append, h]; rfl

theorem findL_single (b nm : Bytes) : findL [.elem b [] []] nm = if b = nm then some (.elem b [] []) else none := by
  by_cases h : b = nm
  · subst h; rw [findL_self, if_pos rfl]
  · rw [if_neg h]
    apply findL_none
    rw [namesOf_elem, namesOf_nil]
    simp [Ne.symm h]

theorem control_load_eq (before : ControlData L) {T T' : Node}
    (h1 : find T (b! "AdministrativeMetadata") = find T' (b! "AdministrativeMetadata"))
    (h2 : find T (b! "TechnicalMetadata") = find T' (b! "TechnicalMetadata")) : before.loadXml T = before.loadXml T' := by
  unfold ControlData.loadXml Admin.loadXml TechMeta.loadXml
  rw [h1, h2]

/-- What loading a cut document can lead to. -/
theorem control_cut_load (before : ControlData L) {kids pre : List Node} {a t : Node} (ha : named (b! "AdministrativeMetadata") a = true)
    (hr : IsRead (.elem xmlDecl [] kids) (.elem xmlDecl [] [a, t])) (hp : pre <+: kids) {T : Node}
    (hT : T = .elem xmlDecl [] pre ∨ ∃ b, T = .elem xmlDecl [] (pre ++ [.elem b [] []])) :
    (before.loadXml T).1 = false ∨ before.loadXml T = before.loadXml (.elem xmlDecl [] kids) ∨
    ((before.loadXml T).1 = true ∧ (before.loadXml T).2.admin = (before.loadXml (.elem xmlDecl [] kids)).2.admin ∧
      (before.loadXml T).2.tech = some TechMeta.create) := by
  have key : findL pre (b! "AdministrativeMetadata") ≠ none → findL pre (b! "TechnicalMetadata") ≠ none →
      (∀ nm x, findL pre nm = some x → find T nm = some x) → before.loadXml T = before.loadXml (.elem xmlDecl [] kids) := by
    intro h1 h2 h3
    obtain ⟨x, hx⟩ := Option.ne_none_iff_exists'.mp h1
    obtain ⟨y, hy⟩ := Option.ne_none_iff_exists'.mp h2
    apply control_load_eq
    · rw [h3 _ x hx, find_eq_findL, findL_prefix hp hx]
    · rw [h3 _ y hy, find_eq_findL, findL_prefix hp hy]
  rcases hT with rfl | ⟨b, rfl⟩
  · cases h1 : findL pre (b! "TechnicalMetadata") with
    | none =>
      left
      cases hb : (before.loadXml (.elem xmlDecl [] pre)).1 with
      | false => rfl
      | true =>
        rw [C51_load_success_iff, find_eq_findL, find_eq_findL] at hb
        exact absurd h1 hb.2
    | some y =>
      have h2 : findL pre (b! "TechnicalMetadata") ≠ none := by rw [h1]; simp
      exact .inr (.inl (key (control_prefix ha hr hp h2) h2 fun nm x hx => by rw [find_eq_findL, hx]))
  · have hf : ∀ nm, find (.elem xmlDecl [] (pre ++ [.elem b [] []])) nm =
        (findL pre nm).or (if b = nm then some (.elem b [] []) else none) := by
      intro nm; rw [find_eq_findL, findL_append, findL_single]
    cases h1 : findL pre (b! "TechnicalMetadata") with
    | some y =>
      have h2 : findL pre (b! "TechnicalMetadata") ≠ none := by rw [h1]; simp
      exact .inr (.inl (key (control_prefix ha hr hp h2) h2 fun nm x hx => by rw [hf, hx]; rfl))
    | none =>
      cases hb : (before.loadXml (.elem xmlDecl [] (pre ++ [.elem b [] []]))).1 with
      | false => exact .inl rfl
      | true =>
        right; right
        rw [C51_load_success_iff, hf, hf, h1] at hb
        have e : b = b! "TechnicalMetadata" := by
          have := hb.2
          rw [Option.none_or] at this
          split at this
          · assumption
          · exact absurd rfl this
        subst e
        have h3 := hb.1
        rw [if_neg (by decide), Option.or_none] at h3
        obtain ⟨x, hx⟩ := Option.ne_none_iff_exists'.mp h3
        have e1 : find (.elem xmlDecl [] (pre ++ [.elem (b! "TechnicalMetadata") [] []])) (b! "AdministrativeMetadata") = some x := by
          rw [hf, hx]; rfl
        have e2 : find (.elem xmlDecl [] (pre ++ [.elem (b! "TechnicalMetadata") [] []])) (b! "TechnicalMetadata") =
            some (.elem (b! "TechnicalMetadata") [] []) := by
          rw [hf, h1, if_pos rfl]; rfl
        have e3 : find (.elem xmlDecl [] kids) (b! "AdministrativeMetadata") = some x := by
          rw [find_eq_findL, findL_prefix hp hx]
        refine ⟨rfl, ?_, ?_⟩
        · unfold ControlData.loadXml
          rw [e1, e2, e3]
          dsimp only
          have : (Admin.create.loadXml (.elem xmlDecl [] (pre ++ [.elem (b! "TechnicalMetadata") [] []]))).2 =
              (Admin.create.loadXml (.elem xmlDecl [] kids)).2 := by
            unfold Admin.loadXml; rw [e1, e3]
          rw [this]
          split <;> rfl
        · unfold ControlData.loadXml
          rw [e1, e2]
          dsimp only
          unfold TechMeta.loadXml
          rw [e2]
          rfl

theorem documents_decl {cb : SaveCb} {t : Node} {ts : List Node}
    (hb : cb [] (.elem xmlDecl [] (t :: ts)) .beforeOpen = []) : ∃ r, saveText cb [] (.elem xmlDecl [] (t :: ts)) = declaration ++ r := by
  obtain ⟨w, _, e⟩ := saveText_newline cb [] (.elem xmlDecl [] (t :: ts))
  rw [e, declaration_eq, writeNode, hb]
  have h1 : writeOpenName xmlDecl = xmlDecl := by decide
  have h2 : isDirective xmlDecl = true := by decide
  simp [h1, h2]

/-- Control data: loading the beginning of a saved file answers failure, or is as loading the whole
    file, or answers success with the administrative metadata of the whole file and technical metadata
    in which everything is missing. -/
theorem C56_control (c : ControlData L) (h : c.writable) (compact ok : Bool) (s : Bytes) (hs : c.saveFile compact = (ok, some s))
    (before : ControlData L) (k : Nat) :
    (before.loadFile (s.take k)).1 = false ∨ before.loadFile (s.take k) = before.loadFile s ∨
    ((before.loadFile (s.take k)).1 = true ∧ (before.loadFile (s.take k)).2.admin = (before.loadFile s).2.admin ∧
      (before.loadFile (s.take k)).2.tech = some TechMeta.create) := by
  obtain ⟨⟨a, hadm, has⟩, t, htech, ⟨f, hf, hfs⟩, ⟨x, hx, hxw⟩, ha⟩ := h
  have ht : ∀ y, t.tocs = some y → ∀ z ∈ y.list, z.writable := by
    intro y hy; rw [hx] at hy; injection hy with hy; subst hy; exact hxw
  have hc : c.complete = true := by simp [ControlData.complete, hadm, htech]
  have hsx : c.saveXml = some [a.node, TechMeta.nodeOf f t.tocs t.apps] := by
    unfold ControlData.saveXml
    rw [hadm, htech]
    simp only [Option.bind_some, Admin.saveXml_eq, TechMeta.saveXml_eq hf ht ha, Option.map_some]
  have hd : ControlData.document [a.node, TechMeta.nodeOf f t.tocs t.apps] =
      .elem xmlDecl [] [a.node, TechMeta.nodeOf f t.tocs t.apps] := rfl
  have hsav : ∀ n ∈ [a.node, TechMeta.nodeOf f t.tocs t.apps], Savable n := by
    intro n hn
    simp only [List.mem_cons, List.not_mem_nil, or_false] at hn
    rcases hn with rfl | rfl
    · exact Admin.node_savable has
    · exact TechMeta.nodeOf_savable hfs ht ha
  have hcb := spaceCb_if controlCb_space compact
  obtain ⟨_, ⟨T2, h2, r2⟩⟩ := read_documents hcb (by simp) hsav
  unfold ControlData.saveFile at hs
  rw [hc, hsx] at hs
  simp only [Bool.true_eq_false, if_false] at hs
  rw [hd] at hs
  cases hs
  obtain ⟨r, hr⟩ := documents_decl (cb := if compact = true then noCb else ControlData.cb) (t := a.node)
    (ts := [TechMeta.nodeOf f t.tocs t.apps]) (by cases compact <;> rfl)
  obtain ⟨cs, hcs, ec⟩ := save_docs_clean hcb.white (ts := [a.node, TechMeta.nodeOf f t.tocs t.apps]) (by simp) fun t ht => (hsav t ht).clean
  obtain ⟨cs', er, hsub⟩ := utf8_strip declaration cs r (by decide +kernel) (by rw [← hr]; exact ec.symm)
  have hal : ∀ c ∈ cs', Allowed c := fun c hc => hcs c (hsub c hc)
  subst er
  rw [hr] at h2 ⊢
  by_cases hk : k ≤ declaration.length
  · left
    rw [List.take_append_of_le_length hk]
    unfold ControlData.loadFile loadFromFile
    have e := eofs_feed decodeFile (declaration.take k)
    have := ascii_lit good_decodeFile (w := declaration.take k) (fun b hb => (by decide +kernel : ∀ b ∈ declaration, okByte b = true) b (List.mem_of_mem_take hb))
      PS.init []
    rw [List.append_nil, feed_nil good_decodeFile] at this
    rw [this] at e
    rcases decl_cuts k hk with h | h | h
    all_goals
      rw [h] at e
      rw [show Xml.loadFile _ = _ from e]
      try rfl
  obtain ⟨k, rfl⟩ : ∃ i, k = declaration.length + i := ⟨k - declaration.length, by omega⟩
  rw [show (declaration ++ utf8File cs').take (declaration.length + k) = declaration ++ (utf8File cs').take k by
    rw [List.take_append, List.take_of_length_le (by omega)]; simp]
  unfold ControlData.loadFile loadFromFile
  rw [h2]
  dsimp only
  rcases C56_any cs' hal T2 h2 k with h | ⟨kids, rfl, pre, hp, h⟩
  · left; rw [h]
  · have hcut : ∃ T, Xml.loadFile (declaration ++ (utf8File cs').take k) = some T ∧
        (T = .elem xmlDecl [] pre ∨ ∃ b, T = .elem xmlDecl [] (pre ++ [.elem b [] []])) := by
      rcases h with h | ⟨b, h⟩
      · exact ⟨_, h, .inl rfl⟩
      · exact ⟨_, h, .inr ⟨b, rfl⟩⟩
    obtain ⟨T, e, hT⟩ := hcut
    rw [e]
    exact control_cut_load before (a := a.node) rfl r2 hp hT

/-! ## What can go wrong

Each of these is a cut, for every saved object, that is loaded with the answer success. -/

/-- A table of contents cut behind `<Index` replaces a table of contents by one without version,
    metadata, layout definitions and reels. -/
theorem C56_toc_loss (x : TocData) (h : x.writable) (compact ok : Bool) (s : Bytes) (hs : x.saveFile compact = (ok, some s)) :
    ∃ k < s.length, ∀ before : TocData, before.loadFile (s.take k) =
      .ok (true, { before with version := none, metadata := none, layouts := none, reels := none }) := by
  unfold TocData.saveFile at hs
  rw [TocData.saveXml_eq h, if_neg (by simp [h.1])] at hs
  obtain ⟨k, hk, W, hW, e⟩ := name_cut tocCb_space (by decide) (by rw [newXML_addChild]; rfl) hs
  refine ⟨k, hk, fun before => ?_⟩
  unfold TocData.loadFile loadFromFile
  rw [e]
  dsimp only
  unfold TocData.loadXml
  rw [selfOrFind_emptyRoot hW (by decide)]
  rfl

/-- Administrative metadata cut behind `<AdministrativeMetadata` loads as administrative metadata in which
    everything is missing. -/
theorem C56_admin_loss (x : Admin) (compact ok : Bool) (s : Bytes) (hs : x.saveFile compact = (ok, some s)) :
    ∃ k < s.length, ∀ before : Admin, before.loadFile (s.take k) = (true, ⟨none, none, none, none, none, none⟩) := by
  unfold Admin.saveFile at hs
  rw [Admin.saveXml_eq] at hs
  obtain ⟨k, hk, W, hW, e⟩ := name_cut adminCb_space (by decide) (by rw [newXML_addChild]; rfl) hs
  refine ⟨k, hk, fun before => ?_⟩
  unfold Admin.loadFile loadFromFile
  rw [e]
  dsimp only
  unfold Admin.loadXml
  rw [find_emptyRoot hW]
  rfl

/-- A list of files cut behind the declaration is loaded as a list without files. -/
theorem C56_files_loss (x : Files) (h : ∀ f ∈ x.list, f.writable) (ok : Bool) (s : Bytes) (hs : x.saveFile true = .ok (ok, some s)) :
    ∃ k < s.length, ∀ before : Files, before.loadFile (s.take k) = (true, before) := by
  unfold Files.saveFile at hs
  rw [Files.saveXml_eq h] at hs
  obtain ⟨h1, h2⟩ := decl_cut filesCb_space (compact := true) (by decide) (by rw [newXML_addChild]; rfl) (Res.ok.inj hs)
  refine ⟨_, h1, fun before => ?_⟩
  unfold Files.loadFile loadFromFile
  rw [h2]
  rfl

/-- A list of reels likewise. -/
theorem C56_reels_loss (x : Reels) (h : ∀ r ∈ x.list, r.writable) (compact ok : Bool) (s : Bytes) (hs : x.saveFile compact = (ok, some s)) :
    ∃ k < s.length, ∀ before : Reels, before.loadFile (s.take k) = (true, before) := by
  unfold Reels.saveFile at hs
  rw [Reels.saveXml_eq h] at hs
  obtain ⟨h1, h2⟩ := decl_cut reelsCb_space (by decide) (by rw [newXML_addChild]; rfl) hs
  refine ⟨_, h1, fun before => ?_⟩
  unfold Reels.loadFile loadFromFile
  rw [h2]
  rfl

theorem withWhite_elem (cb : SaveCb) (anc : List Bytes) (n as cs) : ∃ xs, withWhite cb anc (.elem n as cs) = .elem n as xs := by
  cases cs with
  | nil => exact ⟨_, by rw [withWhite]⟩
  | cons c cs => exact ⟨_, by rw [withWhite]⟩

theorem admin_names (a : Admin) : (b! "TechnicalMetadata") ∉ namesOf [a.node] := by
  intro hm
  unfold Admin.node Admin.parts at hm
  rw [namesOf_elem, namesOf_nil, List.append_nil] at hm
  rcases List.mem_cons.mp hm with h | hm
  · revert h; decide
  · simp only [namesOf_append, List.mem_append] at hm
    rcases hm with h | h | h | h | h | h <;> (have := textNode_names _ _ h; revert this; decide)

/-- Control data cut behind `<TechnicalMetadata` is loaded with technical metadata in which everything is
    missing: no boxing format, no tables of contents, no applications. -/
theorem C56_control_loss (c : ControlData L) (h : c.writable) (compact ok : Bool) (s : Bytes) (hs : c.saveFile compact = (ok, some s)) :
    ∃ k < s.length, ∀ before : ControlData L, before.loadFile (s.take k) = (true, ⟨c.admin, some ⟨none, none, none⟩⟩) := by
  obtain ⟨⟨a, hadm, has⟩, t, htech, ⟨f, hf, hfs⟩, ⟨x, hx, hxw⟩, ha⟩ := h
  have ht : ∀ y, t.tocs = some y → ∀ z ∈ y.list, z.writable := by
    intro y hy; rw [hx] at hy; injection hy with hy; subst hy; exact hxw
  have hc : c.complete = true := by simp [ControlData.complete, hadm, htech]
  have hsx : c.saveXml = some [a.node, TechMeta.nodeOf f t.tocs t.apps] := by
    unfold ControlData.saveXml
    rw [hadm, htech]
    simp only [Option.bind_some, Admin.saveXml_eq, TechMeta.saveXml_eq hf ht ha, Option.map_some]
  have hd : ControlData.document [a.node, TechMeta.nodeOf f t.tocs t.apps] =
      .elem xmlDecl [] [a.node, TechMeta.nodeOf f t.tocs t.apps] := rfl
  have hcb := spaceCb_if controlCb_space compact
  unfold ControlData.saveFile at hs
  rw [hc, hsx] at hs
  simp only [Bool.true_eq_false, if_false] at hs
  rw [hd] at hs
  cases hs
  obtain ⟨k, hk, A, B, hAB, e⟩ := second_cut (n := b! "AdministrativeMetadata") (m := b! "TechnicalMetadata")
    (cb := if compact = true then noCb else ControlData.cb) hcb.white (by decide) (by decide)
    (Admin.node_savable has).clean (bs := []) (ds := (TechMeta.nodeOf f t.tocs t.apps).children)
    (by cases compact <;> rfl)
  refine ⟨k, hk, fun before => ?_⟩
  have e' : Xml.loadFile ((saveText (if compact = true then noCb else ControlData.cb) []
      (.elem xmlDecl [] [a.node, TechMeta.nodeOf f t.tocs t.apps])).take k) =
        some (.elem xmlDecl [] (A ++ withWhite (if compact = true then noCb else ControlData.cb) [xmlDecl] a.node ::
          (B ++ [.elem (b! "TechnicalMetadata") [] []]))) := e
  unfold ControlData.loadFile loadFromFile
  rw [e']
  dsimp only
  have hA : ∀ x ∈ A, isElem x = false := fun x hx => hAB x (by simp [hx])
  have hB : ∀ x ∈ B, isElem x = false := fun x hx => hAB x (by simp [hx])
  obtain ⟨xs, hxs⟩ : ∃ xs, withWhite (if compact = true then noCb else ControlData.cb) [xmlDecl] a.node =
      .elem (b! "AdministrativeMetadata") [] xs := withWhite_elem _ _ _ _ _
  have h1 : find (.elem xmlDecl [] (A ++ withWhite (if compact = true then noCb else ControlData.cb) [xmlDecl] a.node ::
      (B ++ [.elem (b! "TechnicalMetadata") [] []]))) (b! "AdministrativeMetadata") =
      some (withWhite (if compact = true then noCb else ControlData.cb) [xmlDecl] a.node) := by
    rw [find_eq_findL, findL_append, findL_texts hA, Option.none_or, findL_cons]
    rw [hxs, findL_self]
    rfl
  have h2 : find (.elem xmlDecl [] (A ++ withWhite (if compact = true then noCb else ControlData.cb) [xmlDecl] a.node ::
      (B ++ [.elem (b! "TechnicalMetadata") [] []]))) (b! "TechnicalMetadata") = some (.elem (b! "TechnicalMetadata") [] []) := by
    rw [find_eq_findL, findL_append, findL_texts hA, Option.none_or, findL_cons]
    have : findL [withWhite (if compact = true then noCb else ControlData.cb) [xmlDecl] a.node] (b! "TechnicalMetadata") = none := by
      rw [← find_eq_findL xmlDecl []]
      have h3 := find_norm (.elem xmlDecl [] [withWhite (if compact = true then noCb else ControlData.cb) [xmlDecl] a.node]) (b! "TechnicalMetadata")
      rw [norm_elem] at h3
      rw [show List.filter isElem [withWhite (if compact = true then noCb else ControlData.cb) [xmlDecl] a.node] =
          [withWhite (if compact = true then noCb else ControlData.cb) [xmlDecl] a.node] by rw [hxs]; rfl,
        if_pos (by rw [hxs]; rfl), List.map_cons, List.map_nil, norm_withWhite hcb (Admin.node_savable has).noEmpty, (Admin.node_savable has).norm, find_eq_findL,
        findL_none (admin_names a)] at h3
      cases hf : find (.elem xmlDecl [] [withWhite (if compact = true then noCb else ControlData.cb) [xmlDecl] a.node]) (b! "TechnicalMetadata") with
      | none => rfl
      | some y => rw [hf] at h3; cases h3
    rw [this, Option.none_or, findL_append, findL_texts hB, Option.none_or]
    exact findL_self _ _ _ _
  unfold ControlData.loadXml
  rw [h1, h2]
  dsimp only
  rw [Admin.loadXml_of has Admin.create h1 ⟨normal_withWhite _ _ _, by
    rw [norm_withWhite hcb (Admin.node_savable has).noEmpty, (Admin.node_savable has).norm]⟩]
  unfold TechMeta.loadXml
  rw [h2, hadm]
  rfl

set_option maxRecDepth 100000 in
/-- Metadata is saved to a string without declaration.  Cut behind its first source, that string is
    loaded with the answer success, and the second source is lost. -/
theorem C56_string_loss : ∃ s k,
    (TocMeta.mk (some [⟨some (b! "f"), 1, -1, some (b! "x"), some []⟩, ⟨some (b! "f"), 2, -1, some (b! "y"), some []⟩])).saveString true = some s ∧
    k < s.length ∧ (TocMeta.create.loadString (s.take k)).1 = true ∧
    (TocMeta.create.loadString (s.take k)).2.sources.map (·.map MetaSource.id) = some [1] :=
  ⟨_, 93, rfl, by decide +kernel⟩

/-! ## The hypotheses are met -/

example : ∃ s, exToc.saveFile false = (true, some s) ∧
    (∀ k, TocData.create.loadFile (s.take k) = .ok (false, TocData.create) ∨ TocData.create.loadFile (s.take k) = TocData.create.loadFile s ∨
      EndsBehindName (b! "Index") (s.take k)) ∧
    (∃ k < s.length, ∃ y, TocData.create.loadFile (s.take k) = .ok (true, y) ∧ y.reels = none) := by
  obtain ⟨_, s, hs, _⟩ := C26_toc_general exToc exToc_storable.1 TocData.create false
  refine ⟨s, hs, C56_toc exToc exToc_storable.1 _ _ _ hs _, ?_⟩
  obtain ⟨k, hk, h⟩ := C56_toc_loss exToc exToc_storable.1 _ _ _ hs
  exact ⟨k, hk, _, h _, rfl⟩

theorem exControl_writable : exControl.writable := by
  obtain ⟨h1, t, h2, h3, ⟨x, hx, hxs⟩, ha⟩ := exControl_storable
  exact ⟨h1, t, h2, h3, ⟨x, hx, fun y hy => (hxs.2 y hy).1⟩, fun y hy z hz => ((ha y hy).2 z hz).1⟩

example : ∃ s, exControl.saveFile true = (true, some s) ∧
    ∃ k < s.length, (ControlData.create : ControlData exLib).loadFile (s.take k) = (true, ⟨some adminExample, some ⟨none, none, none⟩⟩) := by
  obtain ⟨_, _, _, s, hs, _⟩ := C51_roundtrip ExConfig.lawful _ exControl_storable ControlData.create true
  obtain ⟨k, hk, h⟩ := C56_control_loss exControl exControl_writable _ _ _ hs
  exact ⟨s, hs, k, hk, h _⟩

end Afs
