import Verif.Spec.Built
import Verif.Proof.Made
import Verif.Proof.Stable3
/-! # What objects built from clean arguments hold (for C87) -/
namespace Afs.Keep
open Afs Spec Xml

theorem built_made {o : Obj} (h : Built o) : Made o := by
  induction h with
  | sectionsNew => exact .sectionsNew
  | sectionsAdd _ _ ih => exact .sectionsAdd _ ih
  | sectionsClone _ ih => exact .sectionsClone ih
  | sectionsXml n _ ih => exact .sectionsXml n ih
  | sectionsOf _ e ih => exact .sectionsOf ih e
  | layoutNew => exact .layoutNew
  | layoutNew2 _ _ => exact .layoutNew2 _ _
  | layoutAdd _ _ ih => exact .layoutAdd _ ih
  | layoutClone _ ih => exact .layoutClone ih
  | layoutXml _ _ ih => exact .layoutXml _ ih
  | layoutOf i _ e ih => exact .layoutOf i ih e
  | layoutsNew => exact .layoutsNew
  | layoutsAdd _ _ e ih1 ih2 => exact .layoutsAdd ih1 ih2 e
  | layoutsClone _ ih => exact .layoutsClone ih
  | layoutsXml _ _ e ih => exact .layoutsXml _ ih e
  | layoutsOf _ e ih => exact .layoutsOf ih e
  | layoutsUsed _ e ih => exact .layoutsUsed ih e
  | previewNew => exact .previewNew
  | previewAdd _ _ ih => exact .previewAdd _ ih
  | previewDpi _ _ ih => exact .previewDpi _ ih
  | previewShift o _ ih => exact .previewShift o ih
  | previewClone _ ih => exact .previewClone ih
  | previewXml _ _ ih => exact .previewXml _ ih
  | previewOf _ e ih => exact .previewOf ih e
  | fileMetaNew => exact .fileMetaNew
  | fileMetaAdd _ _ ih => exact .fileMetaAdd _ ih
  | fileMetaClone _ ih => exact .fileMetaClone ih
  | fileMetaXml _ _ ih => exact .fileMetaXml _ ih
  | fileMetaOf _ e ih => exact .fileMetaOf ih e
  | fileNew => exact .fileNew
  | fileNew2 types _ _ _ _ _ _ _ _ _ _ _ _ _ _ ih1 ih2 => exact .fileNew2 _ _ _ _ _ _ _ _ _ _ _ _ _ ih1 ih2
  | fileName _ _ ih => exact .fileName _ ih
  | fileDate _ _ ih => exact .fileDate _ ih
  | fileChecksum _ _ ih => exact .fileChecksum _ ih
  | fileUniqueId _ _ ih => exact .fileUniqueId _ ih
  | fileFormat _ _ ih => exact .fileFormat _ ih
  | filePreview _ _ ih1 ih2 => exact .filePreview ih1 ih2
  | fileMetadata _ _ ih1 ih2 => exact .fileMetadata ih1 ih2
  | fileType t _ ih => exact .fileType t ih
  | fileShift o _ ih => exact .fileShift o ih
  | fileClone _ ih => exact .fileClone ih
  | fileXml _ _ ih => exact .fileXml _ ih
  | fileOf i _ e ih => exact .fileOf i ih e
  | filesNew => exact .filesNew
  | filesAdd _ _ ih1 ih2 => exact .filesAdd ih1 ih2
  | filesShift d t _ hs ih => exact .filesShift d t ih hs
  | filesClone _ ih => exact .filesClone ih
  | filesXml _ _ ih => exact .filesXml _ ih
  | filesOf _ e ih => exact .filesOf ih e
  | filesParents types _ e ih => exact .filesParents types ih e
  | filesChildren types _ e ih => exact .filesChildren types ih e
  | filesAlone types _ e ih => exact .filesAlone types ih e
  | reelNew => exact .reelNew
  | reelNew2 _ => exact .reelNew2 _
  | reelId _ _ ih => exact .reelId _ ih
  | reelAdd _ _ ih1 ih2 => exact .reelAdd ih1 ih2
  | reelShift d m _ hs ih => exact .reelShift d m ih hs
  | reelClone _ ih => exact .reelClone ih
  | reelXml _ _ ih => exact .reelXml _ ih
  | reelOf i _ e ih => exact .reelOf i ih e
  | reelsNew => exact .reelsNew
  | reelsAdd _ _ ih1 ih2 => exact .reelsAdd ih1 ih2
  | reelsClone _ ih => exact .reelsClone ih
  | reelsXml _ _ ih => exact .reelsXml _ ih
  | reelsOf _ e ih => exact .reelsOf ih e
  | tocMetaNew => exact .tocMetaNew
  | tocMetaAdd _ _ ih => exact .tocMetaAdd _ ih
  | tocMetaClone _ ih => exact .tocMetaClone ih
  | tocMetaXml _ _ ih => exact .tocMetaXml _ ih
  | tocMetaOf _ e ih => exact .tocMetaOf ih e
  | tocNew => exact .tocNew
  | tocNew2 _ _ _ _ => exact .tocNew2 _ _ _ _
  | tocVersion _ _ ih => exact .tocVersion _ ih
  | tocIndexType s _ ih => exact .tocIndexType s ih
  | tocJobId _ _ ih => exact .tocJobId _ ih
  | tocReelId _ _ ih => exact .tocReelId _ ih
  | tocReel _ _ ih1 ih2 => exact .tocReel ih1 ih2
  | tocSource _ _ ih => exact .tocSource _ ih
  | tocLayout _ _ e ih1 ih2 => exact .tocLayout ih1 ih2 e
  | tocLayouts _ _ e ih1 ih2 => exact .tocLayouts ih1 ih2 e
  | tocShift d m _ hs ih => exact .tocShift d m ih hs
  | tocClone _ ih => exact .tocClone ih
  | tocXml _ _ e ih => exact .tocXml _ ih e

/-- A layout definition with clean texts and sections whose numbers are in range. -/
def LayoutHeld (d : LayoutDef) : Prop := Held d.id ∧ Held d.name ∧ ∀ s, d.sections = some s → VecAll Section.inRange s.sections

/-- The same of a table of contents; layouts one by one. -/
structure TocClean (t : TocData) : Prop where
  version : AttrField t.version
  job : Held t.jobId
  reel : Held t.reelId
  mdata : ∀ m, t.metadata = some m → VecAll (fun s => s.isValid = true ∧ SourceHeld s) m.sources
  layouts : ∀ d, t.layouts = some d → VecAll LayoutHeld d.defs
  reels : ∀ r, t.reels = some r → VecAll (fun x => x.isValid = true ∧ ReelHeld x) r.reels

/-- What every history with clean arguments keeps, besides `Kept`. -/
def Tidy : Obj → Prop
  | .sections s => VecAll Section.inRange s.sections
  | .layout d => LayoutHeld d
  | .layouts ds => VecAll LayoutHeld ds.defs
  | .preview p => PreviewHeld p
  | .fileMeta m => FileMetaHeld m
  | .file f => FileHeld f
  | .files fs => VecAll (fun x => x.isValid = true ∧ FileHeld x) fs.tocs
  | .reel r => ReelHeld r
  | .reels rs => VecAll (fun x => x.isValid = true ∧ ReelHeld x) rs.reels
  | .tocMeta m => VecAll (fun s => s.isValid = true ∧ SourceHeld s) m.sources
  | .toc t => TocClean t

/-! ### Layouts -/

theorem layoutHeld_storable {d : LayoutDef} (h : LayoutHeld d) (hs : SectionsInv d.sectionList) (hv : d.isValid = true) : d.storable := by
  refine ⟨hv, ?_⟩
  unfold LayoutDef.isValid at hv
  split at hv
  · cases hv
  · rename_i hx
    simp only [Bool.or_eq_true, not_or, Bool.not_eq_true, Bool.not_eq_false'] at hx
    refine ⟨held_field h.1 (nullOrEmpty_ne hx.1.1), held_field h.2.1 (nullOrEmpty_ne hx.1.2), ?_⟩
    intro s e
    refine ⟨by rw [← e]; exact hx.2, ?_, (h.2.2 s e).2⟩
    have : SectionsInv (s.sections.getD []) := by simpa only [LayoutDef.sectionList, e] using hs
    rw [List.nodup_iff_pairwise_ne, List.pairwise_map]
    exact this.2.imp fun h => h.1

theorem held_of_field {s : Option Bytes} (h : TextField s) : Held s := fun t e => ⟨(h t e).1, (h t e).2.2⟩

theorem sectionsVec {s : Sections} (hv : Sections.isValid (some s) = true) : s.sections ≠ some [] := by
  intro e
  rcases s with ⟨v⟩
  dsimp only at e
  subst e
  cases hv

theorem layoutHeld_of {d : LayoutDef} (h : d.storable) : LayoutHeld d :=
  ⟨held_of_field h.2.1, held_of_field h.2.2.1, fun s e => ⟨sectionsVec (h.2.2.2 s e).1, (h.2.2.2 s e).2.2⟩⟩

theorem layouts_storable {ds : LayoutDefs} (h : VecAll LayoutHeld ds.defs) (k : KDefs (ds.defs.getD [])) : ds.storable :=
  ⟨h.1, k.1.2, fun x hx => layoutHeld_storable (h.2 x hx) (k.2 x hx) (k.1.1 x hx)⟩

theorem layouts_of {ds : LayoutDefs} (h : ds.storable) : VecAll LayoutHeld ds.defs := ⟨h.1, fun x hx => layoutHeld_of (h.2.2 x hx)⟩

theorem sections_add_tidy {s : Sections} (h : VecAll Section.inRange s.sections) {x : Option Section}
    (hx : ∀ y, x = some y → Section.inRange y) : VecAll Section.inRange (s.append x).2.sections := by
  unfold Sections.append
  cases x with
  | none => exact h
  | some y =>
    dsimp only
    split
    · exact h
    · split
      · exact h
      · exact vecAll_append h (hx y rfl)

theorem layout_add_tidy {d : LayoutDef} (h : LayoutHeld d) {x : Option Section}
    (hx : ∀ y, x = some y → Section.inRange y) : LayoutHeld (d.addSection x).2 := by
  unfold LayoutDef.addSection
  cases x with
  | none => exact h
  | some y =>
    dsimp only
    split
    · exact h
    · split
      · exact h
      · refine ⟨h.1, h.2.1, ?_⟩
        intro s e
        injection e with e
        subst e
        refine sections_add_tidy ?_ hx
        cases hs : d.sections with
        | none => exact vecAll_none _
        | some s => exact h.2.2 s hs

theorem sections_load_tidy {s : Sections} (h : VecAll Section.inRange s.sections) (n : Node) : VecAll Section.inRange (s.loadXml n).2.sections := by
  unfold Sections.loadXml
  split
  · exact h
  · exact Sections.loadLoop_all _ (fun n _ => Section.loadXml_inRange n _ (by unfold Section.inRange; decide)) _ h

theorem layout_load_tidy {d : LayoutDef} (h : LayoutHeld d) {n : Node} (hn : CleanDoc n) : LayoutHeld (d.loadXml n).2 := by
  unfold LayoutDef.loadXml
  split
  · exact h
  · rename_i m hm
    have hc := clean_selfOrFind hn hm
    refine ⟨held_find hc _, held_find hc _, ?_⟩
    intro s e
    injection e with e
    subst e
    exact sections_load_tidy (s := Sections.create) (vecAll_none _) _

theorem defs_add_tidy {ds : LayoutDefs} (h : VecAll LayoutHeld ds.defs) (k : KDefs (ds.defs.getD [])) {d : LayoutDef} (hd : LayoutHeld d)
    {b : Bool} {ds' : LayoutDefs} (e : LayoutDefs.add ds (some d) = .ok (b, ds')) : VecAll LayoutHeld ds'.defs := by
  rw [layouts_add_ok (defsInv_ids k.1)] at e
  cases hok : layoutOk (ds.defs.getD []) d with
  | false =>
    rw [hok] at e
    cases e
    exact h
  | true =>
    rw [hok] at e
    cases e
    exact vecAll_append h hd

theorem defs_load_tidy {ds : LayoutDefs} (h : VecAll LayoutHeld ds.defs) (k : KDefs (ds.defs.getD [])) {n : Node} (hn : CleanDoc n)
    {b : Bool} {ds' : LayoutDefs} (e : ds.loadXml n = .ok (b, ds')) : VecAll LayoutHeld ds'.defs := by
  unfold LayoutDefs.loadXml at e
  split at e
  · cases e; exact h
  · rename_i m hm
    have hc := clean_selfOrFind hn hm
    obtain ⟨b', r, e', _, h2⟩ := LayoutDefs.loadLoop_all (P := LayoutHeld) (findAll m (b! "previewLayout"))
      (fun x hx => layout_load_tidy (d := LayoutDef.create) ⟨held_none, held_none, (fun _ h => nomatch h)⟩ (clean_findAll hc x hx)) ds k.1 h
    rw [e'] at e
    cases e
    exact h2

/-! ### Previews and metadata -/

theorem preview_add_tidy {p : Preview} (h : PreviewHeld p) {x : Option Page} (hx : ∀ y, x = some y → Page.writable y) :
    PreviewHeld (p.addPage x).2 := by
  unfold Preview.addPage
  cases x with
  | none => exact h
  | some y =>
    dsimp only
    split
    · exact h
    · rename_i hv
      exact ⟨h.1, vecAll_append h.2 ⟨by simpa using hv, hx y rfl⟩⟩

theorem preview_shift_tidy {p : Preview} (h : PreviewHeld p) (o : Nat) : PreviewHeld (p.addFrameOffset o) := by
  unfold Preview.addFrameOffset
  cases hp : p.pages with
  | none => exact h
  | some l =>
    have h2 := h.2
    rw [hp] at h2
    refine ⟨h.1, ?_, ?_⟩
    · intro e
      injection e with e
      rw [List.map_eq_nil_iff] at e
      exact h2.1 (by rw [e])
    · intro q hq
      obtain ⟨q', hq', rfl⟩ := List.mem_map.mp hq
      obtain ⟨v, w⟩ := h2.2 q' hq'
      exact ⟨v, w.1, Nat.mod_lt _ (by decide), w.2.2⟩

theorem preview_load_tidy {p : Preview} (h : PreviewHeld p) {t : Node} (ht : CleanDoc t) : PreviewHeld (p.loadXml t).2 := by
  unfold Preview.loadXml
  split
  · exact h
  · rename_i n hn
    have hc := clean_selfOrFind ht hn
    have hk : ∀ c ∈ n.children, CleanDoc c := by
      cases n with
      | text => exact fun _ h => nomatch h
      | elem m as cs => exact fun c hc' => hc.child hc'
    have := Preview.loadPages_all (P := Page.writable) n.children (fun c hc' => Page.loadXml_writable (hk c hc') _ Page.create_writable)
      { p with dpi := (intElement n (b! "dpi")).getD p.dpi } h.2
    refine ⟨?_, this.1⟩
    rw [this.2]
    exact isInt_elemD h.1

theorem fileMeta_add_tidy {m : FileMeta} (h : FileMetaHeld m) {x : Option FileMetaSource} (hx : ∀ y, x = some y → CleanFileSource y) :
    FileMetaHeld (m.addSource x).2 := by
  unfold FileMeta.addSource
  cases x with
  | none => exact h
  | some y =>
    dsimp only
    split
    · exact h
    · rename_i hv
      exact vecAll_append h ⟨by simpa using hv, hx y rfl⟩

theorem fileMeta_load_tidy {m : FileMeta} (h : FileMetaHeld m) {t : Node} (ht : CleanDoc t) : FileMetaHeld (m.loadXml t).2 := by
  unfold FileMeta.loadXml
  split
  · exact h
  · rename_i n hn
    exact FileMeta.loadLoop_all _ (fun m hm => FileMetaSource.loadXml_held (clean_findAll (clean_selfOrFind ht hn) m hm) _ FileMetaSource.create_held rfl) _ h

theorem tocMeta_add_tidy {m : TocMeta} (h : VecAll (fun s => s.isValid = true ∧ SourceHeld s) m.sources) {x : Option MetaSource}
    (hx : ∀ y, x = some y → CleanSource y) : VecAll (fun s => s.isValid = true ∧ SourceHeld s) (m.addSource x).2.sources := by
  unfold TocMeta.addSource
  cases x with
  | none => exact h
  | some y =>
    dsimp only
    split
    · exact h
    · rename_i hv
      exact vecAll_append h ⟨by simpa using hv, hx y rfl⟩

theorem tocMeta_load_tidy {m : TocMeta} (h : VecAll (fun s => s.isValid = true ∧ SourceHeld s) m.sources) {t : Node} (ht : CleanDoc t) :
    VecAll (fun s => s.isValid = true ∧ SourceHeld s) (m.loadXml t).2.sources := by
  unfold TocMeta.loadXml
  split
  · exact h
  · rename_i n hn
    exact TocMeta.loadLoop_all _ (fun m hm => MetaSource.loadXml_held (clean_findAll (clean_selfOrFind ht hn) m hm) _ MetaSource.create_held rfl) _ h

/-! ### Files and reels -/

theorem addOff_int (f : Int) (o : Nat) : IsInt (addOff f o) := by
  unfold addOff intOfU
  generalize uOfInt f + o = n
  have : n % two32 < 4294967296 := Nat.mod_lt _ (by decide)
  unfold IsInt
  split
  · omega
  · rename_i hh
    have : (two32 : Int) = 4294967296 := rfl
    omega

theorem file_shift_tidy {f : File} (h : FileHeld f) (o : Nat) : FileHeld (f.addFrameOffset o) := by
  unfold File.addFrameOffset
  split
  · exact h
  · exact { h with sf := addOff_int _ _, ef := addOff_int _ _ }

theorem shiftFile_tidy {f : File} (h : FileHeld f) (o t : Nat) : FileHeld (Files.shiftFile o t f) := by
  have key : ∀ g : File, FileHeld g → FileHeld (if t &&& TYPE_PREVIEW ≠ 0 then { g with preview := g.preview.map fun p => p.addFrameOffset o } else g) := by
    intro g hg
    split
    · refine { hg with prev := ?_ }
      intro p hp
      cases hq : g.preview with
      | none => rw [hq] at hp; cases hp
      | some q =>
        rw [hq] at hp
        cases hp
        exact preview_shift_tidy (hg.prev q hq) o
    · exact hg
  refine key _ ?_
  split
  · refine { h with sf := ?_, ef := ?_ }
    · dsimp only
      split
      · exact addOff_int _ _
      · exact h.sf
    · dsimp only
      split
      · exact addOff_int _ _
      · exact h.ef
  · exact h

theorem files_shift_tidy {fs : Files} (h : VecAll (fun x => x.isValid = true ∧ FileHeld x) fs.tocs) (o t : Nat)
    (hv : ∀ x ∈ (fs.addFrameOffset o t).list, x.isValid = true) :
    VecAll (fun x => x.isValid = true ∧ FileHeld x) (fs.addFrameOffset o t).tocs := by
  unfold Files.addFrameOffset at hv ⊢
  cases hl : fs.tocs with
  | none => dsimp only; rw [hl]; exact vecAll_none _
  | some l =>
    rw [hl] at h
    dsimp only
    refine ⟨?_, ?_⟩
    · intro e
      injection e with e
      rw [List.map_eq_nil_iff] at e
      exact h.1 (by rw [e])
    · intro x hx
      refine ⟨hv x (by unfold Files.list; simpa only [hl] using hx), ?_⟩
      obtain ⟨y, hy, rfl⟩ := List.mem_map.mp hx
      exact shiftFile_tidy (h.2 y hy).2 o t

theorem files_add_tidy {fs : Files} (h : VecAll (fun x => x.isValid = true ∧ FileHeld x) fs.tocs) {f : File} (hf : FileHeld f) :
    VecAll (fun x => x.isValid = true ∧ FileHeld x) (fs.addToc (some f)).2.tocs := by
  unfold Files.addToc
  dsimp only
  split
  · exact h
  · rename_i hv
    exact vecAll_append h ⟨by simpa using hv, hf⟩

theorem files_load_tidy {fs : Files} (h : VecAll (fun x => x.isValid = true ∧ FileHeld x) fs.tocs) {n : Node} (hn : CleanDoc n) :
    VecAll (fun x => x.isValid = true ∧ FileHeld x) (fs.loadXml n).2.tocs :=
  Files.loadLoop_all _ (fun m hm _ => File.loadXml_held (clean_findAll hn m hm) FileHeld.create) _ h

theorem reel_add_tidy {r : Reel} (h : ReelHeld r) {f : File} (hf : FileHeld f) : ReelHeld (r.addFile (some f)).2 := by
  unfold Reel.addFile
  dsimp only
  split
  · exact h
  · rename_i hv
    refine ⟨h.1, ?_⟩
    intro fs e
    injection e with e
    subst e
    refine vecAll_append ?_ ⟨by simpa using hv, hf⟩
    cases hl : r.files with
    | none => exact vecAll_none _
    | some fs => exact h.2 fs hl

theorem reel_shift_tidy {r : Reel} (h : ReelHeld r) (o m : Nat) (hv : ∀ x ∈ (r.addFrameOffset o m).list, x.isValid = true) :
    ReelHeld (r.addFrameOffset o m) := by
  revert hv
  unfold Reel.addFrameOffset
  cases hl : r.files with
  | none => intro _; exact h
  | some fs =>
    dsimp only
    cases ht : fs.tocs with
    | none => intro _; exact h
    | some l =>
      dsimp only
      split
      · intro hv
        refine ⟨h.1, ?_⟩
        intro g e
        injection e with e
        subst e
        exact files_shift_tidy (h.2 fs hl) o _ hv
      · intro _; exact h

theorem reels_add_tidy {rs : Reels} (h : VecAll (fun x => x.isValid = true ∧ ReelHeld x) rs.reels) {r : Reel} (hr : ReelHeld r) :
    VecAll (fun x => x.isValid = true ∧ ReelHeld x) (rs.addReel (some r)).2.reels := by
  unfold Reels.addReel
  dsimp only
  split
  · exact h
  · rename_i hv
    exact vecAll_append h ⟨by simpa using hv, hr⟩

theorem reels_load_tidy {rs : Reels} (h : VecAll (fun x => x.isValid = true ∧ ReelHeld x) rs.reels) {t : Node} (ht : CleanDoc t) :
    VecAll (fun x => x.isValid = true ∧ ReelHeld x) (rs.loadXml t).2.reels := by
  refine Reels.loadLoop_all _ (fun n hn _ => Reel.loadXml_held ?_ ReelHeld.create) _ h
  unfold Reels.loadNodes at hn
  split at hn
  · exact clean_findAll ht n hn
  · split at hn
    · cases hn
    · split at hn
      · cases hn
      · exact clean_drop_filter ht n hn

/-! ### Tables of contents -/

theorem toc_held {t : TocData} (h : TocClean t) (k : Kept (.toc t)) : TocHeld t :=
  ⟨h.version, h.job, h.reel, h.mdata, fun d e => layouts_storable (h.layouts d e) (k.2.1 d e), h.reels⟩

theorem toc_clean {t : TocData} (h : TocHeld t) : TocClean t :=
  ⟨h.version, h.job, h.reel, h.mdata, fun d e => layouts_of (h.layouts d e), h.reels⟩

theorem toc_addLayout_tidy {t : TocData} (h : TocClean t) (k : Kept (.toc t)) {d : LayoutDef} (hd : LayoutHeld d) {b : Bool} {t' : TocData}
    (e : t.addLayout (some d) = .ok (b, t')) : TocClean t' := by
  have main : ∀ ds : LayoutDefs, VecAll LayoutHeld ds.defs → KDefs (ds.defs.getD []) →
      (do let r ← LayoutDefs.add ds (some d)
          return (r.1, { t with layouts := some r.2 }) : Res (Bool × TocData)) = .ok (b, t') → TocClean t' := by
    intro ds h1 h2 e
    cases ha : LayoutDefs.add ds (some d) with
    | ub => rw [ha] at e; cases e
    | ok r =>
      obtain ⟨b', ds'⟩ := r
      rw [ha] at e
      cases e
      refine { h with layouts := ?_ }
      intro d' e'
      injection e' with e'
      subst e'
      exact defs_add_tidy h1 h2 hd ha
  unfold TocData.addLayout at e
  cases hl : t.layouts with
  | none => rw [hl] at e; exact main _ (vecAll_none _) kdefs_nil e
  | some ds => rw [hl] at e; exact main ds (h.layouts ds hl) (k.2.1 ds hl) e

theorem toc_loop_tidy (l : List LayoutDef) : ∀ {t : TocData}, TocClean t → Kept (.toc t) → (∀ d ∈ l, LayoutHeld d ∧ SectionsInv d.sectionList) →
    ∀ {b : Bool} {t' : TocData}, TocData.addLayoutsLoop t l = .ok (b, t') → TocClean t' := by
  induction l with
  | nil => intro t h k _ b t' e; cases e; exact h
  | cons d l ih =>
    intro t h k hl b t' e
    rw [TocData.addLayoutsLoop, layout_clone] at e
    obtain ⟨b1, t1, e1, k1⟩ := toc_addLayout k (hl d (by simp)).2
    have h1 := toc_addLayout_tidy h k (hl d (by simp)).1 e1
    rw [e1] at e
    simp only [Res.ok_bind] at e
    cases b1 with
    | false => cases e; exact h1
    | true => exact ih h1 k1 (fun x hx => hl x (by simp [hx])) e

theorem toc_addLayouts_tidy {t : TocData} (h : TocClean t) (k : Kept (.toc t)) {ds : LayoutDefs} (hd : VecAll LayoutHeld ds.defs)
    (kd : KDefs (ds.defs.getD [])) {b : Bool} {t' : TocData} (e : t.addLayouts (some ds) = .ok (b, t')) : TocClean t' := by
  unfold TocData.addLayouts at e
  dsimp only at e
  split at e
  · cases e; exact h
  · split at e
    · cases e; exact h
    · refine toc_loop_tidy _ ?_ ?_ (fun x hx => ⟨hd.2 x hx, kd.2 x hx⟩) e
      · split
        · refine { h with layouts := ?_ }
          intro d e'
          injection e' with e'
          subst e'
          exact vecAll_none _
        · exact h
      · split
        · refine ⟨k.1, ?_, k.2.2⟩
          intro d e'
          injection e' with e'
          subst e'
          exact kdefs_nil
        · exact k

theorem toc_addReel_tidy {t : TocData} (h : TocClean t) {r : Reel} (hr : ReelHeld r) : TocClean (t.addReel (some r)).2 := by
  unfold TocData.addReel
  refine { h with reels := ?_ }
  intro x hx
  cases hx
  refine reels_add_tidy ?_ hr
  cases hl : t.reels with
  | none => exact vecAll_none _
  | some rs => exact h.reels rs hl

theorem toc_addSource_tidy {t : TocData} (h : TocClean t) {x : Option MetaSource} (hx : ∀ y, x = some y → CleanSource y) :
    TocClean (t.addMetadataSource x).2 := by
  cases x with
  | none => exact h
  | some x =>
    unfold TocData.addMetadataSource
    refine { h with mdata := ?_ }
    intro m hm
    cases hm
    refine tocMeta_add_tidy ?_ hx
    cases hl : t.metadata with
    | none => exact vecAll_none _
    | some m => exact h.mdata m hl

theorem toc_shift_tidy {t : TocData} (h : TocClean t) (o m : Nat) (hv : ∀ r, (t.addFrameOffset o m).reels = some r → KReels r.list) :
    TocClean (t.addFrameOffset o m) := by
  revert hv
  unfold TocData.addFrameOffset
  cases hr : t.reels with
  | none => intro _; exact h
  | some rs =>
    dsimp only
    cases hl : rs.reels with
    | none => intro _; exact h
    | some l =>
      intro hv
      refine { h with reels := ?_ }
      intro r e
      have hv := hv r e
      injection e with e
      subst e
      have hh := h.reels rs hr
      rw [hl] at hh
      refine ⟨?_, ?_⟩
      · intro e
        injection e with e
        rw [List.map_eq_nil_iff] at e
        exact hh.1 (by rw [e])
      · intro x hx
        obtain ⟨v, kx⟩ := hv x hx
        refine ⟨v, ?_⟩
        obtain ⟨y, hy, rfl⟩ := List.mem_map.mp hx
        exact reel_shift_tidy (hh.2 y hy).2 o m fun z hz => (kx z hz).1

/-! ### Selections -/

theorem select_tidy (p : File → Bool) (type : Nat) (l : List File) (hl : ∀ f ∈ l, FileHeld f) : ∀ acc : Option Files,
    (∀ a, acc = some a → VecAll (fun x => x.isValid = true ∧ FileHeld x) a.tocs) →
    ∀ r, Reel.selectLoop p type acc l = some r → VecAll (fun x => x.isValid = true ∧ FileHeld x) r.tocs := by
  induction l with
  | nil => intro acc h r e; exact h r e
  | cons f l ih =>
    intro acc h r e
    unfold Reel.selectLoop at e
    split at e
    · refine ih (fun g hg => hl g (.tail _ hg)) _ ?_ r e
      intro a ha
      cases ha
      have hf : FileHeld f.clone := by rw [file_clone]; exact hl f (.head _)
      cases acc with
      | none => exact files_add_tidy (vecAll_none _) hf
      | some a => exact files_add_tidy (h a rfl) hf
    · exact ih (fun g hg => hl g (.tail _ hg)) acc h r e

theorem reel_files_held {r : Reel} (h : ReelHeld r) : ∀ f ∈ r.list, FileHeld f := by
  intro f hf
  unfold Reel.list at hf
  cases hr : r.files with
  | none => rw [hr] at hf; cases hf
  | some fs => rw [hr] at hf; exact ((h.2 fs hr).2 f hf).2

theorem add_nonempty {d u : LayoutDefs} {x : Option LayoutDef} {b : Bool} (h : d.defs ≠ some []) (e : d.add x = .ok (b, u)) :
    u.defs ≠ some [] := by
  unfold LayoutDefs.add at e
  cases x with
  | none => cases e; exact h
  | some x =>
    dsimp only at e
    split at e
    · cases e; exact h
    · cases hh : LayoutDefs.has (some d) x.id with
      | ub => rw [hh] at e; cases e
      | ok v =>
        rw [hh] at e
        cases v with
        | true => cases e; exact h
        | false => cases e; intro e; unfold vecAppend at e; cases hd : d.defs <;> rw [hd] at e <;> simp at e

theorem usedLoop_nonempty (defs : LayoutDefs) (l : List File) : ∀ u : LayoutDefs, u.defs ≠ some [] →
    ∀ r, TocData.usedLoop defs u l = .ok (some r) → r.defs ≠ some [] := by
  induction l with
  | nil => intro u h r e; cases e; exact h
  | cons f l ih =>
    intro u h r e
    unfold TocData.usedLoop at e
    split at e
    · exact ih u h r e
    · rename_i lid _
      cases hh : LayoutDefs.has (some u) lid with
      | ub => rw [hh] at e; cases e
      | ok v =>
        rw [hh] at e
        cases v with
        | true => exact ih u h r e
        | false =>
          cases hi : LayoutDefs.byId (some defs) lid with
          | ub => rw [hi] at e; cases e
          | ok o =>
            rw [hi] at e
            cases o with
            | none => exact ih u h r e
            | some d =>
              change ((LayoutDefs.add u (some d.clone)).bind fun q => if q.1 = false then .ok none else TocData.usedLoop defs q.2 l) = _ at e
              cases ha : LayoutDefs.add u (some d.clone) with
              | ub => rw [ha] at e; cases e
              | ok q =>
                rw [ha] at e
                rcases q with ⟨b, u'⟩
                cases b with
                | false => cases e
                | true => exact ih u' (add_nonempty h ha) r e

theorem insertDef_nonempty (x : LayoutDef) (l : List LayoutDef) {r : List LayoutDef} (e : TocData.insertDefRev x l = .ok r) : r ≠ [] := by
  cases l with
  | nil => cases e; simp
  | cons p ps =>
    unfold TocData.insertDefRev at e
    split at e
    · split at e
      · cases h : TocData.insertDefRev x ps with
        | ub => rw [h] at e; cases e
        | ok v => rw [h] at e; cases e; simp
      · cases e; simp
    · cases e

theorem sortLoop_nonempty (l : List LayoutDef) : ∀ r : List LayoutDef, r ≠ [] → ∀ v, TocData.sortDefsLoop r l = .ok v → v ≠ [] := by
  induction l with
  | nil => intro r h v e; cases e; simpa using h
  | cons x l ih =>
    intro r h v e
    unfold TocData.sortDefsLoop at e
    cases hi : TocData.insertDefRev x r with
    | ub => rw [hi] at e; cases e
    | ok w => rw [hi] at e; exact ih w (insertDef_nonempty x r hi) v e

theorem used_nonempty {t : TocData} {u : LayoutDefs} (e : TocData.usedLayouts (some t) = .ok (some u)) : u.defs ≠ some [] := by
  unfold TocData.usedLayouts at e
  dsimp only at e
  split at e
  · cases e
  · rename_i defs _
    split at e
    · cases e
    · split at e
      · cases e
      · cases hl : TocData.usedLoop defs LayoutDefs.create (t.reelList.flatMap Reel.list) with
        | ub => rw [hl] at e; cases e
        | ok o =>
          rw [hl] at e
          cases o with
          | none => cases e
          | some w =>
            have hw := usedLoop_nonempty defs _ LayoutDefs.create (by simp [LayoutDefs.create]) w hl
            change (match w.defs with
              | none => (Res.ok (some w) : Res (Option LayoutDefs))
              | some l => (TocData.sortDefs l).bind fun l' => .ok (some ⟨some l'⟩)) = _ at e
            cases hd : w.defs with
            | none => rw [hd] at e; cases e; exact hw
            | some l =>
              rw [hd] at e
              dsimp only at e
              cases l with
              | nil => exact absurd hd hw
              | cons x l =>
                cases hs : TocData.sortDefs (x :: l) with
                | ub => rw [hs] at e; cases e
                | ok v =>
                  rw [hs] at e
                  cases e
                  intro ev
                  injection ev with ev
                  exact sortLoop_nonempty l [x] (by simp) v hs ev

theorem used_tidy {t : TocData} (h : TocClean t) (k : Kept (.toc t)) {u : LayoutDefs} (e : TocData.usedLayouts (some t) = .ok (some u)) :
    VecAll LayoutHeld u.defs := by
  refine ⟨used_nonempty e, ?_⟩
  by_cases hn : t.layouts = none ∨ (t.layouts.bind LayoutDefs.defs).getD [] = [] ∨ (t.reels.bind Reels.reels).getD [] = []
  · rw [C14_used_layouts_null t hn] at e; cases e
  · cases hl : t.layouts with
    | none => exact absurd (Or.inl hl) hn
    | some defs =>
      have hd := k.2.1 defs hl
      obtain ⟨r, e', _, h2⟩ := C14_used_layouts_exact t defs hl hd.1.1 hd.1.2
        (fun e => hn (Or.inr (Or.inl (by rw [hl]; exact e)))) (fun e => hn (Or.inr (Or.inr e)))
      rw [e'] at e
      cases e
      exact fun d hdm => (h.layouts defs hl).2 d ((h2 d).mp hdm).1

/-! ### Every history -/

theorem tidy {o : Obj} (h : Built o) : Tidy o := by
  induction h with
  | sectionsNew => exact vecAll_none _
  | sectionsAdd _ hx ih => exact sections_add_tidy ih hx
  | sectionsClone _ ih => rw [sections_clone]; exact ih
  | sectionsXml n _ ih => exact sections_load_tidy ih n
  | sectionsOf _ e ih => exact ih.2.2 _ e
  | layoutNew => exact ⟨held_none, held_none, (fun _ h => nomatch h)⟩
  | layoutNew2 h1 h2 =>
    refine ⟨?_, ?_, (fun _ h => nomatch h)⟩
    · exact h1
    · exact h2
  | layoutAdd _ hx ih => exact layout_add_tidy ih hx
  | layoutClone _ ih => rw [layout_clone]; exact ih
  | layoutXml _ hn ih => exact layout_load_tidy ih hn
  | layoutOf i _ e ih => exact ih.2 _ (get_mem e)
  | layoutsNew => exact vecAll_none _
  | layoutsAdd b1 _ e ih1 ih2 => exact defs_add_tidy ih1 (kept (built_made b1)) ih2 e
  | layoutsClone _ ih => rw [layouts_clone]; exact ih
  | layoutsXml b1 hn e ih => exact defs_load_tidy ih (kept (built_made b1)) hn e
  | layoutsOf _ e ih => exact TocClean.layouts ih _ e
  | layoutsUsed b1 e ih => exact used_tidy ih (kept (built_made b1)) e
  | previewNew => exact ⟨by decide, vecAll_none _⟩
  | previewAdd _ hx ih => exact preview_add_tidy ih hx
  | previewDpi _ hd ih => exact ⟨hd, ih.2⟩
  | previewShift o _ ih => exact preview_shift_tidy ih o
  | previewClone _ ih => rw [preview_clone]; exact ih
  | previewXml _ hn ih => exact preview_load_tidy ih hn
  | previewOf _ e ih => exact FileHeld.prev ih _ e
  | fileMetaNew => exact vecAll_none _
  | fileMetaAdd _ hx ih => exact fileMeta_add_tidy ih hx
  | fileMetaClone _ ih => rw [fileMeta_clone]; exact ih
  | fileMetaXml _ hn ih => exact fileMeta_load_tidy ih hn
  | fileMetaOf _ e ih => exact FileHeld.mdata ih _ e
  | fileNew => exact FileHeld.create
  | fileNew2 types _ _ h1 h2 h3 h4 h5 h6 h7 h8 h9 h10 h11 h12 ih1 ih2 =>
    exact ⟨h5, h4, h1, h2, h7, h12, h6, h8, h9, h10, h11, h3, ih1, ih2⟩
  | fileName _ hs ih => exact FileHeld.mk ih.fmt ih.uid hs ih.date ih.id ih.parent ih.size ih.sf ih.sb ih.ef ih.eb ih.sum ih.prev ih.mdata
  | fileDate _ hs ih => exact FileHeld.mk ih.fmt ih.uid ih.name hs ih.id ih.parent ih.size ih.sf ih.sb ih.ef ih.eb ih.sum ih.prev ih.mdata
  | fileChecksum _ hs ih => exact FileHeld.mk ih.fmt ih.uid ih.name ih.date ih.id ih.parent ih.size ih.sf ih.sb ih.ef ih.eb hs ih.prev ih.mdata
  | fileUniqueId _ hs ih => exact FileHeld.mk ih.fmt hs ih.name ih.date ih.id ih.parent ih.size ih.sf ih.sb ih.ef ih.eb ih.sum ih.prev ih.mdata
  | fileFormat _ hs ih => exact FileHeld.mk hs ih.uid ih.name ih.date ih.id ih.parent ih.size ih.sf ih.sb ih.ef ih.eb ih.sum ih.prev ih.mdata
  | @filePreview f p _ _ ih1 ih2 =>
    refine FileHeld.mk ih1.fmt ih1.uid ih1.name ih1.date ih1.id ih1.parent ih1.size ih1.sf ih1.sb ih1.ef ih1.eb ih1.sum ?_ ih1.mdata
    intro q hq
    cases p with
    | none => cases hq
    | some p => cases hq; rw [preview_clone]; exact ih2 p rfl
  | @fileMetadata f m _ _ ih1 ih2 =>
    refine FileHeld.mk ih1.fmt ih1.uid ih1.name ih1.date ih1.id ih1.parent ih1.size ih1.sf ih1.sb ih1.ef ih1.eb ih1.sum ih1.prev ?_
    intro q hq
    cases m with
    | none => cases hq
    | some m => cases hq; rw [fileMeta_clone]; exact ih2 m rfl
  | fileType t _ ih => exact FileHeld.addType ih t
  | fileShift o _ ih => exact file_shift_tidy ih o
  | fileClone _ ih => rw [file_clone]; exact ih
  | fileXml _ hn ih => exact File.loadXml_held hn ih
  | fileOf i _ e ih => exact (ih.2 _ (get_mem e)).2
  | filesNew => exact vecAll_none _
  | filesAdd _ _ ih1 ih2 => exact files_add_tidy ih1 ih2
  | filesShift d t b hs ih => exact files_shift_tidy ih _ _ fun x hx => (kept (built_made (.filesShift d t b hs)) x hx).1
  | filesClone _ ih => rw [files_clone]; exact ih
  | filesXml _ hn ih => exact files_load_tidy ih hn
  | filesOf _ e ih => exact ih.2 _ e
  | filesParents types _ e ih => exact select_tidy _ _ _ (reel_files_held ih) none (fun _ h => nomatch h) _ e
  | filesChildren types _ e ih => exact select_tidy _ _ _ (reel_files_held ih) none (fun _ h => nomatch h) _ e
  | filesAlone types _ e ih => exact select_tidy _ _ _ (reel_files_held ih) none (fun _ h => nomatch h) _ e
  | reelNew => exact ReelHeld.create
  | reelNew2 h => exact ⟨h, (fun _ h => nomatch h)⟩
  | reelId _ h ih => exact ⟨h, ih.2⟩
  | reelAdd _ _ ih1 ih2 => exact reel_add_tidy ih1 ih2
  | reelShift d m b hs ih => exact reel_shift_tidy ih _ _ fun x hx => (kept (built_made (.reelShift d m b hs)) x hx).1
  | reelClone _ ih => rw [reel_clone]; exact ih
  | reelXml _ hn ih => exact Reel.loadXml_held hn ih
  | reelOf i _ e ih => exact (ih.2 _ (get_mem e)).2
  | reelsNew => exact vecAll_none _
  | reelsAdd _ _ ih1 ih2 => exact reels_add_tidy ih1 ih2
  | reelsClone _ ih => rw [reels_clone]; exact ih
  | reelsXml _ hn ih => exact reels_load_tidy ih hn
  | reelsOf _ e ih => exact TocClean.reels ih _ e
  | tocMetaNew => exact vecAll_none _
  | tocMetaAdd _ hx ih => exact tocMeta_add_tidy ih hx
  | tocMetaClone _ ih => rw [tocMeta_clone]; exact ih
  | tocMetaXml _ hn ih => exact tocMeta_load_tidy ih hn
  | tocMetaOf _ e ih => exact TocClean.mdata ih _ e
  | tocNew => exact toc_clean TocHeld.create
  | tocNew2 _ h1 h2 h3 => exact ⟨h1, h2, h3, (fun _ h => nomatch h), (fun _ h => nomatch h), (fun _ h => nomatch h)⟩
  | tocVersion _ h ih => exact ⟨h, ih.job, ih.reel, ih.mdata, ih.layouts, ih.reels⟩
  | tocIndexType _ _ ih => exact ⟨ih.version, ih.job, ih.reel, ih.mdata, ih.layouts, ih.reels⟩
  | tocJobId _ h ih => exact ⟨ih.version, h, ih.reel, ih.mdata, ih.layouts, ih.reels⟩
  | tocReelId _ h ih => exact ⟨ih.version, ih.job, h, ih.mdata, ih.layouts, ih.reels⟩
  | tocReel _ _ ih1 ih2 => exact toc_addReel_tidy ih1 ih2
  | tocSource _ hx ih => exact toc_addSource_tidy ih hx
  | tocLayout b1 _ e ih1 ih2 => exact toc_addLayout_tidy ih1 (kept (built_made b1)) ih2 e
  | tocLayouts b1 b2 e ih1 ih2 => exact toc_addLayouts_tidy ih1 (kept (built_made b1)) ih2 (kept (built_made b2)) e
  | tocShift d m b hs ih => exact toc_shift_tidy ih _ _ fun r hr => (kept (built_made (.tocShift d m b hs))).1 r hr
  | tocClone _ ih => rw [toc_clone]; exact ih
  | tocXml b1 hn e ih => exact toc_clean (TocData.loadXml_held hn (toc_held ih (kept (built_made b1))) e)

end Afs.Keep
