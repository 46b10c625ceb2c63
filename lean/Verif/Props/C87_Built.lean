import Verif.Proof.Built
import Verif.Props.C70_Stable
import Verif.Props.C86_Made
/-!
# C87 what is built from clean arguments survives saving and loading

`Spec.Built` (Spec/Built.lean): objects obtained by any history of calls whose text arguments are
clean (UTF-8 of allowed characters, no blanks at the ends), whose numbers have their C types and
whose documents have clean texts.  Every such object that is valid, and has none of the few shapes
that saving is known not to keep (`FileKept`, `PreviewKept`: an empty unique id, a size with one
zero, …), can be saved in every way, compact or indented, to a string or a file, and what is loaded
back is the object, or what C25 and C26 say becomes of entries without data on the medium; from
then on nothing changes however often it is saved and loaded again.
-/
namespace Afs
open Spec Xml Keep

/-! ### From writable objects to copies -/

theorem settles_file {x : File} (hw : x.writable) : Settles fileWay x (x.asLoaded false) := by
  refine settles_of (P := fun y => y = x ∨ y = x.asLoaded false) (.inl rfl) (.inr rfl) ?_
  have key : ∀ y, y = x ∨ y = x.asLoaded false → y.writable ∧ y.asLoaded false = x.asLoaded false := by
    rintro y (rfl | rfl)
    · exact ⟨hw, rfl⟩
    · exact ⟨File.asLoaded_writable hw false, File.asLoaded_idem x false⟩
  intro y hy i
  obtain ⟨h1, h2⟩ := key y hy
  obtain ⟨a, ⟨t, b1, b2⟩⟩ := C25_file_general y h1 false
  cases i with
  | string c =>
    obtain ⟨s, a1, a2⟩ := a c
    rw [h2] at a2
    exact ⟨s, a1, by simp only [fileWay, loaded]; rw [a2]; rfl⟩
  | compactFile =>
    rw [h2] at b2
    exact ⟨t, by simp only [fileWay]; rw [b1]; rfl, by simp only [fileWay, loaded]; rw [b2]; rfl⟩

theorem settles_files {x : Files} (hw : ∀ f ∈ x.list, f.writable) : Settles filesWay x x.asLoaded := by
  refine settles_of (P := fun y => y = x ∨ y = x.asLoaded) (.inl rfl) (.inr rfl) ?_
  have key : ∀ y, y = x ∨ y = x.asLoaded → (∀ f ∈ y.list, f.writable) ∧ y.asLoaded = x.asLoaded := by
    rintro y (rfl | rfl)
    · exact ⟨hw, rfl⟩
    · refine ⟨?_, Files.asLoaded_idem x⟩
      rw [Files.asLoaded_list]
      intro f hf
      obtain ⟨g, hg, rfl⟩ := List.mem_map.mp hf
      exact File.asLoaded_writable (hw g hg) false
  intro y hy i
  obtain ⟨h1, h2⟩ := key y hy
  obtain ⟨⟨s, a1, a2⟩, ⟨t, b1, b2⟩⟩ := C25_files_general y h1
  rw [h2] at a2 b2
  cases i with
  | false => exact ⟨s, by simp only [filesWay, Bool.false_eq_true, if_false]; rw [a1]; rfl, by simp only [filesWay, Bool.false_eq_true, if_false, loaded]; rw [a2]; rfl⟩
  | true => exact ⟨t, by simp only [filesWay, if_true]; rw [b1]; rfl, by simp only [filesWay, if_true, loaded]; rw [b2]; rfl⟩

theorem settles_reel {x : Reel} (hw : x.writable) : Settles reelWay x x.asLoaded := by
  refine settles_of (P := fun y => y = x ∨ y = x.asLoaded) (.inl rfl) (.inr rfl) ?_
  have key : ∀ y, y = x ∨ y = x.asLoaded → y.writable ∧ y.asLoaded = x.asLoaded := by
    rintro y (rfl | rfl)
    · exact ⟨hw, rfl⟩
    · exact ⟨Reel.asLoaded_writable hw, Reel.asLoaded_idem x⟩
  rintro y hy ⟨c, f⟩
  obtain ⟨h1, h2⟩ := key y hy
  obtain ⟨⟨s, a1, a2⟩, ⟨t, b1, b2⟩⟩ := C26_reel_general y h1 c
  rw [h2] at a2 b2
  cases f with
  | false => exact ⟨s, a1, by simp only [reelWay, Bool.false_eq_true, if_false, loaded]; rw [a2]; rfl⟩
  | true => exact ⟨t, by simp only [reelWay, if_true, written]; rw [b1]; rfl, by simp only [reelWay, if_true, loaded]; rw [b2]; rfl⟩

theorem settles_reels {x : Reels} (hw : ∀ r ∈ x.list, r.writable) : Settles reelsWay x x.asLoaded := by
  refine settles_of (P := fun y => y = x ∨ y = x.asLoaded) (.inl rfl) (.inr rfl) ?_
  have key : ∀ y, y = x ∨ y = x.asLoaded → (∀ r ∈ y.list, r.writable) ∧ y.asLoaded = x.asLoaded := by
    rintro y (rfl | rfl)
    · exact ⟨hw, rfl⟩
    · refine ⟨?_, Reels.asLoaded_idem x⟩
      rw [Reels.asLoaded_list]
      intro f hf
      obtain ⟨g, hg, rfl⟩ := List.mem_map.mp hf
      exact Reel.asLoaded_writable (hw g hg)
  rintro y hy ⟨c, f⟩
  obtain ⟨h1, h2⟩ := key y hy
  obtain ⟨⟨s, a1, a2⟩, ⟨t, b1, b2⟩⟩ := C26_reels_general y h1 c
  rw [h2] at a2 b2
  cases f with
  | false => exact ⟨s, a1, by simp only [reelsWay, Bool.false_eq_true, if_false, loaded]; rw [a2]; rfl⟩
  | true => exact ⟨t, by simp only [reelsWay, if_true, written]; rw [b1]; rfl, by simp only [reelsWay, if_true, loaded]; rw [b2]; rfl⟩

theorem settles_toc {x : TocData} (hw : x.writable) : Settles tocWay x x.asLoaded := by
  refine settles_of (P := fun y => y = x ∨ y = x.asLoaded) (.inl rfl) (.inr rfl) ?_
  have key : ∀ y, y = x ∨ y = x.asLoaded → y.writable ∧ y.asLoaded = x.asLoaded := by
    rintro y (rfl | rfl)
    · exact ⟨hw, rfl⟩
    · exact ⟨TocData.asLoaded_writable hw, TocData.asLoaded_idem x⟩
  rintro y hy ⟨c, f⟩
  obtain ⟨h1, h2⟩ := key y hy
  obtain ⟨⟨s, a1, a2⟩, ⟨t, b1, b2⟩⟩ := C26_toc_general y h1 TocData.create c
  rw [h2] at a2 b2
  cases f with
  | false => exact ⟨s, a1, by simp only [tocWay, Bool.false_eq_true, if_false]; rw [a2]; rfl⟩
  | true => exact ⟨t, by simp only [tocWay, if_true, written]; rw [b1]; rfl, by simp only [tocWay, if_true]; rw [b2]; rfl⟩

theorem settles_preview {x : Preview} (hs : x.storable) : Settles previewWay x x := by
  refine settles_of (P := fun y => y = _) rfl rfl ?_
  rintro y rfl ⟨c, f⟩
  obtain ⟨⟨s, a1, a2⟩, ⟨t, b1, b2⟩⟩ := C22_preview _ hs c
  cases f with
  | false => exact ⟨s, a1, by simp only [previewWay, Bool.false_eq_true, if_false, loaded]; rw [a2]; rfl⟩
  | true => exact ⟨t, by simp only [previewWay, if_true, written]; rw [b1]; rfl, by simp only [previewWay, if_true, loaded]; rw [b2]; rfl⟩

theorem settles_layouts {x : LayoutDefs} (hs : x.storable) : Settles layoutsWay x x := by
  refine settles_of (P := fun y => y = x) rfl rfl ?_
  rintro y rfl ⟨c, f⟩
  obtain ⟨⟨s, a1, a2⟩, ⟨t, b1, b2⟩⟩ := C23_layouts _ hs c
  cases f with
  | false => exact ⟨s, a1, by simp only [layoutsWay, Bool.false_eq_true, if_false]; rw [a2]; rfl⟩
  | true => exact ⟨t, by simp only [layoutsWay, if_true, written]; rw [b1]; rfl, by simp only [layoutsWay, if_true]; rw [b2]; rfl⟩

theorem settles_metadata {x : TocMeta} (hs : x.storable) : Settles tocMetaWay x x := by
  refine settles_of (P := fun y => y = _) rfl rfl ?_
  rintro y rfl ⟨c, f⟩
  obtain ⟨⟨s, a1, a2⟩, ⟨t, b1, b2⟩⟩ := C24_metadata _ hs c
  cases f with
  | false => exact ⟨s, a1, by simp only [tocMetaWay, Bool.false_eq_true, if_false, loaded]; rw [a2]; rfl⟩
  | true => exact ⟨t, by simp only [tocMetaWay, if_true, written]; rw [b1]; rfl, by simp only [tocMetaWay, if_true, loaded]; rw [b2]; rfl⟩

/-! ### Whatever was built -/

/-- Previews. -/
theorem C87_preview {p : Preview} (h : Built (.preview p)) (hv : Preview.isValid (some p) = true) (hk : PreviewKept p) :
    Settles previewWay p p := settles_preview ((tidy h : PreviewHeld p).storable hk hv)

/-- Lists of layout definitions: whatever was built, finished or not, can be saved and does not change. -/
theorem C87_layouts {ds : LayoutDefs} (h : Built (.layouts ds)) : Settles layoutsWay ds ds :=
  settles_layouts (layouts_storable (tidy h) (kept (built_made h)))

/-- Metadata of tables of contents. -/
theorem C87_metadata {m : TocMeta} (h : Built (.tocMeta m)) (hv : TocMeta.isValid (some m) = true) : Settles tocMetaWay m m :=
  settles_metadata (TocMeta.storable_of_held (tidy h) hv)

/-- File entries. -/
theorem C87_file {f : File} (h : Built (.file f)) (hv : f.isValid = true) (hk : FileKept f) : Settles fileWay f (f.asLoaded false) :=
  settles_file ((tidy h : FileHeld f).writable hv hk)

/-- Lists of files: no entry of a list that was built is invalid (C86). -/
theorem C87_files {fs : Files} (h : Built (.files fs)) (hk : ∀ f ∈ fs.list, FileKept f) : Settles filesWay fs fs.asLoaded := by
  have hh : VecAll (fun x => x.isValid = true ∧ FileHeld x) fs.tocs := tidy h
  exact settles_files fun f hf => (hh.2 f hf).2.writable (hh.2 f hf).1 (hk f hf)

/-- Reels. -/
theorem C87_reel {r : Reel} (h : Built (.reel r)) (hv : r.isValid = true) (hk : ∀ f ∈ r.list, FileKept f) : Settles reelWay r r.asLoaded :=
  settles_reel ((tidy h : ReelHeld r).writable hv hk)

/-- Lists of reels. -/
theorem C87_reels {rs : Reels} (h : Built (.reels rs)) (hk : ∀ r ∈ rs.list, ∀ f ∈ r.list, FileKept f) : Settles reelsWay rs rs.asLoaded := by
  have hh : VecAll (fun x => x.isValid = true ∧ ReelHeld x) rs.reels := tidy h
  exact settles_reels fun r hr => (hh.2 r hr).2.writable (hh.2 r hr).1 (hk r hr)

/-- Tables of contents. -/
theorem C87_toc {t : TocData} (h : Built (.toc t)) (hv : t.isValid = true) (hk : ∀ r ∈ t.reelList, ∀ f ∈ r.list, FileKept f) :
    Settles tocWay t t.asLoaded :=
  settles_toc ((toc_held (tidy h) (kept (built_made h))).writable hv hk)

/-! ### Nothing is lost -/

/-- Preview and metadata of an entry are there exactly when its kind says so, it has data on the medium and a format. -/
def Spec.FileComplete (f : File) : Prop :=
  f.fileFormat ≠ none ∧ f.types ≤ 3 ∧ f.isDigital = true ∧ (f.isPreview = false → f.preview = none) ∧ (f.hasMetadata = false → f.metadata = none)

theorem C87_file_same {f : File} (h : Built (.file f)) (hv : f.isValid = true) (hk : FileKept f) (hc : FileComplete f) :
    Settles fileWay f f := by
  have e := File.asLoaded_of (f := f) ⟨(tidy h : FileHeld f).writable hv hk, hc⟩
  have := C87_file h hv hk
  rwa [e] at this

/-- A table of contents whose entries are complete and in which no container is without entries: it does not change at all. -/
theorem C87_toc_same {t : TocData} (h : Built (.toc t)) (hv : t.isValid = true)
    (hk : ∀ r ∈ t.reelList, ∀ f ∈ r.list, FileKept f ∧ FileComplete f)
    (hm : t.metadata ≠ some ⟨none⟩) (hl : t.layouts ≠ some ⟨none⟩) (hr : t.reels ≠ some ⟨none⟩) :
    Settles tocWay t t := by
  have hh := toc_held (tidy h) (kept (built_made h))
  have hw := hh.writable hv fun r hr f hf => (hk r hr f hf).1
  have e : t.asLoaded = t := by
    refine TocData.asLoaded_of ⟨hw, fun r hx => ?_⟩ ⟨hm, fun e => (hh.mdata _ e).1 rfl⟩ ⟨hl, fun e => (hh.layouts _ e).1 rfl⟩
      ⟨hr, fun e => (hh.reels _ e).1 rfl⟩
    have hwr := hw.2.2.2.2.2.2 r hx
    have hrh : ReelHeld r := by
      unfold TocData.reelList at hx
      cases ht : t.reels with
      | none => rw [ht] at hx; cases hx
      | some rs => rw [ht] at hx; exact ((hh.reels rs ht).2 r hx).2
    refine ⟨hwr, fun fs e => ⟨(hrh.2 fs e).1, fun f hf => ?_⟩⟩
    have hf' : f ∈ r.list := by unfold Reel.list; rw [e]; exact hf
    exact ⟨hwr.2.2 f hf', (hk r hx f hf').2⟩
  have := C87_toc h hv fun r hr f hf => (hk r hr f hf).1
  rwa [e] at this

/-! ### Texts that are loaded -/

/-- A text whose document is clean, or that is no document at all, may be loaded at any time. -/
theorem C87_load_string {t t' : TocData} {b : Bool} (h : Built (.toc t)) (s : Bytes) (hs : ∀ n, Xml.loadString s = some n → CleanDoc n)
    (e : t.loadString s = .ok (b, t')) : Built (.toc t') := by
  unfold TocData.loadString loadFromString at e
  split at e
  · cases e; exact h
  · cases hd : Xml.loadString s with
    | none => rw [hd] at e; cases e; exact h
    | some n => rw [hd] at e; exact .tocXml h (hs n hd) e

theorem C87_load_file {t t' : TocData} {b : Bool} (h : Built (.toc t)) (s : Bytes) (hs : ∀ n, Xml.loadFile s = some n → CleanDoc n)
    (e : t.loadFile s = .ok (b, t')) : Built (.toc t') := by
  unfold TocData.loadFile loadFromFile at e
  cases hd : Xml.loadFile s with
  | none => rw [hd] at e; cases e; exact h
  | some n => rw [hd] at e; exact .tocXml h (hs n hd) e

/-! ### Non-vacuity -/

theorem cleanArg_ascii {s : Bytes} (h : asciiField s = true) : CleanArg (some s) := held_of_field (textField_ascii h)

/-- A file on the medium, with a page in the layout of C86 and a source of metadata. -/
def builtFile : File :=
  ((File.create2 (some (b! "a.txt")) (some (b! "2020-01-01")) (some (b! "abc")) 100 1 0 0 10 5 (some (b! "u 1")) (-1) 1 none
      (some (b! "text")) none).setPreview
    (some (Preview.create.addPage (some ⟨some (b! "1"), 5, 0, 3, 10, 10, 0, 0⟩)).2)).setMetadata
    (some (FileMeta.create.addSource (some { data := some (b! "<m>&</m>"), formatId := some (b! "xml"), fileId := -1, sourceId := 1 })).2)

/-- A table of contents with that file, a source of metadata and the layout. -/
def builtToc : TocData :=
  (((TocData.create2 (some (b! "1.0")) (some (b! "job")) (some (b! "j")) (some (b! "r1"))).addReel
    (some ((Reel.create2 (some (b! "r1"))).addFile (some builtFile)).2)).2.addMetadataSource
    (some ⟨some (b! "txt"), 1, -1, some (b! "note"), some (splitOn semicolon (b! "a;b"))⟩)).2

theorem built_layout : Built (.layout madeLayout) := by
  refine .layoutAdd (.layoutAdd (.layoutNew2 (cleanArg_ascii (by decide)) (cleanArg_ascii (by decide))) ?_) ?_
  · intro y e; cases e; unfold Section.inRange; decide
  · intro y e; cases e; unfold Section.inRange; decide

theorem built_file : Built (.file builtFile) := by
  refine .fileMetadata (.filePreview (.fileNew2 1 (by intro q h; cases h) (by intro q h; cases h) (cleanArg_ascii (by decide)) (cleanArg_ascii (by decide))
    (cleanArg_ascii (by decide)) (cleanArg_ascii (by decide)) (attrField_ascii (by decide)) (by decide) (by decide) (by decide) (by decide)
    (by decide) (by decide) (by decide)) ?_) ?_
  · intro q e
    cases e
    refine .previewAdd .previewNew ?_
    intro y e
    cases e
    exact ⟨attrField_ascii (by decide), by decide⟩
  · intro q e
    cases e
    refine .fileMetaAdd .fileMetaNew ?_
    intro y e
    cases e
    refine ⟨attrField_ascii (by decide), by decide, by decide, ?_⟩
    intro d e
    cases e
    exact ⟨clean_ascii (by decide), by decide⟩

theorem built_toc : Built (.toc builtToc) := by
  refine .tocSource (.tocReel (.tocNew2 _ (attrField_ascii (by decide)) (cleanArg_ascii (by decide)) (cleanArg_ascii (by decide)))
    (.reelAdd (.reelNew2 (cleanArg_ascii (by decide))) built_file)) ?_
  intro y e
  cases e
  refine ⟨attrField_ascii (by decide), by decide, by decide, ?_, ?_⟩
  · intro d e
    cases e
    exact ⟨clean_ascii (by decide), by decide⟩
  · intro l e
    cases e
    exact ⟨b! "a;b", textField_ascii (by decide), rfl⟩

theorem builtFile_kept : FileKept builtFile := by
  refine ⟨by decide +kernel, ?_, ?_⟩
  · intro _ p e
    have : builtFile.preview = some ⟨some [⟨some (b! "1"), 5, 0, 3, 10, 10, 0, 0⟩], -1⟩ := by decide +kernel
    rw [this] at e
    cases e
    refine ⟨by decide, ?_⟩
    intro g hg
    cases List.mem_singleton.mp hg
    exact ⟨by decide, by decide⟩
  · intro m e
    have : builtFile.metadata = some ⟨some [{ data := some (b! "<m>&</m>"), formatId := some (b! "xml"), fileId := -1, sourceId := 1 }]⟩ := by decide +kernel
    rw [this] at e
    cases e
    intro g hg
    cases List.mem_singleton.mp hg
    intro e
    cases e

/-- With the layout added it is valid, and it does not change however often it is saved and loaded. -/
example : ∃ t, builtToc.addLayout (some madeLayout) = .ok (true, t) ∧ Built (.toc t) ∧ t.isValid = true ∧ Settles tocWay t t := by
  have e : builtToc.addLayout (some madeLayout) = .ok (true, { builtToc with layouts := some ⟨some [madeLayout]⟩ }) := by decide +kernel
  have h := Built.tocLayout built_toc built_layout e
  have hv : ({ builtToc with layouts := some ⟨some [madeLayout]⟩ } : TocData).isValid = true := by decide +kernel
  have hl : ({ builtToc with layouts := some ⟨some [madeLayout]⟩ } : TocData).reelList = [⟨some (b! "r1"), some ⟨some [builtFile]⟩⟩] := by decide +kernel
  have hc : FileComplete builtFile := ⟨by decide +kernel, by decide +kernel, by decide +kernel, by decide +kernel, by decide +kernel⟩
  refine ⟨_, e, h, hv, C87_toc_same h hv ?_ (by decide +kernel) (by simp) (by decide +kernel)⟩
  rw [hl]
  intro r hr f hf
  cases List.mem_singleton.mp hr
  cases List.mem_singleton.mp (show f ∈ [builtFile] from hf)
  exact ⟨builtFile_kept, hc⟩

end Afs
