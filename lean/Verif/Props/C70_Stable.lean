import Verif.Proof.Stable4
import Verif.Proof.Stable5
import Verif.Proof.NodeEq
import Verif.Proof.StableEx
import Verif.Props.C54_C55_Grammar
import Verif.Props.C22_C23_Layouts
import Verif.Props.C24_Metadata
import Verif.Props.C25_Files
import Verif.Props.C26_Toc
import Verif.Props.C48_Admin
import Verif.Props.C49_FormatXml
import Verif.Props.C50_C51_Control
/-!
# C70: what was loaded from a document can be saved and loaded for ever

A document whose texts are clean (`CleanDoc`) is loaded into a new object.  If the object is valid, it can be saved, compact or
indented, to a string or a file, and what was saved can be loaded, and so on any number of times.  The copies are the object
itself, or, where it has one of the shapes that a save does not keep, what C22–C26 and C49–C51 say; from the second copy on
nothing changes any more.
-/
namespace Afs
open Spec Xml Spec.Document

theorem survives_of {ι α : Type} {w : ι → Way α} {x : α} {P Q : α → Prop} (hx : P x) (hQ : ∀ y, P y → Q y)
    (step : ∀ y, P y → ∀ i, ∃ s z, (w i).save y = some s ∧ (w i).load s = some z ∧ P z) : Survives w x Q := by
  have inv : ∀ y, Copies w x y → P y := by
    intro y hy
    induction hy with
    | none => exact hx
    | more i _ h1 h2 ih =>
      obtain ⟨s, z, e1, e2, hz⟩ := step _ ih i
      rw [h1] at e1; injection e1 with e1; subst e1
      rw [h2] at e2; injection e2 with e2; subst e2
      exact hz
  intro y hy
  have := inv y hy
  refine ⟨hQ y this, fun i => ?_⟩
  obtain ⟨s, z, e1, e2, _⟩ := step y this i
  exact ⟨s, z, e1, e2⟩

theorem settles_of {ι α : Type} {w : ι → Way α} {x x' : α} {P : α → Prop} (h1 : P x) (h2 : P x')
    (step : ∀ y, P y → ∀ i, ∃ s, (w i).save y = some s ∧ (w i).load s = some x') : Settles w x x' := ⟨step x h1, step x' h2⟩

/-- An object that settles can be saved and loaded for ever, and every copy is what it settles to. -/
theorem C70_for_ever {ι α : Type} (w : ι → Way α) (x x' : α) (h : Settles w x x') : Survives w x (fun y => y = x ∨ y = x') ∧ Survives w x' fun y => y = x' := by
  refine ⟨survives_of (P := fun y => y = x ∨ y = x') (.inl rfl) (fun _ h => h) ?_, survives_of (P := fun y => y = x') rfl (fun _ h => h) ?_⟩
  · rintro y (rfl | rfl) i
    · obtain ⟨s, e1, e2⟩ := h.1 i; exact ⟨s, _, e1, e2, .inr rfl⟩
    · obtain ⟨s, e1, e2⟩ := h.2 i; exact ⟨s, _, e1, e2, .inr rfl⟩
  · rintro y rfl i
    obtain ⟨s, e1, e2⟩ := h.2 i; exact ⟨s, _, e1, e2, rfl⟩

/-! ### Parts of tables of contents -/

/-- Pages: from the first copy on nothing changes. -/
theorem C70_page (d : Node) (hd : CleanDoc d) (x : Page) (hx : (Page.create.loadXml d).2 = x) :
    Settles pageWay x x.asLoaded := by
  subst hx
  have hw := Page.loadXml_writable hd _ Page.create_writable
  generalize (Page.create.loadXml d).2 = x at hw
  refine settles_of (P := fun y => y = x ∨ y = x.asLoaded) (.inl rfl) (.inr rfl) ?_
  have key : ∀ y, y = x ∨ y = x.asLoaded → y.writable ∧ y.asLoaded = x.asLoaded := by
    rintro y (rfl | rfl)
    · exact ⟨hw, rfl⟩
    · obtain ⟨h1, h2, h3, h4, h5, h6, h7, h8⟩ := hw
      refine ⟨⟨h1, h2, h3, h4, ?_, ?_, ?_, ?_⟩, ?_⟩
      · show IsUInt (if _ then _ else _); split <;> first | assumption | decide
      · show IsUInt (if _ then _ else _); split <;> first | assumption | decide
      · show IsUInt (if _ then _ else _); split <;> first | assumption | decide
      · show IsUInt (if _ then _ else _); split <;> first | assumption | decide
      · unfold Page.asLoaded
        dsimp only
        congr 1 <;> split <;> simp_all
  rintro y hy ⟨c, f⟩
  obtain ⟨h1, h2⟩ := key y hy
  obtain ⟨⟨s, a1, a2⟩, ⟨t, b1, b2⟩⟩ := C22_page_general y h1 c Page.create
  rw [h2] at a2 b2
  cases f with
  | false => exact ⟨s, a1, by simp only [pageWay, Bool.false_eq_true, if_false, loaded]; rw [a2]; rfl⟩
  | true => exact ⟨t, by simp only [pageWay, if_true, written]; rw [b1]; rfl, by simp only [pageWay, if_true, loaded]; rw [b2]; rfl⟩

/-- Previews that are valid and kept: nothing changes. -/
theorem C70_preview (d : Node) (hd : CleanDoc d) (x : Preview) (hx : (Preview.create.loadXml d).2 = x)
    (hv : Preview.isValid (some x) = true) (hk : PreviewKept x) : Settles previewWay x x := by
  subst hx
  have hs := (Preview.loadXml_held hd).storable hk hv
  refine settles_of (P := fun y => y = _) rfl rfl ?_
  rintro y rfl ⟨c, f⟩
  obtain ⟨⟨s, a1, a2⟩, ⟨t, b1, b2⟩⟩ := C22_preview _ hs c
  cases f with
  | false => exact ⟨s, a1, by simp only [previewWay, Bool.false_eq_true, if_false, loaded]; rw [a2]; rfl⟩
  | true => exact ⟨t, by simp only [previewWay, if_true, written]; rw [b1]; rfl, by simp only [previewWay, if_true, loaded]; rw [b2]; rfl⟩

/-- Lists of layouts: loading is never undefined, whatever was loaded can be saved, and nothing changes. -/
theorem C70_layouts (d : Node) (hd : CleanDoc d) : ∃ b x, LayoutDefs.create.loadXml d = .ok (b, x) ∧ Settles layoutsWay x x := by
  obtain ⟨b, x, e, hs⟩ := LayoutDefs.loadXml_storable hd
  refine ⟨b, x, e, settles_of (P := fun y => y = x) rfl rfl ?_⟩
  rintro y rfl ⟨c, f⟩
  obtain ⟨⟨s, a1, a2⟩, ⟨t, b1, b2⟩⟩ := C23_layouts _ hs c
  cases f with
  | false => exact ⟨s, a1, by simp only [layoutsWay, Bool.false_eq_true, if_false]; rw [a2]; rfl⟩
  | true => exact ⟨t, by simp only [layoutsWay, if_true, written]; rw [b1]; rfl, by simp only [layoutsWay, if_true]; rw [b2]; rfl⟩

/-- Metadata of tables of contents: nothing changes. -/
theorem C70_metadata (d : Node) (hd : CleanDoc d) (x : TocMeta) (hx : (TocMeta.create.loadXml d).2 = x)
    (hv : TocMeta.isValid (some x) = true) : Settles tocMetaWay x x := by
  subst hx
  have hs := TocMeta.storable_of_held (TocMeta.loadXml_held hd) hv
  refine settles_of (P := fun y => y = _) rfl rfl ?_
  rintro y rfl ⟨c, f⟩
  obtain ⟨⟨s, a1, a2⟩, ⟨t, b1, b2⟩⟩ := C24_metadata _ hs c
  cases f with
  | false => exact ⟨s, a1, by simp only [tocMetaWay, Bool.false_eq_true, if_false, loaded]; rw [a2]; rfl⟩
  | true => exact ⟨t, by simp only [tocMetaWay, if_true, written]; rw [b1]; rfl, by simp only [tocMetaWay, if_true, loaded]; rw [b2]; rfl⟩

/-! ### Files, reels, tables of contents -/

/-- File entries. -/
theorem C70_file (d : Node) (hd : CleanDoc d) (x : File) (hx : (File.create.loadXml d).2 = x) (hv : x.isValid = true) (hk : FileKept x) :
    Settles fileWay x (x.asLoaded false) := by
  subst hx
  have hw := (File.loadXml_held hd FileHeld.create).writable hv hk
  generalize (File.create.loadXml d).2 = x at hw
  refine settles_of (P := fun y => y = x ∨ y = x.asLoaded false) (.inl rfl) (.inr rfl) ?_
  have key : ∀ y, y = x ∨ y = x.asLoaded false → y.writable ∧ y.asLoaded false = x.asLoaded false := by
    rintro y (rfl | rfl)
    · exact ⟨hw, rfl⟩
    · exact ⟨File.asLoaded_writable hw false, File.asLoaded_idem x false⟩
  intro y hy i
  obtain ⟨h1, h2⟩ := key y hy
  obtain ⟨a, ⟨t, b1, b2⟩⟩ := C25_file_general y h1 false
  cases i with
  | string c =>
    obtain ⟨s, a1, a2⟩ := a c
    rw [h2] at a2
    exact ⟨s, a1, by simp only [fileWay, loaded]; rw [a2]; rfl⟩
  | compactFile =>
    rw [h2] at b2
    exact ⟨t, by simp only [fileWay]; rw [b1]; rfl, by simp only [fileWay, loaded]; rw [b2]; rfl⟩

/-- Lists of files: every list that was loaded is valid. -/
theorem C70_files (d : Node) (hd : CleanDoc d) (x : Files) (hx : (Files.create.loadXml d).2 = x) (hk : ∀ f ∈ x.list, FileKept f) :
    Settles filesWay x x.asLoaded := by
  subst hx
  have hh := Files.loadXml_held hd
  generalize (Files.create.loadXml d).2 = x at hh hk
  have hw : ∀ f ∈ x.list, f.writable := fun f hf => (hh.2 f hf).2.writable (hh.2 f hf).1 (hk f hf)
  refine settles_of (P := fun y => y = x ∨ y = x.asLoaded) (.inl rfl) (.inr rfl) ?_
  have key : ∀ y, y = x ∨ y = x.asLoaded → (∀ f ∈ y.list, f.writable) ∧ y.asLoaded = x.asLoaded := by
    rintro y (rfl | rfl)
    · exact ⟨hw, rfl⟩
    · refine ⟨?_, Files.asLoaded_idem x⟩
      rw [Files.asLoaded_list]
      intro f hf
      obtain ⟨g, hg, rfl⟩ := List.mem_map.mp hf
      exact File.asLoaded_writable (hw g hg) false
  intro y hy i
  obtain ⟨h1, h2⟩ := key y hy
  obtain ⟨⟨s, a1, a2⟩, ⟨t, b1, b2⟩⟩ := C25_files_general y h1
  rw [h2] at a2 b2
  cases i with
  | false => exact ⟨s, by simp only [filesWay, Bool.false_eq_true, if_false]; rw [a1]; rfl, by simp only [filesWay, Bool.false_eq_true, if_false, loaded]; rw [a2]; rfl⟩
  | true => exact ⟨t, by simp only [filesWay, if_true]; rw [b1]; rfl, by simp only [filesWay, if_true, loaded]; rw [b2]; rfl⟩

/-- Reels. -/
theorem C70_reel (d : Node) (hd : CleanDoc d) (x : Reel) (hx : (Reel.create.loadXml d).2 = x) (hv : x.isValid = true)
    (hk : ∀ f ∈ x.list, FileKept f) : Settles reelWay x x.asLoaded := by
  subst hx
  have hw := (Reel.loadXml_held hd ReelHeld.create).writable hv hk
  generalize (Reel.create.loadXml d).2 = x at hw
  refine settles_of (P := fun y => y = x ∨ y = x.asLoaded) (.inl rfl) (.inr rfl) ?_
  have key : ∀ y, y = x ∨ y = x.asLoaded → y.writable ∧ y.asLoaded = x.asLoaded := by
    rintro y (rfl | rfl)
    · exact ⟨hw, rfl⟩
    · exact ⟨Reel.asLoaded_writable hw, Reel.asLoaded_idem x⟩
  rintro y hy ⟨c, f⟩
  obtain ⟨h1, h2⟩ := key y hy
  obtain ⟨⟨s, a1, a2⟩, ⟨t, b1, b2⟩⟩ := C26_reel_general y h1 c
  rw [h2] at a2 b2
  cases f with
  | false => exact ⟨s, a1, by simp only [reelWay, Bool.false_eq_true, if_false, loaded]; rw [a2]; rfl⟩
  | true => exact ⟨t, by simp only [reelWay, if_true, written]; rw [b1]; rfl, by simp only [reelWay, if_true, loaded]; rw [b2]; rfl⟩

/-- Lists of reels: every list that was loaded is valid. -/
theorem C70_reels (d : Node) (hd : CleanDoc d) (x : Reels) (hx : (Reels.create.loadXml d).2 = x)
    (hk : ∀ r ∈ x.list, ∀ f ∈ r.list, FileKept f) : Settles reelsWay x x.asLoaded := by
  subst hx
  have hh := Reels.loadXml_held hd
  generalize (Reels.create.loadXml d).2 = x at hh hk
  have hw : ∀ r ∈ x.list, r.writable := fun r hr => (hh.2 r hr).2.writable (hh.2 r hr).1 (hk r hr)
  refine settles_of (P := fun y => y = x ∨ y = x.asLoaded) (.inl rfl) (.inr rfl) ?_
  have key : ∀ y, y = x ∨ y = x.asLoaded → (∀ r ∈ y.list, r.writable) ∧ y.asLoaded = x.asLoaded := by
    rintro y (rfl | rfl)
    · exact ⟨hw, rfl⟩
    · refine ⟨?_, Reels.asLoaded_idem x⟩
      rw [Reels.asLoaded_list]
      intro f hf
      obtain ⟨g, hg, rfl⟩ := List.mem_map.mp hf
      exact Reel.asLoaded_writable (hw g hg)
  rintro y hy ⟨c, f⟩
  obtain ⟨h1, h2⟩ := key y hy
  obtain ⟨⟨s, a1, a2⟩, ⟨t, b1, b2⟩⟩ := C26_reels_general y h1 c
  rw [h2] at a2 b2
  cases f with
  | false => exact ⟨s, a1, by simp only [reelsWay, Bool.false_eq_true, if_false, loaded]; rw [a2]; rfl⟩
  | true => exact ⟨t, by simp only [reelsWay, if_true, written]; rw [b1]; rfl, by simp only [reelsWay, if_true, loaded]; rw [b2]; rfl⟩

/-- Tables of contents. -/
theorem C70_toc (d : Node) (hd : CleanDoc d) (b : Bool) (x : TocData) (hx : TocData.create.loadXml d = .ok (b, x)) (hv : x.isValid = true)
    (hk : ∀ r ∈ x.reelList, ∀ f ∈ r.list, FileKept f) : Settles tocWay x x.asLoaded := by
  have hw := (TocData.loadXml_held hd TocHeld.create hx).writable hv hk
  refine settles_of (P := fun y => y = x ∨ y = x.asLoaded) (.inl rfl) (.inr rfl) ?_
  have key : ∀ y, y = x ∨ y = x.asLoaded → y.writable ∧ y.asLoaded = x.asLoaded := by
    rintro y (rfl | rfl)
    · exact ⟨hw, rfl⟩
    · exact ⟨TocData.asLoaded_writable hw, TocData.asLoaded_idem x⟩
  rintro y hy ⟨c, f⟩
  obtain ⟨h1, h2⟩ := key y hy
  obtain ⟨⟨s, a1, a2⟩, ⟨t, b1, b2⟩⟩ := C26_toc_general y h1 TocData.create c
  rw [h2] at a2 b2
  cases f with
  | false => exact ⟨s, a1, by simp only [tocWay, Bool.false_eq_true, if_false]; rw [a2]; rfl⟩
  | true => exact ⟨t, by simp only [tocWay, if_true, written]; rw [b1]; rfl, by simp only [tocWay, if_true]; rw [b2]; rfl⟩

/-! ### Nothing changes at all

Of entries with data on the medium, whose metadata are not without sources, nothing is lost.
-/

theorem C70_file_same (d : Node) (hd : CleanDoc d) (x : File) (hx : File.create.loadXml d = (true, x)) (hv : x.isValid = true) (hk : FileKept x)
    (hw : FileWhole x) : Settles fileWay x x := by
  have h := C70_file d hd x (by rw [hx]) hv hk
  have hh := File.loadXml_held hd FileHeld.create
  have hsh := File.loadXml_shape d (by rw [hx])
  rw [hx] at hh hsh
  rwa [File.asLoaded_of (hsh.same (hh.writable hv hk) hw.1 hw.2)] at h

theorem C70_files_same (d : Node) (hd : CleanDoc d) (x : Files) (hx : (Files.create.loadXml d).2 = x) (hk : ∀ f ∈ x.list, FileKept f)
    (hw : ∀ f ∈ x.list, FileWhole f) : Settles filesWay x x := by
  have h := C70_files d hd x hx hk
  have hh := Files.loadXml_held hd
  have hsh := Files.loadXml_shape d
  rw [hx] at hh hsh
  rwa [Files.asLoaded_of (VecAll.files_same hsh (fun f hf => (hh.2 f hf).2.writable (hh.2 f hf).1 (hk f hf)) hw)] at h

theorem C70_reel_same (d : Node) (hd : CleanDoc d) (x : Reel) (hx : (Reel.create.loadXml d).2 = x) (hv : x.isValid = true)
    (hk : ∀ f ∈ x.list, FileKept f) (hw : ∀ f ∈ x.list, FileWhole f) : Settles reelWay x x := by
  have h := C70_reel d hd x hx hv hk
  have hh := Reel.loadXml_held hd ReelHeld.create
  have hsh := Reel.loadXml_shape d
  rw [hx] at hh hsh
  rwa [Reel.asLoaded_of (hsh.same (hh.writable hv hk) hw)] at h

theorem C70_reels_same (d : Node) (hd : CleanDoc d) (x : Reels) (hx : (Reels.create.loadXml d).2 = x)
    (hk : ∀ r ∈ x.list, ∀ f ∈ r.list, FileKept f) (hw : ∀ r ∈ x.list, ∀ f ∈ r.list, FileWhole f) : Settles reelsWay x x := by
  have h := C70_reels d hd x hx hk
  have hh := Reels.loadXml_held hd
  have hsh := Reels.loadXml_shape d
  rw [hx] at hh hsh
  rwa [Reels.asLoaded_of ⟨hsh.1, fun r hr => ReelShape.same (hsh.2 r hr) ((hh.2 r hr).2.writable (hh.2 r hr).1 (hk r hr)) (hw r hr)⟩] at h

theorem C70_toc_same (d : Node) (hd : CleanDoc d) (b : Bool) (x : TocData) (hx : TocData.create.loadXml d = .ok (b, x)) (hv : x.isValid = true)
    (hk : ∀ r ∈ x.reelList, ∀ f ∈ r.list, FileKept f) (hw : TocWhole x) : Settles tocWay x x := by
  have h := C70_toc d hd b x hx hv hk
  have hh := TocData.loadXml_held hd TocHeld.create hx
  have hsh := TocData.loadXml_shape hx
  have hl := hh.writable hv hk
  have e : x.asLoaded = x := by
    refine TocData.asLoaded_of ⟨hl, fun r hr => ?_⟩ ⟨?_, ?_⟩ ⟨?_, ?_⟩ ⟨?_, ?_⟩
    · have hr' := hr
      unfold TocData.reelList at hr'
      split at hr'
      · cases hr'
      · rename_i rs er
        exact ReelShape.same ((hsh rs er).2 r hr') (hl.2.2.2.2.2.2 r hr) (hw.2.2.2 r hr)
    · exact fun e => hw.1 _ e rfl
    · exact fun e => (hh.mdata _ e).1 rfl
    · exact fun e => hw.2.1 _ e rfl
    · exact fun e => (hh.layouts _ e).1 rfl
    · exact fun e => hw.2.2.1 _ e rfl
    · exact fun e => (hh.reels _ e).1 rfl
  rwa [e] at h

/-! ### Control data -/

/-- Administrative metadata: whatever was loaded, valid or not, does not change. -/
theorem C70_admin (d : Node) (hd : CleanDoc d) (x : Admin) (hx : (Admin.create.loadXml d).2 = x) : Settles adminWay x x := by
  subst hx
  have hs := Admin.loadXml_storable hd Admin.create_storable
  refine settles_of (P := fun y => y = _) rfl rfl ?_
  rintro y rfl ⟨c, f⟩
  obtain ⟨⟨s, a1, a2⟩, ⟨t, b1, b2⟩⟩ := C48_roundtrip _ hs Admin.create c
  cases f with
  | false => exact ⟨s, a1, by simp only [adminWay, Bool.false_eq_true, if_false, loaded]; rw [a2]; rfl⟩
  | true => exact ⟨t, by simp only [adminWay, if_true, written]; rw [b1]; rfl, by simp only [adminWay, if_true, loaded]; rw [b2]; rfl⟩

section
variable {L : ConfigLib} (hL : LawfulConfig L)

omit hL in
theorem format_roundtrip {f : Format L} (h : f.storable) (before : Format L) (compact : Bool) :
    (∃ s, f.saveString compact = some s ∧ before.loadString s = (true, TechMeta.loadedFormat f)) ∧
    (∃ s, f.saveFile compact = (true, some s) ∧ before.loadFile s = (true, TechMeta.loadedFormat f)) := by
  obtain ⟨hf, hc⟩ := h
  unfold TechMeta.loadedFormat
  cases hcfg : f.config with
  | none =>
    unfold Format.saveString Format.saveFile Format.loadFile
    simp only [format_loadString]
    rw [Format.saveXml_none hcfg]
    exact doc_roundtrip formatCb_space compact (by decide) (.branch (by decide) cleanAttrs_nil (by simp)) _ _ _ fun T hT =>
      Format.loadXml_null before hT
  | some c =>
    have hst := hc c hcfg
    unfold Format.saveString Format.saveFile Format.loadFile
    simp only [format_loadString]
    rw [Format.saveXml_some hcfg]
    have hs := Format.configNode_savable hst.1
    rw [Format.configNode_eq hst.1.1] at hs ⊢
    exact doc_roundtrip formatCb_space compact (by decide) hs _ _ _ fun T hT => by
      rw [← Format.configNode_eq hst.1.1] at hT
      exact Format.loadXml_some hst.1 before hT

include hL

/-- Boxing formats: every copy is equal to the format that was loaded, and has the same classes and settings. -/
theorem C70_format (d : Node) (hd : CleanDoc d) (ha : NoAliases d) (x : Format L) (hx : (Format.create.loadXml d).2 = x) :
    Survives (formatWay L) x fun y => Format.equal (some x) (some y) = true ∧ SameFormat x y := by
  subst hx
  have hs := Format.loadXml_storable hL hd ha (f := Format.create) Format.null_storable
  generalize (Format.create.loadXml d).2 = x at hs
  refine survives_of (P := fun y => y.storable ∧ SameFormat x y) ⟨hs, .refl x⟩ (fun y h => ⟨h.2.equal hL hs h.1, h.2⟩) ?_
  rintro y ⟨h1, h2⟩ ⟨c, f⟩
  obtain ⟨⟨s, a1, a2⟩, ⟨t, b1, b2⟩⟩ := format_roundtrip h1 Format.create c
  refine f.casesOn ⟨s, TechMeta.loadedFormat y, a1, ?_, loadedFormat_storable hL h1, h2.trans (loadedFormat_same hL h1)⟩
    ⟨t, TechMeta.loadedFormat y, ?_, ?_, loadedFormat_storable hL h1, h2.trans (loadedFormat_same hL h1)⟩
  · simp only [formatWay, Bool.false_eq_true, if_false, loaded]; rw [a2]; rfl
  · simp only [formatWay, if_true, written]; rw [b1]; rfl
  · simp only [formatWay, if_true, loaded]; rw [b2]; rfl

/-- Technical metadata that have a format and a list of tables of contents. -/
theorem C70_technical (d : Node) (hd : CleanDoc d) (ha : NoAliases d) (x : TechMeta L) (hx : (TechMeta.create.loadXml d).2 = x)
    (h1 : x.format ≠ none) (h2 : x.tocs ≠ none) (hk : ∀ l, x.tocs = some l ∨ x.apps = some l → ∀ f ∈ l.list, FileKept f) :
    Survives (techWay L) x (TechCopy x) := by
  have hw := (hx ▸ TechMeta.loadXml_held hL hd ha TechHeld.create : TechHeld x).writable h1 h2 hk
  clear hx
  have step : ∀ y, y.writable ∧ TechCopy x y → ∀ i, ∃ s z, (techWay L i).save y = some s ∧ (techWay L i).load s = some z ∧ z.writable ∧ TechCopy x z := by
    rintro y ⟨hy, hc⟩ ⟨c, fl⟩
    obtain ⟨f, hf, hfs⟩ := hy.1
    have hz := techCopy_next hL hw hy hf hfs hc
    obtain ⟨⟨s, a1, a2⟩, ⟨t, b1, b2⟩⟩ := tech_roundtrip hf hfs hy TechMeta.create c
    rw [show (TechMeta.create (L := L)).apps = none from rfl, Option.or_none] at a2 b2
    cases fl with
    | false => exact ⟨s, _, a1, by simp only [techWay, Bool.false_eq_true, if_false, loaded]; rw [a2]; rfl, hz⟩
    | true => exact ⟨t, _, by simp only [techWay, if_true, written]; rw [b1]; rfl, by simp only [techWay, if_true, loaded]; rw [b2]; rfl, hz⟩
  exact survives_of (P := fun y => y.writable ∧ TechCopy x y) ⟨hw, techCopy_refl hL hw⟩ (fun _ h => h.2) step

/-- Control data: administrative metadata are what they were, technical metadata are copies. -/
theorem C70_control (d : Node) (hd : CleanDoc d) (ha : NoAliases d) (x : ControlData L) (hx : ControlData.create.loadXml d = (true, x))
    (t : TechMeta L) (ht : x.tech = some t) (h1 : t.format ≠ none) (h2 : t.tocs ≠ none)
    (hk : ∀ l, t.tocs = some l ∨ t.apps = some l → ∀ f ∈ l.list, FileKept f) :
    Survives (controlWay L) x fun y => y.admin = x.admin ∧ ∃ u, y.tech = some u ∧ TechCopy t u := by
  obtain ⟨adm, e1, e2, e3⟩ : ∃ a, x.admin = some a ∧ a.storable ∧ TechHeld t := by
    unfold ControlData.loadXml at hx
    split at hx
    · cases hx
    · dsimp only at hx
      split at hx
      · cases hx
      · injection hx with _ hx
        subst hx
        injection ht with ht
        exact ⟨_, rfl, Admin.loadXml_storable hd Admin.create_storable, ht ▸ TechMeta.loadXml_held hL hd ha TechHeld.create⟩
  clear hx
  have hw := e3.writable h1 h2 hk
  have step : ∀ y, (y.admin = x.admin ∧ ∃ u, y.tech = some u ∧ u.writable ∧ TechCopy t u) → ∀ i, ∃ s z, (controlWay L i).save y = some s ∧
      (controlWay L i).load s = some z ∧ z.admin = x.admin ∧ ∃ u, z.tech = some u ∧ u.writable ∧ TechCopy t u := by
    rintro y ⟨hy1, u, hy2, hu, hc⟩ ⟨c, fl⟩
    obtain ⟨f, hf, hfs⟩ := hu.1
    have hz := techCopy_next hL hw hu hf hfs hc
    rw [e1] at hy1
    obtain ⟨⟨s, a1, a2⟩, ⟨t, b1, b2⟩⟩ := control_roundtrip hy1 e2 hy2 hf hfs hu ControlData.create c
    cases fl with
    | false => exact ⟨s, _, a1, by simp only [controlWay, Bool.false_eq_true, if_false, loaded]; rw [a2]; rfl, e1.symm, _, rfl, hz⟩
    | true => exact ⟨t, _, by simp only [controlWay, if_true, written]; rw [b1]; rfl, by simp only [controlWay, if_true, loaded]; rw [b2]; rfl, e1.symm, _, rfl, hz⟩
  exact survives_of (P := fun y => y.admin = x.admin ∧ ∃ u, y.tech = some u ∧ u.writable ∧ TechCopy t u) ⟨rfl, t, ht, hw, techCopy_refl hL hw⟩
    (fun _ h => ⟨h.1, h.2.choose, h.2.choose_spec.1, h.2.choose_spec.2.2⟩) step

/-! ### Texts -/

omit hL in
/-- Well-formed documents have clean trees, if there is no reference to U+FEFF and no `]]>` in a text (`]]&gt;`). -/
theorem C70_wellFormed (s : List Char) (v : Node) (h : Grammar.Document s v) (hu : Unmarked s)
    (ht : ∀ t, .text t ∈ descendants v → ¬ (b! "]]>") <:+: t) : CleanDoc v :=
  (document_read h hu).clean ht

omit hL in
theorem loaded_text {β : Type} {load : Node → β} {fail : β} {s : Bytes} {v : Node} (h : Xml.loadString s = some v ∧ Xml.loadFile s = some v) :
    loadFromString load fail s = load v ∧ loadFromFile load fail s = load v := by
  unfold loadFromString loadFromFile
  rw [h.1, h.2]
  refine ⟨?_, rfl⟩
  rw [if_neg]
  intro h0
  rw [List.length_eq_zero_iff] at h0
  subst h0
  cases h.1

section
variable (s : List Char) (v : Node) (h : Grammar.Document s v) (hu : Unmarked s) (ht : ∀ t, .text t ∈ descendants v → ¬ (b! "]]>") <:+: t)
include h hu ht

omit hL in
/-- Tables of contents that are loaded from such texts. -/
theorem C70_toc_text (x : TocData)
    (hx : TocData.create.loadString (utf8File s) = .ok (true, x) ∨ TocData.create.loadFile (utf8File s) = .ok (true, x)) (hv : x.isValid = true)
    (hk : ∀ r ∈ x.reelList, ∀ f ∈ r.list, FileKept f) : Settles tocWay x x.asLoaded ∧ (TocWhole x → Settles tocWay x x) := by
  have e := loaded_text (load := TocData.create.loadXml) (fail := .ok (false, TocData.create)) (C54_reads s v h hu.1)
  have hx' : TocData.create.loadXml v = .ok (true, x) := by
    rcases hx with hx | hx
    · rw [← e.1]; exact hx
    · rw [← e.2]; exact hx
  exact ⟨C70_toc v (C70_wellFormed s v h hu ht) true x hx' hv hk, fun hw => C70_toc_same v (C70_wellFormed s v h hu ht) true x hx' hv hk hw⟩

/-- Control data that are loaded from such texts. -/
theorem C70_control_text (ha : NoAliases v) (x : ControlData L)
    (hx : ControlData.create.loadString (utf8File s) = (true, x) ∨ ControlData.create.loadFile (utf8File s) = (true, x))
    (t : TechMeta L) (ht' : x.tech = some t) (h1 : t.format ≠ none) (h2 : t.tocs ≠ none)
    (hk : ∀ l, t.tocs = some l ∨ t.apps = some l → ∀ f ∈ l.list, FileKept f) :
    Survives (controlWay L) x fun y => y.admin = x.admin ∧ ∃ u, y.tech = some u ∧ TechCopy t u := by
  have e := loaded_text (load := (ControlData.create (L := L)).loadXml) (fail := (false, ControlData.create)) (C54_reads s v h hu.1)
  have hx' : ControlData.create.loadXml v = (true, x) := by
    rcases hx with hx | hx
    · rw [← e.1]; exact hx
    · rw [← e.2]; exact hx
  exact C70_control hL v (C70_wellFormed s v h hu ht) ha x hx' t ht' h1 h2 hk

end

end

/-! ### An example -/

/-- A table of contents as another program might write it: a layout, and a file with a page of preview and metadata. -/
def ex70 : Bytes :=
  b! "<Index version='1.0.0'>\n <indexType>job</indexType><jobId>job 1</jobId><reelId>r &amp; s</reelId><layoutDefinitions><previewLayout><id>A4</id><name>x</name>\n<sections><section id='1' x='0' y='0' w='10' h='20' rotation='0'/></sections></previewLayout></layoutDefinitions><reels><reel><id>0</id><files><file formatId='f'><id>0</id><date>d</date><name> n </name><data><checksum/><size>7</size><start frame='1' byte='0'/><end frame='1' byte='6'/></data><preview><dpi>600</dpi><pages layoutId='A4' frame='3' section='1' count='1'/></preview><metadata><source fileId='2'><data formatId='x'><![CDATA[<q/>]]></data></source></metadata></file></files></reel></reels></Index>"

def ex70Doc : Node := (Xml.loadString ex70).getD (.text [])

def ex70Toc : TocData := match TocData.create.loadXml ex70Doc with
  | .ok r => r.2
  | .ub => TocData.create

/-- The example meets the conditions, and so can be copied for ever without any change. -/
theorem C70_example : Xml.loadString ex70 = some ex70Doc ∧ TocData.create.loadString ex70 = .ok (true, ex70Toc) ∧ ex70Toc.isValid = true ∧
    ex70Toc.reelList.flatMap Reel.list ≠ [] ∧ Settles tocWay ex70Toc ex70Toc := by
  have h1 : Xml.loadString ex70 = some ex70Doc := by decide +kernel
  have h2 : asciiDoc ex70Doc = true := by decide +kernel
  have h3 : TocData.create.loadXml ex70Doc = .ok (true, ex70Toc) := by decide +kernel
  have h4 : ex70Toc.isValid = true := by decide +kernel
  have h5 : ∀ r ∈ ex70Toc.reelList, ∀ f ∈ r.list, FileKept f := by decide +kernel
  have h6 : TocWhole ex70Toc := by decide +kernel
  have h7 : ex70Toc.reelList.flatMap Reel.list ≠ [] := by decide +kernel
  have h8 : ¬ ex70.length = 0 := by decide +kernel
  refine ⟨h1, ?_, h4, h7, C70_toc_same ex70Doc (asciiDoc_clean _ h2) true _ h3 h4 h5 h6⟩
  unfold TocData.loadString loadFromString
  rw [if_neg h8, h1]
  exact h3

/-- Control data with a format and a table of contents. -/
def ex70Control : Node :=
  .elem xmlDecl [] [
    .elem (b! "AdministrativeMetadata") [] [.elem (b! "ReelID") [] [.text (b! "r1")]],
    .elem (b! "TechnicalMetadata") [] [
      .elem (b! "BoxerFormat") [] [.elem (b! "work") [] [.elem (b! "class") [(b! "key", some (b! "FrameRaster"))]
        [.elem (b! "property") [(b! "key", some (b! "w")), (b! "value", some (b! "10"))] []]]],
      .elem (b! "Tocs") [] [.elem (b! "files") [] [.elem (b! "file") [] [.elem (b! "id") [] [.text (b! "1")],
        .elem (b! "name") [] [.text (b! "toc")], .elem (b! "date") [] [.text (b! "d")],
        .elem (b! "data") [] [.elem (b! "size") [] [.text (b! "9")], .elem (b! "start") [(b! "frame", some (b! "1")), (b! "byte", some (b! "0"))] [],
          .elem (b! "end") [(b! "frame", some (b! "2")), (b! "byte", some (b! "5"))] []]]]]]]

/-- They meet the conditions, whatever the boxing library does with configurations. -/
theorem C70_control_example {L : ConfigLib} (hL : LawfulConfig L) : ∃ (x : ControlData L) (t : TechMeta L),
    ControlData.create.loadXml ex70Control = (true, x) ∧ x.tech = some t ∧ (∃ l, t.tocs = some l ∧ l.list.length = 1) ∧
    Survives (controlWay L) x fun y => y.admin = x.admin ∧ ∃ u, y.tech = some u ∧ TechCopy t u := by
  have h1 : ∃ a, find ex70Control (b! "AdministrativeMetadata") = some a := Option.isSome_iff_exists.mp (by decide +kernel)
  obtain ⟨a, h1⟩ := h1
  have h2 : find ex70Control (b! "TechnicalMetadata") = some (ex70Control.children.getD 1 (.text [])) := by decide +kernel
  have h3 : find (ex70Control.children.getD 1 (.text [])) (b! "BoxerFormat") = some ((ex70Control.children.getD 1 (.text [])).children.getD 0 (.text [])) := by
    decide +kernel
  have h4 : find (ex70Control.children.getD 1 (.text [])) (b! "Tocs") = some ((ex70Control.children.getD 1 (.text [])).children.getD 1 (.text [])) := by
    decide +kernel
  have h5 : find (ex70Control.children.getD 1 (.text [])) (b! "Applications") = none := by decide +kernel
  have h6 : (find ((ex70Control.children.getD 1 (.text [])).children.getD 0 (.text [])) (b! "work")).isSome = true := by decide +kernel
  have h7 : (Files.create.loadXml ((ex70Control.children.getD 1 (.text [])).children.getD 1 (.text []))).1 = true := by decide +kernel
  have h8 : ∀ f ∈ (Files.create.loadXml ((ex70Control.children.getD 1 (.text [])).children.getD 1 (.text []))).2.list, FileKept f := by decide +kernel
  have h9 : (Files.create.loadXml ((ex70Control.children.getD 1 (.text [])).children.getD 1 (.text []))).2.list.length = 1 := by decide +kernel
  have h10 : asciiDoc ex70Control = true := by decide +kernel
  have h11 : NoAliases ex70Control := by unfold NoAliases; decide +kernel
  generalize hq : Files.create.loadXml ((ex70Control.children.getD 1 (.text [])).children.getD 1 (.text [])) = q at h7 h8 h9
  obtain ⟨q1, q2⟩ := q
  dsimp only at h7 h8 h9
  subst h7
  have ht : ∃ f, (TechMeta.create (L := L)).loadXml ex70Control = (true, ⟨some f, some q2, none⟩) := by
    unfold TechMeta.loadXml
    rw [h2]
    dsimp only
    rw [h3]
    dsimp only
    rw [h4, h5]
    unfold TechMeta.loadTocs
    rw [Option.map_some, hq]
    dsimp only
    rw [if_neg (by decide)]
    unfold TechMeta.loadApps
    rw [Option.map_none]
    have : ∃ f, TechMeta.loadFormat (L := L) ((ex70Control.children.getD 1 (.text [])).children.getD 0 (.text [])) = some f := by
      unfold TechMeta.loadFormat
      dsimp only
      unfold Format.loadXml
      split
      · exact ⟨_, rfl⟩
      · split
        · rename_i e; rw [e] at h6; cases h6
        · exact ⟨_, rfl⟩
    obtain ⟨f, hf⟩ := this
    exact ⟨f, by rw [hf]; rfl⟩
  obtain ⟨f, ht⟩ := ht
  have hx : ControlData.create.loadXml ex70Control = (true, (⟨some (Admin.create.loadXml ex70Control).2, some ⟨some f, some q2, none⟩⟩ : ControlData L)) := by
    unfold ControlData.loadXml
    rw [h1]
    dsimp only
    rw [h2]
    dsimp only
    rw [ht]
  refine ⟨_, _, hx, rfl, ⟨q2, rfl, h9⟩, ?_⟩
  refine C70_control hL ex70Control (asciiDoc_clean _ h10) h11 _ hx _ rfl (fun h => nomatch h) (fun h => nomatch h) ?_
  rintro l (e | e)
  · injection e with e; exact e ▸ h8
  · cases e

/-! ### What the conditions exclude -/

/-- A digital file entry called `a`, with `more` after the name. -/
def ex70File (name more : Bytes) : Bytes :=
  b! "<file><id>1</id><date>d</date><name>a" ++ name ++ b! "</name><data><size>1</size><start frame='1' byte='1'/><end frame='2' byte='2'/></data>" ++
    more ++ b! "</file>"

/-- What is loaded from a text. -/
def ex70Load (s : Bytes) : File := (File.create.loadString s).2

/-- Valid objects, loaded from a text, that are not what comes out when they are saved and loaded: a reference to U+FEFF; a blank
    unique id; a size of 5 by 0; a resolution of −7; a format without data. -/
theorem C70_not_kept :
    (∀ s ∈ [ex70File (b! "&#xFEFF;") [], ex70File [] (b! "<uniqueId> </uniqueId>"),
        ex70File [] (b! "<preview><pages layoutId='x' frame='1' section='1' count='1' dimension='5x0'/></preview>"),
        ex70File [] (b! "<preview><dpi>-7</dpi><pages layoutId='x' frame='1' section='1' count='1'/></preview>"),
        ex70File [] (b! "<metadata><source fileId='1'><data formatId='f'/></source></metadata>")],
      File.create.loadString s = (true, ex70Load s) ∧ (ex70Load s).isValid = true ∧ (ex70Load s).isDigital = true ∧
        ∃ y, (fileWay (.string true)).copy (ex70Load s) = some y ∧ y ≠ ex70Load s) := by
  have h : ∀ s ∈ [ex70File (b! "&#xFEFF;") [], ex70File [] (b! "<uniqueId> </uniqueId>"),
        ex70File [] (b! "<preview><pages layoutId='x' frame='1' section='1' count='1' dimension='5x0'/></preview>"),
        ex70File [] (b! "<preview><dpi>-7</dpi><pages layoutId='x' frame='1' section='1' count='1'/></preview>"),
        ex70File [] (b! "<metadata><source fileId='1'><data formatId='f'/></source></metadata>")],
      File.create.loadString s = (true, ex70Load s) ∧ (ex70Load s).isValid = true ∧ (ex70Load s).isDigital = true ∧
        ((fileWay (.string true)).copy (ex70Load s)).isSome = true ∧ (fileWay (.string true)).copy (ex70Load s) ≠ some (ex70Load s) := by
    decide +kernel
  intro s hs
  obtain ⟨h1, h2, h3, h4, h5⟩ := h s hs
  obtain ⟨y, hy⟩ := Option.isSome_iff_exists.mp h4
  exact ⟨h1, h2, h3, y, hy, fun e => h5 (e ▸ hy)⟩

/-- Data with `]]>` in them are loaded, are saved as a CDATA section that ends there, and the rest is lost or stops the load. -/
theorem C70_section_end : ∃ s s' : Bytes,
    File.create.loadString s = (true, ex70Load s) ∧ (ex70Load s).isValid = true ∧
    ((ex70Load s).metadata.bind fun m => (m.sources.getD []).head?.bind FileMetaSource.data) = some (b! "a]]>b") ∧
    (((fileWay (.string true)).copy (ex70Load s)).bind fun y => y.metadata.bind fun m => (m.sources.getD []).head?.bind FileMetaSource.data) = some (b! "a") ∧
    File.create.loadString s' = (true, ex70Load s') ∧ (ex70Load s').isValid = true ∧ (fileWay (.string true)).copy (ex70Load s') = none :=
  ⟨ex70File [] (b! "<metadata><source fileId='1'><data formatId='f'>a]]&gt;b</data></source></metadata>"),
   ex70File [] (b! "<metadata><source fileId='1'><data formatId='f'>a]]&gt;&lt;b</data></source></metadata>"), by decide +kernel⟩

end Afs
