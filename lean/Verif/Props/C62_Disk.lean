import Verif.Model.Io.SaveFile
import Verif.Proof.WriteFail2
import Verif.Props.C56_Cut
/-!
# C62 saving writes over the old file and does not notice failing writes

`X.saveFileOn` is saving to a file of which some writes fail (`ok i`: does write number `i` get through?).
`fullAfter k` is a disk that takes `k` bytes and then no more; the same file is left when the program dies.
-/
namespace Afs
open Spec Xml

/-! ## The XML library -/

/-- Whatever fails: the file holds a beginning of the text, of which white space may be missing - and if `mxmlSaveFile` returns 0, of the whole text. -/
theorem C62_library_any (ok : Nat → Bool) {cb : SaveCb} (hcb : WhiteCb cb) (n : Node) :
    ∃ p rest, saveText cb [] n = p ++ rest ∧ Thinned p (saveFileOn ok cb n).2 ∧ ((saveFileOn ok cb n).1 = true → rest = []) :=
  saveFileOn_thinned ok hcb n

/-- A disk that takes `k` bytes holds the first `k` bytes of the text; `mxmlSaveFile` returns 0 exactly if that is all of it. -/
theorem C62_library_full (k : Nat) (cb : SaveCb) (n : Node) :
    saveFileOn (fullAfter k) cb n = (decide ((saveText cb [] n).length ≤ k), (saveText cb [] n).take k) :=
  saveFileOn_full k cb n

/-- Without failures the file holds the text. -/
theorem C62_library_good (cb : SaveCb) (n : Node) : saveFileOn noFailure cb n = (true, saveText cb [] n) :=
  saveFileOn_good cb n

/-- White space that does not get through is not noticed: `mxmlSaveFile` returns 0, and a line break is missing. -/
theorem C62_library_lost_space : ∃ ok, saveFileOn ok (fun _ _ w => if w = .afterOpen then [10] else []) (.elem (b! "a") [] [.elem (b! "b") [] []]) =
    (true, b! "<a><b />\n</a>\n") ∧
    saveText (fun _ _ w => if w = .afterOpen then [10] else []) [] (.elem (b! "a") [] [.elem (b! "b") [] []]) = b! "<a>\n<b />\n</a>\n" :=
  ⟨fun i => i != 3, by decide +kernel⟩

/-! ## Every kind of object -/

theorem docFileOn_inPlace (openFirst : Bool) {cb : SaveCb} (hcb : SpaceCb cb) (compact : Bool) (x : Option Node) :
    WritesInPlace (docFile openFirst cb compact x) (fun canOpen ok old => docFileOn canOpen ok openFirst cb compact x old) := by
  cases x with
  | none =>
    unfold docFile docFileOn
    refine ⟨fun ok old => ?_, fun _ ok old => ?_, nofun, nofun, nofun⟩
    · simp
    · cases openFirst <;> simp
  | some n =>
    unfold docFile docFileOn
    refine ⟨fun ok old => rfl, nofun, fun _ old => ?_, fun s hs k old => ?_, fun s hs ok old => ?_⟩
    · dsimp only; rw [if_pos rfl, saveFileOn_good]
    · dsimp only at hs ⊢
      injection hs with _ hs; injection hs with hs
      rw [if_pos rfl, saveFileOn_full, hs]
    · dsimp only at hs ⊢
      injection hs with _ hs; injection hs with hs
      obtain ⟨p, rest, h1, h2, -⟩ := saveFileOn_thinned ok (spaceCb_if hcb compact).white (Node.newXML.addChild n)
      exact ⟨p, rest, _, by rw [← hs, h1], h2, by rw [if_pos rfl]⟩

theorem refused_inPlace : WritesInPlace (false, none) (fun _ _ old => (false, old)) :=
  ⟨fun _ _ => rfl, fun _ _ _ => rfl, nofun, nofun, nofun⟩

variable {L : ConfigLib}

/-- A section. -/
theorem C62_section (x : Section) (compact : Bool) : WritesInPlace (x.saveFile compact) (x.saveFileOn compact) := by
  unfold Section.saveFile Section.saveFileOn
  split
  · exact refused_inPlace
  · exact docFileOn_inPlace true sectionCb_space compact _

/-- A list of sections. -/
theorem C62_sections (x : Sections) (compact : Bool) : WritesInPlace (x.saveFile compact) (x.saveFileOn compact) := by
  unfold Sections.saveFile Sections.saveFileOn
  split
  · exact refused_inPlace
  · exact docFileOn_inPlace true sectionsCb_space compact _

/-- A layout definition. -/
theorem C62_layout (x : LayoutDef) (compact : Bool) : WritesInPlace (x.saveFile compact) (x.saveFileOn compact) :=
  docFileOn_inPlace false layoutCb_space compact _

/-- A list of layout definitions. -/
theorem C62_layouts (x : LayoutDefs) (compact : Bool) : WritesInPlace (x.saveFile compact) (x.saveFileOn compact) := by
  unfold LayoutDefs.saveFile LayoutDefs.saveFileOn
  split
  · exact refused_inPlace
  · exact docFileOn_inPlace true layoutsCb_space compact _

/-- A page. -/
theorem C62_page (x : Page) (compact : Bool) : WritesInPlace (x.saveFile compact) (x.saveFileOn compact) :=
  docFileOn_inPlace true pageCb_space compact _

/-- A preview. -/
theorem C62_preview (x : Preview) (compact : Bool) : WritesInPlace (x.saveFile compact) (x.saveFileOn compact) :=
  docFileOn_inPlace false previewCb_space compact _

/-- A metadata source. -/
theorem C62_source (x : MetaSource) (compact : Bool) : WritesInPlace (x.saveFile compact) (x.saveFileOn compact) := by
  unfold MetaSource.saveFile MetaSource.saveFileOn
  split
  · exact refused_inPlace
  · exact docFileOn_inPlace true metaSourceCb_space compact _

/-- Metadata. -/
theorem C62_metadata (x : TocMeta) (compact : Bool) : WritesInPlace (x.saveFile compact) (x.saveFileOn compact) :=
  docFileOn_inPlace false tocMetaCb_space compact _

/-- A metadata source of a file. -/
theorem C62_file_source (x : FileMetaSource) (compact : Bool) : WritesInPlace (x.saveFile compact) (x.saveFileOn compact) := by
  unfold FileMetaSource.saveFile FileMetaSource.saveFileOn
  split
  · exact refused_inPlace
  · exact docFileOn_inPlace true fileMetaSourceCb_space compact _

/-- Metadata of a file. -/
theorem C62_file_metadata (x : FileMeta) (compact : Bool) : WritesInPlace (x.saveFile compact) (x.saveFileOn compact) :=
  docFileOn_inPlace false fileMetaCb_space compact _

/-- A file entry, saved compact (otherwise the behaviour is undefined, C25). -/
theorem C62_file (x : File) (dataV1 : Bool) : ∃ saved, x.saveFile true dataV1 = .ok saved ∧ WritesInPlace saved (x.saveFileOn dataV1) :=
  ⟨_, rfl, docFileOn_inPlace true fileCb_space true _⟩

/-- A list of files, saved compact (otherwise the behaviour is undefined, C25). -/
theorem C62_files (x : Files) : ∃ saved, x.saveFile true = .ok saved ∧ WritesInPlace saved (x.saveFileOn) :=
  ⟨_, rfl, docFileOn_inPlace false filesCb_space true _⟩

/-- A reel. -/
theorem C62_reel (x : Reel) (compact : Bool) : WritesInPlace (x.saveFile compact) (x.saveFileOn compact) := by
  unfold Reel.saveFile Reel.saveFileOn
  split
  · exact refused_inPlace
  · exact docFileOn_inPlace true reelCb_space compact _

/-- A list of reels. -/
theorem C62_reels (x : Reels) (compact : Bool) : WritesInPlace (x.saveFile compact) (x.saveFileOn compact) :=
  docFileOn_inPlace false reelsCb_space compact _

/-- A table of contents. -/
theorem C62_toc (x : TocData) (compact : Bool) : WritesInPlace (x.saveFile compact) (x.saveFileOn compact) := by
  unfold TocData.saveFile TocData.saveFileOn
  split
  · exact refused_inPlace
  · exact docFileOn_inPlace true tocCb_space compact _

/-- Administrative metadata. -/
theorem C62_admin (x : Admin) (compact : Bool) : WritesInPlace (x.saveFile compact) (x.saveFileOn compact) :=
  docFileOn_inPlace true adminCb_space compact _

/-- A boxing format. -/
theorem C62_format (x : Format L) (compact : Bool) : WritesInPlace (x.saveFile compact) (x.saveFileOn compact) :=
  docFileOn_inPlace true formatCb_space compact _

/-- Technical metadata. -/
theorem C62_technical (x : TechMeta L) (compact : Bool) : WritesInPlace (x.saveFile compact) (x.saveFileOn compact) := by
  unfold TechMeta.saveFile TechMeta.saveFileOn
  split
  · exact refused_inPlace
  · exact docFileOn_inPlace true techCb_space compact _

/-- Control data. -/
theorem C62_control (x : ControlData L) (compact : Bool) : WritesInPlace (x.saveFile compact) (x.saveFileOn compact) := by
  unfold ControlData.saveFile ControlData.saveFileOn
  split
  · exact refused_inPlace
  · cases x.saveXml with
    | none => exact refused_inPlace
    | some ns =>
      refine ⟨fun ok old => rfl, nofun, fun _ old => ?_, fun s hs k old => ?_, fun s hs ok old => ?_⟩
      · dsimp only; rw [if_pos rfl, saveFileOn_good]
      · dsimp only at hs ⊢
        injection hs with _ hs; injection hs with hs
        rw [if_pos rfl, saveFileOn_full, hs]
      · dsimp only at hs ⊢
        injection hs with _ hs; injection hs with hs
        obtain ⟨p, rest, h1, h2, -⟩ := saveFileOn_thinned ok (spaceCb_if controlCb_space compact).white (ControlData.document ns)
        exact ⟨p, rest, _, by rw [← hs, h1], h2, by rw [if_pos rfl]⟩

/-! ## What is lost -/

/-- Overwriting the table of contents of an archive on a full disk: success is reported, and the old table is gone.  At an unlucky length of the rest
    of the disk, what is left loads with success as a table of contents without version, reels, metadata and layouts. -/
theorem C62_toc_loss (x : TocData) (h : x.writable) (compact : Bool) (old : Bytes) :
    ∃ k f, x.saveFileOn compact true (fullAfter k) (some old) = (true, some f) ∧ ∀ before : TocData,
      before.loadFile f = .ok (true, { before with version := none, metadata := none, layouts := none, reels := none }) := by
  obtain ⟨s, hs⟩ : ∃ s, x.saveFile compact = (true, some s) := by
    unfold TocData.saveFile
    rw [TocData.saveXml_eq h, if_neg (by simp [h.1])]
    exact ⟨_, rfl⟩
  obtain ⟨k, -, hk⟩ := C56_toc_loss x h compact true s hs
  exact ⟨k, _, (C62_toc x compact).full s hs k (some old), hk⟩

/-- Any other length: what is left of the table of contents is refused, or it is complete as far as loading goes, or it ends behind the name of the root element. -/
theorem C62_toc_after (x : TocData) (h : x.writable) (compact : Bool) (old : Option Bytes) (k : Nat) (before : TocData) :
    ∃ s f, x.saveFile compact = (true, some s) ∧ x.saveFileOn compact true (fullAfter k) old = (true, some f) ∧
      (before.loadFile f = .ok (false, before) ∨ before.loadFile f = before.loadFile s ∨ EndsBehindName (b! "Index") f) := by
  obtain ⟨s, hs⟩ : ∃ s, x.saveFile compact = (true, some s) := by
    unfold TocData.saveFile
    rw [TocData.saveXml_eq h, if_neg (by simp [h.1])]
    exact ⟨_, rfl⟩
  exact ⟨s, _, hs, (C62_toc x compact).full s hs k old, C56_toc x h compact true s hs before k⟩

/-- A full disk: nothing of the old file is left, and the new one is empty. -/
theorem C62_toc_full (x : TocData) (h : x.writable) (compact : Bool) (old : Bytes) :
    x.saveFileOn compact true (fullAfter 0) (some old) = (true, some []) := by
  obtain ⟨s, hs⟩ : ∃ s, x.saveFile compact = (true, some s) := by
    unfold TocData.saveFile
    rw [TocData.saveXml_eq h, if_neg (by simp [h.1])]
    exact ⟨_, rfl⟩
  have := (C62_toc x compact).full s hs 0 (some old)
  rwa [List.take_zero] at this

/-- Control data: at an unlucky length the technical metadata is lost without notice. -/
theorem C62_control_loss (c : ControlData L) (h : c.writable) (compact : Bool) (s : Bytes) (hs : c.saveFile compact = (true, some s)) (old : Option Bytes) :
    ∃ k f, c.saveFileOn compact true (fullAfter k) old = (true, some f) ∧ ∀ before : ControlData L,
      before.loadFile f = (true, ⟨c.admin, some ⟨none, none, none⟩⟩) := by
  obtain ⟨k, -, hk⟩ := C56_control_loss c h compact true s hs
  exact ⟨k, _, (C62_control c compact).full s hs k old, hk⟩

/-- A reel is never half there: what a full disk leaves of it is refused, or loads like the whole text. -/
theorem C62_reel_after (x : Reel) (h : x.writable) (compact : Bool) (old : Option Bytes) (k : Nat) (before : Reel) :
    ∃ s f, x.saveFile compact = (true, some s) ∧ x.saveFileOn compact true (fullAfter k) old = (true, some f) ∧
      ((before.loadFile f).1 = false ∨ before.loadFile f = before.loadFile s) := by
  obtain ⟨s, hs⟩ : ∃ s, x.saveFile compact = (true, some s) := by
    unfold Reel.saveFile
    rw [Reel.saveXml_eq h, if_neg (by simp [h.1])]
    exact ⟨_, rfl⟩
  exact ⟨s, _, hs, (C62_reel x compact).full s hs k old, C56_reel x h compact true s hs before k⟩

/-! ## The hypotheses are met -/

example : exToc.saveFileOn false true (fullAfter 0) (some (b! "old")) = (true, some []) := C62_toc_full _ exToc_storable.1 _ _

example : ∃ k f, exToc.saveFileOn false true (fullAfter k) (some (b! "old")) = (true, some f) ∧
    TocData.create.loadFile f = .ok (true, { TocData.create with version := none, metadata := none, layouts := none, reels := none }) := by
  obtain ⟨k, f, h1, h2⟩ := C62_toc_loss _ exToc_storable.1 false (b! "old")
  exact ⟨k, f, h1, h2 _⟩

end Afs
