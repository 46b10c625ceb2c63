import Verif.Proof.IoFile
import Verif.Props.C03_C05_CloneEqual
/-! # C25: file entries and file lists survive being saved and loaded -/
namespace Afs
open Spec Xml

theorem all_ite {p : Prop} [Decidable p] {a b : Bytes} {q : UInt8 → Bool} (ha : a.all q = true) (hb : b.all q = true) :
    (if p then a else b).all q = true := by split <;> assumption

theorem fileCb_space : SpaceCb File.cb :=
  cb_white (by intro a n w; unfold File.cb; dsimp only; (repeat' refine all_ite ?_ ?_) <;> decide)
theorem filesCb_space : SpaceCb Files.cb :=
  cb_white (by intro a n w; unfold Files.cb cbOf; dsimp only; (repeat' split) <;> decide)

/-- Every writable file entry, in both data formats, loads as `asLoaded` (see Spec/Storable.lean
    for what that keeps), from a string however it is indented, and from a compact file. -/
theorem C25_file_general (f : File) (h : f.writable) (v1 : Bool) :
    (∀ compact, ∃ t, f.saveString compact v1 = some t ∧ File.create.loadString t = (true, f.asLoaded v1)) ∧
    (∃ t, f.saveFile true v1 = .ok (true, some t) ∧ File.create.loadFile t = (true, f.asLoaded v1)) := by
  unfold File.saveString File.saveFile File.loadString File.loadFile
  rw [File.saveXml_eq h]
  constructor
  · intro compact
    exact elem_roundtrip fileCb_space compact (by decide) (File.node_savable h v1) _ _ _ fun T hT =>
      File.loadXml_of h v1 (isRead_self hT rfl) hT
  · obtain ⟨t, h1, h2⟩ := (doc_roundtrip (openFirst := true) fileCb_space true (by decide) (File.node_savable h v1)
      (File.create.loadXml) (false, File.create) (true, f.asLoaded v1) fun T hT => by
        obtain ⟨d, h1, h2⟩ := isRead_doc (nm := b! "file") (by decide) rfl hT
        exact File.loadXml_of h v1 h1 h2).2
    refine ⟨t, ?_, h2⟩
    rw [show unguarded true (some (f.node v1)) (docFile true File.cb true (some (f.node v1))) =
      .ok (docFile true File.cb true (some (f.node v1))) from rfl]
    exact congrArg Res.ok h1

/-- A storable file entry (in the current data format) loads as itself. -/
theorem C25_file (f : File) (h : f.storable) :
    (∀ compact, ∃ t, f.saveString compact false = some t ∧ File.create.loadString t = (true, f)) ∧
    (∃ t, f.saveFile true false = .ok (true, some t) ∧ File.create.loadFile t = (true, f)) := by
  have := C25_file_general f h.1 false
  rwa [File.asLoaded_of h] at this

/-- Every writable list of files loads as the list of its loaded entries, in order.  (Compact
    form; the indented form is undefined, see below.) -/
theorem C25_files_general (f : Files) (h : ∀ x ∈ f.list, x.writable) :
    (∃ t, f.saveString true = .ok (some t) ∧ Files.create.loadString t = (true, f.asLoaded)) ∧
    (∃ t, f.saveFile true = .ok (true, some t) ∧ Files.create.loadFile t = (true, f.asLoaded)) := by
  unfold Files.saveString Files.saveFile Files.loadString Files.loadFile
  rw [Files.saveXml_eq h]
  obtain ⟨⟨t, h1, h2⟩, ⟨u, h3, h4⟩⟩ := doc_roundtrip (openFirst := false) filesCb_space true (by decide) (Files.node_savable h)
    (Files.create.loadXml) (false, Files.create) (true, f.asLoaded) fun T hT => by
      have hr := isRead_findAll hT (b! "file")
      exact Files.loadXml_of h (Files.findAll_doc f ▸ hr)
  exact ⟨⟨t, congrArg Res.ok h1, h2⟩, ⟨u, congrArg Res.ok h3, h4⟩⟩

/-- A storable list of files loads as itself. -/
theorem C25_files (f : Files) (h : f.storable) :
    (∃ t, f.saveString true = .ok (some t) ∧ Files.create.loadString t = (true, f)) ∧
    (∃ t, f.saveFile true = .ok (true, some t) ∧ Files.create.loadFile t = (true, f)) := by
  have := C25_files_general f fun x hx => (h.2 x hx).1
  rwa [Files.asLoaded_of h] at this

/-- Saving a valid file entry to a file without `compact` is undefined behaviour: the white-space
    callback compares the name of the declaration's missing parent. -/
theorem C25_indented_file_is_undefined (f : File) (h : f.isValid = true) (v1 : Bool) : f.saveFile false v1 = .ub := by
  unfold File.saveFile unguarded File.saveXml
  simp [h]

/-- The same for lists of writable files, also when saving to a string. -/
theorem C25_indented_files_are_undefined (f : Files) (h : ∀ x ∈ f.list, x.writable) :
    f.saveString false = .ub ∧ f.saveFile false = .ub := by
  unfold Files.saveString Files.saveFile unguarded
  rw [Files.saveXml_eq h]
  exact ⟨rfl, rfl⟩

/-! ### Examples -/

def exFile : File :=
  { File.create with
    name := some (b! "a & b.txt"), date := some (b! "2020-01-01"), checksum := some (b! "ab12"), size := 5000000000, id := 4,
    startFrame := 7, startByte := 0, endFrame := 9, endByte := 12, uniqueId := some (b! "u-4"), parentId := -1, types := 3,
    preview := some ⟨some [{ Page.create with layoutId := some (b! "L1"), startFrame := 3, startSection := 1, sectionCount := 2 }], -1⟩,
    fileFormat := some (b! "text/plain"),
    metadata := some ⟨some [⟨some (b! "<x/>"), some (b! "xml"), 4, 1⟩]⟩ }

theorem exFile_storable : exFile.storable := by
  refine ⟨⟨by decide, attrField_ascii (by decide), textField_ascii (by decide), textField_ascii (by decide), textField_ascii (by decide),
    by decide, by decide, by decide, by decide, by decide, by decide, by decide, fun _ => .inr (textField_ascii (by decide)),
    fun _ p hp => ?_, fun _ m hm => ?_⟩, by decide, by decide, by decide, fun h => absurd h (by decide), fun h => absurd h (by decide)⟩
  · injection hp with hp
    subst hp
    refine ⟨by decide, by decide, by decide, ?_⟩
    intro x hx
    simp only [Option.getD_some, List.mem_singleton] at hx
    subst hx
    exact ⟨⟨attrField_ascii (by decide), by decide, by decide, by decide, by decide, by decide, by decide, by decide⟩, by decide, by decide⟩
  · injection hm with hm
    subst hm
    refine ⟨by simp, ?_⟩
    intro x hx
    simp only [Option.getD_some, List.mem_singleton] at hx
    subst hx
    refine ⟨by decide, attrField_ascii (by decide), by decide, by decide, ?_, fun h => absurd h (by decide)⟩
    intro d hd
    injection hd with hd
    subst hd
    exact ⟨clean_ascii (by decide), by decide⟩

/-- A file that is not digital loses its checksum and gets an empty one. -/
theorem C25_checksum_without_data_lost (f : File) (h : f.isDigital = false) (v1 : Bool) :
    (f.asLoaded v1).checksum = some [] := by
  unfold File.asLoaded; simp [h]

/-- The old data format does not keep the checksum either. -/
theorem C25_old_format_drops_checksum (f : File) : (f.asLoaded true).checksum = some [] := by
  unfold File.asLoaded; simp

end Afs
