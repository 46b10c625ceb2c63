import Verif.Proof.TableFiles
import Verif.Proof.TableLocations
import Verif.Proof.TableMeta
import Verif.Spec.Save
import Verif.Props.C37_Validity
/-!
# C33 The text tables

Each table is its header and one line per entry, with the columns of `Spec.Table`, and is written
inside its buffer - under the conditions stated, all of which are needed: the negative theorems
show what happens without them.
-/
namespace Afs
open Spec

/-! ## Cells -/

/-- A number in a column is exactly as wide as the widest of the column and reads back. -/
theorem C33_number_cell (w : Nat) (i : Int) (hw : lenInt i ≤ w) (h : IsInt64 i) :
    (zeroInt w i).length = w ∧ strtol (zeroInt w i) = i := by
  refine ⟨by rw [zeroInt_length]; omega, ?_⟩
  have hd : ∀ (k : Nat) (n : Nat), ∀ c ∈ zeroNat k n, isDigitByte c = true := by
    intro k n c hc
    rcases List.mem_append.mp hc with hc | hc
    · rw [(List.mem_replicate.mp hc).2]; decide
    · exact printNat_digits n c hc
  have hne : ∀ (k : Nat) (n : Nat), zeroNat k n ≠ [] := by
    intro k n e
    exact printNat_ne n (List.append_eq_nil_iff.mp e).2
  have hv : ∀ (k : Nat) (n : Nat), readDigits 0 (zeroNat k n) = (n, []) := by
    intro k n
    rw [zeroNat, readDigits_zeros, readDigits_printNat]
  obtain ⟨h1, h2⟩ := h
  unfold zeroInt strtol
  by_cases hn : i < 0
  · rw [if_pos hn, readSigned_neg (hd _ _) (hne _ _), hv]
    simp only [if_true]
    rw [if_pos (by omega)]; omega
  · have := readSigned_digits (hd w i.natAbs) (hne _ _) (r := []) (by simp)
    rw [List.append_nil] at this
    rw [if_neg hn, this, hv]
    simp only [Bool.false_eq_true, if_false]
    rw [if_pos (by omega)]; omega

example : zeroInt 5 (-12) = b! "-0012" ∧ zeroInt 3 7 = b! "007" := by decide

/-- The widths of the columns are computed without printing: by counting divisions by ten. -/
theorem C33_digit_counts (i : Int) (n : Nat) :
    digitsCount i = (printInt i).length ∧ uDigits n = (printNat n).length ∧ (printInt i).length ≤ digits64 i ∧
    (0 ≤ i → digits64 i = (printInt i).length) := by
  refine ⟨digitsCount_eq i, uDigits_eq n, ?_, ?_⟩
  · rw [digits64_eq]; exact lenInt_le_lenSize i
  · intro h
    rw [digits64_eq, lenSize, if_neg (by omega)]
    show _ = lenInt i
    rw [lenInt_eq, if_neg (by omega)]; omega

/-! ## The file table -/

/-- The file table of a non-empty list. -/
theorem C33_file_table (f : Files) (hne : f.list ≠ []) (h : ∀ x ∈ f.list, FileRowOk x)
    (hs : fileLineWidth f.list * f.list.length + 1048630 ≤ 2147483647) :
    Files.saveAsTable (some f) = .ok (some (fileTable f.list)) := Files.saveAsTable_ok f hne h hs

/-- No files (NULL, no vector, empty vector): the header alone. -/
theorem C33_file_table_empty (f : Option Files) (h : Files.count f = 0) :
    Files.saveAsTable f = .ok (some (b! "<fileId> <uniqueId> <parentId> <formatId> <fileName>\n\n")) := by
  unfold Files.saveAsTable
  rw [if_pos h]
  decide

def C33.file (id : Int) (name : Bytes) (parent : Int) : File :=
  { File.create with
    id := id, name := some name, date := some (b! "2020"), uniqueId := some (b! "0b7e"), fileFormat := some [],
    parentId := parent, checksum := some (b! "ab"), size := 10, startFrame := 2, startByte := 0, endFrame := 2,
    endByte := 9, types := 1 }

def C33.two : List File := [C33.file 9 (b! "a") (-1), C33.file 10 (b! "bb.txt") 9]

example : Files.saveAsTable (some ⟨some C33.two⟩) =
    .ok (some (b! "<fileId> <uniqueId> <parentId> <formatId> <fileName>\n09 0b7e                                 P N a\n10 0b7e                                 9 N bb.txt\n")) := by
  rw [C33_file_table _ (by decide) (by
    intro x hx
    have : x = C33.file 9 (b! "a") (-1) ∨ x = C33.file 10 (b! "bb.txt") 9 := by simpa [Files.list, C33.two] using hx
    rcases this with rfl | rfl <;> exact ⟨rfl, rfl, rfl, by decide, by decide⟩) (by decide)]
  decide

/-- A row that runs into undefined behaviour makes the table do so. -/
theorem putRows_ub {α : Type} (put : Bytes → Bytes → Res Bytes) (row : α → Res Bytes) (l : List α) (out : Bytes)
    (h : ∃ x ∈ l, row x = .ub) : putRows put row out l = .ub := by
  induction l generalizing out with
  | nil => obtain ⟨x, hx, _⟩ := h; cases hx
  | cons y ys ih =>
    rw [putRows]
    cases hy : row y with
    | ub => rfl
    | ok s =>
      rw [Res.ok_bind]
      cases put out s with
      | ub => rfl
      | ok o =>
        rw [Res.ok_bind]
        apply ih
        obtain ⟨x, hx, e⟩ := h
        rcases List.mem_cons.mp hx with rfl | hx
        · rw [hy] at e; cases e
        · exact ⟨x, hx, e⟩

/-- A file without unique id, format or name (a valid file may lack the first two) makes the
    table read a NULL string. -/
theorem C33_file_table_null (f : Files) (h : ∃ x ∈ f.list, x.uniqueId = none ∨ x.fileFormat = none ∨ x.name = none) :
    Files.saveAsTable (some f) = .ub := by
  have hl : ∀ (fs : List File) (l : Files.Lens),
      (∃ x ∈ fs, x.uniqueId = none ∨ x.fileFormat = none ∨ x.name = none) → Files.lensLoop l fs = .ub := by
    intro fs
    induction fs with
    | nil => rintro l ⟨x, hx, _⟩; cases hx
    | cons y ys ih =>
      rintro l ⟨x, hx, e⟩
      rw [Files.lensLoop]
      cases hu : y.uniqueId with
      | none => rfl
      | some u =>
        cases hf : y.fileFormat with
        | none => rfl
        | some g =>
          cases hn : y.name with
          | none => rfl
          | some n =>
            simp only [strlenR, Res.ok_bind]
            apply ih
            rcases List.mem_cons.mp hx with rfl | hx
            · rw [hu, hf, hn] at e; simp at e
            · exact ⟨x, hx, e⟩
  have hc : Files.count (some f) ≠ 0 := by
    obtain ⟨x, hx, _⟩ := h
    unfold Files.count Files.list at *
    cases ht : f.tocs with
    | none => rw [ht] at hx; cases hx
    | some l => rw [ht] at hx; simp [vecSize, ht]; rintro rfl; cases hx
  unfold Files.saveAsTable
  rw [if_neg hc]
  dsimp only
  rw [hl _ _ h]
  rfl

example : ∃ f : File, f.isValid = true ∧ f.uniqueId = none :=
  ⟨{ C33.file 1 (b! "a") (-2) with uniqueId := none }, by decide, rfl⟩

/-- A format of 255 bytes or more is copied over the end of a 255 byte array. -/
theorem C33_file_table_long_format (f : Files) (h : ∃ x ∈ f.list, ∃ s, x.fileFormat = some s ∧ 255 ≤ s.length) :
    Files.saveAsTable (some f) = .ub := by
  have hc : Files.count (some f) ≠ 0 := by
    obtain ⟨x, hx, _⟩ := h
    unfold Files.count Files.list at *
    cases ht : f.tocs with
    | none => rw [ht] at hx; cases hx
    | some l => rw [ht] at hx; simp [vecSize, ht]; rintro rfl; cases hx
  unfold Files.saveAsTable
  rw [if_neg hc]
  dsimp only
  cases Files.lensLoop ⟨1, 36, 1, 0, 0⟩ f.list with
  | ub => rfl
  | ok l =>
    rw [Res.ok_bind]
    generalize putStrN _ [] _ = o
    cases o with
    | ub => rfl
    | ok o =>
      rw [Res.ok_bind, putRows_ub]
      · rfl
      · obtain ⟨x, hx, s, hs, hlen⟩ := h
        refine ⟨x, hx, ?_⟩
        unfold Files.row
        cases Files.parentStr l x with
        | ub => rfl
        | ok p =>
          have : Files.formatStr x = .ub := by
            unfold Files.formatStr
            rw [hs]
            simp only [strR, Res.ok_bind]
            rw [if_pos (by omega)]
            unfold tmpStr
            rw [if_neg (by omega)]
          rw [Res.ok_bind, this]; rfl

example : ∃ f : File, f.isValid = true ∧ ∃ s, f.fileFormat = some s ∧ 255 ≤ s.length :=
  ⟨{ C33.file 1 (b! "a") (-2) with fileFormat := some (List.replicate 255 97) }, by decide +kernel, _, rfl, by decide +kernel⟩

/-! ## The location table -/

/-- The location table: the digital files, then the pages of the visual ones. -/
theorem C33_location_table (fs : List File) (h : ∀ f ∈ fs, Present f.checksum)
    (hp : ∀ x ∈ allPages fs, PageRowOk x.2) (hl : ∀ x ∈ allPages fs, (textOf x.2.layoutId).length < 255)
    (hc : (allPages fs).length < 4294967296) (hd : digitalLineWidth fs ≤ 4294967296)
    (hv : visualLineWidth fs ≤ 4294967296) :
    Files.saveAsLocationTable (some ⟨some fs⟩) = .ok (some (locationTable fs)) := by
  apply Files.saveAsLocationTable_ok fs h hp _ hc hd hv
  have : (visualWidths fs).layout ≤ 254 := by
    apply widest_le _ _ _ (by omega)
    intro y hy
    obtain ⟨x, hx, rfl⟩ := List.mem_map.mp hy
    have := hl x hx; omega
  omega

/-- NULL gives NULL and a list without vector the empty text. -/
theorem C33_location_table_empty :
    Files.saveAsLocationTable none = .ok none ∧ Files.saveAsLocationTable (some ⟨none⟩) = .ok (some []) := by decide

def C33.page (dx dy ox oy : Nat) : Page := ⟨some (b! "1"), 5, 1, 1, dx, dy, ox, oy⟩

def C33.visual (p : Page) : File :=
  { C33.file 3 (b! "v") (-2) with types := 3, checksum := some (List.replicate 40 97), preview := some ⟨some [p], 300⟩ }

example : Files.saveAsLocationTable (some ⟨some [C33.visual (C33.page 640 480 0 12)]⟩) =
    .ok (some (locationTable [C33.visual (C33.page 640 480 0 12)])) ∧
    locationTable [C33.visual (C33.page 640 480 0 12)] =
      b! "DIGITAL DATA LOCATIONS\n======================\n<fileId> <startFrame> <startByte> <endFrame> <endByte> <size> <sha1Checksum>\n3 002 0000000 002 0000009 000000000010 aaaaaaaaaaaaaaaaaaaaaaaaaaaaaaaaaaaaaaaa\n\nVISUAL DATA LOCATIONS\n=====================\n<fileId> <layoutId> <startFrame> <startSection> <sectionCount> <dimensionWxH> <overlapWxH>\n3 1 005 1 001 00640x00480 00x12\n" := by
  refine ⟨C33_location_table _ ?_ ?_ ?_ (by decide +kernel) (by decide +kernel) (by decide +kernel), by decide +kernel⟩
  · intro f hf
    rw [List.mem_singleton.mp hf]; rfl
  · intro x hx
    have : x = (C33.visual (C33.page 640 480 0 12), C33.page 640 480 0 12) := by
      simpa [allPages, previewPages, C33.visual] using hx
    subst this
    exact ⟨rfl, by decide, by decide, Or.inl (by decide), Or.inl (by decide)⟩
  · intro x hx
    have : x = (C33.visual (C33.page 640 480 0 12), C33.page 640 480 0 12) := by
      simpa [allPages, previewPages, C33.visual] using hx
    subst this
    decide

/-- The condition on the dimensions is needed: one valid file with one valid page of 100000 x 1
    writes behind the end of the buffer, because the width is computed from the six and one
    digits and the line is printed with six and five. -/
theorem C33_location_table_dimension_overflow :
    ∃ f : File, f.isValid = true ∧ f.checksum = some (List.replicate 40 97) ∧
      (previewPages f).map (fun p => (p.dimX, p.dimY)) = [(100000, 1)] ∧
      Files.saveAsLocationTable (some ⟨some [f]⟩) = .ub :=
  ⟨C33.visual (C33.page 100000 1 0 0), by decide, rfl, rfl, by decide +kernel⟩

/-- The same with an overlap of 1000 x 1. -/
theorem C33_location_table_overlap_overflow :
    ∃ f : File, f.isValid = true ∧ f.checksum = some (List.replicate 40 97) ∧
      (previewPages f).map (fun p => (p.ovX, p.ovY)) = [(1000, 1)] ∧
      Files.saveAsLocationTable (some ⟨some [f]⟩) = .ub :=
  ⟨C33.visual (C33.page 6400 4800 1000 1), by decide, rfl, rfl, by decide +kernel⟩

/-- A file without checksum (a valid visual file may lack it) makes the table read a NULL
    string. -/
theorem C33_location_table_null (fs : List File) (h : ∃ f ∈ fs, f.checksum = none) :
    Files.saveAsLocationTable (some ⟨some fs⟩) = .ub := by
  have hl : ∀ (fs : List File) (l : Files.LocLens), (∃ x ∈ fs, x.checksum = none) → Files.locLoop l fs = .ub := by
    intro fs
    induction fs with
    | nil => rintro l ⟨x, hx, _⟩; cases hx
    | cons y ys ih =>
      rintro l ⟨x, hx, e⟩
      rw [Files.locLoop]
      cases hu : y.checksum with
      | none => rfl
      | some u =>
        simp only [strlenR, Res.ok_bind]
        generalize Files.locPages _ _ _ = r
        cases r with
        | ub => rfl
        | ok r =>
          rw [Res.ok_bind]
          apply ih
          rcases List.mem_cons.mp hx with rfl | hx
          · rw [hu] at e; cases e
          · exact ⟨x, hx, e⟩
  unfold Files.saveAsLocationTable
  dsimp only
  rw [hl _ _ h]
  rfl

example : ∃ f : File, f.isValid = true ∧ f.checksum = none :=
  ⟨{ C33.visual (C33.page 1 1 0 0) with types := 2, checksum := none }, by decide, rfl⟩

/-! ## The metadata table of all files -/

/-- The metadata table: all sources of all files, each on one line with at most 54 characters of
    its data. -/
theorem C33_metadata_table (fs : List File) (h : ∀ x ∈ allSources fs, SourceRowOk x.2)
    (hi : ∀ x ∈ allSources fs, IsInt x.2.sourceId)
    (hs : metaLineWidth fs * (allSources fs).length + 1048700 ≤ 2147483647) :
    Files.saveAsMetadataTable (some ⟨some fs⟩) = .ok (some (metadataTable fs)) :=
  Files.saveAsMetadataTable_ok fs h hi hs

/-- NULL, and a list without vector, give NULL. -/
theorem C33_metadata_table_null_list :
    Files.saveAsMetadataTable none = .ok none ∧ Files.saveAsMetadataTable (some ⟨none⟩) = .ok none := by decide

/-- The data column holds no newline, carriage return or tab, is at most 54 characters long, and
    shorter data without such characters is shown as it is. -/
theorem C33_metadata_cell (d : Bytes) :
    (dataCell d).length ≤ 54 ∧ (10 : UInt8) ∉ dataCell d ∧ (13 : UInt8) ∉ dataCell d ∧ (9 : UInt8) ∉ dataCell d ∧
    (d.length < 55 → (∀ c ∈ d, c ≠ 10 ∧ c ≠ 13 ∧ c ≠ 9) → dataCell d = d) := by
  have ho : ∀ c ∈ oneLine d, c ≠ 10 ∧ c ≠ 13 ∧ c ≠ 9 := by
    intro c hc
    have := (List.mem_filter.mp hc).2
    simpa using this
  have hle : (oneLine d).length ≤ d.length := List.length_filter_le ..
  have hmem : ∀ c ∈ dataCell d, c ≠ 10 ∧ c ≠ 13 ∧ c ≠ 9 := by
    intro c hc
    unfold dataCell at hc
    split at hc
    · exact ho c hc
    · split at hc
      · exact ho c (List.mem_of_mem_take hc)
      · rcases List.mem_append.mp hc with hc | hc
        · exact ho c (List.mem_of_mem_take hc)
        · have : c = 46 := by simpa using hc
          rw [this]; decide
  refine ⟨?_, fun h => (hmem _ h).1 rfl, fun h => (hmem _ h).2.1 rfl, fun h => (hmem _ h).2.2 rfl, ?_⟩
  · unfold dataCell
    split
    · omega
    · split
      · omega
      · rw [List.length_append, List.length_take]
        have : (b! "...").length = 3 := rfl
        omega
  · intro h hd
    unfold dataCell
    rw [if_pos h, oneLine, List.filter_eq_self]
    intro c hc
    simpa using hd c hc

def C33.source (fid sid : Int) (d : Bytes) : FileMetaSource := ⟨some d, some (b! "xml"), fid, sid⟩

def C33.withMeta : File :=
  { C33.file 3 (b! "v") (-2) with metadata := some ⟨some [C33.source 4 (-1) (b! "x\ny"), C33.source (-1) 7 (b! "z")]⟩ }

example : Files.saveAsMetadataTable (some ⟨some [C33.withMeta]⟩) =
    .ok (some (b! "\nUSER DATA FILES METADATA\n========================\n<fileId> <sourceFileId> <sourceId> <formatId> <data>\n3 04 00N xml xy\n3 -1 07 xml z\n")) := by
  have hm : ∀ x ∈ allSources [C33.withMeta], x = (C33.withMeta, C33.source 4 (-1) (b! "x\ny")) ∨
      x = (C33.withMeta, C33.source (-1) 7 (b! "z")) := by
    intro x hx
    simpa [allSources, fileSources, C33.withMeta] using hx
  rw [C33_metadata_table _ (by
    intro x hx
    rcases hm x hx with rfl | rfl <;> exact ⟨rfl, rfl⟩) (by
    intro x hx
    rcases hm x hx with rfl | rfl <;> exact ⟨by decide, by decide⟩) (by decide)]
  decide

/-- A source without data or format (a valid source may lack either) makes the table read a NULL
    string. -/
theorem C33_metadata_table_null (fs : List File) (h : ∃ x ∈ allSources fs, x.2.data = none ∨ x.2.formatId = none) :
    Files.saveAsMetadataTable (some ⟨some fs⟩) = .ub := by
  have hs : ∀ (ss : List FileMetaSource) (id : Int) (j : Nat) (l : Files.MetaLens),
      (∃ x ∈ ss, x.data = none ∨ x.formatId = none) → Files.metaSources id j l ss = .ub := by
    intro ss
    induction ss with
    | nil => rintro id j l ⟨x, hx, _⟩; cases hx
    | cons y ys ih =>
      rintro id j l ⟨x, hx, e⟩
      rw [Files.metaSources]
      cases hu : y.formatId with
      | none => rfl
      | some u =>
        cases hd : y.data with
        | none => rfl
        | some d =>
          simp only [strlenR, Res.ok_bind]
          apply ih
          rcases List.mem_cons.mp hx with rfl | hx
          · rw [hu, hd] at e; simp at e
          · exact ⟨x, hx, e⟩
  have hl : ∀ (fs : List File) (l : Files.MetaLens), (∃ x ∈ allSources fs, x.2.data = none ∨ x.2.formatId = none) →
      Files.metaLoop l fs = .ub := by
    intro fs
    induction fs with
    | nil => rintro l ⟨x, hx, _⟩; cases hx
    | cons y ys ih =>
      rintro l ⟨x, hx, e⟩
      rw [Files.metaLoop, Files.sourcesOf_eq]
      rw [Files.allSources_cons] at hx
      rcases List.mem_append.mp hx with hx | hx
      · obtain ⟨s, hsm, rfl⟩ := List.mem_map.mp hx
        rw [hs _ _ _ _ ⟨s, hsm, e⟩]; rfl
      · generalize Files.metaSources _ _ _ _ = r
        cases r with
        | ub => rfl
        | ok r => rw [Res.ok_bind]; exact ih _ ⟨x, hx, e⟩
  unfold Files.saveAsMetadataTable
  dsimp only
  rw [hl _ _ h]
  rfl

example : ∃ s : FileMetaSource, s.isValid = true ∧ s.data = none := ⟨⟨none, none, 3, -1⟩, by decide, rfl⟩

/-! ## The sources of one file -/

/-- The table of the metadata sources of one file; the ids are shown as unsigned numbers. -/
theorem C33_source_table (m : FileMeta) (h : ∀ s ∈ m.sources.getD [], SourceRowOk s)
    (hs : sourceLineWidth (m.sources.getD []) * (m.sources.getD []).length + 100 ≤ 4294967296)
    (hw : sourceLineWidth (m.sources.getD []) < 4294967296) :
    FileMeta.saveAsTable (some m) = .ok (some (sourceTable (m.sources.getD []))) := FileMeta.saveAsTable_ok m h hs hw

theorem C33_source_table_null : FileMeta.saveAsTable none = .ok none := rfl

/-- An undefined id (-1) is shown as 4294967295. -/
example : FileMeta.saveAsTable (some ⟨some [C33.source 4 (-1) (b! "x"), C33.source 12 7 (b! "z")]⟩) =
    .ok (some (b! "METADATA SOURCES\n================\n<id> <fileId> <sourceId> <formatId> <data>\n0 04 4294967295 xml x\n1 12 0000000007 xml z\n")) := by
  rw [C33_source_table _ (by
    intro s hs
    have : s = C33.source 4 (-1) (b! "x") ∨ s = C33.source 12 7 (b! "z") := by simpa using hs
    rcases this with rfl | rfl <;> exact ⟨rfl, rfl⟩) (by decide) (by decide)]
  decide

/-- A source without data or format makes the table read a NULL string. -/
theorem C33_source_table_ub (m : FileMeta) (h : ∃ s ∈ m.sources.getD [], s.data = none ∨ s.formatId = none) :
    FileMeta.saveAsTable (some m) = .ub := by
  have hs : ∀ (ss : List FileMetaSource) (j : Nat) (l : FileMeta.Lens),
      (∃ x ∈ ss, x.data = none ∨ x.formatId = none) → FileMeta.lensLoop j l ss = .ub := by
    intro ss
    induction ss with
    | nil => rintro j l ⟨x, hx, _⟩; cases hx
    | cons y ys ih =>
      rintro j l ⟨x, hx, e⟩
      rw [FileMeta.lensLoop]
      cases hu : y.formatId with
      | none => rfl
      | some u =>
        cases hd : y.data with
        | none => rfl
        | some d =>
          simp only [strlenR, Res.ok_bind]
          apply ih
          rcases List.mem_cons.mp hx with rfl | hx
          · rw [hu, hd] at e; simp at e
          · exact ⟨x, hx, e⟩
  unfold FileMeta.saveAsTable
  dsimp only
  rw [hs _ _ _ h]
  rfl

/-! ## Layout definitions -/

/-- The table of the layout definitions: for a valid list nothing but the size limits the table. -/
theorem C33_layout_table (d : LayoutDefs) (h : LayoutDefs.isValid (some d) = true)
    (hc : (allSections (d.defs.getD [])).length < 4294967296)
    (hw1 : layoutLineWidth (d.defs.getD []) < 4294967296) (hw2 : sectionLineWidth (d.defs.getD []) < 4294967296)
    (hs : layoutLineWidth (d.defs.getD []) * (d.defs.getD []).length +
      sectionLineWidth (d.defs.getD []) * (allSections (d.defs.getD [])).length + 200 ≤ 4294967296) :
    LayoutDefs.saveAsTable (some d) = .ok (some (layoutTable (d.defs.getD []))) := by
  apply LayoutDefs.saveAsTable_ok d _ hc hw1 hw2 hs
  intro x hx
  have hv : x.isValid = true := by
    obtain ⟨defs⟩ := d
    cases defs with
    | none => cases hx
    | some l => exact List.all_eq_true.mp h x hx
  unfold LayoutDef.isValid at hv
  unfold Present
  cases hi : x.id with
  | none => rw [hi] at hv; simp [nullOrEmpty] at hv
  | some i =>
    cases hn : x.name with
    | none => rw [hn] at hv; simp [nullOrEmpty] at hv
    | some n => exact ⟨rfl, rfl⟩

theorem C33_layout_table_null : LayoutDefs.saveAsTable none = .ok none := rfl

def C33.layouts : LayoutDefs :=
  ⟨some [⟨some (b! "1"), some (b! "one"), some ⟨some [⟨1, 0, 0, 40, 30, 0⟩]⟩⟩,
    ⟨some (b! "12"), some (b! "two"), some ⟨some [⟨1, 0, 0, 4, 3, 90⟩, ⟨2, 10, 0, 4, 3, 0⟩]⟩⟩]⟩

example : LayoutDefs.saveAsTable (some C33.layouts) =
    .ok (some (b! "VISUAL LAYOUT DEFINITIONS\n=========================\n<layoutId> <sections> <name>\n01 1 one\n12 2 two\n\n<layoutId> <sectionId> <x> <y> <width> <height> <rotation>\n01 1 00 0 40 30 000\n12 1 00 0 04 03 090\n12 2 10 0 04 03 000\n\n")) := by
  rw [C33_layout_table _ (by decide) (by decide) (by decide) (by decide) (by decide)]
  decide +kernel

end Afs
