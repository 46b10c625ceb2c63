import Verif.Proof.Canon
/-! # Queries and NULL strings: files, reels -/
namespace Afs.Canon
open Afs Spec

/-! ### Metadata of files -/

theorem source_valid (s : FileMetaSource) : (fileMetaSourceContent s).isValid = s.isValid := by
  rw [FileMetaSource.isValid, FileMetaSource.isValid, fileMetaSourceContent]
  dsimp only
  rw [nullOrEmpty_str]

theorem sources_count (m : Option FileMeta) : FileMeta.sourcesCount (m.map fileMetaContent) = FileMeta.sourcesCount m := by
  cases m with
  | none => rfl
  | some m => exact vecSize_map _ _

theorem fileMeta_valid (m : Option FileMeta) : FileMeta.isValid (m.map fileMetaContent) = FileMeta.isValid m := by
  rcases m with _ | ⟨_ | l⟩
  · rfl
  · rfl
  · exact all_map _ _ source_valid l

/-! ### Files -/

/-- The content of a file, but a NULL checksum stays NULL: it matters for the validity of a file. -/
def keep (f : File) : File := { fileContent f with checksum := f.checksum }

theorem keep_eq {a b : File} (h : fileContent a = fileContent b) (hc : a.checksum.isSome = b.checksum.isSome) : keep a = keep b := by
  rw [keep, keep, h]
  have : str a.checksum = str b.checksum := congrArg File.checksum h
  have e : a.checksum = b.checksum := by
    revert hc this
    cases a.checksum <;> cases b.checksum <;> intro hc this
    · rfl
    · cases hc
    · cases hc
    · cases this; rfl
  rw [e]

theorem keep_list : ∀ (l m : List File), l.map fileContent = m.map fileContent →
    (l.map fun f => f.checksum.isSome) = (m.map fun f => f.checksum.isSome) → l.map keep = m.map keep
  | [], [], _, _ => rfl
  | [], _ :: _, h, _ => nomatch h
  | _ :: _, [], h, _ => nomatch h
  | a :: l, b :: m, h, hc => by
    rw [List.map_cons, List.map_cons, List.cons.injEq] at h hc
    rw [List.map_cons, List.map_cons, keep_eq h.1 hc.1, keep_list l m h.2 hc.2]

theorem content_keep (f : File) : fileContent (keep f) = fileContent f := by
  have hp : ∀ p : Preview, previewContent (previewContent p) = previewContent p := by
    rintro ⟨_ | l, d⟩
    · rfl
    · simp [previewContent, pageContent, str]
  have hm : ∀ p : FileMeta, fileMetaContent (fileMetaContent p) = fileMetaContent p := by
    rintro ⟨_ | l⟩
    · rfl
    · simp [fileMetaContent, fileMetaSourceContent, str]
  rcases f with ⟨_, _, _, _, _, _, _, _, _, _, _, _, p, _, m⟩
  cases p <;> cases m <;> simp [keep, fileContent, str, hp, hm]

theorem file_valid (f : File) : (keep f).isValid = f.isValid := by
  rcases f with ⟨_, _, _, _, _, _, _, _, _, _, _, _, p, _, m⟩
  have h1 := preview_valid p
  have h2 := fileMeta_valid m
  have h3 := sources_count m
  cases p with
  | none => simp only [File.isValid, keep, fileContent, File.isDigital, File.isPreview, File.hasMetadata, nullOrEmpty_str, h2, h3, Option.map_none]; rfl
  | some p =>
    rw [Option.map_some] at h1
    simp only [File.isValid, keep, fileContent, File.isDigital, File.isPreview, File.hasMetadata, nullOrEmpty_str, h1, h2, h3, Option.map_some,
      reduceCtorEq, false_or]
    rfl

theorem first_content (type : Nat) (l : List File) : Files.firstLoop type (l.map fileContent) = Files.firstLoop type l := by
  induction l with
  | nil => rfl
  | cons f l ih =>
    rw [List.map_cons, Files.firstLoop, Files.firstLoop, ih]
    show (if type &&& TYPE_DIGITAL ≠ 0 ∧ f.isDigital = true then f.startFrame
      else if type &&& TYPE_PREVIEW ≠ 0 ∧ f.isPreview = true then Preview.startFrame (f.preview.map previewContent) else _) = _
    rw [preview_start]

theorem list_content (f : Files) : (filesContent f).list = f.list.map fileContent := getD_map _ _

theorem files_first (f : Option Files) (type : Nat) : Files.firstFrame (f.map filesContent) type = Files.firstFrame f type := by
  cases f with
  | none => rfl
  | some f =>
    rw [Option.map_some, Files.firstFrame, Files.firstFrame]
    dsimp only
    rw [list_content, List.length_map, first_content, first_content, first_content]

theorem last_content (type : Nat) (d : Option LayoutDefs) (l : List File) {v : Int} (h : Files.lastLoop type d l = .ok v) :
    Files.lastLoop type (d.map layoutsContent) (l.map fileContent) = .ok v := by
  induction l with
  | nil => exact h
  | cons f l ih =>
    rw [Files.lastLoop.eq_def] at h
    rw [List.map_cons, Files.lastLoop.eq_def]
    dsimp only at h ⊢
    show (if type &&& TYPE_DIGITAL ≠ 0 ∧ f.isDigital = true then Res.ok f.endFrame
      else if type &&& TYPE_PREVIEW ≠ 0 ∧ f.isPreview = true then _ else _) = _
    split at h
    · rename_i e; rw [if_pos e]; exact h
    · rename_i e
      rw [if_neg e]
      split at h
      · rename_i e
        rw [if_pos e]
        show (match f.preview.map previewContent, d.map layoutsContent with
          | some p, some ds => do
            let r ← Preview.framesCount (some p) (some ds)
            return intOfU (uOfInt (Preview.startFrame (some p)) + r.2 + (two32 - 1))
          | _, _ => Res.ub) = _
        cases hp : f.preview with
        | none => rw [hp] at h; cases h
        | some p =>
          rw [hp] at h
          cases d with
          | none => cases h
          | some d =>
            dsimp only at h
            obtain ⟨r, hr, h⟩ := bind_ok h
            have := preview_frames (some p) (some d) hr
            have hs := preview_start (some p)
            rw [Option.map_some] at this hs
            rw [Option.map_some] at this
            dsimp only [Option.map_some]
            rw [this, ok_bind, hs]
            exact h
      · rename_i e; rw [if_neg e]; exact ih h

/-- Without layout definitions the answer is the same in every case. -/
theorem last_content_none (type : Nat) (l : List File) : Files.lastLoop type none (l.map fileContent) = Files.lastLoop type none l := by
  induction l with
  | nil => rfl
  | cons f l ih =>
    rw [List.map_cons, Files.lastLoop.eq_def, Files.lastLoop.eq_def type none (f :: l)]
    dsimp only
    rw [ih]
    show (if type &&& TYPE_DIGITAL ≠ 0 ∧ f.isDigital = true then Res.ok f.endFrame
      else if type &&& TYPE_PREVIEW ≠ 0 ∧ f.isPreview = true then
        (match f.preview.map previewContent, (none : Option LayoutDefs) with
          | some p, some ds => do
            let r ← Preview.framesCount (some p) (some ds)
            return intOfU (uOfInt (Preview.startFrame (some p)) + r.2 + (two32 - 1))
          | _, _ => Res.ub) else _) = _
    cases f.preview <;> rfl

theorem last1_content (f : Files) (type : Nat) (d : Option LayoutDefs) {v : Int} (h : f.lastFrame1 type d = .ok v) :
    (filesContent f).lastFrame1 type (d.map layoutsContent) = .ok v := by
  rw [Files.lastFrame1] at h ⊢
  have hd : (type = TYPE_PREVIEW ∧ d.map layoutsContent = none) ↔ (type = TYPE_PREVIEW ∧ d = none) := by cases d <;> simp
  rw [list_content, List.length_map, ← List.map_reverse]
  split at h
  · rename_i e; rw [if_pos e]; exact h
  · rename_i e
    rw [if_neg e]
    split at h
    · rename_i e; rw [if_pos (hd.mpr e)]; exact h
    · rename_i e
      rw [if_neg (fun x => e (hd.mp x))]
      split at h
      · rename_i e; rw [if_pos e]; exact h
      · rename_i e; rw [if_neg e]; exact last_content _ _ _ h

theorem files_last (f : Option Files) (type : Nat) (d : Option LayoutDefs) {v : Int} (h : Files.lastFrame f type d = .ok v) :
    Files.lastFrame (f.map filesContent) type (d.map layoutsContent) = .ok v := by
  cases f with
  | none => exact h
  | some f =>
    rw [Option.map_some, Files.lastFrame] 
    rw [Files.lastFrame] at h
    rw [list_content, List.length_map]
    split at h
    · rename_i e
      rw [if_pos e]
      split at h
      · rename_i e; rw [if_pos e]; exact h
      · rename_i e
        rw [if_neg e]
        obtain ⟨x, hx, h⟩ := bind_ok h
        obtain ⟨y, hy, h⟩ := bind_ok h
        have h1 := last1_content f TYPE_DIGITAL none hx
        rw [Option.map_none] at h1
        rw [h1, ok_bind, last1_content f TYPE_PREVIEW d hy, ok_bind]
        exact h
    · rename_i e; rw [if_neg e]; exact last1_content _ _ _ h

theorem last1_none (f : Files) (type : Nat) : (filesContent f).lastFrame1 type none = f.lastFrame1 type none := by
  rw [Files.lastFrame1, Files.lastFrame1, list_content, List.length_map, ← List.map_reverse, last_content_none]

theorem files_last_none (f : Option Files) (type : Nat) : Files.lastFrame (f.map filesContent) type none = Files.lastFrame f type none := by
  cases f with
  | none => rfl
  | some f =>
    rw [Option.map_some, Files.lastFrame, Files.lastFrame]
    rw [list_content, List.length_map, last1_none, last1_none, last1_none]

theorem files_duration (f : Option Files) (type : Nat) (d : Option LayoutDefs) {v : Int} (h : Files.durationFrames f type d = .ok v) :
    Files.durationFrames (f.map filesContent) type (d.map layoutsContent) = .ok v := by
  rw [Files.durationFrames] at h ⊢
  obtain ⟨x, hx, h⟩ := bind_ok h
  rw [files_last f type d hx, ok_bind, files_first]
  exact h

theorem file_shift (k type : Nat) (f : File) : Files.shiftFile k type (fileContent f) = fileContent (Files.shiftFile k type f) := by
  rw [Files.shiftFile, Files.shiftFile]
  by_cases h1 : type &&& TYPE_DIGITAL ≠ 0 <;> by_cases h2 : type &&& TYPE_PREVIEW ≠ 0
  · rw [if_pos h1, if_pos h1, if_pos h2, if_pos h2]
    rcases f with ⟨_, _, _, _, _, _, _, _, _, _, _, _, p, _, m⟩
    cases p with
    | none => rfl
    | some p => simp [fileContent, preview_shift]
  · rw [if_pos h1, if_pos h1, if_neg h2, if_neg h2]
    rfl
  · rw [if_neg h1, if_neg h1, if_pos h2, if_pos h2]
    rcases f with ⟨_, _, _, _, _, _, _, _, _, _, _, _, p, _, m⟩
    cases p with
    | none => rfl
    | some p => simp [fileContent, preview_shift]
  · rw [if_neg h1, if_neg h1, if_neg h2, if_neg h2]

theorem file_offset (f : File) (k : Nat) : (fileContent f).addFrameOffset k = fileContent (f.addFrameOffset k) := by
  rw [File.addFrameOffset, File.addFrameOffset]
  show (if f.startFrame < 0 ∨ f.endFrame < 0 then _ else _) = _
  split <;> rfl

theorem files_shift (f : Files) (k type : Nat) : (filesContent f).addFrameOffset k type = filesContent (f.addFrameOffset k type) := by
  rcases f with ⟨_ | l⟩
  · rfl
  · simp [filesContent, Files.addFrameOffset, Function.comp_def, file_shift]

theorem ranges_content (l : List File) : fileRanges (l.map fileContent) = fileRanges l := by
  induction l with
  | nil => rfl
  | cons f l ih => rw [List.map_cons, fileRanges, fileRanges, ih]; rfl

theorem files_ranges (f : Option Files) : getFrameRanges (f.map filesContent) = getFrameRanges f := by
  cases f with
  | none => rfl
  | some f =>
    rw [Option.map_some, getFrameRanges, getFrameRanges]
    rw [list_content, List.length_map, ranges_content]

/-! ### Reels -/

theorem reel_list (r : Reel) : (reelContent r).list = r.list.map fileContent := by
  rcases r with ⟨i, _ | f⟩
  · rfl
  · exact list_content f

theorem findId_content (id : Int) (l : List File) : Reel.findId id (l.map fileContent) = (Reel.findId id l).map fileContent := by
  induction l with
  | nil => rfl
  | cons f l ih =>
    rw [List.map_cons, Reel.findId, Reel.findId, ih]
    show (if f.id = id then _ else _) = _
    split <;> rfl

theorem reel_byId (r : Option Reel) (id : Int) : Reel.fileById (r.map reelContent) id = (Reel.fileById r id).map fileContent := by
  cases r with
  | none => rfl
  | some r =>
    rw [Option.map_some, Reel.fileById, Reel.fileById]
    rw [reel_list, findId_content]

theorem findUnique_content (u : Bytes) (l : List File) {v : Option File} (h : Reel.findUniqueId u l = .ok v) :
    Reel.findUniqueId u (l.map fileContent) = .ok (v.map fileContent) := by
  induction l with
  | nil => cases h; rfl
  | cons f l ih =>
    rw [Reel.findUniqueId] at h
    obtain ⟨b, hb, h⟩ := bind_ok h
    rw [List.map_cons, Reel.findUniqueId]
    show (strcmpEq (str f.uniqueId) (some u) >>= _) = _
    rw [strcmp_str hb, ok_bind]
    cases b with
    | true => cases h; rfl
    | false => exact ih h

theorem reel_byUnique (r : Option Reel) (u : Option Bytes) {v : Option File} (h : Reel.fileByUniqueId r u = .ok v) :
    Reel.fileByUniqueId (r.map reelContent) u = .ok (v.map fileContent) := by
  cases r with
  | none => cases u <;> cases h <;> rfl
  | some r =>
    cases u with
    | none => cases h; rfl
    | some u =>
      rw [Option.map_some, Reel.fileByUniqueId]
      rw [Reel.fileByUniqueId] at h
      rw [reel_list]
      split at h
      · rename_i e; rw [if_pos e]; cases h; rfl
      · rename_i e; rw [if_neg e]; exact findUnique_content u _ h

theorem reel_first (r : Option Reel) (s : Nat) : Reel.firstFrame (r.map reelContent) s = Reel.firstFrame r s := by
  rcases r with _ | ⟨i, _ | f⟩
  · rfl
  · rfl
  · show (if sectionToType s ≠ 0 then Files.firstFrame (some (filesContent f)) (sectionToType s) else -1) = _
    have := files_first (some f) (sectionToType s)
    rw [Option.map_some] at this
    rw [this]
    rfl

theorem reel_last (r : Option Reel) (s : Nat) : Reel.lastFrame (r.map reelContent) s = Reel.lastFrame r s := by
  rcases r with _ | ⟨i, _ | f⟩
  · rfl
  · rfl
  · show (if sectionToType s ≠ 0 then Files.lastFrame (some (filesContent f)) (sectionToType s) none else Res.ok (-1)) = _
    have := files_last_none (some f) (sectionToType s)
    rw [Option.map_some] at this
    rw [this]
    rfl

theorem reel_frames (r : Option Reel) (s : Nat) : Reel.frameCount (r.map reelContent) s = Reel.frameCount r s := by
  cases r with
  | none => rfl
  | some r =>
    have h1 := reel_first (some r) s
    have h2 := reel_last (some r) s
    rw [Option.map_some] at h1 h2
    rw [Option.map_some, Reel.frameCount, Reel.frameCount]
    rw [h1, h2]

theorem size_content (l : List File) (a : Int) : Reel.sizeLoop (l.map fileContent) a = Reel.sizeLoop l a := by
  induction l generalizing a with
  | nil => rfl
  | cons f l ih =>
    rw [List.map_cons, Reel.sizeLoop, Reel.sizeLoop]
    simp only [ih]
    rfl

theorem reel_size (r : Option Reel) : Reel.sizeBytes (r.map reelContent) = Reel.sizeBytes r := by
  cases r with
  | none => rfl
  | some r => rw [Option.map_some, Reel.sizeBytes, Reel.sizeBytes, reel_list, size_content]

theorem reel_count (r : Option Reel) : Reel.fileCount (r.map reelContent) = Reel.fileCount r := by
  cases r with
  | none => rfl
  | some r => rw [Option.map_some, Reel.fileCount, Reel.fileCount, reel_list, List.length_map]

theorem reel_shift (r : Reel) (k s : Nat) : (reelContent r).addFrameOffset k s = reelContent (r.addFrameOffset k s) := by
  rcases r with ⟨i, _ | ⟨_ | l⟩⟩
  · rfl
  · rfl
  · rw [Reel.addFrameOffset.eq_def, Reel.addFrameOffset.eq_def]
    show (if sectionToType s ≠ 0 then ({ reelContent ⟨i, some ⟨some l⟩⟩ with
      files := some ((filesContent ⟨some l⟩).addFrameOffset k (sectionToType s)) } : Reel) else _) = reelContent (if _ then _ else _)
    rw [files_shift]
    split <;> rfl

end Afs.Canon
