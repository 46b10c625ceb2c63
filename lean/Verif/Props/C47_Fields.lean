import Verif.Props.C47_Setters
import Verif.Model.TocData
import Verif.Model.Admin
import Verif.Proof.Equal
/-!
# C47: an object shows in each field the last value given to the setter of that field

Histories of setter calls on a file, a reel, a preview, a table of contents and the administrative metadata.
-/
namespace Afs

/-- The last value of a history, else the start value. -/
def Spec.latest {α : Type} (old : α) (h : List α) : α := h.getLast?.getD old

open Spec

theorem latest_cons {α : Type} (old v : α) (h : List α) : latest old (v :: h) = latest v h := by
  rw [latest, latest, List.getLast?_cons]; rfl

/-- If each call of a history sets a field or leaves it alone, the field shows the value set last. -/
theorem latest_run {σ γ α : Type} (step : σ → γ → σ) (field : σ → α) (pick : γ → Option α)
    (hs : ∀ s c, field (step s c) = (pick c).getD (field s)) (s : σ) (h : List γ) :
    field (h.foldl step s) = latest (field s) (h.filterMap pick) := by
  induction h generalizing s with
  | nil => rfl
  | cons c l ih =>
    rw [List.foldl_cons, ih, hs, List.filterMap_cons]
    cases pick c with
    | none => rfl
    | some v => rw [latest_cons]; rfl

/-- If no call of a history touches a field, it stays. -/
theorem unmoved_run {σ γ α : Type} (step : σ → γ → σ) (field : σ → α)
    (hs : ∀ s c, field (step s c) = field s) (s : σ) (h : List γ) : field (h.foldl step s) = field s := by
  induction h generalizing s with
  | nil => rfl
  | cons c l ih => rw [List.foldl_cons, ih, hs]

/-! ### Files -/

/-- A call of one of the setters of a file. -/
inductive Spec.FileCall
  | name (v : Option Bytes) | date (v : Option Bytes) | checksum (v : Option Bytes) | uniqueId (v : Option Bytes)
  | fileFormat (v : Option Bytes) | preview (v : Option Preview) | metadata (v : Option FileMeta) | type (t : Nat)

/-- Making the call. -/
def Spec.FileCall.run (f : File) : FileCall → File
  | name v => f.setName v
  | date v => f.setDate v
  | checksum v => f.setChecksum v
  | uniqueId v => f.setUniqueId v
  | fileFormat v => f.setFileFormat v
  | preview v => f.setPreview v
  | metadata v => f.setMetadata v
  | type t => f.addType t

/-- **C47.** Files: each text, the preview and the metadata are the last ones given to their own setter, NULL included; the kinds of content
    only grow, by the bits given and, with every setting of the preview (to NULL too), by the bit of preview files; everything else stays. -/
theorem C47_file (f : File) (h : List FileCall) :
    let g := h.foldl FileCall.run f
    g.name = latest f.name (h.filterMap fun | .name v => some v | _ => none) ∧
    g.date = latest f.date (h.filterMap fun | .date v => some v | _ => none) ∧
    g.checksum = latest f.checksum (h.filterMap fun | .checksum v => some v | _ => none) ∧
    g.uniqueId = latest f.uniqueId (h.filterMap fun | .uniqueId v => some v | _ => none) ∧
    g.fileFormat = latest f.fileFormat (h.filterMap fun | .fileFormat v => some v | _ => none) ∧
    g.preview = latest f.preview (h.filterMap fun | .preview v => some v | _ => none) ∧
    g.metadata = latest f.metadata (h.filterMap fun | .metadata v => some v | _ => none) ∧
    (∀ i, g.types.testBit i = (f.types.testBit i || h.any fun | .type t => t.testBit i | .preview _ => i == 1 | _ => false)) ∧
    g.size = f.size ∧ g.id = f.id ∧ g.parentId = f.parentId ∧
    g.startFrame = f.startFrame ∧ g.startByte = f.startByte ∧ g.endFrame = f.endFrame ∧ g.endByte = f.endByte := by
  refine ⟨latest_run _ File.name _ (fun s c => ?_) f h, latest_run _ File.date _ (fun s c => ?_) f h, latest_run _ File.checksum _ (fun s c => ?_) f h,
    latest_run _ File.uniqueId _ (fun s c => ?_) f h, latest_run _ File.fileFormat _ (fun s c => ?_) f h,
    latest_run _ File.preview _ (fun s c => ?_) f h, latest_run _ File.metadata _ (fun s c => ?_) f h, fun i => ?_,
    unmoved_run _ File.size (fun s c => ?_) f h, unmoved_run _ File.id (fun s c => ?_) f h, unmoved_run _ File.parentId (fun s c => ?_) f h,
    unmoved_run _ File.startFrame (fun s c => ?_) f h, unmoved_run _ File.startByte (fun s c => ?_) f h,
    unmoved_run _ File.endFrame (fun s c => ?_) f h, unmoved_run _ File.endByte (fun s c => ?_) f h⟩
  case refine_8 =>
    induction h generalizing f with
    | nil => simp
    | cons c l ih =>
      rw [List.foldl_cons, ih]
      have hb : ∀ i, Nat.testBit 2 i = (i == 1) := by
        intro i
        have := Nat.testBit_two_pow (n := 1) (m := i)
        rw [show (2 : Nat) = 2 ^ 1 from rfl, this, Bool.beq_eq_decide_eq]
        exact decide_eq_decide.mpr ⟨Eq.symm, Eq.symm⟩
      cases c <;> simp [FileCall.run, File.setName, File.setDate, File.setChecksum, File.setUniqueId, File.setFileFormat, File.setPreview,
        File.setMetadata, File.addType, TYPE_PREVIEW, Nat.testBit_or, hb, Bool.or_assoc]
  all_goals cases c with
    | preview v => first | rfl | (cases v <;> simp [FileCall.run, File.setPreview, preview_clone])
    | metadata v => first | rfl | (cases v <;> simp [FileCall.run, File.setMetadata, fileMeta_clone])
    | _ => rfl

/-! ### The other objects -/

/-- **C47.** Reels and previews: the id, or the resolution, is the last one given; the files, or the pages, stay. -/
theorem C47_reel_preview (r : Reel) (p : Preview) (h : List (Option Bytes)) (k : List Int) :
    (h.foldl Reel.setId r).id = latest r.id h ∧ (h.foldl Reel.setId r).files = r.files ∧
    (k.foldl Preview.setDpi p).dpi = latest p.dpi k ∧ (k.foldl Preview.setDpi p).pages = p.pages := by
  have e1 := latest_run Reel.setId Reel.id some (fun _ _ => rfl) r h
  have e2 := latest_run Preview.setDpi Preview.dpi some (fun _ _ => rfl) p k
  rw [List.filterMap_some] at e1 e2
  exact ⟨e1, unmoved_run Reel.setId Reel.files (fun _ _ => rfl) r h, e2, unmoved_run Preview.setDpi Preview.pages (fun _ _ => rfl) p k⟩

/-- A call of one of the setters of a table of contents. -/
inductive Spec.TocCall
  | version (v : Option Bytes) | indexType (v : Option Bytes) | jobId (v : Option Bytes) | reelId (v : Option Bytes)

/-- Making the call. -/
def Spec.TocCall.run (t : TocData) : TocCall → TocData
  | version v => t.setVersion v
  | indexType v => t.setIndexType v
  | jobId v => t.setJobId v
  | reelId v => t.setReelId v

/-- **C47.** Tables of contents. -/
theorem C47_toc (t : TocData) (h : List TocCall) :
    let g := h.foldl TocCall.run t
    g.version = latest t.version (h.filterMap fun | .version v => some v | _ => none) ∧
    g.indexType = latest t.indexType (h.filterMap fun | .indexType v => some v | _ => none) ∧
    g.jobId = latest t.jobId (h.filterMap fun | .jobId v => some v | _ => none) ∧
    g.reelId = latest t.reelId (h.filterMap fun | .reelId v => some v | _ => none) ∧
    g.reels = t.reels ∧ g.metadata = t.metadata ∧ g.layouts = t.layouts := by
  refine ⟨latest_run _ TocData.version _ (fun s c => ?_) t h, latest_run _ TocData.indexType _ (fun s c => ?_) t h,
    latest_run _ TocData.jobId _ (fun s c => ?_) t h, latest_run _ TocData.reelId _ (fun s c => ?_) t h,
    unmoved_run _ TocData.reels (fun s c => ?_) t h, unmoved_run _ TocData.metadata (fun s c => ?_) t h,
    unmoved_run _ TocData.layouts (fun s c => ?_) t h⟩
  all_goals cases c <;> rfl

/-- A call of one of the setters of the administrative metadata. -/
inductive Spec.AdminCall
  | reelId (v : Option Bytes) | printReelId (v : Option Bytes) | title (v : Option Bytes) | description (v : Option Bytes)
  | creator (v : Option Bytes) | creationDate (v : Option Bytes)

/-- Making the call. -/
def Spec.AdminCall.run (a : Admin) : AdminCall → Admin
  | reelId v => a.setReelId v
  | printReelId v => a.setPrintReelId v
  | title v => a.setTitle v
  | description v => a.setDescription v
  | creator v => a.setCreator v
  | creationDate v => a.setCreationDate v

/-- **C47.** Administrative metadata. -/
theorem C47_admin (a : Admin) (h : List AdminCall) :
    let g := h.foldl AdminCall.run a
    g.reelId = latest a.reelId (h.filterMap fun | .reelId v => some v | _ => none) ∧
    g.printReelId = latest a.printReelId (h.filterMap fun | .printReelId v => some v | _ => none) ∧
    g.title = latest a.title (h.filterMap fun | .title v => some v | _ => none) ∧
    g.description = latest a.description (h.filterMap fun | .description v => some v | _ => none) ∧
    g.creator = latest a.creator (h.filterMap fun | .creator v => some v | _ => none) ∧
    g.creationDate = latest a.creationDate (h.filterMap fun | .creationDate v => some v | _ => none) := by
  refine ⟨latest_run _ Admin.reelId _ (fun s c => ?_) a h, latest_run _ Admin.printReelId _ (fun s c => ?_) a h,
    latest_run _ Admin.title _ (fun s c => ?_) a h, latest_run _ Admin.description _ (fun s c => ?_) a h,
    latest_run _ Admin.creator _ (fun s c => ?_) a h, latest_run _ Admin.creationDate _ (fun s c => ?_) a h⟩
  all_goals cases c <;> rfl

/-- Non-vacuity: names come and go, the preview bit stays. -/
example : [FileCall.name (some (b! "a")), .preview none, .name none, .type 1, .date (some (b! "d"))].foldl FileCall.run File.create =
    { File.create with types := 3, date := some (b! "d") } := by decide

end Afs
