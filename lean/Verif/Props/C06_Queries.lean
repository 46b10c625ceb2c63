import Verif.Props.C07_C08_Layouts
import Verif.Props.C06_Containers
import Verif.Model.Create
/-!
# C06, C08: the list of layout definitions as a container, and queries of absent objects
-/
namespace Afs
open Spec

/-- A definition is admitted to a list if it is valid and no definition of the list has its id. -/
def Spec.Admits (l : List LayoutDef) (x : LayoutDef) : Bool := x.isValid && l.all fun d => decide (d.id ≠ x.id)

theorem admits_eq : Admits = layoutOk := by
  funext l x
  rw [Admits, layoutOk]
  congr 1
  induction l with
  | nil => rfl
  | cons a l ih => rw [List.all_cons, List.any_cons, ih]; simp

/-- **C08.** A list of layout definitions holds exactly the admitted definitions of its history, in order: their number is the count and the
    i-th one is at index i, also when asked of a table of contents that holds the list. -/
theorem C08_layouts (ops : List (Option LayoutDef)) (t : TocData) :
    let kept := accepted Admits [] ops
    ∃ r, addAllLayouts LayoutDefs.create ops = .ok r ∧
      LayoutDefs.getCount (some r) = kept.length ∧ (∀ i, LayoutDefs.byIndex (some r) i = kept[i]?) ∧
      TocData.layoutCount { t with layouts := some r } = kept.length ∧
      (∀ i, TocData.layout (some { t with layouts := some r }) i = kept[i]?) := by
  intro kept
  obtain ⟨r, hr, hl⟩ := addAllLayouts_ok LayoutDefs.create ⟨by simp [LayoutDefs.create], by simp [LayoutDefs.create]⟩ ops
  have hk : r.defs.getD [] = kept := by rw [hl]; show accepted layoutOk [] ops = accepted Admits [] ops; rw [admits_eq]
  have hc : LayoutDefs.getCount (some r) = kept.length := by
    rw [← hk, LayoutDefs.getCount]; cases r.defs <;> rfl
  have hi : ∀ i, LayoutDefs.byIndex (some r) i = kept[i]? := by
    intro i
    rw [← hk]
    show vecGet r.defs i = _
    exact vecGet_eq _ _
  exact ⟨r, hr, hc, hi, hc, hi⟩

/-- **C06.** Every query of an absent object (NULL) has the answer it has for an empty one, whatever the other arguments: counts and sizes are 0,
    lookups and selections give NULL, frames are −1.  The two exceptions are in `C06_null_validity`. -/
theorem C06_null (i type : Nat) (k : Int) (d : Option LayoutDefs) (u : Option Bytes) :
    (File.getSize none = 0 ∧ File.durationFrames none = .ok 0) ∧
    (Files.count none = 0 ∧ Files.getToc none i = none ∧ Files.firstFrame none type = -1 ∧ Files.lastFrame none type d = .ok (-1) ∧
      Files.durationFrames none type d = .ok 0) ∧
    (Preview.pageCount none = 0 ∧ Preview.getPage none i = none ∧ Preview.startFrame none = -1 ∧ Preview.framesCount none d = .ok (false, 0)) ∧
    (FileMeta.sourcesCount none = 0 ∧ FileMeta.getSource none i = none) ∧ (TocMeta.sourcesCount none = 0 ∧ TocMeta.getSource none i = none) ∧
    (LayoutDefs.getCount none = 0 ∧ LayoutDefs.byIndex none i = none ∧ LayoutDefs.byId none u = .ok none ∧ LayoutDefs.byName none u = .ok none ∧
      LayoutDefs.has none u = .ok false) ∧
    (Sections.size none = 0 ∧ Sections.get none i = none) ∧
    (Reel.fileCount none = 0 ∧ Reel.fileByIndex none i = none ∧ Reel.fileById none k = none ∧ Reel.fileByUniqueId none u = .ok none ∧
      Reel.parentFiles none type = none ∧ Reel.childFiles none type = none ∧ Reel.standaloneFiles none type = none ∧
      Reel.firstFrame none type = -1 ∧ Reel.lastFrame none type = .ok (-1) ∧ Reel.frameCount none type = .ok 0 ∧ Reel.sizeBytes none = .ok 0) ∧
    (Reels.count none = 0 ∧ Reels.getReel none i = none) ∧
    (TocData.fileCount none = 0 ∧ TocData.frameCount none = .ok 0 ∧ TocData.reelByIndex none i = none ∧ TocData.reelById none u = none ∧
      TocData.fileById none k = none ∧ TocData.fileByUniqueId none u = .ok none ∧ TocData.metadataSource none i = none ∧
      TocData.layout none i = none ∧ TocData.usedLayouts none = .ok none ∧ TocData.firstFrame none = -1 ∧ TocData.lastFrame none = .ok (-1)) := by
  have hb : LayoutDefs.has none u = .ok false := by cases u <;> rfl
  refine ⟨⟨rfl, rfl⟩, ⟨rfl, rfl, rfl, rfl, rfl⟩, ⟨rfl, rfl, rfl, rfl⟩, ⟨rfl, rfl⟩, ⟨rfl, rfl⟩, ⟨rfl, rfl, ?_, ?_, hb⟩, ⟨rfl, rfl⟩,
    ⟨rfl, rfl, rfl, ?_, rfl, rfl, rfl, rfl, rfl, rfl, rfl⟩, ⟨rfl, rfl⟩, ⟨rfl, rfl, rfl, rfl, rfl, ?_, rfl, rfl, rfl, rfl, rfl⟩⟩ <;>
  · cases u with
    | none => rfl
    | some u => cases u <;> rfl

/-- **C06.** The same answers for empty objects, as they come from their constructors. -/
theorem C06_empty (i type : Nat) (k : Int) (d : Option LayoutDefs) (u : Option Bytes) :
    (Files.count (some Files.create) = 0 ∧ Files.getToc (some Files.create) i = none ∧ Files.firstFrame (some Files.create) type = -1 ∧
      Files.lastFrame (some Files.create) type d = .ok (-1) ∧ Files.durationFrames (some Files.create) type d = .ok 0) ∧
    (Preview.pageCount (some Preview.create) = 0 ∧ Preview.getPage (some Preview.create) i = none ∧ Preview.startFrame (some Preview.create) = -1) ∧
    (FileMeta.sourcesCount (some FileMeta.create) = 0 ∧ FileMeta.getSource (some FileMeta.create) i = none) ∧
    (TocMeta.sourcesCount (some TocMeta.create) = 0 ∧ TocMeta.getSource (some TocMeta.create) i = none) ∧
    (LayoutDefs.getCount (some LayoutDefs.create) = 0 ∧ LayoutDefs.byIndex (some LayoutDefs.create) i = none ∧
      LayoutDefs.byId (some LayoutDefs.create) u = .ok none ∧ LayoutDefs.byName (some LayoutDefs.create) u = .ok none ∧
      LayoutDefs.has (some LayoutDefs.create) u = .ok false) ∧
    (Reel.fileCount (some Reel.create) = 0 ∧ Reel.fileByIndex (some Reel.create) i = none ∧ Reel.fileById (some Reel.create) k = none ∧
      Reel.fileByUniqueId (some Reel.create) u = .ok none ∧ Reel.firstFrame (some Reel.create) type = -1 ∧
      Reel.lastFrame (some Reel.create) type = .ok (-1) ∧ Reel.frameCount (some Reel.create) type = .ok 0 ∧ Reel.sizeBytes (some Reel.create) = .ok 0) ∧
    (Reels.count (some Reels.create) = 0 ∧ Reels.getReel (some Reels.create) i = none) ∧
    (TocData.fileCount (some TocData.create) = 0 ∧ TocData.frameCount (some TocData.create) = .ok 0 ∧ TocData.reelByIndex (some TocData.create) i = none ∧
      TocData.reelById (some TocData.create) u = none ∧ TocData.fileById (some TocData.create) k = none ∧
      TocData.fileByUniqueId (some TocData.create) u = .ok none ∧ TocData.metadataSource (some TocData.create) i = none ∧
      TocData.layout (some TocData.create) i = none ∧ TocData.usedLayouts (some TocData.create) = .ok none ∧
      TocData.firstFrame (some TocData.create) = -1 ∧ TocData.lastFrame (some TocData.create) = .ok (-1)) := by
  have hl : ∀ d, Files.lastFrame (some Files.create) type d = .ok (-1) := by
    intro d
    show (if type = TYPE_ALL then _ else (.ok (-1) : Res Int)) = _
    split <;> rfl
  have hf : Files.firstFrame (some Files.create) type = -1 := rfl
  refine ⟨⟨rfl, ?_, hf, hl d, ?_⟩, ⟨rfl, rfl, rfl⟩, ⟨rfl, rfl⟩, ⟨rfl, rfl⟩, ⟨rfl, rfl, ?_, ?_, ?_⟩,
    ⟨rfl, ?_, rfl, ?_, ?_, ?_, ?_, rfl⟩, ⟨rfl, ?_⟩, ⟨rfl, rfl, rfl, ?_, rfl, ?_, rfl, rfl, rfl, rfl, rfl⟩⟩
  all_goals first
    | rfl
    | (cases u with
        | none => rfl
        | some u => cases u <;> rfl)
    | (rw [Files.durationFrames, hl, hf]; rfl)
    | (show (if _ then _ else _ : Int) = _; split <;> rfl)

/-- **C06.** The exceptions: a list that is absent is not valid, an empty one is, except for previews. -/
theorem C06_null_validity :
    (Files.isValid none = false ∧ Files.isValid (some Files.create) = true) ∧ (FileMeta.isValid none = false ∧ FileMeta.isValid (some FileMeta.create) = true) ∧
    (Reels.isValid none = false ∧ Reels.isValid (some Reels.create) = true) ∧ (LayoutDefs.isValid none = false ∧ LayoutDefs.isValid (some LayoutDefs.create) = true) ∧
    (Preview.isValid none = false ∧ Preview.isValid (some Preview.create) = false) ∧ TocMeta.isValid none = false := by decide

/-- A history of four additions: the second definition has the id of the first, the third has no sections, so two are kept. -/
example :
    let d : LayoutDef := ⟨some (b! "l1"), some (b! "a"), some ⟨some [⟨0, 0, 0, 10, 10, 0⟩]⟩⟩
    accepted Admits [] [some d, some { d with name := some (b! "b") }, some { d with id := some (b! "l2"), sections := none }, none,
      some { d with id := some (b! "l3") }] = [d, { d with id := some (b! "l3") }] := by decide +kernel

end Afs
