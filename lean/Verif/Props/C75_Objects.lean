import Verif.Proof.Shape3
import Verif.Props.C63_Loading
import Verif.Props.C26_Toc
/-!
# C75: loading makes exactly the objects of what is loaded

C22–C26 say what values loading gives, C63 that it keeps the reference counts right.  Here both meet: in whatever state a program is, whatever the
document holds, loading it into a new object makes exactly the objects that the loaded value is made of (Spec/Shape.lean), whether it succeeds or not.
-/
namespace Afs
open Afs.Spec Afs.Refs Afs.Xml Afs.Objects

theorem loadsAs {w : LWorld} (hw : Reachable w) {α : Type} {k : Kind} {load : Heap → Nat → α → Res Loaded} {x : α} {ok : Bool} {ts : List ObjShape}
    {p : Nat} (l : Load) (hp : NewObject w p k) (hrun : l.run w.heap = load w.heap p x) (hl : l.Legal w.heap w.held) (hM : Makes k load x ok ts) :
    LoadsAs w l p k ok ts := by
  obtain ⟨cs, h1, h2, h3⟩ := hw
  have hg := lgood_of_run h1 (by omega) h3
  obtain ⟨r, hr, -, -, -⟩ := C63_result_and_loss cs w h1 h2 h3 l hl
  obtain ⟨-, rc, hc⟩ := hp
  have hab : Above w.heap := hg.inv.bound
  have hn : New w.heap p k rc := ⟨hc, alloc_lt hab ⟨_, hc⟩, hab⟩
  rw [hrun] at hr
  obtain ⟨ho, kids, raw, own⟩ := hM _ _ _ _ hn hr
  refine ⟨r, rc, kids, hrun.trans hr, ho, hc, raw.cell, own, fun y c hy hcy => ?_⟩
  rw [raw.same y (alloc_lt hab ⟨_, hcy⟩) hy]
  exact hcy

theorem newObject_is {w : LWorld} {p : Nat} {k : Kind} (hp : NewObject w p k) : Reach w.heap w.held p ∧ Is w.heap p k := by
  obtain ⟨h1, rc, h2⟩ := hp
  exact ⟨h1, _, h2, rfl⟩

variable {w : LWorld} {p : Nat}

/-- Previews: one page for each page loaded. -/
theorem C75_preview (hw : Reachable w) (hp : NewObject w p .preview) (d : Node) :
    LoadsAs w (.preview p (previewPlan d)) p .preview (Preview.create.loadXml d).1 (previewParts (Preview.create.loadXml d).2) :=
  loadsAs hw _ hp rfl (newObject_is hp) (preview_makes d)

/-- Metadata of a file: one source for each source loaded. -/
theorem C75_file_metadata (hw : Reachable w) (hp : NewObject w p .fileMeta) (d : Node) :
    LoadsAs w (.fileMeta p (fileMetaPlan d)) p .fileMeta (FileMeta.create.loadXml d).1 (fileMetaParts (FileMeta.create.loadXml d).2) :=
  loadsAs hw _ hp rfl (newObject_is hp) (fileMeta_makes d)

/-- Metadata of a table of contents. -/
theorem C75_toc_metadata (hw : Reachable w) (hp : NewObject w p .tocMeta) (d : Node) :
    LoadsAs w (.tocMeta p (tocMetaPlan d)) p .tocMeta (TocMeta.create.loadXml d).1 (tocMetaParts (TocMeta.create.loadXml d).2) :=
  loadsAs hw _ hp rfl (newObject_is hp) (tocMeta_makes d)

/-- Lists of sections. -/
theorem C75_sections (hw : Reachable w) (hp : NewObject w p .sections) (d : Node) :
    LoadsAs w (.sections p (sectionsPlan d)) p .sections (Sections.create.loadXml d).1 (sectionsParts (Sections.create.loadXml d).2) :=
  loadsAs hw _ hp rfl (newObject_is hp) (sections_makes d)

/-- A file entry: its preview and its metadata, if they are there. -/
theorem C75_file (hw : Reachable w) (hp : NewObject w p .file) (d : Node) :
    LoadsAs w (.file p (filePlan d)) p .file (File.create.loadXml d).1 (fileParts (File.create.loadXml d).2) :=
  loadsAs hw _ hp rfl (newObject_is hp) (file_makes d)

/-- Lists of files: the files before the first that fails. -/
theorem C75_files (hw : Reachable w) (hp : NewObject w p .files) (d : Node) :
    LoadsAs w (.files p (filesPlan d)) p .files (Files.create.loadXml d).1 (filesParts (Files.create.loadXml d).2) :=
  loadsAs hw _ hp rfl (newObject_is hp) (files_makes d)

/-- A reel. -/
theorem C75_reel (hw : Reachable w) (hp : NewObject w p .reel) (d : Node) :
    LoadsAs w (.reel p (reelPlan d)) p .reel (Reel.create.loadXml d).1 (reelParts (Reel.create.loadXml d).2) :=
  loadsAs hw _ hp rfl (newObject_is hp) (reel_makes d)

/-- Lists of reels. -/
theorem C75_reels (hw : Reachable w) (hp : NewObject w p .reels) (d : Node) :
    LoadsAs w (.reels p (reelsPlan d)) p .reels (Reels.create.loadXml d).1 (reelsParts (Reels.create.loadXml d).2) :=
  loadsAs hw _ hp rfl (newObject_is hp) (reels_makes d)

/-- A layout. -/
theorem C75_layout (hw : Reachable w) (hp : NewObject w p .layoutDef) (d : Node) :
    LoadsAs w (.layout p (layoutPlan d)) p .layoutDef (LayoutDef.create.loadXml d).1 (layoutParts (LayoutDef.create.loadXml d).2) :=
  loadsAs hw _ hp rfl (newObject_is hp) (layout_makes d)

/-- Lists of layouts, where loading is defined (see C46: a layout without id compares a NULL pointer). -/
theorem C75_layouts (hw : Reachable w) (hp : NewObject w p .layoutDefs) (d : Node) (v : Bool × LayoutDefs) (hv : LayoutDefs.create.loadXml d = .ok v) :
    LoadsAs w (.layouts p (layoutsPlan d)) p .layoutDefs v.1 (layoutsParts v.2) :=
  loadsAs hw _ hp rfl (newObject_is hp) (layouts_makes d v hv)

/-- A table of contents. -/
theorem C75_toc (hw : Reachable w) (hp : NewObject w p .tocData) (d : Node) (v : Bool × TocData) (hv : TocData.create.loadXml d = .ok v) :
    LoadsAs w (.toc p (tocPlan d)) p .tocData v.1 (tocParts v.2) :=
  loadsAs hw _ hp rfl (newObject_is hp) (toc_makes d v hv)

/-- Technical metadata. -/
theorem C75_technical (L : ConfigLib) (hw : Reachable w) (hp : NewObject w p .tech) (d : Node) :
    LoadsAs w (.tech p (techPlan L d)) p .tech ((TechMeta.create : TechMeta L).loadXml d).1 (techParts ((TechMeta.create : TechMeta L).loadXml d).2) := by
  obtain ⟨h1, h2⟩ := newObject_is hp
  refine loadsAs hw _ hp rfl ⟨h1, h2, ?_⟩ (tech_makes L d)
  unfold techFits techPlan
  cases find d (b! "TechnicalMetadata") with
  | none => trivial
  | some n =>
    dsimp only
    cases find n (b! "BoxerFormat") with
    | none => trivial
    | some b =>
      intro c _
      exact ⟨fun a => by simp, fun a ha => by simp at ha⟩

/-- Control data. -/
theorem C75_control (L : ConfigLib) (hw : Reachable w) (hp : NewObject w p .control) (d : Node) :
    LoadsAs w (.control p (controlPlan L d).1 (controlPlan L d).2) p .control ((ControlData.create : ControlData L).loadXml d).1
      (controlParts ((ControlData.create : ControlData L).loadXml d).2) :=
  loadsAs (load := fun h p x => loadControl h p x.1 x.2) (x := controlPlan L d) hw _ hp rfl (newObject_is hp) fun _ _ _ _ hn e => control_makes L d hn e

/-! ### From the text to the objects, and back -/

/-- A program creates a table of contents, loads it from a document that is accepted, and frees it: nothing is left allocated. -/
theorem C75_nothing_is_left (d : Node) (v : TocData) (hv : TocData.create.loadXml d = .ok (true, v)) :
    ∃ w, LWorld.start.run [.base (.create .tocData []), .load (.toc 0 (tocPlan d)), .base (.free 0)] = .ok w ∧
      w.held = [] ∧ w.lost = [] ∧ ∀ a, ¬ Live w.heap a := by
  have hl : LLegalRun LWorld.start [.base (.create .tocData []), .load (.toc 0 (tocPlan d)), .base (.free 0)] := by
    refine ⟨⟨fun a => by simp, fun a ha => by simp at ha⟩, fun w' h => ?_⟩
    obtain rfl := Res.ok.inj h
    refine ⟨⟨.held (by decide), ⟨_, rfl, rfl⟩⟩, fun w' h => ?_⟩
    obtain ⟨r, -, h⟩ := bind_ok_inv h
    obtain rfl := Res.ok.inj h
    refine ⟨List.mem_cons_self .., fun w' h => ?_⟩
    trivial
  obtain ⟨w, hw⟩ := C63_loading_programs_are_safe _ hl (by simp)
  obtain ⟨w1, h1, hw'⟩ := bind_ok_inv hw
  obtain rfl := Res.ok.inj h1
  obtain ⟨w2, h2, hw'⟩ := bind_ok_inv hw'
  obtain ⟨r, hr, h2⟩ := bind_ok_inv h2
  obtain rfl := Res.ok.inj h2
  obtain ⟨w3, h3, hw'⟩ := bind_ok_inv hw'
  obtain ⟨v3, h3, h4⟩ := bind_ok_inv h3
  obtain ⟨h', -, h3⟩ := bind_ok_inv h3
  obtain rfl := Res.ok.inj h3
  obtain rfl := Res.ok.inj h4
  obtain rfl := Res.ok.inj hw'
  have hreach : Reachable ⟨(Heap.empty.alloc .tocData []).1, [0], []⟩ :=
    ⟨[.base (.create .tocData [])], ⟨⟨fun a => by simp, fun a ha => by simp at ha⟩, fun _ _ => trivial⟩, by decide, rfl⟩
  have hnew : NewObject ⟨(Heap.empty.alloc .tocData []).1, [0], []⟩ 0 .tocData := ⟨.held (by decide), 1, rfl⟩
  have hok : (Load.toc 0 (tocPlan d)).ok = true := by
    obtain ⟨r', -, -, e1, e2, -⟩ := C75_toc hreach hnew d (true, v) hv
    obtain ⟨cs, c1, c2, c3⟩ := hreach
    obtain ⟨r'', e3, e4, -⟩ := C63_result_and_loss cs _ c1 c2 c3 (.toc 0 (tocPlan d)) (newObject_is hnew)
    rw [e1] at e3
    cases e3
    rw [← e4, e2]
  have hlost : r.lost = [] := by
    have hz := C63_success_on_a_new_object_loses_nothing (.toc 0 (tocPlan d)) _ _ (newObject_is hnew) ⟨_, rfl, rfl⟩ hok rfl
    obtain ⟨cs, c1, c2, c3⟩ := hreach
    obtain ⟨r'', e3, -, e5, -⟩ := C63_result_and_loss cs _ c1 c2 c3 (.toc 0 (tocPlan d)) (newObject_is hnew)
    have e3' : (Load.toc 0 (tocPlan d)).run (Heap.empty.alloc .tocData []).1 = .ok r'' := e3
    rw [show (Load.toc 0 (tocPlan d)).run (Heap.empty.alloc .tocData []).1 = .ok r from hr] at e3'
    cases e3'
    rw [hz] at e5
    exact List.eq_nil_of_length_eq_zero e5
  have hl2 : r.lost ++ ([] : List Nat) = [] := by rw [hlost]; rfl
  exact ⟨_, hw, rfl, hl2, fun a => C63_no_leak _ _ hl (by simp) hw rfl hl2 a⟩

/-- What was saved and is loaded again into a new table of contents: the text is read, and the objects are those of the saved value. -/
theorem C75_saved_and_loaded (hw : Reachable w) (hp : NewObject w p .tocData) (t : TocData) (h : t.storable)
    (h1 : t.metadata ≠ some ⟨none⟩ ∧ t.metadata ≠ some ⟨some []⟩) (h2 : t.layouts ≠ some ⟨none⟩ ∧ t.layouts ≠ some ⟨some []⟩)
    (h3 : t.reels ≠ some ⟨none⟩ ∧ t.reels ≠ some ⟨some []⟩) (compact : Bool) :
    ∃ s d, t.saveString compact = some s ∧ Xml.loadString s = some d ∧ LoadsAs w (.toc p (tocPlan d)) p .tocData true (tocParts t) := by
  obtain ⟨⟨s, e1, e2⟩, -⟩ := C26_toc t h h1 h2 h3 TocData.create compact
  unfold TocData.loadString loadFromString at e2
  split at e2
  · cases e2
  · cases hd : Xml.loadString s with
    | none => rw [hd] at e2; cases e2
    | some d =>
      rw [hd] at e2
      exact ⟨s, d, e1, hd, C75_toc hw hp d (true, t) e2⟩

/-! ### A concrete document -/

/-- A program that has created an object, of whatever type, is in a state where the theorems above apply. -/
theorem C75_created (k : Kind) : Reachable ⟨(Heap.empty.alloc k []).1, [0], []⟩ ∧ NewObject ⟨(Heap.empty.alloc k []).1, [0], []⟩ 0 k :=
  ⟨⟨[.base (.create k [])], ⟨⟨fun a => by simp, fun a ha => by simp at ha⟩, fun _ _ => trivial⟩, by simp, rfl⟩, .held (List.mem_cons_self ..), 1, rfl⟩

/-- A table of contents with all kinds of parts (C26), saved and loaded again. -/
example : ∃ s d, exToc.saveString false = some s ∧ Xml.loadString s = some d ∧
    LoadsAs ⟨(Heap.empty.alloc .tocData []).1, [0], []⟩ (.toc 0 (tocPlan d)) 0 .tocData true (tocParts exToc) :=
  C75_saved_and_loaded (C75_created _).1 (C75_created _).2 exToc exToc_storable (by decide) (by decide) (by decide) false

/-- A document with metadata, one reel and in it a file with a preview of two pages. -/
def c75Doc : Node :=
  .elem (b! "Index") [(b! "version", some (b! "1.2"))] [
    .elem (b! "metadata") [] [.elem (b! "source") [(b! "formatId", some (b! "f")), (b! "id", some (b! "1")), (b! "fileId", some (b! "2"))] []],
    .elem (b! "reels") [] [.elem (b! "reel") [] [.elem (b! "id") [] [.text (b! "r")], .elem (b! "files") [] [
      .elem (b! "file") [] [.elem (b! "name") [] [.text (b! "n")], .elem (b! "id") [] [.text (b! "3")], .elem (b! "date") [] [.text (b! "d")],
        .elem (b! "preview") [] [
          .elem (b! "pages") [(b! "layoutId", some (b! "l")), (b! "frame", some (b! "1")), (b! "section", some (b! "0")), (b! "count", some (b! "1")),
            (b! "dimension", some (b! "10x20")), (b! "overlap", some (b! "0x0"))] [],
          .elem (b! "pages") [(b! "layoutId", some (b! "l")), (b! "frame", some (b! "2")), (b! "section", some (b! "0")), (b! "count", some (b! "1")),
            (b! "dimension", some (b! "10x20")), (b! "overlap", some (b! "0x0"))] []]]]]]]

set_option maxRecDepth 100000 in
/-- Its objects. -/
theorem C75_example_value : ∃ ok v, TocData.create.loadXml c75Doc = .ok (ok, v) ∧ ok = true ∧ tocParts v =
    [.node .tocMeta [leaf .metaSource],
     .node .reels [.node .reel [.node .files [.node .file [.node .preview [leaf .page, leaf .page]]]]]] := ⟨_, _, rfl, by rfl, by rfl⟩

/-- The program that creates a table of contents and loads the document ends with these objects. -/
theorem C75_example : ∃ w r kids, LWorld.start.run [.base (.create .tocData [])] = .ok w ∧ (Load.toc 0 (tocPlan c75Doc)).run w.heap = .ok r ∧ r.ok = true ∧
    r.heap.cells 0 = some ⟨.tocData, 1, kids⟩ ∧ OwnsAll r.heap kids
      [.node .tocMeta [leaf .metaSource],
       .node .reels [.node .reel [.node .files [.node .file [.node .preview [leaf .page, leaf .page]]]]]] := by
  obtain ⟨ok, v, h1, rfl, h2⟩ := C75_example_value
  have hreach : Reachable ⟨(Heap.empty.alloc .tocData []).1, [0], []⟩ :=
    ⟨[.base (.create .tocData [])], ⟨⟨fun a => by simp, fun a ha => by simp at ha⟩, fun _ _ => trivial⟩, by decide, rfl⟩
  obtain ⟨r, rc, kids, e1, e2, e3, e4, e5, -⟩ := C75_toc (p := 0) hreach ⟨.held (by decide), 1, rfl⟩ c75Doc (true, v) h1
  have : rc = 1 := by
    have e3' : (Heap.empty.alloc .tocData []).1.cells 0 = some ⟨.tocData, rc, []⟩ := e3
    have e6 : (Heap.empty.alloc .tocData []).1.cells 0 = some ⟨.tocData, 1, []⟩ := rfl
    rw [e6] at e3'
    injection e3' with e
    injection e with _ e _
    exact e.symm
  subst this
  rw [h2] at e5
  exact ⟨_, r, kids, rfl, e1, e2, e4, e5⟩

end Afs
