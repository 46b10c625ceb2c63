import Verif.Proof.Relaid2
/-! # Loading documents that differ in what the library does not know: files, reels, tables of contents, control data -/
namespace Afs
open Spec Xml Spec.Extended
open Spec.Relaid (textElements SameText SameStart isCData)

/-- A search for a text element, with what is done with its text. -/
theorem orel_text {α : Type} {b : Bool} {x y : Node} (h : SameBelow b x y) {nm : Bytes} (hn : realName nm = true) (ht : nm ∈ textElements)
    (none' : α) (f : Option Bytes → α) :
    (match find x nm with | none => none' | some n => f (nodeText (some n))) =
      match find y nm with | none => none' | some n => f (nodeText (some n)) := by
  have hb := below_text h hn ht
  revert hb
  generalize find x nm = d1
  generalize find y nm = d2
  intro hb
  cases d1 <;> cases d2 <;> first | cases hb.2 | skip
  · rfl
  · exact congrArg f hb.1

theorem nodeTextSafe_congr {x y : Option Node} (h : nodeText x = nodeText y) (d : Bytes) : nodeTextSafe x d = nodeTextSafe y d := by
  unfold nodeTextSafe; rw [h]

namespace File

def stepSize (f : File) (n : Node) : File :=
  match find n (b! "size") with
  | none => f
  | some s => { f with size := strtol ((nodeTextSafe (some s) (b! "0")).getD []) }

def stepSum (f : File) (n : Node) : File := { f with checksum := nodeTextSafe (find n (b! "checksum")) [] }

theorem stepSize_relaid (f : File) {b : Bool} {x y : Node} (h : Extended b x y) : stepSize f x = stepSize f y :=
  orel_text (relaid_below h) (nm := b! "size") rfl (by decide) f fun t =>
    { f with size := strtol (((match t with | none => some (b! "0") | some t => some t : Option Bytes)).getD []) }

theorem stepSum_relaid (f : File) {b : Bool} {x y : Node} (h : Extended b x y) : stepSum f x = stepSum f y := by
  unfold stepSum
  rw [nodeTextSafe_congr (relaid_nodeText h (nm := b! "checksum") rfl (by decide))]

def stepV1 (f : File) (n : Node) : File :=
  let f := match find n (b! "start") with
    | none => f
    | some s => { f with
        startFrame := (intElement s (b! "frame")).getD f.startFrame
        startByte := (intElement s (b! "byte")).getD f.startByte }
  match find n (b! "end") with
  | none => f
  | some s => { f with
      endFrame := (intElement s (b! "frame")).getD f.endFrame
      endByte := (intElement s (b! "byte")).getD f.endByte }

def stepV2 (f : File) (n : Node) : File :=
  let f := match find n (b! "start") with
    | none => f
    | some s => { f with
        startFrame := (intAttr s (b! "frame")).getD f.startFrame
        startByte := (intAttr s (b! "byte")).getD f.startByte }
  match find n (b! "end") with
  | none => f
  | some s => { f with
      endFrame := (intAttr s (b! "frame")).getD f.endFrame
      endByte := (intAttr s (b! "byte")).getD f.endByte }

theorem loadDataV1_steps (f : File) (n : Node) : f.loadDataV1 n = stepV1 (stepSum (stepSize f n) n) n := rfl
theorem loadDataV2_steps (f : File) (n : Node) : f.loadDataV2 n = stepV2 (stepSum (stepSize f n) n) n := rfl

theorem loadDataV1_relaid (f : File) {b : Bool} {x y : Node} (h : Extended b x y) : f.loadDataV1 x = f.loadDataV1 y := by
  rw [loadDataV1_steps, loadDataV1_steps, stepSize_relaid f h, stepSum_relaid _ h]
  generalize stepSum _ y = f
  unfold stepV1
  have h1 := relaid_find h (nm := b! "start") rfl
  have h2 := relaid_find h (nm := b! "end") rfl
  revert h1 h2
  generalize find x (b! "start") = s1
  generalize find y (b! "start") = s2
  generalize find x (b! "end") = e1
  generalize find y (b! "end") = e2
  intro h1 h2
  cases h1 with
  | none =>
    cases h2 with
    | none => rfl
    | some h2 =>
      simp only [relaid_intElement h2 (nm := b! "frame") rfl (by decide), relaid_intElement h2 (nm := b! "byte") rfl (by decide)]
  | some h1 =>
    cases h2 with
    | none =>
      simp only [relaid_intElement h1 (nm := b! "frame") rfl (by decide), relaid_intElement h1 (nm := b! "byte") rfl (by decide)]
    | some h2 =>
      simp only [relaid_intElement h1 (nm := b! "frame") rfl (by decide), relaid_intElement h1 (nm := b! "byte") rfl (by decide),
        relaid_intElement h2 (nm := b! "frame") rfl (by decide), relaid_intElement h2 (nm := b! "byte") rfl (by decide)]

theorem loadDataV2_relaid (f : File) {b : Bool} {x y : Node} (h : Extended b x y) : f.loadDataV2 x = f.loadDataV2 y := by
  rw [loadDataV2_steps, loadDataV2_steps, stepSize_relaid f h, stepSum_relaid _ h]
  generalize stepSum _ y = f
  unfold stepV2
  have h1 := relaid_find h (nm := b! "start") rfl
  have h2 := relaid_find h (nm := b! "end") rfl
  revert h1 h2
  generalize find x (b! "start") = s1
  generalize find y (b! "start") = s2
  generalize find x (b! "end") = e1
  generalize find y (b! "end") = e2
  intro h1 h2
  cases h1 with
  | none =>
    cases h2 with
    | none => rfl
    | some h2 => simp (disch := decide) only [relaid_intAttr h2]
  | some h1 =>
    cases h2 with
    | none => simp (disch := decide) only [relaid_intAttr h1]
    | some h2 => simp (disch := decide) only [relaid_intAttr h1, relaid_intAttr h2]

def stepName (f : File) (n : Node) : File :=
  match find n (b! "name") with
  | none => f
  | some x => { f with name := nodeText (some x) }

def stepUnique (f : File) (n : Node) : File :=
  match find n (b! "uniqueId") with
  | none => f
  | some x => { f with uniqueId := nodeText (some x) }

def stepDate (f : File) (n : Node) : File :=
  match find n (b! "date") with
  | none => f
  | some x => { f with date := nodeText (some x) }

def stepFormat (f : File) (n : Node) : File :=
  { f with fileFormat := match strClone (n.getAttr (b! "formatId")) with
    | none => some (b! "undefined")
    | some s => some s }

def stepId (f : File) (n : Node) : File := { f with id := (intElement n (b! "id")).getD f.id }

def stepParent (f : File) (n : Node) : File :=
  { f with parentId := match intElement n (b! "parentId") with
      | some v => v
      | none => match intElement n (b! "parentid") with
        | some v => v
        | none => FILE_NO_PARENT }

theorem loadFields_steps (f : File) (n : Node) :
    f.loadFields n = stepParent (stepDate (stepUnique (stepId (stepName (stepFormat f n) n) n) n) n) n := rfl

theorem loadFields_relaid (f : File) {b : Bool} {x y : Node} (h : Extended b x y) : f.loadFields x = f.loadFields y := by
  have hb := relaid_below h
  have e1 : ∀ f, stepFormat f x = stepFormat f y := fun f => by unfold stepFormat; rw [relaid_attr h (by decide)]
  have e2 : ∀ f, stepName f x = stepName f y := fun f => orel_text hb (nm := b! "name") rfl (by decide) f fun t => { f with name := t }
  have e3 : ∀ f, stepId f x = stepId f y := fun f => by
    unfold stepId; rw [relaid_intElement h (nm := b! "id") rfl (by decide)]
  have e4 : ∀ f, stepUnique f x = stepUnique f y := fun f =>
    orel_text hb (nm := b! "uniqueId") rfl (by decide) f fun t => { f with uniqueId := t }
  have e5 : ∀ f, stepDate f x = stepDate f y := fun f => orel_text hb (nm := b! "date") rfl (by decide) f fun t => { f with date := t }
  have e6 : ∀ f, stepParent f x = stepParent f y := fun f => by
    unfold stepParent
    rw [relaid_intElement h (nm := b! "parentId") rfl (by decide), relaid_intElement h (nm := b! "parentid") rfl (by decide)]
  rw [loadFields_steps, loadFields_steps, e1, e2, e3, e4, e5, e6]

theorem loadPreview_relaid (f : File) {b : Bool} {x y : Node} (h : Extended b x y) : f.loadPreview x = f.loadPreview y := by
  have h1 := relaid_find h (nm := b! "preview") rfl
  unfold loadPreview
  revert h1
  generalize find x (b! "preview") = s1
  generalize find y (b! "preview") = s2
  intro h1
  cases h1 with
  | none => rfl
  | some h1 => simp only [Preview.loadXml_relaid _ (relaid_doc h1)]

theorem loadMetadata_relaid (f : File) {b : Bool} {x y : Node} (h : Extended b x y) : f.loadMetadata x = f.loadMetadata y := by
  have h1 := relaid_find h (nm := b! "metadata") rfl
  unfold loadMetadata
  revert h1
  generalize find x (b! "metadata") = s1
  generalize find y (b! "metadata") = s2
  intro h1
  cases h1 with
  | none => rfl
  | some h1 => simp only [FileMeta.loadXml_relaid _ (relaid_doc h1)]

theorem orel_isSome {R : Node → Node → Prop} {a b : Option Node} (h : ORel R a b) : a.isSome = b.isSome := by cases h <;> rfl

theorem loadDataPart_relaid (f : File) {b : Bool} {x y : Node} (h : Extended b x y) : f.loadDataPart x = f.loadDataPart y := by
  have h1 := relaid_findUnder h (b! "file") (nm := b! "data") rfl
  unfold loadDataPart
  rw [orel_isSome (relaid_find h (nm := b! "size") rfl), orel_isSome (relaid_find h (nm := b! "start") rfl),
    orel_isSome (relaid_find h (nm := b! "end") rfl), loadDataV1_relaid f h]
  revert h1
  generalize findUnder x (b! "file") (b! "data") = s1
  generalize findUnder y (b! "file") (b! "data") = s2
  intro h1
  cases h1 with
  | none => rfl
  | some h1 => simp only [loadDataV2_relaid f h1]

theorem loadXml_relaid (f : File) {t u : Node} (h : ExtendedDoc t u) : f.loadXml t = f.loadXml u := by
  have hs := doc_selfOrFind h (nm := b! "file") rfl
  unfold loadXml
  revert hs
  generalize selfOrFind t (b! "file") = a
  generalize selfOrFind u (b! "file") = b
  intro hs
  cases hs with
  | none => rfl
  | some hr => simp only [loadFields_relaid _ hr.1, loadPreview_relaid _ hr.1, loadMetadata_relaid _ hr.1, loadDataPart_relaid _ hr.1]

end File

theorem Files.loadLoop_relaid {l m : List Node} (h : List.Forall₂ (Extended false) l m) (s : Files) : s.loadLoop l = s.loadLoop m := by
  induction h generalizing s with
  | nil => rfl
  | cons h _ ih =>
    rw [Files.loadLoop, Files.loadLoop, File.loadXml_relaid _ (relaid_doc h)]
    simp only [ih]

theorem Files.loadXml_relaid (s : Files) {t u : Node} (h : ExtendedDoc t u) : s.loadXml t = s.loadXml u :=
  Files.loadLoop_relaid (doc_findAll h rfl) s

theorem Reel.loadXml_relaid (r : Reel) {t u : Node} (h : ExtendedDoc t u) : r.loadXml t = r.loadXml u := by
  have hs := doc_selfOrFind h (nm := b! "reel") rfl
  unfold Reel.loadXml
  revert hs
  generalize selfOrFind t (b! "reel") = a
  generalize selfOrFind u (b! "reel") = b
  intro hs
  cases hs with
  | none => rfl
  | @some a b hr =>
    have h1 := below_text (relaid_below hr.1) (nm := b! "id") rfl (by decide)
    have h2 := relaid_find hr.1 (nm := b! "files") rfl
    dsimp only
    revert h1 h2
    generalize find a (b! "id") = a1
    generalize find b (b! "id") = a2
    generalize find a (b! "files") = b1
    generalize find b (b! "files") = b2
    intro h1 h2
    cases a1 <;> cases a2 <;> first | cases h1.2 | skip
    · rfl
    · dsimp only
      rw [h1.1]
      cases h2 with
      | none => rfl
      | some h2 => simp only [Files.loadXml_relaid _ (relaid_doc h2)]

namespace Reels

theorem after_real {nm mm : Bytes} (hn : realName nm = true) (hm : realName mm = true) (l : List Node) :
    (l.dropWhile fun x => !named nm x).filter (named mm) =
      ((l.filter realNode).dropWhile fun x => !named nm x).filter (named mm) := by
  induction l with
  | nil => rfl
  | cons x l ih =>
    rw [List.filter_cons, List.dropWhile_cons]
    cases hx : named nm x with
    | false =>
      simp only [Bool.not_false, if_true]
      split
      · rw [List.dropWhile_cons]
        simp only [hx, Bool.not_false, if_true]
        exact ih
      · exact ih
    | true =>
      rw [named_real hn hx]
      simp only [Bool.not_true, Bool.false_eq_true, if_false, if_true]
      rw [List.dropWhile_cons]
      simp only [hx, Bool.not_true, Bool.false_eq_true, if_false]
      have := filter_real_named hm (x :: l)
      rw [List.filter_cons, named_real hn hx, if_pos rfl] at this
      exact this.symm

theorem forall2_dropWhile {R : Node → Node → Prop} {p : Node → Bool} (hp : ∀ x y, R x y → p x = p y) {l m : List Node}
    (h : List.Forall₂ R l m) : List.Forall₂ R (l.dropWhile p) (m.dropWhile p) := by
  induction h with
  | nil => exact .nil
  | @cons x y l m h ht ih =>
    rw [List.dropWhile_cons, List.dropWhile_cons, ← hp x y h]
    split
    · exact ih
    · exact .cons h ht

theorem loadNodes_relaid {t u : Node} (h : ExtendedDoc t u) : List.Forall₂ (Extended false) (loadNodes t) (loadNodes u) := by
  unfold loadNodes
  rw [← doc_named h (nm := b! "reels") rfl]
  split
  · exact doc_findAll h rfl
  · have h1 := doc_find h (nm := b! "reels") rfl
    have h2 : List.Forall₂ (Extended false) (((descendants t).dropWhile fun x => !named (b! "reels") x).filter (named (b! "reel")))
        (((descendants u).dropWhile fun x => !named (b! "reels") x).filter (named (b! "reel"))) := by
      rw [after_real rfl rfl, after_real rfl rfl (descendants u)]
      exact forall2_filter (R := Extended false) (fun x y h => relaid_named h _)
        (forall2_dropWhile (R := Extended false) (fun x y h => by rw [relaid_named h]) (doc_below h))
    revert h1
    generalize find t (b! "reels") = a
    generalize find u (b! "reels") = b
    intro h1
    cases h1 with
    | none => exact .nil
    | @some a b hr =>
      have h3 := File.orel_isSome (relaid_find hr (nm := b! "reel") rfl)
      dsimp only
      have h4 : (find a (b! "reel")).isNone = (find b (b! "reel")).isNone := by
        rw [← Option.not_isSome, ← Option.not_isSome, h3]
      rw [h4]
      split
      · exact .nil
      · exact h2

theorem loadLoop_relaid {l m : List Node} (h : List.Forall₂ (Extended false) l m) (s : Reels) : s.loadLoop l = s.loadLoop m := by
  induction h generalizing s with
  | nil => rfl
  | cons h _ ih =>
    rw [Reels.loadLoop, Reels.loadLoop, Reel.loadXml_relaid _ (relaid_doc h)]
    simp only [ih]

theorem loadXml_relaid (s : Reels) {t u : Node} (h : ExtendedDoc t u) : s.loadXml t = s.loadXml u :=
  loadLoop_relaid (loadNodes_relaid h) s

end Reels

namespace TocData

theorem loadFields_relaid (t : TocData) {b : Bool} {x y : Node} (h : Extended b x y) : t.loadFields x = t.loadFields y := by
  unfold loadFields
  have hb := relaid_below h
  rw [relaid_attr h (by decide)]
  have e := fun (nm : Bytes) (hn : realName nm = true) (ht : nm ∈ textElements) (old : Option Bytes) => orel_text hb hn ht old id
  congr 1
  · exact e (b! "indexType") rfl (by decide) t.indexType
  · exact e (b! "jobId") rfl (by decide) t.jobId
  · exact e (b! "reelId") rfl (by decide) t.reelId

theorem loadMeta_relaid {b : Bool} {x y : Node} (h : Extended b x y) : loadMeta x = loadMeta y := by
  have h1 := relaid_findUnder h (b! "Index") (nm := b! "metadata") rfl
  unfold loadMeta
  revert h1
  generalize findUnder x (b! "Index") (b! "metadata") = s1
  generalize findUnder y (b! "Index") (b! "metadata") = s2
  intro h1
  cases h1 with
  | none => rfl
  | some h1 => simp only [TocMeta.loadXml_relaid _ (relaid_doc h1)]

theorem loadLayouts_relaid {b : Bool} {x y : Node} (h : Extended b x y) : loadLayouts x = loadLayouts y := by
  have h1 := relaid_find h (nm := b! "layoutDefinitions") rfl
  unfold loadLayouts
  revert h1
  generalize find x (b! "layoutDefinitions") = s1
  generalize find y (b! "layoutDefinitions") = s2
  intro h1
  cases h1 with
  | none => rfl
  | some h1 => simp only [LayoutDefs.loadXml_relaid _ (relaid_doc h1)]

theorem loadReels_relaid {b : Bool} {x y : Node} (h : Extended b x y) : loadReels x = loadReels y := by
  have h1 := relaid_find h (nm := b! "reels") rfl
  unfold loadReels
  revert h1
  generalize find x (b! "reels") = s1
  generalize find y (b! "reels") = s2
  intro h1
  cases h1 with
  | none => rfl
  | some h1 => simp only [Reels.loadXml_relaid _ (relaid_doc h1)]

theorem loadXml_relaid (s : TocData) {t u : Node} (h : ExtendedDoc t u) : s.loadXml t = s.loadXml u := by
  have hs := doc_selfOrFind h (nm := b! "Index") rfl
  unfold loadXml
  revert hs
  generalize selfOrFind t (b! "Index") = a
  generalize selfOrFind u (b! "Index") = b
  intro hs
  cases hs with
  | none => rfl
  | some hr => simp only [loadFields_relaid _ hr.1, loadMeta_relaid hr.1, loadLayouts_relaid hr.1, loadReels_relaid hr.1]

end TocData

theorem tagText_relaid {b : Bool} {x y : Node} (h : Extended b x y) {nm : Bytes} (hn : realName nm = true) (ht : nm ∈ textElements) :
    Admin.tagText x nm = Admin.tagText y nm :=
  orel_text (relaid_below h) hn ht none fun t => some (t.getD [])

theorem Admin.loadXml_relaid (s : Admin) {t u : Node} (h : ExtendedDoc t u) : s.loadXml t = s.loadXml u := by
  have hs := doc_find h (nm := b! "AdministrativeMetadata") rfl
  unfold loadXml
  revert hs
  generalize find t (b! "AdministrativeMetadata") = a
  generalize find u (b! "AdministrativeMetadata") = b
  intro hs
  cases hs with
  | none => rfl
  | some hr =>
    dsimp only
    rw [tagText_relaid hr (nm := b! "ReelId") rfl (by decide), tagText_relaid hr (nm := b! "PrintReelId") rfl (by decide),
      tagText_relaid hr (nm := b! "Title") rfl (by decide), tagText_relaid hr (nm := b! "Description") rfl (by decide),
      tagText_relaid hr (nm := b! "Creator") rfl (by decide), tagText_relaid hr (nm := b! "CreationDate") rfl (by decide)]

section
variable {L : ConfigLib}

theorem kids_named {b : Bool} {nm : Bytes} (hn : realName nm = true) : ∀ {cs ds : List Node}, Kids b cs ds →
    List.Forall₂ (Extended b) (cs.filter (named nm)) (ds.filter (named nm))
  | _, _, .nil => .nil
  | _, _, .left (x := x) h hk => by
    have : ¬ named nm x = true := fun he => by have := (foreign_under h).1; rw [named_real hn he] at this; cases this
    rw [List.filter_cons_of_neg this]; exact kids_named hn hk
  | _, _, .right (x := x) h hk => by
    have : ¬ named nm x = true := fun he => by have := (foreign_under h).1; rw [named_real hn he] at this; cases this
    rw [List.filter_cons_of_neg this]; exact kids_named hn hk
  | _, _, .cons (x := x) (y := y) h hk => by
    rw [List.filter_cons, List.filter_cons, relaid_named h]
    split
    · exact .cons h (kids_named hn hk)
    · exact kids_named hn hk

theorem relaid_childrenNamed {b : Bool} {x y : Node} (h : Extended b x y) {nm : Bytes} (hn : realName nm = true) :
    ∃ b', List.Forall₂ (Extended b') (x.children.filter (named nm)) (y.children.filter (named nm)) := by
  cases h with
  | mk _ hk _ _ => exact ⟨_, kids_named hn hk⟩

theorem foldl_relaid {α : Type} {b : Bool} {f : α → Node → α} (hf : ∀ a x y, Extended b x y → f a x = f a y) {l m : List Node}
    (h : List.Forall₂ (Extended b) l m) (a : α) : l.foldl f a = m.foldl f a := by
  induction h generalizing a with
  | nil => rfl
  | cons h _ ih => rw [List.foldl_cons, List.foldl_cons, hf _ _ _ h, ih]

namespace Format

theorem loadProperty_relaid (k : Bytes) (c : L.Config) {b : Bool} {x y : Node} (h : Extended b x y) : loadProperty k c x = loadProperty k c y := by
  unfold loadProperty; simp (disch := decide) only [relaid_attr h]

theorem loadClass_relaid (c : L.Config) {b : Bool} {x y : Node} (h : Extended b x y) : loadClass c x = loadClass c y := by
  obtain ⟨b', hc⟩ := relaid_childrenNamed h (nm := b! "property") rfl
  unfold loadClass loadVersion
  simp (disch := decide) only [relaid_attr h, foldl_relaid (fun a x y h => loadProperty_relaid _ a h) hc]

theorem loadConfig_relaid {b : Bool} {x y : Node} (h : Extended b x y) : (loadConfig x : L.Config) = loadConfig y := by
  obtain ⟨b', hc⟩ := relaid_childrenNamed h (nm := b! "class") rfl
  exact foldl_relaid (fun a x y h => loadClass_relaid a h) hc _

theorem loadXml_relaid (f : Format L) {t u : Node} (h : ExtendedDoc t u) : f.loadXml t = f.loadXml u := by
  have h1 := doc_find h (nm := b! "NULL") rfl
  have h2 := doc_find h (nm := b! "work") rfl
  unfold loadXml
  revert h1 h2
  generalize find t (b! "NULL") = a
  generalize find u (b! "NULL") = b
  generalize find t (b! "work") = c
  generalize find u (b! "work") = d
  intro h1 h2
  cases h1 with
  | some _ => rfl
  | none =>
    cases h2 with
    | none => rfl
    | some h2 => simp only [loadConfig_relaid h2]

end Format

theorem orel_files {a b : Option Node} (h : ORel (Extended false) a b) : a.map Files.create.loadXml = b.map Files.create.loadXml := by
  cases h with
  | none => rfl
  | some h => rw [Option.map_some, Option.map_some, Files.loadXml_relaid _ (relaid_doc h)]

theorem TechMeta.loadXml_relaid (s : TechMeta L) {t u : Node} (h : ExtendedDoc t u) : s.loadXml t = s.loadXml u := by
  have hs := doc_find h (nm := b! "TechnicalMetadata") rfl
  unfold loadXml
  revert hs
  generalize find t (b! "TechnicalMetadata") = a
  generalize find u (b! "TechnicalMetadata") = b
  intro hs
  cases hs with
  | none => rfl
  | @some a b hr =>
    have h1 := relaid_find hr (nm := b! "BoxerFormat") rfl
    have h2 := orel_files (relaid_find hr (nm := b! "Tocs") rfl)
    have h3 := orel_files (relaid_find hr (nm := b! "Applications") rfl)
    dsimp only
    unfold loadTocs loadApps
    rw [h2, h3]
    revert h1
    generalize find a (b! "BoxerFormat") = c
    generalize find b (b! "BoxerFormat") = d
    intro h1
    cases h1 with
    | none => rfl
    | some h1 =>
      unfold loadFormat
      simp only [Format.loadXml_relaid _ (relaid_doc h1)]

theorem ControlData.loadXml_relaid (s : ControlData L) {t u : Node} (h : ExtendedDoc t u) : s.loadXml t = s.loadXml u := by
  have h1 := doc_find h (nm := b! "AdministrativeMetadata") rfl
  have h2 := doc_find h (nm := b! "TechnicalMetadata") rfl
  unfold loadXml
  rw [Admin.loadXml_relaid _ h, TechMeta.loadXml_relaid _ h]
  revert h1 h2
  generalize find t (b! "AdministrativeMetadata") = a
  generalize find u (b! "AdministrativeMetadata") = b
  generalize find t (b! "TechnicalMetadata") = c
  generalize find u (b! "TechnicalMetadata") = d
  intro h1 h2
  cases h1 <;> cases h2 <;> rfl

end

end Afs
