import Verif.Proof.Session
/-!
# Every object: what its functions do to files and documents (C73)
-/
namespace Afs.Session
open Afs Afs.Xml Afs.Spec.Session

variable {L : ConfigLib}

/-- `savedFile` with the rest of the disk and the lost documents. -/
def fileSpec (x : Any L) (v1 compact canOpen : Bool) (ok : Nat → Bool) (name : Bytes) (disk : Bytes → Option Bytes) :
    Res (Bool × (Bytes → Option Bytes) × Nat) :=
  match savedFile x v1 compact canOpen ok (disk name) with
  | .ub => .ub
  | .ok r => .ok (r.1, (fun n => if n = name then r.2 else disk n), count (!canOpen && losesWhenClosed x))

theorem update_self {α β : Type} [DecidableEq α] (f : α → β) (a : α) : (fun x => if x = a then f a else f x) = f := by
  funext x
  split
  · rename_i e; rw [e]
  · rfl

/-- The outcome for objects that are saved as a document with one element. -/
theorem out_docFile (lost : Nat) (allowed : Bool) (x : Option Node) (cb : SaveCb) (compact canOpen openFirst : Bool) (ok : Nat → Bool)
    (name : Bytes) (disk : Bytes → Option Bytes) :
    saveOut lost allowed (doc x) (fun t => .ok (Xml.saveFileOn ok (if compact then noCb else cb) t).2) canOpen openFirst name disk =
      (let r := if allowed = false then (false, disk name) else docFileOn canOpen ok openFirst cb compact x (disk name)
       .ok (r.1, (fun n => if n = name then r.2 else disk n),
         if canOpen = false ∧ allowed = true ∧ (openFirst = true ∨ x.isSome = true) then lost else 0)) := by
  cases allowed with
  | false => simp [saveOut, update_self]
  | true =>
    cases x with
    | none => cases canOpen <;> cases openFirst <;> simp [saveOut, doc, docFileOn, update_self, update] <;> rfl
    | some n => cases canOpen <;> simp [saveOut, doc, docFileOn, update_self, update] <;> rfl

theorem spec_of {x : Any L} {v1 compact canOpen : Bool} {ok : Nat → Bool} {name : Bytes} {disk : Bytes → Option Bytes} {r : Bool × Option Bytes}
    {k : Nat} (hs : savedFile x v1 compact canOpen ok (disk name) = .ok r) (hl : k = count (!canOpen && losesWhenClosed x)) :
    .ok (r.1, (fun n => if n = name then r.2 else disk n), k) = fileSpec x v1 compact canOpen ok name disk := by
  unfold fileSpec
  rw [hs, hl]

theorem undef_of {x : Any L} {v1 compact canOpen : Bool} {ok : Nat → Bool} {name : Bytes} {disk : Bytes → Option Bytes}
    (hs : savedFile x v1 compact canOpen ok (disk name) = .ub) : .ub = fileSpec x v1 compact canOpen ok name disk := by
  unfold fileSpec
  rw [hs]

theorem saveFile_ends (x : Any L) (v1 compact canOpen : Bool) (ok : Nat → Bool) (name : Bytes) (disk : Bytes → Option Bytes) :
    Ends (x.saveFile v1 compact canOpen ok name) disk (fileSpec x v1 compact canOpen ok name disk) := by
  cases x with
  | «section» x =>
    refine cast (congrArg (Ends _ disk) ?_) (saveDocOpenFill_ends false x.isValid (doc x.saveXml) _ canOpen name disk)
    exact (out_docFile 1 x.isValid x.saveXml Section.cb compact canOpen true ok name disk).trans
      (spec_of rfl (by cases canOpen <;> simp [losesWhenClosed, count]))
  | sections x =>
    refine cast (congrArg (Ends _ disk) ?_) (saveOpenDocFill_ends (Sections.isValid (some x)) (doc (Sections.saveXml (some x))) _ canOpen name disk)
    exact (out_docFile 0 (Sections.isValid (some x)) (Sections.saveXml (some x)) Sections.cb compact canOpen true ok name disk).trans
      (spec_of rfl (by cases canOpen <;> simp [losesWhenClosed, count]))
  | layout x =>
    refine cast (congrArg (Ends _ disk) ?_) (saveDocFillOpen_ends true (doc x.saveXml) _ canOpen name disk)
    exact (out_docFile 1 true x.saveXml LayoutDef.cb compact canOpen false ok name disk).trans
      (spec_of rfl (by cases canOpen <;> simp [losesWhenClosed, count]))
  | layouts x =>
    refine cast (congrArg (Ends _ disk) ?_) (saveDocOpenFill_ends false (LayoutDefs.isValid (some x)) (doc (LayoutDefs.saveXml (some x))) _ canOpen name disk)
    exact (out_docFile 1 (LayoutDefs.isValid (some x)) (LayoutDefs.saveXml (some x)) LayoutDefs.cb compact canOpen true ok name disk).trans
      (spec_of rfl (by cases canOpen <;> simp [losesWhenClosed, count]))
  | page x =>
    refine cast (congrArg (Ends _ disk) ?_) (saveDocOpenFill_ends false true (doc x.saveXml) _ canOpen name disk)
    exact (out_docFile 1 true x.saveXml Page.cb compact canOpen true ok name disk).trans
      (spec_of rfl (by cases canOpen <;> simp [losesWhenClosed, count]))
  | preview x =>
    refine cast (congrArg (Ends _ disk) ?_) (saveDocFillOpen_ends true (doc x.saveXml) _ canOpen name disk)
    exact (out_docFile 1 true x.saveXml Preview.cb compact canOpen false ok name disk).trans
      (spec_of rfl (by cases canOpen <;> simp [losesWhenClosed, count]))
  | metaSource x =>
    refine cast (congrArg (Ends _ disk) ?_) (saveDocOpenFill_ends false x.isValid (doc x.saveXml) _ canOpen name disk)
    exact (out_docFile 1 x.isValid x.saveXml MetaSource.cb compact canOpen true ok name disk).trans
      (spec_of rfl (by cases canOpen <;> simp [losesWhenClosed, count]))
  | tocMeta x =>
    refine cast (congrArg (Ends _ disk) ?_) (saveDocFillOpen_ends true (doc (TocMeta.saveXml (some x))) _ canOpen name disk)
    exact (out_docFile 1 true (TocMeta.saveXml (some x)) TocMeta.cb compact canOpen false ok name disk).trans
      (spec_of rfl (by cases canOpen <;> simp [losesWhenClosed, count]))
  | fileSource x =>
    refine cast (congrArg (Ends _ disk) ?_) (saveDocOpenFill_ends true x.isValid (doc x.saveXml) _ canOpen name disk)
    exact (out_docFile 0 x.isValid x.saveXml FileMetaSource.cb compact canOpen true ok name disk).trans
      (spec_of rfl (by cases canOpen <;> simp [losesWhenClosed, count]))
  | fileMeta x =>
    refine cast (congrArg (Ends _ disk) ?_) (saveDocFillOpen_ends true (doc (FileMeta.saveXml (some x))) _ canOpen name disk)
    exact (out_docFile 1 true (FileMeta.saveXml (some x)) FileMeta.cb compact canOpen false ok name disk).trans
      (spec_of rfl (by cases canOpen <;> simp [losesWhenClosed, count]))
  | reel x =>
    refine cast (congrArg (Ends _ disk) ?_) (saveDocOpenFill_ends false x.isValid (doc x.saveXml) _ canOpen name disk)
    exact (out_docFile 1 x.isValid x.saveXml Reel.cb compact canOpen true ok name disk).trans
      (spec_of rfl (by cases canOpen <;> simp [losesWhenClosed, count]))
  | reels x =>
    refine cast (congrArg (Ends _ disk) ?_) (saveDocFillOpen_ends true (doc x.saveXml) _ canOpen name disk)
    exact (out_docFile 1 true x.saveXml Reels.cb compact canOpen false ok name disk).trans
      (spec_of rfl (by cases canOpen <;> simp [losesWhenClosed, count]))
  | toc x =>
    refine cast (congrArg (Ends _ disk) ?_) (saveDocOpenFill_ends false x.isValid (doc x.saveXml) _ canOpen name disk)
    exact (out_docFile 1 x.isValid x.saveXml TocData.cb compact canOpen true ok name disk).trans
      (spec_of rfl (by cases canOpen <;> simp [losesWhenClosed, count]))
  | admin x =>
    refine cast (congrArg (Ends _ disk) ?_) (saveDocOpenFill_ends false true (doc x.saveXml) _ canOpen name disk)
    exact (out_docFile 1 true x.saveXml Admin.cb compact canOpen true ok name disk).trans
      (spec_of rfl (by cases canOpen <;> simp [losesWhenClosed, count]))
  | format x =>
    refine cast (congrArg (Ends _ disk) ?_) (saveDocOpenFill_ends false true (doc x.saveXml) _ canOpen name disk)
    exact (out_docFile 1 true x.saveXml Format.cb compact canOpen true ok name disk).trans
      (spec_of rfl (by cases canOpen <;> simp [losesWhenClosed, count]))
  | tech x =>
    refine cast (congrArg (Ends _ disk) ?_) (saveOpenDocFill_ends x.complete (doc x.saveXml) _ canOpen name disk)
    exact (out_docFile 0 x.complete x.saveXml TechMeta.cb compact canOpen true ok name disk).trans
      (spec_of rfl (by cases canOpen <;> simp [losesWhenClosed, count]))
  | file x =>
    refine cast (congrArg (Ends _ disk) ?_) (saveDocOpenFill_ends false true (doc (x.saveXml v1)) _ canOpen name disk)
    cases compact with
    | true =>
      exact (out_docFile 1 true (x.saveXml v1) File.cb true canOpen true ok name disk).trans
        (spec_of (by simp [savedFile, File.saveFile, unguarded]; rfl) (by cases canOpen <;> simp [losesWhenClosed, count]))
    | false =>
      cases hx : (x.saveXml v1) with
      | none =>
        refine Eq.trans ?_ (spec_of (r := File.saveFileOn x v1 canOpen ok (disk name)) (by simp [savedFile, File.saveFile, unguarded, hx]) rfl)
        cases canOpen <;> simp [saveOut, doc, File.saveFileOn, docFileOn, hx, losesWhenClosed, count, update_self, update] <;> rfl
      | some n =>
        cases canOpen with
        | false =>
          refine Eq.trans ?_ (spec_of (r := File.saveFileOn x v1 false ok (disk name)) (by simp [savedFile]) rfl)
          simp [saveOut, doc, File.saveFileOn, docFileOn, hx, losesWhenClosed, count, update_self]
        | true => exact undef_of (by simp [savedFile, File.saveFile, unguarded, hx])
  | files x =>
    refine cast (congrArg (Ends _ disk) ?_) (saveDocFillOpen_ends true (doc x.saveXml) _ canOpen name disk)
    cases compact with
    | true =>
      exact (out_docFile 1 true x.saveXml Files.cb true canOpen false ok name disk).trans
        (spec_of (by simp [savedFile, Files.saveFile, unguarded]; rfl) (by cases canOpen <;> simp [losesWhenClosed, count]))
    | false =>
      cases hx : x.saveXml with
      | none =>
        refine Eq.trans ?_ (spec_of (r := Files.saveFileOn x canOpen ok (disk name)) (by simp [savedFile, Files.saveFile, unguarded, hx]) rfl)
        cases canOpen <;> simp [saveOut, doc, Files.saveFileOn, docFileOn, hx, losesWhenClosed, count, update_self, update] <;> rfl
      | some n =>
        cases canOpen with
        | false =>
          refine Eq.trans ?_ (spec_of (r := Files.saveFileOn x false ok (disk name)) (by simp [savedFile]) rfl)
          simp [saveOut, doc, Files.saveFileOn, docFileOn, hx, losesWhenClosed, count, update_self]
        | true => exact undef_of (by simp [savedFile, Files.saveFile, unguarded, hx])
  | control x =>
    refine cast (congrArg (Ends _ disk) ?_) (saveDocFillOpen_ends x.complete (x.saveXml.map ControlData.document) _ canOpen name disk)
    refine Eq.trans ?_ (spec_of (r := x.saveFileOn compact canOpen ok (disk name)) rfl rfl)
    unfold saveOut ControlData.saveFileOn
    rcases Bool.eq_false_or_eq_true x.complete with hc | hc
    · cases hx : x.saveXml with
      | none => cases canOpen <;> simp [hc, hx, losesWhenClosed, count, update_self]
      | some n => cases canOpen <;> simp [hc, hx, losesWhenClosed, count, update_self, update] <;> rfl
    · simp [hc, losesWhenClosed, count, update_self]

/-- `savedString` with the lost documents. -/
def stringSpec (x : Any L) (v1 compact : Bool) (disk : Bytes → Option Bytes) : Res (Option Bytes × (Bytes → Option Bytes) × Nat) :=
  match savedString x v1 compact with
  | .ub => .ub
  | .ok r => .ok (r, disk, 0)

theorem string_of {x : Any L} {v1 compact : Bool} {disk : Bytes → Option Bytes} {r : Option Bytes}
    {k : Nat} (hs : savedString x v1 compact = .ok r) (hl : k = 0) :
    .ok (r, disk, k) = stringSpec x v1 compact disk := by
  unfold stringSpec
  rw [hs, hl]

theorem out_docString (delete allowed : Bool) (x : Option Node) (cb : SaveCb) (compact : Bool) (disk : Bytes → Option Bytes) :
    stringOut delete allowed (doc x) (fun t => .ok (saveAllocString (if compact then noCb else cb) [] t)) disk =
      .ok (if allowed = false then none else docString cb compact x, disk, if allowed = true ∧ x.isNone = true ∧ delete = false then 1 else 0) := by
  cases allowed <;> cases x <;> cases delete <;> simp [stringOut, doc, docString] <;> rfl

theorem out_elemString (x : Option Node) (cb : SaveCb) (compact : Bool) (disk : Bytes → Option Bytes) :
    stringOut true true (doc x) (fun t => .ok ((t.children.head?).bind (saveAllocString (if compact then noCb else cb) [xmlDecl]))) disk =
      .ok (elemString cb compact x, disk, 0) := by
  cases x <;> simp [stringOut, doc, elemString] <;> rfl

theorem saveString_any_ends (x : Any L) (v1 compact : Bool) (disk : Bytes → Option Bytes) :
    Ends (x.saveString v1 compact) disk (stringSpec x v1 compact disk) := by
  cases x with
  | «section» x =>
    refine cast (congrArg (Ends _ disk) ?_) (saveString_ends true true (doc x.saveXml) _ disk)
    exact (out_docString true true x.saveXml Section.cb compact disk).trans (string_of rfl (by simp [count]))
  | sections x =>
    refine cast (congrArg (Ends _ disk) ?_) (saveString_ends true true (doc (Sections.saveXml (some x))) _ disk)
    exact (out_docString true true (Sections.saveXml (some x)) Sections.cb compact disk).trans (string_of rfl (by simp [count]))
  | layout x =>
    refine cast (congrArg (Ends _ disk) ?_) (saveString_ends true true (doc x.saveXml) _ disk)
    exact (out_docString true true x.saveXml LayoutDef.cb compact disk).trans (string_of rfl (by simp [count]))
  | layouts x =>
    refine cast (congrArg (Ends _ disk) ?_) (saveString_ends true true (doc (LayoutDefs.saveXml (some x))) _ disk)
    exact (out_elemString (LayoutDefs.saveXml (some x)) LayoutDefs.cb compact disk).trans (string_of rfl rfl)
  | page x =>
    refine cast (congrArg (Ends _ disk) ?_) (saveString_ends false true (doc x.saveXml) _ disk)
    have hx : x.saveXml ≠ none := by
      unfold Page.saveXml
      simp
    exact (out_docString false true x.saveXml Page.cb compact disk).trans (string_of rfl (by simp [hx]))
  | preview x =>
    refine cast (congrArg (Ends _ disk) ?_) (saveString_ends true true (doc x.saveXml) _ disk)
    exact (out_docString true true x.saveXml Preview.cb compact disk).trans (string_of rfl (by simp [count]))
  | metaSource x =>
    refine cast (congrArg (Ends _ disk) ?_) (saveString_ends true true (doc x.saveXml) _ disk)
    exact (out_docString true true x.saveXml MetaSource.cb compact disk).trans (string_of rfl (by simp [count]))
  | tocMeta x =>
    refine cast (congrArg (Ends _ disk) ?_) (saveString_ends true true (doc (TocMeta.saveXml (some x))) _ disk)
    exact (out_elemString (TocMeta.saveXml (some x)) TocMeta.cb compact disk).trans (string_of rfl rfl)
  | fileSource x =>
    refine cast (congrArg (Ends _ disk) ?_) (saveString_ends true true (doc x.saveXml) _ disk)
    exact (out_docString true true x.saveXml FileMetaSource.cb compact disk).trans (string_of rfl (by simp [count]))
  | fileMeta x =>
    refine cast (congrArg (Ends _ disk) ?_) (saveString_ends true true (doc (FileMeta.saveXml (some x))) _ disk)
    exact (out_elemString (FileMeta.saveXml (some x)) FileMeta.cb compact disk).trans (string_of rfl rfl)
  | file x =>
    refine cast (congrArg (Ends _ disk) ?_) (saveString_ends true true (doc (x.saveXml v1)) _ disk)
    exact (out_elemString (x.saveXml v1) File.cb compact disk).trans (string_of rfl rfl)
  | reel x =>
    refine cast (congrArg (Ends _ disk) ?_) (saveString_ends true true (doc x.saveXml) _ disk)
    exact (out_docString true true x.saveXml Reel.cb compact disk).trans (string_of rfl (by simp [count]))
  | reels x =>
    refine cast (congrArg (Ends _ disk) ?_) (saveString_ends true true (doc x.saveXml) _ disk)
    exact (out_docString true true x.saveXml Reels.cb compact disk).trans (string_of rfl (by simp [count]))
  | toc x =>
    refine cast (congrArg (Ends _ disk) ?_) (saveString_ends true true (doc x.saveXml) _ disk)
    exact (out_docString true true x.saveXml TocData.cb compact disk).trans (string_of rfl (by simp [count]))
  | admin x =>
    refine cast (congrArg (Ends _ disk) ?_) (saveString_ends true true (doc x.saveXml) _ disk)
    exact (out_docString true true x.saveXml Admin.cb compact disk).trans (string_of rfl (by simp [count]))
  | format x =>
    refine cast (congrArg (Ends _ disk) ?_) (saveString_ends false true (doc x.saveXml) _ disk)
    have hx : x.saveXml ≠ none := by
      unfold Format.saveXml
      cases x.config <;> simp
    exact (out_docString false true x.saveXml Format.cb compact disk).trans (string_of rfl (by simp [count, hx]))
  | tech x =>
    refine cast (congrArg (Ends _ disk) ?_) (saveString_ends true x.complete (doc x.saveXml) _ disk)
    exact (out_docString true x.complete x.saveXml TechMeta.cb compact disk).trans (string_of rfl (by simp [count]))
  | files x =>
    refine cast (congrArg (Ends _ disk) ?_) (saveString_ends true true (doc x.saveXml) _ disk)
    cases compact with
    | true => exact (out_docString true true x.saveXml Files.cb true disk).trans (string_of (by simp [savedString, Files.saveString, unguarded]) (by simp [count]))
    | false =>
      cases hx : x.saveXml with
      | none => exact string_of (r := none) (by simp [savedString, Files.saveString, unguarded, docString, hx]) rfl
      | some n => simp [stringSpec, savedString, Files.saveString, unguarded, hx, stringOut, doc, Any.string]
  | control x =>
    refine cast (congrArg (Ends _ disk) ?_) (saveString_ends true x.complete (x.saveXml.map ControlData.document) _ disk)
    refine Eq.trans ?_ (string_of (r := x.saveString compact) rfl rfl)
    unfold stringOut ControlData.saveString
    rcases Bool.eq_false_or_eq_true x.complete with hc | hc
    · cases hx : x.saveXml with
      | none => simp [hc, hx, count]
      | some n => simp [hc, hx, count]; rfl
    · simp [hc, count]

/-- `loadedFile` for what is on the disk. -/
def loadFileSpec (x : Any L) (canOpen : Bool) (upTo : Option Nat) (name : Bytes) (disk : Bytes → Option Bytes) : Res ((Bool × Any L) × (Bytes → Option Bytes) × Nat) :=
  match (if canOpen then disk name else none) with
  | none => .ok ((false, x), disk, 0)
  | some s => match loadedFile x (readable upTo s) with
    | .ub => .ub
    | .ok r => .ok (r, disk, 0)

theorem load_as (x : Any L) (s : Bytes) : loadedFile x s = match Xml.loadFile s with
    | none => .ok (false, x)
    | some t => x.load t := by
  cases hs : Xml.loadFile s with
  | none =>
    cases x <;> simp [loadedFile, as, hs, loadFromFile, Section.loadFile, Sections.loadFile, LayoutDef.loadFile, LayoutDefs.loadFile,
      Page.loadFile, Preview.loadFile, MetaSource.loadFile, TocMeta.loadFile, FileMetaSource.loadFile, FileMeta.loadFile, File.loadFile,
      Files.loadFile, Reel.loadFile, Reels.loadFile, TocData.loadFile, Admin.loadFile, Format.loadFile, TechMeta.loadFile,
      ControlData.loadFile, Res.bind]
  | some t =>
    cases x <;> simp [loadedFile, as, hs, loadFromFile, Section.loadFile, Sections.loadFile, LayoutDef.loadFile, LayoutDefs.loadFile,
      Page.loadFile, Preview.loadFile, MetaSource.loadFile, TocMeta.loadFile, FileMetaSource.loadFile, FileMeta.loadFile, File.loadFile,
      Files.loadFile, Reel.loadFile, Reels.loadFile, TocData.loadFile, Admin.loadFile, Format.loadFile, TechMeta.loadFile,
      ControlData.loadFile, Any.load]

theorem loadFile_any_ends (x : Any L) (canOpen : Bool) (upTo : Option Nat) (name : Bytes) (disk : Bytes → Option Bytes) :
    Ends (loadFile x.load x canOpen upTo name) disk (loadFileSpec x canOpen upTo name disk) := by
  refine cast (congrArg (Ends _ disk) ?_) (loadFile_ends x.load x canOpen upTo name disk)
  unfold loadFileOut loadFileSpec
  generalize (if canOpen then disk name else none) = c
  cases c with
  | none => rfl
  | some s =>
    dsimp only
    rw [load_as]
    cases Xml.loadFile (readable upTo s) with
    | none => rfl
    | some t =>
      dsimp only
      cases x.load t <;> rfl

/-- `loadedString` with the lost documents. -/
def loadStringSpec (x : Any L) (s : Bytes) (disk : Bytes → Option Bytes) : Res ((Bool × Any L) × (Bytes → Option Bytes) × Nat) :=
  match loadedString x s with
  | .ub => .ub
  | .ok r => .ok (r, disk, count (losesLoad x s r.1))

theorem loadString_as (x : Any L) (s : Bytes) : loadedString x s = match Xml.loadString s with
    | none => .ok (false, x)
    | some t => x.load t := by
  by_cases hz : s = []
  · subst hz
    have he : Xml.loadString [] = none := by decide +kernel
    cases x <;> simp [loadedString, as, he, loadFromString, Section.loadString, Sections.loadString, LayoutDef.loadString, LayoutDefs.loadString,
      Page.loadString, Preview.loadString, MetaSource.loadString, TocMeta.loadString, FileMetaSource.loadString, FileMeta.loadString,
      File.loadString, Files.loadString, Reel.loadString, Reels.loadString, TocData.loadString, Admin.loadString, Format.loadString,
      TechMeta.loadString, ControlData.loadString, Res.bind]
  · have hn : s.length ≠ 0 := by
      intro e
      exact hz (List.length_eq_zero_iff.mp e)
    cases hs : Xml.loadString s with
    | none =>
      cases x <;> simp [loadedString, as, hs, hz, loadFromString, Section.loadString, Sections.loadString, LayoutDef.loadString, LayoutDefs.loadString,
        Page.loadString, Preview.loadString, MetaSource.loadString, TocMeta.loadString, FileMetaSource.loadString, FileMeta.loadString,
        File.loadString, Files.loadString, Reel.loadString, Reels.loadString, TocData.loadString, Admin.loadString, Format.loadString,
        TechMeta.loadString, ControlData.loadString, Res.bind]
    | some t =>
      cases x <;> simp [loadedString, as, hs, hz, loadFromString, Section.loadString, Sections.loadString, LayoutDef.loadString, LayoutDefs.loadString,
        Page.loadString, Preview.loadString, MetaSource.loadString, TocMeta.loadString, FileMetaSource.loadString, FileMeta.loadString,
        File.loadString, Files.loadString, Reel.loadString, Reels.loadString, TocData.loadString, Admin.loadString, Format.loadString,
        TechMeta.loadString, ControlData.loadString, Any.load]

theorem loadString_any_ends (x : Any L) (s : Bytes) (disk : Bytes → Option Bytes) :
    Ends (x.loadString s) disk (loadStringSpec x s disk) := by
  have he : Xml.loadString [] = none := by decide +kernel
  by_cases hf : ∃ f, x = .format f
  · obtain ⟨f, rfl⟩ := hf
    refine cast (congrArg (Ends _ disk) ?_) (loadString_ends true true (Any.format f).load (.format f) s disk)
    unfold loadStringOut loadStringSpec
    rw [loadString_as, if_neg (by simp)]
    cases Xml.loadString s with
    | none => rfl
    | some t =>
      dsimp only
      cases (Any.format f).load t with
      | ub => rfl
      | ok r => simp [losesLoad, count]
  · have hf' : ∀ f, x ≠ .format f := fun f e => hf ⟨f, e⟩
    have e : x.loadString s = Session.loadString false false x.load x s := by
      cases x <;> first
        | rfl
        | exact absurd rfl (hf' _)
    have el : ∀ b, losesLoad x s b = (!b && decide (s ≠ []) && (Xml.loadString s).isSome) := by
      intro b
      cases x <;> first
        | rfl
        | exact absurd rfl (hf' _)
    rw [e]
    refine cast (congrArg (Ends _ disk) ?_) (loadString_ends false false x.load x s disk)
    unfold loadStringOut loadStringSpec
    rw [loadString_as]
    by_cases hz : s = []
    · subst hz
      rw [if_pos ⟨rfl, rfl⟩, he]
      dsimp only
      rw [el]
      rfl
    · rw [if_neg (by simp [hz])]
      cases hs : Xml.loadString s with
      | none => simp [el, hs, count]
      | some t =>
        dsimp only
        cases x.load t with
        | ub => rfl
        | ok r =>
          obtain ⟨b, r⟩ := r
          cases b <;> simp [el, hs, hz, count]

/-! ### Histories -/

theorem quiet_describes {s : Sys} {w : World L} {l : List Nat} (h : Quiet s w.disk l) (hl : l.length = w.lost) : Describes s w :=
  ⟨h.disk, h.closed, l, h.nodup, hl, h.docs⟩

theorem theObj_some {o : List (Any L)} {i : Nat} {x : Any L} (h : o[i]? = some x) (s : Sys) : theObj o i s = .ok (x, s) := by
  unfold theObj; rw [h]

theorem theObj_none {o : List (Any L)} {i : Nat} (h : o[i]? = none) (s : Sys) : theObj o i s = .ub := by
  unfold theObj; rw [h]

/-- One call does what the specification says. -/
theorem call_step (c : Call L) (w : World L) (s : Sys) (l : List Nat) (h : Quiet s w.disk l) (hl : l.length = w.lost) :
    match Spec.Session.step w c with
    | .ub => call w.objs c s = .ub
    | .ok (r, w') => ∃ s' l', call w.objs c s = .ok ((r, w'.objs), s') ∧ Quiet s' w'.disk l' ∧ l'.length = w'.lost := by
  cases c with
  | new x => exact ⟨s, l, rfl, h, hl⟩
  | saveFile i name v1 compact canOpen ok =>
    unfold Spec.Session.step call
    cases ho : w.objs[i]? with
    | none => simp only [ho, bind_eq, theObj_none ho]
    | some x =>
      have hx := saveFile_ends x v1 compact canOpen ok name w.disk s l h
      unfold fileSpec at hx
      simp only [ho]
      cases hr : savedFile x v1 compact canOpen ok (w.disk name) with
      | ub =>
        simp only [hr] at hx ⊢
        simp only [bind_eq, theObj_some ho, hx]
      | ok r =>
        simp only [hr] at hx ⊢
        obtain ⟨s', l', e, hq, hk⟩ := hx
        exact ⟨s', l', by simp only [bind_eq, theObj_some ho, e, pure_eq], hq, by rw [hk, hl]⟩
  | saveString i v1 compact =>
    unfold Spec.Session.step call
    cases ho : w.objs[i]? with
    | none => simp only [ho, bind_eq, theObj_none ho]
    | some x =>
      have hx := saveString_any_ends x v1 compact w.disk s l h
      unfold stringSpec at hx
      simp only [ho]
      cases hr : savedString x v1 compact with
      | ub =>
        simp only [hr] at hx ⊢
        simp only [bind_eq, theObj_some ho, hx]
      | ok r =>
        simp only [hr] at hx ⊢
        obtain ⟨s', l', e, hq, hk⟩ := hx
        exact ⟨s', l', by simp only [bind_eq, theObj_some ho, e, pure_eq], hq, by rw [hk, hl]; rfl⟩
  | loadFile i name canOpen upTo =>
    unfold Spec.Session.step call
    cases ho : w.objs[i]? with
    | none => simp only [ho, bind_eq, theObj_none ho]
    | some x =>
      have hx := loadFile_any_ends x canOpen upTo name w.disk s l h
      unfold loadFileSpec at hx
      simp only [ho]
      generalize (if canOpen then w.disk name else none) = c at hx ⊢
      cases c with
      | none =>
        obtain ⟨s', l', e, hq, hk⟩ := hx
        refine ⟨s', l', ?_, hq, by rw [hk, hl]; rfl⟩
        simp only [bind_eq, theObj_some ho, e, pure_eq]
        have : w.objs.set i x = w.objs := by
          have := List.getElem?_eq_some_iff.mp ho
          obtain ⟨hi, rfl⟩ := this
          exact List.set_getElem_self hi
        rw [this]
      | some b =>
        dsimp only at hx ⊢
        cases hr : loadedFile x (readable upTo b) with
        | ub =>
          simp only [hr] at hx ⊢
          simp only [bind_eq, theObj_some ho, hx]
        | ok r =>
          simp only [hr] at hx ⊢
          obtain ⟨s', l', e, hq, hk⟩ := hx
          exact ⟨s', l', by simp only [bind_eq, theObj_some ho, e, pure_eq], hq, by rw [hk, hl]; rfl⟩
  | loadString i text =>
    unfold Spec.Session.step call
    cases ho : w.objs[i]? with
    | none => simp only [ho, bind_eq, theObj_none ho]
    | some x =>
      have hx := loadString_any_ends x text w.disk s l h
      unfold loadStringSpec at hx
      simp only [ho]
      cases hr : loadedString x text with
      | ub =>
        simp only [hr] at hx ⊢
        simp only [bind_eq, theObj_some ho, hx]
      | ok r =>
        simp only [hr] at hx ⊢
        obtain ⟨s', l', e, hq, hk⟩ := hx
        exact ⟨s', l', by simp only [bind_eq, theObj_some ho, e, pure_eq], hq, by rw [hk, hl]⟩

/-- A history does what the specification says. -/
theorem calls_run (cs : List (Call L)) : ∀ (w : World L) (s : Sys) (l : List Nat), Quiet s w.disk l → l.length = w.lost →
    match Spec.Session.run w cs with
    | .ub => calls w.objs cs s = .ub
    | .ok (rs, w') => ∃ s' l', calls w.objs cs s = .ok ((rs, w'.objs), s') ∧ Quiet s' w'.disk l' ∧ l'.length = w'.lost := by
  induction cs with
  | nil => exact fun w s l h hl => ⟨s, l, rfl, h, hl⟩
  | cons c cs ih =>
    intro w s l h hl
    have hc := call_step c w s l h hl
    unfold Spec.Session.run calls
    cases hs : Spec.Session.step w c with
    | ub =>
      simp only [hs] at hc ⊢
      simp only [bind_eq, hc]
    | ok r =>
      obtain ⟨r, w'⟩ := r
      simp only [hs] at hc ⊢
      obtain ⟨s', l', e, hq, hk⟩ := hc
      have := ih w' s' l' hq hk
      cases hr : Spec.Session.run w' cs with
      | ub =>
        simp only [hr] at this ⊢
        simp only [bind_eq, e, this]
      | ok rr =>
        obtain ⟨rs, w''⟩ := rr
        simp only [hr] at this ⊢
        obtain ⟨s'', l'', e2, hq2, hk2⟩ := this
        exact ⟨s'', l'', by simp only [bind_eq, e, e2, pure_eq], hq2, hk2⟩

theorem quiet_init (disk : Bytes → Option Bytes) : Quiet (Sys.init disk) disk [] :=
  ⟨rfl, fun _ => rfl, fun d => by simp [Sys.init], List.nodup_nil, fun d hd => nomatch hd⟩

end Afs.Session
