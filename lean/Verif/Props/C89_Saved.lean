import Verif.Props.C89_Extended
import Verif.Props.C87_Built
import Verif.Props.C64_Documents
/-! # C89: saved documents, and documents that follow the schema, to which something unknown was added -/
namespace Afs
open Spec Xml Spec.Extended Keep

/-- Loading text `s'`, whose document extends that of `s`, is loading `s`. -/
theorem extended_string {β : Type} (load : Node → β) (hl : ∀ t u, ExtendedDoc t u → load t = load u) (fail : β) {s s' : Bytes} {T u : Node}
    (hT : Xml.loadString s = some T) (hu : Xml.loadString s' = some u) (he : ExtendedDoc T u) :
    loadFromString load fail s = loadFromString load fail s' := by
  have nz : ∀ {b : Bytes} {v : Node}, Xml.loadString b = some v → ¬ b.length = 0 := by
    intro b v hb h0
    rw [List.length_eq_zero_iff] at h0
    subst h0
    cases hb
  unfold loadFromString
  rw [if_neg (nz hT), if_neg (nz hu), hT, hu]
  exact hl T u he

/-- A table of contents is saved, another program adds to the text whatever the library does not know, and the text is loaded: the
    answer is success, and the object what it would have been without the additions. -/
theorem C89_saved_toc {t t' : TocData} (ht : Settles tocWay t t') (c : Bool) {s : Bytes} (hs : t.saveString c = some s) {s' : Bytes} {T u : Node}
    (hT : Xml.loadString s = some T) (hu : Xml.loadString s' = some u) (he : ExtendedDoc T u) :
    TocData.create.loadString s' = .ok (true, t') := by
  obtain ⟨s1, h1, h2⟩ := ht.1 ⟨c, false⟩
  have h1 : t.saveString c = some s1 := h1
  rw [hs] at h1
  cases h1
  have h2 : definedLoad (TocData.create.loadString s) = some t' := h2
  have e : TocData.create.loadString s = TocData.create.loadString s' :=
    extended_string _ (fun _ _ h => TocData.create.loadXml_relaid h) _ hT hu he
  rw [e] at h2
  cases hr : TocData.create.loadString s' with
  | ub => rw [hr] at h2; cases h2
  | ok r =>
    rw [hr] at h2
    obtain ⟨b, x⟩ := r
    cases b with
    | false => cases h2
    | true =>
      cases h2
      rfl

/-- The same for a file entry. -/
theorem C89_saved_file {f f' : File} (hf : Settles fileWay f f') (c : Bool) {s : Bytes} (hs : f.saveString c false = some s) {s' : Bytes} {T u : Node}
    (hT : Xml.loadString s = some T) (hu : Xml.loadString s' = some u) (he : ExtendedDoc T u) :
    File.create.loadString s' = (true, f') := by
  obtain ⟨s1, h1, h2⟩ := hf.1 (.string c)
  have h1 : f.saveString c false = some s1 := h1
  rw [hs] at h1
  cases h1
  have h2 : loaded (File.create.loadString s) = some f' := h2
  have e : File.create.loadString s = File.create.loadString s' :=
    extended_string _ (fun _ _ h => File.create.loadXml_relaid h) _ hT hu he
  rw [e] at h2
  cases hr : File.create.loadString s' with
  | mk b x =>
    rw [hr] at h2
    cases b with
    | false => cases h2
    | true =>
      cases h2
      rfl

/-- For every table of contents built by calls with clean arguments, valid and with entries that are kept (C87). -/
theorem C89_built {t : TocData} (h : Built (.toc t)) (hv : t.isValid = true) (hk : ∀ r ∈ t.reelList, ∀ f ∈ r.list, FileKept f) (c : Bool) :
    ∃ s T, t.saveString c = some s ∧ Xml.loadString s = some T ∧
      ∀ s' u, Xml.loadString s' = some u → ExtendedDoc T u → TocData.create.loadString s' = .ok (true, t.asLoaded) := by
  have hs := C87_toc h hv hk
  obtain ⟨s, h1, h2⟩ := hs.1 ⟨c, false⟩
  have h2 : definedLoad (TocData.create.loadString s) = some t.asLoaded := h2
  cases hT : Xml.loadString s with
  | none =>
    unfold TocData.loadString loadFromString at h2
    rw [hT] at h2
    split at h2 <;> cases h2
  | some T => exact ⟨s, T, h1, hT, fun s' u hu he => C89_saved_toc hs c h1 hT hu he⟩

open Spec.Schema Spec.Document in
/-- Documents that follow the schema, with unknown things added, are loaded as C64 says of the document without them. -/
theorem C89_schema {D : Char → Prop} {doc doc' : Node} (hc : Conforms (b! "Index") (indexType D) doc) (hp : PlainDoc doc)
    (he : ExtendedDoc doc doc') (t : TocData) :
    ∃ n r, root doc = some n ∧ t.loadXml doc' = .ok r ∧ LoadsAs r (HasIds n ∧ Acceptable (indexOf n)) (indexOf n) := by
  obtain ⟨n, r, h1, h2, h3⟩ := C64_index hc hp t
  exact ⟨n, r, h1, (C89_toc he Reel.create Reels.create t).2.2 ▸ h2, h3⟩

end Afs
