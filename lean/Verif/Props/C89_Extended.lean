import Verif.Proof.Relaid3
import Verif.Proof.NodeEq
import Verif.Props.C54_C55_Grammar
/-!
# C89: what the library does not know does not matter

Two documents that differ only in attributes and elements the library does not use (Spec/Extended.lean), such as those a later
version of the format might add, are loaded alike by every loader: with the same answer and the same object afterwards, whatever
the object held before, and also when the load is refused.
-/
namespace Afs
open Spec Xml Spec.Extended
open Spec.Relaid (textElements SameText SameStart isCData)

section
variable {t u : Node} (h : ExtendedDoc t u)
include h

/-- Preview pages and previews. -/
theorem C89_preview (g : Page) (p : Preview) : g.loadXml t = g.loadXml u ∧ p.loadXml t = p.loadXml u :=
  ⟨g.loadXml_relaid h, p.loadXml_relaid h⟩

/-- Preview sections and layouts (a load of layouts may also be undefined, then both are). -/
theorem C89_layouts (s : Section) (ss : Sections) (d : LayoutDef) (ds : LayoutDefs) :
    s.loadXml t = s.loadXml u ∧ ss.loadXml t = ss.loadXml u ∧ d.loadXml t = d.loadXml u ∧ ds.loadXml t = ds.loadXml u :=
  ⟨s.loadXml_relaid h, ss.loadXml_relaid h, d.loadXml_relaid h, ds.loadXml_relaid h⟩

/-- Metadata of tables of contents and of files. -/
theorem C89_metadata (s : MetaSource) (m : TocMeta) (fs : FileMetaSource) (fm : FileMeta) :
    s.loadXml t = s.loadXml u ∧ m.loadXml t = m.loadXml u ∧ fs.loadXml t = fs.loadXml u ∧ fm.loadXml t = fm.loadXml u :=
  ⟨s.loadXml_relaid h, m.loadXml_relaid h, fs.loadXml_relaid h, fm.loadXml_relaid h⟩

/-- Files and lists of files. -/
theorem C89_files (f : File) (fs : Files) : f.loadXml t = f.loadXml u ∧ fs.loadXml t = fs.loadXml u :=
  ⟨f.loadXml_relaid h, fs.loadXml_relaid h⟩

/-- Reels and tables of contents. -/
theorem C89_toc (r : Reel) (rs : Reels) (d : TocData) :
    r.loadXml t = r.loadXml u ∧ rs.loadXml t = rs.loadXml u ∧ d.loadXml t = d.loadXml u :=
  ⟨r.loadXml_relaid h, rs.loadXml_relaid h, d.loadXml_relaid h⟩

/-- Control data and their parts. -/
theorem C89_control {L : ConfigLib} (a : Admin) (f : Format L) (m : TechMeta L) (c : ControlData L) :
    a.loadXml t = a.loadXml u ∧ f.loadXml t = f.loadXml u ∧ m.loadXml t = m.loadXml u ∧ c.loadXml t = c.loadXml u :=
  ⟨a.loadXml_relaid h, f.loadXml_relaid h, m.loadXml_relaid h, c.loadXml_relaid h⟩

end

open Spec.Grammar in
/-- For texts: any two XML documents whose trees differ in nothing the library knows are loaded alike, from strings and from files,
    by any loader that loads such trees alike (that is, by the `load_string` and `load_file` functions of all the objects above). -/
theorem C89_text {β : Type} (load : Node → β) (hl : ∀ t u, ExtendedDoc t u → load t = load u) (fail : β) (s s' : List Char) (t u : Node)
    (hs : Document s t) (hs' : Document s' u) (hf : Char.ofNat 0xFEFF ∉ s) (hf' : Char.ofNat 0xFEFF ∉ s') (h : ExtendedDoc t u) :
    loadFromString load fail (utf8File s) = loadFromString load fail (utf8File s') ∧
    loadFromFile load fail (utf8File s) = loadFromFile load fail (utf8File s') ∧
    loadFromString load fail (utf8File s) = loadFromFile load fail (utf8File s) := by
  have e := C54_reads s t hs hf
  have e' := C54_reads s' u hs' hf'
  have nz : ∀ {b : Bytes} {v : Node}, Xml.loadString b = some v → ¬ b.length = 0 := by
    intro b v hb h0
    rw [List.length_eq_zero_iff] at h0
    subst h0
    cases hb
  unfold loadFromString loadFromFile
  rw [if_neg (nz e.1), if_neg (nz e'.1), e.1, e.2, e'.1, e'.2]
  dsimp only
  rw [hl t u h]
  exact ⟨rfl, rfl, rfl⟩

open Spec.Grammar in
/-- For example: a table of contents, control data and a file, from strings and from files. -/
theorem C89_loads {L : ConfigLib} (d : TocData) (c : ControlData L) (f : File) (s s' : List Char) (t u : Node)
    (hs : Document s t) (hs' : Document s' u) (hf : Char.ofNat 0xFEFF ∉ s) (hf' : Char.ofNat 0xFEFF ∉ s') (h : ExtendedDoc t u) :
    d.loadString (utf8File s) = d.loadString (utf8File s') ∧ d.loadFile (utf8File s) = d.loadFile (utf8File s') ∧
    c.loadString (utf8File s) = c.loadString (utf8File s') ∧ c.loadFile (utf8File s) = c.loadFile (utf8File s') ∧
    f.loadString (utf8File s) = f.loadString (utf8File s') ∧ f.loadFile (utf8File s) = f.loadFile (utf8File s') := by
  have a := C89_text d.loadXml (fun _ _ h => d.loadXml_relaid h) (.ok (false, d)) s s' t u hs hs' hf hf' h
  have b := C89_text c.loadXml (fun _ _ h => c.loadXml_relaid h) (false, c) s s' t u hs hs' hf hf' h
  have e := C89_text f.loadXml (fun _ _ h => f.loadXml_relaid h) (false, f) s s' t u hs hs' hf hf' h
  exact ⟨a.1, a.2.1, b.1, b.2.1, e.1, e.2.1⟩

/-! ### The relation -/

theorem sameText_refl (s : Bytes) : SameText s s := ⟨[], [], [], [], s, by simp, by simp, by simp⟩

theorem sameStart_refl (cs : List Node) : SameStart cs cs := by
  cases cs with
  | nil => exact .other (by simp) (by simp)
  | cons c cs =>
    cases c with
    | text s => exact .text (sameText_refl s)
    | elem n as ks => exact .other (by simp) (by simp)

mutual
theorem extended_refl (b : Bool) : ∀ t : Node, t.element ≠ none → Extended b t t
  | .text _ => fun h => absurd rfl h
  | .elem n as cs => fun _ => .mk (fun _ _ => rfl) (extendedKids_refl _ cs) (fun _ => sameStart_refl cs) fun _ _ => ⟨rfl, fun _ => sameStart_refl cs⟩
theorem extendedKids_refl (b : Bool) : ∀ cs : List Node, Kids b cs cs
  | [] => .nil
  | .text s :: cs => .left (by rw [Foreign]; trivial) (.right (by rw [Foreign]; trivial) (extendedKids_refl b cs))
  | .elem n as ks :: cs => .cons (extended_refl b (.elem n as ks) (fun h => nomatch h)) (extendedKids_refl b cs)
end

theorem sameText_symm {s t : Bytes} (h : SameText s t) : SameText t s := by
  obtain ⟨a, b, a', b', m, h1, h2, h3⟩ := h
  exact ⟨a', b', a, b, m, h2, h1, fun c hc => h3 c (by simp only [List.mem_append] at hc ⊢; tauto)⟩

theorem sameStart_symm {cs ds : List Node} (h : SameStart cs ds) : SameStart ds cs := by
  cases h with
  | text h => exact .text (sameText_symm h)
  | other h1 h2 => exact .other h2 h1

mutual
theorem extended_symm : ∀ {b : Bool} {t u : Node}, Extended b t u → Extended b u t
  | _, _, _, .mk ha hk ht hd => .mk (fun a h => (ha a h).symm) (extendedKids_symm hk) (fun h => sameStart_symm (ht h)) fun h1 h2 =>
      ⟨(hd h1 h2).1.symm, fun h3 => sameStart_symm ((hd h1 h2).2 ((hd h1 h2).1.trans h3))⟩
theorem extendedKids_symm : ∀ {b : Bool} {cs ds : List Node}, Kids b cs ds → Kids b ds cs
  | _, _, _, .nil => .nil
  | _, _, _, .left h hk => .right h (extendedKids_symm hk)
  | _, _, _, .right h hk => .left h (extendedKids_symm hk)
  | _, _, _, .cons h hk => .cons (extended_symm h) (extendedKids_symm hk)
end

/-- The relation is reflexive (on documents) and symmetric. -/
theorem C89_relation (t u : Node) : (t.element ≠ none → ExtendedDoc t t) ∧ (ExtendedDoc t u → ExtendedDoc u t) := by
  refine ⟨fun h => .same (extended_refl false t h), fun h => ?_⟩
  cases h with
  | same h => exact .same (extended_symm h)
  | inside h1 h2 hk => exact .inside h2 h1 (extendedKids_symm hk)

/-! ### What it comes to for a later writer -/

/-- A foreign element may be added to any element that holds no text, before its other children, among them or after them. -/
theorem C89_added (n : Bytes) (as : List (Bytes × Option Bytes)) (cs ds : List Node) (x : Node) (hx : Foreign x)
    (hn : n ∉ textElements) (hd : n ≠ b! "data") : ExtendedDoc (.elem n as (cs ++ ds)) (.elem n as (cs ++ x :: ds)) := by
  refine .same (.mk (fun _ _ => rfl) ?_ (fun h => absurd h hn) (fun _ h => absurd h hd))
  generalize (false || decide (n = b! "source")) = b
  induction cs with
  | nil => exact .right hx (extendedKids_refl b ds)
  | cons c cs ih =>
    cases c with
    | text s => exact .left (by rw [Foreign]; trivial) (.right (by rw [Foreign]; trivial) ih)
    | elem m bs ks => exact .cons (extended_refl b _ (fun h => nomatch h)) ih

/-- An attribute the library does not use may be added anywhere among the attributes of an element. -/
theorem C89_attribute (n a : Bytes) (v : Option Bytes) (as bs : List (Bytes × Option Bytes)) (cs : List Node) (ha : a ∉ knownAttributes) :
    ExtendedDoc (.elem n (as ++ bs) cs) (.elem n (as ++ (a, v) :: bs) cs) := by
  refine .same (.mk (fun k hk => ?_) (extendedKids_refl _ cs) (fun _ => sameStart_refl cs) (fun _ _ => ⟨rfl, fun _ => sameStart_refl cs⟩))
  have hne : (k == a) = false := by
    simp only [beq_eq_false_iff_ne, ne_eq]
    rintro rfl
    exact ha hk
  induction as with
  | nil => rw [List.nil_append, List.nil_append, List.lookup_cons, hne]
  | cons x as ih => rw [List.cons_append, List.cons_append, List.lookup_cons, List.lookup_cons, ih]

/-! ### An example, and what does matter -/

def exToday : Node := .elem (b! "file") [(b! "formatId", some (b! "png"))]
  [.elem (b! "id") [] [.text (b! "7")], .elem (b! "metadata") [] [.elem (b! "source") [(b! "fileId", some (b! "3"))]
    [.elem (b! "data") [] [Node.newCDATA (b! "<x>")]]]]

/-- The same from a later writer: an access list, a language and a signature have been added. -/
def exLater : Node := .elem (b! "file") [(b! "formatId", some (b! "png")), (b! "owner", some (b! "joe"))]
  [.elem (b! "acl") [(b! "default", some (b! "none"))] [.elem (b! "user") [] [.text (b! "joe")], .elem (b! "user") [] [.text (b! "eve")]],
   .elem (b! "id") [(b! "scheme", some (b! "local"))] [.text (b! "7")],
   .elem (b! "metadata") [] [.elem (b! "source") [(b! "fileId", some (b! "3")), (b! "lang", some (b! "no"))]
    [.elem (b! "data") [] [Node.newCDATA (b! "<x>")], .elem (b! "signature") [] [.text (b! "a7f3")]]]]

theorem exLater_extends : ExtendedDoc exToday exLater := by
  have none' : ∀ a ∈ knownAttributes, ¬ a = b! "owner" ∧ ¬ a = b! "scheme" ∧ ¬ a = b! "lang" := by decide
  refine .same (.mk ?_ ?_ (fun h => absurd h (by decide)) (fun _ h => absurd h (by decide)))
  · intro a ha
    have e : (a == b! "owner") = false := by simpa using (none' a ha).1
    simp only [List.lookup_cons, List.lookup_nil, e]
  · refine .right ?_ (.cons (.mk ?_ (extendedKids_refl _ _) (fun _ => sameStart_refl _) (fun _ h => absurd h (by decide)))
      (.cons (.mk (fun _ _ => rfl) (.cons (.mk ?_ (.cons (extended_refl _ _ (by decide)) (.right ?_ .nil)) (fun h => absurd h (by decide))
        (fun _ h => absurd h (by decide))) .nil) (fun h => absurd h (by decide)) (fun _ h => absurd h (by decide))) .nil))
    · simp only [Foreign, ForeignAll]; decide
    · intro a ha
      have e : (a == b! "scheme") = false := by simpa using (none' a ha).2.1
      simp only [List.lookup_cons, List.lookup_nil, e]
    · intro a ha
      have e : (a == b! "lang") = false := by simpa using (none' a ha).2.2
      simp only [List.lookup_cons, List.lookup_nil, e]
    · simp only [Foreign, ForeignAll]; decide

theorem exLater_read : Xml.loadString (b! "<file formatId='png' owner='joe'><acl default='none'><user>joe</user><user>eve</user></acl><id scheme='local'>7</id><metadata><source fileId='3' lang='no'><data><![CDATA[<x>]]></data><signature>a7f3</signature></source></metadata></file>") = some exLater := by
  decide +kernel

example (f : File) : f.loadXml exToday = f.loadXml exLater := (C89_files exLater_extends f Files.create).1

set_option maxRecDepth 100000 in
/-- The condition on what is in an unknown element is needed: elements are looked for at any depth, so a number inside an unknown
    element is taken for the number of the file, and a name inside one for the name of the layout, if the unknown element comes first. -/
theorem C89_inside_counts :
    (File.create.loadString (b! "<file><id>7</id></file>")).2.id = 7 ∧
    (File.create.loadString (b! "<file><signer><id>99</id></signer><id>7</id></file>")).2.id = 99 ∧
    (LayoutDef.create.loadString (b! "<previewLayout><name>a</name></previewLayout>")).2.name = some (b! "a") ∧
    (LayoutDef.create.loadString (b! "<previewLayout><author><name>joe</name></author><name>a</name></previewLayout>")).2.name =
      some (b! "joe") := by
  decide +kernel

end Afs
