import Verif.Props.C89_Extended
import Verif.Proof.NodeEq
/-!
# C69: the layout of a document does not matter

Two documents that differ only in layout (Spec/Relaid.lean: texts, comments, processing instructions and CDATA sections between the
elements, the order of attributes, blanks around the text of text elements, the XML declaration) are loaded alike by every loader:
with the same answer and the same object afterwards, whatever the object held before, and also when the load is refused.
-/
namespace Afs
open Spec Xml Spec.Relaid

theorem between_foreign {x : Node} (h : Between x) : Extended.Foreign x := by
  rcases h with ⟨s, rfl⟩ | ⟨n, as, rfl, h⟩
  · rw [Extended.Foreign]; trivial
  · rw [Extended.Foreign, Extended.ForeignAll]
    refine ⟨fun hn => ?_, trivial⟩
    have key : ∀ m ∈ Extended.knownElements, m.head? ≠ some 33 ∧ m.head? ≠ some 63 := by decide
    rcases h with h | h
    · exact (key n hn).1 h
    · exact (key n hn).2 h

theorem decl_foreign {n : Bytes} (h : (b! "?xml").isPrefixOf n = true) : n ∉ Extended.knownElements := fun hn => by
  have key : ∀ m ∈ Extended.knownElements, (b! "?xml").isPrefixOf m = false := by decide
  rw [key n hn] at h
  cases h

mutual
theorem relaid_extended : ∀ {b : Bool} {t u : Node}, Relaid b t u → Extended.Extended b t u
  | _, _, _, .mk ha hk ht hd => .mk (fun a _ => ha a) (kids_extended hk) ht hd
theorem kids_extended : ∀ {b : Bool} {cs ds : List Node}, Kids b cs ds → Extended.Kids b cs ds
  | _, _, _, .nil => .nil
  | _, _, _, .left h hk => .left (between_foreign h) (kids_extended hk)
  | _, _, _, .right h hk => .right (between_foreign h) (kids_extended hk)
  | _, _, _, .cons h hk => .cons (relaid_extended h) (kids_extended hk)
end

/-- What differs in layout only differs in nothing the library knows. -/
theorem relaidDoc_extended {t u : Node} (h : RelaidDoc t u) : Extended.ExtendedDoc t u := by
  cases h with
  | same h => exact .same (relaid_extended h)
  | decl h1 h2 hk => exact .inside (decl_foreign h1) (decl_foreign h2) (kids_extended hk)

section
variable {t u : Node} (h : RelaidDoc t u)
include h

/-- Preview pages and previews. -/
theorem C69_preview (g : Page) (p : Preview) : g.loadXml t = g.loadXml u ∧ p.loadXml t = p.loadXml u :=
  ⟨g.loadXml_relaid (relaidDoc_extended h), p.loadXml_relaid (relaidDoc_extended h)⟩

/-- Preview sections and layouts (a load of layouts may also be undefined, then both are). -/
theorem C69_layouts (s : Section) (ss : Sections) (d : LayoutDef) (ds : LayoutDefs) :
    s.loadXml t = s.loadXml u ∧ ss.loadXml t = ss.loadXml u ∧ d.loadXml t = d.loadXml u ∧ ds.loadXml t = ds.loadXml u :=
  ⟨s.loadXml_relaid (relaidDoc_extended h), ss.loadXml_relaid (relaidDoc_extended h), d.loadXml_relaid (relaidDoc_extended h), ds.loadXml_relaid (relaidDoc_extended h)⟩

/-- Metadata of tables of contents and of files. -/
theorem C69_metadata (s : MetaSource) (m : TocMeta) (fs : FileMetaSource) (fm : FileMeta) :
    s.loadXml t = s.loadXml u ∧ m.loadXml t = m.loadXml u ∧ fs.loadXml t = fs.loadXml u ∧ fm.loadXml t = fm.loadXml u :=
  ⟨s.loadXml_relaid (relaidDoc_extended h), m.loadXml_relaid (relaidDoc_extended h), fs.loadXml_relaid (relaidDoc_extended h), fm.loadXml_relaid (relaidDoc_extended h)⟩

/-- Files and lists of files. -/
theorem C69_files (f : File) (fs : Files) : f.loadXml t = f.loadXml u ∧ fs.loadXml t = fs.loadXml u :=
  ⟨f.loadXml_relaid (relaidDoc_extended h), fs.loadXml_relaid (relaidDoc_extended h)⟩

/-- Reels and tables of contents. -/
theorem C69_toc (r : Reel) (rs : Reels) (d : TocData) :
    r.loadXml t = r.loadXml u ∧ rs.loadXml t = rs.loadXml u ∧ d.loadXml t = d.loadXml u :=
  ⟨r.loadXml_relaid (relaidDoc_extended h), rs.loadXml_relaid (relaidDoc_extended h), d.loadXml_relaid (relaidDoc_extended h)⟩

/-- Control data and their parts. -/
theorem C69_control {L : ConfigLib} (a : Admin) (f : Format L) (m : TechMeta L) (c : ControlData L) :
    a.loadXml t = a.loadXml u ∧ f.loadXml t = f.loadXml u ∧ m.loadXml t = m.loadXml u ∧ c.loadXml t = c.loadXml u :=
  ⟨a.loadXml_relaid (relaidDoc_extended h), f.loadXml_relaid (relaidDoc_extended h), m.loadXml_relaid (relaidDoc_extended h), c.loadXml_relaid (relaidDoc_extended h)⟩

end

open Spec.Grammar in
/-- For texts: any two XML documents whose trees differ in layout only are loaded alike, from strings and from files, by any
    loader that loads such trees alike (that is, by the `load_string` and `load_file` functions of all the objects above). -/
theorem C69_text {β : Type} (load : Node → β) (hl : ∀ t u, RelaidDoc t u → load t = load u) (fail : β) (s s' : List Char) (t u : Node)
    (hs : Document s t) (hs' : Document s' u) (hf : Char.ofNat 0xFEFF ∉ s) (hf' : Char.ofNat 0xFEFF ∉ s') (h : RelaidDoc t u) :
    loadFromString load fail (utf8File s) = loadFromString load fail (utf8File s') ∧
    loadFromFile load fail (utf8File s) = loadFromFile load fail (utf8File s') ∧
    loadFromString load fail (utf8File s) = loadFromFile load fail (utf8File s) := by
  have e := C54_reads s t hs hf
  have e' := C54_reads s' u hs' hf'
  have nz : ∀ {b : Bytes} {v : Node}, Xml.loadString b = some v → ¬ b.length = 0 := by
    intro b v hb h0
    rw [List.length_eq_zero_iff] at h0
    subst h0
    cases hb
  unfold loadFromString loadFromFile
  rw [if_neg (nz e.1), if_neg (nz e'.1), e.1, e.2, e'.1, e'.2]
  dsimp only
  rw [hl t u h]
  exact ⟨rfl, rfl, rfl⟩

open Spec.Grammar in
/-- For example: a table of contents, control data and a file, from strings and from files. -/
theorem C69_loads {L : ConfigLib} (d : TocData) (c : ControlData L) (f : File) (s s' : List Char) (t u : Node)
    (hs : Document s t) (hs' : Document s' u) (hf : Char.ofNat 0xFEFF ∉ s) (hf' : Char.ofNat 0xFEFF ∉ s') (h : RelaidDoc t u) :
    d.loadString (utf8File s) = d.loadString (utf8File s') ∧ d.loadFile (utf8File s) = d.loadFile (utf8File s') ∧
    c.loadString (utf8File s) = c.loadString (utf8File s') ∧ c.loadFile (utf8File s) = c.loadFile (utf8File s') ∧
    f.loadString (utf8File s) = f.loadString (utf8File s') ∧ f.loadFile (utf8File s) = f.loadFile (utf8File s') := by
  have a := C69_text d.loadXml (fun _ _ h => d.loadXml_relaid (relaidDoc_extended h)) (.ok (false, d)) s s' t u hs hs' hf hf' h
  have b := C69_text c.loadXml (fun _ _ h => c.loadXml_relaid (relaidDoc_extended h)) (false, c) s s' t u hs hs' hf hf' h
  have e := C69_text f.loadXml (fun _ _ h => f.loadXml_relaid (relaidDoc_extended h)) (false, f) s s' t u hs hs' hf hf' h
  exact ⟨a.1, a.2.1, b.1, b.2.1, e.1, e.2.1⟩

/-! ### The relation -/

/-- Nothing but layout differs between a tree and itself. -/
theorem relaid_refl_attrs (as : List (Bytes × Option Bytes)) : SameAttrs as as := fun _ => rfl

mutual
theorem relaid_refl (b : Bool) : ∀ t : Node, t.element ≠ none → Relaid b t t
  | .text _ => fun h => absurd rfl h
  | .elem n as cs => fun _ => .mk (relaid_refl_attrs as) (kids_refl _ cs) (fun _ => sameStart_refl cs) fun _ _ => ⟨rfl, fun _ => sameStart_refl cs⟩
theorem kids_refl (b : Bool) : ∀ cs : List Node, Kids b cs cs
  | [] => .nil
  | .text s :: cs => .left (.inl ⟨s, rfl⟩) (.right (.inl ⟨s, rfl⟩) (kids_refl b cs))
  | .elem n as ks :: cs => .cons (relaid_refl b (.elem n as ks) (fun h => nomatch h)) (kids_refl b cs)
end

mutual
theorem relaid_symm : ∀ {b : Bool} {t u : Node}, Relaid b t u → Relaid b u t
  | _, _, _, .mk ha hk ht hd => .mk (fun a => (ha a).symm) (kids_symm hk) (fun h => sameStart_symm (ht h)) fun h1 h2 =>
      ⟨(hd h1 h2).1.symm, fun h3 => sameStart_symm ((hd h1 h2).2 ((hd h1 h2).1.trans h3))⟩
theorem kids_symm : ∀ {b : Bool} {cs ds : List Node}, Kids b cs ds → Kids b ds cs
  | _, _, _, .nil => .nil
  | _, _, _, .left h hk => .right h (kids_symm hk)
  | _, _, _, .right h hk => .left h (kids_symm hk)
  | _, _, _, .cons h hk => .cons (relaid_symm h) (kids_symm hk)
end

/-- The relation is reflexive (on documents) and symmetric. -/
theorem C69_relation (t u : Node) : (t.element ≠ none → RelaidDoc t t) ∧ (RelaidDoc t u → RelaidDoc u t) := by
  refine ⟨fun h => .same (relaid_refl false t h), fun h => ?_⟩
  cases h with
  | same h => exact .same (relaid_symm h)
  | decl h1 h2 hk => exact .decl h2 h1 (kids_symm hk)

/-! ### An example, and why the condition on text elements is there -/

def exCompact : Node := .elem (b! "file") [(b! "a", some (b! "1")), (b! "formatId", some (b! "png"))]
  [.elem (b! "id") [] [.text (b! "7")], .elem (b! "metadata") [] [.elem (b! "source") [(b! "fileId", some (b! "3"))]
    [.elem (b! "data") [] [Node.newCDATA (b! "<x>")]]]]

def exIndented : Node := .elem (b! "file") [(b! "formatId", some (b! "png")), (b! "a", some (b! "1"))]
  [.text (b! "\n  "), .elem (b! "!-- the number --") [] [], .text (b! "\n  "), .elem (b! "id") [] [.text (b! "\n 7 ")], .text (b! "\n  "),
    .elem (b! "metadata") [] [.text (b! "\n  "), .elem (b! "source") [(b! "fileId", some (b! "3"))]
      [.elem (b! "data") [] [.text (b! "\n    "), Node.newCDATA (b! "<x>"), .text (b! "\n  ")]]]]

theorem exTexts_read :
    Xml.loadString (b! "<file a='1' formatId='png'><id>7</id><metadata><source fileId='3'><data><![CDATA[<x>]]></data></source></metadata></file>") = some exCompact ∧
    Xml.loadString (b! "<file formatId='png' a='1'>\n  <!-- the number -->\n  <id>\n 7 </id>\n  <metadata>\n  <source fileId='3'><data>\n    <![CDATA[<x>]]>\n  </data></source></metadata></file>") = some exIndented := by
  decide +kernel

theorem exRelaid : RelaidDoc exCompact exIndented := by
  have txt : ∀ s : Bytes, Between (.text s) := fun s => .inl ⟨s, rfl⟩
  refine .same (.mk ?_ ?_ (fun h => absurd h (by decide)) (fun _ h => absurd h (by decide)))
  · intro a
    simp only [List.lookup_cons, List.lookup_nil]
    by_cases h1 : a = b! "a"
    · subst h1; rfl
    · by_cases h2 : a = b! "formatId"
      · subst h2; rfl
      · have e1 : (a == b! "a") = false := by simpa using h1
        have e2 : (a == b! "formatId") = false := by simpa using h2
        rw [e1, e2]
  · refine .right (txt _) (.right (.inr ⟨_, _, rfl, .inl rfl⟩) (.right (txt _) (.cons ?_ (.right (txt _) (.cons ?_ .nil)))))
    · exact .mk (fun _ => rfl) (.left (txt _) (.right (txt _) .nil))
        (fun _ => .text ⟨[], [], b! "\n ", b! " ", b! "7", rfl, rfl, by decide⟩) (fun _ h => absurd h (by decide))
    · refine .mk (fun _ => rfl) (.right (txt _) (.cons ?_ .nil)) (fun h => absurd h (by decide)) (fun _ h => absurd h (by decide))
      refine .mk (fun _ => rfl) (.cons ?_ .nil) (fun h => absurd h (by decide)) (fun _ h => absurd h (by decide))
      refine .mk (fun _ => rfl) (.right (txt _) (.cons (relaid_refl _ _ (by decide)) (.right (txt _) .nil))) (fun h => absurd h (by decide)) ?_
      exact fun _ _ => ⟨rfl, fun h => nomatch h⟩

/-- The two texts of `exTexts_read` are loaded alike. -/
example (f : File) (s s' : Bytes) (hs : Xml.loadString s = some exCompact) (hs' : Xml.loadString s' = some exIndented)
    (h : s ≠ []) (h' : s' ≠ []) : f.loadString s = f.loadString s' := by
  unfold File.loadString loadFromString
  rw [if_neg (by simpa using h), if_neg (by simpa using h'), hs, hs']
  exact f.loadXml_relaid (relaidDoc_extended exRelaid)

example (f : File) : f.loadXml exCompact = f.loadXml exIndented := (C69_files exRelaid f Files.create).1

set_option maxRecDepth 100000 in
/-- The start of a text element does count: a comment before the text hides it, and an empty element is not the same as one
    with blanks in it (a missing name and an empty one). -/
theorem C69_start_counts :
    (LayoutDef.create.loadString (b! "<previewLayout><name>a</name></previewLayout>")).2.name = some (b! "a") ∧
    (LayoutDef.create.loadString (b! "<previewLayout><name><!-- c -->a</name></previewLayout>")).2.name = none ∧
    (LayoutDef.create.loadString (b! "<previewLayout><name></name></previewLayout>")).2.name = none ∧
    (LayoutDef.create.loadString (b! "<previewLayout><name> </name></previewLayout>")).2.name = some [] := by
  decide +kernel

end Afs
