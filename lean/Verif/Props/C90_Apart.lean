import Verif.Props.C88_BuiltControl
/-!
# C90: saved texts tell objects apart

Two objects built by calls of the library with clean arguments that have the same saved text are the same object: no two different
contents are written alike, in any of the ways of saving, compact or indented.  So whoever compares two saved texts (or checksums of them, as far as these
tell texts apart) compares the objects.
-/
namespace Afs
open Spec Xml Keep

theorem settled_same {ι α : Type} {w : ι → Way α} {a b a' b' : α} (ha : Settles w a a') (hb : Settles w b b') {i j : ι}
    (hl : (w i).load = (w j).load) (h : (w i).save a = (w j).save b) : a' = b' := by
  obtain ⟨s, h1, h2⟩ := ha.1 i
  obtain ⟨t, h3, h4⟩ := hb.1 j
  rw [h1, h3] at h
  cases h
  rw [← hl] at h4
  exact Option.some.inj (h2.symm.trans h4)

/-- Previews. -/
theorem C90_preview {p q : Preview} (hp : Built (.preview p)) (hq : Built (.preview q)) (vp : Preview.isValid (some p) = true)
    (vq : Preview.isValid (some q) = true) (kp : PreviewKept p) (kq : PreviewKept q) (c c' f : Bool)
    (h : (previewWay ⟨c, f⟩).save p = (previewWay ⟨c', f⟩).save q) : p = q :=
  settled_same (C87_preview hp vp kp) (C87_preview hq vq kq) (by cases f <;> rfl) h

/-- Lists of layout definitions. -/
theorem C90_layouts {d e : LayoutDefs} (hd : Built (.layouts d)) (he : Built (.layouts e)) (c c' f : Bool)
    (h : (layoutsWay ⟨c, f⟩).save d = (layoutsWay ⟨c', f⟩).save e) : d = e := settled_same (C87_layouts hd) (C87_layouts he) (by cases f <;> rfl) h

/-- Metadata of tables of contents. -/
theorem C90_metadata {m n : TocMeta} (hm : Built (.tocMeta m)) (hn : Built (.tocMeta n)) (vm : TocMeta.isValid (some m) = true)
    (vn : TocMeta.isValid (some n) = true) (c c' f : Bool)
    (h : (tocMetaWay ⟨c, f⟩).save m = (tocMetaWay ⟨c', f⟩).save n) : m = n :=
  settled_same (C87_metadata hm vm) (C87_metadata hn vn) (by cases f <;> rfl) h

/-- File entries. -/
theorem C90_file {f g : File} (hf : Built (.file f)) (hg : Built (.file g)) (vf : f.isValid = true) (vg : g.isValid = true)
    (kf : FileKept f) (kg : FileKept g) (cf : FileComplete f) (cg : FileComplete g) (i : FileHow)
    (h : (fileWay i).save f = (fileWay i).save g) : f = g :=
  settled_same (C87_file_same hf vf kf cf) (C87_file_same hg vg kg cg) rfl h

/-- A table of contents that can be saved as it is: valid, its entries complete, no container without entries. -/
def Spec.TocComplete (t : TocData) : Prop :=
  t.isValid = true ∧ (∀ r ∈ t.reelList, ∀ f ∈ r.list, FileKept f ∧ FileComplete f) ∧
    t.metadata ≠ some ⟨none⟩ ∧ t.layouts ≠ some ⟨none⟩ ∧ t.reels ≠ some ⟨none⟩

/-- Tables of contents. -/
theorem C90_toc {a b : TocData} (ha : Built (.toc a)) (hb : Built (.toc b)) (ca : TocComplete a) (cb : TocComplete b) (c c' f : Bool)
    (h : (tocWay ⟨c, f⟩).save a = (tocWay ⟨c', f⟩).save b) : a = b :=
  settled_same (C87_toc_same ha ca.1 ca.2.1 ca.2.2.1 ca.2.2.2.1 ca.2.2.2.2) (C87_toc_same hb cb.1 cb.2.1 cb.2.2.1 cb.2.2.2.1 cb.2.2.2.2) (by cases f <;> rfl) h

/-- In terms of the text: the texts agree exactly when the tables do, and when one is compact and the other indented, only then. -/
theorem C90_toc_iff {a b : TocData} (ha : Built (.toc a)) (hb : Built (.toc b)) (ca : TocComplete a) (cb : TocComplete b) (c c' : Bool) :
    (a.saveString c = b.saveString c ↔ a = b) ∧ (a.saveString c = b.saveString c' → a = b) :=
  ⟨⟨fun h => C90_toc ha hb ca cb c c false h, fun h => h ▸ rfl⟩, fun h => C90_toc ha hb ca cb c c' false h⟩

section
variable {L : ConfigLib}

/-- Administrative metadata. -/
theorem C90_admin (hL : LawfulConfig L) {a b : Admin} (ha : BuiltControl (L := L) (.admin a)) (hb : BuiltControl (L := L) (.admin b))
    (c c' f : Bool)
    (h : (adminWay ⟨c, f⟩).save a = (adminWay ⟨c', f⟩).save b) : a = b := settled_same (C88_admin hL ha) (C88_admin hL hb) (by cases f <;> rfl) h

/-- Control data: with the same saved text, administrative metadata are the same, and technical metadata have a copy in common. -/
theorem C90_control (hL : LawfulConfig L) {x y : ControlData L} (hx : BuiltControl (.control x)) (hy : BuiltControl (.control y))
    {a b : Admin} (ha : x.admin = some a) (hb : y.admin = some b) {t u : TechMeta L} (ht : x.tech = some t) (hu : y.tech = some u)
    (t1 : t.format ≠ none) (u1 : u.format ≠ none) (t2 : t.tocs ≠ none) (u2 : u.tocs ≠ none)
    (kt : ∀ l, t.tocs = some l ∨ t.apps = some l → ∀ f ∈ l.list, FileKept f)
    (ku : ∀ l, u.tocs = some l ∨ u.apps = some l → ∀ f ∈ l.list, FileKept f) (i : How)
    (h : (controlWay L i).save x = (controlWay L i).save y) : a = b ∧ ∃ v, TechCopy t v ∧ TechCopy u v := by
  have sx := C88_control hL hx ha ht t1 t2 kt
  have sy := C88_control hL hy hb hu u1 u2 ku
  obtain ⟨s, z, e1, e2⟩ := (sx x (.none x)).2 i
  obtain ⟨hz1, v, hv, hz2⟩ := (sx z (.more i (.none x) e1 e2)).1
  obtain ⟨hz3, w, hw, hz4⟩ := (sy z (.more i (.none y) (h ▸ e1) e2)).1
  rw [hv] at hw
  cases hw
  have : x.admin = y.admin := hz1.symm.trans hz3
  rw [ha, hb] at this
  exact ⟨Option.some.inj this, v, hz2, hz4⟩

end

/-! ### An example -/

/-- A preview with one page that starts in the given section. -/
def startingIn (n : Nat) : Preview := ⟨some [⟨some (b! "1"), 5, n, 3, 10, 10, 0, 0⟩], -1⟩

/-- Two such previews that start in different sections have different texts, compact or indented. -/
example (c c' : Bool) : (startingIn 0).saveString c ≠ (startingIn 1).saveString c' := by
  have made : ∀ n : Nat, Page.writable ⟨some (b! "1"), 5, n, 3, 10, 10, 0, 0⟩ → Built (.preview (startingIn n)) := by
    intro n hn
    have := Built.previewAdd (x := some ⟨some (b! "1"), 5, n, 3, 10, 10, 0, 0⟩) .previewNew (fun y e => by cases e; exact hn)
    exact this
  have kept : ∀ n, PreviewKept (startingIn n) := by
    intro n
    refine ⟨Int.le_refl (-1), ?_⟩
    intro g hg
    cases List.mem_singleton.mp hg
    exact ⟨⟨fun h => h, fun h => h⟩, ⟨fun h => h, fun h => h⟩⟩
  intro h
  have := C90_preview (made 0 ⟨attrField_ascii (by decide), by decide⟩) (made 1 ⟨attrField_ascii (by decide), by decide⟩) (by decide) (by decide)
    (kept 0) (kept 1) c c' false h
  cases this

end Afs
