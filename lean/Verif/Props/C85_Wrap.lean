import Verif.Proof.Wrap
import Verif.Props.C26_Toc
import Verif.Proof.Grammar5
/-!
# C85: the wrap margin of mini-XML and the saves

The margin is a variable of mini-XML that all its users share (mxml-file.c:580-587; the default is 72).  Every save of afs sets
it to 0 before it writes, so that no line is broken; but other users, in other threads or in callbacks, may set it at any moment.
-/
namespace Afs
open Spec Xml

theorem alloc_no {m : Margins} (h : ∀ k, (m k).1 ≤ 0) (cb : SaveCb) (anc : List Bytes) (n : Bytes) (as cs) :
    wrapAlloc m cb anc (.elem n as cs) = saveAllocString cb anc (.elem n as cs) := by
  obtain ⟨k, h1, _⟩ := wrapAlloc_eq m cb anc (.elem n as cs) (saveText_ne cb anc n as cs)
  rw [h1, wrapText_no h, saveAlloc_elem]

/-- As long as the margin is 0 (or less) at every read, every element is saved as by the writer without margin that the
    other properties are about: as a document, as an element, into a file; indented or not; with any whitespace callback. -/
theorem C85_alone (m : Margins) (h : ∀ k, (m k).1 ≤ 0) (cb : SaveCb) (compact openFirst : Bool) (n : Bytes) (as cs) :
    docStringW m cb compact (some (.elem n as cs)) = docString cb compact (some (.elem n as cs)) ∧
    elemStringW m cb compact (some (.elem n as cs)) = elemString cb compact (some (.elem n as cs)) ∧
    docFileW m openFirst cb compact (some (.elem n as cs)) = docFile openFirst cb compact (some (.elem n as cs)) := by
  refine ⟨alloc_no h _ _ _ _ _, alloc_no h _ _ _ _ _, ?_⟩
  unfold docFileW docFile
  dsimp only
  rw [wrapText_no h]

/-- With any margins, set by anybody at any moment, a save gives the text it would have given, but for line ends in place of
    some of its blanks.  (In particular the same number of bytes, so that the second pass of `mxmlSaveAllocString`
    always finds the length the first one has counted, although the margin may have changed in between.) -/
theorem C85_breaks (m : Margins) (cb : SaveCb) (compact openFirst : Bool) (n : Bytes) (as cs) :
    (∃ t w, docString cb compact (some (.elem n as cs)) = some t ∧ docStringW m cb compact (some (.elem n as cs)) = some w ∧ Broken w t) ∧
    (∃ t w, elemString cb compact (some (.elem n as cs)) = some t ∧ elemStringW m cb compact (some (.elem n as cs)) = some w ∧ Broken w t) ∧
    (∃ t w, docFile openFirst cb compact (some (.elem n as cs)) = (true, some t) ∧
      docFileW m openFirst cb compact (some (.elem n as cs)) = (true, some w) ∧ Broken w t) := by
  refine ⟨?_, ?_, _, _, rfl, rfl, wrapText_broken _ _ _ _ _⟩
  · obtain ⟨k, h1, _⟩ := wrapAlloc_eq m (if compact then noCb else cb) [] (.elem xmlDecl [] [.elem n as cs]) (saveText_ne _ _ _ _ _)
    exact ⟨_, _, saveAlloc_elem _ _ _ _ _, h1, wrapText_broken _ _ _ _ _⟩
  · obtain ⟨k, h1, _⟩ := wrapAlloc_eq m (if compact then noCb else cb) [xmlDecl] (.elem n as cs) (saveText_ne _ _ _ _ _)
    exact ⟨_, _, saveAlloc_elem _ _ _ _ _, h1, wrapText_broken _ _ _ _ _⟩

/-- The part of an element that can be written at all. -/
theorem white_if {cb : SaveCb} (h : WhiteCb cb) (compact : Bool) : WhiteCb (if compact then noCb else cb) := by
  cases compact
  · exact h
  · intro anc n w c hc; simp [noCb] at hc

/-- And such a text is read, as a string or a file, as the same tree as the text without margin: no margin, however it changes
    while a document is written, changes what the document says. -/
theorem C85_same_tree (m : Margins) {cb : SaveCb} (hcb : WhiteCb cb) (compact openFirst : Bool)
    {n : Bytes} {as : List (Bytes × Option Bytes)} {cs : List Node} (hn : PlainName n) (has : CleanAttrs as) (hcs : ∀ c ∈ cs, CleanTree c) :
    (∃ t w, docString cb compact (some (.elem n as cs)) = some t ∧ docStringW m cb compact (some (.elem n as cs)) = some w ∧
      Xml.loadString w = Xml.loadString t ∧ Xml.loadFile w = Xml.loadFile t) ∧
    (∃ t w, elemString cb compact (some (.elem n as cs)) = some t ∧ elemStringW m cb compact (some (.elem n as cs)) = some w ∧
      Xml.loadString w = Xml.loadString t ∧ Xml.loadFile w = Xml.loadFile t) ∧
    (∃ t w, docFile openFirst cb compact (some (.elem n as cs)) = (true, some t) ∧
      docFileW m openFirst cb compact (some (.elem n as cs)) = (true, some w) ∧
      Xml.loadString w = Xml.loadString t ∧ Xml.loadFile w = Xml.loadFile t) := by
  have hw := white_if hcb compact
  refine ⟨?_, ?_, _, _, rfl, rfl, load_wrap_doc good_decode m _ hw hn has hcs, load_wrap_doc good_decodeFile m _ hw hn has hcs⟩
  · obtain ⟨k, h1, _⟩ := wrapAlloc_eq m (if compact then noCb else cb) [] (.elem xmlDecl [] [.elem n as cs]) (saveText_ne _ _ _ _ _)
    exact ⟨_, _, saveAlloc_elem _ _ _ _ _, h1, load_wrap_doc good_decode m _ hw hn has hcs, load_wrap_doc good_decodeFile m _ hw hn has hcs⟩
  · obtain ⟨k, h1, _⟩ := wrapAlloc_eq m (if compact then noCb else cb) [xmlDecl] (.elem n as cs) (saveText_ne _ _ _ _ _)
    exact ⟨_, _, saveAlloc_elem _ _ _ _ _, h1, load_wrap_elem good_decode m _ hw _ hn has hcs, load_wrap_elem good_decodeFile m _ hw _ hn has hcs⟩

theorem same_string {β : Type} {w t : Bytes} (hb : Broken w t) (h : Xml.loadString w = Xml.loadString t) (load : Node → β) (fail : β) :
    loadFromString load fail w = loadFromString load fail t := by
  unfold loadFromString
  rw [hb.length_eq, h]

theorem same_file {β : Type} {w t : Bytes} (h : Xml.loadFile w = Xml.loadFile t) (load : Node → β) (fail : β) :
    loadFromFile load fail w = loadFromFile load fail t := by
  unfold loadFromFile
  rw [h]

/-- So with every load function, of a string or of a file, the result is the one of the text without margin. -/
theorem C85_objects (m : Margins) {cb : SaveCb} (hcb : WhiteCb cb) (compact openFirst : Bool)
    {n : Bytes} {as : List (Bytes × Option Bytes)} {cs : List Node} (hn : PlainName n) (has : CleanAttrs as) (hcs : ∀ c ∈ cs, CleanTree c)
    {β : Type} (load : Node → β) (fail : β) :
    (∃ t w, docString cb compact (some (.elem n as cs)) = some t ∧ docStringW m cb compact (some (.elem n as cs)) = some w ∧
      loadFromString load fail w = loadFromString load fail t ∧ loadFromFile load fail w = loadFromFile load fail t) ∧
    (∃ t w, elemString cb compact (some (.elem n as cs)) = some t ∧ elemStringW m cb compact (some (.elem n as cs)) = some w ∧
      loadFromString load fail w = loadFromString load fail t ∧ loadFromFile load fail w = loadFromFile load fail t) ∧
    (∃ t w, docFile openFirst cb compact (some (.elem n as cs)) = (true, some t) ∧
      docFileW m openFirst cb compact (some (.elem n as cs)) = (true, some w) ∧
      loadFromString load fail w = loadFromString load fail t ∧ loadFromFile load fail w = loadFromFile load fail t) := by
  obtain ⟨⟨t1, w1, a1, b1, c1, d1⟩, ⟨t2, w2, a2, b2, c2, d2⟩, ⟨t3, w3, a3, b3, c3, d3⟩⟩ := C85_same_tree m hcb compact openFirst hn has hcs
  obtain ⟨⟨t1', w1', a1', b1', k1⟩, ⟨t2', w2', a2', b2', k2⟩, ⟨t3', w3', a3', b3', k3⟩⟩ := C85_breaks m cb compact openFirst n as cs
  obtain rfl := Option.some.inj (a1.symm.trans a1')
  obtain rfl := Option.some.inj (b1.symm.trans b1')
  obtain rfl := Option.some.inj (a2.symm.trans a2')
  obtain rfl := Option.some.inj (b2.symm.trans b2')
  obtain rfl := Option.some.inj (congrArg Prod.snd (a3.symm.trans a3'))
  obtain rfl := Option.some.inj (congrArg Prod.snd (b3.symm.trans b3'))
  exact ⟨⟨_, _, a1, b1, same_string k1 c1 _ _, same_file d1 _ _⟩, ⟨_, _, a2, b2, same_string k2 c2 _ _, same_file d2 _ _⟩,
    ⟨_, _, a3, b3, same_string k3 c3 _ _, same_file d3 _ _⟩⟩

/-- In particular a table of contents that can be saved: indented or not, through a string or a file, into any object, it
    loads as C26 says, whatever the margins were. -/
theorem C85_toc (m : Margins) (t : TocData) (h : t.writable) (before : TocData) (compact : Bool) :
    (∃ w, docStringW m TocData.cb compact t.saveXml = some w ∧ before.loadString w = .ok (true, t.asLoaded)) ∧
    (∃ w, docFileW m true TocData.cb compact t.saveXml = (true, some w) ∧ before.loadFile w = .ok (true, t.asLoaded)) := by
  obtain ⟨⟨s1, a1, b1⟩, ⟨s2, a2, b2⟩⟩ := C26_toc_general t h before compact
  unfold TocData.saveString at a1
  unfold TocData.saveFile at a2
  rw [if_neg (by simp [h.1])] at a2
  rw [TocData.saveXml_eq h] at a1 a2 ⊢
  have hs := TocData.node_savable h
  obtain ⟨has, hcs⟩ := clean_split (n := b! "Index") (by decide) hs
  obtain ⟨⟨t1, w1, c1, d1, e1, _⟩, _, ⟨t3, w3, c3, d3, _, e3⟩⟩ :=
    C85_objects m tocCb_space.white compact true (n := b! "Index") (by decide) has hcs before.loadXml (.ok (false, before))
  refine ⟨⟨w1, d1, ?_⟩, ⟨w3, d3, ?_⟩⟩
  · obtain rfl := Option.some.inj (c1.symm.trans a1)
    exact e1.trans b1
  · obtain rfl := Option.some.inj (congrArg Prod.snd (c3.symm.trans a2))
    exact e3.trans b2

/-- Threads that only save with afs, in any interleaving and from any margin an application may have left: whatever a save reads is 0, and it
    writes what it would have written alone. -/
theorem C85_threads (w : Int) (l : List (Nat × Access)) (h : ∀ t, SetsFirst l t) (m : Margins) (hm : Drawn (readValues w l) m)
    (cb : SaveCb) (compact openFirst : Bool) (n : Bytes) (as cs) :
    (∀ x ∈ readValues w l, x.2 = 0) ∧
    docStringW m cb compact (some (.elem n as cs)) = docString cb compact (some (.elem n as cs)) ∧
    elemStringW m cb compact (some (.elem n as cs)) = elemString cb compact (some (.elem n as cs)) ∧
    docFileW m openFirst cb compact (some (.elem n as cs)) = docFile openFirst cb compact (some (.elem n as cs)) := by
  have h0 := readValues_first w l (fun t v hv => (h t).2 v hv) (fun t => (h t).1)
  refine ⟨h0, C85_alone m (fun k => ?_) cb compact openFirst n as cs⟩
  rcases hm k with e | ⟨t, e⟩
  · omega
  · have := h0 _ e
    simp only at this
    omega

/-- One save leaves the margin at 0 for everybody: what the application had set is gone (mxml-file.c:586). -/
theorem C85_side_effect (w : Int) (t u : Nat) : readValues w [(t, .set 0), (u, .read)] = [(u, 0)] := rfl

/-- The saves need their `mxmlSetWrapMargin(0)`: with the default margin of 72 a document like this one is broken. -/
def wideElem : Node := .elem (b! "file") [(b! "name", some (List.replicate 40 97)), (b! "path", some (List.replicate 40 98))] []

theorem wideElem_clean : CleanTree wideElem :=
  .elem (by decide) ⟨by decide, by
    intro a ha
    rcases List.mem_cons.mp ha with rfl | ha
    · exact ⟨by decide, _, rfl, clean_ascii (by decide)⟩
    · rcases List.mem_cons.mp ha with rfl | ha
      · exact ⟨by decide, _, rfl, clean_ascii (by decide)⟩
      · simp at ha⟩ (by simp)

example : elemStringW (fun _ => (72, 72)) noCb false (some wideElem) =
    some (b! "<file name=\"" ++ List.replicate 40 97 ++ b! "\"\npath=\"" ++ List.replicate 40 98 ++ b! "\" />\n") ∧
    elemStringW (fun _ => (0, 0)) noCb false (some wideElem) =
    some (b! "<file name=\"" ++ List.replicate 40 97 ++ b! "\" path=\"" ++ List.replicate 40 98 ++ b! "\" />\n") := by
  decide +kernel

/-- Two threads that save at the same time. -/
example : ∀ t, SetsFirst [(1, .set 0), (2, .set 0), (1, .read), (2, .read), (1, .set 0), (1, .read)] t := by
  intro t
  refine ⟨?_, ?_⟩
  · by_cases h1 : t = 1
    · subst h1; decide
    · by_cases h2 : t = 2
      · subst h2; decide
      · have e1 : ¬ 1 = t := fun e => h1 e.symm
        have e2 : ¬ 2 = t := fun e => h2 e.symm
        simp [e1, e2]
  · intro v hv
    simp at hv
    omega

end Afs
