import Verif.Proof.Cut4
import Verif.Proof.XmlDoc
import Verif.Proof.Under
/-!
# Documents cut short: loaders
-/
namespace Afs
open Spec Spec.Grammar Xml

/-- A text that begins with the declaration, cut behind it. -/
theorem any_cut {dec} (hd : GoodDec dec) (hp : PartDec dec) {t : List Char} (ht : ∀ c ∈ t, Allowed c) {v : Node}
    (hv : Xml.loadData (dec (declaration ++ utf8File t)) = some v) (k : Nat) :
    Xml.loadData (dec (declaration ++ (utf8File t).take k)) = none ∨
    ∃ kids, v = .elem xmlDecl [] kids ∧ ∃ pre, pre <+: kids ∧
      (Xml.loadData (dec (declaration ++ (utf8File t).take k)) = some (.elem xmlDecl [] pre) ∨
       ∃ b, Xml.loadData (dec (declaration ++ (utf8File t).take k)) = some (.elem xmlDecl [] (pre ++ [.elem b [] []]))) := by
  rw [eofs_feed, feed_declaration hd, feed_R hd _ ht] at hv
  rw [eofs_feed, feed_declaration hd]
  obtain ⟨j, hj⟩ := feed_take hd hp (content ([], []) xmlDecl [] [] none) ht k
  rw [show eofs (feed dec (content ([], []) xmlDecl [] [] none) ((utf8File t).take k)) =
    eofs (R (content ([], []) xmlDecl [] [] none) (t.take j)) from hj]
  cases hu : eofs (R (content ([], []) xmlDecl [] [] none) (t.take j)) with
  | none => exact .inl rfl
  | some u =>
    right
    have hg : Grown xmlDecl (content ([], []) xmlDecl [] [] none) [] := grown_of (.inl rfl) (by decide) (fun e => by cases e)
    obtain ⟨ks, _, hg'⟩ := grown_run hg ((t.take j).map fun c => some c.toNat)
    have hv' : eofs (run (R (content ([], []) xmlDecl [] [] none) (t.take j)) ((t.drop j).map fun c => some c.toNat)) = some v := by
      rw [← hv]
      show eofs (R (R _ _) _) = _
      rw [← R_append, List.take_append_drop]
    obtain ⟨kids, h1, pre, h2, h3⟩ := cut_any (s := R (content ([], []) xmlDecl [] [] none) (t.take j)) hg' hv' hu
    refine ⟨kids, h1, pre, h2, ?_⟩
    rcases h3 with h3 | ⟨b, h3⟩
    · exact .inl (by rw [h3])
    · exact .inr ⟨b, by rw [h3]⟩

theorem selfOrFind_noName {n : Bytes} {T : Node} (h : NoName n T) : selfOrFind T n = none := by
  unfold selfOrFind
  rw [if_neg (by simp [h.1])]
  cases T with
  | text s => unfold find; rw [descendants]; rfl
  | elem m as cs => rw [find_eq_findL]; exact findL_none fun hm => (h.2 n hm).2 rfl

theorem find_noName {n : Bytes} {T : Node} (h : NoName n T) : find T n = none := by
  have := selfOrFind_noName h
  unfold selfOrFind at this
  rwa [if_neg (by simp [h.1])] at this

theorem findL_texts {W : List Node} (h : ∀ x ∈ W, isElem x = false) (nm : Bytes) : findL W nm = none := by
  apply findL_none
  induction W with
  | nil => rw [namesOf_nil]; simp
  | cons x W ih =>
    cases x with
    | elem a b d =>
      have h' := h (.elem a b d) (List.mem_cons_self ..)
      simp [isElem] at h'
    | text t => rw [namesOf_text]; exact ih fun y hy => h y (by simp [hy])

theorem find_emptyRoot {W : List Node} (h : ∀ x ∈ W, isElem x = false) (n : Bytes) :
    find (.elem xmlDecl [] (W ++ [.elem n [] []])) n = some (.elem n [] []) := by
  rw [find_eq_findL, findL_append, findL_texts h, Option.none_or]
  exact findL_self _ _ _ _

theorem selfOrFind_emptyRoot {W : List Node} (h : ∀ x ∈ W, isElem x = false) {n : Bytes} (hn : PlainName n) :
    selfOrFind (.elem xmlDecl [] (W ++ [.elem n [] []])) n = some (.elem n [] []) := by
  have hnd : xmlDecl ≠ n := by rintro rfl; exact absurd hn (by decide)
  unfold selfOrFind
  rw [if_neg, find_emptyRoot h]
  show ¬ (some xmlDecl == some n) = true
  simpa using hnd

/-- A file cut short, for any loader. -/
theorem file_cut {o : Bool} {cb : SaveCb} (hcb : SpaceCb cb) {compact : Bool} {n : Bytes} {as cs} (hn : PlainName n)
    (hs : Savable (.elem n as cs)) (hb : cb [] (Node.newXML.addChild (.elem n as cs)) .beforeOpen = [])
    {β : Type} (load : Node → β) (fail : β) {ok : Bool} {s : Bytes}
    (h : docFile o cb compact (some (.elem n as cs)) = (ok, some s)) (k : Nat) :
    loadFromFile load fail (s.take k) = fail ∨ loadFromFile load fail (s.take k) = loadFromFile load fail s ∨
    (StopsByName n (s.take k) ∧ ∃ T, NoName n T ∧ loadFromFile load fail (s.take k) = load T) ∨
    (EndsBehindName n (s.take k) ∧ ∃ W : List Node, (∀ x ∈ W, isElem x = false) ∧
      loadFromFile load fail (s.take k) = load (.elem xmlDecl [] (W ++ [.elem n [] []]))) := by
  have hb' : (if compact then noCb else cb) [] (Node.newXML.addChild (.elem n as cs)) .beforeOpen = [] := by
    cases compact
    · exact hb
    · rfl
  unfold docFile at h
  dsimp only at h
  rw [newXML_addChild] at hb' h
  cases h
  have key := saved_cut good_decodeFile part_decodeFile (spaceCb_if hcb compact).white hn hs.clean hb' k
  dsimp only at key
  unfold loadFromFile
  rcases key with h | h | ⟨h0, T, h1, h2⟩ | ⟨h0, W, h1, h2⟩
  · left
    rw [show Xml.loadFile _ = none from h]
  · right; left
    rw [show Xml.loadFile _ = Xml.loadFile _ from h]
  · right; right; left
    exact ⟨h0, T, h2, by rw [show Xml.loadFile _ = some T from h1]⟩
  · right; right; right
    exact ⟨h0, W, h1, by rw [show Xml.loadFile _ = some _ from h2]⟩

/-- A loader that wants the root element. -/
theorem root_cut {o : Bool} {cb : SaveCb} (hcb : SpaceCb cb) {compact : Bool} {n : Bytes} {as cs} (hn : PlainName n)
    (hs : Savable (.elem n as cs)) (hb : cb [] (Node.newXML.addChild (.elem n as cs)) .beforeOpen = [])
    {β : Type} (load : Node → β) (fail : β) (hl : ∀ T, NoName n T → load T = fail) {ok : Bool} {s : Bytes}
    (h : docFile o cb compact (some (.elem n as cs)) = (ok, some s)) (k : Nat) :
    loadFromFile load fail (s.take k) = fail ∨ loadFromFile load fail (s.take k) = loadFromFile load fail s ∨
    EndsBehindName n (s.take k) := by
  rcases file_cut hcb hn hs hb load fail h k with h | h | ⟨_, T, h1, h2⟩ | ⟨h, _⟩
  · exact .inl h
  · exact .inr (.inl h)
  · exact .inl (h2.trans (hl T h1))
  · exact .inr (.inr h)

/-- A loader that wants something in the root element too. -/
theorem content_cut {o : Bool} {cb : SaveCb} (hcb : SpaceCb cb) {compact : Bool} {n : Bytes} {as cs} (hn : PlainName n)
    (hs : Savable (.elem n as cs)) (hb : cb [] (Node.newXML.addChild (.elem n as cs)) .beforeOpen = [])
    {β : Type} (load : Node → β) (fail : β) (P : β → Prop) (hf : P fail) (hl : ∀ T, NoName n T → load T = fail)
    (he : ∀ W : List Node, (∀ x ∈ W, isElem x = false) → P (load (.elem xmlDecl [] (W ++ [.elem n [] []])))) {ok : Bool} {s : Bytes}
    (h : docFile o cb compact (some (.elem n as cs)) = (ok, some s)) (k : Nat) :
    P (loadFromFile load fail (s.take k)) ∨ loadFromFile load fail (s.take k) = loadFromFile load fail s := by
  rcases file_cut hcb hn hs hb load fail h k with h | h | ⟨_, T, h1, h2⟩ | ⟨_, W, h1, h2⟩
  · exact .inl (by rw [h]; exact hf)
  · exact .inr h
  · exact .inl (by rw [h2, hl T h1]; exact hf)
  · exact .inl (by rw [h2]; exact he W h1)

/-- A loader that does not care. -/
theorem list_cut {o : Bool} {cb : SaveCb} (hcb : SpaceCb cb) {compact : Bool} {n : Bytes} {as cs} (hn : PlainName n)
    (hs : Savable (.elem n as cs)) (hb : cb [] (Node.newXML.addChild (.elem n as cs)) .beforeOpen = [])
    {β : Type} (load : Node → β) (fail : β) {ok : Bool} {s : Bytes}
    (h : docFile o cb compact (some (.elem n as cs)) = (ok, some s)) (k : Nat) :
    loadFromFile load fail (s.take k) = fail ∨ loadFromFile load fail (s.take k) = loadFromFile load fail s ∨
    StopsByName n (s.take k) := by
  rcases file_cut hcb hn hs hb load fail h k with h | h | ⟨h, _⟩ | ⟨⟨w, h1, h2⟩, _⟩
  · exact .inl h
  · exact .inr (.inl h)
  · exact .inr (.inr h)
  · exact .inr (.inr ⟨w, h1, h2 ▸ List.prefix_refl _⟩)

/-- Somewhere the text is cut behind the name of the root, and there it is read as an empty root. -/
theorem name_cut {o : Bool} {cb : SaveCb} (hcb : SpaceCb cb) {compact : Bool} {n : Bytes} {as cs} (hn : PlainName n)
    (hb : cb [] (Node.newXML.addChild (.elem n as cs)) .beforeOpen = []) {ok : Bool} {s : Bytes}
    (h : docFile o cb compact (some (.elem n as cs)) = (ok, some s)) :
    ∃ k < s.length, ∃ W : List Node, (∀ x ∈ W, isElem x = false) ∧
      Xml.loadFile (s.take k) = some (.elem xmlDecl [] (W ++ [.elem n [] []])) := by
  have hb' : (if compact then noCb else cb) [] (Node.newXML.addChild (.elem n as cs)) .beforeOpen = [] := by
    cases compact
    · exact hb
    · rfl
  unfold docFile at h
  dsimp only at h
  rw [newXML_addChild] at hb' h
  cases h
  obtain ⟨W, c, r, hW, hcc, e, _⟩ := save_form (spaceCb_if hcb compact).white (as := as) (cs := cs) hn hb'
  rw [e]
  refine ⟨(declaration ++ (W ++ (60 :: n))).length, by simp, (flushRev W []).reverse, ?_, ?_⟩
  · unfold flushRev
    split
    · simp
    · intro x hx; simp at hx; subst hx; rfl
  · rw [show declaration ++ (W ++ (60 :: (n ++ c :: r))) = (declaration ++ (W ++ (60 :: n))) ++ c :: r by simp, List.take_left' rfl]
    have ef := feed_head good_decodeFile hW hn.2 []
    rw [List.append_nil, feed_nil good_decodeFile] at ef
    show Xml.loadData (decodeFile _) = _
    rw [eofs_feed, ef, eofs_name hn.2]

/-- Somewhere the text is cut behind the declaration. -/
theorem decl_cut {o : Bool} {cb : SaveCb} (hcb : SpaceCb cb) {compact : Bool} {n : Bytes} {as cs} (hn : PlainName n)
    (hb : cb [] (Node.newXML.addChild (.elem n as cs)) .beforeOpen = []) {ok : Bool} {s : Bytes}
    (h : docFile o cb compact (some (.elem n as cs)) = (ok, some s)) :
    declaration.length < s.length ∧ Xml.loadFile (s.take declaration.length) = some (.elem xmlDecl [] []) := by
  have hb' : (if compact then noCb else cb) [] (Node.newXML.addChild (.elem n as cs)) .beforeOpen = [] := by
    cases compact
    · exact hb
    · rfl
  unfold docFile at h
  dsimp only at h
  rw [newXML_addChild] at hb' h
  cases h
  obtain ⟨W, c, r, hW, hcc, e, _⟩ := save_form (spaceCb_if hcb compact).white (as := as) (cs := cs) hn hb'
  rw [e]
  refine ⟨by simp; omega, ?_⟩
  rw [List.take_left' rfl]
  have ef := feed_declaration good_decodeFile []
  rw [List.append_nil, feed_nil good_decodeFile] at ef
  show Xml.loadData (decodeFile _) = _
  rw [eofs_feed, ef, eofs_content]
  rfl

/-- The same for the second of two elements. -/
theorem second_cut {cb : SaveCb} (hcb : WhiteCb cb) {n m : Bytes} {as bs : List (Bytes × Option Bytes)} {cs ds : List Node}
    (hn : PlainName n) (hm : PlainName m) (hc : CleanTree (.elem n as cs))
    (hb : cb [] (.elem xmlDecl [] [.elem n as cs, .elem m bs ds]) .beforeOpen = []) :
    ∃ k < (saveText cb [] (.elem xmlDecl [] [.elem n as cs, .elem m bs ds])).length, ∃ A B : List Node,
      (∀ x ∈ A ++ B, isElem x = false) ∧
      Xml.loadFile ((saveText cb [] (.elem xmlDecl [] [.elem n as cs, .elem m bs ds])).take k) =
        some (.elem xmlDecl [] (A ++ withWhite cb [xmlDecl] (.elem n as cs) :: (B ++ [.elem m [] []]))) := by
  obtain ⟨w, hw, e⟩ := saveText_newline cb [] (.elem xmlDecl [] [.elem n as cs, .elem m bs ds])
  obtain ⟨c, r, hcc, hd⟩ := writeNode_head (cb := cb) (anc := [xmlDecl]) (as := bs) (cs := ds) hm
  have hwr : writeNode cb [] (.elem xmlDecl [] [.elem n as cs, .elem m bs ds]) = declaration ++
      (cb [] (.elem xmlDecl [] [.elem n as cs, .elem m bs ds]) .afterOpen ++ (writeNode cb [xmlDecl] (.elem n as cs) ++
        writeNode cb [xmlDecl] (.elem m bs ds))) := by
    rw [declaration_eq, writeNode, writeNodes, writeNodes, writeNodes, hb]
    have h1 : writeOpenName xmlDecl = xmlDecl := by decide
    have h2 : isDirective xmlDecl = true := by decide
    simp [h1, h2]
  obtain ⟨ww, _, _, hit⟩ := writeNode_elem cb [xmlDecl] (as := as) hn cs
  generalize hW1 : cb [] (.elem xmlDecl [] [.elem n as cs, .elem m bs ds]) .afterOpen = W1 at *
  generalize hW2 : cb [xmlDecl] (.elem m bs ds) .beforeOpen = W2 at *
  generalize hW3 : cb [xmlDecl] (.elem n as cs) .beforeOpen = W3 at *
  generalize hW4 : cb [xmlDecl] (.elem n as cs) ww = W4 at *
  have w1 : ∀ c ∈ W1, c = 32 ∨ c = 9 ∨ c = 10 ∨ c = 13 := hW1 ▸ hcb _ _ _
  have w2 : ∀ c ∈ W2, c = 32 ∨ c = 9 ∨ c = 10 ∨ c = 13 := hW2 ▸ hcb _ _ _
  have flush : ∀ b : Bytes, ∀ x ∈ (flushRev b []).reverse, isElem x = false := by
    intro b
    unfold flushRev
    split
    · simp
    · intro x hx; simp at hx; subst hx; rfl
  rw [e, hwr, hd]
  refine ⟨(declaration ++ (W1 ++ (writeNode cb [xmlDecl] (.elem n as cs) ++ (W2 ++ (60 :: m))))).length, by simp,
    (flushRev (W1 ++ W3) []).reverse, (flushRev (W4 ++ W2) []).reverse, ?_, ?_⟩
  · intro x hx
    rcases List.mem_append.mp hx with h | h <;> exact flush _ x h
  · rw [show declaration ++ (W1 ++ (writeNode cb [xmlDecl] (.elem n as cs) ++ (W2 ++ 60 :: (m ++ c :: r)))) ++ w =
      (declaration ++ (W1 ++ (writeNode cb [xmlDecl] (.elem n as cs) ++ (W2 ++ (60 :: m))))) ++ (c :: r ++ w) by simp, List.take_left' rfl]
    have ef : feed decodeFile PS.init (declaration ++ (W1 ++ (writeNode cb [xmlDecl] (.elem n as cs) ++ (W2 ++ (60 :: (m ++ [])))))) =
        { content ([], flushRev (W4 ++ W2) (withWhite cb [xmlDecl] (.elem n as cs) :: flushRev (W1 ++ W3) [])) xmlDecl [] [] none with
          pc := .name m } := by
      rw [feed_declaration good_decodeFile, feed_content_white good_decodeFile w1, reads_node good_decodeFile hcb hc,
        feed_content_white good_decodeFile w2, feed_byte good_decodeFile (by decide), show (60 : UInt8).toNat = 60 from rfl, step_lt,
        feed_name good_decodeFile _ hm.2, feed_nil good_decodeFile, hit]
      simp only [List.foldl, itemStep, List.nil_append]
    rw [List.append_nil] at ef
    show Xml.loadData (decodeFile _) = _
    rw [eofs_feed, ef, eofs_name hm.2]
    congr 2
    unfold flushRev
    split <;> split <;> simp

end Afs
