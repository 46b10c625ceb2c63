import Verif.Proof.Accepted4
import Verif.Props.C54_C55_Grammar
import Verif.Proof.Cut3
/-!
# C84: exactly which texts the XML reader accepts, and as which tree

Spec/Accepted.lean is a grammar of everything that is accepted, with the tree.  C54 has the
documents of the recommendation (they are accepted), C71 errors that are refused; here nothing is
left open: a text is accepted if and only if it is in the grammar.
-/
namespace Afs
open Spec Spec.Accepted Xml

/-- The reader on what it gets from a text, whatever that is. -/
theorem C84_accepted (l : Stream) (v : Node) : Xml.loadData l = some v ↔ Accepts l v := by
  constructor
  · intro h
    obtain ⟨p, q, h1, h2⟩ := Acc.complete h
    exact ⟨3, p, q, h1, h2⟩
  · rintro ⟨k, p, q, h1, h2⟩
    have e : Xml.loadData (l ++ List.replicate k none) = some v :=
      Acc.sound (p := p) (q := q ++ [none, none, none]) (by rw [h1, List.append_assoc]) h2
    have := eofs_more (Xml.run PS.init l) k
    unfold Xml.loadData at e ⊢
    rw [Xml.run_append] at e
    rw [e] at this
    exact this.symm

/-- Strings and files of any bytes. -/
theorem C84_bytes_read (s : Bytes) (v : Node) :
    (Xml.loadString s = some v ↔ Accepts (decode s) v) ∧ (Xml.loadFile s = some v ↔ Accepts (decodeFile s) v) :=
  ⟨C84_accepted _ v, C84_accepted _ v⟩

/-- Texts of characters XML allows, in UTF-8, as a string or a file. -/
theorem C84_text (cs : List Char) (h : ∀ c ∈ cs, Allowed c) (v : Node) :
    (Xml.loadString (utf8File cs) = some v ↔ Accepts (chars cs) v) ∧ (Xml.loadFile (utf8File cs) = some v ↔ Accepts (chars cs) v) := by
  unfold Xml.loadString Xml.loadFile
  rw [dec_text good_decode cs h, dec_text good_decodeFile cs h]
  exact ⟨C84_accepted _ v, C84_accepted _ v⟩

/-- The same in UTF-16. -/
theorem C84_text_utf16 (bigEndian : Bool) (cs : List Char) (h : ∀ c ∈ cs, Allowed c ∧ ¬ EndsDFFF c) (v : Node) :
    Xml.loadFile (utf16File bigEndian cs) = some v ↔ Accepts (chars cs) v := by
  rw [C52_utf16_file bigEndian cs h]
  exact (C84_text cs (fun c hc => (h c hc).1) v).2

/-- The grammar gives a text at most one tree, and no beginning of it another one. -/
theorem C84_unambiguous (p q : Stream) (v w : Node) (h : Document p v) (h' : Document (p ++ q) w) : v = w := by
  have h1 := Acc.run_document h'
  rw [Acc.run_app, Acc.done_run q _ (Acc.run_document h)] at h1
  injection h1 with h1
  injection h1

/-- What an object does with a text: it is given the tree, if there is one; otherwise the load fails. -/
theorem C84_objects {β : Type} (load : Node → β) (fail : β) (s : Bytes) :
    (∀ v, Accepts (decode s) v → loadFromString load fail s = load v) ∧
    ((¬ ∃ v, Accepts (decode s) v) → loadFromString load fail s = fail) ∧
    (∀ v, Accepts (decodeFile s) v → loadFromFile load fail s = load v) ∧
    ((¬ ∃ v, Accepts (decodeFile s) v) → loadFromFile load fail s = fail) := by
  refine ⟨fun v h => ?_, fun h => ?_, fun v h => ?_, fun h => ?_⟩
  · have := (C84_bytes_read s v).1.mpr h
    unfold loadFromString
    rw [if_neg, this]
    intro e
    cases s with
    | nil => cases this
    | cons => cases e
  · unfold loadFromString
    split
    · rfl
    · cases hv : Xml.loadString s with
      | none => rfl
      | some v => exact absurd ⟨v, (C84_bytes_read s v).1.mp hv⟩ h
  · have := (C84_bytes_read s v).2.mpr h
    unfold loadFromFile
    rw [this]
  · unfold loadFromFile
    cases hv : Xml.loadFile s with
    | none => rfl
    | some v => exact absurd ⟨v, (C84_bytes_read s v).2.mp hv⟩ h

/-- The documents of the recommendation's grammar are among the accepted ones, with the same tree. -/
theorem C84_recommendation (cs : List Char) (v : Node) (h : Grammar.Document cs v) (hf : Char.ofNat 0xFEFF ∉ cs) : Accepts (chars cs) v :=
  (C84_text cs (load_doc good_decode h hf).1 v).1.mp (C54_reads cs v h hf).1

/-- The bytes of a character are its UTF-8 encoding. -/
theorem C84_bytes (c : Char) : addChar c.toNat = String.utf8EncodeChar c := addChar_eq c

/-! ### Some things that can be read off the grammar -/

theorem named_lt {u : Stream} {b : Bytes} {ch : Option Nat} (h : Named u b ch) : some 60 ∈ u := by cases h <;> simp

mutual
theorem inTag_lt : ∀ {t : Stream} {e : Head}, InTag t e → some 60 ∈ t
  | _, _, .name h _ _ => named_lt h
  | _, _, .space h _ => List.mem_append_left _ (inTag_lt h)
  | _, _, .quoted h _ _ _ _ _ => by
    have := inTag_lt h
    simp [this]
  | _, _, .bare h _ => List.mem_append_left _ (inBare_lt h)
theorem inBare_lt : ∀ {t : Stream} {e : Head}, InBare t e → some 60 ∈ t
  | _, _, .mk h _ _ _ _ _ _ => by
    have := inTag_lt h
    simp [this]
end

theorem opening_lt {t : Stream} {e : Head} (h : Opening t e) : some 60 ∈ t := by
  rcases h with h | ⟨b, h | h, _⟩
  · cases h with
    | name h _ => exact named_lt h
    | attrs h => exact List.mem_append_left _ (inTag_lt h)
    | bare h => exact List.mem_append_left _ (inBare_lt h)
    | question h => exact List.mem_append_left _ (inTag_lt h)
  · obtain ⟨u, b0, ch, t, h1, _, _, _, rfl⟩ := h
    have := named_lt h1
    simp [this]
  · cases h with
    | short h _ => exact named_lt h
    | long h _ _ _ =>
      have := named_lt h
      simp [this]

theorem single_lt {t : Stream} {n : Node} (h : Single t n) : some 60 ∈ t := by
  rcases h with ⟨b, h | h, _⟩ | ⟨e, h, _⟩
  · obtain ⟨u, ch, t, h1, _, _, rfl⟩ := h
    have := named_lt h1
    simp [this]
  · obtain ⟨u, ch, t, h1, _, _, rfl⟩ := h
    have := named_lt h1
    simp [this]
  · cases h with
    | name h _ => exact List.mem_append_left _ (named_lt h)
    | attrs h => exact List.mem_append_left _ (inTag_lt h)
    | bare h => exact List.mem_append_left _ (inBare_lt h)

/-- A text without `<` is refused. -/
theorem C84_no_markup (l : Stream) (h : some 60 ∉ l) : Xml.loadData l = none := by
  cases hv : Xml.loadData l with
  | none => rfl
  | some v =>
    obtain ⟨k, p, q, h1, h2⟩ := (C84_accepted l v).mp hv
    have hp : some 60 ∈ p := by
      cases h2 with
      | single _ h _ => simp [single_lt h]
      | closed _ h _ _ _ _ => simp [opening_lt h]
      | unclosed _ h _ _ => simp [opening_lt h]
      | inName _ h _ _ _ _ => simp [opening_lt h]
      | inRootName _ h _ => simp [named_lt h]
    have : some 60 ∈ l ++ List.replicate k none := by rw [h1]; simp [hp]
    rcases List.mem_append.mp this with h' | h'
    · exact absurd h' h
    · rw [List.mem_replicate] at h'
      cases h'.2

/-! ### Examples -/

/-- `<a b='1'>x<c/></a>`, derived in the grammar by hand. -/
theorem C84_example : Document (chars "<a b='1'>x<c/></a>".toList ++ [none])
    (.elem (b! "a") [(b! "b", some (b! "1"))] [.text (b! "x"), .elem (b! "c") [] []]) := by
  have na : Name [some 97] (b! "a") := .char (c := 97) .nil (by unfold NameChar; decide) (by unfold Special; decide)
  have nc : Name [some 99] (b! "c") := .char (c := 99) .nil (by unfold NameChar; decide) (by unfold Special; decide)
  have ns : Name [some 47] (b! "/") := .char (c := 47) .nil (by unfold NameChar; decide) (by unfold Special; decide)
  have nsa : Name [some 47, some 97] (b! "/a") := .char (c := 97) ns (by unfold NameChar; decide) (by unfold Special; decide)
  have t1 : InTag (chars "<a ".toList) (b! "a", []) := .name (.fin (c := 32) na (.inl rfl)) (by unfold Plain; decide) rfl
  have ab : AttrName [some 98] (b! "b") := .first (c := 98) rfl (by decide) (by decide) (by decide) (by decide) (by decide) (by decide)
  have eq : AttrEq (chars "b=".toList) (b! "b") := ⟨_, _, [], [], ab, nofun, nofun, rfl, rfl⟩
  have t2 : InTag (chars "<a b='1'".toList) (b! "a", [(b! "b", some (b! "1"))]) :=
    .quoted t1 eq (by simp) (q := 39) (.inr rfl) (.char (c := 49) .nil (by decide) (by decide)) (.inl rfl)
  have cc : Item (chars "<c/>".toList) (.elem (b! "c") [] []) :=
    .empty (.name (.fin (c := 47) nc (.inr (.inr ⟨rfl, by simp⟩))) (by unfold Plain; decide))
  have tx : Text [some 120] (b! "x") := .char (c := 120) .nil (by decide) (by decide)
  have ct : Items (chars "x<c/>".toList) [.text (b! "x"), .elem (b! "c") [] []] := .snoc .nil tx cc
  exact .closed .nil (.inl (.attrs t2)) ct .nil (.short (.fin (c := 62) nsa (.inr (.inl rfl))) (.inl rfl)) .nil

/-- So it is read like that. -/
example : Xml.loadString (b! "<a b='1'>x<c/></a>") = some (.elem (b! "a") [(b! "b", some (b! "1"))] [.text (b! "x"), .elem (b! "c") [] []]) :=
  (C84_text "<a b='1'>x<c/></a>".toList (by decide) _).1.mpr ⟨1, _, [], (List.append_nil _).symm, C84_example⟩

set_option maxRecDepth 100000 in
/-- Texts that are no XML but in the grammar: an unclosed element, a tag cut off, an empty name, a value without quotes, something behind
    the name in an end tag, text outside; and texts that are not. -/
example :
    Accepts (decode (b! "<a>x")) (.elem (b! "a") [] []) ∧ Accepts (decode (b! "<a><b/><c")) (.elem (b! "a") [] [.elem (b! "b") [] [], .elem (b! "c") [] []]) ∧
    Accepts (decode (b! "<>x</>")) (.elem [] [] [.text (b! "x")]) ∧ Accepts (decode (b! "<a b=1></a c=2>")) (.elem (b! "a") [(b! "b", some (b! "1"))] []) ∧
    Accepts (decode (b! "x<a/>y")) (.elem (b! "a") [] []) ∧
    (¬ ∃ v, Accepts (decode (b! "<a></b>")) v) ∧ (¬ ∃ v, Accepts (decode (b! "<a/><b/>")) v) ∧ (¬ ∃ v, Accepts (decode (b! "<a b='1' b='2'/>")) v) := by
  have no : ∀ s : Bytes, Xml.loadString s = none → ¬ ∃ v, Accepts (decode s) v := by
    rintro s h ⟨v, hv⟩
    rw [(C84_bytes_read s v).1.mpr hv] at h
    cases h
  exact ⟨(C84_bytes_read _ _).1.mp (by decide +kernel), (C84_bytes_read _ _).1.mp (by decide +kernel), (C84_bytes_read _ _).1.mp (by decide +kernel),
    (C84_bytes_read _ _).1.mp (by decide +kernel), (C84_bytes_read _ _).1.mp (by decide +kernel), no _ (by decide +kernel), no _ (by decide +kernel),
    no _ (by decide +kernel)⟩

end Afs
