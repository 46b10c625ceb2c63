import Verif.Proof.Stable
import Verif.Proof.Stable4
import Verif.Proof.Grammar5
/-!
# Well-formed documents give clean trees
-/
namespace Afs
open Spec Xml Spec.Grammar

/-- Trees as documents have them: clean texts, attribute values and CDATA sections. -/
inductive ReadDoc : Node → Prop
  | text {s} : CleanText s → ReadDoc (.text s)
  | cdata {d} : CleanData d → ReadDoc (Node.newCDATA d)
  | elem {n as cs} : ¬ (b! "![CDATA[") <+: n → (∀ a ∈ as, ∀ v, a.2 = some v → CleanText v) → (∀ c ∈ cs, ReadDoc c) → ReadDoc (.elem n as cs)

theorem ReadDoc.clean {n : Node} (h : ReadDoc n) (ht : ∀ s, .text s ∈ descendants n → ¬ (b! "]]>") <:+: s) : CleanDoc n := by
  induction h with
  | text h => exact .text h
  | cdata h => exact .cdata h
  | @elem n as cs h1 h2 h3 ih =>
    have sub : ∀ c ∈ cs, ∀ d ∈ descendants c, d ∈ descendants (.elem n as cs) := fun c hc d hd =>
      desc_trans _ c (child_desc (n := .elem n as cs) hc) d hd
    refine .elem h1 h2 (fun c hc => ih c hc fun s hs => ht s (sub c hc _ hs)) fun _ s hs => ?_
    have := h3 _ hs
    cases this with
    | text h => exact ⟨h, ht s (child_desc (n := .elem n as cs) hs)⟩

theorem _root_.Afs.Spec.Unmarked.infix {a s : List Char} (h : Unmarked s) (ha : a <:+: s) : Unmarked a :=
  ⟨fun hm => h.1 (ha.subset hm), fun r hr hi => h.2 r hr (hi.trans ha)⟩

theorem _root_.Afs.Spec.Unmarked.left {a b : List Char} (h : Unmarked (a ++ b)) : Unmarked a := h.infix (List.prefix_append a b).isInfix
theorem _root_.Afs.Spec.Unmarked.right {a b : List Char} (h : Unmarked (a ++ b)) : Unmarked b := h.infix (List.suffix_append a b).isInfix

theorem allowed_of {c : Char} (h : XmlChar c) (hf : c ≠ Char.ofNat 0xFEFF) : Allowed c :=
  ⟨xmlChar_ok h, fun e => hf (char_eq (by rw [e]; rfl))⟩

theorem clean_chars {s : List Char} (h : ∀ c ∈ s, XmlChar c) (hf : Char.ofNat 0xFEFF ∉ s) : CleanText (utf8File s) :=
  ⟨s, (fun c hc => allowed_of (h c hc) fun e => hf (e ▸ hc)), rfl⟩

theorem ref_char {r : List Char} {c : Char} (h : Reference r c) : XmlChar c := by
  cases h with
  | dec _ _ _ _ h => exact h
  | hex _ _ _ _ h => exact h
  | amp => decide
  | lt => decide
  | gt => decide
  | quot => decide
  | apos => decide

theorem ref_allowed {r : List Char} {c : Char} (h : Reference r c) (hu : Unmarked r) : Allowed c :=
  allowed_of (ref_char h) fun e => hu.2 r (e ▸ h) (List.infix_refl r)

theorem attText_clean {q : Char} {s v : List Char} (h : AttText q s v) (hu : Unmarked s) : ∀ c ∈ v, Allowed c := by
  induction h with
  | nil => exact fun _ h => nomatch h
  | @char c s v h1 _ _ _ _ ih =>
    intro x hx
    rcases List.mem_cons.mp hx with rfl | hx
    · exact allowed_of h1 fun e => hu.1 (e ▸ by simp)
    · exact ih (Unmarked.right (a := [c]) hu) x hx
  | ref h1 _ ih =>
    intro x hx
    rcases List.mem_cons.mp hx with rfl | hx
    · exact ref_allowed h1 hu.left
    · exact ih hu.right x hx

theorem attributes_clean {s : List Char} {as : List (List Char × List Char)} (h : Attributes s as) (hu : Unmarked s) :
    ∀ a ∈ as, CleanText (utf8File a.2) := by
  induction h with
  | nil => exact fun _ h => nomatch h
  | cons _ _ _ _ _ _ ht _ ih =>
    intro x hx
    rcases List.mem_cons.mp hx with rfl | hx
    · exact ⟨_, attText_clean ht hu.left.left.right, rfl⟩
    · exact ih hu.right x hx

theorem name_no_cdata {n : List Char} (h : Name n) : ¬ (b! "![CDATA[") <+: utf8File n := by
  obtain ⟨c, r, rfl, hc, _⟩ := h
  have h7 : c.toNat < 128 := by
    rcases hc with h | h | rfl | rfl
    · omega
    · omega
    · decide
    · decide
  rw [show c :: r = [c] ++ r from rfl, utf8_append, utf8_one, utf8_ascii h7]
  intro hp
  have := List.head_eq_of_cons_eq (List.prefix_iff_eq_take.mp hp)
  have h33 : (33 : UInt8) = UInt8.ofNat c.toNat := this
  have : (33 : Nat) = c.toNat := by
    have := congrArg UInt8.toNat h33
    simp only [UInt8.toNat_ofNat] at this
    have e : c.toNat % 256 = c.toNat := by omega
    simpa [e] using this
  rcases hc with h | h | rfl | rfl
  · omega
  · omega
  · exact absurd this (by decide)
  · exact absurd this (by decide)

theorem raw_read {x : List Char} {b : Char} (hb : b = '!' ∨ b = '?') (hx : b = '!' → ∃ y, x = '-' :: y) : ReadDoc (rawNode (b :: x)) := by
  refine .elem ?_ (fun _ h => nomatch h) (fun _ h => nomatch h)
  intro hp
  rcases hb with rfl | rfl
  · obtain ⟨y, rfl⟩ := hx rfl
    rw [show '!' :: '-' :: y = ['!', '-'] ++ y from rfl, utf8_append, show utf8File ['!', '-'] = [33, 45] from by decide +kernel] at hp
    simp [List.cons_prefix_cons] at hp
  · rw [show '?' :: x = ['?'] ++ x from rfl, utf8_append, show utf8File ['?'] = [63] from by decide +kernel] at hp
    simp [List.cons_prefix_cons] at hp

theorem tag_read {h n : List Char} {as : List (List Char × List Char)} (hb : TagBody h n as) (hu : Unmarked h) {cs : List Node}
    (hc : ∀ c ∈ cs, ReadDoc c) : ReadDoc (tagNode n as cs) := by
  cases hb with
  | mk hn hs _ _ =>
    refine .elem (name_no_cdata hn) ?_ hc
    intro a ha v hv
    obtain ⟨b, hb, rfl⟩ := List.mem_map.mp ha
    injection hv with hv
    subst hv
    exact attributes_clean hs hu.left.right b hb

/-- Texts are clean, elements are as documents have them. -/
def ItemRead : Item → Prop
  | .txt s => CleanText s
  | .el n => ReadDoc n

theorem clean_empty : CleanText [] := ⟨[], (fun _ h => nomatch h), rfl⟩

theorem joinText_read {l : List Item} (h : ∀ i ∈ l, ItemRead i) : ∀ {p : Bytes}, CleanText p → ∀ c ∈ joinText p l, ReadDoc c := by
  have one : ∀ p : Bytes, CleanText p → ∀ c ∈ (if p = [] then [] else [Node.text p]), ReadDoc c := by
    intro p hp c hc
    split at hc
    · cases hc
    · rw [List.mem_singleton] at hc; subst hc; exact .text hp
  induction l with
  | nil => intro p hp; unfold joinText; exact one p hp
  | cons i l ih =>
    intro p hp
    have h1 := h i (by simp)
    have h2 : ∀ i ∈ l, ItemRead i := fun j hj => h j (by simp [hj])
    cases i with
    | txt s => rw [joinText]; exact ih h2 (clean_append hp h1)
    | el n =>
      rw [joinText]
      intro c hc
      rcases List.mem_append.mp hc with hc | hc
      · exact one p hp c hc
      · rcases List.mem_cons.mp hc with rfl | hc
        · exact h1
        · exact ih h2 clean_empty c hc

theorem data_read {d : List Char} (h : CharData d) (hu : Unmarked d) : CleanText (utf8File d) :=
  clean_chars (fun c hc => (h.1 c hc).1) hu.1

theorem encode_high {c : Char} (hs : ¬ c.toNat < 128) : ∀ b ∈ String.utf8EncodeChar c, 128 ≤ b.toNat := by
  intro b hb
  have hv := char_lt c
  simp only [Char.toNat] at hs hv
  unfold String.utf8EncodeChar at hb
  simp only at hb
  rw [if_neg (by omega)] at hb
  generalize c.val.toNat = v at *
  split at hb
  · simp only [List.mem_cons, List.not_mem_nil, or_false] at hb
    rcases hb with rfl | rfl <;> (rw [u8 (by omega)]; omega)
  · split at hb
    · simp only [List.mem_cons, List.not_mem_nil, or_false] at hb
      rcases hb with rfl | rfl | rfl <;> (rw [u8 (by omega)]; omega)
    · simp only [List.mem_cons, List.not_mem_nil, or_false] at hb
      rcases hb with rfl | rfl | rfl | rfl <;> (rw [u8 (by omega)]; omega)

/-- An ASCII byte in a text is a character of it. -/
theorem utf8_split {b : UInt8} (hb : b.toNat < 128) : ∀ {d : List Char} {x y : Bytes}, utf8File d = x ++ b :: y →
    ∃ d1 c d2, d = d1 ++ c :: d2 ∧ utf8File d1 = x ∧ c.toNat = b.toNat ∧ utf8File d2 = y
  | [], x, y, h => by rw [utf8_nil] at h; exact absurd h.symm (by simp)
  | c :: d, x, y, h => by
    rw [utf8_cons] at h
    rcases List.append_eq_append_iff.mp h with ⟨z, h1, h2⟩ | ⟨z, h1, h2⟩
    · obtain ⟨d1, e, d2, e1, e2, e3, e4⟩ := utf8_split hb h2
      exact ⟨c :: d1, e, d2, by rw [e1]; rfl, by rw [utf8_cons, e2, h1], e3, e4⟩
    · cases z with
      | nil =>
        obtain ⟨d1, e, d2, e1, e2, e3, e4⟩ := utf8_split hb (x := []) h2.symm
        refine ⟨c :: d1, e, d2, by rw [e1]; rfl, ?_, e3, e4⟩
        rw [utf8_cons, e2, h1]; simp
      | cons b' z =>
        simp only [List.cons_append, List.cons.injEq] at h2
        obtain ⟨rfl, h2⟩ := h2
        by_cases hc : c.toNat < 128
        · rw [utf8_ascii hc] at h1
          cases x with
          | nil =>
            simp only [List.nil_append, List.cons.injEq] at h1
            obtain ⟨rfl, rfl⟩ := h1
            exact ⟨[], c, d, rfl, rfl, by rw [ofNat_toNat (by omega)], by simpa using h2.symm⟩
          | cons q x => simp at h1
        · have := encode_high hc b (by rw [h1]; simp)
          omega

theorem cdata_bytes {d : List Char} (h : ¬ "]]>".toList <:+: d) : ¬ (b! "]]>") <:+: utf8File d := by
  rintro ⟨x, y, e⟩
  obtain ⟨d1, c1, r1, e1, f1, g1, k1⟩ := utf8_split (b := 93) (by decide) (d := d) (x := x) (y := 93 :: 62 :: y) (by rw [← e]; simp)
  obtain ⟨d2, c2, r2, e2, f2, g2, k2⟩ := utf8_split (b := 93) (by decide) (x := []) k1
  obtain ⟨d3, c3, r3, e3, f3, g3, k3⟩ := utf8_split (b := 62) (by decide) (x := []) k2
  have nil : ∀ l : List Char, utf8File l = [] → l = [] := by
    intro l hl
    cases l with
    | nil => rfl
    | cons c l =>
      rw [utf8_cons] at hl
      rcases encode_first c with ⟨_, e⟩ | ⟨b', r, e, _⟩ <;> rw [e] at hl <;> simp at hl
  have h2 := nil d2 f2
  have h3 := nil d3 f3
  subst h2 h3
  have c1e : c1 = ']' := char_eq (by rw [g1]; decide)
  have c2e : c2 = ']' := char_eq (by rw [g2]; decide)
  have c3e : c3 = '>' := char_eq (by rw [g3]; decide)
  subst c1e c2e c3e
  exact h ⟨d1, r3, by rw [e1, e2, e3]; simp⟩

theorem cdata_read {t d : List Char} (h : CData t d) (hu : Unmarked t) : ReadDoc (Node.newCDATA (utf8File d)) := by
  obtain ⟨h1, h2, rfl⟩ := h
  exact .cdata ⟨clean_chars h1 hu.left.right.1, cdata_bytes h2⟩

theorem content_read {t : List Char} {l : List Item} (h : Content t l) : Unmarked t → ∀ i ∈ l, ItemRead i := by
  have two : ∀ (a b : Item) (l : List Item), ItemRead a → ItemRead b → (∀ i ∈ l, ItemRead i) → ∀ i ∈ a :: b :: l, ItemRead i := by
    intro a b l ha hb hl i hi
    rcases List.mem_cons.mp hi with rfl | hi
    · exact ha
    · rcases List.mem_cons.mp hi with rfl | hi
      · exact hb
      · exact hl i hi
  induction h with
  | data h =>
    intro hu i hi
    rw [List.mem_singleton] at hi
    subst hi
    exact data_read h hu
  | ref h1 h2 _ ih =>
    intro hu
    exact two _ _ _ (data_read h1 hu.left.left) ⟨_, (by
      intro c hc
      rw [List.mem_singleton] at hc
      subst hc
      exact ref_allowed h2 hu.left.right), rfl⟩ (ih hu.right)
  | cdata h1 h2 _ ih => exact fun hu => two _ _ _ (data_read h1 hu.left.left) (cdata_read h2 hu.left.right) (ih hu.right)
  | comment h1 h2 _ ih =>
    exact fun hu => two _ _ _ (data_read h1 hu.left.left) (raw_read (b := '!') (.inl rfl) fun _ => ⟨_, rfl⟩) (ih hu.right)
  | pi h1 h2 _ ih =>
    exact fun hu => two _ _ _ (data_read h1 hu.left.left) (raw_read (b := '?') (.inr rfl) (fun e => absurd e (by decide))) (ih hu.right)
  | empty h1 h2 _ ih =>
    intro hu
    obtain ⟨_, hb, rfl⟩ := h2
    exact two _ _ _ (data_read h1 hu.left.left) (tag_read hb hu.left.right.left.right (fun _ h => nomatch h)) (ih hu.right)
  | elem h1 h2 _ _ _ ih1 ih2 =>
    intro hu
    obtain ⟨_, hb, rfl⟩ := h2
    exact two _ _ _ (data_read h1 hu.left.left.left.left)
      (tag_read hb hu.left.left.left.right.left.right (joinText_read (ih1 hu.left.left.right) clean_empty)) (ih2 hu.right)

theorem element_read {t : List Char} {n : Node} (h : Element t n) (hu : Unmarked t) : ReadDoc n := by
  cases h with
  | empty h =>
    obtain ⟨_, hb, rfl⟩ := h
    exact tag_read hb hu.left.right (fun _ h => nomatch h)
  | full h1 h2 h3 =>
    obtain ⟨_, hb, rfl⟩ := h1
    exact tag_read hb hu.left.left.left.right (joinText_read (content_read h2 hu.left.right) clean_empty)

theorem misc_read {t : List Char} {l : List Item} (h : Misc t l) : Unmarked t → ∀ i ∈ l, ItemRead i := by
  induction h with
  | nil => exact fun _ _ h => nomatch h
  | comment h1 h2 _ ih =>
    intro hu i hi
    rcases List.mem_cons.mp hi with rfl | hi
    · exact clean_chars (spaces_xml h1) hu.left.left.1
    · rcases List.mem_cons.mp hi with rfl | hi
      · exact raw_read (b := '!') (.inl rfl) fun _ => ⟨_, rfl⟩
      · exact ih hu.right i hi
  | pi h1 h2 _ ih =>
    intro hu i hi
    rcases List.mem_cons.mp hi with rfl | hi
    · exact clean_chars (spaces_xml h1) hu.left.left.1
    · rcases List.mem_cons.mp hi with rfl | hi
      · exact raw_read (b := '?') (.inr rfl) (fun e => absurd e (by decide))
      · exact ih hu.right i hi

/-- The tree of a document is clean. -/
theorem document_read {s : List Char} {v : Node} (h : Document s v) (hu : Unmarked s) : ReadDoc v := by
  cases h with
  | bare h1 h2 h3 => exact element_read h2 hu.left.right
  | @declared d _ _ _ _ _ _ _ _ h1 h2 h3 h4 h5 h6 =>
    have a : ReadDoc (rawNode ("?".toList ++ d ++ "?".toList)) := raw_read (b := '?') (.inr rfl) (fun e => absurd e (by decide))
    cases a with
    | elem e1 e2 _ =>
      refine .elem e1 e2 (joinText_read ?_ clean_empty)
      intro i hi
      rcases List.mem_append.mp hi with hi | hi
      · rcases List.mem_append.mp hi with hi | hi
        · exact misc_read h2 hu.left.left.left.left.right i hi
        · rcases List.mem_cons.mp hi with rfl | hi
          · exact clean_chars (spaces_xml h3) hu.left.left.left.right.1
          · rw [List.mem_singleton] at hi
            subst hi
            exact element_read h4 hu.left.left.right
      · exact misc_read h5 hu.left.right i hi

end Afs
