import Verif.Proof.Grammar
/-!
# Reading documents of the grammar: tags
-/
namespace Afs.Xml
open Afs Afs.Spec Afs.Spec.Grammar

/-- What the reader asks of a name character. -/
theorem nameChar_nat {c : Char} (h : NameChar c) : isSpace c.toNat = false ∧ c.toNat ≠ 62 ∧ c.toNat ≠ 47 ∧ c.toNat ≠ 60 ∧
    c.toNat ≠ 38 ∧ ¬ (c.toNat < 48 ∧ c.toNat ≠ 33 ∧ c.toNat ≠ 45 ∧ c.toNat ≠ 46 ∧ c.toNat ≠ 47) ∧ c.toNat ≠ 33 ∧ c.toNat ≠ 61 ∧
    c.toNat ≠ 63 ∧ c.toNat ≠ 34 ∧ c.toNat ≠ 39 ∧ c.toNat < 128 ∧ 32 < c.toNat := by
  have key : c.toNat = 45 ∨ c.toNat = 46 ∨ (48 ≤ c.toNat ∧ c.toNat ≤ 58) ∨ (65 ≤ c.toNat ∧ c.toNat ≤ 90) ∨ c.toNat = 95 ∨
      (97 ≤ c.toNat ∧ c.toNat ≤ 122) := by
    unfold NameChar NameStart at h
    rcases h with (h | h | rfl | rfl) | h | rfl | rfl
    · omega
    · omega
    · decide
    · decide
    · omega
    · decide
    · decide
  refine ⟨?_, by omega, by omega, by omega, by omega, by omega, by omega, by omega, by omega, by omega, by omega, by omega, by omega⟩
  unfold isSpace; simp; omega

theorem name_chars {n : List Char} (h : Name n) : n ≠ [] ∧ ∀ c ∈ n, NameChar c := by
  obtain ⟨c, r, rfl, h1, h2⟩ := h
  refine ⟨by simp, fun x hx => ?_⟩
  rcases List.mem_cons.mp hx with rfl | hx
  · exact .inl h1
  · exact h2 x hx

theorem name_ascii {n : List Char} (h : ∀ c ∈ n, NameChar c) : utf8File n = n.map fun c => UInt8.ofNat c.toNat := by
  induction n with
  | nil => rfl
  | cons c n ih =>
    rw [utf8_cons, utf8_ascii (nameChar_nat (h c (by simp))).2.2.2.2.2.2.2.2.2.2.2.1, ih fun x hx => h x (by simp [hx])]
    rfl

theorem byte_ne {c : Char} (h : c.toNat < 128) {k : Nat} (hk : k < 128) (hne : c.toNat ≠ k) : UInt8.ofNat c.toNat ≠ UInt8.ofNat k := by
  intro e
  have := congrArg UInt8.toNat e
  rw [ofNat_toNat (by omega), ofNat_toNat (by omega)] at this
  exact hne this

/-- A name the reader takes for an element name. -/
def PlainHead (n : Bytes) : Prop :=
  n ≠ b! "!--" ∧ n ≠ Node.cdataOpen ∧ n ≠ b! "?" ∧ n.head? ≠ some 63 ∧ n.head? ≠ some 33 ∧ n.head? ≠ some 47

theorem plainHead_of {b : UInt8} {r : Bytes} (h1 : b ≠ 63) (h2 : b ≠ 33) (h3 : b ≠ 47) : PlainHead (b :: r) := by
  refine ⟨?_, ?_, ?_, by simpa using h1, by simpa using h2, by simpa using h3⟩
  · intro e; injection e with e1 _; exact h2 e1
  · intro e; injection e with e1 _; exact h2 e1
  · intro e; injection e with e1 _; exact h1 e1

theorem name_plainHead {n : List Char} (h : Name n) : PlainHead (utf8File n) := by
  obtain ⟨hne, hc⟩ := name_chars h
  cases n with
  | nil => exact absurd rfl hne
  | cons c r =>
    rw [name_ascii hc]
    obtain ⟨_, _, p47, _, _, _, p33, _, p63, _, _, plt, _⟩ := nameChar_nat (hc c (by simp))
    exact plainHead_of (byte_ne plt (by decide) p63) (byte_ne plt (by decide) p33) (byte_ne plt (by decide) p47)

theorem step_nameChar {s : PS} {buf : Bytes} {c : Char} (h : NameChar c) (hb : ∀ x r, buf ++ [UInt8.ofNat c.toNat] = x :: r → x ≠ 63 ∧ x ≠ 33) :
    step { s with pc := .name buf } (some c.toNat) = { s with pc := .name (buf ++ utf8File [c]) } := by
  obtain ⟨p1, p2, p3, p4, p5, p6, p7, p8, p9, p10, p11, p12, p13⟩ := nameChar_nat h
  have hadd : addChar c.toNat = [UInt8.ofNat c.toNat] := by rw [addChar, if_pos p12]
  have hu : utf8File [c] = [UInt8.ofNat c.toNat] := by rw [utf8_one, utf8_ascii p12]
  rw [hu]
  have hq : ¬ (buf ++ [UInt8.ofNat c.toNat] = b! "?" ∨ buf ++ [UInt8.ofNat c.toNat] = b! "!--" ∨
      buf ++ [UInt8.ofNat c.toNat] = Node.cdataOpen) := by
    rintro (e | e | e)
    · exact (hb _ _ e).1 (by decide)
    · exact (hb _ _ e).2 (by decide)
    · exact (hb _ _ e).2 (by decide)
  simp only [step, p1, p4, p5, p6, hadd, if_false, hq]
  rw [if_neg (by simp [p2, p3])]

theorem R_name_more (s : PS) : ∀ (m : List Char) (x : UInt8) (buf : Bytes), x ≠ 63 → x ≠ 33 → (∀ c ∈ m, NameChar c) →
    R { s with pc := .name (x :: buf) } m = { s with pc := .name (x :: buf ++ utf8File m) }
  | [], x, buf, _, _, _ => by simp [R_nil, utf8_nil]
  | c :: m, x, buf, h1, h2, hm => by
    rw [R_cons, step_nameChar (hm c (by simp)) (by rintro y r e; injection e with e _; subst e; exact ⟨h1, h2⟩),
      List.cons_append, R_name_more s m x _ h1 h2 (fun y hy => hm y (by simp [hy]))]
    simp [utf8_cons, utf8_nil]

theorem R_name (s : PS) {n : List Char} (h : Name n) : R { s with pc := .name [] } n = { s with pc := .name (utf8File n) } := by
  obtain ⟨hne, hc⟩ := name_chars h
  cases n with
  | nil => exact absurd rfl hne
  | cons c r =>
    obtain ⟨_, _, p47, _, _, _, p33, _, p63, _, _, plt, _⟩ := nameChar_nat (hc c (by simp))
    have h1 : UInt8.ofNat c.toNat ≠ 63 := byte_ne plt (k := 63) (by decide) p63
    have h2 : UInt8.ofNat c.toNat ≠ 33 := byte_ne plt (k := 33) (by decide) p33
    rw [R_cons, step_nameChar (hc c (by simp)) (by rintro y r e; injection e with e _; subst e; exact ⟨h1, h2⟩),
      utf8_one, utf8_ascii plt, List.nil_append, R_name_more s r _ [] h1 h2 (fun y hy => hc y (by simp [hy])), utf8_cons,
      utf8_ascii plt]

theorem R_spaces (s : PS) (k : PC) (hk : ∀ c, isSpace c = true → step { s with pc := k } (some c) = { s with pc := k }) :
    ∀ w, Spaces w → R { s with pc := k } w = { s with pc := k }
  | [], _ => rfl
  | c :: w, h => by rw [R_cons, hk _ (space_nat (h c (by simp))), R_spaces s k hk w (fun x hx => h x (by simp [hx]))]

theorem R_attr_spaces (s : PS) (e : Xml.Head) (w : List Char) (h : Spaces w) : R { s with pc := .attr e } w = { s with pc := .attr e } :=
  R_spaces s _ (by intro c hc; simp [step, hc]) w h

theorem step_head_sp {s : PS} (hs : s.secondRoot = false) {n : Bytes} (hn : PlainHead n) (as : List (Bytes × Option Bytes)) {c : Nat}
    (hc : isSpace c = true) : step { s with pc := headPC n as } (some c) = { s with pc := .attr (n, as) } := by
  unfold headPC
  obtain ⟨q1, q2, q3, q4, q5, q6⟩ := hn
  split
  · rename_i h
    subst h
    have hs' : ({ s with pc := PC.name n } : PS).secondRoot = false := hs
    simp [step, hc, PS.afterName, q1, q2, q4, q5, q6, hs']
  · simp [step, hc]

/-- The spaces in front of an attribute. -/
theorem R_head_spaces {s : PS} (hs : s.secondRoot = false) {n : Bytes} (hn : PlainHead n) (as : List (Bytes × Option Bytes))
    {w : List Char} (hne : w ≠ []) (h : Spaces w) : R { s with pc := headPC n as } w = { s with pc := .attr (n, as) } := by
  cases w with
  | nil => exact absurd rfl hne
  | cons c w => rw [R_cons, step_head_sp hs hn as (space_nat (h c (by simp))), R_attr_spaces s _ w fun x hx => h x (by simp [hx])]

theorem R_aname (s : PS) (e : Xml.Head) : ∀ (m : List Char) (acc : Bytes), (∀ c ∈ m, NameChar c) →
    R { s with pc := .aname e acc } m = { s with pc := .aname e (acc ++ utf8File m) }
  | [], acc, _ => by simp [R_nil, utf8_nil]
  | c :: m, acc, h => by
    obtain ⟨p1, p2, p3, p4, p5, p6, p7, p8, p9, p10, p11, p12, p13⟩ := nameChar_nat (h c (by simp))
    have e1 : step { s with pc := .aname e acc } (some c.toNat) = { s with pc := .aname e (acc ++ utf8File [c]) } := by
      rw [utf8_one, utf8_ascii p12]
      simp [step, p1, p2, p3, p5, p8, p9, addChar, p12]
    rw [R_cons, e1, R_aname s e m _ (fun x hx => h x (by simp [hx]))]
    simp [utf8_cons, utf8_nil]

theorem R_attr_name (s : PS) (e : Xml.Head) {n : List Char} (h : Name n) :
    R { s with pc := .attr e } n = { s with pc := .aname e (utf8File n) } := by
  obtain ⟨hne, hc⟩ := name_chars h
  cases n with
  | nil => exact absurd rfl hne
  | cons c m =>
    obtain ⟨p1, p2, p3, p4, p5, p6, p7, p8, p9, p10, p11, p12, p13⟩ := nameChar_nat (hc c (by simp))
    have e1 : step { s with pc := .attr e } (some c.toNat) = { s with pc := .aname e [UInt8.ofNat c.toNat] } := by
      simp [step, p1, p2, p3, p4, p9, p10, p11]
    rw [R_cons, e1, R_aname s e m _ (fun x hx => hc x (by simp [hx])), utf8_cons, utf8_ascii p12]

theorem print_text {v : List Char} (h : ∀ c ∈ v, XmlChar c) : ∀ b ∈ utf8File v, PrintableByte b := by
  intro b hb
  unfold utf8File at hb
  obtain ⟨c, hc, hbc⟩ := List.mem_flatMap.mp hb
  rw [← addChar_eq] at hbc
  exact addChar_print (xmlChar_ok (h c hc)) b hbc

theorem nameChar_xml {c : Char} (h : NameChar c) : XmlChar c := by
  obtain ⟨p1, p2, p3, p4, p5, p6, p7, p8, p9, p10, p11, p12, p13⟩ := nameChar_nat h
  unfold XmlChar; omega

theorem cstr_text {v : List Char} (h : ∀ c ∈ v, XmlChar c) : cstr (utf8File v) = utf8File v := cstr_print (print_text h)

theorem reference_xml {r : List Char} {c : Char} (h : Reference r c) : XmlChar c := by
  cases h with
  | amp => decide
  | lt => decide
  | gt => decide
  | quot => decide
  | apos => decide
  | dec _ _ _ _ h => exact h
  | hex _ _ _ _ h => exact h

theorem attText_xml {q : Char} {t v : List Char} (h : AttText q t v) : ∀ c ∈ v, XmlChar c := by
  induction h with
  | nil => simp
  | char h1 _ _ _ _ ih => intro c hc; rcases List.mem_cons.mp hc with rfl | hc; exact h1; exact ih c hc
  | ref h1 _ ih => intro c hc; rcases List.mem_cons.mp hc with rfl | hc; exact reference_xml h1; exact ih c hc

theorem R_attText (s : PS) (e : Xml.Head) (an : Bytes) {q : Char} (hq : q = '"' ∨ q = '\'') {t v : List Char} (h : AttText q t v) :
    ∀ b, R { s with pc := .qval e an q.toNat b } t = { s with pc := .qval e an q.toNat (b ++ utf8File v) } := by
  have hq38 : q.toNat ≠ 38 := by rcases hq with rfl | rfl <;> decide
  induction h with
  | nil => intro b; simp [R_nil, utf8_nil]
  | @char c s' v' h1 h2 h3 h4 _ ih =>
    intro b
    have n2 := toNat_ne h2
    have n4 : c.toNat ≠ 38 := toNat_ne h4
    have e1 : step { s with pc := .qval e an q.toNat b } (some c.toNat) = { s with pc := .qval e an q.toNat (b ++ utf8File [c]) } := by
      rw [utf8_one, ← addChar_eq]
      simp [step, n2, n4]
    rw [R_cons, e1, ih]
    simp [utf8_cons, utf8_nil]
  | @ref r c s' v' h1 _ ih =>
    intro b
    rw [R_append, R_reference (refs_qval s e an hq38) b h1, ih]
    simp [utf8_cons, utf8_nil]

/-- The node form of attributes. -/
def attrs (as : List (List Char × List Char)) : List (Bytes × Option Bytes) := as.map fun a => (utf8File a.1, some (utf8File a.2))

theorem R_attribute {s : PS} (hs : s.secondRoot = false) {n : Bytes} (hn : PlainHead n) (as : List (Bytes × Option Bytes))
    {ws an w1 w2 t v : List Char} {q : Char} (hws : ws ≠ []) (h1 : Spaces ws) (h2 : Name an) (h3 : Spaces w1) (h4 : Spaces w2)
    (hq : q = '"' ∨ q = '\'') (ht : AttText q t v) (hnew : utf8File an ∉ as.map Prod.fst) :
    R { s with pc := headPC n as } (ws ++ an ++ w1 ++ ['='] ++ w2 ++ [q] ++ t ++ [q]) =
      { s with pc := headPC n (as ++ [(utf8File an, some (utf8File v))]) } := by
  simp only [R_append]
  rw [R_head_spaces hs hn as hws h1, R_attr_name s _ h2]
  have hz : cstr (utf8File an) = utf8File an := cstr_text fun c hc => nameChar_xml ((name_chars h2).2 c hc)
  have e1 : R (R { s with pc := .aname (n, as) (utf8File an) } w1) ['='] = { s with pc := .vskip (n, as) (utf8File an) } := by
    cases w1 with
    | nil =>
      rw [R_nil, R_cons, R_nil]
      simp [step, PS.afterAttrName, hz, findAttr_none hnew, isSpace]
    | cons c w1 =>
      have hc := space_nat (h3 c (by simp))
      have e : step { s with pc := .aname (n, as) (utf8File an) } (some c.toNat) = { s with pc := .aeq (n, as) (utf8File an) } := by
        simp [step, PS.afterAttrName, hz, findAttr_none hnew, hc]
      have e' : R { s with pc := .aname (n, as) (utf8File an) } (c :: w1) = { s with pc := .aeq (n, as) (utf8File an) } := by
        rw [R_cons, e, R_spaces s (.aeq (n, as) (utf8File an)) (by intro c hc; simp [step, hc]) w1 (fun x hx => h3 x (by simp [hx]))]
      rw [e', R_cons, R_nil]
      simp [step, isSpace]
  rw [e1, R_spaces s (.vskip (n, as) (utf8File an)) (by intro c hc; simp [step, hc]) w2 h4]
  have e2 : R { s with pc := .vskip (n, as) (utf8File an) } [q] = { s with pc := .qval (n, as) (utf8File an) q.toNat [] } := by
    rw [R_cons, R_nil]
    rcases hq with rfl | rfl <;> simp [step, isSpace]
  rw [e2, R_attText s _ _ hq ht, List.nil_append, R_cons, R_nil]
  have hq2 : q.toNat ≠ 47 ∧ q.toNat ≠ 63 ∧ q.toNat ≠ 62 := by rcases hq with rfl | rfl <;> decide
  simp [step, PS.afterValue, cstr_text (attText_xml ht), setAttr_new hnew, headPC, hq2]

theorem R_attributes {s : PS} (hs : s.secondRoot = false) {n : Bytes} (hn : PlainHead n) {t : List Char} {bs}
    (h : Attributes t bs) : ∀ as : List (Bytes × Option Bytes), ((as ++ attrs bs).map Prod.fst).Nodup →
    R { s with pc := headPC n as } t = { s with pc := headPC n (as ++ attrs bs) } := by
  induction h with
  | nil => intro as _; simp [attrs, R_nil]
  | @cons ws an w1 w2 q t v s' bs h0 h1 h2 h3 h4 h5 h6 h7 ih =>
    intro as hnd
    have hnew : utf8File an ∉ as.map Prod.fst := by
      intro hmem
      rw [List.map_append, List.nodup_append] at hnd
      exact hnd.2.2 _ hmem _ (by simp [attrs]) rfl
    rw [R_append, R_attribute hs hn as h0 h1 h2 h3 h4 h5 h6 hnew, ih (as ++ [(utf8File an, some (utf8File v))]) (by simpa [attrs] using hnd)]
    simp [attrs]

theorem utf8_inj_name {a b : List Char} (ha : Name a) (hb : Name b) (h : utf8File a = utf8File b) : a = b := by
  have ha := (name_chars ha).2
  have hb := (name_chars hb).2
  rw [name_ascii ha, name_ascii hb] at h
  rename_i h0 h1; clear h0 h1
  induction a generalizing b with
  | nil => cases b with
    | nil => rfl
    | cons _ _ => cases h
  | cons x a ih =>
    cases b with
    | nil => cases h
    | cons y b =>
      simp only [List.map_cons, List.cons.injEq] at h
      have l1 : x.toNat < 128 := (nameChar_nat (ha x (by simp))).2.2.2.2.2.2.2.2.2.2.2.1
      have l2 : y.toNat < 128 := (nameChar_nat (hb y (by simp))).2.2.2.2.2.2.2.2.2.2.2.1
      have := congrArg UInt8.toNat h.1
      rw [ofNat_toNat (by omega), ofNat_toNat (by omega)] at this
      rw [char_eq this, ih h.2 (fun c hc => ha c (by simp [hc])) (fun c hc => hb c (by simp [hc]))]

theorem attributes_names {t : List Char} {as} (h : Attributes t as) : ∀ a ∈ as, Name a.1 := by
  induction h with
  | nil => simp
  | cons _ _ h2 _ _ _ _ _ ih =>
    intro a ha
    rcases List.mem_cons.mp ha with rfl | ha
    · exact h2
    · exact ih a ha

theorem attrs_nodup {t : List Char} {as} (h : Attributes t as) (hn : (as.map Prod.fst).Nodup) : ((attrs as).map Prod.fst).Nodup := by
  have hnm := attributes_names h
  clear h
  induction as with
  | nil => simp [attrs]
  | cons a as ih =>
    simp only [List.map_cons, List.nodup_cons] at hn
    simp only [attrs, List.map_cons, List.nodup_cons]
    refine ⟨?_, ih hn.2 fun x hx => hnm x (by simp [hx])⟩
    intro hmem
    rw [List.map_map] at hmem
    obtain ⟨b, hb, he⟩ := List.mem_map.mp hmem
    have := utf8_inj_name (hnm b (by simp [hb])) (hnm a (by simp)) he
    exact hn.1 (List.mem_map.mpr ⟨b, hb, this⟩)

/-- Where the reader is after the inside of a tag. -/
theorem R_body {s : PS} (hs : s.secondRoot = false) {h n : List Char} {as} (hb : TagBody h n as) :
    PlainHead (utf8File n) ∧ (R { s with pc := .name [] } h = { s with pc := headPC (utf8File n) (attrs as) } ∨
      R { s with pc := .name [] } h = { s with pc := .attr (utf8File n, attrs as) }) := by
  obtain ⟨hn, ha, hnd, hw⟩ := hb
  rename_i t w
  have hp := name_plainHead hn
  refine ⟨hp, ?_⟩
  rw [R_append, R_append, R_name s hn]
  have := R_attributes hs hp ha [] (by simpa using attrs_nodup ha hnd)
  rw [show headPC (utf8File n) [] = .name (utf8File n) from rfl, List.nil_append] at this
  rw [this]
  cases w with
  | nil => exact .inl rfl
  | cons c w => exact .inr (R_head_spaces hs hp _ (by simp) hw)

theorem R_start {s : PS} (hs : s.secondRoot = false) {t n : List Char} {as} (ht : StartTag t n as) :
    ∃ h, t = '<' :: h ∧ R { s with pc := .name [] } h = { s.push (utf8File n, attrs as) with pc := .main [] } := by
  obtain ⟨h, hb, rfl⟩ := ht
  refine ⟨h ++ ['>'], rfl, ?_⟩
  obtain ⟨hp, hr⟩ := R_body hs hb
  obtain ⟨q1, q2, q3, q4, q5, q6⟩ := hp
  rw [R_append]
  rcases hr with hr | hr <;> rw [hr, R_cons, R_nil, show ('>' : Char).toNat = 62 from rfl]
  · unfold headPC
    split
    · rename_i h0
      have hs' : ({ s with pc := PC.name (utf8File n) } : PS).secondRoot = false := hs
      simp [step, isSpace, PS.afterName, q1, q2, q4, q5, q6, hs', PS.afterHead, PS.push, h0]
    · simp [step, isSpace, PS.afterHead, PS.push]
  · simp [step, isSpace, PS.afterHead, PS.push]

theorem R_empty {s : PS} (hs : s.secondRoot = false) {t n : List Char} {as} (ht : EmptyTag t n as) :
    ∃ h, t = '<' :: h ∧ R { s with pc := .name [] } h = { s.addNode (tagNode n as []) with pc := .main [] } := by
  obtain ⟨h, hb, rfl⟩ := ht
  refine ⟨h ++ ['/', '>'], rfl, ?_⟩
  obtain ⟨hp, hr⟩ := R_body hs hb
  obtain ⟨q1, q2, q3, q4, q5, q6⟩ := hp
  rw [R_append]
  have fin : ∀ pc, { PS.addNode { s with pc := pc } (tagNode n as []) with pc := .main [] } =
      { s.addNode (tagNode n as []) with pc := .main [] } := by
    intro pc
    obtain ⟨pc, st, ro, oq⟩ := s
    cases st <;> cases ro <;> rfl
  have htag : tagNode n as [] = .elem (utf8File n) (attrs as) [] := rfl
  rcases hr with hr | hr <;> rw [hr, R_cons, R_cons, R_nil, show ('>' : Char).toNat = 62 from rfl, show ('/' : Char).toNat = 47 from rfl]
  · unfold headPC
    split
    · rename_i h0
      have hs' : ({ s with pc := PC.name (utf8File n) } : PS).secondRoot = false := hs
      have hne : (utf8File n).isEmpty = false := by
        cases hu : utf8File n with
        | nil =>
          obtain ⟨hn, _, _, _⟩ := hb
          obtain ⟨hne, hc⟩ := name_chars hn
          rw [name_ascii hc] at hu
          simp at hu; exact absurd hu hne
        | cons _ _ => rfl
      have e1 : step { s with pc := .name (utf8File n) } (some 47) = { s with pc := .slash (utf8File n) } := by
        simp [step, isSpace, PS.afterName, q1, q2, q4, q5, q6, hs', hne]
      rw [e1, ← fin (.slash (utf8File n)), htag, h0]
      simp [step, PS.afterHead]
    · have e1 : step { s with pc := .attr (utf8File n, attrs as) } (some 47) = { s with pc := .attrSlash (utf8File n, attrs as) 47 } := by
        simp [step, isSpace]
      rw [e1, ← fin (.attrSlash (utf8File n, attrs as) 47), htag]
      simp [step, PS.afterHead]
  · have e1 : step { s with pc := .attr (utf8File n, attrs as) } (some 47) = { s with pc := .attrSlash (utf8File n, attrs as) 47 } := by
      simp [step, isSpace]
    rw [e1, ← fin (.attrSlash (utf8File n, attrs as) 47), htag]
    simp [step, PS.afterHead]

theorem R_end {s : PS} {f : Frame} {fs : List Frame} (hst : s.stack = f :: fs) {t n : List Char} (hn : Name n)
    (hf : f.name = utf8File n) (ht : EndTag t n) :
    ∃ h, t = '<' :: h ∧ R { s with pc := .name [] } h = s.pop := by
  obtain ⟨w, hw, rfl⟩ := ht
  refine ⟨'/' :: (n ++ w ++ ['>']), by simp, ?_⟩
  have e1 : step { s with pc := .name [] } (some 47) = { s with pc := .name [47] } := by
    simp [step, isSpace, addChar, Node.cdataOpen]
  rw [R_cons, show ('/' : Char).toNat = 47 from rfl, e1, R_append, R_append, R_name_more s n 47 [] (by decide) (by decide) (name_chars hn).2]
  have hpop : ∀ pc, PS.pop { s with pc := pc } = s.pop := by
    intro pc
    obtain ⟨pc', st, ro, oq⟩ := s
    match st with
    | [] => rfl
    | [_] => rfl
    | _ :: _ :: _ => rfl
  have hn1 : (47 :: utf8File n) ≠ b! "!--" := by intro e; injection e with e1 _; exact absurd e1 (by decide)
  have hn2 : (47 :: utf8File n) ≠ Node.cdataOpen := by intro e; injection e with e1 _; exact absurd e1 (by decide)
  cases w with
  | nil =>
    rw [R_nil, R_cons, R_nil, show ('>' : Char).toNat = 62 from rfl, ← hpop (.name (47 :: utf8File n))]
    simp [step, isSpace, PS.afterName, hn1, hn2, hst, hf, PS.closeBody]
  | cons c w =>
    have hc := space_nat (hw c (by simp))
    have e2 : step { s with pc := .name ([47] ++ utf8File n) } (some c.toNat) = { s with pc := .close } := by
      have h62 : c.toNat ≠ 62 := by
        intro h; rw [h] at hc; exact absurd hc (by decide)
      simp [step, hc, PS.afterName, hn1, hn2, hst, hf, PS.closeBody, h62]
    have e3 : R { s with pc := .name ([47] ++ utf8File n) } (c :: w) = { s with pc := .close } := by
      rw [R_cons, e2, R_spaces s .close (by
        intro c hc
        have h62 : c ≠ 62 := by intro h; rw [h] at hc; exact absurd hc (by decide)
        simp [step, PS.closeBody, h62]) w (fun x hx => hw x (by simp [hx]))]
    rw [e3, R_cons, R_nil, show ('>' : Char).toNat = 62 from rfl,
      ← hpop .close]
    simp [step, PS.closeBody]

end Afs.Xml
