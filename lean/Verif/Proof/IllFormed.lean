import Verif.Spec.IllFormed
import Verif.Proof.Grammar5
import Verif.Proof.Cut3
import Verif.Props.C38_C40_Search
/-!
# Reading texts that break a rule of XML
-/
namespace Afs.Xml
open Afs Afs.Spec Afs.Spec.Grammar

/-- The reader has given up. -/
def Refused (s : PS) : Prop := s.pc = .done none

theorem Refused.step {s : PS} (h : Refused s) (c : Option Nat) : Refused (Xml.step s c) := by
  unfold Refused at *; unfold Xml.step; rw [h]

theorem Refused.run {s : PS} (h : Refused s) (l : List (Option Nat)) : Refused (Xml.run s l) := by
  induction l generalizing s with
  | nil => exact h
  | cons c l ih => exact ih (h.step c)

theorem Refused.R {s : PS} (h : Refused s) (t : List Char) : Refused (Xml.R s t) := h.run _

theorem dead_error (s : PS) : Refused s.error := rfl

theorem Refused.result {s : PS} (h : Refused s) : s.result = none := result_done h

/-! ### Where the reader is -/

/-- The open elements are `ns`; the declaration may be around them. -/
def Names (s : PS) (ns : List (List Char)) : Prop :=
  s.stack.map Frame.name = ns.map utf8File ∨ ∃ D : Bytes, D.head? = some 63 ∧ s.stack.map Frame.name = ns.map utf8File ++ [D]

inductive Where : PS → List (List Char) → Prop
  | out : Where ⟨.main [], [], none, false⟩ []
  | inn {q n as fs ns} : Names (content q n as fs none) ns → Where (content q n as fs none) ns

theorem where_at {p : List Char} {ns : List (List Char)} (h : At p ns) : Where (R PS.init p) ns := by
  induction h with
  | @start w h =>
    rw [show PS.init = ⟨.main [], [], none, false⟩ from rfl, R_out_spaces none w h]
    exact .out
  | @prolog d m w is h1 h2 h3 =>
    rw [R_append, R_append, R_decl h1, goes_misc h2, goes_data (spaces_data h3)]
    exact .inn (.inr ⟨_, rfl, rfl⟩)
  | @«open» p ns t n as _ h2 ih =>
    rw [R_append]
    generalize R PS.init p = s at ih
    cases ih with
    | out =>
      obtain ⟨r, rfl, h⟩ := R_start (s := PS.init) rfl h2
      have hlt : step ⟨.main [], [], none, false⟩ (some 60) = { PS.init with pc := .name [] } := by simp [step, PS.init, PS.flush]
      rw [R_cons, show ('<' : Char).toNat = 60 from rfl, hlt, h]
      exact .inn (.inl rfl) (q := ([], [])) (n := utf8File n) (as := attrs as) (fs := [])
    | @inn q m bs fs ns hn =>
      obtain ⟨r, rfl, h⟩ := R_start (s := content ([], flushRev q.1 q.2) m bs fs none) rfl h2
      rw [R_cons, show ('<' : Char).toNat = 60 from rfl, step_lt, h]
      refine .inn (q := ([], [])) (n := utf8File n) (as := attrs as) (fs := ⟨m, bs, flushRev q.1 q.2⟩ :: fs) ?_
      rcases hn with hn | ⟨D, hD, hn⟩
      · exact .inl (by simpa [content] using hn)
      · exact .inr ⟨D, hD, by simpa [content] using hn⟩
  | @content p n ns s is _ h2 ih =>
    rw [R_append]
    generalize R PS.init p = s at ih
    cases ih with
    | @inn q m bs fs ns hn => rw [goes_content h2]; exact .inn hn

/-- Behind a `<`. -/
theorem where_lt {s : PS} {ns} (h : Where s ns) : ∃ s', step s (some 60) = { s' with pc := .name [] } ∧ s'.secondRoot = false ∧ Names s' ns := by
  cases h with
  | out => exact ⟨PS.init, by simp [step, PS.init, PS.flush], rfl, .inl rfl⟩
  | @inn q m bs fs ns hn => exact ⟨content ([], flushRev q.1 q.2) m bs fs none, step_lt .., rfl, hn⟩

/-! ### Tags -/

theorem before_attr {s : PS} (hs : s.secondRoot = false) {b : List Char} {as} (h : BeforeAttribute b as) :
    ∃ r n, b = '<' :: r ∧ R { s with pc := .name [] } r = { s with pc := .attr (n, attrs as) } ∧ ∀ a ∈ as, Name a.1 := by
  cases h with
  | @mk n s' w as h1 h2 h3 h4 h5 =>
    refine ⟨n ++ s' ++ w, utf8File n, by simp, ?_, attributes_names h2⟩
    rw [R_append, R_append, R_name s h1]
    have hp := name_plainHead h1
    have := R_attributes hs hp h2 [] (by simpa using attrs_nodup h2 h3)
    rw [show headPC (utf8File n) [] = .name (utf8File n) from rfl, List.nil_append] at this
    rw [this]
    exact R_head_spaces hs hp _ h4 h5

theorem space_toNat {c : Char} (h : Space c ∨ c = '=') : isSpace c.toNat = true ∨ c.toNat = 61 := by
  rcases h with h | rfl
  · exact .inl (space_nat h)
  · exact .inr rfl

theorem findAttr_some {as : List (List Char × List Char)} {a : List Char} (h : a ∈ as.map Prod.fst) :
    (Node.findAttr (utf8File a) (attrs as)).isSome = true := by
  induction as with
  | nil => cases h
  | cons x as ih =>
    simp only [attrs, List.map_cons]
    rw [Node.findAttr]
    split
    · rfl
    · rename_i hne
      rcases List.mem_cons.mp h with rfl | h
      · exact absurd rfl hne
      · exact ih h

theorem name_cstr {a : List Char} (h : Name a) : cstr (utf8File a) = utf8File a := cstr_text fun c hc => nameChar_xml ((name_chars h).2 c hc)

/-- An end tag of no open element. -/
theorem dead_end {s : PS} (hst : ∀ f fs, s.stack = f :: fs → f.name ≠ utf8File m) {c : Char} (hn : Name m) (hc : Space c ∨ c = '>') :
    Refused (R { s with pc := .name [] } (['/'] ++ m ++ [c])) := by
  have e1 : step { s with pc := .name [] } (some 47) = { s with pc := .name [47] } := by
    simp [step, isSpace, addChar, Node.cdataOpen]
  rw [List.append_assoc, List.singleton_append, R_cons, show ('/' : Char).toNat = 47 from rfl, e1, R_append,
    R_name_more s m 47 [] (by decide) (by decide) (name_chars hn).2, R_cons, R_nil]
  have hn1 : (47 :: utf8File m) ≠ b! "!--" := by intro e; injection e with e1 _; exact absurd e1 (by decide)
  have hn2 : (47 :: utf8File m) ≠ Node.cdataOpen := by intro e; injection e with e1 _; exact absurd e1 (by decide)
  rw [List.cons_append, List.nil_append]
  have hc' : (isSpace c.toNat || c.toNat == 62) = true := by
    rcases hc with hc | rfl
    · rw [space_nat hc]; rfl
    · rfl
  simp only [step]
  rw [if_pos (by rw [hc']; rfl)]
  unfold PS.afterName
  rw [if_neg hn1, if_neg hn2, if_neg (by simp), if_neg (by simp), if_pos (by simp)]
  split
  · exact dead_error _
  · rename_i f fs hf
    have := hst f fs hf
    simp [Ne.symm this, dead_error]

theorem names_head {s : PS} {ns : List (List Char)} (h : Names s ns) {m : List Char} (hm : Name m) (hne : ns.head? ≠ some m)
    (hn : ∀ n ∈ ns, Name n) : ∀ f fs, s.stack = f :: fs → f.name ≠ utf8File m := by
  intro f fs hst e
  have hp := name_plainHead hm
  unfold Names at h
  rw [hst, List.map_cons] at h
  cases ns with
  | nil =>
    rcases h with h | ⟨D, hD, h⟩
    · cases h
    · simp only [List.map_nil, List.nil_append] at h
      injection h with h _
      rw [← h, e] at hD
      exact hp.2.2.2.1 hD
  | cons n ns =>
    have : f.name = utf8File n := by
      rcases h with h | ⟨D, hD, h⟩
      · simp only [List.map_cons] at h; injection h
      · simp only [List.map_cons, List.cons_append] at h; injection h
    rw [this] at e
    exact hne (by rw [utf8_inj_name (hn n (by simp)) hm e]; rfl)

theorem at_names {p ns} (h : At p ns) : ∀ n ∈ ns, Name n := by
  induction h with
  | start _ => simp
  | prolog _ _ _ => simp
  | «open» _ h2 ih =>
    intro n hn
    rcases List.mem_cons.mp hn with rfl | hn
    · exact tag_name h2
    · exact ih n hn
  | content _ _ ih => exact ih

/-! ### References -/

theorem refChar_ent {c : Char} : isEntChar c.toNat = true ↔ RefChar c := by
  unfold isEntChar RefChar
  have : c = '#' ↔ c.toNat = 35 := ⟨fun h => by rw [h]; rfl, fun h => char_eq h⟩
  rw [this]
  simp; omega

theorem refChar_lt {c : Char} (h : RefChar c) : c.toNat < 128 := by
  unfold RefChar at h
  rcases h with h | h | h | rfl
  · omega
  · omega
  · omega
  · decide

/-- The text of a reference is collected, or is too long. -/
theorem R_ent_any (s : PS) (k : PC) : ∀ (n : List Char) (acc : Bytes), (∀ c ∈ n, RefChar c) →
    R { s with pc := .ent k acc } n = { s with pc := .ent k (acc ++ utf8File n) } ∨ Refused (R { s with pc := .ent k acc } n)
  | [], acc, _ => .inl (by simp [R_nil, utf8_nil])
  | c :: n, acc, h => by
    have hc := h c (by simp)
    have hl := refChar_lt hc
    by_cases hlen : acc.length < 63
    · rw [R_cons, step_ent (refChar_ent.mpr hc) hlen]
      have := R_ent_any s k n (acc ++ [UInt8.ofNat c.toNat]) (fun x hx => h x (by simp [hx]))
      rw [utf8_cons, utf8_ascii hl]
      simpa using this
    · refine .inr ?_
      rw [R_cons]
      refine Refused.R ?_ _
      simp [step, refChar_ent.mpr hc, hlen, dead_error]

theorem badChar_control {n : Nat} (h : n < 32) (h1 : n ≠ 9) (h2 : n ≠ 10) (h3 : n ≠ 13) : badChar (n : Int) = true := by
  unfold badChar
  simp
  omega

theorem intOfU_small {n : Nat} (h : n < 32) : intOfU (min n 9223372036854775807) = (n : Int) := by
  rw [Nat.min_eq_left (by omega)]
  unfold intOfU two32
  simp
  omega

theorem entity_control_hex {ds : List Char} (hd : ∀ d ∈ ds, Hexadecimal d) (h0 : number 16 ds < 32) (h1 : number 16 ds ≠ 9)
    (h2 : number 16 ds ≠ 10) (h3 : number 16 ds ≠ 13) : entityChar (utf8File ('#' :: 'x' :: ds)) = none := by
  have h := digitsLoop_number 16 ds 0 (fun x hx => ⟨by have := hd x hx; unfold Hexadecimal at this; omega, digitVal_hex (hd x hx)⟩)
  have e : utf8File ('#' :: 'x' :: ds) = 35 :: 120 :: utf8File ds := rfl
  have em : ∀ x : Bytes, entityChar (35 :: 120 :: x) =
      if badChar (intOfU (min (strtol16 x) 9223372036854775807)) then none
      else some (intOfU (min (strtol16 x) 9223372036854775807)).toNat := fun _ => rfl
  rw [e, em, strtol16_plain hd, h, show ds.foldl (fun a d => a * 16 + digit d) 0 = number 16 ds from rfl, intOfU_small h0,
    badChar_control h0 h1 h2 h3]
  rfl

theorem entity_control_dec {ds : List Char} (hd : ∀ d ∈ ds, Decimal d) (h0 : number 10 ds < 32) (h1 : number 10 ds ≠ 9)
    (h2 : number 10 ds ≠ 10) (h3 : number 10 ds ≠ 13) : entityChar (utf8File ('#' :: ds)) = none := by
  have h := digitsLoop_number 10 ds 0 (fun x hx => ⟨by have := hd x hx; unfold Decimal at this; omega, digitVal_dec (hd x hx)⟩)
  have e : utf8File ('#' :: ds) = 35 :: utf8File ds := rfl
  have hx : (utf8File ds).head? ≠ some 120 := by
    cases ds with
    | nil => simp [utf8_nil]
    | cons d ds =>
      have hd0 := hd d (by simp)
      unfold Decimal at hd0
      rw [utf8_cons, utf8_ascii (by omega)]
      simp only [List.singleton_append, List.head?_cons, ne_eq, Option.some.injEq]
      intro hx
      have := congrArg UInt8.toNat hx
      rw [ofNat_toNat (by omega)] at this
      simp at this; omega
  have em : ∀ x : Bytes, x.head? ≠ some 120 → entityChar (35 :: x) =
      if badChar (intOfU (min (digitsLoop 10 x 0) 9223372036854775807)) then none
      else some (intOfU (min (digitsLoop 10 x 0) 9223372036854775807)).toNat := by
    intro x hx
    cases x with
    | nil => rfl
    | cons y x =>
      have hy : y ≠ 120 := fun h => hx (by rw [h]; rfl)
      unfold entityChar
      split
      · rename_i heq; injection heq with _ h2; injection h2 with h3 _; exact absurd h3 hy
      · rename_i heq; injection heq with _ h2; subst h2; rfl
      · rename_i h1 h2; exact absurd rfl (h2 _)
  rw [e, em _ hx, h, show ds.foldl (fun a d => a * 10 + digit d) 0 = number 10 ds from rfl, intOfU_small h0, badChar_control h0 h1 h2 h3]
  rfl

theorem table_known {r : List Char} {v : Nat} (h : (utf8File r, v) ∈ entityTable) : Known r := by
  have h1 : ∀ p ∈ entityTable, ∃ x ∈ Html.named ++ Html.others, p.1 = utf8File x.1.toList := by decide +kernel
  obtain ⟨x, hx, e⟩ := h1 _ h
  exact ⟨x, hx, (utf8File_inj e).symm⟩

theorem entity_unknown {r : List Char} (h : r.head? ≠ some '#') (hr : ∀ c ∈ r, RefChar c) (hk : ¬ Known r) : entityChar (utf8File r) = none := by
  have hh : ∀ x, utf8File r ≠ 35 :: x := by
    intro x e
    cases r with
    | nil => cases e
    | cons c r =>
      have hl := refChar_lt (hr c (by simp))
      rw [utf8_cons, utf8_ascii hl] at e
      simp only [List.singleton_append] at e
      injection e with e _
      have := congrArg UInt8.toNat e
      rw [ofNat_toNat (by omega)] at this
      exact h (by rw [char_eq (d := '#') (c := c) (by rw [this]; rfl)]; rfl)
  have hv : entityValue (utf8File r) = none := by
    cases hv : entityValue (utf8File r) with
    | none => rfl
    | some v => exact absurd (table_known ((C40_entity_lookup_exact _ v).mp hv)) hk
  unfold entityChar
  split
  · rename_i heq; exact absurd heq (hh _)
  · rename_i heq; exact absurd heq (hh _)
  · rw [hv]; rfl

theorem dead_entity {s : PS} {k : PC} {n : List Char} (hn : ∀ c ∈ n, RefChar c) (he : entityChar (utf8File n) = none) :
    Refused (R { s with pc := .ent k [] } (n ++ [';'])) := by
  rw [R_append]
  rcases R_ent_any s k n [] hn with h | h
  · rw [h, List.nil_append, R_cons, R_nil, show (';' : Char).toNat = 59 from rfl]
    simp [step, isEntChar, he, dead_error]
  · exact h.R _

theorem dead_ref {s : PS} {k : PC} (hs : step s (some 38) = { s with pc := .ent k [] }) {r : List Char} (h : WrongReference r) : Refused (R s r) := by
  have amp : ∀ r, Refused (R { s with pc := .ent k [] } r) → Refused (R s ('&' :: r)) := by
    intro r h; rw [R_cons, show ('&' : Char).toNat = 38 from rfl, hs]; exact h
  cases h with
  | @unended r c h1 h2 h3 h4 =>
    rw [List.append_assoc, List.singleton_append]
    refine amp _ ?_
    rw [R_append]
    rcases R_ent_any s k r [] h1 with h | h
    · rw [h, R_cons, R_nil]
      have : ¬ isEntChar c.toNat = true := fun h => h2 (refChar_ent.mp h)
      have h59 : c.toNat ≠ 59 := toNat_ne (d := ';') h3
      simp [step, this, h59, dead_error]
    · exact h.R _
  | @unknown r h1 h2 h3 =>
    rw [List.append_assoc, List.singleton_append]
    exact amp _ (dead_entity h1 (entity_unknown h2 h1 h3))
  | @decimal ds h1 h2 h3 h4 h5 =>
    refine amp ('#' :: ds ++ [';']) (dead_entity ?_ (entity_control_dec h1 h2 h3 h4 h5))
    intro c hc
    rcases List.mem_cons.mp hc with rfl | hc
    · decide
    · exact .inl (h1 c hc)
  | @hexadecimal ds h1 h2 h3 h4 h5 =>
    refine amp ('#' :: 'x' :: ds ++ [';']) (dead_entity ?_ (entity_control_hex h1 h2 h3 h4 h5))
    intro c hc
    rcases List.mem_cons.mp hc with rfl | hc
    · decide
    · rcases List.mem_cons.mp hc with rfl | hc
      · decide
      · have := h1 c hc; unfold Hexadecimal at this; unfold RefChar; omega

/-! ### All of them -/

/-- Inside an attribute value. -/
theorem in_value {s : PS} (hs : s.secondRoot = false) {b : List Char} (h : InValue b) :
    ∃ r e an q av, b = '<' :: r ∧ q ≠ 38 ∧ R { s with pc := .name [] } r = { s with pc := .qval e an q av } := by
  cases h with
  | @mk b as a w1 w2 q t v h1 h2 h3 h4 h5 h6 h7 =>
    obtain ⟨r, n, rfl, hr, hnm⟩ := before_attr hs h1
    refine ⟨r ++ a ++ w1 ++ ['='] ++ w2 ++ [q] ++ t, (n, attrs as), utf8File a, q.toNat, utf8File v, by simp,
      by rcases h6 with rfl | rfl <;> decide, ?_⟩
    have hnew : utf8File a ∉ (attrs as).map Prod.fst := by
      intro hmem
      rw [attrs, List.map_map] at hmem
      obtain ⟨x, hx, he⟩ := List.mem_map.mp hmem
      exact h3 (List.mem_map.mpr ⟨x, hx, utf8_inj_name (hnm x hx) h2 he⟩)
    have hz := name_cstr h2
    simp only [R_append]
    rw [hr, R_attr_name s _ h2]
    have e1 : R (R { s with pc := .aname (n, attrs as) (utf8File a) } w1) ['='] = { s with pc := .vskip (n, attrs as) (utf8File a) } := by
      cases w1 with
      | nil =>
        rw [R_nil, R_cons, R_nil]
        simp [step, PS.afterAttrName, hz, findAttr_none hnew, isSpace]
      | cons c w1 =>
        have hc := space_nat (h4 c (by simp))
        have e : step { s with pc := .aname (n, attrs as) (utf8File a) } (some c.toNat) = { s with pc := .aeq (n, attrs as) (utf8File a) } := by
          simp [step, PS.afterAttrName, hz, findAttr_none hnew, hc]
        have e' : R { s with pc := .aname (n, attrs as) (utf8File a) } (c :: w1) = { s with pc := .aeq (n, attrs as) (utf8File a) } := by
          rw [R_cons, e, R_spaces s (.aeq (n, attrs as) (utf8File a)) (by intro c hc; simp [step, hc]) w1 (fun x hx => h4 x (by simp [hx]))]
        rw [e', R_cons, R_nil]
        simp [step, isSpace]
    rw [e1, R_spaces s (.vskip (n, attrs as) (utf8File a)) (by intro c hc; simp [step, hc]) w2 h5]
    have e2 : R { s with pc := .vskip (n, attrs as) (utf8File a) } [q] = { s with pc := .qval (n, attrs as) (utf8File a) q.toNat [] } := by
      rw [R_cons, R_nil]
      rcases h6 with rfl | rfl <;> simp [step, isSpace]
    rw [e2, R_attText s _ _ h6 h7, List.nil_append]

theorem tag_start {s : PS} (hs : s.secondRoot = false) {b : List Char} {as} (h : TagStart b as) : ∃ r n, b = '<' :: r ∧ PlainHead n ∧ n ≠ [] ∧
    (R { s with pc := .name [] } r = { s with pc := .name n } ∨ R { s with pc := .name [] } r = { s with pc := .attr (n, attrs as) }) := by
  cases h with
  | @mk n s' w as h1 h2 h3 h4 =>
    obtain ⟨hp, hr⟩ := R_body hs (TagBody.mk h1 h2 h3 h4)
    refine ⟨n ++ s' ++ w, utf8File n, by simp, hp, ?_, ?_⟩
    · obtain ⟨hne, hc⟩ := name_chars h1
      rw [name_ascii hc]; simpa using hne
    · unfold headPC at hr
      split at hr
      · exact hr
      · exact .inr (hr.elim id id)

theorem bad_chars {c : Char} (h : c ∈ "<\"#$%'()*+,".toList) : c.toNat = 60 ∨ (isSpace c.toNat = false ∧ c.toNat < 48 ∧ c.toNat ≠ 33 ∧
    c.toNat ≠ 38 ∧ c.toNat ≠ 45 ∧ c.toNat ≠ 46 ∧ c.toNat ≠ 47) := by
  revert c
  decide

/-- Wrong text is the end. -/
theorem dead_wrong {s : PS} {ns : List (List Char)} (hw : Where s ns) (hn : ∀ n ∈ ns, Name n) {e : List Char} (h : Wrong ns e) : Refused (R s e) := by
  obtain ⟨s', hlt, hsec, hnames⟩ := where_lt hw
  have lt : ∀ r, Refused (R { s' with pc := .name [] } r) → Refused (R s ('<' :: r)) := by
    intro r h; rw [R_cons, show ('<' : Char).toNat = 60 from rfl, hlt]; exact h
  cases h with
  | @endTag m c h1 h2 h3 =>
    have : ['<', '/'] ++ m ++ [c] = '<' :: (['/'] ++ m ++ [c]) := by simp
    rw [this]
    exact lt _ (dead_end (names_head hnames h1 h3 hn) h1 h2)
  | @twice b as a c h1 h2 h3 h4 =>
    obtain ⟨r, n, rfl, hr, hnm⟩ := before_attr hsec h1
    refine lt (r ++ a ++ [c]) ?_
    rw [R_append, R_append, hr, R_attr_name s' _ h2, R_cons, R_nil]
    have hc : (isSpace c.toNat || c.toNat == 61 || c.toNat == 47 || c.toNat == 62 || c.toNat == 63) = true := by
      rcases space_toNat h4 with h | h <;> simp [h]
    simp only [step]
    rw [if_pos hc]
    simp [PS.afterAttrName, name_cstr h2, findAttr_some h3, dead_error]
  | @noValue b as a c h1 h2 h3 =>
    obtain ⟨r, n, rfl, hr, hnm⟩ := before_attr hsec h1
    refine lt (r ++ a ++ [c]) ?_
    rw [R_append, R_append, hr, R_attr_name s' _ h2, R_cons, R_nil]
    rcases h3 with rfl | rfl <;> simp [step, isSpace, PS.afterAttrName, Refused, PS.error] <;> split <;> rfl
  | @noEqual b as a w c h1 h2 h3 h4 h5 h6 h7 =>
    obtain ⟨r, n, rfl, hr, hnm⟩ := before_attr hsec h1
    refine lt (r ++ a ++ w ++ [c]) ?_
    rw [R_append, R_append, R_append, hr, R_attr_name s' _ h2]
    cases w with
    | nil => exact absurd rfl h3
    | cons x w =>
      have hx := space_nat (h4 x (by simp))
      have hc : isSpace c.toNat = false := by
        cases hs : isSpace c.toNat with
        | false => rfl
        | true =>
          exfalso
          apply h5
          unfold isSpace at hs
          simp at hs
          rcases hs with ((hs | hs) | hs) | hs
          · exact .inl (char_eq hs)
          · exact .inr (.inl (char_eq hs))
          · exact .inr (.inr (.inl (char_eq hs)))
          · exact .inr (.inr (.inr (char_eq hs)))
      have h61 : c.toNat ≠ 61 := toNat_ne (d := '=') h6
      cases hf : (Node.findAttr (utf8File a) (attrs as)).isSome with
      | true =>
        refine Refused.R ?_ _
        rw [R_cons]
        refine Refused.R ?_ _
        simp [step, PS.afterAttrName, name_cstr h2, hf, hx, dead_error]
      | false =>
        have e : step { s' with pc := .aname (n, attrs as) (utf8File a) } (some x.toNat) = { s' with pc := .aeq (n, attrs as) (utf8File a) } := by
          simp [step, PS.afterAttrName, name_cstr h2, hf, hx]
        have e' : R { s' with pc := .aname (n, attrs as) (utf8File a) } (x :: w) = { s' with pc := .aeq (n, attrs as) (utf8File a) } := by
          rw [R_cons, e, R_spaces s' (.aeq (n, attrs as) (utf8File a)) (by intro c hc; simp [step, hc]) w (fun y hy => h4 y (by simp [hy]))]
        rw [e', R_cons, R_nil]
        simp [step, hc, h61, dead_error]
  | @less b as h1 =>
    obtain ⟨r, n, rfl, hp, hne, hr⟩ := tag_start hsec h1
    refine lt (r ++ ['<']) ?_
    rw [R_append]
    rcases hr with hr | hr <;> rw [hr, R_cons, R_nil, show ('<' : Char).toNat = 60 from rfl] <;> simp [step, isSpace, dead_error]
  | @slash b as c h1 h2 h3 =>
    obtain ⟨r, n, rfl, hp, hne, hr⟩ := tag_start hsec h1
    refine lt (r ++ ['/', c]) ?_
    obtain ⟨q1, q2, q3, q4, q5, q6⟩ := hp
    have h62 : c.toNat ≠ 62 := toNat_ne (d := '>') h2
    rw [R_append]
    rcases hr with hr | hr <;> rw [hr, R_cons, R_cons, R_nil, show ('/' : Char).toNat = 47 from rfl]
    · have hs' : ({ s' with pc := PC.name n } : PS).secondRoot = false := hsec
      have hne' : n.isEmpty = false := by cases n <;> simp_all
      have e1 : step { s' with pc := .name n } (some 47) = { s' with pc := .slash n } := by
        simp [step, isSpace, PS.afterName, q1, q2, q4, q5, q6, hs', hne']
      rw [e1]
      simp [step, h62, dead_error]
    · have e1 : step { s' with pc := .attr (n, attrs as) } (some 47) = { s' with pc := .attrSlash (n, attrs as) 47 } := by
        simp [step, isSpace]
      rw [e1]
      simp [step, h62, dead_error]
  | @char n c h1 h2 =>
    have : ['<'] ++ n ++ [c] = '<' :: (n ++ [c]) := by simp
    rw [this]
    refine lt _ ?_
    have hnm : ∃ b, R { s' with pc := .name [] } n = { s' with pc := .name b } := by
      rcases h1 with rfl | h1
      · exact ⟨[], rfl⟩
      · exact ⟨_, R_name s' h1⟩
    obtain ⟨b, hb⟩ := hnm
    rw [R_append, hb, R_cons, R_nil]
    rcases bad_chars h2 with h | ⟨h0, h⟩
    · rw [h]; simp [step, isSpace, dead_error]
    · have h60 : c.toNat ≠ 60 := by omega
      have h62 : c.toNat ≠ 62 := by omega
      simp [step, h0, h60, h62, h, dead_error]
  | @text r h1 =>
    cases hw with
    | out => exact dead_ref (k := .main []) (by simp [step, isSpace]) h1
    | @inn q m bs fs ns hn' => exact dead_ref (k := .main q.1) (by simp [step, content]) h1
  | @value b r h1 h2 =>
    obtain ⟨r', e, an, q, av, rfl, hq, hr⟩ := in_value hsec h1
    refine lt (r' ++ r) ?_
    rw [R_append, hr]
    exact dead_ref (k := .qval e an q av) (by simp [step, Ne.symm hq]) h2

end Afs.Xml
