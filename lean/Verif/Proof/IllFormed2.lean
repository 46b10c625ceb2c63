import Verif.Proof.IllFormed
/-!
# Texts that break a rule of XML: behind a complete document, and from bytes
-/
namespace Afs.Xml
open Afs Afs.Spec Afs.Spec.Grammar

/-! ### Behind the outermost element -/

/-- The outermost element is complete and nothing is around it. -/
def Complete (s : PS) : Prop := ∃ b n o, s = ⟨.main b, [], some n, o⟩

theorem complete_spaces (n : Node) (o : Bool) (b : Bytes) {w : List Char} (h : Spaces w) : Complete (R ⟨.main b, [], some n, o⟩ w) := by
  induction w generalizing b with
  | nil => exact ⟨_, _, _, rfl⟩
  | cons c w ih =>
    have hc := space_nat (h c (by simp))
    have h60 : c.toNat ≠ 60 := by intro e; rw [e] at hc; exact absurd hc (by decide)
    have h38 : c.toNat ≠ 38 := by intro e; rw [e] at hc; exact absurd hc (by decide)
    have : ∃ b', step ⟨.main b, [], some n, o⟩ (some c.toNat) = ⟨.main b', [], some n, o⟩ := by
      cases o with
      | true => exact ⟨b ++ addChar c.toNat, by simp [step, h60, h38]⟩
      | false =>
        cases b with
        | nil => exact ⟨[], by simp [step, hc, h60, h38]⟩
        | cons x b => exact ⟨[], by simp [step, hc, h60, h38, PS.flush]⟩
    obtain ⟨b', e⟩ := this
    rw [R_cons, e]
    exact ih b' fun x hx => h x (by simp [hx])

theorem complete_bare {w e w' : List Char} {n : Node} (h1 : Spaces w) (h2 : Element e n) (h3 : Spaces w') :
    Complete (R PS.init (w ++ e ++ w')) := by
  rw [R_append, R_append, show PS.init = ⟨.main [], [], none, false⟩ from rfl, R_out_spaces _ w h1]
  have hlt : step ⟨.main [], [], none, false⟩ (some 60) = { PS.init with pc := .name [] } := by simp [step, PS.init, PS.flush]
  cases h2 with
  | @empty _ n as h =>
    obtain ⟨r, rfl, he⟩ := R_empty (s := PS.init) rfl h
    rw [R_cons, show ('<' : Char).toNat = 60 from rfl, hlt, he]
    exact complete_spaces _ false [] h3
  | @full t n as b bs e h4 h5 h6 =>
    obtain ⟨r, rfl, hs⟩ := R_start (s := PS.init) rfl h4
    rw [List.append_assoc, R_append, R_cons, show ('<' : Char).toNat = 60 from rfl, hlt, hs]
    have hc : { PS.push PS.init (utf8File n, attrs as) with pc := .main [] } = content ([], []) (utf8File n) (attrs as) [] none := rfl
    rw [hc, R_inside (tag_name h4) (goes_content h5) h6]
    exact complete_spaces _ true [] h3

/-- A name and a separator there: a second root. -/
theorem dead_second {s : PS} (hs : s.secondRoot = true) {n : List Char} (hn : Name n) {c : Char} (hc : Space c ∨ c = '>' ∨ c = '/') :
    Refused (R { s with pc := .name [] } (n ++ [c])) := by
  rw [R_append, R_name s hn, R_cons, R_nil]
  obtain ⟨q1, q2, q3, q4, q5, q6⟩ := name_plainHead hn
  have hne : (utf8File n).isEmpty = false := by
    obtain ⟨hne, hc⟩ := name_chars hn
    rw [name_ascii hc]
    cases n with
    | nil => exact absurd rfl hne
    | cons _ _ => rfl
  have hc' : (isSpace c.toNat || c.toNat == 62 || (c.toNat == 47 && !(utf8File n).isEmpty)) = true := by
    rcases hc with hc | rfl | rfl
    · rw [space_nat hc]; rfl
    · rfl
    · rw [hne]; rfl
  simp only [step]
  rw [if_pos hc']
  have hs' : ({ s with pc := PC.name (utf8File n) } : PS).secondRoot = true := hs
  simp [PS.afterName, q1, q2, q4, q5, q6, hs', dead_error]

theorem attributes_space {s w : List Char} {as} (h : Attributes s as) (hw : Spaces w) (hne : w ≠ [] ∨ s ≠ []) : ∃ x y, s ++ w = x :: y ∧ Space x := by
  cases h with
  | nil =>
    cases w with
    | nil => simp at hne
    | cons x w => exact ⟨x, w, rfl, hw x (by simp)⟩
  | @cons ws n w1 w2 q t v s as h0 h1 h2 h3 h4 h5 h6 h7 =>
    cases ws with
    | nil => exact absurd rfl h0
    | cons x ws => exact ⟨x, ws ++ n ++ w1 ++ ['='] ++ w2 ++ [q] ++ t ++ [q] ++ s ++ w, by simp, h1 x (by simp)⟩

theorem second_before {s : PS} (hs : s.secondRoot = true) {b : List Char} {as} (h : BeforeAttribute b as) :
    ∃ r, b = '<' :: r ∧ Refused (R { s with pc := .name [] } r) := by
  cases h with
  | @mk n s' w as h1 h2 h3 h4 h5 =>
    refine ⟨n ++ s' ++ w, by simp, ?_⟩
    obtain ⟨x, y, e, hx⟩ := attributes_space h2 h5 (.inl h4)
    have : n ++ s' ++ w = (n ++ [x]) ++ y := by rw [List.append_assoc, e]; simp
    rw [this, R_append]
    exact (dead_second hs h1 (.inl hx)).R y

theorem second_start {s : PS} (hs : s.secondRoot = true) {b : List Char} {as} (h : TagStart b as) :
    ∃ r, b = '<' :: r ∧ (Refused (R { s with pc := .name [] } r) ∨ Name r) := by
  cases h with
  | @mk n s' w as h1 h2 h3 h4 =>
    refine ⟨n ++ s' ++ w, by simp, ?_⟩
    by_cases he : s' = [] ∧ w = []
    · obtain ⟨rfl, rfl⟩ := he; exact .inr (by simpa using h1)
    · obtain ⟨x, y, e, hx⟩ := attributes_space h2 h4 (by
        by_cases hw : w = []
        · exact .inr fun h => he ⟨h, hw⟩
        · exact .inl hw)
      have : n ++ s' ++ w = (n ++ [x]) ++ y := by rw [List.append_assoc, e]; simp
      rw [this, R_append]
      exact .inl ((dead_second hs h1 (.inl hx)).R y)

theorem complete_lt {s : PS} (h : Complete s) : ∃ s' : PS, step s (some 60) = { s' with pc := .name [] } ∧ s'.secondRoot = true ∧ s'.stack = [] := by
  obtain ⟨b, n, o, rfl⟩ := h
  refine ⟨⟨.main b, [], some n, o⟩, ?_, rfl, rfl⟩
  simp only [step, if_true]
  unfold PS.flush
  split
  · rfl
  · split <;> rfl

theorem dead_after {s : PS} (hw : Complete s) {e : List Char} (h : Wrong [] e) : Refused (R s e) := by
  obtain ⟨s', hlt, hsec, hst⟩ := complete_lt hw
  have lt : ∀ r, Refused (R { s' with pc := .name [] } r) → Refused (R s ('<' :: r)) := by
    intro r h; rw [R_cons, show ('<' : Char).toNat = 60 from rfl, hlt]; exact h
  cases h with
  | @endTag m c h1 h2 h3 =>
    have : ['<', '/'] ++ m ++ [c] = '<' :: (['/'] ++ m ++ [c]) := by simp
    rw [this]
    exact lt _ (dead_end (fun f fs h => by rw [hst] at h; cases h) h1 h2)
  | @twice b as a c h1 h2 h3 h4 =>
    obtain ⟨r, rfl, hr⟩ := second_before hsec h1
    refine lt (r ++ a ++ [c]) ?_
    rw [R_append, R_append]; exact (hr.R _).R _
  | @noValue b as a c h1 h2 h3 =>
    obtain ⟨r, rfl, hr⟩ := second_before hsec h1
    refine lt (r ++ a ++ [c]) ?_
    rw [R_append, R_append]; exact (hr.R _).R _
  | @noEqual b as a w c h1 h2 h3 h4 h5 h6 h7 =>
    obtain ⟨r, rfl, hr⟩ := second_before hsec h1
    refine lt (r ++ a ++ w ++ [c]) ?_
    rw [R_append, R_append, R_append]; exact ((hr.R _).R _).R _
  | @less b as h1 =>
    obtain ⟨r, rfl, hr⟩ := second_start hsec h1
    refine lt (r ++ ['<']) ?_
    rcases hr with hr | hr
    · rw [R_append]; exact hr.R _
    · rw [R_append, R_name s' hr, R_cons, R_nil, show ('<' : Char).toNat = 60 from rfl]; simp [step, isSpace, dead_error]
  | @slash b as c h1 h2 h3 =>
    obtain ⟨r, rfl, hr⟩ := second_start hsec h1
    refine lt (r ++ ['/', c]) ?_
    rcases hr with hr | hr
    · rw [R_append]; exact hr.R _
    · have : r ++ ['/', c] = (r ++ ['/']) ++ [c] := by simp
      rw [this, R_append]; exact (dead_second hsec hr (.inr (.inr rfl))).R _
  | @char n c h1 h2 =>
    have : ['<'] ++ n ++ [c] = '<' :: (n ++ [c]) := by simp
    rw [this]
    refine lt _ ?_
    have hnm : ∃ b, R { s' with pc := .name [] } n = { s' with pc := .name b } := by
      rcases h1 with rfl | h1
      · exact ⟨[], rfl⟩
      · exact ⟨_, R_name s' h1⟩
    obtain ⟨b, hb⟩ := hnm
    rw [R_append, hb, R_cons, R_nil]
    rcases bad_chars h2 with h | ⟨h0, h⟩
    · rw [h]; simp [step, isSpace, dead_error]
    · have h60 : c.toNat ≠ 60 := by omega
      have h62 : c.toNat ≠ 62 := by omega
      simp [step, h0, h60, h62, h, dead_error]
  | @text r h1 =>
    obtain ⟨b, n, o, rfl⟩ := hw
    exact dead_ref (k := .main b) (by simp [step, isSpace]) h1
  | @value b r h1 h2 =>
    cases h1 with
    | @mk b as a w1 w2 q t v h1 _ _ _ _ _ _ =>
      obtain ⟨r', rfl, hr⟩ := second_before hsec h1
      have : '<' :: r' ++ a ++ w1 ++ ['='] ++ w2 ++ [q] ++ t ++ r = '<' :: (r' ++ (a ++ w1 ++ ['='] ++ w2 ++ [q] ++ t ++ r)) := by simp
      rw [this]
      refine lt _ ?_
      rw [R_append]; exact hr.R _

/-- Behind a complete document with a declaration the declaration is still open. -/
theorem where_declared {d m w e m' w' : List Char} {is is' : List Item} {n : Node} (h1 : XmlDecl d) (h2 : Misc m is) (h3 : Spaces w)
    (h4 : Element e n) (h5 : Misc m' is') (h6 : Spaces w') : Where (R PS.init ("<?".toList ++ d ++ "?>".toList ++ m ++ w ++ e ++ m' ++ w')) [] := by
  rw [R_append, R_append, R_append, R_append, R_append, R_decl h1]
  rw [goes_misc h2, goes_data (spaces_data h3), goes_element h4, goes_misc h5, goes_data (spaces_data h6)]
  exact .inn (.inr ⟨_, rfl, rfl⟩)

theorem dead_document {p : List Char} {v : Node} (h : Document p v) {e : List Char} (he : Wrong [] e) : Refused (R (R PS.init p) e) := by
  cases h with
  | declared h1 h2 h3 h4 h5 h6 => exact dead_wrong (where_declared h1 h2 h3 h4 h5 h6) (by simp) he
  | bare h1 h2 h3 => exact dead_after (complete_bare h1 h2 h3) he

/-! ### Characters -/

theorem at_xml {p ns} (h : At p ns) : ∀ c ∈ p, XmlChar c := by
  induction h with
  | start h => exact spaces_xml h
  | prolog h1 h2 h3 =>
    exact all_append (all_append (all_append (all_append (by decide) fun c hc => (decl_mem h1 c hc).1) (by decide)) (misc_xml h2)) (spaces_xml h3)
  | «open» _ h2 ih => exact all_append ih (start_xml h2)
  | content _ h2 ih => exact all_append ih (content_xml h2)

theorem one_xml {c : Char} (h : XmlChar c) : ∀ x ∈ [c], XmlChar x := by simpa using h

theorem space_xml {c : Char} (h : Space c) : XmlChar c := spaces_xml (w := [c]) (by simpa [Spaces] using h) c (by simp)

theorem before_xml {b as} (h : BeforeAttribute b as) : ∀ c ∈ b, XmlChar c := by
  cases h with
  | mk h1 h2 _ _ h5 => exact all_append (all_append (all_append (by decide) (name_xml h1)) (attributes_xml h2)) (spaces_xml h5)

theorem tagStart_xml {b as} (h : TagStart b as) : ∀ c ∈ b, XmlChar c := by
  cases h with
  | mk h1 h2 _ h5 => exact all_append (all_append (all_append (by decide) (name_xml h1)) (attributes_xml h2)) (spaces_xml h5)

theorem inValue_xml {b} (h : InValue b) : ∀ c ∈ b, XmlChar c := by
  cases h with
  | mk h1 h2 _ h4 h5 h6 h7 =>
    exact all_append (all_append (all_append (all_append (all_append (all_append (before_xml h1) (name_xml h2)) (spaces_xml h4)) (by decide))
      (spaces_xml h5)) (quote_xml h6)) (attSrc_xml h7)

theorem refChar_xml {r : List Char} (h : ∀ c ∈ r, RefChar c) : ∀ c ∈ r, XmlChar c := by
  intro c hc
  have := h c hc
  unfold RefChar at this
  rcases this with h | h | h | rfl
  · unfold XmlChar; omega
  · unfold XmlChar; omega
  · unfold XmlChar; omega
  · decide

theorem wrongRef_xml {r} (h : WrongReference r) : ∀ c ∈ r, XmlChar c := by
  cases h with
  | unended h1 _ _ h4 => exact all_append (all_append (by decide) (refChar_xml h1)) (one_xml h4)
  | unknown h1 _ _ => exact all_append (all_append (by decide) (refChar_xml h1)) (by decide)
  | decimal h1 _ _ _ _ => exact all_append (all_append (by decide) (refChar_xml fun c hc => .inl (h1 c hc))) (by decide)
  | hexadecimal h1 _ _ _ _ =>
    refine all_append (all_append (by decide) (refChar_xml fun c hc => ?_)) (by decide)
    have := h1 c hc
    unfold Hexadecimal at this; unfold RefChar; omega

theorem wrong_xml {ns e} (h : Wrong ns e) : ∀ c ∈ e, XmlChar c := by
  cases h with
  | endTag h1 h2 _ =>
    exact all_append (all_append (by decide) (name_xml h1)) (one_xml (by rcases h2 with h | rfl; exact space_xml h; decide))
  | twice h1 h2 _ h4 =>
    exact all_append (all_append (before_xml h1) (name_xml h2)) (one_xml (by rcases h4 with h | rfl; exact space_xml h; decide))
  | noValue h1 h2 h3 => exact all_append (all_append (before_xml h1) (name_xml h2)) (one_xml (by rcases h3 with rfl | rfl <;> decide))
  | noEqual h1 h2 _ h4 _ _ h7 => exact all_append (all_append (all_append (before_xml h1) (name_xml h2)) (spaces_xml h4)) (one_xml h7)
  | less h1 => exact all_append (tagStart_xml h1) (by decide)
  | @slash b as c h1 _ h3 => exact all_append (tagStart_xml h1) (all_append (a := ['/']) (b := [c]) (by decide) (one_xml h3))
  | @char n c h1 h2 =>
    refine all_append (all_append (by decide) ?_) (one_xml ?_)
    · rcases h1 with rfl | h1
      · simp
      · exact name_xml h1
    · revert h2; revert c; decide
  | text h => exact wrongRef_xml h
  | value h1 h2 => exact all_append (inValue_xml h1) (wrongRef_xml h2)

/-! ### Bytes -/

theorem dec_prefix {dec} (hd : GoodDec dec) (rest : Bytes) : ∀ (t : List Char), (∀ c ∈ t, Allowed c) →
    dec (utf8File t ++ rest) = (t.map fun c => some c.toNat) ++ dec rest
  | [], _ => rfl
  | c :: t, h => by
    rw [utf8_cons, List.append_assoc, hd.char c _ (h c (by simp)), dec_prefix hd rest t fun x hx => h x (by simp [hx])]
    rfl

/-- A text at which the reader gives up is refused whatever follows. -/
theorem refused_of_dead {dec} (hd : GoodDec dec) {t : List Char} (ht : ∀ c ∈ t, XmlChar c) (hf : Char.ofNat 0xFEFF ∉ t)
    (h : Refused (R PS.init t)) (rest : Bytes) : loadData (dec (utf8File t ++ rest)) = none := by
  have ha : ∀ c ∈ t, Allowed c := by
    intro c hc
    refine ⟨xmlChar_ok (ht c hc), fun e => hf ?_⟩
    have : c = Char.ofNat 0xFEFF := char_eq (by rw [e]; rfl)
    rwa [← this]
  unfold loadData
  rw [dec_prefix hd rest t ha]
  have : run PS.init (t.map (fun c => some c.toNat) ++ dec rest) = run (R PS.init t) (dec rest) := by
    unfold run R run; rw [List.foldl_append]
  rw [this]
  exact ((h.run _).run _).result

end Afs.Xml
