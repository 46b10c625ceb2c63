import Verif.Proof.XmlParse
/-!
# Reading back what the writer wrote
-/
namespace Afs.Xml
open Afs Afs.Spec

/-- Control states that collect characters, with `&` entities resolved. -/
structure Collects (s : PS) (K : Bytes → PC) : Prop where
  char : ∀ b (c : Nat), c ≠ 38 → c ≠ 60 → c ≠ 62 → c ≠ 34 →
    step { s with pc := K b } (some c) = { s with pc := K (b ++ addChar c) }
  amp : ∀ b, step { s with pc := K b } (some 38) = { s with pc := .ent (K b) [] }
  res : ∀ b ch, resume { s with pc := .ent (K b) [] } (K b) ch = { s with pc := K (b ++ addChar ch) }
  res2 : ∀ b ch acc, resume { s with pc := .ent (K b) acc } (K b) ch = { s with pc := K (b ++ addChar ch) }

theorem collects_main {s : PS} (h : s.opq = true) : Collects s .main where
  char := by
    intro b c h1 h2 h3 h4
    simp [step, h1, h2, h]
  amp := by intro b; simp [step, h]
  res := by intro b ch; rfl
  res2 := by intro b ch acc; rfl

theorem collects_qval (s : PS) (e : Head) (an : Bytes) : Collects s (.qval e an 34) where
  char := by
    intro b c h1 h2 h3 h4
    simp [step, h1, h4]
  amp := by intro b; simp [step]
  res := by intro b ch; rfl
  res2 := by intro b ch acc; rfl

theorem step_ent {s : PS} {k : PC} {acc : Bytes} {c : Nat} (h : isEntChar c = true) (hl : acc.length < 63) :
    step { s with pc := .ent k acc } (some c) = { s with pc := .ent k (acc ++ [UInt8.ofNat c]) } := by
  simp [step, h, hl]

theorem step_ent_end {s : PS} {k : PC} {acc : Bytes} {v : Nat} (h : entityChar acc = some v) :
    step { s with pc := .ent k acc } (some 59) = resume { s with pc := .ent k acc } k v := by
  simp [step, h, isEntChar]

theorem ascii_lit {dec} (hd : GoodDec dec) {w : Bytes} (h : ∀ b ∈ w, okByte b = true) (s : PS) (r : Bytes) :
    feed dec s (w ++ r) = feed dec (run s (w.map fun b => some b.toNat)) r := by
  induction w generalizing s with
  | nil => rfl
  | cons b w ih =>
    rw [List.cons_append, feed_byte hd (h b (by simp)), ih (fun x hx => h x (by simp [hx]))]
    rfl

theorem feed_entity {dec} (hd : GoodDec dec) {s : PS} {K : Bytes → PC} (hk : Collects s K) (b : Bytes)
    {name : Bytes} {v : Nat} (hv : entityChar name = some v)
    (hn : ∀ x ∈ name, okByte x = true ∧ isEntChar x.toNat = true) (hl : name.length < 60) (r : Bytes) :
    feed dec { s with pc := K b } (38 :: (name ++ 59 :: r)) =
      feed dec { s with pc := K (b ++ addChar v) } r := by
  rw [feed_byte hd (by decide)]
  have h38 : (38 : UInt8).toNat = 38 := rfl
  rw [h38, hk.amp]
  have key : ∀ (n acc : Bytes), (∀ x ∈ n, okByte x = true ∧ isEntChar x.toNat = true) → acc.length + n.length < 60 →
      feed dec { s with pc := .ent (K b) acc } (n ++ 59 :: r) =
        feed dec { s with pc := .ent (K b) (acc ++ n) } (59 :: r) := by
    intro n
    induction n with
    | nil => intro acc _ _; simp
    | cons x n ih =>
      intro acc hx hl
      rw [List.cons_append, feed_byte hd (hx x (by simp)).1, step_ent (hx x (by simp)).2 (by simp at hl; omega),
        ih _ (fun y hy => hx y (by simp [hy])) (by simp at hl ⊢; omega)]
      simp
  rw [key name [] hn (by simpa using hl), List.nil_append, feed_byte hd (by decide)]
  have h59 : (59 : UInt8).toNat = 59 := rfl
  rw [h59, step_ent_end hv, hk.res2]

theorem feed_escChar {dec} (hd : GoodDec dec) {s : PS} {K : Bytes → PC} (hk : Collects s K) (b : Bytes)
    (c : Char) (hc : Allowed c) (r : Bytes) :
    feed dec { s with pc := K b } (escChar c ++ r) =
      feed dec { s with pc := K (b ++ String.utf8EncodeChar c) } r := by
  unfold escChar
  have hadd := addChar_eq c
  split
  · rename_i h
    rw [h] at hadd
    rw [← hadd]
    exact feed_entity hd hk b entity_amp (by decide) (by decide) r
  · split
    · rename_i h
      rw [h] at hadd
      rw [← hadd]
      exact feed_entity hd hk b entity_lt (by decide) (by decide) r
    · split
      · rename_i h
        rw [h] at hadd
        rw [← hadd]
        exact feed_entity hd hk b entity_gt (by decide) (by decide) r
      · split
        · rename_i h
          rw [h] at hadd
          rw [← hadd]
          exact feed_entity hd hk b entity_quot (by decide) (by decide) r
        · rw [feed_char hd hc, hk.char b c.toNat (by assumption) (by assumption) (by assumption) (by assumption), hadd]

/-- Escaped text is collected as the original text. -/
theorem feed_writeString {dec} (hd : GoodDec dec) {s : PS} {K : Bytes → PC} (hk : Collects s K) (b : Bytes)
    {w : Bytes} (hw : CleanText w) (r : Bytes) :
    feed dec { s with pc := K b } (writeString w ++ r) = feed dec { s with pc := K (b ++ w) } r := by
  obtain ⟨cs, hc, rfl⟩ := hw
  induction cs generalizing b with
  | nil => simp [writeString]
  | cons c cs ih =>
    rw [List.flatMap_cons, writeString_char, List.append_assoc, feed_escChar hd hk b c (hc c (by simp)),
      ih _ (fun x hx => hc x (by simp [hx]))]
    simp

/-! ### Names and attributes -/

theorem plain_ge {b : UInt8}
    (h : (48 ≤ b.toNat ∧ b.toNat ≤ 57) ∨ (65 ≤ b.toNat ∧ b.toNat ≤ 90) ∨ (97 ≤ b.toNat ∧ b.toNat ≤ 122)) :
    isSpace b.toNat = false ∧ b.toNat ≠ 62 ∧ b.toNat ≠ 47 ∧ b.toNat ≠ 60 ∧ b.toNat ≠ 38 ∧ 48 ≤ b.toNat ∧
      b.toNat ≠ 33 ∧ b.toNat ≠ 61 ∧ b.toNat ≠ 63 ∧ b.toNat ≠ 34 ∧ b.toNat ≠ 39 ∧ b.toNat < 128 := by
  refine ⟨?_, by omega, by omega, by omega, by omega, by omega, by omega, by omega, by omega, by omega, by omega,
    by omega⟩
  simp [isSpace]; omega

/-- All characters of a name are letters or digits. -/
def AlNum (n : Bytes) : Prop := ∀ c ∈ n, (48 ≤ c.toNat ∧ c.toNat ≤ 57) ∨ (65 ≤ c.toNat ∧ c.toNat ≤ 90) ∨
    (97 ≤ c.toNat ∧ c.toNat ≤ 122)

theorem alnum_okByte {b : UInt8}
    (h : (48 ≤ b.toNat ∧ b.toNat ≤ 57) ∨ (65 ≤ b.toNat ∧ b.toNat ≤ 90) ∨ (97 ≤ b.toNat ∧ b.toNat ≤ 122)) :
    okByte b = true := by simp [okByte]; omega

theorem addChar_byte {b : UInt8} (h : b.toNat < 128) : addChar b.toNat = [b] := by
  rw [addChar, if_pos h]; simp

theorem alnum_head {n : Bytes} (h : AlNum n) :
    n ≠ b! "!--" ∧ n ≠ Node.cdataOpen ∧ n ≠ b! "?" ∧ n.head? ≠ some 63 ∧ n.head? ≠ some 33 ∧ n.head? ≠ some 47 := by
  cases n with
  | nil => decide
  | cons x xs =>
    have hx := plain_ge (h x (by simp))
    have h63 : x ≠ 63 := fun e => hx.2.2.2.2.2.2.2.2.1 (by rw [e]; rfl)
    have h33 : x ≠ 33 := fun e => hx.2.2.2.2.2.2.1 (by rw [e]; rfl)
    have h47 : x ≠ 47 := fun e => hx.2.2.1 (by rw [e]; rfl)
    refine ⟨?_, ?_, ?_, by simpa using h63, by simpa using h33, by simpa using h47⟩
    · intro e; injection e with e1 _; exact h33 e1
    · intro e; injection e with e1 _; exact h33 e1
    · intro e; injection e with e1 _; exact h63 e1

theorem step_name {s : PS} {buf : Bytes} (hb : AlNum buf) {x : UInt8}
    (hx : (48 ≤ x.toNat ∧ x.toNat ≤ 57) ∨ (65 ≤ x.toNat ∧ x.toNat ≤ 90) ∨ (97 ≤ x.toNat ∧ x.toNat ≤ 122)) :
    step { s with pc := .name buf } (some x.toNat) = { s with pc := .name (buf ++ [x]) } := by
  obtain ⟨p1, p2, p3, p4, p5, p6, p7, p8, p9, p10, p11, p12⟩ := plain_ge hx
  have hb' : AlNum (buf ++ [x]) := by
    intro c hc
    rcases List.mem_append.mp hc with h | h
    · exact hb c h
    · simp at h; subst h; exact hx
  obtain ⟨q1, q2, q3, -⟩ := alnum_head hb'
  simp only [step, p1, addChar_byte p12, p4, p5, if_false]
  rw [if_neg (by simp [p2, p3]), if_neg (by omega), if_neg (by simp [q1, q2, q3])]

theorem feed_name {dec} (hd : GoodDec dec) (s : PS) {n : Bytes} (hn : AlNum n) (r : Bytes) :
    feed dec { s with pc := .name [] } (n ++ r) = feed dec { s with pc := .name n } r := by
  have key : ∀ m buf, AlNum (buf ++ m) → feed dec { s with pc := .name buf } (m ++ r) =
      feed dec { s with pc := .name (buf ++ m) } r := by
    intro m
    induction m with
    | nil => intro buf _; simp
    | cons x m ih =>
      intro buf hb
      have hx := hb x (by simp)
      rw [List.cons_append, feed_byte hd (alnum_okByte hx),
        step_name (fun c hc => hb c (by simp [hc])) hx, ih _ (by simpa using hb)]
      simp
  simpa using key n [] (by simpa using hn)

/-- Control state after the name and `as` attributes of a start tag. -/
def headPC (n : Bytes) (as : List (Bytes × Option Bytes)) : PC :=
  if as = [] then .name n else .attr (n, as)

theorem step_head_space {s : PS} (hs : s.secondRoot = false) {n : Bytes} (hn : AlNum n)
    (as : List (Bytes × Option Bytes)) :
    step { s with pc := headPC n as } (some 32) = { s with pc := .attr (n, as) } := by
  unfold headPC
  obtain ⟨q1, q2, q3, q4, q5, q6⟩ := alnum_head hn
  split
  · rename_i h
    subst h
    have hs' : ({ s with pc := PC.name n } : PS).secondRoot = false := hs
    simp [step, isSpace, PS.afterName, q1, q2, q4, q5, q6, hs']
  · simp [step, isSpace]

theorem step_head_end {s : PS} (hs : s.secondRoot = false) {n : Bytes} (hn : AlNum n)
    (as : List (Bytes × Option Bytes)) :
    step { s with pc := headPC n as } (some 62) = { s.push (n, as) with pc := .main [] } := by
  unfold headPC
  obtain ⟨q1, q2, q3, q4, q5, q6⟩ := alnum_head hn
  split
  · rename_i h
    subst h
    have hs' : ({ s with pc := PC.name n } : PS).secondRoot = false := hs
    simp [step, isSpace, PS.afterName, q1, q2, q4, q5, q6, hs', PS.afterHead, PS.push]
  · simp [step, isSpace, PS.afterHead, PS.push]

theorem findAttr_none {an : Bytes} {as : List (Bytes × Option Bytes)} (h : an ∉ as.map Prod.fst) :
    Node.findAttr an as = none := by
  induction as with
  | nil => rfl
  | cons a as ih =>
    simp only [List.map_cons, List.mem_cons, not_or] at h
    rw [Node.findAttr, if_neg (fun e => h.1 e.symm), ih h.2]

theorem setAttr_new {an : Bytes} {v : Option Bytes} {as : List (Bytes × Option Bytes)} (h : an ∉ as.map Prod.fst) :
    Node.setAttrList an v as = as ++ [(an, v)] := by
  induction as with
  | nil => rfl
  | cons a as ih =>
    simp only [List.map_cons, List.mem_cons, not_or] at h
    rw [Node.setAttrList, if_neg (fun e => h.1 e.symm), ih h.2]
    rfl

theorem step_attr_first {s : PS} {e : Head} {x : UInt8}
    (hx : (48 ≤ x.toNat ∧ x.toNat ≤ 57) ∨ (65 ≤ x.toNat ∧ x.toNat ≤ 90) ∨ (97 ≤ x.toNat ∧ x.toNat ≤ 122)) :
    step { s with pc := .attr e } (some x.toNat) = { s with pc := .aname e [x] } := by
  obtain ⟨p1, p2, p3, p4, p5, p6, p7, p8, p9, p10, p11, p12⟩ := plain_ge hx
  simp [step, p1, p2, p3, p4, p9, p10, p11]

theorem step_aname {s : PS} {e : Head} {an : Bytes} {x : UInt8}
    (hx : (48 ≤ x.toNat ∧ x.toNat ≤ 57) ∨ (65 ≤ x.toNat ∧ x.toNat ≤ 90) ∨ (97 ≤ x.toNat ∧ x.toNat ≤ 122)) :
    step { s with pc := .aname e an } (some x.toNat) = { s with pc := .aname e (an ++ [x]) } := by
  obtain ⟨p1, p2, p3, p4, p5, p6, p7, p8, p9, p10, p11, p12⟩ := plain_ge hx
  simp [step, p1, p2, p3, p5, p8, p9, addChar_byte p12]

theorem writeName_plain {n : Bytes} (h : AlNum n) : writeName n = n := by
  cases n with
  | nil => rfl
  | cons x xs =>
    have hx := plain_ge (h x (by simp))
    have h34 : x ≠ 34 := fun e => hx.2.2.2.2.2.2.2.2.2.1 (by rw [e]; rfl)
    have h39 : x ≠ 39 := fun e => hx.2.2.2.2.2.2.2.2.2.2.1 (by rw [e]; rfl)
    rw [writeName, if_neg (by simp [h34, h39])]

theorem feed_attr {dec} (hd : GoodDec dec) {s : PS} (hs : s.secondRoot = false) {n : Bytes} (hn : AlNum n)
    (as : List (Bytes × Option Bytes)) {an v : Bytes} (ha : PlainName an) (hv : CleanText v)
    (hnew : an ∉ as.map Prod.fst) (r : Bytes) :
    feed dec { s with pc := headPC n as } (writeAttr (an, some v) ++ r) =
      feed dec { s with pc := headPC n (as ++ [(an, some v)]) } r := by
  have hal : AlNum an := ha.2
  simp only [writeAttr, writeName_plain hal, List.append_assoc, List.cons_append, List.nil_append]
  rw [feed_byte hd (by decide), show (32 : UInt8).toNat = 32 from rfl, step_head_space hs hn]
  obtain ⟨x, xs, rfl⟩ : ∃ x xs, an = x :: xs := by
    cases an with
    | nil => exact absurd rfl ha.1.1
    | cons x xs => exact ⟨x, xs, rfl⟩
  have hx := hal x (by simp)
  rw [List.cons_append, feed_byte hd (alnum_okByte hx), step_attr_first hx]
  have key : ∀ m (acc rest : Bytes), AlNum m → feed dec { s with pc := .aname (n, as) acc } (m ++ rest) =
      feed dec { s with pc := .aname (n, as) (acc ++ m) } rest := by
    intro m
    induction m with
    | nil => intro acc rest _; simp
    | cons y m ih =>
      intro acc rest hm
      have hy := hm y (by simp)
      rw [List.cons_append, feed_byte hd (alnum_okByte hy), step_aname hy, ih _ _ (fun c hc => hm c (by simp [hc]))]
      simp
  rw [key xs [x] _ (fun c hc => hal c (by simp [hc]))]
  simp only [List.cons_append, List.nil_append]
  rw [feed_byte hd (by decide), show (61 : UInt8).toNat = 61 from rfl]
  have e1 : step { s with pc := .aname (n, as) (x :: xs) } (some 61) = { s with pc := .vskip (n, as) (x :: xs) } := by
    have hz : cstr (x :: xs) = x :: xs := cstr_print fun b hb => by
      have := hal b hb
      exact .inl (by omega)
    simp [step, PS.afterAttrName, hz, findAttr_none hnew, isSpace]
  rw [e1, feed_byte hd (by decide), show (34 : UInt8).toNat = 34 from rfl]
  have e2 : step { s with pc := .vskip (n, as) (x :: xs) } (some 34) =
      { s with pc := .qval (n, as) (x :: xs) 34 [] } := by simp [step, isSpace]
  rw [e2, feed_writeString hd (collects_qval s (n, as) (x :: xs)) [] hv, feed_byte hd (by decide),
    show (34 : UInt8).toNat = 34 from rfl, List.nil_append]
  have e3 : step { s with pc := .qval (n, as) (x :: xs) 34 v } (some 34) =
      { s with pc := headPC n (as ++ [(x :: xs, some v)]) } := by
    simp [step, PS.afterValue, cstr_print (clean_print hv), setAttr_new hnew, headPC]
  rw [e3]

theorem feed_attrs {dec} (hd : GoodDec dec) {s : PS} (hs : s.secondRoot = false) {n : Bytes} (hn : AlNum n)
    (as bs : List (Bytes × Option Bytes)) (hc : CleanAttrs (as ++ bs)) (r : Bytes) :
    feed dec { s with pc := headPC n as } (bs.flatMap writeAttr ++ r) =
      feed dec { s with pc := headPC n (as ++ bs) } r := by
  induction bs generalizing as with
  | nil => simp
  | cons b bs ih =>
    obtain ⟨an, v0⟩ := b
    obtain ⟨hp, v, hv, hcl⟩ := hc.2 (an, v0) (by simp)
    simp only at hp hv
    subst hv
    have hnew : an ∉ as.map Prod.fst := by
      intro hmem
      have := hc.1
      rw [List.map_append, List.nodup_append] at this
      exact this.2.2 an hmem an (by simp) rfl
    rw [List.flatMap_cons, List.append_assoc, feed_attr hd hs hn as hp hcl hnew, ih (as ++ [(an, some v)]) (by simpa using hc)]
    simp

theorem writeOpen_plain {n : Bytes} (h : PlainName n) : writeOpenName n = n := by
  obtain ⟨q1, q2, q3, q4, q5, q6⟩ := alnum_head (n := n) h.2
  unfold writeOpenName
  split
  · rfl
  · exact writeName_plain h.2

/-- A start tag without `/`. -/
theorem feed_open {dec} (hd : GoodDec dec) {s : PS} (hs : s.secondRoot = false) {n : Bytes} (hn : PlainName n)
    {as : List (Bytes × Option Bytes)} (hc : CleanAttrs as) (r : Bytes) :
    feed dec { s with pc := .name [] } (writeOpenName n ++ (as.flatMap writeAttr ++ (62 :: r))) =
      feed dec { s.push (n, as) with pc := .main [] } r := by
  rw [writeOpen_plain hn, feed_name hd s hn.2]
  have h := feed_attrs hd hs hn.2 [] as (by simpa using hc) (62 :: r)
  rw [show headPC n [] = .name n from rfl, List.nil_append] at h
  rw [h, feed_byte hd (by decide), show (62 : UInt8).toNat = 62 from rfl, step_head_end hs hn.2]

/-- An empty element. -/
theorem feed_empty {dec} (hd : GoodDec dec) {s : PS} (hs : s.secondRoot = false) {n : Bytes} (hn : PlainName n)
    {as : List (Bytes × Option Bytes)} (hc : CleanAttrs as) (r : Bytes) :
    feed dec { s with pc := .name [] } (writeOpenName n ++ (as.flatMap writeAttr ++ (32 :: 47 :: 62 :: r))) =
      feed dec { s.addNode (.elem n as []) with pc := .main [] } r := by
  rw [writeOpen_plain hn, feed_name hd s hn.2]
  have h := feed_attrs hd hs hn.2 [] as (by simpa using hc) (32 :: 47 :: 62 :: r)
  rw [show headPC n [] = .name n from rfl, List.nil_append] at h
  rw [h, feed_byte hd (by decide), show (32 : UInt8).toNat = 32 from rfl, step_head_space hs hn.2,
    feed_byte hd (by decide), show (47 : UInt8).toNat = 47 from rfl]
  have e1 : step { s with pc := .attr (n, as) } (some 47) = { s with pc := .attrSlash (n, as) 47 } := by
    simp [step, isSpace]
  rw [e1, feed_byte hd (by decide), show (62 : UInt8).toNat = 62 from rfl]
  have e2 : step { s with pc := .attrSlash (n, as) 47 } (some 62) =
      { s.addNode (.elem n as []) with pc := .main [] } := by
    simp only [step, if_true, PS.afterHead, PS.addNode]
    obtain ⟨pc, st, ro, oq⟩ := s
    cases st <;> cases ro <;> rfl
  rw [e2]

/-- A close tag, `<` already read. -/
theorem feed_close {dec} (hd : GoodDec dec) {s : PS} {f : Frame} {fs : List Frame} (hst : s.stack = f :: fs)
    (hn : PlainName f.name) (r : Bytes) :
    feed dec { s with pc := .name [] } (47 :: (f.name ++ 62 :: r)) = feed dec s.pop r := by
  rw [feed_byte hd (by decide), show (47 : UInt8).toNat = 47 from rfl]
  have e1 : step { s with pc := .name [] } (some 47) = { s with pc := .name [47] } := by
    simp [step, isSpace, addChar, Node.cdataOpen]
  rw [e1]
  have key : ∀ m buf rest, AlNum buf → AlNum m → feed dec { s with pc := .name (47 :: buf) } (m ++ rest) =
      feed dec { s with pc := .name (47 :: (buf ++ m)) } rest := by
    intro m
    induction m with
    | nil => intro buf rest _ _; simp
    | cons x m ih =>
      intro buf rest hb hm
      have hx := hm x (by simp)
      obtain ⟨p1, p2, p3, p4, p5, p6, p7, p8, p9, p10, p11, p12⟩ := plain_ge hx
      have e : step { s with pc := .name (47 :: buf) } (some x.toNat) = { s with pc := .name (47 :: (buf ++ [x])) } := by
        simp only [step, p1, addChar_byte p12, p4, p5, if_false]
        rw [if_neg (by simp [p2, p3]), if_neg (by omega), if_neg]
        · rfl
        · rintro (h | h | h) <;> (injection h with h1 _; exact absurd h1 (by decide))
      rw [List.cons_append, feed_byte hd (alnum_okByte hx), e, ih (buf ++ [x]) rest]
      · simp
      · intro c hc
        rcases List.mem_append.mp hc with h | h
        · exact hb c h
        · simp at h; subst h; exact hx
      · exact fun c hc => hm c (by simp [hc])
  rw [key f.name [] _ (by simp [AlNum]) hn.2, List.nil_append, feed_byte hd (by decide),
    show (62 : UInt8).toNat = 62 from rfl]
  have e2 : step { s with pc := .name (47 :: f.name) } (some 62) = s.pop := by
    have h1 : ¬ (47 :: f.name = b! "!--") := by intro h; injection h with h1 _; exact absurd h1 (by decide)
    have h2 : ¬ (47 :: f.name = Node.cdataOpen) := by intro h; injection h with h1 _; exact absurd h1 (by decide)
    simp only [step, isSpace]
    rw [if_pos (by simp)]
    simp only [PS.afterName, h1, h2, if_false, List.head?_cons, hst, List.drop_succ_cons, List.drop_zero, if_true,
      PS.closeBody]
    cases fs <;> simp [PS.pop, hst]
  rw [e2]

end Afs.Xml
