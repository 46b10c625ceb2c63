import Verif.Proof.Grammar3
/-!
# What the writer writes belongs to the grammar
-/
namespace Afs.Xml
open Afs Afs.Spec Afs.Spec.Grammar

/-- The character of an ASCII byte. -/
def chr (b : UInt8) : Char := Char.ofNat b.toNat

theorem chr_toNat {b : UInt8} (h : b.toNat < 128) : (chr b).toNat = b.toNat := by
  unfold chr
  rw [Char.ofNat, dif_pos (Or.inl (by omega))]
  rfl

theorem utf8_chr {w : Bytes} (h : ∀ b ∈ w, b.toNat < 128) : utf8File (w.map chr) = w := by
  induction w with
  | nil => rfl
  | cons b w ih =>
    have hb := h b (by simp)
    rw [List.map_cons, utf8_cons, utf8_ascii (by rw [chr_toNat hb]; exact hb), chr_toNat hb, ih fun x hx => h x (by simp [hx])]
    simp

theorem chr_space {b : UInt8} (h : b = 32 ∨ b = 9 ∨ b = 10 ∨ b = 13) : Space (chr b) := by
  rcases h with rfl | rfl | rfl | rfl <;> decide

theorem white_text {w : Bytes} (h : ∀ b ∈ w, b = 32 ∨ b = 9 ∨ b = 10 ∨ b = 13) : ∃ s, w = utf8File s ∧ Spaces s := by
  refine ⟨w.map chr, (utf8_chr fun b hb => ?_).symm, ?_⟩
  · rcases h b hb with rfl | rfl | rfl | rfl <;> decide
  · intro c hc
    obtain ⟨b, hb, rfl⟩ := List.mem_map.mp hc
    exact chr_space (h b hb)

theorem plain_name {n : Bytes} (h : PlainName n) : ∃ s, n = utf8File s ∧ Name s := by
  have hlt : ∀ b ∈ n, b.toNat < 128 := fun b hb => by have := h.2 b hb; omega
  refine ⟨n.map chr, (utf8_chr hlt).symm, ?_⟩
  cases n with
  | nil => exact absurd rfl h.1.1
  | cons b r =>
    refine ⟨chr b, r.map chr, rfl, ?_, ?_⟩
    · have := h.1.2 b (by simp)
      unfold NameStart
      rw [chr_toNat (hlt b (by simp))]
      rcases this with h | h
      · exact .inl h
      · exact .inr (.inl h)
    · intro c hc
      obtain ⟨x, hx, rfl⟩ := List.mem_map.mp hc
      have := h.2 x (by simp [hx])
      unfold NameChar NameStart
      rw [chr_toNat (hlt x (by simp [hx]))]
      rcases this with h | h | h
      · exact .inr (.inl h)
      · exact .inl (.inl h)
      · exact .inl (.inr (.inl h))

/-- What the writer writes for a character. -/
def esc (c : Char) : List Char :=
  if c = '&' then "&amp;".toList else if c = '<' then "&lt;".toList else if c = '>' then "&gt;".toList
  else if c = '"' then "&quot;".toList else [c]

theorem esc_utf8 (c : Char) : utf8File (esc c) = escChar c := by
  unfold esc escChar
  by_cases h1 : c = '&'
  · subst h1; decide +kernel
  by_cases h2 : c = '<'
  · subst h2; decide +kernel
  by_cases h3 : c = '>'
  · subst h3; decide +kernel
  by_cases h4 : c = '"'
  · subst h4; decide +kernel
  have n1 : c.toNat ≠ 38 := toNat_ne (d := '&') h1
  have n2 : c.toNat ≠ 60 := toNat_ne (d := '<') h2
  have n3 : c.toNat ≠ 62 := toNat_ne (d := '>') h3
  have n4 : c.toNat ≠ 34 := toNat_ne (d := '"') h4
  rw [if_neg h1, if_neg h2, if_neg h3, if_neg h4, if_neg n1, if_neg n2, if_neg n3, if_neg n4, utf8_one]

theorem esc_text (cs : List Char) : writeString (utf8File cs) = utf8File (cs.flatMap esc) := by
  induction cs with
  | nil => rfl
  | cons c cs ih => rw [utf8_cons, writeString_char, ih, List.flatMap_cons, utf8_append, esc_utf8]

theorem esc_att {cs : List Char} (h : ∀ c ∈ cs.flatMap esc, XmlChar c) : AttText '"' (cs.flatMap esc) cs := by
  induction cs with
  | nil => exact .nil
  | cons c cs ih =>
    rw [List.flatMap_cons] at h ⊢
    have ih := ih fun x hx => h x (by simp [hx])
    by_cases h1 : c = '&'
    · subst h1; exact .ref .amp ih
    by_cases h2 : c = '<'
    · subst h2; exact .ref .lt ih
    by_cases h3 : c = '>'
    · subst h3; exact .ref .gt ih
    by_cases h4 : c = '"'
    · subst h4; exact .ref .quot ih
    have he : esc c = [c] := by unfold esc; rw [if_neg h1, if_neg h2, if_neg h3, if_neg h4]
    rw [he] at h ⊢
    exact .char (h c (by simp)) h4 h2 h1 ih

/-! ### Content without `>` outside markup -/

/-- Character data without `>`. -/
def Data (s : List Char) : Prop := ∀ c ∈ s, XmlChar c ∧ c ≠ '<' ∧ c ≠ '&' ∧ c ≠ '>'

theorem Data.char {s : List Char} (h : Data s) : CharData s := by
  refine ⟨fun c hc => ⟨(h c hc).1, (h c hc).2.1, (h c hc).2.2.1⟩, ?_⟩
  rintro ⟨a, b, rfl⟩
  exact (h '>' (by simp)).2.2.2 rfl

theorem spaces_Data {w : List Char} (h : Spaces w) : Data w := by
  intro c hc
  rcases h c hc with rfl | rfl | rfl | rfl <;> decide

/-- `Content` with such data. -/
inductive Body : List Char → List Item → Prop
  | data {d} : Data d → Body d [.txt (utf8File d)]
  | ref {d r c s is} : Data d → Reference r c → Body s is → Body (d ++ r ++ s) (.txt (utf8File d) :: .txt (utf8File [c]) :: is)
  | cdata {d t x s is} : Data d → CData t x → Body s is → Body (d ++ t ++ s) (.txt (utf8File d) :: .el (Node.newCDATA (utf8File x)) :: is)
  | empty {d t n as s is} : Data d → EmptyTag t n as → Body s is → Body (d ++ t ++ s) (.txt (utf8File d) :: .el (tagNode n as []) :: is)
  | elem {d t n as b bs e s is} : Data d → StartTag t n as → Body b bs → EndTag e n → Body s is →
      Body (d ++ t ++ b ++ e ++ s) (.txt (utf8File d) :: .el (tagNode n as (joinText [] bs)) :: is)

theorem Body.content {t : List Char} {l : List Item} (h : Body t l) : Content t l := by
  induction h with
  | data h => exact .data h.char
  | ref h1 h2 _ ih => exact .ref h1.char h2 ih
  | cdata h1 h2 _ ih => exact .cdata h1.char h2 ih
  | empty h1 h2 _ ih => exact .empty h1.char h2 ih
  | elem h1 h2 _ h4 _ ih1 ih2 => exact .elem h1.char h2 ih1 h4 ih2

/-- Two lists of items give the same content. -/
def Same (a b : List Item) : Prop := ∀ p, a.foldl itemStep p = b.foldl itemStep p

theorem Same.join {a b : List Item} (h : Same a b) : joinText [] a = joinText [] b := by
  have h1 := foldl_joinText a ([], [])
  have h2 := foldl_joinText b ([], [])
  rw [h ([], [])] at h1
  simp only [List.reverse_nil, List.nil_append] at h1 h2
  rw [← h1, h2]

theorem Same.append {a b c d : List Item} (h1 : Same a b) (h2 : Same c d) : Same (a ++ c) (b ++ d) := by
  intro p; rw [List.foldl_append, List.foldl_append, h1, h2]

theorem Same.trans {a b c : List Item} (h1 : Same a b) (h2 : Same b c) : Same a c := fun p => (h1 p).trans (h2 p)

theorem Same.cons (i : Item) {a b : List Item} (h : Same a b) : Same (i :: a) (i :: b) := fun p => h _

theorem same_txt (a b : List Char) (l : List Item) : Same (.txt (utf8File (a ++ b)) :: l) (.txt (utf8File a) :: .txt (utf8File b) :: l) := by
  intro p
  simp [itemStep, utf8_append]

/-- A text with content like this list of items. -/
def Like (t : List Char) (l : List Item) : Prop := ∃ l', Body t l' ∧ Same l' l

theorem like_data {d : List Char} (h : Data d) : Like d [.txt (utf8File d)] := ⟨_, .data h, fun _ => rfl⟩

theorem body_data {d : List Char} (hd : Data d) {t : List Char} {l : List Item} (h : Body t l) : Like (d ++ t) (.txt (utf8File d) :: l) := by
  have app : ∀ {a b}, Data a → Data b → Data (a ++ b) := by
    intro a b ha hb c hc
    rcases List.mem_append.mp hc with hc | hc
    · exact ha c hc
    · exact hb c hc
  cases h with
  | data h => exact ⟨_, .data (app hd h), same_txt _ _ _⟩
  | ref h1 h2 h3 =>
    have := Body.ref (app hd h1) h2 h3
    simp only [List.append_assoc] at this ⊢
    exact ⟨_, this, same_txt _ _ _⟩
  | cdata h1 h2 h3 =>
    have := Body.cdata (app hd h1) h2 h3
    simp only [List.append_assoc] at this ⊢
    exact ⟨_, this, same_txt _ _ _⟩
  | empty h1 h2 h3 =>
    have := Body.empty (app hd h1) h2 h3
    simp only [List.append_assoc] at this ⊢
    exact ⟨_, this, same_txt _ _ _⟩
  | elem h1 h2 h3 h4 h5 =>
    have := Body.elem (app hd h1) h2 h3 h4 h5
    simp only [List.append_assoc] at this ⊢
    exact ⟨_, this, same_txt _ _ _⟩

theorem body_append {t1 t2 : List Char} {l1 l2 : List Item} (h1 : Body t1 l1) (h2 : Body t2 l2) : Like (t1 ++ t2) (l1 ++ l2) := by
  induction h1 with
  | data h => exact body_data h h2
  | ref a b _ ih =>
    obtain ⟨l', hb, hs⟩ := ih
    have := Body.ref a b hb
    exact ⟨_, by simpa using this, (hs.cons _).cons _⟩
  | cdata a b _ ih =>
    obtain ⟨l', hb, hs⟩ := ih
    have := Body.cdata a b hb
    exact ⟨_, by simpa using this, (hs.cons _).cons _⟩
  | empty a b _ ih =>
    obtain ⟨l', hb, hs⟩ := ih
    have := Body.empty a b hb
    exact ⟨_, by simpa using this, (hs.cons _).cons _⟩
  | elem a b c d _ _ ih =>
    obtain ⟨l', hb, hs⟩ := ih
    have := Body.elem a b c d hb
    exact ⟨_, by simpa using this, (hs.cons _).cons _⟩

theorem Like.append {t1 t2 : List Char} {l1 l2 : List Item} (h1 : Like t1 l1) (h2 : Like t2 l2) : Like (t1 ++ t2) (l1 ++ l2) := by
  obtain ⟨a, ha, sa⟩ := h1
  obtain ⟨b, hb, sb⟩ := h2
  obtain ⟨c, hc, sc⟩ := body_append ha hb
  exact ⟨c, hc, sc.trans (sa.append sb)⟩

theorem data_nil : Data [] := fun _ h => nomatch h

/-- Empty texts around something do not matter. -/
theorem same_around (l : List Item) : Same (.txt [] :: (l ++ [.txt []])) l := by
  intro p; simp [itemStep, List.foldl_append]

theorem like_ref {r : List Char} {c : Char} (h : Reference r c) : Like r [.txt (utf8File [c])] := by
  have := Body.ref data_nil h (.data data_nil)
  exact ⟨_, by simpa using this, fun p => by simp [itemStep, utf8_nil]⟩

theorem like_cdata {t d : List Char} (h : CData t d) : Like t [.el (Node.newCDATA (utf8File d))] := by
  have := Body.cdata data_nil h (.data data_nil)
  exact ⟨_, by simpa using this, fun p => by simp [itemStep, utf8_nil]⟩

theorem like_empty {t n : List Char} {as} (h : EmptyTag t n as) : Like t [.el (tagNode n as [])] := by
  have := Body.empty data_nil h (.data data_nil)
  exact ⟨_, by simpa using this, fun p => by simp [itemStep, utf8_nil]⟩

theorem like_elem {t n b e : List Char} {as} {bs : List Item} (h1 : StartTag t n as) (h2 : Like b bs) (h3 : EndTag e n) :
    Like (t ++ b ++ e) [.el (tagNode n as (joinText [] bs))] := by
  obtain ⟨bs', hb, hs⟩ := h2
  have := Body.elem data_nil h1 hb h3 (.data data_nil)
  refine ⟨_, by simpa using this, fun p => ?_⟩
  rw [hs.join]
  simp [itemStep, utf8_nil]

theorem like_esc {cs : List Char} (h : ∀ c ∈ cs.flatMap esc, XmlChar c) : Like (cs.flatMap esc) [.txt (utf8File cs)] := by
  induction cs with
  | nil => exact like_data data_nil
  | cons c cs ih =>
    rw [List.flatMap_cons] at h ⊢
    have ih := ih fun x hx => h x (by simp [hx])
    have hone : Like (esc c) [.txt (utf8File [c])] := by
      by_cases h1 : c = '&'
      · subst h1; exact like_ref .amp
      by_cases h2 : c = '<'
      · subst h2; exact like_ref .lt
      by_cases h3 : c = '>'
      · subst h3; exact like_ref .gt
      by_cases h4 : c = '"'
      · subst h4; exact like_ref .quot
      have he : esc c = [c] := by unfold esc; rw [if_neg h1, if_neg h2, if_neg h3, if_neg h4]
      rw [he] at h ⊢
      refine like_data fun x hx => ?_
      simp at hx
      subst hx
      exact ⟨h x (by simp), h2, h1, h3⟩
    obtain ⟨l, hb, hs⟩ := hone.append ih
    refine ⟨l, hb, hs.trans fun p => ?_⟩
    simp [itemStep, utf8_cons, utf8_nil]

/-! ### Tags -/

theorem text_of {s : Bytes} (h : CleanText s) : ∃ cs, s = utf8File cs := by
  obtain ⟨cs, _, e⟩ := h; exact ⟨cs, e⟩

theorem out_attrs : ∀ {as : List (Bytes × Option Bytes)}, (∀ a ∈ as, PlainName a.1 ∧ ∃ v, a.2 = some v ∧ CleanText v) →
    ∃ t bs, as.flatMap writeAttr = utf8File t ∧ as = attrs bs ∧ ((∀ c ∈ t, XmlChar c) → Attributes t bs)
  | [], _ => ⟨[], [], rfl, rfl, fun _ => .nil⟩
  | (n, v) :: as, h => by
    obtain ⟨t, bs, e1, e2, h3⟩ := out_attrs (as := as) fun a ha => h a (by simp [ha])
    obtain ⟨hn, v, rfl, hv⟩ := h (n, v) (by simp)
    dsimp only at hn
    obtain ⟨m, rfl, hm⟩ := plain_name hn
    obtain ⟨cs, rfl⟩ := text_of hv
    refine ⟨[' '] ++ m ++ [] ++ ['='] ++ [] ++ ['"'] ++ cs.flatMap esc ++ ['"'] ++ t, (m, cs) :: bs, ?_, by simp [attrs, e2], ?_⟩
    · rw [List.flatMap_cons, e1]
      simp only [utf8_append, ← esc_text]
      unfold writeAttr
      rw [writeName_plain hn.2]
      have h1 : utf8File [' '] = [32] := by decide +kernel
      have h2 : utf8File ['='] = [61] := by decide +kernel
      have h3 : utf8File ['"'] = [34] := by decide +kernel
      rw [h1, h2, h3]
      simp [utf8_nil]
    · intro hx
      refine .cons (by simp) (by intro c hc; simp at hc; exact .inl hc) hm (fun _ h => nomatch h) (fun _ h => nomatch h) (.inl rfl)
        (esc_att fun c hc => hx c (by simp only [List.mem_append]; simp [hc])) (h3 fun c hc => hx c (by simp [hc]))

theorem attrs_names {bs : List (List Char × List Char)} (h : ((attrs bs).map Prod.fst).Nodup) : (bs.map Prod.fst).Nodup := by
  induction bs with
  | nil => simp
  | cons b bs ih =>
    simp only [attrs, List.map_cons, List.nodup_cons] at h ⊢
    refine ⟨fun hm => h.1 ?_, ih h.2⟩
    obtain ⟨x, hx, e⟩ := List.mem_map.mp hm
    rw [List.map_map]
    exact List.mem_map.mpr ⟨x, hx, by simp [e]⟩

/-- The inside of a tag. -/
theorem out_tag {n : Bytes} {as : List (Bytes × Option Bytes)} (hn : PlainName n) (has : CleanAttrs as) :
    ∃ m t bs, n = utf8File m ∧ Name m ∧ as.flatMap writeAttr = utf8File t ∧ as = attrs bs ∧
      ((∀ c ∈ t, XmlChar c) → ∀ w, Spaces w → TagBody (m ++ t ++ w) m bs) := by
  obtain ⟨m, rfl, hm⟩ := plain_name hn
  obtain ⟨t, bs, e1, rfl, h3⟩ := out_attrs has.2
  exact ⟨m, t, bs, rfl, hm, e1, rfl, fun hx w hw => .mk hm (h3 hx) (attrs_names has.1) hw⟩

theorem utf8_lit : utf8File ['<'] = [60] ∧ utf8File ['>'] = [62] ∧ utf8File [' ', '/', '>'] = [32, 47, 62] ∧ utf8File ['<', '/'] = [60, 47] := by
  decide +kernel

theorem tagNode_attrs (m : List Char) (bs : List (List Char × List Char)) (cs : List Node) : tagNode m bs cs = .elem (utf8File m) (attrs bs) cs := rfl

/-- What is written for an element without white space around it. -/
def elemText (cb : SaveCb) (anc : List Bytes) (n : Bytes) (as : List (Bytes × Option Bytes)) : List Node → Bytes
  | [] => [60] ++ n ++ as.flatMap writeAttr ++ [32, 47, 62]
  | c :: cs => [60] ++ n ++ as.flatMap writeAttr ++ [62] ++ cb anc (.elem n as (c :: cs)) .afterOpen ++ writeNodes cb (n :: anc) (c :: cs) ++
      cb anc (.elem n as (c :: cs)) .beforeClose ++ [60, 47] ++ n ++ [62]

theorem writeNode_elem (cb : SaveCb) (anc : List Bytes) {n : Bytes} {as : List (Bytes × Option Bytes)} (hn : PlainName n) (cs : List Node) :
    ∃ w, (w = .afterOpen ∨ w = .afterClose) ∧ writeNode cb anc (.elem n as cs) =
      cb anc (.elem n as cs) .beforeOpen ++ elemText cb anc n as cs ++ cb anc (.elem n as cs) w ∧
      xmlItems cb anc (.elem n as cs) = [.txt (cb anc (.elem n as cs) .beforeOpen), .el (withWhite cb anc (.elem n as cs)),
        .txt (cb anc (.elem n as cs) w)] := by
  cases cs with
  | nil =>
    refine ⟨.afterOpen, .inl rfl, ?_, by rw [xmlItems, withWhite]⟩
    rw [writeNode, isDirective_plain hn, writeOpen_plain hn]
    simp [elemText]
  | cons c cs =>
    refine ⟨.afterClose, .inr rfl, ?_, by rw [xmlItems, withWhite]⟩
    rw [writeNode, isDirective_plain hn, writeOpen_plain hn, writeString_plain hn.2]
    simp [elemText]

/-- The writing of an element, given that of its children. -/
theorem out_elem {cb : SaveCb} (hcb : WhiteCb cb) {n : Bytes} {as : List (Bytes × Option Bytes)} (hn : PlainName n) (has : CleanAttrs as)
    {cs : List Node} (hcs : ∀ anc, ∃ s, writeNodes cb anc cs = utf8File s ∧ ((∀ c ∈ s, XmlChar c) → Like s (xmlItemsList cb anc cs)))
    (anc : List Bytes) :
    ∃ s, elemText cb anc n as cs = utf8File s ∧ ((∀ c ∈ s, XmlChar c) → Element s (withWhite cb anc (.elem n as cs)) ∧
      Like s [.el (withWhite cb anc (.elem n as cs))]) := by
  obtain ⟨m, t, bs, rfl, hm, e1, rfl, hb⟩ := out_tag hn has
  obtain ⟨l1, l2, l3, l4⟩ := utf8_lit
  cases cs with
  | nil =>
    refine ⟨['<'] ++ (m ++ t ++ [' ']) ++ ['/', '>'], ?_, fun hx => ?_⟩
    · unfold elemText
      rw [e1, ← l1, ← l3]
      simp [← utf8_append]
    · have ht : EmptyTag (['<'] ++ (m ++ t ++ [' ']) ++ ['/', '>']) m bs :=
        ⟨_, hb (fun c hc => hx c (by simp only [List.mem_append]; simp [hc])) [' '] (by intro c hc; simp at hc; exact .inl hc), rfl⟩
      rw [withWhite, ← tagNode_attrs]
      exact ⟨.empty ht, like_empty ht⟩
  | cons c cs =>
    obtain ⟨s, e2, hs⟩ := hcs (utf8File m :: anc)
    obtain ⟨w1, e3, hw1⟩ := white_text (hcb anc (.elem (utf8File m) (attrs bs) (c :: cs)) .afterOpen)
    obtain ⟨w2, e4, hw2⟩ := white_text (hcb anc (.elem (utf8File m) (attrs bs) (c :: cs)) .beforeClose)
    refine ⟨(['<'] ++ (m ++ t ++ []) ++ ['>']) ++ (w1 ++ s ++ w2) ++ (['<', '/'] ++ m ++ [] ++ ['>']), ?_, fun hx => ?_⟩
    · unfold elemText
      dsimp only
      rw [e1, e2, e3, e4, ← l1, ← l2, ← l4]
      simp [← utf8_append]
    · have hx' : (∀ c ∈ t, XmlChar c) ∧ (∀ c ∈ s, XmlChar c) := by
        constructor <;> intro c hc <;> exact hx c (by simp only [List.mem_append]; simp [hc])
      have ht : StartTag (['<'] ++ (m ++ t ++ []) ++ ['>']) m bs := ⟨_, hb hx'.1 [] (fun _ h => nomatch h), rfl⟩
      have he : EndTag (['<', '/'] ++ m ++ [] ++ ['>']) m := ⟨[], (fun _ h => nomatch h), rfl⟩
      have hin := ((like_data (spaces_Data hw1)).append (hs hx'.2)).append (like_data (spaces_Data hw2))
      rw [← e3, ← e4] at hin
      have hv : withWhite cb anc (.elem (utf8File m) (attrs bs) (c :: cs)) = tagNode m bs (joinText []
          ([.txt (cb anc (.elem (utf8File m) (attrs bs) (c :: cs)) .afterOpen)] ++ xmlItemsList cb (utf8File m :: anc) (c :: cs) ++
            [.txt (cb anc (.elem (utf8File m) (attrs bs) (c :: cs)) .beforeClose)])) := by
        rw [withWhite, tagNode_attrs]; rfl
      rw [hv]
      obtain ⟨bs', hb', hs'⟩ := hin
      refine ⟨?_, like_elem ht ⟨bs', hb', hs'⟩ he⟩
      rw [← hs'.join]
      exact .full ht hb'.content he

theorem out_list {cb : SaveCb} : ∀ {cs : List Node}, (∀ c ∈ cs, ∀ anc, ∃ s, writeNode cb anc c = utf8File s ∧
    ((∀ c ∈ s, XmlChar c) → Like s (xmlItems cb anc c))) → ∀ anc, ∃ s, writeNodes cb anc cs = utf8File s ∧
    ((∀ c ∈ s, XmlChar c) → Like s (xmlItemsList cb anc cs))
  | [], _, anc => ⟨[], by rw [writeNodes]; rfl, fun _ => ⟨_, .data data_nil, fun p => by rw [xmlItemsList]; simp [itemStep, utf8_nil]⟩⟩
  | c :: cs, h, anc => by
    obtain ⟨s1, e1, h1⟩ := h c (by simp) anc
    obtain ⟨s2, e2, h2⟩ := out_list (cs := cs) (fun x hx => h x (by simp [hx])) anc
    refine ⟨s1 ++ s2, by rw [writeNodes, e1, e2, utf8_append], fun hx => ?_⟩
    rw [xmlItemsList]
    exact (h1 fun c hc => hx c (by simp [hc])).append (h2 fun c hc => hx c (by simp [hc]))

/-- Everything the writer writes inside an element is content of the grammar. -/
theorem out_node {cb : SaveCb} (hcb : WhiteCb cb) {t : Node} (ht : CleanTree t) :
    ∀ anc, ∃ s, writeNode cb anc t = utf8File s ∧ ((∀ c ∈ s, XmlChar c) → Like s (xmlItems cb anc t)) := by
  induction ht with
  | @text s hs =>
    intro anc
    obtain ⟨cs, rfl⟩ := text_of hs
    refine ⟨cs.flatMap esc, by rw [writeNode, esc_text], fun hx => ?_⟩
    rw [xmlItems]
    exact like_esc hx
  | @cdata d hd =>
    intro anc
    obtain ⟨⟨x, _, hxd⟩, hno⟩ := hd
    have hxd : d = utf8File x := hxd
    subst hxd
    have hdir : isDirective (Node.cdataOpen ++ utf8File x ++ Node.cdataClose) = true := by simp [isDirective, Node.cdataOpen]
    have hopen : writeOpenName (Node.cdataOpen ++ utf8File x ++ Node.cdataClose) = Node.cdataOpen ++ utf8File x ++ Node.cdataClose := by
      unfold writeOpenName
      rw [if_pos]
      right; right
      simp [Node.cdataOpen]
    obtain ⟨w1, e1, hw1⟩ := white_text (hcb anc (Node.newCDATA (utf8File x)) .beforeOpen)
    obtain ⟨w2, e2, hw2⟩ := white_text (hcb anc (Node.newCDATA (utf8File x)) .afterOpen)
    unfold Node.newCDATA at e1 e2 ⊢
    refine ⟨w1 ++ ("<![CDATA[".toList ++ x ++ "]]>".toList) ++ w2, ?_, fun hx => ?_⟩
    · rw [writeNode, hdir, hopen, e1, e2]
      simp only [utf8_append]
      have l1 : utf8File "<![CDATA[".toList = 60 :: Node.cdataOpen := by decide +kernel
      have l2 : utf8File "]]>".toList = Node.cdataClose ++ [62] := by decide +kernel
      rw [l1, l2]
      simp
    · rw [xmlItems, e1, e2]
      have hc : CData ("<![CDATA[".toList ++ x ++ "]]>".toList) x := by
        refine ⟨fun c hc => hx c (by simp only [List.mem_append]; simp [hc]), ?_, rfl⟩
        rintro ⟨a, b, rfl⟩
        apply hno
        refine ⟨utf8File a, utf8File b, ?_⟩
        rw [utf8_append, utf8_append]
        rfl
      exact ((like_data (spaces_Data hw1)).append (like_cdata hc)).append (like_data (spaces_Data hw2))
  | @elem n as cs hn has hcs ih =>
    intro anc
    obtain ⟨w, hw, e, ei⟩ := writeNode_elem cb anc (as := as) hn cs
    obtain ⟨s, es, hs⟩ := out_elem hcb hn has (out_list ih) anc
    obtain ⟨w1, e1, hw1⟩ := white_text (hcb anc (.elem n as cs) .beforeOpen)
    obtain ⟨w2, e2, hw2⟩ := white_text (hcb anc (.elem n as cs) w)
    refine ⟨w1 ++ s ++ w2, by rw [e, es, e1, e2, utf8_append, utf8_append], fun hx => ?_⟩
    rw [ei, e1, e2]
    exact ((like_data (spaces_Data hw1)).append (hs fun c hc => hx c (by simp [hc])).2).append (like_data (spaces_Data hw2))

theorem spaces_append {a b : List Char} (ha : Spaces a) (hb : Spaces b) : Spaces (a ++ b) := by
  intro c hc
  rcases List.mem_append.mp hc with hc | hc
  · exact ha c hc
  · exact hb c hc

/-- An element written on its own is a document. -/
theorem out_bare {cb : SaveCb} (hcb : WhiteCb cb) (anc : List Bytes) {n : Bytes} {as : List (Bytes × Option Bytes)} {cs : List Node}
    (hn : PlainName n) (has : CleanAttrs as) (hcs : ∀ c ∈ cs, CleanTree c) :
    ∃ s, saveText cb anc (.elem n as cs) = utf8File s ∧ ((∀ c ∈ s, XmlChar c) → Document s (withWhite cb anc (.elem n as cs))) := by
  obtain ⟨z, hz, ez⟩ := saveText_newline cb anc (.elem n as cs)
  obtain ⟨w, hw, e, ei⟩ := writeNode_elem cb anc (as := as) hn cs
  obtain ⟨s, es, hs⟩ := out_elem hcb hn has (out_list fun c hc => out_node hcb (hcs c hc)) anc
  obtain ⟨w1, e1, hw1⟩ := white_text (hcb anc (.elem n as cs) .beforeOpen)
  obtain ⟨w2, e2, hw2⟩ := white_text (hcb anc (.elem n as cs) w)
  obtain ⟨w3, e3, hw3⟩ := white_text (newline_white hz)
  refine ⟨w1 ++ s ++ (w2 ++ w3), by rw [ez, e, es, e1, e2, e3]; simp [utf8_append], fun hx => ?_⟩
  exact .bare hw1 (hs fun c hc => hx c (by simp [hc])).1 (spaces_append hw2 hw3)

/-- The declaration every document starts with. -/
def declText : List Char := "xml version=\"1.0\" encoding=\"utf-8\"".toList

theorem declText_ok : XmlDecl declText ∧ utf8File ("?".toList ++ declText ++ "?".toList) = xmlDecl ∧
    utf8File ("<?".toList ++ declText ++ "?>".toList) = [60] ++ xmlDecl ++ [62] := by
  refine ⟨⟨" version=\"1.0\"".toList, " encoding=\"utf-8\"".toList, [], [],
    ⟨[' '], [], [], '"', by simp, by decide, by decide, by decide, .inl rfl, by decide⟩,
    .inr ⟨_, .inl rfl, [' '], [], [], '"', by simp, by decide, by decide, by decide, .inl rfl, by decide⟩, .inl rfl, by decide, by decide⟩, ?_, ?_⟩ <;>
    decide +kernel

/-- An element written as a document is a document. -/
theorem out_doc {cb : SaveCb} (hcb : WhiteCb cb) {n : Bytes} {as : List (Bytes × Option Bytes)} {cs : List Node}
    (hn : PlainName n) (has : CleanAttrs as) (hcs : ∀ c ∈ cs, CleanTree c)
    (hb : cb [] (Node.newXML.addChild (.elem n as cs)) .beforeOpen = []) :
    ∃ s v, saveText cb [] (Node.newXML.addChild (.elem n as cs)) = utf8File s ∧ ((∀ c ∈ s, XmlChar c) → Document s v) := by
  have hdoc : Node.newXML.addChild (.elem n as cs) = .elem xmlDecl [] [.elem n as cs] := rfl
  rw [hdoc] at hb ⊢
  obtain ⟨z, hz, ez⟩ := saveText_newline cb [] (.elem xmlDecl [] [.elem n as cs])
  obtain ⟨w, hw, e, ei⟩ := writeNode_elem cb [xmlDecl] (as := as) hn cs
  obtain ⟨s, es, hs⟩ := out_elem hcb hn has (out_list fun c hc => out_node hcb (hcs c hc)) [xmlDecl]
  obtain ⟨w0, e0, hw0⟩ := white_text (hcb [] (.elem xmlDecl [] [.elem n as cs]) .afterOpen)
  obtain ⟨w1, e1, hw1⟩ := white_text (hcb [xmlDecl] (.elem n as cs) .beforeOpen)
  obtain ⟨w2, e2, hw2⟩ := white_text (hcb [xmlDecl] (.elem n as cs) w)
  obtain ⟨w3, e3, hw3⟩ := white_text (newline_white hz)
  obtain ⟨d1, d2, d3⟩ := declText_ok
  refine ⟨"<?".toList ++ declText ++ "?>".toList ++ [] ++ (w0 ++ w1) ++ s ++ [] ++ (w2 ++ w3), _, ?_, fun hx =>
    .declared d1 .nil (spaces_append hw0 hw1) (hs fun c hc => hx c (by simp only [List.mem_append]; simp [hc])).1 .nil (spaces_append hw2 hw3)⟩
  have hwr : writeNode cb [] (.elem xmlDecl [] [.elem n as cs]) = [60] ++ xmlDecl ++ [62] ++
      (cb [] (.elem xmlDecl [] [.elem n as cs]) .afterOpen ++ writeNode cb [xmlDecl] (.elem n as cs)) := by
    rw [writeNode, writeNodes, writeNodes, hb]
    have h1 : writeOpenName xmlDecl = xmlDecl := by decide
    have h2 : isDirective xmlDecl = true := by decide
    simp [h1, h2]
  rw [ez, hwr, e, es, e0, e1, e2, e3, ← d3]
  generalize "<?".toList ++ declText ++ "?>".toList = u
  simp [utf8_append]

end Afs.Xml
