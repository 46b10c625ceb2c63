import Verif.Spec.Wrap
import Verif.Proof.Save
/-!
# Wrapped lines
-/
namespace Afs.Xml
open Afs Spec

/-! ### No margin -/

theorem breaks_no {x : Int × Int} (h : x.1 ≤ 0) (c : Nat) : breaksLine x c = false := by
  unfold breaksLine
  have : ¬ x.1 > 0 := by omega
  simp [this]

theorem wrapAttrs_no {m : Margins} (h : ∀ k, (m k).1 ≤ 0) : ∀ (as : List (Bytes × Option Bytes)) (s : Nat × Nat),
    (wrapAttrs m as s).1 = as.flatMap writeAttr ∧ (wrapAttrs m as s).2.1 = colAttrs s.1 as
  | [], s => ⟨rfl, rfl⟩
  | (n, v) :: as, s => by
    have ih := wrapAttrs_no h as ((if breaksLine (m s.2) (s.1 + widthOf (n, v)) then 0 else s.1 + 1) + widthOf (n, v), s.2 + 1)
    rw [wrapAttrs, List.flatMap_cons, colAttrs.eq_def]
    dsimp only
    rw [ih.1, ih.2, breaks_no (h _)]
    refine ⟨?_, ?_⟩
    · unfold writeAttr; cases v <;> simp
    · unfold widthOf; cases v <;> simp [Nat.add_assoc]

mutual
theorem wrapNode_no {m : Margins} (h : ∀ k, (m k).1 ≤ 0) (cb : SaveCb) (anc : List Bytes) : ∀ (t : Node) (s : Nat × Nat),
    (wrapNode m cb anc t s).1 = writeNode cb anc t ∧ (wrapNode m cb anc t s).2.1 = colNode cb anc s.1 t
  | .text x, s => by rw [wrapNode, writeNode, colNode]; exact ⟨rfl, rfl⟩
  | .elem n as [], s => by
    rw [wrapNode, writeNode, colNode]
    dsimp only
    rw [(wrapAttrs_no h as _).1, (wrapAttrs_no h as _).2]
    exact ⟨rfl, rfl⟩
  | .elem n as (c :: cs), s => by
    rw [wrapNode, writeNode, colNode]
    dsimp only
    rw [(wrapAttrs_no h as _).1, (wrapNodes_no h cb (n :: anc) (c :: cs) _).1, (wrapNodes_no h cb (n :: anc) (c :: cs) _).2]
    dsimp only
    rw [(wrapAttrs_no h as _).2]
    exact ⟨rfl, rfl⟩
theorem wrapNodes_no {m : Margins} (h : ∀ k, (m k).1 ≤ 0) (cb : SaveCb) (anc : List Bytes) : ∀ (l : List Node) (s : Nat × Nat),
    (wrapNodes m cb anc l s).1 = writeNodes cb anc l ∧ (wrapNodes m cb anc l s).2.1 = colNodes cb anc s.1 l
  | [], s => by rw [wrapNodes, writeNodes, colNodes]; exact ⟨rfl, rfl⟩
  | c :: cs, s => by
    rw [wrapNodes, writeNodes, colNodes]
    dsimp only
    rw [(wrapNode_no h cb anc c s).1, (wrapNodes_no h cb anc cs _).1, (wrapNodes_no h cb anc cs _).2, (wrapNode_no h cb anc c s).2]
    exact ⟨rfl, rfl⟩
end

theorem wrapText_no {m : Margins} (h : ∀ k, (m k).1 ≤ 0) (k : Nat) (cb : SaveCb) (anc : List Bytes) (n : Node) :
    (wrapText m k cb anc n).1 = saveText cb anc n := by
  unfold wrapText saveText
  dsimp only
  rw [(wrapNode_no h cb anc n _).1, (wrapNode_no h cb anc n _).2]

/-! ### Any margins: some blanks become line ends -/

theorem _root_.Afs.Spec.Broken.refl (a : Bytes) : Broken a a := by
  induction a with
  | nil => exact .nil
  | cons x a ih => exact .cons (.inl rfl) ih

theorem _root_.Afs.Spec.Broken.append {a b c d : Bytes} (h : Broken a b) (h' : Broken c d) : Broken (a ++ c) (b ++ d) :=
  List.rel_append h h'

theorem wrapAttrs_broken (m : Margins) : ∀ (as : List (Bytes × Option Bytes)) (s : Nat × Nat),
    Broken (wrapAttrs m as s).1 (as.flatMap writeAttr)
  | [], _ => .nil
  | a :: as, s => by
    rw [wrapAttrs, List.flatMap_cons]
    dsimp only
    refine Broken.append ?_ (wrapAttrs_broken m as _)
    unfold writeAttr
    rw [List.singleton_append, List.cons_append, List.cons_append]
    refine .cons ?_ (Broken.refl _)
    split
    · exact .inr ⟨rfl, rfl⟩
    · exact .inl rfl

/-- Both columns are zero or neither is. -/
abbrev SameZero (c d : Nat) : Prop := c = 0 ↔ d = 0

theorem colWs_zero (w : Bytes) : ∀ {c d : Nat}, SameZero c d → SameZero (colWs c w) (colWs d w) := by
  induction w with
  | nil => intro c d h; exact h
  | cons x w ih =>
    intro c d h
    rw [colWs, colWs]
    apply ih
    unfold SameZero at *
    split
    · simp
    · split <;> omega

mutual
theorem wrapNode_broken (m : Margins) (cb : SaveCb) (anc : List Bytes) : ∀ (t : Node) (s : Nat × Nat) (d : Nat), SameZero s.1 d →
    Broken (wrapNode m cb anc t s).1 (writeNode cb anc t) ∧ SameZero (wrapNode m cb anc t s).2.1 (colNode cb anc d t)
  | .text x, s, d, h => by
    rw [wrapNode, writeNode, colNode]
    refine ⟨Broken.refl _, ?_⟩
    unfold SameZero at *; dsimp only; omega
  | .elem n as [], s, d, h => by
    rw [wrapNode, writeNode, colNode]
    dsimp only
    refine ⟨?_, ?_⟩
    · exact ((((Broken.refl _).append (Broken.refl _)).append (wrapAttrs_broken m as _)).append (Broken.refl _)).append (Broken.refl _)
    · refine colWs_zero _ ?_
      unfold SameZero
      split <;> omega
  | .elem n as (c :: cs), s, d, h => by
    rw [wrapNode, writeNode, colNode]
    dsimp only
    have hb := wrapNodes_broken m cb (n :: anc) (c :: cs)
      (colWs ((wrapAttrs m as (colWs s.1 (cb anc (.elem n as (c :: cs)) .beforeOpen) + n.length + 1, s.2)).2.1 + 1)
        (cb anc (.elem n as (c :: cs)) .afterOpen),
       (wrapAttrs m as (colWs s.1 (cb anc (.elem n as (c :: cs)) .beforeOpen) + n.length + 1, s.2)).2.2)
      (colWs (colAttrs (colWs d (cb anc (.elem n as (c :: cs)) .beforeOpen) + n.length + 1) as + 1) (cb anc (.elem n as (c :: cs)) .afterOpen))
      (colWs_zero _ (by unfold SameZero; omega))
    refine ⟨?_, ?_⟩
    · exact (((((Broken.refl _).append (wrapAttrs_broken m as _)).append (Broken.refl _)).append (Broken.refl _)).append hb.1).append (Broken.refl _)
    · split
      · exact hb.2
      · exact colWs_zero _ (by unfold SameZero; omega)
theorem wrapNodes_broken (m : Margins) (cb : SaveCb) (anc : List Bytes) : ∀ (l : List Node) (s : Nat × Nat) (d : Nat), SameZero s.1 d →
    Broken (wrapNodes m cb anc l s).1 (writeNodes cb anc l) ∧ SameZero (wrapNodes m cb anc l s).2.1 (colNodes cb anc d l)
  | [], s, d, h => by rw [wrapNodes, writeNodes, colNodes]; exact ⟨.nil, h⟩
  | c :: cs, s, d, h => by
    rw [wrapNodes, writeNodes, colNodes]
    dsimp only
    obtain ⟨h1, h2⟩ := wrapNode_broken m cb anc c s d h
    obtain ⟨h3, h4⟩ := wrapNodes_broken m cb anc cs (wrapNode m cb anc c s).2 _ h2
    exact ⟨h1.append h3, h4⟩
end

/-- The text ends with the line end of the text without margin, or both have none. -/
theorem wrapText_tail (m : Margins) (k : Nat) (cb : SaveCb) (anc : List Bytes) (n : Node) :
    ∃ w : Bytes, (w = [] ∨ w = [10]) ∧ saveText cb anc n = writeNode cb anc n ++ w ∧
      (wrapText m k cb anc n).1 = (wrapNode m cb anc n (0, k)).1 ++ w := by
  have h := (wrapNode_broken m cb anc n (0, k) 0 Iff.rfl).2
  unfold SameZero at h
  unfold saveText wrapText
  dsimp only
  by_cases hc : colNode cb anc 0 n = 0
  · exact ⟨[], .inl rfl, by rw [if_neg (by omega)], by rw [if_neg (by omega)]⟩
  · exact ⟨[10], .inr rfl, by rw [if_pos (by omega)], by rw [if_pos (by omega)]⟩

theorem wrapText_broken (m : Margins) (k : Nat) (cb : SaveCb) (anc : List Bytes) (n : Node) :
    Broken (wrapText m k cb anc n).1 (saveText cb anc n) := by
  obtain ⟨w, _, e1, e2⟩ := wrapText_tail m k cb anc n
  rw [e1, e2]
  exact (wrapNode_broken m cb anc n (0, k) 0 Iff.rfl).1.append (Broken.refl w)

theorem wrapText_length (m : Margins) (k : Nat) (cb : SaveCb) (anc : List Bytes) (n : Node) :
    (wrapText m k cb anc n).1.length = (saveText cb anc n).length := (wrapText_broken m k cb anc n).length_eq

theorem wrapBuf_eq (t : Bytes) (size : Nat) (hs : 1 ≤ size) :
    wrapBuf t size = ((if t.length < size then t else t.take (size - 1)), t.length) := by
  unfold wrapBuf
  rw [putc_fold _ _ (by simp)]
  simp only [List.nil_append, List.length_nil, Nat.sub_zero, Nat.zero_add, List.length_take]
  by_cases hl : t.length < size
  · rw [if_neg (by omega), if_pos hl, List.take_of_length_le (by omega)]
  · rw [if_pos (by omega), if_neg hl, List.take_take, Nat.min_eq_left (by omega)]

/-- The string is one of the texts. -/
theorem wrapAlloc_eq (m : Margins) (cb : SaveCb) (anc : List Bytes) (n : Node) (h : saveText cb anc n ≠ []) :
    ∃ k, wrapAlloc m cb anc n = some (wrapText m k cb anc n).1 ∧ (k = 0 ∨ k = (wrapText m 0 cb anc n).2) := by
  have h0 : (saveText cb anc n).length ≠ 0 := by simpa using h
  unfold wrapAlloc
  dsimp only
  rw [wrapBuf_eq _ 8192 (by omega)]
  dsimp only
  rw [wrapBuf_eq _ ((wrapText m 0 cb anc n).1.length + 1) (by omega)]
  dsimp only
  simp only [wrapText_length]
  rw [if_neg h0]
  by_cases hl : (saveText cb anc n).length < 8191
  · exact ⟨0, by rw [if_pos hl, if_pos (by omega)], .inl rfl⟩
  · exact ⟨(wrapText m 0 cb anc n).2, by rw [if_neg hl]; simp, .inr rfl⟩

/-! ### Reading such a text -/

theorem step_head_break {s : PS} (hs : s.secondRoot = false) {n : Bytes} (hn : AlNum n)
    (as : List (Bytes × Option Bytes)) :
    step { s with pc := headPC n as } (some 10) = { s with pc := .attr (n, as) } := by
  unfold headPC
  obtain ⟨q1, q2, q3, q4, q5, q6⟩ := alnum_head hn
  split
  · rename_i h
    subst h
    have hs' : ({ s with pc := PC.name n } : PS).secondRoot = false := hs
    simp [step, isSpace, PS.afterName, q1, q2, q4, q5, q6, hs']
  · simp [step, isSpace]

/-- The attributes are read alike. -/
theorem feed_wrapAttrs {dec} (hd : GoodDec dec) {s : PS} (hs : s.secondRoot = false) {n : Bytes} (hn : AlNum n) (m : Margins)
    (as bs : List (Bytes × Option Bytes)) (hc : CleanAttrs (as ++ bs)) (st : Nat × Nat) (r : Bytes) :
    feed dec { s with pc := headPC n as } ((wrapAttrs m bs st).1 ++ r) =
      feed dec { s with pc := headPC n (as ++ bs) } r := by
  induction bs generalizing as st with
  | nil => simp [wrapAttrs]
  | cons b bs ih =>
    obtain ⟨an, v0⟩ := b
    obtain ⟨hp, v, hv, hcl⟩ := hc.2 (an, v0) (by simp)
    simp only at hp hv
    subst hv
    have hnew : an ∉ as.map Prod.fst := by
      intro hmem
      have := hc.1
      rw [List.map_append, List.nodup_append] at this
      exact this.2.2 an hmem an (by simp) rfl
    rw [wrapAttrs]
    dsimp only
    generalize ((if breaksLine (m st.2) (st.1 + widthOf (an, some v)) then 0 else st.1 + 1) + widthOf (an, some v), st.2 + 1) = st'
    have key : ∀ x, feed dec { s with pc := headPC n as } ((if breaksLine (m st.2) (st.1 + widthOf (an, some v)) then (10 : UInt8) else 32) :: x) =
        feed dec { s with pc := headPC n as } (32 :: x) := by
      intro x
      split
      · rw [feed_byte hd (by decide), feed_byte hd (by decide), show (10 : UInt8).toNat = 10 from rfl,
          show (32 : UInt8).toNat = 32 from rfl, step_head_space hs hn, step_head_break hs hn]
      · rfl
    have h1 := feed_attr hd hs hn as hp hcl hnew ((wrapAttrs m bs st').1 ++ r)
    unfold writeAttr at h1
    simp only [List.append_assoc, List.cons_append, List.nil_append] at h1 ⊢
    rw [key, h1, ih (as ++ [(an, some v)]) (by simpa using hc)]
    simp

/-- So a start tag is. -/
theorem feed_wrapTag {dec} (hd : GoodDec dec) {s : PS} (hs : s.secondRoot = false) {n : Bytes} (hn : PlainName n) (m : Margins)
    {as : List (Bytes × Option Bytes)} (hc : CleanAttrs as) (st : Nat × Nat) (r : Bytes) :
    feed dec { s with pc := .name [] } (writeOpenName n ++ ((wrapAttrs m as st).1 ++ r)) =
      feed dec { s with pc := .name [] } (writeOpenName n ++ (as.flatMap writeAttr ++ r)) := by
  rw [writeOpen_plain hn, feed_name hd s hn.2, feed_name hd s hn.2]
  have h1 := feed_wrapAttrs hd hs hn.2 m [] as (by simpa using hc) st r
  have h2 := feed_attrs hd hs hn.2 [] as (by simpa using hc) r
  rw [show headPC n [] = .name n from rfl] at h1 h2
  rw [h1, h2]

/-- Read the same, within an element, whatever follows. -/
def Alike (dec : Bytes → List (Option Nat)) (a b : Bytes) : Prop :=
  ∀ p n as fs root r, feed dec (content p n as fs root) (a ++ r) = feed dec (content p n as fs root) (b ++ r)

theorem alike_list {dec} (hd : GoodDec dec) {m : Margins} {cb : SaveCb} (hcb : WhiteCb cb) :
    ∀ (cs : List Node), (∀ c ∈ cs, CleanTree c) → (∀ c ∈ cs, ∀ anc st, Alike dec (wrapNode m cb anc c st).1 (writeNode cb anc c)) →
    ∀ anc st, Alike dec (wrapNodes m cb anc cs st).1 (writeNodes cb anc cs)
  | [], _, _, anc, st => by intro p n as fs root r; rw [wrapNodes, writeNodes]
  | c :: cs, hc, h, anc, st => by
    intro p n as fs root r
    rw [wrapNodes, writeNodes]
    dsimp only
    rw [List.append_assoc, List.append_assoc, h c (by simp) anc st, reads_node hd hcb (hc c (by simp)) anc,
      reads_node hd hcb (hc c (by simp)) anc,
      alike_list hd hcb cs (fun x hx => hc x (by simp [hx])) (fun x hx => h x (by simp [hx])) anc]

/-- The element from its start tag on, when its children are read alike. -/
theorem alike_from_tag {dec} (hd : GoodDec dec) {m : Margins} {cb : SaveCb} (hcb : WhiteCb cb) {s : PS} (hs : s.secondRoot = false)
    {n : Bytes} (hn : PlainName n) {as : List (Bytes × Option Bytes)} (has : CleanAttrs as) (st : Nat × Nat) {a b w : Bytes}
    (hw : ∀ c ∈ w, c = 32 ∨ c = 9 ∨ c = 10 ∨ c = 13) (hab : Alike dec a b) (fs : List Frame) (root : Option Node)
    (hp : ({ s.push (n, as) with pc := .main [] } : PS) = content ([], []) n as fs root) (r : Bytes) :
    feed dec { s with pc := .name [] } (writeOpenName n ++ ((wrapAttrs m as st).1 ++ (62 :: (w ++ (a ++ r))))) =
      feed dec { s with pc := .name [] } (writeOpenName n ++ (as.flatMap writeAttr ++ (62 :: (w ++ (b ++ r))))) := by
  rw [feed_wrapTag hd hs hn m has, feed_open hd hs hn has, feed_open hd hs hn has, hp,
    feed_content_white hd hw, feed_content_white hd hw, hab]

theorem alike_node {dec} (hd : GoodDec dec) (m : Margins) {cb : SaveCb} (hcb : WhiteCb cb) {t : Node} (ht : CleanTree t) :
    ∀ anc st, Alike dec (wrapNode m cb anc t st).1 (writeNode cb anc t) := by
  induction ht with
  | @text s hs => intro anc st p n as fs root r; rw [wrapNode, writeNode]
  | @cdata d hdta =>
    intro anc st p n as fs root r
    unfold Node.newCDATA
    rw [wrapNode, writeNode]
    rfl
  | @elem n as cs hn has hcs ih =>
    intro anc st p k bs fs root r
    cases cs with
    | nil =>
      rw [wrapNode, writeNode]
      simp only [List.append_assoc, List.cons_append, List.nil_append]
      rw [feed_content_white hd (hcb _ _ _), feed_content_white hd (hcb _ _ _), feed_byte hd (by decide), feed_byte hd (by decide), show (60 : UInt8).toNat = 60 from rfl, step_lt]
      exact feed_wrapTag hd (s := content ([], flushRev (itemStep p (.txt (cb anc (Node.elem n as []) Ws.beforeOpen))).1 p.2)
        k bs fs root) rfl hn m has _ _
    | cons c cs =>
      rw [wrapNode, writeNode]
      simp only [List.append_assoc, List.cons_append, List.nil_append]
      rw [feed_content_white hd (hcb _ _ _), feed_content_white hd (hcb _ _ _), feed_byte hd (by decide), feed_byte hd (by decide), show (60 : UInt8).toNat = 60 from rfl, step_lt]
      generalize itemStep p (.txt (cb anc (Node.elem n as (c :: cs)) Ws.beforeOpen)) = q
      exact alike_from_tag hd hcb (s := content ([], flushRev q.1 q.2) k bs fs root) rfl hn has _ (hcb _ _ _)
        (alike_list hd hcb (c :: cs) hcs ih (n :: anc) _) (⟨k, bs, flushRev q.1 q.2⟩ :: fs) root rfl _

/-- An element at the outside. -/
theorem feed_wrap_elem {dec} (hd : GoodDec dec) (m : Margins) {cb : SaveCb} (hcb : WhiteCb cb) (anc : List Bytes) (st : Nat × Nat)
    {n : Bytes} {as : List (Bytes × Option Bytes)} {cs : List Node} (hn : PlainName n) (has : CleanAttrs as)
    (hcs : ∀ c ∈ cs, CleanTree c) (r : Bytes) :
    feed dec PS.init ((wrapNode m cb anc (.elem n as cs) st).1 ++ r) = feed dec PS.init (writeNode cb anc (.elem n as cs) ++ r) := by
  have hlt : step PS.init (some 60) = { PS.init with pc := .name [] } := by
    simp [step, PS.init, PS.flush]
  have hw : ∀ x, feed dec PS.init (cb anc (.elem n as cs) .beforeOpen ++ (60 :: x)) = feed dec { PS.init with pc := .name [] } x := by
    intro x
    have h0 := feed_white_out hd (hcb anc (.elem n as cs) .beforeOpen) PS.init rfl (60 :: x)
    erw [h0]
    rw [feed_byte hd (by decide), show (60 : UInt8).toNat = 60 from rfl]
    erw [hlt]
  cases cs with
  | nil =>
    rw [wrapNode, writeNode]
    simp only [List.append_assoc, List.cons_append, List.nil_append]
    rw [hw, hw]
    exact feed_wrapTag hd (s := PS.init) rfl hn m has _ _
  | cons c cs =>
    rw [wrapNode, writeNode]
    simp only [List.append_assoc, List.cons_append, List.nil_append]
    rw [hw, hw]
    exact alike_from_tag hd hcb (s := PS.init) rfl hn has _ (hcb _ _ _)
      (alike_list hd hcb (c :: cs) hcs (fun x hx => alike_node hd m hcb (hcs x hx)) (n :: anc) _) [] none rfl _

/-- A document with declaration. -/
theorem feed_wrap_doc {dec} (hd : GoodDec dec) (m : Margins) {cb : SaveCb} (hcb : WhiteCb cb) (st : Nat × Nat)
    {n : Bytes} {as : List (Bytes × Option Bytes)} {cs : List Node} (hn : PlainName n) (has : CleanAttrs as)
    (hcs : ∀ c ∈ cs, CleanTree c) (r : Bytes) :
    feed dec PS.init ((wrapNode m cb [] (.elem xmlDecl [] [.elem n as cs]) st).1 ++ r) =
      feed dec PS.init (writeNode cb [] (.elem xmlDecl [] [.elem n as cs]) ++ r) := by
  have hlt : step PS.init (some 60) = { PS.init with pc := .name [] } := by
    simp [step, PS.init, PS.flush]
  have h1 : writeOpenName xmlDecl = xmlDecl := by decide
  have h2 : isDirective xmlDecl = true := by decide
  have hx : ∀ x, feed dec PS.init (cb [] (.elem xmlDecl [] [.elem n as cs]) .beforeOpen ++ (60 :: (xmlDecl ++ (62 :: x)))) =
      feed dec (content ([], []) xmlDecl [] [] none) x := by
    intro x
    have h0 := feed_white_out hd (hcb [] (.elem xmlDecl [] [.elem n as cs]) .beforeOpen) PS.init rfl (60 :: (xmlDecl ++ (62 :: x)))
    erw [h0]
    rw [feed_byte hd (by decide), show (60 : UInt8).toNat = 60 from rfl]
    erw [hlt]
    have h3 := ascii_lit hd (w := xmlDecl ++ [62]) (by decide) { PS.init with pc := .name [] } x
    rw [run_decl] at h3
    simpa using h3
  rw [wrapNode, writeNode]
  simp only [wrapAttrs, List.flatMap_nil, h1, h2, if_true, List.append_assoc, List.cons_append, List.nil_append]
  rw [hx, hx, feed_content_white hd (hcb _ _ _), feed_content_white hd (hcb _ _ _)]
  exact alike_list hd hcb [.elem n as cs] (by simpa using CleanTree.elem hn has hcs)
    (fun x hx => by
      have e : x = .elem n as cs := by simpa using hx
      rw [e]
      exact alike_node hd m hcb (CleanTree.elem hn has hcs)) [xmlDecl] _ _ _ _ _ _ _

theorem load_wrap_elem {dec} (hd : GoodDec dec) (m : Margins) (k : Nat) {cb : SaveCb} (hcb : WhiteCb cb) (anc : List Bytes)
    {n : Bytes} {as : List (Bytes × Option Bytes)} {cs : List Node} (hn : PlainName n) (has : CleanAttrs as)
    (hcs : ∀ c ∈ cs, CleanTree c) :
    loadData (dec (wrapText m k cb anc (.elem n as cs)).1) = loadData (dec (saveText cb anc (.elem n as cs))) := by
  obtain ⟨w, _, e1, e2⟩ := wrapText_tail m k cb anc (.elem n as cs)
  unfold loadData
  rw [e1, e2]
  exact congrArg (fun x => (run x [none, none, none]).result) (feed_wrap_elem hd m hcb anc (0, k) hn has hcs w)

theorem load_wrap_doc {dec} (hd : GoodDec dec) (m : Margins) (k : Nat) {cb : SaveCb} (hcb : WhiteCb cb)
    {n : Bytes} {as : List (Bytes × Option Bytes)} {cs : List Node} (hn : PlainName n) (has : CleanAttrs as)
    (hcs : ∀ c ∈ cs, CleanTree c) :
    loadData (dec (wrapText m k cb [] (Node.newXML.addChild (.elem n as cs))).1) =
      loadData (dec (saveText cb [] (Node.newXML.addChild (.elem n as cs)))) := by
  rw [show Node.newXML.addChild (.elem n as cs) = .elem xmlDecl [] [.elem n as cs] from rfl]
  obtain ⟨w, _, e1, e2⟩ := wrapText_tail m k cb [] (.elem xmlDecl [] [.elem n as cs])
  unfold loadData
  rw [e1, e2]
  exact congrArg (fun x => (run x [none, none, none]).result) (feed_wrap_doc hd m hcb (0, k) hn has hcs w)

/-! ### Threads -/

theorem readValues_zero : ∀ (l : List (Nat × Access)) (w : Int), (∀ t v, (t, .set v) ∈ l → v = 0) →
    w = 0 → ∀ x ∈ readValues w l, x.2 = 0
  | [], _, _, _ => by simp [readValues]
  | (t, .set v) :: l, w, h, hw => by
    rw [readValues]
    exact readValues_zero l v (fun t v hv => h t v (by simp [hv])) (h t v (by simp))
  | (t, .read) :: l, w, h, hw => by
    intro x hx
    rw [readValues, List.mem_cons] at hx
    rcases hx with rfl | hx
    · exact hw
    · exact readValues_zero l w (fun t v hv => h t v (by simp [hv])) hw x hx

/-- The first access of all is a set if each thread's first one is. -/
theorem readValues_first (w : Int) (l : List (Nat × Access)) (hz : ∀ t v, (t, .set v) ∈ l → v = 0)
    (hf : ∀ t, ∀ a ∈ ((l.filter fun e => e.1 = t).map Prod.snd).head?, a = .set 0) :
    ∀ x ∈ readValues w l, x.2 = 0 := by
  cases l with
  | nil => simp [readValues]
  | cons e l =>
    obtain ⟨t, a⟩ := e
    have : a = .set 0 := hf t a (by simp)
    subst this
    rw [readValues]
    exact readValues_zero l 0 (fun t v hv => hz t v (by simp [hv])) rfl

end Afs.Xml
