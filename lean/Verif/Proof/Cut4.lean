import Verif.Proof.Cut3
import Verif.Proof.NodeEq
/-!
# Documents cut short: saved documents
-/
namespace Afs.Xml
open Afs Afs.Spec Afs.Spec.Grammar

theorem encode_first (c : Char) : (c.toNat < 128 ∧ String.utf8EncodeChar c = [UInt8.ofNat c.toNat]) ∨
    ∃ b r, String.utf8EncodeChar c = b :: r ∧ 128 ≤ b.toNat := by
  by_cases h : c.toNat < 128
  · exact .inl ⟨h, utf8_ascii h⟩
  · right
    have hv := char_lt c
    unfold String.utf8EncodeChar
    simp only [Char.toNat] at h hv
    generalize c.val.toNat = v at *
    dsimp only
    rw [if_neg (by omega)]
    split
    · exact ⟨_, _, rfl, by rw [u8 (by omega)]; omega⟩
    · split
      · exact ⟨_, _, rfl, by rw [u8 (by omega)]; omega⟩
      · exact ⟨_, _, rfl, by rw [u8 (by omega)]; omega⟩

theorem utf8_strip : ∀ (p : Bytes) (t : List Char) (x : Bytes), (∀ b ∈ p, b.toNat < 128) → utf8File t = p ++ x →
    ∃ t', x = utf8File t' ∧ ∀ c ∈ t', c ∈ t
  | [], t, x, _, h => ⟨t, h.symm, fun _ h => h⟩
  | b :: p, [], x, _, h => by simp [utf8_nil] at h
  | b :: p, c :: t, x, hp, h => by
    rw [utf8_cons] at h
    have hb := hp b (by simp)
    rcases encode_first c with ⟨_, e⟩ | ⟨b', r, e, hb'⟩
    · rw [e] at h
      simp only [List.cons_append, List.nil_append, List.cons.injEq] at h
      obtain ⟨t', h1, h2⟩ := utf8_strip p t x (fun b hb => hp b (by simp [hb])) h.2
      exact ⟨t', h1, fun c hc => by simp [h2 c hc]⟩
    · rw [e] at h
      simp only [List.cons_append, List.cons.injEq] at h
      rw [h.1] at hb'
      omega

theorem eofs_feed (dec) (w : Bytes) : loadData (dec w) = eofs (feed dec PS.init w) := rfl

set_option maxRecDepth 100000 in
theorem decl_cuts : ∀ k ≤ declaration.length, eofs (run PS.init ((declaration.take k).map fun b : UInt8 => some b.toNat)) = none ∨
    eofs (run PS.init ((declaration.take k).map fun b : UInt8 => some b.toNat)) = some (.elem [] [] []) ∨
    eofs (run PS.init ((declaration.take k).map fun b : UInt8 => some b.toNat)) = some (.elem xmlDecl [] []) := by
  decide +kernel

theorem declaration_eq : declaration = 60 :: (xmlDecl ++ [62]) := by decide +kernel

theorem feed_declaration {dec} (hd : GoodDec dec) (r : Bytes) :
    feed dec PS.init (declaration ++ r) = feed dec (content ([], []) xmlDecl [] [] none) r := by
  rw [ascii_lit hd (by decide +kernel) PS.init r]
  congr 1

theorem eofs_content (p : Bytes × List Node) (n as) : eofs (content p n as [] none) = some (.elem n as p.2.reverse) :=
  eofs_of_done rfl

theorem eofs_name {b : Bytes} (hb : AlNum b) (rev : List Node) (n as) :
    eofs { content ([], rev) n as [] none with pc := .name b } = some (.elem n as (rev.reverse ++ [.elem b [] []])) := by
  obtain ⟨p1, p2, p3, p4, p5, p6⟩ := alnum_head hb
  apply eofs_of_done
  unfold step
  dsimp only [content]
  unfold PS.afterName
  rw [if_neg p1, if_neg p2, if_neg p4, if_neg p5, if_neg p6]
  simp [PS.secondRoot, PS.addNode, PS.finish, Frame.node]

/-- The declaration, white space, and the start of the first tag. -/
theorem feed_head {dec} (hd : GoodDec dec) {W : Bytes} (hW : ∀ c ∈ W, c = 32 ∨ c = 9 ∨ c = 10 ∨ c = 13) {n : Bytes} (hn : AlNum n)
    (r : Bytes) : feed dec PS.init (declaration ++ (W ++ (60 :: (n ++ r)))) =
      feed dec { content ([], flushRev W []) xmlDecl [] [] none with pc := .name n } r := by
  rw [feed_declaration hd, feed_content_white hd hW, feed_byte hd (by decide), show (60 : UInt8).toNat = 60 from rfl, step_lt,
    feed_name hd _ hn]
  rfl

theorem pastTag_head {n : Bytes} (hn : AlNum n) (rev : List Node) {c : UInt8} (hc : c = 32 ∨ c = 62) :
    PastTag xmlDecl rev.reverse (step { content ([], rev) xmlDecl [] [] none with pc := .name n } (some c.toNat)) := by
  obtain ⟨p1, p2, p3, p4, p5, p6⟩ := alnum_head hn
  have hk : ∀ s : PS, s.stack.getLast? = some ⟨xmlDecl, [], rev⟩ → Kids xmlDecl s rev.reverse := by
    intro s h; left; rw [h]; simp
  have e : step { content ([], rev) xmlDecl [] [] none with pc := .name n } (some c.toNat) =
      PS.afterName { content ([], rev) xmlDecl [] [] none with pc := .name n } n (some c.toNat) := by
    unfold step
    dsimp only
    rw [if_pos (by rcases hc with rfl | rfl <;> simp [isSpace])]
  rw [e]
  unfold PS.afterName
  rw [if_neg p1, if_neg p2, if_neg p4, if_neg p5, if_neg p6, if_neg (by simp [PS.secondRoot, content])]
  dsimp only
  rcases hc with rfl | rfl
  · rw [if_pos (by decide)]
    exact .inr ⟨hk _ rfl, rfl, rfl⟩
  · rw [if_neg (by decide), if_neg (by decide)]
    unfold PS.afterHead
    rw [if_neg (by decide)]
    exact .inl (.inr (.inr ⟨hk _ rfl, by simp [kindOf], by simp [PS.push, content]⟩))

/-- The white space of a document, and what follows the root's name. -/
theorem save_form {cb : SaveCb} (hcb : WhiteCb cb) {n : Bytes} {as : List (Bytes × Option Bytes)} {cs : List Node} (hn : PlainName n)
    (hb : cb [] (.elem xmlDecl [] [.elem n as cs]) .beforeOpen = []) :
    ∃ (W : Bytes) (c : UInt8) (r : Bytes), (∀ x ∈ W, x = 32 ∨ x = 9 ∨ x = 10 ∨ x = 13) ∧ (c = 32 ∨ c = 62) ∧
      saveText cb [] (.elem xmlDecl [] [.elem n as cs]) = declaration ++ (W ++ (60 :: (n ++ c :: r))) ∧
      ∀ dec, GoodDec dec → CleanTree (.elem n as cs) → ∃ B : Bytes,
        feed dec PS.init (saveText cb [] (.elem xmlDecl [] [.elem n as cs])) =
          content (B, withWhite cb [xmlDecl] (.elem n as cs) :: flushRev W []) xmlDecl [] [] none := by
  obtain ⟨w, hw, e⟩ := saveText_newline cb [] (.elem xmlDecl [] [.elem n as cs])
  have hw' := newline_white hw
  have hwr : writeNode cb [] (.elem xmlDecl [] [.elem n as cs]) = declaration ++
      (cb [] (.elem xmlDecl [] [.elem n as cs]) .afterOpen ++ writeNode cb [xmlDecl] (.elem n as cs)) := by
    rw [declaration_eq, writeNode, writeNodes, writeNodes, hb]
    have h1 : writeOpenName xmlDecl = xmlDecl := by decide
    have h2 : isDirective xmlDecl = true := by decide
    simp [h1, h2]
  obtain ⟨c, r, hc, hd⟩ := writeNode_head (cb := cb) (anc := [xmlDecl]) (as := as) (cs := cs) hn
  refine ⟨cb [] (.elem xmlDecl [] [.elem n as cs]) .afterOpen ++ cb [xmlDecl] (.elem n as cs) .beforeOpen, c, r ++ w, ?_, hc, ?_, ?_⟩
  · intro x hx
    rcases List.mem_append.mp hx with h | h
    · exact hcb _ _ _ x h
    · exact hcb _ _ _ x h
  · rw [e, hwr, hd]; simp
  · intro dec hdec hcl
    obtain ⟨ww, _, _, hit⟩ := writeNode_elem cb [xmlDecl] (as := as) hn cs
    rw [e, hwr, List.append_assoc, List.append_assoc, feed_declaration hdec, feed_content_white hdec (hcb _ _ _),
      reads_node hdec hcb hcl, hit]
    have := feed_content_white hdec hw' ([Item.txt (cb [xmlDecl] (.elem n as cs) .beforeOpen),
      .el (withWhite cb [xmlDecl] (.elem n as cs)), .txt (cb [xmlDecl] (.elem n as cs) ww)].foldl itemStep
        (itemStep ([], []) (.txt (cb [] (.elem xmlDecl [] [.elem n as cs]) .afterOpen)))) xmlDecl [] [] none []
    rw [List.append_nil, feed_nil hdec] at this
    rw [this]
    exact ⟨_, rfl⟩

/-- Trees whose elements have no name but parts of the given one. -/
def NoName (n : Bytes) (t : Node) : Prop := named n t = false ∧ ∀ m ∈ namesOf t.children, m <+: n ∧ m ≠ n

/-- A saved document cut after `k` bytes. -/
theorem saved_cut {dec} (hd : GoodDec dec) (hp : PartDec dec) {cb : SaveCb} (hcb : WhiteCb cb) {n : Bytes}
    {as : List (Bytes × Option Bytes)} {cs : List Node} (hn : PlainName n) (hc : CleanTree (.elem n as cs))
    (hb : cb [] (.elem xmlDecl [] [.elem n as cs]) .beforeOpen = []) (k : Nat) :
    let s := saveText cb [] (.elem xmlDecl [] [.elem n as cs])
    loadData (dec (s.take k)) = none ∨ loadData (dec (s.take k)) = loadData (dec s) ∨
    (StopsByName n (s.take k) ∧ ∃ T, loadData (dec (s.take k)) = some T ∧ NoName n T) ∨
    (EndsBehindName n (s.take k) ∧ ∃ W : List Node, (∀ x ∈ W, isElem x = false) ∧
      loadData (dec (s.take k)) = some (.elem xmlDecl [] (W ++ [.elem n [] []]))) := by
  intro s
  obtain ⟨W, c, r, hW, hcc, e, hfeed⟩ := save_form hcb (as := as) (cs := cs) hn hb
  obtain ⟨B, hfin⟩ := hfeed dec hd hc
  have es : s = declaration ++ (W ++ (60 :: (n ++ c :: r))) := e
  have hn' : AlNum n := hn.2
  have hne : n ≠ [] := hn.1.1
  have hnd : n ≠ xmlDecl := by rintro rfl; exact absurd hn (by decide)
  have hrev : ∀ x ∈ (flushRev W []).reverse, isElem x = false := by
    unfold flushRev
    split
    · simp
    · intro x hx; simp at hx; subst hx; rfl
  have hnames : ∀ ks : List Node, (∀ x ∈ ks, isElem x = false) → namesOf ks = [] := by
    intro ks
    induction ks with
    | nil => intro _; exact namesOf_nil
    | cons x ks ih =>
      intro h
      cases x with
      | elem a b d =>
        have h' := h (.elem a b d) (List.mem_cons_self ..)
        simp [isElem] at h'
      | text t => rw [namesOf_text]; exact ih fun y hy => h y (by simp [hy])
  have hpre : ∀ k, k ≤ declaration.length + (W.length + (1 + n.length)) → StopsByName n (s.take k) := by
    intro k hk
    refine ⟨W, hW, ?_⟩
    rw [es, show declaration ++ (W ++ (60 :: (n ++ c :: r))) = (declaration ++ W ++ [60] ++ n) ++ c :: r by simp,
      List.take_append_of_le_length (by simp only [List.length_append, List.length_singleton]; omega)]
    exact List.take_prefix _ _
  by_cases h1 : k ≤ declaration.length
  · -- within the declaration
    have hq := hpre k (by omega)
    have et : s.take k = declaration.take k := by rw [es, List.take_append_of_le_length h1]
    rw [et] at hq
    rw [et, eofs_feed]
    have := ascii_lit hd (w := declaration.take k) (fun b hb => (by decide +kernel : ∀ b ∈ declaration, okByte b = true) b (List.mem_of_mem_take hb))
      PS.init []
    rw [List.append_nil, feed_nil hd] at this
    rw [this]
    rcases decl_cuts k h1 with h | h | h
    · exact .inl h
    · refine .inr (.inr (.inl ⟨hq, _, h, ?_, ?_⟩))
      · show (some ([] : Bytes) == some n) = false
        simpa using Ne.symm hne
      · rw [show (Node.elem [] [] []).children = [] from rfl, namesOf_nil]; simp
    · refine .inr (.inr (.inl ⟨hq, _, h, ?_, ?_⟩))
      · simp [named, Node.element, Ne.symm hnd]
      · rw [show (Node.elem xmlDecl [] []).children = [] from rfl, namesOf_nil]; simp
  obtain ⟨k, rfl⟩ : ∃ i, k = declaration.length + i := ⟨k - declaration.length, by omega⟩
  have hq := hpre (declaration.length + k)
  rw [show s.take (declaration.length + k) = declaration ++ (W ++ (60 :: (n ++ c :: r))).take k by
    rw [es, List.take_append, List.take_of_length_le (by omega)]; simp] at hq ⊢
  by_cases h2 : k ≤ W.length
  · -- white space behind the declaration
    rw [List.take_append_of_le_length h2] at hq ⊢
    replace hq := hq (by omega)
    rw [ eofs_feed, feed_declaration hd]
    have := feed_content_white hd (w := W.take k) (fun x hx => hW x (List.mem_of_mem_take hx)) ([], []) xmlDecl [] [] none []
    rw [List.append_nil, feed_nil hd] at this
    rw [this, eofs_content]
    refine .inr (.inr (.inl ⟨hq, _, rfl, ?_, ?_⟩))
    · simp [named, Node.element, Ne.symm hnd]
    · rw [show (Node.elem xmlDecl [] (itemStep ([], []) (.txt (W.take k))).2.reverse).children = [] from rfl, namesOf_nil]; simp
  obtain ⟨k, rfl⟩ : ∃ i, k = W.length + (1 + i) := ⟨k - W.length - 1, by omega⟩
  rw [show (W ++ (60 :: (n ++ c :: r))).take (W.length + (1 + k)) = W ++ (60 :: (n ++ c :: r).take k) by
    rw [List.take_append, List.take_of_length_le (by omega)]; simp [Nat.add_comm 1 k]] at hq ⊢
  by_cases h3 : k ≤ n.length
  · -- in the name
    have hal : AlNum (n.take k) := fun x hx => hn' x (List.mem_of_mem_take hx)
    have ef := feed_head hd hW hal []
    rw [List.append_nil, feed_nil hd] at ef
    rw [List.take_append_of_le_length h3] at hq ⊢
    replace hq := hq (by omega)
    rw [eofs_feed, ef, eofs_name hal]
    by_cases h4 : k = n.length
    · subst h4
      rw [List.take_of_length_le (Nat.le_refl _)]
      exact .inr (.inr (.inr ⟨⟨W, hW, by simp⟩, _, hrev, rfl⟩))
    · refine .inr (.inr (.inl ⟨hq, _, rfl, ?_, ?_⟩))
      · simp [named, Node.element, Ne.symm hnd]
      · rw [show (Node.elem xmlDecl [] ((flushRev W []).reverse ++ [.elem (n.take k) [] []])).children =
          (flushRev W []).reverse ++ [.elem (n.take k) [] []] from rfl, namesOf_append, hnames _ hrev, namesOf_elem, namesOf_nil]
        intro m hm
        simp at hm
        subst hm
        refine ⟨List.take_prefix _ _, fun hm => ?_⟩
        have := congrArg List.length hm
        rw [List.length_take] at this
        omega
  · obtain ⟨k, rfl⟩ : ∃ i, k = n.length + (1 + i) := ⟨k - n.length - 1, by omega⟩
    rw [show (n ++ c :: r).take (n.length + (1 + k)) = n ++ (c :: r.take k) by
      rw [List.take_append, List.take_of_length_le (by omega)]; simp [Nat.add_comm 1 k]]
    have hok : okByte c = true := by rcases hcc with rfl | rfl <;> decide
    obtain ⟨t, ht, et⟩ := save_docs_clean hcb (ts := [.elem n as cs]) (by simp) (by simpa using hc)
    obtain ⟨t', hr, hsub⟩ := utf8_strip (declaration ++ (W ++ (60 :: (n ++ [c])))) t r (by
        intro b hb
        rcases List.mem_append.mp hb with hb | hb
        · exact (by decide +kernel : ∀ b ∈ declaration, b.toNat < 128) b hb
        rcases List.mem_append.mp hb with hb | hb
        · rcases hW b hb with rfl | rfl | rfl | rfl <;> decide
        rcases List.mem_cons.mp hb with rfl | hb
        · decide
        rcases List.mem_append.mp hb with hb | hb
        · have := hn' b hb; omega
        · simp at hb; subst hb; rcases hcc with rfl | rfl <;> decide) (by rw [← show saveText cb [] _ = utf8File t from et, e]; simp)
    have ht' : ∀ x ∈ t', Allowed x := fun x hx => ht x (hsub x hx)
    have hS := feed_head hd hW hn' (c :: r)
    rw [feed_byte hd hok] at hS
    have hS' := feed_head hd hW hn' (c :: r.take k)
    rw [feed_byte hd hok] at hS'
    have hpast := pastTag_head hn' (flushRev W []) hcc
    generalize hS4 : step { content ([], flushRev W []) xmlDecl [] [] none with pc := .name n } (some c.toNat) = S4 at *
    rw [eofs_feed, hS', hr]
    obtain ⟨j, hj⟩ := feed_take hd hp S4 ht' k
    rw [show eofs (feed dec S4 ((utf8File t').take k)) = eofs (R S4 (t'.take j)) from hj]
    have hfinal : Final xmlDecl ((flushRev W []).reverse ++ [withWhite cb [xmlDecl] (.elem n as cs)]) (R S4 t') := by
      rw [← feed_R hd _ ht', ← hr, ← hS, ← e, hfin]
      exact ⟨⟨B, rfl⟩, by simp [content]⟩
    have hwhole : loadData (dec s) = some (.elem xmlDecl [] ((flushRev W []).reverse ++ [withWhite cb [xmlDecl] (.elem n as cs)])) := by
      rw [eofs_feed, hfin, eofs_content]; simp
    rw [hwhole]
    cases hu : eofs (R S4 (t'.take j)) with
    | none => exact .inl rfl
    | some u =>
      right; left
      congr 1
      refine cut_past (l := (t'.drop j).map Char.toNat) ?_ ?_ hu
      · rw [R_map]; exact pastTag_run hpast _
      · rw [← R_map, ← R_append, List.take_append_drop]; exact hfinal

end Afs.Xml
