import Verif.Proof.XmlRound
/-!
# A second root element is an error
-/
namespace Afs.Xml
open Afs.Spec

/-- After the root element. -/
theorem feed_root {dec} (hd : GoodDec dec) {cb : SaveCb} (hcb : WhiteCb cb) (anc : List Bytes)
    {n : Bytes} {as : List (Bytes × Option Bytes)} {cs : List Node} (hn : PlainName n) (has : CleanAttrs as)
    (hcs : ∀ c ∈ cs, CleanTree c) :
    ∃ (t : Node) (opq : Bool) (w : Bytes), (∀ c ∈ w, c = 32 ∨ c = 9 ∨ c = 10 ∨ c = 13) ∧
      ∀ r, feed dec PS.init (writeNode cb anc (.elem n as cs) ++ r) = feed dec ⟨.main [], [], some t, opq⟩ (w ++ r) := by
  have hlt : step PS.init (some 60) = { PS.init with pc := .name [] } := by
    simp [step, PS.init, PS.flush]
  cases cs with
  | nil =>
    refine ⟨.elem n as [], false, cb anc (.elem n as []) .afterOpen, hcb _ _ _, ?_⟩
    intro r
    rw [writeNode, isDirective_plain hn]
    simp only [Bool.false_eq_true, if_false, List.append_assoc, List.cons_append, List.nil_append]
    have h0 := feed_white_out hd (hcb anc (.elem n as []) .beforeOpen) PS.init rfl
      (60 :: (writeOpenName n ++ (as.flatMap writeAttr ++ (32 :: 47 :: 62 ::
        (cb anc (.elem n as []) .afterOpen ++ r)))))
    erw [h0]
    rw [feed_byte hd (by decide), show (60 : UInt8).toNat = 60 from rfl]
    erw [hlt]
    rw [feed_empty hd (s := PS.init) rfl hn has]
    rfl
  | cons c cs =>
    refine ⟨.elem n as (joinText [] (.txt (cb anc (.elem n as (c :: cs)) .afterOpen) ::
      xmlItemsList cb (n :: anc) (c :: cs) ++ [.txt (cb anc (.elem n as (c :: cs)) .beforeClose)])), true,
      cb anc (.elem n as (c :: cs)) .afterClose, hcb _ _ _, ?_⟩
    intro r
    rw [writeNode, isDirective_plain hn, writeString_plain hn.2]
    simp only [Bool.false_eq_true, if_false, List.append_assoc, List.cons_append, List.nil_append]
    have h0 := feed_white_out hd (hcb anc (.elem n as (c :: cs)) .beforeOpen) PS.init rfl
      (60 :: (writeOpenName n ++ (as.flatMap writeAttr ++ (62 ::
        (cb anc (.elem n as (c :: cs)) .afterOpen ++ (writeNodes cb (n :: anc) (c :: cs) ++
          (cb anc (.elem n as (c :: cs)) .beforeClose ++ (60 :: 47 :: (n ++ 62 ::
            (cb anc (.elem n as (c :: cs)) .afterClose ++ r))))))))))
    erw [h0]
    rw [feed_byte hd (by decide), show (60 : UInt8).toNat = 60 from rfl]
    erw [hlt]
    rw [feed_open hd (s := PS.init) rfl hn has]
    have h1 := feed_body hd hcb hn as (fun x hx => reads_node hd hcb (hcs x hx)) anc
      (.elem n as (c :: cs)) [] none (cb anc (.elem n as (c :: cs)) .afterClose ++ r)
    erw [h1]
    have hpop : ∀ L : List Node, ({ content ([], L) n as [] none with pc := .name [] } : PS).pop =
          ⟨.main [], [], some (.elem n as L.reverse), true⟩ := by
        intro L; rfl
    rw [hpop, List.reverse_reverse]
    simp only [List.cons_append]

theorem run_done {s : PS} {r : Option Node} (h : s.pc = .done r) (l : List (Option Nat)) : (run s l).pc = .done r := by
  unfold run
  induction l generalizing s with
  | nil => exact h
  | cons c l ih =>
    apply ih
    unfold step
    rw [h]

/-- What a written plain element looks like from outside: white space, `<`, the name, and a space
    or `>`. -/
theorem writeNode_head {cb : SaveCb} {anc : List Bytes} {n : Bytes} {as : List (Bytes × Option Bytes)}
    {cs : List Node} (hn : PlainName n) :
    ∃ (c : UInt8) (r : Bytes), (c = 32 ∨ c = 62) ∧
      writeNode cb anc (.elem n as cs) = cb anc (.elem n as cs) .beforeOpen ++ 60 :: (n ++ c :: r) := by
  have hattr : ∀ (x : UInt8) (r : Bytes), (x = 32 ∨ x = 62) → ∃ (c : UInt8) (r' : Bytes), (c = 32 ∨ c = 62) ∧
      as.flatMap writeAttr ++ x :: r = c :: r' := by
    intro x r hx
    cases as with
    | nil => exact ⟨x, r, hx, rfl⟩
    | cons a as =>
      obtain ⟨an, v⟩ := a
      rw [List.flatMap_cons]
      cases v with
      | none => exact ⟨32, _, .inl rfl, rfl⟩
      | some v => exact ⟨32, _, .inl rfl, rfl⟩
  cases cs with
  | nil =>
    rw [writeNode, isDirective_plain hn, writeOpen_plain hn]
    simp only [Bool.false_eq_true, if_false, List.append_assoc, List.cons_append, List.nil_append]
    obtain ⟨c, r, hc, e⟩ := hattr 32 (47 :: 62 :: cb anc (.elem n as []) .afterOpen) (.inl rfl)
    exact ⟨c, r, hc, by rw [e]⟩
  | cons x cs =>
    rw [writeNode, isDirective_plain hn, writeOpen_plain hn]
    simp only [Bool.false_eq_true, if_false, List.append_assoc, List.cons_append, List.nil_append]
    generalize cb anc (.elem n as (x :: cs)) .afterOpen ++ _ = rest
    obtain ⟨c, r, hc, e⟩ := hattr 62 rest (.inr rfl)
    exact ⟨c, r, hc, by rw [e]⟩

theorem feed_second {dec} (hd : GoodDec dec) (t : Node) (opq : Bool) {w n : Bytes}
    (hw : ∀ c ∈ w, c = 32 ∨ c = 9 ∨ c = 10 ∨ c = 13) (hn : PlainName n) (c : UInt8) (hc : c = 32 ∨ c = 62) (r : Bytes) :
    (run (feed dec ⟨.main [], [], some t, opq⟩ (w ++ 60 :: (n ++ c :: r))) [none, none, none]).result = none := by
  have key : ∀ b, (run (feed dec ⟨.main b, [], some t, opq⟩ (60 :: (n ++ c :: r))) [none, none, none]).result = none := by
    intro b
    rw [feed_byte hd (by decide), show (60 : UInt8).toNat = 60 from rfl]
    have e1 : step ⟨.main b, [], some t, opq⟩ (some 60) = ⟨.name [], [], some t, opq⟩ := by
      have : (⟨.main b, [], some t, opq⟩ : PS).flush b = ⟨.main b, [], some t, opq⟩ := by
        unfold PS.flush PS.addNode
        split
        · rfl
        · split <;> rfl
      simp only [step, if_true, this]
    rw [e1]
    have hfn := feed_name hd ⟨.name [], [], some t, opq⟩ hn.2 (c :: r)
    dsimp only at hfn
    rw [hfn]
    have hnd : n.head? ≠ some 63 ∧ n.head? ≠ some 33 ∧ n.head? ≠ some 47 ∧ n ≠ b! "!--" ∧ n ≠ Node.cdataOpen := by
      obtain ⟨q1, q2, q3, q4, q5, q6⟩ := alnum_head (n := n) hn.2
      exact ⟨q4, q5, q6, q1, q2⟩
    have e2 : (step ⟨.name n, [], some t, opq⟩ (some c.toNat)).pc = .done none := by
      have : step ⟨.name n, [], some t, opq⟩ (some c.toNat) =
          PS.afterName ⟨.name n, [], some t, opq⟩ n (some c.toNat) := by
        unfold step
        rcases hc with rfl | rfl <;> simp [isSpace]
      rw [this]
      unfold PS.afterName
      rw [if_neg hnd.2.2.2.1, if_neg hnd.2.2.2.2, if_neg hnd.1, if_neg hnd.2.1, if_neg hnd.2.2.1,
        if_pos (by rfl)]
      rfl
    rw [feed_byte hd (by rcases hc with rfl | rfl <;> decide)]
    unfold feed
    have h3 := run_done e2 (dec r)
    have h4 := run_done h3 [none, none, none]
    unfold PS.result
    rw [h4]
  cases opq with
  | true =>
    have := feed_white hd hw ⟨.main [], [], some t, true⟩ rfl [] (60 :: (n ++ c :: r))
    dsimp only at this
    rw [this]
    exact key _
  | false =>
    have := feed_white_out hd hw ⟨.main [], [], some t, false⟩ rfl (60 :: (n ++ c :: r))
    dsimp only at this
    rw [this]
    exact key _

/-- Two documents, one after the other, are no document. -/
theorem load_two {dec} (hd : GoodDec dec) {cb cb' : SaveCb} (hcb : WhiteCb cb) (hcb' : WhiteCb cb') (anc anc' : List Bytes)
    {n n' : Bytes} {as as' : List (Bytes × Option Bytes)} {cs cs' : List Node} (hn : PlainName n) (hn' : PlainName n')
    (has : CleanAttrs as) (hcs : ∀ c ∈ cs, CleanTree c) :
    loadData (dec (saveText cb anc (.elem n as cs) ++ saveText cb' anc' (.elem n' as' cs'))) = none := by
  obtain ⟨w1, hw1, e1⟩ := saveText_newline cb anc (.elem n as cs)
  obtain ⟨w2, hw2, e2⟩ := saveText_newline cb' anc' (.elem n' as' cs')
  obtain ⟨t, opq, w, hw, hr⟩ := feed_root hd hcb anc hn has hcs
  obtain ⟨c, r, hc, e3⟩ := writeNode_head (cb := cb') (anc := anc') (as := as') (cs := cs') hn'
  have hw1' := newline_white hw1
  unfold loadData
  change (run (feed dec PS.init _) _).result = _
  rw [e1, e2, e3, List.append_assoc, hr]
  have := feed_second hd t opq (w := w ++ (w1 ++ cb' anc' (.elem n' as' cs') .beforeOpen)) (n := n') (by
    intro x hx
    rcases List.mem_append.mp hx with h | h
    · exact hw x h
    · rcases List.mem_append.mp h with h | h
      · exact hw1' x h
      · exact hcb' _ _ _ x h) hn' c hc (r ++ w2)
  simpa [List.append_assoc] using this

end Afs.Xml
