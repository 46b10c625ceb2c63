import Verif.Proof.Utf8
/-!
# The trees the XML reader returns contain no control characters
-/
namespace Afs.Xml
open Afs.Spec

def PB (s : Bytes) : Prop := ∀ b ∈ s, PrintableByte b
def TB (s : Bytes) : Prop := ∀ b ∈ s.drop 1, PrintableByte b
def PN (c : Nat) : Prop := 32 ≤ c ∨ c = 9 ∨ c = 10 ∨ c = 13

def AttrsOk (as : List (Bytes × Option Bytes)) : Prop :=
  ∀ a ∈ as, PrintableTail a.1 ∧ ∀ v, a.2 = some v → PrintableTail v

def HeadOk (e : Head) : Prop := PB e.1 ∧ AttrsOk e.2

def PcOk : PC → Prop
  | .main b | .name b | .comment b | .cdata b | .pi b | .decl b => PB b
  | .close => True
  | .slash n => PB n
  | .attr e | .attrSlash e _ | .valSlash e _ => HeadOk e
  | .qname e _ an => HeadOk e ∧ TB an
  | .aname e an => HeadOk e ∧ TB an
  | .aeq e an => HeadOk e ∧ PrintableTail an
  | .vskip e an => HeadOk e ∧ PrintableTail an
  | .qval e an _ av => HeadOk e ∧ PrintableTail an ∧ TB av
  | .uval e an av => HeadOk e ∧ PrintableTail an ∧ TB av
  | .ent k _ => PcOk k
  | .done r => ∀ n, r = some n → PrintableTree n

def BFrame (f : Frame) : Prop := PB f.name ∧ AttrsOk f.attrs ∧ ∀ c ∈ f.rev, PrintableTree c

def BCore (s : PS) : Prop := (∀ f ∈ s.stack, BFrame f) ∧ ∀ n, s.root = some n → PrintableTree n

def BGood (s : PS) : Prop := BCore s ∧ PcOk s.pc

theorem PB_nil : PB [] := fun _ h => nomatch h
theorem TB_nil : TB [] := fun _ h => nomatch h
theorem TB_one (b : UInt8) : TB [b] := fun _ h => nomatch h

theorem PB_append {s t : Bytes} (h1 : PB s) (h2 : PB t) : PB (s ++ t) := fun b hb =>
  (List.mem_append.mp hb).elim (h1 b) (h2 b)

theorem TB_append {s t : Bytes} (h1 : TB s) (h2 : PB t) : TB (s ++ t) := by
  cases s with
  | nil => exact fun b hb => h2 b (List.mem_of_mem_drop hb)
  | cons x xs => exact PB_append (s := xs) h1 h2

theorem PB_addChar {c : Nat} (h : PN c) : PB (addChar c) := addChar_print h

theorem cstr_tail {s : Bytes} (h : TB s) : PrintableTail (cstr s) := by
  refine ⟨fun b hb => ?_, fun b hb => ?_⟩
  · unfold cstr at hb
    induction s with
    | nil => cases hb
    | cons x xs ih =>
      rw [List.takeWhile_cons] at hb
      split at hb
      · rename_i hx
        rcases List.mem_cons.mp hb with rfl | hb
        · simpa using hx
        · exact ih (fun c hc => h c (List.mem_of_mem_drop hc)) hb
      · cases hb
  · unfold cstr at hb
    cases s with
    | nil => cases hb
    | cons x xs =>
      rw [List.takeWhile_cons] at hb
      split at hb
      · exact h b ((List.takeWhile_sublist _).subset hb)
      · cases hb

theorem AttrsOk_nil : AttrsOk [] := fun _ h => nomatch h

theorem tree_leaf {n : Bytes} {as : List (Bytes × Option Bytes)} (hn : PB n) (ha : AttrsOk as) :
    PrintableTree (.elem n as []) := .elem hn ha fun _ h => nomatch h

theorem frame_node {f : Frame} (h : BFrame f) : PrintableTree f.node :=
  .elem h.1 h.2.1 fun c hc => h.2.2 c (List.mem_reverse.mp hc)

theorem setAttr_ok {an : Bytes} {v : Option Bytes} (h1 : PrintableTail an)
    (h2 : ∀ x, v = some x → PrintableTail x) :
    ∀ as : List (Bytes × Option Bytes), AttrsOk as → AttrsOk (Node.setAttrList an v as) := by
  intro as
  induction as with
  | nil =>
    intro _ a ha
    rw [Node.setAttrList, List.mem_singleton] at ha
    subst ha
    exact ⟨h1, h2⟩
  | cons b bs ih =>
    intro h a ha
    rw [Node.setAttrList] at ha
    split at ha
    · rcases List.mem_cons.mp ha with rfl | ha
      · exact ⟨(h b (by simp)).1, h2⟩
      · exact h a (by simp [ha])
    · rcases List.mem_cons.mp ha with e | ha
      · rw [e]; exact h b (by simp)
      · exact ih (fun c hc => h c (by simp [hc])) a ha

theorem b_error {s : PS} (h : BCore s) : BGood s.error := ⟨h, fun _ e => nomatch e⟩

theorem b_addNode {s : PS} (h : BCore s) {n : Node} (hn : PrintableTree n) : BCore (s.addNode n) := by
  unfold PS.addNode
  split
  · split
    · exact ⟨h.1, fun m e => by cases e; exact hn⟩
    · exact h
  · rename_i f fs e
    refine ⟨fun g hg => ?_, h.2⟩
    rcases List.mem_cons.mp hg with rfl | hg
    · obtain ⟨h1, h2, h3⟩ := h.1 f (by rw [e]; simp)
      refine ⟨h1, h2, fun c hc => ?_⟩
      rcases List.mem_cons.mp hc with rfl | hc
      · exact hn
      · exact h3 c hc
    · exact h.1 g (by rw [e]; simp [hg])

theorem b_push {s : PS} (h : BCore s) {e : Head} (he : HeadOk e) : BCore (s.push e) := by
  refine ⟨fun g hg => ?_, h.2⟩
  rcases List.mem_cons.mp hg with rfl | hg
  · exact ⟨he.1, he.2, fun _ h => nomatch h⟩
  · exact h.1 g hg

theorem b_flush {s : PS} (h : BCore s) {b : Bytes} (hb : PB b) : BCore (s.flush b) := by
  unfold PS.flush
  split
  · exact h
  · split
    · exact b_addNode h (.text hb)
    · exact h

theorem b_finish {s : PS} (h : BCore s) : BGood s.finish := by
  unfold PS.finish
  split
  · exact ⟨h, h.2⟩
  · rename_i f e
    exact ⟨h, fun n en => by cases en; exact frame_node (h.1 f (by rw [e]; simp))⟩
  · exact b_error h

theorem b_afterHead {s : PS} (h : BCore s) {e : Head} (he : HeadOk e) (c : Nat) :
    BGood (s.afterHead e c) := by
  unfold PS.afterHead
  split
  · exact ⟨b_addNode h (tree_leaf he.1 he.2), PB_nil⟩
  · exact ⟨b_push h he, PB_nil⟩

theorem b_addSpecial {s : PS} (h : BCore s) {b : Bytes} (hb : PB b) : BGood (s.addSpecial b) := by
  unfold PS.addSpecial
  split
  · exact b_error h
  · exact ⟨b_addNode h (tree_leaf hb AttrsOk_nil), PB_nil⟩

theorem b_addDirective {s : PS} (h : BCore s) {b : Bytes} (hb : PB b) : BGood (s.addDirective b) := by
  unfold PS.addDirective
  split
  · exact b_error h
  · split
    · exact ⟨b_push h ⟨hb, AttrsOk_nil⟩, PB_nil⟩
    · exact ⟨b_addNode h (tree_leaf hb AttrsOk_nil), PB_nil⟩

theorem b_pop {s : PS} (h : BCore s) : BGood s.pop := by
  unfold PS.pop
  split
  · exact b_error h
  · rename_i f e
    refine ⟨⟨fun g hg => by simp at hg, fun n en => ?_⟩, PB_nil⟩
    cases en
    exact frame_node (h.1 f (by rw [e]; simp))
  · rename_i f g fs e
    refine ⟨⟨fun x hx => ?_, h.2⟩, PB_nil⟩
    rcases List.mem_cons.mp hx with rfl | hx
    · obtain ⟨h1, h2, h3⟩ := h.1 g (by rw [e]; simp)
      refine ⟨h1, h2, fun c hc => ?_⟩
      rcases List.mem_cons.mp hc with rfl | hc
      · exact frame_node (h.1 f (by rw [e]; simp))
      · exact h3 c hc
    · exact h.1 x (by rw [e]; simp [hx])

theorem b_declBody {s : PS} (h : BCore s) {b : Bytes} (hb : PB b) (ch : Option Nat)
    (hc : ∀ c, ch = some c → PN c) : BGood (s.declBody b ch) := by
  unfold PS.declBody
  split
  · refine ⟨h, PB_append hb fun x hx => ?_⟩
    rw [List.mem_singleton] at hx
    subst hx
    exact .inl (by decide)
  · split
    · exact b_addDirective h hb
    · split
      · exact ⟨h, hb⟩
      · exact ⟨h, PB_append hb (PB_addChar (hc _ rfl))⟩

theorem b_closeBody {s : PS} (h : BCore s) (ch : Option Nat) : BGood (s.closeBody ch) := by
  unfold PS.closeBody
  split
  · exact b_pop h
  · split
    · exact b_pop h
    · exact ⟨h, trivial⟩

theorem b_afterName {s : PS} (h : BCore s) {b : Bytes} (hb : PB b) (ch : Option Nat)
    (hc : ∀ c, ch = some c → PN c) : BGood (s.afterName b ch) := by
  unfold PS.afterName
  split
  · exact ⟨h, hb⟩
  split
  · exact ⟨h, hb⟩
  split
  · exact ⟨h, hb⟩
  split
  · exact b_declBody h hb ch hc
  split
  · split
    · exact b_error h
    · split
      · exact b_closeBody h ch
      · exact b_error h
  split
  · exact b_error h
  split
  · exact b_finish (b_addNode h (tree_leaf hb AttrsOk_nil))
  · split
    · exact ⟨h, hb, AttrsOk_nil⟩
    · split
      · exact ⟨h, hb⟩
      · exact b_afterHead h ⟨hb, AttrsOk_nil⟩ _

theorem b_afterAttrName {s : PS} (h : BCore s) {e : Head} (he : HeadOk e) {an : Bytes} (ha : TB an)
    (ch : Option Nat) : BGood (s.afterAttrName e an ch) := by
  have hz := cstr_tail ha
  unfold PS.afterAttrName
  dsimp only
  split
  · exact b_error h
  · split
    · exact b_error h
    · split
      · exact ⟨h, he, hz⟩
      · split
        · exact ⟨h, he, hz⟩
        · exact b_error h

theorem b_afterValue {s : PS} (h : BCore s) {e : Head} (he : HeadOk e) {an av : Bytes}
    (ha : PrintableTail an) (hv : TB av) (ch : Option Nat) : BGood (s.afterValue e an av ch) := by
  have hz := cstr_tail hv
  have he' : HeadOk (e.1, Node.setAttrList an (some (cstr av)) e.2) :=
    ⟨he.1, setAttr_ok ha (fun x ex => by cases ex; exact hz) e.2 he.2⟩
  unfold PS.afterValue
  dsimp only
  split
  · exact ⟨h, he'⟩
  · split
    · exact ⟨h, he'⟩
    · split
      · exact b_afterHead h he' _
      · exact ⟨h, he'⟩

theorem PN_of_not_bad {x : Int} (hb : badChar x = false) : PN x.toNat := by
  unfold badChar at hb
  unfold PN
  simp at hb
  omega

theorem entityChar_ok {acc : Bytes} {v : Nat} (h : entityChar acc = some v) : PN v := by
  have key : ∀ x : Int, (if badChar x then none else some x.toNat) = some v → PN v := by
    intro x hx
    cases hb : badChar x with
    | true => simp [hb] at hx
    | false =>
      simp [hb] at hx
      rw [← hx]
      exact PN_of_not_bad hb
  exact key _ h

theorem b_resume {s : PS} (h : BCore s) (k : PC) (hk : PcOk k) {ch : Nat} (hc : PN ch) :
    BGood (resume s k ch) := by
  have ha := PB_addChar hc
  unfold resume
  split
  · exact ⟨h, PB_append hk ha⟩
  · exact ⟨h, PB_append hk ha⟩
  · exact ⟨h, PB_append hk ha⟩
  · split
    · exact b_afterAttrName h hk.1 (TB_append hk.2 ha) _
    · exact ⟨h, hk.1, TB_append hk.2 ha⟩
  · exact ⟨h, hk.1, TB_append hk.2 ha⟩
  · exact ⟨h, hk.1, hk.2.1, TB_append hk.2.2 ha⟩
  · exact ⟨h, hk.1, hk.2.1, TB_append hk.2.2 ha⟩
  · exact b_error h

theorem b_step {s : PS} (hs : BGood s) (ch : Option Nat) (hc : ∀ c, ch = some c → PN c) :
    BGood (step s ch) := by
  obtain ⟨h, hp⟩ := hs
  unfold step
  split <;> rename_i epc <;> rw [epc] at hp
  · exact ⟨h, hp⟩
  · exact b_finish h
  · -- main
    split
    · exact ⟨b_flush h hp, PB_nil⟩
    · dsimp only
      rename_i buf c _
      have hs1 : BCore (if (isSpace c && !s.opq && !buf.isEmpty) = true then s.flush buf else s) := by
        split
        · exact b_flush h hp
        · exact h
      have hb1 : PB (if (isSpace c && !s.opq && !buf.isEmpty) = true then [] else buf) := by
        split
        · exact PB_nil
        · exact hp
      split
      · exact ⟨hs1, hb1⟩
      · split
        · exact ⟨hs1, PB_append hb1 (PB_addChar (hc _ rfl))⟩
        · exact ⟨hs1, hb1⟩
  · exact b_afterName h hp _ (fun _ e => nomatch e)
  · -- name
    have ha := PB_append hp (PB_addChar (hc _ rfl))
    split
    · exact b_afterName h hp _ hc
    split
    · exact b_error h
    split
    · exact ⟨h, hp⟩
    split
    · exact b_error h
    dsimp only
    split
    · exact b_afterName h ha _ hc
    · exact ⟨h, ha⟩
  · exact b_error h
  · split
    · exact b_addSpecial h hp
    · exact ⟨h, PB_append hp (PB_addChar (hc _ rfl))⟩
  · exact b_error h
  · split
    · exact b_addSpecial h hp
    · exact ⟨h, PB_append hp (PB_addChar (hc _ rfl))⟩
  · exact b_error h
  · split
    · exact b_addDirective h hp
    · exact ⟨h, PB_append hp (PB_addChar (hc _ rfl))⟩
  · exact b_error h
  · exact b_declBody h hp _ hc
  · exact b_closeBody h _
  · split
    · exact b_afterHead (e := (_, [])) h ⟨hp, AttrsOk_nil⟩ _
    · exact b_error h
  · exact b_error h
  · -- attr
    split
    · exact ⟨h, hp⟩
    split
    · exact ⟨h, hp⟩
    split
    · exact b_error h
    split
    · exact b_afterHead h hp _
    split
    · exact ⟨h, hp, TB_one _⟩
    · exact ⟨h, hp, TB_one _⟩
  · split
    · exact b_afterHead h hp _
    · exact b_error h
  · exact b_afterAttrName h hp.1 hp.2 _
  · have ha := TB_append hp.2 (PB_addChar (hc _ rfl))
    split
    · exact ⟨h, hp⟩
    split
    · exact b_afterAttrName h hp.1 ha _
    · exact ⟨h, hp.1, ha⟩
  · exact b_afterAttrName h hp.1 hp.2 _
  · split
    · exact b_afterAttrName h hp.1 hp.2 _
    split
    · exact ⟨h, hp⟩
    · exact ⟨h, hp.1, TB_append hp.2 (PB_addChar (hc _ rfl))⟩
  · exact b_error h
  · split
    · exact ⟨h, hp⟩
    split
    · exact ⟨h, hp⟩
    · exact b_error h
  · exact b_error h
  · split
    · exact ⟨h, hp⟩
    split
    · exact ⟨h, hp.1, hp.2, TB_nil⟩
    · exact ⟨h, hp.1, hp.2, TB_one _⟩
  · exact b_afterValue h hp.1 hp.2.1 hp.2.2 _
  · split
    · exact b_afterValue h hp.1 hp.2.1 hp.2.2 _
    split
    · exact ⟨h, hp⟩
    · exact ⟨h, hp.1, hp.2.1, TB_append hp.2.2 (PB_addChar (hc _ rfl))⟩
  · exact b_afterValue h hp.1 hp.2.1 hp.2.2 _
  · split
    · exact b_afterValue h hp.1 hp.2.1 hp.2.2 _
    split
    · exact ⟨h, hp⟩
    · exact ⟨h, hp.1, hp.2.1, TB_append hp.2.2 (PB_addChar (hc _ rfl))⟩
  · split
    · exact b_afterHead h hp _
    · exact b_error h
  · exact b_error h
  · split
    · split
      · exact ⟨h, hp⟩
      · exact b_error h
    split
    · split
      · exact b_error h
      · rename_i e
        rw [PcOk] at hp
        exact b_resume h _ hp (entityChar_ok e)
    · exact b_error h

theorem b_run {s : PS} (hs : BGood s) (l : List (Option Nat)) (hl : ∀ c, some c ∈ l → PN c) :
    BGood (run s l) := by
  unfold run
  induction l generalizing s with
  | nil => exact hs
  | cons c l ih =>
    exact ih (b_step hs c fun d e => hl d (by rw [e]; simp)) fun d hd => hl d (by simp [hd])

theorem b_init : BGood PS.init := by
  refine ⟨⟨fun f hf => ?_, fun n e => ?_⟩, PB_nil⟩
  · exact absurd hf List.not_mem_nil
  · exact nomatch (show (none : Option Node) = some n from e)

theorem loadData_print {l : List (Option Nat)} (hl : ∀ c, some c ∈ l → PN c) {t : Node}
    (h : loadData l = some t) : PrintableTree t := by
  unfold loadData at h
  have hg := b_run (b_run b_init l hl) [none, none, none] (fun c hc => by simp at hc)
  generalize run (run PS.init l) [none, none, none] = s at *
  unfold PS.result at h
  split at h
  · rename_i r e
    have := hg.2
    rw [e] at this
    exact this t h
  · cases h

theorem badChar_PN {b : Nat} (h : badChar (b : Int) = false) : PN b := by
  unfold badChar at h
  unfold PN
  simp at h
  omega

theorem some_ite {p : Prop} [Decidable p] {c v : Nat}
    (h : some c = if p then none else some v) : ¬ p ∧ c = v := by
  by_cases hp : p
  · rw [if_pos hp] at h; cases h
  · rw [if_neg hp] at h; cases h; exact ⟨hp, rfl⟩

theorem decode_PN (s : Bytes) : ∀ c, some c ∈ decode s → PN c := by
  fun_induction decode s <;> intro c hc
  all_goals first
    | exact absurd hc List.not_mem_nil
    | (rename_i ih; exact ih c hc)
    | (rcases List.mem_cons.mp hc with hc | hc
       · first
         | (cases hc; done)
         | (obtain ⟨hb, rfl⟩ := some_ite hc
            exact badChar_PN (by simpa using hb))
         | (obtain ⟨hb, rfl⟩ := some_ite hc
            unfold PN; omega)
         | (cases hc; unfold PN; omega)
       · first
         | exact absurd hc List.not_mem_nil
         | (rename_i ih _; exact ih c hc))

theorem decodeUnits_PN (s : List (Option Nat)) : ∀ c, some c ∈ decodeUnits s → PN c := by
  fun_induction decodeUnits s <;> intro c hc
  case case1 => exact absurd hc List.not_mem_nil
  case case2 ih =>
    rcases List.mem_cons.mp hc with hc | hc
    · cases hc
    · exact ih c hc
  case case3 ih =>
    rcases List.mem_cons.mp hc with hc | hc
    · cases hc
    · exact ih c hc
  case case4 l r' ih =>
    rcases List.mem_cons.mp hc with hc | hc
    · cases l with
      | none => cases hc
      | some l =>
        simp only [lowHalf] at hc
        split at hc
        · rw [Option.some.inj hc]; unfold PN pairUnits; omega
        · cases hc
    · exact ih c hc
  case case5 => simp at hc
  case case6 hb _ ih =>
    rcases List.mem_cons.mp hc with hc | hc
    · rw [Option.some.inj hc]; unfold badUnit at hb; exact badChar_PN (by simpa using hb)
    · exact ih c hc

theorem decode16_PN (be : Bool) (s : Bytes) : ∀ c, some c ∈ decode16 be s → PN c := decodeUnits_PN _

theorem decodeFile_PN (s : Bytes) : ∀ c, some c ∈ decodeFile s → PN c := by
  fun_induction decodeFile s <;> intro c hc
  all_goals first
    | exact absurd hc List.not_mem_nil
    | exact decode16_PN _ _ c hc
    | (rename_i ih; exact ih c hc)
    | (rcases List.mem_cons.mp hc with hc | hc
       · first
         | (cases hc; done)
         | (obtain ⟨hb, rfl⟩ := some_ite hc
            exact badChar_PN (by simpa using hb))
         | (obtain ⟨hb, rfl⟩ := some_ite hc
            unfold PN; omega)
         | (cases hc; unfold PN; omega)
       · first
         | exact absurd hc List.not_mem_nil
         | (rename_i ih _; exact ih c hc))

end Afs.Xml
