import Verif.Props.C60_Memory
/-!
# C83: read errors that go away

`mxml_file_getc` answers `EOF` also when `getc` fails; nobody looks at `ferror`.  A stream on which a
read failed can be read on, so a reader that asks again after an `EOF` may get the characters behind
it.  Here the results of `getc` are any list: `none` is an `EOF`, at any place, followed by anything.
-/
namespace Afs.Spec
open Afs Xml

/-- The results of `getc`, with read errors in between, for a text that is read as `t` without. -/
def Interrupted (t l : List (Option Nat)) : Prop := l.filter Option.isSome = t.filter Option.isSome

/-- Where the reader is when it reads on after an `EOF`. -/
inductive Place where
  /-- in a value in quotes `q` -/
  | quoted (q : Nat)
  /-- in a value without quotes -/
  | unquoted
  /-- behind `</` and the complete name of the element, before `>` -/
  | closing
  /-- in the first word of `<!…`, or of `<?…` with the `?` written as a character reference -/
  | declaration

/-- The places; everywhere else an `EOF` is the end. -/
def place (s : PS) : Option Place :=
  match s.pc with
  | .qval _ _ q _ => some (.quoted q)
  | .uval _ _ _ => some .unquoted
  | .close => some .closing
  | .name buf =>
    if buf.head? = some 33 ∨ buf.head? = some 63 then some .declaration
    else if buf.head? = some 47 ∧ s.stack.head?.map Frame.name = some (buf.drop 1) then some .closing
    else none
  | _ => none

/-- The character an `EOF` is taken for. -/
def Place.reads : Place → Option Nat
  | .quoted q => some q
  | .unquoted => some 32
  | .closing => some 62
  | .declaration => none

end Afs.Spec

namespace Afs
open Links Spec Xml

theorem run_done_pc {s : PS} {r : Option Node} (h : s.pc = .done r) (l : List (Option Nat)) : (run s l).pc = .done r := by
  induction l generalizing s with
  | nil => exact h
  | cons c l ih =>
    show (run (step s c) l).pc = _
    refine ih ?_
    unfold step
    rw [h]

theorem finish_done (s : PS) : ∃ r, s.finish.pc = .done r := by
  unfold PS.finish
  split <;> exact ⟨_, rfl⟩

theorem eof_ends_outside {s : PS} (h : place s = none) : ∃ r, (step s none).pc = .done r := by
  obtain ⟨pc, st, root, o⟩ := s
  unfold step
  cases pc with
  | done r => exact ⟨r, rfl⟩
  | main b => exact finish_done _
  | name buf =>
    unfold place at h
    simp only at h
    have h0 : ¬ (buf.head? = some 33 ∨ buf.head? = some 63) := by
      intro e
      rw [if_pos e] at h
      cases h
    rw [if_neg h0] at h
    have h33 : buf.head? ≠ some 33 := fun e => h0 (.inl e)
    have h63 : buf.head? ≠ some 63 := fun e => h0 (.inr e)
    have hc : buf ≠ b! "!--" := by rintro rfl; exact h33 rfl
    have hd : buf ≠ Node.cdataOpen := by rintro rfl; exact h33 rfl
    dsimp only
    unfold PS.afterName
    rw [if_neg hc, if_neg hd, if_neg h63, if_neg h33]
    split
    · rename_i h47
      cases st with
      | nil => exact ⟨_, rfl⟩
      | cons f fs =>
        dsimp only
        split
        · rename_i e
          rw [if_pos ⟨h47, by simp [e]⟩] at h
          cases h
        · exact ⟨_, rfl⟩
    · split
      · exact ⟨_, rfl⟩
      · exact finish_done _
  | comment b => exact ⟨_, rfl⟩
  | cdata b => exact ⟨_, rfl⟩
  | pi b => exact ⟨_, rfl⟩
  | decl b => exact ⟨_, rfl⟩
  | close => cases h
  | slash n => exact ⟨_, rfl⟩
  | attr e => exact ⟨_, rfl⟩
  | attrSlash e c => exact ⟨_, rfl⟩
  | qname e q an =>
    dsimp only
    unfold PS.afterAttrName
    dsimp only
    split <;> exact ⟨_, rfl⟩
  | aname e an =>
    dsimp only
    unfold PS.afterAttrName
    dsimp only
    split <;> exact ⟨_, rfl⟩
  | aeq e an => exact ⟨_, rfl⟩
  | vskip e an => exact ⟨_, rfl⟩
  | qval e an q av => cases h
  | uval e an av => cases h
  | valSlash e c => exact ⟨_, rfl⟩
  | ent k a => exact ⟨_, rfl⟩

theorem eof_reads {s : PS} {p : Place} {c : Nat} (h : place s = some p) (hc : p.reads = some c) (hq : ∀ q, p = .quoted q → q = 34 ∨ q = 39) :
    step s none = step s (some c) := by
  obtain ⟨pc, st, root, o⟩ := s
  cases pc with
  | qval e an q av =>
    cases h
    cases hc
    unfold step
    dsimp only
    rw [if_pos rfl]
    rcases hq _ rfl with e | e <;> rw [e] <;> rfl
  | uval e an av =>
    cases h
    cases hc
    rfl
  | close =>
    cases h
    cases hc
    rfl
  | name buf =>
    unfold place at h
    dsimp only at h
    split at h
    · cases h; cases hc
    · split at h
      · rename_i h47
        cases h
        cases hc
        cases st with
        | nil => cases h47.2
        | cons f fs =>
          have e : buf.drop 1 = f.name := by
            have := h47.2
            simpa using this.symm
          have a : ∀ ch, PS.afterName ⟨.name buf, f :: fs, root, o⟩ buf ch = PS.closeBody ⟨.name buf, f :: fs, root, o⟩ ch := by
            intro ch
            cases buf with
            | nil => cases h47.1
            | cons x l =>
              have hx : x = 47 := by simpa using h47.1
              subst hx
              simp only [List.drop_succ_cons, List.drop_zero] at e
              simp [PS.afterName, e, Node.cdataOpen]
          unfold step
          dsimp only
          rw [a none, a (some 62)]
          rfl
      · cases h
  | _ => cases h

/-- The quotes the reader knows. -/
def QuoteOk : PC → Prop
  | .qval _ _ q _ => q = 34 ∨ q = 39
  | .ent k _ => QuoteOk k
  | _ => True

theorem q_finish (s : PS) : QuoteOk s.finish.pc := by obtain ⟨r, h⟩ := finish_done s; rw [h]; trivial

theorem q_pop (s : PS) : QuoteOk s.pop.pc := by unfold PS.pop; split <;> trivial

theorem q_afterHead (s : PS) (e : Head) (c : Nat) : QuoteOk (s.afterHead e c).pc := by unfold PS.afterHead; split <;> trivial

theorem q_addSpecial (s : PS) (b : Bytes) : QuoteOk (s.addSpecial b).pc := by unfold PS.addSpecial; split <;> trivial

theorem q_addDirective (s : PS) (b : Bytes) : QuoteOk (s.addDirective b).pc := by
  unfold PS.addDirective
  split
  · trivial
  · split <;> trivial

theorem q_declBody (s : PS) (b : Bytes) (c : Option Nat) : QuoteOk (s.declBody b c).pc := by
  unfold PS.declBody
  cases c with
  | none => trivial
  | some c =>
    dsimp only
    split
    · exact q_addDirective s b
    · split <;> trivial

theorem q_closeBody (s : PS) (c : Option Nat) : QuoteOk (s.closeBody c).pc := by
  unfold PS.closeBody
  cases c with
  | none => exact q_pop s
  | some c =>
    dsimp only
    split
    · exact q_pop s
    · trivial

theorem q_afterName (s : PS) (b : Bytes) (c : Option Nat) : QuoteOk (s.afterName b c).pc := by
  unfold PS.afterName
  split
  · trivial
  split
  · trivial
  split
  · trivial
  split
  · exact q_declBody s b c
  split
  · cases s.stack with
    | nil => trivial
    | cons f fs =>
      dsimp only
      split
      · exact q_closeBody s c
      · trivial
  split
  · trivial
  cases c with
  | none => exact q_finish _
  | some c =>
    dsimp only
    split
    · trivial
    split
    · trivial
    exact q_afterHead _ _ _

theorem q_afterAttrName (s : PS) (e : Head) (an : Bytes) (c : Option Nat) : QuoteOk (s.afterAttrName e an c).pc := by
  unfold PS.afterAttrName
  dsimp only
  split
  · trivial
  cases c with
  | none => trivial
  | some c =>
    dsimp only
    split
    · trivial
    split <;> trivial

theorem q_afterValue (s : PS) (e : Head) (an av : Bytes) (c : Option Nat) : QuoteOk (s.afterValue e an av c).pc := by
  unfold PS.afterValue
  cases c with
  | none => trivial
  | some c =>
    dsimp only
    split
    · trivial
    split
    · exact q_afterHead _ _ _
    · trivial

theorem q_resume (s : PS) (k : PC) (c : Nat) (h : QuoteOk k) : QuoteOk (resume s k c).pc := by
  cases k with
  | qval e an q av => exact h
  | qname e q an =>
    unfold resume
    dsimp only
    split
    · exact q_afterAttrName _ _ _ _
    · trivial
  | _ => trivial

theorem q_step (s : PS) (ch : Option Nat) (h : QuoteOk s.pc) : QuoteOk (step s ch).pc := by
  obtain ⟨pc, st, root, o⟩ := s
  cases pc <;> cases ch <;> unfold step <;> dsimp only
  all_goals first
    | trivial
    | exact h
    | exact q_finish _
    | exact q_afterName _ _ _
    | exact q_closeBody _ _
    | exact q_afterAttrName _ _ _ _
    | exact q_afterValue _ _ _ _ _
    | exact q_declBody _ _ _
    | skip
  all_goals (repeat' split)
  all_goals first
    | trivial
    | exact h
    | exact q_finish _
    | exact q_afterName _ _ _
    | exact q_afterHead _ _ _
    | exact q_addSpecial _ _
    | exact q_addDirective _ _
    | exact q_closeBody _ _
    | exact q_afterAttrName _ _ _ _
    | exact q_afterValue _ _ _ _ _
    | exact q_resume _ _ _ h
    | (rename_i e; exact e.symm)
    | (rename_i e; exact e)

theorem q_run (l : List (Option Nat)) (s : PS) (h : QuoteOk s.pc) : QuoteOk (run s l).pc := by
  induction l generalizing s with
  | nil => exact h
  | cons c l ih => exact ih (step s c) (q_step s c h)

theorem quotes (l : List (Option Nat)) (q : Nat) (h : place (run PS.init l) = some (.quoted q)) : q = 34 ∨ q = 39 := by
  have := q_run l PS.init trivial
  revert this h
  generalize run PS.init l = s
  obtain ⟨pc, st, root, o⟩ := s
  intro h hq
  cases pc with
  | qval e an q' av => cases h; exact hq
  | name buf =>
    unfold place at h
    dsimp only at h
    split at h
    · cases h
    · split at h <;> cases h
  | _ => cases h

theorem loadData_split (p q : List (Option Nat)) : loadData (p ++ q) = (run (run (run PS.init p) q) [none, none, none]).result := by
  simp [loadData, run]

/-- Behind an `EOF` outside these places nothing is read: whatever would come, the result is that of the text up to there. -/
theorem C83_end (p q : List (Option Nat)) (h : place (run PS.init p) = none) : loadData (p ++ none :: q) = loadData p := by
  obtain ⟨r, hr⟩ := eof_ends_outside h
  have e1 : loadData (p ++ none :: q) = r := by
    rw [loadData_split]
    have : (run (run (run PS.init p) (none :: q)) [none, none, none]).pc = .done r := run_done_pc (run_done_pc hr q) _
    rw [PS.result, this]
  have e2 : loadData p = r := by
    have : (run (run PS.init p) [none, none, none]).pc = .done r := run_done_pc hr [none, none]
    rw [loadData, PS.result, this]
  rw [e1, e2]

/-- In these places the `EOF` is taken for a character: the closing quote of a value in quotes, a space behind a value without, the `>` of a closing tag. -/
theorem C83_taken_for (p q : List (Option Nat)) (w : Place) (c : Nat) (h : place (run PS.init p) = some w) (hc : w.reads = some c) :
    loadData (p ++ none :: q) = loadData (p ++ some c :: q) := by
  have : step (run PS.init p) none = step (run PS.init p) (some c) := eof_reads h hc fun q e => quotes p q (by rw [h, e])
  rw [loadData_split, loadData_split]
  show (run (run (step (run PS.init p) none) q) _).result = (run (run (step (run PS.init p) (some c)) q) _).result
  rw [this]

/-- So every `EOF` is the end, or stands for one of four characters (a quote, a space, `>`), or is in the first word of `<!…` or `<?…`. -/
theorem C83_three_ways (p q : List (Option Nat)) :
    loadData (p ++ none :: q) = loadData p ∨ (∃ c, (c = 34 ∨ c = 39 ∨ c = 32 ∨ c = 62) ∧ loadData (p ++ none :: q) = loadData (p ++ some c :: q)) ∨
      place (run PS.init p) = some .declaration := by
  cases h : place (run PS.init p) with
  | none => exact .inl (C83_end p q h)
  | some w =>
    cases w with
    | quoted q' =>
      refine .inr (.inl ⟨q', ?_, C83_taken_for p q _ q' h rfl⟩)
      rcases quotes p q' h with e | e
      · exact .inl e
      · exact .inr (.inl e)
    | unquoted => exact .inr (.inl ⟨32, by simp, C83_taken_for p q _ 32 h rfl⟩)
    | closing => exact .inr (.inl ⟨62, by simp, C83_taken_for p q _ 62 h rfl⟩)
    | declaration => exact .inr (.inr rfl)

/-- However many errors there are: memory stays safe, as in C60. -/
theorem C83_memory {A : Heap → Nat} (hA : Fresh A) {h0 : Heap} {kids0 : Nat → List Nat} (L : Linked h0 kids0) (s : Bytes) (l : List (Option Nat))
    (hl : Interrupted (decodeFile s) l) (hn : l.length ≤ 500000000) :
    ∃ h' r, (∃ m, ∀ k, m ≤ k → ParseMem.load A k h0 l = some (.ok (h', r))) ∧ Untouched h0 h' ∧
      (∀ n, loadData l = some n → NewTree h0 h' r n) ∧ (loadData l = none → r = none ∧ (NothingNew h0 h' ∨ OneNew h0 h')) := by
  have hz : ∀ c, some c ∈ l → PN c := by
    intro c hc
    have : some c ∈ l.filter Option.isSome := List.mem_filter.mpr ⟨hc, rfl⟩
    rw [hl] at this
    exact decodeFile_PN s c (List.mem_filter.mp this).1
  obtain ⟨h', r, h1, h2, h3, h4⟩ := C60_of_list hA L hz hn
  exact ⟨h', r, h1, h2, h3, fun e => ⟨(h4 e).1, (h4 e).2.imp_right And.left⟩⟩

/-! ### Examples -/

/-- The text with a read error before its `k`-th character (from 0). -/
def failing (s : Bytes) (k : Nat) : List (Option Nat) := (decodeFile s).take k ++ none :: (decodeFile s).drop k

theorem failing_interrupted (s : Bytes) (k : Nat) : Interrupted (decodeFile s) (failing s k) := by
  unfold Interrupted failing
  rw [List.filter_append, List.filter_cons_of_neg (by simp), ← List.filter_append, List.take_append_drop]

/-- An error in a text is the end: as `<r><a>te`. -/
example : place (run PS.init ((decodeFile (b! "<r><a>text</a></r>")).take 8)) = none ∧ loadData (failing (b! "<r><a>text</a></r>") 8) = none := by
  constructor <;> decide +kernel

/-- In a value in quotes: what is behind is read as another attribute, and the document is accepted. -/
theorem C83_other_document :
    loadFile (b! "<a x='1 y=2'/>") = some (.elem (b! "a") [(b! "x", some (b! "1 y=2"))] []) ∧
    loadData (failing (b! "<a x='1 y=2'/>") 7) = some (.elem (b! "a") [(b! "x", some (b! "1")), (b! "y", some (b! "2'"))] []) := by
  constructor <;> decide +kernel

/-- Before the `>` of a closing tag: the `>` becomes text. -/
theorem C83_other_text :
    loadFile (b! "<a><b></b></a>") = some (.elem (b! "a") [] [.elem (b! "b") [] []]) ∧
    loadData (failing (b! "<a><b></b></a>") 9) = some (.elem (b! "a") [] [.elem (b! "b") [] [], .text (b! ">")]) := by
  constructor <;> decide +kernel

/-- In the first word of a declaration: a byte that is not in the text is put in. -/
theorem C83_other_declaration :
    loadData (failing (b! "<!DOCTYPE a><a/>") 5) = some (.elem (b! "!DOC" ++ [255] ++ b! "TYPE a") [] [.elem (b! "a") [] []]) := by
  decide +kernel

end Afs
