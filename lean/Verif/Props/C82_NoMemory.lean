import Verif.Proof.ParseOom4
import Verif.Props.C60_Memory
/-!
# C82: running out of memory while reading XML
-/
namespace Afs
open Links Spec Xml ParseMem

/-- What is read: the characters of the text, and then `EOF` for the three calls of `getc` there can be at most.  With every character come the requests for memory that are
    refused while it is handled. -/
structure Reading (l : List (Option Nat × Refusals)) (t : List (Option Nat)) : Prop where
  chars : l.map Prod.fst = t ++ [none, none, none]

/-- The growth of a buffer is asked for and refused. -/
def GrowthRefused (A : Heap → Nat) (h : Heap) (l : List (Option Nat × Refusals)) : Prop := SomeRefused A (MS.init h) l

/-- A text of a string or a file, of up to 250 million bytes. -/
def TextOf (t : List (Option Nat)) : Prop := ∃ s : Bytes, s.length ≤ 250000000 ∧ (t = decode s ∨ t = decodeFile s)

theorem TextOf.good {t : List (Option Nat)} (h : TextOf t) : some 0 ∉ t ∧ t.length ≤ 250000000 := by
  obtain ⟨s, hs, rfl | rfl⟩ := h
  · exact ⟨PN_ne (decode_PN s), Nat.le_trans (decode_length s) hs⟩
  · exact ⟨PN_ne (decodeFile_PN s), Nat.le_trans (decodeFile_length s) hs⟩

theorem Reading.split {l : List (Option Nat × Refusals)} {t : List (Option Nat)} (h : Reading l t) :
    ∃ a b, l = a ++ b ∧ a.map Prod.fst = t ∧ b.map Prod.fst = [none, none, none] := by
  have e := h.chars
  rw [List.map_eq_append_iff] at e
  obtain ⟨a, b, h1, h2, h3⟩ := e
  exact ⟨a, b, h1, h2, h3⟩

/-- Whatever nodes, attribute buffers and attribute arrays are refused, whenever: as long as no growth of a buffer is refused the function comes to an end without undefined
    behaviour, nothing that was there before changes, and the result is either NULL, with one node left over at most, or the root of one tree, whose nodes are exactly the new
    ones. -/
theorem C82_no_growth_refused {A : Heap → Nat} (hA : Fresh A) {h0 : Heap} {kids0 : Nat → List Nat} (L : Linked h0 kids0) {t : List (Option Nat)} (ht : TextOf t)
    {l : List (Option Nat × Refusals)} (hl : Reading l t) (hg : ¬ GrowthRefused A h0 l) :
    ∃ h' r, (∃ m, ∀ k, m ≤ k → loadNo A k h0 false l = some (.ok (h', r))) ∧ Untouched h0 h' ∧
      (r = none ∧ (NothingNew h0 h' ∨ OneNew h0 h') ∨ ∃ n, NewTree h0 h' r n) := by
  obtain ⟨hz, hlen⟩ := ht.good
  have hll : l.length = t.length + 3 := by
    have := congrArg List.length hl.chars
    simpa using this
  have hz' : ∀ c ∈ l, c.1 ≠ some 0 := by
    intro c hc e
    have : some 0 ∈ l.map Prod.fst := List.mem_map.mpr ⟨c, hc, e⟩
    rw [hl.chars] at this
    simp at this
    exact hz this
  obtain ⟨s, m, e, S⟩ := run_safe hA l (sim_init L 4) (by omega) (by omega) hz' hg
  obtain ⟨a, b, rfl, _, hb⟩ := hl.split
  have hend : rank m.pc = 0 := by
    rw [runNo_append] at e
    cases e1 : (MS.init h0).runNo A a with
    | ub => rw [e1] at e; cases e
    | ok m1 =>
      rw [e1, Res.ok_bind] at e
      refine eof_ends A (fun c hc => ?_) ?_ e
      · have : c.1 ∈ b.map Prod.fst := List.mem_map.mpr ⟨c, hc, rfl⟩
        rw [hb] at this
        simpa using this
      · have := congrArg List.length hb
        simp at this
        omega
  unfold loadNo
  rw [e]
  simp only [Bool.false_eq_true, if_false]
  have fin : ∀ {n : Option Node}, (∃ h' r, (∃ k0, ∀ k, k0 ≤ k → leave k m = some (.ok (h', r))) ∧ Good2 True h0 kids0 h' r n) →
      ∃ h' r, (∃ k0, ∀ k, k0 ≤ k → leave k m = some (.ok (h', r))) ∧ Untouched h0 h' ∧
        (r = none ∧ (NothingNew h0 h' ∨ OneNew h0 h') ∨ ∃ n, NewTree h0 h' r n) := by
    rintro n ⟨h', r, h1, h2⟩
    refine ⟨h', r, h1, ?_⟩
    cases n with
    | none => exact ⟨h2.2.1, .inl ⟨h2.1, h2.2.2.imp_right And.right⟩⟩
    | some n =>
      obtain ⟨h3, h4⟩ := result_new L h2
      exact ⟨h3, .inr ⟨n, h4⟩⟩
  cases S with
  | run R C => cases R <;> cases hend
  | close => cases hend
  | @eof _ _ _ _ _ _ q _ _ C =>
    obtain ⟨n, hn⟩ : ∃ n, q.finish.pc = .done n := by
      unfold PS.finish
      split <;> exact ⟨_, rfl⟩
    exact fin (leave_eof L q C hn)
  | fail C hd =>
    obtain ⟨h', h1, h2⟩ := leave_fail L C hd
    exact fin (n := none) ⟨h', none, h1, rfl, h2⟩

/-- So nothing bad happens when all growths are granted, whatever else is refused. -/
theorem C82_growths_granted {A : Heap → Nat} (hA : Fresh A) {h0 : Heap} {kids0 : Nat → List Nat} (L : Linked h0 kids0) {t : List (Option Nat)} (ht : TextOf t)
    {l : List (Option Nat × Refusals)} (hl : Reading l t) (hg : ∀ c ∈ l, c.2 .grow = false) :
    ∃ h' r, (∃ m, ∀ k, m ≤ k → loadNo A k h0 false l = some (.ok (h', r))) ∧ Untouched h0 h' ∧
      (r = none ∧ (NothingNew h0 h' ∨ OneNew h0 h') ∨ ∃ n, NewTree h0 h' r n) := by
  refine C82_no_growth_refused hA L ht hl ?_
  rintro ⟨p, c, q, m', rfl, _, h⟩
  refine h ?_
  have : growing c.2 = c.2 := by
    funext r
    unfold growing
    cases r <;> simp [hg c (by simp)]
  rw [this]

/-- A refused growth is undefined behaviour, whatever else happens: `mxml_add_char` frees the buffer, and the caller frees it again. -/
theorem C82_growth_refused {A : Heap → Nat} {h0 : Heap} {l : List (Option Nat × Refusals)} (hg : GrowthRefused A h0 l) (k : Nat) :
    loadNo A k h0 false l = some .ub := by
  unfold loadNo
  exact load_refused hg k

/-- Hence the reader is safe just when no growth is refused. -/
theorem C82_safe_iff {A : Heap → Nat} (hA : Fresh A) {h0 : Heap} {kids0 : Nat → List Nat} (L : Linked h0 kids0) {t : List (Option Nat)} (ht : TextOf t)
    {l : List (Option Nat × Refusals)} (hl : Reading l t) :
    (∃ h' r m, ∀ k, m ≤ k → loadNo A k h0 false l = some (.ok (h', r))) ↔ ¬ GrowthRefused A h0 l := by
  constructor
  · rintro ⟨h', r, m, h⟩ hg
    have := h m (Nat.le_refl m)
    rw [C82_growth_refused hg] at this
    cases this
  · intro hg
    obtain ⟨h', r, ⟨m, h⟩, _⟩ := C82_no_growth_refused hA L ht hl hg
    exact ⟨h', r, m, h⟩

/-- If the very first request is refused, the result is NULL and nothing has changed. -/
theorem C82_first_refused (A : Heap → Nat) (k : Nat) (h : Heap) (l : List (Option Nat × Refusals)) : loadNo A k h true l = some (.ok (h, none)) := rfl

/-- When nothing is refused this is the reader of C60. -/
theorem C82_nothing_refused (A : Heap → Nat) (k : Nat) (h : Heap) (t : List (Option Nat)) :
    loadNo A k h false ((t ++ [none, none, none]).map (·, nothing)) = ParseMem.load A k h t := by
  unfold loadNo ParseMem.load
  rw [runNo_nothing]
  rfl

/-- The node of a comment is asked for and refused: the reader is in a comment, reads `ch`, and does something else than it would if it got the node. -/
def CommentRefused (A : Heap → Nat) (h : Heap) (l : List (Option Nat × Refusals)) : Prop :=
  ∃ p c q m, l = p ++ c :: q ∧ (MS.init h).runNo A p = .ok m ∧ m.pc = .comment ∧ m.stepNo A c.2 c.1 ≠ m.step A c.1

theorem all_or_nothing_run (A : Heap → Nat) : ∀ (l : List (Option Nat × Refusals)) (m : MS), (∀ c ∈ l, Kinds c.2) →
    (∀ p c q m', l = p ++ c :: q → m.runNo A p = .ok m' → m'.pc = .comment → m'.stepNo A c.2 c.1 = m'.step A c.1) →
    m.runNo A l = m.run A (l.map Prod.fst) ∨ ∃ m', m.runNo A l = .ok m' ∧ m'.pc = .fail none
  | [], m, _, _ => .inl rfl
  | c :: l, m, hk, hc => by
    rw [List.map_cons, MS.runNo, MS.run]
    rcases step_ez (A := A) (hk c (by simp)) m c.1 with e | ⟨m', e, e1 | e1⟩
    · rw [e]
      cases hs : m.step A c.1 with
      | ub => exact .inl rfl
      | ok m1 =>
        rw [Res.ok_bind, Res.ok_bind]
        refine all_or_nothing_run A l m1 (fun d hd => hk d (by simp [hd])) fun p d q m' e1 e2 e3 => ?_
        exact hc (c :: p) d q m' (by rw [e1]; rfl) (by rw [MS.runNo, e, hs, Res.ok_bind, e2]) e3
    · refine .inr ⟨m', ?_, e1⟩
      rw [e, Res.ok_bind, run_fail l m' e1]
    · have := hc [] c l m rfl rfl e1.1
      rw [this]
      cases hs : m.step A c.1 with
      | ub => exact .inl rfl
      | ok m1 =>
        rw [Res.ok_bind, Res.ok_bind]
        refine all_or_nothing_run A l m1 (fun d hd => hk d (by simp [hd])) fun p d q m' e1 e2 e3 => ?_
        exact hc (c :: p) d q m' (by rw [e1]; rfl) (by rw [MS.runNo, this, hs, Res.ok_bind, e2]) e3

theorem leave_null {m : MS} (h : m.pc = .fail none) {k : Nat} {h' : Heap} {r : Option Nat} (e : leave k m = some (.ok (h', r))) : r = none := by
  obtain ⟨pc, h, p, f, o, b, a, v⟩ := m
  cases h
  unfold leave at e
  cases b with
  | none => cases e
  | some b =>
    cases a with
    | some a => cases e
    | none =>
      cases v with
      | some v => cases e
      | none =>
        dsimp only at e
        split at e
        · cases e
        · cases e
        · split at e <;> cases e
          rfl

/-- All or nothing: if only nodes, other than those of comments, and attribute buffers are refused, then the result is NULL or exactly what it is when nothing is refused. -/
theorem C82_all_or_nothing {A : Heap → Nat} {h0 : Heap} {t : List (Option Nat)} {l : List (Option Nat × Refusals)} (hl : Reading l t)
    (hk : ∀ c ∈ l, c.2 .grow = false ∧ c.2 .attr = false) (hc : ¬ CommentRefused A h0 l) {k : Nat} {h' : Heap} {r : Option Nat}
    (h : loadNo A k h0 false l = some (.ok (h', r))) : r = none ∨ ParseMem.load A k h0 t = some (.ok (h', r)) := by
  unfold loadNo at h
  unfold ParseMem.load
  simp only [Bool.false_eq_true, if_false] at h
  rcases all_or_nothing_run A l (MS.init h0) hk (fun p c q m e1 e2 e3 => by
    by_cases e : m.stepNo A c.2 c.1 = m.step A c.1
    · exact e
    · exact absurd ⟨p, c, q, m, e1, e2, e3, e⟩ hc) with e | ⟨m', e, e1⟩
  · rw [e, hl.chars] at h
    exact .inr h
  · rw [e] at h
    exact .inl (leave_null e1 h)

/-! ### Examples -/

/-- Only this request is refused. -/
def only (r : Request) : Refusals := fun q => q == r

/-- The text, where the `n`-th character (from 0) comes with a refusal of `r`. -/
def refusing (s : Bytes) (n : Nat) (r : Request) : List (Option Nat × Refusals) :=
  (decode s ++ [none, none, none]).mapIdx fun i c => (c, if i = n then only r else nothing)

theorem refusing_reading (s : Bytes) (n : Nat) (r : Request) : Reading (refusing s n r) (decode s) := by
  constructor
  unfold refusing
  apply List.ext_getElem <;> simp

/-- What is allocated behind such a call, when nothing was before. -/
def leftRefusing (s : Bytes) (n : Nat) (r : Request) : Option (Res (Option Nat × List (Option Data))) :=
  match loadNo firstFree 9 (fun _ => none) false (refusing s n r) with
  | some (.ok (h, r)) => some (.ok (r, (List.range 6).map (fun a => (h a).map Cell.data)))
  | some .ub => some .ub
  | none => none

/-- A refused node: NULL, and nothing is left over (`<b` ends at the character 5). -/
example : leftRefusing (b! "<a><b/></a>") 5 .node = some (.ok (none, [none, none, none, none, none, none])) := by decide +kernel

/-- A refused buffer for the attributes of the root element: NULL, and the element is lost. -/
example : leftRefusing (b! "<a x='1'/>") 2 .name = some (.ok (none, [some (.elem (b! "a") []), none, none, none, none, none])) := by decide +kernel

example : leftRefusing (b! "<a x='1'/>") 2 .value = some (.ok (none, [some (.elem (b! "a") []), none, none, none, none, none])) := by decide +kernel

/-- For another element nothing is lost. -/
example : leftRefusing (b! "<r><a x='1'/></r>") 5 .name = some (.ok (none, [none, none, none, none, none, none])) := by decide +kernel

/-- A refused growth, in a text of 65 bytes: undefined behaviour. -/
example : leftRefusing (b! "<a>0123456789012345678901234567890123456789012345678901234567890123456789</a>") 63 .grow = some .ub := by decide +kernel

/-- If it comes while the buffer has room still, nothing is asked for and the document is read. -/
example : leftRefusing (b! "<a>0123456789012345678901234567890123456789012345678901234567890123456789</a>") 62 .grow =
    some (.ok (some 0, [some (.elem (b! "a") []), some (.text (b! "0123456789012345678901234567890123456789012345678901234567890123456789")), none, none, none, none])) := by
  decide +kernel

/-- Two refusals that nobody is told of.  A refused array for the attributes: the document is read without the attribute. -/
theorem C82_attribute_dropped :
    leftRefusing (b! "<a x='1'/>") 7 .attr = some (.ok (some 0, [some (.elem (b! "a") []), none, none, none, none, none])) ∧
    leftRefusing (b! "<a x='1'/>") 9 .attr = some (.ok (some 0, [some (.elem (b! "a") [(b! "x", some (b! "1"))]), none, none, none, none, none])) := by
  constructor <;> decide +kernel

/-- A refused node for a comment in the root element: the document is cut off behind the comment, and taken for complete.  (Text `<a><!--c--><b/></a>`; with the node granted,
    `b` is there.) -/
theorem C82_cut_behind_comment :
    leftRefusing (b! "<a><!--c--><b/></a>") 10 .node = some (.ok (some 0, [some (.elem (b! "a") []), none, none, none, none, none])) ∧
    leftRefusing (b! "<a><!--c--><b/></a>") 11 .node =
      some (.ok (some 0, [some (.elem (b! "a") []), some (.elem (b! "!--c--") []), some (.elem (b! "b") []), none, none, none])) := by
  constructor <;> decide +kernel

/-- So the conditions of `C82_all_or_nothing` are needed, and here is a case that meets them: the result is NULL because a node is refused, where the whole document would be read. -/
example : (∀ c ∈ refusing (b! "<a><b/></a>") 5 .node, c.2 .grow = false ∧ c.2 .attr = false) ∧
    leftAfter (b! "<a><b/></a>") = some (some 0, [some (.elem (b! "a") []), some (.elem (b! "b") []), none, none, none, none, none, none, none]) := by
  constructor
  · decide +kernel
  · decide +kernel

end Afs
