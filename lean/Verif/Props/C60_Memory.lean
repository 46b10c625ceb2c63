import Verif.Proof.ParseMem7
import Verif.Props.C20_C21_Xml
import Verif.Proof.XmlBytes
/-!
# C60: reading XML is memory safe
-/
namespace Afs
open Links Spec Xml

/-- `malloc` answers with memory that is not in use. -/
def Fresh (A : Heap → Nat) : Prop := ∀ h kids, Linked h kids → h (A h) = none

theorem decode_length (s : Bytes) : (decode s).length ≤ s.length := by
  fun_induction decode s <;> simp only [List.length_cons, List.length_nil] at * <;> omega

theorem decodeUnits_length (s : List (Option Nat)) : (decodeUnits s).length ≤ s.length := by
  fun_induction decodeUnits s <;> simp only [List.length_cons, List.length_nil] at * <;> omega

theorem units16_length (be : Bool) (s : Bytes) : (units16 be s).length ≤ s.length := by
  fun_induction units16 be s <;> simp only [List.length_cons, List.length_nil] at * <;> omega

theorem decode16_length (be : Bool) (s : Bytes) : (decode16 be s).length ≤ s.length :=
  Nat.le_trans (decodeUnits_length _) (units16_length be s)

theorem decodeFile_length (s : Bytes) : (decodeFile s).length ≤ s.length := by
  fun_induction decodeFile s <;> simp only [List.length_cons, List.length_nil] at * <;> first
    | omega
    | exact Nat.le_trans (decode16_length _ _) (by omega)

theorem PN_ne {l : List (Option Nat)} (h : ∀ c, some c ∈ l → PN c) : some 0 ∉ l := by
  intro e
  have := h 0 e
  unfold PN at this
  omega

/-- The reader comes to a place where an error costs a node, and there the error is. -/
def Loses (l : List (Option Nat)) : Prop := ∃ p c q, l ++ [none, none, none] = p ++ c :: q ∧ Losing (run PS.init p) c

theorem C60_of_list {A : Heap → Nat} (hA : Fresh A) {h0 : Heap} {kids0 : Nat → List Nat} (L : Linked h0 kids0)
    {l : List (Option Nat)} (hz : ∀ c, some c ∈ l → PN c) (hl : l.length ≤ 500000000) :
    ∃ h' r, (∃ m, ∀ k, m ≤ k → ParseMem.load A k h0 l = some (.ok (h', r))) ∧ Untouched h0 h' ∧
      (∀ n, loadData l = some n → NewTree h0 h' r n) ∧
      (loadData l = none → r = none ∧ (NothingNew h0 h' ∨ OneNew h0 h' ∧ Loses l)) := by
  obtain ⟨h', r, e, g⟩ := ParseMem.load_spec (P := Loses l) hA L l (PN_ne hz) (by omega)
    (fun p c q e h => ⟨p, c, q, e, h⟩) (C21_reader_always_returns l)
  refine ⟨h', r, e, ?_⟩
  cases hn : loadData l with
  | none =>
    rw [hn] at g
    exact ⟨g.2.1, by simp, fun _ => ⟨g.1, g.2.2.imp_right And.symm⟩⟩
  | some n =>
    rw [hn] at g
    obtain ⟨h1, h2⟩ := ParseMem.result_new L g
    exact ⟨h1, fun m hm => by cases hm; exact h2, by simp⟩

/-- Reading a text of up to 500 million bytes, whatever they are, into any memory: the function comes
    to an end without touching memory that is not its own (no buffer is overrun or read before it is
    written, no node is used after it was freed or freed twice), and nothing that was there before
    changes.  If the text is accepted, the new nodes are exactly those of one tree that says what
    `loadString` says, and the result is its root.  If it is refused, the result is NULL and all nodes
    are freed, but for one node at most, and that only if the error is in the attributes of the root
    element or is a tag behind text behind the root element. -/
theorem C60_read_string {A : Heap → Nat} (hA : Fresh A) {h0 : Heap} {kids0 : Nat → List Nat} (L : Linked h0 kids0)
    (s : Bytes) (hs : s.length ≤ 500000000) :
    ∃ h' r, (∃ m, ∀ k, m ≤ k → ParseMem.load A k h0 (decode s) = some (.ok (h', r))) ∧ Untouched h0 h' ∧
      (∀ n, loadString s = some n → NewTree h0 h' r n) ∧
      (loadString s = none → r = none ∧ (NothingNew h0 h' ∨ OneNew h0 h' ∧ Loses (decode s))) :=
  C60_of_list hA L (decode_PN s) (Nat.le_trans (decode_length s) hs)

/-- The same for files. -/
theorem C60_read_file {A : Heap → Nat} (hA : Fresh A) {h0 : Heap} {kids0 : Nat → List Nat} (L : Linked h0 kids0)
    (s : Bytes) (hs : s.length ≤ 500000000) :
    ∃ h' r, (∃ m, ∀ k, m ≤ k → ParseMem.load A k h0 (decodeFile s) = some (.ok (h', r))) ∧ Untouched h0 h' ∧
      (∀ n, loadFile s = some n → NewTree h0 h' r n) ∧
      (loadFile s = none → r = none ∧ (NothingNew h0 h' ∨ OneNew h0 h' ∧ Loses (decodeFile s))) :=
  C60_of_list hA L (decodeFile_PN s) (Nat.le_trans (decodeFile_length s) hs)

/-- Reading and then deleting the result leaves the memory as it was: nothing is left over. -/
theorem C60_read_then_delete {A : Heap → Nat} (hA : Fresh A) {h0 : Heap} {kids0 : Nat → List Nat} (L : Linked h0 kids0)
    (l : List (Option Nat)) (s : Bytes) (hl : l = decode s ∨ l = decodeFile s) (hs : s.length ≤ 500000000) (n : Node)
    (hn : loadData l = some n) :
    ∃ h1 r, (∃ m, ∀ k, m ≤ k → ParseMem.load A k h0 l = some (.ok (h1, r))) ∧
      (∃ m, ∀ k, m ≤ k → ∃ log, Links.delete k h1 r = some (.ok (h0, log))) := by
  have hz : ∀ c, some c ∈ l → PN c := by
    rcases hl with rfl | rfl
    · exact decode_PN s
    · exact decodeFile_PN s
  have hlen : l.length ≤ s.length := by
    rcases hl with rfl | rfl
    · exact decode_length s
    · exact decodeFile_length s
  obtain ⟨h1, r, e, g⟩ := ParseMem.load_spec (P := True) hA L l (PN_ne hz) (by omega)
    (fun _ _ _ _ _ => trivial) (C21_reader_always_returns l)
  rw [hn] at g
  obtain ⟨m, hm⟩ := ParseMem.result_delete L g
  refine ⟨h1, r, e, m, fun k hk => ?_⟩
  have := hm k hk
  unfold ParseMem.del at this
  cases hd : Links.delete k h1 r with
  | none => rw [hd] at this; cases this
  | some v =>
    rw [hd] at this
    cases v with
    | ub => cases this
    | ok p =>
      simp only [Option.some.injEq, Res.ok.injEq] at this
      exact ⟨p.2, by rw [← this]⟩

/-- There is such a `malloc`. -/
theorem C60_fresh_exists : ∃ A, Fresh A := by
  classical
  refine ⟨fun h => if p : ∃ a, h a = none then p.choose else 0, fun h kids L => ?_⟩
  have : ∃ a, h a = none := by
    obtain ⟨l, hl⟩ := L.finite
    by_cases e : ∃ a, h a = none
    · exact e
    · exfalso
      have hall : ∀ a, a ∈ l := fun a => hl a (fun e' => e ⟨a, e'⟩)
      have hbound : ∀ (l : List Nat), ∃ b, ∀ a ∈ l, a < b := by
        intro l
        induction l with
        | nil => exact ⟨0, by simp⟩
        | cons x xs ih =>
          obtain ⟨b, hb⟩ := ih
          refine ⟨b + x + 1, fun a ha => ?_⟩
          rcases List.mem_cons.mp ha with rfl | ha
          · omega
          · have := hb a ha; omega
      obtain ⟨b, hb⟩ := hbound l
      have := hb b (hall b)
      omega
  dsimp only
  rw [dif_pos this]
  exact this.choose_spec

/-- The first free address. -/
def firstFree (h : Heap) : Nat := ((List.range 9).find? (fun a => (h a).isNone)).getD 9

/-- What is allocated behind a call, when nothing was before. -/
def leftAfter (s : Bytes) : Option (Option Nat × List (Option Data)) :=
  match ParseMem.load firstFree 9 (fun _ => none) (decode s) with
  | some (.ok (h, r)) => some (r, (List.range 9).map (fun a => (h a).map Cell.data))
  | _ => none

/-- An accepted document: the nodes of its tree, in the order they were made. -/
example : leftAfter (b! "<a x='1'>t<b/></a>") = some (some 0, [some (.elem (b! "a") [(b! "x", some (b! "1"))]),
    some (.text (b! "t")), some (.elem (b! "b") []), none, none, none, none, none, none]) := by
  decide +kernel

/-- A refused one without anything left over. -/
example : leftAfter (b! "<a><b></a>") = some (none, List.replicate 9 none) := by decide +kernel

/-- The root element whose attributes are malformed is not freed: it is not `first` yet
    (mxml-file.c:1973-1974, 1992). -/
theorem C60_root_with_bad_attributes_is_lost : leftAfter (b! "<a x>") =
    some (none, some (.elem (b! "a") []) :: List.replicate 8 none) := by decide +kernel

/-- Text behind the root element is not freed when a tag follows (mxml-file.c:1442-1531, 1949). -/
theorem C60_text_behind_the_root_is_lost : leftAfter (b! "<a></a>x<b>") =
    some (none, none :: some (.text (b! "x")) :: List.replicate 7 none) := by decide +kernel

end Afs
