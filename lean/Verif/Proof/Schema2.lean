import Verif.Proof.Schema
import Verif.Spec.Conforms
import Verif.Proof.IoToc
/-! # The saved trees and the schema -/
namespace Afs
open Spec Spec.Schema Xml

/-! ## Numbers -/

theorem digit_range {c : UInt8} (h : isDigitByte c = true) : 48 ≤ c ∧ c ≤ 57 := by
  unfold isDigitByte at h
  simpa using h

theorem strip_self {s : Bytes} (h1 : ∀ c, s.head? = some c → isWhite c = false) (h2 : ∀ c, s.getLast? = some c → isWhite c = false) : strip s = s := by
  unfold strip
  have e1 : s.dropWhile isWhite = s := by
    cases s with
    | nil => rfl
    | cons c s => rw [List.dropWhile_cons_of_neg (by rw [h1 c rfl]; simp)]
  rw [e1]
  have e2 : s.reverse.dropWhile isWhite = s.reverse := by
    cases h : s.reverse with
    | nil => rfl
    | cons c r =>
      have : s.getLast? = some c := by rw [List.getLast?_eq_head?_reverse, h]; rfl
      rw [List.dropWhile_cons_of_neg (by rw [h2 c this]; simp)]
  rw [e2, List.reverse_reverse]

theorem range_not_white {c : UInt8} (h : 45 ≤ c ∧ c ≤ 57) : isWhite c = false := by
  obtain ⟨h1, h2⟩ := h
  have h1' := UInt8.le_iff_toNat_le.mp h1
  unfold isWhite
  simp only [Bool.or_eq_false_iff, beq_eq_false_iff_ne]
  refine ⟨⟨⟨?_, ?_⟩, ?_⟩, ?_⟩ <;> rintro rfl <;> revert h1' <;> decide

theorem strip_range {s : Bytes} (h : ∀ c ∈ s, 45 ≤ c ∧ c ≤ 57) : strip s = s :=
  strip_self (fun c hc => range_not_white (h c (List.mem_of_mem_head? hc))) (fun c hc => range_not_white (h c (List.mem_of_getLast? hc)))

theorem digits_range {s : Bytes} (h : ∀ c ∈ s, isDigitByte c = true) : ∀ c ∈ s, 45 ≤ c ∧ c ≤ 57 := by
  intro c hc
  have := digit_range (h c hc)
  refine ⟨UInt8.le_trans (by decide) this.1, this.2⟩

theorem strip_printNat (n : Nat) : strip (printNat n) = printNat n := strip_range (digits_range (printNat_digits n))

theorem digits_printNat (n : Nat) : Digits (printNat n) := ⟨printNat_ne n, fun c hc => digit_range (printNat_digits n c hc)⟩

theorem digitsValue_readDigits (s : Bytes) (acc : Nat) (h : ∀ c ∈ s, isDigitByte c = true) :
    s.foldl (fun v c => v * 10 + (c.toNat - 48)) acc = (readDigits acc s).1 := by
  induction s generalizing acc with
  | nil => rfl
  | cons c s ih =>
    rw [List.foldl_cons, ih _ (fun x hx => h x (by simp [hx])), readDigits, if_pos (h c (by simp))]

theorem digitsValue_printNat (n : Nat) : digitsValue (printNat n) = n := by
  unfold digitsValue
  rw [digitsValue_readDigits _ _ (printNat_digits n), readDigits_printNat]

theorem unsigned_printNat {n : Nat} (h : IsUInt n) : unsignedInt (printNat n) := by
  refine ⟨?_, ?_⟩
  · rw [strip_printNat]; exact digits_printNat n
  · rw [strip_printNat, digitsValue_printNat]; exact h

theorem strip_minus {s : Bytes} (h : ∀ c ∈ s, isDigitByte c = true) : strip (45 :: s) = 45 :: s := by
  apply strip_range
  intro c hc
  rcases List.mem_cons.mp hc with rfl | hc
  · decide
  · exact digits_range h c hc

theorem not_digits_minus (s : Bytes) : ¬ Digits (45 :: s) := by
  rintro ⟨-, h⟩
  exact absurd (h 45 (by simp)).1 (by decide)

theorem unsigned_printInt (i : Int) : unsignedInt (printInt i) ↔ 0 ≤ i ∧ i < 4294967296 := by
  unfold printInt
  split
  · rename_i h
    constructor
    · rintro ⟨h1, -⟩
      rw [strip_minus (printNat_digits _)] at h1
      exact absurd h1 (not_digits_minus _)
    · intro h'; omega
  · rename_i h
    unfold unsignedInt
    rw [strip_printNat, digitsValue_printNat]
    constructor
    · rintro ⟨-, h1⟩; omega
    · intro h1; exact ⟨digits_printNat _, by omega⟩

theorem zeros_digits {k : Nat} {s : Bytes} (h : ∀ c ∈ s, isDigitByte c = true) : ∀ c ∈ List.replicate k 48 ++ s, isDigitByte c = true := by
  intro c hc
  rcases List.mem_append.mp hc with hc | hc
  · rw [List.eq_of_mem_replicate hc]; decide
  · exact h c hc

theorem unsigned_printInt06 (i : Int) : unsignedInt (printInt06 i) ↔ 0 ≤ i ∧ i < 4294967296 := by
  unfold printInt06
  split
  · rename_i h
    constructor
    · rintro ⟨h1, -⟩
      rw [strip_minus (zeros_digits (printNat_digits _))] at h1
      exact absurd h1 (not_digits_minus _)
    · intro h'; omega
  · rename_i h
    unfold unsignedInt
    have hz := zeros_digits (k := 6 - (printNat i.natAbs).length) (printNat_digits i.natAbs)
    rw [strip_range (digits_range hz)]
    have e : digitsValue (List.replicate (6 - (printNat i.natAbs).length) 48 ++ printNat i.natAbs) = i.natAbs := by
      unfold digitsValue
      rw [digitsValue_readDigits _ _ hz, readDigits_zeros, readDigits_printNat]
    rw [e]
    constructor
    · rintro ⟨-, h1⟩; omega
    · intro h1
      exact ⟨⟨by simp [printNat_ne], fun c hc => digit_range (hz c hc)⟩, by omega⟩

theorem integer_printInt (i : Int) : integer (printInt i) := by
  unfold printInt
  split
  · right
    exact ⟨45, printNat i.natAbs, .inr rfl, digits_printNat _, strip_minus (printNat_digits _)⟩
  · left
    rw [strip_printNat]; exact digits_printNat _

theorem printNat_one : printNat 1 = [49] := by decide
theorem printNat_two : printNat 2 = [50] := by decide

theorem parent_printInt (i : Int) : parentIdType (printInt i) ↔ -2 ≤ i := by
  unfold parentIdType
  constructor
  · rintro ⟨-, h⟩
    rcases h with ⟨n, c, hc, h⟩ | h
    · unfold printInt at h
      split at h
      · rename_i hi
        rw [strip_minus (printNat_digits _)] at h
        injection h with _ h
        have hv := digitsValue_printNat i.natAbs
        have hd := printNat_digits i.natAbs c (by rw [h]; simp)
        rw [h] at hv
        have e : digitsValue (List.replicate n 48 ++ [c]) = c.toNat - 48 := by
          unfold digitsValue
          rw [List.foldl_append]
          have hz : ∀ n : Nat, (List.replicate n (48 : UInt8)).foldl (fun v c => v * 10 + (c.toNat - 48)) 0 = 0 := by
            intro n
            induction n with
            | zero => rfl
            | succ n ih => rw [List.replicate_succ, List.foldl_cons]; exact ih
          rw [hz]; simp
        rw [e] at hv
        rcases hc with rfl | rfl | rfl
        · change 1 = _ at hv; omega
        · change 2 = _ at hv; omega
        · exact absurd hd (by decide)
      · omega
    · unfold printInt at h
      split at h
      · rw [strip_minus (printNat_digits _)] at h
        exact absurd h (not_digits_minus _)
      · omega
  · intro h
    refine ⟨integer_printInt i, ?_⟩
    unfold printInt
    split
    · left
      rw [strip_minus (printNat_digits _)]
      have : i = -1 ∨ i = -2 := by omega
      rcases this with rfl | rfl
      · exact ⟨0, 49, .inl rfl, by decide⟩
      · exact ⟨0, 50, .inr (.inl rfl), by decide⟩
    · right
      rw [strip_printNat]; exact digits_printNat _

/-! ## Sequences -/

def partNames : Parts → List Bytes
  | .nil => []
  | .cons n _ _ _ rest => n :: partNames rest

def Named (n : Bytes) (t : Node) : Prop := t.element = some n

theorem inOrder_names : ∀ {ps : Parts} {l : List Node}, InOrder ps l → ∀ x ∈ l, ∃ n ∈ partNames ps, Named n x
  | .nil, l, h => by rw [InOrder] at h; subst h; simp
  | .cons name lo hi ty rest, l, h => by
    rw [InOrder] at h
    obtain ⟨xs, ys, rfl, -, -, h3, h4⟩ := h
    intro x hx
    rcases List.mem_append.mp hx with hx | hx
    · obtain ⟨as, cs, rfl, -⟩ := h3 x hx
      exact ⟨name, by simp [partNames], rfl⟩
    · obtain ⟨n, hn, h⟩ := inOrder_names h4 x hx
      exact ⟨n, by simp [partNames, hn], h⟩

theorem inOrder_seg {name : Bytes} {lo : Nat} {hi : Option Nat} {ty : Ty} {rest : Parts} {seg l : List Node}
    (hs : ∀ x ∈ seg, Named name x) (hl : ∀ x ∈ l, ¬ Named name x) (hn : name ∉ partNames rest) :
    InOrder (.cons name lo hi ty rest) (seg ++ l) ↔
      (lo ≤ seg.length ∧ (∀ h, hi = some h → seg.length ≤ h) ∧ ∀ x ∈ seg, Valid ty x.attrs x.children) ∧ InOrder rest l := by
  rw [InOrder]
  constructor
  · rintro ⟨xs, ys, e, h1, h2, h3, h4⟩
    have : xs = seg ∧ ys = l := by
      rcases List.append_eq_append_iff.mp e with ⟨as, h, h'⟩ | ⟨as, h, h'⟩
      · -- seg ++ as = xs, l = as ++ ys
        have : as = [] := by
          cases as with
          | nil => rfl
          | cons a as =>
            obtain ⟨_, _, e', -⟩ := h3 a (by simp [h])
            refine absurd ?_ (hl a (by rw [h']; exact List.mem_cons_self))
            rw [e']; rfl
        subst this
        simp_all
      · have : as = [] := by
          cases as with
          | nil => rfl
          | cons a as =>
            obtain ⟨n, hn', hna⟩ := inOrder_names h4 a (by simp [h'])
            have := hs a (by simp [h])
            unfold Named at this hna
            rw [this] at hna
            cases hna
            exact absurd hn' hn
        subst this
        simp_all
    obtain ⟨rfl, rfl⟩ := this
    refine ⟨⟨h1, h2, fun x hx => ?_⟩, h4⟩
    obtain ⟨as, cs, rfl, hv⟩ := h3 x hx
    exact hv
  · rintro ⟨⟨h1, h2, h3⟩, h4⟩
    refine ⟨seg, l, rfl, h1, h2, fun x hx => ?_, h4⟩
    have hx' := hs x hx
    have hv := h3 x hx
    cases x with
    | text => cases hx'
    | elem n as cs => cases hx'; exact ⟨as, cs, rfl, hv⟩

/-- The elements of a sequence, part by part. -/
def SegsOk : Parts → List (List Node) → Prop
  | .nil, [] => True
  | .cons _ lo hi ty rest, s :: ss =>
    (lo ≤ s.length ∧ (∀ h, hi = some h → s.length ≤ h) ∧ ∀ x ∈ s, Valid ty x.attrs x.children) ∧ SegsOk rest ss
  | _, _ => False

def SegsNamed : List Bytes → List (List Node) → Prop
  | [], [] => True
  | n :: ns, s :: ss => (∀ x ∈ s, Named n x) ∧ SegsNamed ns ss
  | _, _ => False

theorem segsNamed_mem : ∀ {ns : List Bytes} {ss : List (List Node)}, SegsNamed ns ss → ∀ x ∈ ss.flatten, ∃ n ∈ ns, Named n x
  | [], [], _ => by simp
  | [], _ :: _, h => by cases h
  | _ :: _, [], h => by cases h
  | n :: ns, s :: ss, h => by
    intro x hx
    rw [List.flatten_cons] at hx
    rcases List.mem_append.mp hx with hx | hx
    · exact ⟨n, by simp, h.1 x hx⟩
    · obtain ⟨m, hm, h'⟩ := segsNamed_mem h.2 x hx
      exact ⟨m, by simp [hm], h'⟩

theorem inOrder_segs : ∀ (ps : Parts) (ss : List (List Node)), (partNames ps).Nodup → SegsNamed (partNames ps) ss →
    (InOrder ps ss.flatten ↔ SegsOk ps ss)
  | .nil, [], _, _ => by rw [InOrder, SegsOk]; simp
  | .nil, _ :: _, _, h => by cases h
  | .cons .., [], _, h => by cases h
  | .cons n lo hi ty rest, s :: ss, hn, h => by
    rw [partNames, List.nodup_cons] at hn
    rw [partNames, SegsNamed] at h
    rw [List.flatten_cons, inOrder_seg h.1 ?_ hn.1, SegsOk, inOrder_segs rest ss hn.2 h.2]
    intro x hx hx'
    obtain ⟨m, hm, h'⟩ := segsNamed_mem h.2 x hx
    unfold Named at hx' h'
    rw [hx'] at h'
    cases h'
    exact hn.1 hm

/-- An element whose children are elements, part by part. -/
theorem valid_segs {ds : List Attr} {ps : Parts} {as} (ss : List (List Node)) {cs : List Node} (e : cs = ss.flatten)
    (hn : (partNames ps).Nodup) (h : SegsNamed (partNames ps) ss) (hc : ∀ t ∈ cs, Shape t) :
    Valid (.seq ds ps) as cs ↔ AttrsOk ds as ∧ SegsOk ps ss := by
  rw [Valid, shapes_elements hc, shapes_chars hc, e, inOrder_segs ps ss hn h]
  simp

theorem attrsOk_nil : AttrsOk [] [] := ⟨(fun _ h => nomatch h), (fun _ h => nomatch h)⟩

theorem valid_text {p : Bytes → Prop} (s : Bytes) : Valid (.text [] p) [] [.text s] ↔ p s := by
  rw [Valid]
  simp [attrsOk_nil, elements, isElement, chars, charsOf]

/-! ### Text elements -/

theorem textNode_named (nm : Bytes) (s : Option Bytes) : ∀ x ∈ textNode nm s, Named nm x := by
  cases s with
  | none => simp [textNode]
  | some t =>
    intro x hx
    rw [textNode, List.mem_singleton] at hx
    subst hx
    unfold setNodeText
    dsimp only
    split <;> rfl

theorem textNode_one {nm : Bytes} {s : Option Bytes} (h : TextField s) {p : Bytes → Prop} :
    (1 ≤ (textNode nm s).length ∧ (∀ h, some 1 = some h → (textNode nm s).length ≤ h) ∧
      ∀ x ∈ textNode nm s, Valid (.text [] p) x.attrs x.children) ↔ ∃ t, s = some t ∧ p t := by
  cases s with
  | none => simp [textNode]
  | some t =>
    have ht := (h t rfl).2.1
    have e : textNode nm (some t) = [.elem nm [] [.text t]] := by
      rw [textNode, setNodeText, if_pos (by simpa using ht)]; rfl
    rw [e]
    simp only [List.length_singleton, List.mem_singleton, forall_eq, Nat.le_refl, true_and, Option.some.injEq]
    rw [show (Node.elem nm [] [.text t]).attrs = [] from rfl, show (Node.elem nm [] [.text t]).children = [.text t] from rfl, valid_text]
    constructor
    · intro h'; exact ⟨t, rfl, h'.2⟩
    · rintro ⟨_, rfl, h'⟩; exact ⟨fun _ e => by omega, h'⟩

theorem one_seg {t : Node} {ty : Ty} : (1 ≤ [t].length ∧ (∀ h, some 1 = some h → [t].length ≤ h) ∧
    ∀ x ∈ [t], Valid ty x.attrs x.children) ↔ Valid ty t.attrs t.children := by
  simp only [List.length_singleton, List.mem_singleton, forall_eq, Nat.le_refl, true_and, Option.some.injEq]
  exact ⟨fun h => h.2, fun h => ⟨fun _ e => by omega, h⟩⟩

theorem opt_seg {l : List Node} (hl : l.length ≤ 1) {ty : Ty} : (0 ≤ l.length ∧ (∀ h, some 1 = some h → l.length ≤ h) ∧
    ∀ x ∈ l, Valid ty x.attrs x.children) ↔ ∀ x ∈ l, Valid ty x.attrs x.children := by
  simp only [Nat.zero_le, true_and, Option.some.injEq]
  exact ⟨fun h => h.2, fun h => ⟨fun _ e => by omega, h⟩⟩

theorem many_seg {l : List Node} {lo : Nat} {ty : Ty} : (lo ≤ l.length ∧ (∀ h, (none : Option Nat) = some h → l.length ≤ h) ∧
    ∀ x ∈ l, Valid ty x.attrs x.children) ↔ lo ≤ l.length ∧ ∀ x ∈ l, Valid ty x.attrs x.children := by
  simp

/-! ### Shapes -/

theorem textNode_shape {nm : Bytes} (hn : PlainName nm) (s : Option Bytes) : ∀ x ∈ textNode nm s, Shape x := by
  cases s with
  | none => simp [textNode]
  | some t =>
    intro x hx
    rw [textNode, List.mem_singleton] at hx
    subst hx
    unfold setNodeText
    dsimp only
    split
    · rename_i h; exact .leaf hn (by simpa using h)
    · exact .branch hn (by simp)

theorem intNode_shape {nm : Bytes} (hn : PlainName nm) (i : Int) : Shape (intNode nm i) := by
  rw [intNode_eq]
  refine .leaf hn ?_
  unfold printInt
  split
  · simp
  · exact printNat_ne _

theorem Page.shape (p : Page) : Shape p.node := .branch (by decide) (by simp)

theorem dataNodes_shape (as : List (Bytes × Option Bytes)) (d : Option Bytes) : ∀ x ∈ dataNodes as d, Shape x := by
  cases d with
  | none => simp [dataNodes]
  | some d => simp only [dataNodes, List.mem_singleton, forall_eq]; exact .cdata

theorem shape_append {a b : List Node} (ha : ∀ x ∈ a, Shape x) (hb : ∀ x ∈ b, Shape x) : ∀ x ∈ a ++ b, Shape x := by
  intro x hx
  exact (List.mem_append.mp hx).elim (ha x) (hb x)

theorem shape_map {α : Type} {f : α → Node} (l : List α) (h : ∀ x ∈ l, Shape (f x)) : ∀ x ∈ l.map f, Shape x := by
  intro x hx
  obtain ⟨y, hy, rfl⟩ := List.mem_map.mp hx
  exact h y hy

theorem dpi_shape (d : Int) : ∀ x ∈ dpiNodes d, Shape x := by
  unfold dpiNodes
  split
  · simp only [List.mem_singleton, forall_eq]; exact intNode_shape (by decide) _
  · simp

theorem Preview.shape (p : Preview) : Shape p.node :=
  .branch (by decide) (shape_append (dpi_shape _) (shape_map _ fun x _ => x.shape))

theorem FileMetaSource.shape (s : FileMetaSource) : Shape s.node := .branch (by decide) (dataNodes_shape _ _)

theorem FileMeta.shape (m : FileMeta) : Shape m.node := .branch (by decide) (shape_map _ fun x _ => x.shape)

theorem MetaSource.shape (s : MetaSource) : Shape s.node :=
  .branch (by decide) (shape_append (dataNodes_shape _ _) (textNode_shape (by decide) _))

theorem TocMeta.shape (m : TocMeta) : Shape m.node := .branch (by decide) (shape_map _ fun x _ => x.shape)

theorem Section.shape (s : Section) : Shape s.node := .branch (by decide) (by simp)

theorem Sections.shape (s : Sections) : Shape s.node := .branch (by decide) (shape_map _ fun x _ => x.shape)

end Afs
