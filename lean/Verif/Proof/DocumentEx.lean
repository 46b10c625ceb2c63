import Verif.Proof.Document7
/-! # Checks for concrete documents -/
namespace Afs
open Spec Xml Spec.Schema Spec.Document

def digitsB (s : Bytes) : Bool := !s.isEmpty && s.all fun c => decide (48 ≤ c) && decide (c ≤ 57)

theorem digitsB_sound {s : Bytes} (h : digitsB s = true) : Digits s := by
  unfold digitsB at h
  simp only [Bool.and_eq_true, Bool.not_eq_true', List.isEmpty_eq_false_iff, List.all_eq_true, decide_eq_true_eq] at h
  exact h

def sizeB (s : Bytes) : Bool :=
  s.isEmpty || (digitsB (s.takeWhile (· != 120)) && digitsB ((s.dropWhile (· != 120)).drop 1) &&
    decide (digitsValue (s.takeWhile (· != 120)) < 4294967296) && decide (digitsValue ((s.dropWhile (· != 120)).drop 1) < 4294967296) &&
    decide (s = s.takeWhile (· != 120) ++ [120] ++ (s.dropWhile (· != 120)).drop 1))

theorem sizeB_sound {s : Bytes} (h : sizeB s = true) : SizeText s := by
  unfold sizeB at h
  simp only [Bool.or_eq_true, Bool.and_eq_true, List.isEmpty_iff, decide_eq_true_eq] at h
  rcases h with h | h
  · exact .inl h
  · exact .inr ⟨_, _, digitsB_sound h.1.1.1.1, digitsB_sound h.1.1.1.2, h.1.1.2, h.1.2, h.2⟩

def unsignedB (s : Bytes) : Bool := digitsB (strip s) && decide (digitsValue (strip s) < 4294967296)

theorem unsignedB_sound {s : Bytes} (h : unsignedB s = true) : unsignedInt s := by
  unfold unsignedB at h
  simp only [Bool.and_eq_true, decide_eq_true_eq] at h
  exact ⟨digitsB_sound h.1, h.2⟩

def integerB (s : Bytes) : Bool :=
  digitsB (strip s) || ((strip s).head? == some 43 || (strip s).head? == some 45) && digitsB ((strip s).drop 1)

theorem integerB_sound {s : Bytes} (h : integerB s = true) : integer s := by
  unfold integerB at h
  simp only [Bool.or_eq_true, Bool.and_eq_true, beq_iff_eq] at h
  rcases h with h | ⟨h1, h2⟩
  · exact .inl (digitsB_sound h)
  · right
    cases hs : strip s with
    | nil => rw [hs] at h1; simp at h1
    | cons c d =>
      rw [hs] at h1 h2
      simp only [List.head?_cons, Option.some.injEq] at h1
      exact ⟨c, d, h1, digitsB_sound h2, rfl⟩

/-- At most one text. -/
def oneText : List Node → Bool
  | [] => true
  | [.text _] => true
  | _ => false

theorem oneText_sound {cs : List Node} (h : oneText cs = true) : cs = [] ∨ ∃ t, cs = [.text t] := by
  match cs, h with
  | [], _ => exact .inl rfl
  | [.text t], _ => exact .inr ⟨t, rfl⟩

mutual
def plainB : Node → Bool
  | .text _ => true
  | .elem n as cs => (isElement (.elem n as cs) || cs.isEmpty) && (!textNames.contains n || oneText cs) &&
      (!decide (n = b! "data") || !(elements cs).isEmpty || oneText cs) &&
      (!decide (n = b! "pages") || ((attr (.elem n as cs) (b! "dimension")).all sizeB && (attr (.elem n as cs) (b! "overlap")).all sizeB)) &&
      (!decide (n = b! "source") || (attr (.elem n as cs) (b! "id")).all integerB) && plainListB cs
def plainListB : List Node → Bool
  | [] => true
  | c :: cs => plainB c && plainListB cs
end

mutual
theorem plainB_sound : ∀ n : Node, plainB n = true → Plain n
  | .text _, _ => by rw [Plain]; trivial
  | .elem n as cs, h => by
    rw [plainB] at h
    simp only [Bool.and_eq_true, Bool.or_eq_true, Bool.not_eq_true', decide_eq_false_iff_not, List.isEmpty_iff] at h
    obtain ⟨⟨⟨⟨⟨h1, h2⟩, h3⟩, h4⟩, h5⟩, h6⟩ := h
    rw [Plain]
    refine ⟨fun he => h1.resolve_left (by rw [he]; simp), fun hn => oneText_sound (h2.resolve_left ?_), fun hn he => ?_, fun hn a v ha hv => ?_,
      fun hn v hv => ?_, plainListB_sound cs h6⟩
    · simpa using hn
    · rcases oneText_sound ((h3.resolve_left fun h => by rcases h with h | h; exact h hn; rw [he] at h; cases h)) with h | h
      · exact .inl h
      · exact .inr (.inl h)
    · have := h4.resolve_left fun h => h hn
      rcases ha with rfl | rfl
      · rw [hv] at this; exact sizeB_sound this.1
      · rw [hv] at this; exact sizeB_sound this.2
    · have := h5.resolve_left fun h => h hn
      rw [hv] at this; exact integerB_sound this
theorem plainListB_sound : ∀ cs : List Node, plainListB cs = true → PlainList cs
  | [], _ => by rw [PlainList]; trivial
  | c :: cs, h => by
    rw [plainListB, Bool.and_eq_true] at h
    rw [PlainList]
    exact ⟨plainB_sound c h.1, plainListB_sound cs h.2⟩
end

/-! ### Building sequences -/

theorem part_one {name : Bytes} {lo : Nat} {hi : Option Nat} {ty : Ty} {rest : Parts} {as cs} {ys : List Node} (h : Valid ty as cs)
    (hr : InOrder rest (elements ys)) (hn : (name.head? != some 33 && name.head? != some 63) = true := by decide +kernel)
    (hlo : lo ≤ 1 := by decide) (hhi : ∀ k, hi = some k → 1 ≤ k := by simp) :
    InOrder (.cons name lo hi ty rest) (elements (.elem name as cs :: ys)) := by
  have e : elements (.elem name as cs :: ys) = .elem name as cs :: elements ys := by
    unfold elements; rw [List.filter_cons_of_pos]; exact hn
  rw [InOrder, e]
  refine ⟨[.elem name as cs], elements ys, rfl, hlo, hhi, ?_, hr⟩
  intro x hx
  exact ⟨as, cs, List.mem_singleton.mp hx, h⟩

theorem part_none {name : Bytes} {hi : Option Nat} {ty : Ty} {rest : Parts} {ys : List Node} (hr : InOrder rest (elements ys)) :
    InOrder (.cons name 0 hi ty rest) (elements ys) := by
  rw [InOrder]
  exact ⟨[], elements ys, rfl, Nat.le_refl _, by simp, by simp, hr⟩

theorem part_skip {ps : Parts} {name as cs} {ys : List Node} (hr : InOrder ps (elements ys))
    (hn : (name.head? != some 33 && name.head? != some 63) = false := by decide +kernel) : InOrder ps (elements (.elem name as cs :: ys)) := by
  have e : elements (.elem name as cs :: ys) = elements ys := by
    unfold elements; rw [List.filter_cons_of_neg]; rw [isElement, hn]; simp
  rw [e]
  exact hr

theorem part_end : InOrder .nil (elements []) := by rw [InOrder]; rfl

theorem seq_valid {ds ps as cs} (ha : AttrsOk ds as) (hi : InOrder ps (elements cs)) (hw : (chars cs).all isWhite = true := by decide +kernel) :
    Valid (.seq ds ps) as cs := by
  rw [Valid]
  exact ⟨ha, by simpa using hw, hi⟩

theorem text_valid {p : Bytes → Prop} {t : Bytes} (h : p t) : Valid (.text [] p) [] [.text t] := by
  rw [Valid]
  refine ⟨⟨by simp, by simp⟩, rfl, ?_⟩
  simpa [chars, charsOf] using h

theorem noAttrs {ds : List Attr} (h : ∀ d ∈ ds, d.required = false) : AttrsOk ds [] :=
  ⟨by simp, fun d hd hr => by rw [h d hd] at hr; cases hr⟩

end Afs
