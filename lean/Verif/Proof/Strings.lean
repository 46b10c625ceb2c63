import Verif.Spec.Strings
import Mathlib.Algebra.BigOperators.Group.Multiset.Basic
import Mathlib.Data.Multiset.AddSub
import Mathlib.Algebra.BigOperators.Group.List.Basic
/-!
# Statements about memory (C72): each statement uses its own blocks and leaves the others alone
-/
namespace Afs.Strings
open Afs Afs.Xml Afs.Spec.Strings

/-- Addresses and what is there. -/
abbrev Blocks := Multiset (Nat × Block)

/-- The blocks in use are exactly these. -/
structure Heap (m : Mem) (L : Blocks) : Prop where
  nodup : (L.map Prod.fst).Nodup
  cells : ∀ a b, m.cells a = some b ↔ (a, b) ∈ L
  next : ∀ x ∈ L, x.1 < m.next

/-- From blocks `P`, whatever else is there, the statement ends with a result and blocks as in `R`. -/
def Does {α : Type} (p : M α) (P : Blocks) (R : α → Blocks → Prop) : Prop :=
  ∀ m F, Heap m (P + F) → ∃ a m' Q, p m = .ok (a, m') ∧ R a Q ∧ Heap m' (Q + F)

theorem Does.pure {α : Type} {a : α} {P : Blocks} {R : α → Blocks → Prop} (h : R a P) : Does (Pure.pure a) P R :=
  fun m _ hm => ⟨a, m, P, rfl, h, hm⟩

theorem Does.bind {α β : Type} {p : M α} {k : α → M β} {P : Blocks} {R : α → Blocks → Prop} {S : β → Blocks → Prop}
    (hp : Does p P R) (hk : ∀ a Q, R a Q → Does (k a) Q S) : Does (p >>= k) P S := by
  intro m F hm
  obtain ⟨a, m', Q, e, hr, hm'⟩ := hp m F hm
  obtain ⟨b, m'', Q', e', hs, hm''⟩ := hk a Q hr m' F hm'
  refine ⟨b, m'', Q', ?_, hs, hm''⟩
  show (match p m with | .ub => Res.ub | .ok (a, m1) => k a m1) = _
  rw [e]
  exact e'

theorem Does.mono {α : Type} {p : M α} {P : Blocks} {R S : α → Blocks → Prop} (h : Does p P R) (hs : ∀ a Q, R a Q → S a Q) :
    Does p P S := by
  intro m F hm
  obtain ⟨a, m', Q, e, hr, hm'⟩ := h m F hm
  exact ⟨a, m', Q, e, hs a Q hr, hm'⟩

theorem Does.frame {α : Type} {p : M α} {P : Blocks} {R : α → Blocks → Prop} (G : Blocks) (h : Does p P R) :
    Does p (P + G) (fun a Q => ∃ Q', R a Q' ∧ Q = Q' + G) := by
  intro m F hm
  rw [add_assoc] at hm
  obtain ⟨a, m', Q, e, hr, hm'⟩ := h m (G + F) hm
  exact ⟨a, m', Q + G, e, ⟨Q, hr, rfl⟩, by rw [add_assoc]; exact hm'⟩

/-- What needs nothing can be done anywhere. -/
theorem Does.anywhere {α : Type} {p : M α} {R : α → Blocks → Prop} (h : Does p 0 R) (G : Blocks) :
    Does p G (fun a Q => ∃ Q', R a Q' ∧ Q = Q' + G) := by
  have := h.frame G
  rwa [zero_add] at this

theorem heap_alloc {m : Mem} {L : Blocks} (h : Heap m L) (b : Block) :
    Heap ⟨fun a => if a = m.next then some b else m.cells a, m.next + 1⟩ ((m.next, b) ::ₘ L) := by
  have hf : ∀ b', (m.next, b') ∉ L := fun b' hb => Nat.lt_irrefl _ (h.next _ hb)
  refine ⟨?_, ?_, ?_⟩
  · rw [Multiset.map_cons, Multiset.nodup_cons]
    refine ⟨?_, h.nodup⟩
    intro hx
    obtain ⟨⟨a, b'⟩, hy, e⟩ := Multiset.mem_map.mp hx
    exact hf b' (by rw [show m.next = a from e.symm]; exact hy)
  · intro a b'
    simp only [Multiset.mem_cons, Prod.mk.injEq]
    by_cases ha : a = m.next
    · subst ha
      simp [hf b', eq_comm]
    · simp [ha, h.cells a b']
  · intro x hx
    rcases Multiset.mem_cons.mp hx with e | hx
    · subst e
      exact Nat.lt_succ_self _
    · exact Nat.lt_succ_of_lt (h.next x hx)

theorem alloc_does (b : Block) (P : Blocks) : Does (alloc b) P (fun a Q => Q = (a, b) ::ₘ P) :=
  fun m F hm => ⟨m.next, _, _, rfl, rfl, by rw [Multiset.cons_add]; exact heap_alloc hm b⟩

theorem free_does (a : Nat) (b : Block) (P : Blocks) : Does (freeBlock a) ((a, b) ::ₘ P) (fun _ Q => Q = P) := by
  intro m F hm
  rw [Multiset.cons_add] at hm
  have hc : m.cells a = some b := (hm.cells a b).mpr (Multiset.mem_cons_self _ _)
  have hnd := hm.nodup
  rw [Multiset.map_cons, Multiset.nodup_cons] at hnd
  have hout : ∀ b', (a, b') ∉ P + F := fun b' hb => hnd.1 (Multiset.mem_map.mpr ⟨(a, b'), hb, rfl⟩)
  refine ⟨(), ⟨fun x => if x = a then none else m.cells x, m.next⟩, P, ?_, rfl, ?_⟩
  · simp only [freeBlock, hc]
  · refine ⟨hnd.2, ?_, fun x hx => hm.next x (Multiset.mem_cons_of_mem hx)⟩
    intro x b'
    by_cases hx : x = a
    · subst hx
      simp [hout b']
    · simp only [hx, if_false]
      rw [hm.cells x b', Multiset.mem_cons]
      simp [hx]

theorem read_does {a : Nat} {b : Bytes} {P : Blocks} (h : (a, Block.text b) ∈ P) :
    Does (read a) P (fun r Q => r = b ∧ Q = P) := by
  intro m F hm
  have hc : m.cells a = some (.text b) := (hm.cells a _).mpr (Multiset.mem_add.mpr (Or.inl h))
  exact ⟨b, m, P, by simp only [read, hc], ⟨rfl, rfl⟩, hm⟩

/-! ### Strings that may be NULL -/

/-- The block of a string that may be NULL. -/
def cell : Option Nat → Option Bytes → Blocks
  | some a, some b => {(a, .text b)}
  | _, _ => 0

/-- Both NULL or both not. -/
def Ok (p : Option Nat) (t : Option Bytes) : Prop := p.isSome = t.isSome

@[simp] theorem cell_none_left (t : Option Bytes) : cell none t = 0 := by cases t <;> rfl
@[simp] theorem cell_none_right (p : Option Nat) : cell p none = 0 := by cases p <;> rfl
@[simp] theorem cell_some (a : Nat) (b : Bytes) : cell (some a) (some b) = {(a, .text b)} := rfl

/-- A new string. -/
def NewStr (t : Option Bytes) (p : Option Nat) (Q : Blocks) : Prop := Ok p t ∧ Q = cell p t

/-- An argument has a text. -/
def ArgIs (a : Arg) (t : Option Bytes) (P : Blocks) : Prop :=
  match a, t with
  | .null, none => True
  | .outside b, some b' => b = b'
  | .ptr p, some b => (p, Block.text b) ∈ P
  | _, _ => False

theorem argIs_text (t : Option Bytes) (P : Blocks) : ArgIs (.ofText t) t P := by
  cases t with
  | none => exact True.intro
  | some b => rfl

theorem argIs_ptr {p : Option Nat} {t : Option Bytes} {P : Blocks} (h : Ok p t) (hP : cell p t ≤ P) : ArgIs (.ofPtr p) t P := by
  cases p with
  | none => cases t with
    | none => exact True.intro
    | some b => cases h
  | some a => cases t with
    | none => cases h
    | some b => exact Multiset.singleton_le.mp hP

theorem ArgIs.mono {a : Arg} {t : Option Bytes} {P Q : Blocks} (h : ArgIs a t P) (hPQ : P ≤ Q) : ArgIs a t Q := by
  cases a with
  | null => cases t with
    | none => exact True.intro
    | some b => exact h
  | outside b => cases t with
    | none => exact h
    | some b => exact h
  | ptr p => cases t with
    | none => exact h
    | some b => exact Multiset.mem_of_le hPQ h

theorem readArg_does {a : Arg} {t : Option Bytes} {P : Blocks} (h : ArgIs a t P) :
    Does (readArg a) P (fun r Q => r = t ∧ Q = P) := by
  cases a with
  | null => cases t with
    | none => exact Does.pure ⟨rfl, rfl⟩
    | some b => exact h.elim
  | outside b => cases t with
    | none => exact h.elim
    | some b' => exact Does.pure ⟨congrArg some h, rfl⟩
  | ptr p => cases t with
    | none => exact h.elim
    | some b =>
      refine Does.bind (read_does h) ?_
      rintro r Q ⟨rfl, rfl⟩
      exact Does.pure ⟨rfl, rfl⟩

theorem clone_does {a : Arg} {t : Option Bytes} {P : Blocks} (h : ArgIs a t P) :
    Does (clone a) P (fun p Q => Ok p t ∧ Q = cell p t + P) := by
  refine Does.bind (readArg_does h) ?_
  rintro r Q ⟨rfl, rfl⟩
  cases r with
  | none => exact Does.pure ⟨rfl, by simp⟩
  | some b =>
    refine Does.bind (alloc_does _ _) ?_
    rintro p Q rfl
    exact Does.pure ⟨rfl, by simp⟩

theorem cloneText_does (t : Option Bytes) : Does (clone (.ofText t)) 0 (NewStr t) := by
  refine (clone_does (argIs_text t 0)).mono ?_
  rintro p Q ⟨h, rfl⟩
  exact ⟨h, by simp⟩

theorem freeOpt_does {p : Option Nat} {t : Option Bytes} (h : Ok p t) (P : Blocks) :
    Does (free p) (cell p t + P) (fun _ Q => Q = P) := by
  cases p with
  | none => exact Does.pure (by simp)
  | some a => cases t with
    | none => cases h
    | some b =>
      rw [cell_some, Multiset.singleton_add]
      exact free_does a _ P

/-! ### Texts of XML elements -/

theorem stringCut_does (p : Nat) (b : Bytes) (i j : Nat) :
    Does (stringCutM p i j) {(p, .text b)} (fun q Q => Q = {(q, .text (stringCut b i j))}) := by
  unfold stringCutM stringCut
  by_cases h1 : i > j
  · simp only [h1, if_true]
    exact Does.pure rfl
  simp only [h1, if_false]
  by_cases h2 : i = j
  · simp only [h2, if_true]
    refine Does.bind (free_does p _ 0) ?_
    rintro _ Q rfl
    exact alloc_does _ _
  simp only [h2, if_false]
  refine Does.bind (read_does (Multiset.mem_singleton_self _)) ?_
  rintro r Q ⟨rfl, rfl⟩
  by_cases h3 : i ≥ r.length ∨ j > r.length
  · simp only [h3, if_true]
    exact Does.pure rfl
  simp only [h3, if_false]
  by_cases h4 : i = 0 ∧ j = r.length
  · simp only [h4, if_true, and_self]
    exact Does.pure rfl
  simp only [h4, if_false]
  refine Does.bind (alloc_does _ _) ?_
  rintro q Q rfl
  have e : ((q, Block.text ((List.range (j - i)).map fun x => r.getD (x + i) 0)) ::ₘ ({(p, .text r)} : Blocks)) =
      (p, .text r) ::ₘ {(q, .text ((List.range (j - i)).map fun x => r.getD (x + i) 0))} := Multiset.cons_swap _ _ _
  rw [e]
  refine Does.bind (free_does p _ _) ?_
  rintro _ Q rfl
  exact Does.pure rfl

theorem stringTrim_does (p : Nat) (b : Bytes) :
    Does (stringTrimM p) {(p, .text b)} (fun q Q => Q = {(q, .text (stringTrim b))}) := by
  refine Does.bind (read_does (Multiset.mem_singleton_self _)) ?_
  rintro r Q ⟨rfl, rfl⟩
  unfold stringTrim
  by_cases h : r.length = 0
  · simp only [h, if_true]
    exact Does.pure rfl
  · simp only [h, if_false]
    exact stringCut_does p r _ _

theorem nodeText_does (n : Option Node) : Does (nodeTextM n) 0 (NewStr (nodeText n)) := by
  cases n with
  | none => exact Does.pure ⟨rfl, rfl⟩
  | some n =>
    refine Does.bind (cloneText_does n.getOpaque) ?_
    rintro p Q ⟨hp, rfl⟩
    show Does _ _ (NewStr (n.getOpaque.map stringTrim))
    cases hg : n.getOpaque with
    | none =>
      rw [hg] at hp
      cases p with
      | none => exact Does.pure ⟨rfl, by simp⟩
      | some p => cases hp
    | some b =>
      rw [hg] at hp
      cases p with
      | none => cases hp
      | some p =>
        refine Does.bind (stringTrim_does p b) ?_
        rintro q Q rfl
        exact Does.pure ⟨rfl, rfl⟩

theorem nodeTextSafe_does (n : Option Node) (d : Bytes) : Does (nodeTextSafeM n d) 0 (NewStr (nodeTextSafe n d)) := by
  refine Does.bind (nodeText_does n) ?_
  rintro p Q ⟨hp, rfl⟩
  unfold nodeTextSafe
  cases hn : nodeText n with
  | none =>
    rw [hn] at hp
    cases p with
    | none =>
      rw [cell_none_left]
      exact cloneText_does (some d)
    | some p => cases hp
  | some b =>
    rw [hn] at hp
    cases p with
    | none => cases hp
    | some p => exact Does.pure ⟨rfl, rfl⟩

theorem intElement_does (n : Node) (name : Bytes) :
    Does (intElementM n name) 0 (fun r Q => r = intElement n name ∧ Q = 0) := by
  unfold intElementM intElement
  cases hf : find n name with
  | none => exact Does.pure ⟨rfl, rfl⟩
  | some x =>
    refine Does.bind (nodeText_does (some x)) ?_
    rintro p Q ⟨hp, rfl⟩
    cases hn : nodeText (some x) with
    | none =>
      rw [hn] at hp
      cases p with
      | none => exact Does.pure ⟨rfl, by simp⟩
      | some p => cases hp
    | some b =>
      rw [hn] at hp
      cases p with
      | none => cases hp
      | some p =>
        refine Does.bind (read_does (b := b) (by simp)) ?_
        rintro r Q ⟨rfl, rfl⟩
        refine Does.bind (P := cell (some p) (some r)) (free_does p (.text r) 0) ?_
        rintro _ Q rfl
        exact Does.pure ⟨rfl, rfl⟩

/-! ### Objects -/

/-- The blocks of the members. -/
def own (s : Strs) (t : Field → Option Bytes) : Blocks := (allFields.map fun f => cell (s.at' f) (t f)).sum

/-- The blocks of the tags. -/
def tagCells : Option (Nat × List Nat) → Option (List Bytes) → Blocks
  | some (v, ps), some bs => (v, .other) ::ₘ (ps.zip (bs.map .text) : List (Nat × Block))
  | _, _ => 0

/-- Tags both NULL or of the same number. -/
def TagsOk : Option (Nat × List Nat) → Option (List Bytes) → Prop
  | none, none => True
  | some (_, ps), some bs => ps.length = bs.length
  | _, _ => False

/-- An object with its members, and the lost blocks. -/
def St (s : Strs) (t : Field → Option Bytes) (tg : Option (List Bytes)) (lost : Multiset Block) (Q : Blocks) : Prop :=
  (∀ f, Ok (s.at' f) (t f)) ∧ TagsOk s.tags tg ∧ ∃ L : Blocks, L.map Prod.snd = lost ∧ Q = own s t + tagCells s.tags tg + L

/-- Changing one text. -/
def upd (t : Field → Option Bytes) (f : Field) (x : Option Bytes) : Field → Option Bytes := fun g => if g = f then x else t g

/-- The block of a text. -/
def blk : Option Bytes → Multiset Block
  | none => 0
  | some b => {.text b}

theorem cell_snd {p : Option Nat} {t : Option Bytes} (h : Ok p t) : (cell p t).map Prod.snd = blk t := by
  cases p <;> cases t <;> first | rfl | cases h

theorem mem_allFields (f : Field) : f ∈ allFields := by cases f <;> decide

theorem nodup_allFields : allFields.Nodup := by decide

/-- The blocks of the members but one. -/
def others (s : Strs) (t : Field → Option Bytes) (f : Field) : Blocks := ((allFields.erase f).map fun f => cell (s.at' f) (t f)).sum

theorem own_eq (s : Strs) (t : Field → Option Bytes) (f : Field) : own s t = cell (s.at' f) (t f) + others s t f :=
  (List.sum_map_erase (fun f => cell (s.at' f) (t f)) (mem_allFields f)).symm

theorem others_set (s : Strs) (t : Field → Option Bytes) (f : Field) (p : Option Nat) (x : Option Bytes) :
    others (s.set f p) (upd t f x) f = others s t f := by
  unfold others
  congr 1
  refine List.map_congr_left ?_
  intro g hg
  have hne : g ≠ f := fun e => by
    subst e
    exact List.Nodup.not_mem_erase nodup_allFields hg
  simp only [Strs.set, upd, hne, if_false]

theorem own_set (s : Strs) (t : Field → Option Bytes) (f : Field) (p : Option Nat) (x : Option Bytes) :
    own (s.set f p) (upd t f x) = cell p x + others s t f := by
  rw [own_eq (s.set f p) (upd t f x) f, others_set]
  simp only [Strs.set, upd, if_true]

theorem ok_set {s : Strs} {t : Field → Option Bytes} (h : ∀ f, Ok (s.at' f) (t f)) {f : Field} {p : Option Nat} {x : Option Bytes}
    (hp : Ok p x) : ∀ g, Ok ((s.set f p).at' g) (upd t f x g) := by
  intro g
  unfold Strs.set upd
  by_cases hg : g = f
  · simp only [hg, if_true]
    exact hp
  · simp only [hg, if_false]
    exact h g

/-- A member gets a new string and the old one is not freed. -/
theorem St.assign {s : Strs} {t : Field → Option Bytes} {tg : Option (List Bytes)} {lost : Multiset Block} {Q : Blocks}
    (h : St s t tg lost Q) (f : Field) {q : Option Nat} {x : Option Bytes} (hq : Ok q x) :
    St (s.set f q) (upd t f x) tg (lost + blk (t f)) (cell q x + Q) := by
  obtain ⟨hok, htg, L, hl, rfl⟩ := h
  refine ⟨ok_set hok hq, htg, cell (s.at' f) (t f) + L, ?_, ?_⟩
  · rw [Multiset.map_add, cell_snd (hok f), hl, add_comm]
  · rw [own_set, own_eq s t f]
    show _ = _ + tagCells s.tags tg + _
    ac_rfl

/-- Assigning a new string to a member without freeing the old one. -/
theorem assign {s : Strs} {t : Field → Option Bytes} {tg : Option (List Bytes)} {lost : Multiset Block} {Q : Blocks}
    {p : M (Option Nat)} {x : Option Bytes} (f : Field) (hp : Does p 0 (NewStr x)) (h : St s t tg lost Q) :
    Does p Q (fun q Q' => St (s.set f q) (upd t f x) tg (lost + blk (t f)) Q') := by
  refine (hp.anywhere Q).mono ?_
  rintro q Q' ⟨_, ⟨hq, rfl⟩, rfl⟩
  exact h.assign f hq

/-- Freeing a member and assigning a new string to it. -/
theorem replace {α : Type} {s : Strs} {t : Field → Option Bytes} {tg : Option (List Bytes)} {lost : Multiset Block} {Q : Blocks}
    {p : M (Option Nat)} {x : Option Bytes} {k : Option Nat → M α} {R : α → Blocks → Prop} (f : Field)
    (hp : Does p 0 (NewStr x)) (h : St s t tg lost Q)
    (hk : ∀ q Q', St (s.set f q) (upd t f x) tg lost Q' → Does (k q) Q' R) :
    Does (do
      free (s.at' f)
      let q ← p
      k q) Q R := by
  obtain ⟨hok, htg, L, hl, rfl⟩ := h
  rw [own_eq s t f, add_assoc, add_assoc]
  refine Does.bind (freeOpt_does (hok f) _) ?_
  rintro _ _ rfl
  refine Does.bind (hp.anywhere _) ?_
  rintro q Q' ⟨_, ⟨hq, rfl⟩, rfl⟩
  refine hk q _ ⟨ok_set hok hq, htg, L, hl, ?_⟩
  rw [own_set]
  show _ = _ + tagCells s.tags tg + _
  ac_rfl

/-- What needs nothing and leaves nothing. -/
theorem aside {α : Type} {p : M α} {r : α → Prop} {Q : Blocks} (hp : Does p 0 (fun a Q => r a ∧ Q = 0)) :
    Does p Q (fun a Q' => r a ∧ Q' = Q) := by
  refine (hp.anywhere Q).mono ?_
  rintro a Q' ⟨_, ⟨hr, rfl⟩, rfl⟩
  exact ⟨hr, by rw [zero_add]⟩

end Afs.Strings
