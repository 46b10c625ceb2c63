import Verif.Model.Xml.AttrMem
import Verif.Proof.Strings
import Mathlib.Data.List.Forall2
/-! # The attributes of an element in memory: what each call does -/
namespace Afs.AttrMem
open Afs Afs.Strings

/-- The strings of the entries. -/
def strs : List (Nat × Option Nat) → List (Bytes × Option Bytes) → Blocks
  | e :: es, a :: as => (e.1, Block.text a.1) ::ₘ (cell e.2 a.2 + strs es as)
  | _, _ => 0

/-- The element has these attributes, and its blocks are `Q`. -/
structure Owns (s : Attrs) (as : List (Bytes × Option Bytes)) (Q : Blocks) : Prop where
  num : s.num = as.length
  ok : List.Forall₂ (fun (e : Nat × Option Nat) (a : Bytes × Option Bytes) => Ok e.2 a.2) s.entries as
  some' : as ≠ [] → ∃ a, s.array = some a ∧ Q = (a, .other) ::ₘ strs s.entries as
  none' : as = [] → Q = 0

theorem owns_empty : Owns empty [] 0 := ⟨rfl, .nil, fun h => absurd rfl h, fun _ => rfl⟩

theorem strs_split {es : List (Nat × Option Nat)} {as : List (Bytes × Option Bytes)}
    (h : List.Forall₂ (fun (e : Nat × Option Nat) (a : Bytes × Option Bytes) => Ok e.2 a.2) es as) {i : Nat} {a : Bytes × Option Bytes}
    (ha : as[i]? = some a) : ∃ e, es[i]? = some e ∧ Ok e.2 a.2 ∧
      List.Forall₂ (fun (e : Nat × Option Nat) (a : Bytes × Option Bytes) => Ok e.2 a.2) (es.eraseIdx i) (as.eraseIdx i) ∧
      strs es as = (e.1, Block.text a.1) ::ₘ (cell e.2 a.2 + strs (es.eraseIdx i) (as.eraseIdx i)) ∧
      ∀ v t, Ok v t → List.Forall₂ (fun (e : Nat × Option Nat) (a : Bytes × Option Bytes) => Ok e.2 a.2) (es.set i (e.1, v)) (as.set i (a.1, t)) ∧
        strs (es.set i (e.1, v)) (as.set i (a.1, t)) =
          (e.1, Block.text a.1) ::ₘ (cell v t + strs (es.eraseIdx i) (as.eraseIdx i)) := by
  induction h generalizing i with
  | nil => cases ha
  | @cons e b es as hd tl ih =>
    cases i with
    | zero =>
      cases ha
      exact ⟨e, rfl, hd, tl, rfl, fun v t hv => ⟨.cons hv tl, rfl⟩⟩
    | succ i =>
      obtain ⟨x, h1, h2, h3, h4, h5⟩ := ih (i := i) (by simpa using ha)
      refine ⟨x, by simpa using h1, h2, ?_, ?_, fun v t hv => ⟨?_, ?_⟩⟩
      · simp only [List.eraseIdx_cons_succ]; exact .cons hd h3
      · simp only [List.eraseIdx_cons_succ, strs, h4, Multiset.add_cons]
        rw [Multiset.cons_swap]
        congr 2
        rw [add_left_comm]
      · simp only [List.set_cons_succ]; exact .cons hd (h5 v t hv).1
      · simp only [List.set_cons_succ, List.eraseIdx_cons_succ, strs, (h5 v t hv).2, Multiset.add_cons]
        rw [Multiset.cons_swap]
        congr 2
        rw [add_left_comm]

theorem strs_append {es : List (Nat × Option Nat)} {as : List (Bytes × Option Bytes)}
    (h : List.Forall₂ (fun (e : Nat × Option Nat) (a : Bytes × Option Bytes) => Ok e.2 a.2) es as) (e : Nat × Option Nat) (a : Bytes × Option Bytes) :
    strs (es ++ [e]) (as ++ [a]) = (e.1, Block.text a.1) ::ₘ (cell e.2 a.2 + strs es as) := by
  induction h with
  | nil => rfl
  | cons hd tl ih =>
    simp only [List.cons_append, strs, ih, Multiset.add_cons]
    rw [Multiset.cons_swap]
    congr 2
    rw [add_left_comm]

theorem forall2_snoc {α β : Type} {R : α → β → Prop} {l : List α} {m : List β} (h : List.Forall₂ R l m) {a : α} {b : β} (hr : R a b) :
    List.Forall₂ R (l ++ [a]) (m ++ [b]) := by
  induction h with
  | nil => exact .cons hr .nil
  | cons h _ ih => exact .cons h ih

/-- The place of an attribute. -/
def place (as : List (Bytes × Option Bytes)) (n : Bytes) : Option Nat := as.findIdx? (fun a => a.1 == n)

theorem entryAt_does {s : Attrs} {as : List (Bytes × Option Bytes)} {Q : Blocks} (h : Owns s as Q) {i : Nat} {a : Bytes × Option Bytes}
    (ha : as[i]? = some a) (G : Blocks) :
    Does (entryAt s i) (Q + G) (fun r P => s.entries[i]? = some r ∧ (r.1, Block.text a.1) ∈ Q ∧ Ok r.2 a.2 ∧ cell r.2 a.2 ≤ Q ∧ P = Q + G) := by
  intro m F hm
  have hne : as ≠ [] := by rintro rfl; cases ha
  obtain ⟨p, hp, hQ⟩ := h.some' hne
  obtain ⟨e, he, ho, _, hs, _⟩ := strs_split h.ok ha
  have hc : m.cells p = some .other := (hm.cells p _).mpr (by rw [hQ]; simp)
  refine ⟨e, m, Q + G, by simp only [entryAt, hp, hc, he], ⟨he, ?_, ho, ?_, rfl⟩, hm⟩
  · rw [hQ, hs]; simp
  · rw [hQ, hs]
    exact le_trans (Multiset.le_add_right _ _) (le_trans (Multiset.le_cons_self _ _) (Multiset.le_cons_self _ _))

theorem search_does {s : Attrs} {as : List (Bytes × Option Bytes)} {Q : Blocks} (h : Owns s as Q) (n : Bytes) (G : Blocks) :
    ∀ k i, i + k = as.length →
      Does (search s n k i) (Q + G) (fun r P => r = (place (as.drop i) n).map (· + i) ∧ P = Q + G)
  | 0, i, hi => by
    have : as.drop i = [] := List.drop_eq_nil_of_le (by omega)
    rw [search, this]
    exact Does.pure ⟨rfl, rfl⟩
  | k + 1, i, hi => by
    have hlt : i < as.length := by omega
    have ha : as[i]? = some as[i] := List.getElem?_eq_getElem hlt
    have hd : as.drop i = as[i] :: as.drop (i + 1) := (List.drop_eq_getElem_cons hlt)
    rw [search]
    refine Does.bind (entryAt_does h ha G) ?_
    rintro e P ⟨_, h1, _, _, rfl⟩
    refine Does.bind (read_does (Multiset.mem_add.mpr (.inl h1))) ?_
    rintro t P ⟨rfl, rfl⟩
    by_cases ht : as[i].1 = n
    · rw [if_pos ht, hd]
      refine Does.pure ⟨?_, rfl⟩
      have hb : (as[i].1 == n) = true := by simpa using ht
      simp only [place, List.findIdx?_cons, hb, if_true, Option.map_some, Nat.zero_add]
    · rw [if_neg ht]
      refine (search_does h n G k (i + 1) (by omega)).mono ?_
      rintro r P ⟨rfl, rfl⟩
      refine ⟨?_, rfl⟩
      rw [hd]
      have hb : (as[i].1 == n) = false := by simpa using ht
      simp only [place, List.findIdx?_cons, hb, Option.map_map]
      simp only [Bool.false_eq_true, if_false, Option.map_map]
      congr 1
      funext x
      simp only [Function.comp]
      omega

theorem search_all {s : Attrs} {as : List (Bytes × Option Bytes)} {Q : Blocks} (h : Owns s as Q) (n : Bytes) (G : Blocks) :
    Does (search s n s.num 0) (Q + G) (fun r P => r = place as n ∧ P = Q + G) := by
  rw [h.num]
  refine (search_does h n G as.length 0 (by omega)).mono ?_
  rintro r P ⟨rfl, rfl⟩
  exact ⟨by rw [List.drop_zero]; cases place as n <;> rfl, rfl⟩

theorem place_some {as : List (Bytes × Option Bytes)} {n : Bytes} {i : Nat} (h : place as n = some i) :
    ∃ a, as[i]? = some a ∧ a.1 = n := by
  unfold place at h
  rw [List.findIdx?_eq_some_iff_getElem] at h
  obtain ⟨hl, h1, _⟩ := h
  exact ⟨as[i], List.getElem?_eq_getElem hl, by simpa using h1⟩

/-- The value of an attribute: nothing if there is none. -/
def value (as : List (Bytes × Option Bytes)) (n : Bytes) : Option Bytes := ((place as n).bind fun i => as[i]?).bind Prod.snd

theorem getAttr_does {s : Attrs} {as : List (Bytes × Option Bytes)} {Q : Blocks} (h : Owns s as Q) (n : Bytes) (G : Blocks) :
    Does (getAttr s n) (Q + G) (fun r P => Ok r (value as n) ∧ cell r (value as n) ≤ Q ∧ P = Q + G) := by
  unfold getAttr
  refine Does.bind (search_all h n G) ?_
  rintro r P ⟨rfl, rfl⟩
  cases hp : place as n with
  | none => exact Does.pure ⟨by simp [value, hp, Ok], by simp [value, hp, Multiset.zero_le], rfl⟩
  | some i =>
    obtain ⟨a, ha, _⟩ := place_some hp
    refine Does.bind (entryAt_does h ha G) ?_
    rintro e P ⟨_, _, h2, h3, rfl⟩
    have hv : value as n = a.2 := by simp [value, hp, ha]
    rw [hv]
    exact Does.pure ⟨h2, h3, rfl⟩

/-! ### Setting -/

/-- The attributes after an attribute was set, if nothing is refused. -/
def put (as : List (Bytes × Option Bytes)) (n : Bytes) (v : Option Bytes) : List (Bytes × Option Bytes) :=
  match place as n with
  | some i => as.set i (n, v)
  | none => as ++ [(n, v)]

/-- Whether the attribute can be set: it is there, or there is memory for it. -/
def granted (r : Refused) (as : List (Bytes × Option Bytes)) (n : Bytes) : Bool :=
  (place as n).isSome || (!r.array && !r.name)

/-- Arrays that are lost: one, when the first attribute of an element gets an array but no name. -/
def lost (r : Refused) (as : List (Bytes × Option Bytes)) : Nat := if as = [] ∧ r.array = false ∧ r.name = true then 1 else 0

/-- That many arrays. -/
def Arrays (k : Nat) (Q : Blocks) : Prop := Q.card = k ∧ ∀ x ∈ Q, x.2 = Block.other

theorem arrays_zero : Arrays 0 0 := ⟨rfl, fun x hx => by simp at hx⟩

theorem grow_does {s : Attrs} {as : List (Bytes × Option Bytes)} {Q : Blocks} (h : Owns s as Q) (G : Blocks) :
    Does (grow s) (Q + G) (fun a P => P = ((a, Block.other) ::ₘ strs s.entries as) + G) := by
  unfold grow
  by_cases hn : as = []
  · have h0 : s.num = 0 := by rw [h.num, hn]; rfl
    have he : s.entries = [] := by have := h.ok; rw [hn] at this; exact List.forall₂_nil_right_iff.mp this
    rw [if_pos h0, h.none' hn]
    refine (alloc_does .other _).mono ?_
    rintro a P rfl
    rw [he]
    simp [strs]
  · have h0 : ¬ s.num = 0 := by rw [h.num]; simpa using hn
    obtain ⟨p, hp, hQ⟩ := h.some' hn
    rw [if_neg h0, hp, hQ, Multiset.cons_add]
    refine Does.bind (free_does p _ _) ?_
    rintro _ P rfl
    refine (alloc_does .other _).mono ?_
    rintro a P rfl
    rw [Multiset.cons_add]

theorem putAttr_does {s : Attrs} {as : List (Bytes × Option Bytes)} {Q : Blocks} (h : Owns s as Q) (r : Refused) (n : Bytes)
    {v : Option Nat} {t : Option Bytes} (hv : Ok v t) (G : Blocks) :
    Does (putAttr r s n v) (Q + (cell v t + G)) (fun x P => x.1 = granted r as n ∧
      ∃ Q' ls, Owns x.2 (if granted r as n = true then put as n t else as) Q' ∧ Arrays (if (place as n).isSome then 0 else lost r as) ls ∧
        P = Q' + (if granted r as n = true then 0 else cell v t) + (ls + G)) := by
  unfold putAttr
  refine Does.bind (search_all h n _) ?_
  rintro f P ⟨rfl, rfl⟩
  cases hp : place as n with
  | some i =>
    obtain ⟨a, ha, rfl⟩ := place_some hp
    have hne : as ≠ [] := by rintro rfl; cases ha
    have hg : granted r as a.1 = true := by simp [granted, hp]
    refine Does.bind (entryAt_does h ha _) ?_
    rintro e P ⟨he, _, _, _, rfl⟩
    obtain ⟨e', he', ho, h3, h4, h5⟩ := strs_split h.ok ha
    rw [he] at he'
    cases he'
    obtain ⟨p, hpa, hQ⟩ := h.some' hne
    have split : Q + (cell v t + G) = cell e.2 a.2 + ((p, Block.other) ::ₘ ((e.1, Block.text a.1) ::ₘ
        (cell v t + strs (s.entries.eraseIdx i) (as.eraseIdx i))) + G) := by
      rw [hQ, h4]
      simp only [Multiset.cons_add, Multiset.add_cons]
      congr 2
      ac_rfl
    rw [split]
    refine Does.bind (freeOpt_does ho _) ?_
    rintro _ P rfl
    refine Does.pure ⟨hg.symm, (p, Block.other) ::ₘ ((e.1, Block.text a.1) ::ₘ (cell v t + strs (s.entries.eraseIdx i) (as.eraseIdx i))), 0, ?_, arrays_zero, ?_⟩
    · rw [if_pos hg]
      unfold put
      simp only [hp]
      obtain ⟨h6, h7⟩ := h5 v t hv
      refine ⟨by rw [List.length_set]; exact h.num, h6, fun _ => ⟨p, hpa, by rw [h7]⟩, fun hn => ?_⟩
      have : (as.set i (a.1, t)).length = 0 := by rw [hn]; rfl
      rw [List.length_set] at this
      exact absurd (List.length_eq_zero_iff.mp this) hne
    · rw [if_pos hg]
      simp
  | none =>
    dsimp only
    have hgr : granted r as n = (!r.array && !r.name) := by simp [granted, hp]
    by_cases ha : r.array = true
    · rw [if_pos ha]
      have hg : granted r as n = false := by rw [hgr, ha]; rfl
      refine Does.pure ⟨hg.symm, Q, 0, ?_, ?_, ?_⟩
      · rw [hg]; exact h
      · simp [lost, ha, arrays_zero]
      · rw [hg]; simp [add_assoc]
    · rw [if_neg ha]
      have ha' : r.array = false := by simpa using ha
      refine Does.bind (grow_does h _) ?_
      rintro p P rfl
      by_cases hn : r.name = true
      · rw [if_pos hn]
        have hg : granted r as n = false := by rw [hgr, hn]; simp
        by_cases he : as = []
        · have hes : s.entries = [] := by have := h.ok; rw [he] at this; exact List.forall₂_nil_right_iff.mp this
          refine Does.pure ⟨hg.symm, 0, {(p, Block.other)}, ?_, ?_, ?_⟩
          · rw [hg]
            exact ⟨h.num, h.ok, fun hc => absurd he hc, fun _ => rfl⟩
          · simp [lost, he, ha', hn, Arrays]
          · rw [hg, hes]
            simp only [strs, Bool.false_eq_true, if_false, ← Multiset.singleton_add, add_zero, zero_add]
            ac_rfl
        · refine Does.pure ⟨hg.symm, (p, Block.other) ::ₘ strs s.entries as, 0, ?_, ?_, ?_⟩
          · rw [hg]
            exact ⟨h.num, h.ok, fun _ => ⟨p, rfl, rfl⟩, fun hc => absurd hc he⟩
          · simp [lost, he, arrays_zero]
          · rw [hg]; simp [add_assoc]
      · rw [if_neg hn]
        have hn' : r.name = false := by simpa using hn
        have hg : granted r as n = true := by rw [hgr, ha', hn']; rfl
        refine Does.bind (alloc_does _ _) ?_
        rintro q P rfl
        have hlen : s.entries.length = as.length := h.ok.length_eq
        have ht : s.entries.take s.num = s.entries := List.take_of_length_le (by rw [h.num, hlen])
        refine Does.pure ⟨hg.symm, (p, Block.other) ::ₘ strs (s.entries ++ [(q, v)]) (as ++ [(n, t)]), 0, ?_, ?_, ?_⟩
        · rw [if_pos hg]
          unfold put
          simp only [hp, ht]
          refine ⟨by simp [h.num], ?_, fun _ => ⟨p, rfl, rfl⟩, fun hc => by simp at hc⟩
          exact forall2_snoc h.ok hv
        · simp [lost, hn', arrays_zero]
        · rw [if_pos hg, strs_append h.ok]
          simp only [Multiset.cons_add, Multiset.add_cons, zero_add, add_zero]
          rw [Multiset.cons_swap]
          congr 2
          ac_rfl

theorem dup_does (refused : Bool) {v : Arg} {t : Option Bytes} {P : Blocks} (h : ArgIs v t P) :
    Does (dupValue refused v) P (fun p R => Ok p (if refused then none else t) ∧ R = cell p (if refused then none else t) + P) := by
  unfold dupValue
  cases refused with
  | true => exact Does.pure ⟨rfl, by simp⟩
  | false => exact clone_does h

theorem setAttr_does {s : Attrs} {as : List (Bytes × Option Bytes)} {Q : Blocks} (h : Owns s as Q) (r : Refused) (n : Bytes)
    {v : Arg} {t : Option Bytes} (G : Blocks) (hv : ArgIs v t (Q + G)) :
    Does (setAttr r s n v) (Q + G) (fun x P => ∃ Q' ls,
      Owns x (if granted r as n = true then put as n (if r.value then none else t) else as) Q' ∧
        Arrays (if (place as n).isSome then 0 else lost r as) ls ∧ P = Q' + (ls + G)) := by
  unfold setAttr
  refine Does.bind (dup_does r.value hv) ?_
  rintro p P ⟨hp, rfl⟩
  rw [show cell p (if r.value = true then none else t) + (Q + G) = Q + (cell p (if r.value = true then none else t) + G) by ac_rfl]
  refine Does.bind (putAttr_does h r n hp G) ?_
  rintro x P ⟨hx, Q', ls, h1, h2, rfl⟩
  by_cases hg : granted r as n = true
  · rw [if_pos (hx.trans hg), if_pos hg]
    rw [if_pos hg] at h1
    exact Does.pure ⟨Q', ls, by rw [if_pos hg]; exact h1, h2, by rw [add_zero]⟩
  · have hx' : ¬ x.1 = true := by rw [hx]; exact hg
    rw [if_neg hx', if_neg hg]
    rw [if_neg hg] at h1
    rw [show Q' + cell p (if r.value = true then none else t) + (ls + G) = cell p (if r.value = true then none else t) + (Q' + (ls + G)) by ac_rfl]
    refine Does.bind (freeOpt_does hp _) ?_
    rintro _ P rfl
    exact Does.pure ⟨Q', ls, by rw [if_neg hg]; exact h1, h2, rfl⟩

/-- Setting a value that was made for it, or giving it back. -/
theorem putOwned_does {s : Attrs} {as : List (Bytes × Option Bytes)} {Q : Blocks} (h : Owns s as Q) (r : Refused) (n : Bytes)
    {p : Option Nat} {t : Option Bytes} (hp : Ok p t) (G : Blocks) :
    Does (putAttr r s n p >>= fun x => if x.1 = true then pure x.2 else (free p >>= fun _ => pure x.2)) (cell p t + (Q + G))
      (fun x P => ∃ Q' ls, Owns x (if granted r as n = true then put as n t else as) Q' ∧
        Arrays (if (place as n).isSome then 0 else lost r as) ls ∧ P = Q' + (ls + G)) := by
  rw [show cell p t + (Q + G) = Q + (cell p t + G) by ac_rfl]
  refine Does.bind (putAttr_does h r n hp G) ?_
  rintro x P ⟨hx, Q', ls, h1, h2, rfl⟩
  by_cases hg : granted r as n = true
  · rw [if_pos (hx.trans hg), if_pos hg]
    rw [if_pos hg] at h1
    exact Does.pure ⟨Q', ls, by rw [if_pos hg]; exact h1, h2, by rw [add_zero]⟩
  · have hx' : ¬ x.1 = true := by rw [hx]; exact hg
    rw [if_neg hx', if_neg hg]
    rw [if_neg hg] at h1
    rw [show Q' + cell p t + (ls + G) = cell p t + (Q' + (ls + G)) by ac_rfl]
    refine Does.bind (freeOpt_does hp _) ?_
    rintro _ P rfl
    exact Does.pure ⟨Q', ls, by rw [if_neg hg]; exact h1, h2, rfl⟩

/-- The text is made, or nothing is, or one buffer is lost. -/
theorem vstrdupf_does (first grow : Bool) (t : Bytes) (ht : t.length < 2147483647) (P : Blocks) :
    Does (vstrdupf first grow t) P (fun p R =>
      if first = true ∨ (grow = true ∧ 256 ≤ t.length) then
        p = none ∧ ∃ ls, Arrays (if first = true then 0 else 1) ls ∧ R = ls + P
      else p ≠ none ∧ Ok p (some t) ∧ R = cell p (some t) + P) := by
  unfold vstrdupf
  cases first with
  | true =>
    rw [if_pos rfl]
    refine Does.pure ?_
    rw [if_pos (.inl rfl), if_pos rfl]
    exact ⟨rfl, 0, arrays_zero, by rw [zero_add]⟩
  | false =>
    rw [if_neg (by decide)]
    by_cases hs : t.length < 256
    · rw [if_pos hs]
      refine Does.bind (alloc_does _ _) ?_
      rintro p R rfl
      refine Does.pure ?_
      rw [if_neg (by rintro (h | h); cases h; omega)]
      exact ⟨by simp, rfl, by rw [cell_some, Multiset.singleton_add]⟩
    · rw [if_neg hs, if_pos ht]
      refine Does.bind (alloc_does _ _) ?_
      rintro p R rfl
      cases grow with
      | true =>
        rw [if_pos rfl]
        refine Does.pure ?_
        rw [if_pos (.inr ⟨rfl, by omega⟩), if_neg (by decide)]
        exact ⟨rfl, {(p, .other)}, ⟨Multiset.card_singleton _, fun x hx => by cases Multiset.mem_singleton.mp hx; rfl⟩, by rw [Multiset.singleton_add]⟩
      | false =>
        rw [if_neg (by decide)]
        refine Does.bind (show Does (free (some p)) _ _ from free_does p _ _) ?_
        rintro _ R rfl
        refine Does.bind (alloc_does _ _) ?_
        rintro q R rfl
        refine Does.pure ?_
        rw [if_neg (by rintro (h | h); cases h; exact absurd h.1 (by decide))]
        exact ⟨by simp, rfl, by rw [cell_some, Multiset.singleton_add]⟩

/-- Whether the text cannot be made. -/
def refusesText (first grow : Bool) (t : Bytes) : Bool := first || (grow && decide (256 ≤ t.length))

theorem setAttrf_does {s : Attrs} {as : List (Bytes × Option Bytes)} {Q : Blocks} (h : Owns s as Q) (first grow : Bool) (r : Refused)
    (n t : Bytes) (ht : t.length < 2147483647) (G : Blocks) :
    Does (setAttrf first grow r s n t) (Q + G) (fun x P => ∃ Q' ls k,
      Owns x (if refusesText first grow t = false ∧ granted r as n = true then put as n (some t) else as) Q' ∧
        Arrays k ls ∧ k ≤ 1 ∧ (r.name = false → (first = true ∨ (grow && decide (256 ≤ t.length)) = false) → k = 0) ∧ P = Q' + (ls + G)) := by
  unfold setAttrf
  refine Does.bind (vstrdupf_does first grow t ht _) ?_
  intro p R hp
  by_cases hc : first = true ∨ (grow = true ∧ 256 ≤ t.length)
  · rw [if_pos hc] at hp
    obtain ⟨rfl, ls, h1, rfl⟩ := hp
    rw [if_pos rfl]
    have hr : refusesText first grow t = true := by unfold refusesText; rcases hc with hc | hc <;> simp [hc]
    refine Does.pure ⟨Q, ls, _, ?_, h1, ?_, ?_, by ac_rfl⟩
    · rw [if_neg (by rw [hr]; simp)]
      exact h
    · split <;> decide
    · intro _ h2
      rcases h2 with h2 | h2
      · rw [if_pos h2]
      · rcases hc with hc | hc
        · rw [if_pos hc]
        · simp [hc] at h2
  · rw [if_neg hc] at hp
    obtain ⟨hp0, hp, rfl⟩ := hp
    rw [if_neg hp0]
    have hr : refusesText first grow t = false := by
      unfold refusesText
      cases first <;> cases grow <;> simp_all
    refine (putOwned_does h r n hp G).mono ?_
    rintro x P ⟨Q', ls, h1, h2, rfl⟩
    refine ⟨Q', ls, _, ?_, h2, ?_, ?_, rfl⟩
    · rw [hr]
      simpa using h1
    · unfold lost
      cases r.name <;> cases (place as n).isSome <;> simp <;> split <;> decide
    · intro hn _
      unfold lost
      simp [hn]

/-! ### Deleting -/

/-- The attributes after one was deleted. -/
def drop (as : List (Bytes × Option Bytes)) (n : Bytes) : List (Bytes × Option Bytes) :=
  match place as n with
  | some i => as.eraseIdx i
  | none => as

theorem freeArray_does {s : Attrs} {p : Nat} (hp : s.array = some p) (P : Blocks) :
    Does (free s.array) ((p, Block.other) ::ₘ P) (fun _ R => R = P) := by
  rw [hp]
  exact free_does p _ P

theorem deleteAttr_does {s : Attrs} {as : List (Bytes × Option Bytes)} {Q : Blocks} (h : Owns s as Q) (n : Bytes) (G : Blocks) :
    Does (deleteAttr s n) (Q + G) (fun x P => ∃ Q', Owns x (drop as n) Q' ∧ P = Q' + G) := by
  unfold deleteAttr
  refine Does.bind (search_all h n G) ?_
  rintro f P ⟨rfl, rfl⟩
  cases hp : place as n with
  | none => exact Does.pure ⟨Q, by unfold drop; simp only [hp]; exact h, rfl⟩
  | some i =>
    obtain ⟨a, ha, rfl⟩ := place_some hp
    have hne : as ≠ [] := by rintro rfl; cases ha
    have hlt : i < as.length := (List.getElem?_eq_some_iff.mp ha).1
    refine Does.bind (entryAt_does h ha _) ?_
    rintro e P ⟨he, _, _, _, rfl⟩
    obtain ⟨e', he', ho, h3, h4, _⟩ := strs_split h.ok ha
    rw [he] at he'
    cases he'
    obtain ⟨p, hpa, hQ⟩ := h.some' hne
    have split : Q + G = (e.1, Block.text a.1) ::ₘ (cell e.2 a.2 + ((p, Block.other) ::ₘ (strs (s.entries.eraseIdx i) (as.eraseIdx i) + G))) := by
      rw [hQ, h4]
      simp only [Multiset.cons_add, Multiset.add_cons]
      rw [Multiset.cons_swap]
      congr 2
      ac_rfl
    rw [split]
    refine Does.bind (free_does _ _ _) ?_
    rintro _ P rfl
    refine Does.bind (freeOpt_does ho _) ?_
    rintro _ P rfl
    have hlen : s.entries.length = as.length := h.ok.length_eq
    have ht : s.entries.take s.num = s.entries := List.take_of_length_le (by rw [h.num, hlen])
    have hd : drop as a.1 = as.eraseIdx i := by unfold drop; simp only [hp]
    have hl : (as.eraseIdx i).length = as.length - 1 := List.length_eraseIdx_of_lt hlt
    by_cases h0 : s.num - 1 = 0
    · rw [if_pos h0]
      refine Does.bind (freeArray_does hpa _) ?_
      rintro _ P rfl
      have hnil : as.eraseIdx i = [] := List.length_eq_zero_iff.mp (by rw [hl, ← h.num]; exact h0)
      rw [hnil] at h3 ⊢
      refine Does.pure ⟨0, ?_, ?_⟩
      · rw [hd, hnil, ht]
        exact ⟨h0, h3, fun hc => absurd rfl hc, fun _ => rfl⟩
      · rw [List.forall₂_nil_right_iff.mp h3]
        rfl
    · rw [if_neg h0]
      refine Does.pure ⟨(p, Block.other) ::ₘ strs (s.entries.eraseIdx i) (as.eraseIdx i), ?_, (Multiset.cons_add _ _ _).symm⟩
      rw [hd, ht]
      refine ⟨by rw [hl, h.num], h3, fun _ => ⟨p, hpa, rfl⟩, fun hc => ?_⟩
      rw [hc] at hl
      rw [h.num] at h0
      exact absurd hl.symm h0

/-! ### Destroying -/

theorem freeEntries_does {s : Attrs} {p : Nat} (hp : s.array = some p) (G : Blocks) :
    ∀ {es : List (Nat × Option Nat)} {as : List (Bytes × Option Bytes)},
      List.Forall₂ (fun (e : Nat × Option Nat) (a : Bytes × Option Bytes) => Ok e.2 a.2) es as → ∀ i, s.entries.drop i = es →
        Does (freeEntries s as.length i) ((p, Block.other) ::ₘ (strs es as + G)) (fun _ P => P = (p, Block.other) ::ₘ G) := by
  intro es as h
  induction h with
  | nil => exact fun i _ => Does.pure (by simp [strs])
  | @cons e a es as hd tl ih =>
    intro i hi
    have he : s.entries[i]? = some e := by
      have := congrArg List.head? hi
      rwa [List.head?_drop] at this
    have hi' : s.entries.drop (i + 1) = es := by
      have := congrArg List.tail hi
      rwa [List.tail_drop] at this
    rw [List.length_cons, freeEntries]
    have entry : Does (entryAt s i) ((p, Block.other) ::ₘ (strs (e :: es) (a :: as) + G))
        (fun r P => r = e ∧ P = (p, Block.other) ::ₘ (strs (e :: es) (a :: as) + G)) := by
      intro m F hm
      have hc : m.cells p = some .other := (hm.cells p _).mpr (by simp)
      exact ⟨e, m, _, by simp only [entryAt, hp, hc, he], ⟨rfl, rfl⟩, hm⟩
    refine Does.bind entry ?_
    rintro r P ⟨rfl, rfl⟩
    have split : (p, Block.other) ::ₘ (strs (r :: es) (a :: as) + G) =
        (r.1, Block.text a.1) ::ₘ (cell r.2 a.2 + ((p, Block.other) ::ₘ (strs es as + G))) := by
      simp only [strs, Multiset.cons_add, Multiset.add_cons]
      rw [Multiset.cons_swap]
      congr 2
      ac_rfl
    rw [split]
    refine Does.bind (free_does _ _ _) ?_
    rintro _ P rfl
    refine Does.bind (freeOpt_does hd _) ?_
    rintro _ P rfl
    exact ih (i + 1) hi'

theorem destroy_does {s : Attrs} {as : List (Bytes × Option Bytes)} {Q : Blocks} (h : Owns s as Q) (G : Blocks) :
    Does (destroy s) (Q + G) (fun _ P => P = G) := by
  unfold destroy
  by_cases hn : as = []
  · have h0 : s.num = 0 := by rw [h.num, hn]; rfl
    rw [if_pos h0, h.none' hn]
    exact Does.pure (by simp)
  · have h0 : ¬ s.num = 0 := by rw [h.num]; simpa using hn
    obtain ⟨p, hp, hQ⟩ := h.some' hn
    rw [if_neg h0, hQ, h.num, Multiset.cons_add]
    refine Does.bind (freeEntries_does hp G h.ok 0 (by rw [List.drop_zero])) ?_
    rintro _ P rfl
    exact freeArray_does hp G

end Afs.AttrMem
