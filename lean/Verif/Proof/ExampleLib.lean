import Verif.Spec.Control
import Mathlib.Data.List.Dedup
/-! # A configuration library that keeps the laws

Used to show that the hypothesis `LawfulConfig` of the theorems about boxing formats can be met.  A
configuration is the list of all assignments made, newest first, with the aliases apart. -/
namespace Afs
open Spec

structure ExConfig where
  sets : List (Bytes × Bytes × Bytes)
  aliases : List (Bytes × Bytes)
deriving DecidableEq, Repr

namespace ExConfig

def get (c : ExConfig) (k p : Bytes) : Option Bytes :=
  (c.sets.find? fun x => x.1 == k && x.2.1 == p).map fun x => x.2.2

def classNames (c : ExConfig) : List Bytes := (c.sets.map Prod.fst).dedup

def propNames (c : ExConfig) (k : Bytes) : List Bytes := ((c.sets.filter fun x => x.1 == k).map fun x => x.2.1).dedup

def classes (c : ExConfig) : List (Bytes × List (Bytes × Bytes)) :=
  c.classNames.map fun k => (k, (c.propNames k).map fun p => (p, (c.get k p).getD []))

open Classical in
noncomputable def isEqual : Option ExConfig → Option ExConfig → Bool
  | none, none => true
  | some a, some b => decide (a.get = b.get ∧ (∀ k, k ∈ a.classNames ↔ k ∈ b.classNames) ∧ a.aliases = b.aliases)
  | _, _ => false

end ExConfig

@[reducible] noncomputable def exLib : ConfigLib where
  Config := ExConfig
  classes := ExConfig.classes
  aliases := ExConfig.aliases
  create := ⟨[], []⟩
  setProperty c k p v := if p = b! "alias" then { c with aliases := c.aliases ++ [(v, k)] } else { c with sets := (k, p, v) :: c.sets }
  property := ExConfig.get
  isSet c k p := (c.get k p).isSome
  propertyInt c k p := ((c.get k p).getD []).length
  propertyUint c k p := ((c.get k p).getD []).length
  isEqual := ExConfig.isEqual
  frame c := (c.get (b! "FrameRaster") (b! "w")).map fun v => ⟨v.length, 10, 8, 8, 2, 64⟩
  stripeSize c := ((c.get (b! "FrameRaster") (b! "h")).getD []).length
  packetSize n l c := n + l + ((c.get (b! "FrameRaster") (b! "h")).getD []).length
  scalingKey := b! "scaling"

namespace ExConfig

theorem lookup_map (l : List Bytes) {β : Type} (f : Bytes → β) (k : Bytes) :
    (l.map fun x => (x, f x)).lookup k = if k ∈ l then some (f k) else none := by
  induction l with
  | nil => rfl
  | cons x l ih =>
    rw [List.map_cons, List.lookup_cons, ih]
    by_cases h : k = x
    · subst h; simp
    · rw [beq_false_of_ne h]; simp [h]

theorem get_mem {c : ExConfig} {k p v : Bytes} (h : c.get k p = some v) : (k, p, v) ∈ c.sets := by
  unfold get at h
  rw [Option.map_eq_some_iff] at h
  obtain ⟨x, hx, rfl⟩ := h
  have h1 := List.mem_of_find?_eq_some hx
  have h2 := List.find?_some hx
  simp only [Bool.and_eq_true, beq_iff_eq] at h2
  obtain ⟨rfl, rfl⟩ := h2
  exact h1

theorem configGet_eq (c : ExConfig) (k p : Bytes) : configGet exLib c k p = c.get k p := by
  change ((classes c).lookup k).bind (fun ps => ps.lookup p) = _
  unfold classes
  rw [lookup_map]
  by_cases hk : k ∈ c.classNames
  · rw [if_pos hk, Option.bind_some, lookup_map]
    by_cases hp : p ∈ c.propNames k
    · rw [if_pos hp]
      cases hg : c.get k p with
      | some v => rfl
      | none =>
        exfalso
        unfold propNames at hp
        rw [List.mem_dedup, List.mem_map] at hp
        obtain ⟨x, hx, rfl⟩ := hp
        rw [List.mem_filter] at hx
        unfold get at hg
        rw [Option.map_eq_none_iff, List.find?_eq_none] at hg
        exact hg x hx.1 (by simpa using hx.2)
    · rw [if_neg hp]
      cases hg : c.get k p with
      | none => rfl
      | some v =>
        exfalso
        apply hp
        unfold propNames
        rw [List.mem_dedup, List.mem_map]
        exact ⟨_, List.mem_filter.mpr ⟨get_mem hg, by simp⟩, rfl⟩
  · rw [if_neg hk, Option.bind_none]
    cases hg : c.get k p with
    | none => rfl
    | some v =>
      exfalso
      apply hk
      unfold classNames
      rw [List.mem_dedup, List.mem_map]
      exact ⟨_, get_mem hg, rfl⟩

theorem hasClass_iff (c : ExConfig) (k : Bytes) : HasClass exLib c k ↔ k ∈ c.classNames := by
  change k ∈ (classes c).map Prod.fst ↔ _
  unfold classes
  rw [List.map_map]
  simp

theorem isEqual_some (a b : ExConfig) : exLib.isEqual (some a) (some b) = true ↔
    a.get = b.get ∧ (∀ k, k ∈ a.classNames ↔ k ∈ b.classNames) ∧ a.aliases = b.aliases := by
  change ExConfig.isEqual (some a) (some b) = true ↔ _
  unfold isEqual
  simp only [decide_eq_true_iff]

theorem lawful : LawfulConfig exLib where
  classes_nodup c := by
    change ((classes c).map Prod.fst).Nodup
    unfold classes
    rw [List.map_map]
    have : (Prod.fst ∘ fun k => (k, (propNames c k).map fun p => (p, (get c k p).getD []))) = id := rfl
    rw [this, List.map_id]
    exact List.nodup_dedup _
  properties_nodup c g hg := by
    change g ∈ classes c at hg
    unfold classes at hg
    obtain ⟨k, _, rfl⟩ := List.mem_map.mp hg
    rw [List.map_map]
    have : (Prod.fst ∘ fun p => (p, (get c k p).getD [])) = id := rfl
    rw [this, List.map_id]
    exact List.nodup_dedup _
  create_classes := rfl
  create_aliases := rfl
  set_get c k p v hp k' p' := by
    rw [configGet_eq, configGet_eq]
    have : exLib.setProperty c k p v = ({ c with sets := (k, p, v) :: c.sets } : ExConfig) := if_neg hp
    rw [this]
    unfold get
    rw [List.find?_cons]
    by_cases h : k' = k ∧ p' = p
    · obtain ⟨rfl, rfl⟩ := h; simp
    · rw [if_neg h]
      have : (k == k' && p == p') = false := by
        cases hb : (k == k' && p == p') with
        | false => rfl
        | true =>
          simp only [Bool.and_eq_true, beq_iff_eq] at hb
          exact absurd ⟨hb.1.symm, hb.2.symm⟩ h
      simp only [this]
  set_class c k p v hp k' := by
    rw [hasClass_iff, hasClass_iff]
    have : exLib.setProperty c k p v = ({ c with sets := (k, p, v) :: c.sets } : ExConfig) := if_neg hp
    rw [this]
    unfold classNames
    simp
  set_aliases c k p v hp := by
    have : exLib.setProperty c k p v = ({ c with sets := (k, p, v) :: c.sets } : ExConfig) := if_neg hp
    rw [this]
  equal_null := rfl
  equal_refl c := (isEqual_some c c).mpr ⟨rfl, fun _ => Iff.rfl, rfl⟩
  equal_of_same a b h1 h2 h3 h4 := by
    refine (isEqual_some a b).mpr ⟨?_, ?_, ?_⟩
    · funext k p
      rw [← configGet_eq, ← configGet_eq, h1]
    · intro k; rw [← hasClass_iff, ← hasClass_iff, h2]
    · exact h3.trans h4.symm
  equal_property a b h := ((isEqual_some a b).mp h).1
  equal_isSet a b h := by
    change (fun k p => (get a k p).isSome) = fun k p => (get b k p).isSome
    rw [((isEqual_some a b).mp h).1]
  equal_propertyInt a b h := by
    change (fun k p => ((get a k p).getD []).length) = fun k p => ((get b k p).getD []).length
    rw [((isEqual_some a b).mp h).1]
  equal_propertyUint a b h := by
    change (fun k p => ((get a k p).getD []).length) = fun k p => ((get b k p).getD []).length
    rw [((isEqual_some a b).mp h).1]
  equal_frame a b h := by
    change (get a _ _).map _ = (get b _ _).map _
    rw [((isEqual_some a b).mp h).1]
  equal_stripeSize a b h := by
    change ((get a _ _).getD []).length = ((get b _ _).getD []).length
    rw [((isEqual_some a b).mp h).1]
  equal_packetSize a b h n l := by
    change n + l + ((get a _ _).getD []).length = n + l + ((get b _ _).getD []).length
    rw [((isEqual_some a b).mp h).1]

end ExConfig
end Afs
