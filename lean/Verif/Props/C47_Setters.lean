import Verif.Props.C32_C35_TagsSizes
/-!
# C47: a metadata source shows the last non-empty value it was given
-/
namespace Afs

/-- A call of one of the two setters of a file metadata source. -/
inductive Spec.SourceCall
  | setData (v : Option Bytes)
  | setFormatId (v : Option Bytes)

open Spec

/-- The last value in a history that is neither NULL nor empty, else the start value. -/
def Spec.lastValue (old : Option Bytes) (h : List (Option Bytes)) : Option Bytes :=
  match (h.filter fun v => decide (v ≠ none ∧ v ≠ some [])).getLast? with
  | none => old
  | some v => v

/-- Running a history of setter calls. -/
def Spec.runCalls (s : FileMetaSource) (h : List SourceCall) : FileMetaSource :=
  h.foldl (fun s c => match c with
    | .setData v => s.setData v
    | .setFormatId v => s.setFormatId v) s

theorem lastValue_cons (old v : Option Bytes) (h : List (Option Bytes)) :
    lastValue old (v :: h) = lastValue (if nullOrEmpty v then old else v) h := by
  have hv : nullOrEmpty v = !decide (v ≠ none ∧ v ≠ some []) := by
    cases v with
    | none => simp [nullOrEmpty]
    | some v => cases v <;> simp [nullOrEmpty]
  unfold lastValue
  rw [List.filter_cons]
  cases hd : decide (v ≠ none ∧ v ≠ some []) with
  | false => simp [hv, hd]
  | true =>
    rw [if_pos rfl, List.getLast?_cons, hv, hd]
    cases (h.filter fun v => decide (v ≠ none ∧ v ≠ some [])).getLast? <;> rfl

/-- After every history of calls each of the two fields shows the last non-empty value given to its
    own setter, and the file id is unchanged. -/
theorem C47_file_metadata_source (s : FileMetaSource) (h : List SourceCall) :
    (runCalls s h).data = lastValue s.data (h.filterMap fun c => match c with | .setData v => some v | .setFormatId _ => none) ∧
    (runCalls s h).formatId = lastValue s.formatId (h.filterMap fun c => match c with | .setFormatId v => some v | .setData _ => none) ∧
    (runCalls s h).fileId = s.fileId := by
  induction h generalizing s with
  | nil => exact ⟨rfl, rfl, rfl⟩
  | cons c l ih =>
    cases c with
    | setData v =>
      obtain ⟨h1, h2, h3⟩ := ih (s.setData v)
      have e1 : (s.setData v).data = if nullOrEmpty v then s.data else v := by
        unfold FileMetaSource.setData; split <;> rfl
      have e2 : (s.setData v).formatId = s.formatId ∧ (s.setData v).fileId = s.fileId := by
        unfold FileMetaSource.setData; split <;> exact ⟨rfl, rfl⟩
      refine ⟨?_, h2.trans (by rw [e2.1]; rfl), h3.trans e2.2⟩
      rw [List.filterMap_cons]
      rw [lastValue_cons, ← e1]
      exact h1
    | setFormatId v =>
      obtain ⟨h1, h2, h3⟩ := ih (s.setFormatId v)
      have e1 : (s.setFormatId v).formatId = if nullOrEmpty v then s.formatId else v := by
        unfold FileMetaSource.setFormatId; split <;> rfl
      have e2 : (s.setFormatId v).data = s.data ∧ (s.setFormatId v).fileId = s.fileId := by
        unfold FileMetaSource.setFormatId; split <;> exact ⟨rfl, rfl⟩
      refine ⟨h1.trans (by rw [e2.1]; rfl), ?_, h3.trans e2.2⟩
      rw [List.filterMap_cons]
      rw [lastValue_cons, ← e1]
      exact h2

/-- The tags of an index metadata source: after every history of `set_tags` the last non-empty
    value is shown, and no other field has changed. -/
theorem C47_tags (s : MetaSource) (h : List (Option Bytes)) :
    (h.foldl MetaSource.setTags s).getTags = lastValue s.getTags h ∧
    { h.foldl MetaSource.setTags s with tags := s.tags } = s := by
  induction h generalizing s with
  | nil => exact ⟨rfl, rfl⟩
  | cons v l ih =>
    obtain ⟨h1, h2⟩ := ih (s.setTags v)
    have e1 : (s.setTags v).getTags = if nullOrEmpty v then s.getTags else v := by
      cases v with
      | none => rfl
      | some v =>
        cases v with
        | nil => rfl
        | cons a v => rw [(C32_set_get_tags s (a :: v) (by simp)).1]; rfl
    have e2 : { s.setTags v with tags := s.tags } = s := by
      cases v with
      | none => rfl
      | some v => cases v <;> rfl
    rw [List.foldl_cons, lastValue_cons, ← e1]
    refine ⟨h1, ?_⟩
    generalize s.setTags v = s' at h2 e2
    generalize l.foldl MetaSource.setTags s' = s'' at h2
    cases s; cases s'; cases s''
    simp only [MetaSource.mk.injEq] at h2 e2 ⊢
    simp_all

/-- The kinds of a file after any sequence of `add_type` calls: the bits given, no others. -/
theorem C47_types (f : File) (h : List Nat) (i : Nat) :
    (h.foldl File.addType f).types.testBit i = (f.types.testBit i || h.any fun t => t.testBit i) ∧
    { h.foldl File.addType f with types := f.types } = f := by
  induction h generalizing f with
  | nil => simp
  | cons t l ih =>
    obtain ⟨h1, h2⟩ := ih (f.addType t)
    rw [List.foldl_cons, h1]
    refine ⟨by simp [File.addType, Nat.testBit_or, Bool.or_assoc], ?_⟩
    have e2 : { f.addType t with types := f.types } = f := rfl
    generalize f.addType t = f' at h2 e2
    generalize l.foldl File.addType f' = f'' at h2
    cases f; cases f'; cases f''
    simp only [File.mk.injEq] at h2 e2 ⊢
    simp_all

/-- Non-vacuity: values come and go, empty ones are ignored. -/
example : (runCalls FileMetaSource.create [.setData (some (b! "a")), .setFormatId (some (b! "x")), .setData (some []),
      .setData (some (b! "b")), .setFormatId none]) =
    { FileMetaSource.create with data := some (b! "b"), formatId := some (b! "x") } := by decide

end Afs
