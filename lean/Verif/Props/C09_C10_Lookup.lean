import Verif.Spec.Lookup
import Verif.Proof.Equal
import Verif.Props.C06_Containers
/-!
# C09 lookup by id finds the first match; C10 parents, children, standalone files
-/
namespace Afs
open Spec

theorem reelFiles_eq (r : Reel) : r.list = reelFiles r := by
  unfold Reel.list reelFiles Files.list
  cases r.files <;> rfl

theorem allFiles_eq (t : TocData) : t.reelList.flatMap Reel.list = allFiles t := by
  unfold TocData.reelList allFiles Reels.list
  have : Reel.list = reelFiles := funext reelFiles_eq
  rw [this]
  cases t.reels <;> rfl

theorem firstMatch_cons_pos {A : Type} {P : A → Prop} {x : A} (l : List A) (h : P x) :
    FirstMatch P (x :: l) (some x) := ⟨h, [], l, rfl, by simp⟩

theorem firstMatch_cons_neg {A : Type} {P : A → Prop} {x : A} {l : List A} {r : Option A}
    (h : ¬ P x) (hr : FirstMatch P l r) : FirstMatch P (x :: l) r := by
  cases r with
  | none =>
    intro y hy
    rcases List.mem_cons.mp hy with rfl | hy
    · exact h
    · exact hr y hy
  | some y =>
    obtain ⟨h1, pre, post, rfl, h2⟩ := hr
    refine ⟨h1, x :: pre, post, rfl, ?_⟩
    intro z hz
    rcases List.mem_cons.mp hz with rfl | hz
    · exact h
    · exact h2 z hz

theorem firstMatch_append {A : Type} {P : A → Prop} {l m : List A} {r : Option A}
    (h : ∀ x ∈ l, ¬ P x) (hr : FirstMatch P m r) : FirstMatch P (l ++ m) r := by
  induction l with
  | nil => exact hr
  | cons x l ih =>
    exact firstMatch_cons_neg (h x (by simp)) (ih fun y hy => h y (by simp [hy]))

theorem firstMatch_append_left {A : Type} {P : A → Prop} {l : List A} {x : A}
    (hr : FirstMatch P l (some x)) (m : List A) : FirstMatch P (l ++ m) (some x) := by
  obtain ⟨h1, pre, post, rfl, h2⟩ := hr
  exact ⟨h1, pre, post ++ m, by simp, h2⟩

/-- The specification determines the result. -/
theorem firstMatch_unique {A : Type} {P : A → Prop} {l : List A} {r r' : Option A}
    (h : FirstMatch P l r) (h' : FirstMatch P l r') : r = r' := by
  induction l with
  | nil =>
    cases r <;> cases r' <;> simp [FirstMatch] at h h' <;> rfl
  | cons x l ih =>
    have aux : ∀ r, FirstMatch P (x :: l) r → (P x ∧ r = some x) ∨ (¬ P x ∧ FirstMatch P l r) := by
      intro r h
      cases r with
      | none =>
        exact Or.inr ⟨h x (by simp), fun y hy => h y (by simp [hy])⟩
      | some y =>
        obtain ⟨h1, pre, post, heq, h2⟩ := h
        cases pre with
        | nil => simp at heq; left; rw [heq.1]; exact ⟨h1, rfl⟩
        | cons z pre =>
          simp at heq; right
          exact ⟨heq.1 ▸ h2 z (by simp), h1, pre, post, heq.2, fun w hw => h2 w (by simp [hw])⟩
    rcases aux r h with ⟨a, b⟩ | ⟨a, b⟩ <;> rcases aux r' h' with ⟨a', b'⟩ | ⟨a', b'⟩
    · rw [b, b']
    · exact absurd a a'
    · exact absurd a' a
    · exact ih b b'

theorem findId_first (id : Int) (l : List File) :
    FirstMatch (fun f => f.id = id) l (Reel.findId id l) := by
  induction l with
  | nil => intro x hx; simp at hx
  | cons f fs ih =>
    unfold Reel.findId
    split
    · rename_i h; exact firstMatch_cons_pos fs h
    · rename_i h; exact firstMatch_cons_neg h ih

/-! ### C09 -/

theorem C09_reel_file_by_id (r : Reel) (id : Int) :
    FirstMatch (fun f => f.id = id) (reelFiles r) (Reel.fileById (some r) id) ∧
    Reel.fileById none id = none := by
  refine ⟨?_, rfl⟩
  rw [← reelFiles_eq]
  exact findId_first id r.list

theorem C09_toc_file_by_id (t : TocData) (id : Int) :
    FirstMatch (fun f => f.id = id) (allFiles t) (TocData.fileById (some t) id) ∧
    TocData.fileById none id = none := by
  refine ⟨?_, rfl⟩
  rw [← allFiles_eq]
  show FirstMatch _ _ (TocData.findFile id t.reelList)
  generalize t.reelList = l
  induction l with
  | nil => intro x hx; simp at hx
  | cons r rs ih =>
    have h := findId_first id r.list
    have step : TocData.findFile id (r :: rs) =
        (match Reel.findId id r.list with
          | some f => some f
          | none => TocData.findFile id rs) := rfl
    rw [step, List.flatMap_cons]
    cases hr : Reel.findId id r.list with
    | none => rw [hr] at h; exact firstMatch_append h ih
    | some f => rw [hr] at h; exact firstMatch_append_left h _

theorem findUniqueId_spec (u : Bytes) (l : List File) :
    (∃ r, Reel.findUniqueId u l = .ok r ∧ FirstMatch (fun f => f.uniqueId = some u) l r) ∨
    (Reel.findUniqueId u l = .ub ∧ ∃ pre f post, l = pre ++ f :: post ∧ f.uniqueId = none ∧
      ∀ g ∈ pre, g.uniqueId ≠ some u) := by
  induction l with
  | nil => exact Or.inl ⟨none, rfl, by intro x hx; simp at hx⟩
  | cons f fs ih =>
    unfold Reel.findUniqueId
    cases hu : f.uniqueId with
    | none => exact Or.inr ⟨rfl, [], f, fs, rfl, hu, by simp⟩
    | some b =>
      by_cases hb : b = u
      · left
        refine ⟨some f, by simp [strcmpEq, hb], firstMatch_cons_pos fs (by rw [hu, hb])⟩
      · have hne : ¬ f.uniqueId = some u := by rw [hu]; simpa using hb
        rcases ih with ⟨r, h1, h2⟩ | ⟨h1, pre, g, post, rfl, h3, h4⟩
        · left; exact ⟨r, by simp [strcmpEq, hb, h1], firstMatch_cons_neg hne h2⟩
        · right
          refine ⟨by simp [strcmpEq, hb, h1], f :: pre, g, post, rfl, h3, ?_⟩
          intro x hx
          rcases List.mem_cons.mp hx with rfl | hx
          · exact hne
          · exact h4 x hx

/-- Lookup by unique id in a reel: the first file with that unique id, when every file has one. -/
theorem C09_reel_file_by_unique_id (r : Reel) (u : Bytes) (hu : u ≠ [])
    (h : ∀ f ∈ reelFiles r, f.uniqueId ≠ none) :
    ∃ x, Reel.fileByUniqueId (some r) (some u) = .ok x ∧
      FirstMatch (fun f => f.uniqueId = some u) (reelFiles r) x := by
  rw [← reelFiles_eq] at h ⊢
  have : ¬ u.length = 0 := by simpa using hu
  simp only [Reel.fileByUniqueId, this, if_false]
  rcases findUniqueId_spec u r.list with h1 | ⟨_, pre, f, post, heq, hf, _⟩
  · exact h1
  · exact absurd hf (h f (by rw [heq]; simp))

/-- NULL or empty unique ids, or a NULL reel, are never found. -/
theorem C09_unique_id_null (r : Option Reel) (u : Option Bytes) (h : r = none ∨ u = none ∨ u = some []) :
    Reel.fileByUniqueId r u = .ok none := by
  rcases h with rfl | rfl | rfl
  · cases u <;> rfl
  · cases r <;> rfl
  · cases r <;> rfl

/-- Nor in the data reels of a table of contents. -/
theorem C09_toc_unique_id_null (t : Option TocData) (u : Option Bytes) (h : t = none ∨ u = none ∨ u = some []) :
    TocData.fileByUniqueId t u = .ok none := by
  rcases h with rfl | rfl | rfl
  · unfold TocData.fileByUniqueId; split <;> rfl
  · cases t <;> rfl
  · cases t <;> rfl

theorem C09_toc_file_by_unique_id (t : TocData) (u : Bytes) (hu : u ≠ [])
    (h : ∀ f ∈ allFiles t, f.uniqueId ≠ none) :
    ∃ x, TocData.fileByUniqueId (some t) (some u) = .ok x ∧
      FirstMatch (fun f => f.uniqueId = some u) (allFiles t) x := by
  rw [← allFiles_eq] at h ⊢
  have hul : ¬ u.length = 0 := by simpa using hu
  have hn : nullOrEmpty (some u) = false := by cases u with
    | nil => exact absurd rfl hu
    | cons a b => rfl
  simp only [TocData.fileByUniqueId, hn, Bool.false_eq_true, if_false]
  revert h
  generalize t.reelList = l
  intro h
  induction l with
  | nil => exact ⟨none, rfl, by intro x hx; simp at hx⟩
  | cons r rs ih =>
    rw [List.flatMap_cons] at h ⊢
    obtain ⟨x, hx, hm⟩ := C09_reel_file_by_unique_id r u hu
      (fun f hf => h f (by rw [← reelFiles_eq] at hf; simp [hf]))
    rw [← reelFiles_eq] at hm
    unfold TocData.findFileUnique
    rw [hx]
    cases x with
    | some f => exact ⟨some f, rfl, firstMatch_append_left hm _⟩
    | none =>
      obtain ⟨y, hy, hm'⟩ := ih (fun f hf => h f (by simp only [List.mem_append]; exact Or.inr hf))
      exact ⟨y, hy, firstMatch_append hm hm'⟩

/-- The claim fails without the hypothesis: a file with a NULL unique id before the match makes the
    search compare against NULL (undefined behaviour), exactly in that case. -/
theorem C09_null_unique_id_is_undefined (r : Reel) (u : Bytes) (hu : u ≠ []) :
    Reel.fileByUniqueId (some r) (some u) = .ub ↔
      ∃ pre f post, reelFiles r = pre ++ f :: post ∧ f.uniqueId = none ∧
        ∀ g ∈ pre, g.uniqueId ≠ some u := by
  rw [← reelFiles_eq]
  have : ¬ u.length = 0 := by simpa using hu
  simp only [Reel.fileByUniqueId, this, if_false]
  constructor
  · intro h
    rcases findUniqueId_spec u r.list with ⟨x, h1, _⟩ | ⟨_, h2⟩
    · rw [h1] at h; cases h
    · exact h2
  · rintro ⟨pre, f, post, heq, hf, hpre⟩
    rw [heq]; clear heq
    induction pre with
    | nil => simp [Reel.findUniqueId, hf, strcmpEq]
    | cons g pre ih =>
      have hg := hpre g (by simp)
      have ih := ih (fun x hx => hpre x (by simp [hx]))
      rw [List.cons_append]
      unfold Reel.findUniqueId
      cases hgu : g.uniqueId with
      | none => rfl
      | some b =>
        rw [hgu] at hg
        have : b ≠ u := by intro h; exact hg (by rw [h])
        simp [strcmpEq, this, ih]

/-- Reel lookup by id: the first reel whose id is the given string (NULL counting as ""). -/
theorem C09_reel_by_id (t : TocData) (id : Option Bytes) :
    FirstMatch (fun r : Reel => r.id.getD [] = id.getD []) ((t.reels.bind Reels.reels).getD [])
      (TocData.reelById (some t) id) := by
  have e : t.reelList = (t.reels.bind Reels.reels).getD [] := by
    unfold TocData.reelList Reels.list; cases t.reels <;> rfl
  rw [← e]
  show FirstMatch _ _ (TocData.findReel id t.reelList)
  generalize t.reelList = l
  induction l with
  | nil => intro x hx; simp at hx
  | cons r rs ih =>
    have key : strEq r.id id = true ↔ r.id.getD [] = id.getD [] := by
      simp only [strEq, beq_iff_eq]
      cases r.id <;> cases id <;> rfl
    unfold TocData.findReel
    split
    · rename_i h; exact firstMatch_cons_pos rs (key.mp h)
    · rename_i h; exact firstMatch_cons_neg (fun hc => h (key.mpr hc)) ih

/-- Non-vacuity: the first of two files with id 7, across reels. -/
example : TocData.fileById
    (some { TocData.create with reels := some ⟨some [⟨some (b! "r"), none⟩,
      ⟨some (b! "s"), some ⟨some [{ okFile 1 2 with id := 6 }, { okFile 3 4 with id := 7 },
        { okFile 5 6 with id := 7 }]⟩⟩]⟩ }) 7 = some { okFile 3 4 with id := 7 } := by decide

example : Reel.fileByUniqueId
    (some ⟨none, some ⟨some [{ okFile 1 2 with uniqueId := some (b! "a") },
      { okFile 3 4 with uniqueId := some (b! "b") }]⟩⟩) (some (b! "b")) =
    .ok (some { okFile 3 4 with uniqueId := some (b! "b") }) := by decide

/-! ### C10 -/

theorem selectLoop_list (p : File → Bool) (type : Nat) (l : List File) (acc : Option Files) :
    resultFiles (Reel.selectLoop p type acc l) = resultFiles acc ++
      l.filter (fun f => p f && decide (f.types &&& type ≠ 0) && f.isValid) := by
  induction l generalizing acc with
  | nil => simp [Reel.selectLoop]
  | cons f fs ih =>
    unfold Reel.selectLoop
    by_cases h : p f = true ∧ f.types &&& type ≠ 0
    · rw [if_pos h, ih, List.filter_cons]
      have hacc : ∀ a : Files, resultFiles (some (Files.addToc a (some f.clone)).2) =
          resultFiles (some a) ++ (if f.isValid then [f] else []) := by
        intro a
        rw [file_clone]
        cases hv : f.isValid
        · simp [Files.addToc, hv, resultFiles]
        · simp [Files.addToc, hv, resultFiles, vecAppend_getD]
      rw [hacc]
      cases acc <;> cases hv : f.isValid <;> simp [h.1, h.2, resultFiles, Files.create]
    · rw [if_neg h, ih, List.filter_cons]
      have : (p f && decide (f.types &&& type ≠ 0) && f.isValid) = false := by
        rw [Bool.and_eq_false_iff]; left
        rw [Bool.and_eq_false_iff]
        by_cases hp : p f = true
        · right; simp; tauto
        · left; simpa using hp
      rw [this]; simp

theorem and_one_ne (n : Nat) : (n &&& 1 ≠ 0) ↔ n.testBit 0 = true := by
  rw [Nat.and_one_is_mod, Nat.testBit_zero]; simp

theorem and_two_ne (n : Nat) : (n &&& 2 ≠ 0) ↔ n.testBit 1 = true := by
  have : n &&& 2 = if n.testBit 1 then 2 else 0 := by
    apply Nat.eq_of_testBit_eq
    intro i
    rw [Nat.testBit_and]
    have h2 : (2 : Nat).testBit i = decide (i = 1) := by
      rw [show (2 : Nat) = 2 ^ 1 from rfl, Nat.testBit_two_pow]; congr 1; exact propext eq_comm
    rw [h2]
    by_cases hi : i = 1
    · subst hi; cases n.testBit 1 <;> simp [h2]
    · have h2' : (2 : Nat).testBit i = false := by rw [h2]; simp [hi]
      cases n.testBit 1 <;> simp [hi, h2']
  rw [this]; cases n.testBit 1 <;> simp

theorem selects_iff (mask : Nat) (f : File) :
    f.types &&& sectionToType mask ≠ 0 ↔ selects mask f = true := by
  unfold sectionToType selects SECTION_DIGITAL SECTION_PREVIEW TYPE_DIGITAL TYPE_PREVIEW
  have h1 := and_one_ne mask
  have h2 := and_two_ne mask
  have h3 := and_one_ne f.types
  have h4 := and_two_ne f.types
  cases hd : mask.testBit 0 <;> cases hp : mask.testBit 1 <;> simp only [hd, hp] at h1 h2
  · have a1 : mask &&& 1 = 0 := by simpa using h1
    have a2 : mask &&& 2 = 0 := by simpa using h2
    simp [a1, a2]
  · have a1 : mask &&& 1 = 0 := by simpa using h1
    have a2 : mask &&& 2 ≠ 0 := by simpa using h2
    rw [if_neg (by simp [a1]), if_pos a2]
    simpa using h4
  · have a1 : mask &&& 1 ≠ 0 := by simpa using h1
    have a2 : mask &&& 2 = 0 := by simpa using h2
    rw [if_pos a1, if_neg (by simp [a2])]
    simp
  · have a1 : mask &&& 1 ≠ 0 := by simpa using h1
    have a2 : mask &&& 2 ≠ 0 := by simpa using h2
    rw [if_pos a1, if_pos a2, Nat.and_or_distrib_left]
    simp only [Bool.true_and, Bool.or_eq_true, ← h3, ← h4]
    rw [Ne, Nat.or_eq_zero_iff]; tauto

theorem filter_eq (p q : File → Bool) (mask : Nat) (l : List File)
    (hp : ∀ f, p f = q f) (hv : ∀ f ∈ l, f.isValid = true) :
    l.filter (fun f => p f && decide (f.types &&& sectionToType mask ≠ 0) && f.isValid) =
    l.filter (fun f => q f && selects mask f) := by
  apply List.filter_congr
  intro f hf
  rw [hv f hf, Bool.and_true, hp]
  congr 1
  rw [Bool.eq_iff_iff]; simpa using selects_iff mask f

theorem isStandalone_eq (f : File) : f.isStandalone = decide (f.parentId = -2) := by
  unfold File.isStandalone File.hasParent File.isParent FILE_PARENT FILE_NO_PARENT
  by_cases h1 : f.parentId = -1
  · simp [h1]
  · by_cases h2 : f.parentId = -2 <;> simp [h1, h2]

/-- For every mask: the parent files are exactly the selected files marked as parents (-1), the
    child files the selected files not marked so, the standalone files the selected files with
    "no parent" (-2); each in reel order. -/
theorem C10_selection (r : Reel) (mask : Nat) (hv : ∀ f ∈ reelFiles r, f.isValid = true) :
    resultFiles (Reel.parentFiles (some r) mask) =
      (reelFiles r).filter (fun f => decide (f.parentId = -1) && selects mask f) ∧
    resultFiles (Reel.childFiles (some r) mask) =
      (reelFiles r).filter (fun f => decide (f.parentId ≠ -1) && selects mask f) ∧
    resultFiles (Reel.standaloneFiles (some r) mask) =
      (reelFiles r).filter (fun f => decide (f.parentId = -2) && selects mask f) := by
  rw [← reelFiles_eq] at hv ⊢
  have e0 : resultFiles none = [] := rfl
  refine ⟨?_, ?_, ?_⟩
  · simp only [Reel.parentFiles]
    rw [selectLoop_list, e0, List.nil_append]
    exact filter_eq _ _ _ _ (fun f => by simp [File.isParent, FILE_PARENT]; rfl) hv
  · simp only [Reel.childFiles]
    rw [selectLoop_list, e0, List.nil_append]
    exact filter_eq _ _ _ _ (fun f => by
      simp only [File.isParent, FILE_PARENT]
      by_cases h : f.parentId = -1 <;> simp [h]) hv
  · simp only [Reel.standaloneFiles]
    rw [selectLoop_list, e0, List.nil_append]
    exact filter_eq _ _ _ _ isStandalone_eq hv

/-- Partition: every selected file is a parent file or a child file, never both; and every child
    file is either a standalone file or has a parent entry, never both. -/
theorem C10_partition (r : Reel) (mask : Nat) (hv : ∀ f ∈ reelFiles r, f.isValid = true) :
    let P := resultFiles (Reel.parentFiles (some r) mask)
    let C := resultFiles (Reel.childFiles (some r) mask)
    let S := resultFiles (Reel.standaloneFiles (some r) mask)
    (P ++ C).Perm ((reelFiles r).filter (selects mask)) ∧
    (∀ f, ¬ (f ∈ P ∧ f ∈ C)) ∧
    (∀ f, f ∈ S ↔ f ∈ C ∧ f.hasParent = false) ∧
    (∀ f ∈ P, f.isParent = true) := by
  obtain ⟨h1, h2, h3⟩ := C10_selection r mask hv
  simp only [h1, h2, h3]
  refine ⟨?_, ?_, ?_, ?_⟩
  · have e1 : (reelFiles r).filter (fun f => decide (f.parentId = -1) && selects mask f) =
        ((reelFiles r).filter (selects mask)).filter (fun f => decide (f.parentId = -1)) := by
      rw [List.filter_filter]
    have e2 : (reelFiles r).filter (fun f => decide (f.parentId ≠ -1) && selects mask f) =
        ((reelFiles r).filter (selects mask)).filter (fun f => !decide (f.parentId = -1)) := by
      rw [List.filter_filter]
      apply List.filter_congr
      intro f _
      by_cases h : f.parentId = -1 <;> simp [h]
    rw [e1, e2]
    exact List.filter_append_perm _ _
  · rintro f ⟨ha, hb⟩
    simp only [List.mem_filter, Bool.and_eq_true, decide_eq_true_eq] at ha hb
    exact hb.2.1 ha.2.1
  · intro f
    simp only [List.mem_filter, Bool.and_eq_true, decide_eq_true_eq, File.hasParent, File.isParent,
      FILE_PARENT, FILE_NO_PARENT]
    by_cases h1 : f.parentId = -1
    · simp [h1]
    · by_cases h2 : f.parentId = -2 <;> simp [h1, h2]
  · intro f hf
    simp only [List.mem_filter, Bool.and_eq_true, decide_eq_true_eq] at hf
    simp [File.isParent, FILE_PARENT, hf.2.1]

/-- `get_child_files` does not mean "files that have a parent": a standalone file is returned. -/
theorem C10_child_files_include_standalone :
    let f := okFile 1 2
    f.isStandalone = true ∧ f.hasParent = false ∧
    resultFiles (Reel.childFiles (some ⟨some (b! "r"), some ⟨some [f]⟩⟩) SECTION_DIGITAL) = [f] := by
  decide

/-- Non-vacuity: one parent, one child, one standalone, one file of the wrong kind. -/
example :
    let p := { okFile 1 2 with parentId := -1 }
    let c := { okFile 3 4 with parentId := 5 }
    let s := okFile 5 6
    let x := { okFile 7 8 with types := 0 }
    let r : Reel := ⟨some (b! "r"), some ⟨some [p, c, s, x]⟩⟩
    resultFiles (Reel.parentFiles (some r) 1) = [p] ∧ resultFiles (Reel.childFiles (some r) 1) = [c, s] ∧
    resultFiles (Reel.standaloneFiles (some r) 1) = [s] ∧
    (∀ f ∈ reelFiles r, f.isValid = true) := by decide

end Afs
