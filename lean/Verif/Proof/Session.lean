import Verif.Spec.Session
/-!
# Proofs about histories of saves and loads (C73)
-/
namespace Afs.Session
open Afs Afs.Xml Afs.Spec.Session

/-- Nothing is open, and the documents are those in `l`. -/
structure Quiet (s : Sys) (disk : Bytes → Option Bytes) (l : List Nat) : Prop where
  disk : s.disk = disk
  closed : ∀ h, s.handles h = none
  docs : ∀ d, s.docs d ≠ none ↔ d ∈ l
  nodup : l.Nodup
  lt : ∀ d ∈ l, d < s.next

/-- What a program ends with: a result, a disk and a number of new documents. -/
def Ends {α : Type} (p : M α) (disk : Bytes → Option Bytes) (out : Res (α × (Bytes → Option Bytes) × Nat)) : Prop :=
  ∀ s l, Quiet s disk l → match out with
    | .ub => p s = .ub
    | .ok (r, disk', k) => ∃ s' l', p s = .ok (r, s') ∧ Quiet s' disk' l' ∧ l'.length = l.length + k

theorem bind_eq {α β : Type} (p : M α) (k : α → M β) (s : Sys) : (p >>= k) s = match p s with
    | .ub => .ub
    | .ok (a, s') => k a s' := rfl

theorem pure_eq {α : Type} (a : α) (s : Sys) : (pure a : M α) s = .ok (a, s) := rfl

theorem update_same {α β : Type} [DecidableEq α] (f : α → β) (a : α) (b : β) : update f a b a = b := by simp [update]

theorem update_update {α β : Type} [DecidableEq α] (f : α → β) (a : α) (b c : β) : update (update f a b) a c = update f a c := by
  funext x; simp only [update]; split <;> rfl

theorem update_ne {α β : Type} [DecidableEq α] (f : α → β) {a x : α} (b : β) (h : x ≠ a) : update f a b x = f x := by simp [update, h]

theorem Quiet.fresh {s : Sys} {disk l} (h : Quiet s disk l) {d : Nat} (hd : s.next ≤ d) : s.docs d = none := by
  cases hc : s.docs d with
  | none => rfl
  | some t =>
    have := h.lt d ((h.docs d).mp (by simp [hc]))
    omega

theorem Quiet.undo {s : Sys} {disk l} (h : Quiet s disk l) {n : Nat} (hn : s.next ≤ n) (t : Option Node) :
    update (update s.docs n t) n none = s.docs := by
  funext x
  simp only [update]
  split
  · rename_i e; rw [e, h.fresh hn]
  · rfl

theorem Quiet.undo1 {s : Sys} {disk l} (h : Quiet s disk l) {n : Nat} (hn : s.next ≤ n) : update s.docs n none = s.docs := by
  funext x
  simp only [update]
  split
  · rename_i e; rw [e, h.fresh hn]
  · rfl

theorem Quiet.unopen {s : Sys} {disk l} (h : Quiet s disk l) (n : Nat) : update s.handles n none = s.handles := by
  funext x
  simp only [update]
  split
  · rename_i e; rw [e, h.closed]
  · rfl

/-- A new document that stays. -/
theorem Quiet.keep {s : Sys} {disk l} (h : Quiet s disk l) {n : Nat} (t : Node) {m : Nat} (hn : s.next ≤ n) (hm : n < m) (disk' : Bytes → Option Bytes) :
    Quiet ⟨disk', s.handles, update s.docs n (some t), m⟩ disk' (n :: l) := by
  refine ⟨rfl, h.closed, fun d => ?_, ?_, fun d hd => ?_⟩
  · show update s.docs n (some t) d ≠ none ↔ _
    by_cases e : d = n
    · subst e; simp [update]
    · rw [update_ne _ _ e, h.docs d]; simp [e]
  · refine List.nodup_cons.mpr ⟨fun hm => ?_, h.nodup⟩
    have := h.lt n hm
    omega
  · rcases List.mem_cons.mp hd with rfl | hd
    · exact hm
    · have := h.lt d hd
      show d < m
      omega

/-- The same documents, another disk. -/
theorem Quiet.same {s : Sys} {disk l} (h : Quiet s disk l) {m : Nat} (hm : s.next ≤ m) (disk' : Bytes → Option Bytes) :
    Quiet ⟨disk', s.handles, s.docs, m⟩ disk' l :=
  ⟨rfl, h.closed, h.docs, h.nodup, fun d hd => Nat.lt_of_lt_of_le (h.lt d hd) hm⟩

theorem Quiet.self {s : Sys} {disk l} (h : Quiet s disk l) (m : Nat) (hm : s.next ≤ m) : Quiet ⟨s.disk, s.handles, s.docs, m⟩ disk l := by
  have := h.same hm s.disk
  rwa [h.disk] at this ⊢

/-- What `*_save_file` does. -/
def saveOut (lost : Nat) (allowed : Bool) (tree : Option Node) (write : Node → Res Bytes) (canOpen openFirst : Bool) (name : Bytes)
    (disk : Bytes → Option Bytes) : Res (Bool × (Bytes → Option Bytes) × Nat) :=
  if allowed = false then .ok (false, disk, 0)
  else match tree with
    | none => if canOpen then .ok (false, if openFirst then update disk name (some []) else disk, 0)
              else .ok (false, disk, if openFirst then lost else 0)
    | some t => if canOpen then (match write t with
        | .ub => .ub
        | .ok b => .ok (true, update disk name (some b), 0))
      else .ok (false, disk, lost)

theorem saveDocOpenFill_ends (delete allowed : Bool) (tree : Option Node) (write : Node → Res Bytes) (canOpen : Bool) (name : Bytes)
    (disk : Bytes → Option Bytes) :
    Ends (saveDocOpenFill delete allowed tree write canOpen name) disk
      (saveOut (if delete then 0 else 1) allowed tree write canOpen true name disk) := by
  intro s l h
  obtain ⟨sd, sh, sx, sn⟩ := s
  have hd : sd = disk := h.disk
  subst hd
  unfold saveOut
  cases allowed
  · exact ⟨_, l, rfl, h, rfl⟩
  have hx := h.undo1 (Nat.le_refl _)
  have hh := h.unopen (sn + 1)
  cases canOpen
  · have e : saveDocOpenFill delete true tree write false name ⟨sd, sh, sx, sn⟩ =
        .ok (false, ⟨sd, sh, if delete then sx else update sx sn (some Node.newXML), sn + 1⟩) := by
      cases delete <;>
        simp [saveDocOpenFill, bind_eq, pure_eq, newXML, fopenWrite, mxmlDelete, update_same, update_update, hx]
    rw [e]
    cases delete with
    | true =>
      have hq := h.same (Nat.le_succ sn) sd
      cases tree <;> exact ⟨_, l, rfl, hq, rfl⟩
    | false =>
      have hq := h.keep (n := sn) Node.newXML (Nat.le_refl _) (Nat.lt_succ_self sn) sd
      cases tree <;> exact ⟨_, sn :: l, rfl, hq, rfl⟩
  · cases tree with
    | none =>
      have e : saveDocOpenFill delete true none write true name ⟨sd, sh, sx, sn⟩ =
          .ok (false, ⟨update sd name (some []), sh, sx, sn + 2⟩) := by
        simp [saveDocOpenFill, bind_eq, pure_eq, newXML, fopenWrite, fill, fclose, mxmlDelete, update_same, update_update, hx, hh]
      rw [e]
      exact ⟨_, l, rfl, h.same (by show sn ≤ sn + 2; omega) _, rfl⟩
    | some t =>
      cases hw : write t with
      | ub =>
        simp only [hw, Bool.true_eq_false, if_false, if_true]
        show saveDocOpenFill delete true (some t) write true name ⟨sd, sh, sx, sn⟩ = .ub
        simp [saveDocOpenFill, bind_eq, pure_eq, newXML, fopenWrite, fill, mxmlSaveFile, update_same, update_update, hw]
      | ok b =>
        have e : saveDocOpenFill delete true (some t) write true name ⟨sd, sh, sx, sn⟩ =
            .ok (true, ⟨update sd name (some b), sh, sx, sn + 2⟩) := by
          simp [saveDocOpenFill, bind_eq, pure_eq, newXML, fopenWrite, fill, mxmlSaveFile, fclose, mxmlDelete, update_same, update_update, hx, hh, hw]
        simp only [hw, Bool.true_eq_false, if_false, if_true]
        exact ⟨_, l, e, h.same (by show sn ≤ sn + 2; omega) _, rfl⟩

theorem saveDocFillOpen_ends (allowed : Bool) (tree : Option Node) (write : Node → Res Bytes) (canOpen : Bool) (name : Bytes)
    (disk : Bytes → Option Bytes) :
    Ends (saveDocFillOpen allowed tree write canOpen name) disk (saveOut 1 allowed tree write canOpen false name disk) := by
  intro s l h
  obtain ⟨sd, sh, sx, sn⟩ := s
  have hd : sd = disk := h.disk
  subst hd
  unfold saveOut
  cases allowed
  · exact ⟨_, l, rfl, h, rfl⟩
  have hx := h.undo1 (Nat.le_refl _)
  have hh := h.unopen (sn + 1)
  cases tree with
  | none =>
    have e : saveDocFillOpen true none write canOpen name ⟨sd, sh, sx, sn⟩ = .ok (false, ⟨sd, sh, sx, sn + 1⟩) := by
      simp [saveDocFillOpen, bind_eq, pure_eq, newXML, fill, mxmlDelete, update_same, update_update, hx]
    rw [e]
    cases canOpen <;> exact ⟨_, l, rfl, h.same (Nat.le_succ sn) _, rfl⟩
  | some t =>
    cases canOpen with
    | false =>
      have e : saveDocFillOpen true (some t) write false name ⟨sd, sh, sx, sn⟩ = .ok (false, ⟨sd, sh, update sx sn (some t), sn + 1⟩) := by
        simp [saveDocFillOpen, bind_eq, pure_eq, newXML, fopenWrite, fill, update_same, update_update]
      rw [e]
      exact ⟨_, sn :: l, rfl, h.keep t (Nat.le_refl _) (Nat.lt_succ_self sn) _, rfl⟩
    | true =>
      cases hw : write t with
      | ub =>
        simp only [hw, Bool.true_eq_false, if_false, if_true]
        show saveDocFillOpen true (some t) write true name ⟨sd, sh, sx, sn⟩ = .ub
        simp [saveDocFillOpen, bind_eq, pure_eq, newXML, fopenWrite, fill, mxmlSaveFile, update_same, update_update, hw]
      | ok b =>
        have e : saveDocFillOpen true (some t) write true name ⟨sd, sh, sx, sn⟩ =
            .ok (true, ⟨update sd name (some b), sh, sx, sn + 2⟩) := by
          simp [saveDocFillOpen, bind_eq, pure_eq, newXML, fopenWrite, fill, mxmlSaveFile, fclose, mxmlDelete, update_same, update_update, hx, hh, hw]
        simp only [hw, Bool.true_eq_false, if_false, if_true]
        exact ⟨_, l, e, h.same (by show sn ≤ sn + 2; omega) _, rfl⟩

theorem saveOpenDocFill_ends (allowed : Bool) (tree : Option Node) (write : Node → Res Bytes) (canOpen : Bool) (name : Bytes)
    (disk : Bytes → Option Bytes) :
    Ends (saveOpenDocFill allowed tree write canOpen name) disk (saveOut 0 allowed tree write canOpen true name disk) := by
  intro s l h
  obtain ⟨sd, sh, sx, sn⟩ := s
  have hd : sd = disk := h.disk
  subst hd
  unfold saveOut
  cases allowed
  · exact ⟨_, l, rfl, h, rfl⟩
  have hx := h.undo1 (n := sn + 1) (Nat.le_succ _)
  have hh := h.unopen sn
  cases canOpen
  · cases tree <;> exact ⟨_, l, rfl, h, rfl⟩
  · cases tree with
    | none =>
      have e : saveOpenDocFill true none write true name ⟨sd, sh, sx, sn⟩ =
          .ok (false, ⟨update sd name (some []), sh, sx, sn + 2⟩) := by
        simp [saveOpenDocFill, bind_eq, pure_eq, newXML, fopenWrite, fill, fclose, mxmlDelete, update_same, update_update, hx, hh]
      rw [e]
      exact ⟨_, l, rfl, h.same (by show sn ≤ sn + 2; omega) _, rfl⟩
    | some t =>
      cases hw : write t with
      | ub =>
        simp only [hw, Bool.true_eq_false, if_false, if_true]
        show saveOpenDocFill true (some t) write true name ⟨sd, sh, sx, sn⟩ = .ub
        simp [saveOpenDocFill, bind_eq, pure_eq, newXML, fopenWrite, fill, mxmlSaveFile, update_same, update_update, hw]
      | ok b =>
        have e : saveOpenDocFill true (some t) write true name ⟨sd, sh, sx, sn⟩ =
            .ok (true, ⟨update sd name (some b), sh, sx, sn + 2⟩) := by
          simp [saveOpenDocFill, bind_eq, pure_eq, newXML, fopenWrite, fill, mxmlSaveFile, fclose, mxmlDelete, update_same, update_update, hx, hh, hw]
        simp only [hw, Bool.true_eq_false, if_false, if_true]
        exact ⟨_, l, e, h.same (by show sn ≤ sn + 2; omega) _, rfl⟩

/-- What `*_save_string` does. -/
def stringOut (delete allowed : Bool) (tree : Option Node) (string : Node → Res (Option Bytes)) (disk : Bytes → Option Bytes) :
    Res (Option Bytes × (Bytes → Option Bytes) × Nat) :=
  if allowed = false then .ok (none, disk, 0)
  else match tree with
    | none => .ok (none, disk, if delete then 0 else 1)
    | some t => match string t with
      | .ub => .ub
      | .ok r => .ok (r, disk, 0)

theorem saveString_ends (delete allowed : Bool) (tree : Option Node) (string : Node → Res (Option Bytes)) (disk : Bytes → Option Bytes) :
    Ends (saveString delete allowed tree string) disk (stringOut delete allowed tree string disk) := by
  intro s l h
  obtain ⟨sd, sh, sx, sn⟩ := s
  have hd : sd = disk := h.disk
  subst hd
  unfold stringOut
  cases allowed
  · exact ⟨_, l, rfl, h, rfl⟩
  have hx := h.undo1 (Nat.le_refl _)
  cases tree with
  | none =>
    have e : saveString delete true none string ⟨sd, sh, sx, sn⟩ =
        .ok (none, ⟨sd, sh, if delete then sx else update sx sn (some Node.newXML), sn + 1⟩) := by
      cases delete <;> simp [saveString, bind_eq, pure_eq, newXML, fill, mxmlDelete, update_same, update_update, hx]
    rw [e]
    cases delete with
    | true => exact ⟨_, l, rfl, h.same (Nat.le_succ sn) sd, rfl⟩
    | false => exact ⟨_, sn :: l, rfl, h.keep (n := sn) Node.newXML (Nat.le_refl _) (Nat.lt_succ_self sn) sd, rfl⟩
  | some t =>
    cases hw : string t with
    | ub =>
      simp only [hw, Bool.true_eq_false, if_false]
      show saveString delete true (some t) string ⟨sd, sh, sx, sn⟩ = .ub
      simp [saveString, bind_eq, pure_eq, newXML, fill, mxmlSaveAllocString, update_same, update_update, hw]
    | ok r =>
      have e : saveString delete true (some t) string ⟨sd, sh, sx, sn⟩ = .ok (r, ⟨sd, sh, sx, sn + 1⟩) := by
        simp [saveString, bind_eq, pure_eq, newXML, fill, mxmlSaveAllocString, mxmlDelete, update_same, update_update, hx, hw]
      simp only [hw, Bool.true_eq_false, if_false]
      exact ⟨_, l, e, h.same (Nat.le_succ sn) sd, rfl⟩

/-- What `*_load_file` does. -/
def loadFileOut {α : Type} (load : Node → Res (Bool × α)) (old : α) (canOpen : Bool) (upTo : Option Nat) (name : Bytes) (disk : Bytes → Option Bytes) :
    Res ((Bool × α) × (Bytes → Option Bytes) × Nat) :=
  match (if canOpen then disk name else none) with
  | none => .ok ((false, old), disk, 0)
  | some b => match Xml.loadFile (readable upTo b) with
    | none => .ok ((false, old), disk, 0)
    | some t => match load t with
      | .ub => .ub
      | .ok r => .ok (r, disk, 0)

theorem loadFile_ends {α : Type} (load : Node → Res (Bool × α)) (old : α) (canOpen : Bool) (upTo : Option Nat) (name : Bytes) (disk : Bytes → Option Bytes) :
    Ends (loadFile load old canOpen upTo name) disk (loadFileOut load old canOpen upTo name disk) := by
  intro s l h
  obtain ⟨sd, sh, sx, sn⟩ := s
  have hd : sd = disk := h.disk
  subst hd
  unfold loadFileOut
  have hx := h.undo1 (n := sn + 1) (Nat.le_succ _)
  have hh := h.unopen sn
  cases canOpen with
  | false => exact ⟨_, l, rfl, h, rfl⟩
  | true =>
    simp only [if_true]
    cases hb : sd name with
    | none =>
      have e : loadFile load old true upTo name ⟨sd, sh, sx, sn⟩ = .ok ((false, old), ⟨sd, sh, sx, sn⟩) := by
        simp [loadFile, bind_eq, pure_eq, fopenRead, hb]
      exact ⟨_, l, e, h, rfl⟩
    | some b =>
      cases ht : Xml.loadFile (readable upTo b) with
      | none =>
        have e : loadFile load old true upTo name ⟨sd, sh, sx, sn⟩ = .ok ((false, old), ⟨sd, sh, sx, sn + 1⟩) := by
          simp [loadFile, bind_eq, pure_eq, fopenRead, mxmlLoadFile, fclose, mxmlDelete, update_same, update_update, hb, ht, hh]
        simp only [ht]
        exact ⟨_, l, e, h.same (Nat.le_succ sn) _, rfl⟩
      | some t =>
        simp only [ht]
        cases hl : load t with
        | ub =>
          show loadFile load old true upTo name ⟨sd, sh, sx, sn⟩ = .ub
          simp [loadFile, bind_eq, fopenRead, mxmlLoadFile, loadDoc, update_same, hb, ht, hl]
        | ok r =>
          have e : loadFile load old true upTo name ⟨sd, sh, sx, sn⟩ = .ok (r, ⟨sd, sh, sx, sn + 2⟩) := by
            simp [loadFile, bind_eq, pure_eq, fopenRead, mxmlLoadFile, loadDoc, fclose, mxmlDelete, update_same, update_update, hb, ht, hl, hh, hx]
          exact ⟨_, l, e, h.same (by show sn ≤ sn + 2; omega) _, rfl⟩

/-- What `*_load_string` does. -/
def loadStringOut {α : Type} (delete emptyToo : Bool) (load : Node → Res (Bool × α)) (old : α) (text : Bytes)
    (disk : Bytes → Option Bytes) : Res ((Bool × α) × (Bytes → Option Bytes) × Nat) :=
  if text.length = 0 ∧ emptyToo = false then .ok ((false, old), disk, 0)
  else match Xml.loadString text with
    | none => .ok ((false, old), disk, 0)
    | some t => match load t with
      | .ub => .ub
      | .ok r => .ok (r, disk, if r.1 = false ∧ delete = false then 1 else 0)

theorem loadString_ends {α : Type} (delete emptyToo : Bool) (load : Node → Res (Bool × α)) (old : α) (text : Bytes)
    (disk : Bytes → Option Bytes) :
    Ends (loadString delete emptyToo load old text) disk (loadStringOut delete emptyToo load old text disk) := by
  intro s l h
  obtain ⟨sd, sh, sx, sn⟩ := s
  have hd : sd = disk := h.disk
  subst hd
  unfold loadStringOut
  have hx := h.undo1 (Nat.le_refl _)
  by_cases hz : text.length = 0 ∧ emptyToo = false
  · rw [if_pos hz]
    have e : loadString delete emptyToo load old text ⟨sd, sh, sx, sn⟩ = .ok ((false, old), ⟨sd, sh, sx, sn⟩) := by
      unfold loadString
      rw [if_pos hz]
      rfl
    exact ⟨_, l, e, h, rfl⟩
  · rw [if_neg hz]
    cases ht : Xml.loadString text with
    | none =>
      have e : loadString delete emptyToo load old text ⟨sd, sh, sx, sn⟩ = .ok ((false, old), ⟨sd, sh, sx, sn⟩) := by
        unfold loadString
        rw [if_neg hz]
        cases delete <;> simp [bind_eq, pure_eq, mxmlLoadString, loadDoc, mxmlDelete, ht]
      exact ⟨_, l, e, h, rfl⟩
    | some t =>
      cases hl : load t with
      | ub =>
        simp only [hl]
        show loadString delete emptyToo load old text ⟨sd, sh, sx, sn⟩ = .ub
        unfold loadString
        rw [if_neg hz]
        simp [bind_eq, mxmlLoadString, loadDoc, update_same, ht, hl]
      | ok r =>
        simp only [hl]
        obtain ⟨ok, r⟩ := r
        have e : loadString delete emptyToo load old text ⟨sd, sh, sx, sn⟩ =
            .ok ((ok, r), ⟨sd, sh, if ok = false ∧ delete = false then update sx sn (some t) else sx, sn + 1⟩) := by
          unfold loadString
          rw [if_neg hz]
          cases delete <;> cases ok <;>
            simp [bind_eq, pure_eq, mxmlLoadString, loadDoc, mxmlDelete, update_same, update_update, ht, hl, hx]
        by_cases hc : ok = false ∧ delete = false
        · rw [if_pos hc] at e
          exact ⟨_, sn :: l, e, h.keep t (Nat.le_refl _) (Nat.lt_succ_self sn) _, by simp [hc]⟩
        · rw [if_neg hc] at e
          refine ⟨_, l, e, h.same (Nat.le_succ sn) _, ?_⟩
          show l.length = l.length + if ok = false ∧ delete = false then 1 else 0
          rw [if_neg hc]; rfl

end Afs.Session
