import Verif.Model.Io.Held
import Verif.Model.Io.SaveFile
import Verif.Props.C66_Reads
import Mathlib.Data.List.Basic
/-!
# C92: saving and loading give back what they hold
-/
namespace Afs
open Afs.Held Afs.Spec.Held

namespace Held

/-- Handles that are held have been given out before. -/
def Sound (w : World) : Prop := ∀ x ∈ w.things, x.1 < w.next

/-- From any sound world, `p` answers `a` and holds the `n` documents it loses more. -/
def Does {α : Type} (p : M α) (a : α) (n : Nat) : Prop :=
  ∀ w, Sound w → ∃ w' ls, p w = .ok (a, w') ∧ Sound w' ∧ w'.things = ls ++ w.things ∧ ls.length = n ∧ ∀ x ∈ ls, x.2 = .document

theorem bind_run {α β : Type} (p : M α) (k : α → M β) (w : World) :
    (p >>= k) w = match p w with
      | .ub => .ub
      | .ok (a, w') => k a w' := rfl

theorem pure_run {α : Type} (a : α) (w : World) : (pure a : M α) w = .ok (a, w) := rfl

theorem make_run (t : Thing) (w : World) : make t w = .ok (w.next, ⟨(w.next, t) :: w.things, w.next + 1, w.disk⟩) := rfl

theorem use_run (t : Thing) (n : Nat) (w : World) (h : (n, t) ∈ w.things) : useIt t n w = .ok ((), w) := if_pos h

theorem give_run (t : Thing) (n : Nat) (w : World) (h : (n, t) ∈ w.things) :
    give t n w = .ok ((), ⟨w.things.erase (n, t), w.next, w.disk⟩) := if_pos h

theorem openWrite_true (w : World) :
    openWrite true w = .ok (some w.next, ⟨(w.next, .file) :: w.things, w.next + 1, some []⟩) := rfl

theorem openWrite_false (w : World) : openWrite false w = .ok (none, w) := rfl

theorem openRead_true (w : World) :
    openRead true w = .ok (some w.next, ⟨(w.next, .file) :: w.things, w.next + 1, w.disk⟩) := rfl

theorem openRead_false (w : World) : openRead false w = .ok (none, w) := rfl

/-- The end: nothing more is held, or one document. -/
theorem does_end {α : Type} {p : M α} {a : α} {n : Nat}
    (h : ∀ things next disk, Sound ⟨things, next, disk⟩ → ∃ k d, p ⟨things, next, disk⟩ =
      .ok (a, ⟨(if n = 0 then [] else [(next, .document)]) ++ things, next + k + n, d⟩)) (hn : n ≤ 1) : Does p a n := by
  rintro ⟨things, next, disk⟩ hw
  obtain ⟨k, d, h⟩ := h things next disk hw
  refine ⟨_, _, h, ?_, rfl, ?_, ?_⟩
  · intro x hx
    rcases List.mem_append.mp hx with hx | hx
    · show x.1 < next + k + n
      by_cases h0 : n = 0
      · rw [if_pos h0] at hx
        cases hx
      · rw [if_neg h0] at hx
        cases List.mem_singleton.mp hx
        show next < next + k + n
        omega
    · have : x.1 < next := hw x hx
      show x.1 < next + k + n
      omega
  · by_cases h0 : n = 0
    · simp [h0]
    · simp [h0]
      omega
  · intro x hx
    by_cases h0 : n = 0
    · rw [if_pos h0] at hx
      cases hx
    · rw [if_neg h0] at hx
      cases List.mem_singleton.mp hx
      rfl

macro "run_it" : tactic => `(tactic| (
  simp [saveThenOpen, newThenOpen, openThenNew, saveInto, writeOut, saveStringWith, loadFile, loadStringWith, checksum,
    newXML, mxmlDelete, fclose, saveXml, mxmlSaveFile, readDocument, loadXml, bind_run, pure_run, make_run, use_run, give_run,
    openWrite_true, openWrite_false, openRead_true, openRead_false]
  try first | exact ⟨0, rfl⟩ | exact ⟨1, rfl⟩ | exact ⟨2, rfl⟩ | exact ⟨0, by omega⟩ | exact ⟨1, by omega⟩ | exact ⟨2, by omega⟩))

theorem saveThenOpen_does (args canOpen : Bool) (text : Option Bytes) :
    Does (saveThenOpen args canOpen text) (args && canOpen && text.isSome) (if args && !canOpen && text.isSome then 1 else 0) := by
  refine does_end (fun things next disk hw => ?_) (by split <;> omega)
  cases args <;> cases canOpen <;> cases text <;> run_it

theorem newThenOpen_does (deletes args canOpen : Bool) (text : Option Bytes) :
    Does (newThenOpen deletes args canOpen text) (args && canOpen && text.isSome) (if args && !canOpen && !deletes then 1 else 0) := by
  refine does_end (fun things next disk hw => ?_) (by split <;> omega)
  cases deletes <;> cases args <;> cases canOpen <;> cases text <;> run_it

theorem openThenNew_does (args canOpen : Bool) (text : Option Bytes) :
    Does (openThenNew args canOpen text) (args && canOpen && text.isSome) 0 := by
  refine does_end (fun things next disk hw => ?_) (by omega)
  cases args <;> cases canOpen <;> cases text <;> run_it

theorem saveStringWith_does (deletes args : Bool) (text : Option Bytes) :
    Does (saveStringWith deletes args text) (if args then text else none) (if args && text.isNone && !deletes then 1 else 0) := by
  refine does_end (fun things next disk hw => ?_) (by split <;> omega)
  cases deletes <;> cases args <;> cases text <;> run_it

theorem loadFile_does (args canOpen : Bool) (document : Option Bool) :
    Does (loadFile args canOpen document) (args && canOpen && document == some true) 0 := by
  refine does_end (fun things next disk hw => ?_) (by omega)
  rcases document with _ | _ | _ <;> cases args <;> cases canOpen <;> run_it

theorem loadStringWith_does (deletes args : Bool) (document : Option Bool) :
    Does (loadStringWith deletes args document) (args && document == some true) (if args && document == some false && !deletes then 1 else 0) := by
  refine does_end (fun things next disk hw => ?_) (by split <;> omega)
  rcases document with _ | _ | _ <;> cases deletes <;> cases args <;> run_it

theorem checksum_does (args canOpen : Bool) (sum : Option Bytes) :
    Does (checksum args canOpen sum) (if args && canOpen then sum else none) 0 := by
  refine does_end (fun things next disk hw => ?_) (by omega)
  cases args <;> cases canOpen <;> run_it

theorem saveFile_does (k : Kind) (args canOpen : Bool) (text : Option Bytes) :
    Does (saveFile k args canOpen text) (args && canOpen && text.isSome) (lost (.saveFile k args canOpen text)) := by
  have h1 := saveThenOpen_does args canOpen text
  have h2 := newThenOpen_does false args canOpen text
  have h3 := newThenOpen_does true args canOpen text
  have h4 := openThenNew_does args canOpen text
  cases k <;> first
    | (simpa [lost, careful, opensEarly, saveFile, Bool.and_assoc, and_assoc] using h1)
    | (simpa [lost, careful, opensEarly, saveFile, Bool.and_assoc, and_assoc] using h2)
    | (simpa [lost, careful, opensEarly, saveFile, Bool.and_assoc, and_assoc] using h3)
    | (simpa [lost, careful, opensEarly, saveFile, Bool.and_assoc, and_assoc] using h4)

theorem saveString_does (k : Kind) (args : Bool) (text : Option Bytes) :
    Does (saveString k args text) (if args then text else none) (lost (.saveString k args text)) := by
  have h1 := saveStringWith_does false args text
  have h2 := saveStringWith_does true args text
  cases k <;> first
    | (simpa [lost, saveString] using h1)
    | (simpa [lost, saveString] using h2)

theorem loadString_does (k : Kind) (args : Bool) (document : Option Bool) :
    Does (loadString k args document) (args && document == some true) (lost (.loadString k args document)) := by
  have h1 := loadStringWith_does false args document
  have h2 := loadStringWith_does true args document
  cases k <;> first
    | (simpa [lost, loadString] using h1)
    | (simpa [lost, loadString] using h2)

theorem does_then {α β : Type} {p : M α} {a : α} {n : Nat} (h : Does p a n) (f : α → β) :
    Does (p >>= fun x => pure (f x)) (f a) n := by
  intro w hw
  obtain ⟨w', ls, h1, h2⟩ := h w hw
  exact ⟨w', ls, by rw [bind_run, h1]; rfl, h2⟩

theorem call_does (c : Call) : Does (call c) (answer c) (lost c) := by
  cases c with
  | saveFile k a o t => exact does_then (saveFile_does k a o t) _
  | saveString k a t => exact does_then (saveString_does k a t) _
  | loadFile k a o d => exact does_then (loadFile_does a o d) _
  | loadString k a d => exact does_then (loadString_does k a d) _
  | checksum a o s => exact does_then (checksum_does a o s) _

theorem calls_does (cs : List Call) : Does (calls cs) (cs.map answer) (cs.map lost).sum := by
  induction cs with
  | nil => exact fun w hw => ⟨w, [], rfl, hw, rfl, rfl, by simp⟩
  | cons c cs ih =>
    intro w hw
    obtain ⟨w1, l1, e1, s1, t1, n1, d1⟩ := call_does c w hw
    obtain ⟨w2, l2, e2, s2, t2, n2, d2⟩ := ih w1 s1
    refine ⟨w2, l2 ++ l1, ?_, s2, by rw [t2, t1, List.append_assoc], ?_, ?_⟩
    · rw [calls, bind_run, e1]
      show (calls cs >>= fun as => pure (answer c :: as)) w1 = _
      rw [bind_run, e2]
      rfl
    · rw [List.length_append, n1, n2, List.map_cons, List.sum_cons, Nat.add_comm]
    · intro x hx
      rcases List.mem_append.mp hx with hx | hx
      · exact d2 x hx
      · exact d1 x hx

end Held

/-- Any sequence of calls that save, load or compute checksums, in any state: they are defined (nothing is used, closed or deleted that
    is not held), they answer what they should, every file they open is closed again, and of the documents they make exactly as many stay
    behind as `lost` counts. -/
theorem C92_held (cs : List Call) (w : World) (hw : ∀ x ∈ w.things, x.1 < w.next) :
    ∃ w' ls, Held.calls cs w = .ok (cs.map answer, w') ∧ w'.things = ls ++ w.things ∧ (∀ x ∈ ls, x.2 = .document) ∧
      ls.length = (cs.map lost).sum := by
  obtain ⟨w', ls, h1, _, h2, h3, h4⟩ := calls_does cs w hw
  exact ⟨w', ls, h1, h2, h4, h3⟩

/-- So every file is closed again. -/
theorem C92_files_closed (cs : List Call) (w : World) (hw : ∀ x ∈ w.things, x.1 < w.next) :
    ∃ w', Held.calls cs w = .ok (cs.map answer, w') ∧ w'.things.filter (·.2 = .file) = w.things.filter (·.2 = .file) := by
  obtain ⟨w', ls, h1, h2, h3, _⟩ := C92_held cs w hw
  refine ⟨w', h1, ?_⟩
  rw [h2, List.filter_append, List.filter_eq_nil_iff.mpr, List.nil_append]
  intro x hx
  simp [h3 x hx]

theorem Held.sum_zero : ∀ l : List Nat, (∀ n ∈ l, n = 0) → l.sum = 0
  | [], _ => rfl
  | n :: l, h => by rw [List.sum_cons, h n (by simp), sum_zero l fun m hm => h m (by simp [hm])]

/-- And if every file can be opened, every object can be saved and every document loads, nothing is left at all. -/
theorem C92_nothing_left (cs : List Call) (hc : ∀ c ∈ cs, answer c ≠ .done false ∧ answer c ≠ .text none) (w : World)
    (hw : ∀ x ∈ w.things, x.1 < w.next) : ∃ w', Held.calls cs w = .ok (cs.map answer, w') ∧ w'.things = w.things := by
  obtain ⟨w', ls, h1, h2, _, h4⟩ := C92_held cs w hw
  have h0 : (cs.map lost).sum = 0 := by
    refine sum_zero _ fun n hn => ?_
    obtain ⟨c, hm, rfl⟩ := List.mem_map.mp hn
    have := hc c hm
    cases c with
    | saveFile k a o t => cases a <;> cases o <;> cases t <;> simp_all [answer, lost]
    | saveString k a t => cases a <;> cases t <;> simp_all [answer, lost]
    | loadFile k a o d => rfl
    | loadString k a d => rcases d with _ | _ | _ <;> cases a <;> simp_all [answer, lost]
    | checksum a o t => rfl
  rw [h0] at h4
  rw [List.length_eq_zero_iff.mp h4] at h2
  exact ⟨w', h1, h2⟩

/-! ### The same functions as in Model/Io -/

/-- What `saveFile` answers and leaves in the file is what the functions of Model/Io/SaveFile answer and leave. -/
theorem C92_same_save (k : Kind) (canOpen : Bool) (ok : Nat → Bool) (cb : Xml.SaveCb) (compact : Bool) (x : Option Xml.Node) (w : World) :
    ∃ w', Held.saveFile k true canOpen
        (x.map fun n => (Xml.saveFileOn ok (if compact then Xml.noCb else cb) (Xml.Node.newXML.addChild n)).2) w =
      .ok ((docFileOn canOpen ok (opensEarly k) cb compact x w.disk).1, w') ∧
    w'.disk = (docFileOn canOpen ok (opensEarly k) cb compact x w.disk).2 := by
  cases k <;> cases canOpen <;> cases x <;>
    simp [Held.saveFile, opensEarly, docFileOn, saveThenOpen, newThenOpen, openThenNew, saveInto, writeOut, newXML, mxmlDelete, fclose,
      saveXml, mxmlSaveFile, bind_run, pure_run, make_run, use_run, give_run, openWrite_true, openWrite_false]

/-- What `loadFile` and `loadString` answer is what the frames of Model/Io/Common answer. -/
theorem C92_same_load {β : Type} (k : Kind) (load : Xml.Node → Bool × β) (old : β) (s : Bytes) :
    answer (.loadFile k true true ((Xml.loadFile s).map fun d => (load d).1)) = .done (loadFromFile load (false, old) s).1 ∧
    answer (.loadString k true (if s.length = 0 then none else (Xml.loadString s).map fun d => (load d).1)) =
      .done (loadFromString load (false, old) s).1 := by
  constructor
  · unfold loadFromFile
    cases Xml.loadFile s with
    | none => rfl
    | some d => show Answer.done _ = _; cases h : (load d).1 <;> simp [h]
  · unfold loadFromString
    by_cases h0 : s.length = 0
    · simp [h0, answer]
    · rw [if_neg h0, if_neg h0]
      cases Xml.loadString s with
      | none => rfl
      | some d => show Answer.done _ = _; cases h : (load d).1 <;> simp [h]

/-! ### Examples -/

/-- Nothing is held, and there is no file. -/
def idle : World := ⟨[], 0, none⟩

def exHeld : List Call :=
  [.saveFile .toc true true (some (b! "<tocData/>")), .saveFile .toc true false (some (b! "<tocData/>")),
    .saveFile .sections true false (some (b! "<sections/>")), .loadString .reel true (some false), .loadString .reel true none,
    .loadFile .reel true true (some false), .checksum true true (some (b! "da39"))]

/-- Two documents stay behind: of the save to a file that cannot be opened, and of the text that is no reel. -/
example : ∃ w, Held.calls exHeld idle = .ok ([.done true, .done false, .done false, .done false, .done false, .done false, .text (some (b! "da39"))], w) ∧
    w.things.length = 2 ∧ ∀ x ∈ w.things, x.2 = .document := by
  obtain ⟨w, ls, h1, h2, h3, h4⟩ := C92_held exHeld idle (by simp [idle])
  refine ⟨w, by rw [h1]; rfl, ?_, ?_⟩
  · rw [h2, show idle.things = [] from rfl, List.append_nil, h4]
    rfl
  · rw [h2, show idle.things = [] from rfl, List.append_nil]
    exact h3

/-- Every document that does not load from a string is lost, save for boxing formats. -/
theorem C92_string_lost (k : Kind) (hk : k ≠ .format) (n : Nat) :
    ∃ w, Held.calls (List.replicate n (.loadString k true (some false))) idle = .ok (List.replicate n (.done false), w) ∧
      w.things.length = n := by
  obtain ⟨w, ls, h1, h2, _, h4⟩ := C92_held (List.replicate n (.loadString k true (some false))) idle (by simp [idle])
  refine ⟨w, by simpa [answer] using h1, ?_⟩
  rw [h2]
  simpa [idle, lost, hk] using h4

end Afs
