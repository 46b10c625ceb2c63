import Verif.Proof.RefsLoad5
/-!
# C63: loading and reference counts

A program makes any legal sequence of the calls of C30 and of `load` calls.  What the documents hold is arbitrary.
-/
namespace Afs
open Afs.Spec Afs.Refs

/-- A legal program of fewer than 2^31 - 1 calls never runs into undefined behaviour, whatever the documents it loads hold: no use of freed
    memory, no double free, no overflow of a count. -/
theorem C63_loading_programs_are_safe (cs : List LCall) (hl : LLegalRun LWorld.start cs) (hn : cs.length < 2147483647) :
    ∃ w, LWorld.start.run cs = .ok w := by
  obtain ⟨w, e, _⟩ := lrun_ok cs LWorld.start 0 lgood_start (by omega) hl
  exact ⟨w, e⟩

/-- The `reference_count` of every allocated object is the number of references to it: those the program holds, those inside other
    objects, and those that loading has lost. -/
theorem C63_count_is_number_of_references (cs : List LCall) (w : LWorld) (hl : LLegalRun LWorld.start cs) (hn : cs.length < 2147483647)
    (hr : LWorld.start.run cs = .ok w) (a : Nat) (c : Cell) (hc : w.heap.cells a = some c) :
    c.rc = (references w.heap w.held a : Int) + (w.lost.count a : Int) ∧ 0 < c.rc := by
  have hg := lgood_of_run hl hn hr
  refine ⟨?_, hg.inv.pos a c hc (by simp)⟩
  have h1 := hg.inv.count a c hc (by simp)
  dsimp only at h1
  rw [h1, references, List.count_append]
  have : sumTo (ptr w.heap [] a) w.heap.next = sumTo (pointersIn w.heap a) w.heap.next := by congr 1
  rw [this]
  omega

/-- Everything the program can reach is allocated. -/
theorem C63_reachable_is_allocated (cs : List LCall) (w : LWorld) (hl : LLegalRun LWorld.start cs) (hn : cs.length < 2147483647)
    (hr : LWorld.start.run cs = .ok w) (a : Nat) (ha : Reach w.heap w.held a) : Live w.heap a :=
  (live_iff_reach (lgood_of_run hl hn hr).inv a).mpr (reach_mono (fun _ h => List.mem_append.mpr (.inl h)) ha)

/-- What is allocated is what the program can reach, and what can be reached from a lost reference. -/
theorem C63_allocated_iff_reachable_or_lost (cs : List LCall) (w : LWorld) (hl : LLegalRun LWorld.start cs) (hn : cs.length < 2147483647)
    (hr : LWorld.start.run cs = .ok w) (a : Nat) : Live w.heap a ↔ Reach w.heap w.held a ∨ Reach w.heap w.lost a := by
  have hi := (lgood_of_run hl hn hr).inv
  rw [live_iff_reach hi a]
  constructor
  · intro h
    induction h with
    | held ha => exact (List.mem_append.mp ha).elim (fun h => .inl (.held h)) fun h => .inr (.held h)
    | part _ hb ha ih => exact ih.elim (fun h => .inl (.part h hb ha)) fun h => .inr (.part h hb ha)
  · rintro (h | h)
    · exact reach_mono (fun _ h => List.mem_append.mpr (.inl h)) h
    · exact reach_mono (fun _ h => List.mem_append.mpr (.inr h)) h

/-- Each load returns DTRUE exactly when `Load.ok` says so, and loses as many references as `Load.lost` says: two definitions that only
    look at what the document holds and at the parts the object had before. -/
theorem C63_result_and_loss (cs : List LCall) (w : LWorld) (hl : LLegalRun LWorld.start cs) (hn : cs.length < 2147483646)
    (hr : LWorld.start.run cs = .ok w) (l : Load) (hl' : l.Legal w.heap w.held) :
    ∃ r, l.run w.heap = .ok r ∧ r.ok = l.ok ∧ r.lost.length = l.lost w.heap ∧
      w.step (.load l) = .ok ⟨r.heap, w.held, r.lost ++ w.lost⟩ := by
  have hg := lgood_of_run hl (by omega) hr
  obtain ⟨r, p, h1, -, -, h4, h5⟩ := load_ok l hg.inv (hg.small (by omega)) (fun a ha => List.mem_append.mpr (.inl ha)) hl'
  refine ⟨r, h1, h4, h5, ?_⟩
  show (l.run w.heap >>= _) = _
  rw [h1]
  rfl

/-- A lost reference is never given back: whatever legal calls follow, the object stays allocated. -/
theorem C63_lost_is_never_freed (cs ds : List LCall) (w w' : LWorld) (hl : LLegalRun LWorld.start (cs ++ ds))
    (hn : (cs ++ ds).length < 2147483647) (hr : LWorld.start.run cs = .ok w) (hr' : w.run ds = .ok w') (a : Nat) (ha : a ∈ w.lost) :
    Live w'.heap a := by
  have e : LWorld.start.run (cs ++ ds) = .ok w' := by rw [run_append, hr]; exact hr'
  obtain ⟨new, hnew⟩ := lost_grows ds w w' hr'
  exact (C63_allocated_iff_reachable_or_lost (cs ++ ds) w' hl hn e a).mpr (.inr (.held (by rw [hnew]; exact List.mem_append.mpr (.inr ha))))

/-- A program that has lost nothing and gives up all its references has leaked nothing. -/
theorem C63_no_leak (cs : List LCall) (w : LWorld) (hl : LLegalRun LWorld.start cs) (hn : cs.length < 2147483647)
    (hr : LWorld.start.run cs = .ok w) (hh : w.held = []) (hlost : w.lost = []) (a : Nat) : ¬ Live w.heap a := by
  have no : ∀ x, ¬ Reach w.heap [] x := by
    intro x h
    induction h with
    | held h => cases h
    | part _ _ _ ih => exact ih
  rw [C63_allocated_iff_reachable_or_lost cs w hl hn hr a, hh, hlost]
  rintro (h | h) <;> exact no a h

/-- The applications of technical metadata: the only list whose failure is not reported. -/
def applicationsLoad : Load → Bool
  | .tech _ (some x) => ifThere true filesOk x.apps
  | .control _ _ (some (some x)) => ifThere true filesOk x.tocs && ifThere true filesOk x.apps
  | _ => true

theorem techLost_ok {x : TechPlan} (h1 : ifThere true filesOk x.tocs = true) (h2 : ifThere true filesOk x.apps = true) : techLost (some x) = 0 := by
  unfold techLost
  dsimp only
  rw [if_neg (by rw [h1]; simp)]
  have e1 : ifThere 0 filesLost x.tocs = 0 := by
    cases hx : x.tocs with
    | none => rfl
    | some l => rw [hx] at h1; exact filesLost_ok l h1
  have e2 : ifThere 0 filesLost x.apps = 0 := by
    cases hx : x.apps with
    | none => rfl
    | some l => rw [hx] at h2; exact filesLost_ok l h2
  rw [e1, e2]

/-- Loading a new object loses nothing when it succeeds - provided, for technical metadata, that the applications load as well, and for
    control data also the tables of contents: their failure is not reported. -/
theorem C63_success_on_a_new_object_loses_nothing (l : Load) (h : Heap) (held : List Nat) (hl : l.Legal h held) (he : Empty h l.object)
    (hok : l.ok = true) (ha : applicationsLoad l = true) : l.lost h = 0 := by
  cases l with
  | leaf p ok => rfl
  | preview p x => exact leavesLost_ok hok
  | fileMeta p x => rfl
  | tocMeta p x => rfl
  | sections p x => exact leavesLost_ok hok
  | file p x =>
    cases x with
    | none => rfl
    | some x =>
      have h1 := fileLost_ok (some x) hok
      have e1 := has_empty he .preview
      have e2 := has_empty he .fileMeta
      have e1 : has h p .preview = 0 := e1
      have e2 : has h p .fileMeta = 0 := e2
      show fileLostAt (some x) h p = 0
      unfold fileLostAt
      unfold fileLost at h1
      dsimp only at h1 ⊢
      rw [e1, e2]
      have e3 : ifThere 0 (fun l => leavesLost false l + if leavesOk l = true then 0 else 0) x.preview = ifThere 0 (leavesLost false) x.preview := by
        cases x.preview <;> simp [ifThere]
      have e4 : ifThere 0 (fun l => if leavesOk l = true then 0 else 0) x.metadata = 0 := by
        cases x.metadata <;> simp [ifThere]
      rw [e3, h1, e4]
      split <;> rfl
  | files p x => exact filesLost_ok x hok
  | reel p x =>
    cases x with
    | none => rfl
    | some x =>
      cases x with
      | none => rfl
      | some l =>
        have e1 : has h p .files = 0 := has_empty he .files
        show filesLost l + has h p .files = 0
        rw [e1, filesLost_ok l hok]
  | reels p x => exact reelsLost_ok x hok
  | layout p x =>
    cases x with
    | none => rfl
    | some l =>
      have e1 : has h p .sections = 0 := has_empty he .sections
      show leavesLost false l + has h p .sections = 0
      rw [e1, leavesLost_ok hok]
  | layouts p x => exact layoutsLost_ok x hok
  | toc p x => exact tocLost_ok x hok
  | tech p x =>
    cases x with
    | none => rfl
    | some x =>
      have e1 : has h p .boxing = 0 := has_empty he .boxing
      obtain ⟨c, hc, hk⟩ := he
      obtain ⟨-, -, hf⟩ := hl
      have hc' : h.cells p = some c := hc
      have h0 := (hf c hc').1
      have none_of : ∀ (o : Option Nat), (∀ a, o.toList.count a ≤ c.kids.count a) → o = none := by
        intro o ho
        cases o with
        | none => rfl
        | some o =>
          have := ho o
          rw [hk] at this
          simp at this
      have o1 : x.oldTocs = none := none_of _ fun a => by have := h0 a; rw [List.count_append] at this; omega
      have o2 : x.oldApps = none := none_of _ fun a => by have := h0 a; rw [List.count_append] at this; omega
      show techLostAt (some x) h p = 0
      unfold techLostAt
      dsimp only
      rw [e1, o1, o2, techLost_ok hok ha]
      have e3 : ifThere 0 (fun _ : FilesPlan => if (none : Option Nat).isSome then 1 else 0) x.tocs = 0 := by cases x.tocs <;> rfl
      have e4 : ifThere 0 (fun _ : FilesPlan => if (none : Option Nat).isSome then 1 else 0) x.apps = 0 := by cases x.apps <;> rfl
      rw [e3, e4]
      split <;> rfl
  | control p a t =>
    show controlLost a t = 0
    unfold controlLost
    cases a with
    | false => rfl
    | true =>
      rw [if_pos rfl]
      cases t with
      | none => rfl
      | some t =>
        cases t with
        | none => rfl
        | some x =>
          obtain ⟨h1, h2⟩ := Bool.and_eq_true_iff.mp ha
          exact techLost_ok h1 h2

/-- Loading any object but a table of contents or control data leaves every other object as it was. -/
theorem C63_loading_touches_only_the_object (cs : List LCall) (w : LWorld) (hl : LLegalRun LWorld.start cs) (hn : cs.length < 2147483646)
    (hr : LWorld.start.run cs = .ok w) (l : Load) (hl' : l.Legal w.heap w.held) (ht : ∀ p x, l ≠ .toc p x) (hc : ∀ p a t, l ≠ .control p a t)
    (r : Loaded) (hrun : l.run w.heap = .ok r) (x : Nat) (c : Cell) (hx : x ≠ l.object) (hcell : w.heap.cells x = some c) :
    r.heap.cells x = some c := by
  have hg := lgood_of_run hl (by omega) hr
  exact load_frame l hg.inv (hg.small (by omega)) (fun a ha => List.mem_append.mpr (.inl ha)) hl' ht hc hrun x c hx hcell

/-! ## Concrete programs -/

/-- A file list with one good file (a preview of one page) and one whose metadata has a source that does not load. -/
def c63Files : FilesPlan :=
  [(some ⟨some (some [(true, true)]), none⟩, true), (some ⟨none, some (some [(true, true), (false, true)])⟩, true)]

/-- Create a list of files, load it, free it. -/
def c63Program : List LCall := [.base (.create .files []), .load (.files 0 c63Files), .base (.free 0)]

theorem C63_example_legal : LLegalRun LWorld.start c63Program := by
  refine ⟨⟨fun a => by simp, fun a ha => by simp at ha⟩, fun w' h => ?_⟩
  obtain rfl := Res.ok.inj h
  refine ⟨⟨.held (by decide), ⟨_, rfl, rfl⟩⟩, fun w' h => ?_⟩
  obtain rfl := Res.ok.inj h
  refine ⟨by show (0 : Nat) ∈ _; decide, fun w' h => ?_⟩
  trivial

/-- The load fails, and the file it failed on is lost: everything else is gone at the end, that file stays for ever. -/
theorem C63_failed_load_leaks : ∃ w, LWorld.start.run c63Program = .ok w ∧ w.held = [] ∧ w.lost = [4] ∧
    w.heap.cells 4 = some ⟨.file, 1, []⟩ ∧ (∀ a, a ≠ 4 → a < w.heap.next → w.heap.cells a = none) ∧ w.heap.next = 8 := by
  refine ⟨_, rfl, rfl, rfl, rfl, ?_, rfl⟩
  intro a h1 h2
  change a < 8 at h2
  match a with
  | 0 => rfl
  | 1 => rfl
  | 2 => rfl
  | 3 => rfl
  | 4 => exact absurd rfl h1
  | 5 => rfl
  | 6 => rfl
  | 7 => rfl
  | n + 8 => omega

/-- Loading a reel a second time loses the files of the first. -/
theorem C63_loading_a_reel_twice_leaks : ∃ w, LWorld.start.run
    [.base (.create .reel []), .load (.reel 0 (some (some [(some ⟨none, none⟩, true)]))),
     .load (.reel 0 (some (some [(some ⟨none, none⟩, true)]))), .base (.free 0)] = .ok w ∧
    w.held = [] ∧ w.lost = [1] ∧ w.heap.cells 1 = some ⟨.files, 1, [2]⟩ ∧ w.heap.cells 2 = some ⟨.file, 1, []⟩ ∧ w.heap.cells 3 = none :=
  ⟨_, rfl, rfl, rfl, rfl, rfl, rfl⟩

/-- A table of contents frees what it replaces: loading it twice loses nothing. -/
theorem C63_loading_a_table_twice_is_clean : ∃ w, LWorld.start.run
    [.base (.create .tocData []), .load (.toc 0 (some ⟨some (some [(true, true)]), none, some [(some (some []), true)]⟩)),
     .load (.toc 0 (some ⟨none, some (some [(some (some [(true, true)]), true)]), some [(some (some []), true)]⟩)), .base (.free 0)] = .ok w ∧
    w.held = [] ∧ w.lost = [] := ⟨_, rfl, rfl, rfl⟩

/-- Technical metadata whose applications do not load is loaded with success, and a file is lost. -/
theorem C63_reported_success_can_leak : ∃ r, (Load.tech 0 (some ⟨true, none, some [(none, true)], none, none⟩)).run
    ((Heap.empty.alloc .tech []).1) = .ok r ∧ r.ok = true ∧ r.lost = [3] := ⟨_, rfl, rfl, rfl⟩

end Afs
