import Verif.Proof.RefsStep
/-!
# C30: reference counting

A program makes any sequence of calls that is legal in the sense of `Spec.Legal` (a rule
about what the program holds and can reach, not about counts).
-/
namespace Afs
open Afs.Spec Afs.Refs

/-- A legal program of fewer than 2^31 - 1 calls never runs into undefined behaviour (no use
    of freed memory, no double free, no overflow of a count). -/
theorem C30_legal_programs_are_safe (cs : List Call) (hl : LegalRun World.start cs)
    (hn : cs.length < 2147483647) : ∃ w, World.start.run cs = .ok w := by
  obtain ⟨w, e, _⟩ := run_ok cs World.start 0 good_start (by omega) hl
  exact ⟨w, e⟩

/-- At every moment the `reference_count` of every allocated object is the number of
    references to it: those the program holds plus those inside other objects; it is never
    zero. -/
theorem C30_count_is_number_of_references (cs : List Call) (w : World)
    (hl : LegalRun World.start cs) (hn : cs.length < 2147483647)
    (hr : World.start.run cs = .ok w) (a : Nat) (c : Cell) (hc : w.heap.cells a = some c) :
    c.rc = (references w.heap w.held a : Int) ∧ 0 < c.rc := by
  have hg := good_of_run hl hn hr
  refine ⟨?_, hg.inv.pos a c hc (by simp)⟩
  rw [hg.inv.count a c hc (by simp), references]
  congr 2

/-- At every moment exactly the objects the program can reach are allocated: nothing
    reachable has been freed and nothing unreachable has been forgotten. -/
theorem C30_allocated_iff_reachable (cs : List Call) (w : World)
    (hl : LegalRun World.start cs) (hn : cs.length < 2147483647)
    (hr : World.start.run cs = .ok w) (a : Nat) :
    Live w.heap a ↔ Reach w.heap w.held a :=
  live_iff_reach (good_of_run hl hn hr).inv a

/-- A program that has given up all its references has leaked nothing. -/
theorem C30_no_leak (cs : List Call) (w : World)
    (hl : LegalRun World.start cs) (hn : cs.length < 2147483647)
    (hr : World.start.run cs = .ok w) (hh : w.held = []) (a : Nat) : ¬ Live w.heap a := by
  intro h
  have := (C30_allocated_iff_reachable cs w hl hn hr a).mp h
  rw [hh] at this
  clear h
  induction this with
  | held ha => cases ha
  | part _ _ _ ih => exact ih

/-- `free` destroys the object exactly when the reference given up was the last one. -/
theorem C30_free_destroys_on_last_reference (cs : List Call) (w : World)
    (hl : LegalRun World.start cs) (hn : cs.length < 2147483646)
    (hr : World.start.run cs = .ok w) (a : Nat) (ha : a ∈ w.held) :
    ∃ w', w.step (.free a) = .ok w' ∧ w'.held = w.held.erase a ∧
      (Live w'.heap a ↔ 1 < references w.heap w.held a) := by
  have hg := good_of_run hl (by omega) hr
  have hi := hg.inv.congr (count_cons_erase ha)
  obtain ⟨_, c, hc⟩ := hg.inv.roots a ha
  have hrefs := (C30_count_is_number_of_references cs w hl (by omega) hr a c hc).1
  have hpos := hg.inv.pos a c hc (by simp)
  obtain ⟨h', e, i, s⟩ := free_ok hi (hg.small (by omega))
  refine ⟨⟨h', w.held.erase a⟩, by simp only [World.step, e, Res.ok_bind], rfl, ?_⟩
  have hck : ckInt (c.rc - 1) = .ok (c.rc - 1) := by
    have := hg.small (by omega) a c hc
    unfold ckInt
    rw [if_pos]
    simp only [INT_MIN, INT_MAX] at *
    omega
  constructor
  · rintro ⟨c', hc'⟩
    change h'.cells a = some c' at hc'
    by_cases h1 : c.rc = 1
    · exfalso
      have e' := e
      rw [free, freeObj.eq_def] at e'
      simp only [maxDepth, hc, hck, Res.ok_bind] at e'
      rw [if_pos ((dies_iff (by omega)).mpr (by omega))] at e'
      cases hk : List.foldlM (freeObj 7) (w.heap.set a { c with rc := c.rc - 1 }) c.kids with
      | ub => rw [hk] at e'; cases e'
      | ok g =>
        rw [hk] at e'
        simp only [Res.ok_bind] at e'
        cases hga : g.cells a with
        | none => rw [hga] at e'; cases e'
        | some z =>
          rw [hga] at e'
          cases e'
          rw [remove_cells, if_pos rfl] at hc'
          cases hc'
    · omega
  · intro hlt
    have e' := e
    rw [free, freeObj.eq_def] at e'
    simp only [maxDepth, hc, hck, Res.ok_bind] at e'
    rw [if_neg (by rw [dies_iff (by omega)]; omega)] at e'
    cases e'
    exact ⟨{ c with rc := c.rc - 1 }, by rw [set_cells, if_pos rfl]⟩

/-- Freeing an object once more than references exist is undefined behaviour (the library
    does not protect against it). -/
theorem C30_double_free_is_undefined (cs : List Call) (w : World)
    (hl : LegalRun World.start cs) (hn : cs.length < 2147483646)
    (hr : World.start.run cs = .ok w) (a : Nat) (ha : a ∈ w.held)
    (h1 : references w.heap w.held a = 1) :
    w.run [.free a, .free a] = .ub := by
  obtain ⟨w', e, _, h⟩ := C30_free_destroys_on_last_reference cs w hl hn hr a ha
  have hd : w'.heap.cells a = none := by
    cases hc : w'.heap.cells a with
    | none => rfl
    | some c => have := h.mp ⟨c, hc⟩; omega
  simp only [World.run, e, Res.ok_bind]
  have : w'.step (.free a) = .ub := by
    simp only [World.step]
    rw [free, freeObj.eq_def]
    simp only [maxDepth, hd]
    rfl
  rw [this]
  rfl

/-- `clone` gives a new object that looks the same and shares nothing: the clone and all
    that can be reached from it is newly allocated, with one reference each, and every
    object that existed before is untouched. -/
theorem C30_clone_shares_nothing (cs : List Call) (w : World)
    (hl : LegalRun World.start cs) (hn : cs.length < 2147483646)
    (hr : World.start.run cs = .ok w) (a : Nat) (ha : Reach w.heap w.held a) :
    ∃ w' m, w.step (.clone a) = .ok w' ∧ w'.held = m :: w.held ∧
      (∀ depth, appearance depth w'.heap m = appearance depth w.heap a) ∧
      (∀ x c, w.heap.cells x = some c → w'.heap.cells x = some c) ∧
      ∀ x, Reach w'.heap [m] x →
        ¬ Live w.heap x ∧ ∃ c, w'.heap.cells x = some c ∧ c.rc = 1 := by
  have hg := good_of_run hl (by omega) hr
  obtain ⟨c, hc⟩ := reach_live hg.inv ha
  obtain ⟨h', m, d, e, i, x, lo, hm, _, ap⟩ := clone_ok hg.inv hc
  refine ⟨⟨h', m :: w.held⟩, m, by simp only [World.step, e, Res.ok_bind], rfl, ap,
    fun y cy hy => by show h'.cells y = _; rw [x.old y (hg.inv.lt hy)]; exact hy, ?_⟩
  have new : ∀ y, Reach h' [m] y → w.heap.next ≤ y ∧ ∃ c, h'.cells y = some c := by
    intro y hy
    induction hy with
    | held h => rw [List.mem_singleton] at h; subst h; exact ⟨lo, d, hm⟩
    | part _ hb hk ih =>
      obtain ⟨_, c', hc', _⟩ := i.kids _ _ hb (by simp) _ hk
      exact ⟨(x.new _ _ ih.1 hb).2 _ hk, c', hc'⟩
  intro y hy
  obtain ⟨h1, c', h2⟩ := new y hy
  exact ⟨fun ⟨c0, hc0⟩ => by have := hg.inv.lt hc0; omega, c', h2, (x.new y c' h1 h2).1⟩

/-- `afs_toc_file_set_preview(f, x)` and `_set_metadata(f, x)` are defined exactly when `x`
    can still be reached after the file has let go of its old part.  In particular giving a
    file its own preview is a use of freed memory, unless another reference keeps that
    preview alive. -/
theorem C30_set_part_defined_iff (cs : List Call) (w : World)
    (hl : LegalRun World.start cs) (hn : cs.length < 2147483646)
    (hr : World.start.run cs = .ok w) (f x : Nat) (k kf : Kind)
    (hf : Reach w.heap w.held f) (hkf : Is w.heap f kf) (ho : kf.owns k = true)
    (hx : Is w.heap x k) :
    (∃ w', w.step (.setPart f k (some x)) = .ok w') ↔
      Reach (withoutPart w.heap f k) w.held x := by
  have hg := good_of_run hl (by omega) hr
  obtain ⟨d, hd, hk⟩ := hkf
  have hs : Small w.heap := hg.small (by omega)
  constructor
  · rintro ⟨w', hw⟩
    obtain ⟨h1, e1, i1, s1⟩ := dropPart_ok (k := k) hg.inv hs hd
    simp only [World.step, setPart, hd, e1, Res.ok_bind] at hw
    cases hc : h1.cells x with
    | none =>
      rw [clone, cloneObj.eq_def] at hw
      simp only [maxDepth, hc] at hw
      cases hw
    | some c =>
      exact reach_shrinks_back s1 ((live_iff_reach i1 x).mp ⟨c, hc⟩)
  · intro hr
    obtain ⟨h', e, _⟩ := setPart_ok hg.inv hs hd hf (by rw [hk]; exact ho) hx hr
    exact ⟨⟨h', w.held⟩, by simp only [World.step, e, Res.ok_bind]⟩

/-! ## Concrete programs -/

/-- A program that builds a file with a preview of one page, takes a second reference to
    the file, clones it, gives the first file the clone's preview and frees everything. -/
def c30Program : List Call :=
  [.create .page [],                 -- 0
   .create .preview [],              -- 1
   .add 1 0 true,
   .create .file [1],                -- 2
   .newRef 2,
   .clone 2,                         -- 3 page, 4 preview, 5 file
   .setPart 2 .preview (some 4),     -- 6 page, 7 preview
   .free 2,
   .free 5,
   .free 2]

/-- It is legal, so the theorems above apply to it … -/
theorem C30_example_legal : LegalRun World.start c30Program := by
  refine ⟨⟨fun a => by simp, fun a ha => by simp at ha⟩, fun w' h => ?_⟩
  obtain rfl := Res.ok.inj h
  refine ⟨⟨fun a => by simp, fun a ha => by simp at ha⟩, fun w' h => ?_⟩
  obtain rfl := Res.ok.inj h
  refine ⟨⟨.held (by decide), by decide, .preview, .page, ⟨_, rfl, rfl⟩, ⟨_, rfl, rfl⟩, rfl⟩,
    fun w' h => ?_⟩
  obtain rfl := Res.ok.inj h
  refine ⟨⟨fun a => Nat.le_refl _, fun a ha => ?_⟩, fun w' h => ?_⟩
  · rw [List.mem_singleton] at ha
    subst ha
    exact ⟨.preview, ⟨_, rfl, rfl⟩, rfl⟩
  obtain rfl := Res.ok.inj h
  refine ⟨.held (by decide), fun w' h => ?_⟩
  obtain rfl := Res.ok.inj h
  refine ⟨.held (by decide), fun w' h => ?_⟩
  obtain rfl := Res.ok.inj h
  refine ⟨⟨.held (by decide), ⟨.file, ⟨_, rfl, rfl⟩, rfl⟩, fun y hy => ?_⟩, fun w' h => ?_⟩
  · cases hy
    exact ⟨⟨_, rfl, rfl⟩, .part (b := 5) (.held (by decide)) rfl (by decide)⟩
  obtain rfl := Res.ok.inj h
  refine ⟨by show (2 : Nat) ∈ _; decide, fun w' h => ?_⟩
  obtain rfl := Res.ok.inj h
  refine ⟨by show (5 : Nat) ∈ _; decide, fun w' h => ?_⟩
  obtain rfl := Res.ok.inj h
  refine ⟨by show (2 : Nat) ∈ _; decide, fun w' h => ?_⟩
  trivial

/-- … and ends holding nothing. -/
example : ∃ w, World.start.run c30Program = .ok w ∧ w.held = [] ∧
    w.heap.cells 2 = none ∧ w.heap.cells 7 = none := ⟨_, rfl, rfl, rfl, rfl⟩

/-- In the middle of it the file has two references and one part. -/
example : ∃ w, World.start.run (c30Program.take 7) = .ok w ∧
    w.heap.cells 2 = some ⟨.file, 2, [7]⟩ ∧ w.heap.cells 1 = none := ⟨_, rfl, rfl, rfl⟩

/-- Giving a file its own preview (src/tocfile.c:655-670) uses freed memory. -/
theorem C30_set_own_preview_is_undefined :
    World.start.run [.create .preview [], .create .file [0], .setPart 1 .preview (some 0)]
      = .ub := rfl

/-- … which a further reference prevents. -/
example : ∃ w, World.start.run [.create .preview [], .create .file [0], .newRef 0,
    .setPart 1 .preview (some 0)] = .ok w := ⟨_, rfl⟩

/-- Freeing an object that was only borrowed from its owner makes the owner's `free`
    undefined. -/
theorem C30_free_of_borrowed_part_is_undefined :
    World.start.run [.create .preview [], .create .file [0], .free 0, .free 1] = .ub := rfl

/-- A refused object stays with the caller, an accepted one goes to the container: freeing
    it as well is undefined. -/
theorem C30_free_after_hand_over_is_undefined :
    (∃ w, World.start.run [.create .files [], .create .file [], .add 0 1 false, .free 1, .free 0]
      = .ok w ∧ w.held = []) ∧
    World.start.run [.create .files [], .create .file [], .add 0 1 true, .free 1, .free 0]
      = .ub := ⟨⟨_, rfl, rfl⟩, rfl⟩

end Afs
