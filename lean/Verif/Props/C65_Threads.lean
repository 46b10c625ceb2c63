import Verif.Proof.Threads3
/-!
# C65: several threads

Some objects are made (`setup`), then threads 1, 2, 3, … start, and a schedule says thread by
thread who makes the next memory access.  Each thread works on objects of its own and only
reads those that existed before.
-/
namespace Afs
open Afs.Spec Afs.Refs Afs.Threads

/-- The threads of the theorems: each, alone, makes legal calls and leaves alone what existed
    before. -/
structure SeparateThreads (setup : List Call) (w : World) (threads : Nat → List TCall) : Prop where
  legal : LegalRun World.start setup
  run : World.start.run setup = .ok w
  each : ∀ t, 1 ≤ t → TLegalRun w.heap.next w (threads t)
  length : ∀ t, 1 ≤ t → setup.length + (threads t).length < 2147483647

theorem SeparateThreads.good {setup : List Call} {w : World} {threads : Nat → List TCall}
    (h : SeparateThreads setup w threads) : Good w setup.length :=
  good_of_run h.legal (by have := h.length 1 (by omega); omega) h.run

/-- Under every schedule nothing undefined happens: no access to a freed object, no object
    freed twice. -/
theorem C65_no_undefined_behaviour {setup : List Call} {w : World} {threads : Nat → List TCall}
    (h : SeparateThreads setup w threads) (σ : List Nat) (hσ : ∀ t ∈ σ, 1 ≤ t) :
    ∃ m, (Machine.start w threads).run σ = .ok m := by
  obtain ⟨res, h0, _⟩ := all_threads h.good h.length h.each
  obtain ⟨m, hm, _⟩ := onTheWay_run σ _ h0 hσ
  exact ⟨m, hm⟩

/-- Under every schedule a thread that has finished has done exactly what it does alone: it has
    seen the same, and the objects it knows are as if it had run alone (in particular their
    counts, and which of them are still allocated). -/
theorem C65_each_as_if_alone {setup : List Call} {w : World} {threads : Nat → List TCall}
    (h : SeparateThreads setup w threads) (σ : List Nat) (hσ : ∀ t ∈ σ, 1 ≤ t) (m : Machine)
    (hm : (Machine.start w threads).run σ = .ok m) (t : Nat) (ht : 1 ≤ t) (seen : List Tree)
    (hd : m.prog t = .done seen) :
    ∃ w', w.trun (threads t) = .ok (w', seen) ∧
      ∀ i, m.mem (named w.heap.next t i) =
        (w'.heap.cells i).map (asObj (named w.heap.next t)) := by
  obtain ⟨res, h0, h1⟩ := all_threads h.good h.length h.each
  obtain ⟨m', hm', h2, _⟩ := onTheWay_run σ _ h0 hσ
  rw [hm] at hm'
  cases hm'
  obtain ⟨M, he, ha⟩ := h2 t ht
  rw [hd] at he
  have hr : res t = (M, m.next t, seen) := (Res.ok.inj he).symm
  obtain ⟨w', e1, _, e3⟩ := h1 t ht
  rw [hr] at e1 e3
  exact ⟨w', e1, fun i => by rw [ha _ (named_vis i)]; exact e3 i⟩

/-- Every thread finishes: there is a number of turns, the same for all schedules, after which
    it is done. -/
theorem C65_every_thread_finishes {setup : List Call} {w : World} {threads : Nat → List TCall}
    (h : SeparateThreads setup w threads) (t : Nat) (ht : 1 ≤ t) :
    ∃ turns, ∀ σ, (∀ u ∈ σ, 1 ≤ u) → turns ≤ σ.count t → ∀ m,
      (Machine.start w threads).run σ = .ok m → ∃ seen, m.prog t = .done seen := by
  obtain ⟨res, h0, h1⟩ := all_threads h.good h.length h.each
  obtain ⟨M, he, ha⟩ := h0 t ht
  exact ⟨_, fun σ hσ hc m hm => finishes ht σ _ h0 hσ M he ha hc m hm⟩

/-- Under every schedule what existed before the threads started is unchanged: same objects,
    same parts, same counts. -/
theorem C65_shared_objects_unchanged {setup : List Call} {w : World}
    {threads : Nat → List TCall} (h : SeparateThreads setup w threads) (σ : List Nat)
    (hσ : ∀ t ∈ σ, 1 ≤ t) (m : Machine) (hm : (Machine.start w threads).run σ = .ok m) (i : Nat) :
    m.mem (0, i) = (w.heap.cells i).map (asObj fun j => (0, j)) := by
  obtain ⟨res, h0, h1⟩ := all_threads h.good h.length h.each
  obtain ⟨m', hm', _, h2⟩ := onTheWay_run σ _ h0 hσ
  rw [hm] at hm'
  cases hm'
  rw [h2 (0, i) (fun t ht ho => by have := ho.1; simp at this; omega)]
  simp only [Machine.start, if_true]

/-- No data race: at no moment do two threads stand before accesses to the same object of which
    one is a write. -/
theorem C65_no_data_race {setup : List Call} {w : World} {threads : Nat → List TCall}
    (h : SeparateThreads setup w threads) (σ : List Nat) (hσ : ∀ t ∈ σ, 1 ≤ t) (m : Machine)
    (hm : (Machine.start w threads).run σ = .ok m) (t u : Nat) (ht : 1 ≤ t) (hu : 1 ≤ u)
    (hne : t ≠ u) : ¬ Conflict (m.prog t) (m.prog u) := by
  obtain ⟨res, h0, h1⟩ := all_threads h.good h.length h.each
  obtain ⟨m', hm', h2, _⟩ := onTheWay_run σ _ h0 hσ
  rw [hm] at hm'
  cases hm'
  rintro ⟨a, x, y, e1, e2, hor⟩
  obtain ⟨Mt, het, _⟩ := h2 t ht
  obtain ⟨Mu, heu, _⟩ := h2 u hu
  obtain ⟨v1, o1⟩ := exec_touches het e1
  obtain ⟨v2, o2⟩ := exec_touches heu e2
  cases x with
  | true => exact own_not_vis ht (Ne.symm hne) (o1 rfl) v2
  | false =>
    cases y with
    | true => exact own_not_vis hu hne (o2 rfl) v1
    | false => cases hor

/-- One thread is the special case of C30: its accesses one after the other do what
    `World.run` says. -/
theorem C65_alone_is_C30 (cs : List Call) (w : World) (hl : LegalRun World.start cs)
    (hn : cs.length < 2147483647) (hr : World.start.run cs = .ok w)
    (ho : ∀ c ∈ cs, OnlyReads 0 (.call c)) :
    ∃ turns, ∀ k, turns ≤ k → ∃ m,
      (Machine.start World.start fun t => if t = 1 then cs.map .call else []).run
        (List.replicate k 1) = .ok m ∧ m.prog 1 = .done [] ∧
      ∀ i, m.mem (1, i) = (w.heap.cells i).map (asObj fun j => (1, j)) := by
  have key : ∀ (cs : List Call) (w0 w : World), LegalRun w0 cs → w0.run cs = .ok w →
      (∀ c ∈ cs, OnlyReads 0 (.call c)) →
      TLegalRun 0 w0 (cs.map .call) ∧ w0.trun (cs.map .call) = .ok (w, []) := by
    intro cs
    induction cs with
    | nil => intro w0 w _ hr _; cases hr; exact ⟨trivial, rfl⟩
    | cons c cs ih =>
      intro w0 w hl hr ho
      rw [World.run] at hr
      cases h1 : w0.step c with
      | ub => rw [h1] at hr; cases hr
      | ok w1 =>
        rw [h1] at hr
        simp only [Res.ok_bind] at hr
        obtain ⟨i1, i2⟩ := ih w1 w (hl.2 w1 h1) hr (fun d hd => ho d (by simp [hd]))
        have es : w0.tstep (.call c) = .ok (w1, []) := by
          simp only [World.tstep, h1, Res.ok_bind]
        refine ⟨⟨hl.1, ho c (by simp), fun w' x he => ?_⟩, ?_⟩
        · rw [es] at he
          cases he
          exact i1
        · simp only [List.map_cons, World.trun, es, Res.ok_bind, i2, List.nil_append]
  obtain ⟨k1, k2⟩ := key cs World.start w hl hr ho
  have hsep : SeparateThreads [] World.start (fun t => if t = 1 then cs.map .call else []) := by
    refine ⟨trivial, rfl, fun t _ => ?_, fun t _ => ?_⟩
    · by_cases h : t = 1
      · simp only [h, if_true]; exact k1
      · simp only [if_neg h]; exact trivial
    · by_cases h : t = 1
      · simp only [h, if_true, List.length_map, List.length_nil]; omega
      · simp only [if_neg h, List.length_nil]; omega
  obtain ⟨turns, hturns⟩ := C65_every_thread_finishes hsep 1 (by omega)
  refine ⟨turns, fun k hk => ?_⟩
  have hσ : ∀ u ∈ List.replicate k 1, 1 ≤ u := fun u hu => by
    rw [(List.mem_replicate.mp hu).2]
    omega
  obtain ⟨m, hm⟩ := C65_no_undefined_behaviour hsep _ hσ
  obtain ⟨seen, hs⟩ := hturns _ hσ (by rw [List.count_replicate_self]; exact hk) m hm
  obtain ⟨w', e1, e2⟩ := C65_each_as_if_alone hsep _ hσ m hm 1 (by omega) seen hs
  simp only [if_true] at e1
  rw [k2] at e1
  cases e1
  refine ⟨m, hm, hs, fun i => ?_⟩
  have hnm : named World.start.heap.next 1 = fun j => (1, j) := by
    funext j
    exact named_new (Nat.zero_le j)
  have := e2 i
  rw [hnm] at this
  exact this

/-! ## Shared objects -/

/-- `get_new_reference` of the same object in two threads: whatever the object and its count,
    there is a schedule under which both threads get their reference and the count goes up by
    one only … -/
theorem C65_lost_reference (m : Machine) (t u : Nat) (hne : t ≠ u) (a : Name) (o : Obj)
    (f g : Unit → Prog (List Tree)) (ha : m.mem a = some o) (hr : ckInt (o.rc + 1) = .ok (o.rc + 1))
    (ht : m.prog t = (newRefP a).bind f) (hu : m.prog u = (newRefP a).bind g) :
    ∃ m', m.run [t, u, t, u] = .ok m' ∧ m'.prog t = f () ∧ m'.prog u = g () ∧
      m'.mem a = some { o with rc := o.rc + 1 } := by
  have key : ∀ f : Unit → Prog (List Tree), (newRefP a).bind f =
      .getRc a fun r => (intP (r + 1) fun r' => .setRc a r' (.done ())).bind f := fun _ => rfl
  have int : ∀ f : Unit → Prog (List Tree),
      (intP (o.rc + 1) fun r' => .setRc a r' (.done ())).bind f =
        .setRc a (o.rc + 1) (f ()) := by
    intro f
    rw [does_int hr]
    rfl
  rw [key] at ht hu
  have hne' : ¬ u = t := fun h => hne h.symm
  simp only [Machine.run, Machine.step, ht, hu, Threads.step, ha, if_true, if_neg hne,
    if_neg hne', int, Mem.put]
  exact ⟨_, rfl, by simp [hne], by simp, by simp [Mem.put]⟩

/-- … while one after the other they count to two more. -/
theorem C65_references_in_turn (m : Machine) (t u : Nat) (hne : t ≠ u) (a : Name) (o : Obj)
    (f g : Unit → Prog (List Tree)) (ha : m.mem a = some o) (hr : ckInt (o.rc + 1) = .ok (o.rc + 1))
    (hr2 : ckInt (o.rc + 1 + 1) = .ok (o.rc + 1 + 1))
    (ht : m.prog t = (newRefP a).bind f) (hu : m.prog u = (newRefP a).bind g) :
    ∃ m', m.run [t, t, u, u] = .ok m' ∧ m'.prog t = f () ∧ m'.prog u = g () ∧
      m'.mem a = some { o with rc := o.rc + 2 } := by
  have key : ∀ f : Unit → Prog (List Tree), (newRefP a).bind f =
      .getRc a fun r => (intP (r + 1) fun r' => .setRc a r' (.done ())).bind f := fun _ => rfl
  have int : ∀ f : Unit → Prog (List Tree),
      (intP (o.rc + 1) fun r' => .setRc a r' (.done ())).bind f =
        .setRc a (o.rc + 1) (f ()) := by
    intro f
    rw [does_int hr]
    rfl
  have int2 : ∀ f : Unit → Prog (List Tree),
      (intP (o.rc + 1 + 1) fun r' => .setRc a r' (.done ())).bind f =
        .setRc a (o.rc + 1 + 1) (f ()) := by
    intro f
    rw [does_int hr2]
    rfl
  rw [key] at ht hu
  have hne' : ¬ u = t := fun h => hne h.symm
  simp only [Machine.run, Machine.step, ht, hu, Threads.step, ha, if_true,
    if_neg hne', int, int2, Mem.put]
  exact ⟨_, rfl, by simp [hne], by simp, by simp [Mem.put]; omega⟩

/-- A file object made before the threads start, held three times. -/
def c65Setup : List Call := [.create .file [], .newRef 0, .newRef 0]

/-- Two threads give up one of the references each, a third looks at the file. -/
def c65Sharing : Nat → List TCall
  | 1 => [.call (.newRef 0), .call (.free 0)]
  | 2 => [.call (.newRef 0), .call (.free 0)]
  | _ => []

/-- Two threads that both take a reference to a shared object and give it up again: one after
    the other the count is what it was, interleaved it can be one less than there are
    references.  So a later, rightful use finds the object freed. -/
theorem C65_sharing_breaks_counts :
    ∃ w, World.start.run c65Setup = .ok w ∧
      (∃ m, (Machine.start w c65Sharing).run
        (List.replicate 10 1 ++ List.replicate 10 2) = .ok m ∧
        m.prog 1 = .done [] ∧ m.prog 2 = .done [] ∧ m.mem (0, 0) = some ⟨.file, 3, []⟩) ∧
      (∃ m, (Machine.start w c65Sharing).run
        ([1, 2, 1, 2] ++ List.replicate 10 1 ++ List.replicate 10 2) = .ok m ∧
        m.prog 1 = .done [] ∧ m.prog 2 = .done [] ∧ m.mem (0, 0) = some ⟨.file, 2, []⟩) :=
  ⟨_, rfl, ⟨_, rfl, rfl, rfl, rfl⟩, ⟨_, rfl, rfl, rfl, rfl⟩⟩

/-- Two threads that each rightfully give up the last two references at the same time. -/
def c65Freeing : Nat → List TCall
  | 1 => [.call (.free 0)]
  | 2 => [.call (.free 0)]
  | _ => []

/-- They can both find the count zero and destroy the object twice (undefined behaviour), or
    both find it not zero and destroy it never, though in turn all is well. -/
theorem C65_freeing_together_is_undefined :
    ∃ w, World.start.run [.create .file [], .newRef 0] = .ok w ∧
      (∃ m, (Machine.start w c65Freeing).run (List.replicate 8 1 ++ List.replicate 8 2) = .ok m ∧
        m.prog 1 = .done [] ∧ m.prog 2 = .done [] ∧ m.mem (0, 0) = none) ∧
      (Machine.start w c65Freeing).run
        ([1, 1, 1] ++ [2, 2, 2] ++ [1, 2] ++ List.replicate 8 1 ++ List.replicate 8 2) = .ub ∧
      (∃ m, (Machine.start w c65Freeing).run
        ([1, 1, 2, 2, 1, 2] ++ List.replicate 8 1 ++ List.replicate 8 2) = .ok m ∧
        m.prog 1 = .done [] ∧ m.prog 2 = .done [] ∧ m.mem (0, 0) = some ⟨.file, 1, []⟩) :=
  ⟨_, rfl, ⟨_, rfl, rfl, rfl, rfl⟩, rfl, ⟨_, rfl, rfl, rfl, rfl⟩⟩

/-! ## Separate threads exist -/

/-- Before the threads: a preview with a page (2 objects), held by the main program. -/
def c65Main : List Call := [.create .page [], .create .preview [], .add 1 0 true]

/-- Thread 1 makes a file, gives it a copy of the shared preview, looks at both and frees the
    file; thread 2 clones the shared preview and keeps a second reference to the clone. -/
def c65Separate : Nat → List TCall
  | 1 => [.call (.create .file []), .call (.setPart 2 .preview (some 1)), .look 2, .look 1,
      .call (.free 2)]
  | 2 => [.call (.clone 1), .call (.newRef 3), .look 3]
  | _ => []

theorem C65_example : ∃ w, SeparateThreads c65Main w c65Separate := by
  refine ⟨_, ?_, rfl, ?_, ?_⟩
  · refine ⟨⟨fun a => by simp, fun a ha => by simp at ha⟩, fun w' h => ?_⟩
    obtain rfl := Res.ok.inj h
    refine ⟨⟨fun a => by simp, fun a ha => by simp at ha⟩, fun w' h => ?_⟩
    obtain rfl := Res.ok.inj h
    refine ⟨⟨.held (by decide), by decide, .preview, .page, ⟨_, rfl, rfl⟩, ⟨_, rfl, rfl⟩, rfl⟩,
      fun w' h => trivial⟩
  · intro t ht
    match t, ht with
    | 1, _ =>
      refine ⟨⟨fun a => by simp, fun a ha => by simp at ha⟩, fun a ha => by simp at ha,
        fun w' x h => ?_⟩
      cases h
      refine ⟨⟨.held (by decide), ⟨.file, ⟨_, rfl, rfl⟩, rfl⟩, fun y hy => ?_⟩,
        (by show (2 : Nat) ≤ 2; decide), fun w' x h => ?_⟩
      · cases hy
        exact ⟨⟨_, rfl, rfl⟩, .held (by decide)⟩
      cases h
      refine ⟨.held (by decide), trivial, fun w' x h => ?_⟩
      cases h
      refine ⟨.held (by decide), trivial, fun w' x h => ?_⟩
      cases h
      exact ⟨by show (2 : Nat) ∈ _; decide, (by show (2 : Nat) ≤ 2; decide), fun w' x h => trivial⟩
    | 2, _ =>
      refine ⟨.held (by decide), trivial, fun w' x h => ?_⟩
      cases h
      refine ⟨.held (by decide), (by show (2 : Nat) ≤ 3; decide), fun w' x h => ?_⟩
      cases h
      exact ⟨.held (by decide), trivial, fun w' x h => trivial⟩
    | t + 3, _ => exact trivial
  · intro t ht
    match t, ht with
    | 1, _ => decide
    | 2, _ => decide
    | t + 3, _ => show (3 : Nat) + 0 < 2147483647; decide

/-- Both run to the end in an interleaved schedule. -/
example : ∃ w m, World.start.run c65Main = .ok w ∧
    (Machine.start w c65Separate).run ((List.replicate 60 [1, 2]).flatten) = .ok m ∧
    m.mem (2, 3) = some ⟨.preview, 2, [(2, 2)]⟩ ∧ m.mem (1, 2) = none ∧
    m.mem (0, 1) = some ⟨.preview, 1, [(0, 0)]⟩ ∧
    m.prog 2 = .done [.node .preview [.node .page []]] :=
  ⟨_, _, rfl, rfl, rfl, rfl, rfl, rfl⟩

end Afs
