import Verif.Proof.Threads2
/-!
# Whole threads
-/
namespace Afs.Threads
open Afs.Spec Afs.Refs

variable {n0 t : Nat}

theorem call_does (ht : 1 ≤ t) {w w' : World} {c : Call} (hp : Apart n0 w.heap)
    (ho : OnlyReads n0 (.call c)) (he : w.step c = .ok w') :
    Does n0 t (callP (named n0 t) c) w.heap w'.heap () ∧ Apart n0 w'.heap := by
  cases c with
  | create k parts =>
    cases he
    exact ⟨does_new ht hp.next (does_done _ _), hp.alloc k ho⟩
  | newRef a =>
    simp only [World.step] at he
    cases h1 : Refs.newRef w.heap a with
    | ub => rw [h1] at he; cases he
    | ok h => rw [h1] at he; cases he; exact newRef_does ht hp ho h1
  | free a =>
    simp only [World.step] at he
    cases h1 : Refs.free w.heap a with
    | ub => rw [h1] at he; cases he
    | ok h => rw [h1] at he; cases he; exact free_does ht maxDepth _ _ a hp ho h1
  | clone a =>
    simp only [World.step] at he
    cases h1 : Refs.clone w.heap a with
    | ub => rw [h1] at he; cases he
    | ok r =>
      obtain ⟨h, m⟩ := r
      rw [h1] at he; cases he
      obtain ⟨d1, p1, _⟩ := clone_does ht maxDepth _ _ a m hp h1
      exact ⟨does_bind d1 (does_done _ _), p1⟩
  | add p c acc =>
    simp only [World.step] at he
    cases h1 : Refs.add w.heap p c acc with
    | ub => rw [h1] at he; cases he
    | ok h => rw [h1] at he; cases he; exact add_does ht hp ho.1 ho.2 h1
  | addInner p k c o =>
    simp only [World.step] at he
    cases h1 : Refs.addInner w.heap p k c o with
    | ub => rw [h1] at he; cases he
    | ok h => rw [h1] at he; cases he; exact addInner_does ht hp ho.1 ho.2 h1
  | setPart f k x =>
    simp only [World.step] at he
    cases h1 : Refs.setPart w.heap f k x with
    | ub => rw [h1] at he; cases he
    | ok h => rw [h1] at he; cases he; exact setPart_does ht hp ho h1
  | addLayouts c d oks =>
    simp only [World.step] at he
    cases h1 : Refs.addLayouts w.heap c d oks with
    | ub => rw [h1] at he; cases he
    | ok h => rw [h1] at he; cases he; exact addLayouts_does ht hp ho h1

theorem look_does {h : Heap} {L : List Nat} (hi : Inv h L []) : ∀ (n a : Nat) (c : Cell),
    h.cells a = some c →
    Does n0 t (lookP n (named n0 t a)) h h (appearance n h a) := by
  intro n
  induction n with
  | zero => intro a c _; exact does_done _ _
  | succ n ih =>
    intro a c hc
    have list : ∀ l : List Nat, (∀ x ∈ l, ∃ d, h.cells x = some d) →
        Does n0 t (lookP.looks (lookP n) (l.map (named n0 t))) h h
          (l.map (appearance n h)) := by
      intro l
      induction l with
      | nil => intro _; exact does_done _ _
      | cons x l ihl =>
        intro hl
        obtain ⟨d, hd⟩ := hl x (by simp)
        exact does_bind (ih x d hd)
          (does_bind (ihl fun y hy => hl y (by simp [hy])) (does_done _ _))
    rw [lookP, appearance, hc]
    refine does_kindOf (does_getKids hc (does_bind (list c.kids ?_) ?_))
    · intro x hx
      obtain ⟨_, d, hd, _⟩ := hi.kids a c hc (by simp) x hx
      exact ⟨d, hd⟩
    · rw [hc]
      exact does_done _ _

theorem thread_does (ht : 1 ≤ t) : ∀ (cs : List TCall) (w : World) (n : Nat), Good w n →
    Apart n0 w.heap → n + cs.length < 2147483647 → TLegalRun n0 w cs →
    ∃ w' xs, w.trun cs = .ok (w', xs) ∧ Good w' (n + cs.length) ∧
      Does n0 t (threadP (named n0 t) cs) w.heap w'.heap xs := by
  intro cs
  induction cs with
  | nil => intro w n hg _ _ _; exact ⟨w, [], rfl, hg, does_done _ _⟩
  | cons c cs ih =>
    intro w n hg hp hn hl
    rw [List.length_cons] at hn
    obtain ⟨hl1, ho, hl2⟩ := hl
    cases c with
    | call c =>
      obtain ⟨w1, e1, g1⟩ := step_ok hg (by omega) hl1
      obtain ⟨d1, p1⟩ := call_does ht hp ho e1
      have es : w.tstep (.call c) = .ok (w1, []) := by simp only [World.tstep, e1, Res.ok_bind]
      obtain ⟨w2, xs, e2, g2, d2⟩ := ih w1 (n + 1) g1 p1 (by omega) (hl2 w1 [] es)
      refine ⟨w2, xs, ?_, ?_, does_bind d1 d2⟩
      · simp only [World.trun, es, Res.ok_bind, e2, List.nil_append]
      · rw [List.length_cons, show n + (cs.length + 1) = n + 1 + cs.length by omega]
        exact g2
    | look a =>
      have es : w.tstep (.look a) = .ok (w, [appearance maxDepth w.heap a]) := rfl
      have g1 : Good w (n + 1) := ⟨hg.inv, fun a c hc => by have := hg.rcs a c hc; omega⟩
      obtain ⟨w2, xs, e2, g2, d2⟩ := ih w (n + 1) g1 hp (by omega) (hl2 w _ es)
      obtain ⟨c, hc⟩ := reach_live hg.inv hl1
      refine ⟨w2, appearance maxDepth w.heap a :: xs, ?_, ?_, ?_⟩
      · simp only [World.trun, es, Res.ok_bind, e2, List.cons_append, List.nil_append]
      · rw [List.length_cons, show n + (cs.length + 1) = n + 1 + cs.length by omega]
        exact g2
      · exact does_bind (look_does hg.inv maxDepth a c hc) (does_bind d2 (does_done _ _))

/-- The memory at the start, as every thread sees it. -/
theorem start_emb (ht : 1 ≤ t) {w : World} {n : Nat} (hg : Good w n) (threads : Nat → List TCall) :
    Emb w.heap.next t w.heap (Machine.start w threads).mem := by
  intro i
  by_cases hi : i < w.heap.next
  · have e : named w.heap.next t i = (0, i) := by unfold named; rw [if_pos hi]
    rw [e]
    simp only [Machine.start, if_true]
    cases hc : w.heap.cells i with
    | none => rfl
    | some c =>
      simp only [Option.map_some, asObj]
      congr 2
      apply List.map_congr_left
      intro x hx
      obtain ⟨_, d, hd, _⟩ := hg.inv.kids i c hc (by simp) x hx
      unfold named
      rw [if_pos (hg.inv.lt hd)]
  · have e : named w.heap.next t i = (t, i) := named_new (by omega)
    rw [e]
    simp only [Machine.start]
    rw [if_neg (show ¬ t = 0 by omega), hg.inv.bound i (by omega)]
    rfl

theorem start_apart {w : World} {n : Nat} (hg : Good w n) : Apart w.heap.next w.heap :=
  ⟨hg.inv.bound, Nat.le_refl _, fun a c ha hc => by
    have := hg.inv.lt hc
    omega⟩

/-- The results of all threads, each alone. -/
theorem all_threads {w : World} {n : Nat} (hg : Good w n) {threads : Nat → List TCall}
    (hlen : ∀ t, 1 ≤ t → n + (threads t).length < 2147483647)
    (hl : ∀ t, 1 ≤ t → TLegalRun w.heap.next w (threads t)) :
    ∃ res : Nat → Mem × Nat × List Tree, OnTheWay w.heap.next res (Machine.start w threads) ∧
      ∀ t, 1 ≤ t → ∃ w', w.trun (threads t) = .ok (w', (res t).2.2) ∧
        (res t).2.1 = w'.heap.next ∧ Emb w.heap.next t w'.heap (res t).1 := by
  have each : ∀ t, ∃ r : Mem × Nat × List Tree, 1 ≤ t →
      exec w.heap.next t (threadP (named w.heap.next t) (threads t))
        (Machine.start w threads).mem w.heap.next = .ok r ∧
      ∃ w', w.trun (threads t) = .ok (w', r.2.2) ∧
        r.2.1 = w'.heap.next ∧ Emb w.heap.next t w'.heap r.1 := by
    intro t
    by_cases ht : 1 ≤ t
    · obtain ⟨w', xs, e, _, d⟩ := thread_does ht (threads t) w n hg (start_apart hg)
        (hlen t ht) (hl t ht)
      obtain ⟨M', e2, m2⟩ := d _ (start_emb ht hg threads)
      exact ⟨(M', w'.heap.next, xs), fun _ => ⟨e2, w', e, rfl, m2⟩⟩
    · exact ⟨(fun _ => none, 0, []), fun h => absurd h ht⟩
  refine ⟨fun t => Classical.choose (each t), ?_, ?_⟩
  · intro t ht
    exact ⟨_, (Classical.choose_spec (each t) ht).1, fun _ _ => rfl⟩
  · intro t ht
    exact (Classical.choose_spec (each t) ht).2

end Afs.Threads
