import Verif.Proof.ZeroMem

/-!
# C79: zero reference frames and marks are released exactly once

src/zeroreferenceframe.c for every sequence of calls and every allocator, also one that gives released addresses again.
-/

namespace Afs

open ZeroMem (Mem World Call Allocator Block calls call malloc)
open Spec.ZeroMem (Val Fits Sizes Works InUse step run total)

/-- What a pointer of the caller points to, for every value of the specification except released pointers. -/
def Spec.ZeroMem.PointsTo (m : Mem) (p : Option Nat) : Val → Prop
  | .null => p = none
  | .gone => True
  | .mark none => ∃ a, p = some a ∧ m.at_ a = some (.mark none)
  | .mark (some (w, h)) => ∃ a q, p = some a ∧ m.at_ a = some (.mark (some q)) ∧ Mark.create w h = .ok (some q)
  | .raw => ∃ a, p = some a ∧ m.at_ a = some (.frame .unset none)
  | .frame w h => ∃ a f, p = some a ∧ ZeroFrame.create w h = .ok (some f) ∧
      ∀ fresh, ZeroMem.image m p fresh = f.createImage (fresh w h)

namespace ZeroMem

theorem Rep.pointsTo {w : World} {vs lost i v} (R : Rep w vs lost) (hv : vs[i]? = some v) :
    w.vars[i]? = some (w.var i) ∧ Spec.ZeroMem.PointsTo w.mem (w.var i) v := by
  obtain ⟨B, L, hA, hL, H⟩ := R
  obtain ⟨p, B1, B2, ep, rfl, ho, -⟩ := hA.focus hv
  rw [var_of ep]
  refine ⟨ep, ?_⟩
  cases ho with
  | null => rfl
  | gone => trivial
  | blank a =>
    rw [add_assoc, Multiset.singleton_add] at H
    exact ⟨a, rfl, H.get⟩
  | raw a =>
    rw [add_assoc, Multiset.singleton_add] at H
    exact ⟨a, rfl, H.get⟩
  | mark a q x y e =>
    rw [add_assoc, Multiset.singleton_add] at H
    exact ⟨a, q, rfl, H.get, by rw [create_init, e]⟩
  | frame a b q x y e hs hf =>
    rw [add_assoc, pair_add] at H
    exact ⟨a, _, rfl, created hf e, fun fresh => image_frame H fresh⟩

theorem All.length {vs ps B} (hA : All vs ps B) : ps.length = vs.length := by
  induction hA with
  | nil => rfl
  | cons _ _ ih => rw [List.length_cons, List.length_cons, ih]

theorem Rep.length {w : World} {vs lost} (R : Rep w vs lost) : w.vars.length = vs.length := by
  obtain ⟨B, L, hA, -⟩ := R
  exact hA.length

end ZeroMem

/-- **C79.** Every sequence of allowed calls is free of undefined behaviour, for every allocator that does not run out of memory: no
    block is released twice or used after it was released. Afterwards every pointer is what the specification says, and exactly
    the blocks behind the pointers are in use, and one block for every mark that setting a frame again lost. -/
theorem C79_programs (env : Allocator) (hw : Works env) (cs : List Call) (vs : List Val) (lost : Nat)
    (hc : run [] cs = some (vs, lost)) :
    ∃ w, calls env ⟨[], Mem.init⟩ cs = .ok w ∧ w.vars.length = vs.length ∧
      (∀ i v, vs[i]? = some v → w.vars[i]? = some (w.var i) ∧ Spec.ZeroMem.PointsTo w.mem (w.var i) v) ∧
      InUse w.mem (total vs + lost) := by
  obtain ⟨w, e, R⟩ := ZeroMem.calls_ok env hw ZeroMem.rep_init hc
  rw [Nat.zero_add] at R
  exact ⟨w, e, R.length, fun i v hv => R.pointsTo hv, R.inUse⟩

/-- **C79.** When every frame and mark was released (and no frame was set twice), nothing is left in memory. -/
theorem C79_nothing_left (env : Allocator) (hw : Works env) (cs : List Call) (vs : List Val)
    (hc : run [] cs = some (vs, 0)) (hg : ∀ v ∈ vs, v = .null ∨ v = .gone) :
    ∃ w, calls env ⟨[], Mem.init⟩ cs = .ok w ∧ ∀ a, w.mem.at_ a = none := by
  obtain ⟨w, e, -, -, l, -, hl, hm⟩ := C79_programs env hw cs vs 0 hc
  refine ⟨w, e, fun a => ?_⟩
  have h0 : total vs = 0 := by
    clear hc hl
    induction vs with
    | nil => rfl
    | cons v vs ih =>
      have h1 := ih fun v hv => hg v (List.mem_cons_of_mem _ hv)
      rcases hg v List.mem_cons_self with rfl | rfl <;> simpa [total, Spec.ZeroMem.blocks] using h1
  rw [h0] at hl
  have hnil : l = [] := List.length_eq_zero_iff.1 hl
  rw [hnil] at hm
  rcases h : w.mem.at_ a with _ | b
  · rfl
  · exact absurd ((hm a).2 (by rw [h]; exact fun e => nomatch e)) List.not_mem_nil

/-- **C79 (what does not hold).** Setting a frame again loses its old mark: after the frame was released one block stays in use. -/
theorem C79_set_again_leaks (env : Allocator) (hw : Works env) (x y x' y' : Nat) (hs : Sizes x y) (hs' : Sizes x' y')
    (hf : Fits x y) (hf' : Fits x' y') :
    ∃ w, calls env ⟨[], Mem.init⟩ [.frameCreate x y, .frameInit 0 x' y', .frameFree 0] = .ok w ∧ InUse w.mem 1 := by
  obtain ⟨w, e, -, -, h⟩ := C79_programs env hw [.frameCreate x y, .frameInit 0 x' y', .frameFree 0] [.gone] 1
    (by simp [run, step, hs, hs', hf, hf'])
  exact ⟨w, e, h⟩

/-- **C79 (what does not hold).** A frame of the caller that could not be set, because it is too small, must not be released: its mark
    was never set, and releasing it reads it. -/
theorem C79_failed_init_then_free (env : Allocator) (hw : Works env) (x y : Nat) (hs : Sizes x y) (hf : ¬ Fits x y) :
    (∃ w, calls env ⟨[], Mem.init⟩ [.newFrame, .frameInit 0 x y] = .ok w) ∧
    calls env ⟨[], Mem.init⟩ [.newFrame, .frameInit 0 x y, .frameFree 0] = .ub := by
  obtain ⟨w, e, R⟩ := ZeroMem.calls_ok env hw ZeroMem.rep_init
    (show run [] [.newFrame, .frameInit 0 x y] = some ([.raw], 0) by simp [run, step, hs, hf])
  refine ⟨⟨w, e⟩, ?_⟩
  obtain ⟨a, ep, ea⟩ := (R.pointsTo (i := 0) (v := .raw) rfl).2
  have hsplit : calls env ⟨[], Mem.init⟩ [.newFrame, .frameInit 0 x y, .frameFree 0] =
      (calls env ⟨[], Mem.init⟩ [.newFrame, .frameInit 0 x y] >>= fun w => call env w (.frameFree 0) >>= .ok) := by
    simp only [calls]
    cases call env ⟨[], Mem.init⟩ .newFrame with
    | ub => rfl
    | ok w1 =>
      rw [Res.ok_bind, Res.ok_bind]
      cases call env w1 (.frameInit 0 x y) with
      | ub => rfl
      | ok w2 => rfl
  rw [hsplit, e, Res.ok_bind, call, ep, ZeroMem.frameFree]
  rw [ea]
  rfl

/-- **C79.** When memory runs out: creating a mark gives NULL and changes nothing; setting a frame fails and leaves it as it was;
    creating a frame gives NULL when its mark cannot be allocated, and the memory of the frame is released again. -/
theorem C79_out_of_memory (env : Allocator) (m : Mem) (x y : Nat) :
    ((∀ at_, env m.mallocs at_ = none) →
      (∃ m', ZeroMem.markCreate env m x y = .ok (none, m') ∧ m'.at_ = m.at_) ∧
      ∀ p, ∃ m', ZeroMem.frameInit env m p x y = .ok (false, m') ∧ m'.at_ = m.at_) ∧
    (∀ a, env m.mallocs m.at_ = some a → m.at_ a = none → (∀ at_, env (m.mallocs + 1) at_ = none) →
      ∃ m', ZeroMem.frameCreate env m x y = .ok (none, m') ∧ m'.at_ = m.at_) := by
  have mk : ∀ m : Mem, (∀ at_, env m.mallocs at_ = none) →
      (∃ m', ZeroMem.markCreate env m x y = .ok (none, m') ∧ m'.at_ = m.at_) := by
    intro m he
    rw [ZeroMem.markCreate]
    by_cases hz : x = 0 ∨ y = 0
    · rw [if_pos hz]; exact ⟨m, rfl, rfl⟩
    · rw [if_neg hz, malloc, he]; exact ⟨_, rfl, rfl⟩
  have fr : ∀ m : Mem, (∀ at_, env m.mallocs at_ = none) →
      ∀ p, ∃ m', ZeroMem.frameInit env m p x y = .ok (false, m') ∧ m'.at_ = m.at_ := by
    intro m he p
    rw [ZeroMem.frameInit.eq_def]
    cases p with
    | none => exact ⟨m, rfl, rfl⟩
    | some a =>
      dsimp only
      by_cases hz : x = 0 ∨ y = 0
      · rw [if_pos hz]; exact ⟨m, rfl, rfl⟩
      · rw [if_neg hz]
        obtain ⟨m', e, h⟩ := mk m he
        rw [e]; exact ⟨m', rfl, h⟩
  refine ⟨fun he => ⟨mk m he, fr m he⟩, fun a ea ha he => ?_⟩
  rw [ZeroMem.frameCreate]
  by_cases hz : x = 0 ∨ y = 0
  · rw [if_pos hz]; exact ⟨m, rfl, rfl⟩
  · rw [if_neg hz, malloc, ea]
    have e1 : (some a : Option Nat).filter (fun a => (m.at_ a).isNone) = some a := by simp [ha]
    rw [e1]
    dsimp only
    obtain ⟨m', e, h⟩ := fr ({ m.put a (some (.frame .unset none)) with mallocs := m.mallocs + 1 }.put a
      (some (.frame .null none))) he (some a)
    rw [e, Res.ok_bind]
    dsimp only
    have ga : m'.at_ a = some (.frame .null none) := by
      rw [h]; simp [Mem.put]
    rw [if_neg (by decide), ZeroMem.frameFree]
    rw [ga]
    dsimp only
    rw [ZeroMem.free, ga]
    refine ⟨_, rfl, ?_⟩
    funext b
    show (if b = a then none else m'.at_ b) = m.at_ b
    by_cases hb : b = a
    · rw [if_pos hb, hb, ha]
    · rw [if_neg hb, h]
      simp [Mem.put, hb]

/-- **C79 (what does not hold).** When the frame itself cannot be allocated, creating it writes through NULL. -/
theorem C79_no_memory_for_frame (env : Allocator) (m : Mem) (x y : Nat) (hx : 0 < x) (hy : 0 < y)
    (he : env m.mallocs m.at_ = none) : ZeroMem.frameCreate env m x y = .ub := by
  rw [ZeroMem.frameCreate, if_neg (by omega), malloc, he]
  rfl

/-- An allocator that gives the smallest address that is not in use, so released addresses again and again. -/
noncomputable def exAllocator : Allocator := fun _ at_ => some (sInf { a | at_ a = none })

theorem exAllocator_works : Works exAllocator := by
  intro n at_ ⟨l, hl⟩
  refine ⟨_, rfl, ?_⟩
  have hb : ∃ n, ∀ a ∈ l, a < n := by
    clear hl
    induction l with
    | nil => exact ⟨0, fun a h => nomatch h⟩
    | cons b l ih =>
      obtain ⟨n, h⟩ := ih
      refine ⟨n + b + 1, fun a ha => ?_⟩
      rcases List.mem_cons.1 ha with rfl | ha
      · omega
      · have := h a ha; omega
  obtain ⟨n, hn⟩ := hb
  refine Nat.sInf_mem (s := { a | at_ a = none }) ⟨n, ?_⟩
  show at_ n = none
  rcases h : at_ n with _ | b
  · rfl
  · exact absurd (hn n (hl n (by rw [h]; exact fun e => nomatch e))) (by omega)

/-- **C79.** The theorems apply: frames and marks are made, one of them too small, set, drawn and released; two frames are left. -/
theorem C79_example :
    run [] [.frameCreate 4096 2160, .frameCreate 1 5, .newFrame, .frameInit 2 8 16, .markCreate 100 100, .markInit 3 8 8,
        .image 2 (fun w h => some (List.replicate (w * h) 0)), .markFree 3, .frameFree 0, .frameFree 1, .frameCreate 20 20] =
      some ([.gone, .null, .frame 8 16, .gone, .frame 20 20], 0) ∧
    (∃ w, calls exAllocator ⟨[], Mem.init⟩ [.frameCreate 4096 2160, .frameCreate 1 5, .newFrame, .frameInit 2 8 16,
        .markCreate 100 100, .markInit 3 8 8, .image 2 (fun w h => some (List.replicate (w * h) 0)), .markFree 3, .frameFree 0,
        .frameFree 1, .frameCreate 20 20] = .ok w ∧ InUse w.mem 4) := by
  have h : run [] [.frameCreate 4096 2160, .frameCreate 1 5, .newFrame, .frameInit 2 8 16, .markCreate 100 100, .markInit 3 8 8,
        .image 2 (fun w h => some (List.replicate (w * h) 0)), .markFree 3, .frameFree 0, .frameFree 1, .frameCreate 20 20] =
      some ([.gone, .null, .frame 8 16, .gone, .frame 20 20], 0) := by
    simp [run, step, Sizes, Fits]
  refine ⟨h, ?_⟩
  obtain ⟨w, e, -, -, hu⟩ := C79_programs exAllocator exAllocator_works _ _ _ h
  exact ⟨w, e, hu⟩

end Afs
