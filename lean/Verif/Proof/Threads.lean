import Verif.Spec.Threads
/-!
# Interleaving: a thread that stays among its own objects is not disturbed

`exec` runs a program alone and checks at every access that the object is one the thread may
read (its own, or one that existed before) or write (its own).
-/
namespace Afs.Threads
open Afs.Spec Afs.Refs

/-- Objects thread `t` may read. -/
def Vis (n0 t : Nat) (a : Name) : Prop := (a.1 = 0 ∧ a.2 < n0) ∨ (a.1 = t ∧ n0 ≤ a.2)

/-- Objects thread `t` may write. -/
def Own (n0 t : Nat) (a : Name) : Prop := a.1 = t ∧ n0 ≤ a.2

instance (n0 t : Nat) (a : Name) : Decidable (Vis n0 t a) := by unfold Vis; infer_instance
instance (n0 t : Nat) (a : Name) : Decidable (Own n0 t a) := by unfold Own; infer_instance

theorem Own.vis {n0 t : Nat} {a : Name} (h : Own n0 t a) : Vis n0 t a := .inr h

/-- The same visible objects. -/
def Agree (n0 t : Nat) (M N : Mem) : Prop := ∀ a, Vis n0 t a → M a = N a

def exec {α : Type} (n0 t : Nat) : Prog α → Mem → Nat → Res (Mem × Nat × α)
  | .done x, M, n => .ok (M, n, x)
  | .ub, _, _ => .ub
  | .getRc a k, M, n => if Vis n0 t a then match M a with
      | none => .ub
      | some o => exec n0 t (k o.rc) M n
    else .ub
  | .setRc a r k, M, n => if Own n0 t a then match M a with
      | none => .ub
      | some o => exec n0 t k (M.put a (some { o with rc := r })) n
    else .ub
  | .getKids a k, M, n => if Vis n0 t a then match M a with
      | none => .ub
      | some o => exec n0 t (k o.kids) M n
    else .ub
  | .setKids a l k, M, n => if Own n0 t a then match M a with
      | none => .ub
      | some o => exec n0 t k (M.put a (some { o with kids := l })) n
    else .ub
  | .kindOf a k, M, n =>
      if Vis n0 t a then exec n0 t (k ((M a).map (·.kind))) M n else .ub
  | .new kd l k, M, n =>
      if n0 ≤ n then exec n0 t (k (t, n)) (M.put (t, n) (some ⟨kd, 1, l⟩)) (n + 1) else .ub
  | .del a k, M, n => if Own n0 t a then match M a with
      | none => .ub
      | some _ => exec n0 t k (M.put a none) n
    else .ub

/-- How many accesses the program makes when it runs alone. -/
def cost {α : Type} (n0 t : Nat) : Prog α → Mem → Nat → Nat
  | .done _, _, _ => 0
  | .ub, _, _ => 0
  | .getRc a k, M, n => match M a with
      | none => 0
      | some o => cost n0 t (k o.rc) M n + 1
  | .setRc a r k, M, n => match M a with
      | none => 0
      | some o => cost n0 t k (M.put a (some { o with rc := r })) n + 1
  | .getKids a k, M, n => match M a with
      | none => 0
      | some o => cost n0 t (k o.kids) M n + 1
  | .setKids a l k, M, n => match M a with
      | none => 0
      | some o => cost n0 t k (M.put a (some { o with kids := l })) n + 1
  | .kindOf a k, M, n => cost n0 t (k ((M a).map (·.kind))) M n + 1
  | .new kd l k, M, n => cost n0 t (k (t, n)) (M.put (t, n) (some ⟨kd, 1, l⟩)) (n + 1) + 1
  | .del a k, M, n => match M a with
      | none => 0
      | some _ => cost n0 t k (M.put a none) n + 1

theorem exec_bind {α β : Type} (n0 t : Nat) (f : α → Prog β) : ∀ (p : Prog α) (M : Mem) (n : Nat),
    exec n0 t (p.bind f) M n =
      (exec n0 t p M n >>= fun r => exec n0 t (f r.2.2) r.1 r.2.1) := by
  intro p
  induction p with
  | done x => intro M n; rfl
  | ub => intro M n; rfl
  | getRc a k ih =>
    intro M n
    simp only [Prog.bind, exec]
    by_cases h : Vis n0 t a
    · rw [if_pos h, if_pos h]; cases M a with
      | none => rfl
      | some o => exact ih _ _ _
    · rw [if_neg h, if_neg h]; rfl
  | setRc a r k ih =>
    intro M n
    simp only [Prog.bind, exec]
    by_cases h : Own n0 t a
    · rw [if_pos h, if_pos h]; cases M a with
      | none => rfl
      | some o => exact ih _ _
    · rw [if_neg h, if_neg h]; rfl
  | getKids a k ih =>
    intro M n
    simp only [Prog.bind, exec]
    by_cases h : Vis n0 t a
    · rw [if_pos h, if_pos h]; cases M a with
      | none => rfl
      | some o => exact ih _ _ _
    · rw [if_neg h, if_neg h]; rfl
  | setKids a l k ih =>
    intro M n
    simp only [Prog.bind, exec]
    by_cases h : Own n0 t a
    · rw [if_pos h, if_pos h]; cases M a with
      | none => rfl
      | some o => exact ih _ _
    · rw [if_neg h, if_neg h]; rfl
  | kindOf a k ih =>
    intro M n
    simp only [Prog.bind, exec]
    by_cases h : Vis n0 t a
    · rw [if_pos h, if_pos h]; exact ih _ _ _
    · rw [if_neg h, if_neg h]; rfl
  | new kd l k ih =>
    intro M n
    simp only [Prog.bind, exec]
    by_cases h : n0 ≤ n
    · rw [if_pos h, if_pos h]; exact ih _ _ _
    · rw [if_neg h, if_neg h]; rfl
  | del a k ih =>
    intro M n
    simp only [Prog.bind, exec]
    by_cases h : Own n0 t a
    · rw [if_pos h, if_pos h]; cases M a with
      | none => rfl
      | some o => exact ih _ _
    · rw [if_neg h, if_neg h]; rfl

theorem agree_put {n0 t : Nat} {M N : Mem} (h : Agree n0 t M N) (a : Name) (o : Option Obj) :
    Agree n0 t (M.put a o) (N.put a o) := by
  intro x hx
  simp only [Mem.put]
  split
  · rfl
  · exact h x hx

theorem put_other {n0 t : Nat} {a : Name} (h : Own n0 t a) (M : Mem) (o : Option Obj) :
    ∀ x, ¬ Own n0 t x → M.put a o x = M x := by
  intro x hx
  simp only [Mem.put]
  rw [if_neg]
  rintro rfl
  exact hx h

/-- One access in a memory that looks the same. -/
theorem exec_step {α : Type} {n0 t : Nat} {p : Prog α} {M N : Mem} {n : Nat}
    {res : Mem × Nat × α} (he : exec n0 t p M n = .ok res) (hN : Agree n0 t N M) :
    ∃ N' n' p' M', step t N n p = .ok (N', n', p') ∧ exec n0 t p' M' n' = .ok res ∧
      Agree n0 t N' M' ∧ (∀ x, ¬ Own n0 t x → N' x = N x) ∧
      ((∃ x, p = .done x) ∨ cost n0 t p' M' n' < cost n0 t p M n) := by
  cases p with
  | done x => exact ⟨N, n, .done x, M, rfl, he, hN, fun _ _ => rfl, .inl ⟨x, rfl⟩⟩
  | ub => cases he
  | getRc a k =>
    simp only [exec] at he
    by_cases h : Vis n0 t a
    · rw [if_pos h] at he
      cases ha : M a with
      | none => rw [ha] at he; cases he
      | some o =>
        rw [ha] at he
        refine ⟨N, n, k o.rc, M, ?_, he, hN, fun _ _ => rfl, .inr ?_⟩
        · simp only [step]; rw [hN a h, ha]
        · simp only [cost]; rw [ha]; dsimp only; omega
    · rw [if_neg h] at he; cases he
  | setRc a r k =>
    simp only [exec] at he
    by_cases h : Own n0 t a
    · rw [if_pos h] at he
      cases ha : M a with
      | none => rw [ha] at he; cases he
      | some o =>
        rw [ha] at he
        refine ⟨_, n, k, _, ?_, he, agree_put hN _ _, put_other h _ _, .inr ?_⟩
        · simp only [step]; rw [hN a h.vis, ha]
        · simp only [cost]; rw [ha]; dsimp only; omega
    · rw [if_neg h] at he; cases he
  | getKids a k =>
    simp only [exec] at he
    by_cases h : Vis n0 t a
    · rw [if_pos h] at he
      cases ha : M a with
      | none => rw [ha] at he; cases he
      | some o =>
        rw [ha] at he
        refine ⟨N, n, k o.kids, M, ?_, he, hN, fun _ _ => rfl, .inr ?_⟩
        · simp only [step]; rw [hN a h, ha]
        · simp only [cost]; rw [ha]; dsimp only; omega
    · rw [if_neg h] at he; cases he
  | setKids a l k =>
    simp only [exec] at he
    by_cases h : Own n0 t a
    · rw [if_pos h] at he
      cases ha : M a with
      | none => rw [ha] at he; cases he
      | some o =>
        rw [ha] at he
        refine ⟨_, n, k, _, ?_, he, agree_put hN _ _, put_other h _ _, .inr ?_⟩
        · simp only [step]; rw [hN a h.vis, ha]
        · simp only [cost]; rw [ha]; dsimp only; omega
    · rw [if_neg h] at he; cases he
  | kindOf a k =>
    simp only [exec] at he
    by_cases h : Vis n0 t a
    · rw [if_pos h] at he
      refine ⟨N, n, _, M, ?_, he, hN, fun _ _ => rfl, .inr ?_⟩
      · simp only [step]; rw [hN a h]
      · simp only [cost]; omega
    · rw [if_neg h] at he; cases he
  | new kd l k =>
    simp only [exec] at he
    by_cases h : n0 ≤ n
    · rw [if_pos h] at he
      exact ⟨_, _, _, _, rfl, he, agree_put hN _ _, put_other (a := (t, n)) ⟨rfl, h⟩ _ _,
        .inr (by simp only [cost]; omega)⟩
    · rw [if_neg h] at he; cases he
  | del a k =>
    simp only [exec] at he
    by_cases h : Own n0 t a
    · rw [if_pos h] at he
      cases ha : M a with
      | none => rw [ha] at he; cases he
      | some o =>
        rw [ha] at he
        refine ⟨_, n, k, _, ?_, he, agree_put hN _ _, put_other h _ _, .inr ?_⟩
        · simp only [step]; rw [hN a h.vis, ha]
        · simp only [cost]; rw [ha]; dsimp only; omega
    · rw [if_neg h] at he; cases he

/-- What the next access touches is visible, what it writes is the thread's own. -/
theorem exec_touches {α : Type} {n0 t : Nat} {p : Prog α} {M : Mem} {n : Nat}
    {res : Mem × Nat × α} (he : exec n0 t p M n = .ok res) {a : Name} {w : Bool}
    (ht : touches p = some (a, w)) : Vis n0 t a ∧ (w = true → Own n0 t a) := by
  cases p with
  | done x => cases ht
  | ub => cases ht
  | kindOf a k => cases ht
  | new kd l k => cases ht
  | getRc b k =>
    cases ht
    simp only [exec] at he
    by_cases h : Vis n0 t a
    · exact ⟨h, (by simp)⟩
    · rw [if_neg h] at he; cases he
  | getKids b k =>
    cases ht
    simp only [exec] at he
    by_cases h : Vis n0 t a
    · exact ⟨h, (by simp)⟩
    · rw [if_neg h] at he; cases he
  | setRc b r k =>
    cases ht
    simp only [exec] at he
    by_cases h : Own n0 t a
    · exact ⟨h.vis, fun _ => h⟩
    · rw [if_neg h] at he; cases he
  | setKids b l k =>
    cases ht
    simp only [exec] at he
    by_cases h : Own n0 t a
    · exact ⟨h.vis, fun _ => h⟩
    · rw [if_neg h] at he; cases he
  | del b k =>
    cases ht
    simp only [exec] at he
    by_cases h : Own n0 t a
    · exact ⟨h.vis, fun _ => h⟩
    · rw [if_neg h] at he; cases he

/-- No other thread sees what a thread may write. -/
theorem own_not_vis {n0 t u : Nat} {a : Name} (ht : 1 ≤ t) (hne : u ≠ t) (h : Own n0 t a) :
    ¬ Vis n0 u a := by
  rintro (⟨h1, _⟩ | ⟨h1, _⟩)
  · have := h.1; omega
  · have := h.1; omega

/-! ## All threads together -/

/-- Every thread is somewhere on its way to the result it has alone. -/
def OnTheWay (n0 : Nat) (res : Nat → Mem × Nat × List Tree) (m : Machine) : Prop :=
  ∀ t, 1 ≤ t → ∃ M, exec n0 t (m.prog t) M (m.next t) = .ok (res t) ∧ Agree n0 t m.mem M

theorem onTheWay_step {n0 : Nat} {res : Nat → Mem × Nat × List Tree} {m : Machine}
    (h : OnTheWay n0 res m) {t : Nat} (ht : 1 ≤ t) :
    ∃ m', m.step t = .ok m' ∧ OnTheWay n0 res m' ∧
      (∀ u, u ≠ t → m'.prog u = m.prog u ∧ m'.next u = m.next u) ∧
      ∀ x, ¬ Own n0 t x → m'.mem x = m.mem x := by
  obtain ⟨M, he, hM⟩ := h t ht
  obtain ⟨N', n', p', M', hs, he', ha', hother, _⟩ := exec_step he hM
  refine ⟨{ mem := N'
            next := fun u => if u = t then n' else m.next u
            prog := fun u => if u = t then p' else m.prog u },
    by simp only [Machine.step, hs], ?_, ?_, hother⟩
  · intro u hu
    by_cases hut : u = t
    · subst hut
      refine ⟨M', ?_, ha'⟩
      simp only [if_true]
      exact he'
    · obtain ⟨Mu, heu, hMu⟩ := h u hu
      refine ⟨Mu, ?_, ?_⟩
      · simp only [if_neg hut]
        exact heu
      · intro a hv
        show N' a = _
        rw [show N' a = m.mem a from hother a fun ho => own_not_vis ht hut ho hv]
        exact hMu a hv
  · intro u hu
    simp only [if_neg hu]
    exact ⟨trivial, trivial⟩

theorem onTheWay_run {n0 : Nat} {res : Nat → Mem × Nat × List Tree} : ∀ (σ : List Nat)
    (m : Machine), OnTheWay n0 res m → (∀ t ∈ σ, 1 ≤ t) →
    ∃ m', m.run σ = .ok m' ∧ OnTheWay n0 res m' ∧ ∀ x, (∀ t, 1 ≤ t → ¬ Own n0 t x) →
      m'.mem x = m.mem x := by
  intro σ
  induction σ with
  | nil => intro m h _; exact ⟨m, rfl, h, fun _ _ => rfl⟩
  | cons t σ ih =>
    intro m h hσ
    obtain ⟨m1, h1, w1, _, k1⟩ := onTheWay_step h (hσ t (by simp))
    obtain ⟨m2, h2, w2, k2⟩ := ih m1 w1 (fun u hu => hσ u (by simp [hu]))
    refine ⟨m2, by simp only [Machine.run, h1]; exact h2, w2, fun x hx => ?_⟩
    rw [k2 x hx, k1 x (hx t (hσ t (by simp)))]

theorem cost_zero {α : Type} {n0 t : Nat} {p : Prog α} {M : Mem} {n : Nat}
    {res : Mem × Nat × α} (he : exec n0 t p M n = .ok res) (hc : cost n0 t p M n = 0) :
    ∃ x, p = .done x := by
  obtain ⟨_, _, _, _, _, _, _, _, h | h⟩ := exec_step he (N := M) (fun _ _ => rfl)
  · exact h
  · omega

/-- After as many turns as the thread makes accesses alone, it has finished. -/
theorem finishes {n0 : Nat} {res : Nat → Mem × Nat × List Tree} {t : Nat} (ht : 1 ≤ t) :
    ∀ (σ : List Nat) (m : Machine), OnTheWay n0 res m → (∀ u ∈ σ, 1 ≤ u) → ∀ (M : Mem),
    exec n0 t (m.prog t) M (m.next t) = .ok (res t) → Agree n0 t m.mem M →
    cost n0 t (m.prog t) M (m.next t) ≤ σ.count t → ∀ m', m.run σ = .ok m' →
    ∃ x, m'.prog t = .done x := by
  intro σ
  induction σ with
  | nil =>
    intro m _ _ M he _ hc m' hm
    cases hm
    exact cost_zero he (by simpa using hc)
  | cons u σ ih =>
    intro m h hσ M he hM hc m' hm
    obtain ⟨m1, h1, w1, k1, mem1⟩ := onTheWay_step h (hσ u (by simp))
    simp only [Machine.run, h1] at hm
    by_cases hut : u = t
    · subst hut
      obtain ⟨N', n', p', M', hs, he', ha', _, hd⟩ := exec_step he hM
      have e1 : m1 = { mem := N'
                       next := fun v => if v = u then n' else m.next v
                       prog := fun v => if v = u then p' else m.prog v } := by
        simp only [Machine.step, hs] at h1
        exact (Res.ok.inj h1).symm
      have hp : m1.prog u = p' := by rw [e1]; simp only [if_true]
      have hn : m1.next u = n' := by rw [e1]; simp only [if_true]
      refine ih m1 w1 (fun v hv => hσ v (by simp [hv])) M' (by rw [hp, hn]; exact he')
        (by rw [e1]; exact ha') ?_ m' hm
      rw [hp, hn]
      rw [List.count_cons_self] at hc
      rcases hd with ⟨x, hx⟩ | hd
      · rw [hx] at hs
        cases hs
        simp only [cost]
        omega
      · omega
    · obtain ⟨e1, e2⟩ := k1 t (fun h => hut h.symm)
      refine ih m1 w1 (fun v hv => hσ v (by simp [hv])) M (by rw [e1, e2]; exact he) ?_ ?_ m' hm
      · intro a ha
        rw [mem1 a (fun ho => own_not_vis (hσ u (by simp)) (fun h => hut h.symm) ho ha)]
        exact hM a ha
      · rw [e1, e2]
        rw [List.count_cons_of_ne hut] at hc
        exact hc

end Afs.Threads
