import Verif.Proof.Threads
import Verif.Proof.RefsStep
/-!
# The programs of `Model/Threads.lean` do what the functions of `Model/Refs.lean` do
-/
namespace Afs.Threads
open Afs.Spec Afs.Refs

variable {n0 t : Nat}

theorem named_inj (ht : 1 ≤ t) {i j : Nat} (h : named n0 t i = named n0 t j) : i = j := by
  unfold named at h
  split at h <;> split at h <;> simp only [Prod.mk.injEq] at h <;> omega

theorem named_vis (i : Nat) : Vis n0 t (named n0 t i) := by
  unfold named
  split
  · exact .inl ⟨rfl, by assumption⟩
  · exact .inr ⟨rfl, by show n0 ≤ i; omega⟩

theorem named_own {i : Nat} (h : n0 ≤ i) : Own n0 t (named n0 t i) := by
  unfold named
  rw [if_neg (by omega)]
  exact ⟨rfl, h⟩

theorem named_new {i : Nat} (h : n0 ≤ i) : named n0 t i = (t, i) := by
  unfold named
  rw [if_neg (by omega)]

/-- The heap of C30 as seen by thread `t` in memory. -/
def Emb (n0 t : Nat) (h : Heap) (M : Mem) : Prop :=
  ∀ i, M (named n0 t i) = (h.cells i).map (asObj (named n0 t))

/-- The program, run alone, turns `h` into `h'` with result `x`. -/
def Does (n0 t : Nat) {α : Type} (p : Prog α) (h h' : Heap) (x : α) : Prop :=
  ∀ M, Emb n0 t h M → ∃ M', exec n0 t p M h.next = .ok (M', h'.next, x) ∧ Emb n0 t h' M'

theorem does_done {α : Type} (h : Heap) (x : α) : Does n0 t (.done x) h h x :=
  fun M hM => ⟨M, rfl, hM⟩

theorem does_bind {α β : Type} {p : Prog α} {f : α → Prog β} {h h1 h2 : Heap} {x : α} {y : β}
    (hp : Does n0 t p h h1 x) (hf : Does n0 t (f x) h1 h2 y) : Does n0 t (p.bind f) h h2 y := by
  intro M hM
  obtain ⟨M1, e1, m1⟩ := hp M hM
  obtain ⟨M2, e2, m2⟩ := hf M1 m1
  refine ⟨M2, ?_, m2⟩
  rw [exec_bind, e1]
  exact e2

theorem emb_put (ht : 1 ≤ t) {h : Heap} {M : Mem} (hM : Emb n0 t h M) (a : Nat) (c : Cell) :
    Emb n0 t (h.set a c) (M.put (named n0 t a) (some (asObj (named n0 t) c))) := by
  intro i
  simp only [Mem.put, Heap.set]
  by_cases hi : i = a
  · subst hi; rw [if_pos rfl, if_pos rfl]; rfl
  · rw [if_neg (fun h => hi (named_inj ht h)), if_neg hi]; exact hM i

theorem emb_del (ht : 1 ≤ t) {h : Heap} {M : Mem} (hM : Emb n0 t h M) (a : Nat) :
    Emb n0 t (h.remove a) (M.put (named n0 t a) none) := by
  intro i
  simp only [Mem.put, Heap.remove]
  by_cases hi : i = a
  · subst hi; rw [if_pos rfl, if_pos rfl]; rfl
  · rw [if_neg (fun h => hi (named_inj ht h)), if_neg hi]; exact hM i

theorem does_getRc {α : Type} {h h' : Heap} {a : Nat} {c : Cell} {k : Int → Prog α} {y : α}
    (hc : h.cells a = some c) (hk : Does n0 t (k c.rc) h h' y) :
    Does n0 t (.getRc (named n0 t a) k) h h' y := by
  intro M hM
  obtain ⟨M', e, m⟩ := hk M hM
  refine ⟨M', ?_, m⟩
  simp only [exec]
  rw [if_pos (named_vis a), hM a, hc]
  exact e

theorem does_getKids {α : Type} {h h' : Heap} {a : Nat} {c : Cell} {k : List Name → Prog α} {y : α}
    (hc : h.cells a = some c) (hk : Does n0 t (k (c.kids.map (named n0 t))) h h' y) :
    Does n0 t (.getKids (named n0 t a) k) h h' y := by
  intro M hM
  obtain ⟨M', e, m⟩ := hk M hM
  refine ⟨M', ?_, m⟩
  simp only [exec]
  rw [if_pos (named_vis a), hM a, hc]
  exact e

theorem does_kindOf {α : Type} {h h' : Heap} {a : Nat} {k : Option Kind → Prog α} {y : α}
    (hk : Does n0 t (k ((h.cells a).map (·.kind))) h h' y) :
    Does n0 t (.kindOf (named n0 t a) k) h h' y := by
  intro M hM
  obtain ⟨M', e, m⟩ := hk M hM
  refine ⟨M', ?_, m⟩
  simp only [exec]
  rw [if_pos (named_vis a), hM a]
  have : ((h.cells a).map (asObj (named n0 t))).map (·.kind) = (h.cells a).map (·.kind) := by
    cases h.cells a <;> rfl
  rw [this]
  exact e

theorem does_setRc (ht : 1 ≤ t) {α : Type} {h h' : Heap} {a : Nat} {c : Cell} {r : Int}
    {k : Prog α} {y : α} (ha : n0 ≤ a) (hc : h.cells a = some c)
    (hk : Does n0 t k (h.set a { c with rc := r }) h' y) :
    Does n0 t (.setRc (named n0 t a) r k) h h' y := by
  intro M hM
  obtain ⟨M', e, m⟩ := hk _ (emb_put ht hM a { c with rc := r })
  refine ⟨M', ?_, m⟩
  simp only [exec]
  rw [if_pos (named_own ha), hM a, hc]
  exact e

theorem does_setKids (ht : 1 ≤ t) {α : Type} {h h' : Heap} {a : Nat} {c : Cell} {l : List Nat}
    {k : Prog α} {y : α} (ha : n0 ≤ a) (hc : h.cells a = some c)
    (hk : Does n0 t k (h.set a { c with kids := l }) h' y) :
    Does n0 t (.setKids (named n0 t a) (l.map (named n0 t)) k) h h' y := by
  intro M hM
  obtain ⟨M', e, m⟩ := hk _ (emb_put ht hM a { c with kids := l })
  refine ⟨M', ?_, m⟩
  simp only [exec]
  rw [if_pos (named_own ha), hM a, hc]
  exact e

theorem does_new (ht : 1 ≤ t) {α : Type} {h h' : Heap} {kd : Kind} {l : List Nat}
    {k : Name → Prog α} {y : α} (hn : n0 ≤ h.next)
    (hk : Does n0 t (k (named n0 t h.next)) (h.alloc kd l).1 h' y) :
    Does n0 t (.new kd (l.map (named n0 t)) k) h h' y := by
  intro M hM
  have hM' := emb_put ht hM h.next ⟨kd, 1, l⟩
  obtain ⟨M', e, m⟩ := hk _ (fun i => hM' i)
  refine ⟨M', ?_, m⟩
  simp only [exec]
  rw [if_pos hn, ← named_new hn]
  exact e

theorem does_del (ht : 1 ≤ t) {α : Type} {h h' : Heap} {a : Nat} {c : Cell}
    {k : Prog α} {y : α} (ha : n0 ≤ a) (hc : h.cells a = some c)
    (hk : Does n0 t k (h.remove a) h' y) : Does n0 t (.del (named n0 t a) k) h h' y := by
  intro M hM
  obtain ⟨M', e, m⟩ := hk _ (emb_del ht hM a)
  refine ⟨M', ?_, m⟩
  simp only [exec]
  rw [if_pos (named_own ha), hM a, hc]
  exact e

/-! ## Own objects point to own objects -/

structure Apart (n0 : Nat) (h : Heap) : Prop where
  bound : ∀ a, h.next ≤ a → h.cells a = none
  next : n0 ≤ h.next
  kids : ∀ a c, n0 ≤ a → h.cells a = some c → ∀ x ∈ c.kids, n0 ≤ x

theorem Apart.lt {h : Heap} (hp : Apart n0 h) {a : Nat} {c : Cell} (hc : h.cells a = some c) :
    a < h.next := by
  rcases Nat.lt_or_ge a h.next with h1 | h1
  · exact h1
  · rw [hp.bound a h1] at hc; cases hc

theorem Apart.set {h : Heap} (hp : Apart n0 h) {a : Nat} {c : Cell} (ha : a < h.next)
    (hk : n0 ≤ a → ∀ x ∈ c.kids, n0 ≤ x) : Apart n0 (h.set a c) := by
  refine ⟨fun x hx => ?_, hp.next, fun x d hx hd => ?_⟩
  · rw [set_cells, if_neg]
    · exact hp.bound x hx
    · have : h.next ≤ x := hx
      omega
  · rw [set_cells] at hd
    split at hd
    · rename_i e
      subst e
      cases hd
      exact hk hx
    · exact hp.kids x d hx hd

theorem Apart.remove {h : Heap} (hp : Apart n0 h) (a : Nat) : Apart n0 (h.remove a) := by
  refine ⟨fun x hx => ?_, hp.next, fun x d hx hd => ?_⟩
  · rw [remove_cells]
    split
    · rfl
    · exact hp.bound x hx
  · rw [remove_cells] at hd
    split at hd
    · cases hd
    · exact hp.kids x d hx hd

theorem Apart.alloc {h : Heap} (hp : Apart n0 h) (k : Kind) {l : List Nat} (hl : ∀ x ∈ l, n0 ≤ x) :
    Apart n0 (h.alloc k l).1 := by
  refine ⟨fun x hx => ?_, ?_, fun x d hx hd => ?_⟩
  · have hx' : h.next + 1 ≤ x := hx
    show (if x = h.next then _ else _) = none
    rw [if_neg (by omega)]
    exact hp.bound x (by omega)
  · show n0 ≤ h.next + 1
    have := hp.next
    omega
  · change (if x = h.next then _ else _) = some d at hd
    split at hd
    · cases hd
      exact hl
    · exact hp.kids x d hx hd

/-! ## Function by function -/

theorem does_int {α : Type} {i : Int} {r : Int} (hi : ckInt i = .ok r) {k : Int → Prog α} :
    intP i k = k r := by
  unfold intP
  rw [hi]

theorem newRef_does (ht : 1 ≤ t) {h h' : Heap} {a : Nat} (hp : Apart n0 h) (ha : n0 ≤ a)
    (he : newRef h a = .ok h') : Does n0 t (newRefP (named n0 t a)) h h' () ∧ Apart n0 h' := by
  unfold newRef at he
  cases hc : h.cells a with
  | none => rw [hc] at he; cases he
  | some c =>
    rw [hc] at he
    dsimp only at he
    cases hr : ckInt (c.rc + 1) with
    | ub => rw [hr] at he; cases he
    | ok r =>
      rw [hr] at he
      cases he
      constructor
      · refine does_getRc hc ?_
        rw [does_int hr]
        exact does_setRc ht ha hc (does_done _ _)
      · exact hp.set (hp.lt hc) fun _ => hp.kids a c ha hc

theorem free_does (ht : 1 ≤ t) : ∀ (n : Nat) (h h' : Heap) (a : Nat), Apart n0 h → n0 ≤ a →
    freeObj n h a = .ok h' → Does n0 t (freeP n (named n0 t a)) h h' () ∧ Apart n0 h' := by
  intro n
  induction n with
  | zero => intro h h' a _ _ he; cases he
  | succ n ih =>
    have fold : ∀ (l : List Nat) (h h' : Heap), Apart n0 h → (∀ x ∈ l, n0 ≤ x) →
        l.foldlM (freeObj n) h = .ok h' →
        Does n0 t (forP (freeP n) (l.map (named n0 t))) h h' () ∧ Apart n0 h' := by
      intro l
      induction l with
      | nil => intro h h' hp _ he; cases he; exact ⟨does_done _ _, hp⟩
      | cons x l ihl =>
        intro h h' hp hl he
        rw [List.foldlM_cons] at he
        cases hx : freeObj n h x with
        | ub => rw [hx] at he; cases he
        | ok h1 =>
          rw [hx] at he
          obtain ⟨d1, p1⟩ := ih h h1 x hp (hl x (by simp)) hx
          obtain ⟨d2, p2⟩ := ihl h1 h' p1 (fun y hy => hl y (by simp [hy])) he
          exact ⟨does_bind d1 d2, p2⟩
    intro h h' a hp ha he
    rw [freeObj.eq_def] at he
    dsimp only at he
    cases hc : h.cells a with
    | none => rw [hc] at he; cases he
    | some c =>
      rw [hc] at he
      dsimp only at he
      cases hr : ckInt (c.rc - 1) with
      | ub => rw [hr] at he; cases he
      | ok r =>
        rw [hr] at he
        simp only [Res.ok_bind] at he
        have hp1 : Apart n0 (h.set a { c with rc := r }) :=
          hp.set (hp.lt hc) fun _ => hp.kids a c ha hc
        have hc1 : (h.set a { c with rc := r }).cells a = some { c with rc := r } := by
          rw [set_cells, if_pos rfl]
        have key : (Does n0 t (if dies c.kind r then
              .getKids (named n0 t a) fun l => (forP (freeP n) l).bind fun _ =>
                .del (named n0 t a) (.done ())
            else .done ()) (h.set a { c with rc := r }) h' ()) ∧ Apart n0 h' := by
          by_cases hd : dies c.kind r = true
          · rw [if_pos hd] at he ⊢
            cases hf : List.foldlM (freeObj n) (h.set a { c with rc := r }) c.kids with
            | ub => rw [hf] at he; cases he
            | ok h2 =>
              rw [hf] at he
              simp only [Res.ok_bind] at he
              obtain ⟨d2, p2⟩ := fold c.kids _ h2 hp1 (hp.kids a c ha hc) hf
              cases h2a : h2.cells a with
              | none => rw [h2a] at he; cases he
              | some c2 =>
                rw [h2a] at he
                cases he
                refine ⟨does_getKids hc1 (does_bind d2 ?_), p2.remove a⟩
                exact does_del ht ha h2a (does_done _ _)
          · rw [if_neg hd] at he ⊢
            cases he
            exact ⟨does_done _ _, hp1⟩
        refine ⟨?_, key.2⟩
        rw [freeP]
        refine does_kindOf ?_
        rw [hc]
        refine does_getRc hc ?_
        rw [does_int hr]
        refine does_setRc ht ha hc ?_
        exact does_getRc hc1 key.1

theorem clone_does (ht : 1 ≤ t) : ∀ (n : Nat) (h h' : Heap) (a m : Nat), Apart n0 h →
    cloneObj n h a = .ok (h', m) →
    Does n0 t (cloneP n (named n0 t a)) h h' (named n0 t m) ∧ Apart n0 h' ∧ n0 ≤ m := by
  intro n
  induction n with
  | zero => intro h h' a m _ he; cases he
  | succ n ih =>
    have fold : ∀ (l : List Nat) (h h' : Heap) (acc ks : List Nat), Apart n0 h →
        l.foldlM (fun (s : Heap × List Nat) k => do
          let (h, k') ← cloneObj n s.1 k
          Res.ok (h, s.2 ++ [k'])) (h, acc) = .ok (h', ks) →
        ∃ new, ks = acc ++ new ∧ (∀ x ∈ new, n0 ≤ x) ∧ Apart n0 h' ∧
          Does n0 t (mapP (cloneP n) (l.map (named n0 t))) h h' (new.map (named n0 t)) := by
      intro l
      induction l with
      | nil =>
        intro h h' acc ks hp he
        cases he
        exact ⟨[], by simp, by simp, hp, does_done _ _⟩
      | cons x l ihl =>
        intro h h' acc ks hp he
        rw [List.foldlM_cons] at he
        dsimp only at he
        cases hx : cloneObj n h x with
        | ub => rw [hx] at he; cases he
        | ok r =>
          obtain ⟨h1, m⟩ := r
          rw [hx] at he
          simp only [Res.ok_bind] at he
          obtain ⟨d1, p1, o1⟩ := ih h h1 x m hp hx
          obtain ⟨new, e2, o2, p2, d2⟩ := ihl h1 h' (acc ++ [m]) ks p1 he
          refine ⟨m :: new, by rw [e2]; simp, ?_, p2, ?_⟩
          · intro y hy
            rcases List.mem_cons.mp hy with rfl | hy
            · exact o1
            · exact o2 y hy
          · exact does_bind d1 (does_bind d2 (does_done _ _))
    intro h h' a m hp he
    rw [cloneObj.eq_def] at he
    dsimp only at he
    cases hc : h.cells a with
    | none => rw [hc] at he; cases he
    | some c =>
      rw [hc] at he
      dsimp only at he
      cases hf : c.kids.foldlM (fun (s : Heap × List Nat) k => do
          let (h, k') ← cloneObj n s.1 k
          Res.ok (h, s.2 ++ [k'])) (h, []) with
      | ub => rw [hf] at he; cases he
      | ok r =>
        obtain ⟨h1, ks⟩ := r
        rw [hf] at he
        simp only [Res.ok_bind] at he
        obtain ⟨new, e2, o2, p2, d2⟩ := fold c.kids h h1 [] ks hp hf
        rw [List.nil_append] at e2
        subst e2
        have e3 := Res.ok.inj he
        have eh : (h1.alloc c.kind ks).1 = h' := by rw [e3]
        have em : h1.next = m := congrArg Prod.snd e3
        subst eh em
        refine ⟨?_, p2.alloc _ o2, p2.next⟩
        rw [cloneP]
        refine does_kindOf ?_
        refine does_getKids hc ?_
        refine does_bind d2 ?_
        rw [hc]
        exact does_new ht p2.next (does_done _ _)

theorem append_does (ht : 1 ≤ t) {h h' : Heap} {p c : Nat} (hp : Apart n0 h) (ha : n0 ≤ p)
    (hc : n0 ≤ c) (he : append h p c = .ok h') :
    Does n0 t (appendP (named n0 t p) (named n0 t c)) h h' () ∧ Apart n0 h' := by
  unfold append at he
  cases hd : h.cells p with
  | none => rw [hd] at he; cases he
  | some d =>
    rw [hd] at he
    cases he
    constructor
    · refine does_getKids hd ?_
      have : d.kids.map (named n0 t) ++ [named n0 t c] = (d.kids ++ [c]).map (named n0 t) := by simp
      rw [this]
      exact does_setKids ht ha hd (does_done _ _)
    · refine hp.set (hp.lt hd) fun _ x hx => ?_
      rcases List.mem_append.mp hx with hx | hx
      · exact hp.kids p d ha hd x hx
      · rw [List.mem_singleton.mp hx]; exact hc

theorem part_does {h : Heap} {p : Nat} {d : Cell} (hd : h.cells p = some d) (k : Kind) :
    Does n0 t (partP (named n0 t p) k) h h ((part h p k).map (named n0 t)) := by
  have find : ∀ l : List Nat, Does n0 t (findP k (l.map (named n0 t))) h h
      ((l.find? fun a => match h.cells a with
        | some c => c.kind == k
        | none => false).map (named n0 t)) := by
    intro l
    induction l with
    | nil => exact does_done _ _
    | cons x l ih =>
      rw [List.find?_cons]
      refine does_kindOf ?_
      cases hx : h.cells x with
      | none =>
        simp only [hx, Option.map_none]
        rw [if_neg (by simp)]
        exact ih
      | some c =>
        simp only [hx, Option.map_some, Option.some.injEq]
        by_cases hk : c.kind = k
        · rw [if_pos hk]
          simp only [hk, beq_self_eq_true]
          exact does_done _ _
        · rw [if_neg hk]
          have : (c.kind == k) = false := by simp [hk]
          rw [this]
          exact ih
  refine does_getKids hd ?_
  have := find d.kids
  unfold part
  rw [hd]
  exact this

theorem part_own {h : Heap} (hp : Apart n0 h) {p m : Nat} {k : Kind} (ha : n0 ≤ p)
    (hm : part h p k = some m) : n0 ≤ m := by
  unfold part at hm
  cases hd : h.cells p with
  | none => rw [hd] at hm; cases hm
  | some d =>
    rw [hd] at hm
    exact hp.kids p d ha hd m (List.mem_of_find?_eq_some hm)

theorem ensure_does (ht : 1 ≤ t) {h h' : Heap} {p m : Nat} {k : Kind} (hp : Apart n0 h)
    (ha : n0 ≤ p) (he : ensurePart h p k = .ok (h', m)) :
    Does n0 t (ensureP (named n0 t p) k) h h' (named n0 t m) ∧ Apart n0 h' ∧ n0 ≤ m := by
  unfold ensurePart at he
  cases hd : h.cells p with
  | none => rw [hd] at he; cases he
  | some d =>
    rw [hd] at he
    dsimp only at he
    cases hm : part h p k with
    | some m' =>
      rw [hm] at he
      cases he
      refine ⟨?_, hp, part_own hp ha hm⟩
      refine does_bind (part_does hd k) ?_
      rw [hm]
      exact does_done _ _
    | none =>
      rw [hm] at he
      have e3 := Res.ok.inj he
      have em : h.next = m := congrArg Prod.snd e3
      have eh : (h.alloc k []).1.set p { d with kids := d.kids ++ [h.next] } = h' :=
        congrArg Prod.fst e3
      subst eh em
      have hlt := hp.lt hd
      have hp1 : Apart n0 (h.alloc k []).1 := hp.alloc k (by simp)
      have hd1 : (h.alloc k []).1.cells p = some d := by
        show (if p = h.next then _ else _) = _
        rw [if_neg (by omega)]
        exact hd
      refine ⟨?_, ?_, hp.next⟩
      · refine does_bind (part_does hd k) ?_
        rw [hm]
        refine does_new (l := []) ht hp.next ?_
        refine does_getKids hd1 ?_
        have : d.kids.map (named n0 t) ++ [named n0 t h.next] =
            (d.kids ++ [h.next]).map (named n0 t) := by simp
        rw [this]
        exact does_setKids ht ha hd1 (does_done _ _)
      · refine hp1.set (hp1.lt hd1) fun _ x hx => ?_
        rcases List.mem_append.mp hx with hx | hx
        · exact hp.kids p d ha hd x hx
        · rw [List.mem_singleton.mp hx]; exact hp.next

theorem add_does (ht : 1 ≤ t) {h h' : Heap} {p c : Nat} {acc : Bool} (hp : Apart n0 h)
    (ha : n0 ≤ p) (hc : n0 ≤ c) (he : add h p c acc = .ok h') :
    Does n0 t (addP (named n0 t p) (named n0 t c) acc) h h' () ∧ Apart n0 h' := by
  unfold add at he
  cases hd : h.cells p with
  | none => rw [hd] at he; cases he
  | some d =>
    cases hx : h.cells c with
    | none => rw [hd, hx] at he; cases he
    | some x =>
      rw [hd, hx] at he
      dsimp only at he
      cases acc with
      | true =>
        rw [if_pos rfl] at he
        obtain ⟨h1, h2⟩ := append_does ht hp ha hc he
        refine ⟨does_getKids hd (does_getKids hx ?_), h2⟩
        rw [if_pos rfl]
        exact h1
      | false =>
        rw [if_neg (by simp)] at he
        cases he
        refine ⟨does_getKids hd (does_getKids hx ?_), hp⟩
        rw [if_neg (by simp)]
        exact does_done _ _

theorem addInner_does (ht : 1 ≤ t) {h h' : Heap} {p c : Nat} {k : Kind} {o : Outcome}
    (hp : Apart n0 h) (ha : n0 ≤ p) (hc : n0 ≤ c) (he : addInner h p k c o = .ok h') :
    Does n0 t (addInnerP (named n0 t p) k (named n0 t c) o) h h' () ∧ Apart n0 h' := by
  unfold addInner at he
  cases hd : h.cells p with
  | none => rw [hd] at he; cases he
  | some d =>
    cases hx : h.cells c with
    | none => rw [hd, hx] at he; cases he
    | some x =>
      rw [hd, hx] at he
      dsimp only at he
      cases o with
      | refused =>
        cases he
        exact ⟨does_getKids hd (does_getKids hx (does_done _ _)), hp⟩
      | refusedByInner =>
        dsimp only at he
        cases hs : ensurePart h p k with
        | ub => rw [hs] at he; cases he
        | ok r =>
          obtain ⟨h1, m⟩ := r
          rw [hs] at he
          cases he
          obtain ⟨d1, p1, _⟩ := ensure_does ht hp ha hs
          exact ⟨does_getKids hd (does_getKids hx (does_bind d1 (does_done _ _))), p1⟩
      | accepted =>
        dsimp only at he
        cases hs : ensurePart h p k with
        | ub => rw [hs] at he; cases he
        | ok r =>
          obtain ⟨h1, m⟩ := r
          rw [hs] at he
          simp only [Res.ok_bind] at he
          obtain ⟨d1, p1, o1⟩ := ensure_does ht hp ha hs
          obtain ⟨d2, p2⟩ := append_does ht p1 o1 hc he
          exact ⟨does_getKids hd (does_getKids hx (does_bind d1 d2)), p2⟩

theorem map_erase (ht : 1 ≤ t) (l : List Nat) (a : Nat) :
    (l.map (named n0 t)).erase (named n0 t a) = (l.erase a).map (named n0 t) := by
  induction l with
  | nil => rfl
  | cons x l ih =>
    rw [List.map_cons, List.erase_cons, List.erase_cons]
    by_cases hx : x = a
    · subst hx; simp
    · have h1 : (x == a) = false := by simp [hx]
      have h2 : (named n0 t x == named n0 t a) = false := by
        simp only [beq_eq_false_iff_ne]
        exact fun h => hx (named_inj ht h)
      rw [h1, h2, if_neg (by simp), if_neg (by simp), ih]
      rfl

theorem dropPart_does (ht : 1 ≤ t) {h h' : Heap} {f : Nat} {d : Cell} {k : Kind} (hp : Apart n0 h)
    (ha : n0 ≤ f) (hd : h.cells f = some d) (he : dropPart h f k = .ok h') :
    Does n0 t (dropPartP (named n0 t f) k) h h' () ∧ Apart n0 h' := by
  unfold dropPart at he
  cases hm : part h f k with
  | none =>
    rw [hm] at he
    cases he
    refine ⟨does_bind (part_does hd k) ?_, hp⟩
    rw [hm]
    exact does_done _ _
  | some old =>
    rw [hm] at he
    dsimp only at he
    unfold unlink at he
    rw [hd] at he
    dsimp only at he
    have hp1 : Apart n0 (h.set f { d with kids := d.kids.erase old }) :=
      hp.set (hp.lt hd) fun _ x hx => hp.kids f d ha hd x (List.mem_of_mem_erase hx)
    obtain ⟨d1, p1⟩ := free_does ht maxDepth _ h' old hp1 (part_own hp ha hm) he
    refine ⟨does_bind (part_does hd k) ?_, p1⟩
    rw [hm]
    refine does_getKids hd ?_
    rw [map_erase ht]
    exact does_setKids ht ha hd d1

theorem setPart_does (ht : 1 ≤ t) {h h' : Heap} {f : Nat} {k : Kind} {x : Option Nat}
    (hp : Apart n0 h) (ha : n0 ≤ f) (he : setPart h f k x = .ok h') :
    Does n0 t (setPartP (named n0 t f) k (x.map (named n0 t))) h h' () ∧ Apart n0 h' := by
  unfold setPart at he
  cases hd : h.cells f with
  | none => rw [hd] at he; cases he
  | some d =>
    rw [hd] at he
    dsimp only at he
    cases h1 : dropPart h f k with
    | ub => rw [h1] at he; cases he
    | ok g =>
      rw [h1] at he
      simp only [Res.ok_bind] at he
      obtain ⟨d1, p1⟩ := dropPart_does ht hp ha hd h1
      cases x with
      | none => cases he; exact ⟨does_bind d1 (does_done _ _), p1⟩
      | some x =>
        dsimp only at he
        cases h2 : clone g x with
        | ub => rw [h2] at he; cases he
        | ok r =>
          obtain ⟨g2, m⟩ := r
          rw [h2] at he
          simp only [Res.ok_bind] at he
          obtain ⟨d2, p2, o2⟩ := clone_does ht maxDepth g g2 x m p1 h2
          obtain ⟨d3, p3⟩ := append_does ht p2 ha o2 he
          exact ⟨does_bind d1 (does_bind d2 d3), p3⟩

theorem addClones_does (ht : 1 ≤ t) {c : Nat} (hc : n0 ≤ c) : ∀ (ds : List Nat) (oks : List Bool)
    (h h' : Heap) (b : Bool), Apart n0 h → addClones h c ds oks = .ok (h', b) →
    Does n0 t (addClonesP (named n0 t c) (ds.map (named n0 t)) oks) h h' () ∧ Apart n0 h' := by
  intro ds
  induction ds with
  | nil => intro oks h h' b hp he; cases he; exact ⟨does_done _ _, hp⟩
  | cons d ds ih =>
    intro oks h h' b hp he
    rw [addClones] at he
    cases h1 : clone h d with
    | ub => rw [h1] at he; cases he
    | ok r =>
      obtain ⟨g, m⟩ := r
      rw [h1] at he
      simp only [Res.ok_bind] at he
      obtain ⟨d1, p1, o1⟩ := clone_does ht maxDepth h g d m hp h1
      have refused : ∀ he : (do
            let h ← addInner g c .layoutDefs m .refusedByInner
            let h ← free h m
            Res.ok (h, false)) = .ok (h', b),
          Does n0 t ((addInnerP (named n0 t c) .layoutDefs (named n0 t m) .refusedByInner).bind
            fun _ => freeP maxDepth (named n0 t m)) g h' () ∧ Apart n0 h' := by
        intro he
        cases h2 : addInner g c .layoutDefs m .refusedByInner with
        | ub => rw [h2] at he; cases he
        | ok g2 =>
          rw [h2] at he
          simp only [Res.ok_bind] at he
          cases h3 : free g2 m with
          | ub => rw [h3] at he; cases he
          | ok g3 =>
            rw [h3] at he
            cases he
            obtain ⟨d2, p2⟩ := addInner_does ht p1 hc o1 h2
            obtain ⟨d3, p3⟩ := free_does ht maxDepth g2 h' m p2 o1 h3
            exact ⟨does_bind d2 d3, p3⟩
      cases oks with
      | nil =>
        obtain ⟨d2, p2⟩ := refused he
        exact ⟨does_bind d1 d2, p2⟩
      | cons ok oks =>
        cases ok with
        | false =>
          obtain ⟨d2, p2⟩ := refused he
          exact ⟨does_bind d1 d2, p2⟩
        | true =>
          dsimp only at he
          cases h2 : addInner g c .layoutDefs m .accepted with
          | ub => rw [h2] at he; cases he
          | ok g2 =>
            rw [h2] at he
            simp only [Res.ok_bind] at he
            obtain ⟨d2, p2⟩ := addInner_does ht p1 hc o1 h2
            obtain ⟨d3, p3⟩ := ih oks g2 h' b p2 he
            exact ⟨does_bind d1 (does_bind d2 d3), p3⟩

theorem addLayouts_does (ht : 1 ≤ t) {h h' : Heap} {c d : Nat} {oks : List Bool}
    (hp : Apart n0 h) (hc : n0 ≤ c) (he : addLayouts h c d oks = .ok h') :
    Does n0 t (addLayoutsP (named n0 t c) (named n0 t d) oks) h h' () ∧ Apart n0 h' := by
  unfold addLayouts at he
  cases h1 : h.cells c with
  | none => rw [h1] at he; cases he
  | some x =>
    cases h2 : h.cells d with
    | none => rw [h1, h2] at he; cases he
    | some y =>
      rw [h1, h2] at he
      dsimp only at he
      have hemp : (y.kids.map (named n0 t)).isEmpty = y.kids.isEmpty := by
        cases y.kids <;> rfl
      by_cases hy : y.kids.isEmpty = true
      · rw [if_pos hy] at he
        cases he
        refine ⟨does_getKids h1 (does_getKids h2 ?_), hp⟩
        rw [hemp, if_pos hy]
        exact does_done _ _
      · rw [if_neg hy] at he
        cases h3 : ensurePart h c .layoutDefs with
        | ub => rw [h3] at he; cases he
        | ok r =>
          obtain ⟨g, m⟩ := r
          rw [h3] at he
          simp only [Res.ok_bind] at he
          obtain ⟨d1, p1, _⟩ := ensure_does ht hp hc h3
          cases h4 : addClones g c y.kids oks with
          | ub => rw [h4] at he; cases he
          | ok r =>
            obtain ⟨g2, b⟩ := r
            rw [h4] at he
            cases he
            obtain ⟨d2, p2⟩ := addClones_does ht hc y.kids oks g _ b p1 h4
            refine ⟨does_getKids h1 (does_getKids h2 ?_), p2⟩
            rw [hemp, if_neg hy]
            exact does_bind d1 d2

end Afs.Threads
