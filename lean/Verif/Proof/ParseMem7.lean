import Verif.Proof.ParseMem6
import Verif.Proof.Links9
import Verif.Spec.Reading
/-!
# The reader in memory: the whole function
-/
namespace Afs.ParseMem
open Afs Afs.Xml Afs.Links Afs.Spec

section
variable {P : Prop} {h0 : Heap} {kids0 : Nat → List Nat} {A : Heap → Nat}

theorem run_next (hA : ∀ h kids, Linked h kids → h (A h) = none) : ∀ (l : List (Option Nat)) {N : Nat} {m : MS} {s : PS},
    Sim P h0 kids0 N m s → (∀ p c q, l = p ++ c :: q → Losing (Xml.run s p) c → P) → 1 ≤ N → N + 4 * l.length + 1100 ≤ 2147483647 → some 0 ∉ l →
    Next P h0 kids0 (N + 4 * l.length) (m.run A l) (Xml.run s l)
  | [], N, m, s, S, _, _, _, _ => ⟨m, rfl, S⟩
  | c :: l, N, m, s, S, hP, h1, hN, hz => by
    simp only [List.length_cons] at hN
    simp only [List.mem_cons, not_or] at hz
    obtain ⟨m', e, S'⟩ := step_next hA (by omega) h1 S c (fun h => hP [] c _ rfl h) (fun e => hz.1 e.symm)
    obtain ⟨m2, e2, S2⟩ := run_next hA l S' (fun p d q e h => hP (c :: p) d q (by rw [e]; rfl) h) (by omega) (by omega) hz.2
    refine ⟨m2, ?_, ?_⟩
    · rw [MS.run, e, Res.ok_bind, e2]
    · rw [show N + 4 * (c :: l).length = N + 4 + 4 * l.length by simp; omega]
      exact S2

theorem sim_init (L : Linked h0 kids0) (N : Nat) : Sim P h0 kids0 N (MS.init h0) PS.init :=
  .run (.main (rep_alloc N) (by simp)) (core_init L)

theorem climb {h : Heap} {kids : Nat → List Nat} (L : Linked h kids) {r : Nat} (hr : ∀ p, r ∉ kids p) :
    ∀ (fs : List Frame) (a : Nat) (p : Option Nat), h a ≠ none → Chain h0 h kids (some a) fs p (some r) →
      (∀ k, fs.length + 1 ≤ k → climbRoot h k a = some (.ok r)) ∧ (fs ≠ [] → a ≠ r) ∧ (fs = [] → a = r)
  | [], a, p, ha, hc => by
    obtain ⟨_, e⟩ := hc
    cases e
    refine ⟨fun k hk => ?_, by simp, by simp⟩
    obtain ⟨k, rfl⟩ : ∃ j, k = j + 1 := ⟨k - 1, by simp at hk; omega⟩
    rw [climbRoot]
    cases hc : h r with
    | none => exact absurd hc ha
    | some c =>
      dsimp only
      cases hp : c.parent with
      | none => rfl
      | some q => exact absurd (L.listed r c q hc hp) (hr q)
  | f :: fs, a, p, ha, hc => by
    obtain ⟨b, ts, p', e, h0b, hdb, hkb, hss, his, hrest⟩ := hc
    have hab : a ∈ kids b := by rw [hkb]; simp
    obtain ⟨c, hca, hpar⟩ := L.parent b a hab
    have ih := climb L hr fs b p' (L.alloc_of_kids hab) hrest
    refine ⟨fun k hk => ?_, fun _ e => hr b (e ▸ hab), by simp⟩
    obtain ⟨k, rfl⟩ : ∃ j, k = j + 1 := ⟨k - 1, by simp at hk; omega⟩
    rw [climbRoot, hca]
    dsimp only
    rw [hpar]
    exact ih.1 k (by simp at hk; omega)

/-- The memory is what it was before the call, or that and one node without parent and children. -/
def AtMostOne (P : Prop) (h0 h : Heap) : Prop := Untouched h0 h ∧ (NothingNew h0 h ∨ P ∧ OneNew h0 h)

/-- The tree of the result, and nothing else, is new. -/
def Result (h0 : Heap) (kids0 : Nat → List Nat) (h : Heap) (r : Option Nat) (n : Node) : Prop :=
  ∃ kids t, Own h0 kids0 h kids [t.addr] ∧ r = some t.addr ∧ Shape kids t ∧ IsNode h t n

theorem atMost_nil (L0 : Linked h0 kids0) {h : Heap} {kids : Nat → List Nat} (O : Own h0 kids0 h kids []) :
    AtMostOne P h0 h := by
  refine ⟨O.same L0, .inl fun x hx => ?_⟩
  cases e : h x with
  | none => rfl
  | some c =>
    obtain ⟨r, hr, _⟩ := (O.below L0 hx).mp (by simp [e])
    cases hr

theorem below_leaf {kids : Nat → List Nat} {a x : Nat} (hk : kids a = []) (h : Below kids a x) : x = a := by
  induction h with
  | self => rfl
  | step _ hc ih => subst ih; rw [hk] at hc; cases hc

theorem atMost_one (L0 : Linked h0 kids0) {h : Heap} {kids : Nat → List Nat} {a : Nat} (O : Own h0 kids0 h kids [a])
    (hk : kids a = []) (hP : P) : AtMostOne P h0 h := by
  obtain ⟨ha, h0a, hp⟩ := O.rooted a (by simp)
  cases hc : h a with
  | none => exact absurd hc ha
  | some c =>
    refine ⟨O.same L0, .inr ⟨hP, a, c, h0a, hc, ?_, ?_, fun x hx hn => ?_⟩⟩
    · cases e : c.parent with
      | none => rfl
      | some q => exact absurd (O.L.listed a c q hc e) (hp q)
    · rw [(O.L.child a c hc).1, hk]; rfl
    · cases e : h x with
      | none => rfl
      | some c =>
        obtain ⟨r, hr, hb⟩ := (O.below L0 hx).mp (by simp [e])
        simp only [List.mem_singleton] at hr
        subst hr
        exact absurd (below_leaf hk hb) hn

theorem result_new (L0 : Linked h0 kids0) {h : Heap} {r : Option Nat} {n : Node} (R : Result h0 kids0 h r n) :
    Untouched h0 h ∧ NewTree h0 h r n := by
  obtain ⟨kids, t, O, rfl, hs, hi⟩ := R
  obtain ⟨ha, h0a, hp⟩ := O.rooted t.addr (by simp)
  refine ⟨O.same L0, kids, t, O.L, rfl, hs, hi, ?_, fun x => ?_⟩
  · cases hc : h t.addr with
    | none => rfl
    | some c =>
      cases e : c.parent with
      | none => simp [e]
      | some q => exact absurd (O.L.listed _ c q hc e) (hp q)
  · have hb : x ∈ pre t ↔ Below kids t.addr x := by rw [mem_pre, mem_post hs]
    rw [hb]
    constructor
    · intro hx
      have h0x : h0 x = none := by
        clear hb
        induction hx with
        | self => exact h0a
        | step _ hc ih => exact O.out _ ih _ hc
      exact ⟨h0x, (O.below L0 h0x).mpr ⟨_, by simp, hx⟩⟩
    · rintro ⟨h0x, hx⟩
      obtain ⟨r, hr, hx⟩ := (O.below L0 h0x).mp hx
      simp only [List.mem_singleton] at hr
      exact hr ▸ hx

/-- Deleting the result. -/
theorem result_delete (L0 : Linked h0 kids0) {h : Heap} {r : Option Nat} {n : Node} (R : Result h0 kids0 h r n) :
    ∃ m, ∀ k, m ≤ k → del k h r = some (.ok h0) := by
  obtain ⟨kids, t, O, rfl, hs, hi⟩ := R
  obtain ⟨ha, h0a, hp⟩ := O.rooted t.addr (by simp)
  obtain ⟨h', kids', ⟨m, hm⟩, O', _⟩ := O.delete L0 ha h0a
  have O2 : Own h0 kids0 h' kids' [] := by simpa using O'
  have : h' = h0 := by
    funext x
    cases e : h0 x with
    | some c => rw [O2.same L0 x (by simp [e]), e]
    | none =>
      obtain ⟨_, h3 | ⟨_, a, c, h3, h4, _⟩⟩ := atMost_nil (P := True) L0 O2
      · exact h3 x e
      · obtain ⟨r, hr, _⟩ := (O2.below L0 h3).mp (by simp [h4])
        cases hr
  exact ⟨m, fun k hk => by rw [hm k hk, this]⟩

theorem del_none (k : Nat) (h : Heap) : del k h none = some (.ok h) := rfl

theorem not_below_root {kids : Nat → List Nat} {a r : Nat} (hr : ∀ p, r ∉ kids p) (hn : r ≠ a) : ¬ Below kids a r := by
  intro h
  cases h with
  | self => exact hn rfl
  | step _ hc => exact hr _ hc

/-- What the function leaves behind. -/
def Good2 (P : Prop) (h0 : Heap) (kids0 : Nat → List Nat) (h : Heap) (r : Option Nat) : Option Node → Prop
  | some n => Result h0 kids0 h r n
  | none => r = none ∧ AtMostOne P h0 h

/-- The label `error`. -/
theorem leave_fail (L0 : Linked h0 kids0) {d : Option Nat} {h : Heap} {p f : Option Nat} {o : Bool} {b : CBuf}
    {st : List Frame} {root : Option Node} {hd : Option (Nat × Data)} {lk : Option Nat}
    (C : Core P h0 kids0 h p f st root hd lk) (hdd : d = none ∧ (hd ≠ none → st = [] → P) ∨ d = hd.map Prod.fst) :
    ∃ h', (∃ m, ∀ k, m ≤ k → leave k ⟨.fail d, h, p, f, o, some b, none, none⟩ = some (.ok (h', none))) ∧
      AtMostOne P h0 h' := by
  cases C with
  | @empty kids _ O H =>
    cases hd with
    | none =>
      have : d = none := by rcases hdd with h | h; exact h.1; simpa using h
      subst this
      exact ⟨h, ⟨0, fun k _ => rfl⟩, atMost_nil L0 (by simpa using O)⟩
    | some x =>
      obtain ⟨n, dd⟩ := x
      obtain ⟨h0n, hdn, hkn⟩ := H n dd rfl
      rcases hdd with ⟨rfl, hP⟩ | rfl
      · exact ⟨h, ⟨0, fun k _ => rfl⟩, atMost_one L0 (by simpa using O) hkn (hP (by simp) rfl)⟩
      · have hn : h n ≠ none := by
          intro e; rw [e] at hdn; cases hdn
        obtain ⟨h', kids', ⟨m, hm⟩, O', _⟩ := O.delete L0 hn h0n
        refine ⟨h', ⟨m, fun k hk => ?_⟩, atMost_nil L0 (kids := kids') (by simpa using O')⟩
        simp [leave, hm k hk, del_none]
  | @rooted kids t nd leak O hs hi hl =>
    have : d = none := by rcases hdd with h | h; exact h.1; simpa using h
    subst this
    obtain ⟨ha, h0a, hp⟩ := O.rooted t.addr (by simp)
    obtain ⟨h', kids', ⟨m, hm⟩, O', hk'⟩ := O.delete L0 ha h0a
    refine ⟨h', ⟨m, fun k hk => ?_⟩, ?_⟩
    · simp [leave, hm k hk, del_none]
    · cases lk with
      | none => exact atMost_nil L0 (kids := kids') (by simpa using O')
      | some x =>
        by_cases e : x = t.addr
        · subst e
          exact atMost_nil L0 (kids := kids') (by simpa using O')
        · obtain ⟨hx, h0x, hpx⟩ := O.rooted x (by simp)
          have := (hk' x hx (not_below_root hpx e)).2 (hl x rfl).1
          exact atMost_one L0 (kids := kids') (a := x) (by simpa [e] using O') this (hl x rfl).2
  | @inside kids r _ g fs _ _ O H hc =>
    obtain ⟨hr, h0r, hpr⟩ := O.rooted r (by simp)
    rcases hdd with ⟨rfl, _⟩ | rfl
    · obtain ⟨h', kids', ⟨m, hm⟩, O', _⟩ := O.delete L0 hr h0r
      refine ⟨h', ⟨m, fun k hk => ?_⟩, atMost_nil L0 (kids := kids') (by simpa using O')⟩
      simp [leave, hm k hk, del_none]
    · cases hd with
      | none =>
        obtain ⟨h', kids', ⟨m, hm⟩, O', _⟩ := O.delete L0 hr h0r
        refine ⟨h', ⟨m, fun k hk => ?_⟩, atMost_nil L0 (kids := kids') (by simpa using O')⟩
        simp [leave, hm k hk, del_none]
      | some x =>
        obtain ⟨n, dd⟩ := x
        obtain ⟨h0n, hdn, hkn⟩ := H n dd rfl
        have hn : h n ≠ none := by
          intro e; rw [e] at hdn; cases hdn
        have hnr : r ≠ n := by
          intro e
          obtain ⟨a, ts, p', _, _, _, hka, _⟩ := hc
          exact hpr a (by rw [hka]; simp [e])
        obtain ⟨h1, kids1, ⟨m1, hm1⟩, O1, hk1⟩ := O.delete L0 hn h0n
        have O1' : Own h0 kids0 h1 kids1 [r] := by simpa [hnr] using O1
        obtain ⟨h2, kids2, ⟨m2, hm2⟩, O2, _⟩ := O1'.delete L0 (hk1 r hr (not_below_root hpr hnr)).1 h0r
        refine ⟨h2, ⟨m1 + m2, fun k hk => ?_⟩, atMost_nil L0 (kids := kids2) (by simpa using O2)⟩
        simp [leave, hm1 k (by omega), hm2 k (by omega)]

/-- Behind the main loop. -/
theorem leave_eof (L0 : Linked h0 kids0) {h : Heap} {p f : Option Nat} {o : Bool} {b : CBuf} (q : PS)
    (C : Core P h0 kids0 h p f q.stack q.root none none) {n : Option Node} (hn : q.finish.pc = .done n) :
    ∃ h' r, (∃ m, ∀ k, m ≤ k → leave k ⟨.eof, h, p, f, o, some b, none, none⟩ = some (.ok (h', r))) ∧
      Good2 P h0 kids0 h' r n := by
  obtain ⟨ppc, st, root, qo⟩ := q
  dsimp only at C
  cases C with
  | empty O =>
    have : n = none := by simpa [PS.finish] using hn.symm
    subst this
    exact ⟨h, none, ⟨0, fun k _ => rfl⟩, rfl, atMost_nil L0 (by simpa using O)⟩
  | @rooted kids t nd leak O hs hi =>
    have : n = some nd := by simpa [PS.finish] using hn.symm
    subst this
    exact ⟨h, some t.addr, ⟨0, fun k _ => rfl⟩, kids, t, by simpa using O, rfl, hs, hi⟩
  | @inside kids r p g fs _ _ O H hc =>
    obtain ⟨hr, h0r, hpr⟩ := O.rooted r (by simp)
    obtain ⟨a, ts, p', rfl, h0a, hda, hka, hss, his, hrest⟩ := hc
    have ha : h a ≠ none := by
      intro e; rw [e] at hda; cases hda
    have hcl := climb O.L hpr fs a p' ha hrest
    cases fs with
    | nil =>
      have : n = some g.node := by simpa [PS.finish] using hn.symm
      subst this
      have : a = r := hcl.2.2 rfl
      subst this
      refine ⟨h, some a, ⟨1, fun k hk => ?_⟩, ?_⟩
      · simp [leave, hcl.1 k (by simpa using hk)]
      · refine ⟨kids, .mk a ts, by simpa [T.addr] using O, rfl, ?_, ?_⟩
        · rw [Shape]; exact ⟨by simpa using hka, hss⟩
        · rw [Frame.node, IsNode]; exact ⟨hda, his⟩
    | cons g2 gs =>
      have : n = none := by simpa [PS.finish, PS.error] using hn.symm
      subst this
      have hne : a ≠ r := hcl.2.1 (by simp)
      obtain ⟨h', kids', ⟨m, hm⟩, O', _⟩ := O.delete L0 hr h0r
      refine ⟨h', none, ⟨m + (g2 :: gs).length + 1, fun k hk => ?_⟩, rfl, atMost_nil L0 (kids := kids') (by simpa using O')⟩
      simp [leave, hcl.1 k (by omega), hne, hm k (by omega)]

/-- The whole function. -/
theorem load_spec (hA : ∀ h kids, Linked h kids → h (A h) = none) (L0 : Linked h0 kids0) (l : List (Option Nat))
    (hz : some 0 ∉ l) (hl : 4 * l.length + 1116 ≤ 2147483647)
    (hP : ∀ p c q, l ++ [none, none, none] = p ++ c :: q → Losing (Xml.run PS.init p) c → P)
    (hret : ∃ r, (Xml.run (Xml.run PS.init l) [none, none, none]).pc = .done r) :
    ∃ h' r, (∃ m, ∀ k, m ≤ k → load A k h0 l = some (.ok (h', r))) ∧ Good2 P h0 kids0 h' r (Xml.loadData l) := by
  have hrun : ∀ (s : PS) (a b : List (Option Nat)), Xml.run s (a ++ b) = Xml.run (Xml.run s a) b := by
    intro s a b; simp [Xml.run]
  obtain ⟨m, e, S⟩ := run_next hA (l ++ [none, none, none]) (sim_init L0 4) hP (by omega) (by simp; omega)
    (by simpa using hz)
  rw [hrun] at S
  obtain ⟨n, hn⟩ := hret
  have hld : Xml.loadData l = n := by rw [Xml.loadData, PS.result, hn]
  rw [hld]
  unfold load
  rw [e]
  dsimp only
  generalize Xml.run (Xml.run PS.init l) [none, none, none] = s at S hn
  cases S with
  | run R C => cases R <;> cases hn
  | close => cases hn
  | eof C => exact leave_eof L0 _ C hn
  | fail C hd =>
    cases hn
    obtain ⟨h', h1, h2⟩ := leave_fail L0 C hd
    exact ⟨h', none, h1, rfl, h2⟩

end

end Afs.ParseMem
