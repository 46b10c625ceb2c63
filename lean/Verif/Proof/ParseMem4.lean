import Verif.Proof.ParseMem3
/-!
# The reader in memory does what the reader on values does: helpers
-/
namespace Afs.ParseMem
open Afs Afs.Xml Afs.Links Afs.Spec

/-! ### No NUL in a buffer -/

theorem ofNat_or_ne {a y : Nat} (h : Nat.testBit a 7 = true) : UInt8.ofNat (a ||| y) ≠ 0 := by
  intro e
  have : a % 256 = 0 := by
    have := congrArg UInt8.toNat e
    simp at this
    exact this.1
  have h2 : Nat.testBit (a % 2 ^ 8) 7 = Nat.testBit a 7 := by
    rw [Nat.testBit_mod_two_pow]; simp
  rw [show (2 : Nat) ^ 8 = 256 from rfl, this, h] at h2
  simp at h2

theorem addChar_nz {c : Nat} (hc : c ≠ 0) : (0 : UInt8) ∉ Xml.addChar c := by
  unfold Xml.addChar
  split
  · simp only [List.mem_singleton]
    intro e
    have := congrArg UInt8.toNat e
    simp at this
    omega
  · split
    · simp only [List.mem_cons, List.not_mem_nil, or_false, not_or]
      exact ⟨(ofNat_or_ne (by decide)).symm, (ofNat_or_ne (by decide)).symm⟩
    · split
      · simp only [List.mem_cons, List.not_mem_nil, or_false, not_or]
        exact ⟨(ofNat_or_ne (by decide)).symm, (ofNat_or_ne (by decide)).symm, (ofNat_or_ne (by decide)).symm⟩
      · simp only [List.mem_cons, List.not_mem_nil, or_false, not_or]
        exact ⟨(ofNat_or_ne (by decide)).symm, (ofNat_or_ne (by decide)).symm, (ofNat_or_ne (by decide)).symm,
          (ofNat_or_ne (by decide)).symm⟩

theorem nz_add {s : Bytes} {c : Nat} (hs : (0 : UInt8) ∉ s) (hc : c ≠ 0) : (0 : UInt8) ∉ s ++ Xml.addChar c := by
  simp only [List.mem_append, not_or]
  exact ⟨hs, addChar_nz hc⟩

theorem goodChar_ne {x : Int} {v : Nat} (h : (if badChar x then none else some x.toNat) = some v) : v ≠ 0 := by
  split at h
  · cases h
  · rename_i hb
    rintro rfl
    simp only [Option.some.injEq] at h
    apply hb
    unfold badChar
    simp
    omega

theorem entityChar_ne {acc : Bytes} {v : Nat} (h : entityChar acc = some v) : v ≠ 0 := by
  unfold entityChar at h
  exact goodChar_ne h

/-! ### The relation -/

/-- States from which an entity can be read. -/
def Resumes : PC → Prop
  | .main _ => True
  | .name _ => True
  | .decl _ => True
  | .qname _ _ _ => True
  | .aname _ _ => True
  | .qval _ _ _ _ => True
  | .uval _ _ _ => True
  | _ => False

/-- Control states with the buffers and the node they need. -/
inductive PcRel (N : Nat) : MPC → PC → Option CBuf → Option CBuf → Option CBuf → Option (Nat × Data) →
    Option Nat → Prop where
  | main {b : CBuf} {s : Bytes} : Rep b s N → (0 : UInt8) ∉ s → PcRel N .main (.main s) (some b) none none none none
  | name {b : CBuf} {s : Bytes} {lk : Option Nat} : Rep b s N → (0 : UInt8) ∉ s →
      PcRel N .name (.name s) (some b) none none none lk
  | comment {b : CBuf} {s : Bytes} {lk : Option Nat} : Rep b s N → (0 : UInt8) ∉ s →
      PcRel N .comment (.comment s) (some b) none none none lk
  | cdata {b : CBuf} {s : Bytes} {lk : Option Nat} : Rep b s N → (0 : UInt8) ∉ s → 2 ≤ s.length →
      PcRel N .cdata (.cdata s) (some b) none none none lk
  | pi {b : CBuf} {s : Bytes} {lk : Option Nat} : Rep b s N → (0 : UInt8) ∉ s →
      PcRel N .pi (.pi s) (some b) none none none lk
  | decl {b : CBuf} {s : Bytes} {lk : Option Nat} : Rep b s N → (0 : UInt8) ∉ s →
      PcRel N .decl (.decl s) (some b) none none none lk
  | slash {b : CBuf} {n : Nat} {m : Bytes} : Any b N →
      PcRel N (.slash n) (.slash m) (some b) none none (some (n, .elem m [])) none
  | attr {b a v : CBuf} {n : Nat} {e : Head} : Any b N → Any a N → Any v N →
      PcRel N (.attr n) (.attr e) (some b) (some a) (some v) (some (n, .elem e.1 e.2)) none
  | attrSlash {b a v : CBuf} {n c : Nat} {e : Head} : Any b N → Any a N → Any v N →
      PcRel N (.attrSlash n c) (.attrSlash e c) (some b) (some a) (some v) (some (n, .elem e.1 e.2)) none
  | qname {b a v : CBuf} {n q : Nat} {e : Head} {an : Bytes} : Any b N → Rep a an N → Any v N →
      PcRel N (.qname n q) (.qname e q an) (some b) (some a) (some v) (some (n, .elem e.1 e.2)) none
  | aname {b a v : CBuf} {n : Nat} {e : Head} {an : Bytes} : Any b N → Rep a an N → Any v N →
      PcRel N (.aname n) (.aname e an) (some b) (some a) (some v) (some (n, .elem e.1 e.2)) none
  | aeq {b a v : CBuf} {n : Nat} {e : Head} {an : Bytes} : Any b N → Str a an N → Any v N →
      PcRel N (.aeq n) (.aeq e an) (some b) (some a) (some v) (some (n, .elem e.1 e.2)) none
  | vskip {b a v : CBuf} {n : Nat} {e : Head} {an : Bytes} : Any b N → Str a an N → Any v N →
      PcRel N (.vskip n) (.vskip e an) (some b) (some a) (some v) (some (n, .elem e.1 e.2)) none
  | qval {b a v : CBuf} {n q : Nat} {e : Head} {an av : Bytes} : Any b N → Str a an N → Rep v av N →
      PcRel N (.qval n q) (.qval e an q av) (some b) (some a) (some v) (some (n, .elem e.1 e.2)) none
  | uval {b a v : CBuf} {n : Nat} {e : Head} {an av : Bytes} : Any b N → Str a an N → Rep v av N →
      PcRel N (.uval n) (.uval e an av) (some b) (some a) (some v) (some (n, .elem e.1 e.2)) none
  | valSlash {b a v : CBuf} {n c : Nat} {e : Head} : Any b N → Any a N → Any v N →
      PcRel N (.valSlash n c) (.valSlash e c) (some b) (some a) (some v) (some (n, .elem e.1 e.2)) none
  | ent {k : MPC} {k' : PC} {b a v : Option CBuf} {hd : Option (Nat × Data)} {lk : Option Nat} {e : CBuf} {acc : Bytes} :
      PcRel N k k' b a v hd lk → Resumes k' → Ent e acc → (0 : UInt8) ∉ acc →
      PcRel N (.ent k e) (.ent k' acc) b a v hd lk

theorem PcRel.mono {N M : Nat} (hm : N ≤ M) {k : MPC} {k' : PC} {b a v : Option CBuf} {hd : Option (Nat × Data)}
    {lk : Option Nat} (h : PcRel N k k' b a v hd lk) : PcRel M k k' b a v hd lk := by
  induction h with
  | main h1 h2 => exact .main (h1.mono hm) h2
  | name h1 h2 => exact .name (h1.mono hm) h2
  | comment h1 h2 => exact .comment (h1.mono hm) h2
  | cdata h1 h2 h3 => exact .cdata (h1.mono hm) h2 h3
  | pi h1 h2 => exact .pi (h1.mono hm) h2
  | decl h1 h2 => exact .decl (h1.mono hm) h2
  | slash h1 => exact .slash (h1.mono hm)
  | attr h1 h2 h3 => exact .attr (h1.mono hm) (h2.mono hm) (h3.mono hm)
  | attrSlash h1 h2 h3 => exact .attrSlash (h1.mono hm) (h2.mono hm) (h3.mono hm)
  | qname h1 h2 h3 => exact .qname (h1.mono hm) (h2.mono hm) (h3.mono hm)
  | aname h1 h2 h3 => exact .aname (h1.mono hm) (h2.mono hm) (h3.mono hm)
  | aeq h1 h2 h3 => exact .aeq (h1.mono hm) (h2.mono hm) (h3.mono hm)
  | vskip h1 h2 h3 => exact .vskip (h1.mono hm) (h2.mono hm) (h3.mono hm)
  | qval h1 h2 h3 => exact .qval (h1.mono hm) (h2.mono hm) (h3.mono hm)
  | uval h1 h2 h3 => exact .uval (h1.mono hm) (h2.mono hm) (h3.mono hm)
  | valSlash h1 h2 h3 => exact .valSlash (h1.mono hm) (h2.mono hm) (h3.mono hm)
  | ent _ h2 h3 h4 ih => exact .ent ih h2 h3 h4

/-- The state of the reader in memory and the state of the reader on values. -/
inductive Sim (P : Prop) (h0 : Heap) (kids0 : Nat → List Nat) (N : Nat) : MS → PS → Prop where
  | run {pc : MPC} {h : Heap} {p f : Option Nat} {o : Bool} {b a v : Option CBuf} {ppc : PC} {st : List Frame}
      {root : Option Node} {hd : Option (Nat × Data)} {lk : Option Nat} :
      PcRel N pc ppc b a v hd lk → Core P h0 kids0 h p f st root hd lk →
      Sim P h0 kids0 N ⟨pc, h, p, f, o, b, a, v⟩ ⟨ppc, st, root, o⟩
  | close {h : Heap} {p f : Option Nat} {o : Bool} {b : CBuf} {g : Frame} {fs : List Frame} {root : Option Node} :
      Any b N → Core P h0 kids0 h p f (g :: fs) root none none →
      Sim P h0 kids0 N ⟨.close, h, p, f, o, some b, none, none⟩ ⟨.close, g :: fs, root, o⟩
  | eof {h : Heap} {p f : Option Nat} {o o' : Bool} {b : CBuf} {q : PS} {st : List Frame} {root : Option Node} :
      Core P h0 kids0 h p f q.stack q.root none none →
      Sim P h0 kids0 N ⟨.eof, h, p, f, o, some b, none, none⟩ ⟨q.finish.pc, st, root, o'⟩
  | fail {d : Option Nat} {h : Heap} {p f : Option Nat} {o o' : Bool} {b : CBuf} {st st' : List Frame}
      {root root' : Option Node} {hd : Option (Nat × Data)} {lk : Option Nat} :
      Core P h0 kids0 h p f st root hd lk → (d = none ∧ (hd ≠ none → st = [] → P) ∨ d = hd.map Prod.fst) →
      Sim P h0 kids0 N ⟨.fail d, h, p, f, o, some b, none, none⟩ ⟨.done none, st', root', o'⟩

/-- A piece of code runs without undefined behaviour into a state that corresponds. -/
def Next (P : Prop) (h0 : Heap) (kids0 : Nat → List Nat) (N : Nat) (r : Res MS) (s : PS) : Prop :=
  ∃ m, r = .ok m ∧ Sim P h0 kids0 N m s

section
variable {P : Prop} {h0 : Heap} {kids0 : Nat → List Nat} {N : Nat}

theorem next_ok {m : MS} {s : PS} (h : Sim P h0 kids0 N m s) : Next P h0 kids0 N (.ok m) s := ⟨m, rfl, h⟩

theorem error_next {pc : MPC} {h : Heap} {p f : Option Nat} {o : Bool} {b : CBuf} {ppc : PC} {st : List Frame}
    {root : Option Node} {lk : Option Nat} (C : Core P h0 kids0 h p f st root none lk) :
    Next P h0 kids0 N (MS.error ⟨pc, h, p, f, o, some b, none, none⟩) (PS.error ⟨ppc, st, root, o⟩) :=
  next_ok (.fail C (.inr rfl))

theorem attrError_next {pc : MPC} {h : Heap} {p f : Option Nat} {o : Bool} {b a v : CBuf} {ppc : PC} {st : List Frame}
    {root : Option Node} {hd : Option (Nat × Data)} {lk : Option Nat} (C : Core P h0 kids0 h p f st root hd lk)
    (hP : st = [] → P) :
    Next P h0 kids0 N (MS.attrError ⟨pc, h, p, f, o, some b, some a, some v⟩) (PS.error ⟨ppc, st, root, o⟩) :=
  next_ok (.fail C (.inl ⟨rfl, fun _ => hP⟩))

theorem again_next {pc : MPC} {h : Heap} {p f : Option Nat} {o : Bool} {b : CBuf} {st : List Frame}
    {root : Option Node} (hb : Any b N) (C : Core P h0 kids0 h p f st root none none) :
    Next P h0 kids0 N (MS.again ⟨pc, h, p, f, o, some b, none, none⟩) ⟨.main [], st, root, o⟩ :=
  next_ok (.run (.main (rep_reset hb) (by simp)) C)

theorem addNode_eq {ppc : PC} {st : List Frame} {root : Option Node} {o : Bool} {n : Node}
    (hr : st = [] → root = none) :
    PS.addNode ⟨ppc, st, root, o⟩ n = ⟨ppc, addedStack st n, addedRoot st root n, o⟩ := by
  unfold PS.addNode
  cases st with
  | nil => rw [hr rfl]; rfl
  | cons f fs => rfl

theorem core_head_root {h : Heap} {p f : Option Nat} {st : List Frame} {root : Option Node} {x : Nat × Data}
    {lk : Option Nat} (C : Core P h0 kids0 h p f st root (some x) lk) : st = [] → root = none := by
  intro e
  cases C with
  | empty => rfl
  | inside => cases e

theorem setFirst_eq {pc : MPC} {h : Heap} {p f : Option Nat} {o : Bool} {b a v : Option CBuf} (n : Nat) :
    MS.setFirst ⟨pc, h, p, f, o, b, a, v⟩ n = ⟨pc, h, p, some (f.getD n), o, b, a, v⟩ := by
  cases f <;> rfl

theorem afterHead_next {pc : MPC} {h : Heap} {p f : Option Nat} {o : Bool} {b : CBuf} {ppc : PC} {st : List Frame}
    {root : Option Node} {n : Nat} {e : Head} {lk : Option Nat} (hb : Any b N)
    (C : Core P h0 kids0 h p f st root (some (n, .elem e.1 e.2)) lk) (ch : Nat) :
    Next P h0 kids0 N (MS.afterHead ⟨pc, h, p, f, o, some b, none, none⟩ n ch) (PS.afterHead ⟨ppc, st, root, o⟩ e ch) := by
  unfold MS.afterHead PS.afterHead
  rw [setFirst_eq]
  by_cases e47 : ch = 47
  · rw [if_pos e47, if_pos e47, addNode_eq (core_head_root C)]
    exact again_next hb (core_done C)
  · rw [if_neg e47, if_neg e47]
    exact again_next hb (core_push C)

theorem attrEnd_next {pc : MPC} {h : Heap} {p f : Option Nat} {o : Bool} {b a v : CBuf} {ppc : PC} {st : List Frame}
    {root : Option Node} {n : Nat} {e : Head} {lk : Option Nat} (hb : Any b N)
    (C : Core P h0 kids0 h p f st root (some (n, .elem e.1 e.2)) lk) (ch : Nat) :
    Next P h0 kids0 N (MS.attrEnd ⟨pc, h, p, f, o, some b, some a, some v⟩ n ch) (PS.afterHead ⟨ppc, st, root, o⟩ e ch) :=
  afterHead_next hb C ch

theorem second_eq {pc : MPC} {h : Heap} {p f : Option Nat} {o : Bool} {b a v : Option CBuf} {ppc : PC} {st : List Frame}
    {root : Option Node} {hd : Option (Nat × Data)} {lk : Option Nat} (C : Core P h0 kids0 h p f st root hd lk) :
    MS.second ⟨pc, h, p, f, o, b, a, v⟩ = PS.secondRoot ⟨ppc, st, root, o⟩ := by
  obtain ⟨h1, h2, h3, _⟩ := core_null C
  unfold MS.second PS.secondRoot
  cases st with
  | nil => simp only [h1, h2 rfl]
  | cons g gs => simp [h1]

variable {A : Heap → Nat}

theorem newNode_next (hA : ∀ h kids, Linked h kids → h (A h) = none) {pc : MPC} {h : Heap} {p f : Option Nat} {o : Bool}
    {b a v : Option CBuf} {ppc : PC} {st : List Frame} {root : Option Node} {lk : Option Nat}
    (C : Core P h0 kids0 h p f st root none lk) (hn : PS.secondRoot ⟨ppc, st, root, o⟩ = false) (d : Data) :
    ∃ h' n, MS.newNode A ⟨pc, h, p, f, o, b, a, v⟩ d = .ok (n, ⟨pc, h', p, f, o, b, a, v⟩) ∧
      Core P h0 kids0 h' p f st root (some (n, d)) none := by
  have hn' : ¬ (st = [] ∧ root.isSome = true) := by
    rintro ⟨rfl, hr⟩
    simp [PS.secondRoot, hr] at hn
  have hl : lk = none := by
    cases lk with
    | none => rfl
    | some x =>
      have := (core_null C).2.2.2 (by simp)
      exact absurd ⟨this.1, this.2.1⟩ hn'
  subst hl
  obtain ⟨kids, L⟩ := core_alive C
  obtain ⟨h', e, C'⟩ := core_new C hn' (hA h kids L) d
  exact ⟨h', A h, by simp [MS.newNode, e], C'⟩

theorem addSpecial_next (hA : ∀ h kids, Linked h kids → h (A h) = none) {pc : MPC} {h : Heap} {p f : Option Nat}
    {o : Bool} {b : CBuf} {ppc : PC} {st : List Frame} {root : Option Node} {lk : Option Nat} {s : Bytes}
    (hb : Rep b s N) (hz : (0 : UInt8) ∉ s) (C : Core P h0 kids0 h p f st root none lk) :
    Next P h0 kids0 N (MS.addSpecial A ⟨pc, h, p, f, o, some b, none, none⟩) (PS.addSpecial ⟨ppc, st, root, o⟩ s) := by
  obtain ⟨b', e, hb', hstr, _⟩ := rep_stop hb
  unfold MS.addSpecial PS.addSpecial
  simp only [MS.onBuf, live, Res.ok_bind, e]
  rw [second_eq (ppc := ppc) C]
  by_cases hsec : PS.secondRoot ⟨ppc, st, root, o⟩ = true
  · rw [if_pos hsec, if_pos hsec]
    exact error_next C
  · rw [if_neg hsec, if_neg hsec]
    have hsec' : PS.secondRoot ⟨ppc, st, root, o⟩ = false := by simpa using hsec
    rw [hstr.str, cstr_id hz, Res.ok_bind]
    obtain ⟨h', n, e', C'⟩ := newNode_next hA (pc := pc) (b := some b') (a := none) (v := none) C hsec' (.elem s [])
    rw [e', Res.ok_bind, setFirst_eq, addNode_eq (core_head_root C')]
    exact again_next hb'.toAny (core_done C')

theorem addDirective_next (hA : ∀ h kids, Linked h kids → h (A h) = none) {pc : MPC} {h : Heap} {p f : Option Nat}
    {o : Bool} {b : CBuf} {ppc : PC} {st : List Frame} {root : Option Node} {lk : Option Nat} {s : Bytes}
    (hb : Rep b s N) (hz : (0 : UInt8) ∉ s) (C : Core P h0 kids0 h p f st root none lk) :
    Next P h0 kids0 N (MS.addDirective A ⟨pc, h, p, f, o, some b, none, none⟩) (PS.addDirective ⟨ppc, st, root, o⟩ s) := by
  obtain ⟨b', e, hb', hstr, _⟩ := rep_stop hb
  unfold MS.addDirective PS.addDirective
  simp only [MS.onBuf, live, Res.ok_bind, e]
  rw [second_eq (ppc := ppc) C]
  by_cases hsec : PS.secondRoot ⟨ppc, st, root, o⟩ = true
  · rw [if_pos hsec, if_pos hsec]
    exact error_next C
  · rw [if_neg hsec, if_neg hsec]
    have hsec' : PS.secondRoot ⟨ppc, st, root, o⟩ = false := by simpa using hsec
    rw [hstr.str, cstr_id hz, Res.ok_bind]
    obtain ⟨h', n, e', C'⟩ := newNode_next hA (pc := pc) (b := some b') (a := none) (v := none) C hsec' (.elem s [])
    rw [e', Res.ok_bind, (core_null C).1]
    by_cases hst : st.isEmpty = true
    · rw [if_pos hst, if_pos hst, setFirst_eq]
      exact again_next hb'.toAny (core_push C')
    · rw [if_neg hst, if_neg hst, setFirst_eq, addNode_eq (core_head_root C')]
      exact again_next hb'.toAny (core_done C')

theorem pop_next {pc : MPC} {h : Heap} {p f : Option Nat} {o : Bool} {b : CBuf} {ppc : PC} {g : Frame}
    {fs : List Frame} {root : Option Node} {lk : Option Nat} (hb : Any b N)
    (C : Core P h0 kids0 h p f (g :: fs) root none lk) :
    Next P h0 kids0 N (MS.pop ⟨pc, h, p, f, o, some b, none, none⟩) (PS.pop ⟨ppc, g :: fs, root, o⟩) := by
  obtain ⟨c, e, _, hpar, C'⟩ := core_pop C
  unfold MS.pop PS.pop
  simp only [e, Res.ok_bind, hpar]
  cases fs with
  | nil =>
    simp only [List.isEmpty_nil, Bool.not_true, Bool.false_or]
    exact again_next hb C'
  | cons g2 fs =>
    simp only [List.isEmpty_cons, Bool.not_false, Bool.true_or]
    exact again_next hb C'

theorem closeBody_next {pc : MPC} {h : Heap} {p f : Option Nat} {o : Bool} {b : CBuf} {ppc : PC} {g : Frame}
    {fs : List Frame} {root : Option Node} {lk : Option Nat} (hb : Any b N)
    (C : Core P h0 kids0 h p f (g :: fs) root none lk) (ch : Option Nat) :
    Next P h0 kids0 N (MS.closeBody ⟨pc, h, p, f, o, some b, none, none⟩ ch) (PS.closeBody ⟨ppc, g :: fs, root, o⟩ ch) := by
  have hl : lk = none := by
    cases lk with
    | none => rfl
    | some x => have := (core_null C).2.2.2 (by simp); simp at this
  subst hl
  unfold MS.closeBody PS.closeBody
  cases ch with
  | none => exact pop_next hb C
  | some c =>
    dsimp only
    by_cases e : c = 62
    · rw [if_pos e, if_pos e]; exact pop_next hb C
    · rw [if_neg e, if_neg e]; exact next_ok (.close hb C)

theorem declBody_next (hA : ∀ h kids, Linked h kids → h (A h) = none) (hN : N + 1100 ≤ 2147483647) {pc : MPC} {h : Heap}
    {p f : Option Nat} {o : Bool} {b : CBuf} {ppc : PC} {st : List Frame} {root : Option Node} {lk : Option Nat}
    {s : Bytes} (hb : Rep b s N) (hz : (0 : UInt8) ∉ s) (C : Core P h0 kids0 h p f st root none lk) (ch : Option Nat)
    (hch : ch ≠ some 0) :
    Next P h0 kids0 (N + 4) (MS.declBody A ⟨pc, h, p, f, o, some b, none, none⟩ ch) (PS.declBody ⟨ppc, st, root, o⟩ s ch) := by
  unfold MS.declBody PS.declBody
  cases ch with
  | none =>
    obtain ⟨b', e, hb'⟩ := rep_addEof hb hN
    simp only [MS.onBuf, live, Res.ok_bind, e]
    exact next_ok (.run (.decl hb' (by simp [hz])) C)
  | some c =>
    dsimp only
    by_cases e : c = 62
    · rw [if_pos e, if_pos e]
      exact addDirective_next hA (hb.mono (by omega)) hz C
    · rw [if_neg e, if_neg e]
      by_cases e2 : c = 38
      · rw [if_pos e2, if_pos e2]
        exact next_ok (.run (.ent (.decl (hb.mono (by omega)) hz) trivial ent_alloc (by simp)) C)
      · rw [if_neg e2, if_neg e2]
        obtain ⟨b', e, hb'⟩ := rep_add c hb hN
        simp only [MS.onBuf, live, Res.ok_bind, e]
        exact next_ok (.run (.decl hb' (nz_add hz (fun e => hch (by rw [e])))) C)

end

end Afs.ParseMem
