import Verif.Proof.ParseMem4
/-!
# The reader in memory does what the reader on values does: one character
-/
namespace Afs.ParseMem
open Afs Afs.Xml Afs.Links Afs.Spec

section
variable {P : Prop} {h0 : Heap} {kids0 : Nat → List Nat} {N : Nat} {A : Heap → Nat}

theorem flush_next (hA : ∀ h kids, Linked h kids → h (A h) = none) {pc : MPC} {h : Heap} {p f : Option Nat} {o : Bool}
    {b : CBuf} {ppc : PC} {st : List Frame} {root : Option Node} {s : Bytes}
    (hb : Rep b s N) (hz : (0 : UInt8) ∉ s) (C : Core P h0 kids0 h p f st root none none)
    (hP : st = [] → root ≠ none → o = true → s ≠ [] → P) :
    ∃ h' f' b' lk st' root', MS.flush A ⟨pc, h, p, f, o, some b, none, none⟩ = .ok ⟨pc, h', p, f', o, some b', none, none⟩ ∧
      PS.flush ⟨ppc, st, root, o⟩ s = ⟨ppc, st', root', o⟩ ∧ Rep b' [] N ∧
      Core P h0 kids0 h' p f' st' root' none lk ∧ (o = false → lk = none) := by
  unfold MS.flush PS.flush
  simp only [live, Res.ok_bind]
  by_cases hs : s = []
  · rw [if_pos (by rw [hb.ptr, hs]; rfl), if_pos hs]
    exact ⟨h, f, b, none, st, root, rfl, rfl, hs ▸ hb, C, fun _ => rfl⟩
  · rw [if_neg (by rw [hb.ptr]; simpa using hs), if_neg hs]
    obtain ⟨b', e, hb', hstr, hl, _⟩ := rep_stop hb
    rw [e, Res.ok_bind, hl, Res.ok_bind]
    cases o with
    | false => exact ⟨h, f, b'.reset, none, st, root, rfl, rfl, rep_reset hb'.toAny, C, fun _ => rfl⟩
    | true =>
      simp only [if_true]
      rw [hstr.str, cstr_id hz, Res.ok_bind]
      by_cases hsec : PS.secondRoot ⟨ppc, st, root, true⟩ = true
      · obtain ⟨rfl, hr⟩ : st = [] ∧ root.isSome = true := by
          simpa [PS.secondRoot] using hsec
        obtain ⟨nd, rfl⟩ := Option.isSome_iff_exists.mp hr
        obtain ⟨kids, L⟩ := core_alive C
        obtain ⟨h', e', C', hf⟩ := core_leak C (hP rfl (by simp) rfl hs) (hA h kids L) (.text s)
        obtain ⟨r, rfl⟩ := Option.isSome_iff_exists.mp hf
        refine ⟨h', some r, b'.reset, some (A h), [], some nd, ?_, rfl, rep_reset hb'.toAny, C', by simp⟩
        simp [MS.newNode, e', setFirst_eq]
      · have hsec' : PS.secondRoot ⟨ppc, st, root, true⟩ = false := by simpa using hsec
        obtain ⟨h', n, e', C'⟩ := newNode_next hA (pc := pc) (b := some b'.reset) (a := none) (v := none) C hsec' (.text s)
        refine ⟨h', _, b'.reset, none, _, _, ?_, addNode_eq (core_head_root C'), rep_reset hb'.toAny, core_done C', by simp⟩
        rw [e', Res.ok_bind, setFirst_eq]

/-- Behind the name loop without a character to be added. -/
theorem checkClose_next {pc : MPC} {h : Heap} {p f : Option Nat} {o : Bool} {b : CBuf} {ppc : PC} {g : Frame}
    {fs : List Frame} {root : Option Node} {lk : Option Nat} (hb : Any b N)
    (C : Core P h0 kids0 h p f (g :: fs) root none lk) (t : Bytes) (ch : Option Nat) :
    Next P h0 kids0 N (MS.checkClose ⟨pc, h, p, f, o, some b, none, none⟩ t ch)
      (if t.drop 1 = g.name then PS.closeBody ⟨ppc, g :: fs, root, o⟩ ch else PS.error ⟨ppc, g :: fs, root, o⟩) := by
  obtain ⟨c, e, hn, _, _⟩ := core_pop C
  unfold MS.checkClose
  simp only [e, Res.ok_bind, hn]
  by_cases ht : t.drop 1 = g.name
  · rw [if_pos ht, if_pos ht]; exact closeBody_next hb C ch
  · rw [if_neg ht, if_neg ht]; exact error_next C

theorem element_next (hA : ∀ h kids, Linked h kids → h (A h) = none) {pc : MPC} {h : Heap} {p f : Option Nat}
    {o : Bool} {b : CBuf} {ppc : PC} {st : List Frame} {root : Option Node} {lk : Option Nat} (hb : Any b N)
    (C : Core P h0 kids0 h p f st root none lk) (hn : PS.secondRoot ⟨ppc, st, root, o⟩ = false) (t : Bytes)
    (ch : Option Nat) :
    Next P h0 kids0 N (MS.element A ⟨pc, h, p, f, o, some b, none, none⟩ t ch)
      (match ch with
        | none => (PS.addNode ⟨ppc, st, root, o⟩ (.elem t [] [])).finish
        | some c =>
          if isSpace c then ⟨.attr (t, []), st, root, o⟩
          else if c = 47 then ⟨.slash t, st, root, o⟩
          else PS.afterHead ⟨ppc, st, root, o⟩ (t, []) c) := by
  obtain ⟨h', n, e', C'⟩ := newNode_next hA (pc := pc) (b := some b) (a := none) (v := none) C hn (.elem t [])
  unfold MS.element
  rw [e', Res.ok_bind]
  cases ch with
  | none =>
    dsimp only
    rw [setFirst_eq, addNode_eq (core_head_root C')]
    have hd := core_done C'
    exact ⟨_, rfl, .eof (q := ⟨ppc, addedStack st (leaf (.elem t [])), addedRoot st root (leaf (.elem t [])), o⟩) hd⟩
  | some c =>
    dsimp only
    by_cases e1 : isSpace c = true
    · rw [if_pos e1, if_pos e1]
      exact next_ok (.run (.attr (e := (t, [])) hb (any_alloc N) (any_alloc N)) C')
    · rw [if_neg e1, if_neg e1]
      by_cases e2 : c = 47
      · rw [if_pos e2, if_pos e2]
        exact next_ok (.run (.slash hb) C')
      · rw [if_neg e2, if_neg e2]
        exact afterHead_next (e := (t, [])) hb C' c

theorem sim_mono {M : Nat} (hm : N ≤ M) {m : MS} {s : PS} (h : Sim P h0 kids0 N m s) : Sim P h0 kids0 M m s := by
  cases h with
  | run h1 h2 => exact .run (h1.mono hm) h2
  | close h1 h2 => exact .close (h1.mono hm) h2
  | eof h1 => exact .eof h1
  | fail h1 h2 => exact .fail h1 h2

theorem next_mono {M : Nat} (hm : N ≤ M) {m : Res MS} {s : PS} (h : Next P h0 kids0 N m s) : Next P h0 kids0 M m s := by
  obtain ⟨m, e, h⟩ := h
  exact ⟨m, e, sim_mono hm h⟩

/-- The three names that end the name loop at once (1590-1592). -/
theorem afterName_special {pc : MPC} {h : Heap}
    {p f : Option Nat} {o : Bool} {b : CBuf} {ppc : PC} {st : List Frame} {root : Option Node} {lk : Option Nat}
    {s : Bytes} (hb : Rep b s N) (C : Core P h0 kids0 h p f st root none lk) (ch : Option Nat)
    (hs : s = b! "?" ∨ s = b! "!--" ∨ s = Node.cdataOpen) :
    Next P h0 kids0 N (MS.afterName A ⟨pc, h, p, f, o, some b, none, none⟩ ch)
      (PS.afterName ⟨ppc, st, root, o⟩ s ch) := by
  have hz : (0 : UInt8) ∉ s := by
    rcases hs with rfl | rfl | rfl <;> decide
  obtain ⟨b', e, hb', hstr, _, hl⟩ := rep_stop hb
  unfold MS.afterName PS.afterName
  simp only [MS.onBuf, live, Res.ok_bind, e]
  rw [hstr.str, cstr_id hz, Res.ok_bind, hl, Res.ok_bind]
  rcases hs with rfl | rfl | rfl
  · exact next_ok (.run (.pi hb' hz) C)
  · exact next_ok (.run (.comment hb' hz) C)
  · exact next_ok (.run (.cdata hb' hz (by decide)) C)

theorem afterName_next (hA : ∀ h kids, Linked h kids → h (A h) = none) {pc : MPC} {h : Heap}
    {p f : Option Nat} {o : Bool} {b : CBuf} {ppc : PC} {st : List Frame} {root : Option Node} {lk : Option Nat}
    {s : Bytes} (hb : Rep b s N) (hz : (0 : UInt8) ∉ s) (C : Core P h0 kids0 h p f st root none lk) (ch : Option Nat)
    (hch : ch ≠ some 0) (hN : N + 1100 ≤ 2147483647) :
    Next P h0 kids0 (N + 4) (MS.afterName A ⟨pc, h, p, f, o, some b, none, none⟩ ch)
      (PS.afterName ⟨ppc, st, root, o⟩ s ch) := by
  obtain ⟨b', e, hb', hstr, _, hl⟩ := rep_stop hb
  unfold MS.afterName PS.afterName
  simp only [MS.onBuf, live, Res.ok_bind, e]
  rw [hstr.str, cstr_id hz, Res.ok_bind, hl, Res.ok_bind]
  have hm : N ≤ N + 4 := by omega
  by_cases e1 : s = b! "!--"
  · rw [if_pos e1, if_pos e1]
    exact next_ok (.run (.comment (hb'.mono hm) hz) C)
  rw [if_neg e1, if_neg e1]
  by_cases e2 : s = Node.cdataOpen
  · rw [if_pos e2, if_pos e2]
    exact next_ok (.run (.cdata (hb'.mono hm) hz (by rw [e2]; decide)) C)
  rw [if_neg e2, if_neg e2]
  have hh : ∀ v : UInt8, v ≠ 0 → (((s ++ [0]).headD 0 = v) ↔ s.head? = some v) := by
    intro v hv
    cases s with
    | nil => simp [hv.symm]
    | cons a s => simp
  by_cases e3 : s.head? = some 63
  · rw [if_pos ((hh 63 (by decide)).mpr e3), if_pos e3]
    exact next_ok (.run (.pi (hb'.mono hm) hz) C)
  rw [if_neg (fun x => e3 ((hh 63 (by decide)).mp x)), if_neg e3]
  by_cases e4 : s.head? = some 33
  · rw [if_pos ((hh 33 (by decide)).mpr e4), if_pos e4]
    exact declBody_next hA hN hb' hz C ch hch
  rw [if_neg (fun x => e4 ((hh 33 (by decide)).mp x)), if_neg e4]
  by_cases e5 : s.head? = some 47
  · rw [if_pos ((hh 47 (by decide)).mpr e5), if_pos e5, (core_null C).1]
    cases st with
    | nil => exact error_next C
    | cons g fs => exact next_mono hm (checkClose_next hb'.toAny C s ch)
  rw [if_neg (fun x => e5 ((hh 47 (by decide)).mp x)), if_neg e5, second_eq (ppc := ppc) C]
  by_cases hsec : PS.secondRoot ⟨ppc, st, root, o⟩ = true
  · rw [if_pos hsec, if_pos hsec]; exact error_next C
  · rw [if_neg hsec, if_neg hsec]
    exact next_mono hm (element_next hA hb'.toAny C (by simpa using hsec) s ch)

theorem hasAttr_eq {pc : MPC} {h : Heap} {p f : Option Nat} {o : Bool} {b a v : Option CBuf} {st : List Frame}
    {root : Option Node} {n : Nat} {e : Head} {lk : Option Nat}
    (C : Core P h0 kids0 h p f st root (some (n, .elem e.1 e.2)) lk) (t : Bytes) :
    MS.hasAttr ⟨pc, h, p, f, o, b, a, v⟩ n t = .ok (Node.findAttr t e.2).isSome := by
  obtain ⟨c, hc, hd, _⟩ := core_attr C
  simp [MS.hasAttr, Links.get, hc, hd]

theorem afterAttrName_next {pc : MPC} {h : Heap} {p f : Option Nat} {o : Bool} {b a v : CBuf} {ppc : PC}
    {st : List Frame} {root : Option Node} {n : Nat} {e : Head} {an : Bytes}
    (hb : Any b N) (ha : Rep a an N) (hv : Any v N)
    (C : Core P h0 kids0 h p f st root (some (n, .elem e.1 e.2)) none) (ch : Option Nat)
    (hP : st = [] → (PS.afterAttrName ⟨ppc, st, root, o⟩ e an ch).pc = .done none → P) :
    Next P h0 kids0 N (MS.afterAttrName ⟨pc, h, p, f, o, some b, some a, some v⟩ n ch)
      (PS.afterAttrName ⟨ppc, st, root, o⟩ e an ch) := by
  obtain ⟨a', ea, ha', hstr, _⟩ := rep_stop ha
  unfold MS.afterAttrName PS.afterAttrName
  simp only [MS.onName, live, Res.ok_bind, ea]
  rw [hstr.str, Res.ok_bind, hasAttr_eq C, Res.ok_bind]
  by_cases e1 : (Node.findAttr (cstr an) e.2).isSome = true
  · rw [if_pos e1, if_pos e1]; exact attrError_next C (fun a => hP a (by simp [PS.afterAttrName, PS.error, e1]))
  · rw [if_neg e1, if_neg e1]
    cases ch with
    | none => exact attrError_next C (fun a => hP a (by simp [PS.afterAttrName, PS.error]))
    | some c =>
      dsimp only
      by_cases e2 : isSpace c = true
      · rw [if_pos e2, if_pos e2]; exact next_ok (.run (.aeq hb hstr hv) C)
      · rw [if_neg e2, if_neg e2]
        by_cases e3 : c = 61
        · rw [if_pos e3, if_pos e3]; exact next_ok (.run (.vskip hb hstr hv) C)
        · rw [if_neg e3, if_neg e3]; exact attrError_next C (fun a => hP a (by simp [PS.afterAttrName, PS.error, e2, e3]))

theorem setAttr_eq {pc : MPC} {h : Heap} {p f : Option Nat} {o : Bool} {b a v : Option CBuf} {st : List Frame}
    {root : Option Node} {n : Nat} {e : Head} {lk : Option Nat}
    (C : Core P h0 kids0 h p f st root (some (n, .elem e.1 e.2)) lk) (an av : Bytes) :
    ∃ h', MS.setAttr ⟨pc, h, p, f, o, b, a, v⟩ n an av = .ok ⟨pc, h', p, f, o, b, a, v⟩ ∧
      Core P h0 kids0 h' p f st root (some (n, .elem e.1 (Node.setAttrList an (some av) e.2))) lk := by
  obtain ⟨c, hc, hd, hset⟩ := core_attr C
  refine ⟨_, ?_, hset _⟩
  simp [MS.setAttr, upd, deref, Links.get, hc, hd]

theorem afterValue_next {pc : MPC} {h : Heap} {p f : Option Nat} {o : Bool} {b a v : CBuf} {ppc : PC}
    {st : List Frame} {root : Option Node} {n : Nat} {e : Head} {an av : Bytes}
    (hb : Any b N) (ha : Str a an N) (hv : Rep v av N)
    (C : Core P h0 kids0 h p f st root (some (n, .elem e.1 e.2)) none) (ch : Option Nat) :
    Next P h0 kids0 N (MS.afterValue ⟨pc, h, p, f, o, some b, some a, some v⟩ n ch)
      (PS.afterValue ⟨ppc, st, root, o⟩ e an av ch) := by
  obtain ⟨v', ev, hv', hstr, _⟩ := rep_stop hv
  unfold MS.afterValue PS.afterValue
  simp only [MS.onValue, live, Res.ok_bind, ev]
  rw [ha.str, Res.ok_bind, hstr.str, Res.ok_bind]
  obtain ⟨h', es, C'⟩ := setAttr_eq (pc := pc) (b := some b) (a := some a) (v := some v') (o := o) C an (cstr av)
  rw [es, Res.ok_bind]
  have hA := ha.toAny
  have hV := hv'.toAny
  cases ch with
  | none => exact next_ok (.run (.attr (e := (e.1, _)) hb hA hV) C')
  | some c =>
    dsimp only
    by_cases e1 : c = 47 ∨ c = 63
    · rw [if_pos e1, if_pos e1]; exact next_ok (.run (.valSlash (e := (e.1, _)) hb hA hV) C')
    · rw [if_neg e1, if_neg e1]
      by_cases e2 : c = 62
      · rw [if_pos e2, if_pos e2]; exact attrEnd_next (e := (e.1, _)) hb C' c
      · rw [if_neg e2, if_neg e2]; exact next_ok (.run (.attr (e := (e.1, _)) hb hA hV) C')

theorem entError_next {k : MPC} {k' : PC} {pc : MPC} {h : Heap} {p f : Option Nat} {o : Bool} {b a v : Option CBuf}
    {ppc : PC} {st : List Frame} {root : Option Node} {hd : Option (Nat × Data)} {lk : Option Nat}
    (R : PcRel N k k' b a v hd lk) (hr : Resumes k') (C : Core P h0 kids0 h p f st root hd lk) (hP : hd ≠ none → st = [] → P) :
    Next P h0 kids0 N (MS.entError ⟨pc, h, p, f, o, b, a, v⟩ k) (PS.error ⟨ppc, st, root, o⟩) := by
  cases R <;> first
    | exact hr.elim
    | exact error_next C
    | exact attrError_next C (hP (by simp))

theorem resume_next {k : MPC} {k' : PC} {pc : MPC} {h : Heap} {p f : Option Nat} {o : Bool} {b a v : Option CBuf}
    {ppc : PC} {st : List Frame} {root : Option Node} {hd : Option (Nat × Data)} {lk : Option Nat}
    (R : PcRel N k k' b a v hd lk) (hr : Resumes k') (C : Core P h0 kids0 h p f st root hd lk) 
    (hN : N + 1100 ≤ 2147483647) (c : Nat) (hc : c ≠ 0)
    (hP : hd ≠ none → st = [] → (Xml.resume ⟨ppc, st, root, o⟩ k' c).pc = .done none → P) :
    Next P h0 kids0 (N + 4) (MS.resume ⟨pc, h, p, f, o, b, a, v⟩ k c) (Xml.resume ⟨ppc, st, root, o⟩ k' c) := by
  have hm : N ≤ N + 4 := by omega
  cases R with
  | main h1 h2 =>
    obtain ⟨b', e, hb'⟩ := rep_add c h1 hN
    simp only [MS.resume, Xml.resume, MS.onBuf, live, Res.ok_bind, e]
    exact next_ok (.run (.main hb' (nz_add h2 hc)) C)
  | name h1 h2 =>
    obtain ⟨b', e, hb'⟩ := rep_add c h1 hN
    simp only [MS.resume, Xml.resume, MS.onBuf, live, Res.ok_bind, e]
    exact next_ok (.run (.name hb' (nz_add h2 hc)) C)
  | decl h1 h2 =>
    obtain ⟨b', e, hb'⟩ := rep_add c h1 hN
    simp only [MS.resume, Xml.resume, MS.onBuf, live, Res.ok_bind, e]
    exact next_ok (.run (.decl hb' (nz_add h2 hc)) C)
  | @qname b1 a1 v1 n q e an h1 h2 h3 =>
    obtain ⟨a', ea, ha'⟩ := rep_add c h2 hN
    simp only [MS.resume, Xml.resume, MS.onName, live, Res.ok_bind, ea]
    by_cases eq : c = q
    · rw [if_pos eq, if_pos eq]; exact afterAttrName_next (h1.mono hm) ha' (h3.mono hm) C _ (fun x y => hP (by simp) x (by rw [Xml.resume, if_pos eq]; exact y))
    · rw [if_neg eq, if_neg eq]; exact next_ok (.run (.qname (h1.mono hm) ha' (h3.mono hm)) C)
  | aname h1 h2 h3 =>
    obtain ⟨a', ea, ha'⟩ := rep_add c h2 hN
    simp only [MS.resume, Xml.resume, MS.onName, live, Res.ok_bind, ea]
    exact next_ok (.run (.aname (h1.mono hm) ha' (h3.mono hm)) C)
  | qval h1 h2 h3 =>
    obtain ⟨a', ea, ha'⟩ := rep_add c h3 hN
    simp only [MS.resume, Xml.resume, MS.onValue, live, Res.ok_bind, ea]
    exact next_ok (.run (.qval (h1.mono hm) (h2.mono hm) ha') C)
  | uval h1 h2 h3 =>
    obtain ⟨a', ea, ha'⟩ := rep_add c h3 hN
    simp only [MS.resume, Xml.resume, MS.onValue, live, Res.ok_bind, ea]
    exact next_ok (.run (.uval (h1.mono hm) (h2.mono hm) ha') C)
  | comment => exact hr.elim
  | cdata => exact hr.elim
  | pi => exact hr.elim
  | slash => exact hr.elim
  | attr => exact hr.elim
  | attrSlash => exact hr.elim
  | aeq => exact hr.elim
  | vskip => exact hr.elim
  | valSlash => exact hr.elim
  | ent => exact hr.elim

theorem entChar_nz {c : Nat} (h : isEntChar c = true) : UInt8.ofNat c ≠ 0 := by
  intro e
  have := congrArg UInt8.toNat e
  simp at this
  unfold isEntChar at h
  simp at h
  omega

theorem entity_next {k : MPC} {k' : PC} {pc : MPC} {h : Heap} {p f : Option Nat} {o : Bool} {b a v : Option CBuf}
    {st : List Frame} {root : Option Node} {hd : Option (Nat × Data)} {lk : Option Nat} {e : CBuf} {acc : Bytes}
    (R : PcRel N k k' b a v hd lk) (hr : Resumes k') (C : Core P h0 kids0 h p f st root hd lk) (he : Ent e acc)
    (hz : (0 : UInt8) ∉ acc) (hN : N + 1100 ≤ 2147483647) (ch : Option Nat)
    (hP : hd ≠ none → st = [] → (Xml.step ⟨.ent k' acc, st, root, o⟩ ch).pc = .done none → P) :
    Next P h0 kids0 (N + 4) (MS.entity ⟨pc, h, p, f, o, b, a, v⟩ k e ch) (Xml.step ⟨.ent k' acc, st, root, o⟩ ch) := by
  have hm : N ≤ N + 4 := by omega
  obtain ⟨e', es, estr⟩ := ent_stop he
  rw [cstr_id hz] at estr
  unfold MS.entity Xml.step
  cases ch with
  | none =>
    simp only [es, Res.ok_bind]
    exact next_mono hm (entError_next R hr C (fun a b => hP a b (by simp [Xml.step, PS.error])))
  | some c =>
    dsimp only
    by_cases e1 : isEntChar c = true
    · rw [if_pos e1, if_pos e1, he.ptr]
      by_cases e2 : acc.length < 63
      · rw [if_pos e2, if_pos e2]
        obtain ⟨e2, ep, he2⟩ := ent_push (UInt8.ofNat c) he e2
        rw [ep, Res.ok_bind]
        exact next_ok (.run (.ent (R.mono hm) hr he2 (by
          simp only [List.mem_append, List.mem_singleton, not_or]
          exact ⟨hz, (entChar_nz e1).symm⟩)) C)
      · rw [if_neg e2, if_neg e2, es, Res.ok_bind]
        exact next_mono hm (entError_next R hr C (fun a b => hP a b (by simp [Xml.step, PS.error, e1, e2])))
    · rw [if_neg e1, if_neg e1, es, Res.ok_bind]
      by_cases e2 : c = 59
      · rw [if_pos e2, if_pos e2, estr, Res.ok_bind]
        cases ec : entityChar acc with
        | none => exact next_mono hm (entError_next R hr C (fun a b => hP a b (by
            unfold Xml.step; dsimp only; rw [if_neg e1, if_pos e2, ec]; rfl)))
        | some v =>
          exact resume_next R hr C hN v (entityChar_ne ec) (fun a b y => hP a b (by
            unfold Xml.step; dsimp only; rw [if_neg e1, if_pos e2, ec]; exact y))
      · rw [if_neg e2, if_neg e2]
        exact next_mono hm (entError_next R hr C (fun a b => hP a b (by simp [Xml.step, PS.error, e1, e2])))

end

end Afs.ParseMem
