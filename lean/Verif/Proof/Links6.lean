import Verif.Proof.Links5
/-!
# Links: the writer loop follows the tree
-/
namespace Afs.Links
open Afs Afs.Spec Afs.Xml

theorem isL_nil {h : Heap} {ks : List T} : IsNodes h ks [] ↔ ks = [] := by
  cases ks <;> simp [IsNodes]

theorem isL_cons {h : Heap} {ks : List T} {n : Node} {ns : List Node} (hi : IsNodes h ks (n :: ns)) :
    ∃ t ts, ks = t :: ts ∧ IsNode h t n ∧ IsNodes h ts ns := by
  cases ks with
  | nil => simp [IsNodes] at hi
  | cons t ts => rw [IsNodes] at hi; exact ⟨t, ts, rfl, hi.1, hi.2⟩

mutual
theorem writeLoop_tree {h : Heap} {pcb : PtrCb} {cb : SaveCb} (C : CbMatches h pcb cb) (node : Nat) :
    ∀ (n : Node) (t : T) (anc : List Bytes) (out : Bytes) (col : Nat),
    IsNode h t n → Tied h t → Anc h t.addr anc → node ∉ postL t.kids →
    ∃ m, ∀ k, writeLoop pcb h node (k + m) (.visit (some t.addr)) out col =
      writeLoop pcb h node k (.climb t.addr) (out ++ writeNode cb anc n) (colNode cb anc col n)
  | .text s, .mk a ks, anc, out, col, hi, ht, _, _ => by
    rw [IsNode] at hi
    obtain ⟨hd, rfl⟩ := hi
    rw [Tied] at ht
    obtain ⟨⟨c, hc, hch⟩, _⟩ := ht
    rw [hc] at hd
    simp only [Option.map_some, Option.some.injEq] at hd
    refine ⟨1, fun k => ?_⟩
    rw [writeLoop, T.addr, hc]
    simp only [hch, List.map_nil, List.head?_nil, Option.isSome_none, Bool.false_eq_true, if_false, hd]
    rw [openText, openCol, writeNode, colNode]
  | .elem n as [], .mk a ks, anc, out, col, hi, ht, ha, _ => by
    rw [IsNode, isL_nil] at hi
    obtain ⟨hd, rfl⟩ := hi
    rw [Tied] at ht
    obtain ⟨⟨c, hc, hch⟩, _⟩ := ht
    obtain ⟨f, hf, hp⟩ := C
    have hw := fun w => (hp a anc n as w hd ha).trans (hf anc (.elem n as []) w).symm
    rw [hc] at hd
    simp only [Option.map_some, Option.some.injEq] at hd
    refine ⟨1, fun k => ?_⟩
    rw [writeLoop, T.addr, hc]
    simp only [hch, List.map_nil, List.head?_nil, Option.isSome_none, Bool.false_eq_true, if_false, hd]
    rw [openText, openCol, writeNode, colNode]
    simp only [hw, Bool.false_eq_true, if_false]
  | .elem n as (x :: xs), .mk a ks, anc, out, col, hi, ht, ha, hno => by
    rw [IsNode] at hi
    obtain ⟨hd, hl⟩ := hi
    rw [Tied] at ht
    obtain ⟨⟨c, hc, hch⟩, htl⟩ := ht
    have C' := C
    obtain ⟨f, hf, hp⟩ := C
    have hw := fun w => (hp a anc n as w hd ha).trans (hf anc (.elem n as (x :: xs)) w).symm
    rw [hc] at hd
    simp only [Option.map_some, Option.some.injEq] at hd
    obtain ⟨m, hm⟩ := writeLoop_list C' node (x :: xs) ks a c (n :: anc)
      (out ++ openText pcb a true (.elem n as)) (openCol pcb a true col (.elem n as)) (by simp) hl htl hc
      (fun u hu d h1 h2 => by
        have := Anc.step h1 h2 hc ha
        rw [hd] at this
        exact this) hno
    refine ⟨m + 1, fun k => ?_⟩
    have hks : (ks.map T.addr).head?.isSome = true := by
      obtain ⟨t, ts, rfl, _⟩ := isL_cons hl
      simp
    rw [← Nat.add_assoc, writeLoop, T.addr, hc]
    simp only [hch, hks, if_true, hd]
    rw [hm k, hd, closeText, closeCol, openText, openCol, writeNode, colNode]
    simp only [hw, Data.name, if_true]
    by_cases e : isDirective n = true
    · simp [e]
    · simp [e]
theorem writeLoop_list {h : Heap} {pcb : PtrCb} {cb : SaveCb} (C : CbMatches h pcb cb) (node : Nat) :
    ∀ (ns : List Node) (ts : List T) (p : Nat) (d : Cell) (anc : List Bytes) (out : Bytes) (col : Nat),
    ns ≠ [] → IsNodes h ts ns → TiedL h p ts → h p = some d →
    (∀ u ∈ ts, ∀ c, h u.addr = some c → c.parent = some p → Anc h u.addr anc) → node ∉ postL ts →
    ∃ m, ∀ k, writeLoop pcb h node (k + m) (.visit (ts.map T.addr).head?) out col =
      writeLoop pcb h node k (.climb p)
        (out ++ writeNodes cb anc ns ++ closeText pcb p d.data)
        (closeCol pcb p (colNodes cb anc col ns) d.data)
  | [], _, _, _, _, _, _, hne, _, _, _, _, _ => absurd rfl hne
  | n :: ns, ts, p, d, anc, out, col, _, hi, ht, hp, ha, hno => by
    obtain ⟨t, ts, rfl, hi1, hi2⟩ := isL_cons hi
    rw [TiedL] at ht
    obtain ⟨⟨c, hc, hcp, hcn⟩, ht1, ht2⟩ := ht
    rw [postL, List.mem_append, not_or] at hno
    have hno' : node ∉ postL t.kids := by
      intro hm
      apply hno.1
      cases t
      rw [post]
      exact List.mem_append_left _ hm
    have hne : t.addr ≠ node := fun e => hno.1 (e ▸ addr_mem_post t)
    obtain ⟨m1, hm1⟩ := writeLoop_tree C node n t anc out col hi1 ht1
      (ha t (by simp) c hc hcp) hno'
    cases ns with
    | nil =>
      rw [isL_nil] at hi2
      subst hi2
      refine ⟨m1 + 1, fun k => ?_⟩
      rw [List.map_cons, List.head?_cons, show k + (m1 + 1) = (k + 1) + m1 by omega, hm1 (k + 1), writeLoop, hc]
      simp only [hcn, List.map_nil, List.head?_nil, Option.isSome_none, Bool.false_eq_true, if_false,
        hne, hcp, hp]
      rw [writeNodes, writeNodes, colNodes, colNodes, List.append_nil]
    | cons y ys =>
      obtain ⟨m2, hm2⟩ := writeLoop_list C node (y :: ys) ts p d anc (out ++ writeNode cb anc n)
        (colNode cb anc col n) (by simp) hi2 ht2 hp (fun u hu => ha u (by simp [hu])) hno.2
      refine ⟨m2 + 1 + m1, fun k => ?_⟩
      have hs : (ts.map T.addr).head?.isSome = true := by
        obtain ⟨t, ts, rfl, _⟩ := isL_cons hi2
        simp
      rw [List.map_cons, List.head?_cons, ← Nat.add_assoc, hm1 (k + (m2 + 1)), ← Nat.add_assoc, writeLoop, hc]
      simp only [hcn, hs, if_true]
      rw [hm2 k]
      have e1 : writeNodes cb anc (n :: y :: ys) = writeNode cb anc n ++ writeNodes cb anc (y :: ys) := by
        rw [writeNodes]
      have e2 : colNodes cb anc col (n :: y :: ys) = colNodes cb anc (colNode cb anc col n) (y :: ys) := by
        rw [colNodes]
      rw [e1, e2]
      simp only [List.append_assoc]
end

/-- The writer, started at a node without a next sibling. -/
theorem write_spec {h : Heap} {kids : Nat → List Nat} (L : Linked h kids) {pcb : PtrCb} {cb : SaveCb}
    (C : CbMatches h pcb cb) {t : T} {n : Node} {c : Cell} {anc : List Bytes} (hs : Shape kids t)
    (hi : IsNode h t n) (hc : h t.addr = some c) (hn : c.next = none) (ha : Anc h t.addr anc) :
    ∃ m, ∀ k, m ≤ k → writeLoop pcb h t.addr k (.visit (some t.addr)) [] 0 =
      some (.ok (writeNode cb anc n, colNode cb anc 0 n)) := by
  have ht := tied_of_linked L (by simp [hc]) hs
  have hnd := nodup_post L hs
  have hno : t.addr ∉ postL t.kids := by
    cases t with
    | mk a ks =>
      rw [post, List.nodup_append] at hnd
      exact fun hm => hnd.2.2 a hm a (by simp) rfl
  obtain ⟨m, hm⟩ := writeLoop_tree C t.addr n t anc [] 0 hi ht ha hno
  refine ⟨m + 1, fun k hk => ?_⟩
  have := hm (k - m)
  rw [Nat.sub_add_cancel (by omega)] at this
  rw [this]
  obtain ⟨j, hj⟩ : ∃ j, k - m = j + 1 := ⟨k - m - 1, by omega⟩
  rw [hj, writeLoop, hc]
  simp only [hn, Option.isSome_none, Bool.false_eq_true, if_false, if_true]
  cases j <;> rw [writeLoop] <;> simp

end Afs.Links
