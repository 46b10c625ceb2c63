import Verif.Proof.RefsLoad
/-!
# Loading: parts that are assigned
-/
namespace Afs.Refs
open Afs.Spec

theorem find_erase {l : List Nat} {o : Nat} {q : Nat → Bool} (h : q o = false) : (l.erase o).find? q = l.find? q := by
  induction l with
  | nil => rfl
  | cons a l ih =>
    rw [List.erase_cons]
    split
    · rename_i e
      have e : a = o := by simpa using e
      subst e
      rw [List.find?_cons, h]
    · rw [List.find?_cons, List.find?_cons, ih]

/-- Of type `k` in the heap. -/
def isKind (h : Heap) (k : Kind) (a : Nat) : Bool := match h.cells a with | some c => c.kind == k | none => false

theorem part_eq {h : Heap} {p : Nat} {d : Cell} (hd : h.cells p = some d) (k : Kind) : part h p k = d.kids.find? (isKind h k) := by
  unfold part; rw [hd]; rfl

theorem find_congr {l : List Nat} {q q' : Nat → Bool} (h : ∀ a ∈ l, q a = q' a) : l.find? q = l.find? q' := by
  induction l with
  | nil => rfl
  | cons a l ih =>
    rw [List.find?_cons, List.find?_cons, h a List.mem_cons_self, ih fun b hb => h b (List.mem_cons_of_mem _ hb)]

theorem set_set (h : Heap) (p : Nat) (c c' : Cell) : (h.set p c).set p c' = h.set p c' := by
  unfold Heap.set
  congr 1
  funext x
  dsimp only
  split <;> rfl

/-- The list without the pointer that is overwritten. -/
def without (l : List Nat) (old : Option Nat) : List Nat := match old with | none => l | some o => l.erase o

theorem mem_without {l : List Nat} {old : Option Nat} {a : Nat} (h : a ∈ without l old) : a ∈ l := by
  unfold without at h
  split at h
  · exact h
  · exact List.mem_of_mem_erase h

theorem overwrite_ok {h : Heap} {L : List Nat} {p m : Nat} {d c : Cell} (hi : Inv h (m :: L) []) (hd : h.cells p = some d) (hm : h.cells m = some c)
    (ho : d.kind.owns c.kind = true) (old : Option Nat) (hold : ∀ o, old = some o → o ∈ d.kids) :
    ∃ lo, overwrite h p old m = .ok (h.set p { d with kids := without d.kids old ++ [m] }, lo) ∧
      Inv (h.set p { d with kids := without d.kids old ++ [m] }) (lo ++ L) [] ∧
      lo = old.toList := by
  cases old with
  | none =>
    obtain ⟨a1, a2⟩ := append_ok hi hd hm ho
    exact ⟨[], by unfold overwrite; dsimp only; rw [a1]; rfl, a2, rfl⟩
  | some o =>
    have hu := unlink_ok hi hd (hold o rfl)
    have e1 : unlink h p o = h.set p { d with kids := d.kids.erase o } := by unfold unlink; rw [hd]
    have hd1 : (unlink h p o).cells p = some { d with kids := d.kids.erase o } := by rw [e1, set_cells, if_pos rfl]
    have hpm : ∃ c', (unlink h p o).cells m = some c' ∧ c'.kind = c.kind := by
      rw [e1, set_cells]
      split
      · rename_i e; subst e; rw [hd] at hm; injection hm with hm; subst hm; exact ⟨_, rfl, rfl⟩
      · exact ⟨c, hm, rfl⟩
    obtain ⟨c', hc', hk'⟩ := hpm
    have hi2 : Inv (unlink h p o) (m :: ([o] ++ L)) [] := hu.congr fun x => by simp only [List.count_append, List.count_cons, List.count_nil]; omega
    obtain ⟨a1, a2⟩ := append_ok hi2 hd1 hc' (by rw [hk']; exact ho)
    refine ⟨[o], ?_, ?_, rfl⟩
    · unfold overwrite
      dsimp only
      rw [a1, e1, set_set]
      rfl
    · have := a2
      rw [e1, set_set] at this
      exact this

/-- Kinds of old objects do not change. -/
theorem Grown.kinds {h h' : Heap} {p : Nat} (hg : Grown h p h') {d : Cell} (hd : h.cells p = some d) {x : Nat} (hx : x < h.next) (k : Kind) :
    isKind h' k x = isKind h k x := by
  unfold isKind
  by_cases e : x = p
  · subst e
    obtain ⟨ks, e1, -⟩ := hg.self d hd
    rw [e1, hd]
  · rw [hg.old x hx e]

theorem isKind_set {h : Heap} {p : Nat} {d : Cell} (hd : h.cells p = some d) (ks : List Nat) (k : Kind) (x : Nat) :
    isKind (h.set p { d with kids := ks }) k x = isKind h k x := by
  unfold isKind
  rw [set_cells]
  by_cases e : x = p
  · subst e; rw [if_pos rfl, hd]
  · rw [if_neg e]

theorem part_isKind {h : Heap} {p o : Nat} {k : Kind} {d : Cell} (hd : h.cells p = some d) (ho : part h p k = some o) :
    o ∈ d.kids ∧ isKind h k o = true := by
  rw [part_eq hd] at ho
  exact ⟨List.mem_of_find?_eq_some ho, List.find?_some ho⟩

theorem isKind_ne {h : Heap} {k k' : Kind} {a : Nat} (h1 : isKind h k a = true) (hn : k' ≠ k) : isKind h k' a = false := by
  unfold isKind at *
  split at h1
  · rename_i c hc
    have : c.kind = k := by simpa using h1
    simp [this, Ne.symm hn]
  · cases h1

theorem live_lt {h : Heap} {L : List Nat} (hi : Inv h L []) {p a : Nat} {d : Cell} (hd : h.cells p = some d) (ha : a ∈ d.kids) : a < h.next := by
  obtain ⟨-, c, hc, -⟩ := hi.kids p d hd (by simp) a ha
  exact hi.lt hc

/-- The part of type `k` of an object that has grown by reassigning other parts. -/
theorem part_reassigned {h h' : Heap} {L : List Nat} {p m : Nat} {d : Cell} {k k' : Kind} (hi : Inv h L []) (hd : h.cells p = some d)
    (hg : Grown h p h') (hp' : h'.cells p = some d) (hm : isKind h' k m = true) (hne : k' ≠ k) (old : Option Nat)
    (hold : ∀ o, old = some o → isKind h k o = true ∧ o < h.next) :
    part (h'.set p { d with kids := without d.kids old ++ [m] }) p k' = part h p k' := by
  rw [part_eq hd, part_eq (d := { d with kids := without d.kids old ++ [m] }) (by rw [set_cells, if_pos rfl])]
  dsimp only
  have hq : isKind (h'.set p { d with kids := without d.kids old ++ [m] }) k' = isKind h' k' := by
    funext x; exact isKind_set hp' _ k' x
  rw [hq, List.find?_append, List.find?_cons, isKind_ne hm hne, List.find?_nil, Option.or_none]
  cases old with
  | none => exact find_congr fun a ha => hg.kinds hd (live_lt hi hd ha) k'
  | some o =>
    obtain ⟨h1, h2⟩ := hold o rfl
    unfold without
    dsimp only
    rw [find_erase (by rw [hg.kinds hd h2]; exact isKind_ne h1 hne)]
    exact find_congr fun a ha => hg.kinds hd (live_lt hi hd ha) k'

theorem part_loads {α : Type} {k kc : Kind} (hown : k.owns kc = true) {load : Heap → Nat → α → Res Loaded} {ok : α → Bool} {n : α → Nat}
    (hl : ∀ x, LoadsNew kc load x (ok x) (n x)) (plan : Option α) {h : Heap} {L : List Nat} {p : Nat} {d : Cell} (hi : Inv h L []) (hs : Small h)
    (hd : h.cells p = some d) (hk : d.kind = k) :
    ∃ r, loadPart kc load h p plan = .ok r ∧ Inv r.heap (r.lost ++ L) [] ∧ Grown h p r.heap ∧ r.ok = ifThere true ok plan ∧
      r.lost.length = ifThere 0 (fun x => n x + if ok x then has h p kc else 0) plan ∧ ∀ k', k' ≠ kc → part r.heap p k' = part h p k' := by
  cases plan with
  | none => exact ⟨⟨h, true, []⟩, rfl, hi, Grown.refl hi p, rfl, rfl, fun _ _ => rfl⟩
  | some x =>
    have hp := hi.lt hd
    obtain ⟨r, c, h1, h2, h3, h4, h5, h6, h7, h8, h9⟩ := child_loads (hl x) hi hs hd
    unfold loadPart ifThere
    dsimp only
    rw [h1, Res.ok_bind]
    cases hok : ok x with
    | false =>
      rw [if_pos (h5.trans hok)]
      obtain ⟨hf, hf1, hf2, hf3⟩ := free_shrinks h2 h4
      rw [hf1, Res.ok_bind]
      have g := h3.freed hp (Nat.le_refl _) hf1 hf2 hf3
      refine ⟨_, rfl, hf2, g, rfl, by simp [h6], fun k' _ => ?_⟩
      have hcl : Closed r.heap (fun x => h.next ≤ x) := fun x d hd hx => (h3.new x d hx hd).2
      obtain ⟨-, hout⟩ := freeObj_frame (fun x => h.next ≤ x) maxDepth r.heap h.next hf hcl (Nat.le_refl _) hf1
      have e : hf.cells p = some d := by rw [hout p (by omega), h9]
      dsimp only
      rw [part_eq hd, part_eq e]
      exact find_congr fun a ha => g.kinds hd (live_lt hi hd ha) k'
    | true =>
      rw [if_neg (by rw [h5, hok]; simp)]
      have hpart : part r.heap p kc = part h p kc := by
        rw [part_eq hd, part_eq h9]
        exact find_congr fun a ha => h3.kinds hd (live_lt hi hd ha) kc
      have hold : ∀ o, part r.heap p kc = some o → o ∈ d.kids := fun o ho => (part_isKind h9 ho).1
      obtain ⟨lo, o1, o2, o3⟩ := overwrite_ok h2 h9 h7 (by rw [hk, h8]; exact hown) (part r.heap p kc) hold
      rw [o1, Res.ok_bind]
      dsimp only
      refine ⟨_, rfl, ?_, ?_, rfl, ?_, fun k' hne => ?_⟩
      · refine o2.congr (L' := (r.lost ++ lo) ++ L) fun a => ?_
        simp only [List.count_append]; omega
      · refine h3.setKids hp h9 fun a ha => ?_
        rcases List.mem_append.mp ha with hx | hx
        · exact .inl (mem_without hx)
        · rw [List.mem_singleton] at hx; exact .inr (by omega)
      · rw [List.length_append, h6, o3, hpart]
        rw [if_pos rfl, has]
        cases part h p kc <;> rfl
      · rw [hpart]
        refine part_reassigned hi hd h3 h9 ?_ hne _ fun o ho => ?_
        · unfold isKind; rw [h7]; simp [h8]
        · obtain ⟨a, b⟩ := part_isKind hd ho
          exact ⟨b, live_lt hi hd a⟩

theorem file_loads (plan : Option FilePlan) : Loads .file loadFile plan (fileOk plan) (fileLostAt plan) := by
  intro h L p d hi hs hd hk
  unfold loadFile
  rw [hd]
  cases plan with
  | none => exact ⟨_, rfl, hi, Grown.refl hi p, rfl, rfl⟩
  | some x =>
    dsimp only
    obtain ⟨r, r1, r2, r3, r4, r5, r6⟩ := part_loads (kc := .preview) rfl (fun l => (preview_loads l).toNew fun _ _ _ => rfl) x.preview hi hs hd hk
    rw [r1, Res.ok_bind]
    have e1 : fileOk (some x) = (ifThere true leavesOk x.preview && ifThere true leavesOk x.metadata) := rfl
    rw [e1]
    unfold fileLostAt
    dsimp only
    cases hv : ifThere true leavesOk x.preview with
    | false =>
      rw [if_pos (r4.trans hv)]
      exact ⟨r, rfl, r2, r3, by rw [r4, hv]; rfl, by rw [r5, if_pos rfl]; rfl⟩
    | true =>
      rw [if_neg (by rw [r4, hv]; simp), if_neg (by simp)]
      obtain ⟨ks, e2, -⟩ := r3.self d hd
      obtain ⟨s, s1, s2, s3, s4, s5, -⟩ := part_loads (kc := .fileMeta) rfl (fun l => (fileMeta_loads l).toNew fun _ _ _ => leavesLost_true l) x.metadata r2
        (r3.small hs hd) e2 hk
      rw [s1, Res.ok_bind]
      refine ⟨_, rfl, s2.congr fun a => by simp only [List.count_append]; omega, r3.trans (hi.lt hd) s3, by dsimp only; rw [s4]; rfl, ?_⟩
      dsimp only
      rw [List.length_append, r5, s5]
      simp only [has, r6 .fileMeta (by decide), Nat.zero_add]

theorem file_new (plan : Option FilePlan) : LoadsNew .file loadFile plan (fileOk plan) (fileLost plan) :=
  (file_loads plan).toNew fun h p hp => by
    unfold fileLostAt fileLost
    cases plan with
    | none => rfl
    | some x =>
      dsimp only
      rw [has_fresh hp, has_fresh hp]
      cases x.preview with
      | none => cases x.metadata <;> simp [ifThere]
      | some v => cases x.metadata <;> cases hv : leavesOk v <;> simp [ifThere, hv]

theorem files_loads (plan : FilesPlan) : Loads .files loadFiles plan (filesOk plan) (fun _ _ => filesLost plan) := by
  intro h L p d hi hs hd hk
  exact container_loads rfl false file_new (some plan) h L p d hi hs hd hk

/-- A part that is assigned before it is loaded. -/
theorem into_loads {α : Type} {k kc : Kind} (hown : k.owns kc = true) {load : Heap → Nat → α → Res Loaded} {ok : α → Bool} {n : α → Nat}
    (hl : ∀ x, LoadsNew kc load x (ok x) (n x)) (x : α) (old : Option Nat) {h : Heap} {L : List Nat} {p : Nat} {d : Cell} (hi : Inv h L []) (hs : Small h)
    (hd : h.cells p = some d) (hk : d.kind = k) (hold : ∀ o, old = some o → o ∈ d.kids) :
    ∃ r, loadInto kc load h p old x = .ok r ∧ Inv r.heap (r.lost ++ L) [] ∧ Grown h p r.heap ∧ r.ok = ok x ∧
      r.lost.length = n x + (if old.isSome then 1 else 0) ∧
      r.heap.cells p = some { d with kids := without d.kids old ++ [h.next] } ∧
      (∃ ks, r.heap.cells h.next = some ⟨kc, 1, ks⟩) := by
  have hp := hi.lt hd
  have hi1 : Inv (h.alloc kc []).1 (h.next :: L) [] := Inv.alloc (parts := []) hi (by simp)
  have hd1 : (h.alloc kc []).1.cells p = some d := by rw [alloc_old _ _ _ hp, hd]
  obtain ⟨lo, o1, o2, o3⟩ := overwrite_ok hi1 hd1 (alloc_new h kc []) (by rw [hk]; exact hown) old hold
  unfold loadInto
  dsimp only
  rw [o1, Res.ok_bind]
  dsimp only
  generalize hH : ((h.alloc kc []).1.set p { d with kids := without d.kids old ++ [h.next] }) = H at o2 ⊢
  have g1 : Grown h p (h.alloc kc []).1 := Grown.child (h := h) (k := kc) hp (Grown.refl hi1 h.next)
  have g : Grown h p H := by
    rw [← hH]
    refine g1.setKids hp hd1 fun a ha => ?_
    rcases List.mem_append.mp ha with hx | hx
    · exact .inl (mem_without hx)
    · rw [List.mem_singleton] at hx; exact .inr (by omega)
  have hn : H.next = h.next + 1 := by rw [← hH]; rfl
  have hm : H.cells h.next = some ⟨kc, 1, []⟩ := by
    rw [← hH, set_cells, if_neg (by omega), alloc_new]
  obtain ⟨r, r1, r2, r3, r4, r5⟩ := hl x H (lo ++ L) h.next o2 (g.small hs hd) hm
  rw [r1, Res.ok_bind]
  have hHp : H.cells p = some { d with kids := without d.kids old ++ [h.next] } := by
    rw [← hH, set_cells, if_pos rfl]
  have hrp : r.heap.cells p = H.cells p := r3.old p (by omega) (by omega)
  refine ⟨_, rfl, ?_, ?_, r4, ?_, by dsimp only; rw [hrp, hHp], ?_⟩
  · exact r2.congr fun a => by simp only [List.count_append]; omega
  · refine ⟨by have := r3.next; dsimp only; omega, fun y hy hne => ?_, fun y c hy hc => ?_, fun d0 hd0 => ?_⟩
    · dsimp only
      rw [r3.old y (by omega) (by omega), g.old y hy hne]
    · by_cases e : y = h.next
      · subst e
        obtain ⟨ks, e1, k1⟩ := r3.self _ hm
        dsimp only at hc
        rw [e1] at hc
        injection hc with hc
        subst hc
        refine ⟨rfl, fun a ha => ?_⟩
        rcases k1 a ha with h | h
        · cases h
        · omega
      · obtain ⟨h2, h3⟩ := r3.new y c (by omega) hc
        exact ⟨h2, fun a ha => by have := h3 a ha; omega⟩
    · dsimp only
      rw [hrp]
      exact g.self d0 hd0
  · dsimp only
    rw [List.length_append, r5, o3]
    cases old <;> simp <;> omega
  · obtain ⟨ks, e1, -⟩ := r3.self _ hm
    exact ⟨ks, e1⟩

end Afs.Refs
