import Verif.Proof.RefsGrow
/-!
# Reference counts: every legal call keeps the invariant
-/
namespace Afs.Refs
open Afs.Spec

/-- Nothing that is allocated goes away or changes its type or count; what is new has
    count 1. -/
structure Keeps (h h' : Heap) : Prop where
  live : ∀ x c, h.cells x = some c → ∃ c', h'.cells x = some c' ∧ c'.kind = c.kind
  rcs : ∀ x c', h'.cells x = some c' → c'.rc = 1 ∨ ∃ c, h.cells x = some c ∧ c'.rc = c.rc

theorem Keeps.refl (h : Heap) : Keeps h h :=
  ⟨fun _ c hc => ⟨c, hc, rfl⟩, fun _ c hc => .inr ⟨c, hc, rfl⟩⟩

theorem Keeps.trans {a b c : Heap} (h1 : Keeps a b) (h2 : Keeps b c) : Keeps a c := by
  refine ⟨fun x d hd => ?_, fun x d hd => ?_⟩
  · obtain ⟨d1, e1, k1⟩ := h1.live x d hd
    obtain ⟨d2, e2, k2⟩ := h2.live x d1 e1
    exact ⟨d2, e2, by rw [k2, k1]⟩
  · rcases h2.rcs x d hd with h | ⟨d1, e1, r1⟩
    · exact .inl h
    · rcases h1.rcs x d1 e1 with h | ⟨d2, e2, r2⟩
      · exact .inl (by rw [r1, h])
      · exact .inr ⟨d2, e2, by rw [r1, r2]⟩

theorem Extends.keeps {h h' : Heap} {L : List Nat} (hi : Inv h L []) (he : Extends h h') :
    Keeps h h' := by
  refine ⟨fun x c hc => ⟨c, by rw [he.old x (hi.lt hc)]; exact hc, rfl⟩, fun x c hc => ?_⟩
  by_cases hx : x < h.next
  · rw [he.old x hx] at hc
    exact .inr ⟨c, hc, rfl⟩
  · exact .inl (he.new x c (by omega) hc).1

theorem keeps_alloc {h : Heap} {L : List Nat} (hi : Inv h L []) (k : Kind) (parts : List Nat) :
    Keeps h (h.alloc k parts).1 := by
  refine ⟨fun x c hc => ⟨c, ?_, rfl⟩, fun x c hc => ?_⟩
  · show (if x = h.next then _ else h.cells x) = _
    rw [if_neg (by have := hi.lt hc; omega)]
    exact hc
  · change (if x = h.next then some (⟨k, 1, parts⟩ : Cell) else h.cells x) = some c at hc
    split at hc
    · cases hc; exact .inl rfl
    · exact .inr ⟨c, hc, rfl⟩

theorem keeps_set {h : Heap} {p : Nat} {d : Cell} (hd : h.cells p = some d) (ks : List Nat) :
    Keeps h (h.set p { d with kids := ks }) := by
  refine ⟨fun x c hc => ?_, fun x c hc => ?_⟩
  · rw [set_cells]
    split
    · rename_i e
      subst e
      rw [hd] at hc
      cases hc
      exact ⟨_, rfl, rfl⟩
    · exact ⟨c, hc, rfl⟩
  · rw [set_cells] at hc
    split at hc
    · rename_i e
      subst e
      cases hc
      exact .inr ⟨d, hd, rfl⟩
    · exact .inr ⟨c, hc, rfl⟩

theorem clone_ok {h : Heap} {L : List Nat} {a : Nat} {c : Cell} (hi : Inv h L [])
    (hc : h.cells a = some c) :
    ∃ h' m d, clone h a = .ok (h', m) ∧ Inv h' (m :: L) [] ∧ Extends h h' ∧
      h.next ≤ m ∧ h'.cells m = some d ∧ d.kind = c.kind ∧
      ∀ depth, appearance depth h' m = appearance depth h a :=
  cloneObj_ok maxDepth h a c L hi hc (level_lt c.kind)

theorem part_some {h : Heap} {p m : Nat} {k : Kind} {d : Cell} (hd : h.cells p = some d)
    (hp : part h p k = some m) : m ∈ d.kids ∧ ∃ e, h.cells m = some e ∧ e.kind = k := by
  rw [part, hd] at hp
  simp only at hp
  refine ⟨List.mem_of_find?_eq_some hp, ?_⟩
  have := List.find?_some hp
  revert this
  cases h.cells m with
  | none => simp
  | some e => intro he; exact ⟨e, rfl, by simpa using he⟩

theorem ensurePart_ok {h : Heap} {L : List Nat} {p : Nat} {d : Cell} {k : Kind}
    (hi : Inv h L []) (hd : h.cells p = some d) (ho : d.kind.owns k = true) :
    ∃ h' m e, ensurePart h p k = .ok (h', m) ∧ Inv h' L [] ∧ h'.cells m = some e ∧ e.kind = k ∧
      Keeps h h' := by
  rw [ensurePart, hd]
  simp only
  cases hp : part h p k with
  | some m =>
    obtain ⟨_, e, he, hk⟩ := part_some hd hp
    exact ⟨h, m, e, rfl, hi, he, hk, Keeps.refl h⟩
  | none =>
    have h0 : Inv h ([] ++ L) [] := hi
    have h1 := Inv.alloc (k := k) h0 (fun a ha => by cases ha)
    have hd1 : (h.alloc k []).1.cells p = some d := by
      show (if p = h.next then _ else h.cells p) = _
      rw [if_neg (by have := hi.lt hd; omega)]
      exact hd
    have hm : (h.alloc k []).1.cells (h.alloc k []).2 = some ⟨k, 1, []⟩ := by
      show (if h.next = h.next then _ else _) = _
      rw [if_pos rfl]
    obtain ⟨_, h2⟩ := append_ok h1 hd1 hm ho
    have hK := (keeps_alloc hi k []).trans (keeps_set hd1 (d.kids ++ [(h.alloc k []).2]))
    obtain ⟨e, he, hek⟩ := (keeps_set hd1 (d.kids ++ [(h.alloc k []).2])).live _ _ hm
    exact ⟨_, _, e, rfl, h2, he, hek, hK⟩

theorem addInner_ok {h : Heap} {L : List Nat} {p c : Nat} {d e : Cell} {k : Kind}
    (hi : Inv h (c :: L) []) (hd : h.cells p = some d) (hc : h.cells c = some e)
    (ho : d.kind.owns k = true) (ho' : k.owns e.kind = true) (o : Outcome) :
    ∃ h', addInner h p k c o = .ok h' ∧ Keeps h h' ∧
      Inv h' (if o = .accepted then L else c :: L) [] := by
  rw [addInner.eq_def, hd, hc]
  simp only
  cases o with
  | refused => exact ⟨h, rfl, Keeps.refl h, hi⟩
  | refusedByInner =>
    obtain ⟨h', m, f, h1, h2, h3, h4, h5⟩ := ensurePart_ok hi hd ho
    exact ⟨h', by simp only [h1, Res.ok_bind], h5, h2⟩
  | accepted =>
    obtain ⟨h', m, f, h1, h2, h3, h4, h5⟩ := ensurePart_ok hi hd ho
    obtain ⟨e', he', hk'⟩ := h5.live c e hc
    obtain ⟨h6, h7⟩ := append_ok h2 h3 he' (by rw [h4, hk']; exact ho')
    refine ⟨_, by simp only [h1, Res.ok_bind, h6], h5.trans (keeps_set h3 _), h7⟩

theorem addClones_ok : ∀ (ds : List Nat) (oks : List Bool) (h : Heap) (L : List Nat) (t : Nat)
    (dt : Cell), Inv h L [] → (∀ x c, h.cells x = some c → c.rc ≤ INT_MAX) →
    h.cells t = some dt → dt.kind = .tocData →
    (∀ x, x ∈ ds → ∃ c, h.cells x = some c ∧ c.kind = .layoutDef) →
    ∃ h' b, addClones h t ds oks = .ok (h', b) ∧ Inv h' L [] ∧
      ∀ x c', h'.cells x = some c' → c'.rc ≤ 1 ∨ ∃ c, h.cells x = some c ∧ c'.rc ≤ c.rc := by
  intro ds
  induction ds with
  | nil =>
    intro oks h L t dt hi _ _ _ _
    exact ⟨h, true, rfl, hi, fun x c hc => .inr ⟨c, hc, Int.le_refl _⟩⟩
  | cons x xs ih =>
    intro oks h L t dt hi hs ht hk hds
    obtain ⟨c, hc, hck⟩ := hds x (List.mem_cons_self ..)
    obtain ⟨h1, m, d, e1, i1, x1, _, m1, k1, _⟩ := clone_ok hi hc
    have K1 := x1.keeps hi
    obtain ⟨dt1, t1, tk1⟩ := K1.live t dt ht
    have ho1 : dt1.kind.owns .layoutDefs = true := by rw [tk1, hk]; rfl
    have ho2 : Kind.owns .layoutDefs d.kind = true := by rw [k1, hck]; rfl
    rw [addClones]
    simp only [e1, Res.ok_bind]
    have refuse : ∃ h' b, (do
          let h ← addInner h1 t .layoutDefs m .refusedByInner
          let h ← free h m
          .ok (h, false) : Res (Heap × Bool)) = .ok (h', b) ∧ Inv h' L [] ∧
        ∀ x c', h'.cells x = some c' → c'.rc ≤ 1 ∨ ∃ c, h.cells x = some c ∧ c'.rc ≤ c.rc := by
      obtain ⟨h2, e2, K2, i2⟩ := addInner_ok i1 t1 m1 ho1 ho2 .refusedByInner
      have K := K1.trans K2
      obtain ⟨h3, e3, i3, s3⟩ := free_ok i2 (fun y c' hc' => by
        rcases K.rcs y c' hc' with hr | ⟨c0, hc0, hr⟩
        · rw [hr]; decide
        · rw [hr]; exact hs y c0 hc0)
      refine ⟨h3, false, by simp only [e2, e3, Res.ok_bind], i3, fun y c' hc' => ?_⟩
      obtain ⟨c2, e2', _, _, r2⟩ := s3.cells y c' hc'
      rcases K.rcs y c2 e2' with hr | ⟨c0, hc0, hr⟩
      · exact .inl (by omega)
      · exact .inr ⟨c0, hc0, by omega⟩
    match oks with
    | [] => exact refuse
    | false :: oks => exact refuse
    | true :: oks =>
      obtain ⟨h2, e2, K2, i2⟩ := addInner_ok i1 t1 m1 ho1 ho2 .accepted
      have K := K1.trans K2
      obtain ⟨dt2, t2, tk2⟩ := K.live t dt ht
      obtain ⟨h3, b, e3, i3, r3⟩ := ih oks h2 L t dt2 i2 (fun y c' hc' => by
          rcases K.rcs y c' hc' with hr | ⟨c0, hc0, hr⟩
          · rw [hr]; decide
          · rw [hr]; exact hs y c0 hc0) t2 (by rw [tk2, hk]) (fun y hy => by
          obtain ⟨c0, hc0, hk0⟩ := hds y (List.mem_cons_of_mem _ hy)
          obtain ⟨c1, hc1, hk1⟩ := K.live y c0 hc0
          exact ⟨c1, hc1, by rw [hk1, hk0]⟩)
      refine ⟨h3, b, by simp only [e2, Res.ok_bind, e3], i3, fun y c' hc' => ?_⟩
      rcases r3 y c' hc' with hr | ⟨c2, hc2, hr2⟩
      · exact .inl hr
      · rcases K.rcs y c2 hc2 with hr | ⟨c0, hc0, hr⟩
        · exact .inl (by omega)
        · exact .inr ⟨c0, hc0, by omega⟩

theorem reach_live {h : Heap} {L : List Nat} (hi : Inv h L []) {a : Nat} (hr : Reach h L a) :
    ∃ c, h.cells a = some c := by
  cases hr with
  | held ha => exact (hi.roots a ha).2
  | part _ hb ha =>
    obtain ⟨_, c, hc, _⟩ := hi.kids _ _ hb (by simp) a ha
    exact ⟨c, hc⟩

theorem live_reach {h : Heap} {L : List Nat} (hi : Inv h L []) :
    ∀ (n : Nat) (a : Nat) (c : Cell), h.cells a = some c → maxDepth ≤ c.kind.level + n →
      Reach h L a := by
  intro n
  induction n with
  | zero =>
    intro a c _ hn
    have := level_lt c.kind
    omega
  | succ n ih =>
    intro a c hc hn
    have h1 := hi.count a c hc (by simp)
    have h2 := hi.pos a c hc (by simp)
    by_cases hL : a ∈ L
    · exact .held hL
    · rw [List.count_eq_zero.mpr hL] at h1
      obtain ⟨b, _, hb⟩ := sumTo_pos (f := ptr h [] a) (n := h.next) (by omega)
      cases hbc : h.cells b with
      | none => simp [ptr, pointersIn_none hbc] at hb
      | some d =>
        rw [ptr, if_neg (by simp), pointersIn_of hbc, List.count_pos_iff] at hb
        obtain ⟨_, c', hc', ho⟩ := hi.kids b d hbc (by simp) a hb
        rw [hc] at hc'
        cases hc'
        exact .part (ih b d hbc (by have := owns_level ho; omega)) hbc hb

theorem live_iff_reach {h : Heap} {L : List Nat} (hi : Inv h L []) (a : Nat) :
    Live h a ↔ Reach h L a :=
  ⟨fun ⟨c, hc⟩ => live_reach hi maxDepth a c hc (by omega), fun hr => reach_live hi hr⟩

/-- What is still held keeps everything below it. -/
theorem reach_shrinks {h h' : Heap} {L : List Nat} (hi : Inv h' L []) (hs : Shrinks h h')
    {a : Nat} (hr : Reach h L a) : Reach h' L a := by
  induction hr with
  | held ha => exact .held ha
  | part _ hb ha ih =>
    obtain ⟨c', hc'⟩ := reach_live hi ih
    obtain ⟨c, hc, _, hl, _⟩ := hs.cells _ c' hc'
    rw [hb] at hc
    cases hc
    exact .part ih hc' (hl ▸ ha)

theorem reach_shrinks_back {h h' : Heap} {L : List Nat} (hs : Shrinks h h')
    {a : Nat} (hr : Reach h' L a) : Reach h L a := by
  induction hr with
  | held ha => exact .held ha
  | part _ hb ha ih =>
    obtain ⟨c, hc, _, hl, _⟩ := hs.cells _ _ hb
    exact .part ih hc (hl ▸ ha)

theorem count_cons_erase {L : List Nat} {a : Nat} (ha : a ∈ L) (x : Nat) :
    L.count x = (a :: L.erase a).count x := by
  have := List.count_pos_iff.mpr ha
  rw [List.count_cons, List.count_erase]
  by_cases hxa : x = a
  · subst hxa; simp; omega
  · have h1 : (a == x) = false := by simpa using fun e => hxa e.symm
    simp [h1]

theorem count_foldl_erase (parts : List Nat) : ∀ (L : List Nat) (x : Nat),
    (parts.foldl List.erase L).count x = L.count x - parts.count x := by
  induction parts with
  | nil => intro L x; simp
  | cons p ps ih =>
    intro L x
    rw [List.foldl_cons, ih, List.count_erase, List.count_cons]
    by_cases hpx : x = p
    · subst hpx; simp; omega
    · have h1 : (p == x) = false := by simpa using fun e => hpx e.symm
      simp [h1]

theorem dropPart_ok {h : Heap} {L : List Nat} {f : Nat} {d : Cell} {k : Kind} (hi : Inv h L [])
    (hs : Small h) (hd : h.cells f = some d) :
    ∃ h', dropPart h f k = .ok h' ∧ Inv h' L [] ∧ Shrinks (withoutPart h f k) h' := by
  unfold dropPart withoutPart
  cases hp : part h f k with
  | none => exact ⟨h, rfl, hi, Shrinks.refl h⟩
  | some old =>
    obtain ⟨hm, _⟩ := part_some hd hp
    have h1 := unlink_ok hi hd hm
    obtain ⟨h', e, i, s⟩ := free_ok h1 (fun x c hc => by
      rw [unlink, hd] at hc
      rcases (keeps_set hd (d.kids.erase old)).rcs x c hc with hr | ⟨c0, hc0, hr⟩
      · rw [hr]; decide
      · rw [hr]; exact hs x c0 hc0)
    exact ⟨h', e, i, s⟩

theorem withoutPart_cells {h : Heap} {f : Nat} {k : Kind} {x : Nat} {c : Cell}
    (hc : (withoutPart h f k).cells x = some c) :
    ∃ c0, h.cells x = some c0 ∧ c0.kind = c.kind ∧ c0.rc = c.rc := by
  unfold withoutPart at hc
  split at hc
  · exact ⟨c, hc, rfl, rfl⟩
  · unfold unlink at hc
    split at hc
    · exact ⟨c, hc, rfl, rfl⟩
    · rename_i d hd
      rw [set_cells] at hc
      split at hc
      · rename_i e
        subst e
        cases hc
        exact ⟨d, hd, rfl, rfl⟩
      · exact ⟨c, hc, rfl, rfl⟩

/-- A file whose part is a type of its own stays reachable without that part. -/
theorem reach_withoutPart {h : Heap} {L : List Nat} {f : Nat} {d : Cell} {k : Kind}
    (hi : Inv h L []) (hd : h.cells f = some d) {a : Nat} {c : Cell} (hr : Reach h L a)
    (hc : h.cells a = some c) (hl : d.kind.level ≤ c.kind.level) :
    Reach (withoutPart h f k) L a := by
  unfold withoutPart
  cases hp : part h f k with
  | none => exact hr
  | some old =>
    simp only [unlink, hd]
    revert c
    induction hr with
    | held ha => intro _ _ _; exact .held ha
    | @part a b cb hrb hb ha ih =>
      intro c hc hl
      obtain ⟨_, c', hc', ho⟩ := hi.kids b cb hb (by simp) a ha
      rw [hc] at hc'
      cases hc'
      have hlt := owns_level ho
      have hbf : b ≠ f := by
        intro e
        subst e
        rw [hd] at hb
        cases hb
        omega
      exact .part (ih hb (by omega)) (by rw [set_cells, if_neg hbf]; exact hb) ha

/-- The program state after `n` calls. -/
structure Good (w : World) (n : Nat) : Prop where
  inv : Inv w.heap w.held []
  rcs : ∀ a c, w.heap.cells a = some c → c.rc ≤ (n : Int) + 1

theorem Good.small {w : World} {n : Nat} (hg : Good w n) (hn : n + 1 < 2147483647) :
    Small w.heap := fun a c hc => by
  have := hg.rcs a c hc
  simp only [INT_MAX]
  omega

theorem setPart_ok {h : Heap} {L : List Nat} {f y : Nat} {d : Cell} {k : Kind} (hi : Inv h L [])
    (hs : Small h) (hd : h.cells f = some d) (hf : Reach h L f) (ho : d.kind.owns k = true)
    (hy : Is h y k) (hr : Reach (withoutPart h f k) L y) :
    ∃ h', setPart h f k (some y) = .ok h' ∧ Inv h' L [] ∧
      ∀ x c', h'.cells x = some c' → c'.rc = 1 ∨ ∃ c, h.cells x = some c ∧ c'.rc ≤ c.rc := by
  obtain ⟨h1, e1, i1, s1⟩ := dropPart_ok (k := k) hi hs hd
  have hf1 := reach_shrinks i1 s1 (reach_withoutPart (k := k) hi hd hf hd (Nat.le_refl _))
  obtain ⟨d1, hd1⟩ := reach_live i1 hf1
  have hdk : d1.kind = d.kind := by
    obtain ⟨d2, h2, k2, _, _⟩ := s1.cells f d1 hd1
    obtain ⟨d3, h3, k3, _⟩ := withoutPart_cells h2
    rw [hd] at h3
    cases h3
    rw [k2, k3]
  obtain ⟨c1, hc1⟩ := reach_live i1 (reach_shrinks i1 s1 hr)
  have hck : c1.kind = k := by
    obtain ⟨d2, h2, k2, _, _⟩ := s1.cells y c1 hc1
    obtain ⟨d3, h3, k3, _⟩ := withoutPart_cells h2
    obtain ⟨c, hc, hk⟩ := hy
    rw [hc] at h3
    cases h3
    rw [k2, ← k3, hk]
  obtain ⟨h2, m, dm, e2, i2, x2, _, m2, k2, _⟩ := clone_ok i1 hc1
  have K2 := x2.keeps i1
  obtain ⟨d2, hd2, hk2⟩ := K2.live f d1 hd1
  obtain ⟨e3, i3⟩ := append_ok i2 hd2 m2 (by rw [hk2, hdk, k2, hck]; exact ho)
  refine ⟨_, ?_, i3, fun x c' hc' => ?_⟩
  · rw [setPart, hd]
    simp only [e1, Res.ok_bind, e2, e3]
  · rcases (K2.trans (keeps_set hd2 _)).rcs x c' hc' with hr | ⟨c0, hc0, hr⟩
    · exact .inl hr
    · obtain ⟨c2, hc2, _, _, r2⟩ := s1.cells x c0 hc0
      obtain ⟨c3, hc3, _, r3⟩ := withoutPart_cells hc2
      exact .inr ⟨c3, hc3, by omega⟩

theorem setPart_none_ok {h : Heap} {L : List Nat} {f : Nat} {d : Cell} {k : Kind} (hi : Inv h L [])
    (hs : Small h) (hd : h.cells f = some d) :
    ∃ h', setPart h f k none = .ok h' ∧ Inv h' L [] ∧
      ∀ x c', h'.cells x = some c' → c'.rc = 1 ∨ ∃ c, h.cells x = some c ∧ c'.rc ≤ c.rc := by
  obtain ⟨h1, e1, i1, s1⟩ := dropPart_ok (k := k) hi hs hd
  refine ⟨h1, ?_, i1, fun x c' hc' => ?_⟩
  · rw [setPart, hd]
    simp only [e1, Res.ok_bind]
  · obtain ⟨c2, hc2, _, _, r2⟩ := s1.cells x c' hc'
    obtain ⟨c3, hc3, _, r3⟩ := withoutPart_cells hc2
    exact .inr ⟨c3, hc3, by omega⟩

/-- Every legal call of a program with fewer than 2^31-2 calls behind it succeeds and keeps
    the books right. -/
theorem step_ok {w : World} {n : Nat} (hg : Good w n) (hn : n + 1 < 2147483647) {call : Call}
    (hl : Legal w call) : ∃ w', w.step call = .ok w' ∧ Good w' (n + 1) := by
  obtain ⟨hi, hrc⟩ := hg
  have hs : Small w.heap := Good.small ⟨hi, hrc⟩ hn
  have bound : ∀ (h' : Heap), (∀ x c', h'.cells x = some c' →
      c'.rc ≤ 1 ∨ ∃ c, w.heap.cells x = some c ∧ c'.rc ≤ c.rc) →
      ∀ a c, h'.cells a = some c → c.rc ≤ ((n + 1 : Nat) : Int) + 1 := by
    intro h' hb a c hc
    rcases hb a c hc with hr | ⟨c0, hc0, hr⟩
    · omega
    · have := hrc a c0 hc0; omega
  have boundK : ∀ (h' : Heap), Keeps w.heap h' →
      ∀ a c, h'.cells a = some c → c.rc ≤ ((n + 1 : Nat) : Int) + 1 := fun h' hK =>
    bound h' fun x c' hc' => by
      rcases hK.rcs x c' hc' with hr | ⟨c, hc, hr⟩
      · exact .inl (by omega)
      · exact .inr ⟨c, hc, by omega⟩
  cases call with
  | create k parts =>
    obtain ⟨h1, h2⟩ := hl
    refine ⟨_, rfl, ?_, boundK _ (keeps_alloc hi k parts)⟩
    apply Inv.alloc
    · apply hi.congr
      intro x
      rw [List.count_append, count_foldl_erase]
      have := h1 x
      omega
    · intro a ha
      obtain ⟨k', ⟨c, hc, hk⟩, ho⟩ := h2 a ha
      exact ⟨c, hc, hk ▸ ho⟩
  | newRef a =>
    obtain ⟨c, hc⟩ := reach_live hi hl
    have hb := hrc a c hc
    obtain ⟨h', e, i, eq⟩ := newRef_ok hi hc (by simp only [INT_MAX]; omega)
    refine ⟨⟨h', a :: w.held⟩, by simp only [World.step, e, Res.ok_bind], i, ?_⟩
    intro x d hx
    rw [eq] at hx
    change (w.heap.set a { c with rc := c.rc + 1 }).cells x = some d at hx
    rw [set_cells] at hx
    split at hx
    · cases hx
      show c.rc + 1 ≤ _
      omega
    · have := hrc x d hx
      omega
  | free a =>
    have ha : a ∈ w.held := hl
    obtain ⟨h', e, i, s⟩ := free_ok (hi.congr (count_cons_erase ha)) hs
    refine ⟨⟨h', w.held.erase a⟩, by simp only [World.step, e, Res.ok_bind], i, ?_⟩
    refine bound h' fun x c' hc' => ?_
    obtain ⟨c, hc, _, _, hr⟩ := s.cells x c' hc'
    exact .inr ⟨c, hc, hr⟩
  | clone a =>
    obtain ⟨c, hc⟩ := reach_live hi hl
    obtain ⟨h', m, d, e, i, x, _, _, _, _⟩ := clone_ok hi hc
    exact ⟨⟨h', m :: w.held⟩, by simp only [World.step, e, Res.ok_bind], i,
      boundK h' (x.keeps hi)⟩
  | add p c acc =>
    obtain ⟨_, hc, k, k', ⟨dp, hdp, hkp⟩, ⟨dc, hdc, hkc⟩, ho⟩ := hl
    cases acc with
    | false =>
      exact ⟨⟨w.heap, w.held⟩, by simp [World.step, add, hdp, hdc], hi,
        boundK _ (Keeps.refl _)⟩
    | true =>
      obtain ⟨e, i⟩ := append_ok (hi.congr (count_cons_erase hc)) hdp hdc
        (by rw [hkp, hkc]; exact ho)
      exact ⟨⟨w.heap.set p { dp with kids := dp.kids ++ [c] }, w.held.erase c⟩,
        by simp [World.step, add, hdp, hdc, e], i,
        boundK _ (keeps_set hdp _)⟩
  | addInner p k c o =>
    obtain ⟨_, hc, kp, kc, ⟨dp, hdp, hkp⟩, ⟨dc, hdc, hkc⟩, ho1, ho2⟩ := hl
    obtain ⟨h', e, K, i⟩ := addInner_ok (hi.congr (count_cons_erase hc)) hdp hdc
      (by rw [hkp]; exact ho1) (by rw [hkc]; exact ho2) o
    refine ⟨⟨h', if o = .accepted then w.held.erase c else w.held⟩,
      by simp only [World.step, e, Res.ok_bind], ?_, boundK h' K⟩
    split at i
    · rename_i he
      simp only [if_pos he]
      exact i
    · rename_i hne
      simp only [if_neg hne]
      exact i.congr fun x => (count_cons_erase hc x).symm
  | setPart f k x =>
    obtain ⟨hf, ⟨kf, ⟨d, hd, hk⟩, ho⟩, hx⟩ := hl
    have ho' : d.kind.owns k = true := by rw [hk]; exact ho
    cases x with
    | none =>
      obtain ⟨h', e, i, r⟩ := setPart_none_ok (k := k) hi hs hd
      refine ⟨⟨h', w.held⟩, by simp only [World.step, e, Res.ok_bind], i, bound h' ?_⟩
      intro x c' hc'
      rcases r x c' hc' with hr | hr
      · exact .inl (by omega)
      · exact .inr hr
    | some y =>
      obtain ⟨hy, hr⟩ := hx y rfl
      obtain ⟨h', e, i, r⟩ := setPart_ok hi hs hd hf ho' hy hr
      refine ⟨⟨h', w.held⟩, by simp only [World.step, e, Res.ok_bind], i, bound h' ?_⟩
      intro x c' hc'
      rcases r x c' hc' with hr | hr
      · exact .inl (by omega)
      · exact .inr hr
  | addLayouts t d oks =>
    obtain ⟨_, _, ⟨ct, hct, hkt⟩, ⟨cd, hcd, hkd⟩⟩ := hl
    by_cases hE : cd.kids.isEmpty = true
    · exact ⟨⟨w.heap, w.held⟩, by simp [World.step, addLayouts, hct, hcd, hE], hi,
        boundK _ (Keeps.refl _)⟩
    · obtain ⟨h1, m, e, e1, i1, _, _, K1⟩ := ensurePart_ok (k := .layoutDefs) hi hct
        (by rw [hkt]; rfl)
      obtain ⟨ct1, hct1, hkt1⟩ := K1.live t ct hct
      obtain ⟨h2, b, e2, i2, r2⟩ := addClones_ok cd.kids oks h1 w.held t ct1 i1 (fun x c hc => by
          rcases K1.rcs x c hc with hr | ⟨c0, hc0, hr⟩
          · rw [hr]; decide
          · rw [hr]; exact hs x c0 hc0) hct1 (by rw [hkt1, hkt]) (fun x hx => by
          obtain ⟨_, c0, hc0, ho⟩ := hi.kids d cd hcd (by simp) x hx
          obtain ⟨c1, hc1, hk1⟩ := K1.live x c0 hc0
          refine ⟨c1, hc1, ?_⟩
          rw [hk1]
          rw [hkd] at ho
          revert ho
          cases c0.kind <;> first | (intro h; rfl) | (intro h; cases h))
      refine ⟨⟨h2, w.held⟩, ?_, i2, bound h2 fun x c' hc' => ?_⟩
      · simp only [World.step, addLayouts, hct, hcd, hE, e1, e2, Res.ok_bind, if_neg,
          Bool.false_eq_true, not_false_eq_true]
      · rcases r2 x c' hc' with hr | ⟨c1, hc1, hr1⟩
        · exact .inl hr
        · rcases K1.rcs x c1 hc1 with hr | ⟨c0, hc0, hr⟩
          · exact .inl (by omega)
          · exact .inr ⟨c0, hc0, by omega⟩

theorem good_start : Good World.start 0 := by
  have hn : ∀ a c, World.start.heap.cells a = some c → False := fun a c hc => nomatch hc
  have hh : ∀ a, a ∈ World.start.held → False := fun a ha => nomatch ha
  exact ⟨⟨fun _ _ => rfl, fun a ha => (hh a ha).elim, fun b c hb => (hn b c hb).elim,
    fun a c hc => (hn a c hc).elim, fun a c hc => (hn a c hc).elim⟩,
    fun a c hc => (hn a c hc).elim⟩

theorem run_ok : ∀ (cs : List Call) (w : World) (n : Nat), Good w n →
    n + cs.length < 2147483647 → LegalRun w cs →
    ∃ w', w.run cs = .ok w' ∧ Good w' (n + cs.length) := by
  intro cs
  induction cs with
  | nil => intro w n hg _ _; exact ⟨w, rfl, hg⟩
  | cons c cs ih =>
    intro w n hg hn hl
    rw [List.length_cons] at hn
    obtain ⟨h1, h2⟩ := hl
    obtain ⟨w1, e1, g1⟩ := step_ok hg (by omega) h1
    obtain ⟨w2, e2, g2⟩ := ih w1 (n + 1) g1 (by omega) (h2 w1 e1)
    refine ⟨w2, ?_, ?_⟩
    · rw [World.run]
      simp only [e1, Res.ok_bind, e2]
    · rw [List.length_cons]
      have : n + (cs.length + 1) = n + 1 + cs.length := by omega
      rw [this]
      exact g2

theorem good_of_run {cs : List Call} {w : World} (hl : LegalRun World.start cs)
    (hn : cs.length < 2147483647) (hr : World.start.run cs = .ok w) : Good w cs.length := by
  obtain ⟨w', e, g⟩ := run_ok cs World.start 0 good_start (by omega) hl
  rw [hr] at e
  cases e
  simpa using g

end Afs.Refs
