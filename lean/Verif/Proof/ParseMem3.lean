import Verif.Proof.ParseMem2
/-!
# The open elements, the root and the element being read, in memory
-/
namespace Afs.ParseMem
open Afs Afs.Xml Afs.Links Afs.Spec

/-- The open elements from the innermost out: `parent`, with its finished children and behind them
    the node `inner`, and so on up to the outermost, `root`. -/
def Chain (h0 h : Heap) (kids : Nat → List Nat) : Option Nat → List Frame → Option Nat → Option Nat → Prop
  | inner, [], p, r => p = none ∧ r = inner
  | inner, f :: fs, p, r => ∃ a ts p', p = some a ∧ h0 a = none ∧
      (h a).map Cell.data = some (.elem f.name f.attrs) ∧ kids a = ts.map T.addr ++ inner.toList ∧
      ShapeL kids ts ∧ IsNodes h ts f.rev.reverse ∧ Chain h0 h kids (some a) fs p' r

theorem mem_preL_below {kids : Nat → List Nat} {ts : List T} (hs : ShapeL kids ts) {x : Nat} (hx : x ∈ preL ts) :
    ∃ t ∈ ts, Below kids t.addr x := by
  rw [mem_preL] at hx
  exact (mem_post_list hs).mp hx

/-- A change at `q`, which is below the inner node, does not concern the frames further out. -/
theorem chain_keep {h0 h h' : Heap} {kids kids' : Nat → List Nat} (L : Linked h kids) {q : Nat}
    (hk : ∀ x, x ≠ q → h x ≠ none → kids' x = kids x)
    (hd : ∀ x, h x ≠ none → x ≠ q → (h' x).map Cell.data = (h x).map Cell.data) :
    ∀ (fs : List Frame) (b : Nat) (p r : Option Nat), Below kids b q → Chain h0 h kids (some b) fs p r →
      Chain h0 h' kids' (some b) fs p r
  | [], b, p, r, _, hc => hc
  | f :: fs, b, p, r, hb, hc => by
    obtain ⟨a, ts, p', e, h0a, hda, hka, hss, his, hrest⟩ := hc
    have bm : b ∈ kids a := by rw [hka]; simp
    have ha : h a ≠ none := L.alloc_of_kids bm
    have aq : a ≠ q := fun e => L.acyclic a b bm (e ▸ hb)
    have tx : ∀ x ∈ preL ts, x ≠ q ∧ h x ≠ none := by
      intro x hx
      obtain ⟨t, ht, hbt⟩ := mem_preL_below hss hx
      have tm : t.addr ∈ kids a := by rw [hka]; simp; exact .inl ⟨t, ht, rfl⟩
      have tb : t.addr ≠ b := by
        have nd := L.nodup a
        rw [hka, List.nodup_append] at nd
        exact fun e => nd.2.2 t.addr (List.mem_map.mpr ⟨t, ht, rfl⟩) b (by simp) e
      refine ⟨fun e => below_disjoint L tm bm tb (e ▸ hbt) hb, ?_⟩
      obtain ⟨c, hc, _⟩ := L.parent a t.addr tm
      exact below_alloc L (by simp [hc]) hbt
    refine ⟨a, ts, p', e, h0a, ?_, ?_, ?_, ?_, ?_⟩
    · rw [hd a ha aq]; exact hda
    · rw [hk a aq ha]; exact hka
    · exact shapeL_congr (fun x hx => hk x (tx x hx).1 (tx x hx).2) hss
    · exact isNodes_congr (fun x hx => hd x (tx x hx).2 (tx x hx).1) his
    · exact chain_keep L hk hd fs a p' r ((Below.step .self bm).trans hb) hrest

/-- The node without children that a value stands for. -/
def leaf : Data → Node
  | .elem n as => .elem n as []
  | .text s => .text s

theorem leaf_isNode {h : Heap} {n : Nat} {d : Data} (hd : (h n).map Cell.data = some d) :
    IsNode h (.mk n []) (leaf d) := by
  cases d with
  | elem m as => simp [leaf, IsNode, IsNodes, hd]
  | text s => simp [leaf, IsNode, hd]

/-- The node whose start tag is being read: it is in memory already. -/
def HeadOk (h0 h : Heap) (kids : Nat → List Nat) (head : Option (Nat × Data)) : Prop :=
  ∀ n d, head = some (n, d) → h0 n = none ∧ (h n).map Cell.data = some d ∧ kids n = []

/-- The memory of the reader between two characters: `parent` and `first`, the open elements, the
    finished root, the element whose start tag is being read, and a text lost behind the root. -/
inductive Core (P : Prop) (h0 : Heap) (kids0 : Nat → List Nat) (h : Heap) : Option Nat → Option Nat → List Frame →
    Option Node → Option (Nat × Data) → Option Nat → Prop where
  | empty {kids : Nat → List Nat} {head : Option (Nat × Data)} :
      Own h0 kids0 h kids (head.map Prod.fst).toList → HeadOk h0 h kids head →
      Core P h0 kids0 h none none [] none head none
  | rooted {kids : Nat → List Nat} {t : T} {nd : Node} {leak : Option Nat} :
      Own h0 kids0 h kids (t.addr :: leak.toList) → Shape kids t → IsNode h t nd →
      (∀ x, leak = some x → kids x = [] ∧ P) →
      Core P h0 kids0 h none (some t.addr) [] (some nd) none leak
  | inside {kids : Nat → List Nat} {r : Nat} {p : Option Nat} {f : Frame} {fs : List Frame} {root : Option Node}
      {head : Option (Nat × Data)} :
      Own h0 kids0 h kids [r] → HeadOk h0 h kids head →
      Chain h0 h kids (head.map Prod.fst) (f :: fs) p (some r) →
      Core P h0 kids0 h p (some r) (f :: fs) root head none

theorem core_init {P : Prop} {h0 : Heap} {kids0 : Nat → List Nat} (L : Linked h0 kids0) :
    Core P h0 kids0 h0 none none [] none none none :=
  .empty (kids := kids0) (by simpa using own_init L) (fun _ _ e => by cases e)

/-- A new node becomes the one whose start tag is read. -/
theorem core_new {P : Prop} {h0 : Heap} {kids0 : Nat → List Nat} {h : Heap} {p f : Option Nat} {st : List Frame}
    {root : Option Node} (C : Core P h0 kids0 h p f st root none none) (hn : ¬ (st = [] ∧ root.isSome = true))
    {a : Nat} (ha : h a = none) (d : Data) :
    ∃ h', Links.new h a p d = .ok h' ∧ Core P h0 kids0 h' p f st root (some (a, d)) none := by
  cases C with
  | empty O H =>
    obtain ⟨h', e, O', hd, h0a, hk, _⟩ := O.new ha none (by simp) d
    refine ⟨h', e, .empty (by simpa using O') ?_⟩
    intro n d' hh
    cases hh
    exact ⟨h0a, hd, by simpa using hk⟩
  | rooted O => simp at hn
  | @inside kids r p g fs _ _ O H hc =>
    obtain ⟨b, ts, p', e, h0b, hdb, hkb, hss, his, hrest⟩ := hc
    subst e
    have hb : h b ≠ none := by intro e; rw [e] at hdb; simp at hdb
    obtain ⟨h', e', O', hd, h0a, hka, hdx⟩ := O.new ha (some b) (by
      intro q hq; cases hq; exact ⟨hb, h0b⟩) d
    have ab : a ≠ b := fun e => hb (e ▸ ha)
    have L := O.L
    simp only [Option.map_none, Option.toList_none, List.append_nil] at hkb
    have hk : ∀ x, x ≠ b → h x ≠ none → (if some x = some b then kids x ++ [a] else kids x) = kids x := by
      intro x hx _
      simp [hx]
    have hd' : ∀ x, h x ≠ none → x ≠ b → (h' x).map Cell.data = (h x).map Cell.data := by
      intro x hx _
      exact hdx x (fun e => hx (e ▸ ha))
    have tx : ∀ x ∈ preL ts, x ≠ b ∧ h x ≠ none := by
      intro x hx
      obtain ⟨t, ht, hbt⟩ := mem_preL_below hss hx
      have tm : t.addr ∈ kids b := by rw [hkb]; simp; exact ⟨t, ht, rfl⟩
      refine ⟨fun e => L.acyclic b t.addr tm (e ▸ hbt), ?_⟩
      obtain ⟨c, hc, _⟩ := L.parent b t.addr tm
      exact below_alloc L (by simp [hc]) hbt
    refine ⟨h', e', .inside (kids := fun x => if some x = some b then kids x ++ [a] else kids x) (by simpa using O') ?_ ?_⟩
    · intro n d' hh
      cases hh
      refine ⟨h0a, hd, ?_⟩
      simp [ab, hka]
    · refine ⟨b, ts, p', rfl, h0b, ?_, ?_, ?_, ?_, ?_⟩
      · rw [hdx b (fun e => ab e.symm)]; exact hdb
      · simp [hkb]
      · exact shapeL_congr (fun x hx => hk x (tx x hx).1 (tx x hx).2) hss
      · exact isNodes_congr (fun x hx => hd' x (tx x hx).2 (tx x hx).1) his
      · exact chain_keep L hk hd' fs b p' (some r) .self hrest

/-- A text behind the root is lost. -/
theorem core_leak {P : Prop} {h0 : Heap} {kids0 : Nat → List Nat} {h : Heap} {p f : Option Nat} {nd : Node}
    (C : Core P h0 kids0 h p f [] (some nd) none none) (hP : P) {a : Nat} (ha : h a = none) (d : Data) :
    ∃ h', Links.new h a p d = .ok h' ∧ Core P h0 kids0 h' p f [] (some nd) none (some a) ∧ f.isSome = true := by
  cases C with
  | @rooted kids t _ _ O hs hi _ =>
    obtain ⟨h', e, O', _, _, hk, hdx⟩ := O.new ha none (by simp) d
    have ht : h t.addr ≠ none := (O.rooted t.addr (by simp)).1
    refine ⟨h', e, .rooted (kids := kids) ?_ hs ?_ ?_, rfl⟩
    · have : Own h0 kids0 h' kids (a :: [t.addr]) := by simpa using O'
      refine ⟨this.L, this.keep, this.out, ?_, ?_⟩
      · intro x h1 h2
        rcases this.top x h1 h2 with h | h
        · exact .inl h
        · right; simp at h ⊢; exact h.symm
      · intro x hx
        exact this.rooted x (by simp at hx ⊢; exact hx.symm)
    · refine isNode_congr (fun x hx => hdx x ?_) hi
      intro e
      have := below_alloc O.L ht ((pre_below hs x).mp hx)
      exact this (e ▸ ha)
    · intro x hx
      cases hx
      exact ⟨hk, hP⟩

/-- The PS stack and root with a finished node added. -/
def addedStack (st : List Frame) (n : Node) : List Frame :=
  match st with
  | [] => []
  | f :: fs => { f with rev := n :: f.rev } :: fs

def addedRoot (st : List Frame) (root : Option Node) (n : Node) : Option Node :=
  match st with
  | [] => some n
  | _ :: _ => root

/-- The start tag is complete and it was the whole element. -/
theorem core_done {P : Prop} {h0 : Heap} {kids0 : Nat → List Nat} {h : Heap} {p f : Option Nat} {st : List Frame}
    {root : Option Node} {n : Nat} {d : Data} {leak : Option Nat}
    (C : Core P h0 kids0 h p f st root (some (n, d)) leak) :
    Core P h0 kids0 h p (some (f.getD n)) (addedStack st (leaf d)) (addedRoot st root (leaf d)) none none := by
  cases C with
  | @empty kids _ O H =>
    obtain ⟨_, hd, hk⟩ := H n d rfl
    exact .rooted (t := .mk n []) (kids := kids) (by simpa [T.addr] using O) (by simp [Shape, ShapeL, hk])
      (leaf_isNode hd) (fun x e => by cases e)
  | @inside kids r _ g fs _ _ O H hc =>
    obtain ⟨_, hd, hk⟩ := H n d rfl
    obtain ⟨b, ts, p', e, h0b, hdb, hkb, hss, his, hrest⟩ := hc
    refine .inside (kids := kids) O (fun _ _ e => by cases e) ⟨b, ts ++ [.mk n []], p', e, h0b, hdb, ?_, ?_, ?_, hrest⟩
    · simp [hkb, T.addr]
    · rw [shapeL_iff] at hss ⊢
      intro t ht
      rcases List.mem_append.mp ht with h | h
      · exact hss t h
      · simp only [List.mem_singleton] at h
        subst h
        simp [Shape, ShapeL, hk]
    · simp only [List.reverse_cons]
      exact isNodes_append his (by simp [IsNodes, leaf_isNode hd])

/-- The start tag is complete and the element is open now. -/
theorem core_push {P : Prop} {h0 : Heap} {kids0 : Nat → List Nat} {h : Heap} {p f : Option Nat} {st : List Frame}
    {root : Option Node} {n : Nat} {m : Bytes} {as : List (Bytes × Option Bytes)} {leak : Option Nat}
    (C : Core P h0 kids0 h p f st root (some (n, .elem m as)) leak) :
    Core P h0 kids0 h (some n) (some (f.getD n)) (⟨m, as, []⟩ :: st) root none none := by
  cases C with
  | @empty kids _ O H =>
    obtain ⟨h0n, hd, hk⟩ := H n _ rfl
    refine .inside (kids := kids) (by simpa using O) (fun _ _ e => by cases e)
      ⟨n, [], none, rfl, h0n, hd, by simp [hk], by simp [ShapeL], by simp [IsNodes], rfl, rfl⟩
  | @inside kids r _ g fs _ _ O H hc =>
    obtain ⟨h0n, hd, hk⟩ := H n _ rfl
    refine .inside (kids := kids) (by simpa using O) (fun _ _ e => by cases e)
      ⟨n, [], p, rfl, h0n, hd, by simp [hk], by simp [ShapeL], by simp [IsNodes], hc⟩

/-- The innermost open element is closed. -/
theorem core_pop {P : Prop} {h0 : Heap} {kids0 : Nat → List Nat} {h : Heap} {p f : Option Nat} {g : Frame} {fs : List Frame}
    {root : Option Node} {leak : Option Nat} (C : Core P h0 kids0 h p f (g :: fs) root none leak) :
    ∃ c, deref h p = .ok c ∧ c.data.name = g.name ∧ c.parent.isSome = !fs.isEmpty ∧
      Core P h0 kids0 h c.parent f (addedStack fs g.node) (addedRoot fs root g.node) none none := by
  cases C with
  | @inside kids r _ _ _ _ _ O H hc =>
    obtain ⟨b, ts, p', rfl, h0b, hdb, hkb, hss, his, hrest⟩ := hc
    simp only [Option.map_none, Option.toList_none, List.append_nil] at hkb
    cases hcell : h b with
    | none => rw [hcell] at hdb; simp at hdb
    | some c =>
      rw [hcell] at hdb
      simp only [Option.map_some, Option.some.injEq] at hdb
      have hsh : Shape kids (.mk b ts) := by rw [Shape]; exact ⟨hkb, hss⟩
      have his' : IsNode h (.mk b ts) g.node := by
        rw [Frame.node, IsNode]; exact ⟨by simp [hcell, hdb], his⟩
      refine ⟨c, ?_, by rw [hdb]; rfl, ?_⟩
      · simp [deref, Links.get, hcell]
      · cases fs with
        | nil =>
          obtain ⟨_, e⟩ := hrest
          simp only [Option.some.injEq] at e
          subst e
          have hp : c.parent = none := by
            cases e : c.parent with
            | none => rfl
            | some q => exact absurd (O.L.listed r c q hcell e) ((O.rooted r (by simp)).2.2 q)
          rw [hp]
          exact ⟨rfl, .rooted (t := .mk r ts) (kids := kids) (by simpa [T.addr] using O) hsh his'
            (fun x e => by cases e)⟩
        | cons g2 fs =>
          obtain ⟨b2, ts2, p2, rfl, h02, hd2, hk2, hs2, hi2, hrest2⟩ := hrest
          have bm : b ∈ kids b2 := by rw [hk2]; simp
          obtain ⟨c', hc', hp⟩ := O.L.parent b2 b bm
          rw [hcell] at hc'
          cases hc'
          rw [hp]
          refine ⟨rfl, .inside (kids := kids) O (fun _ _ e => by cases e)
            ⟨b2, ts2 ++ [.mk b ts], p2, rfl, h02, hd2, ?_, ?_, ?_, hrest2⟩⟩
          · simp [hk2, T.addr]
          · rw [shapeL_iff] at hs2 ⊢
            intro t ht
            rcases List.mem_append.mp ht with h | h
            · exact hs2 t h
            · simp only [List.mem_singleton] at h
              subst h
              exact hsh
          · simp only [List.reverse_cons]
            exact isNodes_append hi2 (by simp [IsNodes, his'])

/-- An attribute of the node whose start tag is read. -/
theorem core_attr {P : Prop} {h0 : Heap} {kids0 : Nat → List Nat} {h : Heap} {p f : Option Nat} {st : List Frame}
    {root : Option Node} {n : Nat} {d : Data} {leak : Option Nat}
    (C : Core P h0 kids0 h p f st root (some (n, d)) leak) :
    ∃ c, h n = some c ∧ c.data = d ∧ ∀ d', Core P h0 kids0 (h.set n { c with data := d' }) p f st root (some (n, d')) leak := by
  cases C with
  | @empty kids _ O H =>
    obtain ⟨h0n, hd, hk⟩ := H n d rfl
    cases hc : h n with
    | none => rw [hc] at hd; simp at hd
    | some c =>
      rw [hc] at hd
      refine ⟨c, rfl, by simpa using hd, fun d' => .empty (kids := kids) (by simpa using O.data hc h0n d') ?_⟩
      intro m e hm
      cases hm
      exact ⟨h0n, by simp [Heap.set], hk⟩
  | @inside kids r _ g fs _ _ O H hch =>
    obtain ⟨h0n, hd, hk⟩ := H n d rfl
    cases hc : h n with
    | none => rw [hc] at hd; simp at hd
    | some c =>
      rw [hc] at hd
      refine ⟨c, rfl, by simpa using hd, fun d' => .inside (kids := kids) (O.data hc h0n d') ?_ ?_⟩
      · intro m e hm
        cases hm
        exact ⟨h0n, by simp [Heap.set], hk⟩
      · refine chain_keep O.L (q := n) (fun _ _ _ => rfl) ?_ _ n p (some r) .self hch
        intro x _ hx
        simp [Heap.set, hx]

theorem core_alive {P : Prop} {h0 : Heap} {kids0 : Nat → List Nat} {h : Heap} {p f : Option Nat} {st : List Frame}
    {root : Option Node} {head : Option (Nat × Data)} {leak : Option Nat}
    (C : Core P h0 kids0 h p f st root head leak) : ∃ kids, Linked h kids := by
  cases C with
  | empty O => exact ⟨_, O.L⟩
  | rooted O => exact ⟨_, O.L⟩
  | inside O => exact ⟨_, O.L⟩

/-- `parent` and `first` are NULL as the open elements and the root say. -/
theorem core_null {P : Prop} {h0 : Heap} {kids0 : Nat → List Nat} {h : Heap} {p f : Option Nat} {st : List Frame}
    {root : Option Node} {head : Option (Nat × Data)} {leak : Option Nat}
    (C : Core P h0 kids0 h p f st root head leak) :
    p.isNone = st.isEmpty ∧ (st = [] → f.isSome = root.isSome) ∧ (st ≠ [] → f.isSome = true) ∧
    (leak ≠ none → st = [] ∧ root.isSome = true ∧ head = none) := by
  cases C with
  | empty O => simp
  | rooted O => simp
  | inside O _ hc =>
    obtain ⟨a, ts, p', e, _⟩ := hc
    simp [e]

end Afs.ParseMem
