import Verif.Proof.AttrMem
import Verif.Spec.Attributes
/-!
# C91: the attributes of an element

Whatever calls of `mxmlElementSetAttr`, `mxmlElementSetAttrf` and `mxmlElementDeleteAttr` are made on an element, with whichever allocations refused, no
memory is used that is not in use, and the attributes are the map they should be (Spec/Attributes.lean); `mxmlElementGetAttr` answers
what the map says; and when the element is deleted, nothing is left of them - except for arrays and buffers, one at most for each call in
which the copy of the name or the large buffer was refused.
-/
namespace Afs
open Strings hiding Call
open AttrMem Spec.Attributes

/-- One call. -/
def AttrMem.call (s : Attrs) : Call → M Attrs
  | .set v a c n t => setAttr ⟨v, a, c⟩ s n (.ofText t)
  | .copy v a c n o => do
    let p ← getAttr s o
    setAttr ⟨v, a, c⟩ s n (.ofPtr p)
  | .print f g a c n t => setAttrf f g ⟨false, a, c⟩ s n t
  | .delete n => deleteAttr s n

def AttrMem.calls (s : Attrs) : List Call → M Attrs
  | [] => pure s
  | c :: cs => do
    let s ← call s c
    calls s cs

namespace AttrMem

theorem place_cons (a : Bytes × Option Bytes) (as : List (Bytes × Option Bytes)) (n : Bytes) :
    place (a :: as) n = if a.1 = n then some 0 else (place as n).map (· + 1) := by
  unfold place
  rw [List.findIdx?_cons]
  by_cases h : a.1 = n
  · have hb : (a.1 == n) = true := by simpa using h
    rw [hb, if_pos rfl, if_pos h]
  · have hb : (a.1 == n) = false := by simpa using h
    rw [hb, if_neg (by simp), if_neg h]

theorem put_cons (a : Bytes × Option Bytes) (as : List (Bytes × Option Bytes)) (n : Bytes) (v : Option Bytes) :
    put (a :: as) n v = if a.1 = n then (n, v) :: as else a :: put as n v := by
  unfold put
  rw [place_cons]
  by_cases h : a.1 = n
  · rw [if_pos h, if_pos h]; rfl
  · rw [if_neg h, if_neg h]
    cases place as n <;> rfl

theorem drop_cons (a : Bytes × Option Bytes) (as : List (Bytes × Option Bytes)) (n : Bytes) :
    drop (a :: as) n = if a.1 = n then as else a :: drop as n := by
  unfold drop
  rw [place_cons]
  by_cases h : a.1 = n
  · rw [if_pos h, if_pos h]; rfl
  · rw [if_neg h, if_neg h]
    cases place as n <;> rfl

theorem lookup_cons' (a : Bytes × Option Bytes) (as : List (Bytes × Option Bytes)) (n : Bytes) :
    (a :: as).lookup n = if n = a.1 then some a.2 else as.lookup n := by
  rw [show a = (a.1, a.2) from rfl, List.lookup_cons]
  by_cases h : n = a.1
  · have hb : (n == a.1) = true := by simpa using h
    rw [hb, if_pos h]
  · have hb : (n == a.1) = false := by simpa using h
    rw [hb, if_neg h]

theorem place_isSome (as : List (Bytes × Option Bytes)) (n : Bytes) : (place as n).isSome = (as.lookup n).isSome := by
  induction as with
  | nil => rfl
  | cons a as ih =>
    rw [place_cons, lookup_cons']
    by_cases h : a.1 = n
    · rw [if_pos h, if_pos h.symm]; rfl
    · rw [if_neg h, if_neg (Ne.symm h), Option.isSome_map, ih]

theorem value_lookup (as : List (Bytes × Option Bytes)) (n : Bytes) : value as n = (as.lookup n).getD none := by
  induction as with
  | nil => rfl
  | cons a as ih =>
    unfold value at ih ⊢
    rw [place_cons, lookup_cons']
    by_cases h : a.1 = n
    · rw [if_pos h, if_pos h.symm]; rfl
    · rw [if_neg h, if_neg (Ne.symm h), ← ih]
      cases place as n <;> rfl

theorem put_lookup (as : List (Bytes × Option Bytes)) (n m : Bytes) (v : Option Bytes) :
    (put as n v).lookup m = if m = n then some v else as.lookup m := by
  induction as with
  | nil => show List.lookup m [(n, v)] = _; rw [lookup_cons']
  | cons a as ih =>
    rw [put_cons]
    by_cases h : a.1 = n
    · rw [if_pos h, lookup_cons', lookup_cons', h]
      by_cases hm : m = n
      · rw [if_pos hm, if_pos hm]
      · rw [if_neg hm, if_neg hm, if_neg hm]
    · rw [if_neg h, lookup_cons', lookup_cons', ih]
      by_cases hm : m = a.1
      · rw [if_pos hm, if_neg (by rw [hm]; exact h), if_pos hm]
      · rw [if_neg hm, if_neg hm]

theorem put_names (as : List (Bytes × Option Bytes)) (n : Bytes) (v : Option Bytes) :
    ∀ m, m ∈ (put as n v).map Prod.fst ↔ m = n ∨ m ∈ as.map Prod.fst := by
  induction as with
  | nil => intro m; show m ∈ [n] ↔ _; simp
  | cons a as ih =>
    intro m
    rw [put_cons]
    by_cases h : a.1 = n
    · rw [if_pos h]
      simp only [List.map_cons, List.mem_cons, h]
      exact ⟨.inr, fun h => h.elim .inl id⟩
    · rw [if_neg h, List.map_cons, List.mem_cons, ih m, List.map_cons, List.mem_cons]
      exact ⟨fun h => h.elim (fun h => .inr (.inl h)) fun h => h.elim .inl fun h => .inr (.inr h),
        fun h => h.elim (fun h => .inr (.inl h)) fun h => h.elim .inl fun h => .inr (.inr h)⟩

theorem put_nodup {as : List (Bytes × Option Bytes)} (h : (as.map Prod.fst).Nodup) (n : Bytes) (v : Option Bytes) :
    ((put as n v).map Prod.fst).Nodup := by
  induction as with
  | nil => show [n].Nodup; simp
  | cons a as ih =>
    rw [List.map_cons, List.nodup_cons] at h
    rw [put_cons]
    by_cases e : a.1 = n
    · rw [if_pos e, List.map_cons, List.nodup_cons]
      exact ⟨by rw [← e]; exact h.1, h.2⟩
    · rw [if_neg e, List.map_cons, List.nodup_cons]
      exact ⟨fun hm => ((put_names as n v a.1).mp hm).elim e h.1, ih h.2⟩

theorem drop_lookup {as : List (Bytes × Option Bytes)} (h : (as.map Prod.fst).Nodup) (n m : Bytes) :
    (drop as n).lookup m = if m = n then none else as.lookup m := by
  induction as with
  | nil => show List.lookup m [] = _; simp
  | cons a as ih =>
    rw [List.map_cons, List.nodup_cons] at h
    rw [drop_cons, lookup_cons']
    by_cases e : a.1 = n
    · rw [if_pos e]
      by_cases hm : m = n
      · rw [if_pos hm, hm, List.lookup_eq_none_iff]
        intro x hx
        simp only [bne_iff_ne, ne_eq]
        intro hc
        apply h.1
        rw [e, hc]
        exact List.mem_map.mpr ⟨x, hx, rfl⟩
      · rw [if_neg hm, if_neg (by rw [e]; exact hm)]
    · rw [if_neg e, lookup_cons', ih h.2]
      by_cases hm : m = a.1
      · rw [if_pos hm, if_neg (by rw [hm]; exact e), if_pos hm]
      · rw [if_neg hm, if_neg hm]

theorem drop_sublist (as : List (Bytes × Option Bytes)) (n : Bytes) : (drop as n).Sublist as := by
  unfold drop
  cases place as n with
  | none => exact List.Sublist.refl _
  | some i => exact List.eraseIdx_sublist _ _

/-- The attributes are this map. -/
structure Shows (as : List (Bytes × Option Bytes)) (f : Map) : Prop where
  nodup : (as.map Prod.fst).Nodup
  same : ∀ n, as.lookup n = f n

theorem shows_put {as : List (Bytes × Option Bytes)} {f : Map} (h : Shows as f) (v a c : Bool) (n : Bytes) (t : Option Bytes) :
    Shows (if granted ⟨v, a, c⟩ as n = true then put as n (if v = true then none else t) else as) (f.set v a c n t) := by
  have hg : granted ⟨v, a, c⟩ as n = true ↔ ((f n).isSome = true ∨ (a = false ∧ c = false)) := by
    unfold granted
    rw [place_isSome, h.same]
    cases a <;> cases c <;> simp
  unfold Map.set
  by_cases e : granted ⟨v, a, c⟩ as n = true
  · rw [if_pos e, if_pos (hg.mp e)]
    exact ⟨put_nodup h.nodup _ _, fun m => by rw [put_lookup, h.same]⟩
  · rw [if_neg e, if_neg fun hc => e (hg.mpr hc)]
    exact h

theorem call_does {s : Attrs} {as : List (Bytes × Option Bytes)} {Q : Blocks} {f : Map} (h : Owns s as Q) (hf : Shows as f) (c : Call) (hc : c.fits)
    (G : Blocks) : Does (call s c) (Q + G) (fun x P => ∃ as' Q' ls k, Owns x as' Q' ∧ Shows as' (f.step c) ∧
      Arrays k ls ∧ k ≤ (if c.refused then 1 else 0) ∧ P = Q' + (ls + G)) := by
  have set : ∀ (v a c' : Bool) (n : Bytes) (w : Arg) (t : Option Bytes), ArgIs w t (Q + G) →
      Does (setAttr ⟨v, a, c'⟩ s n w) (Q + G) (fun x P => ∃ as' Q' ls k, Owns x as' Q' ∧ Shows as' (f.set v a c' n t) ∧
        Arrays k ls ∧ k ≤ (if c' then 1 else 0) ∧ P = Q' + (ls + G)) := by
    intro v a c' n w t hw
    refine (setAttr_does h ⟨v, a, c'⟩ n G hw).mono ?_
    rintro x P ⟨Q', ls, h1, h2, rfl⟩
    refine ⟨_, Q', ls, _, h1, shows_put hf v a c' n t, h2, ?_, rfl⟩
    unfold lost
    cases c' <;> cases (place as n).isSome <;> simp <;> split <;> decide
  cases c with
  | set v a c' n t => exact set v a c' n _ t (argIs_text t _)
  | copy v a c' n o =>
    refine Does.bind (getAttr_does h o G) ?_
    rintro p P ⟨h1, h2, rfl⟩
    have : value as o = (f o).getD none := by rw [value_lookup, hf.same]
    rw [this] at h1 h2
    exact set v a c' n _ _ (argIs_ptr h1 (le_trans h2 (Multiset.le_add_right _ _)))
  | print f1 g a c' n t =>
    refine (setAttrf_does h f1 g ⟨false, a, c'⟩ n t hc G).mono ?_
    rintro x P ⟨Q', ls, k, h1, h2, h3, h4, rfl⟩
    have hp : printed f1 g t = !refusesText f1 g t := by unfold printed refusesText; simp
    refine ⟨_, Q', ls, k, h1, ?_, h2, ?_, rfl⟩
    · show Shows _ (if printed f1 g t = true then f.set false a c' n (some t) else f)
      rw [hp]
      cases refusesText f1 g t with
      | true => simpa using hf
      | false => simpa using shows_put hf false a c' n (some t)
    · show k ≤ if (c' || (g && decide (256 ≤ t.length))) = true then 1 else 0
      split
      · exact h3
      · rename_i hn
        have hn := Bool.or_eq_false_iff.mp (Bool.eq_false_iff.mpr hn)
        rw [h4 hn.1 (.inr hn.2)]
  | delete n =>
    refine (deleteAttr_does h n G).mono ?_
    rintro x P ⟨Q', h1, rfl⟩
    refine ⟨drop as n, Q', 0, 0, h1, ⟨(List.Sublist.map Prod.fst (drop_sublist as n)).nodup hf.nodup, fun m => ?_⟩, arrays_zero, Nat.zero_le _, by rw [zero_add]⟩
    rw [drop_lookup hf.nodup, hf.same]
    rfl

theorem calls_does (cs : List Call) (hc : ∀ c ∈ cs, c.fits) : ∀ {s : Attrs} {as : List (Bytes × Option Bytes)} {Q : Blocks} {f : Map}, Owns s as Q → Shows as f → ∀ (G : Blocks),
    Does (calls s cs) (Q + G) (fun x P => ∃ as' Q' ls k, Owns x as' Q' ∧ Shows as' (cs.foldl Map.step f) ∧
      Arrays k ls ∧ k ≤ (cs.filter Call.refused).length ∧ P = Q' + (ls + G)) := by
  induction cs with
  | nil => exact fun h hf G => Does.pure ⟨_, _, 0, 0, h, hf, arrays_zero, Nat.zero_le _, by rw [zero_add]⟩
  | cons c cs ih =>
    intro s as Q f h hf G
    refine Does.bind (call_does h hf c (hc c (by simp)) G) ?_
    rintro x P ⟨as', Q', ls, k, h1, h2, h3, h4, rfl⟩
    refine (ih (fun x hx => hc x (by simp [hx])) h1 h2 (ls + G)).mono ?_
    rintro y P ⟨as2, Q2, ls2, k2, g1, g2, g3, g4, rfl⟩
    refine ⟨as2, Q2, ls2 + ls, k2 + k, g1, g2, ⟨by rw [Multiset.card_add, g3.1, h3.1], fun x hx => (Multiset.mem_add.mp hx).elim (g3.2 x) (h3.2 x)⟩, ?_, by ac_rfl⟩
    rw [List.filter_cons]
    cases hc : c.refused with
    | true => rw [hc] at h4; simp at h4 ⊢; omega
    | false => rw [hc] at h4; simp at h4 ⊢; omega

/-! ### Asking changes nothing -/

/-- The memory is as before. -/
def Reads {α : Type} (p : M α) : Prop := ∀ m a m', p m = .ok (a, m') → m' = m

theorem reads_pure {α : Type} (a : α) : Reads (pure a : M α) := fun m b m' h => by cases h; rfl

theorem reads_bind {α β : Type} {p : M α} {k : α → M β} (hp : Reads p) (hk : ∀ a, Reads (k a)) : Reads (p >>= k) := by
  intro m b m' h
  have h : (match p m with | .ub => Res.ub | .ok (a, m1) => k a m1) = .ok (b, m') := h
  cases e : p m with
  | ub => rw [e] at h; cases h
  | ok r =>
    obtain ⟨a, m1⟩ := r
    rw [e] at h
    rw [hk a m1 b m' h, hp m a m1 e]

theorem reads_entry (s : Attrs) (i : Nat) : Reads (entryAt s i) := by
  intro m a m' h
  unfold entryAt at h
  split at h
  · cases h
  · split at h
    · cases h
    · split at h
      · cases h
      · cases h; rfl

theorem reads_read (p : Nat) : Reads (Strings.read p) := by
  intro m a m' h
  unfold Strings.read at h
  split at h
  · cases h; rfl
  · cases h

theorem reads_search (s : Attrs) (n : Bytes) : ∀ k i, Reads (search s n k i)
  | 0, _ => reads_pure _
  | k + 1, i => by
    rw [search]
    refine reads_bind (reads_entry s i) fun e => reads_bind (reads_read _) fun t => ?_
    split
    · exact reads_pure _
    · exact reads_search s n k (i + 1)

theorem reads_getAttr (s : Attrs) (n : Bytes) : Reads (getAttr s n) := by
  unfold getAttr
  refine reads_bind (reads_search s n _ _) fun r => ?_
  cases r with
  | none => exact reads_pure _
  | some i => exact reads_bind (reads_entry s i) fun e => reads_pure _

end AttrMem

/-- Any calls on a new element, in any memory: they are defined; the attributes are the map the calls make, each name there once;
    asking for an attribute, set or not, gives the text the map says; and deleting the element gives back all memory but some arrays and buffers,
    at most one for each call in which the copy of the name or the large buffer was refused. -/
theorem C91_attributes (cs : List Call) (hf : ∀ c ∈ cs, c.fits) (m : Mem) (F : Blocks) (hm : Heap m F) :
    ∃ s m', AttrMem.calls AttrMem.empty cs m = .ok (s, m') ∧
      (∀ n, ∃ p, AttrMem.getAttr s n m' = .ok (p, m') ∧ match (after cs n).getD none with
        | none => p = none
        | some t => ∃ q, p = some q ∧ m'.cells q = some (.text t)) ∧
      ∃ m'' ls, AttrMem.destroy s m' = .ok ((), m'') ∧ Heap m'' (ls + F) ∧ ls.card ≤ (cs.filter Call.refused).length ∧
        ∀ x ∈ ls, x.2 = .other := by
  have hm' : Heap m (0 + F) := by rw [zero_add]; exact hm
  obtain ⟨s, m', P, e1, ⟨as, Q, ls, k, h1, h2, h3, h4, rfl⟩, hh⟩ :=
    calls_does cs hf owns_empty (f := fun _ => none) ⟨by simp, fun n => rfl⟩ 0 m F (by rw [zero_add]; exact hm')
  rw [add_zero] at hh
  refine ⟨s, m', e1, fun n => ?_, ?_⟩
  · obtain ⟨p, m1, P, e2, ⟨g1, g2, rfl⟩, hh1⟩ := getAttr_does h1 n ls m' F hh
    cases reads_getAttr s n m' p m1 e2
    refine ⟨p, e2, ?_⟩
    have hv : value as n = (after cs n).getD none := by rw [value_lookup, h2.same]; rfl
    rw [hv] at g1 g2
    cases ht : (after cs n).getD none with
    | none =>
      rw [ht] at g1
      cases p with
      | none => rfl
      | some q => cases g1
    | some t =>
      rw [ht] at g1 g2
      cases p with
      | none => cases g1
      | some q =>
        refine ⟨q, rfl, (hh.cells q _).mpr ?_⟩
        exact Multiset.mem_add.mpr (.inl (Multiset.mem_add.mpr (.inl (Multiset.singleton_le.mp g2))))
  · obtain ⟨_, m'', P, e3, rfl, hh2⟩ := destroy_does h1 ls m' F hh
    exact ⟨m'', _, e3, hh2, by rw [h3.1]; exact h4, h3.2⟩

/-- If no copy of a name and no large buffer is refused, nothing is left. -/
theorem C91_nothing_left (cs : List Call) (hf : ∀ c ∈ cs, c.fits) (hc : ∀ c ∈ cs, c.refused = false) (m : Mem) (F : Blocks) (hm : Heap m F) :
    ∃ s m' m'', AttrMem.calls AttrMem.empty cs m = .ok (s, m') ∧ AttrMem.destroy s m' = .ok ((), m'') ∧ Heap m'' F := by
  obtain ⟨s, m', h1, _, m'', ls, h2, h3, h4, _⟩ := C91_attributes cs hf m F hm
  have : cs.filter Call.refused = [] := List.filter_eq_nil_iff.mpr fun c h => by rw [hc c h]; simp
  rw [this] at h4
  have h0 : ls = 0 := Multiset.card_eq_zero.mp (Nat.le_zero.mp h4)
  subst h0
  exact ⟨s, m', m'', h1, h2, by rwa [zero_add] at h3⟩

/-- What the reader and the writers of Model/Xml use for setting an attribute is the same function. -/
theorem C91_same_model (as : List (Bytes × Option Bytes)) (n : Bytes) (v : Option Bytes) :
    AttrMem.put as n v = Xml.Node.setAttrList n v as ∧ AttrMem.value as n = Xml.Node.findAttr n as := by
  induction as with
  | nil => exact ⟨rfl, rfl⟩
  | cons a as ih =>
    obtain ⟨m, w⟩ := a
    constructor
    · rw [AttrMem.put_cons, Xml.Node.setAttrList, ih.1]
      by_cases h : m = n
      · rw [if_pos h, if_pos h, h]
      · rw [if_neg h, if_neg h]
    · rw [AttrMem.value_lookup, AttrMem.lookup_cons', Xml.Node.findAttr]
      have := ih.2
      rw [AttrMem.value_lookup] at this
      by_cases h : m = n
      · rw [if_pos h.symm, if_pos h]; rfl
      · rw [if_neg (Ne.symm h), if_neg h, this]

/-! ### Examples -/

def exAttrCalls : List Call :=
  [.set false false false (b! "id") (some (b! "7")), .set false false false (b! "name") (some (b! "a")),
    .copy false false false (b! "id") (b! "name"), .copy false false false (b! "id") (b! "id"), .delete (b! "name"),
    .delete (b! "id"), .delete (b! "id"), .set true false false (b! "page") (some (b! "3")), .set false false false (b! "id") (some (b! "8")),
    .print false false false false (b! "frame") (b! "000012"), .print true false false false (b! "frame") (b! "000013")]

/-- The calls of the example: what was copied and deleted, and a value that was refused. -/
example : after exAttrCalls (b! "id") = some (some (b! "8")) ∧ after exAttrCalls (b! "page") = some none ∧ after exAttrCalls (b! "frame") = some (some (b! "000012")) ∧
    after exAttrCalls (b! "name") = none ∧ after (exAttrCalls.take 4) (b! "id") = some (some (b! "a")) := by decide

example : (∀ c ∈ exAttrCalls, c.refused = false) ∧ ∀ c ∈ exAttrCalls, c.fits := by decide

/-- An empty memory. -/
def noMemory : Mem := ⟨fun _ => none, 0⟩

theorem heap_noMemory : Heap noMemory 0 :=
  ⟨by simp, fun a b => ⟨fun h => (nomatch h), fun h => (by simp at h)⟩, fun x hx => by simp at hx⟩

example : ∃ s m' m'', AttrMem.calls AttrMem.empty exAttrCalls noMemory = .ok (s, m') ∧ AttrMem.destroy s m' = .ok ((), m'') ∧ Heap m'' 0 :=
  C91_nothing_left exAttrCalls (by decide) (by decide) noMemory 0 heap_noMemory

theorem AttrMem.bind_run {α β : Type} {p : M α} {m m' : Mem} {a : α} (h : p m = .ok (a, m')) (k : α → M β) : (p >>= k) m = k a m' := by
  show (match p m with
    | Res.ub => Res.ub
    | Res.ok (a, m') => k a m') = _
  rw [h]

/-- A long value, of which the large buffer is refused, loses the small one. -/
theorem C91_buffer_lost (t : Bytes) (h1 : 256 ≤ t.length) (h2 : t.length < 2147483647) : ∃ s m' m'',
    AttrMem.calls AttrMem.empty [.print false true false false (b! "id") t] noMemory = .ok (s, m') ∧
    s.num = 0 ∧ AttrMem.destroy s m' = .ok ((), m'') ∧ ∃ a, m''.cells a = some .other := by
  have e : vstrdupf false true t noMemory = .ok (none, ⟨fun x => if x = 0 then some .other else none, 1⟩) := by
    unfold vstrdupf
    rw [if_neg (by decide), if_neg (by omega), if_pos h2]
    rfl
  have e2 : setAttrf false true ⟨false, false, false⟩ AttrMem.empty (b! "id") t noMemory =
      .ok (AttrMem.empty, ⟨fun x => if x = 0 then some .other else none, 1⟩) := by
    unfold setAttrf
    rw [AttrMem.bind_run e]
    rfl
  have e3 : AttrMem.calls AttrMem.empty [.print false true false false (b! "id") t] noMemory =
      .ok (AttrMem.empty, ⟨fun x => if x = 0 then some .other else none, 1⟩) := by
    unfold AttrMem.calls AttrMem.call
    rw [AttrMem.bind_run e2]
    rfl
  exact ⟨_, _, _, e3, rfl, rfl, 0, rfl⟩

/-- If the copy of the name of the first attribute is refused, the array made for it is never freed: when the element is deleted
    it is still in use. -/
theorem C91_array_lost : ∃ s m' m'', AttrMem.calls AttrMem.empty [.set false false true (b! "id") (some (b! "7"))] noMemory = .ok (s, m') ∧
    s.num = 0 ∧ AttrMem.destroy s m' = .ok ((), m'') ∧ ∃ a, m''.cells a = some .other :=
  ⟨_, _, _, rfl, rfl, rfl, 1, rfl⟩

end Afs
