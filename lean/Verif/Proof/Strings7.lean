import Verif.Proof.Strings6
/-!
# From blocks to the description of memory (C72)
-/
namespace Afs.Strings
open Afs Afs.Xml Afs.Spec.Strings

theorem cell_fst {p : Option Nat} {t : Option Bytes} (h : Ok p t) : (cell p t).map Prod.fst = (p.toList : List Nat) := by
  cases p <;> cases t <;> first | rfl | cases h

theorem own_fst_list {s : Strs} {t : Field → Option Bytes} (h : ∀ f, Ok (s.at' f) (t f)) : ∀ (fs : List Field),
    ((fs.map fun f => cell (s.at' f) (t f)).sum).map Prod.fst = (fs.filterMap s.at' : List Nat)
  | [] => rfl
  | f :: fs => by
    rw [List.map_cons, List.sum_cons, Multiset.map_add, own_fst_list h fs, cell_fst (h f)]
    cases hf : s.at' f with
    | none => simp [hf]
    | some p => simp [hf]

theorem zip_fst : ∀ {ps : List Nat} {bs : List Block}, ps.length = bs.length → (ps.zip bs).map Prod.fst = ps
  | [], [], _ => rfl
  | p :: ps, b :: bs, h => by
    simp only [List.zip_cons_cons, List.map_cons]
    rw [zip_fst (by simpa using h)]
  | [], _ :: _, h => by cases h
  | _ :: _, [], h => by cases h

theorem obj_fst {s : Strs} {v : Val} (hok : ∀ f, Ok (s.at' f) (v.text f)) (ht : TagsOk s.tags v.tags) :
    (own s v.text + tagCells s.tags v.tags).map Prod.fst = (addresses s : List Nat) := by
  rw [Multiset.map_add]
  unfold own addresses
  rw [own_fst_list hok]
  rw [← Multiset.coe_add]
  congr 1
  cases hs : s.tags with
  | none => simp [tagCells]
  | some q =>
    obtain ⟨a, ps⟩ := q
    rw [hs] at ht
    cases htg : v.tags with
    | none => rw [htg] at ht; exact ht.elim
    | some bs =>
      rw [htg] at ht
      have hl : ps.length = bs.length := ht
      show Multiset.map Prod.fst ((a, Block.other) ::ₘ (ps.zip (bs.map Block.text) : List (Nat × Block))) = _
      rw [Multiset.map_cons, Multiset.map_coe, zip_fst (by simp [hl])]
      rfl

theorem total_fst : ∀ {o : Objs} {vs : List (Option Val)}, List.Forall₂ ObjOk o vs →
    (total o vs).map Prod.fst = (allAddresses o : List Nat)
  | _, _, .nil => rfl
  | x :: o, y :: vs, .cons h1 h2 => by
    cases x with
    | none => cases y with
      | none =>
        have e : allAddresses (none :: o) = allAddresses o := rfl
        rw [e, total, Multiset.map_add, total_fst h2]
        exact zero_add _
      | some v => exact h1.elim
    | some x => cases y with
      | none => exact h1.elim
      | some v =>
        have e : allAddresses (some x :: o) = addresses x.2 ++ allAddresses o := rfl
        rw [e, total, Multiset.map_add, total_fst h2, ← Multiset.coe_add]
        congr 1
        exact obj_fst h1.2.1 h1.2.2

theorem holds_cell {m : Mem} {L : Blocks} (h : Heap m L) {p : Option Nat} {t : Option Bytes} (hok : Ok p t) (hL : cell p t ≤ L) :
    Holds m p t := by
  cases p with
  | none => cases t with
    | none => exact True.intro
    | some b => cases hok
  | some p => cases t with
    | none => cases hok
    | some b => exact (h.cells p _).mpr (Multiset.singleton_le.mp hL)

theorem holds_list {m : Mem} : ∀ {ps : List Nat} {bs : List Bytes}, ps.length = bs.length →
    (∀ x ∈ ps.zip (bs.map Block.text), m.cells x.1 = some x.2) → ps.map m.cells = bs.map fun b => some (.text b)
  | [], [], _, _ => rfl
  | p :: ps, b :: bs, h, hz => by
    simp only [List.map_cons, List.zip_cons_cons] at hz ⊢
    rw [holds_list (by simpa using h) (fun x hx => hz x (by simp [hx])), hz (p, .text b) (by simp)]
  | [], _ :: _, h, _ => by cases h
  | _ :: _, [], h, _ => by cases h

theorem is_obj {m : Mem} {L : Blocks} (h : Heap m L) {s : Strs} {v : Val} (hok : ∀ f, Ok (s.at' f) (v.text f)) (ht : TagsOk s.tags v.tags)
    (hL : own s v.text + tagCells s.tags v.tags ≤ L) : Is m v.kind s v := by
  refine ⟨rfl, fun f => holds_cell h (hok f) (le_trans ?_ hL), ?_⟩
  · rw [own_eq s v.text f, add_assoc]
    exact Multiset.le_add_right _ _
  · have hT : tagCells s.tags v.tags ≤ L := le_trans (Multiset.le_add_left _ _) hL
    cases hs : s.tags with
    | none =>
      rw [hs] at ht
      cases htg : v.tags with
      | none => exact True.intro
      | some bs => rw [htg] at ht; exact ht.elim
    | some q =>
      obtain ⟨a, ps⟩ := q
      rw [hs] at ht hT
      cases htg : v.tags with
      | none => rw [htg] at ht; exact ht.elim
      | some bs =>
        rw [htg] at ht hT
        have hl : ps.length = bs.length := ht
        have hT' : ((a, Block.other) ::ₘ (ps.zip (bs.map Block.text) : List (Nat × Block)) : Blocks) ≤ L := hT
        refine ⟨(h.cells a _).mpr (Multiset.mem_of_le hT' (Multiset.mem_cons_self _ _)), holds_list hl ?_⟩
        intro x hx
        exact (h.cells x.1 x.2).mpr (Multiset.mem_of_le hT' (Multiset.mem_cons_of_mem (Multiset.mem_coe.mpr hx)))

theorem same_objs {m : Mem} {L : Blocks} (h : Heap m L) : ∀ {o : Objs} {vs : List (Option Val)}, List.Forall₂ ObjOk o vs →
    total o vs ≤ L → List.Forall₂ (Same m) o vs
  | _, _, .nil, _ => .nil
  | x :: o, y :: vs, .cons h1 h2, hL => by
    rw [total] at hL
    refine .cons ?_ (same_objs h h2 (le_trans (Multiset.le_add_left _ _) hL))
    have hx : objCells x y ≤ L := le_trans (Multiset.le_add_right _ _) hL
    cases x with
    | none => cases y with
      | none => exact True.intro
      | some v => exact h1.elim
    | some x => cases y with
      | none => exact h1.elim
      | some v =>
        obtain ⟨k, s⟩ := x
        obtain ⟨hk, hok, ht⟩ := h1
        have hk' : k = v.kind := hk
        subst hk'
        exact is_obj h hok ht hx

theorem describes_of {o : Objs} {m : Mem} {w : World} {Q : Blocks} (h : WSt o w Q) (hm : Heap m Q) : Describes o m w := by
  obtain ⟨hf, L, hL, rfl⟩ := h
  refine ⟨same_objs hm hf (Multiset.le_add_right _ _), ?_⟩
  have hall : (total o w.objs + L).map Prod.fst = ((allAddresses o ++ L.toList.map Prod.fst : List Nat) : Multiset Nat) := by
    rw [Multiset.map_add, total_fst hf, ← Multiset.coe_add, ← Multiset.map_coe, Multiset.coe_toList]
  refine ⟨L.toList.map Prod.fst, ?_, ?_, ?_⟩
  · have := hm.nodup
    rw [hall] at this
    exact Multiset.coe_nodup.mp this
  · intro a
    rw [← Multiset.mem_coe, ← hall, Multiset.mem_map]
    constructor
    · intro ha
      cases hc : m.cells a with
      | none => exact absurd hc ha
      | some b => exact ⟨(a, b), (hm.cells a b).mp hc, rfl⟩
    · rintro ⟨⟨a', b⟩, hx, rfl⟩
      rw [(hm.cells a' b).mpr hx]
      simp
  · have e : (L.toList.map Prod.fst).map m.cells = (L.toList.map Prod.snd).map some := by
      rw [List.map_map, List.map_map]
      refine List.map_congr_left ?_
      intro x hx
      have hx' : x ∈ total o w.objs + L := Multiset.mem_add.mpr (Or.inr (Multiset.mem_toList.mp hx))
      exact (hm.cells x.1 x.2).mpr hx'
    rw [e]
    refine List.Perm.map some ?_
    rw [← Multiset.coe_eq_coe, ← Multiset.map_coe, Multiset.coe_toList, hL]

theorem heap_init : Heap Mem.init 0 := ⟨by simp, by simp [Mem.init], by simp⟩

theorem run_world {w : World} {cs : List Call} (hs : Steps World.init cs w) :
    ∃ o m Q, calls [] cs Mem.init = .ok (o, m) ∧ WSt o w Q ∧ Heap m Q := by
  have h0 : WSt [] World.init 0 := ⟨.nil, 0, rfl, rfl⟩
  obtain ⟨o, m, Q, e, hw, hm⟩ := steps_does hs h0 Mem.init 0 (by rw [add_zero]; exact heap_init)
  rw [add_zero] at hm
  exact ⟨o, m, Q, e, hw, hm⟩

theorem calls_append : ∀ (cs ds : List Call) (o : Objs), calls o (cs ++ ds) = calls o cs >>= fun o => calls o ds
  | [], ds, o => rfl
  | c :: cs, ds, o => by
    show (call o c >>= fun o => calls o (cs ++ ds)) = (call o c >>= fun o => calls o cs) >>= fun o => calls o ds
    rw [bind_assoc']
    refine congrArg (fun k => call o c >>= k) (funext fun o => ?_)
    exact calls_append cs ds o

end Afs.Strings
