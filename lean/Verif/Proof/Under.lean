import Verif.Proof.IoMeta
import Verif.Proof.IoPreview
import Verif.Model.Io.File
/-! # Searching below a given parent, and searching lists of trees -/
namespace Afs
open Spec Xml

/-- First match in a list of trees. -/
def findL (cs : List Node) (nm : Bytes) : Option Node := (descendantsList cs).find? (named nm)

theorem find_eq_findL (n as cs nm) : find (.elem n as cs) nm = findL cs nm := find_elem n as cs nm

theorem findL_append (a b : List Node) (nm : Bytes) : findL (a ++ b) nm = (findL a nm).or (findL b nm) := by
  unfold findL; rw [descendantsList_append, List.find?_append]

theorem findL_nil (nm : Bytes) : findL [] nm = none := by unfold findL; rw [descendantsList]; rfl

theorem findL_cons (c : Node) (r : List Node) (nm : Bytes) : findL (c :: r) nm = (findL [c] nm).or (findL r nm) :=
  findL_append [c] r nm

theorem findL_none {cs : List Node} {nm : Bytes} (h : nm ∉ namesOf cs) : findL cs nm = none := find?_none_of_names h

theorem findL_self (n as cs) (r : List Node) : findL (.elem n as cs :: r) n = some (.elem n as cs) := find_first n as cs r

/-! ### The parent-aware search -/

theorem descUnderList_append (p : Bytes) (a b : List Node) :
    descUnderList p (a ++ b) = descUnderList p a ++ descUnderList p b := by
  induction a with
  | nil => rw [List.nil_append, descUnderList, List.nil_append]
  | cons x a ih => rw [List.cons_append, descUnderList, descUnderList, ih]; simp

mutual
theorem descUnder_snd : ∀ t : Node, (descUnder t).map Prod.snd = descendants t
  | .text s => by rw [descUnder, descendants]; rfl
  | .elem n as cs => by rw [descUnder, descendants]; exact descUnderList_snd n cs
theorem descUnderList_snd : ∀ (p : Bytes) (cs : List Node), (descUnderList p cs).map Prod.snd = descendantsList cs
  | p, [] => by rw [descUnderList, descendantsList]; rfl
  | p, c :: cs => by
    rw [descUnderList, descendantsList, List.map_cons, List.map_append, descUnder_snd c, descUnderList_snd p cs]
end

def isElem2 (x : Bytes × Node) : Bool := isElem x.2
def norm2 (x : Bytes × Node) : Bytes × Node := (x.1, norm x.2)

mutual
theorem descUnder_norm : ∀ t : Node, (descUnder (norm t)).filter isElem2 = ((descUnder t).filter isElem2).map norm2
  | .text s => by rw [norm, descUnder]; rfl
  | .elem n as cs => by
    rw [norm, descUnder, descUnder]
    split
    · exact descUnderList_norm n cs
    · rename_i h
      have : ∀ cs : List Node, ¬ cs.any isElem = true → (descUnderList n cs).filter isElem2 = [] := by
        intro cs
        induction cs with
        | nil => intro _; rw [descUnderList]; rfl
        | cons c cs ih =>
          intro h
          cases c with
          | elem => simp [isElem] at h
          | text s =>
            rw [descUnderList, descUnder]
            simp only [List.nil_append]
            rw [List.filter_cons_of_neg (by simp [isElem2, isElem])]
            exact ih (by simpa [isElem] using h)
      rw [this cs h]
      unfold leafText
      split
      · rw [descUnderList]; rfl
      · rw [descUnderList, descUnder, descUnderList]; rfl
theorem descUnderList_norm : ∀ (p : Bytes) (cs : List Node),
    (descUnderList p (normList cs)).filter isElem2 = ((descUnderList p cs).filter isElem2).map norm2
  | p, [] => by rw [normList, descUnderList]; rfl
  | p, .text s :: cs => by
    rw [normList, descUnderList_norm p cs]
    conv => rhs; rw [descUnderList, descUnder]
    rfl
  | p, .elem n as ks :: cs => by
    rw [normList, descUnderList, descUnderList, List.filter_cons_of_pos (by unfold isElem2; rw [isElem_norm]; rfl),
      List.filter_cons_of_pos (by rfl), List.filter_append, List.filter_append, descUnder_norm (.elem n as ks),
      descUnderList_norm p cs]
    simp [norm2]
end

theorem find?_filter_under (p nm : Bytes) (l : List (Bytes × Node)) :
    l.find? (fun x => x.1 == p && named nm x.2) = (l.filter isElem2).find? (fun x => x.1 == p && named nm x.2) := by
  induction l with
  | nil => rfl
  | cons x l ih =>
    cases hx : isElem2 x with
    | true => rw [List.filter_cons_of_pos hx, List.find?_cons, List.find?_cons, ih]
    | false =>
      have : named nm x.2 = false := by
        cases h : named nm x.2 with
        | false => rfl
        | true => unfold isElem2 at hx; rw [named_isElem h] at hx; cases hx
      rw [List.filter_cons_of_neg (by simp [hx]), List.find?_cons, this, ih]
      simp

theorem findUnder_norm (t : Node) (p nm : Bytes) : findUnder (norm t) p nm = (findUnder t p nm).map norm := by
  unfold findUnder
  rw [find?_filter_under, descUnder_norm, find?_filter_under (l := descUnder t), List.find?_map, Option.map_map, Option.map_map]
  have : ((fun x : Bytes × Node => x.1 == p && named nm x.2) ∘ norm2) = fun x => x.1 == p && named nm x.2 := by
    funext x
    simp only [Function.comp, norm2, named_norm]
  rw [this]
  rfl

theorem isRead_findUnder {t u : Node} (h : IsRead t u) (p nm : Bytes) :
    (findUnder t p nm = none ∧ findUnder u p nm = none) ∨
      ∃ d e, findUnder t p nm = some d ∧ findUnder u p nm = some e ∧ IsRead d e := by
  have hf := findUnder_norm t p nm
  rw [h.2] at hf
  cases hd : findUnder t p nm with
  | none => rw [hd] at hf; exact .inl ⟨rfl, hf⟩
  | some d =>
    rw [hd] at hf
    refine .inr ⟨d, norm d, rfl, hf, ?_, rfl⟩
    unfold findUnder at hd
    obtain ⟨x, hx, rfl⟩ := Option.map_eq_some_iff.mp hd
    refine normal_descendants t h.1 x.2 ?_
    rw [← descUnder_snd]
    exact List.mem_map_of_mem (List.mem_of_find?_eq_some hx)

theorem isRead_findUnder_some {t u e : Node} (h : IsRead t u) {p nm : Bytes} (he : findUnder u p nm = some e) :
    ∃ d, findUnder t p nm = some d ∧ IsRead d e := by
  rcases isRead_findUnder h p nm with ⟨_, h2⟩ | ⟨d, e', h1, h2, h3⟩
  · rw [he] at h2; cases h2
  · rw [he] at h2; injection h2 with h2; exact ⟨d, h1, h2 ▸ h3⟩

theorem isRead_findUnder_none {t u : Node} (h : IsRead t u) {p nm : Bytes} (he : findUnder u p nm = none) :
    findUnder t p nm = none := by
  rcases isRead_findUnder h p nm with ⟨h1, _⟩ | ⟨d, e', h1, h2, h3⟩
  · exact h1
  · rw [he] at h2; cases h2

/-- First match with parent `p` in the children of an element named `q`. -/
def underL (q : Bytes) (cs : List Node) (p nm : Bytes) : Option Node :=
  ((descUnderList q cs).find? fun x => x.1 == p && named nm x.2).map Prod.snd

theorem findUnder_eq (n as cs p nm) : findUnder (.elem n as cs) p nm = underL n cs p nm := by
  unfold findUnder underL; rw [descUnder]

theorem underL_append (q : Bytes) (a b : List Node) (p nm : Bytes) :
    underL q (a ++ b) p nm = (underL q a p nm).or (underL q b p nm) := by
  unfold underL
  rw [descUnderList_append, List.find?_append]
  cases (descUnderList q a).find? fun x => x.1 == p && named nm x.2 <;> simp

theorem underL_none_names {q : Bytes} {cs : List Node} {p nm : Bytes} (h : nm ∉ namesOf cs) : underL q cs p nm = none := by
  unfold underL
  rw [Option.map_eq_none_iff, List.find?_eq_none]
  intro x hx hn
  apply h
  unfold namesOf
  rw [List.mem_filterMap, ← descUnderList_snd q cs]
  refine ⟨x.2, List.mem_map_of_mem hx, ?_⟩
  simp only [Bool.and_eq_true] at hn
  simpa [named] using hn.2

/-- No node has a parent of that name. -/
theorem underL_none_parents {q : Bytes} {cs : List Node} {p nm : Bytes}
    (h : ∀ x ∈ descUnderList q cs, x.1 = p → named nm x.2 = false) : underL q cs p nm = none := by
  unfold underL
  rw [Option.map_eq_none_iff, List.find?_eq_none]
  intro x hx hn
  simp only [Bool.and_eq_true, beq_iff_eq] at hn
  rw [h x hx hn.1] at hn
  exact absurd hn.2 (by decide)

theorem underL_self (q n as cs) (r : List Node) : underL q (.elem n as cs :: r) q n = some (.elem n as cs) := by
  unfold underL
  rw [descUnderList, List.find?_cons_of_pos (by simp [named, Node.element])]
  rfl

end Afs
