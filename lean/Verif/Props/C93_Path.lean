import Verif.Model.Xml.Find
import Verif.Spec.Path
/-!
# C93: searching by name, attribute, level and path
-/
namespace Afs
open Xml Spec.Path

theorem searchAll_eq (p : Node → Bool) (c : Cursor) :
    searchAll p c = match walkNext c with
      | none => none
      | some d => if p d.node then some d else searchAll p d := by
  rw [searchAll]
  split <;> simp_all

theorem searchAll_rest (p : Node → Bool) (c : Cursor) :
    (c.rest.filter p) = match searchAll p c with
      | none => []
      | some d => d.node :: d.rest.filter p := by
  generalize hk : c.rest.length = k
  induction k using Nat.strongRecOn generalizing c with
  | _ k ih =>
    have hw := walkNext_rest c
    rw [searchAll_eq]
    cases hn : walkNext c with
    | none => rw [hn] at hw; simp [hw]
    | some d =>
      rw [hn] at hw
      simp only at hw ⊢
      rw [hw, List.filter_cons]
      by_cases hp : p d.node = true
      · simp [hp]
      · rw [if_neg hp, if_neg hp]
        exact ih d.rest.length (by rw [← hk, hw]; simp) d rfl

theorem searchAll_less (p : Node → Bool) (c d : Cursor) (h : searchAll p c = some d) :
    d.rest.length < c.rest.length := by
  generalize hk : c.rest.length = k
  induction k using Nat.strongRecOn generalizing c with
  | _ k ih =>
    have hw := walkNext_rest c
    rw [searchAll_eq] at h
    cases hn : walkNext c with
    | none => simp [hn] at h
    | some e =>
      rw [hn] at hw h
      simp only at hw h
      have hl : e.rest.length < k := by rw [← hk, hw]; simp
      split at h
      · cases h; exact hl
      · exact Nat.lt_trans (ih e.rest.length hl e h rfl) hl

theorem visits_all (p : Node → Bool) (c : Cursor) : Visits (searchAll p) (searchAll p c) (c.rest.filter p) := by
  generalize hk : c.rest.length = k
  induction k using Nat.strongRecOn generalizing c with
  | _ k ih =>
    have hr := searchAll_rest p c
    cases h : searchAll p c with
    | none => rw [h] at hr; rw [hr]; exact .stop
    | some d =>
      rw [h] at hr
      rw [hr]
      exact .found (ih d.rest.length (hk ▸ searchAll_less p c d h) d rfl)

/-- Going on along the siblings (the search without descending). -/
def onLevel (p : Node → Bool) (c : Cursor) : Option Cursor :=
  match walkOver c with
  | none => none
  | some d => searchLevel p d.node d.nexts d.ups

theorem visits_level (p : Node → Bool) (xs : List Node) (x : Node) :
    Visits (onLevel p) (searchLevel p x xs []) ((x :: xs).filter p) := by
  induction xs generalizing x with
  | nil =>
    rw [searchLevel]
    by_cases h : p x = true
    · simp only [h, if_true, List.filter_cons, List.filter_nil]
      exact .found .stop
    · simp only [h, List.filter_cons, List.filter_nil]
      exact .stop
  | cons y ys ih =>
    rw [searchLevel, List.filter_cons]
    by_cases h : p x = true
    · rw [if_pos h, if_pos h]
      exact .found (ih y)
    · rw [if_neg h, if_neg h]
      exact ih y

theorem matching_iff (name attr value : Option Bytes) (n : Node) :
    matching name attr value n = true ↔ Wanted name attr value n := by
  unfold Wanted
  cases n with
  | text s => simp [matching, Node.element]
  | elem e as cs =>
    unfold matching
    simp only [Node.element, Node.attrs, Node.elem.injEq]
    constructor
    · intro h
      simp only [Bool.and_eq_true, Bool.or_eq_true, Option.isNone_iff_eq_none, beq_iff_eq] at h
      refine ⟨e, as, cs, ⟨rfl, rfl, rfl⟩, ?_, ?_⟩
      · intro m hm
        rcases h.1 with hn | hn
        · rw [hn] at hm; cases hm
        · rw [hn] at hm; exact (Option.some.inj hm).symm
      · intro a ha
        rw [ha] at h
        simp only at h
        cases hf : Node.findAttr a as with
        | none => rw [hf] at h; simp at h
        | some t =>
          rw [hf] at h
          refine ⟨t, rfl, fun v hv => ?_⟩
          rw [hv] at h
          simpa using h.2
    · rintro ⟨e', as', cs', ⟨rfl, rfl, rfl⟩, hn, ha⟩
      simp only [Bool.and_eq_true, Bool.or_eq_true, Option.isNone_iff_eq_none, beq_iff_eq]
      constructor
      · cases name with
        | none => exact .inl rfl
        | some m => exact .inr (by rw [hn m rfl])
      · cases attr with
        | none => rfl
        | some a =>
          obtain ⟨t, ht, hv⟩ := ha a rfl
          simp only [ht]
          cases value with
          | none => rfl
          | some v => simp [hv v rfl]

open scoped Classical in
theorem matching_eq (name attr value : Option Bytes) :
    matching name attr value = fun n => decide (Wanted name attr value n) := by
  funext n
  rw [Bool.eq_iff_iff, decide_eq_true_iff]
  exact matching_iff name attr value n

open scoped Classical in
/-- Searching again and again in the whole tree gives exactly the wanted elements below the node, each once,
    in document order. -/
theorem C93_everywhere (t : Node) (name attr value : Option Bytes) (h : attr = none → value = none) :
    Visits (fun d => findElementBy d name attr value .all) (findElementBy (.top t) name attr value .all)
      ((descendants t).filter fun n => decide (Wanted name attr value n)) := by
  have e : ∀ c, findElementBy c name attr value .all = searchAll (matching name attr value) c := by
    intro c
    rw [findElementBy, if_neg]
    intro hc
    simp only [Bool.and_eq_true, Option.isNone_iff_eq_none] at hc
    rw [h hc.1] at hc
    cases hc.2
  have hv := visits_all (matching name attr value) (.top t)
  have hr : (Cursor.top t).rest = descendants t := by simp [Cursor.rest, Cursor.top]
  rw [hr] at hv
  simp only [e]
  rw [← matching_eq]
  exact hv

open scoped Classical in
/-- Descending once and then going on along the siblings gives exactly the wanted elements among the children. -/
theorem C93_children (t : Node) (name attr value : Option Bytes) (h : attr = none → value = none) :
    Visits (fun d => findElementBy d name attr value .no) (findElementBy (.top t) name attr value .first)
      (t.children.filter fun n => decide (Wanted name attr value n)) := by
  have hn : ¬ ((attr.isNone && value.isSome) = true) := by
    intro hc
    simp only [Bool.and_eq_true, Option.isNone_iff_eq_none] at hc
    rw [h hc.1] at hc
    cases hc.2
  have e : (fun d => findElementBy d name attr value .no) = onLevel (matching name attr value) := by
    funext c
    rw [findElementBy, if_neg hn]
    rfl
  rw [e, findElementBy, if_neg hn, ← matching_eq]
  simp only [walkNext, Cursor.top]
  cases t.children with
  | nil => exact .stop
  | cons x xs => exact visits_level _ xs x

/-- There is nothing beside the node the search is confined to. -/
theorem C93_beside (t : Node) (name attr value : Option Bytes) : findElementBy (.top t) name attr value .no = none := by
  simp [findElementBy, walkOver, Cursor.top]

/-- Asking for a value without saying of which attribute finds nothing. -/
theorem C93_value_alone (c : Cursor) (name : Option Bytes) (value : Bytes) (level : Level) :
    findElementBy c name none (some value) level = none := rfl


theorem followPath_eq (n : Node) (p : Bytes) : followPath n p =
    if p = [] then some n
    else if component (skipWild p) = [] ∨ 256 ≤ (component (skipWild p)).length then none
    else
      match findElementBy (.top n) (some (component (skipWild p))) none none
          (if wild p then .all else .first) with
      | none => none
      | some d => followPath d.node ((skipWild p).drop ((component (skipWild p)).length + 1)) := by
  rw [followPath]
  split
  · rfl
  · rfl

theorem visits_head {f : Cursor → Option Cursor} {o : Option Cursor} {l : List Node} (h : Visits f o l) :
    o.map Cursor.node = l.head? := by
  cases h <;> rfl

theorem matching_name (nm : Bytes) : matching (some nm) none none = fun m => m.element == some nm := by
  funext m
  unfold matching
  cases m.element with
  | none => rfl
  | some e =>
    show ((false || some nm == some e) && true) = _
    rw [Bool.and_true, Bool.false_or, Bool.eq_iff_iff, beq_iff_eq, beq_iff_eq]
    exact eq_comm

theorem find_step (n : Node) (nm : Bytes) (a : Bool) :
    (findElementBy (.top n) (some nm) none none (if a then .all else .first)).map Cursor.node =
      (if a then descendants n else n.children).find? fun m => m.element == some nm := by
  rw [← List.head?_filter, ← matching_name]
  cases a with
  | true =>
    have hv := visits_all (matching (some nm) none none) (.top n)
    have hr : (Cursor.top n).rest = descendants n := by simp [Cursor.rest, Cursor.top]
    rw [hr] at hv
    exact visits_head hv
  | false =>
    simp only [findElementBy, walkNext, Cursor.top, Bool.false_eq_true, if_false]
    cases n.children with
    | nil => rfl
    | cons x xs => exact visits_head (visits_level _ xs x)

theorem component_append (nm r : Bytes) (h : 47 ∉ nm) (hr : r = [] ∨ ∃ q, r = 47 :: q) :
    component (nm ++ r) = nm := by
  unfold component
  rw [List.takeWhile_append_of_pos]
  · rcases hr with rfl | ⟨q, rfl⟩ <;> simp
  · intro x hx
    simp only [ne_eq, decide_eq_true_eq]
    rintro rfl
    exact h hx

theorem wild_text (s : Step) (r : Bytes) (h : s.Ok) (hr : r = [] ∨ (∃ q, r = 47 :: q) ∧ ¬ s.Star) :
    wild (s.text ++ r) = s.anywhere ∧ skipWild (s.text ++ r) = s.name ++ r := by
  obtain ⟨h1, h2, h3⟩ := h
  obtain ⟨a, nm⟩ := s
  cases a with
  | true =>
    have : wild ((Step.mk true nm).text ++ r) = true := rfl
    exact ⟨this, by rw [skipWild, if_pos this]; rfl⟩
  | false =>
    have ht : (Step.mk false nm).text = nm := rfl
    simp only at h1 h2 h3
    have : wild ((Step.mk false nm).text ++ r) = false := by
      rw [ht, wild, beq_eq_false_iff_ne]
      cases nm with
      | nil => exact absurd rfl h1
      | cons x xs =>
        cases xs with
        | nil =>
          rcases hr with rfl | ⟨⟨q, rfl⟩, hs⟩
          · intro hc; cases hc
          · intro hc
            apply hs
            refine ⟨rfl, ?_⟩
            have : x = 42 := (List.cons.inj hc).1
            rw [this]
        | cons y ys =>
          intro hc
          have : y = 47 := (List.cons.inj (List.cons.inj hc).2).1
          exact h2 (by rw [this]; simp)
    refine ⟨this, ?_⟩
    rw [skipWild, if_neg (by rw [this]; decide)]
    rfl

theorem followPath_step (n : Node) (s : Step) (r : Bytes) (h : s.Ok)
    (hr : r = [] ∨ (∃ q, r = 47 :: q) ∧ ¬ s.Star) :
    followPath n (s.text ++ r) =
      match (if s.anywhere then descendants n else n.children).find? fun m => m.element == some s.name with
      | none => none
      | some m => followPath m (r.drop 1) := by
  obtain ⟨hw, hk⟩ := wild_text s r h hr
  have hc : component (s.name ++ r) = s.name := component_append _ _ h.2.1 (hr.imp_right (·.1))
  have hne : s.text ++ r ≠ [] := by
    intro hc
    have : skipWild [] = s.name ++ r := by rw [← hk, hc]
    have h0 : s.name ++ r = [] := this.symm
    exact h.1 (List.append_eq_nil_iff.mp h0).1
  rw [followPath_eq, if_neg hne, hw, hk, hc, if_neg (by have := h.1; have := h.2.2; simp_all; omega)]
  rw [← find_step]
  have hd : (s.name ++ r).drop (s.name.length + 1) = r.drop 1 := by
    rw [← List.drop_drop, List.drop_left]
  rw [hd]
  cases findElementBy (.top n) (some s.name) none none (if s.anywhere then .all else .first) <;> rfl

theorem path_ne_nil {p : Bytes} {ss : List Step} (h : Path p ss) : p ≠ [] := by
  cases h with
  | last ok => exact fun hc => ok.1 (List.append_eq_nil_iff.mp hc).2
  | slash ok => simp
  | cons ok => simp

theorem followPath_nil (n : Node) : followPath n [] = some n := by rw [followPath_eq, if_pos rfl]

theorem followPath_follow {p : Bytes} {ss : List Step} (h : Path p ss) (n : Node) :
    followPath n p = follow ss n := by
  induction h generalizing n with
  | @last s ok =>
    have := followPath_step n s [] ok (.inl rfl)
    rw [List.append_nil] at this
    rw [this, follow]
    simp only [List.drop_nil, followPath_nil]
    rfl
  | @slash s ok hs =>
    rw [followPath_step n s (b! "/") ok (.inr ⟨⟨[], rfl⟩, hs⟩), follow]
    simp only [show (b! "/").drop 1 = [] from rfl, followPath_nil]
    rfl
  | @cons s p ss ok hs _ ih =>
    rw [List.append_assoc, followPath_step n s (b! "/" ++ p) ok (.inr ⟨⟨p, rfl⟩, hs⟩), follow]
    simp only [show (b! "/" ++ p).drop 1 = p from rfl, ih]
    rfl

/-- A path leads where its steps lead, each to the first node with the name; of an element that begins with a text,
    the text is given. -/
theorem C93_path (top : Node) (p : Bytes) (ss : List Step) (h : Path p ss) :
    findPath top p = (follow ss top).map content := by
  rw [findPath, if_neg (path_ne_nil h), followPath_follow h]
  rfl

theorem path_of_follow (k : Nat) (n m : Node) (p : Bytes) (hk : p.length ≤ k) (hp : p ≠ [])
    (h : followPath n p = some m) : ∃ ss, Path p ss := by
  induction k generalizing n p with
  | zero => exact absurd (List.length_eq_zero_iff.mp (Nat.le_zero.mp hk)) hp
  | succ k ih =>
    rw [followPath_eq, if_neg hp] at h
    split at h
    · cases h
    · rename_i hc
      rw [not_or] at hc
      split at h
      · cases h
      · rename_i d _
        have hsplit : skipWild p = component (skipWild p) ++ (skipWild p).dropWhile (· ≠ 47) :=
          (List.takeWhile_append_dropWhile).symm
        generalize hcn : component (skipWild p) = c at *
        generalize hrn : (skipWild p).dropWhile (· ≠ 47) = r at *
        have hslash : 47 ∉ c := by
          rw [← hcn]
          intro hx
          have := List.all_takeWhile (p := fun x : UInt8 => decide (x ≠ 47)) (l := skipWild p)
          rw [List.all_eq_true] at this
          exact absurd (this 47 hx) (by decide)
        have ok : (Step.mk (wild p) c).Ok := ⟨hc.1, hslash, by have := hc.2; show c.length ≤ 255; omega⟩
        have hpt : p = (Step.mk (wild p) c).text ++ r := by
          unfold Step.text
          show p = (if wild p = true then b! "*/" else []) ++ c ++ r
          rw [List.append_assoc, ← hsplit, skipWild]
          split
          · rename_i hw
            rw [wild, beq_iff_eq] at hw
            rw [← hw, List.take_append_drop]
          · rfl
        have hr : r = [] ∨ ∃ q, r = 47 :: q := by
          cases r with
          | nil => exact .inl rfl
          | cons x q =>
            have := List.head?_dropWhile_not (· ≠ (47 : UInt8)) (skipWild p)
            rw [hrn] at this
            simp only [List.head?_cons, ne_eq, decide_not, Bool.not_eq_eq_eq_not, Bool.not_false,
              decide_eq_true_eq] at this
            exact .inr ⟨q, by rw [this]⟩
        rcases hr with rfl | ⟨q, rfl⟩
        · rw [List.append_nil] at hpt
          rw [hpt]
          exact ⟨_, .last ok⟩
        · have hs : ¬ (Step.mk (wild p) c).Star := by
            rintro ⟨hw, hn⟩
            simp only at hw hn
            have : p = b! "*" ++ 47 :: q := by
              rw [hpt, Step.text, hw, hn]
              rfl
            rw [this] at hw
            cases hw
          have hd : (skipWild p).drop (c.length + 1) = q := by
            rw [hsplit, ← List.drop_drop, List.drop_left]
            rfl
          rw [hd] at h
          have hpt' : p = (Step.mk (wild p) c).text ++ b! "/" ++ q := by
            rw [List.append_assoc]
            exact hpt
          by_cases hq : q = []
          · rw [hpt', hq, List.append_nil]
            exact ⟨_, .slash ok hs⟩
          · have hl : q.length ≤ k := by
              have := congrArg List.length hpt'
              simp only [List.length_append, show (b! "/").length = 1 from rfl] at this
              omega
            obtain ⟨ss, hss⟩ := ih d.node q hl hq h
            rw [hpt']
            exact ⟨_, .cons ok hs hss⟩

/-- What is not a path leads nowhere. -/
theorem C93_no_path (top : Node) (p : Bytes) (h : ∀ ss, ¬ Path p ss) : findPath top p = none := by
  rw [findPath]
  split
  · rfl
  · rename_i hp
    cases hf : followPath top p with
    | none => rfl
    | some m =>
      obtain ⟨ss, hss⟩ := path_of_follow p.length top m p (Nat.le_refl _) hp hf
      exact absurd hss (h ss)

theorem text_inj (s s' : Step) (r r' : Bytes) (h : s.Ok) (h' : s'.Ok)
    (hr : r = [] ∨ (∃ q, r = 47 :: q) ∧ ¬ s.Star) (hr' : r' = [] ∨ (∃ q, r' = 47 :: q) ∧ ¬ s'.Star)
    (e : s.text ++ r = s'.text ++ r') : s = s' ∧ r = r' := by
  obtain ⟨hw, hk⟩ := wild_text s r h hr
  obtain ⟨hw', hk'⟩ := wild_text s' r' h' hr'
  have ha : s.anywhere = s'.anywhere := by rw [← hw, ← hw', e]
  have hn : s.name = s'.name := by
    rw [← component_append s.name r h.2.1 (hr.imp_right (·.1)),
      ← component_append s'.name r' h'.2.1 (hr'.imp_right (·.1)), ← hk, ← hk', e]
  have hs : s = s' := by
    cases s; cases s'; simp_all
  subst hs
  exact ⟨rfl, List.append_cancel_left e⟩

/-- A path stands for one list of steps. -/
theorem C93_unambiguous (p : Bytes) (ss ss' : List Step) (h : Path p ss) (h' : Path p ss') : ss = ss' := by
  have view : ∀ {p ss}, Path p ss → ∃ s r ss₁, s.Ok ∧ (r = [] ∨ (∃ q, r = 47 :: q) ∧ ¬ s.Star) ∧
      p = s.text ++ r ∧ ss = s :: ss₁ ∧ (r.drop 1 = [] ∧ ss₁ = [] ∨ Path (r.drop 1) ss₁) := by
    intro p ss h
    cases h with
    | @last s ok => exact ⟨s, [], [], ok, .inl rfl, (List.append_nil _).symm, rfl, .inl ⟨rfl, rfl⟩⟩
    | @slash s ok hs => exact ⟨s, b! "/", [], ok, .inr ⟨⟨[], rfl⟩, hs⟩, rfl, rfl, .inl ⟨rfl, rfl⟩⟩
    | @cons s p ss ok hs h =>
      exact ⟨s, b! "/" ++ p, ss, ok, .inr ⟨⟨p, rfl⟩, hs⟩, List.append_assoc .., rfl, .inr h⟩
  generalize hk : p.length = k
  induction k using Nat.strongRecOn generalizing p ss ss' with
  | _ k ih =>
    obtain ⟨s, r, s1, ok, hr, hp, rfl, ht⟩ := view h
    obtain ⟨s', r', s1', ok', hr', hp', rfl, ht'⟩ := view h'
    obtain ⟨rfl, rfl⟩ := text_inj s s' r r' ok ok' hr hr' (by rw [← hp, ← hp'])
    rcases ht with ⟨e, rfl⟩ | ht
    · rcases ht' with ⟨_, rfl⟩ | ht'
      · rfl
      · exact absurd e (path_ne_nil ht')
    · rcases ht' with ⟨e, rfl⟩ | ht'
      · exact absurd e (path_ne_nil ht)
      · have hl : (r.drop 1).length < k := by
          have := path_ne_nil ht
          have : 0 < (r.drop 1).length := List.length_pos_iff.mpr this
          rw [← hk, hp, List.length_append]
          simp only [List.length_drop] at *
          omega
        rw [ih _ hl _ _ _ ht ht' rfl]

/-- Two `a`, of which only the second one has a `b`. -/
def pathExample : Node :=
  .elem (b! "r") [] [.elem (b! "a") [] [.elem (b! "c") [] []],
    .elem (b! "a") [] [.elem (b! "b") [(b! "k", b! "v")] [.text (b! "x")]]]

/-- The steps to `b` of `r/a/b`. -/
def pathSteps : List Step := [⟨false, b! "a"⟩, ⟨false, b! "b"⟩]

example : Path (b! "a/b") pathSteps :=
  .cons (s := ⟨false, b! "a"⟩) (p := b! "b") (ss := [⟨false, b! "b"⟩]) ⟨by decide, by decide, by decide⟩ (fun h => by cases h.2)
    (.last (s := ⟨false, b! "b"⟩) ⟨by decide, by decide, by decide⟩)

example : Path (b! "*/b") [⟨true, b! "b"⟩] := .last (s := ⟨true, b! "b"⟩) ⟨by decide, by decide, by decide⟩

theorem path_b : findPath pathExample (b! "*/b") = some (.text (b! "x")) := by
  rw [C93_path pathExample (b! "*/b") [⟨true, b! "b"⟩] (.last (s := ⟨true, b! "b"⟩) ⟨by decide, by decide, by decide⟩)]
  simp [follow, pathExample, descendants, descendantsList, Node.element, content, Node.children]

/-- There is no way back: an element that is there is not found by its path, because an element of the name of its
    parent comes before its parent. -/
theorem C93_no_way_back : ∃ (top a b : Node), a ∈ top.children ∧ a.element = some (b! "a") ∧
    b ∈ a.children ∧ b.element = some (b! "b") ∧ findPath top (b! "a/b") = none := by
  refine ⟨pathExample, .elem (b! "a") [] [.elem (b! "b") [(b! "k", b! "v")] [.text (b! "x")]],
    .elem (b! "b") [(b! "k", b! "v")] [.text (b! "x")], by simp [pathExample, Node.children], rfl,
    by simp [Node.children], rfl, ?_⟩
  rw [C93_path pathExample (b! "a/b") pathSteps
    (.cons (s := ⟨false, b! "a"⟩) (p := b! "b") (ss := [⟨false, b! "b"⟩]) ⟨by decide, by decide, by decide⟩
      (fun h => by cases h.2) (.last (s := ⟨false, b! "b"⟩) ⟨by decide, by decide, by decide⟩))]
  decide +kernel

end Afs
