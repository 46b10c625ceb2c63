import Verif.Model.Xml.EntityCb
import Verif.Spec.Html
import Verif.Props.C40_Numeric
/-!
# C94: callbacks for named characters
-/
namespace Afs
open Xml EntityCb Spec.EntityCallbacks

/-- The array holds the register. -/
structure Holds (g : Globals) (l : List Nat) : Prop where
  num : g.num = l.length
  few : l.length ≤ 100
  size : g.cbs.length = 100
  slots : g.cbs = l.map some ++ g.cbs.drop l.length

theorem slot_holds {g : Globals} {pre suf : List Nat} {x : Nat} (h : Holds g (pre ++ x :: suf)) :
    slot g pre.length = .ok (some x) := by
  unfold slot
  have : g.cbs[pre.length]? = some (some x) := by
    rw [h.slots]
    simp
  rw [this]

theorem valueFrom_holds (run : Nat → Bytes → Int) (g : Globals) (name : Bytes) (suf pre : List Nat)
    (h : Holds g (pre ++ suf)) : valueFrom run g name suf.length pre.length = .ok (ask run name suf) := by
  induction suf generalizing pre with
  | nil => rfl
  | cons x suf ih =>
    rw [List.length_cons, valueFrom, slot_holds h]
    simp only [Res.bind, callPtr]
    unfold ask
    by_cases hx : 0 ≤ run x name
    · simp [hx]
    · have := ih (pre ++ [x]) (by rw [List.append_assoc]; exact h)
      rw [if_neg hx, List.find?_cons_of_neg (by simpa using hx)]
      rw [List.length_append] at this
      exact this

theorem add_holds (g : Globals) (l : List Nat) (cb : Nat) (h : Holds g l) :
    ∃ r g', addCallback g cb = .ok (r, g') ∧
      ((l.length < 100 ∧ r = 0 ∧ Holds g' (l ++ [cb])) ∨ (¬ l.length < 100 ∧ r = -1 ∧ Holds g' l)) := by
  unfold addCallback
  rw [h.num]
  by_cases hl : l.length < 100
  · rw [if_pos hl]
    have hs : g.cbs.length = 100 := h.size
    rw [List.getElem?_eq_getElem (by omega)]
    refine ⟨_, _, rfl, .inl ⟨hl, rfl, ?_, ?_, ?_, ?_⟩⟩
    · simp
    · simp; omega
    · simp [hs]
    · show g.cbs.set l.length (some cb) = _
      conv => lhs; rw [h.slots]
      rw [List.set_append_right _ _ (by simp)]
      have hd : g.cbs.drop l.length = g.cbs[l.length]'(by omega) :: g.cbs.drop (l.length + 1) :=
        List.drop_eq_getElem_cons (by omega)
      have hd' : (g.cbs.set l.length (some cb)).drop (l.length + 1) = g.cbs.drop (l.length + 1) := by
        rw [List.drop_set_of_lt (by omega)]
      have hl' : (l ++ [cb]).length = l.length + 1 := by simp
      rw [hl', hd', hd, List.length_map, Nat.sub_self, List.set_cons_zero, List.map_append, List.append_assoc]
      rfl
  · rw [if_neg hl]
    exact ⟨_, _, rfl, .inr ⟨hl, rfl, h⟩⟩

theorem removeFrom_holds (g : Globals) (cb : Nat) (suf pre : List Nat) (h : Holds g (pre ++ suf))
    (hp : cb ∉ pre) : ∃ g', removeFrom g cb suf.length pre.length = .ok g' ∧ Holds g' ((pre ++ suf).erase cb) := by
  induction suf generalizing pre with
  | nil =>
    refine ⟨g, rfl, ?_⟩
    rw [List.append_nil] at h ⊢
    rwa [List.erase_of_not_mem hp]
  | cons x suf ih =>
    rw [List.length_cons, removeFrom, slot_holds h]
    simp only [Res.bind, Option.some.injEq]
    by_cases hx : cb = x
    · subst hx
      have hn : g.num = pre.length + suf.length + 1 := by have := h.num; simp at this; omega
      have hf := h.few
      have hs := h.size
      have he : (pre ++ cb :: suf).erase cb = pre ++ suf := by
        rw [List.erase_append_right _ hp, List.erase_cons_head]
      have hc := h.slots
      rw [he, if_pos rfl]
      generalize hr : g.cbs.drop (pre ++ cb :: suf).length = rest at hc
      have hlen : (pre ++ cb :: suf).length = pre.length + suf.length + 1 := by simp; omega
      split
      · rename_i hi
        rw [memmove, if_pos (by omega)]
        refine ⟨_, rfl, ?_, ?_, ?_, ?_⟩
        · simp [hn]
        · simp only [List.length_append, List.length_cons] at hf ⊢; omega
        · simp only [List.length_append, List.length_take, List.length_drop]; omega
        · have e1 : g.cbs.take pre.length = pre.map some := by rw [hc]; simp
          have e2 : (g.cbs.drop (pre.length + 1)).take (g.num - 1 - pre.length) = suf.map some := by
            have : g.num - 1 - pre.length = (suf.map some).length := by simp; omega
            rw [this, hc, ← List.drop_drop]
            simp
          simp only [e1, e2]
          rw [← List.map_append]
          congr 1
          exact (List.drop_left' (by rw [List.length_map])).symm
      · rename_i hi
        have h0 : suf = [] := List.length_eq_zero_iff.mp (by omega)
        subst h0
        refine ⟨_, rfl, ?_, ?_, hs, ?_⟩
        · simp [hn]
        · simp only [List.length_append, List.length_cons] at hf ⊢; omega
        · simp only [List.append_nil]
          have e1 : g.cbs.take pre.length = pre.map some := by rw [hc]; simp
          rw [← e1, List.take_append_drop]
    · rw [if_neg hx]
      have := ih (pre ++ [x]) (by rw [List.append_assoc]; exact h) (by simp [hp, hx])
      rw [List.append_assoc, List.length_append] at this
      exact this

theorem calls_holds (run : Nat → Bytes → Int) (cs : List Call) (g : Globals) (l : List Nat) (h : Holds g l) :
    calls run g cs = .ok (answers run l cs) := by
  induction cs generalizing g l with
  | nil => rfl
  | cons c cs ih =>
    have key : ∃ g', call run g c = .ok ((does run l c).1, g') ∧ Holds g' (does run l c).2 := by
      cases c with
      | add cb =>
        obtain ⟨r, g', he, hg⟩ := add_holds g l cb h
        rw [call, he]
        rcases hg with ⟨hl, rfl, hg⟩ | ⟨hl, rfl, hg⟩
        · rw [does, if_pos hl]; exact ⟨g', rfl, hg⟩
        · rw [does, if_neg hl]; exact ⟨g', rfl, hg⟩
      | remove cb =>
        obtain ⟨g', he, hg⟩ := removeFrom_holds g cb l [] h (by simp)
        rw [call, removeCallback, h.num, show (0 : Nat) = ([] : List Nat).length from rfl, he]
        exact ⟨g', rfl, hg⟩
      | value name =>
        have := valueFrom_holds run g name l [] h
        rw [call, getValue, h.num, show (0 : Nat) = ([] : List Nat).length from rfl, this]
        exact ⟨g, rfl, h⟩
    obtain ⟨g', he, hg⟩ := key
    rw [calls, he, answers]
    simp only [Res.bind, ih g' _ hg]

theorem init_holds : Holds init [builtin] := ⟨rfl, by decide, rfl, rfl⟩

/-- After any history of adding and removing, a name is given to the functions in the order in which they were added,
    and the first one that knows it answers; the first time a function is there is removed; at most 100 are registered. -/
theorem C94_callbacks (run : Nat → Bytes → Int) (cs : List Call) :
    calls run init cs = .ok (answers run [builtin] cs) := calls_holds run cs _ _ init_holds

/-- The answers after a history go on from what is registered then. -/
theorem answers_append (run : Nat → Bytes → Int) (cs cs' : List Call) (l : List Nat) :
    answers run l (cs ++ cs') =
      answers run l cs ++ answers run (cs.foldl (fun l c => (does run l c).2) l) cs' := by
  induction cs generalizing l with
  | nil => rfl
  | cons c cs ih => simp [answers, ih]

set_option maxRecDepth 100000 in
theorem named_in_table : ∀ q ∈ Spec.Html.named, (q.1.toUTF8.toList, q.2) ∈ entityTable := by decide +kernel

theorem builtinRun_table {name : Bytes} {v : Nat} (h : (name, v) ∈ entityTable) : builtinRun name = v := by
  have e : entityValue name = some v := (C40_entity_lookup_exact _ _).mpr h
  unfold builtinRun
  simp only [e]

/-- As long as nobody removes the function the library has, the characters of HTML 4 have their names, whatever is added. -/
theorem C94_html (run : Nat → Bytes → Int) (hb : run builtin = builtinRun) (cs : List Call)
    (hc : .remove builtin ∉ cs) (s : String) (v : Nat) (hv : (s, v) ∈ Spec.Html.named) :
    ∃ as, calls run init (cs ++ [.value s.toUTF8.toList]) = .ok (as ++ [.value v]) := by
  rw [C94_callbacks, answers_append]
  refine ⟨_, congrArg Res.ok (congrArg _ ?_)⟩
  have hk : ∀ (l : List Nat), ∃ l', cs.foldl (fun l c => (does run l c).2) (builtin :: l) = builtin :: l' := by
    induction cs with
    | nil => exact fun l => ⟨l, rfl⟩
    | cons c cs ih =>
      intro l
      have hstep : ∃ l', (does run (builtin :: l) c).2 = builtin :: l' := by
        cases c with
        | add cb =>
          rw [does]
          split
          · exact ⟨_, rfl⟩
          · exact ⟨_, rfl⟩
        | remove cb =>
          have hne : builtin ≠ cb := by rintro rfl; exact hc (by simp)
          exact ⟨l.erase cb, by simp [does, hne]⟩
        | value name => exact ⟨l, rfl⟩
      obtain ⟨l', hl'⟩ := hstep
      rw [List.foldl_cons, hl']
      exact ih (fun h => hc (List.mem_cons_of_mem _ h)) l'
  obtain ⟨l', hl'⟩ := hk []
  rw [hl']
  have hr : run builtin s.toUTF8.toList = v := by
    rw [hb]
    exact builtinRun_table (named_in_table (s, v) hv)
  rw [answers, does, ask, List.find?_cons_of_pos (by rw [hr]; simp)]
  simp only [hr]
  rfl

/-- Whoever removes it takes all names away, also `amp`. -/
theorem C94_removed (run : Nat → Bytes → Int) (name : Bytes) :
    calls run init [.remove builtin, .value name] = .ok [.removed, .value (-1)] := by
  rw [C94_callbacks]
  rfl

theorem add_many (run : Nat → Bytes → Int) (cb n : Nat) (l : List Nat) (h : l.length + n ≤ 100) :
    answers run l (List.replicate n (.add cb)) = List.replicate n (.added 0) ∧
      ((List.replicate n (Call.add cb)).foldl (fun l c => (does run l c).2) l).length = l.length + n := by
  induction n generalizing l with
  | zero => exact ⟨rfl, rfl⟩
  | succ n ih =>
    have hd : does run l (.add cb) = (.added 0, l ++ [cb]) := by rw [does, if_pos (by omega)]
    obtain ⟨h1, h2⟩ := ih (l ++ [cb]) (by rw [List.length_append]; simp; omega)
    simp only [List.replicate_succ, List.foldl_cons, answers, hd, h1, h2, true_and]
    rw [List.length_append, List.length_singleton]
    omega

/-- The hundredth function that is added is refused. -/
theorem C94_full (run : Nat → Bytes → Int) (cb : Nat) :
    calls run init (List.replicate 99 (.add cb) ++ [.add cb]) = .ok (List.replicate 99 (.added 0) ++ [.added (-1)]) := by
  obtain ⟨h1, h2⟩ := add_many run cb 99 [builtin] (by simp)
  rw [C94_callbacks, answers_append, h1, answers, does, if_neg (by rw [h2]; simp)]
  rfl

/-- Twice added, once removed, still asked. -/
example (run : Nat → Bytes → Int) (name : Bytes) (h0 : run 0 name = -1) (h7 : run 7 name = 65) :
    calls run init [.add 7, .add 7, .remove 7, .value name] = .ok [.added 0, .added 0, .removed, .value 65] := by
  rw [C94_callbacks]
  simp [answers, does, ask, builtin, h0, h7]

end Afs
