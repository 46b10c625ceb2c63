import Verif.Spec.ZeroMem
import Verif.Props.C29_ZeroReference
import Mathlib.Data.Multiset.AddSub
import Mathlib.Data.Multiset.MapFold
import Mathlib.Data.Multiset.UnionInter
import Mathlib.Order.Lattice.Nat

namespace Afs.ZeroMem

open Spec.ZeroMem (Val Fits Sizes Works InUse step failed run blocks total)

abbrev Blocks := Multiset (Nat × Block)

/-- The memory in use is exactly these blocks. -/
def Holds (m : Nat → Option Block) (B : Blocks) : Prop :=
  (B.map Prod.fst).Nodup ∧ ∀ a b, m a = some b ↔ (a, b) ∈ B

theorem Holds.get {m : Nat → Option Block} {a b B} (h : Holds m ((a, b) ::ₘ B)) : m a = some b :=
  (h.2 a b).2 (Multiset.mem_cons_self _ _)

theorem Holds.fresh {m : Nat → Option Block} {a B} (h : Holds m B) (ha : m a = none) : a ∉ B.map Prod.fst := by
  intro hm
  obtain ⟨⟨x, b⟩, hx, e⟩ := Multiset.mem_map.1 hm
  cases e
  rw [(h.2 x b).2 hx] at ha
  cases ha

theorem Holds.alloc {m : Mem} {a b B} (h : Holds m.at_ B) (ha : m.at_ a = none) :
    Holds (m.put a (some b)).at_ ((a, b) ::ₘ B) := by
  refine ⟨?_, ?_⟩
  · rw [Multiset.map_cons, Multiset.nodup_cons]
    exact ⟨h.fresh ha, h.1⟩
  · intro x y
    rw [Multiset.mem_cons]
    show (if x = a then some b else m.at_ x) = some y ↔ _
    by_cases hx : x = a
    · rw [if_pos hx, hx]
      constructor
      · intro e; cases e; exact Or.inl rfl
      · rintro (e | e)
        · cases e; rfl
        · rw [(h.2 a y).2 e] at ha; cases ha
    · rw [if_neg hx, h.2]
      constructor
      · exact Or.inr
      · rintro (e | e)
        · cases e; exact absurd rfl hx
        · exact e

theorem Holds.free {m : Mem} {a b B} (h : Holds m.at_ ((a, b) ::ₘ B)) : Holds (m.put a none).at_ B := by
  have hn := h.1
  rw [Multiset.map_cons, Multiset.nodup_cons] at hn
  refine ⟨hn.2, ?_⟩
  intro x y
  show (if x = a then none else m.at_ x) = some y ↔ _
  by_cases hx : x = a
  · rw [if_pos hx]
    constructor
    · intro e; cases e
    · intro e
      refine absurd (Multiset.mem_map.2 ⟨_, e, ?_⟩) hn.1
      exact hx
  · rw [if_neg hx, h.2, Multiset.mem_cons]
    constructor
    · rintro (e | e)
      · cases e; exact absurd rfl hx
      · exact e
    · exact Or.inr

theorem Holds.write {m : Mem} {a b c B} (h : Holds m.at_ ((a, b) ::ₘ B)) :
    Holds (m.put a (some c)).at_ ((a, c) ::ₘ B) := by
  have e : (m.put a (some c)).at_ = ((m.put a none).put a (some c)).at_ := by
    funext x
    show (if x = a then some c else m.at_ x) = if x = a then some c else (if x = a then none else m.at_ x)
    by_cases hx : x = a
    · rw [if_pos hx, if_pos hx]
    · rw [if_neg hx, if_neg hx, if_neg hx]
  rw [e]
  exact h.free.alloc (by show (if a = a then none else _) = none; rw [if_pos rfl])

theorem Holds.finite {m : Nat → Option Block} {B} (h : Holds m B) : ∃ l : List Nat, ∀ a, m a ≠ none → a ∈ l := by
  refine ⟨(B.map Prod.fst).toList, fun a ha => ?_⟩
  rw [Multiset.mem_toList]
  obtain ⟨b, e⟩ := Option.ne_none_iff_exists'.1 ha
  exact Multiset.mem_map.2 ⟨_, (h.2 a b).1 e, rfl⟩

theorem malloc_cases (env : Allocator) (m : Mem) (b : Block) {B} (h : Holds m.at_ B) :
    (∃ m', malloc env m b = (none, m') ∧ Holds m'.at_ B ∧ ¬ Works env) ∨
    ∃ a m', malloc env m b = (some a, m') ∧ Holds m'.at_ ((a, b) ::ₘ B) ∧ m.at_ a = none := by
  rw [malloc]
  cases e : (env m.mallocs m.at_).filter (fun a => (m.at_ a).isNone) with
  | none =>
    refine Or.inl ⟨_, rfl, h, fun hw => ?_⟩
    obtain ⟨a, e1, e2⟩ := hw m.mallocs m.at_ h.finite
    rw [e1] at e
    simp [e2] at e
  | some a =>
    refine Or.inr ⟨a, _, rfl, ?_⟩
    have ha : m.at_ a = none := by
      rw [Option.filter_eq_some_iff] at e
      exact Option.isNone_iff_eq_none.1 e.2
    exact ⟨h.alloc ha, ha⟩

theorem create_init (w h : Nat) : Mark.create w h = Mark.init w h := by
  rw [Mark.create]
  by_cases hz : w = 0 ∨ h = 0
  · rw [if_pos hz, Mark.init, if_pos hz]
  · rw [if_neg hz]

theorem init_fits {w h : Nat} (hs : Sizes w h) (hf : Fits w h) : ∃ q, Mark.init w h = .ok (some q) := by
  rw [← create_init, Mark.create_eq w h hs.2]
  simp only [show 2 ≤ w ∧ 12 ≤ h from hf, and_self, if_true]
  exact ⟨_, rfl⟩

theorem init_not {w h : Nat} (hs : Sizes w h) (hf : ¬ Fits w h) : Mark.init w h = .ok none := by
  rw [← create_init, Mark.create_eq w h hs.2]
  have hf' : ¬ (2 ≤ w ∧ 12 ≤ h) := hf
  rw [if_neg hf']

theorem markInit_ok {m : Mem} {a s B} {w h : Nat} (H : Holds m.at_ ((a, .mark s) ::ₘ B)) (hs : Sizes w h) :
    ∃ m', markInit m (some a) w h = .ok (decide (Fits w h), m') ∧
      (Fits w h → ∃ q, Mark.init w h = .ok (some q) ∧ Holds m'.at_ ((a, .mark (some q)) ::ₘ B)) ∧
      (¬ Fits w h → m' = m) := by
  rw [markInit]
  by_cases hf : Fits w h
  · obtain ⟨q, e⟩ := init_fits hs hf
    rw [e]
    refine ⟨m.put a (some (.mark (some q))), ?_, fun _ => ⟨q, rfl, H.write⟩, fun n => absurd hf n⟩
    rw [Res.ok_bind]
    dsimp only
    rw [H.get]
    simp [hf]
  · rw [init_not hs hf]
    exact ⟨m, by simp [hf], fun n => absurd n hf, fun _ => rfl⟩

theorem markCreate_ok (env : Allocator) {m : Mem} {B} {w h : Nat} (H : Holds m.at_ B) (hs : Sizes w h) :
    (∃ a q m', markCreate env m w h = .ok (some a, m') ∧ Fits w h ∧ Mark.init w h = .ok (some q) ∧
      Holds m'.at_ ((a, .mark (some q)) ::ₘ B)) ∨
    (∃ m', markCreate env m w h = .ok (none, m') ∧ Holds m'.at_ B ∧ (¬ Fits w h ∨ ¬ Works env)) := by
  rw [markCreate]
  by_cases hz : w = 0 ∨ h = 0
  · rw [if_pos hz]
    exact Or.inr ⟨m, rfl, H, Or.inl (by rintro ⟨h1, h2⟩; omega)⟩
  · rw [if_neg hz]
    rcases malloc_cases env m (.mark none) H with ⟨m1, e, H1, hw⟩ | ⟨a, m1, e, H1, -⟩
    · rw [e]
      exact Or.inr ⟨m1, rfl, H1, Or.inr hw⟩
    · rw [e]
      obtain ⟨m2, e2, h1, h2⟩ := markInit_ok H1 hs
      dsimp only
      rw [e2, Res.ok_bind]
      dsimp only
      by_cases hf : Fits w h
      · obtain ⟨q, eq, Hq⟩ := h1 hf
        rw [if_pos (by simpa using hf)]
        exact Or.inl ⟨a, q, m2, rfl, hf, eq, Hq⟩
      · rw [if_neg (by simpa using hf), h2 hf]
        refine Or.inr ⟨m1.put a none, ?_, H1.free, Or.inl hf⟩
        rw [markFree, free, H1.get]
        rfl

theorem frameInit_ok (env : Allocator) {m : Mem} {a k s B} {w h : Nat} (H : Holds m.at_ ((a, .frame k s) ::ₘ B))
    (hs : Sizes w h) :
    (∃ b q m', frameInit env m (some a) w h = .ok (true, m') ∧ Fits w h ∧ Mark.init w h = .ok (some q) ∧
      Holds m'.at_ ((a, .frame (.to b) (some (w, h))) ::ₘ (b, .mark (some q)) ::ₘ B)) ∨
    (∃ m', frameInit env m (some a) w h = .ok (false, m') ∧ Holds m'.at_ ((a, .frame k s) ::ₘ B) ∧
      (¬ Fits w h ∨ ¬ Works env)) := by
  rw [frameInit]
  by_cases hz : w = 0 ∨ h = 0
  · rw [if_pos hz]
    exact Or.inr ⟨m, rfl, H, Or.inl (by rintro ⟨h1, h2⟩; omega)⟩
  · rw [if_neg hz]
    rcases markCreate_ok env H hs with ⟨b, q, m1, e, hf, eq, H1⟩ | ⟨m1, e, H1, hn⟩
    · rw [e, Res.ok_bind]
      dsimp only
      rw [Multiset.cons_swap] at H1
      rw [H1.get]
      exact Or.inl ⟨b, q, _, rfl, hf, eq, H1.write⟩
    · rw [e, Res.ok_bind]
      exact Or.inr ⟨m1, rfl, H1, hn⟩

theorem frameFree_ok {m : Mem} {a b q s B} (H : Holds m.at_ ((a, .frame (.to b) s) ::ₘ (b, .mark q) ::ₘ B)) :
    ∃ m', frameFree m (some a) = .ok m' ∧ Holds m'.at_ B := by
  rw [frameFree]
  rw [H.get]
  dsimp only
  rw [Multiset.cons_swap] at H
  rw [markFree]
  rw [free, H.get]
  dsimp only
  rw [Res.ok_bind, free, H.free.get]
  exact ⟨_, rfl, H.free.free⟩

theorem frameFree_null {m : Mem} {a s B} (H : Holds m.at_ ((a, .frame .null s) ::ₘ B)) :
    ∃ m', frameFree m (some a) = .ok m' ∧ Holds m'.at_ B := by
  rw [frameFree]
  rw [H.get]
  dsimp only
  rw [free, H.get]
  exact ⟨_, rfl, H.free⟩

theorem frameCreate_ok (env : Allocator) {m : Mem} {B} {w h : Nat} (H : Holds m.at_ B) (hs : Sizes w h) :
    (∃ a b q m', frameCreate env m w h = .ok (some a, m') ∧ Fits w h ∧ Mark.init w h = .ok (some q) ∧
      Holds m'.at_ ((a, .frame (.to b) (some (w, h))) ::ₘ (b, .mark (some q)) ::ₘ B)) ∨
    (∃ m', frameCreate env m w h = .ok (none, m') ∧ Holds m'.at_ B ∧ (¬ Fits w h ∨ ¬ Works env)) ∨
    (frameCreate env m w h = .ub ∧ (malloc env m (.frame .unset none)).1 = none ∧ ¬ Works env) := by
  rw [frameCreate]
  by_cases hz : w = 0 ∨ h = 0
  · rw [if_pos hz]
    exact Or.inr (Or.inl ⟨m, rfl, H, Or.inl (by rintro ⟨h1, h2⟩; omega)⟩)
  · rw [if_neg hz]
    rcases malloc_cases env m (.frame .unset none) H with ⟨m1, e, H1, hw⟩ | ⟨a, m1, e, H1, -⟩
    · rw [e]
      exact Or.inr (Or.inr ⟨rfl, rfl, hw⟩)
    · rw [e]
      dsimp only
      rcases frameInit_ok env (w := w) (h := h) (H1.write (c := .frame .null none)) hs with
        ⟨b, q, m2, e2, hf, eq, H2⟩ | ⟨m2, e2, H2, hn⟩
      · rw [e2, Res.ok_bind]
        exact Or.inl ⟨a, b, q, m2, rfl, hf, eq, H2⟩
      · rw [e2, Res.ok_bind]
        dsimp only
        obtain ⟨m3, e3, H3⟩ := frameFree_null H2
        rw [if_neg (by decide), e3]
        exact Or.inr (Or.inl ⟨m3, rfl, H3, hn⟩)

theorem pair_add {α : Type} (x y : α) (F : Multiset α) : ({x, y} : Multiset α) + F = x ::ₘ y ::ₘ F := by
  show (x ::ₘ {y}) + F = _
  rw [Multiset.cons_add, Multiset.singleton_add]

/-! ### The pointers of the caller -/

/-- The blocks behind one pointer. -/
inductive Own : Val → Option Nat → Blocks → Prop
  | null : Own .null none 0
  | gone (p) : Own .gone p 0
  | blank (a) : Own (.mark none) (some a) {(a, .mark none)}
  | mark (a q w h) : Mark.init w h = .ok (some q) → Own (.mark (some (w, h))) (some a) {(a, .mark (some q))}
  | raw (a) : Own .raw (some a) {(a, .frame .unset none)}
  | frame (a b q w h) : Mark.init w h = .ok (some q) → Sizes w h → Fits w h →
      Own (.frame w h) (some a) {(a, .frame (.to b) (some (w, h))), (b, .mark (some q))}

/-- The blocks behind all pointers. -/
inductive All : List Val → List (Option Nat) → Blocks → Prop
  | nil : All [] [] 0
  | cons {v p B vs ps C} : Own v p B → All vs ps C → All (v :: vs) (p :: ps) (B + C)

theorem All.append {vs ps B v p C} (h : All vs ps B) (ho : Own v p C) : All (vs ++ [v]) (ps ++ [p]) (C + B) := by
  induction h with
  | nil => exact All.cons ho All.nil
  | @cons v' p' B' vs' ps' C' h1 h2 ih =>
    have := All.cons h1 ih
    rwa [← add_assoc, add_comm B' C, add_assoc] at this

theorem All.focus {vs ps B} (h : All vs ps B) {i : Nat} {v : Val} (hi : vs[i]? = some v) :
    ∃ p B1 B2, ps[i]? = some p ∧ B = B1 + B2 ∧ Own v p B1 ∧
      ∀ v' B1', Own v' p B1' → All (vs.set i v') ps (B1' + B2) := by
  induction h generalizing i with
  | nil => cases hi
  | @cons v0 p0 B0 vs0 ps0 C0 h1 h2 ih =>
    cases i with
    | zero =>
      cases hi
      exact ⟨p0, B0, C0, rfl, rfl, h1, fun v' B1' ho => All.cons ho h2⟩
    | succ j =>
      obtain ⟨p, B1, B2, e1, e2, e3, e4⟩ := ih hi
      refine ⟨p, B1, B0 + B2, e1, ?_, e3, fun v' B1' ho => ?_⟩
      · rw [e2, ← add_assoc, add_comm B0 B1, add_assoc]
      · have := All.cons h1 (e4 v' B1' ho)
        rw [← add_assoc, add_comm B0 B1', add_assoc] at this
        exact this

theorem Own.card {v p B} (h : Own v p B) : B.card = blocks v := by
  cases h <;> rfl

theorem All.card {vs ps B} (h : All vs ps B) : B.card = total vs := by
  induction h with
  | nil => rfl
  | @cons v0 p0 B0 vs0 ps0 C0 h1 h2 ih =>
    rw [Multiset.card_add, h1.card, ih]
    rfl

/-- The state of the memory: what the pointers stand for, and blocks nobody can reach. -/
def Rep (w : World) (vs : List Val) (lost : Nat) : Prop :=
  ∃ B L : Blocks, All vs w.vars B ∧ L.card = lost ∧ Holds w.mem.at_ (B + L)

theorem rep_init : Rep ⟨[], Mem.init⟩ [] 0 :=
  ⟨0, 0, All.nil, rfl, by
    refine ⟨by simp, fun a b => ?_⟩
    simp [Mem.init]⟩

theorem Rep.inUse {w : World} {vs lost} (h : Rep w vs lost) : InUse w.mem (total vs + lost) := by
  obtain ⟨B, L, hA, hL, H⟩ := h
  refine ⟨((B + L).map Prod.fst).toList, ?_, ?_, ?_⟩
  · rw [← Multiset.coe_nodup, Multiset.coe_toList]
    exact H.1
  · rw [Multiset.length_toList, Multiset.card_map, Multiset.card_add, hA.card, hL]
  · intro a
    rw [Multiset.mem_toList, Multiset.mem_map]
    constructor
    · rintro ⟨⟨x, b⟩, hx, rfl⟩
      rw [(H.2 x b).2 hx]
      exact fun e => nomatch e
    · intro ha
      obtain ⟨b, e⟩ := Option.ne_none_iff_exists'.1 ha
      exact ⟨_, (H.2 a b).1 e, rfl⟩

theorem var_of {w : World} {i p} (h : w.vars[i]? = some p) : w.var i = p := by
  rw [World.var, h]; rfl

theorem Rep.new {w : World} {vs lost v p C} {m : Mem} (h : Rep w vs lost) (ho : Own v p C)
    (hm : ∀ F, Holds w.mem.at_ F → Holds m.at_ (C + F)) : Rep ⟨w.vars ++ [p], m⟩ (vs ++ [v]) lost := by
  obtain ⟨B, L, hA, hL, H⟩ := h
  exact ⟨C + B, L, hA.append ho, hL, by rw [add_assoc]; exact hm _ H⟩

/-- The picture of a frame that is in memory. -/
theorem image_frame {m : Mem} {a b q w h F} (H : Holds m.at_ ((a, .frame (.to b) (some (w, h))) ::ₘ (b, .mark (some q)) ::ₘ F))
    (fresh : Nat → Nat → Option Bytes) :
    image m (some a) fresh = ZeroFrame.createImage ⟨some q, h, w⟩ (fresh w h) := by
  rw [image]
  rw [H.get]
  rw [Multiset.cons_swap] at H
  dsimp only
  rw [H.get]
  cases fresh w h <;> rfl

theorem created {w h : Nat} {q : Mark} (hf : Fits w h) (e : Mark.init w h = .ok (some q)) :
    ZeroFrame.create w h = .ok (some ⟨some q, h, w⟩) := by
  rw [ZeroFrame.create, if_neg (by rintro (h1 | h1) <;> (have := hf.1; have := hf.2; omega)), create_init, e]
  rfl

theorem step_ok (env : Allocator) {w : World} {vs lost vs' n} (R : Rep w vs lost) (c : Call) (hc : step vs c = some (vs', n)) :
    (∃ w', call env w c = .ok w' ∧ Rep w' vs' (lost + n)) ∨
    (¬ Works env ∧ ((∃ w', call env w c = .ok w' ∧ Rep w' (failed vs c) lost) ∨
      (call env w c = .ub ∧ (malloc env w.mem (.frame .unset none)).1 = none ∧ ∃ x y, c = .frameCreate x y))) := by
  cases c with
  | newMark =>
    cases hc
    obtain ⟨B, L, hA, hL, H⟩ := R
    rcases malloc_cases env w.mem (.mark none) H with ⟨m1, e, H1, hw⟩ | ⟨a, m1, e, H1, -⟩
    · refine Or.inr ⟨hw, Or.inl ⟨⟨w.vars ++ [none], m1⟩, by rw [call, e], 0 + B, L, hA.append .null, hL, ?_⟩⟩
      rw [zero_add]; exact H1
    · refine Or.inl ⟨⟨w.vars ++ [some a], m1⟩, by rw [call, e], _, L, hA.append (.blank a), hL, ?_⟩
      rw [add_assoc, Multiset.singleton_add]; exact H1
  | newFrame =>
    cases hc
    obtain ⟨B, L, hA, hL, H⟩ := R
    rcases malloc_cases env w.mem (.frame .unset none) H with ⟨m1, e, H1, hw⟩ | ⟨a, m1, e, H1, -⟩
    · refine Or.inr ⟨hw, Or.inl ⟨⟨w.vars ++ [none], m1⟩, by rw [call, e], 0 + B, L, hA.append .null, hL, ?_⟩⟩
      rw [zero_add]; exact H1
    · refine Or.inl ⟨⟨w.vars ++ [some a], m1⟩, by rw [call, e], _, L, hA.append (.raw a), hL, ?_⟩
      rw [add_assoc, Multiset.singleton_add]; exact H1
  | markCreate x y =>
    rw [step] at hc
    by_cases hs : Sizes x y
    · rw [if_pos hs] at hc
      cases hc
      obtain ⟨B, L, hA, hL, H⟩ := R
      rcases markCreate_ok env H hs with ⟨a, q, m1, e, hf, eq, H1⟩ | ⟨m1, e, H1, hn⟩
      · refine Or.inl ⟨⟨w.vars ++ [some a], m1⟩, by rw [call, e]; rfl, ?_⟩
        rw [if_pos hf]
        refine ⟨_, L, hA.append (.mark a q x y eq), hL, ?_⟩
        rw [add_assoc, Multiset.singleton_add]; exact H1
      · have R' : Rep ⟨w.vars ++ [none], m1⟩ (vs ++ [.null]) lost :=
          ⟨0 + B, L, hA.append .null, hL, by rw [zero_add]; exact H1⟩
        by_cases hf : Fits x y
        · rcases hn with hn | hn
          · exact absurd hf hn
          · exact Or.inr ⟨hn, Or.inl ⟨_, by rw [call, e]; rfl, R'⟩⟩
        · rw [if_neg hf]
          exact Or.inl ⟨_, by rw [call, e]; rfl, R'⟩
    · rw [if_neg hs] at hc; cases hc
  | frameCreate x y =>
    rw [step] at hc
    by_cases hs : Sizes x y
    · rw [if_pos hs] at hc
      cases hc
      obtain ⟨B, L, hA, hL, H⟩ := R
      rcases frameCreate_ok env H hs with ⟨a, b, q, m1, e, hf, eq, H1⟩ | ⟨m1, e, H1, hn⟩ | ⟨e, e2, hw⟩
      · refine Or.inl ⟨⟨w.vars ++ [some a], m1⟩, by rw [call, e]; rfl, ?_⟩
        rw [if_pos hf]
        refine ⟨_, L, hA.append (.frame a b q x y eq hs hf), hL, ?_⟩
        rw [add_assoc, pair_add]; exact H1
      · have R' : Rep ⟨w.vars ++ [none], m1⟩ (vs ++ [.null]) lost :=
          ⟨0 + B, L, hA.append .null, hL, by rw [zero_add]; exact H1⟩
        by_cases hf : Fits x y
        · rcases hn with hn | hn
          · exact absurd hf hn
          · exact Or.inr ⟨hn, Or.inl ⟨_, by rw [call, e]; rfl, R'⟩⟩
        · rw [if_neg hf]
          exact Or.inl ⟨_, by rw [call, e]; rfl, R'⟩
      · exact Or.inr ⟨hw, Or.inr ⟨by rw [call, e]; rfl, e2, x, y, rfl⟩⟩
    · rw [if_neg hs] at hc; cases hc
  | markInit i x y =>
    rw [step] at hc
    by_cases hs : Sizes x y
    · rw [if_pos hs] at hc
      cases hv : vs[i]? with
      | none => rw [hv] at hc; cases hc
      | some v =>
        rw [hv] at hc
        obtain ⟨B, L, hA, hL, H⟩ := R
        obtain ⟨p, B1, B2, ep, rfl, ho, hset⟩ := hA.focus hv
        have marked : ∀ a s, p = some a → B1 = {(a, .mark s)} → ∀ sv, vs.set i (.mark sv) = vs' →
            (∀ q, Mark.init x y = .ok (some q) → Fits x y → Own (.mark sv) (some a) {(a, .mark (some q))}) →
            (¬ Fits x y → Own (.mark sv) (some a) {(a, .mark s)}) →
            ∃ w', call env w (.markInit i x y) = .ok w' ∧ Rep w' vs' lost := by
          rintro a s rfl rfl sv rfl h1 h2
          rw [add_assoc, Multiset.singleton_add] at H
          obtain ⟨m1, e, g1, g2⟩ := markInit_ok (w := x) (h := y) H hs
          refine ⟨⟨w.vars, m1⟩, by rw [call, var_of ep, e]; rfl, ?_⟩
          by_cases hf : Fits x y
          · obtain ⟨q, eq, Hq⟩ := g1 hf
            refine ⟨_, L, hset _ _ (h1 q eq hf), hL, ?_⟩
            rw [add_assoc, Multiset.singleton_add]; exact Hq
          · rw [g2 hf]
            refine ⟨_, L, hset _ _ (h2 hf), hL, ?_⟩
            rw [add_assoc, Multiset.singleton_add]; exact H
        cases ho with
        | null =>
          cases hc
          exact Or.inl ⟨w, by rw [call, var_of ep]; rfl, 0 + B2, L, hA, hL, H⟩
        | gone p => cases hc
        | raw a => cases hc
        | frame a b q x' y' eq h1 h2 => cases hc
        | blank a =>
          cases hc
          refine Or.inl (marked a none rfl rfl _ rfl ?_ ?_)
          · intro q eq hf; rw [if_pos hf]; exact .mark a q x y eq
          · intro hf; rw [if_neg hf]; exact .blank a
        | mark a q x' y' eq =>
          cases hc
          refine Or.inl (marked a (some q) rfl rfl _ rfl ?_ ?_)
          · intro q eq hf; rw [if_pos hf]; exact .mark a q x y eq
          · intro hf; rw [if_neg hf]; exact .mark a q x' y' eq
    · rw [if_neg hs] at hc; cases hc
  | frameInit i x y =>
    rw [step] at hc
    by_cases hs : Sizes x y
    · rw [if_pos hs] at hc
      cases hv : vs[i]? with
      | none => rw [hv] at hc; cases hc
      | some v =>
        rw [hv] at hc
        have R0 := R
        obtain ⟨B, L, hA, hL, H⟩ := R
        obtain ⟨p, B1, B2, ep, rfl, ho, hset⟩ := hA.focus hv
        have self : vs.set i v = vs := by
          have hi : i < vs.length := by
            rcases Nat.lt_or_ge i vs.length with hl | hl
            · exact hl
            · rw [List.getElem?_eq_none hl] at hv; cases hv
          have := List.getElem?_eq_some_iff.1 hv
          rw [← this.2]
          exact List.set_getElem_self hi
        cases ho with
        | null =>
          cases hc
          exact Or.inl ⟨w, by rw [call, var_of ep]; rfl, R0⟩
        | gone p => cases hc
        | blank a => cases hc
        | mark a q x' y' eq => cases hc
        | raw a =>
          cases hc
          rw [add_assoc, Multiset.singleton_add] at H
          rcases frameInit_ok env (w := x) (h := y) H hs with ⟨b, q, m1, e, hf, eq, H1⟩ | ⟨m1, e, H1, hn⟩
          · refine Or.inl ⟨⟨w.vars, m1⟩, by rw [call, var_of ep, e]; rfl, ?_⟩
            rw [if_pos hf]
            refine ⟨_, L, hset _ _ (.frame a b q x y eq hs hf), hL, ?_⟩
            rw [add_assoc, pair_add]; exact H1
          · have R' : Rep ⟨w.vars, m1⟩ vs lost := by
              refine ⟨_, L, hA, hL, ?_⟩
              rw [add_assoc, Multiset.singleton_add]; exact H1
            by_cases hf : Fits x y
            · rcases hn with hn | hn
              · exact absurd hf hn
              · exact Or.inr ⟨hn, Or.inl ⟨_, by rw [call, var_of ep, e]; rfl, R'⟩⟩
            · rw [if_neg hf, self]
              exact Or.inl ⟨_, by rw [call, var_of ep, e]; rfl, R'⟩
        | frame a b q x' y' eq h1 h2 =>
          have H2 : Holds w.mem.at_ ((a, .frame (.to b) (some (x', y'))) ::ₘ ((b, .mark (some q)) ::ₘ (B2 + L))) := by
            rw [add_assoc, pair_add] at H; exact H
          rcases frameInit_ok env (w := x) (h := y) H2 hs with ⟨b', q', m1, e, hf, eq', H1⟩ | ⟨m1, e, H1, hn⟩
          · dsimp only at hc
            rw [if_pos hf] at hc
            cases hc
            refine Or.inl ⟨⟨w.vars, m1⟩, by rw [call, var_of ep, e]; rfl, ?_⟩
            refine ⟨_, (b, .mark (some q)) ::ₘ L, hset _ _ (.frame a b' q' x y eq' hs hf), ?_, ?_⟩
            · rw [Multiset.card_cons, hL]
            · rw [add_assoc, Multiset.add_cons, pair_add]
              exact H1
          · have R' : Rep ⟨w.vars, m1⟩ vs lost := by
              refine ⟨_, L, hA, hL, ?_⟩
              rw [add_assoc, pair_add]; exact H1
            dsimp only at hc
            by_cases hf : Fits x y
            · rw [if_pos hf] at hc
              rcases hn with hn | hn
              · exact absurd hf hn
              · exact Or.inr ⟨hn, Or.inl ⟨_, by rw [call, var_of ep, e]; rfl, R'⟩⟩
            · rw [if_neg hf] at hc
              cases hc
              exact Or.inl ⟨_, by rw [call, var_of ep, e]; rfl, R'⟩
    · rw [if_neg hs] at hc; cases hc
  | markFree i =>
    rw [step] at hc
    cases hv : vs[i]? with
    | none => rw [hv] at hc; cases hc
    | some v =>
      rw [hv] at hc
      have R0 := R
      obtain ⟨B, L, hA, hL, H⟩ := R
      obtain ⟨p, B1, B2, ep, rfl, ho, hset⟩ := hA.focus hv
      have freed : ∀ a s, p = some a → B1 = {(a, .mark s)} → vs.set i .gone = vs' →
          ∃ w', call env w (.markFree i) = .ok w' ∧ Rep w' vs' lost := by
        rintro a s rfl rfl rfl
        rw [add_assoc, Multiset.singleton_add] at H
        refine ⟨⟨w.vars, w.mem.put a none⟩, by rw [call, var_of ep, markFree]; rw [free, H.get]; rfl, ?_⟩
        refine ⟨_, L, hset _ _ (.gone _), hL, ?_⟩
        rw [zero_add]; exact H.free
      cases ho with
      | null =>
        cases hc
        exact Or.inl ⟨w, by rw [call, var_of ep]; rfl, R0⟩
      | gone p => cases hc
      | raw a => cases hc
      | frame a b q x' y' eq h1 h2 => cases hc
      | blank a => cases hc; exact Or.inl (freed a none rfl rfl rfl)
      | mark a q x' y' eq => cases hc; exact Or.inl (freed a (some q) rfl rfl rfl)
  | frameFree i =>
    rw [step] at hc
    cases hv : vs[i]? with
    | none => rw [hv] at hc; cases hc
    | some v =>
      rw [hv] at hc
      have R0 := R
      obtain ⟨B, L, hA, hL, H⟩ := R
      obtain ⟨p, B1, B2, ep, rfl, ho, hset⟩ := hA.focus hv
      cases ho with
      | null =>
        cases hc
        exact Or.inl ⟨w, by rw [call, var_of ep]; rfl, R0⟩
      | gone p => cases hc
      | raw a => cases hc
      | blank a => cases hc
      | mark a q x' y' eq => cases hc
      | frame a b q x' y' eq h1 h2 =>
        cases hc
        rw [add_assoc, pair_add] at H
        obtain ⟨m1, e, H1⟩ := frameFree_ok (m := w.mem) (a := a) (b := b) (q := some q) (s := some (x', y')) (B := B2 + L) H
        refine Or.inl ⟨⟨w.vars, m1⟩, by rw [call, var_of ep, e]; rfl, _, L, hset _ _ (.gone _), hL, ?_⟩
        rw [zero_add]; exact H1
  | image i fresh =>
    rw [step] at hc
    cases hv : vs[i]? with
    | none => rw [hv] at hc; cases hc
    | some v =>
      rw [hv] at hc
      have R0 := R
      obtain ⟨B, L, hA, hL, H⟩ := R
      obtain ⟨p, B1, B2, ep, rfl, ho, hset⟩ := hA.focus hv
      cases ho with
      | null =>
        cases hc
        exact Or.inl ⟨w, by rw [call, var_of ep]; rfl, R0⟩
      | gone p => cases hc
      | raw a => cases hc
      | blank a => cases hc
      | mark a q x' y' eq => cases hc
      | frame a b q x' y' eq h1 h2 =>
        rw [add_assoc, pair_add] at H
        have ei := image_frame (m := w.mem) (a := a) (b := b) (q := q) (w := x') (h := y') (F := B2 + L) H fresh
        dsimp only at hc
        cases hd : fresh x' y' with
        | none =>
          rw [hd] at hc; cases hc
          refine Or.inl ⟨w, ?_, R0⟩
          rw [call, var_of ep, ei, hd]; rfl
        | some d =>
          rw [hd] at hc
          dsimp only at hc
          by_cases hl : d.length = x' * y'
          · rw [if_pos hl] at hc; cases hc
            obtain ⟨im, e, -⟩ := C29_image x' y' h1.2 _ q (created h2 eq) rfl d hl
            refine Or.inl ⟨w, ?_, R0⟩
            rw [call, var_of ep, ei, hd, e]; rfl
          · rw [if_neg hl] at hc; cases hc

theorem calls_ok (env : Allocator) (hw : Works env) {cs : List Call} {w : World} {vs lost vs' n} (R : Rep w vs lost)
    (hc : run vs cs = some (vs', n)) : ∃ w', calls env w cs = .ok w' ∧ Rep w' vs' (lost + n) := by
  induction cs generalizing w vs lost n with
  | nil => cases hc; exact ⟨w, rfl, R⟩
  | cons c cs ih =>
    rw [run] at hc
    cases hs : step vs c with
    | none => rw [hs] at hc; cases hc
    | some r =>
      obtain ⟨vs1, n1⟩ := r
      rw [hs] at hc
      dsimp only at hc
      cases hr : run vs1 cs with
      | none => rw [hr] at hc; cases hc
      | some r2 =>
        obtain ⟨vs2, n2⟩ := r2
        rw [hr] at hc
        cases hc
        rcases step_ok env R c hs with ⟨w1, e1, R1⟩ | ⟨hn, -⟩
        · obtain ⟨w2, e2, R2⟩ := ih R1 hr
          exact ⟨w2, by rw [calls, e1, Res.ok_bind, e2], by rw [← Nat.add_assoc]; exact R2⟩
        · exact absurd hw hn

end Afs.ZeroMem
