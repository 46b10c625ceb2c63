import Verif.Spec.FormatMem
/-!
# The memory of boxing formats: the invariant
-/
namespace Afs.FormatMem
open Afs Xml Afs.Spec.FormatMem

variable {L : ConfigLib}

theorem bind_inv {α β : Type} {x : Res α} {f : α → Res β} {y : β} (e : (x >>= f) = .ok y) : ∃ a, x = .ok a ∧ f a = .ok y := by
  cases x with
  | ub => cases e
  | ok a => exact ⟨a, rfl, e⟩

/-- What a block shows when read. -/
def Shows (m : Mem L) (b : Block L) (f : Format L) : Prop :=
  readConfig m b.config = .ok f.config ∧ readName m b.name = .ok f.name ∧
    ∃ x, b.numbers = some x ∧ f = { x with config := f.config, name := f.name }

structure Ok (w : World L) (n : Nat) : Prop where
  bound : ∀ a, w.mem.next ≤ a → w.mem.configs a = none ∧ w.mem.formats a = none
  held : ∀ a, a ∈ w.held → ∃ b, w.mem.formats a = some b
  count : ∀ a b, w.mem.formats a = some b → b.rc = (w.held.count a : Int) ∧ 0 < b.rc ∧ b.rc ≤ n
  config : ∀ a b c, w.mem.formats a = some b → b.config = some c → (∃ v, w.mem.configs c = some v) ∧ c ∉ w.own
  inj : ∀ a b c d x, w.mem.formats a = some b → w.mem.formats c = some d → b.config = some x → d.config = some x → a = c
  own : ∀ c, c ∈ w.own → ∃ v, w.mem.configs c = some v
  nodup : w.own.Nodup
  live : ∀ c v, w.mem.configs c = some v → c ∈ w.own ∨ ∃ a b, w.mem.formats a = some b ∧ b.config = some c
  shows : ∀ a b, w.mem.formats a = some b → (b.config = none ∧ b.name = .unset ∧ b.numbers = none) ∨ ∃ f, Shows w.mem b f ∧ Settled f
  within : ∀ a b c, w.mem.formats a = some b → b.name = .within c → b.config = some c

theorem Ok.lt {w : World L} {n : Nat} (h : Ok w n) {a : Nat} {b : Block L} (hb : w.mem.formats a = some b) : a < w.mem.next :=
  Decidable.byContradiction fun hn => by rw [(h.bound a (by omega)).2] at hb; cases hb

theorem Ok.ltc {w : World L} {n : Nat} (h : Ok w n) {a : Nat} {v : L.Config} (hb : w.mem.configs a = some v) : a < w.mem.next :=
  Decidable.byContradiction fun hn => by rw [(h.bound a (by omega)).1] at hb; cases hb

theorem ok_start : Ok (World.start : World L) 0 where
  bound _ _ := ⟨rfl, rfl⟩
  held _ h := absurd h List.not_mem_nil
  count _ _ h := nomatch h
  config _ _ _ h := nomatch h
  inj _ _ _ _ _ h := nomatch h
  own _ h := absurd h List.not_mem_nil
  nodup := List.nodup_nil
  live _ _ h := nomatch h
  shows _ _ h := nomatch h
  within _ _ _ h := nomatch h

/-- Reading goes on giving the same when the configurations read are the same. -/
theorem Shows.keep {m m' : Mem L} {b : Block L} {f : Format L} (hs : Shows m b f) (hw : ∀ c, b.name = .within c → b.config = some c)
    (hc : ∀ c v, b.config = some c → m.configs c = some v → m'.configs c = some v) : Shows m' b f := by
  obtain ⟨h1, h2, h3⟩ := hs
  have key : ∀ c, b.config = some c → ∃ v, m.configs c = some v ∧ m'.configs c = some v := by
    intro c e
    rw [e, readConfig] at h1
    cases hx : m.configs c with
    | none => rw [hx] at h1; cases h1
    | some v => exact ⟨v, rfl, hc c v e hx⟩
  refine ⟨?_, ?_, h3⟩
  · cases e : b.config with
    | none => rw [e] at h1; exact h1
    | some c =>
      obtain ⟨v, k1, k2⟩ := key c e
      rw [e, readConfig, k1] at h1
      rw [readConfig, k2]
      exact h1
  · cases e : b.name with
    | null => rw [e] at h2; exact h2
    | unset => rw [e] at h2; cases h2
    | within c =>
      obtain ⟨v, k1, k2⟩ := key c (hw c e)
      rw [e, readName, k1] at h2
      rw [readName, k2]
      exact h2

/-- The value a configuration pointer gives, in a state where it is there. -/
theorem readConfig_there {m : Mem L} {c : Option Nat} (h : ∀ x, c = some x → ∃ v, m.configs x = some v) :
    readConfig m c = .ok (c.bind m.configs) := by
  cases c with
  | none => rfl
  | some c =>
    obtain ⟨v, hv⟩ := h c rfl
    rw [readConfig, hv]
    show _ = Res.ok (m.configs c)
    rw [hv]

/-- The block of a format that was set from its configuration. -/
def setBlock (rc : Int) (c : Option Nat) (v : Option L.Config) : Block L :=
  ⟨rc, c, match c with | none => .null | some x => pointTo x (Format.init v).name, some (numbersOf (Format.init v))⟩

theorem shows_init {m : Mem L} {rc : Int} {c : Option Nat} {v : Option L.Config} (hv : readConfig m c = .ok v) :
    Shows m (setBlock rc c v) (Format.init v) := by
  cases c with
  | none =>
    cases hv
    exact ⟨rfl, rfl, _, rfl, rfl⟩
  | some x =>
    rw [readConfig] at hv
    cases hx : m.configs x with
    | none => rw [hx] at hv; cases hv
    | some y =>
      rw [hx] at hv
      cases hv
      have hcfg : (Format.init (some y)).config = some y := by
        rw [Format.init.eq_def]; dsimp only; cases L.frame y <;> rfl
      refine ⟨?_, ?_, _, rfl, rfl⟩
      · show readConfig m (some x) = _
        rw [hcfg, readConfig, hx]
      · show readName m (pointTo x (Format.init (some y)).name) = _
        cases hn : (Format.init (some y)).name with
        | none => rfl
        | some s =>
          show readName m (.within x) = _
          rw [readName, hx]
          dsimp only
          have : (Format.init (some y)).name = none ∨ (Format.init (some y)).name = L.property y (b! "FormatInfo") (b! "name") := by
            rw [Format.init.eq_def]; dsimp only; cases L.frame y with
            | none => exact .inl rfl
            | some _ => exact .inr rfl
          rcases this with h | h
          · rw [hn] at h; cases h
          · rw [← h, hn]

theorem init_settled (v : Option L.Config) : Settled (Format.init v) := by
  left
  have : (Format.init v).config = v := by
    cases v with
    | none => rfl
    | some y => rw [Format.init.eq_def]; dsimp only; cases L.frame y <;> rfl
  rw [this]

theorem init_config (v : Option L.Config) : (Format.init v).config = v := by
  cases v with
  | none => rfl
  | some y => rw [Format.init.eq_def]; dsimp only; cases L.frame y <;> rfl

theorem settled_clone {f : Format L} (h : Settled f) : Settled f.clone := by
  right
  have hc : f.clone.config = f.config := rfl
  rw [hc]
  rcases h with h | h
  · exact congrArg Format.clone h
  · have := congrArg Format.clone h
    exact this

/-- `initInstance` in one equation. -/
theorem initInstance_eq {m : Mem L} {a : Nat} {b : Block L} {v : Option L.Config} (hb : m.formats a = some b) (hv : readConfig m b.config = .ok v) :
    initInstance m a = .ok (m.put a (setBlock b.rc b.config v)) := by
  rw [initInstance, hb]
  dsimp only
  cases hc : b.config with
  | none => rw [hc] at hv; cases hv; rfl
  | some x =>
    rw [hc, readConfig] at hv
    dsimp only
    cases hx : m.configs x with
    | none => rw [hx] at hv; cases hv
    | some y => rw [hx] at hv; cases hv; rfl

theorem count_cons_ne {l : List Nat} {a q : Nat} (h : a ≠ q) : (q :: l).count a = l.count a := by
  rw [List.count_cons, if_neg (by simpa using fun e => h e.symm)]; rfl

theorem count_cons_eq {l : List Nat} {q : Nat} : (q :: l).count q = l.count q + 1 := by
  rw [List.count_cons, if_pos (by simp)]

/-- A new format, perhaps with a new configuration. -/
theorem Ok.added {w : World L} {n : Nat} (h : Ok w n) {m' : Mem L} {q : Nat} {b : Block L} {V : Option L.Config} (hq : w.mem.next ≤ q)
    (hf : ∀ x, m'.formats x = if x = q then some b else w.mem.formats x)
    (hc : ∀ x, m'.configs x = if b.config = some x then V else w.mem.configs x)
    (hV : ∀ x, b.config = some x → w.mem.next ≤ x ∧ V.isSome = true)
    (hb : ∀ x, m'.next ≤ x → m'.configs x = none ∧ m'.formats x = none) (hr : b.rc = 1)
    (hs : (b.config = none ∧ b.name = .unset ∧ b.numbers = none) ∨ ∃ f, Shows m' b f ∧ Settled f)
    (hw : ∀ c, b.name = .within c → b.config = some c) : Ok ⟨m', q :: w.held, w.own⟩ (n + 1) := by
  have old : ∀ x c, w.mem.configs x = some c → m'.configs x = some c := by
    intro x c hx
    rw [hc, if_neg]
    · exact hx
    · intro e
      have := (hV x e).1
      rw [(h.bound x this).1] at hx
      cases hx
  have hqn : w.mem.formats q = none := (h.bound q hq).2
  have hq0 : w.held.count q = 0 := by
    apply List.count_eq_zero_of_not_mem
    intro hm
    obtain ⟨b', hb'⟩ := h.held q hm
    rw [hqn] at hb'
    cases hb'
  constructor
  · exact hb
  · intro a ha
    show ∃ b, m'.formats a = some b
    rcases List.mem_cons.mp ha with ha | ha
    · subst ha; exact ⟨b, by rw [hf, if_pos rfl]⟩
    · obtain ⟨b', hb'⟩ := h.held a ha
      refine ⟨b', ?_⟩
      rw [hf, if_neg]
      · exact hb'
      · intro e; subst e; rw [hqn] at hb'; cases hb'
  · intro a b' hb'
    have hb' : m'.formats a = some b' := hb'
    rw [hf] at hb'
    show b'.rc = ((q :: w.held).count a : Int) ∧ _
    split at hb'
    · cases hb'
      rename_i e
      subst e
      rw [count_cons_eq, hq0, hr]
      exact ⟨rfl, by omega, by omega⟩
    · rename_i e
      obtain ⟨h1, h2, h3⟩ := h.count a b' hb'
      rw [count_cons_ne e]
      exact ⟨h1, h2, by omega⟩
  · intro a b' c hb' e
    have hb' : m'.formats a = some b' := hb'
    rw [hf] at hb'
    show (∃ v, m'.configs c = some v) ∧ c ∉ w.own
    split at hb'
    · cases hb'
      obtain ⟨h1, h2⟩ := hV c e
      refine ⟨?_, fun hm => ?_⟩
      · rw [hc, if_pos e]; exact Option.isSome_iff_exists.mp h2
      · obtain ⟨v, hv⟩ := h.own c hm
        rw [(h.bound c h1).1] at hv
        cases hv
    · obtain ⟨⟨v, hv⟩, h2⟩ := h.config a b' c hb' e
      exact ⟨⟨v, old c v hv⟩, h2⟩
  · intro a b1 c b2 x h1 h2 e1 e2
    have h1 : m'.formats a = some b1 := h1
    have h2 : m'.formats c = some b2 := h2
    rw [hf] at h1 h2
    have nope : ∀ a' b', w.mem.formats a' = some b' → b'.config = some x → b.config = some x → False := by
      intro a' b' k1 k2 k3
      obtain ⟨⟨v, hv⟩, -⟩ := h.config a' b' x k1 k2
      rw [(h.bound x (hV x k3).1).1] at hv
      cases hv
    split at h1
    · split at h2
      · rename_i u v; rw [u, v]
      · cases h1; exact (nope c b2 h2 e2 e1).elim
    · split at h2
      · cases h2; exact (nope a b1 h1 e1 e2).elim
      · exact h.inj a b1 c b2 x h1 h2 e1 e2
  · intro c hm
    obtain ⟨v, hv⟩ := h.own c hm
    exact ⟨v, old c v hv⟩
  · exact h.nodup
  · intro c v hv
    have hv : m'.configs c = some v := hv
    rw [hc] at hv
    split at hv
    · rename_i e
      exact .inr ⟨q, b, by show m'.formats q = _; rw [hf, if_pos rfl], e⟩
    · rcases h.live c v hv with hl | ⟨a, b', h1, h2⟩
      · exact .inl hl
      · refine .inr ⟨a, b', ?_, h2⟩
        show m'.formats a = _
        rw [hf, if_neg]
        · exact h1
        · intro e; subst e; rw [hqn] at h1; cases h1
  · intro a b' hb'
    have hb' : m'.formats a = some b' := hb'
    rw [hf] at hb'
    split at hb'
    · cases hb'; exact hs
    · rcases h.shows a b' hb' with h1 | ⟨f, h1, h2⟩
      · exact .inl h1
      · exact .inr ⟨f, h1.keep (fun c e => h.within a b' c hb' e) (fun c v _ hv => old c v hv), h2⟩
  · intro a b' c hb' e
    have hb' : m'.formats a = some b' := hb'
    rw [hf] at hb'
    split at hb'
    · cases hb'; exact hw c e
    · exact h.within a b' c hb' e

/-- A format that gets another configuration, or none. -/
theorem Ok.replaced {w : World L} {n : Nat} (h : Ok w n) {m' : Mem L} {a : Nat} {b b' : Block L} {V : Option L.Config} (ha : w.mem.formats a = some b)
    (hf : ∀ x, m'.formats x = if x = a then some b' else w.mem.formats x)
    (hc : ∀ x, m'.configs x = if b'.config = some x then V else if b.config = some x then none else w.mem.configs x)
    (hV : ∀ x, b'.config = some x → w.mem.next ≤ x ∧ V.isSome = true)
    (hb : ∀ x, m'.next ≤ x → m'.configs x = none ∧ m'.formats x = none) (hr : b'.rc = b.rc)
    (hs : ∃ f, Shows m' b' f ∧ Settled f) (hw : ∀ c, b'.name = .within c → b'.config = some c) : Ok ⟨m', w.held, w.own⟩ (n + 1) := by
  have old : ∀ x c, w.mem.configs x = some c → b.config ≠ some x → m'.configs x = some c := by
    intro x c hx hn
    rw [hc, if_neg, if_neg hn]
    · exact hx
    · intro e
      have := (hV x e).1
      rw [(h.bound x this).1] at hx
      cases hx
  constructor
  · exact hb
  · intro x hx
    show ∃ b, m'.formats x = some b
    rw [hf]
    split
    · exact ⟨_, rfl⟩
    · exact h.held x hx
  · intro x b1 hb1
    have hb1 : m'.formats x = some b1 := hb1
    rw [hf] at hb1
    split at hb1
    · cases hb1
      rename_i e
      subst e
      obtain ⟨h1, h2, h3⟩ := h.count x b ha
      rw [hr]
      exact ⟨h1, h2, by omega⟩
    · obtain ⟨h1, h2, h3⟩ := h.count x b1 hb1
      exact ⟨h1, h2, by omega⟩
  · intro x b1 c hb1 e
    have hb1 : m'.formats x = some b1 := hb1
    rw [hf] at hb1
    show (∃ v, m'.configs c = some v) ∧ c ∉ w.own
    split at hb1
    · cases hb1
      obtain ⟨h1, h2⟩ := hV c e
      refine ⟨?_, fun hm => ?_⟩
      · rw [hc, if_pos e]; exact Option.isSome_iff_exists.mp h2
      · obtain ⟨v, hv⟩ := h.own c hm
        rw [(h.bound c h1).1] at hv
        cases hv
    · rename_i hxa
      obtain ⟨⟨v, hv⟩, h2⟩ := h.config x b1 c hb1 e
      exact ⟨⟨v, old c v hv (fun e' => hxa (h.inj x b1 a b c hb1 ha e e'))⟩, h2⟩
  · intro x b1 c b2 y h1 h2 e1 e2
    have h1 : m'.formats x = some b1 := h1
    have h2 : m'.formats c = some b2 := h2
    rw [hf] at h1 h2
    have nope : ∀ a' d, w.mem.formats a' = some d → d.config = some y → b'.config = some y → False := by
      intro a' d k1 k2 k3
      obtain ⟨⟨v, hv⟩, -⟩ := h.config a' d y k1 k2
      rw [(h.bound y (hV y k3).1).1] at hv
      cases hv
    split at h1
    · split at h2
      · rename_i u v; rw [u, v]
      · cases h1; exact (nope c b2 h2 e2 e1).elim
    · split at h2
      · cases h2; exact (nope x b1 h1 e1 e2).elim
      · exact h.inj x b1 c b2 y h1 h2 e1 e2
  · intro c hm
    obtain ⟨v, hv⟩ := h.own c hm
    exact ⟨v, old c v hv (fun e => (h.config a b c ha e).2 hm)⟩
  · exact h.nodup
  · intro c v hv
    have hv : m'.configs c = some v := hv
    rw [hc] at hv
    split at hv
    · rename_i e
      exact .inr ⟨a, b', by show m'.formats a = _; rw [hf, if_pos rfl], e⟩
    · split at hv
      · cases hv
      · rename_i hne
        rcases h.live c v hv with hl | ⟨x, b1, h1, h2⟩
        · exact .inl hl
        · refine .inr ⟨x, b1, ?_, h2⟩
          show m'.formats x = _
          rw [hf, if_neg]
          · exact h1
          · intro e; subst e; rw [ha] at h1; cases h1; exact hne h2
  · intro x b1 hb1
    have hb1 : m'.formats x = some b1 := hb1
    rw [hf] at hb1
    split at hb1
    · cases hb1; exact .inr hs
    · rename_i hxa
      rcases h.shows x b1 hb1 with h1 | ⟨f, h1, h2⟩
      · exact .inl h1
      · exact .inr ⟨f, h1.keep (fun c e => h.within x b1 c hb1 e)
          (fun c v e hv => old c v hv (fun e' => hxa (h.inj x b1 a b c hb1 ha e e'))), h2⟩
  · intro x b1 c hb1 e
    have hb1 : m'.formats x = some b1 := hb1
    rw [hf] at hb1
    split at hb1
    · cases hb1; exact hw c e
    · exact h.within x b1 c hb1 e

end Afs.FormatMem
