import Verif.Proof.FormatMem2
/-!
# The memory of boxing formats: programs
-/
namespace Afs.FormatMem
open Afs Xml Afs.Spec.FormatMem

variable {L : ConfigLib}

theorem config_ok {w : World L} {n : Nat} (h : Ok w n) (v : L.Config) :
    ∃ w', w.step (.config v) = .ok w' ∧ Ok w' (n + 1) ∧ w'.held = w.held ∧ w'.own = w.mem.next :: w.own ∧ w'.mem = (newConfig w.mem v).1 ∧
      w'.mem.configs w.mem.next = some v ∧ w'.mem.formats = w.mem.formats ∧ ∀ x g, readFormat w.mem x = .ok g → readFormat w'.mem x = .ok g := by
  have hc : ∀ x, (newConfig w.mem v).1.configs x = if x = w.mem.next then some v else w.mem.configs x := fun _ => rfl
  have old : ∀ x y, w.mem.configs x = some y → (newConfig w.mem v).1.configs x = some y := by
    intro x y hx
    have := h.ltc hx
    rw [hc, if_neg (by omega)]
    exact hx
  refine ⟨_, rfl, ?_, rfl, rfl, rfl, by show (newConfig w.mem v).1.configs _ = _; rw [hc, if_pos rfl], rfl, fun x g hg => ?_⟩
  · constructor
    · intro x hx
      have hx' : w.mem.next + 1 ≤ x := hx
      obtain ⟨k1, k2⟩ := h.bound x (by omega)
      refine ⟨?_, k2⟩
      show (newConfig w.mem v).1.configs x = none
      rw [hc, if_neg (by omega)]
      exact k1
    · exact h.held
    · intro a b hb
      obtain ⟨k1, k2, k3⟩ := h.count a b hb
      exact ⟨k1, k2, by push_cast; omega⟩
    · intro a b c hb e
      obtain ⟨⟨y, hy⟩, k⟩ := h.config a b c hb e
      refine ⟨⟨y, old c y hy⟩, fun hm => ?_⟩
      rcases List.mem_cons.mp hm with hm | hm
      · have := h.ltc hy
        have hm : c = w.mem.next := hm
        omega
      · exact k hm
    · exact h.inj
    · intro c hm
      show ∃ y, (newConfig w.mem v).1.configs c = some y
      rcases List.mem_cons.mp hm with hm | hm
      · have hm : c = w.mem.next := hm
        exact ⟨v, by rw [hc, if_pos hm]⟩
      · obtain ⟨y, hy⟩ := h.own c hm
        exact ⟨y, old c y hy⟩
    · refine List.nodup_cons.mpr ⟨fun hm => ?_, h.nodup⟩
      obtain ⟨y, hy⟩ := h.own _ hm
      have := h.ltc hy
      have e : (newConfig w.mem v).2 = w.mem.next := rfl
      rw [e] at this
      omega
    · intro c y hy
      have hy : (newConfig w.mem v).1.configs c = some y := hy
      rw [hc] at hy
      split at hy
      · rename_i e; exact .inl (List.mem_cons.mpr (.inl e))
      · rcases h.live c y hy with k | k
        · exact .inl (List.mem_cons_of_mem _ k)
        · exact .inr k
    · intro a b hb
      rcases h.shows a b hb with k | ⟨f, k1, k2⟩
      · exact .inl k
      · exact .inr ⟨f, k1.keep (fun c e => h.within a b c hb e) (fun c y _ hy => old c y hy), k2⟩
    · exact h.within
  · exact read_keep h hg (fun b hb => ⟨b.rc, hb⟩) (fun _ c y _ _ hy => old c y hy)

theorem dropConfig_ok {w : World L} {n : Nat} (h : Ok w n) {c : Nat} (hm : c ∈ w.own) :
    ∃ w', w.step (.dropConfig c) = .ok w' ∧ Ok w' (n + 1) ∧ w'.held = w.held ∧ w'.own = w.own.erase c ∧ w'.mem.configs c = none ∧
      w'.mem.formats = w.mem.formats ∧ ∀ x g, readFormat w.mem x = .ok g → readFormat w'.mem x = .ok g := by
  obtain ⟨m1, e1, hf, hn, hc⟩ := freeConfig_eq (m := w.mem) (c := some c) (fun x e => by cases e; exact h.own c hm)
  have keep : ∀ a b d v, w.mem.formats a = some b → b.config = some d → w.mem.configs d = some v → m1.configs d = some v := by
    intro a b d v hb e hv
    rw [hc, if_neg]
    · exact hv
    · intro e'; cases e'; exact (h.config a b c hb e).2 hm
  refine ⟨⟨m1, w.held, w.own.erase c⟩, by simp only [World.step, e1, Res.ok_bind], ?_, rfl, rfl, by show m1.configs c = _; rw [hc, if_pos rfl], hf, fun x g hg => ?_⟩
  · constructor
    · intro x hx
      have hx' : m1.next ≤ x := hx
      rw [hn] at hx'
      obtain ⟨k1, k2⟩ := h.bound x hx'
      constructor
      · show m1.configs x = none
        rw [hc, k1]; split <;> rfl
      · show m1.formats x = none
        rw [hf]; exact k2
    · intro a ha
      obtain ⟨b, hb⟩ := h.held a ha
      exact ⟨b, by show m1.formats a = _; rw [hf]; exact hb⟩
    · intro a b hb
      have hb : m1.formats a = some b := hb
      rw [hf] at hb
      obtain ⟨k1, k2, k3⟩ := h.count a b hb
      exact ⟨k1, k2, by push_cast; omega⟩
    · intro a b d hb e
      have hb : m1.formats a = some b := hb
      rw [hf] at hb
      obtain ⟨⟨y, hy⟩, k⟩ := h.config a b d hb e
      exact ⟨⟨y, keep a b d y hb e hy⟩, fun hm' => k (List.mem_of_mem_erase hm')⟩
    · intro a b d b2 x hb hb2
      have hb : m1.formats a = some b := hb
      have hb2 : m1.formats d = some b2 := hb2
      rw [hf] at hb hb2
      exact h.inj a b d b2 x hb hb2
    · intro d hd
      obtain ⟨y, hy⟩ := h.own d (List.mem_of_mem_erase hd)
      refine ⟨y, ?_⟩
      show m1.configs d = _
      rw [hc, if_neg]
      · exact hy
      · intro e; cases e; exact (List.Nodup.mem_erase_iff h.nodup).mp hd |>.1 rfl
    · exact h.nodup.erase c
    · intro d y hy
      have hy : m1.configs d = some y := hy
      rw [hc] at hy
      split at hy
      · cases hy
      · rename_i e
        rcases h.live d y hy with k | ⟨a, b, hb, k⟩
        · exact .inl ((List.Nodup.mem_erase_iff h.nodup).mpr ⟨fun e' => e (by rw [e']), k⟩)
        · exact .inr ⟨a, b, by show m1.formats a = _; rw [hf]; exact hb, k⟩
    · intro a b hb
      have hb : m1.formats a = some b := hb
      rw [hf] at hb
      rcases h.shows a b hb with k | ⟨f, k1, k2⟩
      · exact .inl k
      · exact .inr ⟨f, k1.keep (fun c e => h.within a b c hb e) (fun d y e hy => keep a b d y hb e hy), k2⟩
    · intro a b d hb
      have hb : m1.formats a = some b := hb
      rw [hf] at hb
      exact h.within a b d hb
  · exact read_keep h hg (fun b hb => ⟨b.rc, by show m1.formats x = _; rw [hf]; exact hb⟩) (fun b d y hb e hy => keep x b d y hb e hy)

/-- What a document is to a format: nothing, NULL, or a configuration (src/controlframe/boxingformat.c:441-468). -/
theorem load_ok {w : World L} {n : Nat} (h : Ok w n) {a : Nat} (ha : a ∈ w.held) (node : Node) :
    ∃ w' r, w.step (.load a node) = .ok w' ∧ Ok w' (n + 3) ∧ w'.held = w.held ∧ w'.own = w.own ∧ loadXml w.mem a node = .ok r ∧ w'.mem = r.1 ∧
      (∀ f : Format L, (f.loadXml node).1 = r.2) ∧
      (r.2 = false → w'.mem = w.mem) ∧
      (r.2 = true → ∀ f : Format L, Effect w w' a (f.loadXml node).2) := by
  obtain ⟨b, hb⟩ := h.held a ha
  cases h1 : find node (b! "NULL") with
  | some x =>
    obtain ⟨w', e, hok, hh, ho, heff⟩ := setConfig_ok h ha (c := none) (fun _ e => nomatch e) (fun _ e => nomatch e)
    obtain ⟨m', e1, e2⟩ := bind_inv e
    cases e2
    have el : loadXml w.mem a node = .ok (m', true) := by rw [loadXml, hb]; simp only [h1, e1, Res.ok_bind]
    have ev : ∀ f : Format L, f.loadXml node = (true, f.setConfig none) := by intro f; rw [Format.loadXml, h1]
    refine ⟨⟨m', w.held, w.own⟩, (m', true), by simp only [World.step, el, Res.ok_bind], hok.mono (by omega), rfl, rfl, el, rfl, fun f => by rw [ev], (fun e => nomatch e),
      fun _ f => by rw [ev]; exact heff⟩
  | none =>
    cases h2 : find node (b! "work") with
    | none =>
      have el : loadXml w.mem a node = .ok (w.mem, false) := by rw [loadXml, hb]; simp only [h1, h2]
      exact ⟨w, (w.mem, false), by simp only [World.step, el, Res.ok_bind], h.mono (by omega), rfl, rfl, el, rfl,
        fun f => by rw [Format.loadXml, h1]; simp only [h2], fun _ => rfl, fun e => nomatch e⟩
    | some k =>
      obtain ⟨w1, s1, o1, hh1, ho1, hm1, hv1, hf1, hread1⟩ := config_ok h (Format.loadConfig k)
      have hnot : ∀ x, some w.mem.next = some x → ¬ Has w1 a x := by
        intro x e ⟨b1, hb1, hc1⟩
        cases e
        rw [hf1] at hb1
        obtain ⟨⟨v, hv⟩, -⟩ := h.config a b1 _ hb1 hc1
        have := h.ltc hv
        omega
      obtain ⟨w2, s2, o2, hh2, ho2, heff⟩ := setConfig_ok o1 (c := some w.mem.next) (by rw [hh1]; exact ha) (fun x e => by cases e; exact ⟨_, hv1⟩) hnot
      have hin : w.mem.next ∈ w2.own := by rw [ho2, ho1]; exact List.mem_cons_self
      obtain ⟨w3, s3, o3, hh3, ho3, -, hf3, hread3⟩ := dropConfig_ok o2 hin
      obtain ⟨m2, e2, k2⟩ := bind_inv s2
      cases k2
      obtain ⟨m3, e3, k3⟩ := bind_inv s3
      cases k3
      cases s1
      have el : loadXml w.mem a node = .ok (m3, true) := by
        rw [loadXml, hb]
        simp only [h1, h2]
        have e2' : setConfig (newConfig w.mem (Format.loadConfig k)).1 a (some (newConfig w.mem (Format.loadConfig k)).2) = .ok m2 := e2
        have e3' : freeConfig m2 (some (newConfig w.mem (Format.loadConfig k)).2) = .ok m3 := e3
        rw [e2', Res.ok_bind, e3', Res.ok_bind]
      have ev : ∀ f : Format L, f.loadXml node = (true, f.setConfig (some (Format.loadConfig k))) := by intro f; rw [Format.loadXml, h1]; simp only [h2]
      have hown : ((newConfig w.mem (Format.loadConfig k)).2 :: w.own).erase w.mem.next = w.own := List.erase_cons_head _ _
      refine ⟨⟨m3, w.held, w.own⟩, (m3, true), by simp only [World.step, el, Res.ok_bind], ?_, rfl, rfl, el, rfl, fun f => by rw [ev], (fun e => nomatch e), fun _ f => ?_⟩
      · have o3' : Ok ⟨m3, w.held, ((newConfig w.mem (Format.loadConfig k)).2 :: w.own).erase w.mem.next⟩ (n + 3) := o3
        rw [hown] at o3'
        exact o3'
      · rw [ev]
        have hval : valueAt (⟨(newConfig w.mem (Format.loadConfig k)).1, w.held, (newConfig w.mem (Format.loadConfig k)).2 :: w.own⟩ : World L) (some w.mem.next) =
            some (Format.loadConfig k) := hv1
        rw [hval] at heff
        exact ⟨hread3 _ _ heff.1, fun x g hx hg => hread3 x g (heff.2 x g hx (hread1 x g hg))⟩

/-- A format that is written reads as a value of its configuration. -/
theorem Ok.reads {w : World L} {n : Nat} (h : Ok w n) {a : Nat} {b : Block L} (hb : w.mem.formats a = some b) (hw : b.numbers.isSome = true) :
    ∃ f, readFormat w.mem a = .ok f ∧ Settled f := by
  rcases h.shows a b hb with ⟨-, -, k⟩ | ⟨f, k1, k2⟩
  · rw [k] at hw; cases hw
  · exact ⟨f, readFormat_iff.mpr ⟨b, hb, k1⟩, k2⟩

/-- Counts grow by at most one in a call, but loading is three steps of the invariant: `n` steps are at most `3 n`, counts are bounded separately. -/
structure Good (w : World L) (n : Nat) : Prop where
  ok : ∃ k, Ok w k
  small : ∀ a b, w.mem.formats a = some b → b.rc ≤ n

theorem Ok.tight {w : World L} {k n : Nat} (h : Ok w k) (hs : ∀ a b, w.mem.formats a = some b → b.rc ≤ n) : Ok w n :=
  { h with count := fun a b hb => by obtain ⟨h1, h2, -⟩ := h.count a b hb; exact ⟨h1, h2, hs a b hb⟩ }

theorem held_small {w : World L} {k : Nat} (h : Ok w k) {n : Nat} (hl : w.held.length ≤ n) : Ok w n :=
  h.tight fun a b hb => by
    have := (h.count a b hb).1
    have := List.count_le_length (a := a) (l := w.held)
    omega

theorem step_ok {w : World L} {n : Nat} (h : Ok w n) (hl : w.held.length ≤ n) (hn : n + 1 < 2147483647) {c : Call L} (hc : Legal w c) :
    ∃ w', w.step c = .ok w' ∧ Ok w' (n + 1) ∧ w'.held.length ≤ n + 1 := by
  cases c with
  | config v => obtain ⟨w', e, o, hh, -⟩ := config_ok h v; exact ⟨w', e, o, by rw [hh]; omega⟩
  | dropConfig c => obtain ⟨w', e, o, hh, -⟩ := dropConfig_ok h hc; exact ⟨w', e, o, by rw [hh]; omega⟩
  | create => obtain ⟨w', q, e, o, hh, -⟩ := create_ok h; exact ⟨w', e, o, by rw [hh, List.length_cons]; omega⟩
  | create2 c => obtain ⟨w', q, e, o, hh, -⟩ := create2_ok h hc; exact ⟨w', e, o, by rw [hh, List.length_cons]; omega⟩
  | init => obtain ⟨w', q, e, o, hh, -⟩ := init_ok h; exact ⟨w', e, o, by rw [hh, List.length_cons]; omega⟩
  | newRef a => obtain ⟨w', e, o, hh, -⟩ := newRef_ok h hn hc; exact ⟨w', e, o, by rw [hh, List.length_cons]; omega⟩
  | free a =>
    obtain ⟨w', e, o, hh, -⟩ := free_ok h hn hc
    exact ⟨w', e, o, by rw [hh]; have := List.length_erase_le (a := a) (l := w.held); omega⟩
  | clone a =>
    obtain ⟨ha, b, hb, hw⟩ := hc
    obtain ⟨f, hf, hs⟩ := h.reads hb hw
    obtain ⟨w', q, e, o, hh, -⟩ := clone_ok h hf hs
    exact ⟨w', e, o, by rw [hh, List.length_cons]; omega⟩
  | setConfig a c => obtain ⟨w', e, o, hh, -⟩ := setConfig_ok h hc.1 hc.2.1 hc.2.2; exact ⟨w', e, o, by rw [hh]; omega⟩
  | load a node =>
    obtain ⟨w', r, e, o, hh, -⟩ := load_ok h hc node
    have hl' : w'.held.length ≤ n + 1 := by rw [hh]; omega
    exact ⟨w', e, held_small o hl', hl'⟩

theorem run_ok : ∀ (cs : List (Call L)) (w : World L) (n : Nat), Ok w n → w.held.length ≤ n → n + cs.length < 2147483647 → LegalRun w cs →
    ∃ w', w.run cs = .ok w' ∧ Ok w' (n + cs.length) := by
  intro cs
  induction cs with
  | nil => intro w n h _ _ _; exact ⟨w, rfl, h⟩
  | cons c cs ih =>
    intro w n h hl hn ⟨hc, hcs⟩
    rw [List.length_cons] at hn ⊢
    obtain ⟨w1, e, o, hl1⟩ := step_ok h hl (by omega) hc
    obtain ⟨w', e', o'⟩ := ih w1 (n + 1) o hl1 (by omega) (hcs w1 e)
    refine ⟨w', by rw [World.run, e, Res.ok_bind]; exact e', ?_⟩
    have : n + (cs.length + 1) = n + 1 + cs.length := by omega
    rw [this]
    exact o'

theorem reached_ok {w : World L} (h : Reached w) : ∃ n, Ok w n ∧ n + 1 < 2147483647 := by
  obtain ⟨cs, h1, h2, h3⟩ := h
  obtain ⟨w', e, o⟩ := run_ok cs World.start 0 ok_start (Nat.le_refl _) (by omega) h1
  rw [h3] at e
  cases e
  exact ⟨_, o, by omega⟩

end Afs.FormatMem
