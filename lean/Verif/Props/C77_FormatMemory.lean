import Verif.Proof.FormatMem3
import Verif.Proof.ExampleLib
/-!
# C77: the memory of boxing formats

An `afs_boxing_format` owns a copy of a boxing configuration, and its `name` is a pointer into that copy: nothing copies the text.  The values are the
subject of C49; here are the pointers.  A pointer that is followed must lead to a configuration still in use, whatever order the calls come in.
-/
namespace Afs
open Afs.Xml Afs.Spec.FormatMem Afs.FormatMem

variable {L : ConfigLib}

/-- A program that keeps the rules never follows a bad pointer, whatever the calls and their order. -/
theorem C77_programs_defined (cs : List (Call L)) (h : LegalRun World.start cs) (hn : cs.length < 2147483646) :
    ∃ w, (World.start : World L).run cs = .ok w := by
  obtain ⟨w, e, -⟩ := run_ok cs World.start 0 ok_start (Nat.le_refl _) (by omega) h
  exact ⟨w, e⟩

/-- The rules are about the state at hand: after any program that keeps them, any further call that keeps them is defined. -/
theorem C77_call_defined {w : World L} (hw : Reached w) (c : Call L) (hc : Legal w c) : ∃ w', w.step c = .ok w' := by
  obtain ⟨cs, h1, h2, h3⟩ := hw
  obtain ⟨w0, e, o⟩ := run_ok cs World.start 0 ok_start (Nat.le_refl _) (by omega) h1
  rw [h3] at e; cases e
  obtain ⟨n, o1, hn⟩ := reached_ok ⟨cs, h1, h2, h3⟩
  cases c with
  | config v => exact ⟨_, rfl⟩
  | dropConfig c => exact (dropConfig_ok o hc).imp fun _ h => h.1
  | create => obtain ⟨w', -, e, -⟩ := create_ok o; exact ⟨w', e⟩
  | create2 c => obtain ⟨w', -, e, -⟩ := create2_ok o hc; exact ⟨w', e⟩
  | init => exact ⟨_, rfl⟩
  | newRef a => exact (newRef_ok o1 hn hc).imp fun _ h => h.1
  | free a => exact (free_ok o1 hn hc).imp fun _ h => h.1
  | clone a =>
    obtain ⟨-, b, hb, hb'⟩ := hc
    obtain ⟨f, hf, hs⟩ := o.reads hb hb'
    obtain ⟨w', -, e, -⟩ := clone_ok o hf hs
    exact ⟨w', e⟩
  | setConfig a c => exact (setConfig_ok o hc.1 hc.2.1 hc.2.2).imp fun _ h => h.1
  | load a node => obtain ⟨w', -, e, -⟩ := load_ok o hc node; exact ⟨w', e⟩

/-- The count in a format is the number of references the program holds; the format is in use as long as there is one. -/
theorem C77_counts {w : World L} (hw : Reached w) (a : Nat) :
    (∀ b, w.mem.formats a = some b → b.rc = (w.held.count a : Int)) ∧ ((∃ b, w.mem.formats a = some b) ↔ a ∈ w.held) := by
  obtain ⟨n, o, -⟩ := reached_ok hw
  refine ⟨fun b hb => (o.count a b hb).1, fun ⟨b, hb⟩ => ?_, o.held a⟩
  have := o.count a b hb
  exact List.count_pos_iff.mp (by omega)

/-- Every format whose fields are written can be read, all of it: its configuration is in use, its name lies in that configuration, and what is read is a
    format of that configuration. -/
theorem C77_reads {w : World L} (hw : Reached w) (a : Nat) (ha : Written w a) : ∃ f, readFormat w.mem a = .ok f ∧ Settled f := by
  obtain ⟨n, o, -⟩ := reached_ok hw
  obtain ⟨b, hb, hb'⟩ := ha
  exact o.reads hb hb'

/-- The name of a format never points anywhere but into the format's own configuration. -/
theorem C77_name_within {w : World L} (hw : Reached w) (a : Nat) (b : Block L) (c : Nat) (hb : w.mem.formats a = some b) (hn : b.name = .within c) :
    b.config = some c ∧ ∃ v, w.mem.configs c = some v := by
  obtain ⟨n, o, -⟩ := reached_ok hw
  have h := o.within a b c hb hn
  exact ⟨h, (o.config a b c hb h).1⟩

/-- Comparing and saving formats is defined, and is the comparing and saving of the values read (C49). -/
theorem C77_equal_save {w : World L} (a b : Nat) (f g : Format L) (hf : readFormat w.mem a = .ok f) (hg : readFormat w.mem b = .ok g) :
    FormatMem.equal w.mem a b = .ok (Format.equal (some f) (some g)) ∧ FormatMem.saveXml w.mem a = .ok f.saveXml := by
  constructor
  · rw [FormatMem.equal, hf, Res.ok_bind, hg, Res.ok_bind]
  · obtain ⟨bl, hb, h1, -, -⟩ := readFormat_iff.mp hf
    rw [FormatMem.saveXml, hb]
    simp only [h1, Res.ok_bind]
    rfl

/-- What the calls do to what can be read: creating, copying, configuring and loading give the values of C49 and leave all other formats as they read before;
    the other calls leave all formats as they read before, and freeing those of which there are references left. -/
theorem C77_effects {w w' : World L} (hw : Reached w) (c : Call L) (hc : Legal w c) (hs : w.step c = .ok w') :
    match c with
    | .config _ | .dropConfig _ | .newRef _ | .init => ReadsSame w w'
    | .create => ∃ q, w'.held = q :: w.held ∧ w.mem.formats q = none ∧ Effect w w' q Format.create
    | .create2 c => ∃ q, w'.held = q :: w.held ∧ w.mem.formats q = none ∧ Effect w w' q (Format.create2 (valueAt w c))
    | .free a => ∀ x g, (x ≠ a ∨ a ∈ w'.held) → readFormat w.mem x = .ok g → readFormat w'.mem x = .ok g
    | .clone a => ∀ f, readFormat w.mem a = .ok f → ∃ q, w'.held = q :: w.held ∧ w.mem.formats q = none ∧ Effect w w' q f.clone
    | .setConfig a c => w'.held = w.held ∧ ∀ f : Format L, Effect w w' a (f.setConfig (valueAt w c))
    | .load a node => w'.held = w.held ∧ ∀ f, readFormat w.mem a = .ok f → Effect w w' a (f.loadXml node).2 := by
  obtain ⟨n, o, hn⟩ := reached_ok hw
  cases c with
  | config v => obtain ⟨w1, e, -, -, -, -, -, -, h⟩ := config_ok o v; rw [hs] at e; cases e; exact h
  | dropConfig c => obtain ⟨w1, e, -, -, -, -, -, h⟩ := dropConfig_ok o hc; rw [hs] at e; cases e; exact h
  | newRef a => obtain ⟨w1, e, -, -, -, h⟩ := newRef_ok o hn hc; rw [hs] at e; cases e; exact h
  | init => obtain ⟨w1, q, e, -, -, -, -, -, h⟩ := init_ok o; rw [hs] at e; cases e; exact h
  | create => obtain ⟨w1, q, e, -, h1, -, h2, h3⟩ := create_ok o; rw [hs] at e; cases e; exact ⟨q, h1, h2, h3⟩
  | create2 c => obtain ⟨w1, q, e, -, h1, -, h2, h3⟩ := create2_ok o hc; rw [hs] at e; cases e; exact ⟨q, h1, h2, h3⟩
  | free a =>
    obtain ⟨w1, e, -, h1, -, -, h2⟩ := free_ok o hn hc
    rw [hs] at e; cases e
    intro x g hx hg
    refine h2 x g (hx.imp_right fun hm => ?_) hg
    rw [h1] at hm
    have := List.count_pos_iff.mpr hm
    rw [List.count_erase_self] at this
    omega
  | clone a =>
    intro f hf
    obtain ⟨-, b, hb, hb'⟩ := hc
    obtain ⟨f', hf', hset⟩ := o.reads hb hb'
    rw [hf] at hf'; cases hf'
    obtain ⟨w1, q, e, -, h1, -, h2, h3⟩ := clone_ok o hf hset
    rw [hs] at e; cases e; exact ⟨q, h1, h2, h3⟩
  | setConfig a c =>
    obtain ⟨w1, e, -, h1, -, h2⟩ := setConfig_ok o hc.1 hc.2.1 hc.2.2
    rw [hs] at e; cases e; exact ⟨h1, fun _ => h2⟩
  | load a node =>
    obtain ⟨w1, r, e, -, h1, -, -, -, h2, h3, h4⟩ := load_ok o hc node
    rw [hs] at e; cases e
    refine ⟨h1, fun f hf => ?_⟩
    cases hr : r.2 with
    | true => exact h4 hr f
    | false =>
      have hf0 : (f.loadXml node).2 = f := by
        have := h2 f
        rw [hr] at this
        revert this
        rw [Format.loadXml]
        split
        · intro e; cases e
        · split
          · intro _; rfl
          · intro e; cases e
      rw [hf0]
      exact ⟨by rw [h3 hr]; exact hf, by rw [h3 hr]; exact fun _ _ _ h => h⟩

/-- The format is gone with its last reference, and not before. -/
theorem C77_free_destroys {w w' : World L} (hw : Reached w) (a : Nat) (ha : a ∈ w.held) (hs : w.step (.free a) = .ok w') :
    ((∃ b, w'.mem.formats a = some b) ↔ 1 < w.held.count a) ∧ w'.held = w.held.erase a := by
  obtain ⟨n, o, hn⟩ := reached_ok hw
  obtain ⟨w1, e, -, h1, -, h2, -⟩ := free_ok o hn ha
  rw [hs] at e; cases e
  exact ⟨h2, h1⟩

/-- Configurations are never shared and never lost: each one in use belongs to the program or to exactly one format, and not to both. -/
theorem C77_configs_owned {w : World L} (hw : Reached w) (c : Nat) :
    (∃ v, w.mem.configs c = some v) ↔ (c ∈ w.own ∧ ∀ a, ¬ Has w a c) ∨ (c ∉ w.own ∧ ∃ a, Has w a c ∧ ∀ x, Has w x c → x = a) := by
  obtain ⟨n, o, -⟩ := reached_ok hw
  constructor
  · rintro ⟨v, hv⟩
    by_cases hc : c ∈ w.own
    · exact .inl ⟨hc, fun a ⟨b, hb, e⟩ => (o.config a b c hb e).2 hc⟩
    · rcases o.live c v hv with h | ⟨a, b, hb, e⟩
      · exact absurd h hc
      · exact .inr ⟨hc, a, ⟨b, hb, e⟩, fun x ⟨d, hd, ed⟩ => o.inj x d a b c hd hb ed e⟩
  · rintro (⟨h, -⟩ | ⟨-, a, ⟨b, hb, e⟩, -⟩)
    · exact o.own c h
    · exact (o.config a b c hb e).1

/-- A program that has given back all it had leaves nothing behind. -/
theorem C77_no_leak {w : World L} (hw : Reached w) (h1 : w.held = []) (h2 : w.own = []) : ∀ x, w.mem.configs x = none ∧ w.mem.formats x = none := by
  obtain ⟨n, o, -⟩ := reached_ok hw
  have hf : ∀ x, w.mem.formats x = none := by
    intro x
    cases hx : w.mem.formats x with
    | none => rfl
    | some b =>
      have := o.count x b hx
      rw [h1] at this
      simp at this
      omega
  intro x
  refine ⟨?_, hf x⟩
  cases hx : w.mem.configs x with
  | none => rfl
  | some v =>
    rcases o.live x v hx with h | ⟨a, b, hb, -⟩
    · rw [h2] at h; cases h
    · rw [hf a] at hb; cases hb

/-- Setting the configuration is defined exactly when it is not the format's own configuration that is given: that one is freed before it is copied.  (The
    configuration of a format is a public field, so a program can get at it.) -/
theorem C77_set_config_own {w : World L} (hw : Reached w) (a c : Nat) (ha : a ∈ w.held) (hc : ∃ v, w.mem.configs c = some v) :
    (∃ w', w.step (.setConfig a (some c)) = .ok w') ↔ ¬ Has w a c := by
  obtain ⟨n, o, -⟩ := reached_ok hw
  constructor
  · rintro ⟨w', e⟩ ⟨b, hb, hbc⟩
    obtain ⟨m', e1, -⟩ := FormatMem.bind_inv e
    obtain ⟨v, hv⟩ := hc
    rw [FormatMem.setConfig, hb] at e1
    obtain ⟨m1, e2, e3⟩ := FormatMem.bind_inv e1
    rw [hbc, freeConfig, hv] at e2
    cases e2
    obtain ⟨r, e4, -⟩ := FormatMem.bind_inv e3
    rw [cloneConfig] at e4
    simp at e4
  · intro h
    obtain ⟨w', e, -⟩ := setConfig_ok o ha (c := some c) (fun x e => by cases e; exact hc) (fun x e => by cases e; exact h)
    exact ⟨w', e⟩

/-- A format made by `afs_boxing_format_init` has only its configuration and its count written: reading its name or its numbers, comparing it with a format
    and copying it are undefined, until it is given a configuration (or NULL) or loaded. -/
theorem C77_init_unset {w w' : World L} (hw : Reached w) (hs : w.step .init = .ok w') :
    ∃ q, w'.held = q :: w.held ∧ ¬ Written w' q ∧ readFormat w'.mem q = .ub ∧ (∀ b, FormatMem.equal w'.mem q b = .ub) ∧
      w'.step (.clone q) = .ub ∧ FormatMem.saveXml w'.mem q = .ok (Format.saveXml (Format.create (L := L))) ∧
      ∀ c, There w' c → ∃ w'', w'.step (.setConfig q c) = .ok w'' ∧ readFormat w''.mem q = .ok (Format.create2 (valueAt w' c)) := by
  obtain ⟨n, o, -⟩ := reached_ok hw
  obtain ⟨w1, q, e, o1, h1, -, h2, h3, -⟩ := init_ok o
  rw [hs] at e; cases e
  have hr : readFormat w'.mem q = .ub := by rw [readFormat, h3]; rfl
  refine ⟨q, h1, ?_, hr, fun b => ?_, ?_, ?_, fun c hc => ?_⟩
  · rintro ⟨b, hb, hb'⟩
    rw [h3] at hb; cases hb; cases hb'
  · rw [FormatMem.equal, hr]; rfl
  · have hq : q ≠ w'.mem.next := by have := o1.lt h3; omega
    have hq2 : (w'.mem.alloc (setBlock (L := L) 1 none none)).1.formats q = some ⟨1, none, .unset, none⟩ := by rw [alloc_formats, if_neg hq]; exact h3
    simp only [World.step, FormatMem.clone, create_eq, Res.ok_bind, hq2]
    rfl
  · rw [FormatMem.saveXml, h3]
    rfl
  · obtain ⟨w'', e, -, -, -, h4⟩ := setConfig_ok o1 (a := q) (by rw [h1]; exact List.mem_cons_self) hc (fun x _ hx => by
      obtain ⟨b, hb, hb'⟩ := hx
      rw [h3] at hb; cases hb; cases hb')
    exact ⟨w'', e, h4.1⟩

/-! ### A program

A configuration is made, a format of it, the configuration is dropped, the format copied and freed, and the copy is given the configuration of a second
format: the name read in the end is the one in the configuration. -/

def exFormatCalls (v : L.Config) : List (Call L) :=
  [.config v, .create2 (some 0), .dropConfig 0, .clone 2, .newRef 2, .free 2, .free 2, .init, .setConfig 5 (some 4), .free 3]

theorem exFormat_legal (v : L.Config) : LegalRun World.start (exFormatCalls v) := by
  refine ⟨trivial, fun w e => ?_⟩
  cases e
  refine ⟨fun x e => ⟨v, by cases e; rfl⟩, fun w e => ?_⟩
  cases e
  refine ⟨List.mem_singleton.mpr rfl, fun w e => ?_⟩
  cases e
  refine ⟨⟨List.mem_singleton.mpr rfl, _, rfl, rfl⟩, fun w e => ?_⟩
  cases e
  refine ⟨.tail _ (.head _), fun w e => ?_⟩
  cases e
  refine ⟨.head _, fun w e => ?_⟩
  cases e
  refine ⟨.tail _ (.head _), fun w e => ?_⟩
  cases e
  refine ⟨trivial, fun w e => ?_⟩
  cases e
  refine ⟨⟨.head _, fun x e => ⟨v, by cases e; rfl⟩, fun x e h => ?_⟩, fun w e => ?_⟩
  · obtain ⟨b, hb, hb'⟩ := h
    cases hb
    cases hb'
  cases e
  refine ⟨.tail _ (.head _), fun w e => ?_⟩
  trivial

/-- The program runs, and in the end the one format left has the name that is in the configuration, although that configuration, the first format and the
    copy are all gone. -/
theorem C77_example (v : L.Config) : ∃ w, (World.start : World L).run (exFormatCalls v) = .ok w ∧ Reached w ∧ w.held = [5] ∧ w.own = [] ∧
    readFormat w.mem 5 = .ok (Format.create2 (some v)) ∧ ∀ c, (∃ u, w.mem.configs c = some u) ↔ c = 6 := by
  obtain ⟨w, e⟩ := C77_programs_defined (exFormatCalls v) (exFormat_legal v) (by show 10 < 2147483646; decide)
  have hr : Reached w := ⟨_, exFormat_legal v, by show 10 < 2147483646; decide, e⟩
  have hx : w.held = [5] ∧ w.own = [] ∧ w.mem.formats 5 = some (setBlock 1 (some 6) (some v)) ∧ w.mem.configs 6 = some v := by
    cases e
    exact ⟨rfl, rfl, rfl, rfl⟩
  obtain ⟨h1, h2, h3, h4⟩ := hx
  refine ⟨w, e, hr, h1, h2, readFormat_iff.mpr ⟨_, h3, shows_init (v := some v) (by rw [readConfig, h4])⟩, fun c => ?_⟩
  rw [C77_configs_owned hr c]
  have hh : ∀ a d, Has w a d → a = 5 ∧ d = 6 := by
    rintro a d ⟨b, hb, hd⟩
    have ha : a ∈ w.held := ((C77_counts hr a).2).mp ⟨b, hb⟩
    rw [h1] at ha
    have ha := List.mem_singleton.mp ha
    subst ha
    rw [h3] at hb
    cases hb
    cases hd
    exact ⟨rfl, rfl⟩
  constructor
  · rintro (⟨h, -⟩ | ⟨-, a, h, -⟩)
    · rw [h2] at h; cases h
    · exact (hh a c h).2
  · intro e
    subst e
    exact .inr ⟨by rw [h2]; exact List.not_mem_nil, 5, ⟨_, h3, rfl⟩, fun x h => (hh x 6 h).1⟩

/-- In a program like that, a format given its own configuration is a use of freed memory. -/
theorem C77_own_config_example (v : L.Config) : (World.start : World L).run [.config v, .create2 (some 0), .setConfig 2 (some 1)] = .ub := rfl

/-- Creating a format of another's configuration is fine, as is setting another's. -/
example (v : L.Config) : ∃ w, (World.start : World L).run [.config v, .create2 (some 0), .create2 (some 1), .setConfig 4 (some 1)] = .ok w := ⟨_, rfl⟩

end Afs
