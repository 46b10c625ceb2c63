import Verif.Proof.FormatMem
/-!
# The memory of boxing formats: the calls
-/
namespace Afs.FormatMem
open Afs Xml Afs.Spec.FormatMem

variable {L : ConfigLib}

theorem readFormat_iff {m : Mem L} {a : Nat} {f : Format L} : readFormat m a = .ok f ↔ ∃ b, m.formats a = some b ∧ Shows m b f := by
  constructor
  · intro e
    rw [readFormat] at e
    cases hb : m.formats a with
    | none => rw [hb] at e; cases e
    | some b =>
      rw [hb] at e
      dsimp only at e
      refine ⟨b, rfl, ?_⟩
      cases h1 : readConfig m b.config with
      | ub => rw [h1] at e; cases e
      | ok c =>
        rw [h1, Res.ok_bind] at e
        cases h2 : readName m b.name with
        | ub => rw [h2] at e; cases e
        | ok s =>
          rw [h2, Res.ok_bind] at e
          cases h3 : b.numbers with
          | none => rw [h3] at e; cases e
          | some x =>
            rw [h3] at e
            injection e with e
            subst e
            exact ⟨h1, h2, x, h3, rfl⟩
  · rintro ⟨b, hb, h1, h2, x, h3, h4⟩
    rw [readFormat, hb]
    dsimp only
    rw [h1, Res.ok_bind, h2, Res.ok_bind, h3]
    dsimp only
    rw [← h4]

theorem read_written {m : Mem L} {a : Nat} {f : Format L} (h : readFormat m a = .ok f) : ∃ b, m.formats a = some b ∧ b.numbers.isSome = true := by
  obtain ⟨b, hb, -, -, x, h3, -⟩ := readFormat_iff.mp h
  exact ⟨b, hb, by rw [h3]; rfl⟩

/-- A format reads the same in a memory where its block and its configuration are the same. -/
theorem read_keep {w : World L} {n : Nat} (h : Ok w n) {m' : Mem L} {x : Nat} {g : Format L} (hg : readFormat w.mem x = .ok g)
    (hf : ∀ b, w.mem.formats x = some b → ∃ rc, m'.formats x = some { b with rc := rc })
    (hc : ∀ b c v, w.mem.formats x = some b → b.config = some c → w.mem.configs c = some v → m'.configs c = some v) : readFormat m' x = .ok g := by
  obtain ⟨b, hb, hs⟩ := readFormat_iff.mp hg
  obtain ⟨rc, hrc⟩ := hf b hb
  refine readFormat_iff.mpr ⟨_, hrc, ?_⟩
  exact hs.keep (fun c e => h.within x b c hb e) (fun c v e hv => hc b c v hb e hv)

theorem Ok.mono {w : World L} {n k : Nat} (h : Ok w n) (hk : n ≤ k) : Ok w k :=
  { h with count := fun a b hb => by obtain ⟨h1, h2, h3⟩ := h.count a b hb; exact ⟨h1, h2, by omega⟩ }

theorem put_alloc (m : Mem L) (b b' : Block L) : (m.alloc b).1.put (m.alloc b).2 b' = (m.alloc b').1 := by
  simp only [Mem.put, Mem.alloc]
  congr 1
  funext x
  split <;> rfl

theorem alloc_formats (m : Mem L) (b : Block L) (x : Nat) : (m.alloc b).1.formats x = if x = m.next then some b else m.formats x := rfl

theorem put_put (m : Mem L) (a : Nat) (b b' : Block L) : (m.put a b).put a b' = m.put a b' := by
  simp only [Mem.put]
  congr 1
  funext x
  split <;> rfl

theorem readConfig_alloc (m : Mem L) (b : Block L) (c : Option Nat) : readConfig (m.alloc b).1 c = readConfig m c := rfl

theorem readConfig_put (m : Mem L) (a : Nat) (b : Block L) (c : Option Nat) : readConfig (m.put a b) c = readConfig m c := rfl

theorem setBlock_within {rc : Int} {c : Option Nat} {v : Option L.Config} (x : Nat) (e : (setBlock (L := L) rc c v).name = .within x) :
    (setBlock (L := L) rc c v).config = some x := by
  cases c with
  | none => cases e
  | some y =>
    simp only [setBlock, pointTo] at e ⊢
    split at e
    · cases e; rfl
    · cases e

theorem alloc_init {m : Mem L} {c : Option Nat} {v : Option L.Config} (hv : readConfig m c = .ok v) :
    initInstance (m.alloc ⟨1, c, .unset, none⟩).1 m.next = .ok (m.alloc (setBlock 1 c v)).1 := by
  have hb : (m.alloc ⟨1, c, .unset, none⟩).1.formats m.next = some ⟨1, c, .unset, none⟩ := by rw [alloc_formats, if_pos rfl]
  rw [initInstance_eq (v := v) hb (by rw [readConfig_alloc]; exact hv)]
  exact congrArg Res.ok (put_alloc m _ _)

/-- Cloning a configuration that is there: nothing for NULL, else a new one with the same properties. -/
theorem cloneConfig_eq {w : World L} {c : Option Nat} (ht : There w c) : ∃ m1 c1, cloneConfig w.mem c = .ok (m1, c1) ∧
    m1.formats = w.mem.formats ∧ w.mem.next ≤ m1.next ∧ readConfig m1 c1 = .ok (valueAt w c) ∧
    (∀ x, m1.configs x = if c1 = some x then valueAt w c else w.mem.configs x) ∧
    (∀ x, c1 = some x → w.mem.next ≤ x ∧ x < m1.next ∧ (valueAt w c).isSome = true) := by
  cases c with
  | none => exact ⟨w.mem, none, rfl, rfl, Nat.le_refl _, rfl, fun _ => rfl, fun _ e => nomatch e⟩
  | some c =>
    obtain ⟨v, hv⟩ := ht c rfl
    have hval : valueAt w (some c) = some v := hv
    refine ⟨(newConfig w.mem v).1, some w.mem.next, ?_, rfl, Nat.le_succ _, ?_, fun x => ?_, fun x e => ?_⟩
    · rw [cloneConfig, hv]; rfl
    · rw [hval, readConfig]
      have : (newConfig w.mem v).1.configs w.mem.next = some v := by
        show (if w.mem.next = w.mem.next then some v else _) = _
        rw [if_pos rfl]
      rw [this]
    · rw [hval]
      show (if x = w.mem.next then some v else _) = _
      by_cases e : x = w.mem.next
      · rw [if_pos e, if_pos (by rw [e])]
      · rw [if_neg e, if_neg (fun e' => e (Option.some.inj e').symm)]
    · cases e
      exact ⟨Nat.le_refl _, Nat.lt_succ_self _, by rw [hval]; rfl⟩

theorem settled_shows {m : Mem L} {rc : Int} {c : Option Nat} {v : Option L.Config} (hv : readConfig m c = .ok v) :
    Shows m (setBlock rc c v) (Format.init v) := shows_init hv

/-- A new format beside the others. -/
theorem new_effect {w : World L} {n : Nat} (h : Ok w n) {m1 : Mem L} {b : Block L} {V : Option L.Config} {f : Format L} {own : List Nat} (hf : m1.formats = w.mem.formats) (hn : w.mem.next ≤ m1.next)
    (hc : ∀ x, m1.configs x = if b.config = some x then V else w.mem.configs x)
    (hV : ∀ x, b.config = some x → w.mem.next ≤ x ∧ x < m1.next ∧ V.isSome = true) (hs : Shows m1 b f) :
    Effect w ⟨(m1.alloc b).1, m1.next :: w.held, own⟩ m1.next f := by
  constructor
  · refine readFormat_iff.mpr ⟨b, by show (m1.alloc b).1.formats m1.next = _; rw [alloc_formats, if_pos rfl], hs⟩
  · intro x g hx hg
    refine read_keep h hg (fun b' hb' => ⟨b'.rc, ?_⟩) (fun b' c v hb' e hv => ?_)
    · show (m1.alloc b).1.formats x = _
      rw [alloc_formats, if_neg hx, hf]; exact hb'
    · show m1.configs c = _
      rw [hc, if_neg]
      · exact hv
      · intro e'
        have := (hV c e').1
        have := h.ltc hv
        omega

theorem new_ok {w : World L} {n : Nat} (h : Ok w n) {m1 : Mem L} {b : Block L} {V : Option L.Config} (hf : m1.formats = w.mem.formats) (hn : w.mem.next ≤ m1.next)
    (hc : ∀ x, m1.configs x = if b.config = some x then V else w.mem.configs x)
    (hV : ∀ x, b.config = some x → w.mem.next ≤ x ∧ x < m1.next ∧ V.isSome = true) (hr : b.rc = 1)
    (hs : (b.config = none ∧ b.name = .unset ∧ b.numbers = none) ∨ ∃ f, Shows m1 b f ∧ Settled f)
    (hw : ∀ c, b.name = .within c → b.config = some c) : Ok ⟨(m1.alloc b).1, m1.next :: w.held, w.own⟩ (n + 1) := by
  refine h.added (V := V) hn (fun x => by rw [alloc_formats, hf]) hc (fun x e => ⟨(hV x e).1, (hV x e).2.2⟩) (fun x hx => ?_) hr hs hw
  have hx' : m1.next + 1 ≤ x := hx
  obtain ⟨h1, h2⟩ := h.bound x (by omega)
  constructor
  · show m1.configs x = none
    rw [hc, if_neg]
    · exact h1
    · intro e; have := (hV x e).2.1; omega
  · rw [alloc_formats, if_neg (by omega), hf]; exact h2

/-- Create a format from a configuration that is there, or from NULL. -/
theorem create2_ok {w : World L} {n : Nat} (h : Ok w n) {c : Option Nat} (ht : There w c) :
    ∃ w' q, w.step (.create2 c) = .ok w' ∧ Ok w' (n + 1) ∧ w'.held = q :: w.held ∧ w'.own = w.own ∧ w.mem.formats q = none ∧
      Effect w w' q (Format.create2 (valueAt w c)) := by
  obtain ⟨m1, c1, e1, hf, hn, hr, hc, hV⟩ := cloneConfig_eq ht
  have e2 := alloc_init hr
  have hs := settled_shows (rc := 1) hr
  refine ⟨⟨(m1.alloc (setBlock 1 c1 (valueAt w c))).1, m1.next :: w.held, w.own⟩, m1.next, ?_, ?_, rfl, rfl, (h.bound _ hn).2, ?_⟩
  · simp only [World.step, create2, e1, Res.ok_bind]
    show (initInstance (m1.alloc ⟨1, c1, .unset, none⟩).1 m1.next >>= _) >>= _ = _
    rw [e2]
    rfl
  · exact new_ok h hf hn hc hV rfl (.inr ⟨_, hs, init_settled _⟩) setBlock_within
  · exact new_effect h hf hn hc hV hs

theorem create_ok {w : World L} {n : Nat} (h : Ok w n) :
    ∃ w' q, w.step .create = .ok w' ∧ Ok w' (n + 1) ∧ w'.held = q :: w.held ∧ w'.own = w.own ∧ w.mem.formats q = none ∧ Effect w w' q Format.create := by
  obtain ⟨w', q, e, r⟩ := create2_ok h (c := none) (fun _ e => nomatch e)
  exact ⟨w', q, e, r⟩

theorem init_ok {w : World L} {n : Nat} (h : Ok w n) :
    ∃ w' q, w.step .init = .ok w' ∧ Ok w' (n + 1) ∧ w'.held = q :: w.held ∧ w'.own = w.own ∧ w.mem.formats q = none ∧
      w'.mem.formats q = some ⟨1, none, .unset, none⟩ ∧ ∀ x g, readFormat w.mem x = .ok g → readFormat w'.mem x = .ok g := by
  refine ⟨⟨(w.mem.alloc ⟨1, none, .unset, none⟩).1, w.mem.next :: w.held, w.own⟩, w.mem.next, rfl, ?_, rfl, rfl, (h.bound _ (Nat.le_refl _)).2, ?_, ?_⟩
  · exact new_ok (V := none) h rfl (Nat.le_refl _) (fun x => rfl) (fun _ e => nomatch e) rfl (.inl ⟨rfl, rfl, rfl⟩) (fun _ e => nomatch e)
  · show (w.mem.alloc _).1.formats w.mem.next = _
    rw [alloc_formats, if_pos rfl]
  · intro x g hg
    refine read_keep h hg (fun b hb => ⟨b.rc, ?_⟩) (fun _ _ _ _ _ hv => hv)
    show (w.mem.alloc _).1.formats x = _
    have := h.lt hb
    rw [alloc_formats, if_neg (by omega)]
    exact hb

/-- The memory in the middle of a clone. -/
theorem create_eq (m : Mem L) : create m = .ok ((m.alloc (setBlock 1 none none)).1, m.next) := by
  have e := alloc_init (m := m) (c := none) (v := none) rfl
  rw [create]
  show (initInstance (m.alloc ⟨1, none, .unset, none⟩).1 m.next >>= _) = _
  rw [e]
  rfl

/-- The pointer to a name, in the configuration at an address. -/
def nameAt (c : Option Nat) (s : Option Bytes) : Name := match c with | none => .null | some y => pointTo y s

theorem clone_ok {w : World L} {n : Nat} (h : Ok w n) {a : Nat} {f : Format L} (hf : readFormat w.mem a = .ok f) (hset : Settled f) :
    ∃ w' q, w.step (.clone a) = .ok w' ∧ Ok w' (n + 1) ∧ w'.held = q :: w.held ∧ w'.own = w.own ∧ w.mem.formats q = none ∧ Effect w w' q f.clone := by
  obtain ⟨b, hb, h1, h2, x, h3, h4⟩ := readFormat_iff.mp hf
  have ha : a ≠ w.mem.next := by have := h.lt hb; omega
  have hthere : There w b.config := fun c e => (h.config a b c hb e).1
  have hval : valueAt w b.config = f.config := by
    have := readConfig_there hthere
    rw [h1] at this
    exact (Res.ok.inj this).symm
  let w0 : World L := ⟨(w.mem.alloc (setBlock 1 none none)).1, w.held, w.own⟩
  have hb0 : w0.mem.formats a = some b := by
    show (w.mem.alloc _).1.formats a = _
    rw [alloc_formats, if_neg ha]; exact hb
  obtain ⟨m1, c1, e1, hfm, hn, hr, hc, hV⟩ := cloneConfig_eq (w := w0) (c := b.config) hthere
  have hval0 : valueAt w0 b.config = f.config := hval
  rw [hval0] at hr hc hV
  have hq0 : w0.mem.next = w.mem.next + 1 := rfl
  have hname : getName m1 c1 = .ok (nameAt c1 (Format.getName f.config)) := by
    rw [getName.eq_def]
    cases c1 with
    | none => rfl
    | some y =>
      rw [readConfig] at hr
      dsimp only
      cases hy : m1.configs y with
      | none => rw [hy] at hr; cases hr
      | some v => rw [hy] at hr; rw [← Res.ok.inj hr]; rfl
  generalize hnm : nameAt c1 (Format.getName f.config) = nm at hname
  have hnm1 : ∀ c, nm = .within c → c1 = some c := by
    intro c e
    cases c1 with
    | none => rw [← hnm] at e; cases e
    | some y =>
      rw [← hnm] at e
      dsimp only [nameAt, pointTo] at e
      split at e
      · cases e; rfl
      · cases e
  have hshow : Shows m1 ⟨1, c1, nm, some x⟩ f.clone := by
    refine ⟨hr, ?_, x, rfl, ?_⟩
    · show readName m1 nm = .ok (Format.getName f.config)
      cases c1 with
      | none =>
        rw [← hnm]
        have : f.config = none := (Res.ok.inj hr).symm
        rw [this]
        rfl
      | some y =>
        rw [← hnm]
        rw [readConfig] at hr
        cases hy : m1.configs y with
        | none => rw [hy] at hr; cases hr
        | some v =>
          rw [hy] at hr
          rw [← Res.ok.inj hr]
          dsimp only [nameAt, pointTo]
          cases hg : Format.getName (some v) with
          | none => rfl
          | some s =>
            show readName m1 (.within y) = _
            rw [readName, hy]
            exact congrArg Res.ok hg
    · show ({ f with name := Format.getName f.config } : Format L) = _
      rw [h4]
      rfl
  have hfin : ∀ z, (m1.put w.mem.next ⟨1, c1, nm, some x⟩).formats z = if z = w.mem.next then some ⟨1, c1, nm, some x⟩ else w.mem.formats z := by
    intro z
    show (if z = w.mem.next then _ else m1.formats z) = _
    by_cases e : z = w.mem.next
    · rw [if_pos e, if_pos e]
    · rw [if_neg e, if_neg e, hfm]
      show (w.mem.alloc _).1.formats z = _
      rw [alloc_formats, if_neg e]
  refine ⟨⟨m1.put w.mem.next ⟨1, c1, nm, some x⟩, w.mem.next :: w.held, w.own⟩, w.mem.next, ?_, ?_, rfl, rfl, (h.bound _ (Nat.le_refl _)).2, ?_, ?_⟩
  · have hb0' : (w.mem.alloc (setBlock 1 none none)).1.formats a = some b := hb0
    have e1' : cloneConfig (w.mem.alloc (setBlock 1 none none)).1 b.config = .ok (m1, c1) := e1
    simp only [World.step, clone, create_eq, Res.ok_bind, hb0', e1', hname, h3]
  · refine h.added (V := f.config) (Nat.le_refl _) hfin hc (fun z e => ⟨?_, (hV z e).2.2⟩) (fun z hz => ?_) rfl (.inr ⟨f.clone, ?_, settled_clone hset⟩) hnm1
    · have := (hV z e).1; rw [hq0] at this; omega
    · have hz' : m1.next ≤ z := hz
      rw [hq0] at hn
      obtain ⟨k1, k2⟩ := h.bound z (by omega)
      constructor
      · show m1.configs z = none
        rw [hc, if_neg]
        · exact k1
        · intro e; have := (hV z e).2.1; omega
      · rw [hfin, if_neg (by omega)]; exact k2
    · exact hshow
  · exact readFormat_iff.mpr ⟨_, by show (m1.put _ _).formats w.mem.next = _; rw [hfin, if_pos rfl], hshow⟩
  · intro z g hz hg
    refine read_keep h hg (fun b' hb' => ⟨b'.rc, ?_⟩) (fun b' c v hb' e hv => ?_)
    · show (m1.put _ _).formats z = _
      rw [hfin, if_neg hz]; exact hb'
    · show m1.configs c = _
      rw [hc, if_neg]
      · exact hv
      · intro e'
        have := (hV c e').1
        have := h.ltc hv
        rw [hq0] at *
        omega

theorem put_formats (m : Mem L) (a : Nat) (b : Block L) (x : Nat) : (m.put a b).formats x = if x = a then some b else m.formats x := rfl

/-- Another count for a format. -/
theorem Ok.recount {w : World L} {n : Nat} (h : Ok w n) {a : Nat} {b : Block L} {r : Int} {held' : List Nat} (hb : w.mem.formats a = some b) (h0 : 0 < r)
    (hn : r ≤ n + 1) (hr : (held'.count a : Int) = r) (ho : ∀ x, x ≠ a → held'.count x = w.held.count x) :
    Ok ⟨w.mem.put a { b with rc := r }, held', w.own⟩ (n + 1) := by
  have hf := put_formats w.mem a { b with rc := r }
  have back : ∀ x d, (w.mem.put a { b with rc := r }).formats x = some d → ∃ d', w.mem.formats x = some d' ∧ d.config = d'.config ∧
      d.name = d'.name ∧ d.numbers = d'.numbers ∧ d.rc = if x = a then r else d'.rc := by
    intro x d hd
    rw [hf] at hd
    split at hd
    · rename_i e; cases hd; subst e; exact ⟨b, hb, rfl, rfl, rfl, by rw [if_pos rfl]⟩
    · rename_i e; exact ⟨d, hd, rfl, rfl, rfl, by rw [if_neg e]⟩
  have forth : ∀ x d, w.mem.formats x = some d → ∃ d', (w.mem.put a { b with rc := r }).formats x = some d' ∧ d'.config = d.config := by
    intro x d hd
    rw [hf]
    split
    · rename_i e; subst e; rw [hb] at hd; cases hd; exact ⟨_, rfl, rfl⟩
    · exact ⟨d, hd, rfl⟩
  constructor
  · intro x hx
    obtain ⟨k1, k2⟩ := h.bound x hx
    refine ⟨k1, ?_⟩
    show (w.mem.put a _).formats x = none
    rw [hf, if_neg]
    · exact k2
    · intro e; subst e; rw [hb] at k2; cases k2
  · intro x hx
    show ∃ b', (w.mem.put a _).formats x = some b'
    by_cases e : x = a
    · exact ⟨_, by rw [hf, if_pos e]⟩
    · have hc := List.count_pos_iff.mpr hx
      have hc' : 0 < w.held.count x := by rw [← ho x e]; exact hc
      obtain ⟨d, hd⟩ := h.held x (List.count_pos_iff.mp hc')
      obtain ⟨d', hd', -⟩ := forth x d hd
      exact ⟨d', hd'⟩
  · intro x d hd
    obtain ⟨d', hd', -, -, -, hr'⟩ := back x d hd
    obtain ⟨k1, k2, k3⟩ := h.count x d' hd'
    show d.rc = (held'.count x : Int) ∧ _
    by_cases e : x = a
    · rw [if_pos e] at hr'
      rw [e, hr, hr']
      exact ⟨rfl, h0, by push_cast; exact hn⟩
    · rw [if_neg e] at hr'
      rw [ho x e, hr']
      exact ⟨k1, k2, by push_cast; omega⟩
  · intro x d c hd e
    obtain ⟨d', hd', e1, -⟩ := back x d hd
    exact h.config x d' c hd' (by rw [← e1]; exact e)
  · intro x d y d2 c hd hd2 e1 e2
    obtain ⟨d', hd', k1, -⟩ := back x d hd
    obtain ⟨d2', hd2', k2, -⟩ := back y d2 hd2
    exact h.inj x d' y d2' c hd' hd2' (by rw [← k1]; exact e1) (by rw [← k2]; exact e2)
  · exact h.own
  · exact h.nodup
  · intro c v hv
    rcases h.live c v hv with hl | ⟨x, d, hd, e⟩
    · exact .inl hl
    · obtain ⟨d', hd', e'⟩ := forth x d hd
      exact .inr ⟨x, d', hd', by rw [e']; exact e⟩
  · intro x d hd
    obtain ⟨d', hd', e1, e2, e3, -⟩ := back x d hd
    rcases h.shows x d' hd' with ⟨k1, k2, k3⟩ | ⟨f, ⟨k1, k2, y, k3, k4⟩, k5⟩
    · exact .inl ⟨by rw [e1, k1], by rw [e2, k2], by rw [e3, k3]⟩
    · refine .inr ⟨f, ⟨?_, ?_, y, by rw [e3, k3], k4⟩, k5⟩
      · rw [e1]; exact k1
      · rw [e2]; exact k2
  · intro x d c hd e
    obtain ⟨d', hd', e1, e2, -⟩ := back x d hd
    rw [e1]
    exact h.within x d' c hd' (by rw [← e2]; exact e)

theorem read_recount {w : World L} {n : Nat} (h : Ok w n) {a : Nat} {b : Block L} (r : Int) (hb : w.mem.formats a = some b) {x : Nat} {g : Format L}
    (hg : readFormat w.mem x = .ok g) : readFormat (w.mem.put a { b with rc := r }) x = .ok g := by
  refine read_keep h hg (fun b' hb' => ?_) (fun _ _ _ _ _ hv => hv)
  rw [put_formats]
  split
  · rename_i e; subst e; rw [hb] at hb'; cases hb'; exact ⟨_, rfl⟩
  · exact ⟨b'.rc, hb'⟩

theorem ck {i : Int} (h1 : -1 ≤ i) (h2 : i < 2147483647) : ckInt i = .ok i := by
  rw [ckInt, if_pos]
  constructor
  · simp only [INT_MIN]; omega
  · simp only [INT_MAX]; omega

theorem newRef_ok {w : World L} {n : Nat} (h : Ok w n) (hn : n + 1 < 2147483647) {a : Nat} (ha : a ∈ w.held) :
    ∃ w', w.step (.newRef a) = .ok w' ∧ Ok w' (n + 1) ∧ w'.held = a :: w.held ∧ w'.own = w.own ∧
      ∀ x g, readFormat w.mem x = .ok g → readFormat w'.mem x = .ok g := by
  obtain ⟨b, hb⟩ := h.held a ha
  obtain ⟨h1, h2, h3⟩ := h.count a b hb
  refine ⟨⟨w.mem.put a { b with rc := b.rc + 1 }, a :: w.held, w.own⟩, ?_, ?_, rfl, rfl, fun x g hg => read_recount h _ hb hg⟩
  · simp only [World.step, newRef, hb, ck (i := b.rc + 1) (by omega) (by omega), Res.ok_bind]
  · refine h.recount hb (by omega) (by omega) ?_ (fun x e => count_cons_ne e)
    rw [count_cons_eq, h1]
    push_cast
    rfl

theorem count_erase_ne {l : List Nat} {a x : Nat} (h : x ≠ a) : (l.erase a).count x = l.count x := List.count_erase_of_ne h

/-- A format that goes, with its configuration. -/
theorem Ok.removed {w : World L} {n : Nat} (h : Ok w n) {a : Nat} {b : Block L} {m' : Mem L} (hb : w.mem.formats a = some b) (h1 : w.held.count a = 1)
    (hf : ∀ x, m'.formats x = if x = a then none else w.mem.formats x)
    (hc : ∀ x, m'.configs x = if b.config = some x then none else w.mem.configs x) (hn : m'.next = w.mem.next) :
    Ok ⟨m', w.held.erase a, w.own⟩ (n + 1) := by
  have back : ∀ x d, m'.formats x = some d → x ≠ a ∧ w.mem.formats x = some d := by
    intro x d hd
    rw [hf] at hd
    split at hd
    · cases hd
    · rename_i e; exact ⟨e, hd⟩
  have keep : ∀ x d c v, x ≠ a → w.mem.formats x = some d → d.config = some c → w.mem.configs c = some v → m'.configs c = some v := by
    intro x d c v hx hd e hv
    rw [hc, if_neg]
    · exact hv
    · intro e'; exact hx (h.inj x d a b c hd hb e e')
  constructor
  · intro x hx
    have hx' : m'.next ≤ x := hx
    rw [hn] at hx'
    obtain ⟨k1, k2⟩ := h.bound x hx'
    constructor
    · show m'.configs x = none
      rw [hc]; split
      · rfl
      · exact k1
    · show m'.formats x = none
      rw [hf]; split
      · rfl
      · exact k2
  · intro x hx
    show ∃ b', m'.formats x = some b'
    have hxa : x ≠ a := by
      intro e
      have := List.count_pos_iff.mpr hx
      rw [e, List.count_erase_self, h1] at this
      omega
    obtain ⟨d, hd⟩ := h.held x (List.mem_of_mem_erase hx)
    exact ⟨d, by rw [hf, if_neg hxa]; exact hd⟩
  · intro x d hd
    obtain ⟨e, hd'⟩ := back x d hd
    obtain ⟨k1, k2, k3⟩ := h.count x d hd'
    refine ⟨?_, k2, by push_cast; omega⟩
    show d.rc = ((w.held.erase a).count x : Int)
    rw [count_erase_ne e]
    exact k1
  · intro x d c hd e
    obtain ⟨hx, hd'⟩ := back x d hd
    obtain ⟨⟨v, hv⟩, k⟩ := h.config x d c hd' e
    exact ⟨⟨v, keep x d c v hx hd' e hv⟩, k⟩
  · intro x d y d2 c hd hd2 e1 e2
    exact h.inj x d y d2 c (back x d hd).2 (back y d2 hd2).2 e1 e2
  · intro c hm
    obtain ⟨v, hv⟩ := h.own c hm
    refine ⟨v, ?_⟩
    show m'.configs c = _
    rw [hc, if_neg]
    · exact hv
    · intro e; exact (h.config a b c hb e).2 hm
  · exact h.nodup
  · intro c v hv
    have hv : m'.configs c = some v := hv
    rw [hc] at hv
    split at hv
    · cases hv
    · rename_i hne
      rcases h.live c v hv with hl | ⟨x, d, hd, e⟩
      · exact .inl hl
      · refine .inr ⟨x, d, ?_, e⟩
        show m'.formats x = _
        rw [hf, if_neg]
        · exact hd
        · intro ex; subst ex; rw [hb] at hd; cases hd; exact hne e
  · intro x d hd
    obtain ⟨hx, hd'⟩ := back x d hd
    rcases h.shows x d hd' with k | ⟨f, k1, k2⟩
    · exact .inl k
    · exact .inr ⟨f, k1.keep (fun c e => h.within x d c hd' e) (fun c v e hv => keep x d c v hx hd' e hv), k2⟩
  · intro x d c hd e
    exact h.within x d c (back x d hd).2 e

theorem freeConfig_eq {m : Mem L} {c : Option Nat} (ht : ∀ x, c = some x → ∃ v, m.configs x = some v) :
    ∃ m', freeConfig m c = .ok m' ∧ m'.formats = m.formats ∧ m'.next = m.next ∧ ∀ x, m'.configs x = if c = some x then none else m.configs x := by
  cases c with
  | none => exact ⟨m, rfl, rfl, rfl, fun _ => rfl⟩
  | some c =>
    obtain ⟨v, hv⟩ := ht c rfl
    refine ⟨{ m with configs := fun x => if x = c then none else m.configs x }, ?_, rfl, rfl, fun x => ?_⟩
    · rw [freeConfig, hv]
    · show (if x = c then none else m.configs x) = _
      by_cases e : x = c
      · rw [if_pos e, if_pos (by rw [e])]
      · rw [if_neg e, if_neg (fun e' => e (Option.some.inj e').symm)]

/-- Lowering the count of a format with other references, or taking it and its configuration away with the last. -/
theorem free_ok {w : World L} {n : Nat} (h : Ok w n) (hn : n + 1 < 2147483647) {a : Nat} (ha : a ∈ w.held) :
    ∃ w', w.step (.free a) = .ok w' ∧ Ok w' (n + 1) ∧ w'.held = w.held.erase a ∧ w'.own = w.own ∧
      ((∃ b, w'.mem.formats a = some b) ↔ 1 < w.held.count a) ∧
      ∀ x g, (x ≠ a ∨ 1 < w.held.count a) → readFormat w.mem x = .ok g → readFormat w'.mem x = .ok g := by
  obtain ⟨b, hb⟩ := h.held a ha
  obtain ⟨h1, h2, h3⟩ := h.count a b hb
  have hck := ck (i := b.rc - 1) (by omega) (by omega)
  by_cases hlast : w.held.count a = 1
  · obtain ⟨m1, e1, hf, hnx, hc⟩ := freeConfig_eq (m := w.mem) (c := b.config) (fun x e => (h.config a b x hb e).1)
    have hle : b.rc - 1 ≤ 0 := by rw [h1, hlast]; decide
    refine ⟨⟨{ m1 with formats := fun x => if x = a then none else m1.formats x }, w.held.erase a, w.own⟩, ?_, ?_, rfl, rfl, ?_, ?_⟩
    · simp only [World.step, free, hb, hck, Res.ok_bind, if_pos hle, e1]
    · exact h.removed hb hlast (fun x => by show (if x = a then none else m1.formats x) = _; rw [hf]) hc hnx
    · constructor
      · rintro ⟨b', hb'⟩
        have hb' : (if a = a then none else m1.formats a) = some b' := hb'
        rw [if_pos rfl] at hb'
        cases hb'
      · intro hlt; omega
    · intro x g hx hg
      have hxa : x ≠ a := by
        rcases hx with hx | hx
        · exact hx
        · omega
      refine read_keep h hg (fun b' hb' => ⟨b'.rc, ?_⟩) (fun b' c v hb' e hv => ?_)
      · show (if x = a then none else m1.formats x) = _
        rw [if_neg hxa, hf]; exact hb'
      · show m1.configs c = _
        rw [hc, if_neg]
        · exact hv
        · intro e'; exact hxa (h.inj x b' a b c hb' hb e e')
  · have hpos := List.count_pos_iff.mpr ha
    have hle : ¬ b.rc - 1 ≤ 0 := by rw [h1]; omega
    refine ⟨⟨w.mem.put a { b with rc := b.rc - 1 }, w.held.erase a, w.own⟩, ?_, ?_, rfl, rfl, ?_, fun x g _ hg => read_recount h _ hb hg⟩
    · simp only [World.step, free, hb, hck, Res.ok_bind, if_neg hle]
    · refine h.recount hb (by omega) (by omega) ?_ (fun x e => count_erase_ne e)
      rw [List.count_erase_self, h1]
      omega
    · constructor
      · intro _; omega
      · intro _; exact ⟨_, by show (w.mem.put a _).formats a = _; rw [put_formats, if_pos rfl]⟩

theorem setConfig_ok {w : World L} {n : Nat} (h : Ok w n) {a : Nat} {c : Option Nat} (ha : a ∈ w.held) (ht : There w c) (hne : ∀ x, c = some x → ¬ Has w a x) :
    ∃ w', w.step (.setConfig a c) = .ok w' ∧ Ok w' (n + 1) ∧ w'.held = w.held ∧ w'.own = w.own ∧ Effect w w' a (Format.init (valueAt w c)) := by
  obtain ⟨b, hb⟩ := h.held a ha
  obtain ⟨m1, e1, hf1, hn1, hc1⟩ := freeConfig_eq (m := w.mem) (c := b.config) (fun x e => (h.config a b x hb e).1)
  have hcb : ∀ x, c = some x → b.config ≠ some x := fun x e e' => hne x e ⟨b, hb, e'⟩
  have ht1 : There ⟨m1, w.held, w.own⟩ c := by
    intro x e
    obtain ⟨v, hv⟩ := ht x e
    exact ⟨v, by show m1.configs x = _; rw [hc1, if_neg (hcb x e)]; exact hv⟩
  have hval : valueAt ⟨m1, w.held, w.own⟩ c = valueAt w c := by
    cases c with
    | none => rfl
    | some x => show m1.configs x = w.mem.configs x; rw [hc1, if_neg (hcb x rfl)]
  obtain ⟨m2, c2, e2, hf2, hn2, hr, hc2, hV⟩ := cloneConfig_eq ht1
  rw [hval] at hr hc2 hV
  have hb2 : (m2.put a { b with config := c2 }).formats a = some { b with config := c2 } := by rw [put_formats, if_pos rfl]
  have e3 := initInstance_eq (v := valueAt w c) hb2 (by rw [readConfig_put]; exact hr)
  rw [put_put] at e3
  have hfin : ∀ x, (m2.put a (setBlock b.rc c2 (valueAt w c))).formats x = if x = a then some (setBlock b.rc c2 (valueAt w c)) else w.mem.formats x := by
    intro x
    rw [put_formats, hf2]
    show (if x = a then _ else m1.formats x) = _
    rw [hf1]
  have hcfg : ∀ x, (m2.put a (setBlock b.rc c2 (valueAt w c))).configs x =
      if (setBlock b.rc c2 (valueAt w c)).config = some x then valueAt w c else if b.config = some x then none else w.mem.configs x := by
    intro x
    show m2.configs x = if c2 = some x then _ else _
    rw [hc2]
    split
    · rfl
    · exact hc1 x
  have hshow : Shows (m2.put a (setBlock b.rc c2 (valueAt w c))) (setBlock b.rc c2 (valueAt w c)) (Format.init (valueAt w c)) :=
    shows_init (by rw [readConfig_put]; exact hr)
  have hn2' : m1.next ≤ m2.next := hn2
  rw [hn1] at hn2'
  refine ⟨⟨m2.put a (setBlock b.rc c2 (valueAt w c)), w.held, w.own⟩, ?_, ?_, rfl, rfl, ?_, ?_⟩
  · have e2' : cloneConfig m1 c = .ok (m2, c2) := e2
    simp only [World.step, setConfig, hb, e1, Res.ok_bind, e2', e3]
  · refine h.replaced hb hfin hcfg (fun x e => ?_) (fun x hx => ?_) rfl ⟨_, hshow, init_settled _⟩ setBlock_within
    · obtain ⟨k1, -, k3⟩ := hV x e
      have k1 : m1.next ≤ x := k1
      rw [hn1] at k1
      exact ⟨k1, k3⟩
    · have hx' : m2.next ≤ x := hx
      obtain ⟨k1, k2⟩ := h.bound x (by omega)
      constructor
      · rw [hcfg, if_neg, k1]
        · split <;> rfl
        · intro e
          have := (hV x e).2.1
          omega
      · rw [hfin, if_neg]
        · exact k2
        · intro e; subst e; rw [hb] at k2; cases k2
  · exact readFormat_iff.mpr ⟨_, by show (m2.put a _).formats a = _; rw [hfin, if_pos rfl], hshow⟩
  · intro x g hx hg
    refine read_keep h hg (fun b' hb' => ⟨b'.rc, ?_⟩) (fun b' d v hb' e hv => ?_)
    · show (m2.put a _).formats x = _
      rw [hfin, if_neg hx]; exact hb'
    · show (m2.put a _).configs d = _
      rw [hcfg, if_neg, if_neg]
      · exact hv
      · intro e'; exact hx (h.inj x b' a b d hb' hb e e')
      · intro e'
        have k1 : m1.next ≤ d := (hV d e').1
        rw [hn1] at k1
        have := h.ltc hv
        omega

end Afs.FormatMem
