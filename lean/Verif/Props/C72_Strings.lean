import Verif.Proof.Strings7
/-!
# C72: memory of strings

Whatever sequence of constructors, copies, setters, loaders and destructors is called on whatever objects, as long as the caller uses
only objects that exist and does not pass a member to its own setter: nothing is freed twice or used after it was freed, every member
holds the text it should, no two members share memory, and after the last object nothing is left but the strings that loaders overwrote
and the documents of failed `*_load_string` calls.
-/
namespace Afs
open Afs.Xml Afs.Strings Afs.Spec.Strings

/-- Every allowed sequence of calls runs without undefined behaviour (no use after free, no second free), and memory is then as it
    should be. -/
theorem C72_memory (cs : List Call) (w : World) (h : Steps World.init cs w) :
    ∃ o m, calls [] cs Mem.init = .ok (o, m) ∧ Describes o m w := by
  obtain ⟨o, m, Q, e, hw, hm⟩ := run_world h
  exact ⟨o, m, e, describes_of hw hm⟩

theorem gone_addresses {o : Objs} {m : Mem} : ∀ {vs : List (Option Val)}, List.Forall₂ (Same m) o vs → (∀ v ∈ vs, v = none) →
    allAddresses o = [] := by
  intro vs h
  induction h with
  | nil => exact fun _ => rfl
  | @cons x y o vs h1 _ ih =>
    intro hn
    have hy := hn y (by simp)
    subst hy
    cases x with
    | some x => exact h1.elim
    | none => exact ih (fun v hv => hn v (by simp [hv]))

/-- When all objects are destroyed, what is left in memory is exactly what was lost. -/
theorem C72_after_all (cs : List Call) (w : World) (h : Steps World.init cs w) (hgone : ∀ v ∈ w.objs, v = none) :
    ∃ o m, ∃ lost : List Nat, calls [] cs Mem.init = .ok (o, m) ∧ lost.Nodup ∧ (∀ a, m.cells a ≠ none ↔ a ∈ lost) ∧
      (lost.map m.cells).Perm (w.lost.map some) := by
  obtain ⟨o, m, e, hd⟩ := C72_memory cs w h
  obtain ⟨lost, h1, h2, h3⟩ := hd.blocks
  rw [gone_addresses hd.objects hgone] at h1 h2
  exact ⟨o, m, lost, e, h1, h2, h3⟩

/-- … and if nothing was lost, nothing is left. -/
theorem C72_no_leak (cs : List Call) (w : World) (h : Steps World.init cs w) (hgone : ∀ v ∈ w.objs, v = none) (hlost : w.lost = []) :
    ∃ o m, calls [] cs Mem.init = .ok (o, m) ∧ ∀ a, m.cells a = none := by
  obtain ⟨o, m, lost, e, _, h2, h3⟩ := C72_after_all cs w h hgone
  rw [hlost] at h3
  have hl : lost = [] := List.map_eq_nil_iff.mp (List.perm_nil.mp h3)
  refine ⟨o, m, e, fun a => ?_⟩
  cases hc : m.cells a with
  | none => rfl
  | some b =>
    have := (h2 a).mp (by rw [hc]; simp)
    rw [hl] at this
    cases this

/-- A call that is not a loader. -/
def noLoad : Call → Prop
  | .load _ _ => False
  | .loadString _ _ => False
  | .loadFile _ _ => False
  | _ => True

/-- Without loaders nothing is lost: constructors, copies, setters and destructors free everything they should. -/
theorem C72_no_load_no_loss (cs : List Call) (w : World) (h : Steps World.init cs w) (hc : ∀ c ∈ cs, noLoad c) : w.lost = [] := by
  have gen : ∀ {w0 w : World} {cs : List Call}, Steps w0 cs w → (∀ c ∈ cs, noLoad c) → w.lost = w0.lost := by
    intro w0 w cs h
    induction h with
    | nil => exact fun _ => rfl
    | @cons a b d c cs h1 _ ih =>
      intro hc
      rw [ih (fun c hcc => hc c (by simp [hcc]))]
      have hn := hc c (by simp)
      cases h1 <;> first
        | exact hn.elim
        | rfl
        | simp [World.put, World.add]
  exact gen h hc

/-- Nothing is lost by loading into an object that has no strings yet. -/
theorem C72_fresh_load (v : Val) (n : Node) (h : ∀ f, v.text f = none) : lostBy v n = [] := by
  unfold lostBy
  have : (overwrites v.kind n).filterMap v.text = [] := by
    rw [List.filterMap_eq_nil_iff]
    exact fun f _ => h f
  rw [this]
  rfl

/-- Nothing is lost by loading a table of contents, whatever it had before. -/
theorem C72_toc_load (x : TocData) (n : Node) : lostBy (.toc x) n = [] := rfl

theorem load_ok_or (v : Val) (n : Node) : v.load n = .ub ∨ ∃ b v', v.load n = .ok (b, v') := by
  cases h : v.load n with
  | ub => exact Or.inl rfl
  | ok r => exact Or.inr ⟨r.1, r.2, rfl⟩

theorem make_null (k : Kind) : ∀ f, (make (World.init.args k fun _ => .null) none k).text f = none := by
  intro f
  rw [(make_text _ _ _).1]
  dsimp only
  split
  · unfold World.args
    split <;> rfl
  · rfl

/-- The usual way of loading a file (a new object, `*_load_file`, `free`) leaves nothing behind, whatever is in the file and whether or
    not the load succeeds (tables of contents: if the load does not run into undefined behaviour, C25). -/
theorem C72_load_file (k : Kind) (text : Bytes)
    (hub : ∀ n, Xml.loadFile text = some n → (make (World.init.args k fun _ => .null) none k).load n ≠ .ub) :
    ∃ o m, calls [] [.create k (fun _ => .null) .none, .loadFile 0 text, .destroy 0] Mem.init = .ok (o, m) ∧
      ∀ a, m.cells a = none := by
  have hc : Step World.init (.create k (fun _ => .null) .none) (World.init.add (make (World.init.args k fun _ => .null) none k)) :=
    .create (fun f _ => rfl)
  cases hp : Xml.loadFile text with
  | none =>
    refine C72_no_leak _ _ (.cons hc (.cons (.loadFileNot (v := make (World.init.args k fun _ => .null) none k) rfl hp) (.cons (.destroy (v := make (World.init.args k fun _ => .null) none k) rfl) .nil))) ?_ ?_
    · simp [World.put, World.add, World.init]
    · simp [World.put, World.add, World.init]
  | some n =>
    rcases load_ok_or (make (World.init.args k fun _ => .null) none k) n with hu | ⟨b, v', hv⟩
    · exact absurd hu (hub n hp)
    · refine C72_no_leak _ _ (.cons hc (.cons (.loadFile (v := make (World.init.args k fun _ => .null) none k) rfl hp hv) (.cons (.destroy (v := v') rfl) .nil))) ?_ ?_
      · simp [World.put, World.add, World.init]
      · have hl := C72_fresh_load _ n (make_null k)
        simp only [World.put, World.add, hl]
        rfl

/-- The same with `*_load_string`: if the load succeeds or the text is not read, nothing is left; if the load fails, the document is
    left and nothing else. -/
theorem C72_load_string (k : Kind) (text : Bytes) :
    let cs : List Call := [.create k (fun _ => .null) .none, .loadString 0 text, .destroy 0]
    let v := make (World.init.args k fun _ => .null) none k
    (text = [] ∨ Xml.loadString text = none → ∃ o m, calls [] cs Mem.init = .ok (o, m) ∧ ∀ a, m.cells a = none) ∧
    (∀ n v', text ≠ [] → Xml.loadString text = some n → v.load n = .ok (true, v') →
      ∃ o m, calls [] cs Mem.init = .ok (o, m) ∧ ∀ a, m.cells a = none) ∧
    (∀ n v', text ≠ [] → Xml.loadString text = some n → v.load n = .ok (false, v') →
      ∃ o m p, calls [] cs Mem.init = .ok (o, m) ∧ m.cells p = some .other ∧ ∀ a, a ≠ p → m.cells a = none) := by
  intro cs v
  have hc : Step World.init (.create k (fun _ => .null) .none) (World.init.add v) := .create (fun f _ => rfl)
  refine ⟨?_, ?_, ?_⟩
  · intro hn
    refine C72_no_leak _ _ (.cons hc (.cons (.loadStringNot (v := v) rfl hn) (.cons (.destroy (v := v) rfl) .nil))) ?_ ?_
    · simp [World.put, World.add, World.init]
    · simp [World.put, World.add, World.init]
  · intro n v' hne hp hv
    refine C72_no_leak _ _ (.cons hc (.cons (.loadString (v := v) rfl hne hp hv) (.cons (.destroy (v := v') rfl) .nil))) ?_ ?_
    · simp [World.put, World.add, World.init]
    · simp [World.put, World.add, World.init, C72_fresh_load v n (make_null k)]
  · intro n v' hne hp hv
    obtain ⟨o, m, lost, e, h1, h2, h3⟩ := C72_after_all cs _ (.cons hc (.cons (.loadString (v := v) rfl hne hp hv) (.cons (.destroy (v := v') rfl) .nil)))
      (by simp [World.put, World.add, World.init])
    have h3' : (lost.map m.cells).Perm [some Block.other] := by
      simpa [World.put, World.add, World.init, C72_fresh_load v n (make_null k)] using h3
    rw [List.perm_singleton] at h3'
    cases lost with
    | nil => simp at h3'
    | cons p l =>
      cases l with
      | cons q l => simp at h3'
      | nil =>
        refine ⟨o, m, p, e, by simpa using h3', fun a ha => ?_⟩
        cases hca : m.cells a with
        | none => rfl
        | some b =>
          have := (h2 a).mp (by rw [hca]; simp)
          exact absurd (by simpa using this) ha

/-- A member that holds a string must not be passed to its own setter: the string is freed before it is copied. -/
theorem C72_set_own_string (cs : List Call) (w : World) (h : Steps World.init cs w) (i : Nat) (f : Field) (v v' : Val) (b : Bytes)
    (hv : w.obj i = some v) (hf : v.text f = some b) (hb : b ≠ []) (hset : v.set f (some b) = some v') :
    calls [] (cs ++ [.set i f (.member i f)]) Mem.init = .ub := by
  obtain ⟨o, m, Q, e, hw, hm⟩ := run_world h
  obtain ⟨hfa, L, hL, rfl⟩ := hw
  obtain ⟨s, hs, hok, ht, R, hR, _⟩ := focus hfa hv
  have hokf := hok f
  cases hp : s.at' f with
  | none => rw [hp, hf] at hokf; cases hokf
  | some p =>
    have hc : m.cells p = some (.text b) := by
      refine (hm.cells p _).mpr ?_
      rw [hR, own_eq s v.text f, hp, hf]
      simp
    have hfree : freeBlock p m = .ok ((), ⟨fun a => if a = p then none else m.cells a, m.next⟩) := by
      simp only [freeBlock, hc]
    have hclone : ∀ mm : Mem, mm.cells p = none → clone (.ptr p) mm = .ub := by
      intro mm hmm
      have h0 : Strings.read p mm = .ub := by simp only [Strings.read, hmm]
      have h1 : readArg (.ptr p) mm = .ub := bind_ub h0
      exact bind_ub h1
    have hss : setString s f (.ptr p) m = .ub := by
      have h0 : free (s.at' f) m = .ok ((), ⟨fun a => if a = p then none else m.cells a, m.next⟩) := by
        rw [hp]
        exact hfree
      refine (bind_ok h0).trans ?_
      exact bind_ub (hclone _ (by simp))
    have hsn : setNonEmpty s f (.ptr p) m = .ub := by
      have h0 : Strings.read p m = .ok (b, m) := by simp only [Strings.read, hc]
      have h1 : readArg (.ptr p) m = .ok (some b, m) := bind_ok h0
      refine (bind_ok h1).trans ?_
      have hne : nullOrEmpty (some b) = false := by
        unfold nullOrEmpty
        cases b with
        | nil => exact absurd rfl hb
        | cons a b => rfl
      rw [hne]
      exact hss
    have hcall : call o (.set i f (.member i f)) m = .ub := by
      have h1 : theObj o i m = .ok ((v.kind, s), m) := by
        unfold theObj
        rw [hs]
        rfl
      have h2 : argOf o (.member i f) m = .ok (.ptr p, m) := by
        refine (bind_ok h1).trans ?_
        show Res.ok (Arg.ofPtr (s.at' f), m) = _
        rw [hp]
        rfl
      refine (bind_ok h1).trans ((bind_ok h2).trans ?_)
      dsimp only
      by_cases hk : v.kind = .source
      · rw [if_pos hk]
        exact bind_ub hsn
      · rw [if_neg hk]
        exact bind_ub hss
    rw [calls_append]
    refine (bind_ok e).trans ?_
    exact bind_ub hcall

/-- `get_tags` of a metadata source gives the caller a new string with the tags joined by semicolons, or NULL if there are none, and
    changes nothing else. -/
theorem C72_get_tags (cs : List Call) (w : World) (h : Steps World.init cs w) (i : Nat) (x : MetaSource)
    (hx : w.obj i = some (.metaSource x)) :
    ∃ o m k s, calls [] cs Mem.init = .ok (o, m) ∧ o[i]? = some (some (k, s)) ∧
      match x.getTags with
      | none => getTags s m = .ok (none, m)
      | some t => ∃ p m', getTags s m = .ok (some p, m') ∧ m.cells p = none ∧ m'.cells p = some (.text t) ∧
          ∀ a, a ≠ p → m'.cells a = m.cells a := by
  obtain ⟨o, m, Q, e, hw, hm⟩ := run_world h
  obtain ⟨hfa, L, hL, rfl⟩ := hw
  obtain ⟨s, hs, hok, ht, R, hR, _⟩ := focus hfa hx
  refine ⟨o, m, _, s, e, hs, ?_⟩
  have hin : tagCells s.tags x.tags ≤ total o w.objs + L := by
    rw [hR]
    have e3 : own s (Val.text (.metaSource x)) + tagCells s.tags (Val.tags (.metaSource x)) + R + L =
        tagCells s.tags x.tags + (own s (Val.text (.metaSource x)) + R + L) := by
      show own s (Val.text (.metaSource x)) + tagCells s.tags x.tags + R + L = _
      ac_rfl
    rw [e3]
    exact Multiset.le_add_right _ _
  have ht' : TagsOk s.tags x.tags := ht
  unfold MetaSource.getTags
  cases htg : x.tags with
  | none =>
    rw [htg] at ht'
    cases hst : s.tags with
    | some q => rw [hst] at ht'; exact ht'.elim
    | none =>
      show getTags s m = _
      unfold getTags
      rw [hst]
      rfl
  | some bs =>
    rw [htg] at ht' hin
    cases hst : s.tags with
    | none => rw [hst] at ht'; exact ht'.elim
    | some q =>
      obtain ⟨a, ps⟩ := q
      rw [hst] at ht' hin
      have hl : ps.length = bs.length := ht'
      have hz : ∀ y ∈ ps.zip (bs.map Block.text), y ∈ total o w.objs + L := fun y hy =>
        Multiset.mem_of_le hin (Multiset.mem_cons_of_mem (Multiset.mem_coe.mpr hy))
      have hread : ∀ (ps : List Nat) (bs : List Bytes), ps.length = bs.length →
          (∀ y ∈ ps.zip (bs.map Block.text), m.cells y.1 = some y.2) → readAll ps m = .ok (bs, m) := by
        intro ps
        induction ps with
        | nil => intro bs hl _; cases bs with
          | nil => rfl
          | cons b bs => cases hl
        | cons p ps ih => intro bs hl hz; cases bs with
          | nil => cases hl
          | cons b bs =>
            have h0 : m.cells p = some (.text b) := hz (p, .text b) (by simp)
            have h1 : Strings.read p m = .ok (b, m) := by
              simp only [Strings.read, h0]
            have h2 := ih bs (by simpa using hl) (fun y hy => hz y (by simp [hy]))
            exact (bind_ok h1).trans (bind_ok h2)
      have hr := hread ps bs hl (fun y hy => (hm.cells y.1 y.2).mpr (hz y hy))
      refine ⟨m.next, ⟨fun a => if a = m.next then some (.text (joinWith semicolon bs)) else m.cells a, m.next + 1⟩, ?_, ?_, ?_, ?_⟩
      · unfold getTags
        rw [hst]
        exact bind_ok hr
      · cases hc : m.cells m.next with
        | none => rfl
        | some b => exact absurd (hm.next _ ((hm.cells _ _).mp hc)) (Nat.lt_irrefl _)
      · simp
      · intro b hb
        simp [hb]

/-! ### Examples -/

/-- Two files, one a copy of the other; the name of the first is given to the second, both are destroyed. -/
def exStrCalls : List Call :=
  [.create .file (fun f => match f with
      | .fileName => .outside (b! "a.txt")
      | .fileFormat => .outside (b! "text")
      | _ => .null) .none,
   .clone 0,
   .set 0 .fileName (.outside (b! "b.txt")),
   .set 1 .fileDate (.member 0 .fileName),
   .destroy 0,
   .destroy 1]

/-- The sequence of the example is allowed, and loses nothing. -/
example : ∃ w, Steps World.init exStrCalls w ∧ w.objs = [none, none] ∧ w.lost = [] := by
  refine ⟨_, .cons (.create ?_) (.cons (.clone (v := _) rfl) (.cons (.set (v := _) (v' := _) (t := _) rfl rfl (by decide) rfl)
    (.cons (.set (v := _) (v' := _) (t := _) rfl rfl (by decide) rfl) (.cons (.destroy (v := _) rfl) (.cons (.destroy (v := _) rfl) .nil))))), rfl, rfl⟩
  intro f _
  cases f <;> rfl

/-- Before the last two calls, the copy has the old name of the first, and the new one as its date. -/
example : ∃ w v, Steps World.init (exStrCalls.take 4) w ∧ w.obj 1 = some v ∧ v.text .fileName = some (b! "a.txt") ∧
    v.text .fileDate = some (b! "b.txt") := by
  refine ⟨_, _, .cons (.create ?_) (.cons (.clone (v := _) rfl) (.cons (.set (v := _) (v' := _) (t := _) rfl rfl (by decide) rfl)
    (.cons (.set (v := _) (v' := _) (t := _) rfl rfl (by decide) rfl) .nil))), rfl, rfl, rfl⟩
  intro f _
  cases f <;> rfl

/-- A file element with a name. -/
def exStrFile : Node := .elem (b! "file") [] [.elem (b! "name") [] [.text (b! "b.txt")]]

/-- A file with a name, an element is loaded into it, it is destroyed. -/
def exStrReload : List Call :=
  [.create .file (fun f => match f with
      | .fileName => .outside (b! "a.txt")
      | _ => .null) .none,
   .load 0 exStrFile,
   .destroy 0]

/-- Loading into a file that has a name loses the old name: after the only object is destroyed, a block is still in use. -/
theorem C72_reload_leaks : ∃ w, Steps World.init exStrReload w ∧ w.objs = [none] ∧ w.lost = [.text (b! "a.txt")] := by
  refine ⟨_, .cons (.create ?_) (.cons (.load (v := _) (v' := _) (ok := _) rfl rfl) (.cons (.destroy (v := _) rfl) .nil)), rfl, ?_⟩
  · intro f _
    cases f <;> rfl
  · rfl

/-- The same seen in memory: one of the addresses is still in use. -/
theorem C72_reload_leaks_memory : ∃ o m p, calls [] exStrReload Mem.init = .ok (o, m) ∧ o = [none] ∧ m.cells p = some (.text (b! "a.txt")) := by
  refine ⟨_, _, 0, rfl, rfl, ?_⟩
  decide +kernel

end Afs
