import Verif.Proof.Session3
import Verif.Props.C26_Toc
import Verif.Props.C48_Admin
import Verif.Props.C50_C51_Control
import Verif.Props.C62_Disk
/-!
# C73: histories of saving and loading
-/
namespace Afs
open Xml Afs.Session Afs.Spec.Session Afs.Spec

variable {L : ConfigLib}

/-- Every history of calls, on any disk, whatever `fopen` and the writes do: it is undefined exactly if the specification says so;
    otherwise the results, the objects and the files are those of the specification, no file is left open, and the documents that are
    left are as many as the specification counts. -/
theorem C73_histories (disk : Bytes → Option Bytes) (cs : List (Call L)) :
    match Spec.Session.run ⟨disk, [], 0⟩ cs with
    | .ub => calls [] cs (Sys.init disk) = .ub
    | .ok (rs, w) => ∃ s, calls [] cs (Sys.init disk) = .ok ((rs, w.objs), s) ∧ Describes s w := by
  have h := calls_run cs ⟨disk, [], 0⟩ (Sys.init disk) [] (quiet_init disk) rfl
  cases hr : Spec.Session.run ⟨disk, [], 0⟩ cs with
  | ub => simp only [hr] at h; exact h
  | ok r =>
    obtain ⟨rs, w⟩ := r
    simp only [hr] at h
    obtain ⟨s, l, e, hq, hl⟩ := h
    exact ⟨s, e, quiet_describes hq hl⟩

/-- A history that has run is one the specification describes. -/
theorem session_done {disk : Bytes → Option Bytes} {cs : List (Call L)} {rs : List Result} {o : List (Any L)} {s : Sys}
    (h : calls [] cs (Sys.init disk) = .ok ((rs, o), s)) :
    ∃ w, Spec.Session.run ⟨disk, [], 0⟩ cs = .ok (rs, w) ∧ w.objs = o ∧ Describes s w := by
  have hr := C73_histories disk cs
  cases e : Spec.Session.run ⟨disk, [], 0⟩ cs with
  | ub => simp only [e] at hr; rw [hr] at h; cases h
  | ok r =>
    obtain ⟨rs', w⟩ := r
    simp only [e] at hr
    obtain ⟨s', e', hd⟩ := hr
    rw [e'] at h
    cases h
    exact ⟨w, rfl, rfl, hd⟩

/-- A history that uses its own objects and does not indent files runs: no file is written or closed that is not open, no document is
    used or deleted that is not there. -/
theorem C73_defined (disk : Bytes → Option Bytes) (cs : List (Call L)) (h : Sensible [] cs) :
    ∃ rs o s, calls [] cs (Sys.init disk) = .ok ((rs, o), s) := by
  obtain ⟨rs, w, e⟩ := run_defined cs ⟨disk, [], 0⟩ [] rfl (fun x hx => nomatch hx) h
  have hr := C73_histories disk cs
  simp only [e] at hr
  obtain ⟨s, e', _⟩ := hr
  exact ⟨_, _, s, e'⟩

/-- Every file that is opened is closed, whatever fails. -/
theorem C73_files_closed (disk : Bytes → Option Bytes) (cs : List (Call L)) (rs : List Result) (o : List (Any L)) (s : Sys)
    (h : calls [] cs (Sys.init disk) = .ok ((rs, o), s)) : ∀ f, s.handles f = none := by
  obtain ⟨w, _, _, hd⟩ := session_done h
  exact hd.closed

/-- Files that no call saves to stay as they are. -/
theorem C73_only_named (disk : Bytes → Option Bytes) (cs : List (Call L)) (rs : List Result) (o : List (Any L)) (s : Sys)
    (h : calls [] cs (Sys.init disk) = .ok ((rs, o), s)) (name : Bytes) (hn : ∀ c ∈ cs, ¬ writesTo name c) : s.disk name = disk name := by
  obtain ⟨w, hr, _, hd⟩ := session_done h
  rw [hd.disk]
  exact run_disk cs hr hn

/-! ### What was saved is what is loaded -/

/-- A history, a save, any calls that do not write to this file, a load: the load finds the bytes the save has left (or the first of
    them, if reading fails). -/
theorem C73_last_save (disk : Bytes → Option Bytes) (before between : List (Call L)) (i j : Nat) (name : Bytes) (v1 compact canOpen : Bool)
    (ok : Nat → Bool) (r0 r1 : List Result) (o0 o1 : List (Any L)) (s0 s1 : Sys) (x y : Any L)
    (h0 : calls [] before (Sys.init disk) = .ok ((r0, o0), s0)) (hx : o0[i]? = some x)
    (h1 : calls [] (before ++ .saveFile i name v1 compact canOpen ok :: between) (Sys.init disk) = .ok ((r1, o1), s1))
    (hb : ∀ c ∈ between, ¬ writesTo name c) (hy : o1[j]? = some y) :
    ∃ b file, savedFile x v1 compact canOpen ok (s0.disk name) = .ok (b, file) ∧ r1[before.length]? = some (.flag b) ∧ s1.disk name = file ∧
      ∀ text, file = some text → ∀ upTo b' z, loadedFile y (readable upTo text) = .ok (b', z) →
        ∃ s2, calls [] (before ++ .saveFile i name v1 compact canOpen ok :: between ++ [.loadFile j name true upTo]) (Sys.init disk) =
          .ok ((r1 ++ [.flag b'], o1.set j z), s2) := by
  obtain ⟨w0, e0, rfl, d0⟩ := session_done h0
  obtain ⟨w1, e1, rfl, d1⟩ := session_done h1
  have e1' := e1
  rw [Session.run_append, e0] at e1
  simp only [Spec.Session.run] at e1
  cases hs : Spec.Session.step w0 (.saveFile i name v1 compact canOpen ok) with
  | ub => simp only [hs] at e1; cases e1
  | ok q =>
    obtain ⟨r, w⟩ := q
    simp only [hs] at e1
    cases hr : Spec.Session.run w between with
    | ub => simp only [hr] at e1; cases e1
    | ok q =>
      obtain ⟨rs', w2⟩ := q
      simp only [hr] at e1
      cases e1
      have hdisk := run_disk between hr hb
      simp only [Spec.Session.step, hx] at hs
      rw [d0.disk]
      cases hf : savedFile x v1 compact canOpen ok (w0.disk name) with
      | ub => simp only [hf] at hs; cases hs
      | ok q =>
        obtain ⟨b, file⟩ := q
        simp only [hf] at hs
        cases hs
        simp only [if_true] at hdisk
        have hlen : r0.length = before.length := run_length before e0
        refine ⟨b, file, rfl, ?_, by rw [d1.disk]; exact hdisk, ?_⟩
        · rw [List.getElem?_append_right (by omega), hlen]; simp
        · intro text ht upTo b' z hl
          have hh := C73_histories disk (before ++ .saveFile i name v1 compact canOpen ok :: between ++ [.loadFile j name true upTo])
          rw [Session.run_append, e1'] at hh
          simp only [Spec.Session.run, Spec.Session.step, hy, if_true, hdisk, ht, hl] at hh
          obtain ⟨s2, h2, _⟩ := hh
          exact ⟨s2, h2⟩

/-- Copying through a file, for any kind of object: if the object that is saved gives a text, and loading the text into the other object gives
    `z`, then after any history, a save that nothing disturbs, any calls that do not write to the file, and a load, the object is `z`. -/
theorem session_copy (disk : Bytes → Option Bytes) (before between : List (Call L)) (i j : Nat) (name : Bytes) (v1 compact : Bool)
    (r0 r1 : List Result) (o0 o1 : List (Any L)) (s0 s1 : Sys) (x y z : Any L) (text : Bytes)
    (hsave : ∀ old, savedFile x v1 compact true noFailure old = .ok (true, some text)) (hload : loadedFile y text = .ok (true, z))
    (h0 : calls [] before (Sys.init disk) = .ok ((r0, o0), s0)) (hx : o0[i]? = some x)
    (h1 : calls [] (before ++ .saveFile i name v1 compact true noFailure :: between) (Sys.init disk) = .ok ((r1, o1), s1))
    (hb : ∀ c ∈ between, ¬ writesTo name c) (hy : o1[j]? = some y) :
    ∃ s2, calls [] (before ++ .saveFile i name v1 compact true noFailure :: between ++ [.loadFile j name true none]) (Sys.init disk) =
      .ok ((r1 ++ [.flag true], o1.set j z), s2) := by
  obtain ⟨b, file, h2, _, _, h3⟩ := C73_last_save disk before between i j name v1 compact true noFailure r0 r1 o0 o1 s0 s1 x y h0 hx h1 hb hy
  rw [hsave] at h2
  cases h2
  exact h3 text rfl none true z hload

/-- A table of contents is copied through a file exactly, whatever is done before and between (and whatever the other object holds). -/
theorem C73_copy_toc (disk : Bytes → Option Bytes) (before between : List (Call L)) (i j : Nat) (name : Bytes) (v1 compact : Bool)
    (r0 r1 : List Result) (o0 o1 : List (Any L)) (s0 s1 : Sys) (t u : TocData) (h : t.storable)
    (hn1 : t.metadata ≠ some ⟨none⟩ ∧ t.metadata ≠ some ⟨some []⟩) (hn2 : t.layouts ≠ some ⟨none⟩ ∧ t.layouts ≠ some ⟨some []⟩)
    (hn3 : t.reels ≠ some ⟨none⟩ ∧ t.reels ≠ some ⟨some []⟩)
    (h0 : calls [] before (Sys.init disk) = .ok ((r0, o0), s0)) (hx : o0[i]? = some (.toc t))
    (h1 : calls [] (before ++ .saveFile i name v1 compact true noFailure :: between) (Sys.init disk) = .ok ((r1, o1), s1))
    (hb : ∀ c ∈ between, ¬ writesTo name c) (hy : o1[j]? = some (.toc u)) :
    ∃ s2, calls [] (before ++ .saveFile i name v1 compact true noFailure :: between ++ [.loadFile j name true none]) (Sys.init disk) =
      .ok ((r1 ++ [.flag true], o1.set j (.toc t)), s2) := by
  obtain ⟨_, s, hs, hl⟩ := C26_toc t h hn1 hn2 hn3 u compact
  refine session_copy disk before between i j name v1 compact r0 r1 o0 o1 s0 s1 _ _ _ s (fun old => ?_) ?_ h0 hx h1 hb hy
  · show Res.ok (t.saveFileOn compact true noFailure old) = _
    rw [(C62_toc t compact).good (by rw [hs]) old, hs]
  · show (u.loadFile s).bind _ = _
    rw [hl]; rfl

/-- The same for administrative metadata. -/
theorem C73_copy_admin (disk : Bytes → Option Bytes) (before between : List (Call L)) (i j : Nat) (name : Bytes) (v1 compact : Bool)
    (r0 r1 : List Result) (o0 o1 : List (Any L)) (s0 s1 : Sys) (t u : Admin) (h : t.storable)
    (h0 : calls [] before (Sys.init disk) = .ok ((r0, o0), s0)) (hx : o0[i]? = some (.admin t))
    (h1 : calls [] (before ++ .saveFile i name v1 compact true noFailure :: between) (Sys.init disk) = .ok ((r1, o1), s1))
    (hb : ∀ c ∈ between, ¬ writesTo name c) (hy : o1[j]? = some (.admin u)) :
    ∃ s2, calls [] (before ++ .saveFile i name v1 compact true noFailure :: between ++ [.loadFile j name true none]) (Sys.init disk) =
      .ok ((r1 ++ [.flag true], o1.set j (.admin t)), s2) := by
  obtain ⟨_, s, hs, hl⟩ := C48_roundtrip t h u compact
  refine session_copy disk before between i j name v1 compact r0 r1 o0 o1 s0 s1 _ _ _ s (fun old => ?_) ?_ h0 hx h1 hb hy
  · show Res.ok (t.saveFileOn compact true noFailure old) = _
    rw [(C62_admin t compact).good (by rw [hs]) old, hs]
  · show Res.ok (as Any.admin (u.loadFile s)) = _
    rw [hl]; rfl

/-- Control data are copied into data that are equal. -/
theorem C73_copy_control (hL : LawfulConfig L) (disk : Bytes → Option Bytes) (before between : List (Call L)) (i j : Nat) (name : Bytes)
    (v1 compact : Bool) (r0 r1 : List Result) (o0 o1 : List (Any L)) (s0 s1 : Sys) (t u : ControlData L) (h : t.storable)
    (h0 : calls [] before (Sys.init disk) = .ok ((r0, o0), s0)) (hx : o0[i]? = some (.control t))
    (h1 : calls [] (before ++ .saveFile i name v1 compact true noFailure :: between) (Sys.init disk) = .ok ((r1, o1), s1))
    (hb : ∀ c ∈ between, ¬ writesTo name c) (hy : o1[j]? = some (.control u)) :
    ∃ d s2, ControlData.equal (some t) (some d) = true ∧
      calls [] (before ++ .saveFile i name v1 compact true noFailure :: between ++ [.loadFile j name true none]) (Sys.init disk) =
        .ok ((r1 ++ [.flag true], o1.set j (.control d)), s2) := by
  obtain ⟨d, he, _, s, hs, hl⟩ := C51_roundtrip hL t h u compact
  obtain ⟨s2, h2⟩ := session_copy disk before between i j name v1 compact r0 r1 o0 o1 s0 s1 (.control t) (.control u) (.control d) s (fun old => by
    show Res.ok (t.saveFileOn compact true noFailure old) = _
    rw [(C62_control t compact).good (by rw [hs]) old, hs]) (by
    show Res.ok (as Any.control (u.loadFile s)) = _
    rw [hl]; rfl) h0 hx h1 hb hy
  exact ⟨d, s2, he, h2⟩

/-! ### Documents that are never deleted -/

/-- At most one document is lost with each call that reports a failure. -/
theorem C73_lost (disk : Bytes → Option Bytes) (cs : List (Call L)) (rs : List Result) (o : List (Any L)) (s : Sys)
    (h : calls [] cs (Sys.init disk) = .ok ((rs, o), s)) :
    ∃ l : List Nat, l.Nodup ∧ (∀ d, s.docs d ≠ none ↔ d ∈ l) ∧ l.length ≤ (rs.filter failed).length := by
  obtain ⟨w, hr, _, hd⟩ := session_done h
  obtain ⟨l, h1, h2, h3⟩ := hd.docs
  refine ⟨l, h1, h3, ?_⟩
  have := run_lost cs hr
  simp only [Nat.zero_add] at this
  omega

/-- If no call reports a failure, every document is deleted. -/
theorem C73_nothing_lost (disk : Bytes → Option Bytes) (cs : List (Call L)) (rs : List Result) (o : List (Any L)) (s : Sys)
    (h : calls [] cs (Sys.init disk) = .ok ((rs, o), s)) (hg : ∀ r ∈ rs, failed r = false) : ∀ d, s.docs d = none := by
  obtain ⟨l, _, h2, h3⟩ := C73_lost disk cs rs o s h
  have : rs.filter failed = [] := List.filter_eq_nil_iff.mpr (fun r hr => by simp [hg r hr])
  rw [this] at h3
  have hl : l = [] := List.length_eq_zero_iff.mp (Nat.le_zero.mp h3)
  intro d
  cases hd : s.docs d with
  | none => rfl
  | some t =>
    have := (h2 d).mp (by simp [hd])
    rw [hl] at this
    cases this

/-- Administrative metadata saved to a file that cannot be opened: the document is lost. -/
theorem C73_closed_loses : ∃ s, calls (L := exLib) [] [.new (.admin adminExample), .saveFile 0 (b! "f") false true false noFailure] (Sys.init fun _ => none) =
    .ok (([.nothing, .flag false], [.admin adminExample]), s) ∧ s.docs 0 = some Node.newXML :=
  ⟨_, rfl, rfl⟩

/-- File metadata sources are the only ones with this order of calls that delete the document. -/
theorem C73_closed_deleted (x : FileMetaSource) : ∃ s, calls (L := L) [] [.new (.fileSource x), .saveFile 0 (b! "f") false true false noFailure]
    (Sys.init fun _ => none) = .ok (([.nothing, .flag false], [.fileSource x]), s) ∧ ∀ d, s.docs d = none := by
  have h := C73_histories (L := L) (fun _ => none) [.new (.fileSource x), .saveFile 0 (b! "f") false true false noFailure]
  simp only [Spec.Session.run, Spec.Session.step, List.nil_append, List.getElem?_cons_zero, savedFile_closed] at h
  obtain ⟨s, h1, h2⟩ := h
  refine ⟨s, h1, fun d => ?_⟩
  obtain ⟨l, _, h3, h4⟩ := h2.docs
  have hl : l = [] := List.length_eq_zero_iff.mp h3
  subst hl
  cases hd : s.docs d with
  | none => rfl
  | some t => exact absurd ((h4 d).mp (by simp [hd])) (List.not_mem_nil)

/-- A text that can be read but that the object does not accept: the document is lost, with every kind of object except boxing formats. -/
theorem C73_wrong_text_loses (x y : Any L) (hx : ∀ f, x ≠ .format f) (text : Bytes) (hr : (Xml.loadString text).isSome)
    (hl : loadedString x text = .ok (false, y)) :
    ∃ s d, calls [] [.new x, .loadString 0 text] (Sys.init fun _ => none) = .ok (([.nothing, .flag false], [y]), s) ∧
      ∀ e, s.docs e ≠ none ↔ e = d := by
  have h := C73_histories (L := L) (fun _ => none) [.new x, .loadString 0 text]
  simp only [Spec.Session.run, Spec.Session.step, List.nil_append, List.getElem?_cons_zero, hl] at h
  obtain ⟨s, h1, h2⟩ := h
  obtain ⟨l, _, h3, h4⟩ := h2.docs
  have hz : text ≠ [] := by
    rintro rfl
    have : Xml.loadString [] = none := by decide +kernel
    rw [this] at hr
    cases hr
  have hlo : losesLoad x text false = true := by
    cases x <;> first
      | exact absurd rfl (hx _)
      | simp [losesLoad, hz, hr]
  simp only [hlo, count, if_true, Nat.zero_add] at h3
  obtain ⟨d, rfl⟩ := List.length_eq_one_iff.mp h3
  exact ⟨s, d, h1, fun e => by rw [h4 e]; simp⟩

/-- Saving to a string loses nothing. -/
theorem C73_save_string_loses_nothing (disk : Bytes → Option Bytes) (cs : List (Call L)) (hc : ∀ c ∈ cs, (∃ x, c = .new x) ∨ ∃ i v1 compact, c = .saveString i v1 compact)
    (rs : List Result) (o : List (Any L)) (s : Sys) (h : calls [] cs (Sys.init disk) = .ok ((rs, o), s)) :
    s.disk = disk ∧ ∀ d, s.docs d = none := by
  obtain ⟨w, hr, _, hd⟩ := session_done h
  have key : ∀ (cs : List (Call L)), (∀ c ∈ cs, (∃ x, c = .new x) ∨ ∃ i v1 compact, c = .saveString i v1 compact) → ∀ (w w' : World L) rs,
      Spec.Session.run w cs = .ok (rs, w') → w'.disk = w.disk ∧ w'.lost = w.lost := by
    intro cs
    induction cs with
    | nil => intro _ w w' rs h; cases h; exact ⟨rfl, rfl⟩
    | cons c cs ih =>
      intro hc w w' rs h
      unfold Spec.Session.run at h
      cases hs : Spec.Session.step w c with
      | ub => simp only [hs] at h; cases h
      | ok r =>
        obtain ⟨r, w1⟩ := r
        simp only [hs] at h
        have h1 : w1.disk = w.disk ∧ w1.lost = w.lost := by
          rcases hc c (List.mem_cons_self ..) with ⟨x, rfl⟩ | ⟨i, v1, compact, rfl⟩
          · cases hs; exact ⟨rfl, rfl⟩
          · rw [Spec.Session.step] at hs
            split at hs
            · cases hs
            · split at hs <;> cases hs
              exact ⟨rfl, rfl⟩
        cases hr : Spec.Session.run w1 cs with
        | ub => simp only [hr] at h; cases h
        | ok q =>
          obtain ⟨rs', w2⟩ := q
          simp only [hr] at h
          cases h
          have h2 := ih (fun c h => hc c (List.mem_cons_of_mem _ h)) w1 w' rs' hr
          exact ⟨h2.1.trans h1.1, h2.2.trans h1.2⟩
  obtain ⟨h1, h2⟩ := key cs hc _ _ _ hr
  refine ⟨hd.disk.trans h1, fun d => ?_⟩
  obtain ⟨l, _, h3, h4⟩ := hd.docs
  have hl : l = [] := List.length_eq_zero_iff.mp (h3.trans h2)
  subst hl
  cases hd : s.docs d with
  | none => rfl
  | some t => exact absurd ((h4 d).mp (by simp [hd])) (List.not_mem_nil)

/-! ### The hypotheses are met -/

/-- Two objects, a failing save, a save, another file, a load. -/
noncomputable def exSession : List (Call exLib) :=
  [.new (.toc exToc), .new (.toc TocData.create), .saveFile 0 (b! "a.xml") false false false noFailure]

example : Sensible [] exSession := ⟨trivial, trivial, ⟨false, rfl, fun h => nomatch h⟩, trivial⟩

/-- The table of contents of C26 is copied. -/
example : ∃ rs s, calls [] (exSession ++ .saveFile 0 (b! "a.xml") false false true noFailure ::
      [.saveFile 1 (b! "b.xml") false true true noFailure] ++ [.loadFile 1 (b! "a.xml") true none]) (Sys.init fun _ => none) =
    .ok ((rs, [.toc exToc, .toc exToc]), s) := by
  obtain ⟨r0, o0, s0, h0⟩ := C73_defined (fun _ => none) exSession ⟨trivial, trivial, ⟨false, rfl, fun h => nomatch h⟩, trivial⟩
  have hs : Sensible [] (exSession ++ .saveFile 0 (b! "a.xml") false false true noFailure :: [.saveFile 1 (b! "b.xml") false true true noFailure]) :=
    ⟨trivial, trivial, ⟨false, rfl, fun h => nomatch h⟩, ⟨false, rfl, fun h => nomatch h⟩, ⟨false, rfl, fun h => nomatch h⟩, trivial⟩
  obtain ⟨r1, o1, s1, h1⟩ := C73_defined (fun _ => none) _ hs
  have ho0 : o0 = [.toc exToc, .toc TocData.create] := by
    obtain ⟨w, hr, rfl, _⟩ := session_done h0
    simp only [exSession, Spec.Session.run, Spec.Session.step, List.nil_append, List.cons_append, List.getElem?_cons_zero, savedFile_closed] at hr
    cases hr
    rfl
  have ho1 : o1 = [.toc exToc, .toc TocData.create] := by
    obtain ⟨w, hr, rfl, _⟩ := session_done h1
    simp only [exSession, Spec.Session.run, Spec.Session.step, List.nil_append, List.cons_append, List.getElem?_cons_zero, List.getElem?_cons_succ,
      savedFile] at hr
    cases hr
    rfl
  obtain ⟨s2, h2⟩ := C73_copy_toc (fun _ => none) exSession _ 0 1 (b! "a.xml") false false r0 r1 o0 o1 s0 s1 exToc TocData.create exToc_storable
    (by decide) (by decide) (by decide) h0 (by rw [ho0]; rfl) h1 (by
      intro c hc
      rw [List.mem_singleton.mp hc]
      exact (by decide : ¬ (b! "b.xml" = b! "a.xml"))) (by rw [ho1]; rfl)
  rw [ho1] at h2
  exact ⟨_, s2, h2⟩

example : loadedString (L := exLib) (.admin Admin.create) (b! "<other />") = .ok (false, .admin Admin.create) ∧
    (Xml.loadString (b! "<other />")).isSome := by
  have e : Admin.create.loadString (b! "<other />") = (false, Admin.create) := by decide +kernel
  exact ⟨by simp only [loadedString, e]; rfl, by decide +kernel⟩

end Afs
