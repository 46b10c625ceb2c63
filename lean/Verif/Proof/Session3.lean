import Verif.Proof.Session2
import Verif.Proof.LoadValid
import Verif.Props.C31_SaveLoadValid
/-!
# Histories that are defined (C73)
-/
namespace Afs.Session
open Afs Afs.Xml Afs.Spec.Session

variable {L : ConfigLib}

theorem layouts_loop_ids (ns : List Node) : ∀ s : LayoutDefs, (∀ d ∈ s.defs.getD [], d.id ≠ none) →
    ∃ b r, s.loadLoop ns = .ok (b, r) ∧ ∀ d ∈ r.defs.getD [], d.id ≠ none := by
  induction ns with
  | nil => intro s h; exact ⟨true, s, rfl, h⟩
  | cons n ns ih =>
    intro s h
    rw [LayoutDefs.loadLoop]
    split
    · exact ⟨false, s, rfl, h⟩
    · rw [layouts_add_ok h]
      simp only [Res.ok_bind]
      cases hok : layoutOk (s.defs.getD []) (LayoutDef.create.loadXml n).2 with
      | false => exact ⟨false, s, rfl, h⟩
      | true =>
        simp only [if_true, Bool.true_eq_false, if_false]
        apply ih
        simp only [vecAppend_getD]
        intro d hd
        rcases List.mem_append.mp hd with hd | hd
        · exact h d hd
        · rw [List.mem_singleton.mp hd]
          have hv : (LayoutDef.create.loadXml n).2.isValid = true := by
            unfold layoutOk at hok
            simp only [Bool.and_eq_true] at hok
            exact hok.1
          intro e
          unfold LayoutDef.isValid at hv
          simp [e, nullOrEmpty] at hv

theorem layouts_load_ids (s : LayoutDefs) (h : ∀ d ∈ s.defs.getD [], d.id ≠ none) (n : Node) :
    ∃ b r, s.loadXml n = .ok (b, r) ∧ ∀ d ∈ r.defs.getD [], d.id ≠ none := by
  unfold LayoutDefs.loadXml
  split
  · exact ⟨false, s, rfl, h⟩
  · exact layouts_loop_ids _ s h

theorem toc_load_defined (t : TocData) (n : Node) : ∃ r, t.loadXml n = .ok r := by
  unfold TocData.loadXml
  split
  · exact ⟨_, rfl⟩
  · dsimp only
    split
    · exact ⟨_, rfl⟩
    · rename_i m _ hm
      have hl : ∃ l, TocData.loadLayouts m = .ok l := by
        unfold TocData.loadLayouts
        split
        · exact ⟨_, rfl⟩
        · obtain ⟨b, r, e, _⟩ := layouts_load_ids LayoutDefs.create (by simp [LayoutDefs.create]) (by assumption)
          rw [e]
          exact ⟨_, rfl⟩
      obtain ⟨l, hl⟩ := hl
      rw [hl]
      simp only [Res.ok_bind]
      split
      · exact ⟨_, rfl⟩
      · split <;> exact ⟨_, rfl⟩

/-- Loading is defined, the kind stays, and the object stays usable. -/
theorem load_defined (x : Any L) (h : usable x) (n : Node) : ∃ b y, x.load n = .ok (b, y) ∧ usable y ∧ isFileKind y = isFileKind x := by
  cases x with
  | layouts x =>
    obtain ⟨b, r, e, hr⟩ := layouts_load_ids x h n
    exact ⟨b, .layouts r, by simp [Any.load, e, Res.bind], hr, rfl⟩
  | toc x =>
    obtain ⟨r, e⟩ := toc_load_defined x n
    exact ⟨r.1, .toc r.2, by simp [Any.load, e, Res.bind], trivial, rfl⟩
  | _ => exact ⟨_, _, rfl, trivial, rfl⟩

theorem loadedFile_defined (x : Any L) (h : usable x) (s : Bytes) : ∃ b y, loadedFile x s = .ok (b, y) ∧ usable y ∧ isFileKind y = isFileKind x := by
  rw [load_as]
  cases Xml.loadFile s with
  | none => exact ⟨_, _, rfl, h, rfl⟩
  | some t => exact load_defined x h t

theorem loadedString_defined (x : Any L) (h : usable x) (s : Bytes) :
    ∃ b y, loadedString x s = .ok (b, y) ∧ usable y ∧ isFileKind y = isFileKind x := by
  rw [loadString_as]
  cases Xml.loadString s with
  | none => exact ⟨_, _, rfl, h, rfl⟩
  | some t => exact load_defined x h t

theorem savedFile_defined (x : Any L) (v1 compact canOpen : Bool) (ok : Nat → Bool) (old : Option Bytes)
    (h : isFileKind x = true → compact = true) : ∃ r, savedFile x v1 compact canOpen ok old = .ok r := by
  cases x with
  | file x =>
    cases h rfl
    exact ⟨_, if_neg (fun e => nomatch e.2)⟩
  | files x =>
    cases h rfl
    exact ⟨_, if_neg (fun e => nomatch e.2)⟩
  | _ => exact ⟨_, rfl⟩

theorem savedString_defined (x : Any L) (v1 compact : Bool) (h : isFileKind x = true → compact = true) :
    ∃ r, savedString x v1 compact = .ok r := by
  cases x with
  | files x => cases h rfl; exact ⟨_, rfl⟩
  | _ => exact ⟨_, rfl⟩

/-- A sensible history is defined. -/
theorem run_defined (cs : List (Call L)) : ∀ (w : World L) (kinds : List Bool), kinds = w.objs.map isFileKind → (∀ x ∈ w.objs, usable x) →
    Sensible kinds cs → ∃ rs w', Spec.Session.run w cs = .ok (rs, w') := by
  induction cs with
  | nil => exact fun w _ _ _ _ => ⟨_, _, rfl⟩
  | cons c cs ih =>
    intro w kinds hk hu hs
    have key : ∀ (ks : List Bool) r w', Spec.Session.step w c = .ok (r, w') → ks = w'.objs.map isFileKind → (∀ x ∈ w'.objs, usable x) → Sensible ks cs →
        ∃ rs w', Spec.Session.run w (c :: cs) = .ok (rs, w') := by
      intro ks r w' e h1 h2 h3
      obtain ⟨rs, w'', er⟩ := ih w' ks h1 h2 h3
      exact ⟨r :: rs, w'', by simp only [Spec.Session.run, e, er]⟩
    have set : ∀ i x y, w.objs[i]? = some x → isFileKind y = isFileKind x → usable y →
        kinds = (w.objs.set i y).map isFileKind ∧ ∀ z ∈ w.objs.set i y, usable z := by
      intro i x y hx h1 h2
      constructor
      · rw [List.map_set, ← hk]
        have hg : kinds[i]? = some (isFileKind y) := by
          rw [hk, List.getElem?_map, hx, h1]
          rfl
        obtain ⟨hi, hg⟩ := List.getElem?_eq_some_iff.mp hg
        rw [← hg]
        exact (List.set_getElem_self hi).symm
      · intro z hz
        rcases List.mem_or_eq_of_mem_set hz with hz | rfl
        · exact hu z hz
        · exact h2
    have obj : ∀ i, i < kinds.length → ∃ x, w.objs[i]? = some x ∧ usable x ∧ kinds[i]? = some (isFileKind x) := by
      intro i hi
      have hi' : i < w.objs.length := by rw [hk, List.length_map] at hi; exact hi
      refine ⟨_, List.getElem?_eq_getElem hi', hu _ (List.getElem_mem hi'), ?_⟩
      rw [hk, List.getElem?_map, List.getElem?_eq_getElem hi']
      rfl
    have obj2 : ∀ (i : Nat) (k : Bool), kinds[i]? = some k → ∃ x, w.objs[i]? = some x ∧ usable x ∧ k = isFileKind x := by
      intro i k hi
      have hl : i < kinds.length := by
        rcases Nat.lt_or_ge i kinds.length with h | h
        · exact h
        · rw [List.getElem?_eq_none h] at hi; cases hi
      obtain ⟨x, h1, h2, h3⟩ := obj i hl
      rw [h3] at hi
      exact ⟨x, h1, h2, (Option.some.inj hi).symm⟩
    cases c with
    | new x =>
      refine key _ _ _ rfl ?_ ?_ hs.2
      · simp [hk]
      · intro z hz
        rcases List.mem_append.mp hz with hz | hz
        · exact hu z hz
        · rw [List.mem_singleton.mp hz]; exact hs.1
    | saveFile i name v1 compact canOpen ok =>
      obtain ⟨⟨k, hi, hc⟩, hs⟩ := hs
      obtain ⟨x, hx, _, rfl⟩ := obj2 i k hi
      obtain ⟨⟨b, file⟩, hr⟩ := savedFile_defined x v1 compact canOpen ok (w.disk name) hc
      refine key kinds _ _ (by simp only [Spec.Session.step, hx, hr]; rfl) ?_ ?_ hs
      · exact hk
      · exact hu
    | saveString i v1 compact =>
      obtain ⟨⟨k, hi, hc⟩, hs⟩ := hs
      obtain ⟨x, hx, _, rfl⟩ := obj2 i k hi
      obtain ⟨t, hr⟩ := savedString_defined x v1 compact hc
      refine key kinds _ _ (by simp only [Spec.Session.step, hx, hr]; rfl) ?_ ?_ hs
      · exact hk
      · exact hu
    | loadFile i name canOpen upTo =>
      obtain ⟨x, hx, hux, _⟩ := obj i hs.1
      have hs := hs.2
      cases hd : (if canOpen then w.disk name else none) with
      | none => exact key _ _ _ (by simp only [Spec.Session.step, hx, hd]; rfl) hk hu hs
      | some s =>
        obtain ⟨b, y, hr, h1, h2⟩ := loadedFile_defined x hux (readable upTo s)
        obtain ⟨h3, h4⟩ := set i x y hx h2 h1
        exact key _ _ _ (by simp only [Spec.Session.step, hx, hd, hr]; rfl) h3 h4 hs
    | loadString i text =>
      obtain ⟨x, hx, hux, _⟩ := obj i hs.1
      obtain ⟨b, y, hr, h1, h2⟩ := loadedString_defined x hux text
      obtain ⟨h3, h4⟩ := set i x y hx h2 h1
      exact key _ _ _ (by simp only [Spec.Session.step, hx, hr]; rfl) h3 h4 hs.2

/-! ### Disk and documents over a history -/

theorem run_append (cs ds : List (Call L)) : ∀ w : World L, Spec.Session.run w (cs ++ ds) = match Spec.Session.run w cs with
    | .ub => .ub
    | .ok (rs, w') => match Spec.Session.run w' ds with
      | .ub => .ub
      | .ok (rs', w'') => .ok (rs ++ rs', w'') := by
  induction cs with
  | nil =>
    intro w
    simp only [List.nil_append, Spec.Session.run]
    cases Spec.Session.run w ds with
    | ub => rfl
    | ok r => rfl
  | cons c cs ih =>
    intro w
    simp only [List.cons_append, Spec.Session.run]
    cases Spec.Session.step w c with
    | ub => rfl
    | ok r =>
      obtain ⟨r, w'⟩ := r
      simp only [ih]
      cases Spec.Session.run w' cs with
      | ub => rfl
      | ok q =>
        obtain ⟨rs, w''⟩ := q
        simp only
        cases Spec.Session.run w'' ds with
        | ub => rfl
        | ok p => rfl

theorem step_disk {w w' : World L} {c : Call L} {r : Result} (h : Spec.Session.step w c = .ok (r, w')) {name : Bytes} (hc : ¬ writesTo name c) :
    w'.disk name = w.disk name := by
  cases c with
  | new x => cases h; rfl
  | saveFile i n v1 compact canOpen ok =>
    rw [Spec.Session.step] at h
    split at h
    · cases h
    · split at h
      · cases h
      · cases h
        exact if_neg (fun e => hc e.symm)
  | saveString i v1 compact =>
    rw [Spec.Session.step] at h
    split at h
    · cases h
    · split at h <;> cases h
      rfl
  | loadFile i n canOpen upTo =>
    rw [Spec.Session.step] at h
    split at h
    · cases h
    · split at h
      · cases h; rfl
      · split at h <;> cases h
        rfl
  | loadString i s =>
    rw [Spec.Session.step] at h
    split at h
    · cases h
    · split at h <;> cases h
      rfl

theorem run_disk (cs : List (Call L)) : ∀ {w w' : World L} {rs : List Result}, Spec.Session.run w cs = .ok (rs, w') → ∀ {name : Bytes},
    (∀ c ∈ cs, ¬ writesTo name c) → w'.disk name = w.disk name := by
  induction cs with
  | nil => intro w w' rs h name _; cases h; rfl
  | cons c cs ih =>
    intro w w' rs h name hc
    unfold Spec.Session.run at h
    cases hs : Spec.Session.step w c with
    | ub => simp only [hs] at h; cases h
    | ok r =>
      obtain ⟨r, w1⟩ := r
      simp only [hs] at h
      cases hr : Spec.Session.run w1 cs with
      | ub => simp only [hr] at h; cases h
      | ok q =>
        obtain ⟨rs', w2⟩ := q
        simp only [hr] at h
        cases h
        rw [ih hr (fun c h => hc c (List.mem_cons_of_mem _ h)), step_disk hs (hc c (List.mem_cons_self ..))]

theorem run_length (cs : List (Call L)) : ∀ {w w' : World L} {rs : List Result}, Spec.Session.run w cs = .ok (rs, w') → rs.length = cs.length := by
  induction cs with
  | nil => intro w w' rs h; cases h; rfl
  | cons c cs ih =>
    intro w w' rs h
    unfold Spec.Session.run at h
    cases hs : Spec.Session.step w c with
    | ub => simp only [hs] at h; cases h
    | ok r =>
      obtain ⟨r, w1⟩ := r
      simp only [hs] at h
      cases hr : Spec.Session.run w1 cs with
      | ub => simp only [hr] at h; cases h
      | ok q =>
        obtain ⟨rs', w2⟩ := q
        simp only [hr] at h
        cases h
        simp [ih hr]

/-! ### Lost documents -/

theorem docFileOn_closed (ok : Nat → Bool) (openFirst : Bool) (cb : SaveCb) (compact : Bool) (x : Option Node) (old : Option Bytes) :
    docFileOn false ok openFirst cb compact x old = (false, old) := by
  unfold docFileOn
  cases x <;> simp

/-- A file that cannot be opened is a failure. -/
theorem savedFile_closed (x : Any L) (v1 compact : Bool) (ok : Nat → Bool) (old : Option Bytes) :
    savedFile x v1 compact false ok old = .ok (false, old) := by
  cases x with
  | control x =>
    simp only [savedFile, ControlData.saveFileOn]
    cases x.complete <;> cases x.saveXml <;> rfl
  | _ => simp [savedFile, Section.saveFileOn, Sections.saveFileOn, LayoutDef.saveFileOn, LayoutDefs.saveFileOn, Page.saveFileOn,
    Preview.saveFileOn, MetaSource.saveFileOn, TocMeta.saveFileOn, FileMetaSource.saveFileOn, FileMeta.saveFileOn, File.saveFileOn,
    Files.saveFileOn, Reel.saveFileOn, Reels.saveFileOn, TocData.saveFileOn, Admin.saveFileOn, Format.saveFileOn, TechMeta.saveFileOn,
      docFileOn_closed]

theorem step_lost {w w' : World L} {c : Call L} {r : Result} (h : Spec.Session.step w c = .ok (r, w')) :
    w'.lost ≤ w.lost + count (failed r) := by
  have mono : ∀ {a b : Bool}, (a = true → b = true) → w.lost + count a ≤ w.lost + count b := by
    intro a b hab
    cases a <;> cases b <;> simp_all [count]
  cases c with
  | new x => cases h; simp [failed, count]
  | saveFile i n v1 compact canOpen ok =>
    rw [Spec.Session.step] at h
    split at h
    · cases h
    · rename_i x hx
      cases canOpen with
      | false =>
        rw [savedFile_closed] at h
        cases h
        exact mono (fun _ => rfl)
      | true =>
        split at h <;> cases h
        exact mono (fun e => nomatch e)
  | saveString i v1 compact =>
    rw [Spec.Session.step] at h
    split at h
    · cases h
    · rename_i x hx
      split at h
      · cases h
      · rename_i t ht
        cases h
        simp
  | loadFile i n canOpen upTo =>
    rw [Spec.Session.step] at h
    split at h
    · cases h
    · split at h
      · cases h; simp
      · split at h <;> cases h
        simp
  | loadString i s =>
    rw [Spec.Session.step] at h
    split at h
    · cases h
    · rename_i x hx
      split at h <;> cases h
      refine mono (fun e => ?_)
      cases x <;> simp_all [losesLoad, failed]

theorem run_lost (cs : List (Call L)) : ∀ {w w' : World L} {rs : List Result}, Spec.Session.run w cs = .ok (rs, w') →
    w'.lost ≤ w.lost + (rs.filter failed).length := by
  induction cs with
  | nil => intro w w' rs h; cases h; simp
  | cons c cs ih =>
    intro w w' rs h
    unfold Spec.Session.run at h
    cases hs : Spec.Session.step w c with
    | ub => simp only [hs] at h; cases h
    | ok r =>
      obtain ⟨r, w1⟩ := r
      simp only [hs] at h
      cases hr : Spec.Session.run w1 cs with
      | ub => simp only [hr] at h; cases h
      | ok q =>
        obtain ⟨rs', w2⟩ := q
        simp only [hr] at h
        cases h
        have h1 := ih hr
        have h2 := step_lost hs
        rw [List.filter_cons]
        cases hf : failed r <;> simp [hf, count] at h2 ⊢ <;> omega

end Afs.Session
