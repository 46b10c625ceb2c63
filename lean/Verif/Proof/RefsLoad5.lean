import Verif.Proof.RefsLoad4
/-!
# Loading: programs
-/
namespace Afs.Refs
open Afs.Spec

theorem Loads.at {α : Type} {k : Kind} {load : Heap → Nat → α → Res Loaded} {x : α} {ok : Bool} {lost : Heap → Nat → Nat}
    (hl : Loads k load x ok lost) {h : Heap} {L : List Nat} {p : Nat} (hi : Inv h L []) (hs : Small h) (hp : Is h p k) :
    ∃ r, load h p x = .ok r ∧ Inv r.heap (r.lost ++ L) [] ∧ Weak h p r.heap ∧ r.ok = ok ∧ r.lost.length = lost h p := by
  obtain ⟨d, hd, hk⟩ := hp
  obtain ⟨r, h1, h2, h3, h4, h5⟩ := hl h L p d hi hs hd hk
  exact ⟨r, h1, h2, h3.weak hd, h4, h5⟩

theorem reach_mono {h : Heap} {L M : List Nat} (hs : ∀ a, a ∈ L → a ∈ M) {a : Nat} (hr : Reach h L a) : Reach h M a := by
  induction hr with
  | held ha => exact .held (hs _ ha)
  | part _ hb ha ih => exact .part ih hb ha

/-- Every load of a legal program. -/
theorem load_ok (l : Load) {h : Heap} {L held : List Nat} (hi : Inv h L []) (hs : Small h) (hsub : ∀ a, a ∈ held → a ∈ L) (hl : l.Legal h held) :
    ∃ r p, l.run h = .ok r ∧ Inv r.heap (r.lost ++ L) [] ∧ Weak h p r.heap ∧ r.ok = l.ok ∧ r.lost.length = l.lost h := by
  cases l with
  | leaf p ok =>
    obtain ⟨d, hd⟩ := reach_live hi (reach_mono hsub hl)
    obtain ⟨r, hr⟩ := (leaf_loads d.kind ok).at hi hs ⟨d, hd, rfl⟩
    exact ⟨r, p, hr⟩
  | preview p x => obtain ⟨r, hr⟩ := (preview_loads x).at hi hs hl.2; exact ⟨r, p, hr⟩
  | fileMeta p x =>
    obtain ⟨r, h1, h2, h3, h4, h5⟩ := (fileMeta_loads x).at hi hs hl.2
    exact ⟨r, p, h1, h2, h3, h4, h5.trans (leavesLost_true x)⟩
  | tocMeta p x =>
    obtain ⟨r, h1, h2, h3, h4, h5⟩ := (tocMeta_loads x).at hi hs hl.2
    exact ⟨r, p, h1, h2, h3, h4, h5.trans (leavesLost_true x)⟩
  | sections p x => obtain ⟨r, hr⟩ := (sections_loads x).at hi hs hl.2; exact ⟨r, p, hr⟩
  | file p x => obtain ⟨r, hr⟩ := (file_loads x).at hi hs hl.2; exact ⟨r, p, hr⟩
  | files p x => obtain ⟨r, hr⟩ := (files_loads x).at hi hs hl.2; exact ⟨r, p, hr⟩
  | reel p x => obtain ⟨r, hr⟩ := (reel_loads x).at hi hs hl.2; exact ⟨r, p, hr⟩
  | reels p x => obtain ⟨r, hr⟩ := (reels_loads x).at hi hs hl.2; exact ⟨r, p, hr⟩
  | layout p x => obtain ⟨r, hr⟩ := (layout_loads x).at hi hs hl.2; exact ⟨r, p, hr⟩
  | layouts p x => obtain ⟨r, hr⟩ := (layouts_loads x).at hi hs hl.2; exact ⟨r, p, hr⟩
  | toc p x => obtain ⟨r, hr⟩ := toc_loads x hi hs hl.2; exact ⟨r, p, hr⟩
  | tech p x =>
    obtain ⟨-, ⟨d, hd, hk⟩, hf⟩ := hl
    obtain ⟨r, h1, h2, h3, h4, h5⟩ := tech_loads x h L p d hi hs hd hk hf
    exact ⟨r, p, h1, h2, h3.weak hd, h4, h5⟩
  | control p a t => obtain ⟨r, hr⟩ := control_loads a t hi hs hl.2; exact ⟨r, p, hr⟩

theorem erase_left {held X : List Nat} {a : Nat} (ha : a ∈ held) : (held ++ X).erase a = held.erase a ++ X := List.erase_append_left X ha

theorem foldl_erase_left (parts : List Nat) : ∀ (held X : List Nat), (∀ a, parts.count a ≤ held.count a) →
    parts.foldl List.erase (held ++ X) = parts.foldl List.erase held ++ X := by
  induction parts with
  | nil => intro held X _; rfl
  | cons p ps ih =>
    intro held X hc
    have hp : p ∈ held := List.count_pos_iff.mp (by have := hc p; rw [List.count_cons_self] at this; omega)
    rw [List.foldl_cons, List.foldl_cons, erase_left hp]
    refine ih _ _ fun a => ?_
    have := hc a
    rw [List.count_erase]
    rw [List.count_cons] at this
    by_cases e : a = p
    · subst e; simp at this ⊢; omega
    · have h1 : (p == a) = false := by simpa using Ne.symm e
      simp [h1] at this
      simp [Ne.symm e]
      exact this

/-- References the program does not know of change nothing for a legal call. -/
theorem step_append {h : Heap} {held X : List Nat} {c : Call} (hl : Legal ⟨h, held⟩ c) :
    Legal ⟨h, held ++ X⟩ c ∧ World.step ⟨h, held ++ X⟩ c = (do
      let v ← World.step ⟨h, held⟩ c
      .ok ⟨v.heap, v.held ++ X⟩) := by
  have sub : ∀ a, a ∈ held → a ∈ held ++ X := fun a ha => List.mem_append.mpr (.inl ha)
  have mono : ∀ {g : Heap} {a : Nat}, Reach g held a → Reach g (held ++ X) a := fun hr => reach_mono sub hr
  cases c with
  | create k parts =>
    obtain ⟨h1, h2⟩ := hl
    refine ⟨⟨fun a => ?_, h2⟩, ?_⟩
    · have := h1 a
      dsimp only at this ⊢
      rw [List.count_append]
      omega
    · unfold World.step
      dsimp only
      rw [foldl_erase_left parts held X h1]
      rfl
  | newRef a =>
    refine ⟨mono hl, ?_⟩
    unfold World.step
    dsimp only
    cases Refs.newRef h a <;> rfl
  | free a =>
    refine ⟨sub a hl, ?_⟩
    unfold World.step
    dsimp only
    rw [erase_left hl]
    cases Refs.free h a <;> rfl
  | clone a =>
    refine ⟨mono hl, ?_⟩
    unfold World.step
    dsimp only
    cases Refs.clone h a <;> rfl
  | add p c acc =>
    obtain ⟨h1, h2, h3⟩ := hl
    refine ⟨⟨mono h1, sub _ h2, h3⟩, ?_⟩
    unfold World.step
    dsimp only at h2 ⊢
    rw [erase_left h2]
    cases Refs.add h p c acc <;> cases acc <;> rfl
  | addInner p k c o =>
    obtain ⟨h1, h2, h3⟩ := hl
    refine ⟨⟨mono h1, sub _ h2, h3⟩, ?_⟩
    unfold World.step
    dsimp only at h2 ⊢
    rw [erase_left h2]
    cases Refs.addInner h p k c o <;> cases o <;> rfl
  | setPart f k x =>
    obtain ⟨h1, h2, h3⟩ := hl
    refine ⟨⟨mono h1, h2, fun y hy => ⟨(h3 y hy).1, mono (h3 y hy).2⟩⟩, ?_⟩
    unfold World.step
    dsimp only
    cases Refs.setPart h f k x <;> rfl
  | addLayouts t d oks =>
    obtain ⟨h1, h2, h3⟩ := hl
    refine ⟨⟨mono h1, mono h2, h3⟩, ?_⟩
    unfold World.step
    dsimp only
    cases Refs.addLayouts h t d oks <;> rfl

/-- The state of a program that loads. -/
def LGood (w : LWorld) (n : Nat) : Prop := Good ⟨w.heap, w.held ++ w.lost⟩ n

theorem lstep_ok {w : LWorld} {n : Nat} (hg : LGood w n) (hn : n + 1 < 2147483647) {c : LCall} (hl : LLegal w c) :
    ∃ w', w.step c = .ok w' ∧ LGood w' (n + 1) := by
  cases c with
  | base c =>
    obtain ⟨h1, h2⟩ := step_append (X := w.lost) hl
    obtain ⟨v, e, g⟩ := step_ok hg hn h1
    rw [h2] at e
    unfold LWorld.step
    dsimp only
    cases hv : World.step ⟨w.heap, w.held⟩ c with
    | ub => rw [hv] at e; cases e
    | ok v' =>
      rw [hv, Res.ok_bind] at e
      cases e
      rw [Res.ok_bind]
      exact ⟨_, rfl, g⟩
  | load l =>
    obtain ⟨r, p, h1, h2, h3, -, -⟩ := load_ok l hg.inv (hg.small hn) (fun a ha => List.mem_append.mpr (.inl ha)) hl
    unfold LWorld.step
    dsimp only
    rw [h1, Res.ok_bind]
    refine ⟨_, rfl, h2.congr fun a => by simp only [List.count_append]; omega, fun a c hc => ?_⟩
    rcases h3.rcs a c hc with hr | ⟨c0, hc0, hr⟩
    · omega
    · have := hg.rcs a c0 hc0; omega

theorem lgood_start : LGood LWorld.start 0 := good_start

theorem lrun_ok : ∀ (cs : List LCall) (w : LWorld) (n : Nat), LGood w n → n + cs.length < 2147483647 → LLegalRun w cs →
    ∃ w', w.run cs = .ok w' ∧ LGood w' (n + cs.length) := by
  intro cs
  induction cs with
  | nil => intro w n hg _ _; exact ⟨w, rfl, hg⟩
  | cons c cs ih =>
    intro w n hg hn hl
    rw [List.length_cons] at hn
    obtain ⟨h1, h2⟩ := hl
    obtain ⟨w1, e1, g1⟩ := lstep_ok hg (by omega) h1
    obtain ⟨w2, e2, g2⟩ := ih w1 (n + 1) g1 (by omega) (h2 w1 e1)
    refine ⟨w2, ?_, ?_⟩
    · rw [LWorld.run, e1]; exact e2
    · rw [List.length_cons]
      have : n + (cs.length + 1) = n + 1 + cs.length := by omega
      rw [this]
      exact g2

theorem lgood_of_run {cs : List LCall} {w : LWorld} (hl : LLegalRun LWorld.start cs) (hn : cs.length < 2147483647)
    (hr : LWorld.start.run cs = .ok w) : LGood w cs.length := by
  obtain ⟨w', e, g⟩ := lrun_ok cs LWorld.start 0 lgood_start (by omega) hl
  rw [hr] at e
  cases e
  simpa using g

/-- What is lost stays lost. -/
theorem lost_grows : ∀ (cs : List LCall) (w w' : LWorld), w.run cs = .ok w' → ∃ new, w'.lost = new ++ w.lost := by
  intro cs
  induction cs with
  | nil => intro w w' e; cases e; exact ⟨[], rfl⟩
  | cons c cs ih =>
    intro w w' e
    rw [LWorld.run] at e
    cases h1 : w.step c with
    | ub => rw [h1] at e; cases e
    | ok v =>
      rw [h1, Res.ok_bind] at e
      obtain ⟨new, hn⟩ := ih v w' e
      cases c with
      | base c =>
        unfold LWorld.step at h1
        dsimp only at h1
        cases hv : World.step ⟨w.heap, w.held⟩ c with
        | ub => rw [hv] at h1; cases h1
        | ok v' => rw [hv, Res.ok_bind] at h1; cases h1; exact ⟨new, hn⟩
      | load l =>
        unfold LWorld.step at h1
        dsimp only at h1
        cases hv : l.run w.heap with
        | ub => rw [hv] at h1; cases h1
        | ok r => rw [hv, Res.ok_bind] at h1; cases h1; exact ⟨new ++ r.lost, by rw [hn]; simp⟩

theorem run_append : ∀ (cs ds : List LCall) (w : LWorld), w.run (cs ++ ds) = (do let v ← w.run cs; v.run ds) := by
  intro cs
  induction cs with
  | nil => intro ds w; rfl
  | cons c cs ih =>
    intro ds w
    rw [List.cons_append, LWorld.run, LWorld.run]
    cases w.step c with
    | ub => rfl
    | ok v => rw [Res.ok_bind, Res.ok_bind]; exact ih ds v

/-- Loading changes only the object; a table of contents and control data free parts that may be shared. -/
theorem load_frame (l : Load) {h : Heap} {L held : List Nat} (hi : Inv h L []) (hs : Small h) (hsub : ∀ a, a ∈ held → a ∈ L) (hl : l.Legal h held)
    (ht : ∀ p x, l ≠ .toc p x) (hc : ∀ p a t, l ≠ .control p a t) {r : Loaded} (hr : l.run h = .ok r) :
    ∀ x c, x ≠ l.object → h.cells x = some c → r.heap.cells x = some c := by
  have key : ∀ {α : Type} {k : Kind} {load : Heap → Nat → α → Res Loaded} {x : α} {ok : Bool} {lost : Heap → Nat → Nat} {p : Nat},
      Loads k load x ok lost → Is h p k → load h p x = .ok r → ∀ y c, y ≠ p → h.cells y = some c → r.heap.cells y = some c := by
    intro α k load x ok lost p hl ⟨d, hd, hk⟩ e y c hne hy
    obtain ⟨r', h1, -, h3, -, -⟩ := hl h L p d hi hs hd hk
    rw [h1] at e
    cases e
    rw [h3.old y (hi.lt hy) hne]
    exact hy
  cases l with
  | leaf p ok =>
    obtain ⟨d, hd⟩ := reach_live hi (reach_mono hsub hl)
    exact key (leaf_loads d.kind ok) ⟨d, hd, rfl⟩ hr
  | preview p x => exact key (preview_loads x) hl.2 hr
  | fileMeta p x => exact key (fileMeta_loads x) hl.2 hr
  | tocMeta p x => exact key (tocMeta_loads x) hl.2 hr
  | sections p x => exact key (sections_loads x) hl.2 hr
  | file p x => exact key (file_loads x) hl.2 hr
  | files p x => exact key (files_loads x) hl.2 hr
  | reel p x => exact key (reel_loads x) hl.2 hr
  | reels p x => exact key (reels_loads x) hl.2 hr
  | layout p x => exact key (layout_loads x) hl.2 hr
  | layouts p x => exact key (layouts_loads x) hl.2 hr
  | toc p x => exact absurd rfl (ht p x)
  | tech p x =>
    obtain ⟨-, ⟨d, hd, hk⟩, hf⟩ := hl
    obtain ⟨r', h1, -, h3, -, -⟩ := tech_loads x h L p d hi hs hd hk hf
    intro y c hne hy
    have hr' : loadTech h p x = .ok r := hr
    rw [h1] at hr'
    cases hr'
    rw [h3.old y (hi.lt hy) hne]
    exact hy
  | control p a t => exact absurd rfl (hc p a t)

/-! ## What succeeds loses nothing -/

theorem lostIn_ok {α : Type} {freed : Bool} {ok : α → Bool} {lost : α → Nat} (h0 : ∀ x, ok x = true → lost x = 0) (l : List (α × Bool))
    (h : allLoad ok l = true) : lostIn freed ok lost l = 0 := by
  induction l with
  | nil => rfl
  | cons y l ih =>
    obtain ⟨x, a⟩ := y
    have : (ok x = true ∧ a = true) ∧ allLoad ok l = true := by simpa [allLoad] using h
    obtain ⟨⟨h1, h2⟩, h3⟩ := this
    unfold lostIn
    rw [h0 x h1, h1, h2, ih h3]
    rfl

theorem leavesLost_ok {f : Bool} {l : Leaves} (h : leavesOk l = true) : leavesLost f l = 0 := by
  cases l with
  | none => rfl
  | some l => exact lostIn_ok (fun _ _ => rfl) l h

theorem fileLost_ok (x : Option FilePlan) (h : fileOk x = true) : fileLost x = 0 := by
  cases x with
  | none => rfl
  | some x =>
    have h1 : ifThere true leavesOk x.preview = true ∧ _ := Bool.and_eq_true_iff.mp h
    unfold fileLost
    dsimp only
    cases hx : x.preview with
    | none => rfl
    | some l => rw [hx] at h1; exact leavesLost_ok h1.1

theorem filesLost_ok (x : FilesPlan) (h : filesOk x = true) : filesLost x = 0 := lostIn_ok fileLost_ok x h

theorem reelLost_ok (x : Option (Option FilesPlan)) (h : reelOk x = true) : reelLost x = 0 := by
  cases x with
  | none => rfl
  | some x =>
    cases x with
    | none => rfl
    | some l => exact filesLost_ok l h

theorem reelsLost_ok (x : ReelsPlan) (h : reelsOk x = true) : reelsLost x = 0 := lostIn_ok reelLost_ok x h

theorem layoutLost_ok (x : Option Leaves) (h : layoutOk x = true) : layoutLost x = 0 := by
  cases x with
  | none => rfl
  | some l => exact leavesLost_ok h

theorem layoutsLost_ok (x : LayoutsPlan) (h : layoutsOk x = true) : layoutsLost x = 0 := by
  cases x with
  | none => rfl
  | some l => exact lostIn_ok layoutLost_ok l h

theorem tocLost_ok (x : Option TocPlan) (h : tocOk x = true) : tocLost x = 0 := by
  cases x with
  | none => rfl
  | some x =>
    have h1 : (ifThere true leavesOk x.metadata && ifThere true layoutsOk x.layouts) = true ∧ ifThere true reelsOk x.reels = true := Bool.and_eq_true_iff.mp h
    obtain ⟨h1, h3⟩ := h1
    obtain ⟨h1, h2⟩ := Bool.and_eq_true_iff.mp h1
    unfold tocLost
    dsimp only
    rw [if_neg (by rw [h1]; simp), if_neg (by rw [h2]; simp)]
    have e2 : ifThere 0 layoutsLost x.layouts = 0 := by
      cases hx : x.layouts with
      | none => rfl
      | some l => rw [hx] at h2; exact layoutsLost_ok l h2
    have e3 : ifThere 0 reelsLost x.reels = 0 := by
      cases hx : x.reels with
      | none => rfl
      | some l => rw [hx] at h3; exact reelsLost_ok l h3
    rw [e2, e3]

theorem has_empty {h : Heap} {p : Nat} (he : Empty h p) (k : Kind) : has h p k = 0 := by
  obtain ⟨c, hc, hk⟩ := he
  unfold has
  rw [part_eq hc, hk]
  rfl

end Afs.Refs
