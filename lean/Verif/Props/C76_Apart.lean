import Verif.Proof.Apart
/-!
# C76: what shares nothing stays apart

C30 and C63 say that the counts are right and that a copy shares nothing with what it is a copy of.  Here: whatever a program does afterwards, as long
as it is not given an object of the one side, the one side is exactly what it was.  A program may go on copying from it: `afs_..._clone`,
`afs_toc_file_set_preview`, `afs_toc_file_set_metadata` and `afs_toc_data_add_preview_layout_definitions` copy what they are given.
-/
namespace Afs
open Afs.Spec Afs.Refs Afs.Apart

theorem reachable_inv {w : LWorld} (hw : Reachable w) : Inv w.heap (w.held ++ w.lost) [] ∧ Small w.heap := by
  obtain ⟨cs, h1, h2, h3⟩ := hw
  have hg := lgood_of_run h1 (by omega) h3
  exact ⟨hg.inv, hg.small (by omega)⟩

theorem side_of_sealed {w : LWorld} (hw : Reachable w) {S : Nat → Prop} (hs : Sealed w.heap S) : Side S w.heap :=
  ⟨fun x hx => (hs.live x hx).elim fun _ hc => (reachable_inv hw).1.lt hc, hs.apart⟩

/-- Whatever a program does, the objects that nobody outside owns and that it is not given stay exactly as they are: every one is still in use, of the same
    kind, with the same count and the same parts; and still nobody outside owns one of them. -/
theorem C76_not_given_not_changed {w : LWorld} (hw : Reachable w) (S : Nat → Prop) (hs : Sealed w.heap S) (cs : List LCall) (ho : Outside S cs)
    (v : LWorld) (hr : w.run cs = .ok v) : Unmoved S w.heap v.heap ∧ Sealed v.heap S := by
  have h1 := run_stays cs w v (side_of_sealed hw hs) ho hr
  refine ⟨h1.same, fun x hx => ?_, h1.side.apart⟩
  obtain ⟨c, hc⟩ := hs.live x hx
  exact ⟨c, by rw [h1.same x hx]; exact hc⟩

/-- What cannot be reached from some objects is sealed off from them. -/
theorem unreached_sealed {w : LWorld} (xs : List Nat) : Sealed w.heap (fun x => Live w.heap x ∧ ¬ Reach w.heap xs x) := by
  refine ⟨fun x hx => hx.1, fun x c hc hx k hk hSk => ?_⟩
  apply hx
  refine ⟨⟨c, hc⟩, fun hr => hSk.2 (.part hr hc hk)⟩

theorem reach_sealed {h : Heap} {S : Nat → Prop} (hs : Sealed h S) {zs : List Nat} (hz : ∀ z ∈ zs, ¬ S z) {x : Nat} (hr : Reach h zs x) : ¬ S x := by
  induction hr with
  | held hm => exact hz _ hm
  | part _ hc hk ih => exact hs.apart _ _ hc ih _ hk

/-- The footprint of a program: given some objects, and using besides them only what it makes itself, it leaves everything that could not be reached from them
    exactly as it was, and can reach nothing of it afterwards either. -/
theorem C76_footprint {w : LWorld} (hw : Reachable w) (xs : List Nat) (cs : List LCall)
    (hc : ∀ c ∈ cs, ∀ a ∈ c.targets, Live w.heap a → Reach w.heap xs a) (v : LWorld) (hr : w.run cs = .ok v) :
    (∀ x c, w.heap.cells x = some c → ¬ Reach w.heap xs x → v.heap.cells x = some c) ∧
    ∀ zs : List Nat, (∀ z ∈ zs, Live w.heap z → Reach w.heap xs z) → ∀ x, Reach v.heap zs x → Live w.heap x → Reach w.heap xs x := by
  have hs := unreached_sealed (w := w) xs
  obtain ⟨h1, h2⟩ := C76_not_given_not_changed hw _ hs cs (fun c hcm a ha hS => hS.2 (hc c hcm a ha hS.1)) v hr
  refine ⟨fun x c hx hn => by rw [h1 x ⟨⟨c, hx⟩, hn⟩]; exact hx, fun zs hz x hx hl => ?_⟩
  have := reach_sealed h2 (fun z hzm hS => hS.2 (hz z hzm hS.1)) hx
  exact Classical.byContradiction fun hn => this ⟨hl, hn⟩

theorem appearance_same {h h' : Heap} {m : Nat} (hs : ∀ x, Reach h [m] x → h'.cells x = h.cells x) :
    ∀ (depth : Nat) (x : Nat), Reach h [m] x → appearance depth h' x = appearance depth h x := by
  intro depth
  induction depth with
  | zero => intro x _; rfl
  | succ n ih =>
    intro x hx
    rw [appearance, appearance, hs x hx]
    cases hc : h.cells x with
    | none => rfl
    | some c =>
      dsimp only
      congr 1
      exact List.map_congr_left fun k hk => ih k (.part hx hc hk)

/-- What a copy is, in whatever state a program is, also after loads: it looks like the original, every object of it is new and has one reference, and no
    object that was there has changed. -/
theorem C76_copy_is_new {w : LWorld} (hw : Reachable w) (a : Nat) (ha : Reach w.heap w.held a) :
    ∃ w' m, w.step (.base (.clone a)) = .ok w' ∧ w'.held = m :: w.held ∧
      (∀ depth, appearance depth w'.heap m = appearance depth w.heap a) ∧
      (∀ x c, w.heap.cells x = some c → w'.heap.cells x = some c) ∧
      ∀ x, Reach w'.heap [m] x → ¬ Live w.heap x ∧ ∃ c, w'.heap.cells x = some c ∧ c.rc = 1 := by
  obtain ⟨hi, -⟩ := reachable_inv hw
  obtain ⟨c, hc⟩ := reach_live hi (reach_mono (fun _ hx => List.mem_append.mpr (.inl hx)) ha)
  obtain ⟨h', m, d, e, i, x, lo, hm, _, ap⟩ := clone_ok hi hc
  refine ⟨⟨h', m :: w.held, w.lost⟩, m, ?_, rfl, ap, fun y cy hy => by show h'.cells y = _; rw [x.old y (hi.lt hy)]; exact hy, ?_⟩
  · simp only [LWorld.step, World.step, e, Res.ok_bind]
  · have new : ∀ y, Reach h' [m] y → w.heap.next ≤ y ∧ ∃ c, h'.cells y = some c := by
      intro y hy
      induction hy with
      | held h => rw [List.mem_singleton] at h; subst h; exact ⟨lo, d, hm⟩
      | part _ hb hk ih =>
        obtain ⟨_, c', hc', _⟩ := i.kids _ _ hb (by simp) _ hk
        exact ⟨(x.new _ _ ih.1 hb).2 _ hk, c', hc'⟩
    intro y hy
    obtain ⟨h1, c', h2⟩ := new y hy
    exact ⟨fun ⟨c0, hc0⟩ => by have := hi.lt hc0; omega, c', h2, (x.new y c' h1 h2).1⟩

theorem reachable_step {w w' : LWorld} (hw : Reachable w) {c : LCall} (hl : LLegal w c) (e : w.step c = .ok w') :
    Inv w'.heap (w'.held ++ w'.lost) [] := by
  obtain ⟨cs, h1, h2, h3⟩ := hw
  have hg := lgood_of_run h1 (by omega) h3
  obtain ⟨v, e', g⟩ := lstep_ok hg (by omega) hl
  rw [e] at e'
  cases e'
  exact g.inv

/-- Whatever happens after copying, to the original or to anything else, the copy goes on looking as the original did when it was copied, as long as no call
    is given an object of the copy.  The original may be changed, loaded again or freed; the copy may be copied. -/
theorem C76_copy_stays {w : LWorld} (hw : Reachable w) (a : Nat) (ha : Reach w.heap w.held a) :
    ∃ w' m, w.step (.base (.clone a)) = .ok w' ∧ w'.held = m :: w.held ∧
      ∀ cs v, Outside (Reach w'.heap [m]) cs → w'.run cs = .ok v →
        Unmoved (Reach w'.heap [m]) w'.heap v.heap ∧ ∀ depth, appearance depth v.heap m = appearance depth w.heap a := by
  obtain ⟨w', m, h1, h2, h3, h4, h5⟩ := C76_copy_is_new hw a ha
  refine ⟨w', m, h1, h2, fun cs v ho hr => ?_⟩
  have hi := (reachable_inv hw).1
  have hi' := reachable_step hw (c := .base (.clone a)) ha h1
  have hside : Side (Reach w'.heap [m]) w'.heap := by
    refine ⟨fun x hx => ?_, fun x c hc hx k hk hS => ?_⟩
    · obtain ⟨-, c, hc, -⟩ := h5 x hx
      exact hi'.lt hc
    · -- an object of the copy is owned by one only, and that is in the copy
      obtain ⟨hnew, ck, hck, hrc⟩ := h5 k hS
      have hcount := hi'.count k ck hck (by simp)
      rw [hrc] at hcount
      have hxlt := hi'.lt hc
      have hpx : 0 < ptr w'.heap [] k x := by
        simp only [ptr, List.not_mem_nil, if_false, pointersIn, hc]
        exact List.count_pos_iff.mpr hk
      have hsum : ∀ (n : Nat) (y : Nat), y < n → ptr w'.heap [] k y ≤ sumTo (ptr w'.heap [] k) n := by
        intro n
        induction n with
        | zero => intro y hy; omega
        | succ n ih =>
          intro y hy
          rw [sumTo]
          by_cases hyn : y = n
          · subst hyn; omega
          · have := ih y (by omega); omega
      have hsum2 : ∀ (n : Nat) (y z : Nat), y < n → z < n → y ≠ z →
          ptr w'.heap [] k y + ptr w'.heap [] k z ≤ sumTo (ptr w'.heap [] k) n := by
        intro n
        induction n with
        | zero => intro y z hy; omega
        | succ n ih =>
          intro y z hy hz hne
          rw [sumTo]
          by_cases hyn : y = n
          · subst hyn; have := hsum y z (by omega); omega
          · by_cases hzn : z = n
            · subst hzn; have := hsum z y (by omega); omega
            · have := ih y z (by omega) (by omega) hne; omega
      cases hS with
      | held hm =>
        have hm' : k ∈ w'.held ++ w'.lost := by
          rw [List.mem_singleton] at hm
          rw [h2, hm]; exact List.mem_cons_self
        have := List.count_pos_iff.mpr hm'
        have := hsum w'.heap.next x hxlt
        omega
      | @part _ b cb hrb hcb hkb =>
        have hbx : b ≠ x := fun e => hx (by rw [← e]; exact hrb)
        have hpb : 0 < ptr w'.heap [] k b := by
          simp only [ptr, List.not_mem_nil, if_false, pointersIn, hcb]
          exact List.count_pos_iff.mpr hkb
        have := hsum2 w'.heap.next b x (hi'.lt hcb) hxlt hbx
        omega
  have hst := run_stays cs w' v hside ho hr
  refine ⟨hst.same, fun depth => ?_⟩
  rw [appearance_same hst.same depth m (.held (by simp)), h3]

/-- And whatever is done with the copy, and with objects made later, nothing that was there when the copy was made is changed by it: not the original, not the
    lists the original is in. -/
theorem C76_original_stays {w : LWorld} (hw : Reachable w) (a : Nat) (ha : Reach w.heap w.held a) :
    ∃ w' m, w.step (.base (.clone a)) = .ok w' ∧ w'.held = m :: w.held ∧
      ∀ cs v, Outside (Live w.heap) cs → w'.run cs = .ok v → Unmoved (Live w.heap) w.heap v.heap := by
  obtain ⟨w', m, h1, h2, -, -, -⟩ := C76_copy_is_new hw a ha
  refine ⟨w', m, h1, h2, fun cs v ho hr => ?_⟩
  have hrun : w.run (.base (.clone a) :: cs) = .ok v := by
    rw [LWorld.run, h1, Res.ok_bind]; exact hr
  have hout : Outside (Live w.heap) (.base (.clone a) :: cs) := by
    intro c hc b hb
    rcases List.mem_cons.mp hc with hc | hc
    · subst hc; exact absurd hb List.not_mem_nil
    · exact ho c hc b hb
  have hseal : Sealed w.heap (Live w.heap) := ⟨fun _ hx => hx, fun x c hc hx => absurd ⟨c, hc⟩ hx⟩
  exact (C76_not_given_not_changed hw _ hseal _ hout v hrun).1

theorem appearance_dropped {h h1 : Heap} {L : List Nat} {f : Nat} {k : Kind} {d : Cell} (hd : h.cells f = some d) (i1 : Inv h1 L [])
    (s1 : Shrinks (withoutPart h f k) h1) : ∀ (depth y : Nat) (c : Cell), h1.cells y = some c → c.kind.level < d.kind.level →
      appearance depth h1 y = appearance depth h y := by
  intro depth
  induction depth with
  | zero => intro y c _ _; rfl
  | succ n ih =>
    intro y c hc hlev
    obtain ⟨c2, hc2, hk2, hks2, -⟩ := s1.cells y c hc
    have hyf : y ≠ f := by
      intro e
      obtain ⟨d3, hd3, k3, -⟩ := withoutPart_cells hc2
      rw [e, hd] at hd3
      cases hd3
      rw [hk2, k3] at hlev
      omega
    have hcy : h.cells y = some c2 := by
      rw [withoutPart] at hc2
      cases hp : part h f k with
      | none => rw [hp] at hc2; exact hc2
      | some o =>
        rw [hp] at hc2
        dsimp only at hc2
        rw [unlink, hd] at hc2
        dsimp only at hc2
        rw [set_cells, if_neg hyf] at hc2
        exact hc2
    rw [appearance, appearance, hc, hcy]
    dsimp only
    rw [hk2, hks2]
    congr 1
    refine List.map_congr_left fun b hb => ?_
    obtain ⟨-, cb, hcb, ho⟩ := i1.kids y c hc (by simp) b (by rw [hks2]; exact hb)
    exact ih b cb hcb (by have := owns_level ho; omega)

/-- `afs_toc_file_set_preview`, `afs_toc_file_set_metadata` copy: the file gets a part that looks like what it was given, all of it new with one reference
    each; what was given stays with the caller. -/
theorem C76_set_part_copies {w : LWorld} (hw : Reachable w) (f : Nat) (k : Kind) (x : Nat) (hl : LLegal w (.base (.setPart f k (some x)))) :
    ∃ v m c, w.step (.base (.setPart f k (some x))) = .ok v ∧ v.held = w.held ∧ v.heap.cells f = some c ∧ m ∈ c.kids ∧
      (∀ depth, appearance depth v.heap m = appearance depth w.heap x) ∧
      (∀ y, Reach v.heap [m] y → ¬ Live w.heap y ∧ ∃ cy, v.heap.cells y = some cy ∧ cy.rc = 1) ∧
      ∀ y cy, w.heap.cells y = some cy → ¬ Reach w.heap [f] y → v.heap.cells y = some cy := by
  obtain ⟨hi, hsm⟩ := reachable_inv hw
  have hl' := hl
  obtain ⟨hrf, ⟨kf, ⟨d, hd, hdk⟩, hown⟩, hx⟩ := hl'
  obtain ⟨⟨c0, hc0, hck⟩, hrx⟩ := hx x rfl
  have hsub : ∀ a, a ∈ w.held → a ∈ w.held ++ w.lost := fun _ h => List.mem_append.mpr (.inl h)
  have hd' : w.heap.cells f = some d := hd
  obtain ⟨h1, e1, i1, s1⟩ := dropPart_ok (k := k) hi hsm hd'
  have hf1 := reach_shrinks i1 s1 (reach_withoutPart (k := k) hi hd' (reach_mono hsub hrf) hd' (Nat.le_refl _))
  obtain ⟨d1, hd1⟩ := reach_live i1 hf1
  have hdk1 : d1.kind = d.kind := by
    obtain ⟨d2, h2, k2, _, _⟩ := s1.cells f d1 hd1
    obtain ⟨d3, h3, k3, _⟩ := withoutPart_cells h2
    rw [hd'] at h3
    cases h3
    rw [k2, k3]
  obtain ⟨c1, hc1⟩ := reach_live i1 (reach_shrinks i1 s1 (reach_mono hsub hrx))
  have hck1 : c1.kind = k := by
    obtain ⟨d2, h2, k2, _, _⟩ := s1.cells x c1 hc1
    obtain ⟨d3, h3, k3, _⟩ := withoutPart_cells h2
    have hc0' : w.heap.cells x = some c0 := hc0
    rw [hc0'] at h3
    cases h3
    rw [k2, ← k3, hck]
  have hap1 := appearance_dropped hd' i1 s1
  obtain ⟨h2, m, dm, e2, i2, x2, lo, m2, k2, ap⟩ := clone_ok i1 hc1
  have hfm : f ≠ m := by have := i1.lt hd1; omega
  have hd2 : h2.cells f = some d1 := by rw [x2.old f (i1.lt hd1)]; exact hd1
  have e3 : append h2 f m = .ok (h2.set f { d1 with kids := d1.kids ++ [m] }) := by rw [append, hd2]
  have estep : w.step (.base (.setPart f k (some x))) = .ok ⟨h2.set f { d1 with kids := d1.kids ++ [m] }, w.held, w.lost⟩ := by
    simp only [LWorld.step, World.step, setPart, hd', e1, Res.ok_bind, e2, e3]
  have hnext : h1.next = w.heap.next := by
    rw [s1.next, withoutPart]
    cases part w.heap f k with
    | none => rfl
    | some o => dsimp only; rw [unlink, hd']; rfl
  have new : ∀ y, Reach (h2.set f { d1 with kids := d1.kids ++ [m] }) [m] y → h1.next ≤ y ∧ ∃ c, h2.cells y = some c := by
    intro y hy
    induction hy with
    | held h => rw [List.mem_singleton] at h; subst h; exact ⟨lo, dm, m2⟩
    | @part y b cb hrb hb hk ih =>
      have hbf : b ≠ f := by have := i1.lt hd1; have := ih.1; omega
      rw [set_cells, if_neg hbf] at hb
      obtain ⟨_, c', hc', _⟩ := i2.kids _ _ hb (by simp) _ hk
      exact ⟨(x2.new _ _ ih.1 hb).2 _ hk, c', hc'⟩
  refine ⟨_, m, _, estep, rfl, by show (h2.set f _).cells f = _; rw [set_cells, if_pos rfl], by simp, fun depth => ?_, fun y hy => ?_, fun y cy hy hn => ?_⟩
  · have hsame : ∀ y, Reach (h2.set f { d1 with kids := d1.kids ++ [m] }) [m] y →
        h2.cells y = (h2.set f { d1 with kids := d1.kids ++ [m] }).cells y := by
      intro y hy
      have hyf : y ≠ f := by have := i1.lt hd1; have := (new y hy).1; omega
      rw [set_cells, if_neg hyf]
    have := appearance_same hsame depth m (.held (by simp))
    show appearance depth (h2.set f _) m = _
    rw [← this, ap, hap1 depth x c1 hc1]
    rw [hck1]
    exact owns_level (hdk ▸ hown)
  · obtain ⟨h3, c, h4⟩ := new y hy
    have hyf : y ≠ f := by have := i1.lt hd1; omega
    refine ⟨fun ⟨c0, hc0⟩ => by have := hi.lt hc0; omega, c, ?_, (x2.new y c h3 h4).1⟩
    show (h2.set f _).cells y = _
    rw [set_cells, if_neg hyf]
    exact h4
  · have hrun : w.run [.base (.setPart f k (some x))] = .ok ⟨h2.set f { d1 with kids := d1.kids ++ [m] }, w.held, w.lost⟩ := by
      rw [LWorld.run, estep]; rfl
    refine (C76_footprint hw [f] _ (fun c hc b hb _ => ?_) _ hrun).1 y cy hy hn
    rw [List.mem_singleton] at hc
    subst hc
    exact .held hb

/-! ### Concrete programs -/

/-- A table of contents with a reel that has a list with one file with a preview of one page; the caller has kept a reference to the file. -/
def c76Program : List LCall :=
  [.base (.create .page []), .base (.create .preview [0]), .base (.create .file [1]), .base (.newRef 2), .base (.create .files [2]),
   .base (.create .reel [3]), .base (.create .reels [4]), .base (.create .tocData [5])]

theorem c76_legal : LLegalRun LWorld.start c76Program := by
  have hc : ∀ (l m : List Nat), m.all (fun a => m.count a ≤ l.count a) = true → ∀ a, m.count a ≤ l.count a := by
    intro l m h a
    by_cases ha : a ∈ m
    · exact decide_eq_true_eq.mp (List.all_eq_true.mp h a ha)
    · rw [List.count_eq_zero_of_not_mem ha]; omega
  refine ⟨⟨hc _ _ rfl, fun a ha => absurd ha List.not_mem_nil⟩, fun w hw => ?_⟩
  cases hw
  refine ⟨⟨hc _ _ rfl, fun a ha => by rw [List.mem_singleton] at ha; subst ha; exact ⟨.page, ⟨_, rfl, rfl⟩, rfl⟩⟩, fun w hw => ?_⟩
  cases hw
  refine ⟨⟨hc _ _ rfl, fun a ha => by rw [List.mem_singleton] at ha; subst ha; exact ⟨.preview, ⟨_, rfl, rfl⟩, rfl⟩⟩, fun w hw => ?_⟩
  cases hw
  refine ⟨.held (by decide), fun w hw => ?_⟩
  cases hw
  refine ⟨⟨hc _ _ rfl, fun a ha => by rw [List.mem_singleton] at ha; subst ha; exact ⟨.file, ⟨_, rfl, rfl⟩, rfl⟩⟩, fun w hw => ?_⟩
  cases hw
  refine ⟨⟨hc _ _ rfl, fun a ha => by rw [List.mem_singleton] at ha; subst ha; exact ⟨.files, ⟨_, rfl, rfl⟩, rfl⟩⟩, fun w hw => ?_⟩
  cases hw
  refine ⟨⟨hc _ _ rfl, fun a ha => by rw [List.mem_singleton] at ha; subst ha; exact ⟨.reel, ⟨_, rfl, rfl⟩, rfl⟩⟩, fun w hw => ?_⟩
  cases hw
  refine ⟨⟨hc _ _ rfl, fun a ha => by rw [List.mem_singleton] at ha; subst ha; exact ⟨.reels, ⟨_, rfl, rfl⟩, rfl⟩⟩, fun w hw => ?_⟩
  trivial

/-- The theorems above apply to the table of contents, object 6. -/
theorem C76_example : ∃ w, LWorld.start.run c76Program = .ok w ∧ Reachable w ∧ Reach w.heap w.held 6 :=
  ⟨_, rfl, ⟨c76Program, c76_legal, by decide, rfl⟩, .held (by decide)⟩

/-- The table of contents is copied (objects 7 to 13); then the preview of the file is taken away, the table of contents is loaded again and freed: the copy still has the file (9) with its preview (8). -/
theorem C76_example_copy : ∃ v, LWorld.start.run (c76Program ++
      [.base (.clone 6), .base (.setPart 2 .preview none), .load (.toc 6 (some ⟨none, none, some [(some none, true)]⟩)), .base (.free 6), .base (.free 2)]) = .ok v ∧
    v.held = [13] ∧ v.heap.cells 6 = none ∧ v.heap.cells 2 = none ∧
    v.heap.cells 9 = some ⟨.file, 1, [8]⟩ ∧ v.heap.cells 8 = some ⟨.preview, 1, [7]⟩ := ⟨_, rfl, rfl, rfl, rfl, rfl, rfl⟩

/-- Adding does not copy, so these theorems do not extend to it: a file that the caller has kept a reference to is the file in the list, and taking away its
    preview is seen from the table of contents, though no call was given the table of contents, its reels, its reel or its list. -/
theorem C76_adding_shares : ∃ w v, LWorld.start.run c76Program = .ok w ∧ w.run [.base (.setPart 2 .preview none)] = .ok v ∧
    Reach w.heap [6] 1 ∧ Live w.heap 1 ∧ v.heap.cells 1 = none := by
  refine ⟨_, _, rfl, rfl, ?_, ⟨_, rfl⟩, rfl⟩
  exact .part (b := 2) (.part (b := 3) (.part (b := 4) (.part (b := 5) (.part (b := 6) (.held (by simp)) rfl (by simp)) rfl (by simp)) rfl (by simp)) rfl (by simp)) rfl
    (by simp)

end Afs
