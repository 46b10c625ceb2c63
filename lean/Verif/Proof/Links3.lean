import Verif.Proof.Links2
/-!
# Links: the code of `mxmlAdd`
-/
namespace Afs.Links
open Afs Afs.Spec

/-- A root `n` about to become a child of `p` (whose children are `l ++ r`). -/
structure Ready (h : Heap) (kids : Nat → List Nat) (p n : Nat) (c : Cell) (l r : List Nat) : Prop where
  L : Linked h kids
  hn : h n = some c
  root : c.parent = none
  hp : h p ≠ none
  nb : ¬ Below kids n p
  eq : kids p = l ++ r

namespace Ready
variable {h : Heap} {kids : Nat → List Nat} {p n : Nat} {c : Cell} {l r : List Nat}

theorem nomem (R : Ready h kids p n c l r) (q : Nat) : n ∉ kids q := by
  intro hm
  obtain ⟨d, hd, h'⟩ := R.L.parent q n hm
  rw [R.hn] at hd
  cases hd
  rw [R.root] at h'
  cases h'

theorem pn (R : Ready h kids p n c l r) : p ≠ n := fun e => R.nb (e ▸ .self)

theorem kid (R : Ready h kids p n c l r) {x : Nat} (hx : x ∈ kids p) :
    h x ≠ none ∧ x ≠ n ∧ x ≠ p := by
  obtain ⟨d, hd, _⟩ := R.L.parent p x hx
  exact ⟨by simp [hd], fun e => R.nomem p (e ▸ hx), fun e => R.L.self_not_mem p (e ▸ hx)⟩

theorem left (R : Ready h kids p n c l r) {x : Nat} (hx : l.getLast? = some x) : x ∈ kids p := by
  rw [R.eq]; exact List.mem_append_left _ (List.mem_of_getLast? hx)

theorem right (R : Ready h kids p n c l r) {x : Nat} (hx : r.head? = some x) : x ∈ kids p := by
  rw [R.eq]; exact List.mem_append_right _ (List.mem_of_head? hx)

end Ready

/-- `node->parent = parent` (mxml-node.c:84). -/
abbrev withParent (h : Heap) (p n : Nat) : Heap := mod h n (fun d => { d with parent := some p })

theorem withParent_get {h : Heap} {p n x : Nat} (hx : x ≠ n) : withParent h p n x = h x := by
  simp [mod, hx]

theorem addAfter_end {h : Heap} {kids : Nat → List Nat} {p n : Nat} {c : Cell} {child : Option Nat}
    (R : Ready h kids p n c (kids p) [])
    (he : atEdge (withParent h p n) p child (kids p).getLast? = .ok true) :
    addAfter (withParent h p n) p child n = .ok (link h p n (kids p) []) := by
  obtain ⟨pc, hpc⟩ := Option.ne_none_iff_exists'.mp R.hp
  have hpl := (R.L.child p pc hpc).2
  have hroot := R.L.root n c R.hn R.root
  have pn := R.pn
  have g1 : get (withParent h p n) p = .ok pc := get_ok (by rw [withParent_get pn]; exact hpc)
  unfold addAfter
  simp only [g1, Res.ok_bind, hpl, he, if_true]
  rw [upd_mod (mod_alloc.mpr (by simp [R.hn])), Res.ok_bind,
    get_ok (c := pc) (by simp [mod, pn, hpc]), Res.ok_bind, hpl]
  cases q : (kids p).getLast? with
  | none =>
    have e : kids p = [] := by simpa using q
    simp only [Option.isSome_none, Bool.false_eq_true, if_false]
    rw [upd_mod (mod_alloc.mpr (mod_alloc.mpr R.hp)), Res.ok_bind,
      upd_mod (mod_alloc.mpr (mod_alloc.mpr (mod_alloc.mpr R.hp)))]
    congr 1
    funext x
    by_cases xn : x = n
    · subst xn; simp [link, mod, Ne.symm pn, R.hn, hroot, q]
    · by_cases xp : x = p
      · subst xp; simp [link, mod, xn, hpc, e]
      · simp [link, mod, xn, xp, q]
  | some z =>
    have hz := R.left q
    have k := R.kid hz
    have e : kids p ≠ [] := by intro e; simp [e] at hz
    simp only [Option.isSome_some, if_true]
    rw [upd_mod (mod_alloc.mpr (mod_alloc.mpr k.1)), Res.ok_bind,
      upd_mod (mod_alloc.mpr (mod_alloc.mpr (mod_alloc.mpr R.hp)))]
    congr 1
    funext x
    by_cases xn : x = n
    · subst xn; simp [link, mod, Ne.symm pn, R.hn, hroot, q, Ne.symm k.2.1]
    · by_cases xp : x = p
      · subst xp; simp [link, mod, xn, hpc, e, q, Ne.symm k.2.2, k.2.2]
      · by_cases xz : x = z
        · subst xz; simp [link, mod, xn, xp, q]
        · simp [link, mod, xn, xp, q, xz, Ne.symm xz]

theorem addBefore_front {h : Heap} {kids : Nat → List Nat} {p n : Nat} {c : Cell} {child : Option Nat}
    (R : Ready h kids p n c [] (kids p))
    (he : atEdge (withParent h p n) p child (kids p).head? = .ok true) :
    addBefore (withParent h p n) p child n = .ok (link h p n [] (kids p)) := by
  obtain ⟨pc, hpc⟩ := Option.ne_none_iff_exists'.mp R.hp
  have hpl := (R.L.child p pc hpc).1
  have hroot := R.L.root n c R.hn R.root
  have pn := R.pn
  have g1 : get (withParent h p n) p = .ok pc := get_ok (by rw [withParent_get pn]; exact hpc)
  unfold addBefore
  simp only [g1, Res.ok_bind, hpl, he, if_true]
  rw [upd_mod (mod_alloc.mpr (by simp [R.hn])), Res.ok_bind,
    get_ok (c := pc) (by simp [mod, pn, hpc]), Res.ok_bind, hpl]
  cases q : (kids p).head? with
  | none =>
    have e : kids p = [] := by simpa using q
    simp only [Option.isSome_none, Bool.false_eq_true, if_false]
    rw [upd_mod (mod_alloc.mpr (mod_alloc.mpr R.hp)), Res.ok_bind,
      upd_mod (mod_alloc.mpr (mod_alloc.mpr (mod_alloc.mpr R.hp)))]
    congr 1
    funext x
    by_cases xn : x = n
    · subst xn; simp [link, mod, Ne.symm pn, R.hn, hroot, q]
    · by_cases xp : x = p
      · subst xp; simp [link, mod, xn, hpc, e]
      · simp [link, mod, xn, xp, q]
  | some z =>
    have hz := R.right q
    have k := R.kid hz
    have e : kids p ≠ [] := by intro e; simp [e] at hz
    simp only [Option.isSome_some, if_true]
    rw [upd_mod (mod_alloc.mpr (mod_alloc.mpr k.1)), Res.ok_bind,
      upd_mod (mod_alloc.mpr (mod_alloc.mpr (mod_alloc.mpr R.hp)))]
    congr 1
    funext x
    by_cases xn : x = n
    · subst xn; simp [link, mod, Ne.symm pn, R.hn, hroot, q, Ne.symm k.2.1]
    · by_cases xp : x = p
      · subst xp; simp [link, mod, xn, hpc, e, q, Ne.symm k.2.2, k.2.2]
      · by_cases xz : x = z
        · subst xz; simp [link, mod, xn, xp, q]
        · simp [link, mod, xn, xp, q, xz, Ne.symm xz]

theorem addAfter_mid {h : Heap} {kids : Nat → List Nat} {p n z : Nat} {c : Cell} {l r : List Nat}
    (R : Ready h kids p n c l r) (hz : l.getLast? = some z) (hr : r ≠ [])
    (he : ∀ e, (kids p).getLast? = e → atEdge (withParent h p n) p (some z) e = .ok false) :
    addAfter (withParent h p n) p (some z) n = .ok (link h p n l r) := by
  obtain ⟨pc, hpc⟩ := Option.ne_none_iff_exists'.mp R.hp
  have hpl := (R.L.child p pc hpc).2
  have hroot := R.L.root n c R.hn R.root
  have pn := R.pn
  have k := R.kid (R.left hz)
  obtain ⟨zc, hzc⟩ := Option.ne_none_iff_exists'.mp k.1
  have hl : l ≠ [] := by intro e; simp [e] at hz
  have hd : (l ++ r).Nodup := R.eq ▸ R.L.nodup p
  have hnx : zc.next = r.head? := by
    rw [(R.L.sibling p z zc (R.left hz) hzc).1, R.eq]
    exact nextIn_cut l r z hd hz
  have g1 : get (withParent h p n) p = .ok pc := get_ok (by rw [withParent_get pn]; exact hpc)
  unfold addAfter
  simp only [g1, Res.ok_bind, he _ hpl.symm, Bool.false_eq_true, if_false, deref]
  rw [upd_mod (mod_alloc.mpr (by simp [R.hn])), Res.ok_bind,
    get_ok (c := zc) (by simp [mod, k.2.1, hzc]), Res.ok_bind,
    upd_mod (mod_alloc.mpr (mod_alloc.mpr (by simp [R.hn]))), Res.ok_bind,
    get_ok (c := zc) (by simp [mod, k.2.1, hzc]), Res.ok_bind, hnx]
  cases q : r.head? with
  | none => exact absurd (by simpa using q) hr
  | some s =>
    have ks := R.kid (R.right q)
    have zs : z ≠ s := by
      intro e
      subst e
      rw [List.nodup_append] at hd
      exact hd.2.2 z (List.mem_of_getLast? hz) z (List.mem_of_head? q) rfl
    simp only [Option.isSome_some, if_true]
    rw [upd_mod (mod_alloc.mpr (mod_alloc.mpr (mod_alloc.mpr ks.1))), Res.ok_bind,
      upd_mod (mod_alloc.mpr (mod_alloc.mpr (mod_alloc.mpr (mod_alloc.mpr k.1))))]
    congr 1
    funext x
    by_cases xn : x = n
    · subst xn; simp [link, mod, Ne.symm pn, R.hn, hz, q, Ne.symm k.2.1, Ne.symm ks.2.1]
    · by_cases xz : x = z
      · subst xz; simp [link, mod, xn, hz, q, k.2.2, zs, Ne.symm zs]
      · by_cases xs : x = s
        · subst xs; simp [link, mod, xn, hz, q, ks.2.2, zs, Ne.symm zs]
        · simp [link, mod, xn, hz, q, xs, xz, Ne.symm xs, Ne.symm xz, hl, hr]

theorem addBefore_mid {h : Heap} {kids : Nat → List Nat} {p n z : Nat} {c : Cell} {l r : List Nat}
    (R : Ready h kids p n c l r) (hz : r.head? = some z) (hl : l ≠ [])
    (he : ∀ e, (kids p).head? = e → atEdge (withParent h p n) p (some z) e = .ok false) :
    addBefore (withParent h p n) p (some z) n = .ok (link h p n l r) := by
  obtain ⟨pc, hpc⟩ := Option.ne_none_iff_exists'.mp R.hp
  have hpl := (R.L.child p pc hpc).1
  have hroot := R.L.root n c R.hn R.root
  have pn := R.pn
  have k := R.kid (R.right hz)
  obtain ⟨zc, hzc⟩ := Option.ne_none_iff_exists'.mp k.1
  have hr : r ≠ [] := by intro e; simp [e] at hz
  have hd : (l ++ r).Nodup := R.eq ▸ R.L.nodup p
  have hpv : zc.prev = l.getLast? := by
    rw [(R.L.sibling p z zc (R.right hz) hzc).2, R.eq]
    exact prevIn_cut l r z hd hz
  have g1 : get (withParent h p n) p = .ok pc := get_ok (by rw [withParent_get pn]; exact hpc)
  unfold addBefore
  simp only [g1, Res.ok_bind, he _ hpl.symm, Bool.false_eq_true, if_false, deref]
  rw [upd_mod (mod_alloc.mpr (by simp [R.hn])), Res.ok_bind,
    get_ok (c := zc) (by simp [mod, k.2.1, hzc]), Res.ok_bind,
    upd_mod (mod_alloc.mpr (mod_alloc.mpr (by simp [R.hn]))), Res.ok_bind,
    get_ok (c := zc) (by simp [mod, k.2.1, hzc]), Res.ok_bind, hpv]
  cases q : l.getLast? with
  | none => exact absurd (by simpa using q) hl
  | some s =>
    have ks := R.kid (R.left q)
    have zs : z ≠ s := by
      intro e
      subst e
      rw [List.nodup_append] at hd
      exact hd.2.2 z (List.mem_of_getLast? q) z (List.mem_of_head? hz) rfl
    simp only [Option.isSome_some, if_true]
    rw [upd_mod (mod_alloc.mpr (mod_alloc.mpr (mod_alloc.mpr ks.1))), Res.ok_bind,
      upd_mod (mod_alloc.mpr (mod_alloc.mpr (mod_alloc.mpr (mod_alloc.mpr k.1))))]
    congr 1
    funext x
    by_cases xn : x = n
    · subst xn; simp [link, mod, Ne.symm pn, R.hn, hz, q, Ne.symm k.2.1, Ne.symm ks.2.1]
    · by_cases xz : x = z
      · subst xz; simp [link, mod, xn, hz, q, k.2.2, zs, Ne.symm zs]
      · by_cases xs : x = s
        · subst xs; simp [link, mod, xn, hz, q, ks.2.2, zs, Ne.symm zs]
        · simp [link, mod, xn, hz, q, xs, xz, Ne.symm xs, Ne.symm xz, hl, hr]

end Afs.Links
