import Verif.Proof.Strings4
/-!
# Sequences of calls and memory (C72)
-/
namespace Afs.Strings
open Afs Afs.Xml Afs.Spec.Strings

/-- The blocks of an object. -/
def objCells : Option (Kind × Strs) → Option Val → Blocks
  | some x, some v => own x.2 v.text + tagCells x.2.tags v.tags
  | _, _ => 0

/-- An object and a value fit. -/
def ObjOk : Option (Kind × Strs) → Option Val → Prop
  | none, none => True
  | some x, some v => x.1 = v.kind ∧ (∀ f, Ok (x.2.at' f) (v.text f)) ∧ TagsOk x.2.tags v.tags
  | _, _ => False

/-- The blocks of all objects. -/
def total : Objs → List (Option Val) → Blocks
  | x :: o, v :: vs => objCells x v + total o vs
  | _, _ => 0

/-- Objects and values fit, and these are the blocks in use. -/
def WSt (o : Objs) (w : World) (Q : Blocks) : Prop :=
  List.Forall₂ ObjOk o w.objs ∧ ∃ L : Blocks, L.map Prod.snd = (w.lost : Multiset Block) ∧ Q = total o w.objs + L

theorem total_append : ∀ {o : Objs} {vs : List (Option Val)}, List.Forall₂ ObjOk o vs → ∀ x v,
    total (o ++ [x]) (vs ++ [v]) = objCells x v + total o vs
  | _, _, .nil, x, v => by simp [total]
  | _, _, .cons _ h, x, v => by
    simp only [List.cons_append, total, total_append h x v]
    ac_rfl

theorem forall₂_snoc : ∀ {o : Objs} {vs : List (Option Val)}, List.Forall₂ ObjOk o vs → ∀ {x v}, ObjOk x v →
    List.Forall₂ ObjOk (o ++ [x]) (vs ++ [v])
  | _, _, .nil, _, _, h => .cons h .nil
  | _, _, .cons h1 h2, _, _, h => .cons h1 (forall₂_snoc h2 h)

/-- One object and the rest. -/
theorem focus : ∀ {o : Objs} {vs : List (Option Val)}, List.Forall₂ ObjOk o vs → ∀ {i : Nat} {v : Val}, (vs[i]?).join = some v →
    ∃ s, o[i]? = some (some (v.kind, s)) ∧ (∀ f, Ok (s.at' f) (v.text f)) ∧ TagsOk s.tags v.tags ∧
      ∃ R, total o vs = own s v.text + tagCells s.tags v.tags + R ∧
        ∀ x y, total (o.set i x) (vs.set i y) = objCells x y + R
  | _, _, .nil, i, v, h => by simp at h
  | x :: o, y :: vs, .cons h1 h2, 0, v, h => by
    have hy : y = some v := by simpa using h
    subst hy
    cases x with
    | none => exact h1.elim
    | some x =>
      obtain ⟨k, s⟩ := x
      obtain ⟨hk, hok, ht⟩ := h1
      have hk' : k = v.kind := hk
      subst hk'
      exact ⟨s, rfl, hok, ht, total o vs, rfl, fun x y => rfl⟩
  | x :: o, y :: vs, .cons h1 h2, i + 1, v, h => by
    have h' : (vs[i]?).join = some v := by simpa using h
    obtain ⟨s, hs, hok, ht, R, hR, hset⟩ := focus h2 h'
    refine ⟨s, by simpa using hs, hok, ht, objCells x y + R, ?_, ?_⟩
    · simp only [total, hR]
      ac_rfl
    · intro x' y'
      simp only [List.set_cons_succ, total, hset]
      ac_rfl

theorem forall₂_set : ∀ {o : Objs} {vs : List (Option Val)}, List.Forall₂ ObjOk o vs → ∀ (i : Nat) {x y}, ObjOk x y →
    List.Forall₂ ObjOk (o.set i x) (vs.set i y)
  | _, _, .nil, _, _, _, _ => .nil
  | _, _, .cons _ h2, 0, _, _, h => .cons h h2
  | _, _, .cons h1 h2, i + 1, _, _, h => .cons h1 (forall₂_set h2 i h)

theorem theObj_does {o : Objs} {i : Nat} {x : Kind × Strs} (h : o[i]? = some (some x)) (Q : Blocks) :
    Does (theObj o i) Q (fun r Q' => r = x ∧ Q' = Q) := by
  unfold theObj
  rw [h]
  exact Does.pure ⟨rfl, rfl⟩

/-! ### Arguments -/

/-- The address behind an argument. -/
def ref (o : Objs) : CallArg → Arg
  | .null => .null
  | .outside b => .outside b
  | .member i f => match o[i]? with
    | some (some x) => .ofPtr (x.2.at' f)
    | _ => .null

theorem ref_member {o : Objs} {i : Nat} {x : Kind × Strs} (f : Field) (h : o[i]? = some (some x)) :
    ref o (.member i f) = .ofPtr (x.2.at' f) := by
  show (match o[i]? with | some (some x) => Arg.ofPtr (x.2.at' f) | _ => .null) = _
  rw [h]

theorem arg_member {w : World} {i : Nat} {f : Field} {t : Option Bytes} (h : w.arg (.member i f) = some t) :
    ∃ v, w.obj i = some v ∧ owner f = v.kind ∧ t = v.text f := by
  have h' : (match w.obj i with | none => none | some v => if owner f = v.kind then some (v.text f) else none) = some t := h
  cases hv : w.obj i with
  | none => rw [hv] at h'; cases h'
  | some v =>
    rw [hv] at h'
    dsimp only at h'
    by_cases ho : owner f = v.kind
    · rw [if_pos ho] at h'
      cases h'
      exact ⟨v, rfl, ho, rfl⟩
    · rw [if_neg ho] at h'
      cases h'

theorem argOf_does {o : Objs} {w : World} (h : List.Forall₂ ObjOk o w.objs) {a : CallArg} {t : Option Bytes} (ha : w.arg a = some t)
    (Q : Blocks) : Does (argOf o a) Q (fun r Q' => r = ref o a ∧ Q' = Q) := by
  cases a with
  | null => exact Does.pure ⟨rfl, rfl⟩
  | outside b => exact Does.pure ⟨rfl, rfl⟩
  | member i f =>
    obtain ⟨v, hv, _, _⟩ := arg_member ha
    obtain ⟨s, hs, _⟩ := focus h hv
    refine Does.bind (theObj_does hs Q) ?_
    rintro _ _ ⟨rfl, rfl⟩
    exact Does.pure ⟨(ref_member f hs).symm, rfl⟩

/-- The text of an argument is in the blocks of the objects. -/
theorem ref_is {o : Objs} {w : World} (h : List.Forall₂ ObjOk o w.objs) {a : CallArg} {t : Option Bytes} (ha : w.arg a = some t) :
    ArgIs (ref o a) t (total o w.objs) := by
  cases a with
  | null => cases ha; exact True.intro
  | outside b => cases ha; rfl
  | member i f =>
    obtain ⟨v, hv, _, rfl⟩ := arg_member ha
    obtain ⟨s, hs, hok, _, R, hR, _⟩ := focus h hv
    rw [ref_member f hs, hR, own_eq s v.text f]
    exact argIs_ptr (hok f) (by rw [add_assoc, add_assoc]; exact Multiset.le_add_right _ _)

/-- The text of an argument is not in the member that is set, if it is another one. -/
theorem ref_other {o : Objs} {w : World} (h : List.Forall₂ ObjOk o w.objs) {a : CallArg} {t : Option Bytes} (ha : w.arg a = some t)
    {i : Nat} {v : Val} (hv : w.obj i = some v) {f : Field} (hne : a ≠ .member i f) {s : Strs} (hs : o[i]? = some (some (v.kind, s)))
    {R : Blocks} (hset : ∀ x y, total (o.set i x) (w.objs.set i y) = objCells x y + R) :
    ArgIs (ref o a) t (others s v.text f + tagCells s.tags v.tags + R) := by
  cases a with
  | null => cases ha; exact True.intro
  | outside b => cases ha; rfl
  | member j g =>
    by_cases hj : j = i
    · subst hj
      have hg : g ≠ f := fun e => hne (by rw [e])
      obtain ⟨v', hv', _, rfl⟩ := arg_member ha
      rw [hv] at hv'
      cases hv'
      rw [ref_member g hs]
      obtain ⟨s', hs', hok, _⟩ := focus h hv
      rw [hs] at hs'
      cases hs'
      refine argIs_ptr (hok g) ?_
      rw [add_assoc]
      refine le_trans ?_ (Multiset.le_add_right _ _)
      unfold others
      have hmem : g ∈ allFields.erase f := (List.mem_erase_of_ne hg).mpr (mem_allFields g)
      rw [← List.sum_map_erase (fun f => cell (s.at' f) (v.text f)) hmem]
      exact Multiset.le_add_right _ _
    · have h' := forall₂_set h i (x := none) (y := none) True.intro
      obtain ⟨v', hv', ho, rfl⟩ := arg_member ha
      have hv2 : ((w.objs.set i none)[j]?).join = some v' := by
        rw [List.getElem?_set, if_neg (fun e => hj e.symm)]
        exact hv'
      obtain ⟨s', hs', hok, _, R', hR', _⟩ := focus h' hv2
      have hs2 : o[j]? = some (some (v'.kind, s')) := by
        rw [← hs', List.getElem?_set, if_neg (fun e => hj e.symm)]
      rw [ref_member g hs2]
      refine argIs_ptr (hok g) ?_
      rw [hset] at hR'
      have hR2 : R = own s' v'.text + tagCells s'.tags v'.tags + R' := by
        rw [← hR']
        exact (zero_add R).symm
      rw [hR2, own_eq s' v'.text g]
      have e : others s v.text f + tagCells s.tags v.tags + (cell (s'.at' g) (v'.text g) + others s' v'.text g +
          tagCells s'.tags v'.tags + R') = cell (s'.at' g) (v'.text g) + (others s v.text f + tagCells s.tags v.tags +
          (others s' v'.text g + tagCells s'.tags v'.tags + R')) := by ac_rfl
      rw [e]
      exact Multiset.le_add_right _ _

/-! ### Constructors and clones -/

/-- Some texts replaced. -/
def over (x : Field → Option Bytes) (fs : List Field) (t : Field → Option Bytes) : Field → Option Bytes :=
  fun f => if f ∈ fs then x f else t f

theorem copyFields_does {as : Field → Arg} {x : Field → Option Bytes} {P : Blocks} : ∀ (fs : List Field) (s : Strs) (t : Field → Option Bytes),
    fs.Nodup → (∀ f ∈ fs, ArgIs (as f) (x f) P) → (∀ f, Ok (s.at' f) (t f)) → (∀ f ∈ fs, t f = none) →
    Does (copyFields as fs s) (own s t + P)
      (fun s' Q => s'.tags = s.tags ∧ (∀ f, Ok (s'.at' f) (over x fs t f)) ∧ Q = own s' (over x fs t) + P)
  | [], s, t, _, _, hok, _ => Does.pure ⟨rfl, by simpa [over] using hok, by unfold over; simp⟩
  | f :: fs, s, t, hnd, has, hok, hn => by
    refine Does.bind (clone_does ((has f (by simp)).mono (Multiset.le_add_left _ _))) ?_
    rintro q _ ⟨hq, rfl⟩
    have hnd' := List.nodup_cons.mp hnd
    have e : cell q (x f) + (own s t + P) = own (s.set f q) (upd t f (x f)) + P := by
      rw [own_set, own_eq s t f, hn f (by simp), cell_none_right, zero_add, add_assoc]
    rw [e]
    refine (copyFields_does fs (s.set f q) (upd t f (x f)) hnd'.2 (fun g hg => has g (by simp [hg])) (ok_set hok hq) ?_).mono ?_
    · intro g hg
      have hne : g ≠ f := fun e => hnd'.1 (e ▸ hg)
      simp only [upd, hne, if_false]
      exact hn g (by simp [hg])
    · rintro s' Q ⟨h1, h2, h3⟩
      have eo : over x fs (upd t f (x f)) = over x (f :: fs) t := by
        funext g
        unfold over upd
        by_cases hg : g = f
        · subst hg
          simp
        · simp [hg]
      rw [eo] at h2 h3
      exact ⟨h1, h2, h3⟩

theorem own_empty : own empty (fun _ => none) = 0 := by
  unfold own
  simp [empty, allFields]

theorem mem_copied (k : Kind) (f : Field) : f ∈ copied k ↔ owner f = k := by
  cases k <;> cases f <;> decide

theorem nodup_copied (k : Kind) : (copied k).Nodup := by
  cases k <;> decide

/-- Making an object from arguments. -/
theorem fresh_does {as : Field → Arg} {x : Field → Option Bytes} {P : Blocks} (k : Kind)
    (has : ∀ f, owner f = k → ArgIs (as f) (x f) P) :
    Does (copyFields as (copied k) empty) P (fun s Q => s.tags = none ∧
      (∀ f, Ok (s.at' f) (if owner f = k then x f else none)) ∧ Q = own s (fun f => if owner f = k then x f else none) + P) := by
  have h := copyFields_does (copied k) empty (fun _ => none) (nodup_copied k) (fun f hf => has f ((mem_copied k f).mp hf))
    (fun f => rfl) (fun f _ => rfl)
  rw [own_empty, zero_add] at h
  refine h.mono ?_
  rintro s Q ⟨h1, h2, h3⟩
  have eo : over x (copied k) (fun _ => none) = fun f => if owner f = k then x f else none := by
    funext f
    unfold over
    simp only [mem_copied]
  rw [eo] at h2 h3
  exact ⟨h1, h2, h3⟩

theorem make_text (x : Field → Option Bytes) (tg : Option (List Bytes)) (k : Kind) :
    (make x tg k).text = (fun f => if owner f = k then x f else none) ∧ (make x tg k).kind = k ∧
      (make x tg k).tags = (if k = .metaSource then tg else none) := by
  refine ⟨?_, ?_, ?_⟩
  · funext f
    cases k <;> cases f <;> rfl
  · cases k <;> rfl
  · cases k <;> rfl

theorem argsOf_does {o : Objs} {w : World} (h : List.Forall₂ ObjOk o w.objs) {args : Field → CallArg} (Q : Blocks) : ∀ (fs : List Field),
    (∀ f ∈ fs, (w.arg (args f)).isSome) →
    Does (argsOf o args fs) Q (fun as Q' => (∀ f ∈ fs, as f = ref o (args f)) ∧ Q' = Q)
  | [], _ => Does.pure ⟨by simp, rfl⟩
  | f :: fs, hs => by
    obtain ⟨t, ht⟩ := Option.isSome_iff_exists.mp (hs f (by simp))
    refine Does.bind (argOf_does h ht Q) ?_
    rintro _ _ ⟨rfl, rfl⟩
    refine Does.bind (argsOf_does h _ fs (fun g hg => hs g (by simp [hg]))) ?_
    rintro r _ ⟨hr, rfl⟩
    refine Does.pure ⟨?_, rfl⟩
    intro g hg
    by_cases hgf : g = f
    · subst hgf
      simp
    · simp only [hgf, if_false]
      exact hr g (by simpa [hgf] using hg)

/-- A new object among the others. -/
theorem wst_add {o : Objs} {w : World} {Q : Blocks} (h : WSt o w Q) {k : Kind} {s : Strs} {v : Val} (hk : k = v.kind)
    (hok : ∀ f, Ok (s.at' f) (v.text f)) (ht : TagsOk s.tags v.tags) :
    WSt (o ++ [some (k, s)]) (w.add v) (own s v.text + tagCells s.tags v.tags + Q) := by
  obtain ⟨hf, L, hL, rfl⟩ := h
  refine ⟨forall₂_snoc hf ⟨hk, hok, ht⟩, L, hL, ?_⟩
  unfold World.add
  rw [total_append hf]
  simp only [objCells]
  ac_rfl

/-- An object changed among the others. -/
theorem wst_put {o : Objs} {w : World} (h : List.Forall₂ ObjOk o w.objs) {i : Nat} {R : Blocks}
    (hset : ∀ x y, total (o.set i x) (w.objs.set i y) = objCells x y + R) {k : Kind} {s : Strs} {v : Val} {lost : Multiset Block}
    {l : List Block} {Q : Blocks} (hk : k = v.kind) (hst : St s v.text v.tags lost Q) (hl : lost = (w.lost ++ l : List Block)) :
    WSt (o.set i (some (k, s))) (w.put i (some v) l) (Q + R) := by
  obtain ⟨hok, ht, L, hL, rfl⟩ := hst
  refine ⟨forall₂_set h i ⟨hk, hok, ht⟩, L, ?_, ?_⟩
  · rw [hL, hl]
    rfl
  · unfold World.put
    rw [hset]
    simp only [objCells]
    ac_rfl

theorem text_owner (v : Val) (f : Field) (h : owner f ≠ v.kind) : v.text f = none := by
  cases v <;> cases f <;> first | rfl | exact absurd rfl h

theorem tags_kind (v : Val) (h : v.kind ≠ .metaSource) : v.tags = none := by
  cases v <;> first | rfl | exact absurd rfl h

theorem clone_text (v : Val) : v.clone.text = v.text ∧ v.clone.kind = v.kind ∧ v.clone.tags = v.tags := by
  refine ⟨?_, ?_, ?_⟩
  · funext f
    cases v <;> cases f <;> rfl
  · cases v <;> rfl
  · cases v with
    | metaSource x =>
      show vecClone (fun t => t) x.tags = x.tags
      unfold vecClone
      cases x.tags <;> simp
    | _ => rfl

theorem copy_does {s : Strs} {v : Val} {P : Blocks} (hok : ∀ f, Ok (s.at' f) (v.text f)) (ht : TagsOk s.tags v.tags)
    (hP : own s v.text + tagCells s.tags v.tags ≤ P) :
    Does (copy v.kind s) P (fun r Q => (∀ f, Ok (r.at' f) (v.text f)) ∧ TagsOk r.tags v.tags ∧
      Q = own r v.text + tagCells r.tags v.tags + P) := by
  have has : ∀ f, owner f = v.kind → ArgIs (Arg.ofPtr (s.at' f)) (v.text f) P := by
    intro f _
    refine argIs_ptr (hok f) (le_trans ?_ hP)
    rw [own_eq s v.text f, add_assoc]
    exact Multiset.le_add_right _ _
  refine Does.bind (fresh_does v.kind has) ?_
  have et : (fun f => if owner f = v.kind then v.text f else none) = v.text := by
    funext f
    by_cases hf : owner f = v.kind
    · rw [if_pos hf]
    · rw [if_neg hf, text_owner v f hf]
  rintro r Q ⟨_, h2, rfl⟩
  have h2' : ∀ f, Ok (r.at' f) (v.text f) := fun f => by
    have := h2 f
    rw [show (if owner f = v.kind then v.text f else none) = v.text f from congrFun et f] at this
    exact this
  rw [et]
  refine Does.bind (copyTags_does ht (le_trans (le_trans (Multiset.le_add_left _ _) hP) (Multiset.le_add_left _ _))) ?_
  rintro q _ ⟨hq, rfl⟩
  refine Does.pure ⟨h2', hq, ?_⟩
  show _ = own r v.text + _ + _
  ac_rfl

/-! ### Destruction -/

theorem freeFields_does {s : Strs} {t : Field → Option Bytes} (hok : ∀ f, Ok (s.at' f) (t f)) (P : Blocks) : ∀ (fs : List Field),
    Does (freeFields s fs) ((fs.map fun f => cell (s.at' f) (t f)).sum + P) (fun _ Q => Q = P)
  | [] => Does.pure (by simp)
  | f :: fs => by
    rw [List.map_cons, List.sum_cons, add_assoc]
    refine Does.bind (freeOpt_does (hok f) _) ?_
    rintro _ _ rfl
    exact freeFields_does hok P fs

theorem own_freed (s : Strs) (v : Val) : own s v.text = ((freed v.kind).map fun f => cell (s.at' f) (v.text f)).sum := by
  unfold own
  cases v <;> simp [allFields, freed, Val.kind, Val.text]

theorem destroy_does {s : Strs} {v : Val} (hok : ∀ f, Ok (s.at' f) (v.text f)) (ht : TagsOk s.tags v.tags) (P : Blocks) :
    Does (destroy v.kind s) (own s v.text + tagCells s.tags v.tags + P) (fun _ Q => Q = P) := by
  have e : own s v.text + tagCells s.tags v.tags + P = tagCells s.tags v.tags + (own s v.text + P) := by ac_rfl
  rw [e]
  refine Does.bind (freeTags_does ht _) ?_
  rintro _ _ rfl
  rw [own_freed]
  exact freeFields_does hok P _

/-! ### Setters -/

theorem set_text {v v' : Val} {f : Field} {t : Option Bytes} (h : v.set f t = some v') :
    v'.kind = v.kind ∧ v'.tags = v.tags ∧
      v'.text = if v.kind = .source ∧ nullOrEmpty t = true then v.text else upd v.text f t := by
  cases v <;> cases f <;> first
    | (cases h; done)
    | (cases h
       refine ⟨rfl, rfl, ?_⟩
       rw [if_neg (by rintro ⟨h, _⟩; cases h)]
       funext g
       cases g <;> rfl)
    | (cases h
       refine ⟨rfl, rfl, ?_⟩
       cases hn : nullOrEmpty t
       · rw [if_neg (by rintro ⟨_, h⟩; cases h)]
         funext g
         cases g <;> simp [Val.text, FileMetaSource.setData, FileMetaSource.setFormatId, hn, upd, strClone]
       · rw [if_pos ⟨rfl, rfl⟩]
         funext g
         cases g <;> simp [Val.text, FileMetaSource.setData, FileMetaSource.setFormatId, hn])

theorem setTags_val {v v' : Val} {t : Option Bytes} (h : v.setTags t = some v') :
    v'.kind = v.kind ∧ v'.text = v.text ∧ v'.tags = setTagsTo v.tags t := by
  cases v with
  | metaSource x =>
    cases h
    obtain ⟨e1, e2, e3, _⟩ := setTags_tags x t
    refine ⟨rfl, ?_, e1⟩
    funext f
    cases f <;> first | rfl | exact e2 | exact e3
  | _ => cases h

end Afs.Strings
