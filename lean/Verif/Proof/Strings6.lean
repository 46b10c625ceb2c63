import Verif.Proof.Strings5
/-!
# Sequences of calls and memory (C72), the calls
-/
namespace Afs.Strings
open Afs Afs.Xml Afs.Spec.Strings

theorem bind_assoc' {α β γ : Type} (p : M α) (f : α → M β) (g : β → M γ) : (p >>= f) >>= g = p >>= fun a => f a >>= g := by
  funext m
  show (match (match p m with | .ub => Res.ub | .ok (a, m1) => f a m1) with | .ub => Res.ub | .ok (b, m2) => g b m2) =
    (match p m with | .ub => Res.ub | .ok (a, m1) => (match f a m1 with | .ub => Res.ub | .ok (b, m2) => g b m2))
  cases p m with
  | ub => rfl
  | ok r => rfl

theorem bind_ok {α β : Type} {p : M α} {k : α → M β} {m m' : Mem} {a : α} (h : p m = .ok (a, m')) : (p >>= k) m = k a m' := by
  show (match p m with | .ub => Res.ub | .ok (a, m1) => k a m1) = _
  rw [h]

theorem bind_ub {α β : Type} {p : M α} {k : α → M β} {m : Mem} (h : p m = .ub) : (p >>= k) m = .ub := by
  show (match p m with | .ub => Res.ub | .ok (a, m1) => k a m1) = _
  rw [h]

/-- Blocks of an object, in the form used for loaders. -/
theorem st_of {s : Strs} {v : Val} {L : Blocks} {lost : List Block} (hok : ∀ f, Ok (s.at' f) (v.text f)) (ht : TagsOk s.tags v.tags)
    (hL : L.map Prod.snd = (lost : Multiset Block)) : St s v.text v.tags lost (own s v.text + tagCells s.tags v.tags + L) :=
  ⟨hok, ht, L, hL, rfl⟩

theorem load_kind {v v' : Val} {n : Node} {b : Bool} (h : v.load n = .ok (b, v')) : v'.kind = v.kind := by
  cases v with
  | toc x =>
    simp only [Val.load] at h
    cases hx : x.loadXml n with
    | ub => rw [hx] at h; cases h
    | ok r => rw [hx] at h; cases h; rfl
  | _ => cases h; rfl

/-- Loading an object among the others. -/
theorem loadObj_does {α : Type} {o : Objs} {w : World} {Q : Blocks} (h : WSt o w Q) {i : Nat} {v v' : Val} {n : Node} {b : Bool}
    (hv : w.obj i = some v) (hl : v.load n = .ok (b, v')) {k : Kind × Strs → Bool × Strs → M α} {R : α → Blocks → Prop}
    (G : Blocks) (hk : ∀ x r Q', x.1 = v.kind → r.1 = b → WSt (o.set i (some (x.1, r.2))) (w.put i (some v') (lostBy v n)) Q' →
      Does (k x r) (Q' + G) R) :
    ∃ x, o[i]? = some (some x) ∧ Does (load x.1 x.2 n >>= fun r => k x r) (Q + G) R := by
  obtain ⟨hf, L, hL, rfl⟩ := h
  obtain ⟨s, hs, hok, ht, R', hR, hset⟩ := focus hf hv
  refine ⟨_, hs, ?_⟩
  rw [hR]
  have e : own s v.text + tagCells s.tags v.tags + R' + L + G = (own s v.text + tagCells s.tags v.tags + L) + (R' + G) := by ac_rfl
  rw [e]
  refine Does.bind ((load_loads s v n _ _ (st_of hok ht hL) b v' hl).frame (R' + G)) ?_
  rintro r _ ⟨Q', ⟨hr, hst⟩, rfl⟩
  rw [← add_assoc]
  refine hk _ r _ rfl hr ?_
  refine wst_put hf hset (load_kind hl).symm hst ?_
  rfl

theorem step_does {o : Objs} {w w' : World} {c : Call} {Q : Blocks} (h : WSt o w Q) (hs : Step w c w') :
    Does (call o c) Q (fun o' Q' => WSt o' w' Q') := by
  cases hs with
  | @create k args ha =>
    have hf := h.1
    obtain ⟨_, L, hL, rfl⟩ := id h
    refine Does.bind (argsOf_does hf _ (copied k) (fun f hfk => ha f ((mem_copied k f).mp hfk))) ?_
    rintro as _ ⟨has, rfl⟩
    unfold create
    have hargs : ∀ f, owner f = k → ArgIs (as f) (w.args k args f) (total o w.objs + L) := by
      intro f hfk
      rw [has f ((mem_copied k f).mpr hfk)]
      obtain ⟨t, ht⟩ := Option.isSome_iff_exists.mp (ha f hfk)
      have e : w.args k args f = t := by
        unfold World.args
        rw [if_pos hfk, ht]
        rfl
      rw [e]
      exact (ref_is hf ht).mono (Multiset.le_add_right _ _)
    dsimp only
    refine Does.bind (R := fun s Q' => (∀ f, Ok (s.at' f) ((make (w.args k args) none k).text f)) ∧ s.tags = none ∧
      Q' = own s (make (w.args k args) none k).text + (total o w.objs + L)) ?_ ?_
    · refine Does.bind (fresh_does k hargs) ?_
      rintro s _ ⟨h1, h2, rfl⟩
      refine Does.bind (split_does (a := .null) (t := none) True.intro) ?_
      rintro q _ ⟨hq, rfl⟩
      cases q with
      | some q => obtain ⟨a, b⟩ := q; exact hq.elim
      | none =>
        refine Does.pure ⟨?_, rfl, ?_⟩
        · intro f
          have := h2 f
          rw [(make_text _ none k).1]
          exact this
        · rw [(make_text _ none k).1]
          simp [tagCells]
          rfl
    · rintro s _ ⟨h1, h2, rfl⟩
      have ht : (make (w.args k args) none k).tags = none := by
        rw [(make_text _ none k).2.2]
        split <;> rfl
      have h' := wst_add (k := k) h (make_text _ none k).2.1.symm h1 (by rw [h2, ht]; exact True.intro)
      rw [h2, ht, show tagCells none none = 0 from rfl, add_zero] at h'
      exact Does.pure h'
  | @createText args a t ha hat =>
    have hf := h.1
    obtain ⟨_, L, hL, rfl⟩ := id h
    refine Does.bind (argsOf_does hf _ (copied .metaSource) (fun f hfk => ha f ((mem_copied _ f).mp hfk))) ?_
    rintro as _ ⟨has, rfl⟩
    have hargs : ∀ f, owner f = .metaSource → ArgIs (as f) (w.args .metaSource args f) (total o w.objs + L) := by
      intro f hfk
      rw [has f ((mem_copied _ f).mpr hfk)]
      obtain ⟨t, ht⟩ := Option.isSome_iff_exists.mp (ha f hfk)
      have e : w.args .metaSource args f = t := by
        unfold World.args
        rw [if_pos hfk, ht]
        rfl
      rw [e]
      exact (ref_is hf ht).mono (Multiset.le_add_right _ _)
    dsimp only
    refine Does.bind (argOf_does hf hat _) ?_
    rintro _ _ ⟨rfl, rfl⟩
    unfold create
    refine Does.bind (R := fun s Q' =>
      (∀ f, Ok (s.at' f) ((make (w.args .metaSource args) (t.map (splitOn semicolon)) .metaSource).text f)) ∧
      TagsOk s.tags (t.map (splitOn semicolon)) ∧
      Q' = own s (make (w.args .metaSource args) (t.map (splitOn semicolon)) .metaSource).text + tagCells s.tags (t.map (splitOn semicolon)) +
        (total o w.objs + L)) ?_ ?_
    · refine Does.bind (fresh_does .metaSource hargs) ?_
      rintro s _ ⟨h1, h2, rfl⟩
      refine Does.bind (split_does (((ref_is hf hat).mono (Multiset.le_add_right _ L)).mono (Multiset.le_add_left _ _))) ?_
      rintro q _ ⟨hq, rfl⟩
      refine Does.pure ⟨?_, hq, ?_⟩
      · intro f
        have := h2 f
        rw [(make_text _ _ _).1]
        exact this
      · rw [(make_text _ _ _).1]
        show _ = own s _ + _ + _
        ac_rfl
    · rintro s _ ⟨h1, h2, rfl⟩
      exact Does.pure (wst_add (k := .metaSource) (v := make (w.args .metaSource args) (t.map (splitOn semicolon)) .metaSource) h rfl h1 h2)
  | @createVector args ts ha hn =>
    have hf := h.1
    obtain ⟨_, L, hL, rfl⟩ := id h
    refine Does.bind (argsOf_does hf _ (copied .metaSource) (fun f hfk => ha f ((mem_copied _ f).mp hfk))) ?_
    rintro as _ ⟨has, rfl⟩
    dsimp only
    refine Does.bind (alloc_does _ _) ?_
    rintro v _ rfl
    refine Does.bind (copyOutside_does ts _) ?_
    rintro ps _ ⟨hl, rfl⟩
    have harg : ArgIs (as .metaFormat) (w.args .metaSource args .metaFormat) (total o w.objs + L) := by
      rw [has .metaFormat (by decide)]
      obtain ⟨t, ht⟩ := Option.isSome_iff_exists.mp (ha .metaFormat rfl)
      have e : w.args .metaSource args .metaFormat = t := by
        unfold World.args
        rw [if_pos (by rfl), ht]
        rfl
      rw [e]
      exact (ref_is hf ht).mono (Multiset.le_add_right _ _)
    unfold createWith
    refine Does.bind (R := fun s Q' =>
      (∀ f, Ok (s.at' f) ((make (w.args .metaSource args) (some ts) .metaSource).text f)) ∧ TagsOk s.tags (some ts) ∧
      Q' = own s (make (w.args .metaSource args) (some ts) .metaSource).text + tagCells s.tags (some ts) + (total o w.objs + L)) ?_ ?_
    · refine Does.bind (clone_does (harg.mono ?_)) ?_
      · rw [Multiset.add_cons]
        exact le_trans (Multiset.le_add_left _ _) (Multiset.le_cons_self _ _)
      · rintro q _ ⟨hq, rfl⟩
        have et : (make (w.args .metaSource args) (some ts) .metaSource).text =
            upd (fun _ => none) .metaFormat (w.args .metaSource args .metaFormat) := by
          have hd : w.args .metaSource args .metaData = none := by
            unfold World.args
            rw [if_pos (by rfl), hn]
            rfl
          rw [(make_text _ _ _).1]
          funext f
          cases f <;> first | rfl | exact hd
        rw [et]
        refine Does.pure ⟨ok_set (s := empty) (t := fun _ => none) (fun f => rfl) hq, hl, ?_⟩
        have eo : own (Strs.set empty .metaFormat q) (upd (fun _ => none) .metaFormat (w.args .metaSource args .metaFormat)) =
            cell q (w.args .metaSource args .metaFormat) := by
          rw [own_set]
          have := own_eq empty (fun _ => none) .metaFormat
          rw [own_empty] at this
          simp only [cell_none_right, zero_add] at this
          rw [← this, add_zero]
        show _ = own (Strs.set empty .metaFormat q) _ + ((v, Block.other) ::ₘ (ps.zip (ts.map Block.text) : List (Nat × Block))) + _
        rw [eo, Multiset.add_cons, Multiset.add_cons, Multiset.add_cons, Multiset.cons_add, add_assoc]
    · rintro s _ ⟨h1, h2, rfl⟩
      exact Does.pure (wst_add (k := .metaSource) (v := make (w.args .metaSource args) (some ts) .metaSource) h rfl h1 h2)
  | @clone i v hv =>
    obtain ⟨hf, L, hL, rfl⟩ := id h
    obtain ⟨s, hs, hok, ht, R, hR, hset⟩ := focus hf hv
    refine Does.bind (theObj_does hs _) ?_
    rintro _ _ ⟨rfl, rfl⟩
    refine Does.bind (copy_does hok ht (by rw [hR, add_assoc]; exact Multiset.le_add_right _ _)) ?_
    rintro r _ ⟨h1, h2, rfl⟩
    have hc := clone_text v
    have h' := wst_add (k := v.kind) (v := v.clone) h hc.2.1.symm (by rw [hc.1]; exact h1) (by rw [hc.2.2]; exact h2)
    rw [hc.1, hc.2.2] at h'
    exact Does.pure h'
  | @set i f a v v' t hv ha hne hvs =>
    obtain ⟨hf, L, hL, rfl⟩ := id h
    obtain ⟨s, hs, hok, ht, R, hR, hset⟩ := focus hf hv
    refine Does.bind (theObj_does hs _) ?_
    rintro _ _ ⟨rfl, rfl⟩
    refine Does.bind (argOf_does hf ha _) ?_
    rintro _ _ ⟨rfl, rfl⟩
    obtain ⟨hk, htg, htx⟩ := set_text hvs
    have harg : ArgIs (ref o a) t (others s v.text f + tagCells s.tags v.tags + R + L) :=
      (ref_other hf ha hv hne hs hset).mono (Multiset.le_add_right _ _)
    have e0 : total o w.objs + L = cell (s.at' f) (v.text f) + (others s v.text f + tagCells s.tags v.tags + R + L) := by
      rw [hR, own_eq s v.text f]
      ac_rfl
    -- the same object again
    have hsame : v'.text = v.text → WSt (o.set i (some (v.kind, s))) (w.put i (some v') []) (total o w.objs + L) := by
      intro e
      have h' := wst_put hf hset (l := []) (k := v.kind) (s := s) (v := v') (lost := w.lost) (Q := own s v.text + tagCells s.tags v.tags + L)
        hk.symm ⟨by rw [e]; exact hok, by rw [htg]; exact ht, L, hL, by rw [e, htg]⟩ (by simp)
      rw [hR]
      have e3 : own s v.text + tagCells s.tags v.tags + R + L = own s v.text + tagCells s.tags v.tags + L + R := by ac_rfl
      rw [e3]
      exact h'
    have hnew : v'.text = upd v.text f t → ∀ q, Ok q t →
        WSt (o.set i (some (v.kind, s.set f q))) (w.put i (some v') [])
          (cell q t + (others s v.text f + tagCells s.tags v.tags + R + L)) := by
      intro e q hq
      have h' := wst_put hf hset (l := []) (k := v.kind) (s := s.set f q) (v := v') (lost := w.lost)
        (Q := cell q t + others s v.text f + tagCells s.tags v.tags + L)
        hk.symm ⟨by rw [e]; exact ok_set hok hq, by rw [htg]; exact ht, L, hL, by rw [e, htg, own_set]; rfl⟩ (by simp)
      have e3 : cell q t + (others s v.text f + tagCells s.tags v.tags + R + L) =
          cell q t + others s v.text f + tagCells s.tags v.tags + L + R := by ac_rfl
      rw [e3]
      exact h'
    dsimp only
    by_cases hsrc : v.kind = .source
    · rw [if_pos hsrc]
      unfold setNonEmpty
      refine Does.bind (R := fun s' Q' => WSt (o.set i (some (v.kind, s'))) (w.put i (some v') []) Q') ?_ (fun s' Q' h' => Does.pure h')
      rw [e0]
      refine Does.bind (readArg_does (harg.mono (Multiset.le_add_left _ _))) ?_
      rintro t _ ⟨rfl, rfl⟩
      cases hn : nullOrEmpty t with
      | true =>
        simp only [if_true]
        rw [if_pos ⟨hsrc, hn⟩] at htx
        rw [← e0]
        exact Does.pure (hsame htx)
      | false =>
        simp only [Bool.false_eq_true, if_false]
        rw [if_neg (by rw [hn]; simp)] at htx
        refine (setString_does harg (hok f)).mono ?_
        rintro s' _ ⟨q, rfl, hq, rfl⟩
        exact hnew htx q hq
    · rw [if_neg hsrc]
      rw [if_neg (fun hh => hsrc hh.1)] at htx
      rw [e0]
      refine Does.bind (setString_does harg (hok f)) ?_
      rintro s' _ ⟨q, rfl, hq, rfl⟩
      exact Does.pure (hnew htx q hq)
  | @setTags i a v v' t hv ha hvs =>
    obtain ⟨hf, L, hL, rfl⟩ := id h
    obtain ⟨s, hs, hok, ht, R, hR, hset⟩ := focus hf hv
    refine Does.bind (theObj_does hs _) ?_
    rintro _ _ ⟨rfl, rfl⟩
    refine Does.bind (argOf_does hf ha _) ?_
    rintro _ _ ⟨rfl, rfl⟩
    obtain ⟨hk, htx, htg⟩ := setTags_val hvs
    have harg : ArgIs (ref o a) t (own s v.text + R + L) := by
      have hin : ArgIs (ref o a) t (own s v.text + R) := by
        cases a with
        | null => cases ha; exact True.intro
        | outside b => cases ha; rfl
        | member j g =>
          by_cases hj : j = i
          · subst hj
            obtain ⟨v2, hv2, _, rfl⟩ := arg_member ha
            rw [hv] at hv2
            cases hv2
            rw [ref_member g hs, own_eq s v.text g, add_assoc]
            exact argIs_ptr (hok g) (Multiset.le_add_right _ _)
          · obtain ⟨v2, hv2, _, rfl⟩ := arg_member ha
            have hv3 : ((w.objs.set i none)[j]?).join = some v2 := by
              rw [List.getElem?_set, if_neg (fun e => hj e.symm)]
              exact hv2
            obtain ⟨s', hs', hok', _, R', hR', _⟩ := focus (forall₂_set hf i (x := none) (y := none) True.intro) hv3
            have hs2 : o[j]? = some (some (v2.kind, s')) := by
              rw [← hs', List.getElem?_set, if_neg (fun e => hj e.symm)]
            rw [hset] at hR'
            have hR2 : R = own s' v2.text + tagCells s'.tags v2.tags + R' := by
              rw [← hR']
              exact (zero_add R).symm
            rw [ref_member g hs2, hR2, own_eq s' v2.text g]
            have e : own s v.text + (cell (s'.at' g) (v2.text g) + others s' v2.text g + tagCells s'.tags v2.tags + R') =
                cell (s'.at' g) (v2.text g) + (own s v.text + (others s' v2.text g + tagCells s'.tags v2.tags + R')) := by ac_rfl
            rw [e]
            exact argIs_ptr (hok' g) (Multiset.le_add_right _ _)
      exact hin.mono (Multiset.le_add_right _ _)
    have e0 : total o w.objs + L = tagCells s.tags v.tags + (own s v.text + R + L) := by
      rw [hR]
      ac_rfl
    rw [e0]
    refine Does.bind (setTags_does harg ht) ?_
    rintro s' _ ⟨h1, h2, rfl⟩
    have h' := wst_put hf hset (l := []) (k := v.kind) (s := s') (v := v') (lost := w.lost)
        (Q := own s v.text + tagCells s'.tags (setTagsTo v.tags t) + L)
        hk.symm ⟨by rw [htx, h1]; exact hok, by rw [htg]; exact h2, L, hL, by rw [htx, htg]; unfold own; rw [h1]⟩ (by simp)
    have e3 : tagCells s'.tags (setTagsTo v.tags t) + (own s v.text + R + L) =
        own s v.text + tagCells s'.tags (setTagsTo v.tags t) + L + R := by ac_rfl
    rw [e3]
    exact Does.pure h'
  | @load i n v v' ok hv hl =>
    obtain ⟨x, hx, hd⟩ := loadObj_does h hv hl (k := fun x r => pure (o.set i (some (x.1, r.2)))) (R := fun o' Q' =>
      WSt o' (w.put i (some v') (lostBy v n)) Q') 0 (fun x r Q' _ _ h' => Does.pure (by rw [add_zero]; exact h'))
    rw [add_zero] at hd
    refine Does.bind (theObj_does hx _) ?_
    rintro _ _ ⟨rfl, rfl⟩
    exact hd
  | @loadStringNot i s v hv hn =>
    have hf := h.1
    obtain ⟨st, hs, hok, ht, R, hR, hset⟩ := focus hf hv
    refine Does.bind (theObj_does hs _) ?_
    rintro _ _ ⟨rfl, rfl⟩
    have e : loadString v.kind st s = pure (false, st) := by
      unfold loadString
      rcases hn with rfl | hn
      · simp
      · by_cases hl : s.length = 0
        · rw [if_pos hl]
        · rw [if_neg hl, hn]
    dsimp only
    rw [e]
    refine Does.pureBind (Does.pure ?_)
    obtain ⟨_, L, hL, rfl⟩ := h
    rw [hR]
    have := wst_put hf hset (l := []) (k := v.kind) rfl (st_of hok ht hL) (by simp)
    rw [add_assoc, add_comm R L, ← add_assoc]
    exact this
  | @loadString i s v v' n ok hv hne hp hl =>
    obtain ⟨x, hx, hd⟩ : ∃ x, o[i]? = some (some x) ∧ Does (do
        let p ← alloc Block.other
        let r ← load x.1 x.2 n
        if r.1 then do
          freeBlock p
          pure (o.set i (some (x.1, r.2)))
        else pure (o.set i (some (x.1, r.2)))) Q (fun o' Q' =>
          WSt o' (w.put i (some v') (lostBy v n ++ if ok then [] else [.other])) Q') := by
      obtain ⟨_, hx0, _⟩ := focus h.1 hv
      refine ⟨_, hx0, ?_⟩
      refine Does.bind (alloc_does _ _) ?_
      rintro p _ rfl
      obtain ⟨x, hx, hd⟩ := loadObj_does h hv hl (k := fun x r => if r.1 then (do
          freeBlock p
          pure (o.set i (some (x.1, r.2)))) else pure (o.set i (some (x.1, r.2)))) (R := fun o' Q' =>
            WSt o' (w.put i (some v') (lostBy v n ++ if ok then [] else [.other])) Q') {(p, .other)} (by
        rintro x r Q' _ hr h'
        subst hr
        rw [add_comm, Multiset.singleton_add]
        cases hr : r.1 with
        | true =>
          simp only [if_true, List.append_nil]
          refine Does.bind (free_does p .other Q') ?_
          rintro _ _ rfl
          exact Does.pure h'
        | false =>
          simp only [Bool.false_eq_true, if_false]
          refine Does.pure ?_
          obtain ⟨h1, L, h2, rfl⟩ := h'
          refine ⟨h1, (p, .other) ::ₘ L, ?_, ?_⟩
          · rw [Multiset.map_cons, h2]
            show Block.other ::ₘ ((w.lost ++ lostBy v n : List Block) : Multiset Block) = ((w.lost ++ (lostBy v n ++ [Block.other]) : List Block) : Multiset Block)
            rw [← List.append_assoc, ← Multiset.coe_add, ← Multiset.singleton_add, add_comm]
            rfl
          · rw [Multiset.add_cons]
            rfl)
      rw [add_comm, Multiset.singleton_add] at hd
      rw [hx0] at hx
      cases hx
      exact hd
    refine Does.bind (theObj_does hx _) ?_
    rintro x _ ⟨rfl, rfl⟩
    have hlen : s.length ≠ 0 := fun e => hne (List.length_eq_zero_iff.mp e)
    have e : (loadString x.1 x.2 s >>= fun r => pure (o.set i (some (x.1, r.2)))) = (do
        let p ← alloc Block.other
        let r ← load x.1 x.2 n
        if r.1 then do
          freeBlock p
          pure (o.set i (some (x.1, r.2)))
        else pure (o.set i (some (x.1, r.2))) : M Objs) := by
      unfold loadString
      rw [if_neg hlen, hp]
      dsimp only
      rw [bind_assoc']
      refine congrArg (fun k => alloc Block.other >>= k) (funext fun p => ?_)
      rw [bind_assoc']
      refine congrArg (fun k => load x.1 x.2 n >>= k) (funext fun r => ?_)
      cases hr : r.1 with
      | false => rfl
      | true =>
        rw [if_pos rfl, if_pos rfl, bind_assoc']
        rfl
    rw [e]
    exact hd
  | @loadFileNot i s v hv hn =>
    have hf := h.1
    obtain ⟨st, hs, hok, ht, R, hR, hset⟩ := focus hf hv
    refine Does.bind (theObj_does hs _) ?_
    rintro _ _ ⟨rfl, rfl⟩
    have e : loadFile v.kind st s = pure (false, st) := by
      unfold loadFile
      rw [hn]
    dsimp only
    rw [e]
    refine Does.pureBind (Does.pure ?_)
    obtain ⟨_, L, hL, rfl⟩ := h
    rw [hR]
    have := wst_put hf hset (l := []) (k := v.kind) rfl (st_of hok ht hL) (by simp)
    rw [add_assoc, add_comm R L, ← add_assoc]
    exact this
  | @loadFile i s v v' n ok hv hp hl =>
    obtain ⟨x, hx, hd⟩ : ∃ x, o[i]? = some (some x) ∧ Does (do
        let p ← alloc Block.other
        let r ← load x.1 x.2 n
        freeBlock p
        pure (o.set i (some (x.1, r.2)))) Q (fun o' Q' => WSt o' (w.put i (some v') (lostBy v n)) Q') := by
      obtain ⟨_, hx0, _⟩ := focus h.1 hv
      refine ⟨_, hx0, ?_⟩
      refine Does.bind (alloc_does _ _) ?_
      rintro p _ rfl
      obtain ⟨x, hx, hd⟩ := loadObj_does h hv hl (k := fun x r => do
          freeBlock p
          pure (o.set i (some (x.1, r.2)))) (R := fun o' Q' => WSt o' (w.put i (some v') (lostBy v n)) Q') {(p, .other)} (by
        rintro x r Q' _ hr h'
        rw [add_comm, Multiset.singleton_add]
        refine Does.bind (free_does p .other Q') ?_
        rintro _ _ rfl
        exact Does.pure h')
      rw [add_comm, Multiset.singleton_add] at hd
      rw [hx0] at hx
      cases hx
      exact hd
    refine Does.bind (theObj_does hx _) ?_
    rintro x _ ⟨rfl, rfl⟩
    have e : (loadFile x.1 x.2 s >>= fun r => pure (o.set i (some (x.1, r.2)))) = (do
        let p ← alloc Block.other
        let r ← load x.1 x.2 n
        freeBlock p
        pure (o.set i (some (x.1, r.2))) : M Objs) := by
      unfold loadFile
      rw [hp]
      dsimp only
      rw [bind_assoc']
      refine congrArg (fun k => alloc Block.other >>= k) (funext fun p => ?_)
      rw [bind_assoc']
      refine congrArg (fun k => load x.1 x.2 n >>= k) (funext fun r => ?_)
      rw [bind_assoc']
      rfl
    rw [e]
    exact hd
  | @destroy i v hv =>
    obtain ⟨hf, L, hL, rfl⟩ := h
    obtain ⟨s, hs, hok, ht, R, hR, hset⟩ := focus hf hv
    refine Does.bind (theObj_does hs _) ?_
    rintro _ _ ⟨rfl, rfl⟩
    rw [hR, add_assoc]
    refine Does.bind (destroy_does hok ht _) ?_
    rintro _ _ rfl
    refine Does.pure ⟨forall₂_set hf i True.intro, L, ?_, ?_⟩
    · rw [hL]
      simp [World.put]
    · unfold World.put
      rw [hset]
      simp [objCells]

theorem steps_does {w w' : World} {cs : List Call} (hs : Steps w cs w') : ∀ {o : Objs} {Q : Blocks}, WSt o w Q →
    Does (calls o cs) Q (fun o' Q' => WSt o' w' Q') := by
  induction hs with
  | nil => exact fun h => Does.pure h
  | cons h1 _ ih =>
    intro o Q h
    refine Does.bind (step_does h h1) ?_
    intro o' Q' h'
    exact ih h'

end Afs.Strings
