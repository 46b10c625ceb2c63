import Verif.Proof.Strings3
/-!
# Tags; loading sources (C72)
-/
namespace Afs.Strings
open Afs Afs.Xml Afs.Spec.Strings

theorem copyAll_does : ∀ (as : List Arg) (ts : List Bytes) (P : Blocks), List.Forall₂ (fun a t => ArgIs a (some t) P) as ts →
    Does (copyAll as) P (fun ps Q => ps.length = ts.length ∧ Q = (ps.zip (ts.map Block.text) : List (Nat × Block)) + P)
  | [], _, P, h => by
    cases h
    exact Does.pure ⟨rfl, by simp⟩
  | a :: as, _, P, h => by
    cases h with
    | @cons _ t _ ts h1 h2 =>
      refine Does.bind (readArg_does h1) ?_
      rintro _ _ ⟨rfl, rfl⟩
      refine Does.bind (alloc_does _ _) ?_
      rintro p Q rfl
      refine Does.bind (copyAll_does as ts _ ?_) ?_
      · exact h2.imp fun _ _ h => h.mono (Multiset.le_cons_self _ _)
      · rintro ps _ ⟨hl, rfl⟩
        refine Does.pure ⟨by simp [hl], ?_⟩
        simp only [Option.getD_some, List.map_cons, List.zip_cons_cons]
        rw [Multiset.add_cons, ← Multiset.cons_coe, Multiset.cons_add]

theorem copyOutside_does (ts : List Bytes) (P : Blocks) :
    Does (copyAll (ts.map .outside)) P (fun ps Q => ps.length = ts.length ∧ Q = (ps.zip (ts.map Block.text) : List (Nat × Block)) + P) := by
  refine copyAll_does _ _ _ ?_
  induction ts with
  | nil => exact .nil
  | cons t ts ih => exact .cons rfl ih

theorem split_does {a : Arg} {t : Option Bytes} {P : Blocks} (h : ArgIs a t P) :
    Does (split a) P (fun q Q => TagsOk q (t.map (splitOn semicolon)) ∧ Q = tagCells q (t.map (splitOn semicolon)) + P) := by
  refine Does.bind (readArg_does h) ?_
  rintro t Q ⟨rfl, rfl⟩
  cases t with
  | none => exact Does.pure ⟨True.intro, by simp [tagCells]⟩
  | some b =>
    refine Does.bind (alloc_does _ _) ?_
    rintro v _ rfl
    refine Does.bind (copyOutside_does _ _) ?_
    rintro ps _ ⟨hl, rfl⟩
    refine Does.pure ⟨hl, ?_⟩
    simp only [tagCells, Option.map_some]
    rw [Multiset.add_cons, Multiset.cons_add]

theorem freeAll_does : ∀ (ps : List Nat) (bs : List Block) (P : Blocks), ps.length = bs.length →
    Does (freeAll ps) ((ps.zip bs : List (Nat × Block)) + P) (fun _ Q => Q = P)
  | [], [], P, _ => Does.pure (by simp)
  | p :: ps, b :: bs, P, h => by
    rw [List.zip_cons_cons, ← Multiset.cons_coe, Multiset.cons_add]
    refine Does.bind (free_does p b _) ?_
    rintro _ _ rfl
    exact freeAll_does ps bs P (by simpa using h)
  | [], _ :: _, _, h => by cases h
  | _ :: _, [], _, h => by cases h

theorem freeTags_does {q : Option (Nat × List Nat)} {tg : Option (List Bytes)} (h : TagsOk q tg) (P : Blocks) :
    Does (freeTags q) (tagCells q tg + P) (fun _ Q => Q = P) := by
  cases q with
  | none => cases tg with
    | none => exact Does.pure (by simp [tagCells])
    | some bs => exact h.elim
  | some q => cases tg with
    | none => obtain ⟨v, ps⟩ := q; exact h.elim
    | some bs =>
      obtain ⟨v, ps⟩ := q
      have h' : ps.length = bs.length := h
      show Does _ ((v, Block.other) ::ₘ (ps.zip (bs.map Block.text) : List (Nat × Block)) + P) _
      rw [Multiset.cons_add, ← Multiset.add_cons]
      refine Does.bind (freeAll_does ps _ _ (by simp [h'])) ?_
      rintro _ _ rfl
      exact free_does v .other P

theorem copyTags_does {q : Option (Nat × List Nat)} {tg : Option (List Bytes)} {P : Blocks} (h : TagsOk q tg) (hP : tagCells q tg ≤ P) :
    Does (copyTags q) P (fun r Q => TagsOk r tg ∧ Q = tagCells r tg + P) := by
  cases q with
  | none => cases tg with
    | none => exact Does.pure ⟨True.intro, by simp [tagCells]⟩
    | some bs => exact h.elim
  | some q => cases tg with
    | none => obtain ⟨v, ps⟩ := q; exact h.elim
    | some bs =>
      obtain ⟨v, ps⟩ := q
      have h' : ps.length = bs.length := h
      have hP' : ((v, Block.other) ::ₘ (ps.zip (bs.map Block.text) : List (Nat × Block))) ≤ P := hP
      refine Does.bind (alloc_does _ _) ?_
      rintro w _ rfl
      have hargs : List.Forall₂ (fun a t => ArgIs a (some t) ((w, Block.other) ::ₘ P)) (ps.map .ptr) bs := by
        have hin : ∀ x ∈ ps.zip (bs.map Block.text), x ∈ P := by
          intro x hx
          exact Multiset.mem_of_le hP' (Multiset.mem_cons_of_mem (Multiset.mem_coe.mpr hx))
        clear hP' hP h
        induction ps generalizing bs with
        | nil => cases bs with
          | nil => exact .nil
          | cons b bs => cases h'
        | cons p ps ih => cases bs with
          | nil => cases h'
          | cons b bs =>
            refine .cons ?_ (ih bs (by simpa using h') fun x hx => hin x (by simp [hx]))
            exact Multiset.mem_cons_of_mem (hin _ (by simp))
      refine Does.bind (copyAll_does _ _ _ hargs) ?_
      rintro qs _ ⟨hl, rfl⟩
      refine Does.pure ⟨hl, ?_⟩
      simp only [tagCells]
      rw [Multiset.add_cons, Multiset.cons_add]

/-- What `set_tags` makes of the tags. -/
def setTagsTo (tg : Option (List Bytes)) (x : Option Bytes) : Option (List Bytes) :=
  if nullOrEmpty x then tg else x.map (splitOn semicolon)

theorem setTags_does {s : Strs} {a : Arg} {x : Option Bytes} {tg : Option (List Bytes)} {P : Blocks} (h : ArgIs a x P)
    (hs : TagsOk s.tags tg) : Does (setTags s a) (tagCells s.tags tg + P)
      (fun s' Q => s'.at' = s.at' ∧ TagsOk s'.tags (setTagsTo tg x) ∧ Q = tagCells s'.tags (setTagsTo tg x) + P) := by
  refine Does.bind (readArg_does (h.mono (Multiset.le_add_left _ _))) ?_
  rintro x Q ⟨rfl, rfl⟩
  unfold setTagsTo
  cases hn : nullOrEmpty x with
  | true =>
    simp only [if_true]
    exact Does.pure ⟨rfl, hs, rfl⟩
  | false =>
    simp only [Bool.false_eq_true, if_false]
    refine Does.bind (freeTags_does hs P) ?_
    rintro _ _ rfl
    refine Does.bind (split_does h) ?_
    rintro q _ ⟨hq, rfl⟩
    exact Does.pure ⟨rfl, hq, rfl⟩

theorem setString_does {s : Strs} {f : Field} {a : Arg} {x old : Option Bytes} {P : Blocks} (h : ArgIs a x P)
    (hs : Ok (s.at' f) old) : Does (setString s f a) (cell (s.at' f) old + P)
      (fun s' Q => ∃ q, s' = s.set f q ∧ Ok q x ∧ Q = cell q x + P) := by
  refine Does.bind (freeOpt_does hs P) ?_
  rintro _ _ rfl
  refine Does.bind (clone_does h) ?_
  rintro q _ ⟨hq, rfl⟩
  exact Does.pure ⟨q, rfl, hq, rfl⟩

theorem isBlank_does {p : Option Nat} {t : Option Bytes} {P : Blocks} (h : Ok p t) (hP : cell p t ≤ P) :
    Does (isBlank p) P (fun r Q => r = nullOrEmpty t ∧ Q = P) := by
  refine Does.bind (readArg_does (argIs_ptr h hP)) ?_
  rintro _ _ ⟨rfl, rfl⟩
  exact Does.pure ⟨rfl, rfl⟩

theorem St.cell_le {s : Strs} {t : Field → Option Bytes} {tg : Option (List Bytes)} {lost : Multiset Block} {Q : Blocks}
    (h : St s t tg lost Q) (f : Field) : cell (s.at' f) (t f) ≤ Q := by
  obtain ⟨_, _, L, _, rfl⟩ := h
  rw [own_eq s t f, add_assoc, add_assoc]
  exact Multiset.le_add_right _ _

theorem St.isBlank {s : Strs} {t : Field → Option Bytes} {tg : Option (List Bytes)} {lost : Multiset Block} {Q : Blocks}
    (h : St s t tg lost Q) (f : Field) : Does (isBlank (s.at' f)) Q (fun r Q' => r = nullOrEmpty (t f) ∧ Q' = Q) :=
  isBlank_does (h.1 f) (h.cell_le f)

theorem loadData_does {s : Strs} {t : Field → Option Bytes} {tg : Option (List Bytes)} {lost : Multiset Block} {Q : Blocks}
    (f : Field) (d : Node) (h : St s t tg lost Q) :
    Does (loadDataM s f d) Q (fun s' Q' => St s' (upd t f (Afs.loadData (t f) d)) tg
      (lost + if (firstCData d.children).isSome then blk (t f) else 0) Q') := by
  unfold loadDataM Afs.loadData
  cases hc : firstCData d.children with
  | some b =>
    refine Does.bind (alloc_does _ _) ?_
    rintro p _ rfl
    have h' := h.assign f (q := some p) (x := some b) rfl
    rw [cell_some, Multiset.singleton_add] at h'
    exact Does.pure (h'.cast rfl rfl (by simp))
  | none =>
    dsimp only
    have hok := h.1 f
    cases hs : s.at' f with
    | some p =>
      rw [hs] at hok
      cases ht : t f with
      | none => rw [ht] at hok; cases hok
      | some b =>
        refine Does.pure (h.cast ?_ rfl (by simp))
        have := upd_same t f
        rw [ht] at this
        exact this.symm
    | none =>
      rw [hs] at hok
      cases ht : t f with
      | some b => rw [ht] at hok; cases hok
      | none =>
        refine Does.bind (assign f (nodeText_does (some d)) h) ?_
        intro q Q' h'
        exact Does.pure (h'.cast rfl rfl (by simp [ht, blk]))

theorem Does.pureBind {α β : Type} {a : α} {k : α → M β} {P : Blocks} {R : β → Blocks → Prop} (h : Does (k a) P R) :
    Does (Pure.pure a >>= k) P R := h

theorem loadSource_loads (s : Strs) (x : FileMetaSource) (node : Node) : Loads (loadSource s node) s (.source x) node := by
  rintro lost Q h b v' hv
  simp only [Val.load, Res.ok.injEq, Prod.mk.injEq] at hv
  obtain ⟨rfl, rfl⟩ := hv
  unfold loadSource FileMetaSource.loadXml
  cases hf : selfOrFind node (b! "source") with
  | none => exact Does.pure ⟨rfl, h.cast rfl rfl (by simp [overwrites, Val.kind, hf])⟩
  | some n =>
    dsimp only
    cases hi : intAttr n (b! "fileId") with
    | none => exact Does.pure ⟨rfl, h.cast rfl rfl (by simp [overwrites, Val.kind, hf, hi])⟩
    | some fileId =>
      dsimp only
      cases hd : find n (b! "data") with
      | none =>
        dsimp only
        refine Does.pureBind ?_
        refine Does.bind (h.isBlank .sourceData) ?_
        rintro _ _ ⟨rfl, rfl⟩
        refine Does.pure ⟨?_, h.cast ?_ rfl ?_⟩
        · simp only [FileMetaSource.isValid, Val.text, bne]
          by_cases hid : fileId = -1 <;> simp [hid]
        · funext f
          cases f <;> rfl
        · simp [overwrites, Val.kind, hf, hi, hd, ifThere, hasCData]
      | some d =>
        dsimp only
        refine Does.bind (loadData_does .sourceData d h) ?_
        intro s1 Q1 h1
        refine Does.bind (assign .sourceFormatId (cloneText_does _) h1) ?_
        intro q Q2 h2
        refine Does.pureBind ?_
        refine Does.bind (h2.isBlank .sourceData) ?_
        rintro _ _ ⟨rfl, rfl⟩
        refine Does.pure ⟨?_, h2.cast ?_ rfl ?_⟩
        · simp only [FileMetaSource.isValid, Val.text, upd, bne]
          by_cases hid : fileId = -1 <;> simp [hid]
        · funext f
          cases f <;> rfl
        · cases hc : firstCData d.children with
          | none => simp [overwrites, Val.kind, hf, hi, hd, ifThere, hasCData, hc, Val.text, upd]
          | some c => simp [overwrites, Val.kind, hf, hi, hd, ifThere, hasCData, hc, Val.text, upd, add_assoc]

/-- Reading the tags of a source. -/
theorem tagsText_does {α : Type} {s : Strs} {t : Field → Option Bytes} {tg : Option (List Bytes)} {lost : Multiset Block} {Q : Blocks}
    {k : Strs → M α} {R : α → Blocks → Prop} (n : Node) (h : St s t tg lost Q)
    (hk : ∀ s' Q', St s' t (setTagsTo tg (nodeText (some n))) lost Q' → Does (k s') Q' R) :
    Does (do
      let p ← nodeTextM (some n)
      let s ← setTags s (.ofPtr p)
      free p
      k s) Q R := by
  refine Does.bind ((nodeText_does (some n)).anywhere Q) ?_
  rintro p _ ⟨_, ⟨hp, rfl⟩, rfl⟩
  obtain ⟨hok, htg, L, hl, rfl⟩ := h
  have e : cell p (nodeText (some n)) + (own s t + tagCells s.tags tg + L) =
      tagCells s.tags tg + (cell p (nodeText (some n)) + (own s t + L)) := by ac_rfl
  rw [e]
  refine Does.bind (setTags_does (argIs_ptr hp (Multiset.le_add_right _ _)) htg) ?_
  rintro s' _ ⟨hat, htg', rfl⟩
  have e2 : tagCells s'.tags (setTagsTo tg (nodeText (some n))) + (cell p (nodeText (some n)) + (own s t + L)) =
      cell p (nodeText (some n)) + (own s t + tagCells s'.tags (setTagsTo tg (nodeText (some n))) + L) := by ac_rfl
  rw [e2]
  refine Does.bind (freeOpt_does hp _) ?_
  rintro _ _ rfl
  refine hk s' _ ⟨by rw [hat]; exact hok, htg', L, hl, ?_⟩
  unfold own
  rw [hat]

/-- `set_tags` on values. -/
theorem setTags_tags (x : MetaSource) (t : Option Bytes) : (x.setTags t).tags = setTagsTo x.tags t ∧
    (x.setTags t).format = x.format ∧ (x.setTags t).data = x.data ∧ (x.setTags t).fileId = x.fileId := by
  unfold MetaSource.setTags setTagsTo nullOrEmpty
  cases t with
  | none => simp
  | some t => cases t <;> simp

/-- The value behind the data. -/
def withData (x : MetaSource) (n : Node) : MetaSource :=
  match find n (b! "data") with
  | none => x
  | some d => { x with data := Afs.loadData x.data d }

/-- The value behind the tags. -/
def withTags (x : MetaSource) (n : Node) : MetaSource :=
  match find n (b! "tags") with
  | none => x
  | some t => x.setTags (nodeText (some t))

/-- The rest of the loader: validity. -/
theorem metaEnd_does {s : Strs} {x : MetaSource} {lost lost' : Multiset Block} {Q : Blocks} (h : St s (Val.text (.metaSource x)) x.tags lost Q)
    (hl : lost = lost') {fileId : Int} (hx : x.fileId = fileId) :
    Does (do
      let noFormat ← isBlank (s.at' .metaFormat)
      let noData ← isBlank (s.at' .metaData)
      pure (!(noFormat || decide (fileId ≠ -1 ∧ fileId < 0) || (decide (fileId = -1) && noData)), s)) Q
      (fun r Q' => r.1 = x.isValid ∧ St r.2 (Val.text (.metaSource x)) x.tags lost' Q') := by
  subst hl hx
  refine Does.bind (h.isBlank .metaFormat) ?_
  rintro _ _ ⟨rfl, rfl⟩
  refine Does.bind (h.isBlank .metaData) ?_
  rintro _ _ ⟨rfl, rfl⟩
  refine Does.pure ⟨?_, h⟩
  have e1 : Val.text (.metaSource x) .metaFormat = x.format := rfl
  have e2 : Val.text (.metaSource x) .metaData = x.data := rfl
  rw [e1, e2]
  unfold MetaSource.isValid
  have hid : MetaSource.FILE_ID_UNDEF = -1 := rfl
  rw [hid]
  cases nullOrEmpty x.format <;> cases nullOrEmpty x.data <;> by_cases h1 : x.fileId = -1 <;> by_cases h2 : x.fileId < 0 <;> simp [h1, h2]

theorem loadMetaSource_loads (s : Strs) (x : MetaSource) (node : Node) : Loads (loadMetaSource s node) s (.metaSource x) node := by
  rintro lost Q h b v' hv
  simp only [Val.load, Res.ok.injEq, Prod.mk.injEq] at hv
  obtain ⟨rfl, rfl⟩ := hv
  unfold loadMetaSource
  cases hf : selfOrFind node (b! "source") with
  | none =>
    have hx : x.loadXml node = (false, x) := by
      unfold MetaSource.loadXml
      rw [hf]
    rw [hx]
    exact Does.pure ⟨rfl, h.cast rfl rfl (by simp [overwrites, Val.kind, hf])⟩
  | some n =>
    dsimp only
    refine Does.bind (assign .metaFormat (cloneText_does _) h) ?_
    intro q Q1 h1
    have h1' : St (s.set .metaFormat q) (Val.text (.metaSource { x with format := strClone (n.getAttr (b! "formatId")) })) x.tags
        (lost + blk x.format) Q1 := h1.cast (by funext f; cases f <;> rfl) rfl rfl
    cases hi : intAttr n (b! "id") with
    | none =>
      have hx : x.loadXml node = (false, { x with format := strClone (n.getAttr (b! "formatId")) }) := by
        unfold MetaSource.loadXml
        rw [hf]
        dsimp only
        rw [hi]
      rw [hx]
      exact Does.pure ⟨rfl, h1'.cast rfl rfl (by simp [overwrites, Val.kind, hf, hi, Val.text])⟩
    | some id =>
      cases hj : intAttr n (b! "fileId") with
      | none =>
        have hx : x.loadXml node = (false, { x with format := strClone (n.getAttr (b! "formatId")), id := id }) := by
          unfold MetaSource.loadXml
          rw [hf]
          dsimp only
          rw [hi, hj]
        rw [hx]
        exact Does.pure ⟨rfl, h1'.cast (by funext f; cases f <;> rfl) rfl (by simp [overwrites, Val.kind, hf, hi, hj, Val.text])⟩
      | some fileId =>
        dsimp only
        have hw : lostOf (Val.text (.metaSource x)) (overwrites (Val.kind (.metaSource x)) node) =
            blk x.format + if hasCData n then blk x.data else 0 := by
          cases hc : hasCData n <;> simp [overwrites, Val.kind, hf, hi, hj, Val.text, hc]
        rw [hw]
        have hx : x.loadXml node =
            ((withTags (withData { x with format := strClone (n.getAttr (b! "formatId")), id := id, fileId := fileId } n) n).isValid,
              withTags (withData { x with format := strClone (n.getAttr (b! "formatId")), id := id, fileId := fileId } n) n) := by
          unfold MetaSource.loadXml
          rw [hf]
          dsimp only
          rw [hi, hj]
          rfl
        rw [hx]
        generalize hy : ({ x with format := strClone (n.getAttr (b! "formatId")), id := id, fileId := fileId } : MetaSource) = y
        have hyx : y.tags = x.tags ∧ y.data = x.data ∧ y.fileId = fileId := by subst hy; exact ⟨rfl, rfl, rfl⟩
        have h2 : St (s.set .metaFormat q) (Val.text (.metaSource y)) y.tags (lost + blk x.format) Q1 := by
          subst hy
          exact h1'.cast (by funext f; cases f <;> rfl) rfl rfl
        rw [← add_assoc]
        have rest : ∀ (s2 : Strs) (z : MetaSource) (Q2 : Blocks) (l : Multiset Block), z.fileId = fileId →
            St s2 (Val.text (.metaSource z)) z.tags l Q2 → l = lost + blk x.format + (if hasCData n then blk x.data else 0) →
            Does (match find n (b! "tags") with
              | none => do
                let noFormat ← isBlank (s2.at' .metaFormat)
                let noData ← isBlank (s2.at' .metaData)
                pure (!(noFormat || decide (fileId ≠ -1 ∧ fileId < 0) || (decide (fileId = -1) && noData)), s2)
              | some t => do
                let p ← nodeTextM (some t)
                let s ← setTags s2 (.ofPtr p)
                free p
                let noFormat ← isBlank (s.at' .metaFormat)
                let noData ← isBlank (s.at' .metaData)
                pure (!(noFormat || decide (fileId ≠ -1 ∧ fileId < 0) || (decide (fileId = -1) && noData)), s)) Q2
              (fun r Q' => r.1 = (withTags z n).isValid ∧ St r.2 (Val.text (.metaSource (withTags z n))) (withTags z n).tags
                (lost + blk x.format + (if hasCData n then blk x.data else 0)) Q') := by
          intro s2 z Q2 l hz h3 hl
          unfold withTags
          cases ht : find n (b! "tags") with
          | none => exact metaEnd_does h3 hl hz
          | some t =>
            dsimp only
            obtain ⟨e1, e2, e3, e4⟩ := setTags_tags z (nodeText (some t))
            refine tagsText_does t h3 ?_
            intro s' Q' h4
            refine metaEnd_does (h4.cast ?_ e1.symm rfl) hl (e4.trans hz)
            funext f
            cases f <;> first | rfl | exact e2.symm | exact e3.symm
        show Does _ _ (fun (r : Bool × Strs) Q' => r.1 = (withTags (withData y n) n).isValid ∧
          St r.2 (Val.text (.metaSource (withTags (withData y n) n))) (withTags (withData y n) n).tags
            (lost + blk x.format + (if hasCData n then blk x.data else 0)) Q')
        unfold withData
        cases hd : find n (b! "data") with
        | none =>
          exact rest _ _ _ _ hyx.2.2 h2 (by simp [hasCData, hd])
        | some d =>
          dsimp only
          refine Does.bind (loadData_does .metaData d h2) ?_
          intro s2 Q2 h3
          refine rest _ _ _ _ hyx.2.2 (h3.cast ?_ rfl rfl) ?_
          · funext f
            cases f <;> rfl
          · simp [hasCData, hd, Val.text, hyx.2.1]

/-- All loaders. -/
theorem load_loads (s : Strs) (v : Val) (node : Node) : Loads (load v.kind s node) s v node := by
  cases v with
  | admin x => exact loadAdmin_loads s x node
  | file x => exact loadFile_loads s x node
  | page x => exact loadPage_loads s x node
  | layout x => exact loadLayout_loads s x node
  | source x => exact loadSource_loads s x node
  | metaSource x => exact loadMetaSource_loads s x node
  | reel x => exact loadReel_loads s x node
  | toc x => exact loadToc_loads s x node

end Afs.Strings
