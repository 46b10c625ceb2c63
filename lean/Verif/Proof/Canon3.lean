import Verif.Proof.Canon2
/-! # Queries and NULL strings: selections, reels, tables of contents -/
namespace Afs.Canon
open Afs Spec

/-! ### Selections of files and validity -/

def filesKeep (f : Files) : Files := ⟨f.tocs.map (·.map keep)⟩

def reelKeep (r : Reel) : Reel := ⟨str r.id, r.files.map filesKeep⟩

theorem files_valid (f : Option Files) : Files.isValid (f.map filesKeep) = Files.isValid f := by
  rcases f with _ | ⟨_ | l⟩
  · rfl
  · rfl
  · exact all_map _ _ file_valid l

theorem files_add (f : Files) (x : Option File) : (filesKeep f).addToc (x.map keep) = ((f.addToc x).1, filesKeep (f.addToc x).2) := by
  cases x with
  | none => rfl
  | some x =>
    rw [Option.map_some, Files.addToc, Files.addToc, file_valid]
    split
    · rfl
    · exact Prod.ext rfl (congrArg Files.mk (vecAppend_map keep f.tocs x))

theorem reel_list_keep (r : Reel) : (reelKeep r).list = r.list.map keep := by
  rcases r with ⟨i, _ | f⟩
  · rfl
  · exact getD_map _ _

theorem select_keep {p : File → Bool} (hp : ∀ f, p (keep f) = p f) (type : Nat) (l : List File) (acc : Option Files) :
    Reel.selectLoop p type (acc.map filesKeep) (l.map keep) = (Reel.selectLoop p type acc l).map filesKeep := by
  induction l generalizing acc with
  | nil => rfl
  | cons f l ih =>
    rw [List.map_cons, Reel.selectLoop.eq_def, Reel.selectLoop.eq_def p type acc (f :: l)]
    dsimp only
    rw [hp]
    show (if p f = true ∧ f.types &&& type ≠ 0 then _ else _) = _
    split
    · rw [← ih]
      refine congrArg (fun a => Reel.selectLoop p type a (l.map keep)) ?_
      rw [file_clone, file_clone, Option.map_some]
      cases acc with
      | none =>
        have := files_add Files.create (some f)
        rw [Option.map_some] at this
        exact congrArg (fun r : Bool × Files => some r.2) this
      | some a =>
        have := files_add a (some f)
        rw [Option.map_some] at this
        exact congrArg (fun r : Bool × Files => some r.2) this
    · exact ih acc

theorem reel_valid (r : Reel) : (reelKeep r).isValid = r.isValid := by
  rw [Reel.isValid, Reel.isValid, Reel.fileCount, Reel.fileCount, reel_list_keep, List.length_map]
  show (if r.list.length ≠ 0 ∧ Files.isValid (r.files.map filesKeep) = false then false else if nullOrEmpty (str r.id) = true then false else true) = _
  rw [files_valid, nullOrEmpty_str]

theorem reel_add (r : Reel) (x : Option File) : (reelKeep r).addFile (x.map keep) = ((r.addFile x).1, reelKeep (r.addFile x).2) := by
  cases x with
  | none => rfl
  | some x =>
    rw [Option.map_some, Reel.addFile, Reel.addFile, file_valid]
    split
    · rfl
    · rcases r with ⟨i, _ | v⟩
      · rfl
      · rcases v with ⟨v⟩
        exact Prod.ext rfl (congrArg (fun v => (⟨str i, some ⟨v⟩⟩ : Reel)) (vecAppend_map keep v x))

theorem filesKeep_eq {a b : Files} (h : filesContent a = filesContent b)
    (hc : (a.list.map fun f => f.checksum.isSome) = (b.list.map fun f => f.checksum.isSome)) : filesKeep a = filesKeep b := by
  rcases a with ⟨_ | l⟩ <;> rcases b with ⟨_ | m⟩
  · rfl
  · cases h
  · cases h
  · have : l.map fileContent = m.map fileContent := by
      have := congrArg Files.list h
      exact this
    exact congrArg (fun l => Files.mk (some l)) (keep_list l m this hc)

theorem reelKeep_eq {a b : Reel} (h : reelContent a = reelContent b)
    (hc : (a.list.map fun f => f.checksum.isSome) = (b.list.map fun f => f.checksum.isSome)) : reelKeep a = reelKeep b := by
  rcases a with ⟨i, x⟩
  rcases b with ⟨j, y⟩
  have h1 : str i = str j := congrArg Reel.id h
  have h2 : x.map filesContent = y.map filesContent := congrArg Reel.files h
  rw [reelKeep, reelKeep]
  dsimp only
  rw [h1]
  cases x with
  | none =>
    cases y with
    | none => rfl
    | some y => cases h2
  | some x =>
    cases y with
    | none => cases h2
    | some y =>
      rw [Option.map_some, Option.map_some] at h2
      rw [Option.map_some, Option.map_some, filesKeep_eq (Option.some.inj h2) hc]

theorem content_filesKeep (f : Files) : filesContent (filesKeep f) = filesContent f := by
  rcases f with ⟨_ | l⟩
  · rfl
  · simp [filesContent, filesKeep, content_keep]

theorem content_reelKeep (r : Reel) : reelContent (reelKeep r) = reelContent r := by
  rcases r with ⟨i, _ | f⟩
  · rfl
  · rw [reelContent, reelContent, reelKeep]
    dsimp only [Option.map_some]
    rw [content_filesKeep]
    rfl

theorem reelsKeep_eq : ∀ (l m : List Reel), l.map reelContent = m.map reelContent →
    (l.map fun r => r.list.map fun f => f.checksum.isSome) = (m.map fun r => r.list.map fun f => f.checksum.isSome) →
    l.map reelKeep = m.map reelKeep
  | [], [], _, _ => rfl
  | [], _ :: _, h, _ => nomatch h
  | _ :: _, [], h, _ => nomatch h
  | a :: l, b :: m, h, hc => by
    rw [List.map_cons, List.map_cons, List.cons.injEq] at h hc
    rw [List.map_cons, List.map_cons, reelKeep_eq h.1 hc.1, reelsKeep_eq l m h.2 hc.2]

/-! ### Metadata of an index -/

theorem meta_valid (s : MetaSource) : (metaSourceContent s).isValid = s.isValid := by
  rw [MetaSource.isValid, MetaSource.isValid, metaSourceContent]
  dsimp only
  simp only [nullOrEmpty_str]

theorem tocMeta_valid (m : Option TocMeta) : TocMeta.isValid (m.map tocMetaContent) = TocMeta.isValid m := by
  rcases m with _ | ⟨_ | l⟩
  · rfl
  · rfl
  · show (if (l.map metaSourceContent).length = 0 then false else (l.map metaSourceContent).all MetaSource.isValid) = _
    rw [List.length_map, all_map _ _ meta_valid]
    rfl

/-! ### Tables of contents -/

def metaList (t : TocData) : List MetaSource := (t.metadata.bind TocMeta.sources).getD []

def layoutList (t : TocData) : List LayoutDef := (t.layouts.bind LayoutDefs.defs).getD []

theorem reelList_eq (t : TocData) : t.reelList = (t.reels.bind Reels.reels).getD [] := by
  rcases t with ⟨_, _, _, _, r, _, _⟩
  cases r <;> rfl

theorem vecGet_eq {α : Type} (v : Option (List α)) (i : Nat) : vecGet v i = (v.getD [])[i]? := by
  cases v with
  | none => rfl
  | some l =>
    rw [vecGet, Option.getD_some]
    split
    · rename_i h; exact (List.getElem?_eq_none h).symm
    · rfl

theorem reelByIndex_eq (t : TocData) (i : Nat) : TocData.reelByIndex (some t) i = t.reelList[i]? := by
  rw [reelList_eq]
  rcases t with ⟨_, _, _, _, r, _, _⟩
  cases r with
  | none => rfl
  | some v => exact vecGet_eq _ i

theorem metadataSource_eq (t : TocData) (i : Nat) : TocData.metadataSource (some t) i = (metaList t)[i]? := by
  rcases t with ⟨_, _, _, _, _, r, _⟩
  cases r with
  | none => rfl
  | some v => exact vecGet_eq _ i

theorem layout_eq (t : TocData) (i : Nat) : TocData.layout (some t) i = (layoutList t)[i]? := by
  rcases t with ⟨_, _, _, _, _, _, r⟩
  cases r with
  | none => rfl
  | some v => exact vecGet_eq _ i

theorem counts_eq (t : TocData) : t.reelCount = t.reelList.length ∧ t.metadataSourceCount = (metaList t).length ∧
    t.layoutCount = (layoutList t).length := by
  rw [reelList_eq]
  rcases t with ⟨_, _, _, _, r, m, l⟩
  refine ⟨?_, ?_, ?_⟩
  · cases r <;> rfl
  · cases m <;> rfl
  · cases l <;> rfl

theorem findReel_content (id : Option Bytes) (l : List Reel) :
    TocData.findReel id (l.map reelContent) = (TocData.findReel id l).map reelContent := by
  induction l with
  | nil => rfl
  | cons r l ih =>
    rw [List.map_cons, TocData.findReel, TocData.findReel, ih]
    have e : strEq (reelContent r).id id = strEq r.id id := by
      show (orEmpty (str r.id) == orEmpty id) = _
      rw [orEmpty_str]
      rfl
    rw [e]
    split <;> rfl

theorem findReel_str (id id' : Option Bytes) (h : str id = str id') (l : List Reel) : TocData.findReel id l = TocData.findReel id' l := by
  have e : orEmpty id = orEmpty id' := by rw [← orEmpty_str id, h, orEmpty_str]
  induction l with
  | nil => rfl
  | cons r l ih => rw [TocData.findReel, TocData.findReel, ih, strEq, strEq, e]

theorem findFile_content (id : Int) (l : List Reel) :
    TocData.findFile id (l.map reelContent) = (TocData.findFile id l).map fileContent := by
  induction l with
  | nil => rfl
  | cons r l ih =>
    have e := reel_byId (some r) id
    rw [Option.map_some] at e
    rw [List.map_cons, TocData.findFile, TocData.findFile, e, ih]
    cases Reel.fileById (some r) id <;> rfl

theorem findFileUnique_content (u : Option Bytes) (l : List Reel) {v : Option File} (h : TocData.findFileUnique u l = .ok v) :
    TocData.findFileUnique u (l.map reelContent) = .ok (v.map fileContent) := by
  induction l with
  | nil => cases h; rfl
  | cons r l ih =>
    rw [TocData.findFileUnique] at h
    obtain ⟨x, hx, h⟩ := bind_ok h
    have e := reel_byUnique (some r) u hx
    rw [Option.map_some] at e
    rw [List.map_cons, TocData.findFileUnique, e, ok_bind]
    cases x with
    | none => exact ih h
    | some f => cases h; rfl

theorem frameLoop_content (l : List Reel) (n : Nat) : TocData.frameLoop (l.map reelContent) n = TocData.frameLoop l n := by
  induction l generalizing n with
  | nil => rfl
  | cons r l ih =>
    have e := reel_frames (some r) SECTION_DIGITAL
    rw [Option.map_some] at e
    rw [List.map_cons, TocData.frameLoop, TocData.frameLoop, e]
    simp only [ih]

theorem fileCounts_content (l : List Reel) : ((l.map reelContent).map fun r => Reel.fileCount (some r)) = l.map fun r => Reel.fileCount (some r) := by
  rw [List.map_map]
  refine List.map_congr_left fun r _ => ?_
  have e := reel_count (some r)
  rw [Option.map_some] at e
  exact e

/-! ### The layouts in use -/

theorem usedLayoutId_content (f : File) : TocData.usedLayoutId (fileContent f) = (TocData.usedLayoutId f).map str := by
  rw [TocData.usedLayoutId, TocData.usedLayoutId]
  show (if f.isPreview = true ∧ f.isParent = false then _ else _) = _
  split
  · show (match f.preview.map previewContent with
      | none => none
      | some p => match p.pages with
        | none => none
        | some [] => none
        | some (q :: _) => some q.layoutId) = _
    rcases f.preview with _ | ⟨_ | l, d⟩
    · rfl
    · rfl
    · cases l <;> rfl
  · rfl

theorem usedLoop_content (d : LayoutDefs) (l : List File) (u : LayoutDefs) {v : Option LayoutDefs} (h : TocData.usedLoop d u l = .ok v) :
    TocData.usedLoop (layoutsContent d) (layoutsContent u) (l.map fileContent) = .ok (v.map layoutsContent) := by
  induction l generalizing u with
  | nil => cases h; rfl
  | cons f l ih =>
    rw [TocData.usedLoop.eq_def] at h
    rw [List.map_cons, TocData.usedLoop.eq_def]
    dsimp only at h ⊢
    rw [usedLayoutId_content]
    cases hi : TocData.usedLayoutId f with
    | none => rw [hi] at h; exact ih u h
    | some i =>
      rw [hi] at h
      dsimp only [Option.map_some] at h ⊢
      obtain ⟨b, hb, h⟩ := bind_ok h
      have e := has_content (some u) i hb
      rw [Option.map_some] at e
      rw [e, ok_bind]
      cases b with
      | true => exact ih u h
      | false =>
        rw [if_neg (by decide)] at h ⊢
        obtain ⟨x, hx, h⟩ := bind_ok h
        have e := byId_content (some d) i hx
        rw [Option.map_some] at e
        rw [byId_str, e, ok_bind]
        cases x with
        | none => exact ih u h
        | some x =>
          dsimp only [Option.map_some] at h ⊢
          obtain ⟨r, hr, h⟩ := bind_ok h
          rw [layout_clone] at hr
          have e := layouts_add u (some x) hr
          rw [Option.map_some] at e
          rw [layout_clone, e, ok_bind]
          dsimp only
          split at h
          · rename_i g; rw [if_pos g]; cases h; rfl
          · rename_i g; rw [if_neg g]; exact ih _ h

theorem insertDef_content (x : LayoutDef) (l : List LayoutDef) {v : List LayoutDef} (h : TocData.insertDefRev x l = .ok v) :
    TocData.insertDefRev (layoutContent x) (l.map layoutContent) = .ok (v.map layoutContent) := by
  induction l generalizing v with
  | nil => cases h; rfl
  | cons p l ih =>
    rw [TocData.insertDefRev.eq_def] at h
    rw [List.map_cons, TocData.insertDefRev.eq_def]
    dsimp only at h ⊢
    cases hp : p.id with
    | none => rw [hp] at h; cases h
    | some i =>
      cases hx : x.id with
      | none => rw [hp, hx] at h; cases h
      | some j =>
        rw [hp, hx] at h
        have e1 : (layoutContent p).id = some i := by rw [layoutContent, hp]; rfl
        have e2 : (layoutContent x).id = some j := by rw [layoutContent, hx]; rfl
        rw [e1, e2]
        dsimp only at h ⊢
        split at h
        · rename_i g
          rw [if_pos g]
          obtain ⟨r, hr, h⟩ := bind_ok h
          rw [ih hr, ok_bind]
          cases h
          rfl
        · rename_i g; rw [if_neg g]; cases h; rfl

theorem sortLoop_content (l r : List LayoutDef) {v : List LayoutDef} (h : TocData.sortDefsLoop r l = .ok v) :
    TocData.sortDefsLoop (r.map layoutContent) (l.map layoutContent) = .ok (v.map layoutContent) := by
  induction l generalizing r with
  | nil => cases h; rw [List.map_reverse]; rfl
  | cons x l ih =>
    rw [TocData.sortDefsLoop] at h
    obtain ⟨y, hy, h⟩ := bind_ok h
    rw [List.map_cons, TocData.sortDefsLoop, insertDef_content x r hy, ok_bind]
    exact ih y h

theorem sort_content (l : List LayoutDef) {v : List LayoutDef} (h : TocData.sortDefs l = .ok v) :
    TocData.sortDefs (l.map layoutContent) = .ok (v.map layoutContent) := by
  cases l with
  | nil => cases h; rfl
  | cons x l => exact sortLoop_content l [x] h

/-- The layouts in use, from the lists of reels and layouts. -/
def usedFrom (ds : List LayoutDef) (rs : List Reel) : Res (Option LayoutDefs) :=
  if ds.length = 0 then .ok none
  else if rs.length = 0 then .ok none
  else do
    match ← TocData.usedLoop ⟨some ds⟩ LayoutDefs.create (rs.flatMap Reel.list) with
    | none => return none
    | some u =>
      match u.defs with
      | none => return some u
      | some l => do
        let l' ← TocData.sortDefs l
        return some ⟨some l'⟩

theorem used_eq (t : TocData) : TocData.usedLayouts (some t) = usedFrom (layoutList t) t.reelList := by
  have hr := (counts_eq t).1
  rw [TocData.usedLayouts, usedFrom, hr]
  rw [layoutList]
  cases hl : t.layouts with
  | none => rfl
  | some d =>
    rcases d with ⟨_ | l⟩
    · rfl
    · rfl

theorem flatMap_content (l : List Reel) : (l.map reelContent).flatMap Reel.list = (l.flatMap Reel.list).map fileContent := by
  induction l with
  | nil => rfl
  | cons r l ih => rw [List.map_cons, List.flatMap_cons, List.flatMap_cons, List.map_append, ih, reel_list]

theorem usedFrom_content (ds : List LayoutDef) (rs : List Reel) {v : Option LayoutDefs} (h : usedFrom ds rs = .ok v) :
    usedFrom (ds.map layoutContent) (rs.map reelContent) = .ok (v.map layoutsContent) := by
  rw [usedFrom] at h ⊢
  rw [List.length_map, List.length_map, flatMap_content]
  split at h
  · rename_i e; rw [if_pos e]; cases h; rfl
  · rename_i e
    rw [if_neg e]
    split at h
    · rename_i e; rw [if_pos e]; cases h; rfl
    · rename_i e
      rw [if_neg e]
      obtain ⟨x, hx, h⟩ := bind_ok h
      have g := usedLoop_content ⟨some ds⟩ _ LayoutDefs.create hx
      have g' : TocData.usedLoop ⟨some (ds.map layoutContent)⟩ LayoutDefs.create ((rs.flatMap Reel.list).map fileContent) =
          .ok (x.map layoutsContent) := g
      rw [g', ok_bind]
      cases x with
      | none => cases h; rfl
      | some u =>
        dsimp only [Option.map_some] at h ⊢
        rcases u with ⟨_ | l⟩
        · cases h; rfl
        · dsimp only at h
          obtain ⟨y, hy, h⟩ := bind_ok h
          show (TocData.sortDefs (l.map layoutContent) >>= _) = _
          rw [sort_content l hy, ok_bind]
          cases h
          rfl

theorem toc_valid_eq (t : TocData) : t.isValid =
    (!nullOrEmpty t.version && !nullOrEmpty t.jobId && !nullOrEmpty t.reelId &&
      (decide (orEmpty t.indexType = TocData.INDEX_JOB) || decide (orEmpty t.indexType = TocData.INDEX_REEL)) &&
      t.reelList.all Reel.isValid && (layoutList t).all LayoutDef.isValid && (metaList t).all MetaSource.isValid) := by
  have h1 : (Reels.isValid t.reels = false ∧ t.reels ≠ none) ↔ t.reelList.all Reel.isValid = false := by
    rw [TocData.reelList]
    cases t.reels with
    | none => simp
    | some r => simp [Reels.isValid]
  have h2 : (LayoutDefs.isValid t.layouts = false ∧ t.layouts ≠ none) ↔ (layoutList t).all LayoutDef.isValid = false := by
    rw [layoutList]
    rcases t.layouts with _ | ⟨_ | l⟩
    · simp
    · simp [LayoutDefs.isValid]
    · simp [LayoutDefs.isValid]
  have h3 : (TocMeta.sourcesCount t.metadata ≠ 0 ∧ TocMeta.isValid t.metadata = false) ↔ (metaList t).all MetaSource.isValid = false := by
    rw [metaList]
    rcases t.metadata with _ | ⟨_ | l⟩
    · simp [TocMeta.sourcesCount]
    · simp [TocMeta.sourcesCount, vecSize]
    · cases l <;> simp [TocMeta.sourcesCount, vecSize, TocMeta.isValid]
  rw [TocData.isValid]
  simp only [h1, h2, h3]
  cases nullOrEmpty t.version <;> cases nullOrEmpty t.jobId <;> cases nullOrEmpty t.reelId <;>
    cases t.reelList.all Reel.isValid <;> cases (layoutList t).all LayoutDef.isValid <;> cases (metaList t).all MetaSource.isValid <;>
    by_cases a : orEmpty t.indexType = TocData.INDEX_JOB <;> by_cases b : orEmpty t.indexType = TocData.INDEX_REEL <;> simp [a, b]

end Afs.Canon
