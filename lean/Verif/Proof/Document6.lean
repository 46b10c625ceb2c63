import Verif.Proof.Document5
/-! # Loading documents that follow the schema: files -/
namespace Afs
open Spec Xml Spec.Schema Spec.Document

theorem text_match {n : Node} (hp : Plain n) {nm : Bytes} (ht : nm ∈ textNames) (old : Option Bytes) (h : ∃ x, child n nm = some x) :
    (match child n nm with | none => old | some x => nodeText (some x)) = text n nm := by
  obtain ⟨x, hx⟩ := h
  rw [← nodeText_child hp ht, hx]

theorem location_int {as cs} (h : Valid locationType as cs) (n : Bytes) {nm : Bytes} (d : Int) :
    (intAttr (.elem n as cs) nm).getD d = Document.int (attr (.elem n as cs) nm) d := by
  rw [locationType, Valid] at h
  rw [intAttr_int (n := .elem n as cs) h.1 (by
    intro d hd _
    simp only [List.mem_cons, List.not_mem_nil, or_false] at hd
    rcases hd with rfl | rfl <;> rfl), int_getD]

theorem data_loads {as cs} (h : Valid dataType as cs) (hpl : Plain (.elem (b! "data") as cs)) (f : File) :
    f.loadDataV2 (.elem (b! "data") as cs) =
      { f with
        checksum := some ((text (.elem (b! "data") as cs) (b! "checksum")).getD [])
        size := number ((text (.elem (b! "data") as cs) (b! "size")).getD [])
        startFrame := Document.int ((child (.elem (b! "data") as cs) (b! "start")).bind (attr · (b! "frame"))) f.startFrame
        startByte := Document.int ((child (.elem (b! "data") as cs) (b! "start")).bind (attr · (b! "byte"))) f.startByte
        endFrame := Document.int ((child (.elem (b! "data") as cs) (b! "end")).bind (attr · (b! "frame"))) f.endFrame
        endByte := Document.int ((child (.elem (b! "data") as cs) (b! "end")).bind (attr · (b! "byte"))) f.endByte } := by
  have hk : PlainList cs := plain_children hpl
  unfold File.loadDataV2
  rw [find_child h hk (nm := b! "size") (by decide) rfl, find_child h hk (nm := b! "checksum") (by decide) rfl,
    find_child h hk (nm := b! "start") (by decide) rfl, find_child h hk (nm := b! "end") (by decide) rfl]
  obtain ⟨xs, hs⟩ := child_needed (n := b! "data") h (nm := b! "start") rfl
  obtain ⟨as1, cs1, rfl, hv1, _⟩ := valid_child h hk (ty := locationType) rfl rfl hs
  obtain ⟨xe, he⟩ := child_needed (n := b! "data") h (nm := b! "end") rfl
  obtain ⟨as2, cs2, rfl, hv2, _⟩ := valid_child h hk (ty := locationType) rfl rfl he
  obtain ⟨xz, hz⟩ := child_needed (n := b! "data") h (nm := b! "size") rfl
  obtain ⟨as3, cs3, rfl, hv3, _, hpz⟩ := valid_child h hk (ty := .text [] unsignedInt) rfl rfl hz
  have hc : nodeTextSafe (child (.elem (b! "data") as cs) (b! "checksum")) [] = some ((text (.elem (b! "data") as cs) (b! "checksum")).getD []) := by
    unfold nodeTextSafe
    rw [nodeText_child hpl (by decide)]
    cases text (.elem (b! "data") as cs) (b! "checksum") <;> rfl
  have hsz : strtol ((nodeTextSafe (some (.elem (b! "size") as3 cs3)) (b! "0")).getD []) = number ((text (.elem (b! "data") as cs) (b! "size")).getD []) := by
    unfold nodeTextSafe text
    rw [nodeText_content hpz (by decide), hz]
    dsimp only [Option.bind_some]
    rw [Valid] at hv3
    unfold Document.content
    cases cs3 with
    | nil => exact absurd rfl hv3.2.2.1.1
    | cons c cs3 => exact strtol_unsigned (unsigned_trim hv3.2.2)
  rw [hs, he, hz, hc]
  dsimp only
  rw [hsz, location_int hv1, location_int hv1, location_int hv2, location_int hv2]
  rfl

/-- The metadata of a file names the file. -/
def FileIds (n : Node) : Prop := ∀ m ∈ childrenOf n (b! "metadata"), FileMetaIds m

theorem childrenOf_one {n : Node} {nm : Bytes} (h : (childrenOf n nm).length ≤ 1) : childrenOf n nm = (child n nm).toList := by
  unfold child
  cases hc : childrenOf n nm with
  | nil => rfl
  | cons a l =>
    rw [hc] at h
    cases l with
    | nil => rfl
    | cons b l => simp at h

/-- At most one part of that name. -/
def single (nm : Bytes) : Parts → Bool
  | .nil => true
  | .cons name _ hi _ rest => if name = nm then decide (hi = some 1) && !(partNamed nm rest) else single nm rest
where
  partNamed (nm : Bytes) : Parts → Bool
  | .nil => false
  | .cons name _ _ _ rest => name == nm || partNamed nm rest

theorem inOrder_noPart {nm : Bytes} : ∀ {ps : Parts} {l : List Node}, InOrder ps l → single.partNamed nm ps = false → l.filter (named nm) = []
  | .nil, l, h, _ => by rw [InOrder] at h; rw [h]; rfl
  | .cons name lo hi ty rest, l, h, hp => by
    rw [InOrder] at h
    obtain ⟨xs, ys, rfl, _, _, hx, hy⟩ := h
    rw [single.partNamed, Bool.or_eq_false_iff] at hp
    rw [List.filter_append, inOrder_noPart hy hp.2, List.append_nil, List.filter_eq_nil_iff]
    intro x hxm
    obtain ⟨as, cs, rfl, _⟩ := hx x hxm
    have := hp.1
    simp at this
    simp [named, Node.element]
    exact this

theorem inOrder_single {nm : Bytes} : ∀ {ps : Parts} {l : List Node}, InOrder ps l → single nm ps = true → (l.filter (named nm)).length ≤ 1
  | .nil, l, h, _ => by rw [InOrder] at h; rw [h]; simp
  | .cons name lo hi ty rest, l, h, hp => by
    rw [InOrder] at h
    obtain ⟨xs, ys, rfl, _, hh, hx, hy⟩ := h
    rw [single] at hp
    rw [List.filter_append]
    split at hp
    · simp only [Bool.and_eq_true, decide_eq_true_eq, Bool.not_eq_true'] at hp
      rw [inOrder_noPart hy hp.2, List.append_nil]
      exact Nat.le_trans (List.length_filter_le _ _) (hh 1 hp.1)
    · rename_i hne
      have : xs.filter (named nm) = [] := by
        rw [List.filter_eq_nil_iff]
        intro x hxm
        obtain ⟨as, cs, rfl, _⟩ := hx x hxm
        simp [named, Node.element]
        exact hne
      rw [this]
      exact inOrder_single hy hp

theorem child_single {n : Bytes} {as cs} {ds ps} (h : Valid (.seq ds ps) as cs) {nm : Bytes} (hs : single nm ps = true) {P : Node → Prop} :
    (∀ m ∈ childrenOf (.elem n as cs) nm, P m) ↔ ∀ m, child (.elem n as cs) nm = some m → P m := by
  rw [Valid] at h
  rw [childrenOf_one (by rw [childrenOf_eq]; exact inOrder_single h.2.2 hs)]
  simp

theorem file_loads {D as cs} (h : Valid (fileType D) as cs) (hpl : Plain (.elem (b! "file") as cs)) :
    LoadsAs (File.create.loadXml (.elem (b! "file") as cs))
      ((∀ p, (fileOf (.elem (b! "file") as cs)).preview = some p → PreviewFit p) ∧ FileIds (.elem (b! "file") as cs) ∧
        (∀ m, (fileOf (.elem (b! "file") as cs)).metadata = some m → ValidFileMeta m))
      (fileOf (.elem (b! "file") as cs)) := by
  have hk : PlainList cs := plain_children hpl
  unfold FileIds
  rw [child_single h rfl]
  unfold File.loadXml
  rw [selfOrFind_self]
  dsimp only
  -- the fields
  have ef : File.create.loadFields (.elem (b! "file") as cs) =
      { File.create with
        fileFormat := some ((attr (.elem (b! "file") as cs) (b! "formatId")).getD (b! "undefined"))
        name := text (.elem (b! "file") as cs) (b! "name")
        id := Document.int (text (.elem (b! "file") as cs) (b! "id")) (-1)
        uniqueId := text (.elem (b! "file") as cs) (b! "uniqueId")
        date := text (.elem (b! "file") as cs) (b! "date")
        parentId := Document.int (text (.elem (b! "file") as cs) (b! "parentId")) (-2) } := by
    unfold File.loadFields
    have e0 : intElement (.elem (b! "file") as cs) (b! "parentid") = none := by
      unfold intElement
      rw [find_child h hk (by decide) rfl, child_absent h rfl]
      rfl
    rw [e0, intElement_int h hpl (nm := b! "parentId") (by decide) (by decide) rfl rfl rfl (fun s hs => parent_integer hs),
      intElement_int h hpl (nm := b! "id") (by decide) (by decide) rfl rfl rfl (fun s hs => hs),
      find_child h hk (nm := b! "name") (by decide) rfl, find_child h hk (nm := b! "uniqueId") (by decide) rfl,
      find_child h hk (nm := b! "date") (by decide) rfl, getAttr_attr, strClone_eq]
    obtain ⟨x1, h1⟩ := child_needed (n := b! "file") h (nm := b! "name") rfl
    obtain ⟨x2, h2⟩ := child_needed (n := b! "file") h (nm := b! "uniqueId") rfl
    obtain ⟨x3, h3⟩ := child_needed (n := b! "file") h (nm := b! "date") rfl
    rw [← nodeText_child hpl (nm := b! "name") (by decide), ← nodeText_child hpl (nm := b! "uniqueId") (by decide),
      ← nodeText_child hpl (nm := b! "date") (by decide), h1, h2, h3]
    dsimp only
    rw [int_getD]
    cases attr (.elem (b! "file") as cs) (b! "formatId") <;> cases text (.elem (b! "file") as cs) (b! "parentId") <;> rfl
  rw [ef]
  -- the data
  obtain ⟨xd, hd⟩ := child_needed (n := b! "file") h (nm := b! "data") rfl
  obtain ⟨asd, csd, rfl, hvd, _, hpd⟩ := valid_child h hk (ty := dataType) rfl rfl hd
  have ed : ∀ f : File, f.loadDataPart (.elem (b! "file") as cs) = (f.loadDataV2 (.elem (b! "data") asd csd)).addType TYPE_DIGITAL := by
    intro f
    unfold File.loadDataPart
    rw [findUnder_child h hk (by decide) (by decide) rfl, hd]
  unfold File.loadPreview File.loadMetadata
  rw [find_child h hk (nm := b! "preview") (by decide) rfl, find_child h hk (nm := b! "metadata") (by decide) rfl]
  unfold fileOf
  dsimp only
  cases hp : child (.elem (b! "file") as cs) (b! "preview") with
  | none =>
    cases hm : child (.elem (b! "file") as cs) (b! "metadata") with
    | none =>
      simp only [Bool.true_eq_false, if_false]
      rw [ed, data_loads hvd hpd]
      unfold position
      rw [hd]
      exact ⟨by simp, fun _ => by simp [File.addType, File.create, TYPE_UNDEFINED, TYPE_DIGITAL]⟩
    | some m =>
      obtain ⟨asm, csm, rfl, hvm, _, hpm⟩ := valid_child h hk (ty := fileMetadataType) rfl rfl hm
      obtain ⟨m1, m2⟩ := fileMeta_loads hvm hpm
      simp only [Bool.true_eq_false, if_false]
      cases hml : (FileMeta.create.loadXml (.elem (b! "metadata") asm csm)).1 with
      | false =>
        rw [hml] at m1
        refine ⟨⟨by simp, fun hh => ?_⟩, fun hh => ?_⟩
        · exact absurd (m1.mpr ⟨hh.2.1 _ rfl, hh.2.2 _ rfl⟩) (by simp)
        · exact absurd (m1.mpr ⟨hh.2.1 _ rfl, hh.2.2 _ rfl⟩) (by simp)
      | true =>
        have hc := m1.mp hml
        simp only [Bool.true_eq_false, if_false]
        rw [ed, data_loads hvd hpd, m2 hc]
        unfold position
        rw [hd]
        refine ⟨⟨fun _ => ⟨by simp, ?_, ?_⟩, by simp⟩, fun _ => by simp [File.addType, File.create, TYPE_UNDEFINED, TYPE_DIGITAL]⟩
        · intro m hmm; injection hmm with hmm; rw [← hmm]; exact hc.1
        · intro m hmm; injection hmm with hmm; rw [← hmm]; exact hc.2
  | some p =>
    obtain ⟨asp, csp, rfl, hvp, _, hpp⟩ := valid_child h hk (ty := previewType D) rfl rfl hp
    obtain ⟨p1, p2⟩ := preview_loads hvp hpp
    dsimp only
    rcases Bool.eq_false_or_eq_true (Preview.create.loadXml (.elem (b! "preview") asp csp)).1 with hpl' | hpl'
    rotate_left
    · rw [hpl'] at p1
      simp only [hpl', if_true]
      refine ⟨⟨by simp, fun hh => ?_⟩, fun hh => ?_⟩
      · exact absurd (p1.mpr (hh.1 _ rfl)) (by simp)
      · exact absurd (p1.mpr (hh.1 _ rfl)) (by simp)
    · have hcp := p1.mp hpl'
      simp only [hpl', Bool.true_eq_false, if_false]
      cases hm : child (.elem (b! "file") as cs) (b! "metadata") with
      | none =>
        simp only [Bool.true_eq_false, if_false]
        rw [ed, data_loads hvd hpd, p2 hcp]
        unfold position
        rw [hd]
        refine ⟨⟨fun _ => ⟨?_, by simp, by simp⟩, by simp⟩, fun _ => by simp [File.addType, File.create, TYPE_UNDEFINED, TYPE_DIGITAL, TYPE_PREVIEW]⟩
        intro m hmm; injection hmm with hmm; rw [← hmm]; exact hcp
      | some m =>
        obtain ⟨asm, csm, rfl, hvm, _, hpm⟩ := valid_child h hk (ty := fileMetadataType) rfl rfl hm
        obtain ⟨m1, m2⟩ := fileMeta_loads hvm hpm
        dsimp only
        rcases Bool.eq_false_or_eq_true (FileMeta.create.loadXml (.elem (b! "metadata") asm csm)).1 with hml | hml
        rotate_left
        · rw [hml] at m1
          simp only [hml, if_true]
          refine ⟨⟨by simp, fun hh => ?_⟩, fun hh => ?_⟩
          · exact absurd (m1.mpr ⟨hh.2.1 _ rfl, hh.2.2 _ rfl⟩) (by simp)
          · exact absurd (m1.mpr ⟨hh.2.1 _ rfl, hh.2.2 _ rfl⟩) (by simp)
        · have hc := m1.mp hml
          simp only [hml, Bool.true_eq_false, if_false]
          rw [ed, data_loads hvd hpd, m2 hc, p2 hcp]
          unfold position
          rw [hd]
          refine ⟨⟨fun _ => ⟨?_, ?_, ?_⟩, by simp⟩, fun _ => by simp [File.addType, File.create, TYPE_UNDEFINED, TYPE_DIGITAL, TYPE_PREVIEW]⟩
          · intro m hmm; injection hmm with hmm; rw [← hmm]; exact hcp
          · intro m hmm; injection hmm with hmm; rw [← hmm]; exact hc.1
          · intro m hmm; injection hmm with hmm; rw [← hmm]; exact hc.2

/-! ### Lists of files, reels -/

theorem valid_preview_fit {f : File} {n : Node} (e : f = fileOf n) (hv : ValidFile f) : ∀ p, f.preview = some p → PreviewFit p := by
  intro p hp
  obtain ⟨_, _, _, _, h1, _⟩ := hv
  have ht : f.types.testBit 1 = true := by
    rw [e] at hp ⊢
    unfold fileOf at hp ⊢
    dsimp only at hp ⊢
    cases hc : child n (b! "preview") with
    | none => rw [hc] at hp; cases hp
    | some x => simp; decide
  obtain ⟨q, hq, l, hl, _, hall⟩ := h1 ht
  rw [hp] at hq
  injection hq with hq
  unfold PreviewFit
  rw [hq, hl]
  exact hall

theorem files_loop (ns : List Node) : ∀ f : Files, f.loadLoop ns = loopG File.create.loadXml Files.addToc f ns := by
  induction ns with
  | nil => intro f; rfl
  | cons n ns ih => intro f; rw [Files.loadLoop, loopG]; dsimp only; rw [ih]

/-- The metadata of all files name a file. -/
def FilesIds (n : Node) : Prop := ∀ f ∈ childrenOf n (b! "file"), FileIds f

theorem files_loads {D as cs} (h : Valid (filesType D) as cs) (hpl : Plain (.elem (b! "files") as cs)) :
    LoadsAs (Files.create.loadXml (.elem (b! "files") as cs))
      (FilesIds (.elem (b! "files") as cs) ∧ ValidFiles (filesOf (.elem (b! "files") as cs)))
      (filesOf (.elem (b! "files") as cs)) := by
  have hk : PlainList cs := plain_children hpl
  unfold Files.loadXml
  rw [findAll_children h hk (by decide) rfl, files_loop]
  have hl : ∀ n ∈ childrenOf (.elem (b! "files") as cs) (b! "file"), LoadsAs (File.create.loadXml n)
      ((∀ p, (fileOf n).preview = some p → PreviewFit p) ∧ FileIds n ∧ (∀ m, (fileOf n).metadata = some m → ValidFileMeta m)) (fileOf n) := by
    intro n hn
    obtain ⟨as', cs', rfl, hv, _, hpx⟩ := valid_childrenOf h hk (ty := fileType D) rfl rfl hn
    exact file_loads hv hpx
  have := list_loads (mk := Files.mk) (add := Files.addToc)
    (p := File.isValid) (by intro v x; unfold Files.addToc; cases h1 : x.isValid <;> simp [h1]) _ hl
  refine LoadsAs.congr this ?_
  unfold FilesIds ValidFiles filesOf
  rw [listOf_getD]
  simp only [C37_file, List.mem_map, forall_exists_index, and_imp, forall_apply_eq_imp_iff₂]
  constructor
  · intro h; exact ⟨fun n hn => (h n hn).1.2.1, fun n hn => (h n hn).2⟩
  · rintro ⟨h1, h2⟩ n hn
    exact ⟨⟨valid_preview_fit rfl (h2 n hn), h1 n hn, (h2 n hn).2.2.2.2.2⟩, h2 n hn⟩

theorem reel_loads {D as cs} (h : Valid (reelType D) as cs) (hpl : Plain (.elem (b! "reel") as cs)) :
    LoadsAs (Reel.create.loadXml (.elem (b! "reel") as cs))
      ((∀ f ∈ childrenOf (.elem (b! "reel") as cs) (b! "files"), FilesIds f) ∧
        ∀ f, (reelOf (.elem (b! "reel") as cs)).files = some f → ValidFiles f)
      (reelOf (.elem (b! "reel") as cs)) := by
  have hk : PlainList cs := plain_children hpl
  rw [child_single h rfl]
  unfold Reel.loadXml
  rw [selfOrFind_self]
  dsimp only
  obtain ⟨xi, hi⟩ := child_needed (n := b! "reel") h (nm := b! "id") rfl
  obtain ⟨xf, hf⟩ := child_needed (n := b! "reel") h (nm := b! "files") rfl
  obtain ⟨asf, csf, rfl, hvf, _, hpf⟩ := valid_child h hk (ty := filesType D) rfl rfl hf
  obtain ⟨f1, f2⟩ := files_loads hvf hpf
  rw [find_child h hk (nm := b! "id") (by decide) rfl, find_child h hk (nm := b! "files") (by decide) rfl, hi, hf]
  dsimp only
  have et := nodeText_child hpl (nm := b! "id") (by decide)
  rw [hi] at et
  rw [et]
  unfold reelOf
  rw [hf]
  have hiff : (FilesIds (.elem (b! "files") asf csf) ∧ ValidFiles (filesOf (.elem (b! "files") asf csf))) ↔
      ((∀ m, some (Node.elem (b! "files") asf csf) = some m → FilesIds m) ∧
        ∀ f, (some (Node.elem (b! "files") asf csf)).map filesOf = some f → ValidFiles f) := by simp
  refine ⟨f1.trans hiff, fun hc => ?_⟩
  rw [f2 (hiff.mpr hc)]
  rfl

theorem reels_loop (ns : List Node) : ∀ f : Reels, f.loadLoop ns = loopG Reel.create.loadXml Reels.addReel f ns := by
  induction ns with
  | nil => intro f; rfl
  | cons n ns ih => intro f; rw [Reels.loadLoop, loopG]; dsimp only; rw [ih]

/-- The metadata of all files of all reels name a file. -/
def ReelsIds (n : Node) : Prop := ∀ r ∈ childrenOf n (b! "reel"), ∀ f ∈ childrenOf r (b! "files"), FilesIds f

theorem reels_loads {D as cs} (h : Valid (reelsType D) as cs) (hpl : Plain (.elem (b! "reels") as cs)) :
    LoadsAs (Reels.create.loadXml (.elem (b! "reels") as cs))
      (ReelsIds (.elem (b! "reels") as cs) ∧ ValidReels (reelsOf (.elem (b! "reels") as cs)))
      (reelsOf (.elem (b! "reels") as cs)) := by
  have hk : PlainList cs := plain_children hpl
  have en : named (b! "reels") (.elem (b! "reels") as cs) = true := by simp [named, Node.element]
  unfold Reels.loadXml Reels.loadNodes
  rw [if_pos en, findAll_children h hk (by decide) rfl, reels_loop]
  have hl : ∀ n ∈ childrenOf (.elem (b! "reels") as cs) (b! "reel"), LoadsAs (Reel.create.loadXml n)
      ((∀ f ∈ childrenOf n (b! "files"), FilesIds f) ∧ ∀ f, (reelOf n).files = some f → ValidFiles f) (reelOf n) := by
    intro n hn
    obtain ⟨as', cs', rfl, hv, _, hpx⟩ := valid_childrenOf h hk (ty := reelType D) rfl rfl hn
    exact reel_loads hv hpx
  have := list_loads (mk := Reels.mk) (add := Reels.addReel)
    (p := Reel.isValid) (by intro v x; unfold Reels.addReel; cases h1 : x.isValid <;> simp [h1]) _ hl
  refine LoadsAs.congr this ?_
  unfold ReelsIds ValidReels reelsOf
  rw [listOf_getD]
  simp only [C37_reel, List.mem_map, forall_exists_index, and_imp, forall_apply_eq_imp_iff₂]
  constructor
  · intro h; exact ⟨fun n hn => (h n hn).1.1, fun n hn => (h n hn).2⟩
  · rintro ⟨h1, h2⟩ n hn
    exact ⟨⟨h1 n hn, (h2 n hn).2⟩, h2 n hn⟩

end Afs
