import Verif.Proof.Document7
import Verif.Proof.IoTech
import Verif.Spec.ControlSchema
/-! # Loading documents that follow the schema of the control frame -/
namespace Afs
open Spec Xml Spec.Schema Spec.Document

/-- The element of a document, and searching for others from the document. -/
theorem root_below {name : Bytes} (hp : Proper name) (hx : (b! "?xml").isPrefixOf name = false) {ty : Ty}
    {doc : Node} (hc : Conforms name ty doc) (hpl : PlainDoc doc) :
    ∃ as cs, root doc = some (.elem name as cs) ∧ Valid ty as cs ∧ Plain (.elem name as cs) ∧
      (∀ nm, Proper nm → nm ≠ name → find doc nm = find (.elem name as cs) nm) ∧
      (doc.element ≠ some name → find doc name = some (.elem name as cs)) ∧ (doc.element = some name → doc = .elem name as cs) := by
  obtain ⟨as, cs, h1, h2, h3, h4⟩ := root_find hp hx hc hpl
  refine ⟨as, cs, h1, h3, h4, ?_, ?_, ?_⟩
  · intro nm hnm hne
    obtain ⟨as', cs', hv, rfl | ⟨d, ks, rfl, hd, he⟩⟩ := hc
    · rw [selfOrFind_self] at h2
      injection h2 with h2
      rw [h2]
    · have hd' : (b! "?xml").isPrefixOf d = true := List.isPrefixOf_iff_prefix.mpr hd
      unfold PlainDoc at hpl
      rw [roots, if_pos hd'] at hpl
      unfold root at h1
      rw [roots, if_pos hd', he] at h1
      injection h1 with h1
      rw [find_allL, Node.children, allL_elements hpl hnm, he, allL_one, h1, if_neg (by simp [named, Node.element]; exact fun h => hne h.symm), List.nil_append,
        find_allL]
  · intro hne
    unfold selfOrFind at h2
    rw [if_neg] at h2
    · exact h2
    · intro h
      unfold named at h
      exact hne (by simpa using h)
  · intro h
    unfold selfOrFind at h2
    rw [if_pos (by unfold named; rw [h]; simp)] at h2
    injection h2

/-! ## Administrative metadata -/

theorem tagText_field {n : Bytes} {as cs} {ds ps} (h : Valid (.seq ds ps) as cs) (hpl : Plain (.elem n as cs)) {nm : Bytes}
    (hp : Proper nm) (ht : nm ∈ textNames) (hd : direct nm ps = true) :
    Admin.tagText (.elem n as cs) nm = field (.elem n as cs) nm := by
  unfold Admin.tagText field
  rw [find_child h (plain_children hpl) hp hd]
  cases hc : child (.elem n as cs) nm with
  | none => rfl
  | some x =>
    obtain ⟨hm, as', cs', rfl⟩ := child_named hc
    dsimp only
    rw [nodeText_content (plain_mem (plain_children hpl) hm) ht]
    rfl

theorem direct_admin (T : Bytes → Prop) (e : Edition) {ds ps} (he : adminType T e = .seq ds ps) :
    ∀ nm ∈ [b! "ReelId", b! "PrintReelId", b! "Title", b! "Description", b! "Creator", b! "CreationDate"], direct nm ps = true := by
  unfold adminType at he
  injection he with _ he
  subst he
  intro nm hm
  simp only [List.mem_cons, List.not_mem_nil, or_false] at hm
  cases e <;> rcases hm with rfl | rfl | rfl | rfl | rfl | rfl <;> rfl

theorem admin_loads {T : Bytes → Prop} {e : Edition} {as cs} (h : Valid (adminType T e) as cs) (hpl : Plain (.elem (b! "AdministrativeMetadata") as cs))
    (a : Admin) {doc : Node} (hf : find doc (b! "AdministrativeMetadata") = some (.elem (b! "AdministrativeMetadata") as cs)) :
    a.loadXml doc = (true, adminOf (.elem (b! "AdministrativeMetadata") as cs)) := by
  have hd := direct_admin T e rfl
  unfold Admin.loadXml adminOf
  rw [hf]
  dsimp only
  rw [tagText_field h hpl (nm := b! "ReelId") (by decide) (by decide) (hd _ (by decide)),
    tagText_field h hpl (nm := b! "PrintReelId") (by decide) (by decide) (hd _ (by decide)),
    tagText_field h hpl (nm := b! "Title") (by decide) (by decide) (hd _ (by decide)),
    tagText_field h hpl (nm := b! "Description") (by decide) (by decide) (hd _ (by decide)),
    tagText_field h hpl (nm := b! "Creator") (by decide) (by decide) (hd _ (by decide)),
    tagText_field h hpl (nm := b! "CreationDate") (by decide) (by decide) (hd _ (by decide))]

theorem none_inside {n : Bytes} {as cs} {ty : Ty} (h : Valid ty as cs) (hpl : Plain (.elem n as cs)) {nm : Bytes} (hp : Proper nm)
    (hn : nm ∉ docTyNames ty) : find (.elem n as cs) nm = none := by
  rw [find_allL, Node.children, allL_valid hp ty h (plain_children hpl) hn]
  rfl

/-! ## Boxing formats -/

section
variable {L : ConfigLib}

theorem loadProperty_given (k : Bytes) (c : L.Config) (p : Node) : Format.loadProperty k c p =
    Format.setAll c (((given p (b! "key")).bind fun a => (given p (b! "value")).map fun v => (k, a, v)).toList) := by
  unfold Format.loadProperty given Format.setAll
  rw [getAttr_attr, getAttr_attr]
  cases attr p (b! "key") with
  | none => rfl
  | some a =>
    by_cases ha : a = []
    · simp [ha]
    · cases attr p (b! "value") with
      | none => simp [ha]
      | some v => by_cases hv : v = [] <;> simp [ha, hv]

theorem loadProperties_given (k : Bytes) (ps : List Node) : ∀ c : L.Config, ps.foldl (Format.loadProperty k) c =
    Format.setAll c (ps.filterMap fun p => (given p (b! "key")).bind fun a => (given p (b! "value")).map fun v => (k, a, v)) := by
  induction ps with
  | nil => intro c; rfl
  | cons p ps ih =>
    intro c
    rw [List.foldl_cons, ih, loadProperty_given, ← Format.setAll_append]
    congr 1
    rw [List.filterMap_cons]
    cases h : (given p (b! "key")).bind fun a => (given p (b! "value")).map fun v => (k, a, v) <;> rfl

theorem loadVersion_given (k : Bytes) (c : L.Config) (n : Node) : Format.loadVersion k c n =
    Format.setAll c (((attr n (b! "version")).map fun v => (k, b! "version", v)).toList) := by
  unfold Format.loadVersion
  rw [getAttr_attr]
  cases attr n (b! "version") <;> rfl

theorem children_named {n : Node} {nm : Bytes} (hp : Proper nm) : n.children.filter (named nm) = childrenOf n nm := by
  rw [childrenOf_eq, named_elements hp]

theorem loadClass_given (c : L.Config) (n : Node) : Format.loadClass c n = Format.setAll c (classSettings n) := by
  unfold Format.loadClass classSettings given
  rw [getAttr_attr]
  cases attr n (b! "key") with
  | none => rfl
  | some k =>
    by_cases hk : k = []
    · simp [hk]; rfl
    · simp only [hk, if_false, Option.bind_some]
      rw [children_named (by decide), loadProperties_given, loadVersion_given, ← Format.setAll_append]
      rfl

theorem loadConfig_settings (n : Node) : (Format.loadConfig n : L.Config) = Format.setAll L.create (settings n) := by
  unfold Format.loadConfig settings
  rw [children_named (by decide)]
  generalize L.create = c
  induction childrenOf n (b! "class") generalizing c with
  | nil => rfl
  | cons x xs ih => rw [List.foldl_cons, ih, loadClass_given, List.flatMap_cons, Format.setAll_append]

theorem get_last (hL : LawfulConfig L) {l : List (Bytes × Bytes × Bytes)} (ha : NoAlias l) (k p : Bytes) :
    ∀ c : L.Config, configGet L (Format.setAll c l) k p = (lastValue l k p).or (configGet L c k p) := by
  induction l with
  | nil => intro c; rfl
  | cons x l ih =>
    intro c
    obtain ⟨k', p', v'⟩ := x
    have e : Format.setAll c ((k', p', v') :: l) = Format.setAll (L.setProperty c k' p' v') l := rfl
    rw [e, ih (fun x hx => ha x (by simp [hx])), hL.set_get c k' p' v' (ha _ List.mem_cons_self)]
    unfold lastValue
    rw [List.reverse_cons, List.find?_append]
    cases h : l.reverse.find? fun x => decide (x.1 = k ∧ x.2.1 = p) with
    | some y => rfl
    | none =>
      by_cases hk : k' = k ∧ p' = p
      · obtain ⟨rfl, rfl⟩ := hk
        simp
      · have hk' : ¬ (k = k' ∧ p = p') := fun h => hk ⟨h.1.symm, h.2.symm⟩
        simp [hk, hk']

theorem holds_settings (hL : LawfulConfig L) {l : List (Bytes × Bytes × Bytes)} (ha : NoAlias l) : Holds L (Format.setAll L.create l) l := by
  refine ⟨?_, ?_, ?_⟩
  · intro k p
    rw [get_last hL ha]
    unfold configGet
    rw [hL.create_classes]
    cases lastValue l k p <;> rfl
  · intro k
    rw [Format.class_set hL ha]
    unfold HasClass
    rw [hL.create_classes]
    constructor
    · rintro (⟨p, v, h⟩ | h)
      · exact ⟨_, h, rfl⟩
      · cases h
    · rintro ⟨⟨k', p, v⟩, h, rfl⟩
      exact .inl ⟨p, v, h⟩
  · rw [Format.aliases_set hL ha, hL.create_aliases]

theorem work_loads {as cs} {e : Edition} (h : Valid (formatType e) as cs) (hpl : Plain (.elem (b! "work") as cs)) (f : Format L) {doc : Node}
    (hn : find doc (b! "NULL") = none) (hf : find doc (b! "work") = some (.elem (b! "work") as cs)) :
    f.loadXml doc = (true, Format.create2 (some (Format.setAll L.create (settings (.elem (b! "work") as cs))))) := by
  unfold Format.loadXml
  rw [hn, hf]
  dsimp only
  rw [loadConfig_settings]
  rfl

end

/-! ## Lists of files -/

theorem tocs_nodes {D : Char → Prop} {e : Edition} {n : Bytes} {as cs} (h : Valid (.seq [] (Edition.tocs D e)) as cs) (hpl : Plain (.elem n as cs)) :
    findAll (.elem n as cs) (b! "file") = fileNodes (.elem n as cs) ∧
      ∀ f ∈ fileNodes (.elem n as cs), ∃ as' cs', f = .elem (b! "file") as' cs' ∧ Valid (fileType D) as' cs' ∧ Plain f := by
  have hk : PlainList cs := plain_children hpl
  cases e with
  | published =>
    have e2 : childrenOf (.elem n as cs) (b! "files") = [] := by
      have := child_absent (n := n) h (nm := b! "files") rfl
      unfold child at this
      exact List.head?_eq_none_iff.mp this
    have e3 : fileNodes (.elem n as cs) = childrenOf (.elem n as cs) (b! "file") := by
      unfold fileNodes; rw [e2, List.flatMap_nil, List.append_nil]
    rw [e3]
    refine ⟨findAll_children h hk (by decide) rfl, ?_⟩
    intro f hf
    obtain ⟨as', cs', h1, h2, _, h4⟩ := valid_childrenOf h hk (ty := fileType D) rfl rfl hf
    exact ⟨as', cs', h1, h2, h4⟩
  | written =>
    have e2 : childrenOf (.elem n as cs) (b! "file") = [] := by
      have := child_absent (n := n) h (nm := b! "file") rfl
      unfold child at this
      exact List.head?_eq_none_iff.mp this
    have e3 : fileNodes (.elem n as cs) = (childrenOf (.elem n as cs) (b! "files")).flatMap (childrenOf · (b! "file")) := by
      unfold fileNodes; rw [e2, List.nil_append]
    have hv : ∀ x ∈ childrenOf (.elem n as cs) (b! "files"), ∃ as' cs', x = .elem (b! "files") as' cs' ∧ Valid (filesType D) as' cs' ∧ PlainList cs' ∧ Plain x :=
      fun x hx => valid_childrenOf h hk (ty := filesType D) rfl rfl hx
    rw [e3]
    constructor
    · have hall : elements cs = childrenOf (.elem n as cs) (b! "files") := by
        rw [childrenOf_eq]
        symm
        refine List.filter_eq_self.mpr ?_
        intro x hx
        rw [Valid, Edition.tocs, InOrder] at h
        obtain ⟨xs, ys, e, _, _, hx', hy⟩ := h.2.2
        rw [InOrder] at hy
        subst hy
        rw [List.append_nil] at e
        have hx : x ∈ elements cs := hx
        rw [e] at hx
        obtain ⟨as', cs', rfl, _⟩ := hx' x hx
        simp [named, Node.element]
      rw [findAll_allL, Node.children, allL_elements hk (by decide), hall]
      generalize childrenOf (.elem n as cs) (b! "files") = l at hv
      induction l with
      | nil => rw [allL_nil]; rfl
      | cons x l ih =>
        obtain ⟨as', cs', rfl, hv1, hv2, hv3⟩ := hv x List.mem_cons_self
        rw [allL_cons, ih (fun y hy => hv y (List.mem_cons_of_mem _ hy)), allL_one, show named (b! "file") (.elem (b! "files") as' cs') = false from rfl, List.flatMap_cons]
        congr 1
        rw [← findAll_allL, findAll_children hv1 hv2 (by decide) rfl]
        rfl
    · intro f hf
      obtain ⟨x, hx, hf⟩ := List.mem_flatMap.mp hf
      obtain ⟨as', cs', rfl, hv1, hv2, hv3⟩ := hv x hx
      obtain ⟨as'', cs'', h1, h2, _, h4⟩ := valid_childrenOf hv1 hv2 (ty := fileType D) rfl rfl hf
      exact ⟨as'', cs'', h1, h2, h4⟩

theorem tocs_loads {D : Char → Prop} {e : Edition} {n : Bytes} {as cs} (h : Valid (.seq [] (Edition.tocs D e)) as cs) (hpl : Plain (.elem n as cs)) :
    LoadsAs (Files.create.loadXml (.elem n as cs)) (FilesFit (.elem n as cs)) (tocsOf (.elem n as cs)) := by
  obtain ⟨h1, h2⟩ := tocs_nodes h hpl
  unfold Files.loadXml
  rw [h1, files_loop]
  have hl : ∀ f ∈ fileNodes (.elem n as cs), LoadsAs (File.create.loadXml f)
      ((∀ p, (fileOf f).preview = some p → PreviewFit p) ∧ FileIds f ∧ (∀ m, (fileOf f).metadata = some m → ValidFileMeta m)) (fileOf f) := by
    intro f hf
    obtain ⟨as', cs', rfl, hv, hpx⟩ := h2 f hf
    exact file_loads hv hpx
  have := list_loads (mk := Files.mk) (add := Files.addToc)
    (p := File.isValid) (by intro v x; unfold Files.addToc; cases h1 : x.isValid <;> simp [h1]) _ hl
  refine LoadsAs.congr this ?_
  unfold FilesFit
  simp only [C37_file]
  constructor
  · intro h f hf; exact ⟨(h f hf).2, (h f hf).1.2.1⟩
  · intro h n hn
    exact ⟨⟨valid_preview_fit rfl (h n hn).1, (h n hn).2, (h n hn).1.2.2.2.2.2⟩, (h n hn).1⟩

/-! ## Technical metadata -/

section
variable {L : ConfigLib}

theorem tech_parts {D : Char → Prop} {e : Edition} {ds ps} (he : technicalType D e = .seq ds ps) :
    (∀ nm ∈ [b! "BoxerFormat", b! "Tocs", b! "Applications"], direct nm ps = true ∧ onePart nm ps = true) ∧
    partTy (b! "BoxerFormat") ps = some (boxerFormatType e) ∧ partTy (b! "Tocs") ps = some (.seq [] (Edition.tocs D e)) ∧
    needed (b! "BoxerFormat") ps = true ∧ needed (b! "Tocs") ps = true ∧
    (e = .published → partTy (b! "Applications") ps = none) ∧
    (e = .written → partTy (b! "Applications") ps = some (.seq [] (Edition.tocs D .written))) := by
  unfold technicalType at he
  injection he with _ he
  subst he
  refine ⟨?_, ?_⟩
  · intro nm hm
    simp only [List.mem_cons, List.not_mem_nil, or_false] at hm
    cases e <;> rcases hm with rfl | rfl | rfl <;> exact ⟨rfl, rfl⟩
  · cases e
    · exact ⟨rfl, rfl, rfl, rfl, fun _ => rfl, (fun h => nomatch h)⟩
    · exact ⟨rfl, rfl, rfl, rfl, (fun h => nomatch h), fun _ => rfl⟩

theorem technical_loads (hL : LawfulConfig L) {D : Char → Prop} {e : Edition} {as cs} (h : Valid (technicalType D e) as cs)
    (hpl : Plain (.elem (b! "TechnicalMetadata") as cs)) (t : TechMeta L) {doc : Node}
    (hf : find doc (b! "TechnicalMetadata") = some (.elem (b! "TechnicalMetadata") as cs)) :
    ∃ x, child (.elem (b! "TechnicalMetadata") as cs) (b! "Tocs") = some x ∧
      ((t.loadXml doc).1 = true ↔ FilesFit x) ∧
      (FilesFit x → SaysTechnical t (t.loadXml doc).2 (.elem (b! "TechnicalMetadata") as cs)) ∧
      (¬ FilesFit x → (t.loadXml doc).2 = { t with format := none, tocs := none }) := by
  have hk : PlainList cs := plain_children hpl
  obtain ⟨p1, p2, p3, p4, p5, p6, p7⟩ := tech_parts (D := D) (e := e) rfl
  obtain ⟨b, hb⟩ := child_needed (n := b! "TechnicalMetadata") h p4
  obtain ⟨x, hx⟩ := child_needed (n := b! "TechnicalMetadata") h p5
  obtain ⟨bas, bcs, rfl, hbv, hbk, hbp⟩ := valid_child h hk p2 (p1 _ (by decide)).2 hb
  obtain ⟨xas, xcs, rfl, hxv, hxk, hxp⟩ := valid_child h hk p3 (p1 _ (by decide)).2 hx
  refine ⟨_, hx, ?_⟩
  have fb := find_child (n := b! "TechnicalMetadata") h hk (nm := b! "BoxerFormat") (by decide) (p1 _ (by decide)).1
  have fx := find_child (n := b! "TechnicalMetadata") h hk (nm := b! "Tocs") (by decide) (p1 _ (by decide)).1
  have fa := find_child (n := b! "TechnicalMetadata") h hk (nm := b! "Applications") (by decide) (p1 _ (by decide)).1
  rw [hb] at fb
  rw [hx] at fx
  -- the format
  obtain ⟨w, hw⟩ := child_needed (n := b! "BoxerFormat") hbv (nm := b! "work") rfl
  obtain ⟨was, wcs, rfl, hwv, hwk, hwp⟩ := valid_child hbv hbk (ty := formatType e) rfl rfl hw
  have fw := find_child (n := b! "BoxerFormat") hbv hbk (nm := b! "work") (by decide) rfl
  rw [hw] at fw
  have fn : find (.elem (b! "BoxerFormat") bas bcs) (b! "NULL") = none :=
    none_inside hbv hbp (by decide) (by unfold boxerFormatType formatType classType propertyType; simp only [docTyNames, docPartNames]; decide)
  have hform : TechMeta.loadFormat (.elem (b! "BoxerFormat") bas bcs) =
      some (Format.create2 (some (Format.setAll L.create (settings (.elem (b! "work") was wcs))))) := by
    unfold TechMeta.loadFormat
    rw [work_loads hwv hwp Format.create fn fw]
    rfl
  have hset : techSettings (.elem (b! "TechnicalMetadata") as cs) = settings (.elem (b! "work") was wcs) := by
    unfold techSettings
    rw [hb, Option.bind_some, hw]
    rfl
  obtain ⟨l1, l2⟩ := tocs_loads hxv hxp
  obtain ⟨form, hform'⟩ : ∃ f : TechMeta L, f =
    { t with format := some (Format.create2 (some (Format.setAll L.create (settings (.elem (b! "work") was wcs))))) } := ⟨_, rfl⟩
  have hload : t.loadXml doc = if (TechMeta.loadTocs form (some (.elem (b! "Tocs") xas xcs))).1 = false
      then TechMeta.loadTocs form (some (.elem (b! "Tocs") xas xcs))
      else (true, TechMeta.loadApps (TechMeta.loadTocs form (some (.elem (b! "Tocs") xas xcs))).2
        (child (.elem (b! "TechnicalMetadata") as cs) (b! "Applications"))) := by
    unfold TechMeta.loadXml
    rw [hf]
    dsimp only
    rw [fb]
    dsimp only
    rw [fx, fa, hform, hform']
  by_cases hfit : FilesFit (.elem (b! "Tocs") xas xcs)
  · have ht : Files.create.loadXml (.elem (b! "Tocs") xas xcs) = (true, tocsOf (.elem (b! "Tocs") xas xcs)) :=
      Prod.ext (l1.mpr hfit) (l2 hfit)
    have hload2 : t.loadXml doc = (true, TechMeta.loadApps
        { t with
          format := some (Format.create2 (some (Format.setAll L.create (settings (.elem (b! "work") was wcs)))))
          tocs := some (tocsOf (.elem (b! "Tocs") xas xcs)) } (child (.elem (b! "TechnicalMetadata") as cs) (b! "Applications"))) := by
      rw [hload, hform']
      unfold TechMeta.loadTocs
      rw [Option.map_some, ht]
      rfl
    rw [hload2]
    refine ⟨iff_of_true rfl hfit, fun _ => ?_, fun h => absurd hfit h⟩
    unfold SaysTechnical
    rw [hset, hx]
    dsimp only
    cases ha : child (.elem (b! "TechnicalMetadata") as cs) (b! "Applications") with
    | none => exact ⟨⟨_, rfl, holds_settings hL⟩, rfl, fun _ => rfl, (fun a ha => nomatch ha)⟩
    | some a =>
      have hw : e = .written := by
        cases e with
        | written => rfl
        | published => rw [child_absent (n := b! "TechnicalMetadata") h (p6 rfl)] at ha; cases ha
      obtain ⟨aas, acs, rfl, hav, hak, hap⟩ := valid_child h hk (p7 hw) (p1 _ (by decide)).2 ha
      obtain ⟨m1, m2⟩ := tocs_loads hav hap
      have hparts : ∀ s : TechMeta L, (TechMeta.loadApps s (some (.elem (b! "Applications") aas acs))).format = s.format ∧
          (TechMeta.loadApps s (some (.elem (b! "Applications") aas acs))).tocs = s.tocs ∧
          (FilesFit (.elem (b! "Applications") aas acs) → (TechMeta.loadApps s (some (.elem (b! "Applications") aas acs))).apps =
            some (tocsOf (.elem (b! "Applications") aas acs))) ∧
          (¬ FilesFit (.elem (b! "Applications") aas acs) → (TechMeta.loadApps s (some (.elem (b! "Applications") aas acs))).apps = none) := by
        intro s
        unfold TechMeta.loadApps
        rw [Option.map_some]
        by_cases hfa : FilesFit (.elem (b! "Applications") aas acs)
        · have : Files.create.loadXml (.elem (b! "Applications") aas acs) = (true, tocsOf (.elem (b! "Applications") aas acs)) :=
            Prod.ext (m1.mpr hfa) (m2 hfa)
          rw [this]
          exact ⟨rfl, rfl, fun _ => rfl, fun h => absurd hfa h⟩
        · have h1 : (Files.create.loadXml (.elem (b! "Applications") aas acs)).1 = false := by
            cases hb : (Files.create.loadXml (.elem (b! "Applications") aas acs)).1 with
            | false => rfl
            | true => exact absurd (m1.mp hb) hfa
          have : Files.create.loadXml (.elem (b! "Applications") aas acs) = (false, (Files.create.loadXml (.elem (b! "Applications") aas acs)).2) :=
            Prod.ext h1 rfl
          rw [this]
          exact ⟨rfl, rfl, fun h => absurd h hfa, fun _ => rfl⟩
      obtain ⟨q1, q2, q3, q4⟩ := hparts
        { t with
          format := some (Format.create2 (some (Format.setAll L.create (settings (.elem (b! "work") was wcs)))))
          tocs := some (tocsOf (.elem (b! "Tocs") xas xcs)) }
      refine ⟨⟨_, q1, holds_settings hL⟩, q2, (fun h => nomatch h), ?_⟩
      intro a ha
      injection ha with ha
      subst ha
      exact ⟨q3, q4⟩
  · have h1 : (Files.create.loadXml (.elem (b! "Tocs") xas xcs)).1 = false := by
      cases hb : (Files.create.loadXml (.elem (b! "Tocs") xas xcs)).1 with
      | false => rfl
      | true => exact absurd (l1.mp hb) hfit
    have ht : Files.create.loadXml (.elem (b! "Tocs") xas xcs) = (false, (Files.create.loadXml (.elem (b! "Tocs") xas xcs)).2) := Prod.ext h1 rfl
    have hload2 : t.loadXml doc = (false, { t with format := none, tocs := none }) := by
      rw [hload, hform']
      unfold TechMeta.loadTocs
      rw [Option.map_some, ht]
      rfl
    rw [hload2]
    exact ⟨iff_of_false (by simp) hfit, fun h => absurd h hfit, fun _ => rfl⟩

end

end Afs
