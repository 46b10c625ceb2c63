import Verif.Proof.IoAdmin
/-! # Saving and loading boxing formats -/
namespace Afs
open Spec Xml

theorem readList_filter {ts us : List Node} (h : ReadList ts us) (nm : Bytes) :
    ReadList (ts.filter (named nm)) (us.filter (named nm)) := by
  induction h with
  | nil => exact .nil
  | cons h _ ih =>
    rw [List.filter_cons, List.filter_cons, isRead_named h]
    split
    · exact .cons h ih
    · exact ih

theorem filter_named (l : List Node) (nm : Bytes) : (l.filter isElem).filter (named nm) = l.filter (named nm) := by
  rw [List.filter_filter]
  apply List.filter_congr
  intro x _
  cases h : named nm x with
  | false => simp
  | true => simp [named_isElem h]

theorem isRead_namedChildren {t u : Node} (h : IsRead t u) (nm : Bytes) :
    ReadList (t.children.filter (named nm)) (u.children.filter (named nm)) := by
  have := readList_filter (isRead_children h) nm
  rwa [filter_named, filter_named] at this

theorem foldl_readList {α : Type} {f : α → Node → α} (hf : ∀ a t u, IsRead t u → f a t = f a u) {ts us : List Node}
    (h : ReadList ts us) (a : α) : ts.foldl f a = us.foldl f a := by
  induction h generalizing a with
  | nil => rfl
  | cons h _ ih => rw [List.foldl_cons, List.foldl_cons, hf a _ _ h, ih]

namespace Format
variable {L : ConfigLib}

theorem loadProperty_read (k : Bytes) (c : L.Config) {t u : Node} (h : IsRead t u) : loadProperty k c t = loadProperty k c u := by
  unfold loadProperty; rw [isRead_attr h, isRead_attr h]

theorem loadClass_read (c : L.Config) {t u : Node} (h : IsRead t u) : loadClass c t = loadClass c u := by
  unfold loadClass
  rw [isRead_attr h]
  cases u.getAttr (b! "key") with
  | none => rfl
  | some k =>
    dsimp only
    split
    · rfl
    · have : loadVersion k c t = loadVersion k c u := by unfold loadVersion; rw [isRead_attr h]
      rw [this]
      exact foldl_readList (fun c t u h => loadProperty_read k c h) (isRead_namedChildren h _) _

/-- What is loaded does not depend on the white space. -/
theorem loadConfig_read {t u : Node} (h : IsRead t u) : (loadConfig t : L.Config) = loadConfig u :=
  foldl_readList (fun c _ _ h => loadClass_read c h) (isRead_namedChildren h _) _

/-! ### The written tree -/

theorem propertyNode_eq (p : Bytes × Bytes) :
    propertyNode p = .elem (b! "property") [(b! "key", some p.1), (b! "value", some p.2)] [] := rfl

/-- The attributes of a class element. -/
def classAttrs (g : Bytes × List (Bytes × Bytes)) : List (Bytes × Option Bytes) :=
  (b! "key", some g.1) :: match g.2.lookup (b! "version") with
    | none => []
    | some v => [(b! "version", some v)]

theorem classHead_eq (g : Bytes × List (Bytes × Bytes)) : classHead g = .elem (b! "class") (classAttrs g) [] := by
  unfold classHead classAttrs
  cases g.2.lookup (b! "version") <;> rfl

def plainProps (g : Bytes × List (Bytes × Bytes)) : List (Bytes × Bytes) := g.2.filter fun p => p.1 != b! "version"

theorem classNode_eq (g : Bytes × List (Bytes × Bytes)) :
    classNode [] g = .elem (b! "class") (classAttrs g) ((plainProps g).map propertyNode) := by
  unfold classNode plainProps
  rw [classHead_eq]
  simp only [keyByValue, List.find?_nil, Option.map_none, foldl_addChild, List.nil_append]

theorem configNode_eq {c : L.Config} (h : L.aliases c = []) :
    configNode c = .elem (b! "work") [(b! "version", some (b! "1.0.0.0"))] ((L.classes c).map (classNode [])) := by
  unfold configNode
  rw [h, show (Node.new (b! "work")).setAttr (b! "version") (some (b! "1.0.0.0")) =
    .elem (b! "work") [(b! "version", some (b! "1.0.0.0"))] [] from rfl, foldl_addChild, List.nil_append]

theorem lookup_mem {l : List (Bytes × Bytes)} {p v : Bytes} (h : l.lookup p = some v) : (p, v) ∈ l := by
  induction l with
  | nil => cases h
  | cons x l ih =>
    rw [List.lookup_cons] at h
    split at h
    · rename_i hx
      have hx := beq_iff_eq.mp hx
      injection h with h
      subst hx; subst h
      exact List.mem_cons_self
    · exact List.mem_cons_of_mem _ (ih h)

theorem configNode_savable {c : L.Config} (h : ConfigWritable L c) : Savable (configNode c) := by
  rw [configNode_eq h.1]
  refine .branch (by decide) (cleanAttrs_cons (by decide) (clean_ascii (by decide)) (by simp) cleanAttrs_nil) ?_
  intro n hn
  obtain ⟨g, hg, rfl⟩ := List.mem_map.mp hn
  obtain ⟨h1, h2, h3⟩ := h.2 g hg
  rw [classNode_eq]
  refine .branch (by decide) ?_ ?_
  · unfold classAttrs
    cases hv : g.2.lookup (b! "version") with
    | none => exact cleanAttrs_cons (by decide) h1 (by simp) cleanAttrs_nil
    | some v =>
      exact cleanAttrs_cons (by decide) h1 (by simp)
        (cleanAttrs_cons (by decide) (h3 _ (lookup_mem hv)).2.1 (by simp) cleanAttrs_nil)
  · intro n hn
    obtain ⟨p, hp, rfl⟩ := List.mem_map.mp hn
    have := h3 p (List.mem_filter.mp hp).1
    rw [propertyNode_eq]
    exact .branch (by decide) (cleanAttrs_cons (by decide) this.1 (by simp)
      (cleanAttrs_cons (by decide) this.2.1 (by simp) cleanAttrs_nil)) (by simp)

theorem configNode_names {c : L.Config} (h : L.aliases c = []) {nm : Bytes} (hm : nm ∈ namesOf [configNode c]) :
    nm ∈ [b! "work", b! "class", b! "property"] := by
  rw [configNode_eq h, namesOf_elem, namesOf_nil, List.append_nil] at hm
  rcases List.mem_cons.mp hm with rfl | hm
  · simp
  · rw [mem_namesOf_iff] at hm
    obtain ⟨n, hn, hm⟩ := hm
    obtain ⟨g, _, rfl⟩ := List.mem_map.mp hn
    rw [classNode_eq, namesOf_elem, namesOf_nil, List.append_nil] at hm
    rcases List.mem_cons.mp hm with rfl | hm
    · simp
    · rw [mem_namesOf_iff] at hm
      obtain ⟨n, hn, hm⟩ := hm
      obtain ⟨p, _, rfl⟩ := List.mem_map.mp hn
      rw [propertyNode_eq, namesOf_elem, namesOf_nil] at hm
      simp at hm; subst hm; simp

/-! ### The assignments the loader makes -/

def setAll (c : L.Config) (l : List (Bytes × Bytes × Bytes)) : L.Config := l.foldl (fun c x => L.setProperty c x.1 x.2.1 x.2.2) c

/-- The assignments for one class. -/
def classSets (g : Bytes × List (Bytes × Bytes)) : List (Bytes × Bytes × Bytes) :=
  (match g.2.lookup (b! "version") with
    | none => []
    | some v => [(g.1, b! "version", v)]) ++
  ((plainProps g).filter fun p => p.2 != []).map fun p => (g.1, p)

theorem loadProperties {k : Bytes} {ps : List (Bytes × Bytes)} (h : ∀ p ∈ ps, p.1 ≠ []) (c : L.Config) :
    (ps.map propertyNode).foldl (loadProperty k) c = setAll c ((ps.filter fun p => p.2 != []).map fun p => (k, p)) := by
  induction ps generalizing c with
  | nil => rfl
  | cons p ps ih =>
    rw [List.map_cons, List.foldl_cons, ih fun p hp => h p (by simp [hp])]
    have h1 : (propertyNode p).getAttr (b! "key") = some p.1 := rfl
    have h2 : (propertyNode p).getAttr (b! "value") = some p.2 := rfl
    have hp := h p (by simp)
    unfold loadProperty
    rw [h1, h2]
    dsimp only
    rw [if_neg hp, List.filter_cons]
    by_cases hv : p.2 = []
    · simp [hv]
    · rw [if_neg hv, if_pos (by simpa using hv)]; rfl

theorem loadClass_of {g : Bytes × List (Bytes × Bytes)} (h1 : g.1 ≠ []) (h2 : ∀ p ∈ g.2, p.1 ≠ []) (c : L.Config) :
    loadClass c (classNode [] g) = setAll c (classSets g) := by
  rw [classNode_eq]
  unfold loadClass
  have e1 : Node.getAttr (.elem (b! "class") (classAttrs g) ((plainProps g).map propertyNode)) (b! "key") = some g.1 := rfl
  rw [e1]
  dsimp only
  rw [if_neg h1]
  have e2 : (Node.children (.elem (b! "class") (classAttrs g) ((plainProps g).map propertyNode))).filter (named (b! "property")) =
      (plainProps g).map propertyNode := by
    refine List.filter_eq_self.mpr ?_
    intro n hn
    change n ∈ (plainProps g).map propertyNode at hn
    obtain ⟨p, _, rfl⟩ := List.mem_map.mp hn
    rfl
  rw [e2, loadProperties (ps := plainProps g) fun p hp => h2 p (List.mem_filter.mp hp).1]
  unfold classSets setAll
  rw [List.foldl_append]
  congr 1
  unfold loadVersion classAttrs
  cases g.2.lookup (b! "version") <;> rfl

/-- All assignments made when the configuration is loaded again. -/
def configSets (c : L.Config) : List (Bytes × Bytes × Bytes) := (L.classes c).flatMap classSets

theorem setAll_append (c : L.Config) (a b) : setAll c (a ++ b) = setAll (setAll c a) b := List.foldl_append ..

theorem loadConfig_of {c : L.Config} (h : ConfigWritable L c) : loadConfig (configNode c) = setAll L.create (configSets c) := by
  rw [configNode_eq h.1]
  unfold loadConfig configSets
  have e : (Node.children (.elem (b! "work") [(b! "version", some (b! "1.0.0.0"))] ((L.classes c).map (classNode [])))).filter (named (b! "class")) =
      (L.classes c).map (classNode []) := by
    refine List.filter_eq_self.mpr ?_
    intro n hn
    change n ∈ (L.classes c).map (classNode []) at hn
    obtain ⟨g, _, rfl⟩ := List.mem_map.mp hn
    rw [classNode_eq]; rfl
  rw [e]
  have : ∀ (gs : List (Bytes × List (Bytes × Bytes))) (d : L.Config), (∀ g ∈ gs, g.1 ≠ [] ∧ ∀ p ∈ g.2, p.1 ≠ []) →
      (gs.map (classNode [])).foldl loadClass d = setAll d (gs.flatMap classSets) := by
    intro gs
    induction gs with
    | nil => intro d _; rfl
    | cons g gs ih =>
      intro d hg
      rw [List.map_cons, List.foldl_cons, List.flatMap_cons, setAll_append, loadClass_of (hg g (by simp)).1 (hg g (by simp)).2,
        ih _ fun g hg' => hg g (by simp [hg'])]
  exact this _ _ fun g hg => ⟨(h.2 g hg).2.1, fun p hp => ((h.2 g hg).2.2 p hp).2.2.1⟩

/-! ### What the assignments give, by the laws -/

theorem get_other (hL : LawfulConfig L) {l : List (Bytes × Bytes × Bytes)} (ha : ∀ x ∈ l, x.2.1 ≠ b! "alias") {k p : Bytes}
    (h : ∀ v, (k, p, v) ∉ l) (c : L.Config) : configGet L (setAll c l) k p = configGet L c k p := by
  induction l generalizing c with
  | nil => rfl
  | cons x l ih =>
    obtain ⟨k', p', v'⟩ := x
    have e : setAll c ((k', p', v') :: l) = setAll (L.setProperty c k' p' v') l := rfl
    rw [e, ih (fun x hx => ha x (by simp [hx])) (fun v hv => h v (by simp [hv])), hL.set_get c k' p' v' (ha _ List.mem_cons_self), if_neg]
    rintro ⟨rfl, rfl⟩
    exact h v' (by simp)

theorem get_set (hL : LawfulConfig L) {l : List (Bytes × Bytes × Bytes)} (ha : ∀ x ∈ l, x.2.1 ≠ b! "alias")
    (hf : ∀ k p v v', (k, p, v) ∈ l → (k, p, v') ∈ l → v = v') {k p v : Bytes}
    (h : (k, p, v) ∈ l) (c : L.Config) : configGet L (setAll c l) k p = some v := by
  induction l generalizing c with
  | nil => cases h
  | cons x l ih =>
    have e : setAll c (x :: l) = setAll (L.setProperty c x.1 x.2.1 x.2.2) l := rfl
    rw [e]
    by_cases hm : (k, p, v) ∈ l
    · exact ih (fun x hx => ha x (by simp [hx])) (fun k p v v' h1 h2 => hf k p v v' (by simp [h1]) (by simp [h2])) hm _
    · have hx : x = (k, p, v) := by
        rcases List.mem_cons.mp h with h | h
        · exact h.symm
        · exact absurd h hm
      subst hx
      rw [get_other hL (fun x hx => ha x (by simp [hx])) ?_, hL.set_get c k p v (ha _ List.mem_cons_self), if_pos ⟨rfl, rfl⟩]
      intro v' hv'
      have := hf k p v v' (by simp) (by simp [hv'])
      subst this
      exact hm hv'

theorem class_set (hL : LawfulConfig L) {l : List (Bytes × Bytes × Bytes)} (ha : ∀ x ∈ l, x.2.1 ≠ b! "alias") (k : Bytes) (c : L.Config) :
    HasClass L (setAll c l) k ↔ (∃ p v, (k, p, v) ∈ l) ∨ HasClass L c k := by
  induction l generalizing c with
  | nil => simp [setAll]
  | cons x l ih =>
    obtain ⟨k', p', v'⟩ := x
    have e : setAll c ((k', p', v') :: l) = setAll (L.setProperty c k' p' v') l := rfl
    rw [e, ih fun x hx => ha x (by simp [hx]), hL.set_class c k' p' v' (ha _ List.mem_cons_self)]
    constructor
    · rintro (⟨p, v, h⟩ | rfl | h)
      · exact .inl ⟨p, v, by simp [h]⟩
      · exact .inl ⟨p', v', by simp⟩
      · exact .inr h
    · rintro (⟨p, v, h⟩ | h)
      · rcases List.mem_cons.mp h with h | h
        · injection h with h _; exact .inr (.inl h)
        · exact .inl ⟨p, v, h⟩
      · exact .inr (.inr h)

theorem aliases_set (hL : LawfulConfig L) {l : List (Bytes × Bytes × Bytes)} (ha : ∀ x ∈ l, x.2.1 ≠ b! "alias") (c : L.Config) :
    L.aliases (setAll c l) = L.aliases c := by
  induction l generalizing c with
  | nil => rfl
  | cons x l ih =>
    have e : setAll c (x :: l) = setAll (L.setProperty c x.1 x.2.1 x.2.2) l := rfl
    rw [e, ih fun x hx => ha x (by simp [hx]), hL.set_aliases _ _ _ _ (ha x (by simp))]

theorem lookup_of_mem {β : Type} {l : List (Bytes × β)} (hn : (l.map Prod.fst).Nodup) {p : Bytes} {v : β} (h : (p, v) ∈ l) :
    l.lookup p = some v := by
  induction l with
  | nil => cases h
  | cons x l ih =>
    obtain ⟨q, w⟩ := x
    rw [List.map_cons, List.nodup_cons] at hn
    rw [List.lookup_cons]
    rcases List.mem_cons.mp h with h | h
    · injection h with h1 h2; subst h1; subst h2; simp
    · have : p ≠ q := by
        intro e
        exact hn.1 (List.mem_map.mpr ⟨_, h, e⟩)
      rw [beq_false_of_ne this]
      exact ih hn.2 h

theorem mem_of_lookup {β : Type} {l : List (Bytes × β)} {p : Bytes} {v : β} (h : l.lookup p = some v) : (p, v) ∈ l := by
  induction l with
  | nil => cases h
  | cons x l ih =>
    obtain ⟨q, w⟩ := x
    rw [List.lookup_cons] at h
    split at h
    · rename_i hx
      have hx := beq_iff_eq.mp hx
      injection h with h
      subst hx; subst h
      exact List.mem_cons_self
    · exact List.mem_cons_of_mem _ (ih h)

/-- A property is there exactly when some class with that name has it. -/
theorem get_iff (hL : LawfulConfig L) (c : L.Config) (k p v : Bytes) :
    configGet L c k p = some v ↔ ∃ ps, (k, ps) ∈ L.classes c ∧ (p, v) ∈ ps := by
  unfold configGet
  constructor
  · intro h
    cases hk : (L.classes c).lookup k with
    | none => rw [hk] at h; cases h
    | some ps =>
      rw [hk] at h
      exact ⟨ps, mem_of_lookup hk, mem_of_lookup h⟩
  · rintro ⟨ps, h1, h2⟩
    rw [lookup_of_mem (hL.classes_nodup c) h1]
    exact lookup_of_mem (hL.properties_nodup c _ h1) h2

theorem mem_classSets (hL : LawfulConfig L) {c : L.Config} {g} (hg : g ∈ L.classes c) (k p v : Bytes) :
    (k, p, v) ∈ classSets g ↔ k = g.1 ∧ (p, v) ∈ g.2 ∧ (p = b! "version" ∨ v ≠ []) := by
  unfold classSets plainProps
  rw [List.mem_append]
  constructor
  · rintro (h | h)
    · cases hv : g.2.lookup (b! "version") with
      | none => rw [hv] at h; cases h
      | some w =>
        rw [hv] at h
        simp only [List.mem_cons, List.not_mem_nil, or_false, Prod.mk.injEq] at h
        obtain ⟨rfl, rfl, rfl⟩ := h
        exact ⟨rfl, mem_of_lookup hv, .inl rfl⟩
    · obtain ⟨x, hx, e⟩ := List.mem_map.mp h
      obtain ⟨q, w⟩ := x
      simp only [Prod.mk.injEq] at e
      obtain ⟨rfl, rfl, rfl⟩ := e
      rw [List.mem_filter, List.mem_filter] at hx
      exact ⟨rfl, hx.1.1, .inr (by simpa using hx.2)⟩
  · rintro ⟨rfl, h1, h2⟩
    by_cases hp : p = b! "version"
    · subst hp
      left
      rw [lookup_of_mem (hL.properties_nodup c _ hg) h1]
      simp
    · right
      refine List.mem_map.mpr ⟨(p, v), ?_, rfl⟩
      rw [List.mem_filter, List.mem_filter]
      exact ⟨⟨h1, by simpa using hp⟩, by rcases h2 with h2 | h2; exact absurd h2 hp; simpa using h2⟩

theorem mem_configSets (hL : LawfulConfig L) (c : L.Config) (k p v : Bytes) :
    (k, p, v) ∈ configSets c ↔ configGet L c k p = some v ∧ (p = b! "version" ∨ v ≠ []) := by
  unfold configSets
  rw [List.mem_flatMap, get_iff hL]
  constructor
  · rintro ⟨g, hg, h⟩
    rw [mem_classSets hL hg] at h
    obtain ⟨rfl, h1, h2⟩ := h
    exact ⟨⟨g.2, hg, h1⟩, h2⟩
  · rintro ⟨⟨ps, hg, h1⟩, h2⟩
    exact ⟨(k, ps), hg, (mem_classSets hL hg k p v).mpr ⟨rfl, h1, h2⟩⟩

theorem sets_noAlias (hL : LawfulConfig L) {c : L.Config} (h : ConfigWritable L c) : ∀ x ∈ configSets c, x.2.1 ≠ b! "alias" := by
  rintro ⟨k, p, v⟩ hx
  obtain ⟨h1, _⟩ := (mem_configSets hL c k p v).mp hx
  obtain ⟨ps, hg, hp⟩ := (get_iff hL c k p v).mp h1
  exact ((h.2 _ hg).2.2 _ hp).2.2.2

/-- The loaded configuration holds exactly the properties of the saved one, without those whose value is
    empty and that are not a version, and the classes that have a property left. -/
theorem loaded_config (hL : LawfulConfig L) {c : L.Config} (h : ConfigWritable L c) :
    (∀ k p, configGet L (setAll L.create (configSets c)) k p =
      (configGet L c k p).filter fun v => p = b! "version" ∨ v ≠ []) ∧
    (∀ k, HasClass L (setAll L.create (configSets c)) k ↔ ∃ p v, configGet L c k p = some v ∧ (p = b! "version" ∨ v ≠ [])) ∧
    L.aliases (setAll L.create (configSets c)) = [] := by
  have ha := sets_noAlias hL h
  have hnone : ∀ k p, configGet L L.create k p = none := by
    intro k p; unfold configGet; rw [hL.create_classes]; rfl
  refine ⟨?_, ?_, ?_⟩
  · intro k p
    have hf : ∀ k p v v', (k, p, v) ∈ configSets c → (k, p, v') ∈ configSets c → v = v' := by
      intro k p v v' h1 h2
      have h1 := ((mem_configSets hL c k p v).mp h1).1
      have h2 := ((mem_configSets hL c k p v').mp h2).1
      rw [h1] at h2; exact Option.some.inj h2
    cases hv : configGet L c k p with
    | none =>
      rw [get_other hL ha ?_, hnone]; rfl
      intro v hm
      have := ((mem_configSets hL c k p v).mp hm).1
      rw [hv] at this; cases this
    | some v =>
      by_cases hc : p = b! "version" ∨ v ≠ []
      · rw [get_set hL ha hf ((mem_configSets hL c k p v).mpr ⟨hv, hc⟩), Option.filter_some, if_pos (by simpa using hc)]
      · rw [get_other hL ha ?_, hnone, Option.filter_some, if_neg (by simpa using hc)]
        intro w hm
        obtain ⟨h1, h2⟩ := (mem_configSets hL c k p w).mp hm
        rw [hv] at h1; injection h1 with h1; subst h1
        exact hc h2
  · intro k
    rw [class_set hL ha]
    have : ¬ HasClass L L.create k := by unfold HasClass; rw [hL.create_classes]; simp
    simp only [this, or_false, mem_configSets hL]
  · rw [aliases_set hL ha, hL.create_aliases]

/-- A storable configuration is loaded with the same settings. -/
theorem loaded_same (hL : LawfulConfig L) {c : L.Config} (h : ConfigStorable L c) :
    (∀ k p, configGet L (setAll L.create (configSets c)) k p = configGet L c k p) ∧
    (∀ k, HasClass L (setAll L.create (configSets c)) k ↔ HasClass L c k) ∧ L.aliases (setAll L.create (configSets c)) = [] := by
  obtain ⟨h1, h2, h3⟩ := loaded_config hL h.1
  have e1 : ∀ k p, configGet L (setAll L.create (configSets c)) k p = configGet L c k p := by
    intro k p
    rw [h1]
    cases hv : configGet L c k p with
    | none => rfl
    | some v =>
      obtain ⟨ps, hg, hp⟩ := (get_iff hL c k p v).mp hv
      rw [Option.filter_some, if_pos (by simpa using (h.2 _ hg).2 _ hp)]
  have e2 : ∀ k, HasClass L (setAll L.create (configSets c)) k ↔ HasClass L c k := by
    intro k
    rw [h2]
    constructor
    · rintro ⟨p, v, hv, _⟩
      obtain ⟨ps, hg, _⟩ := (get_iff hL c k p v).mp hv
      exact List.mem_map.mpr ⟨_, hg, rfl⟩
    · intro hk
      obtain ⟨g, hg, rfl⟩ := List.mem_map.mp hk
      obtain ⟨hne, hp⟩ := h.2 g hg
      obtain ⟨x, hx⟩ := List.exists_mem_of_ne_nil _ hne
      exact ⟨x.1, x.2, (get_iff hL c _ _ _).mpr ⟨g.2, hg, hx⟩, hp x hx⟩
  exact ⟨e1, e2, h3⟩

/-- A storable configuration is loaded as an equal one. -/
theorem loaded_equal (hL : LawfulConfig L) {c : L.Config} (h : ConfigStorable L c) :
    L.isEqual (some c) (some (setAll L.create (configSets c))) = true ∧
    L.isEqual (some (setAll L.create (configSets c))) (some c) = true := by
  obtain ⟨e1, e2, h3⟩ := loaded_same hL h
  exact ⟨hL.equal_of_same _ _ (fun k p => (e1 k p).symm) (fun k => (e2 k).symm) h.1.1 h3,
    hL.equal_of_same _ _ e1 e2 h3 h.1.1⟩

/-- Formats made from equal configurations are equal. -/
theorem equal_init (hL : LawfulConfig L) {a b : L.Config} (h : L.isEqual (some a) (some b) = true) :
    Format.equal (some (init (some a))) (some (init (some b))) = true := by
  unfold equal ptrEqual init
  dsimp only
  have hs : ∀ x : Option Bytes, strEqStrict x x = true := by intro x; cases x <;> simp [strEqStrict]
  have hn : (getName (some a) : Option Bytes) = getName (some b) := by unfold getName; dsimp only; rw [hL.equal_property a b h]
  have hsc : getScaling a = getScaling b := by
    unfold getScaling; rw [hL.equal_isSet a b h, hL.equal_propertyInt a b h, hL.equal_propertyUint a b h]
  rw [hL.equal_frame a b h]
  cases L.frame b with
  | none => simp [eqFields, empty, h, hs]
  | some f =>
    dsimp only
    rw [hn, hsc, hL.equal_stripeSize a b h, hL.equal_packetSize a b h]
    simp [eqFields, h, hs]

theorem saveXml_some {f : Format L} {c : L.Config} (h : f.config = some c) : f.saveXml = some (configNode c) := by
  unfold saveXml; rw [h]
theorem saveXml_none {f : Format L} (h : f.config = none) : f.saveXml = some (Node.new (b! "NULL")) := by
  unfold saveXml; rw [h]

/-- Loading from any tree that, white space aside, has the written element below its root. -/
theorem loadXml_some {c : L.Config} (h : ConfigWritable L c) (before : Format L) {T : Node} {n as}
    (hT : IsRead T (.elem n as [configNode c])) :
    before.loadXml T = (true, init (some (setAll L.create (configSets c)))) := by
  unfold loadXml
  have h1 : find (.elem n as [configNode c]) (b! "NULL") = none := by
    rw [find_eq_findL]
    exact findL_none fun hm => by
      have := configNode_names h.1 hm
      revert this; decide
  have h2 : find (.elem n as [configNode c]) (b! "work") = some (configNode c) := by
    rw [find_eq_findL, configNode_eq h.1, findL_self]
  rw [isRead_find_none hT h1]
  obtain ⟨d, h3, h4⟩ := isRead_find_some hT h2
  rw [h3]
  dsimp only
  rw [loadConfig_read h4, loadConfig_of h]; rfl

theorem loadXml_null (before : Format L) {T : Node} {n as} (hT : IsRead T (.elem n as [Node.new (b! "NULL")])) :
    before.loadXml T = (true, init none) := by
  unfold loadXml
  obtain ⟨d, h3, h4⟩ := isRead_find_some hT (nm := b! "NULL") (e := Node.new (b! "NULL")) (by rw [find_eq_findL]; exact findL_self _ _ _ _)
  rw [h3]; rfl

end Format
end Afs
