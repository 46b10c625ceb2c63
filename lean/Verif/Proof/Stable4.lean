import Verif.Proof.Stable3
import Verif.Props.C68_Builtin
/-!
# What loading control data from a clean document gives
-/
namespace Afs
open Spec Xml Spec.Document

theorem held_tag {n : Node} (h : CleanDoc n) (tag : Bytes) : Admin.tagText n tag = some [] ∨ TextField (Admin.tagText n tag) := by
  unfold Admin.tagText
  split
  · exact .inr fun _ h => nomatch h
  · rename_i x hx
    have := held_nodeText (o := some x) fun _ e => by injection e with e; exact e ▸ clean_find h hx
    cases e : nodeText (some x) with
    | none => exact .inl rfl
    | some t => rw [e] at this; exact held_cases this

theorem Admin.loadXml_storable {t : Node} (h : CleanDoc t) {a : Admin} (ha : a.storable) : (a.loadXml t).2.storable := by
  unfold Admin.loadXml
  split
  · exact ha
  · rename_i n hn
    have hc := clean_find h hn
    intro s hs
    simp only [List.mem_cons, List.not_mem_nil, or_false] at hs
    rcases hs with rfl | rfl | rfl | rfl | rfl | rfl <;> exact held_tag hc _

theorem Admin.create_storable : Admin.create.storable := by
  intro s hs
  simp only [Admin.create, List.mem_cons, List.not_mem_nil, or_false, or_self] at hs
  subst hs
  exact .inr fun _ h => nomatch h

variable {L : ConfigLib} (hL : LawfulConfig L)

theorem clean_children {n : Node} (h : CleanDoc n) : ∀ c ∈ n.children, CleanDoc c := by
  cases n with
  | text => exact fun _ h => nomatch h
  | elem m as cs => exact fun c hc' => h.child hc'

theorem clean_childrenOf {n : Node} (h : CleanDoc n) (nm : Bytes) : ∀ c ∈ childrenOf n nm, CleanDoc c := by
  intro c hc
  unfold childrenOf at hc
  exact clean_children h c (List.mem_filter.mp (List.mem_filter.mp hc).1).1

theorem given_attr {n : Node} (h : CleanDoc n) {nm v : Bytes} (e : given n nm = some v) : CleanText v ∧ v ≠ [] := by
  unfold given at e
  cases ha : attr n nm with
  | none => rw [ha] at e; cases e
  | some w =>
    rw [ha, Option.bind_some] at e
    split at e
    · cases e
    · rename_i hw
      injection e with e
      subst e
      refine ⟨?_, hw⟩
      exact clean_attr h nm _ (by rw [getAttr_attr]; exact ha)

mutual
theorem desc_trans : ∀ (t : Node), ∀ d ∈ descendants t, ∀ e ∈ descendants d, e ∈ descendants t
  | .text _, _, hd, _, _ => by rw [descendants] at hd; cases hd
  | .elem _ _ cs, d, hd, e, he => by
    rw [descendants] at hd ⊢
    exact desc_transList cs d hd e he
theorem desc_transList : ∀ (cs : List Node), ∀ d ∈ descendantsList cs, ∀ e ∈ descendants d, e ∈ descendantsList cs
  | [], _, hd, _, _ => by rw [descendantsList] at hd; cases hd
  | c :: cs, d, hd, e, he => by
    rw [descendantsList] at hd ⊢
    simp only [List.mem_cons, List.mem_append] at hd ⊢
    rcases hd with rfl | hd | hd
    · exact .inr (.inl he)
    · exact .inr (.inl (desc_trans c d hd e he))
    · exact .inr (.inr (desc_transList cs d hd e he))
end

theorem child_desc {n c : Node} (h : c ∈ n.children) : c ∈ descendants n := by
  cases n with
  | text => cases h
  | elem m as cs =>
    rw [descendants]
    change c ∈ cs at h
    induction cs with
    | nil => cases h
    | cons x xs ih =>
      rw [descendantsList]
      simp only [List.mem_cons, List.mem_append] at h ⊢
      rcases h with rfl | h
      · exact .inl rfl
      · exact .inr (.inr (ih h))

theorem noAliases_below {t d : Node} (h : NoAliases t) (hd : d ∈ descendants t) : NoAliases d :=
  fun p hp => h p (desc_trans t d hd p hp)

theorem find_desc {t d : Node} {nm : Bytes} (hd : find t nm = some d) : d ∈ descendants t := List.mem_of_find?_eq_some hd

theorem childrenOf_mem {n c : Node} {nm : Bytes} (h : c ∈ childrenOf n nm) : c ∈ n.children ∧ c.element = some nm := by
  unfold childrenOf at h
  obtain ⟨h1, h2⟩ := List.mem_filter.mp h
  exact ⟨(List.mem_filter.mp h1).1, by simpa using h2⟩

theorem version_writable {v : Bytes} (h : CleanText v) : PropertyWritable (b! "version", v) :=
  ⟨clean_ascii (w := b! "version") (by decide), h, List.cons_ne_nil _ _, (by decide : b! "version" ≠ b! "alias")⟩

theorem settings_clean {w : Node} (h : CleanDoc w) (ha : NoAliases w) : ∀ x ∈ settings w,
    CleanText x.1 ∧ x.1 ≠ [] ∧ PropertyWritable x.2 ∧ (x.2.1 = b! "version" ∨ x.2.2 ≠ []) := by
  intro x hx
  unfold settings at hx
  obtain ⟨c, hc, hx⟩ := List.mem_flatMap.mp hx
  have hcc := clean_childrenOf h _ c hc
  unfold classSettings at hx
  cases hk : given c (b! "key") with
  | none => rw [hk] at hx; cases hx
  | some k =>
    rw [hk] at hx
    have hkc := given_attr hcc hk
    rcases List.mem_append.mp hx with hx | hx
    · cases hv : attr c (b! "version") with
      | none => rw [hv] at hx; cases hx
      | some v =>
        rw [hv] at hx
        simp only [Option.map_some, Option.toList_some, List.mem_singleton] at hx
        subst hx
        refine ⟨hkc.1, hkc.2, version_writable (clean_attr hcc _ _ (by rw [getAttr_attr]; exact hv)), .inl rfl⟩
    · obtain ⟨p, hp, hx⟩ := List.mem_filterMap.mp hx
      have hpc := clean_childrenOf hcc _ p hp
      cases ha' : given p (b! "key") with
      | none => rw [ha'] at hx; cases hx
      | some a =>
        cases hv : given p (b! "value") with
        | none => rw [ha', hv] at hx; cases hx
        | some v =>
          rw [ha', hv] at hx
          injection hx with hx
          subst hx
          have h1 := given_attr hpc ha'
          have h2 := given_attr hpc hv
          refine ⟨hkc.1, hkc.2, ⟨h1.1, h2.1, h1.2, ?_⟩, .inr h2.2⟩
          intro e
          have hm := childrenOf_mem hp
          have : p ∈ descendants w := desc_trans w c (child_desc (childrenOf_mem hc).1) p (child_desc hm.1)
          refine ha p this hm.2 ?_
          dsimp only at e
          subst e
          unfold given at ha'
          cases hq : attr p (b! "key") with
          | none => rw [hq] at ha'; cases ha'
          | some q =>
            rw [hq, Option.bind_some] at ha'
            split at ha'
            · cases ha'
            · exact ha'

theorem create2_config (c : Option L.Config) : (Format.create2 c).config = c := by
  unfold Format.create2 Format.init
  cases c with
  | none => rfl
  | some c => dsimp only; split <;> rfl

include hL

theorem create2_storable {l : List (Bytes × Bytes × Bytes)}
    (hl : ∀ x ∈ l, CleanText x.1 ∧ x.1 ≠ [] ∧ PropertyWritable x.2 ∧ (x.2.1 = b! "version" ∨ x.2.2 ≠ [])) :
    (Format.create2 (some (Format.setAll L.create l))).storable := by
  have h : ConfigStorable L (Format.setAll L.create l) :=
    storable_of_holds hL (holds_settings hL fun x hx => (hl x hx).2.2.1.2.2.2) hl
  refine ⟨by rw [create2_config], ?_⟩
  intro c e
  rw [create2_config] at e
  injection e with e
  exact e ▸ h

omit hL in
theorem Format.null_storable : (Format.create2 (L := L) none).storable :=
  ⟨rfl, fun _ e => nomatch e⟩

theorem Format.loadXml_storable {t : Node} (h : CleanDoc t) (ha : NoAliases t) {f : Format L} (hf : f.storable) : (f.loadXml t).2.storable := by
  unfold Format.loadXml
  split
  · exact Format.null_storable
  · split
    · exact hf
    · rename_i w hw
      show (Format.create2 (some (Format.loadConfig w))).storable
      rw [loadConfig_settings]
      exact create2_storable hL (settings_clean (clean_find h hw) (noAliases_below ha (find_desc hw)))

theorem loadedFormat_storable {f : Format L} (h : f.storable) : (TechMeta.loadedFormat f).storable := by
  unfold TechMeta.loadedFormat
  cases hc : f.config with
  | none => exact Format.null_storable
  | some c =>
    refine create2_storable hL ?_
    intro x hx
    obtain ⟨k, p, v⟩ := x
    have hs := h.2 c hc
    obtain ⟨hg, hv⟩ := (Format.mem_configSets hL c k p v).mp hx
    obtain ⟨ps, hg, hp⟩ := (Format.get_iff hL c k p v).mp hg
    have := hs.1.2 _ hg
    exact ⟨this.1, this.2.1, this.2.2 _ hp, hv⟩

omit hL in
theorem _root_.Afs.Spec.SameFormat.refl (f : Format L) : SameFormat f f := by
  cases h : f.config with
  | none => exact .inl ⟨h, h⟩
  | some c => exact .inr ⟨c, c, h, h, fun _ _ => rfl, fun _ => Iff.rfl⟩

omit hL in
theorem _root_.Afs.Spec.SameFormat.trans {f g k : Format L} (h1 : SameFormat f g) (h2 : SameFormat g k) : SameFormat f k := by
  rcases h1 with ⟨a, b⟩ | ⟨c, d, a, b, e1, e2⟩ <;> rcases h2 with ⟨a', b'⟩ | ⟨c', d', a', b', e1', e2'⟩
  · exact .inl ⟨a, b'⟩
  · rw [b] at a'; cases a'
  · rw [b] at a'; cases a'
  · rw [b] at a'; injection a' with a'; subst a'
    exact .inr ⟨c, d', a, b', fun k p => (e1' k p).trans (e1 k p), fun k => (e2' k).trans (e2 k)⟩

theorem _root_.Afs.Spec.SameFormat.equal {f g : Format L} (h : SameFormat f g) (hf : f.storable) (hg : g.storable) : Format.equal (some f) (some g) = true := by
  rcases h with ⟨a, b⟩ | ⟨c, d, a, b, e1, e2⟩
  · have hf := hf.1; have hg := hg.1
    rw [a] at hf; rw [b] at hg; rw [hf, hg]
    simp [Format.equal, ptrEqual, Format.create2, Format.init, Format.empty, Format.eqFields, hL.equal_null, strEqStrict]
  · have hf' := hf.1; have hg' := hg.1
    rw [a] at hf'; rw [b] at hg'; rw [hf', hg']
    exact Format.equal_init hL (hL.equal_of_same c d (fun k p => (e1 k p).symm) (fun k => (e2 k).symm) (hf.2 c a).1.1 (hg.2 d b).1.1)

theorem loadedFormat_same {f : Format L} (h : f.storable) : SameFormat f (TechMeta.loadedFormat f) := by
  unfold TechMeta.loadedFormat
  cases hc : f.config with
  | none => exact .inl ⟨hc, rfl⟩
  | some c =>
    refine .inr ⟨c, _, hc, create2_config _, ?_, ?_⟩
    · exact (Format.loaded_same hL (h.2 c hc)).1
    · exact (Format.loaded_same hL (h.2 c hc)).2.1

/-! ### Technical metadata and control data -/

/-- What a load of technical metadata gives. -/
def TechHeld (t : TechMeta L) : Prop :=
  (∀ f, t.format = some f → f.storable) ∧ (∀ x, t.tocs = some x → VecAll (fun y => y.isValid = true ∧ FileHeld y) x.tocs) ∧
    ∀ x, t.apps = some x → VecAll (fun y => y.isValid = true ∧ FileHeld y) x.tocs

omit hL in
theorem TechHeld.create : TechHeld (TechMeta.create (L := L)) := ⟨(fun _ h => nomatch h), (fun _ h => nomatch h), (fun _ h => nomatch h)⟩

theorem TechMeta.loadXml_held {t : Node} (h : CleanDoc t) (ha : NoAliases t) {x : TechMeta L} (hx : TechHeld x) : TechHeld (x.loadXml t).2 := by
  unfold TechMeta.loadXml
  split
  · exact hx
  · rename_i n hn
    have hc := clean_find h hn
    have hna := noAliases_below ha (find_desc hn)
    split
    · exact hx
    · rename_i b hb
      have kf : ∀ f, TechMeta.loadFormat (L := L) b = some f → f.storable := by
        intro f e
        unfold TechMeta.loadFormat at e
        dsimp only at e
        split at e
        · cases e
        · injection e with e
          subst e
          exact Format.loadXml_storable hL (clean_find hc hb) (noAliases_below hna (find_desc hb)) Format.null_storable
      have kt : TechHeld (L := L) (TechMeta.loadTocs (L := L) ⟨TechMeta.loadFormat b, x.tocs, x.apps⟩ (find n (b! "Tocs"))).2 := by
        unfold TechMeta.loadTocs
        cases ht : find n (b! "Tocs") with
        | none => exact ⟨kf, hx.2⟩
        | some q =>
          have := Files.loadXml_held (clean_find hc ht)
          rw [Option.map_some]
          rcases hq : Files.create.loadXml q with ⟨v, fs⟩
          rw [hq] at this
          cases v with
          | false => exact ⟨(fun _ h => nomatch h), (fun _ h => nomatch h), hx.2.2⟩
          | true => exact ⟨kf, (fun y e => by injection e with e; subst e; exact this), hx.2.2⟩
      dsimp only
      split
      · exact kt
      · unfold TechMeta.loadApps
        cases ht : find n (b! "Applications") with
        | none => exact kt
        | some q =>
          have := Files.loadXml_held (clean_find hc ht)
          rw [Option.map_some]
          rcases hq : Files.create.loadXml q with ⟨v, fs⟩
          rw [hq] at this
          cases v with
          | false => exact ⟨kt.1, kt.2.1, (fun _ h => nomatch h)⟩
          | true => exact ⟨kt.1, kt.2.1, (fun y e => by injection e with e; subst e; exact this)⟩

omit hL in
theorem TechHeld.writable {t : TechMeta L} (h : TechHeld t) (h1 : t.format ≠ none) (h2 : t.tocs ≠ none)
    (hk : ∀ x, t.tocs = some x ∨ t.apps = some x → ∀ f ∈ x.list, FileKept f) : t.writable := by
  refine ⟨?_, ?_, ?_⟩
  · cases e : t.format with
    | none => exact absurd e h1
    | some f => exact ⟨f, rfl, h.1 f e⟩
  · cases e : t.tocs with
    | none => exact absurd e h2
    | some x => exact ⟨x, rfl, fun y hy => ((h.2.1 x e).2 y hy).2.writable ((h.2.1 x e).2 y hy).1 (hk x (.inl e) y hy)⟩
  · intro x e y hy
    exact ((h.2.2 x e).2 y hy).2.writable ((h.2.2 x e).2 y hy).1 (hk x (.inr e) y hy)

theorem techCopy_refl {x : TechMeta L} (hx : x.writable) : TechCopy x x := by
  obtain ⟨⟨f, hf, hfs⟩, _⟩ := hx
  exact ⟨⟨f, f, hf, hf, (SameFormat.refl f).equal hL hfs hfs, .refl f⟩, .inl ⟨rfl, rfl⟩⟩

omit hL in
theorem asLoaded_map_idem (o : Option Files) : (o.map Files.asLoaded).map Files.asLoaded = o.map Files.asLoaded := by
  cases o with
  | none => rfl
  | some x => simp only [Option.map_some, Files.asLoaded_idem]

omit hL in
theorem files_asLoaded_writable {x : Files} (h : ∀ y ∈ x.list, y.writable) : ∀ y ∈ x.asLoaded.list, y.writable := by
  rw [Files.asLoaded_list]
  intro f hf
  obtain ⟨g, hg, rfl⟩ := List.mem_map.mp hf
  exact File.asLoaded_writable (h g hg) false

/-- What comes out of one save and load is again a copy, and can be saved. -/
theorem techCopy_next {x y : TechMeta L} {f : Format L} (hx : x.writable) (hy : y.writable) (hf : y.format = some f) (hfs : f.storable) (h : TechCopy x y) :
    TechMeta.writable ⟨some (TechMeta.loadedFormat f), y.tocs.map Files.asLoaded, y.apps.map Files.asLoaded⟩ ∧
      TechCopy x ⟨some (TechMeta.loadedFormat f), y.tocs.map Files.asLoaded, y.apps.map Files.asLoaded⟩ := by
  refine ⟨⟨⟨_, rfl, loadedFormat_storable hL hfs⟩, ?_, ?_⟩, ?_, ?_⟩
  · obtain ⟨_, ⟨l, hl, hlw⟩, _⟩ := hy
    exact ⟨l.asLoaded, by dsimp only; rw [hl]; rfl, files_asLoaded_writable hlw⟩
  · obtain ⟨_, _, ha⟩ := hy
    intro l hl
    cases e : y.apps with
    | none => dsimp only at hl; rw [e] at hl; cases hl
    | some l' =>
      dsimp only at hl; rw [e] at hl; injection hl with hl; subst hl
      exact files_asLoaded_writable (ha l' e)
  · obtain ⟨⟨fx, hfx, hfxs⟩, _⟩ := hx
    obtain ⟨⟨f1, g1, e1, e2, _, e4⟩, _⟩ := h
    rw [hfx] at e1; injection e1 with e1; subst e1
    rw [hf] at e2; injection e2 with e2; subst e2
    have := e4.trans (loadedFormat_same hL hfs)
    exact ⟨fx, _, hfx, rfl, this.equal hL hfxs (loadedFormat_storable hL hfs), this⟩
  · right
    dsimp only
    rcases h.2 with ⟨a, b⟩ | ⟨a, b⟩ <;> rw [a, b]
    · exact ⟨rfl, rfl⟩
    · exact ⟨asLoaded_map_idem _, asLoaded_map_idem _⟩

end Afs
