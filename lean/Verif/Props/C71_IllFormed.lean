import Verif.Proof.IllFormed2
import Verif.Model.ControlData
import Verif.Proof.NodeEq
/-!
# C71: texts that break a rule of XML are refused
-/
namespace Afs
open Spec Spec.Grammar Xml

/-- A text that begins like a document and then breaks a rule - a wrong end tag, an attribute twice or without a value, `<` or a lone `/`
    in a tag, a character that cannot be in a name, something else than a known reference behind `&` - is refused by both readers,
    whatever stands behind. -/
theorem C71_refused (p e : List Char) (ns : List (List Char)) (h : At p ns) (he : Wrong ns e) (hf : Char.ofNat 0xFEFF ∉ p ++ e) (rest : Bytes) :
    Xml.loadString (utf8File (p ++ e) ++ rest) = none ∧ Xml.loadFile (utf8File (p ++ e) ++ rest) = none := by
  have hd : Refused (R PS.init (p ++ e)) := by rw [R_append]; exact dead_wrong (where_at h) (at_names h) he
  have hx := Xml.all_append (at_xml h) (wrong_xml he)
  exact ⟨refused_of_dead good_decode hx hf hd rest, refused_of_dead good_decodeFile hx hf hd rest⟩

/-- The same behind a complete document. -/
theorem C71_refused_after (p e : List Char) (v : Node) (h : Document p v) (he : Wrong [] e) (hf : Char.ofNat 0xFEFF ∉ p ++ e) (rest : Bytes) :
    Xml.loadString (utf8File (p ++ e) ++ rest) = none ∧ Xml.loadFile (utf8File (p ++ e) ++ rest) = none := by
  have hd : Refused (R PS.init (p ++ e)) := by rw [R_append]; exact dead_document h he
  have hx := Xml.all_append (document_xml h) (wrong_xml he)
  exact ⟨refused_of_dead good_decode hx hf hd rest, refused_of_dead good_decodeFile hx hf hd rest⟩

/-- Without a declaration, a second element behind the outermost one is refused. -/
theorem C71_second_root (w e w' m : List Char) (v : Node) (c : Char) (h1 : Spaces w) (h2 : Element e v) (h3 : Spaces w') (hm : Name m)
    (hc : Space c ∨ c = '>' ∨ c = '/') (hf : Char.ofNat 0xFEFF ∉ w ++ e ++ w') (rest : Bytes) :
    Xml.loadString (utf8File (w ++ e ++ w' ++ ['<'] ++ m ++ [c]) ++ rest) = none ∧
    Xml.loadFile (utf8File (w ++ e ++ w' ++ ['<'] ++ m ++ [c]) ++ rest) = none := by
  have hd : Refused (R PS.init (w ++ e ++ w' ++ ['<'] ++ m ++ [c])) := by
    obtain ⟨s', hlt, hsec, _⟩ := complete_lt (complete_bare h1 h2 h3)
    have : w ++ e ++ w' ++ ['<'] ++ m ++ [c] = (w ++ e ++ w') ++ '<' :: (m ++ [c]) := by simp
    rw [this, R_append, R_cons, show ('<' : Char).toNat = 60 from rfl, hlt]
    exact dead_second hsec hm hc
  have hc' : XmlChar c ∧ c ≠ Char.ofNat 0xFEFF := by
    rcases hc with (rfl | rfl | rfl | rfl) | rfl | rfl <;> decide
  have hx : ∀ x ∈ w ++ e ++ w' ++ ['<'] ++ m ++ [c], XmlChar x :=
    Xml.all_append (Xml.all_append (Xml.all_append (document_xml (.bare h1 h2 h3)) (by decide)) (name_xml hm)) (one_xml hc'.1)
  have hf' : Char.ofNat 0xFEFF ∉ w ++ e ++ w' ++ ['<'] ++ m ++ [c] := by
    intro h
    simp only [List.mem_append, List.mem_singleton] at h hf
    rcases h with (((h | h) | h) | h) | h
    · exact hf (.inl h)
    · exact hf (.inr h)
    · exact absurd h (by decide)
    · have := nameChar_nat ((name_chars hm).2 _ h)
      exact absurd this.2.2.2.2.2.2.2.2.2.2.2.1 (by decide)
    · exact hc'.2 h.symm
  exact ⟨refused_of_dead good_decode hx hf' hd rest, refused_of_dead good_decodeFile hx hf' hd rest⟩

theorem noCharacter_dec {b : UInt8} (h : NoCharacter b) (rest : Bytes) :
    (∃ r, decode (b :: rest) = none :: r) ∧ ∃ r, decodeFile (b :: rest) = none :: r := by
  have bad : b.toNat < 32 → b ≠ 0 → b ≠ 9 → b ≠ 10 → b ≠ 13 → badChar b.toNat = true := by
    intro h1 h0 h2 h3 h4
    refine badChar_control h1 (fun h => h2 ?_) (fun h => h3 ?_) (fun h => h4 ?_) <;> exact UInt8.toNat_inj.mp (by rw [h]; rfl)
  unfold NoCharacter at h
  rcases h with ⟨h1, h0, h2, h3, h4⟩ | h | h
  · have hb := bad h1 h0 h2 h3 h4
    refine ⟨⟨decode rest, ?_⟩, ⟨decodeFile rest, ?_⟩⟩
    · rw [decode.eq_def]; simp only [show b.toNat < 128 by omega, hb, if_true]
    · rw [decodeFile.eq_def]; simp only [show b.toNat < 128 by omega, hb, if_true]
  · refine ⟨⟨decode rest, ?_⟩, ⟨decodeFile rest, ?_⟩⟩
    · rw [decode.eq_def]
      simp only [show ¬ b.toNat < 128 by omega, show ¬ (192 ≤ b.toNat ∧ b.toNat < 224) by omega, show ¬ (224 ≤ b.toNat ∧ b.toNat < 240) by omega,
        show ¬ (240 ≤ b.toNat ∧ b.toNat < 248) by omega, if_false]
    · rw [decodeFile.eq_def]
      simp only [show ¬ b.toNat < 128 by omega, show ¬ (192 ≤ b.toNat ∧ b.toNat < 224) by omega, show ¬ (224 ≤ b.toNat ∧ b.toNat < 240) by omega,
        show ¬ (240 ≤ b.toNat ∧ b.toNat < 248) by omega, show ¬ b.toNat = 254 by omega, show ¬ b.toNat = 255 by omega, if_false]
  · refine ⟨⟨decode rest, ?_⟩, ⟨decodeFile rest, ?_⟩⟩
    · rw [decode.eq_def]
      simp only [show ¬ b.toNat < 128 by omega, show ¬ (192 ≤ b.toNat ∧ b.toNat < 224) by omega, show ¬ (224 ≤ b.toNat ∧ b.toNat < 240) by omega,
        show ¬ (240 ≤ b.toNat ∧ b.toNat < 248) by omega, if_false]
    · rw [decodeFile.eq_def]
      simp only [show ¬ b.toNat < 128 by omega, show ¬ (192 ≤ b.toNat ∧ b.toNat < 224) by omega, show ¬ (224 ≤ b.toNat ∧ b.toNat < 240) by omega,
        show ¬ (240 ≤ b.toNat ∧ b.toNat < 248) by omega, show ¬ b.toNat = 254 by omega, show ¬ b.toNat = 255 by omega, if_false]

/-- A byte that is no character is refused in the text of an element inside another one. -/
theorem C71_no_character (p : List Char) (n m : List Char) (ns : List (List Char)) (h : At p (n :: m :: ns)) (hf : Char.ofNat 0xFEFF ∉ p)
    (b : UInt8) (hb : NoCharacter b) (rest : Bytes) :
    Xml.loadString (utf8File p ++ b :: rest) = none ∧ Xml.loadFile (utf8File p ++ b :: rest) = none := by
  have ha : ∀ c ∈ p, Allowed c := by
    intro c hc
    refine ⟨xmlChar_ok (at_xml h c hc), fun e => hf ?_⟩
    have : c = Char.ofNat 0xFEFF := char_eq (by rw [e]; rfl)
    rwa [← this]
  have dead : Refused (step (R PS.init p) none) := by
    have hw := where_at h
    generalize R PS.init p = s at hw
    cases hw with
    | @inn q x as fs ns' hn =>
      have : fs ≠ [] := by
        rintro rfl
        rcases hn with hn | ⟨D, _, hn⟩ <;> simp [content] at hn
      cases fs with
      | nil => exact absurd rfl this
      | cons f fs => rfl
  have key : ∀ dec, GoodDec dec → (∃ r, dec (b :: rest) = none :: r) → Xml.loadData (dec (utf8File p ++ b :: rest)) = none := by
    intro dec hd ⟨r, hr⟩
    unfold Xml.loadData
    rw [dec_prefix hd _ p ha, hr]
    have : run PS.init (p.map (fun c => some c.toNat) ++ none :: r) = run (step (R PS.init p) none) r := by
      unfold run R run; rw [List.foldl_append]; rfl
    rw [this]
    exact ((dead.run _).run _).result
  exact ⟨key _ good_decode (noCharacter_dec hb rest).1, key _ good_decodeFile (noCharacter_dec hb rest).2⟩

/-- A refused text leaves every object as it was, and the load says so. -/
theorem C71_objects {L : ConfigLib} (s : Bytes) (h : Xml.loadString s = none ∧ Xml.loadFile s = none) (page : Page) (preview : Preview) (sec : Section) (secs : Sections) (lay : LayoutDef) (lays : LayoutDefs) (src : MetaSource) (md : TocMeta) (fsrc : FileMetaSource) (fmd : FileMeta) (f : File) (fs : Files) (r : Reel) (rs : Reels) (t : TocData) (a : Admin) (fmt : Format L) (tm : TechMeta L) (c : ControlData L) :
    page.loadString s = (false, page) ∧ page.loadFile s = (false, page) ∧
    preview.loadString s = (false, preview) ∧ preview.loadFile s = (false, preview) ∧
    sec.loadString s = (false, sec) ∧ sec.loadFile s = (false, sec) ∧
    secs.loadString s = (false, secs) ∧ secs.loadFile s = (false, secs) ∧
    lay.loadString s = (false, lay) ∧ lay.loadFile s = (false, lay) ∧
    lays.loadString s = .ok (false, lays) ∧ lays.loadFile s = .ok (false, lays) ∧
    src.loadString s = (false, src) ∧ src.loadFile s = (false, src) ∧
    md.loadString s = (false, md) ∧ md.loadFile s = (false, md) ∧
    fsrc.loadString s = (false, fsrc) ∧ fsrc.loadFile s = (false, fsrc) ∧
    fmd.loadString s = (false, fmd) ∧ fmd.loadFile s = (false, fmd) ∧
    f.loadString s = (false, f) ∧ f.loadFile s = (false, f) ∧
    fs.loadString s = (false, fs) ∧ fs.loadFile s = (false, fs) ∧
    r.loadString s = (false, r) ∧ r.loadFile s = (false, r) ∧
    rs.loadString s = (false, rs) ∧ rs.loadFile s = (false, rs) ∧
    t.loadString s = .ok (false, t) ∧ t.loadFile s = .ok (false, t) ∧
    a.loadString s = (false, a) ∧ a.loadFile s = (false, a) ∧
    fmt.loadString s = (false, fmt) ∧ fmt.loadFile s = (false, fmt) ∧
    tm.loadString s = (false, tm) ∧ tm.loadFile s = (false, tm) ∧
    c.loadString s = (false, c) ∧ c.loadFile s = (false, c) := by
  obtain ⟨h1, h2⟩ := h
  refine ⟨?_, ?_, ?_, ?_, ?_, ?_, ?_, ?_, ?_, ?_, ?_, ?_, ?_, ?_, ?_, ?_, ?_, ?_, ?_, ?_, ?_, ?_, ?_, ?_, ?_, ?_, ?_, ?_, ?_, ?_, ?_, ?_, ?_, ?_, ?_, ?_, ?_, ?_⟩
  · simp [Page.loadString, loadFromString, h1]
  · simp [Page.loadFile, loadFromFile, h2]
  · simp [Preview.loadString, loadFromString, h1]
  · simp [Preview.loadFile, loadFromFile, h2]
  · simp [Section.loadString, loadFromString, h1]
  · simp [Section.loadFile, loadFromFile, h2]
  · simp [Sections.loadString, loadFromString, h1]
  · simp [Sections.loadFile, loadFromFile, h2]
  · simp [LayoutDef.loadString, loadFromString, h1]
  · simp [LayoutDef.loadFile, loadFromFile, h2]
  · simp [LayoutDefs.loadString, loadFromString, h1]
  · simp [LayoutDefs.loadFile, loadFromFile, h2]
  · simp [MetaSource.loadString, loadFromString, h1]
  · simp [MetaSource.loadFile, loadFromFile, h2]
  · simp [TocMeta.loadString, loadFromString, h1]
  · simp [TocMeta.loadFile, loadFromFile, h2]
  · simp [FileMetaSource.loadString, loadFromString, h1]
  · simp [FileMetaSource.loadFile, loadFromFile, h2]
  · simp [FileMeta.loadString, loadFromString, h1]
  · simp [FileMeta.loadFile, loadFromFile, h2]
  · simp [File.loadString, loadFromString, h1]
  · simp [File.loadFile, loadFromFile, h2]
  · simp [Files.loadString, loadFromString, h1]
  · simp [Files.loadFile, loadFromFile, h2]
  · simp [Reel.loadString, loadFromString, h1]
  · simp [Reel.loadFile, loadFromFile, h2]
  · simp [Reels.loadString, loadFromString, h1]
  · simp [Reels.loadFile, loadFromFile, h2]
  · simp [TocData.loadString, loadFromString, h1]
  · simp [TocData.loadFile, loadFromFile, h2]
  · simp [Admin.loadString, loadFromString, h1]
  · simp [Admin.loadFile, loadFromFile, h2]
  · simp [Format.loadString, loadFromString, h1]
  · simp [Format.loadFile, loadFromFile, h2]
  · simp [TechMeta.loadString, loadFromString, h1]
  · simp [TechMeta.loadFile, loadFromFile, h2]
  · simp [ControlData.loadString, loadFromString, h1]
  · simp [ControlData.loadFile, loadFromFile, h2]

/-! ### The hypotheses hold of real texts -/

theorem nameTop (c : Char) (r : List Char) (h : NameStart c := by decide) (hr : ∀ x ∈ r, NameChar x := by decide) : Name (c :: r) := ⟨c, r, rfl, h, hr⟩

theorem plainTag (c : Char) (r : List Char) (h : NameStart c := by decide) (hr : ∀ x ∈ r, NameChar x := by decide) :
    StartTag (['<'] ++ (c :: r) ++ ['>']) (c :: r) [] :=
  ⟨c :: r, by simpa using TagBody.mk (nameTop c r h hr) .nil (by simp) (w := []) (by simp [Spaces]), rfl⟩

/-- `<reel><id>x` is such a beginning, `reel` and `id` being open. -/
theorem at_example : At "<reel><id>x".toList ["id".toList, "reel".toList] := by
  have h0 : At [] [] := .start (by simp [Spaces])
  have h1 := At.open h0 (plainTag 'r' "eel".toList)
  have h2 := At.open h1 (plainTag 'i' ['d'])
  exact At.content h2 (.data (d := ['x']) ⟨by decide, by decide⟩)

/-- `<file id="1" ` begins a tag, up to where a second attribute can be. -/
theorem before_example : BeforeAttribute "<file id=\"1\" ".toList [("id".toList, "1".toList)] := by
  have ha : Attributes " id=\"1\"".toList [("id".toList, "1".toList)] :=
    .cons (ws := [' ']) (n := "id".toList) (w1 := []) (w2 := []) (q := '"') (t := ['1']) (v := ['1']) (s := []) (by decide) (by decide)
      (nameTop 'i' ['d']) (by decide) (by decide) (.inl rfl) (.char (by decide) (by decide) (by decide) (by decide) .nil) .nil
  exact .mk (n := "file".toList) (w := [' ']) (nameTop 'f' "ile".toList) ha (by decide) (by decide) (by decide)

/-- Each kind of wrong text, at that place. -/
theorem C71_example : At "<reel><id>x".toList ["id".toList, "reel".toList] ∧
    (∀ e ∈ ["</reel>".toList, "<file id=\"1\" id=".toList, "<file id=\"1\" name>".toList, "<file id=\"1\" name x".toList, "<file <".toList,
      "<file/ ".toList, "<fi%".toList, "<<".toList, "& ".toList, "&foo;".toList, "&#11;".toList, "&#x1f;".toList, "<file id=\"1\" n='a&b'".toList],
      Wrong ["id".toList, "reel".toList] e) ∧
    (∀ rest, Xml.loadString (utf8File "<reel><id>x</reel>".toList ++ rest) = none) := by
  have hw : Wrong ["id".toList, "reel".toList] "</reel>".toList := .endTag (m := "reel".toList) (nameTop 'r' "eel".toList) (.inr rfl) (by decide)
  have hts : TagStart "<file ".toList [] := .mk (n := "file".toList) (s := []) (w := [' ']) (nameTop 'f' "ile".toList) .nil (by decide) (by decide)
  have hts0 : TagStart "<file".toList [] := .mk (n := "file".toList) (s := []) (w := []) (nameTop 'f' "ile".toList) .nil (by decide) (by decide)
  refine ⟨at_example, ?_, ?_⟩
  · intro e he
    simp only [List.mem_cons, List.not_mem_nil, or_false] at he
    rcases he with rfl | rfl | rfl | rfl | rfl | rfl | rfl | rfl | rfl | rfl | rfl | rfl | rfl
    · exact hw
    · exact .twice (a := "id".toList) (c := '=') before_example (nameTop 'i' ['d']) (by decide) (.inr rfl)
    · exact .noValue (a := "name".toList) (c := '>') before_example (nameTop 'n' "ame".toList) (.inl rfl)
    · exact .noEqual (a := "name".toList) (w := [' ']) (c := 'x') before_example (nameTop 'n' "ame".toList) (by decide) (by decide) (by decide)
        (by decide) (by decide)
    · exact .less hts
    · exact .slash (c := ' ') hts0 (by decide) (by decide)
    · exact .char (n := "fi".toList) (.inr (nameTop 'f' ['i'])) (by decide)
    · exact .char (n := []) (.inl rfl) (by decide)
    · exact .text (.unended (r := []) (c := ' ') (by decide) (by decide) (by decide) (by decide))
    · refine .text (.unknown (r := "foo".toList) (by decide) (by decide) ?_)
      rw [show Known "foo".toList = ∃ x ∈ Html.named ++ Html.others, x.1.toList = "foo".toList from rfl]
      decide +kernel
    · exact .text (.decimal (ds := "11".toList) (by decide) (by decide) (by decide) (by decide) (by decide))
    · exact .text (.hexadecimal (ds := "1f".toList) (by decide) (by decide) (by decide) (by decide) (by decide))
    · exact .value (b := "<file id=\"1\" n='a".toList) (r := "&b'".toList)
        (.mk (a := ['n']) (w1 := []) (w2 := []) (q := '\'') (t := ['a']) (v := ['a']) before_example (nameTop 'n' []) (by decide) (by decide) (by decide)
          (.inr rfl) (.char (by decide) (by decide) (by decide) (by decide) .nil))
        (.unended (r := ['b']) (c := '\'') (by decide) (by decide) (by decide) (by decide))
  · exact fun rest => (C71_refused "<reel><id>x".toList "</reel>".toList _ at_example hw (by decide) rest).1

set_option maxRecDepth 100000 in
/-- Rules of XML the reader does not enforce (findings): attribute values without quotes or with `<`, attributes without a space
    between them, anything behind the name in an end tag, `]]>` in text, names that begin with a digit or `-` or are empty, `--` in a
    comment, references to surrogates and non-characters, entities of HTML, digits followed by letters in a reference, text around the
    outermost element, a declaration followed by two elements or none, and an outermost element that does not end. -/
theorem C71_not_enforced :
    Xml.loadString (b! "<a b=c/>") = some (.elem (b! "a") [(b! "b", some (b! "c"))] []) ∧
    Xml.loadString (b! "<a b='<'/>") = some (.elem (b! "a") [(b! "b", some (b! "<"))] []) ∧
    Xml.loadString (b! "<a b='1'c='2'/>") = some (.elem (b! "a") [(b! "b", some (b! "1")), (b! "c", some (b! "2"))] []) ∧
    Xml.loadString (b! "<a></a junk<>") = some (.elem (b! "a") [] []) ∧
    Xml.loadString (b! "<a>]]></a>") = some (.elem (b! "a") [] [.text (b! "]]>")]) ∧
    Xml.loadString (b! "<1><-></-><></></1>") = some (.elem (b! "1") [] [.elem (b! "-") [] [], .elem [] [] []]) ∧
    Xml.loadString (b! "<a><!-- x -- y --></a>") = some (.elem (b! "a") [] [.elem (b! "!-- x -- y --") [] []]) ∧
    Xml.loadString (b! "<a>&#xD800;&#xFFFE;</a>") = some (.elem (b! "a") [] [.text [237, 160, 128, 239, 191, 190]]) ∧
    Xml.loadString (b! "<a>&nbsp;&#65zz;</a>") = some (.elem (b! "a") [] [.text [194, 160, 65]]) ∧
    Xml.loadString (b! "x<a/>y") = some (.elem (b! "a") [] []) ∧
    Xml.loadString (b! "<?xml?><a/><b/>") = some (.elem (b! "?xml?") [] [.elem (b! "a") [] [], .elem (b! "b") [] []]) ∧
    Xml.loadString (b! "<?xml?>") = some (.elem (b! "?xml?") [] []) ∧
    Xml.loadString (b! "<a b='1'>x") = some (.elem (b! "a") [(b! "b", some (b! "1"))] []) ∧
    Xml.loadString (b! "<a>" ++ [1] ++ b! "</b>") = some (.elem (b! "a") [] []) := by
  decide +kernel

end Afs
