import Verif.Proof.Utf16
import Verif.Proof.StringGetc
import Verif.Proof.StringGetc16
import Verif.Model.Io.Common
import Verif.Proof.NodeEq
import Verif.Props.C20_C21_Xml
/-!
# C52, C53: encodings, and reading strings in memory
-/
namespace Afs
open Spec Xml

/-! ## C52 The encoding of a file does not matter -/

/-- A file in UTF-16 with byte order mark, of either byte order, is read as the same text in UTF-8. -/
theorem C52_utf16_file (bigEndian : Bool) (cs : List Char) (h : ∀ c ∈ cs, Allowed c ∧ ¬ EndsDFFF c) :
    Xml.loadFile (utf16File bigEndian cs) = Xml.loadFile (utf8File cs) := by
  unfold Xml.loadFile
  rw [decodeFile_utf16 bigEndian cs h, dec_text good_decodeFile cs fun c hc => (h c hc).1]

/-- A file with some text and a string with that text give the same. -/
theorem C52_file_as_string (cs : List Char) (h : ∀ c ∈ cs, Allowed c) :
    Xml.loadFile (utf8File cs) = Xml.loadString (utf8File cs) := by
  unfold Xml.loadFile Xml.loadString
  rw [dec_text good_decodeFile cs h, dec_text good_decode cs h]

theorem decode_mark (r : Bytes) : decode (0xEF :: 0xBB :: 0xBF :: r) = decode r := by
  rw [decode.eq_def]
  have h1 : isCont 187 = true := by decide
  have h2 : isCont 191 = true := by decide
  simp [h1, h2]

theorem decodeFile_mark (r : Bytes) : decodeFile (0xEF :: 0xBB :: 0xBF :: r) = decodeFile r := by
  rw [decodeFile.eq_def]
  have h1 : isCont 187 = true := by decide
  have h2 : isCont 191 = true := by decide
  simp [h1, h2]

/-- A UTF-8 byte order mark in front makes no difference, for any contents. -/
theorem C52_utf8_mark (s : Bytes) : Xml.loadFile ([0xEF, 0xBB, 0xBF] ++ s) = Xml.loadFile s ∧
    Xml.loadString ([0xEF, 0xBB, 0xBF] ++ s) = Xml.loadString s := by
  constructor
  · unfold Xml.loadFile
    rw [show [0xEF, 0xBB, 0xBF] ++ s = 0xEF :: 0xBB :: 0xBF :: s from rfl, decodeFile_mark]
  · unfold Xml.loadString
    rw [show [0xEF, 0xBB, 0xBF] ++ s = 0xEF :: 0xBB :: 0xBF :: s from rfl, decode_mark]

/-- So every object loads the same from the three kinds of file. -/
theorem C52_objects {β : Type} (load : Node → β) (fail : β) (bigEndian : Bool) (cs : List Char)
    (h : ∀ c ∈ cs, Allowed c ∧ ¬ EndsDFFF c) :
    loadFromFile load fail (utf16File bigEndian cs) = loadFromFile load fail (utf8File cs) ∧
    loadFromFile load fail ([0xEF, 0xBB, 0xBF] ++ utf8File cs) = loadFromFile load fail (utf8File cs) := by
  unfold loadFromFile
  rw [C52_utf16_file bigEndian cs h, (C52_utf8_mark _).1]
  exact ⟨rfl, rfl⟩

/-- A document with umlaut, quotes, a character above U+FFFF. -/
def exText : List Char := "<?xml version='1.0'?>\n<a b='ü\"'>x&#60;😀</a>".toList

example : (∀ c ∈ exText, Allowed c ∧ ¬ EndsDFFF c) := by decide +kernel

example : Xml.loadFile (utf16File true exText) =
    some (.elem (b! "?xml version='1.0'?") [] [.text [10], .elem (b! "a") [(b! "b", some [0xC3, 0xBC, 34])]
      [.text ((b! "x<") ++ [0xF0, 0x9F, 0x98, 0x80])]]) := by decide +kernel

/-- The exception: a character whose second surrogate is DFFF (here U+103FF) ends a
    UTF-16 document without an error, and what follows is lost: the test for the end of the
    surrogates is one short (mxml-file.c:1262, 1291). -/
theorem C52_dfff_refused (bigEndian : Bool) :
    Xml.loadFile (utf8File ("<a>".toList ++ [Char.ofNat 0x103FF] ++ "</a>".toList)) = some (.elem (b! "a") [] [.text [0xF0, 0x90, 0x8F, 0xBF]]) ∧
    Xml.loadFile (utf16File bigEndian ("<a>".toList ++ [Char.ofNat 0x103FF] ++ "</a>".toList)) = some (.elem (b! "a") [] []) := by
  cases bigEndian <;> decide +kernel

/-! ## C53 Reading a string stays inside it -/

/-- Loading from a NUL-terminated string returns, never reads behind the terminator, gives what
    `loadString` says, and nothing behind the terminator (`behind`) matters: in particular with
    nothing allocated there (`behind = []`) there is no undefined behaviour. -/
theorem C53_inside (s behind : Bytes) (h0 : (0 : UInt8) ∉ s) (hm : NoMark s) :
    ∀ calls, (decode s).length + 3 ≤ calls →
      loadMem calls PS.init .utf8 (s ++ 0 :: behind) = .ok (some (Xml.loadString s)) := by
  intro calls hc
  have hd : ∃ r, (run PS.init (decode s ++ List.replicate 3 none)).pc = .done r := by
    rw [run_append]
    exact C21_reader_always_returns (decode s)
  rw [loadMem_run behind calls PS.init s 3 h0 hm hd hc]
  unfold Xml.loadString loadData
  rw [run_append]
  rfl

/-- So what is behind the terminator cannot change the result. -/
theorem C53_nothing_else (s b1 b2 : Bytes) (h0 : (0 : UInt8) ∉ s) (hm : NoMark s) (calls : Nat) (hc : (decode s).length + 3 ≤ calls) :
    loadMem calls PS.init .utf8 (s ++ 0 :: b1) = loadMem calls PS.init .utf8 (s ++ 0 :: b2) := by
  rw [C53_inside s b1 h0 hm calls hc, C53_inside s b2 h0 hm calls hc]

example : (0 : UInt8) ∉ (b! "<a>x</a>") ∧ NoMark (b! "<a>x</a>") ∧
    loadMem 11 PS.init .utf8 ((b! "<a>x</a>") ++ [0]) = .ok (some (some (.elem (b! "a") [] [.text (b! "x")]))) := by
  unfold NoMark; decide +kernel

/-- Also when the string ends in the middle of a character. -/
example : loadMem 5 PS.init .utf8 ((b! "<a") ++ [0xF0, 0x9F, 0x98] ++ [0]) = .ok (some (some (.elem (b! "a") [] []))) := by
  decide +kernel

/-- The exception: behind the bytes FF FE the string is taken as UTF-16, whose end is a zero code
    unit.  Followed by an even number of bytes (none above D7, say ASCII) it is read on behind the
    terminator. -/
theorem C53_le_mark_reads_behind (s : Bytes) (hs : ∀ b ∈ s, b ≠ 0 ∧ b < 0xD8) (he : s.length % 2 = 0) (calls : Nat)
    (hc : s.length / 2 + 1 ≤ calls) : loadMem calls PS.init .utf8 ([0xFF, 0xFE] ++ s ++ [0]) = .ub := by
  obtain ⟨m, rfl⟩ : ∃ k, calls = k + 1 := ⟨calls - 1, by omega⟩
  have := le_overread (s.length / 2) s (by omega) (fun b hb => ⟨(hs b hb).1, by have := (hs b hb).2; rwa [UInt8.lt_iff_toNat_lt] at this⟩)
    (m + 1) [] [] none false hc
  have e : getcUtf8 (255 :: 254 :: (s ++ [0])) = getc16 false (s ++ [0]) := by rw [getcUtf8.eq_def]; simp [peek]
  rw [loadMem] at this ⊢
  simpa [PS.init, stringGetc, e] using this

/-- The same with FE FF and an odd number of bytes: the last one makes a code unit with the terminator. -/
theorem C53_be_mark_reads_behind (s : Bytes) (hs : ∀ b ∈ s, b ≠ 0 ∧ b < 0xD8) (he : s.length % 2 = 1) (calls : Nat)
    (hc : s.length / 2 + 2 ≤ calls) : loadMem calls PS.init .utf8 ([0xFE, 0xFF] ++ s ++ [0]) = .ub := by
  obtain ⟨m, rfl⟩ : ∃ k, calls = k + 1 := ⟨calls - 1, by omega⟩
  have := be_overread (s.length / 2) s (by omega) (fun b hb => ⟨(hs b hb).1, by have := (hs b hb).2; rwa [UInt8.lt_iff_toNat_lt] at this⟩)
    (m + 1) [] [] none false hc
  have e : getcUtf8 (254 :: 255 :: (s ++ [0])) = getc16 true (s ++ [0]) := by rw [getcUtf8.eq_def]; simp [peek]
  rw [loadMem] at this ⊢
  simpa [PS.init, stringGetc, e] using this

example : loadMem 1 PS.init .utf8 ([0xFF, 0xFE] ++ [] ++ [0]) = .ub := C53_le_mark_reads_behind [] (by simp) rfl 1 (by simp)

/-- Such a string is read properly when it ends the way the reader expects: little endian, with a zero code
    unit; big endian, with a zero byte in place of the first byte of a code unit.  Then nothing behind that end
    is touched or matters, whatever the code units are, and the characters are those of `charsOfUnits`. -/
theorem C53_utf16_inside (bigEndian : Bool) (us : List Nat) (h : GoesOn bigEndian us) (behind : Bytes) (calls : Nat)
    (hc : us.length + 3 ≤ calls) :
    loadMem calls PS.init .utf8 (byteOrderMark bigEndian ++ (us.flatMap (unitBytes bigEndian) ++ (endOf16 bigEndian ++ behind))) =
      .ok (some (loadData (charsOfUnits us))) := by
  have hl := charsOfUnits_length us
  obtain ⟨m, rfl⟩ : ∃ k, calls = k + 1 := ⟨calls - 1, by omega⟩
  have hd : ∃ r, (run PS.init (charsOfUnits us ++ List.replicate 3 none)).pc = .done r := by
    rw [run_append]
    exact C21_reader_always_returns (charsOfUnits us)
  rw [loadMem_mark, loadMem_run16 bigEndian behind (m + 1) PS.init us 3 h hd (by omega)]
  unfold loadData
  rw [run_append]
  rfl

/-- So a little endian UTF-16 string of any text, closed by a zero code unit, loads as the same text in
    UTF-8 does. -/
theorem C53_utf16le_text (cs : List Char) (h : ∀ c ∈ cs, Allowed c ∧ ¬ EndsDFFF c) (behind : Bytes) (calls : Nat)
    (hc : (cs.flatMap codeUnits).length + 3 ≤ calls) :
    loadMem calls PS.init .utf8 (utf16File false cs ++ ([0, 0] ++ behind)) = .ok (some (Xml.loadString (utf8File cs))) := by
  have := C53_utf16_inside false (cs.flatMap codeUnits) (goesOn_text cs fun c hc => (h c hc).1) behind calls hc
  rw [charsOfUnits_text cs h] at this
  unfold utf16File Xml.loadString
  rw [dec_text good_decode cs fun c hc => (h c hc).1, List.append_assoc]
  exact this

/-- A big endian one never loads: the first byte of `<` and of white space is zero, and is taken for the
    end of the string.  Nothing behind it is read. -/
theorem C53_utf16be_refused (rest : Bytes) (calls : Nat) (hc : 3 ≤ calls) :
    loadMem calls PS.init .utf8 ([0xFE, 0xFF, 0] ++ rest) = .ok (some none) :=
  C53_utf16_inside true [] (by simp [GoesOn]) rest calls hc

theorem C53_utf16be_document (c : Char) (cs : List Char) (h : c.toNat < 256) (behind : Bytes) (calls : Nat) (hc : 3 ≤ calls) :
    loadMem calls PS.init .utf8 (utf16File true (c :: cs) ++ behind) = .ok (some none) := by
  have e : unitBytes true c.toNat = [0, UInt8.ofNat (c.toNat % 256)] := by
    have : c.toNat / 256 = 0 := by omega
    simp [unitBytes, this]
  unfold utf16File
  rw [List.flatMap_cons, codeUnits, if_pos (by omega), List.singleton_append, List.flatMap_cons, e]
  exact C53_utf16be_refused _ calls hc

/-- Both, on the document of C52: read as UTF-16LE, refused as UTF-16BE.  A surrogate pair broken by the end,
    by a letter, or by another first surrogate. -/
example : (loadMem 60 PS.init .utf8 (utf16File false exText ++ [0, 0]) =
      .ok (some (some (.elem (b! "?xml version='1.0'?") [] [.text [10], .elem (b! "a") [(b! "b", some [0xC3, 0xBC, 34])]
        [.text ((b! "x<") ++ [0xF0, 0x9F, 0x98, 0x80])]])))) ∧
    loadMem 60 PS.init .utf8 (utf16File true exText ++ [0, 0]) = .ok (some none) ∧
    GoesOn false [0xD83D, 0x61, 0xD83D, 0xD83D, 0xDE00, 0xD83D] ∧
    charsOfUnits [0xD83D, 0x61, 0xD83D, 0xD83D, 0xDE00, 0xD83D] = [none, some 0x61, none, some 0xDE00, none] ∧
    GoesOn true [0x3C00, 0xD83D, 0xDE00, 0xDFFF] ∧
    charsOfUnits [0x3C00, 0xD83D, 0xDE00, 0xDFFF] = [some 0x3C00, some 0x1F600, some 0xDFFF] := by
  refine ⟨?_, ?_, ?_, ?_, ?_, ?_⟩
  · decide +kernel
  · decide +kernel
  all_goals simp [GoesOn, charsOfUnits]

end Afs
