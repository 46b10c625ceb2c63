# Formal model of piql/afs in Lean 4 — design

Contents: 1 conventions, 2 what is modelled, 3 plan per property, 4 trusted base,
5 what is not modelled, 6 findings, 7 how the theorems are tested.

## 1. Conventions of the model

The library is sequential C operating on trees of plain records with optional
strings, optional vectors and machine integers, plus two hash functions and a
bundled XML library (mini-XML). The model is a set of total Lean functions, one
per C function, under `lean/Verif/Model`; each definition cites the lines it
models (`tools/cites.py` checks that every definition has a citation, that the
cited lines exist, and lists the C functions no definition cites).

* `char *` → `Option Bytes` (`none` = NULL), `Bytes = List UInt8` without the
  terminating NUL. Where it matters that a C string contains no NUL byte this
  is a hypothesis.
* `gvector *` → `Option (List α)` (`none` = NULL vector, `some []` = empty
  vector; kept apart because the code keeps them apart). Elements are values,
  never NULL (simplification: only a caller filling a gvector itself can put a
  NULL into one).
* `int` → `Int`; `unsigned int` → `Nat` with explicit reduction modulo `2^32`
  wherever the code can wrap; `unsigned long` in the hash code → `BitVec 64`;
  `float` → rationals with the rounding `f32` of IEEE binary32 after each
  operation.
* mutation through a pointer → a function returning the new value.
* object pointers that may be NULL → `Option`.
* undefined behaviour (NULL dereference, access outside an array or to freed
  memory, signed overflow where it can happen) → the outcome `Res.ub`; so
  `f x = .ok v` also says that the call is defined.
* sharing: the value model treats objects as values. Reference counts and
  ownership have their own heap model (`Model/Refs.lean`, C30); the XML nodes
  have a pointer-level model (`Model/Xml/Links.lean`, C57–C59) and the XML
  reader a memory-level model (`Model/Xml/ParseMem.lean`, C60), each connected
  by theorems with the value model used elsewhere.
* loops over pointers: fuel-indexed functions `Nat → … → Option (Res …)`;
  theorems say that there is a number of steps from which on the result is
  there and does not change, so termination is part of the claim.

Directories: `Model/*` the code; `Spec/*` small specifications that do not use
the model's functions; `Proof/*` lemmas; `Props/*` the property theorems, each
with a non-vacuity `example` beside it and counterexample theorems that show
why each hypothesis is there. `tools/props.py` writes properties.jsonl,
`tools/manifest.py` MANIFEST.json.

## 2. What is modelled

| source | model |
|---|---|
| src/controlframeboxingformat.c | Model/Builtin |
| src/framerange.c, frameranges.c, merging in tocdatareel.c | Model/FrameRange |
| src/toc/previewsection(s).c, previewlayoutdefinition(s).c | Model/Layout, Io/Layout |
| src/tocfilepreviewpage.c, tocfilepreview.c | Model/Preview, Io/Preview |
| src/tocdatafilemetadata(source).c | Model/FileMeta, Io/Meta |
| src/tocmetadata(source).c | Model/TocMeta, Io/Meta |
| constructors used nowhere else | Model/Create |
| src/tocfile.c, tocfiles.c | Model/File, Io/File, Table |
| src/tocdatareel.c, tocdatareels.c | Model/Reel, Io/TocData |
| src/tocdata.c | Model/TocData, Io/TocData |
| src/administrativemetadata.c | Model/Admin |
| src/controlframe/boxingformat.c | Model/BoxingFormat, BoxingConfig, FormatMem (pointers) |
| src/technicalmetadata.c, controldata.c | Model/ControlData |
| src/sha1hash.c, sha256hash.c, sha1.c, sha256.c | Model/Hash, Sha1, Sha256, ShaFile, ShaRead, ShaTest (self tests) |
| src/xmlutils.c | Model/XmlUtils, Numbers |
| src/zeroreferenceframe.c, src/toc/previewimageutils.c | Model/ZeroRef, ZeroMem (memory), Float32, Image, Extract |
| mxml-file.c: reading strings and files, entities, UTF-8/16 | Model/Xml/Parse, Utf8, Entity, StringGetc, ParseMem, ParseOom (with refused memory) |
| mxml-file.c: writing strings and files | Model/Xml/Write, WriteFail (failing writes), Wrap (wrap margin) |
| mxml-node.c, mxml-attr.c, mxml-get.c, mxml-search.c | Model/Xml/Node, Walk, Links |
| all `*_create/free/clone/get_new_reference/set/add` for ownership | Model/Refs |
| all `*_load_xml` for ownership | Model/RefsLoad; for a given document Model/LoadPlan |
| the functions of Model/Refs access by access | Model/Threads |
| the `char *` members and tag vectors of all objects: every allocation, read and free | Model/Strings |
| `*_save_file`, `*_save_string`, `*_load_file`, `*_load_string` of all 19 kinds: files opened and closed, documents made and deleted, order of the steps | Model/Session |

## 3. Plan per property

| id | modelled | proof |
|----|----------|-------|
| C01, C02 | frame ranges, sort, merge | loop invariant over the sorted list; frame set as spec predicate; canonical form is unique |
| C03, C04, C05 | `clone`/`equal` of each type | structural, list induction |
| C06, C07, C08 | `add` operations | induction over histories; pixel-set spec for overlap |
| C09, C10, C12, C35, C37 | lookups, filters, aggregates | list induction against `find?`/`filter`/min/max specs |
| C11 | `add_frame_offset` | algebraic laws |
| C13, C34, C39, C41–C44 | page, size and frame arithmetic | div/mod arithmetic |
| C14 | used definitions | invariant over nested loops, sortedness |
| C15, C16, C17 | 64-bit-word hash code, block buffering | refinement to a 32-bit FIPS 180-4 spec; buffer invariant |
| C18, C19 | file hashing loop, hex | loop invariant over 512-byte reads |
| C20, C21 | XML writer and reader | structural induction, automaton run on written text |
| C22–C26, C48–C51 | `save_xml`/`load_xml` per type, then through text | composition of field round trips over `doc_roundtrip` |
| C27, C28, C32 | printf/atoi/sscanf, trim, split/join | induction on digits and lists |
| C29, C36 | images as pixel lists, float geometry | loop invariants; rounding error bounds |
| C30 | heap with reference counts | invariant over histories of calls |
| C31, C46 | loads of arbitrary documents | induction over the document |
| C33 | table rendering with buffer accounting | length bounds |
| C38, C40 | search, entity lookup | list induction; binary search invariant |
| C45 | two-pass `mxmlSaveAllocString` | same text in both passes |
| C47 | setters | induction over histories |
| C52, C53 | UTF-8/UTF-16 decoding, string reader bounds | simulation between encodings; memory-level `getc` |
| C54, C55 | XML grammar (Spec/Grammar, from the XML recommendation) | reader accepts every grammar document with its meaning; saved texts are in the grammar |
| C56 | cut files | analysis of the reader's state at every prefix of a saved text |
| C57–C59 | linked node memory | separation-style predicate `Spec/Links`, preserved by every call; walks follow document order |
| C60 | reader with buffers and linked nodes | forward simulation to the value reader + memory invariant |
| C61 | XML schema (Spec/Schema, transcribed from xsd/) | white space between elements does not matter for the types; then part by part |
| C62 | `saveFileOn`: the writer call by call, `putc` number i fails or not | writer = list of solid and white tokens; invariants over the list for any failures, exact file for a full disk; with C56 for what loads |
| C63 | the loaders in the heap model of C30; what the document holds is a plan, every plan allowed; lost references are listed | the C30 invariant with lost references counted as held; loaders only add objects (`Grown`) or drop parts (`Weak`) |
| C64 | the loaders of C22–C26 on trees that conform to the schema of C61; the document's values are read off at their places (`Spec/Document.lean`), nothing is searched | by the schema no other element of the name lies before the right one, so the search by name finds it (`find_child`, `findAll_children`, `findUnder_child`); numerals by `strtol`; lists by induction |
| C65 | the functions of C30 as programs of single memory accesses, several threads, a schedule as list of thread numbers | each program alone refines the C30 function and stays inside its own objects; then an invariant over the schedule: every thread is on the way to the result it has alone |
| C66 | the checksum functions with a schedule of `fread` results (how many bytes each call delivers, or none, with or without errno) and failing seeks | induction over the region: the pieces digested are a beginning of the region; chunk independence (C17) |
| C67 | both editions of the control frame schema (Spec/ControlSchema, transcribed from xsd/control_frame.xsd and boxing_format.xsd); the loaders and savers of C48–C51 | as C64 for loading, as C61 for saved texts; a boxing configuration holds exactly the settings of the document in order |
| C68 | the five built-in formats (Model/Builtin, generated from the byte arrays); what they say (Spec/Builtin, generated with Python's XML parser) | the kernel runs the reader line by line (Proof/Eval); the rest is C49 and C67's account of a `work` element |
| C69 | trees that differ in layout only (Spec/Relaid): texts, comments, processing instructions and CDATA sections between elements, order of attributes, blanks around texts, XML declaration | every search, text and attribute access gives related results on related trees (Proof/Relaid), so every loader does the same (Proof/Relaid2–3) |
| C70 | documents with clean texts (Spec/Stable: `CleanDoc`; Proof/Stable5 gets it from the grammar), ways to save and load, sequences of copies (`Copies`) of any length | what each loader puts into an object satisfies the writability conditions of C22–C26, C48–C51 (Proof/Stable–4), what comes out is writable again and `asLoaded` is idempotent, so the copies settle (`Settles`) or keep an invariant (`Survives`) |
| C71 | beginnings of documents with the elements open there (`At`), texts that break a rule there (`Wrong`), bytes that are no character (Spec/IllFormed); any bytes behind | the reader's state behind a beginning of a document is known exactly (`Where`, from the grammar runs of C54); every wrong text leads to the error state, which is never left; the bytes before are decoded as the characters |
| C72 | a heap of strings; constructors, clones, setters, loaders and destructors of the eight kinds of objects with strings, each allocation and free; calls in any order (Model/Strings); the value level with a list of lost blocks (Spec/Strings) | every function is given an exact footprint (`Does`, in the style of separation logic: owned blocks, any frame), composed over calls; the blocks in use are those of the living objects and the lost ones |
| C73 | the four functions of all 19 kinds as programs over a disk, open `FILE`s and documents, with `fopen` and writes that may fail (Model/Session); the value level: files, objects and the number of lost documents (Spec/Session) | each shape of function ends with nothing open and an exact number of new documents (`Ends`), tied to the value models of C22–C26, C48–C51, C62; histories by induction |
| C74 | C73's model with loads that read only a beginning of the file, and C62's writes that may fail one by one | what is in the file is the text without some white space between elements, cut somewhere (`ThinTok`, `PaddedTree`); such a text is read as the object, or refused, or ends behind the first name (`fail_cut`, `fail_load`), then the loaders of C22–C26, C48–C51 |
| C75 | the two models of the `*_load_xml` functions joined: Model/LoadPlan turns a document into what Model/RefsLoad is told about it, using Model/Io; which objects a value is made of is Spec/Shape | in the middle of loading, the object owns exactly the objects of the value loaded so far and nothing old is changed (`Mid`); each step of a loader keeps this (`given_back`, `appended`, `into`, `released`), containers by induction over the elements |
| C76 | the calls and loads of C30 and C63; which of a call's arguments it may change is Spec/Apart | a frame lemma for each operation of Model/Refs and Model/RefsLoad: nothing outside a sealed set that owns nothing in it can come to own something in it (Proof/Apart); then by induction over the program; that a copy is sealed off follows from its counts of 1 |
| C77 | boxing formats as blocks with a count, a pointer to a configuration and a name pointing into it (Model/FormatMem); programs, references held and configurations owned are Spec/FormatMem | an invariant of the memory (counts, every configuration owned once, every name inside its own configuration, what is read is a value of C49) kept by each call (Proof/FormatMem–3), then induction over the program |
| C78 | the remaining constructors (Model/Create) as values; `addAll` (adding one by one) and what a source is described by are small specifications in the Props file | unfolding for the fields; induction for lists against adding one by one; the XML constructors from the round trips of C23, C24 and the loads of C46 |
| C79 | zero reference frames as blocks of memory with an arbitrary allocator (Model/ZeroMem); pointers of the caller as values without addresses (Spec/ZeroMem) | refinement: the memory is the disjoint union of the blocks behind the pointers and of lost marks; induction over the calls |
| C80 | the loaders of Model/Io on arbitrary old objects | the result compared field by field with the load into a new object (`given`: new value if the document gives it, old one otherwise); lists by uniqueness of the in-order specification of C46; loading twice follows |
| C81 | all queries and edits of the table of contents objects | normal forms of Spec/Content (C05): every query `q` satisfies `q (content x) = q x` (or agrees where defined), so equal objects answer alike; for validity a finer normal form that keeps NULL checksums; exceptions by examples |
| C82 | `mxml_load_data`, `mxml_parse_element`, `mxml_add_char`, `mxml_new`, `mxml_set_attr` when memory is refused | the machine of C60, every step with an arbitrary set of refused requests; the invariant of C60 (`Sim`) is kept by every step whose growths are granted; a refused growth leads to a state whose exit frees twice; steps with refused nodes and buffers agree with the steps of C60 or go to the error exit |
| C83 | the reader of C20 on lists of `getc` results with `EOF` anywhere | outside four places a step with `EOF` ends the reader; in three of them it equals the step with a certain character (case analysis over the program counter; an invariant for the quotes); memory from C60, which holds for all such lists |
| C84 | the reader of C20, on any list of `getc` results; Spec/Accepted: a grammar of everything accepted, with trees | soundness: running the reader over each production (mutual induction on derivations); completeness: an invariant that gives, for each place of the reader, the partial derivation of what was read so far (step by step, all places) |
| C85 | the writer of C20 with the wrap margin; every read of the margin gets an arbitrary value (Model/Xml/Wrap); threads as interleavings of sets and reads | induction over the tree: with margins ≤ 0 the text of C20; otherwise the same bytes but for line ends in place of blanks, with columns that are zero at the same places; the reader makes the same step at a line end as at a blank before an attribute, so the trees agree (induction over clean trees) |
| C86 | no new code; Spec/Made: an inductive predicate with one constructor per call of the API (12 kinds of objects, any arguments, refused and failed calls included) | invariant by induction over the history: valid items, distinct ids, no overlap, all the way down; loads by induction over their loops; then the queries and the validity of every kind follow from the invariant |
| C87 | no new code; Spec/Built: one constructor per call with clean arguments (10 kinds of objects), documents with clean texts | invariant by induction over the history (Proof/Built): all stored texts stay clean, numbers in range, parts held as C70 needs; then C70's fixed point |
| C88 | no new code; Spec/BuiltControl: one constructor per call with clean arguments (4 kinds of objects), lists of files are those of C87 | invariant by induction over the history (what is stored is storable, files held as C70 needs), then C48, C49 and C51's fixed point for ever |
| C89 | no new code; Spec/Extended: the known element and attribute names, foreign elements, documents equal but for unknown things | the searches of all loaders, restricted to elements with known names, meet corresponding elements in the same order (Proof/Relaid, Relaid2, Relaid3); C69 follows |
| C90 | no new code; objects as in C87 and C88 | what a saved text is loaded as is the object (C87, C88), so equal texts have equal objects |
| C91 | `Model/Xml/AttrMem.lean`: mxml-attr.c on a memory with allocation, freeing and refusals | separation-logic style triples (as C72) for each call; specification is a map from names to texts |
| C92 | `Model/Io/Held.lean`: the save, load and checksum functions on a world of handles (use or release of what is not held is undefined) | each shape of function case by case, then induction over the calls |
| C93 | `Model/Xml/Find.lean`: `mxmlFindElement` with all parameters, `mxmlFindPath`; specification in `Spec/Path.lean` | repeated searches = filter of the descendants or children (strong induction over what is left to visit); paths by induction on the steps, the converse by strong induction on the length |
| C94 | `Model/Xml/EntityCb.lean`: the array of entity callbacks with its bounds (outside it, or calling NULL, is undefined); specification in `Spec/EntityCallbacks.lean` | the array holds the register (invariant), each call case by case, induction over the history |
| C95 | `Model/Xml/Index.lean`, `Model/Xml/IndexSort.lean` (the quicksort, loop by loop): an index is a list of (name, value); specification in `Spec/Index.lean` | loop invariants of the partition, induction over the depth of the sort; for the search, the test is monotone along the order; the binary search keeps the matches between its bounds (strong induction); the matches are one block |

Later properties (C80 …) are described in properties.jsonl and in the header
comments of their `Props` files.

## 4. Trusted base

* Lean's kernel. Axioms used by the theorems: at most `propext`,
  `Classical.choice`, `Quot.sound` (vcheck replays every module and checks
  this). No `native_decide`, no `bv_decide`, no axiom of our own.
* The reading of the C code recorded in the model's comments (file and lines).
* The compiler is LP64 with 32-bit `int`, 64-bit `long`; glibc's `printf`,
  `atoi`, `strtol`, `sscanf`, `strcmp`, `qsort`-free code as modelled in
  `Model/Numbers.lean`; `atoll` as `strtol` (64 bit); locale "C".
* malloc never fails; except in C62, `fopen` of a writable path succeeds and all
  writes arrive (C56 treats files that were cut); `fread` returns the bytes of
  the file. C62: a byte for which `putc` succeeds is in the file (a buffered stream
  can lose a tail of them: that is the file for a smaller k).
* The `boxing` library (gvector, boxing_string, boxing_config, image8, powf
  user) is a git submodule absent from /repo. Its functions are assumed to
  behave as named: `gvector_append_data` appends, `gvector_create_pointers(n)`
  makes n slots, `boxing_string_clone` copies (NULL → NULL),
  `boxing_string_split` cuts at every separator and keeps empty pieces (C32),
  `boxing_image8` is a rectangle of bytes. The configuration functions are a
  parameter `ConfigLib` with the laws `LawfulConfig`; an instance
  (`Proof/ExampleLib.lean`) shows the laws can be met. `powf(2, n)` is exact (C39).
* The XML reader is written as an automaton: one control state per `getc` call
  site, one step per character. White-space callbacks see a node and the names
  of its ancestors only (true of every callback in src/).
* C30: kinds, counts and ownership only; plain data left out; whether an `add`
  is accepted is a parameter. C63 adds the loaders; which elements a document has,
  which load and which are accepted is a parameter as well.
* C57–C60: the allocator may return any address that is not in use; the strings
  of a node belong to its cell; texts below 500 million bytes (C60), so that
  the `int` buffer size does not overflow.

## 5. What is not modelled

* conf/reel-4k-controlframe-v1.xml and -v2.xml (older formats that are not built in).
* `_w` variants of the checksum functions (wide file
  names), `src/afs.c` (version string), logging (`DLOG_*`).
* mini-XML: SAX, file descriptors, custom/integer/real/text node types,
  `mxmlIndexDelete`, `mxml-set.c`,
  the effect of added entity callbacks on reading (C94 treats the callbacks alone), the error
  callback, thread-local globals. afs calls none of these.
* Failure of malloc, except in the XML reader (C82; there `strdup` for the strings of a
  node is not refused). Reads that fail in the middle of a file are modelled for
  checksums (C66); for loading, reads that keep failing are a shorter file (C56),
  reads that work again are C83.
* Concurrency is treated in C65 (reference counts and ownership) and C85 (the wrap margin) only; every other
  theorem is about sequential use. The shipped config.h does not define
  HAVE_PTHREAD_H, so the globals of mini-XML (wrap margin, callbacks) are shared by
  all threads; afs only ever writes the wrap margin, and always 0 (C85).

## 6. Findings (shown by theorems under the named property, unless said otherwise)

Undefined behaviour or memory errors reachable through the API:
* C09: looking up a unique id when a file has none (`strcmp` on NULL).
* C18: negative size ≠ −1 over-reads; a start behind the end is accepted.
* C31: saving reels, files or a file list indented as a document dereferences a
  NULL parent in the white-space callback.
* C33: the location table overflows its buffer for valid files with mixed-size
  dimensions/overlaps; long formats overflow a stack array; NULL strings of
  valid objects are printed.
* C36: sections whose far corner wraps in 32 bits are cut outside the image;
  C07: such sections also defeat the overlap test.
* C39: zero levels never terminates. C34: frame counts are wrong from 4 GiB on.
* C53: a string that begins with a UTF-16 byte order mark is read past its end unless it
  is little endian and closed by a zero code unit; a big endian document is always refused, since
  the zero byte of its first character counts as its end.
* C57: `mxmlAdd` of a node relative to itself makes a loop. C59: saving a node
  that has a next sibling runs off the tree.
* C60: the reader loses the root element when its attributes are malformed and
  a text behind the root. (On realloc failure the buffer is freed twice,
  mxml-file.c:616 and `error:`; outside the model, malloc succeeds.)
* `afs_toc_file_set_preview/metadata` with the file's own part uses it after
  the free (C30_set_own_preview_is_undefined).

Data lost or changed silently:
* C10: child files include standalone files. C12: the last preview frame of a
  reel is never known. C29: odd widths get one column more.
* C20/C21: control characters and U+FEFF do not survive; `]]>` in CDATA and
  adjacent texts break. C52: in UTF-16, characters whose low surrogate is DFFF
  are refused.
* C31/C46: loaders answer success for documents that leave the object invalid.
* C49: of a class with an alias only version and alias survive; C49/C50:
  applications or a boxing format that cannot be loaded are dropped silently.
* C50/C51: applications loaded before stay when the document has none;
  administrative metadata is replaced although the load is refused.
* C21: unquoted attribute values are garbled, attribute names in quotes are not
  readable. C54: an empty comment swallows what follows, comments before or behind
  an element without a declaration are refused, and a first character of an
  attribute name beyond ASCII is cut to one byte. C55: control data has two roots and is never
  well-formed XML.
* C61: what the library writes against its own schema: layout ids that are not
  numbers, source data (no place in the schema), files without unique id or of
  4 GiB and more, files that are not digital, the old data format, reels without
  files, tables of contents without layout definitions.
* C56: a file cut exactly behind the root element's name loads as an empty
  object with success.
* C62: no `*_save_file` looks at the result of `mxmlSaveFile` or `fclose`: on a
  full disk they report success, and the old file is gone (`fopen` with `w+`).
  `mxml_write_ws` hands on −1 as a column, so lost white space goes unnoticed even
  in mini-XML.
* C63: loaders leak. A page, section, file, reel or layout definition that does
  not load is never freed (sources are); loading a reel, a file, a layout definition
  or technical metadata again loses the parts it had; technical metadata whose
  applications do not load reports success and loses a file. Nothing is freed twice.
* C64: forms the schema allows and the library misreads: a text in a CDATA section
  is lost, behind a comment it is cut; `10X10` and `x10` are refused as sizes; a
  metadata source without `id` or `fileId` makes the whole index fail; numbers of
  2³¹ and more become negative; a missing `formatId` becomes `undefined`; a preview
  without pages makes its file invalid.
* C65: reference counts are not atomic: two threads that take a reference to the same
  object can raise its count by one only, and two threads that give up the last
  references can destroy the object twice.
* inc/controlframeboxingformat.h: `AFS_FRAME_FORMAT_V1` … `V5` (0 … 4) index an array
  that begins with version 7: `afs_control_frame_format[AFS_FRAME_FORMAT_V5]` is
  version 3 (C68 gives the names).  The arrays have no zero byte at the end, so they
  cannot be passed to `afs_boxing_format_load_string` without a copy.
* C66: a read error while a checksum is computed is not reported: without errno the
  checksum of what was read until then is returned, with errno (also one left from an
  earlier, unrelated failure) an uninitialised buffer is printed as checksum.
* C67: no saved control data follows the published schema: classes are written with `key` and
  `version`, which boxing_format.xsd does not declare; `JobId` and `Location` are never
  written; files stand in `Tocs/files/file` and not in `Tocs/file`; the two parts have no
  element around them. A boxing format that does follow the schema is loaded as an empty
  one, with success. Administrative, technical or boxing documents without XML declaration
  are refused, control data without declaration loads. (control_frame.xsd refers to a type
  `ns:file` that no schema file defines: seen by reading.)
* C69: a comment before the text of a text element hides the text; an empty element is
  loaded as a missing text, an element with blanks in it as an empty text.
* C70: data that contain `]]>` (loaded from `]]&gt;`) are saved as a CDATA section that ends
  there: the rest is lost, or the saved text cannot be loaded. A blank `uniqueId`, a size
  like `5x0`, a negative resolution and the format of a source without data are loaded but
  not saved; a U+FEFF that came from a character reference is dropped by the next load.
* C71 (`C71_not_enforced`): the reader accepts many texts that are not XML: values without
  quotes or with `<`, no space between attributes, rubbish in end tags, `]]>` in text, names
  like `1` or none, `--` in comments, references to surrogates, text around the outermost
  element, a declaration with two elements or none behind it. A control character or a byte
  that is not UTF-8 directly inside the outermost element ends the document there, as if it
  were complete.
* C73: every `FILE` is closed on every path. If `fopen` fails, `*_save_file` never deletes the
  document it has made (except lists of sections and technical metadata, which open the file
  first, and file metadata sources, which delete it; `C73_closed_loses`, `C73_closed_deleted`).
  A `*_load_string` that reports a failure loses the document (except boxing formats;
  `C73_wrong_text_loses`). The functions for pages and boxing formats also leave the document when their
  `*_save_xml` refuses, but these never refuse (`C73_save_string_loses_nothing`).
* C74: a failing write of white space is swallowed (mxml_write_ws, mxml-file.c:3042-3085) and writing goes on
  behind it, so the file need not be a beginning of the text; it still loads exactly as saved (`C74_gap`). A read
  error is taken for the end of the file (mxml-file.c:1094-1303) and never reported as such. The only silent losses
  are those of C56: a file that ends behind the outermost name (or, with lists, earlier), and control data whose
  technical metadata end behind their name.
* C72: loading into an object that already has strings loses them (all kinds except tables of
  contents: the old pointer is overwritten, not freed; `C72_reload_leaks`). A `*_load_string`
  whose element does not load never frees the document (`C72_load_string`). A member passed to
  its own setter is read after it was freed (`C72_set_own_string`).
* C77: `afs_boxing_format_set_config(f, f->config)` frees the configuration before copying it: a use of freed memory.
* C77: `afs_boxing_format_init` writes only the configuration and the count; the name and the numbers are left unset, so that comparing or cloning the
  format before `set_config` or `load_xml` reads uninitialised memory.
* C78: the constructors from an XML node (`afs_toc_metadata_create3`, `afs_toc_preview_sections_create2`, `afs_toc_preview_layout_definition_create4`) drop
  the answer of the load: a document with a broken element gives a valid object with the elements before it (`C78_failure_hidden`).
* C79: `afs_zero_reference_frame_init` on a frame that has a mark loses the mark (leak); after a failed init on a block of the caller the frame cannot be freed
  (uninitialised pointer); `afs_zero_reference_frame_create` does not look at a NULL from malloc.
* C78: `afs_toc_preview_layout_definition_init` does not write the sections: on memory of the caller they stay what was there.
* C80: `afs_toc_metadata_source_load_xml` (and the one for files) on an object with data ignores data given as plain text, and succeeds with the old data on a
  document without data that a new object refuses; `afs_toc_file_load_xml` keeps preview, metadata and kinds of the old file when the document has none, and in the
  old format can lose the kinds at the first load and set them at the second (`C80_stale`).
* C81: equality is coarser than behaviour in three places: a NULL checksum makes a digital file invalid, an equal file with an empty checksum is valid; `first_frame`/`last_frame`
  of equal tables of contents are −1 (no list of reels) and 0 (empty list); a lookup by unique id reads through a NULL id that equals an empty one (`C81_exceptions`).
* C82: `mxml_add_char` frees the buffer when `realloc` fails and its callers free it again at the label `error` (mxml-file.c:614-621, 2087, 2354-2355): running out of memory
  on a token of 60 bytes or more is a double free (`C82_growth_refused`). A failed `mxml_set_attr` is not looked at: the attribute is missing from a document that loads
  (`C82_attribute_dropped`). A failed node of a comment ends the main loop with `break` instead of the error exit (1643-1651): if the comment stands directly in the root
  element the rest of the document is dropped and the load succeeds (`C82_cut_behind_comment`).
* C83: the XML reader does not look at `ferror`: a read error that goes away in the middle of an attribute value, of a closing tag or of `<!…` is not noticed, and a document
  that is not the one in the file is accepted (`C83_other_document`, `C83_other_text`, `C83_other_declaration`).
* C84: the grammar shows what the reader takes for an attribute name or a value without quotes: of its first character only the low byte is kept (a first character U+0141 is read as `A`).
* C85: every save of afs sets the wrap margin of mini-XML to 0 and does not put back what the application had set (`C85_side_effect`).
* C40: the number of a character reference is cut to 32 bits, so `&#4294967361;` is read as `A`, and what follows the digits is ignored (`&#65zz;` is `A`) (`C40_wraps`, `C40_rest_ignored`).
* C86: constructors that are handed a whole vector check nothing (`C86_vectors_unchecked`); moving frames beyond the last `int` turns the end frame negative, and the list of files, valid before, is no longer valid (`C86_shift_off_film`). With these two left out, the undefined answer of `C12_missing_preview_is_undefined` is out of reach.
* C81: a file without format and a file whose format is the empty string are equal for
  `afs_toc_file_equal`; saved and loaded, the one has the format `undefined`, the other the
  empty one, and they are no longer equal (`C81_saved_format`).
* C89: elements are searched for at any depth, so an element with a known name inside an unknown element is
  taken for the one searched for if it comes first (`C89_inside_counts`): `<signer><id>99</id></signer>` before
  `<id>7</id>` makes the number of the file 99.

- C91_array_lost: if the copy of the name of an element's first attribute is refused, mini-XML never frees the array made for it (`num_attrs` stays 0, and `mxml_free` and `mxmlElementDeleteAttr` free the array only for elements with attributes). A refused copy of a value is not reported: the attribute is there with the value NULL. C91_buffer_lost: if `realloc` is refused for a formatted text of 256 bytes or more, `_mxml_vstrdupf` loses the small buffer.

- C92: saving an object to a file that cannot be opened loses the document (seven kinds only if the object can be
  saved, nine in any case; three kinds are careful). A text that is a document but does not load is lost by every
  `*_load_string` except that of boxing formats (`C92_string_lost`). `afs_toc_file_preview_page_save_string` and
  `afs_boxing_format_save_string` forget the document if saving fails; the former cannot fail.

- C93: `mxmlFindPath` does not go back: of two siblings `a`, of which only the second one has a `b`, the path `a/b`
  finds nothing (`C93_no_way_back`); `mxmlFindElement` with a value but no attribute finds nothing.

- C94: `mxmlEntityRemoveCallback(_mxml_entity_cb)` would take away all named characters, also `&amp;`
  (`C94_removed`); a callback added twice is asked until it is removed twice.

- C95: `mxmlIndexFind` with a value but no name misses elements that are there, because the index is in the order of
  the names first (`C95_value_alone_missed`).

## 7. Testing the theorems

`seeded/LOG.jsonl` records every edit of the model made in a scratch copy, the
claim it breaks and the theorems that failed. Edits that no theorem noticed led
to a tightened theorem (field `tightened`) or are noted as harmless.

Beside that, `lean/Verif/Checks/` replays on the model the expectations of the
project's own unit tests (tests/afs/*.c) of tables, reels, previews, durations,
used layouts, validity and the zero reference frame. They are tests of the
model, not proofs, and all of them agree with it but one:
`afs_toc_files_save_as_table_test4` sets a file format to NULL, expecting a
table, where the code calls `strlen(NULL)` (src/tocfiles.c:1046) — undefined
behaviour in the model (C33).
