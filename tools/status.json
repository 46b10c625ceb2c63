{
"C01": [
"proved",
""
],
"C02": [
"proved",
""
],
"C03": [
"proved",
""
],
"C04": [
"proved",
""
],
"C05": [
"proved",
""
],
"C06": [
"proved",
""
],
"C07": [
"proved",
"The wrap-around counterexample outside the stated 32-bit domain is C07_wraparound_overlap_accepted."
],
"C08": [
"proved",
""
],
"C09": [
"proved",
"Unique-id lookup needs non-NULL unique ids; C09_null_unique_id_is_undefined shows exactly when the call is undefined."
],
"C10": [
"proved",
"get_child_files also returns standalone files (C10_child_files_include_standalone), so the partition is parents / children, with standalone files the parentless children."
],
"C11": [
"proved",
"Domain: positions stay on film; C11_leaving_film_is_irreversible shows the domain is needed."
],
"C12": [
"proved",
"Digital section in full; the reel API never knows the last preview frame (C12_preview_last_never_known)."
],
"C13": [
"proved",
""
],
"C14": [
"proved",
""
],
"C32": [
"proved",
"Rests on the stated assumption about the external boxing_string_split (keeps empty pieces)."
],
"C35": [
"proved",
""
],
"C37": [
"proved",
""
],
"C15": [
"proved",
"For messages below 2^64 bits, the FIPS 180-4 domain."
],
"C16": [
"proved",
"For messages below 2^64 bits, the FIPS 180-4 domain."
],
"C17": [
"proved",
""
],
"C18": [
"proved",
"For sizes >= 0 and -1. Outside: C18_start_past_end_accepted and C18_negative_size_overruns show what the missing checks do."
],
"C19": [
"proved",
""
],
"C34": [
"proved",
"Finding: C34_too_few_from_4GiB, for every file from 4 GiB on."
],
"C39": [
"proved",
"At least one level; with 0 levels the C loop does not terminate. powf is taken as exact."
],
"C20": [
"proved",
"Characters the reader refuses are excluded; C20_control_character_lost and C20_bom_dropped show that and how they are lost."
],
"C21": [
"proved",
"Clean trees with any white-space callback; C21_cdata_end_mark_breaks and C21_adjacent_texts_merge show the domain is needed."
],
"C38": [
"proved",
""
],
"C40": [
"proved",
""
],
"C41": [
"proved",
""
],
"C42": [
"proved",
""
],
"C43": [
"proved",
""
],
"C44": [
"proved",
""
],
"C45": [
"proved",
""
],
"C22": [
"proved",
""
],
"C23": [
"proved",
""
],
"C27": [
"proved",
""
],
"C28": [
"proved",
""
],
"C24": [
"proved",
""
],
"C25": [
"proved",
""
],
"C26": [
"proved",
""
],
"C31": [
"proved",
""
],
"C29": [
"proved",
""
],
"C36": [
"proved",
""
],
"C33": [
"proved",
"Findings: C33_location_table_dimension_overflow, C33_location_table_overlap_overflow (heap overflow for valid files), C33_file_table_long_format (stack overflow), C33_*_null (NULL strings of valid objects)."
],
"C46": [
"proved",
""
],
"C47": [
"proved",
""
],
"C30": [
"proved",
"Heap model of kinds, counts and ownership; plain data left out; add outcomes are parameters. Loaders are not part of this model."
],
"C48": [
"proved",
""
],
"C49": [
"proved",
"The boxing library is a parameter with the laws LawfulConfig; an instance shows that the laws can be met."
],
"C50": [
"proved",
"As C49."
],
"C51": [
"proved",
"As C49."
],
"C52": [
"proved",
""
],
"C53": [
"proved",
""
],
"C54": [
"proved",
"Grammar in Spec/Grammar.lean written from the XML recommendation; unread parts shown in C54_not_read."
],
"C55": [
"proved",
"Control data shown never well-formed (C55_control_not_wellFormed)."
],
"C56": [
"proved",
"For every object type the cut theorem, and for table of contents, administrative metadata, files, reels and control data the theorem that the excepted cut loads with success (C56_*_loss). C56_any covers every text that begins with the declaration."
],
"C57": [
"proved",
"Pointer-level model of node memory (Model/Xml/Links.lean) against the specification Spec/Links.lean; C57_always covers every sequence of calls; C57_self_loop shows why adding relative to itself is excluded."
],
"C58": [
"proved",
"C58_delete gives the freed list, its order, and the heap behind it; C58_delete_safe for every reachable heap."
],
"C59": [
"proved",
"C59_write connects the pointer loop of mxml_write_node with the recursive text used by C20-C26; C59_write_sibling shows that saving a node with a next sibling runs off the tree."
],
"C60": [
"proved",
"The reader with its buffers and linked nodes (Model/Xml/ParseMem.lean) simulates the reader on values used by C20-C56; the two leaks are shown by C60_root_with_bad_attributes_is_lost and C60_text_behind_the_root_is_lost; malloc is assumed to succeed."
],
"C61": [
"proved",
"Exact characterisation (iff) for all fifteen kinds; the schema is transcribed in Spec/Schema.lean; lists of files and a file entry saved to a file only compact (the indented form is undefined behaviour, C25)."
],
"C62": [
"proved",
"Writes fail byte by byte as seen through putc; what a buffered stream loses at fclose is a smaller k. The old contents are lost by fopen \"w+\". A file entry and a list of files only compact (otherwise undefined behaviour, C25)."
],
"C63": [
"proved",
"Ownership only: what a document holds is a parameter of the loaders (every document is covered, and more). Known leaks are theorems."
],
"C64": [
"proved",
"Schema transcribed by hand in Spec/Schema.lean (C61). Hypotheses beyond the schema are PlainDoc; each is shown needed by a counterexample."
],
"C65": [
"proved",
"Accesses as in Model/Threads.lean (pointer fields of an object in one access, static types free); sequentially consistent interleaving, justified by the absence of races. Plain data and mini-XML globals are outside."
],
"C66": [
"proved",
"Short reads never matter; a read that delivers nothing is not reported (findings)."
],
"C67": [
"proved",
"Both directions; the published edition is not what the library writes (findings)."
],
"C68": [
"proved",
"What the texts say was found with another XML parser (tools/builtin.py); the kernel runs the model of the reader on them."
],
"C69": [
"proved",
"CDATA sections inside data elements of metadata sources are content, not layout."
],
"C70": [
"proved",
"Lists of files, and file entries saved to files, are copied compact only (indented is undefined behaviour, C25). Equality of formats uses the laws assumed of the boxing library's configurations."
],
"C71": [
"proved",
"Texts with U+FEFF are left out (the reader skips that character); the names of known entities are those of HTML 4, apos and four older ones (Spec/Html, C40_html)."
],
"C72": [
"proved",
"Freed addresses are never reused in the model, parts of objects are objects of their own (C30, C63 for their references), allocation does not fail."
],
"C73": [
"proved",
"Indented saving of files and lists of files is undefined (C25) and excluded from the histories that are shown to run; a read error is the end of the file and lasts (it does not go away in the same load), allocation does not fail, names stand for different files."
],
"C74": [
"proved",
"A write or read that fails is a putc or getc that returns EOF; buffering by stdio is not modelled (a failing flush loses whole blocks); a read error lasts until the file is closed. Lists: C74_files and C74_reels leave the outcome open when the file stops by the outermost name."
],
"C75": [
"proved",
"Lists of layouts and tables of contents where loading is defined (C46). Loading into objects that already own parts is C63."
],
"C76": [
"proved",
"The heap model of C30 and C63: objects, counts and parts. The values in the objects are pure in the value models (C03); their strings are C72."
],
"C77": [
"proved",
"Configurations (unboxinglib) are blocks with a value; their text lives as long as they do."
],
"C78": [
"proved",
"boxing_string_split (unboxinglib, not in the repository) is taken to split at every separator, and to give NULL for NULL."
],
"C79": [
"proved",
"Programs of calls over a memory of blocks with an arbitrary allocator (addresses reused, NULL possible), refined by values without addresses."
],
"C80": [
"proved",
"Every loader compared with the load into a new object; a source with data keeps them against plain text data (C80_stale)."
],
"C81": [
"proved",
"Every query and edit factors through the normal form that decides equality (C05); C81_exceptions shows where equality is coarser than behaviour."
],
"C82": [
"proved",
"The memory-level reader of C60 with a choice of refusals at every character; strdup of names and values (whose failure the code does not look at) is not refused."
],
"C83": [
"proved",
"Failures are at character boundaries of the decoded text; a failure inside a multi-byte character is an end of file there, and the rest of the character is then part of the continuation."
],
"C84": [
"proved",
"The value of a reference (entityChar), the bytes of a character and the decoding of bytes into characters are taken from the model; the value of a reference is characterised in C40 (C40_numeric, C40_one_number, C40_named), the bytes in C84_bytes, the decoding in C52/C53."
],
"C85": [
"proved",
"Reads and sets of the margin are sequentially consistent; the column is a natural number; that afs calls mxmlSetWrapMargin(0) before each save is the hypothesis SetsFirst."
],
"C86": [
"proved",
"Objects are values: an object is not changed through another reference after it was put into a list. Constructors handed a whole vector and direct writes to struct fields are left out; both can break the claim (C86_vectors_unchecked), and so can moving frames off film (C86_shift_off_film)."
],
"C87": [
"proved",
"Objects are values, as in C86; loading a text is loading its document (C87_load_string, C87_load_file)."
],
"C88": [
"proved",
"Copies of a boxing format made by afs_boxing_format_clone are covered when a frame can be made for the configuration (otherwise a copy may differ, C49). The fields of technical metadata have no setters and are written directly. Lists of files taken out of technical metadata are not fed back into tables of contents."
],
"C89": [
"proved",
"Spec/Extended lists the known names; C69 (layout) is derived from it. C89_inside_counts shows that the condition on what unknown elements hold is needed."
],
"C90": [
"proved",
"Complete: previews and metadata are there exactly when the kind of an entry says so, the entry has data on the medium and a format, no container is without entries. For control data a copy of the technical metadata is one in the sense of C88 (boxing formats may be written differently by the library that is not in /repo)."
],
"C91": [
"proved",
"The element's list of attributes is modelled as addresses in a memory with allocation and freeing, and C91_same_model ties it to the lists of Model/Xml/Node. Formatted texts are shorter than 2^31 - 1 bytes (otherwise the size of the buffer overflows) and are given as texts; afs itself never deletes an attribute."
],
"C92": [
"proved",
"FILEs and documents are things that are made, used and given back; C92_same_save and C92_same_load tie the answers and the file's contents to Model/Io. Making a document is assumed to succeed; that a document is freed as a whole is C57/C60. What the objects themselves leak when they do not load is C63."
],
"C93": [
"proved",
"The node the search is confined to is the one it starts from (both arguments of mxmlFindElement). C93_no_way_back: an element that is there is not found by its path if an element of the name of its parent comes before its parent."
],
"C94": [
"proved",
"Callbacks are functions of the name (they do not themselves add or remove callbacks). NULL is never added. After the library's callback is removed, no name is known, also not amp (C94_removed)."
],
"C95": [
"proved",
"Which elements an index holds is C93 (they are found by mxmlFindElement). C95_value_alone_missed: a value without a name is not found reliably, because the index is in the order of the names first."
]
}