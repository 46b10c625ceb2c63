#!/usr/bin/env python3
"""Regenerates /verif/properties.jsonl from the table below."""
import json, os
P = []
def p(id, title, statement, quantifier, why, anchors):
    P.append(dict(id=id, title=title, statement=statement, quantifier=quantifier,
                  why_tests_cant=why, anchors=anchors))

p("C01", "Merged frame ranges cover exactly the files' frames",
  "For a file list whose files all lie on frames (0 <= start_frame <= end_frame < INT_MAX), afs_toc_data_reel_get_frame_ranges over them returns ranges whose frames are exactly the frames some file occupies: no frame is lost, no frame is invented.",
  "every list of files with on-film positions, any length, any order, any overlap or nesting",
  "Overlap/nesting/adjacency patterns among n intervals grow exponentially with n; unit tests pick a handful.",
  ["src/tocdatareel.c: afs_toc_data_reel_get_frame_ranges, merge, sort_frame_ranges, merge_frame_ranges", "src/framerange.c: afs_frame_range_get_end"])
p("C02", "Merged frame ranges are canonical",
  "The ranges returned for a file list are strictly increasing, pairwise disjoint and never adjacent (at least one uncovered frame between neighbours), hence the unique shortest description of the occupied frames; in particular the answer does not depend on the order in which the files were added.",
  "every list of files with on-film positions and every permutation of it",
  "n! orders for each list; canonicity is a statement about all of them at once.",
  ["src/tocdatareel.c: merge, sort_frame_ranges, merge_frame_ranges"])
p("C03", "Clones are equal to their original",
  "For every object of every clonable type (frame range(s), preview page, preview, file metadata (source), file, files, reel, reels, preview section(s), layout definition(s), TOC metadata (source), TOC data) the clone compares equal to the original, passes is_valid exactly when the original does, and equals the original in every observable field.",
  "every object value, including NULL strings, NULL vectors and empty vectors",
  "Field-by-field copies over nested optional data: tests cover a few shapes, a forgotten field or NULL/empty confusion hides in the rest.",
  ["src/*.c: *_clone, *_equal"])
p("C04", "Equality is an equivalence relation",
  "For every object type the *_equal function is reflexive, symmetric and transitive, NULL pointers included.",
  "all pairs and triples of object values",
  "A statement about all triples of nested values.",
  ["src/*.c: *_equal"])
p("C05", "Equality means same observable content",
  "Two objects compare equal exactly when all their saved fields agree, a NULL string counting as the empty string.",
  "all pairs of object values",
  "A dropped comparison of one field is only visible on pairs that differ in exactly that field.",
  ["src/tocfilepreviewpage.c: afs_toc_file_preview_page_equal", "src/tocfile.c: afs_toc_file_equal", "src/toc/previewsection.c: afs_toc_preview_section_equal", "src/tocmetadatasource.c: afs_toc_metadata_source_equal"])
p("C06", "Containers are append-only lists of valid items",
  "For every sequence of add calls on a fresh container (files, reel, reels, preview, metadata, file metadata, layout sections, layout definitions) an add returns true iff the item is valid (and, for layouts, admissible), a rejected add changes nothing, an accepted one appends at the end; so count, get(i) and is_valid describe exactly the accepted items in call order. Every query of a NULL object has the answer it has for an empty one (0, NULL or −1).",
  "every finite sequence of add calls with arbitrary (valid or invalid) items",
  "The statement ranges over unbounded call histories.",
  ["src/tocfiles.c: afs_toc_files_add_toc, afs_toc_files_get_toc, afs_toc_files_get_tocs_count, afs_toc_files_is_valid", "src/tocdatareel.c: afs_toc_data_reel_add_file", "src/tocdatareels.c", "src/tocfilepreview.c: afs_toc_file_preview_add_page", "src/tocmetadata.c: afs_toc_metadata_add_source", "src/tocdatafilemetadata.c: afs_toc_data_file_metadata_add_source", "src/toc/previewsections.c: afs_toc_preview_sections_append", "src/toc/previewlayoutdefinitions.c: afs_toc_preview_layout_definitions_add"])
p("C07", "Layout sections never overlap and never share an id",
  "Whatever sequence of sections is offered to a layout, the accepted ones have pairwise distinct ids and no pixel belongs to two of them (sections that end inside the 32-bit coordinate space).",
  "every sequence of section additions",
  "Pairwise geometric relations over unbounded histories and the full 32-bit coordinate range.",
  ["src/toc/previewsections.c: afs_toc_preview_sections_append, afs_toc_preview_sections_is_valid", "src/toc/previewsection.c: afs_toc_preview_section_is_overlap"])
p("C08", "Layout definition ids are unique and lookups are exact",
  "After any sequence of adds, layout definition ids are pairwise distinct, and lookup by id returns the one definition with that id, or NULL exactly when there is none.",
  "every sequence of layout definition additions and every id",
  "Unbounded histories.",
  ["src/toc/previewlayoutdefinitions.c: afs_toc_preview_layout_definitions_add, _has_definition, _get_definition_by_id"])
p("C09", "File lookup by id finds the first match",
  "Looking up a file by id (or unique id) in a reel or in a whole TOC returns the first file in reel order then file order with that id, and NULL exactly when no file has it.",
  "every TOC and every id",
  "Statement over all TOCs; 'exactly when' needs the negative direction for every TOC.",
  ["src/tocdatareel.c: afs_toc_data_reel_get_file_by_id, afs_toc_data_reel_get_file_by_unique_id", "src/tocdata.c: afs_toc_data_get_file_by_id, afs_toc_data_get_file_by_unique_id"])
p("C10", "Parents, children and standalone files partition a reel",
  "For every type mask, every file of a reel matching the mask appears in exactly one of parent files, child files and standalone files (or, for files that are both, the overlap is exactly characterised), in reel order, and nothing else appears.",
  "every reel of valid files and every type mask",
  "Completeness and disjointness of a three-way split over all reels.",
  ["src/tocdatareel.c: afs_toc_data_reel_get_parent_files, afs_toc_data_reel_get_child_files, afs_toc_data_reel_get_standalone_files", "src/tocfile.c: afs_toc_file_is_parent, afs_toc_file_has_parent, afs_toc_file_is_standalone"])
p("C11", "Shifting frames is a group action that changes nothing else",
  "Adding a frame offset to a file, preview, file list, reel or TOC moves every on-film position by exactly that offset, composes additively (offset a then b = offset a+b, offset 0 = nothing, b then -b = undo where positions stay on film), and leaves names, ids, byte positions, sizes, durations and file order unchanged.",
  "every object and all pairs of offsets for which positions stay in the int range and on film",
  "Law over all objects and all offset pairs.",
  ["src/tocfile.c: afs_toc_file_add_frame_offset", "src/tocfilepreview.c: afs_toc_file_preview_add_frame_offset", "src/tocfiles.c: afs_toc_files_add_frame_offset", "src/tocdatareel.c: afs_toc_data_reel_add_frame_offset", "src/tocdata.c: afs_toc_data_add_frame_offset"])
p("C12", "Reel frame bounds and counts",
  "For a reel of valid digital files stored in frame order, first_frame and last_frame are the least and greatest occupied frames and frame_count is last - first + 1; every occupied frame lies between them. For reels with no file of the section the answer is -1 / 0.",
  "every reel",
  "Aggregate over unbounded lists.",
  ["src/tocdatareel.c: afs_toc_data_reel_first_frame, _last_frame, _frame_count", "src/tocfiles.c: afs_toc_files_get_first_frame, afs_toc_files_get_last_frame"])
p("C13", "A preview page's sections are spread over its frames without loss",
  "The number of frames of a preview page is the least number of frames of the layout's capacity that holds sections start_section .. start_section+section_count-1 (0 for no sections), and the per-frame section counts over those frames add up to section_count; frames outside hold none.",
  "every page and every layout capacity > 0 (no 32-bit overflow)",
  "Arithmetic identity over all start/count/capacity triples.",
  ["src/tocfilepreviewpage.c: afs_toc_file_preview_page_get_frames_count, afs_toc_file_preview_page_get_sections_on_frame"])
p("C14", "Used layout definitions are exactly the referenced ones",
  "afs_toc_data_get_used_preview_layout_definitions returns definitions sorted by id, without duplicates, each one referenced by the first page of a previewed file that is not a parent file, and every so referenced definition that exists is returned.",
  "every TOC",
  "Set equality over all TOCs, plus order.",
  ["src/tocdata.c: afs_toc_data_get_used_preview_layout_definitions"])
p("C15", "SHA-1 conforms to FIPS 180-4 for every message",
  "For every byte string, init/process/done returns the FIPS 180-4 SHA-1 digest of that string, although words are kept in 64-bit unsigned long variables with garbage above bit 31.",
  "every message shorter than 2^61 bytes",
  "A digest function has unboundedly many inputs; wrong high-bit truncation shows only on rare carries.",
  ["src/sha1hash.c: afs_sha1_init, afs_sha1_process, afs_sha1_done, sha1_compress"])
p("C16", "SHA-256 conforms to FIPS 180-4 for every message",
  "Same as C15 for SHA-256.",
  "every message shorter than 2^61 bytes",
  "As C15.",
  ["src/sha256hash.c: afs_sha256_init, afs_sha256_process, afs_sha256_done, sha256_compress"])
p("C17", "Hashing is independent of chunking",
  "Feeding a message in any split into pieces (including empty ones and pieces crossing block boundaries) gives the digest of the whole.",
  "every message and every way to split it",
  "Exponentially many splits per message.",
  ["src/sha1hash.c: afs_sha1_process", "src/sha256hash.c: AFS_SHA3_HASH_PROCESS"])
p("C18", "A checksum of a file region is the digest of exactly that region",
  "The file checksum for (start, size) is the lower-case hex digest of bytes start .. start+size-1, size -1 meaning to the end of the file, and NULL when the region does not lie inside the file; the 512-byte read loop does not affect the result.",
  "every file content and every region",
  "All contents and all regions, in particular around the 512-byte read boundary.",
  ["src/sha1.c", "src/sha256.c"])
p("C19", "Hex encoding of digests is faithful",
  "The hex rendering is lower case, two characters per byte, and different digests render differently.",
  "every digest",
  "Injectivity is a statement about all pairs.",
  ["src/sha1hash.c", "src/sha256hash.c: hash_to_hex_string"])
p("C20", "Escaped text survives the XML writer and reader",
  "Any XML text without forbidden control characters and U+FEFF, written as element text or attribute value by the bundled XML library and read back, is the same byte string, whatever markup characters (& < > \") it contains.",
  "every well-formed UTF-8 string",
  "Escaping bugs sit in combinations of special characters.",
  ["thirdparty/minixml/src/mxml-file.c: mxml_write_string, mxml_get_entity, mxml_add_char, mxml_string_getc", "thirdparty/minixml/src/mxml-entity.c"])
p("C21", "XML documents survive writing and parsing",
  "Every element tree the library builds (elements, attributes, text, CDATA without ']]>') is returned unchanged by writing it without whitespace and parsing the result.",
  "every document tree of that shape, any depth and width",
  "Unbounded trees.",
  ["thirdparty/minixml/src/mxml-file.c: mxml_write_node, mxml_load_data, mxml_parse_element"])
p("C22", "Preview pages survive save and load",
  "Saving a preview page (string or file, compact or indented) and loading it back yields the same page, provided the dimension and the overlap pair are each all zero or all non-zero; a pair with exactly one zero loads as 0x0. A valid preview whose pages are of that kind loads as the same preview, pages in order, with its dpi value.",
  "every page / valid preview with a writable layout id",
  "All field combinations in 32-bit ranges.",
  ["src/tocfilepreviewpage.c: save_xml, load_xml, extract_xy"])
p("C23", "Layouts survive save and load",
  "Saving and loading preview sections, section lists, layout definitions and layout definition lists (string or file, compact or indented) yields the same objects; section lists built by appending always qualify. Lists with duplicate section ids are valid but cannot be loaded; an empty layout list loads as NULL; blanks around names are lost.",
  "every valid layout with unique ids and trimmed clean texts; all 32-bit unsigned coordinates",
  "Nested unbounded lists.",
  ["src/toc/previewsection.c", "src/toc/previewsections.c", "src/toc/previewlayoutdefinition.c", "src/toc/previewlayoutdefinitions.c"])
p("C24", "Metadata survives save and load",
  "Saving TOC metadata or file metadata (to a string or to a file, compact or indented) and loading the result yields the identical object, provided every data text has no ']]>' and every tag and format id is saveable text. Outside that domain the code loses data: a data text containing ']]>' is cut there, a format id without data is not stored, and an empty tag string comes back unset.",
  "every valid metadata object",
  "Arbitrary embedded text.",
  ["src/tocmetadata.c", "src/tocmetadatasource.c", "src/tocdatafilemetadata.c", "src/tocdatafilemetadatasource.c"])
p("C25", "Files survive save and load",
  "Saving a valid file entry (to a string or, compact, to a file; current or old format) and loading the result succeeds and yields the entry with exactly these losses and no other: a missing format becomes 'undefined', a file that is not digital loses size, byte positions and checksum, the old format loses the checksum, a preview with no preview type and a metadata list with no sources are dropped. An entry that has none of these comes back identical, and so does a list of files, in order. Saving a whole list, or an entry to a file, in indented form compares a NULL parent name and is undefined behaviour.",
  "every valid file entry (and list of them) with saveable text fields, both formats, compact and indented",
  "Cross product of optional parts (data, preview, metadata, parent) and field values.",
  ["src/tocfile.c: afs_toc_file_save_xml, afs_toc_file_load_xml"])
p("C26", "A whole TOC survives save and load",
  "Saving a valid table of contents whose texts can be written (to a string or a file, compact or indented) and loading the result into any TOC object succeeds and replaces the object's whole content by the saved one: version, index type, ids, all reels, files, previews, metadata sources and layout definitions, in order, each file with exactly the losses named in C25; containers without entries come back as NULL, so the result is equal under afs_toc_data_equal when no file loses anything. The same holds for single reels and lists of reels.",
  "every valid TOC, reel and reel list with saveable text fields, every previous content of the loading TOC object, both indentations",
  "Unbounded nested data.",
  ["src/tocdata.c: afs_toc_data_save_xml, afs_toc_data_load_xml", "src/tocdatareels.c", "src/tocdatareel.c", "src/tocfiles.c"])
p("C27", "Numbers survive printing and parsing",
  "Every int printed with %d or %06d and read with atoi, and every unsigned printed with %u and read back, is the same number; '%ux%u' pairs read back exactly.",
  "all 2^32 values and all pairs",
  "2^64 pairs.",
  ["src/xmlutils.c", "src/tocfile.c: save_data_v2, load_data_v2", "src/tocfilepreviewpage.c: extract_xy"])
p("C28", "Trimming keeps content",
  "Reading node text removes leading and trailing spaces, newlines and carriage returns and nothing else; trimming is idempotent.",
  "every string",
  "All strings.",
  ["src/xmlutils.c: afs_xmlutils_string_trim, afs_xmlutils_string_cut"])
p("C29", "The zero reference mark is drawn exactly",
  "For every frame size: a zero reference frame is made exactly when the frame is at least 2 pixels wide and 12 pixels high; the mark lies inside the frame, starts in the middle, and is 1.98 mm high starting at 1.225 mm on a 13.87 mm frame up to truncation and single-precision error; the image has the size of the frame and is black exactly in the rows of the mark from its left edge to the right edge of the frame (which is the mark's rectangle for even widths and one column more for odd widths), white elsewhere; no byte outside the image is written.",
  "every frame geometry",
  "All pixels of all images.",
  ["src/zeroreferenceframe.c"])
p("C30", "Reference counting frees exactly once",
  "In any program of fewer than 2^31-1 create / new reference / free / clone / add / set_preview / set_metadata calls in which every reference is released or handed over once, no call uses freed memory, frees twice or overflows a count; every object's count is the number of references to it; exactly the objects the program can reach are allocated, so a program that gave up its references leaked nothing; free destroys an object exactly when the last reference goes; a clone looks the same and shares nothing with its original. A free too many is undefined, and set_preview / set_metadata is defined exactly when the given object is still reachable after the file has let go of its old part (giving a file its own preview is a use after free).",
  "every history of calls, every outcome of the add calls",
  "Histories are unbounded; use after free is often invisible in a test run.",
  ["src/*.c: *_create, *_get_new_reference, *_free, *_clone, *_add_*", "src/tocfile.c: afs_toc_file_set_preview, afs_toc_file_set_metadata", "src/tocdata.c: afs_toc_data_add_*"])
p("C31", "Only valid objects are saved and loaded",
  "Saving succeeds exactly for valid objects, both to a string and to a file, and a save that fails leaves the file as it was (except for file entries, whose file is emptied first). Whatever document is loaded: a successful load of a section, metadata source or file metadata source gives a valid object; the loaded sections are valid, have distinct ids and do not overlap in any pixel; the loaded layout definitions, preview pages, metadata sources, files and reels are valid; loading a TOC never runs into undefined behaviour. The loaders of a layout definition, preview, metadata, file entry, reel and TOC report success on some documents that leave the object itself invalid.",
  "every object / every input document",
  "Adversarial input documents.",
  ["src/**/*.c: *_save_xml, *_load_xml"])
p("C32", "Tag lists survive joining and splitting",
  "Setting tags from a ';'-separated string and reading them back gives the same string.",
  "every string of tags",
  "All strings.",
  ["src/tocmetadatasource.c: afs_toc_metadata_source_set_tags, afs_toc_metadata_source_get_tags"])
p("C33", "Text tables hold exactly one line per entry, inside their buffer",
  "The file, location, metadata, source and layout tables are exactly their header and one line per entry, in order, every number padded with zeros to the widest of its column, and are written inside the allocated buffer - provided no printed string is NULL, formats and layout ids are shorter than 255 bytes, page dimensions and overlaps have both parts below 10^5 (10^2) or both at least 10^4 (10), and the table stays below 2 (4) GiB. For layout definitions a valid list suffices. (Without these conditions valid objects make the functions read NULL or write outside the buffer.)",
  "every object",
  "Width computations over all field values, including negative numbers and NULL strings.",
  ["src/tocfiles.c: afs_toc_files_save_as_table, afs_toc_files_save_as_location_table, afs_toc_files_save_as_metadata_table", "src/toc/previewlayoutdefinitions.c: afs_toc_preview_layout_definitions_save_as_table", "src/tocdatafilemetadata.c: afs_toc_data_file_metadata_save_as_table"])
p("C34", "Enough frames are reserved for a file",
  "The number of data frames computed for a file of n bytes below 4 GiB, times the bytes per frame, is at least n, and one frame fewer would not be enough. (From 4 GiB on the computed number is always too small.)",
  "every file size and frame capacity",
  "Sizes beyond 4 GiB are never unit-tested; there the code truncates.",
  ["src/controlframe/boxingformat.c: afs_boxing_format_get_data_frames, get_ceil"])
p("C35", "Byte sizes of a reel are the sum of its files",
  "A reel's size in bytes is the sum of its files' byte extents, and 0 when some file's byte positions are reversed.",
  "every reel",
  "Aggregate over unbounded lists.",
  ["src/tocdatareel.c: afs_toc_data_reel_size_bytes"])
p("C36", "Extracting preview sections takes exactly the section's pixels",
  "Extraction returns the number of sections inside the image and one entry per section: the rotated cut of exactly the section's pixels if the section lies inside the image, NULL otherwise, never reading outside the image, provided the section's far corner does not wrap around in 32 bits. For wrapping sections the library asks for a cut outside the image; without sections the output pointer is not set.",
  "every image, every section",
  "All pixels, all geometries.",
  ["src/toc/previewimageutils.c"])
p("C37", "TOC validity is compositional",
  "A TOC reported valid has non-empty version, job id and reel id, an index type of 'job' or 'reel', and every reel, file, page, section, definition and metadata source inside it is itself valid.",
  "every TOC",
  "Deep universal statement over nested lists.",
  ["src/tocdata.c: afs_toc_data_is_valid"])
p("C38", "Element search returns document order",
  "Repeatedly asking the XML library for the next element of a given name below a node enumerates exactly the descendants of that name in document order, each once, and then stops.",
  "every tree and name",
  "Pointer walk over unbounded trees.",
  ["thirdparty/minixml/src/mxml-search.c: mxmlFindElement, mxmlWalkNext"])
p("C39", "Pixel bit depth is the least sufficient one",
  "The bits per pixel computed for a frame with L levels per symbol are the least number of bits that can number L levels; for a power of two of levels the symbols per pixel are exactly the levels.",
  "every number of levels",
  "Loop over an unbounded range of level counts.",
  ["src/controlframe/boxingformat.c: get_bits_per_pixel, get_symbol_per_pixel"])

p("C40", "Character references are looked up exactly",
  "Looking an entity name up in the XML reader returns a code point exactly when the name is in the entity table, and then the table's code point; the four names the writer uses for reserved characters map back to those characters. A numeric reference stands for the character of its number and of nothing else: the digits after &# (hexadecimal after an x, where C allows 0x once more) up to the first other character; numbers above 2^63-1 count as that, the rest is cut to 32 bits, and control characters and negative values are refused.",
  "every name",
  "A binary search over 250 sorted names: one misplaced row loses names silently.",
  ["thirdparty/minixml/src/mxml-entity.c: _mxml_entity_cb, mxmlEntityGetName, mxmlEntityGetValue"])
p("C41", "A section's content size follows its rotation",
  "The content of a valid layout section is as wide as the section is after turning by its rotation (sides swapped for 90 and 270 degrees), has the same area, and is never empty; a layout reports equally sized sections exactly when all its sections have one size.",
  "every section and every layout",
  "All geometries and section lists.",
  ["src/toc/previewsection.c: afs_toc_preview_section_content_width, _content_height", "src/toc/previewlayoutdefinition.c: afs_toc_preview_layout_definition_is_section_size_equal"])
p("C42", "A preview spans exactly from its first to its last used frame",
  "The number of frames computed for a preview is the distance from the first to the last frame any of its pages uses, and zero when no page uses a frame; a page with an unknown layout makes the computation fail.",
  "every preview and layout list",
  "Aggregate over unbounded page lists in any order.",
  ["src/tocfilepreview.c: afs_toc_file_preview_get_frames_count"])
p("C43", "Durations are frame counts",
  "The duration of a file on film is the number of frames from its start to its end frame, both included; the duration of a file list is the number of frames from its first to its last frame, and zero when either is unknown.",
  "every file and file list",
  "Integer ranges and unbounded lists.",
  ["src/tocfile.c: afs_toc_file_duration_frames", "src/tocfiles.c: afs_toc_files_get_duration_frames"])
p("C44", "File kinds are consistent",
  "Every file is exactly one of parent, child or standalone; giving a file a preview makes it a preview file and changes nothing but the preview and the kind; adding a kind never removes one.",
  "every file",
  "All parent ids and kind masks.",
  ["src/tocfile.c: afs_toc_file_is_parent, _has_parent, _is_standalone, _set_preview, _add_type"])
p("C45", "Saved text is complete whatever its length",
  "Saving an XML tree to an allocated string returns the whole text: nothing is cut off at the size of the library's first buffer.",
  "every tree, text of any length",
  "The boundary behaviour around 8191/8192 bytes depends on the total text length.",
  ["thirdparty/minixml/src/mxml-file.c: mxmlSaveAllocString, mxmlSaveString, mxml_string_putc"])

p("C46", "A successful load has loaded every element",
  "A list loader (files, reels, metadata sources, preview pages, layout sections, layout definitions) reads the elements of its list in document order, appends each loaded object, stops at the first element that does not load or is refused, and answers success exactly if every element was appended. Objects made of parts (file, reel, layout definition, index) load exactly if their parts load and then hold these parts.",
  "every XML tree and every object loaded into",
  "Unbounded documents; the claim is about the absence of silently skipped elements.",
  ["src/tocfiles.c: afs_toc_files_load_xml", "src/tocdatareels.c: afs_toc_data_reels_load_xml", "src/tocmetadata.c: afs_toc_metadata_load_xml", "src/tocdatafilemetadata.c: afs_toc_data_file_metadata_load_xml", "src/tocfilepreview.c: afs_toc_file_preview_load_xml", "src/toc/previewsections.c: afs_toc_preview_sections_load_xml", "src/toc/previewlayoutdefinitions.c: afs_toc_preview_layout_definitions_load_xml", "src/tocfile.c: afs_toc_file_load_xml", "src/tocdatareel.c: afs_toc_data_reel_load_xml", "src/tocdata.c: afs_toc_data_load_xml"])
p("C47", "Setters show the last value given",
  "After any history of calls, the data and format id of a file metadata source and the tags of an index metadata source are the last non-empty values given to their setters (NULL and empty values are ignored), the kinds of a file are exactly those it had or was given, and no other field has changed. Texts, preview and metadata of a file, id of a reel, resolution of a preview, texts of a table of contents and of the administrative metadata are the last values given to their own setters, NULL included; setting a preview, even to NULL, also marks the file as a preview file.",
  "every sequence of setter calls",
  "Unbounded interleaved histories.",
  ["src/tocdatafilemetadatasource.c: afs_toc_data_file_metadata_source_set_data, _set_format_id", "src/tocmetadatasource.c: afs_toc_metadata_source_set_tags", "src/tocfile.c: afs_toc_file_add_type, afs_toc_file_set_name, afs_toc_file_set_preview, afs_toc_file_set_metadata", "src/tocdata.c: afs_toc_data_set_version", "src/administrativemetadata.c: afs_administrative_metadata_set_title"])

p("C48", "Administrative metadata",
  "Administrative metadata whose texts are clean and trimmed (NULL and empty included), saved compact or indented to a string or a file, loads into any object as exactly the same six fields, NULL and empty kept apart. Saving never fails. Two objects are equal exactly when all six fields agree (NULL is not the empty string); a copy is equal. After any history of setter calls each field holds the last value given for it. A text without the element is refused and changes nothing.",
  "all field values, all histories of setter calls, all previous contents, both writers and readers",
  "Arbitrary texts with characters that need escaping, and every combination of missing and empty fields.",
  ["src/administrativemetadata.c: afs_administrative_metadata_save_*, _load_*, _equal, _clone, _create2, _set_*"])

p("C49", "Boxing formats survive being saved and loaded",
  "For every configuration library that keeps the laws of a two-level map, a boxing format whose configuration has no aliases and no empty values, saved compact or indented to a string or a file, is loaded as a format that the library calls equal, whatever it is loaded into; in general the loaded configuration has exactly the properties whose value is not empty (and all versions). Formats of equal configurations are equal. Of a class with an alias only version and alias are kept. A copy is equal unless no frame can be made of a configuration that has a name. What a format tells of its configuration (name, sizes, bit depth, bytes, scaling factor) is what the library says, with 1 as the default scaling factor, whatever the format was before.",
  "all configurations, any iteration order of the hash tables, all previous contents, both writers and readers",
  "Configurations are unbounded maps; the order of iteration is arbitrary.",
  ["src/controlframe/boxingformat.c: afs_boxing_format_save_*, _load_*, _clone, _equal, _set_config, save_config_xml, set_class_from_xml"])

p("C50", "Technical metadata survives being saved and loaded",
  "Technical metadata with a storable boxing format and storable lists of tables of contents and applications, saved compact or indented to a string or a file, is loaded as an equal one, all files in order. It is refused, with no file made, when the format or the tables of contents are missing. A copy is equal. Loading succeeds exactly when the element and a BoxerFormat are there and the Tocs can be loaded: applications or a boxing format that cannot be loaded are silently dropped.",
  "all lists of files, all configurations, all documents, all previous contents",
  "Unbounded lists and arbitrary documents.",
  ["src/technicalmetadata.c: afs_technical_metadata_save_*, _load_*, _clone, _equal"])

p("C51", "Control data survives being saved and loaded",
  "Control data whose two parts are storable, saved compact or indented to a string or a file, is loaded as an equal one; nothing of what the object held before is left. It is refused, with no file made, when a part is missing. A copy is equal. Loading succeeds exactly when both elements are in the document, even when the technical metadata in it cannot be loaded; a document without technical metadata is refused but has replaced the administrative metadata.",
  "all control data, all documents, all previous contents",
  "Unbounded lists and arbitrary documents.",
  ["src/controldata.c: afs_control_data_save_*, _load_*, _clone, _equal"])

p("C52", "The encoding of a file does not matter",
  "A text in a UTF-8 file, with or without byte order mark, in a UTF-16 file with byte order mark of either byte order, or in a string is read as the same XML tree, so every object loads the same from each of them. The exception are the characters whose second surrogate is DFFF (one in 1024 above U+FFFF): in UTF-16 they end the document.",
  "every text of allowed characters, both byte orders, every object type",
  "Every character of Unicode at every place.",
  ["thirdparty/minixml/src/mxml-file.c: mxml_file_getc, mxml_string_getc, mxml_add_char"])
p("C53", "Loading from a string reads nothing but the string",
  "Loading XML from a NUL-terminated string never touches memory behind the terminator, also when the string ends in the middle of a multi-byte character or of markup, always returns, and its result depends on the string alone. The exception are strings with a UTF-16 byte order mark (bytes FE FF or FF FE), which are read on behind the terminator. Those are read properly exactly up to the end the reader expects: a little endian string closed by a zero code unit loads as the same text in UTF-8, with nothing behind that touched, whatever its code units are; a big endian one is never loaded, its first zero byte counts as its end.",
  "every NUL-terminated string, well-formed or not, and every memory behind it",
  "The look-ahead of the decoder depends on the last bytes of arbitrary input; a sanitiser only sees the inputs tried.",
  ["thirdparty/minixml/src/mxml-file.c: mxml_string_getc, mxml_load_data, mxmlLoadString"])

p("C54", "XML documents are read as XML says",
  "Every document of the grammar of the XML 1.0 recommendation (declaration, comments, processing instructions, attributes in either kind of quotes, character and predefined entity references, CDATA sections, white space wherever the grammar allows it) is read, from a string and from a file in UTF-8 or UTF-16, as the tree the grammar gives it. Names outside ASCII, document type declarations, empty comments, and comments outside the element of a document without a declaration are left out (the reader refuses or changes the last three).",
  "every text derivable in the grammar",
  "The documents are an infinite language; any choice of samples misses combinations.",
  ["thirdparty/minixml/src/mxml-file.c: mxml_load_data, mxml_parse_element, mxml_get_entity, mxmlLoadString, mxmlLoadFile"])
p("C55", "What is saved is well-formed XML",
  "Every saved object whose texts can be written (page, preview, sections, layouts, metadata, file entries and lists, reels, table of contents, administrative and technical metadata, boxing formats), compact or indented, string or file, is a well-formed document of the XML grammar, so any XML tool can read it - provided the texts do not contain U+FFFE and U+FFFF. The exception is control data, which is saved with two elements side by side and is never well-formed.",
  "all objects with writable texts, both output forms",
  "Texts and lists are unbounded; well-formedness must hold for every text that needs escaping.",
  ["src: all *_save_string, *_save_file", "thirdparty/minixml/src/mxml-file.c: mxml_write_node, mxml_write_string, mxml_write_name"])

p("C56","A file cut short is refused or loaded whole",
"If a file the library saved is cut off anywhere (a crash or a full disk while saving), then loading the rest either answers failure or gives exactly what loading the whole file gives, except for these cuts: (a) exactly behind the name in the root element's start tag, for objects all of whose parts are optional (page, preview, sections, layouts, metadata, file, table of contents, administrative metadata, boxing format), where an empty object is loaded with success; (b) not later than there, for lists of files and reels, where an empty list is loaded with success; (c) exactly behind the name of the second element of control data, which loads with empty technical metadata.",
"every storable object of each type, compact or indented, every cut position, every object loaded into",
"there is a cut position for every byte of every possible file; tests try a few truncations of a few files",
["thirdparty/minixml/src/mxml-file.c: mxml_load_data, mxmlLoadFile, mxmlSaveFile","src/tocdata.c: afs_toc_data_save_file, afs_toc_data_load_file","src/controldata.c: afs_control_data_load_xml","src/tocfiles.c: afs_toc_files_load_xml","src/tocdatareels.c: afs_toc_data_reels_load_xml"])

p("C57","The links of an XML tree stay consistent",
"Whatever sequence of creating, adding, removing, retaining, releasing and deleting nodes a program performs, the parent, first child, last child, previous and next links of all live nodes always describe one and the same forest: every child is listed exactly once by its parent, forward and backward listings are each other's reverse, roots have no siblings, no node is its own ancestor. A new node becomes the last child of its parent; adding puts a node directly before or behind the named child (or first / last if NULL or not a child of that parent) and takes it away from its old parent; removing makes it a root; nothing else changes. (Adding a node relative to itself is excluded: it ties the node to itself.)",
"every finite sequence of calls, every heap reached by it, every allocator behaviour, every node, parent and position",
"the links form a graph of unbounded size and the result of a call depends on the whole history; tests build a few small trees",
["thirdparty/minixml/src/mxml-node.c: mxmlAdd, mxmlRemove, mxml_new, mxmlNewElement, mxmlNewOpaque","thirdparty/minixml/src/mxml-get.c: mxmlGetFirstChild, mxmlGetLastChild, mxmlGetNextSibling, mxmlGetPrevSibling, mxmlGetParent","thirdparty/minixml/src/mxml-search.c: mxmlWalkNext"])
p("C58","Deleting an XML node frees its whole tree exactly once",
"Deleting a node frees the node and all its descendants, each exactly once and only after all its children, frees nothing else, ends, and leaves the rest of the forest linked consistently without the node. Releasing counts down and deletes when the count reaches zero; retaining is undone by one release; NULL is accepted. Using a deleted node again is undefined.",
"every consistent heap, every node in it, trees of every depth and width",
"double frees, leaks and runaway loops appear only in particular tree shapes; tests free a few small trees",
["thirdparty/minixml/src/mxml-node.c: mxmlDelete, mxml_free, mxmlRelease, mxmlRetain"])
p("C59","Walking, searching and saving XML follow document order",
"Walking forward from a node goes to the next node in document order inside the top's tree and stops behind the last; walking back goes to the previous one; searching finds the first element with the wanted name, attribute and value behind the start in document order, or NULL if there is none; saving a root writes exactly the recursive text of its tree, whatever whitespace callback is used.",
"every consistent heap, every top node, every start node below it, every name, attribute and value, every callback on names",
"the loops climb and descend through pointers in trees of unbounded shape; tests walk a few trees",
["thirdparty/minixml/src/mxml-search.c: mxmlWalkNext, mxmlWalkPrev, mxmlFindElement","thirdparty/minixml/src/mxml-file.c: mxml_write_node, mxmlSaveFile, mxmlSaveString"])

p("C60","Reading XML is memory safe and frees what it does not return",
"Whatever bytes (up to 500 million) are read as XML from a string or a file, and whatever memory the allocator hands out, the reader comes to an end; it never writes or reads outside its growing work buffers, never reads a byte of them it has not written, never uses a freed node and frees nothing twice. Nodes that existed before are untouched. If the text is accepted, the new nodes are exactly those of one consistent tree that says what was read, and deleting the result restores the memory exactly. If it is refused the result is NULL and every new node has been freed, except at most one: the root element if its attributes are malformed, or a text behind the root element.",
"every input of up to 500 million bytes, every consistent node memory before the call, every allocator",
"buffer overruns, uses after free and leaks depend on exact lengths, on the order of errors and on the allocator; tests run a few texts and see no memory",
["thirdparty/minixml/src/mxml-file.c: mxml_load_data, mxml_parse_element, mxml_add_char, mxml_get_entity","thirdparty/minixml/src/mxml-file.c: mxmlLoadString, mxmlLoadFile","thirdparty/minixml/src/mxml-node.c: mxmlNewElement, mxmlNewOpaque, mxmlDelete"])

p("C61","Saved objects follow the published XML schema exactly when stated",
"The text saved for a table of contents, reel, file entry, preview, page, metadata, metadata source, layout definition or section - to a string or a file, compact or indented - is read as a document of the type that xsd/tocdata.xsd or xsd/tocdatafile.xsd declares for it exactly if the object's values meet stated conditions. Sections, section lists, layout definitions and lists of them always do. A page does exactly if its layout id is a number; a file entry exactly if it is saved in the newer data format, is digital, smaller than 4 GiB, has a unique id, a date of the schema's form, a parent id of at least -2, does not end at a negative byte, and its preview and metadata conform; a metadata source exactly if it has tags and no data; a file's metadata source exactly if it has data and both ids; a reel if it has files, a table of contents if its version is of the schema's form, it has a layout definition and a reel, and all parts conform.",
"every writable object of the fifteen kinds, compact or not, string or file; every reading of \\\\d in the schema's patterns that includes the ASCII digits",
"the schema is a statement about all documents; tests validate a few samples, and the library's own tests never run a validator",
["xsd/tocdata.xsd","xsd/tocdatafile.xsd","src/tocdata.c: afs_toc_data_save_string, afs_toc_data_save_file","src/tocfile.c: afs_toc_file_save_xml","src/tocfilepreviewpage.c: afs_toc_file_preview_page_save_xml","src/tocmetadatasource.c: afs_toc_metadata_source_save_xml"])

p("C62","Saving writes over the old file, and failing writes are not reported",
"Saving any kind of object to a file that cannot be opened reports failure and leaves the file alone. Otherwise, if the object can be saved, then whichever writes fail the function reports success; nothing of the old contents is left; the file holds a beginning of the text, of which nothing but white space can be missing. On a disk that takes k bytes, or when the program dies after k bytes, that is exactly the first k bytes. At an unlucky k what is left of a table of contents loads with success as an empty one; a reel is refused or whole.",
"every object of the nineteen kinds, compact or not; every pattern of failing and succeeding writes, every size of the disk, every old contents of the file",
"a test cannot fill the disk, or end the program, at every byte of every document",
["src/tocdata.c: afs_toc_data_save_file","src/controldata.c: afs_control_data_save_file","src/tocfile.c: afs_toc_file_save_file","thirdparty/minixml/src/mxml-file.c: mxmlSaveFile, mxml_file_putc, mxml_write_ws, mxml_write_node"])

p("C63","Loading never frees too much, and loses exactly what is stated",
"A program that creates, shares, frees, clones, adds and loads objects in any legal way never uses freed memory, frees twice or overflows a count, whatever the documents hold; everything it can reach is allocated; every reference count is the number of references held, inside other objects, and lost by loading. A load returns DTRUE exactly when all its elements load and are accepted, and loses an exactly stated number of references: objects that did not load (except sources) and the parts a reel, a file, a layout definition or technical metadata had before; what is lost is never freed. Loading a new object with success loses nothing, except that the applications of technical metadata may fail unreported. Loading anything but a table of contents or control data changes no other object.",
"all legal sequences of fewer than 2^31-1 calls, with all documents (which elements there are, which load, which are accepted) and all objects, new or already filled",
"the number of programs and documents is unbounded, and lost memory shows only in a leak checker for the document at hand",
["src/tocfiles.c: afs_toc_files_load_xml","src/tocfile.c: afs_toc_file_load_xml","src/tocdatareel.c: afs_toc_data_reel_load_xml","src/tocdatareels.c: afs_toc_data_reels_load_xml","src/tocdata.c: afs_toc_data_load_xml","src/technicalmetadata.c: afs_technical_metadata_load_xml","src/controldata.c: afs_control_data_load_xml","src/toc/previewlayoutdefinitions.c: afs_toc_preview_layout_definitions_load_xml"])

p("C64","Documents of the published schema load with exactly the values they state",
"An index document that follows xsd/tocdata.xsd and xsd/tocdatafile.xsd (from any writer: comments and processing instructions between elements, white space, signs and leading zeros, any order of attributes), whose texts are in one piece and whose page sizes are written NxM, loads without undefined behaviour into any object, succeeds exactly if all metadata sources have their ids and all parts are valid (no overlapping or equally numbered sections, no two layouts of one id), and then the object holds exactly what the document says at its place, whatever it held before; the same for files, reels, previews, pages, layouts, sections and both kinds of metadata alone. Forms the schema allows beyond this (texts in CDATA or split by comments, sizes like 10X10 or x10, sources without ids, numbers of 2^31 and more, previews without pages) are misread or refused, as stated.",
"all trees that conform to the schema, of any size, and all objects loaded into",
"the schema admits unboundedly many documents, and element search by name could pick up a value from another place in any of them",
["src/tocdata.c: afs_toc_data_load_xml","src/tocfile.c: afs_toc_file_load_xml","src/xmlutils.c: afs_xmlutils_get_node_text, afs_xmlutils_get_integer_attribute","src/tocfilepreviewpage.c: afs_toc_file_preview_page_load_xml","xsd/tocdata.xsd","xsd/tocdatafile.xsd"])

p("C65","Threads that share no objects, or only read the shared ones, do not disturb each other",
"Objects are made, then any number of threads start; each thread makes calls that are legal when it runs alone, works on objects it has made itself, and uses the objects that existed before only as things to look at, to clone or to copy from. Then under every interleaving of their single memory accesses nothing is undefined, there is never a data race, every thread finishes after a number of turns that does not depend on the schedule, sees what it sees alone and leaves its objects (parts, counts, which are freed) as if it had run alone, and the objects that existed before are unchanged. The reference counts are not atomic: for every object there is a schedule under which two threads taking a reference raise its count by one only, and two threads giving up the last references at the same time can destroy the object twice or never.",
"all sets of threads with any legal call sequences, and all schedules at the granularity of single memory accesses",
"the number of schedules is unbounded and a test run sees one; a lost update shows only under a rare interleaving",
["src/tocfile.c: afs_toc_file_get_new_reference, afs_toc_file_free, afs_toc_file_clone, afs_toc_file_set_preview","src/tocfiles.c: afs_toc_files_add_file","src/tocdata.c: afs_toc_data_add_preview_layout_definitions","src/framerange.c: afs_frame_range_get_new_reference"])

p("C66","Checksums of files under failing and short reads",
"Whatever the reads of the file do: a checksum that is answered is the digest of a beginning of the region asked for, and of the whole region if every read delivers something, however little. If looking at the size of the file or going to the start of the region fails the answer is NULL. A read that delivers nothing although the region is not complete is never reported: the answer is the digest of what came before, or, with errno set, a digest buffer nothing was written to is printed.",
"all files, regions, states of errno, and all schedules of reads (how many bytes each call delivers, which calls deliver nothing, with and without error)",
"every schedule of short and failing reads is quantified over; a test's file system delivers whole buffers",
["src/sha1.c: afs_sha1_sum2, hash_filehandle, sum2_private","src/sha256.c: afs_sha256_sum2, hash_filehandle, sum2_private"])

p("C67","Control data and the published control frame schema",
"Every document of the control frame schema (xsd/control_frame.xsd, xsd/boxing_format.xsd), in the published edition or in the one the library writes, wherever it comes from, is loaded as exactly what it says: the six fields of administrative metadata, a boxing configuration with exactly the settings given (the last one wins), the files of the tables of contents and of the applications in order. Technical metadata load exactly if the files of the tables of contents are valid; control data always load. In the published edition the boxing format is lost. Administrative and technical metadata and boxing formats whose document has no XML declaration are refused. Saved objects follow the written edition exactly under a stated condition on the object, never the published one, and saved control data follow none.",
"all documents of the two schema editions (any comments, processing instructions, white space, attribute order), all objects loaded into, all storable objects saved, compact or indented, to strings or files, every lawful boxing library",
"an infinite set of documents and of objects; a test compares a handful of files",
["src/administrativemetadata.c: afs_administrative_metadata_load_xml, _save_xml","src/controlframe/boxingformat.c: afs_boxing_format_load_xml, set_class_from_xml, _save_xml","src/technicalmetadata.c: afs_technical_metadata_load_xml, _save_xml","src/controldata.c: afs_control_data_load_xml, _save_xml","xsd/control_frame.xsd","xsd/boxing_format.xsd"])

p("C68","The built-in control frame formats",
"Each of the five built-in control frame formats is as long as the table of lengths says and has no zero byte (nor one after it), and loading it into any boxing format, from a string or a file, succeeds and gives the format of a new configuration with exactly the properties of the text set, in order; nothing of the old format is left. The first three (named v7, v6, v5 in their text) have no aliases, so they hold exactly these settings, and saved and loaded again they are equal.",
"all five built-in formats, every boxing library (lawful for the last part), every format loaded into, compact or indented, string or file",
"the texts are long constants read by a hand-written reader into a library that is not in the repository; a test checks one library and one prior state",
["src/controlframeboxingformat.c: afs_control_frame_format, afs_control_frame_format_len","inc/controlframeboxingformat.h","src/controlframe/boxingformat.c: afs_boxing_format_load_string","conf/reel-4k-controlframe-v3.xml"])

p("C69","The layout of a document does not matter",
"Two documents with the same elements in the same order and the same attributes (in any order) are loaded alike by every object: the same answer and the same object afterwards, whatever the object held before and also when the load is refused. Texts, comments, processing instructions and CDATA sections between elements may differ, as may blanks and line ends around the text of an element that holds a text, and the XML declaration. What does count is whether such an element begins with a text at all: a comment before the text hides it, and an empty element is not the same as one with blanks.",
"all pairs of trees that differ in layout only, all eighteen loaders, every object loaded into; all texts of the XML grammar, from strings and files",
"the relation has infinitely many pairs and each loader searches whole subtrees; a test compares a few layouts",
["src/: all afs_*_load_xml functions","src/xmlutils.c","thirdparty: mxmlFindElement, mxmlGetOpaque, mxmlElementGetAttr"])

p("C70","What was loaded can be copied for ever",
"A valid object that was loaded from a document, by whatever program the document was written, can be saved and loaded again in any way (compact or indented, to a string or to a file), and so on any number of times. From the first copy on nothing changes. The first copy is the object itself for previews, layouts, metadata and administrative metadata, and for files, reels and tables of contents in which every file has data on the medium and no container is without entries; otherwise it is what C22-C26 say. Copies of boxing formats are equal and have the same settings, copies of control data have equal formats and the same files and administrative metadata. Documents may not contain references to U+FEFF, `]]>` in data, or aliases of settings; a blank unique id, sizes with one zero, negative resolutions and formats without data are not kept.",
"all documents (trees with clean texts, and all texts of the XML grammar), all objects that loading them gives, all sequences of saves and loads of any length",
"the sequences of copies are unbounded and the documents come from other programs; a test copies a few objects once",
["src/: all afs_*_load_xml, afs_*_save_xml, *_load_string, *_save_string, *_load_file, *_save_file functions"])

p("C71","Texts that break a rule of XML are refused",
"A text that begins like an XML document and then has an end tag that does not belong to the innermost open element (or no element is open), an attribute twice in a tag or without a value or without `=`, `<` or a lone `/` in a tag, a character in a tag name that cannot be there, or behind `&` something else than a known reference (in text or in an attribute value), is refused, whatever bytes follow; so are the same errors behind a complete document, a second outermost element, and a control character or a byte that cannot begin a UTF-8 character inside an element that is in another one. A load of a refused text fails and leaves the object, of whatever type, as it was. The rules that are not enforced are listed with texts that are accepted.",
"all beginnings of documents of the XML grammar with any elements open, all wrong texts of the listed kinds, all bytes behind them, both readers (string, file), all object types",
"the beginnings, the wrong texts and what follows are unbounded; a test tries a few ill-formed documents",
["thirdparty/minixml/src/mxml-file.c: mxml_load_data, mxml_parse_element, mxml_get_entity, mxmlLoadString, mxmlLoadFile","src/: all *_load_string, *_load_file functions"])

p("C72","The memory of strings: nothing freed twice, nothing lost but what is listed",
"Any sequence of constructors, clones, setters, tag setters, loaders and destructors on objects with strings (administrative metadata, files, preview pages, layouts, both kinds of metadata sources, reels, tables of contents) runs without using freed memory or freeing twice, as long as the caller uses living objects and does not pass a member to its own setter (which is then use after free). At any moment every member holds its own copy of the text the value says, no two members share memory, and the blocks in use are those of the living objects and an exactly described list of lost blocks: the strings that were in members when a loader overwrote them, and the documents of failed `*_load_string` calls. Without loaders nothing is lost; a new object, one load from a file and free leave nothing behind.",
"all finite sequences of calls, all arguments (NULL, outside strings, members of living objects), all documents and texts",
"the sequences of calls and the documents are unbounded; leak checkers see only the runs they are given",
["src/: *_create*, *_free, *_clone, *_set_*, *_load_xml, *_load_string, *_load_file of administrativemetadata.c, tocfile.c, tocfilepreviewpage.c, toc/previewlayoutdefinition.c, tocdatafilemetadatasource.c, tocmetadatasource.c, tocdatareel.c, tocdata.c","src/xmlutils.c"])

p("C73","Histories of saving and loading: the last save is what is loaded, files are closed, documents deleted",
"Any sequence of saves to files, saves to strings, loads from files and loads from strings, on objects of any kind, in any order and on any disk, runs without using or closing a file that is not open and without using or deleting a document that is not there. Results, objects and files are determined by the calls alone: a save changes the named file and nothing else; a load gets what the last save to that name has left there, so a table of contents, administrative metadata and control data are copied through a file whatever happens in between. Every file is closed. A document is left undeleted at most once for each call that reports a failure, and never if no call fails.",
"all finite sequences of calls, all 19 kinds of objects, all disks, every choice of failing fopen calls, failing writes and places where reading stops",
"the histories, the contents of the disk and the failures are unbounded; tests run a few saves and loads without failures",
["src/: *_save_file, *_save_string, *_load_file, *_load_string of all objects","thirdparty/minixml/src/mxml-file.c: mxmlSaveFile, mxmlLoadFile, mxmlLoadString, mxmlSaveAllocString"])

p("C74","Whatever fails while saving or loading, a later load gives the saved object or says so",
"An object is saved over a file while any of the writes fail, and later loaded from that file, of which perhaps only a beginning can be read. The load answers failure (and, where loading starts with nothing but the document, leaves the object as it was), or gives exactly the object that was saved, as a load of an undisturbed file does. There is no mixture of old and new and no damaged value. The exceptions are exactly: what is read ends behind the name in the start tag of the outermost element, and then the result is an empty object of that kind, or with lists of files and reels not later than there; and control data of which the administrative metadata are whole and the technical metadata are empty. The same holds at any point of any history of saves and loads.",
"all savable objects of 19 kinds, all choices of failing writes, all places where reading stops, all previous contents of the file and of the object, all histories",
"every subset of some hundreds of writes may fail; a test can only let the disk fill up at a few places",
["src/: *_save_file, *_load_file of all objects","thirdparty/minixml/src/mxml-file.c: mxml_write_node, mxml_write_ws, mxml_write_string, mxml_file_putc, mxml_file_getc, mxmlSaveFile, mxmlLoadFile"])

p("C75","Loading makes exactly the objects of what is loaded",
"Loading any document into a new object makes exactly the objects that the loaded value consists of: one page object for each page of a preview, one file entry with its preview and metadata for each file of a list, and so on up to tables of contents and control data. Each of them has one reference, in the order of the value; the object itself keeps its references; no other object changes; and the call answers what the value says. This holds when loading fails in the middle, too. A table of contents that was created, loaded from an accepted document and freed leaves nothing allocated.",
"all documents, all states a program can reach, 13 kinds of objects, success and failure",
"the values and the ownership of the objects holding them are two different things that must agree after every way a load can end; tests check one document and see only the values",
["src/tocdata.c: afs_toc_data_load_xml","src/tocfile.c: afs_toc_file_load_xml","src/tocfiles.c: afs_toc_files_load_xml","src/tocdatareel.c: afs_toc_data_reel_load_xml","src/tocdatareels.c: afs_toc_data_reels_load_xml","src/tocfilepreview.c: afs_toc_file_preview_load_xml","src/tocdatafilemetadata.c: afs_toc_data_file_metadata_load_xml","src/tocmetadata.c: afs_toc_metadata_load_xml","src/toc/previewsections.c: afs_toc_preview_sections_load_xml","src/toc/previewlayoutdefinition.c: afs_toc_preview_layout_definition_load_xml","src/toc/previewlayoutdefinitions.c: afs_toc_preview_layout_definitions_load_xml","src/technicalmetadata.c: afs_technical_metadata_load_xml","src/controldata.c: afs_control_data_load_xml"])

p("C76","What shares nothing stays apart",
"A copy of an object looks like the original, is made of new objects only and changes nothing that was there. From then on, whatever a program does (create, add, replace parts, copy, load, take and release references, in any order), as long as no call is given an object of the copy, the copy goes on looking as the original did when it was copied, even when the original is changed, loaded again or freed; and as long as no call is given an object that was there before, nothing that was there before changes. In general a program leaves alone, down to every count, every object that it could not reach from the objects it was given. Setting the preview or the metadata of a file copies what is given; adding an element to a list does not.",
"all states a program can reach, all objects, all programs that follow",
"it is about all later histories: sharing shows only when some later call changes one side, and a test looks at one change",
["src/tocdata.c: afs_toc_data_clone","src/tocfile.c: afs_toc_file_clone, afs_toc_file_set_preview, afs_toc_file_set_metadata","src/tocfiles.c: afs_toc_files_clone, afs_toc_files_add_toc","src/tocdatareel.c: afs_toc_data_reel_clone","src/tocdatareels.c: afs_toc_data_reels_clone","src/controldata.c: afs_control_data_clone","src/technicalmetadata.c: afs_technical_metadata_clone"])

p("C77","The name of a boxing format never dangles",
"Boxing formats own a copy of the configuration they are given, and their name is a pointer into that copy. Whatever a program does with formats and configurations of its own (create, create from a configuration, initialise, copy, set a configuration, load from XML, take and release references, free configurations), as long as it holds what it uses and does not give a format its own configuration, no call follows a bad pointer; the count of a format is the number of references held; the format goes with the last one; every format with written fields can be read entirely and reads as a value of its configuration; each call has on what can be read exactly the effect the value model gives it and none on other formats; every configuration in use belongs to the program or to exactly one format; and nothing is left when everything is given back. Giving a format its own configuration is undefined, and so is comparing or copying a format that was only initialised.",
"all configurations, all programs (sequences of fewer than 2^31 - 2 calls), all XML documents loaded",
"a dangling name shows only under particular orders of freeing, copying and reconfiguring, and reading freed memory usually gives the right answer in a test",
["src/controlframe/boxingformat.c: afs_boxing_format_create, afs_boxing_format_create2, afs_boxing_format_init, afs_boxing_format_init2, afs_boxing_format_free, afs_boxing_format_get_new_reference, afs_boxing_format_clone, afs_boxing_format_set_config, afs_boxing_format_load_xml, initialize_instance"])

p("C78","Constructors give the object their arguments describe",
"Whichever of its constructors makes a source of metadata, a format, file id, id, data or list of tags that is given is the one read afterwards, and what is not given is -1 or NULL; tags given as one text are the pieces between the semicolons and read back as that text. Such a source is valid exactly if it has a format and a file id, or else (file id -1) data. Constructors that take a whole list give that list unchecked: it is what adding the elements one by one would give, provided none of them is refused, and they are all accepted exactly if the object is valid. Constructors that take an XML node give, from a saved document, the object that was saved; from any other, an object with the elements before the first one that does not load, and that it failed cannot be seen.",
"all arguments, all lists, all XML nodes",
"there are over twenty constructors with up to fifteen arguments of the same few types; a swapped or dropped argument is seen only by a test that happens to give different values and looks at that field",
["src/tocmetadatasource.c: afs_toc_metadata_source_create2, ..., afs_toc_metadata_source_create9","src/tocmetadata.c: afs_toc_metadata_create2, afs_toc_metadata_create3","src/tocdatafilemetadata.c: afs_toc_data_file_metadata_create2","src/tocfiles.c: afs_toc_files_create2","src/tocdatareels.c: afs_toc_data_reels_create2","src/toc/previewsection.c: afs_toc_preview_section_create2","src/toc/previewsections.c: afs_toc_preview_sections_create2","src/toc/previewlayoutdefinition.c: afs_toc_preview_layout_definition_create3, afs_toc_preview_layout_definition_create4, afs_toc_preview_layout_definition_init"])

p("C79","Zero reference frames and marks are released exactly once",
"Zero reference frames and marks have no reference count: a frame owns its mark. Every sequence of allowed calls (create, init on a block of the caller, draw, free each object once) is free of undefined behaviour for every allocator, also one that hands out released addresses again; a failed creation (frame too small) leaves nothing behind; afterwards exactly the blocks behind the live pointers are in use, two per frame and one per mark, plus one for every frame that was initialised again with success (its old mark is lost); every live frame draws the picture of its sizes, and after everything was freed nothing is left. When the mark cannot be allocated, creation gives NULL and initialisation fails and the memory is as before. It does not hold that a frame can be initialised twice without losing memory, that a frame whose initialisation failed can be freed, or that running out of memory for the frame itself is noticed (NULL is written through).",
"All sequences of calls of the public functions on any number of frames and marks, all sizes of unsigned int, all allocators.",
"Leaks and double frees depend on the order of calls and on the allocator; tests use a few orders and the allocator of the machine.",
["src/zeroreferenceframe.c: afs_zero_reference_mark_create, afs_zero_reference_mark_init, afs_zero_reference_mark_free, afs_zero_reference_frame_create, afs_zero_reference_frame_init, afs_zero_reference_frame_free, afs_zero_reference_frame_create_image","inc/zeroreferenceframe.h"])

p("C80","Loading into an object that is already in use",
"Every load function works on an existing object. For every object and every document: the answer of the load and every field that the document gives are those of a new object; a field that the document does not give keeps its old value exactly where the claim lists it (pages: frame, section, count; reels: files; tables of contents: index type, job id, reel id; technical metadata: contents tables, applications; files: name, date, ids, size, positions, preview, metadata; sources: data, tags, data format), and sections, layout definitions, administrative metadata, boxing formats and control data keep nothing. Lists keep all their elements and get those of the document appended, so a document loaded twice is there twice, except that sections and layout definitions refuse it the second time. Loading the same document again changes nothing in any other object; for files this holds if the document has a data element.",
"All objects of the seventeen kinds, with any contents, and all XML trees.",
"What is left from before depends on every combination of old fields and missing elements; tests load into new objects.",
["src/tocfile.c: afs_toc_file_load_xml","src/tocfiles.c: afs_toc_files_load_xml","src/tocmetadatasource.c: afs_toc_metadata_source_load_xml","src/tocdatafilemetadatasource.c: afs_toc_data_file_metadata_source_load_xml","src/tocdatareel.c: afs_toc_data_reel_load_xml","src/tocdata.c: afs_toc_data_load_xml","src/technicalmetadata.c: afs_technical_metadata_load_xml","src/toc/previewsections.c: afs_toc_preview_sections_load_xml","src/toc/previewlayoutdefinitions.c"])

p("C81","Equal objects are interchangeable",
"If the library's own comparison says that two objects are equal, every query answers alike for both (counts, lookups by index, id, name and unique id, frames, sizes, ranges, kinds, tags, layouts in use, validity) and every edit (setters, adding equal parts, shifting frames) has the same result and leaves equal objects. Lookups that read a string that is NULL in one of them are compared where both are defined. The exceptions, each shown: NULL and empty checksums are equal but only the empty one lets a file be valid, so validity (and what depends on it: adding, selecting files) is the same when the checksums are absent at the same places; first and last frame of a table of contents tell an absent from an empty list of reels. Two equal objects that can be saved, each saved in any way and loaded again, come back equal, except that a file format that is NULL comes back as 'undefined' and an empty one as empty.",
"All pairs of equal objects of the thirteen kinds, all arguments.",
"Equality identifies many representations (NULL and empty text, absent and empty lists) at every depth; tests compare an object with its clone.",
["src/tocfile.c: afs_toc_file_equal","src/tocfiles.c: afs_toc_files_equal","src/tocdata.c: afs_toc_data_equal","src/tocdatareel.c: afs_toc_data_reel_equal","src/tocmetadatasource.c: afs_toc_metadata_source_equal","src/toc/previewlayoutdefinitions.c: afs_toc_preview_layout_definitions_equal","src/tocfilepreview.c: afs_toc_file_preview_equal"])

p("C82","Running out of memory while reading XML",
"Reading an XML text while malloc and realloc refuse requests at arbitrary moments: as long as no request to enlarge a text buffer is refused, the reader comes to an end without undefined behaviour, nothing that was in memory before changes, and the result is NULL, with at most one node left over, or the root of a tree of exactly the new nodes. If such an enlargement is refused the behaviour is undefined (the buffer is freed twice), so the reader is safe exactly when none is. If only nodes, other than those of comments, and attribute buffers are refused the answer is all or nothing: NULL or exactly the document. Refusals nobody is told of, each shown: without memory for its attribute array an element loses the attribute; without memory for the node of a comment the document ends there and passes for complete.",
"All texts up to 250 million bytes, from strings and files, all allocators and heaps, all choices of refused requests at every character.",
"Allocation failures can happen at every request of every text; tests run with memory to spare.",
["thirdparty/minixml/src/mxml-file.c: mxml_load_data","thirdparty/minixml/src/mxml-file.c: mxml_parse_element","thirdparty/minixml/src/mxml-file.c: mxml_add_char","thirdparty/minixml/src/mxml-attr.c: mxml_set_attr","thirdparty/minixml/src/mxml-node.c: mxml_new"])

p("C83","Read errors that go away while reading XML",
"When reading a file fails at some moment and works again afterwards (the XML reader takes the failure for an end of file, but may ask again), then the failure is the end: whatever would follow, the result is that of the text up to there; except in an attribute value in quotes, where it is taken for the closing quote, in a value without quotes, where it is taken for a space, behind the name in a closing tag, where it is taken for the closing bracket, and in the first word of a declaration, where a byte is put in. In these places the rest is read on, and a document other than the one in the file can be accepted (shown). Memory stays safe for any number of such failures.",
"All texts, all places of the failures, all continuations.",
"An I/O error that goes away cannot be produced in a unit test at every position of every text.",
["thirdparty/minixml/src/mxml-file.c: mxml_file_getc","thirdparty/minixml/src/mxml-file.c: mxml_load_data","thirdparty/minixml/src/mxml-file.c: mxml_parse_element"])

p("C84","Exactly which texts the XML reader accepts, and as which tree",
"There is a grammar (a specification of two pages, well-formed or not) such that a string or a file of any bytes is accepted by the XML reader if and only if it begins with a document of the grammar, and the tree that is made of it is the one the grammar gives. The grammar is unambiguous, contains every document of the XML recommendation with the same tree, and every load of an object gives the object this tree or, if the text is not in the grammar, fails. So beyond well-formed XML exactly these are accepted: an outermost element without its end tag, a text that ends within a tag name or an end tag, text and (behind it) anything without `<` around the outermost element, empty and odd names, values without quotes, text behind the name in an end tag, references with digits followed by other letters, and what is listed in C83 for bytes that are no characters.",
"All byte sequences, as strings and as files in UTF-8 and UTF-16.",
"A test tries some texts; that nothing else is accepted is a statement about all texts.",
["thirdparty/minixml/src/mxml-file.c: mxml_load_data","thirdparty/minixml/src/mxml-file.c: mxml_parse_element","thirdparty/minixml/src/mxml-file.c: mxml_get_entity"])

p("C85","The shared wrap margin cannot change what a save means",
"The XML library keeps one wrap margin for all its users (72 by default). As long as it is 0 at each read, which is so in every interleaving of threads that only save with afs from whatever margin the application had set, every save writes exactly the text it writes alone. If others set the margin at any moments while a document is written, even between the two passes of a save into a string, the save still succeeds and gives the same text but for line ends in place of some blanks between attributes, of the same length, and it loads, as a string or a file, with every load function, as what the undisturbed text loads as. Each save leaves the margin at 0 for everybody.",
"All values of the margin at all reads, all interleavings of sets and reads, all elements that can be written, all whitespace callbacks, compact or indented, strings and files.",
"A test fixes one margin and one schedule; the margin may change between any two reads.",
["thirdparty/minixml/src/mxml-file.c: mxmlSetWrapMargin","thirdparty/minixml/src/mxml-file.c: mxml_write_node","thirdparty/minixml/src/mxml-file.c: mxmlSaveAllocString","src/tocdata.c: afs_toc_data_save_string"])

p("C86","Objects made through the API hold only sound parts",
"Whatever the history of calls an object comes from - creating, setting, adding, copying, loading any text on top of what is there, moving frames on film, selecting files or layouts, taking parts out and adding them elsewhere, with refused and failed calls anywhere in between - everything stored in it is valid, down to the sections, pages and metadata sources; ids of layout definitions and ids of the sections of a layout differ, and sections share no pixel. So lookups of layouts are exact, adding layouts, loading, counting frames, asking for the last frame and for the layouts in use never is undefined, lists are always valid, and a table of contents is valid, and can be saved, exactly when its version, job id, reel id and index type are set.",
"All finite histories of calls with all arguments (sections, pages, sources, strings, documents, texts), in which an object is not changed after it has been put into another one.",
"A test runs one history; histories can be of any length and in any order.",
["src/tocdata.c: afs_toc_data_is_valid","src/tocdata.c: afs_toc_data_get_used_preview_layout_definitions","src/tocdata.c: afs_toc_data_add_preview_layout_definitions","src/tocfile.c: afs_toc_file_is_valid","src/tocfiles.c: afs_toc_files_get_last_frame","src/tocdatareel.c: afs_toc_data_reel_add_file","src/toc/previewlayoutdefinitions.c: afs_toc_preview_layout_definitions_add_layout_definition"])

p("C87","What is built from clean arguments survives saving and loading",
"Whatever the history of calls an object comes from - creating, setting, adding, copying, moving frames, taking parts out and adding them elsewhere, loading any clean document on top of what is there, refused and failed calls included - if the texts handed over are clean (UTF-8 of characters XML allows, no blanks at the ends) and the numbers fit their types, a valid object can be saved in every way and loaded again, and from then on saving and loading changes nothing, for ever: compact or indented, string or file, into whatever object. What the first reload drops is exactly preview and metadata of entries whose kind does not say so; a complete table of contents does not change at all.",
"All finite histories of calls with clean arguments, all ways of saving and loading, any number of rounds.",
"A test saves and loads some objects; the history that made the object and the number of rounds are unbounded.",
["src/tocdata.c: afs_toc_data_save_string","src/tocdata.c: afs_toc_data_load_string","src/tocfile.c: afs_toc_file_save_string","src/tocdatareel.c: afs_toc_data_reel_save_string","src/toc/previewlayoutdefinitions.c: afs_toc_preview_layout_definitions_save_string","src/tocfilepreview.c: afs_toc_file_preview_save_string"])

p("C88","Control data built from clean arguments survives saving and loading",
"Whatever the history of calls administrative metadata, a boxing format, technical metadata or control data come from - creating, setting texts, giving configurations and lists of files, copying, taking parts out and using them elsewhere, loading any clean document without aliases on top of what is there, refused calls included - if the texts are clean and the lists of files were built from clean arguments, then control data with both parts, a boxing format and a list of tables of contents can be saved in every way and loaded again, for ever: administrative metadata stay what they were, the boxing format is equal and says the same, the lists of files are what C25 says. Nothing about frames or the library's tables is needed but that it keeps its laws.",
"All finite histories of calls with clean arguments, every lawful configuration library, all ways of saving and loading, any number of rounds.",
"A test saves and loads some control data made in one way; the history and the number of rounds are unbounded.",
["src/controldata.c: afs_control_data_save_string","src/controldata.c: afs_control_data_load_string","src/technicalmetadata.c: afs_technical_metadata_save_string","src/technicalmetadata.c: afs_technical_metadata_clone","src/administrativemetadata.c: afs_administrative_metadata_save_string","src/controlframe/boxingformat.c: afs_boxing_format_set_config"])

p("C89","What the library does not know does not matter","Two documents that differ only in attributes and elements the library does not use - such as a later version of the format, or another program, might add - are loaded alike by every loader of tables of contents, reels, files, previews, layouts, metadata and control data: with the same answer and the same object afterwards, whatever the object held before, and also when the load is refused. The unknown elements may hold anything but elements with names the library uses, and may stand anywhere among the children of an element but before the text of an element that holds a text; unknown attributes may stand anywhere.","All pairs of documents that differ in unknown attributes and elements only, of any number and at any depth, and all states of the object loaded into.","Tests load documents of the one version the library writes; what later versions and other programs add is not known, so no set of files covers it.",["src/tocfile.c afs_toc_file_load_xml","src/tocdata.c afs_toc_data_load_xml","src/controldata.c afs_control_data_load_xml"])

p("C90","Saved texts tell what was saved apart","Two objects built by calls of the library with clean arguments that have the same saved text hold the same: previews, lists of layout definitions, metadata of tables of contents, administrative metadata, and valid file entries and tables of contents that are complete are then the same object, and control data have the same administrative metadata and a common copy of the technical ones. One text may be compact and the other indented. So no two different contents are written alike, and comparing saved texts (or their checksums) compares the objects.","All histories of calls that build the two objects, all their contents, compact and indented texts, strings and files.","Tests save single objects; that no two of unboundedly many contents share a text is a statement about pairs that no set of runs settles.",["src/tocdata.c afs_toc_data_save_string","src/tocfile.c afs_toc_file_save_string","src/controldata.c afs_control_data_save_string"])

p("C91","The attributes of an element in memory","After any calls that set attributes of a new element to texts or to formatted numbers, copy one attribute to another (passing the very address the library gave, even of the attribute that is being set), or delete attributes, the element has exactly the attributes the calls make, each once, and asking for one gives the text last set for it, or NULL. No call reads or frees memory that is not in use, whatever allocations are refused, and deleting the element gives back everything, unless the copy of a name or the buffer for a formatted text of 256 bytes or more was refused: then at most one array or buffer per refusal is lost (and one is lost if it was the name of the first attribute, or the buffer). A refused copy of a value makes the value NULL.","All sequences of calls, names and texts, all states of memory, and all choices of refused allocations (array, copy of the name, copy of the value, buffers of a formatted text).","The calls and the refusals range over unbounded sequences; a test that does not crash cannot tell that no freed or lost memory was involved.",["thirdparty/minixml/src/mxml-attr.c mxmlElementSetAttr","thirdparty/minixml/src/mxml-attr.c mxmlElementSetAttrf","thirdparty/minixml/src/mxml-string.c _mxml_vstrdupf","thirdparty/minixml/src/mxml-attr.c mxmlElementDeleteAttr","thirdparty/minixml/src/mxml-attr.c mxmlElementGetAttr","thirdparty/minixml/src/mxml-node.c mxml_free"])

p("C92","Saving and loading give back what they hold","Whatever sequence of objects is saved to or loaded from files and strings, or checked by checksums, every file that is opened is closed again exactly once, and nothing is used, closed or deleted that is not held. The XML documents made on the way are freed, with these exceptions, each of which loses exactly one document: an object (other than a list of sections, technical metadata or a metadata source of a file) is saved to a file that cannot be opened; and a text that is a document but not one of the object that should be loaded is loaded from a string (except for boxing formats). If every call succeeds, nothing is left.","All sequences of saving, loading and checksum calls on all nineteen kinds of objects, with any arguments, contents, results of opening files, and any things held before.","A leak has no effect on the answers of a call, and the ways through the functions multiply with every call; a test that passes cannot tell that nothing was left open.",["src/tocdata.c afs_toc_data_save_file","src/tocdata.c afs_toc_data_load_string","src/tocfilepreview.c afs_toc_file_preview_save_file","src/technicalmetadata.c afs_technical_metadata_save_file","src/controlframe/boxingformat.c afs_boxing_format_load_string","src/sha256.c afs_sha256_sum2"])

p("C93","Searching an XML tree by name, attribute, level and path",
  "mxmlFindElement with any combination of name, attribute and value (a value only with an attribute) finds, when repeated from what it found, exactly the elements that have that name, that attribute and that value, each once, in document order, and then nothing: below the node with MXML_DESCEND, among its children with MXML_DESCEND_FIRST and then MXML_NO_DESCEND. A value without an attribute finds nothing. mxmlFindPath follows the steps of a path ('name' to a child, '*/name' to a node anywhere below; names of at most 255 bytes; a slash at the end does not matter), each to the first node with the name in document order, without ever going back, and gives the text the found element begins with or else the element; a path stands for one list of steps, and what is no path leads nowhere.",
  "every tree, every name, attribute, value and every path",
  "trees and paths are unbounded; that every wanted node is found exactly once in order is a statement about all of them",
  ["thirdparty/minixml/src/mxml-search.c: mxmlFindElement, mxmlFindPath, mxmlWalkNext"])

p("C94","Callbacks for named characters",
  "After any history of mxmlEntityAddCallback, mxmlEntityRemoveCallback and mxmlEntityGetValue, nothing outside the array of callbacks is touched, no NULL is called, at most 100 callbacks are registered (one more is refused with -1), removing takes away the first registration of a callback only, and a name is given to the callbacks in the order in which they were added until one knows it. As long as nobody removes the library's own callback, the names of HTML 4 mean their characters, whatever is added.",
  "every history of the three calls and every behaviour of the callbacks",
  "histories are unbounded and callbacks arbitrary",
  ["thirdparty/minixml/src/mxml-entity.c: mxmlEntityAddCallback, mxmlEntityRemoveCallback, mxmlEntityGetValue"])

p("C95","Searching in an index of XML elements",
  "Making an index ends, keeps all elements and puts them in order (by name, then by the value of the indexed attribute). In an index that is in order, mxmlIndexFind with a name, and a value if the index has an attribute, gives, when repeated after mxmlIndexReset, every element with that name and value, each once, in the order of the index, and then nothing; with neither name nor value, and by mxmlIndexEnum, all elements are given. A value cannot be searched for in an index without attribute.",
  "every list of elements, every index in order, of every size, every name and value",
  "the binary search and the steps back and forth must be right for every size and position",
  ["thirdparty/minixml/src/mxml-index.c: mxmlIndexFind, mxmlIndexEnum, mxmlIndexNew, mxmlIndexReset, index_compare, index_find, index_sort"])

out = os.path.join(os.path.dirname(os.path.dirname(os.path.abspath(__file__))), "properties.jsonl")
with open(out, "w") as f:
    for x in P: f.write(json.dumps(x) + "\n")
print(len(P), "properties")
