{
 "C06": {
  "status": "partial",
  "note": "False of the code: LoadBodyItems restarts the image counter at 0 and Parse at 100000, so a generated name can equal an existing one (C06_collision). Proved when the counter is ahead of the existing numeric names, which holds for New and split documents."
 },
 "C56": {
  "status": "partial",
  "note": "The media half holds. The link half is false of the code: paragraphs handed to LoadBodyItems keep pointing to their old document, so AddLink registers the link there (C56_foreign_paragraph)."
 },
 "C25": {
  "status": "partial",
  "note": "False of the code for arbitrary paragraphs: C25_text_lost (a text is printed twice, another is lost) and C25_text_moved (runs are merged across a hyperlink); C25_built_lost: both also in documents that were just built with AddTab, AddText and AddLink. C25_always_lost, C25_always_gone and C25_always_moved: for all texts, formatting, links and rules that look at the formatting. Proved for every paragraph and rule in which each merged run directly follows the run it is merged into and is Appendable, for all paragraphs of plain-text runs, and for all paragraphs when nothing is merged. C25_texts_partial and C25_file_partial: in every program (documents built, opened, joined, cut), a paragraph into which only texts were put prints those texts before and after MergeText, and after the merged document is saved and opened. C25_calls_partial: after any building calls without links in whose texts tabs and line breaks come first, MergeText keeps the printed text of every paragraph, also in cells, and a second one changes nothing. C25_calls_file_partial: and after the merged document is saved and opened, each paragraph into which the calls put only texts, tabs and breaks prints them, with the characters XML cannot carry replaced."
 },
 "C29": {
  "status": "partial",
  "note": "Maximality, formatting and fewer runs hold for every paragraph. Idempotence is false of the code in general (C29_not_idempotent; C25_always_gone for all texts) and proved under the same condition as C25. C29_texts_partial: in every program, for paragraphs into which only texts were put; MergeAllRuns then leaves at most one run, with one text that holds them all."
 },
 "C31": {
  "status": "partial",
  "note": "False of the code: String panics on pictures added by AddInlineDrawing/AddAnchorDrawing (their hidden document pointer is nil), on inline drawings without a graphic and on pictures whose target is not a stored media file (C31_picture_panics, C31_no_graphic_panics, C31_bad_target_panics). Proved: exactly which paragraphs and tables can be printed."
 },
 "C34": {
  "status": "partial",
  "note": "Proved for every split, for every append in a history of API calls, and for appending to any document whose id counter is ahead of its ids and does not wrap. False of the code for a target that holds the id rId18446744073709551615 (C34_append_wraps). Links that did not resolve are dropped by the code."
 },
 "C35": {
  "status": "partial",
  "note": "Proved for pictures in every split, in every append of a history of API calls, and for appending to documents whose counters do not wrap. Group drawings are lost by the code (C35_group_lost)."
 },
 "C36": {
  "status": "partial",
  "note": "False of the code: copied pictures are renamed and links that do not resolve are dropped (C36_picture_renamed, C36_link_dropped). The words, that is everything but drawings, are kept for all paragraphs and tables whose links resolve, whatever drawings they have (C36_split_words, C36_append_words; C36_words_printed says what words are). What String prints, drawings included, is kept where the drawings are shapes or canvases (C36_split_text_partial, C36_append_text_partial)."
 },
 "C38": {
  "status": "partial",
  "note": "Proved in every history of API calls and for every document whose counters do not wrap."
 },
 "C39": {
  "status": "partial",
  "note": "False of the code: pictures added by the API and pictures without non-visual properties make split and append panic (C39_append_panics, C39_split_panics, C39_no_names_panics). Proved when all paragraphs are copyable."
 },
 "C10": {
  "status": "partial",
  "note": "Proved for every history of builder calls (C10_builder_partial) and for appending documents whose drawings are pictures (C10_append_pictures). False of the code for appended shapes and canvases, which keep their ids (C10_appended_shape_repeats)."
 },
 "C09": {
  "status": "proved",
  "note": "Ids distinct in every schedule; the lost entry is exhibited by C09_entry_lost. Memory is sequentially consistent and slice headers are read and written in one step."
 },
 "C41": {
  "status": "partial",
  "note": "False of the code in general (C41_numbering_lost). Proved for every document: the round trip succeeds and gives exactly the document without the losses listed in SpecXml.lean (C41_round_trip); it is the identity exactly on the documents described by keptBody and looksOk (C41_identity_exactly); texts and order always survive (C41_text_kept). XML text (escaping) is separate, see C48."
 },
 "C42": {
  "status": "partial",
  "note": "False of the code: tblLook numbers shrink to their first digit at every parse (C42_look_unstable). Proved for every token stream when those numbers are single digits, and for every document after two round trips. C42_stable_after_one: whatever was parsed, one round trip later nothing changes any more."
 },
 "C44": {
  "status": "partial",
  "note": "False of the code: a bad number in an attribute is not reported, and everything behind it is silently lost (C44_truncated, for every such value and every document of that shape). Proved for all files whose numeric attributes are numbers."
 },
 "C03": {
  "status": "partial",
  "note": "False of the code only when the table already holds the id rId18446744073709551615: the counter wraps (C03_wraps). Proved for every other parsed file."
 },
 "C50": {
  "status": "proved",
  "note": "For documents whose strings are XML text, whose relationship ids are rId followed by a number below 2^64 (others are refused by Parse, C54), and whose template has no file under word/media/. The zip format is not modelled."
 },
 "C51": {
  "status": "proved",
  "note": "That WriteTo does not modify the document is by construction: Saves is a relation on an unchanged document, as pack assigns to nothing but its local map."
 },
 "C52": {
  "status": "partial",
  "note": "False of the code: the error of zip.Writer.Close is dropped (C52_incomplete for every document that can be saved; C52_nothing_written for small ones). Proved: after a nil error at most the buffered 4096 bytes, the end of the last entry and the directory are missing, and nothing is missing if no call of the writer failed."
 },
 "C53": {
  "status": "proved",
  "note": "Also: without such files saving succeeds (C53_success). No part is written, but the deferred Close still writes an empty archive."
 },
 "C57": {
  "status": "partial",
  "note": "False of the code for archives with directory entries: they are accepted by Parse, and then WriteTo fails (C57_directories_fail). Proved for archives whose entries have different names that are plain paths and can be read."
 },
 "C45": {
  "status": "partial",
  "note": "False of the code if white space or a comment precedes the supported Choice: Parse fails (C45_fails) or silently drops the rest of the run (C45_lost). Proved when only elements precede it, for runs anywhere in a document without bad numbers."
 },
 "C46": {
  "status": "partial",
  "note": "False of the code for text elements with several pieces of character data, e.g. with a comment inside: only the last piece is kept (C46_last, C46_false). Proved when there is at most one piece."
 },
 "C58": {
  "status": "partial",
  "note": "For files without bad numbers (else C44_truncated) and without white space before the supported Choice of AlternateContent (else C45_fails, C45_lost). All formatting and page layout the library knows is covered; what is inside drawings, and the space attribute of texts (see C66), is not part of this statement."
 },
 "C59": {
  "status": "partial",
  "note": "Proved for every history of API calls, splitting and appending included (C59_built), and for parsed files whose drawings declare their prefixes in place and contain no groups (C59_parsed_partial). False of the code for parsed files: a picture inside a group loses its declaration (C59_group_undeclared), a prefix declared at the root is dropped (C59_root_undeclared), and an empty wp:cNvGraphicFramePr, which Word writes for shapes, is saved with an undeclared prefix (C59_empty_frame_undeclared)."
 },
 "C60": {
  "status": "partial",
  "note": "Proved for every history of API calls, splitting and appending included (C60_built), for histories that begin with parsed documents and filter bodies with KeepElements and DropDrawingOf as long as only main pictures and links outside text boxes refer to files (C60_history_partial), and for parsed files with links by id and embedded pictures (C60_parsed_partial). False of the code for links to bookmarks (C60_anchor_dangling), linked pictures (C60_linked_dangling) and for appending a document with a link in a text box (C60_textbox_dangling)."
 },
 "C61": {
  "status": "partial",
  "note": "Proved for all calls; the element of Run.Spacing is written with w:line, but the attribute that means the space between characters in a run is w:val (C61_spacing_unused)."
 },
 "C62": {
  "status": "partial",
  "note": "The documents that are saved in accordance with the content models are characterised exactly (C62_exact). For histories of calls they are the ones whose table cells all have a paragraph and whose section properties come last (C62_built_partial). NumPr on any paragraph, Style together with Justification, a new table without paragraphs in its cells, and a paragraph after WithA4Page break the models (C62_numPr, C62_style_justification, C62_addTable, C62_addTableTwips, C62_after_page). Attributes and their values are not checked."
 },
 "C63": {
  "status": "partial",
  "note": "False of the code: copies keep the pointers to run properties, paragraph properties, texts, table, row and cell properties and the extents of pictures, so every setter called on a copied run (C63_append_shares_run, C63_split_shares_run), paragraph (C63_append_shares_para) or text (C63_append_shares_text) changes the source; witnesses down to the saved XML (C63_not_separate) and for picture sizes (C63_size_shared). Proved: calls that add never change another document, whatever is shared (C63_additions_partial, C63_split_keeps); setters change no document of another family (C63_families_partial). C63_call_values and C63_values prove that the model with shared objects and the model with values used by the other properties agree."
 },
 "C64": {
  "status": "partial",
  "note": "Parse closes everything unless a media file cannot be read, which is then the only file left open (C64_parse_partial). False of WriteTo: it leaves open every template file (C64_save_leaks), and they add up over saves (C64_save_adds_up); nothing is left open exactly when there are no template files (C64_save_partial)."
 },
 "C65": {
  "status": "partial",
  "note": "False of the code: LoadBodyItems keeps the slices it is given, so after LoadBodyItems(items[:b], ...) the next element added to the new document replaces element b of the old one (C65_prefix_overwritten, for every history and document; C65_paragraph_lost), and two documents made from one slice with room overwrite each other's additions (C65_same_slice). C65_exact says exactly when. Proved when the slices handed over have no room behind their end (C65_clipped_partial)."
 },
 "C66": {
  "status": "partial",
  "note": "False of the code: AddText never sets the mark, so a text that begins or ends with a space is saved unmarked (C66_text_lost, for every paragraph and text; C66_built_partial for every history), and MergeText takes the marks of parsed texts away (C66_merge, C66_merge_lost). C66_text_partial says exactly when the property holds after AddText; a mark that was read is saved again (C66_read)."
 },
 "C67": {
  "status": "partial",
  "note": "False of the code in three places, each with a universal theorem: inside elements that have only attributes a comment or white space makes Parse fail (C67_leaf_fails), inside w:t a comment cuts off the text before it (C67_text_cut), and white space inside mc:AlternateContent makes Parse fail (C67_alt_fails). Everywhere else proved (C67_pad_partial), and so for a whole indented document (C67_indent_partial)."
 },
 "C70": {
  "status": "partial",
  "note": "False of the code in several ways, each proved for all files where possible: no numbering is ever written back (C70_numbering_lost), nothing is ever switched off (C70_nothing_off, C70_off_becomes_on), no anchors of links (C70_anchors_lost), no spacing after or right indentation (C70_after_lost), exactly the attributes of SpecKept.vocabulary can be written (C70_plain); examples C70_strike_invalid, C70_switch_lost, C70_zero_lost, C70_link_joined, C70_look_invented. C70_kept_partial: everything the content specification of C58 covers reads the same before and after, for files without bad numbers and with tblLook flags written as 0 or 1 (else C42_look_unstable). The content of drawings is covered by C71."
 },
 "C71": {
  "status": "partial",
  "note": "C71_read_partial: parsing gives exactly the items that the declarative reading of Verif.SpecDrawing finds in the tree, all fields included, to any depth. C71_written is unconditional: what is written says what is in the document up to the losses of SpecXml; C71_written_exact_partial for documents without those, C71_resaved_partial for opening and saving. Missing because false of the code: bad numbers (C44_truncated), text at the beginning of AlternateContent (C45_fails, C45_lost), tblLook flags other than 0 and 1 (C42_look_unstable), what is not written (C41_numbering_lost)."
 },
 "C72": {
  "status": "partial",
  "note": "C72_no_overwriting and C72_input_kept hold for every run, C72_files, C72_printed and C72_props_text for every complete run on a file with a dot in its name. Missing because false of the code: the name for -d in a directory (C72_dup_elsewhere, C72_dup_root), -s without a dot (C72_split_panics); -d 1 makes no copy (C72_dup_once). The demonstration document is a parameter of the model."
 },
 "C73": {
  "status": "partial",
  "note": "C73_links, C73_ids_unique, C73_texts hold for all histories of calls and reopenings (C73_opened, C73_new: every document starts with the assumption of C73_ids_unique). Missing because false of the code: pictures added to an opened document are replaced by ones added after the next opening (C73_picture_replaced, for every file and format), and drawing ids repeat (C73_drawing_ids_repeat, for every file); C73_pictures_partial has the pictures that are safe, C73_drawing_ids_kept that saving itself keeps the ids."
 },
 "C74": {
  "status": "partial",
  "note": "C74_same, C74_saved, C74_parts, C74_restored hold for all ways to write the parts (SpecForms) and all packages. Missing because false of the code: a text in several pieces is not read as the one text that it is (C74_section_cut, for every such text and every way to write it; see C46). C74_content_partial gives what is read, with the restrictions of C58_content_partial. Not covered: names outside ASCII, encodings other than UTF-8 (Go refuses them), entities declared in a document type."
 },
 "C75": {
  "note": "C75_same for all packages without any condition on them; C75_reported for all document parts whose numbers can be read (otherwise decoding stops early and silently, C44), C75_relationships without that condition. Needs that every decoding function depends only on the tokens it has read when it succeeds, and that no error except a bad number is passed over."
 },
 "C76": {
  "note": "For declarations written as the XML standard says (ForeignDecl), in either quotes, with any white space and anything after the value."
 },
 "C77": {
  "note": "C77_built for all documents that were not opened from a file. For opened ones C77_opened_partial, if the table declares its name space as the default one. It is false for packages without a table (C77_missing: saved in no name space) and for tables that use a prefix (C77_prefixed: saved in the name space of references, finding 27)."
 },
 "C78": {
  "note": "C78_default_partial for pictures in jpeg, png and webp; C78_opened_partial: the file of types of an opened package stays as it is. So it is false for other formats with the default theme (C78_format) and for added pictures whose format an opened package has no type for (C78_undeclared): nothing adds a type (finding 28)."
 },
 "C79": {
  "note": "C79_default for documents with the default theme. C79_opened_partial for opened packages that have the document in word/document.xml. It is false for others (C79_elsewhere): they are opened as empty documents without an error, and what is added is saved where no reader looks for it (finding 29)."
 },
 "C80": {
  "note": "C80_prefixes and C80_opened are in full generality: any two documents that agree up to prefixes and unknown attributes. C80_renamed_partial: declarations below the root must not have the name of an attribute the library reads, since the library takes xmlns:w for an attribute w (C80_declaration_fails). Further limits: Requires of mc:Choice is compared with literal prefixes (C80_requires), a prefix other than a or pic for graphics is saved undeclared (C80_undeclared), and elements of other name spaces with the same local name are taken for those of WordprocessingML (C80_foreign). Finding 30."
 },
 "C81": {
  "note": "C81_order_partial and C81_opened_partial. It is false for elements with a bad number: attributes after it are lost, those before it are kept, and no error is reported (C81_bad_number); and for two attributes with the same local name in different name spaces, of which the last one counts (C81_clash). Finding 31."
 },
 "C82": {
  "note": "C82_shown_partial. It is false for links of other programs: their text is text, and String shows the field code only (C82_link, for every link); and of a cell only the first paragraph is shown (C82_cell). Drawings are shown by name only. Finding 32."
 },
 "C83": {
  "note": "C83_calls, C83_numbers, C83_lists, C83_unambiguous, C83_own_order, C83_guarded and C83_all_return (with a mutex all calls return under every fair schedule). Without a mutex a paragraph can be lost (C83_paragraph_lost), Media can give the bytes of another picture (C83_wrong_picture) or panic (C83_media_panic). Memory is taken to be sequentially consistent. Finding 33."
 },
 "C84": {
  "note": "C84_refines (pointers used at once) and C84_exact (pointers kept). C84_change_lost: in a new document the pointer to the first picture is stale as soon as a second one is added. Finding 34."
 },
 "C85": {
  "note": "C85_built and C85_default (made by calls), C85_opened (opened packages, with all their parts), C85_split (documents of a split), C85_table (the saved file holds the table), C85_bare (New without a theme: parts, content types and root relationships are missing, no error). Finding 35."
 },
 "C86": {
  "note": "C86_expressible (everything a decoder hands on can be written), C86_reopens, C86_saves_again, C86_goes_on, C86_settles, C86_settles_at_once; C86_odd_media_names shows that the condition on media names is needed. Finding 36."
 },
 "C87": {
  "note": "C87_opens, C87_exactly, C87_history; through any number of reopenings C87_links, C87_ids; C87_too_large shows the limit: after the id rId9223372036854775807 the library hands out an id it cannot read. Finding 37."
 },
 "C88": {
  "status": "partial",
  "note": "False of the code for every package with a part besides the document, its relationships and media: C88_overwritten (an error, whatever was called since), C88_lost (the file is then an archive without entries, and opens as an empty document without an error), C88_split_overwritten. C88_saved_partial for the others. C88_from_memory says what is saved in general when the file has changed. Finding 38."
 },
 "C89": {
  "note": "C89_between, C89_guarded, C89_document_first, C89_begun, C89_words. Without a mutex: C89_dangling, C89_picture_missing. One goroutine adds; memory is taken to be sequentially consistent. Finding 39."
 },
 "C90": {
  "note": "C90_same, C90_words, C90_all. When the calls return; when they do is C39. Links that do not resolve are left out, C36_link_dropped."
 },
 "C91": {
  "note": "C91_pieces, C91_again, C91_returns. Paragraphs with drawings: C33_regex."
 },
 "C92": {
  "note": "C92_well_formed. About the bytes, as a lexer of the model reads them (C48). The parts that are copied from templates are not looked into."
 },
 "C93": {
  "note": "C93_any_order, C93_again, C93_texts. Texts inside drawings go with the drawings."
 },
 "C94": {
  "note": "C94_joined. Drawings inside links are not looked at: they lose their document when a file is opened."
 },
 "C95": {
  "note": "C95_parts. Where the cuts are: C33, C91. Drawings inside links are not looked at: they lose their document when a file is opened."
 },
 "C96": {
  "note": "C96_alone, C96_schedules, C96_texts, C96_saved, C96_untouched. An action is one step of a schedule. C69 is the case of documents that exist already; here threads make documents while others run. C83 is about threads that share a document."
 },
 "C97": {
  "note": "C97_copy, C97_split, C97_dup. From the archive that is read to the archives that the written files are. The number of relationships of the written documents must be below 2^62. Pictures: see C94 and C95. What is printed: C72."
 },
 "C98": {
  "note": "C98_built, C98_file, C98_exact. The specification SpecBuilt works on blocks of text, links, bytes and sizes alone: no ids, no relationships, no media. Formats of pictures must be strings that XML can carry. The number of relationships must be below 2^62. Sizes of pictures and formatting are in C63 and C41, C42."
 },
 "C99": {
  "note": "C99_documents, C99_file, C99_goes_on. What the documents should show is computed from the calls by Makes in SpecMakes, with Call.does of C98 and list concatenation. The condition on the names of media is needed: C73_picture_replaced. AppendFile of a document with pictures that were added in memory panics (C39_append_panics), so such programs end. The number of relationships and the numbers in their ids must be below 2^62."
 },
 "C100": {
  "note": "C100_cut, C100_files. The split is a constructor of Makes, so C99_documents, C99_file and C99_goes_on hold of programs that split with any rule that looks at what paragraphs show. The text of a paragraph with drawings contains hashes of pictures, so such paragraphs are left to the general rule. Splitting a document with pictures that were added in memory panics, so such programs end."
 },
 "C101": {
  "note": "C101_built, C101_documents, C101_file, C101_calls, C101_run_setters, C101_para_setters. Formatting of runs inside links is included, formatting inside text boxes and groups is not (it is copied or saved with them, see C87). The properties of the page are in C98."
 },
 "C102": {
  "note": "C102_call, C102_program. The programs have fewer than 2^61 calls. Calls that are modelled as changes of the items (tabs, page breaks, setters, keeping and dropping) do nothing at a place that does not exist; a Go program has nothing to call them on there."
 },
 "C103": {
  "note": "C103_exists, C103_demo, C103_drawings, C103_file, C103_tool. Saving is assumed to succeed (C53_success says when), and the names of picture formats to be characters XML can carry."
 },
 "C104": {
  "note": "C104_built, C104_documents, C104_file, C104_calls; C104_transparency_lost is the witness for copies. The size of a new picture is scaleSize of C63. Opened files must show known pieces only (pictures, shapes, texts, links), as in C99."
 },
 "C105": {
  "note": "C105_printed, C105_opened, C105_file, C105_same. A cell that shows nothing is printed in one of two ways (C105_empty_text). A paragraph with a new picture cannot be printed before saving and opening (C105_not_before). The names of drawings are not fixed by the statement. C105_exact: what can be printed in a document that was just built."
 },
 "C106": {
  "note": "C106_conversions, C106_append, C106_kept, C106_write, C106_shared. That strings can change is stated as it is (C106_shared, C106_part_overwrites)."
 },
 "C107": {
  "note": "C107_built, C107_rectangular, C107_file, C107_append, C107_split. Tables inside cells are not made by calls and not counted."
 },
 "C108": {
  "status": "partial",
  "note": "C108_read, C108_same_partial, C108_copy_partial. The number that is returned is wrong: C108_count_wrong (io.Copy and WriteTo return 0 although the complete archive was written). io.Copy, io.ReadAll and the readers are modelled as in Go 1.20; what is read (not copied by WriteTo) goes to a writer that does not fail."
 }
}