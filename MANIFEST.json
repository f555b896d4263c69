{
 "claims": [
  {
   "property": "C01",
   "status": "proved",
   "theorems": [
    "Docx.C01_ids_unique",
    "Docx.C01_ids_exact",
    "Docx.C01_bound_tight"
   ],
   "note": ""
  },
  {
   "property": "C02",
   "status": "proved",
   "theorems": [
    "Docx.C02_link_relationship",
    "Docx.C02_link_resolves",
    "Docx.C02_targets_are_stable"
   ],
   "note": ""
  },
  {
   "property": "C03",
   "status": "partial",
   "theorems": [
    "Docx.C03_counter_ahead",
    "Docx.C03_fresh",
    "Docx.C03_link_fresh",
    "Docx.C03_wraps"
   ],
   "note": "False of the code only when the table already holds the id rId18446744073709551615: the counter wraps (C03_wraps). Proved for every other parsed file."
  },
  {
   "property": "C04",
   "status": "proved",
   "theorems": [
    "Docx.C04_referTarget_exact",
    "Docx.C04_referTarget_fails",
    "Docx.C04_referID_exact",
    "Docx.C04_roundtrip"
   ],
   "note": ""
  },
  {
   "property": "C05",
   "status": "proved",
   "theorems": [
    "Docx.C05_range"
   ],
   "note": ""
  },
  {
   "property": "C06",
   "status": "partial",
   "theorems": [
    "Docx.C06_names_unique_partial",
    "Docx.C06_collision"
   ],
   "note": "False of the code: LoadBodyItems restarts the image counter at 0 and Parse at 100000, so a generated name can equal an existing one (C06_collision). Proved when the counter is ahead of the existing numeric names, which holds for New and split documents."
  },
  {
   "property": "C07",
   "status": "proved",
   "theorems": [
    "Docx.C07_picture_relationship",
    "Docx.C07_picture_served",
    "Docx.C07_picture_stays_served"
   ],
   "note": ""
  },
  {
   "property": "C08",
   "status": "proved",
   "theorems": [
    "Docx.C08_linearizable",
    "Docx.C08_program_order",
    "Docx.C08_consecutive",
    "Docx.C08_distinct",
    "Docx.C08_no_deadlock",
    "Docx.C08_all_return"
   ],
   "note": ""
  },
  {
   "property": "C09",
   "status": "proved",
   "theorems": [
    "Docx.C09_ids_distinct",
    "Docx.C09_entry_lost",
    "Docx.C09_alone"
   ],
   "note": "Ids distinct in every schedule; the lost entry is exhibited by C09_entry_lost. Memory is sequentially consistent and slice headers are read and written in one step."
  },
  {
   "property": "C10",
   "status": "partial",
   "theorems": [
    "Docx.C10_builder_partial",
    "Docx.C10_append_pictures",
    "Docx.C10_appended_shape_repeats"
   ],
   "note": "Proved for every history of builder calls (C10_builder_partial) and for appending documents whose drawings are pictures (C10_append_pictures). False of the code for appended shapes and canvases, which keep their ids (C10_appended_shape_repeats)."
  },
  {
   "property": "C11",
   "status": "proved",
   "theorems": [
    "Docx.C11_append_only",
    "Docx.C11_cell_paragraph"
   ],
   "note": ""
  },
  {
   "property": "C12",
   "status": "proved",
   "theorems": [
    "Docx.C12_text_extended",
    "Docx.C12_step",
    "Docx.C12_pieces"
   ],
   "note": ""
  },
  {
   "property": "C13",
   "status": "proved",
   "theorems": [
    "Docx.C13_link_shown",
    "Docx.C13_dangling_id",
    "Docx.C13_builder_links"
   ],
   "note": ""
  },
  {
   "property": "C14",
   "status": "proved",
   "theorems": [
    "Docx.C14_run_setter",
    "Docx.C14_run_chain",
    "Docx.C14_para_setter",
    "Docx.C14_para_overrides",
    "Docx.C14_table",
    "Docx.C14_row",
    "Docx.C14_cell"
   ],
   "note": ""
  },
  {
   "property": "C15",
   "status": "proved",
   "theorems": [
    "Docx.C15_panics_iff",
    "Docx.C15_built_runs_never_panic",
    "Docx.C15_no_rpr_panics"
   ],
   "note": ""
  },
  {
   "property": "C16",
   "status": "proved",
   "theorems": [
    "Docx.C16_addTable_panics",
    "Docx.C16_addTable_dims",
    "Docx.C16_addTableTwips_dims"
   ],
   "note": ""
  },
  {
   "property": "C17",
   "status": "proved",
   "theorems": [
    "Docx.C17_colors"
   ],
   "note": ""
  },
  {
   "property": "C18",
   "status": "proved",
   "theorems": [
    "Docx.C18_size",
    "Docx.C18_panics_iff"
   ],
   "note": ""
  },
  {
   "property": "C19",
   "status": "proved",
   "theorems": [
    "Docx.C19_inline",
    "Docx.C19_anchor"
   ],
   "note": ""
  },
  {
   "property": "C20",
   "status": "proved",
   "theorems": [
    "Docx.C20_failed_call",
    "Docx.C20_from",
    "Docx.C20_panic_leaves_media"
   ],
   "note": ""
  },
  {
   "property": "C21",
   "status": "proved",
   "theorems": [
    "Docx.C21_keep",
    "Docx.C21_idempotent",
    "Docx.C21_names"
   ],
   "note": ""
  },
  {
   "property": "C22",
   "status": "proved",
   "theorems": [
    "Docx.C22_drop",
    "Docx.C22_idempotent",
    "Docx.C22_compose"
   ],
   "note": ""
  },
  {
   "property": "C23",
   "status": "proved",
   "theorems": [
    "Docx.C23_dropNilPicture"
   ],
   "note": ""
  },
  {
   "property": "C24",
   "status": "proved",
   "theorems": [
    "Docx.C24_known",
    "Docx.C24_unknown",
    "Docx.C24_everywhere"
   ],
   "note": ""
  },
  {
   "property": "C25",
   "status": "partial",
   "theorems": [
    "Docx.C25_calls_partial",
    "Docx.C25_calls_file_partial",
    "Docx.C25_always_lost",
    "Docx.C25_always_moved",
    "Docx.C25_always_gone",
    "Docx.C25_text_partial",
    "Docx.C25_plain_partial",
    "Docx.C25_no_merge_partial",
    "Docx.C25_text_lost",
    "Docx.C25_text_moved",
    "Docx.C25_texts_partial",
    "Docx.C25_file_partial",
    "Docx.C25_built_lost"
   ],
   "note": "False of the code for arbitrary paragraphs: C25_text_lost (a text is printed twice, another is lost) and C25_text_moved (runs are merged across a hyperlink); C25_built_lost: both also in documents that were just built with AddTab, AddText and AddLink. C25_always_lost, C25_always_gone and C25_always_moved: for all texts, formatting, links and rules that look at the formatting. Proved for every paragraph and rule in which each merged run directly follows the run it is merged into and is Appendable, for all paragraphs of plain-text runs, and for all paragraphs when nothing is merged. C25_texts_partial and C25_file_partial: in every program (documents built, opened, joined, cut), a paragraph into which only texts were put prints those texts before and after MergeText, and after the merged document is saved and opened. C25_calls_partial: after any building calls without links in whose texts tabs and line breaks come first, MergeText keeps the printed text of every paragraph, also in cells, and a second one changes nothing. C25_calls_file_partial: and after the merged document is saved and opened, each paragraph into which the calls put only texts, tabs and breaks prints them, with the characters XML cannot carry replaced."
  },
  {
   "property": "C26",
   "status": "proved",
   "theorems": [
    "Docx.C26_receiver_unchanged",
    "Docx.C26_children_unchanged"
   ],
   "note": ""
  },
  {
   "property": "C27",
   "status": "proved",
   "theorems": [
    "Docx.C27_same",
    "Docx.C27_equivalence"
   ],
   "note": ""
  },
  {
   "property": "C28",
   "status": "proved",
   "theorems": [
    "Docx.C28_meaning",
    "Docx.C28_refines",
    "Docx.C28_all",
    "Docx.C28_only_named",
    "Docx.C28_panics_iff"
   ],
   "note": ""
  },
  {
   "property": "C29",
   "status": "partial",
   "theorems": [
    "Docx.C29_fewer_runs",
    "Docx.C29_maximal",
    "Docx.C29_maximal_same",
    "Docx.C29_formatting",
    "Docx.C29_all",
    "Docx.C29_idempotent_partial",
    "Docx.C29_not_idempotent",
    "Docx.C29_texts_partial"
   ],
   "note": "Maximality, formatting and fewer runs hold for every paragraph. Idempotence is false of the code in general (C29_not_idempotent; C25_always_gone for all texts) and proved under the same condition as C25. C29_texts_partial: in every program, for paragraphs into which only texts were put; MergeAllRuns then leaves at most one run, with one text that holds them all."
  },
  {
   "property": "C30",
   "status": "proved",
   "theorems": [
    "Docx.C30_empty_iff",
    "Docx.C30_lines"
   ],
   "note": ""
  },
  {
   "property": "C31",
   "status": "partial",
   "theorems": [
    "Docx.C31_paragraph_iff",
    "Docx.C31_table_iff",
    "Docx.C31_picture_panics",
    "Docx.C31_no_graphic_panics",
    "Docx.C31_bad_target_panics"
   ],
   "note": "False of the code: String panics on pictures added by AddInlineDrawing/AddAnchorDrawing (their hidden document pointer is nil), on inline drawings without a graphic and on pictures whose target is not a stored media file (C31_picture_panics, C31_no_graphic_panics, C31_bad_target_panics). Proved: exactly which paragraphs and tables can be printed."
  },
  {
   "property": "C32",
   "status": "proved",
   "theorems": [
    "Docx.C32_partition",
    "Docx.C32_empty"
   ],
   "note": ""
  },
  {
   "property": "C33",
   "status": "proved",
   "theorems": [
    "Docx.C33_cuts",
    "Docx.C33_regex"
   ],
   "note": ""
  },
  {
   "property": "C34",
   "status": "partial",
   "theorems": [
    "Docx.C34_split_links",
    "Docx.C34_append_links_partial",
    "Docx.C34_append_history",
    "Docx.C34_append_wraps"
   ],
   "note": "Proved for every split, for every append in a history of API calls, and for appending to any document whose id counter is ahead of its ids and does not wrap. False of the code for a target that holds the id rId18446744073709551615 (C34_append_wraps). Links that did not resolve are dropped by the code."
  },
  {
   "property": "C35",
   "status": "partial",
   "theorems": [
    "Docx.C35_split_pictures",
    "Docx.C35_append_pictures_partial",
    "Docx.C35_append_history",
    "Docx.C35_group_lost"
   ],
   "note": "Proved for pictures in every split, in every append of a history of API calls, and for appending to documents whose counters do not wrap. Group drawings are lost by the code (C35_group_lost)."
  },
  {
   "property": "C36",
   "status": "partial",
   "theorems": [
    "Docx.C36_split_text_partial",
    "Docx.C36_append_text_partial",
    "Docx.C36_picture_renamed",
    "Docx.C36_link_dropped",
    "Docx.C36_words_printed",
    "Docx.C36_split_words",
    "Docx.C36_append_words"
   ],
   "note": "False of the code: copied pictures are renamed and links that do not resolve are dropped (C36_picture_renamed, C36_link_dropped). The words, that is everything but drawings, are kept for all paragraphs and tables whose links resolve, whatever drawings they have (C36_split_words, C36_append_words; C36_words_printed says what words are). What String prints, drawings included, is kept where the drawings are shapes or canvases (C36_split_text_partial, C36_append_text_partial)."
  },
  {
   "property": "C37",
   "status": "proved",
   "theorems": [
    "Docx.C37_append"
   ],
   "note": ""
  },
  {
   "property": "C38",
   "status": "partial",
   "theorems": [
    "Docx.C38_self_append_partial",
    "Docx.C38_self_append_history"
   ],
   "note": "Proved in every history of API calls and for every document whose counters do not wrap."
  },
  {
   "property": "C39",
   "status": "partial",
   "theorems": [
    "Docx.C39_append_partial",
    "Docx.C39_split_partial",
    "Docx.C39_append_panics",
    "Docx.C39_split_panics",
    "Docx.C39_no_names_panics"
   ],
   "note": "False of the code: pictures added by the API and pictures without non-visual properties make split and append panic (C39_append_panics, C39_split_panics, C39_no_names_panics). Proved when all paragraphs are copyable."
  },
  {
   "property": "C40",
   "status": "proved",
   "theorems": [
    "Docx.C40_decode_terminates",
    "Docx.C40_bound_irrelevant",
    "Docx.C40_decode_consumes"
   ],
   "note": ""
  },
  {
   "property": "C41",
   "status": "partial",
   "theorems": [
    "Docx.C41_round_trip",
    "Docx.C41_identity_partial",
    "Docx.C41_identity_exactly",
    "Docx.C41_numbering_alone",
    "Docx.C41_numbering_lost",
    "Docx.C41_text_kept",
    "Docx.C41_bytes"
   ],
   "note": "False of the code in general (C41_numbering_lost). Proved for every document: the round trip succeeds and gives exactly the document without the losses listed in SpecXml.lean (C41_round_trip); it is the identity exactly on the documents described by keptBody and looksOk (C41_identity_exactly); texts and order always survive (C41_text_kept). XML text (escaping) is separate, see C48."
  },
  {
   "property": "C42",
   "status": "partial",
   "theorems": [
    "Docx.C42_stable_after_one",
    "Docx.C42_parsed_kept",
    "Docx.C42_stable_partial",
    "Docx.C42_stable_after_two",
    "Docx.C42_look_unstable"
   ],
   "note": "False of the code: tblLook numbers shrink to their first digit at every parse (C42_look_unstable). Proved for every token stream when those numbers are single digits, and for every document after two round trips. C42_stable_after_one: whatever was parsed, one round trip later nothing changes any more."
  },
  {
   "property": "C43",
   "status": "proved",
   "theorems": [
    "Docx.C43_unknown_ignored",
    "Docx.C43_containers",
    "Docx.C43_insert_one",
    "Docx.C43_insert_below",
    "Docx.C43_not_inside_leaf",
    "Docx.C43_not_inside_docPr"
   ],
   "note": ""
  },
  {
   "property": "C44",
   "status": "partial",
   "theorems": [
    "Docx.C44_all_kept_partial",
    "Docx.C44_truncated"
   ],
   "note": "False of the code: a bad number in an attribute is not reported, and everything behind it is silently lost (C44_truncated, for every such value and every document of that shape). Proved for all files whose numeric attributes are numbers."
  },
  {
   "property": "C45",
   "status": "partial",
   "theorems": [
    "Docx.C45_choice_partial",
    "Docx.C45_fails",
    "Docx.C45_lost"
   ],
   "note": "False of the code if white space or a comment precedes the supported Choice: Parse fails (C45_fails) or silently drops the rest of the run (C45_lost). Proved when only elements precede it, for runs anywhere in a document without bad numbers."
  },
  {
   "property": "C46",
   "status": "partial",
   "theorems": [
    "Docx.C46_whole_partial",
    "Docx.C46_last",
    "Docx.C46_false"
   ],
   "note": "False of the code for text elements with several pieces of character data, e.g. with a comment inside: only the last piece is kept (C46_last, C46_false). Proved when there is at most one piece."
  },
  {
   "property": "C47",
   "status": "proved",
   "theorems": [
    "Docx.C47_integers",
    "Docx.C47_read",
    "Docx.C47_too_large",
    "Docx.C47_unit",
    "Docx.C47_blanks",
    "Docx.C47_no_number"
   ],
   "note": ""
  },
  {
   "property": "C48",
   "status": "proved",
   "theorems": [
    "Docx.C48_lossless",
    "Docx.C48_identity",
    "Docx.C48_no_markup",
    "Docx.C48_tree",
    "Docx.C48_document",
    "Docx.C48_document_same",
    "Docx.C48_rels"
   ],
   "note": ""
  },
  {
   "property": "C49",
   "status": "proved",
   "theorems": [
    "Docx.C49_distinct",
    "Docx.C49_exactly",
    "Docx.C49_contents"
   ],
   "note": ""
  },
  {
   "property": "C50",
   "status": "proved",
   "theorems": [
    "Docx.C50_restored",
    "Docx.C50_media",
    "Docx.C50_other_files",
    "Docx.C50_again"
   ],
   "note": "For documents whose strings are XML text, whose relationship ids are rId followed by a number below 2^64 (others are refused by Parse, C54), and whose template has no file under word/media/. The zip format is not modelled."
  },
  {
   "property": "C51",
   "status": "proved",
   "theorems": [
    "Docx.C51_repeatable"
   ],
   "note": "That WriteTo does not modify the document is by construction: Saves is a relation on an unchanged document, as pack assigns to nothing but its local map."
  },
  {
   "property": "C52",
   "status": "partial",
   "theorems": [
    "Docx.C52_received_partial",
    "Docx.C52_incomplete",
    "Docx.C52_nothing_written",
    "Docx.C52_good_writer",
    "Docx.C52_error",
    "Docx.C52_good_error"
   ],
   "note": "False of the code: the error of zip.Writer.Close is dropped (C52_incomplete for every document that can be saved; C52_nothing_written for small ones). Proved: after a nil error at most the buffered 4096 bytes, the end of the last entry and the directory are missing, and nothing is missing if no call of the writer failed."
  },
  {
   "property": "C53",
   "status": "proved",
   "theorems": [
    "Docx.C53_reported",
    "Docx.C53_returns",
    "Docx.C53_success"
   ],
   "note": "Also: without such files saving succeeds (C53_success). No part is written, but the deferred Close still writes an empty archive."
  },
  {
   "property": "C54",
   "status": "proved",
   "theorems": [
    "Docx.C54_accepted_iff",
    "Docx.C54_counter",
    "Docx.C54_next",
    "Docx.C54_saved_table"
   ],
   "note": ""
  },
  {
   "property": "C55",
   "status": "proved",
   "theorems": [
    "Docx.C55_kinds_disjoint",
    "Docx.C55_places",
    "Docx.C55_document",
    "Docx.C55_relationships",
    "Docx.C55_failure"
   ],
   "note": ""
  },
  {
   "property": "C56",
   "status": "partial",
   "theorems": [
    "Docx.C56_media_served",
    "Docx.C56_media_found_always",
    "Docx.C56_links_partial",
    "Docx.C56_foreign_paragraph"
   ],
   "note": "The media half holds. The link half is false of the code: paragraphs handed to LoadBodyItems keep pointing to their old document, so AddLink registers the link there (C56_foreign_paragraph)."
  },
  {
   "property": "C57",
   "status": "partial",
   "theorems": [
    "Docx.C57_others_kept_partial",
    "Docx.C57_directories_fail"
   ],
   "note": "False of the code for archives with directory entries: they are accepted by Parse, and then WriteTo fails (C57_directories_fail). Proved for archives whose entries have different names that are plain paths and can be read."
  },
  {
   "property": "C58",
   "status": "partial",
   "theorems": [
    "Docx.C58_content_partial"
   ],
   "note": "For files without bad numbers (else C44_truncated) and without white space before the supported Choice of AlternateContent (else C45_fails, C45_lost). All formatting and page layout the library knows is covered; what is inside drawings, and the space attribute of texts (see C66), is not part of this statement."
  },
  {
   "property": "C59",
   "status": "partial",
   "theorems": [
    "Docx.C59_declared_partial",
    "Docx.C59_built",
    "Docx.C59_history_partial",
    "Docx.C59_parsed_partial",
    "Docx.C59_group_undeclared",
    "Docx.C59_root_undeclared",
    "Docx.C59_empty_frame_undeclared"
   ],
   "note": "Proved for every history of API calls, splitting and appending included (C59_built), and for parsed files whose drawings declare their prefixes in place and contain no groups (C59_parsed_partial). False of the code for parsed files: a picture inside a group loses its declaration (C59_group_undeclared), a prefix declared at the root is dropped (C59_root_undeclared), and an empty wp:cNvGraphicFramePr, which Word writes for shapes, is saved with an undeclared prefix (C59_empty_frame_undeclared)."
  },
  {
   "property": "C60",
   "status": "partial",
   "theorems": [
    "Docx.C60_built",
    "Docx.C60_history_partial",
    "Docx.C60_parsed_partial",
    "Docx.C60_anchor_dangling",
    "Docx.C60_linked_dangling",
    "Docx.C60_textbox_dangling"
   ],
   "note": "Proved for every history of API calls, splitting and appending included (C60_built), for histories that begin with parsed documents and filter bodies with KeepElements and DropDrawingOf as long as only main pictures and links outside text boxes refer to files (C60_history_partial), and for parsed files with links by id and embedded pictures (C60_parsed_partial). False of the code for links to bookmarks (C60_anchor_dangling), linked pictures (C60_linked_dangling) and for appending a document with a link in a text box (C60_textbox_dangling)."
  },
  {
   "property": "C61",
   "status": "partial",
   "theorems": [
    "Docx.C61_run",
    "Docx.C61_justification",
    "Docx.C61_style",
    "Docx.C61_numPr",
    "Docx.C61_mark",
    "Docx.C61_table",
    "Docx.C61_row",
    "Docx.C61_cell",
    "Docx.C61_text",
    "Docx.C61_runTab",
    "Docx.C61_pieces",
    "Docx.C61_body",
    "Docx.C61_addTable",
    "Docx.C61_addTableTwips",
    "Docx.C61_picture",
    "Docx.C61_size",
    "Docx.C61_shape",
    "Docx.C61_spacing_unused",
    "Docx.C61_picture_whole",
    "Docx.C61_shape_whole"
   ],
   "note": "Proved for all calls; the element of Run.Spacing is written with w:line, but the attribute that means the space between characters in a run is w:val (C61_spacing_unused)."
  },
  {
   "property": "C62",
   "status": "partial",
   "theorems": [
    "Docx.C62_exact",
    "Docx.C62_built_partial",
    "Docx.C62_numPr",
    "Docx.C62_style",
    "Docx.C62_justification",
    "Docx.C62_style_justification",
    "Docx.C62_addTable",
    "Docx.C62_addTableTwips",
    "Docx.C62_after_page",
    "Docx.C62_page_then_paragraph",
    "Docx.C62_run_setters",
    "Docx.C62_num_font_size",
    "Docx.C62_text"
   ],
   "note": "The documents that are saved in accordance with the content models are characterised exactly (C62_exact). For histories of calls they are the ones whose table cells all have a paragraph and whose section properties come last (C62_built_partial). NumPr on any paragraph, Style together with Justification, a new table without paragraphs in its cells, and a paragraph after WithA4Page break the models (C62_numPr, C62_style_justification, C62_addTable, C62_addTableTwips, C62_after_page). Attributes and their values are not checked."
  },
  {
   "property": "C63",
   "status": "partial",
   "theorems": [
    "Docx.C63_call_values",
    "Docx.C63_values",
    "Docx.C63_additions_partial",
    "Docx.C63_split_keeps",
    "Docx.C63_families_partial",
    "Docx.C63_append_shares_run",
    "Docx.C63_append_shares_text",
    "Docx.C63_append_shares_para",
    "Docx.C63_split_shares_run",
    "Docx.C63_size",
    "Docx.C63_append_shares_table",
    "Docx.C63_not_separate",
    "Docx.C63_size_shared"
   ],
   "note": "False of the code: copies keep the pointers to run properties, paragraph properties, texts, table, row and cell properties and the extents of pictures, so every setter called on a copied run (C63_append_shares_run, C63_split_shares_run), paragraph (C63_append_shares_para) or text (C63_append_shares_text) changes the source; witnesses down to the saved XML (C63_not_separate) and for picture sizes (C63_size_shared). Proved: calls that add never change another document, whatever is shared (C63_additions_partial, C63_split_keeps); setters change no document of another family (C63_families_partial). C63_call_values and C63_values prove that the model with shared objects and the model with values used by the other properties agree."
  },
  {
   "property": "C64",
   "status": "partial",
   "theorems": [
    "Docx.C64_same_parse",
    "Docx.C64_same_save",
    "Docx.C64_parse_partial",
    "Docx.C64_save_leaks",
    "Docx.C64_save_partial",
    "Docx.C64_save_adds_up"
   ],
   "note": "Parse closes everything unless a media file cannot be read, which is then the only file left open (C64_parse_partial). False of WriteTo: it leaves open every template file (C64_save_leaks), and they add up over saves (C64_save_adds_up); nothing is left open exactly when there are no template files (C64_save_partial)."
  },
  {
   "property": "C65",
   "status": "partial",
   "theorems": [
    "Docx.C65_calls_push",
    "Docx.C65_clipped_partial",
    "Docx.C65_exact",
    "Docx.C65_prefix_overwritten",
    "Docx.C65_same_slice",
    "Docx.C65_paragraph_lost"
   ],
   "note": "False of the code: LoadBodyItems keeps the slices it is given, so after LoadBodyItems(items[:b], ...) the next element added to the new document replaces element b of the old one (C65_prefix_overwritten, for every history and document; C65_paragraph_lost), and two documents made from one slice with room overwrite each other's additions (C65_same_slice). C65_exact says exactly when. Proved when the slices handed over have no room behind their end (C65_clipped_partial)."
  },
  {
   "property": "C66",
   "status": "partial",
   "theorems": [
    "Docx.C66_text_partial",
    "Docx.C66_text_lost",
    "Docx.C66_built_partial",
    "Docx.C66_read",
    "Docx.C66_merge",
    "Docx.C66_merge_lost"
   ],
   "note": "False of the code: AddText never sets the mark, so a text that begins or ends with a space is saved unmarked (C66_text_lost, for every paragraph and text; C66_built_partial for every history), and MergeText takes the marks of parsed texts away (C66_merge, C66_merge_lost). C66_text_partial says exactly when the property holds after AddText; a mark that was read is saved again (C66_read)."
  },
  {
   "property": "C67",
   "status": "partial",
   "theorems": [
    "Docx.C67_prolog",
    "Docx.C67_pad_partial",
    "Docx.C67_indent_partial",
    "Docx.C67_leaf_fails",
    "Docx.C67_text_cut",
    "Docx.C67_alt_fails"
   ],
   "note": "False of the code in three places, each with a universal theorem: inside elements that have only attributes a comment or white space makes Parse fail (C67_leaf_fails), inside w:t a comment cuts off the text before it (C67_text_cut), and white space inside mc:AlternateContent makes Parse fail (C67_alt_fails). Everywhere else proved (C67_pad_partial), and so for a whole indented document (C67_indent_partial)."
  },
  {
   "property": "C68",
   "status": "proved",
   "theorems": [
    "Docx.C68_careful",
    "Docx.C68_program",
    "Docx.C68_exact",
    "Docx.C68_no_pictures",
    "Docx.C68_parsed"
   ],
   "note": ""
  },
  {
   "property": "C69",
   "status": "proved",
   "theorems": [
    "Docx.C69_frame",
    "Docx.C69_alone",
    "Docx.C69_schedules",
    "Docx.C69_borrowed"
   ],
   "note": ""
  },
  {
   "property": "C70",
   "status": "partial",
   "theorems": [
    "Docx.C70_saved",
    "Docx.C70_kept_partial",
    "Docx.C70_plain",
    "Docx.C70_numbering_lost",
    "Docx.C70_nothing_off",
    "Docx.C70_anchors_lost",
    "Docx.C70_after_lost",
    "Docx.C70_off_becomes_on",
    "Docx.C70_strike_invalid",
    "Docx.C70_switch_lost",
    "Docx.C70_zero_lost",
    "Docx.C70_link_joined",
    "Docx.C70_look_invented"
   ],
   "note": "False of the code in several ways, each proved for all files where possible: no numbering is ever written back (C70_numbering_lost), nothing is ever switched off (C70_nothing_off, C70_off_becomes_on), no anchors of links (C70_anchors_lost), no spacing after or right indentation (C70_after_lost), exactly the attributes of SpecKept.vocabulary can be written (C70_plain); examples C70_strike_invalid, C70_switch_lost, C70_zero_lost, C70_link_joined, C70_look_invented. C70_kept_partial: everything the content specification of C58 covers reads the same before and after, for files without bad numbers and with tblLook flags written as 0 or 1 (else C42_look_unstable). The content of drawings is covered by C71."
  },
  {
   "property": "C71",
   "status": "partial",
   "theorems": [
    "Docx.C71_read_partial",
    "Docx.C71_written",
    "Docx.C71_written_exact_partial",
    "Docx.C71_resaved_partial"
   ],
   "note": "C71_read_partial: parsing gives exactly the items that the declarative reading of Verif.SpecDrawing finds in the tree, all fields included, to any depth. C71_written is unconditional: what is written says what is in the document up to the losses of SpecXml; C71_written_exact_partial for documents without those, C71_resaved_partial for opening and saving. Missing because false of the code: bad numbers (C44_truncated), text at the beginning of AlternateContent (C45_fails, C45_lost), tblLook flags other than 0 and 1 (C42_look_unstable), what is not written (C41_numbering_lost)."
  },
  {
   "property": "C72",
   "status": "partial",
   "theorems": [
    "Docx.C72_no_overwriting",
    "Docx.C72_input_kept",
    "Docx.C72_files",
    "Docx.C72_printed",
    "Docx.C72_props_text",
    "Docx.C72_dup_elsewhere",
    "Docx.C72_dup_name",
    "Docx.C72_dup_root",
    "Docx.C72_dup_once",
    "Docx.C72_split_panics"
   ],
   "note": "C72_no_overwriting and C72_input_kept hold for every run, C72_files, C72_printed and C72_props_text for every complete run on a file with a dot in its name. Missing because false of the code: the name for -d in a directory (C72_dup_elsewhere, C72_dup_root), -s without a dot (C72_split_panics); -d 1 makes no copy (C72_dup_once). The demonstration document is a parameter of the model."
  },
  {
   "property": "C73",
   "status": "partial",
   "theorems": [
    "Docx.C73_opened",
    "Docx.C73_new",
    "Docx.C73_texts",
    "Docx.C73_drawing_ids_kept",
    "Docx.C73_links",
    "Docx.C73_ids_unique",
    "Docx.C73_pictures_partial",
    "Docx.C73_picture_replaced",
    "Docx.C73_drawing_ids_repeat"
   ],
   "note": "C73_links, C73_ids_unique, C73_texts hold for all histories of calls and reopenings (C73_opened, C73_new: every document starts with the assumption of C73_ids_unique). Missing because false of the code: pictures added to an opened document are replaced by ones added after the next opening (C73_picture_replaced, for every file and format), and drawing ids repeat (C73_drawing_ids_repeat, for every file); C73_pictures_partial has the pictures that are safe, C73_drawing_ids_kept that saving itself keeps the ids."
  },
  {
   "property": "C74",
   "status": "partial",
   "theorems": [
    "Docx.C74_same",
    "Docx.C74_content_partial",
    "Docx.C74_saved",
    "Docx.C74_parts",
    "Docx.C74_restored",
    "Docx.C74_section_cut"
   ],
   "note": "C74_same, C74_saved, C74_parts, C74_restored hold for all ways to write the parts (SpecForms) and all packages. Missing because false of the code: a text in several pieces is not read as the one text that it is (C74_section_cut, for every such text and every way to write it; see C46). C74_content_partial gives what is read, with the restrictions of C58_content_partial. Not covered: names outside ASCII, encodings other than UTF-8 (Go refuses them), entities declared in a document type."
  },
  {
   "property": "C75",
   "status": "proved",
   "theorems": [
    "Docx.C75_same",
    "Docx.C75_reported",
    "Docx.C75_relationships",
    "Docx.C75_saved",
    "Docx.C75_unreadable"
   ],
   "note": "C75_same for all packages without any condition on them; C75_reported for all document parts whose numbers can be read (otherwise decoding stops early and silently, C44), C75_relationships without that condition. Needs that every decoding function depends only on the tokens it has read when it succeeds, and that no error except a bad number is passed over."
  },
  {
   "property": "C76",
   "status": "proved",
   "theorems": [
    "Docx.C76_refused"
   ],
   "note": "For declarations written as the XML standard says (ForeignDecl), in either quotes, with any white space and anything after the value."
  },
  {
   "property": "C77",
   "status": "partial",
   "theorems": [
    "Docx.C77_built",
    "Docx.C77_opened_partial",
    "Docx.C77_missing",
    "Docx.C77_prefixed",
    "Docx.C77_bare",
    "Docx.C77_prefix"
   ],
   "note": "C77_built for all documents that were not opened from a file. For opened ones C77_opened_partial, if the table declares its name space as the default one. It is false for packages without a table (C77_missing: saved in no name space) and for tables that use a prefix (C77_prefixed: saved in the name space of references, finding 27)."
  },
  {
   "property": "C78",
   "status": "partial",
   "theorems": [
    "Docx.C78_default_partial",
    "Docx.C78_format",
    "Docx.C78_opened_partial",
    "Docx.C78_undeclared"
   ],
   "note": "C78_default_partial for pictures in jpeg, png and webp; C78_opened_partial: the file of types of an opened package stays as it is. So it is false for other formats with the default theme (C78_format) and for added pictures whose format an opened package has no type for (C78_undeclared): nothing adds a type (finding 28)."
  },
  {
   "property": "C79",
   "status": "partial",
   "theorems": [
    "Docx.C79_default",
    "Docx.C79_opened_partial",
    "Docx.C79_elsewhere"
   ],
   "note": "C79_default for documents with the default theme. C79_opened_partial for opened packages that have the document in word/document.xml. It is false for others (C79_elsewhere): they are opened as empty documents without an error, and what is added is saved where no reader looks for it (finding 29)."
  },
  {
   "property": "C80",
   "status": "partial",
   "theorems": [
    "Docx.C80_prefixes",
    "Docx.C80_opened",
    "Docx.C80_renamed_partial",
    "Docx.C80_declaration_fails",
    "Docx.C80_foreign",
    "Docx.C80_requires",
    "Docx.C80_undeclared"
   ],
   "note": "C80_prefixes and C80_opened are in full generality: any two documents that agree up to prefixes and unknown attributes. C80_renamed_partial: declarations below the root must not have the name of an attribute the library reads, since the library takes xmlns:w for an attribute w (C80_declaration_fails). Further limits: Requires of mc:Choice is compared with literal prefixes (C80_requires), a prefix other than a or pic for graphics is saved undeclared (C80_undeclared), and elements of other name spaces with the same local name are taken for those of WordprocessingML (C80_foreign). Finding 30."
  },
  {
   "property": "C81",
   "status": "partial",
   "theorems": [
    "Docx.C81_order_partial",
    "Docx.C81_opened_partial",
    "Docx.C81_bad_number",
    "Docx.C81_clash"
   ],
   "note": "C81_order_partial and C81_opened_partial. It is false for elements with a bad number: attributes after it are lost, those before it are kept, and no error is reported (C81_bad_number); and for two attributes with the same local name in different name spaces, of which the last one counts (C81_clash). Finding 31."
  },
  {
   "property": "C82",
   "status": "partial",
   "theorems": [
    "Docx.C82_shown_partial",
    "Docx.C82_link",
    "Docx.C82_cell"
   ],
   "note": "C82_shown_partial. It is false for links of other programs: their text is text, and String shows the field code only (C82_link, for every link); and of a cell only the first paragraph is shown (C82_cell). Drawings are shown by name only. Finding 32."
  },
  {
   "property": "C83",
   "status": "proved",
   "theorems": [
    "Docx.C83_calls",
    "Docx.C83_lists",
    "Docx.C83_numbers",
    "Docx.C83_unambiguous",
    "Docx.C83_guarded",
    "Docx.C83_paragraph_lost",
    "Docx.C83_wrong_picture",
    "Docx.C83_media_panic",
    "Docx.C83_own_order",
    "Docx.C83_all_return"
   ],
   "note": "C83_calls, C83_numbers, C83_lists, C83_unambiguous, C83_own_order, C83_guarded and C83_all_return (with a mutex all calls return under every fair schedule). Without a mutex a paragraph can be lost (C83_paragraph_lost), Media can give the bytes of another picture (C83_wrong_picture) or panic (C83_media_panic). Memory is taken to be sequentially consistent. Finding 33."
  },
  {
   "property": "C84",
   "status": "proved",
   "theorems": [
    "Docx.C84_refines",
    "Docx.C84_exact",
    "Docx.C84_change_lost"
   ],
   "note": "C84_refines (pointers used at once) and C84_exact (pointers kept). C84_change_lost: in a new document the pointer to the first picture is stale as soon as a second one is added. Finding 34."
  },
  {
   "property": "C85",
   "status": "proved",
   "theorems": [
    "Docx.C85_table",
    "Docx.C85_built",
    "Docx.C85_default",
    "Docx.C85_opened",
    "Docx.C85_split",
    "Docx.C85_bare"
   ],
   "note": "C85_built and C85_default (made by calls), C85_opened (opened packages, with all their parts), C85_split (documents of a split), C85_table (the saved file holds the table), C85_bare (New without a theme: parts, content types and root relationships are missing, no error). Finding 35."
  },
  {
   "property": "C86",
   "status": "proved",
   "theorems": [
    "Docx.C86_expressible",
    "Docx.C86_reopens",
    "Docx.C86_saves_again",
    "Docx.C86_settles",
    "Docx.C86_settles_at_once",
    "Docx.C86_goes_on",
    "Docx.C86_odd_media_names"
   ],
   "note": "C86_expressible (everything a decoder hands on can be written), C86_reopens, C86_saves_again, C86_goes_on, C86_settles, C86_settles_at_once; C86_odd_media_names shows that the condition on media names is needed. Finding 36."
  },
  {
   "property": "C87",
   "status": "proved",
   "theorems": [
    "Docx.C87_links",
    "Docx.C87_ids",
    "Docx.C87_opens",
    "Docx.C87_exactly",
    "Docx.C87_history",
    "Docx.C87_too_large"
   ],
   "note": "C87_opens, C87_exactly, C87_history; through any number of reopenings C87_links, C87_ids; C87_too_large shows the limit: after the id rId9223372036854775807 the library hands out an id it cannot read. Finding 37."
  },
  {
   "property": "C88",
   "status": "partial",
   "theorems": [
    "Docx.C88_overwritten",
    "Docx.C88_lost",
    "Docx.C88_split_overwritten",
    "Docx.C88_from_memory",
    "Docx.C88_saved_partial",
    "Docx.C88_returns"
   ],
   "note": "False of the code for every package with a part besides the document, its relationships and media: C88_overwritten (an error, whatever was called since), C88_lost (the file is then an archive without entries, and opens as an empty document without an error), C88_split_overwritten. C88_saved_partial for the others. C88_from_memory says what is saved in general when the file has changed. Finding 38."
  },
  {
   "property": "C89",
   "status": "proved",
   "theorems": [
    "Docx.C89_between",
    "Docx.C89_document_first",
    "Docx.C89_begun",
    "Docx.C89_words",
    "Docx.C89_guarded",
    "Docx.C89_dangling",
    "Docx.C89_picture_missing"
   ],
   "note": "C89_between, C89_guarded, C89_document_first, C89_begun, C89_words. Without a mutex: C89_dangling, C89_picture_missing. One goroutine adds; memory is taken to be sequentially consistent. Finding 39."
  },
  {
   "property": "C90",
   "status": "proved",
   "theorems": [
    "Docx.C90_same",
    "Docx.C90_words",
    "Docx.C90_all"
   ],
   "note": "C90_same, C90_words, C90_all. When the calls return; when they do is C39. Links that do not resolve are left out, C36_link_dropped."
  },
  {
   "property": "C91",
   "status": "proved",
   "theorems": [
    "Docx.C91_pieces",
    "Docx.C91_again",
    "Docx.C91_returns"
   ],
   "note": "C91_pieces, C91_again, C91_returns. Paragraphs with drawings: C33_regex."
  },
  {
   "property": "C92",
   "status": "proved",
   "theorems": [
    "Docx.C92_well_formed"
   ],
   "note": "C92_well_formed. About the bytes, as a lexer of the model reads them (C48). The parts that are copied from templates are not looked into."
  },
  {
   "property": "C93",
   "status": "proved",
   "theorems": [
    "Docx.C93_any_order",
    "Docx.C93_again",
    "Docx.C93_texts"
   ],
   "note": "C93_any_order, C93_again, C93_texts. Texts inside drawings go with the drawings."
  },
  {
   "property": "C94",
   "status": "proved",
   "theorems": [
    "Docx.C94_joined"
   ],
   "note": "C94_joined. Drawings inside links are not looked at: they lose their document when a file is opened."
  },
  {
   "property": "C95",
   "status": "proved",
   "theorems": [
    "Docx.C95_parts"
   ],
   "note": "C95_parts. Where the cuts are: C33, C91. Drawings inside links are not looked at: they lose their document when a file is opened."
  },
  {
   "property": "C96",
   "status": "proved",
   "theorems": [
    "Docx.C96_saved",
    "Docx.C96_alone",
    "Docx.C96_schedules",
    "Docx.C96_texts",
    "Docx.C96_untouched"
   ],
   "note": "C96_alone, C96_schedules, C96_texts, C96_saved, C96_untouched. An action is one step of a schedule. C69 is the case of documents that exist already; here threads make documents while others run. C83 is about threads that share a document."
  },
  {
   "property": "C97",
   "status": "proved",
   "theorems": [
    "Docx.C97_copy",
    "Docx.C97_split",
    "Docx.C97_dup"
   ],
   "note": "C97_copy, C97_split, C97_dup. From the archive that is read to the archives that the written files are. The number of relationships of the written documents must be below 2^62. Pictures: see C94 and C95. What is printed: C72."
  },
  {
   "property": "C98",
   "status": "proved",
   "theorems": [
    "Docx.C98_built",
    "Docx.C98_file",
    "Docx.C98_exact"
   ],
   "note": "C98_built, C98_file, C98_exact. The specification SpecBuilt works on blocks of text, links, bytes and sizes alone: no ids, no relationships, no media. Formats of pictures must be strings that XML can carry. The number of relationships must be below 2^62. Sizes of pictures and formatting are in C63 and C41, C42."
  },
  {
   "property": "C99",
   "status": "proved",
   "theorems": [
    "Docx.C99_documents",
    "Docx.C99_file",
    "Docx.C99_goes_on"
   ],
   "note": "C99_documents, C99_file, C99_goes_on. What the documents should show is computed from the calls by Makes in SpecMakes, with Call.does of C98 and list concatenation. The condition on the names of media is needed: C73_picture_replaced. AppendFile of a document with pictures that were added in memory panics (C39_append_panics), so such programs end. The number of relationships and the numbers in their ids must be below 2^62."
  },
  {
   "property": "C100",
   "status": "proved",
   "theorems": [
    "Docx.C100_cut",
    "Docx.C100_files"
   ],
   "note": "C100_cut, C100_files. The split is a constructor of Makes, so C99_documents, C99_file and C99_goes_on hold of programs that split with any rule that looks at what paragraphs show. The text of a paragraph with drawings contains hashes of pictures, so such paragraphs are left to the general rule. Splitting a document with pictures that were added in memory panics, so such programs end."
  },
  {
   "property": "C101",
   "status": "proved",
   "theorems": [
    "Docx.C101_built",
    "Docx.C101_documents",
    "Docx.C101_file",
    "Docx.C101_calls",
    "Docx.C101_run_setters",
    "Docx.C101_para_setters"
   ],
   "note": "C101_built, C101_documents, C101_file, C101_calls, C101_run_setters, C101_para_setters. Formatting of runs inside links is included, formatting inside text boxes and groups is not (it is copied or saved with them, see C87). The properties of the page are in C98."
  },
  {
   "property": "C102",
   "status": "proved",
   "theorems": [
    "Docx.C102_call",
    "Docx.C102_program"
   ],
   "note": "C102_call, C102_program. The programs have fewer than 2^61 calls. Calls that are modelled as changes of the items (tabs, page breaks, setters, keeping and dropping) do nothing at a place that does not exist; a Go program has nothing to call them on there."
  },
  {
   "property": "C103",
   "status": "proved",
   "theorems": [
    "Docx.C103_exists",
    "Docx.C103_demo",
    "Docx.C103_file",
    "Docx.C103_tool",
    "Docx.C103_drawings"
   ],
   "note": "C103_exists, C103_demo, C103_drawings, C103_file, C103_tool. Saving is assumed to succeed (C53_success says when), and the names of picture formats to be characters XML can carry."
  },
  {
   "property": "C104",
   "status": "proved",
   "theorems": [
    "Docx.C104_built",
    "Docx.C104_documents",
    "Docx.C104_file",
    "Docx.C104_calls",
    "Docx.C104_transparency_lost"
   ],
   "note": "C104_built, C104_documents, C104_file, C104_calls; C104_transparency_lost is the witness for copies. The size of a new picture is scaleSize of C63. Opened files must show known pieces only (pictures, shapes, texts, links), as in C99."
  },
  {
   "property": "C105",
   "status": "proved",
   "theorems": [
    "Docx.C105_exact",
    "Docx.C105_printed",
    "Docx.C105_opened",
    "Docx.C105_file",
    "Docx.C105_same",
    "Docx.C105_not_before",
    "Docx.C105_empty_text"
   ],
   "note": "C105_printed, C105_opened, C105_file, C105_same. A cell that shows nothing is printed in one of two ways (C105_empty_text). A paragraph with a new picture cannot be printed before saving and opening (C105_not_before). The names of drawings are not fixed by the statement. C105_exact: what can be printed in a document that was just built."
  },
  {
   "property": "C106",
   "status": "proved",
   "theorems": [
    "Docx.C106_conversions",
    "Docx.C106_kept",
    "Docx.C106_append",
    "Docx.C106_write",
    "Docx.C106_shared",
    "Docx.C106_part_overwrites"
   ],
   "note": "C106_conversions, C106_append, C106_kept, C106_write, C106_shared. That strings can change is stated as it is (C106_shared, C106_part_overwrites)."
  },
  {
   "property": "C107",
   "status": "proved",
   "theorems": [
    "Docx.C107_built",
    "Docx.C107_rectangular",
    "Docx.C107_file",
    "Docx.C107_append",
    "Docx.C107_split"
   ],
   "note": "C107_built, C107_rectangular, C107_file, C107_append, C107_split. Tables inside cells are not made by calls and not counted."
  },
  {
   "property": "C108",
   "status": "partial",
   "theorems": [
    "Docx.C108_read",
    "Docx.C108_same_partial",
    "Docx.C108_copy_partial",
    "Docx.C108_count_wrong"
   ],
   "note": "C108_read, C108_same_partial, C108_copy_partial. The number that is returned is wrong: C108_count_wrong (io.Copy and WriteTo return 0 although the complete archive was written). io.Copy, io.ReadAll and the readers are modelled as in Go 1.20; what is read (not copied by WriteTo) goes to a writer that does not fail."
  }
 ]
}