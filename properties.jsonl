{"id": "C01", "title": "Relationship ids stay unique", "statement": "In a document started with New (or LoadBodyItems, or produced by SplitByParagraph), after any sequence of AddLink, AddInlineDrawing/AddAnchorDrawing, AddShape, AppendFile and paragraph/table calls, no two relationships seen by RangeRelationships have the same ID, as long as fewer than 2^63 ids were handed out.", "quantifier": "all finite histories of API calls", "why_tests_cant": "a test fixes one history; the claim is about every history of calls", "anchors": ["link.go:addLinkRelation", "link.go:addImageRelation", "apirel.go:RangeRelationships", "docx.go:LoadBodyItems", "empty.go:newEmptyFile"]}
{"id": "C02", "title": "A link id keeps resolving to its link", "statement": "The ID in the Hyperlink returned by AddLink(text, link) resolves through ReferTarget to exactly link, immediately and after any later sequence of API calls on the document.", "quantifier": "all documents with unique ids, all links, all later histories", "why_tests_cant": "a test fixes one history; the claim is about every history of calls", "anchors": ["apilink.go:AddLink", "link.go:addLinkRelation", "link.go:ReferTarget"]}
{"id": "C03", "title": "New ids on a parsed document are fresh", "statement": "After Parse succeeds, an id handed out by AddLink or an image call differs from every relationship id in the parsed file, unless the counter has been driven past the largest 64-bit value.", "quantifier": "all parsed relationship tables, all later histories", "why_tests_cant": "the ids in the file are attacker/author chosen; only the maximum is tracked", "anchors": ["unpack.go:parseDocRelation", "link.go:addLinkRelation"]}
{"id": "C04", "title": "Relationship lookup is exact", "statement": "ReferTarget(id) returns the target of the first relationship with that id and ErrRefIDNotFound exactly when there is none; ReferID(target) is the same by target; and when ids are unique ReferTarget(ReferID(t)) = t.", "quantifier": "all relationship tables, ids and targets", "why_tests_cant": "a test fixes one input; the claim is about every input of any size", "anchors": ["link.go:ReferTarget", "link.go:ReferID"]}
{"id": "C05", "title": "RangeRelationships visits in order, stops at the first error, and cannot edit the document", "statement": "RangeRelationships calls the callback once per relationship in document order, stops at and returns the first error, and whatever the callback does to the relationship it is handed the document's relationships are unchanged.", "quantifier": "all documents and all callbacks (including ones that mutate their argument)", "why_tests_cant": "callback is an arbitrary function", "anchors": ["apirel.go:RangeRelationships"]}
{"id": "C06", "title": "Generated media names never collide", "statement": "The media name generated for an added or copied picture is different from the name of every media already in the document, so no existing picture is shadowed or overwritten when saving.", "quantifier": "all documents (New, Parse, LoadBodyItems, split), all histories", "why_tests_cant": "depends on the names already in an arbitrary file", "anchors": ["image.go:addImage", "media.go:addMedia", "unpack.go:unpack", "docx.go:LoadBodyItems"]}
{"id": "C07", "title": "A stored picture stays retrievable", "statement": "After a picture with bytes b is added, the relationship id stored in the picture resolves to 'media/<name>' and Media(<name>) returns b, immediately and after any later API calls (on documents whose generated names are fresh).", "quantifier": "all documents started by New, all pictures, all later histories", "why_tests_cant": "a test fixes one history; the claim is about every history of calls", "anchors": ["apidrawing.go:AddInlineDrawing", "apidrawing.go:AddAnchorDrawing", "image.go:addImage", "media.go:Media"]}
{"id": "C08", "title": "IncreaseID is linearizable", "statement": "When any number of goroutines call IncreaseID on one document, in every interleaving the values returned for one name are pairwise distinct and are exactly 1..n in lock order, and names do not interfere.", "quantifier": "all schedules of any number of goroutines and calls", "why_tests_cant": "the scheduler is not under the test's control", "anchors": ["id.go:IncreaseID"]}
{"id": "C09", "title": "Concurrent AddLink: ids distinct, list may lose entries", "statement": "In every interleaving of concurrent relationship additions the ids handed out are pairwise distinct (atomic counter); the relationship list itself is documented as not thread-safe and some interleaving loses an entry.", "quantifier": "all schedules of any number of goroutines", "why_tests_cant": "race outcome depends on the schedule", "anchors": ["link.go:addLinkRelation"]}
{"id": "C10", "title": "Drawing ids are unique", "statement": "In a document started with New, the docPr ids of all drawings created by AddInlineDrawing, AddAnchorDrawing, AddInlineShape, AddAnchorShape or copied in by AppendFile are pairwise distinct.", "quantifier": "all histories of drawing calls", "why_tests_cant": "a test fixes one history; the claim is about every history of calls", "anchors": ["apidrawing.go", "apishape.go", "structdrawing.go:WPInline.copymedia"]}
{"id": "C11", "title": "Body is append-only", "statement": "AddParagraph, AddTable, AddTableTwips, WithA3Page and WithA4Page add exactly one item at the end of Document.Body.Items and leave every existing item, relationship and media unchanged.", "quantifier": "all documents and all arguments", "why_tests_cant": "a test fixes one input; the claim is about every input of any size", "anchors": ["apipara.go:AddParagraph", "apitable.go", "theme.go"]}
{"id": "C12", "title": "AddText round-trips through String", "statement": "After p.AddText(s), p.String() is the previous String followed by exactly s, for every s (tabs and newlines included), and the created Text children contain no tab or newline and are non-empty.", "quantifier": "all strings and all paragraphs", "why_tests_cant": "strings with arbitrary mixes of tabs and newlines", "anchors": ["apitext.go:AddText", "structpara.go:String"]}
{"id": "C13", "title": "AddLink is visible in String", "statement": "After p.AddLink(text, link), p.String() is the previous String followed by [text](link), for every text and link.", "quantifier": "all paragraphs, texts and links", "why_tests_cant": "a test fixes one input; the claim is about every input of any size", "anchors": ["apilink.go:AddLink", "structpara.go:String"]}
{"id": "C14", "title": "Setters: last write wins, nothing else moves", "statement": "Each Run/Paragraph/Table/Row/Cell setter makes its own property equal to its argument, leaves every other property, the children and the String unchanged, and a second call overrides the first.", "quantifier": "all runs, paragraphs and tables and all arguments; all setter sequences", "why_tests_cant": "a test fixes one history; the claim is about every history of calls", "anchors": ["apirun.go", "apipara.go", "apitable.go"]}
{"id": "C15", "title": "Run setters never panic on library-built runs", "statement": "Runs returned by AddText, AddTab, AddPageBreaks, AddLink, AddInlineDrawing, AddInlineShape and friends have run properties, so any chain of Color/Size/Bold/... calls on them cannot panic; on a run with no run properties (a parsed run without rPr) every such setter panics.", "quantifier": "all runs and all setter chains", "why_tests_cant": "a test fixes one history; the claim is about every history of calls", "anchors": ["apirun.go", "apitext.go", "structrun.go:UnmarshalXML"]}
{"id": "C16", "title": "Table dimensions", "statement": "AddTable(r, c, ...) and AddTableTwips(hs, ws, ...) return a table with exactly r (len hs) rows of exactly c (len ws) cells, with the given heights and widths, and panic exactly when r < 0, or r > 0 and c < 0.", "quantifier": "all dimensions and width/height lists", "why_tests_cant": "a test fixes one input; the claim is about every input of any size", "anchors": ["apitable.go:AddTable", "apitable.go:AddTableTwips"]}
{"id": "C17", "title": "Border colours default per side", "statement": "Each border of a created table has the requested colour, or #000000 where the requested colour is empty or no colours were given; the caller's struct is updated the same way.", "quantifier": "all colour structs", "why_tests_cant": "a test fixes one input; the claim is about every input of any size", "anchors": ["apitable.go:applyDefault"]}
{"id": "C18", "title": "Picture scaling", "statement": "For every picture size with positive width the display width is A4_EMU_MAX_WIDTH when width/height > 1.2 and half of it otherwise, the height is the proportional one rounded down, and the call panics exactly when the decoded width is 0.", "quantifier": "all picture sizes", "why_tests_cant": "a test fixes one input; the claim is about every input of any size", "anchors": ["apidrawing.go:AddInlineDrawing", "apidrawing.go:AddAnchorDrawing", "structdrawing.go:A4_EMU_MAX_WIDTH"]}
{"id": "C19", "title": "Drawing Size sets both extents only", "statement": "WPInline.Size / WPAnchor.Size set the outer extent and the picture's shape extent to (w,h) when present and change nothing else.", "quantifier": "all drawings and sizes", "why_tests_cant": "a test fixes one input; the claim is about every input of any size", "anchors": ["apidrawing.go:Size"]}
{"id": "C20", "title": "Failed picture calls change nothing", "statement": "If the picture cannot be decoded, AddInlineDrawing/AddAnchorDrawing return an error and the document and paragraph are exactly as before.", "quantifier": "all documents, paragraphs and undecodable inputs", "why_tests_cant": "a test fixes one input; the claim is about every input of any size", "anchors": ["apidrawing.go"]}
{"id": "C21", "title": "KeepElements is a filter", "statement": "KeepElements(names...) on a body, paragraph or run keeps exactly the elements whose type is named, in order; it is idempotent and the order and repetition of names is irrelevant.", "quantifier": "all element lists and name lists", "why_tests_cant": "a test fixes one input; the claim is about every input of any size", "anchors": ["structdoc.go:Body.KeepElements", "structpara.go:KeepElements", "structrun.go:KeepElements"]}
{"id": "C22", "title": "Drop* removes exactly the matching drawings", "statement": "DropShape/DropCanvas/DropGroup/DropShapeAndCanvas/DropShapeAndCanvasAndGroup remove from the runs of the paragraph exactly the drawings of that kind, keep everything else in order, are idempotent, and the combined ones equal the composition of the single ones.", "quantifier": "all paragraphs", "why_tests_cant": "a test fixes one input; the claim is about every input of any size", "anchors": ["structpara.go:DropCanvas", "structpara.go:DropShape", "structpara.go:DropGroup"]}
{"id": "C23", "title": "DropNilPicture leaves only pictures", "statement": "After DropNilPicture every remaining drawing in the runs of the paragraph carries a picture in each of its present containers (so rendering it never meets a nil graphic), and drawings that do carry one are kept.", "quantifier": "all paragraphs", "why_tests_cant": "a test fixes one input; the claim is about every input of any size", "anchors": ["structpara.go:DropNilPicture"]}
{"id": "C24", "title": "DropDrawingOf reaches every paragraph", "statement": "Body.DropDrawingOf(name) applies the named drop to every body paragraph and every paragraph of every table cell, and an unknown name changes nothing.", "quantifier": "all bodies and names", "why_tests_cant": "a test fixes one input; the claim is about every input of any size", "anchors": ["structdoc.go:DropDrawingOf"]}
{"id": "C25", "title": "MergeText preserves the text", "statement": "p.MergeText(rule).String() = p.String() for every rule.", "quantifier": "all paragraphs and all merge rules", "why_tests_cant": "run structure is arbitrary and the rule is an arbitrary function", "anchors": ["structtext.go:MergeText"]}
{"id": "C26", "title": "MergeText does not touch its receiver", "statement": "MergeText leaves the paragraph it is called on, its runs and their texts unchanged.", "quantifier": "all paragraphs and rules", "why_tests_cant": "aliasing through pointers", "anchors": ["structtext.go:MergeText"]}
{"id": "C27", "title": "MergeSamePropRuns compares exactly the formatting", "statement": "MergeSamePropRuns is an equivalence relation on runs and holds exactly when the two runs have the same formatting (both none, or every property equal by value).", "quantifier": "all pairs of runs", "why_tests_cant": "a test fixes one input; the claim is about every input of any size", "anchors": ["structtext.go:MergeSamePropRuns"]}
{"id": "C28", "title": "MergeSamePropRunsOf refines by names", "statement": "Adding names to MergeSamePropRunsOf only makes it merge less; with all property names it is MergeSamePropRuns; it depends only on the named properties; a name that is no property panics as soon as two distinct property sets are compared.", "quantifier": "all name lists and runs", "why_tests_cant": "a test fixes one input; the claim is about every input of any size", "anchors": ["structtext.go:MergeSamePropRunsOf"]}
{"id": "C29", "title": "MergeText keeps formatting and maximally merges", "statement": "With an equivalence rule such as MergeSamePropRuns no run of the result can be merged with the next run of the result, the result never has more runs, and merging again changes nothing (on paragraphs with no other children between runs).", "quantifier": "all paragraphs", "why_tests_cant": "a test fixes one input; the claim is about every input of any size", "anchors": ["structtext.go:MergeText"]}
{"id": "C30", "title": "Table text has one line per row", "statement": "Table.String is empty exactly when there is no row or the first row has no cell; otherwise it is a header line plus one line per row, with the first paragraph of each cell.", "quantifier": "all tables", "why_tests_cant": "a test fixes one input; the claim is about every input of any size", "anchors": ["structtable.go:String"]}
{"id": "C31", "title": "Rendering to text never panics", "statement": "Paragraph.String and Table.String return normally for every document built through the API or returned by Parse.", "quantifier": "all documents", "why_tests_cant": "nil pointers hide in rare shapes", "anchors": ["structpara.go:String", "structdrawing.go:WPInline.String", "structdrawing.go:WPAnchor.String"]}
{"id": "C32", "title": "SplitByParagraph partitions the body", "statement": "The items of the resulting documents, concatenated in order, are the copies of the items of the original, none lost, duplicated or reordered; every resulting document is non-empty; an empty body gives no documents.", "quantifier": "all bodies and all separator rules", "why_tests_cant": "separator is an arbitrary function", "anchors": ["structdoc.go:SplitByParagraph"]}
{"id": "C33", "title": "SplitByParagraph cuts exactly at separators", "statement": "Every resulting document but the first starts with a separator paragraph, and no separator paragraph occurs anywhere except as the first item of a resulting document.", "quantifier": "all bodies and separator rules", "why_tests_cant": "separator is an arbitrary function", "anchors": ["structdoc.go:SplitByParagraph"]}
{"id": "C34", "title": "Split and append keep links working", "statement": "Every hyperlink of a document produced by SplitByParagraph or extended by AppendFile resolves, in that document, to the target it had in its source document.", "quantifier": "all documents and rules", "why_tests_cant": "a test fixes one input; the claim is about every input of any size", "anchors": ["structdoc.go:Paragraph.copymedia", "link.go"]}
{"id": "C35", "title": "Split and append keep pictures working", "statement": "Every picture copied by SplitByParagraph or AppendFile resolves, in the new document, to media with the bytes it had in the source document.", "quantifier": "all documents and rules", "why_tests_cant": "a test fixes one input; the claim is about every input of any size", "anchors": ["structdrawing.go:copymedia", "image.go"]}
{"id": "C36", "title": "Split and append keep all text", "statement": "The text (String) of every paragraph is the same before and after SplitByParagraph or AppendFile.", "quantifier": "all documents and rules", "why_tests_cant": "a test fixes one input; the claim is about every input of any size", "anchors": ["structdoc.go:copymedia", "structdrawing.go:copymedia"]}
{"id": "C37", "title": "AppendFile appends and leaves the source alone", "statement": "f.AppendFile(af): the old items, relationships and media of f are kept as a prefix, exactly len(af items) items are added, and af (when not f) is unchanged.", "quantifier": "all pairs of documents", "why_tests_cant": "a test fixes one input; the claim is about every input of any size", "anchors": ["structdoc.go:AppendFile"]}
{"id": "C38", "title": "Self-append doubles", "statement": "f.AppendFile(f) terminates and appends one copy of each original item whose links resolve as in the original.", "quantifier": "all documents", "why_tests_cant": "appending to the list being iterated", "anchors": ["structdoc.go:AppendFile"]}
{"id": "C39", "title": "Split and append never panic", "statement": "SplitByParagraph and AppendFile return normally for every document built through the API or returned by Parse.", "quantifier": "all documents", "why_tests_cant": "nil pointers hide in rare shapes", "anchors": ["structdrawing.go:copymedia"]}
{"id": "C40", "title": "Parsing terminates", "statement": "For every token stream, well formed or not, unmarshalling a document stops; it returns a document or an error.", "quantifier": "all token streams", "why_tests_cant": "non-termination cannot be observed by a test", "anchors": ["structdoc.go:UnmarshalXML", "structrun.go:parse"]}
{"id": "C41", "title": "Save then parse is the identity", "statement": "Unmarshalling the XML marshalled from a document gives back the same body: same items, same order, same properties, same text.", "quantifier": "all documents of any size and nesting", "why_tests_cant": "a test fixes one input; the claim is about every input of any size", "anchors": ["structdoc.go", "structpara.go", "structrun.go", "structtext.go", "structtable.go", "structsect.go", "structdrawing.go", "structshape.go", "structcanvas.go", "structgroup.go"]}
{"id": "C42", "title": "Parsed documents are stable", "statement": "For a parsed document, saving and parsing again gives the same document (a second round trip loses nothing more).", "quantifier": "all token streams", "why_tests_cant": "a test fixes one input; the claim is about every input of any size", "anchors": ["structdoc.go", "structtable.go:WTableLook"]}
{"id": "C43", "title": "Unsupported elements are ignored", "statement": "Inserting any well-formed element with an unsupported name among the children of document, body, paragraph, run, table, row or cell does not change what is parsed.", "quantifier": "all documents, positions and unsupported subtrees", "why_tests_cant": "a test fixes one input; the claim is about every input of any size", "anchors": ["structdoc.go:Body.UnmarshalXML", "structpara.go:Paragraph.UnmarshalXML", "structrun.go:Run.parse"]}
{"id": "C44", "title": "A bad number never truncates the document", "statement": "If Parse returns no error the parsed body contains every paragraph of the file, even if some attribute that should be a number is not one.", "quantifier": "all token streams", "why_tests_cant": "error path shared by dozens of readers", "anchors": ["helper.go:GetInt", "structdoc.go:Body.UnmarshalXML"]}
{"id": "C45", "title": "AlternateContent takes the supported choice", "statement": "A run containing mc:AlternateContent whose supported Choice holds a drawing parses to that drawing followed by the run's later children, whatever whitespace, other choices and fallback surround it.", "quantifier": "all runs and all surrounding content", "why_tests_cant": "a test fixes one input; the claim is about every input of any size", "anchors": ["structrun.go:Run.parse"]}
{"id": "C46", "title": "Text elements keep all their character data", "statement": "The text of a parsed w:t element is all of its character data.", "quantifier": "all w:t elements", "why_tests_cant": "a test fixes one input; the claim is about every input of any size", "anchors": ["structtext.go:Text.UnmarshalXML"]}
{"id": "C47", "title": "Integers survive", "statement": "GetInt(strconv.Itoa(n)) = n and GetInt64 likewise for every 64-bit n, whatever ParseFloat does. An integer with a sign or leading zeros is read as its value; one that does not fit into 64 bits is never taken for another number modulo 2^64; a number with a unit such as 12pt is read as the number.", "quantifier": "all 64-bit integers, all strings that are or begin with a decimal integer", "why_tests_cant": "2^64 inputs", "anchors": ["helper.go:GetInt", "helper.go:GetInt64"]}
{"id": "C48", "title": "XML escaping is lossless on XML characters", "statement": "Writing any string as XML text or attribute value and reading it back gives the same string, with characters not allowed in XML replaced by U+FFFD.", "quantifier": "all strings", "why_tests_cant": "a test fixes one input; the claim is about every input of any size", "anchors": ["pack.go:marshaller.WriteTo (encoding/xml)"]}
{"id": "C49", "title": "A saved package has each part once", "statement": "Whatever order the file map is iterated in, the archive written by WriteTo has pairwise distinct entry names: the template files, the document, its relationships and one entry per media name, and nothing else; a media name occurring twice gets the last content.", "quantifier": "all documents, all map iteration orders", "why_tests_cant": "map iteration order is random", "anchors": ["pack.go:pack"]}
{"id": "C50", "title": "Save then parse restores the package", "statement": "Parsing what WriteTo wrote gives back the same relationships, the same media by name, the same remaining files and the same body (up to what the XML round trip keeps), for every map iteration order.", "quantifier": "all documents with unique media names and numeric relationship ids", "why_tests_cant": "map iteration order is random; unbounded documents", "anchors": ["pack.go:pack", "unpack.go:unpack"]}
{"id": "C51", "title": "WriteTo is repeatable", "statement": "WriteTo does not modify the document and writing twice produces the same set of parts.", "quantifier": "all documents", "why_tests_cant": "a test fixes one input; the claim is about every input of any size", "anchors": ["pack.go:pack"]}
{"id": "C52", "title": "No error means a complete file", "statement": "If WriteTo returns a nil error then all bytes of the archive reached the writer.", "quantifier": "all documents and all points at which the writer starts failing", "why_tests_cant": "every crash point of the writer", "anchors": ["docx.go:WriteTo", "pack.go:pack"]}
{"id": "C53", "title": "Missing template file is reported", "statement": "If a template file cannot be opened WriteTo returns an error and writes no part.", "quantifier": "all templates and file systems", "why_tests_cant": "a test fixes one input; the claim is about every input of any size", "anchors": ["pack.go:pack"]}
{"id": "C54", "title": "Parse accepts exactly numeric rId relationship tables", "statement": "Parse of the relationship part succeeds exactly when every id is 'rId' followed by a decimal number below 2^64, and then the next generated number is one more than the largest.", "quantifier": "all relationship tables", "why_tests_cant": "a test fixes one input; the claim is about every input of any size", "anchors": ["unpack.go:parseDocRelation"]}
{"id": "C55", "title": "Every archive entry is classified once", "statement": "Unpacking puts every archive entry in exactly one place: document, relationships, media (under word/media/) or the list of other files, which keeps archive order.", "quantifier": "all archives", "why_tests_cant": "unbounded archives", "anchors": ["unpack.go:unpack"]}
{"id": "C56", "title": "LoadBodyItems serves its media and its links", "statement": "After LoadBodyItems(items, media), Media(name) returns the (last) media with that name, and AddLink on a loaded paragraph creates a link that resolves in the new document.", "quantifier": "all item and media lists", "why_tests_cant": "a test fixes one input; the claim is about every input of any size", "anchors": ["docx.go:LoadBodyItems"]}
{"id": "C57", "title": "Editing a file keeps its other parts", "statement": "Parsing a file and saving it succeeds, and the saved archive has for every part other than the document and its relationships exactly the bytes of the original, and no other parts.", "quantifier": "all archives that Parse accepts, all map iteration orders", "why_tests_cant": "unbounded archives; map iteration order is random", "anchors": ["unpack.go:unpack", "pack.go:pack"]}
{"id": "C58", "title": "Parse reads exactly the content of the file", "statement": "If Parse returns no error, the paragraphs, tables, rows, cells, hyperlinks, runs, texts, tabs, breaks and drawings of the parsed document are exactly those of the XML, in the same order and nesting, whatever else stands between them, and their run, paragraph, table, row and cell formatting and the page layout have exactly the values written in the XML.", "quantifier": "all XML trees", "why_tests_cant": "unbounded documents; unknown elements, white space and comments anywhere", "anchors": ["structdoc.go:Body.UnmarshalXML", "structpara.go:Paragraph.UnmarshalXML", "structrun.go:Run.parse", "structtable.go"]}
{"id": "C59", "title": "A saved file uses only declared name-space prefixes", "statement": "Every element and attribute of the saved document uses a name-space prefix declared on it or around it, for every history of API calls and for every parsed file that does so itself.", "quantifier": "all histories of API calls; all parsed files", "why_tests_cant": "the prefixes are plain strings in struct tags; nothing checks them", "anchors": ["structdoc.go:Document", "structdrawing.go:AGraphic", "structdrawing.go:WPCNvGraphicFramePr", "structdrawing.go:Picture", "structgroup.go"]}
{"id": "C60", "title": "The references of a saved file resolve", "statement": "Every relationship id that the saved main part refers to (links, pictures) has an entry in the relationships part saved with it, for every history of API calls and for every parsed file in which they do.", "quantifier": "all histories of API calls; all parsed files", "why_tests_cant": "ids are made by counters and copied between documents; nothing checks them", "anchors": ["apilink.go:AddLink", "structpara.go:Paragraph.UnmarshalXML", "structdrawing.go:copymedia", "structdoc.go:Paragraph.copymedia"]}
{"id": "C61", "title": "Calls write the WordprocessingML they stand for", "statement": "Every formatting and building call changes the saved XML exactly as ECMA-376 says for it: run, paragraph, table, row and cell setters set their element in the right properties element with the values given and change nothing else; AddText, AddTab, AddPageBreaks, AddLink, AddTable, AddTableTwips, pictures, shapes and page sizes add the elements they stand for.", "quantifier": "all calls, all arguments, all documents they are made on", "why_tests_cant": "a mistake made both when saving and when parsing passes every round-trip test", "anchors": ["apirun.go", "apipara.go", "apitext.go", "apilink.go", "apitable.go", "apidrawing.go", "apishape.go", "theme.go", "structrun.go:RunProperties", "structpara.go:ParagraphProperties"]}
{"id": "C62", "title": "Saved documents follow the content models of the standard", "statement": "The document part of a saved file contains, in every element, only the elements that ECMA-376 allows there, in the order it fixes and with the ones it requires.", "quantifier": "all documents: built with any history of calls, edited or parsed", "why_tests_cant": "a document is only checked against the schema when another program opens it, and a round-trip test accepts any order", "anchors": ["structpara.go:ParagraphProperties", "structnum.go", "structtable.go", "structdoc.go:Body", "structdrawing.go", "structshape.go", "structgroup.go", "theme.go", "apitable.go:AddTable"]}
{"id": "C63", "title": "A copy is separate from its source", "statement": "After AppendFile or SplitByParagraph, what is done to the one document (calls that add to it, setters, writes to texts, removing elements) does not change the other one; documents between which nothing was copied never influence each other.", "quantifier": "all histories of calls, setters and client writes on any number of documents, with the pointers that copies keep", "why_tests_cant": "tests look at the copy right after the call; whether a later setter reaches back into the source depends on every pointer that some copying function kept", "anchors": ["structdoc.go:AppendFile", "structdoc.go:SplitByParagraph", "structdoc.go:copymedia", "structdrawing.go:copymedia", "apirun.go", "apipara.go", "apitable.go", "apidrawing.go:Size"]}
{"id": "C64", "title": "Opened files are closed", "statement": "Every file that Parse opens in the archive and every template file that WriteTo opens is closed again when the call returns.", "quantifier": "all archives, with any unreadable or malformed entry, all documents and templates, all orders of writing, any number of saves", "why_tests_cant": "a forgotten Close has no effect on the result, so no test of results sees it, and error paths are many", "anchors": ["unpack.go:parseDocument", "unpack.go:parseDocRelation", "unpack.go:parseMedia", "pack.go:pack", "docx.go:WriteTo"]}
{"id": "C65", "title": "Documents made from shared slices are independent", "statement": "Adding a paragraph, table, page size or picture to a document made with LoadBodyItems does not change any other document, also when items or media were handed over as (part of) a slice that another document or the client uses.", "quantifier": "all histories of making documents from new or shared slices, adding elements and keeping elements; all capacities and growth policies of the runtime", "why_tests_cant": "whether an append writes into a shared array depends on lengths, capacities and the growth policy of the runtime; a test sees one of them", "anchors": ["docx.go:LoadBodyItems", "apipara.go:AddParagraph", "apitable.go:AddTable", "theme.go:WithA4Page", "media.go:addMedia", "structdoc.go:KeepElements"]}
{"id": "C66", "title": "White space at the ends of texts is kept", "statement": "The spaces at the beginning and end of every text added with AddText or read from a document are marked with xml:space=preserve in the saved document, so that readers keep them.", "quantifier": "all texts and paragraphs; all histories of calls with any number of documents; all parsed text elements; all merge rules", "why_tests_cant": "the mark is needed only for texts with outer white space, which tests seldom use, and its loss shows only in another program", "anchors": ["apitext.go:AddText", "structtext.go:Text", "structtext.go:UnmarshalXML", "structtext.go:MergeText"]}
{"id": "C67", "title": "Line breaks, indentation and comments between elements are not seen", "statement": "Comments, processing instructions and white space between the elements of document.xml change neither the body that Parse reads nor whether and how it fails; an indented document is read like the original.", "quantifier": "all documents; any number of insertions at any depth; all white space; anything before the root element", "why_tests_cant": "a test compares a few layouts; the reader has dozens of decoding loops, each with its own treatment of tokens that are not elements", "anchors": ["structdoc.go:UnmarshalXML", "structpara.go:UnmarshalXML", "structrun.go:UnmarshalXML", "structrun.go:parse", "structtable.go:UnmarshalXML", "structsect.go:UnmarshalXML"]}
{"id": "C68", "title": "Calls made with care never panic", "statement": "A program whose calls name documents and paragraphs that exist, ask for tables without negative sizes, add pictures that have a width, and split or append only documents whose paragraphs can be copied, never panics. A builder call panics exactly when this is not so. In a program without pictures any document may be split and appended and every paragraph and table can be printed. Documents that Parse returns may take part.", "quantifier": "all programs: all lengths, orders and arguments of calls, any number of documents, all parsed archives, all splitting rules", "why_tests_cant": "a test runs a few programs; a nil document pointer in some cell or paragraph only shows when a later call uses it", "anchors": ["apipara.go:AddParagraph", "apitable.go:AddTable", "apidrawing.go:AddInlineDrawing", "apilink.go:AddLink", "structdoc.go:AppendFile", "structdoc.go:SplitByParagraph", "structpara.go:String"]}
{"id": "C69", "title": "Work on separate documents is independent", "statement": "When several threads work at the same time, each on its own documents whose contents refer to no document of another thread, every document ends up exactly as if its thread had been alone, for every order in which the calls are made; the whole returns normally exactly when each thread alone would. A call changes no document outside the set it works on. If a document has taken over a paragraph of another one this fails: calls on that paragraph change the other document.", "quantifier": "all schedules of any number of threads, all programs of calls on existing documents, all contents", "why_tests_cant": "a test runs one or a few interleavings; the number of schedules grows exponentially", "anchors": ["apipara.go:AddParagraph", "apilink.go:AddLink", "apidrawing.go:AddInlineDrawing", "structdoc.go:AppendFile", "id.go:IncreaseID", "media.go:addMedia"]}
{"id": "C70", "title": "Opening and saving keeps content and formatting", "statement": "A file that is opened and saved without editing it says the same as before: the same paragraphs, tables and links in the same order, with the same texts, formatting and page layout. It does not in full: formatting switched off comes back switched on, numbering, links to bookmarks, space after paragraphs and right indentation are lost, zeros that override a style are lost, and the runs of a link are joined.", "quantifier": "all XML trees that are opened without an error", "why_tests_cant": "a test opens and saves a few files; every file a user opens is a new combination of elements and attributes", "anchors": ["structdoc.go:Body.UnmarshalXML", "structrun.go:RunProperties", "structpara.go:ParagraphProperties", "structtable.go:WTableProperties", "structlink.go:Hyperlink", "structsect.go:SectPr", "pack.go:pack"]}
{"id": "C71", "title": "Drawings are read and written as in the file", "statement": "Opening a file gives exactly the pictures, shapes, text boxes, canvases and groups that are in it, with their sizes, positions, turns, lines, fills, references to images and texts, however they are nested, together with everything around them; and saving writes them so that the file says the same. It does not when a number in the file is bad or an AlternateContent begins with white space, and the things that are never written are lost.", "quantifier": "all XML trees that are opened without an error, and all documents that are saved", "why_tests_cant": "drawings nest without limit (text boxes contain paragraphs, which contain drawings) and have some two hundred attributes that tests cannot combine; a field read and written under the same wrong name survives every round trip test", "anchors": ["structdrawing.go:WPInline.UnmarshalXML", "structdrawing.go:WPAnchor.UnmarshalXML", "structdrawing.go:AGraphicData.UnmarshalXML", "structshape.go:WordprocessingShape.UnmarshalXML", "structcanvas.go:WordprocessingCanvas.UnmarshalXML", "structgroup.go:WordprocessingGroup.UnmarshalXML", "structrun.go:Run.UnmarshalXML"]}
{"id": "C72", "title": "The command-line tool overwrites nothing", "statement": "With -a the command-line tool never changes the file it reads; no result of a run overwrites another one, at whatever point the run fails; a complete run prints the text of each paragraph and table in order, -p does not change that text, and it writes exactly the files its flags ask for, beside the file that was read: the document itself, the pieces of the split under their numbers, and one document with the asked number of copies of the body. For -d the name is wrong when the file is in a directory, and -s fails on a file whose name has no dot.", "quantifier": "all combinations of flags and file names, all documents, all points at which creating or writing a file fails", "why_tests_cant": "names are cut at the last slash and dot, and a clash of two names shows only for certain paths and combinations of flags; failures can come at any file", "anchors": ["cmd/main/main.go:main"]}
{"id": "C73", "title": "Work in several sessions", "statement": "A document is worked on in several sessions: it is saved, opened again later and changed further. What an id of a link stands for never changes, new ids never repeat old ones, the text and its formatting are as they were when the next session starts, and pictures and drawings of earlier sessions keep their data and ids beside new ones. For pictures and drawings this is false when the document was opened from a file: the counters start again at each opening, so that a new picture takes the place of one that was added in an earlier session, and ids of drawings are repeated.", "quantifier": "all documents, all histories of API calls on any number of documents, saved and opened again any number of times in between", "why_tests_cant": "a collision needs calls in two different sessions on the same file, and depends on the counters at each opening", "anchors": ["docx.go:Parse", "unpack.go:unpack", "unpack.go:parseDocument", "unpack.go:parseDocRelation", "image.go:addImage", "link.go:addLinkRelation", "link.go:addImageRelation", "apidrawing.go:AddInlineDrawing"]}
{"id": "C74", "title": "However the XML is written, it is read the same", "statement": "XML leaves much open to the program that writes it: the quotes, the white space in tags, which characters are written as references, <a/> or <a></a>, CDATA sections, the line ends, the declaration, comments, processing instructions and a document type. Whichever way the document and the relationships of a package are written, opening the package gives the same document, or the same error; what the library writes is one of the ways, and a saved package that another program rewrites is still read back. A text that consists of several pieces, such as a text followed by a CDATA section, is cut to its last piece.", "quantifier": "all trees with ASCII names, all ways to write them, all packages, all documents and saved packages", "why_tests_cant": "every program writes its XML differently, and a test has the files of a few programs", "anchors": ["unpack.go:parseDocument", "unpack.go:parseDocRelation", "pack.go:WriteTo", "structdoc.go:UnmarshalXML"]}
{"id": "C75", "title": "A package that breaks off is reported", "statement": "If word/document.xml or the table of relationships of a package is cut short at any byte, or reading it breaks off there, Parse either reports an error or gives exactly the document that it gives for the whole package; it never gives a shorter document. If the cut lies before the end of the root element (and the numbers in the part can be read) it always reports an error, and so it does for every cut of a saved package, and if one of these parts or a media file cannot be opened, or reading a media file breaks off.", "quantifier": "all packages, all bytes at which a part may be cut, all errors of the reader after it", "why_tests_cant": "a test cuts a few files at a few places; a cut may fall inside a character, a name, a reference or a comment", "anchors": ["unpack.go:unpack", "unpack.go:parseDocument", "unpack.go:parseDocRelation", "unpack.go:parseMedia", "structdoc.go:UnmarshalXML"]}
{"id": "C76", "title": "Other encodings and versions of XML are refused", "statement": "If the document or the table of relationships of a package begins with an XML declaration of another version than 1.0 or another encoding than UTF-8, Parse reports an error; its bytes are never taken for UTF-8.", "quantifier": "all declarations with a foreign version or encoding, all contents after it, all packages", "why_tests_cant": "a test tries a few encodings", "anchors": ["unpack.go:parseDocument", "unpack.go:parseDocRelation"]}
{"id": "C77", "title": "The table of relationships is where the standard puts it", "statement": "The table of relationships in a saved file is in the name space that the standard gives such tables, and every relationship that the library makes has the type of the standard: styles, theme, fonts, images in the media folder, external hyperlinks.", "quantifier": "all histories of calls on all documents, new or opened; all ways to write the table of an opened package", "why_tests_cant": "a test saves a few documents; the name space depends on how the opened package was written", "anchors": ["unpack.go:parseDocRelation", "docx.go:LoadBodyItems", "empty.go:newEmptyFile", "structdoc.go:SplitByParagraph", "link.go:addLinkRelation", "link.go:addImageRelation", "structrel.go:Relationships"]}
{"id": "C78", "title": "Every part of a saved package has a content type", "statement": "Every part of the archive that WriteTo writes has a content type in [Content_Types].xml, without which Word takes the file for damaged; in documents with the default theme the parts have the types of the standard and each picture the type of its format.", "quantifier": "all histories of calls on documents with the default theme and on opened packages, all formats of pictures, all ways to write the file of types", "why_tests_cant": "a test saves a few documents with pictures of one format", "anchors": ["theme.go:WithDefaultTheme", "fs.go:DefaultTemplateFilesList", "xml/default/[Content_Types].xml:Types", "pack.go:pack", "image.go:addImage", "apidrawing.go:AddInlineDrawing"]}
{"id": "C79", "title": "The root relationships lead to the document", "statement": "In the archive that WriteTo writes, the root relationships name exactly one document, and the part they name holds the body of the document that was saved.", "quantifier": "all histories of calls on documents with the default theme and on opened packages, all ways to write the root relationships", "why_tests_cant": "a test opens packages that have the document in word/document.xml", "anchors": ["theme.go:WithDefaultTheme", "xml/default/_rels/.rels:Relationships", "unpack.go:unpack", "pack.go:pack"]}
{"id": "C80", "title": "Prefixes in a document do not matter", "statement": "Two packages whose documents differ only in the prefixes of elements and attributes and in attributes the library does not know are opened to the same document with the same error; so renaming the prefixes of a document, with their declarations, changes nothing.", "quantifier": "all documents, readable or not, all ways to write them, all renamings of prefixes whose declarations inside the root element have no name that is also the name of an attribute the library reads", "why_tests_cant": "tests read files by one program, which uses the customary prefixes", "anchors": ["structdoc.go:UnmarshalXML", "unpack.go:parseDocument", "structdoc.go:getAtt", "structrun.go:parse", "structdrawing.go:UnmarshalXML"]}
{"id": "C81", "title": "The order of attributes does not matter", "statement": "Two packages whose documents and tables of relationships differ only in the order of attributes (and in prefixes and unknown attributes) are opened to the same document with the same error.", "quantifier": "all documents, readable or not, all ways to write them, all orders of attributes in all elements; elements with attributes in another order have well-formed numbers and no two attributes with the same local name", "why_tests_cant": "tests read files in which one program wrote the attributes in its order; the decoders have one attribute loop per element, and each could depend on the order", "anchors": ["structdoc.go:getAtt", "structeffects.go:UnmarshalXML", "structdrawing.go:UnmarshalXML", "structshape.go:UnmarshalXML", "structtable.go:UnmarshalXML", "structsect.go:UnmarshalXML", "structpara.go:UnmarshalXML", "structrel.go:Relationship"]}
{"id": "C82", "title": "Printing an opened file shows its text", "statement": "String of a paragraph or table of an opened package shows what the file says there: its texts, tabs and breaks in order, its links with their targets from the table of relationships, and the cells of a table row by row.", "quantifier": "all packages that can be opened, all ways to write their XML, all paragraphs and tables without drawings, without texts in links and with at most one paragraph in each cell", "why_tests_cant": "tests print documents they built; a file of another program has runs, links and tables in any number and any order, and its relationships anywhere in the table", "anchors": ["structpara.go:String", "structtable.go:String", "structlink.go:Hyperlink", "link.go:ReferTarget", "unpack.go:unpack"]}
{"id": "C83", "title": "Building one document from several goroutines", "statement": "When several goroutines add paragraphs, tables, links and pictures to one document at the same time, no two calls get the same relationship id, drawing number or picture name, and the lists of the document hold nothing foreign and nothing twice; entries may be lost. If the goroutines guard their calls with one mutex, every call returns if each goroutine gets its turn again and again, and the result is that of the calls made one after the other, those of each goroutine in its own order.", "quantifier": "all documents, all numbers of goroutines, all lists of calls, all schedules of their steps", "why_tests_cant": "the outcome depends on the schedule, and a test run sees one of them", "anchors": ["apipara.go:AddParagraph", "apitable.go:AddTable", "link.go:addLinkRelation", "link.go:addImageRelation", "media.go:addMedia", "image.go:addImage", "apidrawing.go:AddInlineDrawing", "id.go:IncreaseID"]}
{"id": "C84", "title": "Changing a picture obtained from Media", "statement": "A change made through the pointer that Media returns is a change of this picture of the document and of nothing else. This holds exactly as long as the pictures added since then fit into the room of the list; after that the change is lost.", "quantifier": "all documents, all pictures, all histories of additions and changes between the call of Media and the change, all growth rules of slices", "why_tests_cant": "whether the pointer still points into the list depends on the capacity of a slice, which tests do not see", "anchors": ["media.go:Media", "media.go:addMedia"]}
{"id": "C85", "title": "The relationships of a saved document lead to parts", "statement": "Every relationship in the saved table of relationships is external or names a part that is in the saved package: for an opened document if this held for the package, and for a document made by New, LoadBodyItems or a split exactly if its template has the styles, the theme and the fonts, as the default theme has.", "quantifier": "all histories of calls on any number of documents, all packages, all separators of a split, all templates", "why_tests_cant": "the table is built up by many calls, and the parts come from the template, the package and the pictures; a single missing part makes Word refuse the file", "anchors": ["structrel.go:Relationships", "link.go:addImageRelation", "link.go:addLinkRelation", "structdoc.go:SplitByParagraph", "pack.go:pack", "theme.go:WithDefaultTheme"]}
{"id": "C86", "title": "What can be opened and saved can be opened again, and nothing changes any more", "statement": "Whatever the bytes of a file were: if Parse succeeds and WriteTo succeeds, Parse of the result succeeds, with the same relationships, media and template names. If the names of the media are plain paths, WriteTo then succeeds again, and from the second saving on the archive has the same entries with the same bytes, however often it is opened and saved; from the first if the numbers of tblLook are digits.", "quantifier": "all archives, all bytes of their entries, all orders in which entries are written, any number of rounds", "why_tests_cant": "damaged or unusual XML, ids and names can take any path through the decoders; a string that can be read but not written, or a slow drift over many rounds, shows only for some of them", "anchors": ["unpack.go:unpack", "pack.go:pack", "docx.go:Parse", "docx.go:WriteTo", "structtable.go:WTableLook"]}
{"id": "C87", "title": "Every document that was saved can be opened again, whatever its strings are", "statement": "At any time in any program that makes, opens, copies, splits and changes documents with strings of any characters: if WriteTo succeeds, Parse of the result succeeds. Characters that XML cannot carry come back as U+FFFD; the items, texts, relationships and pictures are otherwise those of the document. Whether Parse succeeds depends on nothing but the form of the relationship ids.", "quantifier": "all programs, all strings in all fields of all structs, all orders of the entries", "why_tests_cant": "control characters and other characters outside XML can stand in any of some hundred string fields; one field written without replacing them makes the whole file unreadable", "anchors": ["pack.go:pack", "unpack.go:unpack", "apitext.go:AddText", "apilink.go:AddLink", "structpara.go:Paragraph"]}
{"id": "C88", "title": "A document can be saved over the file it was opened from", "statement": "After opening a file, changing the document and opening the same file for writing with os.Create, WriteTo saves the document, with all parts of the package.", "quantifier": "all packages, all calls between opening and saving, documents split off included", "why_tests_cant": "tests save to a new file or a buffer; that the other parts of the package are read only when the document is saved shows when the file behind it has changed by then", "anchors": ["unpack.go:unpack", "pack.go:pack", "docx.go:WriteTo", "docx.go:Parse"]}
{"id": "C89", "title": "Saving a document while another goroutine adds to it", "statement": "What was in the document when WriteTo began is in the saved file at the same place, and the file holds nothing that is not in the document when WriteTo returns. When a mutex excludes calls during WriteTo, the file is that of the document that the finished calls leave. Without one the references of the file resolve when only paragraphs, tables and text are added, or when the main part happens to be written before the relationships; otherwise a link can refer to nothing, and a picture can be missing.", "quantifier": "all documents, all lists of AddParagraph, AddTableTwips, AddText, AddLink, AddInlineDrawing and AddAnchorDrawing calls, all moments at which pack can read the document between their steps, both orders of the two parts", "why_tests_cant": "a test runs some schedules and one order of a Go map", "anchors": ["pack.go:pack", "docx.go:WriteTo", "link.go:addLinkRelation", "image.go:addImage", "media.go:addMedia", "apilink.go:AddLink", "apidrawing.go:AddInlineDrawing"]}
{"id": "C90", "title": "Joining the parts of a split gives the document again", "statement": "A document whose links resolve is split, and its parts are appended one after the other to a new document. The new document has a copy of every body element at its place, with the same text and formatting; links lead to the same targets and pictures have the same bytes. More generally, documents appended one after the other to a new document are all in it, in that order.", "quantifier": "all documents, rules, sets of open documents and lists of parts, with fewer than 2^64 relationships", "why_tests_cant": "a test joins the parts of some documents; each part has numbered its links and pictures anew", "anchors": ["structdoc.go:SplitByParagraph", "structdoc.go:AppendFile", "structdrawing.go:copymedia"]}
{"id": "C91", "title": "Splitting by text does to the texts what cutting a list does", "statement": "SplitByParagraph with SplitDocxByPlainTextRegex, for a document whose body paragraphs have no drawings and whose links resolve: the texts of the resulting documents are the texts of the body, cut before every paragraph whose text is accepted. Joining the parts in a new document and splitting it by the same rule gives the same texts again. Without drawings the split always returns.", "quantifier": "all documents, all sets of open documents, all predicates on texts in place of the regular expression, fewer than 2^64 relationships", "why_tests_cant": "a test compares the parts of some documents for some expressions", "anchors": ["structdoc.go:SplitByParagraph", "structdoc.go:SplitDocxByPlainTextRegex", "structdoc.go:AppendFile", "structpara.go:String"]}
{"id": "C92", "title": "The parts that are written are well-formed XML", "statement": "Whatever a document holds, built by calls, read from a file or changed by hand: if saving it succeeds, the main part and its relationships are well-formed XML. There is one root element and nothing but white space and the declaration outside of it, every end tag matches its start tag, names are ordinary names, and no element has the same attribute twice.", "quantifier": "all documents with any contents and any strings", "why_tests_cant": "a test reads back some documents; an attribute written twice or a bad name in one rarely used element is seen only by a document that has it", "anchors": ["structdoc.go:Document", "structrel.go:Relationship", "structpara.go:Paragraph", "structtable.go:Table", "structdrawing.go:Drawing", "structrun.go:Run", "pack.go:pack"]}
{"id": "C93", "title": "Cleaning calls can be made in any order and more than once", "statement": "What a body looks like after any sequence of Body.KeepElements and Body.DropDrawingOf calls depends only on which calls were made, not on their order or how often. Cleaning a cleaned body changes nothing. The texts that are left are exactly those of the items that every KeepElements keeps, unchanged.", "quantifier": "all bodies, all sequences of calls with any arguments", "why_tests_cant": "a test tries some orders on some bodies; the claim is about all sequences", "anchors": ["structdoc.go:KeepElements", "structdoc.go:DropDrawingOf", "structpara.go:DropShape", "structpara.go:DropNilPicture"]}
{"id": "C94", "title": "Files can be joined", "statement": "A program opens and builds any documents, appends some of them, each any number of times, to a new document, chooses a template, saves it and opens the result. If saving succeeds, the result opens; its texts are the texts of the documents one after the other, its links have the same labels and lead to the same targets, and its pictures have the same bytes. Only characters that XML cannot carry are replaced.", "quantifier": "all histories of calls and opened files, all lists of documents to be joined whose links resolve, fewer than 2^62 relationships; pictures if the targets of the relationships hold XML characters only", "why_tests_cant": "a test joins a few files; that ids and names of any number of files do not collide and nothing gets lost on the way through the saved file is about all of them", "anchors": ["docx.go:New", "structdoc.go:AppendFile", "docx.go:WriteTo", "docx.go:Parse"]}
{"id": "C95", "title": "A file can be split into files", "statement": "A program splits any document and saves the parts, each with any template. The parts take up the body piece by piece. If saving a part succeeds, the file opens; it holds the texts of its piece, its links have the same labels and lead to the same targets, and its pictures have the same bytes. Only characters that XML cannot carry are replaced.", "quantifier": "all histories of calls and opened files, all documents whose links resolve, all splitting rules, fewer than 2^62 relationships; pictures if the targets of the relationships hold XML characters only", "why_tests_cant": "a test splits a few files by a few rules", "anchors": ["structdoc.go:SplitByParagraph", "docx.go:WriteTo", "docx.go:Parse"]}
{"id": "C96", "title": "Threads with their own documents do not influence each other", "statement": "Any number of goroutines create, open, load, split, join and edit documents, each only its own, in any order. Each goroutine gets the documents it would get if it were alone: equally many, with the same contents, the same texts, saved as the same files. An action of one goroutine changes no document of another.", "quantifier": "all schedules of any number of threads, all calls of the API, all splitting rules on texts, all opened archives, all edits by the client that do not look at addresses", "why_tests_cant": "a race depends on the schedule; a test runs a few", "anchors": ["docx.go:New", "docx.go:Parse", "docx.go:LoadBodyItems", "structdoc.go:SplitByParagraph", "structdoc.go:AppendFile"]}
{"id": "C97", "title": "The files of the command-line tool hold what was read", "statement": "When a run of the command-line tool is complete, the files it wrote can be opened. The file of -u has all texts and links of the file that was read, also with -c and -p. The files of -s are the pieces of the body in order: a piece begins at every paragraph whose printed line matches, each file has exactly the texts and links of its piece, and together they have all of them. The file of -d n has the texts and links n times, after a page size.", "quantifier": "all files that can be opened, whose links have relationships and whose ids are below 2^62, all combinations of flags, all regular expressions, all file names with an extension", "why_tests_cant": "a test looks at one file and one set of flags", "anchors": ["cmd/main/main.go:main", "structdoc.go:SplitByParagraph", "structdoc.go:AppendFile", "docx.go:Parse", "docx.go:WriteTo"]}
{"id": "C98", "title": "What the calls build is what the file holds", "statement": "A program makes a document and builds it with AddParagraph, AddTable, AddTableTwips, AddText, AddTab, AddPageBreaks, AddLink, AddInlineDrawing, AddAnchorDrawing, AddInlineShape, AddAnchorShape, WithA3Page, WithA4Page, the paragraphs of table cells, the setters and Size, and takes things out again with KeepElements and DropDrawingOf of the body and KeepElements and the Drop methods of paragraphs, in any order. The document, and the document that is opened after it was saved with any template, shows exactly what the calls say: the same paragraphs, tables and pages in the same order, the same texts, tabs, line breaks and page breaks, every link with its label and address, every picture with its bytes, every shape with its size and kind. A picture that cannot be decoded adds nothing. Only characters that XML cannot carry are replaced.", "quantifier": "all programs of these calls that do not panic, with all arguments, and all templates without media", "why_tests_cant": "a test builds a few documents; here calls of all kinds are mixed, and any later call could spoil the links and pictures of an earlier one", "anchors": ["apipara.go:AddParagraph", "apitext.go:AddText", "apilink.go:AddLink", "apidrawing.go:AddInlineDrawing", "apishape.go:AddInlineShape", "apitable.go:AddTable", "theme.go:WithA4Page", "docx.go:WriteTo", "docx.go:Parse"]}
{"id": "C99", "title": "Programs with several documents", "statement": "A program makes documents with New, opens files with Parse, builds them with the calls of C98, gives them templates, appends documents to each other and to themselves with AppendFile, and splits them with SplitByParagraph by rules that look at what paragraphs show, in any order. Every document then shows exactly what the calls say: what was built in it and what was appended to it, in order, or the piece it was made from, every link with its address and every picture with its bytes; no call on one document changes what another shows. If a document is saved and opened, the program goes on with it as one more document that shows the same, with the characters that XML cannot carry replaced.", "quantifier": "all programs of these calls that do not panic, all files with only paragraphs, tables, page sizes, texts, tabs, breaks, links, pictures and shapes, whose media are not named like the pictures added next", "why_tests_cant": "a test joins two documents; ids and media names clash only in some orders of building, opening and joining", "anchors": ["structdoc.go:AppendFile", "docx.go:Parse", "docx.go:New", "docx.go:WriteTo", "apilink.go:AddLink", "apidrawing.go:AddInlineDrawing", "structdrawing.go:copymedia"]}
{"id": "C100", "title": "Cutting a document of a program by its texts", "statement": "A program with several documents, built, opened and joined as in C99, cuts one of them with SplitByParagraph and SplitDocxByPlainTextRegex. There is one new document for every piece of what the document shows, cut before every paragraph whose printed text matches, and it shows exactly that piece, links and pictures included; the old documents show what they showed. The program goes on with all of them, and each piece, saved and opened, shows the same with the characters that XML cannot carry replaced.", "quantifier": "all programs of C99 that also split, all regular expressions (any predicate on strings), all documents whose paragraphs outside tables have no drawings", "why_tests_cant": "a test splits one document at one expression; links and pictures of the pieces get new ids and names that depend on everything before", "anchors": ["structdoc.go:SplitByParagraph", "structdoc.go:SplitDocxByPlainTextRegex", "structpara.go:String", "docx.go:WriteTo", "docx.go:Parse"]}
{"id": "C101", "title": "The formatting that calls set is in the file", "statement": "A program makes, opens, builds, formats, appends and splits documents, in any order and at any places. Every paragraph, run, link, table, row and cell then has the properties that the calls say and no others: chains of setters give every named property its last value, new tables have the widths, heights, borders and default colours they were made with, appended documents and the pieces of a split document keep their formatting. Any document of any program, saved and opened, has the same formatting, except that characters that XML cannot carry are replaced, the numbering of paragraphs is lost, columns without a width are lost, and numbers in the look of a table are reduced to their first digit.", "quantifier": "all programs of building, formatting, appending and splitting calls with any arguments; for saving: all documents of all programs", "why_tests_cant": "a test sets a few properties on one run and compares; the claim is about every combination of properties at every place, and that no call touches the formatting of anything else", "anchors": ["apirun.go:Color", "apirun.go:Font", "apipara.go:Justification", "apitable.go:AddTable", "apitable.go:AddTableTwips", "apitable.go:Justification", "structdoc.go:SplitByParagraph", "structdoc.go:AppendFile", "docx.go:WriteTo", "docx.go:Parse"]}
{"id": "C102", "title": "Whether a program of building calls returns can be read off its calls", "statement": "A building call on a document returns exactly if the paragraph it is made on was built by the calls before it, the number of rows of a new table is not negative and neither is the number of columns if there is a row, and a picture that can be decoded is not 0 wide. Otherwise it panics; no call ends in any other way. So a program that makes a document and then makes calls in any order runs to its end exactly if every call finds what it needs in what the calls before it say.", "quantifier": "all programs of building calls with any arguments, on any document of any program", "why_tests_cant": "a test runs programs that return; the claim is an exact condition for every program, in both directions", "anchors": ["apitext.go:AddText", "apilink.go:AddLink", "apitable.go:AddTable", "apidrawing.go:AddInlineDrawing", "apidrawing.go:AddAnchorDrawing", "apishape.go:AddInlineShape"]}
{"id": "C103", "title": "The demonstration document of the tool", "statement": "Run without -a, the command-line tool builds its demonstration document without a panic exactly if its three pictures can be read and decoded and are not 0 wide. The document then shows exactly the pictures, texts, tabs, link, tables and shapes that the program asks for, has exactly the formatting it asks for, its drawings with the sizes and places it asks for, and the default theme, and is the first file the tool writes. Saved and opened again, it shows the same with the same formatting, sizes and places.", "quantifier": "all contents of the three picture files, all picture decoders, all files of the theme, all orders in which the parts of the file are written, all flags of the tool", "why_tests_cant": "the tool is only ever run with its own test pictures, and nothing compares what is in the file with what was asked for", "anchors": ["cmd/main/main.go:main", "docx.go:WriteTo", "docx.go:Parse", "apitable.go:AddTableTwips", "apishape.go:AddAnchorShape"]}
{"id": "C104", "title": "The sizes and places of drawings that calls set are in the document and in the file", "statement": "After any program of building calls, every picture and shape of the document takes the space, is drawn with the size, and has the place and the transparency that the last call or assignment that sets them gave, and there are no others. New pictures and shapes are drawn as large as the space they take; Size changes both for a picture, and only the space for a shape. Appending and splitting documents keeps sizes and places, and makes translucent pictures opaque. Saving and opening keeps all of it.", "quantifier": "all programs of building calls on any number of documents, made or opened, at any places with any arguments, with appending and splitting; all orders in which the parts of the file are written", "why_tests_cant": "the last setting wins only if no later call on another drawing or document touches it, which is about every sequence of calls; tests compare no sizes after copying or saving", "anchors": ["apidrawing.go:AddInlineDrawing", "apidrawing.go:AddAnchorDrawing", "apidrawing.go:Size", "apishape.go:AddInlineShape", "structdrawing.go:copymedia", "structdoc.go:AppendFile", "docx.go:WriteTo"]}
{"id": "C105", "title": "The text of a document is what the calls put into it, also in the file", "statement": "In a program that builds, opens, joins and cuts documents, String of a paragraph without pictures is what the calls put there: its texts, tabs, breaks, links with their targets and shapes with their kinds, in order. String of a table is a line for the columns and one line per row, with the first paragraph of each cell. After saving and opening, String gives the same text, with the characters that XML cannot carry replaced; then paragraphs with pictures are printed too, each picture with the MD5 sum of its bytes. Before that, in a document that calls have just built, String panics exactly where a picture is shown.", "quantifier": "all programs with any number of documents and any building calls, with opening, appending and splitting; all paragraphs and tables of all documents; all orders in which the parts of the file are written", "why_tests_cant": "the text depends on all earlier calls on all documents and on the relationships that copying renames; tests print a few fixed documents", "anchors": ["structpara.go:String", "structtable.go:String", "apitext.go:AddText", "apilink.go:AddLink", "structdoc.go:AppendFile", "docx.go:WriteTo", "docx.go:Parse"]}
{"id": "C106", "title": "Strings and byte slices that share memory", "statement": "BytesToString gives a string with the bytes of the slice, StringToBytes a slice with the bytes of the string; nothing else changes. Appending to what StringToBytes gives makes the bytes of the string and the new ones and changes no string. As long as a program assigns to no element of a slice and appends only to slices without room, no string changes. An assignment b[k] = x changes exactly the bytes of strings that lie at that place of memory, so a string from BytesToString(b) follows b.", "quantifier": "all programs of conversions, assignments, appends and slicings in any order, on any number of strings and slices; all bytes and places; all ways in which append chooses the new capacity", "why_tests_cant": "whether a string changes depends on which headers share an array after all earlier operations; tests convert one value and compare it at once", "anchors": ["helper.go:BytesToString", "helper.go:StringToBytes", "slice.go:slice"]}
{"id": "C107", "title": "Tables keep their rows and cells", "statement": "After any building calls a document has the tables that AddTable and AddTableTwips made, in order, with the rows and cells they were asked for; only KeepElements on the body removes tables. All rows of such a table have the same number of cells. Saving and opening keeps the tables of every document of every program. AppendFile adds the tables of its source and changes no other; the documents of a split have the tables of the document that was split, one after the other.", "quantifier": "all sequences of building calls with any arguments and places; all programs with any number of documents; all orders in which the parts of the file are written", "why_tests_cant": "later calls at other places could change the rows of a table only for certain orders and indices; tests look at single tables right after they are made", "anchors": ["apitable.go:AddTable", "apitable.go:AddTableTwips", "structdoc.go:KeepElements", "structdoc.go:AppendFile", "docx.go:WriteTo", "docx.go:Parse"]}
{"id": "C108", "title": "Documents given to functions that read", "statement": "A document is an io.Reader. io.Copy of a document, itself or in an io.NopCloser or bufio.Reader, does what WriteTo does, with the same errors, and returns how many bytes it wrote. Read in any other way, also through io.LimitReader and io.TeeReader, a document gives no byte and os.ErrInvalid, unless 0 bytes are asked for; so without an error there is the complete file or nothing that was asked for, never a part of a file.", "quantifier": "all documents, all compositions of the readers, reads of all lengths, all writers", "why_tests_cant": "compositions of readers have no bound, and which of them pass on WriteTo depends on their order", "anchors": ["docx.go:Read", "docx.go:WriteTo"]}
