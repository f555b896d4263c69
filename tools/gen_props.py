#!/usr/bin/env python3
# Generates /verif/properties.jsonl
import json
P=[]
def p(title, statement, quantifier, why, *anchors):
    P.append(dict(id="C%02d"%(len(P)+1), title=title, statement=statement, quantifier=quantifier,
                  why_tests_cant=why, anchors=list(anchors)))
H="a test fixes one history; the claim is about every history of calls"
I="a test fixes one input; the claim is about every input of any size"
# --- identifiers, relationships, media
p("Relationship ids stay unique","In a document started with New (or LoadBodyItems, or produced by SplitByParagraph), after any sequence of AddLink, AddInlineDrawing/AddAnchorDrawing, AddShape, AppendFile and paragraph/table calls, no two relationships seen by RangeRelationships have the same ID, as long as fewer than 2^63 ids were handed out.","all finite histories of API calls",H,"link.go:addLinkRelation","link.go:addImageRelation","apirel.go:RangeRelationships","docx.go:LoadBodyItems","empty.go:newEmptyFile")
p("A link id keeps resolving to its link","The ID in the Hyperlink returned by AddLink(text, link) resolves through ReferTarget to exactly link, immediately and after any later sequence of API calls on the document.","all documents with unique ids, all links, all later histories",H,"apilink.go:AddLink","link.go:addLinkRelation","link.go:ReferTarget")
p("New ids on a parsed document are fresh","After Parse succeeds, an id handed out by AddLink or an image call differs from every relationship id in the parsed file, unless the counter has been driven past the largest 64-bit value.","all parsed relationship tables, all later histories","the ids in the file are attacker/author chosen; only the maximum is tracked","unpack.go:parseDocRelation","link.go:addLinkRelation")
p("Relationship lookup is exact","ReferTarget(id) returns the target of the first relationship with that id and ErrRefIDNotFound exactly when there is none; ReferID(target) is the same by target; and when ids are unique ReferTarget(ReferID(t)) = t.","all relationship tables, ids and targets",I,"link.go:ReferTarget","link.go:ReferID")
p("RangeRelationships visits in order, stops at the first error, and cannot edit the document","RangeRelationships calls the callback once per relationship in document order, stops at and returns the first error, and whatever the callback does to the relationship it is handed the document's relationships are unchanged.","all documents and all callbacks (including ones that mutate their argument)","callback is an arbitrary function","apirel.go:RangeRelationships")
p("Generated media names never collide","The media name generated for an added or copied picture is different from the name of every media already in the document, so no existing picture is shadowed or overwritten when saving.","all documents (New, Parse, LoadBodyItems, split), all histories","depends on the names already in an arbitrary file","image.go:addImage","media.go:addMedia","unpack.go:unpack","docx.go:LoadBodyItems")
p("A stored picture stays retrievable","After a picture with bytes b is added, the relationship id stored in the picture resolves to 'media/<name>' and Media(<name>) returns b, immediately and after any later API calls (on documents whose generated names are fresh).","all documents started by New, all pictures, all later histories",H,"apidrawing.go:AddInlineDrawing","apidrawing.go:AddAnchorDrawing","image.go:addImage","media.go:Media")
p("IncreaseID is linearizable","When any number of goroutines call IncreaseID on one document, in every interleaving the values returned for one name are pairwise distinct and are exactly 1..n in lock order, and names do not interfere.","all schedules of any number of goroutines and calls","the scheduler is not under the test's control","id.go:IncreaseID")
p("Concurrent AddLink: ids distinct, list may lose entries","In every interleaving of concurrent relationship additions the ids handed out are pairwise distinct (atomic counter); the relationship list itself is documented as not thread-safe and some interleaving loses an entry.","all schedules of any number of goroutines","race outcome depends on the schedule","link.go:addLinkRelation")
p("Drawing ids are unique","In a document started with New, the docPr ids of all drawings created by AddInlineDrawing, AddAnchorDrawing, AddInlineShape, AddAnchorShape or copied in by AppendFile are pairwise distinct.","all histories of drawing calls",H,"apidrawing.go","apishape.go","structdrawing.go:WPInline.copymedia")
# --- construction
p("Body is append-only","AddParagraph, AddTable, AddTableTwips, WithA3Page and WithA4Page add exactly one item at the end of Document.Body.Items and leave every existing item, relationship and media unchanged.","all documents and all arguments",I,"apipara.go:AddParagraph","apitable.go","theme.go")
p("AddText round-trips through String","After p.AddText(s), p.String() is the previous String followed by exactly s, for every s (tabs and newlines included), and the created Text children contain no tab or newline and are non-empty.","all strings and all paragraphs","strings with arbitrary mixes of tabs and newlines","apitext.go:AddText","structpara.go:String")
p("AddLink is visible in String","After p.AddLink(text, link), p.String() is the previous String followed by [text](link), for every text and link.","all paragraphs, texts and links",I,"apilink.go:AddLink","structpara.go:String")
p("Setters: last write wins, nothing else moves","Each Run/Paragraph/Table/Row/Cell setter makes its own property equal to its argument, leaves every other property, the children and the String unchanged, and a second call overrides the first.","all runs, paragraphs and tables and all arguments; all setter sequences",H,"apirun.go","apipara.go","apitable.go")
p("Run setters never panic on library-built runs","Runs returned by AddText, AddTab, AddPageBreaks, AddLink, AddInlineDrawing, AddInlineShape and friends have run properties, so any chain of Color/Size/Bold/... calls on them cannot panic; on a run with no run properties (a parsed run without rPr) every such setter panics.","all runs and all setter chains",H,"apirun.go","apitext.go","structrun.go:UnmarshalXML")
p("Table dimensions","AddTable(r, c, ...) and AddTableTwips(hs, ws, ...) return a table with exactly r (len hs) rows of exactly c (len ws) cells, with the given heights and widths, and panic exactly when r < 0, or r > 0 and c < 0.","all dimensions and width/height lists",I,"apitable.go:AddTable","apitable.go:AddTableTwips")
p("Border colours default per side","Each border of a created table has the requested colour, or #000000 where the requested colour is empty or no colours were given; the caller's struct is updated the same way.","all colour structs",I,"apitable.go:applyDefault")
p("Picture scaling","For every picture size with positive width the display width is A4_EMU_MAX_WIDTH when width/height > 1.2 and half of it otherwise, the height is the proportional one rounded down, and the call panics exactly when the decoded width is 0.","all picture sizes",I,"apidrawing.go:AddInlineDrawing","apidrawing.go:AddAnchorDrawing","structdrawing.go:A4_EMU_MAX_WIDTH")
p("Drawing Size sets both extents only","WPInline.Size / WPAnchor.Size set the outer extent and the picture's shape extent to (w,h) when present and change nothing else.","all drawings and sizes",I,"apidrawing.go:Size")
p("Failed picture calls change nothing","If the picture cannot be decoded, AddInlineDrawing/AddAnchorDrawing return an error and the document and paragraph are exactly as before.","all documents, paragraphs and undecodable inputs",I,"apidrawing.go")
# --- text operations
p("KeepElements is a filter","KeepElements(names...) on a body, paragraph or run keeps exactly the elements whose type is named, in order; it is idempotent and the order and repetition of names is irrelevant.","all element lists and name lists",I,"structdoc.go:Body.KeepElements","structpara.go:KeepElements","structrun.go:KeepElements")
p("Drop* removes exactly the matching drawings","DropShape/DropCanvas/DropGroup/DropShapeAndCanvas/DropShapeAndCanvasAndGroup remove from the runs of the paragraph exactly the drawings of that kind, keep everything else in order, are idempotent, and the combined ones equal the composition of the single ones.","all paragraphs",I,"structpara.go:DropCanvas","structpara.go:DropShape","structpara.go:DropGroup")
p("DropNilPicture leaves only pictures","After DropNilPicture every remaining drawing in the runs of the paragraph carries a picture in each of its present containers (so rendering it never meets a nil graphic), and drawings that do carry one are kept.","all paragraphs",I,"structpara.go:DropNilPicture")
p("DropDrawingOf reaches every paragraph","Body.DropDrawingOf(name) applies the named drop to every body paragraph and every paragraph of every table cell, and an unknown name changes nothing.","all bodies and names",I,"structdoc.go:DropDrawingOf")
p("MergeText preserves the text","p.MergeText(rule).String() = p.String() for every rule.","all paragraphs and all merge rules","run structure is arbitrary and the rule is an arbitrary function","structtext.go:MergeText")
p("MergeText does not touch its receiver","MergeText leaves the paragraph it is called on, its runs and their texts unchanged.","all paragraphs and rules","aliasing through pointers","structtext.go:MergeText")
p("MergeSamePropRuns compares exactly the formatting","MergeSamePropRuns is an equivalence relation on runs and holds exactly when the two runs have the same formatting (both none, or every property equal by value).","all pairs of runs",I,"structtext.go:MergeSamePropRuns")
p("MergeSamePropRunsOf refines by names","Adding names to MergeSamePropRunsOf only makes it merge less; with all property names it is MergeSamePropRuns; it depends only on the named properties; a name that is no property panics as soon as two distinct property sets are compared.","all name lists and runs",I,"structtext.go:MergeSamePropRunsOf")
p("MergeText keeps formatting and maximally merges","With an equivalence rule such as MergeSamePropRuns no run of the result can be merged with the next run of the result, the result never has more runs, and merging again changes nothing (on paragraphs with no other children between runs).","all paragraphs",I,"structtext.go:MergeText")
p("Table text has one line per row","Table.String is empty exactly when there is no row or the first row has no cell; otherwise it is a header line plus one line per row, with the first paragraph of each cell.","all tables",I,"structtable.go:String")
p("Rendering to text never panics","Paragraph.String and Table.String return normally for every document built through the API or returned by Parse.","all documents","nil pointers hide in rare shapes","structpara.go:String","structdrawing.go:WPInline.String","structdrawing.go:WPAnchor.String")
# --- split / append
p("SplitByParagraph partitions the body","The items of the resulting documents, concatenated in order, are the copies of the items of the original, none lost, duplicated or reordered; every resulting document is non-empty; an empty body gives no documents.","all bodies and all separator rules","separator is an arbitrary function","structdoc.go:SplitByParagraph")
p("SplitByParagraph cuts exactly at separators","Every resulting document but the first starts with a separator paragraph, and no separator paragraph occurs anywhere except as the first item of a resulting document.","all bodies and separator rules","separator is an arbitrary function","structdoc.go:SplitByParagraph")
p("Split and append keep links working","Every hyperlink of a document produced by SplitByParagraph or extended by AppendFile resolves, in that document, to the target it had in its source document.","all documents and rules",I,"structdoc.go:Paragraph.copymedia","link.go")
p("Split and append keep pictures working","Every picture copied by SplitByParagraph or AppendFile resolves, in the new document, to media with the bytes it had in the source document.","all documents and rules",I,"structdrawing.go:copymedia","image.go")
p("Split and append keep all text","The text (String) of every paragraph is the same before and after SplitByParagraph or AppendFile.","all documents and rules",I,"structdoc.go:copymedia","structdrawing.go:copymedia")
p("AppendFile appends and leaves the source alone","f.AppendFile(af): the old items, relationships and media of f are kept as a prefix, exactly len(af items) items are added, and af (when not f) is unchanged.","all pairs of documents",I,"structdoc.go:AppendFile")
p("Self-append doubles","f.AppendFile(f) terminates and appends one copy of each original item whose links resolve as in the original.","all documents","appending to the list being iterated","structdoc.go:AppendFile")
p("Split and append never panic","SplitByParagraph and AppendFile return normally for every document built through the API or returned by Parse.","all documents","nil pointers hide in rare shapes","structdrawing.go:copymedia")
# --- xml
p("Parsing terminates","For every token stream, well formed or not, unmarshalling a document stops; it returns a document or an error.","all token streams","non-termination cannot be observed by a test","structdoc.go:UnmarshalXML","structrun.go:parse")
p("Save then parse is the identity","Unmarshalling the XML marshalled from a document gives back the same body: same items, same order, same properties, same text.","all documents of any size and nesting",I,"structdoc.go","structpara.go","structrun.go","structtext.go","structtable.go","structsect.go","structdrawing.go","structshape.go","structcanvas.go","structgroup.go")
p("Parsed documents are stable","For a parsed document, saving and parsing again gives the same document (a second round trip loses nothing more).","all token streams",I,"structdoc.go","structtable.go:WTableLook")
p("Unsupported elements are ignored","Inserting any well-formed element with an unsupported name among the children of document, body, paragraph, run, table, row or cell does not change what is parsed.","all documents, positions and unsupported subtrees",I,"structdoc.go:Body.UnmarshalXML","structpara.go:Paragraph.UnmarshalXML","structrun.go:Run.parse")
p("A bad number never truncates the document","If Parse returns no error the parsed body contains every paragraph of the file, even if some attribute that should be a number is not one.","all token streams","error path shared by dozens of readers","helper.go:GetInt","structdoc.go:Body.UnmarshalXML")
p("AlternateContent takes the supported choice","A run containing mc:AlternateContent whose supported Choice holds a drawing parses to that drawing followed by the run's later children, whatever whitespace, other choices and fallback surround it.","all runs and all surrounding content",I,"structrun.go:Run.parse")
p("Text elements keep all their character data","The text of a parsed w:t element is all of its character data.","all w:t elements",I,"structtext.go:Text.UnmarshalXML")
p("Integers survive","GetInt(strconv.Itoa(n)) = n and GetInt64 likewise for every 64-bit n, whatever ParseFloat does. An integer with a sign or leading zeros is read as its value; one that does not fit into 64 bits is never taken for another number modulo 2^64; a number with a unit such as 12pt is read as the number.","all 64-bit integers, all strings that are or begin with a decimal integer","2^64 inputs","helper.go:GetInt","helper.go:GetInt64")
p("XML escaping is lossless on XML characters","Writing any string as XML text or attribute value and reading it back gives the same string, with characters not allowed in XML replaced by U+FFFD.","all strings",I,"pack.go:marshaller.WriteTo (encoding/xml)")
# --- packaging
p("A saved package has each part once","Whatever order the file map is iterated in, the archive written by WriteTo has pairwise distinct entry names: the template files, the document, its relationships and one entry per media name, and nothing else; a media name occurring twice gets the last content.","all documents, all map iteration orders","map iteration order is random","pack.go:pack")
p("Save then parse restores the package","Parsing what WriteTo wrote gives back the same relationships, the same media by name, the same remaining files and the same body (up to what the XML round trip keeps), for every map iteration order.","all documents with unique media names and numeric relationship ids","map iteration order is random; unbounded documents","pack.go:pack","unpack.go:unpack")
p("WriteTo is repeatable","WriteTo does not modify the document and writing twice produces the same set of parts.","all documents",I,"pack.go:pack")
p("No error means a complete file","If WriteTo returns a nil error then all bytes of the archive reached the writer.","all documents and all points at which the writer starts failing","every crash point of the writer","docx.go:WriteTo","pack.go:pack")
p("Missing template file is reported","If a template file cannot be opened WriteTo returns an error and writes no part.","all templates and file systems",I,"pack.go:pack")
p("Parse accepts exactly numeric rId relationship tables","Parse of the relationship part succeeds exactly when every id is 'rId' followed by a decimal number below 2^64, and then the next generated number is one more than the largest.","all relationship tables",I,"unpack.go:parseDocRelation")
p("Every archive entry is classified once","Unpacking puts every archive entry in exactly one place: document, relationships, media (under word/media/) or the list of other files, which keeps archive order.","all archives","unbounded archives","unpack.go:unpack")
p("LoadBodyItems serves its media and its links","After LoadBodyItems(items, media), Media(name) returns the (last) media with that name, and AddLink on a loaded paragraph creates a link that resolves in the new document.","all item and media lists",I,"docx.go:LoadBodyItems")
# --- appended as the model grew
p("Editing a file keeps its other parts","Parsing a file and saving it succeeds, and the saved archive has for every part other than the document and its relationships exactly the bytes of the original, and no other parts.","all archives that Parse accepts, all map iteration orders","unbounded archives; map iteration order is random","unpack.go:unpack","pack.go:pack")
p("Parse reads exactly the content of the file","If Parse returns no error, the paragraphs, tables, rows, cells, hyperlinks, runs, texts, tabs, breaks and drawings of the parsed document are exactly those of the XML, in the same order and nesting, whatever else stands between them, and their run, paragraph, table, row and cell formatting and the page layout have exactly the values written in the XML.","all XML trees","unbounded documents; unknown elements, white space and comments anywhere","structdoc.go:Body.UnmarshalXML","structpara.go:Paragraph.UnmarshalXML","structrun.go:Run.parse","structtable.go")
p("A saved file uses only declared name-space prefixes","Every element and attribute of the saved document uses a name-space prefix declared on it or around it, for every history of API calls and for every parsed file that does so itself.","all histories of API calls; all parsed files","the prefixes are plain strings in struct tags; nothing checks them","structdoc.go:Document","structdrawing.go:AGraphic","structdrawing.go:WPCNvGraphicFramePr","structdrawing.go:Picture","structgroup.go")
p("The references of a saved file resolve","Every relationship id that the saved main part refers to (links, pictures) has an entry in the relationships part saved with it, for every history of API calls and for every parsed file in which they do.","all histories of API calls; all parsed files","ids are made by counters and copied between documents; nothing checks them","apilink.go:AddLink","structpara.go:Paragraph.UnmarshalXML","structdrawing.go:copymedia","structdoc.go:Paragraph.copymedia")
p("Calls write the WordprocessingML they stand for","Every formatting and building call changes the saved XML exactly as ECMA-376 says for it: run, paragraph, table, row and cell setters set their element in the right properties element with the values given and change nothing else; AddText, AddTab, AddPageBreaks, AddLink, AddTable, AddTableTwips, pictures, shapes and page sizes add the elements they stand for.","all calls, all arguments, all documents they are made on","a mistake made both when saving and when parsing passes every round-trip test","apirun.go","apipara.go","apitext.go","apilink.go","apitable.go","apidrawing.go","apishape.go","theme.go","structrun.go:RunProperties","structpara.go:ParagraphProperties")
p("Saved documents follow the content models of the standard","The document part of a saved file contains, in every element, only the elements that ECMA-376 allows there, in the order it fixes and with the ones it requires.","all documents: built with any history of calls, edited or parsed","a document is only checked against the schema when another program opens it, and a round-trip test accepts any order","structpara.go:ParagraphProperties","structnum.go","structtable.go","structdoc.go:Body","structdrawing.go","structshape.go","structgroup.go","theme.go","apitable.go:AddTable")
p("A copy is separate from its source","After AppendFile or SplitByParagraph, what is done to the one document (calls that add to it, setters, writes to texts, removing elements) does not change the other one; documents between which nothing was copied never influence each other.","all histories of calls, setters and client writes on any number of documents, with the pointers that copies keep","tests look at the copy right after the call; whether a later setter reaches back into the source depends on every pointer that some copying function kept","structdoc.go:AppendFile","structdoc.go:SplitByParagraph","structdoc.go:copymedia","structdrawing.go:copymedia","apirun.go","apipara.go","apitable.go","apidrawing.go:Size")
p("Opened files are closed","Every file that Parse opens in the archive and every template file that WriteTo opens is closed again when the call returns.","all archives, with any unreadable or malformed entry, all documents and templates, all orders of writing, any number of saves","a forgotten Close has no effect on the result, so no test of results sees it, and error paths are many","unpack.go:parseDocument","unpack.go:parseDocRelation","unpack.go:parseMedia","pack.go:pack","docx.go:WriteTo")
p("Documents made from shared slices are independent","Adding a paragraph, table, page size or picture to a document made with LoadBodyItems does not change any other document, also when items or media were handed over as (part of) a slice that another document or the client uses.","all histories of making documents from new or shared slices, adding elements and keeping elements; all capacities and growth policies of the runtime","whether an append writes into a shared array depends on lengths, capacities and the growth policy of the runtime; a test sees one of them","docx.go:LoadBodyItems","apipara.go:AddParagraph","apitable.go:AddTable","theme.go:WithA4Page","media.go:addMedia","structdoc.go:KeepElements")
p("White space at the ends of texts is kept","The spaces at the beginning and end of every text added with AddText or read from a document are marked with xml:space=preserve in the saved document, so that readers keep them.","all texts and paragraphs; all histories of calls with any number of documents; all parsed text elements; all merge rules","the mark is needed only for texts with outer white space, which tests seldom use, and its loss shows only in another program","apitext.go:AddText","structtext.go:Text","structtext.go:UnmarshalXML","structtext.go:MergeText")
p("Line breaks, indentation and comments between elements are not seen","Comments, processing instructions and white space between the elements of document.xml change neither the body that Parse reads nor whether and how it fails; an indented document is read like the original.","all documents; any number of insertions at any depth; all white space; anything before the root element","a test compares a few layouts; the reader has dozens of decoding loops, each with its own treatment of tokens that are not elements","structdoc.go:UnmarshalXML","structpara.go:UnmarshalXML","structrun.go:UnmarshalXML","structrun.go:parse","structtable.go:UnmarshalXML","structsect.go:UnmarshalXML")
p("Calls made with care never panic","A program whose calls name documents and paragraphs that exist, ask for tables without negative sizes, add pictures that have a width, and split or append only documents whose paragraphs can be copied, never panics. A builder call panics exactly when this is not so. In a program without pictures any document may be split and appended and every paragraph and table can be printed. Documents that Parse returns may take part.","all programs: all lengths, orders and arguments of calls, any number of documents, all parsed archives, all splitting rules","a test runs a few programs; a nil document pointer in some cell or paragraph only shows when a later call uses it","apipara.go:AddParagraph","apitable.go:AddTable","apidrawing.go:AddInlineDrawing","apilink.go:AddLink","structdoc.go:AppendFile","structdoc.go:SplitByParagraph","structpara.go:String")
p("Work on separate documents is independent","When several threads work at the same time, each on its own documents whose contents refer to no document of another thread, every document ends up exactly as if its thread had been alone, for every order in which the calls are made; the whole returns normally exactly when each thread alone would. A call changes no document outside the set it works on. If a document has taken over a paragraph of another one this fails: calls on that paragraph change the other document.","all schedules of any number of threads, all programs of calls on existing documents, all contents","a test runs one or a few interleavings; the number of schedules grows exponentially","apipara.go:AddParagraph","apilink.go:AddLink","apidrawing.go:AddInlineDrawing","structdoc.go:AppendFile","id.go:IncreaseID","media.go:addMedia")
p("Opening and saving keeps content and formatting","A file that is opened and saved without editing it says the same as before: the same paragraphs, tables and links in the same order, with the same texts, formatting and page layout. It does not in full: formatting switched off comes back switched on, numbering, links to bookmarks, space after paragraphs and right indentation are lost, zeros that override a style are lost, and the runs of a link are joined.","all XML trees that are opened without an error","a test opens and saves a few files; every file a user opens is a new combination of elements and attributes","structdoc.go:Body.UnmarshalXML","structrun.go:RunProperties","structpara.go:ParagraphProperties","structtable.go:WTableProperties","structlink.go:Hyperlink","structsect.go:SectPr","pack.go:pack")
p("Drawings are read and written as in the file","Opening a file gives exactly the pictures, shapes, text boxes, canvases and groups that are in it, with their sizes, positions, turns, lines, fills, references to images and texts, however they are nested, together with everything around them; and saving writes them so that the file says the same. It does not when a number in the file is bad or an AlternateContent begins with white space, and the things that are never written are lost.","all XML trees that are opened without an error, and all documents that are saved","drawings nest without limit (text boxes contain paragraphs, which contain drawings) and have some two hundred attributes that tests cannot combine; a field read and written under the same wrong name survives every round trip test","structdrawing.go:WPInline.UnmarshalXML","structdrawing.go:WPAnchor.UnmarshalXML","structdrawing.go:AGraphicData.UnmarshalXML","structshape.go:WordprocessingShape.UnmarshalXML","structcanvas.go:WordprocessingCanvas.UnmarshalXML","structgroup.go:WordprocessingGroup.UnmarshalXML","structrun.go:Run.UnmarshalXML")
p("The command-line tool overwrites nothing","With -a the command-line tool never changes the file it reads; no result of a run overwrites another one, at whatever point the run fails; a complete run prints the text of each paragraph and table in order, -p does not change that text, and it writes exactly the files its flags ask for, beside the file that was read: the document itself, the pieces of the split under their numbers, and one document with the asked number of copies of the body. For -d the name is wrong when the file is in a directory, and -s fails on a file whose name has no dot.","all combinations of flags and file names, all documents, all points at which creating or writing a file fails","names are cut at the last slash and dot, and a clash of two names shows only for certain paths and combinations of flags; failures can come at any file","cmd/main/main.go:main")
p("Work in several sessions","A document is worked on in several sessions: it is saved, opened again later and changed further. What an id of a link stands for never changes, new ids never repeat old ones, the text and its formatting are as they were when the next session starts, and pictures and drawings of earlier sessions keep their data and ids beside new ones. For pictures and drawings this is false when the document was opened from a file: the counters start again at each opening, so that a new picture takes the place of one that was added in an earlier session, and ids of drawings are repeated.","all documents, all histories of API calls on any number of documents, saved and opened again any number of times in between","a collision needs calls in two different sessions on the same file, and depends on the counters at each opening","docx.go:Parse","unpack.go:unpack","unpack.go:parseDocument","unpack.go:parseDocRelation","image.go:addImage","link.go:addLinkRelation","link.go:addImageRelation","apidrawing.go:AddInlineDrawing")
p("However the XML is written, it is read the same","XML leaves much open to the program that writes it: the quotes, the white space in tags, which characters are written as references, <a/> or <a></a>, CDATA sections, the line ends, the declaration, comments, processing instructions and a document type. Whichever way the document and the relationships of a package are written, opening the package gives the same document, or the same error; what the library writes is one of the ways, and a saved package that another program rewrites is still read back. A text that consists of several pieces, such as a text followed by a CDATA section, is cut to its last piece.","all trees with ASCII names, all ways to write them, all packages, all documents and saved packages","every program writes its XML differently, and a test has the files of a few programs","unpack.go:parseDocument","unpack.go:parseDocRelation","pack.go:WriteTo","structdoc.go:UnmarshalXML")
p("A package that breaks off is reported","If word/document.xml or the table of relationships of a package is cut short at any byte, or reading it breaks off there, Parse either reports an error or gives exactly the document that it gives for the whole package; it never gives a shorter document. If the cut lies before the end of the root element (and the numbers in the part can be read) it always reports an error, and so it does for every cut of a saved package, and if one of these parts or a media file cannot be opened, or reading a media file breaks off.","all packages, all bytes at which a part may be cut, all errors of the reader after it","a test cuts a few files at a few places; a cut may fall inside a character, a name, a reference or a comment","unpack.go:unpack","unpack.go:parseDocument","unpack.go:parseDocRelation","unpack.go:parseMedia","structdoc.go:UnmarshalXML")
p("Other encodings and versions of XML are refused","If the document or the table of relationships of a package begins with an XML declaration of another version than 1.0 or another encoding than UTF-8, Parse reports an error; its bytes are never taken for UTF-8.","all declarations with a foreign version or encoding, all contents after it, all packages","a test tries a few encodings","unpack.go:parseDocument","unpack.go:parseDocRelation")
p("The table of relationships is where the standard puts it","The table of relationships in a saved file is in the name space that the standard gives such tables, and every relationship that the library makes has the type of the standard: styles, theme, fonts, images in the media folder, external hyperlinks.","all histories of calls on all documents, new or opened; all ways to write the table of an opened package","a test saves a few documents; the name space depends on how the opened package was written","unpack.go:parseDocRelation","docx.go:LoadBodyItems","empty.go:newEmptyFile","structdoc.go:SplitByParagraph","link.go:addLinkRelation","link.go:addImageRelation","structrel.go:Relationships")
p("Every part of a saved package has a content type","Every part of the archive that WriteTo writes has a content type in [Content_Types].xml, without which Word takes the file for damaged; in documents with the default theme the parts have the types of the standard and each picture the type of its format.","all histories of calls on documents with the default theme and on opened packages, all formats of pictures, all ways to write the file of types","a test saves a few documents with pictures of one format","theme.go:WithDefaultTheme","fs.go:DefaultTemplateFilesList","xml/default/[Content_Types].xml:Types","pack.go:pack","image.go:addImage","apidrawing.go:AddInlineDrawing")
p("The root relationships lead to the document","In the archive that WriteTo writes, the root relationships name exactly one document, and the part they name holds the body of the document that was saved.","all histories of calls on documents with the default theme and on opened packages, all ways to write the root relationships","a test opens packages that have the document in word/document.xml","theme.go:WithDefaultTheme","xml/default/_rels/.rels:Relationships","unpack.go:unpack","pack.go:pack")
p("Prefixes in a document do not matter","Two packages whose documents differ only in the prefixes of elements and attributes and in attributes the library does not know are opened to the same document with the same error; so renaming the prefixes of a document, with their declarations, changes nothing.","all documents, readable or not, all ways to write them, all renamings of prefixes whose declarations inside the root element have no name that is also the name of an attribute the library reads","tests read files by one program, which uses the customary prefixes","structdoc.go:UnmarshalXML","unpack.go:parseDocument","structdoc.go:getAtt","structrun.go:parse","structdrawing.go:UnmarshalXML")
p("The order of attributes does not matter","Two packages whose documents and tables of relationships differ only in the order of attributes (and in prefixes and unknown attributes) are opened to the same document with the same error.","all documents, readable or not, all ways to write them, all orders of attributes in all elements; elements with attributes in another order have well-formed numbers and no two attributes with the same local name","tests read files in which one program wrote the attributes in its order; the decoders have one attribute loop per element, and each could depend on the order","structdoc.go:getAtt","structeffects.go:UnmarshalXML","structdrawing.go:UnmarshalXML","structshape.go:UnmarshalXML","structtable.go:UnmarshalXML","structsect.go:UnmarshalXML","structpara.go:UnmarshalXML","structrel.go:Relationship")
p("Printing an opened file shows its text","String of a paragraph or table of an opened package shows what the file says there: its texts, tabs and breaks in order, its links with their targets from the table of relationships, and the cells of a table row by row.","all packages that can be opened, all ways to write their XML, all paragraphs and tables without drawings, without texts in links and with at most one paragraph in each cell","tests print documents they built; a file of another program has runs, links and tables in any number and any order, and its relationships anywhere in the table","structpara.go:String","structtable.go:String","structlink.go:Hyperlink","link.go:ReferTarget","unpack.go:unpack")
p("Building one document from several goroutines","When several goroutines add paragraphs, tables, links and pictures to one document at the same time, no two calls get the same relationship id, drawing number or picture name, and the lists of the document hold nothing foreign and nothing twice; entries may be lost. If the goroutines guard their calls with one mutex, every call returns if each goroutine gets its turn again and again, and the result is that of the calls made one after the other, those of each goroutine in its own order.","all documents, all numbers of goroutines, all lists of calls, all schedules of their steps","the outcome depends on the schedule, and a test run sees one of them","apipara.go:AddParagraph","apitable.go:AddTable","link.go:addLinkRelation","link.go:addImageRelation","media.go:addMedia","image.go:addImage","apidrawing.go:AddInlineDrawing","id.go:IncreaseID")
p("Changing a picture obtained from Media","A change made through the pointer that Media returns is a change of this picture of the document and of nothing else. This holds exactly as long as the pictures added since then fit into the room of the list; after that the change is lost.","all documents, all pictures, all histories of additions and changes between the call of Media and the change, all growth rules of slices","whether the pointer still points into the list depends on the capacity of a slice, which tests do not see","media.go:Media","media.go:addMedia")
p("The relationships of a saved document lead to parts","Every relationship in the saved table of relationships is external or names a part that is in the saved package: for an opened document if this held for the package, and for a document made by New, LoadBodyItems or a split exactly if its template has the styles, the theme and the fonts, as the default theme has.","all histories of calls on any number of documents, all packages, all separators of a split, all templates","the table is built up by many calls, and the parts come from the template, the package and the pictures; a single missing part makes Word refuse the file","structrel.go:Relationships","link.go:addImageRelation","link.go:addLinkRelation","structdoc.go:SplitByParagraph","pack.go:pack","theme.go:WithDefaultTheme")
p("What can be opened and saved can be opened again, and nothing changes any more","Whatever the bytes of a file were: if Parse succeeds and WriteTo succeeds, Parse of the result succeeds, with the same relationships, media and template names. If the names of the media are plain paths, WriteTo then succeeds again, and from the second saving on the archive has the same entries with the same bytes, however often it is opened and saved; from the first if the numbers of tblLook are digits.","all archives, all bytes of their entries, all orders in which entries are written, any number of rounds","damaged or unusual XML, ids and names can take any path through the decoders; a string that can be read but not written, or a slow drift over many rounds, shows only for some of them","unpack.go:unpack","pack.go:pack","docx.go:Parse","docx.go:WriteTo","structtable.go:WTableLook")
p("Every document that was saved can be opened again, whatever its strings are","At any time in any program that makes, opens, copies, splits and changes documents with strings of any characters: if WriteTo succeeds, Parse of the result succeeds. Characters that XML cannot carry come back as U+FFFD; the items, texts, relationships and pictures are otherwise those of the document. Whether Parse succeeds depends on nothing but the form of the relationship ids.","all programs, all strings in all fields of all structs, all orders of the entries","control characters and other characters outside XML can stand in any of some hundred string fields; one field written without replacing them makes the whole file unreadable","pack.go:pack","unpack.go:unpack","apitext.go:AddText","apilink.go:AddLink","structpara.go:Paragraph")
p("A document can be saved over the file it was opened from","After opening a file, changing the document and opening the same file for writing with os.Create, WriteTo saves the document, with all parts of the package.","all packages, all calls between opening and saving, documents split off included","tests save to a new file or a buffer; that the other parts of the package are read only when the document is saved shows when the file behind it has changed by then","unpack.go:unpack","pack.go:pack","docx.go:WriteTo","docx.go:Parse")
p("Saving a document while another goroutine adds to it","What was in the document when WriteTo began is in the saved file at the same place, and the file holds nothing that is not in the document when WriteTo returns. When a mutex excludes calls during WriteTo, the file is that of the document that the finished calls leave. Without one the references of the file resolve when only paragraphs, tables and text are added, or when the main part happens to be written before the relationships; otherwise a link can refer to nothing, and a picture can be missing.","all documents, all lists of AddParagraph, AddTableTwips, AddText, AddLink, AddInlineDrawing and AddAnchorDrawing calls, all moments at which pack can read the document between their steps, both orders of the two parts","a test runs some schedules and one order of a Go map","pack.go:pack","docx.go:WriteTo","link.go:addLinkRelation","image.go:addImage","media.go:addMedia","apilink.go:AddLink","apidrawing.go:AddInlineDrawing")
p("Joining the parts of a split gives the document again","A document whose links resolve is split, and its parts are appended one after the other to a new document. The new document has a copy of every body element at its place, with the same text and formatting; links lead to the same targets and pictures have the same bytes. More generally, documents appended one after the other to a new document are all in it, in that order.","all documents, rules, sets of open documents and lists of parts, with fewer than 2^64 relationships","a test joins the parts of some documents; each part has numbered its links and pictures anew","structdoc.go:SplitByParagraph","structdoc.go:AppendFile","structdrawing.go:copymedia")
p("Splitting by text does to the texts what cutting a list does","SplitByParagraph with SplitDocxByPlainTextRegex, for a document whose body paragraphs have no drawings and whose links resolve: the texts of the resulting documents are the texts of the body, cut before every paragraph whose text is accepted. Joining the parts in a new document and splitting it by the same rule gives the same texts again. Without drawings the split always returns.","all documents, all sets of open documents, all predicates on texts in place of the regular expression, fewer than 2^64 relationships","a test compares the parts of some documents for some expressions","structdoc.go:SplitByParagraph","structdoc.go:SplitDocxByPlainTextRegex","structdoc.go:AppendFile","structpara.go:String")
p("The parts that are written are well-formed XML","Whatever a document holds, built by calls, read from a file or changed by hand: if saving it succeeds, the main part and its relationships are well-formed XML. There is one root element and nothing but white space and the declaration outside of it, every end tag matches its start tag, names are ordinary names, and no element has the same attribute twice.","all documents with any contents and any strings","a test reads back some documents; an attribute written twice or a bad name in one rarely used element is seen only by a document that has it","structdoc.go:Document","structrel.go:Relationship","structpara.go:Paragraph","structtable.go:Table","structdrawing.go:Drawing","structrun.go:Run","pack.go:pack")
p("Cleaning calls can be made in any order and more than once","What a body looks like after any sequence of Body.KeepElements and Body.DropDrawingOf calls depends only on which calls were made, not on their order or how often. Cleaning a cleaned body changes nothing. The texts that are left are exactly those of the items that every KeepElements keeps, unchanged.","all bodies, all sequences of calls with any arguments","a test tries some orders on some bodies; the claim is about all sequences","structdoc.go:KeepElements","structdoc.go:DropDrawingOf","structpara.go:DropShape","structpara.go:DropNilPicture")
p("Files can be joined","A program opens and builds any documents, appends some of them, each any number of times, to a new document, chooses a template, saves it and opens the result. If saving succeeds, the result opens; its texts are the texts of the documents one after the other, its links have the same labels and lead to the same targets, and its pictures have the same bytes. Only characters that XML cannot carry are replaced.","all histories of calls and opened files, all lists of documents to be joined whose links resolve, fewer than 2^62 relationships; pictures if the targets of the relationships hold XML characters only","a test joins a few files; that ids and names of any number of files do not collide and nothing gets lost on the way through the saved file is about all of them","docx.go:New","structdoc.go:AppendFile","docx.go:WriteTo","docx.go:Parse")
p("A file can be split into files","A program splits any document and saves the parts, each with any template. The parts take up the body piece by piece. If saving a part succeeds, the file opens; it holds the texts of its piece, its links have the same labels and lead to the same targets, and its pictures have the same bytes. Only characters that XML cannot carry are replaced.","all histories of calls and opened files, all documents whose links resolve, all splitting rules, fewer than 2^62 relationships; pictures if the targets of the relationships hold XML characters only","a test splits a few files by a few rules","structdoc.go:SplitByParagraph","docx.go:WriteTo","docx.go:Parse")
p("Threads with their own documents do not influence each other","Any number of goroutines create, open, load, split, join and edit documents, each only its own, in any order. Each goroutine gets the documents it would get if it were alone: equally many, with the same contents, the same texts, saved as the same files. An action of one goroutine changes no document of another.","all schedules of any number of threads, all calls of the API, all splitting rules on texts, all opened archives, all edits by the client that do not look at addresses","a race depends on the schedule; a test runs a few","docx.go:New","docx.go:Parse","docx.go:LoadBodyItems","structdoc.go:SplitByParagraph","structdoc.go:AppendFile")
p("The files of the command-line tool hold what was read","When a run of the command-line tool is complete, the files it wrote can be opened. The file of -u has all texts and links of the file that was read, also with -c and -p. The files of -s are the pieces of the body in order: a piece begins at every paragraph whose printed line matches, each file has exactly the texts and links of its piece, and together they have all of them. The file of -d n has the texts and links n times, after a page size.","all files that can be opened, whose links have relationships and whose ids are below 2^62, all combinations of flags, all regular expressions, all file names with an extension","a test looks at one file and one set of flags","cmd/main/main.go:main","structdoc.go:SplitByParagraph","structdoc.go:AppendFile","docx.go:Parse","docx.go:WriteTo")
p("What the calls build is what the file holds","A program makes a document and builds it with AddParagraph, AddTable, AddTableTwips, AddText, AddTab, AddPageBreaks, AddLink, AddInlineDrawing, AddAnchorDrawing, AddInlineShape, AddAnchorShape, WithA3Page, WithA4Page, the paragraphs of table cells, the setters and Size, and takes things out again with KeepElements and DropDrawingOf of the body and KeepElements and the Drop methods of paragraphs, in any order. The document, and the document that is opened after it was saved with any template, shows exactly what the calls say: the same paragraphs, tables and pages in the same order, the same texts, tabs, line breaks and page breaks, every link with its label and address, every picture with its bytes, every shape with its size and kind. A picture that cannot be decoded adds nothing. Only characters that XML cannot carry are replaced.","all programs of these calls that do not panic, with all arguments, and all templates without media","a test builds a few documents; here calls of all kinds are mixed, and any later call could spoil the links and pictures of an earlier one","apipara.go:AddParagraph","apitext.go:AddText","apilink.go:AddLink","apidrawing.go:AddInlineDrawing","apishape.go:AddInlineShape","apitable.go:AddTable","theme.go:WithA4Page","docx.go:WriteTo","docx.go:Parse")
p("Programs with several documents","A program makes documents with New, opens files with Parse, builds them with the calls of C98, gives them templates, appends documents to each other and to themselves with AppendFile, and splits them with SplitByParagraph by rules that look at what paragraphs show, in any order. Every document then shows exactly what the calls say: what was built in it and what was appended to it, in order, or the piece it was made from, every link with its address and every picture with its bytes; no call on one document changes what another shows. If a document is saved and opened, the program goes on with it as one more document that shows the same, with the characters that XML cannot carry replaced.","all programs of these calls that do not panic, all files with only paragraphs, tables, page sizes, texts, tabs, breaks, links, pictures and shapes, whose media are not named like the pictures added next","a test joins two documents; ids and media names clash only in some orders of building, opening and joining","structdoc.go:AppendFile","docx.go:Parse","docx.go:New","docx.go:WriteTo","apilink.go:AddLink","apidrawing.go:AddInlineDrawing","structdrawing.go:copymedia")
p("Cutting a document of a program by its texts","A program with several documents, built, opened and joined as in C99, cuts one of them with SplitByParagraph and SplitDocxByPlainTextRegex. There is one new document for every piece of what the document shows, cut before every paragraph whose printed text matches, and it shows exactly that piece, links and pictures included; the old documents show what they showed. The program goes on with all of them, and each piece, saved and opened, shows the same with the characters that XML cannot carry replaced.","all programs of C99 that also split, all regular expressions (any predicate on strings), all documents whose paragraphs outside tables have no drawings","a test splits one document at one expression; links and pictures of the pieces get new ids and names that depend on everything before","structdoc.go:SplitByParagraph","structdoc.go:SplitDocxByPlainTextRegex","structpara.go:String","docx.go:WriteTo","docx.go:Parse")
p("The formatting that calls set is in the file","A program makes, opens, builds, formats, appends and splits documents, in any order and at any places. Every paragraph, run, link, table, row and cell then has the properties that the calls say and no others: chains of setters give every named property its last value, new tables have the widths, heights, borders and default colours they were made with, appended documents and the pieces of a split document keep their formatting. Any document of any program, saved and opened, has the same formatting, except that characters that XML cannot carry are replaced, the numbering of paragraphs is lost, columns without a width are lost, and numbers in the look of a table are reduced to their first digit.","all programs of building, formatting, appending and splitting calls with any arguments; for saving: all documents of all programs","a test sets a few properties on one run and compares; the claim is about every combination of properties at every place, and that no call touches the formatting of anything else","apirun.go:Color","apirun.go:Font","apipara.go:Justification","apitable.go:AddTable","apitable.go:AddTableTwips","apitable.go:Justification","structdoc.go:SplitByParagraph","structdoc.go:AppendFile","docx.go:WriteTo","docx.go:Parse")
p("Whether a program of building calls returns can be read off its calls","A building call on a document returns exactly if the paragraph it is made on was built by the calls before it, the number of rows of a new table is not negative and neither is the number of columns if there is a row, and a picture that can be decoded is not 0 wide. Otherwise it panics; no call ends in any other way. So a program that makes a document and then makes calls in any order runs to its end exactly if every call finds what it needs in what the calls before it say.","all programs of building calls with any arguments, on any document of any program","a test runs programs that return; the claim is an exact condition for every program, in both directions","apitext.go:AddText","apilink.go:AddLink","apitable.go:AddTable","apidrawing.go:AddInlineDrawing","apidrawing.go:AddAnchorDrawing","apishape.go:AddInlineShape")
p("The demonstration document of the tool","Run without -a, the command-line tool builds its demonstration document without a panic exactly if its three pictures can be read and decoded and are not 0 wide. The document then shows exactly the pictures, texts, tabs, link, tables and shapes that the program asks for, has exactly the formatting it asks for, its drawings with the sizes and places it asks for, and the default theme, and is the first file the tool writes. Saved and opened again, it shows the same with the same formatting, sizes and places.","all contents of the three picture files, all picture decoders, all files of the theme, all orders in which the parts of the file are written, all flags of the tool","the tool is only ever run with its own test pictures, and nothing compares what is in the file with what was asked for","cmd/main/main.go:main","docx.go:WriteTo","docx.go:Parse","apitable.go:AddTableTwips","apishape.go:AddAnchorShape")
p("The sizes and places of drawings that calls set are in the document and in the file","After any program of building calls, every picture and shape of the document takes the space, is drawn with the size, and has the place and the transparency that the last call or assignment that sets them gave, and there are no others. New pictures and shapes are drawn as large as the space they take; Size changes both for a picture, and only the space for a shape. Appending and splitting documents keeps sizes and places, and makes translucent pictures opaque. Saving and opening keeps all of it.","all programs of building calls on any number of documents, made or opened, at any places with any arguments, with appending and splitting; all orders in which the parts of the file are written","the last setting wins only if no later call on another drawing or document touches it, which is about every sequence of calls; tests compare no sizes after copying or saving","apidrawing.go:AddInlineDrawing","apidrawing.go:AddAnchorDrawing","apidrawing.go:Size","apishape.go:AddInlineShape","structdrawing.go:copymedia","structdoc.go:AppendFile","docx.go:WriteTo")
p("The text of a document is what the calls put into it, also in the file","In a program that builds, opens, joins and cuts documents, String of a paragraph without pictures is what the calls put there: its texts, tabs, breaks, links with their targets and shapes with their kinds, in order. String of a table is a line for the columns and one line per row, with the first paragraph of each cell. After saving and opening, String gives the same text, with the characters that XML cannot carry replaced; then paragraphs with pictures are printed too, each picture with the MD5 sum of its bytes. Before that, in a document that calls have just built, String panics exactly where a picture is shown.","all programs with any number of documents and any building calls, with opening, appending and splitting; all paragraphs and tables of all documents; all orders in which the parts of the file are written","the text depends on all earlier calls on all documents and on the relationships that copying renames; tests print a few fixed documents","structpara.go:String","structtable.go:String","apitext.go:AddText","apilink.go:AddLink","structdoc.go:AppendFile","docx.go:WriteTo","docx.go:Parse")
p("Strings and byte slices that share memory","BytesToString gives a string with the bytes of the slice, StringToBytes a slice with the bytes of the string; nothing else changes. Appending to what StringToBytes gives makes the bytes of the string and the new ones and changes no string. As long as a program assigns to no element of a slice and appends only to slices without room, no string changes. An assignment b[k] = x changes exactly the bytes of strings that lie at that place of memory, so a string from BytesToString(b) follows b.","all programs of conversions, assignments, appends and slicings in any order, on any number of strings and slices; all bytes and places; all ways in which append chooses the new capacity","whether a string changes depends on which headers share an array after all earlier operations; tests convert one value and compare it at once","helper.go:BytesToString","helper.go:StringToBytes","slice.go:slice")
p("Tables keep their rows and cells","After any building calls a document has the tables that AddTable and AddTableTwips made, in order, with the rows and cells they were asked for; only KeepElements on the body removes tables. All rows of such a table have the same number of cells. Saving and opening keeps the tables of every document of every program. AppendFile adds the tables of its source and changes no other; the documents of a split have the tables of the document that was split, one after the other.","all sequences of building calls with any arguments and places; all programs with any number of documents; all orders in which the parts of the file are written","later calls at other places could change the rows of a table only for certain orders and indices; tests look at single tables right after they are made","apitable.go:AddTable","apitable.go:AddTableTwips","structdoc.go:KeepElements","structdoc.go:AppendFile","docx.go:WriteTo","docx.go:Parse")
p("Documents given to functions that read","A document is an io.Reader. io.Copy of a document, itself or in an io.NopCloser or bufio.Reader, does what WriteTo does, with the same errors, and returns how many bytes it wrote. Read in any other way, also through io.LimitReader and io.TeeReader, a document gives no byte and os.ErrInvalid, unless 0 bytes are asked for; so without an error there is the complete file or nothing that was asked for, never a part of a file.","all documents, all compositions of the readers, reads of all lengths, all writers","compositions of readers have no bound, and which of them pass on WriteTo depends on their order","docx.go:Read","docx.go:WriteTo")
with open("/verif/properties.jsonl","w") as f:
    for x in P: f.write(json.dumps(x,ensure_ascii=False)+"\n")
print(len(P))
