# Formal model of fumiama/go-docx: design

The code under study is in `/repo` (pinned commit, read as text, never built or run). The model and
the proofs are Lean 4 modules under `lean/Verif`. This file says what is modelled, how each property
of `properties.jsonl` is stated and proved, what was found to be false of the code, and what has to
be trusted. `MANIFEST.json` names the theorems of each property, `seeded/LOG.jsonl` records the
wrong programs the theorems were tested against.

## How to read it

1. `properties.jsonl`: the English properties.
2. `lean/Verif/Spec*.lean`: the vocabulary of the statements, written from the English.
3. `lean/Verif/Props/*.lean`: the theorems, named `Cnn_…` after the property, each next to an
   `example` in which a concrete case meets its hypotheses. Proofs here are short; the work is in
   `lean/Verif/Lemmas`, which nothing in a statement refers to.
4. The model: every definition has a comment with the lines of `/repo` it models, and says where it
   simplifies.

A property the code violates gets a theorem that exhibits the violation (for a concrete document or,
where possible, for all documents of a shape) and a theorem with the suffix `_partial` that proves
the property under the weakest guard that was found. The English property is not weakened.

## Modelling conventions

* Go `string` is Lean `String` (so: valid UTF-8 only). `[]byte` is `List UInt8`.
* `int` and `int64` are `Int64`, the `uintptr` counters `UInt64` (64-bit platform). They wrap around.
* A nil pointer is `Option.none`; a slice is a `List`; a method with a pointer receiver becomes a
  function that returns the new value. Where two pointers can meet the same object (MergeText, the
  `file` pointers of paragraphs and cells, appending a document to itself) there is an explicit heap
  or a `World` of documents with addresses.
* In `World` a document owns its contents. The objects that copies share (properties, texts, extents) are
  modelled in `Alias`, with a memory and addresses, and C63 proves that both models agree: every call has the
  same outcome, and every history with shared objects ends with documents that a history of the value model
  (with arbitrary edits) ends with. The theorems about histories with edits therefore cover shared objects.
  Not modelled: two documents that hold the same `*Paragraph`, `*Run` or `*Table` because a client put it there.
* Results are `ok v`, `err e` or `panic` (`Res`). Nil dereferences, out-of-range indices, failed type
  assertions, `make` with a negative size and division by zero are explicit.
* `[]interface{}` children are inductive types whose constructors are the dynamic types the library
  puts there, plus one for any other value where a client can put one.
* Calls of other libraries whose result does not matter are parameters that every theorem quantifies
  over: `GoEnv` (float parsing, `image.DecodeConfig`), `HashEnv` (MD5), `ZipFmt` (bytes of zip
  headers and compressed contents), the file systems of templates, the callbacks of the client.
* `encoding/xml` is modelled in two layers. `Verif.XmlText` has the printer with its escaping and the
  lexer, from bytes to tokens. `Verif.Xml` has the decoder, from tokens to calls of `UnmarshalXML`,
  with the element stack and its end-of-file marks, because what `DecodeElement` does after a
  swallowed error depends on them.
* Concurrency is a small-step machine; a schedule is any list of goroutine numbers.
* Recursion is structural or has an explicit bound whose sufficiency is proved (`C40_…`).

## Modules

| module | models | content |
|---|---|---|
| `Go` | helper.go, `strconv`, `fmt` | results, `Itoa`, `Atoi`, `ParseInt`, `GetInt`, `GetInt64`, `Sscanf` |
| `Types` | struct*.go | all struct types |
| `Doc` | docx.go, empty.go, id.go, image.go, link.go, media.go, apirel.go, structrel.go, slice.go | the document: relationships, media, counters, `New`, `LoadBodyItems` |
| `Api` | api*.go, theme.go | everything that builds documents and all setters |
| `Text` | structtext.go, `String` in structpara.go, structdrawing.go, structtable.go | `String`, `KeepElements`, `Drop*`, `MergeText` and its rules |
| `Split` | structdoc.go, `copymedia` in structdrawing.go | `SplitByParagraph`, `AppendFile` |
| `World` | – | histories: a client program as a list of calls on many documents |
| `Conc` | id.go, link.go | goroutines inside `IncreaseID` and `AddLink` |
| `Busy` | apipara.go, apitable.go, apidrawing.go, image.go, media.go, link.go | goroutines that add paragraphs, links and pictures to one document, with and without a mutex |
| `Alias` | structdoc.go, `copymedia`, structtext.go | copies with an explicit memory: what a copy shares with its source |
| `Slices` | docx.go, structdoc.go | slice headers and arrays: documents made from shared slices |
| `Bytes` | helper.go, slice.go | strings and byte slices that share memory |
| `Pointers` | media.go | the pointers that `Media` returns |
| `Handles` | pack.go, unpack.go | the files that are opened and closed |
| `Source` | unpack.go, pack.go, docx.go | the package that is read again when the document is saved, after its file has changed |
| `Theme` | theme.go, xml/default | two files of the embedded theme |
| `Cli` | cmd/main/main.go | the command-line tool |
| `Xml` | `encoding/xml` decoder | tokens, `Token`, `Skip`, `DecodeElement`, the shapes of the token loops |
| `Unmarshal` | all `UnmarshalXML` methods and the reflective decoding of the structs without one | reading |
| `Marshal` | struct tags of all types | the element tree that `Encode` writes |
| `XmlText` | `encoding/xml` printer and lexer, pack.go:87-94 | XML text as bytes |
| `Pack` | pack.go, unpack.go, docx.go, fs.go | `Parse`, `WriteTo`, archives as lists of entries |
| `Writer` | docx.go:152-157, pack.go:60-72, `archive/zip` writer, `bufio` | writers that fail at any call |
| `Reader` | docx.go:152-162, `io.Copy`, `io.ReadAll`, readers of Go around a document | documents that are read or copied |
| `Spec`, `SpecXml`, `SpecText`, `SpecPack`, `SpecContent`, `SpecFormat`, `SpecNs`, `SpecRefs`, `SpecDecimal`, `SpecPicture`, `SpecThreads`, `SpecTool`, `SpecBuilt`, `SpecMakes`, `SpecDress`, `SpecFits`, `SpecDemo`, `SpecDemoFrames`, `SpecFrames`, `SpecPrinted`, `SpecBytes`, `SpecGrid`, `SpecReader`, `SpecPlace`, `SpecApart` | – | vocabulary of the statements |
| `Lemmas/*` | – | proofs |
| `Props/*` | – | the property theorems and examples |

## Properties

"inv" is an invariant proved by induction over all histories (lists of API calls on any number of
documents, in any order, including arbitrary edits of exported fields where the property allows them).

| id | statement is about | proof | result |
|---|---|---|---|
| C01 | ids seen by `RangeRelationships` after any history | inv: ids distinct and not above the counter; the bound on the number of calls is shown tight | proved |
| C02 | `AddLink` then any history | inv + persistence of table entries | proved |
| C03 | any relationship table `Parse` accepts, then calls | counter = maximum of the ids; induction | partial: wraps at 2^64-1 |
| C04 | `ReferTarget`, `ReferID` on any table | induction over the table | proved |
| C05 | any callback, as a state-passing function | induction over the table | proved |
| C06 | media names after any history | inv for documents whose counter is ahead | partial: collision exhibited |
| C07 | `AddInlineDrawing`/`AddAnchorDrawing` then any history | persistence | proved |
| C08 | any schedule of any number of goroutines in `IncreaseID` | inv of the machine; linearisation by unlock order | proved |
| C09 | any schedule in `addLinkRelation` | inv: ids distinct; schedule that loses an entry | proved (both halves) |
| C10 | docPr ids after any history of builder calls | inv: all ids below the counter | partial: appended shapes keep ids |
| C11 | any builder call | each call is `old ++ new` | proved |
| C12, C13 | `AddText`, `AddTab…`, `AddLink`, then `String` | induction over characters and calls | proved |
| C14, C15 | chains of setters on any value | the abstract record of settings; case analysis, induction over the chain | proved |
| C16, C17 | `AddTable`, `AddTableTwips` for all sizes | induction | proved |
| C18 | picture size for all dimensions | integer arithmetic | proved |
| C19, C20 | `Size`; picture calls that fail or panic | direct | proved |
| C21-C24 | `KeepElements`, `Drop*` on any paragraph, table, body | against independent predicates, list induction | proved |
| C25 | `MergeText` with any rule, texts on a heap | simulation of the loop by a list of merged groups; in programs and files through C99 and C87 (`Props/MergeFile.lean`); for calls that keep texts behind tabs by induction over the calls (`Props/Apart.lean`) | partial: two witnesses |
| C26 | same | frame theorem on the heap | proved |
| C27, C28 | the rules on any two runs | case analysis, induction over the names | proved |
| C29 | `MergeText` | loop invariant | partial: idempotence |
| C30 | `Table.String` | induction | proved |
| C31 | `String` of any paragraph or table | exact characterisation of what panics | partial: three panics exhibited |
| C32, C33 | `SplitByParagraph` with any separator | loop invariant | proved |
| C34, C35 | split and append in any history | copy relation + persistence | partial: wrap-around, groups |
| C36 | `String` before and after copying; `SpecWords`: the words of an item, without its drawings | induction; words for all drawings | partial: two witnesses |
| C37, C38 | `AppendFile`, also to itself | induction | proved, partial (wrap-around) |
| C39 | split and append of any document | copyable ⇒ no panic | partial: three panics exhibited |
| C40 | every token stream | measure: each step of a loop consumes a token | proved |
| C41 | every document | induction over the whole type: parse(save d) = norm d, and norm d = d exactly if … | partial: losses listed in `SpecXml` |
| C42 | every token stream that parses | the parsed document has nothing left to lose | partial: tblLook |
| C43 | every document, unknown elements inserted at any place of any container | simulation of the two decoder runs | proved |
| C44 | every token stream | witness for every bad value; all kept if numbers are numbers | partial |
| C45, C46 | runs anywhere in a document | token loop against `SpecContent` | partial: witnesses |
| C47 | all 64-bit numbers; `SpecDecimal`: `Digits`, `Decimal` | induction over digits | proved |
| C48 | all strings, all trees, all documents | lexer ∘ printer, induction over characters and trees | proved |
| C49-C51 | all documents, all iteration orders of the part map | permutation induction | proved |
| C52 | all writers | order of calls of `bufio` and `zip.Writer` | partial: `Close` error dropped |
| C53-C55 | all templates, tables, archives | induction | proved |
| C56 | `LoadBodyItems` | direct, inv | partial: foreign paragraphs |
| C57 | parse, edit, save | induction over entries | partial: directories |
| C58 | every document tree, `SpecContent.xmlContent` (with all formatting, `SpecFormat`) against what `Parse` returns | token loop, mutual induction | partial: excludes C44, C45 failures |
| C59 | every history of API calls; every parsed file | invariant over drawings (`Lemmas.Draws`), induction over the saved tree; parser yields | proved for histories; partial for parsed files: three witnesses |
| C60 | every history of API calls; every parsed file | invariant of all documents of the world (`Lemmas.RefsRun`), parser yields (`Lemmas.RefsYields`) | proved for histories; partial for parsed files: three witnesses |
| C61 | all calls of the API | the expected XML is written down in `SpecOoxml`, independently of `Marshal`; filters on the children of the properties | proved; witness for `Run.Spacing` |
| C62 | all of `Marshal`; the content models are written down in `SpecSchema` | `follows` of the saved tree is equivalent to conditions on the document, by mutual induction; histories by invariant | exact characterisation; histories partial; witnesses |
| C63 | `Alias`: the copying functions, all calls and the setters on an explicit memory of objects; `SpecAlias`: families | refinement of the model with values, call by call; invariant over histories: families reach disjoint objects; sharing by induction over the copying functions | partial: false for setters, with universal theorems about what is shared |
| C64 | `Handles`: `Parse` and `WriteTo` with a record of opened and closed files; `SpecHandles`: what is left open | erasure of the record gives the functions of C50-C57; induction over entries and template files | partial: false of `WriteTo`, with the exact set of files left open |
| C65 | `Slices`: arrays, slice headers and Go's `append`; `SpecSlices`: each document has a list | exact effect of an append on every other slice; refinement of lists by the invariant that of two slices in one array only one has room and it reaches further | partial: false for slices with room, with universal theorems |
| C66 | `SpecSpace`: the `w:t` elements of the saved tree and their white space; `Marshal`, `Unmarshal`, `Text` | exact condition for `AddText` from C61; invariant over histories (`ItemInv`) that no text is marked; value of the parsed attribute | partial: false of `AddText` and `MergeText`, with universal theorems |
| C67 | `SpecXml`: relation `Pad` (insertions into trees), `indent` (a formatter), the lists `rigid` and `textual`; `Unmarshal` | simulation of two decoders over all decoding functions, shared with C43 | partial: false inside leaves, texts and `AlternateContent`, with universal theorems |
| C68 | `SpecLegal`: `Op.Legal` (what a careful client sees to), `CarefulRun`, `Op.Simple`, `Op.Pictureless`; `World` | invariant over histories: every paragraph and cell belongs to a document that exists, the media index is in range; without pictures also: no drawing is a picture | proved |
| C69 | `SpecIndep`: `Op.Within`, `World.SelfContained`, `Schedule` (calls of threads in some order, `program` of one thread), `World` | two worlds that agree on a self-contained set of documents: every call gives the same outcome in both and changes nothing outside (all copy functions included), then induction over schedules | proved (threads do not make new documents; calls are atomic) |
| C70 | `SpecKept`: `written` (elements of a tree outside drawings), `vocabulary`, `AsSaved`, `resaved`, with the content specification `xmlContent` of C58 | what is written for a parsed document is read back by the specification as the same content (`read_*`, using the round trip lemmas of C41 and `readAs_decodes`), with C58 for the first reading; negative theorems from an enumeration of every element that can be written (`plains_*`) | partial: false of the code, see findings 24 |
| C71 | `SpecDrawing`: `xmlItems`, a declarative reading of the whole tree (`children`, `kidsAll`, `lastEl`, one definition per element), `readers k` for the nesting of paragraphs in text boxes and of canvases in groups | each decoder of `Unmarshal` reads its element as the specification says (`un*_B`), by induction over the children with the number loop lemmas of C58, then by induction over the fuel (`decs_read`); writing via the round trip of C41, with `sav_*`: all numbers written are numbers | partial: false of the code for bad numbers and some alternatives |
| C72 | `Cli`: `main` of cmd/main as a trace of prints, created files and written documents, ended by a panic at any point; `SpecCli`: `created`, `writtenDocs`, `printed`, `Lines` | created names are a sublist of a list without repetitions (lengths and common prefixes of names, `itoa` injective); complete runs part by part; the text depends on relationships and media only (`str_congr`) | partial: false of the code for `-d` in a directory and `-s` without a dot |
| C73 | `SpecSessions`: `Later` = any sequence of calls (`step`), openings, and savings with a later opening of what was saved; `Expressible` = the texts XML can carry | induction over `Later` with `Evo` for the calls and C50 for the reopening; the counter after opening is the maximum of the numbers in the ids (`scanIds_max`); the negative theorems are universal, from the restarted counters | partial: false of the code for pictures and drawings added to opened files |
| C74 | `SpecForms`: `Form n w`, the ways to write a tree, after the XML standard, apart from the lexer; `Rewritten`, two packages with differently written XML | induction over `Form` and `Forms`: every way to write a tree is lexed to its tokens (`lex_file`); then over the archive. The printer is shown to give a `Form` by induction over the tree | partial: false of the code for texts in several pieces |
| C75 | `SpecCut`: `CutShort`, two packages where the XML of the first is cut at any bytes | every decoder that succeeds depends only on the tokens it read, which end with an end tag (induction over the decoders, `Lemmas.Cut`); the tokens of a cut file are some tokens of the file, then at most the beginning of a text or an error (`lex_cut`); a cut inside a character gives only bytes that belong to no character (`runes_cut`) | proved |
| C76 | `SpecCut.ForeignDecl` | computation of the lexer on the declaration, for all values and white space | proved |
| C77 | `SpecTable`: `TableIn`, name space of every element of the saved table; `Standard`, the types | no call changes the name space (`Evo`); decoding of the root for all ways to write it (`lex_file`) | partial: false for opened packages without a table or with a prefixed one |
| C78 | `Theme`: the two files of the theme that describe the package; `SpecParts`: `typeOf`, content type of a part by name or extension | the template of a document changes only by UseTemplate (`run_keep`); the theme file proved to be a way to write its tree (`defaultTypes_forms`) | partial: false for pictures of undeclared formats |
| C79 | `SpecParts`: `HasXml`, `documentRelation`; `relsOf` of the root relationships | files other than document, relationships and media are saved as they were through any history (`opened_file`) | partial: false for packages that have the document elsewhere |
| C80 | `SpecNames`: trees that agree up to prefixes and unknown attributes (`sameNode`), renaming of prefixes with declarations (`Node.rename`) | simulation: every decoder keeps two streams of twin tokens in step (`Lemmas/Alike`, `Lemmas/Alike2`), by induction over the depth of the decoders | partial: false for declarations with names of attributes |
| C81 | `SpecOrder`: trees that agree up to prefixes, unknown attributes and the order of attributes (`likeNode`), tables of relationships (`sameTable`) | every attribute loop proved to commute on different names and to fail on bad numbers only (`Passes`), so loops over permuted attributes agree (`fold_perm`); then the simulation of C80 | partial: false for bad numbers and for names that clash |
| C82 | `SpecShown`: the text of paragraphs and tables of a file, links with their targets | the content of an opened file (C58, C74) and its table of relationships (C55) followed into `String`; by induction on children, cells and rows | partial: false for text in links and for cells with several paragraphs |
| C83 | `Busy`: the shared-memory steps of the calls; `SpecBusy`: calls one after the other, what calls made | numbers taken are the next ones up to order, every list seen is a sublist of the start and the writes (invariants over steps); with a mutex, what is left of a call is kept along its steps (refinement); `Props.Guarded`: the work left gets less in every round in which each goroutine has a turn | proved |
| C84 | `Pointers`: `f.media` as a slice in memory, `*Media` as an address; `SpecPointers`: the same operations on a document that owns its list | refinement of the operations to the list; the array of the header changes exactly when the room is used up (induction on histories) | proved |
| C85 | `SpecTargets`: the part for a target, `Leads`, the table as XML; the model as for C49, C60 and C78 | invariant over histories: what the calls add to the table is external or names a picture of the media list; the entries of a saved archive by C49 | proved |
| C86 | `SpecReopen`: `Resave`, `Resaved`, `PlainMedia`; the lexer, all decoders and the packing of the model | `Lemmas.Clean*`: every decoder hands on only strings XML can carry, if its tokens do, and the lexer gives no others; numbers of `tblLook` are not negative after parsing (`Lemmas.Looks`); the XML does not depend on the owner (`Lemmas.Owner`); then C50 and induction over the rounds | proved |
| C87 | `SpecClean`: a document with all strings cleaned; `Program`: the histories; `SpecAnySessions`: histories that save and open again | `Lemmas.CleanDoc`: cleaning the document and cleaning its XML is the same, for every struct; a document and the cleaned one are written as the same bytes; then C50; the ids by the evolution of documents (`Evo`) | proved |
| C88 | `Source`: the reader kept by Parse, over what the file holds when the document is saved; `SpecSource`: documents opened from a file, any calls since | theme kept by all calls (`KeepTheme`), nothing can be read from an emptied file, contents of a saved package (C49) | partial: false in general, proved for packages without further parts |
| C89 | `Autosave`: the document after each shared-memory step of a list of calls; the moments at which pack reads pictures, relationships and each element of the body; `SpecAutosave`: a document that continues another | every step only appends and keeps references resolved, monotonicity in the number of steps; runs of `World` for the guarded case; witnesses without a mutex | proved |
| C90 | `SpecJoin`: a client loop of AppendFile; rules for a copy of a copy: links resolve to the same targets, pictures have the same bytes | the rules of C34 and C35 give those of `SpecJoin`, which compose; induction over the list of parts | proved |
| C91 | `SpecPieces`: cutting a list before separators; the texts of a document | the properties of the pieces in C33 determine them; the pieces of C33 and C36 have the same lengths, so they are the same; C90 for the joined document | proved |
| C92 | `SpecWell`: the constraints of XML on a sequence of tags and texts | for each kind of element the names it can have are listed and have no repetition, so a tree written by any document is well-formed; C48 and C49 for the bytes in the file | proved |
| C93 | `SpecTidy`: sequences of the two calls | every call is a filter or removes the drawings that fulfil a condition (C21 to C24), so they commute and are idempotent; a sequence of such calls depends on its set only | proved |
| C94 | `SpecJoinFiles`: the links of a body with labels and targets, its drawings | C90 for the joined document, C87 for saving and opening; the ids of the result are well-formed because of the history, its media are found because it was created here (C56) | proved |
| C95 | as C94 | as C94, with the copies that C33 and C34 find in the parts of a split | proved |
| C96 | World, Split, Pack: all constructors and calls, with the addresses of documents | the library never looks at addresses: every function commutes with a renaming of addresses (decoder, copying, calls, splitting); a schedule is simulated by each thread alone, by induction over the schedule | proved |
| C97 | Cli, Pack, Unmarshal, Split, World | the run is taken apart into its parts (C72); the parsed document is a program (C87) whose texts are clean; -s by C95 and C33, -d by C90 with the A4 page in front, -u by C87; then saved and opened, with the address renamed (C96) | proved |
| C98 | World, Api, Doc, Pack, Unmarshal | refinement: an interpreter of the calls on blocks, without ids or relationships; invariant that the document, read through its relationships and media, shows the blocks; a new relationship or media spoils no older one; then C87 for saving and opening | proved |
| C99 | World, Split, Pack, Unmarshal | refinement of worlds of documents to lists of blocks, by induction over the program; copies obey rules under which they show the same; opened documents own their parts and have counters ahead of their ids | proved |
| C100 | Split, Text, World | what a copy shows (C99) for every piece; the rule is a function of what the paragraph shows; pieces are unique | proved |
| C101 | Api, Alias, Split, Xml | `Dress` reads all properties and nothing else; one law per call (`Call.dresses`), by induction over programs; copies keep properties (C38 rules); saving by C87_opens | proved |
| C102 | World, Api | `Call.returns` and `allReturn` look at the calls and the blocks they should have built; each operation is decided case by case, programs by induction with the invariant of C98 | proved |
| C103 | Demo, Cli | the program as a list of calls; `demoBlocks` and `demoDress` written out by hand; the calls are run by computation, block by block, for any pictures; C98, C101 and C102 give the document, the file and that it returns | proved |
| C104 | SpecFrames | a list of frames per paragraph and a law per call, as in C101; drawings of known blocks are single pictures or shapes, so every law is one step per drawing; copies through the rules of C99, extended by the frames; files through C87 | proved |
| C105 | SpecPrinted | a text for every block, from what it shows, piece by piece; pictures of opened documents know their document (C55), new ones do not; files through C99 | proved |
| C106 | `Bytes`: headers of strings and slices over arrays of bytes; `SpecBytes` | all headers fit their arrays in every program; without overwriting, arrays only grow; exact effect of a write on every string | proved |
| C107 | `SpecGrid`: numbers of cells per row, and what a call does to them | through what the document shows (C98, C99); files through C87 | proved |
| C108 | `Reader`: `Read`, `io.Copy`, `io.ReadAll` and readers around documents; `SpecReader` | induction over the readers; complete archives through C52 | partial: the number of bytes is always 0 |

## What was found false of the code

1. A number that does not parse truncates the document silently (`C44_truncated`).
2. White space or a comment before the supported `Choice` makes `Parse` fail (`C45_fails`) or lose the
   rest of the run (`C45_lost`).
3. A text element with a comment or CDATA boundary inside keeps only its last piece (`C46_false`).
4. `MergeText` can print a text twice and lose another (`C25_text_lost`, `C25_always_lost`, `C25_always_gone`, also after
   `AddTab` and `AddText("a\tb")`: `C25_built_lost`), merges across hyperlinks
   (`C25_text_moved`) and is not idempotent (`C29_not_idempotent`).
5. Numbering is lost when saving and parsing (`C41_numbering_lost`); `tblLook` numbers shrink to their
   first digit (`C42_look_unstable`).
6. Pictures added by the API make `String`, split and append panic (`C31_…`, `C39_…`).
7. Generated image names can equal existing ones (`C06_collision`).
8. The relationship counter wraps (`C03_wraps`, `C34_append_wraps`).
9. Copying drops links that do not resolve (`C36_link_dropped`), loses groups (`C35_group_lost`) and
   repeats the ids of shapes and canvases (`C10_appended_shape_repeats`).
10. `WriteTo` drops the error of `zip.Writer.Close`; a nil error does not mean a complete file
    (`C52_incomplete`, `C52_nothing_written`).
11. An archive with directory entries parses but cannot be saved (`C57_directories_fail`).
12. Concurrent `AddLink` can lose a relationship (`C09_entry_lost`).
13. Paragraphs given to `LoadBodyItems` register links in their old document (`C56_foreign_paragraph`).
14. `Run` setters panic on runs without properties (`C15_no_rpr_panics`); a picture of width 0 panics
    after its media was stored (`C20_panic_leaves_media`); `AddTable` panics on negative sizes
    (`C16_addTable_panics`).
15. Parsing and saving can leave name-space prefixes undeclared, so that Word refuses the file: pictures
    inside groups (`C59_group_undeclared`), prefixes declared at the root (`C59_root_undeclared`), an
    empty `wp:cNvGraphicFramePr` (`C59_empty_frame_undeclared`).
16. Parsing and saving can leave relationship ids without an entry, so that Word refuses the file: a link
    to a bookmark is saved as a link to the relationship named like the bookmark (`C60_anchor_dangling`),
    a linked picture as one with an empty id (`C60_linked_dangling`). Appending or splitting a document
    leaves links and pictures inside text boxes with the ids of the old document
    (`C60_textbox_dangling`).
17. `Run.Spacing(line)` writes `w:line`, which has no meaning in a run: the space between characters is `w:val`
    (`C61_spacing_unused`).
18. Saved documents break the content models of ECMA-376: `w:numPr` writes `w:numId` before `w:ilvl`; `w:pPr` writes
    `w:pStyle` after `w:jc`, `w:spacing` and others, and may contain `w:kern`; `w:tblPr` writes `w:tblpPr` before
    `w:tblStyle`; `w:tcPr` writes `w:vMerge` before `w:gridSpan`; new table cells have no paragraph; `WithA4Page`
    puts `w:sectPr` before later items; every `wpg:grpSpPr` contains `a:prstGeom` (`C62_exact` lists all ways).
19. Copies share objects with their source: after `AppendFile` or `SplitByParagraph` every setter called on a copied
    run or paragraph, every write to a copied text and `Size` on a copied picture changes the source document as well
    (`C63_append_shares_run`, `C63_split_shares_run`, `C63_append_shares_para`, `C63_append_shares_text`,
    `C63_size_shared`, `C63_not_separate`).
20. `WriteTo` never closes the template files it opens; with a template in a directory (`os.DirFS`), or a user's `fs.FS`,
    every save leaks one open file per template file (`C64_save_leaks`, `C64_save_adds_up`). `Parse` leaves a media file
    open when reading it fails (`C64_parse_partial`).
21. `LoadBodyItems` keeps the slices it is given: after `LoadBodyItems(doc.Document.Body.Items[:b], nil)` the next element
    added to the new document replaces element `b` of `doc`, and two documents made from the same items or media
    overwrite each other's additions (`C65_prefix_overwritten`, `C65_same_slice`, `C65_exact`).
22. `AddText` never writes `xml:space="preserve"`, so readers drop the spaces at the ends of a text such as
    `AddText("Hello ")`; `MergeText` removes the marks of parsed texts (`C66_text_lost`, `C66_merge`).
23. White space or comments inside elements that have only attributes make `Parse` fail
    (`<w:cols> </w:cols>`, `C67_leaf_fails`).
24. Opening and saving a file changes it: `w:b`, `w:i` and `w:iCs` with the value 0 are saved as switched on
    (`C70_off_becomes_on`, `C70_nothing_off`), `w:strike` gets the value "" (`C70_strike_invalid`), `w:kinsoku` and others
    without a value are lost (`C70_switch_lost`), zeros in `w:ind`, `w:spacing` and others are lost (`C70_zero_lost`), all
    numbering is lost (`C70_numbering_lost`), links to bookmarks lose their anchor (`C70_anchors_lost`), `w:after` of
    `w:spacing` and `w:right` of `w:ind` are lost (`C70_after_lost`), the runs of a link are joined (`C70_link_joined`),
    and `w:tblLook` with only a mask gets flags that contradict it (`C70_look_invented`).
25. **The command-line tool misnames copies** (C72). `-d` on `dir/f.docx` writes `dir/dup_/f.docx` (main.go:252 cuts at the slash instead of after it), `-d 1` does nothing, and `-s` panics for names without a dot.
26. **Pictures added in a later session replace earlier ones** (C73). `Parse` starts the picture counter at 100000 for every file (unpack.go:72), so the first PNG added after each opening is always `image100001.png`: opening a file, adding a picture, saving, opening again and adding another picture of the same format leaves only the second picture, shown in both places. In the same way (unpack.go:99) drawing ids start at 100001 after each opening and are repeated.
27. **The saved table of relationships may be in the wrong name space** (C77). `parseDocRelation` presets the name space of references (`XMLNS_R`) instead of that of tables (`XMLNS_REL`), and it stays if the table of the package uses a prefix; for a package without a table (which is allowed) nothing is preset, and the saved table is in no name space, also after AddLink. `C77_prefixed`, `C77_missing`, `C77_prefix`, `C77_bare`.
28. **Content types are not kept in step with the parts** (C78). WriteTo copies `[Content_Types].xml` from the template or the opened package. A gif or bmp picture in a document with the default theme, or a png added to an opened package that had no png before, is saved without a content type, and Word reports the file as damaged. `C78_format`, `C78_undeclared`.
29. **The place of the document is fixed** (C79). Parse looks for `word/document.xml`; the root relationships, which say where the document is, are not read. A package that has it elsewhere (some programs write `word/document2.xml`) is opened as an empty document, without an error, and after AddParagraph and WriteTo readers still find the old document. `C79_elsewhere`.
30. **Name spaces are not looked at** (C80). Decoders compare local names only. (a) A declaration `xmlns:w="..."` on `w:pgSz` is taken for the attribute `w`, and Parse fails with a number error (`C80_declaration_fails`). (b) `Requires` of `mc:Choice` is compared with the prefixes `wps`, `wpc` and `wpg`, not with what they stand for (`C80_requires`). (c) Of the declarations on `a:graphic` and `pic:pic` only those with the prefixes `a` and `pic` are kept, and the file is saved with these prefixes: when another prefix was used they are undeclared (`C80_undeclared`). (d) Elements of any name space called `p`, `r` or `t` are taken for paragraphs, runs and texts (`C80_foreign`).
31. **The order of attributes can matter** (C81). An attribute loop stops at the first bad number, and its error is passed over when it is the one of `GetInt`: `<w:spacing w:line="240" w:before="x"/>` keeps the line height, the other order loses it, and neither is reported (`C81_bad_number`). Attributes are told apart by their local names: `w:val="clear" x:val="1"` reads 1, the other order reads clear (`C81_clash`).
32. **Printing loses the text of links** (C82). `Paragraph.String` prints the field code of a link (`InstrText`), which only links added by this package have. A link of another program has a text instead: it is printed `[](target)` (`C82_link`). Of a cell only the first paragraph is printed (`C82_cell`), and text boxes are not printed at all.
33. **Adding from several goroutines is not safe** (C83). `AddParagraph`, `AddLink` and the picture calls append to shared slices without a lock, though ids are taken atomically. A paragraph or picture can be lost (`C83_paragraph_lost`), and because `addMedia` stores the length of the list before it appends, `Media` can give the bytes of another picture (`C83_wrong_picture`) or panic (`C83_media_panic`).
34. **Pointers from Media go stale** (C84). `Media` returns the address of an element of a slice. When a later picture makes the slice grow, `f.Media(name).Data = …` through the old pointer changes memory the document no longer uses, without an error (`C84_change_lost`, `C84_exact`).
35. **Relationships to parts that are missing** (C85). New and SplitByParagraph write relationships to `styles.xml`, `theme/theme1.xml` and `fontTable.xml` without looking whether the template has them. Splitting an opened package without a theme gives documents that are all damaged (`C85_split`); a document from New that is saved without a theme also has no content types, and WriteTo returns no error (`C85_bare`).
36. **A picture that replaces the styles** (C86). `archive/zip` finds a file by its cleaned name. A package with a picture called `word/media/../styles.xml` opens and saves without an error; entries are written in random order, and when the picture comes first, the next opening takes it for `word/styles.xml` (`C86_odd_media_names`).
37. **An id that cannot be read back** (C87). `parseDocRelation` reads ids as unsigned numbers, `addLinkRelation` writes the next one as a signed number. After opening a file with the id `rId9223372036854775807`, AddLink makes the id `rId-9223372036854775808`; WriteTo succeeds, and Parse rejects the file (`C87_too_large`).
38. **Saving over the opened file destroys it** (C88). Parse keeps the zip reader and WriteTo reads styles, fonts, headers and all other parts from it. A program that opens a file, changes the document, calls os.Create on the same path and WriteTo gets an error from WriteTo, and the file is an archive without entries; opening it gives an empty document and no error (`C88_overwritten`, `C88_lost`).
39. **Saving while adding gives broken files** (C89). pack lists the pictures first and writes relationships and main part in the random order of a Go map. A link added between the two is in the main part without a relationship, a picture added after the start has a relationship but no part (`C89_dangling`, `C89_picture_missing`). The package has no lock, so callers need a mutex (`C89_guarded`).
40. **Copies of translucent pictures are opaque** (C104). The copy of a picture by AppendFile and SplitByParagraph gets a new blip with the relationship and cstate only, so AlphaModFix is lost (`C104_transparency_lost`). `Size` of a shape changes the space it takes but not the size it is drawn with.
41. `BytesToString` and `StringToBytes` share memory: assigning to the slice, or appending to a part of it, changes strings, which Go programs take to be constant (`C106_shared`, `C106_part_overwrites`).
42. `WriteTo` returns 0 as the number of bytes, and so does `io.Copy` of a document, although the file is complete; programs that check or report the number are wrong (`C108_count_wrong`).

## Trusted base

* Lean 4.33.0's kernel. No Mathlib module is imported.
* Axioms: `tools/axioms.sh` prints them for every theorem in `MANIFEST.json`. Each depends on a subset
  of `propext`, `Classical.choice`, `Quot.sound`, and on nothing else. There are no axioms of our own,
  no unfinished proofs, no compiled evaluation; `decide` is used on closed model runs in examples and
  witnesses only.
* The reading of the Go code recorded in the comments of the model, and of the parts of the standard
  library restated there: `encoding/xml` (Go 1.20: strict mode, no `CharsetReader`, no custom
  entities), `strconv`, `fmt.Sscanf` for the one format that is used, `archive/zip` (call order of the
  writer; the reader opens the first entry of a name), `bufio.Writer`, `io.Copy` and the readers of C108, `fs.ValidPath`, `sync.Mutex`,
  `sync/atomic`.

### Modelled

All exported functions and methods of the package: building (paragraphs, runs, texts, tabs, links,
tables, pictures, shapes, themes), setters, relationships and media, `String`, filters, `MergeText`,
split, append, `Parse`, `WriteTo`, `Read`, `LoadBodyItems`, `IncreaseID`, `BytesToString`, `StringToBytes`. Every `UnmarshalXML` method that
`Parse` can reach (`NumProperties` has one that nothing calls). The
struct tags that drive encoding. `main` of cmd/main, with its demonstration document (Demo.lean).

### Not modelled, or simplified

* The bytes of the zip format and deflate; `archive/zip` is taken to give back what was written.
* Decoding of image headers and of floating-point numbers, MD5: parameters, quantified over.
* `regexp` in `SplitByParagraph` rules: the matcher is a parameter (an arbitrary predicate).
* Strings that are not valid UTF-8 on the Go side. (Input bytes of `Parse` may be anything.)
* The Go memory model: memory is sequentially consistent and a slice header is one word.
* Sharing of backing arrays between slices is modelled in `Slices` (C65) and `Bytes` (C106) only; elsewhere `LoadBodyItems` copies its items.
* The files of the default theme other than `[Content_Types].xml` and `_rels/.rels`.
* structcompatibility.go is left out of the package by its build tag (`ignore`). `(*Media).String` (media.go:33-35) is `mediaFolder ++ name` in `Pack`.
* Running out of memory; `make` with huge sizes.
* The state left behind by a panic, except where a property is about it (C20).
* What a `Docx` returned together with an error contains.
* Paragraphs inside text boxes are not targets of the operations of a history (`World.Op`); they are
  present in documents, and all other functions handle them.
* Line and column numbers in XML errors; texts of error messages, except the prefix "expected".
* Name spaces: the code compares local names only. Prefixes are kept, as end tags must repeat them.

