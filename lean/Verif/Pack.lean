import Verif.Unmarshal
import Verif.Marshal
import Verif.XmlText

/-!
# Reading and writing packages

Models pack.go, unpack.go, docx.go:93-100 (`Parse`) and docx.go:152-157 (`WriteTo`).

Not modelled: the bytes of the zip format and the compression.  An archive is the list of its entries;
`archive/zip` is taken to give back the entries that were written.  A writer that
fails is in `Verif.Writer`.
-/

namespace Docx

variable [GoEnv]

/-- media.go:24 `MEDIA_FOLDER` -/
def mediaFolder : String := "word/media/"
/-- The name of the main part (unpack.go:54, pack.go:54) -/
def documentName : String := "word/document.xml"
/-- The name of its relationships (unpack.go:47, pack.go:53) -/
def relsName : String := "word/_rels/document.xml.rels"
/-- structdoc.go:33 `XMLNS_R` -/
def xmlnsR : String := "http://schemas.openxmlformats.org/officeDocument/2006/relationships"

/-! ## Archives -/

/-- `*zip.File`: the name, and what `Open` gives -/
structure Entry where
  name : String
  file : Except Err Stream

/-- `*zip.Reader` -/
abbrev Archive := List Entry

/-- `strings.Split(s, "/")` -/
def splitSlash : List Char → List (List Char)
  | [] => [[]]
  | c :: cs =>
    if c = '/' then [] :: splitSlash cs
    else match splitSlash cs with
      | [] => [[c]]
      | x :: xs => (c :: x) :: xs

/-- `fs.ValidPath` -/
def validPath (s : String) : Bool :=
  s == "." || (splitSlash s.toList).all fun x => x != [] && x != ['.'] && x != ['.', '.']

/-- The elements of `path.Clean` of a path with these elements; `acc` is reversed -/
def cleanPath (rooted : Bool) (acc : List (List Char)) : List (List Char) → List (List Char)
  | [] => acc.reverse
  | x :: xs =>
    if x = [] ∨ x = ['.'] then cleanPath rooted acc xs
    else if x = ['.', '.'] then
      match acc with
      | [] => if rooted then cleanPath rooted [] xs else cleanPath rooted [x] xs
      | y :: ys => if y = ['.', '.'] then cleanPath rooted (x :: acc) xs else cleanPath rooted ys xs
    else cleanPath rooted (x :: acc) xs

/-- `strings.Join(xs, "/")` -/
def joinSlash : List (List Char) → List Char
  | [] => []
  | [x] => x
  | x :: xs => x ++ '/' :: joinSlash xs

/-- Leading `..` elements followed by another element are dropped -/
def dropUp : List (List Char) → List (List Char)
  | x :: y :: xs => if x = ['.', '.'] then dropUp (y :: xs) else x :: y :: xs
  | xs => xs

/-- `toValidName` of `archive/zip` (`path.Clean` gives "." for nothing) -/
def toValidName (s : String) : String :=
  let cs := s.toList.map fun c => if c = '\\' then '/' else c
  let xs := dropUp (cleanPath (cs.head? == some '/') [] (splitSlash cs))
  if xs = [] then (if cs.head? == some '/' then "" else ".") else String.ofList (joinSlash xs)

/-- Does the name end with a slash? -/
def isDirName (s : String) : Bool := s.toList.getLast? == some '/'

/-- Is `d` a directory on the way to the file `n`? -/
def isParent (d n : String) : Bool := (d.toList ++ ['/']).isPrefixOf n.toList

/-- `(*zip.Reader).Open`: the name must be a valid path.  It stands for the first entry with that name
(the names in the archive are first made valid paths), or for a directory, which can be opened but not
read. -/
def zipFS (a : Archive) : FS := fun name =>
  if ¬ validPath name then .error .notExist
  else if name = "." then .ok ⟨[], some .io⟩
  else match a.find? fun e => toValidName e.name == name with
    | some e => if isDirName e.name then .ok ⟨[], some .io⟩ else e.file
    | none => if a.any fun e => isParent name (toValidName e.name) then .ok ⟨[], some .io⟩
      else .error .notExist

/-! ## Relationships -/

/-- structrel.go:39-44: one attribute, found by its local name -/
def relAttr (r : Rel) (a : Attr) : Rel :=
  match a.name.loc with
  | "Id" => { r with id := a.val }
  | "Type" => { r with type := a.val }
  | "Target" => { r with target := a.val }
  | "TargetMode" => { r with targetMode := a.val }
  | _ => r

/-- `unmarshal` of `encoding/xml` for a `Relationship`: the attributes, then everything up to the end
tag is passed over -/
def unRel (as : List Attr) (d : Dec) : Out Rel :=
  let o := reflTextN (d.rest.length + 1) "" d
  ⟨as.foldl relAttr ⟨"", "", "", ""⟩, o.err, o.dec⟩

/-- `unmarshal` of `encoding/xml` for the children of `Relationships`: elements called `Relationship`
are appended, others passed over; an element that fails is not appended.  The number bounds the tokens
(never reached). -/
def unRelsN : Nat → List Rel → Dec → Out (List Rel)
  | 0, s, d => ⟨s, some .fuel, d⟩
  | f + 1, s, d =>
    match d.token with
    | (.error e, d') => ⟨s, some e, d'⟩
    | (.ok (.start q as), d') =>
      if q.loc = "Relationship" then
        match unRel as d' with
        | ⟨r, none, d''⟩ => unRelsN f (s ++ [r]) d''
        | ⟨_, some e, d''⟩ => ⟨s, some e, d''⟩
      else
        match d'.skip with
        | (none, d'') => unRelsN f s d''
        | (some e, d'') => ⟨s, some e, d''⟩
    | (.ok (.stop _), d') => ⟨s, none, d'⟩
    | (.ok _, d') => unRelsN f s d'

/-- structrel.go:33-36: the attribute `xmlns` of the root, found by its local name; the last one counts -/
def relsXmlns (x : String) (as : List Attr) : String :=
  as.foldl (fun x a => if a.name.loc = "xmlns" then a.val else x) x

/-- unpack.go:113 `xml.NewDecoder(zf).Decode(&f.docRelation)`: name space and relationships after
decoding into `(x, s)`; the name of the root element is not looked at -/
def decodeRels (x : String) (s : List Rel) (toks : List Tok) : Out (String × List Rel) :=
  rootN (fun as d =>
    let o := unRelsN (d.rest.length + 1) s d
    ⟨(relsXmlns x as, o.val), o.err, o.dec⟩) (x, s) (toks.length + 1) ⟨toks, [], false⟩

/-- `strings.HasPrefix(s, "rId")` and `s[3:]` -/
def afterRId (s : String) : Option String :=
  match s.toList with
  | 'r' :: 'I' :: 'd' :: cs => some (String.ofList cs)
  | _ => none

/-- unpack.go:117-128: all ids must be `rId` and a number; the counter becomes the largest -/
def scanIds : UInt64 → List Rel → UInt64 × Option Err
  | n, [] => (n, none)
  | n, r :: rs =>
    match afterRId r.id with
    | none => (n, some .syntax)
    | some t => match parseUint? t with
      | none => (n, some .strconv)
      | some k => scanIds (if n < k then k else n) rs

/-! ## Parse -/

/-- The tokens the XML decoder sees in a file whose reading may fail: an error of the reader is met
after the last token -/
def Stream.toks (s : Stream) : List Tok :=
  match s.err with
  | none => lex s.data
  | some _ => lex s.data ++ [.bad]

/-- unpack.go:105-130 `parseDocRelation` -/
def Doc.parseRels (f : Doc) (e : Entry) : Doc × Option Err :=
  match e.file with
  | .error x => (f, some x)
  | .ok s =>
    match decodeRels xmlnsR f.rels s.toks with
    | ⟨(x, rs), some e, _⟩ => ({ f with relXmlns := x, rels := rs }, some e)
    | ⟨(x, rs), none, _⟩ =>
      let (n, e) := scanIds f.rID rs
      ({ f with relXmlns := x, rels := rs, rID := n }, e)

/-- unpack.go:77-102 `parseDocument`; `me` is the address of the document -/
def Doc.parseDocument (f : Doc) (me : DocId) (e : Entry) : Doc × Option Err :=
  match e.file with
  | .error x => (f, some x)
  | .ok s =>
    let o := decodeDocument (some me) f.items s.toks
    ({ f with docID := 100000, items := o.val }, o.err)

/-- unpack.go:61, 134: the name of a media file without the folder; `none` for other files -/
def afterMedia (s : String) : Option String :=
  if mediaFolder.toList.isPrefixOf s.toList then
    some (String.ofList (s.toList.drop mediaFolder.toList.length))
  else none

/-- unpack.go:133-146 `parseMedia` (`Close` of a zip entry does not fail) -/
def Doc.parseMedia (f : Doc) (name : String) (e : Entry) : Doc × Option Err :=
  match e.file with
  | .error x => (f, some x)
  | .ok s =>
    match s.err with
    | some x => (f, some x)
    | none => (f.addMedia ⟨name, s.data⟩, none)

/-- unpack.go:46-71: one entry of the archive -/
def Doc.unpackEntry (f : Doc) (me : DocId) (e : Entry) : Doc × Option Err :=
  if e.name = relsName then f.parseRels e
  else if e.name = documentName then f.parseDocument me e
  else match afterMedia e.name with
    | some n => f.parseMedia n e
    | none => ({ f with tmpfslst := f.tmpfslst ++ [e.name] }, none)

/-- unpack.go:46-71: the loop over the entries -/
def Doc.unpackAll (f : Doc) (me : DocId) : List Entry → Doc × Option Err
  | [] => (f, none)
  | e :: es =>
    match f.unpackEntry me e with
    | (f', none) => f'.unpackAll me es
    | (f', some x) => (f', some x)

/-- unpack.go:40-74 `unpack`, docx.go:93-100 `Parse` on a readable archive: the document (also returned
with an error) and the error -/
def unpack (me : DocId) (a : Archive) : Doc × Option Err :=
  match ({ relXmlns := "", tmplfs := some (zipFS a) } : Doc).unpackAll me a with
  | (f, none) => ({ f with imageID := 100000 }, none)
  | (f, some x) => (f, some x)

/-! ## Saving -/

/-- A Go map as a list of pairs without double keys -/
def putFile (m : List (String × Stream)) (k : String) (v : Stream) : List (String × Stream) :=
  if m.any (·.1 == k) then m.map fun p => if p.1 = k then (k, v) else p else m ++ [(k, v)]

/-- The path of a template file (pack.go:39, 46) -/
def Doc.tmplPath (f : Doc) (name : String) : String :=
  if f.template = "" then name else "xml/" ++ f.template ++ "/" ++ name

/-- pack.go:37-51: the template files; a nil file system panics -/
def Doc.openTmpl (f : Doc) (m : List (String × Stream)) : List String → Res (List (String × Stream))
  | [] => .ok m
  | n :: ns =>
    match f.tmplfs with
    | none => .panic
    | some fs => match fs (f.tmplPath n) with
      | .error e => .err e
      | .ok s => f.openTmpl (putFile m n s) ns

/-- pack.go:56-58: the media -/
def putMedia (m : List (String × Stream)) : List Media → List (String × Stream)
  | [] => m
  | x :: xs => putMedia (putFile m (mediaFolder ++ x.name) ⟨x.data, none⟩) xs

/-- pack.go:35-58: the map of files to be written -/
def Doc.files (f : Doc) : Res (List (String × Stream)) :=
  match f.openTmpl [] f.tmpfslst with
  | .ok m =>
    let m := putFile m relsName ⟨xmlBytes (mRels f.relXmlns f.rels), none⟩
    let m := putFile m documentName ⟨xmlBytes (mDocument f.items), none⟩
    .ok (putMedia m f.media)
  | .err e => .err e
  | .panic => .panic

/-- What ended up in an archive -/
abbrev Saved := List (String × Bytes)

/-- pack.go:61-69: one file.  `zip.Writer.Create` refuses names of more than 65535 bytes; a name that
ends with a slash makes a directory, to which nothing can be written. -/
def packOne (p : String × Stream) : Saved × Option Err :=
  if 65535 < p.1.utf8ByteSize then ([], some .zip)
  else if isDirName p.1 ∧ p.2.data ≠ [] then ([(p.1, [])], some .zip)
  else ([(p.1, p.2.data)], p.2.err)

/-- pack.go:60-70: the loop over the map, in the order of the list -/
def packAll : List (String × Stream) → Saved × Option Err
  | [] => ([], none)
  | p :: ps =>
    match packOne p with
    | (w, some e) => (w, some e)
    | (w, none) => let (ws, e) := packAll ps; (w ++ ws, e)

/-- `l` is an order in which the map `m` may be iterated -/
def IterOrder (m l : List (String × Stream)) : Prop := l.Perm m

/-- pack.go:34-73 `pack`, docx.go:152-157 `WriteTo` on a writer that takes everything: `Saves f out e`
says that saving `f` may leave the entries `out` and return the error `e` -/
inductive Saves (f : Doc) : Saved → Option Err → Prop
  | noFile {e} (h : f.files = .err e) : Saves f [] (some e)
  | order {m l} (h : f.files = .ok m) (hl : IterOrder m l) : Saves f (packAll l).1 (packAll l).2

/-- Reading an archive that was written: `archive/zip` is taken to give back names and contents. -/
def reread (out : Saved) : Archive := out.map fun p => ⟨p.1, .ok ⟨p.2, none⟩⟩

end Docx
