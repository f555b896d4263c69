import Verif.Types

/-!
# The document object: relationships, media, counters

Models docx.go, empty.go, id.go, image.go, link.go, media.go, apirel.go, structrel.go.
-/

namespace Docx

abbrev Bytes := List UInt8

/-- structrel.go:39-44 `Relationship` -/
structure Rel where
  id : String
  type : String
  target : String
  targetMode : String := ""
deriving DecidableEq, Repr, Inhabited

/-- media.go:27-30 `Media` -/
structure Media where
  name : String
  data : Bytes
deriving DecidableEq, Repr, Inhabited

/-- structrel.go:26 `REL_HYPERLINK` -/
def relHyperlink : String :=
  "http://schemas.openxmlformats.org/officeDocument/2006/relationships/hyperlink"
/-- structrel.go:27 `REL_IMAGE` -/
def relImage : String :=
  "http://schemas.openxmlformats.org/officeDocument/2006/relationships/image"
/-- structrel.go:29 `REL_TARGETMODE` -/
def relTargetMode : String := "External"

/-- structrel.go:25 `XMLNS_REL` -/
def xmlnsRel : String := "http://schemas.openxmlformats.org/package/2006/relationships"

/-- What an opened file gives: some bytes, and then the end of the file or an error -/
structure Stream where
  data : Bytes
  err : Option Err := none
deriving DecidableEq, Repr, Inhabited

/-- An `fs.FS`: `Open` gives an error or a file to read. -/
abbrev FS := String → Except Err Stream

/-- docx.go:36-56 `Docx`.  The XML name-space attributes of `Document` are constants written by
every constructor (docx.go:106-117, empty.go:29-46, structdoc.go:231-242, unpack.go:86-95) and are
added when marshalling.  `mediaNameIdx` and `slowIDs` are maps, modelled as functions (a missing
key of `slowIDs` reads as 0).  The mutex is modelled in `Verif.Conc`. -/
structure Doc where
  items : List BItem := []
  rels : List Rel := []
  media : List Media := []
  mediaIdx : String → Option Nat := fun _ => none
  rID : UInt64 := 0
  imageID : UInt64 := 0
  docID : UInt64 := 0
  slowIDs : String → UInt64 := fun _ => 0
  template : String := ""
  tmplfs : Option FS := none
  tmpfslst : List String := []
  /-- `docRelation.Xmlns` -/
  relXmlns : String := xmlnsRel

/-- The three relationships every new document starts with
(empty.go:50-66, docx.go:118-137, structdoc.go:247-263). -/
def baseRels : List Rel :=
  [ ⟨"rId1", "http://schemas.openxmlformats.org/officeDocument/2006/relationships/styles",
      "styles.xml", ""⟩,
    ⟨"rId2", "http://schemas.openxmlformats.org/officeDocument/2006/relationships/theme",
      "theme/theme1.xml", ""⟩,
    ⟨"rId3", "http://schemas.openxmlformats.org/officeDocument/2006/relationships/fontTable",
      "fontTable.xml", ""⟩ ]

/-- docx.go:60-62 `New`, empty.go:27-74 `newEmptyFile` -/
def Doc.new : Doc := { rels := baseRels, rID := 3 }

/-- Map update. -/
def upd {α : Type} (m : String → α) (k : String) (v : α) : String → α :=
  fun x => if x = k then v else m x

/-- docx.go:144-146: the index map built by `LoadBodyItems` for the media from position `i` on -/
def buildIdx (m : String → Option Nat) (i : Nat) : List Media → (String → Option Nat)
  | [] => m
  | x :: xs => buildIdx (upd m x.name (some i)) (i + 1) xs

/-- The counter name of pictures. -/
def picName : String := "图片"

/-- docx.go:104-149 `LoadBodyItems`. The slices handed over are copied here: later appends by
the caller to the same backing arrays are not modelled. -/
def Doc.loadBodyItems (items : List BItem) (media : List Media) : Doc :=
  { items := items
    rels := baseRels
    media := media
    mediaIdx := buildIdx (fun _ => none) 0 media
    rID := 3
    slowIDs := upd (fun _ => 0) picName (UInt64.ofNat (media.length + 1)) }

/-- id.go:24-31 `IncreaseID` (called by one goroutine; see `Verif.Conc` for several) -/
def Doc.increaseID (f : Doc) (name : String) : Doc × UInt64 :=
  let n := f.slowIDs name + 1
  ({ f with slowIDs := upd f.slowIDs name n }, n)

/-- `atomic.AddUintptr(&f.docID, 1)` (apidrawing.go:38, apishape.go:30, structdrawing.go:294) -/
def Doc.nextDocID (f : Doc) : Doc × UInt64 :=
  ({ f with docID := f.docID + 1 }, f.docID + 1)

/-- `"rId" + strconv.Itoa(int(n))` for a `uintptr` `n` (link.go:41, 57) -/
def ridOf (n : UInt64) : String := "rId" ++ itoa n.toInt64

/-- link.go:39-50 `addLinkRelation` -/
def Doc.addLinkRelation (f : Doc) (link : String) : Doc × String :=
  let n := f.rID + 1
  let rel : Rel := ⟨ridOf n, relHyperlink, link, relTargetMode⟩
  ({ f with rID := n, rels := f.rels ++ [rel] }, rel.id)

/-- link.go:55-65 `addImageRelation` -/
def Doc.addImageRelation (f : Doc) (m : Media) : Doc × String :=
  let n := f.rID + 1
  let rel : Rel := ⟨ridOf n, relImage, "media/" ++ m.name, ""⟩
  ({ f with rID := n, rels := f.rels ++ [rel] }, rel.id)

/-- media.go:47-50 `addMedia` -/
def Doc.addMedia (f : Doc) (m : Media) : Doc :=
  { f with mediaIdx := upd f.mediaIdx m.name (some f.media.length), media := f.media ++ [m] }

/-- `"image" + strconv.Itoa(int(n)) + "." + format` (image.go:30) -/
def imageName (n : UInt64) (format : String) : String :=
  "image" ++ itoa n.toInt64 ++ "." ++ format

/-- image.go:29-33 `addImage` -/
def Doc.addImage (f : Doc) (format : String) (data : Bytes) : Doc × String :=
  let n := f.imageID + 1
  let m : Media := ⟨imageName n format, data⟩
  ({ f with imageID := n }.addMedia m).addImageRelation m

/-- link.go:68-75 `ReferTarget` over the relationship list -/
def referTarget (id : String) : List Rel → Option String
  | [] => none
  | a :: as => if a.id = id then some a.target else referTarget id as

/-- link.go:68-75 `ReferTarget`; `none` is `ErrRefIDNotFound` -/
def Doc.referTarget (f : Doc) (id : String) : Option String := Docx.referTarget id f.rels

/-- link.go:78-85 `ReferID` over the relationship list -/
def referID (target : String) : List Rel → Option String
  | [] => none
  | a :: as => if a.target = target then some a.id else referID target as

/-- link.go:78-85 `ReferID`; `none` is `ErrRefIDNotFound` -/
def Doc.referID (f : Doc) (target : String) : Option String := Docx.referID target f.rels

/-- media.go:38-44 `Media`: `ok none` is the nil result, `panic` an index out of range -/
def Doc.getMedia (f : Doc) (name : String) : Res (Option Media) :=
  match f.mediaIdx name with
  | none => .ok none
  | some i => match f.media[i]? with
    | some m => .ok (some m)
    | none => .panic

/-- apirel.go:24-32 `RangeRelationships`.  The callback gets the address of the loop variable, a
copy of the relationship: it may change that copy (second component of its result), which is then
dropped.  `σ` is whatever other state the callback updates. -/
def rangeRels {σ : Type} (iter : σ → Rel → σ × Rel × Option Err) : σ → List Rel → σ × Option Err
  | s, [] => (s, none)
  | s, r :: rs =>
    match iter s r with
    | (s', _, some e) => (s', some e)
    | (s', _, none) => rangeRels iter s' rs

/-- apirel.go:24-32 `RangeRelationships` on a document: new callback state, error, document after -/
def Doc.rangeRelationships {σ : Type} (f : Doc) (iter : σ → Rel → σ × Rel × Option Err) (s : σ) :
    σ × Option Err × Doc :=
  let (s', e) := rangeRels iter s f.rels
  (s', e, f)

end Docx
