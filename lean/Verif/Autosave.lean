import Verif.World
import Verif.Pack

/-!
# Saving while another goroutine goes on adding

Models `WriteTo` of one goroutine while another one adds to the same document.  The adding goroutine
changes the document step by step; `pack` reads it at several moments: the list of pictures when it makes
the map of files, the relationships and the body when it comes to these files, in the order of a Go map,
and each element of the body when the encoder comes to it.  Simplifications: memory is sequentially
consistent; one goroutine adds (`Verif.Busy` has several); the number of elements of a slice is read once,
as `encoding/xml` does it, and as elements of these slices are never changed by the calls below this is
one step for relationships, pictures and the children of a paragraph.
-/

namespace Docx

/-- A call of the goroutine that adds.  `i` is the place of a paragraph in the body. -/
inductive Add where
  /-- `AddParagraph` -/
  | paragraph
  /-- `AddTableTwips` -/
  | table (rows cols : List Int64) (width : Int64) (colors : Option BorderColors)
  /-- `AddText` -/
  | text (i : Nat) (s : String)
  /-- `AddLink` -/
  | link (i : Nat) (text url : String)
  /-- `AddInlineDrawing` -/
  | inline (i : Nat) (pic : Bytes)
  /-- `AddAnchorDrawing` -/
  | anchor (i : Nat) (pic : Bytes)

/-- The same call in a history of calls, on document 0 -/
def Add.op : Add → Op
  | .paragraph => .addParagraph 0
  | .table rows cols width colors => .addTableTwips 0 rows cols width colors
  | .text i s => .addText 0 (.body i) s
  | .link i s url => .addLink 0 (.body i) s url
  | .inline i pic => .addInlineDrawing 0 (.body i) pic
  | .anchor i pic => .addAnchorDrawing 0 (.body i) pic

/-- Change the paragraph at place `i` of the body -/
def Doc.atPara (f : Doc) (i : Nat) (g : Para → Para) : Doc := { f with items := modPara f.items (.body i) g }

/-- apidrawing.go:33-49 and 136-152: the document after each step before the drawing is appended -/
def Doc.pictureSteps (f : Doc) (fmt : String) (pic : Bytes) : List Doc :=
  -- apidrawing.go:38, 39
  let f1 := f.nextDocID.1
  let f2 := (f1.increaseID picName).1
  -- image.go:30
  let f3 := { f2 with imageID := f2.imageID + 1 }
  -- media.go:48-49
  let f4 := f3.addMedia ⟨imageName (f2.imageID + 1) fmt, pic⟩
  -- link.go:57, 62
  let f5 := { f4 with rID := f4.rID + 1 }
  [f1, f2, f3, f4, f5, (f2.addImage fmt pic).1]

/-- The document after each step of a call -/
def Doc.during [ImgEnv] (f : Doc) : Add → List Doc
  -- apipara.go:29
  | .paragraph => [f.addParagraph 0]
  -- apitable.go:156
  | .table rows cols width colors => [(f.addTableTwips 0 rows cols width colors).1]
  -- apitext.go:35, 65
  | .text i s => [f.atPara i fun p => (p.addText s).1]
  -- link.go:41, link.go:47, apilink.go:43
  | .link i text url =>
    [{ f with rID := f.rID + 1 }, (f.addLinkRelation url).1,
      (f.addLinkRelation url).1.atPara i fun p => (p.addLink f text url).2.1]
  | .inline i pic =>
    match ImgEnv.decodeSize pic with
    | none => []
    | some (_, _, fmt) =>
      -- apidrawing.go:33-49, apidrawing.go:110
      f.pictureSteps fmt pic ++ [(f.addPicture pic).1.atPara i fun p => (p.addInlineDrawing f pic).2.1]
  | .anchor i pic =>
    match ImgEnv.decodeSize pic with
    | none => []
    | some (_, _, fmt) =>
      -- apidrawing.go:136-152, apidrawing.go:222
      f.pictureSteps fmt pic ++ [(f.addPicture pic).1.atPara i fun p => (p.addAnchorDrawing f pic).2.1]

/-- The last of a list of states, or the first state when there is none -/
def lastDoc (f : Doc) (l : List Doc) : Doc := l.getLast?.getD f

/-- The document after each step of calls one after the other -/
def Doc.steps [ImgEnv] (f : Doc) : List Add → List Doc
  | [] => []
  | a :: as => f.during a ++ (lastDoc f (f.during a)).steps as

/-- The document after `t` steps -/
def Doc.at [ImgEnv] (f : Doc) (as : List Add) (t : Nat) : Doc := lastDoc f ((f.steps as).take t)

/-- The moments at which `pack` reads the document, counted in steps of the other goroutine -/
structure Moments where
  /-- pack.go:56, the list of pictures -/
  media : Nat
  /-- pack.go:66 for the relationships -/
  rels : Nat
  /-- pack.go:66 for the main part: the number of elements of the body -/
  body : Nat
  /-- the encoder comes to an element of the body -/
  item : Nat → Nat

/-- The order in which `pack` reads: the pictures first (pack.go:56), then the relationships before or after
the main part (pack.go:60, the loop over a map). -/
structure Moments.Real (m : Moments) : Prop where
  media_rels : m.media ≤ m.rels
  media_body : m.media ≤ m.body
  body_item : m.body ≤ m.item 0
  item_item : ∀ i, m.item i ≤ m.item (i + 1)
  apart : m.rels ≤ m.body ∨ ∀ i, m.item i ≤ m.rels

/-- pack.go:34-73: what `pack` sees of the document.  What it writes is `Doc.files` of this. -/
def Doc.seen [ImgEnv] (f : Doc) (as : List Add) (m : Moments) : Doc :=
  { f.at as m.media with
    rels := (f.at as m.rels).rels
    items := (List.range (f.at as m.body).items.length).filterMap fun i => (f.at as (m.item i)).items[i]? }

end Docx
