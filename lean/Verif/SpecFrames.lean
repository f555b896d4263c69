import Verif.SpecMakes

/-!
# The sizes and places of drawings, and what the calls say they should be (C104)

`PicFrame` describes a picture or shape: the size of the space it takes, the size it is drawn with, where it is and how
opaque it is.  `Frames` collects the frames of a document.  `Call.frames` says what a call does to them: it works on
frames alone, without any document.
-/

namespace Docx

/-- A picture or a shape as it lies on the page; sizes in EMU -/
structure PicFrame where
  inline : Bool
  shape : Bool
  /-- width and height of the space in the page, if given -/
  size : Option (Int64 × Int64)
  /-- width and height of the picture or shape in that space, if given -/
  inner : Option (Int64 × Int64)
  /-- behind the text; 0 for drawings in the line -/
  behind : Int64 := 0
  /-- distance from the left, if given -/
  offset : Option Int64 := none
  /-- `AlphaModFix` of a picture, if given -/
  alpha : Option Int64 := none
deriving DecidableEq

/-- The frames of a paragraph: the Go type of every child, and the frames in it -/
abbrev ParaFrames := List (String × List PicFrame)

/-- The frames of a piece of a document -/
inductive Frames where
  | para (p : ParaFrames)
  /-- rows of cells of paragraphs -/
  | table (rows : List (List (List ParaFrames)))
  | page
deriving DecidableEq

/-! ## Reading a document -/

/-- The content of a graphic is a shape and no picture -/
def shapeInside (g : Option Graphic) : Bool :=
  match g.bind (·.data) with
  | some d => d.pic.isNone && d.shape.isSome
  | none => false

/-- The size that a graphic is drawn with: of the picture, or else of the shape -/
def innerSize (g : Option Graphic) : Option (Int64 × Int64) :=
  match g.bind (·.data) with
  | none => none
  | some d =>
    match d.pic with
    | some p => p.spPr.map fun s => (s.xfrm.ext.cx, s.xfrm.ext.cy)
    | none => d.shape.bind fun s => s.spPr.map fun s => (s.xfrm.ext.cx, s.xfrm.ext.cy)

/-- The alpha value of a picture -/
def alphaInside (g : Option Graphic) : Option Int64 :=
  match g.bind (·.data) with
  | none => none
  | some d => d.pic.bind fun p => p.blipFill.bind fun b => b.blip.alphaModFix

/-- A drawing in the line -/
def inlineFrame (i : Inline) : PicFrame :=
  { inline := true, shape := shapeInside i.graphic, size := i.extent.map fun e => (e.cx, e.cy)
    inner := innerSize i.graphic, alpha := alphaInside i.graphic }

/-- A floating drawing -/
def anchorFrame (a : Anchor) : PicFrame :=
  { inline := false, shape := shapeInside a.graphic, size := a.extent.map fun e => (e.cx, e.cy)
    inner := innerSize a.graphic, behind := a.behindDoc, offset := a.positionH.map (·.posOffset)
    alpha := alphaInside a.graphic }

/-- The drawings of a piece of a run -/
def pieceFrames : RChild → List PicFrame
  | .drawing d => (d.inl.map inlineFrame).toList ++ (d.anchor.map anchorFrame).toList
  | _ => []

/-- A child of a paragraph -/
def childFrames : PChild → String × List PicFrame
  | .run r => ("*docx.Run", r.children.flatMap pieceFrames)
  | .link _ => ("*docx.Hyperlink", [])
  | .rpr _ => ("*docx.RunProperties", [])

/-- A paragraph -/
def paraFrames (p : Para) : ParaFrames := p.children.map childFrames

/-- A piece of a body -/
def itemFrames : BItem → Frames
  | .para p => .para (paraFrames p)
  | .table t => .table (t.rows.map fun r => r.cells.map fun c => c.paras.map paraFrames)
  | .sect _ => .page

/-- A document -/
def Doc.frames (f : Doc) : List Frames := f.items.map itemFrames

/-! ## What calls do -/

/-- Change the frames of the paragraph at a place -/
def framesAt (l : Loc) (k : ParaFrames → ParaFrames) (fs : List Frames) : List Frames :=
  match l with
  | .body i => fs.modify i fun
    | .para p => .para (k p)
    | d => d
  | .cell i r c j => fs.modify i fun
    | .table rows => .table (rows.modify r fun row => row.modify c fun cell => cell.modify j k)
    | d => d

/-- One more child of the paragraph at a place -/
def frameAt (l : Loc) (kind : String) (new : List PicFrame) : List Frames → List Frames :=
  framesAt l (· ++ [(kind, new)])

/-- The frame gets a new size.  What is drawn in it gets that size too if it is a picture; a shape keeps its own. -/
def PicFrame.resized (w h : Int64) (f : PicFrame) : PicFrame :=
  { f with size := f.size.map fun _ => (w, h), inner := if f.shape then f.inner else f.inner.map fun _ => (w, h) }

/-- A floating frame gets a new place, and its picture an alpha value -/
def PicFrame.placed (behind offset alpha : Int64) (f : PicFrame) : PicFrame :=
  if f.inline then f
  else { f with behind := behind, offset := f.offset.map fun _ => offset
                alpha := if f.shape then f.alpha else some alpha }

/-- What stays after `Drop` + `name`: everything but the shapes, if these are among what is dropped -/
def PicFrame.stays (name : String) (f : PicFrame) : Bool :=
  !(f.shape && ["Shape", "ShapeAndCanvas", "ShapeAndCanvasAndGroup", "NilPicture"].contains name)

/-- The frame of a copy: the transparency of pictures is lost -/
def PicFrame.copied (f : PicFrame) : PicFrame := { f with alpha := none }

/-- The Go type of a piece -/
def Frames.kind : Frames → String
  | .para _ => "*docx.Paragraph"
  | .table _ => "*docx.Table"
  | .page => "*docx.SectPr"

/-- Change all paragraphs of a piece -/
def Frames.mapParas (k : ParaFrames → ParaFrames) : Frames → Frames
  | .para p => .para (k p)
  | .table rows => .table (rows.map fun r => r.map fun c => c.map k)
  | .page => .page

/-- Without the frames that `Drop` + `name` drops -/
def stripped (name : String) (p : ParaFrames) : ParaFrames := p.map fun x => (x.1, x.2.filter (PicFrame.stays name))

/-- The frame of a new drawing of this size -/
def newPicFrame (inline shape : Bool) (w h : Int64) : PicFrame :=
  { inline := inline, shape := shape, size := some (w, h), inner := some (w, h)
    offset := if inline then none else some 0 }

/-- What a call does to the frames of the document.  The size of a new picture is the one C63 is about. -/
def Call.frames [ImgEnv] : Call → List Frames → List Frames
  | .paragraph, fs => fs ++ [.para []]
  | .cellParagraph i r c, fs => fs.modify i fun
      | .table rows => .table (rows.modify r fun row => row.modify c fun cell => cell ++ [[]])
      | d => d
  | .table rows cols _ _, fs => fs ++ [.table (List.replicate rows.toInt.toNat (List.replicate cols.toInt.toNat []))]
  | .tableTwips heights widths _ _, fs =>
      fs ++ [.table (List.replicate heights.length (List.replicate widths.length []))]
  | .a3, fs => fs ++ [.page]
  | .a4, fs => fs ++ [.page]
  | .text l _, fs => frameAt l "*docx.Run" [] fs
  | .tab l, fs => frameAt l "*docx.Run" [] fs
  | .pageBreak l, fs => frameAt l "*docx.Run" [] fs
  | .link l _ _, fs => frameAt l "*docx.Hyperlink" [] fs
  | .picture inline l pic, fs =>
      match ImgEnv.decodeSize pic with
      | none => fs
      | some (w, h, _) =>
        match scaleSize w h with
        | none => fs
        | some (x, y) => frameAt l "*docx.Run" [newPicFrame inline false x y] fs
  | .shape inline l w h _ _ _ _, fs => frameAt l "*docx.Run" [newPicFrame inline true w h] fs
  | .formatRun _ _ _, fs => fs
  | .formatPara _ _, fs => fs
  | .formatTable _ _, fs => fs
  | .formatRow _ _ _, fs => fs
  | .formatCell _ _ _ _, fs => fs
  | .resize l k w h, fs => framesAt l (·.modify k fun x => (x.1, x.2.map (PicFrame.resized w h))) fs
  | .textTab l _, fs => frameAt l "*docx.Run" [] fs
  | .place l k b o a, fs => framesAt l (·.modify k fun x => (x.1, x.2.map (PicFrame.placed b o a))) fs
  | .keep names, fs => fs.filter fun d => names.contains d.kind
  | .drop name, fs => fs.map (.mapParas (stripped name))
  | .keepIn l names, fs => framesAt l (·.filter fun x => names.contains x.1) fs
  | .dropIn l name, fs => framesAt l (stripped name) fs

/-- The frames of the document that a program of calls builds -/
def framesOf [ImgEnv] (cs : List Call) : List Frames := cs.foldl (fun fs c => c.frames fs) []

/-! ## Programs with several documents -/

/-- The frames of the copy of a piece -/
def Frames.copied : Frames → Frames := .mapParas fun p => p.map fun x => (x.1, x.2.map PicFrame.copied)

/-- The documents of a program, what they should show (as in `Makes`), and the frames that should be in them -/
inductive FramedDocs [GoEnv] [ImgEnv] : World → List (List Block) → List (List Frames) → Prop
  | start : FramedDocs [] [] []
  | new {w s t} : FramedDocs w s t → FramedDocs (w ++ [Doc.new]) (s ++ [[]]) (t ++ [[]])
  | opening {w s t} (a : Archive) (g : Doc) : FramedDocs w s t → unpack w.length a = (g, none) →
      (∀ r ∈ g.rels, ∀ n, IdNumber r.id n → n < 2 ^ 62) → g.rels.length < 2 ^ 62 → NamesAhead g →
      (∀ b ∈ g.shows, KnownBlock b) → FramedDocs (w ++ [g]) (s ++ [g.shows]) (t ++ [g.frames])
  | call {w s t w'} (d : DocId) (c : Call) : FramedDocs w s t → step w (c.op d) = .ok w' →
      (∀ f ∈ w', f.rels.length < 2 ^ 62) → FramedDocs w' (s.modify d c.does) (t.modify d c.frames)
  | append {w s t w'} (to src : DocId) : FramedDocs w s t → step w (.append to src) = .ok w' →
      (∀ f ∈ w', f.rels.length < 2 ^ 62) →
      FramedDocs w' (s.modify to (· ++ (s[src]?).getD [])) (t.modify to (· ++ ((t[src]?).getD []).map .copied))
  | split {w s t w'} (d : DocId) (sep : World → Para → Res Bool) (q : List Bit → Bool) : FramedDocs w s t →
      step w (.split d sep) = .ok w' →
      (∀ f p v, w[d]? = some f → .para p ∈ f.items → (∀ (e : DocId) g, w[e]? = some g → v[e]? = some g) →
        sep v p = .ok (q (viewPara f.referTarget f.pictureData p))) →
      (∀ f ∈ w', f.rels.length < 2 ^ 62) →
      FramedDocs w' (s ++ pieces (Block.accepted q) ((s[d]?).getD []))
        (t ++ (pieces (fun x => Block.accepted q x.1) (((s[d]?).getD []).zip ((t[d]?).getD []))).map (·.map (·.2.copied)))
  | template {w s t w'} (d : DocId) (p : String) (l : List String) (tf : Option FS) : FramedDocs w s t →
      step w (.useTemplate d p l tf) = .ok w' → FramedDocs w' s t

end Docx
