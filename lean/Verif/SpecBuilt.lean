import Verif.World
import Verif.SpecText

/-!
# What a document says, and what the calls say it should

`Block` and `Bit` describe a document as its reader sees it: paragraphs made of texts, tabs, line breaks, page
breaks, links with their targets, pictures with their bytes and shapes with their sizes; tables of paragraphs;
page sizes.  There are no ids, no relationships, no media names and no formatting in it.

`Doc.shows` reads this off a document, following the ids of links and pictures through the relationships.
`Call.does` says what a call of the API adds, without any document: it works on blocks alone.
-/

namespace Docx

/-- A piece of a paragraph -/
inductive Bit where
  | text (s : String)
  | tab
  | newline
  | pageBreak
  /-- a link with its label and the address it leads to -/
  | link (label target : String)
  /-- a picture, in the line or floating, with the bytes it shows -/
  | picture (inline : Bool) (data : Bytes)
  /-- a shape, in the line or floating, with its size and kind -/
  | shape (inline : Bool) (w h : Int64) (kind : String)
  /-- anything else, and links and pictures that lead nowhere -/
  | other
deriving DecidableEq

/-- A piece of a document -/
inductive Block where
  | para (bits : List Bit)
  /-- rows of cells of paragraphs -/
  | table (rows : List (List (List (List Bit))))
  | page (w h : Int64)
  | other
deriving DecidableEq

/-- Blocks without anything unknown in them -/
def KnownBlock : Block → Prop
  | .para bits => Bit.other ∉ bits
  | .table rows => ∀ r ∈ rows, ∀ c ∈ r, ∀ p ∈ c, Bit.other ∉ p
  | .page _ _ => True
  | .other => False

/-! ## Reading a document -/

/-- The bytes of the picture with this relationship id: the target is `media/` and the name of a media -/
def Doc.pictureData (f : Doc) (id : String) : Option Bytes :=
  match f.referTarget id with
  | none => none
  | some t =>
    if "media/".toList.isPrefixOf t.toList then
      match f.getMedia (String.ofList (t.toList.drop 6)) with
      | .ok (some m) => some m.data
      | _ => none
    else none

/-- What a graphic is; `M` gives the bytes of a picture id -/
def viewGraphic (M : String → Option Bytes) (inline : Bool) : Option Graphic → Bit
  | some ⟨_, some ⟨_, some pic, none, none, none⟩⟩ =>
    match pic.blipFill with
    | none => .other
    | some bf =>
      match M bf.blip.embed with
      | some d => .picture inline d
      | none => .other
  | some ⟨_, some ⟨_, none, some s, none, none⟩⟩ =>
    match s.spPr with
    | none => .other
    | some sp => .shape inline sp.xfrm.ext.cx sp.xfrm.ext.cy sp.prstGeom.prst
  | _ => .other

/-- A piece of a run -/
def viewPiece (M : String → Option Bytes) : RChild → Bit
  | .text t => .text t.text
  | .tab _ => .tab
  | .br b => if b.type = "" then .newline else if b.type = "page" then .pageBreak else .other
  | .drawing ⟨some i, none⟩ => viewGraphic M true i.graphic
  | .drawing ⟨none, some a⟩ => viewGraphic M false a.graphic
  | .drawing _ => .other

/-- A child of a paragraph; `R` gives the target of a link id -/
def viewChild (R : String → Option String) (M : String → Option Bytes) : PChild → List Bit
  | .run r => if r.instr = "" then r.children.map (viewPiece M) else [.other]
  | .link h =>
    match R h.id, h.run.children with
    | some t, [] => [.link h.run.instr t]
    | _, _ => [.other]
  | .rpr _ => [.other]

/-- A paragraph -/
def viewPara (R : String → Option String) (M : String → Option Bytes) (p : Para) : List Bit :=
  p.children.flatMap (viewChild R M)

/-- A piece of a body -/
def viewItem (R : String → Option String) (M : String → Option Bytes) : BItem → Block
  | .para p => .para (viewPara R M p)
  | .table t => .table (t.rows.map fun r => r.cells.map fun c => c.paras.map (viewPara R M))
  | .sect ⟨some s, none, none, none⟩ => .page s.w s.h
  | .sect _ => .other

/-- What a document shows -/
def Doc.shows (f : Doc) : List Block := f.items.map (viewItem f.referTarget f.pictureData)

/-! ## What calls do -/

/-- The pieces of a text: tabs, line breaks and what is between them -/
def bitsOf : List Char → List Bit
  | [] => []
  | c :: cs =>
    if c = '\n' then .newline :: bitsOf cs
    else if c = '\t' then .tab :: bitsOf cs
    else match bitsOf cs with
      | .text s :: bs => .text (String.ofList (c :: s.toList)) :: bs
      | bs => .text (String.ofList [c]) :: bs

/-- Change the pieces of the paragraph at a place -/
def atPlace (l : Loc) (k : List Bit → List Bit) (bs : List Block) : List Block :=
  match l with
  | .body i => bs.modify i fun
    | .para p => .para (k p)
    | b => b
  | .cell i r c j => bs.modify i fun
    | .table t => .table (t.modify r fun row => row.modify c fun cell => cell.modify j k)
    | b => b

/-- Add a piece to the end of the paragraph at a place -/
def addAt (l : Loc) (new : List Bit) : List Block → List Block := atPlace l (· ++ new)

/-- A call that a program makes while it builds one document -/
inductive Call where
  /-- `f.AddParagraph()` -/
  | paragraph
  /-- `t.TableRows[r].TableCells[c].AddParagraph()` for the table at `i` -/
  | cellParagraph (i r c : Nat)
  /-- `f.AddTable(rows, cols, width, colors)` -/
  | table (rows cols width : Int64) (colors : Option BorderColors)
  /-- `f.AddTableTwips(heights, widths, width, colors)` -/
  | tableTwips (heights widths : List Int64) (width : Int64) (colors : Option BorderColors)
  /-- `f.WithA3Page()` -/
  | a3
  /-- `f.WithA4Page()` -/
  | a4
  /-- `p.AddText(s)` -/
  | text (l : Loc) (s : String)
  /-- `p.AddTab()` -/
  | tab (l : Loc)
  /-- `p.AddPageBreaks()` -/
  | pageBreak (l : Loc)
  /-- `p.AddLink(label, target)` -/
  | link (l : Loc) (label target : String)
  /-- `p.AddInlineDrawing(pic)` or `p.AddAnchorDrawing(pic)`; an error of the call is ignored -/
  | picture (inline : Bool) (l : Loc) (pic : Bytes)
  /-- `p.AddInlineShape(...)` or `p.AddAnchorShape(...)` -/
  | shape (inline : Bool) (l : Loc) (w h : Int64) (name bwMode kind : String) (ln : Option Line)
  /-- the setters of the run or the link's run that is child `k` of the paragraph: `Color`, `Size`, `Bold`, ... -/
  | formatRun (l : Loc) (k : Nat) (φ : RPr → RPr)
  /-- the setters of a paragraph: `Justification`, `Style`, `NumPr`, ... -/
  | formatPara (l : Loc) (φ : Option PPr → Option PPr)
  /-- `(*Table).Justification` -/
  | formatTable (i : Nat) (φ : Option TblPr → Option TblPr)
  /-- `(*WTableRow).Justification` -/
  | formatRow (i r : Nat) (φ : Option TrPr → Option TrPr)
  /-- `(*WTableCell).Shade` -/
  | formatCell (i r c : Nat) (φ : Option TcPr → Option TcPr)
  /-- `(*WPInline).Size`, `(*WPAnchor).Size` of the drawings in child `k` of the paragraph -/
  | resize (l : Loc) (k : Nat) (w h : Int64)
  /-- `p.AddText(s).AddTab()` -/
  | textTab (l : Loc) (s : String)
  /-- `Anchor.BehindDoc`, `Anchor.PositionH.PosOffset` and `AlphaModFix` of the anchored pictures in child `k` of the
  paragraph are assigned -/
  | place (l : Loc) (k : Nat) (behind offset alpha : Int64)
  /-- `f.Document.Body.KeepElements(names...)` -/
  | keep (names : List String)
  /-- `f.Document.Body.DropDrawingOf(name)` -/
  | drop (name : String)
  /-- `p.KeepElements(names...)` -/
  | keepIn (l : Loc) (names : List String)
  /-- `p.DropShape()`, `p.DropNilPicture()`, ...: the method `Drop` + `name` -/
  | dropIn (l : Loc) (name : String)

/-- Change the rows of the table at `i` -/
def modRows (i : Nat) (g : List Row → List Row) (items : List BItem) : List BItem :=
  items.modify i fun
    | .table t => .table { t with rows := g t.rows }
    | x => x

/-- The drawings of a run get a new size -/
def resizePiece (w h : Int64) : RChild → RChild
  | .drawing d => .drawing { inl := d.inl.map (·.setSize w h), anchor := d.anchor.map (·.setSize w h) }
  | x => x

/-- The blip of a picture gets an alpha value -/
def fadeGraphic (alpha : Int64) (g : Option Graphic) : Option Graphic :=
  g.map fun g => { g with data := g.data.map fun d => { d with pic := d.pic.map fun p =>
    { p with blipFill := p.blipFill.map fun b => { b with blip := { b.blip with alphaModFix := some alpha } } } } }

/-- The anchored drawings of a run get a new place and their pictures an alpha value -/
def placePiece (behind offset alpha : Int64) : RChild → RChild
  | .drawing d => .drawing { d with anchor := d.anchor.map fun a =>
      { a with behindDoc := behind, positionH := a.positionH.map fun p => { p with posOffset := offset },
               graphic := fadeGraphic alpha a.graphic } }
  | x => x

/-- The operation of the model that a call is, for the document at `d` -/
def Call.op (d : DocId) : Call → Op
  | .paragraph => .addParagraph d
  | .cellParagraph i r c => .cellAddParagraph d i r c
  | .table rows cols width colors => .addTable d rows cols width colors
  | .tableTwips heights widths width colors => .addTableTwips d heights widths width colors
  | .a3 => .withA3Page d
  | .a4 => .withA4Page d
  | .text l s => .addText d l s
  | .tab l => .edit d fun items => modPara items l fun p => p.addTab.1
  | .pageBreak l => .edit d fun items => modPara items l fun p => p.addPageBreaks.1
  | .link l label target => .addLink d l label target
  | .picture true l pic => .addInlineDrawing d l pic
  | .picture false l pic => .addAnchorDrawing d l pic
  | .shape true l w h name bwMode kind ln => .addInlineShape d l w h name bwMode kind ln
  | .shape false l w h name bwMode kind ln => .addAnchorShape d l w h name bwMode kind ln
  | .formatRun l k φ => .edit d fun items => modPara items l fun p =>
      { p with children := p.children.modify k fun
        | .run r => .run { r with rpr := r.rpr.map φ }
        | .link h => .link { h with run := { h.run with rpr := h.run.rpr.map φ } }
        | x => x }
  | .formatPara l φ => .edit d fun items => modPara items l fun p => { p with props := φ p.props }
  | .formatTable i φ => .edit d fun items => items.modify i fun
      | .table t => .table { t with props := φ t.props }
      | x => x
  | .formatRow i r φ => .edit d (modRows i fun rows => rows.modify r fun row => { row with props := φ row.props })
  | .formatCell i r c φ => .edit d (modRows i fun rows => rows.modify r fun row =>
      { row with cells := row.cells.modify c fun cell => { cell with props := φ cell.props } })
  | .resize l k w h => .edit d fun items => modPara items l fun p =>
      { p with children := p.children.modify k fun
        | .run r => .run { r with children := r.children.map (resizePiece w h) }
        | x => x }
  | .textTab l s => .edit d fun items => modPara items l fun p =>
      match (p.addText s).2.addTab with
      | .ok r => p.addRun r
      | _ => p
  | .place l k behind offset alpha => .edit d fun items => modPara items l fun p =>
      { p with children := p.children.modify k fun
        | .run r => .run { r with children := r.children.map (placePiece behind offset alpha) }
        | x => x }
  | .keep names => .edit d (keepBody names)
  | .drop name => .edit d (dropDrawingOf name)
  | .keepIn l names => .edit d fun items => modPara items l fun p => p.keepElements names
  | .dropIn l name => .edit d fun items => modPara items l (dropPara name)

/-- The Go type of a piece of a document -/
def Block.kind : Block → String
  | .para _ => "*docx.Paragraph"
  | .table _ => "*docx.Table"
  | .page _ _ => "*docx.SectPr"
  | .other => "*docx.SectPr"

/-- The Go type of the child of a paragraph that a piece is in -/
def Bit.kind : Bit → String
  | .link _ _ => "*docx.Hyperlink"
  | _ => "*docx.Run"

/-- What stays after `Drop` + `name`: everything but the shapes, if these are among what is dropped -/
def Bit.stays (name : String) : Bit → Bool
  | .shape _ _ _ _ => !["Shape", "ShapeAndCanvas", "ShapeAndCanvasAndGroup", "NilPicture"].contains name
  | _ => true

/-- Change the paragraphs of a block -/
def Block.mapParas (k : List Bit → List Bit) : Block → Block
  | .para bits => .para (k bits)
  | .table rows => .table (rows.map fun r => r.map fun c => c.map k)
  | b => b

/-- What a call does to what the document shows -/
def Call.does [ImgEnv] : Call → List Block → List Block
  | .paragraph, bs => bs ++ [.para []]
  | .cellParagraph i r c, bs => bs.modify i fun
      | .table t => .table (t.modify r fun row => row.modify c fun cell => cell ++ [[]])
      | b => b
  | .table rows cols _ _, bs =>
      bs ++ [.table (List.replicate rows.toInt.toNat (List.replicate cols.toInt.toNat []))]
  | .tableTwips heights widths _ _, bs =>
      bs ++ [.table (List.replicate heights.length (List.replicate widths.length []))]
  | .a3, bs => bs ++ [.page 16838 23811]
  | .a4, bs => bs ++ [.page 11906 16838]
  | .text l s, bs => addAt l (bitsOf s.toList) bs
  | .tab l, bs => addAt l [.tab] bs
  | .pageBreak l, bs => addAt l [.pageBreak] bs
  | .link l label target, bs => addAt l [.link label target] bs
  | .picture inline l pic, bs =>
      match ImgEnv.decodeSize pic with
      | none => bs
      | some _ => addAt l [.picture inline pic] bs
  | .shape inline l w h _ _ kind _, bs => addAt l [.shape inline w h kind] bs
  | .formatRun _ _ _, bs => bs
  | .formatPara _ _, bs => bs
  | .formatTable _ _, bs => bs
  | .formatRow _ _ _, bs => bs
  | .formatCell _ _ _ _, bs => bs
  | .resize _ _ _ _, bs => bs
  | .textTab l s, bs => addAt l (bitsOf s.toList ++ [.tab]) bs
  | .place _ _ _ _ _, bs => bs
  | .keep names, bs => bs.filter fun b => names.contains b.kind
  | .drop name, bs => bs.map (.mapParas (·.filter (Bit.stays name)))
  | .keepIn l names, bs => atPlace l (·.filter fun b => names.contains b.kind) bs
  | .dropIn l name, bs => atPlace l (·.filter (Bit.stays name)) bs

/-- The strings of a call that the reader of the document sees -/
def Call.strings : Call → List String
  | .text _ s => [s]
  | .textTab _ s => [s]
  | .link _ label target => [label, target]
  | .shape _ _ _ _ _ _ kind _ => [kind]
  | _ => []

/-- What a program that makes these calls builds -/
def result [ImgEnv] (cs : List Call) : List Block := cs.foldl (fun bs c => c.does bs) []

/-! ## Characters XML cannot carry -/

/-- The strings of a piece with the characters that XML cannot carry replaced -/
def cleanBit : Bit → Bit
  | .text s => .text (clean s)
  | .link label target => .link (clean label) (clean target)
  | .shape inline w h kind => .shape inline w h (clean kind)
  | b => b

/-- The strings of a block, likewise -/
def cleanBlock : Block → Block
  | .para bits => .para (bits.map cleanBit)
  | .table rows => .table (rows.map fun r => r.map fun c => c.map fun p => p.map cleanBit)
  | b => b

end Docx
