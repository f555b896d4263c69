import Verif.Go

/-!
# The struct types of `/repo`

Conventions: a pointer to a struct is an `Option`; a pointer to a struct whose only content is one
`Val` attribute is an `Option` of that value; a pointer to an empty struct is a `Bool` (non-nil).
`XMLName` fields carry no information (their name is fixed by the struct tag) and are dropped.
`file *Docx` is kept only on the types whose methods read it (Paragraph, WTableCell, WPInline,
WPAnchor); on the others it is only handed through while parsing.
-/

namespace Docx

/-- Address of a `Docx` (index in the list of documents, see `Verif.Docx`). -/
abbrev DocId := Nat

/-! ## structeffects.go, structtext.go, structnum.go: properties -/

/-- structeffects.go:120-127 `Shade` -/
structure Shade where
  val : String := ""
  color : String := ""
  fill : String := ""
  themeFill : String := ""
  themeFillTint : String := ""
deriving DecidableEq, Repr, Inhabited

/-- structeffects.go:281-290 `Spacing` -/
structure Spacing where
  val : Int64 := 0
  beforeLines : Int64 := 0
  before : Int64 := 0
  line : Int64 := 0
  lineRule : String := ""
deriving DecidableEq, Repr, Inhabited

/-- structeffects.go:328-337 `Ind` -/
structure Ind where
  leftChars : Int64 := 0
  left : Int64 := 0
  firstLineChars : Int64 := 0
  firstLine : Int64 := 0
  hangingChars : Int64 := 0
  hanging : Int64 := 0
deriving DecidableEq, Repr, Inhabited

/-- structtext.go:63-67 `Tab` -/
structure Tab where
  val : String := ""
  position : Int64 := 0
deriving DecidableEq, Repr, Inhabited

/-- structrun.go:323-329 `RunFonts` -/
structure RunFonts where
  ascii : String := ""
  eastAsia : String := ""
  hAnsi : String := ""
  hint : String := ""
deriving DecidableEq, Repr, Inhabited

/-- structrun.go:202-220 `RunProperties` -/
structure RPr where
  fonts : Option RunFonts := none
  bold : Bool := false
  iCs : Bool := false
  italic : Bool := false
  highlight : Option String := none
  color : Option String := none
  size : Option String := none
  sizeCs : Option String := none
  spacing : Option Spacing := none
  runStyle : Option String := none
  style : Option String := none
  shade : Option Shade := none
  kern : Option Int64 := none
  underline : Option String := none
  vertAlign : Option String := none
  strike : Option String := none
deriving DecidableEq, Repr, Inhabited

/-- structnum.go:26-30 `NumProperties` -/
structure NumPr where
  numId : Option String := none
  ilvl : Option String := none
deriving DecidableEq, Repr, Inhabited

/-- structpara.go:31-48 `ParagraphProperties`; `tabs` is `*Tabs` with its slice of tabs -/
structure PPr where
  tabs : Option (List Tab) := none
  spacing : Option Spacing := none
  numPr : Option NumPr := none
  ind : Option Ind := none
  jc : Option String := none
  shade : Option Shade := none
  kern : Option Int64 := none
  style : Option String := none
  textAlignment : Option String := none
  adjustRightInd : Option Int64 := none
  snapToGrid : Option Int64 := none
  kinsoku : Option Int64 := none
  overflowPunct : Option Int64 := none
  rpr : Option RPr := none
deriving DecidableEq, Repr, Inhabited

/-- structtext.go:111-117 `Text` -/
structure Text where
  space : String := ""
  text : String := ""
deriving DecidableEq, Repr, Inhabited

/-- structtext.go:92-95 `BarterRabbet` -/
structure Br where
  type : String := ""
deriving DecidableEq, Repr, Inhabited

/-! ## structdrawing.go, structeffects.go, structshape.go: drawing parts without text -/

/-- structdrawing.go:347-351 `WPExtent`, structdrawing.go:1070-1073 `AExt` -/
structure Ext where
  cx : Int64 := 0
  cy : Int64 := 0
deriving DecidableEq, Repr, Inhabited

/-- structdrawing.go:1063-1066 `AOff`, structdrawing.go:1435-1439 `WPSimplePos` -/
structure Off where
  x : Int64 := 0
  y : Int64 := 0
deriving DecidableEq, Repr, Inhabited

/-- structdrawing.go:373-379 `WPEffectExtent` -/
structure EffectExtent where
  l : Int64 := 0
  t : Int64 := 0
  r : Int64 := 0
  b : Int64 := 0
deriving DecidableEq, Repr, Inhabited

/-- structdrawing.go:405-409 `WPDocPr`, structeffects.go:255-258 `NonVisualProperties` -/
structure IdName where
  id : Int64 := 0
  name : String := ""
deriving DecidableEq, Repr, Inhabited

/-- structdrawing.go:475-479 `AGraphicFrameLocks`, the only content of
structdrawing.go:434-437 `WPCNvGraphicFramePr` -/
structure FrameLocks where
  xmlA : String := ""
  noChangeAspect : Int64 := 0
deriving DecidableEq, Repr, Inhabited

/-- structdrawing.go:666-670 `PICNonVisualPicProperties`; `cNvPicPr.Locks` (713-716, 757-760) is the
`noChangeAspect` of the optional locks -/
structure NvPicPr where
  cNvPr : IdName := {}
  locks : Option Int64 := none
deriving DecidableEq, Repr, Inhabited

/-- structdrawing.go:805-810 `ABlip`, with `AAlphaModFix` (859-862) as its amount -/
structure Blip where
  embed : String := ""
  cstate : String := ""
  alphaModFix : Option Int64 := none
deriving DecidableEq, Repr, Inhabited

/-- structdrawing.go:763-767 `PICBlipFill`; `stretch` (865-868) is whether `FillRect` is present -/
structure BlipFill where
  blip : Blip := {}
  fillRect : Bool := false
deriving DecidableEq, Repr, Inhabited

/-- structdrawing.go:958-967 `AXfrm` -/
structure Xfrm where
  rot : Int64 := 0
  flipH : Int64 := 0
  flipV : Int64 := 0
  off : Off := {}
  ext : Ext := {}
  chOff : Option Off := none
  chExt : Option Ext := none
deriving DecidableEq, Repr, Inhabited

/-- structdrawing.go:1077-1081 `APrstGeom` -/
structure PrstGeom where
  prst : String := ""
  avLst : Bool := false
deriving DecidableEq, Repr, Inhabited

/-- structdrawing.go:913-917 `PICSpPr` -/
structure PicSpPr where
  xfrm : Xfrm := {}
  prstGeom : Option PrstGeom := none
deriving DecidableEq, Repr, Inhabited

/-- structdrawing.go:611-617 `Picture` -/
structure Picture where
  xmlPic : String := ""
  nvPicPr : Option NvPicPr := none
  blipFill : Option BlipFill := none
  spPr : Option PicSpPr := none
deriving DecidableEq, Repr, Inhabited

/-- structshape.go:287-295 `ATile` -/
structure Tile where
  tx : Int64 := 0
  ty : Int64 := 0
  sx : Int64 := 0
  sy : Int64 := 0
  flip : String := ""
  algn : String := ""
deriving DecidableEq, Repr, Inhabited

/-- structshape.go:213-221 `ABlipFill`; `srcRect` is whether the pointer is set -/
structure ABlipFill where
  dpi : Int64 := 0
  rotWithShape : Int64 := 0
  blip : Option Blip := none
  srcRect : Bool := false
  tile : Option Tile := none
deriving DecidableEq, Repr, Inhabited

/-- structshape.go:476-481 `AHeadEnd`, 503-508 `ATailEnd` -/
structure LineEnd where
  type : String := ""
  w : String := ""
  len : String := ""
deriving DecidableEq, Repr, Inhabited

/-- structshape.go:326-340 `ALine`; `solidFill` (415-418) holds its optional `SrgbClr.Val`,
`prstDash`, `miter` their single attribute -/
structure Line where
  w : Int64 := 0
  cap : String := ""
  compound : String := ""
  align : String := ""
  noFill : Bool := false
  solidFill : Option (Option String) := none
  prstDash : Option String := none
  miter : Option String := none
  round : Bool := false
  headEnd : Option LineEnd := none
  tailEnd : Option LineEnd := none
deriving DecidableEq, Repr, Inhabited

/-- structeffects.go:177-189 `ShapeProperties` -/
structure ShapePr where
  bwMode : String := ""
  xfrm : Xfrm := {}
  prstGeom : PrstGeom := {}
  solidFill : Option (Option String) := none
  blipFill : Option ABlipFill := none
  noFill : Bool := false
  line : Option Line := none
deriving DecidableEq, Repr, Inhabited

/-- structshape.go:138-143 `WPSCNvSpPr`; `spLocks` (189-192) is its attribute -/
structure CNvSpPr where
  txBox : Int64 := 0
  spLocks : Option Int64 := none
deriving DecidableEq, Repr, Inhabited

/-- structshape.go:612-626 `WPSBodyPr` -/
structure BodyPr where
  rot : Int64 := 0
  vert : String := ""
  wrap : String := ""
  lIns : Int64 := 0
  tIns : Int64 := 0
  rIns : Int64 := 0
  bIns : Int64 := 0
  anchor : String := ""
  anchorCtr : Int64 := 0
  upright : Int64 := 0
  noAutofit : Bool := false
deriving DecidableEq, Repr, Inhabited

/-- structdrawing.go:1442-1446 `WPPositionH`, 1485-1489 `WPPositionV` -/
structure Position where
  relativeFrom : String := ""
  posOffset : Int64 := 0
deriving DecidableEq, Repr, Inhabited

/-! ## The recursive knot: paragraphs contain runs, runs contain drawings, drawings contain
shapes, shapes contain text boxes with paragraphs -/

mutual

/-- structpara.go:171-183 `Paragraph` -/
structure Para where
  props : Option PPr := none
  children : List PChild := []
  file : Option DocId := none

/-- The dynamic types of `Paragraph.Children` that the library creates
(structpara.go:243-300, apitext.go, apilink.go) -/
inductive PChild where
  | run (r : Run)
  | link (h : Hyperlink)
  | rpr (p : RPr)

/-- structlink.go:30-34 `Hyperlink` -/
structure Hyperlink where
  id : String := ""
  run : Run

/-- structrun.go:32-45 `Run` -/
structure Run where
  space : String := ""
  rpr : Option RPr := none
  instr : String := ""
  children : List RChild := []

/-- The dynamic types of `Run.Children` (structrun.go:84-181) -/
inductive RChild where
  | text (t : Text)
  | tab (t : Tab)
  | br (b : Br)
  | drawing (d : Drawing)

/-- structdrawing.go:46-52 `Drawing` -/
structure Drawing where
  inl : Option Inline := none
  anchor : Option Anchor := none

/-- structdrawing.go:117-133 `WPInline` -/
structure Inline where
  distT : Int64 := 0
  distB : Int64 := 0
  distL : Int64 := 0
  distR : Int64 := 0
  extent : Option Ext := none
  effectExtent : Option EffectExtent := none
  docPr : Option IdName := none
  framePr : Option FrameLocks := none
  graphic : Option Graphic := none
  file : Option DocId := none

/-- structdrawing.go:1174-1199 `WPAnchor` -/
structure Anchor where
  distT : Int64 := 0
  distB : Int64 := 0
  distL : Int64 := 0
  distR : Int64 := 0
  simplePos : Int64 := 0
  relativeHeight : Int64 := 0
  behindDoc : Int64 := 0
  locked : Int64 := 0
  layoutInCell : Int64 := 0
  allowOverlap : Int64 := 0
  simplePosXY : Option Off := none
  positionH : Option Position := none
  positionV : Option Position := none
  extent : Option Ext := none
  effectExtent : Option EffectExtent := none
  wrapNone : Bool := false
  wrapSquare : Option String := none
  docPr : Option IdName := none
  framePr : Option FrameLocks := none
  graphic : Option Graphic := none
  file : Option DocId := none

/-- structdrawing.go:482-488 `AGraphic` -/
structure Graphic where
  xmlA : String := ""
  data : Option GraphicData := none

/-- structdrawing.go:533-543 `AGraphicData` -/
structure GraphicData where
  uri : String := ""
  pic : Option Picture := none
  shape : Option Shape := none
  canvas : Option Canvas := none
  group : Option Group := none

/-- structshape.go:30-40 `WordprocessingShape`; `cNvCnPr` (105-108) is whether its
`ConnShapeLocks` is set -/
structure Shape where
  cNvPr : Option IdName := none
  cNvCnPr : Option Bool := none
  cNvSpPr : Option CNvSpPr := none
  spPr : Option ShapePr := none
  textBox : Option TextBox := none
  bodyPr : Option BodyPr := none

/-- structshape.go:530-535 `WPSTextBox` with structshape.go:571-576 `WTextBoxContent` as its
list of paragraphs -/
structure TextBox where
  content : Option (List Para) := none

/-- structcanvas.go:30-38 `WordprocessingCanvas`; `background` (102-105) is whether `NoFill` is
set, `whole` (135-138) its optional line -/
structure Canvas where
  background : Option Bool := none
  whole : Option (Option Line) := none
  items : List CItem := []

/-- The dynamic types of `WordprocessingCanvas.Items` (structcanvas.go:41-99) -/
inductive CItem where
  | shape (s : Shape)
  | pic (p : Picture)
  | group (g : Group)

/-- structgroup.go:30-37 `WordprocessingGroup`; `cNvGrpSpPr` (110-113) is whether `Locks` is set -/
structure Group where
  cNvGrpSpPr : Option Bool := none
  grpSpPr : Option ShapePr := none
  elems : List GItem := []

/-- structgroup.go:152-160 `WPGGroupShape` -/
structure GroupShape where
  cNvPr : Option IdName := none
  cNvGrpSpPr : Option Bool := none
  grpSpPr : Option ShapePr := none
  elems : List GItem := []

/-- The dynamic types of `WordprocessingGroup.Elems` (structgroup.go:40-107) and
`WPGGroupShape.Elems` (163-229; parsing never puts a group shape inside a group shape) -/
inductive GItem where
  | shape (s : Shape)
  | pic (p : Picture)
  | canvas (c : Canvas)
  | groupShape (g : GroupShape)

end

/-! ## structtable.go, structsect.go -/

/-- structtable.go:188-198 `WTablePositioningProperties` -/
structure TblpPr where
  leftFromText : Int64 := 0
  rightFromText : Int64 := 0
  vertAnchor : String := ""
  horzAnchor : String := ""
  tblpXSpec : String := ""
  tblpYSpec : String := ""
  tblpX : Int64 := 0
  tblpY : Int64 := 0
deriving DecidableEq, Repr, Inhabited

/-- structtable.go:265-269 `WTableWidth`, 666-670 `WTableCellWidth` -/
structure Width where
  w : Int64 := 0
  type : String := ""
deriving DecidableEq, Repr, Inhabited

/-- structtable.go:295-304 `WTableLook` -/
structure TblLook where
  val : String := ""
  firstRow : Int64 := 0
  lastRow : Int64 := 0
  firstCol : Int64 := 0
  lastCol : Int64 := 0
  noHBand : Int64 := 0
  noVBand : Int64 := 0
deriving DecidableEq, Repr, Inhabited

/-- structtable.go:774-779 `WTableBorder` -/
structure Border where
  val : String := ""
  size : Int64 := 0
  space : Int64 := 0
  color : String := ""
deriving DecidableEq, Repr, Inhabited

/-- structtable.go:697-704 `WTableBorders` -/
structure Borders where
  top : Option Border := none
  left : Option Border := none
  bottom : Option Border := none
  right : Option Border := none
  insideH : Option Border := none
  insideV : Option Border := none
deriving DecidableEq, Repr, Inhabited

/-- structtable.go:108-116 `WTableProperties` -/
structure TblPr where
  position : Option TblpPr := none
  style : Option String := none
  width : Option Width := none
  jc : Option String := none
  borders : Option Borders := none
  look : Option TblLook := none
deriving DecidableEq, Repr, Inhabited

/-- structtable.go:528-532 `WTableRowHeight` -/
structure RowHeight where
  rule : String := ""
  val : Int64 := 0
deriving DecidableEq, Repr, Inhabited

/-- structtable.go:466-470 `WTableRowProperties` -/
structure TrPr where
  height : Option RowHeight := none
  jc : Option String := none
deriving DecidableEq, Repr, Inhabited

/-- structtable.go:584-592 `WTableCellProperties` -/
structure TcPr where
  width : Option Width := none
  vMerge : Option String := none
  gridSpan : Option Int64 := none
  borders : Option Borders := none
  shade : Option Shade := none
  vAlign : Option String := none
deriving DecidableEq, Repr, Inhabited

/-- structtable.go:535-541 `WTableCell` -/
structure Cell where
  props : Option TcPr := none
  paras : List Para := []
  file : Option DocId := none

/-- structtable.go:402-411 `WTableRow` -/
structure Row where
  props : Option TrPr := none
  cells : List Cell := []

/-- structtable.go:30-37 `Table`; the grid (337-340, 375-378) is the list of its column widths,
where a nil column (left by `AddTableTwips`) is `none` -/
structure Table where
  props : Option TblPr := none
  grid : Option (List (Option Int64)) := none
  rows : List Row := []

/-- structsect.go:37-40 `PgSz` -/
structure PgSz where
  w : Int64 := 0
  h : Int64 := 0
deriving DecidableEq, Repr, Inhabited

/-- structsect.go:43-51 `PgMar` -/
structure PgMar where
  top : Int64 := 0
  left : Int64 := 0
  bottom : Int64 := 0
  right : Int64 := 0
  header : Int64 := 0
  footer : Int64 := 0
  gutter : Int64 := 0
deriving DecidableEq, Repr, Inhabited

/-- structsect.go:59-62 `DocGrid` -/
structure DocGrid where
  type : String := ""
  linePitch : Int64 := 0
deriving DecidableEq, Repr, Inhabited

/-- structsect.go:28-34 `SectPr`; `cols` (54-56) is its `Space` -/
structure SectPr where
  pgSz : Option PgSz := none
  pgMar : Option PgMar := none
  cols : Option Int64 := none
  docGrid : Option DocGrid := none
deriving DecidableEq, Repr, Inhabited

/-- The dynamic types of `Body.Items` (structdoc.go:65-109, theme.go) -/
inductive BItem where
  | para (p : Para)
  | table (t : Table)
  | sect (s : SectPr)

end Docx
