import Verif.Xml
import Verif.Doc

/-!
# What `encoding/xml` writes for the structs of `/repo`

None of the types has a `MarshalXML` method; the encoder walks the fields in order.  One definition
per struct, giving the element it is written as.  The element names come from the `XMLName` tags (or
the field tag of the parent where the struct has none), attributes with `omitempty` are left out when
they are empty or zero, nil pointers and nil slices are left out, embedded structs never are.
-/

namespace Docx

/-- An attribute that is always written -/
def strA (pre loc v : String) : List Attr := [⟨⟨pre, loc⟩, v⟩]
/-- An attribute with `omitempty` -/
def strO (pre loc v : String) : List Attr := if v = "" then [] else [⟨⟨pre, loc⟩, v⟩]
/-- An integer attribute that is always written -/
def intA (pre loc : String) (n : Int64) : List Attr := [⟨⟨pre, loc⟩, itoa n⟩]
/-- An integer attribute with `omitempty` -/
def intO (pre loc : String) (n : Int64) : List Attr := if n = 0 then [] else [⟨⟨pre, loc⟩, itoa n⟩]

/-- An element -/
def el (pre loc : String) (as : List Attr) (kids : List Node) : Node := .elem ⟨pre, loc⟩ as kids

/-- A pointer field -/
def optN {α : Type} (f : α → Node) : Option α → List Node
  | none => []
  | some a => [f a]

/-- A field `*struct{}` or a pointer to a struct without content -/
def flagN (b : Bool) (pre loc : String) : List Node := if b then [el pre loc [] []] else []

/-- A pointer to a struct with the single attribute `w:val`, always written -/
def valN (loc : String) : Option String → List Node
  | none => []
  | some v => [el "w" loc (strA "w" "val" v) []]

/-- A pointer to a struct with the single attribute `w:val,omitempty` -/
def valO (loc : String) : Option String → List Node
  | none => []
  | some v => [el "w" loc (strO "w" "val" v) []]

/-- A pointer to a struct with the single integer attribute `w:val`, always written -/
def valI (loc : String) : Option Int64 → List Node
  | none => []
  | some v => [el "w" loc (intA "w" "val" v) []]

/-- The text inside an element: nothing is written for the empty string -/
def textN (s : String) : List Node := if s = "" then [] else [.text s]

/-! ## Properties -/

/-- structeffects.go:120-127 `Shade` -/
def mShade (s : Shade) : Node :=
  el "w" "shd" (strO "w" "val" s.val ++ strO "w" "color" s.color ++ strO "w" "fill" s.fill ++
    strO "w" "themeFill" s.themeFill ++ strO "w" "themeFillTint" s.themeFillTint) []

/-- structeffects.go:281-290 `Spacing` -/
def mSpacing (s : Spacing) : Node :=
  el "w" "spacing" (intO "w" "val" s.val ++ intO "w" "beforeLines" s.beforeLines ++
    intO "w" "before" s.before ++ intO "w" "line" s.line ++ strO "w" "lineRule" s.lineRule) []

/-- structeffects.go:328-337 `Ind` -/
def mInd (s : Ind) : Node :=
  el "w" "ind" (intO "w" "leftChars" s.leftChars ++ intO "w" "left" s.left ++
    intO "w" "firstLineChars" s.firstLineChars ++ intO "w" "firstLine" s.firstLine ++
    intO "w" "hangingChars" s.hangingChars ++ intO "w" "hanging" s.hanging) []

/-- structtext.go:63-67 `Tab` -/
def mTab (t : Tab) : Node := el "w" "tab" (strO "w" "val" t.val ++ intO "w" "pos" t.position) []

/-- structtext.go:31-34 `Tabs` -/
def mTabs (ts : List Tab) : Node := el "w" "tabs" [] (ts.map mTab)

/-- structrun.go:323-329 `RunFonts` -/
def mRunFonts (f : RunFonts) : Node :=
  el "w" "rFonts" (strO "w" "ascii" f.ascii ++ strO "w" "eastAsia" f.eastAsia ++
    strO "w" "hAnsi" f.hAnsi ++ strO "w" "hint" f.hint) []

/-- structrun.go:202-220 `RunProperties` -/
def mRPr (r : RPr) : Node :=
  el "w" "rPr" [] (optN mRunFonts r.fonts ++ flagN r.bold "w" "b" ++ flagN r.iCs "w" "iCs" ++
    flagN r.italic "w" "i" ++ valO "highlight" r.highlight ++ valN "color" r.color ++
    valN "sz" r.size ++ valN "szCs" r.sizeCs ++ optN mSpacing r.spacing ++
    valN "rStyle" r.runStyle ++ valN "pStyle" r.style ++ optN mShade r.shade ++
    valI "kern" r.kern ++ valO "u" r.underline ++ valN "vertAlign" r.vertAlign ++
    valN "strike" r.strike)

/-- structnum.go:26-42 `NumProperties` -/
def mNumPr (n : NumPr) : Node := el "w" "numPr" [] (valN "numId" n.numId ++ valN "ilvl" n.ilvl)

/-- structpara.go:31-48 `ParagraphProperties` -/
def mPPr (p : PPr) : Node :=
  el "w" "pPr" [] (optN mTabs p.tabs ++ optN mSpacing p.spacing ++ optN mNumPr p.numPr ++
    optN mInd p.ind ++ valN "jc" p.jc ++ optN mShade p.shade ++ valI "kern" p.kern ++
    valN "pStyle" p.style ++ valN "textAlignment" p.textAlignment ++
    valI "adjustRightInd" p.adjustRightInd ++ valI "snapToGrid" p.snapToGrid ++
    valI "kinsoku" p.kinsoku ++ valI "overflowPunct" p.overflowPunct ++ optN mRPr p.rpr)

/-- structtext.go:92-95 `BarterRabbet` -/
def mBr (b : Br) : Node := el "w" "br" (strO "w" "type" b.type) []

/-- structtext.go:111-117 `Text` -/
def mText (t : Text) : Node := el "w" "t" (strO "xml" "space" t.space) (textN t.text)

/-! ## Parts of drawings -/

/-- structdrawing.go:347-351 `WPExtent` -/
def mExtent (e : Ext) : Node := el "wp" "extent" (intA "" "cx" e.cx ++ intA "" "cy" e.cy) []

/-- structdrawing.go:373-379 `WPEffectExtent` -/
def mEffectExtent (e : EffectExtent) : Node :=
  el "wp" "effectExtent" (intA "" "l" e.l ++ intA "" "t" e.t ++ intA "" "r" e.r ++ intA "" "b" e.b) []

/-- structdrawing.go:405-409 `WPDocPr` -/
def mDocPr (n : IdName) : Node := el "wp" "docPr" (intA "" "id" n.id ++ strO "" "name" n.name) []

/-- structdrawing.go:434-437 `WPCNvGraphicFramePr`, 475-479 `AGraphicFrameLocks` -/
def mFramePr (f : FrameLocks) : Node :=
  el "wp" "cNvGraphicFramePr" [] [el "a" "graphicFrameLocks"
    (strO "xmlns" "a" f.xmlA ++ intO "" "noChangeAspect" f.noChangeAspect) []]

/-- structeffects.go:255-258 `NonVisualProperties`, under the tag of its field -/
def mIdName (pre : String) (n : IdName) : Node :=
  el pre "cNvPr" (intA "" "id" n.id ++ strA "" "name" n.name) []

/-- structdrawing.go:713-716 `PicCNvPicPr`, 757-760 `APicLocks` -/
def mCNvPicPr (l : Option Int64) : Node :=
  el "pic" "cNvPicPr" [] (optN (fun n => el "a" "picLocks" (intA "" "noChangeAspect" n) []) l)

/-- structdrawing.go:666-670 `PICNonVisualPicProperties` -/
def mNvPicPr (n : NvPicPr) : Node :=
  el "pic" "nvPicPr" [] [mIdName "pic" n.cNvPr, mCNvPicPr n.locks]

/-- structdrawing.go:805-810 `ABlip`, 859-862 `AAlphaModFix` -/
def mBlip (b : Blip) : Node :=
  el "a" "blip" (strA "r" "embed" b.embed ++ strO "" "cstate" b.cstate)
    (optN (fun n => el "a" "alphaModFix" (intA "" "amt" n) []) b.alphaModFix)

/-- structdrawing.go:763-767 `PICBlipFill`, 865-868 `AStretch`, 907-909 `AFillRect` -/
def mPicFill (f : BlipFill) : Node :=
  el "pic" "blipFill" [] [mBlip f.blip, el "a" "stretch" [] (flagN f.fillRect "a" "fillRect")]

/-- structdrawing.go:1063-1066 `AOff`, under the tag of its field -/
def mOff (loc : String) (o : Off) : Node := el "a" loc (intA "" "x" o.x ++ intA "" "y" o.y) []

/-- structdrawing.go:1070-1073 `AExt`, under the tag of its field -/
def mExt (loc : String) (e : Ext) : Node := el "a" loc (intA "" "cx" e.cx ++ intA "" "cy" e.cy) []

/-- structdrawing.go:958-967 `AXfrm` -/
def mXfrm (x : Xfrm) : Node :=
  el "a" "xfrm" (intO "" "rot" x.rot ++ intO "" "flipH" x.flipH ++ intO "" "flipV" x.flipV)
    ([mOff "off" x.off, mExt "ext" x.ext] ++ optN (mOff "chOff") x.chOff ++
      optN (mExt "chExt") x.chExt)

/-- structdrawing.go:1077-1081 `APrstGeom` -/
def mPrstGeom (g : PrstGeom) : Node :=
  el "a" "prstGeom" (strA "" "prst" g.prst) (flagN g.avLst "a" "avLst")

/-- structdrawing.go:913-917 `PICSpPr` -/
def mPicSpPr (s : PicSpPr) : Node :=
  el "pic" "spPr" [] ([mXfrm s.xfrm] ++ optN mPrstGeom s.prstGeom)

/-- structdrawing.go:611-617 `Picture` -/
def mPic (p : Picture) : Node :=
  el "pic" "pic" (strO "xmlns" "pic" p.xmlPic)
    (optN mNvPicPr p.nvPicPr ++ optN mPicFill p.blipFill ++ optN mPicSpPr p.spPr)

/-- structdrawing.go:1435-1439 `WPSimplePos` -/
def mSimplePos (o : Off) : Node := el "wp" "simplePos" (intA "" "x" o.x ++ intA "" "y" o.y) []

/-- structdrawing.go:1442-1446 `WPPositionH`, 1485-1489 `WPPositionV` -/
def mPosition (loc : String) (p : Position) : Node :=
  el "wp" loc (strA "" "relativeFrom" p.relativeFrom)
    [el "wp" "posOffset" [] [.text (itoa p.posOffset)]]

/-- structshape.go:287-295 `ATile` -/
def mTile (t : Tile) : Node :=
  el "a" "tile" (intA "" "tx" t.tx ++ intA "" "ty" t.ty ++ intA "" "sx" t.sx ++ intA "" "sy" t.sy ++
    strA "" "flip" t.flip ++ strA "" "algn" t.algn) []

/-- structshape.go:213-221 `ABlipFill`, 282-284 `ASrcRect` -/
def mABlipFill (f : ABlipFill) : Node :=
  el "a" "blipFill" (intA "" "dpi" f.dpi ++ intA "" "rotWithShape" f.rotWithShape)
    (optN mBlip f.blip ++ flagN f.srcRect "a" "srcRect" ++ optN mTile f.tile)

/-- structshape.go:415-418 `ASolidFill`, 458-461 `ASrgbClr` -/
def mSolidFill (c : Option String) : Node :=
  el "a" "solidFill" [] (optN (fun v => el "a" "srgbClr" (strA "" "val" v) []) c)

/-- structshape.go:476-481 `AHeadEnd`, 503-508 `ATailEnd` -/
def mLineEnd (loc : String) (e : LineEnd) : Node :=
  el "a" loc (strO "" "type" e.type ++ strO "" "w" e.w ++ strO "" "len" e.len) []

/-- structshape.go:326-340 `ALine`, 464-467 `APrstDash`, 470-473 `AMiter` -/
def mLine (l : Line) : Node :=
  el "a" "ln" (intO "" "w" l.w ++ strO "" "cap" l.cap ++ strO "" "cmpd" l.compound ++
    strO "" "algn" l.align)
    (flagN l.noFill "a" "noFill" ++ optN mSolidFill l.solidFill ++
      optN (fun v => el "a" "prstDash" (strA "" "val" v) []) l.prstDash ++
      optN (fun v => el "a" "miter" (strA "" "lim" v) []) l.miter ++
      flagN l.round "a" "round" ++ optN (mLineEnd "headEnd") l.headEnd ++
      optN (mLineEnd "tailEnd") l.tailEnd)

/-- structeffects.go:177-189 `ShapeProperties`, under the tag of its field -/
def mShapePr (pre loc : String) (s : ShapePr) : Node :=
  el pre loc (strA "" "bwMode" s.bwMode)
    ([mXfrm s.xfrm, mPrstGeom s.prstGeom] ++ optN mSolidFill s.solidFill ++
      optN mABlipFill s.blipFill ++ flagN s.noFill "a" "noFill" ++ optN mLine s.line)

/-- structshape.go:105-108 `WPSCNvCnPr` -/
def mCNvCnPr (b : Bool) : Node := el "wps" "cNvCnPr" [] (flagN b "a" "cxnSpLocks")

/-- structshape.go:138-143 `WPSCNvSpPr`, 189-192 `ASPLocks` -/
def mCNvSpPr (s : CNvSpPr) : Node :=
  el "wps" "cNvSpPr" (intO "" "txBox" s.txBox)
    (optN (fun n => el "a" "spLocks" (intO "" "noChangeArrowheads" n) []) s.spLocks)

/-- structshape.go:612-626 `WPSBodyPr` -/
def mBodyPr (b : BodyPr) : Node :=
  el "wps" "bodyPr" (intA "" "rot" b.rot ++ strO "" "vert" b.vert ++ strO "" "wrap" b.wrap ++
    intA "" "lIns" b.lIns ++ intA "" "tIns" b.tIns ++ intA "" "rIns" b.rIns ++
    intA "" "bIns" b.bIns ++ strO "" "anchor" b.anchor ++ intA "" "anchorCtr" b.anchorCtr ++
    intA "" "upright" b.upright)
    (flagN b.noAutofit "a" "noAutofit")

/-- structcanvas.go:102-105 `WPCBackground` -/
def mBackground (b : Bool) : Node := el "wpc" "bg" [] (flagN b "a" "noFill")

/-- structcanvas.go:135-138 `WPCWhole` -/
def mWhole (l : Option Line) : Node := el "wpc" "whole" [] (optN mLine l)

/-- structgroup.go:110-113 `WPGcNvGrpSpPr`, 147-149 `AGroupShapeLocks` -/
def mCNvGrpSpPr (b : Bool) : Node := el "wpg" "cNvGrpSpPr" [] (flagN b "a" "grpSpLocks")

/-! ## Paragraphs, runs, drawings -/

mutual
/-- structpara.go:171-183 `Paragraph` -/
def mPara : Para → Node
  | ⟨props, children, _⟩ => el "w" "p" [] (optN mPPr props ++ mPChildren children)
/-- The elements of `Paragraph.Children` -/
def mPChildren : List PChild → List Node
  | [] => []
  | c :: cs => mPChild c :: mPChildren cs
/-- An element of `Paragraph.Children` -/
def mPChild : PChild → Node
  | .run r => mRun r
  | .link h => mLink h
  | .rpr p => mRPr p
/-- structlink.go:30-34 `Hyperlink` -/
def mLink : Hyperlink → Node
  | ⟨id, run⟩ => el "w" "hyperlink" (strA "r" "id" id) [mRun run]
/-- structrun.go:32-45 `Run` -/
def mRun : Run → Node
  | ⟨space, rpr, instr, children⟩ =>
    el "w" "r" (strO "xml" "space" space)
      (optN mRPr rpr ++ (if instr = "" then [] else [el "w" "instrText" [] [.text instr]]) ++
        mRChildren children)
/-- The elements of `Run.Children` -/
def mRChildren : List RChild → List Node
  | [] => []
  | c :: cs => mRChild c :: mRChildren cs
/-- An element of `Run.Children` -/
def mRChild : RChild → Node
  | .text t => mText t
  | .tab t => mTab t
  | .br b => mBr b
  | .drawing d => mDrawing d
/-- structdrawing.go:46-52 `Drawing` -/
def mDrawing : Drawing → Node
  | ⟨inl, anchor⟩ => el "w" "drawing" [] (mInlineO inl ++ mAnchorO anchor)
/-- A field `*WPInline` -/
def mInlineO : Option Inline → List Node
  | none => []
  | some i => [mInline i]
/-- A field `*WPAnchor` -/
def mAnchorO : Option Anchor → List Node
  | none => []
  | some a => [mAnchor a]
/-- structdrawing.go:117-133 `WPInline` -/
def mInline : Inline → Node
  | ⟨distT, distB, distL, distR, extent, effectExtent, docPr, framePr, graphic, _⟩ =>
    el "wp" "inline" (intA "" "distT" distT ++ intA "" "distB" distB ++ intA "" "distL" distL ++
      intA "" "distR" distR)
      (optN mExtent extent ++ optN mEffectExtent effectExtent ++ optN mDocPr docPr ++
        optN mFramePr framePr ++ mGraphicO graphic)
/-- structdrawing.go:1174-1199 `WPAnchor` -/
def mAnchor : Anchor → Node
  | ⟨distT, distB, distL, distR, simplePos, relativeHeight, behindDoc, locked, layoutInCell,
      allowOverlap, simplePosXY, positionH, positionV, extent, effectExtent, wrapNone, wrapSquare,
      docPr, framePr, graphic, _⟩ =>
    el "wp" "anchor" (intA "" "distT" distT ++ intA "" "distB" distB ++ intA "" "distL" distL ++
      intA "" "distR" distR ++ intA "" "simplePos" simplePos ++
      intA "" "relativeHeight" relativeHeight ++ intA "" "behindDoc" behindDoc ++
      intA "" "locked" locked ++ intA "" "layoutInCell" layoutInCell ++
      intA "" "allowOverlap" allowOverlap)
      (optN mSimplePos simplePosXY ++ optN (mPosition "positionH") positionH ++
        optN (mPosition "positionV") positionV ++ optN mExtent extent ++
        optN mEffectExtent effectExtent ++ flagN wrapNone "wp" "wrapNone" ++
        optN (fun v => el "wp" "wrapSquare" (strA "" "wrapText" v) []) wrapSquare ++
        optN mDocPr docPr ++ optN mFramePr framePr ++ mGraphicO graphic)
/-- A field `*AGraphic` -/
def mGraphicO : Option Graphic → List Node
  | none => []
  | some g => [mGraphic g]
/-- structdrawing.go:482-488 `AGraphic` -/
def mGraphic : Graphic → Node
  | ⟨xmlA, data⟩ => el "a" "graphic" (strO "xmlns" "a" xmlA) (mGraphicDataO data)
/-- A field `*AGraphicData` -/
def mGraphicDataO : Option GraphicData → List Node
  | none => []
  | some g => [mGraphicData g]
/-- structdrawing.go:533-543 `AGraphicData` -/
def mGraphicData : GraphicData → Node
  | ⟨uri, pic, shape, canvas, group⟩ =>
    el "a" "graphicData" (strA "" "uri" uri)
      (optN mPic pic ++ mShapeO shape ++ mCanvasO canvas ++ mGroupO group)
/-- A field `*WordprocessingShape` -/
def mShapeO : Option Shape → List Node
  | none => []
  | some s => [mShape s]
/-- A field `*WordprocessingCanvas` -/
def mCanvasO : Option Canvas → List Node
  | none => []
  | some c => [mCanvas c]
/-- A field `*WordprocessingGroup` -/
def mGroupO : Option Group → List Node
  | none => []
  | some g => [mGroup g]
/-- structshape.go:30-40 `WordprocessingShape` -/
def mShape : Shape → Node
  | ⟨cNvPr, cNvCnPr, cNvSpPr, spPr, textBox, bodyPr⟩ =>
    el "wps" "wsp" []
      (optN (mIdName "wps") cNvPr ++ optN mCNvCnPr cNvCnPr ++ optN mCNvSpPr cNvSpPr ++
        optN (mShapePr "wps" "spPr") spPr ++ mTextBoxO textBox ++ optN mBodyPr bodyPr)
/-- A field `*WPSTextBox` -/
def mTextBoxO : Option TextBox → List Node
  | none => []
  | some t => [mTextBox t]
/-- structshape.go:530-535 `WPSTextBox` -/
def mTextBox : TextBox → Node
  | ⟨content⟩ => el "wps" "txbx" [] (mContentO content)
/-- structshape.go:571-576 `WTextBoxContent` -/
def mContentO : Option (List Para) → List Node
  | none => []
  | some ps => [el "w" "txbxContent" [] (mParas ps)]
/-- A slice of paragraphs -/
def mParas : List Para → List Node
  | [] => []
  | p :: ps => mPara p :: mParas ps
/-- structcanvas.go:30-38 `WordprocessingCanvas` -/
def mCanvas : Canvas → Node
  | ⟨background, whole, items⟩ =>
    el "wpc" "wpc" [] (optN mBackground background ++ optN mWhole whole ++ mCItems items)
/-- The elements of `WordprocessingCanvas.Items` -/
def mCItems : List CItem → List Node
  | [] => []
  | c :: cs => mCItem c :: mCItems cs
/-- An element of `WordprocessingCanvas.Items` -/
def mCItem : CItem → Node
  | .shape s => mShape s
  | .pic p => mPic p
  | .group g => mGroup g
/-- structgroup.go:30-37 `WordprocessingGroup` -/
def mGroup : Group → Node
  | ⟨cNvGrpSpPr, grpSpPr, elems⟩ =>
    el "wpg" "wgp" []
      (optN mCNvGrpSpPr cNvGrpSpPr ++ optN (mShapePr "wpg" "grpSpPr") grpSpPr ++ mGItems elems)
/-- structgroup.go:152-160 `WPGGroupShape` -/
def mGroupShape : GroupShape → Node
  | ⟨cNvPr, cNvGrpSpPr, grpSpPr, elems⟩ =>
    el "wpg" "grpSp" []
      (optN (mIdName "wpg") cNvPr ++ optN mCNvGrpSpPr cNvGrpSpPr ++
        optN (mShapePr "wpg" "grpSpPr") grpSpPr ++ mGItems elems)
/-- The elements of `Elems` -/
def mGItems : List GItem → List Node
  | [] => []
  | g :: gs => mGItem g :: mGItems gs
/-- An element of `Elems` -/
def mGItem : GItem → Node
  | .shape s => mShape s
  | .pic p => mPic p
  | .canvas c => mCanvas c
  | .groupShape g => mGroupShape g
end

/-! ## Tables, sections, the document -/

/-- structtable.go:188-198 `WTablePositioningProperties` -/
def mTblpPr (t : TblpPr) : Node :=
  el "w" "tblpPr" (intO "w" "leftFromText" t.leftFromText ++ intO "w" "rightFromText" t.rightFromText ++
    strO "w" "vertAnchor" t.vertAnchor ++ strO "w" "horzAnchor" t.horzAnchor ++
    strO "w" "tblpXSpec" t.tblpXSpec ++ strO "w" "tblpYSpec" t.tblpYSpec ++
    intO "w" "tblpX" t.tblpX ++ intO "w" "tblpY" t.tblpY) []

/-- structtable.go:265-269 `WTableWidth`, 666-670 `WTableCellWidth` -/
def mWidth (loc : String) (w : Width) : Node :=
  el "w" loc (intA "w" "w" w.w ++ strA "w" "type" w.type) []

/-- structtable.go:774-779 `WTableBorder`, under the tag of its field -/
def mBorder (loc : String) (b : Border) : Node :=
  el "w" loc (strO "w" "val" b.val ++ intO "w" "sz" b.size ++ intO "w" "space" b.space ++
    strO "w" "color" b.color) []

/-- structtable.go:697-704 `WTableBorders`, under the tag of its field -/
def mBorders (loc : String) (b : Borders) : Node :=
  el "w" loc [] (optN (mBorder "top") b.top ++ optN (mBorder "left") b.left ++
    optN (mBorder "bottom") b.bottom ++ optN (mBorder "right") b.right ++
    optN (mBorder "insideH") b.insideH ++ optN (mBorder "insideV") b.insideV)

/-- structtable.go:295-304 `WTableLook` -/
def mLook (l : TblLook) : Node :=
  el "w" "tblLook" (strA "w" "val" l.val ++ intA "w" "firstRow" l.firstRow ++
    intA "w" "lastRow" l.lastRow ++ intA "w" "firstColumn" l.firstCol ++
    intA "w" "lastColumn" l.lastCol ++ intA "w" "noHBand" l.noHBand ++
    intA "w" "noVBand" l.noVBand) []

/-- structtable.go:108-116 `WTableProperties` -/
def mTblPr (t : TblPr) : Node :=
  el "w" "tblPr" [] (optN mTblpPr t.position ++ valN "tblStyle" t.style ++
    optN (mWidth "tblW") t.width ++ valN "jc" t.jc ++ optN (mBorders "tblBorders") t.borders ++
    optN mLook t.look)

/-- structtable.go:337-340 `WTableGrid`, 375-378 `WGridCol`; nil columns are left out -/
def mGrid (g : List (Option Int64)) : Node :=
  el "w" "tblGrid" [] (g.flatMap (optN fun n => el "w" "gridCol" (intA "w" "w" n) []))

/-- structtable.go:466-470 `WTableRowProperties`, 528-532 `WTableRowHeight` -/
def mTrPr (t : TrPr) : Node :=
  el "w" "trPr" [] (optN (fun h => el "w" "trHeight" (strO "w" "hRule" h.rule ++ intA "w" "val" h.val) [])
    t.height ++ valN "jc" t.jc)

/-- structtable.go:584-592 `WTableCellProperties` -/
def mTcPr (t : TcPr) : Node :=
  el "w" "tcPr" [] (optN (mWidth "tcW") t.width ++ valO "vMerge" t.vMerge ++
    valI "gridSpan" t.gridSpan ++ optN (mBorders "tcBorders") t.borders ++ optN mShade t.shade ++
    valN "vAlign" t.vAlign)

/-- structtable.go:535-541 `WTableCell` -/
def mCell (c : Cell) : Node := el "w" "tc" [] (optN mTcPr c.props ++ c.paras.map mPara)

/-- structtable.go:402-411 `WTableRow` -/
def mRow (r : Row) : Node := el "w" "tr" [] (optN mTrPr r.props ++ r.cells.map mCell)

/-- structtable.go:30-37 `Table` -/
def mTable (t : Table) : Node :=
  el "w" "tbl" [] (optN mTblPr t.props ++ optN mGrid t.grid ++ t.rows.map mRow)

/-- structsect.go:37-40 `PgSz` -/
def mPgSz (p : PgSz) : Node := el "w" "pgSz" (intA "w" "w" p.w ++ intA "w" "h" p.h) []

/-- structsect.go:43-51 `PgMar` -/
def mPgMar (p : PgMar) : Node :=
  el "w" "pgMar" (intA "w" "top" p.top ++ intA "w" "left" p.left ++ intA "w" "bottom" p.bottom ++
    intA "w" "right" p.right ++ intA "w" "header" p.header ++ intA "w" "footer" p.footer ++
    intA "w" "gutter" p.gutter) []

/-- structsect.go:54-56 `Cols` -/
def mCols (n : Int64) : Node := el "w" "cols" (intA "w" "space" n) []

/-- structsect.go:59-62 `DocGrid` -/
def mDocGrid (g : DocGrid) : Node :=
  el "w" "docGrid" (strA "w" "type" g.type ++ intA "w" "linePitch" g.linePitch) []

/-- structsect.go:28-34 `SectPr` -/
def mSect (s : SectPr) : Node :=
  el "w" "sectPr" []
    (optN mPgSz s.pgSz ++ optN mPgMar s.pgMar ++ optN mCols s.cols ++ optN mDocGrid s.docGrid)

/-- An element of `Body.Items` -/
def mItem : BItem → Node
  | .para p => mPara p
  | .table t => mTable t
  | .sect s => mSect s

/-- structdoc.go:31-38: the name-space attributes that every constructor sets -/
def docAttrs : List Attr :=
  [ ⟨⟨"xmlns", "w"⟩, "http://schemas.openxmlformats.org/wordprocessingml/2006/main"⟩,
    ⟨⟨"xmlns", "r"⟩, "http://schemas.openxmlformats.org/officeDocument/2006/relationships"⟩,
    ⟨⟨"xmlns", "wp"⟩, "http://schemas.openxmlformats.org/drawingml/2006/wordprocessingDrawing"⟩,
    ⟨⟨"xmlns", "wps"⟩, "http://schemas.microsoft.com/office/word/2010/wordprocessingShape"⟩,
    ⟨⟨"xmlns", "wpc"⟩, "http://schemas.microsoft.com/office/word/2010/wordprocessingCanvas"⟩,
    ⟨⟨"xmlns", "wpg"⟩, "http://schemas.microsoft.com/office/word/2010/wordprocessingGroup"⟩ ]

/-- structdoc.go:157-174 `Document`, 58-62 `Body` -/
def mDocument (items : List BItem) : Node :=
  el "w" "document" docAttrs [el "w" "body" [] (items.map mItem)]

/-- pack.go:87-94 `(marshaller).WriteTo`: the tokens a decoder sees in the part written for an
element, namely the declaration of `xml.Header`, its newline, and the element -/
def partToks (n : Node) : List Tok := .other :: .chars "\n" :: n.toks

/-- structrel.go:39-44 `Relationship` -/
def mRel (r : Rel) : Node :=
  el "" "Relationship" (strA "" "Id" r.id ++ strA "" "Type" r.type ++ strA "" "Target" r.target ++
    strO "" "TargetMode" r.targetMode) []

/-- structrel.go:33-36 `Relationships` -/
def mRels (xmlns : String) (rs : List Rel) : Node :=
  el "" "Relationships" (strA "" "xmlns" xmlns) (rs.map mRel)

end Docx
