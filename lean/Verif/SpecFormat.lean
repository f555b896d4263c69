import Verif.SpecXml
import Verif.Unmarshal

/-!
# What the property elements of a document say

`xmlRPr`, `xmlPPr`, `xmlTblPr`, `xmlTrPr`, `xmlTcPr`, `xmlGrid` and `xmlSect` say, field by field, what
formatting is written in the children of a `w:rPr`, `w:pPr`, `w:tblPr`, `w:trPr`, `w:tcPr`, `w:tblGrid`
or `w:sectPr` element.  The rule is always the same: the last element with the right name counts, and of
its attributes the one with the right name.

`numPr` is not among the fields of `xmlPPr`: `Parse` does not read it.
-/

namespace Docx

/-- The value of the first attribute with this local name, "" if there is none -/
def firstAttr (n : String) (as : List Attr) : String :=
  ((as.find? fun a => a.name.loc == n).map Attr.val).getD ""

/-- The value of the last attribute with this local name -/
def attrLast? (n : String) (as : List Attr) : Option String :=
  (as.filter fun a => a.name.loc == n).getLast?.map Attr.val

/-- The value of the last attribute with this local name whose value is not empty -/
def attrFull? (n : String) (as : List Attr) : Option String :=
  (as.filter fun a => a.name.loc == n && a.val != "").getLast?.map Attr.val

/-- The same, "" if there is none -/
def attrLast (n : String) (as : List Attr) : String := (attrLast? n as).getD ""

/-- The same, "" if there is none -/
def attrFull (n : String) (as : List Attr) : String := (attrFull? n as).getD ""

/-- An element -/
structure El where
  name : String
  attrs : List Attr
  kids : List Node

/-- The value of the first attribute with this name -/
def El.attr (e : El) (n : String) : String := firstAttr n e.attrs

mutual
/-- The elements that count as children of the parent of this node: the node, if it is an element,
and, if the library reads only the start tag of elements with this name (`open_`), the elements in it. -/
def els (open_ : String → Bool) : Node → List El
  | .elem q as kids => ⟨q.loc, as, kids⟩ :: (if open_ q.loc then elsL open_ kids else [])
  | .text _ => []
  | .other => []
/-- The same for a sequence of nodes -/
def elsL (open_ : String → Bool) : List Node → List El
  | [] => []
  | n :: ns => els open_ n ++ elsL open_ ns
end

/-- The last element with this name -/
def lastEl (n : String) (es : List El) : Option El := (es.filter fun e => e.name == n).getLast?

/-- Is there an element with this name? -/
def hasEl (n : String) (es : List El) : Bool := es.any fun e => e.name == n

/-- The attribute `val` of the last element with this name -/
def elVal (n : String) (es : List El) : Option String := (lastEl n es).map fun e => e.attr "val"

section
variable [GoEnv]

/-- The number a value stands for -/
def number (v : String) : Int64 := (getInt v).1

/-- The number in the last attribute with this name, 0 if there is none -/
def numAttr (n : String) (as : List Attr) : Int64 := ((attrLast? n as).map number).getD 0

/-- The number in the last attribute with this name whose value is not empty, 0 if there is none -/
def numFull (n : String) (as : List Attr) : Int64 := ((attrFull? n as).map number).getD 0

/-- The number in the attribute `val` of the last element with this name that has one -/
def elNum (n : String) (es : List El) : Option Int64 :=
  (es.filter fun e => e.name == n && e.attr "val" != "").getLast?.map fun e => number (e.attr "val")

/-! ## Elements of which only the attributes count -/

/-- `w:shd` -/
def xmlShade (as : List Attr) : Shade :=
  { val := attrLast "val" as, color := attrLast "color" as, fill := attrLast "fill" as
    themeFill := attrLast "themeFill" as, themeFillTint := attrLast "themeFillTint" as }

/-- `w:spacing` -/
def xmlSpacing (as : List Attr) : Spacing :=
  { val := numAttr "val" as, beforeLines := numAttr "beforeLines" as, before := numAttr "before" as
    line := numAttr "line" as, lineRule := attrLast "lineRule" as }

/-- `w:ind` -/
def xmlInd (as : List Attr) : Ind :=
  { leftChars := numFull "leftChars" as, left := numFull "left" as
    firstLineChars := numFull "firstLineChars" as, firstLine := numFull "firstLine" as
    hangingChars := numFull "hangingChars" as, hanging := numFull "hanging" as }

/-- `w:tab` in `w:tabs` -/
def xmlTab (as : List Attr) : Tab := { val := attrLast "val" as, position := numFull "pos" as }

/-- `w:rFonts` -/
def xmlFonts (as : List Attr) : RunFonts :=
  { ascii := attrLast "ascii" as, eastAsia := attrLast "eastAsia" as, hAnsi := attrLast "hAnsi" as
    hint := attrLast "hint" as }

/-- `w:tblpPr` -/
def xmlTblpPr (as : List Attr) : TblpPr :=
  { leftFromText := numAttr "leftFromText" as, rightFromText := numAttr "rightFromText" as
    vertAnchor := attrLast "vertAnchor" as, horzAnchor := attrLast "horzAnchor" as
    tblpXSpec := attrLast "tblpXSpec" as, tblpYSpec := attrLast "tblpYSpec" as
    tblpX := numAttr "tblpX" as, tblpY := numAttr "tblpY" as }

/-- `w:tblW` -/
def xmlWidth (as : List Attr) : Width := { w := numFull "w" as, type := attrFull "type" as }

/-- A flag of `w:tblLook`: its first byte minus the byte of `0`, so 1 for "1" and 0 for "0" -/
def xmlLookFlag (n : String) (as : List Attr) : Int64 := ((attrFull? n as).map lookVal).getD 0

/-- `w:tblLook` -/
def xmlLook (as : List Attr) : TblLook :=
  { val := attrFull "val" as, firstRow := xmlLookFlag "firstRow" as, lastRow := xmlLookFlag "lastRow" as
    firstCol := xmlLookFlag "firstColumn" as, lastCol := xmlLookFlag "lastColumn" as
    noHBand := xmlLookFlag "noHBand" as, noVBand := xmlLookFlag "noVBand" as }

/-- A border -/
def xmlBorder (as : List Attr) : Border :=
  { val := attrLast "val" as, size := numFull "sz" as, space := numFull "space" as
    color := attrLast "color" as }

/-- `w:trHeight` -/
def xmlHeight (as : List Attr) : RowHeight := { rule := attrLast "hRule" as, val := numAttr "val" as }

/-- `w:pgSz` -/
def xmlPgSz (as : List Attr) : PgSz := { w := numAttr "w" as, h := numAttr "h" as }

/-- `w:pgMar` -/
def xmlPgMar (as : List Attr) : PgMar :=
  { top := numAttr "top" as, left := numAttr "left" as, bottom := numAttr "bottom" as
    right := numAttr "right" as, header := numAttr "header" as, footer := numAttr "footer" as
    gutter := numAttr "gutter" as }

/-- `w:docGrid` -/
def xmlDocGrid (as : List Attr) : DocGrid :=
  { type := attrLast "type" as, linePitch := numAttr "linePitch" as }

/-! ## Runs and paragraphs -/

/-- The children of `w:rPr` of which only the start tag is read -/
def rprOpen (n : String) : Bool :=
  ["b", "iCs", "i", "u", "highlight", "color", "sz", "szCs", "rStyle", "pStyle", "kern", "vertAlign",
    "strike"].contains n

/-- Run formatting by these elements -/
def rprOf (es : List El) : RPr :=
  { fonts := (lastEl "rFonts" es).map fun e => xmlFonts e.attrs
    bold := hasEl "b" es
    iCs := hasEl "iCs" es
    italic := hasEl "i" es
    highlight := elVal "highlight" es
    color := elVal "color" es
    size := elVal "sz" es
    sizeCs := elVal "szCs" es
    spacing := (lastEl "spacing" es).map fun e => xmlSpacing e.attrs
    runStyle := elVal "rStyle" es
    style := elVal "pStyle" es
    shade := (lastEl "shd" es).map fun e => xmlShade e.attrs
    kern := elNum "kern" es
    underline := elVal "u" es
    vertAlign := elVal "vertAlign" es
    strike := elVal "strike" es }

/-- A `w:rPr` element with these children -/
def xmlRPr (ks : List Node) : RPr := rprOf (elsL rprOpen ks)

/-- A `w:tabs` element with these children: all the `w:tab` elements in it, at any depth -/
def xmlTabs (ks : List Node) : List Tab :=
  ((elsL (fun n => n != "tab") ks).filter fun e => e.name == "tab").map fun e => xmlTab e.attrs

/-- The children of `w:pPr` of which only the start tag is read -/
def pprOpen (n : String) : Bool :=
  ["jc", "kern", "pStyle", "textAlignment", "adjustRightInd", "snapToGrid", "kinsoku",
    "overflowPunct"].contains n

/-- Paragraph formatting by these elements; without the numbering, which is not read -/
def pprOf (es : List El) : PPr :=
  { tabs := (lastEl "tabs" es).map fun e => xmlTabs e.kids
    spacing := (lastEl "spacing" es).map fun e => xmlSpacing e.attrs
    numPr := none
    ind := (lastEl "ind" es).map fun e => xmlInd e.attrs
    jc := elVal "jc" es
    shade := (lastEl "shd" es).map fun e => xmlShade e.attrs
    kern := elNum "kern" es
    style := elVal "pStyle" es
    textAlignment := elVal "textAlignment" es
    adjustRightInd := elNum "adjustRightInd" es
    snapToGrid := elNum "snapToGrid" es
    kinsoku := elNum "kinsoku" es
    overflowPunct := elNum "overflowPunct" es
    rpr := (lastEl "rPr" es).map fun e => xmlRPr e.kids }

/-- A `w:pPr` element with these children -/
def xmlPPr (ks : List Node) : PPr := pprOf (elsL pprOpen ks)

/-! ## Tables and sections -/

/-- Borders by these elements -/
def bordersOf (es : List El) : Borders :=
  { top := (lastEl "top" es).map fun e => xmlBorder e.attrs
    left := (lastEl "left" es).map fun e => xmlBorder e.attrs
    bottom := (lastEl "bottom" es).map fun e => xmlBorder e.attrs
    right := (lastEl "right" es).map fun e => xmlBorder e.attrs
    insideH := (lastEl "insideH" es).map fun e => xmlBorder e.attrs
    insideV := (lastEl "insideV" es).map fun e => xmlBorder e.attrs }

/-- A `w:tblBorders` or `w:tcBorders` element with these children -/
def xmlBorders (ks : List Node) : Borders := bordersOf (elsL (fun _ => false) ks)

/-- Table formatting by these elements -/
def tblPrOf (es : List El) : TblPr :=
  { position := (lastEl "tblpPr" es).map fun e => xmlTblpPr e.attrs
    style := (lastEl "tblStyle" es).map fun e => attrFull "val" e.attrs
    width := (lastEl "tblW" es).map fun e => xmlWidth e.attrs
    jc := elVal "jc" es
    borders := (lastEl "tblBorders" es).map fun e => xmlBorders e.kids
    look := (lastEl "tblLook" es).map fun e => xmlLook e.attrs }

/-- A `w:tblPr` element with these children -/
def xmlTblPr (ks : List Node) : TblPr := tblPrOf (elsL (fun _ => false) ks)

/-- A `w:tblGrid` element with these children: the widths of the columns -/
def xmlGrid (ks : List Node) : List (Option Int64) :=
  ((elsL (fun _ => false) ks).filter fun e => e.name == "gridCol").map fun e => some (numFull "w" e.attrs)

/-- Row formatting by these elements -/
def trPrOf (es : List El) : TrPr :=
  { height := (lastEl "trHeight" es).map fun e => xmlHeight e.attrs
    jc := elVal "jc" es }

/-- A `w:trPr` element with these children -/
def xmlTrPr (ks : List Node) : TrPr := trPrOf (elsL (fun _ => false) ks)

/-- The children of `w:tcPr` of which only the start tag is read -/
def tcPrOpen (n : String) : Bool := ["tcW", "vMerge", "gridSpan", "vAlign"].contains n

/-- Cell formatting by these elements.  A width without a number has no type either. -/
def tcPrOf (es : List El) : TcPr :=
  { width := (lastEl "tcW" es).map fun e =>
      if e.attr "w" = "" then {} else ⟨number (e.attr "w"), e.attr "type"⟩
    vMerge := elVal "vMerge" es
    gridSpan := (elVal "gridSpan" es).map fun v => if v = "" then 0 else number v
    borders := (lastEl "tcBorders" es).map fun e => xmlBorders e.kids
    shade := (lastEl "shd" es).map fun e => xmlShade e.attrs
    vAlign := elVal "vAlign" es }

/-- A `w:tcPr` element with these children -/
def xmlTcPr (ks : List Node) : TcPr := tcPrOf (elsL tcPrOpen ks)

/-- Page layout by these elements -/
def sectOf (es : List El) : SectPr :=
  { pgSz := (lastEl "pgSz" es).map fun e => xmlPgSz e.attrs
    pgMar := (lastEl "pgMar" es).map fun e => xmlPgMar e.attrs
    cols := (lastEl "cols" es).map fun e => numAttr "space" e.attrs
    docGrid := (lastEl "docGrid" es).map fun e => xmlDocGrid e.attrs }

/-- A `w:sectPr` element with these children -/
def xmlSect (ks : List Node) : SectPr := sectOf (elsL (fun _ => false) ks)

end

end Docx
