import Verif.Xml

/-!
# The `UnmarshalXML` methods

One definition per method; `xStep` is the body of the method's token loop (the `switch` on the
local name of a start tag), `xAttr` the body of its attribute loop, `unX` the method.

`sub`, `flat`, `skipTo` (see `Verif.Xml`) are the shapes a case of such a `switch` has.
A value stored together with an error other than "expected integer" is never seen by a user of the
library, because such an error ends the whole parse; so the definitions do not care whether the
Go code stored it before or after the error was noticed.
`file` is the document pointer handed from parent to child.
-/

namespace Docx

variable [GoEnv]

/-- `strconv.Atoi` as the body of an attribute case (structsect.go) -/
def atoiAttr {σ : Type} (v : String) (k : Int64 → σ) : σ × Option Err :=
  match atoi? v with
  | some n => (k n, none)
  | none => (k (atoiFail v), some .strconv)

/-- `x, _ = GetInt(v)` (structshape.go:633-650) -/
def intAttrLoose {σ : Type} (v : String) (k : Int64 → σ) : σ × Option Err :=
  (k (getInt v).1, none)

/-- `v := getAtt(...); if v == "" { continue }; x, err = GetInt(v); if err != nil { return err }` with
`x` a field of the parent: `s` is kept if the attribute is missing, zero is stored if it is bad -/
def flatIntSt {σ : Type} (s : σ) (v : String) (k : Int64 → σ) (d : Dec) : Out σ :=
  if v = "" then ⟨s, none, d⟩ else ⟨k (getInt v).1, (getInt v).2, d⟩

/-- A case that loops over the attributes of the start tag, storing into the parent as it goes -/
def flatAttrs {α σ : Type} (f : α → String → String → α × Option Err) (init : α) (as : List Attr)
    (k : α → σ) (d : Dec) : Out σ :=
  let r := attrs f init as
  ⟨k r.1, r.2, d⟩

/-- A case that loops over the attributes of the start tag and stores the value at the end -/
def flatAttrsV {α σ : Type} (s : σ) (f : α → String → String → α × Option Err) (init : α)
    (as : List Attr) (k : α → σ) (d : Dec) : Out σ :=
  match attrs f init as with
  | (v, none) => ⟨k v, none, d⟩
  | (_, some e) => ⟨s, some e, d⟩

/-! ## structeffects.go, structtext.go, structrun.go: properties -/

/-- structeffects.go:131-146 -/
def shadeAttr (s : Shade) (l v : String) : Shade × Option Err :=
  match l with
  | "val" => ({ s with val := v }, none)
  | "color" => ({ s with color := v }, none)
  | "fill" => ({ s with fill := v }, none)
  | "themeFill" => ({ s with themeFill := v }, none)
  | "themeFillTint" => ({ s with themeFillTint := v }, none)
  | _ => (s, none)

/-- structeffects.go:130-150 `(*Shade).UnmarshalXML` -/
def unShade (as : List Attr) : Dec → Out Shade := leaf shadeAttr {} as

/-- structeffects.go:294-321 -/
def spacingAttr (s : Spacing) (l v : String) : Spacing × Option Err :=
  match l with
  | "val" => intAttr v fun n => { s with val := n }
  | "beforeLines" => intAttr v fun n => { s with beforeLines := n }
  | "before" => intAttr v fun n => { s with before := n }
  | "line" => intAttr v fun n => { s with line := n }
  | "lineRule" => ({ s with lineRule := v }, none)
  | _ => (s, none)

/-- structeffects.go:293-325 `(*Spacing).UnmarshalXML` -/
def unSpacing (as : List Attr) : Dec → Out Spacing := leaf spacingAttr {} as

/-- structeffects.go:341-394 -/
def indAttr (s : Ind) (l v : String) : Ind × Option Err :=
  match l with
  | "leftChars" => intAttrNE s v fun n => { s with leftChars := n }
  | "left" => intAttrNE s v fun n => { s with left := n }
  | "firstLineChars" => intAttrNE s v fun n => { s with firstLineChars := n }
  | "firstLine" => intAttrNE s v fun n => { s with firstLine := n }
  | "hangingChars" => intAttrNE s v fun n => { s with hangingChars := n }
  | "hanging" => intAttrNE s v fun n => { s with hanging := n }
  | _ => (s, none)

/-- structeffects.go:340-398 `(*Ind).UnmarshalXML` -/
def unInd (as : List Attr) : Dec → Out Ind := leaf indAttr {} as

/-- structtext.go:72-85 -/
def tabAttr (s : Tab) (l v : String) : Tab × Option Err :=
  match l with
  | "val" => ({ s with val := v }, none)
  | "pos" => intAttrNE s v fun n => { s with position := n }
  | _ => (s, none)

/-- structtext.go:70-89 `(*Tab).UnmarshalXML` -/
def unTab (as : List Attr) : Dec → Out Tab := leaf tabAttr {} as

/-- structtext.go:47-56; start tags with other names are not skipped -/
def tabsStep (s : List Tab) (l : String) (as : List Attr) : Dec → Out (List Tab) :=
  match l with
  | "tab" => sub (unTab as) fun t => s ++ [t]
  | _ => flat s

/-- structtext.go:37-60 `(*Tabs).UnmarshalXML` -/
def unTabs : Dec → Out (List Tab) := loop tabsStep []

/-- structrun.go:333-344 -/
def runFontsAttr (s : RunFonts) (l v : String) : RunFonts × Option Err :=
  match l with
  | "ascii" => ({ s with ascii := v }, none)
  | "eastAsia" => ({ s with eastAsia := v }, none)
  | "hAnsi" => ({ s with hAnsi := v }, none)
  | "hint" => ({ s with hint := v }, none)
  | _ => (s, none)

/-- structrun.go:332-348 `(*RunFonts).UnmarshalXML` -/
def unRunFonts (as : List Attr) : Dec → Out RunFonts := leaf runFontsAttr {} as

/-- structrun.go:233-316 -/
def rprStep (s : RPr) (l : String) (as : List Attr) : Dec → Out RPr :=
  match l with
  | "rFonts" => sub (unRunFonts as) fun v => { s with fonts := some v }
  | "b" => flat { s with bold := true }
  | "iCs" => flat { s with iCs := true }
  | "i" => flat { s with italic := true }
  | "u" => flat { s with underline := some (getAtt as "val") }
  | "highlight" => flat { s with highlight := some (getAtt as "val") }
  | "color" => flat { s with color := some (getAtt as "val") }
  | "sz" => flat { s with size := some (getAtt as "val") }
  | "spacing" => sub (unSpacing as) fun v => { s with spacing := some v }
  | "szCs" => flat { s with sizeCs := some (getAtt as "val") }
  | "rStyle" => flat { s with runStyle := some (getAtt as "val") }
  | "pStyle" => flat { s with style := some (getAtt as "val") }
  | "shd" => sub (unShade as) fun v => { s with shade := some v }
  | "kern" => flatInt s (getAtt as "val") fun n => { s with kern := some n }
  | "vertAlign" => flat { s with vertAlign := some (getAtt as "val") }
  | "strike" => flat { s with strike := some (getAtt as "val") }
  | _ => skipTo s

/-- structrun.go:223-320 `(*RunProperties).UnmarshalXML` -/
def unRPr : Dec → Out RPr := loop rprStep {}

/-- structnum.go:55-72 -/
def numPrStep (s : NumPr) (l : String) (as : List Attr) : Dec → Out NumPr :=
  match l with
  | "numId" => flat { s with numId := some (getAtt as "val") }
  | "ilvl" => flat { s with ilvl := some (getAtt as "val") }
  | _ => skipTo s

/-- structnum.go:45-76 `(*NumProperties).UnmarshalXML`.  `Parse` does not use it; clients can, with
`xml.Unmarshal`. -/
def unNumPr : Dec → Out NumPr := loop numPrStep {}

/-- structpara.go:60-165; there is no case for `numPr` -/
def pprStep (s : PPr) (l : String) (as : List Attr) : Dec → Out PPr :=
  match l with
  | "tabs" => sub unTabs fun v => { s with tabs := some v }
  | "spacing" => sub (unSpacing as) fun v => { s with spacing := some v }
  | "ind" => sub (unInd as) fun v => { s with ind := some v }
  | "jc" => flat { s with jc := some (getAtt as "val") }
  | "shd" => sub (unShade as) fun v => { s with shade := some v }
  | "kern" => flatInt s (getAtt as "val") fun n => { s with kern := some n }
  | "rPr" => sub unRPr fun v => { s with rpr := some v }
  | "pStyle" => flat { s with style := some (getAtt as "val") }
  | "textAlignment" => flat { s with textAlignment := some (getAtt as "val") }
  | "adjustRightInd" => flatInt s (getAtt as "val") fun n => { s with adjustRightInd := some n }
  | "snapToGrid" => flatInt s (getAtt as "val") fun n => { s with snapToGrid := some n }
  | "kinsoku" => flatInt s (getAtt as "val") fun n => { s with kinsoku := some n }
  | "overflowPunct" => flatInt s (getAtt as "val") fun n => { s with overflowPunct := some n }
  | _ => skipTo s

/-- structpara.go:51-168 `(*ParagraphProperties).UnmarshalXML` -/
def unPPr : Dec → Out PPr := loop pprStep {}

/-- structtext.go:98-108 `(*BarterRabbet).UnmarshalXML`: the first `type` attribute, then one
token -/
def unBr (as : List Attr) : Dec → Out Br :=
  leaf (fun s _ _ => (s, none)) { type := getAtt as "type" } as

/-- structtext.go:121-128 -/
def textAttr (s : Text) (l v : String) : Text × Option Err :=
  match l with
  | "space" => ({ s with space := v }, none)
  | _ => (s, none)

/-- structtext.go:120-144 `(*Text).UnmarshalXML`: every piece of character data replaces the
text; start tags are ignored -/
def unText (as : List Attr) : Dec → Out Text :=
  withAttrs textAttr (loopC (fun s _ _ => flat s) fun s c => { s with text := c }) {} as

/-! ## structdrawing.go: parts of drawings -/

/-- structdrawing.go:166-175, 356-366 -/
def extAttr (s : Ext) (l v : String) : Ext × Option Err :=
  match l with
  | "cx" => intAttr v fun n => { s with cx := n }
  | "cy" => intAttr v fun n => { s with cy := n }
  | _ => (s, none)

/-- structdrawing.go:354-370 `(*WPExtent).UnmarshalXML` -/
def unExtent (as : List Attr) : Dec → Out Ext := leaf extAttr {} as

/-- structdrawing.go:178-191, 384-398 -/
def effAttr (s : EffectExtent) (l v : String) : EffectExtent × Option Err :=
  match l with
  | "l" => intAttr v fun n => { s with l := n }
  | "t" => intAttr v fun n => { s with t := n }
  | "r" => intAttr v fun n => { s with r := n }
  | "b" => intAttr v fun n => { s with b := n }
  | _ => (s, none)

/-- structdrawing.go:382-402 `(*WPEffectExtent).UnmarshalXML` -/
def unEffectExtent (as : List Attr) : Dec → Out EffectExtent := leaf effAttr {} as

/-- structdrawing.go:413-427 and structeffects.go:262-274 -/
def idNameAttr (s : IdName) (l v : String) : IdName × Option Err :=
  match l with
  | "id" => intAttr v fun n => { s with id := n }
  | "name" => ({ s with name := v }, none)
  | _ => (s, none)

/-- structdrawing.go:412-431 `(*WPDocPr).UnmarshalXML` and structeffects.go:261-278
`(*NonVisualProperties).UnmarshalXML` -/
def unIdName (as : List Attr) : Dec → Out IdName := leaf idNameAttr {} as

/-- structdrawing.go:450-469 -/
def frameStep (s : FrameLocks) (l : String) (as : List Attr) : Dec → Out FrameLocks :=
  match l with
  | "graphicFrameLocks" =>
    let s' := { s with xmlA := getAtt as "a" }
    flatIntSt s' (getAtt as "noChangeAspect") fun n => { s' with noChangeAspect := n }
  | _ => skipTo s

/-- structdrawing.go:440-472 `(*WPCNvGraphicFramePr).UnmarshalXML` -/
def unFramePr : Dec → Out FrameLocks := loop frameStep {}

/-- structdrawing.go:731-751 -/
def picLocksStep (s : Option Int64) (l : String) (as : List Attr) : Dec → Out (Option Int64) :=
  match l with
  | "picLocks" => flatInt s (getAtt as "noChangeAspect") fun n => some n
  | _ => skipTo s

/-- structdrawing.go:719-754 `(*PicCNvPicPr).UnmarshalXML` into a struct already there -/
def unCNvPicPr (s : Option Int64) : Dec → Out (Option Int64) := loop picLocksStep s

/-- structdrawing.go:683-707 -/
def nvPicPrStep (s : NvPicPr) (l : String) (as : List Attr) : Dec → Out NvPicPr :=
  match l with
  | "cNvPr" =>
    if getAtt as "id" = "" then flat s
    else match getInt (getAtt as "id") with
      | (n, none) => flat { s with cNvPr := ⟨n, getAtt as "name"⟩ }
      | (n, some e) => flat { s with cNvPr := { s.cNvPr with id := n } } (some e)
  | "cNvPicPr" => sub (unCNvPicPr s.locks) fun v => { s with locks := v }
  | _ => skipTo s

/-- structdrawing.go:673-710 `(*PICNonVisualPicProperties).UnmarshalXML` -/
def unNvPicPr : Dec → Out NvPicPr := loop nvPicPrStep {}

/-- structdrawing.go:814-823 -/
def blipAttr (s : Blip) (l v : String) : Blip × Option Err :=
  match l with
  | "embed" => ({ s with embed := v }, none)
  | "cstate" => ({ s with cstate := v }, none)
  | _ => (s, none)

/-- structdrawing.go:833-853 -/
def blipStep (s : Blip) (l : String) (as : List Attr) : Dec → Out Blip :=
  match l with
  | "alphaModFix" => flatInt s (getAtt as "amt") fun n => { s with alphaModFix := some n }
  | _ => skipTo s

/-- structdrawing.go:813-856 `(*ABlip).UnmarshalXML` into a struct already there -/
def unBlip (s : Blip) (as : List Attr) : Dec → Out Blip := withAttrs blipAttr (loop blipStep) s as

/-- structdrawing.go:881-901 -/
def stretchStep (s : Bool) (l : String) (_ : List Attr) : Dec → Out Bool :=
  match l with
  | "fillRect" => skipTo true
  | _ => skipTo s

/-- structdrawing.go:871-904 `(*AStretch).UnmarshalXML` into a struct already there -/
def unStretch (s : Bool) : Dec → Out Bool := loop stretchStep s

/-- structdrawing.go:780-799 -/
def picFillStep (s : BlipFill) (l : String) (as : List Attr) : Dec → Out BlipFill :=
  match l with
  | "blip" => sub (unBlip s.blip as) fun v => { s with blip := v }
  | "stretch" => sub (unStretch s.fillRect) fun v => { s with fillRect := v }
  | _ => skipTo s

/-- structdrawing.go:770-802 `(*PICBlipFill).UnmarshalXML` -/
def unPicFill : Dec → Out BlipFill := loop picFillStep {}

/-- structdrawing.go:971-985 -/
def xfrmAttr (s : Xfrm) (l v : String) : Xfrm × Option Err :=
  match l with
  | "rot" => intAttr v fun n => { s with rot := n }
  | "flipH" => intAttr v fun n => { s with flipH := n }
  | "flipV" => intAttr v fun n => { s with flipV := n }
  | _ => (s, none)

/-- structdrawing.go:997-1006, 1021-1030, 1242-1251 -/
def offAttr (s : Off) (l v : String) : Off × Option Err :=
  match l with
  | "x" => intAttr v fun n => { s with x := n }
  | "y" => intAttr v fun n => { s with y := n }
  | _ => (s, none)

/-- structdrawing.go:995-1056 -/
def xfrmStep (s : Xfrm) (l : String) (as : List Attr) : Dec → Out Xfrm :=
  match l with
  | "off" => flatAttrs offAttr s.off as fun v => { s with off := v }
  | "ext" => flatAttrs extAttr s.ext as fun v => { s with ext := v }
  | "chOff" => flatAttrsV s offAttr {} as fun v => { s with chOff := some v }
  | "chExt" => flatAttrsV s extAttr {} as fun v => { s with chExt := some v }
  | _ => skipTo s

/-- structdrawing.go:970-1059 `(*AXfrm).UnmarshalXML` into a struct already there -/
def unXfrm (s : Xfrm) (as : List Attr) : Dec → Out Xfrm := withAttrs xfrmAttr (loop xfrmStep) s as

/-- structdrawing.go:1085-1092 -/
def prstAttr (s : PrstGeom) (l v : String) : PrstGeom × Option Err :=
  match l with
  | "prst" => ({ s with prst := v }, none)
  | _ => (s, none)

/-- structdrawing.go:1103-1118 -/
def prstStep (s : PrstGeom) (l : String) (_ : List Attr) : Dec → Out PrstGeom :=
  match l with
  | "avLst" => skipTo { s with avLst := true }
  | _ => skipTo s

/-- structdrawing.go:1084-1121 `(*APrstGeom).UnmarshalXML` -/
def unPrstGeom (as : List Attr) : Dec → Out PrstGeom := withAttrs prstAttr (loop prstStep) {} as

/-- structdrawing.go:930-951 -/
def picSpPrStep (s : PicSpPr) (l : String) (as : List Attr) : Dec → Out PicSpPr :=
  match l with
  | "xfrm" => sub (unXfrm s.xfrm as) fun v => { s with xfrm := v }
  | "prstGeom" => sub (unPrstGeom as) fun v => { s with prstGeom := some v }
  | _ => skipTo s

/-- structdrawing.go:920-954 `(*PICSpPr).UnmarshalXML` -/
def unPicSpPr : Dec → Out PicSpPr := loop picSpPrStep {}

/-- structdrawing.go:630-660 -/
def picStep (s : Picture) (l : String) (_ : List Attr) : Dec → Out Picture :=
  match l with
  | "nvPicPr" => sub unNvPicPr fun v => { s with nvPicPr := some v }
  | "blipFill" => sub unPicFill fun v => { s with blipFill := some v }
  | "spPr" => sub unPicSpPr fun v => { s with spPr := some v }
  | _ => skipTo s

/-- structdrawing.go:620-663 `(*Picture).UnmarshalXML` -/
def unPic : Dec → Out Picture := loop picStep {}

/-- structdrawing.go:1465-1479 and 1508-1522 -/
def posStep (s : Position) (l : String) (_ : List Attr) (d : Dec) : Out Position :=
  match l with
  | "posOffset" =>
    let o := reflInt s.posOffset d
    ⟨{ s with posOffset := o.val }, tolerate o.err, o.dec⟩
  | _ => skipTo s d

/-- structdrawing.go:1449-1482 `(*WPPositionH).UnmarshalXML` and 1492-1525
`(*WPPositionV).UnmarshalXML` -/
def unPosition (as : List Attr) : Dec → Out Position :=
  loop posStep { relativeFrom := getAtt as "relativeFrom" }

/-! ## structshape.go, structeffects.go: shapes -/

/-- structshape.go:299-319 -/
def tileAttr (s : Tile) (l v : String) : Tile × Option Err :=
  match l with
  | "tx" => intAttr v fun n => { s with tx := n }
  | "ty" => intAttr v fun n => { s with ty := n }
  | "sx" => intAttr v fun n => { s with sx := n }
  | "sy" => intAttr v fun n => { s with sy := n }
  | "flip" => ({ s with flip := v }, none)
  | "algn" => ({ s with algn := v }, none)
  | _ => (s, none)

/-- structshape.go:298-323 `(*ATile).UnmarshalXML` -/
def unTile (as : List Attr) : Dec → Out Tile := leaf tileAttr {} as

/-- structshape.go:225-240 -/
def aBlipFillAttr (s : ABlipFill) (l v : String) : ABlipFill × Option Err :=
  match l with
  | "dpi" => intAttr v fun n => { s with dpi := n }
  | "rotWithShape" => intAttr v fun n => { s with rotWithShape := n }
  | _ => (s, none)

/-- structshape.go:251-276 -/
def aBlipFillStep (s : ABlipFill) (l : String) (as : List Attr) : Dec → Out ABlipFill :=
  match l with
  | "blip" => sub (unBlip {} as) fun v => { s with blip := some v }
  | "srcRect" => flat { s with srcRect := true }
  | "tile" => sub (unTile as) fun v => { s with tile := some v }
  | _ => skipTo s

/-- structshape.go:224-279 `(*ABlipFill).UnmarshalXML` -/
def unABlipFill (as : List Attr) : Dec → Out ABlipFill :=
  withAttrs aBlipFillAttr (loop aBlipFillStep) {} as

/-- structshape.go:431-452; the value is `SrgbClr` -/
def solidFillStep (s : Option String) (l : String) (as : List Attr) : Dec → Out (Option String) :=
  match l with
  | "srgbClr" => skipTo (some (getAtt as "val"))
  | _ => skipTo s

/-- structshape.go:421-455 `(*ASolidFill).UnmarshalXML` -/
def unSolidFill : Dec → Out (Option String) := loop solidFillStep none

/-- structshape.go:485-496 and 512-523 -/
def lineEndAttr (s : LineEnd) (l v : String) : LineEnd × Option Err :=
  match l with
  | "type" => ({ s with type := v }, none)
  | "w" => ({ s with w := v }, none)
  | "len" => ({ s with len := v }, none)
  | _ => (s, none)

/-- structshape.go:484-500 `(*AHeadEnd).UnmarshalXML` and 511-527 `(*ATailEnd).UnmarshalXML` -/
def unLineEnd (as : List Attr) : Dec → Out LineEnd := leaf lineEndAttr {} as

/-- structshape.go:344-360 -/
def lineAttr (s : Line) (l v : String) : Line × Option Err :=
  match l with
  | "w" => intAttr v fun n => { s with w := n }
  | "cap" => ({ s with cap := v }, none)
  | "cmpd" => ({ s with compound := v }, none)
  | "algn" => ({ s with align := v }, none)
  | _ => (s, none)

/-- structshape.go:370-409 -/
def lineStep (s : Line) (l : String) (as : List Attr) : Dec → Out Line :=
  match l with
  | "noFill" => flat { s with noFill := true }
  | "solidFill" => sub unSolidFill fun v => { s with solidFill := some v }
  | "prstDash" => flat { s with prstDash := some (getAtt as "val") }
  | "miter" => flat { s with miter := some (getAtt as "lim") }
  | "round" => flat { s with round := true }
  | "headEnd" => sub (unLineEnd as) fun v => { s with headEnd := some v }
  | "tailEnd" => sub (unLineEnd as) fun v => { s with tailEnd := some v }
  | _ => skipTo s

/-- structshape.go:343-412 `(*ALine).UnmarshalXML` -/
def unLine (as : List Attr) : Dec → Out Line := withAttrs lineAttr (loop lineStep) {} as

/-- structeffects.go:193-200 -/
def shapePrAttr (s : ShapePr) (l v : String) : ShapePr × Option Err :=
  match l with
  | "bwMode" => ({ s with bwMode := v }, none)
  | _ => (s, none)

/-- structeffects.go:210-249 -/
def shapePrStep (s : ShapePr) (l : String) (as : List Attr) : Dec → Out ShapePr :=
  match l with
  | "xfrm" => sub (unXfrm s.xfrm as) fun v => { s with xfrm := v }
  | "prstGeom" => flat { s with prstGeom := { s.prstGeom with prst := getAtt as "prst" } }
  | "solidFill" => sub unSolidFill fun v => { s with solidFill := some v }
  | "blipFill" => sub (unABlipFill as) fun v => { s with blipFill := some v }
  | "noFill" => flat { s with noFill := true }
  | "ln" => sub (unLine as) fun v => { s with line := some v }
  | _ => skipTo s

/-- structeffects.go:192-252 `(*ShapeProperties).UnmarshalXML` -/
def unShapePr (as : List Attr) : Dec → Out ShapePr := withAttrs shapePrAttr (loop shapePrStep) {} as

/-- structshape.go:121-132; the value is whether `ConnShapeLocks` is set -/
def cNvCnPrStep (s : Bool) (l : String) (_ : List Attr) : Dec → Out Bool :=
  match l with
  | "cxnSpLocks" => flat true
  | _ => skipTo s

/-- structshape.go:111-135 `(*WPSCNvCnPr).UnmarshalXML` -/
def unCNvCnPr : Dec → Out Bool := loop cNvCnPrStep false

/-- structshape.go:196-206; the value is `NoChangeArrowheads` -/
def spLocksAttr (s : Int64) (l v : String) : Int64 × Option Err :=
  match l with
  | "noChangeArrowheads" => intAttr v fun n => n
  | _ => (s, none)

/-- structshape.go:195-210 `(*ASPLocks).UnmarshalXML` -/
def unSpLocks (as : List Attr) : Dec → Out Int64 := leaf spLocksAttr 0 as

/-- structshape.go:147-157 -/
def cNvSpPrAttr (s : CNvSpPr) (l v : String) : CNvSpPr × Option Err :=
  match l with
  | "txBox" => intAttr v fun n => { s with txBox := n }
  | _ => (s, none)

/-- structshape.go:167-183 -/
def cNvSpPrStep (s : CNvSpPr) (l : String) (as : List Attr) : Dec → Out CNvSpPr :=
  match l with
  | "spLocks" => sub (unSpLocks as) fun v => { s with spLocks := some v }
  | _ => skipTo s

/-- structshape.go:146-186 `(*WPSCNvSpPr).UnmarshalXML` -/
def unCNvSpPr (as : List Attr) : Dec → Out CNvSpPr := withAttrs cNvSpPrAttr (loop cNvSpPrStep) {} as

/-- structshape.go:630-655: the errors of `GetInt` are ignored -/
def bodyPrAttr (s : BodyPr) (l v : String) : BodyPr × Option Err :=
  match l with
  | "rot" => intAttrLoose v fun n => { s with rot := n }
  | "vert" => ({ s with vert := v }, none)
  | "wrap" => ({ s with wrap := v }, none)
  | "lIns" => intAttrLoose v fun n => { s with lIns := n }
  | "tIns" => intAttrLoose v fun n => { s with tIns := n }
  | "rIns" => intAttrLoose v fun n => { s with rIns := n }
  | "bIns" => intAttrLoose v fun n => { s with bIns := n }
  | "anchor" => ({ s with anchor := v }, none)
  | "anchorCtr" => intAttrLoose v fun n => { s with anchorCtr := n }
  | "upright" => intAttrLoose v fun n => { s with upright := n }
  | _ => (s, none)

/-- structshape.go:665-676 -/
def bodyPrStep (s : BodyPr) (l : String) (_ : List Attr) : Dec → Out BodyPr :=
  match l with
  | "noAutofit" => flat { s with noAutofit := true }
  | _ => skipTo s

/-- structshape.go:629-679 `(*WPSBodyPr).UnmarshalXML` -/
def unBodyPr (as : List Attr) : Dec → Out BodyPr := withAttrs bodyPrAttr (loop bodyPrStep) {} as

/-- structcanvas.go:118-129; the value is whether `NoFill` is set -/
def bgStep (s : Bool) (l : String) (_ : List Attr) : Dec → Out Bool :=
  match l with
  | "noFill" => flat true
  | _ => skipTo s

/-- structcanvas.go:108-132 `(*WPCBackground).UnmarshalXML` -/
def unBackground : Dec → Out Bool := loop bgStep false

/-- structcanvas.go:151-166; the value is `Line` -/
def wholeStep (s : Option Line) (l : String) (as : List Attr) : Dec → Out (Option Line) :=
  match l with
  | "ln" => sub (unLine as) fun v => some v
  | _ => skipTo s

/-- structcanvas.go:141-169 `(*WPCWhole).UnmarshalXML` -/
def unWhole : Dec → Out (Option Line) := loop wholeStep none

/-- structgroup.go:126-141; the value is whether `Locks` is set -/
def grpPrStep (s : Bool) (l : String) (_ : List Attr) : Dec → Out Bool :=
  match l with
  | "grpSpLocks" => skipTo true
  | _ => skipTo s

/-- structgroup.go:116-144 `(*WPGcNvGrpSpPr).UnmarshalXML` -/
def unCNvGrpSpPr : Dec → Out Bool := loop grpPrStep false

/-! ## structtable.go, structsect.go: properties -/

/-- structtable.go:202-233 -/
def tblpPrAttr (s : TblpPr) (l v : String) : TblpPr × Option Err :=
  match l with
  | "leftFromText" => intAttr v fun n => { s with leftFromText := n }
  | "rightFromText" => intAttr v fun n => { s with rightFromText := n }
  | "vertAnchor" => ({ s with vertAnchor := v }, none)
  | "horzAnchor" => ({ s with horzAnchor := v }, none)
  | "tblpXSpec" => ({ s with tblpXSpec := v }, none)
  | "tblpYSpec" => ({ s with tblpYSpec := v }, none)
  | "tblpX" => intAttr v fun n => { s with tblpX := n }
  | "tblpY" => intAttr v fun n => { s with tblpY := n }
  | _ => (s, none)

/-- structtable.go:201-238 `(*WTablePositioningProperties).UnmarshalXML` -/
def unTblpPr (as : List Attr) : Dec → Out TblpPr := leaf tblpPrAttr {} as

/-- structtable.go:248-258 -/
def tblStyleAttr (s : String) (l v : String) : String × Option Err :=
  if v = "" then (s, none)
  else match l with
    | "val" => (v, none)
    | _ => (s, none)

/-- structtable.go:247-262 `(*WTableStyle).UnmarshalXML` -/
def unTblStyle (as : List Attr) : Dec → Out String := leaf tblStyleAttr "" as

/-- structtable.go:273-288 -/
def widthAttr (s : Width) (l v : String) : Width × Option Err :=
  if v = "" then (s, none)
  else match l with
    | "w" => intAttr v fun n => { s with w := n }
    | "type" => ({ s with type := v }, none)
    | _ => (s, none)

/-- structtable.go:272-292 `(*WTableWidth).UnmarshalXML` -/
def unTblW (as : List Attr) : Dec → Out Width := leaf widthAttr {} as

/-- First byte of the UTF-8 form of a character -/
def leadByte (c : Char) : Nat :=
  let n := c.toNat
  if n < 0x80 then n
  else if n < 0x800 then 0xC0 + n / 0x40
  else if n < 0x10000 then 0xE0 + n / 0x1000
  else 0xF0 + n / 0x40000

/-- `int(attr.Value[0] - '0')` for a non-empty value: a difference of bytes, modulo 256 -/
def lookVal (v : String) : Int64 :=
  match v.toList with
  | [] => 0
  | c :: _ => Int64.ofNat ((leadByte c + 208) % 256)

/-- structtable.go:308-330 -/
def lookAttr (s : TblLook) (l v : String) : TblLook × Option Err :=
  if v = "" then (s, none)
  else match l with
    | "val" => ({ s with val := v }, none)
    | "firstRow" => ({ s with firstRow := lookVal v }, none)
    | "lastRow" => ({ s with lastRow := lookVal v }, none)
    | "firstColumn" => ({ s with firstCol := lookVal v }, none)
    | "lastColumn" => ({ s with lastCol := lookVal v }, none)
    | "noHBand" => ({ s with noHBand := lookVal v }, none)
    | "noVBand" => ({ s with noVBand := lookVal v }, none)
    | _ => (s, none)

/-- structtable.go:307-334 `(*WTableLook).UnmarshalXML` -/
def unTblLook (as : List Attr) : Dec → Out TblLook := leaf lookAttr {} as

/-- structtable.go:783-808 -/
def borderAttr (s : Border) (l v : String) : Border × Option Err :=
  match l with
  | "val" => ({ s with val := v }, none)
  | "sz" => intAttrNE s v fun n => { s with size := n }
  | "space" => intAttrNE s v fun n => { s with space := n }
  | "color" => ({ s with color := v }, none)
  | _ => (s, none)

/-- structtable.go:782-812 `(*WTableBorder).UnmarshalXML` -/
def unBorder (as : List Attr) : Dec → Out Border := leaf borderAttr {} as

/-- structtable.go:717-768 -/
def bordersStep (s : Borders) (l : String) (as : List Attr) : Dec → Out Borders :=
  match l with
  | "top" => sub (unBorder as) fun v => { s with top := some v }
  | "left" => sub (unBorder as) fun v => { s with left := some v }
  | "bottom" => sub (unBorder as) fun v => { s with bottom := some v }
  | "right" => sub (unBorder as) fun v => { s with right := some v }
  | "insideH" => sub (unBorder as) fun v => { s with insideH := some v }
  | "insideV" => sub (unBorder as) fun v => { s with insideV := some v }
  | _ => skipTo s

/-- structtable.go:707-771 `(*WTableBorders).UnmarshalXML` -/
def unBorders : Dec → Out Borders := loop bordersStep {}

/-- structtable.go:128-180 -/
def tblPrStep (s : TblPr) (l : String) (as : List Attr) : Dec → Out TblPr :=
  match l with
  | "tblpPr" => sub (unTblpPr as) fun v => { s with position := some v }
  | "tblStyle" => sub (unTblStyle as) fun v => { s with style := some v }
  | "tblW" => sub (unTblW as) fun v => { s with width := some v }
  | "jc" => skipTo { s with jc := some (getAtt as "val") }
  | "tblLook" => sub (unTblLook as) fun v => { s with look := some v }
  | "tblBorders" => sub unBorders fun v => { s with borders := some v }
  | _ => skipTo s

/-- structtable.go:119-183 `(*WTableProperties).UnmarshalXML` -/
def unTblPr : Dec → Out TblPr := loop tblPrStep {}

/-- structtable.go:382-395; the value is `W` -/
def gridColAttr (s : Int64) (l v : String) : Int64 × Option Err :=
  if v = "" then (s, none)
  else match l with
    | "w" => intAttr v fun n => n
    | _ => (s, none)

/-- structtable.go:381-399 `(*WGridCol).UnmarshalXML` -/
def unGridCol (as : List Attr) : Dec → Out Int64 := leaf gridColAttr 0 as

/-- structtable.go:353-369 -/
def gridStep (s : List (Option Int64)) (l : String) (as : List Attr) :
    Dec → Out (List (Option Int64)) :=
  match l with
  | "gridCol" => sub (unGridCol as) fun v => s ++ [some v]
  | _ => skipTo s

/-- structtable.go:343-372 `(*WTableGrid).UnmarshalXML` -/
def unGrid : Dec → Out (List (Option Int64)) := loop gridStep []

/-- structtable.go:486-496 -/
def heightAttr (s : RowHeight) (l v : String) : RowHeight × Option Err :=
  match l with
  | "val" => intAttr v fun n => { s with val := n }
  | "hRule" => ({ s with rule := v }, none)
  | _ => (s, none)

/-- structtable.go:483-522 -/
def trPrStep (s : TrPr) (l : String) (as : List Attr) (d : Dec) : Out TrPr :=
  match l with
  | "trHeight" =>
    match attrs heightAttr {} as with
    | (v, none) => skipTo { s with height := some v } d
    | (_, some e) => ⟨s, some e, d⟩
  | "jc" => skipTo { s with jc := some (getAtt as "val") } d
  | _ => skipTo s d

/-- structtable.go:473-525 `(*WTableRowProperties).UnmarshalXML` -/
def unTrPr : Dec → Out TrPr := loop trPrStep {}

/-- structtable.go:605-653 -/
def tcPrStep (s : TcPr) (l : String) (as : List Attr) : Dec → Out TcPr :=
  match l with
  | "tcW" =>
    let s' := { s with width := some {} }
    flatInt s' (getAtt as "w") fun n => { s with width := some ⟨n, getAtt as "type"⟩ }
  | "vMerge" => flat { s with vMerge := some (getAtt as "val") }
  | "gridSpan" =>
    let s' := { s with gridSpan := some 0 }
    flatInt s' (getAtt as "val") fun n => { s with gridSpan := some n }
  | "vAlign" => flat { s with vAlign := some (getAtt as "val") }
  | "tcBorders" => sub unBorders fun v => { s with borders := some v }
  | "shd" => sub (unShade as) fun v => { s with shade := some v }
  | _ => skipTo s

/-- structtable.go:595-656 `(*WTableCellProperties).UnmarshalXML` -/
def unTcPr : Dec → Out TcPr := loop tcPrStep {}

/-- structsect.go:119-134 -/
def pgSzAttr (s : PgSz) (l v : String) : PgSz × Option Err :=
  match l with
  | "w" => atoiAttr v fun n => { s with w := n }
  | "h" => atoiAttr v fun n => { s with h := n }
  | _ => (s, none)

/-- structsect.go:116-138 `(*PgSz).UnmarshalXML` -/
def unPgSz (as : List Attr) : Dec → Out PgSz := leaf pgSzAttr {} as

/-- structsect.go:144-184 -/
def pgMarAttr (s : PgMar) (l v : String) : PgMar × Option Err :=
  match l with
  | "top" => atoiAttr v fun n => { s with top := n }
  | "left" => atoiAttr v fun n => { s with left := n }
  | "bottom" => atoiAttr v fun n => { s with bottom := n }
  | "right" => atoiAttr v fun n => { s with right := n }
  | "header" => atoiAttr v fun n => { s with header := n }
  | "footer" => atoiAttr v fun n => { s with footer := n }
  | "gutter" => atoiAttr v fun n => { s with gutter := n }
  | _ => (s, none)

/-- structsect.go:141-188 `(*PgMar).UnmarshalXML` -/
def unPgMar (as : List Attr) : Dec → Out PgMar := leaf pgMarAttr {} as

/-- structsect.go:194-204; the value is `Space` -/
def colsAttr (s : Int64) (l v : String) : Int64 × Option Err :=
  match l with
  | "space" => atoiAttr v fun n => n
  | _ => (s, none)

/-- structsect.go:191-208 `(*Cols).UnmarshalXML` -/
def unCols (as : List Attr) : Dec → Out Int64 := leaf colsAttr 0 as

/-- structsect.go:214-226 -/
def docGridAttr (s : DocGrid) (l v : String) : DocGrid × Option Err :=
  match l with
  | "linePitch" => atoiAttr v fun n => { s with linePitch := n }
  | "type" => ({ s with type := v }, none)
  | _ => (s, none)

/-- structsect.go:211-230 `(*DocGrid).UnmarshalXML` -/
def unDocGrid (as : List Attr) : Dec → Out DocGrid := leaf docGridAttr {} as

/-- structsect.go:74-110 -/
def sectStep (s : SectPr) (l : String) (as : List Attr) : Dec → Out SectPr :=
  match l with
  | "pgSz" => sub (unPgSz as) fun v => { s with pgSz := some v }
  | "pgMar" => sub (unPgMar as) fun v => { s with pgMar := some v }
  | "cols" => sub (unCols as) fun v => { s with cols := some v }
  | "docGrid" => sub (unDocGrid as) fun v => { s with docGrid := some v }
  | _ => skipTo s

/-- structsect.go:65-113 `(*SectPr).UnmarshalXML` -/
def unSect : Dec → Out SectPr := loop sectStep {}

/-! ## The recursive knot

Paragraphs contain runs, runs contain drawings, drawings contain shapes with paragraphs; canvases
and groups contain each other; a run's `parse` calls itself inside `AlternateContent`.
The functions below take the three decoders they call recursively as a parameter; `decs k` ties the
knot for `k` levels of nesting.
-/

/-- Result of `(*Run).parse`: the run after the call and the child, `none` if nil -/
abbrev Parsed := Run × Option RChild

/-- The decoders called recursively: `(*Paragraph).UnmarshalXML`,
`(*WordprocessingCanvas).UnmarshalXML` and `(*Run).parse` -/
structure Decs where
  para : Option DocId → Dec → Out Para
  canvas : Option DocId → Dec → Out Canvas
  parse : Option DocId → Run → String → List Attr → Dec → Out Parsed

/-- structshape.go:589-606 -/
def txbxContentStep (p : Decs) (file : Option DocId) (s : List Para) (l : String) (_ : List Attr) :
    Dec → Out (List Para) :=
  match l with
  | "p" => sub (p.para file) fun v => s ++ [v]
  | _ => skipTo s

/-- structshape.go:548-565 -/
def textBoxStep (p : Decs) (file : Option DocId) (s : TextBox) (l : String) (_ : List Attr) :
    Dec → Out TextBox :=
  match l with
  | "txbxContent" => sub (loop (txbxContentStep p file) []) fun v => { s with content := some v }
  | _ => skipTo s

/-- structshape.go:538-568 `(*WPSTextBox).UnmarshalXML` (with 579-609
`(*WTextBoxContent).UnmarshalXML` inside) -/
def unTextBox (p : Decs) (file : Option DocId) : Dec → Out TextBox := loop (textBoxStep p file) {}

/-- structshape.go:53-99 -/
def shapeStep (p : Decs) (file : Option DocId) (s : Shape) (l : String) (as : List Attr) :
    Dec → Out Shape :=
  match l with
  | "cNvPr" => sub (unIdName as) fun v => { s with cNvPr := some v }
  | "cNvCnPr" => sub unCNvCnPr fun v => { s with cNvCnPr := some v }
  | "cNvSpPr" => sub (unCNvSpPr as) fun v => { s with cNvSpPr := some v }
  | "spPr" => sub (unShapePr as) fun v => { s with spPr := some v }
  | "txbx" => sub (unTextBox p file) fun v => { s with textBox := some v }
  | "bodyPr" => sub (unBodyPr as) fun v => { s with bodyPr := some v }
  | _ => skipTo s

/-- structshape.go:43-102 `(*WordprocessingShape).UnmarshalXML` -/
def unShape (p : Decs) (file : Option DocId) : Dec → Out Shape := loop (shapeStep p file) {}

/-- structgroup.go:173-226 -/
def groupShapeStep (p : Decs) (file : Option DocId) (s : GroupShape) (l : String) (as : List Attr) :
    Dec → Out GroupShape :=
  match l with
  | "cNvPr" => sub (unIdName as) fun v => { s with cNvPr := some v }
  | "cNvGrpSpPr" => sub unCNvGrpSpPr fun v => { s with cNvGrpSpPr := some v }
  | "grpSpPr" => sub (unShapePr as) fun v => { s with grpSpPr := some v }
  | "pic" => sub unPic fun v => { s with elems := s.elems ++ [.pic v] }
  | "wsp" => sub (unShape p file) fun v => { s with elems := s.elems ++ [.shape v] }
  | "wpc" => sub (p.canvas file) fun v => { s with elems := s.elems ++ [.canvas v] }
  | _ => skipTo s

/-- structgroup.go:163-229 `(*WPGGroupShape).UnmarshalXML` -/
def unGroupShape (p : Decs) (file : Option DocId) : Dec → Out GroupShape :=
  loop (groupShapeStep p file) {}

/-- structgroup.go:50-104 -/
def groupStep (p : Decs) (file : Option DocId) (s : Group) (l : String) (as : List Attr) :
    Dec → Out Group :=
  match l with
  | "cNvGrpSpPr" => sub unCNvGrpSpPr fun v => { s with cNvGrpSpPr := some v }
  | "grpSpPr" => sub (unShapePr as) fun v => { s with grpSpPr := some v }
  | "pic" => sub unPic fun v => { s with elems := s.elems ++ [.pic v] }
  | "wsp" => sub (unShape p file) fun v => { s with elems := s.elems ++ [.shape v] }
  | "wpc" => sub (p.canvas file) fun v => { s with elems := s.elems ++ [.canvas v] }
  | "grpSp" => sub (unGroupShape p file) fun v => { s with elems := s.elems ++ [.groupShape v] }
  | _ => skipTo s

/-- structgroup.go:40-107 `(*WordprocessingGroup).UnmarshalXML` -/
def unGroup (p : Decs) (file : Option DocId) : Dec → Out Group := loop (groupStep p file) {}

/-- structcanvas.go:51-96 -/
def canvasStep (p : Decs) (file : Option DocId) (s : Canvas) (l : String) (as : List Attr) :
    Dec → Out Canvas :=
  match l with
  | "bg" => sub unBackground fun v => { s with background := some v }
  | "whole" => sub unWhole fun v => { s with whole := some v }
  | "wsp" => sub (unShape p file) fun v => { s with items := s.items ++ [.shape v] }
  | "pic" => sub unPic fun v => { s with items := s.items ++ [.pic { v with xmlPic := getAtt as "pic" }] }
  | "wgp" => sub (unGroup p file) fun v => { s with items := s.items ++ [.group v] }
  | _ => skipTo s

/-- structcanvas.go:41-99 `(*WordprocessingCanvas).UnmarshalXML` -/
def unCanvas (p : Decs) (file : Option DocId) : Dec → Out Canvas := loop (canvasStep p file) {}

/-- structdrawing.go:547-554 -/
def graphicDataAttr (s : GraphicData) (l v : String) : GraphicData × Option Err :=
  match l with
  | "uri" => ({ s with uri := v }, none)
  | _ => (s, none)

/-- structdrawing.go:564-605 -/
def graphicDataStep (p : Decs) (file : Option DocId) (s : GraphicData) (l : String)
    (as : List Attr) : Dec → Out GraphicData :=
  match l with
  | "pic" => sub unPic fun v => { s with pic := some { v with xmlPic := getAtt as "pic" } }
  | "wsp" => sub (unShape p file) fun v => { s with shape := some v }
  | "wpc" => sub (unCanvas p file) fun v => { s with canvas := some v }
  | "wgp" => sub (unGroup p file) fun v => { s with group := some v }
  | _ => skipTo s

/-- structdrawing.go:546-608 `(*AGraphicData).UnmarshalXML` -/
def unGraphicData (p : Decs) (file : Option DocId) (as : List Attr) : Dec → Out GraphicData :=
  withAttrs graphicDataAttr (loop (graphicDataStep p file)) {} as

/-- structdrawing.go:492-499 -/
def graphicAttr (s : Graphic) (l v : String) : Graphic × Option Err :=
  match l with
  | "a" => ({ s with xmlA := v }, none)
  | _ => (s, none)

/-- structdrawing.go:509-527 -/
def graphicStep (p : Decs) (file : Option DocId) (s : Graphic) (l : String) (as : List Attr) :
    Dec → Out Graphic :=
  match l with
  | "graphicData" =>
    sub (unGraphicData p file as) fun v => { s with data := some { v with uri := getAtt as "uri" } }
  | _ => skipTo s

/-- structdrawing.go:491-530 `(*AGraphic).UnmarshalXML` -/
def unGraphic (p : Decs) (file : Option DocId) (as : List Attr) : Dec → Out Graphic :=
  withAttrs graphicAttr (loop (graphicStep p file)) {} as

/-- structdrawing.go:137-153 -/
def inlineAttr (s : Inline) (l v : String) : Inline × Option Err :=
  match l with
  | "distT" => intAttr v fun n => { s with distT := n }
  | "distB" => intAttr v fun n => { s with distB := n }
  | "distL" => intAttr v fun n => { s with distL := n }
  | "distR" => intAttr v fun n => { s with distR := n }
  | _ => (s, none)

/-- structdrawing.go:163-223 -/
def inlineStep (p : Decs) (file : Option DocId) (s : Inline) (l : String) (as : List Attr) :
    Dec → Out Inline :=
  match l with
  | "extent" => flatAttrs extAttr {} as fun v => { s with extent := some v }
  | "effectExtent" => flatAttrs effAttr {} as fun v => { s with effectExtent := some v }
  | "docPr" => sub (unIdName as) fun v => { s with docPr := some v }
  | "cNvGraphicFramePr" => sub unFramePr fun v => { s with framePr := some v }
  | "graphic" => sub (unGraphic p file as) fun v => { s with graphic := some v }
  | _ => skipTo s

/-- structdrawing.go:136-226 `(*WPInline).UnmarshalXML` -/
def unInline (p : Decs) (file : Option DocId) (as : List Attr) : Dec → Out Inline :=
  withAttrs inlineAttr (loop (inlineStep p file)) { file := file } as

/-- structdrawing.go:1203-1229 -/
def anchorAttr (s : Anchor) (l v : String) : Anchor × Option Err :=
  match l with
  | "distT" => intAttr v fun n => { s with distT := n }
  | "distB" => intAttr v fun n => { s with distB := n }
  | "distL" => intAttr v fun n => { s with distL := n }
  | "distR" => intAttr v fun n => { s with distR := n }
  | "simplePos" => intAttr v fun n => { s with simplePos := n }
  | "relativeHeight" => intAttr v fun n => { s with relativeHeight := n }
  | "behindDoc" => intAttr v fun n => { s with behindDoc := n }
  | "locked" => intAttr v fun n => { s with locked := n }
  | "layoutInCell" => intAttr v fun n => { s with layoutInCell := n }
  | "allowOverlap" => intAttr v fun n => { s with allowOverlap := n }
  | _ => (s, none)

/-- structdrawing.go:1239-1311 -/
def anchorStep (p : Decs) (file : Option DocId) (s : Anchor) (l : String) (as : List Attr) :
    Dec → Out Anchor :=
  match l with
  | "simplePos" => flatAttrs offAttr {} as fun v => { s with simplePosXY := some v }
  | "positionH" => sub (unPosition as) fun v => { s with positionH := some v }
  | "positionV" => sub (unPosition as) fun v => { s with positionV := some v }
  | "extent" => sub (unExtent as) fun v => { s with extent := some v }
  | "effectExtent" => sub (unEffectExtent as) fun v => { s with effectExtent := some v }
  | "wrapNone" => flat { s with wrapNone := true }
  | "wrapSquare" => flat { s with wrapSquare := some (getAtt as "wrapText") }
  | "docPr" => sub (unIdName as) fun v => { s with docPr := some v }
  | "cNvGraphicFramePr" => sub unFramePr fun v => { s with framePr := some v }
  | "graphic" => sub (unGraphic p file as) fun v => { s with graphic := some v }
  | _ => skipTo s

/-- structdrawing.go:1202-1314 `(*WPAnchor).UnmarshalXML` -/
def unAnchor (p : Decs) (file : Option DocId) (as : List Attr) : Dec → Out Anchor :=
  withAttrs anchorAttr (loop (anchorStep p file)) { file := file } as

/-- structdrawing.go:65-88 -/
def drawingStep (p : Decs) (file : Option DocId) (s : Drawing) (l : String) (as : List Attr) :
    Dec → Out Drawing :=
  match l with
  | "inline" => sub (unInline p file as) fun v => { s with inl := some v }
  | "anchor" => sub (unAnchor p file as) fun v => { s with anchor := some v }
  | _ => skipTo s

/-- structdrawing.go:55-91 `(*Drawing).UnmarshalXML` -/
def unDrawing (p : Decs) (file : Option DocId) : Dec → Out Drawing := loop (drawingStep p file) {}

/-- structrun.go:150-153: is this a `Choice` with one of the supported `Requires`? -/
def supportedChoice (l : String) (as : List Attr) : Bool :=
  l == "Choice" &&
    (getAtt as "Requires" == "wps" || getAtt as "Requires" == "wpc" || getAtt as "Requires" == "wpg")

/-- structrun.go:137-175: the loop `altcont`. The number bounds the iterations (never reached). -/
def altN (parse : Run → String → List Attr → Dec → Out Parsed) : Nat → Run → Dec → Out Parsed
  | 0, r, d => ⟨(r, none), some .fuel, d⟩
  | f + 1, r, d =>
    let next (d' : Dec) : Out Parsed :=
      match d'.skip with
      | (none, d'') => altN parse f r d''
      | (some e, d'') => ⟨(r, none), some e, d''⟩
    match d.token with
    | (.error .eof, d') => ⟨(r, none), none, d'⟩
    | (.error e, d') => ⟨(r, none), some e, d'⟩
    | (.ok (.start q as), d') =>
      if supportedChoice q.loc as then
        match d'.token with
        | (.error e, d'') => ⟨(r, none), some e, d''⟩
        | (.ok (.start q2 as2), d'') => parse r q2.loc as2 d''
        | (.ok _, d'') => ⟨(r, none), none, d''⟩
      else next d'
    | (.ok (.stop q), d') =>
      if q.loc = "AlternateContent" then ⟨(r, none), none, d'⟩ else next d'
    | (.ok _, d') => next d'

/-- structrun.go:84-181 `(*Run).parse`.  In the cases `t` and `drawing` a tolerated error stays in
the named result `err`, so the caller gets it after all. -/
def runParse (p : Decs) (file : Option DocId) (r : Run) (l : String) (as : List Attr) (d : Dec) :
    Out Parsed :=
  match l with
  | "rPr" => sub unRPr (fun v => ({ r with rpr := some v }, none)) d
  | "instrText" =>
    let o := reflString d
    ⟨({ r with instr := o.val }, none), tolerate o.err, o.dec⟩
  | "t" => subStrict (unText as) (fun v => (r, some (.text v))) d
  | "drawing" => subStrict (unDrawing p file) (fun v => (r, some (.drawing v))) d
  | "tab" => flat (r, some (.tab {})) none d
  | "br" => subStrict (unBr as) (fun v => (r, some (.br v))) d
  | "AlternateContent" => altN (p.parse file) (d.rest.length + 1) r d
  | _ => skipTo (r, none) d

/-- structrun.go:49-60 -/
def runAttr (s : Run) (l v : String) : Run × Option Err :=
  match l with
  | "space" => ({ s with space := v }, none)
  | _ => (s, none)

/-- structrun.go:70-79 -/
def addChild (x : Parsed) : Run :=
  match x.2 with
  | none => x.1
  | some c => { x.1 with children := x.1.children ++ [c] }

/-- structrun.go:70-78 -/
def runStep (p : Decs) (file : Option DocId) (s : Run) (l : String) (as : List Attr) (d : Dec) :
    Out Run :=
  match runParse p file s l as d with
  | ⟨v, none, d'⟩ => ⟨addChild v, none, d'⟩
  | ⟨v, some e, d'⟩ => ⟨v.1, some e, d'⟩

/-- structrun.go:48-82 `(*Run).UnmarshalXML` into a run already there -/
def unRun (p : Decs) (file : Option DocId) (s : Run) (as : List Attr) : Dec → Out Run :=
  withAttrs runAttr (loop (runStep p file)) s as

/-- structlink.go:47-59; the run's document pointer is nil -/
def hyperlinkStep (p : Decs) (s : Hyperlink) (l : String) (as : List Attr) : Dec → Out Hyperlink :=
  match l with
  | "r" => sub (unRun p none s.run as) fun v => { s with run := v }
  | _ => skipTo s

/-- structlink.go:37-62 `(*Hyperlink).UnmarshalXML` -/
def unLink (p : Decs) : Dec → Out Hyperlink := loop (hyperlinkStep p) { run := {} }

/-- structpara.go:262-269: the id of a parsed hyperlink -/
def linkID (as : List Attr) (old : String) : String :=
  if getAtt as "anchor" ≠ "" then getAtt as "anchor"
  else if getAtt as "id" ≠ "" then getAtt as "id"
  else old

/-- structpara.go:254-303; `children` of the state is the local slice of the method -/
def paraStep (p : Decs) (file : Option DocId) (s : Para) (l : String) (as : List Attr) :
    Dec → Out Para :=
  match l with
  | "hyperlink" =>
    sub (unLink p) fun v => { s with children := s.children ++ [.link { v with id := linkID as v.id }] }
  | "r" => sub (unRun p file {} as) fun v => { s with children := s.children ++ [.run v] }
  | "rPr" => sub unRPr fun v => { s with children := s.children ++ [.rpr v] }
  | "pPr" => sub unPPr fun v => { s with props := some v }
  | _ => skipTo s

/-- structpara.go:230-307 `(*Paragraph).UnmarshalXML`.  The children are stored only when the loop
ends without an error. -/
def unPara (p : Decs) (file : Option DocId) (d : Dec) : Out Para :=
  let o := loop (paraStep p file) { file := file } d
  match o.err with
  | none => o
  | some e => ⟨{ o.val with children := [] }, some e, o.dec⟩

/-- The recursive decoders for documents nested up to `k` levels -/
def decs : Nat → Decs
  | 0 =>
    { para := fun file d => ⟨{ file := file }, some .fuel, d⟩
      canvas := fun _ d => ⟨{}, some .fuel, d⟩
      parse := fun _ r _ _ d => ⟨(r, none), some .fuel, d⟩ }
  | k + 1 =>
    { para := unPara (decs k)
      canvas := unCanvas (decs k)
      parse := runParse (decs k) }

/-! ## Tables and the document -/

/-- structtable.go:554-578 -/
def cellStep (p : Decs) (file : Option DocId) (s : Cell) (l : String) (_ : List Attr) :
    Dec → Out Cell :=
  match l with
  | "p" => sub (unPara p file) fun v => { s with paras := s.paras ++ [v] }
  | "tcPr" => sub unTcPr fun v => { s with props := some v }
  | _ => skipTo s

/-- structtable.go:544-581 `(*WTableCell).UnmarshalXML` -/
def unCell (p : Decs) (file : Option DocId) : Dec → Out Cell := loop (cellStep p file) { file := file }

/-- structtable.go:437-460 -/
def rowStep (p : Decs) (file : Option DocId) (s : Row) (l : String) (_ : List Attr) :
    Dec → Out Row :=
  match l with
  | "trPr" => sub unTrPr fun v => { s with props := some v }
  | "tc" => sub (unCell p file) fun v => { s with cells := s.cells ++ [v] }
  | _ => skipTo s

/-- structtable.go:414-463 `(*WTableRow).UnmarshalXML` -/
def unRow (p : Decs) (file : Option DocId) : Dec → Out Row := loop (rowStep p file) {}

/-- structtable.go:73-102 -/
def tableStep (p : Decs) (file : Option DocId) (s : Table) (l : String) (_ : List Attr) :
    Dec → Out Table :=
  match l with
  | "tr" => sub (unRow p file) fun v => { s with rows := s.rows ++ [v] }
  | "tblPr" => sub unTblPr fun v => { s with props := some v }
  | "tblGrid" => sub unGrid fun v => { s with grid := some v }
  | _ => skipTo s

/-- structtable.go:64-105 `(*Table).UnmarshalXML` -/
def unTable (p : Decs) (file : Option DocId) : Dec → Out Table := loop (tableStep p file) {}

/-- structdoc.go:75-106 -/
def bodyStep (p : Decs) (file : Option DocId) (s : List BItem) (l : String) (_ : List Attr) :
    Dec → Out (List BItem) :=
  match l with
  | "p" => sub (unPara p file) fun v => s ++ [.para v]
  | "tbl" => sub (unTable p file) fun v => s ++ [.table v]
  | "sectPr" => sub unSect fun v => s ++ [.sect v]
  | _ => skipTo s

/-- structdoc.go:65-109 `(*Body).UnmarshalXML` into a body already there -/
def unBody (p : Decs) (file : Option DocId) (s : List BItem) : Dec → Out (List BItem) :=
  loop (bodyStep p file) s

/-- structdoc.go:187-199; the state is `Body.Items` -/
def documentStep (p : Decs) (file : Option DocId) (s : List BItem) (l : String) (_ : List Attr) :
    Dec → Out (List BItem) :=
  match l with
  | "body" => sub (unBody p file s) fun v => v
  | _ => skipTo s

/-- structdoc.go:177-202 `(*Document).UnmarshalXML` into a document already there -/
def unDocument (p : Decs) (file : Option DocId) (s : List BItem) : Dec → Out (List BItem) :=
  loop (documentStep p file) s

/-- `(*xml.Decoder).Decode`: skip to the first start tag, then decode that element. The number
bounds the tokens before it (never reached). -/
def rootN {α : Type} (u : List Attr → Dec → Out α) (s : α) : Nat → Dec → Out α
  | 0, d => ⟨s, some .fuel, d⟩
  | f + 1, d =>
    match d.token with
    | (.error e, d') => ⟨s, some e, d'⟩
    | (.ok (.start _ as), d') => u as d'
    | (.ok _, d') => rootN u s f d'

/-- unpack.go:99 `xml.NewDecoder(zf).Decode(&f.Document)`: the body items after decoding the tokens
of `word/document.xml` into a document with items `s` -/
def decodeDocument (file : Option DocId) (s : List BItem) (toks : List Tok) : Out (List BItem) :=
  rootN (fun _ => decodeElement (unDocument (decs (toks.length + 1)) file s)) s (toks.length + 1)
    ⟨toks, [], false⟩

end Docx
