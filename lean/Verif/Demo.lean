import Verif.SpecBuilt
import Verif.Theme

/-!
# The demonstration document of the command-line tool

cmd/main/main.go:49-154, call by call, with the calls of `SpecBuilt`.  A chain of setters on a run is one
`formatRun`; where the code calls `AddTab` after the setters of a run, here the tab comes first, which gives the same
run as setters do not touch the children of a run and `AddTab` does not touch its properties.
-/

namespace Docx

/-- `p.Justification(val)` (apipara.go:51-57) -/
def jcOf (val : String) (x : Option PPr) : Option PPr := some { x.getD {} with jc := some val }

/-- cmd/main/main.go:64, 75 and 133: the shade of the examples -/
def greyShade : Shade := { val := "clear", color := "auto", fill := "E7E6E6" }

/-- One byte as `%02X` prints it (main.go:118), for numbers up to 255 -/
def hexByte (n : Nat) : String :=
  let digit (k : Nat) : Char := (['0', '1', '2', '3', '4', '5', '6', '7', '8', '9', 'A', 'B', 'C', 'D', 'E', 'F'][k]?).getD '0'
  String.ofList [digit (n / 16), digit (n % 16)]

/-- cmd/main/main.go:114-118: the colour of a cell of the first table -/
def cellColor (x y : Nat) : String :=
  hexByte ((x + 1) * 28) ++ hexByte ((y + 1) / 3 * 85) ++ hexByte ((y % 3 + 1) * 85)

/-- cmd/main/main.go:138-144 and 147-153: the line of the shapes -/
def demoLine : Line :=
  { w := 9525, solidFill := some (some "000000"), round := true, headEnd := some {}, tailEnd := some {} }

/-- cmd/main/main.go:49-52: the page and the first paragraph with a picture; `cx`, `cy` is the size that `AddAnchorDrawing` gives
the picture (main.go:56-59) -/
def demoFirst (jpg : Bytes) (cx cy : Int64) : List Call :=
  [.a4, .paragraph, .formatPara (.body 1) (jcOf "distribute"), .picture false (.body 1) jpg,
   .resize (.body 1) 0 (cx / 4) (cy / 4), .place (.body 1) 0 1 (cx / 4) 50000]

/-- cmd/main/main.go:61-86: texts with all kinds of formatting and a link -/
def demoTexts : List Call :=
  let l : Loc := .body 1
  [.textTab l "test",
   .textTab l "size", .formatRun l 2 fun p => { p with size := some "44" },
   .textTab l "color", .formatRun l 3 fun p => { p with color := some "808080" },
   .textTab l "shade", .formatRun l 4 fun p => { p with shade := some greyShade },
   .textTab l "bold", .formatRun l 5 fun p => { p with bold := true },
   .textTab l "italic", .formatRun l 6 fun p => { p with italic := true },
   .textTab l "underline", .formatRun l 7 fun p => { p with underline := some "double" },
   .textTab l "highlight", .formatRun l 8 fun p => { p with highlight := some "yellow" },
   .textTab l "font", .formatRun l 9 fun p => { p with fonts := some ⟨"Consolas", "", "", "cs"⟩ },
   .paragraph, .formatPara (.body 2) (jcOf "end"), .text (.body 2) "test all font attrs",
   .formatRun (.body 2) 0 fun p => { p with
     size := some "44", color := some "ff0000", fonts := some ⟨"Consolas", "", "", "cs"⟩, shade := some greyShade,
     bold := true, italic := true, underline := some "wave", highlight := some "yellow" },
   .paragraph, .link (.body 3) "google" "http://google.com",
   .paragraph, .formatPara (.body 4) (jcOf "center"), .text (.body 4) "一行2个 inline",
   .formatRun (.body 4) 0 fun p => { p with size := some "44" },
   .paragraph, .formatPara (.body 5) (jcOf "center")]

/-- cmd/main/main.go:87-97: two pictures in one paragraph, with two tabs between them; `p.AddTab()` is `p.AddText("\t")`
(apitext.go:42-44) -/
def demoPictures (jpg webp : Bytes) (cx cy dx dy : Int64) : List Call :=
  [.picture true (.body 5) jpg, .resize (.body 5) 0 (cx * 4 / 5) (cy * 4 / 5), .textTab (.body 5) "\t",
   .picture true (.body 5) webp, .resize (.body 5) 2 (dx * 4 / 5) (dy * 4 / 5)]

/-- cmd/main/main.go:99-108: a page break, a heading and a picture -/
def demoWide (png : Bytes) : List Call :=
  [.paragraph, .pageBreak (.body 6), .paragraph, .formatPara (.body 7) (jcOf "center"),
   .text (.body 7) "一行1个 横向 inline", .formatRun (.body 7) 0 fun p => { p with size := some "44" },
   .paragraph, .picture true (.body 8) png]

/-- cmd/main/main.go:110-121: the first table -/
def demoColors : List Call :=
  .paragraph :: .table 9 9 0 none :: (List.range 9).flatMap fun x => (List.range 9).flatMap fun y =>
    [.formatCell 10 x y fun c => c.map fun c => { c with shade := some { val := "clear", color := "auto", fill := cellColor x y } },
     .cellParagraph 10 x y, .text (.cell 10 x y 0) (cellColor x y),
     .formatRun (.cell 10 x y 0) 0 fun p => { p with size := some "18" }]

/-- cmd/main/main.go:123-133: the second table -/
def demoGrid : List Call :=
  .paragraph :: .tableTwips [2333, 2333, 2333] [2333, 2333] 0 none ::
  .formatTable 12 (fun t => t.map fun t => { t with jc := some "center" }) ::
  ((List.range 3).flatMap fun x =>
    .formatRow 12 x (fun r => r.map fun r => { r with jc := some "center" }) ::
    (List.range 2).flatMap fun y =>
      [.formatCell 12 x y fun c => c.map fun c => { c with vAlign := some "center" },
       .cellParagraph 12 x y, .formatPara (.cell 12 x y 0) (jcOf "center"),
       .text (.cell 12 x y 0) ("(" ++ toString x ++ ", " ++ toString y ++ ")")]) ++
  [.formatCell 12 0 0 fun c => c.map fun c => { c with shade := some greyShade }]

/-- cmd/main/main.go:135-154: the shapes -/
def demoShapes : List Call :=
  [.paragraph, .formatPara (.body 13) (jcOf "center"), .text (.body 13) "测试 AutoShape w:ln",
   .formatRun (.body 13) 0 fun p => { p with size := some "44" },
   .shape false (.body 13) 808355 238760 "AutoShape" "auto" "straightConnector1" (some demoLine),
   .shape true (.body 13) 808355 238760 "AutoShape" "auto" "straightConnector1" (some demoLine)]

/-- cmd/main/main.go:49-154: all calls after `New` and `WithDefaultTheme` -/
def demoCalls (jpg webp png : Bytes) (cx cy dx dy : Int64) : List Call :=
  demoFirst jpg cx cy ++ demoTexts ++ demoPictures jpg webp cx cy dx dy ++ demoWide png ++ demoColors ++ demoGrid ++
    demoShapes

/-- cmd/main/main.go:49-154: the demonstration document; `fs` is `TemplateXMLFS`, the pictures are the contents of
`testdata/fumiama.JPG`, `testdata/fumiama2x.webp` and `testdata/fumiamayoko.png`.  `none`: the program panics, because
a file cannot be read or its picture not be decoded (main.go:53-55, 88-90, 94-96, 106-108), or in a call. -/
def demoDoc [ImgEnv] (fs : FS) (jpg webp png : Option Bytes) : Option Doc := do
  let jpg ← jpg
  let webp ← webp
  let png ← png
  let (w1, h1, _) ← ImgEnv.decodeSize jpg
  let (w2, h2, _) ← ImgEnv.decodeSize webp
  let _ ← ImgEnv.decodeSize png
  let (cx, cy) ← scaleSize w1 h1
  let (dx, dy) ← scaleSize w2 h2
  match run [] (.new :: .useTemplate 0 "default" defaultTemplateFiles (some fs) ::
      (demoCalls jpg webp png cx cy dx dy).map (Call.op 0)) with
  | .ok [f] => some f
  | _ => none

end Docx
