import Verif.SpecDress
import Verif.SpecFits

/-!
# What the demonstration document looks like (C103)
-/

namespace Docx

/-- A picture file that a document can be made with: it can be decoded and is not 0 wide -/
def Usable [ImgEnv] (pic : Option Bytes) : Prop :=
  ∃ b w h fmt, pic = some b ∧ ImgEnv.decodeSize b = some (w, h, fmt) ∧ w ≠ 0

/-- Red by row, green and blue by column -/
def demoReds : List String := ["1C", "38", "54", "70", "8C", "A8", "C4", "E0", "FC"]
@[inherit_doc demoReds]
def demoGreenBlues : List String := ["0055", "00AA", "55FF", "5555", "55AA", "AAFF", "AA55", "AAAA", "FFFF"]

/-- What the document shows -/
def demoBlocks (jpg webp png : Bytes) : List Block :=
  [.page 11906 16838,
   .para [.picture false jpg, .text "test", .tab, .text "size", .tab, .text "color", .tab, .text "shade", .tab,
     .text "bold", .tab, .text "italic", .tab, .text "underline", .tab, .text "highlight", .tab, .text "font", .tab],
   .para [.text "test all font attrs"],
   .para [.link "google" "http://google.com"],
   .para [.text "一行2个 inline"],
   .para [.picture true jpg, .tab, .tab, .picture true webp],
   .para [.pageBreak],
   .para [.text "一行1个 横向 inline"],
   .para [.picture true png],
   .para [],
   .table (demoReds.map fun red => demoGreenBlues.map fun gb => [[.text (red ++ gb)]]),
   .para [],
   .table [[[[.text "(0, 0)"]], [[.text "(0, 1)"]]],
           [[[.text "(1, 0)"]], [[.text "(1, 1)"]]],
           [[[.text "(2, 0)"]], [[.text "(2, 1)"]]]],
   .para [.text "测试 AutoShape w:ln", .shape false 808355 238760 "straightConnector1",
     .shape true 808355 238760 "straightConnector1"]]

/-- A paragraph with its alignment and the properties of its runs -/
def runsDress (jc : Option String) (runs : List RPr) : ParaDress :=
  ⟨jc.map fun v => { jc := some v }, runs.map fun r => ("*docx.Run", some r)⟩

/-- How the document is formatted -/
def demoDress : List Dress :=
  let grey : Shade := { val := "clear", color := "auto", fill := "E7E6E6" }
  let consolas : RunFonts := { ascii := "Consolas", hint := "cs" }
  let all : RPr :=
    { size := some "44", color := some "ff0000", fonts := some consolas, shade := some grey, bold := true
      italic := true, underline := some "wave", highlight := some "yellow" }
  let black : Border := { val := "single", size := 4, space := 0, color := "#000000" }
  let plain : TblPr :=
    { width := some { type := "auto" }, look := some { val := "0000" }
      borders := some { top := some black, left := some black, bottom := some black, right := some black,
                        insideH := some black, insideV := some black } }
  let cell (shade : Option Shade) : Option TcPr × List ParaDress :=
    (some { width := some { w := 2333, type := "dxa" }, vAlign := some "center", shade := shade },
      [runsDress (some "center") [{}]])
  let row (shade : Option Shade) : Option TrPr × List (Option TcPr × List ParaDress) :=
    (some { height := some { val := 2333 }, jc := some "center" }, [cell shade, cell none])
  [.page,
   .para (runsDress (some "distribute") [{}, {}, { size := some "44" }, { color := some "808080" }, { shade := some grey },
     { bold := true }, { italic := true }, { underline := some "double" }, { highlight := some "yellow" },
     { fonts := some consolas }]),
   .para (runsDress (some "end") [all]),
   .para ⟨none, [("*docx.Hyperlink", some { runStyle := some "a3" })]⟩,
   .para (runsDress (some "center") [{ size := some "44" }]),
   .para (runsDress (some "center") [{}, {}, {}]),
   .para (runsDress none [{}]),
   .para (runsDress (some "center") [{ size := some "44" }]),
   .para (runsDress none [{}]),
   .para (runsDress none []),
   .table (some plain) (some []) (demoReds.map fun red => (some {}, demoGreenBlues.map fun gb =>
     (some { width := some { type := "auto" }, shade := some { val := "clear", color := "auto", fill := red ++ gb } },
       [runsDress none [{ size := some "18" }]]))),
   .para (runsDress none []),
   .table (some { plain with jc := some "center" }) (some [some 2333, some 2333])
     [row (some grey), row none, row none],
   .para (runsDress (some "center") [{ size := some "44" }, {}, {}])]

end Docx
