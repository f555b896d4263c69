import Verif.SpecFrames

/-!
# The drawings of the demonstration document (C103)
-/

namespace Docx

/-- The drawings of the document.  `cx`, `cy` is the size that the first picture is given when it is added, `dx`, `dy` that
of the second and `ex`, `ey` that of the third. -/
def demoFrames (cx cy dx dy ex ey : Int64) : List Frames :=
  let plain : String × List PicFrame := ("*docx.Run", [])
  let floating : PicFrame :=
    { inline := false, shape := false, size := some (cx / 4, cy / 4), inner := some (cx / 4, cy / 4)
      behind := 1, offset := some (cx / 4), alpha := some 50000 }
  let inLine (w h : Int64) : PicFrame := { inline := true, shape := false, size := some (w, h), inner := some (w, h) }
  let line : PicFrame := { inline := true, shape := true, size := some (808355, 238760), inner := some (808355, 238760) }
  [.page,
   .para (("*docx.Run", [floating]) :: List.replicate 9 plain),
   .para [plain],
   .para [("*docx.Hyperlink", [])],
   .para [plain],
   .para [("*docx.Run", [inLine (cx * 4 / 5) (cy * 4 / 5)]), plain, ("*docx.Run", [inLine (dx * 4 / 5) (dy * 4 / 5)])],
   .para [plain],
   .para [plain],
   .para [("*docx.Run", [inLine ex ey])],
   .para [],
   .table (List.replicate 9 (List.replicate 9 [[plain]])),
   .para [],
   .table (List.replicate 3 (List.replicate 2 [[plain]])),
   .para [plain, ("*docx.Run", [{ line with inline := false, offset := some 0 }]), ("*docx.Run", [line])]]

end Docx
