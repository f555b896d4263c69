import Verif.SpecPicture
import Verif.Props.Ooxml

/-!
# C61: the whole XML of the picture and shape calls
-/

namespace Docx

theorem zero_itoa : itoa 0 = "0" := by decide
theorem one_itoa : itoa 1 = "1" := by decide

theorem appended_ne {a b : String} (h : a ≠ "") : a ++ b ≠ "" := by
  intro e
  have := congrArg String.toList e
  rw [String.toList_append] at this
  exact h (String.toList_inj.1 (List.append_eq_nil_iff.1 this).1)

/-- A name is written in `wp:docPr` if it is not empty. -/
theorem docPr_xml {id : Int64} {name : String} (h : name ≠ "") :
    mDocPr ⟨id, name⟩ = .elem ⟨"wp", "docPr"⟩ [plainAttr "id" (itoa id), plainAttr "name" name] [] := by
  simp only [mDocPr, strO, if_neg h]
  rfl

theorem inline_picture_xml (idn id : Int64) (rid : String) (x y : Int64) :
    mPChild (.run (drawingRun { inl := some (mkInlinePic idn id rid x y) })) =
      inTextXml (frontXml (itoa idn) ("图片 " ++ itoa id) (itoa x) (itoa y) [plainAttr "noChangeAspect" "1"])
        (pictureXml (itoa id) ("图片 " ++ itoa id) rid (itoa x) (itoa y)) := by
  have hn : "图片 " ++ itoa id ≠ "" := appended_ne (by decide)
  simp only [mPChild, drawingRun, mRun, mRChildren, mRChild, mDrawing, mInlineO, mAnchorO, mInline, mkInlinePic, optN,
    docPr_xml hn]
  rfl

theorem anchor_picture_xml (idn id : Int64) (rid : String) (x y : Int64) :
    mPChild (.run (drawingRun { anchor := some (mkAnchorPic idn id rid x y) })) =
      floatingXml (frontXml (itoa idn) ("图片 " ++ itoa id) (itoa x) (itoa y) [plainAttr "noChangeAspect" "1"])
        (pictureXml (itoa id) ("图片 " ++ itoa id) rid (itoa x) (itoa y)) := by
  have hn : "图片 " ++ itoa id ≠ "" := appended_ne (by decide)
  simp only [mPChild, drawingRun, mRun, mRChildren, mRChild, mDrawing, mInlineO, mAnchorO, mAnchor, mkAnchorPic, optN,
    docPr_xml hn]
  rfl

/-- C61, pictures: the whole run that the picture calls add to the saved paragraph.  The number of the
drawing is the next one of the document, its name has the next number of a picture. -/
theorem C61_picture_whole [ImgEnv] (f : Doc) (p : Para) (pic : Bytes) (w h : Int64) (fmt : String)
    (hdec : ImgEnv.decodeSize pic = some (w, h, fmt))
    (hw : 0 < w.toInt) (hh : 0 ≤ h.toInt) (hb : h.toInt < 2 ^ 40) :
    ∃ x y rid, GoodSize w.toInt h.toInt x.toInt y.toInt ∧
      (p.addInlineDrawing f pic).1.rels.getLast?.map (·.id) = some rid ∧
      (p.addAnchorDrawing f pic).1.rels.getLast?.map (·.id) = some rid ∧
      let num := itoa (f.docID + 1).toInt64
      let id := itoa (f.slowIDs "图片" + 1).toInt64
      let front := frontXml num ("图片 " ++ id) (itoa x) (itoa y) [plainAttr "noChangeAspect" "1"]
      let graphic := pictureXml id ("图片 " ++ id) rid (itoa x) (itoa y)
      AddsKid "p" (mPara p) (mPara (p.addInlineDrawing f pic).2.1) (inTextXml front graphic) ∧
      AddsKid "p" (mPara p) (mPara (p.addAnchorDrawing f pic).2.1) (floatingXml front graphic) := by
  obtain ⟨x, y, hs, hg⟩ := scaleSize_good w h hw hh hb
  refine ⟨x, y, ridOf (f.rID + 1), hg, ?_, ?_, ?_, ?_⟩
  · simp only [Para.addInlineDrawing, Doc.addPicture, hdec, hs]
    simp [Doc.addImage, Doc.addImageRelation, Doc.addMedia, Doc.increaseID, Doc.nextDocID]
  · simp only [Para.addAnchorDrawing, Doc.addPicture, hdec, hs]
    simp [Doc.addImage, Doc.addImageRelation, Doc.addMedia, Doc.increaseID, Doc.nextDocID]
  · simp only [Para.addInlineDrawing, Doc.addPicture, hdec, hs]
    have := addsKid p (.run (drawingRun { inl := some (mkInlinePic (f.docID + 1).toInt64
      (f.slowIDs picName + 1).toInt64 (ridOf (f.rID + 1)) x y) }))
    rw [inline_picture_xml] at this
    exact this
  · simp only [Para.addAnchorDrawing, Doc.addPicture, hdec, hs]
    have := addsKid p (.run (drawingRun { anchor := some (mkAnchorPic (f.docID + 1).toInt64
      (f.slowIDs picName + 1).toInt64 (ridOf (f.rID + 1)) x y) }))
    rw [anchor_picture_xml] at this
    exact this

theorem shape_graphic_xml (w h : Int64) (mode kind : String) (ln : Option Line) :
    mGraphic (mkShapeGraphic w h mode kind ln) =
      shapeXml mode kind (itoa w) (itoa h) (match ln with | none => [] | some l => [mLine l]) := by
  cases ln <;> rfl

/-- C61, shapes: the whole run that the shape calls add to the saved paragraph, apart from what a line
consists of. -/
theorem C61_shape_whole (f : Doc) (p : Para) (w h : Int64) (name mode kind : String) (ln : Option Line) :
    let num := itoa (f.docID + 1).toInt64
    let front := frontXml num (name ++ " " ++ itoa (f.slowIDs name + 1).toInt64) (itoa w) (itoa h) []
    let graphic := shapeXml mode kind (itoa w) (itoa h) (match ln with | none => [] | some l => [mLine l])
    AddsKid "p" (mPara p) (mPara (p.addInlineShape f w h name mode kind ln).2.1) (inTextXml front graphic) ∧
    AddsKid "p" (mPara p) (mPara (p.addAnchorShape f w h name mode kind ln).2.1) (floatingXml front graphic) := by
  have hn : name ++ " " ++ itoa (f.slowIDs name + 1).toInt64 ≠ "" := by
    intro e
    have := congrArg String.toList e
    simp at this
  have hg := shape_graphic_xml w h mode kind ln
  refine ⟨?_, ?_⟩
  · have := addsKid p (.run (p.addInlineShape f w h name mode kind ln).2.2)
    simp only [Para.addInlineShape, Doc.nextDocID, Doc.increaseID, mPChild, drawingRun, mRun, mRChildren, mRChild,
      mDrawing, mInlineO, mAnchorO, mInline, mGraphicO, optN, docPr_xml hn, hg] at this
    exact this
  · have := addsKid p (.run (p.addAnchorShape f w h name mode kind ln).2.2)
    simp only [Para.addAnchorShape, Doc.nextDocID, Doc.increaseID, mPChild, drawingRun, mRun, mRChildren, mRChild,
      mDrawing, mInlineO, mAnchorO, mAnchor, mGraphicO, optN, docPr_xml hn, hg] at this
    exact this

/-- The hypotheses of `C61_picture_whole` are met by a picture of 600 by 400. -/
example : ∃ (w h : Int64) (fmt : String), @ImgEnv.decodeSize ⟨fun _ => some (600, 400, "png")⟩ [1] = some (w, h, fmt) ∧
    0 < w.toInt ∧ 0 ≤ h.toInt ∧ h.toInt < 2 ^ 40 := ⟨600, 400, "png", rfl, by decide, by decide, by decide⟩

end Docx
