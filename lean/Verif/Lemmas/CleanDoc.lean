import Verif.SpecClean
import Verif.Marshal
import Verif.Lemmas.CleanBase
import Verif.Props.XmlText

/-!
# Cleaning a document and cleaning its XML is the same
-/

namespace Docx

set_option linter.unusedSectionVars false

variable [GoEnv]

/-- Attribute values cleaned -/
def cleanAs (as : List Attr) : List Attr := as.map fun a => ⟨a.name, clean a.val⟩

theorem clean_empty (s : String) : clean s = "" ↔ s = "" := by
  constructor
  · intro h
    have := congrArg String.toList h
    rw [clean, String.toList_ofList] at this
    simpa using this
  · rintro rfl; rfl

theorem clean_itoa (n : Int64) : clean (itoa n) = itoa n := (clean_iff _).2 (xmlText_itoa n)

theorem cN_el (p l : String) (as : List Attr) (ks : List Node) :
    (el p l as ks).clean = el p l (cleanAs as) (cleanL ks) := rfl

theorem cL_nil : cleanL [] = [] := rfl
theorem cL_cons (n : Node) (ns : List Node) : cleanL (n :: ns) = n.clean :: cleanL ns := rfl
theorem cA_nil : cleanAs [] = [] := rfl

theorem cL_append (a b : List Node) : cleanL (a ++ b) = cleanL a ++ cleanL b := by
  induction a with
  | nil => rfl
  | cons x a ih => simp [cleanL, ih]

theorem cA_append (a b : List Attr) : cleanAs (a ++ b) = cleanAs a ++ cleanAs b := by simp [cleanAs]

theorem cA_strA (p l v : String) : cleanAs (strA p l v) = strA p l (clean v) := rfl

theorem cA_strO (p l v : String) : cleanAs (strO p l v) = strO p l (clean v) := by
  unfold strO
  by_cases h : v = ""
  · rw [if_pos h, if_pos ((clean_empty v).2 h)]; rfl
  · rw [if_neg h, if_neg fun e => h ((clean_empty v).1 e)]; rfl

theorem cA_intA (p l : String) (n : Int64) : cleanAs (intA p l n) = intA p l n := by
  simp [cleanAs, intA, clean_itoa]

theorem cA_intO (p l : String) (n : Int64) : cleanAs (intO p l n) = intO p l n := by
  unfold intO
  split <;> simp [cleanAs, clean_itoa]

theorem cL_optN {α : Type} (f : α → Node) (o : Option α) : cleanL (optN f o) = optN (fun x => (f x).clean) o := by
  cases o <;> rfl

theorem optN_map {α β : Type} (f : β → Node) (g : α → β) (o : Option α) :
    optN f (o.map g) = optN (fun x => f (g x)) o := by
  cases o <;> rfl

theorem cL_flagN (b : Bool) (p l : String) : cleanL (flagN b p l) = flagN b p l := by
  cases b <;> rfl

theorem cL_valN (l : String) (o : Option String) : cleanL (valN l o) = valN l (o.map clean) := by
  cases o <;> rfl

theorem cL_valO (l : String) (o : Option String) : cleanL (valO l o) = valO l (o.map clean) := by
  cases o with
  | none => rfl
  | some v => simp [valO, cL_cons, cL_nil, cN_el, cA_strO]

theorem cL_valI (l : String) (o : Option Int64) : cleanL (valI l o) = valI l o := by
  cases o with
  | none => rfl
  | some v => simp [valI, cL_cons, cL_nil, cN_el, cA_intA]

theorem cL_textN (s : String) : cleanL (textN s) = textN (clean s) := by
  unfold textN
  by_cases h : s = ""
  · rw [if_pos h, if_pos ((clean_empty s).2 h)]; rfl
  · rw [if_neg h, if_neg fun e => h ((clean_empty s).1 e)]; rfl

theorem cL_map {α : Type} (f : α → Node) (l : List α) : cleanL (l.map f) = l.map fun x => (f x).clean := by
  induction l with
  | nil => rfl
  | cons x l ih => simp [cleanL, ih]

theorem cL_instr (s : String) : cleanL (if s = "" then [] else [el "w" "instrText" [] [Node.text s]]) =
    if clean s = "" then [] else [el "w" "instrText" [] [Node.text (clean s)]] := by
  by_cases h : s = ""
  · rw [if_pos h, if_pos ((clean_empty s).2 h)]; rfl
  · rw [if_neg h, if_neg fun e => h ((clean_empty s).1 e)]; rfl

theorem cN_text (s : String) : (Node.text s).clean = .text (clean s) := rfl

macro "cl_simp" "[" ts:Lean.Parser.Tactic.simpLemma,* "]" : tactic =>
  `(tactic| simp only [$ts,*, cN_el, cL_nil, cL_cons, cA_nil, cL_append, cA_append, cA_strA, cA_strO, cA_intA,
    cA_intO, cL_optN, optN_map, cL_flagN, cL_valN, cL_valO, cL_valI, cL_textN, cL_map, cN_text, clean_itoa,
    List.map_map, Option.map_map, Function.comp_def])

theorem cm_shade (x : Shade) : (mShade x).clean = mShade (clShade x) := by
  cl_simp [mShade, clShade]

theorem cm_spacing (x : Spacing) : (mSpacing x).clean = mSpacing (clSpacing x) := by
  cl_simp [mSpacing, clSpacing]

theorem cm_ind (x : Ind) : (mInd x).clean = mInd x := by
  cl_simp [mInd]

theorem cm_tab (x : Tab) : (mTab x).clean = mTab (clTab x) := by
  cl_simp [mTab, clTab]

theorem cm_tabs (x : List Tab) : (mTabs x).clean = mTabs (x.map clTab) := by
  cl_simp [mTabs, cm_tab]

theorem cm_runFonts (x : RunFonts) : (mRunFonts x).clean = mRunFonts (clRunFonts x) := by
  cl_simp [mRunFonts, clRunFonts]

theorem cm_rpr (x : RPr) : (mRPr x).clean = mRPr (clRPr x) := by
  cl_simp [mRPr, clRPr, cm_runFonts, cm_spacing, cm_shade]

theorem cm_numPr (x : NumPr) : (mNumPr x).clean = mNumPr (clNumPr x) := by
  cl_simp [mNumPr, clNumPr]

theorem cm_ppr (x : PPr) : (mPPr x).clean = mPPr (clPPr x) := by
  cl_simp [mPPr, clPPr, cm_tabs, cm_spacing, cm_numPr, cm_ind, cm_shade, cm_rpr]

theorem cm_br (x : Br) : (mBr x).clean = mBr (clBr x) := by
  cl_simp [mBr, clBr]

theorem cm_text (x : Text) : (mText x).clean = mText (clText x) := by
  cl_simp [mText, clText]

theorem cm_extent (x : Ext) : (mExtent x).clean = mExtent x := by
  cl_simp [mExtent]

theorem cm_effectExtent (x : EffectExtent) : (mEffectExtent x).clean = mEffectExtent x := by
  cl_simp [mEffectExtent]

theorem cm_docPr (x : IdName) : (mDocPr x).clean = mDocPr (clIdName x) := by
  cl_simp [mDocPr, clIdName]

theorem cm_framePr (x : FrameLocks) : (mFramePr x).clean = mFramePr (clFrameLocks x) := by
  cl_simp [mFramePr, clFrameLocks]

theorem cm_idName (p : String) (x : IdName) : (mIdName p x).clean = mIdName p (clIdName x) := by
  cl_simp [mIdName, clIdName]

theorem cm_cNvPicPr (x : Option Int64) : (mCNvPicPr x).clean = mCNvPicPr x := by
  cl_simp [mCNvPicPr]

theorem cm_nvPicPr (x : NvPicPr) : (mNvPicPr x).clean = mNvPicPr (clNvPicPr x) := by
  cl_simp [mNvPicPr, clNvPicPr, cm_idName, cm_cNvPicPr]

theorem cm_blip (x : Blip) : (mBlip x).clean = mBlip (clBlip x) := by
  cl_simp [mBlip, clBlip]

theorem cm_picFill (x : BlipFill) : (mPicFill x).clean = mPicFill (clBlipFill x) := by
  cl_simp [mPicFill, clBlipFill, cm_blip]

theorem cm_off (p : String) (x : Off) : (mOff p x).clean = mOff p x := by
  cl_simp [mOff]

theorem cm_ext (p : String) (x : Ext) : (mExt p x).clean = mExt p x := by
  cl_simp [mExt]

theorem cm_xfrm (x : Xfrm) : (mXfrm x).clean = mXfrm x := by
  cl_simp [mXfrm, cm_off, cm_ext]

theorem cm_prstGeom (x : PrstGeom) : (mPrstGeom x).clean = mPrstGeom (clPrstGeom x) := by
  cl_simp [mPrstGeom, clPrstGeom]

theorem cm_picSpPr (x : PicSpPr) : (mPicSpPr x).clean = mPicSpPr (clPicSpPr x) := by
  cl_simp [mPicSpPr, clPicSpPr, cm_xfrm, cm_prstGeom]

theorem cm_pic (x : Picture) : (mPic x).clean = mPic (clPicture x) := by
  cl_simp [mPic, clPicture, cm_nvPicPr, cm_picFill, cm_picSpPr]

theorem cm_simplePos (x : Off) : (mSimplePos x).clean = mSimplePos x := by
  cl_simp [mSimplePos]

theorem cm_position (p : String) (x : Position) : (mPosition p x).clean = mPosition p (clPosition x) := by
  cl_simp [mPosition, clPosition]

theorem cm_tile (x : Tile) : (mTile x).clean = mTile (clTile x) := by
  cl_simp [mTile, clTile]

theorem cm_aBlipFill (x : ABlipFill) : (mABlipFill x).clean = mABlipFill (clABlipFill x) := by
  cl_simp [mABlipFill, clABlipFill, cm_blip, cm_tile]

theorem cm_solidFill (x : Option String) : (mSolidFill x).clean = mSolidFill (x.map clean) := by
  cl_simp [mSolidFill]

theorem cm_lineEnd (p : String) (x : LineEnd) : (mLineEnd p x).clean = mLineEnd p (clLineEnd x) := by
  cl_simp [mLineEnd, clLineEnd]

theorem cm_line (x : Line) : (mLine x).clean = mLine (clLine x) := by
  cl_simp [mLine, clLine, cm_solidFill, cm_lineEnd]

theorem cm_shapePr (p q : String) (x : ShapePr) : (mShapePr p q x).clean = mShapePr p q (clShapePr x) := by
  cl_simp [mShapePr, clShapePr, cm_xfrm, cm_prstGeom, cm_solidFill, cm_aBlipFill, cm_line]

theorem cm_cNvCnPr (x : Bool) : (mCNvCnPr x).clean = mCNvCnPr x := by
  cl_simp [mCNvCnPr]

theorem cm_cNvSpPr (x : CNvSpPr) : (mCNvSpPr x).clean = mCNvSpPr x := by
  cl_simp [mCNvSpPr]

theorem cm_bodyPr (x : BodyPr) : (mBodyPr x).clean = mBodyPr (clBodyPr x) := by
  cl_simp [mBodyPr, clBodyPr]

theorem cm_background (x : Bool) : (mBackground x).clean = mBackground x := by
  cl_simp [mBackground]

theorem cm_whole (x : Option Line) : (mWhole x).clean = mWhole (x.map clLine) := by
  cl_simp [mWhole, cm_line]

theorem cm_cNvGrpSpPr (x : Bool) : (mCNvGrpSpPr x).clean = mCNvGrpSpPr x := by
  cl_simp [mCNvGrpSpPr]

mutual

theorem cm_para (x : Para) : (mPara x).clean = mPara (clPara x) := by
  match x with
  | ⟨props, children, file⟩ =>
    cl_simp [mPara, clPara, cm_ppr]
    rw [cm_pChildren children]

theorem cm_pChildren (x : List PChild) : cleanL (mPChildren x) = mPChildren (clPChildren x) := by
  match x with
  | [] =>
    cl_simp [mPChildren, clPChildren]
  | c :: cs =>
    cl_simp [mPChildren, clPChildren]
    rw [cm_pChild c, cm_pChildren cs]

theorem cm_pChild (x : PChild) : (mPChild x).clean = mPChild (clPChild x) := by
  match x with
  | .run r =>
    cl_simp [mPChild, clPChild]
    rw [cm_run r]
  | .link ⟨id, run⟩ =>
    cl_simp [mPChild, clPChild, mLink]
    rw [cm_run run]
  | .rpr p =>
    cl_simp [mPChild, clPChild, cm_rpr]

theorem cm_run (x : Run) : (mRun x).clean = mRun (clRun x) := by
  match x with
  | ⟨space, rpr, instr, children⟩ =>
    cl_simp [mRun, clRun, cm_rpr, cL_instr]
    rw [cm_rChildren children]

theorem cm_rChildren (x : List RChild) : cleanL (mRChildren x) = mRChildren (clRChildren x) := by
  match x with
  | [] =>
    cl_simp [mRChildren, clRChildren]
  | c :: cs =>
    cl_simp [mRChildren, clRChildren]
    rw [cm_rChild c, cm_rChildren cs]

theorem cm_rChild (x : RChild) : (mRChild x).clean = mRChild (clRChild x) := by
  match x with
  | .text t =>
    cl_simp [mRChild, clRChild, cm_text]
  | .tab t =>
    cl_simp [mRChild, clRChild, cm_tab]
  | .br b =>
    cl_simp [mRChild, clRChild, cm_br]
  | .drawing d =>
    cl_simp [mRChild, clRChild]
    rw [cm_drawing d]

theorem cm_drawing (x : Drawing) : (mDrawing x).clean = mDrawing (clDrawing x) := by
  match x with
  | ⟨inl, anchor⟩ =>
    cl_simp [mDrawing, clDrawing]
    rw [cm_inlineO inl, cm_anchorO anchor]

theorem cm_inlineO (x : Option Inline) : cleanL (mInlineO x) = mInlineO (clInlineO x) := by
  match x with
  | none =>
    cl_simp [mInlineO, clInlineO]
  | some y =>
    cl_simp [mInlineO, clInlineO]
    rw [cm_inline y]

theorem cm_anchorO (x : Option Anchor) : cleanL (mAnchorO x) = mAnchorO (clAnchorO x) := by
  match x with
  | none =>
    cl_simp [mAnchorO, clAnchorO]
  | some y =>
    cl_simp [mAnchorO, clAnchorO]
    rw [cm_anchor y]

theorem cm_inline (x : Inline) : (mInline x).clean = mInline (clInline x) := by
  match x with
  | ⟨_, _, _, _, _, _, _, _, graphic, _⟩ =>
    cl_simp [mInline, clInline, cm_extent, cm_effectExtent, cm_docPr, cm_framePr]
    rw [cm_graphicO graphic]

theorem cm_anchor (x : Anchor) : (mAnchor x).clean = mAnchor (clAnchor x) := by
  match x with
  | ⟨_, _, _, _, _, _, _, _, _, _, _, _, _, _, _, _, _, _, _, graphic, _⟩ =>
    cl_simp [mAnchor, clAnchor, cm_simplePos, cm_position, cm_extent, cm_effectExtent, cm_docPr, cm_framePr]
    rw [cm_graphicO graphic]

theorem cm_graphicO (x : Option Graphic) : cleanL (mGraphicO x) = mGraphicO (clGraphicO x) := by
  match x with
  | none =>
    cl_simp [mGraphicO, clGraphicO]
  | some y =>
    cl_simp [mGraphicO, clGraphicO]
    rw [cm_graphic y]

theorem cm_graphic (x : Graphic) : (mGraphic x).clean = mGraphic (clGraphic x) := by
  match x with
  | ⟨_, data⟩ =>
    cl_simp [mGraphic, clGraphic]
    rw [cm_graphicDataO data]

theorem cm_graphicDataO (x : Option GraphicData) : cleanL (mGraphicDataO x) = mGraphicDataO (clGraphicDataO x) := by
  match x with
  | none =>
    cl_simp [mGraphicDataO, clGraphicDataO]
  | some y =>
    cl_simp [mGraphicDataO, clGraphicDataO]
    rw [cm_graphicData y]

theorem cm_graphicData (x : GraphicData) : (mGraphicData x).clean = mGraphicData (clGraphicData x) := by
  match x with
  | ⟨_, _, shape, canvas, group⟩ =>
    cl_simp [mGraphicData, clGraphicData, cm_pic]
    rw [cm_shapeO shape, cm_canvasO canvas, cm_groupO group]

theorem cm_shapeO (x : Option Shape) : cleanL (mShapeO x) = mShapeO (clShapeO x) := by
  match x with
  | none =>
    cl_simp [mShapeO, clShapeO]
  | some y =>
    cl_simp [mShapeO, clShapeO]
    rw [cm_shape y]

theorem cm_canvasO (x : Option Canvas) : cleanL (mCanvasO x) = mCanvasO (clCanvasO x) := by
  match x with
  | none =>
    cl_simp [mCanvasO, clCanvasO]
  | some y =>
    cl_simp [mCanvasO, clCanvasO]
    rw [cm_canvas y]

theorem cm_groupO (x : Option Group) : cleanL (mGroupO x) = mGroupO (clGroupO x) := by
  match x with
  | none =>
    cl_simp [mGroupO, clGroupO]
  | some y =>
    cl_simp [mGroupO, clGroupO]
    rw [cm_group y]

theorem cm_shape (x : Shape) : (mShape x).clean = mShape (clShape x) := by
  match x with
  | ⟨_, _, _, _, textBox, _⟩ =>
    cl_simp [mShape, clShape, cm_idName, cm_cNvCnPr, cm_cNvSpPr, cm_shapePr, cm_bodyPr]
    rw [cm_textBoxO textBox]

theorem cm_textBoxO (x : Option TextBox) : cleanL (mTextBoxO x) = mTextBoxO (clTextBoxO x) := by
  match x with
  | none =>
    cl_simp [mTextBoxO, clTextBoxO]
  | some y =>
    cl_simp [mTextBoxO, clTextBoxO]
    rw [cm_textBox y]

theorem cm_textBox (x : TextBox) : (mTextBox x).clean = mTextBox (clTextBox x) := by
  match x with
  | ⟨content⟩ =>
    cl_simp [mTextBox, clTextBox]
    rw [cm_contentO content]

theorem cm_contentO (x : Option (List Para)) : cleanL (mContentO x) = mContentO (clContentO x) := by
  match x with
  | none =>
    cl_simp [mContentO, clContentO]
  | some ps =>
    cl_simp [mContentO, clContentO]
    rw [cm_paras ps]

theorem cm_paras (x : List Para) : cleanL (mParas x) = mParas (clParas x) := by
  match x with
  | [] =>
    cl_simp [mParas, clParas]
  | c :: cs =>
    cl_simp [mParas, clParas]
    rw [cm_para c, cm_paras cs]

theorem cm_canvas (x : Canvas) : (mCanvas x).clean = mCanvas (clCanvas x) := by
  match x with
  | ⟨_, _, items⟩ =>
    cl_simp [mCanvas, clCanvas, cm_background, cm_whole]
    rw [cm_cItems items]

theorem cm_cItems (x : List CItem) : cleanL (mCItems x) = mCItems (clCItems x) := by
  match x with
  | [] =>
    cl_simp [mCItems, clCItems]
  | c :: cs =>
    cl_simp [mCItems, clCItems]
    rw [cm_cItem c, cm_cItems cs]

theorem cm_cItem (x : CItem) : (mCItem x).clean = mCItem (clCItem x) := by
  match x with
  | .shape s =>
    cl_simp [mCItem, clCItem]
    rw [cm_shape s]
  | .pic p =>
    cl_simp [mCItem, clCItem, cm_pic]
  | .group g =>
    cl_simp [mCItem, clCItem]
    rw [cm_group g]

theorem cm_group (x : Group) : (mGroup x).clean = mGroup (clGroup x) := by
  match x with
  | ⟨_, _, elems⟩ =>
    cl_simp [mGroup, clGroup, cm_cNvGrpSpPr, cm_shapePr]
    rw [cm_gItems elems]

theorem cm_groupShape (x : GroupShape) : (mGroupShape x).clean = mGroupShape (clGroupShape x) := by
  match x with
  | ⟨_, _, _, elems⟩ =>
    cl_simp [mGroupShape, clGroupShape, cm_idName, cm_cNvGrpSpPr, cm_shapePr]
    rw [cm_gItems elems]

theorem cm_gItems (x : List GItem) : cleanL (mGItems x) = mGItems (clGItems x) := by
  match x with
  | [] =>
    cl_simp [mGItems, clGItems]
  | c :: cs =>
    cl_simp [mGItems, clGItems]
    rw [cm_gItem c, cm_gItems cs]

theorem cm_gItem (x : GItem) : (mGItem x).clean = mGItem (clGItem x) := by
  match x with
  | .shape s =>
    cl_simp [mGItem, clGItem]
    rw [cm_shape s]
  | .pic p =>
    cl_simp [mGItem, clGItem, cm_pic]
  | .canvas c =>
    cl_simp [mGItem, clGItem]
    rw [cm_canvas c]
  | .groupShape g =>
    cl_simp [mGItem, clGItem]
    rw [cm_groupShape g]

end

theorem cm_tblpPr (x : TblpPr) : (mTblpPr x).clean = mTblpPr (clTblpPr x) := by
  cl_simp [mTblpPr, clTblpPr]

theorem cm_width (p : String) (x : Width) : (mWidth p x).clean = mWidth p (clWidth x) := by
  cl_simp [mWidth, clWidth]

theorem cm_border (p : String) (x : Border) : (mBorder p x).clean = mBorder p (clBorder x) := by
  cl_simp [mBorder, clBorder]

theorem cm_borders (p : String) (x : Borders) : (mBorders p x).clean = mBorders p (clBorders x) := by
  cl_simp [mBorders, clBorders, cm_border]

theorem cm_look (x : TblLook) : (mLook x).clean = mLook (clTblLook x) := by
  cl_simp [mLook, clTblLook]

theorem cm_tblPr (x : TblPr) : (mTblPr x).clean = mTblPr (clTblPr x) := by
  cl_simp [mTblPr, clTblPr, cm_tblpPr, cm_width, cm_borders, cm_look]

theorem cm_grid (x : List (Option Int64)) : (mGrid x).clean = mGrid x := by
  cl_simp [mGrid]
  congr 1
  induction x with
  | nil => rfl
  | cons o x ih => cl_simp [List.flatMap_cons]; rw [ih]

theorem cm_trPr (x : TrPr) : (mTrPr x).clean = mTrPr (clTrPr x) := by
  cl_simp [mTrPr, clTrPr, clRowHeight]

theorem cm_tcPr (x : TcPr) : (mTcPr x).clean = mTcPr (clTcPr x) := by
  cl_simp [mTcPr, clTcPr, cm_width, cm_borders, cm_shade]

theorem cm_cell (x : Cell) : (mCell x).clean = mCell (clCell x) := by
  cl_simp [mCell, clCell, cm_tcPr, cm_para]

theorem cm_row (x : Row) : (mRow x).clean = mRow (clRow x) := by
  cl_simp [mRow, clRow, cm_trPr, cm_cell]

theorem cm_table (x : Table) : (mTable x).clean = mTable (clTable x) := by
  cl_simp [mTable, clTable, cm_tblPr, cm_grid, cm_row]

theorem cm_pgSz (x : PgSz) : (mPgSz x).clean = mPgSz x := by
  cl_simp [mPgSz]

theorem cm_pgMar (x : PgMar) : (mPgMar x).clean = mPgMar x := by
  cl_simp [mPgMar]

theorem cm_cols (x : Int64) : (mCols x).clean = mCols x := by
  cl_simp [mCols]

theorem cm_docGrid (x : DocGrid) : (mDocGrid x).clean = mDocGrid (clDocGrid x) := by
  cl_simp [mDocGrid, clDocGrid]

theorem cm_sect (x : SectPr) : (mSect x).clean = mSect (clSectPr x) := by
  cl_simp [mSect, clSectPr, cm_pgSz, cm_pgMar, cm_cols, cm_docGrid]

theorem cm_item (x : BItem) : (mItem x).clean = mItem (clItem x) := by
  cases x with
  | para p => exact cm_para p
  | table t => exact cm_table t
  | sect s => exact cm_sect s

theorem cm_document (items : List BItem) : (mDocument items).clean = mDocument (items.map clItem) := by
  have ha : cleanAs docAttrs = docAttrs := by
    have : docAttrs.all (fun a => a.val.toList.all xmlChar) = true := by decide +kernel
    unfold cleanAs
    refine (List.map_congr_left (g := id) ?_).trans (List.map_id _)
    intro a hm
    have h := List.all_eq_true.1 this a hm
    have : clean a.val = a.val := (clean_iff _).2 fun c hc => List.all_eq_true.1 h c hc
    rw [this]; rfl
  cl_simp [mDocument, cm_item, ha]

theorem cm_rel (r : Rel) : (mRel r).clean = mRel (clRel r) := by
  cl_simp [mRel, clRel]

theorem cm_rels (x : String) (rs : List Rel) : (mRels x rs).clean = mRels (clean x) (rs.map clRel) := by
  cl_simp [mRels, cm_rel]

/-! ## The bytes -/

theorem escape_clean (s : String) : escape (clean s) = escape s := by
  unfold escape clean
  rw [String.toList_ofList, List.flatMap_map]
  refine congrArg (fun g => s.toList.flatMap g) (funext fun c => ?_)
  unfold cleanChar
  by_cases h : xmlChar c = true
  · rw [if_pos h]
  · rw [if_neg h]
    have : escChar c = ['\uFFFD'] := by
      unfold escChar
      have h' : xmlChar c = false := by simpa using h
      repeat' split
      all_goals first
        | rfl
        | (rename_i hc; subst hc; exact absurd h' (by decide))
        | (simp_all)
    rw [this]; rfl

mutual
theorem chars_clean : ∀ n : Node, n.clean.chars = n.chars
  | .elem q as kids => by
    rw [Node.clean, Node.chars, Node.chars, charsL_clean kids, List.flatMap_map]
    have : (fun a : Attr => Attr.chars ⟨a.name, clean a.val⟩) = Attr.chars := by
      funext a
      simp only [Attr.chars, escape_clean]
    rw [this]
  | .text s => by rw [Node.clean, Node.chars, Node.chars, escape_clean]
  | .other => rfl
theorem charsL_clean : ∀ ns : List Node, charsL (cleanL ns) = charsL ns
  | [] => rfl
  | n :: ns => by rw [cleanL, charsL, charsL, chars_clean n, charsL_clean ns]
end

theorem xmlBytes_clean (n : Node) : xmlBytes n.clean = xmlBytes n := by
  unfold xmlBytes; rw [chars_clean]

theorem xmlText_clean (s : String) : xmlText (clean s) := (clean_iff _).1 (C48_identity s).2

mutual
theorem strings_clean : ∀ n : Node, ∀ s ∈ n.clean.strings, xmlText s
  | .elem q as kids, s, h => by
    rw [Node.clean, Node.strings, List.mem_append, List.map_map, List.mem_map] at h
    rcases h with ⟨a, _, rfl⟩ | h
    · exact xmlText_clean _
    · exact stringsL_clean kids s h
  | .text t, s, h => by
    rw [Node.clean, Node.strings, List.mem_singleton] at h
    rw [h]; exact xmlText_clean t
  | .other, s, h => by cases h
theorem stringsL_clean : ∀ ns : List Node, ∀ s ∈ stringsL (cleanL ns), xmlText s
  | [], s, h => by cases h
  | n :: ns, s, h => by
    rw [cleanL, stringsL, List.mem_append] at h
    rcases h with h | h
    · exact strings_clean n s h
    · exact stringsL_clean ns s h
end

end Docx
