import Verif.SpecRefs
import Verif.Marshal

/-!
# The references in what is written
-/

namespace Docx

/-- The references of a list of attributes -/
def refAttrs (as : List Attr) : List String := (as.filter fun a => a.name.pre == "r").map (·.val)

theorem refAttrs_nil : refAttrs [] = [] := rfl
theorem refAttrs_append (as bs : List Attr) : refAttrs (as ++ bs) = refAttrs as ++ refAttrs bs := by
  simp [refAttrs]
theorem refAttrs_strA {pre loc v : String} (h : pre ≠ "r") : refAttrs (strA pre loc v) = [] := by
  simp [refAttrs, strA, h]
theorem refAttrs_strO {pre loc v : String} (h : pre ≠ "r") : refAttrs (strO pre loc v) = [] := by
  unfold strO; split <;> simp [refAttrs, h]
theorem refAttrs_intA {pre loc : String} {n : Int64} (h : pre ≠ "r") : refAttrs (intA pre loc n) = [] := by
  simp [refAttrs, intA, h]
theorem refAttrs_intO {pre loc : String} {n : Int64} (h : pre ≠ "r") : refAttrs (intO pre loc n) = [] := by
  unfold intO; split <;> simp [refAttrs, h]
theorem refAttrs_r {loc v : String} : refAttrs (strA "r" loc v) = [v] := by
  simp [refAttrs, strA]

theorem refsOf_el (pre loc : String) (as : List Attr) (kids : List Node) :
    refsOf (el pre loc as kids) = refAttrs as ++ refsOfL kids := by
  simp only [el, refsOf, refAttrs]
theorem refsOf_text (t : String) : refsOf (.text t) = [] := by simp only [refsOf]
theorem refsOfL_nil : refsOfL [] = [] := by simp only [refsOfL]
theorem refsOfL_cons (n : Node) (ns : List Node) : refsOfL (n :: ns) = refsOf n ++ refsOfL ns := by
  simp only [refsOfL]
theorem refsOfL_append : ∀ (as bs : List Node), refsOfL (as ++ bs) = refsOfL as ++ refsOfL bs
  | [], bs => by simp [refsOfL]
  | a :: as, bs => by simp [refsOfL, refsOfL_append as bs, List.append_assoc]
theorem refsOfL_eq : ∀ (l : List Node), refsOfL l = l.flatMap refsOf
  | [] => by simp [refsOfL]
  | a :: as => by simp [refsOfL, refsOfL_eq as]
theorem refsOfL_map {α : Type} (f : α → Node) (l : List α) :
    refsOfL (l.map f) = l.flatMap fun a => refsOf (f a) := by
  rw [refsOfL_eq, List.flatMap_map]
theorem refsOfL_map_nil {α : Type} {f : α → Node} {l : List α} (h : ∀ a, refsOf (f a) = []) :
    refsOfL (l.map f) = [] := by
  rw [refsOfL_map]; simp [h]
theorem refsOfL_optN {α : Type} {f : α → Node} {o : Option α} (h : ∀ a, refsOf (f a) = []) :
    refsOfL (optN f o) = [] := by
  cases o <;> simp [optN, refsOfL, h]
theorem refsOfL_flagN {b : Bool} {pre loc : String} : refsOfL (flagN b pre loc) = [] := by
  unfold flagN; cases b <;> simp [refsOfL, refsOf_el, refAttrs]
theorem refsOfL_valN {loc : String} {o : Option String} : refsOfL (valN loc o) = [] := by
  cases o <;> simp [valN, refsOfL, refsOf_el, refAttrs_strA]
theorem refsOfL_valO {loc : String} {o : Option String} : refsOfL (valO loc o) = [] := by
  cases o <;> simp [valO, refsOfL, refsOf_el, refAttrs_strO]
theorem refsOfL_valI {loc : String} {o : Option Int64} : refsOfL (valI loc o) = [] := by
  cases o <;> simp [valI, refsOfL, refsOf_el, refAttrs_intA]
theorem refsOfL_textN {t : String} : refsOfL (textN t) = [] := by
  unfold textN; split <;> simp [refsOfL, refsOf]

-- Open an element of the model
local macro "rf" "[" ls:Lean.Parser.Tactic.simpLemma,* "]" : tactic =>
  `(tactic| simp only [refsOf_el, refsOf_text, refAttrs_append, refAttrs_nil, refAttrs_strA, refAttrs_strO,
      refAttrs_intA, refAttrs_intO, refAttrs_r, refsOfL_nil, refsOfL_cons, refsOfL_append, refsOfL_flagN,
      refsOfL_valN, refsOfL_valO, refsOfL_valI, refsOfL_textN, List.nil_append, List.append_nil,
      List.cons_append, ne_eq, reduceCtorEq, not_false_eq_true, String.reduceEq, $ls,*])

theorem rf_mShade (x : Shade) : refsOf (mShade x) = [] := by unfold mShade; rf []
theorem rf_mSpacing (x : Spacing) : refsOf (mSpacing x) = [] := by unfold mSpacing; rf []
theorem rf_mInd (x : Ind) : refsOf (mInd x) = [] := by unfold mInd; rf []
theorem rf_mTab (x : Tab) : refsOf (mTab x) = [] := by unfold mTab; rf []
theorem rf_mTabs (x : List Tab) : refsOf (mTabs x) = [] := by
  unfold mTabs; rf [refsOfL_map_nil rf_mTab]
theorem rf_mRunFonts (x : RunFonts) : refsOf (mRunFonts x) = [] := by unfold mRunFonts; rf []
theorem rf_mRPr (x : RPr) : refsOf (mRPr x) = [] := by
  unfold mRPr
  rf [refsOfL_optN rf_mRunFonts, refsOfL_optN rf_mSpacing, refsOfL_optN rf_mShade]
theorem rf_mNumPr (x : NumPr) : refsOf (mNumPr x) = [] := by unfold mNumPr; rf []
theorem rf_mPPr (x : PPr) : refsOf (mPPr x) = [] := by
  unfold mPPr
  rf [refsOfL_optN rf_mTabs, refsOfL_optN rf_mSpacing, refsOfL_optN rf_mShade,
    refsOfL_optN rf_mNumPr, refsOfL_optN rf_mInd, refsOfL_optN rf_mRPr]
theorem rf_mBr (x : Br) : refsOf (mBr x) = [] := by unfold mBr; rf []
theorem rf_mText (x : Text) : refsOf (mText x) = [] := by unfold mText; rf []
theorem rf_mExtent (x : Ext) : refsOf (mExtent x) = [] := by unfold mExtent; rf []
theorem rf_mEffectExtent (x : EffectExtent) : refsOf (mEffectExtent x) = [] := by
  unfold mEffectExtent; rf []
theorem rf_mDocPr (x : IdName) : refsOf (mDocPr x) = [] := by unfold mDocPr; rf []
theorem rf_mFramePr (x : FrameLocks) : refsOf (mFramePr x) = [] := by unfold mFramePr; rf []
theorem rf_mSimplePos (x : Off) : refsOf (mSimplePos x) = [] := by unfold mSimplePos; rf []
theorem rf_mPosition (loc : String) (x : Position) : refsOf (mPosition loc x) = [] := by
  unfold mPosition; rf []
theorem rf_mIdName {pre : String} (x : IdName) : refsOf (mIdName pre x) = [] := by unfold mIdName; rf []
/-- A picture in a fill refers to its file -/
theorem rf_mBlip (x : Blip) : refsOf (mBlip x) = [x.embed] := by
  unfold mBlip
  have h : ∀ v : Int64, refsOf (el "a" "alphaModFix" (intA "" "amt" v) []) = [] := by intro v; rf []
  rf [refsOfL_optN h]
theorem rf_mOff (loc : String) (x : Off) : refsOf (mOff loc x) = [] := by unfold mOff; rf []
theorem rf_mExt (loc : String) (x : Ext) : refsOf (mExt loc x) = [] := by unfold mExt; rf []
theorem rf_mXfrm (x : Xfrm) : refsOf (mXfrm x) = [] := by
  unfold mXfrm
  rf [rf_mOff, rf_mExt, refsOfL_optN (rf_mOff "chOff"), refsOfL_optN (rf_mExt "chExt")]
theorem rf_mPrstGeom (x : PrstGeom) : refsOf (mPrstGeom x) = [] := by unfold mPrstGeom; rf []
theorem rf_mTile (x : Tile) : refsOf (mTile x) = [] := by unfold mTile; rf []
/-- The references of an optional picture of a fill -/
theorem rf_optBlip (o : Option Blip) : refsOfL (optN mBlip o) = (o.map (·.embed)).toList := by
  cases o <;> simp [optN, refsOfL, rf_mBlip]
theorem rf_mABlipFill (x : ABlipFill) : refsOf (mABlipFill x) = (x.blip.map (·.embed)).toList := by
  unfold mABlipFill; rf [refsOfL_optN rf_mTile, rf_optBlip]
theorem rf_mSolidFill (x : Option String) : refsOf (mSolidFill x) = [] := by
  unfold mSolidFill
  rf []
  apply refsOfL_optN
  intro n
  rf []
theorem rf_mLineEnd (loc : String) (x : LineEnd) : refsOf (mLineEnd loc x) = [] := by
  unfold mLineEnd; rf []
theorem rf_mLine (x : Line) : refsOf (mLine x) = [] := by
  unfold mLine
  have h1 : ∀ v : String, refsOf (el "a" "prstDash" (strA "" "val" v) []) = [] := by intro v; rf []
  have h2 : ∀ v : String, refsOf (el "a" "miter" (strA "" "lim" v) []) = [] := by intro v; rf []
  rf [refsOfL_optN rf_mSolidFill, refsOfL_optN h1, refsOfL_optN h2,
    refsOfL_optN (rf_mLineEnd "headEnd"), refsOfL_optN (rf_mLineEnd "tailEnd")]
theorem rf_mShapePr {pre loc : String} (x : ShapePr) :
    refsOf (mShapePr pre loc x) = refsOfL (optN mABlipFill x.blipFill) := by
  unfold mShapePr
  rf [rf_mXfrm, rf_mPrstGeom, refsOfL_optN rf_mSolidFill, refsOfL_optN rf_mLine]
theorem rf_mCNvCnPr (x : Bool) : refsOf (mCNvCnPr x) = [] := by unfold mCNvCnPr; rf []
theorem rf_mCNvSpPr (x : CNvSpPr) : refsOf (mCNvSpPr x) = [] := by
  unfold mCNvSpPr
  rf []
  apply refsOfL_optN
  intro n
  rf []
theorem rf_mBodyPr (x : BodyPr) : refsOf (mBodyPr x) = [] := by unfold mBodyPr; rf []
theorem rf_mBackground (x : Bool) : refsOf (mBackground x) = [] := by unfold mBackground; rf []
theorem rf_mWhole (x : Option Line) : refsOf (mWhole x) = [] := by
  unfold mWhole; rf [refsOfL_optN rf_mLine]
theorem rf_mCNvGrpSpPr (x : Bool) : refsOf (mCNvGrpSpPr x) = [] := by unfold mCNvGrpSpPr; rf []
theorem rf_mCNvPicPr (x : Option Int64) : refsOf (mCNvPicPr x) = [] := by
  unfold mCNvPicPr
  rf []
  apply refsOfL_optN
  intro n
  rf []
theorem rf_mNvPicPr (x : NvPicPr) : refsOf (mNvPicPr x) = [] := by
  unfold mNvPicPr; rf [rf_mIdName, rf_mCNvPicPr]
theorem rf_mPicFill (x : BlipFill) : refsOf (mPicFill x) = [x.blip.embed] := by
  unfold mPicFill; rf [rf_mBlip]
theorem rf_mPicSpPr (x : PicSpPr) : refsOf (mPicSpPr x) = [] := by
  unfold mPicSpPr; rf [rf_mXfrm, refsOfL_optN rf_mPrstGeom]
theorem rf_optFill (o : Option BlipFill) :
    refsOfL (optN mPicFill o) = (o.map (·.blip.embed)).toList := by
  cases o <;> simp [optN, refsOfL, rf_mPicFill]
/-- A picture refers to its file -/
theorem rf_mPic (x : Picture) : refsOf (mPic x) = (x.blipFill.map (·.blip.embed)).toList := by
  unfold mPic
  rf [refsOfL_optN rf_mNvPicPr, rf_optFill, refsOfL_optN rf_mPicSpPr]

theorem rf_mPChildren (x : List PChild) : refsOfL (mPChildren x) = x.flatMap fun c => refsOf (mPChild c) := by
  induction x with
  | nil => simp only [mPChildren, refsOfL, List.flatMap_nil]
  | cons c cs ih => simp only [mPChildren, refsOfL_cons, ih, List.flatMap_cons]
theorem rf_mRChildren (x : List RChild) : refsOfL (mRChildren x) = x.flatMap fun c => refsOf (mRChild c) := by
  induction x with
  | nil => simp only [mRChildren, refsOfL, List.flatMap_nil]
  | cons c cs ih => simp only [mRChildren, refsOfL_cons, ih, List.flatMap_cons]
theorem rf_mParas (x : List Para) : refsOfL (mParas x) = x.flatMap fun c => refsOf (mPara c) := by
  induction x with
  | nil => simp only [mParas, refsOfL, List.flatMap_nil]
  | cons c cs ih => simp only [mParas, refsOfL_cons, ih, List.flatMap_cons]
theorem rf_mCItems (x : List CItem) : refsOfL (mCItems x) = x.flatMap fun c => refsOf (mCItem c) := by
  induction x with
  | nil => simp only [mCItems, refsOfL, List.flatMap_nil]
  | cons c cs ih => simp only [mCItems, refsOfL_cons, ih, List.flatMap_cons]
theorem rf_mGItems (x : List GItem) : refsOfL (mGItems x) = x.flatMap fun c => refsOf (mGItem c) := by
  induction x with
  | nil => simp only [mGItems, refsOfL, List.flatMap_nil]
  | cons c cs ih => simp only [mGItems, refsOfL_cons, ih, List.flatMap_cons]

theorem rf_mPara (x : Para) : refsOf (mPara x) = x.children.flatMap fun c => refsOf (mPChild c) := by
  cases x
  simp only [mPara]
  rf [refsOfL_optN rf_mPPr, rf_mPChildren]
theorem rf_mRun (x : Run) : refsOf (mRun x) = x.children.flatMap fun c => refsOf (mRChild c) := by
  obtain ⟨_, _, instr, children⟩ := x
  simp only [mRun]
  have hi : refsOfL (if instr = "" then [] else [el "w" "instrText" [] [.text instr]]) = [] := by
    split
    · simp only [refsOfL]
    · rf []
  rf [refsOfL_optN rf_mRPr, hi, rf_mRChildren]
/-- A hyperlink refers to its target -/
theorem rf_mLink (x : Hyperlink) : refsOf (mLink x) = x.id :: refsOf (mRun x.run) := by
  cases x
  simp only [mLink]
  rf []
theorem rf_mDrawing (x : Drawing) :
    refsOf (mDrawing x) = refsOfL (mInlineO x.inl) ++ refsOfL (mAnchorO x.anchor) := by
  cases x
  simp only [mDrawing]
  rf []
theorem rf_mInline (x : Inline) : refsOf (mInline x) = refsOfL (mGraphicO x.graphic) := by
  cases x
  simp only [mInline]
  rf [refsOfL_optN rf_mExtent, refsOfL_optN rf_mEffectExtent, refsOfL_optN rf_mDocPr, refsOfL_optN rf_mFramePr]
theorem rf_mAnchor (x : Anchor) : refsOf (mAnchor x) = refsOfL (mGraphicO x.graphic) := by
  cases x
  simp only [mAnchor]
  have hw : ∀ v : String, refsOf (el "wp" "wrapSquare" (strA "" "wrapText" v) []) = [] := by intro v; rf []
  rf [refsOfL_optN rf_mExtent, refsOfL_optN rf_mEffectExtent, refsOfL_optN rf_mDocPr,
    refsOfL_optN rf_mFramePr, refsOfL_optN rf_mSimplePos, refsOfL_optN (rf_mPosition "positionH"),
    refsOfL_optN (rf_mPosition "positionV"), refsOfL_optN hw]
theorem rf_mGraphic (x : Graphic) : refsOf (mGraphic x) = refsOfL (mGraphicDataO x.data) := by
  cases x
  simp only [mGraphic]
  rf []
theorem rf_mGraphicData (x : GraphicData) :
    refsOf (mGraphicData x) = refsOfL (optN mPic x.pic) ++ (refsOfL (mShapeO x.shape) ++
      (refsOfL (mCanvasO x.canvas) ++ refsOfL (mGroupO x.group))) := by
  cases x
  simp only [mGraphicData]
  rf [List.append_assoc]
theorem rf_mShape (x : Shape) :
    refsOf (mShape x) = refsOfL (optN (mShapePr "wps" "spPr") x.spPr) ++ refsOfL (mTextBoxO x.textBox) := by
  cases x
  simp only [mShape]
  rf [refsOfL_optN rf_mIdName, refsOfL_optN rf_mCNvCnPr, refsOfL_optN rf_mCNvSpPr, refsOfL_optN rf_mBodyPr]
theorem rf_mTextBox (x : TextBox) : refsOf (mTextBox x) = refsOfL (mContentO x.content) := by
  cases x
  simp only [mTextBox]
  rf []
theorem rf_mCanvas (x : Canvas) : refsOf (mCanvas x) = x.items.flatMap fun c => refsOf (mCItem c) := by
  cases x
  simp only [mCanvas]
  rf [refsOfL_optN rf_mBackground, refsOfL_optN rf_mWhole, rf_mCItems]
theorem rf_mGroup (x : Group) : refsOf (mGroup x) =
    refsOfL (optN (mShapePr "wpg" "grpSpPr") x.grpSpPr) ++ x.elems.flatMap fun c => refsOf (mGItem c) := by
  cases x
  simp only [mGroup]
  rf [refsOfL_optN rf_mCNvGrpSpPr, rf_mGItems]
theorem rf_mGroupShape (x : GroupShape) : refsOf (mGroupShape x) =
    refsOfL (optN (mShapePr "wpg" "grpSpPr") x.grpSpPr) ++ x.elems.flatMap fun c => refsOf (mGItem c) := by
  cases x
  simp only [mGroupShape]
  rf [refsOfL_optN rf_mIdName, refsOfL_optN rf_mCNvGrpSpPr, rf_mGItems]

theorem rf_mTblpPr (x : TblpPr) : refsOf (mTblpPr x) = [] := by unfold mTblpPr; rf []
theorem rf_mWidth (loc : String) (x : Width) : refsOf (mWidth loc x) = [] := by unfold mWidth; rf []
theorem rf_mBorder (loc : String) (x : Border) : refsOf (mBorder loc x) = [] := by unfold mBorder; rf []
theorem rf_mBorders (loc : String) (x : Borders) : refsOf (mBorders loc x) = [] := by
  unfold mBorders
  rf [refsOfL_optN (rf_mBorder "top"), refsOfL_optN (rf_mBorder "left"), refsOfL_optN (rf_mBorder "bottom"),
    refsOfL_optN (rf_mBorder "right"), refsOfL_optN (rf_mBorder "insideH"), refsOfL_optN (rf_mBorder "insideV")]
theorem rf_mLook (x : TblLook) : refsOf (mLook x) = [] := by unfold mLook; rf []
theorem rf_mTblPr (x : TblPr) : refsOf (mTblPr x) = [] := by
  unfold mTblPr
  rf [refsOfL_optN rf_mTblpPr, refsOfL_optN (rf_mWidth "tblW"), refsOfL_optN (rf_mBorders "tblBorders"),
    refsOfL_optN rf_mLook]
theorem rf_mGrid (x : List (Option Int64)) : refsOf (mGrid x) = [] := by
  unfold mGrid
  rf []
  rw [refsOfL_eq, List.flatMap_eq_nil_iff]
  intro n hn
  obtain ⟨o, _, ho⟩ := List.mem_flatMap.1 hn
  cases o with
  | none => simp [optN] at ho
  | some v =>
    simp only [optN, List.mem_singleton] at ho
    subst ho
    rf []
theorem rf_mTrPr (x : TrPr) : refsOf (mTrPr x) = [] := by
  unfold mTrPr
  rf []
  apply refsOfL_optN
  intro v
  rf []
theorem rf_mTcPr (x : TcPr) : refsOf (mTcPr x) = [] := by
  unfold mTcPr
  rf [refsOfL_optN (rf_mWidth "tcW"), refsOfL_optN (rf_mBorders "tcBorders"), refsOfL_optN rf_mShade]
theorem rf_mCell (x : Cell) : refsOf (mCell x) = x.paras.flatMap fun c => refsOf (mPara c) := by
  unfold mCell
  rf [refsOfL_optN rf_mTcPr, refsOfL_map]
theorem rf_mRow (x : Row) : refsOf (mRow x) = x.cells.flatMap fun c => refsOf (mCell c) := by
  unfold mRow
  rf [refsOfL_optN rf_mTrPr, refsOfL_map]
theorem rf_mTable (x : Table) : refsOf (mTable x) = x.rows.flatMap fun c => refsOf (mRow c) := by
  unfold mTable
  rf [refsOfL_optN rf_mTblPr, refsOfL_optN rf_mGrid, refsOfL_map]
theorem rf_mSect (x : SectPr) : refsOf (mSect x) = [] := by
  unfold mSect
  have h1 : ∀ v, refsOf (mPgSz v) = [] := by intro v; unfold mPgSz; rf []
  have h2 : ∀ v, refsOf (mPgMar v) = [] := by intro v; unfold mPgMar; rf []
  have h3 : ∀ v, refsOf (mCols v) = [] := by intro v; unfold mCols; rf []
  have h4 : ∀ v, refsOf (mDocGrid v) = [] := by intro v; unfold mDocGrid; rf []
  rf [refsOfL_optN h1, refsOfL_optN h2, refsOfL_optN h3, refsOfL_optN h4]
theorem rf_mDocument (items : List BItem) :
    refsOf (mDocument items) = items.flatMap fun i => refsOf (mItem i) := by
  unfold mDocument
  have hd : refAttrs docAttrs = [] := by decide
  rf [hd, refsOfL_map]

end Docx
