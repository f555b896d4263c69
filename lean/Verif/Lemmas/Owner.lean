import Verif.SpecXml
import Verif.Marshal

/-!
# The owner is not written

The XML of a body does not depend on the document its parts belong to.
-/

namespace Docx

variable {a b : Option DocId}

theorem mGItems_append (xs ys : List GItem) : mGItems (xs ++ ys) = mGItems xs ++ mGItems ys := by
  induction xs with
  | nil => simp [mGItems]
  | cons x xs ih => simp only [List.cons_append, mGItems, ih]

mutual
theorem ow_para (x : Para) : mPara (normPara a x) = mPara (normPara b x) := by
  match x with
  | ⟨props, children, _⟩ =>
    simp only [mPara, normPara]
    rw [ow_pChildren children]

theorem ow_pChildren (x : List PChild) : mPChildren (normPChildren a x) = mPChildren (normPChildren b x) := by
  match x with
  | [] =>
    simp only [normPChildren]
  | c :: cs =>
    simp only [mPChildren, normPChildren]
    rw [ow_pChild c, ow_pChildren cs]

theorem ow_pChild (x : PChild) : mPChild (normPChild a x) = mPChild (normPChild b x) := by
  match x with
  | .run r =>
    simp only [mPChild, normPChild]
    rw [ow_run r]
  | .link h =>
    simp only [normPChild]
  | .rpr p =>
    simp only [normPChild]

theorem ow_run (x : Run) : mRun (normRun a x) = mRun (normRun b x) := by
  match x with
  | ⟨space, rpr, instr, children⟩ =>
    simp only [mRun, normRun]
    rw [ow_rChildren children]

theorem ow_rChildren (x : List RChild) : mRChildren (normRChildren a x) = mRChildren (normRChildren b x) := by
  match x with
  | [] =>
    simp only [normRChildren]
  | c :: cs =>
    simp only [mRChildren, normRChildren]
    rw [ow_rChild c, ow_rChildren cs]

theorem ow_rChild (x : RChild) : mRChild (normRChild a x) = mRChild (normRChild b x) := by
  match x with
  | .text t =>
    simp only [normRChild]
  | .tab t =>
    simp only [normRChild]
  | .br t =>
    simp only [normRChild]
  | .drawing d =>
    simp only [mRChild, normRChild]
    rw [ow_drawing d]

theorem ow_drawing (x : Drawing) : mDrawing (normDrawing a x) = mDrawing (normDrawing b x) := by
  match x with
  | ⟨inl, anchor⟩ =>
    simp only [mDrawing, normDrawing]
    rw [ow_inlineO inl, ow_anchorO anchor]

theorem ow_inlineO (x : Option Inline) : mInlineO (normInlineO a x) = mInlineO (normInlineO b x) := by
  match x with
  | none =>
    simp only [normInlineO]
  | some y =>
    simp only [mInlineO, normInlineO]
    rw [ow_inline y]

theorem ow_anchorO (x : Option Anchor) : mAnchorO (normAnchorO a x) = mAnchorO (normAnchorO b x) := by
  match x with
  | none =>
    simp only [normAnchorO]
  | some y =>
    simp only [mAnchorO, normAnchorO]
    rw [ow_anchor y]

theorem ow_inline (x : Inline) : mInline (normInline a x) = mInline (normInline b x) := by
  match x with
  | ⟨_, _, _, _, _, _, _, _, graphic, _⟩ =>
    simp only [mInline, normInline]
    rw [ow_graphicO graphic]

theorem ow_anchor (x : Anchor) : mAnchor (normAnchor a x) = mAnchor (normAnchor b x) := by
  match x with
  | ⟨_, _, _, _, _, _, _, _, _, _, _, _, _, _, _, _, _, _, _, graphic, _⟩ =>
    simp only [mAnchor, normAnchor]
    rw [ow_graphicO graphic]

theorem ow_graphicO (x : Option Graphic) : mGraphicO (normGraphicO a x) = mGraphicO (normGraphicO b x) := by
  match x with
  | none =>
    simp only [normGraphicO]
  | some y =>
    simp only [mGraphicO, normGraphicO]
    rw [ow_graphic y]

theorem ow_graphic (x : Graphic) : mGraphic (normGraphic a x) = mGraphic (normGraphic b x) := by
  match x with
  | ⟨_, data⟩ =>
    simp only [mGraphic, normGraphic]
    rw [ow_graphicDataO data]

theorem ow_graphicDataO (x : Option GraphicData) : mGraphicDataO (normGraphicDataO a x) = mGraphicDataO (normGraphicDataO b x) := by
  match x with
  | none =>
    simp only [normGraphicDataO]
  | some y =>
    simp only [mGraphicDataO, normGraphicDataO]
    rw [ow_graphicData y]

theorem ow_graphicData (x : GraphicData) : mGraphicData (normGraphicData a x) = mGraphicData (normGraphicData b x) := by
  match x with
  | ⟨_, _, shape, canvas, group⟩ =>
    simp only [mGraphicData, normGraphicData]
    rw [ow_shapeO shape, ow_canvasO canvas, ow_groupO group]

theorem ow_shapeO (x : Option Shape) : mShapeO (normShapeO a x) = mShapeO (normShapeO b x) := by
  match x with
  | none =>
    simp only [normShapeO]
  | some y =>
    simp only [mShapeO, normShapeO]
    rw [ow_shape y]

theorem ow_canvasO (x : Option Canvas) : mCanvasO (normCanvasO a x) = mCanvasO (normCanvasO b x) := by
  match x with
  | none =>
    simp only [normCanvasO]
  | some y =>
    simp only [mCanvasO, normCanvasO]
    rw [ow_canvas y]

theorem ow_groupO (x : Option Group) : mGroupO (normGroupO a x) = mGroupO (normGroupO b x) := by
  match x with
  | none =>
    simp only [normGroupO]
  | some y =>
    simp only [mGroupO, normGroupO]
    rw [ow_group y]

theorem ow_shape (x : Shape) : mShape (normShape a x) = mShape (normShape b x) := by
  match x with
  | ⟨_, _, _, _, textBox, _⟩ =>
    simp only [mShape, normShape]
    rw [ow_textBoxO textBox]

theorem ow_textBoxO (x : Option TextBox) : mTextBoxO (normTextBoxO a x) = mTextBoxO (normTextBoxO b x) := by
  match x with
  | none =>
    simp only [normTextBoxO]
  | some y =>
    simp only [mTextBoxO, normTextBoxO]
    rw [ow_textBox y]

theorem ow_textBox (x : TextBox) : mTextBox (normTextBox a x) = mTextBox (normTextBox b x) := by
  match x with
  | ⟨content⟩ =>
    simp only [mTextBox, normTextBox]
    rw [ow_contentO content]

theorem ow_contentO (x : Option (List Para)) : mContentO (normContentO a x) = mContentO (normContentO b x) := by
  match x with
  | none =>
    simp only [normContentO]
  | some y =>
    simp only [mContentO, normContentO]
    rw [ow_paras y]

theorem ow_paras (x : List Para) : mParas (normParas a x) = mParas (normParas b x) := by
  match x with
  | [] =>
    simp only [normParas]
  | c :: cs =>
    simp only [mParas, normParas]
    rw [ow_para c, ow_paras cs]

theorem ow_canvas (x : Canvas) : mCanvas (normCanvas a x) = mCanvas (normCanvas b x) := by
  match x with
  | ⟨_, _, items⟩ =>
    simp only [mCanvas, normCanvas]
    rw [ow_cItems items]

theorem ow_cItems (x : List CItem) : mCItems (normCItems a x) = mCItems (normCItems b x) := by
  match x with
  | [] =>
    simp only [normCItems]
  | c :: cs =>
    simp only [mCItems, normCItems]
    rw [ow_cItem c, ow_cItems cs]

theorem ow_cItem (x : CItem) : mCItem (normCItem a x) = mCItem (normCItem b x) := by
  match x with
  | .shape s =>
    simp only [mCItem, normCItem]
    rw [ow_shape s]
  | .pic p =>
    simp only [normCItem]
  | .group g =>
    simp only [mCItem, normCItem]
    rw [ow_group g]

theorem ow_group (x : Group) : mGroup (normGroup a x) = mGroup (normGroup b x) := by
  match x with
  | ⟨_, _, elems⟩ =>
    simp only [mGroup, normGroup]
    rw [ow_gItems elems]

theorem ow_groupShape (x : GroupShape) : mGroupShape (normGroupShape a x) = mGroupShape (normGroupShape b x) := by
  match x with
  | ⟨_, _, _, elems⟩ =>
    simp only [mGroupShape, normGroupShape]
    rw [ow_innerItems elems]

theorem ow_gItems (x : List GItem) : mGItems (normGItems a x) = mGItems (normGItems b x) := by
  match x with
  | [] =>
    simp only [normGItems]
  | c :: cs =>
    simp only [mGItems, normGItems]
    rw [ow_gItem c, ow_gItems cs]

theorem ow_gItem (x : GItem) : mGItem (normGItem a x) = mGItem (normGItem b x) := by
  match x with
  | .shape s =>
    simp only [mGItem, normGItem]
    rw [ow_shape s]
  | .pic p =>
    simp only [normGItem]
  | .canvas c =>
    simp only [mGItem, normGItem]
    rw [ow_canvas c]
  | .groupShape g =>
    simp only [mGItem, normGItem]
    rw [ow_groupShape g]

theorem ow_innerItems (x : List GItem) : mGItems (normInnerItems a x) = mGItems (normInnerItems b x) := by
  match x with
  | [] =>
    simp only [normInnerItems]
  | c :: cs =>
    simp only [normInnerItems, mGItems_append]
    rw [ow_innerItem c, ow_innerItems cs]

theorem ow_innerItem (x : GItem) : mGItems (normInnerItem a x) = mGItems (normInnerItem b x) := by
  match x with
  | .shape s =>
    simp only [mGItems, mGItem, normInnerItem]
    rw [ow_shape s]
  | .pic p =>
    simp only [normInnerItem]
  | .canvas c =>
    simp only [mGItems, mGItem, normInnerItem]
    rw [ow_canvas c]
  | .groupShape g =>
    simp only [normInnerItem]

end

theorem ow_item (x : BItem) : mItem (normItem a x) = mItem (normItem b x) := by
  cases x with
  | para p => simp only [normItem, mItem]; rw [ow_para p]
  | sect s => rfl
  | table t =>
    simp only [normItem, mItem, mTable, normTable, List.map_map]
    have : (mRow ∘ normRow a) = (mRow ∘ normRow b) := by
      funext r
      simp only [Function.comp, mRow, normRow, List.map_map]
      have : (mCell ∘ normCell a) = (mCell ∘ normCell b) := by
        funext c
        simp only [Function.comp, mCell, normCell, List.map_map]
        have : (mPara ∘ normPara a) = (mPara ∘ normPara b) := funext fun p => ow_para p
        rw [this]
      rw [this]
    rw [this]

/-- The XML of a body is the same whichever document it belongs to. -/
theorem ow_body (items : List BItem) : mDocument (normBody a items) = mDocument (normBody b items) := by
  have : (mItem ∘ normItem a) = (mItem ∘ normItem b) := funext fun x => ow_item x
  simp only [mDocument, normBody, List.map_map, this]

end Docx
