import Verif.SpecThreads

/-!
# Contents with other addresses

Addresses are not written, and replacing them twice is replacing them once.
-/

set_option linter.unusedSimpArgs false

namespace Docx

variable {ρ σ : DocId → DocId}

mutual
theorem rm_para (x : Para) : mPara (rnPara ρ x) = mPara x := by
  match x with
  | ⟨props, children, _⟩ =>
    simp only [mPara, rnPara]
    simp only [rm_pChildren children]

theorem rm_pChildren (x : List PChild) : mPChildren (rnPChildren ρ x) = mPChildren x := by
  match x with
  | [] =>
    simp only [rnPChildren]
  | c :: cs =>
    simp only [mPChildren, rnPChildren]
    simp only [rm_pChild c, rm_pChildren cs]

theorem rm_pChild (x : PChild) : mPChild (rnPChild ρ x) = mPChild x := by
  match x with
  | .run r =>
    simp only [mPChild, rnPChild]
    simp only [rm_run r]
  | .link h =>
    simp only [mPChild, rnPChild]
    simp only [rm_link h]
  | .rpr p =>
    simp only [rnPChild]

theorem rm_link (x : Hyperlink) : mLink (rnLink ρ x) = mLink x := by
  match x with
  | ⟨id, run⟩ =>
    simp only [mLink, rnLink]
    simp only [rm_run run]

theorem rm_run (x : Run) : mRun (rnRun ρ x) = mRun x := by
  match x with
  | ⟨space, rpr, instr, children⟩ =>
    simp only [mRun, rnRun]
    simp only [rm_rChildren children]

theorem rm_rChildren (x : List RChild) : mRChildren (rnRChildren ρ x) = mRChildren x := by
  match x with
  | [] =>
    simp only [rnRChildren]
  | c :: cs =>
    simp only [mRChildren, rnRChildren]
    simp only [rm_rChild c, rm_rChildren cs]

theorem rm_rChild (x : RChild) : mRChild (rnRChild ρ x) = mRChild x := by
  match x with
  | .text t =>
    simp only [rnRChild]
  | .tab t =>
    simp only [rnRChild]
  | .br t =>
    simp only [rnRChild]
  | .drawing d =>
    simp only [mRChild, rnRChild]
    simp only [rm_drawing d]

theorem rm_drawing (x : Drawing) : mDrawing (rnDrawing ρ x) = mDrawing x := by
  match x with
  | ⟨inl, anchor⟩ =>
    simp only [mDrawing, rnDrawing]
    simp only [rm_inlineO inl, rm_anchorO anchor]

theorem rm_inlineO (x : Option Inline) : mInlineO (rnInlineO ρ x) = mInlineO x := by
  match x with
  | none =>
    simp only [rnInlineO]
  | some y =>
    simp only [mInlineO, rnInlineO]
    simp only [rm_inline y]

theorem rm_anchorO (x : Option Anchor) : mAnchorO (rnAnchorO ρ x) = mAnchorO x := by
  match x with
  | none =>
    simp only [rnAnchorO]
  | some y =>
    simp only [mAnchorO, rnAnchorO]
    simp only [rm_anchor y]

theorem rm_inline (x : Inline) : mInline (rnInline ρ x) = mInline x := by
  match x with
  | ⟨_, _, _, _, _, _, _, _, graphic, _⟩ =>
    simp only [mInline, rnInline]
    simp only [rm_graphicO graphic]

theorem rm_anchor (x : Anchor) : mAnchor (rnAnchor ρ x) = mAnchor x := by
  match x with
  | ⟨_, _, _, _, _, _, _, _, _, _, _, _, _, _, _, _, _, _, _, graphic, _⟩ =>
    simp only [mAnchor, rnAnchor]
    simp only [rm_graphicO graphic]

theorem rm_graphicO (x : Option Graphic) : mGraphicO (rnGraphicO ρ x) = mGraphicO x := by
  match x with
  | none =>
    simp only [rnGraphicO]
  | some y =>
    simp only [mGraphicO, rnGraphicO]
    simp only [rm_graphic y]

theorem rm_graphic (x : Graphic) : mGraphic (rnGraphic ρ x) = mGraphic x := by
  match x with
  | ⟨_, data⟩ =>
    simp only [mGraphic, rnGraphic]
    simp only [rm_graphicDataO data]

theorem rm_graphicDataO (x : Option GraphicData) : mGraphicDataO (rnGraphicDataO ρ x) = mGraphicDataO x := by
  match x with
  | none =>
    simp only [rnGraphicDataO]
  | some y =>
    simp only [mGraphicDataO, rnGraphicDataO]
    simp only [rm_graphicData y]

theorem rm_graphicData (x : GraphicData) : mGraphicData (rnGraphicData ρ x) = mGraphicData x := by
  match x with
  | ⟨_, _, shape, canvas, group⟩ =>
    simp only [mGraphicData, rnGraphicData]
    simp only [rm_shapeO shape, rm_canvasO canvas, rm_groupO group]

theorem rm_shapeO (x : Option Shape) : mShapeO (rnShapeO ρ x) = mShapeO x := by
  match x with
  | none =>
    simp only [rnShapeO]
  | some y =>
    simp only [mShapeO, rnShapeO]
    simp only [rm_shape y]

theorem rm_canvasO (x : Option Canvas) : mCanvasO (rnCanvasO ρ x) = mCanvasO x := by
  match x with
  | none =>
    simp only [rnCanvasO]
  | some y =>
    simp only [mCanvasO, rnCanvasO]
    simp only [rm_canvas y]

theorem rm_groupO (x : Option Group) : mGroupO (rnGroupO ρ x) = mGroupO x := by
  match x with
  | none =>
    simp only [rnGroupO]
  | some y =>
    simp only [mGroupO, rnGroupO]
    simp only [rm_group y]

theorem rm_shape (x : Shape) : mShape (rnShape ρ x) = mShape x := by
  match x with
  | ⟨_, _, _, _, textBox, _⟩ =>
    simp only [mShape, rnShape]
    simp only [rm_textBoxO textBox]

theorem rm_textBoxO (x : Option TextBox) : mTextBoxO (rnTextBoxO ρ x) = mTextBoxO x := by
  match x with
  | none =>
    simp only [rnTextBoxO]
  | some y =>
    simp only [mTextBoxO, rnTextBoxO]
    simp only [rm_textBox y]

theorem rm_textBox (x : TextBox) : mTextBox (rnTextBox ρ x) = mTextBox x := by
  match x with
  | ⟨content⟩ =>
    simp only [mTextBox, rnTextBox]
    simp only [rm_contentO content]

theorem rm_contentO (x : Option (List Para)) : mContentO (rnContentO ρ x) = mContentO x := by
  match x with
  | none =>
    simp only [rnContentO]
  | some y =>
    simp only [mContentO, rnContentO]
    simp only [rm_paras y]

theorem rm_paras (x : List Para) : mParas (rnParas ρ x) = mParas x := by
  match x with
  | [] =>
    simp only [rnParas]
  | c :: cs =>
    simp only [mParas, rnParas]
    simp only [rm_para c, rm_paras cs]

theorem rm_canvas (x : Canvas) : mCanvas (rnCanvas ρ x) = mCanvas x := by
  match x with
  | ⟨_, _, items⟩ =>
    simp only [mCanvas, rnCanvas]
    simp only [rm_cItems items]

theorem rm_cItems (x : List CItem) : mCItems (rnCItems ρ x) = mCItems x := by
  match x with
  | [] =>
    simp only [rnCItems]
  | c :: cs =>
    simp only [mCItems, rnCItems]
    simp only [rm_cItem c, rm_cItems cs]

theorem rm_cItem (x : CItem) : mCItem (rnCItem ρ x) = mCItem x := by
  match x with
  | .shape s =>
    simp only [mCItem, rnCItem]
    simp only [rm_shape s]
  | .pic p =>
    simp only [rnCItem]
  | .group g =>
    simp only [mCItem, rnCItem]
    simp only [rm_group g]

theorem rm_group (x : Group) : mGroup (rnGroup ρ x) = mGroup x := by
  match x with
  | ⟨_, _, elems⟩ =>
    simp only [mGroup, rnGroup]
    simp only [rm_gItems elems]

theorem rm_groupShape (x : GroupShape) : mGroupShape (rnGroupShape ρ x) = mGroupShape x := by
  match x with
  | ⟨_, _, _, elems⟩ =>
    simp only [mGroupShape, rnGroupShape]
    simp only [rm_gItems elems]

theorem rm_gItems (x : List GItem) : mGItems (rnGItems ρ x) = mGItems x := by
  match x with
  | [] =>
    simp only [rnGItems]
  | c :: cs =>
    simp only [mGItems, rnGItems]
    simp only [rm_gItem c, rm_gItems cs]

theorem rm_gItem (x : GItem) : mGItem (rnGItem ρ x) = mGItem x := by
  match x with
  | .shape s =>
    simp only [mGItem, rnGItem]
    simp only [rm_shape s]
  | .pic p =>
    simp only [rnGItem]
  | .canvas c =>
    simp only [mGItem, rnGItem]
    simp only [rm_canvas c]
  | .groupShape g =>
    simp only [mGItem, rnGItem]
    simp only [rm_groupShape g]

end

mutual
theorem rr_para (x : Para) : rnPara ρ (rnPara σ x) = rnPara (ρ ∘ σ) x := by
  match x with
  | ⟨props, children, _⟩ =>
    simp only [rnPara]
    simp only [rr_pChildren children, Option.map_map]

theorem rr_pChildren (x : List PChild) : rnPChildren ρ (rnPChildren σ x) = rnPChildren (ρ ∘ σ) x := by
  match x with
  | [] =>
    simp only [rnPChildren]
  | c :: cs =>
    simp only [rnPChildren]
    simp only [rr_pChild c, rr_pChildren cs, Option.map_map]

theorem rr_pChild (x : PChild) : rnPChild ρ (rnPChild σ x) = rnPChild (ρ ∘ σ) x := by
  match x with
  | .run r =>
    simp only [rnPChild]
    simp only [rr_run r, Option.map_map]
  | .link h =>
    simp only [rnPChild]
    simp only [rr_link h, Option.map_map]
  | .rpr p =>
    simp only [rnPChild]

theorem rr_link (x : Hyperlink) : rnLink ρ (rnLink σ x) = rnLink (ρ ∘ σ) x := by
  match x with
  | ⟨id, run⟩ =>
    simp only [rnLink]
    simp only [rr_run run, Option.map_map]

theorem rr_run (x : Run) : rnRun ρ (rnRun σ x) = rnRun (ρ ∘ σ) x := by
  match x with
  | ⟨space, rpr, instr, children⟩ =>
    simp only [rnRun]
    simp only [rr_rChildren children, Option.map_map]

theorem rr_rChildren (x : List RChild) : rnRChildren ρ (rnRChildren σ x) = rnRChildren (ρ ∘ σ) x := by
  match x with
  | [] =>
    simp only [rnRChildren]
  | c :: cs =>
    simp only [rnRChildren]
    simp only [rr_rChild c, rr_rChildren cs, Option.map_map]

theorem rr_rChild (x : RChild) : rnRChild ρ (rnRChild σ x) = rnRChild (ρ ∘ σ) x := by
  match x with
  | .text t =>
    simp only [rnRChild]
  | .tab t =>
    simp only [rnRChild]
  | .br t =>
    simp only [rnRChild]
  | .drawing d =>
    simp only [rnRChild]
    simp only [rr_drawing d, Option.map_map]

theorem rr_drawing (x : Drawing) : rnDrawing ρ (rnDrawing σ x) = rnDrawing (ρ ∘ σ) x := by
  match x with
  | ⟨inl, anchor⟩ =>
    simp only [rnDrawing]
    simp only [rr_inlineO inl, rr_anchorO anchor, Option.map_map]

theorem rr_inlineO (x : Option Inline) : rnInlineO ρ (rnInlineO σ x) = rnInlineO (ρ ∘ σ) x := by
  match x with
  | none =>
    simp only [rnInlineO]
  | some y =>
    simp only [rnInlineO]
    simp only [rr_inline y, Option.map_map]

theorem rr_anchorO (x : Option Anchor) : rnAnchorO ρ (rnAnchorO σ x) = rnAnchorO (ρ ∘ σ) x := by
  match x with
  | none =>
    simp only [rnAnchorO]
  | some y =>
    simp only [rnAnchorO]
    simp only [rr_anchor y, Option.map_map]

theorem rr_inline (x : Inline) : rnInline ρ (rnInline σ x) = rnInline (ρ ∘ σ) x := by
  match x with
  | ⟨_, _, _, _, _, _, _, _, graphic, _⟩ =>
    simp only [rnInline]
    simp only [rr_graphicO graphic, Option.map_map]

theorem rr_anchor (x : Anchor) : rnAnchor ρ (rnAnchor σ x) = rnAnchor (ρ ∘ σ) x := by
  match x with
  | ⟨_, _, _, _, _, _, _, _, _, _, _, _, _, _, _, _, _, _, _, graphic, _⟩ =>
    simp only [rnAnchor]
    simp only [rr_graphicO graphic, Option.map_map]

theorem rr_graphicO (x : Option Graphic) : rnGraphicO ρ (rnGraphicO σ x) = rnGraphicO (ρ ∘ σ) x := by
  match x with
  | none =>
    simp only [rnGraphicO]
  | some y =>
    simp only [rnGraphicO]
    simp only [rr_graphic y, Option.map_map]

theorem rr_graphic (x : Graphic) : rnGraphic ρ (rnGraphic σ x) = rnGraphic (ρ ∘ σ) x := by
  match x with
  | ⟨_, data⟩ =>
    simp only [rnGraphic]
    simp only [rr_graphicDataO data, Option.map_map]

theorem rr_graphicDataO (x : Option GraphicData) : rnGraphicDataO ρ (rnGraphicDataO σ x) = rnGraphicDataO (ρ ∘ σ) x := by
  match x with
  | none =>
    simp only [rnGraphicDataO]
  | some y =>
    simp only [rnGraphicDataO]
    simp only [rr_graphicData y, Option.map_map]

theorem rr_graphicData (x : GraphicData) : rnGraphicData ρ (rnGraphicData σ x) = rnGraphicData (ρ ∘ σ) x := by
  match x with
  | ⟨_, _, shape, canvas, group⟩ =>
    simp only [rnGraphicData]
    simp only [rr_shapeO shape, rr_canvasO canvas, rr_groupO group, Option.map_map]

theorem rr_shapeO (x : Option Shape) : rnShapeO ρ (rnShapeO σ x) = rnShapeO (ρ ∘ σ) x := by
  match x with
  | none =>
    simp only [rnShapeO]
  | some y =>
    simp only [rnShapeO]
    simp only [rr_shape y, Option.map_map]

theorem rr_canvasO (x : Option Canvas) : rnCanvasO ρ (rnCanvasO σ x) = rnCanvasO (ρ ∘ σ) x := by
  match x with
  | none =>
    simp only [rnCanvasO]
  | some y =>
    simp only [rnCanvasO]
    simp only [rr_canvas y, Option.map_map]

theorem rr_groupO (x : Option Group) : rnGroupO ρ (rnGroupO σ x) = rnGroupO (ρ ∘ σ) x := by
  match x with
  | none =>
    simp only [rnGroupO]
  | some y =>
    simp only [rnGroupO]
    simp only [rr_group y, Option.map_map]

theorem rr_shape (x : Shape) : rnShape ρ (rnShape σ x) = rnShape (ρ ∘ σ) x := by
  match x with
  | ⟨_, _, _, _, textBox, _⟩ =>
    simp only [rnShape]
    simp only [rr_textBoxO textBox, Option.map_map]

theorem rr_textBoxO (x : Option TextBox) : rnTextBoxO ρ (rnTextBoxO σ x) = rnTextBoxO (ρ ∘ σ) x := by
  match x with
  | none =>
    simp only [rnTextBoxO]
  | some y =>
    simp only [rnTextBoxO]
    simp only [rr_textBox y, Option.map_map]

theorem rr_textBox (x : TextBox) : rnTextBox ρ (rnTextBox σ x) = rnTextBox (ρ ∘ σ) x := by
  match x with
  | ⟨content⟩ =>
    simp only [rnTextBox]
    simp only [rr_contentO content, Option.map_map]

theorem rr_contentO (x : Option (List Para)) : rnContentO ρ (rnContentO σ x) = rnContentO (ρ ∘ σ) x := by
  match x with
  | none =>
    simp only [rnContentO]
  | some y =>
    simp only [rnContentO]
    simp only [rr_paras y, Option.map_map]

theorem rr_paras (x : List Para) : rnParas ρ (rnParas σ x) = rnParas (ρ ∘ σ) x := by
  match x with
  | [] =>
    simp only [rnParas]
  | c :: cs =>
    simp only [rnParas]
    simp only [rr_para c, rr_paras cs, Option.map_map]

theorem rr_canvas (x : Canvas) : rnCanvas ρ (rnCanvas σ x) = rnCanvas (ρ ∘ σ) x := by
  match x with
  | ⟨_, _, items⟩ =>
    simp only [rnCanvas]
    simp only [rr_cItems items, Option.map_map]

theorem rr_cItems (x : List CItem) : rnCItems ρ (rnCItems σ x) = rnCItems (ρ ∘ σ) x := by
  match x with
  | [] =>
    simp only [rnCItems]
  | c :: cs =>
    simp only [rnCItems]
    simp only [rr_cItem c, rr_cItems cs, Option.map_map]

theorem rr_cItem (x : CItem) : rnCItem ρ (rnCItem σ x) = rnCItem (ρ ∘ σ) x := by
  match x with
  | .shape s =>
    simp only [rnCItem]
    simp only [rr_shape s, Option.map_map]
  | .pic p =>
    simp only [rnCItem]
  | .group g =>
    simp only [rnCItem]
    simp only [rr_group g, Option.map_map]

theorem rr_group (x : Group) : rnGroup ρ (rnGroup σ x) = rnGroup (ρ ∘ σ) x := by
  match x with
  | ⟨_, _, elems⟩ =>
    simp only [rnGroup]
    simp only [rr_gItems elems, Option.map_map]

theorem rr_groupShape (x : GroupShape) : rnGroupShape ρ (rnGroupShape σ x) = rnGroupShape (ρ ∘ σ) x := by
  match x with
  | ⟨_, _, _, elems⟩ =>
    simp only [rnGroupShape]
    simp only [rr_gItems elems, Option.map_map]

theorem rr_gItems (x : List GItem) : rnGItems ρ (rnGItems σ x) = rnGItems (ρ ∘ σ) x := by
  match x with
  | [] =>
    simp only [rnGItems]
  | c :: cs =>
    simp only [rnGItems]
    simp only [rr_gItem c, rr_gItems cs, Option.map_map]

theorem rr_gItem (x : GItem) : rnGItem ρ (rnGItem σ x) = rnGItem (ρ ∘ σ) x := by
  match x with
  | .shape s =>
    simp only [rnGItem]
    simp only [rr_shape s, Option.map_map]
  | .pic p =>
    simp only [rnGItem]
  | .canvas c =>
    simp only [rnGItem]
    simp only [rr_canvas c, Option.map_map]
  | .groupShape g =>
    simp only [rnGItem]
    simp only [rr_groupShape g, Option.map_map]

end


end Docx
