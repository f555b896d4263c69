import Verif.Lemmas.SaveRead

/-!
# The numbers and alternatives in saved documents
-/

namespace Docx

set_option linter.unusedSectionVars false

variable [GoEnv]

/-- The numbers of this node are numbers and its `AlternateContent` elements are well-formed. -/
def Sav (n : Node) : Prop := numsOk n ∧ altsOk n

/-- The same for a sequence of nodes -/
def SavL (ns : List Node) : Prop := numsOkL ns ∧ altsOkL ns

theorem savL_nil : SavL [] := ⟨trivial, trivial⟩

theorem savL_cons {n : Node} {ns : List Node} (h : Sav n) (hs : SavL ns) : SavL (n :: ns) :=
  ⟨⟨h.1, hs.1⟩, ⟨h.2, hs.2⟩⟩

theorem savL_append {a b : List Node} (ha : SavL a) (hb : SavL b) : SavL (a ++ b) := by
  refine ⟨numsOkL_append ha.1 hb.1, ?_⟩
  have h1 := ha.2
  clear ha
  induction a with
  | nil => exact hb.2
  | cons n a ih => exact ⟨h1.1, ih h1.2⟩

theorem sav_text (s : String) : Sav (.text s) := ⟨trivial, trivial⟩

theorem sav_el {p l : String} {as : List Attr} {ks : List Node} (hl : l ≠ "AlternateContent")
    (ha : attrsOk l as) (hk : SavL ks) : Sav (el p l as ks) :=
  ⟨⟨ha, hk.1⟩, ⟨fun h => absurd h hl, hk.2⟩⟩

theorem savL_optN {α : Type} {f : α → Node} (h : ∀ a, Sav (f a)) (o : Option α) : SavL (optN f o) := by
  cases o with
  | none => exact savL_nil
  | some a => exact savL_cons (h a) savL_nil

theorem savL_map {α : Type} {f : α → Node} (h : ∀ a, Sav (f a)) (l : List α) : SavL (l.map f) := by
  induction l with
  | nil => exact savL_nil
  | cons a l ih => exact savL_cons (h a) ih

theorem savL_flatMap {α : Type} {f : α → List Node} (h : ∀ a, SavL (f a)) (l : List α) :
    SavL (l.flatMap f) := by
  induction l with
  | nil => exact savL_nil
  | cons a l ih => exact savL_append (h a) ih

theorem savL_flagN (b : Bool) (p : String) {l : String} (hl : l ≠ "AlternateContent") :
    SavL (flagN b p l) := by
  refine ⟨numsOkL_flagN b p l, ?_⟩
  cases b with
  | false => exact trivial
  | true => exact ⟨⟨fun h => absurd h hl, trivial⟩, trivial⟩

theorem savL_valN {l : String} (h : "val" ∉ numeric l) (hl : l ≠ "AlternateContent") (o : Option String) :
    SavL (valN l o) := by
  refine ⟨numsOkL_valN h o, ?_⟩
  cases o with
  | none => exact trivial
  | some v => exact ⟨⟨fun h => absurd h hl, trivial⟩, trivial⟩

theorem savL_valO {l : String} (h : "val" ∉ numeric l) (hl : l ≠ "AlternateContent") (o : Option String) :
    SavL (valO l o) := by
  refine ⟨numsOkL_valO h o, ?_⟩
  cases o with
  | none => exact trivial
  | some v => exact ⟨⟨fun h => absurd h hl, trivial⟩, trivial⟩

theorem savL_valI {l : String} (hl : l ≠ "AlternateContent") (o : Option Int64) : SavL (valI l o) := by
  refine ⟨numsOkL_valI l o, ?_⟩
  cases o with
  | none => exact trivial
  | some v => exact ⟨⟨fun h => absurd h hl, trivial⟩, trivial⟩

/-- Closes the goals about nodes, attributes and lists of nodes -/
macro "savs" : tactic => `(tactic| (
  repeat' first
    | with_reducible refine numAttrs_append ?_ ?_
    | with_reducible refine savL_append ?_ ?_
    | with_reducible exact numAttrs_intA _ _ _ _
    | with_reducible exact numAttrs_intO _ _ _ _
    | with_reducible exact numAttrs_strA _ (by decide)
    | with_reducible exact numAttrs_strO _ (by decide)
    | with_reducible exact numAttrs_nil _
    | with_reducible exact savL_nil
    | with_reducible exact savL_flagN _ _ (by decide)
    | with_reducible exact savL_valN (by decide) (by decide) _
    | with_reducible exact savL_valO (by decide) (by decide) _
    | with_reducible exact savL_valI (by decide) _
    | with_reducible refine savL_optN (fun _ => ?_) _
    | with_reducible refine savL_map (fun _ => ?_) _
    | with_reducible refine savL_flatMap (fun _ => ?_) _
    | with_reducible exact sav_text _
    | with_reducible refine sav_el (by decide) ?_ ?_
    | with_reducible refine savL_cons ?_ ?_
    | simp only [mShade, mSpacing, mInd, mTab, mTabs, mRunFonts, mTblpPr, mWidth, mLook, mNumPr, mRPr,
        mPPr, mBorder, mBorders, mTblPr, mGrid, mTrPr, mTcPr, mPgSz, mPgMar, mCols, mDocGrid, mSect,
        mExtent, mEffectExtent, mDocPr, mFramePr, mIdName, mCNvPicPr, mNvPicPr, mBlip, mPicFill, mOff,
        mExt, mXfrm, mPrstGeom, mPicSpPr, mPic, mSimplePos, mPosition, mTile, mABlipFill, mSolidFill,
        mLineEnd, mLine, mShapePr, mCNvCnPr, mCNvSpPr, mBodyPr, mBackground, mWhole, mCNvGrpSpPr,
        mText, mBr]))

theorem sav_rpr (r : RPr) : Sav (mRPr r) := by savs
theorem sav_ppr (p : PPr) : Sav (mPPr p) := by savs
theorem sav_tblPr (t : TblPr) : Sav (mTblPr t) := by savs
theorem sav_grid (g : List (Option Int64)) : Sav (mGrid g) := by savs
theorem sav_trPr (t : TrPr) : Sav (mTrPr t) := by savs
theorem sav_tcPr (t : TcPr) : Sav (mTcPr t) := by savs
theorem sav_sect (s : SectPr) : Sav (mSect s) := by savs
theorem sav_text' (t : Text) : Sav (mText t) := by
  savs
  unfold textN
  split
  · exact savL_nil
  · exact savL_cons (sav_text _) savL_nil
theorem sav_tab (t : Tab) : Sav (mTab t) := by savs
theorem sav_br (b : Br) : Sav (mBr b) := by savs
theorem sav_pic (p : Picture) : Sav (mPic p) := by savs
theorem sav_line (p : Line) : Sav (mLine p) := by savs
theorem sav_shapePr_s (p : ShapePr) : Sav (mShapePr "wps" "spPr" p) := by savs
theorem sav_shapePr_g (p : ShapePr) : Sav (mShapePr "wpg" "grpSpPr" p) := by savs

mutual
theorem sav_para : ∀ p : Para, Sav (mPara p)
  | ⟨props, children, _⟩ => by
    unfold mPara
    exact sav_el (by decide) (numAttrs_nil _) (savL_append (savL_optN sav_ppr _) (sav_pchildren children))
theorem sav_pchildren : ∀ cs : List PChild, SavL (mPChildren cs)
  | [] => by unfold mPChildren; exact savL_nil
  | c :: cs => by unfold mPChildren; exact savL_cons (sav_pchild c) (sav_pchildren cs)
theorem sav_pchild : ∀ c : PChild, Sav (mPChild c)
  | .run r => by unfold mPChild; exact sav_run r
  | .link h => by unfold mPChild; exact sav_link h
  | .rpr p => by unfold mPChild; exact sav_rpr p
theorem sav_link : ∀ h : Hyperlink, Sav (mLink h)
  | ⟨id, run⟩ => by
    unfold mLink
    exact sav_el (by decide) (numAttrs_strA _ (by decide)) (savL_cons (sav_run run) savL_nil)
theorem sav_run : ∀ r : Run, Sav (mRun r)
  | ⟨space, rpr, instr, children⟩ => by
    unfold mRun
    refine sav_el (by decide) (numAttrs_strO _ (by decide))
      (savL_append (savL_append (savL_optN sav_rpr _) ?_) (sav_rchildren children))
    split
    · exact savL_nil
    · savs
theorem sav_rchildren : ∀ cs : List RChild, SavL (mRChildren cs)
  | [] => by unfold mRChildren; exact savL_nil
  | c :: cs => by unfold mRChildren; exact savL_cons (sav_rchild c) (sav_rchildren cs)
theorem sav_rchild : ∀ c : RChild, Sav (mRChild c)
  | .text t => by unfold mRChild; exact sav_text' t
  | .tab t => by unfold mRChild; exact sav_tab t
  | .br b => by unfold mRChild; exact sav_br b
  | .drawing d => by unfold mRChild; exact sav_drawing d
theorem sav_drawing : ∀ d : Drawing, Sav (mDrawing d)
  | ⟨inl, anchor⟩ => by
    unfold mDrawing
    exact sav_el (by decide) (numAttrs_nil _) (savL_append (sav_inlineO inl) (sav_anchorO anchor))
theorem sav_inlineO : ∀ o : Option Inline, SavL (mInlineO o)
  | none => by unfold mInlineO; exact savL_nil
  | some i => by unfold mInlineO; exact savL_cons (sav_inline i) savL_nil
theorem sav_anchorO : ∀ o : Option Anchor, SavL (mAnchorO o)
  | none => by unfold mAnchorO; exact savL_nil
  | some i => by unfold mAnchorO; exact savL_cons (sav_anchor i) savL_nil
theorem sav_inline : ∀ i : Inline, Sav (mInline i)
  | ⟨_, _, _, _, _, _, _, _, graphic, _⟩ => by
    unfold mInline
    refine sav_el (by decide) ?_ (savL_append ?_ (sav_graphicO graphic)) <;> savs
theorem sav_anchor : ∀ i : Anchor, Sav (mAnchor i)
  | ⟨_, _, _, _, _, _, _, _, _, _, _, _, _, _, _, _, _, _, _, graphic, _⟩ => by
    unfold mAnchor
    refine sav_el (by decide) ?_ (savL_append ?_ (sav_graphicO graphic)) <;> savs
theorem sav_graphicO : ∀ o : Option Graphic, SavL (mGraphicO o)
  | none => by unfold mGraphicO; exact savL_nil
  | some i => by unfold mGraphicO; exact savL_cons (sav_graphic i) savL_nil
theorem sav_graphic : ∀ g : Graphic, Sav (mGraphic g)
  | ⟨_, data⟩ => by
    unfold mGraphic
    exact sav_el (by decide) (numAttrs_strO _ (by decide)) (sav_graphicDataO data)
theorem sav_graphicDataO : ∀ o : Option GraphicData, SavL (mGraphicDataO o)
  | none => by unfold mGraphicDataO; exact savL_nil
  | some i => by unfold mGraphicDataO; exact savL_cons (sav_graphicData i) savL_nil
theorem sav_graphicData : ∀ g : GraphicData, Sav (mGraphicData g)
  | ⟨_, _, shape, canvas, group⟩ => by
    unfold mGraphicData
    exact sav_el (by decide) (numAttrs_strA _ (by decide)) (savL_append (savL_append (savL_append
      (savL_optN sav_pic _) (sav_shapeO shape)) (sav_canvasO canvas)) (sav_groupO group))
theorem sav_shapeO : ∀ o : Option Shape, SavL (mShapeO o)
  | none => by unfold mShapeO; exact savL_nil
  | some i => by unfold mShapeO; exact savL_cons (sav_shape i) savL_nil
theorem sav_canvasO : ∀ o : Option Canvas, SavL (mCanvasO o)
  | none => by unfold mCanvasO; exact savL_nil
  | some i => by unfold mCanvasO; exact savL_cons (sav_canvas i) savL_nil
theorem sav_groupO : ∀ o : Option Group, SavL (mGroupO o)
  | none => by unfold mGroupO; exact savL_nil
  | some i => by unfold mGroupO; exact savL_cons (sav_group i) savL_nil
theorem sav_shape : ∀ s : Shape, Sav (mShape s)
  | ⟨_, _, _, _, textBox, _⟩ => by
    unfold mShape
    refine sav_el (by decide) (numAttrs_nil _) (savL_append (savL_append ?_ (sav_textBoxO textBox)) ?_)
      <;> savs
theorem sav_textBoxO : ∀ o : Option TextBox, SavL (mTextBoxO o)
  | none => by unfold mTextBoxO; exact savL_nil
  | some i => by unfold mTextBoxO; exact savL_cons (sav_textBox i) savL_nil
theorem sav_textBox : ∀ t : TextBox, Sav (mTextBox t)
  | ⟨content⟩ => by unfold mTextBox; exact sav_el (by decide) (numAttrs_nil _) (sav_contentO content)
theorem sav_contentO : ∀ o : Option (List Para), SavL (mContentO o)
  | none => by unfold mContentO; exact savL_nil
  | some ps => by
    unfold mContentO
    exact savL_cons (sav_el (by decide) (numAttrs_nil _) (sav_paras ps)) savL_nil
theorem sav_paras : ∀ ps : List Para, SavL (mParas ps)
  | [] => by unfold mParas; exact savL_nil
  | p :: ps => by unfold mParas; exact savL_cons (sav_para p) (sav_paras ps)
theorem sav_canvas : ∀ c : Canvas, Sav (mCanvas c)
  | ⟨_, _, items⟩ => by
    unfold mCanvas
    refine sav_el (by decide) (numAttrs_nil _) (savL_append ?_ (sav_citems items))
    savs
theorem sav_citems : ∀ cs : List CItem, SavL (mCItems cs)
  | [] => by unfold mCItems; exact savL_nil
  | c :: cs => by unfold mCItems; exact savL_cons (sav_citem c) (sav_citems cs)
theorem sav_citem : ∀ c : CItem, Sav (mCItem c)
  | .shape s => by unfold mCItem; exact sav_shape s
  | .pic p => by unfold mCItem; exact sav_pic p
  | .group g => by unfold mCItem; exact sav_group g
theorem sav_group : ∀ g : Group, Sav (mGroup g)
  | ⟨_, _, elems⟩ => by
    unfold mGroup
    refine sav_el (by decide) (numAttrs_nil _) (savL_append ?_ (sav_gitems elems))
    savs
theorem sav_groupShape : ∀ g : GroupShape, Sav (mGroupShape g)
  | ⟨_, _, _, elems⟩ => by
    unfold mGroupShape
    refine sav_el (by decide) (numAttrs_nil _) (savL_append ?_ (sav_gitems elems))
    savs
theorem sav_gitems : ∀ gs : List GItem, SavL (mGItems gs)
  | [] => by unfold mGItems; exact savL_nil
  | g :: gs => by unfold mGItems; exact savL_cons (sav_gitem g) (sav_gitems gs)
theorem sav_gitem : ∀ g : GItem, Sav (mGItem g)
  | .shape s => by unfold mGItem; exact sav_shape s
  | .pic p => by unfold mGItem; exact sav_pic p
  | .canvas c => by unfold mGItem; exact sav_canvas c
  | .groupShape g => by unfold mGItem; exact sav_groupShape g
end

theorem sav_item (i : BItem) : Sav (mItem i) := by
  cases i with
  | para p => exact sav_para p
  | sect s => exact sav_sect s
  | table t =>
    refine sav_el (by decide) (numAttrs_nil _) (savL_append (savL_append (savL_optN sav_tblPr _)
      (savL_optN sav_grid _)) (savL_map (fun r => ?_) _))
    refine sav_el (by decide) (numAttrs_nil _) (savL_append (savL_optN sav_trPr _) (savL_map (fun c => ?_) _))
    exact sav_el (by decide) (numAttrs_nil _) (savL_append (savL_optN sav_tcPr _) (savL_map sav_para _))

/-- What is in the `w:document` element of a saved document -/
theorem sav_document (items : List BItem) : SavL (mDocument items).kids :=
  savL_cons (sav_el (by decide) (numAttrs_nil _) (savL_map sav_item _)) savL_nil

end Docx
