import Verif.Lemmas.CleanParts
import Verif.Lemmas.NsYields
import Verif.Lemmas.Pack

/-!
# What is decoded from tokens that hold only characters XML allows: paragraphs, tables, documents
-/

namespace Docx

set_option linter.unusedSectionVars false
set_option linter.unusedVariables false

variable [GoEnv]

/-! ## Lists of elements -/

theorem okL_pChildren {l : List PChild} : okL (mPChildren l) ↔ ∀ c ∈ l, okN (mPChild c) := by
  induction l with
  | nil => simp [mPChildren, okL_nil]
  | cons a l ih => simp [mPChildren, okL_cons, ih]
theorem okL_rChildren {l : List RChild} : okL (mRChildren l) ↔ ∀ c ∈ l, okN (mRChild c) := by
  induction l with
  | nil => simp [mRChildren, okL_nil]
  | cons a l ih => simp [mRChildren, okL_cons, ih]
theorem okL_paras {l : List Para} : okL (mParas l) ↔ ∀ c ∈ l, okN (mPara c) := by
  induction l with
  | nil => simp [mParas, okL_nil]
  | cons a l ih => simp [mParas, okL_cons, ih]
theorem okL_cItems {l : List CItem} : okL (mCItems l) ↔ ∀ c ∈ l, okN (mCItem c) := by
  induction l with
  | nil => simp [mCItems, okL_nil]
  | cons a l ih => simp [mCItems, okL_cons, ih]
theorem okL_gItems {l : List GItem} : okL (mGItems l) ↔ ∀ c ∈ l, okN (mGItem c) := by
  induction l with
  | nil => simp [mGItems, okL_nil]
  | cons a l ih => simp [mGItems, okL_cons, ih]
theorem okL_inlineO {o : Option Inline} : okL (mInlineO o) ↔ ∀ x, o = some x → okN (mInline x) := by
  cases o <;> simp [mInlineO, okL_nil, okL_cons]
theorem okL_anchorO {o : Option Anchor} : okL (mAnchorO o) ↔ ∀ x, o = some x → okN (mAnchor x) := by
  cases o <;> simp [mAnchorO, okL_nil, okL_cons]
theorem okL_graphicO {o : Option Graphic} : okL (mGraphicO o) ↔ ∀ x, o = some x → okN (mGraphic x) := by
  cases o <;> simp [mGraphicO, okL_nil, okL_cons]
theorem okL_graphicDataO {o : Option GraphicData} : okL (mGraphicDataO o) ↔ ∀ x, o = some x → okN (mGraphicData x) := by
  cases o <;> simp [mGraphicDataO, okL_nil, okL_cons]
theorem okL_shapeO {o : Option Shape} : okL (mShapeO o) ↔ ∀ x, o = some x → okN (mShape x) := by
  cases o <;> simp [mShapeO, okL_nil, okL_cons]
theorem okL_canvasO {o : Option Canvas} : okL (mCanvasO o) ↔ ∀ x, o = some x → okN (mCanvas x) := by
  cases o <;> simp [mCanvasO, okL_nil, okL_cons]
theorem okL_groupO {o : Option Group} : okL (mGroupO o) ↔ ∀ x, o = some x → okN (mGroup x) := by
  cases o <;> simp [mGroupO, okL_nil, okL_cons]
theorem okL_textBoxO {o : Option TextBox} : okL (mTextBoxO o) ↔ ∀ x, o = some x → okN (mTextBox x) := by
  cases o <;> simp [mTextBoxO, okL_nil, okL_cons]
theorem okL_contentO {o : Option (List Para)} : okL (mContentO o) ↔ ∀ x, o = some x → ∀ q ∈ x, okN (mPara q) := by
  cases o <;> simp [mContentO, okL_nil, okL_cons, okN_el, okA_nil, okL_paras]

theorem push_C {α : Type} {P : α → Prop} {l : List α} {a : α} (h : ∀ x ∈ l, P x) (ha : P a) : ∀ x ∈ l ++ [a], P x := by
  intro x hx
  rcases List.mem_append.1 hx with h' | h'
  · exact h x h'
  · rw [List.mem_singleton.1 h']; exact ha

/-! ## What a value must satisfy -/

theorem textBox_iff {x : TextBox} : okN (mTextBox x) ↔ ∀ ps, x.content = some ps → ∀ q ∈ ps, okN (mPara q) := by
  cases x; simp [mTextBox, okN_el, okA_nil, okL_contentO]

theorem shape_iff {x : Shape} : okN (mShape x) ↔ (∀ v, x.cNvPr = some v → xmlText v.name) ∧
    (∀ v, x.spPr = some v → okN (mShapePr "" "" v)) ∧ (∀ v, x.textBox = some v → okN (mTextBox v)) ∧
    (∀ v, x.bodyPr = some v → okN (mBodyPr v)) := by
  cases x
  simp [mShape, okN_el, okA_nil, okL_append, okL_optN, okL_textBoxO, idName_iff, cNvCnPr_ok, cNvSpPr_ok,
    shapePr_iff (pre := "wps"), and_assoc]

theorem groupShape_iff {x : GroupShape} : okN (mGroupShape x) ↔ (∀ v, x.cNvPr = some v → xmlText v.name) ∧
    (∀ v, x.grpSpPr = some v → okN (mShapePr "" "" v)) ∧ ∀ v ∈ x.elems, okN (mGItem v) := by
  cases x
  simp [mGroupShape, okN_el, okA_nil, okL_append, okL_optN, okL_gItems, idName_iff, cNvGrpSpPr_ok,
    shapePr_iff (pre := "wpg"), and_assoc]

theorem group_iff {x : Group} : okN (mGroup x) ↔
    (∀ v, x.grpSpPr = some v → okN (mShapePr "" "" v)) ∧ ∀ v ∈ x.elems, okN (mGItem v) := by
  cases x
  simp [mGroup, okN_el, okA_nil, okL_append, okL_optN, okL_gItems, cNvGrpSpPr_ok,
    shapePr_iff (pre := "wpg")]

theorem canvas_iff {x : Canvas} : okN (mCanvas x) ↔
    (∀ v, x.whole = some v → okN (mWhole v)) ∧ ∀ v ∈ x.items, okN (mCItem v) := by
  cases x
  simp [mCanvas, okN_el, okA_nil, okL_append, okL_optN, okL_cItems, background_ok]

theorem graphicData_iff {x : GraphicData} : okN (mGraphicData x) ↔ xmlText x.uri ∧
    (∀ v, x.pic = some v → okN (mPic v)) ∧ (∀ v, x.shape = some v → okN (mShape v)) ∧
    (∀ v, x.canvas = some v → okN (mCanvas v)) ∧ ∀ v, x.group = some v → okN (mGroup v) := by
  cases x
  simp [mGraphicData, okN_el, okA_strA, okL_append, okL_optN, okL_shapeO, okL_canvasO, okL_groupO, and_assoc]

theorem graphic_iff {x : Graphic} : okN (mGraphic x) ↔ xmlText x.xmlA ∧
    ∀ v, x.data = some v → okN (mGraphicData v) := by
  cases x; simp [mGraphic, okN_el, okA_strO, okL_graphicDataO]

theorem inline_iff {x : Inline} : okN (mInline x) ↔ (∀ v, x.docPr = some v → xmlText v.name) ∧
    (∀ v, x.framePr = some v → okN (mFramePr v)) ∧ ∀ v, x.graphic = some v → okN (mGraphic v) := by
  cases x
  simp [mInline, okN_el, okA_append, okA_intA, okL_append, okL_optN, okL_graphicO, docPr_iff, extent_ok,
    effectExtent_ok, and_assoc]

theorem position_iff {l : String} {x : Position} : okN (mPosition l x) ↔ xmlText x.relativeFrom := by
  simp [mPosition, okN_el, okA_strA, okL_cons, okL_nil, okA_nil, okN_text, xmlText_itoa]

theorem anchor_iff {x : Anchor} : okN (mAnchor x) ↔ (∀ v, x.positionH = some v → xmlText v.relativeFrom) ∧
    (∀ v, x.positionV = some v → xmlText v.relativeFrom) ∧ (∀ v, x.wrapSquare = some v → xmlText v) ∧
    (∀ v, x.docPr = some v → xmlText v.name) ∧
    (∀ v, x.framePr = some v → okN (mFramePr v)) ∧ ∀ v, x.graphic = some v → okN (mGraphic v) := by
  cases x
  simp [mAnchor, okN_el, okA_append, okA_intA, okA_strA, okL_append, okL_optN, okL_flagN, okL_nil, okL_graphicO,
    docPr_iff, extent_ok, effectExtent_ok, simplePos_ok, position_iff, and_assoc]

theorem drawing_iff {x : Drawing} : okN (mDrawing x) ↔ (∀ v, x.inl = some v → okN (mInline v)) ∧
    ∀ v, x.anchor = some v → okN (mAnchor v) := by
  cases x; simp [mDrawing, okN_el, okA_nil, okL_append, okL_inlineO, okL_anchorO]

theorem run_iff {x : Run} : okN (mRun x) ↔ xmlText x.space ∧ (∀ v, x.rpr = some v → okN (mRPr v)) ∧
    xmlText x.instr ∧ ∀ c ∈ x.children, okN (mRChild c) := by
  rcases x with ⟨sp, r, i, cs⟩
  simp only [mRun, okN_el, okA_strO, okL_append, okL_optN, okL_rChildren]
  have : okL (if i = "" then [] else [el "w" "instrText" [] [.text i]]) ↔ xmlText i := by
    split
    · next h => subst h; simp [okL_nil, xmlText_nil]
    · simp [okL_cons, okL_nil, okN_el, okA_nil, okN_text]
  rw [this, and_assoc]

theorem link_iff {x : Hyperlink} : okN (mLink x) ↔ xmlText x.id ∧ okN (mRun x.run) := by
  cases x; simp [mLink, okN_el, okA_strA, okL_cons, okL_nil]

theorem para_iff {x : Para} : okN (mPara x) ↔ (∀ v, x.props = some v → okN (mPPr v)) ∧
    ∀ c ∈ x.children, okN (mPChild c) := by
  cases x; simp [mPara, okN_el, okA_nil, okL_append, okL_optN, okL_pChildren]

/-! ## The decoders -/

/-- The recursive decoders yield good values -/
structure DecsC (p : Decs) : Prop where
  good : DecsGood 0 p
  para : ∀ file, YC (fun x => okN (mPara x)) (p.para file)
  canvas : ∀ file, YC (fun x => okN (mCanvas x)) (p.canvas file)
  parse : ∀ file r l as d, okN (mRun r) → okA as → okToks d.rest →
    okN (mRun (p.parse file r l as d).val.1) ∧ ∀ c, (p.parse file r l as d).val.2 = some c → okN (mRChild c)

variable {p : Decs}

theorem unTextBox_C (hp : DecsC p) (file : Option DocId) : YC (fun x => okN (mTextBox x)) (unTextBox p file) := by
  refine loop_C (textBoxStep_good hp.good file) ?_ (by simp [textBox_iff])
  intro s l as d hs ha hd
  unfold textBoxStep
  split
  · refine sub_C (P := fun ps => ∀ q ∈ ps, okN (mPara q)) (Q := fun x => okN (mTextBox x)) ?_ hd fun v hv => ?_
    · refine loop_C (txbxContentStep_good hp.good file) ?_ (by simp)
      intro s l as d hs ha hd
      unfold txbxContentStep
      split
      · exact sub_C (Q := fun ps => ∀ q ∈ ps, okN (mPara q)) (hp.para file) hd fun v hv => push_C hs hv
      · exact hs
    · simp only [textBox_iff, Option.some.injEq, forall_eq']; exact hv
  · exact hs

theorem unShape_C (hp : DecsC p) (file : Option DocId) : YC (fun x => okN (mShape x)) (unShape p file) := by
  refine loop_C (shapeStep_good hp.good file) ?_ (by simp [shape_iff])
  intro s l as d hs ha hd
  have h := shape_iff.1 hs
  unfold shapeStep
  split
  · refine sub_C (Q := fun x => okN (mShape x)) (unIdName_C ha) hd fun v hv => ?_
    rw [docPr_iff] at hv; simp_all [shape_iff]
  · refine sub_C (Q := fun x => okN (mShape x)) (any_C _) hd fun v _ => ?_
    simp_all [shape_iff]
  · refine sub_C (Q := fun x => okN (mShape x)) (any_C _) hd fun v _ => ?_
    simp_all [shape_iff]
  · refine sub_C (Q := fun x => okN (mShape x)) (unShapePr_C ha) hd fun v hv => ?_
    simp_all [shape_iff]
  · refine sub_C (Q := fun x => okN (mShape x)) (unTextBox_C hp file) hd fun v hv => ?_
    simp_all [shape_iff]
  · refine sub_C (Q := fun x => okN (mShape x)) (unBodyPr_C ha) hd fun v hv => ?_
    simp_all [shape_iff]
  · exact hs

theorem unGroupShape_C (hp : DecsC p) (file : Option DocId) :
    YC (fun x => okN (mGroupShape x)) (unGroupShape p file) := by
  refine loop_C (groupShapeStep_good hp.good file) ?_ (by simp [groupShape_iff])
  intro s l as d hs ha hd
  have h := groupShape_iff.1 hs
  unfold groupShapeStep
  split
  · refine sub_C (Q := fun x => okN (mGroupShape x)) (unIdName_C ha) hd fun v hv => ?_
    rw [docPr_iff] at hv; simp_all [groupShape_iff]
  · refine sub_C (Q := fun x => okN (mGroupShape x)) (any_C _) hd fun v _ => ?_
    simp_all [groupShape_iff]
  · refine sub_C (Q := fun x => okN (mGroupShape x)) (unShapePr_C ha) hd fun v hv => ?_
    simp_all [groupShape_iff]
  · refine sub_C (Q := fun x => okN (mGroupShape x)) unPic_C hd fun v hv => ?_
    exact groupShape_iff.2 ⟨h.1, h.2.1, push_C h.2.2 (by rw [mGItem]; exact hv)⟩
  · refine sub_C (Q := fun x => okN (mGroupShape x)) (unShape_C hp file) hd fun v hv => ?_
    exact groupShape_iff.2 ⟨h.1, h.2.1, push_C h.2.2 (by rw [mGItem]; exact hv)⟩
  · refine sub_C (Q := fun x => okN (mGroupShape x)) (hp.canvas file) hd fun v hv => ?_
    exact groupShape_iff.2 ⟨h.1, h.2.1, push_C h.2.2 (by rw [mGItem]; exact hv)⟩
  · exact hs

theorem unGroup_C (hp : DecsC p) (file : Option DocId) : YC (fun x => okN (mGroup x)) (unGroup p file) := by
  refine loop_C (groupStep_good hp.good file) ?_ (by simp [group_iff])
  intro s l as d hs ha hd
  have h := group_iff.1 hs
  unfold groupStep
  split
  · refine sub_C (Q := fun x => okN (mGroup x)) (any_C _) hd fun v _ => ?_
    simp_all [group_iff]
  · refine sub_C (Q := fun x => okN (mGroup x)) (unShapePr_C ha) hd fun v hv => ?_
    simp_all [group_iff]
  · refine sub_C (Q := fun x => okN (mGroup x)) unPic_C hd fun v hv => ?_
    exact group_iff.2 ⟨h.1, push_C h.2 (by rw [mGItem]; exact hv)⟩
  · refine sub_C (Q := fun x => okN (mGroup x)) (unShape_C hp file) hd fun v hv => ?_
    exact group_iff.2 ⟨h.1, push_C h.2 (by rw [mGItem]; exact hv)⟩
  · refine sub_C (Q := fun x => okN (mGroup x)) (hp.canvas file) hd fun v hv => ?_
    exact group_iff.2 ⟨h.1, push_C h.2 (by rw [mGItem]; exact hv)⟩
  · refine sub_C (Q := fun x => okN (mGroup x)) (unGroupShape_C hp file) hd fun v hv => ?_
    exact group_iff.2 ⟨h.1, push_C h.2 (by rw [mGItem]; exact hv)⟩
  · exact hs

theorem unCanvas_C (hp : DecsC p) (file : Option DocId) : YC (fun x => okN (mCanvas x)) (unCanvas p file) := by
  refine loop_C (canvasStep_good hp.good file) ?_ (by simp [canvas_iff])
  intro s l as d hs ha hd
  have h := canvas_iff.1 hs
  unfold canvasStep
  split
  · refine sub_C (Q := fun x => okN (mCanvas x)) (any_C _) hd fun v _ => ?_
    simp_all [canvas_iff]
  · refine sub_C (Q := fun x => okN (mCanvas x)) unWhole_C hd fun v hv => ?_
    simp_all [canvas_iff]
  · refine sub_C (Q := fun x => okN (mCanvas x)) (unShape_C hp file) hd fun v hv => ?_
    exact canvas_iff.2 ⟨h.1, push_C h.2 (by rw [mCItem]; exact hv)⟩
  · refine sub_C (Q := fun x => okN (mCanvas x)) unPic_C hd fun v hv => ?_
    exact canvas_iff.2 ⟨h.1, push_C h.2 (by rw [mCItem]; exact pic_rename hv (getAtt_C ha _))⟩
  · refine sub_C (Q := fun x => okN (mCanvas x)) (unGroup_C hp file) hd fun v hv => ?_
    exact canvas_iff.2 ⟨h.1, push_C h.2 (by rw [mCItem]; exact hv)⟩
  · exact hs

theorem unGraphicData_C (hp : DecsC p) (file : Option DocId) {as : List Attr} (ha : okA as) :
    YC (fun x => okN (mGraphicData x)) (unGraphicData p file as) := by
  refine withAttrs_C ha ?_ (by simp [graphicData_iff, xmlText_nil]) fun s hs =>
    loop_C (graphicDataStep_good hp.good file) ?_ hs
  · intro s l v hs hv
    have h := graphicData_iff.1 hs
    unfold graphicDataAttr
    split
    · exact graphicData_iff.2 ⟨hv, h.2⟩
    · exact hs
  · intro s l as d hs ha hd
    have h := graphicData_iff.1 hs
    unfold graphicDataStep
    split
    · refine sub_C (Q := fun x => okN (mGraphicData x)) unPic_C hd fun v hv => ?_
      have := pic_rename hv (getAtt_C ha "pic")
      simp_all [graphicData_iff]
    · refine sub_C (Q := fun x => okN (mGraphicData x)) (unShape_C hp file) hd fun v hv => ?_
      simp_all [graphicData_iff]
    · refine sub_C (Q := fun x => okN (mGraphicData x)) (unCanvas_C hp file) hd fun v hv => ?_
      simp_all [graphicData_iff]
    · refine sub_C (Q := fun x => okN (mGraphicData x)) (unGroup_C hp file) hd fun v hv => ?_
      simp_all [graphicData_iff]
    · exact hs

theorem unGraphic_C (hp : DecsC p) (file : Option DocId) {as : List Attr} (ha : okA as) :
    YC (fun x => okN (mGraphic x)) (unGraphic p file as) := by
  refine withAttrs_C ha ?_ (by simp [graphic_iff, xmlText_nil]) fun s hs =>
    loop_C (graphicStep_good hp.good file) ?_ hs
  · intro s l v hs hv
    have h := graphic_iff.1 hs
    unfold graphicAttr
    split
    · exact graphic_iff.2 ⟨hv, h.2⟩
    · exact hs
  · intro s l as d hs ha hd
    have h := graphic_iff.1 hs
    unfold graphicStep
    split
    · refine sub_C (Q := fun x => okN (mGraphic x)) (unGraphicData_C hp file ha) hd fun v hv => ?_
      have := graphicData_iff.1 hv
      have := getAtt_C ha "uri"
      simp_all [graphic_iff, graphicData_iff]
    · exact hs

theorem unInline_C (hp : DecsC p) (file : Option DocId) {as : List Attr} (ha : okA as) :
    YC (fun x => okN (mInline x)) (unInline p file as) := by
  refine withAttrs_C ha ?_ (by simp [inline_iff]) fun s hs => loop_C (inlineStep_good hp.good file) ?_ hs
  · intro s l v hs hv
    have h := inline_iff.1 hs
    unfold inlineAttr
    split <;> first | exact hs | (rw [intAttr_fst]; exact inline_iff.2 h)
  · intro s l as d hs ha hd
    have h := inline_iff.1 hs
    unfold inlineStep
    split
    · exact inline_iff.2 h
    · exact inline_iff.2 h
    · refine sub_C (Q := fun x => okN (mInline x)) (unIdName_C ha) hd fun v hv => ?_
      rw [docPr_iff] at hv; simp_all [inline_iff]
    · refine sub_C (Q := fun x => okN (mInline x)) unFramePr_C hd fun v hv => ?_
      simp_all [inline_iff]
    · refine sub_C (Q := fun x => okN (mInline x)) (unGraphic_C hp file ha) hd fun v hv => ?_
      simp_all [inline_iff]
    · exact hs

theorem unAnchor_C (hp : DecsC p) (file : Option DocId) {as : List Attr} (ha : okA as) :
    YC (fun x => okN (mAnchor x)) (unAnchor p file as) := by
  refine withAttrs_C ha ?_ (by simp [anchor_iff]) fun s hs => loop_C (anchorStep_good hp.good file) ?_ hs
  · intro s l v hs hv
    have h := anchor_iff.1 hs
    unfold anchorAttr
    split <;> first | exact hs | (rw [intAttr_fst]; exact anchor_iff.2 h)
  · intro s l as d hs ha hd
    have h := anchor_iff.1 hs
    unfold anchorStep
    split
    · exact anchor_iff.2 h
    · refine sub_C (Q := fun x => okN (mAnchor x)) (unPosition_C (loc := "") ha) hd fun v hv => ?_
      rw [position_iff] at hv; simp_all [anchor_iff]
    · refine sub_C (Q := fun x => okN (mAnchor x)) (unPosition_C (loc := "") ha) hd fun v hv => ?_
      rw [position_iff] at hv; simp_all [anchor_iff]
    · exact anchor_iff.2 h
    · exact anchor_iff.2 h
    · exact anchor_iff.2 h
    · have := getAtt_C ha "wrapText"
      rw [flat_val]; simp_all [anchor_iff]
    · refine sub_C (Q := fun x => okN (mAnchor x)) (unIdName_C ha) hd fun v hv => ?_
      rw [docPr_iff] at hv; simp_all [anchor_iff]
    · refine sub_C (Q := fun x => okN (mAnchor x)) unFramePr_C hd fun v hv => ?_
      simp_all [anchor_iff]
    · refine sub_C (Q := fun x => okN (mAnchor x)) (unGraphic_C hp file ha) hd fun v hv => ?_
      simp_all [anchor_iff]
    · exact hs

theorem unDrawing_C (hp : DecsC p) (file : Option DocId) : YC (fun x => okN (mDrawing x)) (unDrawing p file) := by
  refine loop_C (drawingStep_good hp.good file) ?_ (by simp [drawing_iff])
  intro s l as d hs ha hd
  have h := drawing_iff.1 hs
  unfold drawingStep
  split
  · refine sub_C (Q := fun x => okN (mDrawing x)) (unInline_C hp file ha) hd fun v hv => ?_
    simp_all [drawing_iff]
  · refine sub_C (Q := fun x => okN (mDrawing x)) (unAnchor_C hp file ha) hd fun v hv => ?_
    simp_all [drawing_iff]
  · exact hs

theorem runParse_C (hp : DecsC p) (file : Option DocId) (r : Run) (l : String)
    (as : List Attr) (d : Dec) (hr : okN (mRun r)) (ha : okA as) (hd : okToks d.rest) :
    okN (mRun (runParse p file r l as d).val.1) ∧
      ∀ c, (runParse p file r l as d).val.2 = some c → okN (mRChild c) := by
  let G : Parsed → Prop := fun x => okN (mRun x.1) ∧ ∀ c, x.2 = some c → okN (mRChild c)
  have hn : G (r, none) := ⟨hr, by intro c hc; cases hc⟩
  have hc : ∀ c, okN (mRChild c) → G (r, some c) :=
    fun c h => ⟨hr, by intro c' hc; cases hc; exact h⟩
  have h := run_iff.1 hr
  change G (runParse p file r l as d).val
  unfold runParse
  split
  · refine sub_C (Q := G) unRPr_C hd fun v hv => ⟨run_iff.2 ⟨h.1, ?_, h.2.2⟩, by intro c hc; cases hc⟩
    simp only [Option.some.injEq, forall_eq']; exact hv
  · exact ⟨run_iff.2 ⟨h.1, h.2.1, reflString_C d hd, h.2.2.2⟩, by intro c hc; cases hc⟩
  · exact subStrict_C (Q := G) (unText_C ha) hd fun v hv => hc _ (by simp only [mRChild]; exact hv)
  · exact subStrict_C (Q := G) (unDrawing_C hp file) hd fun v hv => hc _ (by simp only [mRChild]; exact hv)
  · exact hc _ (by ok_simp [mRChild, mTab])
  · exact subStrict_C (Q := G) (unBr_C ha) hd fun v hv => hc _ (by simp only [mRChild]; exact hv)
  · exact altN_C (PR := fun r => okN (mRun r)) (PC := fun c => okN (mRChild c)) (hp.parse file) _ r d hr hd
  · exact hn

theorem runStep_C (hp : DecsC p) (file : Option DocId) : SC (fun r => okN (mRun r)) (runStep p file) := by
  intro s l as d hs ha hd
  have h := runParse_C hp file s l as d hs ha hd
  unfold runStep
  rcases hr : runParse p file s l as d with ⟨⟨r, c⟩, e, d'⟩
  rw [hr] at h
  cases e with
  | some e => exact h.1
  | none =>
    cases c with
    | none => exact h.1
    | some c =>
      have h1 := run_iff.1 h.1
      exact run_iff.2 ⟨h1.1, h1.2.1, h1.2.2.1, push_C h1.2.2.2 (h.2 c rfl)⟩

theorem unRun_C (hp : DecsC p) (file : Option DocId) {s : Run} (hs : okN (mRun s)) {as : List Attr} (ha : okA as) :
    YC (fun r => okN (mRun r)) (unRun p file s as) := by
  refine withAttrs_C ha ?_ hs fun s hs => loop_C (runStep_good hp.good file) (runStep_C hp file) hs
  intro s l v hs hv
  unfold runAttr
  split
  · exact run_iff.2 ⟨hv, (run_iff.1 hs).2⟩
  · exact hs

theorem unLink_C (hp : DecsC p) : YC (fun x => okN (mLink x)) (unLink p) := by
  have h0 : okN (mRun {}) := by simp [run_iff, xmlText_nil]
  refine loop_C (hyperlinkStep_good hp.good) ?_ (link_iff.2 ⟨xmlText_nil, h0⟩)
  intro s l as d hs ha hd
  have h := link_iff.1 hs
  unfold hyperlinkStep
  split
  · exact sub_C (Q := fun x => okN (mLink x)) (unRun_C hp none h.2 ha) hd fun v hv => link_iff.2 ⟨h.1, hv⟩
  · exact hs

theorem linkID_C {as : List Attr} (ha : okA as) {old : String} (ho : xmlText old) : xmlText (linkID as old) := by
  unfold linkID
  split
  · exact getAtt_C ha _
  · split
    · exact getAtt_C ha _
    · exact ho

theorem unPara_C (hp : DecsC p) (file : Option DocId) : YC (fun x => okN (mPara x)) (unPara p file) := by
  intro d hd
  have h0 : okN (mRun {}) := by simp [run_iff, xmlText_nil]
  have hl : YC (fun x => okN (mPara x)) (loop (paraStep p file) { file := file }) := by
    refine loop_C (paraStep_good hp.good file) ?_ (by simp [para_iff])
    intro s l as d hs ha hd
    have h := para_iff.1 hs
    unfold paraStep
    split
    · refine sub_C (Q := fun x => okN (mPara x)) (unLink_C hp) hd fun v hv => ?_
      refine para_iff.2 ⟨h.1, push_C h.2 ?_⟩
      rw [mPChild]
      exact link_iff.2 ⟨linkID_C ha (link_iff.1 hv).1, (link_iff.1 hv).2⟩
    · refine sub_C (Q := fun x => okN (mPara x)) (unRun_C hp file h0 ha) hd fun v hv => ?_
      exact para_iff.2 ⟨h.1, push_C h.2 (by rw [mPChild]; exact hv)⟩
    · refine sub_C (Q := fun x => okN (mPara x)) unRPr_C hd fun v hv => ?_
      exact para_iff.2 ⟨h.1, push_C h.2 (by rw [mPChild]; exact hv)⟩
    · refine sub_C (Q := fun x => okN (mPara x)) unPPr_C hd fun v hv => ?_
      exact para_iff.2 ⟨by simp only [Option.some.injEq, forall_eq']; exact hv, h.2⟩
    · exact hs
  have h := hl d hd
  simp only [unPara]
  split
  · exact h
  · exact para_iff.2 ⟨(para_iff.1 h).1, by simp⟩

theorem decs_C : ∀ k, DecsC (decs k)
  | 0 => by
    refine ⟨decsGood_zero (decs_good 0), fun file d _ => ?_, fun file d _ => ?_, fun file r l as d hr _ _ => ?_⟩
    · simp [decs, para_iff]
    · simp [decs, canvas_iff]
    · exact ⟨hr, by intro c hc; cases hc⟩
  | k + 1 => by
    have ih := decs_C k
    refine ⟨decsGood_zero (decs_good (k + 1)), fun file => ?_, fun file => ?_, fun file r l as d hr ha hd => ?_⟩
    · exact unPara_C ih file
    · exact unCanvas_C ih file
    · exact runParse_C ih file r l as d hr ha hd

/-! ## Tables and documents -/

theorem unCell_C (hp : DecsC p) (file : Option DocId) : YC (fun x => okN (mCell x)) (unCell p file) := by
  refine loop_C (cellStep_good hp.good file) ?_ (by ok_simp [mCell])
  intro s l as d hs ha hd
  unfold cellStep
  split
  · refine sub_C (Q := fun x => okN (mCell x)) (unPara_C hp file) hd fun v hv => ?_
    simp only [mCell, okN_el, okA_nil, okL_append, okL_optN, okL_map, true_and] at hs ⊢
    exact ⟨hs.1, push_C hs.2 hv⟩
  · refine sub_C (Q := fun x => okN (mCell x)) unTcPr_C hd fun v hv => ?_
    ok_simp [mCell]
  · exact hs

theorem unRow_C (hp : DecsC p) (file : Option DocId) : YC (fun x => okN (mRow x)) (unRow p file) := by
  refine loop_C (rowStep_good hp.good file) ?_ (by ok_simp [mRow])
  intro s l as d hs ha hd
  unfold rowStep
  split
  · refine sub_C (Q := fun x => okN (mRow x)) unTrPr_C hd fun v hv => ?_
    ok_simp [mRow]
  · refine sub_C (Q := fun x => okN (mRow x)) (unCell_C hp file) hd fun v hv => ?_
    simp only [mRow, okN_el, okA_nil, okL_append, okL_optN, okL_map, true_and] at hs ⊢
    exact ⟨hs.1, push_C hs.2 hv⟩
  · exact hs

theorem unTable_C (hp : DecsC p) (file : Option DocId) : YC (fun x => okN (mTable x)) (unTable p file) := by
  refine loop_C (tableStep_good hp.good file) ?_ (by ok_simp [mTable])
  intro s l as d hs ha hd
  unfold tableStep
  split
  · refine sub_C (Q := fun x => okN (mTable x)) (unRow_C hp file) hd fun v hv => ?_
    simp only [mTable, okN_el, okA_nil, okL_append, okL_optN, okL_map, true_and] at hs ⊢
    exact ⟨hs.1, push_C hs.2 hv⟩
  · refine sub_C (Q := fun x => okN (mTable x)) unTblPr_C hd fun v hv => ?_
    ok_simp [mTable]
  · refine sub_C (Q := fun x => okN (mTable x)) (any_C _) hd fun v _ => ?_
    ok_simp [mTable, grid_ok]
  · exact hs

theorem unBody_C (hp : DecsC p) (file : Option DocId) {s : List BItem} (hs : ∀ x ∈ s, okN (mItem x)) :
    YC (fun l => ∀ x ∈ l, okN (mItem x)) (unBody p file s) := by
  refine loop_C (bodyStep_good hp.good file) ?_ hs
  intro s l as d hs ha hd
  unfold bodyStep
  split
  · exact sub_C (Q := fun l => ∀ x ∈ l, okN (mItem x)) (unPara_C hp file) hd fun v hv => push_C hs hv
  · exact sub_C (Q := fun l => ∀ x ∈ l, okN (mItem x)) (unTable_C hp file) hd fun v hv => push_C hs hv
  · exact sub_C (Q := fun l => ∀ x ∈ l, okN (mItem x)) unSect_C hd fun v hv => push_C hs hv
  · exact hs

theorem unDocument_C (hp : DecsC p) (file : Option DocId) {s : List BItem} (hs : ∀ x ∈ s, okN (mItem x)) :
    YC (fun l => ∀ x ∈ l, okN (mItem x)) (unDocument p file s) := by
  refine loop_C (documentStep_good hp.good file) ?_ hs
  intro s l as d hs ha hd
  unfold documentStep
  split
  · exact sub_C (Q := fun l => ∀ x ∈ l, okN (mItem x)) (unBody_C hp file hs) hd fun v hv => hv
  · exact hs

/-- What is decoded from good tokens has only good strings -/
theorem decodeDocument_C (file : Option DocId) {s : List BItem} (hs : ∀ x ∈ s, okN (mItem x)) (toks : List Tok)
    (h : okToks toks) : ∀ x ∈ (decodeDocument file s toks).val, okN (mItem x) := by
  unfold decodeDocument
  exact rootN_C (fun _ _ => decodeElement_C (unDocument_C (decs_C _) file hs)) hs _ _ h

theorem okN_document {items : List BItem} : okN (mDocument items) ↔ ∀ x ∈ items, okN (mItem x) := by
  have ha : okA docAttrs := by
    intro a ha
    simp only [docAttrs, List.mem_cons, List.not_mem_nil, or_false] at ha
    rcases ha with h | h | h | h | h | h <;> subst h <;> (unfold xmlText; decide +kernel)
  simp [mDocument, okN_el, okL_cons, okL_nil, okA_nil, okL_map, ha]

/-! ## Relationships -/

theorem unRelsN_C {P : Rel → Prop} (h : ∀ as, okA as → P (as.foldl relAttr ⟨"", "", "", ""⟩)) :
    ∀ (f : Nat) (s : List Rel) (d : Dec), (∀ r ∈ s, P r) → okToks d.rest → ∀ r ∈ (unRelsN f s d).val, P r := by
  intro f
  induction f with
  | zero => intro s d hs _; exact hs
  | succ f ih =>
    intro s d hs hd
    rw [unRelsN]
    rcases hk : d.token with ⟨t, d'⟩
    have hd' : okToks d'.rest := okToks_sfx (token_sfx' hk) hd
    cases t with
    | error e => exact hs
    | ok t =>
      cases t with
      | start q as =>
        simp only
        split
        · have hx := (reflTextN_good (d'.rest.length + 1) "" d').1
          simp only [unRel]
          rcases hr : reflTextN (d'.rest.length + 1) "" d' with ⟨v, e, d''⟩
          rw [hr] at hx
          cases e with
          | none => exact ih _ d'' (push_C hs (h as (token_okTok hk hd))) (okToks_sfx hx hd')
          | some e => exact hs
        · have hx := skip_sfx d'
          rcases hsk : d'.skip with ⟨e, d''⟩
          rw [hsk] at hx
          cases e with
          | none => exact ih s d'' hs (okToks_sfx hx hd')
          | some e => exact hs
      | stop q => exact hs
      | chars c => exact ih s d' hs hd'
      | other => exact ih s d' hs hd'
      | bad => exact ih s d' hs hd'

/-- A relationship has only good strings -/
def okRel (r : Rel) : Prop := xmlText r.id ∧ xmlText r.type ∧ xmlText r.target ∧ xmlText r.targetMode

theorem relAttr_C : ∀ (as : List Attr) (r : Rel), okA as → okRel r → okRel (as.foldl relAttr r) := by
  intro as
  induction as with
  | nil => intro r _ hr; exact hr
  | cons a as ih =>
    intro r ha hr
    have hv := (okA_cons.1 ha).1
    refine ih _ (okA_cons.1 ha).2 ?_
    unfold relAttr
    obtain ⟨h1, h2, h3, h4⟩ := hr
    split
    · exact ⟨hv, h2, h3, h4⟩
    · exact ⟨h1, hv, h3, h4⟩
    · exact ⟨h1, h2, hv, h4⟩
    · exact ⟨h1, h2, h3, hv⟩
    · exact ⟨h1, h2, h3, h4⟩

theorem relsXmlns_C : ∀ (as : List Attr) (x : String), okA as → xmlText x → xmlText (relsXmlns x as) := by
  intro as
  induction as with
  | nil => intro x _ hx; exact hx
  | cons a as ih =>
    intro x ha hx
    have := ih (if a.name.loc = "xmlns" then a.val else x) (okA_cons.1 ha).2
      (by split; exact (okA_cons.1 ha).1; exact hx)
    exact this

theorem decodeRels_C {x : String} {s : List Rel} (hx : xmlText x) (hs : ∀ r ∈ s, okRel r) (toks : List Tok)
    (h : okToks toks) : xmlText (decodeRels x s toks).val.1 ∧ ∀ r ∈ (decodeRels x s toks).val.2, okRel r := by
  unfold decodeRels
  refine rootN_C (P := fun v : String × List Rel => xmlText v.1 ∧ ∀ r ∈ v.2, okRel r) (fun as ha d hd => ?_) ⟨hx, hs⟩ _ _ h
  exact ⟨relsXmlns_C as x ha hx,
    unRelsN_C (fun as ha => relAttr_C as _ ha ⟨xmlText_nil, xmlText_nil, xmlText_nil, xmlText_nil⟩) _ s d hs hd⟩

/-! ## The lexer -/

theorem lexText_C {q : Option Char} {c : Bool} {rs rest : List Rune} {s : String}
    (h : lexText q c rs = some (s, rest)) : xmlText s := by
  unfold lexText at h
  split at h
  · cases h
  · split at h
    · cases h
    · split at h
      · next hall =>
        simp only [Option.some.injEq, Prod.mk.injEq] at h
        obtain ⟨rfl, rfl⟩ := h
        intro c hc
        rw [String.toList_ofList] at hc
        exact List.all_eq_true.1 hall c hc
      · cases h

theorem lexAttr_C {rs rest : List Rune} {a : Attr} (h : lexAttr rs = some (a, rest)) : xmlText a.val := by
  unfold lexAttr at h
  repeat' split at h
  all_goals first
    | (cases h; done)
    | (next hl => simp only [Option.some.injEq, Prod.mk.injEq] at h; obtain ⟨rfl, rfl⟩ := h; exact lexText_C hl)

theorem lexAttrs_C : ∀ (n : Nat) (as : List Attr) (rs : List Rune) (as' : List Attr) (b : Bool) (rest : List Rune),
    okA as → lexAttrs n as rs = some (as', b, rest) → okA as' := by
  intro n
  induction n with
  | zero => intro as rs as' b rest _ h; simp [lexAttrs] at h
  | succ n ih =>
    intro as rs as' b rest ha h
    rw [lexAttrs] at h
    split at h
    · cases h
    · simp only [Option.some.injEq, Prod.mk.injEq] at h; obtain ⟨rfl, _⟩ := h; exact ha
    · cases h
    · simp only [Option.some.injEq, Prod.mk.injEq] at h; obtain ⟨rfl, _⟩ := h; exact ha
    · split at h
      · next hl =>
        refine ih _ _ _ _ _ (okA_append.2 ⟨ha, okA_cons.2 ⟨lexAttr_C hl, okA_nil.2 trivial⟩⟩) h
      · cases h

theorem lexTok_C {rs rest : List Rune} {ts : List Tok} (h : lexTok rs = some (ts, rest)) : okToks ts := by
  have one : ∀ t, okTok t → okToks [t] := fun t ht x hx => by rw [List.mem_singleton.1 hx]; exact ht
  have hst : ∀ rs rest ts, lexStart rs = some (ts, rest) → okToks ts := by
    intro rs rest ts h
    unfold lexStart at h
    split at h
    · cases h
    · split at h
      · next hl =>
        simp only [Option.some.injEq, Prod.mk.injEq] at h; obtain ⟨rfl, _⟩ := h
        intro t ht
        simp only [List.mem_cons, List.not_mem_nil, or_false] at ht
        rcases ht with rfl | rfl
        · exact lexAttrs_C _ _ _ _ _ _ (okA_nil.2 trivial) hl
        · exact trivial
      · next hl =>
        simp only [Option.some.injEq, Prod.mk.injEq] at h; obtain ⟨rfl, _⟩ := h
        exact one _ (lexAttrs_C _ _ _ _ _ _ (okA_nil.2 trivial) hl)
      · cases h
  have hen : ∀ rs rest ts, lexEnd rs = some (ts, rest) → okToks ts := by
    intro rs rest ts h
    unfold lexEnd at h
    split at h
    · cases h
    · split at h
      · simp only [Option.some.injEq, Prod.mk.injEq] at h; obtain ⟨rfl, _⟩ := h; exact one _ trivial
      · cases h
  have hpi : ∀ rs rest ts, lexPI rs = some (ts, rest) → okToks ts := by
    intro rs rest ts h
    unfold lexPI at h
    split at h
    · cases h
    · split at h
      · cases h
      · split at h
        · cases h
        · simp only [Option.some.injEq, Prod.mk.injEq] at h; obtain ⟨rfl, _⟩ := h; exact one _ trivial
  unfold lexTok at h
  split at h
  · exact hen _ _ _ h
  · exact hpi _ _ _ h
  · split at h
    · simp only [Option.some.injEq, Prod.mk.injEq] at h; obtain ⟨rfl, _⟩ := h; exact one _ trivial
    · cases h
  · cases h
  · split at h
    · cases h
    · split at h
      · next hl =>
        simp only [Option.some.injEq, Prod.mk.injEq] at h; obtain ⟨rfl, _⟩ := h; exact one _ (lexText_C hl)
      · cases h
  · split at h
    · simp only [Option.some.injEq, Prod.mk.injEq] at h; obtain ⟨rfl, _⟩ := h; exact one _ trivial
    · cases h
  · exact hst _ _ _ h
  · split at h
    · next hl =>
      simp only [Option.some.injEq, Prod.mk.injEq] at h; obtain ⟨rfl, _⟩ := h; exact one _ (lexText_C hl)
    · cases h

theorem lexN_C : ∀ (n : Nat) (rs : List Rune), okToks (lexN n rs) := by
  intro n
  induction n with
  | zero => intro rs t ht; rw [lexN, List.mem_singleton] at ht; subst ht; exact trivial
  | succ n ih =>
    intro rs
    cases rs with
    | nil => intro t ht; rw [lexN] at ht; cases ht
    | cons r rs =>
      rw [lexN]
      split
      · intro t ht; rw [List.mem_singleton] at ht; subst ht; exact trivial
      · next hl =>
        intro t ht
        rcases List.mem_append.1 ht with h | h
        · exact lexTok_C hl t h
        · exact ih _ t h

/-- The tokens of any file have only characters XML allows. -/
theorem stream_C (s : Stream) : okToks s.toks := by
  have h : okToks (lex s.data) := lexN_C _ _
  unfold Stream.toks
  split
  · exact h
  · intro t ht
    rcases List.mem_append.1 ht with h' | h'
    · exact h t h'
    · rw [List.mem_singleton.1 h']; exact trivial

end Docx
