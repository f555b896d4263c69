import Verif.Lemmas.Yields
import Verif.Lemmas.RefsRun

/-!
# What is decoded from a file whose references resolve
-/

namespace Docx

set_option linter.unusedSectionVars false

variable [GoEnv] {ids : List String}

/-- All the references are among `ids` -/
abbrev RIn (ids : List String) (l : List String) : Prop := ∀ id ∈ l, id ∈ ids

theorem rin_nil : RIn ids [] := by intro id h; cases h
theorem rin_append {a b : List String} : RIn ids (a ++ b) ↔ RIn ids a ∧ RIn ids b := by
  simp only [RIn, List.mem_append]
  exact ⟨fun h => ⟨fun i hi => h i (.inl hi), fun i hi => h i (.inr hi)⟩,
    fun h i hi => hi.elim (h.1 i) (h.2 i)⟩
theorem rin_cons {a : String} {b : List String} : RIn ids (a :: b) ↔ a ∈ ids ∧ RIn ids b := by
  simp [RIn]

abbrev YR {α : Type} (ids : List String) (P : α → Prop) (u : Dec → Out α) : Prop := YieldsT (refStart ids) P u

theorem getAtt_in {as : List Attr} {l : String} (h : attrIn ids as l) : getAtt as l ∈ ids := by
  induction as with
  | nil => obtain ⟨⟨a, ha, _⟩, _⟩ := h; cases ha
  | cons a as ih =>
    rw [getAtt]
    split
    · rename_i heq
      exact h.2 a List.mem_cons_self (by simpa using heq)
    · rename_i heq
      refine ih ⟨?_, fun b hb => h.2 b (List.mem_cons_of_mem _ hb)⟩
      obtain ⟨⟨b, hb, hl⟩, _⟩ := h
      rcases List.mem_cons.1 hb with rfl | hb
      · exact absurd (by simpa using hl) heq
      · exact ⟨b, hb, hl⟩

theorem getAtt_none {as : List Attr} {l : String} (h : ∀ a ∈ as, a.name.loc ≠ l) : getAtt as l = "" := by
  induction as with
  | nil => rfl
  | cons a as ih =>
    rw [getAtt]
    split
    · rename_i heq
      exact absurd (by simpa using heq) (h a List.mem_cons_self)
    · exact ih fun b hb => h b (List.mem_cons_of_mem _ hb)

theorem linkID_in {as : List Attr} {old : String} (hne : "" ∉ ids)
    (h : attrIn ids as "id" ∧ ∀ a ∈ as, a.name.loc ≠ "anchor") : linkID as old ∈ ids := by
  have h1 := getAtt_in h.1
  have h2 : getAtt as "id" ≠ "" := fun e => hne (e ▸ h1)
  unfold linkID
  rw [getAtt_none h.2, if_neg (by simp), if_pos h2]
  exact h1

theorem blipAttrs_in : ∀ (as : List Attr) (s : Blip), (∀ a ∈ as, a.name.loc = "embed" → a.val ∈ ids) →
    (s.embed ∈ ids ∨ ∃ a ∈ as, a.name.loc = "embed") → (attrs blipAttr s as).1.embed ∈ ids := by
  intro as
  induction as with
  | nil =>
    intro s _ h
    rcases h with h | ⟨a, ha, _⟩
    · exact h
    · cases ha
  | cons a as ih =>
    intro s hv h
    rw [attrs]
    have hv' : ∀ b ∈ as, b.name.loc = "embed" → b.val ∈ ids := fun b hb => hv b (List.mem_cons_of_mem _ hb)
    by_cases hl : a.name.loc = "embed"
    · have : blipAttr s a.name.loc a.val = ({ s with embed := a.val }, none) := by rw [hl]; rfl
      rw [this]
      exact ih _ hv' (.inl (hv a List.mem_cons_self hl))
    · have : ∃ s', blipAttr s a.name.loc a.val = (s', none) ∧ s'.embed = s.embed := by
        unfold blipAttr; split
        · rename_i h; exact absurd h hl
        · exact ⟨_, rfl, rfl⟩
        · exact ⟨_, rfl, rfl⟩
      obtain ⟨s', hs', he⟩ := this
      rw [hs']
      refine ih s' hv' ?_
      rcases h with h | ⟨b, hb, hbl⟩
      · exact .inl (he ▸ h)
      · rcases List.mem_cons.1 hb with rfl | hb
        · exact absurd hbl hl
        · exact .inr ⟨b, hb, hbl⟩

theorem unBlip_R {s : Blip} {as : List Attr} (h : attrIn ids as "embed") :
    YR ids (fun b : Blip => b.embed ∈ ids) (unBlip s as) := by
  refine withAttrs_T (blipAttrs_in as s h.2 (.inr h.1)) ?_
  intro s hs
  refine loop_T (blipStep_good 0) ?_ hs
  intro s l as d hs _ _ _
  unfold blipStep
  split
  · simp only [flatInt]
    split
    · exact hs
    · split <;> exact hs
  · exact hs

theorem startsWith_iff {r : List Tok} {l : String} :
    startsWith l r ↔ ∃ q as r', r = .start q as :: r' ∧ q.loc = l := by
  constructor
  · intro h
    unfold startsWith at h
    split at h
    · exact ⟨_, _, _, rfl, h⟩
    · exact h.elim
  · rintro ⟨q, as, r', rfl, h⟩; exact h

theorem picFillStep_R : StepT (refStart ids) (fun s : BlipFill => s.blip.embed ∈ ids) picFillStep := by
  intro s l as d hs ho _ hd
  unfold picFillStep
  split
  · exact sub_T (unBlip_R (ho.2.1 rfl)) (Q := fun s : BlipFill => s.blip.embed ∈ ids) (fun v hv => hv) d hd
  · exact hs
  · exact hs

/-- The references of a picture -/
def PicR (ids : List String) (x : Picture) : Prop := RIn ids (refsOf (mPic x))

theorem unPic_R : YR ids (PicR ids) unPic := by
  refine loop_T (picStep_good 0) ?_ (by unfold PicR; rw [rf_mPic]; exact rin_nil)
  intro s l as d hs ho hf hd
  unfold PicR at hs
  rw [rf_mPic] at hs
  unfold picStep PicR
  split
  · rw [rf_mPic]; exact hs
  · have h := decodeFirst_T (T := refStart ids) (P := fun s : BlipFill => s.blip.embed ∈ ids)
      (step := picFillStep) (s0 := {}) (l := "blip") (picFillStep_good 0) picFillStep_R
      (fun as d ho _ hd => by
        exact sub_T (unBlip_R (ho.2.1 rfl)) (Q := fun s : BlipFill => s.blip.embed ∈ ids) (fun v hv => hv) d hd)
      (startsWith_iff.1 (ho.2.2 rfl)) hf hd
    rw [rf_mPic]
    intro id hid
    simp only [sub, Option.map_some, Option.toList_some, List.mem_singleton] at hid
    rw [hid]; exact h
  · rw [rf_mPic]; exact hs
  · rw [rf_mPic]; exact hs

theorem picR_rename {x : Picture} (h : PicR ids x) (n : String) : PicR ids { x with xmlPic := n } := by
  unfold PicR at *
  rw [rf_mPic] at *
  exact h

/-- The references of a fill -/
def ShapePrR (ids : List String) (x : ShapePr) : Prop := RIn ids (refsOfL (optN mABlipFill x.blipFill))

theorem unABlipFill_R (as : List Attr) : YR ids (fun x => RIn ids (refsOf (mABlipFill x))) (unABlipFill as) := by
  refine withAttrs_T (P := fun x => RIn ids (refsOf (mABlipFill x))) ?_ ?_
  · refine attrs_keepT (P := fun x => RIn ids (refsOf (mABlipFill x))) ?_ _ _
      (by simp only [rf_mABlipFill]; exact rin_nil)
    intro s l v hs
    simp only [rf_mABlipFill] at hs ⊢
    unfold aBlipFillAttr
    split <;> (try simp only [intAttr]) <;> exact hs
  · intro s hs
    refine loop_T (aBlipFillStep_good 0) ?_ hs
    intro s l as d hs ho _ hd
    simp only [rf_mABlipFill] at hs ⊢
    unfold aBlipFillStep
    split
    · refine sub_T (unBlip_R (ho.2.1 rfl))
        (Q := fun x : ABlipFill => RIn ids (x.blip.map (·.embed)).toList) (fun v hv => ?_) d hd
      simp only [Option.map_some, Option.toList_some, rin_cons]
      exact ⟨hv, rin_nil⟩
    · exact hs
    · exact hs
    · exact hs

theorem unShapePr_R (as : List Attr) : YR ids (ShapePrR ids) (unShapePr as) := by
  refine withAttrs_T ?_ ?_
  · refine attrs_keepT ?_ _ _ (by simp only [ShapePrR, optN, refsOfL]; exact rin_nil)
    intro s l v hs
    unfold shapePrAttr
    split <;> exact hs
  · intro s hs
    refine loop_T (shapePrStep_good 0) ?_ hs
    intro s l as d hs ho _ hd
    unfold shapePrStep
    split
    · exact hs
    · exact hs
    · exact hs
    · refine sub_T (unABlipFill_R as) (Q := ShapePrR ids) (fun v hv => ?_) d hd
      simp only [ShapePrR, optN, refsOfL, List.append_nil]; exact hv
    · exact hs
    · exact hs
    · exact hs

theorem optShapePr_R {pre loc : String} {v : ShapePr} (h : ShapePrR ids v) :
    RIn ids (refsOfL (optN (mShapePr pre loc) (some v))) := by
  simp only [optN, refsOfL, List.append_nil, rf_mShapePr]; exact h

/-! ## Recursive types -/

def RChildR (ids : List String) (x : RChild) : Prop := RIn ids (refsOf (mRChild x))
def RunR (ids : List String) (x : Run) : Prop := RIn ids (refsOf (mRun x))
def ParaR (ids : List String) (x : Para) : Prop := RIn ids (refsOf (mPara x))
def CanvasR (ids : List String) (x : Canvas) : Prop := RIn ids (refsOf (mCanvas x))
def ShapeR (ids : List String) (x : Shape) : Prop := RIn ids (refsOf (mShape x))

/-- The recursive decoders yield documents whose references are among `ids` -/
structure DecsR (ids : List String) (p : Decs) : Prop where
  good : DecsGood 0 p
  para : ∀ file, YR ids (ParaR ids) (p.para file)
  canvas : ∀ file, YR ids (CanvasR ids) (p.canvas file)
  parse : ∀ file r l as d, RunR ids r → refStart ids l as d.rest → OpenedT d → startsAll (refStart ids) d.rest →
    RunR ids (p.parse file r l as d).val.1 ∧ ∀ c, (p.parse file r l as d).val.2 = some c → RChildR ids c

variable {p : Decs}

theorem flatMap_push {α : Type} {f : α → List String} {l : List α} {a : α} (h : RIn ids (l.flatMap f))
    (ha : RIn ids (f a)) : RIn ids ((l ++ [a]).flatMap f) := by
  simp only [List.flatMap_append, List.flatMap_cons, List.flatMap_nil, List.append_nil, rin_append]
  exact ⟨h, ha⟩

theorem unTextBox_R (hp : DecsR ids p) (file : Option DocId) :
    YR ids (fun x => RIn ids (refsOf (mTextBox x))) (unTextBox p file) := by
  refine loop_T (textBoxStep_good hp.good file) ?_ (by simp only [mTextBox, refsOf_el, mContentO, refsOfL]; exact rin_nil)
  intro s l as d hs _ _ hd
  simp only [rf_mTextBox] at hs ⊢
  unfold textBoxStep
  split
  · refine sub_T (P := fun ps => RIn ids (refsOfL (mParas ps)))
      (Q := fun x : TextBox => RIn ids (refsOfL (mContentO x.content)))
      (loop_T (txbxContentStep_good hp.good file) ?_ ?_) (fun v hv => ?_) d hd
    · intro s l as d hs _ _ hd
      simp only [rf_mParas] at hs ⊢
      unfold txbxContentStep
      split
      · exact sub_T (hp.para file) (Q := fun s : List Para => RIn ids (s.flatMap fun c => refsOf (mPara c)))
          (by intro v hv; exact flatMap_push hs hv) d hd
      · exact hs
    · simp only [mParas, refsOfL]; exact rin_nil
    · simp only [mContentO, refsOfL, refsOf_el, refAttrs_nil, List.nil_append, List.append_nil]
      exact hv
  · exact hs

theorem unShape_R (hp : DecsR ids p) (file : Option DocId) : YR ids (ShapeR ids) (unShape p file) := by
  refine loop_T (shapeStep_good hp.good file) ?_ ?_
  · intro s l as d hs _ _ hd
    unfold ShapeR at hs ⊢
    simp only [rf_mShape, rin_append] at hs ⊢
    unfold shapeStep
    split
    · exact hs
    · exact hs
    · exact hs
    · exact sub_T (unShapePr_R as) (Q := fun s : Shape => RIn ids (refsOfL (optN (mShapePr "wps" "spPr") s.spPr)) ∧
        RIn ids (refsOfL (mTextBoxO s.textBox))) (by intro v hv; exact ⟨optShapePr_R hv, hs.2⟩) d hd
    · refine sub_T (unTextBox_R hp file) (Q := fun s : Shape => RIn ids (refsOfL (optN (mShapePr "wps" "spPr") s.spPr)) ∧
        RIn ids (refsOfL (mTextBoxO s.textBox))) ?_ d hd
      intro v hv
      refine ⟨hs.1, ?_⟩
      simp only [mTextBoxO, refsOfL, List.append_nil]; exact hv
    · exact hs
    · exact hs
  · simp only [ShapeR, rf_mShape, optN, mTextBoxO, refsOfL]; exact rin_nil

theorem unGroupShape_R (hp : DecsR ids p) (file : Option DocId) :
    YR ids (fun x => RIn ids (refsOf (mGroupShape x))) (unGroupShape p file) := by
  refine loop_T (groupShapeStep_good hp.good file) ?_ ?_
  · intro s l as d hs _ _ hd
    simp only [rf_mGroupShape, rin_append] at hs ⊢
    let Q : GroupShape → Prop := fun s => RIn ids (refsOfL (optN (mShapePr "wpg" "grpSpPr") s.grpSpPr)) ∧
        RIn ids (s.elems.flatMap fun c => refsOf (mGItem c))
    unfold groupShapeStep
    split
    · exact hs
    · exact hs
    · exact sub_T (unShapePr_R as) (Q := Q) (by intro v hv; exact ⟨optShapePr_R hv, hs.2⟩) d hd
    · exact sub_T unPic_R (Q := Q) (by intro v hv; exact ⟨hs.1, flatMap_push hs.2 (by simp only [mGItem]; exact hv)⟩) d hd
    · exact sub_T (unShape_R hp file) (Q := Q) (by intro v hv; exact ⟨hs.1, flatMap_push hs.2 (by simp only [mGItem]; exact hv)⟩) d hd
    · exact sub_T (hp.canvas file) (Q := Q) (by intro v hv; exact ⟨hs.1, flatMap_push hs.2 (by simp only [mGItem]; exact hv)⟩) d hd
    · exact hs
  · simp only [rf_mGroupShape, optN, refsOfL, List.flatMap_nil, List.append_nil]; exact rin_nil

theorem unGroup_R (hp : DecsR ids p) (file : Option DocId) :
    YR ids (fun x => RIn ids (refsOf (mGroup x))) (unGroup p file) := by
  refine loop_T (groupStep_good hp.good file) ?_ ?_
  · intro s l as d hs _ _ hd
    simp only [rf_mGroup, rin_append] at hs ⊢
    let Q : Group → Prop := fun s => RIn ids (refsOfL (optN (mShapePr "wpg" "grpSpPr") s.grpSpPr)) ∧
        RIn ids (s.elems.flatMap fun c => refsOf (mGItem c))
    unfold groupStep
    split
    · exact hs
    · exact sub_T (unShapePr_R as) (Q := Q) (by intro v hv; exact ⟨optShapePr_R hv, hs.2⟩) d hd
    · exact sub_T unPic_R (Q := Q) (by intro v hv; exact ⟨hs.1, flatMap_push hs.2 (by simp only [mGItem]; exact hv)⟩) d hd
    · exact sub_T (unShape_R hp file) (Q := Q) (by intro v hv; exact ⟨hs.1, flatMap_push hs.2 (by simp only [mGItem]; exact hv)⟩) d hd
    · exact sub_T (hp.canvas file) (Q := Q) (by intro v hv; exact ⟨hs.1, flatMap_push hs.2 (by simp only [mGItem]; exact hv)⟩) d hd
    · exact sub_T (unGroupShape_R hp file) (Q := Q) (by intro v hv; exact ⟨hs.1, flatMap_push hs.2 (by simp only [mGItem]; exact hv)⟩) d hd
    · exact hs
  · simp only [rf_mGroup, optN, refsOfL, List.flatMap_nil, List.append_nil]; exact rin_nil

theorem unCanvas_R (hp : DecsR ids p) (file : Option DocId) : YR ids (CanvasR ids) (unCanvas p file) := by
  refine loop_T (canvasStep_good hp.good file) ?_ ?_
  · intro s l as d hs _ _ hd
    unfold CanvasR at hs ⊢
    simp only [rf_mCanvas] at hs ⊢
    let Q : Canvas → Prop := fun s => RIn ids (s.items.flatMap fun c => refsOf (mCItem c))
    unfold canvasStep
    split
    · exact hs
    · exact hs
    · exact sub_T (unShape_R hp file) (Q := Q) (by intro v hv; exact flatMap_push hs (by simp only [mCItem]; exact hv)) d hd
    · exact sub_T unPic_R (Q := Q) (fun v hv => flatMap_push hs (by
        simp only [mCItem]; exact picR_rename hv _)) d hd
    · exact sub_T (unGroup_R hp file) (Q := Q) (by intro v hv; exact flatMap_push hs (by simp only [mCItem]; exact hv)) d hd
    · exact hs
  · simp only [CanvasR, rf_mCanvas, List.flatMap_nil]; exact rin_nil

/-- The references of the parts of graphic data -/
def GDataR (ids : List String) (x : GraphicData) : Prop :=
  RIn ids (refsOfL (optN mPic x.pic)) ∧ RIn ids (refsOfL (mShapeO x.shape)) ∧
    RIn ids (refsOfL (mCanvasO x.canvas)) ∧ RIn ids (refsOfL (mGroupO x.group))

theorem unGraphicData_R (hp : DecsR ids p) (file : Option DocId) (as : List Attr) :
    YR ids (GDataR ids) (unGraphicData p file as) := by
  refine withAttrs_T ?_ ?_
  · refine attrs_keepT ?_ _ _ ?_
    · intro s l v hs
      unfold graphicDataAttr
      split <;> exact hs
    · simp only [GDataR, optN, mShapeO, mCanvasO, mGroupO, refsOfL]
      exact ⟨rin_nil, rin_nil, rin_nil, rin_nil⟩
  · intro s hs
    refine loop_T (graphicDataStep_good hp.good file) ?_ hs
    intro s l as d hs _ _ hd
    obtain ⟨h1, h2, h3, h4⟩ := hs
    unfold graphicDataStep
    split
    · refine sub_T unPic_R (Q := GDataR ids) ?_ d hd
      intro v hv
      refine ⟨?_, h2, h3, h4⟩
      simp only [optN, refsOfL, List.append_nil]; exact picR_rename hv _
    · refine sub_T (unShape_R hp file) (Q := GDataR ids) ?_ d hd
      intro v hv
      refine ⟨h1, ?_, h3, h4⟩
      simp only [mShapeO, refsOfL, List.append_nil]; exact hv
    · refine sub_T (unCanvas_R hp file) (Q := GDataR ids) ?_ d hd
      intro v hv
      refine ⟨h1, h2, ?_, h4⟩
      simp only [mCanvasO, refsOfL, List.append_nil]; exact hv
    · refine sub_T (unGroup_R hp file) (Q := GDataR ids) ?_ d hd
      intro v hv
      refine ⟨h1, h2, h3, ?_⟩
      simp only [mGroupO, refsOfL, List.append_nil]; exact hv
    · exact ⟨h1, h2, h3, h4⟩

theorem unGraphic_R (hp : DecsR ids p) (file : Option DocId) (as : List Attr) :
    YR ids (fun x => RIn ids (refsOf (mGraphic x))) (unGraphic p file as) := by
  refine withAttrs_T (P := fun x => RIn ids (refsOf (mGraphic x))) ?_ ?_
  · refine attrs_keepT (P := fun x => RIn ids (refsOf (mGraphic x))) ?_ _ _ ?_
    · intro s l v hs
      simp only [rf_mGraphic] at hs ⊢
      unfold graphicAttr
      split <;> exact hs
    · simp only [rf_mGraphic, mGraphicDataO, refsOfL]; exact rin_nil
  · intro s hs
    refine loop_T (graphicStep_good hp.good file) ?_ hs
    intro s l as d hs _ _ hd
    simp only [rf_mGraphic] at hs ⊢
    unfold graphicStep
    split
    · refine sub_T (unGraphicData_R hp file as) (Q := fun s : Graphic => RIn ids (refsOfL (mGraphicDataO s.data)))
        (fun v hv => ?_) d hd
      simp only [mGraphicDataO, refsOfL, List.append_nil, rf_mGraphicData, rin_append]
      exact hv
    · exact hs

theorem unInline_R (hp : DecsR ids p) (file : Option DocId) (as : List Attr) :
    YR ids (fun x => RIn ids (refsOf (mInline x))) (unInline p file as) := by
  refine withAttrs_T (P := fun x => RIn ids (refsOf (mInline x))) ?_ ?_
  · refine attrs_keepT (P := fun x => RIn ids (refsOf (mInline x))) ?_ _ _ ?_
    · intro s l v hs
      simp only [rf_mInline] at hs ⊢
      unfold inlineAttr
      split <;> (try simp only [intAttr]) <;> exact hs
    · simp only [rf_mInline, mGraphicO, refsOfL]; exact rin_nil
  · intro s hs
    refine loop_T (inlineStep_good hp.good file) ?_ hs
    intro s l as d hs ho hf hd
    simp only [rf_mInline] at hs ⊢
    unfold inlineStep
    split <;> first
      | exact hs
      | (refine sub_T (unGraphic_R hp file as) (Q := fun s : Inline => RIn ids (refsOfL (mGraphicO s.graphic)))
          (fun v hv => ?_) d hd
         simp only [mGraphicO, refsOfL, List.append_nil]; exact hv)
      | (simp only [flatAttrs]; exact hs)

theorem unAnchor_R (hp : DecsR ids p) (file : Option DocId) (as : List Attr) :
    YR ids (fun x => RIn ids (refsOf (mAnchor x))) (unAnchor p file as) := by
  refine withAttrs_T (P := fun x => RIn ids (refsOf (mAnchor x))) ?_ ?_
  · refine attrs_keepT (P := fun x => RIn ids (refsOf (mAnchor x))) ?_ _ _ ?_
    · intro s l v hs
      simp only [rf_mAnchor] at hs ⊢
      unfold anchorAttr
      split <;> (try simp only [intAttr]) <;> exact hs
    · simp only [rf_mAnchor, mGraphicO, refsOfL]; exact rin_nil
  · intro s hs
    refine loop_T (anchorStep_good hp.good file) ?_ hs
    intro s l as d hs ho hf hd
    simp only [rf_mAnchor] at hs ⊢
    unfold anchorStep
    split <;> first
      | exact hs
      | (refine sub_T (unGraphic_R hp file as) (Q := fun s : Anchor => RIn ids (refsOfL (mGraphicO s.graphic)))
          (fun v hv => ?_) d hd
         simp only [mGraphicO, refsOfL, List.append_nil]; exact hv)
      | (simp only [flatAttrs]; exact hs)

theorem unDrawing_R (hp : DecsR ids p) (file : Option DocId) :
    YR ids (fun x => RIn ids (refsOf (mDrawing x))) (unDrawing p file) := by
  refine loop_T (drawingStep_good hp.good file) ?_ (by rw [rf_noDrawing]; exact rin_nil)
  intro s l as d hs _ _ hd
  simp only [rf_mDrawing, rin_append] at hs ⊢
  let Q : Drawing → Prop := fun x => RIn ids (refsOfL (mInlineO x.inl)) ∧ RIn ids (refsOfL (mAnchorO x.anchor))
  unfold drawingStep
  split
  · refine sub_T (unInline_R hp file as) (Q := Q) ?_ d hd
    intro v hv
    exact ⟨by simp only [mInlineO, refsOfL, List.append_nil]; exact hv, hs.2⟩
  · refine sub_T (unAnchor_R hp file as) (Q := Q) ?_ d hd
    intro v hv
    exact ⟨hs.1, by simp only [mAnchorO, refsOfL, List.append_nil]; exact hv⟩
  · exact hs

theorem runParse_R (hp : DecsR ids p) (file : Option DocId) (r : Run) (l : String)
    (as : List Attr) (d : Dec) (hr : RunR ids r) (hd : startsAll (refStart ids) d.rest) :
    RunR ids (runParse p file r l as d).val.1 ∧
      ∀ c, (runParse p file r l as d).val.2 = some c → RChildR ids c := by
  let G : Parsed → Prop := fun x => RunR ids x.1 ∧ ∀ c, x.2 = some c → RChildR ids c
  have hn : G (r, none) := ⟨hr, by intro c hc; cases hc⟩
  have hc : ∀ c, RChildR ids c → G (r, some c) :=
    fun c h => ⟨hr, by intro c' hc; cases hc; exact h⟩
  have hr' : ∀ x i, RunR ids { r with rpr := x, instr := i } := by
    intro x i
    unfold RunR at hr ⊢
    rw [rf_mRun] at hr ⊢
    exact hr
  change G (runParse p file r l as d).val
  unfold runParse
  split
  · exact ⟨hr' _ _, by intro c hc; cases hc⟩
  · exact ⟨hr' _ _, by intro c hc; cases hc⟩
  · exact hc _ (by unfold RChildR; simp only [mRChild, rf_mText]; exact rin_nil)
  · refine subStrict_T (unDrawing_R hp file) (Q := G) ?_ d hd
    intro v hv
    exact hc _ (by unfold RChildR; simp only [mRChild]; exact hv)
  · exact hc _ (by unfold RChildR; simp only [mRChild, rf_mTab]; exact rin_nil)
  · exact hc _ (by unfold RChildR; simp only [mRChild, rf_mBr]; exact rin_nil)
  · exact altN_T (PR := RunR ids) (PC := RChildR ids) (hp.parse file) _ r d hr hd
  · exact hn

theorem runStep_R (hp : DecsR ids p) (file : Option DocId) :
    StepT (refStart ids) (RunR ids) (runStep p file) := by
  intro s l as d hs _ _ hd
  have h := runParse_R hp file s l as d hs hd
  unfold runStep
  rcases hr : runParse p file s l as d with ⟨⟨r, c⟩, e, d'⟩
  rw [hr] at h
  cases e with
  | some e => exact h.1
  | none =>
    cases c with
    | none => exact h.1
    | some c =>
      have h1 := h.1
      have h2 := h.2 c rfl
      unfold RunR at h1 ⊢
      rw [rf_mRun] at h1 ⊢
      exact flatMap_push h1 h2

theorem unRun_R (hp : DecsR ids p) (file : Option DocId) {s : Run} (hs : RunR ids s)
    (as : List Attr) : YR ids (RunR ids) (unRun p file s as) := by
  refine withAttrs_T (attrs_keepT ?_ _ _ hs)
    (fun s hs => loop_T (runStep_good hp.good file) (runStep_R hp file) hs)
  intro s l v hs
  unfold runAttr
  split
  · unfold RunR at hs ⊢; rw [rf_mRun] at hs ⊢; exact hs
  · exact hs

theorem runR_empty : RunR ids {} := by unfold RunR; rw [rf_mRun]; exact rin_nil

theorem unLink_R (hp : DecsR ids p) : YR ids (fun x => RunR ids x.run) (unLink p) := by
  refine loop_T (hyperlinkStep_good hp.good) ?_ runR_empty
  intro s l as d hs _ _ hd
  unfold hyperlinkStep
  split
  · exact sub_T (unRun_R hp none hs as) (Q := fun x : Hyperlink => RunR ids x.run) (fun v hv => hv) d hd
  · exact hs

theorem unPara_R (hne : "" ∉ ids) (hp : DecsR ids p) (file : Option DocId) :
    YR ids (ParaR ids) (unPara p file) := by
  have h : YR ids (ParaR ids) (loop (paraStep p file) { file := file }) := by
    refine loop_T (paraStep_good hp.good file) ?_ (by unfold ParaR; rw [rf_mPara]; exact rin_nil)
    intro s l as d hs ho _ hd
    unfold ParaR at hs ⊢
    simp only [rf_mPara] at hs ⊢
    let Q : Para → Prop := fun x => RIn ids (x.children.flatMap fun c => refsOf (mPChild c))
    unfold paraStep
    split
    · exact sub_T (unLink_R hp) (Q := Q) (fun v hv => flatMap_push hs (by
        simp only [mPChild, rf_mLink, rin_cons]
        exact ⟨linkID_in hne (ho.1 rfl), hv⟩)) d hd
    · exact sub_T (unRun_R hp file runR_empty as) (Q := Q) (fun v hv => flatMap_push hs (by
        simp only [mPChild]; exact hv)) d hd
    · exact sub_T (Q := Q) (P := fun _ => True) (fun _ _ => trivial) (fun v hv => flatMap_push hs (by
        simp only [mPChild, rf_mRPr]; exact rin_nil)) d hd
    · exact hs
    · exact hs
  intro d hd
  have h1 := h d hd
  unfold unPara
  rcases hr : loop (paraStep p file) { file := file } d with ⟨v, e, d'⟩
  rw [hr] at h1
  cases e with
  | none => exact h1
  | some e =>
    unfold ParaR
    rw [rf_mPara]
    exact rin_nil

theorem decsGood_zeroR {k : Nat} (h : DecsGood k p) : DecsGood 0 p :=
  ⟨fun f => (h.para f).mono (Nat.zero_le _), fun f => (h.canvas f).mono (Nat.zero_le _),
    fun f r l as => (h.parse f r l as).mono (Nat.zero_le _)⟩

theorem decs_R (hne : "" ∉ ids) : ∀ k, DecsR ids (decs k)
  | 0 => {
      good := decs_good 0
      para := fun file d _ => by simp only [decs, ParaR, rf_mPara]; exact rin_nil
      canvas := fun file d _ => by simp only [decs, CanvasR, rf_mCanvas]; exact rin_nil
      parse := fun file r l as d hr _ _ _ => ⟨hr, by intro c hc; cases hc⟩ }
  | k + 1 => {
      good := decsGood_zeroR (decs_good (k + 1))
      para := fun file => unPara_R hne (decs_R hne k) file
      canvas := fun file => unCanvas_R (decs_R hne k) file
      parse := fun file r l as d hr _ _ hd => runParse_R (decs_R hne k) file r l as d hr hd }

theorem D_R (hne : "" ∉ ids) : DecsR ids D := by
  refine ⟨D_good 0, fun file d hd => ?_, fun file d hd => ?_, fun file r l as d hr ho hf hd => ?_⟩
  · have := (decs_R hne (d.rest.length + 1)).para file d hd
    simp only [D]; exact this
  · have := (decs_R hne (d.rest.length + 1)).canvas file d hd
    simp only [D]; exact this
  · have := (decs_R hne (d.rest.length + 1)).parse file r l as d hr ho hf hd
    simp only [D]; exact this

/-! ## Tables and documents -/

theorem unCell_R (hne : "" ∉ ids) (hp : DecsR ids p) (file : Option DocId) :
    YR ids (fun c : Cell => ∀ q ∈ c.paras, ParaR ids q) (unCell p file) := by
  refine loop_T (cellStep_good hp.good file) ?_ (by simp)
  intro s l as d hs _ _ hd
  unfold cellStep
  split
  · refine sub_T (unPara_R hne hp file) (Q := fun c : Cell => ∀ q ∈ c.paras, ParaR ids q) ?_ d hd
    intro v hv q hq
    rcases List.mem_append.1 hq with h | h
    · exact hs q h
    · rw [List.mem_singleton.1 h]; exact hv
  · exact hs
  · exact hs

theorem unRow_R (hne : "" ∉ ids) (hp : DecsR ids p) (file : Option DocId) :
    YR ids (fun r : Row => ∀ c ∈ r.cells, ∀ q ∈ c.paras, ParaR ids q) (unRow p file) := by
  refine loop_T (rowStep_good hp.good file) ?_ (fun _ h => by cases h)
  intro s l as d hs _ _ hd
  unfold rowStep
  split
  · exact hs
  · refine sub_T (unCell_R hne hp file) (Q := fun r : Row => ∀ c ∈ r.cells, ∀ q ∈ c.paras, ParaR ids q)
      (fun v hv q hq => ?_) d hd
    rcases List.mem_append.1 hq with h | h
    · exact hs q h
    · rw [List.mem_singleton.1 h]; exact hv
  · exact hs

theorem unTable_R (hne : "" ∉ ids) (hp : DecsR ids p) (file : Option DocId) :
    YR ids (fun t => ∀ r ∈ t.rows, ∀ c ∈ r.cells, ∀ q ∈ c.paras, ParaR ids q) (unTable p file) := by
  refine loop_T (tableStep_good hp.good file) ?_ (fun _ h => by cases h)
  intro s l as d hs _ _ hd
  unfold tableStep
  split
  · refine sub_T (unRow_R hne hp file)
      (Q := fun t : Table => ∀ r ∈ t.rows, ∀ c ∈ r.cells, ∀ q ∈ c.paras, ParaR ids q) ?_ d hd
    intro v hv q hq
    rcases List.mem_append.1 hq with h | h
    · exact hs q h
    · rw [List.mem_singleton.1 h]; exact hv
  · exact hs
  · exact hs
  · exact hs

/-- All references of the items are among `ids` -/
def BodyR (ids : List String) (items : List BItem) : Prop := ∀ x ∈ items, ItemRefs (· ∈ ids) x

theorem bodyR_append {s : List BItem} {i : BItem} (hs : BodyR ids s)
    (hi : ItemRefs (· ∈ ids) i) : BodyR ids (s ++ [i]) := by
  intro q hq
  rcases List.mem_append.1 hq with h | h
  · exact hs q h
  · rw [List.mem_singleton.1 h]; exact hi

theorem unBody_R (hne : "" ∉ ids) (hp : DecsR ids p) (file : Option DocId) {s : List BItem}
    (hs : BodyR ids s) : YR ids (BodyR ids) (unBody p file s) := by
  refine loop_T (bodyStep_good hp.good file) ?_ hs
  intro s l as d hs _ _ hd
  unfold bodyStep
  split
  · exact sub_T (unPara_R hne hp file) (Q := BodyR ids)
      (fun v hv => bodyR_append hs (itemRefs_para.2 hv)) d hd
  · exact sub_T (unTable_R hne hp file) (Q := BodyR ids)
      (fun v hv => bodyR_append hs (itemRefs_table.2 hv)) d hd
  · exact sub_T (P := fun _ => True) (fun _ _ => trivial) (Q := BodyR ids)
      (fun v _ => bodyR_append hs itemRefs_sect) d hd
  · exact hs

theorem unDocument_R (hne : "" ∉ ids) (hp : DecsR ids p) (file : Option DocId) {s : List BItem}
    (hs : BodyR ids s) : YR ids (BodyR ids) (unDocument p file s) := by
  refine loop_T (documentStep_good hp.good file) ?_ hs
  intro s l as d hs _ _ hd
  unfold documentStep
  split
  · exact sub_T (unBody_R hne hp file hs) (Q := BodyR ids) (fun v hv => hv) d hd
  · exact hs

/-- What is decoded from a file whose references are among `ids` refers only to those -/
theorem decodeDocument_R (hne : "" ∉ ids) (file : Option DocId) {s : List BItem} (hs : BodyR ids s)
    (toks : List Tok) (h : refToks ids toks) : BodyR ids (decodeDocument file s toks).val := by
  rw [decodeDocument_eq]
  exact rootN_T (fun _ => decodeElement_T (unDocument_R hne (D_R hne) file hs)) hs _ _ h

end Docx
