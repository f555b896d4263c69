import Verif.Lemmas.XmlText
import Verif.Marshal

/-!
# Everything the encoder writes can be read back
-/

namespace Docx

/-- A printable element -/
def ElemOk (n : Node) : Prop := n.printable = true ∧ n.isText = false

/-- Printable elements in a row -/
def ElemsOk (l : List Node) : Prop := ∀ n ∈ l, ElemOk n

/-- Attributes with plain names -/
def AttrsOk (l : List Attr) : Prop := ∀ a ∈ l, nameOk a.name = true

theorem ElemsOk.printable : ∀ {l : List Node}, ElemsOk l → printableL l = true
  | [], _ => rfl
  | n :: ns, h => by
    have h1 := h n (List.mem_cons_self ..)
    have h2 := ElemsOk.printable (l := ns) fun m hm => h m (List.mem_cons_of_mem _ hm)
    simp [printableL, h1.1, h1.2, h2]

theorem pok_nil : ElemsOk [] := by intro n h; cases h
theorem pok_cons {n : Node} {l : List Node} (h : ElemOk n) (hl : ElemsOk l) : ElemsOk (n :: l) := by
  intro m hm
  rcases List.mem_cons.mp hm with rfl | hm
  · exact h
  · exact hl m hm
theorem pok_append {l k : List Node} (h : ElemsOk l) (hk : ElemsOk k) : ElemsOk (l ++ k) := by
  intro m hm
  rcases List.mem_append.mp hm with hm | hm
  · exact h m hm
  · exact hk m hm
theorem pok_optN {α : Type} {f : α → Node} (h : ∀ a, ElemOk (f a)) (o : Option α) : ElemsOk (optN f o) := by
  cases o with
  | none => exact pok_nil
  | some a => exact pok_cons (h a) pok_nil
theorem pok_map {α : Type} {f : α → Node} (h : ∀ a, ElemOk (f a)) (l : List α) : ElemsOk (l.map f) := by
  intro m hm
  obtain ⟨a, _, rfl⟩ := List.mem_map.mp hm
  exact h a
theorem pok_flatMap {α : Type} {f : α → List Node} (h : ∀ a, ElemsOk (f a)) (l : List α) :
    ElemsOk (l.flatMap f) := by
  intro m hm
  obtain ⟨a, _, ha⟩ := List.mem_flatMap.mp hm
  exact h a m ha
theorem pok_el {pre loc : String} {as : List Attr} {kids : List Node} (hn : nameOk ⟨pre, loc⟩ = true)
    (ha : AttrsOk as) (hk : ElemsOk kids) : ElemOk (el pre loc as kids) := by
  refine ⟨?_, rfl⟩
  simp only [el, Node.printable, Bool.and_eq_true, List.all_eq_true]
  exact ⟨⟨hn, ha⟩, hk.printable⟩
theorem pok_text {pre loc : String} {as : List Attr} {s : String} (hn : nameOk ⟨pre, loc⟩ = true)
    (ha : AttrsOk as) (hs : s ≠ "") : ElemOk (el pre loc as [.text s]) := by
  refine ⟨?_, rfl⟩
  simp only [el, Node.printable, Bool.and_eq_true, List.all_eq_true]
  exact ⟨⟨hn, ha⟩, by simp [printableL, Node.printable, hs]⟩
theorem pat_nil : AttrsOk [] := by intro n h; cases h
theorem pat_append {l k : List Attr} (h : AttrsOk l) (hk : AttrsOk k) : AttrsOk (l ++ k) := by
  intro m hm
  rcases List.mem_append.mp hm with hm | hm
  · exact h m hm
  · exact hk m hm
theorem pat_strA {pre loc v : String} (h : nameOk ⟨pre, loc⟩ = true) : AttrsOk (strA pre loc v) := by
  intro a ha
  rcases List.mem_singleton.mp ha with rfl
  exact h
theorem pat_strO {pre loc v : String} (h : nameOk ⟨pre, loc⟩ = true) : AttrsOk (strO pre loc v) := by
  unfold strO
  split
  · exact pat_nil
  · exact pat_strA (v := v) h
theorem pat_intA {pre loc : String} {n : Int64} (h : nameOk ⟨pre, loc⟩ = true) : AttrsOk (intA pre loc n) :=
  pat_strA (v := itoa n) h
theorem pat_intO {pre loc : String} {n : Int64} (h : nameOk ⟨pre, loc⟩ = true) : AttrsOk (intO pre loc n) := by
  unfold intO
  split
  · exact pat_nil
  · exact pat_strA (v := itoa n) h
theorem pok_flagN {b : Bool} {pre loc : String} (h : nameOk ⟨pre, loc⟩ = true) : ElemsOk (flagN b pre loc) := by
  unfold flagN
  split
  · exact pok_cons (pok_el h pat_nil pok_nil) pok_nil
  · exact pok_nil
theorem pok_valN {loc : String} {o : Option String} (h : nameOk ⟨"w", loc⟩ = true) : ElemsOk (valN loc o) := by
  cases o with
  | none => exact pok_nil
  | some v => exact pok_cons (pok_el h (pat_strA (by decide)) pok_nil) pok_nil
theorem pok_valO {loc : String} {o : Option String} (h : nameOk ⟨"w", loc⟩ = true) : ElemsOk (valO loc o) := by
  cases o with
  | none => exact pok_nil
  | some v => exact pok_cons (pok_el h (pat_strO (by decide)) pok_nil) pok_nil
theorem pok_valI {loc : String} {o : Option Int64} (h : nameOk ⟨"w", loc⟩ = true) : ElemsOk (valI loc o) := by
  cases o with
  | none => exact pok_nil
  | some v => exact pok_cons (pok_el h (pat_intA (by decide)) pok_nil) pok_nil

/-- Take an element apart -/
macro "pr" : tactic => `(tactic| repeat' first
  | with_reducible assumption | with_reducible exact pok_nil | with_reducible exact pat_nil | (with_reducible refine id (α := nameOk _ = true) ?_; decide)
  | with_reducible refine pok_el ?_ ?_ ?_ | with_reducible refine pok_append ?_ ?_ | with_reducible refine pok_cons ?_ ?_ | with_reducible refine pok_valN ?_
  | with_reducible refine pok_valO ?_ | with_reducible refine pok_valI ?_ | with_reducible refine pok_flagN ?_ | with_reducible refine pat_append ?_ ?_
  | with_reducible refine pat_strA ?_ | with_reducible refine pat_strO ?_ | with_reducible refine pat_intA ?_ | with_reducible refine pat_intO ?_
  | with_reducible refine pok_optN ?_ _ | with_reducible refine pok_map ?_ _ | with_reducible refine pok_flatMap ?_ _)

theorem itoa_ne_empty (n : Int64) : itoa n ≠ "" := by
  intro h
  have h2 : (itoa n).toList = [] := by rw [h]; rfl
  have hr : ∀ m k, natRepF m k ≠ [] := by
    intro m k
    cases m with
    | zero => simp [natRepF]
    | succ m => rw [natRepF]; split <;> simp
  rw [itoa, String.toList_ofList, intRep] at h2
  split at h2
  · cases h2
  · exact hr _ _ h2

theorem pok_mShade (s : Shade) : ElemOk (mShade s) := by
  unfold mShade
  pr
  all_goals first | (intro _; pr)

theorem pok_mSpacing (s : Spacing) : ElemOk (mSpacing s) := by
  unfold mSpacing
  pr
  all_goals first | (intro _; pr)

theorem pok_mInd (s : Ind) : ElemOk (mInd s) := by
  unfold mInd
  pr
  all_goals first | (intro _; pr)

theorem pok_mTab (t : Tab) : ElemOk (mTab t) := by
  unfold mTab
  pr
  all_goals first | (intro _; pr)

theorem pok_mTabs (ts : List Tab) : ElemOk (mTabs ts) := by
  unfold mTabs
  pr
  all_goals first | with_reducible exact pok_mTab _ | with_reducible exact pok_mTab | (intro _; pr)

theorem pok_mRunFonts (f : RunFonts) : ElemOk (mRunFonts f) := by
  unfold mRunFonts
  pr
  all_goals first | (intro _; pr)

theorem pok_mRPr (r : RPr) : ElemOk (mRPr r) := by
  unfold mRPr
  pr
  all_goals first | with_reducible exact pok_mShade _ | with_reducible exact pok_mShade | with_reducible exact pok_mSpacing _ | with_reducible exact pok_mSpacing | with_reducible exact pok_mRunFonts _ | with_reducible exact pok_mRunFonts | (intro _; pr)

theorem pok_mNumPr (n : NumPr) : ElemOk (mNumPr n) := by
  unfold mNumPr
  pr
  all_goals first | (intro _; pr)

theorem pok_mPPr (p : PPr) : ElemOk (mPPr p) := by
  unfold mPPr
  pr
  all_goals first | with_reducible exact pok_mShade _ | with_reducible exact pok_mShade | with_reducible exact pok_mSpacing _ | with_reducible exact pok_mSpacing | with_reducible exact pok_mInd _ | with_reducible exact pok_mInd | with_reducible exact pok_mTabs _ | with_reducible exact pok_mTabs | with_reducible exact pok_mRPr _ | with_reducible exact pok_mRPr | with_reducible exact pok_mNumPr _ | with_reducible exact pok_mNumPr | (intro _; pr)

theorem pok_mBr (b : Br) : ElemOk (mBr b) := by
  unfold mBr
  pr
  all_goals first | (intro _; pr)

theorem pok_mText (t : Text) : ElemOk (mText t) := by
  unfold mText textN
  split
  · pr
  · rename_i h
    exact pok_text (by decide) (pat_strO (by decide)) h

theorem pok_mExtent (e : Ext) : ElemOk (mExtent e) := by
  unfold mExtent
  pr
  all_goals first | (intro _; pr)

theorem pok_mEffectExtent (e : EffectExtent) : ElemOk (mEffectExtent e) := by
  unfold mEffectExtent
  pr
  all_goals first | (intro _; pr)

theorem pok_mDocPr (n : IdName) : ElemOk (mDocPr n) := by
  unfold mDocPr
  pr
  all_goals first | (intro _; pr)

theorem pok_mFramePr (f : FrameLocks) : ElemOk (mFramePr f) := by
  unfold mFramePr
  pr
  all_goals first | (intro _; pr)

theorem pok_mIdName {pre : String} (h : nameOk ⟨pre, "cNvPr"⟩ = true) (n : IdName) : ElemOk (mIdName pre n) := by
  unfold mIdName
  pr
  all_goals first | (intro _; pr)

theorem pok_mCNvPicPr (l : Option Int64) : ElemOk (mCNvPicPr l) := by
  unfold mCNvPicPr
  pr
  all_goals first | (intro _; pr)

theorem pok_mNvPicPr (n : NvPicPr) : ElemOk (mNvPicPr n) := by
  unfold mNvPicPr
  pr
  all_goals first | (with_reducible refine pok_mIdName ?_ _; decide) | (with_reducible refine pok_mIdName ?_; decide) | with_reducible exact pok_mCNvPicPr _ | with_reducible exact pok_mCNvPicPr | (intro _; pr)

theorem pok_mBlip (b : Blip) : ElemOk (mBlip b) := by
  unfold mBlip
  pr
  all_goals first | (intro _; pr)

theorem pok_mPicFill (f : BlipFill) : ElemOk (mPicFill f) := by
  unfold mPicFill
  pr
  all_goals first | with_reducible exact pok_mBlip _ | with_reducible exact pok_mBlip | (intro _; pr)

theorem pok_mOff {loc : String} (h : nameOk ⟨"a", loc⟩ = true) (o : Off) : ElemOk (mOff loc o) := by
  unfold mOff
  pr
  all_goals first | (intro _; pr)

theorem pok_mExt {loc : String} (h : nameOk ⟨"a", loc⟩ = true) (e : Ext) : ElemOk (mExt loc e) := by
  unfold mExt
  pr
  all_goals first | (intro _; pr)

theorem pok_mXfrm (x : Xfrm) : ElemOk (mXfrm x) := by
  unfold mXfrm
  pr
  all_goals first | (with_reducible refine pok_mOff ?_ _; decide) | (with_reducible refine pok_mOff ?_; decide) | (with_reducible refine pok_mExt ?_ _; decide) | (with_reducible refine pok_mExt ?_; decide) | (intro _; pr)

theorem pok_mPrstGeom (g : PrstGeom) : ElemOk (mPrstGeom g) := by
  unfold mPrstGeom
  pr
  all_goals first | (intro _; pr)

theorem pok_mPicSpPr (s : PicSpPr) : ElemOk (mPicSpPr s) := by
  unfold mPicSpPr
  pr
  all_goals first | with_reducible exact pok_mXfrm _ | with_reducible exact pok_mXfrm | with_reducible exact pok_mPrstGeom _ | with_reducible exact pok_mPrstGeom | (intro _; pr)

theorem pok_mPic (p : Picture) : ElemOk (mPic p) := by
  unfold mPic
  pr
  all_goals first | with_reducible exact pok_mNvPicPr _ | with_reducible exact pok_mNvPicPr | with_reducible exact pok_mPicFill _ | with_reducible exact pok_mPicFill | with_reducible exact pok_mPicSpPr _ | with_reducible exact pok_mPicSpPr | (intro _; pr)

theorem pok_mSimplePos (o : Off) : ElemOk (mSimplePos o) := by
  unfold mSimplePos
  pr
  all_goals first | (intro _; pr)

theorem pok_mPosition {loc : String} (h : nameOk ⟨"wp", loc⟩ = true) (p : Position) : ElemOk (mPosition loc p) := by
  unfold mPosition
  exact pok_el h (pat_strA (by decide)) (pok_cons (pok_text (by decide) pat_nil (itoa_ne_empty _)) pok_nil)

theorem pok_mTile (t : Tile) : ElemOk (mTile t) := by
  unfold mTile
  pr
  all_goals first | (intro _; pr)

theorem pok_mABlipFill (f : ABlipFill) : ElemOk (mABlipFill f) := by
  unfold mABlipFill
  pr
  all_goals first | with_reducible exact pok_mBlip _ | with_reducible exact pok_mBlip | with_reducible exact pok_mTile _ | with_reducible exact pok_mTile | (intro _; pr)

theorem pok_mSolidFill (c : Option String) : ElemOk (mSolidFill c) := by
  unfold mSolidFill
  pr
  all_goals first | (intro _; pr)

theorem pok_mLineEnd {loc : String} (h : nameOk ⟨"a", loc⟩ = true) (e : LineEnd) : ElemOk (mLineEnd loc e) := by
  unfold mLineEnd
  pr
  all_goals first | (intro _; pr)

theorem pok_mLine (l : Line) : ElemOk (mLine l) := by
  unfold mLine
  pr
  all_goals first | with_reducible exact pok_mSolidFill _ | with_reducible exact pok_mSolidFill | (with_reducible refine pok_mLineEnd ?_ _; decide) | (with_reducible refine pok_mLineEnd ?_; decide) | (intro _; pr)

theorem pok_mShapePr {pre loc : String} (h : nameOk ⟨pre, loc⟩ = true) (s : ShapePr) : ElemOk (mShapePr pre loc s) := by
  unfold mShapePr
  pr
  all_goals first | with_reducible exact pok_mXfrm _ | with_reducible exact pok_mXfrm | with_reducible exact pok_mPrstGeom _ | with_reducible exact pok_mPrstGeom | with_reducible exact pok_mABlipFill _ | with_reducible exact pok_mABlipFill | with_reducible exact pok_mSolidFill _ | with_reducible exact pok_mSolidFill | with_reducible exact pok_mLine _ | with_reducible exact pok_mLine | (intro _; pr)

theorem pok_mCNvCnPr (b : Bool) : ElemOk (mCNvCnPr b) := by
  unfold mCNvCnPr
  pr
  all_goals first | (intro _; pr)

theorem pok_mCNvSpPr (s : CNvSpPr) : ElemOk (mCNvSpPr s) := by
  unfold mCNvSpPr
  pr
  all_goals first | (intro _; pr)

theorem pok_mBodyPr (b : BodyPr) : ElemOk (mBodyPr b) := by
  unfold mBodyPr
  pr
  all_goals first | (intro _; pr)

theorem pok_mBackground (b : Bool) : ElemOk (mBackground b) := by
  unfold mBackground
  pr
  all_goals first | (intro _; pr)

theorem pok_mWhole (l : Option Line) : ElemOk (mWhole l) := by
  unfold mWhole
  pr
  all_goals first | with_reducible exact pok_mLine _ | with_reducible exact pok_mLine | (intro _; pr)

theorem pok_mCNvGrpSpPr (b : Bool) : ElemOk (mCNvGrpSpPr b) := by
  unfold mCNvGrpSpPr
  pr
  all_goals first | (intro _; pr)


mutual
theorem pok_mPara : ∀ x : Para, ElemOk (mPara x)
  | ⟨props, children, _⟩ => by
    rw [mPara]
    have hr0 := pok_mPChildren children
    pr
    all_goals first | with_reducible exact pok_mPPr _ | with_reducible exact pok_mPPr | (intro _; pr)
theorem pok_mPChildren : ∀ x : List PChild, ElemsOk (mPChildren x)
  | [] => by
    rw [mPChildren]
    pr
    all_goals first | (intro _; pr)
  | c :: cs => by
    rw [mPChildren]
    have hr0 := pok_mPChildren cs
    have hr1 := pok_mPChild c
    pr
    all_goals first | (intro _; pr)
theorem pok_mPChild : ∀ x : PChild, ElemOk (mPChild x)
  | .run r => by
    rw [mPChild]
    have hr0 := pok_mRun r
    pr
    all_goals first | (intro _; pr)
  | .link h => by
    rw [mPChild]
    have hr0 := pok_mLink h
    pr
    all_goals first | (intro _; pr)
  | .rpr p => by
    rw [mPChild]
    pr
    all_goals first | with_reducible exact pok_mRPr _ | with_reducible exact pok_mRPr | (intro _; pr)
theorem pok_mLink : ∀ x : Hyperlink, ElemOk (mLink x)
  | ⟨id, run⟩ => by
    rw [mLink]
    have hr0 := pok_mRun run
    pr
    all_goals first | (intro _; pr)
theorem pok_mRun : ∀ x : Run, ElemOk (mRun x)
  | ⟨space, rpr, instr, children⟩ => by
    rw [mRun]
    refine pok_el (by decide) (pat_strO (by decide)) (pok_append (pok_append (pok_optN pok_mRPr _) ?_) (pok_mRChildren children))
    split
    · exact pok_nil
    · rename_i h
      exact pok_cons (pok_text (by decide) pat_nil h) pok_nil
theorem pok_mRChildren : ∀ x : List RChild, ElemsOk (mRChildren x)
  | [] => by
    rw [mRChildren]
    pr
    all_goals first | (intro _; pr)
  | c :: cs => by
    rw [mRChildren]
    have hr0 := pok_mRChildren cs
    have hr1 := pok_mRChild c
    pr
    all_goals first | (intro _; pr)
theorem pok_mRChild : ∀ x : RChild, ElemOk (mRChild x)
  | .text t => by
    rw [mRChild]
    pr
    all_goals first | with_reducible exact pok_mText _ | with_reducible exact pok_mText | (intro _; pr)
  | .tab t => by
    rw [mRChild]
    pr
    all_goals first | with_reducible exact pok_mTab _ | with_reducible exact pok_mTab | (intro _; pr)
  | .br b => by
    rw [mRChild]
    pr
    all_goals first | with_reducible exact pok_mBr _ | with_reducible exact pok_mBr | (intro _; pr)
  | .drawing d => by
    rw [mRChild]
    have hr0 := pok_mDrawing d
    pr
    all_goals first | (intro _; pr)
theorem pok_mDrawing : ∀ x : Drawing, ElemOk (mDrawing x)
  | ⟨inl, anchor⟩ => by
    rw [mDrawing]
    have hr0 := pok_mInlineO inl
    have hr1 := pok_mAnchorO anchor
    pr
    all_goals first | (intro _; pr)
theorem pok_mInlineO : ∀ x : Option Inline, ElemsOk (mInlineO x)
  | none => by
    rw [mInlineO]
    pr
    all_goals first | (intro _; pr)
  | some i => by
    rw [mInlineO]
    have hr0 := pok_mInline i
    pr
    all_goals first | (intro _; pr)
theorem pok_mAnchorO : ∀ x : Option Anchor, ElemsOk (mAnchorO x)
  | none => by
    rw [mAnchorO]
    pr
    all_goals first | (intro _; pr)
  | some a => by
    rw [mAnchorO]
    have hr0 := pok_mAnchor a
    pr
    all_goals first | (intro _; pr)
theorem pok_mInline : ∀ x : Inline, ElemOk (mInline x)
  | ⟨distT, distB, distL, distR, extent, effectExtent, docPr, framePr, graphic, _⟩ => by
    rw [mInline]
    have hr0 := pok_mGraphicO graphic
    pr
    all_goals first | with_reducible exact pok_mExtent _ | with_reducible exact pok_mExtent | with_reducible exact pok_mEffectExtent _ | with_reducible exact pok_mEffectExtent | with_reducible exact pok_mDocPr _ | with_reducible exact pok_mDocPr | with_reducible exact pok_mFramePr _ | with_reducible exact pok_mFramePr | (intro _; pr)
theorem pok_mAnchor : ∀ x : Anchor, ElemOk (mAnchor x)
  | ⟨distT, distB, distL, distR, simplePos, relativeHeight, behindDoc, locked, layoutInCell, allowOverlap, simplePosXY, positionH, positionV, extent, effectExtent, wrapNone, wrapSquare, docPr, framePr, graphic, _⟩ => by
    rw [mAnchor]
    have hr0 := pok_mGraphicO graphic
    pr
    all_goals first | with_reducible exact pok_mExtent _ | with_reducible exact pok_mExtent | with_reducible exact pok_mEffectExtent _ | with_reducible exact pok_mEffectExtent | with_reducible exact pok_mDocPr _ | with_reducible exact pok_mDocPr | with_reducible exact pok_mFramePr _ | with_reducible exact pok_mFramePr | with_reducible exact pok_mSimplePos _ | with_reducible exact pok_mSimplePos | (with_reducible refine pok_mPosition ?_ _; decide) | (with_reducible refine pok_mPosition ?_; decide) | (intro _; pr)
theorem pok_mGraphicO : ∀ x : Option Graphic, ElemsOk (mGraphicO x)
  | none => by
    rw [mGraphicO]
    pr
    all_goals first | (intro _; pr)
  | some g => by
    rw [mGraphicO]
    have hr0 := pok_mGraphic g
    pr
    all_goals first | (intro _; pr)
theorem pok_mGraphic : ∀ x : Graphic, ElemOk (mGraphic x)
  | ⟨xmlA, data⟩ => by
    rw [mGraphic]
    have hr0 := pok_mGraphicDataO data
    pr
    all_goals first | (intro _; pr)
theorem pok_mGraphicDataO : ∀ x : Option GraphicData, ElemsOk (mGraphicDataO x)
  | none => by
    rw [mGraphicDataO]
    pr
    all_goals first | (intro _; pr)
  | some g => by
    rw [mGraphicDataO]
    have hr0 := pok_mGraphicData g
    pr
    all_goals first | (intro _; pr)
theorem pok_mGraphicData : ∀ x : GraphicData, ElemOk (mGraphicData x)
  | ⟨uri, pic, shape, canvas, group⟩ => by
    rw [mGraphicData]
    have hr0 := pok_mShapeO shape
    have hr1 := pok_mCanvasO canvas
    have hr2 := pok_mGroupO group
    pr
    all_goals first | with_reducible exact pok_mPic _ | with_reducible exact pok_mPic | (intro _; pr)
theorem pok_mShapeO : ∀ x : Option Shape, ElemsOk (mShapeO x)
  | none => by
    rw [mShapeO]
    pr
    all_goals first | (intro _; pr)
  | some s => by
    rw [mShapeO]
    have hr0 := pok_mShape s
    pr
    all_goals first | (intro _; pr)
theorem pok_mCanvasO : ∀ x : Option Canvas, ElemsOk (mCanvasO x)
  | none => by
    rw [mCanvasO]
    pr
    all_goals first | (intro _; pr)
  | some c => by
    rw [mCanvasO]
    have hr0 := pok_mCanvas c
    pr
    all_goals first | (intro _; pr)
theorem pok_mGroupO : ∀ x : Option Group, ElemsOk (mGroupO x)
  | none => by
    rw [mGroupO]
    pr
    all_goals first | (intro _; pr)
  | some g => by
    rw [mGroupO]
    have hr0 := pok_mGroup g
    pr
    all_goals first | (intro _; pr)
theorem pok_mShape : ∀ x : Shape, ElemOk (mShape x)
  | ⟨cNvPr, cNvCnPr, cNvSpPr, spPr, textBox, bodyPr⟩ => by
    rw [mShape]
    have hr0 := pok_mTextBoxO textBox
    pr
    all_goals first | (with_reducible refine pok_mIdName ?_ _; decide) | (with_reducible refine pok_mIdName ?_; decide) | (with_reducible refine pok_mShapePr ?_ _; decide) | (with_reducible refine pok_mShapePr ?_; decide) | with_reducible exact pok_mCNvCnPr _ | with_reducible exact pok_mCNvCnPr | with_reducible exact pok_mCNvSpPr _ | with_reducible exact pok_mCNvSpPr | with_reducible exact pok_mBodyPr _ | with_reducible exact pok_mBodyPr | (intro _; pr)
theorem pok_mTextBoxO : ∀ x : Option TextBox, ElemsOk (mTextBoxO x)
  | none => by
    rw [mTextBoxO]
    pr
    all_goals first | (intro _; pr)
  | some t => by
    rw [mTextBoxO]
    have hr0 := pok_mTextBox t
    pr
    all_goals first | (intro _; pr)
theorem pok_mTextBox : ∀ x : TextBox, ElemOk (mTextBox x)
  | ⟨content⟩ => by
    rw [mTextBox]
    have hr0 := pok_mContentO content
    pr
    all_goals first | (intro _; pr)
theorem pok_mContentO : ∀ x : Option (List Para), ElemsOk (mContentO x)
  | none => by
    rw [mContentO]
    pr
    all_goals first | (intro _; pr)
  | some ps => by
    rw [mContentO]
    have hr0 := pok_mParas ps
    pr
    all_goals first | (intro _; pr)
theorem pok_mParas : ∀ x : List Para, ElemsOk (mParas x)
  | [] => by
    rw [mParas]
    pr
    all_goals first | (intro _; pr)
  | p :: ps => by
    rw [mParas]
    have hr0 := pok_mPara p
    have hr1 := pok_mParas ps
    pr
    all_goals first | (intro _; pr)
theorem pok_mCanvas : ∀ x : Canvas, ElemOk (mCanvas x)
  | ⟨background, whole, items⟩ => by
    rw [mCanvas]
    have hr0 := pok_mCItems items
    pr
    all_goals first | with_reducible exact pok_mBackground _ | with_reducible exact pok_mBackground | with_reducible exact pok_mWhole _ | with_reducible exact pok_mWhole | (intro _; pr)
theorem pok_mCItems : ∀ x : List CItem, ElemsOk (mCItems x)
  | [] => by
    rw [mCItems]
    pr
    all_goals first | (intro _; pr)
  | c :: cs => by
    rw [mCItems]
    have hr0 := pok_mCItems cs
    have hr1 := pok_mCItem c
    pr
    all_goals first | (intro _; pr)
theorem pok_mCItem : ∀ x : CItem, ElemOk (mCItem x)
  | .shape s => by
    rw [mCItem]
    have hr0 := pok_mShape s
    pr
    all_goals first | (intro _; pr)
  | .pic p => by
    rw [mCItem]
    pr
    all_goals first | with_reducible exact pok_mPic _ | with_reducible exact pok_mPic | (intro _; pr)
  | .group g => by
    rw [mCItem]
    have hr0 := pok_mGroup g
    pr
    all_goals first | (intro _; pr)
theorem pok_mGroup : ∀ x : Group, ElemOk (mGroup x)
  | ⟨cNvGrpSpPr, grpSpPr, elems⟩ => by
    rw [mGroup]
    have hr0 := pok_mGItems elems
    pr
    all_goals first | (with_reducible refine pok_mShapePr ?_ _; decide) | (with_reducible refine pok_mShapePr ?_; decide) | with_reducible exact pok_mCNvGrpSpPr _ | with_reducible exact pok_mCNvGrpSpPr | (intro _; pr)
theorem pok_mGroupShape : ∀ x : GroupShape, ElemOk (mGroupShape x)
  | ⟨cNvPr, cNvGrpSpPr, grpSpPr, elems⟩ => by
    rw [mGroupShape]
    have hr0 := pok_mGItems elems
    pr
    all_goals first | (with_reducible refine pok_mIdName ?_ _; decide) | (with_reducible refine pok_mIdName ?_; decide) | (with_reducible refine pok_mShapePr ?_ _; decide) | (with_reducible refine pok_mShapePr ?_; decide) | with_reducible exact pok_mCNvGrpSpPr _ | with_reducible exact pok_mCNvGrpSpPr | (intro _; pr)
theorem pok_mGItems : ∀ x : List GItem, ElemsOk (mGItems x)
  | [] => by
    rw [mGItems]
    pr
    all_goals first | (intro _; pr)
  | g :: gs => by
    rw [mGItems]
    have hr0 := pok_mGItems gs
    have hr1 := pok_mGItem g
    pr
    all_goals first | (intro _; pr)
theorem pok_mGItem : ∀ x : GItem, ElemOk (mGItem x)
  | .shape s => by
    rw [mGItem]
    have hr0 := pok_mShape s
    pr
    all_goals first | (intro _; pr)
  | .pic p => by
    rw [mGItem]
    pr
    all_goals first | with_reducible exact pok_mPic _ | with_reducible exact pok_mPic | (intro _; pr)
  | .canvas c => by
    rw [mGItem]
    have hr0 := pok_mCanvas c
    pr
    all_goals first | (intro _; pr)
  | .groupShape g => by
    rw [mGItem]
    have hr0 := pok_mGroupShape g
    pr
    all_goals first | (intro _; pr)
end

theorem pok_mTblpPr (t : TblpPr) : ElemOk (mTblpPr t) := by
  unfold mTblpPr
  pr
  all_goals first | (intro _; pr)

theorem pok_mWidth {loc : String} (h : nameOk ⟨"w", loc⟩ = true) (w : Width) : ElemOk (mWidth loc w) := by
  unfold mWidth
  pr
  all_goals first | (intro _; pr)

theorem pok_mBorder {loc : String} (h : nameOk ⟨"w", loc⟩ = true) (b : Border) : ElemOk (mBorder loc b) := by
  unfold mBorder
  pr
  all_goals first | (intro _; pr)

theorem pok_mBorders {loc : String} (h : nameOk ⟨"w", loc⟩ = true) (b : Borders) : ElemOk (mBorders loc b) := by
  unfold mBorders
  pr
  all_goals first | (with_reducible refine pok_mBorder ?_ _; decide) | (with_reducible refine pok_mBorder ?_; decide) | (intro _; pr)

theorem pok_mLook (l : TblLook) : ElemOk (mLook l) := by
  unfold mLook
  pr
  all_goals first | (intro _; pr)

theorem pok_mTblPr (t : TblPr) : ElemOk (mTblPr t) := by
  unfold mTblPr
  pr
  all_goals first | with_reducible exact pok_mTblpPr _ | with_reducible exact pok_mTblpPr | (with_reducible refine pok_mWidth ?_ _; decide) | (with_reducible refine pok_mWidth ?_; decide) | (with_reducible refine pok_mBorders ?_ _; decide) | (with_reducible refine pok_mBorders ?_; decide) | with_reducible exact pok_mLook _ | with_reducible exact pok_mLook | (intro _; pr)

theorem pok_mGrid (g : List (Option Int64)) : ElemOk (mGrid g) := by
  unfold mGrid
  refine pok_el (by decide) pat_nil (pok_flatMap (fun o => pok_optN (fun n => ?_) o) _)
  pr

theorem pok_mTrPr (t : TrPr) : ElemOk (mTrPr t) := by
  unfold mTrPr
  pr
  all_goals first | (intro _; pr)

theorem pok_mTcPr (t : TcPr) : ElemOk (mTcPr t) := by
  unfold mTcPr
  pr
  all_goals first | with_reducible exact pok_mShade _ | with_reducible exact pok_mShade | (with_reducible refine pok_mWidth ?_ _; decide) | (with_reducible refine pok_mWidth ?_; decide) | (with_reducible refine pok_mBorders ?_ _; decide) | (with_reducible refine pok_mBorders ?_; decide) | (intro _; pr)

theorem pok_mCell (c : Cell) : ElemOk (mCell c) := by
  unfold mCell
  pr
  all_goals first | with_reducible exact pok_mPara _ | with_reducible exact pok_mPara | with_reducible exact pok_mTcPr _ | with_reducible exact pok_mTcPr | (intro _; pr)

theorem pok_mRow (r : Row) : ElemOk (mRow r) := by
  unfold mRow
  pr
  all_goals first | with_reducible exact pok_mTrPr _ | with_reducible exact pok_mTrPr | with_reducible exact pok_mCell _ | with_reducible exact pok_mCell | (intro _; pr)

theorem pok_mTable (t : Table) : ElemOk (mTable t) := by
  unfold mTable
  pr
  all_goals first | with_reducible exact pok_mTblPr _ | with_reducible exact pok_mTblPr | with_reducible exact pok_mGrid _ | with_reducible exact pok_mGrid | with_reducible exact pok_mRow _ | with_reducible exact pok_mRow | (intro _; pr)

theorem pok_mPgSz (p : PgSz) : ElemOk (mPgSz p) := by
  unfold mPgSz
  pr
  all_goals first | (intro _; pr)

theorem pok_mPgMar (p : PgMar) : ElemOk (mPgMar p) := by
  unfold mPgMar
  pr
  all_goals first | (intro _; pr)

theorem pok_mCols (n : Int64) : ElemOk (mCols n) := by
  unfold mCols
  pr
  all_goals first | (intro _; pr)

theorem pok_mDocGrid (g : DocGrid) : ElemOk (mDocGrid g) := by
  unfold mDocGrid
  pr
  all_goals first | (intro _; pr)

theorem pok_mSect (s : SectPr) : ElemOk (mSect s) := by
  unfold mSect
  pr
  all_goals first | with_reducible exact pok_mPgSz _ | with_reducible exact pok_mPgSz | with_reducible exact pok_mPgMar _ | with_reducible exact pok_mPgMar | with_reducible exact pok_mCols _ | with_reducible exact pok_mCols | with_reducible exact pok_mDocGrid _ | with_reducible exact pok_mDocGrid | (intro _; pr)

theorem pok_mItem (i : BItem) : ElemOk (mItem i) := by
  cases i with
  | para p => exact pok_mPara p
  | table t => exact pok_mTable t
  | sect s => exact pok_mSect s

theorem pok_mDocument (items : List BItem) : ElemOk (mDocument items) := by
  unfold mDocument
  refine pok_el (by decide) ?_ (pok_cons (pok_el (by decide) pat_nil (pok_map pok_mItem _)) pok_nil)
  intro a ha
  simp only [docAttrs, List.mem_cons, List.not_mem_nil, or_false] at ha
  rcases ha with rfl | rfl | rfl | rfl | rfl | rfl <;> decide

theorem pok_mRel (r : Rel) : ElemOk (mRel r) := by
  unfold mRel
  pr

theorem pok_mRels (x : String) (rs : List Rel) : ElemOk (mRels x rs) := by
  unfold mRels
  exact pok_el (by decide) (pat_strA (by decide)) (pok_map pok_mRel rs)

end Docx
