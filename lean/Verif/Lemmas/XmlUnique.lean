import Verif.SpecWell
import Verif.Lemmas.XmlPrint

/-!
# Everything the encoder writes is well-formed

Lemmas for C92, one for each struct.
-/

namespace Docx

mutual
/-- Ordinary names, and no attribute twice in an element -/
def Node.wellFormed : Node → Prop
  | .elem q as kids => nameOk q = true ∧ (∀ a ∈ as, nameOk a.name = true) ∧ (as.map (·.name)).Nodup ∧
      wellFormedL kids
  | .text _ => True
  | .other => True
/-- The same for several pieces in a row -/
def wellFormedL : List Node → Prop
  | [] => True
  | n :: ns => n.wellFormed ∧ wellFormedL ns
end

/-- A well-formed element -/
def ElemU (n : Node) : Prop := n.wellFormed

/-- Well-formed elements in a row -/
def ElemsU (l : List Node) : Prop := ∀ n ∈ l, ElemU n

/-- The names of the attributes are among these, in this order. -/
class NamesIn (l : List Attr) (L : outParam (List QName)) : Prop where
  sub : (l.map (·.name)).Sublist L

theorem ElemsU.all : ∀ {l : List Node}, ElemsU l → wellFormedL l
  | [], _ => trivial
  | n :: ns, h => ⟨h n (List.mem_cons_self ..), ElemsU.all (l := ns) fun m hm => h m (List.mem_cons_of_mem _ hm)⟩

theorem uq_nil : ElemsU [] := by intro n h; cases h
theorem uq_cons {n : Node} {l : List Node} (h : ElemU n) (hl : ElemsU l) : ElemsU (n :: l) := by
  intro m hm
  rcases List.mem_cons.mp hm with rfl | hm
  · exact h
  · exact hl m hm
theorem uq_append {l k : List Node} (h : ElemsU l) (hk : ElemsU k) : ElemsU (l ++ k) := by
  intro m hm
  rcases List.mem_append.mp hm with hm | hm
  · exact h m hm
  · exact hk m hm
theorem uq_optN {α : Type} {f : α → Node} (h : ∀ a, ElemU (f a)) (o : Option α) : ElemsU (optN f o) := by
  cases o with
  | none => exact uq_nil
  | some a => exact uq_cons (h a) uq_nil
theorem uq_map {α : Type} {f : α → Node} (h : ∀ a, ElemU (f a)) (l : List α) : ElemsU (l.map f) := by
  intro m hm
  obtain ⟨a, _, rfl⟩ := List.mem_map.mp hm
  exact h a
theorem uq_flatMap {α : Type} {f : α → List Node} (h : ∀ a, ElemsU (f a)) (l : List α) :
    ElemsU (l.flatMap f) := by
  intro m hm
  obtain ⟨a, _, ha⟩ := List.mem_flatMap.mp hm
  exact h a m ha
theorem uq_el {pre loc : String} {as : List Attr} {kids : List Node} {L : List QName}
    (hn : nameOk ⟨pre, loc⟩ = true) [ha : NamesIn as L] (hL : (decide L.Nodup && L.all nameOk) = true)
    (hk : ElemsU kids) : ElemU (el pre loc as kids) := by
  simp only [Bool.and_eq_true, decide_eq_true_eq, List.all_eq_true] at hL
  refine ⟨hn, fun a hm => hL.2 _ (ha.sub.subset (List.mem_map.2 ⟨a, hm, rfl⟩)), hL.1.sublist ha.sub, hk.all⟩
theorem uq_text {pre loc : String} {as : List Attr} {s : String} {L : List QName}
    (hn : nameOk ⟨pre, loc⟩ = true) [ha : NamesIn as L] (hL : (decide L.Nodup && L.all nameOk) = true) :
    ElemU (el pre loc as [.text s]) := by
  refine uq_el hn hL ?_
  intro n hm
  obtain rfl := List.mem_singleton.1 hm
  exact trivial
instance un_nil : NamesIn [] [] := ⟨List.Sublist.refl _⟩
instance un_append {l k : List Attr} {L K : List QName} [h : NamesIn l L] [hk : NamesIn k K] :
    NamesIn (l ++ k) (L ++ K) := ⟨by
  rw [List.map_append]
  exact h.sub.append hk.sub⟩
instance un_strA {pre loc v : String} : NamesIn (strA pre loc v) [⟨pre, loc⟩] := ⟨List.Sublist.refl _⟩
instance un_strO {pre loc v : String} : NamesIn (strO pre loc v) [⟨pre, loc⟩] := ⟨by
  unfold strO
  split
  · exact List.nil_sublist _
  · exact (un_strA (v := v)).sub⟩
instance un_intA {pre loc : String} {n : Int64} : NamesIn (intA pre loc n) [⟨pre, loc⟩] :=
  ⟨(un_strA (v := itoa n)).sub⟩
instance un_intO {pre loc : String} {n : Int64} : NamesIn (intO pre loc n) [⟨pre, loc⟩] := ⟨by
  unfold intO
  split
  · exact List.nil_sublist _
  · exact (un_strA (v := itoa n)).sub⟩
theorem uq_flagN {b : Bool} {pre loc : String} (h : nameOk ⟨pre, loc⟩ = true) : ElemsU (flagN b pre loc) := by
  unfold flagN
  split
  · exact uq_cons (uq_el h (by decide) uq_nil) uq_nil
  · exact uq_nil
theorem uq_valN {loc : String} {o : Option String} (h : nameOk ⟨"w", loc⟩ = true) : ElemsU (valN loc o) := by
  cases o with
  | none => exact uq_nil
  | some v => exact uq_cons (uq_el h (by decide) uq_nil) uq_nil
theorem uq_valO {loc : String} {o : Option String} (h : nameOk ⟨"w", loc⟩ = true) : ElemsU (valO loc o) := by
  cases o with
  | none => exact uq_nil
  | some v => exact uq_cons (uq_el h (by decide) uq_nil) uq_nil
theorem uq_valI {loc : String} {o : Option Int64} (h : nameOk ⟨"w", loc⟩ = true) : ElemsU (valI loc o) := by
  cases o with
  | none => exact uq_nil
  | some v => exact uq_cons (uq_el h (by decide) uq_nil) uq_nil

/-- Take an element apart -/
macro "uw" : tactic => `(tactic| repeat' first
  | with_reducible assumption | with_reducible exact uq_nil | (with_reducible refine id (α := nameOk _ = true) ?_; decide)
  | with_reducible refine uq_el ?_ ?_ ?_ | with_reducible refine uq_append ?_ ?_ | with_reducible refine uq_cons ?_ ?_ | with_reducible refine uq_valN ?_
  | with_reducible refine uq_valO ?_ | with_reducible refine uq_valI ?_ | with_reducible refine uq_flagN ?_
  | with_reducible refine uq_optN ?_ _ | with_reducible refine uq_map ?_ _ | with_reducible refine uq_flatMap ?_ _
  | (with_reducible refine id (α := (decide (List.Nodup _) && _) = true) ?_; decide))

theorem uq_mShade (s : Shade) : ElemU (mShade s) := by
  unfold mShade
  uw
  all_goals first | (intro _; uw)

theorem uq_mSpacing (s : Spacing) : ElemU (mSpacing s) := by
  unfold mSpacing
  uw
  all_goals first | (intro _; uw)

theorem uq_mInd (s : Ind) : ElemU (mInd s) := by
  unfold mInd
  uw
  all_goals first | (intro _; uw)

theorem uq_mTab (t : Tab) : ElemU (mTab t) := by
  unfold mTab
  uw
  all_goals first | (intro _; uw)

theorem uq_mTabs (ts : List Tab) : ElemU (mTabs ts) := by
  unfold mTabs
  uw
  all_goals first | with_reducible exact uq_mTab _ | with_reducible exact uq_mTab | (intro _; uw)

theorem uq_mRunFonts (f : RunFonts) : ElemU (mRunFonts f) := by
  unfold mRunFonts
  uw
  all_goals first | (intro _; uw)

theorem uq_mRPr (r : RPr) : ElemU (mRPr r) := by
  unfold mRPr
  uw
  all_goals first | with_reducible exact uq_mShade _ | with_reducible exact uq_mShade | with_reducible exact uq_mSpacing _ | with_reducible exact uq_mSpacing | with_reducible exact uq_mRunFonts _ | with_reducible exact uq_mRunFonts | (intro _; uw)

theorem uq_mNumPr (n : NumPr) : ElemU (mNumPr n) := by
  unfold mNumPr
  uw
  all_goals first | (intro _; uw)

theorem uq_mPPr (p : PPr) : ElemU (mPPr p) := by
  unfold mPPr
  uw
  all_goals first | with_reducible exact uq_mShade _ | with_reducible exact uq_mShade | with_reducible exact uq_mSpacing _ | with_reducible exact uq_mSpacing | with_reducible exact uq_mInd _ | with_reducible exact uq_mInd | with_reducible exact uq_mTabs _ | with_reducible exact uq_mTabs | with_reducible exact uq_mRPr _ | with_reducible exact uq_mRPr | with_reducible exact uq_mNumPr _ | with_reducible exact uq_mNumPr | (intro _; uw)

theorem uq_mBr (b : Br) : ElemU (mBr b) := by
  unfold mBr
  uw
  all_goals first | (intro _; uw)

theorem uq_mText (t : Text) : ElemU (mText t) := by
  unfold mText textN
  split
  · uw
  · rename_i h
    exact uq_text (by decide) (by decide)

theorem uq_mExtent (e : Ext) : ElemU (mExtent e) := by
  unfold mExtent
  uw
  all_goals first | (intro _; uw)

theorem uq_mEffectExtent (e : EffectExtent) : ElemU (mEffectExtent e) := by
  unfold mEffectExtent
  uw
  all_goals first | (intro _; uw)

theorem uq_mDocPr (n : IdName) : ElemU (mDocPr n) := by
  unfold mDocPr
  uw
  all_goals first | (intro _; uw)

theorem uq_mFramePr (f : FrameLocks) : ElemU (mFramePr f) := by
  unfold mFramePr
  uw
  all_goals first | (intro _; uw)

theorem uq_mIdName {pre : String} (h : nameOk ⟨pre, "cNvPr"⟩ = true) (n : IdName) : ElemU (mIdName pre n) := by
  unfold mIdName
  uw
  all_goals first | (intro _; uw)

theorem uq_mCNvPicPr (l : Option Int64) : ElemU (mCNvPicPr l) := by
  unfold mCNvPicPr
  uw
  all_goals first | (intro _; uw)

theorem uq_mNvPicPr (n : NvPicPr) : ElemU (mNvPicPr n) := by
  unfold mNvPicPr
  uw
  all_goals first | (with_reducible refine uq_mIdName ?_ _; decide) | (with_reducible refine uq_mIdName ?_; decide) | with_reducible exact uq_mCNvPicPr _ | with_reducible exact uq_mCNvPicPr | (intro _; uw)

theorem uq_mBlip (b : Blip) : ElemU (mBlip b) := by
  unfold mBlip
  uw
  all_goals first | (intro _; uw)

theorem uq_mPicFill (f : BlipFill) : ElemU (mPicFill f) := by
  unfold mPicFill
  uw
  all_goals first | with_reducible exact uq_mBlip _ | with_reducible exact uq_mBlip | (intro _; uw)

theorem uq_mOff {loc : String} (h : nameOk ⟨"a", loc⟩ = true) (o : Off) : ElemU (mOff loc o) := by
  unfold mOff
  uw
  all_goals first | (intro _; uw)

theorem uq_mExt {loc : String} (h : nameOk ⟨"a", loc⟩ = true) (e : Ext) : ElemU (mExt loc e) := by
  unfold mExt
  uw
  all_goals first | (intro _; uw)

theorem uq_mXfrm (x : Xfrm) : ElemU (mXfrm x) := by
  unfold mXfrm
  uw
  all_goals first | (with_reducible refine uq_mOff ?_ _; decide) | (with_reducible refine uq_mOff ?_; decide) | (with_reducible refine uq_mExt ?_ _; decide) | (with_reducible refine uq_mExt ?_; decide) | (intro _; uw)

theorem uq_mPrstGeom (g : PrstGeom) : ElemU (mPrstGeom g) := by
  unfold mPrstGeom
  uw
  all_goals first | (intro _; uw)

theorem uq_mPicSpPr (s : PicSpPr) : ElemU (mPicSpPr s) := by
  unfold mPicSpPr
  uw
  all_goals first | with_reducible exact uq_mXfrm _ | with_reducible exact uq_mXfrm | with_reducible exact uq_mPrstGeom _ | with_reducible exact uq_mPrstGeom | (intro _; uw)

theorem uq_mPic (p : Picture) : ElemU (mPic p) := by
  unfold mPic
  uw
  all_goals first | with_reducible exact uq_mNvPicPr _ | with_reducible exact uq_mNvPicPr | with_reducible exact uq_mPicFill _ | with_reducible exact uq_mPicFill | with_reducible exact uq_mPicSpPr _ | with_reducible exact uq_mPicSpPr | (intro _; uw)

theorem uq_mSimplePos (o : Off) : ElemU (mSimplePos o) := by
  unfold mSimplePos
  uw
  all_goals first | (intro _; uw)

theorem uq_mPosition {loc : String} (h : nameOk ⟨"wp", loc⟩ = true) (p : Position) : ElemU (mPosition loc p) := by
  unfold mPosition
  exact uq_el h (by decide) (uq_cons (uq_text (by decide) (by decide)) uq_nil)

theorem uq_mTile (t : Tile) : ElemU (mTile t) := by
  unfold mTile
  uw
  all_goals first | (intro _; uw)

theorem uq_mABlipFill (f : ABlipFill) : ElemU (mABlipFill f) := by
  unfold mABlipFill
  uw
  all_goals first | with_reducible exact uq_mBlip _ | with_reducible exact uq_mBlip | with_reducible exact uq_mTile _ | with_reducible exact uq_mTile | (intro _; uw)

theorem uq_mSolidFill (c : Option String) : ElemU (mSolidFill c) := by
  unfold mSolidFill
  uw
  all_goals first | (intro _; uw)

theorem uq_mLineEnd {loc : String} (h : nameOk ⟨"a", loc⟩ = true) (e : LineEnd) : ElemU (mLineEnd loc e) := by
  unfold mLineEnd
  uw
  all_goals first | (intro _; uw)

theorem uq_mLine (l : Line) : ElemU (mLine l) := by
  unfold mLine
  uw
  all_goals first | with_reducible exact uq_mSolidFill _ | with_reducible exact uq_mSolidFill | (with_reducible refine uq_mLineEnd ?_ _; decide) | (with_reducible refine uq_mLineEnd ?_; decide) | (intro _; uw)

theorem uq_mShapePr {pre loc : String} (h : nameOk ⟨pre, loc⟩ = true) (s : ShapePr) : ElemU (mShapePr pre loc s) := by
  unfold mShapePr
  uw
  all_goals first | with_reducible exact uq_mXfrm _ | with_reducible exact uq_mXfrm | with_reducible exact uq_mPrstGeom _ | with_reducible exact uq_mPrstGeom | with_reducible exact uq_mABlipFill _ | with_reducible exact uq_mABlipFill | with_reducible exact uq_mSolidFill _ | with_reducible exact uq_mSolidFill | with_reducible exact uq_mLine _ | with_reducible exact uq_mLine | (intro _; uw)

theorem uq_mCNvCnPr (b : Bool) : ElemU (mCNvCnPr b) := by
  unfold mCNvCnPr
  uw
  all_goals first | (intro _; uw)

theorem uq_mCNvSpPr (s : CNvSpPr) : ElemU (mCNvSpPr s) := by
  unfold mCNvSpPr
  uw
  all_goals first | (intro _; uw)

theorem uq_mBodyPr (b : BodyPr) : ElemU (mBodyPr b) := by
  unfold mBodyPr
  uw
  all_goals first | (intro _; uw)

theorem uq_mBackground (b : Bool) : ElemU (mBackground b) := by
  unfold mBackground
  uw
  all_goals first | (intro _; uw)

theorem uq_mWhole (l : Option Line) : ElemU (mWhole l) := by
  unfold mWhole
  uw
  all_goals first | with_reducible exact uq_mLine _ | with_reducible exact uq_mLine | (intro _; uw)

theorem uq_mCNvGrpSpPr (b : Bool) : ElemU (mCNvGrpSpPr b) := by
  unfold mCNvGrpSpPr
  uw
  all_goals first | (intro _; uw)


mutual
theorem uq_mPara : ∀ x : Para, ElemU (mPara x)
  | ⟨props, children, _⟩ => by
    rw [mPara]
    have hr0 := uq_mPChildren children
    uw
    all_goals first | with_reducible exact uq_mPPr _ | with_reducible exact uq_mPPr | (intro _; uw)
theorem uq_mPChildren : ∀ x : List PChild, ElemsU (mPChildren x)
  | [] => by
    rw [mPChildren]
    uw
    all_goals first | (intro _; uw)
  | c :: cs => by
    rw [mPChildren]
    have hr0 := uq_mPChildren cs
    have hr1 := uq_mPChild c
    uw
    all_goals first | (intro _; uw)
theorem uq_mPChild : ∀ x : PChild, ElemU (mPChild x)
  | .run r => by
    rw [mPChild]
    have hr0 := uq_mRun r
    uw
    all_goals first | (intro _; uw)
  | .link h => by
    rw [mPChild]
    have hr0 := uq_mLink h
    uw
    all_goals first | (intro _; uw)
  | .rpr p => by
    rw [mPChild]
    uw
    all_goals first | with_reducible exact uq_mRPr _ | with_reducible exact uq_mRPr | (intro _; uw)
theorem uq_mLink : ∀ x : Hyperlink, ElemU (mLink x)
  | ⟨id, run⟩ => by
    rw [mLink]
    have hr0 := uq_mRun run
    uw
    all_goals first | (intro _; uw)
theorem uq_mRun : ∀ x : Run, ElemU (mRun x)
  | ⟨space, rpr, instr, children⟩ => by
    rw [mRun]
    refine uq_el (by decide) (by decide) (uq_append (uq_append (uq_optN uq_mRPr _) ?_) (uq_mRChildren children))
    split
    · exact uq_nil
    · rename_i h
      exact uq_cons (uq_text (by decide) (by decide)) uq_nil
theorem uq_mRChildren : ∀ x : List RChild, ElemsU (mRChildren x)
  | [] => by
    rw [mRChildren]
    uw
    all_goals first | (intro _; uw)
  | c :: cs => by
    rw [mRChildren]
    have hr0 := uq_mRChildren cs
    have hr1 := uq_mRChild c
    uw
    all_goals first | (intro _; uw)
theorem uq_mRChild : ∀ x : RChild, ElemU (mRChild x)
  | .text t => by
    rw [mRChild]
    uw
    all_goals first | with_reducible exact uq_mText _ | with_reducible exact uq_mText | (intro _; uw)
  | .tab t => by
    rw [mRChild]
    uw
    all_goals first | with_reducible exact uq_mTab _ | with_reducible exact uq_mTab | (intro _; uw)
  | .br b => by
    rw [mRChild]
    uw
    all_goals first | with_reducible exact uq_mBr _ | with_reducible exact uq_mBr | (intro _; uw)
  | .drawing d => by
    rw [mRChild]
    have hr0 := uq_mDrawing d
    uw
    all_goals first | (intro _; uw)
theorem uq_mDrawing : ∀ x : Drawing, ElemU (mDrawing x)
  | ⟨inl, anchor⟩ => by
    rw [mDrawing]
    have hr0 := uq_mInlineO inl
    have hr1 := uq_mAnchorO anchor
    uw
    all_goals first | (intro _; uw)
theorem uq_mInlineO : ∀ x : Option Inline, ElemsU (mInlineO x)
  | none => by
    rw [mInlineO]
    uw
    all_goals first | (intro _; uw)
  | some i => by
    rw [mInlineO]
    have hr0 := uq_mInline i
    uw
    all_goals first | (intro _; uw)
theorem uq_mAnchorO : ∀ x : Option Anchor, ElemsU (mAnchorO x)
  | none => by
    rw [mAnchorO]
    uw
    all_goals first | (intro _; uw)
  | some a => by
    rw [mAnchorO]
    have hr0 := uq_mAnchor a
    uw
    all_goals first | (intro _; uw)
theorem uq_mInline : ∀ x : Inline, ElemU (mInline x)
  | ⟨distT, distB, distL, distR, extent, effectExtent, docPr, framePr, graphic, _⟩ => by
    rw [mInline]
    have hr0 := uq_mGraphicO graphic
    uw
    all_goals first | with_reducible exact uq_mExtent _ | with_reducible exact uq_mExtent | with_reducible exact uq_mEffectExtent _ | with_reducible exact uq_mEffectExtent | with_reducible exact uq_mDocPr _ | with_reducible exact uq_mDocPr | with_reducible exact uq_mFramePr _ | with_reducible exact uq_mFramePr | (intro _; uw)
theorem uq_mAnchor : ∀ x : Anchor, ElemU (mAnchor x)
  | ⟨distT, distB, distL, distR, simplePos, relativeHeight, behindDoc, locked, layoutInCell, allowOverlap, simplePosXY, positionH, positionV, extent, effectExtent, wrapNone, wrapSquare, docPr, framePr, graphic, _⟩ => by
    rw [mAnchor]
    have hr0 := uq_mGraphicO graphic
    uw
    all_goals first | with_reducible exact uq_mExtent _ | with_reducible exact uq_mExtent | with_reducible exact uq_mEffectExtent _ | with_reducible exact uq_mEffectExtent | with_reducible exact uq_mDocPr _ | with_reducible exact uq_mDocPr | with_reducible exact uq_mFramePr _ | with_reducible exact uq_mFramePr | with_reducible exact uq_mSimplePos _ | with_reducible exact uq_mSimplePos | (with_reducible refine uq_mPosition ?_ _; decide) | (with_reducible refine uq_mPosition ?_; decide) | (intro _; uw)
theorem uq_mGraphicO : ∀ x : Option Graphic, ElemsU (mGraphicO x)
  | none => by
    rw [mGraphicO]
    uw
    all_goals first | (intro _; uw)
  | some g => by
    rw [mGraphicO]
    have hr0 := uq_mGraphic g
    uw
    all_goals first | (intro _; uw)
theorem uq_mGraphic : ∀ x : Graphic, ElemU (mGraphic x)
  | ⟨xmlA, data⟩ => by
    rw [mGraphic]
    have hr0 := uq_mGraphicDataO data
    uw
    all_goals first | (intro _; uw)
theorem uq_mGraphicDataO : ∀ x : Option GraphicData, ElemsU (mGraphicDataO x)
  | none => by
    rw [mGraphicDataO]
    uw
    all_goals first | (intro _; uw)
  | some g => by
    rw [mGraphicDataO]
    have hr0 := uq_mGraphicData g
    uw
    all_goals first | (intro _; uw)
theorem uq_mGraphicData : ∀ x : GraphicData, ElemU (mGraphicData x)
  | ⟨uri, pic, shape, canvas, group⟩ => by
    rw [mGraphicData]
    have hr0 := uq_mShapeO shape
    have hr1 := uq_mCanvasO canvas
    have hr2 := uq_mGroupO group
    uw
    all_goals first | with_reducible exact uq_mPic _ | with_reducible exact uq_mPic | (intro _; uw)
theorem uq_mShapeO : ∀ x : Option Shape, ElemsU (mShapeO x)
  | none => by
    rw [mShapeO]
    uw
    all_goals first | (intro _; uw)
  | some s => by
    rw [mShapeO]
    have hr0 := uq_mShape s
    uw
    all_goals first | (intro _; uw)
theorem uq_mCanvasO : ∀ x : Option Canvas, ElemsU (mCanvasO x)
  | none => by
    rw [mCanvasO]
    uw
    all_goals first | (intro _; uw)
  | some c => by
    rw [mCanvasO]
    have hr0 := uq_mCanvas c
    uw
    all_goals first | (intro _; uw)
theorem uq_mGroupO : ∀ x : Option Group, ElemsU (mGroupO x)
  | none => by
    rw [mGroupO]
    uw
    all_goals first | (intro _; uw)
  | some g => by
    rw [mGroupO]
    have hr0 := uq_mGroup g
    uw
    all_goals first | (intro _; uw)
theorem uq_mShape : ∀ x : Shape, ElemU (mShape x)
  | ⟨cNvPr, cNvCnPr, cNvSpPr, spPr, textBox, bodyPr⟩ => by
    rw [mShape]
    have hr0 := uq_mTextBoxO textBox
    uw
    all_goals first | (with_reducible refine uq_mIdName ?_ _; decide) | (with_reducible refine uq_mIdName ?_; decide) | (with_reducible refine uq_mShapePr ?_ _; decide) | (with_reducible refine uq_mShapePr ?_; decide) | with_reducible exact uq_mCNvCnPr _ | with_reducible exact uq_mCNvCnPr | with_reducible exact uq_mCNvSpPr _ | with_reducible exact uq_mCNvSpPr | with_reducible exact uq_mBodyPr _ | with_reducible exact uq_mBodyPr | (intro _; uw)
theorem uq_mTextBoxO : ∀ x : Option TextBox, ElemsU (mTextBoxO x)
  | none => by
    rw [mTextBoxO]
    uw
    all_goals first | (intro _; uw)
  | some t => by
    rw [mTextBoxO]
    have hr0 := uq_mTextBox t
    uw
    all_goals first | (intro _; uw)
theorem uq_mTextBox : ∀ x : TextBox, ElemU (mTextBox x)
  | ⟨content⟩ => by
    rw [mTextBox]
    have hr0 := uq_mContentO content
    uw
    all_goals first | (intro _; uw)
theorem uq_mContentO : ∀ x : Option (List Para), ElemsU (mContentO x)
  | none => by
    rw [mContentO]
    uw
    all_goals first | (intro _; uw)
  | some ps => by
    rw [mContentO]
    have hr0 := uq_mParas ps
    uw
    all_goals first | (intro _; uw)
theorem uq_mParas : ∀ x : List Para, ElemsU (mParas x)
  | [] => by
    rw [mParas]
    uw
    all_goals first | (intro _; uw)
  | p :: ps => by
    rw [mParas]
    have hr0 := uq_mPara p
    have hr1 := uq_mParas ps
    uw
    all_goals first | (intro _; uw)
theorem uq_mCanvas : ∀ x : Canvas, ElemU (mCanvas x)
  | ⟨background, whole, items⟩ => by
    rw [mCanvas]
    have hr0 := uq_mCItems items
    uw
    all_goals first | with_reducible exact uq_mBackground _ | with_reducible exact uq_mBackground | with_reducible exact uq_mWhole _ | with_reducible exact uq_mWhole | (intro _; uw)
theorem uq_mCItems : ∀ x : List CItem, ElemsU (mCItems x)
  | [] => by
    rw [mCItems]
    uw
    all_goals first | (intro _; uw)
  | c :: cs => by
    rw [mCItems]
    have hr0 := uq_mCItems cs
    have hr1 := uq_mCItem c
    uw
    all_goals first | (intro _; uw)
theorem uq_mCItem : ∀ x : CItem, ElemU (mCItem x)
  | .shape s => by
    rw [mCItem]
    have hr0 := uq_mShape s
    uw
    all_goals first | (intro _; uw)
  | .pic p => by
    rw [mCItem]
    uw
    all_goals first | with_reducible exact uq_mPic _ | with_reducible exact uq_mPic | (intro _; uw)
  | .group g => by
    rw [mCItem]
    have hr0 := uq_mGroup g
    uw
    all_goals first | (intro _; uw)
theorem uq_mGroup : ∀ x : Group, ElemU (mGroup x)
  | ⟨cNvGrpSpPr, grpSpPr, elems⟩ => by
    rw [mGroup]
    have hr0 := uq_mGItems elems
    uw
    all_goals first | (with_reducible refine uq_mShapePr ?_ _; decide) | (with_reducible refine uq_mShapePr ?_; decide) | with_reducible exact uq_mCNvGrpSpPr _ | with_reducible exact uq_mCNvGrpSpPr | (intro _; uw)
theorem uq_mGroupShape : ∀ x : GroupShape, ElemU (mGroupShape x)
  | ⟨cNvPr, cNvGrpSpPr, grpSpPr, elems⟩ => by
    rw [mGroupShape]
    have hr0 := uq_mGItems elems
    uw
    all_goals first | (with_reducible refine uq_mIdName ?_ _; decide) | (with_reducible refine uq_mIdName ?_; decide) | (with_reducible refine uq_mShapePr ?_ _; decide) | (with_reducible refine uq_mShapePr ?_; decide) | with_reducible exact uq_mCNvGrpSpPr _ | with_reducible exact uq_mCNvGrpSpPr | (intro _; uw)
theorem uq_mGItems : ∀ x : List GItem, ElemsU (mGItems x)
  | [] => by
    rw [mGItems]
    uw
    all_goals first | (intro _; uw)
  | g :: gs => by
    rw [mGItems]
    have hr0 := uq_mGItems gs
    have hr1 := uq_mGItem g
    uw
    all_goals first | (intro _; uw)
theorem uq_mGItem : ∀ x : GItem, ElemU (mGItem x)
  | .shape s => by
    rw [mGItem]
    have hr0 := uq_mShape s
    uw
    all_goals first | (intro _; uw)
  | .pic p => by
    rw [mGItem]
    uw
    all_goals first | with_reducible exact uq_mPic _ | with_reducible exact uq_mPic | (intro _; uw)
  | .canvas c => by
    rw [mGItem]
    have hr0 := uq_mCanvas c
    uw
    all_goals first | (intro _; uw)
  | .groupShape g => by
    rw [mGItem]
    have hr0 := uq_mGroupShape g
    uw
    all_goals first | (intro _; uw)
end

theorem uq_mTblpPr (t : TblpPr) : ElemU (mTblpPr t) := by
  unfold mTblpPr
  uw
  all_goals first | (intro _; uw)

theorem uq_mWidth {loc : String} (h : nameOk ⟨"w", loc⟩ = true) (w : Width) : ElemU (mWidth loc w) := by
  unfold mWidth
  uw
  all_goals first | (intro _; uw)

theorem uq_mBorder {loc : String} (h : nameOk ⟨"w", loc⟩ = true) (b : Border) : ElemU (mBorder loc b) := by
  unfold mBorder
  uw
  all_goals first | (intro _; uw)

theorem uq_mBorders {loc : String} (h : nameOk ⟨"w", loc⟩ = true) (b : Borders) : ElemU (mBorders loc b) := by
  unfold mBorders
  uw
  all_goals first | (with_reducible refine uq_mBorder ?_ _; decide) | (with_reducible refine uq_mBorder ?_; decide) | (intro _; uw)

theorem uq_mLook (l : TblLook) : ElemU (mLook l) := by
  unfold mLook
  uw
  all_goals first | (intro _; uw)

theorem uq_mTblPr (t : TblPr) : ElemU (mTblPr t) := by
  unfold mTblPr
  uw
  all_goals first | with_reducible exact uq_mTblpPr _ | with_reducible exact uq_mTblpPr | (with_reducible refine uq_mWidth ?_ _; decide) | (with_reducible refine uq_mWidth ?_; decide) | (with_reducible refine uq_mBorders ?_ _; decide) | (with_reducible refine uq_mBorders ?_; decide) | with_reducible exact uq_mLook _ | with_reducible exact uq_mLook | (intro _; uw)

theorem uq_mGrid (g : List (Option Int64)) : ElemU (mGrid g) := by
  unfold mGrid
  refine uq_el (by decide) (by decide) (uq_flatMap (fun o => uq_optN (fun n => ?_) o) _)
  uw

theorem uq_mTrPr (t : TrPr) : ElemU (mTrPr t) := by
  unfold mTrPr
  uw
  all_goals first | (intro _; uw)

theorem uq_mTcPr (t : TcPr) : ElemU (mTcPr t) := by
  unfold mTcPr
  uw
  all_goals first | with_reducible exact uq_mShade _ | with_reducible exact uq_mShade | (with_reducible refine uq_mWidth ?_ _; decide) | (with_reducible refine uq_mWidth ?_; decide) | (with_reducible refine uq_mBorders ?_ _; decide) | (with_reducible refine uq_mBorders ?_; decide) | (intro _; uw)

theorem uq_mCell (c : Cell) : ElemU (mCell c) := by
  unfold mCell
  uw
  all_goals first | with_reducible exact uq_mPara _ | with_reducible exact uq_mPara | with_reducible exact uq_mTcPr _ | with_reducible exact uq_mTcPr | (intro _; uw)

theorem uq_mRow (r : Row) : ElemU (mRow r) := by
  unfold mRow
  uw
  all_goals first | with_reducible exact uq_mTrPr _ | with_reducible exact uq_mTrPr | with_reducible exact uq_mCell _ | with_reducible exact uq_mCell | (intro _; uw)

theorem uq_mTable (t : Table) : ElemU (mTable t) := by
  unfold mTable
  uw
  all_goals first | with_reducible exact uq_mTblPr _ | with_reducible exact uq_mTblPr | with_reducible exact uq_mGrid _ | with_reducible exact uq_mGrid | with_reducible exact uq_mRow _ | with_reducible exact uq_mRow | (intro _; uw)

theorem uq_mPgSz (p : PgSz) : ElemU (mPgSz p) := by
  unfold mPgSz
  uw
  all_goals first | (intro _; uw)

theorem uq_mPgMar (p : PgMar) : ElemU (mPgMar p) := by
  unfold mPgMar
  uw
  all_goals first | (intro _; uw)

theorem uq_mCols (n : Int64) : ElemU (mCols n) := by
  unfold mCols
  uw
  all_goals first | (intro _; uw)

theorem uq_mDocGrid (g : DocGrid) : ElemU (mDocGrid g) := by
  unfold mDocGrid
  uw
  all_goals first | (intro _; uw)

theorem uq_mSect (s : SectPr) : ElemU (mSect s) := by
  unfold mSect
  uw
  all_goals first | with_reducible exact uq_mPgSz _ | with_reducible exact uq_mPgSz | with_reducible exact uq_mPgMar _ | with_reducible exact uq_mPgMar | with_reducible exact uq_mCols _ | with_reducible exact uq_mCols | with_reducible exact uq_mDocGrid _ | with_reducible exact uq_mDocGrid | (intro _; uw)

theorem uq_mItem (i : BItem) : ElemU (mItem i) := by
  cases i with
  | para p => exact uq_mPara p
  | table t => exact uq_mTable t
  | sect s => exact uq_mSect s

instance un_docAttrs : NamesIn docAttrs (docAttrs.map (·.name)) := ⟨List.Sublist.refl _⟩

theorem uq_mDocument (items : List BItem) : ElemU (mDocument items) := by
  unfold mDocument
  exact uq_el (by decide) (by decide) (uq_cons (uq_el (by decide) (by decide) (uq_map uq_mItem _)) uq_nil)

theorem uq_mRel (r : Rel) : ElemU (mRel r) := by
  unfold mRel
  uw

theorem uq_mRels (x : String) (rs : List Rel) : ElemU (mRels x rs) := by
  unfold mRels
  exact uq_el (by decide) (by decide) (uq_map uq_mRel rs)

end Docx
