import Verif.Lemmas.CleanBase

/-!
# What is decoded from tokens that hold only characters XML allows: properties and parts of drawings
-/

namespace Docx

set_option linter.unusedSectionVars false
set_option linter.unusedVariables false

variable [GoEnv]

theorem skipTo_val {σ : Type} (s : σ) (d : Dec) : (skipTo s d).val = s := rfl
theorem flat_val {σ : Type} (s : σ) (e : Option Err) (d : Dec) : (flat s e d).val = s := rfl
theorem intAttr_fst {σ : Type} (v : String) (k : Int64 → σ) : (intAttr v k).1 = k (getInt v).1 := rfl
theorem intAttrLoose_fst {σ : Type} (v : String) (k : Int64 → σ) : (intAttrLoose v k).1 = k (getInt v).1 := rfl
theorem intAttrNE_C {σ : Type} {Q : σ → Prop} {s : σ} {v : String} {k : Int64 → σ} (hs : Q s) (hk : ∀ n, Q (k n)) :
    Q (intAttrNE s v k).1 := by
  unfold intAttrNE; split
  · exact hs
  · exact hk _
theorem atoiAttr_C {σ : Type} {Q : σ → Prop} {v : String} {k : Int64 → σ} (hk : ∀ n, Q (k n)) :
    Q (atoiAttr v k).1 := by
  unfold atoiAttr; split <;> exact hk _

/-- One attribute stored -/
macro "clean_attr" f:ident Q:term:max "[" ms:Lean.Parser.Tactic.simpLemma,* "]" : tactic =>
  `(tactic| (intro s l v hs hv
             unfold $f
             repeat' split
             all_goals first
               | with_reducible exact hs
               | (with_reducible refine intAttrNE_C (Q := $Q) hs (fun n => ?_); ok_simp [$ms,*])
               | (with_reducible refine atoiAttr_C (Q := $Q) (fun n => ?_); ok_simp [$ms,*])
               | (simp only [intAttr_fst, intAttrLoose_fst]; ok_simp [$ms,*])
               | ok_simp [$ms,*]))

/-- A child that is decoded by a method of its own -/
syntax "clean_child" : tactic
macro_rules
  | `(tactic| clean_child) => `(tactic| exact any_C _)

/-- One start tag in a loop -/
macro "clean_step" f:ident Q:term:max "[" ms:Lean.Parser.Tactic.simpLemma,* "]" : tactic =>
  `(tactic| (intro s l as d hs ha hd
             unfold $f
             split
             all_goals first
               | (rw [skipTo_val]; with_reducible exact hs)
               | (rw [flat_val]; with_reducible exact hs)
               | (with_reducible refine sub_C (Q := $Q) (by clean_child) hd (fun v hv => ?_); ok_simp [$ms,*])
               | (with_reducible refine flatInt_C (Q := $Q) ?_ (fun n => ?_) <;> first | with_reducible exact hs | ok_simp [$ms,*])
               | (rw [skipTo_val]; ok_simp [$ms,*])
               | (rw [flat_val]; ok_simp [$ms,*])))

theorem shadeAttr_C : ∀ (s : Shade) (l v : String), okN (mShade s) → xmlText v → okN (mShade (shadeAttr s l v).1) := by
  clean_attr shadeAttr (fun s : Shade => okN (mShade s)) [mShade]
theorem unShade_C {as : List Attr} (ha : okA as) : YC (fun x => okN (mShade x)) (unShade as) :=
  leaf_C ha shadeAttr_C (by ok_simp [mShade])
macro_rules
  | `(tactic| clean_child) => `(tactic| exact unShade_C (by assumption))

theorem spacingAttr_C : ∀ (s : Spacing) (l v : String), okN (mSpacing s) → xmlText v → okN (mSpacing (spacingAttr s l v).1) := by
  clean_attr spacingAttr (fun s : Spacing => okN (mSpacing s)) [mSpacing]
theorem unSpacing_C {as : List Attr} (ha : okA as) : YC (fun x => okN (mSpacing x)) (unSpacing as) :=
  leaf_C ha spacingAttr_C (by ok_simp [mSpacing])
macro_rules
  | `(tactic| clean_child) => `(tactic| exact unSpacing_C (by assumption))

theorem indAttr_C : ∀ (s : Ind) (l v : String), okN (mInd s) → xmlText v → okN (mInd (indAttr s l v).1) := by
  clean_attr indAttr (fun s : Ind => okN (mInd s)) [mInd]
theorem unInd_C {as : List Attr} (ha : okA as) : YC (fun x => okN (mInd x)) (unInd as) :=
  leaf_C ha indAttr_C (by ok_simp [mInd])
macro_rules
  | `(tactic| clean_child) => `(tactic| exact unInd_C (by assumption))

theorem tabAttr_C : ∀ (s : Tab) (l v : String), okN (mTab s) → xmlText v → okN (mTab (tabAttr s l v).1) := by
  clean_attr tabAttr (fun s : Tab => okN (mTab s)) [mTab]
theorem unTab_C {as : List Attr} (ha : okA as) : YC (fun x => okN (mTab x)) (unTab as) :=
  leaf_C ha tabAttr_C (by ok_simp [mTab])
macro_rules
  | `(tactic| clean_child) => `(tactic| exact unTab_C (by assumption))

theorem tabsStep_C : SC (fun s : List Tab => okN (mTabs s)) tabsStep := by
  clean_step tabsStep (fun s : List Tab => okN (mTabs s)) [mTabs]
theorem unTabs_C : YC (fun s : List Tab => okN (mTabs s)) unTabs :=
  loop_C (tabsStep_good 0) tabsStep_C (by ok_simp [mTabs])
macro_rules
  | `(tactic| clean_child) => `(tactic| exact unTabs_C)

theorem runFontsAttr_C : ∀ (s : RunFonts) (l v : String), okN (mRunFonts s) → xmlText v → okN (mRunFonts (runFontsAttr s l v).1) := by
  clean_attr runFontsAttr (fun s : RunFonts => okN (mRunFonts s)) [mRunFonts]
theorem unRunFonts_C {as : List Attr} (ha : okA as) : YC (fun x => okN (mRunFonts x)) (unRunFonts as) :=
  leaf_C ha runFontsAttr_C (by ok_simp [mRunFonts])
macro_rules
  | `(tactic| clean_child) => `(tactic| exact unRunFonts_C (by assumption))

theorem rprStep_C : SC (fun s : RPr => okN (mRPr s)) rprStep := by
  clean_step rprStep (fun s : RPr => okN (mRPr s)) [mRPr]
theorem unRPr_C : YC (fun s : RPr => okN (mRPr s)) unRPr :=
  loop_C (rprStep_good 0) rprStep_C (by ok_simp [mRPr])
macro_rules
  | `(tactic| clean_child) => `(tactic| exact unRPr_C)

theorem pprStep_C : SC (fun s : PPr => okN (mPPr s)) pprStep := by
  clean_step pprStep (fun s : PPr => okN (mPPr s)) [mPPr]
theorem unPPr_C : YC (fun s : PPr => okN (mPPr s)) unPPr :=
  loop_C (pprStep_good 0) pprStep_C (by ok_simp [mPPr])
macro_rules
  | `(tactic| clean_child) => `(tactic| exact unPPr_C)

theorem unBr_C {as : List Attr} (ha : okA as) : YC (fun x => okN (mBr x)) (unBr as) :=
  leaf_C ha (fun s l v hs _ => hs) (by ok_simp [mBr])
macro_rules
  | `(tactic| clean_child) => `(tactic| exact unBr_C (by assumption))

theorem textAttr_C : ∀ (s : Text) (l v : String), okN (mText s) → xmlText v → okN (mText (textAttr s l v).1) := by
  clean_attr textAttr (fun s : Text => okN (mText s)) [mText]
theorem unText_C {as : List Attr} (ha : okA as) : YC (fun x => okN (mText x)) (unText as) := by
  refine withAttrs_C ha textAttr_C (by ok_simp [mText]) fun s hs d hd => ?_
  refine loopN_C (P := fun x => okN (mText x)) (textStep_good 0) (fun s l as d hs _ _ => hs) ?_ _ s d hs hd
  intro s c hs hc
  ok_simp [mText]
macro_rules
  | `(tactic| clean_child) => `(tactic| exact unText_C (by assumption))

theorem idNameAttr_C : ∀ (s : IdName) (l v : String), okN (mDocPr s) → xmlText v → okN (mDocPr (idNameAttr s l v).1) := by
  clean_attr idNameAttr (fun s : IdName => okN (mDocPr s)) [mDocPr]
theorem unIdName_C {as : List Attr} (ha : okA as) : YC (fun x => okN (mDocPr x)) (unIdName as) :=
  leaf_C ha idNameAttr_C (by ok_simp [mDocPr])
macro_rules
  | `(tactic| clean_child) => `(tactic| exact unIdName_C (by assumption))

theorem idName_iff {pre : String} {x : IdName} : okN (mIdName pre x) ↔ xmlText x.name := by
  ok_simp [mIdName]
theorem docPr_iff {x : IdName} : okN (mDocPr x) ↔ xmlText x.name := by
  ok_simp [mDocPr]
theorem extent_ok {x : Ext} : okN (mExtent x) ↔ True := by ok_simp [mExtent]
theorem effectExtent_ok {x : EffectExtent} : okN (mEffectExtent x) ↔ True := by ok_simp [mEffectExtent]
theorem off_ok {l : String} {x : Off} : okN (mOff l x) ↔ True := by ok_simp [mOff]
theorem ext_ok {l : String} {x : Ext} : okN (mExt l x) ↔ True := by ok_simp [mExt]
theorem xfrm_ok {x : Xfrm} : okN (mXfrm x) ↔ True := by ok_simp [mXfrm, off_ok, ext_ok]
theorem simplePos_ok {x : Off} : okN (mSimplePos x) ↔ True := by ok_simp [mSimplePos]
theorem cNvPicPr_ok {x : Option Int64} : okN (mCNvPicPr x) ↔ True := by ok_simp [mCNvPicPr]
theorem cNvCnPr_ok {x : Bool} : okN (mCNvCnPr x) ↔ True := by ok_simp [mCNvCnPr]
theorem cNvSpPr_ok {x : CNvSpPr} : okN (mCNvSpPr x) ↔ True := by ok_simp [mCNvSpPr]
theorem background_ok {x : Bool} : okN (mBackground x) ↔ True := by ok_simp [mBackground]
theorem cNvGrpSpPr_ok {x : Bool} : okN (mCNvGrpSpPr x) ↔ True := by ok_simp [mCNvGrpSpPr]

theorem frameStep_C : SC (fun s : FrameLocks => okN (mFramePr s)) frameStep := by
  intro s l as d hs ha hd
  unfold frameStep
  split
  · simp only [flatIntSt]
    split <;> ok_simp [mFramePr]
  · exact hs
theorem unFramePr_C : YC (fun s => okN (mFramePr s)) unFramePr :=
  loop_C (frameStep_good 0) frameStep_C (by ok_simp [mFramePr])
macro_rules
  | `(tactic| clean_child) => `(tactic| exact unFramePr_C)

theorem nvPicPrStep_C : SC (fun s : NvPicPr => okN (mNvPicPr s)) nvPicPrStep := by
  intro s l as d hs ha hd
  unfold nvPicPrStep
  split
  · split
    · exact hs
    · rcases getInt (getAtt as "id") with ⟨n, e⟩
      cases e <;> ok_simp [flat, mNvPicPr, idName_iff, cNvPicPr_ok]
  · refine sub_C (Q := fun s : NvPicPr => okN (mNvPicPr s)) (any_C _) hd (fun v _ => ?_)
    ok_simp [mNvPicPr, cNvPicPr_ok]
  · exact hs
theorem unNvPicPr_C : YC (fun s => okN (mNvPicPr s)) unNvPicPr :=
  loop_C (nvPicPrStep_good 0) nvPicPrStep_C (by ok_simp [mNvPicPr, idName_iff, cNvPicPr_ok])
macro_rules
  | `(tactic| clean_child) => `(tactic| exact unNvPicPr_C)

theorem blipAttr_C : ∀ (s : Blip) (l v : String), okN (mBlip s) → xmlText v → okN (mBlip (blipAttr s l v).1) := by
  clean_attr blipAttr (fun s : Blip => okN (mBlip s)) [mBlip]
theorem blipStep_C : SC (fun s : Blip => okN (mBlip s)) blipStep := by
  clean_step blipStep (fun s : Blip => okN (mBlip s)) [mBlip]
theorem unBlip_C {s : Blip} (hs : okN (mBlip s)) {as : List Attr} (ha : okA as) :
    YC (fun s => okN (mBlip s)) (unBlip s as) :=
  withAttrs_C ha blipAttr_C hs fun s hs => loop_C (blipStep_good 0) blipStep_C hs

theorem picFillStep_C : SC (fun s : BlipFill => okN (mPicFill s)) picFillStep := by
  intro s l as d hs ha hd
  have hb : okN (mBlip s.blip) := by ok_simp [mPicFill]
  unfold picFillStep
  split
  · refine sub_C (Q := fun s : BlipFill => okN (mPicFill s)) (unBlip_C hb ha) hd (fun v hv => ?_)
    ok_simp [mPicFill]
  · refine sub_C (Q := fun s : BlipFill => okN (mPicFill s)) (any_C _) hd (fun v _ => ?_)
    ok_simp [mPicFill]
  · exact hs
theorem unPicFill_C : YC (fun s => okN (mPicFill s)) unPicFill :=
  loop_C (picFillStep_good 0) picFillStep_C (by ok_simp [mPicFill, mBlip])
macro_rules
  | `(tactic| clean_child) => `(tactic| exact unPicFill_C)

theorem prstAttr_C : ∀ (s : PrstGeom) (l v : String), okN (mPrstGeom s) → xmlText v → okN (mPrstGeom (prstAttr s l v).1) := by
  clean_attr prstAttr (fun s : PrstGeom => okN (mPrstGeom s)) [mPrstGeom]
theorem prstStep_C : SC (fun s : PrstGeom => okN (mPrstGeom s)) prstStep := by
  clean_step prstStep (fun s : PrstGeom => okN (mPrstGeom s)) [mPrstGeom]
theorem unPrstGeom_C {as : List Attr} (ha : okA as) : YC (fun s : PrstGeom => okN (mPrstGeom s)) (unPrstGeom as) :=
  withAttrs_C ha prstAttr_C (by ok_simp [mPrstGeom]) fun s hs => loop_C (prstStep_good 0) prstStep_C hs
macro_rules
  | `(tactic| clean_child) => `(tactic| exact unPrstGeom_C (by assumption))

theorem picSpPrStep_C : SC (fun s : PicSpPr => okN (mPicSpPr s)) picSpPrStep := by
  clean_step picSpPrStep (fun s : PicSpPr => okN (mPicSpPr s)) [mPicSpPr, xfrm_ok]
theorem unPicSpPr_C : YC (fun s => okN (mPicSpPr s)) unPicSpPr :=
  loop_C (picSpPrStep_good 0) picSpPrStep_C (by ok_simp [mPicSpPr, xfrm_ok])
macro_rules
  | `(tactic| clean_child) => `(tactic| exact unPicSpPr_C)

theorem picStep_C : SC (fun s : Picture => okN (mPic s)) picStep := by
  clean_step picStep (fun s : Picture => okN (mPic s)) [mPic]
theorem unPic_C : YC (fun s : Picture => okN (mPic s)) unPic :=
  loop_C (picStep_good 0) picStep_C (by ok_simp [mPic])
macro_rules
  | `(tactic| clean_child) => `(tactic| exact unPic_C)

theorem pic_rename {x : Picture} {v : String} (h : okN (mPic x)) (hv : xmlText v) :
    okN (mPic { x with xmlPic := v }) := by
  ok_simp [mPic]

theorem unPosition_C {loc : String} {as : List Attr} (ha : okA as) :
    YC (fun s => okN (mPosition loc s)) (unPosition as) := by
  refine loop_C (posStep_good 0) ?_ (by ok_simp [mPosition])
  intro s l as d hs ha hd
  unfold posStep
  split
  · ok_simp [mPosition]
  · exact hs

theorem tileAttr_C : ∀ (s : Tile) (l v : String), okN (mTile s) → xmlText v → okN (mTile (tileAttr s l v).1) := by
  clean_attr tileAttr (fun s : Tile => okN (mTile s)) [mTile]
theorem unTile_C {as : List Attr} (ha : okA as) : YC (fun x => okN (mTile x)) (unTile as) :=
  leaf_C ha tileAttr_C (by ok_simp [mTile])
macro_rules
  | `(tactic| clean_child) => `(tactic| exact unTile_C (by assumption))

theorem aBlipFillAttr_C : ∀ (s : ABlipFill) (l v : String), okN (mABlipFill s) → xmlText v →
    okN (mABlipFill (aBlipFillAttr s l v).1) := by
  clean_attr aBlipFillAttr (fun s : ABlipFill => okN (mABlipFill s)) [mABlipFill]
theorem aBlipFillStep_C : SC (fun s : ABlipFill => okN (mABlipFill s)) aBlipFillStep := by
  intro s l as d hs ha hd
  unfold aBlipFillStep
  split
  · refine sub_C (Q := fun s : ABlipFill => okN (mABlipFill s)) (unBlip_C (s := {}) (by ok_simp [mBlip]) ha) hd (fun v hv => ?_)
    ok_simp [mABlipFill]
  · rw [flat_val]; ok_simp [mABlipFill]
  · refine sub_C (Q := fun s : ABlipFill => okN (mABlipFill s)) (unTile_C ha) hd (fun v hv => ?_)
    ok_simp [mABlipFill]
  · exact hs
theorem unABlipFill_C {as : List Attr} (ha : okA as) : YC (fun s => okN (mABlipFill s)) (unABlipFill as) :=
  withAttrs_C ha aBlipFillAttr_C (by ok_simp [mABlipFill]) fun s hs => loop_C (aBlipFillStep_good 0) aBlipFillStep_C hs
macro_rules
  | `(tactic| clean_child) => `(tactic| exact unABlipFill_C (by assumption))

theorem solidFillStep_C : SC (fun s : Option String => okN (mSolidFill s)) solidFillStep := by
  clean_step solidFillStep (fun s : Option String => okN (mSolidFill s)) [mSolidFill]
theorem unSolidFill_C : YC (fun s : Option String => okN (mSolidFill s)) unSolidFill :=
  loop_C (solidFillStep_good 0) solidFillStep_C (by ok_simp [mSolidFill])
macro_rules
  | `(tactic| clean_child) => `(tactic| exact unSolidFill_C)

theorem lineEnd_iff {loc : String} {x : LineEnd} :
    okN (mLineEnd loc x) ↔ xmlText x.type ∧ xmlText x.w ∧ xmlText x.len := by
  ok_simp [mLineEnd, and_assoc]
theorem lineEndAttr_C (loc : String) : ∀ (s : LineEnd) (l v : String), okN (mLineEnd loc s) → xmlText v →
    okN (mLineEnd loc (lineEndAttr s l v).1) := by
  clean_attr lineEndAttr (fun s : LineEnd => okN (mLineEnd loc s)) [mLineEnd]
theorem unLineEnd_C {as : List Attr} (ha : okA as) : YC (fun x => okN (mLineEnd "headEnd" x)) (unLineEnd as) :=
  leaf_C ha (lineEndAttr_C "headEnd") (by ok_simp [mLineEnd])
macro_rules
  | `(tactic| clean_child) => `(tactic| exact unLineEnd_C (by assumption))

theorem lineAttr_C : ∀ (s : Line) (l v : String), okN (mLine s) → xmlText v → okN (mLine (lineAttr s l v).1) := by
  clean_attr lineAttr (fun s : Line => okN (mLine s)) [mLine, lineEnd_iff]
theorem lineStep_C : SC (fun s : Line => okN (mLine s)) lineStep := by
  clean_step lineStep (fun s : Line => okN (mLine s)) [mLine, lineEnd_iff]
theorem unLine_C {as : List Attr} (ha : okA as) : YC (fun s : Line => okN (mLine s)) (unLine as) :=
  withAttrs_C ha lineAttr_C (by ok_simp [mLine, lineEnd_iff]) fun s hs => loop_C (lineStep_good 0) lineStep_C hs
macro_rules
  | `(tactic| clean_child) => `(tactic| exact unLine_C (by assumption))

theorem shapePr_iff {pre loc : String} {x : ShapePr} :
    okN (mShapePr pre loc x) ↔ okN (mShapePr "" "" x) := by
  simp [mShapePr, okN_el]
theorem shapePrAttr_C : ∀ (s : ShapePr) (l v : String), okN (mShapePr "" "" s) → xmlText v →
    okN (mShapePr "" "" (shapePrAttr s l v).1) := by
  clean_attr shapePrAttr (fun s : ShapePr => okN (mShapePr "" "" s)) [mShapePr]
theorem shapePrStep_C : SC (fun s : ShapePr => okN (mShapePr "" "" s)) shapePrStep := by
  clean_step shapePrStep (fun s : ShapePr => okN (mShapePr "" "" s)) [mShapePr, xfrm_ok, mPrstGeom]
theorem unShapePr_C {as : List Attr} (ha : okA as) : YC (fun s => okN (mShapePr "" "" s)) (unShapePr as) :=
  withAttrs_C ha shapePrAttr_C (by ok_simp [mShapePr, xfrm_ok, mPrstGeom])
    fun s hs => loop_C (shapePrStep_good 0) shapePrStep_C hs
macro_rules
  | `(tactic| clean_child) => `(tactic| exact unShapePr_C (by assumption))

theorem bodyPrAttr_C : ∀ (s : BodyPr) (l v : String), okN (mBodyPr s) → xmlText v → okN (mBodyPr (bodyPrAttr s l v).1) := by
  clean_attr bodyPrAttr (fun s : BodyPr => okN (mBodyPr s)) [mBodyPr]
theorem bodyPrStep_C : SC (fun s : BodyPr => okN (mBodyPr s)) bodyPrStep := by
  clean_step bodyPrStep (fun s : BodyPr => okN (mBodyPr s)) [mBodyPr]
theorem unBodyPr_C {as : List Attr} (ha : okA as) : YC (fun s : BodyPr => okN (mBodyPr s)) (unBodyPr as) :=
  withAttrs_C ha bodyPrAttr_C (by ok_simp [mBodyPr]) fun s hs => loop_C (bodyPrStep_good 0) bodyPrStep_C hs
macro_rules
  | `(tactic| clean_child) => `(tactic| exact unBodyPr_C (by assumption))

theorem wholeStep_C : SC (fun s : Option Line => okN (mWhole s)) wholeStep := by
  clean_step wholeStep (fun s : Option Line => okN (mWhole s)) [mWhole]
theorem unWhole_C : YC (fun s : Option Line => okN (mWhole s)) unWhole :=
  loop_C (wholeStep_good 0) wholeStep_C (by ok_simp [mWhole])
macro_rules
  | `(tactic| clean_child) => `(tactic| exact unWhole_C)

theorem tblpPrAttr_C : ∀ (s : TblpPr) (l v : String), okN (mTblpPr s) → xmlText v → okN (mTblpPr (tblpPrAttr s l v).1) := by
  clean_attr tblpPrAttr (fun s : TblpPr => okN (mTblpPr s)) [mTblpPr]
theorem unTblpPr_C {as : List Attr} (ha : okA as) : YC (fun x => okN (mTblpPr x)) (unTblpPr as) :=
  leaf_C ha tblpPrAttr_C (by ok_simp [mTblpPr])
macro_rules
  | `(tactic| clean_child) => `(tactic| exact unTblpPr_C (by assumption))

theorem tblStyleAttr_C : ∀ (s : String) (l v : String), xmlText s → xmlText v → xmlText (tblStyleAttr s l v).1 := by
  clean_attr tblStyleAttr xmlText []
theorem unTblStyle_C {as : List Attr} (ha : okA as) : YC xmlText (unTblStyle as) :=
  leaf_C ha tblStyleAttr_C xmlText_nil
macro_rules
  | `(tactic| clean_child) => `(tactic| exact unTblStyle_C (by assumption))

theorem width_iff {loc : String} {x : Width} : okN (mWidth loc x) ↔ xmlText x.type := by
  ok_simp [mWidth]
theorem widthAttr_C : ∀ (s : Width) (l v : String), xmlText s.type → xmlText v →
    xmlText (widthAttr s l v).1.type := by
  clean_attr widthAttr (fun s : Width => xmlText s.type) []
theorem unTblW_C {as : List Attr} (ha : okA as) : YC (fun x : Width => xmlText x.type) (unTblW as) :=
  leaf_C ha widthAttr_C xmlText_nil
macro_rules
  | `(tactic| clean_child) => `(tactic| exact unTblW_C (by assumption))

theorem lookAttr_C : ∀ (s : TblLook) (l v : String), okN (mLook s) → xmlText v → okN (mLook (lookAttr s l v).1) := by
  clean_attr lookAttr (fun s : TblLook => okN (mLook s)) [mLook]
theorem unTblLook_C {as : List Attr} (ha : okA as) : YC (fun x => okN (mLook x)) (unTblLook as) :=
  leaf_C ha lookAttr_C (by ok_simp [mLook])
macro_rules
  | `(tactic| clean_child) => `(tactic| exact unTblLook_C (by assumption))

theorem border_iff {loc : String} {x : Border} : okN (mBorder loc x) ↔ xmlText x.val ∧ xmlText x.color := by
  ok_simp [mBorder]
theorem borderAttr_C : ∀ (s : Border) (l v : String), okN (mBorder "" s) → xmlText v →
    okN (mBorder "" (borderAttr s l v).1) := by
  clean_attr borderAttr (fun s : Border => okN (mBorder "" s)) [mBorder]
theorem unBorder_C {as : List Attr} (ha : okA as) : YC (fun x => okN (mBorder "" x)) (unBorder as) :=
  leaf_C ha borderAttr_C (by ok_simp [mBorder])
macro_rules
  | `(tactic| clean_child) => `(tactic| exact unBorder_C (by assumption))

theorem borders_iff {loc : String} {x : Borders} : okN (mBorders loc x) ↔ okN (mBorders "" x) := by
  simp [mBorders, okN_el]
theorem bordersStep_C : SC (fun s : Borders => okN (mBorders "" s)) bordersStep := by
  clean_step bordersStep (fun s : Borders => okN (mBorders "" s)) [mBorders, border_iff]
theorem unBorders_C : YC (fun s => okN (mBorders "" s)) unBorders :=
  loop_C (bordersStep_good 0) bordersStep_C (by ok_simp [mBorders])
macro_rules
  | `(tactic| clean_child) => `(tactic| exact unBorders_C)

theorem tblPrStep_C : SC (fun s : TblPr => okN (mTblPr s)) tblPrStep := by
  clean_step tblPrStep (fun s : TblPr => okN (mTblPr s)) [mTblPr, width_iff, borders_iff (loc := "tblBorders")]
theorem unTblPr_C : YC (fun s => okN (mTblPr s)) unTblPr :=
  loop_C (tblPrStep_good 0) tblPrStep_C (by ok_simp [mTblPr])
macro_rules
  | `(tactic| clean_child) => `(tactic| exact unTblPr_C)

theorem okL_grid {g : List (Option Int64)} :
    okL (g.flatMap (optN fun n => el "w" "gridCol" (intA "w" "w" n) [])) ↔ True := by
  induction g with
  | nil => simp [okL_nil]
  | cons a g ih => ok_simp []
theorem grid_ok {g : List (Option Int64)} : okN (mGrid g) ↔ True := by
  simp only [mGrid, okN_el, okA_nil, okL_grid, and_self]

theorem heightAttr_C : ∀ (s : RowHeight) (l v : String), xmlText s.rule → xmlText v →
    xmlText (heightAttr s l v).1.rule := by
  clean_attr heightAttr (fun s : RowHeight => xmlText s.rule) []
theorem trPrStep_C : SC (fun s : TrPr => okN (mTrPr s)) trPrStep := by
  intro s l as d hs ha hd
  unfold trPrStep
  split
  · have h := attrs_C (P := fun x : RowHeight => xmlText x.rule) heightAttr_C as {} ha xmlText_nil
    split
    · next heq => rw [heq] at h; rw [skipTo_val]; ok_simp [mTrPr]
    · exact hs
  · rw [skipTo_val]; ok_simp [mTrPr]
  · exact hs
theorem unTrPr_C : YC (fun s => okN (mTrPr s)) unTrPr :=
  loop_C (trPrStep_good 0) trPrStep_C (by ok_simp [mTrPr])
macro_rules
  | `(tactic| clean_child) => `(tactic| exact unTrPr_C)

theorem tcPrStep_C : SC (fun s : TcPr => okN (mTcPr s)) tcPrStep := by
  clean_step tcPrStep (fun s : TcPr => okN (mTcPr s)) [mTcPr, width_iff, borders_iff (loc := "tcBorders")]
theorem unTcPr_C : YC (fun s => okN (mTcPr s)) unTcPr :=
  loop_C (tcPrStep_good 0) tcPrStep_C (by ok_simp [mTcPr])
macro_rules
  | `(tactic| clean_child) => `(tactic| exact unTcPr_C)

theorem pgSz_ok {x : PgSz} : okN (mPgSz x) ↔ True := by ok_simp [mPgSz]
theorem pgMar_ok {x : PgMar} : okN (mPgMar x) ↔ True := by ok_simp [mPgMar]
theorem cols_ok {x : Int64} : okN (mCols x) ↔ True := by ok_simp [mCols]
theorem docGridAttr_C : ∀ (s : DocGrid) (l v : String), okN (mDocGrid s) → xmlText v → okN (mDocGrid (docGridAttr s l v).1) := by
  clean_attr docGridAttr (fun s : DocGrid => okN (mDocGrid s)) [mDocGrid]
theorem unDocGrid_C {as : List Attr} (ha : okA as) : YC (fun x => okN (mDocGrid x)) (unDocGrid as) :=
  leaf_C ha docGridAttr_C (by ok_simp [mDocGrid])
macro_rules
  | `(tactic| clean_child) => `(tactic| exact unDocGrid_C (by assumption))

theorem sectStep_C : SC (fun s : SectPr => okN (mSect s)) sectStep := by
  clean_step sectStep (fun s : SectPr => okN (mSect s)) [mSect, pgSz_ok, pgMar_ok, cols_ok]
theorem unSect_C : YC (fun s => okN (mSect s)) unSect :=
  loop_C (sectStep_good 0) sectStep_C (by ok_simp [mSect])
macro_rules
  | `(tactic| clean_child) => `(tactic| exact unSect_C)

end Docx
