import Verif.Lemmas.XmlFine

/-!
# Without bad numbers, decoders stay inside their element: all the decoders
-/

namespace Docx

set_option linter.unusedSectionVars false

variable [GoEnv]

/-- The recursive decoders are fine. -/
structure DecsFine (p : Decs) : Prop where
  para : ∀ file, F (p.para file)
  canvas : ∀ file, F (p.canvas file)
  parse : ∀ file r q as kids c rest stk, attrsOk q.loc as → OkCtx ((kids, q) :: c) →
    Fine (p.parse file r q.loc as (inCtx ((kids, q) :: c) rest stk)) rest stk

variable {p : Decs}

/-! ## Attributes -/

theorem shadeAttr_fine_shd : AttrFine "shd" shadeAttr := by
  intro s a v h
  unfold shadeAttr
  attr_fine h

theorem spacingAttr_fine_spacing : AttrFine "spacing" spacingAttr := by
  intro s a v h
  unfold spacingAttr
  attr_fine h

theorem indAttr_fine_ind : AttrFine "ind" indAttr := by
  intro s a v h
  unfold indAttr
  attr_fine h

theorem tabAttr_fine_tab : AttrFine "tab" tabAttr := by
  intro s a v h
  unfold tabAttr
  attr_fine h

theorem runFontsAttr_fine_rFonts : AttrFine "rFonts" runFontsAttr := by
  intro s a v h
  unfold runFontsAttr
  attr_fine h

theorem textAttr_fine_t : AttrFine "t" textAttr := by
  intro s a v h
  unfold textAttr
  attr_fine h

theorem extAttr_fine_chExt : AttrFine "chExt" extAttr := by
  intro s a v h
  unfold extAttr
  attr_fine h

theorem extAttr_fine_ext : AttrFine "ext" extAttr := by
  intro s a v h
  unfold extAttr
  attr_fine h

theorem extAttr_fine_extent : AttrFine "extent" extAttr := by
  intro s a v h
  unfold extAttr
  attr_fine h

theorem effAttr_fine_effectExtent : AttrFine "effectExtent" effAttr := by
  intro s a v h
  unfold effAttr
  attr_fine h

theorem idNameAttr_fine_cNvPr : AttrFine "cNvPr" idNameAttr := by
  intro s a v h
  unfold idNameAttr
  attr_fine h

theorem idNameAttr_fine_docPr : AttrFine "docPr" idNameAttr := by
  intro s a v h
  unfold idNameAttr
  attr_fine h

theorem blipAttr_fine_blip : AttrFine "blip" blipAttr := by
  intro s a v h
  unfold blipAttr
  attr_fine h

theorem xfrmAttr_fine_xfrm : AttrFine "xfrm" xfrmAttr := by
  intro s a v h
  unfold xfrmAttr
  attr_fine h

theorem offAttr_fine_chOff : AttrFine "chOff" offAttr := by
  intro s a v h
  unfold offAttr
  attr_fine h

theorem offAttr_fine_off : AttrFine "off" offAttr := by
  intro s a v h
  unfold offAttr
  attr_fine h

theorem offAttr_fine_simplePos : AttrFine "simplePos" offAttr := by
  intro s a v h
  unfold offAttr
  attr_fine h

theorem prstAttr_fine_prstGeom : AttrFine "prstGeom" prstAttr := by
  intro s a v h
  unfold prstAttr
  attr_fine h

theorem tileAttr_fine_tile : AttrFine "tile" tileAttr := by
  intro s a v h
  unfold tileAttr
  attr_fine h

theorem aBlipFillAttr_fine_blipFill : AttrFine "blipFill" aBlipFillAttr := by
  intro s a v h
  unfold aBlipFillAttr
  attr_fine h

theorem lineEndAttr_fine_headEnd : AttrFine "headEnd" lineEndAttr := by
  intro s a v h
  unfold lineEndAttr
  attr_fine h

theorem lineEndAttr_fine_tailEnd : AttrFine "tailEnd" lineEndAttr := by
  intro s a v h
  unfold lineEndAttr
  attr_fine h

theorem lineAttr_fine_ln : AttrFine "ln" lineAttr := by
  intro s a v h
  unfold lineAttr
  attr_fine h

theorem shapePrAttr_fine_grpSpPr : AttrFine "grpSpPr" shapePrAttr := by
  intro s a v h
  unfold shapePrAttr
  attr_fine h

theorem shapePrAttr_fine_spPr : AttrFine "spPr" shapePrAttr := by
  intro s a v h
  unfold shapePrAttr
  attr_fine h

theorem spLocksAttr_fine_spLocks : AttrFine "spLocks" spLocksAttr := by
  intro s a v h
  unfold spLocksAttr
  attr_fine h

theorem cNvSpPrAttr_fine_cNvSpPr : AttrFine "cNvSpPr" cNvSpPrAttr := by
  intro s a v h
  unfold cNvSpPrAttr
  attr_fine h

theorem bodyPrAttr_fine_bodyPr : AttrFine "bodyPr" bodyPrAttr := by
  intro s a v h
  unfold bodyPrAttr
  attr_fine h

theorem tblpPrAttr_fine_tblpPr : AttrFine "tblpPr" tblpPrAttr := by
  intro s a v h
  unfold tblpPrAttr
  attr_fine h

theorem tblStyleAttr_fine_tblStyle : AttrFine "tblStyle" tblStyleAttr := by
  intro s a v h
  unfold tblStyleAttr
  attr_fine h

theorem widthAttr_fine_tblW : AttrFine "tblW" widthAttr := by
  intro s a v h
  unfold widthAttr
  attr_fine h

theorem lookAttr_fine_tblLook : AttrFine "tblLook" lookAttr := by
  intro s a v h
  unfold lookAttr
  attr_fine h

theorem borderAttr_fine_bottom : AttrFine "bottom" borderAttr := by
  intro s a v h
  unfold borderAttr
  attr_fine h

theorem borderAttr_fine_insideH : AttrFine "insideH" borderAttr := by
  intro s a v h
  unfold borderAttr
  attr_fine h

theorem borderAttr_fine_insideV : AttrFine "insideV" borderAttr := by
  intro s a v h
  unfold borderAttr
  attr_fine h

theorem borderAttr_fine_left : AttrFine "left" borderAttr := by
  intro s a v h
  unfold borderAttr
  attr_fine h

theorem borderAttr_fine_right : AttrFine "right" borderAttr := by
  intro s a v h
  unfold borderAttr
  attr_fine h

theorem borderAttr_fine_top : AttrFine "top" borderAttr := by
  intro s a v h
  unfold borderAttr
  attr_fine h

theorem gridColAttr_fine_gridCol : AttrFine "gridCol" gridColAttr := by
  intro s a v h
  unfold gridColAttr
  attr_fine h

theorem heightAttr_fine_trHeight : AttrFine "trHeight" heightAttr := by
  intro s a v h
  unfold heightAttr
  attr_fine h

theorem pgSzAttr_fine_pgSz : AttrFine "pgSz" pgSzAttr := by
  intro s a v h
  unfold pgSzAttr
  attr_fine h

theorem pgMarAttr_fine_pgMar : AttrFine "pgMar" pgMarAttr := by
  intro s a v h
  unfold pgMarAttr
  attr_fine h

theorem colsAttr_fine_cols : AttrFine "cols" colsAttr := by
  intro s a v h
  unfold colsAttr
  attr_fine h

theorem docGridAttr_fine_docGrid : AttrFine "docGrid" docGridAttr := by
  intro s a v h
  unfold docGridAttr
  attr_fine h

theorem graphicDataAttr_fine_graphicData : AttrFine "graphicData" graphicDataAttr := by
  intro s a v h
  unfold graphicDataAttr
  attr_fine h

theorem graphicAttr_fine_graphic : AttrFine "graphic" graphicAttr := by
  intro s a v h
  unfold graphicAttr
  attr_fine h

theorem inlineAttr_fine_inline : AttrFine "inline" inlineAttr := by
  intro s a v h
  unfold inlineAttr
  attr_fine h

theorem anchorAttr_fine_anchor : AttrFine "anchor" anchorAttr := by
  intro s a v h
  unfold anchorAttr
  attr_fine h

theorem runAttr_fine_r : AttrFine "r" runAttr := by
  intro s a v h
  unfold runAttr
  attr_fine h

/-! ## Decoders -/

theorem unShade_fine (as : List Attr) {l : String} (hf : AttrFine l shadeAttr) (ha : attrsOk l as) :
    F (unShade as) :=
  leaf_fine hf ha

theorem unSpacing_fine (as : List Attr) {l : String} (hf : AttrFine l spacingAttr) (ha : attrsOk l as) :
    F (unSpacing as) :=
  leaf_fine hf ha

theorem unInd_fine (as : List Attr) {l : String} (hf : AttrFine l indAttr) (ha : attrsOk l as) :
    F (unInd as) :=
  leaf_fine hf ha

theorem unTab_fine (as : List Attr) {l : String} (hf : AttrFine l tabAttr) (ha : attrsOk l as) :
    F (unTab as) :=
  leaf_fine hf ha

theorem tabsStep_fine :
    StepFine tabsStep := by
  intro s q as kids c rest stk ha hc
  unfold tabsStep
  generalize q.loc = l at ha
  split
  · exact fine_sub (unTab_fine _ tabAttr_fine_tab ha) hc rest stk
  · exact fine_flat _ _ rest stk hc

theorem unTabs_fine :
    F (unTabs) :=
  loop_fine tabsStep_fine _

theorem unRunFonts_fine (as : List Attr) {l : String} (hf : AttrFine l runFontsAttr) (ha : attrsOk l as) :
    F (unRunFonts as) :=
  leaf_fine hf ha

theorem rprStep_fine :
    StepFine rprStep := by
  intro s q as kids c rest stk ha hc
  unfold rprStep
  generalize q.loc = l at ha
  split
  · exact fine_sub (unRunFonts_fine _ runFontsAttr_fine_rFonts ha) hc rest stk
  · exact fine_flat _ _ rest stk hc
  · exact fine_flat _ _ rest stk hc
  · exact fine_flat _ _ rest stk hc
  · exact fine_flat _ _ rest stk hc
  · exact fine_flat _ _ rest stk hc
  · exact fine_flat _ _ rest stk hc
  · exact fine_flat _ _ rest stk hc
  · exact fine_sub (unSpacing_fine _ spacingAttr_fine_spacing ha) hc rest stk
  · exact fine_flat _ _ rest stk hc
  · exact fine_flat _ _ rest stk hc
  · exact fine_flat _ _ rest stk hc
  · exact fine_sub (unShade_fine _ shadeAttr_fine_shd ha) hc rest stk
  · exact flatInt_fine ha _ _ (by decide) _ rest stk hc
  · exact fine_flat _ _ rest stk hc
  · exact fine_flat _ _ rest stk hc
  · exact fine_skipTo _ _ rest stk hc

theorem unRPr_fine :
    F (unRPr) :=
  loop_fine rprStep_fine _

theorem pprStep_fine :
    StepFine pprStep := by
  intro s q as kids c rest stk ha hc
  unfold pprStep
  generalize q.loc = l at ha
  split
  · exact fine_sub (unTabs_fine) hc rest stk
  · exact fine_sub (unSpacing_fine _ spacingAttr_fine_spacing ha) hc rest stk
  · exact fine_sub (unInd_fine _ indAttr_fine_ind ha) hc rest stk
  · exact fine_flat _ _ rest stk hc
  · exact fine_sub (unShade_fine _ shadeAttr_fine_shd ha) hc rest stk
  · exact flatInt_fine ha _ _ (by decide) _ rest stk hc
  · exact fine_sub (unRPr_fine) hc rest stk
  · exact fine_flat _ _ rest stk hc
  · exact fine_flat _ _ rest stk hc
  · exact flatInt_fine ha _ _ (by decide) _ rest stk hc
  · exact flatInt_fine ha _ _ (by decide) _ rest stk hc
  · exact flatInt_fine ha _ _ (by decide) _ rest stk hc
  · exact flatInt_fine ha _ _ (by decide) _ rest stk hc
  · exact fine_skipTo _ _ rest stk hc

theorem unPPr_fine :
    F (unPPr) :=
  loop_fine pprStep_fine _

theorem unBr_fine (as : List Attr) (ha : attrsOk "br" as) : F (unBr as) :=
  leaf_fine (l := "br") (fun _ _ _ _ => none_fine) ha

theorem unText_fine (as : List Attr) (ha : attrsOk "t" as) : F (unText as) :=
  withAttrs_fine textAttr_fine_t ha fun _ => loopC_fine
    (fun s _ _ _ _ rest stk _ hc => fine_flat s _ rest stk hc) _

theorem unExtent_fine (as : List Attr) {l : String} (hf : AttrFine l extAttr) (ha : attrsOk l as) :
    F (unExtent as) :=
  leaf_fine hf ha

theorem unEffectExtent_fine (as : List Attr) {l : String} (hf : AttrFine l effAttr) (ha : attrsOk l as) :
    F (unEffectExtent as) :=
  leaf_fine hf ha

theorem unIdName_fine (as : List Attr) {l : String} (hf : AttrFine l idNameAttr) (ha : attrsOk l as) :
    F (unIdName as) :=
  leaf_fine hf ha

theorem frameStep_fine :
    StepFine frameStep := by
  intro s q as kids c rest stk ha hc
  unfold frameStep
  generalize q.loc = l at ha
  split
  · exact flatIntSt_fine ha _ _ (by decide) _ rest stk hc
  · exact fine_skipTo _ _ rest stk hc

theorem unFramePr_fine :
    F (unFramePr) :=
  loop_fine frameStep_fine _

theorem picLocksStep_fine :
    StepFine picLocksStep := by
  intro s q as kids c rest stk ha hc
  unfold picLocksStep
  generalize q.loc = l at ha
  split
  · exact flatInt_fine ha _ _ (by decide) _ rest stk hc
  · exact fine_skipTo _ _ rest stk hc

theorem unCNvPicPr_fine (s : Option Int64) :
    F (unCNvPicPr s) :=
  loop_fine picLocksStep_fine _

theorem nvPicPrStep_fine : StepFine nvPicPrStep := by
  intro s q as kids c rest stk ha hc
  unfold nvPicPrStep
  generalize q.loc = l at ha
  split
  · split
    · exact fine_flat _ _ rest stk hc
    · rename_i hne
      have := getAtt_fine ha (by decide) hne
      rcases hg : getInt (getAtt as "id") with ⟨n, _ | e⟩
      · exact fine_here hc
      · rw [hg] at this
        exact fine_err (by simpa using this)
  · exact fine_sub (unCNvPicPr_fine _) hc rest stk
  · exact fine_skipTo _ _ rest stk hc

theorem unNvPicPr_fine :
    F (unNvPicPr) :=
  loop_fine nvPicPrStep_fine _

theorem blipStep_fine :
    StepFine blipStep := by
  intro s q as kids c rest stk ha hc
  unfold blipStep
  generalize q.loc = l at ha
  split
  · exact flatInt_fine ha _ _ (by decide) _ rest stk hc
  · exact fine_skipTo _ _ rest stk hc

theorem unBlip_fine (s : Blip) (as : List Attr) {l : String} (hf : AttrFine l blipAttr) (ha : attrsOk l as) :
    F (unBlip s as) :=
  withAttrs_fine hf ha fun _ => loop_fine blipStep_fine _

theorem stretchStep_fine :
    StepFine stretchStep := by
  intro s q as kids c rest stk ha hc
  unfold stretchStep
  generalize q.loc = l at ha
  split
  · exact fine_skipTo _ _ rest stk hc
  · exact fine_skipTo _ _ rest stk hc

theorem unStretch_fine (s : Bool) :
    F (unStretch s) :=
  loop_fine stretchStep_fine _

theorem picFillStep_fine :
    StepFine picFillStep := by
  intro s q as kids c rest stk ha hc
  unfold picFillStep
  generalize q.loc = l at ha
  split
  · exact fine_sub (unBlip_fine _ _ blipAttr_fine_blip ha) hc rest stk
  · exact fine_sub (unStretch_fine _) hc rest stk
  · exact fine_skipTo _ _ rest stk hc

theorem unPicFill_fine :
    F (unPicFill) :=
  loop_fine picFillStep_fine _

theorem xfrmStep_fine :
    StepFine xfrmStep := by
  intro s q as kids c rest stk ha hc
  unfold xfrmStep
  generalize q.loc = l at ha
  split
  · exact flatAttrs_fine offAttr_fine_off ha _ _ _ rest stk hc
  · exact flatAttrs_fine extAttr_fine_ext ha _ _ _ rest stk hc
  · exact flatAttrsV_fine offAttr_fine_chOff ha _ _ _ _ rest stk hc
  · exact flatAttrsV_fine extAttr_fine_chExt ha _ _ _ _ rest stk hc
  · exact fine_skipTo _ _ rest stk hc

theorem unXfrm_fine (s : Xfrm) (as : List Attr) {l : String} (hf : AttrFine l xfrmAttr) (ha : attrsOk l as) :
    F (unXfrm s as) :=
  withAttrs_fine hf ha fun _ => loop_fine xfrmStep_fine _

theorem prstStep_fine :
    StepFine prstStep := by
  intro s q as kids c rest stk ha hc
  unfold prstStep
  generalize q.loc = l at ha
  split
  · exact fine_skipTo _ _ rest stk hc
  · exact fine_skipTo _ _ rest stk hc

theorem unPrstGeom_fine (as : List Attr) {l : String} (hf : AttrFine l prstAttr) (ha : attrsOk l as) :
    F (unPrstGeom as) :=
  withAttrs_fine hf ha fun _ => loop_fine prstStep_fine _

theorem picSpPrStep_fine :
    StepFine picSpPrStep := by
  intro s q as kids c rest stk ha hc
  unfold picSpPrStep
  generalize q.loc = l at ha
  split
  · exact fine_sub (unXfrm_fine _ _ xfrmAttr_fine_xfrm ha) hc rest stk
  · exact fine_sub (unPrstGeom_fine _ prstAttr_fine_prstGeom ha) hc rest stk
  · exact fine_skipTo _ _ rest stk hc

theorem unPicSpPr_fine :
    F (unPicSpPr) :=
  loop_fine picSpPrStep_fine _

theorem picStep_fine :
    StepFine picStep := by
  intro s q as kids c rest stk ha hc
  unfold picStep
  generalize q.loc = l at ha
  split
  · exact fine_sub (unNvPicPr_fine) hc rest stk
  · exact fine_sub (unPicFill_fine) hc rest stk
  · exact fine_sub (unPicSpPr_fine) hc rest stk
  · exact fine_skipTo _ _ rest stk hc

theorem unPic_fine :
    F (unPic) :=
  loop_fine picStep_fine _

theorem posStep_fine : StepFine posStep := by
  intro s q as kids c rest stk ha hc
  unfold posStep
  split
  · exact fine_tolerate (reflInt_fine s.posOffset _ rest stk hc) _
  · exact fine_skipTo _ _ rest stk hc

theorem unPosition_fine (as : List Attr) :
    F (unPosition as) :=
  loop_fine posStep_fine _

theorem unTile_fine (as : List Attr) {l : String} (hf : AttrFine l tileAttr) (ha : attrsOk l as) :
    F (unTile as) :=
  leaf_fine hf ha

theorem aBlipFillStep_fine :
    StepFine aBlipFillStep := by
  intro s q as kids c rest stk ha hc
  unfold aBlipFillStep
  generalize q.loc = l at ha
  split
  · exact fine_sub (unBlip_fine _ _ blipAttr_fine_blip ha) hc rest stk
  · exact fine_flat _ _ rest stk hc
  · exact fine_sub (unTile_fine _ tileAttr_fine_tile ha) hc rest stk
  · exact fine_skipTo _ _ rest stk hc

theorem unABlipFill_fine (as : List Attr) {l : String} (hf : AttrFine l aBlipFillAttr) (ha : attrsOk l as) :
    F (unABlipFill as) :=
  withAttrs_fine hf ha fun _ => loop_fine aBlipFillStep_fine _

theorem solidFillStep_fine :
    StepFine solidFillStep := by
  intro s q as kids c rest stk ha hc
  unfold solidFillStep
  generalize q.loc = l at ha
  split
  · exact fine_skipTo _ _ rest stk hc
  · exact fine_skipTo _ _ rest stk hc

theorem unSolidFill_fine :
    F (unSolidFill) :=
  loop_fine solidFillStep_fine _

theorem unLineEnd_fine (as : List Attr) {l : String} (hf : AttrFine l lineEndAttr) (ha : attrsOk l as) :
    F (unLineEnd as) :=
  leaf_fine hf ha

theorem lineStep_fine :
    StepFine lineStep := by
  intro s q as kids c rest stk ha hc
  unfold lineStep
  generalize q.loc = l at ha
  split
  · exact fine_flat _ _ rest stk hc
  · exact fine_sub (unSolidFill_fine) hc rest stk
  · exact fine_flat _ _ rest stk hc
  · exact fine_flat _ _ rest stk hc
  · exact fine_flat _ _ rest stk hc
  · exact fine_sub (unLineEnd_fine _ lineEndAttr_fine_headEnd ha) hc rest stk
  · exact fine_sub (unLineEnd_fine _ lineEndAttr_fine_tailEnd ha) hc rest stk
  · exact fine_skipTo _ _ rest stk hc

theorem unLine_fine (as : List Attr) {l : String} (hf : AttrFine l lineAttr) (ha : attrsOk l as) :
    F (unLine as) :=
  withAttrs_fine hf ha fun _ => loop_fine lineStep_fine _

theorem shapePrStep_fine :
    StepFine shapePrStep := by
  intro s q as kids c rest stk ha hc
  unfold shapePrStep
  generalize q.loc = l at ha
  split
  · exact fine_sub (unXfrm_fine _ _ xfrmAttr_fine_xfrm ha) hc rest stk
  · exact fine_flat _ _ rest stk hc
  · exact fine_sub (unSolidFill_fine) hc rest stk
  · exact fine_sub (unABlipFill_fine _ aBlipFillAttr_fine_blipFill ha) hc rest stk
  · exact fine_flat _ _ rest stk hc
  · exact fine_sub (unLine_fine _ lineAttr_fine_ln ha) hc rest stk
  · exact fine_skipTo _ _ rest stk hc

theorem unShapePr_fine (as : List Attr) {l : String} (hf : AttrFine l shapePrAttr) (ha : attrsOk l as) :
    F (unShapePr as) :=
  withAttrs_fine hf ha fun _ => loop_fine shapePrStep_fine _

theorem cNvCnPrStep_fine :
    StepFine cNvCnPrStep := by
  intro s q as kids c rest stk ha hc
  unfold cNvCnPrStep
  generalize q.loc = l at ha
  split
  · exact fine_flat _ _ rest stk hc
  · exact fine_skipTo _ _ rest stk hc

theorem unCNvCnPr_fine :
    F (unCNvCnPr) :=
  loop_fine cNvCnPrStep_fine _

theorem unSpLocks_fine (as : List Attr) {l : String} (hf : AttrFine l spLocksAttr) (ha : attrsOk l as) :
    F (unSpLocks as) :=
  leaf_fine hf ha

theorem cNvSpPrStep_fine :
    StepFine cNvSpPrStep := by
  intro s q as kids c rest stk ha hc
  unfold cNvSpPrStep
  generalize q.loc = l at ha
  split
  · exact fine_sub (unSpLocks_fine _ spLocksAttr_fine_spLocks ha) hc rest stk
  · exact fine_skipTo _ _ rest stk hc

theorem unCNvSpPr_fine (as : List Attr) {l : String} (hf : AttrFine l cNvSpPrAttr) (ha : attrsOk l as) :
    F (unCNvSpPr as) :=
  withAttrs_fine hf ha fun _ => loop_fine cNvSpPrStep_fine _

theorem bodyPrStep_fine :
    StepFine bodyPrStep := by
  intro s q as kids c rest stk ha hc
  unfold bodyPrStep
  generalize q.loc = l at ha
  split
  · exact fine_flat _ _ rest stk hc
  · exact fine_skipTo _ _ rest stk hc

theorem unBodyPr_fine (as : List Attr) {l : String} (hf : AttrFine l bodyPrAttr) (ha : attrsOk l as) :
    F (unBodyPr as) :=
  withAttrs_fine hf ha fun _ => loop_fine bodyPrStep_fine _

theorem bgStep_fine :
    StepFine bgStep := by
  intro s q as kids c rest stk ha hc
  unfold bgStep
  generalize q.loc = l at ha
  split
  · exact fine_flat _ _ rest stk hc
  · exact fine_skipTo _ _ rest stk hc

theorem unBackground_fine :
    F (unBackground) :=
  loop_fine bgStep_fine _

theorem wholeStep_fine :
    StepFine wholeStep := by
  intro s q as kids c rest stk ha hc
  unfold wholeStep
  generalize q.loc = l at ha
  split
  · exact fine_sub (unLine_fine _ lineAttr_fine_ln ha) hc rest stk
  · exact fine_skipTo _ _ rest stk hc

theorem unWhole_fine :
    F (unWhole) :=
  loop_fine wholeStep_fine _

theorem grpPrStep_fine :
    StepFine grpPrStep := by
  intro s q as kids c rest stk ha hc
  unfold grpPrStep
  generalize q.loc = l at ha
  split
  · exact fine_skipTo _ _ rest stk hc
  · exact fine_skipTo _ _ rest stk hc

theorem unCNvGrpSpPr_fine :
    F (unCNvGrpSpPr) :=
  loop_fine grpPrStep_fine _

theorem unTblpPr_fine (as : List Attr) {l : String} (hf : AttrFine l tblpPrAttr) (ha : attrsOk l as) :
    F (unTblpPr as) :=
  leaf_fine hf ha

theorem unTblStyle_fine (as : List Attr) {l : String} (hf : AttrFine l tblStyleAttr) (ha : attrsOk l as) :
    F (unTblStyle as) :=
  leaf_fine hf ha

theorem unTblW_fine (as : List Attr) {l : String} (hf : AttrFine l widthAttr) (ha : attrsOk l as) :
    F (unTblW as) :=
  leaf_fine hf ha

theorem unTblLook_fine (as : List Attr) {l : String} (hf : AttrFine l lookAttr) (ha : attrsOk l as) :
    F (unTblLook as) :=
  leaf_fine hf ha

theorem unBorder_fine (as : List Attr) {l : String} (hf : AttrFine l borderAttr) (ha : attrsOk l as) :
    F (unBorder as) :=
  leaf_fine hf ha

theorem bordersStep_fine :
    StepFine bordersStep := by
  intro s q as kids c rest stk ha hc
  unfold bordersStep
  generalize q.loc = l at ha
  split
  · exact fine_sub (unBorder_fine _ borderAttr_fine_top ha) hc rest stk
  · exact fine_sub (unBorder_fine _ borderAttr_fine_left ha) hc rest stk
  · exact fine_sub (unBorder_fine _ borderAttr_fine_bottom ha) hc rest stk
  · exact fine_sub (unBorder_fine _ borderAttr_fine_right ha) hc rest stk
  · exact fine_sub (unBorder_fine _ borderAttr_fine_insideH ha) hc rest stk
  · exact fine_sub (unBorder_fine _ borderAttr_fine_insideV ha) hc rest stk
  · exact fine_skipTo _ _ rest stk hc

theorem unBorders_fine :
    F (unBorders) :=
  loop_fine bordersStep_fine _

theorem tblPrStep_fine :
    StepFine tblPrStep := by
  intro s q as kids c rest stk ha hc
  unfold tblPrStep
  generalize q.loc = l at ha
  split
  · exact fine_sub (unTblpPr_fine _ tblpPrAttr_fine_tblpPr ha) hc rest stk
  · exact fine_sub (unTblStyle_fine _ tblStyleAttr_fine_tblStyle ha) hc rest stk
  · exact fine_sub (unTblW_fine _ widthAttr_fine_tblW ha) hc rest stk
  · exact fine_skipTo _ _ rest stk hc
  · exact fine_sub (unTblLook_fine _ lookAttr_fine_tblLook ha) hc rest stk
  · exact fine_sub (unBorders_fine) hc rest stk
  · exact fine_skipTo _ _ rest stk hc

theorem unTblPr_fine :
    F (unTblPr) :=
  loop_fine tblPrStep_fine _

theorem unGridCol_fine (as : List Attr) {l : String} (hf : AttrFine l gridColAttr) (ha : attrsOk l as) :
    F (unGridCol as) :=
  leaf_fine hf ha

theorem gridStep_fine :
    StepFine gridStep := by
  intro s q as kids c rest stk ha hc
  unfold gridStep
  generalize q.loc = l at ha
  split
  · exact fine_sub (unGridCol_fine _ gridColAttr_fine_gridCol ha) hc rest stk
  · exact fine_skipTo _ _ rest stk hc

theorem unGrid_fine :
    F (unGrid) :=
  loop_fine gridStep_fine _

theorem trPrStep_fine : StepFine trPrStep := by
  intro s q as kids c rest stk ha hc
  unfold trPrStep
  generalize q.loc = l at ha
  split
  · have := attrs_fine heightAttr_fine_trHeight as {} ha
    rcases hv : attrs heightAttr {} as with ⟨v, _ | e⟩
    · exact fine_skipTo _ _ rest stk hc
    · rw [hv] at this
      exact fine_err (by simpa using this)
  · exact fine_skipTo _ _ rest stk hc
  · exact fine_skipTo _ _ rest stk hc

theorem unTrPr_fine :
    F (unTrPr) :=
  loop_fine trPrStep_fine _

theorem tcPrStep_fine :
    StepFine tcPrStep := by
  intro s q as kids c rest stk ha hc
  unfold tcPrStep
  generalize q.loc = l at ha
  split
  · exact flatInt_fine ha _ _ (by decide) _ rest stk hc
  · exact fine_flat _ _ rest stk hc
  · exact flatInt_fine ha _ _ (by decide) _ rest stk hc
  · exact fine_flat _ _ rest stk hc
  · exact fine_sub (unBorders_fine) hc rest stk
  · exact fine_sub (unShade_fine _ shadeAttr_fine_shd ha) hc rest stk
  · exact fine_skipTo _ _ rest stk hc

theorem unTcPr_fine :
    F (unTcPr) :=
  loop_fine tcPrStep_fine _

theorem unPgSz_fine (as : List Attr) {l : String} (hf : AttrFine l pgSzAttr) (ha : attrsOk l as) :
    F (unPgSz as) :=
  leaf_fine hf ha

theorem unPgMar_fine (as : List Attr) {l : String} (hf : AttrFine l pgMarAttr) (ha : attrsOk l as) :
    F (unPgMar as) :=
  leaf_fine hf ha

theorem unCols_fine (as : List Attr) {l : String} (hf : AttrFine l colsAttr) (ha : attrsOk l as) :
    F (unCols as) :=
  leaf_fine hf ha

theorem unDocGrid_fine (as : List Attr) {l : String} (hf : AttrFine l docGridAttr) (ha : attrsOk l as) :
    F (unDocGrid as) :=
  leaf_fine hf ha

theorem sectStep_fine :
    StepFine sectStep := by
  intro s q as kids c rest stk ha hc
  unfold sectStep
  generalize q.loc = l at ha
  split
  · exact fine_sub (unPgSz_fine _ pgSzAttr_fine_pgSz ha) hc rest stk
  · exact fine_sub (unPgMar_fine _ pgMarAttr_fine_pgMar ha) hc rest stk
  · exact fine_sub (unCols_fine _ colsAttr_fine_cols ha) hc rest stk
  · exact fine_sub (unDocGrid_fine _ docGridAttr_fine_docGrid ha) hc rest stk
  · exact fine_skipTo _ _ rest stk hc

theorem unSect_fine :
    F (unSect) :=
  loop_fine sectStep_fine _

theorem txbxContentStep_fine (h : DecsFine p) (file : Option DocId) :
    StepFine (txbxContentStep p file) := by
  intro s q as kids c rest stk ha hc
  unfold txbxContentStep
  generalize q.loc = l at ha
  split
  · exact fine_sub (h.para _) hc rest stk
  · exact fine_skipTo _ _ rest stk hc

theorem textBoxStep_fine (h : DecsFine p) (file : Option DocId) :
    StepFine (textBoxStep p file) := by
  intro s q as kids c rest stk ha hc
  unfold textBoxStep
  generalize q.loc = l at ha
  split
  · exact fine_sub (loop_fine (txbxContentStep_fine h _) _) hc rest stk
  · exact fine_skipTo _ _ rest stk hc

theorem unTextBox_fine (h : DecsFine p) (file : Option DocId) :
    F (unTextBox p file) :=
  loop_fine (textBoxStep_fine h _) _

theorem shapeStep_fine (h : DecsFine p) (file : Option DocId) :
    StepFine (shapeStep p file) := by
  intro s q as kids c rest stk ha hc
  unfold shapeStep
  generalize q.loc = l at ha
  split
  · exact fine_sub (unIdName_fine _ idNameAttr_fine_cNvPr ha) hc rest stk
  · exact fine_sub (unCNvCnPr_fine) hc rest stk
  · exact fine_sub (unCNvSpPr_fine _ cNvSpPrAttr_fine_cNvSpPr ha) hc rest stk
  · exact fine_sub (unShapePr_fine _ shapePrAttr_fine_spPr ha) hc rest stk
  · exact fine_sub (unTextBox_fine h _) hc rest stk
  · exact fine_sub (unBodyPr_fine _ bodyPrAttr_fine_bodyPr ha) hc rest stk
  · exact fine_skipTo _ _ rest stk hc

theorem unShape_fine (h : DecsFine p) (file : Option DocId) :
    F (unShape p file) :=
  loop_fine (shapeStep_fine h _) _

theorem groupShapeStep_fine (h : DecsFine p) (file : Option DocId) :
    StepFine (groupShapeStep p file) := by
  intro s q as kids c rest stk ha hc
  unfold groupShapeStep
  generalize q.loc = l at ha
  split
  · exact fine_sub (unIdName_fine _ idNameAttr_fine_cNvPr ha) hc rest stk
  · exact fine_sub (unCNvGrpSpPr_fine) hc rest stk
  · exact fine_sub (unShapePr_fine _ shapePrAttr_fine_grpSpPr ha) hc rest stk
  · exact fine_sub (unPic_fine) hc rest stk
  · exact fine_sub (unShape_fine h _) hc rest stk
  · exact fine_sub (h.canvas _) hc rest stk
  · exact fine_skipTo _ _ rest stk hc

theorem unGroupShape_fine (h : DecsFine p) (file : Option DocId) :
    F (unGroupShape p file) :=
  loop_fine (groupShapeStep_fine h _) _

theorem groupStep_fine (h : DecsFine p) (file : Option DocId) :
    StepFine (groupStep p file) := by
  intro s q as kids c rest stk ha hc
  unfold groupStep
  generalize q.loc = l at ha
  split
  · exact fine_sub (unCNvGrpSpPr_fine) hc rest stk
  · exact fine_sub (unShapePr_fine _ shapePrAttr_fine_grpSpPr ha) hc rest stk
  · exact fine_sub (unPic_fine) hc rest stk
  · exact fine_sub (unShape_fine h _) hc rest stk
  · exact fine_sub (h.canvas _) hc rest stk
  · exact fine_sub (unGroupShape_fine h _) hc rest stk
  · exact fine_skipTo _ _ rest stk hc

theorem unGroup_fine (h : DecsFine p) (file : Option DocId) :
    F (unGroup p file) :=
  loop_fine (groupStep_fine h _) _

theorem canvasStep_fine (h : DecsFine p) (file : Option DocId) :
    StepFine (canvasStep p file) := by
  intro s q as kids c rest stk ha hc
  unfold canvasStep
  generalize q.loc = l at ha
  split
  · exact fine_sub (unBackground_fine) hc rest stk
  · exact fine_sub (unWhole_fine) hc rest stk
  · exact fine_sub (unShape_fine h _) hc rest stk
  · exact fine_sub (unPic_fine) hc rest stk
  · exact fine_sub (unGroup_fine h _) hc rest stk
  · exact fine_skipTo _ _ rest stk hc

theorem unCanvas_fine (h : DecsFine p) (file : Option DocId) :
    F (unCanvas p file) :=
  loop_fine (canvasStep_fine h _) _

theorem graphicDataStep_fine (h : DecsFine p) (file : Option DocId) :
    StepFine (graphicDataStep p file) := by
  intro s q as kids c rest stk ha hc
  unfold graphicDataStep
  generalize q.loc = l at ha
  split
  · exact fine_sub (unPic_fine) hc rest stk
  · exact fine_sub (unShape_fine h _) hc rest stk
  · exact fine_sub (unCanvas_fine h _) hc rest stk
  · exact fine_sub (unGroup_fine h _) hc rest stk
  · exact fine_skipTo _ _ rest stk hc

theorem unGraphicData_fine (h : DecsFine p) (file : Option DocId) (as : List Attr) {l : String} (hf : AttrFine l graphicDataAttr) (ha : attrsOk l as) :
    F (unGraphicData p file as) :=
  withAttrs_fine hf ha fun _ => loop_fine (graphicDataStep_fine h _) _

theorem graphicStep_fine (h : DecsFine p) (file : Option DocId) :
    StepFine (graphicStep p file) := by
  intro s q as kids c rest stk ha hc
  unfold graphicStep
  generalize q.loc = l at ha
  split
  · exact fine_sub (unGraphicData_fine h _ _ graphicDataAttr_fine_graphicData ha) hc rest stk
  · exact fine_skipTo _ _ rest stk hc

theorem unGraphic_fine (h : DecsFine p) (file : Option DocId) (as : List Attr) {l : String} (hf : AttrFine l graphicAttr) (ha : attrsOk l as) :
    F (unGraphic p file as) :=
  withAttrs_fine hf ha fun _ => loop_fine (graphicStep_fine h _) _

theorem inlineStep_fine (h : DecsFine p) (file : Option DocId) :
    StepFine (inlineStep p file) := by
  intro s q as kids c rest stk ha hc
  unfold inlineStep
  generalize q.loc = l at ha
  split
  · exact flatAttrs_fine extAttr_fine_extent ha _ _ _ rest stk hc
  · exact flatAttrs_fine effAttr_fine_effectExtent ha _ _ _ rest stk hc
  · exact fine_sub (unIdName_fine _ idNameAttr_fine_docPr ha) hc rest stk
  · exact fine_sub (unFramePr_fine) hc rest stk
  · exact fine_sub (unGraphic_fine h _ _ graphicAttr_fine_graphic ha) hc rest stk
  · exact fine_skipTo _ _ rest stk hc

theorem unInline_fine (h : DecsFine p) (file : Option DocId) (as : List Attr) {l : String} (hf : AttrFine l inlineAttr) (ha : attrsOk l as) :
    F (unInline p file as) :=
  withAttrs_fine hf ha fun _ => loop_fine (inlineStep_fine h _) _

theorem anchorStep_fine (h : DecsFine p) (file : Option DocId) :
    StepFine (anchorStep p file) := by
  intro s q as kids c rest stk ha hc
  unfold anchorStep
  generalize q.loc = l at ha
  split
  · exact flatAttrs_fine offAttr_fine_simplePos ha _ _ _ rest stk hc
  · exact fine_sub (unPosition_fine _) hc rest stk
  · exact fine_sub (unPosition_fine _) hc rest stk
  · exact fine_sub (unExtent_fine _ extAttr_fine_extent ha) hc rest stk
  · exact fine_sub (unEffectExtent_fine _ effAttr_fine_effectExtent ha) hc rest stk
  · exact fine_flat _ _ rest stk hc
  · exact fine_flat _ _ rest stk hc
  · exact fine_sub (unIdName_fine _ idNameAttr_fine_docPr ha) hc rest stk
  · exact fine_sub (unFramePr_fine) hc rest stk
  · exact fine_sub (unGraphic_fine h _ _ graphicAttr_fine_graphic ha) hc rest stk
  · exact fine_skipTo _ _ rest stk hc

theorem unAnchor_fine (h : DecsFine p) (file : Option DocId) (as : List Attr) {l : String} (hf : AttrFine l anchorAttr) (ha : attrsOk l as) :
    F (unAnchor p file as) :=
  withAttrs_fine hf ha fun _ => loop_fine (anchorStep_fine h _) _

theorem drawingStep_fine (h : DecsFine p) (file : Option DocId) :
    StepFine (drawingStep p file) := by
  intro s q as kids c rest stk ha hc
  unfold drawingStep
  generalize q.loc = l at ha
  split
  · exact fine_sub (unInline_fine h _ _ inlineAttr_fine_inline ha) hc rest stk
  · exact fine_sub (unAnchor_fine h _ _ anchorAttr_fine_anchor ha) hc rest stk
  · exact fine_skipTo _ _ rest stk hc

theorem unDrawing_fine (h : DecsFine p) (file : Option DocId) :
    F (unDrawing p file) :=
  loop_fine (drawingStep_fine h _) _

theorem altN_fine {parse : Run → String → List Attr → Dec → Out Parsed}
    (hp : ∀ r q as kids c rest stk, attrsOk q.loc as → OkCtx ((kids, q) :: c) →
      Fine (parse r q.loc as (inCtx ((kids, q) :: c) rest stk)) rest stk) :
    ∀ (f : Nat) (r : Run), F (altN parse f r) := by
  intro f
  induction f with
  | zero => intro r c rest stk _; exact fine_err (by simp)
  | succ f ih =>
    intro r c rest stk h
    rw [altN]
    rcases token_ctx c rest stk h with ⟨_, ht⟩ | ⟨t, c', ht, hc', hst⟩
    · rw [ht]
      exact fine_here .nil
    · rw [ht]
      have hnext : Fine
          (match (inCtx c' rest stk).skip with
            | (none, d'') => altN parse f r d''
            | (some e, d'') => (⟨(r, none), some e, d''⟩ : Out Parsed)) rest stk := by
        have hsk := skip_fine (rest := rest) (stk := stk) hc'
        rcases he : (inCtx c' rest stk).skip with ⟨_ | e, d⟩
        · rw [he] at hsk
          obtain ⟨c1, hc1, hd⟩ := hsk.1 rfl
          simp only at hd
          subst hd
          exact ih r c1 rest stk hc1
        · rw [he] at hsk
          exact fine_err (by simpa using hsk.2)
      cases t with
      | start q as =>
        obtain ⟨kids, c0, rfl, ha⟩ := hst q as rfl
        simp only
        split
        · rcases token_ctx ((kids, q) :: c0) rest stk hc' with ⟨h0, _⟩ | ⟨t2, c2, ht2, hc2, hst2⟩
          · cases h0
          · rw [ht2]
            cases t2 with
            | start q2 as2 =>
              obtain ⟨kids2, c3, rfl, ha2⟩ := hst2 q2 as2 rfl
              exact hp r q2 as2 kids2 c3 rest stk ha2 hc2
            | stop q2 => exact fine_here hc2
            | chars x => exact fine_here hc2
            | other => exact fine_here hc2
            | bad => exact fine_here hc2
        · exact hnext
      | stop q =>
        simp only
        split
        · exact fine_here hc'
        · exact hnext
      | chars x => exact hnext
      | other => exact hnext
      | bad => exact hnext

theorem runParse_fine (h : DecsFine p) (file : Option DocId) (r : Run) (q : QName) (as : List Attr)
    (kids : List Node) (c : Ctx) (rest : List Tok) (stk : List StkEntry) (ha : attrsOk q.loc as)
    (hc : OkCtx ((kids, q) :: c)) :
    Fine (runParse p file r q.loc as (inCtx ((kids, q) :: c) rest stk)) rest stk := by
  unfold runParse
  generalize q.loc = l at ha
  split
  · exact fine_sub unRPr_fine hc rest stk
  · exact fine_tolerate (reflString_fine _ rest stk hc) _
  · exact fine_subStrict (unText_fine as ha) hc rest stk
  · exact fine_subStrict (unDrawing_fine h _) hc rest stk
  · exact fine_flat _ _ rest stk hc
  · exact fine_subStrict (unBr_fine as ha) hc rest stk
  · exact altN_fine (h.parse file) _ _ _ rest stk hc
  · exact fine_skipTo _ _ rest stk hc

theorem runStep_fine (h : DecsFine p) (file : Option DocId) : StepFine (runStep p file) := by
  intro s q as kids c rest stk ha hc
  have ho := runParse_fine h file s q as kids c rest stk ha hc
  unfold runStep
  rcases h1 : runParse p file s q.loc as (inCtx ((kids, q) :: c) rest stk) with ⟨v, _ | e, d⟩
  · rw [h1] at ho
    exact ⟨ho.inside, by simp⟩
  · rw [h1] at ho
    exact fine_err (by simpa using ho.soft)

theorem unRun_fine (h : DecsFine p) (file : Option DocId) (s : Run) (as : List Attr) {l : String} (hf : AttrFine l runAttr) (ha : attrsOk l as) :
    F (unRun p file s as) :=
  withAttrs_fine hf ha fun _ => loop_fine (runStep_fine h _) _

theorem hyperlinkStep_fine (h : DecsFine p) :
    StepFine (hyperlinkStep p) := by
  intro s q as kids c rest stk ha hc
  unfold hyperlinkStep
  generalize q.loc = l at ha
  split
  · exact fine_sub (unRun_fine h _ _ _ runAttr_fine_r ha) hc rest stk
  · exact fine_skipTo _ _ rest stk hc

theorem unLink_fine (h : DecsFine p) :
    F (unLink p) :=
  loop_fine (hyperlinkStep_fine h) _

theorem paraStep_fine (h : DecsFine p) (file : Option DocId) :
    StepFine (paraStep p file) := by
  intro s q as kids c rest stk ha hc
  unfold paraStep
  generalize q.loc = l at ha
  split
  · exact fine_sub (unLink_fine h) hc rest stk
  · exact fine_sub (unRun_fine h _ _ _ runAttr_fine_r ha) hc rest stk
  · exact fine_sub (unRPr_fine) hc rest stk
  · exact fine_sub (unPPr_fine) hc rest stk
  · exact fine_skipTo _ _ rest stk hc

theorem unPara_fine (h : DecsFine p) (file : Option DocId) : F (unPara p file) := by
  intro c rest stk hc
  have ho := loop_fine (paraStep_fine h file) { file := file } c rest stk hc
  unfold unPara
  generalize loop (paraStep p file) { file := file } (inCtx c rest stk) = o at ho
  rcases o with ⟨v, _ | e, d⟩
  · exact ho
  · exact fine_err (by simpa using ho.soft)

theorem decs_fine : ∀ k, DecsFine (decs k)
  | 0 =>
    { para := fun _ _ _ _ _ => fine_err (by simp)
      canvas := fun _ _ _ _ _ => fine_err (by simp)
      parse := fun _ _ _ _ _ _ _ _ _ _ => fine_err (by simp) }
  | k + 1 =>
    have ih := decs_fine k
    { para := unPara_fine ih
      canvas := unCanvas_fine ih
      parse := runParse_fine ih }

theorem cellStep_fine (h : DecsFine p) (file : Option DocId) :
    StepFine (cellStep p file) := by
  intro s q as kids c rest stk ha hc
  unfold cellStep
  generalize q.loc = l at ha
  split
  · exact fine_sub (unPara_fine h _) hc rest stk
  · exact fine_sub (unTcPr_fine) hc rest stk
  · exact fine_skipTo _ _ rest stk hc

theorem unCell_fine (h : DecsFine p) (file : Option DocId) :
    F (unCell p file) :=
  loop_fine (cellStep_fine h _) _

theorem rowStep_fine (h : DecsFine p) (file : Option DocId) :
    StepFine (rowStep p file) := by
  intro s q as kids c rest stk ha hc
  unfold rowStep
  generalize q.loc = l at ha
  split
  · exact fine_sub (unTrPr_fine) hc rest stk
  · exact fine_sub (unCell_fine h _) hc rest stk
  · exact fine_skipTo _ _ rest stk hc

theorem unRow_fine (h : DecsFine p) (file : Option DocId) :
    F (unRow p file) :=
  loop_fine (rowStep_fine h _) _

theorem tableStep_fine (h : DecsFine p) (file : Option DocId) :
    StepFine (tableStep p file) := by
  intro s q as kids c rest stk ha hc
  unfold tableStep
  generalize q.loc = l at ha
  split
  · exact fine_sub (unRow_fine h _) hc rest stk
  · exact fine_sub (unTblPr_fine) hc rest stk
  · exact fine_sub (unGrid_fine) hc rest stk
  · exact fine_skipTo _ _ rest stk hc

theorem unTable_fine (h : DecsFine p) (file : Option DocId) :
    F (unTable p file) :=
  loop_fine (tableStep_fine h _) _

theorem bodyStep_fine (h : DecsFine p) (file : Option DocId) :
    StepFine (bodyStep p file) := by
  intro s q as kids c rest stk ha hc
  unfold bodyStep
  generalize q.loc = l at ha
  split
  · exact fine_sub (unPara_fine h _) hc rest stk
  · exact fine_sub (unTable_fine h _) hc rest stk
  · exact fine_sub (unSect_fine) hc rest stk
  · exact fine_skipTo _ _ rest stk hc

theorem unBody_fine (h : DecsFine p) (file : Option DocId) (s : List BItem) :
    F (unBody p file s) :=
  loop_fine (bodyStep_fine h _) _

theorem documentStep_fine (h : DecsFine p) (file : Option DocId) :
    StepFine (documentStep p file) := by
  intro s q as kids c rest stk ha hc
  unfold documentStep
  generalize q.loc = l at ha
  split
  · exact fine_sub (unBody_fine h _ _) hc rest stk
  · exact fine_skipTo _ _ rest stk hc

theorem unDocument_fine (h : DecsFine p) (file : Option DocId) (s : List BItem) :
    F (unDocument p file s) :=
  loop_fine (documentStep_fine h _) _


end Docx
