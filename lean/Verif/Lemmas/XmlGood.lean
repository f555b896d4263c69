import Verif.Lemmas.Xml

/-!
# Every decoder uses tokens up and never reaches its bound
-/

namespace Docx

set_option linter.unusedSectionVars false

variable [GoEnv]

omit [GoEnv] in
theorem pair_noFuel {σ : Type} {s : σ} : ((s, none) : σ × Option Err).2 ≠ some .fuel := by simp

/-- closes the attribute cases -/
macro "attr_good" : tactic =>
  `(tactic| (repeat' split) <;> first
      | exact pair_noFuel
      | exact intAttr_noFuel _ _
      | exact intAttrNE_noFuel _ _ _
      | exact intAttrLoose_noFuel _ _
      | exact atoiAttr_noFuel _ _)

omit [GoEnv] in
theorem shadeAttr_good : AttrGood shadeAttr := by
  intro s l v; unfold shadeAttr; attr_good

theorem spacingAttr_good : AttrGood spacingAttr := by
  intro s l v; unfold spacingAttr; attr_good

theorem indAttr_good : AttrGood indAttr := by
  intro s l v; unfold indAttr; attr_good

theorem tabAttr_good : AttrGood tabAttr := by
  intro s l v; unfold tabAttr; attr_good

omit [GoEnv] in
theorem runFontsAttr_good : AttrGood runFontsAttr := by
  intro s l v; unfold runFontsAttr; attr_good

omit [GoEnv] in
theorem textAttr_good : AttrGood textAttr := by
  intro s l v; unfold textAttr; attr_good

theorem extAttr_good : AttrGood extAttr := by
  intro s l v; unfold extAttr; attr_good

theorem effAttr_good : AttrGood effAttr := by
  intro s l v; unfold effAttr; attr_good

theorem idNameAttr_good : AttrGood idNameAttr := by
  intro s l v; unfold idNameAttr; attr_good

omit [GoEnv] in
theorem blipAttr_good : AttrGood blipAttr := by
  intro s l v; unfold blipAttr; attr_good

theorem xfrmAttr_good : AttrGood xfrmAttr := by
  intro s l v; unfold xfrmAttr; attr_good

theorem offAttr_good : AttrGood offAttr := by
  intro s l v; unfold offAttr; attr_good

omit [GoEnv] in
theorem prstAttr_good : AttrGood prstAttr := by
  intro s l v; unfold prstAttr; attr_good

theorem tileAttr_good : AttrGood tileAttr := by
  intro s l v; unfold tileAttr; attr_good

theorem aBlipFillAttr_good : AttrGood aBlipFillAttr := by
  intro s l v; unfold aBlipFillAttr; attr_good

omit [GoEnv] in
theorem lineEndAttr_good : AttrGood lineEndAttr := by
  intro s l v; unfold lineEndAttr; attr_good

theorem lineAttr_good : AttrGood lineAttr := by
  intro s l v; unfold lineAttr; attr_good

omit [GoEnv] in
theorem shapePrAttr_good : AttrGood shapePrAttr := by
  intro s l v; unfold shapePrAttr; attr_good

theorem spLocksAttr_good : AttrGood spLocksAttr := by
  intro s l v; unfold spLocksAttr; attr_good

theorem cNvSpPrAttr_good : AttrGood cNvSpPrAttr := by
  intro s l v; unfold cNvSpPrAttr; attr_good

theorem bodyPrAttr_good : AttrGood bodyPrAttr := by
  intro s l v; unfold bodyPrAttr; attr_good

theorem tblpPrAttr_good : AttrGood tblpPrAttr := by
  intro s l v; unfold tblpPrAttr; attr_good

omit [GoEnv] in
theorem tblStyleAttr_good : AttrGood tblStyleAttr := by
  intro s l v; unfold tblStyleAttr; attr_good

theorem widthAttr_good : AttrGood widthAttr := by
  intro s l v; unfold widthAttr; attr_good

omit [GoEnv] in
theorem lookAttr_good : AttrGood lookAttr := by
  intro s l v; unfold lookAttr; attr_good

theorem borderAttr_good : AttrGood borderAttr := by
  intro s l v; unfold borderAttr; attr_good

theorem gridColAttr_good : AttrGood gridColAttr := by
  intro s l v; unfold gridColAttr; attr_good

theorem heightAttr_good : AttrGood heightAttr := by
  intro s l v; unfold heightAttr; attr_good

omit [GoEnv] in
theorem pgSzAttr_good : AttrGood pgSzAttr := by
  intro s l v; unfold pgSzAttr; attr_good

omit [GoEnv] in
theorem pgMarAttr_good : AttrGood pgMarAttr := by
  intro s l v; unfold pgMarAttr; attr_good

omit [GoEnv] in
theorem colsAttr_good : AttrGood colsAttr := by
  intro s l v; unfold colsAttr; attr_good

omit [GoEnv] in
theorem docGridAttr_good : AttrGood docGridAttr := by
  intro s l v; unfold docGridAttr; attr_good

omit [GoEnv] in
theorem graphicDataAttr_good : AttrGood graphicDataAttr := by
  intro s l v; unfold graphicDataAttr; attr_good

omit [GoEnv] in
theorem graphicAttr_good : AttrGood graphicAttr := by
  intro s l v; unfold graphicAttr; attr_good

theorem inlineAttr_good : AttrGood inlineAttr := by
  intro s l v; unfold inlineAttr; attr_good

theorem anchorAttr_good : AttrGood anchorAttr := by
  intro s l v; unfold anchorAttr; attr_good

omit [GoEnv] in
theorem runAttr_good : AttrGood runAttr := by
  intro s l v; unfold runAttr; attr_good

omit [GoEnv] in
theorem unShade_good (k : Nat) (as : List Attr) : Good k (unShade as) := good_leaf k shadeAttr_good _ _

theorem unSpacing_good (k : Nat) (as : List Attr) : Good k (unSpacing as) := good_leaf k spacingAttr_good _ _

theorem unInd_good (k : Nat) (as : List Attr) : Good k (unInd as) := good_leaf k indAttr_good _ _

theorem unTab_good (k : Nat) (as : List Attr) : Good k (unTab as) := good_leaf k tabAttr_good _ _

theorem tabsStep_good (k : Nat) : StepGood k tabsStep := by
  intro s l as
  unfold tabsStep
  split <;> first
    | exact good_skipTo _ _
    | exact good_flatInt _ _ _ _
    | exact good_flatIntSt _ _ _ _
    | exact good_sub (unTab_good k _) _
    | exact good_flat _ _ (by simp)

theorem unTabs_good (k : Nat)  : Good k unTabs :=
  good_loop' (tabsStep_good k) _

omit [GoEnv] in
theorem unRunFonts_good (k : Nat) (as : List Attr) : Good k (unRunFonts as) := good_leaf k runFontsAttr_good _ _

theorem rprStep_good (k : Nat) : StepGood k rprStep := by
  intro s l as
  unfold rprStep
  split <;> first
    | exact good_skipTo _ _
    | exact good_flatInt _ _ _ _
    | exact good_flatIntSt _ _ _ _
    | exact good_sub (unRunFonts_good k _) _
    | exact good_sub (unSpacing_good k _) _
    | exact good_sub (unShade_good k _) _
    | exact good_flat _ _ (by simp)

theorem unRPr_good (k : Nat)  : Good k unRPr :=
  good_loop' (rprStep_good k) _

theorem pprStep_good (k : Nat) : StepGood k pprStep := by
  intro s l as
  unfold pprStep
  split <;> first
    | exact good_skipTo _ _
    | exact good_flatInt _ _ _ _
    | exact good_flatIntSt _ _ _ _
    | exact good_sub (unTabs_good k) _
    | exact good_sub (unSpacing_good k _) _
    | exact good_sub (unInd_good k _) _
    | exact good_sub (unShade_good k _) _
    | exact good_sub (unRPr_good k) _
    | exact good_flat _ _ (by simp)

theorem unPPr_good (k : Nat)  : Good k unPPr :=
  good_loop' (pprStep_good k) _

omit [GoEnv] in
theorem unBr_good (k : Nat) (as : List Attr) : Good k (unBr as) := good_leaf k (fun _ _ _ => by simp) _ _

omit [GoEnv] in
theorem unText_good (k : Nat) (as : List Attr) : Good k (unText as) :=
  good_withAttrs textAttr_good (fun s => (good_loopC (k := k)
    (fun _ _ _ => good_flat _ _ (by simp)) s).mono (Nat.le_succ k)) _ _

theorem unExtent_good (k : Nat) (as : List Attr) : Good k (unExtent as) := good_leaf k extAttr_good _ _

theorem unEffectExtent_good (k : Nat) (as : List Attr) : Good k (unEffectExtent as) := good_leaf k effAttr_good _ _

theorem unIdName_good (k : Nat) (as : List Attr) : Good k (unIdName as) := good_leaf k idNameAttr_good _ _

theorem frameStep_good (k : Nat) : StepGood k frameStep := by
  intro s l as
  unfold frameStep
  split <;> first
    | exact good_skipTo _ _
    | exact good_flatInt _ _ _ _
    | exact good_flatIntSt _ _ _ _
    | exact good_flat _ _ (by simp)

theorem unFramePr_good (k : Nat)  : Good k unFramePr :=
  good_loop' (frameStep_good k) _

theorem picLocksStep_good (k : Nat) : StepGood k picLocksStep := by
  intro s l as
  unfold picLocksStep
  split <;> first
    | exact good_skipTo _ _
    | exact good_flatInt _ _ _ _
    | exact good_flatIntSt _ _ _ _
    | exact good_flat _ _ (by simp)

theorem unCNvPicPr_good (k : Nat) (s : Option Int64) : Good k (unCNvPicPr s) :=
  good_loop' (picLocksStep_good k) _

theorem nvPicPrStep_good (k : Nat) : StepGood k nvPicPrStep := by
  intro s l as
  unfold nvPicPrStep
  split
  · split
    · exact good_flat _ _ (by simp)
    · have := getInt_noFuel (getAtt as "id")
      split
      · exact good_flat _ _ (by simp)
      · rename_i hh; rw [hh] at this; exact good_flat _ _ this
  · exact good_sub (unCNvPicPr_good k _) _
  · exact good_skipTo _ _

theorem unNvPicPr_good (k : Nat)  : Good k unNvPicPr :=
  good_loop' (nvPicPrStep_good k) _

theorem blipStep_good (k : Nat) : StepGood k blipStep := by
  intro s l as
  unfold blipStep
  split <;> first
    | exact good_skipTo _ _
    | exact good_flatInt _ _ _ _
    | exact good_flatIntSt _ _ _ _
    | exact good_flat _ _ (by simp)

theorem unBlip_good (k : Nat) (s : Blip) (as : List Attr) : Good k (unBlip s as) :=
  good_withAttrs blipAttr_good (fun s => good_loop' (blipStep_good k) s) _ _

theorem stretchStep_good (k : Nat) : StepGood k stretchStep := by
  intro s l as
  unfold stretchStep
  split <;> first
    | exact good_skipTo _ _
    | exact good_flatInt _ _ _ _
    | exact good_flatIntSt _ _ _ _
    | exact good_flat _ _ (by simp)

theorem unStretch_good (k : Nat) (s : Bool) : Good k (unStretch s) :=
  good_loop' (stretchStep_good k) _

theorem picFillStep_good (k : Nat) : StepGood k picFillStep := by
  intro s l as
  unfold picFillStep
  split <;> first
    | exact good_skipTo _ _
    | exact good_flatInt _ _ _ _
    | exact good_flatIntSt _ _ _ _
    | exact good_sub (unBlip_good k _ _) _
    | exact good_sub (unStretch_good k _) _
    | exact good_flat _ _ (by simp)

theorem unPicFill_good (k : Nat)  : Good k unPicFill :=
  good_loop' (picFillStep_good k) _

theorem xfrmStep_good (k : Nat) : StepGood k xfrmStep := by
  intro s l as
  unfold xfrmStep
  split <;> first
    | exact good_skipTo _ _
    | exact good_flatInt _ _ _ _
    | exact good_flatIntSt _ _ _ _
    | exact good_flatAttrs _ offAttr_good _ _ _
    | exact good_flatAttrsV _ _ offAttr_good _ _ _
    | exact good_flatAttrs _ extAttr_good _ _ _
    | exact good_flatAttrsV _ _ extAttr_good _ _ _
    | exact good_flat _ _ (by simp)

theorem unXfrm_good (k : Nat) (s : Xfrm) (as : List Attr) : Good k (unXfrm s as) :=
  good_withAttrs xfrmAttr_good (fun s => good_loop' (xfrmStep_good k) s) _ _

theorem prstStep_good (k : Nat) : StepGood k prstStep := by
  intro s l as
  unfold prstStep
  split <;> first
    | exact good_skipTo _ _
    | exact good_flatInt _ _ _ _
    | exact good_flatIntSt _ _ _ _
    | exact good_flat _ _ (by simp)

theorem unPrstGeom_good (k : Nat) (as : List Attr) : Good k (unPrstGeom as) :=
  good_withAttrs prstAttr_good (fun s => good_loop' (prstStep_good k) s) _ _

theorem picSpPrStep_good (k : Nat) : StepGood k picSpPrStep := by
  intro s l as
  unfold picSpPrStep
  split <;> first
    | exact good_skipTo _ _
    | exact good_flatInt _ _ _ _
    | exact good_flatIntSt _ _ _ _
    | exact good_sub (unXfrm_good k _ _) _
    | exact good_sub (unPrstGeom_good k _) _
    | exact good_flat _ _ (by simp)

theorem unPicSpPr_good (k : Nat)  : Good k unPicSpPr :=
  good_loop' (picSpPrStep_good k) _

theorem picStep_good (k : Nat) : StepGood k picStep := by
  intro s l as
  unfold picStep
  split <;> first
    | exact good_skipTo _ _
    | exact good_flatInt _ _ _ _
    | exact good_flatIntSt _ _ _ _
    | exact good_sub (unNvPicPr_good k) _
    | exact good_sub (unPicFill_good k) _
    | exact good_sub (unPicSpPr_good k) _
    | exact good_flat _ _ (by simp)

theorem unPic_good (k : Nat)  : Good k unPic :=
  good_loop' (picStep_good k) _

omit [GoEnv] in
theorem posStep_good (k : Nat) : StepGood k posStep := by
  intro s l as d
  unfold posStep
  split
  · have := good_reflInt k s.posOffset d
    exact ⟨this.1, fun h => tolerate_noFuel (this.2 h)⟩
  · exact good_skipTo k s d

theorem unPosition_good (k : Nat) (as : List Attr) : Good k (unPosition as) :=
  good_loop' (posStep_good k) _

theorem unTile_good (k : Nat) (as : List Attr) : Good k (unTile as) := good_leaf k tileAttr_good _ _

theorem aBlipFillStep_good (k : Nat) : StepGood k aBlipFillStep := by
  intro s l as
  unfold aBlipFillStep
  split <;> first
    | exact good_skipTo _ _
    | exact good_flatInt _ _ _ _
    | exact good_flatIntSt _ _ _ _
    | exact good_sub (unBlip_good k _ _) _
    | exact good_sub (unTile_good k _) _
    | exact good_flat _ _ (by simp)

theorem unABlipFill_good (k : Nat) (as : List Attr) : Good k (unABlipFill as) :=
  good_withAttrs aBlipFillAttr_good (fun s => good_loop' (aBlipFillStep_good k) s) _ _

theorem solidFillStep_good (k : Nat) : StepGood k solidFillStep := by
  intro s l as
  unfold solidFillStep
  split <;> first
    | exact good_skipTo _ _
    | exact good_flatInt _ _ _ _
    | exact good_flatIntSt _ _ _ _
    | exact good_flat _ _ (by simp)

theorem unSolidFill_good (k : Nat)  : Good k unSolidFill :=
  good_loop' (solidFillStep_good k) _

omit [GoEnv] in
theorem unLineEnd_good (k : Nat) (as : List Attr) : Good k (unLineEnd as) := good_leaf k lineEndAttr_good _ _

theorem lineStep_good (k : Nat) : StepGood k lineStep := by
  intro s l as
  unfold lineStep
  split <;> first
    | exact good_skipTo _ _
    | exact good_flatInt _ _ _ _
    | exact good_flatIntSt _ _ _ _
    | exact good_sub (unSolidFill_good k) _
    | exact good_sub (unLineEnd_good k _) _
    | exact good_flat _ _ (by simp)

theorem unLine_good (k : Nat) (as : List Attr) : Good k (unLine as) :=
  good_withAttrs lineAttr_good (fun s => good_loop' (lineStep_good k) s) _ _

theorem shapePrStep_good (k : Nat) : StepGood k shapePrStep := by
  intro s l as
  unfold shapePrStep
  split <;> first
    | exact good_skipTo _ _
    | exact good_flatInt _ _ _ _
    | exact good_flatIntSt _ _ _ _
    | exact good_sub (unXfrm_good k _ _) _
    | exact good_sub (unSolidFill_good k) _
    | exact good_sub (unABlipFill_good k _) _
    | exact good_sub (unLine_good k _) _
    | exact good_flat _ _ (by simp)

theorem unShapePr_good (k : Nat) (as : List Attr) : Good k (unShapePr as) :=
  good_withAttrs shapePrAttr_good (fun s => good_loop' (shapePrStep_good k) s) _ _

theorem cNvCnPrStep_good (k : Nat) : StepGood k cNvCnPrStep := by
  intro s l as
  unfold cNvCnPrStep
  split <;> first
    | exact good_skipTo _ _
    | exact good_flatInt _ _ _ _
    | exact good_flatIntSt _ _ _ _
    | exact good_flat _ _ (by simp)

theorem unCNvCnPr_good (k : Nat)  : Good k unCNvCnPr :=
  good_loop' (cNvCnPrStep_good k) _

theorem unSpLocks_good (k : Nat) (as : List Attr) : Good k (unSpLocks as) := good_leaf k spLocksAttr_good _ _

theorem cNvSpPrStep_good (k : Nat) : StepGood k cNvSpPrStep := by
  intro s l as
  unfold cNvSpPrStep
  split <;> first
    | exact good_skipTo _ _
    | exact good_flatInt _ _ _ _
    | exact good_flatIntSt _ _ _ _
    | exact good_sub (unSpLocks_good k _) _
    | exact good_flat _ _ (by simp)

theorem unCNvSpPr_good (k : Nat) (as : List Attr) : Good k (unCNvSpPr as) :=
  good_withAttrs cNvSpPrAttr_good (fun s => good_loop' (cNvSpPrStep_good k) s) _ _

theorem bodyPrStep_good (k : Nat) : StepGood k bodyPrStep := by
  intro s l as
  unfold bodyPrStep
  split <;> first
    | exact good_skipTo _ _
    | exact good_flatInt _ _ _ _
    | exact good_flatIntSt _ _ _ _
    | exact good_flat _ _ (by simp)

theorem unBodyPr_good (k : Nat) (as : List Attr) : Good k (unBodyPr as) :=
  good_withAttrs bodyPrAttr_good (fun s => good_loop' (bodyPrStep_good k) s) _ _

theorem bgStep_good (k : Nat) : StepGood k bgStep := by
  intro s l as
  unfold bgStep
  split <;> first
    | exact good_skipTo _ _
    | exact good_flatInt _ _ _ _
    | exact good_flatIntSt _ _ _ _
    | exact good_flat _ _ (by simp)

theorem unBackground_good (k : Nat)  : Good k unBackground :=
  good_loop' (bgStep_good k) _

theorem wholeStep_good (k : Nat) : StepGood k wholeStep := by
  intro s l as
  unfold wholeStep
  split <;> first
    | exact good_skipTo _ _
    | exact good_flatInt _ _ _ _
    | exact good_flatIntSt _ _ _ _
    | exact good_sub (unLine_good k _) _
    | exact good_flat _ _ (by simp)

theorem unWhole_good (k : Nat)  : Good k unWhole :=
  good_loop' (wholeStep_good k) _

theorem grpPrStep_good (k : Nat) : StepGood k grpPrStep := by
  intro s l as
  unfold grpPrStep
  split <;> first
    | exact good_skipTo _ _
    | exact good_flatInt _ _ _ _
    | exact good_flatIntSt _ _ _ _
    | exact good_flat _ _ (by simp)

theorem unCNvGrpSpPr_good (k : Nat)  : Good k unCNvGrpSpPr :=
  good_loop' (grpPrStep_good k) _

theorem unTblpPr_good (k : Nat) (as : List Attr) : Good k (unTblpPr as) := good_leaf k tblpPrAttr_good _ _

omit [GoEnv] in
theorem unTblStyle_good (k : Nat) (as : List Attr) : Good k (unTblStyle as) := good_leaf k tblStyleAttr_good _ _

theorem unTblW_good (k : Nat) (as : List Attr) : Good k (unTblW as) := good_leaf k widthAttr_good _ _

omit [GoEnv] in
theorem unTblLook_good (k : Nat) (as : List Attr) : Good k (unTblLook as) := good_leaf k lookAttr_good _ _

theorem unBorder_good (k : Nat) (as : List Attr) : Good k (unBorder as) := good_leaf k borderAttr_good _ _

theorem bordersStep_good (k : Nat) : StepGood k bordersStep := by
  intro s l as
  unfold bordersStep
  split <;> first
    | exact good_skipTo _ _
    | exact good_flatInt _ _ _ _
    | exact good_flatIntSt _ _ _ _
    | exact good_sub (unBorder_good k _) _
    | exact good_flat _ _ (by simp)

theorem unBorders_good (k : Nat)  : Good k unBorders :=
  good_loop' (bordersStep_good k) _

theorem tblPrStep_good (k : Nat) : StepGood k tblPrStep := by
  intro s l as
  unfold tblPrStep
  split <;> first
    | exact good_skipTo _ _
    | exact good_flatInt _ _ _ _
    | exact good_flatIntSt _ _ _ _
    | exact good_sub (unTblpPr_good k _) _
    | exact good_sub (unTblStyle_good k _) _
    | exact good_sub (unTblW_good k _) _
    | exact good_sub (unTblLook_good k _) _
    | exact good_sub (unBorders_good k) _
    | exact good_flat _ _ (by simp)

theorem unTblPr_good (k : Nat)  : Good k unTblPr :=
  good_loop' (tblPrStep_good k) _

theorem unGridCol_good (k : Nat) (as : List Attr) : Good k (unGridCol as) := good_leaf k gridColAttr_good _ _

theorem gridStep_good (k : Nat) : StepGood k gridStep := by
  intro s l as
  unfold gridStep
  split <;> first
    | exact good_skipTo _ _
    | exact good_flatInt _ _ _ _
    | exact good_flatIntSt _ _ _ _
    | exact good_sub (unGridCol_good k _) _
    | exact good_flat _ _ (by simp)

theorem unGrid_good (k : Nat)  : Good k unGrid :=
  good_loop' (gridStep_good k) _

theorem trPrStep_good (k : Nat) : StepGood k trPrStep := by
  intro s l as d
  unfold trPrStep
  split
  · have := attrs_noFuel heightAttr_good as {}
    split
    · exact good_skipTo k _ d
    · rename_i hh; rw [hh] at this; exact ⟨List.suffix_refl _, fun _ => this⟩
  · exact good_skipTo k _ d
  · exact good_skipTo k _ d

theorem unTrPr_good (k : Nat)  : Good k unTrPr :=
  good_loop' (trPrStep_good k) _

theorem tcPrStep_good (k : Nat) : StepGood k tcPrStep := by
  intro s l as
  unfold tcPrStep
  split <;> first
    | exact good_skipTo _ _
    | exact good_flatInt _ _ _ _
    | exact good_flatIntSt _ _ _ _
    | exact good_sub (unBorders_good k) _
    | exact good_sub (unShade_good k _) _
    | exact good_flat _ _ (by simp)

theorem unTcPr_good (k : Nat)  : Good k unTcPr :=
  good_loop' (tcPrStep_good k) _

omit [GoEnv] in
theorem unPgSz_good (k : Nat) (as : List Attr) : Good k (unPgSz as) := good_leaf k pgSzAttr_good _ _

omit [GoEnv] in
theorem unPgMar_good (k : Nat) (as : List Attr) : Good k (unPgMar as) := good_leaf k pgMarAttr_good _ _

omit [GoEnv] in
theorem unCols_good (k : Nat) (as : List Attr) : Good k (unCols as) := good_leaf k colsAttr_good _ _

omit [GoEnv] in
theorem unDocGrid_good (k : Nat) (as : List Attr) : Good k (unDocGrid as) := good_leaf k docGridAttr_good _ _

theorem sectStep_good (k : Nat) : StepGood k sectStep := by
  intro s l as
  unfold sectStep
  split <;> first
    | exact good_skipTo _ _
    | exact good_flatInt _ _ _ _
    | exact good_flatIntSt _ _ _ _
    | exact good_sub (unPgSz_good k _) _
    | exact good_sub (unPgMar_good k _) _
    | exact good_sub (unCols_good k _) _
    | exact good_sub (unDocGrid_good k _) _
    | exact good_flat _ _ (by simp)

theorem unSect_good (k : Nat)  : Good k unSect :=
  good_loop' (sectStep_good k) _

end Docx
