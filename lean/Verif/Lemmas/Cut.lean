import Verif.Lemmas.CutBase

/-!
# A decoder that succeeds depends only on the tokens that it has read: all decoders
-/

namespace Docx

set_option linter.unusedSectionVars false

variable [GoEnv]

theorem unShade_local (k : Nat) (as : List Attr) : ReadsOnly k (unShade as) := local_leaf k _ _

theorem unSpacing_local (k : Nat) (as : List Attr) : ReadsOnly k (unSpacing as) := local_leaf k _ _

theorem unInd_local (k : Nat) (as : List Attr) : ReadsOnly k (unInd as) := local_leaf k _ _

theorem unTab_local (k : Nat) (as : List Attr) : ReadsOnly k (unTab as) := local_leaf k _ _

theorem tabsStep_local (k : Nat) : StepLocal k tabsStep := by
  intro s l as
  unfold tabsStep
  split <;> first
    | exact local_skipTo _ _
    | exact local_flatInt _ _ _ _
    | exact local_flatIntSt _ _ _ _
    | exact local_sub (unTab_local k _) _
    | exact local_flat _ _ _

theorem unTabs_local (k : Nat)  : ReadsOnly k unTabs :=
  local_loop' (tabsStep_good 0) (tabsStep_local k) _

theorem unRunFonts_local (k : Nat) (as : List Attr) : ReadsOnly k (unRunFonts as) := local_leaf k _ _

theorem rprStep_local (k : Nat) : StepLocal k rprStep := by
  intro s l as
  unfold rprStep
  split <;> first
    | exact local_skipTo _ _
    | exact local_flatInt _ _ _ _
    | exact local_flatIntSt _ _ _ _
    | exact local_sub (unRunFonts_local k _) _
    | exact local_sub (unSpacing_local k _) _
    | exact local_sub (unShade_local k _) _
    | exact local_flat _ _ _

theorem unRPr_local (k : Nat)  : ReadsOnly k unRPr :=
  local_loop' (rprStep_good 0) (rprStep_local k) _

theorem pprStep_local (k : Nat) : StepLocal k pprStep := by
  intro s l as
  unfold pprStep
  split <;> first
    | exact local_skipTo _ _
    | exact local_flatInt _ _ _ _
    | exact local_flatIntSt _ _ _ _
    | exact local_sub (unTabs_local k) _
    | exact local_sub (unSpacing_local k _) _
    | exact local_sub (unInd_local k _) _
    | exact local_sub (unShade_local k _) _
    | exact local_sub (unRPr_local k) _
    | exact local_flat _ _ _

theorem unPPr_local (k : Nat)  : ReadsOnly k unPPr :=
  local_loop' (pprStep_good 0) (pprStep_local k) _

theorem unBr_local (k : Nat) (as : List Attr) : ReadsOnly k (unBr as) := local_leaf k _ _

theorem unText_local (k : Nat) (as : List Attr) : ReadsOnly k (unText as) :=
  local_withAttrs (fun s => (local_loopC (k := k) (j := 0) (fun _ _ _ => good_flat _ _ (by simp))
    (fun _ _ _ => local_flat _ _ _) s).mono (Nat.le_succ k)) _ _

theorem unExtent_local (k : Nat) (as : List Attr) : ReadsOnly k (unExtent as) := local_leaf k _ _

theorem unEffectExtent_local (k : Nat) (as : List Attr) : ReadsOnly k (unEffectExtent as) := local_leaf k _ _

theorem unIdName_local (k : Nat) (as : List Attr) : ReadsOnly k (unIdName as) := local_leaf k _ _

theorem frameStep_local (k : Nat) : StepLocal k frameStep := by
  intro s l as
  unfold frameStep
  split <;> first
    | exact local_skipTo _ _
    | exact local_flatInt _ _ _ _
    | exact local_flatIntSt _ _ _ _
    | exact local_flat _ _ _

theorem unFramePr_local (k : Nat)  : ReadsOnly k unFramePr :=
  local_loop' (frameStep_good 0) (frameStep_local k) _

theorem picLocksStep_local (k : Nat) : StepLocal k picLocksStep := by
  intro s l as
  unfold picLocksStep
  split <;> first
    | exact local_skipTo _ _
    | exact local_flatInt _ _ _ _
    | exact local_flatIntSt _ _ _ _
    | exact local_flat _ _ _

theorem unCNvPicPr_local (k : Nat) (s : Option Int64) : ReadsOnly k (unCNvPicPr s) :=
  local_loop' (picLocksStep_good 0) (picLocksStep_local k) _

theorem nvPicPrStep_local (k : Nat) : StepLocal k nvPicPrStep := by
  intro s l as
  unfold nvPicPrStep
  split
  · split
    · exact local_flat _ _ _
    · split
      · exact local_flat _ _ _
      · exact local_flat _ _ _
  · exact local_sub (unCNvPicPr_local k _) _
  · exact local_skipTo _ _

theorem unNvPicPr_local (k : Nat)  : ReadsOnly k unNvPicPr :=
  local_loop' (nvPicPrStep_good 0) (nvPicPrStep_local k) _

theorem blipStep_local (k : Nat) : StepLocal k blipStep := by
  intro s l as
  unfold blipStep
  split <;> first
    | exact local_skipTo _ _
    | exact local_flatInt _ _ _ _
    | exact local_flatIntSt _ _ _ _
    | exact local_flat _ _ _

theorem unBlip_local (k : Nat) (s : Blip) (as : List Attr) : ReadsOnly k (unBlip s as) :=
  local_withAttrs (fun s => local_loop' (blipStep_good 0) (blipStep_local k) s) _ _

theorem stretchStep_local (k : Nat) : StepLocal k stretchStep := by
  intro s l as
  unfold stretchStep
  split <;> first
    | exact local_skipTo _ _
    | exact local_flatInt _ _ _ _
    | exact local_flatIntSt _ _ _ _
    | exact local_flat _ _ _

theorem unStretch_local (k : Nat) (s : Bool) : ReadsOnly k (unStretch s) :=
  local_loop' (stretchStep_good 0) (stretchStep_local k) _

theorem picFillStep_local (k : Nat) : StepLocal k picFillStep := by
  intro s l as
  unfold picFillStep
  split <;> first
    | exact local_skipTo _ _
    | exact local_flatInt _ _ _ _
    | exact local_flatIntSt _ _ _ _
    | exact local_sub (unBlip_local k _ _) _
    | exact local_sub (unStretch_local k _) _
    | exact local_flat _ _ _

theorem unPicFill_local (k : Nat)  : ReadsOnly k unPicFill :=
  local_loop' (picFillStep_good 0) (picFillStep_local k) _

theorem xfrmStep_local (k : Nat) : StepLocal k xfrmStep := by
  intro s l as
  unfold xfrmStep
  split <;> first
    | exact local_skipTo _ _
    | exact local_flatInt _ _ _ _
    | exact local_flatIntSt _ _ _ _
    | exact local_flatAttrs _ _ _ _
    | exact local_flatAttrsV _ _ _ _ _
    | exact local_flatAttrs _ _ _ _
    | exact local_flatAttrsV _ _ _ _ _
    | exact local_flat _ _ _

theorem unXfrm_local (k : Nat) (s : Xfrm) (as : List Attr) : ReadsOnly k (unXfrm s as) :=
  local_withAttrs (fun s => local_loop' (xfrmStep_good 0) (xfrmStep_local k) s) _ _

theorem prstStep_local (k : Nat) : StepLocal k prstStep := by
  intro s l as
  unfold prstStep
  split <;> first
    | exact local_skipTo _ _
    | exact local_flatInt _ _ _ _
    | exact local_flatIntSt _ _ _ _
    | exact local_flat _ _ _

theorem unPrstGeom_local (k : Nat) (as : List Attr) : ReadsOnly k (unPrstGeom as) :=
  local_withAttrs (fun s => local_loop' (prstStep_good 0) (prstStep_local k) s) _ _

theorem picSpPrStep_local (k : Nat) : StepLocal k picSpPrStep := by
  intro s l as
  unfold picSpPrStep
  split <;> first
    | exact local_skipTo _ _
    | exact local_flatInt _ _ _ _
    | exact local_flatIntSt _ _ _ _
    | exact local_sub (unXfrm_local k _ _) _
    | exact local_sub (unPrstGeom_local k _) _
    | exact local_flat _ _ _

theorem unPicSpPr_local (k : Nat)  : ReadsOnly k unPicSpPr :=
  local_loop' (picSpPrStep_good 0) (picSpPrStep_local k) _

theorem picStep_local (k : Nat) : StepLocal k picStep := by
  intro s l as
  unfold picStep
  split <;> first
    | exact local_skipTo _ _
    | exact local_flatInt _ _ _ _
    | exact local_flatIntSt _ _ _ _
    | exact local_sub (unNvPicPr_local k) _
    | exact local_sub (unPicFill_local k) _
    | exact local_sub (unPicSpPr_local k) _
    | exact local_flat _ _ _

theorem unPic_local (k : Nat)  : ReadsOnly k unPic :=
  local_loop' (picStep_good 0) (picStep_local k) _

/-- Changing the result afterwards -/
theorem local_after {α β : Type} {k : Nat} {u : Dec → Out α} (h : ReadsOnly k u) {v : Dec → Out β}
    (f : α → Option Err → β) (g : Option Err → Option Err) (hg : ∀ e, Passable (g e) → Passable e)
    (hv : ∀ d, v d = ⟨f (u d).val (u d).err, g (u d).err, (u d).dec⟩) : ReadsOnly k v := by
  intro d hk hs hd hf
  rw [hv] at hf ⊢
  obtain ⟨c, c1, c2, c3, c4⟩ := h d hk hs hd (hg _ hf)
  exact ⟨c, c1, c2, c3, fun r' => by rw [hv, c4]⟩

theorem posStep_local (k : Nat) : StepLocal k posStep := by
  intro s l as
  unfold posStep
  split
  · exact local_after (local_reflInt k s.posOffset) (fun v _ => { s with posOffset := v }) tolerate
      (fun _ => passable_tolerate) fun _ => rfl
  · exact local_skipTo k s

theorem unPosition_local (k : Nat) (as : List Attr) : ReadsOnly k (unPosition as) :=
  local_loop' (posStep_good 0) (posStep_local k) _

theorem unTile_local (k : Nat) (as : List Attr) : ReadsOnly k (unTile as) := local_leaf k _ _

theorem aBlipFillStep_local (k : Nat) : StepLocal k aBlipFillStep := by
  intro s l as
  unfold aBlipFillStep
  split <;> first
    | exact local_skipTo _ _
    | exact local_flatInt _ _ _ _
    | exact local_flatIntSt _ _ _ _
    | exact local_sub (unBlip_local k _ _) _
    | exact local_sub (unTile_local k _) _
    | exact local_flat _ _ _

theorem unABlipFill_local (k : Nat) (as : List Attr) : ReadsOnly k (unABlipFill as) :=
  local_withAttrs (fun s => local_loop' (aBlipFillStep_good 0) (aBlipFillStep_local k) s) _ _

theorem solidFillStep_local (k : Nat) : StepLocal k solidFillStep := by
  intro s l as
  unfold solidFillStep
  split <;> first
    | exact local_skipTo _ _
    | exact local_flatInt _ _ _ _
    | exact local_flatIntSt _ _ _ _
    | exact local_flat _ _ _

theorem unSolidFill_local (k : Nat)  : ReadsOnly k unSolidFill :=
  local_loop' (solidFillStep_good 0) (solidFillStep_local k) _

theorem unLineEnd_local (k : Nat) (as : List Attr) : ReadsOnly k (unLineEnd as) := local_leaf k _ _

theorem lineStep_local (k : Nat) : StepLocal k lineStep := by
  intro s l as
  unfold lineStep
  split <;> first
    | exact local_skipTo _ _
    | exact local_flatInt _ _ _ _
    | exact local_flatIntSt _ _ _ _
    | exact local_sub (unSolidFill_local k) _
    | exact local_sub (unLineEnd_local k _) _
    | exact local_flat _ _ _

theorem unLine_local (k : Nat) (as : List Attr) : ReadsOnly k (unLine as) :=
  local_withAttrs (fun s => local_loop' (lineStep_good 0) (lineStep_local k) s) _ _

theorem shapePrStep_local (k : Nat) : StepLocal k shapePrStep := by
  intro s l as
  unfold shapePrStep
  split <;> first
    | exact local_skipTo _ _
    | exact local_flatInt _ _ _ _
    | exact local_flatIntSt _ _ _ _
    | exact local_sub (unXfrm_local k _ _) _
    | exact local_sub (unSolidFill_local k) _
    | exact local_sub (unABlipFill_local k _) _
    | exact local_sub (unLine_local k _) _
    | exact local_flat _ _ _

theorem unShapePr_local (k : Nat) (as : List Attr) : ReadsOnly k (unShapePr as) :=
  local_withAttrs (fun s => local_loop' (shapePrStep_good 0) (shapePrStep_local k) s) _ _

theorem cNvCnPrStep_local (k : Nat) : StepLocal k cNvCnPrStep := by
  intro s l as
  unfold cNvCnPrStep
  split <;> first
    | exact local_skipTo _ _
    | exact local_flatInt _ _ _ _
    | exact local_flatIntSt _ _ _ _
    | exact local_flat _ _ _

theorem unCNvCnPr_local (k : Nat)  : ReadsOnly k unCNvCnPr :=
  local_loop' (cNvCnPrStep_good 0) (cNvCnPrStep_local k) _

theorem unSpLocks_local (k : Nat) (as : List Attr) : ReadsOnly k (unSpLocks as) := local_leaf k _ _

theorem cNvSpPrStep_local (k : Nat) : StepLocal k cNvSpPrStep := by
  intro s l as
  unfold cNvSpPrStep
  split <;> first
    | exact local_skipTo _ _
    | exact local_flatInt _ _ _ _
    | exact local_flatIntSt _ _ _ _
    | exact local_sub (unSpLocks_local k _) _
    | exact local_flat _ _ _

theorem unCNvSpPr_local (k : Nat) (as : List Attr) : ReadsOnly k (unCNvSpPr as) :=
  local_withAttrs (fun s => local_loop' (cNvSpPrStep_good 0) (cNvSpPrStep_local k) s) _ _

theorem bodyPrStep_local (k : Nat) : StepLocal k bodyPrStep := by
  intro s l as
  unfold bodyPrStep
  split <;> first
    | exact local_skipTo _ _
    | exact local_flatInt _ _ _ _
    | exact local_flatIntSt _ _ _ _
    | exact local_flat _ _ _

theorem unBodyPr_local (k : Nat) (as : List Attr) : ReadsOnly k (unBodyPr as) :=
  local_withAttrs (fun s => local_loop' (bodyPrStep_good 0) (bodyPrStep_local k) s) _ _

theorem bgStep_local (k : Nat) : StepLocal k bgStep := by
  intro s l as
  unfold bgStep
  split <;> first
    | exact local_skipTo _ _
    | exact local_flatInt _ _ _ _
    | exact local_flatIntSt _ _ _ _
    | exact local_flat _ _ _

theorem unBackground_local (k : Nat)  : ReadsOnly k unBackground :=
  local_loop' (bgStep_good 0) (bgStep_local k) _

theorem wholeStep_local (k : Nat) : StepLocal k wholeStep := by
  intro s l as
  unfold wholeStep
  split <;> first
    | exact local_skipTo _ _
    | exact local_flatInt _ _ _ _
    | exact local_flatIntSt _ _ _ _
    | exact local_sub (unLine_local k _) _
    | exact local_flat _ _ _

theorem unWhole_local (k : Nat)  : ReadsOnly k unWhole :=
  local_loop' (wholeStep_good 0) (wholeStep_local k) _

theorem grpPrStep_local (k : Nat) : StepLocal k grpPrStep := by
  intro s l as
  unfold grpPrStep
  split <;> first
    | exact local_skipTo _ _
    | exact local_flatInt _ _ _ _
    | exact local_flatIntSt _ _ _ _
    | exact local_flat _ _ _

theorem unCNvGrpSpPr_local (k : Nat)  : ReadsOnly k unCNvGrpSpPr :=
  local_loop' (grpPrStep_good 0) (grpPrStep_local k) _

theorem unTblpPr_local (k : Nat) (as : List Attr) : ReadsOnly k (unTblpPr as) := local_leaf k _ _

theorem unTblStyle_local (k : Nat) (as : List Attr) : ReadsOnly k (unTblStyle as) := local_leaf k _ _

theorem unTblW_local (k : Nat) (as : List Attr) : ReadsOnly k (unTblW as) := local_leaf k _ _

theorem unTblLook_local (k : Nat) (as : List Attr) : ReadsOnly k (unTblLook as) := local_leaf k _ _

theorem unBorder_local (k : Nat) (as : List Attr) : ReadsOnly k (unBorder as) := local_leaf k _ _

theorem bordersStep_local (k : Nat) : StepLocal k bordersStep := by
  intro s l as
  unfold bordersStep
  split <;> first
    | exact local_skipTo _ _
    | exact local_flatInt _ _ _ _
    | exact local_flatIntSt _ _ _ _
    | exact local_sub (unBorder_local k _) _
    | exact local_flat _ _ _

theorem unBorders_local (k : Nat)  : ReadsOnly k unBorders :=
  local_loop' (bordersStep_good 0) (bordersStep_local k) _

theorem tblPrStep_local (k : Nat) : StepLocal k tblPrStep := by
  intro s l as
  unfold tblPrStep
  split <;> first
    | exact local_skipTo _ _
    | exact local_flatInt _ _ _ _
    | exact local_flatIntSt _ _ _ _
    | exact local_sub (unTblpPr_local k _) _
    | exact local_sub (unTblStyle_local k _) _
    | exact local_sub (unTblW_local k _) _
    | exact local_sub (unTblLook_local k _) _
    | exact local_sub (unBorders_local k) _
    | exact local_flat _ _ _

theorem unTblPr_local (k : Nat)  : ReadsOnly k unTblPr :=
  local_loop' (tblPrStep_good 0) (tblPrStep_local k) _

theorem unGridCol_local (k : Nat) (as : List Attr) : ReadsOnly k (unGridCol as) := local_leaf k _ _

theorem gridStep_local (k : Nat) : StepLocal k gridStep := by
  intro s l as
  unfold gridStep
  split <;> first
    | exact local_skipTo _ _
    | exact local_flatInt _ _ _ _
    | exact local_flatIntSt _ _ _ _
    | exact local_sub (unGridCol_local k _) _
    | exact local_flat _ _ _

theorem unGrid_local (k : Nat)  : ReadsOnly k unGrid :=
  local_loop' (gridStep_good 0) (gridStep_local k) _

theorem trPrStep_local (k : Nat) : StepLocal k trPrStep := by
  intro s l as
  unfold trPrStep
  split
  · rcases h : attrs heightAttr {} as with ⟨v, _ | e⟩
    · exact local_skipTo k _
    · exact local_still k (v := s) (e := some e) fun _ => rfl
  · exact local_skipTo k _
  · exact local_skipTo k _

theorem unTrPr_local (k : Nat)  : ReadsOnly k unTrPr :=
  local_loop' (trPrStep_good 0) (trPrStep_local k) _

theorem tcPrStep_local (k : Nat) : StepLocal k tcPrStep := by
  intro s l as
  unfold tcPrStep
  split <;> first
    | exact local_skipTo _ _
    | exact local_flatInt _ _ _ _
    | exact local_flatIntSt _ _ _ _
    | exact local_sub (unBorders_local k) _
    | exact local_sub (unShade_local k _) _
    | exact local_flat _ _ _

theorem unTcPr_local (k : Nat)  : ReadsOnly k unTcPr :=
  local_loop' (tcPrStep_good 0) (tcPrStep_local k) _

theorem unPgSz_local (k : Nat) (as : List Attr) : ReadsOnly k (unPgSz as) := local_leaf k _ _

theorem unPgMar_local (k : Nat) (as : List Attr) : ReadsOnly k (unPgMar as) := local_leaf k _ _

theorem unCols_local (k : Nat) (as : List Attr) : ReadsOnly k (unCols as) := local_leaf k _ _

theorem unDocGrid_local (k : Nat) (as : List Attr) : ReadsOnly k (unDocGrid as) := local_leaf k _ _

theorem sectStep_local (k : Nat) : StepLocal k sectStep := by
  intro s l as
  unfold sectStep
  split <;> first
    | exact local_skipTo _ _
    | exact local_flatInt _ _ _ _
    | exact local_flatIntSt _ _ _ _
    | exact local_sub (unPgSz_local k _) _
    | exact local_sub (unPgMar_local k _) _
    | exact local_sub (unCols_local k _) _
    | exact local_sub (unDocGrid_local k _) _
    | exact local_flat _ _ _

theorem unSect_local (k : Nat)  : ReadsOnly k unSect :=
  local_loop' (sectStep_good 0) (sectStep_local k) _


/-! ## The recursive decoders -/

/-- The three recursive decoders are local with fewer than `k` tokens. -/
structure DecsLocal (k : Nat) (p : Decs) : Prop where
  good : DecsGood 0 p
  para : ∀ file, ReadsOnly k (p.para file)
  canvas : ∀ file, ReadsOnly k (p.canvas file)
  parse : ∀ file r l as, ReadsOnly k (p.parse file r l as)

variable {k : Nat} {p q : Decs}

theorem txbxContentStep_local (h : DecsLocal k p) (file : Option DocId) :
    StepLocal k (txbxContentStep p file) := by
  intro s l as
  unfold txbxContentStep
  split
  · exact local_sub (h.para _) _
  · exact local_skipTo _ _

theorem textBoxStep_local (h : DecsLocal k p) (file : Option DocId) :
    StepLocal k (textBoxStep p file) := by
  intro s l as
  unfold textBoxStep
  split
  · exact local_sub (local_loop' (txbxContentStep_good h.good file) (txbxContentStep_local h file) _) _
  · exact local_skipTo _ _

theorem unTextBox_local (h : DecsLocal k p) (file : Option DocId) : ReadsOnly k (unTextBox p file) :=
  local_loop' (textBoxStep_good h.good file) (textBoxStep_local h file) _

theorem shapeStep_local (h : DecsLocal k p) (file : Option DocId) : StepLocal k (shapeStep p file) := by
  intro s l as
  unfold shapeStep
  split <;> first
    | exact local_sub (unIdName_local k _) _
    | exact local_sub (unCNvCnPr_local k) _
    | exact local_sub (unCNvSpPr_local k _) _
    | exact local_sub (unShapePr_local k _) _
    | exact local_sub (unTextBox_local h _) _
    | exact local_sub (unBodyPr_local k _) _
    | exact local_skipTo _ _

theorem unShape_local (h : DecsLocal k p) (file : Option DocId) : ReadsOnly k (unShape p file) :=
  local_loop' (shapeStep_good h.good file) (shapeStep_local h file) _

theorem groupShapeStep_local (h : DecsLocal k p) (file : Option DocId) :
    StepLocal k (groupShapeStep p file) := by
  intro s l as
  unfold groupShapeStep
  split <;> first
    | exact local_sub (unIdName_local k _) _
    | exact local_sub (unCNvGrpSpPr_local k) _
    | exact local_sub (unShapePr_local k _) _
    | exact local_sub (unPic_local k) _
    | exact local_sub (unShape_local h _) _
    | exact local_sub (h.canvas _) _
    | exact local_skipTo _ _

theorem unGroupShape_local (h : DecsLocal k p) (file : Option DocId) : ReadsOnly k (unGroupShape p file) :=
  local_loop' (groupShapeStep_good h.good file) (groupShapeStep_local h file) _

theorem groupStep_local (h : DecsLocal k p) (file : Option DocId) : StepLocal k (groupStep p file) := by
  intro s l as
  unfold groupStep
  split <;> first
    | exact local_sub (unCNvGrpSpPr_local k) _
    | exact local_sub (unShapePr_local k _) _
    | exact local_sub (unPic_local k) _
    | exact local_sub (unShape_local h _) _
    | exact local_sub (h.canvas _) _
    | exact local_sub (unGroupShape_local h _) _
    | exact local_skipTo _ _

theorem unGroup_local (h : DecsLocal k p) (file : Option DocId) : ReadsOnly k (unGroup p file) :=
  local_loop' (groupStep_good h.good file) (groupStep_local h file) _

theorem canvasStep_local (h : DecsLocal k p) (file : Option DocId) : StepLocal k (canvasStep p file) := by
  intro s l as
  unfold canvasStep
  split <;> first
    | exact local_sub (unBackground_local k) _
    | exact local_sub (unWhole_local k) _
    | exact local_sub (unShape_local h _) _
    | exact local_sub (unPic_local k) _
    | exact local_sub (unGroup_local h _) _
    | exact local_skipTo _ _

theorem unCanvas_local' (h : DecsLocal k p) (file : Option DocId) : ReadsOnly (k + 1) (unCanvas p file) :=
  local_loop (canvasStep_good h.good file) (canvasStep_local h file) _

theorem unCanvas_local (h : DecsLocal k p) (file : Option DocId) : ReadsOnly k (unCanvas p file) :=
  local_loop' (canvasStep_good h.good file) (canvasStep_local h file) _

theorem graphicDataStep_local (h : DecsLocal k p) (file : Option DocId) :
    StepLocal k (graphicDataStep p file) := by
  intro s l as
  unfold graphicDataStep
  split <;> first
    | exact local_sub (unPic_local k) _
    | exact local_sub (unShape_local h _) _
    | exact local_sub (unCanvas_local h _) _
    | exact local_sub (unGroup_local h _) _
    | exact local_skipTo _ _

theorem unGraphicData_local (h : DecsLocal k p) (file : Option DocId) (as : List Attr) :
    ReadsOnly k (unGraphicData p file as) :=
  local_withAttrs (fun s => local_loop' (graphicDataStep_good h.good file) (graphicDataStep_local h file) s) _ _

theorem graphicStep_local (h : DecsLocal k p) (file : Option DocId) :
    StepLocal k (graphicStep p file) := by
  intro s l as
  unfold graphicStep
  split <;> first
    | exact local_sub (unGraphicData_local h _ _) _
    | exact local_skipTo _ _

theorem unGraphic_local (h : DecsLocal k p) (file : Option DocId) (as : List Attr) :
    ReadsOnly k (unGraphic p file as) :=
  local_withAttrs (fun s => local_loop' (graphicStep_good h.good file) (graphicStep_local h file) s) _ _

theorem inlineStep_local (h : DecsLocal k p) (file : Option DocId) : StepLocal k (inlineStep p file) := by
  intro s l as
  unfold inlineStep
  split <;> first
    | exact local_flatAttrs _ _ _ _
    | exact local_flatAttrs _ _ _ _
    | exact local_sub (unIdName_local k _) _
    | exact local_sub (unFramePr_local k) _
    | exact local_sub (unGraphic_local h _ _) _
    | exact local_skipTo _ _

theorem unInline_local (h : DecsLocal k p) (file : Option DocId) (as : List Attr) :
    ReadsOnly k (unInline p file as) :=
  local_withAttrs (fun s => local_loop' (inlineStep_good h.good file) (inlineStep_local h file) s) _ _

theorem anchorStep_local (h : DecsLocal k p) (file : Option DocId) : StepLocal k (anchorStep p file) := by
  intro s l as
  unfold anchorStep
  split <;> first
    | exact local_flatAttrs _ _ _ _
    | exact local_sub (unPosition_local k _) _
    | exact local_sub (unExtent_local k _) _
    | exact local_sub (unEffectExtent_local k _) _
    | exact local_sub (unIdName_local k _) _
    | exact local_sub (unFramePr_local k) _
    | exact local_sub (unGraphic_local h _ _) _
    | exact local_skipTo _ _
    | exact local_flat _ _ _

theorem unAnchor_local (h : DecsLocal k p) (file : Option DocId) (as : List Attr) :
    ReadsOnly k (unAnchor p file as) :=
  local_withAttrs (fun s => local_loop' (anchorStep_good h.good file) (anchorStep_local h file) s) _ _

theorem drawingStep_local (h : DecsLocal k p) (file : Option DocId) :
    StepLocal k (drawingStep p file) := by
  intro s l as
  unfold drawingStep
  split <;> first
    | exact local_sub (unInline_local h _ _) _
    | exact local_sub (unAnchor_local h _ _) _
    | exact local_skipTo _ _

theorem unDrawing_local (h : DecsLocal k p) (file : Option DocId) : ReadsOnly k (unDrawing p file) :=
  local_loop' (drawingStep_good h.good file) (drawingStep_local h file) _

theorem altN_more {parse : Run → String → List Attr → Dec → Out Parsed} {j : Nat}
    (h : ∀ r l as, Good j (parse r l as)) : ∀ (f g : Nat) (r : Run) (d : Dec),
    d.rest.length < f → d.rest.length < g → altN parse f r d = altN parse g r d := by
  intro f
  induction f with
  | zero => intro g r d h; omega
  | succ f ih =>
    intro g r d hf hg
    cases g with
    | zero => omega
    | succ g =>
      simp only [altN]
      rcases ht : d.token with ⟨t, d1⟩
      cases t with
      | error e => cases e <;> rfl
      | ok t =>
        have hd := token_ok ht
        have next : (match d1.skip with
            | (none, d'') => altN parse f r d''
            | (some e, d'') => ⟨(r, none), some e, d''⟩) = (match d1.skip with
            | (none, d'') => altN parse g r d''
            | (some e, d'') => ⟨(r, none), some e, d''⟩) := by
          have h1 := skip_le d1
          rcases hs : d1.skip with ⟨_ | e, d2⟩
          · rw [hs] at h1
            simp only at h1 ⊢
            exact ih g r d2 (by omega) (by omega)
          · rfl
        cases t with
        | start q as => simp only; split <;> first | rfl | exact next
        | stop q => simp only; split <;> first | rfl | exact next
        | _ => exact next

theorem altN_local {parse : Run → String → List Attr → Dec → Out Parsed} {j : Nat}
    (hg : ∀ r l as, Good j (parse r l as)) (h : ∀ r l as, ReadsOnly k (parse r l as)) : ∀ (f : Nat) (r : Run) (d : Dec),
    d.rest.length < f → d.rest.length < k + 1 → .mark ∈ d.stk → d.dead = false →
    LocAt (fun d => altN parse (d.rest.length + 1) r d) d := by
  intro f
  induction f with
  | zero => intro r d hf; omega
  | succ f ih =>
    intro r d hf hk hm hd
    rcases ht : d.token with ⟨t, d1⟩
    cases t with
    | error e =>
      by_cases he : e = .eof
      · subst he
        obtain ⟨rfl, h2⟩ := token_eof hm ht
        exact LocAt.stays (v := (r, none)) (e := none) (by simp only [altN]; rw [ht]) hd
          fun r' => by simp only [altN]; rw [h2]
      · intro hf
        simp only [altN] at hf
        rw [ht] at hf
        have hn := token_errs ht
        cases e <;> first | exact absurd hf hn | exact absurd rfl he
    | ok t =>
      obtain ⟨t1, _, t3, t4, t5⟩ := token_loc ht
      have hl : d.rest.length = d1.rest.length + 1 := by rw [t1]; rfl
      have next : (∀ n, altN parse (n + 1) r d = (match d1.skip with
            | (none, d'') => altN parse n r d''
            | (some e, d'') => ⟨(r, none), some e, d''⟩)) →
          (∀ n r', altN parse (n + 1) r ⟨t :: r', d.stk, false⟩ = (match Dec.skip ⟨r', d1.stk, false⟩ with
            | (none, d'') => altN parse n r d''
            | (some e, d'') => ⟨(r, none), some e, d''⟩)) →
          LocAt (fun d => altN parse (d.rest.length + 1) r d) d := by
        intro h1 h2
        rcases hs : d1.skip with ⟨_ | e, d2⟩
        · have hle := skip_le d1
          obtain ⟨c, c1, c2, c3, c4⟩ := skip_loc hs
          rw [hs] at hle
          simp only at hle
          refine LocAt.step (c := t :: c) (v := fun d => altN parse (d.rest.length + 1) r d) (d1 := d2) ?_
            (by rw [t1, c1]; rfl) (t4.trans c3) (fun r' => ?_)
            (ih r d2 (by omega) (by omega) ((t4.trans c3).mem hm) c2)
          · rw [h1, hs]
            exact altN_more hg _ _ r d2 (by omega) (by omega)
          · simp only
            rw [List.cons_append, h2, c4]
            exact altN_more hg _ _ r _ (by simp; omega) (by simp)
        · intro hf
          simp only at hf
          rw [h1, hs] at hf
          exact absurd hf (skip_errs hs)
      cases t with
      | start q as =>
        by_cases hsup : supportedChoice q.loc as = true
        · rcases ht2 : d1.token with ⟨t2, d2⟩
          cases t2 with
          | error e =>
            intro hf
            simp only [altN, ht, hsup, if_true, ht2] at hf
            exact absurd hf (token_errs ht2)
          | ok t2 =>
            obtain ⟨s1, _, s3, s4, s5⟩ := token_loc ht2
            have hl2 : d1.rest.length = d2.rest.length + 1 := by rw [s1]; rfl
            have still : (∀ n, altN parse (n + 1) r d = ⟨(r, none), none, d2⟩) →
                (∀ n r', altN parse (n + 1) r ⟨.start q as :: t2 :: r', d.stk, false⟩ =
                  ⟨(r, none), none, ⟨r', d2.stk, false⟩⟩) →
                LocAt (fun d => altN parse (d.rest.length + 1) r d) d := by
              intro h1 h2 hf
              simp only at hf ⊢
              rw [h1]
              refine ⟨[.start q as, t2], by rw [t1, s1]; rfl, s3, t4.trans s4, fun r' => ?_⟩
              exact h2 _ r'
            cases t2 with
            | start q2 as2 =>
              refine LocAt.step (c := [.start q as, .start q2 as2]) (v := parse r q2.loc as2) (d1 := d2) ?_
                (by rw [t1, s1]; rfl) (t4.trans s4) (fun r' => ?_)
                (h r q2.loc as2 d2 (by omega) ⟨q2, d1.stk, token_start ht2, t4.mem hm⟩ s3)
              · simp only [altN, ht, hsup, if_true, ht2]
              · simp only [List.cons_append, List.nil_append, altN, t5, hsup, if_true, s5]
            | _ =>
              exact still (fun n => by simp only [altN, ht, hsup, if_true, ht2])
                (fun n r' => by simp only [altN, t5, hsup, if_true, s5])
        · exact next (fun n => by simp only [altN, ht, hsup]; rfl) (fun n r' => by simp only [altN, t5, hsup]; rfl)
      | stop q =>
        by_cases hq : q.loc = "AlternateContent"
        · intro hf
          have h1 : ∀ n, altN parse (n + 1) r d = ⟨(r, none), none, d1⟩ := fun n => by
            simp only [altN, ht, hq, if_true]
          simp only
          rw [h1]
          exact ⟨[.stop q], t1, t3, t4, fun r' => by
            simp only [List.singleton_append, altN, t5, hq, if_true]⟩
        · exact next (fun n => by simp only [altN, ht, if_neg hq]; rfl) (fun n r' => by simp only [altN, t5, if_neg hq]; rfl)
      | _ => exact next (fun n => by simp only [altN, ht]; rfl) (fun n r' => by simp only [altN, t5]; rfl)

theorem alt_local (h : DecsLocal k p) (file : Option DocId) (r : Run) :
    ReadsOnly (k + 1) (fun d => altN (p.parse file) (d.rest.length + 1) r d) := by
  intro d hk ⟨q, s, hs, hm⟩ hd
  exact altN_local (h.good.parse file) (h.parse file) _ r d (Nat.lt_succ_self _) hk (by rw [hs]; simp [hm]) hd

theorem runParse_local' (h : DecsLocal k p) (file : Option DocId) (r : Run) (l : String)
    (as : List Attr) : ReadsOnly (k + 1) (runParse p file r l as) := by
  unfold runParse
  split
  · exact local_sub (unRPr_local _) _
  · exact local_after (local_reflString _) (fun v _ => ({ r with instr := v }, none)) tolerate
      (fun _ => passable_tolerate) fun _ => rfl
  · exact local_subStrict (unText_local _ _) _
  · exact local_subStrict (local_loop (drawingStep_good h.good file) (drawingStep_local h file) _) _
  · exact local_flat _ _ _
  · exact local_subStrict (unBr_local _ _) _
  · exact alt_local h file r
  · exact local_skipTo _ _

theorem runStep_local (h : DecsLocal k p) (file : Option DocId) : StepLocal k (runStep p file) := by
  intro s l as
  refine local_after ((runParse_local' h file s l as).mono (Nat.le_succ k))
    (fun v e => match e with | none => addChild v | some _ => v.1) id (fun _ h => h) fun d => ?_
  unfold runStep
  rcases runParse p file s l as d with ⟨v, _ | e, d'⟩ <;> rfl

theorem unRun_local (h : DecsLocal k p) (file : Option DocId) (s : Run) (as : List Attr) :
    ReadsOnly k (unRun p file s as) :=
  local_withAttrs (fun s => local_loop' (runStep_good h.good file) (runStep_local h file) s) _ _

theorem hyperlinkStep_local (h : DecsLocal k p) : StepLocal k (hyperlinkStep p) := by
  intro s l as
  unfold hyperlinkStep
  split
  · exact local_sub (unRun_local h _ _ _) _
  · exact local_skipTo _ _

theorem unLink_local (h : DecsLocal k p) : ReadsOnly k (unLink p) := local_loop' (hyperlinkStep_good h.good) (hyperlinkStep_local h) _

theorem paraStep_local (h : DecsLocal k p) (file : Option DocId) : StepLocal k (paraStep p file) := by
  intro s l as
  unfold paraStep
  split
  · exact local_sub (unLink_local h) _
  · exact local_sub (unRun_local h _ _ _) _
  · exact local_sub (unRPr_local k) _
  · exact local_sub (unPPr_local k) _
  · exact local_skipTo _ _

theorem unPara_local' (h : DecsLocal k p) (file : Option DocId) : ReadsOnly (k + 1) (unPara p file) := by
  refine local_after (local_loop (paraStep_good h.good file) (paraStep_local h file) { file := file })
    (fun v e => match e with | none => v | some _ => { v with children := [] }) id (fun _ h => h) fun d => ?_
  unfold unPara
  rcases loop (paraStep p file) { file := file } d with ⟨v, _ | e, d'⟩ <;> rfl

theorem unPara_local (h : DecsLocal k p) (file : Option DocId) : ReadsOnly k (unPara p file) :=
  (unPara_local' h file).mono (Nat.le_succ k)

theorem D_local : ∀ k, DecsLocal k D := by
  intro k
  induction k with
  | zero =>
    exact ⟨D_good 0, fun _ d h => absurd h (Nat.not_lt_zero _), fun _ d h => absurd h (Nat.not_lt_zero _),
      fun _ _ _ _ d h => absurd h (Nat.not_lt_zero _)⟩
  | succ k ih =>
    refine ⟨D_good 0, fun file => ?_, fun file => ?_, fun file r l as => ?_⟩
    · rw [D_para]; exact unPara_local' ih file
    · rw [D_canvas]; exact unCanvas_local' ih file
    · rw [D_parse]; exact runParse_local' ih file r l as

/-! ## Tables and documents -/

theorem cellStep_local (h : DecsLocal k p) (file : Option DocId) : StepLocal k (cellStep p file) := by
  intro s l as
  unfold cellStep
  split
  · exact local_sub (unPara_local h _) _
  · exact local_sub (unTcPr_local k) _
  · exact local_skipTo _ _

theorem unCell_local (h : DecsLocal k p) (file : Option DocId) : ReadsOnly k (unCell p file) :=
  local_loop' (cellStep_good h.good file) (cellStep_local h file) _

theorem rowStep_local (h : DecsLocal k p) (file : Option DocId) : StepLocal k (rowStep p file) := by
  intro s l as
  unfold rowStep
  split
  · exact local_sub (unTrPr_local k) _
  · exact local_sub (unCell_local h _) _
  · exact local_skipTo _ _

theorem unRow_local (h : DecsLocal k p) (file : Option DocId) : ReadsOnly k (unRow p file) :=
  local_loop' (rowStep_good h.good file) (rowStep_local h file) _

theorem tableStep_local (h : DecsLocal k p) (file : Option DocId) : StepLocal k (tableStep p file) := by
  intro s l as
  unfold tableStep
  split
  · exact local_sub (unRow_local h _) _
  · exact local_sub (unTblPr_local k) _
  · exact local_sub (unGrid_local k) _
  · exact local_skipTo _ _

theorem unTable_local (h : DecsLocal k p) (file : Option DocId) : ReadsOnly k (unTable p file) :=
  local_loop' (tableStep_good h.good file) (tableStep_local h file) _

theorem bodyStep_local (h : DecsLocal k p) (file : Option DocId) : StepLocal k (bodyStep p file) := by
  intro s l as
  unfold bodyStep
  split
  · exact local_sub (unPara_local h _) _
  · exact local_sub (unTable_local h _) _
  · exact local_sub (unSect_local k) _
  · exact local_skipTo _ _

theorem unBody_local (h : DecsLocal k p) (file : Option DocId) (s : List BItem) :
    ReadsOnly k (unBody p file s) := local_loop' (bodyStep_good h.good file) (bodyStep_local h file) _

theorem documentStep_local (h : DecsLocal k p) (file : Option DocId) :
    StepLocal k (documentStep p file) := by
  intro s l as
  unfold documentStep
  split
  · exact local_sub (unBody_local h _ _) _
  · exact local_skipTo _ _

theorem unDocument_local (h : DecsLocal k p) (file : Option DocId) (s : List BItem) :
    ReadsOnly k (unDocument p file s) := local_loop' (documentStep_good h.good file) (documentStep_local h file) _


/-- Decoding a document: what is read, and that nothing else matters -/
theorem decodeDocument_local (file : Option DocId) (s : List BItem) (toks : List Tok)
    (h : (decodeDocument file s toks).err = none) :
    ∃ c q, toks = c ++ [.stop q] ++ (decodeDocument file s toks).dec.rest ∧
      ∀ r', (decodeDocument file s (c ++ [.stop q] ++ r')).val = (decodeDocument file s toks).val ∧
        (decodeDocument file s (c ++ [.stop q] ++ r')).err = none ∧
        (decodeDocument file s (c ++ [.stop q] ++ r')).dec.rest = r' := by
  have key : ∀ (f : Nat) (ts : List Tok), ts.length < f →
      (rootN (fun _ => decodeElement (unDocument D file s)) s f ⟨ts, [], false⟩).err = none →
      ∃ c q, ts = c ++ [.stop q] ++
          (rootN (fun _ => decodeElement (unDocument D file s)) s f ⟨ts, [], false⟩).dec.rest ∧
        ∀ r' g, (c ++ [Tok.stop q] ++ r').length < g →
          (rootN (fun _ => decodeElement (unDocument D file s)) s g ⟨c ++ [.stop q] ++ r', [], false⟩).val =
            (rootN (fun _ => decodeElement (unDocument D file s)) s f ⟨ts, [], false⟩).val ∧
          (rootN (fun _ => decodeElement (unDocument D file s)) s g ⟨c ++ [.stop q] ++ r', [], false⟩).err = none ∧
          (rootN (fun _ => decodeElement (unDocument D file s)) s g ⟨c ++ [.stop q] ++ r', [], false⟩).dec.rest = r' := by
    intro f
    induction f with
    | zero => intro ts hl; omega
    | succ f ih =>
      intro ts hl
      cases ts with
      | nil => intro h; simp [rootN, Dec.token] at h
      | cons t ts =>
        simp only [List.length_cons] at hl
        have next : (∀ f ts, rootN (fun _ => decodeElement (unDocument D file s)) s (f + 1) ⟨t :: ts, [], false⟩ =
            rootN (fun _ => decodeElement (unDocument D file s)) s f ⟨ts, [], false⟩) → 
            (rootN (fun _ => decodeElement (unDocument D file s)) s (f + 1) ⟨t :: ts, [], false⟩).err = none →
      ∃ c q, t :: ts = c ++ [.stop q] ++
          (rootN (fun _ => decodeElement (unDocument D file s)) s (f + 1) ⟨t :: ts, [], false⟩).dec.rest ∧
        ∀ r' g, (c ++ [Tok.stop q] ++ r').length < g →
          (rootN (fun _ => decodeElement (unDocument D file s)) s g ⟨c ++ [.stop q] ++ r', [], false⟩).val =
            (rootN (fun _ => decodeElement (unDocument D file s)) s (f + 1) ⟨t :: ts, [], false⟩).val ∧
          (rootN (fun _ => decodeElement (unDocument D file s)) s g ⟨c ++ [.stop q] ++ r', [], false⟩).err = none ∧
          (rootN (fun _ => decodeElement (unDocument D file s)) s g ⟨c ++ [.stop q] ++ r', [], false⟩).dec.rest = r' := by
          intro hs h
          rw [hs] at h ⊢
          obtain ⟨c, q, c1, c2⟩ := ih ts (by omega) h
          refine ⟨t :: c, q, by rw [List.cons_append, List.cons_append, ← c1], fun r' g hg => ?_⟩
          cases g with
          | zero => omega
          | succ g =>
            rw [List.cons_append, List.cons_append, hs]
            exact c2 r' g (by simp only [List.cons_append, List.length_cons] at hg; omega)
        cases t with
        | chars x => exact next fun _ _ => rfl
        | other => exact next fun _ _ => rfl
        | bad => intro h; simp [rootN, Dec.token] at h
        | stop q => intro h; simp [rootN, Dec.token] at h
        | start q as =>
          have e1 : ∀ f ts, rootN (fun _ => decodeElement (unDocument D file s)) s (f + 1) ⟨.start q as :: ts, [], false⟩ =
              decodeElement (unDocument D file s) ⟨ts, [.elem q], false⟩ := fun _ _ => rfl
          rw [e1]
          intro h
          have hu := unDocument_local (D_local (ts.length + 1)) file s ⟨ts, [.elem q, .mark], false⟩
            (Nat.lt_succ_self _) ⟨q, [.mark], rfl, by simp⟩ rfl
          have e2 : ∀ ts, Dec.pushEOF ⟨ts, [.elem q], false⟩ = ⟨ts, [.elem q, .mark], false⟩ := fun _ => rfl
          have hgo : ∀ ts v r t, unDocument D file s ⟨ts, [.elem q, .mark], false⟩ = ⟨v, none, ⟨r, .mark :: t, false⟩⟩ →
              decodeElement (unDocument D file s) ⟨ts, [.elem q], false⟩ = ⟨v, none, ⟨r, t, false⟩⟩ := by
            intro ts v r t h
            unfold decodeElement
            simp only [e2]
            rw [h]
            rfl
          unfold decodeElement at h
          simp only [e2] at h
          rcases ho : unDocument D file s ⟨ts, [.elem q, .mark], false⟩ with ⟨v, e, ⟨r, t, b⟩⟩
          unfold LocAt at hu
          rw [ho] at hu h
          cases e with
          | some e => simp at h
          | none =>
            obtain ⟨c, c1, c2, c3, c4⟩ := hu (.inl rfl)
            simp only at c1 c2 c3 c4 h
            subst c2
            cases t with
            | nil => simp [Dec.popEOF] at h
            | cons x t =>
              cases x with
              | elem => simp [Dec.popEOF] at h
              | mark =>
                obtain ⟨c0, q0, rfl⟩ : ∃ c0 q, c = c0 ++ [.stop q] := by
                  rcases c3.stop rfl with h | h
                  · simp at h
                  · exact h
                rw [hgo _ _ _ _ ho]
                refine ⟨.start q as :: c0, q0, by rw [c1]; rfl, fun r' g hg => ?_⟩
                cases g with
                | zero => omega
                | succ g =>
                  rw [List.cons_append, List.cons_append, e1, hgo _ _ _ _ (c4 r')]
                  exact ⟨rfl, rfl, rfl⟩
  rw [decodeDocument_eq] at h ⊢
  obtain ⟨c, q, c1, c2⟩ := key _ _ (Nat.lt_succ_self _) h
  refine ⟨c, q, c1, fun r' => ?_⟩
  rw [decodeDocument_eq]
  exact c2 r' _ (Nat.lt_succ_self _)

end Docx
