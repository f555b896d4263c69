import Verif.Lemmas.Alike

/-!
# All decoders do not look at prefixes and at the order of attributes

For every definition of `Verif.Unmarshal`, in its order: `pa_` for the bodies of attribute loops (they pass
over unknown names and do not depend on the order), `al_` for the decoding functions (they do the same on inputs alike).
-/

namespace Docx

set_option linter.unusedSectionVars false
variable [GoEnv]

/-- The decoders called recursively do the same on inputs alike. -/
def DecsAlike (p : Decs) : Prop :=
  (∀ file, Alike (p.para file) (p.para file)) ∧ (∀ file, Alike (p.canvas file) (p.canvas file)) ∧
  (∀ file r l as as', sameAttrs l as as' → Alike (p.parse file r l as) (p.parse file r l as'))

theorem pa_shadeAttr : Passes shadeAttr [] false where
  pass := by
    intro s l v h; unfold shadeAttr; split <;> first | (exact absurd h (by decide)) | rfl
  comm := by
    intro s n v n' v' h
    unfold shadeAttr; split <;> split <;> first | rfl | exact absurd rfl h
  ok := by
    intro s n v h
    unfold shadeAttr; split <;> first | rfl | exact h (by decide)

theorem al_unShade {l : String} {as as' : List Attr} (h : sameAttrs l as as')
    (hl : numbers l [] false = true := by decide) :
    Alike (unShade as) (unShade as') := leaf_alike pa_shadeAttr h hl _

theorem pa_spacingAttr : Passes spacingAttr ["val", "beforeLines", "before", "line"] false where
  pass := by
    intro s l v h; unfold spacingAttr; split <;> first | (exact absurd h (by decide)) | rfl
  comm := by
    intro s n v n' v' h
    unfold spacingAttr; split <;> split <;> first | rfl | exact absurd rfl h
  ok := by
    intro s n v h
    unfold spacingAttr; split <;> first | rfl | exact h (by decide)

theorem al_unSpacing {l : String} {as as' : List Attr} (h : sameAttrs l as as')
    (hl : numbers l ["val", "beforeLines", "before", "line"] false = true := by decide) :
    Alike (unSpacing as) (unSpacing as') := leaf_alike pa_spacingAttr h hl _

theorem pa_indAttr : Passes indAttr ["leftChars", "left", "firstLineChars", "firstLine", "hangingChars", "hanging"] false where
  pass := by
    intro s l v h; unfold indAttr; split <;> first | (exact absurd h (by decide)) | rfl
  comm := by
    intro s n v n' v' h
    by_cases h1 : v = "" <;> by_cases h2 : v' = "" <;>
      simp only [indAttr, intAttrNE, h1, h2, if_true, if_false] <;>
      first | rfl | (split <;> split <;> first | rfl | exact absurd rfl h)
  ok := by
    intro s n v h
    unfold indAttr; split <;> first
      | rfl
      | exact h (by decide)
      | (have g := h (by decide); unfold intAttrNE; split <;> first | rfl | exact g)

theorem al_unInd {l : String} {as as' : List Attr} (h : sameAttrs l as as')
    (hl : numbers l ["leftChars", "left", "firstLineChars", "firstLine", "hangingChars", "hanging"] false = true := by decide) :
    Alike (unInd as) (unInd as') := leaf_alike pa_indAttr h hl _

theorem pa_tabAttr : Passes tabAttr ["pos"] false where
  pass := by
    intro s l v h; unfold tabAttr; split <;> first | (exact absurd h (by decide)) | rfl
  comm := by
    intro s n v n' v' h
    by_cases h1 : v = "" <;> by_cases h2 : v' = "" <;>
      simp only [tabAttr, intAttrNE, h1, h2, if_true, if_false] <;>
      first | rfl | (split <;> split <;> first | rfl | exact absurd rfl h)
  ok := by
    intro s n v h
    unfold tabAttr; split <;> first
      | rfl
      | exact h (by decide)
      | (have g := h (by decide); unfold intAttrNE; split <;> first | rfl | exact g)

theorem al_unTab {l : String} {as as' : List Attr} (h : sameAttrs l as as')
    (hl : numbers l ["pos"] false = true := by decide) :
    Alike (unTab as) (unTab as') := leaf_alike pa_tabAttr h hl _

theorem al_tabsStep :
    StepAlike (tabsStep) (tabsStep) := by
  intro s l as as' h
  unfold tabsStep
  split <;> first
    | exact skipTo_alike _
    | exact flat_alike _ _
    | exact sub_alike _ (al_unTab h)

theorem al_unTabs : Alike (unTabs) (unTabs) := loop_alike al_tabsStep _

theorem pa_runFontsAttr : Passes runFontsAttr [] false where
  pass := by
    intro s l v h; unfold runFontsAttr; split <;> first | (exact absurd h (by decide)) | rfl
  comm := by
    intro s n v n' v' h
    unfold runFontsAttr; split <;> split <;> first | rfl | exact absurd rfl h
  ok := by
    intro s n v h
    unfold runFontsAttr; split <;> first | rfl | exact h (by decide)

theorem al_unRunFonts {l : String} {as as' : List Attr} (h : sameAttrs l as as')
    (hl : numbers l [] false = true := by decide) :
    Alike (unRunFonts as) (unRunFonts as') := leaf_alike pa_runFontsAttr h hl _

theorem al_rprStep :
    StepAlike (rprStep) (rprStep) := by
  intro s l as as' h
  unfold rprStep
  split <;> first
    | exact skipTo_alike _
    | exact flat_alike _ _
    | exact sub_alike _ (al_unRunFonts h)
    | exact sub_alike _ (al_unSpacing h)
    | exact sub_alike _ (al_unShade h)
    | exact flatInt_alike _ _ _
    | exact flatIntSt_alike _ _ _
    | (simp (decide := true) only [getAtt_like h]; first | exact skipTo_alike _ | exact flat_alike _ _ | exact sub_alike _ (al_unRunFonts h) | exact sub_alike _ (al_unSpacing h) | exact sub_alike _ (al_unShade h) | exact flatInt_alike _ _ _ | exact flatIntSt_alike _ _ _)

theorem al_unRPr : Alike (unRPr) (unRPr) := loop_alike al_rprStep _

theorem al_numPrStep :
    StepAlike (numPrStep) (numPrStep) := by
  intro s l as as' h
  unfold numPrStep
  split <;> first
    | exact skipTo_alike _
    | exact flat_alike _ _
    | (simp (decide := true) only [getAtt_like h]; first | exact skipTo_alike _ | exact flat_alike _ _)

theorem al_unNumPr : Alike (unNumPr) (unNumPr) := loop_alike al_numPrStep _

theorem al_pprStep :
    StepAlike (pprStep) (pprStep) := by
  intro s l as as' h
  unfold pprStep
  split <;> first
    | exact skipTo_alike _
    | exact flat_alike _ _
    | exact sub_alike _ (al_unTabs)
    | exact sub_alike _ (al_unSpacing h)
    | exact sub_alike _ (al_unInd h)
    | exact sub_alike _ (al_unShade h)
    | exact sub_alike _ (al_unRPr)
    | exact flatInt_alike _ _ _
    | exact flatIntSt_alike _ _ _
    | (simp (decide := true) only [getAtt_like h]; first | exact skipTo_alike _ | exact flat_alike _ _ | exact sub_alike _ (al_unTabs) | exact sub_alike _ (al_unSpacing h) | exact sub_alike _ (al_unInd h) | exact sub_alike _ (al_unShade h) | exact sub_alike _ (al_unRPr) | exact flatInt_alike _ _ _ | exact flatIntSt_alike _ _ _)

theorem al_unPPr : Alike (unPPr) (unPPr) := loop_alike al_pprStep _

theorem al_unBr {l : String} {as as' : List Attr} (h : sameAttrs l as as') : Alike (unBr as) (unBr as') := by
  unfold unBr
  rw [getAtt_like h "type" (by decide)]
  exact leaf_alike (N := []) (whole := false) ⟨fun _ _ _ _ => rfl, fun _ _ _ _ _ _ => rfl, fun _ _ _ _ => rfl⟩ h rfl _

theorem pa_textAttr : Passes textAttr [] false where
  pass := by
    intro s l v h; unfold textAttr; split <;> first | (exact absurd h (by decide)) | rfl
  comm := by
    intro s n v n' v' h
    unfold textAttr; split <;> split <;> first | rfl | exact absurd rfl h
  ok := by
    intro s n v h
    unfold textAttr; split <;> first | rfl | exact h (by decide)

theorem al_unText {l : String} {as as' : List Attr} (h : sameAttrs l as as') : Alike (unText as) (unText as') :=
  withAttrs_alike pa_textAttr (loopC_alike _ (fun s _ _ _ _ => flat_alike s none)) h rfl _

theorem pa_extAttr : Passes extAttr ["cx", "cy"] false where
  pass := by
    intro s l v h; unfold extAttr; split <;> first | (exact absurd h (by decide)) | rfl
  comm := by
    intro s n v n' v' h
    unfold extAttr; split <;> split <;> first | rfl | exact absurd rfl h
  ok := by
    intro s n v h
    unfold extAttr; split <;> first | rfl | exact h (by decide)

theorem al_unExtent {l : String} {as as' : List Attr} (h : sameAttrs l as as')
    (hl : numbers l ["cx", "cy"] false = true := by decide) :
    Alike (unExtent as) (unExtent as') := leaf_alike pa_extAttr h hl _

theorem pa_effAttr : Passes effAttr ["l", "t", "r", "b"] false where
  pass := by
    intro s l v h; unfold effAttr; split <;> first | (exact absurd h (by decide)) | rfl
  comm := by
    intro s n v n' v' h
    unfold effAttr; split <;> split <;> first | rfl | exact absurd rfl h
  ok := by
    intro s n v h
    unfold effAttr; split <;> first | rfl | exact h (by decide)

theorem al_unEffectExtent {l : String} {as as' : List Attr} (h : sameAttrs l as as')
    (hl : numbers l ["l", "t", "r", "b"] false = true := by decide) :
    Alike (unEffectExtent as) (unEffectExtent as') := leaf_alike pa_effAttr h hl _

theorem pa_idNameAttr : Passes idNameAttr ["id"] false where
  pass := by
    intro s l v h; unfold idNameAttr; split <;> first | (exact absurd h (by decide)) | rfl
  comm := by
    intro s n v n' v' h
    unfold idNameAttr; split <;> split <;> first | rfl | exact absurd rfl h
  ok := by
    intro s n v h
    unfold idNameAttr; split <;> first | rfl | exact h (by decide)

theorem al_unIdName {l : String} {as as' : List Attr} (h : sameAttrs l as as')
    (hl : numbers l ["id"] false = true := by decide) :
    Alike (unIdName as) (unIdName as') := leaf_alike pa_idNameAttr h hl _

theorem al_frameStep :
    StepAlike (frameStep) (frameStep) := by
  intro s l as as' h
  unfold frameStep
  split <;> first
    | exact skipTo_alike _
    | exact flat_alike _ _
    | exact flatInt_alike _ _ _
    | exact flatIntSt_alike _ _ _
    | (simp (decide := true) only [getAtt_like h]; first | exact skipTo_alike _ | exact flat_alike _ _ | exact flatInt_alike _ _ _ | exact flatIntSt_alike _ _ _)

theorem al_unFramePr : Alike (unFramePr) (unFramePr) := loop_alike al_frameStep _

theorem al_picLocksStep :
    StepAlike (picLocksStep) (picLocksStep) := by
  intro s l as as' h
  unfold picLocksStep
  split <;> first
    | exact skipTo_alike _
    | exact flat_alike _ _
    | exact flatInt_alike _ _ _
    | exact flatIntSt_alike _ _ _
    | (simp (decide := true) only [getAtt_like h]; first | exact skipTo_alike _ | exact flat_alike _ _ | exact flatInt_alike _ _ _ | exact flatIntSt_alike _ _ _)

theorem al_unCNvPicPr (s : Option Int64) : Alike (unCNvPicPr s) (unCNvPicPr s) := loop_alike al_picLocksStep _

theorem al_nvPicPrStep : StepAlike nvPicPrStep nvPicPrStep := by
  intro s l as as' h
  unfold nvPicPrStep
  split
  · rw [getAtt_like h "id" (by decide), getAtt_like h "name" (by decide)]
    split
    · exact flat_alike _ _
    · split <;> exact flat_alike _ _
  · exact sub_alike _ (al_unCNvPicPr _)
  · exact skipTo_alike _

theorem al_unNvPicPr : Alike (unNvPicPr) (unNvPicPr) := loop_alike al_nvPicPrStep _

theorem pa_blipAttr : Passes blipAttr [] false where
  pass := by
    intro s l v h; unfold blipAttr; split <;> first | (exact absurd h (by decide)) | rfl
  comm := by
    intro s n v n' v' h
    unfold blipAttr; split <;> split <;> first | rfl | exact absurd rfl h
  ok := by
    intro s n v h
    unfold blipAttr; split <;> first | rfl | exact h (by decide)

theorem al_blipStep :
    StepAlike (blipStep) (blipStep) := by
  intro s l as as' h
  unfold blipStep
  split <;> first
    | exact skipTo_alike _
    | exact flat_alike _ _
    | exact flatInt_alike _ _ _
    | exact flatIntSt_alike _ _ _
    | (simp (decide := true) only [getAtt_like h]; first | exact skipTo_alike _ | exact flat_alike _ _ | exact flatInt_alike _ _ _ | exact flatIntSt_alike _ _ _)

theorem al_unBlip (s : Blip) {l : String} {as as' : List Attr} (h : sameAttrs l as as')
    (hl : numbers l [] false = true := by decide) :
    Alike (unBlip s as) (unBlip s as') := 
  withAttrs_alike pa_blipAttr (loop_alike al_blipStep) h hl _

theorem al_stretchStep :
    StepAlike (stretchStep) (stretchStep) := by
  intro s l as as' h
  unfold stretchStep
  split <;> first
    | exact skipTo_alike _
    | exact flat_alike _ _

theorem al_unStretch (s : Bool) : Alike (unStretch s) (unStretch s) := loop_alike al_stretchStep _

theorem al_picFillStep :
    StepAlike (picFillStep) (picFillStep) := by
  intro s l as as' h
  unfold picFillStep
  split <;> first
    | exact skipTo_alike _
    | exact flat_alike _ _
    | exact sub_alike _ (al_unBlip _ h)
    | exact sub_alike _ (al_unStretch _)

theorem al_unPicFill : Alike (unPicFill) (unPicFill) := loop_alike al_picFillStep _

theorem pa_xfrmAttr : Passes xfrmAttr ["rot", "flipH", "flipV"] false where
  pass := by
    intro s l v h; unfold xfrmAttr; split <;> first | (exact absurd h (by decide)) | rfl
  comm := by
    intro s n v n' v' h
    unfold xfrmAttr; split <;> split <;> first | rfl | exact absurd rfl h
  ok := by
    intro s n v h
    unfold xfrmAttr; split <;> first | rfl | exact h (by decide)

theorem pa_offAttr : Passes offAttr ["x", "y"] false where
  pass := by
    intro s l v h; unfold offAttr; split <;> first | (exact absurd h (by decide)) | rfl
  comm := by
    intro s n v n' v' h
    unfold offAttr; split <;> split <;> first | rfl | exact absurd rfl h
  ok := by
    intro s n v h
    unfold offAttr; split <;> first | rfl | exact h (by decide)

theorem al_xfrmStep :
    StepAlike (xfrmStep) (xfrmStep) := by
  intro s l as as' h
  unfold xfrmStep
  split <;> first
    | exact skipTo_alike _
    | exact flat_alike _ _
    | exact flatAttrs_alike pa_extAttr _ h (by decide) _
    | exact flatAttrsV_alike _ pa_extAttr _ h (by decide) _
    | exact flatAttrs_alike pa_offAttr _ h (by decide) _
    | exact flatAttrsV_alike _ pa_offAttr _ h (by decide) _

theorem al_unXfrm (s : Xfrm) {l : String} {as as' : List Attr} (h : sameAttrs l as as')
    (hl : numbers l ["rot", "flipH", "flipV"] false = true := by decide) :
    Alike (unXfrm s as) (unXfrm s as') := 
  withAttrs_alike pa_xfrmAttr (loop_alike al_xfrmStep) h hl _

theorem pa_prstAttr : Passes prstAttr [] false where
  pass := by
    intro s l v h; unfold prstAttr; split <;> first | (exact absurd h (by decide)) | rfl
  comm := by
    intro s n v n' v' h
    unfold prstAttr; split <;> split <;> first | rfl | exact absurd rfl h
  ok := by
    intro s n v h
    unfold prstAttr; split <;> first | rfl | exact h (by decide)

theorem al_prstStep :
    StepAlike (prstStep) (prstStep) := by
  intro s l as as' h
  unfold prstStep
  split <;> first
    | exact skipTo_alike _
    | exact flat_alike _ _

theorem al_unPrstGeom {l : String} {as as' : List Attr} (h : sameAttrs l as as')
    (hl : numbers l [] false = true := by decide) :
    Alike (unPrstGeom as) (unPrstGeom as') := 
  withAttrs_alike pa_prstAttr (loop_alike al_prstStep) h hl _

theorem al_picSpPrStep :
    StepAlike (picSpPrStep) (picSpPrStep) := by
  intro s l as as' h
  unfold picSpPrStep
  split <;> first
    | exact skipTo_alike _
    | exact flat_alike _ _
    | exact sub_alike _ (al_unXfrm _ h)
    | exact sub_alike _ (al_unPrstGeom h)

theorem al_unPicSpPr : Alike (unPicSpPr) (unPicSpPr) := loop_alike al_picSpPrStep _

theorem al_picStep :
    StepAlike (picStep) (picStep) := by
  intro s l as as' h
  unfold picStep
  split <;> first
    | exact skipTo_alike _
    | exact flat_alike _ _
    | exact sub_alike _ (al_unNvPicPr)
    | exact sub_alike _ (al_unPicFill)
    | exact sub_alike _ (al_unPicSpPr)

theorem al_unPic : Alike (unPic) (unPic) := loop_alike al_picStep _

theorem al_posStep : StepAlike posStep posStep := by
  intro s l as as' h d d' hd
  unfold posStep
  split
  · obtain ⟨h1, h2, h3⟩ := reflInt_alike s.posOffset d d' hd
    exact ⟨by simp only [h1], by simp only [h2], h3⟩
  · exact skipTo_alike _ d d' hd

theorem al_unPosition {l : String} {as as' : List Attr} (h : sameAttrs l as as') :
    Alike (unPosition as) (unPosition as') := by
  unfold unPosition
  rw [getAtt_like h "relativeFrom" (by decide)]
  exact loop_alike al_posStep _

theorem pa_tileAttr : Passes tileAttr ["tx", "ty", "sx", "sy"] false where
  pass := by
    intro s l v h; unfold tileAttr; split <;> first | (exact absurd h (by decide)) | rfl
  comm := by
    intro s n v n' v' h
    unfold tileAttr; split <;> split <;> first | rfl | exact absurd rfl h
  ok := by
    intro s n v h
    unfold tileAttr; split <;> first | rfl | exact h (by decide)

theorem al_unTile {l : String} {as as' : List Attr} (h : sameAttrs l as as')
    (hl : numbers l ["tx", "ty", "sx", "sy"] false = true := by decide) :
    Alike (unTile as) (unTile as') := leaf_alike pa_tileAttr h hl _

theorem pa_aBlipFillAttr : Passes aBlipFillAttr ["dpi", "rotWithShape"] false where
  pass := by
    intro s l v h; unfold aBlipFillAttr; split <;> first | (exact absurd h (by decide)) | rfl
  comm := by
    intro s n v n' v' h
    unfold aBlipFillAttr; split <;> split <;> first | rfl | exact absurd rfl h
  ok := by
    intro s n v h
    unfold aBlipFillAttr; split <;> first | rfl | exact h (by decide)

theorem al_aBlipFillStep :
    StepAlike (aBlipFillStep) (aBlipFillStep) := by
  intro s l as as' h
  unfold aBlipFillStep
  split <;> first
    | exact skipTo_alike _
    | exact flat_alike _ _
    | exact sub_alike _ (al_unBlip _ h)
    | exact sub_alike _ (al_unTile h)

theorem al_unABlipFill {l : String} {as as' : List Attr} (h : sameAttrs l as as')
    (hl : numbers l ["dpi", "rotWithShape"] false = true := by decide) :
    Alike (unABlipFill as) (unABlipFill as') := 
  withAttrs_alike pa_aBlipFillAttr (loop_alike al_aBlipFillStep) h hl _

theorem al_solidFillStep :
    StepAlike (solidFillStep) (solidFillStep) := by
  intro s l as as' h
  unfold solidFillStep
  split <;> first
    | exact skipTo_alike _
    | exact flat_alike _ _
    | (simp (decide := true) only [getAtt_like h]; first | exact skipTo_alike _ | exact flat_alike _ _)

theorem al_unSolidFill : Alike (unSolidFill) (unSolidFill) := loop_alike al_solidFillStep _

theorem pa_lineEndAttr : Passes lineEndAttr [] false where
  pass := by
    intro s l v h; unfold lineEndAttr; split <;> first | (exact absurd h (by decide)) | rfl
  comm := by
    intro s n v n' v' h
    unfold lineEndAttr; split <;> split <;> first | rfl | exact absurd rfl h
  ok := by
    intro s n v h
    unfold lineEndAttr; split <;> first | rfl | exact h (by decide)

theorem al_unLineEnd {l : String} {as as' : List Attr} (h : sameAttrs l as as')
    (hl : numbers l [] false = true := by decide) :
    Alike (unLineEnd as) (unLineEnd as') := leaf_alike pa_lineEndAttr h hl _

theorem pa_lineAttr : Passes lineAttr ["w"] false where
  pass := by
    intro s l v h; unfold lineAttr; split <;> first | (exact absurd h (by decide)) | rfl
  comm := by
    intro s n v n' v' h
    unfold lineAttr; split <;> split <;> first | rfl | exact absurd rfl h
  ok := by
    intro s n v h
    unfold lineAttr; split <;> first | rfl | exact h (by decide)

theorem al_lineStep :
    StepAlike (lineStep) (lineStep) := by
  intro s l as as' h
  unfold lineStep
  split <;> first
    | exact skipTo_alike _
    | exact flat_alike _ _
    | exact sub_alike _ (al_unSolidFill)
    | exact sub_alike _ (al_unLineEnd h)
    | (simp (decide := true) only [getAtt_like h]; first | exact skipTo_alike _ | exact flat_alike _ _ | exact sub_alike _ (al_unSolidFill) | exact sub_alike _ (al_unLineEnd h))

theorem al_unLine {l : String} {as as' : List Attr} (h : sameAttrs l as as')
    (hl : numbers l ["w"] false = true := by decide) :
    Alike (unLine as) (unLine as') := 
  withAttrs_alike pa_lineAttr (loop_alike al_lineStep) h hl _

theorem pa_shapePrAttr : Passes shapePrAttr [] false where
  pass := by
    intro s l v h; unfold shapePrAttr; split <;> first | (exact absurd h (by decide)) | rfl
  comm := by
    intro s n v n' v' h
    unfold shapePrAttr; split <;> split <;> first | rfl | exact absurd rfl h
  ok := by
    intro s n v h
    unfold shapePrAttr; split <;> first | rfl | exact h (by decide)

theorem al_shapePrStep :
    StepAlike (shapePrStep) (shapePrStep) := by
  intro s l as as' h
  unfold shapePrStep
  split <;> first
    | exact skipTo_alike _
    | exact flat_alike _ _
    | exact sub_alike _ (al_unXfrm _ h)
    | exact sub_alike _ (al_unSolidFill)
    | exact sub_alike _ (al_unABlipFill h)
    | exact sub_alike _ (al_unLine h)
    | (simp (decide := true) only [getAtt_like h]; first | exact skipTo_alike _ | exact flat_alike _ _ | exact sub_alike _ (al_unXfrm _ h) | exact sub_alike _ (al_unSolidFill) | exact sub_alike _ (al_unABlipFill h) | exact sub_alike _ (al_unLine h))

theorem al_unShapePr {l : String} {as as' : List Attr} (h : sameAttrs l as as')
    (hl : numbers l [] false = true := by decide) :
    Alike (unShapePr as) (unShapePr as') := 
  withAttrs_alike pa_shapePrAttr (loop_alike al_shapePrStep) h hl _

theorem al_cNvCnPrStep :
    StepAlike (cNvCnPrStep) (cNvCnPrStep) := by
  intro s l as as' h
  unfold cNvCnPrStep
  split <;> first
    | exact skipTo_alike _
    | exact flat_alike _ _

theorem al_unCNvCnPr : Alike (unCNvCnPr) (unCNvCnPr) := loop_alike al_cNvCnPrStep _

theorem pa_spLocksAttr : Passes spLocksAttr ["noChangeArrowheads"] false where
  pass := by
    intro s l v h; unfold spLocksAttr; split <;> first | (exact absurd h (by decide)) | rfl
  comm := by
    intro s n v n' v' h
    unfold spLocksAttr; split <;> split <;> first | rfl | exact absurd rfl h
  ok := by
    intro s n v h
    unfold spLocksAttr; split <;> first | rfl | exact h (by decide)

theorem al_unSpLocks {l : String} {as as' : List Attr} (h : sameAttrs l as as')
    (hl : numbers l ["noChangeArrowheads"] false = true := by decide) :
    Alike (unSpLocks as) (unSpLocks as') := leaf_alike pa_spLocksAttr h hl _

theorem pa_cNvSpPrAttr : Passes cNvSpPrAttr ["txBox"] false where
  pass := by
    intro s l v h; unfold cNvSpPrAttr; split <;> first | (exact absurd h (by decide)) | rfl
  comm := by
    intro s n v n' v' h
    unfold cNvSpPrAttr; split <;> split <;> first | rfl | exact absurd rfl h
  ok := by
    intro s n v h
    unfold cNvSpPrAttr; split <;> first | rfl | exact h (by decide)

theorem al_cNvSpPrStep :
    StepAlike (cNvSpPrStep) (cNvSpPrStep) := by
  intro s l as as' h
  unfold cNvSpPrStep
  split <;> first
    | exact skipTo_alike _
    | exact flat_alike _ _
    | exact sub_alike _ (al_unSpLocks h)

theorem al_unCNvSpPr {l : String} {as as' : List Attr} (h : sameAttrs l as as')
    (hl : numbers l ["txBox"] false = true := by decide) :
    Alike (unCNvSpPr as) (unCNvSpPr as') := 
  withAttrs_alike pa_cNvSpPrAttr (loop_alike al_cNvSpPrStep) h hl _

theorem pa_bodyPrAttr : Passes bodyPrAttr [] false where
  pass := by
    intro s l v h; unfold bodyPrAttr; split <;> first | (exact absurd h (by decide)) | rfl
  comm := by
    intro s n v n' v' h
    unfold bodyPrAttr; split <;> split <;> first | rfl | exact absurd rfl h
  ok := by
    intro s n v h
    unfold bodyPrAttr; split <;> first | rfl | exact h (by decide)

theorem al_bodyPrStep :
    StepAlike (bodyPrStep) (bodyPrStep) := by
  intro s l as as' h
  unfold bodyPrStep
  split <;> first
    | exact skipTo_alike _
    | exact flat_alike _ _

theorem al_unBodyPr {l : String} {as as' : List Attr} (h : sameAttrs l as as')
    (hl : numbers l [] false = true := by decide) :
    Alike (unBodyPr as) (unBodyPr as') := 
  withAttrs_alike pa_bodyPrAttr (loop_alike al_bodyPrStep) h hl _

theorem al_bgStep :
    StepAlike (bgStep) (bgStep) := by
  intro s l as as' h
  unfold bgStep
  split <;> first
    | exact skipTo_alike _
    | exact flat_alike _ _

theorem al_unBackground : Alike (unBackground) (unBackground) := loop_alike al_bgStep _

theorem al_wholeStep :
    StepAlike (wholeStep) (wholeStep) := by
  intro s l as as' h
  unfold wholeStep
  split <;> first
    | exact skipTo_alike _
    | exact flat_alike _ _
    | exact sub_alike _ (al_unLine h)

theorem al_unWhole : Alike (unWhole) (unWhole) := loop_alike al_wholeStep _

theorem al_grpPrStep :
    StepAlike (grpPrStep) (grpPrStep) := by
  intro s l as as' h
  unfold grpPrStep
  split <;> first
    | exact skipTo_alike _
    | exact flat_alike _ _

theorem al_unCNvGrpSpPr : Alike (unCNvGrpSpPr) (unCNvGrpSpPr) := loop_alike al_grpPrStep _

theorem pa_tblpPrAttr : Passes tblpPrAttr ["leftFromText", "rightFromText", "tblpX", "tblpY"] false where
  pass := by
    intro s l v h; unfold tblpPrAttr; split <;> first | (exact absurd h (by decide)) | rfl
  comm := by
    intro s n v n' v' h
    unfold tblpPrAttr; split <;> split <;> first | rfl | exact absurd rfl h
  ok := by
    intro s n v h
    unfold tblpPrAttr; split <;> first | rfl | exact h (by decide)

theorem al_unTblpPr {l : String} {as as' : List Attr} (h : sameAttrs l as as')
    (hl : numbers l ["leftFromText", "rightFromText", "tblpX", "tblpY"] false = true := by decide) :
    Alike (unTblpPr as) (unTblpPr as') := leaf_alike pa_tblpPrAttr h hl _

theorem pa_tblStyleAttr : Passes tblStyleAttr [] false where
  pass := by
    intro s l v h; unfold tblStyleAttr; split <;> first | rfl | (split <;> first | (exact absurd h (by decide)) | rfl)
  comm := by
    intro s n v n' v' h
    by_cases h1 : v = "" <;> by_cases h2 : v' = "" <;>
      simp only [tblStyleAttr, h1, h2, if_true, if_false] <;>
      first | rfl | (split <;> split <;> first | rfl | exact absurd rfl h)
  ok := by
    intro s n v h
    unfold tblStyleAttr; split <;> first | rfl | (split <;> first | rfl | exact h (by decide))

theorem al_unTblStyle {l : String} {as as' : List Attr} (h : sameAttrs l as as')
    (hl : numbers l [] false = true := by decide) :
    Alike (unTblStyle as) (unTblStyle as') := leaf_alike pa_tblStyleAttr h hl _

theorem pa_widthAttr : Passes widthAttr ["w"] false where
  pass := by
    intro s l v h; unfold widthAttr; split <;> first | rfl | (split <;> first | (exact absurd h (by decide)) | rfl)
  comm := by
    intro s n v n' v' h
    by_cases h1 : v = "" <;> by_cases h2 : v' = "" <;>
      simp only [widthAttr, h1, h2, if_true, if_false] <;>
      first | rfl | (split <;> split <;> first | rfl | exact absurd rfl h)
  ok := by
    intro s n v h
    unfold widthAttr; split <;> first | rfl | (split <;> first | rfl | exact h (by decide))

theorem al_unTblW {l : String} {as as' : List Attr} (h : sameAttrs l as as')
    (hl : numbers l ["w"] false = true := by decide) :
    Alike (unTblW as) (unTblW as') := leaf_alike pa_widthAttr h hl _

theorem pa_lookAttr : Passes lookAttr [] false where
  pass := by
    intro s l v h; unfold lookAttr; split <;> first | rfl | (split <;> first | (exact absurd h (by decide)) | rfl)
  comm := by
    intro s n v n' v' h
    by_cases h1 : v = "" <;> by_cases h2 : v' = "" <;>
      simp only [lookAttr, h1, h2, if_true, if_false] <;>
      first | rfl | (split <;> split <;> first | rfl | exact absurd rfl h)
  ok := by
    intro s n v h
    unfold lookAttr; split <;> first | rfl | (split <;> first | rfl | exact h (by decide))

theorem al_unTblLook {l : String} {as as' : List Attr} (h : sameAttrs l as as')
    (hl : numbers l [] false = true := by decide) :
    Alike (unTblLook as) (unTblLook as') := leaf_alike pa_lookAttr h hl _

theorem pa_borderAttr : Passes borderAttr ["sz", "space"] false where
  pass := by
    intro s l v h; unfold borderAttr; split <;> first | (exact absurd h (by decide)) | rfl
  comm := by
    intro s n v n' v' h
    by_cases h1 : v = "" <;> by_cases h2 : v' = "" <;>
      simp only [borderAttr, intAttrNE, h1, h2, if_true, if_false] <;>
      first | rfl | (split <;> split <;> first | rfl | exact absurd rfl h)
  ok := by
    intro s n v h
    unfold borderAttr; split <;> first
      | rfl
      | exact h (by decide)
      | (have g := h (by decide); unfold intAttrNE; split <;> first | rfl | exact g)

theorem al_unBorder {l : String} {as as' : List Attr} (h : sameAttrs l as as')
    (hl : numbers l ["sz", "space"] false = true := by decide) :
    Alike (unBorder as) (unBorder as') := leaf_alike pa_borderAttr h hl _

theorem al_bordersStep :
    StepAlike (bordersStep) (bordersStep) := by
  intro s l as as' h
  unfold bordersStep
  split <;> first
    | exact skipTo_alike _
    | exact flat_alike _ _
    | exact sub_alike _ (al_unBorder h)

theorem al_unBorders : Alike (unBorders) (unBorders) := loop_alike al_bordersStep _

theorem al_tblPrStep :
    StepAlike (tblPrStep) (tblPrStep) := by
  intro s l as as' h
  unfold tblPrStep
  split <;> first
    | exact skipTo_alike _
    | exact flat_alike _ _
    | exact sub_alike _ (al_unTblpPr h)
    | exact sub_alike _ (al_unTblStyle h)
    | exact sub_alike _ (al_unTblW h)
    | exact sub_alike _ (al_unTblLook h)
    | exact sub_alike _ (al_unBorders)
    | (simp (decide := true) only [getAtt_like h]; first | exact skipTo_alike _ | exact flat_alike _ _ | exact sub_alike _ (al_unTblpPr h) | exact sub_alike _ (al_unTblStyle h) | exact sub_alike _ (al_unTblW h) | exact sub_alike _ (al_unTblLook h) | exact sub_alike _ (al_unBorders))

theorem al_unTblPr : Alike (unTblPr) (unTblPr) := loop_alike al_tblPrStep _

theorem pa_gridColAttr : Passes gridColAttr ["w"] false where
  pass := by
    intro s l v h; unfold gridColAttr; split <;> first | rfl | (split <;> first | (exact absurd h (by decide)) | rfl)
  comm := by
    intro s n v n' v' h
    by_cases h1 : v = "" <;> by_cases h2 : v' = "" <;>
      simp only [gridColAttr, h1, h2, if_true, if_false] <;>
      first | rfl | (split <;> split <;> first | rfl | exact absurd rfl h)
  ok := by
    intro s n v h
    unfold gridColAttr; split <;> first | rfl | (split <;> first | rfl | exact h (by decide))

theorem al_unGridCol {l : String} {as as' : List Attr} (h : sameAttrs l as as')
    (hl : numbers l ["w"] false = true := by decide) :
    Alike (unGridCol as) (unGridCol as') := leaf_alike pa_gridColAttr h hl _

theorem al_gridStep :
    StepAlike (gridStep) (gridStep) := by
  intro s l as as' h
  unfold gridStep
  split <;> first
    | exact skipTo_alike _
    | exact flat_alike _ _
    | exact sub_alike _ (al_unGridCol h)

theorem al_unGrid : Alike (unGrid) (unGrid) := loop_alike al_gridStep _

theorem pa_heightAttr : Passes heightAttr ["val"] false where
  pass := by
    intro s l v h; unfold heightAttr; split <;> first | (exact absurd h (by decide)) | rfl
  comm := by
    intro s n v n' v' h
    unfold heightAttr; split <;> split <;> first | rfl | exact absurd rfl h
  ok := by
    intro s n v h
    unfold heightAttr; split <;> first | rfl | exact h (by decide)

theorem al_trPrStep : StepAlike trPrStep trPrStep := by
  intro s l as as' h d d' hd
  unfold trPrStep
  split
  · rw [attrs_like pa_heightAttr h (by decide)]
    split
    · exact skipTo_alike _ d d' hd
    · exact ⟨rfl, rfl, hd⟩
  · rw [getAtt_like h "val" (by decide)]
    exact skipTo_alike _ d d' hd
  · exact skipTo_alike _ d d' hd

theorem al_unTrPr : Alike (unTrPr) (unTrPr) := loop_alike al_trPrStep _

theorem al_tcPrStep :
    StepAlike (tcPrStep) (tcPrStep) := by
  intro s l as as' h
  unfold tcPrStep
  split <;> first
    | exact skipTo_alike _
    | exact flat_alike _ _
    | exact sub_alike _ (al_unBorders)
    | exact sub_alike _ (al_unShade h)
    | exact flatInt_alike _ _ _
    | exact flatIntSt_alike _ _ _
    | (simp (decide := true) only [getAtt_like h]; first | exact skipTo_alike _ | exact flat_alike _ _ | exact sub_alike _ (al_unBorders) | exact sub_alike _ (al_unShade h) | exact flatInt_alike _ _ _ | exact flatIntSt_alike _ _ _)

theorem al_unTcPr : Alike (unTcPr) (unTcPr) := loop_alike al_tcPrStep _

theorem pa_pgSzAttr : Passes pgSzAttr ["w", "h"] true where
  pass := by
    intro s l v h; unfold pgSzAttr; split <;> first | (exact absurd h (by decide)) | rfl
  comm := by
    intro s n v n' v' h
    cases h1 : atoi? v <;> cases h2 : atoi? v' <;> simp only [pgSzAttr, atoiAttr, h1, h2] <;>
      split <;> split <;> first | rfl | exact absurd rfl h
  ok := by
    intro s n v h
    unfold pgSzAttr; split <;> first
      | rfl
      | (have g := h (by decide); simp only [if_true] at g; unfold atoiAttr; split <;> simp_all)

theorem al_unPgSz {l : String} {as as' : List Attr} (h : sameAttrs l as as')
    (hl : numbers l ["w", "h"] true = true := by decide) :
    Alike (unPgSz as) (unPgSz as') := leaf_alike pa_pgSzAttr h hl _

theorem pa_pgMarAttr : Passes pgMarAttr ["top", "left", "bottom", "right", "header", "footer", "gutter"] true where
  pass := by
    intro s l v h; unfold pgMarAttr; split <;> first | (exact absurd h (by decide)) | rfl
  comm := by
    intro s n v n' v' h
    cases h1 : atoi? v <;> cases h2 : atoi? v' <;> simp only [pgMarAttr, atoiAttr, h1, h2] <;>
      split <;> split <;> first | rfl | exact absurd rfl h
  ok := by
    intro s n v h
    unfold pgMarAttr; split <;> first
      | rfl
      | (have g := h (by decide); simp only [if_true] at g; unfold atoiAttr; split <;> simp_all)

theorem al_unPgMar {l : String} {as as' : List Attr} (h : sameAttrs l as as')
    (hl : numbers l ["top", "left", "bottom", "right", "header", "footer", "gutter"] true = true := by decide) :
    Alike (unPgMar as) (unPgMar as') := leaf_alike pa_pgMarAttr h hl _

theorem pa_colsAttr : Passes colsAttr ["space"] true where
  pass := by
    intro s l v h; unfold colsAttr; split <;> first | (exact absurd h (by decide)) | rfl
  comm := by
    intro s n v n' v' h
    cases h1 : atoi? v <;> cases h2 : atoi? v' <;> simp only [colsAttr, atoiAttr, h1, h2] <;>
      split <;> split <;> first | rfl | exact absurd rfl h
  ok := by
    intro s n v h
    unfold colsAttr; split <;> first
      | rfl
      | (have g := h (by decide); simp only [if_true] at g; unfold atoiAttr; split <;> simp_all)

theorem al_unCols {l : String} {as as' : List Attr} (h : sameAttrs l as as')
    (hl : numbers l ["space"] true = true := by decide) :
    Alike (unCols as) (unCols as') := leaf_alike pa_colsAttr h hl _

theorem pa_docGridAttr : Passes docGridAttr ["linePitch"] true where
  pass := by
    intro s l v h; unfold docGridAttr; split <;> first | (exact absurd h (by decide)) | rfl
  comm := by
    intro s n v n' v' h
    cases h1 : atoi? v <;> cases h2 : atoi? v' <;> simp only [docGridAttr, atoiAttr, h1, h2] <;>
      split <;> split <;> first | rfl | exact absurd rfl h
  ok := by
    intro s n v h
    unfold docGridAttr; split <;> first
      | rfl
      | (have g := h (by decide); simp only [if_true] at g; unfold atoiAttr; split <;> simp_all)

theorem al_unDocGrid {l : String} {as as' : List Attr} (h : sameAttrs l as as')
    (hl : numbers l ["linePitch"] true = true := by decide) :
    Alike (unDocGrid as) (unDocGrid as') := leaf_alike pa_docGridAttr h hl _

theorem al_sectStep :
    StepAlike (sectStep) (sectStep) := by
  intro s l as as' h
  unfold sectStep
  split <;> first
    | exact skipTo_alike _
    | exact flat_alike _ _
    | exact sub_alike _ (al_unPgSz h)
    | exact sub_alike _ (al_unPgMar h)
    | exact sub_alike _ (al_unCols h)
    | exact sub_alike _ (al_unDocGrid h)

theorem al_unSect : Alike (unSect) (unSect) := loop_alike al_sectStep _

theorem al_txbxContentStep {p : Decs} (hp : DecsAlike p) (file : Option DocId) :
    StepAlike (txbxContentStep p file) (txbxContentStep p file) := by
  intro s l as as' h
  unfold txbxContentStep
  split <;> first
    | exact skipTo_alike _
    | exact flat_alike _ _
    | exact sub_alike _ (hp.1 _)

theorem al_textBoxStep {p : Decs} (hp : DecsAlike p) (file : Option DocId) :
    StepAlike (textBoxStep p file) (textBoxStep p file) := by
  intro s l as as' h
  unfold textBoxStep
  split <;> first
    | exact skipTo_alike _
    | exact flat_alike _ _
    | exact sub_alike _ (loop_alike (al_txbxContentStep hp _) _)

theorem al_unTextBox {p : Decs} (hp : DecsAlike p) (file : Option DocId) : Alike (unTextBox p file) (unTextBox p file) := loop_alike (al_textBoxStep hp _) _

theorem al_shapeStep {p : Decs} (hp : DecsAlike p) (file : Option DocId) :
    StepAlike (shapeStep p file) (shapeStep p file) := by
  intro s l as as' h
  unfold shapeStep
  split <;> first
    | exact skipTo_alike _
    | exact flat_alike _ _
    | exact sub_alike _ (al_unIdName h)
    | exact sub_alike _ (al_unCNvCnPr)
    | exact sub_alike _ (al_unCNvSpPr h)
    | exact sub_alike _ (al_unShapePr h)
    | exact sub_alike _ (al_unTextBox hp _)
    | exact sub_alike _ (al_unBodyPr h)

theorem al_unShape {p : Decs} (hp : DecsAlike p) (file : Option DocId) : Alike (unShape p file) (unShape p file) := loop_alike (al_shapeStep hp _) _

theorem al_groupShapeStep {p : Decs} (hp : DecsAlike p) (file : Option DocId) :
    StepAlike (groupShapeStep p file) (groupShapeStep p file) := by
  intro s l as as' h
  unfold groupShapeStep
  split <;> first
    | exact skipTo_alike _
    | exact flat_alike _ _
    | exact sub_alike _ (al_unIdName h)
    | exact sub_alike _ (al_unCNvGrpSpPr)
    | exact sub_alike _ (al_unShapePr h)
    | exact sub_alike _ (al_unPic)
    | exact sub_alike _ (al_unShape hp _)
    | exact sub_alike _ (hp.2.1 _)

theorem al_unGroupShape {p : Decs} (hp : DecsAlike p) (file : Option DocId) : Alike (unGroupShape p file) (unGroupShape p file) := loop_alike (al_groupShapeStep hp _) _

theorem al_groupStep {p : Decs} (hp : DecsAlike p) (file : Option DocId) :
    StepAlike (groupStep p file) (groupStep p file) := by
  intro s l as as' h
  unfold groupStep
  split <;> first
    | exact skipTo_alike _
    | exact flat_alike _ _
    | exact sub_alike _ (al_unCNvGrpSpPr)
    | exact sub_alike _ (al_unShapePr h)
    | exact sub_alike _ (al_unPic)
    | exact sub_alike _ (al_unShape hp _)
    | exact sub_alike _ (al_unGroupShape hp _)
    | exact sub_alike _ (hp.2.1 _)

theorem al_unGroup {p : Decs} (hp : DecsAlike p) (file : Option DocId) : Alike (unGroup p file) (unGroup p file) := loop_alike (al_groupStep hp _) _

theorem al_canvasStep {p : Decs} (hp : DecsAlike p) (file : Option DocId) :
    StepAlike (canvasStep p file) (canvasStep p file) := by
  intro s l as as' h
  unfold canvasStep
  split <;> first
    | exact skipTo_alike _
    | exact flat_alike _ _
    | exact sub_alike _ (al_unBackground)
    | exact sub_alike _ (al_unWhole)
    | exact sub_alike _ (al_unShape hp _)
    | exact sub_alike _ (al_unPic)
    | exact sub_alike _ (al_unGroup hp _)
    | (simp (decide := true) only [getAtt_like h]; first | exact skipTo_alike _ | exact flat_alike _ _ | exact sub_alike _ (al_unBackground) | exact sub_alike _ (al_unWhole) | exact sub_alike _ (al_unShape hp _) | exact sub_alike _ (al_unPic) | exact sub_alike _ (al_unGroup hp _))

theorem al_unCanvas {p : Decs} (hp : DecsAlike p) (file : Option DocId) : Alike (unCanvas p file) (unCanvas p file) := loop_alike (al_canvasStep hp _) _

theorem pa_graphicDataAttr : Passes graphicDataAttr [] false where
  pass := by
    intro s l v h; unfold graphicDataAttr; split <;> first | (exact absurd h (by decide)) | rfl
  comm := by
    intro s n v n' v' h
    unfold graphicDataAttr; split <;> split <;> first | rfl | exact absurd rfl h
  ok := by
    intro s n v h
    unfold graphicDataAttr; split <;> first | rfl | exact h (by decide)

theorem al_graphicDataStep {p : Decs} (hp : DecsAlike p) (file : Option DocId) :
    StepAlike (graphicDataStep p file) (graphicDataStep p file) := by
  intro s l as as' h
  unfold graphicDataStep
  split <;> first
    | exact skipTo_alike _
    | exact flat_alike _ _
    | exact sub_alike _ (al_unPic)
    | exact sub_alike _ (al_unShape hp _)
    | exact sub_alike _ (al_unCanvas hp _)
    | exact sub_alike _ (al_unGroup hp _)
    | (simp (decide := true) only [getAtt_like h]; first | exact skipTo_alike _ | exact flat_alike _ _ | exact sub_alike _ (al_unPic) | exact sub_alike _ (al_unShape hp _) | exact sub_alike _ (al_unCanvas hp _) | exact sub_alike _ (al_unGroup hp _))

theorem al_unGraphicData {p : Decs} (hp : DecsAlike p) (file : Option DocId) {l : String} {as as' : List Attr} (h : sameAttrs l as as')
    (hl : numbers l [] false = true := by decide) :
    Alike (unGraphicData p file as) (unGraphicData p file as') := 
  withAttrs_alike pa_graphicDataAttr (loop_alike (al_graphicDataStep hp _)) h hl _

theorem pa_graphicAttr : Passes graphicAttr [] false where
  pass := by
    intro s l v h; unfold graphicAttr; split <;> first | (exact absurd h (by decide)) | rfl
  comm := by
    intro s n v n' v' h
    unfold graphicAttr; split <;> split <;> first | rfl | exact absurd rfl h
  ok := by
    intro s n v h
    unfold graphicAttr; split <;> first | rfl | exact h (by decide)

theorem al_graphicStep {p : Decs} (hp : DecsAlike p) (file : Option DocId) :
    StepAlike (graphicStep p file) (graphicStep p file) := by
  intro s l as as' h
  unfold graphicStep
  split <;> first
    | exact skipTo_alike _
    | exact flat_alike _ _
    | exact sub_alike _ (al_unGraphicData hp _ h)
    | (simp (decide := true) only [getAtt_like h]; first | exact skipTo_alike _ | exact flat_alike _ _ | exact sub_alike _ (al_unGraphicData hp _ h))

theorem al_unGraphic {p : Decs} (hp : DecsAlike p) (file : Option DocId) {l : String} {as as' : List Attr} (h : sameAttrs l as as')
    (hl : numbers l [] false = true := by decide) :
    Alike (unGraphic p file as) (unGraphic p file as') := 
  withAttrs_alike pa_graphicAttr (loop_alike (al_graphicStep hp _)) h hl _

theorem pa_inlineAttr : Passes inlineAttr ["distT", "distB", "distL", "distR"] false where
  pass := by
    intro s l v h; unfold inlineAttr; split <;> first | (exact absurd h (by decide)) | rfl
  comm := by
    intro s n v n' v' h
    unfold inlineAttr; split <;> split <;> first | rfl | exact absurd rfl h
  ok := by
    intro s n v h
    unfold inlineAttr; split <;> first | rfl | exact h (by decide)

theorem al_inlineStep {p : Decs} (hp : DecsAlike p) (file : Option DocId) :
    StepAlike (inlineStep p file) (inlineStep p file) := by
  intro s l as as' h
  unfold inlineStep
  split <;> first
    | exact skipTo_alike _
    | exact flat_alike _ _
    | exact sub_alike _ (al_unIdName h)
    | exact sub_alike _ (al_unFramePr)
    | exact sub_alike _ (al_unGraphic hp _ h)
    | exact flatAttrs_alike pa_extAttr _ h (by decide) _
    | exact flatAttrsV_alike _ pa_extAttr _ h (by decide) _
    | exact flatAttrs_alike pa_effAttr _ h (by decide) _
    | exact flatAttrsV_alike _ pa_effAttr _ h (by decide) _

theorem al_unInline {p : Decs} (hp : DecsAlike p) (file : Option DocId) {l : String} {as as' : List Attr} (h : sameAttrs l as as')
    (hl : numbers l ["distT", "distB", "distL", "distR"] false = true := by decide) :
    Alike (unInline p file as) (unInline p file as') := 
  withAttrs_alike pa_inlineAttr (loop_alike (al_inlineStep hp _)) h hl _

theorem pa_anchorAttr : Passes anchorAttr ["distT", "distB", "distL", "distR", "simplePos", "relativeHeight", "behindDoc", "locked", "layoutInCell", "allowOverlap"] false where
  pass := by
    intro s l v h; unfold anchorAttr; split <;> first | (exact absurd h (by decide)) | rfl
  comm := by
    intro s n v n' v' h
    unfold anchorAttr; split <;> split <;> first | rfl | exact absurd rfl h
  ok := by
    intro s n v h
    unfold anchorAttr; split <;> first | rfl | exact h (by decide)

theorem al_anchorStep {p : Decs} (hp : DecsAlike p) (file : Option DocId) :
    StepAlike (anchorStep p file) (anchorStep p file) := by
  intro s l as as' h
  unfold anchorStep
  split <;> first
    | exact skipTo_alike _
    | exact flat_alike _ _
    | exact sub_alike _ (al_unPosition h)
    | exact sub_alike _ (al_unExtent h)
    | exact sub_alike _ (al_unEffectExtent h)
    | exact sub_alike _ (al_unIdName h)
    | exact sub_alike _ (al_unFramePr)
    | exact sub_alike _ (al_unGraphic hp _ h)
    | exact flatAttrs_alike pa_offAttr _ h (by decide) _
    | exact flatAttrsV_alike _ pa_offAttr _ h (by decide) _
    | (simp (decide := true) only [getAtt_like h]; first | exact skipTo_alike _ | exact flat_alike _ _ | exact sub_alike _ (al_unPosition h) | exact sub_alike _ (al_unExtent h) | exact sub_alike _ (al_unEffectExtent h) | exact sub_alike _ (al_unIdName h) | exact sub_alike _ (al_unFramePr) | exact sub_alike _ (al_unGraphic hp _ h))

theorem al_unAnchor {p : Decs} (hp : DecsAlike p) (file : Option DocId) {l : String} {as as' : List Attr} (h : sameAttrs l as as')
    (hl : numbers l ["distT", "distB", "distL", "distR", "simplePos", "relativeHeight", "behindDoc", "locked", "layoutInCell", "allowOverlap"] false = true := by decide) :
    Alike (unAnchor p file as) (unAnchor p file as') := 
  withAttrs_alike pa_anchorAttr (loop_alike (al_anchorStep hp _)) h hl _

theorem al_drawingStep {p : Decs} (hp : DecsAlike p) (file : Option DocId) :
    StepAlike (drawingStep p file) (drawingStep p file) := by
  intro s l as as' h
  unfold drawingStep
  split <;> first
    | exact skipTo_alike _
    | exact flat_alike _ _
    | exact sub_alike _ (al_unInline hp _ h)
    | exact sub_alike _ (al_unAnchor hp _ h)

theorem al_unDrawing {p : Decs} (hp : DecsAlike p) (file : Option DocId) : Alike (unDrawing p file) (unDrawing p file) := loop_alike (al_drawingStep hp _) _

theorem pa_runAttr : Passes runAttr [] false where
  pass := by
    intro s l v h; unfold runAttr; split <;> first | (exact absurd h (by decide)) | rfl
  comm := by
    intro s n v n' v' h
    unfold runAttr; split <;> split <;> first | rfl | exact absurd rfl h
  ok := by
    intro s n v h
    unfold runAttr; split <;> first | rfl | exact h (by decide)

theorem supportedChoice_like {m : String} {as as' : List Attr} (h : sameAttrs m as as') (l : String) :
    supportedChoice l as = supportedChoice l as' := by
  unfold supportedChoice
  rw [getAtt_like h "Requires" (by decide)]

theorem al_altN {parse : Run → String → List Attr → Dec → Out Parsed}
    (hp : ∀ r l as as', sameAttrs l as as' → Alike (parse r l as) (parse r l as')) :
    ∀ (n : Nat) (r : Run), Alike (altN parse n r) (altN parse n r)
  | 0, _ => fun _ _ hd => ⟨rfl, rfl, hd⟩
  | n + 1, r => by
    intro d d' hd
    have next : ∀ {e e' : Dec}, Like e e' →
        (match e.skip with
          | (none, d'') => altN parse n r d''
          | (some x, d'') => (⟨(r, none), some x, d''⟩ : Out Parsed)).val =
        (match e'.skip with
          | (none, d'') => altN parse n r d''
          | (some x, d'') => (⟨(r, none), some x, d''⟩ : Out Parsed)).val ∧
        (match e.skip with
          | (none, d'') => altN parse n r d''
          | (some x, d'') => (⟨(r, none), some x, d''⟩ : Out Parsed)).err =
        (match e'.skip with
          | (none, d'') => altN parse n r d''
          | (some x, d'') => (⟨(r, none), some x, d''⟩ : Out Parsed)).err ∧
        Like (match e.skip with
          | (none, d'') => altN parse n r d''
          | (some x, d'') => (⟨(r, none), some x, d''⟩ : Out Parsed)).dec
        (match e'.skip with
          | (none, d'') => altN parse n r d''
          | (some x, d'') => (⟨(r, none), some x, d''⟩ : Out Parsed)).dec := by
      intro e e' he
      obtain ⟨g1, g2⟩ := skip_like he
      rcases hs : e.skip with ⟨x, y⟩
      rcases hs' : e'.skip with ⟨x', y'⟩
      rw [hs, hs'] at g1 g2
      simp only at g1 g2
      subst g1
      cases x with
      | none => exact al_altN hp n r _ _ g2
      | some e => exact ⟨rfl, rfl, g2⟩
    simp only [altN]
    rcases token_cases hd with ⟨x, _, _, e1, e2, h'⟩ | ⟨q, as, q', as', d1, d1', e1, e2, hl, ha, h'⟩ |
      ⟨_, _, _, _, e1, e2, hl, h'⟩ | ⟨_, _, _, e1, e2, h'⟩ | ⟨_, _, e1, e2, h'⟩ | ⟨_, _, e1, e2, h'⟩ <;>
      rw [e1, e2]
    · cases x <;> exact ⟨rfl, rfl, h'⟩
    · simp only
      rw [← hl, ← supportedChoice_like ha]
      split
      · rcases token_cases h' with ⟨x, _, _, f1, f2, g'⟩ | ⟨q2, as2, q2', as2', d2, d2', f1, f2, gl, ga, g'⟩ |
          ⟨_, _, _, _, f1, f2, _, g'⟩ | ⟨_, _, _, f1, f2, g'⟩ | ⟨_, _, f1, f2, g'⟩ | ⟨_, _, f1, f2, g'⟩ <;>
          rw [f1, f2]
        · exact ⟨rfl, rfl, g'⟩
        · simp only
          rw [← gl]
          exact hp r _ _ _ ga _ _ g'
        all_goals exact ⟨rfl, rfl, g'⟩
      · exact next h'
    · simp only
      rw [← hl]
      split
      · exact ⟨rfl, rfl, h'⟩
      · exact next h'
    all_goals exact next h'

theorem al_runParse {p : Decs} (hp : DecsAlike p) (file : Option DocId) (r : Run) (l : String)
    (as as' : List Attr) (h : sameAttrs l as as') :
    Alike (runParse p file r l as) (runParse p file r l as') := by
  intro d d' hd
  unfold runParse
  split
  · exact sub_alike _ al_unRPr d d' hd
  · obtain ⟨h1, h2, h3⟩ := reflString_alike d d' hd
    exact ⟨by simp only [h1], by simp only [h2], h3⟩
  · exact subStrict_alike _ (al_unText h) d d' hd
  · exact subStrict_alike _ (al_unDrawing hp _) d d' hd
  · exact flat_alike _ _ d d' hd
  · exact subStrict_alike _ (al_unBr h) d d' hd
  · rw [hd.length]
    exact al_altN (hp.2.2 file) _ _ d d' hd
  · exact skipTo_alike _ d d' hd

theorem al_runStep {p : Decs} (hp : DecsAlike p) (file : Option DocId) :
    StepAlike (runStep p file) (runStep p file) := by
  intro s l as as' h d d' hd
  obtain ⟨g1, g2, g3⟩ := al_runParse hp file s l as as' h d d' hd
  unfold runStep
  rcases hs : runParse p file s l as d with ⟨v, e, y⟩
  rcases hs' : runParse p file s l as' d' with ⟨v', e', y'⟩
  rw [hs, hs'] at g1 g2 g3
  simp only at g1 g2 g3
  subst g1 g2
  cases e <;> exact ⟨rfl, rfl, g3⟩

theorem al_unRun {p : Decs} (hp : DecsAlike p) (file : Option DocId) (s : Run) {l : String} {as as' : List Attr}
    (h : sameAttrs l as as') : Alike (unRun p file s as) (unRun p file s as') :=
  withAttrs_alike pa_runAttr (loop_alike (al_runStep hp _)) h rfl _

theorem al_hyperlinkStep {p : Decs} (hp : DecsAlike p) :
    StepAlike (hyperlinkStep p) (hyperlinkStep p) := by
  intro s l as as' h
  unfold hyperlinkStep
  split <;> first
    | exact skipTo_alike _
    | exact flat_alike _ _
    | exact sub_alike _ (al_unRun hp _ _ h)

theorem al_unLink {p : Decs} (hp : DecsAlike p) : Alike (unLink p) (unLink p) :=
  loop_alike (al_hyperlinkStep hp) _

theorem linkID_like {l : String} {as as' : List Attr} (h : sameAttrs l as as') (old : String) :
    linkID as old = linkID as' old := by
  unfold linkID
  rw [getAtt_like h "anchor" (by decide), getAtt_like h "id" (by decide)]

theorem al_paraStep {p : Decs} (hp : DecsAlike p) (file : Option DocId) :
    StepAlike (paraStep p file) (paraStep p file) := by
  intro s l as as' h
  unfold paraStep
  split
  · simp only [linkID_like h]
    exact sub_alike _ (al_unLink hp)
  · exact sub_alike _ (al_unRun hp _ _ h)
  · exact sub_alike _ al_unRPr
  · exact sub_alike _ al_unPPr
  · exact skipTo_alike _

theorem al_unPara {p : Decs} (hp : DecsAlike p) (file : Option DocId) :
    Alike (unPara p file) (unPara p file) := by
  intro d d' hd
  obtain ⟨h1, h2, h3⟩ := loop_alike (al_paraStep hp file) { file := file } d d' hd
  unfold unPara
  simp only
  rw [← h2]
  cases (loop (paraStep p file) { file := file } d).err with
  | none => exact ⟨h1, h2, h3⟩
  | some e => exact ⟨by simp only [h1], rfl, h3⟩

theorem decs_alike : ∀ k : Nat, DecsAlike (decs k)
  | 0 => ⟨fun _ _ _ hd => ⟨rfl, rfl, hd⟩, fun _ _ _ hd => ⟨rfl, rfl, hd⟩, fun _ _ _ _ _ _ _ _ hd => ⟨rfl, rfl, hd⟩⟩
  | k + 1 => ⟨al_unPara (decs_alike k), al_unCanvas (decs_alike k), al_runParse (decs_alike k)⟩

theorem al_cellStep {p : Decs} (hp : DecsAlike p) (file : Option DocId) :
    StepAlike (cellStep p file) (cellStep p file) := by
  intro s l as as' h
  unfold cellStep
  split <;> first
    | exact skipTo_alike _
    | exact flat_alike _ _
    | exact sub_alike _ (al_unPara hp _)
    | exact sub_alike _ (al_unTcPr)

theorem al_unCell {p : Decs} (hp : DecsAlike p) (file : Option DocId) : Alike (unCell p file) (unCell p file) := loop_alike (al_cellStep hp _) _

theorem al_rowStep {p : Decs} (hp : DecsAlike p) (file : Option DocId) :
    StepAlike (rowStep p file) (rowStep p file) := by
  intro s l as as' h
  unfold rowStep
  split <;> first
    | exact skipTo_alike _
    | exact flat_alike _ _
    | exact sub_alike _ (al_unTrPr)
    | exact sub_alike _ (al_unCell hp _)

theorem al_unRow {p : Decs} (hp : DecsAlike p) (file : Option DocId) : Alike (unRow p file) (unRow p file) := loop_alike (al_rowStep hp _) _

theorem al_tableStep {p : Decs} (hp : DecsAlike p) (file : Option DocId) :
    StepAlike (tableStep p file) (tableStep p file) := by
  intro s l as as' h
  unfold tableStep
  split <;> first
    | exact skipTo_alike _
    | exact flat_alike _ _
    | exact sub_alike _ (al_unRow hp _)
    | exact sub_alike _ (al_unTblPr)
    | exact sub_alike _ (al_unGrid)

theorem al_unTable {p : Decs} (hp : DecsAlike p) (file : Option DocId) : Alike (unTable p file) (unTable p file) := loop_alike (al_tableStep hp _) _

theorem al_bodyStep {p : Decs} (hp : DecsAlike p) (file : Option DocId) :
    StepAlike (bodyStep p file) (bodyStep p file) := by
  intro s l as as' h
  unfold bodyStep
  split <;> first
    | exact skipTo_alike _
    | exact flat_alike _ _
    | exact sub_alike _ (al_unPara hp _)
    | exact sub_alike _ (al_unTable hp _)
    | exact sub_alike _ (al_unSect)

theorem al_unBody {p : Decs} (hp : DecsAlike p) (file : Option DocId) (s : List BItem) : Alike (unBody p file s) (unBody p file s) := loop_alike (al_bodyStep hp _) _

theorem al_documentStep {p : Decs} (hp : DecsAlike p) (file : Option DocId) :
    StepAlike (documentStep p file) (documentStep p file) := by
  intro s l as as' h
  unfold documentStep
  split <;> first
    | exact skipTo_alike _
    | exact flat_alike _ _
    | exact sub_alike _ (al_unBody hp _ _)

theorem al_unDocument {p : Decs} (hp : DecsAlike p) (file : Option DocId) (s : List BItem) : Alike (unDocument p file s) (unDocument p file s) := loop_alike (al_documentStep hp _) _

theorem rootN_like {α : Type} {u : List Attr → Dec → Out α} (hu : ∀ as as', Alike (u as) (u as')) (s : α) :
    ∀ n : Nat, Alike (rootN u s n) (rootN u s n)
  | 0 => fun _ _ hd => ⟨rfl, rfl, hd⟩
  | n + 1 => by
    intro d d' hd
    simp only [rootN]
    rcases token_cases hd with ⟨x, _, _, e1, e2, h'⟩ | ⟨q, as, q', as', d1, d1', e1, e2, hl, ha, h'⟩ |
      ⟨_, _, _, _, e1, e2, _, h'⟩ | ⟨_, _, _, e1, e2, h'⟩ | ⟨_, _, e1, e2, h'⟩ | ⟨_, _, e1, e2, h'⟩ <;>
      rw [e1, e2]
    · exact ⟨rfl, rfl, h'⟩
    · exact hu as as' _ _ h'
    all_goals exact rootN_like hu s n _ _ h'

/-- A document is decoded the same from inputs alike. -/
theorem decodeDocument_like (file : Option DocId) (s : List BItem) {ts ts' : List Tok}
    (h : twins [] [] ts ts') :
    (decodeDocument file s ts).val = (decodeDocument file s ts').val ∧
    (decodeDocument file s ts).err = (decodeDocument file s ts').err := by
  unfold decodeDocument
  rw [twins_length h]
  obtain ⟨h1, h2, _⟩ := rootN_like (fun _ _ => decodeElement_alike (al_unDocument (decs_alike _) file s)) s
    (ts'.length + 1) ⟨ts, [], false⟩ ⟨ts', [], false⟩ ⟨rfl, rfl, h⟩
  exact ⟨h1, h2⟩

end Docx
