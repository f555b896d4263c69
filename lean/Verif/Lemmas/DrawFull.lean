import Verif.Lemmas.DrawRead

/-!
# What is read of drawings, runs, paragraphs and documents
-/

namespace Docx

set_option linter.unusedSectionVars false

variable [GoEnv]

/-! ## Texts and breaks -/

theorem textLoop_space : ∀ (f : Nat) (s : Text) (d : Dec),
    (loopN (fun s _ _ => flat s) (fun s c => { s with text := c }) f s d).val.space = s.space := by
  intro f
  induction f with
  | zero => intro s d; rfl
  | succ f ih =>
    intro s d
    rw [loopN]
    rcases d.token with ⟨e | t, d'⟩
    · cases e <;> rfl
    · cases t with
      | start q as => simp only [flat]; exact ih _ _
      | chars c => simp only; rw [ih]
      | stop q => exact ih _ _
      | other => exact ih _ _
      | bad => exact ih _ _

theorem text_on : AttrsOn textAttr fun as => ⟨attrLast "space" as, ""⟩ := by
  intro as a
  unfold textAttr
  generalize hl : a.name.loc = l
  split <;> simp_all [attrLast_snoc]

theorem unText_B (as : List Attr) : ReadsB (unText as) fun kids =>
    ⟨attrLast "space" as, lastPiece (charDataL kids)⟩ := by
  intro q kids rest stk _ _ he
  have h1 := unText_value he
  have h2 : (unText as (inCtx [(kids, q)] rest stk)).val.space = attrLast "space" as := by
    unfold unText withAttrs at he ⊢
    have ha := attrs_on text_on [] as
    rcases hs : attrs textAttr {} as with ⟨s, _ | e⟩
    · have h3 : s = ⟨attrLast "space" as, ""⟩ := by
        have := ha (by rw [show (⟨attrLast "space" [], ""⟩ : Text) = {} from rfl, hs])
        rw [show (⟨attrLast "space" [], ""⟩ : Text) = {} from rfl, hs] at this
        simpa using this
      simp only [loopC]
      rw [textLoop_space, h3]
    · rw [hs] at he
      cases he
  generalize (unText as (inCtx [(kids, q)] rest stk)).val = v at h1 h2
  cases v
  simp_all

theorem unBr_B (as : List Attr) : ReadsB (unBr as) fun _ => ⟨firstAttr "type" as⟩ := by
  intro q kids rest stk _ _ _
  have h := unBr_value (as := as) (d := inCtx [(kids, q)] rest stk)
  generalize (unBr as (inCtx [(kids, q)] rest stk)).val = v at h
  cases v
  simp_all

/-! ## Drawings -/

variable {p : Decs} {R : Readers}

/-- The recursive decoders read as `R` says. -/
structure DecsRead (p : Decs) (R : Readers) : Prop where
  fine : DecsFine p
  para : ∀ file, ReadsB (p.para file) (R.para file)
  canvas : ∀ file, ReadsB (p.canvas file) (R.canvas file)

theorem txbxContent_B (h : DecsRead p R) (file : Option DocId) :
    ReadsB (loop (txbxContentStep p file) []) fun kids =>
      ((children kids).filter fun e => e.name == "p").map fun e => R.para file e.kids := by
  refine loop_B (fun es => (es.filter fun e => e.name == "p").map fun e => R.para file e.kids)
    (fun _ => false) ?_ []
  intro es q as kids ha hk hal
  unfold txbxContentStep
  generalize hl : q.loc = l at ha ⊢
  split
  · exact does_sub' (h.fine.para file) (h.para file) hk hal (by simp [List.filter_append])
  · refine does_skip' ?_ rfl
    simp_all [List.filter_append]

theorem unTextBox_B (h : DecsRead p R) (file : Option DocId) :
    ReadsB (unTextBox p file) fun kids => textBoxOf R file (children kids) := by
  refine loop_B (textBoxOf R file) (fun _ => false) ?_ []
  intro es q as kids ha hk hal
  unfold textBoxStep
  generalize hl : q.loc = l at ha ⊢
  split
  · exact does_sub' (loop_fine (txbxContentStep_fine h.fine file) _) (txbxContent_B h file) hk hal
      (by snocs [textBoxOf])
  · refine does_skip' ?_ ?_ <;> snocs [textBoxOf]

theorem unShape_B (h : DecsRead p R) (file : Option DocId) :
    ReadsB (unShape p file) fun kids => shapeOf R file (children kids) := by
  refine loop_B (shapeOf R file) (fun _ => false) ?_ []
  intro es q as kids ha hk hal
  unfold shapeStep
  generalize hl : q.loc = l at ha ⊢
  split
  · exact does_sub' (unIdName_fine _ idNameAttr_fine_cNvPr ha) (leaf_B idName_on as) hk hal (by snocs [shapeOf])
  · exact does_sub' unCNvCnPr_fine unCNvCnPr_B hk hal (by snocs [shapeOf])
  · exact does_sub' (unCNvSpPr_fine _ cNvSpPrAttr_fine_cNvSpPr ha) (unCNvSpPr_B as) hk hal (by snocs [shapeOf])
  · exact does_sub' (unShapePr_fine _ shapePrAttr_fine_spPr ha) (unShapePr_B as) hk hal (by snocs [shapeOf])
  · exact does_sub' (unTextBox_fine h.fine file) (unTextBox_B h file) hk hal (by snocs [shapeOf])
  · exact does_sub' (unBodyPr_fine _ bodyPrAttr_fine_bodyPr ha) (unBodyPr_B as) hk hal (by snocs [shapeOf])
  · refine does_skip' ?_ ?_ <;> snocs [shapeOf]

theorem unGroupShape_B (h : DecsRead p R) (file : Option DocId) :
    ReadsB (unGroupShape p file) fun kids => groupShapeOf R file (children kids) := by
  refine loop_B (groupShapeOf R file) (fun _ => false) ?_ []
  intro es q as kids ha hk hal
  unfold groupShapeStep
  generalize hl : q.loc = l at ha ⊢
  split
  · exact does_sub' (unIdName_fine _ idNameAttr_fine_cNvPr ha) (leaf_B idName_on as) hk hal
      (by snocs [groupShapeOf, groupItem])
  · exact does_sub' unCNvGrpSpPr_fine unCNvGrpSpPr_B hk hal (by snocs [groupShapeOf, groupItem])
  · exact does_sub' (unShapePr_fine _ shapePrAttr_fine_grpSpPr ha) (unShapePr_B as) hk hal
      (by snocs [groupShapeOf, groupItem])
  · exact does_sub' unPic_fine unPic_B hk hal (by snocs [groupShapeOf, groupItem])
  · exact does_sub' (unShape_fine h.fine file) (unShape_B h file) hk hal (by snocs [groupShapeOf, groupItem])
  · exact does_sub' (h.fine.canvas file) (h.canvas file) hk hal (by snocs [groupShapeOf, groupItem])
  · refine does_skip' ?_ ?_ <;> snocs [groupShapeOf, groupItem]

theorem unGroup_B (h : DecsRead p R) (file : Option DocId) :
    ReadsB (unGroup p file) fun kids => groupOf R file (children kids) := by
  refine loop_B (groupOf R file) (fun _ => false) ?_ []
  intro es q as kids ha hk hal
  unfold groupStep
  generalize hl : q.loc = l at ha ⊢
  split
  · exact does_sub' unCNvGrpSpPr_fine unCNvGrpSpPr_B hk hal (by snocs [groupOf, groupItem])
  · exact does_sub' (unShapePr_fine _ shapePrAttr_fine_grpSpPr ha) (unShapePr_B as) hk hal
      (by snocs [groupOf, groupItem])
  · exact does_sub' unPic_fine unPic_B hk hal (by snocs [groupOf, groupItem])
  · exact does_sub' (unShape_fine h.fine file) (unShape_B h file) hk hal (by snocs [groupOf, groupItem])
  · exact does_sub' (h.fine.canvas file) (h.canvas file) hk hal (by snocs [groupOf, groupItem])
  · exact does_sub' (unGroupShape_fine h.fine file) (unGroupShape_B h file) hk hal
      (by snocs [groupOf, groupItem])
  · refine does_skip' ?_ ?_ <;> snocs [groupOf, groupItem]

theorem unCanvas_B (h : DecsRead p R) (file : Option DocId) :
    ReadsB (unCanvas p file) fun kids => canvasOf R file (children kids) := by
  refine loop_B (canvasOf R file) (fun _ => false) ?_ []
  intro es q as kids ha hk hal
  unfold canvasStep
  generalize hl : q.loc = l at ha ⊢
  split
  · exact does_sub' unBackground_fine unBackground_B hk hal (by snocs [canvasOf, canvasItem])
  · exact does_sub' unWhole_fine unWhole_B hk hal (by snocs [canvasOf, canvasItem])
  · exact does_sub' (unShape_fine h.fine file) (unShape_B h file) hk hal (by snocs [canvasOf, canvasItem])
  · exact does_sub' unPic_fine unPic_B hk hal (by snocs [canvasOf, canvasItem])
  · exact does_sub' (unGroup_fine h.fine file) (unGroup_B h file) hk hal (by snocs [canvasOf, canvasItem])
  · refine does_skip' ?_ ?_ <;> snocs [canvasOf, canvasItem]

/-- Like `graphicDataOf`, with the last `uri` -/
def graphicDataL (R : Readers) (file : Option DocId) (as : List Attr) (es : List El) : GraphicData :=
  { graphicDataOf R file as es with uri := attrLast "uri" as }

theorem graphicData_on (file : Option DocId) (es : List El) :
    AttrsOn graphicDataAttr fun as => graphicDataL R file as es := by
  intro as a
  unfold graphicDataAttr
  generalize hl : a.name.loc = l
  split <;> simp_all [graphicDataL, graphicDataOf, attrLast_snoc]

theorem unGraphicData_B (h : DecsRead p R) (file : Option DocId) (as : List Attr) :
    ReadsB (unGraphicData p file as) fun kids => graphicDataL R file as (children kids) := by
  refine withAttrs_B (graphicDataL R file) (fun _ => false) (graphicData_on file) ?_ [] [] as
  intro A es q as kids ha hk hal
  unfold graphicDataStep
  generalize hl : q.loc = l at ha ⊢
  split
  · exact does_sub' unPic_fine unPic_B hk hal (by snocs [graphicDataL, graphicDataOf])
  · exact does_sub' (unShape_fine h.fine file) (unShape_B h file) hk hal (by snocs [graphicDataL, graphicDataOf])
  · exact does_sub' (unCanvas_fine h.fine file) (unCanvas_B h file) hk hal
      (by snocs [graphicDataL, graphicDataOf])
  · exact does_sub' (unGroup_fine h.fine file) (unGroup_B h file) hk hal (by snocs [graphicDataL, graphicDataOf])
  · refine does_skip' ?_ ?_ <;> snocs [graphicDataL, graphicDataOf]

theorem graphic_on (file : Option DocId) (es : List El) :
    AttrsOn graphicAttr fun as => graphicOf R file as es := by
  intro as a
  unfold graphicAttr
  generalize hl : a.name.loc = l
  split <;> simp_all [graphicOf, attrLast_snoc]

theorem unGraphic_B (h : DecsRead p R) (file : Option DocId) (as : List Attr) :
    ReadsB (unGraphic p file as) fun kids => graphicOf R file as (children kids) := by
  refine withAttrs_B (graphicOf R file) (fun _ => false) (graphic_on file) ?_ [] [] as
  intro A es q as kids ha hk hal
  unfold graphicStep
  generalize hl : q.loc = l at ha ⊢
  split
  · exact does_sub' (unGraphicData_fine h.fine file _ graphicDataAttr_fine_graphicData ha)
      (unGraphicData_B h file as) hk hal (by snocs [graphicOf, graphicDataL, graphicDataOf])
  · refine does_skip' ?_ ?_ <;> snocs [graphicOf]

theorem inline_on (file : Option DocId) (es : List El) :
    AttrsOn inlineAttr fun as => inlineOf R file as es := by
  intro as a
  unfold inlineAttr intAttr
  generalize hl : a.name.loc = l
  split <;> simp_all [inlineOf, numAttr_snoc]

theorem unInline_B (h : DecsRead p R) (file : Option DocId) (as : List Attr) :
    ReadsB (unInline p file as) fun kids => inlineOf R file as (elsL inlineOpen kids) := by
  refine withAttrs_B (inlineOf R file) inlineOpen (inline_on file) ?_ [] [] as
  intro A es q as kids ha hk hal
  unfold inlineStep
  generalize hl : q.loc = l at ha ⊢
  split
  · exact does_flatAttrs' ext_on (pre := []) (by snocs [inlineOf])
  · exact does_flatAttrs' eff_on (pre := []) (by snocs [inlineOf])
  · exact does_sub' (unIdName_fine _ idNameAttr_fine_docPr ha) (leaf_B idName_on as) hk hal (by snocs [inlineOf])
  · exact does_sub' unFramePr_fine unFramePr_B hk hal (by snocs [inlineOf])
  · exact does_sub' (unGraphic_fine h.fine file _ graphicAttr_fine_graphic ha) (unGraphic_B h file as) hk hal
      (by snocs [inlineOf])
  · refine does_skip' ?_ ?_ <;> snocs [inlineOf, inlineOpen]

theorem anchor_on (file : Option DocId) (es : List El) :
    AttrsOn anchorAttr fun as => anchorOf R file as es := by
  intro as a
  unfold anchorAttr intAttr
  generalize hl : a.name.loc = l
  split <;> simp_all [anchorOf, numAttr_snoc]

theorem unAnchor_B (h : DecsRead p R) (file : Option DocId) (as : List Attr) :
    ReadsB (unAnchor p file as) fun kids => anchorOf R file as (elsL anchorOpen kids) := by
  refine withAttrs_B (anchorOf R file) anchorOpen (anchor_on file) ?_ [] [] as
  intro A es q as kids ha hk hal
  unfold anchorStep
  generalize hl : q.loc = l at ha ⊢
  split
  · exact does_flatAttrs' off_on (pre := []) (by snocs [anchorOf])
  · exact does_sub' (unPosition_fine _) (unPosition_B as) hk hal (by snocs [anchorOf])
  · exact does_sub' (unPosition_fine _) (unPosition_B as) hk hal (by snocs [anchorOf])
  · exact does_sub' (unExtent_fine _ extAttr_fine_extent ha) (leaf_B ext_on as) hk hal (by snocs [anchorOf])
  · exact does_sub' (unEffectExtent_fine _ effAttr_fine_effectExtent ha) (leaf_B eff_on as) hk hal
      (by snocs [anchorOf])
  · exact does_flat' (by snocs [anchorOf])
  · exact does_flat' (by snocs [anchorOf])
  · exact does_sub' (unIdName_fine _ idNameAttr_fine_docPr ha) (leaf_B idName_on as) hk hal (by snocs [anchorOf])
  · exact does_sub' unFramePr_fine unFramePr_B hk hal (by snocs [anchorOf])
  · exact does_sub' (unGraphic_fine h.fine file _ graphicAttr_fine_graphic ha) (unGraphic_B h file as) hk hal
      (by snocs [anchorOf])
  · refine does_skip' ?_ ?_ <;> snocs [anchorOf, anchorOpen]

theorem unDrawing_B (h : DecsRead p R) (file : Option DocId) :
    ReadsB (unDrawing p file) fun kids => drawingOf R file (children kids) := by
  refine loop_B (drawingOf R file) (fun _ => false) ?_ []
  intro es q as kids ha hk hal
  unfold drawingStep
  generalize hl : q.loc = l at ha ⊢
  split
  · exact does_sub' (unInline_fine h.fine file _ inlineAttr_fine_inline ha) (unInline_B h file as) hk hal
      (by snocs [drawingOf])
  · exact does_sub' (unAnchor_fine h.fine file _ anchorAttr_fine_anchor ha) (unAnchor_B h file as) hk hal
      (by snocs [drawingOf])
  · refine does_skip' ?_ ?_ <;> snocs [drawingOf]

/-! ## Runs -/

/-- What is in a context -/
def ctxItems (R : Readers) (file : Option DocId) (c : Ctx) : List RunItem :=
  c.flatMap fun x => runItemsL R file x.1

/-- A run to which these are added -/
def addItems (r : Run) (es : List RunItem) : Run :=
  { r with
    rpr := (RunItem.format? es).or r.rpr
    instr := (RunItem.code? es).getD r.instr
    children := r.children ++ RunItem.children es }

omit [GoEnv] in
theorem itemChildren_append (a b : List RunItem) :
    RunItem.children (a ++ b) = RunItem.children a ++ RunItem.children b := by
  induction a with
  | nil => rfl
  | cons e a ih => cases e <;> simp [RunItem.children, ih]

omit [GoEnv] in
theorem itemFormat_append (a b : List RunItem) :
    RunItem.format? (a ++ b) = (RunItem.format? b).or (RunItem.format? a) := by
  induction a with
  | nil => simp [RunItem.format?]
  | cons e a ih =>
    cases e with
    | format f =>
      simp only [List.cons_append, RunItem.format?, ih]
      cases RunItem.format? b <;> rfl
    | child _ => simpa [RunItem.format?] using ih
    | code _ => simpa [RunItem.format?] using ih

omit [GoEnv] in
theorem itemCode_append (a b : List RunItem) :
    RunItem.code? (a ++ b) = (RunItem.code? b).or (RunItem.code? a) := by
  induction a with
  | nil => simp [RunItem.code?]
  | cons e a ih =>
    cases e with
    | code f =>
      simp only [List.cons_append, RunItem.code?, ih]
      cases RunItem.code? b <;> rfl
    | child _ => simpa [RunItem.code?] using ih
    | format _ => simpa [RunItem.code?] using ih

omit [GoEnv] in
theorem addItems_nil (r : Run) : addItems r [] = r := by
  cases r
  simp [addItems, RunItem.format?, RunItem.code?, RunItem.children]

omit [GoEnv] in
theorem addItems_append (r : Run) (a b : List RunItem) :
    addItems (addItems r a) b = addItems r (a ++ b) := by
  unfold addItems
  rw [itemChildren_append, itemFormat_append, itemCode_append]
  cases RunItem.format? b <;> cases RunItem.code? b <;> simp

omit [GoEnv] in
theorem addItems_format (r : Run) (v : RPr) (es : List RunItem) :
    addItems { r with rpr := some v } es = addItems r (.format v :: es) := by
  simp only [addItems, RunItem.format?, RunItem.code?, RunItem.children]
  cases RunItem.format? es <;> rfl

omit [GoEnv] in
theorem addItems_code (r : Run) (v : String) (es : List RunItem) :
    addItems { r with instr := v } es = addItems r (.code v :: es) := by
  simp only [addItems, RunItem.format?, RunItem.code?, RunItem.children]
  cases RunItem.code? es <;> rfl

/-- The child found by `parse` -/
def foundItem : Option RChild → List RunItem
  | none => []
  | some c => [.child c]

/-- `parse` reads the element, partly as its result, partly by leaving it to the loop. -/
def ParseB (R : Readers) (file : Option DocId) (parse : Run → String → List Attr → Dec → Out Parsed) : Prop :=
  ∀ r q as kids c rest stk, attrsOk q.loc as → OkCtx ((kids, q) :: c) → altsOk (.elem q as kids) →
    AltCtx c → (parse r q.loc as (inCtx ((kids, q) :: c) rest stk)).err = none →
    ∃ c', OkCtx c' ∧ AltCtx c' ∧
      (parse r q.loc as (inCtx ((kids, q) :: c) rest stk)).dec = inCtx c' rest stk ∧
      addItems (parse r q.loc as (inCtx ((kids, q) :: c) rest stk)).val.1
        (foundItem (parse r q.loc as (inCtx ((kids, q) :: c) rest stk)).val.2 ++ ctxItems R file c') =
        addItems r (runItems R file (.elem q as kids) ++ ctxItems R file c)

/-- The loop `altcont` -/
theorem altN_B {file : Option DocId} {parse : Run → String → List Attr → Dec → Out Parsed}
    (hp : ParseB R file parse) :
    ∀ (f : Nat) (r : Run) (q : QName) (kids : List Node) (c : Ctx) (rest : List Tok) (stk : List StkEntry),
    q.loc = "AlternateContent" → OkCtx ((kids, q) :: c) → AltCtx ((kids, q) :: c) → altFront kids = true →
    (altN parse f r (inCtx ((kids, q) :: c) rest stk)).err = none →
    ∃ c', OkCtx c' ∧ AltCtx c' ∧ (altN parse f r (inCtx ((kids, q) :: c) rest stk)).dec = inCtx c' rest stk ∧
      addItems (altN parse f r (inCtx ((kids, q) :: c) rest stk)).val.1
        (foundItem (altN parse f r (inCtx ((kids, q) :: c) rest stk)).val.2 ++ ctxItems R file c') =
        addItems r (altItems R file kids ++ ctxItems R file c) := by
  intro f
  induction f with
  | zero => intro r q kids c rest stk _ _ _ _ h; cases h
  | succ f ih =>
    intro r q kids c rest stk hq ho ha hf h
    cases kids with
    | nil =>
      rw [altN, tokC_stop]
      simp only [hq, if_true]
      exact ⟨c, ho.tail, ha.tail, rfl, by simp [foundItem, altItems]⟩
    | cons n ks =>
      have ho1 := ho.head
      have ha1 := ha.head
      simp only [numsOkL, altsOkL] at ho1 ha1
      cases n with
      | text s => simp [altFront] at hf
      | other => simp [altFront] at hf
      | elem p as k =>
        simp only [numsOk, altsOk] at ho1 ha1
        rw [altN, tokC_elem] at h ⊢
        simp only at h ⊢
        cases hs : supportedChoice p.loc as with
        | true =>
          simp only [hs, if_true] at h ⊢
          have hap : altItems R file (.elem p as k :: ks) = runItemsL R file k ++ runItemsL R file ks := by
            rw [altItems, supported_eq, hs, if_pos rfl]
          rw [hap]
          cases k with
          | nil =>
            rw [tokC_stop]
            exact ⟨(ks, q) :: c, .cons ho1.2 ho.tail, .cons ha1.2 ha.tail, rfl,
              by simp [foundItem, ctxItems, runItemsL]⟩
          | cons m k =>
            cases m with
            | text s =>
              rw [tokC_text]
              exact ⟨(k, p) :: (ks, q) :: c, .cons ho1.1.2.2 (.cons ho1.2 ho.tail),
                .cons ha1.1.2.2 (.cons ha1.2 ha.tail), rfl,
                by simp [foundItem, ctxItems, runItemsL, runItems]⟩
            | other =>
              rw [tokC_other]
              exact ⟨(k, p) :: (ks, q) :: c, .cons ho1.1.2.2 (.cons ho1.2 ho.tail),
                .cons ha1.1.2.2 (.cons ha1.2 ha.tail), rfl,
                by simp [foundItem, ctxItems, runItemsL, runItems]⟩
            | elem q2 as2 k2 =>
              rw [tokC_elem] at h ⊢
              simp only at h ⊢
              obtain ⟨c', h1, h2, h3, h5⟩ := hp r q2 as2 k2 ((k, p) :: (ks, q) :: c) rest stk
                ho1.1.2.1.1 (.cons ho1.1.2.1.2 (.cons ho1.1.2.2 (.cons ho1.2 ho.tail))) ha1.1.2.1
                (.cons ha1.1.2.2 (.cons ha1.2 ha.tail)) h
              refine ⟨c', h1, h2, h3, ?_⟩
              rw [h5]
              simp [ctxItems, runItemsL]
        | false =>
          simp only [hs, Bool.false_eq_true, if_false, skipC] at h ⊢
          have hap : altItems R file (.elem p as k :: ks) = altItems R file ks := by
            rw [altItems, supported_eq, hs, if_neg (by simp)]
          rw [hap]
          exact ih r q ks c rest stk hq (.cons ho1.2 ho.tail) (.cons ha1.2 ha.tail)
            (by simpa [altFront, supported_eq, hs] using hf) h

theorem runParse_B (h : DecsRead p R) (file : Option DocId) (hp : ParseB R file (p.parse file)) :
    ParseB R file (runParse p file) := by
  intro r q as kids c rest stk hat ho hal hac he
  have hk : numsOkL kids := ho.head
  have hfine : ∀ {α : Type} {u : Dec → Out α}, F u →
      (decodeElement u (inCtx ((kids, q) :: c) rest stk)).err ≠ some .expected := by
    intro α u hu
    rw [inCtx_cons]
    exact (decodeElement_fine hu (q := q) hk _ _).2
  have hpc : ∀ l, q.loc = l → runItems R file (.elem q as kids) =
      if l = "t" then [.child (.text ⟨attrLast "space" as, lastPiece (charDataL kids)⟩)]
      else if l = "tab" then .child (.tab {}) :: runItemsL R file kids
      else if l = "br" then [.child (.br ⟨firstAttr "type" as⟩)]
      else if l = "drawing" then [.child (.drawing (drawingOf R file (Docx.children kids)))]
      else if l = "rPr" then [.format (xmlRPr kids)]
      else if l = "instrText" then [.code (ownText kids)]
      else if l = "AlternateContent" then altItems R file kids
      else [] := by
    intro l hl
    rw [runItems, hl]
  unfold runParse at he ⊢
  generalize hl : q.loc = l at he hat
  rw [hpc l hl]
  split at he
  · -- rPr
    simp only [sub] at he ⊢
    have h1 := tolerate_ok (hfine unRPr_fine) he
    obtain ⟨d1, d2, d3⟩ := decodeC unRPr_fine hk h1
    refine ⟨c, ho.tail, hac, d1, ?_⟩
    rw [addItems_format, d3, unRPr_readAs q kids _ _ hk d2]
    simp [foundItem]
  · -- instrText
    have ht := reflTextN_value kids ((inCtx ((kids, q) :: c) rest stk).rest.length + 1) "" q
      (ctxToks c ++ rest) (ctxStk c ++ .mark :: stk) (by rw [inCtx_cons]; simp; omega)
    have hr : reflString (inCtx ((kids, q) :: c) rest stk) = ⟨ownText kids, none, inCtx c rest stk⟩ := by
      unfold reflString
      rw [show inCtx ((kids, q) :: c) rest stk = _ from inCtx_cons kids q c rest stk] at ht ⊢
      rw [ht]
      simp [inCtx]
    simp only [hr]
    refine ⟨c, ho.tail, hac, rfl, ?_⟩
    rw [addItems_code]
    simp [foundItem]
  · -- t
    simp only [subStrict] at he ⊢
    obtain ⟨d1, d2, d3⟩ := decodeC (unText_fine as hat) hk he
    refine ⟨c, ho.tail, hac, d1, ?_⟩
    simp only [foundItem, if_true]
    rw [d3, unText_B as q kids _ _ hk hal.2 d2]
  · -- drawing
    simp only [subStrict] at he ⊢
    obtain ⟨d1, d2, d3⟩ := decodeC (unDrawing_fine h.fine _) hk he
    refine ⟨c, ho.tail, hac, d1, ?_⟩
    simp only [foundItem]
    rw [d3, unDrawing_B h file q kids _ _ hk hal.2 d2]
    simp
  · -- tab
    refine ⟨(kids, q) :: c, ho, .cons hal.2 hac, rfl, ?_⟩
    simp [foundItem, flat, ctxItems]
  · -- br
    simp only [subStrict] at he ⊢
    obtain ⟨d1, d2, d3⟩ := decodeC (unBr_fine as hat) hk he
    refine ⟨c, ho.tail, hac, d1, ?_⟩
    simp only [foundItem]
    rw [d3, unBr_B as q kids _ _ hk hal.2 d2]
    simp
  · -- AlternateContent
    have := altN_B hp _ r q kids c rest stk hl ho (.cons hal.2 hac) (hal.1 hl) he
    simpa using this
  · -- anything else
    rename_i h1 h2 h3 h4 h5 h6 h7
    refine ⟨c, ho.tail, hac, by rw [skipTo, skipC], ?_⟩
    rw [if_neg h3, if_neg h5, if_neg h6, if_neg h4, if_neg h1, if_neg h2, if_neg h7]
    rfl

theorem runLoop_B (h : DecsRead p R) (file : Option DocId) (hp : ParseB R file (p.parse file)) :
    ∀ (f : Nat) (s : Run) (c : Ctx) (rest : List Tok) (stk : List StkEntry), OkCtx c → AltCtx c →
    (loopN (runStep p file) (fun s _ => s) f s (inCtx c rest stk)).err = none →
    (loopN (runStep p file) (fun s _ => s) f s (inCtx c rest stk)).val =
      addItems s (ctxItems R file c) := by
  intro f
  induction f with
  | zero => intro s c rest stk _ _ he; cases he
  | succ f ih =>
    intro s c rest stk ho ha he
    rw [loopN] at he ⊢
    match c, ho, ha, he with
    | [], _, _, _ => rw [tokC_nil]; exact (addItems_nil _).symm
    | ([], q) :: c, ho, ha, he =>
      rw [tokC_stop] at he ⊢
      simp only at he ⊢
      rw [ih _ _ _ _ ho.tail ha.tail he]
      simp [ctxItems, runItemsL]
    | (.text t :: ks, q) :: c, ho, ha, he =>
      rw [tokC_text] at he ⊢
      simp only at he ⊢
      rw [ih _ _ _ _ (.cons ho.head.2 ho.tail) (.cons ha.head.2 ha.tail) he]
      simp [ctxItems, runItemsL, runItems]
    | (.other :: ks, q) :: c, ho, ha, he =>
      rw [tokC_other] at he ⊢
      simp only at he ⊢
      rw [ih _ _ _ _ (.cons ho.head.2 ho.tail) (.cons ha.head.2 ha.tail) he]
      simp [ctxItems, runItemsL, runItems]
    | (.elem q2 as kids :: ks, q) :: c, ho, ha, he =>
      rw [tokC_elem] at he ⊢
      simp only at he ⊢
      have hn := ho.head
      have hm := ha.head
      simp only [numsOkL, altsOkL] at hn hm
      have key := runParse_B h file hp s q2 as kids ((ks, q) :: c) rest stk hn.1.1
        (.cons hn.1.2 (.cons hn.2 ho.tail)) hm.1 (.cons hm.2 ha.tail)
      have hst : runStep p file s q2.loc as (inCtx ((kids, q2) :: (ks, q) :: c) rest stk) =
          match runParse p file s q2.loc as (inCtx ((kids, q2) :: (ks, q) :: c) rest stk) with
          | ⟨v, none, d⟩ => ⟨addChild v, none, d⟩
          | ⟨v, some e, d⟩ => ⟨v.1, some e, d⟩ := rfl
      rw [hst] at he ⊢
      rcases hr : runParse p file s q2.loc as (inCtx ((kids, q2) :: (ks, q) :: c) rest stk) with ⟨v, _ | e, d⟩
      · rw [hr] at key he
        obtain ⟨c', h1, h2, h3, h5⟩ := key rfl
        simp only at h3 h5 he ⊢
        subst h3
        rw [ih _ _ _ _ h1 h2 he]
        have hc : addChild v = addItems v.1 (foundItem v.2) := by
          unfold addChild foundItem
          cases v.2 with
          | none => simp [addItems_nil]
          | some x => simp [addItems, RunItem.format?, RunItem.code?, RunItem.children]
        rw [hc, addItems_append, h5]
        simp [ctxItems, runItemsL]
      · rw [hr] at he
        cases he

theorem runItemsL_append (R : Readers) (file : Option DocId) (a b : List Node) :
    runItemsL R file (a ++ b) = runItemsL R file a ++ runItemsL R file b := by
  induction a with
  | nil => simp [runItemsL]
  | cons n a ih => rw [List.cons_append, runItemsL, runItemsL, ih, List.append_assoc]

/-- The run with these attributes and items -/
def runFrom (as : List Attr) (es : List RunItem) : Run := addItems { space := attrLast "space" as } es

theorem runOf_eq (R : Readers) (file : Option DocId) (as : List Attr) (ks : List Node) :
    xmlRun R file as ks = runFrom as (runItemsL R file ks) := by
  simp [xmlRun, runFrom, addItems]

theorem run_on (es : List RunItem) : AttrsOn runAttr fun as => runFrom as es := by
  intro as a
  unfold runAttr
  generalize hl : a.name.loc = l
  split <;> simp_all [runFrom, addItems, attrLast_snoc]

theorem unRun_B (h : DecsRead p R) (file : Option DocId) (hp : ParseB R file (p.parse file))
    (A : List Attr) (ks : List Node) (as : List Attr) :
    ReadsB (unRun p file (xmlRun R file A ks) as) fun kids => xmlRun R file (A ++ as) (ks ++ kids) := by
  intro q kids rest stk hk ha he
  simp only [runOf_eq] at he ⊢
  unfold unRun withAttrs at he ⊢
  have h1 : (attrs runAttr (runFrom A (runItemsL R file ks)) as).2 = none →
      (attrs runAttr (runFrom A (runItemsL R file ks)) as).1 = runFrom (A ++ as) (runItemsL R file ks) :=
    attrs_on (run_on _) A as
  rcases hs : attrs runAttr (runFrom A (runItemsL R file ks)) as with ⟨s', _ | e⟩
  · rw [hs] at he h1
    have h1 := h1 rfl
    simp only [loop, loopC] at he h1 ⊢
    rw [runLoop_B h file hp _ _ _ _ _ (.cons hk .nil) (.cons ha (by intro y hy; cases hy)) he, h1, runFrom,
      addItems_append, runItemsL_append]
    simp [ctxItems, runFrom]
  · rw [hs] at he
    cases he

/-! ## Paragraphs and above -/

/-- The recursive decoders read as `R` says. -/
structure DecsReadB (p : Decs) (R : Readers) : Prop where
  read : DecsRead p R
  parse : ∀ file, ParseB R file (p.parse file)

theorem unLink_B (h : DecsReadB p R) : ReadsB (unLink p) fun kids =>
    { run := xmlRun R none (attrsAll "r" (children kids)) (kidsAll "r" (children kids)) } := by
  refine loop_B (fun es => ({ run := xmlRun R none (attrsAll "r" es) (kidsAll "r" es) } : Hyperlink))
    (fun _ => false) ?_ []
  intro es q as kids ha hk hal
  unfold hyperlinkStep
  generalize hl : q.loc = l at ha ⊢
  split
  · exact does_sub' (unRun_fine h.read.fine _ _ _ runAttr_fine_r ha)
      (unRun_B h.read none (h.parse none) (attrsAll "r" es) (kidsAll "r" es) as) hk hal (by snocs [])
  · refine does_skip' ?_ ?_ <;> snocs []

theorem linkID_new (as : List Attr) : linkID as "" =
    if firstAttr "anchor" as ≠ "" then firstAttr "anchor" as else firstAttr "id" as := by
  rw [firstAttr_eq, firstAttr_eq, linkID]
  by_cases h1 : getAtt as "anchor" ≠ ""
  · rw [if_pos h1, if_pos h1]
  · rw [if_neg h1, if_neg h1]
    by_cases h2 : getAtt as "id" ≠ ""
    · rw [if_pos h2]
    · rw [if_neg h2]
      simp only [ne_eq, Classical.not_not] at h2
      exact h2.symm

theorem unPara_B (h : DecsReadB p R) (file : Option DocId) :
    ReadsB (unPara p file) fun kids => paraOf R file (children kids) := by
  have hl : ReadsB (loop (paraStep p file) { file := file }) fun kids => paraOf R file (children kids) := by
    refine loop_B (paraOf R file) (fun _ => false) ?_ []
    intro es q as kids ha hk hal
    unfold paraStep
    generalize hl : q.loc = l at ha ⊢
    split
    · refine does_sub' (unLink_fine h.read.fine) (unLink_B h) hk hal ?_
      simp only [linkID_new]
      by_cases hx : firstAttr "anchor" as = "" <;> simp [paraOf, paraItem, lastEl_snoc, El.attr, hx]
    · refine does_sub' (unRun_fine h.read.fine _ _ _ runAttr_fine_r ha)
        (unRun_B h.read file (h.parse file) [] [] as) hk hal ?_
      simp [paraOf, paraItem, lastEl_snoc]
    · exact does_sub' unRPr_fine (readAs_B unRPr_readAs) hk hal (by simp [paraOf, paraItem, lastEl_snoc])
    · exact does_sub' unPPr_fine (readAs_B unPPr_readAs) hk hal (by simp [paraOf, paraItem, lastEl_snoc])
    · refine does_skip' ?_ rfl
      snocs [paraOf, paraItem]
  intro q kids rest stk hk ha he
  unfold unPara at he ⊢
  have := hl q kids rest stk hk ha
  generalize loop (paraStep p file) { file := file } (inCtx [(kids, q)] rest stk) = o at this he
  rcases o with ⟨v, _ | e, d⟩
  · exact this rfl
  · cases he

/-- Readers for at least as many levels read the same. -/
theorem decs_read : ∀ k K, k ≤ K → DecsReadB (decs k) (readers K)
  | 0, K, _ => by
    refine ⟨⟨decs_fine 0, ?_, ?_⟩, ?_⟩
    · intro file q kids rest stk _ _ he
      cases he
    · intro file q kids rest stk _ _ he
      cases he
    · intro file r q as kids c rest stk _ _ _ _ he
      cases he
  | k + 1, K, hK => by
    obtain ⟨J, rfl⟩ : ∃ J, K = J + 1 := ⟨K - 1, by omega⟩
    have hJ := decs_read k J (by omega)
    have hK' := decs_read k (J + 1) (by omega)
    refine ⟨⟨decs_fine _, ?_, ?_⟩, ?_⟩
    · exact fun file => unPara_B hJ file
    · exact fun file => unCanvas_B hJ.read file
    · exact fun file => runParse_B hK'.read file (hK'.parse file)

theorem unCell_B (h : DecsReadB p R) (file : Option DocId) :
    ReadsB (unCell p file) fun kids => cellOf R file (children kids) := by
  refine loop_B (cellOf R file) (fun _ => false) ?_ []
  intro es q as kids ha hk hal
  unfold cellStep
  generalize hl : q.loc = l at ha ⊢
  split
  · exact does_sub' (unPara_fine h.read.fine _) (unPara_B h file) hk hal (by snocs [cellOf])
  · exact does_sub' unTcPr_fine (readAs_B unTcPr_readAs) hk hal (by snocs [cellOf])
  · refine does_skip' ?_ ?_ <;> snocs [cellOf]

theorem unRow_B (h : DecsReadB p R) (file : Option DocId) :
    ReadsB (unRow p file) fun kids => rowOf R file (children kids) := by
  refine loop_B (rowOf R file) (fun _ => false) ?_ []
  intro es q as kids ha hk hal
  unfold rowStep
  generalize hl : q.loc = l at ha ⊢
  split
  · exact does_sub' unTrPr_fine (readAs_B unTrPr_readAs) hk hal (by snocs [rowOf])
  · exact does_sub' (unCell_fine h.read.fine _) (unCell_B h file) hk hal (by snocs [rowOf])
  · refine does_skip' ?_ ?_ <;> snocs [rowOf]

theorem unTable_B (h : DecsReadB p R) (file : Option DocId) :
    ReadsB (unTable p file) fun kids => tableOf R file (children kids) := by
  refine loop_B (tableOf R file) (fun _ => false) ?_ []
  intro es q as kids ha hk hal
  unfold tableStep
  generalize hl : q.loc = l at ha ⊢
  split
  · exact does_sub' (unRow_fine h.read.fine _) (unRow_B h file) hk hal (by snocs [tableOf])
  · exact does_sub' unTblPr_fine (readAs_B unTblPr_readAs) hk hal (by snocs [tableOf])
  · exact does_sub' unGrid_fine (readAs_B unGrid_readAs) hk hal (by snocs [tableOf])
  · refine does_skip' ?_ ?_ <;> snocs [tableOf]

theorem unBody_B (h : DecsReadB p R) (file : Option DocId) (s : List BItem) (ks : List Node) :
    ReadsB (unBody p file (s ++ (children ks).flatMap (bodyItem R file))) fun kids =>
      s ++ (children (ks ++ kids)).flatMap (bodyItem R file) := by
  unfold children
  simp only [elsL_snoc]
  refine loop_B (fun es => s ++ es.flatMap (bodyItem R file)) (fun _ => false) ?_ _
  intro es q as kids ha hk hal
  unfold bodyStep
  generalize hl : q.loc = l at ha ⊢
  split
  · exact does_sub' (unPara_fine h.read.fine _) (unPara_B h file) hk hal (by simp [bodyItem])
  · exact does_sub' (unTable_fine h.read.fine _) (unTable_B h file) hk hal (by simp [bodyItem])
  · exact does_sub' unSect_fine (readAs_B unSect_readAs) hk hal (by simp [bodyItem])
  · refine does_skip' ?_ rfl
    simp_all [bodyItem]

theorem unDocument_B (h : DecsReadB p R) (file : Option DocId) (s : List BItem) :
    ReadsB (unDocument p file s) fun kids =>
      s ++ (children (kidsAll "body" (children kids))).flatMap (bodyItem R file) := by
  have h0 : s = s ++ (children (kidsAll "body" [])).flatMap (bodyItem R file) := by
    simp [kidsAll, children, elsL]
  have hl := loop_B (step := documentStep p file)
    (fun es => s ++ (children (kidsAll "body" es)).flatMap (bodyItem R file)) (fun _ => false) (by
      intro es q as kids ha hk hal
      unfold documentStep
      generalize hl : q.loc = l at ha ⊢
      split
      · refine does_sub' (unBody_fine h.read.fine _ _) (unBody_B h file s (kidsAll "body" es)) hk hal ?_
        rw [kidsAll_snoc]
        rfl
      · refine does_skip' ?_ rfl
        simp_all [kidsAll_snoc]) []
  unfold unDocument
  simp only [← h0] at hl
  exact hl

end Docx
