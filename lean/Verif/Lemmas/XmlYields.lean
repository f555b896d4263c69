import Verif.SpecXml
import Verif.Lemmas.XmlRec

/-!
# What every decoder yields, whatever it reads

Parsing gives only documents in which the round trip has nothing to lose (up to `tblLook`).
-/

namespace Docx

set_option linter.unusedSectionVars false

variable [GoEnv]

/-- The value decoded satisfies `P`, on every input -/
def Yields {α : Type} (P : α → Prop) (u : Dec → Out α) : Prop := ∀ d, P (u d).val

/-- A step of a loop keeps `P` -/
def StepYields {σ : Type} (P : σ → Prop) (step : σ → String → List Attr → Dec → Out σ) : Prop :=
  ∀ s l as d, P s → P (step s l as d).val

theorem loopN_yields {σ : Type} {P : σ → Prop} {step : σ → String → List Attr → Dec → Out σ}
    {chars : σ → String → σ} (h : StepYields P step) (hc : ∀ s c, P s → P (chars s c)) :
    ∀ (f : Nat) (s : σ) (d : Dec), P s → P (loopN step chars f s d).val := by
  intro f
  induction f with
  | zero => intro s d hs; exact hs
  | succ f ih =>
    intro s d hs
    rw [loopN]
    rcases d.token with ⟨t, d'⟩
    cases t with
    | error e => cases e <;> exact hs
    | ok t =>
      cases t with
      | start q as =>
        have := h s q.loc as d' hs
        simp only
        rcases hst : step s q.loc as d' with ⟨s', e, d''⟩
        rw [hst] at this
        cases e with
        | none => exact ih s' d'' this
        | some e => exact this
      | chars c => exact ih _ d' (hc s c hs)
      | stop _ => exact ih s d' hs
      | other => exact ih s d' hs
      | bad => exact ih s d' hs

theorem loop_yields {σ : Type} {P : σ → Prop} {step : σ → String → List Attr → Dec → Out σ} {s : σ}
    (h : StepYields P step) (hs : P s) : Yields P (loop step s) :=
  fun d => loopN_yields h (fun _ _ h => h) _ s d hs

theorem decodeElement_yields {α : Type} {P : α → Prop} {u : Dec → Out α} (h : Yields P u) :
    Yields P (decodeElement u) := by
  intro d
  have := h d.pushEOF
  simp only [decodeElement]
  rcases ho : u d.pushEOF with ⟨v, e, d'⟩
  rw [ho] at this
  cases e with
  | some e => exact this
  | none =>
    rcases d'.popEOF with ⟨b, d''⟩
    cases b <;> exact this

theorem sub_yields {α σ : Type} {P : α → Prop} {Q : σ → Prop} {u : Dec → Out α} (h : Yields P u)
    {k : α → σ} (hk : ∀ v, P v → Q (k v)) : Yields Q (sub u k) :=
  fun d => hk _ (decodeElement_yields h d)

theorem subStrict_yields {α σ : Type} {P : α → Prop} {Q : σ → Prop} {u : Dec → Out α}
    (h : Yields P u) {k : α → σ} (hk : ∀ v, P v → Q (k v)) : Yields Q (subStrict u k) :=
  fun d => hk _ (decodeElement_yields h d)

theorem any_yields {α : Type} (u : Dec → Out α) : Yields (fun _ => True) u := fun _ => trivial

theorem attrs_yields {σ : Type} {P : σ → Prop} {f : σ → String → String → σ × Option Err}
    (hf : ∀ s l v, P s → P (f s l v).1) : ∀ (as : List Attr) (s : σ), P s → P (attrs f s as).1 := by
  intro as
  induction as with
  | nil => intro s hs; exact hs
  | cons a as ih =>
    intro s hs
    have := hf s a.name.loc a.val hs
    rw [attrs]
    rcases hr : f s a.name.loc a.val with ⟨s', e⟩
    rw [hr] at this
    cases e with
    | none => exact ih s' this
    | some e => exact this

theorem withAttrs_yields {σ : Type} {P : σ → Prop} {f : σ → String → String → σ × Option Err}
    {body : σ → Dec → Out σ} {s : σ} {as : List Attr} (hs : P s)
    (hf : ∀ s l v, P s → P (f s l v).1) (hb : ∀ s, P s → Yields P (body s)) :
    Yields P (withAttrs f body s as) := by
  intro d
  have := attrs_yields hf as s hs
  simp only [withAttrs]
  rcases hr : attrs f s as with ⟨s', e⟩
  rw [hr] at this
  cases e with
  | none => exact hb s' this d
  | some e => exact this

theorem flatInt_yields {σ : Type} {Q : σ → Prop} {s : σ} {v : String} {k : Int64 → σ} (hs : Q s)
    (hk : ∀ n, Q (k n)) : Yields Q (flatInt s v k) := by
  intro d
  simp only [flatInt]
  split
  · exact hs
  · split
    · exact hk _
    · exact hs

/-! ## Parts -/

theorem unPPr_yields : Yields (fun v => v.numPr = none) unPPr := by
  refine loop_yields ?_ rfl
  intro s l as d hs
  unfold pprStep
  split <;> first
    | exact hs
    | (refine flatInt_yields (Q := fun v : PPr => v.numPr = none) ?_ ?_ d <;> intros <;> exact hs)

theorem unShapePr_yields (as : List Attr) : Yields (fun v => v.prstGeom.avLst = false) (unShapePr as) := by
  refine withAttrs_yields rfl ?_ ?_
  · intro s l v hs
    unfold shapePrAttr
    split <;> exact hs
  · intro s hs
    refine loop_yields ?_ hs
    intro s l as d hs
    unfold shapePrStep
    split <;> exact hs

theorem unPic_yields : Yields (fun v => v.xmlPic = "") unPic := by
  refine loop_yields ?_ rfl
  intro s l as d hs
  unfold picStep
  split <;> exact hs

/-! ## Recursive types -/

/-- What `(*Run).parse` yields -/
def keptParsed (file : Option DocId) (x : Parsed) : Prop :=
  keptRun file x.1 ∧ ∀ c, x.2 = some c → keptRChild file c

/-- The recursive decoders yield documents in which there is nothing to lose -/
structure DecsYield (p : Decs) : Prop where
  para : ∀ file, Yields (keptPara file) (p.para file)
  canvas : ∀ file, Yields (keptCanvas file) (p.canvas file)
  parse : ∀ file r l as d, keptRun file r → keptParsed file (p.parse file r l as d).val

theorem keptParas_append (file : Option DocId) : ∀ (ps : List Para) (p : Para),
    keptParas file ps → keptPara file p → keptParas file (ps ++ [p])
  | [], p, _, hp => by simp only [List.nil_append, keptParas]; exact ⟨hp, trivial⟩
  | q :: ps, p, h, hp => by
    simp only [List.cons_append, keptParas] at h ⊢
    exact ⟨h.1, keptParas_append file ps p h.2 hp⟩

theorem keptPChildren_append (file : Option DocId) : ∀ (ps : List PChild) (p : PChild),
    keptPChildren file ps → keptPChild file p → keptPChildren file (ps ++ [p])
  | [], p, _, hp => by simp only [List.nil_append, keptPChildren]; exact ⟨hp, trivial⟩
  | q :: ps, p, h, hp => by
    simp only [List.cons_append, keptPChildren] at h ⊢
    exact ⟨h.1, keptPChildren_append file ps p h.2 hp⟩

theorem keptRChildren_append (file : Option DocId) : ∀ (ps : List RChild) (p : RChild),
    keptRChildren file ps → keptRChild file p → keptRChildren file (ps ++ [p])
  | [], p, _, hp => by simp only [List.nil_append, keptRChildren]; exact ⟨hp, trivial⟩
  | q :: ps, p, h, hp => by
    simp only [List.cons_append, keptRChildren] at h ⊢
    exact ⟨h.1, keptRChildren_append file ps p h.2 hp⟩

theorem keptCItems_append (file : Option DocId) : ∀ (ps : List CItem) (p : CItem),
    keptCItems file ps → keptCItem file p → keptCItems file (ps ++ [p])
  | [], p, _, hp => by simp only [List.nil_append, keptCItems]; exact ⟨hp, trivial⟩
  | q :: ps, p, h, hp => by
    simp only [List.cons_append, keptCItems] at h ⊢
    exact ⟨h.1, keptCItems_append file ps p h.2 hp⟩

theorem keptGItems_append (file : Option DocId) : ∀ (ps : List GItem) (p : GItem),
    keptGItems file ps → keptGItem file p → keptGItems file (ps ++ [p])
  | [], p, _, hp => by simp only [List.nil_append, keptGItems]; exact ⟨hp, trivial⟩
  | q :: ps, p, h, hp => by
    simp only [List.cons_append, keptGItems] at h ⊢
    exact ⟨h.1, keptGItems_append file ps p h.2 hp⟩

theorem keptInnerItems_append (file : Option DocId) : ∀ (ps : List GItem) (p : GItem),
    keptInnerItems file ps → keptInnerItem file p → keptInnerItems file (ps ++ [p])
  | [], p, _, hp => by simp only [List.nil_append, keptInnerItems]; exact ⟨hp, trivial⟩
  | q :: ps, p, h, hp => by
    simp only [List.cons_append, keptInnerItems] at h ⊢
    exact ⟨h.1, keptInnerItems_append file ps p h.2 hp⟩

variable {p : Decs}

theorem unTextBox_yields (hp : DecsYield p) (file : Option DocId) :
    Yields (keptTextBox file) (unTextBox p file) := by
  refine loop_yields ?_ (by simp [keptTextBox, keptContentO])
  intro s l as d hs
  unfold textBoxStep
  split
  · refine sub_yields (P := keptParas file) (loop_yields ?_ (by simp [keptParas])) (fun v hv => ?_) d
    · intro s l as d hs
      unfold txbxContentStep
      split
      · exact sub_yields (hp.para file) (fun v hv => keptParas_append file s v hs hv) d
      · exact hs
    · simp only [keptTextBox, keptContentO]; exact hv
  · exact hs

theorem unShape_yields (hp : DecsYield p) (file : Option DocId) :
    Yields (keptShape file) (unShape p file) := by
  refine loop_yields ?_ (by simp [keptShape, keptTextBoxO, keptShapePr])
  intro s l as d hs
  rcases s with ⟨a, b, c, spPr, tb, e⟩
  simp only [keptShape] at hs
  unfold shapeStep
  split <;> first
    | exact sub_yields (unShapePr_yields as) (Q := keptShape file) (fun v hv => by
        simp only [keptShape, keptShapePr, Option.some.injEq, forall_eq']; exact ⟨hv, hs.2⟩) d
    | exact sub_yields (unTextBox_yields hp file) (Q := keptShape file) (fun v hv => by
        simp only [keptShape, keptTextBoxO]; exact ⟨hs.1, hv⟩) d
    | simp only [sub, skipTo, keptShape]; exact hs

theorem unGroupShape_yields (hp : DecsYield p) (file : Option DocId) :
    Yields (keptGroupShape file) (unGroupShape p file) := by
  refine loop_yields ?_ (by simp [keptGroupShape, keptInnerItems, keptShapePr])
  intro s l as d hs
  rcases s with ⟨a, b, spPr, elems⟩
  simp only [keptGroupShape] at hs
  unfold groupShapeStep
  split <;> first
    | exact sub_yields (unShapePr_yields as) (Q := keptGroupShape file) (fun v hv => by
        simp only [keptGroupShape, keptShapePr, Option.some.injEq, forall_eq']; exact ⟨hv, hs.2⟩) d
    | exact sub_yields unPic_yields (Q := keptGroupShape file) (fun v hv => by
        simp only [keptGroupShape]
        exact ⟨hs.1, keptInnerItems_append file _ _ hs.2 (by simp only [keptInnerItem]; exact hv)⟩) d
    | exact sub_yields (unShape_yields hp file) (Q := keptGroupShape file) (fun v hv => by
        simp only [keptGroupShape]
        exact ⟨hs.1, keptInnerItems_append file _ _ hs.2 (by simp only [keptInnerItem]; exact hv)⟩) d
    | exact sub_yields (hp.canvas file) (Q := keptGroupShape file) (fun v hv => by
        simp only [keptGroupShape]
        exact ⟨hs.1, keptInnerItems_append file _ _ hs.2 (by simp only [keptInnerItem]; exact hv)⟩) d
    | simp only [sub, skipTo, keptGroupShape]; exact hs

theorem unGroup_yields (hp : DecsYield p) (file : Option DocId) :
    Yields (keptGroup file) (unGroup p file) := by
  refine loop_yields ?_ (by simp [keptGroup, keptGItems, keptShapePr])
  intro s l as d hs
  rcases s with ⟨b, spPr, elems⟩
  simp only [keptGroup] at hs
  unfold groupStep
  split <;> first
    | exact sub_yields (unShapePr_yields as) (Q := keptGroup file) (fun v hv => by
        simp only [keptGroup, keptShapePr, Option.some.injEq, forall_eq']; exact ⟨hv, hs.2⟩) d
    | exact sub_yields unPic_yields (Q := keptGroup file) (fun v hv => by
        simp only [keptGroup]
        exact ⟨hs.1, keptGItems_append file _ _ hs.2 (by simp only [keptGItem]; exact hv)⟩) d
    | exact sub_yields (unShape_yields hp file) (Q := keptGroup file) (fun v hv => by
        simp only [keptGroup]
        exact ⟨hs.1, keptGItems_append file _ _ hs.2 (by simp only [keptGItem]; exact hv)⟩) d
    | exact sub_yields (hp.canvas file) (Q := keptGroup file) (fun v hv => by
        simp only [keptGroup]
        exact ⟨hs.1, keptGItems_append file _ _ hs.2 (by simp only [keptGItem]; exact hv)⟩) d
    | exact sub_yields (unGroupShape_yields hp file) (Q := keptGroup file) (fun v hv => by
        simp only [keptGroup]
        exact ⟨hs.1, keptGItems_append file _ _ hs.2 (by simp only [keptGItem]; exact hv)⟩) d
    | simp only [sub, skipTo, keptGroup]; exact hs

theorem unCanvas_yields (hp : DecsYield p) (file : Option DocId) :
    Yields (keptCanvas file) (unCanvas p file) := by
  refine loop_yields ?_ (by simp [keptCanvas, keptCItems])
  intro s l as d hs
  rcases s with ⟨a, b, items⟩
  simp only [keptCanvas] at hs
  unfold canvasStep
  split <;> first
    | exact sub_yields (any_yields unPic) (Q := keptCanvas file) (fun v hv => by
        simp only [keptCanvas]
        exact keptCItems_append file _ _ hs (by simp only [keptCItem])) d
    | exact sub_yields (unShape_yields hp file) (Q := keptCanvas file) (fun v hv => by
        simp only [keptCanvas]
        exact keptCItems_append file _ _ hs (by simp only [keptCItem]; exact hv)) d
    | exact sub_yields (unGroup_yields hp file) (Q := keptCanvas file) (fun v hv => by
        simp only [keptCanvas]
        exact keptCItems_append file _ _ hs (by simp only [keptCItem]; exact hv)) d
    | simp only [sub, skipTo, keptCanvas]; exact hs

theorem unGraphicData_yields (hp : DecsYield p) (file : Option DocId) (as : List Attr) :
    Yields (keptGraphicData file) (unGraphicData p file as) := by
  refine withAttrs_yields (by simp [keptGraphicData, keptShapeO, keptCanvasO, keptGroupO]) ?_ ?_
  · intro s l v hs
    cases s
    unfold graphicDataAttr
    split <;> (simp only [keptGraphicData] at hs ⊢; exact hs)
  · intro s hs
    refine loop_yields ?_ hs
    intro s l as d hs
    rcases s with ⟨a, b, c, e, f⟩
    simp only [keptGraphicData] at hs
    unfold graphicDataStep
    split <;> first
      | exact sub_yields (unShape_yields hp file) (Q := keptGraphicData file) (fun v hv => by
          simp only [keptGraphicData, keptShapeO]; exact ⟨hv, hs.2⟩) d
      | exact sub_yields (unCanvas_yields hp file) (Q := keptGraphicData file) (fun v hv => by
          simp only [keptGraphicData, keptCanvasO]; exact ⟨hs.1, hv, hs.2.2⟩) d
      | exact sub_yields (unGroup_yields hp file) (Q := keptGraphicData file) (fun v hv => by
          simp only [keptGraphicData, keptGroupO]; exact ⟨hs.1, hs.2.1, hv⟩) d
      | simp only [sub, skipTo, keptGraphicData]; exact hs

theorem unGraphic_yields (hp : DecsYield p) (file : Option DocId) (as : List Attr) :
    Yields (keptGraphic file) (unGraphic p file as) := by
  refine withAttrs_yields (by simp [keptGraphic, keptGraphicDataO]) ?_ ?_
  · intro s l v hs
    cases s
    unfold graphicAttr
    split <;> (simp only [keptGraphic] at hs ⊢; exact hs)
  · intro s hs
    refine loop_yields ?_ hs
    intro s l as d hs
    rcases s with ⟨a, b⟩
    simp only [keptGraphic] at hs
    unfold graphicStep
    split
    · exact sub_yields (unGraphicData_yields hp file as) (Q := keptGraphic file) (fun v hv => by
          cases v
          simp only [keptGraphic, keptGraphicDataO, keptGraphicData] at hv ⊢; exact hv) d
    · simp only [skipTo, keptGraphic]; exact hs

theorem unInline_yields (hp : DecsYield p) (file : Option DocId) (as : List Attr) :
    Yields (keptInline file) (unInline p file as) := by
  refine withAttrs_yields (by simp [keptInline, keptGraphicO]) ?_ ?_
  · intro s l v hs
    cases s
    unfold inlineAttr
    split <;> (simp only [keptInline, intAttr] at hs ⊢; exact hs)
  · intro s hs
    refine loop_yields ?_ hs
    intro s l as d hs
    cases s
    simp only [keptInline] at hs
    unfold inlineStep
    split <;> first
      | exact sub_yields (unGraphic_yields hp file as) (Q := keptInline file) (fun v hv => by
          simp only [keptInline, keptGraphicO]; exact ⟨hv, hs.2⟩) d
      | simp only [sub, skipTo, flatAttrs, keptInline]; exact hs

theorem unAnchor_yields (hp : DecsYield p) (file : Option DocId) (as : List Attr) :
    Yields (keptAnchor file) (unAnchor p file as) := by
  refine withAttrs_yields (by simp [keptAnchor, keptGraphicO]) ?_ ?_
  · intro s l v hs
    cases s
    unfold anchorAttr
    split <;> (simp only [keptAnchor, intAttr] at hs ⊢; exact hs)
  · intro s hs
    refine loop_yields ?_ hs
    intro s l as d hs
    cases s
    simp only [keptAnchor] at hs
    unfold anchorStep
    split <;> first
      | exact sub_yields (unGraphic_yields hp file as) (Q := keptAnchor file) (fun v hv => by
          simp only [keptAnchor, keptGraphicO]; exact ⟨hv, hs.2⟩) d
      | simp only [sub, skipTo, flat, flatAttrs, keptAnchor]; exact hs

theorem unDrawing_yields (hp : DecsYield p) (file : Option DocId) :
    Yields (keptDrawing file) (unDrawing p file) := by
  refine loop_yields ?_ (by simp [keptDrawing, keptInlineO, keptAnchorO])
  intro s l as d hs
  rcases s with ⟨a, b⟩
  simp only [keptDrawing] at hs
  unfold drawingStep
  split
  · exact sub_yields (unInline_yields hp file as) (Q := keptDrawing file) (fun v hv => by
        simp only [keptDrawing, keptInlineO]; exact ⟨hv, hs.2⟩) d
  · exact sub_yields (unAnchor_yields hp file as) (Q := keptDrawing file) (fun v hv => by
        simp only [keptDrawing, keptAnchorO]; exact ⟨hs.1, hv⟩) d
  · simp only [skipTo, keptDrawing]; exact hs

theorem altN_yields {parse : Run → String → List Attr → Dec → Out Parsed} {file : Option DocId}
    (h : ∀ r l as d, keptRun file r → keptParsed file (parse r l as d).val) :
    ∀ (f : Nat) (r : Run) (d : Dec), keptRun file r → keptParsed file (altN parse f r d).val := by
  intro f
  induction f with
  | zero => intro r d hr; exact ⟨hr, by intro c hc; cases hc⟩
  | succ f ih =>
    intro r d hr
    have hn : ∀ e d, keptParsed file (⟨(r, none), e, d⟩ : Out Parsed).val :=
      fun e d => ⟨hr, by intro c hc; cases hc⟩
    have hnext : ∀ d' : Dec, keptParsed file (match d'.skip with
      | (none, d'') => altN parse f r d''
      | (some e, d'') => (⟨(r, none), some e, d''⟩ : Out Parsed)).val := by
      intro d'
      rcases d'.skip with ⟨e, d''⟩
      cases e with
      | none => exact ih r d'' hr
      | some e => exact hn _ _
    rw [altN]
    rcases d.token with ⟨t, d'⟩
    cases t with
    | error e => cases e <;> exact hn _ _
    | ok t =>
      cases t with
      | start q as =>
        simp only
        split
        · rcases d'.token with ⟨t, d''⟩
          cases t with
          | error e => exact hn _ _
          | ok t =>
            cases t with
            | start q2 as2 => exact h r _ _ _ hr
            | _ => exact hn _ _
        · exact hnext d'
      | stop q =>
        simp only
        split
        · exact hn _ _
        · exact hnext d'
      | chars c => exact hnext d'
      | other => exact hnext d'
      | bad => exact hnext d'

theorem runParse_yields (hp : DecsYield p) (file : Option DocId) (r : Run) (l : String)
    (as : List Attr) (d : Dec) (hr : keptRun file r) :
    keptParsed file (runParse p file r l as d).val := by
  have hn : keptParsed file (r, none) := ⟨hr, by intro c hc; cases hc⟩
  have hc : ∀ c, keptRChild file c → keptParsed file (r, some c) :=
    fun c h => ⟨hr, by intro c' hc; cases hc; exact h⟩
  unfold runParse
  split
  · refine ⟨?_, by intro c hc; cases hc⟩
    cases r; simp only [keptRun, sub] at hr ⊢; exact hr
  · refine ⟨?_, by intro c hc; cases hc⟩
    cases r; simp only [keptRun] at hr ⊢; exact hr
  · exact hc _ (by simp [keptRChild])
  · refine subStrict_yields (unDrawing_yields hp file) (Q := keptParsed file) ?_ d
    intro v hv
    exact hc _ (by simp only [keptRChild]; exact hv)
  · exact hc _ (by simp [keptRChild])
  · exact hc _ (by simp [keptRChild])
  · exact altN_yields (hp.parse file) _ r d hr
  · exact hn

theorem runStep_yields (hp : DecsYield p) (file : Option DocId) :
    StepYields (keptRun file) (runStep p file) := by
  intro s l as d hs
  have h := runParse_yields hp file s l as d hs
  unfold runStep
  rcases hr : runParse p file s l as d with ⟨⟨r, c⟩, e, d'⟩
  rw [hr] at h
  cases e with
  | some e => exact h.1
  | none =>
    cases c with
    | none => exact h.1
    | some c =>
      have h1 := h.1
      have h2 := h.2 c rfl
      cases r
      simp only [addChild, keptRun] at h1 ⊢
      exact keptRChildren_append file _ _ h1 h2

theorem unRun_yields (hp : DecsYield p) (file : Option DocId) {s : Run} (hs : keptRun file s)
    (as : List Attr) : Yields (keptRun file) (unRun p file s as) := by
  refine withAttrs_yields hs ?_ (fun s hs => loop_yields (runStep_yields hp file) hs)
  intro s l v hs
  cases s
  unfold runAttr
  split <;> (simp only [keptRun] at hs ⊢; exact hs)

theorem unLink_yields (hp : DecsYield p) : Yields keptLink (unLink p) := by
  refine loop_yields ?_ (by simp [keptLink, keptRun, keptRChildren])
  intro s l as d hs
  rcases s with ⟨id, run⟩
  simp only [keptLink] at hs
  unfold hyperlinkStep
  split
  · exact sub_yields (unRun_yields hp none hs as) (Q := keptLink) (fun v hv => by
      simp only [keptLink]; exact hv) d
  · simp only [skipTo, keptLink]; exact hs

theorem unPara_yields (hp : DecsYield p) (file : Option DocId) :
    Yields (keptPara file) (unPara p file) := by
  have h : Yields (keptPara file) (loop (paraStep p file) { file := file }) := by
    refine loop_yields ?_ (by simp [keptPara, keptPPr, keptPChildren])
    intro s l as d hs
    rcases s with ⟨props, cs, f⟩
    simp only [keptPara] at hs
    unfold paraStep
    split
    · exact sub_yields (unLink_yields hp) (Q := keptPara file) (fun v hv => by
        simp only [keptPara]
        exact ⟨hs.1, keptPChildren_append file _ _ hs.2.1 (by
          cases v; simp only [keptPChild, keptLink] at hv ⊢; exact hv), hs.2.2⟩) d
    · exact sub_yields (unRun_yields hp file (by simp [keptRun, keptRChildren]) as)
        (Q := keptPara file) (fun v hv => by
        simp only [keptPara]
        exact ⟨hs.1, keptPChildren_append file _ _ hs.2.1 (by simp only [keptPChild]; exact hv),
          hs.2.2⟩) d
    · exact sub_yields (any_yields unRPr) (Q := keptPara file) (fun v hv => by
        simp only [keptPara]
        exact ⟨hs.1, keptPChildren_append file _ _ hs.2.1 (by simp only [keptPChild]), hs.2.2⟩) d
    · exact sub_yields unPPr_yields (Q := keptPara file) (fun v hv => by
        simp only [keptPara, keptPPr, Option.some.injEq, forall_eq']
        exact ⟨hv, hs.2⟩) d
    · simp only [skipTo, keptPara]; exact hs
  intro d
  have h1 := h d
  unfold unPara
  rcases hr : loop (paraStep p file) { file := file } d with ⟨v, e, d'⟩
  rw [hr] at h1
  cases e with
  | none => exact h1
  | some e =>
    cases v
    simp only [keptPara, keptPChildren] at h1 ⊢
    exact ⟨h1.1, trivial, h1.2.2⟩

theorem decs_yield : ∀ k, DecsYield (decs k)
  | 0 => {
      para := fun file d => by simp [decs, keptPara, keptPPr, keptPChildren]
      canvas := fun _ _ => by simp [decs, keptCanvas, keptCItems]
      parse := fun file r l as d hr => ⟨hr, by intro c hc; cases hc⟩ }
  | k + 1 => {
      para := fun file => unPara_yields (decs_yield k) file
      canvas := fun file => unCanvas_yields (decs_yield k) file
      parse := fun file r l as d hr => runParse_yields (decs_yield k) file r l as d hr }

theorem D_yield : DecsYield D := by
  have h : ∀ k, DecsYield (decs k) := decs_yield
  refine ⟨fun file d => ?_, fun file d => ?_, fun file r l as d hr => ?_⟩
  · have := (h (d.rest.length + 1)).para file d
    simp only [D]; exact this
  · have := (h (d.rest.length + 1)).canvas file d
    simp only [D]; exact this
  · have := (h (d.rest.length + 1)).parse file r l as d hr
    simp only [D]; exact this

/-! ## Tables and documents -/

theorem unGrid_yields : Yields (fun g => none ∉ g) unGrid := by
  refine loop_yields ?_ (by simp)
  intro s l as d hs
  unfold gridStep
  split
  · refine sub_yields (any_yields (unGridCol as)) (Q := fun g => none ∉ g) (fun v _ => ?_) d
    simpa using hs
  · exact hs

theorem unCell_yields (hp : DecsYield p) (file : Option DocId) :
    Yields (keptCell file) (unCell p file) := by
  refine loop_yields ?_ ⟨by simp, rfl⟩
  intro s l as d hs
  unfold cellStep
  split
  · refine sub_yields (unPara_yields hp file) (Q := keptCell file) ?_ d
    intro v hv
    refine ⟨?_, hs.2⟩
    intro q hq
    rcases List.mem_append.1 hq with h | h
    · exact hs.1 q h
    · rw [List.mem_singleton.1 h]; exact hv
  · exact hs
  · exact hs

theorem unRow_yields (hp : DecsYield p) (file : Option DocId) :
    Yields (keptRow file) (unRow p file) := by
  refine loop_yields ?_ (fun _ h => by cases h)
  intro s l as d hs
  unfold rowStep
  split
  · exact hs
  · refine sub_yields (unCell_yields hp file) (Q := keptRow file) (fun v hv q hq => ?_) d
    rcases List.mem_append.1 hq with h | h
    · exact hs q h
    · rw [List.mem_singleton.1 h]; exact hv
  · exact hs

theorem unTable_yields (hp : DecsYield p) (file : Option DocId) :
    Yields (keptTable file) (unTable p file) := by
  refine loop_yields ?_ ⟨by simp, fun _ h => by cases h⟩
  intro s l as d hs
  unfold tableStep
  split
  · refine sub_yields (unRow_yields hp file) (Q := keptTable file) ?_ d
    intro v hv
    refine ⟨hs.1, fun q hq => ?_⟩
    rcases List.mem_append.1 hq with h | h
    · exact hs.2 q h
    · rw [List.mem_singleton.1 h]; exact hv
  · exact hs
  · refine sub_yields unGrid_yields (Q := keptTable file) ?_ d
    intro v hv
    exact ⟨fun g hg => by cases hg; exact hv, hs.2⟩
  · exact hs

theorem keptBody_append {file : Option DocId} {s : List BItem} {i : BItem} (hs : keptBody file s)
    (hi : keptItem file i) : keptBody file (s ++ [i]) := by
  intro q hq
  rcases List.mem_append.1 hq with h | h
  · exact hs q h
  · rw [List.mem_singleton.1 h]; exact hi

theorem unBody_yields (hp : DecsYield p) (file : Option DocId) {s : List BItem}
    (hs : keptBody file s) : Yields (keptBody file) (unBody p file s) := by
  refine loop_yields ?_ hs
  intro s l as d hs
  unfold bodyStep
  split
  · refine sub_yields (unPara_yields hp file) (Q := keptBody file) ?_ d
    intro v hv
    exact keptBody_append hs hv
  · refine sub_yields (unTable_yields hp file) (Q := keptBody file) ?_ d
    intro v hv
    exact keptBody_append hs hv
  · refine sub_yields (any_yields unSect) (Q := keptBody file) ?_ d
    intro v _
    exact keptBody_append (i := .sect v) hs trivial
  · exact hs

theorem unDocument_yields (hp : DecsYield p) (file : Option DocId) {s : List BItem}
    (hs : keptBody file s) : Yields (keptBody file) (unDocument p file s) := by
  refine loop_yields ?_ hs
  intro s l as d hs
  unfold documentStep
  split
  · exact sub_yields (unBody_yields hp file hs) (Q := keptBody file) (fun v hv => hv) d
  · exact hs

theorem rootN_yields {α : Type} {P : α → Prop} {u : List Attr → Dec → Out α} (h : ∀ as, Yields P (u as))
    {s : α} (hs : P s) : ∀ (f : Nat) (d : Dec), P (rootN u s f d).val := by
  intro f
  induction f with
  | zero => intro d; exact hs
  | succ f ih =>
    intro d
    rw [rootN]
    rcases d.token with ⟨t, d'⟩
    cases t with
    | error e => exact hs
    | ok t =>
      cases t with
      | start q as => exact h as d'
      | _ => exact ih d'

/-- Whatever is decoded, there is nothing to lose in it (up to `tblLook`) -/
theorem decodeDocument_yields (file : Option DocId) {s : List BItem} (hs : keptBody file s)
    (toks : List Tok) : keptBody file (decodeDocument file s toks).val := by
  rw [decodeDocument_eq]
  exact rootN_yields (fun _ => decodeElement_yields (unDocument_yields D_yield file hs)) hs _ _

end Docx
