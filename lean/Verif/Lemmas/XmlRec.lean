import Verif.Lemmas.XmlGood

/-!
# The recursive decoders: they use tokens up, and the number of levels does not matter
-/

namespace Docx

set_option linter.unusedSectionVars false

variable [GoEnv]

/-! ## Good -/

/-- The three recursive decoders are good with fewer than `k` tokens. -/
structure DecsGood (k : Nat) (p : Decs) : Prop where
  para : ∀ file, Good k (p.para file)
  canvas : ∀ file, Good k (p.canvas file)
  parse : ∀ file r l as, Good k (p.parse file r l as)

variable {k : Nat} {p q : Decs}

theorem txbxContentStep_good (h : DecsGood k p) (file : Option DocId) :
    StepGood k (txbxContentStep p file) := by
  intro s l as
  unfold txbxContentStep
  split
  · exact good_sub (h.para _) _
  · exact good_skipTo _ _

theorem textBoxStep_good (h : DecsGood k p) (file : Option DocId) :
    StepGood k (textBoxStep p file) := by
  intro s l as
  unfold textBoxStep
  split
  · exact good_sub (good_loop' (txbxContentStep_good h file) _) _
  · exact good_skipTo _ _

theorem unTextBox_good (h : DecsGood k p) (file : Option DocId) : Good k (unTextBox p file) :=
  good_loop' (textBoxStep_good h file) _

theorem shapeStep_good (h : DecsGood k p) (file : Option DocId) : StepGood k (shapeStep p file) := by
  intro s l as
  unfold shapeStep
  split <;> first
    | exact good_sub (unIdName_good k _) _
    | exact good_sub (unCNvCnPr_good k) _
    | exact good_sub (unCNvSpPr_good k _) _
    | exact good_sub (unShapePr_good k _) _
    | exact good_sub (unTextBox_good h _) _
    | exact good_sub (unBodyPr_good k _) _
    | exact good_skipTo _ _

theorem unShape_good (h : DecsGood k p) (file : Option DocId) : Good k (unShape p file) :=
  good_loop' (shapeStep_good h file) _

theorem groupShapeStep_good (h : DecsGood k p) (file : Option DocId) :
    StepGood k (groupShapeStep p file) := by
  intro s l as
  unfold groupShapeStep
  split <;> first
    | exact good_sub (unIdName_good k _) _
    | exact good_sub (unCNvGrpSpPr_good k) _
    | exact good_sub (unShapePr_good k _) _
    | exact good_sub (unPic_good k) _
    | exact good_sub (unShape_good h _) _
    | exact good_sub (h.canvas _) _
    | exact good_skipTo _ _

theorem unGroupShape_good (h : DecsGood k p) (file : Option DocId) : Good k (unGroupShape p file) :=
  good_loop' (groupShapeStep_good h file) _

theorem groupStep_good (h : DecsGood k p) (file : Option DocId) : StepGood k (groupStep p file) := by
  intro s l as
  unfold groupStep
  split <;> first
    | exact good_sub (unCNvGrpSpPr_good k) _
    | exact good_sub (unShapePr_good k _) _
    | exact good_sub (unPic_good k) _
    | exact good_sub (unShape_good h _) _
    | exact good_sub (h.canvas _) _
    | exact good_sub (unGroupShape_good h _) _
    | exact good_skipTo _ _

theorem unGroup_good (h : DecsGood k p) (file : Option DocId) : Good k (unGroup p file) :=
  good_loop' (groupStep_good h file) _

theorem canvasStep_good (h : DecsGood k p) (file : Option DocId) : StepGood k (canvasStep p file) := by
  intro s l as
  unfold canvasStep
  split <;> first
    | exact good_sub (unBackground_good k) _
    | exact good_sub (unWhole_good k) _
    | exact good_sub (unShape_good h _) _
    | exact good_sub (unPic_good k) _
    | exact good_sub (unGroup_good h _) _
    | exact good_skipTo _ _

theorem unCanvas_good' (h : DecsGood k p) (file : Option DocId) : Good (k + 1) (unCanvas p file) :=
  good_loop (canvasStep_good h file) _

theorem unCanvas_good (h : DecsGood k p) (file : Option DocId) : Good k (unCanvas p file) :=
  good_loop' (canvasStep_good h file) _

theorem graphicDataStep_good (h : DecsGood k p) (file : Option DocId) :
    StepGood k (graphicDataStep p file) := by
  intro s l as
  unfold graphicDataStep
  split <;> first
    | exact good_sub (unPic_good k) _
    | exact good_sub (unShape_good h _) _
    | exact good_sub (unCanvas_good h _) _
    | exact good_sub (unGroup_good h _) _
    | exact good_skipTo _ _

theorem unGraphicData_good (h : DecsGood k p) (file : Option DocId) (as : List Attr) :
    Good k (unGraphicData p file as) :=
  good_withAttrs graphicDataAttr_good (fun s => good_loop' (graphicDataStep_good h file) s) _ _

theorem graphicStep_good (h : DecsGood k p) (file : Option DocId) :
    StepGood k (graphicStep p file) := by
  intro s l as
  unfold graphicStep
  split <;> first
    | exact good_sub (unGraphicData_good h _ _) _
    | exact good_skipTo _ _

theorem unGraphic_good (h : DecsGood k p) (file : Option DocId) (as : List Attr) :
    Good k (unGraphic p file as) :=
  good_withAttrs graphicAttr_good (fun s => good_loop' (graphicStep_good h file) s) _ _

theorem inlineStep_good (h : DecsGood k p) (file : Option DocId) : StepGood k (inlineStep p file) := by
  intro s l as
  unfold inlineStep
  split <;> first
    | exact good_flatAttrs _ extAttr_good _ _ _
    | exact good_flatAttrs _ effAttr_good _ _ _
    | exact good_sub (unIdName_good k _) _
    | exact good_sub (unFramePr_good k) _
    | exact good_sub (unGraphic_good h _ _) _
    | exact good_skipTo _ _

theorem unInline_good (h : DecsGood k p) (file : Option DocId) (as : List Attr) :
    Good k (unInline p file as) :=
  good_withAttrs inlineAttr_good (fun s => good_loop' (inlineStep_good h file) s) _ _

theorem anchorStep_good (h : DecsGood k p) (file : Option DocId) : StepGood k (anchorStep p file) := by
  intro s l as
  unfold anchorStep
  split <;> first
    | exact good_flatAttrs _ offAttr_good _ _ _
    | exact good_sub (unPosition_good k _) _
    | exact good_sub (unExtent_good k _) _
    | exact good_sub (unEffectExtent_good k _) _
    | exact good_sub (unIdName_good k _) _
    | exact good_sub (unFramePr_good k) _
    | exact good_sub (unGraphic_good h _ _) _
    | exact good_skipTo _ _
    | exact good_flat _ _ (by simp)

theorem unAnchor_good (h : DecsGood k p) (file : Option DocId) (as : List Attr) :
    Good k (unAnchor p file as) :=
  good_withAttrs anchorAttr_good (fun s => good_loop' (anchorStep_good h file) s) _ _

theorem drawingStep_good (h : DecsGood k p) (file : Option DocId) :
    StepGood k (drawingStep p file) := by
  intro s l as
  unfold drawingStep
  split <;> first
    | exact good_sub (unInline_good h _ _) _
    | exact good_sub (unAnchor_good h _ _) _
    | exact good_skipTo _ _

theorem unDrawing_good (h : DecsGood k p) (file : Option DocId) : Good k (unDrawing p file) :=
  good_loop' (drawingStep_good h file) _

theorem altN_good {parse : Run → String → List Attr → Dec → Out Parsed}
    (h : ∀ r l as, Good k (parse r l as)) : ∀ (f : Nat) (r : Run) (d : Dec),
    (altN parse f r d).dec.rest <:+ d.rest ∧
    (d.rest.length < f → d.rest.length < k + 1 → (altN parse f r d).err ≠ some .fuel) := by
  intro f
  induction f with
  | zero => intro r d; simp [altN]
  | succ f ih =>
    intro r d
    simp only [altN]
    rcases ht : d.token with ⟨t, d'⟩
    have hx := token_sfx' ht
    cases t with
    | error e =>
      have := token_err ht
      cases e <;> simp_all
    | ok t =>
      have hd := token_ok ht
      have next : ∀ x : Out Parsed, x = (match d'.skip with
          | (none, d'') => altN parse f r d''
          | (some e, d'') => ⟨(r, none), some e, d''⟩) →
          x.dec.rest <:+ d.rest ∧
          (d.rest.length < f + 1 → d.rest.length < k + 1 → x.err ≠ some .fuel) := by
        intro x hx'
        have h1 := skip_sfx d'
        have h2 := skip_noFuel d'
        rcases hs : d'.skip with ⟨e, d''⟩
        rw [hs] at h1 h2 hx'
        have hl := h1.length_le
        subst hx'
        cases e with
        | none =>
          simp only at h1 hl ⊢
          have := ih r d''
          exact ⟨(this.1.trans h1).trans hx, fun a b => this.2 (by omega) (by omega)⟩
        | some e => simp only at h1 h2 ⊢; exact ⟨h1.trans hx, fun _ _ => h2⟩
      cases t with
      | start q as =>
        simp only
        split
        · rcases ht2 : d'.token with ⟨t2, d''⟩
          have hx2 := (token_sfx' ht2).trans hx
          cases t2 with
          | error e => have := token_err ht2; simp; exact ⟨hx2, fun _ _ => this.2.1⟩
          | ok t2 =>
            have hd2 := token_ok ht2
            cases t2 with
            | start q2 as2 =>
              have := h r q2.loc as2 d''
              simp only; exact ⟨this.1.trans hx2, fun _ _ => this.2 (by omega)⟩
            | _ => exact ⟨hx2, fun _ _ => by simp⟩
        · exact next _ rfl
      | stop q =>
        simp only
        split
        · exact ⟨hx, fun _ _ => by simp⟩
        · exact next _ rfl
      | chars _ => exact next _ rfl
      | other => exact next _ rfl
      | bad => exact next _ rfl

theorem runParse_good (h : DecsGood k p) (file : Option DocId) (r : Run) (l : String)
    (as : List Attr) : Good k (runParse p file r l as) := by
  intro d
  unfold runParse
  split
  · exact good_sub (unRPr_good k) _ d
  · have := good_reflString k d
    exact ⟨this.1, fun hh => tolerate_noFuel (this.2 hh)⟩
  · exact good_subStrict (unText_good k _) _ d
  · exact good_subStrict (unDrawing_good h _) _ d
  · exact good_flat k _ (by simp) d
  · exact good_subStrict (unBr_good k _) _ d
  · have := altN_good (h.parse file) (d.rest.length + 1) r d
    exact ⟨this.1, fun hk => this.2 (Nat.lt_succ_self _) (by omega)⟩
  · exact good_skipTo k _ d

/-- With one token less, `AlternateContent` calls `parse` recursively, so the method is good with one
token more. -/
theorem runParse_good' (h : DecsGood k p) (file : Option DocId) (r : Run) (l : String)
    (as : List Attr) : Good (k + 1) (runParse p file r l as) := by
  intro d
  unfold runParse
  split
  · exact good_sub (unRPr_good _) _ d
  · have := good_reflString (k + 1) d
    exact ⟨this.1, fun hh => tolerate_noFuel (this.2 hh)⟩
  · exact good_subStrict (unText_good _ _) _ d
  · exact good_subStrict (good_loop (drawingStep_good h file) _) _ d
  · exact good_flat _ _ (by simp) d
  · exact good_subStrict (unBr_good _ _) _ d
  · have := altN_good (h.parse file) (d.rest.length + 1) r d
    exact ⟨this.1, fun hk => this.2 (Nat.lt_succ_self _) hk⟩
  · exact good_skipTo _ _ d

theorem runStep_good (h : DecsGood k p) (file : Option DocId) : StepGood k (runStep p file) := by
  intro s l as d
  have := runParse_good h file s l as d
  unfold runStep
  rcases hr : runParse p file s l as d with ⟨v, e, d'⟩
  rw [hr] at this
  cases e with
  | none => exact ⟨this.1, fun _ => by simp⟩
  | some e => exact this

theorem unRun_good (h : DecsGood k p) (file : Option DocId) (s : Run) (as : List Attr) :
    Good k (unRun p file s as) :=
  good_withAttrs runAttr_good (fun s => good_loop' (runStep_good h file) s) _ _

theorem hyperlinkStep_good (h : DecsGood k p) : StepGood k (hyperlinkStep p) := by
  intro s l as
  unfold hyperlinkStep
  split
  · exact good_sub (unRun_good h _ _ _) _
  · exact good_skipTo _ _

theorem unLink_good (h : DecsGood k p) : Good k (unLink p) := good_loop' (hyperlinkStep_good h) _

theorem paraStep_good (h : DecsGood k p) (file : Option DocId) : StepGood k (paraStep p file) := by
  intro s l as
  unfold paraStep
  split
  · exact good_sub (unLink_good h) _
  · exact good_sub (unRun_good h _ _ _) _
  · exact good_sub (unRPr_good k) _
  · exact good_sub (unPPr_good k) _
  · exact good_skipTo _ _

theorem unPara_good' (h : DecsGood k p) (file : Option DocId) : Good (k + 1) (unPara p file) := by
  intro d
  have := good_loop (paraStep_good h file) { file := file } d
  unfold unPara
  rcases hl : loop (paraStep p file) { file := file } d with ⟨v, e, d'⟩
  rw [hl] at this
  cases e <;> exact this

theorem unPara_good (h : DecsGood k p) (file : Option DocId) : Good k (unPara p file) :=
  (unPara_good' h file).mono (Nat.le_succ k)

theorem decs_good : ∀ k, DecsGood k (decs k) := by
  intro k
  induction k with
  | zero =>
    exact ⟨fun _ d => ⟨List.suffix_refl _, fun h => absurd h (Nat.not_lt_zero _)⟩,
      fun _ d => ⟨List.suffix_refl _, fun h => absurd h (Nat.not_lt_zero _)⟩,
      fun _ _ _ _ d => ⟨List.suffix_refl _, fun h => absurd h (Nat.not_lt_zero _)⟩⟩
  | succ k ih => exact ⟨unPara_good' ih, unCanvas_good' ih, runParse_good' ih⟩

/-! ## Agreement -/

/-- Two decoders agree when fewer than `k` tokens are left. -/
def Agree {α : Type} (k : Nat) (u v : Dec → Out α) : Prop := ∀ d, d.rest.length < k → u d = v d

theorem Agree.rfl {α : Type} {k : Nat} {u : Dec → Out α} : Agree k u u := fun _ _ => Eq.refl _

theorem Agree.mono {α : Type} {k j : Nat} {u v : Dec → Out α} (h : Agree k u v) (hj : j ≤ k) :
    Agree j u v := fun d hd => h d (Nat.lt_of_lt_of_le hd hj)

theorem agree_sub {α σ : Type} {u v : Dec → Out α} (h : Agree k u v) (f : α → σ) :
    Agree k (sub u f) (sub v f) := by
  intro d hd
  have := h d.pushEOF hd
  simp only [sub, decodeElement, this]

theorem agree_subStrict {α σ : Type} {u v : Dec → Out α} (h : Agree k u v) (f : α → σ) :
    Agree k (subStrict u f) (subStrict v f) := by
  intro d hd
  have := h d.pushEOF hd
  simp only [subStrict, decodeElement, this]

/-- The cases of two `switch`es agree. -/
def StepAgree {σ : Type} (k : Nat) (s t : σ → String → List Attr → Dec → Out σ) : Prop :=
  ∀ x l as, Agree k (s x l as) (t x l as)

theorem loopN_agree {σ : Type} {s t : σ → String → List Attr → Dec → Out σ}
    {chars : σ → String → σ} {j : Nat} (h : StepAgree k s t) (hg : StepGood j s) :
    ∀ (f : Nat) (x : σ) (d : Dec), d.rest.length < k + 1 →
      loopN s chars f x d = loopN t chars f x d := by
  intro f
  induction f with
  | zero => intro x d _; rfl
  | succ f ih =>
    intro x d hk
    simp only [loopN]
    rcases ht : d.token with ⟨r, d'⟩
    cases r with
    | error e => cases e <;> rfl
    | ok tok =>
      have hd := token_ok ht
      cases tok with
      | start q as =>
        simp only
        have h1 := h x q.loc as d' (by omega)
        have h2 := (hg x q.loc as d').1.length_le
        rw [← h1]
        rcases hst : s x q.loc as d' with ⟨s', e, d''⟩
        rw [hst] at h2
        cases e with
        | none => simp only at h2 ⊢; exact ih s' d'' (by omega)
        | some e => rfl
      | chars c => exact ih _ d' (by omega)
      | stop q => exact ih _ d' (by omega)
      | other => exact ih _ d' (by omega)
      | bad => exact ih _ d' (by omega)

theorem agree_loop {σ : Type} {s t : σ → String → List Attr → Dec → Out σ} {j : Nat}
    (h : StepAgree k s t) (hg : StepGood j s) (x : σ) : Agree (k + 1) (loop s x) (loop t x) :=
  fun d hd => loopN_agree h hg _ x d hd

theorem agree_loop' {σ : Type} {s t : σ → String → List Attr → Dec → Out σ} {j : Nat}
    (h : StepAgree k s t) (hg : StepGood j s) (x : σ) : Agree k (loop s x) (loop t x) :=
  (agree_loop h hg x).mono (Nat.le_succ k)

theorem agree_withAttrs {σ : Type} {f : σ → String → String → σ × Option Err}
    {b c : σ → Dec → Out σ} (h : ∀ x, Agree k (b x) (c x)) (s : σ) (as : List Attr) :
    Agree k (withAttrs f b s as) (withAttrs f c s as) := by
  intro d hd
  unfold withAttrs
  split
  · rfl
  · exact h _ d hd

/-- The recursive decoders of `p` and `q` agree when fewer than `k` tokens are left. -/
structure DecsAgree (k : Nat) (p q : Decs) : Prop where
  para : ∀ file, Agree k (p.para file) (q.para file)
  canvas : ∀ file, Agree k (p.canvas file) (q.canvas file)
  parse : ∀ file r l as, Agree k (p.parse file r l as) (q.parse file r l as)

variable {j : Nat}

theorem txbxContentStep_agree (h : DecsAgree k p q) (file : Option DocId) :
    StepAgree k (txbxContentStep p file) (txbxContentStep q file) := by
  intro s l as
  unfold txbxContentStep
  split
  · exact agree_sub (h.para _) _
  · exact Agree.rfl

theorem textBoxStep_agree (h : DecsAgree k p q) (hg : DecsGood j p) (file : Option DocId) :
    StepAgree k (textBoxStep p file) (textBoxStep q file) := by
  intro s l as
  unfold textBoxStep
  split
  · exact agree_sub (agree_loop' (txbxContentStep_agree h file) (txbxContentStep_good hg file) _) _
  · exact Agree.rfl

theorem unTextBox_agree (h : DecsAgree k p q) (hg : DecsGood j p) (file : Option DocId) :
    Agree k (unTextBox p file) (unTextBox q file) :=
  agree_loop' (textBoxStep_agree h hg file) (textBoxStep_good hg file) _

theorem shapeStep_agree (h : DecsAgree k p q) (hg : DecsGood j p) (file : Option DocId) :
    StepAgree k (shapeStep p file) (shapeStep q file) := by
  intro s l as
  unfold shapeStep
  split <;> first
    | exact agree_sub (unTextBox_agree h hg _) _
    | exact Agree.rfl

theorem unShape_agree (h : DecsAgree k p q) (hg : DecsGood j p) (file : Option DocId) :
    Agree k (unShape p file) (unShape q file) :=
  agree_loop' (shapeStep_agree h hg file) (shapeStep_good hg file) _

theorem groupShapeStep_agree (h : DecsAgree k p q) (hg : DecsGood j p) (file : Option DocId) :
    StepAgree k (groupShapeStep p file) (groupShapeStep q file) := by
  intro s l as
  unfold groupShapeStep
  split <;> first
    | exact agree_sub (unShape_agree h hg _) _
    | exact agree_sub (h.canvas _) _
    | exact Agree.rfl

theorem unGroupShape_agree (h : DecsAgree k p q) (hg : DecsGood j p) (file : Option DocId) :
    Agree k (unGroupShape p file) (unGroupShape q file) :=
  agree_loop' (groupShapeStep_agree h hg file) (groupShapeStep_good hg file) _

theorem groupStep_agree (h : DecsAgree k p q) (hg : DecsGood j p) (file : Option DocId) :
    StepAgree k (groupStep p file) (groupStep q file) := by
  intro s l as
  unfold groupStep
  split <;> first
    | exact agree_sub (unShape_agree h hg _) _
    | exact agree_sub (h.canvas _) _
    | exact agree_sub (unGroupShape_agree h hg _) _
    | exact Agree.rfl

theorem unGroup_agree (h : DecsAgree k p q) (hg : DecsGood j p) (file : Option DocId) :
    Agree k (unGroup p file) (unGroup q file) :=
  agree_loop' (groupStep_agree h hg file) (groupStep_good hg file) _

theorem canvasStep_agree (h : DecsAgree k p q) (hg : DecsGood j p) (file : Option DocId) :
    StepAgree k (canvasStep p file) (canvasStep q file) := by
  intro s l as
  unfold canvasStep
  split <;> first
    | exact agree_sub (unShape_agree h hg _) _
    | exact agree_sub (unGroup_agree h hg _) _
    | exact Agree.rfl

theorem unCanvas_agree (h : DecsAgree k p q) (hg : DecsGood j p) (file : Option DocId) :
    Agree (k + 1) (unCanvas p file) (unCanvas q file) :=
  agree_loop (canvasStep_agree h hg file) (canvasStep_good hg file) _

theorem graphicDataStep_agree (h : DecsAgree k p q) (hg : DecsGood j p) (file : Option DocId) :
    StepAgree k (graphicDataStep p file) (graphicDataStep q file) := by
  intro s l as
  unfold graphicDataStep
  split <;> first
    | exact agree_sub (unShape_agree h hg _) _
    | exact agree_sub ((unCanvas_agree h hg _).mono (Nat.le_succ k)) _
    | exact agree_sub (unGroup_agree h hg _) _
    | exact Agree.rfl

theorem unGraphicData_agree (h : DecsAgree k p q) (hg : DecsGood j p) (file : Option DocId)
    (as : List Attr) : Agree k (unGraphicData p file as) (unGraphicData q file as) :=
  agree_withAttrs (fun x => agree_loop' (graphicDataStep_agree h hg file)
    (graphicDataStep_good hg file) x) _ _

theorem graphicStep_agree (h : DecsAgree k p q) (hg : DecsGood j p) (file : Option DocId) :
    StepAgree k (graphicStep p file) (graphicStep q file) := by
  intro s l as
  unfold graphicStep
  split <;> first
    | exact agree_sub (unGraphicData_agree h hg _ _) _
    | exact Agree.rfl

theorem unGraphic_agree (h : DecsAgree k p q) (hg : DecsGood j p) (file : Option DocId)
    (as : List Attr) : Agree k (unGraphic p file as) (unGraphic q file as) :=
  agree_withAttrs (fun x => agree_loop' (graphicStep_agree h hg file) (graphicStep_good hg file) x) _ _

theorem inlineStep_agree (h : DecsAgree k p q) (hg : DecsGood j p) (file : Option DocId) :
    StepAgree k (inlineStep p file) (inlineStep q file) := by
  intro s l as
  unfold inlineStep
  split <;> first
    | exact agree_sub (unGraphic_agree h hg _ _) _
    | exact Agree.rfl

theorem unInline_agree (h : DecsAgree k p q) (hg : DecsGood j p) (file : Option DocId)
    (as : List Attr) : Agree k (unInline p file as) (unInline q file as) :=
  agree_withAttrs (fun x => agree_loop' (inlineStep_agree h hg file) (inlineStep_good hg file) x) _ _

theorem anchorStep_agree (h : DecsAgree k p q) (hg : DecsGood j p) (file : Option DocId) :
    StepAgree k (anchorStep p file) (anchorStep q file) := by
  intro s l as
  unfold anchorStep
  split <;> first
    | exact agree_sub (unGraphic_agree h hg _ _) _
    | exact Agree.rfl

theorem unAnchor_agree (h : DecsAgree k p q) (hg : DecsGood j p) (file : Option DocId)
    (as : List Attr) : Agree k (unAnchor p file as) (unAnchor q file as) :=
  agree_withAttrs (fun x => agree_loop' (anchorStep_agree h hg file) (anchorStep_good hg file) x) _ _

theorem drawingStep_agree (h : DecsAgree k p q) (hg : DecsGood j p) (file : Option DocId) :
    StepAgree k (drawingStep p file) (drawingStep q file) := by
  intro s l as
  unfold drawingStep
  split <;> first
    | exact agree_sub (unInline_agree h hg _ _) _
    | exact agree_sub (unAnchor_agree h hg _ _) _
    | exact Agree.rfl

theorem altN_agree {a b : Run → String → List Attr → Dec → Out Parsed}
    (h : ∀ r l as, Agree k (a r l as) (b r l as)) : ∀ (f : Nat) (r : Run) (d : Dec),
    d.rest.length < k + 1 → altN a f r d = altN b f r d := by
  intro f
  induction f with
  | zero => intro r d _; rfl
  | succ f ih =>
    intro r d hk
    simp only [altN]
    rcases ht : d.token with ⟨t, d'⟩
    cases t with
    | error e => cases e <;> rfl
    | ok t =>
      have hd := token_ok ht
      have next : (match d'.skip with
          | (none, d'') => altN a f r d''
          | (some e, d'') => (⟨(r, none), some e, d''⟩ : Out Parsed)) =
          (match d'.skip with
          | (none, d'') => altN b f r d''
          | (some e, d'') => ⟨(r, none), some e, d''⟩) := by
        have h1 := skip_le d'
        rcases hs : d'.skip with ⟨e, d''⟩
        rw [hs] at h1
        cases e with
        | none => simp only at h1 ⊢; exact ih r d'' (by omega)
        | some e => rfl
      cases t with
      | start q as =>
        simp only
        split
        · rcases ht2 : d'.token with ⟨t2, d''⟩
          cases t2 with
          | error e => rfl
          | ok t2 =>
            have hd2 := token_ok ht2
            cases t2 with
            | start q2 as2 => exact h r q2.loc as2 d'' (by omega)
            | stop _ => rfl
            | chars _ => rfl
            | other => rfl
            | bad => rfl
        · exact next
      | stop q =>
        simp only
        split
        · rfl
        · exact next
      | chars _ => exact next
      | other => exact next
      | bad => exact next

theorem runParse_agree (h : DecsAgree k p q) (hg : DecsGood j p) (file : Option DocId) (r : Run)
    (l : String) (as : List Attr) : Agree (k + 1) (runParse p file r l as) (runParse q file r l as) := by
  intro d hd
  unfold runParse
  split
  · rfl
  · rfl
  · rfl
  · exact agree_subStrict (agree_loop (drawingStep_agree h hg file) (drawingStep_good hg file) _) _ d hd
  · rfl
  · rfl
  · exact altN_agree (h.parse file) _ r d hd
  · rfl

theorem runStep_agree (h : DecsAgree k p q) (hg : DecsGood j p) (file : Option DocId) :
    StepAgree k (runStep p file) (runStep q file) := by
  intro s l as d hd
  unfold runStep
  rw [runParse_agree h hg file s l as d (by omega)]

theorem unRun_agree (h : DecsAgree k p q) (hg : DecsGood j p) (file : Option DocId) (s : Run)
    (as : List Attr) : Agree k (unRun p file s as) (unRun q file s as) :=
  agree_withAttrs (fun x => agree_loop' (runStep_agree h hg file) (runStep_good hg file) x) _ _

theorem hyperlinkStep_agree (h : DecsAgree k p q) (hg : DecsGood j p) :
    StepAgree k (hyperlinkStep p) (hyperlinkStep q) := by
  intro s l as
  unfold hyperlinkStep
  split
  · exact agree_sub (unRun_agree h hg _ _ _) _
  · exact Agree.rfl

theorem paraStep_agree (h : DecsAgree k p q) (hg : DecsGood j p) (file : Option DocId) :
    StepAgree k (paraStep p file) (paraStep q file) := by
  intro s l as
  unfold paraStep
  split <;> first
    | exact agree_sub (agree_loop' (hyperlinkStep_agree h hg) (hyperlinkStep_good hg) _) _
    | exact agree_sub (unRun_agree h hg _ _ _) _
    | exact Agree.rfl

theorem unPara_agree (h : DecsAgree k p q) (hg : DecsGood j p) (file : Option DocId) :
    Agree (k + 1) (unPara p file) (unPara q file) := by
  intro d hd
  unfold unPara
  rw [agree_loop (paraStep_agree h hg file) (paraStep_good hg file) _ d hd]

theorem decs_agree : ∀ (k m : Nat), k ≤ m → DecsAgree k (decs k) (decs m) := by
  intro k
  induction k with
  | zero =>
    intro m _
    exact ⟨fun _ d h => absurd h (Nat.not_lt_zero _), fun _ d h => absurd h (Nat.not_lt_zero _),
      fun _ _ _ _ d h => absurd h (Nat.not_lt_zero _)⟩
  | succ k ih =>
    intro m hm
    cases m with
    | zero => omega
    | succ m =>
      have h := ih m (by omega)
      have hg := decs_good k
      exact ⟨unPara_agree h hg, unCanvas_agree h hg, runParse_agree h hg⟩

/-! ## The limit -/

/-- The recursive decoders with as many levels as there are tokens -/
def D : Decs where
  para file d := (decs (d.rest.length + 1)).para file d
  canvas file d := (decs (d.rest.length + 1)).canvas file d
  parse file r l as d := (decs (d.rest.length + 1)).parse file r l as d

theorem decs_D (k : Nat) : DecsAgree k (decs k) D := by
  refine ⟨fun file d h => ?_, fun file d h => ?_, fun file r l as d h => ?_⟩
  · have := ((decs_agree (d.rest.length + 1) k (by omega)).para file) d (by omega)
    rw [← this]; rfl
  · have := ((decs_agree (d.rest.length + 1) k (by omega)).canvas file) d (by omega)
    rw [← this]; rfl
  · have := ((decs_agree (d.rest.length + 1) k (by omega)).parse file r l as) d (by omega)
    rw [← this]; rfl

theorem D_para (file : Option DocId) : D.para file = unPara D file := by
  funext d
  exact unPara_agree (decs_D d.rest.length) (decs_good _) file d (Nat.lt_succ_self _)

theorem D_canvas (file : Option DocId) : D.canvas file = unCanvas D file := by
  funext d
  exact unCanvas_agree (decs_D d.rest.length) (decs_good _) file d (Nat.lt_succ_self _)

theorem D_parse (file : Option DocId) (r : Run) (l : String) (as : List Attr) :
    D.parse file r l as = runParse D file r l as := by
  funext d
  exact runParse_agree (decs_D d.rest.length) (decs_good _) file r l as d (Nat.lt_succ_self _)

theorem D_good (k : Nat) : DecsGood k D := by
  refine ⟨fun file d => ?_, fun file d => ?_, fun file r l as d => ?_⟩
  · have := (decs_good (d.rest.length + 1)).para file d
    exact ⟨this.1, fun _ => this.2 (Nat.lt_succ_self _)⟩
  · have := (decs_good (d.rest.length + 1)).canvas file d
    exact ⟨this.1, fun _ => this.2 (Nat.lt_succ_self _)⟩
  · have := (decs_good (d.rest.length + 1)).parse file r l as d
    exact ⟨this.1, fun _ => this.2 (Nat.lt_succ_self _)⟩

/-! ## Tables and documents -/

theorem cellStep_good (h : DecsGood k p) (file : Option DocId) : StepGood k (cellStep p file) := by
  intro s l as
  unfold cellStep
  split
  · exact good_sub (unPara_good h _) _
  · exact good_sub (unTcPr_good k) _
  · exact good_skipTo _ _

theorem unCell_good (h : DecsGood k p) (file : Option DocId) : Good k (unCell p file) :=
  good_loop' (cellStep_good h file) _

theorem rowStep_good (h : DecsGood k p) (file : Option DocId) : StepGood k (rowStep p file) := by
  intro s l as
  unfold rowStep
  split
  · exact good_sub (unTrPr_good k) _
  · exact good_sub (unCell_good h _) _
  · exact good_skipTo _ _

theorem unRow_good (h : DecsGood k p) (file : Option DocId) : Good k (unRow p file) :=
  good_loop' (rowStep_good h file) _

theorem tableStep_good (h : DecsGood k p) (file : Option DocId) : StepGood k (tableStep p file) := by
  intro s l as
  unfold tableStep
  split
  · exact good_sub (unRow_good h _) _
  · exact good_sub (unTblPr_good k) _
  · exact good_sub (unGrid_good k) _
  · exact good_skipTo _ _

theorem unTable_good (h : DecsGood k p) (file : Option DocId) : Good k (unTable p file) :=
  good_loop' (tableStep_good h file) _

theorem bodyStep_good (h : DecsGood k p) (file : Option DocId) : StepGood k (bodyStep p file) := by
  intro s l as
  unfold bodyStep
  split
  · exact good_sub (unPara_good h _) _
  · exact good_sub (unTable_good h _) _
  · exact good_sub (unSect_good k) _
  · exact good_skipTo _ _

theorem unBody_good (h : DecsGood k p) (file : Option DocId) (s : List BItem) :
    Good k (unBody p file s) := good_loop' (bodyStep_good h file) _

theorem documentStep_good (h : DecsGood k p) (file : Option DocId) :
    StepGood k (documentStep p file) := by
  intro s l as
  unfold documentStep
  split
  · exact good_sub (unBody_good h _ _) _
  · exact good_skipTo _ _

theorem unDocument_good (h : DecsGood k p) (file : Option DocId) (s : List BItem) :
    Good k (unDocument p file s) := good_loop' (documentStep_good h file) _

theorem cellStep_agree (h : DecsAgree k p q) (hg : DecsGood j p) (file : Option DocId) :
    StepAgree k (cellStep p file) (cellStep q file) := by
  intro s l as
  unfold cellStep
  split <;> first
    | exact agree_sub ((unPara_agree h hg _).mono (Nat.le_succ k)) _
    | exact Agree.rfl

theorem rowStep_agree (h : DecsAgree k p q) (hg : DecsGood j p) (file : Option DocId) :
    StepAgree k (rowStep p file) (rowStep q file) := by
  intro s l as
  unfold rowStep
  split <;> first
    | exact agree_sub (agree_loop' (cellStep_agree h hg file) (cellStep_good hg file) _) _
    | exact Agree.rfl

theorem tableStep_agree (h : DecsAgree k p q) (hg : DecsGood j p) (file : Option DocId) :
    StepAgree k (tableStep p file) (tableStep q file) := by
  intro s l as
  unfold tableStep
  split <;> first
    | exact agree_sub (agree_loop' (rowStep_agree h hg file) (rowStep_good hg file) _) _
    | exact Agree.rfl

theorem bodyStep_agree (h : DecsAgree k p q) (hg : DecsGood j p) (file : Option DocId) :
    StepAgree k (bodyStep p file) (bodyStep q file) := by
  intro s l as
  unfold bodyStep
  split <;> first
    | exact agree_sub ((unPara_agree h hg _).mono (Nat.le_succ k)) _
    | exact agree_sub (agree_loop' (tableStep_agree h hg file) (tableStep_good hg file) _) _
    | exact Agree.rfl

theorem documentStep_agree (h : DecsAgree k p q) (hg : DecsGood j p) (file : Option DocId) :
    StepAgree k (documentStep p file) (documentStep q file) := by
  intro s l as
  unfold documentStep
  split <;> first
    | exact agree_sub (agree_loop' (bodyStep_agree h hg file) (bodyStep_good hg file) _) _
    | exact Agree.rfl

theorem unDocument_agree (h : DecsAgree k p q) (hg : DecsGood j p) (file : Option DocId)
    (s : List BItem) : Agree (k + 1) (unDocument p file s) (unDocument q file s) :=
  agree_loop (documentStep_agree h hg file) (documentStep_good hg file) _

omit [GoEnv] in
theorem rootN_agree {α : Type} {u v : List Attr → Dec → Out α} (h : ∀ as, Agree k (u as) (v as))
    (s : α) : ∀ (f : Nat) (d : Dec), d.rest.length < k + 1 → rootN u s f d = rootN v s f d := by
  intro f
  induction f with
  | zero => intro d _; rfl
  | succ f ih =>
    intro d hk
    simp only [rootN]
    rcases ht : d.token with ⟨t, d'⟩
    cases t with
    | error e => rfl
    | ok t =>
      have hd := token_ok ht
      cases t with
      | start q as => exact h as d' (by omega)
      | stop _ => exact ih d' (by omega)
      | chars _ => exact ih d' (by omega)
      | other => exact ih d' (by omega)
      | bad => exact ih d' (by omega)

omit [GoEnv] in
theorem rootN_good {α : Type} {u : List Attr → Dec → Out α} (h : ∀ as, Good k (u as)) (s : α) :
    ∀ (f : Nat) (d : Dec), d.rest.length < f → d.rest.length < k + 1 →
      (rootN u s f d).err ≠ some .fuel := by
  intro f
  induction f with
  | zero => intro d h; omega
  | succ f ih =>
    intro d hf hk
    simp only [rootN]
    rcases ht : d.token with ⟨t, d'⟩
    cases t with
    | error e => have := token_err ht; simp [this.2]
    | ok t =>
      have hd := token_ok ht
      cases t with
      | start q as => exact (h as d').2 (by omega)
      | stop _ => exact ih d' (by omega) (by omega)
      | chars _ => exact ih d' (by omega) (by omega)
      | other => exact ih d' (by omega) (by omega)
      | bad => exact ih d' (by omega) (by omega)

/-- Decoding a document with the limit decoders -/
theorem decodeDocument_eq (file : Option DocId) (s : List BItem) (toks : List Tok) :
    decodeDocument file s toks =
      rootN (fun _ => decodeElement (unDocument D file s)) s (toks.length + 1) ⟨toks, [], false⟩ := by
  unfold decodeDocument
  apply rootN_agree (k := toks.length) _ _ _ _ (Nat.lt_succ_self _)
  intro _ d hd
  have := unDocument_agree (decs_D (toks.length + 1)) (decs_good _) file s d.pushEOF
    (by show d.rest.length < _; omega)
  simp only [decodeElement, this]

end Docx
