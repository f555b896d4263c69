import Verif.SpecNs
import Verif.Lemmas.XmlRec

/-!
# What is decoded from a file whose drawings declare their prefixes
-/

namespace Docx

set_option linter.unusedSectionVars false

variable [GoEnv]

theorem declToks_tail {t : Tok} {r : List Tok} (h : declToks (t :: r)) : declToks r := by
  cases t <;> first | exact h | exact h.2

theorem declToks_sfx {a b : List Tok} (h : a <:+ b) (hb : declToks b) : declToks a := by
  obtain ⟨c, rfl⟩ := h
  induction c with
  | nil => exact hb
  | cons t c ih => exact ih (declToks_tail hb)

theorem nextStart_iff {r : List Tok} {l : String} :
    nextStart r l ↔ ∃ q as r', r = .start q as :: r' ∧ q.loc = l := by
  constructor
  · intro h
    unfold nextStart at h
    split at h
    · exact ⟨_, _, _, rfl, h⟩
    · exact h.elim
  · rintro ⟨q, as, r', rfl, h⟩; exact h

/-- A decoder that has just read a start tag -/
def Opened (d : Dec) : Prop := ∃ q s, d.stk = .elem q :: s ∧ d.dead = false

theorem token_fresh {d d' : Dec} {q : QName} {as : List Attr} (h : d.token = (.ok (.start q as), d'))
    (hd : declToks d.rest) : declStart q.loc as d'.rest ∧ Opened d' ∧ declToks d'.rest := by
  rcases d with ⟨r, s, b⟩
  unfold Dec.token at h
  split at h <;> first
    | (simp at h; done)
    | skip
  · rename_i q' as' r' s' heq
    simp only [Prod.mk.injEq, Except.ok.injEq, Tok.start.injEq] at h
    obtain ⟨⟨rfl, rfl⟩, rfl⟩ := h
    cases heq
    exact ⟨hd.1, ⟨_, _, rfl, rfl⟩, hd.2⟩
  · split at h <;> simp at h

/-- The value decoded satisfies `P`, on every input that declares its prefixes -/
def YieldsD {α : Type} (P : α → Prop) (u : Dec → Out α) : Prop :=
  ∀ d, declToks d.rest → P (u d).val

/-- A step of a loop keeps `P` -/
def StepD {σ : Type} (P : σ → Prop) (step : σ → String → List Attr → Dec → Out σ) : Prop :=
  ∀ s l as d, P s → declStart l as d.rest → Opened d → declToks d.rest → P (step s l as d).val

theorem loopN_D {σ : Type} {P : σ → Prop} {step : σ → String → List Attr → Dec → Out σ}
    {chars : σ → String → σ} (hg : StepGood 0 step) (h : StepD P step)
    (hc : ∀ s c, P s → P (chars s c)) :
    ∀ (f : Nat) (s : σ) (d : Dec), P s → declToks d.rest → P (loopN step chars f s d).val := by
  intro f
  induction f with
  | zero => intro s d hs _; exact hs
  | succ f ih =>
    intro s d hs hd
    rw [loopN]
    rcases hk : d.token with ⟨t, d'⟩
    have hd' : declToks d'.rest := declToks_sfx (token_sfx' hk) hd
    cases t with
    | error e => cases e <;> exact hs
    | ok t =>
      cases t with
      | start q as =>
        have hf := token_fresh hk hd
        have := h s q.loc as d' hs hf.1 hf.2.1 hf.2.2
        have hx := (hg s q.loc as d').1
        simp only
        rcases hst : step s q.loc as d' with ⟨s', e, d''⟩
        rw [hst] at this hx
        cases e with
        | none => exact ih s' d'' this (declToks_sfx hx hd')
        | some e => exact this
      | chars c => exact ih _ d' (hc s c hs) hd'
      | stop _ => exact ih s d' hs hd'
      | other => exact ih s d' hs hd'
      | bad => exact ih s d' hs hd'

theorem loop_D {σ : Type} {P : σ → Prop} {step : σ → String → List Attr → Dec → Out σ} {s : σ}
    (hg : StepGood 0 step) (h : StepD P step) (hs : P s) : YieldsD P (loop step s) :=
  fun d hd => loopN_D hg h (fun _ _ h => h) _ s d hs hd

theorem decodeElement_D {α : Type} {P : α → Prop} {u : Dec → Out α} (h : YieldsD P u) :
    YieldsD P (decodeElement u) := by
  intro d hd
  have := h d.pushEOF hd
  simp only [decodeElement]
  rcases ho : u d.pushEOF with ⟨v, e, d'⟩
  rw [ho] at this
  cases e with
  | some e => exact this
  | none =>
    rcases d'.popEOF with ⟨b, d''⟩
    cases b <;> exact this

theorem sub_D {α σ : Type} {P : α → Prop} {Q : σ → Prop} {u : Dec → Out α} (h : YieldsD P u)
    {k : α → σ} (hk : ∀ v, P v → Q (k v)) : YieldsD Q (sub u k) :=
  fun d hd => hk _ (decodeElement_D h d hd)

theorem subStrict_D {α σ : Type} {P : α → Prop} {Q : σ → Prop} {u : Dec → Out α}
    (h : YieldsD P u) {k : α → σ} (hk : ∀ v, P v → Q (k v)) : YieldsD Q (subStrict u k) :=
  fun d hd => hk _ (decodeElement_D h d hd)

theorem any_D {α : Type} (u : Dec → Out α) : YieldsD (fun _ => True) u := fun _ _ => trivial

theorem attrs_keep {σ : Type} {P : σ → Prop} {f : σ → String → String → σ × Option Err}
    (hf : ∀ s l v, P s → P (f s l v).1) : ∀ (as : List Attr) (s : σ), P s → P (attrs f s as).1 := by
  intro as
  induction as with
  | nil => intro s hs; exact hs
  | cons a as ih =>
    intro s hs
    have := hf s a.name.loc a.val hs
    rw [attrs]
    rcases hr : f s a.name.loc a.val with ⟨s', e⟩
    rw [hr] at this
    cases e with
    | none => exact ih s' this
    | some e => exact this

theorem withAttrs_D {σ : Type} {P : σ → Prop} {f : σ → String → String → σ × Option Err}
    {body : σ → Dec → Out σ} {s : σ} {as : List Attr} (hs : P (attrs f s as).1)
    (hb : ∀ s, P s → YieldsD P (body s)) :
    YieldsD P (withAttrs f body s as) := by
  intro d hd
  simp only [withAttrs]
  rcases hr : attrs f s as with ⟨s', e⟩
  rw [hr] at hs
  cases e with
  | none => exact hb s' hs d hd
  | some e => exact hs

theorem getAtt_ne {as : List Attr} {l : String} (h : hasAttr as l) : getAtt as l ≠ "" := by
  induction as with
  | nil => obtain ⟨⟨a, ha, _⟩, _⟩ := h; cases ha
  | cons a as ih =>
    rw [getAtt]
    split
    · rename_i heq
      exact h.2 a List.mem_cons_self (by simpa using heq)
    · rename_i heq
      refine ih ⟨?_, fun b hb => h.2 b (List.mem_cons_of_mem _ hb)⟩
      obtain ⟨⟨b, hb, hl⟩, _⟩ := h
      rcases List.mem_cons.1 hb with rfl | hb
      · exact absurd (by simpa using hl) heq
      · exact ⟨b, hb, hl⟩

theorem graphicAttrs_ne : ∀ (as : List Attr) (s : Graphic), (∀ a ∈ as, a.name.loc = "a" → a.val ≠ "") →
    (s.xmlA ≠ "" ∨ ∃ a ∈ as, a.name.loc = "a") → (attrs graphicAttr s as).1.xmlA ≠ "" ∧
      (attrs graphicAttr s as).1.data = s.data := by
  intro as
  induction as with
  | nil =>
    intro s _ h
    rcases h with h | ⟨a, ha, _⟩
    · exact ⟨h, rfl⟩
    · cases ha
  | cons a as ih =>
    intro s hv h
    rw [attrs]
    by_cases hl : a.name.loc = "a"
    · have : graphicAttr s a.name.loc a.val = ({ s with xmlA := a.val }, none) := by rw [hl]; rfl
      rw [this]
      exact ih _ (fun b hb => hv b (List.mem_cons_of_mem _ hb))
        (.inl (hv a List.mem_cons_self hl))
    · have : graphicAttr s a.name.loc a.val = (s, none) := by
        unfold graphicAttr; split
        · rename_i h; exact absurd h hl
        · rfl
      rw [this]
      refine ih s (fun b hb => hv b (List.mem_cons_of_mem _ hb)) ?_
      rcases h with h | ⟨b, hb, hbl⟩
      · exact .inl h
      · rcases List.mem_cons.1 hb with rfl | hb
        · exact absurd hbl hl
        · exact .inr ⟨b, hb, hbl⟩

/-! ## Parts -/

theorem frameStep_D : StepD (fun s : FrameLocks => s.xmlA ≠ "") frameStep := by
  intro s l as d hs ho _ _
  unfold frameStep
  split
  · have := getAtt_ne (ho.2.1 rfl)
    simp only [flatIntSt]
    split <;> exact this
  · exact hs

theorem frameStep_locks {s : FrameLocks} {l : String} {as : List Attr} {d : Dec}
    (hl : l = "graphicFrameLocks") (ho : declStart l as d.rest) :
    (frameStep s l as d).val.xmlA ≠ "" := by
  subst hl
  have := getAtt_ne (ho.2.1 rfl)
  unfold frameStep
  simp only [flatIntSt]
  split <;> exact this

/-- The properties of a frame, when they begin with the locks -/
theorem subFramePr_D {σ : Type} {Q : σ → Prop} {k : FrameLocks → σ}
    (hk : ∀ v, v.xmlA ≠ "" → Q (k v)) {as : List Attr} {d : Dec}
    (ho : declStart "cNvGraphicFramePr" as d.rest) (hf : Opened d) (hd : declToks d.rest) :
    Q (sub unFramePr k d).val := by
  suffices h : (decodeElement unFramePr d).val.xmlA ≠ "" from hk _ h
  suffices h : (unFramePr d.pushEOF).val.xmlA ≠ "" by
    simp only [decodeElement]
    rcases ho : unFramePr d.pushEOF with ⟨v, e, d'⟩
    rw [ho] at h
    cases e with
    | some e => exact h
    | none =>
      rcases d'.popEOF with ⟨b, d''⟩
      cases b <;> exact h
  obtain ⟨q, as', r, hr, hq⟩ := nextStart_iff.1 (ho.2.2.2.2 rfl)
  obtain ⟨q0, st, hst, hdead⟩ := hf
  have htok : d.pushEOF.token = (.ok (.start q as'), ⟨r, .elem q :: .elem q0 :: .mark :: st, false⟩) := by
    rcases d with ⟨rest, stk, dead⟩
    simp only at hr hst hdead
    subst hr; subst hst; subst hdead
    rfl
  rw [hr] at hd
  unfold unFramePr loop
  rw [loopC, loopN, htok]
  have h1 := frameStep_locks (s := {}) (d := ⟨r, .elem q :: .elem q0 :: .mark :: st, false⟩) hq hd.1
  have hx := (frameStep_good 0 ({} : FrameLocks) q.loc as' ⟨r, .elem q :: .elem q0 :: .mark :: st, false⟩).1
  simp only
  rcases hs : frameStep {} q.loc as' ⟨r, .elem q :: .elem q0 :: .mark :: st, false⟩ with ⟨s', e, d''⟩
  rw [hs] at h1 hx
  cases e with
  | some e => exact h1
  | none =>
    exact loopN_D (frameStep_good 0) frameStep_D (fun _ _ h => h) _ _ _ h1 (declToks_sfx hx hd.2)

/-! ## Recursive types -/

/-- What `(*Run).parse` yields -/
def declParsed (x : Parsed) : Prop := declRun x.1 ∧ ∀ c, x.2 = some c → declRChild c

/-- The recursive decoders yield documents that declare their prefixes -/
structure DecsDecl (p : Decs) : Prop where
  good : DecsGood 0 p
  para : ∀ file, YieldsD declPara (p.para file)
  parse : ∀ file r l as d, declRun r → declStart l as d.rest → Opened d → declToks d.rest →
    declParsed (p.parse file r l as d).val

theorem declParas_append : ∀ (ps : List Para) (p : Para),
    declParas ps → declPara p → declParas (ps ++ [p])
  | [], p, _, hp => by simp only [List.nil_append, declParas]; exact ⟨hp, trivial⟩
  | q :: ps, p, h, hp => by
    simp only [List.cons_append, declParas] at h ⊢
    exact ⟨h.1, declParas_append ps p h.2 hp⟩

theorem declPChildren_append : ∀ (ps : List PChild) (p : PChild),
    declPChildren ps → declPChild p → declPChildren (ps ++ [p])
  | [], p, _, hp => by simp only [List.nil_append, declPChildren]; exact ⟨hp, trivial⟩
  | q :: ps, p, h, hp => by
    simp only [List.cons_append, declPChildren] at h ⊢
    exact ⟨h.1, declPChildren_append ps p h.2 hp⟩

theorem declRChildren_append : ∀ (ps : List RChild) (p : RChild),
    declRChildren ps → declRChild p → declRChildren (ps ++ [p])
  | [], p, _, hp => by simp only [List.nil_append, declRChildren]; exact ⟨hp, trivial⟩
  | q :: ps, p, h, hp => by
    simp only [List.cons_append, declRChildren] at h ⊢
    exact ⟨h.1, declRChildren_append ps p h.2 hp⟩

theorem declCItems_append : ∀ (ps : List CItem) (p : CItem),
    declCItems ps → declCItem p → declCItems (ps ++ [p])
  | [], p, _, hp => by simp only [List.nil_append, declCItems]; exact ⟨hp, trivial⟩
  | q :: ps, p, h, hp => by
    simp only [List.cons_append, declCItems] at h ⊢
    exact ⟨h.1, declCItems_append ps p h.2 hp⟩

variable {p : Decs}

theorem unTextBox_D (hp : DecsDecl p) (file : Option DocId) :
    YieldsD declTextBox (unTextBox p file) := by
  refine loop_D (textBoxStep_good hp.good file) ?_ (by simp [declTextBox, declContentO])
  intro s l as d hs _ _ hd
  unfold textBoxStep
  split
  · refine sub_D (P := declParas) (loop_D (txbxContentStep_good hp.good file) ?_ (by simp [declParas]))
      (fun v hv => ?_) d hd
    · intro s l as d hs _ _ hd
      unfold txbxContentStep
      split
      · exact sub_D (hp.para file) (fun v hv => declParas_append s v hs hv) d hd
      · exact hs
    · simp only [declTextBox, declContentO]; exact hv
  · exact hs

theorem unShape_D (hp : DecsDecl p) (file : Option DocId) : YieldsD declShape (unShape p file) := by
  refine loop_D (shapeStep_good hp.good file) ?_ (by simp [declShape, declTextBoxO])
  intro s l as d hs _ _ hd
  rcases s with ⟨a, b, c, spPr, tb, e⟩
  simp only [declShape] at hs
  unfold shapeStep
  split <;> first
    | exact sub_D (unTextBox_D hp file) (Q := declShape) (fun v hv => by
        simp only [declShape, declTextBoxO]; exact hv) d hd
    | simp only [sub, skipTo, declShape]; exact hs

theorem unCanvas_D (hp : DecsDecl p) (file : Option DocId) : YieldsD declCanvas (unCanvas p file) := by
  refine loop_D (canvasStep_good hp.good file) ?_ (by simp [declCanvas, declCItems])
  intro s l as d hs ho _ hd
  rcases s with ⟨a, b, items⟩
  simp only [declCanvas] at hs
  unfold canvasStep
  split <;> first
    | exact absurd rfl ho.2.2.2.1
    | exact sub_D (any_D unPic) (Q := declCanvas) (fun v hv => by
        simp only [declCanvas]
        refine declCItems_append _ _ hs ?_
        simp only [declCItem]
        exact getAtt_ne (ho.2.2.1 rfl)) d hd
    | exact sub_D (unShape_D hp file) (Q := declCanvas) (fun v hv => by
        simp only [declCanvas]
        exact declCItems_append _ _ hs (by simp only [declCItem]; exact hv)) d hd
    | simp only [sub, skipTo, declCanvas]; exact hs

theorem unGraphicData_D (hp : DecsDecl p) (file : Option DocId) (as : List Attr) :
    YieldsD declGraphicData (unGraphicData p file as) := by
  refine withAttrs_D ?_ ?_
  · refine attrs_keep ?_ _ _ (by simp [declGraphicData, declShapeO, declCanvasO, declGroupO])
    intro s l v hs
    cases s
    unfold graphicDataAttr
    split <;> (simp only [declGraphicData] at hs ⊢; exact hs)
  · intro s hs
    refine loop_D (graphicDataStep_good hp.good file) ?_ hs
    intro s l as d hs ho _ hd
    rcases s with ⟨a, b, c, e, f⟩
    simp only [declGraphicData] at hs
    unfold graphicDataStep
    split <;> first
      | exact absurd rfl ho.2.2.2.1
      | exact sub_D (any_D unPic) (Q := declGraphicData) (fun v hv => by
          simp only [declGraphicData, Option.some.injEq, forall_eq']
          exact ⟨getAtt_ne (ho.2.2.1 rfl), hs.2⟩) d hd
      | exact sub_D (unShape_D hp file) (Q := declGraphicData) (fun v hv => by
          simp only [declGraphicData, declShapeO]; exact ⟨hs.1, hv, hs.2.2⟩) d hd
      | exact sub_D (unCanvas_D hp file) (Q := declGraphicData) (fun v hv => by
          simp only [declGraphicData, declCanvasO]; exact ⟨hs.1, hs.2.1, hv, hs.2.2.2⟩) d hd
      | simp only [sub, skipTo, declGraphicData]; exact hs

theorem unGraphic_D (hp : DecsDecl p) (file : Option DocId) {as : List Attr} (ha : hasAttr as "a") :
    YieldsD declGraphic (unGraphic p file as) := by
  refine withAttrs_D ?_ ?_
  · have := graphicAttrs_ne as {} ha.2 (.inr ha.1)
    rcases hr : attrs graphicAttr {} as with ⟨⟨xa, dat⟩, e⟩
    rw [hr] at this
    simp only at this
    obtain ⟨h1, rfl⟩ := this
    simp only [declGraphic, declGraphicDataO]
    exact ⟨h1, trivial⟩
  · intro s hs
    refine loop_D (graphicStep_good hp.good file) ?_ hs
    intro s l as d hs _ _ hd
    rcases s with ⟨a, b⟩
    simp only [declGraphic] at hs
    unfold graphicStep
    split
    · exact sub_D (unGraphicData_D hp file as) (Q := declGraphic) (fun v hv => by
          cases v
          simp only [declGraphic, declGraphicDataO, declGraphicData] at hv ⊢; exact ⟨hs.1, hv⟩) d hd
    · simp only [skipTo, declGraphic]; exact hs

theorem unInline_D (hp : DecsDecl p) (file : Option DocId) (as : List Attr) :
    YieldsD declInline (unInline p file as) := by
  refine withAttrs_D ?_ ?_
  · refine attrs_keep ?_ _ _ (by simp [declInline, declGraphicO])
    intro s l v hs
    cases s
    unfold inlineAttr
    split <;> (simp only [declInline, intAttr] at hs ⊢; exact hs)
  · intro s hs
    refine loop_D (inlineStep_good hp.good file) ?_ hs
    intro s l as d hs ho hf hd
    cases s
    simp only [declInline] at hs
    unfold inlineStep
    split <;> first
      | exact subFramePr_D (Q := declInline) (fun v hv => by
          simp only [declInline, Option.some.injEq, forall_eq']; exact ⟨hv, hs.2⟩) ho hf hd
      | exact sub_D (unGraphic_D hp file (ho.1 rfl)) (Q := declInline) (fun v hv => by
          simp only [declInline, declGraphicO]; exact ⟨hs.1, hv⟩) d hd
      | simp only [sub, skipTo, flatAttrs, declInline]; exact hs

theorem unAnchor_D (hp : DecsDecl p) (file : Option DocId) (as : List Attr) :
    YieldsD declAnchor (unAnchor p file as) := by
  refine withAttrs_D ?_ ?_
  · refine attrs_keep ?_ _ _ (by simp [declAnchor, declGraphicO])
    intro s l v hs
    cases s
    unfold anchorAttr
    split <;> (simp only [declAnchor, intAttr] at hs ⊢; exact hs)
  · intro s hs
    refine loop_D (anchorStep_good hp.good file) ?_ hs
    intro s l as d hs ho hf hd
    cases s
    simp only [declAnchor] at hs
    unfold anchorStep
    split <;> first
      | exact subFramePr_D (Q := declAnchor) (fun v hv => by
          simp only [declAnchor, Option.some.injEq, forall_eq']; exact ⟨hv, hs.2⟩) ho hf hd
      | exact sub_D (unGraphic_D hp file (ho.1 rfl)) (Q := declAnchor) (fun v hv => by
          simp only [declAnchor, declGraphicO]; exact ⟨hs.1, hv⟩) d hd
      | simp only [sub, skipTo, flat, flatAttrs, declAnchor]; exact hs

theorem unDrawing_D (hp : DecsDecl p) (file : Option DocId) :
    YieldsD declDrawing (unDrawing p file) := by
  refine loop_D (drawingStep_good hp.good file) ?_ (by simp [declDrawing, declInlineO, declAnchorO])
  intro s l as d hs _ _ hd
  rcases s with ⟨a, b⟩
  simp only [declDrawing] at hs
  unfold drawingStep
  split
  · exact sub_D (unInline_D hp file as) (Q := declDrawing) (fun v hv => by
        simp only [declDrawing, declInlineO]; exact ⟨hv, hs.2⟩) d hd
  · exact sub_D (unAnchor_D hp file as) (Q := declDrawing) (fun v hv => by
        simp only [declDrawing, declAnchorO]; exact ⟨hs.1, hv⟩) d hd
  · simp only [skipTo, declDrawing]; exact hs

theorem altN_D {parse : Run → String → List Attr → Dec → Out Parsed}
    (h : ∀ r l as d, declRun r → declStart l as d.rest → Opened d → declToks d.rest →
      declParsed (parse r l as d).val) :
    ∀ (f : Nat) (r : Run) (d : Dec), declRun r → declToks d.rest →
      declParsed (altN parse f r d).val := by
  intro f
  induction f with
  | zero => intro r d hr _; exact ⟨hr, by intro c hc; cases hc⟩
  | succ f ih =>
    intro r d hr hd
    have hn : ∀ e d, declParsed (⟨(r, none), e, d⟩ : Out Parsed).val :=
      fun e d => ⟨hr, by intro c hc; cases hc⟩
    have hnext : ∀ d' : Dec, declToks d'.rest → declParsed (match d'.skip with
      | (none, d'') => altN parse f r d''
      | (some e, d'') => (⟨(r, none), some e, d''⟩ : Out Parsed)).val := by
      intro d' hd'
      have hx := skip_sfx d'
      rcases hs : d'.skip with ⟨e, d''⟩
      rw [hs] at hx
      cases e with
      | none => exact ih r d'' hr (declToks_sfx hx hd')
      | some e => exact hn _ _
    rw [altN]
    rcases hk : d.token with ⟨t, d'⟩
    have hd' : declToks d'.rest := declToks_sfx (token_sfx' hk) hd
    cases t with
    | error e => cases e <;> exact hn _ _
    | ok t =>
      cases t with
      | start q as =>
        simp only
        split
        · rcases hk' : d'.token with ⟨t, d''⟩
          cases t with
          | error e => exact hn _ _
          | ok t =>
            cases t with
            | start q2 as2 =>
              have hf := token_fresh hk' hd'
              exact h r _ _ _ hr hf.1 hf.2.1 hf.2.2
            | _ => exact hn _ _
        · exact hnext d' hd'
      | stop q =>
        simp only
        split
        · exact hn _ _
        · exact hnext d' hd'
      | chars c => exact hnext d' hd'
      | other => exact hnext d' hd'
      | bad => exact hnext d' hd'

theorem runParse_D (hp : DecsDecl p) (file : Option DocId) (r : Run) (l : String)
    (as : List Attr) (d : Dec) (hr : declRun r) (hd : declToks d.rest) :
    declParsed (runParse p file r l as d).val := by
  have hn : declParsed (r, none) := ⟨hr, by intro c hc; cases hc⟩
  have hc : ∀ c, declRChild c → declParsed (r, some c) :=
    fun c h => ⟨hr, by intro c' hc; cases hc; exact h⟩
  unfold runParse
  split
  · refine ⟨?_, by intro c hc; cases hc⟩
    cases r; simp only [declRun, sub] at hr ⊢; exact hr
  · refine ⟨?_, by intro c hc; cases hc⟩
    cases r; simp only [declRun] at hr ⊢; exact hr
  · exact hc _ (by simp [declRChild])
  · refine subStrict_D (unDrawing_D hp file) (Q := declParsed) ?_ d hd
    intro v hv
    exact hc _ (by simp only [declRChild]; exact hv)
  · exact hc _ (by simp [declRChild])
  · exact hc _ (by simp [declRChild])
  · exact altN_D (hp.parse file) _ r d hr hd
  · exact hn

theorem runStep_D (hp : DecsDecl p) (file : Option DocId) : StepD declRun (runStep p file) := by
  intro s l as d hs _ _ hd
  have h := runParse_D hp file s l as d hs hd
  unfold runStep
  rcases hr : runParse p file s l as d with ⟨⟨r, c⟩, e, d'⟩
  rw [hr] at h
  cases e with
  | some e => exact h.1
  | none =>
    cases c with
    | none => exact h.1
    | some c =>
      have h1 := h.1
      have h2 := h.2 c rfl
      cases r
      simp only [addChild, declRun] at h1 ⊢
      exact declRChildren_append _ _ h1 h2

theorem unRun_D (hp : DecsDecl p) (file : Option DocId) {s : Run} (hs : declRun s)
    (as : List Attr) : YieldsD declRun (unRun p file s as) := by
  refine withAttrs_D (attrs_keep ?_ _ _ hs)
    (fun s hs => loop_D (runStep_good hp.good file) (runStep_D hp file) hs)
  intro s l v hs
  cases s
  unfold runAttr
  split <;> (simp only [declRun] at hs ⊢; exact hs)

theorem unLink_D (hp : DecsDecl p) : YieldsD declLink (unLink p) := by
  refine loop_D (hyperlinkStep_good hp.good) ?_ (by simp [declLink, declRun, declRChildren])
  intro s l as d hs _ _ hd
  rcases s with ⟨id, run⟩
  simp only [declLink] at hs
  unfold hyperlinkStep
  split
  · exact sub_D (unRun_D hp none hs as) (Q := declLink) (fun v hv => by
      simp only [declLink]; exact hv) d hd
  · simp only [skipTo, declLink]; exact hs

theorem unPara_D (hp : DecsDecl p) (file : Option DocId) : YieldsD declPara (unPara p file) := by
  have h : YieldsD declPara (loop (paraStep p file) { file := file }) := by
    refine loop_D (paraStep_good hp.good file) ?_ (by simp [declPara, declPChildren])
    intro s l as d hs _ _ hd
    rcases s with ⟨props, cs, f⟩
    simp only [declPara] at hs
    unfold paraStep
    split
    · exact sub_D (unLink_D hp) (Q := declPara) (fun v hv => by
        simp only [declPara]
        exact declPChildren_append _ _ hs (by
          cases v; simp only [declPChild, declLink] at hv ⊢; exact hv)) d hd
    · exact sub_D (unRun_D hp file (by simp [declRun, declRChildren]) as)
        (Q := declPara) (fun v hv => by
        simp only [declPara]
        exact declPChildren_append _ _ hs (by simp only [declPChild]; exact hv)) d hd
    · exact sub_D (any_D unRPr) (Q := declPara) (fun v hv => by
        simp only [declPara]
        exact declPChildren_append _ _ hs (by simp only [declPChild])) d hd
    · simp only [sub, declPara]; exact hs
    · simp only [skipTo, declPara]; exact hs
  intro d hd
  have h1 := h d hd
  unfold unPara
  rcases hr : loop (paraStep p file) { file := file } d with ⟨v, e, d'⟩
  rw [hr] at h1
  cases e with
  | none => exact h1
  | some e =>
    cases v
    simp only [declPara, declPChildren]

theorem decsGood_zero {k : Nat} (h : DecsGood k p) : DecsGood 0 p :=
  ⟨fun f => (h.para f).mono (Nat.zero_le _), fun f => (h.canvas f).mono (Nat.zero_le _),
    fun f r l as => (h.parse f r l as).mono (Nat.zero_le _)⟩

theorem decs_decl : ∀ k, DecsDecl (decs k)
  | 0 => {
      good := decs_good 0
      para := fun file d _ => by simp [decs, declPara, declPChildren]
      parse := fun file r l as d hr _ _ _ => ⟨hr, by intro c hc; cases hc⟩ }
  | k + 1 => {
      good := decsGood_zero (decs_good (k + 1))
      para := fun file => unPara_D (decs_decl k) file
      parse := fun file r l as d hr _ _ hd => runParse_D (decs_decl k) file r l as d hr hd }

theorem D_decl : DecsDecl D := by
  refine ⟨D_good 0, fun file d hd => ?_, fun file r l as d hr ho hf hd => ?_⟩
  · have := (decs_decl (d.rest.length + 1)).para file d hd
    simp only [D]; exact this
  · have := (decs_decl (d.rest.length + 1)).parse file r l as d hr ho hf hd
    simp only [D]; exact this

/-! ## Tables and documents -/

theorem unCell_D (hp : DecsDecl p) (file : Option DocId) :
    YieldsD (fun c : Cell => ∀ q ∈ c.paras, declPara q) (unCell p file) := by
  refine loop_D (cellStep_good hp.good file) ?_ (by simp)
  intro s l as d hs _ _ hd
  unfold cellStep
  split
  · refine sub_D (unPara_D hp file) (Q := fun c : Cell => ∀ q ∈ c.paras, declPara q) ?_ d hd
    intro v hv q hq
    rcases List.mem_append.1 hq with h | h
    · exact hs q h
    · rw [List.mem_singleton.1 h]; exact hv
  · exact hs
  · exact hs

theorem unRow_D (hp : DecsDecl p) (file : Option DocId) :
    YieldsD (fun r : Row => ∀ c ∈ r.cells, ∀ q ∈ c.paras, declPara q) (unRow p file) := by
  refine loop_D (rowStep_good hp.good file) ?_ (fun _ h => by cases h)
  intro s l as d hs _ _ hd
  unfold rowStep
  split
  · exact hs
  · refine sub_D (unCell_D hp file) (Q := fun r : Row => ∀ c ∈ r.cells, ∀ q ∈ c.paras, declPara q)
      (fun v hv q hq => ?_) d hd
    rcases List.mem_append.1 hq with h | h
    · exact hs q h
    · rw [List.mem_singleton.1 h]; exact hv
  · exact hs

theorem unTable_D (hp : DecsDecl p) (file : Option DocId) :
    YieldsD (fun t => declItem (.table t)) (unTable p file) := by
  refine loop_D (tableStep_good hp.good file) ?_ (fun _ h => by cases h)
  intro s l as d hs _ _ hd
  unfold tableStep
  split
  · refine sub_D (unRow_D hp file) (Q := fun t => declItem (.table t)) ?_ d hd
    intro v hv q hq
    rcases List.mem_append.1 hq with h | h
    · exact hs q h
    · rw [List.mem_singleton.1 h]; exact hv
  · exact hs
  · exact hs
  · exact hs

theorem declBody_append {s : List BItem} {i : BItem} (hs : declBody s)
    (hi : declItem i) : declBody (s ++ [i]) := by
  intro q hq
  rcases List.mem_append.1 hq with h | h
  · exact hs q h
  · rw [List.mem_singleton.1 h]; exact hi

theorem unBody_D (hp : DecsDecl p) (file : Option DocId) {s : List BItem}
    (hs : declBody s) : YieldsD declBody (unBody p file s) := by
  refine loop_D (bodyStep_good hp.good file) ?_ hs
  intro s l as d hs _ _ hd
  unfold bodyStep
  split
  · refine sub_D (unPara_D hp file) (Q := declBody) ?_ d hd
    intro v hv
    exact declBody_append hs hv
  · refine sub_D (unTable_D hp file) (Q := declBody) ?_ d hd
    intro v hv
    exact declBody_append hs hv
  · refine sub_D (any_D unSect) (Q := declBody) ?_ d hd
    intro v _
    exact declBody_append (i := .sect v) hs trivial
  · exact hs

theorem unDocument_D (hp : DecsDecl p) (file : Option DocId) {s : List BItem}
    (hs : declBody s) : YieldsD declBody (unDocument p file s) := by
  refine loop_D (documentStep_good hp.good file) ?_ hs
  intro s l as d hs _ _ hd
  unfold documentStep
  split
  · exact sub_D (unBody_D hp file hs) (Q := declBody) (fun v hv => hv) d hd
  · exact hs

theorem rootN_D {α : Type} {P : α → Prop} {u : List Attr → Dec → Out α} (h : ∀ as, YieldsD P (u as))
    {s : α} (hs : P s) : ∀ (f : Nat) (d : Dec), declToks d.rest → P (rootN u s f d).val := by
  intro f
  induction f with
  | zero => intro d _; exact hs
  | succ f ih =>
    intro d hd
    rw [rootN]
    rcases hk : d.token with ⟨t, d'⟩
    have hd' : declToks d'.rest := declToks_sfx (token_sfx' hk) hd
    cases t with
    | error e => exact hs
    | ok t =>
      cases t with
      | start q as => exact h as d' hd'
      | _ => exact ih d' hd'

/-- What is decoded from a file whose drawings declare their prefixes does so too -/
theorem decodeDocument_D (file : Option DocId) {s : List BItem} (hs : declBody s)
    (toks : List Tok) (h : declToks toks) : declBody (decodeDocument file s toks).val := by
  rw [decodeDocument_eq]
  exact rootN_D (fun _ => decodeElement_D (unDocument_D D_decl file hs)) hs _ _ h

end Docx
