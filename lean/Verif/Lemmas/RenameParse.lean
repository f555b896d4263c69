import Verif.Lemmas.Rename
import Verif.Unmarshal

/-!
# Parsing for another address

What Parse reads depends on the address of the document only in the pointers.
-/

set_option linter.unusedSectionVars false
set_option linter.unusedSimpArgs false

namespace Docx

variable {ρ : DocId → DocId}

theorem rnParas_eq (xs : List Para) : rnParas ρ xs = xs.map (rnPara ρ) := by
  induction xs with
  | nil => rfl
  | cons x xs ih => simp only [rnParas, List.map_cons, ih]

theorem rnPChildren_eq (xs : List PChild) : rnPChildren ρ xs = xs.map (rnPChild ρ) := by
  induction xs with
  | nil => rfl
  | cons x xs ih => simp only [rnPChildren, List.map_cons, ih]

theorem rnRChildren_eq (xs : List RChild) : rnRChildren ρ xs = xs.map (rnRChild ρ) := by
  induction xs with
  | nil => rfl
  | cons x xs ih => simp only [rnRChildren, List.map_cons, ih]

theorem rnCItems_eq (xs : List CItem) : rnCItems ρ xs = xs.map (rnCItem ρ) := by
  induction xs with
  | nil => rfl
  | cons x xs ih => simp only [rnCItems, List.map_cons, ih]

theorem rnGItems_eq (xs : List GItem) : rnGItems ρ xs = xs.map (rnGItem ρ) := by
  induction xs with
  | nil => rfl
  | cons x xs ih => simp only [rnGItems, List.map_cons, ih]

/-- A decoder and the same decoder with the result replaced -/
def Eqv {α β : Type} (φ : α → β) (u : Dec → Out α) (u' : Dec → Out β) : Prop :=
  ∀ d, u' d = ⟨φ (u d).val, (u d).err, (u d).dec⟩

theorem Eqv.element {α β : Type} {φ : α → β} {u : Dec → Out α} {u' : Dec → Out β} (h : Eqv φ u u') :
    Eqv φ (decodeElement u) (decodeElement u') := by
  intro d
  simp only [decodeElement, h d.pushEOF]
  cases (u d.pushEOF).err with
  | some e => rfl
  | none =>
    simp only
    generalize (u d.pushEOF).dec.popEOF = r
    obtain ⟨b, d'⟩ := r
    cases b <;> rfl

theorem Eqv.sub {α β σ τ : Type} {φ : α → β} {ψ : σ → τ} {u : Dec → Out α} {u' : Dec → Out β}
    {k : α → σ} {k' : β → τ} (h : Eqv φ u u') (hk : ∀ v, k' (φ v) = ψ (k v)) :
    Eqv ψ (sub u k) (sub u' k') := by
  intro d
  simp only [Docx.sub, h.element d, hk]

theorem Eqv.strict {α β σ τ : Type} {φ : α → β} {ψ : σ → τ} {u : Dec → Out α} {u' : Dec → Out β}
    {k : α → σ} {k' : β → τ} (h : Eqv φ u u') (hk : ∀ v, k' (φ v) = ψ (k v)) :
    Eqv ψ (subStrict u k) (subStrict u' k') := by
  intro d
  simp only [Docx.subStrict, h.element d, hk]

theorem Eqv.same {α : Type} (u : Dec → Out α) : Eqv id u u := fun _ => rfl

theorem eqv_sub {α σ τ : Type} {ψ : σ → τ} {u : Dec → Out α} {k : α → σ} {k' : α → τ}
    (hk : ∀ v, k' v = ψ (k v)) : Eqv ψ (sub u k) (sub u k') := (Eqv.same u).sub hk

theorem eqv_strict {α σ τ : Type} {ψ : σ → τ} {u : Dec → Out α} {k : α → σ} {k' : α → τ}
    (hk : ∀ v, k' v = ψ (k v)) : Eqv ψ (subStrict u k) (subStrict u k') := (Eqv.same u).strict hk

theorem eqv_skip {σ τ : Type} {ψ : σ → τ} (s : σ) : Eqv ψ (skipTo s) (skipTo (ψ s)) := by
  intro d
  simp only [skipTo]

theorem eqv_flat {σ τ : Type} {ψ : σ → τ} {s : σ} {s' : τ} (e : Option Err) (h : s' = ψ s) :
    Eqv ψ (flat s e) (flat s' e) := by
  intro d; simp only [flat, h]

theorem eqv_flatAttrs {α σ τ : Type} {ψ : σ → τ} {f : α → String → String → α × Option Err} {init : α}
    {as : List Attr} {k : α → σ} {k' : α → τ} (hk : ∀ v, k' v = ψ (k v)) :
    Eqv ψ (flatAttrs f init as k) (flatAttrs f init as k') := by
  intro d; simp only [flatAttrs, hk]

theorem eqv_loop {σ τ : Type} {φ : σ → τ} {step : σ → String → List Attr → Dec → Out σ}
    {step' : τ → String → List Attr → Dec → Out τ} (h : ∀ s l as, Eqv φ (step s l as) (step' (φ s) l as))
    (s : σ) : Eqv φ (loop step s) (loop step' (φ s)) := by
  intro d
  unfold loop loopC
  generalize d.rest.length + 1 = n
  induction n generalizing s d with
  | zero => rfl
  | succ n ih =>
    unfold loopN
    generalize d.token = r
    obtain ⟨r, d'⟩ := r
    cases r with
    | error e => cases e <;> rfl
    | ok t =>
      cases t with
      | start q as =>
        simp only [h s q.loc as d']
        generalize step s q.loc as d' = o
        obtain ⟨v, e, d''⟩ := o
        cases e with
        | none => exact ih v d''
        | some e => rfl
      | chars c => exact ih s d'
      | _ => exact ih s d'

theorem attrs_eqv {σ τ : Type} {φ : σ → τ} {f : σ → String → String → σ × Option Err}
    {f' : τ → String → String → τ × Option Err}
    (h : ∀ s l v, f' (φ s) l v = (φ (f s l v).1, (f s l v).2)) (s : σ) (as : List Attr) :
    attrs f' (φ s) as = (φ (attrs f s as).1, (attrs f s as).2) := by
  induction as generalizing s with
  | nil => rfl
  | cons a as ih =>
    simp only [attrs, h]
    generalize f s a.name.loc a.val = r
    obtain ⟨s', e⟩ := r
    cases e with
    | none => exact ih s'
    | some e => rfl

theorem eqv_withAttrs {σ τ : Type} {φ : σ → τ} {f : σ → String → String → σ × Option Err}
    {f' : τ → String → String → τ × Option Err} {body : σ → Dec → Out σ} {body' : τ → Dec → Out τ}
    (h : ∀ s l v, f' (φ s) l v = (φ (f s l v).1, (f s l v).2)) (hb : ∀ s, Eqv φ (body s) (body' (φ s)))
    (s : σ) (as : List Attr) : Eqv φ (withAttrs f body s as) (withAttrs f' body' (φ s) as) := by
  intro d
  simp only [withAttrs, attrs_eqv h]
  generalize attrs f s as = r
  obtain ⟨s', e⟩ := r
  cases e with
  | none => exact hb s' d
  | some e => rfl

variable [GoEnv]

/-- What a run's parser returns, with other addresses -/
def rnParsed (ρ : DocId → DocId) (x : Parsed) : Parsed := (rnRun ρ x.1, x.2.map (rnRChild ρ))

/-- The decoders called recursively do so -/
structure DecsEqv (ρ : DocId → DocId) (p : Decs) : Prop where
  para : ∀ file, Eqv (rnPara ρ) (p.para file) (p.para (file.map ρ))
  canvas : ∀ file, Eqv (rnCanvas ρ) (p.canvas file) (p.canvas (file.map ρ))
  parse : ∀ file r l as, Eqv (rnParsed ρ) (p.parse file r l as) (p.parse (file.map ρ) (rnRun ρ r) l as)

section
variable {p : Decs} (hp : DecsEqv ρ p) (file : Option DocId)
include hp

theorem eqv_content : Eqv (rnParas ρ) (loop (txbxContentStep p file) []) (loop (txbxContentStep p (file.map ρ)) []) := by
  refine eqv_loop (φ := rnParas ρ) ?_ []
  intro s l as
  unfold txbxContentStep
  split
  · exact (hp.para file).sub fun v => by simp [rnParas_eq]
  · exact eqv_skip s

theorem eqv_textBox : Eqv (rnTextBox ρ) (unTextBox p file) (unTextBox p (file.map ρ)) := by
  refine eqv_loop (φ := rnTextBox ρ) ?_ {}
  intro s l as
  unfold textBoxStep
  split
  · exact (eqv_content hp file).sub fun v => by cases s; simp [rnTextBox, rnContentO]
  · exact eqv_skip s

theorem eqv_shape : Eqv (rnShape ρ) (unShape p file) (unShape p (file.map ρ)) := by
  refine eqv_loop (φ := rnShape ρ) ?_ {}
  intro s l as
  unfold shapeStep
  split
  case h_5 => exact (eqv_textBox hp file).sub fun v => by cases s; simp [rnShape, rnTextBoxO]
  case h_7 => exact eqv_skip s
  all_goals exact eqv_sub fun v => by cases s; simp [rnShape]

theorem eqv_groupShape : Eqv (rnGroupShape ρ) (unGroupShape p file) (unGroupShape p (file.map ρ)) := by
  refine eqv_loop (φ := rnGroupShape ρ) ?_ {}
  intro s l as
  unfold groupShapeStep
  split
  case h_5 => exact (eqv_shape hp file).sub fun v => by cases s; simp [rnGroupShape, rnGItems_eq, rnGItem]
  case h_6 => exact (hp.canvas file).sub fun v => by cases s; simp [rnGroupShape, rnGItems_eq, rnGItem]
  case h_7 => exact eqv_skip s
  all_goals exact eqv_sub fun v => by cases s; simp [rnGroupShape, rnGItems_eq, rnGItem]

theorem eqv_group : Eqv (rnGroup ρ) (unGroup p file) (unGroup p (file.map ρ)) := by
  refine eqv_loop (φ := rnGroup ρ) ?_ {}
  intro s l as
  unfold groupStep
  split
  case h_4 => exact (eqv_shape hp file).sub fun v => by cases s; simp [rnGroup, rnGItems_eq, rnGItem]
  case h_5 => exact (hp.canvas file).sub fun v => by cases s; simp [rnGroup, rnGItems_eq, rnGItem]
  case h_6 => exact (eqv_groupShape hp file).sub fun v => by cases s; simp [rnGroup, rnGItems_eq, rnGItem]
  case h_7 => exact eqv_skip s
  all_goals exact eqv_sub fun v => by cases s; simp [rnGroup, rnGItems_eq, rnGItem]

theorem eqv_canvas : Eqv (rnCanvas ρ) (unCanvas p file) (unCanvas p (file.map ρ)) := by
  refine eqv_loop (φ := rnCanvas ρ) ?_ {}
  intro s l as
  unfold canvasStep
  split
  case h_3 => exact (eqv_shape hp file).sub fun v => by cases s; simp [rnCanvas, rnCItems_eq, rnCItem]
  case h_5 => exact (eqv_group hp file).sub fun v => by cases s; simp [rnCanvas, rnCItems_eq, rnCItem]
  case h_6 => exact eqv_skip s
  all_goals exact eqv_sub fun v => by cases s; simp [rnCanvas, rnCItems_eq, rnCItem]

theorem eqv_graphicData (as : List Attr) :
    Eqv (rnGraphicData ρ) (unGraphicData p file as) (unGraphicData p (file.map ρ) as) := by
  refine eqv_withAttrs (φ := rnGraphicData ρ) ?_ (fun s => eqv_loop (φ := rnGraphicData ρ) ?_ s) {} as
  · intro s l v
    unfold graphicDataAttr
    split <;> cases s <;> simp [rnGraphicData]
  · intro s l as
    unfold graphicDataStep
    split
    case h_1 => exact eqv_sub fun v => by cases s; simp [rnGraphicData]
    case h_2 => exact (eqv_shape hp file).sub fun v => by cases s; simp [rnGraphicData, rnShapeO]
    case h_3 => exact (eqv_canvas hp file).sub fun v => by cases s; simp [rnGraphicData, rnCanvasO]
    case h_4 => exact (eqv_group hp file).sub fun v => by cases s; simp [rnGraphicData, rnGroupO]
    case h_5 => exact eqv_skip s

theorem eqv_graphic (as : List Attr) :
    Eqv (rnGraphic ρ) (unGraphic p file as) (unGraphic p (file.map ρ) as) := by
  refine eqv_withAttrs (φ := rnGraphic ρ) ?_ (fun s => eqv_loop (φ := rnGraphic ρ) ?_ s) {} as
  · intro s l v
    unfold graphicAttr
    split <;> cases s <;> simp [rnGraphic]
  · intro s l as
    unfold graphicStep
    split
    · exact (eqv_graphicData hp file as).sub fun v => by
        cases s; cases v; simp [rnGraphic, rnGraphicDataO, rnGraphicData]
    · exact eqv_skip s

theorem eqv_inline (as : List Attr) :
    Eqv (rnInline ρ) (unInline p file as) (unInline p (file.map ρ) as) := by
  refine eqv_withAttrs (φ := rnInline ρ) ?_ (fun s => eqv_loop (φ := rnInline ρ) ?_ s) { file := file } as
  · intro s l v
    unfold inlineAttr
    split <;> cases s <;> simp [rnInline, intAttr]
  · intro s l as
    unfold inlineStep
    split
    case h_5 => exact (eqv_graphic hp file as).sub fun v => by cases s; simp [rnInline, rnGraphicO]
    case h_6 => exact eqv_skip s
    case h_1 => exact eqv_flatAttrs fun v => by cases s; simp [rnInline]
    case h_2 => exact eqv_flatAttrs fun v => by cases s; simp [rnInline]
    all_goals exact eqv_sub fun v => by cases s; simp [rnInline]

theorem eqv_anchor (as : List Attr) :
    Eqv (rnAnchor ρ) (unAnchor p file as) (unAnchor p (file.map ρ) as) := by
  refine eqv_withAttrs (φ := rnAnchor ρ) ?_ (fun s => eqv_loop (φ := rnAnchor ρ) ?_ s) { file := file } as
  · intro s l v
    unfold anchorAttr
    split <;> cases s <;> simp [rnAnchor, intAttr]
  · intro s l as
    unfold anchorStep
    split
    case h_10 => exact (eqv_graphic hp file as).sub fun v => by cases s; simp [rnAnchor, rnGraphicO]
    case h_11 => exact eqv_skip s
    case h_1 => exact eqv_flatAttrs fun v => by cases s; simp [rnAnchor]
    case h_6 => exact eqv_flat _ (by cases s; simp [rnAnchor])
    case h_7 => exact eqv_flat _ (by cases s; simp [rnAnchor])
    all_goals exact eqv_sub fun v => by cases s; simp [rnAnchor]

theorem eqv_drawing : Eqv (rnDrawing ρ) (unDrawing p file) (unDrawing p (file.map ρ)) := by
  refine eqv_loop (φ := rnDrawing ρ) ?_ {}
  intro s l as
  unfold drawingStep
  split
  · exact (eqv_inline hp file as).sub fun v => by cases s; simp [rnDrawing, rnInlineO]
  · exact (eqv_anchor hp file as).sub fun v => by cases s; simp [rnDrawing, rnAnchorO]
  · exact eqv_skip s

theorem eqv_alt (n : Nat) (r : Run) :
    Eqv (rnParsed ρ) (altN (p.parse file) n r) (altN (p.parse (file.map ρ)) n (rnRun ρ r)) := by
  induction n with
  | zero => intro d; rfl
  | succ n ih =>
    have next : ∀ d' : Dec, (match d'.skip with
        | (none, d'') => altN (p.parse (file.map ρ)) n (rnRun ρ r) d''
        | (some e, d'') => (⟨(rnRun ρ r, none), some e, d''⟩ : Out Parsed)) =
        ⟨rnParsed ρ (match d'.skip with
          | (none, d'') => altN (p.parse file) n r d''
          | (some e, d'') => (⟨(r, none), some e, d''⟩ : Out Parsed)).val,
        (match d'.skip with
          | (none, d'') => altN (p.parse file) n r d''
          | (some e, d'') => (⟨(r, none), some e, d''⟩ : Out Parsed)).err,
        (match d'.skip with
          | (none, d'') => altN (p.parse file) n r d''
          | (some e, d'') => (⟨(r, none), some e, d''⟩ : Out Parsed)).dec⟩ := by
      intro d'
      generalize d'.skip = r
      obtain ⟨e, d''⟩ := r
      cases e with
      | none => exact ih d''
      | some e => rfl
    intro d
    simp only [altN]
    generalize d.token = tk
    obtain ⟨tk, d'⟩ := tk
    cases tk with
    | error e => cases e <;> rfl
    | ok t =>
      cases t with
      | start q as =>
        simp only
        split
        · generalize d'.token = tk
          obtain ⟨tk, d''⟩ := tk
          cases tk with
          | error e => rfl
          | ok t =>
            cases t with
            | start q2 as2 => exact hp.parse file r q2.loc as2 d''
            | _ => rfl
        · exact next d'
      | stop q =>
        simp only
        split
        · rfl
        · exact next d'
      | _ => exact next d'

theorem eqv_parse (r : Run) (l : String) (as : List Attr) :
    Eqv (rnParsed ρ) (runParse p file r l as) (runParse p (file.map ρ) (rnRun ρ r) l as) := by
  intro d
  unfold runParse
  split
  · exact eqv_sub (ψ := rnParsed ρ) (fun v => by cases r; simp [rnRun, rnParsed]) d
  · cases r; simp [rnRun, rnParsed]
  · exact eqv_strict (ψ := rnParsed ρ) (fun v => by simp [rnRChild, rnParsed]) d
  · exact (eqv_drawing hp file).strict (ψ := rnParsed ρ) (fun v => by simp [rnRChild, rnParsed]) d
  · exact eqv_flat (ψ := rnParsed ρ) _ (by simp [rnRChild, rnParsed]) d
  · exact eqv_strict (ψ := rnParsed ρ) (fun v => by simp [rnRChild, rnParsed]) d
  · exact eqv_alt hp file _ r d
  · exact eqv_skip (ψ := rnParsed ρ) (r, none) d

theorem rnRun_addChild (v : Parsed) : addChild (rnParsed ρ v) = rnRun ρ (addChild v) := by
  obtain ⟨⟨_, _, _, cs⟩, c⟩ := v
  cases c <;> simp [addChild, rnParsed, rnRun, rnRChildren_eq]

theorem eqv_run (s : Run) (as : List Attr) :
    Eqv (rnRun ρ) (unRun p file s as) (unRun p (file.map ρ) (rnRun ρ s) as) := by
  refine eqv_withAttrs (φ := rnRun ρ) ?_ (fun s => eqv_loop (φ := rnRun ρ) ?_ s) s as
  · intro s l v
    unfold runAttr
    split <;> cases s <;> simp [rnRun]
  · intro s l as d
    simp only [runStep, eqv_parse hp file s l as d]
    generalize runParse p file s l as d = o
    obtain ⟨v, e, d'⟩ := o
    cases e with
    | none => simp only [rnRun_addChild hp]
    | some e => rfl

theorem eqv_link : Eqv (rnLink ρ) (unLink p) (unLink p) := by
  refine eqv_loop (φ := rnLink ρ) ?_ { run := {} }
  intro s l as
  unfold hyperlinkStep
  split
  · have := eqv_run hp none s.run as
    cases s
    exact this.sub fun v => by simp [rnLink]
  · exact eqv_skip s

theorem eqv_para : Eqv (rnPara ρ) (unPara p file) (unPara p (file.map ρ)) := by
  have key : Eqv (rnPara ρ) (loop (paraStep p file) { file := file })
      (loop (paraStep p (file.map ρ)) { file := file.map ρ }) := by
    refine eqv_loop (φ := rnPara ρ) ?_ { file := file }
    intro s l as
    unfold paraStep
    split
    · exact (eqv_link hp).sub fun v => by
        cases s; cases v; simp [rnPara, rnPChildren_eq, rnPChild, rnLink]
    · exact (eqv_run hp file {} as).sub fun v => by cases s; simp [rnPara, rnPChildren_eq, rnPChild]
    · exact eqv_sub fun v => by cases s; simp [rnPara, rnPChildren_eq, rnPChild]
    · exact eqv_sub fun v => by cases s; simp [rnPara]
    · exact eqv_skip s
  intro d
  simp only [unPara, key d]
  generalize loop (paraStep p file) { file := file } d = o
  obtain ⟨v, e, d'⟩ := o
  cases e with
  | none => rfl
  | some e => cases v; rfl

end

theorem decs_eqv (ρ : DocId → DocId) (k : Nat) : DecsEqv ρ (decs k) := by
  induction k with
  | zero => exact ⟨fun _ _ => rfl, fun _ _ => rfl, fun _ _ _ _ _ => rfl⟩
  | succ k ih => exact ⟨eqv_para ih, eqv_canvas ih, eqv_parse ih⟩

section
variable {p : Decs} (hp : DecsEqv ρ p) (file : Option DocId)
include hp

theorem eqv_cell : Eqv (rnCell ρ) (unCell p file) (unCell p (file.map ρ)) := by
  refine eqv_loop (φ := rnCell ρ) ?_ { file := file }
  intro s l as
  unfold cellStep
  split
  · exact (eqv_para hp file).sub fun v => by simp [rnCell]
  · exact eqv_sub fun v => by simp [rnCell]
  · exact eqv_skip s

theorem eqv_row : Eqv (rnRow ρ) (unRow p file) (unRow p (file.map ρ)) := by
  refine eqv_loop (φ := rnRow ρ) ?_ {}
  intro s l as
  unfold rowStep
  split
  · exact eqv_sub fun v => by simp [rnRow]
  · exact (eqv_cell hp file).sub fun v => by simp [rnRow]
  · exact eqv_skip s

theorem eqv_table : Eqv (rnTable ρ) (unTable p file) (unTable p (file.map ρ)) := by
  refine eqv_loop (φ := rnTable ρ) ?_ {}
  intro s l as
  unfold tableStep
  split
  · exact (eqv_row hp file).sub fun v => by simp [rnTable]
  · exact eqv_sub fun v => by simp [rnTable]
  · exact eqv_sub fun v => by simp [rnTable]
  · exact eqv_skip s

theorem eqv_body (s : List BItem) : Eqv (rnItems ρ) (unBody p file s) (unBody p (file.map ρ) (rnItems ρ s)) := by
  refine eqv_loop (φ := rnItems ρ) ?_ s
  intro s l as
  unfold bodyStep
  split
  · exact (eqv_para hp file).sub fun v => by simp [rnItems, rnItem]
  · exact (eqv_table hp file).sub fun v => by simp [rnItems, rnItem]
  · exact eqv_sub fun v => by simp [rnItems, rnItem]
  · exact eqv_skip s

theorem eqv_document (s : List BItem) :
    Eqv (rnItems ρ) (unDocument p file s) (unDocument p (file.map ρ) (rnItems ρ s)) := by
  refine eqv_loop (φ := rnItems ρ) ?_ s
  intro s l as
  unfold documentStep
  split
  · exact (eqv_body hp file s).sub fun v => rfl
  · exact eqv_skip s

end

theorem eqv_root {α β : Type} {φ : α → β} {u : List Attr → Dec → Out α} {u' : List Attr → Dec → Out β}
    (h : ∀ as, Eqv φ (u as) (u' as)) (s : α) (n : Nat) : Eqv φ (rootN u s n) (rootN u' (φ s) n) := by
  induction n with
  | zero => intro d; rfl
  | succ n ih =>
    intro d
    simp only [rootN]
    generalize d.token = r
    obtain ⟨r, d'⟩ := r
    cases r with
    | error e => rfl
    | ok t =>
      cases t with
      | start q as => exact h as d'
      | _ => exact ih d'

/-- Decoding a document for another address -/
theorem decodeDocument_rename (file : Option DocId) (s : List BItem) (toks : List Tok) :
    decodeDocument (file.map ρ) (rnItems ρ s) toks =
      ⟨rnItems ρ (decodeDocument file s toks).val, (decodeDocument file s toks).err,
        (decodeDocument file s toks).dec⟩ :=
  eqv_root (φ := rnItems ρ) (fun _ => (eqv_document (decs_eqv ρ _) file s).element) s _ _

end Docx
