import Verif.SpecNs
import Verif.Lemmas.Ns
import Verif.Lemmas.Draws
import Verif.Lemmas.NsYields
import Verif.Props.Round

/-!
# C59: a saved document uses only declared name-space prefixes
-/

set_option linter.unusedSectionVars false

namespace Docx

/-! ## Drawings and paragraphs -/

theorem declRChildren_iff : ∀ cs : List RChild,
    declRChildren cs ↔ ∀ d ∈ cs.filterMap RChild.drawing?, declDrawing d
  | [] => by simp [declRChildren]
  | c :: cs => by
    simp only [declRChildren, declRChildren_iff cs]
    cases c <;> simp [declRChild, RChild.drawing?]

theorem declRun_iff (r : Run) : declRun r ↔ ∀ d ∈ r.draws, declDrawing d := by
  rcases r with ⟨a, b, c, cs⟩
  simp only [declRun, Run.draws]
  exact declRChildren_iff cs

theorem declPChildren_iff : ∀ cs : List PChild,
    declPChildren cs ↔ ∀ d ∈ cs.flatMap PChild.draws, declDrawing d
  | [] => by simp [declPChildren]
  | c :: cs => by
    simp only [declPChildren, declPChildren_iff cs, List.flatMap_cons, List.mem_append]
    have : declPChild c ↔ ∀ d ∈ c.draws, declDrawing d := by
      cases c with
      | run r => simp only [declPChild, PChild.draws]; exact declRun_iff r
      | link h => rcases h with ⟨i, r⟩; simp only [declPChild, declLink, PChild.draws]; exact declRun_iff r
      | rpr x => simp [declPChild, PChild.draws]
    rw [this]
    constructor
    · rintro ⟨h1, h2⟩ d (h | h)
      · exact h1 d h
      · exact h2 d h
    · exact fun h => ⟨fun d hd => h d (.inl hd), fun d hd => h d (.inr hd)⟩

theorem declPara_iff (p : Para) : declPara p ↔ ∀ d ∈ p.draws, declDrawing d := by
  rcases p with ⟨a, cs, f⟩
  simp only [declPara, Para.draws]
  exact declPChildren_iff cs

theorem declItem_iff (x : BItem) : declItem x ↔ ItemDraws declDrawing x := by
  cases x with
  | para p => exact declPara_iff p
  | sect s => simp [declItem, ItemDraws, BItem.draws]
  | table t =>
    simp only [declItem, ItemDraws, BItem.draws, declPara_iff]
    rw [forall_flatMap]
    refine forall_congr' fun r => forall_congr' fun _ => ?_
    simp only [Row.draws]
    rw [forall_flatMap]
    refine forall_congr' fun c => forall_congr' fun _ => ?_
    simp only [Cell.draws]
    rw [forall_flatMap]

theorem copyPic_decl {w to file pic w' c} (h : copyPic w to file pic = .ok (w', some c)) :
    c.pic.xmlPic = pic.xmlPic := by
  unfold copyPic at h
  repeat' split at h
  all_goals first
    | (simp at h; done)
    | (simp only at h
       repeat' split at h
       all_goals first
         | (simp at h; done)
         | (simp only [Res.ok.injEq, Prod.mk.injEq, Option.some.injEq] at h; rw [← h.2]))

theorem inline_decl {w to} {i : Inline} {w' i'} (h : i.copymedia w to = .ok (w', i'))
    (hi : declInline i) : declInlineO i' := by
  cases i' with
  | none => simp [declInlineO]
  | some i' =>
    rcases i with ⟨a1, a2, a3, a4, a5, a6, a7, framePr, graphic, file⟩
    unfold Inline.copymedia at h
    simp only at h
    split at h
    · simp at h
    · rename_i g
      split at h
      · simp at h
      · rename_i gd hgd
        split at h
        · rename_i pic hpic
          obtain ⟨⟨w1, c⟩, h1, h2⟩ := Res.bind_eq_ok.1 h
          cases c with
          | none => simp at h2
          | some c =>
            have := copyPic_decl h1
            simp only [Res.pure_eq, Res.ok.injEq, Prod.mk.injEq, Option.some.injEq] at h2
            rw [← h2.2]
            rcases g with ⟨xa, dat⟩
            rcases gd with ⟨u, p, sh, cv, gr⟩
            simp only at hgd hpic
            subst hgd; subst hpic
            simp only [declInlineO, declInline, declGraphicO, declGraphic, declGraphicDataO,
              declGraphicData, Option.some.injEq, forall_eq'] at hi ⊢
            rw [this]; exact hi
        · split at h
          · simp only [Res.ok.injEq, Prod.mk.injEq, Option.some.injEq] at h
            rw [← h.2]; exact hi
          · split at h
            · simp only [Res.ok.injEq, Prod.mk.injEq, Option.some.injEq] at h
              rw [← h.2]; exact hi
            · simp at h

theorem anchor_decl {w to} {i : Anchor} {w' i'} (h : i.copymedia w to = .ok (w', i'))
    (hi : declAnchor i) : declAnchorO i' := by
  cases i' with
  | none => simp [declAnchorO]
  | some i' =>
    rcases i with ⟨a1, a2, a3, a4, a5, a6, a7, a8, a9, a10, a11, a12, a13, a14, a15, a16, a17, a18,
      framePr, graphic, file⟩
    unfold Anchor.copymedia at h
    simp only at h
    split at h
    · simp at h
    · rename_i g
      split at h
      · simp at h
      · rename_i gd hgd
        split at h
        · rename_i pic hpic
          obtain ⟨⟨w1, c⟩, h1, h2⟩ := Res.bind_eq_ok.1 h
          cases c with
          | none => simp at h2
          | some c =>
            have := copyPic_decl h1
            simp only [Res.pure_eq, Res.ok.injEq, Prod.mk.injEq, Option.some.injEq] at h2
            rw [← h2.2]
            rcases g with ⟨xa, dat⟩
            rcases gd with ⟨u, p, sh, cv, gr⟩
            simp only at hgd hpic
            subst hgd; subst hpic
            simp only [declAnchorO, declAnchor, declGraphicO, declGraphic, declGraphicDataO,
              declGraphicData, Option.some.injEq, forall_eq'] at hi ⊢
            rw [this]; exact hi
        · split at h
          · simp only [Res.ok.injEq, Prod.mk.injEq, Option.some.injEq] at h
            rw [← h.2]; exact hi
          · split at h
            · simp only [Res.ok.injEq, Prod.mk.injEq, Option.some.injEq] at h
              rw [← h.2]; exact hi
            · simp at h

theorem drawing_decl {w to} {d : Drawing} {w' d'} (h : d.copymedia w to = .ok (w', d'))
    (hd : declDrawing d) : declDrawing d' := by
  rcases d with ⟨inl, anchor⟩
  simp only [declDrawing] at hd
  unfold Drawing.copymedia at h
  simp only at h
  split at h
  · obtain ⟨⟨w1, i'⟩, h1, h2⟩ := Res.bind_eq_ok.1 h
    simp only [Res.pure_eq, Res.ok.injEq, Prod.mk.injEq] at h2
    rw [← h2.2]
    simp only [declDrawing]
    exact ⟨inline_decl h1 (by simpa only [declInlineO] using hd.1), by simp [declAnchorO]⟩
  · split at h
    · obtain ⟨⟨w1, i'⟩, h1, h2⟩ := Res.bind_eq_ok.1 h
      simp only [Res.pure_eq, Res.ok.injEq, Prod.mk.injEq] at h2
      rw [← h2.2]
      simp only [declDrawing]
      exact ⟨by simp [declInlineO], anchor_decl h1 (by simpa only [declAnchorO] using hd.2)⟩
    · simp only [Res.ok.injEq, Prod.mk.injEq] at h
      rw [← h.2]; simp [declDrawing, declInlineO, declAnchorO]

theorem decl_inv : DrawInv declDrawing where
  inlinePic := by
    intro idn id rid w h
    simp [declDrawing, declInlineO, declAnchorO, declInline, mkInlinePic, mkPicGraphic, declGraphicO,
      declGraphic, declGraphicDataO, declGraphicData, declShapeO, declCanvasO, declGroupO,
      xmlnsDrawingMain, xmlnsDrawingPicture]
  anchorPic := by
    intro idn id rid w h
    simp [declDrawing, declInlineO, declAnchorO, declAnchor, mkAnchorPic, mkPicGraphic, declGraphicO,
      declGraphic, declGraphicDataO, declGraphicData, declShapeO, declCanvasO, declGroupO,
      xmlnsDrawingMain, xmlnsDrawingPicture]
  inlineShape := by
    intro p f w h name bw prst ln d hd
    simp only [Para.addInlineShape, drawingRun, Run.draws, RChild.drawing?, List.filterMap_cons,
      List.filterMap_nil, List.mem_cons, List.not_mem_nil, or_false] at hd
    subst hd
    simp [declDrawing, declInlineO, declAnchorO, declInline, mkShapeGraphic, declGraphicO,
      declGraphic, declGraphicDataO, declGraphicData, declShapeO, declCanvasO, declGroupO, declShape,
      declTextBoxO, xmlnsDrawingMain]
  anchorShape := by
    intro p f w h name bw prst ln d hd
    simp only [Para.addAnchorShape, drawingRun, Run.draws, RChild.drawing?, List.filterMap_cons,
      List.filterMap_nil, List.mem_cons, List.not_mem_nil, or_false] at hd
    subst hd
    simp [declDrawing, declInlineO, declAnchorO, declAnchor, mkShapeGraphic, declGraphicO,
      declGraphic, declGraphicDataO, declGraphicData, declShapeO, declCanvasO, declGroupO, declShape,
      declTextBoxO, xmlnsDrawingMain]
  copy := drawing_decl

/-! ## The property -/

/-- C59, partial: a document in which every graphic, frame lock and picture carries its name-space
attribute is saved with declared prefixes only.  Missing: documents in which one does not
(`C59_group_undeclared`, `C59_root_undeclared`, `C59_empty_frame_undeclared`). -/
theorem C59_declared_partial (items : List BItem) (h : declBody items) :
    nsOk [] (mDocument items) = true := ns_mDocument items h

/-- Calls of the library: no own data of the client comes in except as arguments of the calls -/
def Op.Calls : Op → Prop
  | .load _ _ => False
  | .edit _ _ => False
  | _ => True

/-- C59 for every history of API calls, splitting and appending included: every document of it is
saved with declared prefixes only. -/
theorem C59_built [ImgEnv] (os : List Op) (w : World) (ho : ∀ o ∈ os, o.Calls)
    (h : run [] os = .ok w) : ∀ f ∈ w, nsOk [] (mDocument f.items) = true := by
  intro f hf
  refine C59_declared_partial _ fun x hx => (declItem_iff x).2 ?_
  refine run_draws decl_inv ?_ ?_ h f hf x hx
  · intro o ho'
    have := ho o ho'
    cases o <;> first | exact trivial | exact this.elim
  · intro g hg; cases hg

/-- C59, partial: the same for histories that bring in own data and change exported data, as long as
that keeps the attributes of the drawings. -/
theorem C59_history_partial [ImgEnv] (os : List Op) (w : World)
    (hload : ∀ items media, .load items media ∈ os → declBody items)
    (hedit : ∀ d g, .edit d g ∈ os → ∀ items, declBody items → declBody (g items))
    (h : run [] os = .ok w) : ∀ f ∈ w, nsOk [] (mDocument f.items) = true := by
  intro f hf
  refine C59_declared_partial _ fun x hx => (declItem_iff x).2 ?_
  refine run_draws decl_inv ?_ ?_ h f hf x hx
  · intro o ho'
    cases o with
    | load items media => exact fun x hx => (declItem_iff x).1 (hload _ _ ho' x hx)
    | edit d g =>
      intro items hi x hx
      exact (declItem_iff x).1 (hedit d g ho' items (fun y hy => (declItem_iff y).2 (hi y hy)) x hx)
    | _ => exact trivial
  · intro g hg; cases hg

/-- C59, partial: a file whose drawings declare their prefixes in the usual places (`declToks`) is
saved with declared prefixes only after parsing, also if parsing stops with an error.  Missing: files
with groups, with prefixes declared further out, and with empty `wp:cNvGraphicFramePr`, for which it
is false. -/
theorem C59_parsed_partial [GoEnv] (file : Option DocId) (toks : List Tok) (h : declToks toks) :
    nsOk [] (mDocument (decodeDocument file [] toks).val) = true :=
  C59_declared_partial _ (decodeDocument_D file (fun _ h => by cases h) toks h)

/-- A paragraph with a group of drawings that holds a picture, with all attributes it can have -/
def groupPicDoc : List BItem :=
  let g : Group := { elems := [.pic { xmlPic := xmlnsDrawingPicture }] }
  let i : Inline := { graphic := some { xmlA := xmlnsDrawingMain, data := some { uri := "g", group := some g } } }
  [.para { children := [.run { children := [.drawing { inl := some i }] }], file := some 0 }]

section
local instance nsGoEnv : GoEnv := ⟨fun _ => none, fun _ => false, fun _ => false⟩

/-- C59 is false of a parsed document with a picture in a group: the file uses declared prefixes
only, it is read without an error, and saving what was read uses an undeclared prefix. -/
theorem C59_group_undeclared : nsOk [] (mDocument groupPicDoc) = true ∧
    (roundTrip (some 0) groupPicDoc).err = none ∧
    nsOk [] (mDocument (roundTrip (some 0) groupPicDoc).val) = false := by
  decide +kernel

/-- A document, as other programs may write it, that declares the prefix `a` at its root only -/
def rootDeclared : Node :=
  .elem ⟨"w", "document"⟩ [⟨⟨"xmlns", "w"⟩, "w-uri"⟩, ⟨⟨"xmlns", "wp"⟩, "wp-uri"⟩,
      ⟨⟨"xmlns", "a"⟩, xmlnsDrawingMain⟩]
    [.elem ⟨"w", "body"⟩ [] [.elem ⟨"w", "p"⟩ [] [.elem ⟨"w", "r"⟩ [] [.elem ⟨"w", "drawing"⟩ []
      [.elem ⟨"wp", "inline"⟩ [] [.elem ⟨"a", "graphic"⟩ []
        [.elem ⟨"a", "graphicData"⟩ [⟨⟨"", "uri"⟩, "g"⟩] []]]]]]]]

/-- C59 is false of a parsed document whose root declares the prefix of the drawings. -/
theorem C59_root_undeclared : nsOk [] rootDeclared = true ∧
    (decodeDocument (some 0) [] (partToks rootDeclared)).err = none ∧
    nsOk [] (mDocument (decodeDocument (some 0) [] (partToks rootDeclared)).val) = false := by
  decide +kernel

/-- An inline drawing as Word writes it for shapes: `wp:cNvGraphicFramePr` is empty -/
def emptyFrame : Node :=
  .elem ⟨"w", "document"⟩ [⟨⟨"xmlns", "w"⟩, "w-uri"⟩, ⟨⟨"xmlns", "wp"⟩, "wp-uri"⟩]
    [.elem ⟨"w", "body"⟩ [] [.elem ⟨"w", "p"⟩ [] [.elem ⟨"w", "r"⟩ [] [.elem ⟨"w", "drawing"⟩ []
      [.elem ⟨"wp", "inline"⟩ [] [.elem ⟨"wp", "cNvGraphicFramePr"⟩ [] [],
        .elem ⟨"a", "graphic"⟩ [⟨⟨"xmlns", "a"⟩, xmlnsDrawingMain⟩]
          [.elem ⟨"a", "graphicData"⟩ [⟨⟨"", "uri"⟩, "g"⟩] []]]]]]]]

/-- C59 is false of a parsed document with an empty `wp:cNvGraphicFramePr`: it is saved with an
`a:graphicFrameLocks` that the file did not have, and whose prefix is not declared. -/
theorem C59_empty_frame_undeclared : nsOk [] emptyFrame = true ∧
    (decodeDocument (some 0) [] (partToks emptyFrame)).err = none ∧
    nsOk [] (mDocument (decodeDocument (some 0) [] (partToks emptyFrame)).val) = false := by
  decide +kernel

end

/-- the hypothesis of `C59_parsed_partial` is met by a saved picture -/
example : declToks (partToks (mDocument [.para { children :=
    [.run (drawingRun { inl := some (mkInlinePic 1 1 "rId4" 2 3) })] }])) := by
  decide +kernel

/-- the hypotheses are met: a picture and a shape, and a copy of both -/
example : declBody [.para { children := [.run (drawingRun { inl := some (mkInlinePic 1 1 "rId4" 2 3) })] }] := by
  intro x hx
  simp only [List.mem_cons, List.not_mem_nil, or_false] at hx
  subst hx
  rw [declItem_iff]
  intro d hd
  simp [BItem.draws, Para.draws, PChild.draws, Run.draws, drawingRun, RChild.drawing?] at hd
  subst hd
  exact decl_inv.inlinePic _ _ _ _ _

section
local instance nsImgEnv : ImgEnv := ⟨fun _ => some (10, 10, "png")⟩
/-- a history with a shape, a picture, a split and an append -/
example : ∃ w, run [] [.new, .addParagraph 0, .addInlineShape 0 (.body 0) 1 2 "s" "auto" "rect" none,
    .split 0 (fun _ _ => .ok false), .append 1 0, .addInlineDrawing 0 (.body 0) [1]] = .ok w := ⟨_, rfl⟩
end

end Docx
