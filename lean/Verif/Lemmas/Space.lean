import Verif.SpecSpace
import Verif.Lemmas.Items
import Verif.Lemmas.XmlContent
import Verif.Props.Ooxml

/-!
# Which texts of saved documents have attributes
-/

set_option linter.unusedSectionVars false

namespace Docx

/-- Every `w:t` in the list of trees has the property -/
def EachT (P : Node → Prop) (ns : List Node) : Prop := ∀ t ∈ findL "w" "t" ns, P t

theorem eachT_append {P : Node → Prop} (a b : List Node) : EachT P (a ++ b) ↔ EachT P a ∧ EachT P b := by
  simp only [EachT, findL_append, List.mem_append, or_imp, forall_and]

theorem eachT_cons {P : Node → Prop} (n : Node) (b : List Node) :
    EachT P (n :: b) ↔ (∀ t ∈ n.find "w" "t", P t) ∧ EachT P b := by
  simp only [EachT, findL, List.mem_append, or_imp, forall_and]

theorem eachT_nil {P : Node → Prop} : EachT P [] := by simp [EachT, findL]

theorem eachT_map {α : Type} {P : Node → Prop} (m : α → Node) (as : List α) :
    EachT P (as.map m) ↔ ∀ a ∈ as, ∀ t ∈ (m a).find "w" "t", P t := by
  induction as with
  | nil => simp [eachT_nil]
  | cons a as ih => simp only [List.map_cons, eachT_cons, ih, List.forall_mem_cons]

theorem find_elem {q : QName} {as : List Attr} {kids : List Node} (h : q ≠ ⟨"w", "t"⟩) :
    (Node.elem q as kids).find "w" "t" = findL "w" "t" kids := by
  simp [Node.find, h]

theorem each_elem {P : Node → Prop} {q : QName} {as : List Attr} {kids : List Node} (h : q ≠ ⟨"w", "t"⟩) :
    (∀ t ∈ (Node.elem q as kids).find "w" "t", P t) ↔ EachT P kids := by
  rw [find_elem h]; rfl

theorem find_pic (p : Picture) : (mPic p).find "w" "t" = [] := by
  rcases p with ⟨a, b, c, d⟩
  have h1 : ∀ n, (mNvPicPr n).find "w" "t" = [] := by
    intro n
    rcases n with ⟨x, l⟩
    cases l <;> rfl
  have h2 : ∀ n, (mPicFill n).find "w" "t" = [] := by
    intro n
    rcases n with ⟨x, l⟩
    rcases x with ⟨e, s, m⟩
    cases l <;> cases m <;> rfl
  have h3 : ∀ n, (mPicSpPr n).find "w" "t" = [] := by
    intro n
    rcases n with ⟨x, l⟩
    rcases x with ⟨_, _, _, _, _, c1, c2⟩
    cases c1 <;> cases c2 <;> rcases l with _ | ⟨_, b⟩ <;> try cases b
    all_goals rfl
  unfold mPic el
  rw [find_elem (by simp), findL_append, findL_append, findL_optN h1, findL_optN h2, findL_optN h3]
  rfl

/-! ## Copying keeps drawings without marks -/

section
variable {P : Node → Prop}

theorem each_graphicData (gd : GraphicData) (pic : Option Picture) :
    (∀ t ∈ (mGraphicData { gd with pic := pic }).find "w" "t", P t) ↔ ∀ t ∈ (mGraphicData gd).find "w" "t", P t := by
  rcases gd with ⟨uri, pic', shape, canvas, group⟩
  simp only [mGraphicData, el, find_elem, ne_eq, QName.mk.injEq, String.reduceEq, false_and, not_false_eq_true,
    findL_append, findL_optN find_pic, List.nil_append]

theorem each_graphicO (g : Graphic) (gd : GraphicData) (h : g.data = some gd) (pic : Option Picture) :
    EachT P (mGraphicO (some { g with data := some { gd with pic := pic } })) ↔ EachT P (mGraphicO (some g)) := by
  rcases g with ⟨a, d⟩
  simp only at h; subst h
  simp only [mGraphicO, mGraphic, mGraphicDataO, eachT_cons, eachT_nil, and_true, el]
  rw [each_elem (by simp), each_elem (by simp), eachT_cons, eachT_cons, each_graphicData]

theorem find_docPr (d : IdName) : (mDocPr d).find "w" "t" = [] := rfl

theorem each_inline {w w' : World} {to : DocId} {i i' : Inline} (h : i.copymedia w to = .ok (w', some i'))
    (hi : ∀ t ∈ (mInline i).find "w" "t", P t) : ∀ t ∈ (mInline i').find "w" "t", P t := by
  unfold Inline.copymedia at h
  split at h
  · simp at h
  · rename_i g hg
    split at h
    · simp at h
    · rename_i gd hgd
      split at h
      · obtain ⟨⟨w1, c⟩, h1, h2⟩ := Res.bind_eq_ok.1 h
        cases c with
        | none => simp [Res.pure_eq] at h2
        | some c =>
          simp only [Res.pure_eq, Res.ok.injEq, Prod.mk.injEq, Option.some.injEq] at h2
          obtain ⟨rfl, rfl⟩ := h2
          rcases i with ⟨a1, a2, a3, a4, ext, eff, doc, fr, gr, f⟩
          simp only at hg; subst hg
          simp only [mInline, el] at hi ⊢
          rw [each_elem (by simp)] at hi ⊢
          simp only [eachT_append] at hi ⊢
          refine ⟨⟨⟨hi.1.1.1, ?_⟩, hi.1.2⟩, (each_graphicO g gd hgd _).2 hi.2⟩
          intro t ht; simp [optN, findL, find_docPr] at ht
      · split at h
        · simp only [Res.ok.injEq, Prod.mk.injEq, Option.some.injEq] at h; rw [← h.2]; exact hi
        · split at h
          · simp only [Res.ok.injEq, Prod.mk.injEq, Option.some.injEq] at h; rw [← h.2]; exact hi
          · simp at h

theorem each_anchor {w w' : World} {to : DocId} {i i' : Anchor} (h : i.copymedia w to = .ok (w', some i'))
    (hi : ∀ t ∈ (mAnchor i).find "w" "t", P t) : ∀ t ∈ (mAnchor i').find "w" "t", P t := by
  unfold Anchor.copymedia at h
  split at h
  · simp at h
  · rename_i g hg
    split at h
    · simp at h
    · rename_i gd hgd
      split at h
      · obtain ⟨⟨w1, c⟩, h1, h2⟩ := Res.bind_eq_ok.1 h
        cases c with
        | none => simp [Res.pure_eq] at h2
        | some c =>
          simp only [Res.pure_eq, Res.ok.injEq, Prod.mk.injEq, Option.some.injEq] at h2
          obtain ⟨rfl, rfl⟩ := h2
          cases i
          simp only at hg; subst hg
          simp only [mAnchor, el] at hi ⊢
          rw [each_elem (by simp)] at hi ⊢
          simp only [eachT_append] at hi ⊢
          refine ⟨⟨⟨hi.1.1.1, ?_⟩, hi.1.2⟩, (each_graphicO g gd hgd _).2 hi.2⟩
          intro t ht; simp [optN, findL, find_docPr] at ht
      · split at h
        · simp only [Res.ok.injEq, Prod.mk.injEq, Option.some.injEq] at h; rw [← h.2]; exact hi
        · split at h
          · simp only [Res.ok.injEq, Prod.mk.injEq, Option.some.injEq] at h; rw [← h.2]; exact hi
          · simp at h

theorem each_drawing {w w' : World} {to : DocId} {d d' : Drawing} (h : d.copymedia w to = .ok (w', d'))
    (hd : ∀ t ∈ (mDrawing d).find "w" "t", P t) : ∀ t ∈ (mDrawing d').find "w" "t", P t := by
  rcases d with ⟨inl, anchor⟩
  simp only [mDrawing, el] at hd
  rw [each_elem (by simp), eachT_append] at hd
  unfold Drawing.copymedia at h
  simp only at h
  split at h
  · rename_i i
    obtain ⟨⟨w1, i'⟩, h1, h2⟩ := Res.bind_eq_ok.1 h
    simp only [Res.pure_eq, Res.ok.injEq, Prod.mk.injEq] at h2
    obtain ⟨rfl, rfl⟩ := h2
    simp only [mDrawing, el]
    rw [each_elem (by simp), eachT_append]
    cases i' with
    | none => exact ⟨eachT_nil, eachT_nil⟩
    | some i' => exact ⟨(eachT_cons _ _).2 ⟨each_inline h1 ((eachT_cons _ _).1 hd.1).1, eachT_nil⟩, eachT_nil⟩
  · split at h
    · rename_i i
      obtain ⟨⟨w1, i'⟩, h1, h2⟩ := Res.bind_eq_ok.1 h
      simp only [Res.pure_eq, Res.ok.injEq, Prod.mk.injEq] at h2
      obtain ⟨rfl, rfl⟩ := h2
      simp only [mDrawing, el]
      rw [each_elem (by simp), eachT_append]
      cases i' with
      | none => exact ⟨eachT_nil, eachT_nil⟩
      | some i' => exact ⟨eachT_nil, (eachT_cons _ _).2 ⟨each_anchor h1 ((eachT_cons _ _).1 hd.2).1, eachT_nil⟩⟩
    · simp only [Res.ok.injEq, Prod.mk.injEq] at h
      rw [← h.2]
      intro t ht
      simp [mDrawing, el, Node.find, findL, mInlineO, mAnchorO] at ht

end

/-! ## Paragraphs and histories -/

section
variable {P : Node → Prop}

theorem mPChildren_map : ∀ cs : List PChild, mPChildren cs = cs.map mPChild
  | [] => rfl
  | c :: cs => by rw [mPChildren, mPChildren_map cs]; rfl

theorem each_para (p : Para) : (∀ t ∈ (mPara p).find "w" "t", P t) ↔
    EachT P (optN mPPr p.props) ∧ ∀ c ∈ p.children, ∀ t ∈ (mPChild c).find "w" "t", P t := by
  rcases p with ⟨props, cs, f⟩
  simp only [mPara, el]
  rw [each_elem (by simp), eachT_append, mPChildren_map, eachT_map]

theorem each_run (r : Run) : (∀ t ∈ (mRun r).find "w" "t", P t) ↔
    EachT P (optN mRPr r.rpr) ∧ ∀ c ∈ r.children, ∀ t ∈ (mRChild c).find "w" "t", P t := by
  rcases r with ⟨space, rpr, instr, cs⟩
  simp only [mRun, el]
  rw [each_elem (by simp), eachT_append, eachT_append, mRChildren_map, eachT_map]
  have : EachT P (if instr = "" then [] else [Node.elem ⟨"w", "instrText"⟩ [] [.text instr]]) := by
    split
    · exact eachT_nil
    · exact (eachT_cons _ _).2 ⟨by intro t ht; simp [Node.find, findL] at ht, eachT_nil⟩
  simp only [this, and_true]

theorem each_link (h : Hyperlink) : (∀ t ∈ (mLink h).find "w" "t", P t) ↔ ∀ t ∈ (mRun h.run).find "w" "t", P t := by
  rcases h with ⟨id, r⟩
  simp only [mLink, el]
  rw [each_elem (by simp), eachT_cons]
  simp only [eachT_nil, and_true]

theorem each_copied {to : DocId} {p p' : Para}
    (h : ParaCopied (drawRules fun d => ∀ t ∈ (mDrawing d).find "w" "t", P t) to p p')
    (hp : ∀ t ∈ (mPara p).find "w" "t", P t) : ∀ t ∈ (mPara p').find "w" "t", P t := by
  obtain ⟨h1, _, h2⟩ := h
  rw [each_para] at *
  refine ⟨by rw [h1]; exact hp.1, ?_⟩
  replace hp := hp.2
  have hrun : ∀ {r r' : Run}, RunCopied (drawRules fun d => ∀ t ∈ (mDrawing d).find "w" "t", P t) r r' →
      (∀ t ∈ (mRun r).find "w" "t", P t) → ∀ t ∈ (mRun r').find "w" "t", P t := by
    intro r r' hr ht
    rw [each_run] at *
    obtain ⟨_, e, _, hc⟩ := hr
    refine ⟨by rw [e]; exact ht.1, ?_⟩
    refine each_all (fun a b hab ha => ?_) hc ht.2
    cases a with
    | drawing x =>
      obtain ⟨x', rfl, hx⟩ := hab
      simp only [mRChild] at ha ⊢
      exact hx ha
    | text t => cases hab; exact ha
    | tab t => cases hab; exact ha
    | br t => cases hab; exact ha
  generalize p.children = cs at *
  generalize p'.children = cs' at *
  induction h2 with
  | nil => intro c hc; simp at hc
  | run hr _ ih =>
    intro c hc
    rcases List.mem_cons.1 hc with rfl | hc
    · exact hrun hr (hp (.run _) (by simp))
    · exact ih (fun c hc => hp c (by simp [hc])) c hc
  | link _ hr _ ih =>
    intro c hc
    rcases List.mem_cons.1 hc with rfl | hc
    · have := hp (.link _) (List.mem_cons_self ..)
      simp only [mPChild] at this ⊢
      rw [each_link] at this ⊢
      exact hrun hr this
    · exact ih (fun c hc => hp c (by simp [hc])) c hc
  | dropped _ _ ih => exact ih (fun c hc => hp c (by simp [hc]))
  | rpr _ ih =>
    intro c hc
    rcases List.mem_cons.1 hc with rfl | hc
    · exact hp _ (List.mem_cons_self ..)
    · exact ih (fun c hc => hp c (by simp [hc])) c hc

theorem each_addChild {p : Para} {c : PChild} (h : ∀ t ∈ (mPara p).find "w" "t", P t)
    (hc : ∀ t ∈ (mPChild c).find "w" "t", P t) :
    ∀ t ∈ (mPara { p with children := p.children ++ [c] }).find "w" "t", P t := by
  rw [each_para] at *
  refine ⟨h.1, fun x hx => ?_⟩
  rcases List.mem_append.1 hx with hx | hx
  · exact h.2 x hx
  · simp only [List.mem_cons, List.not_mem_nil, or_false] at hx; subst hx; exact hc

theorem adds_find {p p' : Para} {n : Node} (h : AddsKid "p" (mPara p) (mPara p') n) :
    (mPara p').find "w" "t" = (mPara p).find "w" "t" ++ n.find "w" "t" := by
  obtain ⟨kids, e1, e2⟩ := h
  rw [e1, e2, wEl, wEl, find_elem (by simp), find_elem (by simp), findL_append]
  simp [findL]

end

/-- The texts `AddText` writes -/
theorem find_textXml : ∀ (cs acc : List Char), findL "w" "t" (textXml acc cs) =
    ((textPieces acc cs).filter (· ≠ [])).map fun x => wEl "t" [] [.text (String.ofList x)]
  | [], acc => by
    simp only [textXml, textPieces, textXml.flushXml]
    by_cases h : acc = []
    · subst h; rfl
    · simp [h, findL, Node.find, wEl]
  | c :: cs, acc => by
    have hf : findL "w" "t" (textXml.flushXml acc) =
        ([acc.reverse].filter (· ≠ [])).map fun x => wEl "t" [] [.text (String.ofList x)] := by
      simp only [textXml.flushXml]
      by_cases h : acc = []
      · subst h; rfl
      · simp [h, findL, Node.find, wEl]
    rw [textXml, textPieces]
    by_cases h1 : c = '\t'
    · rw [if_pos h1, if_pos (.inl h1), findL_append, hf, findL, find_textXml cs []]
      have : (wEl "tab" []).find "w" "t" = [] := rfl
      rw [this, List.nil_append, ← List.map_append, ← List.filter_append]
      rfl
    · rw [if_neg h1]
      by_cases h2 : c = '\n'
      · rw [if_pos h2, if_pos (.inr h2), findL_append, hf, findL, find_textXml cs []]
        have : (wEl "br" []).find "w" "t" = [] := rfl
        rw [this, List.nil_append, ← List.map_append, ← List.filter_append]
        rfl
      · rw [if_neg h2, if_neg (by simp [h1, h2]), find_textXml cs (c :: acc)]

theorem find_addText (p : Para) (s : String) : (mPara (p.addText s).1).find "w" "t" =
    (mPara p).find "w" "t" ++
      ((textPieces [] s.toList).filter (· ≠ [])).map fun x => wEl "t" [] [.text (String.ofList x)] := by
  rw [adds_find (C61_text p s), ← find_textXml]
  rfl

theorem find_shape (w h : Int64) (bw prst : String) (ln : Option Line) :
    (mGraphic (mkShapeGraphic w h bw prst ln)).find "w" "t" = [] := by
  have e := findL_optN (find_line (pre := "w") (loc := "t") (by decide)) ln
  have hs : mGraphic (mkShapeGraphic w h bw prst ln) =
      .elem ⟨"a", "graphic"⟩ [⟨⟨"xmlns", "a"⟩, xmlnsDrawingMain⟩] [.elem ⟨"a", "graphicData"⟩ [⟨⟨"", "uri"⟩, xmlnsWPS⟩]
        [.elem ⟨"wps", "wsp"⟩ [] [mCNvCnPr true,
          .elem ⟨"wps", "spPr"⟩ [⟨⟨"", "bwMode"⟩, bw⟩]
            (mXfrm { ext := { cx := w, cy := h } } :: mPrstGeom { prst := prst } :: el "a" "noFill" [] [] :: optN mLine ln),
          mBodyPr {}]]] := by
    simp only [mkShapeGraphic, mGraphic, mGraphicDataO, mGraphicData, optN, mShapeO, mShape, mShapePr, mCanvasO, mGroupO,
      mTextBoxO, flagN, if_true, el, List.nil_append, List.append_nil, List.cons_append, List.append_assoc]
    rfl
  rw [hs]
  simp only [Node.find, findL, e]
  rfl

/-- Documents without marks -/
def unmarkedPred : ItemPred where
  para := fun p => Unmarked (mPara p)
  tblPr := fun _ => True
  grid := fun _ => True
  cellPr := fun _ => True

theorem unmarked_drawingRun {p : Para} {d : Drawing} (hp : Unmarked (mPara p)) (hd : (mDrawing d).find "w" "t" = []) :
    Unmarked (mPara (p.addRun (drawingRun d))) := by
  refine each_addChild (c := .run _) hp ?_
  simp only [mPChild]
  rw [each_run]
  refine ⟨?_, fun c hc => ?_⟩
  · have e : findL "w" "t" [mRPr {}] = [] := rfl
    intro t ht; simp only [drawingRun, optN, e] at ht; simp at ht
  · simp only [drawingRun, List.mem_cons, List.not_mem_nil, or_false] at hc
    subst hc
    simp [mRChild, hd]

theorem unmarked_inv : ItemInv unmarkedPred (fun _ => True) (fun d => Unmarked (mDrawing d)) where
  newPara := by
    intro file t ht
    exact absurd ht (by simp [mPara, el, optN, mPChildren, Node.find, findL])
  tblPr := fun _ _ => trivial
  grid := fun _ => trivial
  cellPr := fun _ => trivial
  text := by
    intro p s hp t ht
    rw [find_addText] at ht
    rcases List.mem_append.1 ht with ht | ht
    · exact hp t ht
    · obtain ⟨x, -, rfl⟩ := List.mem_map.1 ht
      rfl
  link := by
    intro p f s l hp
    refine each_addChild (c := .link _) hp ?_
    simp only [mPChild]
    rw [each_link, each_run]
    refine ⟨?_, fun c hc => by simp at hc⟩
    have e : findL "w" "t" [mRPr { runStyle := some "a3" }] = [] := rfl
    intro t ht; simp only [optN, e] at ht; simp at ht
  inlinePic := fun p idn id rid w h hp => unmarked_drawingRun hp rfl
  anchorPic := fun p idn id rid w h hp => unmarked_drawingRun hp rfl
  inlineShape := by
    intro p f w h name bw prst ln _ hp
    refine unmarked_drawingRun hp ?_
    simp only [mDrawing, mInlineO, mAnchorO, mInline, mGraphicO]
    have := find_shape w h bw prst ln
    generalize mGraphic (mkShapeGraphic w h bw prst ln) = g at *
    simp only [el, optN, Node.find, findL, findL_append, this]
    rfl
  anchorShape := by
    intro p f w h name bw prst ln _ hp
    refine unmarked_drawingRun hp ?_
    simp only [mDrawing, mInlineO, mAnchorO, mAnchor, mGraphicO]
    have := find_shape w h bw prst ln
    generalize mGraphic (mkShapeGraphic w h bw prst ln) = g at *
    simp only [el, optN, Node.find, findL, findL_append, this]
    rfl
  draw := each_drawing
  copy := each_copied

/-! ## Items -/

theorem findL_val {loc : String} (h : loc ≠ "t") (o : Option String) : findL "w" "t" (valN loc o) = [] := by
  cases o <;> simp [valN, findL, Node.find, el, h]
theorem findL_valO {loc : String} (h : loc ≠ "t") (o : Option String) : findL "w" "t" (valO loc o) = [] := by
  cases o <;> simp [valO, findL, Node.find, el, h]
theorem findL_valI {loc : String} (h : loc ≠ "t") (o : Option Int64) : findL "w" "t" (valI loc o) = [] := by
  cases o <;> simp [valI, findL, Node.find, el, h]
theorem find_leaf {pre loc : String} {as : List Attr} (h : loc ≠ "t") : (el pre loc as []).find "w" "t" = [] := by
  simp [el, Node.find, findL, h]

theorem find_borders {loc : String} (h : loc ≠ "t") (b : Borders) : (mBorders loc b).find "w" "t" = [] := by
  have e : ∀ l, l ≠ "t" → ∀ x, (mBorder l x).find "w" "t" = [] := fun l hl x => find_leaf hl
  unfold mBorders el
  rw [find_elem (by simp [h])]
  simp only [findL_append, findL_optN (e "top" (by decide)), findL_optN (e "left" (by decide)),
    findL_optN (e "bottom" (by decide)), findL_optN (e "right" (by decide)), findL_optN (e "insideH" (by decide)),
    findL_optN (e "insideV" (by decide)), List.append_nil]

theorem find_tblPr (x : TblPr) : (mTblPr x).find "w" "t" = [] := by
  unfold mTblPr el
  rw [find_elem (by simp)]
  simp only [findL_append, findL_optN (m := mTblpPr) (fun _ => find_leaf (by decide)), findL_val (loc := "tblStyle") (by decide),
    findL_optN (m := mWidth "tblW") (fun _ => find_leaf (by decide)), findL_val (loc := "jc") (by decide),
    findL_optN (m := mBorders "tblBorders") (find_borders (by decide)),
    findL_optN (m := mLook) (fun _ => find_leaf (by decide)), List.append_nil]

theorem find_tcPr (x : TcPr) : (mTcPr x).find "w" "t" = [] := by
  unfold mTcPr el
  rw [find_elem (by simp)]
  simp only [findL_append, findL_optN (m := mWidth "tcW") (fun _ => find_leaf (by decide)), findL_valO (loc := "vMerge") (by decide),
    findL_valI (loc := "gridSpan") (by decide), findL_optN (m := mBorders "tcBorders") (find_borders (by decide)),
    findL_optN (m := mShade) (fun _ => find_leaf (by decide)), findL_val (loc := "vAlign") (by decide), List.append_nil]

theorem find_trPr (x : TrPr) : (mTrPr x).find "w" "t" = [] := by
  unfold mTrPr
  simp only [el]
  rw [find_elem (by simp), findL_append, findL_val (by decide), findL_optN (fun _ => by simp [Node.find, findL])]
  rfl

theorem find_grid (g : List (Option Int64)) : (mGrid g).find "w" "t" = [] := by
  unfold mGrid
  simp only [el]
  rw [find_elem (by simp)]
  induction g with
  | nil => rfl
  | cons n g ih => rw [List.flatMap_cons, findL_append, ih, findL_optN (fun _ => by simp [Node.find, findL])]; rfl

theorem find_sect (x : SectPr) : (mSect x).find "w" "t" = [] := by
  unfold mSect el
  rw [find_elem (by simp)]
  simp only [findL_append, findL_optN (m := mPgSz) (fun _ => find_leaf (by decide)),
    findL_optN (m := mPgMar) (fun _ => find_leaf (by decide)), findL_optN (m := mCols) (fun _ => find_leaf (by decide)),
    findL_optN (m := mDocGrid) (fun _ => find_leaf (by decide)), List.append_nil]

section
variable {P : Node → Prop}

theorem eachT_none {α : Type} {m : α → Node} (h : ∀ a, (m a).find "w" "t" = []) (o : Option α) :
    EachT P (optN m o) := by
  unfold EachT; rw [findL_optN h]; simp

theorem each_holds {x : BItem} (h : (⟨fun p => ∀ t ∈ (mPara p).find "w" "t", P t, fun _ => True, fun _ => True,
    fun _ => True⟩ : ItemPred).Holds x) : ∀ t ∈ (mItem x).find "w" "t", P t := by
  cases x with
  | para p => exact h
  | sect s => simp [mItem, find_sect]
  | table t =>
    simp only [mItem, mTable, el]
    rw [each_elem (by simp), eachT_append, eachT_append, eachT_map]
    refine ⟨⟨eachT_none find_tblPr _, eachT_none find_grid _⟩, fun r hr => ?_⟩
    simp only [mRow, el]
    rw [each_elem (by simp), eachT_append, eachT_map]
    refine ⟨eachT_none find_trPr _, fun c hc => ?_⟩
    simp only [mCell, el]
    rw [each_elem (by simp), eachT_append, eachT_map]
    exact ⟨eachT_none find_tcPr _, fun p hp => (h.2.2 r hr c hc).2 p hp⟩

theorem each_item_holds {x : BItem} (h : ∀ t ∈ (mItem x).find "w" "t", P t) :
    (⟨fun p => ∀ t ∈ (mPara p).find "w" "t", P t, fun _ => True, fun _ => True, fun _ => True⟩ : ItemPred).Holds x := by
  cases x with
  | para p => exact h
  | sect s => trivial
  | table t =>
    refine ⟨trivial, trivial, fun r hr c hc => ⟨trivial, fun p hp => ?_⟩⟩
    simp only [mItem, mTable, el] at h
    rw [each_elem (by simp), eachT_append, eachT_append, eachT_map] at h
    have h := h.2 r hr
    simp only [mRow, el] at h
    rw [each_elem (by simp), eachT_append, eachT_map] at h
    have h := h.2 c hc
    simp only [mCell, el] at h
    rw [each_elem (by simp), eachT_append, eachT_map] at h
    exact h.2 p hp

theorem each_document (items : List BItem) : (∀ t ∈ (mDocument items).find "w" "t", P t) ↔
    ∀ x ∈ items, ∀ t ∈ (mItem x).find "w" "t", P t := by
  simp only [mDocument, el]
  rw [each_elem (by simp), eachT_cons]
  simp only [eachT_nil, and_true]
  rw [each_elem (by simp), eachT_map]

end

end Docx
