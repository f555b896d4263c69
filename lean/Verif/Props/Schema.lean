import Verif.SpecSchema
import Verif.Lemmas.Tidy

/-!
# C62: saved documents follow the content models of ECMA-376
-/

set_option linter.unusedSectionVars false

namespace Docx

/-- C62, exactly: a document is saved in accordance with the content models if and only if its body is
neat.  Each condition of `NeatBody` is one way to get a document that validators reject. -/
theorem C62_exact (items : List BItem) : follows (mDocument items) = true ↔ NeatBody items :=
  fo_mDocument items

/-- C62 for every history of calls, splitting and appending included: a document of it is saved in
accordance with the content models if and only if every table cell has a paragraph and the section
properties are the last item.  What is missing: these two conditions are left to the caller, and so are
paragraph styles together with other paragraph properties (`C62_style`, `C62_justification`) and
numbering (`C62_numPr`), which are edits that are not tidy. -/
theorem C62_built_partial [ImgEnv] (os : List Op) (w : World) (ho : ∀ o ∈ os, o.Tidy)
    (h : run [] os = .ok w) (f : Doc) (hf : f ∈ w) :
    follows (mDocument f.items) = true ↔ CellsFilled f.items ∧ SectLast f.items :=
  (fo_mDocument _).trans (tidy_neat (run_tidy ho h f hf))

/-! ## Calls that break the content models -/

theorem follows_false {n : Node} {P : Prop} (h : follows n = true ↔ P) (hp : ¬ P) : follows n = false := by
  cases e : follows n with
  | false => rfl
  | true => exact absurd (h.1 e) hp

/-- `NumPr` on any paragraph: the numbering and its level are saved in the wrong order. -/
theorem C62_numPr (p : Para) (numID ilvl : String) : follows (mPara (p.setNumPr numID ilvl)) = false := by
  refine follows_false (fo_mPara _) fun h => ?_
  have := ((neat_para _).1 h).1 _ rfl
  rcases this.num _ rfl with h | h <;> simp at h

/-- `Style` keeps to the content model if and only if the paragraph did, and has none of the properties
that are saved before the style. -/
theorem C62_style (p : Para) (v : String) : follows (mPara (p.setStyle v)) = true ↔
    follows (mPara p) = true ∧ ∀ x, p.props = some x → x.tabs = none ∧ x.spacing = none ∧ x.numPr = none ∧
      x.ind = none ∧ x.jc = none ∧ x.shade = none := by
  rw [fo_mPara, fo_mPara, neat_para, neat_para]
  simp only [Para.setStyle, Para.ensureProps, Option.some.injEq, forall_eq']
  rcases p with ⟨props, children, file⟩
  cases props with
  | none =>
    simp only [Option.getD_none, reduceCtorEq, false_implies, implies_true, true_and, and_true]
    exact and_iff_right ⟨by simp, rfl, by simp, by simp, by simp, by simp, by simp, by simp, by simp⟩
  | some x =>
    simp only [Option.getD_some, Option.some.injEq, forall_eq']
    constructor
    · rintro ⟨h, hc⟩
      have hs := h.style (by simp)
      exact ⟨⟨⟨h.tabs, h.kern, h.num, h.rpr, fun _ => hs, h.numPr, h.shade, h.right, h.kinsoku⟩, hc⟩, hs⟩
    · rintro ⟨⟨h, hc⟩, hs⟩
      exact ⟨⟨h.tabs, h.kern, h.num, h.rpr, fun _ => hs, h.numPr, h.shade, h.right, h.kinsoku⟩, hc⟩

/-- `Justification` keeps to the content model if and only if the paragraph did, and has none of the
properties that belong before the justification and are saved after it. -/
theorem C62_justification (p : Para) (v : String) : follows (mPara (p.justification v)) = true ↔
    follows (mPara p) = true ∧ ∀ x, p.props = some x → x.style = none ∧ x.shade = none ∧
      x.adjustRightInd = none ∧ x.snapToGrid = none ∧ x.kinsoku = none ∧ x.overflowPunct = none := by
  rw [fo_mPara, fo_mPara, neat_para, neat_para]
  simp only [Para.justification, Para.ensureProps, Option.some.injEq, forall_eq']
  rcases p with ⟨props, children, file⟩
  cases props with
  | none =>
    simp only [Option.getD_none, reduceCtorEq, false_implies, implies_true, true_and, and_true]
    exact and_iff_right ⟨by simp, rfl, by simp, by simp, by simp, by simp, by simp, by simp, by simp⟩
  | some x =>
    simp only [Option.getD_some, Option.some.injEq, forall_eq']
    have nn : ∀ {α : Type} {o : Option α} {P : Prop}, (o ≠ none → P) → ¬ P → o = none := by
      intro α o P h hp
      cases o with
      | none => rfl
      | some a => exact absurd (h (by simp)) hp
    constructor
    · rintro ⟨h, hc⟩
      have h1 : x.style = none := nn h.style (by simp)
      have h2 : x.shade = none := nn h.shade (by simp)
      have h3 : x.adjustRightInd = none := nn (fun e => h.right (.inl e)) (by simp)
      have h4 : x.snapToGrid = none := nn (fun e => h.right (.inr e)) (by simp)
      have h5 : x.kinsoku = none := nn (fun e => h.kinsoku (.inl e)) (by simp)
      have h6 : x.overflowPunct = none := nn (fun e => h.kinsoku (.inr e)) (by simp)
      refine ⟨⟨⟨h.tabs, h.kern, h.num, h.rpr, ?_, h.numPr, ?_, ?_, ?_⟩, hc⟩, h1, h2, h3, h4, h5, h6⟩
      all_goals simp [h1, h2, h3, h4, h5, h6]
    · rintro ⟨⟨h, hc⟩, h1, h2, h3, h4, h5, h6⟩
      refine ⟨⟨h.tabs, h.kern, h.num, h.rpr, ?_, h.numPr, ?_, ?_, ?_⟩, hc⟩
      all_goals simp [h1, h2, h3, h4, h5, h6]

/-- `Style` and `Justification` together, in either order, break the content model of any paragraph. -/
theorem C62_style_justification (p : Para) (v j : String) :
    follows (mPara ((p.setStyle v).justification j)) = false ∧
      follows (mPara ((p.justification j).setStyle v)) = false := by
  refine ⟨follows_false (C62_justification _ _) ?_, follows_false (C62_style _ _) ?_⟩
  · rintro ⟨-, h⟩; simpa using (h _ rfl).1
  · rintro ⟨-, h⟩; simpa using (h _ rfl).2.2.2.2.1

/-- A new table with at least one row and one column has a cell without a paragraph. -/
theorem C62_addTable (f : Doc) (d : DocId) (row col width : Int64) (colors : Option BorderColors) (f' : Doc)
    (t : Table) (c' : Option BorderColors) (hr : 0 < row.toInt) (hc : 0 < col.toInt)
    (h : f.addTable d row col width colors = .ok (f', t, c')) : follows (mDocument f'.items) = false := by
  refine follows_false (fo_mDocument _) fun hn => ?_
  unfold Doc.addTable at h
  split at h
  · simp at h
  · split at h
    · simp at h
    · simp only [Res.ok.injEq, Prod.mk.injEq] at h
      obtain ⟨rfl, rfl, -⟩ := h
      have hn := hn.1 (.table _) (List.mem_append_right _ (List.mem_singleton.2 rfl))
      have := (hn.2.2.2 _ (List.mem_replicate.2 ⟨by omega, rfl⟩) _ (List.mem_replicate.2 ⟨by omega, rfl⟩)).2.1
      simp at this

/-- The same for `AddTableTwips`. -/
theorem C62_addTableTwips (f : Doc) (d : DocId) (rows cols : List Int64) (width : Int64)
    (colors : Option BorderColors) (hr : rows ≠ []) (hc : cols ≠ []) :
    follows (mDocument (f.addTableTwips d rows cols width colors).1.items) = false := by
  refine follows_false (fo_mDocument _) fun hn => ?_
  obtain ⟨r, hr⟩ := List.exists_mem_of_ne_nil _ hr
  obtain ⟨c, hc⟩ := List.exists_mem_of_ne_nil _ hc
  have hn := hn.1 (.table _) (List.mem_append_right _ (List.mem_singleton.2 rfl))
  have := (hn.2.2.2 _ (List.mem_map.2 ⟨r, hr, rfl⟩) _ (List.mem_map.2 ⟨c, hc, rfl⟩)).2.1
  simp at this

/-- After a page size was chosen, every further item of the body breaks the content model: the section
properties must be the last. -/
theorem C62_after_page (items : List BItem) (s : SectPr) (x : BItem) (more : List BItem) :
    follows (mDocument (items ++ .sect s :: x :: more)) = false := by
  refine follows_false (fo_mDocument _) fun hn => ?_
  have := hn.2 items.length s (by simp)
  simp at this

/-- `WithA4Page` and `WithA3Page`, then `AddParagraph` -/
theorem C62_page_then_paragraph (f : Doc) (d : DocId) :
    follows (mDocument (f.withA4Page.addParagraph d).items) = false ∧
      follows (mDocument (f.withA3Page.addParagraph d).items) = false := by
  constructor
  · have := C62_after_page f.items { pgSz := some { w := 11906, h := 16838 } } (.para { file := some d }) []
    simpa [Doc.withA4Page, Doc.addParagraph] using this
  · have := C62_after_page f.items { pgSz := some { w := 16838, h := 23811 } } (.para { file := some d }) []
    simpa [Doc.withA3Page, Doc.addParagraph] using this

/-! ## Calls that keep to the content models -/

/-- Every run setter saves in accordance with the content models if and only if the run was. -/
theorem C62_run_setters (r r' : Run) (v a b c : String) (n : Int64) (t : Bool)
    (h : r.setColor v = .ok r' ∨ r.setSize v = .ok r' ∨ r.setSizeCs v = .ok r' ∨
      r.setShade a b c = .ok r' ∨ r.setSpacing n = .ok r' ∨ r.setBold = .ok r' ∨ r.setItalic = .ok r' ∨
      r.setUnderline v = .ok r' ∨ r.setHighlight v = .ok r' ∨ r.setStrike t = .ok r' ∨
      r.setFont v a b c = .ok r' ∨ r.addTab = .ok r') :
    follows (mRun r') = true ↔ follows (mRun r) = true := by
  rw [fo_mRun, fo_mRun, neat_run, neat_run]
  have key : ∀ g : RPr → RPr, (∀ p, (g p).style = p.style) → r.setProp g = .ok r' →
      (((∀ x, r'.rpr = some x → NeatRPr x) ∧ ∀ c ∈ r'.children, NeatRChild c) ↔
        ((∀ x, r.rpr = some x → NeatRPr x) ∧ ∀ c ∈ r.children, NeatRChild c)) := by
    intro g hg h
    unfold Run.setProp at h
    split at h
    · simp at h
    · rename_i p hp
      simp only [Res.ok.injEq] at h; subst h
      simp [hp, NeatRPr, hg]
  rcases h with h | h | h | h | h | h | h | h | h | h | h | h
  all_goals first
    | exact key _ (by intro p; rfl) h
    | (simp only [Run.addTab, Res.ok.injEq] at h; subst h
       simp [or_imp, forall_and, NeatRChild])

/-- `NumFont` and `NumSize` on a paragraph keep to the content models if and only if the paragraph did. -/
theorem C62_num_font_size (p : Para) (a b c d : String) :
    (follows (mPara (p.numFont a b c d)) = true ↔ follows (mPara p) = true) ∧
      (follows (mPara (p.numSize a)) = true ↔ follows (mPara p) = true) := by
  have key : ∀ g : RPr → RPr, (∀ p, (g p).style = p.style) →
      (NeatPara { p with props := some { p.ensureProps with rpr := some (g (p.ensureProps.rpr.getD {})) } } ↔
        NeatPara p) := by
    intro g hg
    rw [neat_para, neat_para]
    simp only [Para.ensureProps, Option.some.injEq, forall_eq']
    refine and_congr_left fun _ => ?_
    rcases p with ⟨props, children, file⟩
    cases props with
    | none =>
      simp only [Option.getD_none, reduceCtorEq, false_implies, implies_true, iff_true]
      refine ⟨by simp, rfl, by simp, ?_, by simp, by simp, by simp, by simp, by simp⟩
      intro r hr; obtain rfl := Option.some.inj hr
      rw [NeatRPr, hg]
    | some x =>
      simp only [Option.getD_some, Option.some.injEq, forall_eq']
      constructor
      · intro h
        refine ⟨h.tabs, h.kern, h.num, ?_, h.style, h.numPr, h.shade, h.right, h.kinsoku⟩
        intro r hr
        have := h.rpr _ rfl
        rw [NeatRPr, hg, hr] at this
        exact this
      · intro h
        refine ⟨h.tabs, h.kern, h.num, ?_, h.style, h.numPr, h.shade, h.right, h.kinsoku⟩
        intro r hr; obtain rfl := Option.some.inj hr
        rw [NeatRPr, hg]
        cases e : x.rpr with
        | none => rfl
        | some y => exact h.rpr y e
  rw [fo_mPara, fo_mPara, fo_mPara]
  exact ⟨key (fun r => { r with fonts := some ⟨a, b, c, d⟩ }) fun _ => rfl,
    key (fun r => { r with size := some a }) fun _ => rfl⟩

/-- Adding runs: `AddText`, `AddPageBreaks`, `AddTab` -/
theorem C62_text (p : Para) (s : String) :
    (follows (mPara (p.addText s).1) = true ↔ follows (mPara p) = true) ∧
      (follows (mPara p.addPageBreaks.1) = true ↔ follows (mPara p) = true) ∧
      (follows (mPara p.addTab.1) = true ↔ follows (mPara p) = true) := by
  have key : ∀ r : Run, r.rpr = some {} → r.draws = [] → (NeatPara (p.addRun r) ↔ NeatPara p) := by
    intro r h hd
    have hr : NeatRun r := (tidy_plainRun h hd).1
    rw [neat_para, neat_para]
    simp [Para.addRun, or_imp, forall_and, NeatPChild, hr]
  simp only [fo_mPara]
  refine ⟨?_, key _ rfl rfl, key _ rfl rfl⟩
  unfold Para.addText
  split
  · exact key _ rfl rfl
  · exact key _ rfl (linePieces_draws _ _)

/-! ## Examples -/

local instance schImgEnv : ImgEnv := ⟨fun _ => some (10, 10, "png")⟩

/-- A history with text, a link, a filled table, drawings, a copy of it all, and a page size at the end -/
def schOps : List Op :=
  [.new, .addParagraph 0, .addText 0 (.body 0) "a\tb", .addLink 0 (.body 0) "x" "http://x",
   .addInlineShape 0 (.body 0) 10 10 "s" "auto" "rect" (some { w := 5, noFill := true }),
   .addTable 0 1 2 100 none, .cellAddParagraph 0 1 0 0, .cellAddParagraph 0 1 0 1,
   .addText 0 (.cell 1 0 0 0) "c", .new, .append 1 0, .withA4Page 1,
   .addAnchorDrawing 0 (.body 0) [1], .addInlineDrawing 0 (.body 0) [2]]

example : ∀ o ∈ schOps, o.Tidy := by
  intro o ho
  simp only [schOps, List.mem_cons, List.not_mem_nil, or_false] at ho
  rcases ho with rfl | rfl | rfl | rfl | rfl | rfl | rfl | rfl | rfl | rfl | rfl | rfl | rfl | rfl <;>
    simp [Op.Tidy, NeatLine, NotBoth]

/-- The history ends with two documents that follow the content models. -/
example : (match run [] schOps with
    | .ok w => w.length == 2 && w.all fun f => follows (mDocument f.items)
    | _ => false) = true := by decide +kernel

/-- Without a paragraph in the second cell it does not. -/
example : (match run [] (schOps.eraseIdx 7) with
    | .ok w => w.length == 2 && w.all fun f => follows (mDocument f.items)
    | _ => false) = false := by decide +kernel

/-- A paragraph with a style follows its content model, and no longer when it is justified. -/
example : follows (mPara (({} : Para).setStyle "1")) = true ∧
    follows (mPara ((({} : Para).setStyle "1").justification "center")) = false := by decide +kernel

end Docx
