import Verif.Lemmas.Schema
import Verif.Lemmas.Items

/-!
# Tidy items stay tidy
-/

set_option linter.unusedSectionVars false

namespace Docx

theorem neat_pchildren (cs : List PChild) : NeatPChildren cs ↔ ∀ c ∈ cs, NeatPChild c := by
  induction cs with
  | nil => simp [NeatPChildren]
  | cons c cs ih => simp [NeatPChildren, ih]

theorem neat_rchildren (cs : List RChild) : NeatRChildren cs ↔ ∀ c ∈ cs, NeatRChild c := by
  induction cs with
  | nil => simp [NeatRChildren]
  | cons c cs ih => simp [NeatRChildren, ih]

theorem neat_para (p : Para) : NeatPara p ↔
    (∀ x, p.props = some x → NeatPPr x) ∧ ∀ c ∈ p.children, NeatPChild c := by
  cases p; simp only [NeatPara, neat_pchildren]

theorem neat_run (r : Run) : NeatRun r ↔
    (∀ x, r.rpr = some x → NeatRPr x) ∧ ∀ c ∈ r.children, NeatRChild c := by
  cases r; simp only [NeatRun, neat_rchildren]

theorem neat_link (h : Hyperlink) : NeatLink h ↔ NeatRun h.run := by cases h; simp only [NeatLink]

/-- A neat drawing like the ones calls make -/
def TidyDrawing (d : Drawing) : Prop := NeatDrawing d ∧ ShowsDrawing d

theorem neat_graphicO {g : Option Graphic} (h : NeatGraphicO g) :
    ∃ x gd, g = some x ∧ x.data = some gd ∧ NeatGraphicData gd := by
  cases g with
  | none => exact h.elim
  | some x =>
    rcases x with ⟨a, data⟩
    cases data with
    | none => exact h.elim
    | some gd => exact ⟨_, gd, rfl, rfl, h⟩

theorem copyPic_none {w : World} {to : DocId} {pic : Picture} (h : pic.blipFill ≠ none) :
    copyPic w to none pic = .panic := by
  unfold copyPic
  split
  · contradiction
  · rfl

theorem neat_pic_blip {gd : GraphicData} (h : NeatGraphicData gd) {p : Picture} (hp : gd.pic = some p) :
    p.blipFill ≠ none := by
  cases gd
  exact (h.1 p hp).2.1

theorem inline_copy_same {w w' : World} {to : DocId} {i : Inline} {i' : Option Inline}
    (h : i.copymedia w to = .ok (w', i')) (hn : NeatGraphicO i.graphic) (hs : Shows i.file i.graphic) :
    i' = some i := by
  obtain ⟨x, gd, hg, hd, hn⟩ := neat_graphicO hn
  unfold Inline.copymedia at h
  rw [hg] at h; simp only [hd] at h
  rcases hs x hg gd hd with ⟨hp, hf⟩ | ⟨hp, hsh⟩
  · obtain ⟨p, hp⟩ := Option.ne_none_iff_exists'.1 hp
    rw [hp] at h; simp only at h
    rw [hf, copyPic_none (neat_pic_blip hn hp)] at h
    simp [bind, Res.bind] at h
  · rw [hp] at h; simp only at h
    split at h
    · simp only [Res.ok.injEq, Prod.mk.injEq] at h; exact h.2.symm
    · split at h
      · simp only [Res.ok.injEq, Prod.mk.injEq] at h; exact h.2.symm
      · simp_all

theorem anchor_copy_same {w w' : World} {to : DocId} {i : Anchor} {i' : Option Anchor}
    (h : i.copymedia w to = .ok (w', i')) (hn : NeatGraphicO i.graphic) (hs : Shows i.file i.graphic) :
    i' = some i := by
  obtain ⟨x, gd, hg, hd, hn⟩ := neat_graphicO hn
  unfold Anchor.copymedia at h
  rw [hg] at h; simp only [hd] at h
  rcases hs x hg gd hd with ⟨hp, hf⟩ | ⟨hp, hsh⟩
  · obtain ⟨p, hp⟩ := Option.ne_none_iff_exists'.1 hp
    rw [hp] at h; simp only at h
    rw [hf, copyPic_none (neat_pic_blip hn hp)] at h
    simp [bind, Res.bind] at h
  · rw [hp] at h; simp only at h
    split at h
    · simp only [Res.ok.injEq, Prod.mk.injEq] at h; exact h.2.symm
    · split at h
      · simp only [Res.ok.injEq, Prod.mk.injEq] at h; exact h.2.symm
      · simp_all

theorem neat_inline {i : Inline} (h : NeatInline i) : NeatGraphicO i.graphic := by
  cases i; exact h.2.2

theorem neat_anchor {a : Anchor} (h : NeatAnchor a) : NeatGraphicO a.graphic := by
  cases a; exact h.2.2.2.2.2.2

/-- Copying keeps drawings tidy. -/
theorem tidy_copy {w w' : World} {to : DocId} {d d' : Drawing} (h : d.copymedia w to = .ok (w', d'))
    (hd : TidyDrawing d) : TidyDrawing d' := by
  obtain ⟨hn, hs1, hs2⟩ := hd
  rcases d with ⟨inl, anchor⟩
  obtain ⟨hn0, hn1, hn2⟩ := hn
  unfold Drawing.copymedia at h
  simp only at h
  split at h
  · rename_i i
    obtain ⟨⟨w1, i'⟩, h1, h2⟩ := Res.bind_eq_ok.1 h
    simp only [Res.pure_eq, Res.ok.injEq, Prod.mk.injEq] at h2
    obtain ⟨rfl, rfl⟩ := h2
    obtain rfl := inline_copy_same h1 (neat_inline hn1) (hs1 i rfl)
    exact ⟨⟨.inl rfl, hn1, trivial⟩, hs1, fun a ha => by cases ha⟩
  · split at h
    · rename_i i
      obtain ⟨⟨w1, i'⟩, h1, h2⟩ := Res.bind_eq_ok.1 h
      simp only [Res.pure_eq, Res.ok.injEq, Prod.mk.injEq] at h2
      obtain ⟨rfl, rfl⟩ := h2
      obtain rfl := anchor_copy_same h1 (neat_anchor hn2) (hs2 i rfl)
      exact ⟨⟨.inr rfl, trivial, hn2⟩, ⟨fun a ha => (by cases ha), hs2⟩⟩
    · simp at hn0

/-! ## Runs and paragraphs -/

/-- A tidy run -/
def TidyRun (r : Run) : Prop := NeatRun r ∧ ∀ d ∈ r.draws, ShowsDrawing d

theorem tidy_run (r : Run) : TidyRun r ↔ (∀ x, r.rpr = some x → NeatRPr x) ∧
    ∀ d ∈ r.draws, TidyDrawing d := by
  simp only [TidyRun, neat_run, TidyDrawing]
  constructor
  · rintro ⟨⟨h1, h2⟩, h3⟩
    refine ⟨h1, fun d hd => ⟨?_, h3 d hd⟩⟩
    simp only [Run.draws, List.mem_filterMap] at hd
    obtain ⟨c, hc, e⟩ := hd
    have := h2 c hc
    cases c <;> simp [RChild.drawing?] at e
    subst e; exact this
  · rintro ⟨h1, h2⟩
    refine ⟨⟨h1, fun c hc => ?_⟩, fun d hd => (h2 d hd).2⟩
    cases c with
    | drawing d => exact (h2 d (List.mem_filterMap.2 ⟨_, hc, rfl⟩)).1
    | text _ => trivial
    | tab _ => trivial
    | br _ => trivial

/-- A tidy child of a paragraph -/
def TidyChild : PChild → Prop
  | .run r => TidyRun r
  | .link h => TidyRun h.run
  | .rpr _ => False

theorem tidy_child (c : PChild) : TidyChild c ↔ NeatPChild c ∧ ∀ d ∈ c.draws, ShowsDrawing d := by
  cases c with
  | run r => simp only [TidyChild, TidyRun, NeatPChild, PChild.draws]
  | link h => simp only [TidyChild, TidyRun, NeatPChild, PChild.draws, neat_link]
  | rpr r => simp [TidyChild, NeatPChild]

theorem tidy_para (p : Para) : TidyPara p ↔
    (∀ x, p.props = some x → NeatPPr x) ∧ ∀ c ∈ p.children, TidyChild c := by
  simp only [TidyPara, neat_para, tidy_child, Para.draws, List.mem_flatMap]
  constructor
  · rintro ⟨⟨a, b⟩, c⟩
    exact ⟨a, fun x hx => ⟨b x hx, fun d hd => c d ⟨x, hx, hd⟩⟩⟩
  · rintro ⟨a, b⟩
    exact ⟨⟨a, fun c hc => (b c hc).1⟩, fun d ⟨c, hc, hd⟩ => (b c hc).2 d hd⟩

theorem tidy_addChild {p : Para} {c : PChild} (h : TidyPara p) (hc : TidyChild c) :
    TidyPara { p with children := p.children ++ [c] } := by
  rw [tidy_para] at *
  refine ⟨h.1, fun x hx => ?_⟩
  rcases List.mem_append.1 hx with hx | hx
  · exact h.2 x hx
  · simp only [List.mem_cons, List.not_mem_nil, or_false] at hx; subst hx; exact hc

theorem tidy_plainRun {r : Run} (h : r.rpr = some {}) (hd : r.draws = []) : TidyRun r := by
  rw [tidy_run]
  refine ⟨fun x hx => ?_, fun d hd' => by rw [hd] at hd'; simp at hd'⟩
  rw [h] at hx; obtain rfl := Option.some.inj hx; rfl

theorem tidy_drawingRun {d : Drawing} (h : TidyDrawing d) : TidyRun (drawingRun d) := by
  rw [tidy_run]
  refine ⟨fun x hx => by obtain rfl := Option.some.inj hx; rfl, fun e he => ?_⟩
  simp only [drawingRun, Run.draws, RChild.drawing?, List.filterMap_cons, List.filterMap_nil,
    List.mem_cons, List.not_mem_nil, or_false] at he
  subst he; exact h

theorem tidy_copied {to : DocId} {p p' : Para} (h : ParaCopied (drawRules TidyDrawing) to p p')
    (hp : TidyPara p) : TidyPara p' := by
  obtain ⟨h1, _, h2⟩ := h
  rw [tidy_para] at *
  refine ⟨by rw [h1]; exact hp.1, ?_⟩
  replace hp := hp.2
  have hrun : ∀ {r r' : Run}, RunCopied (drawRules TidyDrawing) r r' → TidyRun r → TidyRun r' := by
    intro r r' hr ht
    rw [tidy_run] at *
    exact ⟨by rw [hr.2.1]; exact ht.1, run_copied_draws hr ht.2⟩
  generalize p.children = cs at *
  generalize p'.children = cs' at *
  induction h2 with
  | nil => intro c hc; simp at hc
  | run hr _ ih =>
    intro c hc
    rcases List.mem_cons.1 hc with rfl | hc
    · exact hrun hr (hp (.run _) (by simp))
    · exact ih (fun c hc => hp c (by simp [hc])) c hc
  | link _ hr _ ih =>
    intro c hc
    rcases List.mem_cons.1 hc with rfl | hc
    · exact hrun hr (hp (.link _) (by simp))
    · exact ih (fun c hc => hp c (by simp [hc])) c hc
  | dropped _ _ ih => exact ih (fun c hc => hp c (by simp [hc]))
  | rpr _ ih => exact (hp _ (List.mem_cons_self ..)).elim

/-! ## Histories -/

/-- The parts of tidy items -/
def tidyPred : ItemPred where
  para := TidyPara
  tblPr := fun o => ∃ p, o = some p ∧ NeatTblPr p
  grid := fun g => g ≠ none
  cellPr := fun o => ∀ p, o = some p → NeatTcPr p

theorem tidy_holds (x : BItem) : tidyPred.Holds x ↔ TidyItem x := by
  cases x <;> rfl

theorem shows_pic (id : Int64) (rid : String) (w h : Int64) : Shows none (some (mkPicGraphic id rid w h)) := by
  intro x hx gd hgd
  obtain rfl := Option.some.inj hx
  obtain rfl := Option.some.inj hgd
  exact .inl ⟨by simp, rfl⟩

theorem shows_shape (w h : Int64) (bw prst : String) (ln : Option Line) :
    Shows none (some (mkShapeGraphic w h bw prst ln)) := by
  intro x hx gd hgd
  obtain rfl := Option.some.inj hx
  obtain rfl := Option.some.inj hgd
  exact .inr ⟨rfl, .inl rfl⟩

theorem neat_pic (id : Int64) (rid : String) (w h : Int64) : NeatGraphicO (some (mkPicGraphic id rid w h)) := by
  simp [mkPicGraphic, NeatGraphicO, NeatGraphic, NeatGraphicDataO, NeatGraphicData, NeatPic, NeatShapeO,
    NeatCanvasO]

theorem neat_shape (w h : Int64) (bw prst : String) {ln : Option Line} (hl : ∀ l, ln = some l → NeatLine l) :
    NeatGraphicO (some (mkShapeGraphic w h bw prst ln)) := by
  simp only [mkShapeGraphic, NeatGraphicO, NeatGraphic, NeatGraphicDataO, NeatGraphicData, NeatShapeO,
    NeatCanvasO, NeatShape, NeatTextBoxO]
  refine ⟨by simp, ⟨by simp, by simp, ?_, trivial, by simp⟩, trivial, rfl⟩
  intro s hs
  obtain rfl := Option.some.inj hs
  exact ⟨by simp [NotBoth], by simp [NotBoth], by simp [NotBoth], hl⟩

theorem tidy_inv : ItemInv tidyPred (fun ln => ∀ l, ln = some l → NeatLine l) TidyDrawing where
  newPara := by
    intro file
    exact (tidy_para _).2 ⟨fun x hx => (by cases hx), fun c hc => (by simp at hc)⟩
  tblPr := fun w b => ⟨_, rfl, by simp [mkTblPr, NeatTblPr, NotBoth]⟩
  grid := by intro g; simp [tidyPred]
  cellPr := by
    intro w p hp
    obtain rfl := Option.some.inj hp
    simp [NeatTcPr, NotBoth]
  text := by
    intro p s hp
    unfold Para.addText
    split
    · exact tidy_addChild hp (c := .run _) (tidy_plainRun rfl rfl)
    · exact tidy_addChild hp (c := .run _) (tidy_plainRun rfl (linePieces_draws _ _))
  link := by
    intro p f s l hp
    refine tidy_addChild hp (c := .link _) ((tidy_run _).2 ⟨?_, fun d hd => by simp [Run.draws] at hd⟩)
    intro x hx
    obtain rfl := Option.some.inj hx; rfl
  inlinePic := by
    intro p idn id rid w h hp
    refine tidy_addChild hp (c := .run _) (tidy_drawingRun ⟨⟨.inl rfl, ?_, trivial⟩, ?_, fun a ha => by cases ha⟩)
    · exact ⟨by simp, by simp, neat_pic _ _ _ _⟩
    · intro i hi; obtain rfl := Option.some.inj hi; exact shows_pic _ _ _ _
  anchorPic := by
    intro p idn id rid w h hp
    refine tidy_addChild hp (c := .run _) (tidy_drawingRun ⟨⟨.inr rfl, trivial, ?_⟩, fun a ha => (by cases ha), ?_⟩)
    · exact ⟨by simp, by simp, by simp, by simp, by simp, by simp, neat_pic _ _ _ _⟩
    · intro i hi; obtain rfl := Option.some.inj hi; exact shows_pic _ _ _ _
  inlineShape := by
    intro p f w h name bw prst ln hl hp
    refine tidy_addChild hp (c := .run _) (tidy_drawingRun ⟨⟨.inl rfl, ?_, trivial⟩, ?_, fun a ha => by cases ha⟩)
    · exact ⟨by simp, by simp, neat_shape _ _ _ _ hl⟩
    · intro i hi; obtain rfl := Option.some.inj hi; exact shows_shape _ _ _ _ _
  anchorShape := by
    intro p f w h name bw prst ln hl hp
    refine tidy_addChild hp (c := .run _) (tidy_drawingRun ⟨⟨.inr rfl, trivial, ?_⟩, fun a ha => (by cases ha), ?_⟩)
    · exact ⟨by simp, by simp, by simp, by simp, by simp, by simp, neat_shape _ _ _ _ hl⟩
    · intro i hi; obtain rfl := Option.some.inj hi; exact shows_shape _ _ _ _ _
  draw := tidy_copy
  copy := tidy_copied

theorem op_tidy {o : Op} (h : o.Tidy) : o.ItemsOk tidyPred (fun ln => ∀ l, ln = some l → NeatLine l) := by
  cases o <;> simp only [Op.ItemsOk] <;> simp only [Op.Tidy] at h
  case load => intro x hx; exact (tidy_holds x).2 (h x hx)
  case edit =>
    intro items hi x hx
    exact (tidy_holds x).2 (h items (fun y hy => (tidy_holds y).1 (hi y hy)) x hx)
  all_goals exact h

/-- After every history of calls with tidy data every item is tidy. -/
theorem run_tidy [ImgEnv] {os : List Op} {w : World} (ho : ∀ o ∈ os, o.Tidy) (h : run [] os = .ok w) :
    ∀ f ∈ w, ∀ x ∈ f.items, TidyItem x := by
  intro f hf x hx
  refine (tidy_holds x).1 (run_holds tidy_inv (fun o h => op_tidy (ho o h)) ?_ h f hf x hx)
  intro f hf; simp at hf

/-- Tidy items are neat when the cells are filled. -/
theorem tidy_neat {items : List BItem} (h : ∀ x ∈ items, TidyItem x) :
    NeatBody items ↔ CellsFilled items ∧ SectLast items := by
  constructor
  · rintro ⟨h1, h2⟩
    refine ⟨fun t ht r hr c hc => ?_, h2⟩
    exact ((h1 _ ht).2.2.2 r hr c hc).2.1
  · rintro ⟨h1, h2⟩
    refine ⟨fun x hx => ?_, h2⟩
    have hx' := h x hx
    cases x with
    | para p => exact hx'.1
    | sect s => trivial
    | table t =>
      obtain ⟨⟨p, e, hp⟩, hg, hr⟩ := hx'
      refine ⟨by simp [e], ?_, hg, fun r hr' c hc => ⟨(hr r hr' c hc).1, h1 t hx r hr' c hc, fun q hq =>
        ((hr r hr' c hc).2 q hq).1⟩⟩
      intro q hq
      rw [e] at hq; obtain rfl := Option.some.inj hq; exact hp

end Docx
