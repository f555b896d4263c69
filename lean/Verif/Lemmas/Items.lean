import Verif.Lemmas.Draws

/-!
# What every body item of a history satisfies

A property of paragraphs and of the outer parts of tables that the items made by the API have and that
the calls and copying keep holds of all items of all documents after every history whose own data has
it.
-/

set_option linter.unusedSectionVars false

namespace Docx

/-- Properties of the parts of a body item -/
structure ItemPred where
  para : Para → Prop
  tblPr : Option TblPr → Prop
  grid : Option (List (Option Int64)) → Prop
  cellPr : Option TcPr → Prop

/-- The parts of an item have the properties. -/
def ItemPred.Holds (I : ItemPred) : BItem → Prop
  | .para p => I.para p
  | .table t => I.tblPr t.props ∧ I.grid t.grid ∧
      ∀ r ∈ t.rows, ∀ c ∈ r.cells, I.cellPr c.props ∧ ∀ p ∈ c.paras, I.para p
  | .sect _ => True

/-- The API makes items with the properties; calls and copying keep them. -/
structure ItemInv (I : ItemPred) (LP : Option Line → Prop) (PD : Drawing → Prop) : Prop where
  newPara : ∀ file, I.para { file := file }
  tblPr : ∀ w b, I.tblPr (some (mkTblPr w b))
  grid : ∀ g, I.grid (some g)
  cellPr : ∀ w, I.cellPr (some { width := some w })
  text : ∀ p s, I.para p → I.para (Para.addText p s).1
  link : ∀ p f s l, I.para p → I.para (Para.addLink p f s l).2.1
  inlinePic : ∀ p idn id rid w h, I.para p →
    I.para (p.addRun (drawingRun { inl := some (mkInlinePic idn id rid w h) }))
  anchorPic : ∀ p idn id rid w h, I.para p →
    I.para (p.addRun (drawingRun { anchor := some (mkAnchorPic idn id rid w h) }))
  inlineShape : ∀ (p : Para) (f : Doc) w h name bw prst ln, LP ln → I.para p →
    I.para (p.addInlineShape f w h name bw prst ln).2.1
  anchorShape : ∀ (p : Para) (f : Doc) w h name bw prst ln, LP ln → I.para p →
    I.para (p.addAnchorShape f w h name bw prst ln).2.1
  draw : ∀ {w w' to d d'}, Drawing.copymedia w to d = .ok (w', d') → PD d → PD d'
  copy : ∀ {to p p'}, ParaCopied (drawRules PD) to p p' → I.para p → I.para p'

/-- Data that the client brings in has the properties. -/
def Op.ItemsOk (I : ItemPred) (LP : Option Line → Prop) : Op → Prop
  | .load items _ => ∀ x ∈ items, I.Holds x
  | .edit _ g => ∀ items, (∀ x ∈ items, I.Holds x) → ∀ x ∈ g items, I.Holds x
  | .addInlineShape _ _ _ _ _ _ _ ln => LP ln
  | .addAnchorShape _ _ _ _ _ _ _ ln => LP ln
  | _ => True

section
variable {I : ItemPred} {LP : Option Line → Prop} {PD : Drawing → Prop}

theorem each_all {α : Type} {R : α → α → Prop} {P : α → Prop} (hR : ∀ a b, R a b → P a → P b)
    {l l' : List α} (h : Each R l l') (hl : ∀ a ∈ l, P a) : ∀ a ∈ l', P a := by
  induction h with
  | nil => intro a ha; simp at ha
  | @cons a b as bs hab _ ih =>
    intro x hx
    rcases List.mem_cons.1 hx with rfl | hx
    · exact hR _ _ hab (hl a (by simp))
    · exact ih (fun a ha => hl a (by simp [ha])) x hx

theorem item_copied_holds (hi : ItemInv I LP PD) {to} {x x' : BItem}
    (h : ItemCopied (drawRules PD) to x x') (hx : I.Holds x) : I.Holds x' := by
  cases x with
  | para p => obtain ⟨p', rfl, h⟩ := h; exact hi.copy h hx
  | sect s => cases h; trivial
  | table t =>
    obtain ⟨t', rfl, h1, h2, h3⟩ := h
    obtain ⟨a, b, c⟩ := hx
    refine ⟨by rw [h1]; exact a, by rw [h2]; exact b, ?_⟩
    refine each_all (P := fun r => ∀ c ∈ r.cells, I.cellPr c.props ∧ ∀ p ∈ c.paras, I.para p) ?_ h3 c
    rintro r r' ⟨_, h⟩ hr
    refine each_all (P := fun c => I.cellPr c.props ∧ ∀ p ∈ c.paras, I.para p) ?_ h hr
    rintro c c' ⟨h1, _, h⟩ ⟨hc1, hc2⟩
    exact ⟨by rw [h1]; exact hc1, each_all (P := I.para) (fun _ _ => hi.copy) h hc2⟩

/-- All items of all documents have the properties. -/
def WorldHolds (I : ItemPred) (w : World) : Prop := ∀ f ∈ w, ∀ x ∈ f.items, I.Holds x

theorem worldHolds_push {w : World} (h : WorldHolds I w) {f : Doc} (hf : ∀ x ∈ f.items, I.Holds x) :
    WorldHolds I (w ++ [f]) := by
  intro g hg
  rcases List.mem_append.1 hg with hg | hg
  · exact h g hg
  · simp only [List.mem_cons, List.not_mem_nil, or_false] at hg; subst hg; exact hf

theorem worldHolds_set {w : World} (h : WorldHolds I w) {d : DocId} {f : Doc}
    (hf : ∀ x ∈ f.items, I.Holds x) : WorldHolds I (w.set d f) := by
  intro g hg
  rcases List.mem_or_eq_of_mem_set hg with hg | rfl
  · exact h g hg
  · exact hf

theorem onDoc_holds {w w' : World} {d : DocId} {act : Doc → Res Doc}
    (ha : ∀ f f', act f = .ok f' → (∀ x ∈ f.items, I.Holds x) → ∀ x ∈ f'.items, I.Holds x)
    (hw : WorldHolds I w) (h : w.onDoc d act = .ok w') : WorldHolds I w' := by
  unfold World.onDoc at h
  split at h
  · simp at h
  · rename_i f hf
    obtain ⟨f', h1, h2⟩ := Res.bind_eq_ok.1 h
    simp only [Res.ok.injEq] at h2; subst h2
    exact worldHolds_set hw (ha _ _ h1 (hw f (List.mem_of_getElem? hf)))

theorem modPara_holds {items : List BItem} {l : Loc} {p' : Para} (h : ∀ x ∈ items, I.Holds x)
    (hp : I.para p') : ∀ x ∈ modPara items l (fun _ => p'), I.Holds x := by
  cases l with
  | body i =>
    refine forall_modify h ?_
    intro x hx
    cases x with
    | para p => exact hp
    | table t => exact hx
    | sect s => exact hx
  | cell i r c j =>
    refine forall_modify h ?_
    intro x hx
    cases x with
    | para p => exact hx
    | sect s => exact hx
    | table t =>
      obtain ⟨h1, h2, h3⟩ := hx
      refine ⟨h1, h2, forall_modify h3 ?_⟩
      intro row hrow
      refine forall_modify hrow ?_
      rintro cell ⟨hc1, hc2⟩
      exact ⟨hc1, forall_modify hc2 fun _ _ => hp⟩

theorem getPara_holds {items : List BItem} {l : Loc} {p : Para} (h : ∀ x ∈ items, I.Holds x)
    (hp : getPara items l = some p) : I.para p := by
  cases l with
  | body i =>
    simp only [getPara] at hp
    split at hp
    · rename_i q hq
      simp only [Option.some.injEq] at hp; subst hp
      exact h _ (List.mem_of_getElem? hq)
    · simp at hp
  | cell i r c j =>
    simp only [getPara] at hp
    split at hp
    · rename_i t ht
      have ht := h _ (List.mem_of_getElem? ht)
      simp only [Option.bind_eq_bind, Option.bind_eq_some_iff] at hp
      obtain ⟨row, hrow, cell, hcell, hj⟩ := hp
      exact (ht.2.2 row (List.mem_of_getElem? hrow) cell (List.mem_of_getElem? hcell)).2 p
        (List.mem_of_getElem? hj)
    · simp at hp

theorem onPara_holds {w w' : World} {d : DocId} {l : Loc} {act : Doc → Para → Res (Doc × Para)}
    (ha : ∀ f p f' p', act f p = .ok (f', p') → f'.items = f.items ∧ (I.para p → I.para p'))
    (hw : WorldHolds I w) (h : w.onPara d l act = .ok w') : WorldHolds I w' := by
  obtain ⟨doc, p, fid, f, f', p', doc1, hdoc, hp, hfid, hf, hact, hd1, rfl⟩ := onPara_ok h
  obtain ⟨h1, h2⟩ := ha _ _ _ _ hact
  have hw1 : WorldHolds I (w.set fid f') :=
    worldHolds_set hw (by rw [h1]; exact hw f (List.mem_of_getElem? hf))
  refine worldHolds_set hw1 ?_
  exact modPara_holds (hw1 doc1 (List.mem_of_getElem? hd1))
    (h2 (getPara_holds (hw doc (List.mem_of_getElem? hdoc)) hp))

theorem holds_push {f : Doc} {x : BItem} (h : ∀ x ∈ f.items, I.Holds x) (hx : I.Holds x) :
    ∀ y ∈ f.items ++ [x], I.Holds y := by
  intro y hy
  rcases List.mem_append.1 hy with hy | hy
  · exact h y hy
  · simp only [List.mem_cons, List.not_mem_nil, or_false] at hy; subst hy; exact hx

theorem appendItems_holds (hi : ItemInv I LP PD)
    {xs : List BItem} {w w' : World} {to : DocId} {t : Doc} (hw : WorldHolds I w)
    (hx : ∀ x ∈ xs, I.Holds x) (ht : w[to]? = some t) (h1 : appendItems w to xs = .ok w') :
    WorldHolds I w' := by
  obtain ⟨t', copies, h2, h3, h4⟩ := appendItems_copied (draw_obeys hi.draw to) h1 ht trivial trivial
  have g := appendItems_grow h1
  intro f hf x hx'
  obtain ⟨d, hd⟩ := List.mem_iff_getElem?.1 hf
  by_cases e : d = to
  · subst e
    rw [h2] at hd; obtain rfl := Option.some.inj hd
    rw [h3] at hx'
    rcases List.mem_append.1 hx' with hx' | hx'
    · exact hw t (List.mem_of_getElem? ht) x hx'
    · exact each_all (P := I.Holds) (fun _ _ => item_copied_holds hi) h4 hx x hx'
  · rw [g.other d e] at hd
    exact hw f (List.mem_of_getElem? hd) x hx'

theorem splitFill_holds (hi : ItemInv I LP PD)
    {sep} {xs : List BItem} {w w' : World} {to : DocId} {t : Doc} {cnt left} (hw : WorldHolds I w)
    (hx : ∀ x ∈ xs, I.Holds x) (ht : w[to]? = some t)
    (h1 : splitFill sep to w cnt xs = .ok (w', left)) :
    WorldHolds I w' ∧ ∀ x ∈ left.getD [], I.Holds x := by
  obtain ⟨t', taken, copies, h2, h3, h4, h5, _⟩ :=
    splitFill_copied (draw_obeys hi.draw to) h1 ht trivial trivial
  have g := splitFill_grow h1
  refine ⟨?_, fun x hx' => hx x (by rw [h5]; simp [hx'])⟩
  intro f hf x hx'
  obtain ⟨d, hd⟩ := List.mem_iff_getElem?.1 hf
  by_cases e : d = to
  · subst e
    rw [h2] at hd; obtain rfl := Option.some.inj hd
    rw [h3] at hx'
    rcases List.mem_append.1 hx' with hx' | hx'
    · exact hw t (List.mem_of_getElem? ht) x hx'
    · exact each_all (P := I.Holds) (fun _ _ => item_copied_holds hi) h4 (fun y hy => hx y (by rw [h5]; simp [hy])) x hx'
  · rw [g.other d e] at hd
    exact hw f (List.mem_of_getElem? hd) x hx'

theorem splitLoop_holds (hi : ItemInv I LP PD)
    {sep} {f : Doc} : ∀ {n : Nat} {w : World} {docs items w' docs'}, WorldHolds I w →
    (∀ x ∈ items, I.Holds x) → splitLoop sep f n w docs items = .ok (w', docs') →
    WorldHolds I w' := by
  intro n
  induction n with
  | zero => intro w docs items w' docs' _ _ h; simp [splitLoop] at h
  | succ n ih =>
    intro w docs items w' docs' hw hx h1
    cases items with
    | nil =>
      simp only [splitLoop, Res.ok.injEq, Prod.mk.injEq] at h1
      rw [← h1.1]; exact hw
    | cons i is =>
      simp only [splitLoop] at h1
      obtain ⟨⟨w1, left⟩, h2, h3⟩ := Res.bind_eq_ok.1 h1
      simp only at h3
      have hw0 : WorldHolds I (w ++ [splitDoc f]) :=
        worldHolds_push hw (by intro x hx; simp [splitDoc] at hx)
      obtain ⟨h4, h5⟩ := splitFill_holds hi (t := splitDoc f) hw0 hx (by simp) h2
      cases left with
      | none =>
        simp only [Res.pure_eq, Res.ok.injEq, Prod.mk.injEq] at h3
        rw [← h3.1]; exact h4
      | some rest => exact ih h4 (by simpa using h5) h3

theorem step_holds [ImgEnv] (hi : ItemInv I LP PD) {w w' : World} {o : Op} (ho : o.ItemsOk I LP)
    (hw : WorldHolds I w) (h : step w o = .ok w') : WorldHolds I w' := by
  cases o with
  | new =>
    simp only [step, Res.ok.injEq] at h; subst h
    exact worldHolds_push hw (by intro x hx; simp [Doc.new] at hx)
  | load items media =>
    simp only [step, Res.ok.injEq] at h; subst h
    exact worldHolds_push hw ho
  | append f af =>
    simp only [step] at h
    split at h
    · simp at h
    · rename_i t ht
      unfold World.appendFile at h
      split at h
      · simp at h
      · rename_i a ha
        exact appendItems_holds hi hw (hw a (List.mem_of_getElem? ha)) ht h
  | split d sep =>
    simp only [step] at h
    split at h
    · rename_i w1 docs h1
      simp only [Res.ok.injEq] at h; subst h
      unfold World.splitByParagraph at h1
      split at h1
      · simp at h1
      · rename_i f hf
        exact splitLoop_holds hi hw (hw f (List.mem_of_getElem? hf)) h1
    · simp at h
    · simp at h
  | edit d g =>
    refine onDoc_holds ?_ hw h
    intro f f' h hb; simp only [Res.ok.injEq] at h; subst h
    exact ho _ hb
  | addParagraph d =>
    refine onDoc_holds ?_ hw h
    intro f f' h hb; simp only [Res.ok.injEq] at h; subst h
    exact holds_push hb (hi.newPara _)
  | cellAddParagraph d i r c =>
    refine onDoc_holds ?_ hw h
    intro f f' h hb; simp only [Res.ok.injEq] at h; subst h
    refine forall_modify hb ?_
    intro x hx
    cases x with
    | para p => exact hx
    | sect s => exact hx
    | table t =>
      obtain ⟨h1, h2, h3⟩ := hx
      refine ⟨h1, h2, forall_modify h3 ?_⟩
      intro row hrow
      refine forall_modify hrow ?_
      rintro cell ⟨hc1, hc2⟩
      refine ⟨hc1, ?_⟩
      intro p hp
      rcases List.mem_append.1 hp with hp | hp
      · exact hc2 p hp
      · simp only [List.mem_cons, List.not_mem_nil, or_false] at hp; subst hp; exact hi.newPara _
  | addTable d row col width colors =>
    refine onDoc_holds ?_ hw h
    intro f f' h hb
    unfold Doc.addTable at h
    split at h
    · rename_i heq
      simp only [Res.ok.injEq] at h; subst h
      split at heq
      · simp at heq
      · split at heq
        · simp at heq
        · simp only [Res.ok.injEq, Prod.mk.injEq] at heq
          rw [← heq.1]
          refine holds_push hb ⟨hi.tblPr _ _, hi.grid _, ?_⟩
          intro r hr c hc
          simp only [List.mem_replicate] at hr
          rw [hr.2] at hc
          simp only [List.mem_replicate] at hc
          rw [hc.2]
          exact ⟨hi.cellPr _, fun p hp => by simp at hp⟩
    · simp at h
    · simp at h
  | addTableTwips d rows cols width colors =>
    refine onDoc_holds ?_ hw h
    intro f f' h hb; simp only [Res.ok.injEq] at h; subst h
    refine holds_push hb ⟨hi.tblPr _ _, hi.grid _, ?_⟩
    intro r hr c hc
    simp only [List.mem_map] at hr
    obtain ⟨h, _, rfl⟩ := hr
    simp only [List.mem_map] at hc
    obtain ⟨h, _, rfl⟩ := hc
    exact ⟨hi.cellPr _, fun p hp => by simp at hp⟩
  | withA3Page d =>
    refine onDoc_holds ?_ hw h
    intro f f' h hb; simp only [Res.ok.injEq] at h; subst h; exact holds_push hb trivial
  | withA4Page d =>
    refine onDoc_holds ?_ hw h
    intro f f' h hb; simp only [Res.ok.injEq] at h; subst h; exact holds_push hb trivial
  | useTemplate d t l tfs =>
    refine onDoc_holds ?_ hw h
    intro f f' h hb; simp only [Res.ok.injEq] at h; subst h; exact hb
  | increaseID d name =>
    refine onDoc_holds ?_ hw h
    intro f f' h hb; simp only [Res.ok.injEq] at h; subst h; exact hb
  | addText d l text =>
    refine onPara_holds ?_ hw h
    intro f p f' p' h; simp only [Res.ok.injEq, Prod.mk.injEq] at h; rw [← h.1, ← h.2]
    exact ⟨rfl, hi.text _ _⟩
  | addLink d l text link =>
    refine onPara_holds ?_ hw h
    intro f p f' p' h; simp only [Res.ok.injEq, Prod.mk.injEq] at h; rw [← h.1, ← h.2]
    exact ⟨rfl, hi.link _ _ _ _⟩
  | addInlineDrawing d l pic =>
    refine onPara_holds ?_ hw h
    intro f p f' p' h
    unfold Para.addInlineDrawing at h
    cases hp : f.addPicture pic with
    | mk f1 r =>
      obtain ⟨h1, h2⟩ := addPicture_adds hp
      rw [hp] at h
      rcases h2 with ⟨⟨e, rfl⟩, rfl⟩ | ⟨h3, rfl | ⟨id, rid, a, b, rfl⟩⟩
      · simp only [Res.ok.injEq, Prod.mk.injEq] at h
        obtain ⟨rfl, rfl⟩ := h
        exact ⟨rfl, fun h => h⟩
      · simp at h
      · simp only [Res.ok.injEq, Prod.mk.injEq] at h
        obtain ⟨rfl, rfl⟩ := h
        exact ⟨h1, hi.inlinePic _ _ _ _ _ _⟩
  | addAnchorDrawing d l pic =>
    refine onPara_holds ?_ hw h
    intro f p f' p' h
    unfold Para.addAnchorDrawing at h
    cases hp : f.addPicture pic with
    | mk f1 r =>
      obtain ⟨h1, h2⟩ := addPicture_adds hp
      rw [hp] at h
      rcases h2 with ⟨⟨e, rfl⟩, rfl⟩ | ⟨h3, rfl | ⟨id, rid, a, b, rfl⟩⟩
      · simp only [Res.ok.injEq, Prod.mk.injEq] at h
        obtain ⟨rfl, rfl⟩ := h
        exact ⟨rfl, fun h => h⟩
      · simp at h
      · simp only [Res.ok.injEq, Prod.mk.injEq] at h
        obtain ⟨rfl, rfl⟩ := h
        exact ⟨h1, hi.anchorPic _ _ _ _ _ _⟩
  | addInlineShape d l sw sh name bw prst ln =>
    refine onPara_holds ?_ hw h
    intro f p f' p' h; simp only [Res.ok.injEq, Prod.mk.injEq] at h; rw [← h.1, ← h.2]
    exact ⟨rfl, hi.inlineShape _ _ _ _ _ _ _ _ ho⟩
  | addAnchorShape d l sw sh name bw prst ln =>
    refine onPara_holds ?_ hw h
    intro f p f' p' h; simp only [Res.ok.injEq, Prod.mk.injEq] at h; rw [← h.1, ← h.2]
    exact ⟨rfl, hi.anchorShape _ _ _ _ _ _ _ _ ho⟩

/-- After every history all items have the properties. -/
theorem run_holds [ImgEnv] (hi : ItemInv I LP PD) : ∀ {os : List Op} {w w' : World},
    (∀ o ∈ os, o.ItemsOk I LP) → WorldHolds I w → run w os = .ok w' → WorldHolds I w' := by
  intro os
  induction os with
  | nil =>
    intro w w' _ hw h
    simp only [run, Res.ok.injEq] at h; subst h
    exact hw
  | cons o os ih =>
    intro w w' ho hw h
    simp only [run] at h
    split at h
    · rename_i w1 h1
      exact ih (fun o ho' => ho o (by simp [ho'])) (step_holds hi (ho o (by simp)) hw h1) h
    · simp at h
    · simp at h

end

end Docx
