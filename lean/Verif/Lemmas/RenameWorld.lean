import Verif.Lemmas.RenameParse
import Verif.Lemmas.AliasDocs

/-!
# Calls in a world with other addresses

`Emb ρ w1 w2`: the documents of `w1` are found in `w2` at the addresses `ρ` gives, with all pointers
replaced accordingly.  Calls do the same in both worlds.
-/

set_option linter.unusedSectionVars false
set_option linter.unusedSimpArgs false

namespace Docx

variable {ρ : DocId → DocId}

/-- `w1` is embedded in `w2`. -/
structure Emb (ρ : DocId → DocId) (w1 w2 : World) : Prop where
  inj : ∀ a b, ρ a = ρ b → a = b
  same : ∀ d, w2[ρ d]? = (w1[d]?).map (rnDoc ρ)

/-- Documents at other addresses are not changed. -/
def Aside (ρ : DocId → DocId) (w w' : World) : Prop :=
  w'.length = w.length ∧ ∀ e, (∀ d, e ≠ ρ d) → w'[e]? = w[e]?

theorem Aside.refl (w : World) : Aside ρ w w := ⟨rfl, fun _ _ => rfl⟩

theorem Aside.trans {w w' w'' : World} (h : Aside ρ w w') (h' : Aside ρ w' w'') : Aside ρ w w'' :=
  ⟨h'.1.trans h.1, fun d hd => (h'.2 d hd).trans (h.2 d hd)⟩

theorem Aside.set (w : World) (d : DocId) (f : Doc) : Aside ρ w (w.set (ρ d) f) :=
  ⟨List.length_set, fun e he => by rw [List.getElem?_set_ne fun h => he d h.symm]⟩

theorem Emb.set {w1 w2 : World} (h : Emb ρ w1 w2) (d : DocId) (f : Doc) :
    Emb ρ (w1.set d f) (w2.set (ρ d) (rnDoc ρ f)) := by
  refine ⟨h.inj, fun e => ?_⟩
  have hs := h.same e
  by_cases hde : d = e
  · subst hde
    rw [List.getElem?_set, List.getElem?_set, if_pos rfl, if_pos rfl]
    by_cases hl : d < w1.length
    · rw [List.getElem?_eq_getElem hl] at hs
      obtain ⟨h', _⟩ := List.getElem?_eq_some_iff.1 hs
      rw [if_pos hl, if_pos h']; rfl
    · have hn : w1[d]? = none := List.getElem?_eq_none (Nat.le_of_not_lt hl)
      rw [hn] at hs
      have : w2.length ≤ ρ d := List.getElem?_eq_none_iff.1 hs
      rw [if_neg hl, if_neg (Nat.not_lt.2 this)]; rfl
  · rw [List.getElem?_set_ne hde, List.getElem?_set_ne fun he => hde (h.inj _ _ he)]
    exact hs

theorem Emb.file {w1 w2 : World} (h : Emb ρ w1 w2) (o : Option DocId) :
    (o.map ρ).bind (w2[·]?) = (o.bind (w1[·]?)).map (rnDoc ρ) := by
  cases o with
  | none => rfl
  | some i => exact h.same i

/-- What a computation with a result does in a world and where it is embedded -/
def Shifts (ρ : DocId → DocId) {α : Type} (φ : α → α) (w1 w2 : World) :
    Res (World × α) → Res (World × α) → Prop :=
  RelRes fun x y => y.2 = φ x.2 ∧ Emb ρ x.1 y.1 ∧ x.1.length = w1.length ∧ Aside ρ w2 y.1

theorem Shifts.ok {α : Type} {φ : α → α} {w1 w2 : World} {a b : α} (hq : b = φ a) (ha : Emb ρ w1 w2) :
    Shifts ρ φ w1 w2 (.ok (w1, a)) (.ok (w2, b)) := ⟨hq, ha, rfl, .refl _⟩

theorem Shifts.bind {α β : Type} {φ : α → α} {ψ : β → β} {w1 w2 : World} {x y : Res (World × α)}
    {f g : World × α → Res (World × β)} (h : Shifts ρ φ w1 w2 x y)
    (k : ∀ w1' w2' a, Emb ρ w1' w2' → Shifts ρ ψ w1' w2' (f (w1', a)) (g (w2', φ a))) :
    Shifts ρ ψ w1 w2 (x >>= f) (y >>= g) := by
  refine RelRes.bind h ?_
  rintro ⟨w1', a⟩ ⟨w2', b⟩ ⟨hab, hag, ho1, ho2⟩
  simp only at hab hag ho1 ho2
  subst hab
  refine RelRes.mono (k w1' w2' a hag) ?_
  rintro x y ⟨h1, h2, h3, h4⟩
  exact ⟨h1, h2, h3.trans ho1, ho2.trans h4⟩

theorem Shifts.after {α : Type} {φ : α → α} {w1 w2 w1' w2' : World} {x y : Res (World × α)}
    (h1 : w1'.length = w1.length) (h2 : Aside ρ w2 w2') (h : Shifts ρ φ w1' w2' x y) : Shifts ρ φ w1 w2 x y := by
  refine RelRes.mono h ?_
  rintro x y ⟨ha, hb, hc, hd⟩
  exact ⟨ha, hb, hc.trans h1, h2.trans hd⟩

/-! ## Copying -/

theorem copyPic_moves {w1 w2 : World} (to : DocId) (file : Option DocId) (h : Emb ρ w1 w2) (pic : Picture) :
    Shifts ρ id w1 w2 (copyPic w1 to file pic) (copyPic w2 (ρ to) (file.map ρ) pic) := by
  unfold copyPic
  cases pic.blipFill with
  | none => exact Shifts.ok rfl h
  | some bf =>
    simp only [h.file]
    cases hf : file.bind (w1[·]?) with
    | none => trivial
    | some src =>
      simp only [Option.map_some]
      show Shifts ρ id w1 w2 (match src.referTarget bf.blip.embed with | none => _ | some tgt => _)
        (match src.referTarget bf.blip.embed with | none => _ | some tgt => _)
      cases src.referTarget bf.blip.embed with
      | none => exact Shifts.ok rfl h
      | some tgt =>
        simp only [h.same to]
        cases ht : w1[to]? with
        | none => trivial
        | some t =>
          simp only [Option.map_some]
          have h2 : Emb ρ (w1.set to (t.nextDocID.1.increaseID picName).1)
              (w2.set (ρ to) ((rnDoc ρ t).nextDocID.1.increaseID picName).1) :=
            h.set to (t.nextDocID.1.increaseID picName).1
          have o2 : Aside ρ w2 (w2.set (ρ to) ((rnDoc ρ t).nextDocID.1.increaseID picName).1) := .set _ _ _
          have l2 : (w1.set to (t.nextDocID.1.increaseID picName).1).length = w1.length := List.length_set
          simp only [h2.file]
          cases file.bind ((w1.set to (t.nextDocID.1.increaseID picName).1)[·]?) with
          | none => trivial
          | some src2 =>
            simp only [Option.map_some]
            show Shifts ρ id w1 w2 (match mediaOfTarget src2 tgt with
              | .panic => _ | .err e => _ | .ok none => _ | .ok (some m) => _)
              (match mediaOfTarget src2 tgt with
              | .panic => _ | .err e => _ | .ok none => _ | .ok (some m) => _)
            cases mediaOfTarget src2 tgt with
            | panic => trivial
            | err e => exact rfl
            | ok m =>
              cases m with
              | none => exact Shifts.after l2 o2 (Shifts.ok rfl h2)
              | some m =>
                simp only
                cases pic.nvPicPr with
                | none => trivial
                | some nv =>
                  refine ⟨rfl, h2.set to _, ?_, o2.trans (.set _ _ _)⟩
                  simp only [List.length_set]

theorem inline_moves {w1 w2 : World} (to : DocId) (h : Emb ρ w1 w2) (r : Inline) :
    Shifts ρ (Option.map (rnInline ρ)) w1 w2 (r.copymedia w1 to) ((rnInline ρ r).copymedia w2 (ρ to)) := by
  obtain ⟨a1, a2, a3, a4, a5, a6, a7, a8, g, file⟩ := r
  unfold Inline.copymedia
  cases g with
  | none => simp only [rnInline, rnGraphicO]; trivial
  | some g =>
    obtain ⟨xa, gd⟩ := g
    cases gd with
    | none => simp only [rnInline, rnGraphicO, rnGraphic, rnGraphicDataO]; trivial
    | some gd =>
      obtain ⟨uri, pic, sh, cv, gr⟩ := gd
      simp only [rnInline, rnGraphicO, rnGraphic, rnGraphicDataO, rnGraphicData]
      cases pic with
      | some pic =>
        refine Shifts.bind (copyPic_moves to file h pic) ?_
        intro w1' w2' c h'
        cases c with
        | none => exact Shifts.ok rfl h'
        | some c =>
          refine Shifts.ok ?_ h'
          simp [rnInline, rnGraphicO, rnGraphic, rnGraphicDataO, rnGraphicData]
      | none =>
        cases sh with
        | some s =>
          refine Shifts.ok ?_ h
          simp [rnInline, rnGraphicO, rnGraphic, rnGraphicDataO, rnGraphicData]
        | none =>
          cases cv with
          | some c =>
            refine Shifts.ok ?_ h
            simp [rnInline, rnGraphicO, rnGraphic, rnGraphicDataO, rnGraphicData]
          | none => exact Shifts.ok rfl h

theorem anchor_moves {w1 w2 : World} (to : DocId) (h : Emb ρ w1 w2) (r : Anchor) :
    Shifts ρ (Option.map (rnAnchor ρ)) w1 w2 (r.copymedia w1 to) ((rnAnchor ρ r).copymedia w2 (ρ to)) := by
  obtain ⟨a1, a2, a3, a4, a5, a6, a7, a8, b1, b2, b3, b4, b5, b6, b7, b8, c1, c2, c3, g, file⟩ := r
  unfold Anchor.copymedia
  cases g with
  | none => simp only [rnAnchor, rnGraphicO]; trivial
  | some g =>
    obtain ⟨xa, gd⟩ := g
    cases gd with
    | none => simp only [rnAnchor, rnGraphicO, rnGraphic, rnGraphicDataO]; trivial
    | some gd =>
      obtain ⟨uri, pic, sh, cv, gr⟩ := gd
      simp only [rnAnchor, rnGraphicO, rnGraphic, rnGraphicDataO, rnGraphicData]
      cases pic with
      | some pic =>
        refine Shifts.bind (copyPic_moves to file h pic) ?_
        intro w1' w2' c h'
        cases c with
        | none => exact Shifts.ok rfl h'
        | some c =>
          refine Shifts.ok ?_ h'
          simp [rnAnchor, rnGraphicO, rnGraphic, rnGraphicDataO, rnGraphicData]
      | none =>
        cases sh with
        | some s =>
          refine Shifts.ok ?_ h
          simp [rnAnchor, rnGraphicO, rnGraphic, rnGraphicDataO, rnGraphicData]
        | none =>
          cases cv with
          | some c =>
            refine Shifts.ok ?_ h
            simp [rnAnchor, rnGraphicO, rnGraphic, rnGraphicDataO, rnGraphicData]
          | none => exact Shifts.ok rfl h

theorem drawing_moves {w1 w2 : World} (to : DocId) (h : Emb ρ w1 w2) (d : Drawing) :
    Shifts ρ (rnDrawing ρ) w1 w2 (d.copymedia w1 to) ((rnDrawing ρ d).copymedia w2 (ρ to)) := by
  obtain ⟨i, a⟩ := d
  unfold Drawing.copymedia
  cases i with
  | some i =>
    simp only [rnDrawing, rnInlineO]
    refine Shifts.bind (inline_moves to h i) ?_
    intro w1' w2' c h'
    refine Shifts.ok ?_ h'
    cases c <;> rfl
  | none =>
    cases a with
    | some a =>
      simp only [rnDrawing, rnInlineO, rnAnchorO]
      refine Shifts.bind (anchor_moves to h a) ?_
      intro w1' w2' c h'
      refine Shifts.ok ?_ h'
      cases c <;> rfl
    | none => exact Shifts.ok rfl h

theorem rchildren_moves (to : DocId) : ∀ (cs : List RChild) {w1 w2 : World}, Emb ρ w1 w2 →
    Shifts ρ (rnRChildren ρ) w1 w2 (copyRChildren w1 to cs) (copyRChildren w2 (ρ to) (rnRChildren ρ cs)) := by
  intro cs
  induction cs with
  | nil => intro w1 w2 h; exact Shifts.ok rfl h
  | cons c cs ih =>
    intro w1 w2 h
    cases c with
    | drawing d =>
      simp only [rnRChildren, rnRChild, copyRChildren]
      refine Shifts.bind (drawing_moves to h d) ?_
      intro w1' w2' d' h'
      refine Shifts.bind (ih h') ?_
      intro w1'' w2'' cs' h''
      exact Shifts.ok rfl h''
    | _ =>
      simp only [rnRChildren, rnRChild, copyRChildren]
      refine Shifts.bind (ih h) ?_
      intro w1'' w2'' cs' h''
      exact Shifts.ok rfl h''

theorem run_moves {w1 w2 : World} (to : DocId) (h : Emb ρ w1 w2) (r : Run) :
    Shifts ρ (rnRun ρ) w1 w2 (r.copymedia w1 to) ((rnRun ρ r).copymedia w2 (ρ to)) := by
  obtain ⟨a, b, c, cs⟩ := r
  unfold Run.copymedia
  simp only [rnRun]
  refine Shifts.bind (rchildren_moves to cs h) ?_
  intro w1'' w2'' cs' h''
  exact Shifts.ok rfl h''

theorem pchildren_moves (to : DocId) (file : Option DocId) : ∀ (cs : List PChild) {w1 w2 : World}, Emb ρ w1 w2 →
    Shifts ρ (rnPChildren ρ) w1 w2 (copyPChildren w1 to file cs)
      (copyPChildren w2 (ρ to) (file.map ρ) (rnPChildren ρ cs)) := by
  intro cs
  induction cs with
  | nil => intro w1 w2 h; exact Shifts.ok rfl h
  | cons c cs ih =>
    intro w1 w2 h
    cases c with
    | run r =>
      simp only [rnPChildren, rnPChild, copyPChildren]
      refine Shifts.bind (run_moves to h r) ?_
      intro w1' w2' d' h'
      refine Shifts.bind (ih h') ?_
      intro w1'' w2'' cs' h''
      exact Shifts.ok rfl h''
    | rpr x =>
      simp only [rnPChildren, rnPChild, copyPChildren]
      refine Shifts.bind (ih h) ?_
      intro w1'' w2'' cs' h''
      exact Shifts.ok rfl h''
    | link l =>
      obtain ⟨id, r⟩ := l
      simp only [rnPChildren, rnPChild, rnLink, copyPChildren, h.file]
      cases hf : file.bind (w1[·]?) with
      | none => trivial
      | some src =>
        simp only [Option.map_some]
        show Shifts ρ _ w1 w2 (match src.referTarget id with | none => _ | some tgt => _)
          (match src.referTarget id with | none => _ | some tgt => _)
        cases src.referTarget id with
        | none => exact ih h
        | some tgt =>
          simp only [h.same to]
          cases w1[to]? with
          | none => trivial
          | some t =>
            simp only [Option.map_some]
            refine Shifts.after (w1' := w1.set to (t.addLinkRelation tgt).1) List.length_set
              (Aside.set w2 to (rnDoc ρ (t.addLinkRelation tgt).1)) ?_
            refine Shifts.bind (run_moves to (h.set to (t.addLinkRelation tgt).1) r) ?_
            intro w1' w2' d' h'
            refine Shifts.bind (ih h') ?_
            intro w1'' w2'' cs' h''
            exact Shifts.ok rfl h''

theorem para_moves {w1 w2 : World} (to : DocId) (h : Emb ρ w1 w2) (p : Para) :
    Shifts ρ (rnPara ρ) w1 w2 (p.copymedia w1 to) ((rnPara ρ p).copymedia w2 (ρ to)) := by
  obtain ⟨a, cs, file⟩ := p
  unfold Para.copymedia
  simp only [rnPara]
  refine Shifts.bind (pchildren_moves to file cs h) ?_
  intro w1'' w2'' cs' h''
  exact Shifts.ok rfl h''

theorem paras_moves (to : DocId) : ∀ (ps : List Para) {w1 w2 : World}, Emb ρ w1 w2 →
    Shifts ρ (List.map (rnPara ρ)) w1 w2 (copyParas w1 to ps) (copyParas w2 (ρ to) (ps.map (rnPara ρ))) := by
  intro ps
  induction ps with
  | nil => intro w1 w2 h; exact Shifts.ok rfl h
  | cons p ps ih =>
    intro w1 w2 h
    simp only [List.map_cons, copyParas]
    refine Shifts.bind (para_moves to h p) ?_
    intro w1' w2' d' h'
    refine Shifts.bind (ih h') ?_
    intro w1'' w2'' cs' h''
    exact Shifts.ok rfl h''

theorem cells_moves (to : DocId) : ∀ (ps : List Cell) {w1 w2 : World}, Emb ρ w1 w2 →
    Shifts ρ (List.map (rnCell ρ)) w1 w2 (copyCells w1 to ps) (copyCells w2 (ρ to) (ps.map (rnCell ρ))) := by
  intro ps
  induction ps with
  | nil => intro w1 w2 h; exact Shifts.ok rfl h
  | cons p ps ih =>
    intro w1 w2 h
    simp only [List.map_cons, copyCells]
    refine Shifts.bind (paras_moves to p.paras h) ?_
    intro w1' w2' d' h'
    refine Shifts.bind (ih h') ?_
    intro w1'' w2'' cs' h''
    exact Shifts.ok rfl h''

theorem rows_moves (to : DocId) : ∀ (ps : List Row) {w1 w2 : World}, Emb ρ w1 w2 →
    Shifts ρ (List.map (rnRow ρ)) w1 w2 (copyRows w1 to ps) (copyRows w2 (ρ to) (ps.map (rnRow ρ))) := by
  intro ps
  induction ps with
  | nil => intro w1 w2 h; exact Shifts.ok rfl h
  | cons p ps ih =>
    intro w1 w2 h
    simp only [List.map_cons, copyRows]
    refine Shifts.bind (cells_moves to p.cells h) ?_
    intro w1' w2' d' h'
    refine Shifts.bind (ih h') ?_
    intro w1'' w2'' cs' h''
    exact Shifts.ok rfl h''

theorem table_moves {w1 w2 : World} (to : DocId) (h : Emb ρ w1 w2) (t : Table) :
    Shifts ρ (rnTable ρ) w1 w2 (t.copymedia w1 to) ((rnTable ρ t).copymedia w2 (ρ to)) := by
  unfold Table.copymedia
  refine Shifts.bind (rows_moves to t.rows h) ?_
  intro w1'' w2'' cs' h''
  exact Shifts.ok rfl h''

theorem item_moves {w1 w2 : World} (to : DocId) (h : Emb ρ w1 w2) (x : BItem) :
    Shifts ρ (rnItem ρ) w1 w2 (x.copymedia w1 to) ((rnItem ρ x).copymedia w2 (ρ to)) := by
  cases x with
  | para p =>
    refine Shifts.bind (para_moves to h p) ?_
    intro w1'' w2'' cs' h''
    exact Shifts.ok rfl h''
  | table t =>
    refine Shifts.bind (table_moves to h t) ?_
    intro w1'' w2'' cs' h''
    exact Shifts.ok rfl h''
  | sect s => exact Shifts.ok rfl h

/-- What a call does in a world and where it is embedded -/
def MovesW (ρ : DocId → DocId) (w1 w2 : World) : Res World → Res World → Prop :=
  RelRes fun x y => Emb ρ x y ∧ x.length = w1.length ∧ Aside ρ w2 y

theorem MovesW.after {w1 w2 w1' w2' : World} {x y : Res World}
    (h1 : w1'.length = w1.length) (h2 : Aside ρ w2 w2') (h : MovesW ρ w1' w2' x y) : MovesW ρ w1 w2 x y := by
  refine RelRes.mono h ?_
  rintro x y ⟨hb, hc, hd⟩
  exact ⟨hb, hc.trans h1, h2.trans hd⟩

theorem pushItem_moves {w1 w2 : World} (to : DocId) (h : Emb ρ w1 w2) (x : BItem) :
    Emb ρ (w1.pushItem to x) (w2.pushItem (ρ to) (rnItem ρ x)) ∧ (w1.pushItem to x).length = w1.length ∧
      Aside ρ w2 (w2.pushItem (ρ to) (rnItem ρ x)) := by
  unfold World.pushItem
  rw [h.same to]
  cases ht : w1[to]? with
  | none => exact ⟨h, rfl, .refl _⟩
  | some t =>
    simp only [Option.map_some]
    have e : ({ rnDoc ρ t with items := (rnDoc ρ t).items ++ [rnItem ρ x] } : Doc) =
        rnDoc ρ { t with items := t.items ++ [x] } := by simp [rnDoc, rnItems]
    rw [e]
    exact ⟨h.set to _, List.length_set, .set _ _ _⟩

theorem appendItems_moves (to : DocId) : ∀ (xs : List BItem) {w1 w2 : World}, Emb ρ w1 w2 →
    MovesW ρ w1 w2 (appendItems w1 to xs) (appendItems w2 (ρ to) (rnItems ρ xs)) := by
  intro xs
  induction xs with
  | nil => intro w1 w2 h; exact ⟨h, rfl, .refl _⟩
  | cons x xs ih =>
    intro w1 w2 h
    refine RelRes.bind (item_moves to h x) ?_
    rintro ⟨w1', x1⟩ ⟨w2', x2⟩ ⟨hxx, hag, ho1, ho2⟩
    simp only at hxx hag ho1 ho2
    subst hxx
    obtain ⟨h1, h2, h3⟩ := pushItem_moves to hag x1
    exact MovesW.after (h2.trans ho1) (ho2.trans h3) (ih h1)

/-! ## Calls on documents -/

theorem onDoc_moves {w1 w2 : World} {act act' : Doc → Res Doc} (d : DocId) (h : Emb ρ w1 w2)
    (ha : ∀ f, RelRes (fun x y => y = rnDoc ρ x) (act f) (act' (rnDoc ρ f))) :
    MovesW ρ w1 w2 (w1.onDoc d act) (w2.onDoc (ρ d) act') := by
  unfold World.onDoc
  rw [h.same d]
  cases hd : w1[d]? with
  | none => trivial
  | some f =>
    simp only [Option.map_some]
    refine RelRes.bind (ha f) ?_
    rintro x y rfl
    exact ⟨h.set d x, List.length_set, .set _ _ _⟩

theorem getPara_rename (items : List BItem) (l : Loc) :
    getPara (rnItems ρ items) l = (getPara items l).map (rnPara ρ) := by
  cases l with
  | body i =>
    simp only [getPara, rnItems, List.getElem?_map]
    cases items[i]? with
    | none => rfl
    | some x => cases x <;> rfl
  | cell i r c j =>
    simp only [getPara, rnItems, List.getElem?_map]
    cases items[i]? with
    | none => rfl
    | some x =>
      cases x with
      | para p => rfl
      | sect s => rfl
      | table t =>
        simp only [Option.map_some, rnItem, rnTable, List.getElem?_map]
        cases t.rows[r]? with
        | none => rfl
        | some row =>
          simp only [Option.map_some, Option.bind_eq_bind, Option.bind_some, rnRow, List.getElem?_map]
          cases row.cells[c]? with
          | none => rfl
          | some cell =>
            simp only [Option.map_some, Option.bind_some, rnCell, List.getElem?_map]

theorem rn_modify {α β : Type} {f : α → β} {g : α → α} {g' : β → β} (h : ∀ x, g' (f x) = f (g x)) :
    ∀ (l : List α) (i : Nat), (l.map f).modify i g' = (l.modify i g).map f := by
  intro l
  induction l with
  | nil => intro i; simp
  | cons x xs ih =>
    intro i
    cases i with
    | zero => simp [h]
    | succ i => simpa using ih i

theorem modPara_rename (items : List BItem) (l : Loc) {g g' : Para → Para}
    (h : ∀ x, g' (rnPara ρ x) = rnPara ρ (g x)) :
    modPara (rnItems ρ items) l g' = rnItems ρ (modPara items l g) := by
  cases l with
  | body i =>
    refine rn_modify ?_ items i
    intro x
    cases x with
    | para p => simp only [rnItem, h]
    | table t => rfl
    | sect s => rfl
  | cell i r c j =>
    refine rn_modify ?_ items i
    intro x
    cases x with
    | para p => rfl
    | sect s => rfl
    | table t =>
      simp only [rnItem, rnTable]
      refine congrArg (fun rows => BItem.table { t with rows := rows }) ?_
      refine rn_modify ?_ t.rows r
      intro row
      simp only [rnRow]
      refine congrArg (fun cells => ({ row with cells := cells } : Row)) ?_
      refine rn_modify ?_ row.cells c
      intro cell
      simp only [rnCell]
      refine congrArg (fun ps => ({ cell with paras := ps, file := cell.file.map ρ } : Cell)) ?_
      exact rn_modify h cell.paras j

theorem onPara_moves {w1 w2 : World} {act act' : Doc → Para → Res (Doc × Para)} (d : DocId) (l : Loc)
    (h : Emb ρ w1 w2)
    (ha : ∀ f p, RelRes (fun x y => y = (rnDoc ρ x.1, rnPara ρ x.2)) (act f p) (act' (rnDoc ρ f) (rnPara ρ p))) :
    MovesW ρ w1 w2 (w1.onPara d l act) (w2.onPara (ρ d) l act') := by
  unfold World.onPara
  rw [h.same d]
  cases hd : w1[d]? with
  | none => trivial
  | some doc =>
    simp only [Option.map_some]
    rw [show (rnDoc ρ doc).items = rnItems ρ doc.items from rfl, getPara_rename]
    cases hp : getPara doc.items l with
    | none => trivial
    | some p =>
      simp only [Option.map_some]
      have hf : (rnPara ρ p).file = p.file.map ρ := by cases p; rfl
      rw [hf]
      cases hpf : p.file with
      | none => trivial
      | some fid =>
        simp only [Option.map_some]
        rw [h.same fid]
        cases w1[fid]? with
        | none => trivial
        | some f =>
          simp only [Option.map_some]
          refine RelRes.bind (ha f p) ?_
          rintro ⟨f', p'⟩ y rfl
          simp only
          have h1 := h.set fid f'
          rw [h1.same d]
          cases (w1.set fid f')[d]? with
          | none => trivial
          | some doc1 =>
            simp only [Option.map_some]
            have e : ({ rnDoc ρ doc1 with items := modPara (rnDoc ρ doc1).items l fun _ => rnPara ρ p' } : Doc) =
                rnDoc ρ { doc1 with items := modPara doc1.items l fun _ => p' } := by
              simp only [rnDoc]
              rw [modPara_rename (g := fun _ => p') _ _ fun _ => rfl]
            rw [e]
            refine ⟨h1.set d _, ?_, (Aside.set _ _ _).trans (.set _ _ _)⟩
            simp only [List.length_set]

end Docx
