import Verif.Lemmas.Bytes
import Verif.Lemmas.Ids

/-!
# Copies made by SplitByParagraph and AppendFile
-/

namespace Docx

/-! ## Only the target document changes -/

/-- From `w` to `w'` only the document at `to` changed, and it evolved. -/
structure Grow (to : DocId) (w w' : World) : Prop where
  len : w'.length = w.length
  other : ∀ d, d ≠ to → w'[d]? = w[d]?
  evo : ∀ f, w[to]? = some f → ∃ f', w'[to]? = some f' ∧ Evo f f'

theorem Grow.refl (to : DocId) (w : World) : Grow to w w :=
  ⟨rfl, fun _ _ => rfl, fun f h => ⟨f, h, .refl f⟩⟩

theorem Grow.trans {to : DocId} {w w' w'' : World} (a : Grow to w w') (b : Grow to w' w'') :
    Grow to w w'' := by
  refine ⟨b.len.trans a.len, fun d h => (b.other d h).trans (a.other d h), ?_⟩
  intro f hf
  obtain ⟨f', hf', e⟩ := a.evo f hf
  obtain ⟨f'', hf'', e'⟩ := b.evo f' hf'
  exact ⟨f'', hf'', e.trans e'⟩

theorem Touch.grow {to : DocId} {w w' : World} (h : Touch to w w') : Grow to w w' := by
  refine ⟨h.len, h.other, ?_⟩
  intro f hf
  obtain ⟨f', hf', e⟩ := h.evo f hf
  exact ⟨f', hf', e.evo⟩

theorem Grow.push (w : World) (to : DocId) (x : BItem) : Grow to w (w.pushItem to x) := by
  unfold World.pushItem
  split
  · exact .refl _ _
  · rename_i t ht
    have hl := lt_of_getElem? ht
    refine ⟨by simp, fun d hd => by simp [Ne.symm hd], ?_⟩
    intro f hf
    rw [ht] at hf; obtain rfl := Option.some.inj hf
    exact ⟨{ t with items := t.items ++ [x] }, List.getElem?_set_self hl, .items _ (.refl _)⟩

theorem appendItems_grow {to} : ∀ {xs : List BItem} {w w' : World},
    appendItems w to xs = .ok w' → Grow to w w' := by
  intro xs
  induction xs with
  | nil => intro w w' h; simp only [appendItems, Res.ok.injEq] at h; subst h; exact .refl _ _
  | cons x xs ih =>
    intro w w' h
    simp only [appendItems] at h
    obtain ⟨⟨w1, x'⟩, h1, h2⟩ := Res.bind_eq_ok.1 h
    exact ((BItem.copymedia_touch h1).grow.trans (.push _ _ _)).trans (ih h2)

theorem splitFill_grow {sep nd} : ∀ {is : List BItem} {w w' : World} {cnt left},
    splitFill sep nd w cnt is = .ok (w', left) → Grow nd w w' := by
  intro is
  induction is with
  | nil =>
    intro w w' cnt left h
    simp only [splitFill, Res.ok.injEq, Prod.mk.injEq] at h
    rw [← h.1]; exact .refl _ _
  | cons i is ih =>
    intro w w' cnt left h
    cases i with
    | para p =>
      simp only [splitFill] at h
      obtain ⟨b, _, h2⟩ := Res.bind_eq_ok.1 h
      split at h2
      · simp only [Res.ok.injEq, Prod.mk.injEq] at h2; rw [← h2.1]; exact .refl _ _
      · obtain ⟨⟨w1, p'⟩, h3, h4⟩ := Res.bind_eq_ok.1 h2
        exact ((Para.copymedia_touch h3).grow.trans (.push _ _ _)).trans (ih h4)
    | table t =>
      simp only [splitFill] at h
      obtain ⟨⟨w1, t'⟩, h3, h4⟩ := Res.bind_eq_ok.1 h
      exact ((Table.copymedia_touch h3).grow.trans (.push _ _ _)).trans (ih h4)
    | sect s =>
      simp only [splitFill] at h
      exact (Grow.push _ _ _).trans (ih h)

/-! ## The copy relation -/

/-- `P` holds of the worlds after the start of the copying, `F` of those before its end, and the
primitive copies done in between obey the rules. -/
structure Obeys (R : CopyRules) (to : DocId) (P F : World → Prop) : Prop where
  fwd : ∀ {w w1}, Grow to w w1 → P w → P w1
  bwd : ∀ {w w1}, Grow to w w1 → F w1 → F w
  draw : ∀ {w w1 d d'}, Drawing.copymedia w to d = .ok (w1, d') → P w → F w1 → R.draw d d'
  link : ∀ {w : World} {file : Option DocId} {id tgt : String} {src t : Doc}, P w → file.bind (w[·]?) = some src →
    src.referTarget id = some tgt → w[to]? = some t →
    F (w.set to (t.addLinkRelation tgt).1) → R.link file id (t.addLinkRelation tgt).2
  drop : ∀ {w : World} {file : Option DocId} {id : String} {src : Doc}, P w → F w → file.bind (w[·]?) = some src →
    src.referTarget id = none → R.drop file id

section
variable {R : CopyRules} {to : DocId} {P F : World → Prop}

theorem copyRChildren_copied (ob : Obeys R to P F) : ∀ {cs cs' : List RChild} {w w1 : World},
    copyRChildren w to cs = .ok (w1, cs') → P w → F w1 → Each (RChildCopied R) cs cs' := by
  intro cs
  induction cs with
  | nil =>
    intro cs' w w1 h _ _
    simp only [copyRChildren, Res.ok.injEq, Prod.mk.injEq] at h
    rw [← h.2]; exact .nil
  | cons c cs ih =>
    intro cs' w w1 h hP hF
    cases c with
    | drawing d =>
      simp only [copyRChildren] at h
      obtain ⟨⟨w2, d'⟩, h1, h2⟩ := Res.bind_eq_ok.1 h
      obtain ⟨⟨w3, cs''⟩, h3, h4⟩ := Res.bind_eq_ok.1 h2
      simp only [Res.pure_eq, Res.ok.injEq, Prod.mk.injEq] at h4
      obtain ⟨rfl, rfl⟩ := h4
      have g1 := (Drawing.copymedia_touch h1).grow
      have g2 := (copyRChildren_touch h3).grow
      exact .cons ⟨d', rfl, ob.draw h1 hP (ob.bwd g2 hF)⟩ (ih h3 (ob.fwd g1 hP) hF)
    | text t =>
      simp only [copyRChildren] at h
      obtain ⟨⟨w3, cs''⟩, h3, h4⟩ := Res.bind_eq_ok.1 h
      simp only [Res.pure_eq, Res.ok.injEq, Prod.mk.injEq] at h4
      obtain ⟨rfl, rfl⟩ := h4
      exact .cons rfl (ih h3 hP hF)
    | tab t =>
      simp only [copyRChildren] at h
      obtain ⟨⟨w3, cs''⟩, h3, h4⟩ := Res.bind_eq_ok.1 h
      simp only [Res.pure_eq, Res.ok.injEq, Prod.mk.injEq] at h4
      obtain ⟨rfl, rfl⟩ := h4
      exact .cons rfl (ih h3 hP hF)
    | br t =>
      simp only [copyRChildren] at h
      obtain ⟨⟨w3, cs''⟩, h3, h4⟩ := Res.bind_eq_ok.1 h
      simp only [Res.pure_eq, Res.ok.injEq, Prod.mk.injEq] at h4
      obtain ⟨rfl, rfl⟩ := h4
      exact .cons rfl (ih h3 hP hF)

theorem Run.copymedia_copied (ob : Obeys R to P F) {r r' : Run} {w w1 : World}
    (h : r.copymedia w to = .ok (w1, r')) (hP : P w) (hF : F w1) : RunCopied R r r' := by
  unfold Run.copymedia at h
  obtain ⟨⟨w2, cs⟩, h1, h2⟩ := Res.bind_eq_ok.1 h
  simp only [Res.pure_eq, Res.ok.injEq, Prod.mk.injEq] at h2
  obtain ⟨rfl, rfl⟩ := h2
  exact ⟨rfl, rfl, rfl, copyRChildren_copied ob h1 hP hF⟩

theorem copyPChildren_copied (ob : Obeys R to P F) {file : Option DocId} :
    ∀ {cs cs' : List PChild} {w w1 : World},
    copyPChildren w to file cs = .ok (w1, cs') → P w → F w1 → ChildrenCopied R file cs cs' := by
  intro cs
  induction cs with
  | nil =>
    intro cs' w w1 h _ _
    simp only [copyPChildren, Res.ok.injEq, Prod.mk.injEq] at h
    rw [← h.2]; exact .nil
  | cons c cs ih =>
    intro cs' w w1 h hP hF
    cases c with
    | run r =>
      simp only [copyPChildren] at h
      obtain ⟨⟨w2, d'⟩, h1, h2⟩ := Res.bind_eq_ok.1 h
      obtain ⟨⟨w3, cs''⟩, h3, h4⟩ := Res.bind_eq_ok.1 h2
      simp only [Res.pure_eq, Res.ok.injEq, Prod.mk.injEq] at h4
      obtain ⟨rfl, rfl⟩ := h4
      have g1 := (Run.copymedia_touch h1).grow
      have g2 := (copyPChildren_touch h3).grow
      exact .run (Run.copymedia_copied ob h1 hP (ob.bwd g2 hF)) (ih h3 (ob.fwd g1 hP) hF)
    | rpr x =>
      simp only [copyPChildren] at h
      obtain ⟨⟨w3, cs''⟩, h3, h4⟩ := Res.bind_eq_ok.1 h
      simp only [Res.pure_eq, Res.ok.injEq, Prod.mk.injEq] at h4
      obtain ⟨rfl, rfl⟩ := h4
      exact .rpr (ih h3 hP hF)
    | link l =>
      simp only [copyPChildren] at h
      split at h
      · simp at h
      · rename_i src hsrc
        split at h
        · rename_i hr
          exact .dropped (ob.drop hP (ob.bwd (copyPChildren_touch h).grow hF) hsrc hr) (ih h hP hF)
        · rename_i tgt hr
          split at h
          · simp at h
          · rename_i t ht
            obtain ⟨⟨w2, d'⟩, h1, h2⟩ := Res.bind_eq_ok.1 h
            obtain ⟨⟨w3, cs''⟩, h3, h4⟩ := Res.bind_eq_ok.1 h2
            simp only [Res.pure_eq, Res.ok.injEq, Prod.mk.injEq] at h4
            obtain ⟨rfl, rfl⟩ := h4
            have g0 : Grow to w (w.set to (t.addLinkRelation tgt).1) :=
              (Touch.set ht (.link tgt (.refl t))).grow
            have g1 := (Run.copymedia_touch h1).grow
            have g2 := (copyPChildren_touch h3).grow
            refine .link (h' := { id := (t.addLinkRelation tgt).2, run := d' }) ?_ ?_ ?_
            · exact ob.link hP hsrc hr ht (ob.bwd g1 (ob.bwd g2 hF))
            · exact Run.copymedia_copied ob h1 (ob.fwd g0 hP) (ob.bwd g2 hF)
            · exact ih h3 (ob.fwd g1 (ob.fwd g0 hP)) hF

theorem Para.copymedia_copied (ob : Obeys R to P F) {p p' : Para} {w w1 : World}
    (h : p.copymedia w to = .ok (w1, p')) (hP : P w) (hF : F w1) : ParaCopied R to p p' := by
  unfold Para.copymedia at h
  obtain ⟨⟨w2, cs⟩, h1, h2⟩ := Res.bind_eq_ok.1 h
  simp only [Res.pure_eq, Res.ok.injEq, Prod.mk.injEq] at h2
  obtain ⟨rfl, rfl⟩ := h2
  exact ⟨rfl, rfl, copyPChildren_copied ob h1 hP hF⟩

theorem copyParas_copied (ob : Obeys R to P F) : ∀ {cs cs' : List Para} {w w1 : World},
    copyParas w to cs = .ok (w1, cs') → P w → F w1 → Each (ParaCopied R to) cs cs' := by
  intro cs
  induction cs with
  | nil =>
    intro cs' w w1 h _ _
    simp only [copyParas, Res.ok.injEq, Prod.mk.injEq] at h
    rw [← h.2]; exact .nil
  | cons c cs ih =>
    intro cs' w w1 h hP hF
    simp only [copyParas] at h
    obtain ⟨⟨w2, d'⟩, h1, h2⟩ := Res.bind_eq_ok.1 h
    obtain ⟨⟨w3, cs''⟩, h3, h4⟩ := Res.bind_eq_ok.1 h2
    simp only [Res.pure_eq, Res.ok.injEq, Prod.mk.injEq] at h4
    obtain ⟨rfl, rfl⟩ := h4
    have g1 := (Para.copymedia_touch h1).grow
    have g2 := (copyParas_touch h3).grow
    exact .cons (Para.copymedia_copied ob h1 hP (ob.bwd g2 hF)) (ih h3 (ob.fwd g1 hP) hF)

theorem copyCells_copied (ob : Obeys R to P F) : ∀ {cs cs' : List Cell} {w w1 : World},
    copyCells w to cs = .ok (w1, cs') → P w → F w1 → Each (CellCopied R to) cs cs' := by
  intro cs
  induction cs with
  | nil =>
    intro cs' w w1 h _ _
    simp only [copyCells, Res.ok.injEq, Prod.mk.injEq] at h
    rw [← h.2]; exact .nil
  | cons c cs ih =>
    intro cs' w w1 h hP hF
    simp only [copyCells] at h
    obtain ⟨⟨w2, d'⟩, h1, h2⟩ := Res.bind_eq_ok.1 h
    obtain ⟨⟨w3, cs''⟩, h3, h4⟩ := Res.bind_eq_ok.1 h2
    simp only [Res.pure_eq, Res.ok.injEq, Prod.mk.injEq] at h4
    obtain ⟨rfl, rfl⟩ := h4
    have g1 := (copyParas_touch h1).grow
    have g2 := (copyCells_touch h3).grow
    exact .cons ⟨rfl, rfl, copyParas_copied ob h1 hP (ob.bwd g2 hF)⟩ (ih h3 (ob.fwd g1 hP) hF)

theorem copyRows_copied (ob : Obeys R to P F) : ∀ {cs cs' : List Row} {w w1 : World},
    copyRows w to cs = .ok (w1, cs') → P w → F w1 → Each (RowCopied R to) cs cs' := by
  intro cs
  induction cs with
  | nil =>
    intro cs' w w1 h _ _
    simp only [copyRows, Res.ok.injEq, Prod.mk.injEq] at h
    rw [← h.2]; exact .nil
  | cons c cs ih =>
    intro cs' w w1 h hP hF
    simp only [copyRows] at h
    obtain ⟨⟨w2, d'⟩, h1, h2⟩ := Res.bind_eq_ok.1 h
    obtain ⟨⟨w3, cs''⟩, h3, h4⟩ := Res.bind_eq_ok.1 h2
    simp only [Res.pure_eq, Res.ok.injEq, Prod.mk.injEq] at h4
    obtain ⟨rfl, rfl⟩ := h4
    have g1 := (copyCells_touch h1).grow
    have g2 := (copyRows_touch h3).grow
    exact .cons ⟨rfl, copyCells_copied ob h1 hP (ob.bwd g2 hF)⟩ (ih h3 (ob.fwd g1 hP) hF)

theorem Table.copymedia_copied (ob : Obeys R to P F) {t t' : Table} {w w1 : World}
    (h : t.copymedia w to = .ok (w1, t')) (hP : P w) (hF : F w1) : TableCopied R to t t' := by
  unfold Table.copymedia at h
  obtain ⟨⟨w2, cs⟩, h1, h2⟩ := Res.bind_eq_ok.1 h
  simp only [Res.pure_eq, Res.ok.injEq, Prod.mk.injEq] at h2
  obtain ⟨rfl, rfl⟩ := h2
  exact ⟨rfl, rfl, copyRows_copied ob h1 hP hF⟩

theorem BItem.copymedia_copied (ob : Obeys R to P F) {x x' : BItem} {w w1 : World}
    (h : x.copymedia w to = .ok (w1, x')) (hP : P w) (hF : F w1) : ItemCopied R to x x' := by
  cases x with
  | para p =>
    simp only [BItem.copymedia] at h
    obtain ⟨⟨w2, p'⟩, h1, h2⟩ := Res.bind_eq_ok.1 h
    simp only [Res.pure_eq, Res.ok.injEq, Prod.mk.injEq] at h2
    obtain ⟨rfl, rfl⟩ := h2
    exact ⟨p', rfl, Para.copymedia_copied ob h1 hP hF⟩
  | table t =>
    simp only [BItem.copymedia] at h
    obtain ⟨⟨w2, p'⟩, h1, h2⟩ := Res.bind_eq_ok.1 h
    simp only [Res.pure_eq, Res.ok.injEq, Prod.mk.injEq] at h2
    obtain ⟨rfl, rfl⟩ := h2
    exact ⟨p', rfl, Table.copymedia_copied ob h1 hP hF⟩
  | sect s =>
    simp only [BItem.copymedia, Res.ok.injEq, Prod.mk.injEq] at h
    exact h.2.symm

/-- Pushing an item onto a document of the world. -/
theorem pushItem_get {w : World} {t : Doc} (x : BItem) (h : w[to]? = some t) :
    (w.pushItem to x)[to]? = some { t with items := t.items ++ [x] } := by
  have hl := lt_of_getElem? h
  simp only [World.pushItem, h]
  exact List.getElem?_set_self hl

/-- Copying keeps the items of the target. -/
theorem Touch.items {w w1 : World} {t : Doc} (h : Touch to w w1) (ht : w[to]? = some t) :
    ∃ t1, w1[to]? = some t1 ∧ t1.items = t.items := by
  obtain ⟨t1, h1, e⟩ := h.evo t ht
  exact ⟨t1, h1, e.same.1⟩

/-- The items of a document after `AppendFile`. -/
theorem appendItems_copied (ob : Obeys R to P F) : ∀ {xs : List BItem} {w w' : World} {t : Doc},
    appendItems w to xs = .ok w' → w[to]? = some t → P w → F w' →
    ∃ t' copies, w'[to]? = some t' ∧ t'.items = t.items ++ copies ∧
      Each (ItemCopied R to) xs copies := by
  intro xs
  induction xs with
  | nil =>
    intro w w' t h ht _ _
    simp only [appendItems, Res.ok.injEq] at h; subst h
    exact ⟨t, [], ht, by simp, .nil⟩
  | cons x xs ih =>
    intro w w' t h ht hP hF
    simp only [appendItems] at h
    obtain ⟨⟨w1, x'⟩, h1, h2⟩ := Res.bind_eq_ok.1 h
    simp only at h2
    have g1 := BItem.copymedia_touch h1
    have g2 := Grow.push w1 to x'
    have g3 := appendItems_grow h2
    obtain ⟨t1, ht1, e1⟩ := g1.items ht
    obtain ⟨t', cs, h3, h4, h5⟩ := ih h2 (pushItem_get x' ht1) (ob.fwd g2 (ob.fwd g1.grow hP)) hF
    refine ⟨t', x' :: cs, h3, by simp [h4, e1], .cons ?_ h5⟩
    exact BItem.copymedia_copied ob h1 hP (ob.bwd g2 (ob.bwd g3 hF))

end

/-- A paragraph for which the separator rule said yes, resp. no, in some world satisfying `Q`. -/
def Said (sep : World → Para → Res Bool) (Q : World → Prop) (b : Bool) (x : BItem) : Prop :=
  ∃ p w, x = .para p ∧ Q w ∧ sep w p = .ok b

/-- One round of the split: `taken` is copied into the new document, and the rest starts with a
separator. -/
theorem splitFill_copied {R : CopyRules} {nd : DocId} {P F : World → Prop} (ob : Obeys R nd P F)
    {sep : World → Para → Res Bool} : ∀ {is : List BItem} {w w' : World} {cnt left} {t : Doc},
    splitFill sep nd w cnt is = .ok (w', left) → w[nd]? = some t → P w → F w' →
    ∃ t' taken copies, w'[nd]? = some t' ∧ t'.items = t.items ++ copies ∧
      Each (ItemCopied R nd) taken copies ∧ is = taken ++ left.getD [] ∧
      (∀ rest, left = some rest → ∃ p tl, rest = .para p :: tl ∧ Said sep P true (.para p)) ∧
      (∀ (i : Nat) (p : Para), taken[i]? = some (.para p) → Said sep P false (.para p)
        ∨ cnt + i = 0) ∧ (cnt = 0 → is ≠ [] → taken ≠ []) := by
  intro is
  induction is with
  | nil =>
    intro w w' cnt left t h ht hP hF
    simp only [splitFill, Res.ok.injEq, Prod.mk.injEq] at h
    obtain ⟨rfl, rfl⟩ := h
    exact ⟨t, [], [], ht, by simp, .nil, rfl, by simp, by simp, by simp⟩
  | cons x is ih =>
    intro w w' cnt left t h ht hP hF
    cases x with
    | para p =>
      simp only [splitFill] at h
      obtain ⟨b, hb, h2⟩ := Res.bind_eq_ok.1 h
      split at h2
      · rename_i hc
        simp only [Res.ok.injEq, Prod.mk.injEq] at h2
        obtain ⟨rfl, rfl⟩ := h2
        refine ⟨t, [], [], ht, by simp, .nil, rfl, ?_, by simp, by omega⟩
        intro rest hr
        simp only [Option.some.injEq] at hr; subst hr
        exact ⟨p, is, rfl, p, w, rfl, hP, by rw [hb, hc.1]⟩
      · rename_i hc
        obtain ⟨⟨w1, p'⟩, h1, h3⟩ := Res.bind_eq_ok.1 h2
        simp only at h3
        have g1 := Para.copymedia_touch h1
        have g2 := Grow.push w1 nd (.para p')
        have g3 := splitFill_grow h3
        obtain ⟨t1, ht1, e1⟩ := g1.items ht
        obtain ⟨t', tk, cs, h4, h5, h6, h7, h8, h9, _⟩ :=
          ih h3 (pushItem_get _ ht1) (ob.fwd g2 (ob.fwd g1.grow hP)) hF
        refine ⟨t', .para p :: tk, .para p' :: cs, h4, by simp [h5, e1], .cons ?_ h6, by simp [h7], h8, ?_,
          by simp⟩
        · exact ⟨p', rfl, Para.copymedia_copied ob h1 hP (ob.bwd g2 (ob.bwd g3 hF))⟩
        · intro i q hq
          cases i with
          | zero =>
            simp only [List.getElem?_cons_zero, Option.some.injEq, BItem.para.injEq] at hq
            subst hq
            rcases Nat.eq_zero_or_pos cnt with hz | hz
            · right; omega
            · left
              refine ⟨p, w, rfl, hP, ?_⟩
              have : b = false := by
                cases b with
                | false => rfl
                | true => exact absurd ⟨rfl, hz⟩ hc
              rw [hb, this]
          | succ i =>
            simp only [List.getElem?_cons_succ] at hq
            rcases h9 i q hq with h | h
            · left; exact h
            · omega
    | table tb =>
      simp only [splitFill] at h
      obtain ⟨⟨w1, p'⟩, h1, h3⟩ := Res.bind_eq_ok.1 h
      simp only at h3
      have g1 := Table.copymedia_touch h1
      have g2 := Grow.push w1 nd (.table p')
      have g3 := splitFill_grow h3
      obtain ⟨t1, ht1, e1⟩ := g1.items ht
      obtain ⟨t', tk, cs, h4, h5, h6, h7, h8, h9, _⟩ :=
        ih h3 (pushItem_get _ ht1) (ob.fwd g2 (ob.fwd g1.grow hP)) hF
      refine ⟨t', .table tb :: tk, .table p' :: cs, h4, by simp [h5, e1], .cons ?_ h6, by simp [h7], h8, ?_,
        by simp⟩
      · exact ⟨p', rfl, Table.copymedia_copied ob h1 hP (ob.bwd g2 (ob.bwd g3 hF))⟩
      · intro i q hq
        cases i with
        | zero => simp at hq
        | succ i =>
          simp only [List.getElem?_cons_succ] at hq
          rcases h9 i q hq with h | h
          · left; exact h
          · omega
    | sect s =>
      simp only [splitFill] at h
      have g2 := Grow.push w nd (.sect s)
      obtain ⟨t', tk, cs, h4, h5, h6, h7, h8, h9, _⟩ :=
        ih h (pushItem_get _ ht) (ob.fwd g2 hP) hF
      refine ⟨t', .sect s :: tk, .sect s :: cs, h4, by simp [h5], .cons rfl h6, by simp [h7], h8, ?_,
        by simp⟩
      intro i q hq
      cases i with
      | zero => simp at hq
      | succ i =>
        simp only [List.getElem?_cons_succ] at hq
        rcases h9 i q hq with h | h
        · left; exact h
        · omega

end Docx
