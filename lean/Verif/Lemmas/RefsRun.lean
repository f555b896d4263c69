import Verif.Lemmas.Refs
import Verif.Lemmas.Draws
import Verif.Lemmas.CopyRules

/-!
# References in histories
-/

namespace Docx

theorem rf_rchild (c : RChild) : refsOf (mRChild c) = (c.drawing?.toList).flatMap fun d => refsOf (mDrawing d) := by
  cases c with
  | text t => simp [mRChild, RChild.drawing?, rf_mText]
  | tab t => simp [mRChild, RChild.drawing?, rf_mTab]
  | br t => simp [mRChild, RChild.drawing?, rf_mBr]
  | drawing d => simp [mRChild, RChild.drawing?]

/-- The references of a run are those of its drawings -/
theorem rf_run_draws (r : Run) : refsOf (mRun r) = r.draws.flatMap fun d => refsOf (mDrawing d) := by
  rw [rf_mRun, Run.draws]
  induction r.children with
  | nil => rfl
  | cons c cs ih =>
    rw [List.flatMap_cons, ih, rf_rchild]
    cases h : c.drawing? <;> simp [List.filterMap_cons, h]

/-- All references of the item satisfy `ok` -/
def ItemRefs (ok : String → Prop) (x : BItem) : Prop := ∀ id ∈ refsOf (mItem x), ok id

/-- All references of the paragraph satisfy `ok` -/
def ParaRefs (ok : String → Prop) (p : Para) : Prop := ∀ id ∈ refsOf (mPara p), ok id

theorem itemRefs_para {ok : String → Prop} {p : Para} : ItemRefs ok (.para p) ↔ ParaRefs ok p := by
  simp [ItemRefs, ParaRefs, mItem]

theorem forall_mem_flatMap {α β : Type} {ok : β → Prop} {f : α → List β} {l : List α} :
    (∀ b ∈ l.flatMap f, ok b) ↔ ∀ a ∈ l, ∀ b ∈ f a, ok b := by
  simp only [List.mem_flatMap]
  exact ⟨fun h x hx d hd => h d ⟨x, hx, hd⟩, fun h d ⟨x, hx, hd⟩ => h x hx d hd⟩

theorem itemRefs_table {ok : String → Prop} {t : Table} :
    ItemRefs ok (.table t) ↔ ∀ r ∈ t.rows, ∀ c ∈ r.cells, ∀ p ∈ c.paras, ParaRefs ok p := by
  simp only [ItemRefs, ParaRefs, mItem, rf_mTable, rf_mRow, rf_mCell, forall_mem_flatMap]

theorem itemRefs_sect {ok : String → Prop} {s : SectPr} : ItemRefs ok (.sect s) := by
  simp [ItemRefs, mItem, rf_mSect]

theorem ParaRefs.mono {ok ok' : String → Prop} (h : ∀ id, ok id → ok' id) {p : Para} (hp : ParaRefs ok p) :
    ParaRefs ok' p := fun id hid => h id (hp id hid)
theorem ItemRefs.mono {ok ok' : String → Prop} (h : ∀ id, ok id → ok' id) {x : BItem} (hx : ItemRefs ok x) :
    ItemRefs ok' x := fun id hid => h id (hx id hid)

theorem HasRel.evo {f g : Doc} (e : Evo f g) {id : String} (h : HasRel f.rels id) : HasRel g.rels id := by
  obtain ⟨ext, h1, _⟩ := e.rels
  obtain ⟨r, hr, hid⟩ := h
  exact ⟨r, by rw [h1]; exact List.mem_append_left _ hr, hid⟩

/-- A drawing that refers to files only through the picture it is made of -/
def plainData (gd : GraphicData) : Prop :=
  refsOfL (mShapeO gd.shape) = [] ∧ refsOfL (mCanvasO gd.canvas) = [] ∧ refsOfL (mGroupO gd.group) = []

/-- The same for an optional graphic -/
def plainGraphic (o : Option Graphic) : Prop := ∀ g, o = some g → ∀ gd, g.data = some gd → plainData gd

/-- The same for a drawing -/
def Plain (d : Drawing) : Prop :=
  (∀ i, d.inl = some i → plainGraphic i.graphic) ∧ (∀ a, d.anchor = some a → plainGraphic a.graphic)

theorem rf_graphic {ok : String → Prop} {o : Option Graphic} (h : plainGraphic o)
    (hp : ∀ g gd p bf, o = some g → g.data = some gd → gd.pic = some p → p.blipFill = some bf →
      ok bf.blip.embed) : ∀ id ∈ refsOfL (mGraphicO o), ok id := by
  intro id hid
  cases o with
  | none => simp [mGraphicO, refsOfL] at hid
  | some g =>
    simp only [mGraphicO, refsOfL_cons, refsOfL_nil, List.append_nil, rf_mGraphic] at hid
    cases hd : g.data with
    | none => rw [hd] at hid; simp [mGraphicDataO, refsOfL] at hid
    | some gd =>
      rw [hd] at hid
      obtain ⟨h1, h2, h3⟩ := h g rfl gd hd
      simp only [mGraphicDataO, refsOfL_cons, refsOfL_nil, List.append_nil, rf_mGraphicData, h1, h2, h3] at hid
      cases hq : gd.pic with
      | none => rw [hq] at hid; simp [optN, refsOfL] at hid
      | some p =>
        rw [hq] at hid
        simp only [optN, refsOfL_cons, refsOfL_nil, List.append_nil, rf_mPic] at hid
        cases hb : p.blipFill with
        | none => rw [hb] at hid; simp at hid
        | some bf =>
          rw [hb] at hid
          simp only [Option.map_some, Option.toList_some, List.mem_singleton] at hid
          rw [hid]; exact hp g gd p bf rfl hd hq hb

theorem rf_inlineO {i : Inline} : refsOf (mDrawing { inl := some i }) = refsOfL (mGraphicO i.graphic) := by
  simp [rf_mDrawing, mInlineO, mAnchorO, refsOfL, rf_mInline]
theorem rf_anchorO {i : Anchor} : refsOf (mDrawing { anchor := some i }) = refsOfL (mGraphicO i.graphic) := by
  simp [rf_mDrawing, mInlineO, mAnchorO, refsOfL, rf_mAnchor]
theorem rf_noDrawing : refsOf (mDrawing {}) = [] := by
  simp [rf_mDrawing, mInlineO, mAnchorO, refsOfL]

theorem addImage_rel (f : Doc) (fmt : String) (data : Bytes) :
    HasRel (f.addImage fmt data).1.rels (f.addImage fmt data).2 :=
  ⟨_, List.mem_append_right _ (List.mem_singleton.2 rfl), rfl⟩

theorem addLink_rel (f : Doc) (l : String) : HasRel (f.addLinkRelation l).1.rels (f.addLinkRelation l).2 :=
  ⟨_, List.mem_append_right _ (List.mem_singleton.2 rfl), rfl⟩

/-- The copy of a picture refers to an entry made for it -/
theorem copyPic_rel {w w' : World} {to file pic c} (h : copyPic w to file pic = .ok (w', some c)) :
    ∃ t bf, w'[to]? = some t ∧ c.pic.blipFill = some bf ∧ HasRel t.rels bf.blip.embed := by
  unfold copyPic at h
  split at h
  · simp at h
  · split at h
    · simp at h
    · split at h
      · simp at h
      · split at h
        · simp at h
        · rename_i t ht
          have hl := lt_of_getElem? ht
          simp only at h
          split at h
          · simp at h
          · split at h
            · simp at h
            · simp at h
            · simp at h
            · split at h
              · simp at h
              · simp only [Res.ok.injEq, Prod.mk.injEq, Option.some.injEq] at h
                obtain ⟨h1, h2⟩ := h
                refine ⟨_, _, ?_, by rw [← h2], addImage_rel _ _ _⟩
                rw [← h1, List.getElem?_set_self (by simpa using hl)]

theorem inline_copy {w w' : World} {to} {i : Inline} {i'} (h : i.copymedia w to = .ok (w', i'))
    (hi : plainGraphic i.graphic) : ∀ x, i' = some x → plainGraphic x.graphic ∧
      (∀ t', Before to t' w' → ∀ id ∈ refsOfL (mGraphicO x.graphic), HasRel t'.rels id) := by
  intro x hx; subst hx
  unfold Inline.copymedia at h
  split at h
  · simp at h
  · rename_i g hg
    split at h
    · simp at h
    · rename_i gd hgd
      have hpl := hi g hg gd hgd
      split at h
      · rename_i pic hpic
        obtain ⟨⟨w1, c⟩, h1, h2⟩ := Res.bind_eq_ok.1 h
        cases c with
        | none => simp at h2
        | some c =>
          simp only [Res.pure_eq, Res.ok.injEq, Prod.mk.injEq, Option.some.injEq] at h2
          obtain ⟨rfl, rfl⟩ := h2
          have hpl' : plainGraphic (some { g with data := some { gd with pic := some c.pic } }) := by
            intro g' hg' gd' hgd'
            obtain rfl := Option.some.inj hg'
            obtain rfl := Option.some.inj hgd'
            exact hpl
          refine ⟨hpl', fun t' hb => rf_graphic hpl' ?_⟩
          intro g' gd' p bf hg' hgd' hp hbf
          obtain rfl := Option.some.inj hg'
          obtain rfl := Option.some.inj hgd'
          obtain rfl := Option.some.inj hp
          obtain ⟨t, bf', ht, hbf', hr⟩ := copyPic_rel h1
          rw [hbf] at hbf'; obtain rfl := Option.some.inj hbf'
          obtain ⟨t2, ht2, e⟩ := hb
          rw [ht] at ht2; obtain rfl := Option.some.inj ht2
          exact hr.evo e
      · rename_i hpic
        have key : plainGraphic i.graphic ∧ (∀ t', Before to t' w' →
            ∀ id ∈ refsOfL (mGraphicO i.graphic), HasRel t'.rels id) := by
          refine ⟨hi, fun t' _ => rf_graphic hi ?_⟩
          intro g' gd' p bf hg' hgd' hp _
          rw [hg] at hg'; obtain rfl := Option.some.inj hg'
          rw [hgd] at hgd'; obtain rfl := Option.some.inj hgd'
          rw [hpic] at hp; cases hp
        split at h
        · simp only [Res.ok.injEq, Prod.mk.injEq, Option.some.injEq] at h
          rw [← h.2]; exact key
        · split at h
          · simp only [Res.ok.injEq, Prod.mk.injEq, Option.some.injEq] at h
            rw [← h.2]; exact key
          · simp at h

theorem anchor_copy {w w' : World} {to} {i : Anchor} {i'} (h : i.copymedia w to = .ok (w', i'))
    (hi : plainGraphic i.graphic) : ∀ x, i' = some x → plainGraphic x.graphic ∧
      (∀ t', Before to t' w' → ∀ id ∈ refsOfL (mGraphicO x.graphic), HasRel t'.rels id) := by
  intro x hx; subst hx
  unfold Anchor.copymedia at h
  split at h
  · simp at h
  · rename_i g hg
    split at h
    · simp at h
    · rename_i gd hgd
      have hpl := hi g hg gd hgd
      split at h
      · rename_i pic hpic
        obtain ⟨⟨w1, c⟩, h1, h2⟩ := Res.bind_eq_ok.1 h
        cases c with
        | none => simp at h2
        | some c =>
          simp only [Res.pure_eq, Res.ok.injEq, Prod.mk.injEq, Option.some.injEq] at h2
          obtain ⟨rfl, rfl⟩ := h2
          have hpl' : plainGraphic (some { g with data := some { gd with pic := some c.pic } }) := by
            intro g' hg' gd' hgd'
            obtain rfl := Option.some.inj hg'
            obtain rfl := Option.some.inj hgd'
            exact hpl
          refine ⟨hpl', fun t' hb => rf_graphic hpl' ?_⟩
          intro g' gd' p bf hg' hgd' hp hbf
          obtain rfl := Option.some.inj hg'
          obtain rfl := Option.some.inj hgd'
          obtain rfl := Option.some.inj hp
          obtain ⟨t, bf', ht, hbf', hr⟩ := copyPic_rel h1
          rw [hbf] at hbf'; obtain rfl := Option.some.inj hbf'
          obtain ⟨t2, ht2, e⟩ := hb
          rw [ht] at ht2; obtain rfl := Option.some.inj ht2
          exact hr.evo e
      · rename_i hpic
        have key : plainGraphic i.graphic ∧ (∀ t', Before to t' w' →
            ∀ id ∈ refsOfL (mGraphicO i.graphic), HasRel t'.rels id) := by
          refine ⟨hi, fun t' _ => rf_graphic hi ?_⟩
          intro g' gd' p bf hg' hgd' hp _
          rw [hg] at hg'; obtain rfl := Option.some.inj hg'
          rw [hgd] at hgd'; obtain rfl := Option.some.inj hgd'
          rw [hpic] at hp; cases hp
        split at h
        · simp only [Res.ok.injEq, Prod.mk.injEq, Option.some.injEq] at h
          rw [← h.2]; exact key
        · split at h
          · simp only [Res.ok.injEq, Prod.mk.injEq, Option.some.injEq] at h
            rw [← h.2]; exact key
          · simp at h

theorem drawing_copy {w w' : World} {to} {d d' : Drawing} (h : d.copymedia w to = .ok (w', d'))
    (hd : Plain d) : Plain d' ∧
      (∀ t', Before to t' w' → ∀ id ∈ refsOf (mDrawing d'), HasRel t'.rels id) := by
  rcases d with ⟨inl, anchor⟩
  unfold Drawing.copymedia at h
  simp only at h
  split at h
  · rename_i i
    obtain ⟨⟨w1, i'⟩, h1, h2⟩ := Res.bind_eq_ok.1 h
    simp only [Res.pure_eq, Res.ok.injEq, Prod.mk.injEq] at h2
    obtain ⟨rfl, rfl⟩ := h2
    have k := inline_copy h1 (hd.1 i rfl)
    refine ⟨⟨fun x hx => (k x hx).1, fun a ha => by cases ha⟩, fun t' ht' => ?_⟩
    cases i' with
    | none => rw [rf_noDrawing]; simp
    | some x => rw [rf_inlineO]; exact (k x rfl).2 t' ht'
  · split at h
    · rename_i i
      obtain ⟨⟨w1, i'⟩, h1, h2⟩ := Res.bind_eq_ok.1 h
      simp only [Res.pure_eq, Res.ok.injEq, Prod.mk.injEq] at h2
      obtain ⟨rfl, rfl⟩ := h2
      have k := anchor_copy h1 (hd.2 i rfl)
      refine ⟨⟨fun a ha => (by cases ha), fun x hx => (k x hx).1⟩, fun t' ht' => ?_⟩
      cases i' with
      | none => rw [rf_noDrawing]; simp
      | some x => rw [rf_anchorO]; exact (k x rfl).2 t' ht'
    · simp only [Res.ok.injEq, Prod.mk.injEq] at h
      rw [← h.2]
      refine ⟨⟨fun a ha => (by cases ha), fun a ha => (by cases ha)⟩, fun t' _ => ?_⟩
      rw [rf_noDrawing]; simp

theorem plain_inv : DrawInv Plain where
  inlinePic := by
    intro idn id rid w h
    refine ⟨?_, fun a ha => by cases ha⟩
    intro i hi g hg gd hgd
    obtain rfl := Option.some.inj hi
    obtain rfl := Option.some.inj hg
    obtain rfl := Option.some.inj hgd
    simp [plainData, mShapeO, mCanvasO, mGroupO, refsOfL]
  anchorPic := by
    intro idn id rid w h
    refine ⟨fun a ha => (by cases ha), ?_⟩
    intro i hi g hg gd hgd
    obtain rfl := Option.some.inj hi
    obtain rfl := Option.some.inj hg
    obtain rfl := Option.some.inj hgd
    simp [plainData, mShapeO, mCanvasO, mGroupO, refsOfL]
  inlineShape := by
    intro p f w h name bw prst ln d hd
    simp only [Para.addInlineShape, drawingRun, Run.draws, RChild.drawing?, List.filterMap_cons,
      List.filterMap_nil, List.mem_cons, List.not_mem_nil, or_false] at hd
    subst hd
    refine ⟨?_, fun a ha => by cases ha⟩
    intro i hi g hg gd hgd
    obtain rfl := Option.some.inj hi
    obtain rfl := Option.some.inj hg
    obtain rfl := Option.some.inj hgd
    simp [plainData, mShapeO, mCanvasO, mGroupO, refsOfL, rf_mShape, optN, rf_mShapePr, mTextBoxO]
  anchorShape := by
    intro p f w h name bw prst ln d hd
    simp only [Para.addAnchorShape, drawingRun, Run.draws, RChild.drawing?, List.filterMap_cons,
      List.filterMap_nil, List.mem_cons, List.not_mem_nil, or_false] at hd
    subst hd
    refine ⟨fun a ha => (by cases ha), ?_⟩
    intro i hi g hg gd hgd
    obtain rfl := Option.some.inj hi
    obtain rfl := Option.some.inj hg
    obtain rfl := Option.some.inj hgd
    simp [plainData, mShapeO, mCanvasO, mGroupO, refsOfL, rf_mShape, optN, rf_mShapePr, mTextBoxO]
  copy := fun h hd => (drawing_copy h hd).1

/-! ## Copies -/

/-- The rules: copies of plain drawings and of links refer to entries of `t'` -/
def refRules (ok : String → Prop) : CopyRules where
  draw := fun d d' => Plain d → ∀ id ∈ refsOf (mDrawing d'), ok id
  link := fun _ _ id' => ok id'
  drop := fun _ _ => True

theorem ref_obeys (to : DocId) (t' : Doc) :
    Obeys (refRules (HasRel t'.rels)) to (fun _ => True) (Before to t') where
  fwd := fun _ _ => trivial
  bwd := Before.bwd
  draw := fun h _ hF hd => (drawing_copy h hd).2 t' hF
  link := by
    intro w file id tgt src t _ _ _ ht hF
    obtain ⟨t1, ht1, e1⟩ := hF
    rw [List.getElem?_set_self (lt_of_getElem? ht)] at ht1
    obtain rfl := Option.some.inj ht1
    exact HasRel.evo e1 (addLink_rel _ _)
  drop := fun _ _ _ _ => trivial

theorem run_copied_refs {ok : String → Prop} {r r' : Run} (h : RunCopied (refRules ok) r r')
    (hr : ∀ d ∈ r.draws, Plain d) : ∀ id ∈ refsOf (mRun r'), ok id := by
  obtain ⟨_, _, _, h⟩ := h
  rw [rf_mRun]
  simp only [Run.draws] at hr
  generalize r.children = cs at *
  generalize r'.children = cs' at *
  induction h with
  | nil => intro d hd; simp at hd
  | @cons a b as bs hab _ ih =>
    intro d hd
    have ih := ih fun d hd => hr d (by
      cases a <;> simp_all [RChild.drawing?])
    rw [List.flatMap_cons] at hd
    rcases List.mem_append.1 hd with hd | hd
    · cases a with
      | drawing x =>
        obtain ⟨x', rfl, hx⟩ := hab
        rw [rf_rchild] at hd
        simp only [RChild.drawing?, Option.toList_some, List.flatMap_cons, List.flatMap_nil,
          List.append_nil] at hd
        exact hx (hr x (by simp [RChild.drawing?])) d hd
      | text t => cases hab; simp [rf_rchild, RChild.drawing?] at hd
      | tab t => cases hab; simp [rf_rchild, RChild.drawing?] at hd
      | br t => cases hab; simp [rf_rchild, RChild.drawing?] at hd
    · exact ih d hd

theorem para_copied_refs {ok : String → Prop} {to} {p p' : Para} (h : ParaCopied (refRules ok) to p p')
    (hp : ∀ d ∈ p.draws, Plain d) : ParaRefs ok p' := by
  obtain ⟨_, _, h⟩ := h
  unfold ParaRefs
  rw [rf_mPara]
  simp only [Para.draws] at *
  generalize p.children = cs at *
  generalize p'.children = cs' at *
  induction h with
  | nil => intro d hd; simp at hd
  | @run r r' cs cs' hr _ ih =>
    intro d hd
    simp only [List.flatMap_cons, List.mem_append, PChild.draws, mPChild] at hd hp
    rcases hd with hd | hd
    · exact run_copied_refs hr (fun d hd => hp d (.inl hd)) d hd
    · exact ih (fun d hd => hp d (.inr hd)) d hd
  | @link r r' cs cs' hl hr _ ih =>
    intro d hd
    simp only [List.flatMap_cons, List.mem_append, PChild.draws, mPChild, rf_mLink, List.mem_cons] at hd hp
    rcases hd with (rfl | hd) | hd
    · exact hl
    · exact run_copied_refs hr (fun d hd => hp d (.inl hd)) d hd
    · exact ih (fun d hd => hp d (.inr hd)) d hd
  | @dropped r cs cs' _ _ ih =>
    intro d hd
    simp only [List.flatMap_cons, List.mem_append] at hp
    exact ih (fun d hd => hp d (.inr hd)) d hd
  | @rpr x cs cs' _ ih =>
    intro d hd
    simp only [List.flatMap_cons, PChild.draws, List.nil_append, mPChild, rf_mRPr] at hd hp
    exact ih hp d hd

theorem each_forall {α : Type} {R : α → α → Prop} {P Q : α → Prop} (hR : ∀ a b, R a b → P a → Q b)
    {as bs : List α} (h : Each R as bs) (ha : ∀ a ∈ as, P a) : ∀ b ∈ bs, Q b := by
  induction h with
  | nil => intro b hb; cases hb
  | @cons a b as bs hab _ ih =>
    intro y hy
    rcases List.mem_cons.1 hy with rfl | hy
    · exact hR a _ hab (ha a (by simp))
    · exact ih (fun x hx => ha x (by simp [hx])) y hy

theorem item_copied_refs {ok : String → Prop} {to} {x x' : BItem} (h : ItemCopied (refRules ok) to x x')
    (hx : ItemDraws Plain x) : ItemRefs ok x' ∧ ItemOf to x' := by
  cases x with
  | para p => obtain ⟨p', rfl, h⟩ := h; exact ⟨itemRefs_para.2 (para_copied_refs h hx), h.2.1⟩
  | sect s => cases h; exact ⟨itemRefs_sect, trivial⟩
  | table t =>
    obtain ⟨t', rfl, _, _, h⟩ := h
    refine ⟨itemRefs_table.2 ?_, ?_⟩
    · refine each_forall (P := fun r => ∀ d ∈ r.draws, Plain d) (fun r r' hr hp => ?_) h
        (forall_flatMap.1 hx)
      refine each_forall (P := fun c => ∀ d ∈ c.draws, Plain d) (fun c c' hc hp => ?_) hr.2
        (forall_flatMap.1 hp)
      exact each_forall (P := fun p => ∀ d ∈ p.draws, Plain d) (fun p p' hq hp => para_copied_refs hq hp)
        hc.2.2 (forall_flatMap.1 hp)
    · refine each_forall (P := fun _ => True) (Q := RowOf to) (fun r r' hr _ => ?_) h (fun _ _ => trivial)
      refine each_forall (P := fun _ => True) (Q := CellOf to) (fun c c' hc _ => ?_) hr.2 (fun _ _ => trivial)
      exact ⟨hc.2.1, each_forall (P := fun _ => True) (fun p p' hq _ => hq.2.1) hc.2.2 (fun _ _ => trivial)⟩

/-! ## Documents whose references resolve -/

/-- The document is number `d` of its world, its parts belong to it, its references resolve -/
structure SoundDoc (d : DocId) (f : Doc) : Prop where
  owns : ∀ x ∈ f.items, ItemOf d x
  refs : ∀ x ∈ f.items, ItemRefs (HasRel f.rels) x

/-- All documents of the world are like that -/
def SoundWorld (w : World) : Prop := ∀ (d : DocId) f, w[d]? = some f → SoundDoc d f

theorem SoundDoc.evo {d : DocId} {f g : Doc} (h : SoundDoc d f) (e : Evo f g)
    (hi : ∀ x ∈ g.items, x ∈ f.items ∨ ItemOf d x ∧ ItemRefs (HasRel g.rels) x) : SoundDoc d g := by
  refine ⟨fun x hx => ?_, fun x hx => ?_⟩
  · rcases hi x hx with h1 | h1
    · exact h.owns x h1
    · exact h1.1
  · rcases hi x hx with h1 | h1
    · exact (h.refs x h1).mono fun id hid => hid.evo e
    · exact h1.2

theorem soundWorld_push {w : World} (h : SoundWorld w) {f : Doc} (hf : f.items = []) :
    SoundWorld (w ++ [f]) := by
  intro d g hg
  rcases Nat.lt_or_ge d w.length with hd | hd
  · rw [List.getElem?_append_left hd] at hg
    exact h d g hg
  · rw [List.getElem?_append_right hd] at hg
    have : d - w.length = 0 := by have := lt_of_getElem? hg; simp at this; omega
    rw [this] at hg
    simp only [List.getElem?_cons_zero, Option.some.injEq] at hg; subst hg
    exact ⟨by rw [hf]; simp, by rw [hf]; simp⟩

theorem soundWorld_set {w : World} (h : SoundWorld w) {d : DocId} {f : Doc} (hf : SoundDoc d f) :
    SoundWorld (w.set d f) := by
  intro d' g hg
  by_cases e : d' = d
  · subst e
    have hl : d' < w.length := by have := lt_of_getElem? hg; simpa using this
    rw [List.getElem?_set_self hl] at hg
    obtain rfl := Option.some.inj hg
    exact hf
  · rw [List.getElem?_set_ne (Ne.symm e)] at hg
    exact h d' g hg

theorem onDoc_sound {w w' : World} {d : DocId} {act : Doc → Res Doc}
    (ha : ∀ f f', act f = .ok f' → SoundDoc d f → SoundDoc d f')
    (hw : SoundWorld w) (h : w.onDoc d act = .ok w') : SoundWorld w' := by
  unfold World.onDoc at h
  split at h
  · simp at h
  · rename_i f hf
    obtain ⟨f', h1, h2⟩ := Res.bind_eq_ok.1 h
    simp only [Res.ok.injEq] at h2; subst h2
    exact soundWorld_set hw (ha _ _ h1 (hw d f hf))

theorem modPara_refs {ok : String → Prop} {items : List BItem} {l : Loc} {p' : Para}
    (h : ∀ x ∈ items, ItemRefs ok x) (hp : ParaRefs ok p') :
    ∀ x ∈ modPara items l (fun _ => p'), ItemRefs ok x := by
  cases l with
  | body i =>
    refine forall_modify h ?_
    intro x hx
    cases x with
    | para p => exact itemRefs_para.2 hp
    | table t => exact hx
    | sect s => exact hx
  | cell i r c j =>
    refine forall_modify h ?_
    intro x hx
    cases x with
    | para p => exact hx
    | sect s => exact hx
    | table t =>
      refine itemRefs_table.2 (forall_modify (itemRefs_table.1 hx) ?_)
      intro row hrow
      refine forall_modify (P := fun (c : Cell) => ∀ p ∈ c.paras, ParaRefs ok p) hrow ?_
      intro cell hcell
      exact forall_modify (P := ParaRefs ok) hcell fun _ _ => hp

theorem getPara_refs {ok : String → Prop} {items : List BItem} {l : Loc} {p : Para}
    (h : ∀ x ∈ items, ItemRefs ok x) (hp : getPara items l = some p) : ParaRefs ok p := by
  cases l with
  | body i =>
    simp only [getPara] at hp
    split at hp
    · rename_i q hq
      simp only [Option.some.injEq] at hp; subst hp
      exact itemRefs_para.1 (h _ (List.mem_of_getElem? hq))
    · simp at hp
  | cell i r c j =>
    simp only [getPara] at hp
    split at hp
    · rename_i t ht
      have ht := itemRefs_table.1 (h _ (List.mem_of_getElem? ht))
      simp only [Option.bind_eq_bind, Option.bind_eq_some_iff] at hp
      obtain ⟨row, hrow, cell, hcell, hj⟩ := hp
      exact ht row (List.mem_of_getElem? hrow) cell (List.mem_of_getElem? hcell) p
        (List.mem_of_getElem? hj)
    · simp at hp

/-- What a paragraph method does: it adds children that refer to entries of the document -/
structure AddsRefs (f : Doc) (p : Para) (f' : Doc) (p' : Para) : Prop where
  items : f'.items = f.items
  evo : Evo f f'
  file : p'.file = p.file
  children : ∃ cs, p'.children = p.children ++ cs ∧ ∀ c ∈ cs, ∀ id ∈ refsOf (mPChild c), HasRel f'.rels id

theorem onPara_sound {w w' : World} {d : DocId} {l : Loc} {act : Doc → Para → Res (Doc × Para)}
    (ha : ∀ f p f' p', act f p = .ok (f', p') → AddsRefs f p f' p')
    (hw : SoundWorld w) (h : w.onPara d l act = .ok w') : SoundWorld w' := by
  obtain ⟨doc, p, fid, f, f', p', doc1, hdoc, hp, hfid, hf, hact, hd1, rfl⟩ := onPara_ok h
  obtain ⟨h1, h2, h3, cs, h4, h5⟩ := ha _ _ _ _ hact
  have hs := hw d doc hdoc
  have hfile := getPara_file hs.owns hp
  rw [hfid] at hfile
  obtain rfl := Option.some.inj hfile
  rw [hdoc] at hf
  obtain rfl := Option.some.inj hf
  rw [List.getElem?_set_self (lt_of_getElem? hdoc)] at hd1
  obtain rfl := Option.some.inj hd1
  rw [List.set_set]
  refine soundWorld_set hw ⟨?_, ?_⟩
  · simp only [h1]
    exact itemOf_modPara hs.owns (by rw [h3, hfid])
  · simp only [h1]
    refine modPara_refs (fun x hx => (hs.refs x hx).mono fun id hid => hid.evo h2) ?_
    have hp0 := (getPara_refs hs.refs hp).mono fun id hid => hid.evo h2
    intro id hid
    rw [rf_mPara, h4, List.flatMap_append] at hid
    rcases List.mem_append.1 hid with hid | hid
    · exact hp0 id (by rw [rf_mPara]; exact hid)
    · exact forall_mem_flatMap.2 h5 id hid

theorem appendItems_sound {xs : List BItem} {w w' : World} {to : DocId} {t : Doc} (hw : SoundWorld w)
    (hx : ∀ x ∈ xs, ItemDraws Plain x) (ht : w[to]? = some t) (h1 : appendItems w to xs = .ok w') :
    SoundWorld w' := by
  have g := appendItems_grow h1
  obtain ⟨t1, ht1, e⟩ := g.evo t ht
  obtain ⟨t', copies, h2, h3, h4⟩ := appendItems_copied (ref_obeys to t1) h1 ht trivial ⟨t1, ht1, .refl _⟩
  rw [ht1] at h2; obtain rfl := Option.some.inj h2
  intro d f hd
  by_cases he : d = to
  · subst he
    rw [ht1] at hd; obtain rfl := Option.some.inj hd
    refine (hw d t ht).evo e ?_
    intro x hx'
    rw [h3] at hx'
    rcases List.mem_append.1 hx' with hx' | hx'
    · exact .inl hx'
    · have := each_forall (P := ItemDraws Plain)
        (Q := fun x => ItemRefs (HasRel t1.rels) x ∧ ItemOf d x)
        (fun a b hab ha => item_copied_refs hab ha) h4 hx x hx'
      exact .inr ⟨this.2, this.1⟩
  · rw [g.other d he] at hd
    exact hw d f hd

theorem splitFill_sound {sep} {xs : List BItem} {w w' : World} {to : DocId} {t : Doc} {cnt left}
    (hw : SoundWorld w) (hx : ∀ x ∈ xs, ItemDraws Plain x) (ht : w[to]? = some t)
    (h1 : splitFill sep to w cnt xs = .ok (w', left)) : SoundWorld w' := by
  have g := splitFill_grow h1
  obtain ⟨t1, ht1, e⟩ := g.evo t ht
  obtain ⟨t', taken, copies, h2, h3, h4, h5, _⟩ :=
    splitFill_copied (ref_obeys to t1) h1 ht trivial ⟨t1, ht1, .refl _⟩
  rw [ht1] at h2; obtain rfl := Option.some.inj h2
  intro d f hd
  by_cases he : d = to
  · subst he
    rw [ht1] at hd; obtain rfl := Option.some.inj hd
    refine (hw d t ht).evo e ?_
    intro x hx'
    rw [h3] at hx'
    rcases List.mem_append.1 hx' with hx' | hx'
    · exact .inl hx'
    · have := each_forall (P := ItemDraws Plain)
        (Q := fun x => ItemRefs (HasRel t1.rels) x ∧ ItemOf d x)
        (fun a b hab ha => item_copied_refs hab ha) h4
        (fun y hy => hx y (by rw [h5]; simp [hy])) x hx'
      exact .inr ⟨this.2, this.1⟩
  · rw [g.other d he] at hd
    exact hw d f hd

theorem splitLoop_sound {sep} {f : Doc} : ∀ {n : Nat} {w : World} {docs items w' docs'}, SoundWorld w →
    WorldDraws Plain w → (∀ x ∈ items, ItemDraws Plain x) →
    splitLoop sep f n w docs items = .ok (w', docs') → SoundWorld w' := by
  intro n
  induction n with
  | zero => intro w docs items w' docs' _ _ _ h; simp [splitLoop] at h
  | succ n ih =>
    intro w docs items w' docs' hw hp hx h1
    cases items with
    | nil =>
      simp only [splitLoop, Res.ok.injEq, Prod.mk.injEq] at h1
      rw [← h1.1]; exact hw
    | cons i is =>
      simp only [splitLoop] at h1
      obtain ⟨⟨w1, left⟩, h2, h3⟩ := Res.bind_eq_ok.1 h1
      simp only at h3
      have hw0 : SoundWorld (w ++ [splitDoc f]) := soundWorld_push hw rfl
      have hp0 : WorldDraws Plain (w ++ [splitDoc f]) :=
        worldDraws_push hp (by intro x hx; simp [splitDoc] at hx)
      have h4 := splitFill_sound (t := splitDoc f) hw0 hx (by simp) h2
      obtain ⟨hp1, h5⟩ := splitFill_draws plain_inv.copy (t := splitDoc f) hp0 hx (by simp) h2
      cases left with
      | none =>
        simp only [Res.pure_eq, Res.ok.injEq, Prod.mk.injEq] at h3
        rw [← h3.1]; exact h4
      | some rest => exact ih h4 hp1 (by simpa using h5) h3

/-! ## Histories -/

/-- A change of the body that brings in no references, no drawings that are not plain and no
paragraphs of other documents -/
structure KeepsRefs (g : List BItem → List BItem) : Prop where
  refs : ∀ ok items, (∀ x ∈ items, ItemRefs ok x) → ∀ x ∈ g items, ItemRefs ok x
  owns : ∀ d items, (∀ x ∈ items, ItemOf d x) → ∀ x ∈ g items, ItemOf d x
  draws : ∀ items, (∀ x ∈ items, ItemDraws Plain x) → ∀ x ∈ g items, ItemDraws Plain x

/-- No data of another document comes in, exported data is only changed as above -/
def Op.RefsOk : Op → Prop
  | .load items _ => items = []
  | .edit _ g => KeepsRefs g
  | _ => True

theorem refsOk_draws {o : Op} (h : o.RefsOk) : o.DrawsOk Plain := by
  cases o with
  | load items _ =>
    obtain rfl : items = [] := h
    intro x hx
    cases hx
  | edit _ g => exact h.draws
  | _ => exact trivial

theorem addRun_adds {f f' : Doc} {p : Para} {r : Run} (hi : f'.items = f.items) (e : Evo f f')
    (hr : ∀ id ∈ refsOf (mRun r), HasRel f'.rels id) : AddsRefs f p f' (p.addRun r) := by
  refine ⟨hi, e, rfl, [.run r], rfl, ?_⟩
  intro c hc id hid
  obtain rfl := List.mem_singleton.1 hc
  exact hr id (by simpa only [mPChild] using hid)

theorem addPicture_rel [ImgEnv] {f f' : Doc} {pic : Bytes} {idn id rid w h}
    (hp : f.addPicture pic = (f', .ok (idn, id, rid, w, h))) : HasRel f'.rels rid := by
  unfold Doc.addPicture at hp
  split at hp
  · simp at hp
  · simp only at hp
    split at hp
    · simp at hp
    · simp only [Prod.mk.injEq, Res.ok.injEq] at hp
      obtain ⟨rfl, _, _, rfl, _⟩ := hp
      exact addImage_rel _ _ _

theorem drawingRun_refs (d : Drawing) : refsOf (mRun (drawingRun d)) = refsOf (mDrawing d) := by
  rw [rf_run_draws]
  simp [drawingRun, Run.draws, RChild.drawing?]

theorem noRefs_of_noDraws {r : Run} (h : r.draws = []) : refsOf (mRun r) = [] := by
  rw [rf_run_draws, h]; rfl

theorem doc_push_sound {d : DocId} {f : Doc} (h : SoundDoc d f) {x : BItem} (h1 : ItemOf d x)
    (h2 : ItemRefs (HasRel f.rels) x) : SoundDoc d { f with items := f.items ++ [x] } := by
  refine h.evo (.items _ (.refl _)) ?_
  intro y hy
  rcases List.mem_append.1 hy with hy | hy
  · exact .inl hy
  · obtain rfl := List.mem_singleton.1 hy
    exact .inr ⟨h1, h2⟩

theorem step_sound [ImgEnv] {w w' : World} {o : Op} (ho : o.RefsOk) (hp : WorldDraws Plain w)
    (hw : SoundWorld w) (h : step w o = .ok w') : SoundWorld w' := by
  cases o with
  | new =>
    simp only [step, Res.ok.injEq] at h; subst h
    exact soundWorld_push hw rfl
  | load items media =>
    simp only [step, Res.ok.injEq] at h; subst h
    obtain rfl : items = [] := ho
    exact soundWorld_push hw rfl
  | append f af =>
    simp only [step] at h
    split at h
    · simp at h
    · rename_i t ht
      unfold World.appendFile at h
      split at h
      · simp at h
      · rename_i a ha
        exact appendItems_sound hw (hp a (List.mem_of_getElem? ha)) ht h
  | split d sep =>
    simp only [step] at h
    split at h
    · rename_i w1 docs h1
      simp only [Res.ok.injEq] at h; subst h
      unfold World.splitByParagraph at h1
      split at h1
      · simp at h1
      · rename_i f hf
        exact splitLoop_sound hw hp (hp f (List.mem_of_getElem? hf)) h1
    · simp at h
    · simp at h
  | edit d g =>
    refine onDoc_sound ?_ hw h
    intro f f' h hb; simp only [Res.ok.injEq] at h; subst h
    exact ⟨ho.owns d _ hb.owns, ho.refs _ _ hb.refs⟩
  | addParagraph d =>
    refine onDoc_sound ?_ hw h
    intro f f' h hb; simp only [Res.ok.injEq] at h; subst h
    refine doc_push_sound hb rfl ?_
    intro id hid
    simp [mItem, rf_mPara] at hid
  | cellAddParagraph d i r c =>
    refine onDoc_sound ?_ hw h
    intro f f' h hb; simp only [Res.ok.injEq] at h; subst h
    refine ⟨?_, ?_⟩
    · refine forall_modify hb.owns ?_
      intro x hx
      cases x with
      | para p => exact hx
      | sect s => exact hx
      | table t =>
        refine forall_modify (P := RowOf d) hx ?_
        intro row hrow
        refine forall_modify (P := CellOf d) hrow ?_
        intro cell hcell
        refine ⟨hcell.1, ?_⟩
        intro p hp
        simp only [Cell.addParagraph, List.mem_append, List.mem_cons, List.not_mem_nil, or_false] at hp
        rcases hp with hp | rfl
        · exact hcell.2 p hp
        · exact hcell.1
    · refine forall_modify hb.refs ?_
      intro x hx
      cases x with
      | para p => exact hx
      | sect s => exact hx
      | table t =>
        refine itemRefs_table.2 (forall_modify (itemRefs_table.1 hx) ?_)
        intro row hrow
        refine forall_modify (P := fun (c : Cell) => ∀ p ∈ c.paras, ParaRefs (HasRel f.rels) p) hrow ?_
        intro cell hcell p hp
        simp only [Cell.addParagraph, List.mem_append, List.mem_cons, List.not_mem_nil, or_false] at hp
        rcases hp with hp | rfl
        · exact hcell p hp
        · intro id hid; simp [rf_mPara] at hid
  | addTable d row col width colors =>
    refine onDoc_sound ?_ hw h
    intro f f' h hb
    unfold Doc.addTable at h
    split at h
    · rename_i heq
      simp only [Res.ok.injEq] at h; subst h
      split at heq
      · simp at heq
      · split at heq
        · simp at heq
        · simp only [Res.ok.injEq, Prod.mk.injEq] at heq
          rw [← heq.1]
          refine doc_push_sound hb ?_ (itemRefs_table.2 ?_)
          · intro r hr c hc
            simp only [List.mem_replicate] at hr
            rw [hr.2] at hc
            simp only [List.mem_replicate] at hc
            rw [hc.2]
            exact ⟨rfl, by intro p hp; simp at hp⟩
          · intro r hr c hc p hp
            simp only [List.mem_replicate] at hr
            rw [hr.2] at hc
            simp only [List.mem_replicate] at hc
            rw [hc.2] at hp
            simp at hp
    · simp at h
    · simp at h
  | addTableTwips d rows cols width colors =>
    refine onDoc_sound ?_ hw h
    intro f f' h hb; simp only [Res.ok.injEq] at h; subst h
    refine doc_push_sound hb ?_ (itemRefs_table.2 ?_)
    · intro r hr c hc
      simp only [List.mem_map] at hr
      obtain ⟨h, _, rfl⟩ := hr
      simp only [List.mem_map] at hc
      obtain ⟨h, _, rfl⟩ := hc
      exact ⟨rfl, by intro p hp; simp at hp⟩
    · intro r hr c hc p hp
      simp only [List.mem_map] at hr
      obtain ⟨h, _, rfl⟩ := hr
      simp only [List.mem_map] at hc
      obtain ⟨h, _, rfl⟩ := hc
      simp at hp
  | withA3Page d =>
    refine onDoc_sound ?_ hw h
    intro f f' h hb; simp only [Res.ok.injEq] at h; subst h
    exact doc_push_sound hb trivial itemRefs_sect
  | withA4Page d =>
    refine onDoc_sound ?_ hw h
    intro f f' h hb; simp only [Res.ok.injEq] at h; subst h
    exact doc_push_sound hb trivial itemRefs_sect
  | useTemplate d t l tfs =>
    refine onDoc_sound ?_ hw h
    intro f f' h hb; simp only [Res.ok.injEq] at h; subst h
    exact ⟨hb.owns, hb.refs⟩
  | increaseID d name =>
    refine onDoc_sound ?_ hw h
    intro f f' h hb; simp only [Res.ok.injEq] at h; subst h
    exact ⟨hb.owns, hb.refs⟩
  | addText d l text =>
    refine onPara_sound ?_ hw h
    intro f p f' p' h; simp only [Res.ok.injEq, Prod.mk.injEq] at h; rw [← h.1, ← h.2]
    unfold Para.addText
    split
    · refine addRun_adds rfl (.refl _) ?_
      rw [noRefs_of_noDraws (by simp [Run.draws, RChild.drawing?])]; simp
    · refine addRun_adds rfl (.refl _) ?_
      rw [noRefs_of_noDraws (by simp [Run.draws, linePieces_draws])]; simp
  | addLink d l text link =>
    refine onPara_sound ?_ hw h
    intro f p f' p' h; simp only [Res.ok.injEq, Prod.mk.injEq] at h; rw [← h.1, ← h.2]
    refine ⟨rfl, .link _ (.refl _), rfl, [_], rfl, ?_⟩
    intro c hc id hid
    obtain rfl := List.mem_singleton.1 hc
    simp only [mPChild, rf_mLink, rf_mRun, List.flatMap_nil, List.mem_singleton] at hid
    subst hid
    exact addLink_rel _ _
  | addInlineDrawing d l pic =>
    refine onPara_sound ?_ hw h
    intro f p f' p' h
    unfold Para.addInlineDrawing at h
    have he := addPicture_evo f pic
    cases hp : f.addPicture pic with
    | mk f1 r =>
      obtain ⟨h1, h2⟩ := addPicture_adds hp
      rw [hp] at h he
      rcases h2 with ⟨⟨e, rfl⟩, rfl⟩ | ⟨h3, rfl | ⟨id, rid, a, b, rfl⟩⟩
      · simp only [Res.ok.injEq, Prod.mk.injEq] at h
        obtain ⟨rfl, rfl⟩ := h
        exact ⟨rfl, .refl _, rfl, [], by simp, by simp⟩
      · simp at h
      · simp only [Res.ok.injEq, Prod.mk.injEq] at h
        obtain ⟨rfl, rfl⟩ := h
        refine addRun_adds h1 he ?_
        rw [drawingRun_refs, rf_inlineO]
        refine rf_graphic ((plain_inv.inlinePic _ _ _ _ _).1 _ rfl) ?_
        intro g gd q bf hg hgd hq hbf
        obtain rfl := Option.some.inj hg
        obtain rfl := Option.some.inj hgd
        obtain rfl := Option.some.inj hq
        obtain rfl := Option.some.inj hbf
        exact addPicture_rel hp
  | addAnchorDrawing d l pic =>
    refine onPara_sound ?_ hw h
    intro f p f' p' h
    unfold Para.addAnchorDrawing at h
    have he := addPicture_evo f pic
    cases hp : f.addPicture pic with
    | mk f1 r =>
      obtain ⟨h1, h2⟩ := addPicture_adds hp
      rw [hp] at h he
      rcases h2 with ⟨⟨e, rfl⟩, rfl⟩ | ⟨h3, rfl | ⟨id, rid, a, b, rfl⟩⟩
      · simp only [Res.ok.injEq, Prod.mk.injEq] at h
        obtain ⟨rfl, rfl⟩ := h
        exact ⟨rfl, .refl _, rfl, [], by simp, by simp⟩
      · simp at h
      · simp only [Res.ok.injEq, Prod.mk.injEq] at h
        obtain ⟨rfl, rfl⟩ := h
        refine addRun_adds h1 he ?_
        rw [drawingRun_refs, rf_anchorO]
        refine rf_graphic ((plain_inv.anchorPic _ _ _ _ _).2 _ rfl) ?_
        intro g gd q bf hg hgd hq hbf
        obtain rfl := Option.some.inj hg
        obtain rfl := Option.some.inj hgd
        obtain rfl := Option.some.inj hq
        obtain rfl := Option.some.inj hbf
        exact addPicture_rel hp
  | addInlineShape d l sw sh name bw prst ln =>
    refine onPara_sound ?_ hw h
    intro f p f' p' h; simp only [Res.ok.injEq, Prod.mk.injEq] at h; rw [← h.1, ← h.2]
    refine addRun_adds rfl (.incID _ (.docID (.refl _))) ?_
    rw [drawingRun_refs, rf_inlineO]
    have hpl := plain_inv.inlineShape p f sw sh name bw prst ln _ (List.mem_singleton.2 rfl)
    refine rf_graphic (hpl.1 _ rfl) ?_
    intro g gd q bf hg hgd hq hbf
    obtain rfl := Option.some.inj hg
    obtain rfl := Option.some.inj hgd
    cases hq
  | addAnchorShape d l sw sh name bw prst ln =>
    refine onPara_sound ?_ hw h
    intro f p f' p' h; simp only [Res.ok.injEq, Prod.mk.injEq] at h; rw [← h.1, ← h.2]
    refine addRun_adds rfl (.incID _ (.docID (.refl _))) ?_
    rw [drawingRun_refs, rf_anchorO]
    have hpl := plain_inv.anchorShape p f sw sh name bw prst ln _ (List.mem_singleton.2 rfl)
    refine rf_graphic (hpl.2 _ rfl) ?_
    intro g gd q bf hg hgd hq hbf
    obtain rfl := Option.some.inj hg
    obtain rfl := Option.some.inj hgd
    cases hq

theorem run_sound [ImgEnv] : ∀ {os : List Op} {w w' : World}, (∀ o ∈ os, o.RefsOk) →
    WorldDraws Plain w → SoundWorld w → run w os = .ok w' → SoundWorld w' := by
  intro os
  induction os with
  | nil =>
    intro w w' _ _ hw h
    simp only [run, Res.ok.injEq] at h; subst h
    exact hw
  | cons o os ih =>
    intro w w' ho hp hw h
    simp only [run] at h
    split at h
    · rename_i w1 h1
      have ho1 := ho o (by simp)
      exact ih (fun o ho' => ho o (by simp [ho'])) (step_draws plain_inv.toShapeInv (refsOk_draws ho1)
        (plain_inv.picsOk o) hp h1)
        (step_sound ho1 hp hw h1) h
    · simp at h
    · simp at h

end Docx
