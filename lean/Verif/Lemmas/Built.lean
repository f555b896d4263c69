import Verif.SpecBuilt
import Verif.Lemmas.CopyRules
import Verif.Props.Sessions

/-!
# Lemmas for C98: what a document shows under the changes that calls make
-/

set_option linter.unusedSectionVars false

namespace Docx

/-! ## Lists -/

theorem map_modify_at {α β : Type} {f : α → β} {g : α → α} {G : β → β} {l : List α} {i : Nat}
    (h : ∀ a, l[i]? = some a → f (g a) = G (f a)) : (l.modify i g).map f = (l.map f).modify i G := by
  apply List.ext_getElem?
  intro j
  simp only [List.getElem?_map, List.getElem?_modify]
  by_cases hij : i = j
  · subst hij
    cases hl : l[i]? with
    | none => rfl
    | some a => simp [h a hl]
  · cases l[j]? <;> simp [hij]

theorem map_modify_id {α β : Type} {f : α → β} {g : α → α} {l : List α} {i : Nat} (h : ∀ a, f (g a) = f a) :
    (l.modify i g).map f = l.map f := by
  rw [map_modify_at (G := id) fun a _ => h a, List.modify_id]

theorem all_modify {α : Type} {P : α → Prop} {g : α → α} {l : List α} {i : Nat} (hl : ∀ a ∈ l, P a)
    (h : ∀ a, l[i]? = some a → P a → P (g a)) : ∀ a ∈ l.modify i g, P a := by
  intro a ha
  obtain ⟨j, hj⟩ := List.getElem?_of_mem ha
  rw [List.getElem?_modify] at hj
  cases hb : l[j]? with
  | none => rw [hb] at hj; simp at hj
  | some b =>
    rw [hb] at hj
    have hP := hl b (List.mem_of_getElem? hb)
    by_cases hij : i = j
    · subst hij
      simp at hj
      exact hj ▸ h b hb hP
    · simp [hij] at hj
      exact hj ▸ hP

theorem modify_self {α : Type} {g : α → α} {l : List α} {i : Nat} (h : ∀ a, l[i]? = some a → g a = a) :
    l.modify i g = l := by
  have := map_modify_at (f := id) (g := g) (G := id) (l := l) (i := i) (by simpa using h)
  rw [List.map_id, List.map_id] at this
  rw [this]
  exact List.modify_id i l

/-! ## The view of a changed paragraph -/

section
variable {R : String → Option String} {M : String → Option Bytes}

theorem view_modPara {items : List BItem} {l : Loc} {g : Para → Para} {k : List Bit → List Bit}
    (h : ∀ p, getPara items l = some p → viewPara R M (g p) = k (viewPara R M p)) :
    (modPara items l g).map (viewItem R M) = atPlace l k (items.map (viewItem R M)) := by
  cases l with
  | body i =>
    simp only [modPara, atPlace]
    refine map_modify_at fun a ha => ?_
    cases a with
    | para p => simp [viewItem, h p (by simp [getPara, ha])]
    | table t => rfl
    | sect s => rcases s with ⟨_ | s, _ | m, _ | c, _ | d⟩ <;> rfl
  | cell i r c j =>
    simp only [modPara, atPlace]
    refine map_modify_at fun a ha => ?_
    cases a with
    | para p => rfl
    | sect s => rcases s with ⟨_ | s, _ | m, _ | c, _ | d⟩ <;> rfl
    | table t =>
      simp only [viewItem, Block.table.injEq]
      refine map_modify_at fun row hrow => ?_
      refine map_modify_at fun cell hcell => ?_
      refine map_modify_at fun p hp => ?_
      exact h p (by simp [getPara, ha, hrow, hcell, hp])

/-- The graphic is a picture. -/
def isPic : Option Graphic → Bool
  | some ⟨_, some ⟨_, some _, _, _, _⟩⟩ => true
  | _ => false

/-- The pictures of a run that know where they belong belong to `me`. -/
def HomePiece (me : DocId) : RChild → Prop
  | .drawing d => (∀ i, d.inl = some i → isPic i.graphic = true → i.file = none ∨ i.file = some me) ∧
      ∀ a, d.anchor = some a → isPic a.graphic = true → a.file = none ∨ a.file = some me
  | _ => True

/-- A child of a paragraph, likewise -/
def HomeChild (me : DocId) : PChild → Prop
  | .run r => ∀ c ∈ r.children, HomePiece me c
  | _ => True

/-- A paragraph that belongs to document `me` -/
def OwnPara (me : DocId) (p : Para) : Prop := p.file = some me ∧ ∀ c ∈ p.children, HomeChild me c

/-- Paragraphs and cells that belong to document `me` -/
def OwnItem (me : DocId) : BItem → Prop
  | .para p => OwnPara me p
  | .table t => ∀ r ∈ t.rows, ∀ c ∈ r.cells, c.file = some me ∧ ∀ p ∈ c.paras, OwnPara me p
  | .sect _ => True

theorem own_modPara {me : DocId} {items : List BItem} {l : Loc} {g : Para → Para} (ho : ∀ x ∈ items, OwnItem me x)
    (h : ∀ p, getPara items l = some p → OwnPara me p → OwnPara me (g p)) :
    ∀ x ∈ modPara items l g, OwnItem me x := by
  cases l with
  | body i =>
    simp only [modPara]
    refine all_modify ho fun a ha hP => ?_
    cases a with
    | para p => exact h p (by simp [getPara, ha]) hP
    | table t => exact hP
    | sect s => exact hP
  | cell i r c j =>
    simp only [modPara]
    refine all_modify ho fun a ha hP => ?_
    cases a with
    | para p => exact hP
    | sect s => exact hP
    | table t =>
      refine all_modify (P := fun r : Row => ∀ c ∈ r.cells, c.file = some me ∧ ∀ p ∈ c.paras, OwnPara me p)
        hP fun row hrow hr => ?_
      refine all_modify (P := fun c : Cell => c.file = some me ∧ ∀ p ∈ c.paras, OwnPara me p)
        hr fun cell hcell hc => ⟨hc.1, ?_⟩
      refine all_modify (P := OwnPara me) hc.2 fun p hp hpf => ?_
      exact h p (by simp [getPara, ha, hrow, hcell, hp]) hpf

theorem own_getPara {me : DocId} {items : List BItem} {l : Loc} {p : Para} (ho : ∀ x ∈ items, OwnItem me x)
    (h : getPara items l = some p) : OwnPara me p := by
  cases l with
  | body i =>
    simp only [getPara] at h
    split at h
    · rename_i q hq
      cases h
      exact ho _ (List.mem_of_getElem? hq)
    · cases h
  | cell i r c j =>
    simp only [getPara] at h
    split at h
    · rename_i t ht
      have hT := ho _ (List.mem_of_getElem? ht)
      simp only [Option.bind_eq_bind, Option.bind_eq_some_iff] at h
      obtain ⟨row, hrow, cell, hcell, hp⟩ := h
      exact (hT _ (List.mem_of_getElem? hrow) _ (List.mem_of_getElem? hcell)).2 _ (List.mem_of_getElem? hp)
    · cases h

theorem own_addRun {me : DocId} {p : Para} {r : Run} (h : OwnPara me p) (hr : ∀ c ∈ r.children, HomePiece me c) :
    OwnPara me (p.addRun r) := by
  refine ⟨h.1, fun c hc => ?_⟩
  rcases List.mem_append.1 hc with hc | hc
  · exact h.2 c hc
  · rw [List.mem_singleton] at hc
    subst hc
    exact hr

theorem own_childMod {me : DocId} {p : Para} {k : Nat} {g : PChild → PChild} (h : OwnPara me p)
    (hg : ∀ c, HomeChild me c → HomeChild me (g c)) :
    OwnPara me { p with children := p.children.modify k g } :=
  ⟨h.1, all_modify h.2 fun c _ => hg c⟩

theorem known_atPlace {bs : List Block} {l : Loc} {k : List Bit → List Bit} (hk : ∀ b ∈ bs, KnownBlock b)
    (hn : ∀ p, Bit.other ∉ p → Bit.other ∉ k p) : ∀ b ∈ atPlace l k bs, KnownBlock b := by
  cases l with
  | body i =>
    simp only [atPlace]
    refine all_modify hk fun a ha hP => ?_
    cases a with
    | para p => exact hn p hP
    | table t => exact hP
    | page w h => exact hP
    | other => exact hP
  | cell i r c j =>
    simp only [atPlace]
    refine all_modify hk fun a ha hP => ?_
    cases a with
    | para p => exact hP
    | page w h => exact hP
    | other => exact hP
    | table t =>
      refine all_modify (P := fun r : List (List (List Bit)) => ∀ c ∈ r, ∀ p ∈ c, Bit.other ∉ p) hP fun row _ hr => ?_
      refine all_modify (P := fun c : List (List Bit) => ∀ p ∈ c, Bit.other ∉ p) hr fun cell _ hc => ?_
      exact all_modify (P := fun p : List Bit => Bit.other ∉ p) hc fun p _ hp => hn p hp

theorem known_addAt {bs : List Block} {l : Loc} {new : List Bit} (hk : ∀ b ∈ bs, KnownBlock b)
    (hn : Bit.other ∉ new) : ∀ b ∈ addAt l new bs, KnownBlock b :=
  known_atPlace hk fun _ hp hm => (List.mem_append.1 hm).elim hp hn

theorem known_getPara {items : List BItem} {l : Loc} {p : Para} (ho : ∀ b ∈ items.map (viewItem R M), KnownBlock b)
    (h : getPara items l = some p) : Bit.other ∉ viewPara R M p := by
  cases l with
  | body i =>
    simp only [getPara] at h
    split at h
    · rename_i q hq
      cases h
      exact ho _ (List.mem_map_of_mem (List.mem_of_getElem? hq))
    · cases h
  | cell i r c j =>
    simp only [getPara] at h
    split at h
    · rename_i t ht
      have hT := ho _ (List.mem_map_of_mem (List.mem_of_getElem? ht))
      simp only [Option.bind_eq_bind, Option.bind_eq_some_iff] at h
      obtain ⟨row, hrow, cell, hcell, hp⟩ := h
      exact hT _ (List.mem_map_of_mem (List.mem_of_getElem? hrow)) _ (List.mem_map_of_mem (List.mem_of_getElem? hcell)) _
        (List.mem_map_of_mem (List.mem_of_getElem? hp))
    · cases h

/-! ## Leaving things out -/

theorem keepLoop_filter {α : Type} (ty : α → String) (names : List String) : ∀ l : List α,
    keepLoop ty names l = l.filter fun x => names.contains (ty x)
  | [] => rfl
  | x :: xs => by
    simp only [keepLoop, List.filter_cons, keepLoop_filter ty names xs]

theorem view_kind (x : BItem) : (viewItem R M x).kind = x.typeName := by
  cases x with
  | para p => rfl
  | table t => rfl
  | sect s => rcases s with ⟨_ | s, _ | m, _ | c, _ | d⟩ <;> rfl

theorem view_keepBody (names : List String) (items : List BItem) :
    (keepBody names items).map (viewItem R M) =
      (items.map (viewItem R M)).filter fun b => names.contains b.kind := by
  rw [keepBody, keepLoop_filter, List.filter_map]
  congr 1
  apply List.filter_congr
  intro x _
  simp only [Function.comp_apply, view_kind]

theorem viewPiece_kind (c : RChild) : (viewPiece M c).kind = "*docx.Run" := by
  have hg : ∀ b g, (viewGraphic M b g).kind = "*docx.Run" := by
    intro b g
    unfold viewGraphic
    split
    · split
      · rfl
      · split <;> rfl
    · split <;> rfl
    · rfl
  cases c with
  | text t => rfl
  | tab t => rfl
  | br b =>
    simp only [viewPiece]
    split
    · rfl
    · split <;> rfl
  | drawing d =>
    rcases d with ⟨_ | i, _ | a⟩
    · rfl
    · exact hg _ _
    · exact hg _ _
    · rfl

theorem view_keepElements (names : List String) {p : Para} (h : Bit.other ∉ viewPara R M p) :
    viewPara R M (p.keepElements names) = (viewPara R M p).filter fun b => names.contains b.kind := by
  obtain ⟨pp, cs, fl⟩ := p
  simp only [viewPara, Para.keepElements, keepLoop_filter] at h ⊢
  induction cs with
  | nil => rfl
  | cons c cs ih =>
    rw [List.flatMap_cons, List.mem_append, not_or] at h
    rw [List.flatMap_cons, List.filter_append, ← ih h.2, List.filter_cons]
    have h1 : ∀ b ∈ viewChild R M c, b.kind = c.typeName := by
      intro b hb
      cases c with
      | rpr x => exact absurd (by simp [viewChild]) h.1
      | run r =>
        simp only [viewChild] at hb h
        split at hb
        · obtain ⟨x, _, rfl⟩ := List.mem_map.1 hb
          exact viewPiece_kind x
        · rename_i e; rw [if_neg e] at h; simp at h
      | link k =>
        simp only [viewChild] at hb h
        split at hb
        · rw [List.mem_singleton] at hb; subst hb; rfl
        · rw [List.mem_singleton] at hb; subst hb
          rename_i e
          split at h
          · rename_i e1 e2; exact absurd e2 (e _ e1)
          · simp at h
    by_cases e : names.contains c.typeName = true
    · rw [if_pos e, List.flatMap_cons]
      congr 1
      exact (List.filter_eq_self.2 fun b hb => by rw [h1 b hb]; exact e).symm
    · rw [if_neg e]
      have h2 : (viewChild R M c).filter (fun b => names.contains b.kind) = [] :=
        List.filter_eq_nil_iff.2 fun b hb => by rw [h1 b hb]; exact e
      rw [h2]
      rfl

/-- A rule that drops every shape, or none, and no picture -/
structure Drops (M : String → Option Bytes) (drop : Drawing → Bool) (name : String) : Prop where
  iff : ∀ d, viewPiece M (.drawing d) ≠ .other → drop d = !(viewPiece M (.drawing d)).stays name

theorem view_dropChildren {drop : Drawing → Bool} {name : String} (hd : Drops M drop name) : ∀ {cs : List PChild},
    Bit.other ∉ cs.flatMap (viewChild R M) →
    (dropPChildren drop cs).flatMap (viewChild R M) = (cs.flatMap (viewChild R M)).filter (Bit.stays name) := by
  have hr : ∀ {cs : List RChild}, Bit.other ∉ cs.map (viewPiece M) →
      (dropRChildren drop cs).map (viewPiece M) = (cs.map (viewPiece M)).filter (Bit.stays name) := by
    intro cs
    induction cs with
    | nil => intro _; rfl
    | cons c cs ih =>
      intro h
      rw [List.map_cons, List.mem_cons, not_or] at h
      rw [List.map_cons, List.filter_cons, ← ih h.2]
      cases c with
      | drawing d =>
        have e := hd.iff d (Ne.symm h.1)
        simp only [dropRChildren]
        cases hb : (viewPiece M (.drawing d)).stays name <;> rw [hb] at e <;> simp [e]
      | text t => rfl
      | tab t => rfl
      | br b =>
        have : (viewPiece M (.br b)).stays name = true := by
          simp only [viewPiece]
          split
          · rfl
          · split <;> rfl
        rw [if_pos this]; rfl
  intro cs
  induction cs with
  | nil => intro _; rfl
  | cons c cs ih =>
    intro h
    rw [List.flatMap_cons, List.mem_append, not_or] at h
    rw [List.flatMap_cons, List.filter_append, ← ih h.2]
    cases c with
    | rpr x => exact absurd (by simp [viewChild]) h.1
    | run r =>
      simp only [dropPChildren, List.flatMap_cons]
      congr 1
      have h1 := h.1
      simp only [viewChild] at h1 ⊢
      by_cases e : r.instr = ""
      · rw [if_pos e] at h1
        rw [if_pos e, if_pos e, hr h1]
      · rw [if_neg e] at h1; simp at h1
    | link k =>
      simp only [dropPChildren, List.flatMap_cons]
      congr 1
      simp only [viewChild]
      split <;> rfl

/-- A graphic that shows something is a picture or a shape. -/
theorem viewGraphic_data {b : Bool} {g : Option Graphic} (h : viewGraphic M b g ≠ .other) :
    (∃ u pic, g.bind (·.data) = some ⟨u, some pic, none, none, none⟩ ∧ ∀ name, (viewGraphic M b g).stays name = true) ∨
    (∃ u s, g.bind (·.data) = some ⟨u, none, some s, none, none⟩ ∧ ∀ name, (viewGraphic M b g).stays name =
      !["Shape", "ShapeAndCanvas", "ShapeAndCanvasAndGroup", "NilPicture"].contains name) := by
  rcases g with _ | ⟨xa, _ | ⟨uri, _ | pic, _ | sh, _ | ca, _ | gr⟩⟩ <;>
    first
    | exact absurd rfl h
    | skip
  · refine .inr ⟨_, _, rfl, fun name => ?_⟩
    simp only [viewGraphic] at h ⊢
    cases hs : sh.spPr with
    | none => rw [hs] at h; exact absurd rfl h
    | some sp => rfl
  · refine .inl ⟨_, _, rfl, fun name => ?_⟩
    simp only [viewGraphic]
    split
    · rfl
    · split <;> rfl

theorem drops_test {has : GraphicData → Bool} {name : String}
    (hp : ∀ u pic, has ⟨u, some pic, none, none, none⟩ = false)
    (hs : ∀ u s, has ⟨u, none, some s, none, none⟩ =
      ["Shape", "ShapeAndCanvas", "ShapeAndCanvasAndGroup", "NilPicture"].contains name) :
    Drops M (dropTest has) name := by
  refine ⟨fun d h => ?_⟩
  rcases d with ⟨_ | i, _ | a⟩
  · exact absurd rfl h
  · simp only [dropTest, Drawing.inlineData, Drawing.anchorData, Option.bind_none, Option.bind_some]
    rcases viewGraphic_data h with ⟨u, pic, h1, h2⟩ | ⟨u, s, h1, h2⟩
    · rw [h1]; simp only [hp, viewPiece, h2]; rfl
    · rw [h1]; simp only [hs, viewPiece, h2, Bool.not_not]
  · simp only [dropTest, Drawing.inlineData, Drawing.anchorData, Option.bind_none, Option.bind_some]
    rcases viewGraphic_data h with ⟨u, pic, h1, h2⟩ | ⟨u, s, h1, h2⟩
    · rw [h1]; simp only [hp, viewPiece, h2]; rfl
    · rw [h1]; simp only [hs, viewPiece, h2, Bool.not_not]; split <;> simp_all
  · exact absurd rfl h

theorem drops_nil : Drops M nilPicTest "NilPicture" := by
  refine ⟨fun d h => ?_⟩
  rcases d with ⟨_ | i, _ | a⟩
  · exact absurd rfl h
  · rcases viewGraphic_data h with ⟨u, pic, h1, h2⟩ | ⟨u, s, h1, h2⟩ <;>
    · obtain ⟨g, h3, h4⟩ := Option.bind_eq_some_iff.1 h1
      have h5 := h2 "NilPicture"
      rw [h3] at h5
      simp [nilPicTest, Drawing.inlineData, Drawing.anchorData, viewPiece, h5, h3, h4]
  · rcases viewGraphic_data h with ⟨u, pic, h1, h2⟩ | ⟨u, s, h1, h2⟩ <;>
    · obtain ⟨g, h3, h4⟩ := Option.bind_eq_some_iff.1 h1
      have h5 := h2 "NilPicture"
      rw [h3] at h5
      simp [nilPicTest, Drawing.inlineData, Drawing.anchorData, viewPiece, h5, h3, h4]
  · exact absurd rfl h

theorem view_dropPara (name : String) {p : Para} (h : Bit.other ∉ viewPara R M p) :
    viewPara R M (dropPara name p) = (viewPara R M p).filter (Bit.stays name) := by
  have key : ∀ {t : Drawing → Bool} {n : String}, Drops M t n → viewPara R M { p with children := dropPChildren t p.children } =
      (viewPara R M p).filter (Bit.stays n) := fun hd => view_dropChildren hd h
  unfold dropPara
  cases hm : dropMethod name with
  | none =>
    refine (List.filter_eq_self.2 fun b _ => ?_).symm
    unfold dropMethod at hm
    cases b <;> try rfl
    repeat' split at hm
    all_goals first | (cases hm; done) | simp_all [Bit.stays]
  | some f =>
    unfold dropMethod at hm
    repeat' split at hm
    all_goals first | cases hm | skip
    all_goals subst_vars
    · exact key (drops_test (fun _ _ => rfl) (fun _ _ => by rfl))
    · exact key (drops_test (fun _ _ => rfl) (fun _ _ => by rfl))
    · exact key (drops_test (fun _ _ => rfl) (fun _ _ => by rfl))
    · exact key (drops_test (fun _ _ => rfl) (fun _ _ => by rfl))
    · exact key (drops_test (fun _ _ => rfl) (fun _ _ => by rfl))
    · exact key drops_nil

theorem own_keepElements {me : DocId} (names : List String) {p : Para} (h : OwnPara me p) :
    OwnPara me (p.keepElements names) := by
  refine ⟨h.1, fun c hc => h.2 c ?_⟩
  simp only [Para.keepElements, keepLoop_filter] at hc
  exact (List.mem_filter.1 hc).1

theorem own_dropChildren {me : DocId} {t : Drawing → Bool} : ∀ {cs : List PChild}, (∀ c ∈ cs, HomeChild me c) →
    ∀ c ∈ dropPChildren t cs, HomeChild me c := by
  have hr : ∀ {cs : List RChild}, (∀ c ∈ cs, HomePiece me c) → ∀ c ∈ dropRChildren t cs, HomePiece me c := by
    intro cs
    induction cs with
    | nil => exact id
    | cons c cs ih =>
      intro h
      have h1 := ih fun x hx => h x (.tail _ hx)
      have h2 : ∀ x ∈ c :: dropRChildren t cs, HomePiece me x := by
        intro x hx
        rcases List.mem_cons.1 hx with rfl | hx
        · exact h _ (.head _)
        · exact h1 x hx
      cases c with
      | drawing d =>
        simp only [dropRChildren]
        split
        · exact h1
        · exact h2
      | _ => exact h2
  intro cs
  induction cs with
  | nil => exact id
  | cons c cs ih =>
    intro h
    have h1 := ih fun x hx => h x (.tail _ hx)
    cases c with
    | run r =>
      intro x hx
      rcases List.mem_cons.1 hx with rfl | hx
      · exact hr (h _ (.head _))
      · exact h1 x hx
    | _ =>
      intro x hx
      rcases List.mem_cons.1 hx with rfl | hx
      · trivial
      · exact h1 x hx

theorem own_dropPara {me : DocId} (name : String) {p : Para} (h : OwnPara me p) : OwnPara me (dropPara name p) := by
  unfold dropPara dropMethod
  repeat' split
  all_goals first | exact h | skip
  all_goals
    rename_i hm
    repeat' split at hm
    all_goals first | cases hm | skip
    all_goals exact ⟨h.1, own_dropChildren h.2⟩

theorem dropDrawingOf_each (name : String) : ∀ items : List BItem, dropDrawingOf name items = items.map fun
    | .para p => .para (dropPara name p)
    | .table t => .table { t with rows := t.rows.map (dropRow name) }
    | x => x
  | [] => rfl
  | x :: xs => by cases x <;> simp [dropDrawingOf, dropDrawingOf_each name xs]

theorem view_dropDrawingOf (name : String) {items : List BItem} (h : ∀ b ∈ items.map (viewItem R M), KnownBlock b) :
    (dropDrawingOf name items).map (viewItem R M) =
      (items.map (viewItem R M)).map (.mapParas (·.filter (Bit.stays name))) := by
  rw [dropDrawingOf_each, List.map_map, List.map_map]
  refine List.map_congr_left fun x hx => ?_
  have hk := h _ (List.mem_map_of_mem hx)
  simp only [Function.comp_apply]
  cases x with
  | para p => simp only [viewItem, Block.mapParas]; rw [view_dropPara name hk]
  | sect s => rcases s with ⟨_ | s, _ | m, _ | c, _ | d⟩ <;> rfl
  | table t =>
    simp only [viewItem, Block.mapParas, List.map_map, Block.table.injEq]
    refine List.map_congr_left fun r hr => ?_
    simp only [Function.comp_apply, dropRow, List.map_map]
    refine List.map_congr_left fun c hc => ?_
    simp only [Function.comp_apply, dropCell, List.map_map]
    refine List.map_congr_left fun p hp => ?_
    exact view_dropPara name (hk _ (List.mem_map_of_mem hr) _ (List.mem_map_of_mem hc) _ (List.mem_map_of_mem hp))

theorem own_dropDrawingOf {me : DocId} (name : String) {items : List BItem} (h : ∀ x ∈ items, OwnItem me x) :
    ∀ x ∈ dropDrawingOf name items, OwnItem me x := by
  rw [dropDrawingOf_each]
  intro x hx
  obtain ⟨y, hy, rfl⟩ := List.mem_map.1 hx
  have ho := h y hy
  cases y with
  | para p => exact own_dropPara name ho
  | sect s => trivial
  | table t =>
    intro r hr c hc
    obtain ⟨r', hr', rfl⟩ := List.mem_map.1 hr
    obtain ⟨c', hc', rfl⟩ := List.mem_map.1 hc
    obtain ⟨h1, h2⟩ := ho r' hr' c' hc'
    refine ⟨h1, fun p hp => ?_⟩
    obtain ⟨p', hp', rfl⟩ := List.mem_map.1 hp
    exact own_dropPara name (h2 p' hp')

/-! ## More links and pictures -/

variable {R' : String → Option String} {M' : String → Option Bytes}

theorem viewGraphic_grows (hM : ∀ id d, M id = some d → M' id = some d) {b : Bool} {g : Option Graphic}
    (h : viewGraphic M b g ≠ .other) : viewGraphic M' b g = viewGraphic M b g := by
  unfold viewGraphic at *
  split
  · split
    · rfl
    · rename_i bf hb
      simp only [hb] at h ⊢
      cases hm : M bf.blip.embed with
      | none => rw [hm] at h; exact absurd rfl h
      | some d => rw [hM _ _ hm]
  · rfl
  · rfl

theorem viewPiece_grows (hM : ∀ id d, M id = some d → M' id = some d) {c : RChild} (h : viewPiece M c ≠ .other) :
    viewPiece M' c = viewPiece M c := by
  cases c with
  | text t => rfl
  | tab t => rfl
  | br b => rfl
  | drawing d =>
    rcases d with ⟨_ | i, _ | a⟩
    · rfl
    · exact viewGraphic_grows hM h
    · exact viewGraphic_grows hM h
    · rfl

theorem viewChild_grows (hR : ∀ id t, R id = some t → R' id = some t) (hM : ∀ id d, M id = some d → M' id = some d)
    {c : PChild} (h : Bit.other ∉ viewChild R M c) : viewChild R' M' c = viewChild R M c := by
  cases c with
  | rpr p => rfl
  | run r =>
    simp only [viewChild] at h ⊢
    split
    · rename_i e
      rw [if_pos e] at h
      refine List.map_congr_left fun x hx => viewPiece_grows hM fun e => h ?_
      exact e ▸ List.mem_map_of_mem hx
    · rfl
  | link k =>
    simp only [viewChild] at h ⊢
    cases hr : R k.id with
    | none => rw [hr] at h; simp at h
    | some t => rw [hR _ _ hr]

theorem viewPara_grows (hR : ∀ id t, R id = some t → R' id = some t) (hM : ∀ id d, M id = some d → M' id = some d)
    {p : Para} (h : Bit.other ∉ viewPara R M p) : viewPara R' M' p = viewPara R M p := by
  unfold viewPara at *
  generalize p.children = l at h ⊢
  induction l with
  | nil => rfl
  | cons c cs ih =>
    rw [List.flatMap_cons] at h
    rw [List.flatMap_cons, List.flatMap_cons]
    rw [List.mem_append, not_or] at h
    rw [viewChild_grows hR hM h.1, ih h.2]

theorem viewItem_grows (hR : ∀ id t, R id = some t → R' id = some t) (hM : ∀ id d, M id = some d → M' id = some d)
    {x : BItem} (h : KnownBlock (viewItem R M x)) : viewItem R' M' x = viewItem R M x := by
  cases x with
  | para p => simp only [viewItem]; rw [viewPara_grows hR hM h]
  | sect s => rcases s with ⟨_ | s, _ | m, _ | c, _ | d⟩ <;> rfl
  | table t =>
    simp only [viewItem, Block.table.injEq]
    refine List.map_congr_left fun r hr => List.map_congr_left fun c hc => List.map_congr_left fun p hp => ?_
    refine viewPara_grows hR hM (h _ (List.mem_map_of_mem hr) _ (List.mem_map_of_mem hc) _ (List.mem_map_of_mem hp))

theorem view_grows (hR : ∀ id t, R id = some t → R' id = some t) (hM : ∀ id d, M id = some d → M' id = some d)
    {items : List BItem} (h : ∀ b ∈ items.map (viewItem R M), KnownBlock b) :
    items.map (viewItem R' M') = items.map (viewItem R M) :=
  List.map_congr_left fun _ hx => viewItem_grows hR hM (h _ (List.mem_map_of_mem hx))

end

/-! ## The pieces of a text -/

theorem splitOn_cons (sep : Char) (cs : List Char) : ∃ x xs, splitOn sep cs = x :: xs := by
  cases cs with
  | nil => exact ⟨_, _, rfl⟩
  | cons c cs =>
    simp only [splitOn]
    split
    · exact ⟨_, _, rfl⟩
    · split
      · exact ⟨_, _, rfl⟩
      · exact ⟨_, _, rfl⟩

theorem tabPieces_later (i j : Nat) : ∀ ks : List (List Char), tabPieces (i + 1) ks = tabPieces (j + 1) ks
  | [] => rfl
  | k :: ks => by simp only [tabPieces, tabPieces_later (i + 1) (j + 1) ks]; simp

theorem linePieces_later (i j : Nat) : ∀ ss : List (List Char), linePieces (i + 1) ss = linePieces (j + 1) ss
  | [] => rfl
  | s :: ss => by simp only [linePieces, linePieces_later (i + 1) (j + 1) ss]; simp

theorem tabPieces_one {ks : List (List Char)} (h : ks ≠ []) : tabPieces 1 ks = .tab {} :: tabPieces 0 ks := by
  cases ks with
  | nil => exact absurd rfl h
  | cons k ks => simp [tabPieces, tabPieces_later 1 0 ks]

theorem linePieces_one {ss : List (List Char)} (h : ss ≠ []) : linePieces 1 ss = .br {} :: linePieces 0 ss := by
  cases ss with
  | nil => exact absurd rfl h
  | cons s ss => simp [linePieces, linePieces_later 1 0 ss]

theorem notext_line (M : String → Option Bytes) (xs : List (List Char)) :
    ∀ s bs, (linePieces 1 xs).map (viewPiece M) ≠ Bit.text s :: bs := by
  intro s bs
  cases xs with
  | nil => simp [linePieces]
  | cons x xs => simp [linePieces, viewPiece]

theorem notext_tab (M : String → Option Bytes) (ys xs : List (List Char)) :
    ∀ s bs, (tabPieces 1 ys ++ linePieces 1 xs).map (viewPiece M) ≠ Bit.text s :: bs := by
  intro s bs
  cases ys with
  | nil => simpa [tabPieces] using notext_line M xs s bs
  | cons y ys => simp [tabPieces, viewPiece]

theorem bits_text (M : String → Option Bytes) : ∀ cs : List Char,
    (linePieces 0 (splitOn '\n' cs)).map (viewPiece M) = bitsOf cs
  | [] => by simp [splitOn, linePieces, tabPieces, bitsOf]
  | c :: cs => by
    have ih := bits_text M cs
    obtain ⟨x, xs, hx⟩ := splitOn_cons '\n' cs
    rw [hx] at ih
    by_cases h1 : c = '\n'
    · subst h1
      simp only [splitOn, if_pos, hx, bitsOf]
      rw [← ih]
      have := linePieces_one (ss := x :: xs) (by simp)
      rw [show linePieces 0 ([] :: x :: xs) = linePieces 1 (x :: xs) from by
        simp [linePieces, tabPieces, splitOn], this]
      simp [viewPiece]
    · simp only [splitOn, if_neg h1, hx, bitsOf]
      obtain ⟨y, ys, hy⟩ := splitOn_cons '\t' x
      have e0 : linePieces 0 (x :: xs) = tabPieces 0 (y :: ys) ++ linePieces 1 xs := by
        simp [linePieces, hy]
      rw [e0] at ih
      by_cases h2 : c = '\t'
      · subst h2
        simp only [if_pos]
        rw [← ih]
        have e1 : linePieces 0 (('\t' :: x) :: xs) = tabPieces 1 (y :: ys) ++ linePieces 1 xs := by
          simp [linePieces, splitOn, hy, tabPieces]
        rw [e1, tabPieces_one (by simp)]
        simp [viewPiece]
      · simp only [if_neg h2]
        have e1 : linePieces 0 ((c :: x) :: xs) = .text { text := String.ofList (c :: y) } ::
            (tabPieces 1 ys ++ linePieces 1 xs) := by
          simp [linePieces, splitOn, hy, h2, tabPieces]
        rw [e1, List.map_cons]
        by_cases h3 : y = []
        · subst h3
          have e2 : tabPieces 0 ([] :: ys) = tabPieces 1 ys := by simp [tabPieces]
          rw [e2] at ih
          rw [← ih]
          split
          · rename_i s bs hs
            exact absurd hs (notext_tab M ys xs s bs)
          · rfl
        · have e2 : tabPieces 0 (y :: ys) = .text { text := String.ofList y } :: tabPieces 1 ys := by
            simp [tabPieces, h3]
          rw [e2] at ih
          rw [← ih]
          simp [viewPiece]

theorem known_bits : ∀ cs : List Char, Bit.other ∉ bitsOf cs
  | [] => by simp [bitsOf]
  | c :: cs => by
    have ih := known_bits cs
    simp only [bitsOf]
    split
    · simpa using ih
    · split
      · simpa using ih
      · split
        · rename_i s bs hs
          rw [hs] at ih
          simpa using ih
        · rename_i hb
          simpa using ih

theorem view_addText (R : String → Option String) (M : String → Option Bytes) (p : Para) (s : String) :
    viewPara R M (p.addText s).1 = viewPara R M p ++ bitsOf s.toList := by
  unfold Para.addText
  split
  · rename_i h
    subst h
    simp [Para.addTab, Para.addRun, viewPara, viewChild, viewPiece]
    rfl
  · simp only [Para.addRun, viewPara, List.flatMap_append, List.flatMap_cons, List.flatMap_nil, List.append_nil,
      viewChild, if_pos, bits_text]

end Docx
