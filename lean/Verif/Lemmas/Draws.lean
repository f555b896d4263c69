import Verif.Lemmas.Owned
import Verif.Lemmas.SplitLoop

/-!
# What every drawing of a history satisfies

A property of drawings that the drawings made by the API have and that copying keeps holds of all
drawings of all documents after every history whose own data has it.
-/

set_option linter.unusedSectionVars false

namespace Docx

/-- All drawings of an item have the property. -/
def ItemDraws (PD : Drawing → Prop) (x : BItem) : Prop := ∀ d ∈ x.draws, PD d

/-- The API makes shapes with the property and copying keeps it. -/
structure ShapeInv (PD : Drawing → Prop) : Prop where
  inlineShape : ∀ (p : Para) (f : Doc) w h name bw prst ln,
    ∀ d ∈ (p.addInlineShape f w h name bw prst ln).2.2.draws, PD d
  anchorShape : ∀ (p : Para) (f : Doc) w h name bw prst ln,
    ∀ d ∈ (p.addAnchorShape f w h name bw prst ln).2.2.draws, PD d
  copy : ∀ {w w' to d d'}, Drawing.copymedia w to d = .ok (w', d') → PD d → PD d'

/-- The API makes drawings with the property and copying keeps it. -/
structure DrawInv (PD : Drawing → Prop) : Prop extends ShapeInv PD where
  inlinePic : ∀ idn id rid w h, PD { inl := some (mkInlinePic idn id rid w h) }
  anchorPic : ∀ idn id rid w h, PD { anchor := some (mkAnchorPic idn id rid w h) }

/-- Data that the client brings in has the property. -/
def Op.DrawsOk (PD : Drawing → Prop) : Op → Prop
  | .load items _ => ∀ x ∈ items, ItemDraws PD x
  | .edit _ g => ∀ items, (∀ x ∈ items, ItemDraws PD x) → ∀ x ∈ g items, ItemDraws PD x
  | _ => True

/-- The rules: a copy of a drawing with the property has it. -/
def drawRules (PD : Drawing → Prop) : CopyRules where
  draw := fun d d' => PD d → PD d'
  link := fun _ _ _ => True
  drop := fun _ _ => True

section
variable {PD : Drawing → Prop}

theorem run_copied_draws {r r' : Run} (h : RunCopied (drawRules PD) r r')
    (hr : ∀ d ∈ r.draws, PD d) : ∀ d ∈ r'.draws, PD d := by
  obtain ⟨_, _, _, h⟩ := h
  simp only [Run.draws] at *
  generalize r.children = cs at *
  generalize r'.children = cs' at *
  induction h with
  | nil => intro d hd; simp at hd
  | @cons a b as bs hab _ ih =>
    intro d hd
    have ih := ih fun d hd => hr d (by
      cases a <;> simp_all [RChild.drawing?])
    cases a with
    | drawing x =>
      obtain ⟨x', rfl, hx⟩ := hab
      simp only [List.filterMap_cons, RChild.drawing?, List.mem_cons] at hd
      rcases hd with rfl | hd
      · exact hx (hr x (by simp [RChild.drawing?]))
      · exact ih d hd
    | text t => cases hab; exact ih d (by simpa [RChild.drawing?] using hd)
    | tab t => cases hab; exact ih d (by simpa [RChild.drawing?] using hd)
    | br t => cases hab; exact ih d (by simpa [RChild.drawing?] using hd)

theorem para_copied_draws {to} {p p' : Para} (h : ParaCopied (drawRules PD) to p p')
    (hp : ∀ d ∈ p.draws, PD d) : ∀ d ∈ p'.draws, PD d := by
  obtain ⟨_, _, h⟩ := h
  simp only [Para.draws] at *
  generalize p.children = cs at *
  generalize p'.children = cs' at *
  induction h with
  | nil => intro d hd; simp at hd
  | @run r r' cs cs' hr _ ih =>
    intro d hd
    simp only [List.flatMap_cons, List.mem_append, PChild.draws] at hd hp
    rcases hd with hd | hd
    · exact run_copied_draws hr (fun d hd => hp d (.inl hd)) d hd
    · exact ih (fun d hd => hp d (.inr hd)) d hd
  | @link r r' cs cs' _ hr _ ih =>
    intro d hd
    simp only [List.flatMap_cons, List.mem_append, PChild.draws] at hd hp
    rcases hd with hd | hd
    · exact run_copied_draws hr (fun d hd => hp d (.inl hd)) d hd
    · exact ih (fun d hd => hp d (.inr hd)) d hd
  | @dropped r cs cs' _ _ ih =>
    intro d hd
    simp only [List.flatMap_cons, List.mem_append] at hp
    exact ih (fun d hd => hp d (.inr hd)) d hd
  | @rpr x cs cs' _ ih =>
    intro d hd
    simp only [List.flatMap_cons, PChild.draws, List.nil_append] at hd hp
    exact ih hp d hd

theorem each_draws {α : Type} {R : α → α → Prop} {f : α → List Drawing}
    (hR : ∀ a b, R a b → (∀ d ∈ f a, PD d) → ∀ d ∈ f b, PD d) {as bs : List α} (h : Each R as bs)
    (ha : ∀ d ∈ as.flatMap f, PD d) : ∀ d ∈ bs.flatMap f, PD d := by
  induction h with
  | nil => exact ha
  | @cons a b as bs hab _ ih =>
    intro d hd
    simp only [List.flatMap_cons, List.mem_append] at hd ha
    rcases hd with hd | hd
    · exact hR a b hab (fun d hd => ha d (.inl hd)) d hd
    · exact ih (fun d hd => ha d (.inr hd)) d hd

theorem item_copied_draws {to} {x x' : BItem} (h : ItemCopied (drawRules PD) to x x')
    (hx : ItemDraws PD x) : ItemDraws PD x' := by
  cases x with
  | para p => obtain ⟨p', rfl, h⟩ := h; exact para_copied_draws h hx
  | sect s => cases h; exact hx
  | table t =>
    obtain ⟨t', rfl, _, _, h⟩ := h
    refine each_draws (f := Row.draws) (fun r r' hr => ?_) h hx
    exact each_draws (f := Cell.draws) (fun c c' hc => each_draws (f := Para.draws)
      (fun p p' hp => para_copied_draws hp) hc.2.2) hr.2

theorem each_items {to} {xs ys : List BItem} (h : Each (ItemCopied (drawRules PD) to) xs ys)
    (hx : ∀ x ∈ xs, ItemDraws PD x) : ∀ y ∈ ys, ItemDraws PD y := by
  induction h with
  | nil => exact hx
  | @cons a b as bs hab _ ih =>
    intro y hy
    rcases List.mem_cons.1 hy with rfl | hy
    · exact item_copied_draws hab (hx a (by simp))
    · exact ih (fun x hx' => hx x (by simp [hx'])) y hy

theorem draw_obeys (h : ∀ {w w' to d d'}, Drawing.copymedia w to d = .ok (w', d') → PD d → PD d')
    (to : DocId) : Obeys (drawRules PD) to (fun _ => True) (fun _ => True) where
  fwd := fun _ _ => trivial
  bwd := fun _ _ => trivial
  draw := fun h1 _ _ => h h1
  link := fun _ _ _ _ _ => trivial
  drop := fun _ _ _ _ => trivial

/-- All drawings of all documents have the property. -/
def WorldDraws (PD : Drawing → Prop) (w : World) : Prop := ∀ f ∈ w, ∀ x ∈ f.items, ItemDraws PD x

theorem worldDraws_push {w : World} (h : WorldDraws PD w) {f : Doc} (hf : ∀ x ∈ f.items, ItemDraws PD x) :
    WorldDraws PD (w ++ [f]) := by
  intro g hg
  rcases List.mem_append.1 hg with hg | hg
  · exact h g hg
  · simp only [List.mem_cons, List.not_mem_nil, or_false] at hg; subst hg; exact hf

theorem worldDraws_set {w : World} (h : WorldDraws PD w) {d : DocId} {f : Doc}
    (hf : ∀ x ∈ f.items, ItemDraws PD x) : WorldDraws PD (w.set d f) := by
  intro g hg
  rcases List.mem_or_eq_of_mem_set hg with hg | rfl
  · exact h g hg
  · exact hf

theorem onDoc_draws {w w' : World} {d : DocId} {act : Doc → Res Doc}
    (ha : ∀ f f', act f = .ok f' → (∀ x ∈ f.items, ItemDraws PD x) → ∀ x ∈ f'.items, ItemDraws PD x)
    (hw : WorldDraws PD w) (h : w.onDoc d act = .ok w') : WorldDraws PD w' := by
  unfold World.onDoc at h
  split at h
  · simp at h
  · rename_i f hf
    obtain ⟨f', h1, h2⟩ := Res.bind_eq_ok.1 h
    simp only [Res.ok.injEq] at h2; subst h2
    exact worldDraws_set hw (ha _ _ h1 (hw f (List.mem_of_getElem? hf)))

theorem forall_flatMap {α : Type} {f : α → List Drawing} {l : List α} :
    (∀ d ∈ l.flatMap f, PD d) ↔ ∀ x ∈ l, ∀ d ∈ f x, PD d := by
  simp only [List.mem_flatMap]
  exact ⟨fun h x hx d hd => h d ⟨x, hx, hd⟩, fun h d ⟨x, hx, hd⟩ => h x hx d hd⟩

theorem modPara_draws {items : List BItem} {l : Loc} {p' : Para} (h : ∀ x ∈ items, ItemDraws PD x)
    (hp : ∀ d ∈ p'.draws, PD d) : ∀ x ∈ modPara items l (fun _ => p'), ItemDraws PD x := by
  cases l with
  | body i =>
    refine forall_modify h ?_
    intro x hx
    cases x with
    | para p => exact hp
    | table t => exact hx
    | sect s => exact hx
  | cell i r c j =>
    refine forall_modify h ?_
    intro x hx
    cases x with
    | para p => exact hx
    | sect s => exact hx
    | table t =>
      refine forall_flatMap.2 (forall_modify (forall_flatMap.1 hx) ?_)
      intro row hrow
      refine forall_flatMap.2 (forall_modify (forall_flatMap.1 hrow) ?_)
      intro cell hcell
      exact forall_flatMap.2 (forall_modify (forall_flatMap.1 hcell) fun _ _ => hp)

theorem getPara_draws {items : List BItem} {l : Loc} {p : Para} (h : ∀ x ∈ items, ItemDraws PD x)
    (hp : getPara items l = some p) : ∀ d ∈ p.draws, PD d := by
  cases l with
  | body i =>
    simp only [getPara] at hp
    split at hp
    · rename_i q hq
      simp only [Option.some.injEq] at hp; subst hp
      exact h _ (List.mem_of_getElem? hq)
    · simp at hp
  | cell i r c j =>
    simp only [getPara] at hp
    split at hp
    · rename_i t ht
      have ht := h _ (List.mem_of_getElem? ht)
      simp only [Option.bind_eq_bind, Option.bind_eq_some_iff] at hp
      obtain ⟨row, hrow, cell, hcell, hj⟩ := hp
      have h1 := forall_flatMap.1 ht row (List.mem_of_getElem? hrow)
      have h2 := forall_flatMap.1 h1 cell (List.mem_of_getElem? hcell)
      exact forall_flatMap.1 h2 p (List.mem_of_getElem? hj)
    · simp at hp

theorem onPara_draws {w w' : World} {d : DocId} {l : Loc} {act : Doc → Para → Res (Doc × Para)}
    (ha : ∀ f p f' p', act f p = .ok (f', p') → f'.items = f.items ∧
      ((∀ d ∈ p.draws, PD d) → ∀ d ∈ p'.draws, PD d))
    (hw : WorldDraws PD w) (h : w.onPara d l act = .ok w') : WorldDraws PD w' := by
  obtain ⟨doc, p, fid, f, f', p', doc1, hdoc, hp, hfid, hf, hact, hd1, rfl⟩ := onPara_ok h
  obtain ⟨h1, h2⟩ := ha _ _ _ _ hact
  have hw1 : WorldDraws PD (w.set fid f') :=
    worldDraws_set hw (by rw [h1]; exact hw f (List.mem_of_getElem? hf))
  refine worldDraws_set hw1 ?_
  exact modPara_draws (hw1 doc1 (List.mem_of_getElem? hd1))
    (h2 (getPara_draws (hw doc (List.mem_of_getElem? hdoc)) hp))

theorem draws_append {a b : List Drawing} (ha : ∀ d ∈ a, PD d) (hb : ∀ d ∈ b, PD d) :
    ∀ d ∈ a ++ b, PD d := by
  intro d hd
  rcases List.mem_append.1 hd with hd | hd
  · exact ha d hd
  · exact hb d hd

theorem doc_push {f : Doc} {x : BItem} (h : ∀ x ∈ f.items, ItemDraws PD x) (hx : x.draws = []) :
    ∀ y ∈ f.items ++ [x], ItemDraws PD y := by
  intro y hy
  rcases List.mem_append.1 hy with hy | hy
  · exact h y hy
  · simp only [List.mem_cons, List.not_mem_nil, or_false] at hy; subst hy
    intro d hd; rw [hx] at hd; simp at hd

theorem appendItems_draws (h : ∀ {w w' to d d'}, Drawing.copymedia w to d = .ok (w', d') → PD d → PD d')
    {xs : List BItem} {w w' : World} {to : DocId} {t : Doc} (hw : WorldDraws PD w)
    (hx : ∀ x ∈ xs, ItemDraws PD x) (ht : w[to]? = some t) (h1 : appendItems w to xs = .ok w') :
    WorldDraws PD w' := by
  obtain ⟨t', copies, h2, h3, h4⟩ := appendItems_copied (draw_obeys h to) h1 ht trivial trivial
  have g := appendItems_grow h1
  intro f hf x hx'
  obtain ⟨d, hd⟩ := List.mem_iff_getElem?.1 hf
  by_cases e : d = to
  · subst e
    rw [h2] at hd; obtain rfl := Option.some.inj hd
    rw [h3] at hx'
    rcases List.mem_append.1 hx' with hx' | hx'
    · exact hw t (List.mem_of_getElem? ht) x hx'
    · exact each_items h4 hx x hx'
  · rw [g.other d e] at hd
    exact hw f (List.mem_of_getElem? hd) x hx'

theorem splitFill_draws (h : ∀ {w w' to d d'}, Drawing.copymedia w to d = .ok (w', d') → PD d → PD d')
    {sep} {xs : List BItem} {w w' : World} {to : DocId} {t : Doc} {cnt left} (hw : WorldDraws PD w)
    (hx : ∀ x ∈ xs, ItemDraws PD x) (ht : w[to]? = some t)
    (h1 : splitFill sep to w cnt xs = .ok (w', left)) :
    WorldDraws PD w' ∧ ∀ x ∈ left.getD [], ItemDraws PD x := by
  obtain ⟨t', taken, copies, h2, h3, h4, h5, _⟩ :=
    splitFill_copied (draw_obeys h to) h1 ht trivial trivial
  have g := splitFill_grow h1
  refine ⟨?_, fun x hx' => hx x (by rw [h5]; simp [hx'])⟩
  intro f hf x hx'
  obtain ⟨d, hd⟩ := List.mem_iff_getElem?.1 hf
  by_cases e : d = to
  · subst e
    rw [h2] at hd; obtain rfl := Option.some.inj hd
    rw [h3] at hx'
    rcases List.mem_append.1 hx' with hx' | hx'
    · exact hw t (List.mem_of_getElem? ht) x hx'
    · exact each_items h4 (fun y hy => hx y (by rw [h5]; simp [hy])) x hx'
  · rw [g.other d e] at hd
    exact hw f (List.mem_of_getElem? hd) x hx'

theorem splitLoop_draws (h : ∀ {w w' to d d'}, Drawing.copymedia w to d = .ok (w', d') → PD d → PD d')
    {sep} {f : Doc} : ∀ {n : Nat} {w : World} {docs items w' docs'}, WorldDraws PD w →
    (∀ x ∈ items, ItemDraws PD x) → splitLoop sep f n w docs items = .ok (w', docs') →
    WorldDraws PD w' := by
  intro n
  induction n with
  | zero => intro w docs items w' docs' _ _ h; simp [splitLoop] at h
  | succ n ih =>
    intro w docs items w' docs' hw hx h1
    cases items with
    | nil =>
      simp only [splitLoop, Res.ok.injEq, Prod.mk.injEq] at h1
      rw [← h1.1]; exact hw
    | cons i is =>
      simp only [splitLoop] at h1
      obtain ⟨⟨w1, left⟩, h2, h3⟩ := Res.bind_eq_ok.1 h1
      simp only at h3
      have hw0 : WorldDraws PD (w ++ [splitDoc f]) :=
        worldDraws_push hw (by intro x hx; simp [splitDoc] at hx)
      obtain ⟨h4, h5⟩ := splitFill_draws h (t := splitDoc f) hw0 hx (by simp) h2
      cases left with
      | none =>
        simp only [Res.pure_eq, Res.ok.injEq, Prod.mk.injEq] at h3
        rw [← h3.1]; exact h4
      | some rest => exact ih h4 (by simpa using h5) h3

/-- Pictures made by the call have the property, or the call makes none. -/
def Op.PicsOk (PD : Drawing → Prop) : Op → Prop
  | .addInlineDrawing _ _ _ => ∀ idn id rid w h, PD { inl := some (mkInlinePic idn id rid w h) }
  | .addAnchorDrawing _ _ _ => ∀ idn id rid w h, PD { anchor := some (mkAnchorPic idn id rid w h) }
  | _ => True

theorem DrawInv.picsOk (hi : DrawInv PD) (o : Op) : o.PicsOk PD := by
  cases o <;> first | trivial | exact hi.inlinePic | exact hi.anchorPic

theorem step_draws [ImgEnv] (hi : ShapeInv PD) {w w' : World} {o : Op} (ho : o.DrawsOk PD)
    (hpics : o.PicsOk PD)
    (hw : WorldDraws PD w) (h : step w o = .ok w') : WorldDraws PD w' := by
  cases o with
  | new =>
    simp only [step, Res.ok.injEq] at h; subst h
    exact worldDraws_push hw (by intro x hx; simp [Doc.new] at hx)
  | load items media =>
    simp only [step, Res.ok.injEq] at h; subst h
    exact worldDraws_push hw ho
  | append f af =>
    simp only [step] at h
    split at h
    · simp at h
    · rename_i t ht
      unfold World.appendFile at h
      split at h
      · simp at h
      · rename_i a ha
        exact appendItems_draws hi.copy hw (hw a (List.mem_of_getElem? ha)) ht h
  | split d sep =>
    simp only [step] at h
    split at h
    · rename_i w1 docs h1
      simp only [Res.ok.injEq] at h; subst h
      unfold World.splitByParagraph at h1
      split at h1
      · simp at h1
      · rename_i f hf
        exact splitLoop_draws hi.copy hw (hw f (List.mem_of_getElem? hf)) h1
    · simp at h
    · simp at h
  | edit d g =>
    refine onDoc_draws ?_ hw h
    intro f f' h hb; simp only [Res.ok.injEq] at h; subst h
    exact ho _ hb
  | addParagraph d =>
    refine onDoc_draws ?_ hw h
    intro f f' h hb; simp only [Res.ok.injEq] at h; subst h
    exact doc_push hb rfl
  | cellAddParagraph d i r c =>
    refine onDoc_draws ?_ hw h
    intro f f' h hb; simp only [Res.ok.injEq] at h; subst h
    refine forall_modify hb ?_
    intro x hx
    have e := cellAdd_draws r c x
    exact fun d hd => hx d (e ▸ hd)
  | addTable d row col width colors =>
    refine onDoc_draws ?_ hw h
    intro f f' h hb
    unfold Doc.addTable at h
    split at h
    · rename_i heq
      simp only [Res.ok.injEq] at h; subst h
      split at heq
      · simp at heq
      · split at heq
        · simp at heq
        · simp only [Res.ok.injEq, Prod.mk.injEq] at heq
          rw [← heq.1]
          refine doc_push hb ?_
          simp only [BItem.draws, List.flatMap_eq_nil_iff]
          intro r hr
          simp only [List.mem_replicate] at hr
          rw [hr.2]
          simp only [Row.draws, List.flatMap_eq_nil_iff]
          intro c hc
          simp only [List.mem_replicate] at hc
          rw [hc.2]; rfl
    · simp at h
    · simp at h
  | addTableTwips d rows cols width colors =>
    refine onDoc_draws ?_ hw h
    intro f f' h hb; simp only [Res.ok.injEq] at h; subst h
    refine doc_push hb ?_
    simp only [BItem.draws, List.flatMap_eq_nil_iff]
    intro r hr
    simp only [List.mem_map] at hr
    obtain ⟨h, _, rfl⟩ := hr
    simp only [Row.draws, List.flatMap_eq_nil_iff]
    intro c hc
    simp only [List.mem_map] at hc
    obtain ⟨h, _, rfl⟩ := hc
    rfl
  | withA3Page d =>
    refine onDoc_draws ?_ hw h
    intro f f' h hb; simp only [Res.ok.injEq] at h; subst h; exact doc_push hb rfl
  | withA4Page d =>
    refine onDoc_draws ?_ hw h
    intro f f' h hb; simp only [Res.ok.injEq] at h; subst h; exact doc_push hb rfl
  | useTemplate d t l tfs =>
    refine onDoc_draws ?_ hw h
    intro f f' h hb; simp only [Res.ok.injEq] at h; subst h; exact hb
  | increaseID d name =>
    refine onDoc_draws ?_ hw h
    intro f f' h hb; simp only [Res.ok.injEq] at h; subst h; exact hb
  | addText d l text =>
    refine onPara_draws ?_ hw h
    intro f p f' p' h; simp only [Res.ok.injEq, Prod.mk.injEq] at h; rw [← h.1, ← h.2]
    obtain ⟨h1, _, h2⟩ := addText_adds f p text
    rcases h2 with ⟨h2, _⟩ | ⟨h2, _⟩
    · rw [h2]; exact ⟨rfl, id⟩
    · refine ⟨rfl, ?_⟩
      unfold Para.addText
      split
      · simp [Para.addTab, addRun_draws, Run.draws, RChild.drawing?]
      · simp [addRun_draws, Run.draws, linePieces_draws]
  | addLink d l text link =>
    refine onPara_draws ?_ hw h
    intro f p f' p' h; simp only [Res.ok.injEq, Prod.mk.injEq] at h; rw [← h.1, ← h.2]
    refine ⟨rfl, ?_⟩
    simp [Para.addLink, Para.draws, PChild.draws, Run.draws]
  | addInlineDrawing d l pic =>
    refine onPara_draws ?_ hw h
    intro f p f' p' h
    unfold Para.addInlineDrawing at h
    cases hp : f.addPicture pic with
    | mk f1 r =>
      obtain ⟨h1, h2⟩ := addPicture_adds hp
      rw [hp] at h
      rcases h2 with ⟨⟨e, rfl⟩, rfl⟩ | ⟨h3, rfl | ⟨id, rid, a, b, rfl⟩⟩
      · simp only [Res.ok.injEq, Prod.mk.injEq] at h
        obtain ⟨rfl, rfl⟩ := h
        exact ⟨rfl, fun h => h⟩
      · simp at h
      · simp only [Res.ok.injEq, Prod.mk.injEq] at h
        obtain ⟨rfl, rfl⟩ := h
        refine ⟨h1, fun h => ?_⟩
        rw [addRun_draws]
        refine draws_append h ?_
        simp only [drawingRun, Run.draws, RChild.drawing?, List.filterMap_cons, List.filterMap_nil,
          List.mem_cons, List.not_mem_nil, or_false, forall_eq]
        exact hpics _ _ _ _ _
  | addAnchorDrawing d l pic =>
    refine onPara_draws ?_ hw h
    intro f p f' p' h
    unfold Para.addAnchorDrawing at h
    cases hp : f.addPicture pic with
    | mk f1 r =>
      obtain ⟨h1, h2⟩ := addPicture_adds hp
      rw [hp] at h
      rcases h2 with ⟨⟨e, rfl⟩, rfl⟩ | ⟨h3, rfl | ⟨id, rid, a, b, rfl⟩⟩
      · simp only [Res.ok.injEq, Prod.mk.injEq] at h
        obtain ⟨rfl, rfl⟩ := h
        exact ⟨rfl, fun h => h⟩
      · simp at h
      · simp only [Res.ok.injEq, Prod.mk.injEq] at h
        obtain ⟨rfl, rfl⟩ := h
        refine ⟨h1, fun h => ?_⟩
        rw [addRun_draws]
        refine draws_append h ?_
        simp only [drawingRun, Run.draws, RChild.drawing?, List.filterMap_cons, List.filterMap_nil,
          List.mem_cons, List.not_mem_nil, or_false, forall_eq]
        exact hpics _ _ _ _ _
  | addInlineShape d l sw sh name bw prst ln =>
    refine onPara_draws ?_ hw h
    intro f p f' p' h; simp only [Res.ok.injEq, Prod.mk.injEq] at h; rw [← h.1, ← h.2]
    refine ⟨rfl, fun h => ?_⟩
    have e : (p.addInlineShape f sw sh name bw prst ln).2.1 =
      p.addRun (p.addInlineShape f sw sh name bw prst ln).2.2 := rfl
    rw [e, addRun_draws]
    exact draws_append h (hi.inlineShape _ _ _ _ _ _ _ _)
  | addAnchorShape d l sw sh name bw prst ln =>
    refine onPara_draws ?_ hw h
    intro f p f' p' h; simp only [Res.ok.injEq, Prod.mk.injEq] at h; rw [← h.1, ← h.2]
    refine ⟨rfl, fun h => ?_⟩
    have e : (p.addAnchorShape f sw sh name bw prst ln).2.1 =
      p.addRun (p.addAnchorShape f sw sh name bw prst ln).2.2 := rfl
    rw [e, addRun_draws]
    exact draws_append h (hi.anchorShape _ _ _ _ _ _ _ _)

/-- After every history all drawings have the property. -/
theorem run_draws_of [ImgEnv] (hi : ShapeInv PD) : ∀ {os : List Op} {w w' : World},
    (∀ o ∈ os, o.DrawsOk PD ∧ o.PicsOk PD) → WorldDraws PD w → run w os = .ok w' →
    WorldDraws PD w' := by
  intro os
  induction os with
  | nil =>
    intro w w' _ hw h
    simp only [run, Res.ok.injEq] at h; subst h
    exact hw
  | cons o os ih =>
    intro w w' ho hw h
    simp only [run] at h
    split at h
    · rename_i w1 h1
      exact ih (fun o ho' => ho o (by simp [ho']))
        (step_draws hi (ho o (by simp)).1 (ho o (by simp)).2 hw h1) h
    · simp at h
    · simp at h

theorem run_draws [ImgEnv] (hi : DrawInv PD) {os : List Op} {w w' : World}
    (ho : ∀ o ∈ os, o.DrawsOk PD) (hw : WorldDraws PD w) (h : run w os = .ok w') : WorldDraws PD w' :=
  run_draws_of hi.toShapeInv (fun o h => ⟨ho o h, hi.picsOk o⟩) hw h

end

end Docx
