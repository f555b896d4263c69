import Verif.Lemmas.Legal
import Verif.Lemmas.AliasDocs
import Verif.Lemmas.Draws
import Verif.SpecIndep

/-!
# Calls depend only on the documents they work on
-/

set_option linter.unusedSectionVars false

namespace Docx

variable {S : DocId → Prop}

/-! ## References -/

def OwnS (S : DocId → Prop) (o : Option DocId) : Prop := ∀ i, o = some i → S i

def DrawS (S : DocId → Prop) (d : Drawing) : Prop :=
  (∀ i, d.inl = some i → OwnS S i.file) ∧ ∀ a, d.anchor = some a → OwnS S a.file

def RunS (S : DocId → Prop) (r : Run) : Prop := ∀ d ∈ r.draws, DrawS S d
def PChildS (S : DocId → Prop) (c : PChild) : Prop := ∀ d ∈ c.draws, DrawS S d
def ParaS (S : DocId → Prop) (p : Para) : Prop := OwnS S p.file ∧ ∀ c ∈ p.children, PChildS S c
def CellS (S : DocId → Prop) (c : Cell) : Prop := OwnS S c.file ∧ ∀ p ∈ c.paras, ParaS S p
def RowS (S : DocId → Prop) (r : Row) : Prop := ∀ c ∈ r.cells, CellS S c
def ItemS (S : DocId → Prop) : BItem → Prop
  | .para p => ParaS S p
  | .table t => ∀ r ∈ t.rows, RowS S r
  | .sect _ => True

theorem drawS_iff {d : Drawing} : DrawS S d ↔ ∀ i, some i ∈ d.files → S i := by
  obtain ⟨i, a⟩ := d
  cases i <;> cases a <;> simp [DrawS, Drawing.files, OwnS, or_imp, forall_and, eq_comm]

theorem paraS_iff {p : Para} : ParaS S p ↔ OwnS S p.file ∧ ∀ d ∈ p.draws, DrawS S d := by
  simp only [ParaS, PChildS, Para.draws, List.mem_flatMap]
  constructor
  · rintro ⟨h1, h2⟩
    exact ⟨h1, fun d ⟨c, hc, hd⟩ => h2 c hc d hd⟩
  · rintro ⟨h1, h2⟩
    exact ⟨h1, fun c hc d hd => h2 d ⟨c, hc, hd⟩⟩

theorem itemS_iff {x : BItem} : ItemS S x ↔ ∀ i, some i ∈ x.refers → S i := by
  have key : (∀ i, some i ∈ x.refers → S i) ↔
      (∀ o ∈ x.owners, OwnS S o) ∧ ∀ d ∈ x.draws, DrawS S d := by
    simp only [BItem.refers, List.mem_append, List.mem_flatMap]
    constructor
    · intro h
      refine ⟨fun o ho i hi => h i (.inl (hi ▸ ho)), fun d hd => drawS_iff.2 fun i hi => h i (.inr ⟨d, hd, hi⟩)⟩
    · rintro ⟨h1, h2⟩ i (hi | ⟨d, hd, hi⟩)
      · exact h1 _ hi i rfl
      · exact drawS_iff.1 (h2 d hd) i hi
  rw [key]
  cases x with
  | para p => simp only [ItemS, paraS_iff, BItem.owners, BItem.draws, List.mem_singleton, forall_eq]
  | sect s => simp [ItemS, BItem.owners, BItem.draws]
  | table t =>
    simp only [ItemS, BItem.owners, BItem.draws, RowS, CellS, paraS_iff, Row.draws, Cell.draws]
    constructor
    · intro h
      constructor
      · intro o ho
        obtain ⟨r, hr, ho⟩ := List.mem_flatMap.1 ho
        obtain ⟨c, hc, ho⟩ := List.mem_flatMap.1 ho
        obtain ⟨h1, h2⟩ := h r hr c hc
        rcases List.mem_cons.1 ho with rfl | ho
        · exact h1
        · obtain ⟨p, hp, rfl⟩ := List.mem_map.1 ho
          exact (h2 p hp).1
      · intro d hd
        obtain ⟨r, hr, hd⟩ := List.mem_flatMap.1 hd
        obtain ⟨c, hc, hd⟩ := List.mem_flatMap.1 hd
        obtain ⟨p, hp, hd⟩ := List.mem_flatMap.1 hd
        exact ((h r hr c hc).2 p hp).2 d hd
    · rintro ⟨h1, h2⟩ r hr c hc
      refine ⟨h1 _ (List.mem_flatMap.2 ⟨r, hr, List.mem_flatMap.2 ⟨c, hc, List.mem_cons_self ..⟩⟩), ?_⟩
      intro p hp
      refine ⟨h1 _ (List.mem_flatMap.2 ⟨r, hr, List.mem_flatMap.2 ⟨c, hc,
        List.mem_cons_of_mem _ (List.mem_map.2 ⟨p, hp, rfl⟩)⟩⟩), fun d hd => ?_⟩
      exact h2 d (List.mem_flatMap.2 ⟨r, hr, List.mem_flatMap.2 ⟨c, hc, List.mem_flatMap.2 ⟨p, hp, hd⟩⟩⟩)

theorem itemsFor_iff {items : List BItem} : ItemsFor S items ↔ ∀ x ∈ items, ItemS S x :=
  ⟨fun h x hx => itemS_iff.2 (h x hx), fun h x hx => itemS_iff.1 (h x hx)⟩

/-! ## Worlds that agree on a set of documents -/

/-- The two worlds have the same documents in the set, and these are self-contained. -/
structure SameOn (S : DocId → Prop) (w1 w2 : World) : Prop where
  same : ∀ d, S d → w1[d]? = w2[d]?
  inside : ∀ d f, S d → w1[d]? = some f → ∀ x ∈ f.items, ItemS S x

/-- Documents outside the set are not changed. -/
def Outside (S : DocId → Prop) (w w' : World) : Prop :=
  w'.length = w.length ∧ ∀ d, ¬ S d → w'[d]? = w[d]?

theorem Outside.refl (w : World) : Outside S w w := ⟨rfl, fun _ _ => rfl⟩

theorem Outside.trans {w w' w'' : World} (h : Outside S w w') (h' : Outside S w' w'') : Outside S w w'' :=
  ⟨h'.1.trans h.1, fun d hd => (h'.2 d hd).trans (h.2 d hd)⟩

theorem Outside.set {w : World} {d : DocId} (hd : S d) (f : Doc) : Outside S w (w.set d f) := by
  refine ⟨List.length_set, fun e he => ?_⟩
  have : d ≠ e := fun h => he (h ▸ hd)
  rw [List.getElem?_set_ne this]

theorem SameOn.set {w1 w2 : World} (h : SameOn S w1 w2) {d : DocId} (hd : S d) {f : Doc}
    (hf : ∀ x ∈ f.items, ItemS S x) : SameOn S (w1.set d f) (w2.set d f) := by
  have hlen : (d < w1.length) ↔ (d < w2.length) := by
    have h1 := h.same d hd
    constructor
    · intro hl
      rw [List.getElem?_eq_getElem hl] at h1
      exact lt_of_getElem? h1.symm
    · intro hl
      rw [List.getElem?_eq_getElem hl] at h1
      exact lt_of_getElem? h1
  constructor
  · intro e he
    by_cases hde : d = e
    · subst hde
      rw [List.getElem?_set, List.getElem?_set]
      simp only [if_true]
      by_cases hl : d < w1.length
      · rw [if_pos hl, if_pos (hlen.1 hl)]
      · rw [if_neg hl, if_neg fun h => hl (hlen.2 h)]
    · rw [List.getElem?_set_ne hde, List.getElem?_set_ne hde]
      exact h.same e he
  · intro e g he hg
    by_cases hde : d = e
    · subst hde
      rw [List.getElem?_set] at hg
      simp only [if_true] at hg
      split at hg
      · obtain rfl := Option.some.inj hg; exact hf
      · cases hg
    · rw [List.getElem?_set_ne hde] at hg
      exact h.inside e g he hg

theorem SameOn.file {w1 w2 : World} (h : SameOn S w1 w2) {o : Option DocId} (ho : OwnS S o) :
    o.bind (w1[·]?) = o.bind (w2[·]?) := by
  cases o with
  | none => rfl
  | some i => exact h.same i (ho i rfl)

/-- What a computation with a result does in two worlds that agree: the same result, with the property,
the worlds afterwards agree, and nothing outside was changed. -/
def Both (S : DocId → Prop) {α : Type} (Q : α → Prop) (w1 w2 : World) : Res (World × α) → Res (World × α) → Prop :=
  RelRes fun x y => x.2 = y.2 ∧ Q x.2 ∧ SameOn S x.1 y.1 ∧ Outside S w1 x.1 ∧ Outside S w2 y.1

theorem Both.ok {α : Type} {Q : α → Prop} {w1 w2 w1' w2' : World} {a : α} (hq : Q a) (ha : SameOn S w1' w2')
    (h1 : Outside S w1 w1') (h2 : Outside S w2 w2') : Both S Q w1 w2 (.ok (w1', a)) (.ok (w2', a)) :=
  ⟨rfl, hq, ha, h1, h2⟩

theorem Both.bind {α β : Type} {Q : α → Prop} {R : β → Prop} {w1 w2 : World} {x y : Res (World × α)}
    {f g : World × α → Res (World × β)} (h : Both S Q w1 w2 x y)
    (k : ∀ w1' w2' a, Q a → SameOn S w1' w2' → Both S R w1' w2' (f (w1', a)) (g (w2', a))) :
    Both S R w1 w2 (x >>= f) (y >>= g) := by
  refine RelRes.bind h ?_
  rintro ⟨w1', a⟩ ⟨w2', b⟩ ⟨hab, hq, hag, ho1, ho2⟩
  simp only at hab hq hag ho1 ho2
  subst hab
  refine RelRes.mono (k w1' w2' a hq hag) ?_
  rintro x y ⟨h1, h2, h3, h4, h5⟩
  exact ⟨h1, h2, h3, ho1.trans h4, ho2.trans h5⟩

theorem Both.after {α : Type} {Q : α → Prop} {w1 w2 w1' w2' : World} {x y : Res (World × α)}
    (h1 : Outside S w1 w1') (h2 : Outside S w2 w2') (h : Both S Q w1' w2' x y) : Both S Q w1 w2 x y := by
  refine RelRes.mono h ?_
  rintro x y ⟨ha, hb, hc, hd, he⟩
  exact ⟨ha, hb, hc, h1.trans hd, h2.trans he⟩

/-! ## Copying -/

theorem SameOn.items {w1 w2 : World} (h : SameOn S w1 w2) {d : DocId} (hd : S d) {t : Doc} (ht : w1[d]? = some t)
    {t' : Doc} (hi : t'.items = t.items) : SameOn S (w1.set d t') (w2.set d t') :=
  h.set hd (by rw [hi]; exact h.inside d t hd ht)

theorem copyPic_both {w1 w2 : World} {to : DocId} {file : Option DocId} (h : SameOn S w1 w2) (ht : S to)
    (hf : OwnS S file) (pic : Picture) :
    Both S (fun _ => True) w1 w2 (copyPic w1 to file pic) (copyPic w2 to file pic) := by
  unfold copyPic
  split
  · exact Both.ok trivial h (.refl _) (.refl _)
  · rename_i bf _
    rw [← h.file hf]
    split
    · trivial
    · rename_i src _
      split
      · exact Both.ok trivial h (.refl _) (.refl _)
      · rename_i tgt _
        rw [← h.same to ht]
        split
        · trivial
        · rename_i t htt
          have hag : SameOn S (w1.set to (t.nextDocID.1.increaseID picName).1)
              (w2.set to (t.nextDocID.1.increaseID picName).1) := h.items ht htt rfl
          simp only
          rw [← hag.file hf]
          generalize (file.bind fun x => (w1.set to (t.nextDocID.1.increaseID picName).1)[x]?) = o
          cases o with
          | none => trivial
          | some src2 =>
            simp only
            generalize mediaOfTarget src2 tgt = m
            match m with
            | .panic => trivial
            | .err e => exact rfl
            | .ok none => exact Both.ok trivial hag (.set ht _) (.set ht _)
            | .ok (some m) =>
              simp only
              generalize pic.nvPicPr = nv
              cases nv with
              | none => trivial
              | some nv =>
                refine Both.ok trivial ?_ ((Outside.set ht _).trans (.set ht _)) ((Outside.set ht _).trans (.set ht _))
                rw [List.set_set, List.set_set]
                exact h.items ht htt rfl

theorem inline_both {w1 w2 : World} {to : DocId} (h : SameOn S w1 w2) (ht : S to) {r : Inline}
    (hf : OwnS S r.file) :
    Both S (fun (x : Option Inline) => ∀ i, x = some i → OwnS S i.file) w1 w2
      (r.copymedia w1 to) (r.copymedia w2 to) := by
  unfold Inline.copymedia
  split
  · trivial
  · split
    · trivial
    · split
      · refine (copyPic_both h ht hf _).bind ?_
        intro w1' w2' c _ hag
        cases c with
        | none => exact Both.ok (by simp) hag (.refl _) (.refl _)
        | some c =>
          refine Both.ok ?_ hag (.refl _) (.refl _)
          intro i hi; cases hi; intro j hj; cases hj; exact ht
      · split
        · refine Both.ok ?_ h (.refl _) (.refl _)
          intro i hi; cases hi; exact hf
        · split
          · refine Both.ok ?_ h (.refl _) (.refl _)
            intro i hi; cases hi; exact hf
          · exact Both.ok (by simp) h (.refl _) (.refl _)

theorem anchor_both {w1 w2 : World} {to : DocId} (h : SameOn S w1 w2) (ht : S to) {r : Anchor}
    (hf : OwnS S r.file) :
    Both S (fun (x : Option Anchor) => ∀ i, x = some i → OwnS S i.file) w1 w2
      (r.copymedia w1 to) (r.copymedia w2 to) := by
  unfold Anchor.copymedia
  split
  · trivial
  · split
    · trivial
    · split
      · refine (copyPic_both h ht hf _).bind ?_
        intro w1' w2' c _ hag
        cases c with
        | none => exact Both.ok (by simp) hag (.refl _) (.refl _)
        | some c =>
          refine Both.ok ?_ hag (.refl _) (.refl _)
          intro i hi; cases hi; intro j hj; cases hj; exact ht
      · split
        · refine Both.ok ?_ h (.refl _) (.refl _)
          intro i hi; cases hi; exact hf
        · split
          · refine Both.ok ?_ h (.refl _) (.refl _)
            intro i hi; cases hi; exact hf
          · exact Both.ok (by simp) h (.refl _) (.refl _)

theorem drawing_both {w1 w2 : World} {to : DocId} (h : SameOn S w1 w2) (ht : S to) {d : Drawing}
    (hd : DrawS S d) : Both S (DrawS S) w1 w2 (d.copymedia w1 to) (d.copymedia w2 to) := by
  unfold Drawing.copymedia
  split
  · rename_i i hi
    refine (inline_both h ht (hd.1 i hi)).bind ?_
    intro w1' w2' c hc hag
    refine Both.ok ⟨hc, ?_⟩ hag (.refl _) (.refl _)
    intro a ha; cases ha
  · split
    · rename_i a ha
      refine (anchor_both h ht (hd.2 a ha)).bind ?_
      intro w1' w2' c hc hag
      refine Both.ok ⟨?_, hc⟩ hag (.refl _) (.refl _)
      intro a ha; cases ha
    · refine Both.ok ⟨?_, ?_⟩ h (.refl _) (.refl _) <;> · intro a ha; cases ha

/-- The children of a run refer to the set only. -/
def RChildrenS (S : DocId → Prop) (cs : List RChild) : Prop := ∀ d, .drawing d ∈ cs → DrawS S d

theorem runS_iff {r : Run} : RunS S r ↔ RChildrenS S r.children := by
  simp only [RunS, Run.draws, RChildrenS, List.mem_filterMap]
  constructor
  · intro h d hd; exact h d ⟨_, hd, rfl⟩
  · rintro h d ⟨c, hc, hd⟩
    cases c <;> simp only [RChild.drawing?] at hd <;> cases hd
    exact h _ hc

theorem rchildren_both {to : DocId} (ht : S to) : ∀ {cs : List RChild} {w1 w2 : World}, SameOn S w1 w2 →
    RChildrenS S cs → Both S (RChildrenS S) w1 w2 (copyRChildren w1 to cs) (copyRChildren w2 to cs) := by
  intro cs
  induction cs with
  | nil => intro w1 w2 h hc; exact Both.ok hc h (.refl _) (.refl _)
  | cons c cs ih =>
    intro w1 w2 h hc
    have hcs : RChildrenS S cs := fun d hd => hc d (List.mem_cons_of_mem _ hd)
    have other : ∀ c : RChild, (∀ d, c ≠ .drawing d) →
        Both S (RChildrenS S) w1 w2 (do let (w2, cs') ← copyRChildren w1 to cs; return (w2, c :: cs'))
          (do let (w2, cs') ← copyRChildren w2 to cs; return (w2, c :: cs')) := by
      intro c hn
      refine (ih h hcs).bind ?_
      intro w1' w2' cs' hcs' hag
      refine Both.ok ?_ hag (.refl _) (.refl _)
      intro d hd
      rcases List.mem_cons.1 hd with hd | hd
      · exact absurd hd.symm (hn d)
      · exact hcs' d hd
    cases c with
    | drawing d =>
      refine (drawing_both h ht (hc d (List.mem_cons_self ..))).bind ?_
      intro w1' w2' d' hd' hag
      refine (ih hag hcs).bind ?_
      intro w1'' w2'' cs' hcs' hag
      refine Both.ok ?_ hag (.refl _) (.refl _)
      intro e he
      rcases List.mem_cons.1 he with he | he
      · cases he; exact hd'
      · exact hcs' e he
    | text t => exact other _ (by simp)
    | tab t => exact other _ (by simp)
    | br t => exact other _ (by simp)

theorem run_both {w1 w2 : World} {to : DocId} (h : SameOn S w1 w2) (ht : S to) {r : Run} (hr : RunS S r) :
    Both S (RunS S) w1 w2 (r.copymedia w1 to) (r.copymedia w2 to) := by
  refine (rchildren_both ht h (runS_iff.1 hr)).bind ?_
  intro w1' w2' cs hcs hag
  exact Both.ok (runS_iff.2 hcs) hag (.refl _) (.refl _)

theorem pchildren_both {to : DocId} (ht : S to) {file : Option DocId} (hf : OwnS S file) :
    ∀ {cs : List PChild} {w1 w2 : World}, SameOn S w1 w2 → (∀ c ∈ cs, PChildS S c) →
    Both S (fun cs => ∀ c ∈ cs, PChildS S c) w1 w2 (copyPChildren w1 to file cs) (copyPChildren w2 to file cs) := by
  intro cs
  induction cs with
  | nil => intro w1 w2 h hc; exact Both.ok hc h (.refl _) (.refl _)
  | cons c cs ih =>
    intro w1 w2 h hc
    have hcs : ∀ c ∈ cs, PChildS S c := fun d hd => hc d (List.mem_cons_of_mem _ hd)
    have push : ∀ {x : PChild} {xs : List PChild}, PChildS S x → (∀ c ∈ xs, PChildS S c) →
        ∀ c ∈ x :: xs, PChildS S c := by
      intro x xs h1 h2 c hc
      rcases List.mem_cons.1 hc with rfl | hc
      · exact h1
      · exact h2 c hc
    cases c with
    | run r =>
      refine (run_both h ht (hc _ (List.mem_cons_self ..))).bind ?_
      intro w1' w2' r' hr' hag
      refine (ih hag hcs).bind ?_
      intro w1'' w2'' cs' hcs' hag
      exact Both.ok (push hr' hcs') hag (.refl _) (.refl _)
    | rpr x =>
      refine (ih h hcs).bind ?_
      intro w1'' w2'' cs' hcs' hag
      exact Both.ok (push (hc _ (List.mem_cons_self ..)) hcs') hag (.refl _) (.refl _)
    | link l =>
      simp only [copyPChildren]
      rw [← h.file hf]
      split
      · trivial
      · rename_i src _
        split
        · exact ih h hcs
        · rename_i tgt _
          rw [← h.same to ht]
          split
          · trivial
          · rename_i t htt
            have hag : SameOn S (w1.set to (t.addLinkRelation tgt).1) (w2.set to (t.addLinkRelation tgt).1) :=
              h.items ht htt rfl
            refine Both.after (.set ht (t.addLinkRelation tgt).1) (.set ht (t.addLinkRelation tgt).1) ?_
            refine (run_both hag ht (hc (.link l) (List.mem_cons_self ..))).bind ?_
            intro w1' w2' r' hr' hag
            refine (ih hag hcs).bind ?_
            intro w1'' w2'' cs' hcs' hag
            exact Both.ok (push hr' hcs') hag (.refl _) (.refl _)

theorem para_both {w1 w2 : World} {to : DocId} (h : SameOn S w1 w2) (ht : S to) {p : Para} (hp : ParaS S p) :
    Both S (ParaS S) w1 w2 (p.copymedia w1 to) (p.copymedia w2 to) := by
  refine (pchildren_both ht hp.1 h hp.2).bind ?_
  intro w1' w2' cs hcs hag
  refine Both.ok ⟨?_, hcs⟩ hag (.refl _) (.refl _)
  intro i hi; cases hi; exact ht

/-- Copying a list, element by element -/
theorem list_both {α : Type} {P : α → Prop} {copy : World → α → Res (World × α)}
    {copyL : World → List α → Res (World × List α)} (h0 : ∀ w, copyL w [] = .ok (w, []))
    (h1 : ∀ w x xs, copyL w (x :: xs) = (do
      let (w1, x') ← copy w x
      let (w2, xs') ← copyL w1 xs
      return (w2, x' :: xs')))
    (hc : ∀ {w1 w2 x}, SameOn S w1 w2 → P x → Both S P w1 w2 (copy w1 x) (copy w2 x)) :
    ∀ {xs : List α} {w1 w2 : World}, SameOn S w1 w2 → (∀ x ∈ xs, P x) →
    Both S (fun xs => ∀ x ∈ xs, P x) w1 w2 (copyL w1 xs) (copyL w2 xs) := by
  intro xs
  induction xs with
  | nil => intro w1 w2 h hx; rw [h0, h0]; exact Both.ok hx h (.refl _) (.refl _)
  | cons x xs ih =>
    intro w1 w2 h hx
    rw [h1, h1]
    refine (hc h (hx x (List.mem_cons_self ..))).bind ?_
    intro w1' w2' x' hx' hag
    refine (ih hag fun y hy => hx y (List.mem_cons_of_mem _ hy)).bind ?_
    intro w1'' w2'' xs' hxs' hag
    refine Both.ok ?_ hag (.refl _) (.refl _)
    intro y hy
    rcases List.mem_cons.1 hy with rfl | hy
    · exact hx'
    · exact hxs' y hy

theorem paras_both {to : DocId} (ht : S to) {ps : List Para} {w1 w2 : World} (h : SameOn S w1 w2)
    (hp : ∀ p ∈ ps, ParaS S p) :
    Both S (fun ps => ∀ p ∈ ps, ParaS S p) w1 w2 (copyParas w1 to ps) (copyParas w2 to ps) :=
  list_both (copy := fun w p => Para.copymedia w to p) (copyL := fun w ps => copyParas w to ps) (fun _ => rfl) (fun _ _ _ => rfl)
    (fun h hp => para_both h ht hp) h hp

theorem cells_both {to : DocId} (ht : S to) {ps : List Cell} {w1 w2 : World} (h : SameOn S w1 w2)
    (hp : ∀ p ∈ ps, CellS S p) :
    Both S (fun ps => ∀ p ∈ ps, CellS S p) w1 w2 (copyCells w1 to ps) (copyCells w2 to ps) := by
  refine list_both (copyL := fun w cs => copyCells w to cs) (copy := fun w c => do
    let (w1, ps) ← copyParas w to c.paras
    return (w1, { c with paras := ps, file := some to })) (fun _ => rfl) ?_ ?_ h hp
  · intro w c cs
    simp only [copyCells]
    cases copyParas w to c.paras <;> rfl
  · intro w1 w2 c h hc
    refine (paras_both ht h hc.2).bind ?_
    intro w1' w2' ps hps hag
    refine Both.ok ⟨?_, hps⟩ hag (.refl _) (.refl _)
    intro i hi; cases hi; exact ht

theorem rows_both {to : DocId} (ht : S to) {ps : List Row} {w1 w2 : World} (h : SameOn S w1 w2)
    (hp : ∀ p ∈ ps, RowS S p) :
    Both S (fun ps => ∀ p ∈ ps, RowS S p) w1 w2 (copyRows w1 to ps) (copyRows w2 to ps) := by
  refine list_both (copyL := fun w rs => copyRows w to rs) (copy := fun w r => do
    let (w1, cs) ← copyCells w to r.cells
    return (w1, { r with cells := cs })) (fun _ => rfl) ?_ ?_ h hp
  · intro w r rs
    simp only [copyRows]
    cases copyCells w to r.cells <;> rfl
  · intro w1 w2 r h hr
    refine (cells_both ht h hr).bind ?_
    intro w1' w2' cs hcs hag
    exact Both.ok hcs hag (.refl _) (.refl _)

theorem item_both {w1 w2 : World} {to : DocId} (h : SameOn S w1 w2) (ht : S to) {x : BItem} (hx : ItemS S x) :
    Both S (ItemS S) w1 w2 (x.copymedia w1 to) (x.copymedia w2 to) := by
  cases x with
  | para p =>
    refine (para_both h ht hx).bind ?_
    intro w1' w2' p' hp' hag
    exact Both.ok hp' hag (.refl _) (.refl _)
  | sect s => exact Both.ok trivial h (.refl _) (.refl _)
  | table t =>
    simp only [BItem.copymedia, Table.copymedia]
    refine Both.bind (Q := fun (t : Table) => ∀ r ∈ t.rows, RowS S r) ((rows_both ht h hx).bind ?_) ?_
    · intro w1' w2' rs hrs hag
      exact Both.ok hrs hag (.refl _) (.refl _)
    · intro w1' w2' t' ht' hag
      exact Both.ok ht' hag (.refl _) (.refl _)

/-- What a call does in two worlds that agree -/
def BothW (S : DocId → Prop) (w1 w2 : World) : Res World → Res World → Prop :=
  RelRes fun x y => SameOn S x y ∧ Outside S w1 x ∧ Outside S w2 y

theorem BothW.after {w1 w2 w1' w2' : World} {x y : Res World}
    (h1 : Outside S w1 w1') (h2 : Outside S w2 w2') (h : BothW S w1' w2' x y) : BothW S w1 w2 x y := by
  refine RelRes.mono h ?_
  rintro x y ⟨hc, hd, he⟩
  exact ⟨hc, h1.trans hd, h2.trans he⟩

theorem pushItem_both {w1 w2 : World} {to : DocId} (h : SameOn S w1 w2) (ht : S to) {x : BItem} (hx : ItemS S x) :
    SameOn S (w1.pushItem to x) (w2.pushItem to x) ∧ Outside S w1 (w1.pushItem to x) ∧
      Outside S w2 (w2.pushItem to x) := by
  unfold World.pushItem
  rw [← h.same to ht]
  split
  · exact ⟨h, .refl _, .refl _⟩
  · rename_i t htt
    refine ⟨h.set ht ?_, .set ht _, .set ht _⟩
    intro y hy
    rcases List.mem_append.1 hy with hy | hy
    · exact h.inside to t ht htt y hy
    · rw [List.mem_singleton.1 hy]; exact hx

theorem appendItems_both {to : DocId} (ht : S to) : ∀ {xs : List BItem} {w1 w2 : World}, SameOn S w1 w2 →
    (∀ x ∈ xs, ItemS S x) → BothW S w1 w2 (appendItems w1 to xs) (appendItems w2 to xs) := by
  intro xs
  induction xs with
  | nil => intro w1 w2 h _; exact ⟨h, .refl _, .refl _⟩
  | cons x xs ih =>
    intro w1 w2 h hx
    refine RelRes.bind (item_both h ht (hx x (List.mem_cons_self ..))) ?_
    rintro ⟨w1', x1⟩ ⟨w2', x2⟩ ⟨hxx, hq, hag, ho1, ho2⟩
    simp only at hxx hq hag ho1 ho2
    subst hxx
    obtain ⟨h1, h2, h3⟩ := pushItem_both hag ht hq
    exact BothW.after (ho1.trans h2) (ho2.trans h3) (ih h1 fun y hy => hx y (List.mem_cons_of_mem _ hy))

/-! ## Calls -/

theorem onDoc_both {w1 w2 : World} {d : DocId} {act : Doc → Res Doc} (h : SameOn S w1 w2) (hd : S d)
    (ha : ∀ f f', act f = .ok f' → (∀ x ∈ f.items, ItemS S x) → ∀ x ∈ f'.items, ItemS S x) :
    BothW S w1 w2 (w1.onDoc d act) (w2.onDoc d act) := by
  unfold World.onDoc
  rw [← h.same d hd]
  split
  · trivial
  · rename_i f hf
    cases hact : act f with
    | panic => trivial
    | err e => exact rfl
    | ok f' => exact ⟨h.set hd (ha f f' hact (h.inside d f hd hf)), .set hd _, .set hd _⟩

theorem itemS_modPara {items : List BItem} {l : Loc} {p' : Para}
    (h : ∀ x ∈ items, ItemS S x) (hp : ParaS S p') : ∀ x ∈ modPara items l (fun _ => p'), ItemS S x := by
  cases l with
  | body i =>
    refine forall_modify h ?_
    intro x hx
    cases x with
    | para p => exact hp
    | table t => exact hx
    | sect s => exact hx
  | cell i r c j =>
    refine forall_modify h ?_
    intro x hx
    cases x with
    | para p => exact hx
    | sect s => exact hx
    | table t =>
      refine forall_modify (P := RowS S) hx ?_
      intro row hrow
      refine forall_modify (P := CellS S) hrow ?_
      intro cell hcell
      exact ⟨hcell.1, forall_modify (P := ParaS S) hcell.2 fun _ _ => hp⟩

theorem getPara_itemS {items : List BItem} {l : Loc} {p : Para}
    (h : ∀ x ∈ items, ItemS S x) (hp : getPara items l = some p) : ParaS S p := by
  cases l with
  | body i =>
    simp only [getPara] at hp
    split at hp
    · rename_i q hq
      simp only [Option.some.injEq] at hp; subst hp
      exact h _ (List.mem_of_getElem? hq)
    · simp at hp
  | cell i r c j =>
    simp only [getPara] at hp
    split at hp
    · rename_i t ht
      have ht := h _ (List.mem_of_getElem? ht)
      simp only [Option.bind_eq_bind, Option.bind_eq_some_iff] at hp
      obtain ⟨row, hrow, cell, hcell, hj⟩ := hp
      exact (ht row (List.mem_of_getElem? hrow) cell (List.mem_of_getElem? hcell)).2 p
        (List.mem_of_getElem? hj)
    · simp at hp

theorem onPara_both {w1 w2 : World} {d : DocId} {l : Loc} {act : Doc → Para → Res (Doc × Para)}
    (h : SameOn S w1 w2) (hd : S d)
    (ha : ∀ f p f' p', act f p = .ok (f', p') → ParaS S p → f'.items = f.items ∧ ParaS S p') :
    BothW S w1 w2 (w1.onPara d l act) (w2.onPara d l act) := by
  unfold World.onPara
  rw [← h.same d hd]
  split
  · trivial
  · rename_i doc hdoc
    split
    · trivial
    · rename_i p hp
      have hps := getPara_itemS (h.inside d doc hd hdoc) hp
      split
      · trivial
      · rename_i fid hfid
        have hfs : S fid := hps.1 fid hfid
        rw [← h.same fid hfs]
        split
        · trivial
        · rename_i f hf
          cases hact : act f p with
          | panic => trivial
          | err e => exact rfl
          | ok fp =>
            obtain ⟨f', p'⟩ := fp
            obtain ⟨h1, h2⟩ := ha f p f' p' hact hps
            have hag : SameOn S (w1.set fid f') (w2.set fid f') := h.items hfs hf h1
            simp only [Res.bind_ok]
            rw [← hag.same d hd]
            cases hd1 : (w1.set fid f')[d]? with
            | none => trivial
            | some doc1 =>
              refine ⟨hag.set hd ?_, (Outside.set hfs _).trans (.set hd _), (Outside.set hfs _).trans (.set hd _)⟩
              exact itemS_modPara (hag.inside d doc1 hd hd1) h2

theorem paraS_push {p : Para} (h : ParaS S p) {c : PChild} (hc : PChildS S c) :
    ParaS S { p with children := p.children ++ [c] } := by
  refine ⟨h.1, fun x hx => ?_⟩
  rcases List.mem_append.1 hx with hx | hx
  · exact h.2 x hx
  · rw [List.mem_singleton.1 hx]; exact hc

theorem itemS_push {f : Doc} {x : BItem} (h : ∀ x ∈ f.items, ItemS S x) (hx : ItemS S x) :
    ∀ y ∈ f.items ++ [x], ItemS S y := by
  intro y hy
  rcases List.mem_append.1 hy with hy | hy
  · exact h y hy
  · rw [List.mem_singleton.1 hy]; exact hx

theorem ownS_some {d : DocId} (hd : S d) : OwnS S (some d) := by
  intro i hi; cases hi; exact hd

theorem drawingS_new {d : Drawing} (h1 : ∀ i, d.inl = some i → i.file = none)
    (h2 : ∀ a, d.anchor = some a → a.file = none) : PChildS S (.run (drawingRun d)) := by
  intro e he
  have : e = d := by simpa [PChild.draws, Run.draws, drawingRun, RChild.drawing?] using he
  subst this
  refine ⟨fun i hi j hj => ?_, fun i hi j hj => ?_⟩
  · rw [h1 i hi] at hj; cases hj
  · rw [h2 i hi] at hj; cases hj

theorem step_both [ImgEnv] {w1 w2 : World} {o : Op} (ho : o.Within S) (h : SameOn S w1 w2) :
    BothW S w1 w2 (step w1 o) (step w2 o) := by
  cases o with
  | new => exact ho.elim
  | load items media => exact ho.elim
  | split d sep => exact ho.elim
  | append f af =>
    obtain ⟨hf, haf⟩ := ho
    simp only [step, World.appendFile]
    rw [← h.same f hf, ← h.same af haf]
    cases w1[f]? with
    | none => trivial
    | some t =>
      cases ha : w1[af]? with
      | none => trivial
      | some a => exact appendItems_both hf h (h.inside af a haf ha)
  | edit d g =>
    refine onDoc_both h ho.1 ?_
    intro f f' h hb; simp only [Res.ok.injEq] at h; subst h
    exact itemsFor_iff.1 (ho.2 _ (itemsFor_iff.2 hb))
  | addParagraph d =>
    refine onDoc_both h ho ?_
    intro f f' h hb; simp only [Res.ok.injEq] at h; subst h
    refine itemS_push hb ⟨ownS_some ho, fun c hc => by cases hc⟩
  | cellAddParagraph d i r c =>
    refine onDoc_both h ho ?_
    intro f f' h hb; simp only [Res.ok.injEq] at h; subst h
    refine forall_modify hb ?_
    intro x hx
    cases x with
    | para p => exact hx
    | sect s => exact hx
    | table t =>
      refine forall_modify (P := RowS S) hx ?_
      intro row hrow
      refine forall_modify (P := CellS S) hrow ?_
      rintro cell ⟨hc1, hc2⟩
      refine ⟨hc1, ?_⟩
      intro p hp
      rcases List.mem_append.1 hp with hp | hp
      · exact hc2 p hp
      · simp only [List.mem_cons, List.not_mem_nil, or_false] at hp; subst hp
        exact ⟨hc1, fun c hc => by cases hc⟩
  | addTable d row col width colors =>
    refine onDoc_both h ho ?_
    intro f f' h hb
    unfold Doc.addTable at h
    split at h
    · rename_i heq
      simp only [Res.ok.injEq] at h; subst h
      split at heq
      · simp at heq
      · split at heq
        · simp at heq
        · simp only [Res.ok.injEq, Prod.mk.injEq] at heq
          rw [← heq.1]
          refine itemS_push hb ?_
          intro r hr c hc
          simp only [List.mem_replicate] at hr
          rw [hr.2] at hc
          simp only [List.mem_replicate] at hc
          rw [hc.2]
          exact ⟨ownS_some ho, fun p hp => by simp at hp⟩
    · simp at h
    · simp at h
  | addTableTwips d rows cols width colors =>
    refine onDoc_both h ho ?_
    intro f f' h hb; simp only [Res.ok.injEq] at h; subst h
    refine itemS_push hb ?_
    intro r hr c hc
    simp only [List.mem_map] at hr
    obtain ⟨h, _, rfl⟩ := hr
    simp only [List.mem_map] at hc
    obtain ⟨h, _, rfl⟩ := hc
    exact ⟨ownS_some ho, fun p hp => by simp at hp⟩
  | withA3Page d =>
    refine onDoc_both h ho ?_
    intro f f' h hb; simp only [Res.ok.injEq] at h; subst h; exact itemS_push hb trivial
  | withA4Page d =>
    refine onDoc_both h ho ?_
    intro f f' h hb; simp only [Res.ok.injEq] at h; subst h; exact itemS_push hb trivial
  | useTemplate d t l tfs =>
    refine onDoc_both h ho ?_
    intro f f' h hb; simp only [Res.ok.injEq] at h; subst h; exact hb
  | increaseID d name =>
    refine onDoc_both h ho ?_
    intro f f' h hb; simp only [Res.ok.injEq] at h; subst h; exact hb
  | addText d l text =>
    refine onPara_both h ho ?_
    intro f p f' p' h hp; simp only [Res.ok.injEq, Prod.mk.injEq] at h; rw [← h.1, ← h.2]
    refine ⟨rfl, ?_⟩
    unfold Para.addText
    split
    · exact paraS_push hp (by intro d hd; simp [PChild.draws, Run.draws, RChild.drawing?] at hd)
    · exact paraS_push hp (by intro d hd; simp [PChild.draws, Run.draws, linePieces_draws] at hd)
  | addLink d l text link =>
    refine onPara_both h ho ?_
    intro f p f' p' h hp; simp only [Res.ok.injEq, Prod.mk.injEq] at h; rw [← h.1, ← h.2]
    exact ⟨rfl, paraS_push hp (by intro d hd; simp [PChild.draws, Run.draws] at hd)⟩
  | addInlineDrawing d l pic =>
    refine onPara_both h ho ?_
    intro f p f' p' h hps
    unfold Para.addInlineDrawing at h
    cases hp : f.addPicture pic with
    | mk f1 r =>
      obtain ⟨h1, h2⟩ := addPicture_adds hp
      rw [hp] at h
      rcases h2 with ⟨⟨e, rfl⟩, rfl⟩ | ⟨h3, rfl | ⟨id, rid, a, b, rfl⟩⟩
      · simp only [Res.ok.injEq, Prod.mk.injEq] at h
        obtain ⟨rfl, rfl⟩ := h
        exact ⟨rfl, hps⟩
      · simp at h
      · simp only [Res.ok.injEq, Prod.mk.injEq] at h
        obtain ⟨rfl, rfl⟩ := h
        refine ⟨h1, paraS_push hps (drawingS_new ?_ ?_)⟩
        · intro i hi; cases hi; rfl
        · intro i hi; cases hi
  | addAnchorDrawing d l pic =>
    refine onPara_both h ho ?_
    intro f p f' p' h hps
    unfold Para.addAnchorDrawing at h
    cases hp : f.addPicture pic with
    | mk f1 r =>
      obtain ⟨h1, h2⟩ := addPicture_adds hp
      rw [hp] at h
      rcases h2 with ⟨⟨e, rfl⟩, rfl⟩ | ⟨h3, rfl | ⟨id, rid, a, b, rfl⟩⟩
      · simp only [Res.ok.injEq, Prod.mk.injEq] at h
        obtain ⟨rfl, rfl⟩ := h
        exact ⟨rfl, hps⟩
      · simp at h
      · simp only [Res.ok.injEq, Prod.mk.injEq] at h
        obtain ⟨rfl, rfl⟩ := h
        refine ⟨h1, paraS_push hps (drawingS_new ?_ ?_)⟩
        · intro i hi; cases hi
        · intro i hi; cases hi; rfl
  | addInlineShape d l sw sh name bw prst ln =>
    refine onPara_both h ho ?_
    intro f p f' p' h hp; simp only [Res.ok.injEq, Prod.mk.injEq] at h; rw [← h.1, ← h.2]
    refine ⟨rfl, paraS_push hp (drawingS_new ?_ ?_)⟩
    · intro i hi; cases hi; rfl
    · intro i hi; cases hi
  | addAnchorShape d l sw sh name bw prst ln =>
    refine onPara_both h ho ?_
    intro f p f' p' h hp; simp only [Res.ok.injEq, Prod.mk.injEq] at h; rw [← h.1, ← h.2]
    refine ⟨rfl, paraS_push hp (drawingS_new ?_ ?_)⟩
    · intro i hi; cases hi
    · intro i hi; cases hi; rfl

/-! ## Schedules -/

theorem program_cons_self (t : Nat) (o : Op) (s : Schedule) :
    Schedule.program ((t, o) :: s) t = o :: Schedule.program s t := by
  simp [Schedule.program]

theorem program_cons_ne {t u : Nat} (h : u ≠ t) (o : Op) (s : Schedule) :
    Schedule.program ((u, o) :: s) t = Schedule.program s t := by
  simp [Schedule.program, h]

theorem SameOn.other {own : DocId → Nat} {t u : Nat} (h : u ≠ t) {w w' v : World}
    (ha : SameOn (own · = t) w v) (ho : Outside (own · = u) w w') : SameOn (own · = t) w' v := by
  have key : ∀ d, own d = t → w'[d]? = w[d]? := fun d hd => ho.2 d fun hu => h (hu.symm.trans hd)
  exact ⟨fun d hd => (key d hd).trans (ha.same d hd), fun d f hd hf => ha.inside d f hd (key d hd ▸ hf)⟩

/-- A schedule that returns: so does each thread alone, with the same documents of its own. -/
theorem schedule_alone [ImgEnv] {own : DocId → Nat} : ∀ {s : Schedule} {w w' : World} {alone : Nat → World},
    s.Separate own → (∀ t, SameOn (own · = t) w (alone t)) → run w s.calls = .ok w' →
    w'.length = w.length ∧ ∀ t, ∃ v, run (alone t) (s.program t) = .ok v ∧ SameOn (own · = t) w' v := by
  intro s
  induction s with
  | nil =>
    intro w w' alone _ ha h
    simp only [Schedule.calls, List.map_nil, run, Res.ok.injEq] at h
    subst h
    exact ⟨rfl, fun t => ⟨alone t, rfl, ha t⟩⟩
  | cons c s ih =>
    intro w w' alone hs ha h
    obtain ⟨u, o⟩ := c
    have hb := step_both (hs (u, o) (List.mem_cons_self ..)) (ha u)
    simp only [Schedule.calls, List.map_cons, run] at h
    cases h1 : step w o with
    | panic => rw [h1] at h; cases h
    | err e => rw [h1] at h; cases h
    | ok w1 =>
      rw [h1] at h hb
      cases h2 : step (alone u) o with
      | panic => rw [h2] at hb; exact hb.elim
      | err e => rw [h2] at hb; exact hb.elim
      | ok v1 =>
        rw [h2] at hb
        obtain ⟨hag, ho1, ho2⟩ := hb
        obtain ⟨hlen, hall⟩ := ih (alone := fun t => if t = u then v1 else alone t)
          (fun c hc => hs c (List.mem_cons_of_mem _ hc))
          (by
            intro t
            by_cases ht : t = u
            · subst ht; rw [if_pos rfl]; exact hag
            · rw [if_neg ht]; exact (ha t).other (fun h => ht h.symm) ho1) h
        refine ⟨hlen.trans ho1.1, fun t => ?_⟩
        obtain ⟨v, hv1, hv2⟩ := hall t
        refine ⟨v, ?_, hv2⟩
        by_cases ht : t = u
        · subst ht
          rw [if_pos rfl] at hv1
          rw [program_cons_self, run, h2]
          exact hv1
        · rw [if_neg ht] at hv1
          rw [program_cons_ne (fun h => ht h.symm)]
          exact hv1

/-- If each thread alone returns, so does every schedule. -/
theorem alone_schedule [ImgEnv] {own : DocId → Nat} : ∀ {s : Schedule} {w : World} {alone : Nat → World},
    s.Separate own → (∀ t, SameOn (own · = t) w (alone t)) →
    (∀ t, ∃ v, run (alone t) (s.program t) = .ok v) → ∃ w', run w s.calls = .ok w' := by
  intro s
  induction s with
  | nil => intro w alone _ _ _; exact ⟨w, rfl⟩
  | cons c s ih =>
    intro w alone hs ha hall
    obtain ⟨u, o⟩ := c
    have hb := step_both (hs (u, o) (List.mem_cons_self ..)) (ha u)
    obtain ⟨v, hv⟩ := hall u
    rw [program_cons_self, run] at hv
    cases h2 : step (alone u) o with
    | panic => rw [h2] at hv; cases hv
    | err e => rw [h2] at hv; cases hv
    | ok v1 =>
      rw [h2] at hv hb
      cases h1 : step w o with
      | panic => rw [h1] at hb; exact hb.elim
      | err e => rw [h1] at hb; exact hb.elim
      | ok w1 =>
        rw [h1] at hb
        obtain ⟨hag, ho1, ho2⟩ := hb
        simp only [Schedule.calls, List.map_cons, run, h1]
        refine ih (alone := fun t => if t = u then v1 else alone t)
          (fun c hc => hs c (List.mem_cons_of_mem _ hc)) ?_ ?_
        · intro t
          by_cases ht : t = u
          · subst ht; rw [if_pos rfl]; exact hag
          · rw [if_neg ht]; exact (ha t).other (fun h => ht h.symm) ho1
        · intro t
          by_cases ht : t = u
          · subst ht; rw [if_pos rfl]; exact ⟨v, hv⟩
          · rw [if_neg ht]
            obtain ⟨v', hv'⟩ := hall t
            rw [program_cons_ne (fun h => ht h.symm)] at hv'
            exact ⟨v', hv'⟩

end Docx
