import Verif.Lemmas.Items
import Verif.Lemmas.CopyOk
import Verif.Lemmas.Ids
import Verif.SpecLegal

/-!
# Careful histories
-/

set_option linter.unusedSectionVars false

namespace Docx

/-! ## Owners -/

/-- The document exists among the first `n`. -/
def FileIn (n : Nat) (o : Option DocId) : Prop := ∃ i, o = some i ∧ i < n

def CellIn (n : Nat) (c : Cell) : Prop := FileIn n c.file ∧ ∀ p ∈ c.paras, FileIn n p.file
def RowIn (n : Nat) (r : Row) : Prop := ∀ c ∈ r.cells, CellIn n c
def ItemIn (n : Nat) : BItem → Prop
  | .para p => FileIn n p.file
  | .table t => ∀ r ∈ t.rows, RowIn n r
  | .sect _ => True

theorem itemIn_iff {n : Nat} {x : BItem} : ItemIn n x ↔ ∀ o ∈ x.owners, FileIn n o := by
  cases x with
  | para p => simp [ItemIn, BItem.owners]
  | sect s => simp [ItemIn, BItem.owners]
  | table t =>
    simp only [ItemIn, BItem.owners, List.mem_flatMap, RowIn, CellIn]
    constructor
    · rintro h o ⟨r, hr, c, hc, ho⟩
      obtain ⟨h1, h2⟩ := h r hr c hc
      simp only [List.mem_cons, List.mem_map] at ho
      rcases ho with rfl | ⟨p, hp, rfl⟩
      · exact h1
      · exact h2 p hp
    · intro h r hr c hc
      exact ⟨h _ ⟨r, hr, c, hc, by simp⟩, fun p hp => h _ ⟨r, hr, c, hc, by
        simp only [List.mem_cons, List.mem_map]; exact .inr ⟨p, hp, rfl⟩⟩⟩

theorem itemsIn_iff {n : Nat} {xs : List BItem} : ItemsIn n xs ↔ ∀ x ∈ xs, ItemIn n x := by
  constructor
  · intro h x hx; exact itemIn_iff.2 (h x hx)
  · intro h x hx; exact itemIn_iff.1 (h x hx)

theorem FileIn.mono {n m : Nat} (h : n ≤ m) {o : Option DocId} : FileIn n o → FileIn m o := by
  rintro ⟨i, rfl, hi⟩; exact ⟨i, rfl, Nat.lt_of_lt_of_le hi h⟩

theorem ItemIn.mono {n m : Nat} (h : n ≤ m) {x : BItem} (hx : ItemIn n x) : ItemIn m x :=
  itemIn_iff.2 fun o ho => (itemIn_iff.1 hx o ho).mono h

/-- All items of the world belong to the first `n` documents. -/
def WIn (n : Nat) (w : World) : Prop := ∀ f ∈ w, ∀ x ∈ f.items, ItemIn n x

theorem closed_iff {w : World} : w.Closed ↔ WIn w.length w := by
  simp only [World.Closed, itemsIn_iff, WIn]

theorem WIn.mono {n m : Nat} (h : n ≤ m) {w : World} (hw : WIn n w) : WIn m w :=
  fun f hf x hx => (hw f hf x hx).mono h

theorem wIn_push {n} {w : World} (h : WIn n w) {f : Doc} (hf : ∀ x ∈ f.items, ItemIn n x) :
    WIn n (w ++ [f]) := by
  intro g hg
  rcases List.mem_append.1 hg with hg | hg
  · exact h g hg
  · simp only [List.mem_cons, List.not_mem_nil, or_false] at hg; subst hg; exact hf

theorem wIn_set {n} {w : World} (h : WIn n w) {d : DocId} {f : Doc} (hf : ∀ x ∈ f.items, ItemIn n x) :
    WIn n (w.set d f) := by
  intro g hg
  rcases List.mem_or_eq_of_mem_set hg with hg | rfl
  · exact h g hg
  · exact hf

theorem itemIn_modPara {n : Nat} {items : List BItem} {l : Loc} {p' : Para}
    (h : ∀ x ∈ items, ItemIn n x) (hp : FileIn n p'.file) :
    ∀ x ∈ modPara items l (fun _ => p'), ItemIn n x := by
  cases l with
  | body i =>
    refine forall_modify h ?_
    intro x hx
    cases x with
    | para p => exact hp
    | table t => exact hx
    | sect s => exact hx
  | cell i r c j =>
    refine forall_modify h ?_
    intro x hx
    cases x with
    | para p => exact hx
    | sect s => exact hx
    | table t =>
      refine forall_modify (P := RowIn n) hx ?_
      intro row hrow
      refine forall_modify (P := CellIn n) hrow ?_
      intro cell hcell
      exact ⟨hcell.1, forall_modify (P := fun (p : Para) => FileIn n p.file) hcell.2 fun _ _ => hp⟩

theorem getPara_in {n : Nat} {items : List BItem} {l : Loc} {p : Para}
    (h : ∀ x ∈ items, ItemIn n x) (hp : getPara items l = some p) : FileIn n p.file := by
  cases l with
  | body i =>
    simp only [getPara] at hp
    split at hp
    · rename_i q hq
      simp only [Option.some.injEq] at hp; subst hp
      exact h _ (List.mem_of_getElem? hq)
    · simp at hp
  | cell i r c j =>
    simp only [getPara] at hp
    split at hp
    · rename_i t ht
      have ht := h _ (List.mem_of_getElem? ht)
      simp only [Option.bind_eq_bind, Option.bind_eq_some_iff] at hp
      obtain ⟨row, hrow, cell, hcell, hj⟩ := hp
      exact (ht row (List.mem_of_getElem? hrow) cell (List.mem_of_getElem? hcell)).2 p
        (List.mem_of_getElem? hj)
    · simp at hp

theorem onDoc_in {w w' : World} {d : DocId} {act : Doc → Res Doc} (hw : WIn w.length w)
    (ha : ∀ f f', w[d]? = some f → act f = .ok f' → (∀ x ∈ f.items, ItemIn w.length x) →
      ∀ x ∈ f'.items, ItemIn w.length x)
    (h : w.onDoc d act = .ok w') : WIn w'.length w' := by
  unfold World.onDoc at h
  split at h
  · simp at h
  · rename_i f hf
    obtain ⟨f', h1, h2⟩ := Res.bind_eq_ok.1 h
    simp only [Res.ok.injEq] at h2; subst h2
    rw [List.length_set]
    exact wIn_set hw (ha _ _ hf h1 (hw f (List.mem_of_getElem? hf)))

theorem onPara_in {w w' : World} {d : DocId} {l : Loc} {act : Doc → Para → Res (Doc × Para)}
    (hw : WIn w.length w)
    (ha : ∀ f p f' p', act f p = .ok (f', p') → f'.items = f.items ∧ p'.file = p.file)
    (h : w.onPara d l act = .ok w') : WIn w'.length w' := by
  obtain ⟨doc, p, fid, f, f', p', doc1, hdoc, hp, hfid, hf, hact, hd1, rfl⟩ := onPara_ok h
  obtain ⟨h1, h2⟩ := ha _ _ _ _ hact
  simp only [List.length_set]
  have hw1 : WIn w.length (w.set fid f') :=
    wIn_set hw (by rw [h1]; exact hw f (List.mem_of_getElem? hf))
  refine wIn_set hw1 (itemIn_modPara (hw1 doc1 (List.mem_of_getElem? hd1)) ?_)
  rw [h2]
  exact getPara_in (hw doc (List.mem_of_getElem? hdoc)) hp

theorem itemIn_push {n} {f : Doc} {x : BItem} (h : ∀ x ∈ f.items, ItemIn n x) (hx : ItemIn n x) :
    ∀ y ∈ f.items ++ [x], ItemIn n y := by
  intro y hy
  rcases List.mem_append.1 hy with hy | hy
  · exact h y hy
  · simp only [List.mem_cons, List.not_mem_nil, or_false] at hy; subst hy; exact hx

theorem each_to {α : Type} {R : α → α → Prop} {Q : α → Prop} (hR : ∀ a b, R a b → Q b)
    {as bs : List α} (h : Each R as bs) : ∀ b ∈ bs, Q b := by
  induction h with
  | nil => intro b hb; cases hb
  | @cons a b as bs hab _ ih =>
    intro y hy
    rcases List.mem_cons.1 hy with rfl | hy
    · exact hR a _ hab
    · exact ih y hy

/-- Copies belong to the document they are made for. -/
theorem item_copied_in {R : CopyRules} {n : Nat} {to : DocId} (ht : to < n) {x x' : BItem}
    (h : ItemCopied R to x x') : ItemIn n x' := by
  have hf : FileIn n (some to) := ⟨to, rfl, ht⟩
  cases x with
  | para p => obtain ⟨p', rfl, h⟩ := h; simp only [ItemIn]; rw [h.2.1]; exact hf
  | sect s => cases h; trivial
  | table t =>
    obtain ⟨t', rfl, _, _, h3⟩ := h
    refine each_to (Q := RowIn n) ?_ h3
    rintro r r' ⟨_, h⟩
    refine each_to (Q := CellIn n) ?_ h
    rintro c c' ⟨_, h1, h⟩
    refine ⟨by rw [h1]; exact hf, each_to (Q := fun (p : Para) => FileIn n p.file) ?_ h⟩
    rintro q q' ⟨_, h, _⟩
    rw [h]; exact hf

theorem appendItems_in {xs : List BItem} {w w' : World} {to : DocId} {t : Doc}
    (hw : WIn w.length w) (ht : w[to]? = some t) (h1 : appendItems w to xs = .ok w') :
    WIn w'.length w' := by
  obtain ⟨t', copies, h2, h3, h4⟩ :=
    appendItems_copied (draw_obeys (PD := fun _ => True) (fun _ _ => trivial) to) h1 ht trivial trivial
  have g := appendItems_grow h1
  rw [g.len]
  intro f hf x hx'
  obtain ⟨d, hd⟩ := List.mem_iff_getElem?.1 hf
  by_cases e : d = to
  · subst e
    rw [h2] at hd; obtain rfl := Option.some.inj hd
    rw [h3] at hx'
    rcases List.mem_append.1 hx' with hx' | hx'
    · exact hw t (List.mem_of_getElem? ht) x hx'
    · exact each_to (Q := ItemIn w.length) (fun _ _ => item_copied_in (lt_of_getElem? ht)) h4 x hx'
  · rw [g.other d e] at hd
    exact hw f (List.mem_of_getElem? hd) x hx'

theorem splitFill_in {sep} {xs : List BItem} {w w' : World} {to : DocId} {t : Doc} {cnt left}
    (hw : WIn w.length w) (ht : w[to]? = some t)
    (h1 : splitFill sep to w cnt xs = .ok (w', left)) : WIn w'.length w' := by
  obtain ⟨t', taken, copies, h2, h3, h4, h5, _⟩ :=
    splitFill_copied (draw_obeys (PD := fun _ => True) (fun _ _ => trivial) to) h1 ht trivial trivial
  have g := splitFill_grow h1
  rw [g.len]
  intro f hf x hx'
  obtain ⟨d, hd⟩ := List.mem_iff_getElem?.1 hf
  by_cases e : d = to
  · subst e
    rw [h2] at hd; obtain rfl := Option.some.inj hd
    rw [h3] at hx'
    rcases List.mem_append.1 hx' with hx' | hx'
    · exact hw t (List.mem_of_getElem? ht) x hx'
    · exact each_to (Q := ItemIn w.length) (fun _ _ => item_copied_in (lt_of_getElem? ht)) h4 x hx'
  · rw [g.other d e] at hd
    exact hw f (List.mem_of_getElem? hd) x hx'

theorem splitLoop_in {sep} {f : Doc} : ∀ {n : Nat} {w : World} {docs items w' docs'},
    WIn w.length w → splitLoop sep f n w docs items = .ok (w', docs') → WIn w'.length w' := by
  intro n
  induction n with
  | zero => intro w docs items w' docs' _ h; simp [splitLoop] at h
  | succ n ih =>
    intro w docs items w' docs' hw h1
    cases items with
    | nil =>
      simp only [splitLoop, Res.ok.injEq, Prod.mk.injEq] at h1
      rw [← h1.1]; exact hw
    | cons i is =>
      simp only [splitLoop] at h1
      obtain ⟨⟨w1, left⟩, h2, h3⟩ := Res.bind_eq_ok.1 h1
      simp only at h3
      have hw0 : WIn (w ++ [splitDoc f]).length (w ++ [splitDoc f]) :=
        wIn_push (hw.mono (by simp)) (by intro x hx; simp [splitDoc] at hx)
      have h4 := splitFill_in (t := splitDoc f) hw0 (by simp) h2
      cases left with
      | none =>
        simp only [Res.pure_eq, Res.ok.injEq, Prod.mk.injEq] at h3
        rw [← h3.1]; exact h4
      | some rest => exact ih h4 h3

/-- A legal call keeps the world closed. -/
theorem step_in [ImgEnv] {w w' : World} {o : Op} (ho : o.Legal w) (hw : WIn w.length w)
    (h : step w o = .ok w') : WIn w'.length w' := by
  cases o with
  | new =>
    simp only [step, Res.ok.injEq] at h; subst h
    exact wIn_push (hw.mono (by simp)) (by intro x hx; simp [Doc.new] at hx)
  | load items media =>
    simp only [step, Res.ok.injEq] at h; subst h
    exact wIn_push (hw.mono (by simp)) fun x hx => (itemsIn_iff.1 ho x hx).mono (by simp)
  | append f af =>
    simp only [step] at h
    split at h
    · simp at h
    · rename_i t ht
      unfold World.appendFile at h
      split at h
      · simp at h
      · exact appendItems_in hw ht h
  | split d sep =>
    simp only [step] at h
    split at h
    · rename_i w1 docs h1
      simp only [Res.ok.injEq] at h; subst h
      unfold World.splitByParagraph at h1
      split at h1
      · simp at h1
      · exact splitLoop_in hw h1
    · simp at h
    · simp at h
  | edit d g =>
    refine onDoc_in hw ?_ h
    intro f f' hf h _; simp only [Res.ok.injEq] at h; subst h
    obtain ⟨f0, h1, h2⟩ := ho
    rw [hf] at h1; obtain rfl := Option.some.inj h1
    exact itemsIn_iff.1 h2
  | addParagraph d =>
    refine onDoc_in hw ?_ h
    intro f f' hf h hb; simp only [Res.ok.injEq] at h; subst h
    exact itemIn_push hb ⟨d, rfl, lt_of_getElem? hf⟩
  | cellAddParagraph d i r c =>
    refine onDoc_in hw ?_ h
    intro f f' _ h hb; simp only [Res.ok.injEq] at h; subst h
    refine forall_modify hb ?_
    intro x hx
    cases x with
    | para p => exact hx
    | sect s => exact hx
    | table t =>
      refine forall_modify (P := RowIn w.length) hx ?_
      intro row hrow
      refine forall_modify (P := CellIn w.length) hrow ?_
      rintro cell ⟨hc1, hc2⟩
      refine ⟨hc1, ?_⟩
      intro p hp
      rcases List.mem_append.1 hp with hp | hp
      · exact hc2 p hp
      · simp only [List.mem_cons, List.not_mem_nil, or_false] at hp; subst hp; exact hc1
  | addTable d row col width colors =>
    refine onDoc_in hw ?_ h
    intro f f' hf h hb
    unfold Doc.addTable at h
    split at h
    · rename_i heq
      simp only [Res.ok.injEq] at h; subst h
      split at heq
      · simp at heq
      · split at heq
        · simp at heq
        · simp only [Res.ok.injEq, Prod.mk.injEq] at heq
          rw [← heq.1]
          refine itemIn_push hb ?_
          intro r hr c hc
          simp only [List.mem_replicate] at hr
          rw [hr.2] at hc
          simp only [List.mem_replicate] at hc
          rw [hc.2]
          exact ⟨⟨d, rfl, lt_of_getElem? hf⟩, fun p hp => by simp at hp⟩
    · simp at h
    · simp at h
  | addTableTwips d rows cols width colors =>
    refine onDoc_in hw ?_ h
    intro f f' hf h hb; simp only [Res.ok.injEq] at h; subst h
    refine itemIn_push hb ?_
    intro r hr c hc
    simp only [List.mem_map] at hr
    obtain ⟨h, _, rfl⟩ := hr
    simp only [List.mem_map] at hc
    obtain ⟨h, _, rfl⟩ := hc
    exact ⟨⟨d, rfl, lt_of_getElem? hf⟩, fun p hp => by simp at hp⟩
  | withA3Page d =>
    refine onDoc_in hw ?_ h
    intro f f' _ h hb; simp only [Res.ok.injEq] at h; subst h; exact itemIn_push hb trivial
  | withA4Page d =>
    refine onDoc_in hw ?_ h
    intro f f' _ h hb; simp only [Res.ok.injEq] at h; subst h; exact itemIn_push hb trivial
  | useTemplate d t l tfs =>
    refine onDoc_in hw ?_ h
    intro f f' _ h hb; simp only [Res.ok.injEq] at h; subst h; exact hb
  | increaseID d name =>
    refine onDoc_in hw ?_ h
    intro f f' _ h hb; simp only [Res.ok.injEq] at h; subst h; exact hb
  | addText d l text =>
    refine onPara_in hw ?_ h
    intro f p f' p' h; simp only [Res.ok.injEq, Prod.mk.injEq] at h; rw [← h.1, ← h.2]
    refine ⟨rfl, ?_⟩
    unfold Para.addText
    split <;> rfl
  | addLink d l text link =>
    refine onPara_in hw ?_ h
    intro f p f' p' h; simp only [Res.ok.injEq, Prod.mk.injEq] at h; rw [← h.1, ← h.2]
    exact ⟨rfl, rfl⟩
  | addInlineDrawing d l pic =>
    refine onPara_in hw ?_ h
    intro f p f' p' h
    unfold Para.addInlineDrawing at h
    cases hp : f.addPicture pic with
    | mk f1 r =>
      obtain ⟨h1, h2⟩ := addPicture_adds hp
      rw [hp] at h
      rcases h2 with ⟨⟨e, rfl⟩, rfl⟩ | ⟨h3, rfl | ⟨id, rid, a, b, rfl⟩⟩
      · simp only [Res.ok.injEq, Prod.mk.injEq] at h
        obtain ⟨rfl, rfl⟩ := h
        exact ⟨rfl, rfl⟩
      · simp at h
      · simp only [Res.ok.injEq, Prod.mk.injEq] at h
        obtain ⟨rfl, rfl⟩ := h
        exact ⟨h1, rfl⟩
  | addAnchorDrawing d l pic =>
    refine onPara_in hw ?_ h
    intro f p f' p' h
    unfold Para.addAnchorDrawing at h
    cases hp : f.addPicture pic with
    | mk f1 r =>
      obtain ⟨h1, h2⟩ := addPicture_adds hp
      rw [hp] at h
      rcases h2 with ⟨⟨e, rfl⟩, rfl⟩ | ⟨h3, rfl | ⟨id, rid, a, b, rfl⟩⟩
      · simp only [Res.ok.injEq, Prod.mk.injEq] at h
        obtain ⟨rfl, rfl⟩ := h
        exact ⟨rfl, rfl⟩
      · simp at h
      · simp only [Res.ok.injEq, Prod.mk.injEq] at h
        obtain ⟨rfl, rfl⟩ := h
        exact ⟨h1, rfl⟩
  | addInlineShape d l sw sh name bw prst ln =>
    refine onPara_in hw ?_ h
    intro f p f' p' h; simp only [Res.ok.injEq, Prod.mk.injEq] at h; rw [← h.1, ← h.2]
    exact ⟨rfl, rfl⟩
  | addAnchorShape d l sw sh name bw prst ln =>
    refine onPara_in hw ?_ h
    intro f p f' p' h; simp only [Res.ok.injEq, Prod.mk.injEq] at h; rw [← h.1, ← h.2]
    exact ⟨rfl, rfl⟩

/-! ## The media index stays in range -/

theorem idxOK_safe {f : Doc} (h : IdxOK f) (name : String) : f.getMedia name ≠ .panic := by
  have := h name
  unfold Doc.getMedia
  cases hi : f.mediaIdx name with
  | none => simp
  | some i =>
    simp only [hi] at this
    obtain ⟨⟨m, hm, _⟩, _⟩ := this
    simp [hm]

theorem step_safe [ImgEnv] {w w' : World} {o : Op} (hw : MediaSafe w) (h : step w o = .ok w') :
    MediaSafe w' := by
  have e := step_wevo h
  intro d f hf
  by_cases hd : d < w.length
  · obtain ⟨f', hf', e'⟩ := e.old d w[d] (by simp [hd])
    rw [hf] at hf'; obtain rfl := Option.some.inj hf'
    exact e'.safe (hw d w[d] (by simp [hd]))
  · obtain ⟨b, hb, e'⟩ := e.new d f hf (Nat.le_of_not_lt hd)
    exact e'.safe fun name => idxOK_safe (base_idxOK hb) name

/-! ## Legal calls return -/

theorem onDoc_ok {w : World} {d : DocId} {act : Doc → Res Doc} (hd : d < w.length)
    (ha : ∀ f, ∃ f', act f = .ok f') : ∃ w', w.onDoc d act = .ok w' := by
  unfold World.onDoc
  rw [List.getElem?_eq_getElem hd]
  obtain ⟨f', h⟩ := ha w[d]
  simp only [h, Res.bind_ok]
  exact ⟨_, rfl⟩

theorem onPara_returns {w : World} {d : DocId} {l : Loc} {act : Doc → Para → Res (Doc × Para)}
    (hw : WIn w.length w) (hd : HasPara w d l) (ha : ∀ f p, ∃ r, act f p = .ok r) :
    ∃ w', w.onPara d l act = .ok w' := by
  obtain ⟨f, p, hf, hp⟩ := hd
  obtain ⟨i, hi, hl⟩ := getPara_in (hw f (List.mem_of_getElem? hf)) hp
  unfold World.onPara
  simp only [hf, hp, hi, List.getElem?_eq_getElem hl]
  obtain ⟨⟨f', p'⟩, h⟩ := ha w[i] p
  simp only [h, Res.bind_ok]
  have hd := lt_of_getElem? hf
  have : d < (w.set i f').length := by simpa using hd
  rw [List.getElem?_eq_getElem this]
  exact ⟨_, rfl⟩

theorem addPicture_returns [ImgEnv] {f : Doc} {pic : Bytes} (h : HasWidth pic) :
    (f.addPicture pic).2 ≠ .panic := by
  unfold Doc.addPicture
  split
  · simp
  · rename_i w0 h0 fmt hd
    have := h _ _ _ hd
    simp only [scaleSize, this, if_false]
    split
    · rename_i e; split at e <;> simp at e
    · simp

theorem step_returns [ImgEnv] {w : World} {o : Op} (ho : o.Legal w) (hw : WIn w.length w)
    (hm : MediaSafe w) : ∃ w', step w o = .ok w' := by
  cases o with
  | new => exact ⟨_, rfl⟩
  | load items media => exact ⟨_, rfl⟩
  | addParagraph d => exact onDoc_ok ho fun _ => ⟨_, rfl⟩
  | cellAddParagraph d i r c => exact onDoc_ok ho fun _ => ⟨_, rfl⟩
  | addTable d row col width colors =>
    obtain ⟨h1, h2, h3⟩ := ho
    refine onDoc_ok h1 fun f => ?_
    have e1 : ¬ row < 0 := Int64.not_lt.2 h2
    have e2 : ¬ (row > 0 ∧ col < 0) := fun ⟨a, b⟩ => Int64.not_lt.2 (h3 a) b
    simp only [Doc.addTable, e1, e2, if_false]
    exact ⟨_, rfl⟩
  | addTableTwips d rows cols width colors => exact onDoc_ok ho fun _ => ⟨_, rfl⟩
  | withA3Page d => exact onDoc_ok ho fun _ => ⟨_, rfl⟩
  | withA4Page d => exact onDoc_ok ho fun _ => ⟨_, rfl⟩
  | useTemplate d t l tfs => exact onDoc_ok ho fun _ => ⟨_, rfl⟩
  | increaseID d name => exact onDoc_ok ho fun _ => ⟨_, rfl⟩
  | addText d l text => exact onPara_returns hw ho fun _ _ => ⟨_, rfl⟩
  | addLink d l text link => exact onPara_returns hw ho fun _ _ => ⟨_, rfl⟩
  | addInlineShape d l sw sh name bw prst ln => exact onPara_returns hw ho fun _ _ => ⟨_, rfl⟩
  | addAnchorShape d l sw sh name bw prst ln => exact onPara_returns hw ho fun _ _ => ⟨_, rfl⟩
  | addInlineDrawing d l pic =>
    refine onPara_returns hw ho.1 fun f p => ?_
    have := addPicture_returns (f := f) ho.2
    unfold Para.addInlineDrawing
    cases hp : f.addPicture pic with
    | mk f1 r =>
      rw [hp] at this
      cases r with
      | panic => exact absurd rfl this
      | err e => exact ⟨_, rfl⟩
      | ok v => exact ⟨_, rfl⟩
  | addAnchorDrawing d l pic =>
    refine onPara_returns hw ho.1 fun f p => ?_
    have := addPicture_returns (f := f) ho.2
    unfold Para.addAnchorDrawing
    cases hp : f.addPicture pic with
    | mk f1 r =>
      rw [hp] at this
      cases r with
      | panic => exact absurd rfl this
      | err e => exact ⟨_, rfl⟩
      | ok v => exact ⟨_, rfl⟩
  | append f af =>
    obtain ⟨h1, a, ha, hc⟩ := ho
    have ht : w[f]? = some w[f] := List.getElem?_eq_getElem h1
    simp only [step, ht, World.appendFile, ha]
    exact appendItems_ok (fun t h => by rw [ht] at h; exact (Option.some.inj h).symm)
      ⟨⟨⟨_, ht, .refl _⟩, fun _ _ _ h => h⟩, hm⟩ hc
  | split d sep =>
    obtain ⟨f, hf, hc, hs⟩ := ho
    obtain ⟨w', ds, h⟩ := splitLoop_ok (sep := sep) (f := f) (docs := []) (Nat.lt_succ_self _) (.refl w)
      (Nat.le_refl _) hm hc hs
    have : w.splitByParagraph d sep = .ok (w', ds) := by
      unfold World.splitByParagraph; simp only [hf]; exact h
    simp only [step, this]
    exact ⟨_, rfl⟩
  | edit d g =>
    obtain ⟨f, hf, _⟩ := ho
    exact onDoc_ok (lt_of_getElem? hf) fun _ => ⟨_, rfl⟩

/-! ## Without pictures -/

theorem notPicture_copied {w w' : World} {to : DocId} {d d' : Drawing}
    (h : Drawing.copymedia w to d = .ok (w', d')) (hd : d.NotPicture) : d'.NotPicture := by
  unfold Drawing.copymedia at h
  unfold Drawing.NotPicture at hd
  split at h
  · rename_i i hi
    rw [hi] at hd
    obtain ⟨⟨w1, i'⟩, h1, h2⟩ := Res.bind_eq_ok.1 h
    simp only [Res.pure_eq, Res.ok.injEq, Prod.mk.injEq] at h2
    obtain ⟨g, gd, hg, hgd, hp⟩ := hd
    simp only [Inline.copymedia, hg, hgd, hp] at h1
    rw [← h2.2]
    have h1' : i' = some i ∨ i' = none := by
      split at h1
      · simp only [Res.ok.injEq, Prod.mk.injEq] at h1; exact .inl h1.2.symm
      · split at h1 <;> simp only [Res.ok.injEq, Prod.mk.injEq] at h1
        · exact .inl h1.2.symm
        · exact .inr h1.2.symm
    rcases h1' with rfl | rfl
    · exact ⟨g, gd, hg, hgd, hp⟩
    · intro a ha; simp at ha
  · rename_i hi
    rw [hi] at hd
    split at h
    · rename_i a ha
      obtain ⟨⟨w1, i'⟩, h1, h2⟩ := Res.bind_eq_ok.1 h
      simp only [Res.pure_eq, Res.ok.injEq, Prod.mk.injEq] at h2
      obtain ⟨g, gd, hg, hgd, hp⟩ := hd a ha
      simp only [Anchor.copymedia, hg, hgd, hp] at h1
      rw [← h2.2]
      have h1' : i' = some a ∨ i' = none := by
        split at h1
        · simp only [Res.ok.injEq, Prod.mk.injEq] at h1; exact .inl h1.2.symm
        · split at h1 <;> simp only [Res.ok.injEq, Prod.mk.injEq] at h1
          · exact .inl h1.2.symm
          · exact .inr h1.2.symm
      rcases h1' with rfl | rfl
      · intro a' ha'; simp only [Option.some.injEq] at ha'; subst ha'; exact ⟨g, gd, hg, hgd, hp⟩
      · intro a' ha'; simp at ha'
    · simp only [Res.ok.injEq, Prod.mk.injEq] at h
      rw [← h.2]
      intro a' ha'; simp at ha'

theorem shape_notPicture : ShapeInv Drawing.NotPicture where
  inlineShape := by
    intro p f w h name bw prst ln d hd
    simp only [Para.addInlineShape, drawingRun, Run.draws, RChild.drawing?, List.filterMap_cons,
      List.filterMap_nil, List.mem_cons, List.not_mem_nil, or_false] at hd
    subst hd
    exact ⟨_, _, rfl, rfl, rfl⟩
  anchorShape := by
    intro p f w h name bw prst ln d hd
    simp only [Para.addAnchorShape, drawingRun, Run.draws, RChild.drawing?, List.filterMap_cons,
      List.filterMap_nil, List.mem_cons, List.not_mem_nil, or_false] at hd
    subst hd
    intro a ha
    simp only [Option.some.injEq] at ha; subst ha
    exact ⟨_, _, rfl, rfl, rfl⟩
  copy := notPicture_copied

theorem pictureless_ok {o : Op} (h : o.Pictureless) :
    o.DrawsOk Drawing.NotPicture ∧ o.PicsOk Drawing.NotPicture := by
  cases o <;> first | exact ⟨trivial, trivial⟩ | exact ⟨h, trivial⟩ | exact h.elim

theorem notPicture_copyable {d : Drawing} (h : d.NotPicture) (w : World) (to : DocId) :
    d.Copyable w to := by
  unfold Drawing.NotPicture at h
  unfold Drawing.Copyable
  cases hi : d.inl with
  | some i =>
    simp only [hi] at h ⊢
    obtain ⟨g, gd, h1, h2, h3⟩ := h
    exact ⟨g, gd, h1, h2, fun pic bf hp => by rw [h3] at hp; simp at hp⟩
  | none =>
    simp only [hi] at h ⊢
    intro a ha
    obtain ⟨g, gd, h1, h2, h3⟩ := h a ha
    exact ⟨g, gd, h1, h2, fun pic bf hp => by rw [h3] at hp; simp at hp⟩

theorem notPicture_printable {d : Drawing} (h : d.NotPicture) (w : World) : d.Printable w := by
  unfold Drawing.NotPicture at h
  unfold Drawing.Printable
  cases hi : d.inl with
  | some i =>
    simp only [hi] at h ⊢
    obtain ⟨g, gd, h1, h2, h3⟩ := h
    exact ⟨g, gd, h1, h2, fun pic hp => by rw [h3] at hp; simp at hp⟩
  | none =>
    simp only [hi] at h ⊢
    intro a g' gd' pic ha hg' hgd' hp
    obtain ⟨g, gd, h1, h2, h3⟩ := h a ha
    rw [h1] at hg'; obtain rfl := Option.some.inj hg'
    rw [h2] at hgd'; obtain rfl := Option.some.inj hgd'
    rw [h3] at hp; simp at hp

theorem para_drawings_draws {p : Para} {d : Drawing} (h : d ∈ p.drawings) : d ∈ p.draws := by
  simp only [Para.drawings, List.mem_flatMap] at h
  obtain ⟨c, hc, hd⟩ := h
  simp only [Para.draws, List.mem_flatMap]
  refine ⟨c, hc, ?_⟩
  cases c with
  | run r => exact hd
  | link h => simp at hd
  | rpr x => simp at hd

/-- The paragraphs of an item belong to documents and have the item's drawings. -/
theorem item_paras {x : BItem} {p : Para} (hp : p ∈ x.paras) {n : Nat} (hx : ItemIn n x) :
    FileIn n p.file ∧ ∀ d ∈ p.draws, d ∈ x.draws := by
  cases x with
  | para q =>
    simp only [BItem.paras, List.mem_cons, List.not_mem_nil, or_false] at hp; subst hp
    exact ⟨hx, fun d hd => hd⟩
  | sect s => simp [BItem.paras] at hp
  | table t =>
    simp only [BItem.paras, List.mem_flatMap] at hp
    obtain ⟨r, hr, c, hc, hp⟩ := hp
    refine ⟨(hx r hr c hc).2 p hp, fun d hd => ?_⟩
    simp only [BItem.draws, List.mem_flatMap, Row.draws, Cell.draws]
    exact ⟨r, hr, c, hc, p, hp, hd⟩

theorem fileIn_owned {w : World} {o : Option DocId} (h : FileIn w.length o) : Owned w o := by
  obtain ⟨i, rfl, hi⟩ := h
  exact ⟨i, w[i], rfl, List.getElem?_eq_getElem hi⟩

theorem para_copyable {w : World} {p : Para} (h1 : FileIn w.length p.file)
    (h2 : ∀ d ∈ p.draws, d.NotPicture) (to : DocId) : p.Copyable w to := by
  have key : ∀ c ∈ p.children, ∀ d ∈ c.draws, d.NotPicture := by
    intro c hc d hd
    exact h2 d (by simp only [Para.draws, List.mem_flatMap]; exact ⟨c, hc, hd⟩)
  have run : ∀ (r : Run), (∀ d ∈ r.draws, d.NotPicture) → r.Copyable w to := by
    intro r hr d hd
    refine notPicture_copyable (hr d ?_) w to
    simp only [Run.draws, List.mem_filterMap]
    exact ⟨_, hd, rfl⟩
  exact ⟨fun r hr => run r (key _ hr), fun h hh => ⟨fileIn_owned h1, run _ (key _ hh)⟩⟩

theorem para_printable {w : World} {p : Para} (h1 : Owned w p.file)
    (h2 : ∀ d ∈ p.draws, d.NotPicture) : p.Printable w :=
  ⟨fun d hd => notPicture_printable (h2 d (para_drawings_draws hd)) w, fun _ => h1⟩

/-- Simple calls are legal where there are no pictures. -/
theorem simple_legal [ImgEnv] {w : World} {o : Op} (ho : o.Simple w) (hw : WIn w.length w)
    (hp : WorldDraws Drawing.NotPicture w) : o.Legal w := by
  cases o with
  | append f af =>
    obtain ⟨h1, h2⟩ := ho
    refine ⟨h1, w[af], List.getElem?_eq_getElem h2, ?_⟩
    intro x hx p hpx
    obtain ⟨a, b⟩ := item_paras hpx (hw _ (List.getElem_mem h2) x hx)
    exact para_copyable a (fun d hd => hp _ (List.getElem_mem h2) x hx d (b d hd)) f
  | split d sep =>
    obtain ⟨h1, h2⟩ := ho
    refine ⟨w[d], List.getElem?_eq_getElem h1, ?_, ?_⟩
    · intro nd _ x hx p hpx
      obtain ⟨a, b⟩ := item_paras hpx (hw _ (List.getElem_mem h1) x hx)
      exact para_copyable a (fun d' hd => hp _ (List.getElem_mem h1) x hx d' (b d' hd)) nd
    · intro p hpx w1 hk
      refine h2 w1 p (para_printable ?_ fun d' hd => hp _ (List.getElem_mem h1) _ hpx d' hd)
      obtain ⟨i, hi, hl⟩ := hw _ (List.getElem_mem h1) _ hpx
      exact ⟨i, w[i], hi, hk i _ (List.getElem?_eq_getElem hl)⟩
  | _ => exact ho

end Docx
