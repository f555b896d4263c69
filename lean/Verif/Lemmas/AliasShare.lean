import Verif.Lemmas.AliasFam

/-!
# What a copy shares with its source
-/

set_option linter.unusedSectionVars false

namespace Docx

/-- Every element of the one list has a counterpart at the same place of the other -/
def AtEach {α β : Type} (R : α → β → Prop) (xs : List α) (ys : List β) : Prop :=
  ∀ (i : Nat) x, xs[i]? = some x → ∃ y, ys[i]? = some y ∧ R x y

theorem AtEach.nil {α β : Type} {R : α → β → Prop} {ys : List β} : AtEach R [] ys := by
  intro i x h; simp at h

theorem AtEach.cons {α β : Type} {R : α → β → Prop} {x : α} {y : β} {xs : List α} {ys : List β} (h : R x y) (t : AtEach R xs ys) :
    AtEach R (x :: xs) (y :: ys) := by
  intro i z hz
  cases i with
  | zero => simp only [List.getElem?_cons_zero, Option.some.injEq] at hz; subst hz; exact ⟨y, rfl, h⟩
  | succ i => exact t i z hz

/-- The copy of a run: the same run properties; the same texts, tabs and breaks at the same places -/
structure RunShares (r r' : PRun) : Prop where
  rpr : r'.rpr = r.rpr
  leaf : ∀ (n k : Nat), r.children[n]? = some (.leaf k) → r'.children[n]? = some (.leaf k)

/-- The copy of a paragraph: the same properties; the copy of every run is there (hyperlinks with a
dangling id are left out, so the number of the child may differ) -/
structure ParaShares (p p' : PPara) : Prop where
  props : p'.props = p.props
  runs : ∀ (j : Nat) r, p.children[j]? = some (.run r) → ∃ (j' : Nat) (r' : PRun), p'.children[j']? = some (.run r') ∧ RunShares r r'

structure CellShares (c c' : PCell) : Prop where
  props : c'.props = c.props
  paras : AtEach ParaShares c.paras c'.paras

structure RowShares (c c' : PRow) : Prop where
  props : c'.props = c.props
  cells : AtEach CellShares c.cells c'.cells

structure TableShares (c c' : PTable) : Prop where
  props : c'.props = c.props
  rows : AtEach RowShares c.rows c'.rows

inductive ItemShares : PItem → PItem → Prop where
  | para {p p'} (h : ParaShares p p') : ItemShares (.para p) (.para p')
  | table {t t'} (h : TableShares t t') : ItemShares (.table t) (.table t')
  | sect {k} : ItemShares (.sect k) (.sect k)

theorem rchildren_share {to : DocId} : ∀ {cs : List PRChild} {m m' : Mem} {w w' : World} {cs' : List PRChild},
    pcopyRChildren m w to cs = .ok (m', w', cs') → ∀ (n k : Nat), cs[n]? = some (.leaf k) → cs'[n]? = some (.leaf k) := by
  intro cs
  induction cs with
  | nil => intro m m' w w' cs' _ n k h; simp at h
  | cons c cs ih =>
    intro m m' w w' cs' h n k hn
    cases c with
    | leaf k' =>
      simp only [pcopyRChildren] at h
      obtain ⟨⟨m2, w2, cs2⟩, h1, h2⟩ := Res.bind_eq_ok.1 h
      simp only [Res.pure_eq, Res.ok.injEq, Prod.mk.injEq] at h2
      obtain ⟨rfl, rfl, rfl⟩ := h2
      cases n with
      | zero => exact hn
      | succ n => exact ih h1 n k hn
    | drawing i a =>
      simp only [pcopyRChildren] at h
      obtain ⟨⟨m1, w1, d1⟩, h1, h2⟩ := Res.bind_eq_ok.1 h
      obtain ⟨⟨m2, w2, cs2⟩, h3, h4⟩ := Res.bind_eq_ok.1 h2
      simp only [Res.pure_eq, Res.ok.injEq, Prod.mk.injEq] at h4
      obtain ⟨rfl, rfl, rfl⟩ := h4
      cases n with
      | zero => simp at hn
      | succ n => exact ih h3 n k hn

theorem run_share {to : DocId} {m m' : Mem} {w w' : World} {r r' : PRun} (h : r.copymedia m w to = .ok (m', w', r')) :
    RunShares r r' := by
  unfold PRun.copymedia at h
  obtain ⟨⟨m2, w2, cs2⟩, h1, h2⟩ := Res.bind_eq_ok.1 h
  simp only [Res.pure_eq, Res.ok.injEq, Prod.mk.injEq] at h2
  obtain ⟨rfl, rfl, rfl⟩ := h2
  exact ⟨rfl, rchildren_share h1⟩

theorem pchildren_share {to : DocId} {file : Option DocId} : ∀ {cs : List PPChild} {m m' : Mem} {w w' : World} {cs' : List PPChild},
    pcopyPChildren m w to file cs = .ok (m', w', cs') →
    ∀ (j : Nat) r, cs[j]? = some (.run r) → ∃ (j' : Nat) (r' : PRun), cs'[j']? = some (.run r') ∧ RunShares r r' := by
  intro cs
  induction cs with
  | nil => intro m m' w w' cs' _ j r h; simp at h
  | cons c cs ih =>
    intro m m' w w' cs' h j r hj
    cases c with
    | run q =>
      simp only [pcopyPChildren] at h
      obtain ⟨⟨m1, w1, d1⟩, h1, h2⟩ := Res.bind_eq_ok.1 h
      obtain ⟨⟨m2, w2, cs2⟩, h3, h4⟩ := Res.bind_eq_ok.1 h2
      simp only [Res.pure_eq, Res.ok.injEq, Prod.mk.injEq] at h4
      obtain ⟨rfl, rfl, rfl⟩ := h4
      cases j with
      | zero =>
        simp only [List.getElem?_cons_zero, Option.some.injEq, PPChild.run.injEq] at hj
        subst hj
        exact ⟨0, d1, rfl, run_share h1⟩
      | succ j =>
        obtain ⟨j', r', h5, h6⟩ := ih h3 j r hj
        exact ⟨j' + 1, r', h5, h6⟩
    | link id q =>
      cases j with
      | zero => simp at hj
      | succ j =>
        simp only [pcopyPChildren] at h
        split at h
        · cases h
        · split at h
          · exact ih h j r hj
          · split at h
            · cases h
            · obtain ⟨⟨m1, w1, d1⟩, h1, h2⟩ := Res.bind_eq_ok.1 h
              obtain ⟨⟨m2, w2, cs2⟩, h3, h4⟩ := Res.bind_eq_ok.1 h2
              simp only [Res.pure_eq, Res.ok.injEq, Prod.mk.injEq] at h4
              obtain ⟨rfl, rfl, rfl⟩ := h4
              obtain ⟨j', r', h5, h6⟩ := ih h3 j r hj
              exact ⟨j' + 1, r', h5, h6⟩
    | rpr k =>
      cases j with
      | zero => simp at hj
      | succ j =>
        simp only [pcopyPChildren] at h
        obtain ⟨⟨m2, w2, cs2⟩, h3, h4⟩ := Res.bind_eq_ok.1 h
        simp only [Res.pure_eq, Res.ok.injEq, Prod.mk.injEq] at h4
        obtain ⟨rfl, rfl, rfl⟩ := h4
        obtain ⟨j', r', h5, h6⟩ := ih h3 j r hj
        exact ⟨j' + 1, r', h5, h6⟩

theorem para_share {to : DocId} {m m' : Mem} {w w' : World} {p p' : PPara} (h : p.copymedia m w to = .ok (m', w', p')) :
    ParaShares p p' := by
  unfold PPara.copymedia at h
  obtain ⟨⟨m2, w2, cs2⟩, h1, h2⟩ := Res.bind_eq_ok.1 h
  simp only [Res.pure_eq, Res.ok.injEq, Prod.mk.injEq] at h2
  obtain ⟨rfl, rfl, rfl⟩ := h2
  exact ⟨rfl, pchildren_share h1⟩

theorem paras_share {to : DocId} : ∀ {cs : List PPara} {m m' : Mem} {w w' : World} {cs' : List PPara},
    pcopyParas m w to cs = .ok (m', w', cs') → AtEach ParaShares cs cs' := by
  intro cs
  induction cs with
  | nil => intros; exact .nil
  | cons c cs ih =>
    intro m m' w w' cs' h
    simp only [pcopyParas] at h
    obtain ⟨⟨m1, w1, d1⟩, h1, h2⟩ := Res.bind_eq_ok.1 h
    obtain ⟨⟨m2, w2, cs2⟩, h3, h4⟩ := Res.bind_eq_ok.1 h2
    simp only [Res.pure_eq, Res.ok.injEq, Prod.mk.injEq] at h4
    obtain ⟨rfl, rfl, rfl⟩ := h4
    exact .cons (para_share h1) (ih h3)

theorem cells_share {to : DocId} : ∀ {cs : List PCell} {m m' : Mem} {w w' : World} {cs' : List PCell},
    pcopyCells m w to cs = .ok (m', w', cs') → AtEach CellShares cs cs' := by
  intro cs
  induction cs with
  | nil => intros; exact .nil
  | cons c cs ih =>
    intro m m' w w' cs' h
    simp only [pcopyCells] at h
    obtain ⟨⟨m1, w1, d1⟩, h1, h2⟩ := Res.bind_eq_ok.1 h
    obtain ⟨⟨m2, w2, cs2⟩, h3, h4⟩ := Res.bind_eq_ok.1 h2
    simp only [Res.pure_eq, Res.ok.injEq, Prod.mk.injEq] at h4
    obtain ⟨rfl, rfl, rfl⟩ := h4
    exact .cons ⟨rfl, paras_share h1⟩ (ih h3)

theorem rows_share {to : DocId} : ∀ {cs : List PRow} {m m' : Mem} {w w' : World} {cs' : List PRow},
    pcopyRows m w to cs = .ok (m', w', cs') → AtEach RowShares cs cs' := by
  intro cs
  induction cs with
  | nil => intros; exact .nil
  | cons c cs ih =>
    intro m m' w w' cs' h
    simp only [pcopyRows] at h
    obtain ⟨⟨m1, w1, d1⟩, h1, h2⟩ := Res.bind_eq_ok.1 h
    obtain ⟨⟨m2, w2, cs2⟩, h3, h4⟩ := Res.bind_eq_ok.1 h2
    simp only [Res.pure_eq, Res.ok.injEq, Prod.mk.injEq] at h4
    obtain ⟨rfl, rfl, rfl⟩ := h4
    exact .cons ⟨rfl, cells_share h1⟩ (ih h3)

theorem table_share {to : DocId} {m m' : Mem} {w w' : World} {p p' : PTable} (h : p.copymedia m w to = .ok (m', w', p')) :
    TableShares p p' := by
  unfold PTable.copymedia at h
  obtain ⟨⟨m2, w2, cs2⟩, h1, h2⟩ := Res.bind_eq_ok.1 h
  simp only [Res.pure_eq, Res.ok.injEq, Prod.mk.injEq] at h2
  obtain ⟨rfl, rfl, rfl⟩ := h2
  exact ⟨rfl, rows_share h1⟩

theorem item_share {to : DocId} {m m' : Mem} {w w' : World} {x x' : PItem} (h : x.copymedia m w to = .ok (m', w', x')) :
    ItemShares x x' := by
  cases x with
  | para p =>
    simp only [PItem.copymedia] at h
    obtain ⟨⟨m1, w1, d1⟩, h1, h2⟩ := Res.bind_eq_ok.1 h
    simp only [Res.pure_eq, Res.ok.injEq, Prod.mk.injEq] at h2
    obtain ⟨rfl, rfl, rfl⟩ := h2
    exact .para (para_share h1)
  | table t =>
    simp only [PItem.copymedia] at h
    obtain ⟨⟨m1, w1, d1⟩, h1, h2⟩ := Res.bind_eq_ok.1 h
    simp only [Res.pure_eq, Res.ok.injEq, Prod.mk.injEq] at h2
    obtain ⟨rfl, rfl, rfl⟩ := h2
    exact .table (table_share h1)
  | sect k =>
    simp only [PItem.copymedia, Res.ok.injEq, Prod.mk.injEq] at h
    obtain ⟨rfl, rfl, rfl⟩ := h
    exact .sect

theorem append_share {to : DocId} : ∀ {xs : List PItem} {s s' : PWorld} {its : List PItem}, s.items[to]? = some its →
    pappendItems s to xs = .ok s' → ∃ ys, s'.items[to]? = some (its ++ ys) ∧ AtEach ItemShares xs ys := by
  intro xs
  induction xs with
  | nil =>
    intro s s' its hi h
    simp only [pappendItems, Res.ok.injEq] at h
    subst h
    exact ⟨[], by simpa using hi, .nil⟩
  | cons x xs ih =>
    intro s s' its hi h
    simp only [pappendItems] at h
    obtain ⟨⟨m1, w1, d1⟩, h1, h2⟩ := Res.bind_eq_ok.1 h
    obtain ⟨ys, h3, h4⟩ := ih (its := its ++ [d1]) (by simp [hi]) h2
    exact ⟨d1 :: ys, by simpa using h3, .cons (item_share h1) h4⟩

/-- The number of the item a location is in -/
def Loc.item : Loc → Nat
  | .body i => i
  | .cell i _ _ _ => i

theorem item_para {xs ys : List PItem} {l : Loc} {p : PPara} {k : Nat} {x y : PItem} (hx : xs[l.item]? = some x) (hy : ys[k]? = some y)
    (h : ItemShares x y) (hp : pgetPara xs l = some p) : ∃ p', pgetPara ys (l.inItem k) = some p' ∧ ParaShares p p' := by
  cases l with
  | body i =>
    simp only [Loc.item] at hx
    simp only [pgetPara, hx] at hp
    cases h with
    | para h =>
      simp only [Option.some.injEq] at hp
      subst hp
      exact ⟨_, by simp only [Loc.inItem, pgetPara, hy], h⟩
    | table h => cases hp
    | sect => cases hp
  | cell i r c j =>
    simp only [Loc.item] at hx
    simp only [pgetPara, hx] at hp
    cases h with
    | para h => cases hp
    | sect => cases hp
    | table h =>
      simp only [Option.bind_eq_bind, Option.bind_eq_some_iff] at hp
      obtain ⟨row, k1, cell, k2, k3⟩ := hp
      obtain ⟨row', r1, r2⟩ := h.rows _ _ k1
      obtain ⟨cell', c1, c2⟩ := r2.cells _ _ k2
      obtain ⟨p', p1, p2⟩ := c2.paras _ _ k3
      refine ⟨p', ?_, p2⟩
      simp [Loc.inItem, pgetPara, hy, r1, c1, p1]

theorem pgetPara_item {xs : List PItem} {l : Loc} {p : PPara} (hp : pgetPara xs l = some p) : ∃ x, xs[l.item]? = some x := by
  cases l with
  | body i =>
    simp only [pgetPara] at hp
    split at hp
    · rename_i q hi; exact ⟨_, hi⟩
    · cases hp
  | cell i r c j =>
    simp only [pgetPara] at hp
    split at hp
    · rename_i q hi; exact ⟨_, hi⟩
    · cases hp

theorem shares_para {xs ys its : List PItem} (h : AtEach ItemShares xs ys) {l : Loc} {p : PPara} (hp : pgetPara xs l = some p) :
    ∃ p', pgetPara (its ++ ys) (l.after its.length) = some p' ∧ ParaShares p p' := by
  obtain ⟨x, hx⟩ := pgetPara_item hp
  obtain ⟨y, hy, hs⟩ := h _ _ hx
  have hy' : (its ++ ys)[its.length + l.item]? = some y := by
    rw [List.getElem?_append_right (Nat.le_add_right _ _), Nat.add_sub_cancel_left, hy]
  obtain ⟨p', h1, h2⟩ := item_para hx hy' hs hp
  refine ⟨p', ?_, h2⟩
  cases l <;> exact h1

theorem pgetPara_append {xs ys : List PItem} {l : Loc} {p : PPara} (hp : pgetPara xs l = some p) : pgetPara (xs ++ ys) l = some p := by
  obtain ⟨x, hx⟩ := pgetPara_item hp
  have := List.getElem?_append_left (l₂ := ys) (List.getElem?_eq_some_iff.1 hx).1
  cases l with
  | body i =>
    simp only [Loc.item] at this
    simp only [pgetPara, this] at hp ⊢
    exact hp
  | cell i r c j =>
    simp only [Loc.item] at this
    simp only [pgetPara, this] at hp ⊢
    exact hp

/-! ## Split -/

/-- Every item of `xs` has a copy in one of the documents from number `n` on -/
def Parts (n : Nat) (s : PWorld) (xs : List PItem) : Prop :=
  ∀ x ∈ xs, ∃ (e : DocId) (its : List PItem), n ≤ e ∧ s.items[e]? = some its ∧ ∃ y ∈ its, ItemShares x y

/-- Later documents only grow -/
def Grows (s s' : PWorld) : Prop := ∀ (e : DocId) its, s.items[e]? = some its → ∃ ys, s'.items[e]? = some (its ++ ys)

theorem Grows.refl (s : PWorld) : Grows s s := fun _ its h => ⟨[], by simpa using h⟩

theorem Grows.trans {a b c : PWorld} (h : Grows a b) (k : Grows b c) : Grows a c := by
  intro e its he
  obtain ⟨ys, h1⟩ := h e its he
  obtain ⟨zs, h2⟩ := k e _ h1
  exact ⟨ys ++ zs, by simpa using h2⟩

theorem Parts.grows {n : Nat} {s s' : PWorld} {xs : List PItem} (h : Parts n s xs) (k : Grows s s') : Parts n s' xs := by
  intro x hx
  obtain ⟨e, its, h1, h2, y, hy, h3⟩ := h x hx
  obtain ⟨ys, h4⟩ := k e its h2
  exact ⟨e, _, h1, h4, y, List.mem_append_left _ hy, h3⟩

theorem push_grows (m : Mem) (w : World) (s : PWorld) (nd : DocId) (x : PItem) :
    Grows s { mem := m, docs := w, items := s.items.modify nd (· ++ [x]) } := by
  intro e its he
  simp only [List.getElem?_modify, he]
  by_cases h : nd = e
  · exact ⟨[x], by simp [h]⟩
  · exact ⟨[], by simp [h]⟩

theorem push_parts {m : Mem} {w : World} {s : PWorld} {nd : DocId} {n : Nat} (hn : n ≤ nd) (hl : nd < s.items.length) {x x' : PItem}
    (h : ItemShares x x') : Parts n { mem := m, docs := w, items := s.items.modify nd (· ++ [x']) } [x] := by
  intro y hy
  obtain rfl := List.mem_singleton.1 hy
  refine ⟨nd, s.items[nd] ++ [x'], hn, ?_, x', by simp, h⟩
  simp [List.getElem?_modify, List.getElem?_eq_getElem hl]

theorem Parts.append {n : Nat} {s : PWorld} {xs ys : List PItem} (h : Parts n s xs) (k : Parts n s ys) : Parts n s (xs ++ ys) := by
  intro x hx
  rcases List.mem_append.1 hx with hx | hx
  · exact h x hx
  · exact k x hx

theorem Parts.nil {n : Nat} {s : PWorld} : Parts n s [] := fun _ h => nomatch h

theorem splitFill_share {sep : World → Para → Res Bool} {nd : DocId} {n : Nat} (hn : n ≤ nd) : ∀ {xs : List PItem} {s s' : PWorld}
    {cnt : Nat} {left : Option (List PItem)}, nd < s.items.length → psplitFill sep nd s cnt xs = .ok (s', left) →
    Grows s s' ∧ s'.items.length = s.items.length ∧ ∃ as, xs = as ++ left.getD [] ∧ Parts n s' as := by
  intro xs
  induction xs with
  | nil =>
    intro s s' cnt left hl h
    simp only [psplitFill, Res.ok.injEq, Prod.mk.injEq] at h
    obtain ⟨rfl, rfl⟩ := h
    exact ⟨.refl _, rfl, [], rfl, .nil⟩
  | cons x xs ih =>
    intro s s' cnt left hl h
    have go : ∀ {m : Mem} {w : World} {x' : PItem} {cnt : Nat}, ItemShares x x' →
        psplitFill sep nd { mem := m, docs := w, items := s.items.modify nd (· ++ [x']) } cnt xs = .ok (s', left) →
        Grows s s' ∧ s'.items.length = s.items.length ∧ ∃ as, x :: xs = as ++ left.getD [] ∧ Parts n s' as := by
      intro m w x' cnt hx' h
      obtain ⟨g, l, as, h1, h2⟩ := ih (by simpa using hl) h
      refine ⟨(push_grows _ _ _ _ _).trans g, by simpa using l, x :: as, by simp [← h1], ?_⟩
      exact Parts.append (xs := [x]) ((push_parts hn hl hx').grows g) h2
    cases x with
    | para p =>
      simp only [psplitFill] at h
      obtain ⟨b, h1, h2⟩ := Res.bind_eq_ok.1 h
      split at h2
      · simp only [Res.ok.injEq, Prod.mk.injEq] at h2
        obtain ⟨rfl, rfl⟩ := h2
        exact ⟨.refl _, rfl, [], rfl, .nil⟩
      · obtain ⟨⟨m1, w1, d1⟩, h3, h4⟩ := Res.bind_eq_ok.1 h2
        exact go (.para (para_share h3)) h4
    | table t =>
      simp only [psplitFill] at h
      obtain ⟨⟨m1, w1, d1⟩, h3, h4⟩ := Res.bind_eq_ok.1 h
      exact go (.table (table_share h3)) h4
    | sect k =>
      simp only [psplitFill] at h
      exact go (m := s.mem) (w := s.docs) .sect h

theorem splitLoop_share {sep : World → Para → Res Bool} {f : Doc} {n : Nat} : ∀ {k : Nat} {xs : List PItem} {s s' : PWorld}
    {ds ds' : List DocId}, s.docs.length = s.items.length → s.Ok → Typed s.mem (bodyRefs s.mem xs) → n ≤ s.items.length →
    psplitLoop sep f k s ds xs = .ok (s', ds') → Grows s s' ∧ Parts n s' xs := by
  intro k
  induction k with
  | zero => intro xs s s' ds ds' _ _ _ _ h; cases h
  | succ k ih =>
    intro xs s s' ds ds' hl hok ht hn h
    cases xs with
    | nil =>
      simp only [psplitLoop, Res.ok.injEq, Prod.mk.injEq] at h
      obtain ⟨rfl, rfl⟩ := h
      exact ⟨.refl _, .nil⟩
    | cons x xs =>
      simp only [psplitLoop] at h
      obtain ⟨⟨s1, left⟩, h1, h2⟩ := Res.bind_eq_ok.1 h
      have ok1 := newDoc_ok hok (splitDoc f)
      have g0 : Grows s { s with docs := s.docs ++ [splitDoc f], items := s.items ++ [[]] } := by
        intro e its he
        refine ⟨[], ?_⟩
        simp only [List.append_nil]
        rw [List.getElem?_append_left (List.getElem?_eq_some_iff.1 he).1]
        exact he
      obtain ⟨g, l, as, h3, h4⟩ := splitFill_share (n := n) (by rw [hl]; exact hn) (by simp [hl]) h1
      obtain ⟨q, hq, e1, e2, ad, lf⟩ := (psplitFill_rel ok1 ht).of_ok h1
      cases left with
      | none =>
        simp only [Res.pure_eq, Res.ok.injEq, Prod.mk.injEq] at h2
        obtain ⟨rfl, rfl⟩ := h2
        simp only [Option.getD_none, List.append_nil] at h3
        exact ⟨g0.trans g, h3 ▸ h4⟩
      | some rest =>
        simp only at h2
        simp only [Option.getD_some] at h3
        have hl1 : s1.items.length = s.items.length + 1 := by simpa using l
        have ht1 : Typed s1.mem (bodyRefs s1.mem rest) := by
          refine body_frame.typed (ht.mono ?_) ad.ext
          intro r hr
          rw [h3, bodyRefs_append]
          exact List.mem_append_right _ hr
        obtain ⟨g2, p2⟩ := ih ad.ok.len ad.ok ht1 (by rw [hl1]; exact Nat.le_succ_of_le hn) h2
        rw [h3]
        exact ⟨g0.trans (g.trans g2), (h4.grows g2).append p2⟩

/-! ## Writing through a shared pointer -/

theorem write_get {m : Mem} {k : Nat} {o : Obj} (h : m[k]? = some o) (F : Obj → Obj) : (m.write k F)[k]? = some (F o) := by
  simp [Mem.write, List.getElem?_modify, h]

theorem typed_rpr {m : Mem} {k : Nat} (h : (m[k]?).map Obj.kind = some .rpr) : m[k]? = some (.rpr (m.rpr k)) := by
  cases ho : m[k]? with
  | none => rw [ho] at h; cases h
  | some o =>
    rw [ho] at h
    cases o <;> simp [Obj.kind] at h
    simp [Mem.rpr, ho]

theorem typed_ppr {m : Mem} {k : Nat} (h : (m[k]?).map Obj.kind = some .ppr) : m[k]? = some (.ppr (m.ppr k)) := by
  cases ho : m[k]? with
  | none => rw [ho] at h; cases h
  | some o =>
    rw [ho] at h
    cases o <;> simp [Obj.kind] at h
    simp [Mem.ppr, ho]

theorem typed_leaf {m : Mem} {k : Nat} (h : (m[k]?).map Obj.kind = some .leaf) : m[k]? = some (.leaf (m.leaf k)) := by
  cases ho : m[k]? with
  | none => rw [ho] at h; cases h
  | some o =>
    rw [ho] at h
    cases o <;> simp [Obj.kind] at h
    simp [Mem.leaf, ho]

/-- The paragraph at `l` in document `d` -/
def PWorld.paraAt (s : PWorld) (d : DocId) (l : Loc) : Option PPara := (s.items[d]?).bind (pgetPara · l)

theorem value_at {s : PWorld} {d : DocId} {f : Doc} {xs : List PItem} {l : Loc} {p : PPara} (hf : s.docs[d]? = some f)
    (hx : s.items[d]? = some xs) (hp : pgetPara xs l = some p) :
    ∃ f', s.world[d]? = some f' ∧ getPara f'.items l = some (p.load s.mem) := by
  refine ⟨_, world_get hf hx, ?_⟩
  show getPara (bodyVals _ xs) l = _
  rw [pgetPara_load, hp]
  rfl

/-- A setter called on a run changes every run with the same run properties -/
theorem run_through [ImgEnv] {s : PWorld} (hs : s.Ok) {d e : DocId} {l l' : Loc} {p p' : PPara} {j j' : Nat} {r r' : PRun} {k : Nat}
    (h1 : s.paraAt d l = some p) (h2 : p.children[j]? = some (.run r)) (h3 : r.rpr = some k)
    (k1 : s.paraAt e l' = some p') (k2 : p'.children[j']? = some (.run r')) (k3 : r'.rpr = some k) (g : RPr → RPr) :
    ∃ s', s.pstep (.run e l' j' g) = .ok s' ∧ ∃ f, s'.world[d]? = some f ∧
      ∃ q, getPara f.items l = some q ∧ ∃ c, q.children[j]? = some (.run c) ∧ c.rpr = some (g (s.mem.rpr k)) := by
  have hr : s.runAt e l' j' = some r' := by
    simp only [PWorld.paraAt, Option.bind_eq_some_iff] at k1
    obtain ⟨xs, a, b⟩ := k1
    simp [PWorld.runAt, a, b, PPara.runAt, k2]
  simp only [PWorld.paraAt, Option.bind_eq_some_iff] at h1
  obtain ⟨xs, h1, h1'⟩ := h1
  have ht : (s.mem[k]?).map Obj.kind = some .rpr := by
    refine hs.typed d xs h1 (.rpr, k) (pgetPara_refs h1' _ ?_)
    exact runAt_refs (j := j) (r := r) (by simp [PPara.runAt, h2]) _ (by simp [PRun.refs, h3])
  obtain ⟨f, hf⟩ := some_of_len hs.len.symm h1
  refine ⟨{ s with mem := s.mem.write k (Obj.onRpr g) }, by simp only [PWorld.pstep, hr, PRun.set, k3], ?_⟩
  obtain ⟨f', a, b⟩ := value_at (s := { s with mem := s.mem.write k (Obj.onRpr g) }) hf h1 h1'
  refine ⟨f', a, _, b, r.load _, by simp only [PPara.load, List.getElem?_map, h2]; rfl, ?_⟩
  simp only [PRun.load, h3, Option.map_some, Option.some.injEq]
  have := write_get (typed_rpr ht) (Obj.onRpr g)
  simp only [Mem.rpr] at this ⊢
  rw [this]
  rfl

/-- A setter called on a paragraph with properties changes every paragraph with the same properties -/
theorem para_through [ImgEnv] {s : PWorld} (hs : s.Ok) {d e : DocId} {l l' : Loc} {p p' : PPara} {k : Nat}
    (h1 : s.paraAt d l = some p) (h3 : p.props = some k) (k1 : s.paraAt e l' = some p') (k3 : p'.props = some k) (g : PPr → PPr)
    (hne : d ≠ e) :
    ∃ s', s.pstep (.para e l' g) = .ok s' ∧ ∃ f, s'.world[d]? = some f ∧
      ∃ q, getPara f.items l = some q ∧ q.props = some (g (s.mem.ppr k)) := by
  have hk := k1
  simp only [PWorld.paraAt, Option.bind_eq_some_iff] at h1
  obtain ⟨xs, h1, h1'⟩ := h1
  have ht : (s.mem[k]?).map Obj.kind = some .ppr := by
    refine hs.typed d xs h1 (.ppr, k) (pgetPara_refs h1' _ ?_)
    simp [PPara.refs, h3]
  obtain ⟨f, hf⟩ := some_of_len hs.len.symm h1
  simp only [PWorld.paraAt] at hk
  refine ⟨_, by simp only [PWorld.pstep]; rw [hk], ?_⟩
  have hi : (s.items.modify e (pmodPara · l' fun q => { q with props := (p'.set s.mem g).2.props }))[d]? = some xs := by
    simp only [List.getElem?_modify, h1, Ne.symm hne]
    simp
  obtain ⟨f', a, b⟩ := value_at (s := { s with mem := (p'.set s.mem g).1, items := s.items.modify e (pmodPara · l' fun q => { q with props := (p'.set s.mem g).2.props }) }) hf hi h1'
  refine ⟨f', a, _, b, ?_⟩
  simp only [PPara.load, h3, Option.map_some, Option.some.injEq, PPara.set, k3]
  have := write_get (typed_ppr ht) (Obj.onPpr g)
  simp only [Mem.ppr] at this ⊢
  rw [this]
  rfl

/-- A client that writes to a text changes every run with the same text -/
theorem leaf_through [ImgEnv] {s : PWorld} (hs : s.Ok) {d e : DocId} {l l' : Loc} {p p' : PPara} {j j' n : Nat} {r r' : PRun} {k : Nat}
    (h1 : s.paraAt d l = some p) (h2 : p.children[j]? = some (.run r)) (h3 : r.children[n]? = some (.leaf k))
    (k1 : s.paraAt e l' = some p') (k2 : p'.children[j']? = some (.run r')) (k3 : r'.children[n]? = some (.leaf k)) (g : Leaf → Leaf) :
    ∃ s', s.pstep (.leaf e l' j' n g) = .ok s' ∧ ∃ f, s'.world[d]? = some f ∧
      ∃ q, getPara f.items l = some q ∧ ∃ c, q.children[j]? = some (.run c) ∧ c.children[n]? = some (g (s.mem.leaf k)).child := by
  have hr : s.runAt e l' j' = some r' := by
    simp only [PWorld.paraAt, Option.bind_eq_some_iff] at k1
    obtain ⟨xs, a, b⟩ := k1
    simp [PWorld.runAt, a, b, PPara.runAt, k2]
  simp only [PWorld.paraAt, Option.bind_eq_some_iff] at h1
  obtain ⟨xs, h1, h1'⟩ := h1
  have ht : (s.mem[k]?).map Obj.kind = some .leaf := by
    refine hs.typed d xs h1 (.leaf, k) (pgetPara_refs h1' _ ?_)
    refine runAt_refs (j := j) (r := r) (by simp [PPara.runAt, h2]) _ ?_
    exact List.mem_append_right _ (List.mem_flatMap.2 ⟨_, List.mem_iff_getElem?.2 ⟨n, h3⟩, by simp [PRChild.refs]⟩)
  obtain ⟨f, hf⟩ := some_of_len hs.len.symm h1
  refine ⟨{ s with mem := s.mem.write k (Obj.onLeaf g) }, by simp only [PWorld.pstep, hr, Option.bind_some, k3], ?_⟩
  obtain ⟨f', a, b⟩ := value_at (s := { s with mem := s.mem.write k (Obj.onLeaf g) }) hf h1 h1'
  refine ⟨f', a, _, b, r.load _, by simp only [PPara.load, List.getElem?_map, h2]; rfl, ?_⟩
  simp only [PRun.load, List.getElem?_map, h3, Option.map_some, Option.some.injEq, PRChild.load]
  have := write_get (typed_leaf ht) (Obj.onLeaf g)
  simp only [Mem.leaf] at this ⊢
  rw [this]
  rfl

end Docx
