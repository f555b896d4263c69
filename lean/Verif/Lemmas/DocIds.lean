import Verif.Lemmas.Owned
import Verif.Lemmas.Copy

/-!
# Drawing ids of copies
-/

namespace Docx

/-- The next `k` values of a drawing counter at `a`. -/
def nextIds (a : UInt64) (k : Nat) : List Int64 :=
  (List.range k).map fun j => (a + UInt64.ofNat (j + 1)).toInt64

theorem nextIds_add (a : UInt64) (k m : Nat) :
    nextIds a (k + m) = nextIds a k ++ nextIds (a + UInt64.ofNat k) m := by
  simp only [nextIds, List.range_add, List.map_append, List.map_map]
  congr 1
  apply List.map_congr_left
  intro j _
  simp only [Function.comp]
  rw [UInt64.add_assoc, ← UInt64.ofNat_add, Nat.add_assoc]

/-- `ids` are different values, taken in order, among the at most `n` values by which the counter
advances from `a` to `b`. -/
def Alloc (n : Nat) (a b : UInt64) (ids : List Int64) : Prop :=
  ∃ k, k ≤ n ∧ b = a + UInt64.ofNat k ∧ ids.Sublist (nextIds a k)

theorem Alloc.none (a : UInt64) : Alloc 0 a a [] := ⟨0, Nat.le_refl _, by simp, by simp [nextIds]⟩

theorem Alloc.mono {n m a b ids} (h : Alloc n a b ids) (hn : n ≤ m) : Alloc m a b ids := by
  obtain ⟨k, h1, h2⟩ := h
  exact ⟨k, Nat.le_trans h1 hn, h2⟩

theorem Alloc.trans {n m a b c ids js} (h : Alloc n a b ids) (h' : Alloc m b c js) :
    Alloc (n + m) a c (ids ++ js) := by
  obtain ⟨k, h1, rfl, h3⟩ := h
  obtain ⟨l, h4, rfl, h6⟩ := h'
  refine ⟨k + l, by omega, ?_, ?_⟩
  · rw [UInt64.add_assoc, ← UInt64.ofNat_add]
  · rw [nextIds_add]; exact h3.append h6

/-- From `w` to `w'` the counter of the document at `to` gave the values `ids`. -/
def Allocs (to : DocId) (n : Nat) (w w' : World) (ids : List Int64) : Prop :=
  ∀ t t', w[to]? = some t → w'[to]? = some t' → Alloc n t.docID t'.docID ids

theorem Allocs.trans {to n m} {w w1 w2 : World} {ids js} (tw : Touch to w w1) (h : Allocs to n w w1 ids)
    (h' : Allocs to m w1 w2 js) : Allocs to (n + m) w w2 (ids ++ js) := by
  intro t t' ht ht'
  obtain ⟨t1, h1, _⟩ := tw.evo t ht
  exact (h t t1 ht h1).trans (h' t1 t' h1 ht')

theorem Allocs.refl (to) (w : World) : Allocs to 0 w w [] := by
  intro t t' ht ht'
  rw [ht] at ht'; obtain rfl := Option.some.inj ht'
  exact .none _

def picIds : Option PicCopy → List Int64
  | some c => [c.docPr.id]
  | none => []

theorem alloc_next (a : UInt64) : Alloc 1 a (a + 1) [(a + 1).toInt64] :=
  ⟨1, Nat.le_refl _, rfl, by simp only [nextIds]; exact List.Sublist.refl _⟩

theorem alloc_skip (a : UInt64) : Alloc 1 a (a + 1) [] :=
  ⟨1, Nat.le_refl _, rfl, List.nil_sublist _⟩

theorem copyPic_alloc {w w' : World} {to file pic c} (h : copyPic w to file pic = .ok (w', c)) :
    Allocs to 1 w w' (picIds c) := by
  intro t0 t' ht0 ht'
  unfold copyPic at h
  split at h
  · simp only [Res.ok.injEq, Prod.mk.injEq] at h
    obtain ⟨rfl, rfl⟩ := h
    exact (Allocs.refl to w t0 t' ht0 ht').mono (by omega)
  · split at h
    · simp at h
    · split at h
      · simp only [Res.ok.injEq, Prod.mk.injEq] at h
        obtain ⟨rfl, rfl⟩ := h
        exact (Allocs.refl to w t0 t' ht0 ht').mono (by omega)
      · split at h
        · simp at h
        · rename_i t ht
          rw [ht] at ht0; obtain rfl := Option.some.inj ht0
          have hl := lt_of_getElem? ht
          simp only at h
          split at h
          · simp at h
          · split at h
            · simp at h
            · simp at h
            · simp only [Res.ok.injEq, Prod.mk.injEq] at h
              obtain ⟨rfl, rfl⟩ := h
              rw [List.getElem?_set_self hl] at ht'; obtain rfl := Option.some.inj ht'
              exact alloc_skip _
            · split at h
              · simp at h
              · simp only [Res.ok.injEq, Prod.mk.injEq] at h
                obtain ⟨rfl, rfl⟩ := h
                rw [List.set_set, List.getElem?_set_self hl] at ht'; obtain rfl := Option.some.inj ht'
                exact alloc_next _

theorem Drawing.copymedia_alloc {w w' : World} {to} {d d' : Drawing} (hd : d.NoShape)
    (h : d.copymedia w to = .ok (w', d')) : Allocs to 1 w w' d'.docPrIds := by
  unfold Drawing.copymedia at h
  split at h
  · rename_i i hi
    obtain ⟨⟨w1, c⟩, h1, h2⟩ := Res.bind_eq_ok.1 h
    simp only [Res.pure_eq, Res.ok.injEq, Prod.mk.injEq] at h2
    obtain ⟨rfl, rfl⟩ := h2
    unfold Inline.copymedia at h1
    split at h1
    · simp at h1
    · rename_i g hg
      split at h1
      · simp at h1
      · rename_i gd hgd
        obtain ⟨hs, hc⟩ := hd.1 i g gd hi hg hgd
        split at h1
        · obtain ⟨⟨w2, c'⟩, h3, h4⟩ := Res.bind_eq_ok.1 h1
          have := copyPic_alloc h3
          cases c' with
          | none =>
            simp only [Res.pure_eq, Res.ok.injEq, Prod.mk.injEq] at h4
            obtain ⟨rfl, rfl⟩ := h4
            exact this
          | some c' =>
            simp only [Res.pure_eq, Res.ok.injEq, Prod.mk.injEq] at h4
            obtain ⟨rfl, rfl⟩ := h4
            exact this
        · simp only [hs, hc, Res.ok.injEq, Prod.mk.injEq] at h1
          obtain ⟨rfl, rfl⟩ := h1
          intro t t' ht ht'
          exact (Allocs.refl to w t t' ht ht').mono (by omega)
  · split at h
    · rename_i i hi
      obtain ⟨⟨w1, c⟩, h1, h2⟩ := Res.bind_eq_ok.1 h
      simp only [Res.pure_eq, Res.ok.injEq, Prod.mk.injEq] at h2
      obtain ⟨rfl, rfl⟩ := h2
      unfold Anchor.copymedia at h1
      split at h1
      · simp at h1
      · rename_i g hg
        split at h1
        · simp at h1
        · rename_i gd hgd
          obtain ⟨hs, hc⟩ := hd.2 i g gd hi hg hgd
          split at h1
          · obtain ⟨⟨w2, c'⟩, h3, h4⟩ := Res.bind_eq_ok.1 h1
            have := copyPic_alloc h3
            cases c' with
            | none =>
              simp only [Res.pure_eq, Res.ok.injEq, Prod.mk.injEq] at h4
              obtain ⟨rfl, rfl⟩ := h4
              exact this
            | some c' =>
              simp only [Res.pure_eq, Res.ok.injEq, Prod.mk.injEq] at h4
              obtain ⟨rfl, rfl⟩ := h4
              exact this
          · simp only [hs, hc, Res.ok.injEq, Prod.mk.injEq] at h1
            obtain ⟨rfl, rfl⟩ := h1
            intro t t' ht ht'
            exact (Allocs.refl to w t t' ht ht').mono (by omega)
    · simp only [Res.ok.injEq, Prod.mk.injEq] at h
      obtain ⟨rfl, rfl⟩ := h
      intro t t' ht ht'
      exact (Allocs.refl to w t t' ht ht').mono (by omega)

theorem copyRChildren_alloc {to} : ∀ {cs cs' : List RChild} {w w1 : World},
    (∀ d ∈ cs.filterMap RChild.drawing?, d.NoShape) → copyRChildren w to cs = .ok (w1, cs') →
    Allocs to (cs.filterMap RChild.drawing?).length w w1
      ((cs'.filterMap RChild.drawing?).flatMap Drawing.docPrIds) := by
  intro cs
  induction cs with
  | nil =>
    intro cs' w w1 _ h
    simp only [copyRChildren, Res.ok.injEq, Prod.mk.injEq] at h
    obtain ⟨rfl, rfl⟩ := h; exact .refl _ _
  | cons c cs ih =>
    intro cs' w w1 hn h
    cases c with
    | drawing d =>
      simp only [copyRChildren] at h
      obtain ⟨⟨w2, d'⟩, h1, h2⟩ := Res.bind_eq_ok.1 h
      obtain ⟨⟨w3, cs''⟩, h3, h4⟩ := Res.bind_eq_ok.1 h2
      simp only [Res.pure_eq, Res.ok.injEq, Prod.mk.injEq] at h4
      obtain ⟨rfl, rfl⟩ := h4
      have a := Drawing.copymedia_alloc (hn d (by simp [RChild.drawing?])) h1
      have b := ih (fun d hd => hn d (by simp only [List.filterMap_cons, RChild.drawing?]; simp [hd])) h3
      have := Allocs.trans (Drawing.copymedia_touch h1) a b
      simpa [RChild.drawing?, Nat.add_comm] using this
    | text t =>
      simp only [copyRChildren] at h
      obtain ⟨⟨w3, cs''⟩, h3, h4⟩ := Res.bind_eq_ok.1 h
      simp only [Res.pure_eq, Res.ok.injEq, Prod.mk.injEq] at h4
      obtain ⟨rfl, rfl⟩ := h4
      have := ih hn h3
      exact this
    | tab t =>
      simp only [copyRChildren] at h
      obtain ⟨⟨w3, cs''⟩, h3, h4⟩ := Res.bind_eq_ok.1 h
      simp only [Res.pure_eq, Res.ok.injEq, Prod.mk.injEq] at h4
      obtain ⟨rfl, rfl⟩ := h4
      have := ih hn h3
      exact this
    | br t =>
      simp only [copyRChildren] at h
      obtain ⟨⟨w3, cs''⟩, h3, h4⟩ := Res.bind_eq_ok.1 h
      simp only [Res.pure_eq, Res.ok.injEq, Prod.mk.injEq] at h4
      obtain ⟨rfl, rfl⟩ := h4
      have := ih hn h3
      exact this

theorem Run.copymedia_alloc {to} {r r' : Run} {w w1 : World} (hn : ∀ d ∈ r.draws, d.NoShape)
    (h : r.copymedia w to = .ok (w1, r')) :
    Allocs to r.draws.length w w1 (r'.draws.flatMap Drawing.docPrIds) := by
  unfold Run.copymedia at h
  obtain ⟨⟨w2, cs⟩, h1, h2⟩ := Res.bind_eq_ok.1 h
  simp only [Res.pure_eq, Res.ok.injEq, Prod.mk.injEq] at h2
  obtain ⟨rfl, rfl⟩ := h2
  exact copyRChildren_alloc hn h1

theorem addLink_alloc {to} {w : World} {t : Doc} (ht : w[to]? = some t) (tgt : String) :
    Allocs to 0 w (w.set to (t.addLinkRelation tgt).1) [] := by
  intro t0 t' h0 h'
  rw [ht] at h0; obtain rfl := Option.some.inj h0
  rw [List.getElem?_set_self (lt_of_getElem? ht)] at h'; obtain rfl := Option.some.inj h'
  exact .none _

theorem copyPChildren_alloc {to} {file : Option DocId} : ∀ {cs cs' : List PChild} {w w1 : World},
    (∀ d ∈ cs.flatMap PChild.draws, d.NoShape) → copyPChildren w to file cs = .ok (w1, cs') →
    Allocs to (cs.flatMap PChild.draws).length w w1
      ((cs'.flatMap PChild.draws).flatMap Drawing.docPrIds) := by
  intro cs
  induction cs with
  | nil =>
    intro cs' w w1 _ h
    simp only [copyPChildren, Res.ok.injEq, Prod.mk.injEq] at h
    obtain ⟨rfl, rfl⟩ := h; exact .refl _ _
  | cons c cs ih =>
    intro cs' w w1 hn h
    have hc : ∀ d ∈ c.draws, d.NoShape := fun d hd => hn d (by simp [hd])
    have hcs : ∀ d ∈ cs.flatMap PChild.draws, d.NoShape := fun d hd => hn d (by
      rw [List.flatMap_cons]; exact List.mem_append_right _ hd)
    cases c with
    | run r =>
      simp only [copyPChildren] at h
      obtain ⟨⟨w2, d'⟩, h1, h2⟩ := Res.bind_eq_ok.1 h
      obtain ⟨⟨w3, cs''⟩, h3, h4⟩ := Res.bind_eq_ok.1 h2
      simp only [Res.pure_eq, Res.ok.injEq, Prod.mk.injEq] at h4
      obtain ⟨rfl, rfl⟩ := h4
      have := Allocs.trans (Run.copymedia_touch h1) (Run.copymedia_alloc hc h1) (ih hcs h3)
      simp only [List.flatMap_cons, List.length_append, List.flatMap_append]
      exact this
    | rpr x =>
      simp only [copyPChildren] at h
      obtain ⟨⟨w3, cs''⟩, h3, h4⟩ := Res.bind_eq_ok.1 h
      simp only [Res.pure_eq, Res.ok.injEq, Prod.mk.injEq] at h4
      obtain ⟨rfl, rfl⟩ := h4
      have := ih hcs h3
      exact this
    | link l =>
      simp only [copyPChildren] at h
      split at h
      · simp at h
      · split at h
        · intro t t' ht ht'
          refine (ih hcs h t t' ht ht').mono ?_
          simp
        · rename_i tgt hr
          split at h
          · simp at h
          · rename_i t ht
            obtain ⟨⟨w2, d'⟩, h1, h2⟩ := Res.bind_eq_ok.1 h
            obtain ⟨⟨w3, cs''⟩, h3, h4⟩ := Res.bind_eq_ok.1 h2
            simp only [Res.pure_eq, Res.ok.injEq, Prod.mk.injEq] at h4
            obtain ⟨rfl, rfl⟩ := h4
            have a := Allocs.trans (Run.copymedia_touch h1) (Run.copymedia_alloc (to := to) hc h1) (ih hcs h3)
            have := Allocs.trans (Touch.set ht (.link tgt (.refl t))) (addLink_alloc ht tgt) a
            simp only [List.flatMap_cons, List.length_append, List.flatMap_append]
            simpa [PChild.draws] using this

theorem Para.copymedia_alloc {to} {r r' : Para} {w w1 : World} (hn : ∀ d ∈ r.draws, d.NoShape)
    (h : r.copymedia w to = .ok (w1, r')) :
    Allocs to r.draws.length w w1 (r'.draws.flatMap Drawing.docPrIds) := by
  unfold Para.copymedia at h
  obtain ⟨⟨w2, cs⟩, h1, h2⟩ := Res.bind_eq_ok.1 h
  simp only [Res.pure_eq, Res.ok.injEq, Prod.mk.injEq] at h2
  obtain ⟨rfl, rfl⟩ := h2
  exact copyPChildren_alloc hn h1

theorem copyParas_alloc {to} : ∀ {cs cs' : List Para} {w w1 : World},
    (∀ d ∈ cs.flatMap Para.draws, d.NoShape) → copyParas w to cs = .ok (w1, cs') →
    Allocs to (cs.flatMap Para.draws).length w w1
      ((cs'.flatMap Para.draws).flatMap Drawing.docPrIds) := by
  intro cs
  induction cs with
  | nil =>
    intro cs' w w1 _ h
    simp only [copyParas, Res.ok.injEq, Prod.mk.injEq] at h
    obtain ⟨rfl, rfl⟩ := h; exact .refl _ _
  | cons c cs ih =>
    intro cs' w w1 hn h
    simp only [copyParas] at h
    obtain ⟨⟨w2, d'⟩, h1, h2⟩ := Res.bind_eq_ok.1 h
    obtain ⟨⟨w3, cs''⟩, h3, h4⟩ := Res.bind_eq_ok.1 h2
    simp only [Res.pure_eq, Res.ok.injEq, Prod.mk.injEq] at h4
    obtain ⟨rfl, rfl⟩ := h4
    have := Allocs.trans (Para.copymedia_touch h1)
      (Para.copymedia_alloc (fun d hd => hn d (by rw [List.flatMap_cons]; exact List.mem_append_left _ hd)) h1)
      (ih (fun d hd => hn d (by rw [List.flatMap_cons]; exact List.mem_append_right _ hd)) h3)
    simp only [List.flatMap_cons, List.length_append, List.flatMap_append]
    exact this

theorem copyCells_alloc {to} : ∀ {cs cs' : List Cell} {w w1 : World},
    (∀ d ∈ cs.flatMap Cell.draws, d.NoShape) → copyCells w to cs = .ok (w1, cs') →
    Allocs to (cs.flatMap Cell.draws).length w w1
      ((cs'.flatMap Cell.draws).flatMap Drawing.docPrIds) := by
  intro cs
  induction cs with
  | nil =>
    intro cs' w w1 _ h
    simp only [copyCells, Res.ok.injEq, Prod.mk.injEq] at h
    obtain ⟨rfl, rfl⟩ := h; exact .refl _ _
  | cons c cs ih =>
    intro cs' w w1 hn h
    simp only [copyCells] at h
    obtain ⟨⟨w2, d'⟩, h1, h2⟩ := Res.bind_eq_ok.1 h
    obtain ⟨⟨w3, cs''⟩, h3, h4⟩ := Res.bind_eq_ok.1 h2
    simp only [Res.pure_eq, Res.ok.injEq, Prod.mk.injEq] at h4
    obtain ⟨rfl, rfl⟩ := h4
    have := Allocs.trans (copyParas_touch h1)
      (copyParas_alloc (fun d hd => hn d (by rw [List.flatMap_cons]; exact List.mem_append_left _ hd)) h1)
      (ih (fun d hd => hn d (by rw [List.flatMap_cons]; exact List.mem_append_right _ hd)) h3)
    simp only [List.flatMap_cons, List.length_append, List.flatMap_append]
    exact this

theorem copyRows_alloc {to} : ∀ {cs cs' : List Row} {w w1 : World},
    (∀ d ∈ cs.flatMap Row.draws, d.NoShape) → copyRows w to cs = .ok (w1, cs') →
    Allocs to (cs.flatMap Row.draws).length w w1
      ((cs'.flatMap Row.draws).flatMap Drawing.docPrIds) := by
  intro cs
  induction cs with
  | nil =>
    intro cs' w w1 _ h
    simp only [copyRows, Res.ok.injEq, Prod.mk.injEq] at h
    obtain ⟨rfl, rfl⟩ := h; exact .refl _ _
  | cons c cs ih =>
    intro cs' w w1 hn h
    simp only [copyRows] at h
    obtain ⟨⟨w2, d'⟩, h1, h2⟩ := Res.bind_eq_ok.1 h
    obtain ⟨⟨w3, cs''⟩, h3, h4⟩ := Res.bind_eq_ok.1 h2
    simp only [Res.pure_eq, Res.ok.injEq, Prod.mk.injEq] at h4
    obtain ⟨rfl, rfl⟩ := h4
    have := Allocs.trans (copyCells_touch h1)
      (copyCells_alloc (fun d hd => hn d (by rw [List.flatMap_cons]; exact List.mem_append_left _ hd)) h1)
      (ih (fun d hd => hn d (by rw [List.flatMap_cons]; exact List.mem_append_right _ hd)) h3)
    simp only [List.flatMap_cons, List.length_append, List.flatMap_append]
    exact this

theorem BItem.copymedia_alloc {to} {x x' : BItem} {w w1 : World} (hn : ∀ d ∈ x.draws, d.NoShape)
    (h : x.copymedia w to = .ok (w1, x')) :
    Allocs to x.draws.length w w1 (x'.draws.flatMap Drawing.docPrIds) := by
  cases x with
  | para p =>
    simp only [BItem.copymedia] at h
    obtain ⟨⟨w2, p'⟩, h1, h2⟩ := Res.bind_eq_ok.1 h
    simp only [Res.pure_eq, Res.ok.injEq, Prod.mk.injEq] at h2
    obtain ⟨rfl, rfl⟩ := h2
    exact Para.copymedia_alloc hn h1
  | table t =>
    simp only [BItem.copymedia] at h
    obtain ⟨⟨w2, p'⟩, h1, h2⟩ := Res.bind_eq_ok.1 h
    simp only [Res.pure_eq, Res.ok.injEq, Prod.mk.injEq] at h2
    obtain ⟨rfl, rfl⟩ := h2
    unfold Table.copymedia at h1
    obtain ⟨⟨w3, rs⟩, h3, h4⟩ := Res.bind_eq_ok.1 h1
    simp only [Res.pure_eq, Res.ok.injEq, Prod.mk.injEq] at h4
    obtain ⟨rfl, rfl⟩ := h4
    exact copyRows_alloc hn h3
  | sect s =>
    simp only [BItem.copymedia, Res.ok.injEq, Prod.mk.injEq] at h
    obtain ⟨rfl, rfl⟩ := h; exact .refl _ _

theorem appendItems_alloc {to} : ∀ {xs : List BItem} {w w' : World} {t : Doc},
    (∀ d ∈ xs.flatMap BItem.draws, d.NoShape) → w[to]? = some t → appendItems w to xs = .ok w' →
    ∃ t' ids, w'[to]? = some t' ∧ t'.docPrIds = t.docPrIds ++ ids ∧
      Alloc (xs.flatMap BItem.draws).length t.docID t'.docID ids := by
  intro xs
  induction xs with
  | nil =>
    intro w w' t _ ht h
    simp only [appendItems, Res.ok.injEq] at h; subst h
    exact ⟨t, [], ht, by simp, .none _⟩
  | cons x xs ih =>
    intro w w' t hn ht h
    simp only [appendItems] at h
    obtain ⟨⟨w1, x'⟩, h1, h2⟩ := Res.bind_eq_ok.1 h
    simp only at h2
    obtain ⟨t1, ht1, e1⟩ := (BItem.copymedia_touch h1).items ht
    have a := BItem.copymedia_alloc
      (fun d hd => hn d (by rw [List.flatMap_cons]; exact List.mem_append_left _ hd)) h1 t t1 ht ht1
    obtain ⟨t', ids, h3, h4, h5⟩ := ih
      (fun d hd => hn d (by rw [List.flatMap_cons]; exact List.mem_append_right _ hd))
      (pushItem_get x' ht1) h2
    refine ⟨t', x'.draws.flatMap Drawing.docPrIds ++ ids, h3, ?_, ?_⟩
    · rw [h4]
      simp [Doc.docPrIds, Doc.draws, e1]
    · rw [List.flatMap_cons, List.length_append]
      exact a.trans h5

theorem nextIds_nodup {a : UInt64} {k : Nat} (h : a.toNat + k < 2 ^ 64) :
    (nextIds a k).Nodup ∧ ∀ i ∈ nextIds a k, a.toNat < i.toUInt64.toNat ∧ i.toUInt64.toNat ≤ a.toNat + k := by
  have val : ∀ j, j < k → ((a + UInt64.ofNat (j + 1)).toInt64).toUInt64.toNat = a.toNat + (j + 1) := by
    intro j hj
    rw [UInt64.toUInt64_toInt64, UInt64.toNat_add, UInt64.toNat_ofNat']
    omega
  constructor
  · unfold nextIds
    rw [List.nodup_iff_pairwise_ne, List.pairwise_map]
    refine List.Pairwise.imp_of_mem ?_ (List.nodup_range (n := k))
    intro i j hi hj hne e
    simp only [List.mem_range] at hi hj
    have := congrArg (fun x : Int64 => x.toUInt64.toNat) e
    simp only [val i hi, val j hj] at this
    omega
  · intro i hi
    simp only [nextIds, List.mem_map, List.mem_range] at hi
    obtain ⟨j, hj, rfl⟩ := hi
    rw [val j hj]; omega

end Docx
