import Verif.World

/-!
# How documents evolve

Every API call changes the relationships, media and counters of a document only by a few primitive
steps.  `RelEvo f g`: `g` is reached from `f` by adding links and images and drawing ids.
`Evo f g`: in addition the items and the template may change in any way.
-/

namespace Docx

theorem Res.bind_eq_ok {α β} {x : Res α} {f : α → Res β} {b : β} :
    (x >>= f) = .ok b ↔ ∃ a, x = .ok a ∧ f a = .ok b := by
  cases x <;> simp

inductive RelEvo : Doc → Doc → Prop where
  | refl (f) : RelEvo f f
  | link {f g} (l : String) : RelEvo f g → RelEvo f (g.addLinkRelation l).1
  | image {f g} (fmt : String) (data : Bytes) : RelEvo f g → RelEvo f (g.addImage fmt data).1
  | docID {f g} : RelEvo f g → RelEvo f g.nextDocID.1
  | incID {f g} (n : String) : RelEvo f g → RelEvo f (g.increaseID n).1

theorem RelEvo.trans {f g h : Doc} (a : RelEvo f g) (b : RelEvo g h) : RelEvo f h := by
  induction b with
  | refl => exact a
  | link l _ ih => exact .link l ih
  | image fmt d _ ih => exact .image fmt d ih
  | docID _ ih => exact .docID ih
  | incID n _ ih => exact .incID n ih

theorem RelEvo.same {f g : Doc} (h : RelEvo f g) :
    g.items = f.items ∧ g.template = f.template ∧ g.tmplfs = f.tmplfs ∧ g.tmpfslst = f.tmpfslst := by
  induction h with
  | refl => simp
  | link l _ ih => simpa [Doc.addLinkRelation] using ih
  | image fmt d _ ih => simpa [Doc.addImage, Doc.addMedia, Doc.addImageRelation] using ih
  | docID _ ih => simpa [Doc.nextDocID] using ih
  | incID n _ ih => simpa [Doc.increaseID] using ih

inductive Evo : Doc → Doc → Prop where
  | refl (f) : Evo f f
  | items {f g} (l : List BItem) : Evo f g → Evo f { g with items := l }
  | template {f g} (t : String) (l : List String) (tf : Option FS) :
      Evo f g → Evo f { g with template := t, tmplfs := tf, tmpfslst := l }
  | link {f g} (l : String) : Evo f g → Evo f (g.addLinkRelation l).1
  | image {f g} (fmt : String) (data : Bytes) : Evo f g → Evo f (g.addImage fmt data).1
  | docID {f g} : Evo f g → Evo f g.nextDocID.1
  | incID {f g} (n : String) : Evo f g → Evo f (g.increaseID n).1

theorem Evo.trans {f g h : Doc} (a : Evo f g) (b : Evo g h) : Evo f h := by
  induction b with
  | refl => exact a
  | items l _ ih => exact .items l ih
  | template t l tf _ ih => exact .template t l tf ih
  | link l _ ih => exact .link l ih
  | image fmt d _ ih => exact .image fmt d ih
  | docID _ ih => exact .docID ih
  | incID n _ ih => exact .incID n ih

theorem RelEvo.evo {f g : Doc} (h : RelEvo f g) : Evo f g := by
  induction h with
  | refl => exact .refl _
  | link l _ ih => exact .link l ih
  | image fmt d _ ih => exact .image fmt d ih
  | docID _ ih => exact .docID ih
  | incID n _ ih => exact .incID n ih

/-- Only document `to` changed from `w` to `w'`, and only by primitive steps. -/
structure Touch (to : DocId) (w w' : World) : Prop where
  len : w'.length = w.length
  other : ∀ d, d ≠ to → w'[d]? = w[d]?
  evo : ∀ f, w[to]? = some f → ∃ f', w'[to]? = some f' ∧ RelEvo f f'

theorem Touch.refl (to : DocId) (w : World) : Touch to w w :=
  ⟨rfl, fun _ _ => rfl, fun f h => ⟨f, h, .refl f⟩⟩

theorem Touch.trans {to : DocId} {w w' w'' : World} (a : Touch to w w') (b : Touch to w' w'') :
    Touch to w w'' := by
  refine ⟨b.len.trans a.len, fun d h => (b.other d h).trans (a.other d h), ?_⟩
  intro f hf
  obtain ⟨f', hf', e⟩ := a.evo f hf
  obtain ⟨f'', hf'', e'⟩ := b.evo f' hf'
  exact ⟨f'', hf'', e.trans e'⟩

theorem lt_of_getElem? {α} {l : List α} {i : Nat} {a : α} (h : l[i]? = some a) : i < l.length := by
  rcases Nat.lt_or_ge i l.length with h' | h'
  · exact h'
  · simp [List.getElem?_eq_none h'] at h

theorem Touch.set {to : DocId} {w : World} {f f' : Doc} (h : w[to]? = some f) (e : RelEvo f f') :
    Touch to w (w.set to f') := by
  have hl := lt_of_getElem? h
  refine ⟨by simp, fun d hd => by simp [Ne.symm hd], ?_⟩
  intro g hg
  rw [h] at hg
  obtain rfl := Option.some.inj hg
  exact ⟨f', by simp [hl], e⟩

theorem copyPic_touch {w w' : World} {to file pic c} (h : copyPic w to file pic = .ok (w', c)) :
    Touch to w w' := by
  unfold copyPic at h
  split at h
  · simp only [Res.ok.injEq, Prod.mk.injEq] at h; rw [← h.1]; exact .refl _ _
  · split at h
    · simp at h
    · split at h
      · simp only [Res.ok.injEq, Prod.mk.injEq] at h; rw [← h.1]; exact .refl _ _
      · split at h
        · simp at h
        · rename_i t ht
          have hl := lt_of_getElem? ht
          simp only at h
          split at h
          · simp at h
          · split at h
            · simp at h
            · simp at h
            · simp only [Res.ok.injEq, Prod.mk.injEq] at h; rw [← h.1]
              exact .set ht (.incID _ (.docID (.refl _)))
            · split at h
              · simp at h
              · simp only [Res.ok.injEq, Prod.mk.injEq] at h; rw [← h.1]
                rw [List.set_set]
                exact .set ht (.image _ _ (.incID _ (.docID (.refl _))))

theorem Inline.copymedia_touch {w w' : World} {to} {r : Inline} {r'}
    (h : r.copymedia w to = .ok (w', r')) : Touch to w w' := by
  unfold Inline.copymedia at h
  split at h
  · simp at h
  · split at h
    · simp at h
    · split at h
      · obtain ⟨⟨w1, c⟩, h1, h2⟩ := Res.bind_eq_ok.1 h
        have t := copyPic_touch h1
        simp only at h2
        split at h2 <;>
        · simp only [Res.pure_eq, Res.ok.injEq, Prod.mk.injEq] at h2
          rw [← h2.1]; exact t
      · split at h
        · simp only [Res.ok.injEq, Prod.mk.injEq] at h; rw [← h.1]; exact .refl _ _
        · split at h <;>
          · simp only [Res.ok.injEq, Prod.mk.injEq] at h; rw [← h.1]; exact .refl _ _

theorem Anchor.copymedia_touch {w w' : World} {to} {r : Anchor} {r'}
    (h : r.copymedia w to = .ok (w', r')) : Touch to w w' := by
  unfold Anchor.copymedia at h
  split at h
  · simp at h
  · split at h
    · simp at h
    · split at h
      · obtain ⟨⟨w1, c⟩, h1, h2⟩ := Res.bind_eq_ok.1 h
        have t := copyPic_touch h1
        simp only at h2
        split at h2 <;>
        · simp only [Res.pure_eq, Res.ok.injEq, Prod.mk.injEq] at h2
          rw [← h2.1]; exact t
      · split at h
        · simp only [Res.ok.injEq, Prod.mk.injEq] at h; rw [← h.1]; exact .refl _ _
        · split at h <;>
          · simp only [Res.ok.injEq, Prod.mk.injEq] at h; rw [← h.1]; exact .refl _ _

theorem Drawing.copymedia_touch {w w' : World} {to} {d d' : Drawing}
    (h : d.copymedia w to = .ok (w', d')) : Touch to w w' := by
  unfold Drawing.copymedia at h
  split at h
  · obtain ⟨⟨w1, c⟩, h1, h2⟩ := Res.bind_eq_ok.1 h
    simp only [Res.pure_eq, Res.ok.injEq, Prod.mk.injEq] at h2
    rw [← h2.1]; exact Inline.copymedia_touch h1
  · split at h
    · obtain ⟨⟨w1, c⟩, h1, h2⟩ := Res.bind_eq_ok.1 h
      simp only [Res.pure_eq, Res.ok.injEq, Prod.mk.injEq] at h2
      rw [← h2.1]; exact Anchor.copymedia_touch h1
    · simp only [Res.ok.injEq, Prod.mk.injEq] at h; rw [← h.1]; exact .refl _ _

theorem copyRChildren_touch {to} : ∀ {w w' : World} {cs cs' : List RChild},
    copyRChildren w to cs = .ok (w', cs') → Touch to w w' := by
  intro w w' cs
  induction cs generalizing w w' with
  | nil =>
    intro cs' h
    simp only [copyRChildren, Res.ok.injEq, Prod.mk.injEq] at h; rw [← h.1]; exact .refl _ _
  | cons c cs ih =>
    intro cs' h
    cases c with
    | drawing d =>
      simp only [copyRChildren] at h
      obtain ⟨⟨w1, d'⟩, h1, h2⟩ := Res.bind_eq_ok.1 h
      obtain ⟨⟨w2, cs2⟩, h3, h4⟩ := Res.bind_eq_ok.1 h2
      simp only [Res.pure_eq, Res.ok.injEq, Prod.mk.injEq] at h4
      rw [← h4.1]
      exact (Drawing.copymedia_touch h1).trans (ih h3)
    | text _ | tab _ | br _ =>
      simp only [copyRChildren] at h
      obtain ⟨⟨w2, cs2⟩, h3, h4⟩ := Res.bind_eq_ok.1 h
      simp only [Res.pure_eq, Res.ok.injEq, Prod.mk.injEq] at h4
      rw [← h4.1]
      exact ih h3

theorem Run.copymedia_touch {w w' : World} {to} {r r' : Run}
    (h : r.copymedia w to = .ok (w', r')) : Touch to w w' := by
  unfold Run.copymedia at h
  obtain ⟨⟨w1, c⟩, h1, h2⟩ := Res.bind_eq_ok.1 h
  simp only [Res.pure_eq, Res.ok.injEq, Prod.mk.injEq] at h2
  rw [← h2.1]; exact copyRChildren_touch h1

theorem copyPChildren_touch {to file} : ∀ {w w' : World} {cs cs' : List PChild},
    copyPChildren w to file cs = .ok (w', cs') → Touch to w w' := by
  intro w w' cs
  induction cs generalizing w w' with
  | nil =>
    intro cs' h
    simp only [copyPChildren, Res.ok.injEq, Prod.mk.injEq] at h; rw [← h.1]; exact .refl _ _
  | cons c cs ih =>
    intro cs' h
    cases c with
    | run r =>
      simp only [copyPChildren] at h
      obtain ⟨⟨w1, d'⟩, h1, h2⟩ := Res.bind_eq_ok.1 h
      obtain ⟨⟨w2, cs2⟩, h3, h4⟩ := Res.bind_eq_ok.1 h2
      simp only [Res.pure_eq, Res.ok.injEq, Prod.mk.injEq] at h4
      rw [← h4.1]
      exact (Run.copymedia_touch h1).trans (ih h3)
    | link hl =>
      simp only [copyPChildren] at h
      split at h
      · simp at h
      · split at h
        · exact ih h
        · split at h
          · simp at h
          · rename_i t ht
            obtain ⟨⟨w1, d'⟩, h1, h2⟩ := Res.bind_eq_ok.1 h
            obtain ⟨⟨w2, cs2⟩, h3, h4⟩ := Res.bind_eq_ok.1 h2
            simp only [Res.pure_eq, Res.ok.injEq, Prod.mk.injEq] at h4
            rw [← h4.1]
            exact ((Touch.set ht (.link _ (.refl _))).trans (Run.copymedia_touch h1)).trans (ih h3)
    | rpr _ =>
      simp only [copyPChildren] at h
      obtain ⟨⟨w2, cs2⟩, h3, h4⟩ := Res.bind_eq_ok.1 h
      simp only [Res.pure_eq, Res.ok.injEq, Prod.mk.injEq] at h4
      rw [← h4.1]
      exact ih h3

theorem Para.copymedia_touch {w w' : World} {to} {p p' : Para}
    (h : p.copymedia w to = .ok (w', p')) : Touch to w w' := by
  unfold Para.copymedia at h
  obtain ⟨⟨w1, c⟩, h1, h2⟩ := Res.bind_eq_ok.1 h
  simp only [Res.pure_eq, Res.ok.injEq, Prod.mk.injEq] at h2
  rw [← h2.1]; exact copyPChildren_touch h1

theorem copyParas_touch {to} : ∀ {w w' : World} {cs cs' : List Para},
    copyParas w to cs = .ok (w', cs') → Touch to w w' := by
  intro w w' cs
  induction cs generalizing w w' with
  | nil =>
    intro cs' h
    simp only [copyParas, Res.ok.injEq, Prod.mk.injEq] at h; rw [← h.1]; exact .refl _ _
  | cons c cs ih =>
    intro cs' h
    simp only [copyParas] at h
    obtain ⟨⟨w1, d'⟩, h1, h2⟩ := Res.bind_eq_ok.1 h
    obtain ⟨⟨w2, cs2⟩, h3, h4⟩ := Res.bind_eq_ok.1 h2
    simp only [Res.pure_eq, Res.ok.injEq, Prod.mk.injEq] at h4
    rw [← h4.1]
    exact (Para.copymedia_touch h1).trans (ih h3)

theorem copyCells_touch {to} : ∀ {w w' : World} {cs cs' : List Cell},
    copyCells w to cs = .ok (w', cs') → Touch to w w' := by
  intro w w' cs
  induction cs generalizing w w' with
  | nil =>
    intro cs' h
    simp only [copyCells, Res.ok.injEq, Prod.mk.injEq] at h; rw [← h.1]; exact .refl _ _
  | cons c cs ih =>
    intro cs' h
    simp only [copyCells] at h
    obtain ⟨⟨w1, d'⟩, h1, h2⟩ := Res.bind_eq_ok.1 h
    obtain ⟨⟨w2, cs2⟩, h3, h4⟩ := Res.bind_eq_ok.1 h2
    simp only [Res.pure_eq, Res.ok.injEq, Prod.mk.injEq] at h4
    rw [← h4.1]
    exact (copyParas_touch h1).trans (ih h3)

theorem copyRows_touch {to} : ∀ {w w' : World} {cs cs' : List Row},
    copyRows w to cs = .ok (w', cs') → Touch to w w' := by
  intro w w' cs
  induction cs generalizing w w' with
  | nil =>
    intro cs' h
    simp only [copyRows, Res.ok.injEq, Prod.mk.injEq] at h; rw [← h.1]; exact .refl _ _
  | cons c cs ih =>
    intro cs' h
    simp only [copyRows] at h
    obtain ⟨⟨w1, d'⟩, h1, h2⟩ := Res.bind_eq_ok.1 h
    obtain ⟨⟨w2, cs2⟩, h3, h4⟩ := Res.bind_eq_ok.1 h2
    simp only [Res.pure_eq, Res.ok.injEq, Prod.mk.injEq] at h4
    rw [← h4.1]
    exact (copyCells_touch h1).trans (ih h3)

theorem Table.copymedia_touch {w w' : World} {to} {p p' : Table}
    (h : p.copymedia w to = .ok (w', p')) : Touch to w w' := by
  unfold Table.copymedia at h
  obtain ⟨⟨w1, c⟩, h1, h2⟩ := Res.bind_eq_ok.1 h
  simp only [Res.pure_eq, Res.ok.injEq, Prod.mk.injEq] at h2
  rw [← h2.1]; exact copyRows_touch h1

theorem BItem.copymedia_touch {w w' : World} {to} {p p' : BItem}
    (h : p.copymedia w to = .ok (w', p')) : Touch to w w' := by
  cases p with
  | para p =>
    simp only [BItem.copymedia] at h
    obtain ⟨⟨w1, c⟩, h1, h2⟩ := Res.bind_eq_ok.1 h
    simp only [Res.pure_eq, Res.ok.injEq, Prod.mk.injEq] at h2
    rw [← h2.1]; exact Para.copymedia_touch h1
  | table p =>
    simp only [BItem.copymedia] at h
    obtain ⟨⟨w1, c⟩, h1, h2⟩ := Res.bind_eq_ok.1 h
    simp only [Res.pure_eq, Res.ok.injEq, Prod.mk.injEq] at h2
    rw [← h2.1]; exact Table.copymedia_touch h1
  | sect s =>
    simp only [BItem.copymedia, Res.ok.injEq, Prod.mk.injEq] at h
    rw [← h.1]; exact .refl _ _

/-- Every document of `w` is still there in `w'` and evolved; the others are new and evolved from a
base accepted by `B`. -/
structure WEvo (B : Doc → Prop) (w w' : World) : Prop where
  old : ∀ (d : Nat) (f : Doc), w[d]? = some f → ∃ f', w'[d]? = some f' ∧ Evo f f'
  new : ∀ (d : Nat) (f' : Doc), w'[d]? = some f' → w.length ≤ d → ∃ b, B b ∧ Evo b f'

theorem WEvo.refl (B) (w : World) : WEvo B w w :=
  ⟨fun _ f h => ⟨f, h, .refl f⟩, fun d f' h h' => by
    rw [List.getElem?_eq_none h'] at h; simp at h⟩

theorem WEvo.trans {B} {w w' w'' : World} (a : WEvo B w w') (b : WEvo B w' w'') : WEvo B w w'' := by
  constructor
  · intro d f h
    obtain ⟨f', h', e⟩ := a.old d f h
    obtain ⟨f'', h'', e'⟩ := b.old d f' h'
    exact ⟨f'', h'', e.trans e'⟩
  · intro d f'' h hl
    rcases Nat.lt_or_ge d w'.length with hd | hd
    · obtain ⟨f', hf'⟩ : ∃ f', w'[d]? = some f' := ⟨w'[d], by simp [hd]⟩
      obtain ⟨b', hb', e⟩ := a.new d f' hf' hl
      obtain ⟨g, hg, e'⟩ := b.old d f' hf'
      rw [h] at hg
      obtain rfl := Option.some.inj hg
      exact ⟨b', hb', e.trans e'⟩
    · exact b.new d f'' h hd

theorem Touch.wevo {B} {to : DocId} {w w' : World} (t : Touch to w w') : WEvo B w w' := by
  constructor
  · intro d f h
    by_cases hd : d = to
    · subst hd
      obtain ⟨f', h', e⟩ := t.evo f h
      exact ⟨f', h', e.evo⟩
    · exact ⟨f, (t.other d hd).trans h, .refl f⟩
  · intro d f' h hl
    rw [List.getElem?_eq_none (by rw [t.len]; exact hl)] at h; simp at h

theorem WEvo.set {B} {w : World} {d : DocId} {f f' : Doc} (h : w[d]? = some f) (e : Evo f f') :
    WEvo B w (w.set d f') := by
  have hl := lt_of_getElem? h
  constructor
  · intro d' g hg
    by_cases hd : d' = d
    · subst hd
      rw [h] at hg; obtain rfl := Option.some.inj hg
      exact ⟨f', by simp [hl], e⟩
    · exact ⟨g, by simpa [List.getElem?_set, Ne.symm hd] using hg, .refl g⟩
  · intro d' g hg hl'
    rw [List.getElem?_eq_none (by simpa using hl')] at hg; simp at hg

theorem WEvo.push {B : Doc → Prop} {w : World} {b : Doc} (hb : B b) : WEvo B w (w ++ [b]) := by
  constructor
  · intro d f h
    exact ⟨f, by rw [List.getElem?_append_left (lt_of_getElem? h)]; exact h, .refl f⟩
  · intro d f' h hl
    rw [List.getElem?_append_right hl] at h
    have : d - w.length = 0 := by
      have := lt_of_getElem? h; simp at this; omega
    rw [this] at h
    simp at h
    subst h
    exact ⟨b, hb, .refl _⟩

theorem pushItem_wevo {B} (w : World) (to : DocId) (x : BItem) : WEvo B w (w.pushItem to x) := by
  unfold World.pushItem
  split
  · exact .refl _ _
  · rename_i t ht
    exact .set ht (.items _ (.refl _))

theorem appendItems_wevo {B} {to} : ∀ {xs : List BItem} {w w' : World},
    appendItems w to xs = .ok w' → WEvo B w w' := by
  intro xs
  induction xs with
  | nil => intro w w' h; simp only [appendItems, Res.ok.injEq] at h; subst h; exact .refl _ _
  | cons x xs ih =>
    intro w w' h
    simp only [appendItems] at h
    obtain ⟨⟨w1, c⟩, h1, h2⟩ := Res.bind_eq_ok.1 h
    exact ((BItem.copymedia_touch h1).wevo.trans (pushItem_wevo _ _ _)).trans (ih h2)

theorem splitFill_wevo {B} {sep nd} : ∀ {is : List BItem} {w w' : World} {cnt left},
    splitFill sep nd w cnt is = .ok (w', left) → WEvo B w w' := by
  intro is
  induction is with
  | nil =>
    intro w w' cnt left h
    simp only [splitFill, Res.ok.injEq, Prod.mk.injEq] at h; rw [← h.1]; exact .refl _ _
  | cons i is ih =>
    intro w w' cnt left h
    cases i with
    | para p =>
      simp only [splitFill] at h
      obtain ⟨b, hb, h⟩ := Res.bind_eq_ok.1 h
      split at h
      · simp only [Res.ok.injEq, Prod.mk.injEq] at h; rw [← h.1]; exact .refl _ _
      · obtain ⟨⟨w1, c⟩, h1, h2⟩ := Res.bind_eq_ok.1 h
        exact ((Para.copymedia_touch h1).wevo.trans (pushItem_wevo _ _ _)).trans (ih h2)
    | table t =>
      simp only [splitFill] at h
      obtain ⟨⟨w1, c⟩, h1, h2⟩ := Res.bind_eq_ok.1 h
      exact ((Table.copymedia_touch h1).wevo.trans (pushItem_wevo _ _ _)).trans (ih h2)
    | sect s =>
      simp only [splitFill] at h
      exact (pushItem_wevo _ _ _).trans (ih h)

theorem splitLoop_wevo {B : Doc → Prop} {sep} {f : Doc} (hB : B (splitDoc f)) :
    ∀ {n : Nat} {is : List BItem} {w w' : World} {docs docs'},
    splitLoop sep f n w docs is = .ok (w', docs') → WEvo B w w' := by
  intro n
  induction n with
  | zero => intro is w w' docs docs' h; simp [splitLoop] at h
  | succ n ih =>
    intro is w w' docs docs' h
    cases is with
    | nil =>
      simp only [splitLoop, Res.ok.injEq, Prod.mk.injEq] at h; rw [← h.1]; exact .refl _ _
    | cons i is =>
      simp only [splitLoop] at h
      obtain ⟨⟨w1, c⟩, h1, h2⟩ := Res.bind_eq_ok.1 h
      have e := (WEvo.push (w := w) hB).trans (splitFill_wevo h1)
      simp only at h2
      split at h2
      · exact e.trans (ih h2)
      · simp only [Res.pure_eq, Res.ok.injEq, Prod.mk.injEq] at h2; rw [← h2.1]; exact e

theorem onDoc_wevo {B} {w w' : World} {d : DocId} {act : Doc → Res Doc}
    (ha : ∀ f f', act f = .ok f' → Evo f f') (h : w.onDoc d act = .ok w') : WEvo B w w' := by
  unfold World.onDoc at h
  split at h
  · simp at h
  · rename_i f hf
    obtain ⟨f', h1, h2⟩ := Res.bind_eq_ok.1 h
    simp only [Res.ok.injEq] at h2; subst h2
    exact .set hf (ha _ _ h1)

theorem onPara_wevo {B} {w w' : World} {d : DocId} {l : Loc} {act : Doc → Para → Res (Doc × Para)}
    (ha : ∀ f p f' p', act f p = .ok (f', p') → Evo f f') (h : w.onPara d l act = .ok w') :
    WEvo B w w' := by
  unfold World.onPara at h
  split at h
  · simp at h
  · split at h
    · simp at h
    · split at h
      · simp at h
      · split at h
        · simp at h
        · rename_i f hf
          obtain ⟨⟨f', p'⟩, h1, h2⟩ := Res.bind_eq_ok.1 h
          have e : WEvo B w (w.set _ f') := .set hf (ha _ _ _ _ h1)
          simp only at h2
          split at h2
          · simp at h2
          · rename_i hd
            simp only [Res.ok.injEq] at h2; subst h2
            exact e.trans (.set hd (.items _ (.refl _)))

/-- The documents that operations create. -/
def Base (b : Doc) : Prop :=
  b = Doc.new ∨ (∃ items media, b = Doc.loadBodyItems items media) ∨ (∃ f, b = splitDoc f)

theorem addPicture_evo [ImgEnv] (f : Doc) (pic : Bytes) : Evo f (f.addPicture pic).1 := by
  unfold Doc.addPicture
  split
  · exact .refl _
  · simp only
    split <;> exact .image _ _ (.incID _ (.docID (.refl _)))

theorem addInlineDrawing_fst [ImgEnv] (p : Para) (f : Doc) (pic : Bytes) :
    (p.addInlineDrawing f pic).1 = (f.addPicture pic).1 := by
  unfold Para.addInlineDrawing
  split <;> simp [*]

theorem addAnchorDrawing_fst [ImgEnv] (p : Para) (f : Doc) (pic : Bytes) :
    (p.addAnchorDrawing f pic).1 = (f.addPicture pic).1 := by
  unfold Para.addAnchorDrawing
  split <;> simp [*]

theorem step_wevo' [ImgEnv] {B : Doc → Prop} {w w' : World} {o : Op} (hnew : B Doc.new)
    (hsplit : ∀ f, B (splitDoc f))
    (hload : ∀ items media, o = .load items media → B (Doc.loadBodyItems items media))
    (h : step w o = .ok w') : WEvo B w w' := by
  cases o with
  | new =>
    simp only [step, Res.ok.injEq] at h; subst h; exact .push hnew
  | load items media =>
    simp only [step, Res.ok.injEq] at h; subst h; exact .push (hload _ _ rfl)
  | addParagraph d =>
    refine onDoc_wevo ?_ h
    intro f f' h; simp only [Res.ok.injEq] at h; subst h; exact .items _ (.refl _)
  | cellAddParagraph d i r c =>
    refine onDoc_wevo ?_ h
    intro f f' h; simp only [Res.ok.injEq] at h; subst h; exact .items _ (.refl _)
  | addTable d row col width colors =>
    refine onDoc_wevo ?_ h
    intro f f' h
    unfold Doc.addTable at h
    split at h
    · rename_i heq
      simp only [Res.ok.injEq] at h; subst h
      split at heq
      · simp at heq
      · split at heq
        · simp at heq
        · simp only [Res.ok.injEq, Prod.mk.injEq] at heq
          rw [← heq.1]; exact .items _ (.refl _)
    · simp at h
    · simp at h
  | addTableTwips d rows cols width colors =>
    refine onDoc_wevo ?_ h
    intro f f' h; simp only [Res.ok.injEq] at h; subst h; exact .items _ (.refl _)
  | withA3Page d =>
    refine onDoc_wevo ?_ h
    intro f f' h; simp only [Res.ok.injEq] at h; subst h; exact .items _ (.refl _)
  | withA4Page d =>
    refine onDoc_wevo ?_ h
    intro f f' h; simp only [Res.ok.injEq] at h; subst h; exact .items _ (.refl _)
  | useTemplate d t l tfs =>
    refine onDoc_wevo ?_ h
    intro f f' h; simp only [Res.ok.injEq] at h; subst h; exact .template _ _ _ (.refl _)
  | increaseID d name =>
    refine onDoc_wevo ?_ h
    intro f f' h; simp only [Res.ok.injEq] at h; subst h; exact .incID _ (.refl _)
  | addText d l text =>
    refine onPara_wevo ?_ h
    intro f p f' p' h; simp only [Res.ok.injEq, Prod.mk.injEq] at h; rw [← h.1]; exact .refl _
  | addLink d l text link =>
    refine onPara_wevo ?_ h
    intro f p f' p' h; simp only [Res.ok.injEq, Prod.mk.injEq] at h; rw [← h.1]
    exact .link _ (.refl _)
  | addInlineDrawing d l pic =>
    refine onPara_wevo ?_ h
    intro f p f' p' h
    have e := addInlineDrawing_fst p f pic
    split at h <;> simp only [Res.ok.injEq, Prod.mk.injEq, reduceCtorEq] at h <;>
      (rename_i heq; rw [heq] at e; rw [← h.1]; simp only at e; rw [e]; exact addPicture_evo f pic)
  | addAnchorDrawing d l pic =>
    refine onPara_wevo ?_ h
    intro f p f' p' h
    have e := addAnchorDrawing_fst p f pic
    split at h <;> simp only [Res.ok.injEq, Prod.mk.injEq, reduceCtorEq] at h <;>
      (rename_i heq; rw [heq] at e; rw [← h.1]; simp only at e; rw [e]; exact addPicture_evo f pic)
  | addInlineShape d l sw sh name bw prst ln =>
    refine onPara_wevo ?_ h
    intro f p f' p' h; simp only [Res.ok.injEq, Prod.mk.injEq] at h; rw [← h.1]
    exact .incID _ (.docID (.refl _))
  | addAnchorShape d l sw sh name bw prst ln =>
    refine onPara_wevo ?_ h
    intro f p f' p' h; simp only [Res.ok.injEq, Prod.mk.injEq] at h; rw [← h.1]
    exact .incID _ (.docID (.refl _))
  | append f af =>
    simp only [step] at h
    split at h
    · simp at h
    · unfold World.appendFile at h
      split at h
      · simp at h
      · exact appendItems_wevo h
  | split d sep =>
    simp only [step] at h
    split at h
    · rename_i heq
      simp only [Res.ok.injEq] at h; subst h
      unfold World.splitByParagraph at heq
      split at heq
      · simp at heq
      · exact splitLoop_wevo (hsplit _) heq
    · simp at h
    · simp at h
  | edit d g =>
    refine onDoc_wevo ?_ h
    intro f f' h; simp only [Res.ok.injEq] at h; subst h; exact .items _ (.refl _)

/-- A whole history evolves the world. -/
theorem run_wevo' [ImgEnv] {B : Doc → Prop} (hnew : B Doc.new) (hsplit : ∀ f, B (splitDoc f)) :
    ∀ {os : List Op} {w w' : World},
    (∀ items media, .load items media ∈ os → B (Doc.loadBodyItems items media)) →
    run w os = .ok w' → WEvo B w w' := by
  intro os
  induction os with
  | nil => intro w w' _ h; simp only [run, Res.ok.injEq] at h; subst h; exact .refl _ _
  | cons o os ih =>
    intro w w' hl h
    simp only [run] at h
    split at h
    · rename_i h1
      exact (step_wevo' hnew hsplit (fun i m e => hl i m (by simp [e])) h1).trans
        (ih (fun i m e => hl i m (by simp [e])) h)
    · simp at h
    · simp at h

theorem base_new : Base Doc.new := .inl rfl
theorem base_split (f : Doc) : Base (splitDoc f) := .inr (.inr ⟨f, rfl⟩)
theorem base_load (items media) : Base (Doc.loadBodyItems items media) := .inr (.inl ⟨_, _, rfl⟩)

theorem step_wevo [ImgEnv] {w w' : World} {o : Op} (h : step w o = .ok w') : WEvo Base w w' :=
  step_wevo' base_new base_split (fun _ _ _ => base_load _ _) h

theorem run_wevo [ImgEnv] {os : List Op} {w w' : World} (h : run w os = .ok w') : WEvo Base w w' :=
  run_wevo' base_new base_split (fun _ _ _ => base_load _ _) h

/-- What a call of a paragraph method does to the world. -/
theorem onPara_ok {w w' : World} {d : DocId} {l : Loc} {act : Doc → Para → Res (Doc × Para)}
    (h : w.onPara d l act = .ok w') : ∃ doc p fid f f' p' doc1,
      w[d]? = some doc ∧ getPara doc.items l = some p ∧ p.file = some fid ∧ w[fid]? = some f ∧
      act f p = .ok (f', p') ∧ (w.set fid f')[d]? = some doc1 ∧
      w' = (w.set fid f').set d { doc1 with items := modPara doc1.items l (fun _ => p') } := by
  unfold World.onPara at h
  split at h
  · simp at h
  · rename_i doc hdoc
    split at h
    · simp at h
    · rename_i p hp
      split at h
      · simp at h
      · rename_i fid hfid
        split at h
        · simp at h
        · rename_i f hf
          obtain ⟨⟨f', p'⟩, h1, h2⟩ := Res.bind_eq_ok.1 h
          simp only at h2
          split at h2
          · simp at h2
          · rename_i doc1 hd
            simp only [Res.ok.injEq] at h2; subst h2
            exact ⟨doc, p, fid, f, f', p', doc1, hdoc, hp, hfid, hf, h1, hd, rfl⟩

/-- The document a paragraph method worked on evolves from the one the method returned. -/
theorem onPara_evo {w : World} {d fid : DocId} {l : Loc} {f f' doc1 : Doc} {p' : Para}
    (hf : w[fid]? = some f) (hd : (w.set fid f')[d]? = some doc1) :
    ∃ f1, ((w.set fid f').set d { doc1 with items := modPara doc1.items l (fun _ => p') })[fid]? = some f1
      ∧ Evo f' f1 := by
  have hl := lt_of_getElem? hf
  by_cases e : d = fid
  · subst e
    simp only [List.getElem?_set_self hl, Option.some.injEq] at hd
    subst hd
    exact ⟨{ f' with items := modPara f'.items l (fun _ => p') }, by simp [hl], .items _ (.refl _)⟩
  · exact ⟨f', by simp [e, hl], .refl _⟩

end Docx
