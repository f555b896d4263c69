import Verif.Lemmas.SplitLoop

/-!
# Copying returns normally
-/

namespace Docx

/-! ## The media index -/

theorem addMedia_safe {f : Doc} (h : ∀ name, f.getMedia name ≠ .panic) (m : Media) (name : String) :
    (f.addMedia m).getMedia name ≠ .panic := by
  have hn := h name
  unfold Doc.getMedia at hn ⊢
  simp only [Doc.addMedia, upd]
  by_cases e : name = m.name
  · simp [e]
  · simp only [if_neg e]
    cases hi : f.mediaIdx name with
    | none => simp
    | some i =>
      simp only [hi] at hn
      cases hm : f.media[i]? with
      | none => simp [hm] at hn
      | some x => simp [List.getElem?_append_left (lt_of_getElem? hm), hm]

theorem Evo.safe {f g : Doc} (h : Evo f g) (hf : ∀ name, f.getMedia name ≠ .panic) :
    ∀ name, g.getMedia name ≠ .panic := by
  induction h with
  | refl => exact hf
  | items l _ ih => exact ih
  | template t l tf _ ih => exact ih
  | docID _ ih => exact ih
  | incID n _ ih => exact ih
  | link l _ ih => exact ih
  | @image g fmt d _ ih =>
    exact addMedia_safe (f := { g with imageID := g.imageID + 1 }) ih _

theorem MediaSafe.grow {to : DocId} {w w1 : World} (h : MediaSafe w) (g : Grow to w w1) : MediaSafe w1 := by
  intro d f hf
  by_cases e : d = to
  · subst e
    have hl : d < w.length := by rw [← g.len]; exact lt_of_getElem? hf
    obtain ⟨f', hf', e'⟩ := g.evo w[d] (by simp [hl])
    rw [hf] at hf'; obtain rfl := Option.some.inj hf'
    exact e'.safe (h d w[d] (by simp [hl]))
  · rw [g.other d e] at hf; exact h d f hf

/-! ## Copies succeed -/

/-- The state during copying into `to`. -/
structure Mid (ws : World) (to : DocId) (t0 : Doc) (w : World) : Prop where
  after : After ws to t0 w
  safe : MediaSafe w

theorem Mid.grow {ws to t0 w w1} (h : Mid ws to t0 w) (g : Grow to w w1) : Mid ws to t0 w1 :=
  ⟨h.after.fwd g, h.safe.grow g⟩

section
variable {ws : World} {to : DocId} {t0 : Doc} (h0 : ∀ t, ws[to]? = some t → t = t0)
include h0

theorem Mid.owned {w : World} (h : Mid ws to t0 w) {file : Option DocId} (ho : Owned ws file) :
    ∃ f, file.bind (w[·]?) = some f := by
  obtain ⟨i, f, rfl, hf⟩ := ho
  by_cases e : i = to
  · subst e
    obtain ⟨⟨t, ht, _⟩, _⟩ := h.after
    exact ⟨t, ht⟩
  · exact ⟨f, h.after.2 i f e hf⟩

theorem copyPic_ok {w : World} (h : Mid ws to t0 w) {file : Option DocId} {pic : Picture}
    (hc : ∀ bf, pic.blipFill = some bf → Owned ws file ∧ pic.nvPicPr ≠ none ∧
      ((∃ tgt, ws.resolve file bf.blip.embed = some tgt ∧ 6 ≤ tgt.utf8ByteSize) ∨
       (ws.resolve file bf.blip.embed = none ∧ file ≠ some to))) :
    ∃ w1 c, copyPic w to file pic = .ok (w1, c) := by
  unfold copyPic
  cases hb : pic.blipFill with
  | none => exact ⟨_, _, rfl⟩
  | some bf =>
    obtain ⟨ho, hnv, hr⟩ := hc bf hb
    obtain ⟨src, hsrc⟩ := h.owned h0 ho
    simp only [hsrc]
    rcases hr with ⟨tgt, htgt, hlen⟩ | ⟨hnone, hfile⟩
    · have := h.after.resolve h0 htgt
      rw [bind_resolve hsrc] at this
      simp only [this]
      obtain ⟨⟨t, ht, _⟩, _⟩ := h.after
      simp only [ht]
      have hl := lt_of_getElem? ht
      have g : Grow to w (w.set to ((t.nextDocID.1).increaseID picName).1) :=
        (Touch.set ht (.incID _ (.docID (.refl _)))).grow
      obtain ⟨src2, hsrc2⟩ := (h.grow g).owned h0 ho
      rw [hsrc2]
      simp only
      have hm2 : ∀ name, src2.getMedia name ≠ .panic := by
        cases file with
        | none => simp at hsrc2
        | some i => exact (h.grow g).safe i src2 hsrc2
      obtain ⟨m, hm⟩ := mediaOfTarget_ok hlen hm2
      rw [hm]
      cases m with
      | none => exact ⟨_, _, rfl⟩
      | some m =>
        cases hnp : pic.nvPicPr with
        | none => exact absurd hnp hnv
        | some nv => exact ⟨_, _, rfl⟩
    · have : src.referTarget bf.blip.embed = none := by
        obtain ⟨i, f, rfl, hf⟩ := ho
        have hi : i ≠ to := fun e => hfile (by rw [e])
        have h2 := h.after.2 i f hi hf
        simp only [Option.bind_some, h2, Option.some.injEq] at hsrc
        subst hsrc
        rwa [resolve_some hf] at hnone
      simp only [this]
      exact ⟨_, _, rfl⟩

theorem Drawing.copymedia_ok {w : World} (h : Mid ws to t0 w) {d : Drawing} (hc : d.Copyable ws to) :
    ∃ w1 d', d.copymedia w to = .ok (w1, d') := by
  unfold Drawing.copymedia
  simp only [Drawing.Copyable] at hc
  cases hi : d.inl with
  | some i =>
    simp only [hi] at hc
    obtain ⟨g, gd, hg, hgd, hp⟩ := hc
    simp only [Inline.copymedia, hg, hgd]
    cases hpic : gd.pic with
    | some pic =>
      obtain ⟨w1, c, e⟩ := copyPic_ok h0 h (file := i.file) (pic := pic) (fun bf hb => hp pic bf hpic hb)
      simp only [e, Res.bind_ok]
      cases c <;> exact ⟨_, _, rfl⟩
    | none =>
      cases gd.shape with
      | some s => exact ⟨_, _, rfl⟩
      | none => cases gd.canvas <;> exact ⟨_, _, rfl⟩
  | none =>
    simp only [hi] at hc
    cases ha : d.anchor with
    | none => exact ⟨_, _, rfl⟩
    | some a =>
      obtain ⟨g, gd, hg, hgd, hp⟩ := hc a ha
      simp only [Anchor.copymedia, hg, hgd]
      cases hpic : gd.pic with
      | some pic =>
        obtain ⟨w1, c, e⟩ := copyPic_ok h0 h (file := a.file) (pic := pic) (fun bf hb => hp pic bf hpic hb)
        simp only [e, Res.bind_ok]
        cases c <;> exact ⟨_, _, rfl⟩
      | none =>
        cases gd.shape with
        | some s => exact ⟨_, _, rfl⟩
        | none => cases gd.canvas <;> exact ⟨_, _, rfl⟩

theorem copyRChildren_ok : ∀ {cs : List RChild} {w : World}, Mid ws to t0 w →
    (∀ d, .drawing d ∈ cs → d.Copyable ws to) → ∃ w1 cs', copyRChildren w to cs = .ok (w1, cs') := by
  intro cs
  induction cs with
  | nil => intro w _ _; exact ⟨_, _, rfl⟩
  | cons c cs ih =>
    intro w h hc
    cases c with
    | drawing d =>
      obtain ⟨w1, d', e⟩ := Drawing.copymedia_ok h0 h (hc d (by simp))
      obtain ⟨w2, cs', e2⟩ := ih (h.grow (Drawing.copymedia_touch e).grow)
        (fun d hd => hc d (by simp [hd]))
      exact ⟨w2, .drawing d' :: cs', by simp [copyRChildren, e, e2]⟩
    | text t =>
      obtain ⟨w2, cs', e2⟩ := ih h (fun d hd => hc d (by simp [hd]))
      exact ⟨w2, .text t :: cs', by simp [copyRChildren, e2]⟩
    | tab t =>
      obtain ⟨w2, cs', e2⟩ := ih h (fun d hd => hc d (by simp [hd]))
      exact ⟨w2, .tab t :: cs', by simp [copyRChildren, e2]⟩
    | br t =>
      obtain ⟨w2, cs', e2⟩ := ih h (fun d hd => hc d (by simp [hd]))
      exact ⟨w2, .br t :: cs', by simp [copyRChildren, e2]⟩

theorem Run.copymedia_ok {w : World} (h : Mid ws to t0 w) {r : Run} (hc : r.Copyable ws to) :
    ∃ w1 r', r.copymedia w to = .ok (w1, r') := by
  obtain ⟨w1, cs, e⟩ := copyRChildren_ok h0 h hc
  exact ⟨w1, { r with children := cs }, by simp [Run.copymedia, e]⟩

theorem copyPChildren_ok {file : Option DocId} : ∀ {cs : List PChild} {w : World}, Mid ws to t0 w →
    (∀ r, .run r ∈ cs → r.Copyable ws to) →
    (∀ l, .link l ∈ cs → Owned ws file ∧ l.run.Copyable ws to) →
    ∃ w1 cs', copyPChildren w to file cs = .ok (w1, cs') := by
  intro cs
  induction cs with
  | nil => intro w _ _ _; exact ⟨_, _, rfl⟩
  | cons c cs ih =>
    intro w h hr hl
    have ih' := fun {w} (h : Mid ws to t0 w) => ih h (fun r hh => hr r (by simp [hh]))
      (fun l hh => hl l (by simp [hh]))
    cases c with
    | run r =>
      obtain ⟨w1, d', e⟩ := Run.copymedia_ok h0 h (hr r (by simp))
      obtain ⟨w2, cs', e2⟩ := ih' (h.grow (Run.copymedia_touch e).grow)
      exact ⟨w2, .run d' :: cs', by simp [copyPChildren, e, e2]⟩
    | rpr x =>
      obtain ⟨w2, cs', e2⟩ := ih' h
      exact ⟨w2, .rpr x :: cs', by simp [copyPChildren, e2]⟩
    | link l =>
      obtain ⟨ho, hlr⟩ := hl l (by simp)
      obtain ⟨src, hsrc⟩ := h.owned h0 ho
      simp only [copyPChildren, hsrc]
      cases hres : src.referTarget l.id with
      | none => exact ih' h
      | some tgt =>
        obtain ⟨⟨t, ht, _⟩, _⟩ := h.after
        simp only [ht]
        have g : Grow to w (w.set to (t.addLinkRelation tgt).1) :=
          (Touch.set ht (.link _ (.refl _))).grow
        obtain ⟨w1, d', e⟩ := Run.copymedia_ok h0 (h.grow g) hlr
        obtain ⟨w2, cs', e2⟩ := ih' ((h.grow g).grow (Run.copymedia_touch e).grow)
        exact ⟨w2, .link { id := (t.addLinkRelation tgt).2, run := d' } :: cs', by simp [e, e2]⟩

theorem Para.copymedia_ok {w : World} (h : Mid ws to t0 w) {p : Para} (hc : p.Copyable ws to) :
    ∃ w1 p', p.copymedia w to = .ok (w1, p') := by
  obtain ⟨w1, cs, e⟩ := copyPChildren_ok h0 (file := p.file) h hc.1 hc.2
  exact ⟨w1, { p with children := cs, file := some to }, by simp [Para.copymedia, e]⟩

theorem copyParas_ok : ∀ {cs : List Para} {w : World}, Mid ws to t0 w →
    (∀ p ∈ cs, p.Copyable ws to) → ∃ w1 cs', copyParas w to cs = .ok (w1, cs') := by
  intro cs
  induction cs with
  | nil => intro w _ _; exact ⟨_, _, rfl⟩
  | cons c cs ih =>
    intro w h hc
    obtain ⟨w1, d', e⟩ := Para.copymedia_ok h0 h (hc c (by simp))
    obtain ⟨w2, cs', e2⟩ := ih (h.grow (Para.copymedia_touch e).grow) (fun p hp => hc p (by simp [hp]))
    exact ⟨w2, d' :: cs', by simp [copyParas, e, e2]⟩

theorem copyCells_ok : ∀ {cs : List Cell} {w : World}, Mid ws to t0 w →
    (∀ c ∈ cs, ∀ p ∈ c.paras, p.Copyable ws to) → ∃ w1 cs', copyCells w to cs = .ok (w1, cs') := by
  intro cs
  induction cs with
  | nil => intro w _ _; exact ⟨_, _, rfl⟩
  | cons c cs ih =>
    intro w h hc
    obtain ⟨w1, d', e⟩ := copyParas_ok h0 h (hc c (by simp))
    obtain ⟨w2, cs', e2⟩ := ih (h.grow (copyParas_touch e).grow) (fun p hp => hc p (by simp [hp]))
    exact ⟨w2, { c with paras := d', file := some to } :: cs', by simp [copyCells, e, e2]⟩

theorem copyRows_ok : ∀ {cs : List Row} {w : World}, Mid ws to t0 w →
    (∀ r ∈ cs, ∀ c ∈ r.cells, ∀ p ∈ c.paras, p.Copyable ws to) →
    ∃ w1 cs', copyRows w to cs = .ok (w1, cs') := by
  intro cs
  induction cs with
  | nil => intro w _ _; exact ⟨_, _, rfl⟩
  | cons c cs ih =>
    intro w h hc
    obtain ⟨w1, d', e⟩ := copyCells_ok h0 h (hc c (by simp))
    obtain ⟨w2, cs', e2⟩ := ih (h.grow (copyCells_touch e).grow) (fun p hp => hc p (by simp [hp]))
    exact ⟨w2, { c with cells := d' } :: cs', by simp [copyRows, e, e2]⟩

theorem Table.copymedia_ok {w : World} (h : Mid ws to t0 w) {t : Table}
    (hc : ∀ p ∈ (BItem.table t).paras, p.Copyable ws to) : ∃ w1 t', t.copymedia w to = .ok (w1, t') := by
  have : ∀ r ∈ t.rows, ∀ c ∈ r.cells, ∀ p ∈ c.paras, p.Copyable ws to := by
    intro r hr c hc' p hp
    apply hc
    simp only [BItem.paras, List.mem_flatMap]
    exact ⟨r, hr, c, hc', hp⟩
  obtain ⟨w1, cs, e⟩ := copyRows_ok h0 h this
  exact ⟨w1, { t with rows := cs }, by simp [Table.copymedia, e]⟩

theorem BItem.copymedia_ok {w : World} (h : Mid ws to t0 w) {x : BItem}
    (hc : ∀ p ∈ x.paras, p.Copyable ws to) : ∃ w1 x', x.copymedia w to = .ok (w1, x') := by
  cases x with
  | para p =>
    obtain ⟨w1, p', e⟩ := Para.copymedia_ok h0 h (hc p (by simp [BItem.paras]))
    exact ⟨w1, .para p', by simp [BItem.copymedia, e]⟩
  | table t =>
    obtain ⟨w1, t', e⟩ := Table.copymedia_ok h0 h hc
    exact ⟨w1, .table t', by simp [BItem.copymedia, e]⟩
  | sect s => exact ⟨w, .sect s, rfl⟩

theorem appendItems_ok : ∀ {xs : List BItem} {w : World}, Mid ws to t0 w →
    (∀ x ∈ xs, ∀ p ∈ x.paras, p.Copyable ws to) → ∃ w', appendItems w to xs = .ok w' := by
  intro xs
  induction xs with
  | nil => intro w _ _; exact ⟨_, rfl⟩
  | cons x xs ih =>
    intro w h hc
    obtain ⟨w1, x', e⟩ := BItem.copymedia_ok h0 h (hc x (by simp))
    obtain ⟨w2, e2⟩ := ih ((h.grow (BItem.copymedia_touch e).grow).grow (Grow.push w1 to x'))
      (fun y hy => hc y (by simp [hy]))
    exact ⟨w2, by simp [appendItems, e, e2]⟩

theorem splitFill_ok {sep : World → Para → Res Bool} (hn : ws.length ≤ to) :
    ∀ {xs : List BItem} {w : World} {cnt : Nat}, Mid ws to t0 w →
    (∀ x ∈ xs, ∀ p ∈ x.paras, p.Copyable ws to) →
    (∀ p, .para p ∈ xs → ∀ w1, Keeps ws w1 → ∃ b, sep w1 p = .ok b) →
    ∃ w' left, splitFill sep to w cnt xs = .ok (w', left) := by
  intro xs
  induction xs with
  | nil => intro w cnt _ _ _; exact ⟨_, _, rfl⟩
  | cons x xs ih =>
    intro w cnt h hc hs
    have ih' := fun {w} {cnt} (h : Mid ws to t0 w) => ih (w := w) (cnt := cnt) h
      (fun y hy => hc y (by simp [hy])) (fun p hp => hs p (by simp [hp]))
    cases x with
    | para p =>
      obtain ⟨b, hb⟩ := hs p (by simp) w (h.after.keeps hn)
      simp only [splitFill, hb, Res.bind_ok]
      split
      · exact ⟨_, _, rfl⟩
      · obtain ⟨w1, p', e⟩ := Para.copymedia_ok h0 h (hc (.para p) (by simp) p (by simp [BItem.paras]))
        simp only [e, Res.bind_ok]
        exact ih' ((h.grow (Para.copymedia_touch e).grow).grow (Grow.push w1 to _))
    | table t =>
      obtain ⟨w1, t', e⟩ := Table.copymedia_ok h0 h (hc (.table t) (by simp))
      simp only [splitFill, e, Res.bind_ok]
      exact ih' ((h.grow (Table.copymedia_touch e).grow).grow (Grow.push w1 to _))
    | sect s =>
      simp only [splitFill]
      exact ih' (h.grow (Grow.push w to _))

end

theorem splitDoc_safe (f : Doc) (name : String) : (splitDoc f).getMedia name ≠ .panic := by
  simp [splitDoc, Doc.getMedia]

theorem splitLoop_ok {sep : World → Para → Res Bool} {f : Doc} {w0 : World} :
    ∀ {n : Nat} {w : World} {docs : List DocId} {items : List BItem},
    items.length < n → Keeps w0 w → w0.length ≤ w.length → MediaSafe w →
    (∀ nd, w0.length ≤ nd → ∀ x ∈ items, ∀ p ∈ x.paras, p.Copyable w0 nd) →
    (∀ p, .para p ∈ items → ∀ w1, Keeps w0 w1 → ∃ b, sep w1 p = .ok b) →
    ∃ w' docs', splitLoop sep f n w docs items = .ok (w', docs') := by
  intro n
  induction n with
  | zero => intro w docs items h; omega
  | succ n ih =>
    intro w docs items hlt hk hlen hsafe hc hs
    cases items with
    | nil => exact ⟨_, _, rfl⟩
    | cons i is =>
      have hnd : (w ++ [splitDoc f])[w.length]? = some (splitDoc f) := by simp
      have hout : ∀ t, w0[w.length]? = some t → t = splitDoc f := by
        intro t ht; have := lt_of_getElem? ht; omega
      have hP : After w0 w.length (splitDoc f) (w ++ [splitDoc f]) := by
        refine ⟨⟨_, hnd, .refl _⟩, ?_⟩
        intro d g hd hg
        have := hk d g hg
        rw [List.getElem?_append_left (lt_of_getElem? this)]; exact this
      have hS : MediaSafe (w ++ [splitDoc f]) := by
        intro d g hg
        rcases Nat.lt_or_ge d w.length with hd | hd
        · rw [List.getElem?_append_left hd] at hg; exact hsafe d g hg
        · rw [List.getElem?_append_right hd] at hg
          cases hk' : d - w.length with
          | zero => rw [hk'] at hg; simp at hg; subst hg; exact splitDoc_safe f
          | succ k => rw [hk'] at hg; simp at hg
      have hM : Mid w0 w.length (splitDoc f) (w ++ [splitDoc f]) := ⟨hP, hS⟩
      obtain ⟨w1, left, e⟩ := splitFill_ok hout hlen (sep := sep) (cnt := 0) hM (hc w.length hlen) hs
      simp only [splitLoop, e, Res.bind_ok]
      cases left with
      | none => exact ⟨_, _, rfl⟩
      | some rest =>
        have hg := splitFill_grow e
        obtain ⟨t1, taken, copies, a1, a2, a3, a4, a5, a6, a7⟩ :=
          splitFill_copied (shape_obeys hout) e hnd hP trivial
        have hne : taken ≠ [] := a7 rfl (by simp)
        simp only [Option.getD_some] at a4
        have hl : taken.length ≠ 0 := fun h => hne (List.eq_nil_of_length_eq_zero h)
        have hlen2 := congrArg List.length a4
        simp only [List.length_cons, List.length_append] at hlen2
        simp only [List.length_cons] at hlt
        have hk1 : Keeps w0 w1 := (hP.fwd hg).keeps hlen
        refine ih (by omega) hk1 (by rw [hg.len]; simp; omega) (hS.grow hg) ?_ ?_
        · intro nd h1 x hx; exact hc nd h1 x (by rw [a4]; simp [hx])
        · intro p hp; exact hs p (by rw [a4]; simp [hp])

end Docx
