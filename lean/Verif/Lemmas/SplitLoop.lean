import Verif.Lemmas.CopyRules

/-!
# The outer loop of SplitByParagraph
-/

namespace Docx

theorem Each.length_eq {α β : Type} {R : α → β → Prop} {as bs} (h : Each R as bs) :
    as.length = bs.length := by
  induction h with
  | nil => rfl
  | cons _ _ ih => simp [ih]

theorem Each.mono {α β : Type} {R S : α → β → Prop} (hRS : ∀ a b, R a b → S a b) {as bs}
    (h : Each R as bs) : Each S as bs := by
  induction h with
  | nil => exact .nil
  | cons h _ ih => exact .cons (hRS _ _ h) ih

theorem Each.mono_mem {α β : Type} {R S : α → β → Prop} {as bs}
    (h : Each R as bs) : (∀ a ∈ as, ∀ b, R a b → S a b) → Each S as bs := by
  induction h with
  | nil => intro _; exact .nil
  | cons h _ ih =>
    intro hRS
    exact .cons (hRS _ (by simp) _ h) (ih fun a ha => hRS a (by simp [ha]))

theorem Each.of_mem {α β : Type} {R : α → β → Prop} {as bs} (h : Each R as bs) {a : α} :
    a ∈ as → ∃ b ∈ bs, R a b := by
  induction h with
  | nil => simp
  | cons h _ ih =>
    intro ha
    rcases List.mem_cons.1 ha with rfl | ha
    · exact ⟨_, by simp, h⟩
    · obtain ⟨b, hb, hr⟩ := ih ha
      exact ⟨b, by simp [hb], hr⟩

theorem Keeps.refl (w : World) : Keeps w w := fun _ _ h => h
theorem Keeps.trans {w w' w'' : World} (a : Keeps w w') (b : Keeps w' w'') : Keeps w w'' :=
  fun d f h => b d f (a d f h)

theorem full_obeys {ws : World} {to : DocId} {t0 t' : Doc} (h0 : ∀ t, ws[to]? = some t → t = t0)
    (ha : Ahead t0) (hr : Room t0 t') :
    Obeys (fullRules ws to t0 t') to (After ws to t0) (Before to t') where
  fwd := After.fwd
  bwd := Before.bwd
  draw := (picture_obeys h0 ha hr).draw
  link := (link_obeys h0 ha hr).link
  drop := (link_obeys h0 ha hr).drop

/-- Images come with relationships. -/
theorem Evo.media_rels {f g : Doc} (h : Evo f g) :
    g.media.length - f.media.length ≤ g.rels.length - f.rels.length := by
  induction h with
  | refl => simp
  | items l _ ih => exact ih
  | template t l tf _ ih => exact ih
  | docID _ ih => exact ih
  | incID n _ ih => exact ih
  | link l h ih =>
    have := h.rels_le
    simp only [Doc.addLinkRelation, List.length_append, List.length_cons, List.length_nil]; omega
  | image fmt d h ih =>
    have := h.rels_le
    have := h.media_le
    simp only [Doc.addImage, Doc.addMedia, Doc.addImageRelation, List.length_append,
      List.length_cons, List.length_nil]; omega

theorem split_room {f t' : Doc} (e : Evo (splitDoc f) t') (h : t'.rels.length < 2 ^ 64) :
    Room (splitDoc f) t' := by
  have h1 := e.media_rels
  have h2 := e.rels_le
  have h3 : (splitDoc f).rels.length = 3 := rfl
  have h4 : (splitDoc f).rID.toNat = 3 := rfl
  have h5 : (splitDoc f).imageID.toNat = 0 := rfl
  constructor <;> omega

theorem split_ahead (f : Doc) : Ahead (splitDoc f) := base_ahead (base_split f)

/-- What is known of one document of a split: `w0` is the world before, `w'` the world after,
`chunk` the part of the body and `nd` the address. -/
structure Chunk (sep : World → Para → Res Bool) (f : Doc) (R : DocId → Doc → CopyRules)
    (Good : Doc → Prop) (w0 w' : World) (chunk : List BItem) (nd : DocId) : Prop where
  new : w0.length ≤ nd
  nonempty : chunk ≠ []
  said : ∀ p, .para p ∈ chunk.tail → Said sep (Keeps w0) false (.para p)
  doc : ∃ t', w'[nd]? = some t' ∧ Evo (splitDoc f) t' ∧
    Each (ItemCopied (shapeRules w0) nd) chunk t'.items ∧
    (Good t' → Each (ItemCopied (R nd t') nd) chunk t'.items)

theorem After.keeps {w0 : World} {nd : DocId} {t : Doc} {w : World} (hn : w0.length ≤ nd)
    (h : After w0 nd t w) : Keeps w0 w := by
  intro d f hf
  have := lt_of_getElem? hf
  exact h.2 d f (Nat.ne_of_lt (Nat.lt_of_lt_of_le this hn)) hf

theorem Said.mono {sep P Q b x} (h : ∀ w, P w → Q w) : Said sep P b x → Said sep Q b x := by
  rintro ⟨p, w, e, hw, hs⟩; exact ⟨p, w, e, h w hw, hs⟩

theorem splitLoop_copied {sep : World → Para → Res Bool} {f : Doc} {w0 : World}
    {R : DocId → Doc → CopyRules} {Good : Doc → Prop}
    (hob : ∀ nd t', w0.length ≤ nd → Evo (splitDoc f) t' → Good t' →
      Obeys (R nd t') nd (After w0 nd (splitDoc f)) (Before nd t')) :
    ∀ {n : Nat} {w : World} {docs : List DocId} {items : List BItem} {w' : World} {docs' : List DocId},
    splitLoop sep f n w docs items = .ok (w', docs') → Keeps w0 w → w0.length ≤ w.length →
    ∃ chunks nds, docs' = docs ++ nds ∧ chunks.flatten = items ∧ Keeps w w' ∧
      nds = List.range' w.length nds.length ∧ w'.length = w.length + nds.length ∧
      Each (Chunk sep f R Good w0 w') chunks nds ∧
      (∀ chunk ∈ chunks.tail, ∃ p tl, chunk = .para p :: tl ∧ Said sep (Keeps w0) true (.para p)) := by
  intro n
  induction n with
  | zero => intro w docs items w' docs' h; simp [splitLoop] at h
  | succ n ih =>
    intro w docs items w' docs' h hk hlen
    cases items with
    | nil =>
      simp only [splitLoop, Res.ok.injEq, Prod.mk.injEq] at h
      obtain ⟨rfl, rfl⟩ := h
      exact ⟨[], [], by simp, rfl, .refl _, rfl, by simp, .nil, by simp⟩
    | cons i is =>
      simp only [splitLoop] at h
      obtain ⟨⟨w1, left⟩, h1, h2⟩ := Res.bind_eq_ok.1 h
      simp only at h2
      -- the new document
      have hnd : (w ++ [splitDoc f])[w.length]? = some (splitDoc f) := by simp
      have hout : ∀ t, w0[w.length]? = some t → t = splitDoc f := by
        intro t ht; have := lt_of_getElem? ht; omega
      have hP : After w0 w.length (splitDoc f) (w ++ [splitDoc f]) := by
        refine ⟨⟨_, hnd, .refl _⟩, ?_⟩
        intro d g hd hg
        have := hk d g hg
        rw [List.getElem?_append_left (lt_of_getElem? this)]; exact this
      have hg := splitFill_grow h1
      obtain ⟨t', ht', e'⟩ := hg.evo _ hnd
      have hF : Before w.length t' w1 := ⟨t', ht', .refl _⟩
      obtain ⟨t1, taken, copies, a1, a2, a3, a4, a5, a6, a7⟩ :=
        splitFill_copied (shape_obeys hout) h1 hnd hP trivial
      rw [ht'] at a1; obtain rfl := Option.some.inj a1
      have hitems : t'.items = copies := by simpa [splitDoc] using a2
      have hne : taken ≠ [] := a7 rfl (by simp)
      have hgood : Good t' → Each (ItemCopied (R w.length t') w.length) taken t'.items := by
        intro hG
        obtain ⟨t2, taken2, copies2, b1, b2, b3, b4, _⟩ :=
          splitFill_copied (hob w.length t' hlen e' hG) h1 hnd hP hF
        rw [ht'] at b1; obtain rfl := Option.some.inj b1
        have : copies2 = t'.items := by simpa [splitDoc] using b2.symm
        have : taken2 = taken := List.append_cancel_right (b4.symm.trans a4)
        subst this; rw [b2]; simpa [splitDoc] using b3
      have hchunk : ∀ w2, w2[w.length]? = some t' → Chunk sep f R Good w0 w2 taken w.length := by
        intro w2 hw2
        refine ⟨hlen, hne, ?_, t', hw2, e', by rw [hitems]; exact a3, hgood⟩
        intro p hp
        obtain ⟨k, hk', hkp⟩ := List.getElem_of_mem hp
        have : taken[k + 1]? = some (.para p) := by
          rw [← hkp, ← List.getElem?_tail]; simp
        rcases a6 (k + 1) p this with hs | hs
        · exact hs.mono fun w3 h3 => h3.keeps hlen
        · omega
      have hkeep1 : Keeps w w1 := by
        intro d g hg'
        have hl := lt_of_getElem? hg'
        rw [hg.other d (Nat.ne_of_lt hl), List.getElem?_append_left hl]; exact hg'
      have hlen1 : w1.length = w.length + 1 := by rw [hg.len]; simp
      cases left with
      | none =>
        simp only [Res.pure_eq, Res.ok.injEq, Prod.mk.injEq] at h2
        obtain ⟨rfl, rfl⟩ := h2
        refine ⟨[taken], [w.length], rfl, ?_, hkeep1, rfl, by simp [hlen1],
          .cons (hchunk _ ht') .nil, by simp⟩
        simp at a4; simp [a4]
      | some rest =>
        simp only at h2
        obtain ⟨chunks, nds, c1, c2, c3, c4, c5, c6, c7⟩ :=
          ih h2 (hk.trans hkeep1) (by omega)
        refine ⟨taken :: chunks, w.length :: nds, by simp [c1], ?_, hkeep1.trans c3, ?_, ?_,
          .cons (hchunk _ (c3 _ _ ht')) c6, ?_⟩
        · simp at a4; simp [c2, a4]
        · rw [c4, hlen1]; simp [List.range'_succ]
        · simp [c5, hlen1]; omega
        · intro chunk hc
          simp only [List.tail_cons] at hc
          obtain ⟨p, tl, hr, hs⟩ := a5 rest rfl
          cases chunks with
          | nil => simp at hc
          | cons c0 cs =>
            rcases List.mem_cons.1 hc with rfl | hc
            · cases c6 with
              | cons k _ =>
                have hne' := k.nonempty
                cases chunk with
                | nil => exact absurd rfl hne'
                | cons x xs =>
                  rw [hr] at c2
                  simp only [List.flatten_cons, List.cons_append, List.cons.injEq] at c2
                  exact ⟨p, xs, by rw [c2.1], hs.mono fun w3 h3 => h3.keeps hlen⟩
            · exact c7 chunk (by simpa using hc)

end Docx
