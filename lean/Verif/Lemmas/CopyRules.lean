import Verif.Lemmas.Copy
import Verif.Props.Ids

/-!
# What copies refer to
-/

namespace Docx

/-- A media entry stays found as long as its name is not generated again. -/
theorem lookup_stays {f g : Doc} (h : Evo f g) (name : String) (m : Media)
    (hn : ∀ n fmt, f.imageID < n → name ≠ imageName n fmt)
    (hm : f.getMedia name = .ok (some m))
    (hroom : f.imageID.toNat + (g.media.length - f.media.length) < 2 ^ 64) :
    g.getMedia name = .ok (some m) := by
  induction h with
  | refl => exact hm
  | items l _ ih => exact ih hroom
  | template t l tf _ ih => exact ih hroom
  | docID _ ih => exact ih hroom
  | incID n _ ih => exact ih hroom
  | link l _ ih => exact ih hroom
  | @image g fmt' d hfg ih =>
    have hlen : (g.addImage fmt' d).1.media.length = g.media.length + 1 := by
      simp [Doc.addImage, Doc.addMedia, Doc.addImageRelation]
    obtain ⟨ext, h1, h2, _⟩ := hfg.media
    have hge : g.media.length - f.media.length = ext.length := by rw [h1]; simp
    have hle : f.media.length ≤ g.media.length := by rw [h1]; simp
    have ih := ih (by omega)
    have hne : name ≠ imageName (g.imageID + 1) fmt' := by
      apply hn
      rw [UInt64.lt_iff_toNat_lt, h2, ofNat_succ_add, UInt64.toNat_add, UInt64.toNat_ofNat']
      omega
    unfold Doc.getMedia at ih ⊢
    simp only [Doc.addImage, Doc.addMedia, Doc.addImageRelation, upd, if_neg hne]
    split at ih
    · simp at ih
    · rename_i i hi
      split at ih
      · rename_i m' hm'
        have hl := lt_of_getElem? hm'
        rw [List.getElem?_append_left hl, hm']
        exact ih
      · simp at ih

/-- Worlds after the start of copying into `to`. -/
def After (ws : World) (to : DocId) (t0 : Doc) (w : World) : Prop :=
  (∃ t, w[to]? = some t ∧ Evo t0 t) ∧ ∀ d f, d ≠ to → ws[d]? = some f → w[d]? = some f

/-- Worlds before the end of copying into `to`. -/
def Before (to : DocId) (t' : Doc) (w : World) : Prop := ∃ t, w[to]? = some t ∧ Evo t t'

theorem After.fwd {ws to t0 w w1} (g : Grow to w w1) (h : After ws to t0 w) : After ws to t0 w1 := by
  obtain ⟨⟨t, ht, e⟩, ho⟩ := h
  obtain ⟨t1, ht1, e1⟩ := g.evo t ht
  exact ⟨⟨t1, ht1, e.trans e1⟩, fun d f hd hf => (g.other d hd).trans (ho d f hd hf)⟩

theorem Before.bwd {to t' w w1} (g : Grow to w w1) (h : Before to t' w1) : Before to t' w := by
  obtain ⟨t1, ht1, e⟩ := h
  have hl : to < w.length := by rw [← g.len]; exact lt_of_getElem? ht1
  obtain ⟨t2, ht2, e2⟩ := g.evo w[to] (by simp [hl])
  rw [ht1] at ht2; obtain rfl := Option.some.inj ht2
  exact ⟨w[to], by simp [hl], e2.trans e⟩

/-- An id that resolved at the start still does. -/
theorem After.resolve {ws : World} {to : DocId} {t0 : Doc} (h0 : ∀ t, ws[to]? = some t → t = t0) {w : World}
    (h : After ws to t0 w) {file : Option DocId} {id tgt : String}
    (hr : ws.resolve file id = some tgt) : w.resolve file id = some tgt := by
  cases file with
  | none => simp [World.resolve] at hr
  | some i =>
    by_cases hi : i = to
    · subst hi
      obtain ⟨⟨t, ht, e⟩, _⟩ := h
      simp only [World.resolve] at hr
      split at hr
      · simp at hr
      · rename_i f hf
        rw [resolve_some ht]
        rw [h0 f hf] at hr
        exact e.resolves hr
    · simp only [World.resolve] at hr
      split at hr
      · simp at hr
      · rename_i f hf
        rw [resolve_some (h.2 i f hi hf)]; exact hr

theorem bind_resolve {w : World} {file : Option DocId} {src : Doc}
    (h : file.bind (w[·]?) = some src) (id : String) : w.resolve file id = src.referTarget id := by
  cases file with
  | none => simp at h
  | some i => simp only [Option.bind_some] at h; rw [resolve_some h]

theorem shape_obeys {ws : World} {to : DocId} {t0 : Doc} (h0 : ∀ t, ws[to]? = some t → t = t0) :
    Obeys (shapeRules ws) to (After ws to t0) (fun _ => True) where
  fwd := After.fwd
  bwd := fun _ _ => trivial
  draw := fun _ _ _ => trivial
  link := fun _ _ _ _ _ => trivial
  drop := by
    intro w file id src hP _ hs hr
    cases hn : ws.resolve file id with
    | none => exact hn
    | some tgt =>
      have := hP.resolve h0 hn
      rw [bind_resolve hs, hr] at this
      simp at this

theorem Evo.rels_le {f g : Doc} (h : Evo f g) : f.rels.length ≤ g.rels.length := by
  obtain ⟨ext, h1, _⟩ := h.rels; rw [h1]; simp

theorem Evo.media_le {f g : Doc} (h : Evo f g) : f.media.length ≤ g.media.length := by
  obtain ⟨ext, h1, _⟩ := h.media; rw [h1]; simp

/-- Between start and end the counter of relationship ids is ahead and not at its maximum. -/
theorem mid_ahead {t0 t t1 t' : Doc} (ha : Ahead t0) (hr : Room t0 t') (e0 : Evo t0 t)
    (e1 : Evo t1 t') (hl : t1.rels.length = t.rels.length + 1) :
    ∀ r ∈ t.rels, r.id ≠ ridOf (t.rID + 1) := by
  have h0 := e0.rels_le
  have h1 := e1.rels_le
  have hR := hr.rels
  obtain ⟨ha', hid⟩ := e0.ahead ha (by omega)
  intro r hm
  refine ha' (t.rID + 1) ?_ r hm
  rw [UInt64.lt_iff_toNat_lt, UInt64.toNat_add, hid]
  simp only [UInt64.toNat_one]
  omega

theorem link_obeys {ws : World} {to : DocId} {t0 t' : Doc} (h0 : ∀ t, ws[to]? = some t → t = t0) (ha : Ahead t0)
    (hr : Room t0 t') : Obeys (linkRules ws t') to (After ws to t0) (Before to t') where
  fwd := After.fwd
  bwd := Before.bwd
  draw := fun _ _ _ => trivial
  link := by
    intro w file id tgt src t hP hs hres ht hF
    have hP2 := hP
    obtain ⟨⟨t2, ht2, e0⟩, _⟩ := hP2
    rw [ht] at ht2; obtain rfl := Option.some.inj ht2
    obtain ⟨t1, ht1, e1⟩ := hF
    rw [List.getElem?_set_self (lt_of_getElem? ht)] at ht1
    obtain rfl := Option.some.inj ht1
    refine ⟨tgt, ?_, ?_⟩
    · apply e1.resolves
      exact referTarget_fresh (mid_ahead ha hr e0 e1 (by simp [Doc.addLinkRelation])) _ rfl
    · intro tgt0 h
      have := hP.resolve h0 h
      rw [bind_resolve hs, hres] at this
      exact Option.some.inj this
  drop := fun hP _ hs hres => (shape_obeys h0).drop hP trivial hs hres

theorem Evo.idxOK_getMedia {f : Doc} (hf : MediaFound f) {name : String} {m : Media}
    (h : f.getMedia name = .ok (some m)) : m ∈ f.media ∧ m.name = name := by
  rw [hf name] at h
  simp only [Res.ok.injEq] at h
  have h1 := List.mem_of_find?_eq_some h
  have h2 := List.find?_some h
  exact ⟨by simpa using h1, by simpa using h2⟩

/-- A picture that could be found at the start still can. -/
theorem After.picture {ws : World} {to : DocId} {t0 t' : Doc} (h0 : ∀ t, ws[to]? = some t → t = t0)
    (hr : Room t0 t') {w : World} (h : After ws to t0 w) (hF : Before to t' w) {file : Option DocId}
    {id : String} {data : Bytes} (hp : HasPicture ws file id data)
    (hs : file = some to → NamesAhead t0 ∧ MediaFound t0) : HasPicture w file id data := by
  obtain ⟨i, f, pre, name, m, rfl, hf, h1, h2, h3, h4⟩ := hp
  by_cases hi : i = to
  · subst hi
    obtain ⟨hn, hfd⟩ := hs rfl
    obtain ⟨⟨t, ht, e⟩, _⟩ := h
    obtain ⟨t2, ht2, e2⟩ := hF
    rw [ht] at ht2; obtain rfl := Option.some.inj ht2
    obtain rfl := h0 f hf
    refine ⟨i, t, pre, name, m, rfl, ht, e.resolves h1, h2, ?_, h4⟩
    have hR := hr.media
    have l1 := e.media_le
    have l2 := e2.media_le
    refine lookup_stays e name m ?_ h3 (by omega)
    intro n fmt hgt hne
    obtain ⟨hm, rfl⟩ := Evo.idxOK_getMedia hfd h3
    exact hn m hm n fmt hgt hne
  · exact ⟨i, f, pre, name, m, rfl, h.2 i f hi hf, h1, h2, h3, h4⟩

theorem copyPic_kept {ws : World} {to : DocId} {t0 t' : Doc} (h0 : ∀ t, ws[to]? = some t → t = t0) (ha : Ahead t0)
    (hr : Room t0 t') {w w1 : World} {file : Option DocId} {pic : Picture} {c : Option PicCopy}
    {bf : BlipFill} {data : Bytes} (h : copyPic w to file pic = .ok (w1, c)) (hP : After ws to t0 w)
    (hF : Before to t' w1) (hb : pic.blipFill = some bf) (hp : HasPicture ws file bf.blip.embed data)
    (hs : file = some to → NamesAhead t0 ∧ MediaFound t0) :
    ∃ c0 bf', c = some c0 ∧ SamePicture pic c0.pic ∧ c0.pic.blipFill = some bf' ∧
      ServesPicture t' bf'.blip.embed data := by
  have hF0 : Before to t' w := hF.bwd (copyPic_touch h).grow
  have hp' := hP.picture h0 hr hF0 hp hs
  obtain ⟨i, f, pre, name, m, rfl, hf, h1, h2, h3, h4⟩ := hp'
  have hP2 := hP
  obtain ⟨⟨t, ht, e0⟩, _⟩ := hP2
  unfold copyPic at h
  simp only [hb, Option.bind_some, hf, h1, ht] at h
  have hl := lt_of_getElem? ht
  -- the source document after drawing ids were taken
  have hsrc : ∃ f2, (w.set to ((t.nextDocID.1).increaseID picName).1)[i]? = some f2 ∧
      f2.getMedia name = .ok (some m) := by
    by_cases hi : i = to
    · subst hi
      rw [ht] at hf; obtain rfl := Option.some.inj hf
      exact ⟨_, List.getElem?_set_self hl, h3⟩
    · exact ⟨f, by rw [List.getElem?_set_ne (Ne.symm hi)]; exact hf, h3⟩
  obtain ⟨f2, hf2, h3'⟩ := hsrc
  rw [hf2] at h
  simp only [mediaOfTarget_some.2 ⟨pre, name, rfl, h2, h3'⟩] at h
  split at h
  · simp at h
  · rename_i nv hnv
    simp only [Res.ok.injEq, Prod.mk.injEq] at h
    obtain ⟨rfl, rfl⟩ := h
    obtain ⟨t3, ht3, e3⟩ := hF
    rw [List.set_set, List.getElem?_set_self hl] at ht3
    obtain rfl := Option.some.inj ht3
    refine ⟨_, _, rfl, ⟨rfl, rfl, bf, _, hb, rfl, rfl, rfl, rfl, nv, _, hnv, rfl, rfl⟩, rfl, ?_⟩
    have e2 : Evo t0 ((t.nextDocID.1).increaseID picName).1 := .incID _ (.docID e0)
    have hid : ∀ r ∈ ((t.nextDocID.1).increaseID picName).1.rels,
        r.id ≠ ridOf (((t.nextDocID.1).increaseID picName).1.rID + 1) :=
      mid_ahead ha hr e2 e3 (by simp [Doc.addImage, Doc.addMedia, Doc.addImageRelation])
    obtain ⟨a, b⟩ := addImage_serves hid (formatOf (pre ++ name)) m.data
    refine ⟨_, _, e3.resolves a, media_stays e3 _ _ _ (UInt64.le_refl _) b ?_, h4⟩
    have hR := hr.media
    have l2 := e3.media_le
    obtain ⟨ext, m1, m2, _⟩ := e2.media
    have hl1 : ((t.nextDocID.1).increaseID picName).1.media.length = t0.media.length + ext.length := by
      rw [m1]; simp
    have hl2 : ∀ g : Doc, ∀ fmt d, (g.addImage fmt d).1.media.length = g.media.length + 1 := by
      intro g fmt d; simp [Doc.addImage, Doc.addMedia, Doc.addImageRelation]
    have hl3 : ∀ g : Doc, ∀ fmt d, (g.addImage fmt d).1.imageID = g.imageID + 1 := by
      intro g fmt d; simp [Doc.addImage, Doc.addMedia, Doc.addImageRelation]
    rw [hl2] at l2 ⊢
    rw [hl3, m2, ofNat_succ_add, UInt64.toNat_add, UInt64.toNat_ofNat']
    omega

theorem picture_obeys {ws : World} {to : DocId} {t0 t' : Doc} (h0 : ∀ t, ws[to]? = some t → t = t0) (ha : Ahead t0)
    (hr : Room t0 t') : Obeys (pictureRules ws to t0 t') to (After ws to t0) (Before to t') where
  fwd := After.fwd
  bwd := Before.bwd
  link := fun _ _ _ _ _ => trivial
  drop := fun hP _ hs hres => (shape_obeys h0).drop hP trivial hs hres
  draw := by
    intro w w1 d d' h hP hF
    refine ⟨?_, ?_, ?_, ?_, ?_⟩
    · rintro i g data hi hg ⟨gd, pic, bf, hgd, hpic, hb, hp⟩ hs
      simp only [Drawing.copymedia, hi] at h
      obtain ⟨⟨w2, i'⟩, h1, h2⟩ := Res.bind_eq_ok.1 h
      simp only [Res.pure_eq, Res.ok.injEq, Prod.mk.injEq] at h2
      obtain ⟨rfl, rfl⟩ := h2
      simp only [Inline.copymedia, hg, hgd, hpic] at h1
      obtain ⟨⟨w3, c⟩, h3, h4⟩ := Res.bind_eq_ok.1 h1
      simp only at h4
      obtain ⟨c0, bf', rfl, a1, a2, a3⟩ : ∃ c0 bf', c = some c0 ∧ SamePicture pic c0.pic ∧
          c0.pic.blipFill = some bf' ∧ ServesPicture t' bf'.blip.embed data := by
        refine copyPic_kept h0 ha hr h3 hP ?_ hb hp hs
        cases c <;> simp at h4 <;> (rw [h4.1]; exact hF)
      simp only [Res.pure_eq, Res.ok.injEq, Prod.mk.injEq] at h4
      obtain ⟨rfl, rfl⟩ := h4
      exact ⟨_, _, rfl, gd, pic, c0.pic, bf', hgd, hpic, rfl, a1, a2, a3⟩
    · rintro i g data hi0 hi hg ⟨gd, pic, bf, hgd, hpic, hb, hp⟩ hs
      simp only [Drawing.copymedia, hi0, hi] at h
      obtain ⟨⟨w2, i'⟩, h1, h2⟩ := Res.bind_eq_ok.1 h
      simp only [Res.pure_eq, Res.ok.injEq, Prod.mk.injEq] at h2
      obtain ⟨rfl, rfl⟩ := h2
      simp only [Anchor.copymedia, hg, hgd, hpic] at h1
      obtain ⟨⟨w3, c⟩, h3, h4⟩ := Res.bind_eq_ok.1 h1
      simp only at h4
      obtain ⟨c0, bf', rfl, a1, a2, a3⟩ : ∃ c0 bf', c = some c0 ∧ SamePicture pic c0.pic ∧
          c0.pic.blipFill = some bf' ∧ ServesPicture t' bf'.blip.embed data := by
        refine copyPic_kept h0 ha hr h3 hP ?_ hb hp hs
        cases c <;> simp at h4 <;> (rw [h4.1]; exact hF)
      simp only [Res.pure_eq, Res.ok.injEq, Prod.mk.injEq] at h4
      obtain ⟨rfl, rfl⟩ := h4
      exact ⟨_, _, rfl, gd, pic, c0.pic, bf', hgd, hpic, rfl, a1, a2, a3⟩
    · rintro i g hi hg ⟨gd, hgd, hpic, hsh⟩
      simp only [Drawing.copymedia, hi, Inline.copymedia, hg, hgd, hpic] at h
      cases hs : gd.shape with
      | some s => simp [hs] at h; exact h.2.symm
      | none =>
        cases hc : gd.canvas with
        | some s => simp [hs, hc] at h; exact h.2.symm
        | none => simp [hs, hc] at hsh
    · rintro i g hi0 hi hg ⟨gd, hgd, hpic, hsh⟩
      simp only [Drawing.copymedia, hi0, hi, Anchor.copymedia, hg, hgd, hpic] at h
      cases hs : gd.shape with
      | some s => simp [hs] at h; exact h.2.symm
      | none =>
        cases hc : gd.canvas with
        | some s => simp [hs, hc] at h; exact h.2.symm
        | none => simp [hs, hc] at hsh
    · intro hi0 hi
      simp only [Drawing.copymedia, hi0, hi, Res.ok.injEq, Prod.mk.injEq] at h
      exact h.2.symm

end Docx
