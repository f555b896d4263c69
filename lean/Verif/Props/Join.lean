import Verif.SpecJoin
import Verif.Props.Words

/-!
# C90: the parts of a split, appended one after the other, give the document again
-/

namespace Docx

/-! ## Copies of copies -/

/-- Copies that obey `R1` in the document `nd`, copied again under `R2`, are copies under `R3`. -/
structure Composes (R1 : CopyRules) (nd : DocId) (R2 R3 : CopyRules) : Prop where
  draw : ∀ {d d' d''}, R1.draw d d' → R2.draw d' d'' → R3.draw d d''
  link : ∀ {file id id' id''}, R1.link file id id' → R2.link (some nd) id' id'' → R3.link file id id''
  drop1 : ∀ {file id}, ¬ R1.drop file id
  drop2 : ∀ {file id id'}, R1.link file id id' → ¬ R2.drop (some nd) id'

variable {R1 R2 R3 : CopyRules} {nd to : DocId}

theorem each_comp {α : Type} {P Q S : α → α → Prop} (h : ∀ a b c, P a b → Q b c → S a c) :
    ∀ {as bs cs : List α}, Each P as bs → Each Q bs cs → Each S as cs := by
  intro as bs cs h1
  induction h1 generalizing cs with
  | nil => intro h2; cases h2; exact .nil
  | cons hab _ ih => intro h2; cases h2 with | cons hbc h2 => exact .cons (h _ _ _ hab hbc) (ih h2)

theorem rchild_comp (H : Composes R1 nd R2 R3) (a b c : RChild) (h1 : RChildCopied R1 a b)
    (h2 : RChildCopied R2 b c) : RChildCopied R3 a c := by
  cases a with
  | drawing d =>
    obtain ⟨d', rfl, h1⟩ := h1
    obtain ⟨d'', rfl, h2⟩ := h2
    exact ⟨d'', rfl, H.draw h1 h2⟩
  | text t => have e : b = .text t := h1; subst e; exact h2
  | tab t => have e : b = .tab t := h1; subst e; exact h2
  | br t => have e : b = .br t := h1; subst e; exact h2

theorem run_comp (H : Composes R1 nd R2 R3) {a b c : Run} (h1 : RunCopied R1 a b)
    (h2 : RunCopied R2 b c) : RunCopied R3 a c :=
  ⟨h2.1.trans h1.1, h2.2.1.trans h1.2.1, h2.2.2.1.trans h1.2.2.1,
    each_comp (rchild_comp H) h1.2.2.2 h2.2.2.2⟩

theorem children_comp (H : Composes R1 nd R2 R3) {file : Option DocId} {a b c : List PChild}
    (h1 : ChildrenCopied R1 file a b) (h2 : ChildrenCopied R2 (some nd) b c) : ChildrenCopied R3 file a c := by
  induction h1 generalizing c with
  | nil => cases h2; exact .nil
  | run hr _ ih => cases h2 with | run hr' h2 => exact .run (run_comp H hr hr') (ih h2)
  | link hl hr _ ih =>
    cases h2 with
    | link hl' hr' h2 => exact .link (H.link hl hl') (run_comp H hr hr') (ih h2)
    | dropped hd h2 => exact (H.drop2 hl hd).elim
  | dropped hd _ _ => exact (H.drop1 hd).elim
  | rpr _ ih => cases h2 with | rpr h2 => exact .rpr (ih h2)

theorem para_comp (H : Composes R1 nd R2 R3) (a b c : Para) (h1 : ParaCopied R1 nd a b)
    (h2 : ParaCopied R2 to b c) : ParaCopied R3 to a c := by
  refine ⟨h2.1.trans h1.1, h2.2.1, children_comp H h1.2.2 ?_⟩
  have := h2.2.2
  rwa [h1.2.1] at this

theorem item_comp (H : Composes R1 nd R2 R3) (a b c : BItem) (h1 : ItemCopied R1 nd a b)
    (h2 : ItemCopied R2 to b c) : ItemCopied R3 to a c := by
  cases a with
  | para p =>
    obtain ⟨p', rfl, h1⟩ := h1
    obtain ⟨p'', rfl, h2⟩ := h2
    exact ⟨p'', rfl, para_comp H _ _ _ h1 h2⟩
  | sect s => have e : b = .sect s := h1; subst e; exact h2
  | table t =>
    obtain ⟨t', rfl, h1⟩ := h1
    obtain ⟨t'', rfl, h2⟩ := h2
    refine ⟨t'', rfl, h2.1.trans h1.1, h2.2.1.trans h1.2.1, each_comp ?_ h1.2.2 h2.2.2⟩
    intro r r' r'' k1 k2
    refine ⟨k2.1.trans k1.1, each_comp ?_ k1.2 k2.2⟩
    intro c c' c'' l1 l2
    exact ⟨l2.1.trans l1.1, l2.2.1, each_comp (para_comp H) l1.2.2 l2.2.2⟩

/-! ## Weaker rules -/

/-- The rules `R` of a copy of a paragraph whose links all resolve in `w` give the rules `R'`. -/
structure Gives (w : World) (R R' : CopyRules) : Prop where
  draw : ∀ {d d'}, R.draw d d' → R'.draw d d'
  link : ∀ {file id id'}, w.resolve file id ≠ none → R.link file id id' → R'.link file id id'
  drop : ∀ {file id}, w.resolve file id ≠ none → ¬ R.drop file id

variable {w : World} {R R' : CopyRules}

theorem run_gives (H : Gives w R R') {a b : Run} (h : RunCopied R a b) : RunCopied R' a b := by
  refine ⟨h.1, h.2.1, h.2.2.1, h.2.2.2.mono ?_⟩
  intro x y hxy
  cases x with
  | drawing d => obtain ⟨d', rfl, h⟩ := hxy; exact ⟨d', rfl, H.draw h⟩
  | text t => exact hxy
  | tab t => exact hxy
  | br t => exact hxy

theorem para_gives (H : Gives w R R') {p p' : Para} (hl : p.Linked w) (h : ParaCopied R to p p') :
    ParaCopied R' to p p' := by
  refine ⟨h.1, h.2.1, ?_⟩
  have hc := h.2.2
  unfold Para.Linked at hl
  generalize p.children = cs at *
  generalize p'.children = cs' at *
  induction hc with
  | nil => exact .nil
  | run hr _ ih => exact .run (run_gives H hr) (ih fun h hm => hl h (by simp [hm]))
  | link hi hr _ ih =>
    exact .link (H.link (hl _ (by simp)) hi) (run_gives H hr) (ih fun h hm => hl h (by simp [hm]))
  | dropped hd _ _ => exact (H.drop (hl _ (by simp)) hd).elim
  | rpr _ ih => exact .rpr (ih fun h hm => hl h (by simp [hm]))

theorem item_gives (H : Gives w R R') {x x' : BItem} (hl : ∀ p ∈ x.paras, p.Linked w)
    (h : ItemCopied R to x x') : ItemCopied R' to x x' := by
  cases x with
  | para p =>
    obtain ⟨p', rfl, h⟩ := h
    exact ⟨p', rfl, para_gives H (hl p (by simp [BItem.paras])) h⟩
  | sect s => exact h
  | table t =>
    obtain ⟨t', rfl, h⟩ := h
    refine ⟨t', rfl, h.1, h.2.1, h.2.2.mono_mem ?_⟩
    intro r hr r' k
    refine ⟨k.1, k.2.mono_mem ?_⟩
    intro c hc c' l
    refine ⟨l.1, l.2.1, l.2.2.mono_mem ?_⟩
    intro p hp p' hpp
    refine para_gives H (hl p ?_) hpp
    simp only [BItem.paras, List.mem_flatMap]
    exact ⟨r, hr, c, hc, hp⟩

/-! ## Pictures -/

theorem serves_has {w' : World} {t' : Doc} {id : String} {data : Bytes} (ht : w'[to]? = some t')
    (h : ServesPicture t' id data) : HasPicture w' (some to) id data := by
  obtain ⟨name, m, h1, h2, h3⟩ := h
  exact ⟨to, t', "media/", name, m, rfl, ht, h1, by decide, h2, h3⟩

theorem kept_shows {w' : World} {t' : Doc} {g g' : Graphic} {data : Bytes} (ht : w'[to]? = some t')
    (h : PictureKept t' g g' data) : ShowsPicture w' (some to) g' data := by
  obtain ⟨gd, pic, pic', bf', _, _, rfl, _, h5, h6⟩ := h
  exact ⟨_, pic', bf', rfl, rfl, h5, serves_has ht h6⟩

/-- What `w` shows and resolves, `v` does too; the document `to` shows nothing in `w`. -/
structure Continues (w v : World) (to : DocId) : Prop where
  resolves : ∀ {file id tgt}, w.resolve file id = some tgt → v.resolve file id = some tgt
  shows : ∀ {file id data}, HasPicture w file id data → HasPicture v file id data ∧ file ≠ some to

theorem full_gives {v w' : World} {t T : Doc} (hc : Continues w v to) (hT : w'[to]? = some T) :
    Gives w (fullRules v to t T) (sameRules w w' to) where
  draw := by
    intro d d' h data hs
    obtain ⟨h1, h2, _⟩ := h
    rcases hs with ⟨i, g, hi, hg, gd, pic, bf, e1, e2, e3, hp⟩ | ⟨a, g, hi, ha, hg, gd, pic, bf, e1, e2, e3, hp⟩
    · obtain ⟨hp', hne⟩ := hc.shows hp
      obtain ⟨dp, g', rfl, hk⟩ := h1 i g data hi hg ⟨gd, pic, bf, e1, e2, e3, hp'⟩ (fun e => (hne e).elim)
      exact ⟨.inl ⟨_, g', rfl, rfl, kept_shows hT hk⟩, fun _ e => (by cases e; rfl), fun _ e => (by cases e)⟩
    · obtain ⟨hp', hne⟩ := hc.shows hp
      obtain ⟨dp, g', rfl, hk⟩ := h2 a g data hi ha hg ⟨gd, pic, bf, e1, e2, e3, hp'⟩ (fun e => (hne e).elim)
      exact ⟨.inr ⟨_, g', rfl, rfl, rfl, kept_shows hT hk⟩, fun _ e => (by cases e), fun _ e => (by cases e; rfl)⟩
  link := by
    intro file id id' hl h
    obtain ⟨tgt0, h0⟩ := Option.ne_none_iff_exists'.1 hl
    obtain ⟨tgt, h1, h2⟩ := h
    refine ⟨tgt0, h0, ?_⟩
    rw [resolve_some hT, h1, h2 tgt0 (hc.resolves h0)]
  drop := by
    intro file id hl h
    obtain ⟨tgt0, h0⟩ := Option.ne_none_iff_exists'.1 hl
    have h1 := hc.resolves h0
    have h2 : v.resolve file id = none := h
    rw [h2] at h1; cases h1

/-! ## Appending several documents -/

theorem appendEach_grow : ∀ {ds : List DocId} {w w' : World}, w.appendEach to ds = .ok w' → Grow to w w'
  | [], w, w', h => by
    simp only [World.appendEach, Res.ok.injEq] at h
    subst h; exact .refl _ _
  | d :: ds, w, w', h => by
    simp only [World.appendEach] at h
    split at h
    · rename_i w1 h1
      refine Grow.trans ?_ (appendEach_grow h)
      unfold World.appendFile at h1
      split at h1
      · cases h1
      · exact appendItems_grow h1
    · cases h
    · cases h

theorem continues_grow {v : World} (g : Grow to w v) (ha : ∀ id data, ¬ HasPicture w (some to) id data) :
    Continues w v to where
  resolves := by
    intro file id tgt h
    cases file with
    | none => simp [World.resolve] at h
    | some i =>
      by_cases hi : i = to
      · subst hi
        cases hw : w[i]? with
        | none => simp [World.resolve, hw] at h
        | some f =>
          rw [resolve_some hw] at h
          obtain ⟨f', hf', e⟩ := g.evo f hw
          rw [resolve_some hf']
          exact e.resolves h
      · unfold World.resolve at h ⊢
        simp only [g.other i hi]
        exact h
  shows := by
    intro file id data h
    by_cases hf : file = some to
    · subst hf; exact (ha id data h).elim
    · refine ⟨?_, hf⟩
      obtain ⟨i, f, pre, name, m, rfl, h2, h3⟩ := h
      have hi : i ≠ to := fun e => hf (by rw [e])
      exact ⟨i, f, pre, name, m, rfl, (g.other i hi).trans h2, h3⟩

theorem room_next {t t1 T : Doc} (e : Evo t t1) (e1 : Evo t1 T) (ha : Ahead t) (hr : Room t T) :
    Ahead t1 ∧ Room t t1 ∧ Room t1 T := by
  have l1 := e.rels_le
  have l2 := e1.rels_le
  have h1 := hr.rels
  have h2 := hr.media
  obtain ⟨a, b⟩ := e.ahead ha (by omega)
  obtain ⟨x, x1, x2, _⟩ := e.media
  obtain ⟨y, y1, _⟩ := e1.media
  have lx : t1.media.length = t.media.length + x.length := by rw [x1]; simp
  have ly : T.media.length = t1.media.length + y.length := by rw [y1]; simp
  have hi : t1.imageID.toNat = t.imageID.toNat + x.length := by
    rw [x2, UInt64.toNat_add, UInt64.toNat_ofNat']
    omega
  exact ⟨a, ⟨by omega, by omega⟩, ⟨by omega, by omega⟩⟩

theorem each_append {α β : Type} {P : α → β → Prop} : ∀ {as as' : List α} {bs bs' : List β}, Each P as bs →
    Each P as' bs' → Each P (as ++ as') (bs ++ bs') := by
  intro as as' bs bs' h h'
  induction h with
  | nil => exact h'
  | cons hab _ ih => exact .cons hab ih

theorem appendEach_same {w0 w' : World} {T : Doc} (hT : w'[to]? = some T)
    (hal : ∀ id data, ¬ HasPicture w0 (some to) id data) :
    ∀ {ds : List DocId} {w : World} {t : Doc}, Grow to w0 w → w.appendEach to ds = .ok w' → w[to]? = some t →
      Ahead t → Room t T → (∀ d ∈ ds, d ≠ to) → (∀ x ∈ w0.bodies ds, ∀ p ∈ x.paras, p.Linked w0) →
      ∃ copies, T.items = t.items ++ copies ∧ Each (ItemCopied (sameRules w0 w' to) to) (w0.bodies ds) copies
  | [], w, t, _, h, ht, _, _, _, _ => by
    simp only [World.appendEach, Res.ok.injEq] at h
    subst h
    rw [ht] at hT; obtain rfl := Option.some.inj hT
    exact ⟨[], by simp, .nil⟩
  | d :: ds, w, t, g, h, ht, ha, hr, hne, hl => by
    simp only [World.appendEach] at h
    split at h
    · rename_i w1 h1
      obtain ⟨t1, ht1, e1⟩ := appendFile_evo h1 ht
      have g1 : Grow to w w1 := by
        unfold World.appendFile at h1
        split at h1
        · cases h1
        · exact appendItems_grow h1
      have g2 := appendEach_grow h
      obtain ⟨T2, hT2, e2⟩ := g2.evo t1 ht1
      rw [hT] at hT2; obtain rfl := Option.some.inj hT2
      obtain ⟨ha1, _, hr1⟩ := room_next e1 e2 ha hr
      have hd : d ≠ to := hne d (by simp)
      obtain ⟨c2, hc2, he2⟩ := appendEach_same hT hal (g.trans g1) h ht1 ha1 hr1
        (fun x hx => hne x (by simp [hx])) (fun x hx => hl x (by
          simp only [World.bodies, List.flatMap_cons, List.mem_append] at hx ⊢
          exact .inr hx))
      cases hs : w[d]? with
      | none => simp [World.appendFile, hs] at h1
      | some s =>
        obtain ⟨t1', c1, ht1', hc1, he1⟩ := append_full ht hs h1 (R := fun _ => fullRules w to t T)
          (F := fun _ => Before to T) (fun t' ht' => ⟨⟨t1, ht1, e2⟩, full_obeys (unique_at ht) ha hr⟩)
        rw [ht1] at ht1'; obtain rfl := Option.some.inj ht1'
        have hs0 : w0[d]? = some s := (g.other d hd).symm.trans hs
        have hb : w0.bodies (d :: ds) = s.items ++ w0.bodies ds := by
          simp only [World.bodies, List.flatMap_cons, hs0, Option.map_some, Option.getD_some]
        refine ⟨c1 ++ c2, by rw [hc2, hc1, List.append_assoc], ?_⟩
        rw [hb] at hl ⊢
        refine each_append (he1.mono_mem ?_) he2
        intro x hx y hxy
        exact item_gives (full_gives (continues_grow g hal) hT)
          (hl x (List.mem_append.2 (.inl hx))) hxy
    · cases h
    · cases h

theorem each_right {α β : Type} {P : α → β → Prop} {as : List α} {bs : List β} (h : Each P as bs) :
    ∀ b ∈ bs, ∃ a ∈ as, P a b := by
  induction h with
  | nil => intro b hb; cases hb
  | cons hab _ ih =>
    intro b hb
    rcases List.mem_cons.1 hb with rfl | hb
    · exact ⟨_, List.mem_cons_self, hab⟩
    · obtain ⟨a, ha, h⟩ := ih b hb
      exact ⟨a, List.mem_cons_of_mem _ ha, h⟩

/-- Copies of paragraphs have links that resolve. -/
theorem same_linked {w' : World} {x x' : BItem} (h : ItemCopied (sameRules w w' to) to x x') :
    ∀ p ∈ x'.paras, p.Linked w' := by
  have hp : ∀ {p p' : Para}, ParaCopied (sameRules w w' to) to p p' → p'.Linked w' := by
    intro p p' h
    obtain ⟨_, h2, h3⟩ := h
    unfold Para.Linked
    rw [h2]
    generalize p.children = cs at *
    generalize p'.children = cs' at *
    induction h3 with
    | nil => intro h hm; cases hm
    | run _ _ ih => intro h hm; exact ih h (by simpa using hm)
    | link hi _ _ ih =>
      intro h hm
      rcases List.mem_cons.1 hm with e | hm
      · obtain rfl := PChild.link.inj e
        obtain ⟨tgt, _, h2⟩ := hi
        rw [h2]; simp
      · exact ih h hm
    | dropped hd _ _ => exact hd.elim
    | rpr _ ih => intro h hm; exact ih h (by simpa using hm)
  cases x with
  | para p =>
    obtain ⟨p', rfl, h⟩ := h
    intro q hq
    obtain rfl := List.mem_singleton.1 hq
    exact hp h
  | sect s => have e : x' = .sect s := h; subst e; intro q hq; cases hq
  | table t =>
    obtain ⟨t', rfl, h⟩ := h
    intro q hq
    simp only [BItem.paras, List.mem_flatMap] at hq
    obtain ⟨r, hr, c, hc, hq⟩ := hq
    obtain ⟨r0, hr0, k⟩ := each_right h.2.2 r hr
    obtain ⟨c0, hc0, l⟩ := each_right k.2 c hc
    obtain ⟨p0, hp0, m⟩ := each_right l.2.2 q hq
    exact hp m

/-! ## Splitting and joining -/

theorem resolve_push {v : World} {f : Doc} {file : Option DocId} {id tgt : String}
    (h : v.resolve file id = some tgt) : (v ++ [f]).resolve file id = some tgt := by
  cases file with
  | none => simp [World.resolve] at h
  | some i =>
    cases hw : v[i]? with
    | none => simp [World.resolve, hw] at h
    | some g =>
      rw [resolve_some hw] at h
      rw [resolve_some (f := g) (by rw [List.getElem?_append_left (lt_of_getElem? hw)]; exact hw)]
      exact h

theorem has_push {v : World} {f : Doc} {file : Option DocId} {id : String} {data : Bytes}
    (h : HasPicture v file id data) : HasPicture (v ++ [f]) file id data := by
  obtain ⟨i, g, pre, name, m, h1, h2, h3⟩ := h
  exact ⟨i, g, pre, name, m, h1, by rw [List.getElem?_append_left (lt_of_getElem? h2)]; exact h2, h3⟩

theorem shows_push {v : World} {f : Doc} {d : Drawing} {data : Bytes} (h : d.Shows v data) :
    d.Shows (v ++ [f]) data := by
  rcases h with ⟨i, g, hi, hg, gd, pic, bf, e1, e2, e3, hp⟩ | ⟨a, g, hi, ha, hg, gd, pic, bf, e1, e2, e3, hp⟩
  · exact .inl ⟨i, g, hi, hg, gd, pic, bf, e1, e2, e3, has_push hp⟩
  · exact .inr ⟨a, g, hi, ha, hg, gd, pic, bf, e1, e2, e3, has_push hp⟩

theorem same_composes (w w1 w2 : World) (nd to : DocId) (f : Doc) :
    Composes (sameRules w w1 nd) nd (sameRules (w1 ++ [f]) w2 to) (sameRules w w2 to) where
  draw := fun h1 h2 data h => h2 data (shows_push (h1 data h).1)
  link := by
    rintro file id id' id'' ⟨tgt, h1, h2⟩ ⟨tgt', h3, h4⟩
    rw [resolve_push h2] at h3
    obtain rfl := Option.some.inj h3
    exact ⟨tgt, h1, h4⟩
  drop1 := fun h => h
  drop2 := fun _ h => h

theorem new_room {T : Doc} (e : Evo Doc.new T) (hl : T.rels.length < 2 ^ 64) : Room Doc.new T := by
  have l := e.rels_le
  have m := e.media_rels
  have h3 : Doc.new.rels.length = 3 := rfl
  have h4 : Doc.new.rID.toNat = 3 := rfl
  have h5 : Doc.new.imageID.toNat = 0 := rfl
  exact ⟨by omega, by omega⟩

theorem new_shows_nothing (v : World) (id : String) (data : Bytes) :
    ¬ HasPicture (v ++ [Doc.new]) (some v.length) id data := by
  rintro ⟨i, f, pre, name, m, h1, h2, h3, h4, h5, h6⟩
  obtain rfl := Option.some.inj h1
  rw [List.getElem?_append_right (Nat.le_refl _), Nat.sub_self] at h2
  obtain rfl := Option.some.inj h2
  simp [Doc.getMedia, Doc.new] at h5

/-- C90: the parts of a split, appended one after the other to a new document, give the document again: every
element of the body has its copy at its place, with the same text and formatting, links that lead to the same
targets and pictures with the same bytes.  The links of the document must resolve, since the others are left
out (`C36_link_dropped`); the tables of relationships must be smaller than 2^64. -/
theorem C90_same (w w1 w2 : World) (d : DocId) (f T : Doc) (sep : World → Para → Res Bool) (ds : List DocId)
    (hf : w[d]? = some f) (hs : w.splitByParagraph d sep = .ok (w1, ds))
    (hj : (w1 ++ [Doc.new]).appendEach w1.length ds = .ok w2) (hT : w2[w1.length]? = some T)
    (hl : ∀ x ∈ f.items, ∀ p ∈ x.paras, p.Linked w)
    (hn : ∀ nd ∈ ds, ∀ g, w1[nd]? = some g → g.rels.length < 2 ^ 64) (hN : T.rels.length < 2 ^ 64) :
    Each (ItemCopied (sameRules w w2 w1.length) w1.length) f.items T.items := by
  obtain ⟨chunks, h1, h2⟩ := split_full hf hs (fun nd t t' => fullRules w nd t t')
    (fun _ _ h0 ha hr => full_obeys h0 ha hr)
  -- the parts
  have hparts : Each (fun x y => ∃ nd, ItemCopied (sameRules w w1 nd) nd x y) f.items
      ((w1 ++ [Doc.new]).bodies ds) ∧ ∀ nd ∈ ds, nd < w1.length := by
    rw [← h1] at hl ⊢
    clear hs hj h1
    induction h2 with
    | nil => exact ⟨.nil, by simp⟩
    | @cons chunk nd chunks ds hc _ ih =>
      obtain ⟨hlen, t', ht', hc⟩ := hc
      have ih := ih (fun x hx => hn x (by simp [hx]))
        (fun x hx => hl x (by simp only [List.flatten_cons, List.mem_append]; exact .inr hx))
      have hlt := lt_of_getElem? ht'
      refine ⟨?_, fun x hx => ?_⟩
      · have hb : (w1 ++ [Doc.new]).bodies (nd :: ds) = t'.items ++ (w1 ++ [Doc.new]).bodies ds := by
          simp only [World.bodies, List.flatMap_cons, List.getElem?_append_left hlt, ht', Option.map_some,
            Option.getD_some]
        rw [hb, List.flatten_cons]
        refine each_append ((hc (hn nd (by simp) t' ht')).mono_mem ?_) ih.1
        intro x hx y hxy
        refine ⟨nd, item_gives (full_gives ⟨id, ?_⟩ ht')
          (hl x (by simp only [List.flatten_cons, List.mem_append]; exact .inl hx)) hxy⟩
        intro file id data hp
        refine ⟨hp, ?_⟩
        rintro rfl
        obtain ⟨i, g, _, _, _, e, hg, _⟩ := hp
        obtain rfl := Option.some.inj e
        have := lt_of_getElem? hg
        simp only [DocId] at *
        omega
      · rcases List.mem_cons.1 hx with rfl | hx
        · exact hlt
        · exact ih.2 x hx
  -- joined
  have hnew : (w1 ++ [Doc.new])[w1.length]? = some Doc.new := by
    rw [List.getElem?_append_right (Nat.le_refl _), Nat.sub_self]; rfl
  obtain ⟨T', hT', e⟩ := (appendEach_grow hj).evo _ hnew
  rw [hT] at hT'; obtain rfl := Option.some.inj hT'
  obtain ⟨copies, hc, he⟩ := appendEach_same hT (new_shows_nothing w1) (Grow.refl _ _) hj hnew
    (base_ahead (.inl rfl)) (new_room e hN)
    (fun x hx e => Nat.lt_irrefl _ (by have := hparts.2 x hx; rw [e] at this; exact this))
    (by
      intro y hy p hp h hm hn
      obtain ⟨x, _, nd, hxy⟩ := each_right hparts.1 y hy
      obtain ⟨tgt, ht⟩ := Option.ne_none_iff_exists'.1 (same_linked hxy p hp h hm)
      rw [resolve_push ht] at hn
      cases hn)
  have : T.items = copies := by rw [hc]; rfl
  rw [this]
  exact each_comp (fun x y z ⟨nd, h⟩ h' => item_comp (same_composes w w1 w2 nd _ _) x y z h h') hparts.1 he

/-- Copies that follow the rules have the same words. -/
theorem same_words {w' : World} {x x' : BItem} (h : ItemCopied (sameRules w w' to) to x x') :
    itemWords w' x' = itemWords w x := by
  have hp : ∀ {p p' : Para}, ParaCopied (sameRules w w' to) to p p' → p'.words w' = p.words w := by
    intro p p' h
    obtain ⟨_, hfile, hc⟩ := h
    unfold Para.words
    rw [hfile]
    generalize p.children = cs at *
    generalize p'.children = cs' at *
    congr 1
    induction hc with
    | nil => rfl
    | run hr _ ih =>
      rw [List.map_cons, List.map_cons, ih]
      simp only [PChild.words, words_run hr.2.2.2]
    | link hid hr _ ih =>
      rw [List.map_cons, List.map_cons, ih]
      obtain ⟨tgt, h1, h2⟩ := hid
      simp only [PChild.words, h1, h2, hr.2.2.1]
    | dropped hd _ _ => exact hd.elim
    | rpr _ ih => rw [List.map_cons, List.map_cons, ih]; rfl
  cases x with
  | para p =>
    obtain ⟨p', rfl, h⟩ := h
    simp only [itemWords, hp h]
  | sect s => have e : x' = .sect s := h; rw [e]; rfl
  | table tb =>
    obtain ⟨tb', rfl, _, _, hr⟩ := h
    exact each_map hr fun r _ r' hr' => each_map hr'.2 fun c _ c' hc' => each_map hc'.2.2 fun p _ p' hp' => hp hp'

/-- C90: the words of the joined document are those of the document that was split. -/
theorem C90_words (w w1 w2 : World) (d : DocId) (f T : Doc) (sep : World → Para → Res Bool) (ds : List DocId)
    (hf : w[d]? = some f) (hs : w.splitByParagraph d sep = .ok (w1, ds))
    (hj : (w1 ++ [Doc.new]).appendEach w1.length ds = .ok w2) (hT : w2[w1.length]? = some T)
    (hl : ∀ x ∈ f.items, ∀ p ∈ x.paras, p.Linked w)
    (hn : ∀ nd ∈ ds, ∀ g, w1[nd]? = some g → g.rels.length < 2 ^ 64) (hN : T.rels.length < 2 ^ 64) :
    T.items.map (itemWords w2) = f.items.map (itemWords w) :=
  each_map (C90_same w w1 w2 d f T sep ds hf hs hj hT hl hn hN) fun _ _ _ h => same_words h

/-- C90: documents appended one after the other to a new document `to` are all in it, one after the other,
whatever they are and however many times each of them is appended. -/
theorem C90_all (w w' : World) (ds : List DocId) (T : Doc)
    (hj : (w ++ [Doc.new]).appendEach w.length ds = .ok w') (hT : w'[w.length]? = some T)
    (hd : ∀ d ∈ ds, d < w.length) (hl : ∀ d ∈ ds, ∀ f, w[d]? = some f → ∀ x ∈ f.items, ∀ p ∈ x.paras, p.Linked w)
    (hN : T.rels.length < 2 ^ 64) :
    Each (ItemCopied (sameRules w w' w.length) w.length) (w.bodies ds) T.items ∧
      T.items.map (itemWords w') = (w.bodies ds).map (itemWords w) := by
  have hnew : (w ++ [Doc.new])[w.length]? = some Doc.new := by
    rw [List.getElem?_append_right (Nat.le_refl _), Nat.sub_self]; rfl
  have hb : (w ++ [Doc.new]).bodies ds = w.bodies ds := by
    unfold World.bodies
    clear hj hl
    induction ds with
    | nil => rfl
    | cons d ds ih =>
      rw [List.flatMap_cons, List.flatMap_cons, ih fun x hx => hd x (by simp [hx]),
        List.getElem?_append_left (hd d (by simp))]
  have hl' : ∀ x ∈ w.bodies ds, ∀ p ∈ x.paras, p.Linked w := by
    intro x hx
    simp only [World.bodies, List.mem_flatMap] at hx
    obtain ⟨d, hm, hx⟩ := hx
    cases hg : w[d]? with
    | none => rw [hg] at hx; simp at hx
    | some f => rw [hg] at hx; exact hl d hm f hg x (by simpa using hx)
  obtain ⟨T', hT', e⟩ := (appendEach_grow hj).evo _ hnew
  rw [hT] at hT'; obtain rfl := Option.some.inj hT'
  obtain ⟨copies, hc, he⟩ := appendEach_same hT (new_shows_nothing w) (Grow.refl _ _) hj hnew
    (base_ahead (.inl rfl)) (new_room e hN)
    (fun x hx e => Nat.lt_irrefl _ (by have := hd x hx; rw [e] at this; exact this))
    (by
      rw [hb]
      intro x hx p hp h hm hn
      obtain ⟨tgt, ht⟩ := Option.ne_none_iff_exists'.1 (hl' x hx p hp h hm)
      rw [resolve_push ht] at hn
      cases hn)
  have hi : T.items = copies := by rw [hc]; rfl
  rw [hb] at he
  rw [hi]
  have hs : Each (ItemCopied (sameRules w w' w.length) w.length) (w.bodies ds) copies := by
    refine he.mono_mem fun x hx y hxy => ?_
    refine item_gives (w := w) (R := sameRules (w ++ [Doc.new]) w' w.length) ⟨fun h data hd => h data (shows_push hd), ?_, fun _ h => h⟩ (hl' x hx) hxy
    rintro file id id' hne ⟨tgt, h1, h2⟩
    obtain ⟨tgt0, h0⟩ := Option.ne_none_iff_exists'.1 hne
    rw [resolve_push h0] at h1
    exact ⟨tgt0, h0, (Option.some.inj h1).symm ▸ h2⟩
  exact ⟨hs, each_map hs fun _ _ _ h => same_words h⟩

/-! ## Example: two headings, a link, a picture and a table -/

/-- The document `exDoc exItems` is split in two and joined again: all hypotheses of `C90_same` are met. -/
example : ∃ w1 w2 T, World.splitByParagraph [exDoc exItems] 0 exRule = .ok (w1, [1, 2]) ∧
    (w1 ++ [Doc.new]).appendEach w1.length [1, 2] = .ok w2 ∧ w2[w1.length]? = some T ∧
    (∀ nd ∈ [1, 2], ∀ g, w1[nd]? = some g → g.rels.length < 2 ^ 64) ∧ T.rels.length < 2 ^ 64 ∧
    T.items.length = 5 ∧ T.referTarget "rId4" = some "http://x" ∧ ServesPicture T "rId5" [1, 2] ∧
    T.referTarget "rId6" = some "http://x" := by
  refine ⟨_, _, _, rfl, rfl, rfl, ?_, by decide, rfl, by decide,
    ⟨"image1.png", ⟨"image1.png", [1, 2]⟩, by decide, by decide, rfl⟩, by decide⟩
  intro nd hnd g hg
  simp only [List.mem_cons, List.not_mem_nil, or_false] at hnd
  rcases hnd with rfl | rfl
  · obtain rfl := Option.some.inj hg
    decide
  · obtain rfl := Option.some.inj hg
    decide

example : ∀ x ∈ (exDoc exItems).items, ∀ p ∈ x.paras, p.Linked [exDoc exItems] := by
  intro x hx
  simp only [exDoc, exItems, List.mem_cons, List.not_mem_nil, or_false] at hx
  rcases hx with rfl | rfl | rfl | rfl | rfl <;> intro p hp
  all_goals
    simp only [BItem.paras, List.mem_cons, List.not_mem_nil, or_false, List.flatMap_cons, List.flatMap_nil,
      List.append_nil] at hp
  all_goals
    try subst hp
    try intro h hm
    simp only [exText, exLink, List.mem_cons, List.not_mem_nil, or_false, reduceCtorEq, PChild.link.injEq] at hm
  all_goals
    subst hm
    decide

end Docx
