import Verif.SpecPieces
import Verif.Props.Join

/-!
# C91: what a split by text does to the texts
-/

namespace Docx

/-! ## Lists cut at separators -/

theorem pieces_unique {α : Type} (sep : α → Bool) : ∀ (l : List α) (cs : List (List α)), cs.flatten = l →
    (∀ c ∈ cs, c ≠ []) → (∀ c ∈ cs.tail, ∃ x tl, c = x :: tl ∧ sep x = true) →
    (∀ c ∈ cs, ∀ x ∈ c.tail, sep x = false) → pieces sep l = cs
  | [], cs, h, hne, _, _ => by
    cases cs with
    | nil => rfl
    | cons c cs =>
      rw [List.flatten_cons, List.append_eq_nil_iff] at h
      exact (hne c (by simp) h.1).elim
  | x :: xs, [], h, _, _, _ => by cases h
  | x :: xs, [] :: cs, _, hne, _, _ => (hne [] (by simp) rfl).elim
  | x :: xs, [y] :: cs, h, hne, hst, hin => by
    simp only [List.flatten_cons, List.singleton_append, List.cons.injEq] at h
    obtain ⟨rfl, h⟩ := h
    have ih := pieces_unique sep xs cs h (fun c hc => hne c (by simp [hc]))
      (fun c hc => hst c (List.mem_of_mem_tail hc)) (fun c hc => hin c (by simp [hc]))
    simp only [pieces, ih]
    cases cs with
    | nil => rfl
    | cons c cs =>
      obtain ⟨z, tl, rfl, hz⟩ := hst c (by simp)
      simp only [hz, if_true]
  | x :: xs, (y :: z :: c) :: cs, h, hne, hst, hin => by
    simp only [List.flatten_cons, List.cons_append, List.cons.injEq] at h
    obtain ⟨rfl, h⟩ := h
    have ih := pieces_unique sep xs ((z :: c) :: cs) (by simpa using h)
      (fun c' hc => by
        rcases List.mem_cons.1 hc with rfl | hc
        · simp
        · exact hne c' (by simp [hc]))
      (fun c' hc => hst c' hc)
      (fun c' hc => by
        rcases List.mem_cons.1 hc with rfl | hc
        · intro u hu
          exact hin (y :: z :: c) (by simp) u (by simp only [List.tail_cons] at hu ⊢; exact List.mem_cons_of_mem _ hu)
        · exact hin c' (by simp [hc]))
    have hz : sep z = false := hin (y :: z :: c) (by simp) z (by simp)
    simp [pieces, ih, hz]

theorem pieces_map {α β γ : Type} {f : α → γ} {g : β → γ} {s : α → Bool} {t : β → Bool} :
    ∀ {as : List α} {bs : List β}, Each (fun a b => f a = g b ∧ s a = t b) as bs →
    (pieces s as).map (·.map f) = (pieces t bs).map (·.map g) := by
  have key : ∀ {as : List α} {bs : List β}, Each (fun a b => f a = g b ∧ s a = t b) as bs →
      Each (Each fun a b => f a = g b ∧ s a = t b) (pieces s as) (pieces t bs) := by
    intro as bs h
    induction h with
    | nil => exact .nil
    | cons hab _ ih =>
      simp only [pieces]
      generalize pieces s _ = ps at ih
      generalize pieces t _ = qs at ih
      cases ih with
      | nil => exact .cons (.cons hab .nil) .nil
      | cons hc hcs =>
        cases hc with
        | nil => exact .cons (.cons hab .nil) hcs
        | cons hy hc =>
          simp only
          rw [← hy.2]
          split
          · exact .cons (.cons hab .nil) (.cons (.cons hy hc) hcs)
          · exact .cons (.cons hab (.cons hy hc)) hcs
  intro as bs h
  have := key h
  clear h
  generalize pieces s as = ps at this
  generalize pieces t bs = qs at this
  induction this with
  | nil => rfl
  | cons hc _ ih =>
    rw [List.map_cons, List.map_cons, ih]
    congr 1
    clear ih
    induction hc with
    | nil => rfl
    | cons h _ ih => rw [List.map_cons, List.map_cons, h.1, ih]

theorem each_lengths {α β : Type} {P : α → β → Prop} {as : List α} {bs : List β} (h : Each P as bs) :
    as.length = bs.length := by
  induction h with
  | nil => rfl
  | cons _ _ ih => simp [ih]

theorem each_left {α β : Type} {P : α → β → Prop} {as : List α} {bs : List β} (h : Each P as bs) :
    ∀ a ∈ as, ∃ b ∈ bs, P a b := by
  induction h with
  | nil => intro a ha; cases ha
  | cons hab _ ih =>
    intro a ha
    rcases List.mem_cons.1 ha with rfl | ha
    · exact ⟨_, List.mem_cons_self, hab⟩
    · obtain ⟨b, hb, h⟩ := ih a ha
      exact ⟨b, List.mem_cons_of_mem _ hb, h⟩

theorem undrawn_copied {R : CopyRules} {cs cs' : List RChild} (h : Each (RChildCopied R) cs cs')
    (hn : ∀ d, .drawing d ∉ cs) : ∀ d, .drawing d ∉ cs' := by
  intro d' hm
  obtain ⟨c, hc, hcc⟩ := each_right h _ hm
  cases c with
  | drawing d => exact hn d hc
  | text t => cases (show RChild.drawing d' = .text t from hcc)
  | tab t => cases (show RChild.drawing d' = .tab t from hcc)
  | br t => cases (show RChild.drawing d' = .br t from hcc)

theorem plain_copied {w w' : World} {to : DocId} {p p' : Para} (h : ParaCopied (sameRules w w' to) to p p')
    (hp : p.Plain w) : p'.Plain w' := by
  have hl : p'.Linked w' :=
    same_linked (x := .para p) (x' := .para p') ⟨p', rfl, h⟩ p' (by simp [BItem.paras])
  refine ⟨hl, ?_⟩
  obtain ⟨_, h2, h3⟩ := hp
  have hc := h.2.2
  clear hl h
  generalize p.children = cs at *
  generalize p'.children = cs' at *
  induction hc with
  | nil => exact ⟨fun r hr => (by cases hr), fun h hh => (by cases hh)⟩
  | run hr _ ih =>
    obtain ⟨i1, i2⟩ := ih (fun r hr => h2 r (by simp [hr])) (fun h hm => h3 h (by simp [hm]))
    refine ⟨fun r hm => ?_, fun h hm => i2 h (by simpa using hm)⟩
    rcases List.mem_cons.1 hm with e | hm
    · obtain rfl := PChild.run.inj e
      exact undrawn_copied hr.2.2.2 (h2 _ (by simp))
    · exact i1 r hm
  | link _ hr _ ih =>
    obtain ⟨i1, i2⟩ := ih (fun r hr => h2 r (by simp [hr])) (fun h hm => h3 h (by simp [hm]))
    refine ⟨fun r hm => i1 r (by simpa using hm), fun h hm => ?_⟩
    rcases List.mem_cons.1 hm with e | hm
    · obtain rfl := PChild.link.inj e
      exact undrawn_copied hr.2.2.2 (h3 _ (by simp))
    · exact i2 h hm
  | dropped hd _ _ => exact hd.elim
  | rpr _ ih =>
    obtain ⟨i1, i2⟩ := ih (fun r hr => h2 r (by simp [hr])) (fun h hm => h3 h (by simp [hm]))
    exact ⟨fun r hm => i1 r (by simpa using hm), fun h hm => i2 h (by simpa using hm)⟩

/-! ## C91 -/

theorem plain_printed [HashEnv] {w : World} {p : Para} (h : p.Plain w) : p.str w = .ok (p.words w) := by
  refine C36_words_printed w p h.1 ?_
  cases hd : p.drawings with
  | nil => rfl
  | cons d ds =>
    obtain ⟨r, hr, hm⟩ := (mem_drawings p d).1 (by rw [hd]; simp)
    exact (h.2.1 r hr d hm).elim

/-- C91: the texts of the resulting documents are the texts of the body, cut before every paragraph whose
text is accepted. -/
theorem C91_pieces [HashEnv] (w w' : World) (d : DocId) (f : Doc) (re : String → Bool) (ds : List DocId)
    (hf : w[d]? = some f) (h : w.splitByParagraph d (splitByText re) = .ok (w', ds))
    (hl : ∀ x ∈ f.items, ∀ p ∈ x.paras, p.Linked w) (hp : ∀ p, .para p ∈ f.items → p.Plain w)
    (hn : ∀ nd ∈ ds, ∀ g, w'[nd]? = some g → g.rels.length < 2 ^ 64) :
    ds.map w'.texts = (pieces (·.accepted re w) f.items).map fun c => some (c.map (itemWords w)) := by
  have hsep : ∀ p, .para p ∈ f.items → ∀ w1, Keeps w w1 → splitByText re w1 p = .ok (re (p.words w)) := by
    intro p hm w1 hk
    simp [splitByText, str_keeps hk p (plain_printed (hp p hm))]
  obtain ⟨chunks, h1, h2, h3, h4⟩ := C33_cuts w w' d f _ ds hf h (fun p => re (p.words w)) hsep
  obtain ⟨chunks', h1', h2'⟩ := C36_split_words w w' d f _ ds hf h
  have hch : chunks' = chunks := by
    refine List.eq_iff_flatten_eq.2 ⟨by rw [h1', h1], ?_⟩
    clear h1 h1' h3 h4 h hsep
    induction h2 generalizing chunks' with
    | nil => cases h2'; rfl
    | @cons c nd cs ds hc _ ih =>
      cases h2' with
      | @cons c' _ cs' _ hc' hcs' =>
        obtain ⟨_, t, ht, he⟩ := hc
        obtain ⟨t', ht', he'⟩ := hc'
        rw [ht] at ht'; obtain rfl := Option.some.inj ht'
        rw [List.map_cons, List.map_cons, ih (fun nd hm => hn nd (by simp [hm])) _ hcs', each_lengths he,
          each_lengths (he' (hn nd (by simp) t ht))]
  subst hch
  have hpc : pieces (·.accepted re w) f.items = chunks' := by
    refine pieces_unique _ _ _ h1 ?_ ?_ ?_
    · intro c hc
      obtain ⟨nd, _, hne, _⟩ := each_left h2 c hc
      exact hne
    · intro c hc
      obtain ⟨p, tl, rfl, hs⟩ := h3 c hc
      exact ⟨_, tl, rfl, hs⟩
    · intro c hc x hx
      cases x with
      | para p => exact h4 c hc p hx
      | table _ => rfl
      | sect _ => rfl
  rw [hpc]
  rw [← h1'] at hl
  clear h1 h1' h2 h3 h4 hpc h hsep
  induction h2' with
  | nil => rfl
  | @cons c nd cs ds hc _ ih =>
    obtain ⟨t, ht, he⟩ := hc
    rw [List.map_cons, List.map_cons, ih (fun nd hm => hn nd (by simp [hm]))
      (fun x hx => hl x (by simp only [List.flatten_cons, List.mem_append]; exact .inr hx))]
    congr 1
    simp only [World.texts, ht, Option.map_some]
    congr 1
    refine each_map (he (hn nd (by simp) t ht)) fun x hx y hy => hy (hl x ?_)
    simp only [List.flatten_cons, List.mem_append]
    exact .inl hx

/-- C91: the parts are joined in a new document, and this is split by the same rule: the parts have the same
texts as before. -/
theorem C91_again [HashEnv] (w w1 w2 w3 : World) (d : DocId) (f T : Doc) (re : String → Bool) (ds ds' : List DocId)
    (hf : w[d]? = some f) (hs : w.splitByParagraph d (splitByText re) = .ok (w1, ds))
    (hj : (w1 ++ [Doc.new]).appendEach w1.length ds = .ok w2) (hT : w2[w1.length]? = some T)
    (hs' : w2.splitByParagraph w1.length (splitByText re) = .ok (w3, ds'))
    (hl : ∀ x ∈ f.items, ∀ p ∈ x.paras, p.Linked w) (hp : ∀ p, .para p ∈ f.items → p.Plain w)
    (hn : ∀ nd ∈ ds, ∀ g, w1[nd]? = some g → g.rels.length < 2 ^ 64) (hN : T.rels.length < 2 ^ 64)
    (hn' : ∀ nd ∈ ds', ∀ g, w3[nd]? = some g → g.rels.length < 2 ^ 64) :
    ds'.map w3.texts = ds.map w1.texts := by
  have hc := C90_same w w1 w2 d f T _ ds hf hs hj hT hl hn hN
  have a := C91_pieces w w1 d f re ds hf hs hl hp hn
  have b := C91_pieces w2 w3 w1.length T re ds' hT hs'
    (by
      intro y hy
      obtain ⟨x, _, hxy⟩ := each_right hc y hy
      exact same_linked hxy)
    (by
      intro p' hm
      obtain ⟨x, hx, hxy⟩ := each_right hc _ hm
      cases x with
      | para p =>
        obtain ⟨q, e, hq⟩ := hxy
        obtain rfl := BItem.para.inj e
        exact plain_copied hq (hp p hx)
      | table t => obtain ⟨_, e, _⟩ := hxy; cases e
      | sect s => cases (show BItem.para p' = .sect s from hxy)) hn'
  rw [a, b]
  have h := pieces_map (f := itemWords w) (g := itemWords w2) (s := (·.accepted re w)) (t := (·.accepted re w2))
    (hc.mono fun x y hxy => ⟨(same_words hxy).symm, by
      have hw := same_words hxy
      cases x with
      | para p =>
        obtain ⟨q, rfl, hq⟩ := hxy
        simp only [itemWords, List.cons.injEq, and_true] at hw
        simp only [BItem.accepted, hw]
      | table t => obtain ⟨_, rfl, _⟩ := hxy; rfl
      | sect s => rw [show y = .sect s from hxy]; rfl⟩)
  have h' := congrArg (List.map some) h
  simp only [List.map_map] at h'
  exact h'.symm

/-- C91: documents without drawings whose links lead somewhere can always be split. -/
theorem C91_returns [HashEnv] (w : World) (d : DocId) (f : Doc) (re : String → Bool) (hf : w[d]? = some f)
    (hm : MediaSafe w) (hp : ∀ x ∈ f.items, ∀ p ∈ x.paras, p.Plain w) :
    ∃ w' ds, w.splitByParagraph d (splitByText re) = .ok (w', ds) := by
  refine C39_split_partial w d f _ hf hm ?_ ?_
  · intro nd _ x hx p hpx
    obtain ⟨h1, h2, h3⟩ := hp x hx p hpx
    refine ⟨fun r hr d hd => (h2 r hr d hd).elim, fun h hh => ⟨?_, fun d hd => (h3 h hh d hd).elim⟩⟩
    have hr := h1 h hh
    cases hfile : p.file with
    | none => rw [hfile] at hr; exact (hr rfl).elim
    | some i =>
      cases hw : w[i]? with
      | none => rw [hfile] at hr; simp [World.resolve, hw] at hr
      | some g => exact ⟨i, g, rfl, hw⟩
  · intro p hm w1 hk
    refine ⟨re (p.words w), ?_⟩
    simp [splitByText, str_keeps hk p (plain_printed (hp _ hm p (by simp [BItem.paras])))]

/-! ## Example -/

/-- Two headings, a paragraph with a link, a table with a link in a cell -/
def plainItems : List BItem :=
  [ .para (exText "# one"), .para { children := [exLink "rId1"], file := some 0 }, .para (exText "# two"),
    .table { rows := [{ cells := [{ paras := [{ children := [exLink "rId1"], file := some 0 }] }] }] } ]

/-- The document is split in two, joined and split again; all hypotheses are met. -/
example : ∃ w1 w2 w3 T, World.splitByParagraph [exDoc plainItems] 0 exRule = .ok (w1, [1, 2]) ∧
    (w1 ++ [Doc.new]).appendEach w1.length [1, 2] = .ok w2 ∧ w2[w1.length]? = some T ∧
    w2.splitByParagraph w1.length exRule = .ok (w3, [4, 5]) ∧
    (∀ nd ∈ [1, 2], ∀ g, w1[nd]? = some g → g.rels.length < 2 ^ 64) ∧ T.rels.length < 2 ^ 64 ∧
    (∀ nd ∈ [4, 5], ∀ g, w3[nd]? = some g → g.rels.length < 2 ^ 64) ∧
    [1, 2].map w1.texts = [some [[[["# one"]]], [[["[link](http://x)"]]]],
      some [[[["# two"]]], [[["[link](http://x)"]]]]] := by
  refine ⟨_, _, _, _, rfl, rfl, rfl, rfl, ?_, by decide, ?_, by decide +kernel⟩
  all_goals
    intro nd hnd g hg
    simp only [List.mem_cons, List.not_mem_nil, or_false] at hnd
    rcases hnd with rfl | rfl
    · obtain rfl := Option.some.inj hg
      decide
    · obtain rfl := Option.some.inj hg
      decide

example : ∀ x ∈ (exDoc plainItems).items, ∀ p ∈ x.paras, p.Plain [exDoc plainItems] := by
  intro x hx
  simp only [exDoc, plainItems, List.mem_cons, List.not_mem_nil, or_false] at hx
  rcases hx with rfl | rfl | rfl | rfl <;> intro p hp
  all_goals
    simp only [BItem.paras, List.mem_cons, List.not_mem_nil, or_false, List.flatMap_cons, List.flatMap_nil,
      List.append_nil] at hp
    subst hp
    refine ⟨fun h hm => ?_, fun r hr d hd => ?_, fun h hm d hd => ?_⟩
  all_goals
    first
    | (simp only [exText, exLink, List.mem_cons, List.not_mem_nil, or_false, reduceCtorEq, PChild.link.injEq] at hm
       subst hm
       first
       | decide
       | (simp at hd))
    | (simp [exText, exLink] at hm)
    | (simp only [exText, exLink, List.mem_cons, List.not_mem_nil, or_false, reduceCtorEq, PChild.run.injEq] at hr
       subst hr
       simp at hd)
    | (simp [exText, exLink] at hr)

example : MediaSafe [exDoc plainItems] := by
  intro d f hf name
  cases d with
  | zero =>
    obtain rfl := Option.some.inj hf
    by_cases hn : name = "a.png" <;> simp [Doc.getMedia, exDoc, hn]
  | succ d => simp at hf

end Docx
