import Verif.Lemmas.RenameStep
import Verif.Lemmas.Evo

/-!
# Threads with their own documents
-/

set_option linter.unusedSectionVars false
set_option linter.unusedSimpArgs false

namespace Docx

/-! ## Renaming whole documents -/

section
variable {ρ σ : DocId → DocId}

theorem rm_items (items : List BItem) : (rnItems ρ items).map mItem = items.map mItem := by
  simp only [rnItems, List.map_map]
  refine List.map_congr_left fun x _ => ?_
  cases x with
  | para p => exact rm_para p
  | sect s => rfl
  | table t =>
    simp only [Function.comp, rnItem, mItem, mTable, rnTable, List.map_map]
    congr 1
    congr 1
    refine List.map_congr_left fun r _ => ?_
    simp only [Function.comp, rnRow, mRow, List.map_map]
    congr 1
    congr 1
    refine List.map_congr_left fun c _ => ?_
    simp only [Function.comp, rnCell, mCell, List.map_map]
    congr 1
    congr 1
    exact List.map_congr_left fun p _ => rm_para p

theorem rm_document (items : List BItem) : mDocument (rnItems ρ items) = mDocument items := by
  simp only [mDocument, rm_items]

theorem rr_table (t : Table) : rnTable ρ (rnTable σ t) = rnTable (ρ ∘ σ) t := by
  cases t with
  | mk props grid rows =>
    simp only [rnTable, List.map_map, Option.map_map]
    congr 1
    refine List.map_congr_left fun r _ => ?_
    simp only [Function.comp, rnRow, List.map_map, Option.map_map]
    congr 1
    refine List.map_congr_left fun c _ => ?_
    simp only [Function.comp, rnCell, List.map_map, Option.map_map]
    congr 1
    exact List.map_congr_left fun p _ => rr_para p

theorem rr_doc (f : Doc) : rnDoc ρ (rnDoc σ f) = rnDoc (ρ ∘ σ) f := by
  simp only [rnDoc, rnItems, List.map_map]
  congr 1
  refine List.map_congr_left fun x _ => ?_
  cases x with
  | para p => exact congrArg BItem.para (rr_para p)
  | sect s => rfl
  | table t => exact congrArg BItem.table (rr_table t)

theorem same_apart_rename (f : Doc) : SameApart f (rnDoc ρ f) := by
  unfold SameApart
  rw [rr_doc]
  rfl

theorem files_apart {f g : Doc} (h : SameApart f g) : f.files = g.files := by
  have key : ∀ x : Doc, x.files = (rnDoc (fun _ => 0) x).files := by
    intro x
    have e : ∀ (l : List String) (m : List (String × Stream)),
        (rnDoc (fun _ => 0) x).openTmpl m l = x.openTmpl m l := by
      intro l
      induction l with
      | nil => intro m; rfl
      | cons n l ih =>
        intro m
        simp only [Doc.openTmpl, ih]
        rfl
    unfold Doc.files
    rw [e]
    simp only [show (rnDoc (fun _ => 0) x).items = rnItems (fun _ => 0) x.items from rfl, rm_document]
    rfl
  rw [key f, key g, h]

end

/-! ## One action -/

theorem Op.at_at (ρ σ : DocId → DocId) (o : Op) (hb : o.Blind) : (o.at σ).at ρ = o.at (ρ ∘ σ) := by
  cases o <;> first | rfl | exact hb.elim

theorem Op.at_congr {ρ σ : DocId → DocId} (o : Op) (hb : o.Blind) (h : ∀ k ∈ o.about, ρ k = σ k) : o.at ρ = o.at σ := by
  cases o with
  | append f af =>
    simp only [Op.at, h f (by simp [Op.about]), h af (by simp [Op.about])]
  | new => rfl
  | load => exact hb.elim
  | _ => simp [Op.at, Op.about] at h ⊢; exact h

theorem Op.blind_at (ρ : DocId → DocId) (o : Op) (hb : o.Blind) : (o.at ρ).Blind := by
  cases o <;> exact hb

section
variable [GoEnv] [ImgEnv] [HashEnv]

theorem acts_moves {ρ : DocId → DocId} {s1 s2 : Threads} {t : Nat} {a : Act} {w2' : World} (h : Acts s2 t a w2')
    (e : Emb ρ s1.docs s2.docs) (hm : s2.mine t = (s1.mine t).map ρ)
    (hρ : ∀ i, s2.docs.length + i < w2'.length → ρ (s1.docs.length + i) = s2.docs.length + i) :
    ∃ w1', Acts s1 t a w1' ∧ Emb ρ w1' w2' ∧ w1'.length + s2.docs.length = w2'.length + s1.docs.length ∧
      Kept ρ s2.docs w2' := by
  cases h with
  | @call o _ blind own h =>
    have hlen : (s2.mine t).length = (s1.mine t).length := by rw [hm, List.length_map]
    have own1 : ∀ k ∈ o.about, k < (s1.mine t).length := fun k hk => hlen ▸ own k hk
    have hat : o.at (fun k => (s2.mine t).getD k 0) = (o.at fun k => (s1.mine t).getD k 0).at ρ := by
      rw [Op.at_at _ _ _ blind]
      refine Op.at_congr o blind fun k hk => ?_
      have := own1 k hk
      simp only [Function.comp, hm, List.getD_eq_getElem?_getD, List.getElem?_map,
        List.getElem?_eq_getElem this, Option.map_some, Option.getD_some]
    rw [hat] at h
    by_cases hn : (o.at fun k => (s1.mine t).getD k 0) = .new
    · rw [hn] at h
      simp only [step, Op.at] at h
      cases h
      refine ⟨s1.docs ++ [Doc.new], .call blind own1 (by rw [hn]; rfl), ?_, ?_, Kept.push _ _⟩
      · exact e.push (hρ 0 (by simp)) Doc.new
      · simp only [List.length_append, List.length_cons, List.length_nil]; omega
    · have key := step_moves e (Op.blind_at _ o blind) hn
      rw [h] at key
      cases h1 : step s1.docs (o.at fun k => (s1.mine t).getD k 0) with
      | panic => rw [h1] at key; exact key.elim
      | err x => rw [h1] at key; exact key.elim
      | ok w1' =>
        rw [h1] at key
        obtain ⟨k1, k2, k3⟩ := key
        exact ⟨w1', .call blind own1 h1, k1, by rw [k2, k3.1]; exact Nat.add_comm _ _, k3.kept⟩
  | @split k d re _ own h =>
    rw [hm, List.getElem?_map] at own
    cases hk : (s1.mine t)[k]? with
    | none => rw [hk] at own; cases own
    | some d1 =>
      rw [hk] at own
      simp only [Option.map_some, Option.some.injEq] at own
      subst own
      simp only [step, World.splitByParagraph, e.same] at h
      cases hf : s1.docs[d1]? with
      | none => rw [hf] at h; simp at h
      | some f =>
        rw [hf] at h
        simp only [Option.map_some] at h
        have hl : (rnDoc ρ f).items.length = f.items.length := by simp [rnDoc, rnItems]
        rw [hl] at h
        cases hs : splitLoop (splitByText re) (rnDoc ρ f) (f.items.length + 1) s2.docs [] (rnDoc ρ f).items with
        | panic => rw [hs] at h; cases h
        | err x => rw [hs] at h; cases h
        | ok x =>
          obtain ⟨w, ds⟩ := x
          rw [hs] at h
          simp only [Res.ok.injEq] at h
          subst h
          obtain ⟨w1', docs1', g1, g2, g3, g4⟩ := splitLoop_moves re f _ f.items (docs1 := []) e hs hρ
          refine ⟨w1', .split hk ?_, g2, g3, g4⟩
          simp only [step, World.splitByParagraph, hf, g1]
  | @load k f pick _ uniform own h =>
    simp only [step] at h
    cases h
    simp only [Threads.doc, hm, List.getElem?_map] at own
    cases hk : (s1.mine t)[k]? with
    | none => rw [hk] at own; cases own
    | some d1 =>
      rw [hk] at own
      simp only [Option.map_some, Option.bind_some, e.same] at own
      cases hf : s1.docs[d1]? with
      | none => rw [hf] at own; cases own
      | some f1 =>
        rw [hf] at own
        simp only [Option.map_some, Option.some.injEq] at own
        subst own
        refine ⟨s1.docs ++ [Doc.loadBodyItems (pick f1.items) f1.media],
          .load (f := f1) uniform (by simp [Threads.doc, hk, hf]) rfl, ?_, ?_, Kept.push _ _⟩
        · have := e.push (hρ 0 (by simp)) (Doc.loadBodyItems (pick f1.items) f1.media)
          have he : rnDoc ρ (Doc.loadBodyItems (pick f1.items) f1.media) =
              Doc.loadBodyItems (pick (rnDoc ρ f1).items) (rnDoc ρ f1).media := by
            simp only [Doc.loadBodyItems, rnDoc, uniform ρ f1.items]
          rw [he] at this
          exact this
        · simp only [List.length_append, List.length_cons, List.length_nil]; omega
  | @opening a g h =>
    have h0 : ρ s1.docs.length = s2.docs.length := hρ 0 (by simp)
    rw [← h0, unpack_rename] at h
    obtain ⟨h1, h2⟩ := Prod.mk.inj h
    subst h1
    refine ⟨s1.docs ++ [(unpack s1.docs.length a).1], .opening (Prod.ext rfl h2), e.push h0 _, ?_, Kept.push _ _⟩
    simp only [List.length_append, List.length_cons, List.length_nil]; omega

theorem acts_det {s : Threads} {t : Nat} {a : Act} {w w' : World} (h : Acts s t a w) (h' : Acts s t a w') : w = w' := by
  cases h with
  | call b o h => cases h' with | call b' o' h' => rw [h] at h'; cases h'; rfl
  | split o h =>
    cases h' with
    | split o' h' =>
      rw [o] at o'; cases o'
      rw [h] at h'; cases h'; rfl
  | load u o h =>
    cases h' with
    | load u' o' h' =>
      rw [o] at o'; cases o'
      rw [h] at h'; cases h'; rfl
  | opening h => cases h' with | opening h' => rw [h] at h'; cases h'; rfl

theorem interleaved_det {s s1 s2 : Threads} {as : List (Nat × Act)} (h1 : Interleaved s as s1)
    (h2 : Interleaved s as s2) : s1 = s2 := by
  induction h1 with
  | nil => cases h2; rfl
  | cons a _ ih =>
    cases h2 with
    | cons a' r => exact ih (acts_det a a' ▸ r)

/-! ## Who owns what -/

/-- No document has two owners. -/
structure OwnDocs (s : Threads) : Prop where
  bound : ∀ t, ∀ x ∈ s.mine t, x < s.docs.length
  nodup : ∀ t, (s.mine t).Nodup
  apart : ∀ t u x, t ≠ u → x ∈ s.mine t → x ∉ s.mine u

theorem OwnDocs.empty : OwnDocs {} := ⟨by simp, by simp, by simp⟩

theorem grow_self (s : Threads) (t : Nat) (w' : World) :
    (s.grow t w').mine t = s.mine t ++ List.range' s.docs.length (w'.length - s.docs.length) := by
  simp [Threads.grow]

theorem grow_other (s : Threads) {t u : Nat} (h : u ≠ t) (w' : World) : (s.grow t w').mine u = s.mine u := by
  simp [Threads.grow, h]

theorem OwnDocs.grow {s : Threads} (h : OwnDocs s) (t : Nat) {w' : World} (hl : s.docs.length ≤ w'.length) :
    OwnDocs (s.grow t w') := by
  have mem : ∀ x, x ∈ List.range' s.docs.length (w'.length - s.docs.length) → s.docs.length ≤ x ∧ x < w'.length := by
    intro x hx
    have := List.mem_range'_1.1 hx
    omega
  refine ⟨fun u x hx => ?_, fun u => ?_, fun u v x huv hx hx' => ?_⟩
  · show x < w'.length
    by_cases hu : u = t
    · subst hu
      rw [grow_self] at hx
      rcases List.mem_append.1 hx with hx | hx
      · exact Nat.lt_of_lt_of_le (h.bound u x hx) hl
      · exact (mem x hx).2
    · rw [grow_other s hu] at hx
      exact Nat.lt_of_lt_of_le (h.bound u x hx) hl
  · by_cases hu : u = t
    · subst hu
      rw [grow_self]
      refine List.nodup_append.2 ⟨h.nodup u, List.nodup_range', fun a ha b hb hab => ?_⟩
      have h1 := h.bound u a ha
      have h2 := (mem b hb).1
      rw [hab] at h1
      exact absurd h1 (Nat.not_lt.2 h2)
    · rw [grow_other s hu]; exact h.nodup u
  · by_cases hu : u = t
    · subst hu
      rw [grow_self] at hx
      rw [grow_other s (Ne.symm huv)] at hx'
      rcases List.mem_append.1 hx with hx | hx
      · exact h.apart u v x huv hx hx'
      · exact absurd (h.bound v x hx') (Nat.not_lt.2 (mem x hx).1)
    · rw [grow_other s hu] at hx
      by_cases hv : v = t
      · subst hv
        rw [grow_self] at hx'
        rcases List.mem_append.1 hx' with hx' | hx'
        · exact h.apart u v x huv hx hx'
        · exact absurd (h.bound u x hx) (Nat.not_lt.2 (mem x hx').1)
      · rw [grow_other s hv] at hx'
        exact h.apart u v x huv hx hx'

theorem step_len {w w' : World} {o : Op} (h : step w o = .ok w') : w.length ≤ w'.length := by
  have key := step_wevo h
  rcases Nat.lt_or_ge w'.length w.length with hl | hl
  · obtain ⟨f', h', _⟩ := key.old _ _ (List.getElem?_eq_getElem hl)
    exact absurd (lt_of_getElem? h') (Nat.lt_irrefl _)
  · exact hl

theorem acts_len {s : Threads} {t : Nat} {a : Act} {w' : World} (h : Acts s t a w') : s.docs.length ≤ w'.length := by
  cases h with
  | call _ _ h => exact step_len h
  | split _ h => exact step_len h
  | load _ _ h => exact step_len h
  | opening h => simp

theorem interleaved_own {s s' : Threads} {as : List (Nat × Act)} (h : Interleaved s as s') :
    OwnDocs s → OwnDocs s' ∧ s.docs.length ≤ s'.docs.length ∧ ∀ t, s.mine t <+: s'.mine t := by
  induction h with
  | nil => exact fun o => ⟨o, Nat.le_refl _, fun t => List.prefix_rfl⟩
  | @cons s s' t a w' as ha _ ih =>
    intro o
    have hl := acts_len ha
    obtain ⟨h1, h2, h3⟩ := ih (o.grow t hl)
    refine ⟨h1, Nat.le_trans hl h2, fun u => List.IsPrefix.trans ?_ (h3 u)⟩
    by_cases hu : u = t
    · subst hu; rw [grow_self]; exact List.prefix_append _ _
    · rw [grow_other s hu]; exact List.prefix_rfl

/-- Where the documents of thread `t` will be -/
def place (fin : Threads) (t : Nat) (d : DocId) : DocId :=
  if h : d < (fin.mine t).length then (fin.mine t)[d] else fin.docs.length + d

section
variable {fin : Threads} (o : OwnDocs fin)
include o

theorem place_inj (t : Nat) (d e : DocId) (h : place fin t d = place fin t e) : d = e := by
  unfold place at h
  by_cases hd : d < (fin.mine t).length <;> by_cases he : e < (fin.mine t).length
  · rw [dif_pos hd, dif_pos he] at h
    have h' : (fin.mine t)[d]? = (fin.mine t)[e]? := by
      rw [List.getElem?_eq_getElem hd, List.getElem?_eq_getElem he, h]
    exact (List.getElem?_inj hd (o.nodup t)).1 h'
  · rw [dif_pos hd, dif_neg he] at h
    have := o.bound t _ (List.getElem_mem hd)
    rw [h] at this
    exact absurd this (Nat.not_lt.2 (Nat.le_add_right _ _))
  · rw [dif_neg hd, dif_pos he] at h
    have := o.bound t _ (List.getElem_mem he)
    rw [← h] at this
    exact absurd this (Nat.not_lt.2 (Nat.le_add_right _ _))
  · rw [dif_neg hd, dif_neg he] at h
    exact Nat.add_left_cancel h

theorem place_apart {t u : Nat} (htu : t ≠ u) {d : DocId} (hd : d < (fin.mine t).length) (e : DocId) :
    place fin t d ≠ place fin u e := by
  intro h
  unfold place at h
  rw [dif_pos hd] at h
  by_cases he : e < (fin.mine u).length
  · rw [dif_pos he] at h
    refine o.apart t u _ htu (List.getElem_mem hd) ?_
    rw [h]; exact List.getElem_mem he
  · rw [dif_neg he] at h
    have := o.bound t _ (List.getElem_mem hd)
    rw [h] at this
    exact absurd this (Nat.not_lt.2 (Nat.le_add_right _ _))

end

/-- The threads seen together and each alone -/
def Together (fin s : Threads) (alone : Nat → Threads) : Prop :=
  ∀ t, Emb (place fin t) (alone t).docs s.docs ∧ s.mine t = ((alone t).mine t).map (place fin t) ∧
    (alone t).mine t = List.range (alone t).docs.length

theorem interleaved_append {s s' s'' : Threads} {as bs : List (Nat × Act)} (h : Interleaved s as s')
    (h' : Interleaved s' bs s'') : Interleaved s (as ++ bs) s'' := by
  induction h with
  | nil => exact h'
  | cons a _ ih => exact .cons a (ih h')

theorem together_step {s fin : Threads} {u : Nat} {a : Act} {w' : World} {as : List (Nat × Act)}
    {alone : Nat → Threads} (o : OwnDocs s) (ha : Acts s u a w') (hr : Interleaved (s.grow u w') as fin)
    (ht : Together fin s alone) : ∃ w1', Acts (alone u) u a w1' ∧ Kept (place fin u) s.docs w' ∧
      Together fin (s.grow u w') (fun t => if t = u then (alone u).grow u w1' else alone t) := by
  have hl := acts_len ha
  have og := o.grow u hl
  obtain ⟨of, hlf, hpre⟩ := interleaved_own hr og
  obtain ⟨eu, mu, ru⟩ := ht u
  have hmlen : (s.mine u).length = (alone u).docs.length := by rw [mu, ru]; simp
  have hnew : ∀ i, s.docs.length + i < w'.length →
      place fin u ((alone u).docs.length + i) = s.docs.length + i := by
    intro i hi
    obtain ⟨rest, hrest⟩ := hpre u
    rw [grow_self] at hrest
    have hlt : (alone u).docs.length + i < (fin.mine u).length := by
      rw [← hrest]
      simp only [List.length_append, List.length_range', hmlen]
      omega
    unfold place
    rw [dif_pos hlt]
    have : (fin.mine u)[(alone u).docs.length + i]? = some (s.docs.length + i) := by
      rw [← hrest, List.getElem?_append_left (by simp only [List.length_append, List.length_range', hmlen]; omega),
        List.getElem?_append_right (by omega), hmlen, Nat.add_sub_cancel_left, List.getElem?_range' (by omega)]
      simp
    rw [List.getElem?_eq_getElem hlt] at this
    exact Option.some.inj this
  obtain ⟨w1', g1, g2, g3, g4⟩ := acts_moves ha eu mu hnew
  have hl1 := acts_len g1
  refine ⟨w1', g1, g4, ?_⟩
  intro t
  by_cases htu : t = u
  · subst htu
    simp only [if_true]
    refine ⟨g2, ?_, ?_⟩
    · rw [grow_self, grow_self, List.map_append, ← mu]
      congr 1
      apply List.ext_getElem
      · simp only [List.length_range', List.length_map]; omega
      · intro i h1 h2
        simp only [List.length_range'] at h1
        simp only [List.getElem_map, List.getElem_range', Nat.one_mul]
        exact (hnew i (by omega)).symm
    · rw [grow_self, ru]
      show _ = List.range w1'.length
      rw [List.range_eq_range', List.range_eq_range']
      have := List.range'_append_1 (s := 0) (m := (alone t).docs.length) (n := w1'.length - (alone t).docs.length)
      rw [Nat.zero_add] at this
      rw [this]
      congr 1
      omega
  · simp only [if_neg htu]
    obtain ⟨et, mt, rt⟩ := ht t
    rw [grow_other s htu]
    refine ⟨⟨et.inj, fun d => ?_⟩, mt, rt⟩
    show w'[place fin t d]? = _
    rw [← et.same d]
    by_cases hlt : place fin t d < s.docs.length
    · refine g4.2 _ hlt fun e => ?_
      refine place_apart of htu ?_ e
      rcases Nat.lt_or_ge d (fin.mine t).length with hd | hd
      · exact hd
      · unfold place at hlt
        rw [dif_neg (Nat.not_lt.2 hd)] at hlt
        exact absurd (Nat.lt_of_lt_of_le hlt (Nat.le_trans hl hlf)) (Nat.not_lt.2 (Nat.le_add_right _ _))
    · have hge : s.docs.length ≤ place fin t d := Nat.le_of_not_lt hlt
      rw [List.getElem?_eq_none hge]
      apply List.getElem?_eq_none
      rcases Nat.lt_or_ge (place fin t d) w'.length with hw | hw
      · exfalso
        rcases Nat.lt_or_ge d (fin.mine t).length with hd | hd
        · have := hnew (place fin t d - s.docs.length) (by
            exact (by omega : s.docs.length + ((place fin t d : Nat) - s.docs.length) < w'.length))
          refine place_apart of htu hd _ (this.trans ?_).symm
          exact (by omega : (s.docs.length + ((place fin t d : Nat) - s.docs.length) : Nat) = place fin t d)
        · unfold place at hw
          rw [dif_neg (Nat.not_lt.2 hd)] at hw
          exact absurd (Nat.lt_of_lt_of_le hw hlf) (Nat.not_lt.2 (Nat.le_add_right _ _))
      · exact hw

theorem together {s s' fin : Threads} {as bs : List (Nat × Act)} (h : Interleaved s as s')
    (hr : Interleaved s' bs fin) : OwnDocs s → ∀ alone, Together fin s alone →
    ∃ alone', (∀ t, Interleaved (alone t) (onlyOf t as) (alone' t)) ∧ Together fin s' alone' := by
  induction h with
  | nil => exact fun _ alone ht => ⟨alone, fun t => .nil, ht⟩
  | @cons s s' u a w' as ha hrest ih =>
    intro o alone ht
    obtain ⟨w1', g1, _, g2⟩ := together_step o ha (interleaved_append hrest hr) ht
    obtain ⟨alone', k1, k2⟩ := ih hr (o.grow u (acts_len ha)) _ g2
    refine ⟨alone', fun t => ?_, k2⟩
    have := k1 t
    by_cases htu : t = u
    · subst htu
      simp only [if_true] at this
      simp only [onlyOf, List.filter_cons, beq_self_eq_true, if_true]
      exact .cons g1 this
    · simp only [if_neg htu] at this
      have hb : (u == t) = false := by simp; exact Ne.symm htu
      simp only [onlyOf, List.filter_cons, hb, Bool.false_eq_true, if_false]
      exact this

end

end Docx
