import Verif.SpecDress
import Verif.Props.Makes
import Verif.Props.Setters

/-!
# C101 The formatting that calls set is in the file
-/

namespace Docx

/-! ## One call -/

theorem dress_modPara {items : List BItem} {l : Loc} {g : Para → Para} {k : ParaDress → ParaDress}
    (h : ∀ p, getPara items l = some p → paraDress (g p) = k (paraDress p)) :
    (modPara items l g).map itemDress = dressAt l k (items.map itemDress) := by
  cases l with
  | body i =>
    simp only [modPara, dressAt]
    refine map_modify_at fun a ha => ?_
    cases a with
    | para p => simp [itemDress, h p (by simp [getPara, ha])]
    | _ => rfl
  | cell i r c j =>
    simp only [modPara, dressAt]
    refine map_modify_at fun a ha => ?_
    cases a with
    | table t =>
      simp only [itemDress, Dress.table.injEq, true_and]
      refine map_modify_at fun row hrow => ?_
      simp only [Prod.mk.injEq, true_and]
      refine map_modify_at fun cell hcell => ?_
      simp only [Prod.mk.injEq, true_and]
      refine map_modify_at fun p hp => ?_
      exact h p (by simp [getPara, ha, hrow, hcell, hp])
    | _ => rfl

theorem dressAt_id (l : Loc) (ds : List Dress) : dressAt l id ds = ds := by
  cases l with
  | body i => exact modify_self fun a _ => by cases a <;> rfl
  | cell i r c j =>
    refine modify_self fun a _ => ?_
    cases a with
    | table ps gr rows =>
      simp only [Dress.table.injEq, true_and]
      refine modify_self fun row _ => ?_
      rw [modify_self fun cell _ => by rw [List.modify_id]]
    | _ => rfl

theorem dress_addRun (p : Para) (r : Run) (h : r.rpr = some {}) :
    paraDress (p.addRun r) = { paraDress p with runs := (paraDress p).runs ++ [("*docx.Run", some {})] } := by
  simp [paraDress, Para.addRun, childDress, h]

theorem dress_addText (p : Para) (s : String) :
    paraDress (p.addText s).1 = { paraDress p with runs := (paraDress p).runs ++ [("*docx.Run", some {})] } := by
  unfold Para.addText
  split
  · exact dress_addRun _ _ rfl
  · exact dress_addRun _ _ rfl

theorem dress_table (width : Int64) (colors : Option BorderColors) :
    mkTblPr width (colors.getD {}).applyDefault = freshTable width colors := rfl

theorem dropPChildren_dress (t : Drawing → Bool) (cs : List PChild) :
    (dropPChildren t cs).map childDress = cs.map childDress := by
  induction cs with
  | nil => rfl
  | cons c cs ih =>
    cases c <;> simp [dropPChildren, ih, childDress]

theorem dropPara_dress (name : String) (p : Para) : paraDress (dropPara name p) = paraDress p := by
  unfold dropPara
  split
  · rename_i f hm
    unfold dropMethod at hm
    repeat' split at hm
    all_goals first | cases hm | skip
    all_goals unfold paraDress
    all_goals exact congrArg (ParaDress.mk _) (dropPChildren_dress _ _)
  · rfl

theorem dress_format {f : Doc} {l : Loc} {g : Para → Para} (h : ∀ p, paraDress (g p) = paraDress p) :
    Doc.dress { f with items := modPara f.items l g } = f.dress := by
  show (modPara f.items l g).map itemDress = _
  rw [dress_modPara (k := id) fun p _ => h p, dressAt_id]
  rfl

section
variable [GoEnv] [ImgEnv] {Q : String → Prop} {me : DocId}

/-- What `Call.dresses` says of one call -/
theorem dress_step {f f' : Doc} {bs : List Block} {c : Call} {w w' : World} (h : BuiltUp Q me f bs)
    (hw : w[me]? = some f) (hs : step w (c.op me) = .ok w') (hf' : w'[me]? = some f') :
    f'.dress = c.dresses f.dress := by
  have got : ∀ {g : Doc}, w' = w.set me g → f' = g := by
    rintro g rfl
    rw [List.getElem?_set_self (lt_of_getElem? hw)] at hf'
    exact (Option.some.inj hf').symm
  -- calls at a paragraph
  have para : ∀ {l : Loc} {act : Doc → Para → Res (Doc × Para)} {k : ParaDress → ParaDress},
      World.onPara w me l act = .ok w' →
      (∀ p f1 p1, act f p = .ok (f1, p1) → f1.items = f.items ∧ paraDress p1 = k (paraDress p)) →
      f'.dress = dressAt l k f.dress := by
    intro l act k h1 h2
    obtain ⟨p, f1, p1, hgp, hact, e⟩ := onPara_own h hw h1
    obtain ⟨i1, i2⟩ := h2 p f1 p1 hact
    rw [got e]
    show (modPara f1.items l fun _ => p1).map itemDress = _
    rw [i1]
    refine dress_modPara fun q hq => ?_
    rw [hgp] at hq
    cases hq
    exact i2
  -- edits
  have edit : ∀ {act : Doc → Res Doc}, World.onDoc w me act = .ok w' → act f = .ok f' := by
    intro act h1
    obtain ⟨f1, h2, e⟩ := onDoc_one hw h1
    rw [got e]
    exact h2
  cases c with
  | paragraph => cases edit hs; exact List.map_append
  | cellParagraph i r c =>
    cases edit hs
    refine map_modify_at fun a _ => ?_
    cases a with
    | table t =>
      simp only [itemDress, Dress.table.injEq, true_and]
      refine map_modify_at fun row _ => ?_
      simp only [Prod.mk.injEq, true_and]
      refine map_modify_at fun cell _ => ?_
      simp [Cell.addParagraph, paraDress]
    | _ => rfl
  | table rows cols width colors =>
    have h1 := edit hs
    simp only [Doc.addTable] at h1
    split at h1
    · rename_i h2
      split at h2
      · cases h2
      · split at h2
        · cases h2
        · cases h2
          cases h1
          refine List.map_append.trans (congrArg (f.dress ++ ·) ?_)
          simp [itemDress, dress_table]
    · cases h1
    · cases h1
  | tableTwips heights widths width colors =>
    cases edit hs
    refine List.map_append.trans (congrArg (f.dress ++ ·) ?_)
    simp [itemDress, dress_table, Function.comp_def]
  | a3 => cases edit hs; exact List.map_append
  | a4 => cases edit hs; exact List.map_append
  | text l s =>
    exact para hs fun p f1 p1 h1 => by cases h1; exact ⟨rfl, dress_addText _ _⟩
  | tab l => cases edit hs; exact dress_modPara fun p _ => dress_addRun p _ rfl
  | pageBreak l => cases edit hs; exact dress_modPara fun p _ => dress_addRun p _ rfl
  | link l label target =>
    exact para hs fun p f1 p1 h1 => by cases h1; exact ⟨rfl, by simp [paraDress, Para.addLink, childDress]⟩
  | picture inline l pic =>
    have key : ∀ {act : Doc → Para → Res (Doc × Para)} (mk : Int64 → Int64 → String → Int64 → Int64 → Drawing),
        World.onPara w me l act = .ok w' →
        (∀ f p, act f p = match f.addPicture pic with
          | (f', .ok (idn, id, rid, x, y)) => .ok (f', p.addRun (drawingRun (mk idn id rid x y)))
          | (f', .err _) => .ok (f', p)
          | (_, .panic) => .panic) →
        f'.dress = (Call.picture inline l pic).dresses f.dress := by
      intro act mk h1 h2
      simp only [Call.dresses]
      cases hd : ImgEnv.decodeSize pic with
      | none =>
        rw [para (k := id) h1 fun p f1 p1 h3 => ?_, dressAt_id]
        simp only [h2, Doc.addPicture, hd] at h3
        cases h3
        exact ⟨rfl, rfl⟩
      | some sz =>
        obtain ⟨w0, h0, fmt⟩ := sz
        refine para h1 fun p f1 p1 h3 => ?_
        simp only [h2, Doc.addPicture, hd] at h3
        cases hsc : scaleSize w0 h0 with
        | none => rw [hsc] at h3; cases h3
        | some xy =>
          rw [hsc] at h3
          cases h3
          exact ⟨rfl, dress_addRun _ _ rfl⟩
    cases inline with
    | true =>
      refine key (fun idn id rid x y => { inl := some (mkInlinePic idn id rid x y) }) hs fun f p => ?_
      simp only [Para.addInlineDrawing]
      rcases f.addPicture pic with ⟨f', _ | _ | _⟩ <;> rfl
    | false =>
      refine key (fun idn id rid x y => { anchor := some (mkAnchorPic idn id rid x y) }) hs fun f p => ?_
      simp only [Para.addAnchorDrawing]
      rcases f.addPicture pic with ⟨f', _ | _ | _⟩ <;> rfl
  | shape inline l x y name bw kind ln =>
    cases inline with
    | true => exact para hs fun p f1 p1 h1 => by cases h1; exact ⟨rfl, dress_addRun _ _ rfl⟩
    | false => exact para hs fun p f1 p1 h1 => by cases h1; exact ⟨rfl, dress_addRun _ _ rfl⟩
  | formatRun l k φ =>
    cases edit hs
    refine dress_modPara fun p _ => ?_
    simp only [paraDress, ParaDress.mk.injEq, true_and]
    exact map_modify_at fun c _ => by cases c <;> rfl
  | formatPara l φ => cases edit hs; exact dress_modPara fun p _ => rfl
  | formatTable i φ => cases edit hs; exact map_modify_at fun a _ => by cases a <;> rfl
  | formatRow i r φ =>
    cases edit hs
    refine map_modify_at fun a _ => ?_
    cases a with
    | table t =>
      simp only [itemDress, Dress.table.injEq, true_and]
      exact map_modify_at fun row _ => rfl
    | _ => rfl
  | formatCell i r c φ =>
    cases edit hs
    refine map_modify_at fun a _ => ?_
    cases a with
    | table t =>
      simp only [itemDress, Dress.table.injEq, true_and]
      refine map_modify_at fun row _ => ?_
      simp only [Prod.mk.injEq, true_and]
      exact map_modify_at fun cell _ => rfl
    | _ => rfl
  | resize l k x y =>
    cases edit hs
    refine dress_format fun p => ?_
    simp only [paraDress, ParaDress.mk.injEq, true_and]
    exact map_modify_id fun c => by cases c <;> rfl
  | textTab l s =>
    cases edit hs
    refine dress_modPara fun p _ => dress_addRun p _ ?_
    unfold Para.addText
    split <;> rfl
  | place l k x y z =>
    cases edit hs
    refine dress_format fun p => ?_
    simp only [paraDress, ParaDress.mk.injEq, true_and]
    exact map_modify_id fun c => by cases c <;> rfl
  | keep names =>
    cases edit hs
    show (keepBody names f.items).map itemDress = (f.items.map itemDress).filter _
    rw [keepBody, keepLoop_filter, List.filter_map]
    congr 1
    exact List.filter_congr fun x _ => by cases x <;> rfl
  | drop name =>
    cases edit hs
    show (dropDrawingOf name f.items).map itemDress = f.items.map itemDress
    rw [dropDrawingOf_each, List.map_map]
    refine List.map_congr_left fun x _ => ?_
    cases x with
    | para p => exact congrArg Dress.para (dropPara_dress name p)
    | sect s => rfl
    | table t =>
      simp only [Function.comp_apply, itemDress, List.map_map, Dress.table.injEq, true_and]
      refine List.map_congr_left fun r _ => ?_
      simp only [Function.comp_apply, dropRow, List.map_map, Prod.mk.injEq, true_and]
      refine List.map_congr_left fun c _ => ?_
      simp only [Function.comp_apply, dropCell, List.map_map, Prod.mk.injEq, true_and]
      exact List.map_congr_left fun p _ => dropPara_dress name p
  | keepIn l names =>
    cases edit hs
    refine dress_modPara fun p _ => ?_
    simp only [paraDress, Para.keepElements, keepLoop_filter, ParaDress.mk.injEq, true_and]
    rw [List.filter_map]
    congr 1
    exact List.filter_congr fun x _ => by cases x <;> rfl
  | dropIn l name => cases edit hs; exact dress_format fun p => dropPara_dress name p

end

/-! ## Copies -/

theorem copied_para {src to : DocId} {s T : Doc} {p p' : Para} (h : ParaCopied (viewRules src s to T) to p p')
    (ho : OwnPara src p) (hk : Bit.other ∉ viewPara s.referTarget s.pictureData p) : paraDress p' = paraDress p := by
  obtain ⟨h1, _, h3⟩ := h
  rw [ho.1] at h3
  unfold paraDress
  rw [h1]
  congr 1
  unfold viewPara at hk
  clear ho h1
  generalize p.children = cs at *
  generalize p'.children = cs' at *
  induction h3 with
  | nil => rfl
  | run hr _ ih =>
    rw [List.flatMap_cons, List.mem_append, not_or] at hk
    rw [List.map_cons, List.map_cons, ih hk.2]
    simp only [childDress, hr.2.1]
  | link hl hr _ ih =>
    rw [List.flatMap_cons, List.mem_append, not_or] at hk
    rw [List.map_cons, List.map_cons, ih hk.2]
    simp only [childDress, hr.2.1]
  | dropped hd _ ih =>
    rw [List.flatMap_cons, List.mem_append, not_or] at hk
    have hk1 := hk.1
    simp only [viewChild, hd rfl] at hk1
    simp at hk1
  | rpr _ ih =>
    rw [List.flatMap_cons, List.mem_append, not_or] at hk
    rw [List.map_cons, List.map_cons, ih hk.2]

theorem each_same {α β : Type} {P : α → α → Prop} {f : α → β} {as bs : List α} (h : Each P as bs)
    (hp : ∀ a ∈ as, ∀ b, P a b → f b = f a) : bs.map f = as.map f := by
  induction h with
  | nil => rfl
  | cons hab _ ih =>
    rw [List.map_cons, List.map_cons, ih fun a ha b => hp a (.tail _ ha) b, hp _ (.head _) _ hab]

theorem copied_item {src to : DocId} {s T : Doc} {x x' : BItem} (h : ItemCopied (viewRules src s to T) to x x')
    (ho : OwnItem src x) (hk : KnownBlock (viewItem s.referTarget s.pictureData x)) : itemDress x' = itemDress x := by
  cases x with
  | para p =>
    obtain ⟨p', rfl, h⟩ := h
    exact congrArg Dress.para (copied_para h ho hk)
  | sect c =>
    have e : x' = .sect c := h
    subst e
    rfl
  | table b =>
    obtain ⟨b', rfl, h1, h2, h⟩ := h
    simp only [itemDress, h1, h2, Dress.table.injEq, true_and]
    refine each_same h fun r hr r' hrr => ?_
    rw [hrr.1, Prod.mk.injEq]
    refine ⟨rfl, each_same hrr.2 fun c hc c' hcc => ?_⟩
    rw [hcc.1, Prod.mk.injEq]
    exact ⟨rfl, each_same hcc.2.2 fun p hp p' hpp => copied_para hpp ((ho r hr c hc).2 p hp)
      (hk _ (List.mem_map_of_mem hr) _ (List.mem_map_of_mem hc) _ (List.mem_map_of_mem hp))⟩

/-! ## Programs -/

theorem pieces_join {α : Type} (sep : α → Bool) : ∀ l : List α, (pieces sep l).flatten = l
  | [] => rfl
  | x :: xs => by
    have ih := pieces_join sep xs
    rw [pieces]
    revert ih
    rcases pieces sep xs with _ | ⟨_ | ⟨y, c⟩, cs⟩ <;> intro ih
    · simpa using ih
    · simpa using ih
    · dsimp only
      split <;> simpa using ih

theorem pieces_mem {α : Type} (sep : α → Bool) (l c : List α) (hc : c ∈ pieces sep l) (x : α) (hx : x ∈ c) : x ∈ l := by
  rw [← pieces_join sep l]
  exact List.mem_flatten.2 ⟨c, hc, hx⟩

section
variable [GoEnv] [ImgEnv]

theorem dressed_makes {w : World} {s : List (List Block)} {t : List (List Dress)} (h : Dressed w s t) : Makes w s := by
  induction h with
  | start => exact .start
  | new _ ih => exact .new ih
  | opening a g _ hu hs hl hn hk ih => exact .opening a g ih hu hs hl hn hk
  | call d c _ hs hl ih => exact .call d c ih hs hl
  | append to src _ hs hl ih => exact .append to src ih hs hl
  | split d sep q _ hs hq hl ih => exact .split d sep q ih hs hq hl
  | template d p l tf _ hs ih => exact .template d p l tf ih hs

theorem modify_set {α β : Type} {h : α → β} {k : β → β} {l : List α} {d : Nat} {x y : α} (hx : l[d]? = some x)
    (hy : h y = k (h x)) : (l.set d y).map h = (l.map h).modify d k := by
  apply List.ext_getElem?
  intro e
  rw [List.getElem?_map, List.getElem?_modify, List.getElem?_map]
  by_cases hde : d = e
  · subst hde
    rw [List.getElem?_set_self (lt_of_getElem? hx), hx]
    simp [hy]
  · rw [List.getElem?_set_ne hde]
    cases l[e]? <;> simp [hde]

theorem dressed_documents {w : World} {s : List (List Block)} {t : List (List Dress)} (h : Dressed w s t) :
    w.map Doc.dress = t := by
  induction h with
  | start => rfl
  | new _ ih => rw [List.map_append, ih]; rfl
  | opening a g _ _ _ _ _ _ ih => rw [List.map_append, ih]; rfl
  | @call w s t w' d c hm hs hl ih =>
    obtain ⟨i1, i2, i3, i4⟩ := makes_program (dressed_makes hm)
    have hd : d < w.length := by
      apply Classical.byContradiction
      intro hd
      have hnone : w[d]? = none := List.getElem?_eq_none (Nat.le_of_not_lt hd)
      cases c with
      | picture b l p => cases b <;> simp [Call.op, step, World.onPara, hnone] at hs
      | shape b l x y n m k ln => cases b <;> simp [Call.op, step, World.onPara, hnone] at hs
      | _ => simp [Call.op, step, World.onPara, World.onDoc, hnone] at hs
    have hw := List.getElem?_eq_getElem hd
    have hb0 := i4 d _ _ hw (List.getElem?_eq_getElem (i2 ▸ hd))
    obtain ⟨f', rfl, hb⟩ := built_step hb0 (fun g hg => hl g (List.mem_of_getElem? hg)) (fun _ _ _ _ _ _ => trivial) hw hs
    rw [← ih]
    exact modify_set hw (dress_step hb0 hw hs (List.getElem?_set_self hd))
  | @append w s t w' to src hm hs hl ih =>
    obtain ⟨i1, i2, i3, i4⟩ := makes_program (dressed_makes hm)
    simp only [step] at hs
    cases hto : w[to]? with
    | none => rw [hto] at hs; cases hs
    | some d =>
      rw [hto] at hs
      dsimp only at hs
      cases hsrc : w[src]? with
      | none => simp [World.appendFile, hsrc] at hs
      | some sd =>
        have h1 := List.getElem?_eq_getElem (l := s) (i := to) (i2 ▸ lt_of_getElem? hto)
        have h2 := List.getElem?_eq_getElem (l := s) (i := src) (i2 ▸ lt_of_getElem? hsrc)
        have bS := i4 src _ _ hsrc h2
        obtain ⟨T, rfl, _, copies, e1, e2⟩ := built_append hto hsrc (i4 to _ _ hto h1) bS hs hl
        rw [← ih]
        refine modify_set hto ?_
        rw [List.getElem?_map, hsrc]
        show T.items.map itemDress = d.items.map itemDress ++ sd.items.map itemDress
        rw [e1, List.map_append, each_same e2 fun x hx x' hxx => copied_item hxx (bS.own x hx) (bS.known _ (by
          rw [← bS.shows]; exact List.mem_map_of_mem hx))]
  | @split w s t w' d sep q hm hs hq hl ih =>
    obtain ⟨i1, i2, i3, i4⟩ := makes_program (dressed_makes hm)
    simp only [step] at hs
    split at hs
    · rename_i w1 ds hsp
      cases hs
      cases hd : w[d]? with
      | none => simp [World.splitByParagraph, hd] at hsp
      | some f =>
        obtain ⟨b0, hsd⟩ : ∃ b0, s[d]? = some b0 :=
          ⟨_, List.getElem?_eq_getElem (l := s) (i := d) (i2 ▸ lt_of_getElem? hd)⟩
        have hb := i4 d _ _ hd hsd
        obtain ⟨k1, k2, _, k4⟩ := built_split hd hb (fun p v hp hv => hq f p v hd hp hv) hsp hl
        rw [hsd, ← ih, List.getElem?_map, hd]
        have hcut : (pieces (fun x : Block × Dress => Block.accepted q x.1) (b0.zip f.dress)).map (·.map (·.2)) =
            (pieces (fun x => Block.accepted q (viewItem f.referTarget f.pictureData x)) f.items).map (·.map itemDress) := by
          rw [← hb.shows]
          show (pieces _ ((f.items.map (viewItem f.referTarget f.pictureData)).zip (f.items.map itemDress))).map _ = _
          rw [List.zip_map', ← pieces_image, List.map_map]
          refine List.map_congr_left fun c _ => ?_
          simp
        show _ = _ ++ (pieces (fun x : Block × Dress => Block.accepted q x.1) (b0.zip f.dress)).map (·.map (·.2))
        rw [hcut]
        have hlen : (pieces (fun x => Block.accepted q (viewItem f.referTarget f.pictureData x)) f.items).length =
            (pieces (Block.accepted q) b0).length := by
          rw [← hb.shows]
          show _ = (pieces _ (f.items.map _)).length
          rw [← pieces_image, List.length_map]
        apply List.ext_getElem?
        intro e
        by_cases he : e < w.length
        · rw [List.getElem?_append_left (by simpa using he), List.getElem?_map, List.getElem?_map,
            List.getElem?_eq_getElem he, k1 e _ (List.getElem?_eq_getElem he)]
        · obtain ⟨k, rfl⟩ := Nat.exists_eq_add_of_le (Nat.le_of_not_lt he)
          rw [List.getElem?_append_right (by simp), List.length_map, Nat.add_sub_cancel_left, List.getElem?_map,
            List.getElem?_map]
          cases hT : w'[w.length + k]? with
          | none =>
            have := List.getElem?_eq_none_iff.1 hT
            rw [List.getElem?_eq_none (by rw [hlen]; omega)]
            rfl
          | some T =>
            obtain ⟨b, _, _, c, hc, hcp⟩ := k4 k T hT
            rw [hc]
            have hmem : ∀ x ∈ c, x ∈ f.items := fun x hx => pieces_mem _ _ _ (List.mem_of_getElem? hc) x hx
            exact congrArg some (each_same hcp fun x hx x' hxx => copied_item hxx (hb.own x (hmem x hx))
              (hb.known _ (by rw [← hb.shows]; exact List.mem_map_of_mem (hmem x hx))))
    · cases hs
    · cases hs
  | @template w s t w' d p l tf _ hs ih =>
    simp only [step, World.onDoc] at hs
    cases hd : w[d]? with
    | none => rw [hd] at hs; cases hs
    | some f =>
      rw [hd] at hs
      obtain rfl : w.set d (f.useTemplate p l tf) = w' := by simpa using hs
      rw [← ih, modify_set (h := Doc.dress) (k := id) (y := f.useTemplate p l tf) hd rfl, List.modify_id]

/-- Several building calls on one document -/
theorem dressed_calls {cs : List Call} {d : DocId} : ∀ {w w' : World} {s : List (List Block)} {t : List (List Dress)},
    Dressed w s t → run w (cs.map (Call.op d)) = .ok w' → (∀ f ∈ w', f.rels.length < 2 ^ 62) →
    Dressed w' (s.modify d fun bs => cs.foldl (fun bs c => c.does bs) bs)
      (t.modify d fun ds => cs.foldl (fun ds c => c.dresses ds) ds) := by
  induction cs with
  | nil =>
    intro w w' s t h hr _
    simp only [List.map_nil, run, Res.ok.injEq] at hr
    subst hr
    simp only [List.foldl_nil]
    rw [show s.modify d (fun bs => bs) = s from List.modify_id d s,
      show t.modify d (fun bs => bs) = t from List.modify_id d t]
    exact h
  | cons c cs ih =>
    intro w w' s t h hr hl
    simp only [List.map_cons, run] at hr
    split at hr
    · rename_i w1 h1
      have hl1 : ∀ f ∈ w1, f.rels.length < 2 ^ 62 := by
        intro f hf
        obtain ⟨e, he⟩ := List.getElem?_of_mem hf
        obtain ⟨f', hf', ev⟩ := (run_wevo hr).old e f he
        have := ev.rels_le
        have := hl f' (List.mem_of_getElem? hf')
        omega
      have := ih (.call d c h h1 hl1) hr hl
      rw [List.modify_modify_eq, List.modify_modify_eq] at this
      exact this
    · cases hr
    · cases hr

/-- **C101, in memory.** A program makes a document and calls the functions that build and format it, in any order, at
any place, with any arguments.  Every paragraph, run, link, table, row and cell then has the formatting that the calls
say, and no other. -/
theorem C101_built (cs : List Call) (w : World) (hr : run [] (.new :: cs.map (Call.op 0)) = .ok w)
    (hl : ∀ f ∈ w, f.rels.length < 2 ^ 62) : ∃ f, w = [f] ∧ f.dress = dressOf cs := by
  obtain ⟨f, rfl, _⟩ := built_calls hr hl
  exact ⟨f, rfl, (List.cons.inj (dressed_documents (dressed_calls (.new .start) hr hl))).1⟩

/-- **C101, several documents.** A program makes, opens, formats, appends and splits documents.  The formatting of
every document is the one that the calls say: appended documents and the pieces of a split document keep theirs. -/
theorem C101_documents (w : World) (s : List (List Block)) (t : List (List Dress)) (h : Dressed w s t) :
    w.map Doc.shows = s ∧ w.map Doc.dress = t :=
  ⟨C99_documents w s (dressed_makes h), dressed_documents h⟩

/-! ## Saving -/

theorem dress_savedPara (me : DocId) (p : Para) : paraDress (normPara (some me) (clPara p)) = dressedPara (paraDress p) := by
  obtain ⟨pp, cs, fl⟩ := p
  simp only [clPara, normPara, paraDress, dressedPara, clPChildren_map, normPChildren_map, List.map_map,
    ParaDress.mk.injEq]
  refine ⟨by cases pp <;> rfl, List.map_congr_left fun c _ => ?_⟩
  cases c with
  | run r =>
    obtain ⟨a, b, c, d⟩ := r
    simp [clPChild, clRun, normPChild, normRun, childDress]
  | link h =>
    obtain ⟨i, ⟨a, b, c, d⟩⟩ := h
    simp [clPChild, clRun, normPChild, normLink, normRun, childDress]
  | rpr x => simp [clPChild, normPChild, childDress]

theorem dress_savedItem (me : DocId) (x : BItem) : itemDress (normItem (some me) (clItem x)) = savedDress (itemDress x) := by
  cases x with
  | para p => exact congrArg Dress.para (dress_savedPara me p)
  | sect s => rfl
  | table t =>
    simp only [clItem, normItem, clTable, normTable, itemDress, savedDress, Dress.table.injEq]
    refine ⟨by cases t.props <;> rfl, trivial, ?_⟩
    simp only [List.map_map]
    refine List.map_congr_left fun r _ => ?_
    simp only [Function.comp_apply, clRow, normRow, List.map_map, Prod.mk.injEq, true_and]
    refine List.map_congr_left fun c _ => ?_
    simp only [Function.comp_apply, clCell, normCell, List.map_map, Prod.mk.injEq, true_and]
    exact List.map_congr_left fun p _ => dress_savedPara me p

/-- **C101, in the file.** Any document of any program, opened files included, is saved and opened again.  The opened
document has the same formatting everywhere, except that characters that XML cannot carry are replaced, that the
numbering of paragraphs is lost, and that columns without a width are lost and numbers in the look of a table are
reduced to their first digit. -/
theorem C101_file (w : World) (h : Program w) (f : Doc) (hf : f ∈ w) (out : Saved) (ho : Saves f out none) (me : DocId) :
    ∃ g, unpack me (reread out) = (g, none) ∧ g.dress = f.dress.map savedDress := by
  obtain ⟨h1, h2⟩ := program_fine h f hf
  obtain ⟨g, g1, _, _, g4, _⟩ := C87_opens f out ho (h1.good h2) me
  refine ⟨g, g1, ?_⟩
  show g.items.map itemDress = (f.items.map itemDress).map savedDress
  rw [g4, normBody, List.map_map, List.map_map, List.map_map]
  exact List.map_congr_left fun x _ => dress_savedItem me x

/-- **C101, built, saved and opened.** -/
theorem C101_calls (cs : List Call) (w : World) (hr : run [] (.new :: cs.map (Call.op 0)) = .ok w)
    (hl : ∀ f ∈ w, f.rels.length < 2 ^ 62) :
    ∃ f, w = [f] ∧ ∀ out, Saves f out none → ∀ me, ∃ g, unpack me (reread out) = (g, none) ∧
      g.dress = (dressOf cs).map savedDress := by
  obtain ⟨f, rfl, hd⟩ := C101_built cs w hr hl
  refine ⟨f, rfl, fun out ho me => ?_⟩
  rw [← hd]
  exact C101_file [f] (program_run .start hr hl) f (by simp) out ho me

end

/-! ## The setters of the API are such calls -/

/-- **C101, the setters of runs.** A chain of calls like `r.Color("ff0000").Bold()` is one change of the formatting:
every property that is named has the last value given, every other property is left. -/
theorem C101_run_setters (ss : List RSetter) : ∃ φ : RPr → RPr, ∀ (r : Run) (p : RPr), r.rpr = some p →
    RSetter.chain ss r = .ok { r with rpr := some (φ p) } ∧
    ∀ a, (φ p).get a = (RSetter.last a ss).getD (p.get a) := by
  have one : ∀ s : RSetter, ∃ φ : RPr → RPr, ∀ (r : Run) (p : RPr), r.rpr = some p →
      s.apply r = .ok { r with rpr := some (φ p) } := by
    intro s
    cases s <;>
      simp only [RSetter.apply, Run.setColor, Run.setSize, Run.setSizeCs, Run.setShade, Run.setSpacing,
        Run.setBold, Run.setItalic, Run.setUnderline, Run.setHighlight, Run.setStrike, Run.setFont, Run.setProp] <;>
      exact ⟨_, fun r p hp => by rw [hp]⟩
  have all : ∀ ss : List RSetter, ∃ φ : RPr → RPr, ∀ (r : Run) (p : RPr), r.rpr = some p →
      RSetter.chain ss r = .ok { r with rpr := some (φ p) } := by
    intro ss
    induction ss with
    | nil =>
      refine ⟨id, fun r p hp => ?_⟩
      obtain ⟨a, b, c, d⟩ := r
      cases hp
      rfl
    | cons s ss ih =>
      obtain ⟨φ, h1⟩ := one s
      obtain ⟨ψ, h2⟩ := ih
      refine ⟨ψ ∘ φ, fun r p hp => ?_⟩
      rw [RSetter.chain, h1 r p hp]
      exact h2 _ _ rfl
  obtain ⟨φ, h⟩ := all ss
  refine ⟨φ, fun r p hp => ⟨h r p hp, ?_⟩⟩
  obtain ⟨p', e, h'⟩ := C14_run_chain ss r _ p hp (h r p hp)
  have : φ p = p' := by
    have := congrArg Run.rpr e
    simpa using this
  rw [this]
  exact h'

/-- **C101, the setters of paragraphs.** -/
theorem C101_para_setters (s : PSetter) : ∃ φ : Option PPr → Option PPr, ∀ p : Para,
    s.apply p = { p with props := φ p.props } ∧ ({ p with props := φ p.props } : Para).get s.field = s.value ∧
    ∀ a, a ≠ s.field → ({ p with props := φ p.props } : Para).get a = p.get a := by
  have : HashEnv := hashEnv
  have one : ∃ φ : Option PPr → Option PPr, ∀ p : Para, s.apply p = { p with props := φ p.props } := by
    cases s with
    | justification v => exact ⟨fun x => some { x.getD {} with jc := some v }, fun p => rfl⟩
    | style v => exact ⟨fun x => some { x.getD {} with style := some v }, fun p => rfl⟩
    | numPr a b => exact ⟨fun x => (PSetter.apply (.numPr a b) { props := x }).props, fun p => rfl⟩
    | numFont a b c d => exact ⟨fun x => (PSetter.apply (.numFont a b c d) { props := x }).props, fun p => rfl⟩
    | numSize v => exact ⟨fun x => (PSetter.apply (.numSize v) { props := x }).props, fun p => rfl⟩
  obtain ⟨φ, h⟩ := one
  refine ⟨φ, fun p => ?_⟩
  have h2 := C14_para_setter s p
  rw [h p] at h2
  exact ⟨h p, h2.1, h2.2.1⟩

/-! ## Case: a formatted text and a table in a document that is appended to itself -/

local instance dressEnv : GoEnv := ⟨fun _ => none, fun _ => false, fun _ => false⟩
local instance dressImg : ImgEnv := ⟨fun _ => none⟩

/-- The calls -/
def dressCalls : List Call :=
  [.paragraph, .text (.body 0) "t", .link (.body 0) "x" "http://x/",
   .formatRun (.body 0) 0 (fun p => { p with bold := true, color := some "ff0000" }),
   .formatPara (.body 0) (fun p => some { p.getD {} with jc := some "center" }),
   .tableTwips [300, 0] [500] 9000 none, .cellParagraph 1 1 0, .text (.cell 1 1 0 0) "u",
   .formatCell 1 1 0 (fun p => p.map fun p => { p with shade := some { fill := "eeeeee" } })]

/-- What they say -/
def dressCase : List Dress :=
  [.para ⟨some { jc := some "center" }, [("*docx.Run", some { bold := true, color := some "ff0000" }),
     ("*docx.Hyperlink", some { runStyle := some "a3" })]⟩,
   .table (some (freshTable 9000 none)) (some [some 500])
     [(some { height := some { val := 300 } }, [(some { width := some { w := 500, type := "dxa" } }, [])]),
      (some {}, [(some { width := some { w := 500, type := "dxa" }, shade := some { fill := "eeeeee" } },
        [⟨none, [("*docx.Run", some {})]⟩])])]]

example : dressOf dressCalls = dressCase := by decide +kernel
example : dressCase.map savedDress = dressCase := by decide +kernel

example : ∃ (f g : Doc) (out : Saved), Dressed [f] [result dressCalls ++ result dressCalls] [dressCase ++ dressCase] ∧
    f.dress = dressCase ++ dressCase ∧ Saves f out none ∧ unpack 1 (reread out) = (g, none) ∧
    g.dress = dressCase ++ dressCase := by
  have key : (match run [] (.new :: dressCalls.map (Call.op 0)) with
    | .ok [f] => f.rels.length == 4 && (match step [f] (.append 0 0) with
      | .ok [f] => f.rels.length == 5 && f.media.isEmpty && f.tmpfslst.isEmpty
      | _ => false)
    | _ => false) = true := by decide +kernel
  have hsmall : ∀ {f : Doc} {n : Nat}, f.rels.length = n → n < 2 ^ 62 → ∀ g ∈ [f], g.rels.length < 2 ^ 62 := by
    intro f n h1 h2 g hg
    obtain rfl := List.mem_singleton.1 hg
    omega
  split at key
  · rename_i f hr
    simp only [Bool.and_eq_true, beq_iff_eq] at key
    obtain ⟨l1, key⟩ := key
    have m1 := dressed_calls (.new .start) hr (hsmall l1 (by decide))
    split at key
    · rename_i f' hs
      simp only [Bool.and_eq_true, beq_iff_eq, List.isEmpty_iff] at key
      obtain ⟨⟨l2, l3⟩, l4⟩ := key
      have m2 := Dressed.append 0 0 m1 hs (hsmall l2 (by decide))
      have e : dressOf dressCalls = dressCase := by decide +kernel
      have m2 : Dressed [f'] [result dressCalls ++ result dressCalls] [dressOf dressCalls ++ dressOf dressCalls] := m2
      rw [e] at m2
      obtain ⟨out, e1, ho⟩ := C53_returns f' (.inr l4)
      obtain rfl := C53_success f' (by simp [l4]) (by simp [l4]) (by simp [l3]) out e1 ho
      obtain ⟨g, g1, g2⟩ := C101_file [f'] (makes_program (dressed_makes m2)).1 f' (by simp) out ho 1
      have hd := (List.cons.inj (C101_documents _ _ _ m2).2).1
      have e2 : (dressCase ++ dressCase).map savedDress = dressCase ++ dressCase := by decide +kernel
      rw [hd, e2] at g2
      exact ⟨f', g, out, m2, hd, ho, g1, g2⟩
    · cases key
  · cases key

end Docx
