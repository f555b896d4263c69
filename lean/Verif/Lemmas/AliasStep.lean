import Verif.Lemmas.AliasDocs
import Verif.Lemmas.Owned

/-!
# Calls on documents with pointers and on documents of values
-/

set_option linter.unusedSectionVars false

namespace Docx

theorem map_modify' {α β : Type} (f : α → β) (g : α → α) (G : β → β) (h : ∀ a, f (g a) = G (f a)) (l : List α) (i : Nat) :
    (l.modify i g).map f = (l.map f).modify i G := by
  apply List.ext_getElem?
  intro j
  simp only [List.getElem?_map, List.getElem?_modify]
  cases l[j]? with
  | none => rfl
  | some a =>
    by_cases hij : i = j
    · simp [hij, h]
    · simp [hij]

theorem mem_flatMap_modify {α β : Type} {f : α → List β} {g : α → α} {Q : β → Prop} {l : List α} {i : Nat}
    (h : ∀ a, ∀ x ∈ f (g a), x ∈ f a ∨ Q x) : ∀ x ∈ (l.modify i g).flatMap f, x ∈ l.flatMap f ∨ Q x := by
  intro x hx
  obtain ⟨a, ha, hx⟩ := List.mem_flatMap.1 hx
  obtain ⟨j, hj⟩ := List.mem_iff_getElem?.1 ha
  rw [List.getElem?_modify] at hj
  cases hl : l[j]? with
  | none => simp [hl] at hj
  | some b =>
    have hb : b ∈ l := List.mem_iff_getElem?.2 ⟨j, hl⟩
    by_cases hij : i = j
    · simp only [hl, hij, ↓reduceIte, Option.map_eq_map, Option.map_some, Option.some.injEq] at hj
      subst hj
      rcases h b x hx with h | h
      · exact .inl (List.mem_flatMap.2 ⟨b, hb, h⟩)
      · exact .inr h
    · simp only [hl, hij, ↓reduceIte, Option.map_eq_map, Option.map_some, Option.some.injEq, id_eq] at hj
      subst hj
      exact .inl (List.mem_flatMap.2 ⟨b, hb, hx⟩)

theorem pgetPara_load (m : Mem) (its : List PItem) (l : Loc) :
    getPara (bodyVals m its) l = (pgetPara its l).map (·.load m) := by
  cases l with
  | body i =>
    simp only [getPara, pgetPara, bodyVals, List.getElem?_map]
    cases its[i]? with
    | none => rfl
    | some x => cases x <;> rfl
  | cell i r c j =>
    simp only [getPara, pgetPara, bodyVals, List.getElem?_map]
    cases its[i]? with
    | none => rfl
    | some x =>
      cases x with
      | para p => rfl
      | sect k => rfl
      | table t =>
        simp only [Option.map_some, PItem.load, PTable.load, List.getElem?_map]
        cases t.rows[r]? with
        | none => rfl
        | some row =>
          simp only [Option.map_some, Option.bind_eq_bind, Option.bind_some, PRow.load, List.getElem?_map]
          cases row.cells[c]? with
          | none => rfl
          | some cell => simp [PCell.load, List.getElem?_map]

theorem pmodPara_load (m : Mem) {g : PPara → PPara} {G : Para → Para} (h : ∀ p, (g p).load m = G (p.load m))
    (its : List PItem) (l : Loc) : bodyVals m (pmodPara its l g) = modPara (bodyVals m its) l G := by
  cases l with
  | body i =>
    simp only [bodyVals, modPara, pmodPara]
    apply map_modify'
    intro x
    cases x with
    | para p => exact congrArg BItem.para (h p)
    | table t => rfl
    | sect k => rfl
  | cell i r c j =>
    simp only [bodyVals, modPara, pmodPara]
    apply map_modify'
    intro x
    cases x with
    | para p => rfl
    | sect k => rfl
    | table t =>
      simp only [PItem.load, PTable.load, BItem.table.injEq, Table.mk.injEq, true_and]
      apply map_modify'
      intro row
      simp only [PRow.load, Row.mk.injEq, true_and]
      apply map_modify'
      intro cell
      simp only [PCell.load, Cell.mk.injEq, true_and, and_true]
      exact map_modify' _ _ _ h _ _

theorem pmodPara_refs (m : Mem) {g : PPara → PPara} {Q : Ref → Prop} (h : ∀ p, ∀ r ∈ (g p).refs m, r ∈ p.refs m ∨ Q r)
    (its : List PItem) (l : Loc) : ∀ r ∈ bodyRefs m (pmodPara its l g), r ∈ bodyRefs m its ∨ Q r := by
  cases l with
  | body i =>
    refine mem_flatMap_modify ?_
    intro x r hr
    cases x with
    | para p => exact h p r hr
    | table t => exact .inl hr
    | sect k => exact .inl hr
  | cell i r c j =>
    refine mem_flatMap_modify ?_
    intro x y hy
    cases x with
    | para p => exact .inl hy
    | sect k => exact .inl hy
    | table t =>
      simp only [PItem.refs, PTable.refs, List.mem_append] at hy ⊢
      rcases hy with hy | hy
      · exact .inl (.inl hy)
      · refine (mem_flatMap_modify ?_ y hy).imp .inr id
        intro row y hy
        simp only [PRow.refs, List.mem_append] at hy ⊢
        rcases hy with hy | hy
        · exact .inl (.inl hy)
        · refine (mem_flatMap_modify ?_ y hy).imp .inr id
          intro cell y hy
          simp only [PCell.refs, List.mem_append] at hy ⊢
          rcases hy with hy | hy
          · exact .inl (.inl hy)
          · exact (mem_flatMap_modify h y hy).imp .inr id

theorem modify_congr_at {α : Type} {l : List α} {i : Nat} {g g' : α → α} (h : ∀ a, l[i]? = some a → g a = g' a) :
    l.modify i g = l.modify i g' := by
  apply List.ext_getElem?
  intro j
  simp only [List.getElem?_modify]
  by_cases hij : i = j
  · subst hij
    cases hl : l[i]? with
    | none => rfl
    | some a => simp [h a hl]
  · simp [hij]

theorem modPara_congr {its : List BItem} {l : Loc} {p : Para} {g g' : Para → Para} (hp : getPara its l = some p)
    (h : g p = g' p) : modPara its l g = modPara its l g' := by
  cases l with
  | body i =>
    simp only [modPara]
    apply modify_congr_at
    intro x hx
    simp only [getPara, hx] at hp
    cases x with
    | para q => simp only [Option.some.injEq] at hp; subst hp; exact congrArg BItem.para h
    | table t => rfl
    | sect k => rfl
  | cell i r c j =>
    simp only [modPara]
    apply modify_congr_at
    intro x hx
    simp only [getPara, hx] at hp
    cases x with
    | para q => rfl
    | sect k => rfl
    | table t =>
      simp only [BItem.table.injEq, Table.mk.injEq, true_and]
      apply modify_congr_at
      intro row hr
      simp only [hr, Option.bind_eq_bind, Option.bind_some] at hp
      simp only [Row.mk.injEq, true_and]
      apply modify_congr_at
      intro cell hc
      simp only [hc, Option.bind_some] at hp
      simp only [Cell.mk.injEq, true_and, and_true]
      apply modify_congr_at
      intro q hq
      rw [hq] at hp
      obtain rfl := Option.some.inj hp
      exact h

/-- A call on document `d`: the other documents keep their items, and what is now reached from `d` was
reached from it or from `rs` before, or is new -/
structure Local (s : PWorld) (d : DocId) (rs : List Ref) (s' : PWorld) : Prop where
  ok : s'.Ok
  ext : Ext' s.mem s'.mem
  len : s'.items.length = s.items.length
  other : ∀ e : DocId, e ≠ d → s'.items[e]? = s.items[e]?
  here : ∀ xs', s'.items[d]? = some xs' → ∃ xs, s.items[d]? = some xs ∧
    ∀ r ∈ bodyRefs s'.mem xs', r ∈ bodyRefs s.mem xs ∨ r ∈ rs ∨ s.mem.length ≤ r.2

theorem Added.local {s s' : PWorld} {to : DocId} {rs : List Ref} (hs : s.Ok) (h : Added s to rs s') : Local s to rs s' := by
  refine ⟨h.ok, h.ext, h.len, h.other, ?_⟩
  intro xs' hx
  obtain ⟨xs, nw, h1, rfl, h2⟩ := h.here xs' hx
  refine ⟨xs, h1, ?_⟩
  intro r hr
  rw [bodyRefs_append] at hr
  rcases List.mem_append.1 hr with hr | hr
  · rw [body_frame.refs (h.ext.agree (hs.typed to xs h1))] at hr
    exact .inl hr
  · exact .inr (h2 r hr)

/-- Changing the items of one document in a bigger memory -/
theorem modify_local {s : PWorld} (hs : s.Ok) {d : DocId} {m : Mem} {docs : World} {g : List PItem → List PItem}
    (e : Ext' s.mem m) (hd : docs.length = s.docs.length)
    (ht : ∀ xs, s.items[d]? = some xs → Typed m (bodyRefs m (g xs)))
    (hr : ∀ xs, s.items[d]? = some xs → ∀ r ∈ bodyRefs m (g xs), r ∈ bodyRefs s.mem xs ∨ s.mem.length ≤ r.2) :
    Local s d [] { mem := m, docs := docs, items := s.items.modify d g } := by
  refine ⟨⟨by simp [hd, hs.len], ?_⟩, e, by simp, fun e he => by simp [Ne.symm he], ?_⟩
  · intro e' xs hx
    simp only [List.getElem?_modify] at hx
    cases hxe : s.items[e']? with
    | none => simp [hxe] at hx
    | some ys =>
      by_cases he : d = e'
      · subst he
        simp only [hxe, ↓reduceIte, Option.map_some, Option.map_eq_map, Option.some.injEq] at hx
        subst hx
        exact ht ys hxe
      · simp only [hxe, he, ↓reduceIte, id_eq, Option.map_some, Option.map_eq_map, Option.some.injEq] at hx
        subst hx
        exact body_frame.typed (hs.typed e' ys hxe) e
  · intro xs' hx
    simp only [List.getElem?_modify] at hx
    cases hxe : s.items[d]? with
    | none => simp [hxe] at hx
    | some ys =>
      simp only [hxe, ↓reduceIte, Option.map_some, Option.map_eq_map, Option.some.injEq] at hx
      subst hx
      refine ⟨ys, rfl, fun r h => ?_⟩
      rcases hr ys hxe r h with h | h
      · exact .inl h
      · exact .inr (.inr h)

theorem modify_world {s : PWorld} (hs : s.Ok) {d : DocId} {m : Mem} {docs : World} {g : List PItem → List PItem}
    {xs : List PItem} {f' : Doc} (e : Ext' s.mem m) (hx : s.items[d]? = some xs)
    (hd : docs = s.docs.set d f') :
    ({ mem := m, docs := docs, items := s.items.modify d g } : PWorld).world =
      s.world.set d { f' with items := bodyVals m (g xs) } := by
  subst hd
  rw [world_eq, world_eq]
  apply List.ext_getElem?
  intro j
  have hdl : d < s.items.length := (List.getElem?_eq_some_iff.1 hx).1
  have hl := hs.len
  by_cases h : d = j
  · subst h
    rw [List.getElem?_set_self (by rw [fill_len (by simp [hl])]; rw [hl]; exact hdl)]
    exact fill_get (List.getElem?_set_self (by rw [hl]; exact hdl)) (by simp [hx])
  · rw [List.getElem?_set_ne h]
    have hm : (s.items.modify d g)[j]? = s.items[j]? := by
      rw [List.getElem?_modify]
      simp [h]
    simp only [fill, List.getElem?_zipWith, List.getElem?_set_ne h, List.getElem?_map, hm]
    cases hj : s.items[j]? with
    | none => rfl
    | some ys =>
      simp only [Option.map_some]
      rw [body_frame.same (hs.typed j ys hj) e]

theorem newItems_fresh (m : Mem) (l : List BItem) : NewObjs bodyVals bodyRefs m l (newList newItem m l) :=
  newList_fresh item_frame newItem_fresh l m

theorem onDoc_rel {s : PWorld} (hs : s.Ok) {d : DocId} {act : Doc → Res Doc}
    (hact : ∀ f f', act f = .ok f' → ∃ nw, f'.items = f.items ++ nw) :
    RelRes (fun s' w => w = s'.world ∧ Local s d [] s') (s.onDoc d act) (s.world.onDoc d act) := by
  unfold PWorld.onDoc World.onDoc
  cases hw : s.world[d]? with
  | none => trivial
  | some f =>
    simp only
    cases ha : act f with
    | panic => trivial
    | err e => rfl
    | ok f' =>
      obtain ⟨nw, hn⟩ := hact f f' ha
      obtain ⟨f0, xs, h1, h2, rfl⟩ := world_get_some hs hw
      simp only [Res.bind_ok]
      have hdrop : f'.items.drop (bodyVals s.mem xs).length = nw := by rw [hn]; simp
      rw [hdrop]
      have hn' := newItems_fresh s.mem nw
      have e1 : bodyVals (newList newItem s.mem nw).1 xs = bodyVals s.mem xs := body_frame.same (hs.typed d xs h2) hn'.ext
      refine ⟨?_, ?_⟩
      · rw [modify_world hs hn'.ext h2 rfl]
        congr 1
        have : bodyVals (newList newItem s.mem nw).1 (xs ++ (newList newItem s.mem nw).2) = f'.items := by
          rw [hn]
          have h3 := hn'.load
          simp only [bodyVals, List.map_append] at h3 e1 ⊢
          rw [h3, e1]
        rw [this]
      · refine modify_local hs hn'.ext (by simp) ?_ ?_
        · intro ys hy
          rw [h2] at hy
          obtain rfl := Option.some.inj hy
          rw [bodyRefs_append]
          exact Typed.append.2 ⟨body_frame.typed (hs.typed d xs h2) hn'.ext, hn'.typed⟩
        · intro ys hy r hr
          rw [h2] at hy
          obtain rfl := Option.some.inj hy
          rw [bodyRefs_append] at hr
          rcases List.mem_append.1 hr with hr | hr
          · rw [body_frame.refs (hn'.ext.agree (hs.typed d xs h2))] at hr
            exact .inl hr
          · exact .inr (hn'.fresh r hr)

theorem pchildren_fresh (m : Mem) (l : List PChild) :
    NewObjs (fun m (l : List PPChild) => l.map (·.load m)) (listRefs fun m (c : PPChild) => c.refs m) m l (newList newPChild m l) :=
  newList_fresh pchild_frame newPChild_fresh l m

theorem onPara_rel {s : PWorld} (hs : s.Ok) {d : DocId} {l : Loc} {act : Doc → Para → Res (Doc × Para)}
    (hact : ∀ f p f' q, act f p = .ok (f', q) → f'.items = f.items ∧ ∃ cs, q = { p with children := p.children ++ cs }) :
    RelRes (fun s' w => w = s'.world ∧ Local s d [] s') (s.onPara d l act) (s.world.onPara d l act) := by
  unfold PWorld.onPara World.onPara
  cases hw : s.world[d]? with
  | none =>
    have : s.items[d]? = none := by
      have := List.getElem?_eq_none_iff.1 ((world_none hs).1 hw)
      exact List.getElem?_eq_none_iff.2 (by rw [← hs.len]; exact this)
    rw [this]
    trivial
  | some doc =>
    obtain ⟨f0, xs, h1, h2, rfl⟩ := world_get_some hs hw
    rw [h2]
    simp only
    rw [pgetPara_load]
    cases hp : pgetPara xs l with
    | none => trivial
    | some p =>
      simp only [Option.map_some]
      have hfile : (p.load s.mem).file = p.file := rfl
      rw [hfile]
      cases p.file with
      | none => trivial
      | some fid =>
        simp only
        cases hf : s.world[fid]? with
        | none => trivial
        | some f =>
          simp only
          cases ha : act f (p.load s.mem) with
          | panic => trivial
          | err e => rfl
          | ok r =>
            obtain ⟨f', q⟩ := r
            obtain ⟨hi, cs, rfl⟩ := hact _ _ _ _ ha
            simp only [Res.bind_ok]
            have hdrop : ((p.load s.mem).children ++ cs).drop p.children.length = cs := by
              simp [PPara.load]
            rw [hdrop]
            have hn := pchildren_fresh s.mem cs
            obtain ⟨f1, ys, k1, k2, rfl⟩ := world_get_some hs hf
            have hdl : d < s.world.length := (List.getElem?_eq_some_iff.1 hw).1
            have hset : s.world.set fid f' = fill (s.docs.set fid f') (s.items.map (bodyVals s.mem)) := by
              rw [fill_set (xs := bodyVals s.mem ys) (by simp [k2])]
              congr 1
              have hi' : f'.items = bodyVals s.mem ys := hi
              rw [← hi']
            have loc : Local s d []
                { mem := (newList newPChild s.mem cs).1, docs := s.docs.set fid f'
                  items := s.items.modify d (pmodPara · l fun p => { p with children := p.children ++ (newList newPChild s.mem cs).2 }) } := by
              have hrefs : ∀ its, Typed s.mem (bodyRefs s.mem its) → ∀ r ∈ bodyRefs (newList newPChild s.mem cs).1
                  (pmodPara its l fun p => { p with children := p.children ++ (newList newPChild s.mem cs).2 }),
                  r ∈ bodyRefs s.mem its ∨ r ∈ listRefs (fun m (c : PPChild) => c.refs m) (newList newPChild s.mem cs).1 (newList newPChild s.mem cs).2 := by
                intro its tt r hr
                rw [← body_frame.refs (hn.ext.agree tt)]
                refine pmodPara_refs _ ?_ its l r hr
                intro p r hr
                simp only [PPara.refs, List.flatMap_append, List.mem_append] at hr ⊢
                rcases hr with hr | hr | hr
                · exact .inl (.inl hr)
                · exact .inl (.inr hr)
                · exact .inr hr
              refine modify_local hs hn.ext (by simp) ?_ ?_
              · intro zs hz r hr
                rcases hrefs zs (hs.typed d zs hz) r hr with h | h
                · exact (hs.typed d zs hz).ext hn.ext r h
                · exact hn.typed r h
              · intro zs hz r hr
                rcases hrefs zs (hs.typed d zs hz) r hr with h | h
                · exact .inl h
                · exact .inr (hn.fresh r h)
            -- the value of the new items
            have hval : bodyVals (newList newPChild s.mem cs).1
                (pmodPara xs l fun p => { p with children := p.children ++ (newList newPChild s.mem cs).2 }) =
                modPara (bodyVals s.mem xs) l (fun _ => { p.load s.mem with children := (p.load s.mem).children ++ cs }) := by
              rw [pmodPara_load _ (G := fun p => { p with children := p.children ++ cs })]
              · rw [body_frame.same (hs.typed d xs h2) hn.ext]
                apply modPara_congr (p := p.load s.mem)
                · rw [pgetPara_load, hp]; rfl
                · rfl
              · intro p
                simp only [PPara.load, List.map_append]
                have := hn.load
                rw [show (newList newPChild s.mem cs).2.map (·.load (newList newPChild s.mem cs).1) = cs from this]
            by_cases hdf : d = fid
            · subst hdf
              rw [List.getElem?_set_self hdl]
              simp only [List.set_set]
              refine ⟨?_, loc⟩
              rw [modify_world hs hn.ext h2 rfl, hval]
              congr 2
              rw [h1] at k1
              rw [h2] at k2
              obtain rfl := Option.some.inj k1
              obtain rfl := Option.some.inj k2
              rw [hi]
            · rw [List.getElem?_set_ne (Ne.symm hdf), hw]
              simp only
              refine ⟨?_, loc⟩
              have hs1 : ({ s with docs := s.docs.set fid f' } : PWorld).Ok := ⟨by simp [hs.len], hs.typed⟩
              have hd1 : (s.docs.set fid f')[d]? = some f0 := by rw [List.getElem?_set_ne (Ne.symm hdf), h1]
              have hset1 : (s.docs.set fid f') = (s.docs.set fid f').set d f0 := by
                apply List.ext_getElem?
                intro j
                by_cases hj : d = j
                · subst hj
                  rw [List.getElem?_set_self (by simpa using (List.getElem?_eq_some_iff.1 h1).1), hd1]
                · rw [List.getElem?_set_ne hj]
              have := modify_world (s := { s with docs := s.docs.set fid f' }) hs1 (m := (newList newPChild s.mem cs).1)
                (g := (pmodPara · l fun p => { p with children := p.children ++ (newList newPChild s.mem cs).2 }))
                (docs := s.docs.set fid f') hn.ext h2 hset1
              rw [this, hval, hset]
              rfl

theorem addText_child (p : Para) (text : String) : ∃ cs, (p.addText text).1 = { p with children := p.children ++ cs } := by
  unfold Para.addText
  split
  · exact ⟨_, rfl⟩
  · exact ⟨_, rfl⟩

theorem para_nil (p : Para) : p = { p with children := p.children ++ [] } := by
  cases p
  simp

theorem addInlineDrawing_child [ImgEnv] {f f' : Doc} {p q : Para} {pic : Bytes} {r : Res Run}
    (h : p.addInlineDrawing f pic = (f', q, r)) : f'.items = f.items ∧ ∃ cs, q = { p with children := p.children ++ cs } := by
  unfold Para.addInlineDrawing at h
  cases ha : f.addPicture pic with
  | mk g a =>
    have := (addPicture_adds ha).1
    rw [ha] at h
    cases a with
    | ok v =>
      simp only [Prod.mk.injEq] at h
      obtain ⟨rfl, rfl, _⟩ := h
      exact ⟨this, _, rfl⟩
    | err e =>
      simp only [Prod.mk.injEq] at h
      obtain ⟨rfl, rfl, _⟩ := h
      exact ⟨this, [], para_nil _⟩
    | panic =>
      simp only [Prod.mk.injEq] at h
      obtain ⟨rfl, rfl, _⟩ := h
      exact ⟨this, [], para_nil _⟩

theorem addAnchorDrawing_child [ImgEnv] {f f' : Doc} {p q : Para} {pic : Bytes} {r : Res Run}
    (h : p.addAnchorDrawing f pic = (f', q, r)) : f'.items = f.items ∧ ∃ cs, q = { p with children := p.children ++ cs } := by
  unfold Para.addAnchorDrawing at h
  cases ha : f.addPicture pic with
  | mk g a =>
    have := (addPicture_adds ha).1
    rw [ha] at h
    cases a with
    | ok v =>
      simp only [Prod.mk.injEq] at h
      obtain ⟨rfl, rfl, _⟩ := h
      exact ⟨this, _, rfl⟩
    | err e =>
      simp only [Prod.mk.injEq] at h
      obtain ⟨rfl, rfl, _⟩ := h
      exact ⟨this, [], para_nil _⟩
    | panic =>
      simp only [Prod.mk.injEq] at h
      obtain ⟨rfl, rfl, _⟩ := h
      exact ⟨this, [], para_nil _⟩

/-- What a call does to the memory and to the documents -/
def Effect (s : PWorld) (o : Op) (s' : PWorld) : Prop :=
  match o with
  | .new => Parted s [] s'
  | .load _ _ => Parted s [] s'
  | .split d _ => ∃ xs, s.items[d]? = some xs ∧ Parted s (bodyRefs s.mem xs) s'
  | .append f af => ∃ xs, s.items[af]? = some xs ∧ Local s f (bodyRefs s.mem xs) s'
  | .addParagraph d => Local s d [] s'
  | .cellAddParagraph d _ _ _ => Local s d [] s'
  | .addTable d _ _ _ _ => Local s d [] s'
  | .addTableTwips d _ _ _ _ => Local s d [] s'
  | .withA3Page d => Local s d [] s'
  | .withA4Page d => Local s d [] s'
  | .useTemplate d _ _ _ => Local s d [] s'
  | .increaseID d _ => Local s d [] s'
  | .addText d _ _ => Local s d [] s'
  | .addLink d _ _ _ => Local s d [] s'
  | .addInlineDrawing d _ _ => Local s d [] s'
  | .addAnchorDrawing d _ _ => Local s d [] s'
  | .addInlineShape d _ _ _ _ _ _ _ => Local s d [] s'
  | .addAnchorShape d _ _ _ _ _ _ _ => Local s d [] s'
  | .edit d _ => Local s d [] s'

theorem load_parted {s : PWorld} (hs : s.Ok) (items : List BItem) (media : List Media) :
    Parted s [] { mem := (newList newItem s.mem items).1, docs := s.docs ++ [Doc.loadBodyItems items media]
                  items := s.items ++ [(newList newItem s.mem items).2] } := by
  have hn := newItems_fresh s.mem items
  refine ⟨⟨by simp [hs.len], ?_⟩, hn.ext, by simp, fun e he => List.getElem?_append_left he, ?_⟩
  · intro e xs hx
    by_cases he : e < s.items.length
    · simp only [List.getElem?_append_left he] at hx
      exact body_frame.typed (hs.typed e xs hx) hn.ext
    · simp only [List.getElem?_append_right (Nat.le_of_not_lt he)] at hx
      cases hk : e - s.items.length with
      | zero =>
        simp only [hk, List.getElem?_cons_zero, Option.some.injEq] at hx
        subst hx
        exact hn.typed
      | succ k => simp [hk] at hx
  · intro e he xs hx r hr
    simp only [List.getElem?_append_right he] at hx
    cases hk : e - s.items.length with
    | zero =>
      simp only [hk, List.getElem?_cons_zero, Option.some.injEq] at hx
      subst hx
      exact .inr (hn.fresh r hr)
    | succ k => simp [hk] at hx

theorem load_world {s : PWorld} (hs : s.Ok) (items : List BItem) (media : List Media) :
    ({ mem := (newList newItem s.mem items).1, docs := s.docs ++ [Doc.loadBodyItems items media]
       items := s.items ++ [(newList newItem s.mem items).2] } : PWorld).world =
      s.world ++ [Doc.loadBodyItems items media] := by
  have hn := newItems_fresh s.mem items
  rw [world_eq, world_eq]
  simp only [List.map_append, List.map_cons, List.map_nil]
  have h1 : s.items.map (bodyVals (newList newItem s.mem items).1) = s.items.map (bodyVals s.mem) := by
    apply List.map_congr_left
    intro xs hx
    obtain ⟨e, he⟩ := List.mem_iff_getElem?.1 hx
    exact body_frame.same (hs.typed e xs he) hn.ext
  have h2 : bodyVals (newList newItem s.mem items).1 (newList newItem s.mem items).2 = items := hn.load
  rw [h1, h2]
  simp only [fill]
  rw [List.zipWith_append (by simp [hs.len])]
  rfl

/-- The memory model and the model with values make the same step, for every call -/
theorem step_rel [ImgEnv] {s : PWorld} (hs : s.Ok) (o : Op) :
    RelRes (fun s' w => w = s'.world ∧ Effect s o s') (s.step o) (step s.world o) := by
  cases o with
  | new =>
    have h1 := load_parted hs [] []
    have h2 := newDoc_world hs Doc.new rfl
    refine ⟨h2.symm, ?_⟩
    refine ⟨newDoc_ok hs _, .refl _, by simp, fun e he => List.getElem?_append_left he, ?_⟩
    intro e he xs hx r hr
    simp only [List.getElem?_append_right he] at hx
    cases hk : e - s.items.length with
    | zero =>
      simp only [hk, List.getElem?_cons_zero, Option.some.injEq] at hx
      subst hx
      cases hr
    | succ k => simp [hk] at hx
  | load items media => exact ⟨(load_world hs items media).symm, load_parted hs items media⟩
  | addParagraph d =>
    exact onDoc_rel hs fun f f' h => by
      simp only [Res.ok.injEq] at h; subst h; exact ⟨_, rfl⟩
  | cellAddParagraph d i r c =>
    simp only [PWorld.step, step, World.onDoc]
    cases hw : s.world[d]? with
    | none =>
      have : s.items[d]? = none := by
        have := List.getElem?_eq_none_iff.1 ((world_none hs).1 hw)
        exact List.getElem?_eq_none_iff.2 (by rw [← hs.len]; exact this)
      rw [this]
      trivial
    | some f =>
      obtain ⟨f0, xs, h1, h2, rfl⟩ := world_get_some hs hw
      rw [h2]
      simp only [Res.bind_ok]
      have hset : s.docs = s.docs.set d f0 := by
        apply List.ext_getElem?
        intro j
        by_cases hj : d = j
        · subst hj
          rw [List.getElem?_set_self (List.getElem?_eq_some_iff.1 h1).1, h1]
        · rw [List.getElem?_set_ne hj]
      have hrefs : ∀ its, ∀ y ∈ bodyRefs s.mem (its.modify i fun
          | .table t => .table { t with rows := t.rows.modify r fun row =>
              { row with cells := row.cells.modify c fun cell =>
                { cell with paras := cell.paras ++ [{ file := cell.file }] } } }
          | x => x), y ∈ bodyRefs s.mem its ∨ False := by
        intro its
        refine mem_flatMap_modify ?_
        intro x y hy
        cases x with
        | para p => exact .inl hy
        | sect k => exact .inl hy
        | table t =>
          simp only [PItem.refs, PTable.refs, List.mem_append] at hy ⊢
          rcases hy with hy | hy
          · exact .inl (.inl hy)
          · refine (mem_flatMap_modify (Q := fun _ => False) ?_ y hy).imp .inr id
            intro row y hy
            simp only [PRow.refs, List.mem_append] at hy ⊢
            rcases hy with hy | hy
            · exact .inl (.inl hy)
            · refine (mem_flatMap_modify (Q := fun _ => False) ?_ y hy).imp .inr id
              intro cell y hy
              simp only [PCell.refs, List.flatMap_append, List.flatMap_cons, List.flatMap_nil, PPara.refs,
                List.append_nil, List.mem_append] at hy ⊢
              rcases hy with hy | hy
              · exact .inl (.inl hy)
              · exact .inl (.inr (by simpa using hy))
      refine ⟨?_, modify_local hs (.refl _) rfl ?_ ?_⟩
      · rw [modify_world hs (.refl _) h2 hset]
        congr 2
        symm
        refine map_modify' _ _ _ ?_ xs i
        intro x
        cases x with
        | para p => rfl
        | sect k => rfl
        | table t =>
          simp only [PItem.load, PTable.load, BItem.table.injEq, Table.mk.injEq, true_and]
          apply map_modify'
          intro row
          simp only [PRow.load, Row.mk.injEq, true_and]
          apply map_modify'
          intro cell
          simp only [PCell.load, Cell.addParagraph, Cell.mk.injEq, true_and, and_true, List.map_append]
          rfl
      · intro ys hy y hr
        exact hs.typed d ys hy y ((hrefs ys y hr).elim id False.elim)
      · intro ys hy y hr
        exact (hrefs ys y hr).imp id False.elim
  | addTable d row col width colors =>
    exact onDoc_rel hs fun f f' h => by
      simp only [Doc.addTable] at h
      split at h
      · rename_i h1
        split at h1
        · cases h1
        · split at h1
          · cases h1
          · simp only [Res.ok.injEq, Prod.mk.injEq] at h1 h
            obtain ⟨rfl, _⟩ := h1
            subst h
            exact ⟨_, rfl⟩
      · cases h
      · cases h
  | addTableTwips d rows cols width colors =>
    exact onDoc_rel hs fun f f' h => by
      simp only [Res.ok.injEq] at h; subst h; exact ⟨_, rfl⟩
  | withA3Page d =>
    exact onDoc_rel hs fun f f' h => by
      simp only [Res.ok.injEq] at h; subst h; exact ⟨_, rfl⟩
  | withA4Page d =>
    exact onDoc_rel hs fun f f' h => by
      simp only [Res.ok.injEq] at h; subst h; exact ⟨_, rfl⟩
  | useTemplate d t l tfs =>
    exact onDoc_rel hs fun f f' h => by
      simp only [Res.ok.injEq] at h; subst h; exact ⟨[], (List.append_nil _).symm⟩
  | increaseID d name =>
    exact onDoc_rel hs fun f f' h => by
      simp only [Res.ok.injEq] at h; subst h; exact ⟨[], (List.append_nil _).symm⟩
  | addText d l text =>
    simp only [PWorld.step, step]
    refine onPara_rel hs (fun f p f' q h => ?_)
    · simp only [Res.ok.injEq, Prod.mk.injEq] at h
      obtain ⟨rfl, rfl⟩ := h
      exact ⟨rfl, addText_child p text⟩
  | addLink d l text link =>
    simp only [PWorld.step, step]
    refine onPara_rel hs (fun f p f' q h => ?_)
    · simp only [Res.ok.injEq, Prod.mk.injEq] at h
      obtain ⟨rfl, rfl⟩ := h
      exact ⟨rfl, _, rfl⟩
  | addInlineDrawing d l pic =>
    simp only [PWorld.step, step]
    refine onPara_rel hs (fun f p f' q h => ?_)
    · split at h
      · rename_i h1
        simp only [Res.ok.injEq, Prod.mk.injEq] at h
        obtain ⟨rfl, rfl⟩ := h
        exact addInlineDrawing_child h1
      · rename_i h1
        simp only [Res.ok.injEq, Prod.mk.injEq] at h
        obtain ⟨rfl, rfl⟩ := h
        exact addInlineDrawing_child h1
      · cases h
  | addAnchorDrawing d l pic =>
    simp only [PWorld.step, step]
    refine onPara_rel hs (fun f p f' q h => ?_)
    · split at h
      · rename_i h1
        simp only [Res.ok.injEq, Prod.mk.injEq] at h
        obtain ⟨rfl, rfl⟩ := h
        exact addAnchorDrawing_child h1
      · rename_i h1
        simp only [Res.ok.injEq, Prod.mk.injEq] at h
        obtain ⟨rfl, rfl⟩ := h
        exact addAnchorDrawing_child h1
      · cases h
  | addInlineShape d l sw sh name bw prst ln =>
    simp only [PWorld.step, step]
    refine onPara_rel hs (fun f p f' q h => ?_)
    · simp only [Res.ok.injEq, Prod.mk.injEq] at h
      obtain ⟨rfl, rfl⟩ := h
      exact ⟨rfl, _, rfl⟩
  | addAnchorShape d l sw sh name bw prst ln =>
    simp only [PWorld.step, step]
    refine onPara_rel hs (fun f p f' q h => ?_)
    · simp only [Res.ok.injEq, Prod.mk.injEq] at h
      obtain ⟨rfl, rfl⟩ := h
      exact ⟨rfl, _, rfl⟩
  | append f af =>
    simp only [PWorld.step, step]
    cases hf : s.docs[f]? with
    | none =>
      rw [(world_none hs).2 hf]
      trivial
    | some g =>
      cases hw : s.world[f]? with
      | none => rw [(world_none hs).1 hw] at hf; cases hf
      | some _ =>
        exact (appendFile_rel hs f af).mono fun s' w h => ⟨h.1, by
          obtain ⟨xs, h1, h2⟩ := h.2
          exact ⟨xs, h1, h2.local hs⟩⟩
  | split d sep =>
    simp only [PWorld.step, step]
    have := split_rel hs d sep
    cases h1 : s.splitByParagraph d sep <;> cases h2 : s.world.splitByParagraph d sep <;> rw [h1, h2] at this
    · exact ⟨this.1, this.2.2⟩
    all_goals first | exact this | exact this.elim | trivial
  | edit d g =>
    simp only [PWorld.step, step, World.onDoc]
    cases hw : s.world[d]? with
    | none => trivial
    | some f =>
      obtain ⟨f0, xs, h1, h2, rfl⟩ := world_get_some hs hw
      have hn := newItems_fresh s.mem (g (bodyVals s.mem xs))
      simp only [Res.bind_ok]
      refine ⟨?_, ?_⟩
      · have hset : s.docs = s.docs.set d f0 := by
          apply List.ext_getElem?
          intro j
          by_cases hj : d = j
          · subst hj
            rw [List.getElem?_set_self (List.getElem?_eq_some_iff.1 h1).1, h1]
          · rw [List.getElem?_set_ne hj]
        rw [modify_world hs hn.ext h2 hset]
        have h3 := hn.load
        rw [h3]
      · refine modify_local hs hn.ext rfl (fun _ _ => hn.typed) (fun _ _ r hr => .inr (hn.fresh r hr))

end Docx
