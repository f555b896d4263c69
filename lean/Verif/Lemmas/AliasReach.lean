import Verif.Lemmas.AliasStep
import Verif.SpecAlias

/-!
# Histories with setters
-/

set_option linter.unusedSectionVars false

namespace Docx

/-! ## Writes -/

/-- A write that changes no type and no drawing object -/
structure Tame (F : Obj → Obj) : Prop where
  kind : ∀ o, (F o).kind = o.kind
  inl : ∀ x, F (.inl x) = .inl x
  anc : ∀ x, F (.anc x) = .anc x

/-- `m'` is `m` with writes of the tame kind at the addresses of `rs` -/
structure WroteAt (m : Mem) (rs : List Ref) (m' : Mem) : Prop where
  len : m'.length = m.length
  kind : ∀ k : Nat, (m'[k]?).map Obj.kind = (m[k]?).map Obj.kind
  inl : ∀ k, m'.inl k = m.inl k
  anc : ∀ k, m'.anc k = m.anc k
  other : ∀ k : Nat, (∀ t, (t, k) ∉ rs) → m'[k]? = m[k]?

theorem WroteAt.refl (m : Mem) (rs : List Ref) : WroteAt m rs m :=
  ⟨rfl, fun _ => rfl, fun _ => rfl, fun _ => rfl, fun _ _ => rfl⟩

theorem WroteAt.trans {a b c : Mem} {rs : List Ref} (h : WroteAt a rs b) (k : WroteAt b rs c) : WroteAt a rs c :=
  ⟨k.len.trans h.len, fun i => (k.kind i).trans (h.kind i), fun i => (k.inl i).trans (h.inl i),
    fun i => (k.anc i).trans (h.anc i), fun i hi => (k.other i hi).trans (h.other i hi)⟩

theorem write_wrote {m : Mem} {rs : List Ref} {t : ObjKind} {k : Nat} (hk : (t, k) ∈ rs) {F : Obj → Obj} (hF : Tame F) :
    WroteAt m rs (m.write k F) := by
  refine ⟨by simp [Mem.write], ?_, ?_, ?_, ?_⟩
  · intro j
    simp only [Mem.write, List.getElem?_modify]
    cases m[j]? with
    | none => rfl
    | some o =>
      by_cases h : k = j
      · simp [h, hF.kind]
      · simp [h]
  · intro j
    simp only [Mem.inl, Mem.write, List.getElem?_modify]
    by_cases h : k = j
    · subst h
      cases hm : m[k]? with
      | none => rfl
      | some o =>
        simp only [↓reduceIte, Option.map_eq_map, Option.map_some]
        have := hF.kind o
        cases o with
        | inl x => rw [hF.inl x]
        | _ => revert this; cases F _ <;> simp [Obj.kind]
    · simp [h]
  · intro j
    simp only [Mem.anc, Mem.write, List.getElem?_modify]
    by_cases h : k = j
    · subst h
      cases hm : m[k]? with
      | none => rfl
      | some o =>
        simp only [↓reduceIte, Option.map_eq_map, Option.map_some]
        have := hF.kind o
        cases o with
        | anc x => rw [hF.anc x]
        | _ => revert this; cases F _ <;> simp [Obj.kind]
    · simp [h]
  · intro j hj
    have : k ≠ j := fun h => hj t (h ▸ hk)
    simp [Mem.write, List.getElem?_modify, this]

/-- What is reached does not depend on anything but the drawing objects -/
theorem refs_congr {m m' : Mem} (hi : ∀ k, m'.inl k = m.inl k) (ha : ∀ k, m'.anc k = m.anc k) (its : List PItem) :
    bodyRefs m' its = bodyRefs m its := by
  have h1 : inlRefs m' = inlRefs m := by funext k; simp only [inlRefs, hi]
  have h2 : ancRefs m' = ancRefs m := by funext k; simp only [ancRefs, ha]
  have h3 : PRChild.refs m' = PRChild.refs m := by
    funext c; cases c with
    | leaf k => rfl
    | drawing i a => simp only [PRChild.refs, h1, h2]
  have h4 : PRun.refs m' = PRun.refs m := by funext r; simp only [PRun.refs, h3]
  have h5 : PPChild.refs m' = PPChild.refs m := by
    funext c; cases c with
    | run r => exact congrFun h4 r
    | link id r => exact congrFun h4 r
    | rpr k => rfl
  have h6 : PPara.refs m' = PPara.refs m := by funext p; simp only [PPara.refs, h5]
  have h7 : PCell.refs m' = PCell.refs m := by funext p; simp only [PCell.refs, h6]
  have h8 : PRow.refs m' = PRow.refs m := by funext p; simp only [PRow.refs, h7]
  have h9 : PTable.refs m' = PTable.refs m := by funext p; simp only [PTable.refs, h8]
  have h10 : PItem.refs m' = PItem.refs m := by
    funext c; cases c with
    | para p => exact congrFun h6 p
    | table t => exact congrFun h9 t
    | sect k => rfl
  show its.flatMap (PItem.refs m') = its.flatMap (PItem.refs m)
  rw [h10]

theorem WroteAt.refs {m m' : Mem} {rs : List Ref} (h : WroteAt m rs m') (its : List PItem) : bodyRefs m' its = bodyRefs m its :=
  refs_congr h.inl h.anc its

theorem WroteAt.typed {m m' : Mem} {rs : List Ref} (h : WroteAt m rs m') {qs : List Ref} (t : Typed m qs) : Typed m' qs := by
  intro x hx
  rw [h.kind]
  exact t x hx

/-! ## Steps -/

/-- A step on document `d`: the other documents keep their items and what they reach; only objects that
`d` reached are written to; what `d` reaches afterwards it reached before, or is of `rs`, or is new -/
structure Moves (s : PWorld) (d : DocId) (rs : List Ref) (s' : PWorld) : Prop where
  ok : s'.Ok
  mlen : s.mem.length ≤ s'.mem.length
  len : s'.items.length = s.items.length
  other : ∀ e : DocId, e ≠ d → s'.items[e]? = s.items[e]?
  refs : ∀ (e : DocId) xs, s.items[e]? = some xs → bodyRefs s'.mem xs = bodyRefs s.mem xs
  agree : ∀ k < s.mem.length, (∀ xs, s.items[d]? = some xs → ∀ t, (t, k) ∉ bodyRefs s.mem xs) → s'.mem[k]? = s.mem[k]?
  here : ∀ xs', s'.items[d]? = some xs' → ∃ xs, s.items[d]? = some xs ∧
    ∀ r ∈ bodyRefs s'.mem xs', r ∈ bodyRefs s.mem xs ∨ r ∈ rs ∨ s.mem.length ≤ r.2

theorem Local.moves {s s' : PWorld} {d : DocId} {rs : List Ref} (hs : s.Ok) (h : Local s d rs s') : Moves s d rs s' :=
  ⟨h.ok, h.ext.len, h.len, h.other, fun e xs hx => body_frame.refs (h.ext.agree (hs.typed e xs hx)),
    fun _ hk _ => h.ext.get hk, h.here⟩

theorem wrote_moves {s : PWorld} (hs : s.Ok) {d : DocId} {xs : List PItem} {m : Mem} (hx : s.items[d]? = some xs)
    (h : WroteAt s.mem (bodyRefs s.mem xs) m) : Moves s d [] { s with mem := m } := by
  refine ⟨⟨hs.len, ?_⟩, Nat.le_of_eq h.len.symm, rfl, fun _ _ => rfl, fun e xs _ => h.refs xs, ?_, ?_⟩
  · intro e ys hy
    show Typed m (bodyRefs m ys)
    rw [h.refs]
    exact h.typed (hs.typed e ys hy)
  · intro k hk hd
    exact h.other k (hd xs hx)
  · intro xs' hx'
    refine ⟨xs', hx', ?_⟩
    intro r hr
    rw [h.refs] at hr
    exact .inl hr

/-! ### The pointers of selectors -/

theorem pgetPara_refs {m : Mem} {its : List PItem} {l : Loc} {p : PPara} (h : pgetPara its l = some p) :
    ∀ r ∈ p.refs m, r ∈ bodyRefs m its := by
  intro r hr
  cases l with
  | body i =>
    simp only [pgetPara] at h
    split at h
    · rename_i q hi
      obtain rfl := Option.some.inj h
      exact List.mem_flatMap.2 ⟨_, List.mem_iff_getElem?.2 ⟨i, hi⟩, hr⟩
    · cases h
  | cell i r' c j =>
    simp only [pgetPara] at h
    split at h
    · rename_i t hi
      simp only [Option.bind_eq_bind, Option.bind_eq_some_iff] at h
      obtain ⟨row, h1, cell, h2, h3⟩ := h
      refine List.mem_flatMap.2 ⟨_, List.mem_iff_getElem?.2 ⟨i, hi⟩, ?_⟩
      refine List.mem_append_right _ (List.mem_flatMap.2 ⟨row, List.mem_iff_getElem?.2 ⟨_, h1⟩, ?_⟩)
      refine List.mem_append_right _ (List.mem_flatMap.2 ⟨cell, List.mem_iff_getElem?.2 ⟨_, h2⟩, ?_⟩)
      exact List.mem_append_right _ (List.mem_flatMap.2 ⟨p, List.mem_iff_getElem?.2 ⟨_, h3⟩, hr⟩)
    · cases h

theorem runAt_refs {m : Mem} {p : PPara} {j : Nat} {r : PRun} (h : p.runAt j = some r) : ∀ x ∈ r.refs m, x ∈ p.refs m := by
  intro x hx
  simp only [PPara.runAt] at h
  split at h
  · rename_i q hi
    obtain rfl := Option.some.inj h
    exact List.mem_append_right _ (List.mem_flatMap.2 ⟨_, List.mem_iff_getElem?.2 ⟨j, hi⟩, hx⟩)
  · rename_i q hi
    obtain rfl := Option.some.inj h
    exact List.mem_append_right _ (List.mem_flatMap.2 ⟨_, List.mem_iff_getElem?.2 ⟨j, hi⟩, hx⟩)
  · cases h

theorem wrunAt_refs {s : PWorld} {d : DocId} {l : Loc} {j : Nat} {r : PRun} (h : s.runAt d l j = some r) :
    ∃ xs, s.items[d]? = some xs ∧ ∀ x ∈ r.refs s.mem, x ∈ bodyRefs s.mem xs := by
  simp only [PWorld.runAt, Option.bind_eq_some_iff] at h
  obtain ⟨xs, h1, p, h2, h3⟩ := h
  exact ⟨xs, h1, fun x hx => pgetPara_refs h2 x (runAt_refs h3 x hx)⟩

theorem ptable_refs {m : Mem} {its : List PItem} {i : Nat} {t : PTable} (h : ptable its i = some t) :
    ∀ r ∈ t.refs m, r ∈ bodyRefs m its := by
  intro r hr
  simp only [ptable] at h
  split at h
  · rename_i q hi
    obtain rfl := Option.some.inj h
    exact List.mem_flatMap.2 ⟨_, List.mem_iff_getElem?.2 ⟨i, hi⟩, hr⟩
  · cases h

theorem size_wrote {m : Mem} {ext sp : Option Nat} {pic : Bool} {w h : Int64} {rs : List Ref}
    (h1 : ∀ e, ext = some e → (ObjKind.ext, e) ∈ rs) (h2 : ∀ e, sp = some e → (ObjKind.sp, e) ∈ rs) :
    WroteAt m rs (sizeAt m ext sp pic w h) := by
  have tsp : Tame (Obj.onSp fun x => { x with xfrm := { x.xfrm with ext := { x.xfrm.ext with cx := w, cy := h } } }) := ⟨fun o => by cases o <;> rfl, fun _ => rfl, fun _ => rfl⟩
  have text : Tame (Obj.onExt fun x => { x with cx := w, cy := h }) := ⟨fun o => by cases o <;> rfl, fun _ => rfl, fun _ => rfl⟩
  cases ext with
  | none =>
    cases pic <;> cases sp
    · exact .refl _ _
    · exact .refl _ _
    · exact .refl _ _
    · exact write_wrote (h2 _ rfl) tsp
  | some e =>
    have a := write_wrote (m := m) (h1 e rfl) text
    cases pic <;> cases sp
    · exact a
    · exact a
    · exact a
    · exact a.trans (write_wrote (h2 _ rfl) tsp)

theorem setPara_moves {s : PWorld} (hs : s.Ok) {d : DocId} {l : Loc} {xs : List PItem} {p : PPara} (hx : s.items[d]? = some xs)
    (hp : pgetPara xs l = some p) (g : PPr → PPr) :
    Moves s d [] { s with mem := (p.set s.mem g).1, items := s.items.modify d (pmodPara · l fun q => { q with props := (p.set s.mem g).2.props }) } := by
  have key : ∀ m k, (∀ q ∈ bodyRefs s.mem xs, q ∈ bodyRefs m xs) → ∀ ys, ∀ r ∈ bodyRefs m (pmodPara ys l fun q => { q with props := some k }),
      r ∈ bodyRefs m ys ∨ r = (ObjKind.ppr, k) := by
    intro m k _ ys
    refine pmodPara_refs m ?_ ys l
    intro q r hr
    simp only [PPara.refs, List.mem_append, Option.toList_some, List.map_cons, List.map_nil, List.mem_singleton] at hr ⊢
    rcases hr with hr | hr
    · exact .inr hr
    · exact .inl (.inr hr)
  cases hpp : p.props with
  | none =>
    simp only [PPara.set, hpp]
    have hn : Ext' s.mem (new s.mem (.ppr (g {}))).1 := .new _ _
    refine (modify_local hs hn rfl ?_ ?_).moves hs
    · intro ys hy r hr
      rcases key _ _ (fun q hq => by rw [body_frame.refs (hn.agree (hs.typed d xs hx))]; exact hq) ys r hr with h | h
      · exact body_frame.typed (hs.typed d ys hy) hn r h
      · subst h
        simp [new, Obj.kind]
    · intro ys hy r hr
      rcases key _ _ (fun q hq => by rw [body_frame.refs (hn.agree (hs.typed d xs hx))]; exact hq) ys r hr with h | h
      · rw [body_frame.refs (hn.agree (hs.typed d ys hy))] at h
        exact .inl h
      · subst h
        exact .inr (Nat.le_refl _)
  | some k =>
    simp only [PPara.set, hpp]
    have hk : (ObjKind.ppr, k) ∈ bodyRefs s.mem xs := by
      refine pgetPara_refs hp _ ?_
      simp [PPara.refs, hpp]
    have hw : WroteAt s.mem (bodyRefs s.mem xs) (s.mem.write k (Obj.onPpr g)) := write_wrote hk ⟨fun o => by cases o <;> rfl, fun _ => rfl, fun _ => rfl⟩
    have hsub : ∀ r ∈ bodyRefs s.mem (pmodPara xs l fun q => { q with props := some k }), r ∈ bodyRefs s.mem xs := by
      intro r hr
      rcases key s.mem k (fun _ h => h) xs r hr with h | h
      · exact h
      · exact h ▸ hk
    refine ⟨⟨by simp [hs.len], ?_⟩, Nat.le_of_eq hw.len.symm, by simp, fun e he => by simp [Ne.symm he], fun e ys _ => hw.refs ys, ?_, ?_⟩
    · intro e ys hy
      refine Eq.mpr (congrArg (Typed _) (hw.refs ys)) (hw.typed ?_)
      simp only [List.getElem?_modify] at hy
      by_cases he : d = e
      · subst he
        simp only [hx, ↓reduceIte, Option.map_some, Option.map_eq_map, Option.some.injEq] at hy
        subst hy
        exact (hs.typed d xs hx).mono hsub
      · cases hxe : s.items[e]? with
        | none => simp [hxe] at hy
        | some zs =>
          simp only [hxe, he, ↓reduceIte, id_eq, Option.map_some, Option.map_eq_map, Option.some.injEq] at hy
          subst hy
          exact hs.typed e zs hxe
    · intro j _ hd
      exact hw.other j (hd xs hx)
    · intro xs' hx'
      refine ⟨xs, hx, ?_⟩
      simp only [List.getElem?_modify, hx, ↓reduceIte, Option.map_some, Option.map_eq_map, Option.some.injEq] at hx'
      subst hx'
      intro r hr
      exact .inl (hsub r ((hw.refs _).subst (motive := fun z => r ∈ z) hr))

theorem setter_moves [ImgEnv] {s s' : PWorld} (hs : s.Ok) {o : POp} (hf : o.Fine) (ho : o.Sets) (h : s.pstep o = .ok s') :
    s'.docs = s.docs ∧ ∃ d, o.doc = some d ∧ Moves s d [] s' := by
  cases o with
  | call o => exact ho.elim
  | run d l j g =>
    simp only [PWorld.pstep] at h
    split at h
    · cases h
    · rename_i r hr
      obtain ⟨xs, hx, hsub⟩ := wrunAt_refs hr
      unfold PRun.set at h
      cases hk : r.rpr with
      | none => rw [hk] at h; cases h
      | some k =>
        rw [hk] at h
        simp only [Res.ok.injEq] at h
        subst h
        refine ⟨rfl, d, rfl, wrote_moves hs hx (write_wrote (t := .rpr) (k := k) (hsub _ ?_) ?_)⟩
        · simp [PRun.refs, hk]
        · exact ⟨fun o => by cases o <;> rfl, fun _ => rfl, fun _ => rfl⟩
  | para d l g =>
    simp only [PWorld.pstep] at h
    split at h
    · cases h
    · rename_i p hp
      simp only [Option.bind_eq_some_iff] at hp
      obtain ⟨xs, hx, hp⟩ := hp
      simp only [Res.ok.injEq] at h
      subst h
      exact ⟨rfl, d, rfl, setPara_moves hs hx hp g⟩
  | table d i g =>
    simp only [PWorld.pstep] at h
    split at h
    · cases h
    · rename_i t ht
      simp only [Option.bind_eq_some_iff] at ht
      obtain ⟨xs, hx, ht⟩ := ht
      unfold PTable.set at h
      cases hk : t.props with
      | none => rw [hk] at h; cases h
      | some k =>
        rw [hk] at h
        simp only [Res.ok.injEq] at h
        subst h
        refine ⟨rfl, d, rfl, wrote_moves hs hx (write_wrote (t := .tbl) (k := k) (ptable_refs ht _ ?_) ?_)⟩
        · simp [PTable.refs, hk]
        · exact ⟨fun o => by cases o <;> rfl, fun _ => rfl, fun _ => rfl⟩
  | row d i r g =>
    simp only [PWorld.pstep] at h
    split at h
    · cases h
    · rename_i row hr
      simp only [Option.bind_eq_some_iff] at hr
      obtain ⟨t, ⟨xs, hx, ht⟩, hr⟩ := hr
      unfold PRow.set at h
      cases hk : row.props with
      | none => rw [hk] at h; cases h
      | some k =>
        rw [hk] at h
        simp only [Res.ok.injEq] at h
        subst h
        refine ⟨rfl, d, rfl, wrote_moves hs hx (write_wrote (t := .tr) (k := k) (ptable_refs ht _ ?_) ?_)⟩
        · refine List.mem_append_right _ (List.mem_flatMap.2 ⟨row, List.mem_iff_getElem?.2 ⟨r, hr⟩, ?_⟩)
          simp [PRow.refs, hk]
        · exact ⟨fun o => by cases o <;> rfl, fun _ => rfl, fun _ => rfl⟩
  | cell d i r c g =>
    simp only [PWorld.pstep] at h
    split at h
    · cases h
    · rename_i cell hc
      simp only [Option.bind_eq_some_iff] at hc
      obtain ⟨row, ⟨t, ⟨xs, hx, ht⟩, hr⟩, hc⟩ := hc
      unfold PCell.set at h
      cases hk : cell.props with
      | none => rw [hk] at h; cases h
      | some k =>
        rw [hk] at h
        simp only [Res.ok.injEq] at h
        subst h
        refine ⟨rfl, d, rfl, wrote_moves hs hx (write_wrote (t := .tc) (k := k) (ptable_refs ht _ ?_) ?_)⟩
        · refine List.mem_append_right _ (List.mem_flatMap.2 ⟨row, List.mem_iff_getElem?.2 ⟨r, hr⟩, ?_⟩)
          refine List.mem_append_right _ (List.mem_flatMap.2 ⟨cell, List.mem_iff_getElem?.2 ⟨c, hc⟩, ?_⟩)
          simp [PCell.refs, hk]
        · exact ⟨fun o => by cases o <;> rfl, fun _ => rfl, fun _ => rfl⟩
  | leaf d l j n g =>
    simp only [PWorld.pstep] at h
    split at h
    · rename_i k hk
      simp only [Option.bind_eq_some_iff] at hk
      obtain ⟨r, hr, hk⟩ := hk
      obtain ⟨xs, hx, hsub⟩ := wrunAt_refs hr
      simp only [Res.ok.injEq] at h
      subst h
      refine ⟨rfl, d, rfl, wrote_moves hs hx (write_wrote (t := .leaf) (k := k) (hsub _ ?_) ?_)⟩
      · exact List.mem_append_right _ (List.mem_flatMap.2 ⟨_, List.mem_iff_getElem?.2 ⟨n, hk⟩, by simp [PRChild.refs]⟩)
      · exact ⟨fun o => by cases o <;> rfl, fun _ => rfl, fun _ => rfl⟩
    · cases h
  | size d l j n w h' =>
    simp only [PWorld.pstep] at h
    split at h
    · rename_i k a hk
      simp only [Option.bind_eq_some_iff] at hk
      obtain ⟨r, hr, hk⟩ := hk
      obtain ⟨xs, hx, hsub⟩ := wrunAt_refs hr
      simp only [Res.ok.injEq] at h
      subst h
      have hsub' : ∀ x ∈ inlRefs s.mem k, x ∈ bodyRefs s.mem xs := fun x hx => hsub _
        (List.mem_append_right _ (List.mem_flatMap.2 ⟨_, List.mem_iff_getElem?.2 ⟨n, hk⟩, by simp [PRChild.refs, hx]⟩))
      refine ⟨rfl, d, rfl, wrote_moves hs hx (size_wrote ?_ ?_)⟩
      · intro e he; exact hsub' _ (by simp [inlRefs, he])
      · intro e he; exact hsub' _ (by simp [inlRefs, he])
    · rename_i k hk
      simp only [Option.bind_eq_some_iff] at hk
      obtain ⟨r, hr, hk⟩ := hk
      obtain ⟨xs, hx, hsub⟩ := wrunAt_refs hr
      simp only [Res.ok.injEq] at h
      subst h
      have hsub' : ∀ x ∈ ancRefs s.mem k, x ∈ bodyRefs s.mem xs := fun x hx => hsub _
        (List.mem_append_right _ (List.mem_flatMap.2 ⟨_, List.mem_iff_getElem?.2 ⟨n, hk⟩, by simp [PRChild.refs, hx]⟩))
      refine ⟨rfl, d, rfl, wrote_moves hs hx (size_wrote ?_ ?_)⟩
      · intro e he; exact hsub' _ (by simp [ancRefs, he])
      · intro e he; exact hsub' _ (by simp [ancRefs, he])
    · cases h
  | arrange d g =>
    simp only [PWorld.pstep] at h
    split at h
    · cases h
    · rename_i xs hx
      simp only [Res.ok.injEq] at h
      subst h
      refine ⟨rfl, d, rfl, (modify_local hs (.refl _) rfl ?_ ?_).moves hs⟩
      · intro ys hy
        exact (hs.typed d ys hy).mono (hf _ _)
      · intro ys hy r hr
        exact .inl (hf _ _ r hr)

end Docx
