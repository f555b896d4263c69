import Verif.Alias

/-!
# Memory: frames, new objects, copies
-/

set_option linter.unusedSectionVars false

namespace Docx

/-! ## Memories that agree on what is reached -/

/-- The memories hold the same objects at these pointers -/
def AgreeOn (m m' : Mem) (rs : List Ref) : Prop := ∀ x ∈ rs, m'[x.2]? = m[x.2]?

/-- Every pointer leads to an object of its type -/
def Typed (m : Mem) (rs : List Ref) : Prop := ∀ x ∈ rs, (m[x.2]?).map Obj.kind = some x.1

/-- `m'` has the objects of `m` and new ones -/
def Ext' (m m' : Mem) : Prop := ∃ t, m' = m ++ t

theorem Ext'.refl (m : Mem) : Ext' m m := ⟨[], by simp⟩

theorem Ext'.trans {a b c : Mem} (h : Ext' a b) (k : Ext' b c) : Ext' a c := by
  obtain ⟨t, rfl⟩ := h
  obtain ⟨u, rfl⟩ := k
  exact ⟨t ++ u, by simp⟩

theorem Ext'.len {a b : Mem} (h : Ext' a b) : a.length ≤ b.length := by
  obtain ⟨t, rfl⟩ := h
  simp

theorem Ext'.new (m : Mem) (o : Obj) : Ext' m (new m o).1 := ⟨[o], rfl⟩

theorem Typed.lt {m : Mem} {rs : List Ref} (h : Typed m rs) : ∀ x ∈ rs, x.2 < m.length := by
  intro x hx
  have := h x hx
  cases he : m[x.2]? with
  | none => rw [he] at this; cases this
  | some o => exact (List.getElem?_eq_some_iff.1 he).1

theorem Ext'.get {m m' : Mem} (h : Ext' m m') {k : Nat} (hk : k < m.length) : m'[k]? = m[k]? := by
  obtain ⟨t, rfl⟩ := h
  exact List.getElem?_append_left hk

theorem Ext'.agree {m m' : Mem} (h : Ext' m m') {rs : List Ref} (t : Typed m rs) : AgreeOn m m' rs :=
  fun x hx => h.get (t.lt x hx)

theorem Typed.ext {m m' : Mem} {rs : List Ref} (t : Typed m rs) (h : Ext' m m') : Typed m' rs := by
  intro x hx
  rw [h.agree t x hx]
  exact t x hx

theorem Typed.mono {m : Mem} {rs rs' : List Ref} (t : Typed m rs) (h : ∀ x ∈ rs', x ∈ rs) : Typed m rs' :=
  fun x hx => t x (h x hx)

theorem AgreeOn.mono {m m' : Mem} {rs rs' : List Ref} (t : AgreeOn m m' rs) (h : ∀ x ∈ rs', x ∈ rs) : AgreeOn m m' rs' :=
  fun x hx => t x (h x hx)

theorem Typed.append {m : Mem} {a b : List Ref} : Typed m (a ++ b) ↔ Typed m a ∧ Typed m b := by
  simp only [Typed, List.mem_append]
  constructor
  · intro h; exact ⟨fun x hx => h x (.inl hx), fun x hx => h x (.inr hx)⟩
  · rintro ⟨h, k⟩ x (hx | hx)
    · exact h x hx
    · exact k x hx

theorem AgreeOn.append {m m' : Mem} {a b : List Ref} : AgreeOn m m' (a ++ b) ↔ AgreeOn m m' a ∧ AgreeOn m m' b := by
  simp only [AgreeOn, List.mem_append]
  constructor
  · intro h; exact ⟨fun x hx => h x (.inl hx), fun x hx => h x (.inr hx)⟩
  · rintro ⟨h, k⟩ x (hx | hx)
    · exact h x hx
    · exact k x hx

theorem Typed.flatMap {α : Type} {m : Mem} {l : List α} {f : α → List Ref} :
    Typed m (l.flatMap f) ↔ ∀ a ∈ l, Typed m (f a) := by
  simp only [Typed, List.mem_flatMap]
  constructor
  · intro h a ha x hx; exact h x ⟨a, ha, hx⟩
  · rintro h x ⟨a, ha, hx⟩; exact h a ha x hx

theorem AgreeOn.flatMap {α : Type} {m m' : Mem} {l : List α} {f : α → List Ref} :
    AgreeOn m m' (l.flatMap f) ↔ ∀ a ∈ l, AgreeOn m m' (f a) := by
  simp only [AgreeOn, List.mem_flatMap]
  constructor
  · intro h a ha x hx; exact h x ⟨a, ha, hx⟩
  · rintro h x ⟨a, ha, hx⟩; exact h a ha x hx

theorem AgreeOn.opt {m m' : Mem} {o : Option Nat} {t : ObjKind} :
    AgreeOn m m' (o.toList.map (t, ·)) ↔ ∀ k, o = some k → m'[k]? = m[k]? := by
  cases o <;> simp [AgreeOn]

theorem Typed.opt {m : Mem} {o : Option Nat} {t : ObjKind} :
    Typed m (o.toList.map (t, ·)) ↔ ∀ k, o = some k → (m[k]?).map Obj.kind = some t := by
  cases o <;> simp [Typed]

theorem Option.map_congr' {α β : Type} {o : Option α} {f g : α → β} (h : ∀ a, o = some a → f a = g a) :
    o.map f = o.map g := by
  cases o with
  | none => rfl
  | some a => simp [h a rfl]

/-- Values and reached pointers are the same in both memories -/
structure Framed {α β : Type} (ld : Mem → α → β) (rf : Mem → α → List Ref) : Prop where
  load : ∀ {m m' x}, AgreeOn m m' (rf m x) → ld m' x = ld m x
  refs : ∀ {m m' x}, AgreeOn m m' (rf m x) → rf m' x = rf m x

theorem Framed.list {α β : Type} {ld : Mem → α → β} {rf : Mem → α → List Ref} (F : Framed ld rf) :
    Framed (fun m (l : List α) => l.map (ld m)) (fun m l => l.flatMap (rf m)) where
  load := fun h => List.map_congr_left fun a ha => F.load (AgreeOn.flatMap.1 h a ha)
  refs := by
    intro m m' l h
    replace h := AgreeOn.flatMap.1 h
    show l.flatMap (rf m') = l.flatMap (rf m)
    induction l with
    | nil => rfl
    | cons a l ih =>
      simp only [List.flatMap_cons]
      rw [F.refs (h a (by simp)), ih (fun b hb => h b (by simp [hb]))]

theorem inl_congr {m m' : Mem} {k : Nat} (h : m'[k]? = m[k]?) : m'.inl k = m.inl k := by
  simp only [Mem.inl, h]

theorem anc_congr {m m' : Mem} {k : Nat} (h : m'[k]? = m[k]?) : m'.anc k = m.anc k := by
  simp only [Mem.anc, h]

theorem inl_frame : Framed (fun m k => (m.inl k).load m) inlRefs where
  load := by
    intro m m' k h
    have h0 := h (.inl, k) (by simp [inlRefs])
    simp only [inlRefs, AgreeOn, List.mem_cons, List.mem_append, List.mem_map, Option.mem_toList] at h
    have he : ∀ e, (m.inl k).ext = some e → m'[e]? = m[e]? := fun e he => h (.ext, e) (.inr (.inl ⟨e, he, rfl⟩))
    have hs : ∀ e, (m.inl k).sp = some e → m'[e]? = m[e]? := fun e he => h (.sp, e) (.inr (.inr ⟨e, he, rfl⟩))
    simp only [inl_congr h0, PInline.load]
    rw [Option.map_congr' (f := m'.ext) (g := m.ext) fun e h1 => by simp only [Mem.ext, he e h1]]
    rw [Option.map_congr' (f := m'.sp) (g := m.sp) fun e h1 => by simp only [Mem.sp, hs e h1]]
  refs := by
    intro m m' k h
    have h0 := h (.inl, k) (by simp [inlRefs])
    simp only [inlRefs, inl_congr h0]

theorem anc_frame : Framed (fun m k => (m.anc k).load m) ancRefs where
  load := by
    intro m m' k h
    have h0 := h (.anc, k) (by simp [ancRefs])
    simp only [ancRefs, AgreeOn, List.mem_cons, List.mem_append, List.mem_map, Option.mem_toList] at h
    have he : ∀ e, (m.anc k).ext = some e → m'[e]? = m[e]? := fun e he => h (.ext, e) (.inr (.inl ⟨e, he, rfl⟩))
    have hs : ∀ e, (m.anc k).sp = some e → m'[e]? = m[e]? := fun e he => h (.sp, e) (.inr (.inr ⟨e, he, rfl⟩))
    simp only [anc_congr h0, PAnchor.load]
    rw [Option.map_congr' (f := m'.ext) (g := m.ext) fun e h1 => by simp only [Mem.ext, he e h1]]
    rw [Option.map_congr' (f := m'.sp) (g := m.sp) fun e h1 => by simp only [Mem.sp, hs e h1]]
  refs := by
    intro m m' k h
    have h0 := h (.anc, k) (by simp [ancRefs])
    simp only [ancRefs, anc_congr h0]

theorem rchild_frame : Framed (fun m (c : PRChild) => c.load m) (fun m c => c.refs m) where
  load := by
    intro m m' c h
    cases c with
    | leaf k =>
      have := h (.leaf, k) (by simp [PRChild.refs])
      simp only [PRChild.load, Mem.leaf, this]
    | drawing i a =>
      simp only [PRChild.refs] at h
      obtain ⟨h1, h2⟩ := AgreeOn.append.1 h
      have h1 := AgreeOn.flatMap.1 h1
      have h2 := AgreeOn.flatMap.1 h2
      simp only [PRChild.load, loadDrawing]
      rw [Option.map_congr' fun k hk => inl_frame.load (h1 k (by simp [hk])),
        Option.map_congr' fun k hk => anc_frame.load (h2 k (by simp [hk]))]
  refs := by
    intro m m' c h
    cases c with
    | leaf k => rfl
    | drawing i a =>
      simp only [PRChild.refs] at h
      obtain ⟨h1, h2⟩ := AgreeOn.append.1 h
      simp only [PRChild.refs]
      rw [inl_frame.list.refs h1, anc_frame.list.refs h2]

theorem run_frame : Framed (fun m (r : PRun) => r.load m) (fun m r => r.refs m) where
  load := by
    intro m m' r h
    obtain ⟨h1, h2⟩ := AgreeOn.append.1 h
    simp only [PRun.load]
    rw [rchild_frame.list.load h2, Option.map_congr' (f := m'.rpr) (g := m.rpr) fun k hk => by
      simp only [Mem.rpr, AgreeOn.opt.1 h1 k hk]]
  refs := by
    intro m m' r h
    obtain ⟨h1, h2⟩ := AgreeOn.append.1 h
    simp only [PRun.refs]
    rw [rchild_frame.list.refs h2]

theorem pchild_frame : Framed (fun m (c : PPChild) => c.load m) (fun m c => c.refs m) where
  load := by
    intro m m' c h
    cases c with
    | run r => simp only [PPChild.load]; rw [run_frame.load h]
    | link id r => simp only [PPChild.load]; rw [run_frame.load h]
    | rpr k =>
      have := h (.rpr, k) (by simp [PPChild.refs])
      simp only [PPChild.load, Mem.rpr, this]
  refs := by
    intro m m' c h
    cases c with
    | run r => exact run_frame.refs h
    | link id r => exact run_frame.refs h
    | rpr k => rfl

theorem para_frame : Framed (fun m (p : PPara) => p.load m) (fun m p => p.refs m) where
  load := by
    intro m m' r h
    obtain ⟨h1, h2⟩ := AgreeOn.append.1 h
    simp only [PPara.load]
    rw [pchild_frame.list.load h2, Option.map_congr' (f := m'.ppr) (g := m.ppr) fun k hk => by
      simp only [Mem.ppr, AgreeOn.opt.1 h1 k hk]]
  refs := by
    intro m m' r h
    obtain ⟨h1, h2⟩ := AgreeOn.append.1 h
    simp only [PPara.refs]
    rw [pchild_frame.list.refs h2]

theorem cell_frame : Framed (fun m (p : PCell) => p.load m) (fun m p => p.refs m) where
  load := by
    intro m m' r h
    obtain ⟨h1, h2⟩ := AgreeOn.append.1 h
    simp only [PCell.load]
    rw [para_frame.list.load h2, Option.map_congr' (f := m'.tc) (g := m.tc) fun k hk => by
      simp only [Mem.tc, AgreeOn.opt.1 h1 k hk]]
  refs := by
    intro m m' r h
    obtain ⟨h1, h2⟩ := AgreeOn.append.1 h
    simp only [PCell.refs]
    rw [para_frame.list.refs h2]

theorem row_frame : Framed (fun m (p : PRow) => p.load m) (fun m p => p.refs m) where
  load := by
    intro m m' r h
    obtain ⟨h1, h2⟩ := AgreeOn.append.1 h
    simp only [PRow.load]
    rw [cell_frame.list.load h2, Option.map_congr' (f := m'.tr) (g := m.tr) fun k hk => by
      simp only [Mem.tr, AgreeOn.opt.1 h1 k hk]]
  refs := by
    intro m m' r h
    obtain ⟨h1, h2⟩ := AgreeOn.append.1 h
    simp only [PRow.refs]
    rw [cell_frame.list.refs h2]

theorem table_frame : Framed (fun m (p : PTable) => p.load m) (fun m p => p.refs m) where
  load := by
    intro m m' r h
    obtain ⟨h1, h2⟩ := AgreeOn.append.1 h
    simp only [PTable.load]
    rw [row_frame.list.load h2, Option.map_congr' (f := m'.tbl) (g := m.tbl) fun k hk => by
      simp only [Mem.tbl, AgreeOn.opt.1 h1 k hk]]
  refs := by
    intro m m' r h
    obtain ⟨h1, h2⟩ := AgreeOn.append.1 h
    simp only [PTable.refs]
    rw [row_frame.list.refs h2]

theorem item_frame : Framed (fun m (p : PItem) => p.load m) (fun m p => p.refs m) where
  load := by
    intro m m' r h
    cases r with
    | para p => simp only [PItem.load]; rw [para_frame.load h]
    | table t => simp only [PItem.load]; rw [table_frame.load h]
    | sect k =>
      have := h (.sect, k) (by simp [PItem.refs])
      simp only [PItem.load, Mem.sect, this]
  refs := by
    intro m m' r h
    cases r with
    | para p => exact para_frame.refs h
    | table t => exact table_frame.refs h
    | sect k => rfl

/-! ## New objects -/

/-- `x` is made of new objects with the value `v` -/
structure NewObjs {α β : Type} (ld : Mem → β → α) (rf : Mem → β → List Ref) (m : Mem) (v : α) (r : Mem × β) :
    Prop where
  ext : Ext' m r.1
  load : ld r.1 r.2 = v
  typed : Typed r.1 (rf r.1 r.2)
  fresh : ∀ x ∈ rf r.1 r.2, m.length ≤ x.2

theorem get_new (m : Mem) (o : Obj) : (new m o).1[(new m o).2]? = some o := by
  simp [new]

theorem newList_fresh {α β : Type} {ld : Mem → β → α} {rf : Mem → β → List Ref} (F : Framed ld rf)
    {f : Mem → α → Mem × β} (h : ∀ m v, NewObjs ld rf m v (f m v)) :
    ∀ (l : List α) (m : Mem), NewObjs (fun m l => l.map (ld m)) (fun m l => l.flatMap (rf m)) m l (newList f m l) := by
  intro l
  induction l with
  | nil => intro m; exact ⟨.refl m, rfl, fun x hx => (by cases hx), fun x hx => (by cases hx)⟩
  | cons v l ih =>
    intro m
    have h1 := h m v
    have h2 := ih (f m v).1
    have ag := h2.ext.agree h1.typed
    refine ⟨h1.ext.trans h2.ext, ?_, ?_, ?_⟩
    · simp only [newList, List.map_cons]
      rw [F.load ag, h1.load]
      exact congrArg _ h2.load
    · simp only [newList, List.flatMap_cons]
      refine Typed.append.2 ⟨?_, h2.typed⟩
      rw [F.refs ag]
      exact h1.typed.ext h2.ext
    · intro x hx
      simp only [newList, List.flatMap_cons, List.mem_append] at hx
      rcases hx with hx | hx
      · rw [F.refs ag] at hx
        exact h1.fresh x hx
      · exact Nat.le_trans h1.ext.len (h2.fresh x hx)

theorem newOpt_fresh {α : Type} (mk : α → Obj) (rd : Mem → Nat → α) (t : ObjKind) (hk : ∀ a, (mk a).kind = t)
    (hr : ∀ (m : Mem) k a, m[k]? = some (mk a) → rd m k = a) (m : Mem) (o : Option α) :
    NewObjs (fun m o => o.map (rd m)) (fun _ o => o.toList.map (t, ·)) m o (newOpt mk m o) := by
  cases o with
  | none => exact ⟨.refl m, rfl, fun x hx => (by cases hx), fun x hx => (by cases hx)⟩
  | some a =>
    refine ⟨.new m _, ?_, ?_, ?_⟩
    · simp only [newOpt, Option.map_some]
      rw [hr _ _ a (get_new m (mk a))]
    · intro x hx
      simp only [newOpt, Option.toList_some, List.map_cons, List.map_nil, List.mem_singleton] at hx
      subst hx
      simp only [newOpt]
      rw [get_new]
      simp [hk]
    · intro x hx
      simp only [newOpt, Option.toList_some, List.map_cons, List.map_nil, List.mem_singleton] at hx
      subst hx
      exact Nat.le_refl _

theorem opt_frame {α : Type} (rd : Mem → Nat → α) (t : ObjKind)
    (hc : ∀ {m m' : Mem} {k : Nat}, m'[k]? = m[k]? → rd m' k = rd m k) :
    Framed (fun m o => o.map (rd m)) (fun _ (o : Option Nat) => o.toList.map (t, ·)) where
  load := fun h => Option.map_congr' fun k hk => hc (AgreeOn.opt.1 h k hk)
  refs := fun _ => rfl

theorem NewObjs.pair {α β α' β' : Type} {ld : Mem → β → α} {rf : Mem → β → List Ref} {ld' : Mem → β' → α'}
    {rf' : Mem → β' → List Ref} {m : Mem} {v : α} {v' : α'} {r : Mem × β} {r' : Mem × β'} (F : Framed ld rf)
    (h : NewObjs ld rf m v r) (h' : NewObjs ld' rf' r.1 v' r') :
    NewObjs (fun m (x : β × β') => (ld m x.1, ld' m x.2)) (fun m x => rf m x.1 ++ rf' m x.2) m (v, v')
      (r'.1, (r.2, r'.2)) := by
  have ag := h'.ext.agree h.typed
  refine ⟨h.ext.trans h'.ext, ?_, ?_, ?_⟩
  · show (ld r'.1 r.2, ld' r'.1 r'.2) = _
    rw [F.load ag, h.load, h'.load]
  · refine Typed.append.2 ⟨?_, h'.typed⟩
    show Typed r'.1 (rf r'.1 r.2)
    rw [F.refs ag]
    exact h.typed.ext h'.ext
  · intro x hx
    rcases List.mem_append.1 hx with hx | hx
    · replace hx : x ∈ rf r'.1 r.2 := hx
      rw [F.refs ag] at hx
      exact h.fresh x hx
    · exact Nat.le_trans h.ext.len (h'.fresh x hx)

theorem NewObjs.conv {α β α' β' : Type} {ld : Mem → β → α} {rf : Mem → β → List Ref} {ld' : Mem → β' → α'}
    {rf' : Mem → β' → List Ref} {m : Mem} {v : α} {v' : α'} {r : Mem × β} {y : β'} (h : NewObjs ld rf m v r)
    (hl : ld r.1 r.2 = v → ld' r.1 y = v') (hr : rf' r.1 y = rf r.1 r.2) : NewObjs ld' rf' m v' (r.1, y) :=
  ⟨h.ext, hl h.load, (by show Typed r.1 (rf' r.1 y); rw [hr]; exact h.typed),
    (by intro x hx; rw [hr] at hx; exact h.fresh x hx)⟩

/-- One more object, holding the pointers made before -/
theorem NewObjs.wrap {α β α' : Type} {ld : Mem → β → α} {rf : Mem → β → List Ref} {ld' : Mem → Nat → α'}
    {rf' : Mem → Nat → List Ref} {m : Mem} {v : α} {v' : α'} {m1 : Mem} {y : β} {o : Obj} (F : Framed ld rf)
    (h : NewObjs ld rf m v (m1, y))
    (hl : ld (new m1 o).1 y = v → ld' (new m1 o).1 (new m1 o).2 = v')
    (hr : rf' (new m1 o).1 (new m1 o).2 = (o.kind, (new m1 o).2) :: rf (new m1 o).1 y) :
    NewObjs ld' rf' m v' (new m1 o) := by
  have e := Ext'.new m1 o
  have ag := e.agree h.typed
  refine ⟨h.ext.trans e, hl (by rw [F.load ag, h.load]), ?_, ?_⟩
  · rw [hr]
    intro x hx
    rcases List.mem_cons.1 hx with rfl | hx
    · simp [get_new]
    · rw [F.refs ag] at hx
      exact h.typed.ext e x hx
  · intro x hx
    rw [hr] at hx
    rcases List.mem_cons.1 hx with rfl | hx
    · exact h.ext.len
    · rw [F.refs ag] at hx
      exact h.fresh x hx

theorem new_fresh {α : Type} (o : Obj) {ld : Mem → Nat → α} {v : α} {t : ObjKind} (ht : o.kind = t)
    (h : ∀ (m : Mem) k, m[k]? = some o → ld m k = v) (m : Mem) :
    NewObjs ld (fun _ k => [(t, k)]) m v (new m o) := by
  refine ⟨.new m o, h _ _ (get_new m o), ?_, ?_⟩
  · intro x hx
    cases List.mem_singleton.1 hx
    simp [get_new, ht]
  · intro x hx
    cases List.mem_singleton.1 hx
    exact Nat.le_refl _

theorem withSp_self (g : Option Graphic) :
    withSp g (g.bind (·.data) |>.bind (·.pic) |>.bind (·.spPr)) = g := by
  cases g with
  | none => rfl
  | some g =>
    cases g with
    | mk f d =>
      cases d with
      | none => rfl
      | some gd =>
        cases gd with
        | mk u pic a b c => cases pic <;> rfl

theorem ext_frame : Framed (fun m (o : Option Nat) => o.map m.ext) (fun _ o => o.toList.map (ObjKind.ext, ·)) :=
  opt_frame Mem.ext .ext fun h => by simp only [Mem.ext, h]

theorem sp_frame : Framed (fun m (o : Option Nat) => o.map m.sp) (fun _ o => o.toList.map (ObjKind.sp, ·)) :=
  opt_frame Mem.sp .sp fun h => by simp only [Mem.sp, h]

theorem Framed.pair {α β α' β' : Type} {ld : Mem → β → α} {rf : Mem → β → List Ref} {ld' : Mem → β' → α'}
    {rf' : Mem → β' → List Ref} (F : Framed ld rf) (F' : Framed ld' rf') :
    Framed (fun m (x : β × β') => (ld m x.1, ld' m x.2)) (fun m x => rf m x.1 ++ rf' m x.2) where
  load := fun h => by rw [F.load (AgreeOn.append.1 h).1, F'.load (AgreeOn.append.1 h).2]
  refs := fun h => by rw [F.refs (AgreeOn.append.1 h).1, F'.refs (AgreeOn.append.1 h).2]

theorem newInl_fresh (m : Mem) (i : Inline) :
    NewObjs (fun m k => (m.inl k).load m) inlRefs m i (newInl m i) := by
  have h1 := newOpt_fresh .ext Mem.ext .ext (fun _ => rfl) (fun m k a h => by simp only [Mem.ext, h]) m i.extent
  have h2 := newOpt_fresh .sp Mem.sp .sp (fun _ => rfl) (fun m k a h => by simp only [Mem.sp, h])
    (newOpt .ext m i.extent).1 (i.graphic.bind (·.data) |>.bind (·.pic) |>.bind (·.spPr))
  unfold newInl
  dsimp only
  refine (h1.pair ext_frame h2).wrap (ext_frame.pair sp_frame) ?_ ?_
  · intro h
    simp only [Mem.inl, get_new, PInline.load]
    simp only [Prod.mk.injEq] at h
    rw [h.1, h.2, withSp_self]
    cases i
    rfl
  · simp only [inlRefs, Mem.inl, get_new]
    rfl

theorem newAnc_fresh (m : Mem) (i : Anchor) :
    NewObjs (fun m k => (m.anc k).load m) ancRefs m i (newAnc m i) := by
  have h1 := newOpt_fresh .ext Mem.ext .ext (fun _ => rfl) (fun m k a h => by simp only [Mem.ext, h]) m i.extent
  have h2 := newOpt_fresh .sp Mem.sp .sp (fun _ => rfl) (fun m k a h => by simp only [Mem.sp, h])
    (newOpt .ext m i.extent).1 (i.graphic.bind (·.data) |>.bind (·.pic) |>.bind (·.spPr))
  unfold newAnc
  dsimp only
  refine (h1.pair ext_frame h2).wrap (ext_frame.pair sp_frame) ?_ ?_
  · intro h
    simp only [Mem.anc, get_new, PAnchor.load]
    simp only [Prod.mk.injEq] at h
    rw [h.1, h.2, withSp_self]
    cases i
    rfl
  · simp only [ancRefs, Mem.anc, get_new]
    rfl

/-- New objects if there is a value -/
theorem newPtr_fresh {α : Type} {ld : Mem → Nat → α} {rf : Mem → Nat → List Ref} {f : Mem → α → Mem × Nat}
    (h : ∀ m v, NewObjs ld rf m v (f m v)) (m : Mem) (o : Option α) :
    NewObjs (fun m (o : Option Nat) => o.map (ld m)) (fun m o => o.toList.flatMap (rf m)) m o
      (newPtr f m o) := by
  cases o with
  | none => exact ⟨.refl m, rfl, fun x hx => (by cases hx), fun x hx => (by cases hx)⟩
  | some v =>
    have := h m v
    exact ⟨this.ext, congrArg some this.load, by simpa [newPtr] using this.typed, by simpa [newPtr] using this.fresh⟩

theorem newRChild_fresh (m : Mem) (c : RChild) :
    NewObjs (fun m (c : PRChild) => c.load m) (fun m c => c.refs m) m c (newRChild m c) := by
  cases c with
  | text t =>
    exact (new_fresh (ld := fun m k => (m.leaf k).child) (.leaf (.text t)) rfl (fun m k h => by
      simp only [Mem.leaf, h, Leaf.child]) m).conv (fun h => h) rfl
  | tab t =>
    exact (new_fresh (ld := fun m k => (m.leaf k).child) (.leaf (.tab t)) rfl (fun m k h => by
      simp only [Mem.leaf, h, Leaf.child]) m).conv (fun h => h) rfl
  | br t =>
    exact (new_fresh (ld := fun m k => (m.leaf k).child) (.leaf (.br t)) rfl (fun m k h => by
      simp only [Mem.leaf, h, Leaf.child]) m).conv (fun h => h) rfl
  | drawing d =>
    have h1 := newPtr_fresh newInl_fresh m d.inl
    have h2 := newPtr_fresh newAnc_fresh (newPtr newInl m d.inl).1 d.anchor
    have F : Framed (fun m (o : Option Nat) => o.map fun k => (m.inl k).load m) (fun m o => o.toList.flatMap (inlRefs m)) := by
      refine ⟨fun h => ?_, fun h => ?_⟩
      · exact Option.map_congr' fun k hk => inl_frame.load (AgreeOn.flatMap.1 h k (by simp [hk]))
      · exact inl_frame.list.refs h
    unfold newRChild
    dsimp only
    refine (h1.pair F h2).conv ?_ ?_
    · intro h
      simp only [Prod.mk.injEq] at h
      simp only [PRChild.load, loadDrawing]
      obtain ⟨h1, h2⟩ := h
      cases d
      simp only at h1 h2 ⊢
      rw [h1, h2]
    · rfl

theorem newRun_fresh (m : Mem) (r : Run) :
    NewObjs (fun m (r : PRun) => r.load m) (fun m r => r.refs m) m r (newRun m r) := by
  have h1 := newOpt_fresh .rpr Mem.rpr .rpr (fun _ => rfl) (fun m k a h => by simp only [Mem.rpr, h]) m r.rpr
  have h2 := newList_fresh rchild_frame newRChild_fresh r.children (newOpt .rpr m r.rpr).1
  unfold newRun
  dsimp only
  refine (h1.pair (opt_frame Mem.rpr .rpr fun h => by simp only [Mem.rpr, h]) h2).conv ?_ ?_
  · intro h
    simp only [Prod.mk.injEq] at h
    simp only [PRun.load]
    rw [h.1, h.2]
    cases r
    rfl
  · rfl

theorem newPChild_fresh (m : Mem) (c : PChild) :
    NewObjs (fun m (c : PPChild) => c.load m) (fun m c => c.refs m) m c (newPChild m c) := by
  cases c with
  | run r => exact (newRun_fresh m r).conv (fun h => congrArg PChild.run h) rfl
  | link h => 
    refine (newRun_fresh m h.run).conv (fun h' => ?_) rfl
    simp only [PPChild.load]
    rw [h']
    cases h
    rfl
  | rpr x =>
    exact (new_fresh (ld := Mem.rpr) (.rpr x) rfl (fun m k h => by simp only [Mem.rpr, h]) m).conv
      (fun h => congrArg PChild.rpr h) rfl

theorem newPara_fresh (m : Mem) (r : Para) :
    NewObjs (fun m (r : PPara) => r.load m) (fun m r => r.refs m) m r (newPara m r) := by
  have h1 := newOpt_fresh .ppr Mem.ppr .ppr (fun _ => rfl) (fun m k a h => by simp only [Mem.ppr, h]) m r.props
  have h2 := newList_fresh pchild_frame newPChild_fresh r.children (newOpt .ppr m r.props).1
  unfold newPara
  dsimp only
  refine (h1.pair (opt_frame Mem.ppr .ppr fun h => by simp only [Mem.ppr, h]) h2).conv ?_ ?_
  · intro h
    simp only [Prod.mk.injEq] at h
    simp only [PPara.load]
    rw [h.1, h.2]
    cases r
    rfl
  · rfl

theorem newCell_fresh (m : Mem) (r : Cell) :
    NewObjs (fun m (r : PCell) => r.load m) (fun m r => r.refs m) m r (newCell m r) := by
  have h1 := newOpt_fresh .tc Mem.tc .tc (fun _ => rfl) (fun m k a h => by simp only [Mem.tc, h]) m r.props
  have h2 := newList_fresh para_frame newPara_fresh r.paras (newOpt .tc m r.props).1
  unfold newCell
  dsimp only
  refine (h1.pair (opt_frame Mem.tc .tc fun h => by simp only [Mem.tc, h]) h2).conv ?_ ?_
  · intro h
    simp only [Prod.mk.injEq] at h
    simp only [PCell.load]
    rw [h.1, h.2]
  · rfl

theorem newRow_fresh (m : Mem) (r : Row) :
    NewObjs (fun m (r : PRow) => r.load m) (fun m r => r.refs m) m r (newRow m r) := by
  have h1 := newOpt_fresh .tr Mem.tr .tr (fun _ => rfl) (fun m k a h => by simp only [Mem.tr, h]) m r.props
  have h2 := newList_fresh cell_frame newCell_fresh r.cells (newOpt .tr m r.props).1
  unfold newRow
  dsimp only
  refine (h1.pair (opt_frame Mem.tr .tr fun h => by simp only [Mem.tr, h]) h2).conv ?_ ?_
  · intro h
    simp only [Prod.mk.injEq] at h
    simp only [PRow.load]
    rw [h.1, h.2]
  · rfl

theorem newTable_fresh (m : Mem) (r : Table) :
    NewObjs (fun m (r : PTable) => r.load m) (fun m r => r.refs m) m r (newTable m r) := by
  have h1 := newOpt_fresh .tbl Mem.tbl .tbl (fun _ => rfl) (fun m k a h => by simp only [Mem.tbl, h]) m r.props
  have h2 := newList_fresh row_frame newRow_fresh r.rows (newOpt .tbl m r.props).1
  unfold newTable
  dsimp only
  refine (h1.pair (opt_frame Mem.tbl .tbl fun h => by simp only [Mem.tbl, h]) h2).conv ?_ ?_
  · intro h
    simp only [Prod.mk.injEq] at h
    simp only [PTable.load]
    rw [h.1, h.2]
  · rfl

theorem newItem_fresh (m : Mem) (x : BItem) :
    NewObjs (fun m (x : PItem) => x.load m) (fun m x => x.refs m) m x (newItem m x) := by
  cases x with
  | para p => exact (newPara_fresh m p).conv (fun h => congrArg BItem.para h) rfl
  | table t => exact (newTable_fresh m t).conv (fun h => congrArg BItem.table h) rfl
  | sect x =>
    exact (new_fresh (ld := Mem.sect) (.sect x) rfl (fun m k h => by simp only [Mem.sect, h]) m).conv
      (fun h => congrArg BItem.sect h) rfl

end Docx
