import Verif.Lemmas.AliasShare

/-!
# Writes to drawings and to the properties of tables act as on values
-/

set_option linter.unusedSectionVars false

namespace Docx

theorem onExt_inl (m : Mem) (e k : Nat) (f : Ext → Ext) : (m.write e (Obj.onExt f)).inl k = m.inl k := by
  simp only [Mem.inl, Mem.write, List.getElem?_modify]
  cases m[k]? with
  | none => rfl
  | some o => by_cases h : e = k <;> cases o <;> simp [h, Obj.onExt]

theorem onExt_anc (m : Mem) (e k : Nat) (f : Ext → Ext) : (m.write e (Obj.onExt f)).anc k = m.anc k := by
  simp only [Mem.anc, Mem.write, List.getElem?_modify]
  cases m[k]? with
  | none => rfl
  | some o => by_cases h : e = k <;> cases o <;> simp [h, Obj.onExt]

theorem onExt_sp (m : Mem) (e k : Nat) (f : Ext → Ext) : (m.write e (Obj.onExt f)).sp k = m.sp k := by
  simp only [Mem.sp, Mem.write, List.getElem?_modify]
  cases m[k]? with
  | none => rfl
  | some o => by_cases h : e = k <;> cases o <;> simp [h, Obj.onExt]

theorem onSp_inl (m : Mem) (e k : Nat) (f : PicSpPr → PicSpPr) : (m.write e (Obj.onSp f)).inl k = m.inl k := by
  simp only [Mem.inl, Mem.write, List.getElem?_modify]
  cases m[k]? with
  | none => rfl
  | some o => by_cases h : e = k <;> cases o <;> simp [h, Obj.onSp]

theorem onSp_anc (m : Mem) (e k : Nat) (f : PicSpPr → PicSpPr) : (m.write e (Obj.onSp f)).anc k = m.anc k := by
  simp only [Mem.anc, Mem.write, List.getElem?_modify]
  cases m[k]? with
  | none => rfl
  | some o => by_cases h : e = k <;> cases o <;> simp [h, Obj.onSp]

theorem onSp_ext (m : Mem) (e k : Nat) (f : PicSpPr → PicSpPr) : (m.write e (Obj.onSp f)).ext k = m.ext k := by
  simp only [Mem.ext, Mem.write, List.getElem?_modify]
  cases m[k]? with
  | none => rfl
  | some o => by_cases h : e = k <;> cases o <;> simp [h, Obj.onSp]

theorem onExt_ext {m : Mem} {e : Nat} (h : (m[e]?).map Obj.kind = some .ext) (f : Ext → Ext) :
    (m.write e (Obj.onExt f)).ext e = f (m.ext e) := by
  simp only [Mem.ext, Mem.write, List.getElem?_modify]
  cases ho : m[e]? with
  | none => rw [ho] at h; cases h
  | some o => rw [ho] at h; cases o <;> simp [Obj.kind] at h; simp [Obj.onExt]

theorem onSp_sp {m : Mem} {e : Nat} (h : (m[e]?).map Obj.kind = some .sp) (f : PicSpPr → PicSpPr) :
    (m.write e (Obj.onSp f)).sp e = f (m.sp e) := by
  simp only [Mem.sp, Mem.write, List.getElem?_modify]
  cases ho : m[e]? with
  | none => rw [ho] at h; cases h
  | some o => rw [ho] at h; cases o <;> simp [Obj.kind] at h; simp [Obj.onSp]

theorem onTbl_tbl {m : Mem} {e : Nat} (h : (m[e]?).map Obj.kind = some .tbl) (f : TblPr → TblPr) :
    (m.write e (Obj.onTbl f)).tbl e = f (m.tbl e) := by
  simp only [Mem.tbl, Mem.write, List.getElem?_modify]
  cases ho : m[e]? with
  | none => rw [ho] at h; cases h
  | some o => rw [ho] at h; cases o <;> simp [Obj.kind] at h; simp [Obj.onTbl]

theorem onTr_tr {m : Mem} {e : Nat} (h : (m[e]?).map Obj.kind = some .tr) (f : TrPr → TrPr) :
    (m.write e (Obj.onTr f)).tr e = f (m.tr e) := by
  simp only [Mem.tr, Mem.write, List.getElem?_modify]
  cases ho : m[e]? with
  | none => rw [ho] at h; cases h
  | some o => rw [ho] at h; cases o <;> simp [Obj.kind] at h; simp [Obj.onTr]

theorem onTc_tc {m : Mem} {e : Nat} (h : (m[e]?).map Obj.kind = some .tc) (f : TcPr → TcPr) :
    (m.write e (Obj.onTc f)).tc e = f (m.tc e) := by
  simp only [Mem.tc, Mem.write, List.getElem?_modify]
  cases ho : m[e]? with
  | none => rw [ho] at h; cases h
  | some o => rw [ho] at h; cases o <;> simp [Obj.kind] at h; simp [Obj.onTc]

theorem onExt_kind (m : Mem) (e k : Nat) (f : Ext → Ext) :
    ((m.write e (Obj.onExt f))[k]?).map Obj.kind = (m[k]?).map Obj.kind := by
  simp only [Mem.write, List.getElem?_modify]
  cases m[k]? with
  | none => rfl
  | some o => by_cases h : e = k <;> cases o <;> simp [h, Obj.onExt, Obj.kind]

theorem sizeAt_inl (m : Mem) (ext sp : Option Nat) (pic : Bool) (w h : Int64) (k : Nat) :
    (sizeAt m ext sp pic w h).inl k = m.inl k := by
  cases ext <;> cases sp <;> cases pic <;> simp [sizeAt, onExt_inl, onSp_inl]

theorem sizeAt_anc (m : Mem) (ext sp : Option Nat) (pic : Bool) (w h : Int64) (k : Nat) :
    (sizeAt m ext sp pic w h).anc k = m.anc k := by
  cases ext <;> cases sp <;> cases pic <;> simp [sizeAt, onExt_anc, onSp_anc]

/-- The extent after `Size` -/
theorem sizeAt_ext {m : Mem} {ext : Option Nat} (sp : Option Nat) (pic : Bool) (w h : Int64)
    (ht : ∀ e, ext = some e → (m[e]?).map Obj.kind = some .ext) :
    ext.map (sizeAt m ext sp pic w h).ext = ext.map fun _ => { cx := w, cy := h } := by
  cases ext with
  | none => rfl
  | some e => cases sp <;> cases pic <;> simp [sizeAt, onExt_ext (ht e rfl), onSp_ext]

/-- The shape properties of the picture after `Size` -/
theorem sizeAt_sp {m : Mem} (ext : Option Nat) {sp : Option Nat} (g : Option Graphic) (w h : Int64)
    (ht : ∀ e, sp = some e → (m[e]?).map Obj.kind = some .sp) :
    withSp g (sp.map (sizeAt m ext sp (g.bind (·.data) |>.bind (·.pic)).isSome w h).sp) =
      sizeGraphic (withSp g (sp.map m.sp)) w h := by
  rcases g with _ | ⟨xa, _ | ⟨uri, _ | ⟨xp, nv, bf, s⟩, _, _, _⟩⟩
  · rfl
  · rfl
  · rfl
  · cases sp with
    | none => rfl
    | some k =>
      have hk := ht k rfl
      cases ext with
      | none => simp [sizeAt, withSp, sizeGraphic, onSp_sp hk]
      | some e =>
        have hk' : ((m.write e (Obj.onExt fun x => { x with cx := w, cy := h }))[k]?).map Obj.kind = some .sp := by
          rw [onExt_kind]; exact hk
        simp [sizeAt, withSp, sizeGraphic, onSp_sp hk', onExt_sp]

theorem inlSize_value {m : Mem} {k : Nat} (t : Typed m (inlRefs m k)) (w h : Int64) :
    ((inlSize m k w h).inl k).load (inlSize m k w h) = ((m.inl k).load m).setSize w h := by
  have t1 : ∀ e, (m.inl k).ext = some e → (m[e]?).map Obj.kind = some .ext := fun e he =>
    t (.ext, e) (by simp [inlRefs, he])
  have t2 : ∀ e, (m.inl k).sp = some e → (m[e]?).map Obj.kind = some .sp := fun e he =>
    t (.sp, e) (by simp [inlRefs, he])
  unfold inlSize
  simp only [sizeAt_inl]
  simp only [PInline.load, Inline.setSize, sizeAt_ext _ _ _ _ t1, sizeAt_sp _ _ _ _ t2, Option.map_map]
  rfl

theorem ancSize_value {m : Mem} {k : Nat} (t : Typed m (ancRefs m k)) (w h : Int64) :
    ((ancSize m k w h).anc k).load (ancSize m k w h) = ((m.anc k).load m).setSize w h := by
  have t1 : ∀ e, (m.anc k).ext = some e → (m[e]?).map Obj.kind = some .ext := fun e he =>
    t (.ext, e) (by simp [ancRefs, he])
  have t2 : ∀ e, (m.anc k).sp = some e → (m[e]?).map Obj.kind = some .sp := fun e he =>
    t (.sp, e) (by simp [ancRefs, he])
  unfold ancSize
  simp only [sizeAt_anc]
  simp only [PAnchor.load, Anchor.setSize, sizeAt_ext _ _ _ _ t1, sizeAt_sp _ _ _ _ t2, Option.map_map]
  rfl

/-- `Size` called on a drawing gives its value the new size -/
theorem size_through [ImgEnv] {s : PWorld} (hs : s.Ok) {d : DocId} {l : Loc} {p : PPara} {j n : Nat} {r : PRun}
    {i a : Option Nat} (h1 : s.paraAt d l = some p) (h2 : p.children[j]? = some (.run r))
    (h3 : r.children[n]? = some (.drawing i a)) (w h : Int64) :
    (∀ k, i = some k → ∃ s', s.pstep (.size d l j n w h) = .ok s' ∧ ∃ f, s'.world[d]? = some f ∧
      ∃ q, getPara f.items l = some q ∧ ∃ c, q.children[j]? = some (.run c) ∧
        ∃ dr, c.children[n]? = some (.drawing dr) ∧ dr.inl = some (((s.mem.inl k).load s.mem).setSize w h)) ∧
    (∀ k, i = none → a = some k → ∃ s', s.pstep (.size d l j n w h) = .ok s' ∧ ∃ f, s'.world[d]? = some f ∧
      ∃ q, getPara f.items l = some q ∧ ∃ c, q.children[j]? = some (.run c) ∧
        ∃ dr, c.children[n]? = some (.drawing dr) ∧ dr.inl = none ∧
          dr.anchor = some (((s.mem.anc k).load s.mem).setSize w h)) := by
  have hr : s.runAt d l j = some r := by
    simp only [PWorld.paraAt, Option.bind_eq_some_iff] at h1
    obtain ⟨xs, a, b⟩ := h1
    simp [PWorld.runAt, a, b, PPara.runAt, h2]
  simp only [PWorld.paraAt, Option.bind_eq_some_iff] at h1
  obtain ⟨xs, h1, h1'⟩ := h1
  obtain ⟨f, hf⟩ := some_of_len hs.len.symm h1
  have ht : ∀ x ∈ (PRChild.drawing i a).refs s.mem, (s.mem[x.2]?).map Obj.kind = some x.1 := fun x hx =>
    hs.typed d xs h1 x (pgetPara_refs h1' _ (runAt_refs (j := j) (r := r) (by simp [PPara.runAt, h2]) _
      (List.mem_append_right _ (List.mem_flatMap.2 ⟨_, List.mem_iff_getElem?.2 ⟨n, h3⟩, hx⟩))))
  constructor
  · rintro k rfl
    refine ⟨{ s with mem := inlSize s.mem k w h }, by simp only [PWorld.pstep, hr, Option.bind_some, h3], ?_⟩
    obtain ⟨f', b1, b2⟩ := value_at (s := { s with mem := inlSize s.mem k w h }) hf h1 h1'
    refine ⟨f', b1, _, b2, r.load _, by simp only [PPara.load, List.getElem?_map, h2]; rfl,
      loadDrawing (inlSize s.mem k w h) (some k) a, by simp only [PRun.load, List.getElem?_map, h3]; rfl, ?_⟩
    simp only [loadDrawing, Option.map_some, Option.some.injEq]
    exact inlSize_value (fun x hx => ht x (by simp [PRChild.refs, hx])) w h
  · rintro k rfl rfl
    refine ⟨{ s with mem := ancSize s.mem k w h }, by simp only [PWorld.pstep, hr, Option.bind_some, h3], ?_⟩
    obtain ⟨f', b1, b2⟩ := value_at (s := { s with mem := ancSize s.mem k w h }) hf h1 h1'
    refine ⟨f', b1, _, b2, r.load _, by simp only [PPara.load, List.getElem?_map, h2]; rfl,
      loadDrawing (ancSize s.mem k w h) none (some k), by simp only [PRun.load, List.getElem?_map, h3]; rfl, rfl, ?_⟩
    simp only [loadDrawing, Option.map_some, Option.some.injEq]
    exact ancSize_value (fun x hx => ht x (by simp [PRChild.refs, hx])) w h

end Docx
