import Verif.Lemmas.Alias
import Verif.Lemmas.Copy

/-!
# Copying with pointers and copying values agree
-/

set_option linter.unusedSectionVars false

namespace Docx

/-- A result with pointers and a result with values: the same outcome, and on success the same documents
and the value of the pointer result; `R` holds of the memory and the pointer result -/
def SimRes {α β : Type} (ld : Mem → α → β) (R : Mem → α → Prop) :
    Res (Mem × World × α) → Res (World × β) → Prop
  | .ok (m, w, a), .ok (w', b) => w' = w ∧ b = ld m a ∧ R m a
  | .err e, .err e' => e = e'
  | .panic, .panic => True
  | _, _ => False

theorem SimRes.bind {α β α' β' : Type} {ld : Mem → α → β} {R : Mem → α → Prop} {ld' : Mem → α' → β'}
    {R' : Mem → α' → Prop} {x : Res (Mem × World × α)} {y : Res (World × β)}
    {f : Mem × World × α → Res (Mem × World × α')} {g : World × β → Res (World × β')}
    (h : SimRes ld R x y) (k : ∀ m w a, R m a → SimRes ld' R' (f (m, w, a)) (g (w, ld m a))) :
    SimRes ld' R' (x >>= f) (y >>= g) := by
  match x, y, h with
  | .ok (m, w, a), .ok (w', b), h =>
    obtain ⟨rfl, rfl, h⟩ := h
    exact k m w' a h
  | .err e, .err e', h => exact h
  | .panic, .panic, _ => trivial

theorem SimRes.weaken {α β : Type} {ld : Mem → α → β} {R R' : Mem → α → Prop} {x : Res (Mem × World × α)}
    {y : Res (World × β)} (h : SimRes ld R x y) (k : ∀ m a, R m a → R' m a) : SimRes ld R' x y := by
  match x, y, h with
  | .ok (m, w, a), .ok (w', b), h => exact ⟨h.1, h.2.1, k _ _ h.2.2⟩
  | .err e, .err e', h => exact h
  | .panic, .panic, _ => trivial

/-- What a copy reaches: pointers of the source and new ones, all leading to objects -/
structure From {α β : Type} (rf : Mem → α → List Ref) (rf' : Mem → β → List Ref) (m : Mem) (x : α) (m' : Mem)
    (x' : β) : Prop where
  ext : Ext' m m'
  typed : Typed m' (rf' m' x')
  old : ∀ r ∈ rf' m' x', r ∈ rf m x ∨ m.length ≤ r.2

theorem get?_new (m : Mem) (o : Obj) : (m ++ [o])[m.length]? = some o := by simp

theorem withSp_twice (g : Option Graphic) (a b : Option PicSpPr) : withSp (withSp g a) b = withSp g b := by
  cases g with
  | none => rfl
  | some g =>
    cases g with
    | mk f d =>
      cases d with
      | none => rfl
      | some gd =>
        cases gd with
        | mk u pic a b c => cases pic <;> rfl

theorem copyPic_spPr {w w' : World} {to : DocId} {file : Option DocId} {pic : Picture} {c : PicCopy}
    (h : copyPic w to file pic = .ok (w', some c)) : c.pic.spPr = pic.spPr := by
  simp only [copyPic] at h
  repeat' split at h
  all_goals first
    | (simp only [Res.ok.injEq, Prod.mk.injEq, Option.some.injEq] at h; obtain ⟨_, rfl⟩ := h; rfl)
    | cases h
    | (simp only [Res.ok.injEq, Prod.mk.injEq] at h; exact absurd h.2 (by simp))

/-- A copy keeps extent and shape properties -/
theorem Inline.copymedia_keeps {w w' : World} {to : DocId} {r r' : Inline}
    (h : r.copymedia w to = .ok (w', some r')) :
    r'.extent = r.extent ∧ (∀ s, withSp r.graphic s = r.graphic → withSp r'.graphic s = r'.graphic) ∧
    ((r'.graphic.bind (·.data) |>.bind (·.pic)) = none → r' = r) := by
  simp only [Inline.copymedia] at h
  split at h
  · cases h
  rename_i g hg
  split at h
  · cases h
  rename_i gd hgd
  split at h
  · rename_i pic hp
    obtain ⟨⟨w1, c⟩, h1, h2⟩ := Res.bind_eq_ok.1 h
    cases c with
    | none => simp only [Res.pure_eq, Res.ok.injEq, Prod.mk.injEq] at h2; exact absurd h2.2 (by simp)
    | some c =>
      simp only [Res.pure_eq, Res.ok.injEq, Prod.mk.injEq, Option.some.injEq] at h2
      obtain ⟨rfl, rfl⟩ := h2
      refine ⟨rfl, ?_, ?_⟩
      · intro s hs
        have e := copyPic_spPr h1
        simp only [withSp, hg, Option.map_some, hgd, hp, Option.some.injEq] at hs ⊢
        have : ({ pic with spPr := s } : Picture) = pic := by
          have := congrArg (fun g : Graphic => g.data.bind (·.pic)) hs
          simpa [hgd, hp] using this
        have : pic.spPr = s := by rw [← this]
        rw [← this, ← e]
      · intro hn
        simp at hn
  · rename_i hp
    split at h
    · simp only [Res.ok.injEq, Prod.mk.injEq, Option.some.injEq] at h
      obtain ⟨rfl, rfl⟩ := h
      exact ⟨rfl, fun _ h => h, fun _ => rfl⟩
    · split at h
      · simp only [Res.ok.injEq, Prod.mk.injEq, Option.some.injEq] at h
        obtain ⟨rfl, rfl⟩ := h
        exact ⟨rfl, fun _ h => h, fun _ => rfl⟩
      · simp only [Res.ok.injEq, Prod.mk.injEq] at h; exact absurd h.2 (by simp)

/-- A copy keeps extent and shape properties -/
theorem Anchor.copymedia_keeps {w w' : World} {to : DocId} {r r' : Anchor}
    (h : r.copymedia w to = .ok (w', some r')) :
    r'.extent = r.extent ∧ (∀ s, withSp r.graphic s = r.graphic → withSp r'.graphic s = r'.graphic) ∧
    ((r'.graphic.bind (·.data) |>.bind (·.pic)) = none → r' = r) := by
  simp only [Anchor.copymedia] at h
  split at h
  · cases h
  rename_i g hg
  split at h
  · cases h
  rename_i gd hgd
  split at h
  · rename_i pic hp
    obtain ⟨⟨w1, c⟩, h1, h2⟩ := Res.bind_eq_ok.1 h
    cases c with
    | none => simp only [Res.pure_eq, Res.ok.injEq, Prod.mk.injEq] at h2; exact absurd h2.2 (by simp)
    | some c =>
      simp only [Res.pure_eq, Res.ok.injEq, Prod.mk.injEq, Option.some.injEq] at h2
      obtain ⟨rfl, rfl⟩ := h2
      refine ⟨rfl, ?_, ?_⟩
      · intro s hs
        have e := copyPic_spPr h1
        simp only [withSp, hg, Option.map_some, hgd, hp, Option.some.injEq] at hs ⊢
        have : ({ pic with spPr := s } : Picture) = pic := by
          have := congrArg (fun g : Graphic => g.data.bind (·.pic)) hs
          simpa [hgd, hp] using this
        have : pic.spPr = s := by rw [← this]
        rw [← this, ← e]
      · intro hn
        simp at hn
  · rename_i hp
    split at h
    · simp only [Res.ok.injEq, Prod.mk.injEq, Option.some.injEq] at h
      obtain ⟨rfl, rfl⟩ := h
      exact ⟨rfl, fun _ h => h, fun _ => rfl⟩
    · split at h
      · simp only [Res.ok.injEq, Prod.mk.injEq, Option.some.injEq] at h
        obtain ⟨rfl, rfl⟩ := h
        exact ⟨rfl, fun _ h => h, fun _ => rfl⟩
      · simp only [Res.ok.injEq, Prod.mk.injEq] at h; exact absurd h.2 (by simp)

/-- The pointers reached from a pointer that may be nil -/
abbrev optRefs (rf : Mem → Nat → List Ref) (m : Mem) (o : Option Nat) : List Ref := o.toList.flatMap (rf m)

theorem copyInl_sim {m : Mem} {w : World} {to : DocId} {k : Nat} (t : Typed m (inlRefs m k)) :
    SimRes (fun m o => o.map fun k => (m.inl k).load m) (From inlRefs (optRefs inlRefs) m k)
      (copyInl m w to k) (((m.inl k).load m).copymedia w to) := by
  unfold copyInl
  dsimp only
  cases h : ((m.inl k).load m).copymedia w to with
  | panic => trivial
  | err e => rfl
  | ok r =>
    obtain ⟨w', o⟩ := r
    cases o with
    | none =>
      exact ⟨rfl, rfl, .refl m, fun x hx => (by cases hx), fun x hx => (by cases hx)⟩
    | some i =>
      obtain ⟨k1, k2, k3⟩ := Inline.copymedia_keeps h
      dsimp only
      cases hp : (i.graphic.bind (·.data)).bind (·.pic) with
      | none =>
        refine ⟨rfl, ?_, .refl m, by simpa [optRefs] using t, ?_⟩
        · simp [k3 hp]
        · intro r hr
          left
          simpa [optRefs] using hr
      | some pic =>
        have e := Ext'.new m (.inl { val := i, ext := (m.inl k).ext, sp := (m.inl k).sp })
        have ag := e.agree t
        have hi : (new m (.inl { val := i, ext := (m.inl k).ext, sp := (m.inl k).sp })).1.inl m.length =
            { val := i, ext := (m.inl k).ext, sp := (m.inl k).sp } := by
          simp [Mem.inl, new]
        have hsub : ∀ r ∈ inlRefs (new m (.inl { val := i, ext := (m.inl k).ext, sp := (m.inl k).sp })).1 m.length,
            r = (.inl, m.length) ∨ r ∈ inlRefs m k := by
          intro r hr
          simp only [inlRefs, hi, List.mem_cons] at hr ⊢
          rcases hr with rfl | hr
          · exact .inl rfl
          · exact .inr (.inr hr)
        refine ⟨rfl, ?_, e, ?_, ?_⟩
        · simp only [Option.map_some, Option.some.injEq]
          show i = _
          rw [show (new m (.inl { val := i, ext := (m.inl k).ext, sp := (m.inl k).sp })).2 = m.length from rfl, hi]
          have hl := inl_frame.load ag
          simp only [inl_congr (ag (.inl, k) (by simp [inlRefs]))] at hl
          have h1 : i.extent = (m.inl k).ext.map (new m (.inl { val := i, ext := (m.inl k).ext, sp := (m.inl k).sp })).1.ext := by
            rw [k1]
            have := congrArg Inline.extent hl
            exact this.symm
          have h2 : withSp i.graphic ((m.inl k).sp.map (new m (.inl { val := i, ext := (m.inl k).ext, sp := (m.inl k).sp })).1.sp) = i.graphic := by
            apply k2
            rw [← hl]
            simp only [PInline.load, withSp_twice]
          simp only [PInline.load]
          rw [h2, ← h1]
          cases i
          rfl
        · intro r hr
          simp only [optRefs, Option.toList_some, List.flatMap_cons, List.flatMap_nil, List.append_nil] at hr
          rcases hsub r hr with rfl | hr
          · simp [new, Obj.kind]
          · exact t.ext e r hr
        · intro r hr
          simp only [optRefs, Option.toList_some, List.flatMap_cons, List.flatMap_nil, List.append_nil] at hr
          rcases hsub r hr with rfl | hr
          · exact .inr (Nat.le_refl _)
          · exact .inl hr

theorem copyAnc_sim {m : Mem} {w : World} {to : DocId} {k : Nat} (t : Typed m (ancRefs m k)) :
    SimRes (fun m o => o.map fun k => (m.anc k).load m) (From ancRefs (optRefs ancRefs) m k)
      (copyAnc m w to k) (((m.anc k).load m).copymedia w to) := by
  unfold copyAnc
  dsimp only
  cases h : ((m.anc k).load m).copymedia w to with
  | panic => trivial
  | err e => rfl
  | ok r =>
    obtain ⟨w', o⟩ := r
    cases o with
    | none =>
      exact ⟨rfl, rfl, .refl m, fun x hx => (by cases hx), fun x hx => (by cases hx)⟩
    | some i =>
      obtain ⟨k1, k2, k3⟩ := Anchor.copymedia_keeps h
      dsimp only
      cases hp : (i.graphic.bind (·.data)).bind (·.pic) with
      | none =>
        refine ⟨rfl, ?_, .refl m, by simpa [optRefs] using t, ?_⟩
        · simp [k3 hp]
        · intro r hr
          left
          simpa [optRefs] using hr
      | some pic =>
        have e := Ext'.new m (.anc { val := i, ext := (m.anc k).ext, sp := (m.anc k).sp })
        have ag := e.agree t
        have hi : (new m (.anc { val := i, ext := (m.anc k).ext, sp := (m.anc k).sp })).1.anc m.length =
            { val := i, ext := (m.anc k).ext, sp := (m.anc k).sp } := by
          simp [Mem.anc, new]
        have hsub : ∀ r ∈ ancRefs (new m (.anc { val := i, ext := (m.anc k).ext, sp := (m.anc k).sp })).1 m.length,
            r = (.anc, m.length) ∨ r ∈ ancRefs m k := by
          intro r hr
          simp only [ancRefs, hi, List.mem_cons] at hr ⊢
          rcases hr with rfl | hr
          · exact .inl rfl
          · exact .inr (.inr hr)
        refine ⟨rfl, ?_, e, ?_, ?_⟩
        · simp only [Option.map_some, Option.some.injEq]
          show i = _
          rw [show (new m (.anc { val := i, ext := (m.anc k).ext, sp := (m.anc k).sp })).2 = m.length from rfl, hi]
          have hl := anc_frame.load ag
          simp only [anc_congr (ag (.anc, k) (by simp [ancRefs]))] at hl
          have h1 : i.extent = (m.anc k).ext.map (new m (.anc { val := i, ext := (m.anc k).ext, sp := (m.anc k).sp })).1.ext := by
            rw [k1]
            have := congrArg Anchor.extent hl
            exact this.symm
          have h2 : withSp i.graphic ((m.anc k).sp.map (new m (.anc { val := i, ext := (m.anc k).ext, sp := (m.anc k).sp })).1.sp) = i.graphic := by
            apply k2
            rw [← hl]
            simp only [PAnchor.load, withSp_twice]
          simp only [PAnchor.load]
          rw [h2, ← h1]
          cases i
          rfl
        · intro r hr
          simp only [optRefs, Option.toList_some, List.flatMap_cons, List.flatMap_nil, List.append_nil] at hr
          rcases hsub r hr with rfl | hr
          · simp [new, Obj.kind]
          · exact t.ext e r hr
        · intro r hr
          simp only [optRefs, Option.toList_some, List.flatMap_cons, List.flatMap_nil, List.append_nil] at hr
          rcases hsub r hr with rfl | hr
          · exact .inr (Nat.le_refl _)
          · exact .inl hr


theorem From.refl {α : Type} {rf : Mem → α → List Ref} {m : Mem} {x : α} (t : Typed m (rf m x)) :
    From rf rf m x m x := ⟨.refl m, t, fun _ h => .inl h⟩

theorem copyDrawing_sim {m : Mem} {w : World} {to : DocId} {i a : Option Nat}
    (t : Typed m ((PRChild.drawing i a).refs m)) :
    SimRes (fun m (c : PRChild) => c.load m) (From (fun m (c : PRChild) => c.refs m) (fun m c => c.refs m) m (.drawing i a))
      (copyDrawing m w to i a)
      (do let (w', d) ← (loadDrawing m i a).copymedia w to; return (w', .drawing d)) := by
  obtain ⟨t1, t2⟩ := Typed.append.1 t
  cases i with
  | some k =>
    simp only [copyDrawing, Drawing.copymedia, loadDrawing, Option.map_some, bind_assoc]
    refine (copyInl_sim (by simpa using t1)).bind ?_
    intro m' w' o h
    refine ⟨rfl, rfl, h.ext, ?_, ?_⟩
    · simpa [PRChild.refs] using h.typed
    · intro r hr
      have := h.old r (by simpa [PRChild.refs] using hr)
      rcases this with h | h
      · exact .inl (by simp [PRChild.refs, h])
      · exact .inr h
  | none =>
    cases a with
    | some k =>
      simp only [copyDrawing, Drawing.copymedia, loadDrawing, Option.map_some, Option.map_none, bind_assoc]
      refine (copyAnc_sim (by simpa using t2)).bind ?_
      intro m' w' o h
      refine ⟨rfl, rfl, h.ext, ?_, ?_⟩
      · simpa [PRChild.refs] using h.typed
      · intro r hr
        have := h.old r (by simpa [PRChild.refs] using hr)
        rcases this with h | h
        · exact .inl (by simp [PRChild.refs, h])
        · exact .inr h
    | none =>
      exact ⟨rfl, rfl, .refl m, fun x hx => (by cases hx), fun x hx => (by cases hx)⟩

/-- The pointers reached from a list -/
abbrev listRefs {α : Type} (rf : Mem → α → List Ref) (m : Mem) (l : List α) : List Ref := l.flatMap (rf m)

/-- A copy of the head and then a copy of the tail -/
theorem From.cons {α β : Type} {rf : Mem → α → List Ref} {rf' : Mem → β → List Ref} {γ γ' : Type}
    {lf : Mem → α → γ} {lf' : Mem → β → γ'} (F : Framed lf rf) (F' : Framed lf' rf') {m m1 m2 : Mem} {x : α} {xs : List α} {x' : β}
    {xs' : List β} (t : Typed m (listRefs rf m (x :: xs))) (h : From rf rf' m x m1 x')
    (h' : From (listRefs rf) (listRefs rf') m1 xs m2 xs') :
    From (listRefs rf) (listRefs rf') m (x :: xs) m2 (x' :: xs') := by
  have t' : Typed m (xs.flatMap (rf m)) := (Typed.append.1 (by simpa [listRefs] using t)).2
  have e1 : rf' m2 x' = rf' m1 x' := F'.refs (h'.ext.agree h.typed)
  have e2 : xs.flatMap (rf m1) = xs.flatMap (rf m) := F.list.refs (h.ext.agree t')
  refine ⟨h.ext.trans h'.ext, ?_, ?_⟩
  · simp only [listRefs, List.flatMap_cons]
    refine Typed.append.2 ⟨?_, h'.typed⟩
    rw [e1]
    exact h.typed.ext h'.ext
  · intro r hr
    simp only [listRefs, List.flatMap_cons, List.mem_append] at hr ⊢
    rcases hr with hr | hr
    · rw [e1] at hr
      rcases h.old r hr with h | h
      · exact .inl (.inl h)
      · exact .inr h
    · rcases h'.old r hr with h1 | h1
      · left; right
        rw [← e2]
        exact h1
      · exact .inr (Nat.le_trans h.ext.len h1)

/-- What is reached stays valid in a bigger memory -/
theorem Framed.typed {α γ : Type} {rf : Mem → α → List Ref} {lf : Mem → α → γ} (F : Framed lf rf) {m m' : Mem}
    {x : α} (t : Typed m (rf m x)) (e : Ext' m m') : Typed m' (rf m' x) := by
  rw [F.refs (e.agree t)]
  exact t.ext e

theorem Framed.same {α γ : Type} {rf : Mem → α → List Ref} {lf : Mem → α → γ} (F : Framed lf rf) {m m' : Mem}
    {x : α} (t : Typed m (rf m x)) (e : Ext' m m') : lf m' x = lf m x :=
  F.load (e.agree t)

theorem typed_cons {α : Type} {rf : Mem → α → List Ref} {m : Mem} {x : α} {xs : List α} :
    Typed m (listRefs rf m (x :: xs)) ↔ Typed m (rf m x) ∧ Typed m (listRefs rf m xs) := by
  simp only [listRefs, List.flatMap_cons, Typed.append]

theorem From.consSame {α γ : Type} {rf : Mem → α → List Ref} {lf : Mem → α → γ} (F : Framed lf rf) {m m2 : Mem}
    {x : α} {xs xs' : List α} (t : Typed m (listRefs rf m (x :: xs)))
    (h' : From (listRefs rf) (listRefs rf) m xs m2 xs') :
    From (listRefs rf) (listRefs rf) m (x :: xs) m2 (x :: xs') :=
  From.cons F F t (.refl (typed_cons.1 t).1) h'

theorem SimRes.pure {α β : Type} {ld : Mem → α → β} {R : Mem → α → Prop} {m : Mem} {w : World} {a : α} {b : β}
    (hb : b = ld m a) (h : R m a) : SimRes ld R (.ok (m, w, a)) (.ok (w, b)) := ⟨rfl, hb, h⟩

theorem load_run (m : Mem) (r : PRun) : (PPChild.run r).load m = .run (r.load m) := rfl
theorem load_link (m : Mem) (id : String) (r : PRun) : (PPChild.link id r).load m = .link { id := id, run := r.load m } := rfl
theorem load_rpr (m : Mem) (k : Nat) : (PPChild.rpr k).load m = .rpr (m.rpr k) := rfl
theorem load_drawing (m : Mem) (i a : Option Nat) : (PRChild.drawing i a).load m = .drawing (loadDrawing m i a) := rfl
theorem load_leaf (m : Mem) (k : Nat) : (PRChild.leaf k).load m = (m.leaf k).child := rfl

theorem pcopyRChildren_sim {to : DocId} : ∀ {cs : List PRChild} {m : Mem} {w : World},
    Typed m (listRefs (fun m (c : PRChild) => c.refs m) m cs) →
    SimRes (fun m (l : List PRChild) => l.map (·.load m))
      (From (listRefs fun m (c : PRChild) => c.refs m) (listRefs fun m (c : PRChild) => c.refs m) m cs)
      (pcopyRChildren m w to cs) (copyRChildren w to (cs.map (·.load m))) := by
  intro cs
  induction cs with
  | nil => intro m w t; exact .pure rfl (.refl t)
  | cons c cs ih =>
    intro m w t
    obtain ⟨t1, t2⟩ := typed_cons.1 t
    cases c with
    | leaf k =>
      have : copyRChildren w to ((PRChild.leaf k :: cs).map (·.load m)) = (do
          let (w2, cs') ← copyRChildren w to (cs.map fun (c : PRChild) => c.load m)
          return (w2, (m.leaf k).child :: cs')) := by
        simp only [List.map_cons, load_leaf]
        cases m.leaf k <;> rfl
      rw [this]
      simp only [pcopyRChildren]
      refine (ih t2).bind ?_
      intro m' w' cs' h
      refine .pure ?_ (From.consSame rchild_frame t h)
      simp only [List.map_cons]
      congr 1
      exact (rchild_frame.same t1 h.ext).symm
    | drawing i a =>
      simp only [pcopyRChildren, List.map_cons, load_drawing, copyRChildren]
      have : (do
          let (w1, d') ← (loadDrawing m i a).copymedia w to
          let (w2, cs') ← copyRChildren w1 to (cs.map fun (c : PRChild) => c.load m)
          return (w2, RChild.drawing d' :: cs')) = (do
          let (w1, d') ← (do
            let (w', d) ← (loadDrawing m i a).copymedia w to
            return (w', RChild.drawing d))
          let (w2, cs') ← copyRChildren w1 to (cs.map fun (c : PRChild) => c.load m)
          return (w2, d' :: cs')) := by
        simp only [bind_assoc, pure_bind]
      rw [this]
      refine (copyDrawing_sim t1).bind ?_
      intro m1 w1 d' h1
      have t2' := rchild_frame.list.typed t2 h1.ext
      rw [← rchild_frame.list.same t2 h1.ext]
      refine (ih t2').bind ?_
      intro m2 w2 cs' h2
      refine .pure ?_ (From.cons rchild_frame rchild_frame t h1 h2)
      simp only [List.map_cons]
      congr 1
      exact (rchild_frame.same h1.typed h2.ext).symm

theorem PRun.copymedia_sim {to : DocId} {r : PRun} {m : Mem} {w : World} (t : Typed m (r.refs m)) :
    SimRes (fun m (r : PRun) => r.load m) (From (fun m (r : PRun) => r.refs m) (fun m (r : PRun) => r.refs m) m r)
      (r.copymedia m w to) ((r.load m).copymedia w to) := by
  obtain ⟨t1, t2⟩ := Typed.append.1 t
  simp only [PRun.copymedia, Run.copymedia, PRun.load]
  refine (pcopyRChildren_sim t2).bind ?_
  intro m' w' cs' h
  refine .pure ?_ ⟨h.ext, ?_, ?_⟩
  · simp only [PRun.load]
    rw [(opt_frame Mem.rpr .rpr fun h => by simp only [Mem.rpr, h]).same t1 h.ext]
  · exact Typed.append.2 ⟨t1.ext h.ext, h.typed⟩
  · intro x hx
    rcases List.mem_append.1 hx with hx | hx
    · exact .inl (List.mem_append_left _ hx)
    · rcases h.old x hx with h | h
      · exact .inl (List.mem_append_right _ h)
      · exact .inr h

theorem From.run {m m' : Mem} {r r' : PRun} {c c' : PPChild} (hc : ∀ m, c.refs m = r.refs m)
    (hc' : ∀ m, c'.refs m = r'.refs m)
    (h : From (fun m (r : PRun) => r.refs m) (fun m (r : PRun) => r.refs m) m r m' r') :
    From (fun m (c : PPChild) => c.refs m) (fun m (c : PPChild) => c.refs m) m c m' c' :=
  ⟨h.ext, by rw [hc']; exact h.typed, by intro x hx; rw [hc'] at hx; rw [hc]; exact h.old x hx⟩

/-- A child that is left out -/
theorem From.skip {α : Type} {rf : Mem → α → List Ref} {m m' : Mem} {x : α} {xs xs' : List α}
    (h : From (listRefs rf) (listRefs rf) m xs m' xs') : From (listRefs rf) (listRefs rf) m (x :: xs) m' xs' :=
  ⟨h.ext, h.typed, fun r hr => by
    rcases h.old r hr with h | h
    · exact .inl (by simp only [listRefs, List.flatMap_cons]; exact List.mem_append_right _ h)
    · exact .inr h⟩

theorem pcopyPChildren_sim {to : DocId} {file : Option DocId} : ∀ {cs : List PPChild} {m : Mem} {w : World},
    Typed m (listRefs (fun m (c : PPChild) => c.refs m) m cs) →
    SimRes (fun m (l : List PPChild) => l.map (·.load m))
      (From (listRefs fun m (c : PPChild) => c.refs m) (listRefs fun m (c : PPChild) => c.refs m) m cs)
      (pcopyPChildren m w to file cs) (copyPChildren w to file (cs.map (·.load m))) := by
  intro cs
  induction cs with
  | nil => intro m w t; exact .pure rfl (.refl t)
  | cons c cs ih =>
    intro m w t
    obtain ⟨t1, t2⟩ := typed_cons.1 t
    cases c with
    | rpr k =>
      simp only [pcopyPChildren, List.map_cons, load_run, load_link, load_rpr, copyPChildren]
      refine (ih t2).bind ?_
      intro m' w' cs' h
      refine .pure ?_ (From.consSame pchild_frame t h)
      simp only [List.map_cons]
      congr 1
      exact (pchild_frame.same t1 h.ext).symm
    | run r =>
      simp only [pcopyPChildren, List.map_cons, load_run, load_link, load_rpr, copyPChildren]
      refine (PRun.copymedia_sim t1).bind ?_
      intro m1 w1 r' h1
      have h1' := h1.run (c := .run r) (c' := .run r') (fun _ => rfl) (fun _ => rfl)
      have t2' := pchild_frame.list.typed t2 h1.ext
      rw [← pchild_frame.list.same t2 h1.ext]
      refine (ih t2').bind ?_
      intro m2 w2 cs' h2
      refine .pure ?_ (From.cons pchild_frame pchild_frame t h1' h2)
      simp only [List.map_cons]
      congr 1
      exact (pchild_frame.same h1'.typed h2.ext).symm
    | link id r =>
      simp only [pcopyPChildren, List.map_cons, load_run, load_link, load_rpr, copyPChildren]
      cases file.bind (w[·]?) with
      | none => trivial
      | some src =>
        simp only
        cases src.referTarget id with
        | none =>
          exact (ih t2).weaken fun _ _ h => h.skip
        | some tgt =>
          simp only
          cases w[to]? with
          | none => trivial
          | some tt =>
            simp only
            refine (PRun.copymedia_sim t1).bind ?_
            intro m1 w1 r' h1
            have h1' := h1.run (c := .link id r) (c' := .link (tt.addLinkRelation tgt).2 r') (fun _ => rfl) (fun _ => rfl)
            have t2' := pchild_frame.list.typed t2 h1.ext
            rw [← pchild_frame.list.same t2 h1.ext]
            refine (ih t2').bind ?_
            intro m2 w2 cs' h2
            refine .pure ?_ (From.cons pchild_frame pchild_frame t h1' h2)
            simp only [List.map_cons]
            congr 1
            exact (pchild_frame.same h1'.typed h2.ext).symm

theorem PPara.copymedia_sim {to : DocId} {p : PPara} {m : Mem} {w : World} (t : Typed m (p.refs m)) :
    SimRes (fun m (p : PPara) => p.load m) (From (fun m (p : PPara) => p.refs m) (fun m (p : PPara) => p.refs m) m p)
      (p.copymedia m w to) ((p.load m).copymedia w to) := by
  obtain ⟨t1, t2⟩ := Typed.append.1 t
  simp only [PPara.copymedia, Para.copymedia, PPara.load]
  refine (pcopyPChildren_sim t2).bind ?_
  intro m' w' cs' h
  refine .pure ?_ ⟨h.ext, ?_, ?_⟩
  · simp only [PPara.load]
    rw [(opt_frame Mem.ppr .ppr fun h => by simp only [Mem.ppr, h]).same t1 h.ext]
  · exact Typed.append.2 ⟨t1.ext h.ext, h.typed⟩
  · intro x hx
    rcases List.mem_append.1 hx with hx | hx
    · exact .inl (List.mem_append_left _ hx)
    · rcases h.old x hx with h | h
      · exact .inl (List.mem_append_right _ h)
      · exact .inr h

theorem pcopyParas_sim {to : DocId} : ∀ {cs : List PPara} {m : Mem} {w : World},
    Typed m (listRefs (fun m (c : PPara) => c.refs m) m cs) →
    SimRes (fun m (l : List PPara) => l.map (·.load m))
      (From (listRefs fun m (c : PPara) => c.refs m) (listRefs fun m (c : PPara) => c.refs m) m cs)
      (pcopyParas m w to cs) (copyParas w to (cs.map (·.load m))) := by
  intro cs
  induction cs with
  | nil => intro m w t; exact .pure rfl (.refl t)
  | cons c cs ih =>
    intro m w t
    obtain ⟨t1, t2⟩ := typed_cons.1 t
    simp only [pcopyParas, List.map_cons, copyParas]
    refine (PPara.copymedia_sim t1).bind ?_
    intro m1 w1 r' h1
    have t2' := para_frame.list.typed t2 h1.ext
    rw [← para_frame.list.same t2 h1.ext]
    refine (ih t2').bind ?_
    intro m2 w2 cs' h2
    refine .pure ?_ (From.cons para_frame para_frame t h1 h2)
    simp only [List.map_cons]
    congr 1
    exact (para_frame.same h1.typed h2.ext).symm

theorem pcopyCells_sim {to : DocId} : ∀ {cs : List PCell} {m : Mem} {w : World},
    Typed m (listRefs (fun m (c : PCell) => c.refs m) m cs) →
    SimRes (fun m (l : List PCell) => l.map (·.load m))
      (From (listRefs fun m (c : PCell) => c.refs m) (listRefs fun m (c : PCell) => c.refs m) m cs)
      (pcopyCells m w to cs) (copyCells w to (cs.map (·.load m))) := by
  intro cs
  induction cs with
  | nil => intro m w t; exact .pure rfl (.refl t)
  | cons c cs ih =>
    intro m w t
    obtain ⟨t1, t2⟩ := typed_cons.1 t
    obtain ⟨t3, t4⟩ := Typed.append.1 t1
    simp only [pcopyCells, List.map_cons, copyCells, PCell.load]
    refine (pcopyParas_sim t4).bind ?_
    intro m1 w1 ps h1
    have h1' : From (fun m (c : PCell) => c.refs m) (fun m (c : PCell) => c.refs m) m c m1
        { c with paras := ps, file := some to } := by
      refine ⟨h1.ext, Typed.append.2 ⟨t3.ext h1.ext, h1.typed⟩, ?_⟩
      intro x hx
      rcases List.mem_append.1 hx with hx | hx
      · exact .inl (List.mem_append_left _ hx)
      · rcases h1.old x hx with h | h
        · exact .inl (List.mem_append_right _ h)
        · exact .inr h
    have t2' := cell_frame.list.typed t2 h1.ext
    have := cell_frame.list.same t2 h1.ext
    simp only [PCell.load] at this
    rw [← this]
    have := @ih m1 w1 t2'
    simp only [PCell.load] at this
    refine this.bind ?_
    intro m2 w2 cs' h2
    refine .pure ?_ (From.cons cell_frame cell_frame t h1' h2)
    simp only [List.map_cons]
    congr 1
    have := cell_frame.same h1'.typed h2.ext
    simp only [PCell.load] at this
    rw [this, (opt_frame Mem.tc .tc fun h => by simp only [Mem.tc, h]).same t3 h1.ext]

theorem pcopyRows_sim {to : DocId} : ∀ {cs : List PRow} {m : Mem} {w : World},
    Typed m (listRefs (fun m (c : PRow) => c.refs m) m cs) →
    SimRes (fun m (l : List PRow) => l.map (·.load m))
      (From (listRefs fun m (c : PRow) => c.refs m) (listRefs fun m (c : PRow) => c.refs m) m cs)
      (pcopyRows m w to cs) (copyRows w to (cs.map (·.load m))) := by
  intro cs
  induction cs with
  | nil => intro m w t; exact .pure rfl (.refl t)
  | cons c cs ih =>
    intro m w t
    obtain ⟨t1, t2⟩ := typed_cons.1 t
    obtain ⟨t3, t4⟩ := Typed.append.1 t1
    simp only [pcopyRows, List.map_cons, copyRows, PRow.load]
    refine (pcopyCells_sim t4).bind ?_
    intro m1 w1 ps h1
    have h1' : From (fun m (c : PRow) => c.refs m) (fun m (c : PRow) => c.refs m) m c m1
        { c with cells := ps } := by
      refine ⟨h1.ext, Typed.append.2 ⟨t3.ext h1.ext, h1.typed⟩, ?_⟩
      intro x hx
      rcases List.mem_append.1 hx with hx | hx
      · exact .inl (List.mem_append_left _ hx)
      · rcases h1.old x hx with h | h
        · exact .inl (List.mem_append_right _ h)
        · exact .inr h
    have t2' := row_frame.list.typed t2 h1.ext
    have := row_frame.list.same t2 h1.ext
    simp only [PRow.load] at this
    rw [← this]
    have := @ih m1 w1 t2'
    simp only [PRow.load] at this
    refine this.bind ?_
    intro m2 w2 cs' h2
    refine .pure ?_ (From.cons row_frame row_frame t h1' h2)
    simp only [List.map_cons]
    congr 1
    have := row_frame.same h1'.typed h2.ext
    simp only [PRow.load] at this
    rw [this, (opt_frame Mem.tr .tr fun h => by simp only [Mem.tr, h]).same t3 h1.ext]

theorem PTable.copymedia_sim {to : DocId} {p : PTable} {m : Mem} {w : World} (t : Typed m (p.refs m)) :
    SimRes (fun m (p : PTable) => p.load m) (From (fun m (p : PTable) => p.refs m) (fun m (p : PTable) => p.refs m) m p)
      (p.copymedia m w to) ((p.load m).copymedia w to) := by
  obtain ⟨t1, t2⟩ := Typed.append.1 t
  simp only [PTable.copymedia, Table.copymedia, PTable.load]
  refine (pcopyRows_sim t2).bind ?_
  intro m' w' cs' h
  refine .pure ?_ ⟨h.ext, ?_, ?_⟩
  · simp only [PTable.load]
    rw [(opt_frame Mem.tbl .tbl fun h => by simp only [Mem.tbl, h]).same t1 h.ext]
  · exact Typed.append.2 ⟨t1.ext h.ext, h.typed⟩
  · intro x hx
    rcases List.mem_append.1 hx with hx | hx
    · exact .inl (List.mem_append_left _ hx)
    · rcases h.old x hx with h | h
      · exact .inl (List.mem_append_right _ h)
      · exact .inr h

theorem PItem.copymedia_sim {to : DocId} {x : PItem} {m : Mem} {w : World} (t : Typed m (x.refs m)) :
    SimRes (fun m (p : PItem) => p.load m) (From (fun m (p : PItem) => p.refs m) (fun m (p : PItem) => p.refs m) m x)
      (x.copymedia m w to) ((x.load m).copymedia w to) := by
  cases x with
  | para p =>
    simp only [PItem.copymedia, BItem.copymedia, PItem.load]
    refine (PPara.copymedia_sim t).bind ?_
    intro m' w' p' h
    exact .pure rfl ⟨h.ext, h.typed, h.old⟩
  | table p =>
    simp only [PItem.copymedia, BItem.copymedia, PItem.load]
    refine (PTable.copymedia_sim t).bind ?_
    intro m' w' p' h
    exact .pure rfl ⟨h.ext, h.typed, h.old⟩
  | sect k => exact .pure rfl (.refl t)

end Docx
