import Verif.Lemmas.AliasCopy

/-!
# Documents with pointers and documents of values: AppendFile and SplitByParagraph
-/

set_option linter.unusedSectionVars false

namespace Docx

/-! ## Copying does not look at items -/

theorem fill_get {docs : World} {its : List (List BItem)} {i : Nat} {f : Doc} {xs : List BItem}
    (h : docs[i]? = some f) (h' : its[i]? = some xs) : (fill docs its)[i]? = some { f with items := xs } := by
  simp [fill, List.getElem?_zipWith, h, h']

theorem fill_get_none {docs : World} {its : List (List BItem)} {i : Nat} (h : docs[i]? = none) :
    (fill docs its)[i]? = none := by
  simp [fill, List.getElem?_zipWith, h]

theorem fill_len {docs : World} {its : List (List BItem)} (h : docs.length = its.length) :
    (fill docs its).length = docs.length := by
  simp [fill, h]

theorem some_of_len {α β : Type} {l : List α} {k : List β} (h : l.length = k.length) {i : Nat} {a : α}
    (ha : l[i]? = some a) : ∃ b, k[i]? = some b := by
  have := (List.getElem?_eq_some_iff.1 ha).1
  exact ⟨k[i]'(by omega), by simp⟩

theorem fill_set {docs : World} {its : List (List BItem)} {i : Nat} {f : Doc} {xs : List BItem}
    (h : its[i]? = some xs) : fill (docs.set i f) its = (fill docs its).set i { f with items := xs } := by
  apply List.ext_getElem?
  intro j
  simp only [fill, List.getElem?_zipWith, List.getElem?_set, List.length_zipWith]
  have hl := (List.getElem?_eq_some_iff.1 h).1
  by_cases hij : i = j
  · subst hij
    by_cases hd : i < docs.length
    · have hm : i < min docs.length its.length := by omega
      simp only [hd, hl, hm, ↓reduceIte, h]
    · have hm : ¬i < min docs.length its.length := by omega
      simp only [hd, hm, ↓reduceIte]
  · simp [hij]

/-- The same outcome without and with the items `its` -/
def Indep {α : Type} (its : List (List BItem)) : Res (World × α) → Res (World × α) → Prop
  | .ok (w, a), .ok (w', a') => w' = fill w its ∧ a' = a ∧ w.length = its.length
  | .err e, .err e' => e = e'
  | .panic, .panic => True
  | _, _ => False

theorem Indep.bind {α β : Type} {its : List (List BItem)} {x y : Res (World × α)} {f g : World × α → Res (World × β)}
    (h : Indep its x y) (k : ∀ w a, w.length = its.length → Indep its (f (w, a)) (g (fill w its, a))) :
    Indep its (x >>= f) (y >>= g) := by
  match x, y, h with
  | .ok (w, a), .ok (w', a'), h =>
    obtain ⟨rfl, rfl, h⟩ := h
    exact k w a' h
  | .err e, .err e', h => exact h
  | .panic, .panic, _ => trivial

theorem Indep.pure {α : Type} {its : List (List BItem)} {w : World} {a : α} (h : w.length = its.length) :
    Indep its (.ok (w, a)) (.ok (fill w its, a)) := ⟨rfl, rfl, h⟩

variable {its : List (List BItem)}

theorem copyPic_indep {w : World} (hw : w.length = its.length) (to : DocId) (file : Option DocId) (pic : Picture) :
    Indep its (copyPic w to file pic) (copyPic (fill w its) to file pic) := by
  unfold copyPic
  cases pic.blipFill with
  | none => exact .pure hw
  | some bf =>
    dsimp only
    cases file with
    | none => trivial
    | some fd =>
      simp only [Option.bind_some]
      cases hs : w[fd]? with
      | none => rw [fill_get_none hs]; trivial
      | some src =>
        obtain ⟨xs, hx⟩ := some_of_len hw hs
        rw [fill_get hs hx]
        dsimp only
        have e : ({ src with items := xs } : Doc).referTarget bf.blip.embed = src.referTarget bf.blip.embed := rfl
        rw [e]
        cases src.referTarget bf.blip.embed with
        | none => exact .pure hw
        | some tgt =>
          dsimp only
          cases ht : w[to]? with
          | none => rw [fill_get_none ht]; trivial
          | some t =>
            obtain ⟨ys, hy⟩ := some_of_len hw ht
            rw [fill_get ht hy]
            dsimp only
            have e1 : (({ t with items := ys } : Doc).nextDocID.1.increaseID picName) =
              ({ (t.nextDocID.1.increaseID picName).1 with items := ys }, (t.nextDocID.1.increaseID picName).2) := rfl
            have e0 : ({ t with items := ys } : Doc).nextDocID.2 = t.nextDocID.2 := rfl
            rw [e1, e0]
            dsimp only
            rw [← fill_set hy]
            have hw' : (w.set to (t.nextDocID.1.increaseID picName).1).length = its.length := by simp [hw]
            cases hs2 : (w.set to (t.nextDocID.1.increaseID picName).1)[fd]? with
            | none => rw [fill_get_none hs2]; trivial
            | some src2 =>
              obtain ⟨zs, hz⟩ := some_of_len hw' hs2
              rw [fill_get hs2 hz]
              dsimp only
              have e2 : mediaOfTarget ({ src2 with items := zs } : Doc) tgt = mediaOfTarget src2 tgt := rfl
              rw [e2]
              cases mediaOfTarget src2 tgt with
              | panic => trivial
              | err e => rfl
              | ok mo =>
                cases mo with
                | none => exact .pure hw'
                | some m =>
                  dsimp only
                  have e3 : (({ (t.nextDocID.1.increaseID picName).1 with items := ys } : Doc).addImage (formatOf tgt) m.data) =
                    ({ ((t.nextDocID.1.increaseID picName).1.addImage (formatOf tgt) m.data).1 with items := ys },
                      ((t.nextDocID.1.increaseID picName).1.addImage (formatOf tgt) m.data).2) := rfl
                  rw [e3]
                  dsimp only
                  rw [← fill_set hy]
                  cases pic.nvPicPr with
                  | none => trivial
                  | some nv => exact .pure (by simp [hw])

theorem Inline.copymedia_indep {w : World} (hw : w.length = its.length) (to : DocId) (r : Inline) :
    Indep its (r.copymedia w to) (r.copymedia (fill w its) to) := by
  unfold Inline.copymedia
  cases r.graphic with
  | none => trivial
  | some g =>
    dsimp only
    cases g.data with
    | none => trivial
    | some gd =>
      dsimp only
      cases gd.pic with
      | some pic =>
        dsimp only
        refine (copyPic_indep hw to r.file pic).bind ?_
        intro w' c hw'
        cases c with
        | none => exact .pure hw'
        | some c => exact .pure hw'
      | none =>
        dsimp only
        cases gd.shape with
        | some _ => exact .pure hw
        | none =>
          dsimp only
          cases gd.canvas with
          | some _ => exact .pure hw
          | none => exact .pure hw

theorem Anchor.copymedia_indep {w : World} (hw : w.length = its.length) (to : DocId) (r : Anchor) :
    Indep its (r.copymedia w to) (r.copymedia (fill w its) to) := by
  unfold Anchor.copymedia
  cases r.graphic with
  | none => trivial
  | some g =>
    dsimp only
    cases g.data with
    | none => trivial
    | some gd =>
      dsimp only
      cases gd.pic with
      | some pic =>
        dsimp only
        refine (copyPic_indep hw to r.file pic).bind ?_
        intro w' c hw'
        cases c with
        | none => exact .pure hw'
        | some c => exact .pure hw'
      | none =>
        dsimp only
        cases gd.shape with
        | some _ => exact .pure hw
        | none =>
          dsimp only
          cases gd.canvas with
          | some _ => exact .pure hw
          | none => exact .pure hw

theorem Drawing.copymedia_indep {w : World} (hw : w.length = its.length) (to : DocId) (d : Drawing) :
    Indep its (d.copymedia w to) (d.copymedia (fill w its) to) := by
  unfold Drawing.copymedia
  cases d.inl with
  | some i =>
    refine (Inline.copymedia_indep hw to i).bind ?_
    intro w' c hw'
    exact .pure hw'
  | none =>
    dsimp only
    cases d.anchor with
    | some a =>
      refine (Anchor.copymedia_indep hw to a).bind ?_
      intro w' c hw'
      exact .pure hw'
    | none => exact .pure hw

theorem copyRChildren_indep (to : DocId) : ∀ (cs : List RChild) {w : World} (_ : w.length = its.length),
    Indep its (copyRChildren w to cs) (copyRChildren (fill w its) to cs) := by
  intro cs
  induction cs with
  | nil => intro w hw; exact .pure hw
  | cons c cs ih =>
    intro w hw
    cases c with
    | drawing d =>
      simp only [copyRChildren]
      refine (Drawing.copymedia_indep hw to d).bind ?_
      intro w1 d' hw1
      refine (ih hw1).bind ?_
      intro w2 cs' hw2
      exact .pure hw2
    | text t => simp only [copyRChildren]; exact (ih hw).bind fun w2 cs' hw2 => .pure hw2
    | tab t => simp only [copyRChildren]; exact (ih hw).bind fun w2 cs' hw2 => .pure hw2
    | br t => simp only [copyRChildren]; exact (ih hw).bind fun w2 cs' hw2 => .pure hw2

theorem Run.copymedia_indep (to : DocId) (r : Run) {w : World} (hw : w.length = its.length) :
    Indep its (r.copymedia w to) (r.copymedia (fill w its) to) := by
  simp only [Run.copymedia]
  exact (copyRChildren_indep to r.children hw).bind fun w2 cs' hw2 => .pure hw2

theorem copyPChildren_indep (to : DocId) (file : Option DocId) : ∀ (cs : List PChild) {w : World}
    (_ : w.length = its.length), Indep its (copyPChildren w to file cs) (copyPChildren (fill w its) to file cs) := by
  intro cs
  induction cs with
  | nil => intro w hw; exact .pure hw
  | cons c cs ih =>
    intro w hw
    cases c with
    | rpr x => simp only [copyPChildren]; exact (ih hw).bind fun w2 cs' hw2 => .pure hw2
    | run r =>
      simp only [copyPChildren]
      refine (Run.copymedia_indep to r hw).bind ?_
      intro w1 d' hw1
      exact (ih hw1).bind fun w2 cs' hw2 => .pure hw2
    | link h =>
      simp only [copyPChildren]
      cases file with
      | none => trivial
      | some fd =>
        simp only [Option.bind_some]
        cases hs : w[fd]? with
        | none => rw [fill_get_none hs]; trivial
        | some src =>
          obtain ⟨xs, hx⟩ := some_of_len hw hs
          rw [fill_get hs hx]
          dsimp only
          have e : ({ src with items := xs } : Doc).referTarget h.id = src.referTarget h.id := rfl
          rw [e]
          cases src.referTarget h.id with
          | none => exact ih hw
          | some tgt =>
            dsimp only
            cases ht : w[to]? with
            | none => rw [fill_get_none ht]; trivial
            | some t =>
              obtain ⟨ys, hy⟩ := some_of_len hw ht
              rw [fill_get ht hy]
              dsimp only
              have e1 : (({ t with items := ys } : Doc).addLinkRelation tgt) =
                ({ (t.addLinkRelation tgt).1 with items := ys }, (t.addLinkRelation tgt).2) := rfl
              rw [e1]
              dsimp only
              rw [← fill_set hy]
              refine (Run.copymedia_indep to h.run (by simp [hw])).bind ?_
              intro w1 d' hw1
              exact (ih hw1).bind fun w2 cs' hw2 => .pure hw2

theorem Para.copymedia_indep (to : DocId) (p : Para) {w : World} (hw : w.length = its.length) :
    Indep its (p.copymedia w to) (p.copymedia (fill w its) to) := by
  simp only [Para.copymedia]
  exact (copyPChildren_indep to p.file p.children hw).bind fun w2 cs' hw2 => .pure hw2

theorem copyParas_indep (to : DocId) : ∀ (ps : List Para) {w : World} (_ : w.length = its.length),
    Indep its (copyParas w to ps) (copyParas (fill w its) to ps) := by
  intro ps
  induction ps with
  | nil => intro w hw; exact .pure hw
  | cons p ps ih =>
    intro w hw
    simp only [copyParas]
    refine (Para.copymedia_indep to p hw).bind ?_
    intro w1 d' hw1
    exact (ih hw1).bind fun w2 cs' hw2 => .pure hw2

theorem copyCells_indep (to : DocId) : ∀ (ps : List Cell) {w : World} (_ : w.length = its.length),
    Indep its (copyCells w to ps) (copyCells (fill w its) to ps) := by
  intro ps
  induction ps with
  | nil => intro w hw; exact .pure hw
  | cons p ps ih =>
    intro w hw
    simp only [copyCells]
    refine (copyParas_indep to p.paras hw).bind ?_
    intro w1 d' hw1
    exact (ih hw1).bind fun w2 cs' hw2 => .pure hw2

theorem copyRows_indep (to : DocId) : ∀ (ps : List Row) {w : World} (_ : w.length = its.length),
    Indep its (copyRows w to ps) (copyRows (fill w its) to ps) := by
  intro ps
  induction ps with
  | nil => intro w hw; exact .pure hw
  | cons p ps ih =>
    intro w hw
    simp only [copyRows]
    refine (copyCells_indep to p.cells hw).bind ?_
    intro w1 d' hw1
    exact (ih hw1).bind fun w2 cs' hw2 => .pure hw2

theorem Table.copymedia_indep (to : DocId) (t : Table) {w : World} (hw : w.length = its.length) :
    Indep its (t.copymedia w to) (t.copymedia (fill w its) to) := by
  simp only [Table.copymedia]
  exact (copyRows_indep to t.rows hw).bind fun w2 cs' hw2 => .pure hw2

theorem BItem.copymedia_indep (to : DocId) (x : BItem) {w : World} (hw : w.length = its.length) :
    Indep its (x.copymedia w to) (x.copymedia (fill w its) to) := by
  cases x with
  | para p => simp only [BItem.copymedia]; exact (Para.copymedia_indep to p hw).bind fun w2 cs' hw2 => .pure hw2
  | table t => simp only [BItem.copymedia]; exact (Table.copymedia_indep to t hw).bind fun w2 cs' hw2 => .pure hw2
  | sect s => exact .pure hw

/-! ## Valid states -/

/-- The pointers reached from the items of a body -/
abbrev bodyRefs (m : Mem) (xs : List PItem) : List Ref := listRefs (fun m (x : PItem) => x.refs m) m xs

/-- Every document has its items, and all pointers lead to objects of their types -/
structure PWorld.Ok (s : PWorld) : Prop where
  len : s.docs.length = s.items.length
  typed : ∀ (e : DocId) xs, s.items[e]? = some xs → Typed s.mem (bodyRefs s.mem xs)

/-- The values of the items of a body -/
abbrev bodyVals (m : Mem) (xs : List PItem) : List BItem := xs.map (·.load m)

theorem body_frame : Framed bodyVals bodyRefs := item_frame.list

theorem vals_frame {s : PWorld} (h : s.Ok) {m' : Mem} (e : Ext' s.mem m') :
    s.items.map (bodyVals m') = s.items.map (bodyVals s.mem) := by
  apply List.map_congr_left
  intro xs hx
  obtain ⟨i, hi⟩ := List.mem_iff_getElem?.1 hx
  exact body_frame.same (h.typed i xs hi) e

theorem world_eq (s : PWorld) : s.world = fill s.docs (s.items.map (bodyVals s.mem)) := rfl

theorem world_get {s : PWorld} {e : DocId} {f : Doc} {xs : List PItem} (hf : s.docs[e]? = some f)
    (hx : s.items[e]? = some xs) : s.world[e]? = some { f with items := bodyVals s.mem xs } := by
  rw [world_eq]
  exact fill_get hf (by simp [hx])

theorem world_get_some {s : PWorld} (h : s.Ok) {e : DocId} {g : Doc} (hg : s.world[e]? = some g) :
    ∃ f xs, s.docs[e]? = some f ∧ s.items[e]? = some xs ∧ g = { f with items := bodyVals s.mem xs } := by
  cases hf : s.docs[e]? with
  | none => rw [world_eq, fill_get_none hf] at hg; cases hg
  | some f =>
    obtain ⟨xs, hx⟩ := some_of_len h.len hf
    rw [world_get hf hx] at hg
    exact ⟨f, xs, rfl, hx, (Option.some.inj hg).symm⟩

theorem world_none {s : PWorld} (h : s.Ok) {e : DocId} : s.world[e]? = none ↔ s.docs[e]? = none := by
  constructor
  · intro hg
    cases hf : s.docs[e]? with
    | none => rfl
    | some f =>
      obtain ⟨xs, hx⟩ := some_of_len h.len hf
      rw [world_get hf hx] at hg
      cases hg
  · intro hf
    rw [world_eq, fill_get_none hf]

theorem world_len {s : PWorld} (h : s.Ok) : s.world.length = s.docs.length := by
  rw [world_eq]
  exact fill_len (by simp [h.len])

/-- Outcomes that correspond -/
def RelRes {α β : Type} (R : α → β → Prop) : Res α → Res β → Prop
  | .ok a, .ok b => R a b
  | .err e, .err e' => e = e'
  | .panic, .panic => True
  | _, _ => False

theorem RelRes.bind {α β α' β' : Type} {R : α → β → Prop} {R' : α' → β' → Prop} {x : Res α} {y : Res β}
    {f : α → Res α'} {g : β → Res β'} (h : RelRes R x y) (k : ∀ a b, R a b → RelRes R' (f a) (g b)) :
    RelRes R' (x >>= f) (y >>= g) := by
  match x, y, h with
  | .ok a, .ok b, h => exact k a b h
  | .err e, .err e', h => exact h
  | .panic, .panic, _ => trivial

theorem RelRes.mono {α β : Type} {R R' : α → β → Prop} {x : Res α} {y : Res β} (h : RelRes R x y)
    (k : ∀ a b, R a b → R' a b) : RelRes R' x y := by
  match x, y, h with
  | .ok a, .ok b, h => exact k a b h
  | .err e, .err e', h => exact h
  | .panic, .panic, _ => trivial

/-- Copying one thing out of a valid state -/
theorem copy_rel {α β : Type} {ld : Mem → α → β} {rf : Mem → α → List Ref} {s : PWorld} (hs : s.Ok) {a : α}
    {x : Res (Mem × World × α)} {y z : Res (World × β)} (h : SimRes ld (From rf rf s.mem a) x y)
    (i : Indep (s.items.map (bodyVals s.mem)) y z) :
    RelRes (fun p q => q.1 = fill p.2.1 (s.items.map (bodyVals s.mem)) ∧ q.2 = ld p.1 p.2.2 ∧
      From rf rf s.mem a p.1 p.2.2 ∧ p.2.1.length = s.items.length) x z := by
  match x, y, z, h, i with
  | .ok (m, w, a), .ok (w', b), .ok (w'', b'), h, i =>
    obtain ⟨rfl, rfl, h⟩ := h
    obtain ⟨rfl, rfl, hl⟩ := i
    exact ⟨rfl, rfl, h, by simpa using hl⟩
  | .err e, .err e', .err e'', h, i => exact Eq.trans h i
  | .panic, .panic, .panic, _, _ => trivial

theorem fill_push {docs : World} {its : List (List BItem)} (hl : docs.length = its.length) (to : DocId) (x : BItem) :
    (fill docs its).pushItem to x = fill docs (its.modify to (· ++ [x])) := by
  unfold World.pushItem
  cases hd : docs[to]? with
  | none =>
    rw [fill_get_none hd]
    have : its.length ≤ to := by rw [← hl]; exact List.getElem?_eq_none_iff.1 hd
    simp only
    congr 1
    apply List.ext_getElem?
    intro j
    rw [List.getElem?_modify]
    by_cases h : to = j
    · subst h; simp [this]
    · simp [h]
  | some f =>
    obtain ⟨xs, hx⟩ := some_of_len hl hd
    rw [fill_get hd hx]
    simp only
    apply List.ext_getElem?
    intro j
    by_cases h : to = j
    · subst h
      rw [List.getElem?_set_self (by
        rw [fill_len hl]; exact (List.getElem?_eq_some_iff.1 hd).1)]
      symm
      exact fill_get hd (by simp [hx])
    · rw [List.getElem?_set_ne h]
      simp [fill, List.getElem?_zipWith, h]

/-- A state after items were added to document `to`: what is reached from them is reached from `xs` or new -/
structure Added (s : PWorld) (to : DocId) (rs : List Ref) (s' : PWorld) : Prop where
  ok : s'.Ok
  ext : Ext' s.mem s'.mem
  len : s'.items.length = s.items.length
  other : ∀ e : DocId, e ≠ to → s'.items[e]? = s.items[e]?
  here : ∀ xs', s'.items[to]? = some xs' → ∃ xs new, s.items[to]? = some xs ∧ xs' = xs ++ new ∧
    ∀ r ∈ bodyRefs s'.mem new, r ∈ rs ∨ s.mem.length ≤ r.2

theorem Added.refl {s : PWorld} (h : s.Ok) (to : DocId) (rs : List Ref) : Added s to rs s :=
  ⟨h, .refl _, rfl, fun _ _ => rfl, fun xs hx => ⟨xs, [], hx, by simp, fun r hr => (by cases hr)⟩⟩

theorem bodyRefs_append (m : Mem) (a b : List PItem) : bodyRefs m (a ++ b) = bodyRefs m a ++ bodyRefs m b := by
  simp [bodyRefs, listRefs]

theorem Added.trans {s s1 s2 : PWorld} {to : DocId} {rs rs1 : List Ref} (h : Added s to rs s1) (k : Added s1 to rs1 s2)
    (hr : ∀ r ∈ rs1, r ∈ rs) : Added s to rs s2 := by
  refine ⟨k.ok, h.ext.trans k.ext, k.len.trans h.len, fun e he => (k.other e he).trans (h.other e he), ?_⟩
  intro xs2 hx2
  obtain ⟨xs1, n1, hx1, rfl, h1⟩ := k.here xs2 hx2
  obtain ⟨xs, n, hx, rfl, h2⟩ := h.here xs1 hx1
  refine ⟨xs, n ++ n1, hx, by simp, ?_⟩
  intro r hr'
  rw [bodyRefs_append] at hr'
  rcases List.mem_append.1 hr' with hr' | hr'
  · have ht : Typed s1.mem (bodyRefs s1.mem n) := by
      have := h.ok.typed to _ hx1
      rw [bodyRefs_append] at this
      exact (Typed.append.1 this).2
    rw [body_frame.refs (k.ext.agree ht)] at hr'
    exact h2 r hr'
  · rcases h1 r hr' with h3 | h3
    · exact .inl (hr r h3)
    · exact .inr (Nat.le_trans h.ext.len h3)

/-- Pushing one copied item -/
theorem push_added {s : PWorld} (hs : s.Ok) {to : DocId} {m : Mem} {w : World} {a x' : PItem}
    (h : From (fun m (x : PItem) => x.refs m) (fun m (x : PItem) => x.refs m) s.mem a m x')
    (hl : w.length = s.items.length) :
    Added s to (a.refs s.mem) { mem := m, docs := w, items := s.items.modify to (· ++ [x']) } ∧
    (fill w (s.items.map (bodyVals s.mem))).pushItem to (x'.load m) =
      ({ mem := m, docs := w, items := s.items.modify to (· ++ [x']) } : PWorld).world := by
  have hold : ∀ (e : DocId) xs, s.items[e]? = some xs → Typed m (bodyRefs m xs) := fun e xs hx =>
    body_frame.typed (hs.typed e xs hx) h.ext
  refine ⟨⟨⟨by simp [hl], ?_⟩, h.ext, by simp, fun e he => by simp [Ne.symm he], ?_⟩, ?_⟩
  · intro e xs hx
    simp only [List.getElem?_modify] at hx
    by_cases he : to = e
    · subst he
      cases hxe : s.items[to]? with
      | none => simp [hxe] at hx
      | some ys =>
        simp only [hxe, ↓reduceIte, Option.map_some, Option.map_eq_map, Option.some.injEq] at hx
        subst hx
        rw [bodyRefs_append]
        refine Typed.append.2 ⟨hold to ys hxe, ?_⟩
        simpa [bodyRefs, listRefs] using h.typed
    · simp only [he, ↓reduceIte, id_eq, Option.map_eq_map, Option.map_id_fun'] at hx
      exact hold e xs hx
  · intro xs' hx
    simp only [List.getElem?_modify] at hx
    cases hxe : s.items[to]? with
    | none => simp [hxe] at hx
    | some ys =>
      simp only [hxe, ↓reduceIte, Option.map_some, Option.map_eq_map, Option.some.injEq] at hx
      subst hx
      refine ⟨ys, [x'], rfl, rfl, ?_⟩
      intro r hr
      exact h.old r (by simpa [bodyRefs, listRefs] using hr)
  · rw [fill_push (by simp [hl]), world_eq]
    congr 1
    apply List.ext_getElem?
    intro j
    simp only [List.getElem?_map, List.getElem?_modify]
    cases hxe : s.items[j]? with
    | none => simp
    | some ys =>
      have e1 : bodyVals m ys = bodyVals s.mem ys := body_frame.same (hs.typed j ys hxe) h.ext
      by_cases he : to = j
      · simp only [he, ↓reduceIte, Option.map_some, Option.map_eq_map, bodyVals, List.map_append, List.map_cons, List.map_nil]
        rw [show ys.map (fun x => x.load m) = ys.map (fun x => x.load s.mem) from e1]
      · simp only [he, ↓reduceIte, Option.map_some, Option.map_eq_map, id_eq]
        rw [e1]

theorem pappendItems_rel {to : DocId} : ∀ {xs : List PItem} {s : PWorld}, s.Ok → Typed s.mem (bodyRefs s.mem xs) →
    RelRes (fun s' w => w = s'.world ∧ Added s to (bodyRefs s.mem xs) s')
      (pappendItems s to xs) (appendItems s.world to (bodyVals s.mem xs)) := by
  intro xs
  induction xs with
  | nil => intro s hs _; exact ⟨rfl, .refl hs _ _⟩
  | cons x xs ih =>
    intro s hs t
    obtain ⟨t1, t2⟩ := typed_cons.1 t
    have h1 := copy_rel hs (PItem.copymedia_sim (w := s.docs) (to := to) t1)
      (BItem.copymedia_indep to (x.load s.mem) (its := s.items.map (bodyVals s.mem)) (by simp [hs.len]))
    simp only [pappendItems, bodyVals, List.map_cons, appendItems]
    refine RelRes.bind h1 ?_
    rintro ⟨m, w, x'⟩ ⟨w2, v⟩ ⟨e1, e2, h, hl⟩
    simp only at e1 e2 h hl
    subst e1 e2
    obtain ⟨ad, hw⟩ := push_added hs h hl (to := to)
    simp only
    rw [hw]
    have t2' : Typed m (bodyRefs m xs) := body_frame.typed t2 h.ext
    have e3 : bodyVals m xs = bodyVals s.mem xs := body_frame.same t2 h.ext
    have := ih ad.ok t2'
    simp only [bodyVals] at e3
    rw [← e3]
    refine this.mono ?_
    rintro s' w' ⟨hw', k⟩
    refine ⟨hw', ?_⟩
    have a1 : Added s to (bodyRefs s.mem (x :: xs)) { mem := m, docs := w, items := s.items.modify to (· ++ [x']) } :=
      ⟨ad.ok, ad.ext, ad.len, ad.other, fun ys hy => by
        obtain ⟨a, b, c, d, e⟩ := ad.here ys hy
        exact ⟨a, b, c, d, fun r hr => (e r hr).imp (fun h => by
          simp only [bodyRefs, listRefs, List.flatMap_cons]; exact List.mem_append_left _ h) id⟩⟩
    refine a1.trans k ?_
    intro r hr
    have : bodyRefs m xs = bodyRefs s.mem xs := body_frame.refs (h.ext.agree t2)
    rw [this] at hr
    simp only [bodyRefs, listRefs, List.flatMap_cons]
    exact List.mem_append_right _ hr

theorem appendFile_rel {s : PWorld} (hs : s.Ok) (f af : DocId) :
    RelRes (fun s' w => w = s'.world ∧ ∃ xs, s.items[af]? = some xs ∧ Added s f (bodyRefs s.mem xs) s')
      (s.appendFile f af) (s.world.appendFile f af) := by
  unfold PWorld.appendFile World.appendFile
  cases hx : s.items[af]? with
  | none =>
    have : s.world[af]? = none := by
      rw [world_none hs]
      have := List.getElem?_eq_none_iff.1 hx
      exact List.getElem?_eq_none_iff.2 (by rw [hs.len]; exact this)
    rw [this]
    trivial
  | some xs =>
    obtain ⟨f0, hf⟩ := some_of_len hs.len.symm hx
    rw [world_get hf hx]
    refine (pappendItems_rel hs (hs.typed af xs hx)).mono ?_
    rintro s' w ⟨h1, h2⟩
    exact ⟨h1, xs, rfl, h2⟩

/-! ## SplitByParagraph -/

theorem Added.weaken {s s' : PWorld} {to : DocId} {rs rs' : List Ref} (h : Added s to rs s') (k : ∀ r ∈ rs, r ∈ rs') :
    Added s to rs' s' :=
  ⟨h.ok, h.ext, h.len, h.other, fun xs hx => by
    obtain ⟨a, b, c, d, e⟩ := h.here xs hx
    exact ⟨a, b, c, d, fun r hr => (e r hr).imp (k r) id⟩⟩

theorem bodyRefs_cons (m : Mem) (x : PItem) (xs : List PItem) : bodyRefs m (x :: xs) = x.refs m ++ bodyRefs m xs := by
  simp [bodyRefs, listRefs]

/-- What remains to be split -/
structure Left (m : Mem) (xs : List PItem) (m' : Mem) (l : Option (List PItem)) : Prop where
  refs : ∀ ys, l = some ys → ∀ r ∈ bodyRefs m' ys, r ∈ bodyRefs m xs
  typed : ∀ ys, l = some ys → Typed m' (bodyRefs m' ys)

theorem psplitFill_rel {sep : World → Para → Res Bool} {nd : DocId} : ∀ {xs : List PItem} {s : PWorld} {cnt : Nat},
    s.Ok → Typed s.mem (bodyRefs s.mem xs) →
    RelRes (fun p q => q.1 = p.1.world ∧ q.2 = p.2.map (bodyVals p.1.mem) ∧ Added s nd (bodyRefs s.mem xs) p.1 ∧
        Left s.mem xs p.1.mem p.2)
      (psplitFill sep nd s cnt xs) (splitFill sep nd s.world cnt (bodyVals s.mem xs)) := by
  intro xs
  induction xs with
  | nil =>
    intro s cnt hs _
    exact ⟨rfl, rfl, .refl hs _ _, ⟨fun _ h => (by cases h), fun _ h => (by cases h)⟩⟩
  | cons x xs ih =>
    intro s cnt hs t
    obtain ⟨t1, t2⟩ := typed_cons.1 t
    -- the rest, after the copy of the head was pushed
    have next : ∀ {m : Mem} {w : World} {x' : PItem} (cnt' : Nat),
        From (fun m (x : PItem) => x.refs m) (fun m (x : PItem) => x.refs m) s.mem x m x' → w.length = s.items.length →
        RelRes (fun p q => q.1 = p.1.world ∧ q.2 = p.2.map (bodyVals p.1.mem) ∧
            Added s nd (bodyRefs s.mem (x :: xs)) p.1 ∧ Left s.mem (x :: xs) p.1.mem p.2)
          (psplitFill sep nd { mem := m, docs := w, items := s.items.modify nd (· ++ [x']) } cnt' xs)
          (splitFill sep nd ((fill w (s.items.map (bodyVals s.mem))).pushItem nd (x'.load m)) cnt' (bodyVals s.mem xs)) := by
      intro m w x' cnt' h hl
      obtain ⟨ad, hw⟩ := push_added hs h hl (to := nd)
      rw [hw]
      have t2' : Typed m (bodyRefs m xs) := body_frame.typed t2 h.ext
      have e3 : bodyVals m xs = bodyVals s.mem xs := body_frame.same t2 h.ext
      have e4 : bodyRefs m xs = bodyRefs s.mem xs := body_frame.refs (h.ext.agree t2)
      have := ih (cnt := cnt') ad.ok t2'
      rw [← e3]
      refine this.mono ?_
      rintro ⟨s', l⟩ ⟨w', l'⟩ ⟨k1, k2, k3, k4⟩
      refine ⟨k1, k2, ?_, ?_⟩
      · refine (ad.weaken ?_).trans k3 ?_
        · intro r hr
          rw [bodyRefs_cons]
          exact List.mem_append_left _ hr
        · intro r hr
          rw [e4] at hr
          rw [bodyRefs_cons]
          exact List.mem_append_right _ hr
      · refine ⟨fun ys hy r hr => ?_, k4.typed⟩
        have := k4.refs ys hy r hr
        rw [e4] at this
        rw [bodyRefs_cons]
        exact List.mem_append_right _ this
    have h1 := copy_rel hs (PItem.copymedia_sim (w := s.docs) (to := nd) t1)
      (BItem.copymedia_indep nd (x.load s.mem) (its := s.items.map (bodyVals s.mem)) (by simp [hs.len]))
    cases x with
    | para p =>
      simp only [psplitFill, bodyVals, List.map_cons, PItem.load, splitFill]
      cases sep s.world (p.load s.mem) with
      | panic => trivial
      | err e => rfl
      | ok b =>
        simp only [Res.bind_ok]
        by_cases hb : b = true ∧ cnt > 0
        · simp only [hb, and_self, ↓reduceIte]
          refine ⟨rfl, rfl, .refl hs _ _, ⟨fun ys hy r hr => ?_, fun ys hy => ?_⟩⟩
          · obtain rfl := Option.some.inj hy; exact hr
          · obtain rfl := Option.some.inj hy; exact t
        · simp only [hb, ↓reduceIte]
          simp only [PItem.copymedia, PItem.load, BItem.copymedia] at h1
          have h2 := copy_rel hs (PPara.copymedia_sim (w := s.docs) (to := nd) (p := p) t1)
            (Para.copymedia_indep nd (p.load s.mem) (its := s.items.map (bodyVals s.mem)) (by simp [hs.len]))
          refine RelRes.bind h2 ?_
          rintro ⟨m, w, p'⟩ ⟨w2, v⟩ ⟨e1, e2, h, hl⟩
          simp only at e1 e2 h hl
          subst e1 e2
          exact next (x' := .para p') (cnt + 1) ⟨h.ext, h.typed, h.old⟩ hl
    | table p =>
      simp only [psplitFill, bodyVals, List.map_cons, PItem.load, splitFill]
      have h2 := copy_rel hs (PTable.copymedia_sim (w := s.docs) (to := nd) (p := p) t1)
        (Table.copymedia_indep nd (p.load s.mem) (its := s.items.map (bodyVals s.mem)) (by simp [hs.len]))
      refine RelRes.bind h2 ?_
      rintro ⟨m, w, p'⟩ ⟨w2, v⟩ ⟨e1, e2, h, hl⟩
      simp only at e1 e2 h hl
      subst e1 e2
      exact next (x' := .table p') (cnt + 1) ⟨h.ext, h.typed, h.old⟩ hl
    | sect k =>
      simp only [psplitFill, bodyVals, List.map_cons, PItem.load, splitFill]
      exact next (x' := .sect k) (cnt + 1) (.refl t1) hs.len

/-- A state after new documents were made: what is reached from them is reached from `rs` or new -/
structure Parted (s : PWorld) (rs : List Ref) (s' : PWorld) : Prop where
  ok : s'.Ok
  ext : Ext' s.mem s'.mem
  len : s.items.length ≤ s'.items.length
  old : ∀ e : DocId, e < s.items.length → s'.items[e]? = s.items[e]?
  parts : ∀ e : DocId, s.items.length ≤ e → ∀ xs, s'.items[e]? = some xs →
    ∀ r ∈ bodyRefs s'.mem xs, r ∈ rs ∨ s.mem.length ≤ r.2

theorem Parted.refl {s : PWorld} (h : s.Ok) (rs : List Ref) : Parted s rs s :=
  ⟨h, .refl _, Nat.le_refl _, fun _ _ => rfl, fun e he xs hx => by
    rw [List.getElem?_eq_none_iff.2 he] at hx; cases hx⟩

theorem newDoc_ok {s : PWorld} (h : s.Ok) (f : Doc) : ({ s with docs := s.docs ++ [f], items := s.items ++ [[]] } : PWorld).Ok := by
  refine ⟨by simp [h.len], ?_⟩
  intro e xs hx
  by_cases he : e < s.items.length
  · simp only [List.getElem?_append_left he] at hx
    exact h.typed e xs hx
  · simp only [List.getElem?_append_right (Nat.le_of_not_lt he)] at hx
    cases hk : e - s.items.length with
    | zero =>
      simp only [hk, List.getElem?_cons_zero, Option.some.injEq] at hx
      subst hx
      intro r hr
      cases hr
    | succ n => simp [hk] at hx

theorem newDoc_world {s : PWorld} (h : s.Ok) (f : Doc) (hf : f.items = []) :
    ({ s with docs := s.docs ++ [f], items := s.items ++ [[]] } : PWorld).world = s.world ++ [f] := by
  simp only [world_eq, List.map_append, fill, List.map_cons, List.map_nil]
  rw [List.zipWith_append (by simp [h.len])]
  congr 1
  simp only [List.zipWith_cons_cons, List.zipWith_nil_right, List.cons.injEq, and_true]
  cases f
  simp only at hf
  subst hf
  rfl

theorem psplitLoop_rel {sep : World → Para → Res Bool} {f f' : Doc} (hf : splitDoc f' = splitDoc f) : ∀ {n : Nat} {xs : List PItem}
    {s : PWorld} {ds : List DocId}, s.Ok → Typed s.mem (bodyRefs s.mem xs) →
    RelRes (fun p q => q.1 = p.1.world ∧ q.2 = p.2 ∧ Parted s (bodyRefs s.mem xs) p.1)
      (psplitLoop sep f n s ds xs) (splitLoop sep f' n s.world ds (bodyVals s.mem xs)) := by
  intro n
  induction n with
  | zero => intro xs s ds hs _; rfl
  | succ n ih =>
    intro xs s ds hs t
    cases xs with
    | nil => exact ⟨rfl, rfl, .refl hs _⟩
    | cons x xs =>
      simp only [psplitLoop, bodyVals, List.map_cons, splitLoop, hf]
      rw [world_len hs, ← newDoc_world hs (splitDoc f) rfl]
      have hs1 := newDoc_ok hs (splitDoc f)
      refine RelRes.bind (psplitFill_rel hs1 t) ?_
      rintro ⟨s1, l⟩ ⟨w1, l'⟩ ⟨e1, e2, ad, lf⟩
      simp only at e1 e2 ad lf
      subst e1 e2
      have p1 : Parted s (bodyRefs s.mem (x :: xs)) s1 := by
        refine ⟨ad.ok, ad.ext, ?_, ?_, ?_⟩
        · have := ad.len
          simp at this
          omega
        · intro e he
          rw [ad.other e (fun h => by rw [h, hs.len] at he; exact Nat.lt_irrefl _ he)]
          simp only
          rw [List.getElem?_append_left he]
        · intro e he ys hy r hr
          by_cases h : e = s.docs.length
          · subst h
            obtain ⟨xs0, nw, h0, rfl, h2⟩ := ad.here ys hy
            have : xs0 = [] := by
              simp only [hs.len, List.getElem?_append_right (Nat.le_refl _), Nat.sub_self, List.getElem?_cons_zero, Option.some.injEq] at h0
              exact h0.symm
            subst this
            exact h2 r (by simpa using hr)
          · rw [ad.other e h] at hy
            simp only at hy
            rw [List.getElem?_append_right he] at hy
            cases hk : e - s.items.length with
            | zero => exact absurd (Nat.le_antisymm (by rw [hs.len]; exact Nat.sub_eq_zero_iff_le.1 hk) (by rw [hs.len]; exact he)) h
            | succ n => simp [hk] at hy
      cases l with
      | none => exact ⟨rfl, rfl, p1⟩
      | some ys =>
        simp only [Option.map_some]
        refine (ih ad.ok (lf.typed ys rfl)).mono ?_
        rintro ⟨s2, d2⟩ ⟨w2, d2'⟩ ⟨e1, e2, p2⟩
        refine ⟨e1, e2, p2.ok, ad.ext.trans p2.ext, Nat.le_trans p1.len p2.len, ?_, ?_⟩
        · intro e he
          rw [p2.old e (Nat.lt_of_lt_of_le he p1.len), p1.old e he]
        · intro e he zs hz r hr
          by_cases h : e < s1.items.length
          · have hz' := hz
            rw [p2.old e h] at hz'
            simp only at hr
            rw [body_frame.refs (p2.ext.agree (ad.ok.typed e zs hz'))] at hr
            exact p1.parts e he zs hz' r hr
          · rcases p2.parts e (Nat.le_of_not_lt h) zs hz r hr with h | h
            · exact .inl (lf.refs ys rfl r h)
            · exact .inr (Nat.le_trans ad.ext.len h)

theorem split_rel {s : PWorld} (hs : s.Ok) (d : DocId) (sep : World → Para → Res Bool) :
    RelRes (fun p q => q.1 = p.1.world ∧ q.2 = p.2 ∧ ∃ xs, s.items[d]? = some xs ∧ Parted s (bodyRefs s.mem xs) p.1)
      (s.splitByParagraph d sep) (s.world.splitByParagraph d sep) := by
  unfold PWorld.splitByParagraph World.splitByParagraph
  cases hf : s.docs[d]? with
  | none =>
    rw [(world_none hs).2 hf]
    trivial
  | some f =>
    obtain ⟨xs, hx⟩ := some_of_len hs.len hf
    rw [world_get hf hx, hx]
    simp only
    have : (bodyVals s.mem xs).length = xs.length := by simp
    rw [this]
    refine (psplitLoop_rel (by rfl) hs (hs.typed d xs hx)).mono ?_
    rintro ⟨s', ds⟩ ⟨w, ds'⟩ ⟨h1, h2, h3⟩
    exact ⟨h1, h2, xs, rfl, h3⟩

end Docx
