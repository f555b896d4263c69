import Verif.SpecJoinFiles
import Verif.Props.Join
import Verif.Props.AnySessions

/-!
# C94: joining files
-/

namespace Docx

/-! ## Copies: texts, links, drawings -/

section
variable {w w' : World} {to : DocId}

theorem run_texts {R : CopyRules} {r r' : Run} (h : RunCopied R r r') : runTexts r' = runTexts r := by
  obtain ⟨_, _, _, h⟩ := h
  unfold runTexts
  generalize r.children = cs at *
  generalize r'.children = cs' at *
  induction h with
  | nil => rfl
  | @cons a b as bs hab _ ih =>
    cases a with
    | drawing d => obtain ⟨d', rfl, _⟩ := hab; simpa using ih
    | text t => have e : b = .text t := hab; subst e; simpa using ih
    | tab t => have e : b = .tab t := hab; subst e; simpa using ih
    | br t => have e : b = .br t := hab; subst e; simpa using ih

theorem children_texts {file : Option DocId} {cs cs' : List PChild}
    (h : ChildrenCopied (sameRules w w' to) file cs cs') :
    (cs'.flatMap fun c => match c with | .run r => runTexts r | .link h => runTexts h.run | .rpr _ => []) =
      cs.flatMap fun c => match c with | .run r => runTexts r | .link h => runTexts h.run | .rpr _ => [] := by
  induction h with
  | nil => rfl
  | run hr _ ih => simp only [List.flatMap_cons, ih, run_texts hr]
  | link _ hr _ ih => simp only [List.flatMap_cons, ih, run_texts hr]
  | dropped hd _ _ => exact hd.elim
  | rpr _ ih => simp only [List.flatMap_cons, ih]

theorem para_texts {p p' : Para} (h : ParaCopied (sameRules w w' to) to p p') : paraTexts p' = paraTexts p :=
  children_texts h.2.2

theorem body_texts {xs ys : List BItem} (h : Each (ItemCopied (sameRules w w' to) to) xs ys) :
    bodyTexts ys = bodyTexts xs := by
  refine each_map h fun x _ y hxy => ?_
  cases x with
  | para p => obtain ⟨p', rfl, hp⟩ := hxy; simp [para_texts hp]
  | sect s => have e : y = .sect s := hxy; subst e; rfl
  | table t =>
    obtain ⟨t', rfl, _, _, hr⟩ := hxy
    refine each_map hr fun r _ r' hrr => ?_
    refine each_map hrr.2 fun c _ c' hcc => ?_
    exact each_map hcc.2.2 fun p _ p' hpp => para_texts hpp

theorem each_flatMap {α β γ δ : Type} {P : α → β → Prop} {Q : γ → δ → Prop} {f : α → List γ} {g : β → List δ}
    {as : List α} {bs : List β} (h : Each P as bs) (hf : ∀ a b, P a b → Each Q (f a) (g b)) :
    Each Q (as.flatMap f) (bs.flatMap g) := by
  induction h with
  | nil => exact .nil
  | cons hab _ ih => exact each_append (hf _ _ hab) ih

theorem each_flatMap_eq {α β γ : Type} {P : α → β → Prop} {f : α → List γ} {g : β → List γ}
    {as : List α} {bs : List β} (h : Each P as bs) (hf : ∀ a b, P a b → g b = f a) :
    bs.flatMap g = as.flatMap f := by
  induction h with
  | nil => rfl
  | cons hab _ ih => rw [List.flatMap_cons, List.flatMap_cons, ih, hf _ _ hab]

/-- The paragraphs of a copy are copies of the paragraphs. -/
theorem copied_paras {R : CopyRules} {x x' : BItem} (h : ItemCopied R to x x') :
    Each (ParaCopied R to) x.paras x'.paras := by
  cases x with
  | para p => obtain ⟨p', rfl, hp⟩ := h; exact .cons hp .nil
  | sect s => have e : x' = .sect s := h; subst e; exact .nil
  | table t =>
    obtain ⟨t', rfl, _, _, hr⟩ := h
    exact each_flatMap hr fun r r' hrr => each_flatMap hrr.2 fun c c' hcc => hcc.2.2

theorem body_targets {xs ys : List BItem} (h : Each (ItemCopied (sameRules w w' to) to) xs ys) :
    w'.targets ys = w.targets xs := by
  unfold World.targets
  refine each_flatMap_eq (each_flatMap h fun _ _ => copied_paras) fun p p' hp => ?_
  obtain ⟨_, hfile, hc⟩ := hp
  rw [hfile]
  generalize p.children = cs at *
  generalize p'.children = cs' at *
  induction hc with
  | nil => rfl
  | run _ _ ih => simpa using ih
  | link hl hr _ ih =>
    obtain ⟨tgt, e1, e2⟩ := hl
    simp only [List.filterMap_cons, e1, e2, ih, hr.2.2.1]
  | dropped hd _ _ => exact hd.elim
  | rpr _ ih => simpa using ih

theorem body_drawings {R : CopyRules} {xs ys : List BItem} (h : Each (ItemCopied R to) xs ys) :
    (∀ f i, ¬ R.drop f i) → Each R.draw (bodyDrawings xs) (bodyDrawings ys) := by
  intro hdrop
  unfold bodyDrawings
  refine each_flatMap (each_flatMap h fun _ _ => copied_paras) fun p p' hp => ?_
  obtain ⟨_, _, hc⟩ := hp
  unfold Para.drawings
  generalize p.children = cs at *
  generalize p'.children = cs' at *
  induction hc with
  | nil => exact .nil
  | run hr _ ih =>
    simp only [List.flatMap_cons]
    refine each_append ?_ ih
    have := hr.2.2.2
    generalize Run.children _ = l at *
    generalize Run.children _ = l' at *
    induction this with
    | nil => exact .nil
    | @cons a b as bs hab _ ih =>
      cases a with
      | drawing d => obtain ⟨d', rfl, hd⟩ := hab; exact .cons hd ih
      | text t => have e : b = .text t := hab; subst e; exact ih
      | tab t => have e : b = .tab t := hab; subst e; exact ih
      | br t => have e : b = .br t := hab; subst e; exact ih
  | link _ _ _ ih => simpa using ih
  | dropped hd _ _ => exact (hdrop _ _ hd).elim
  | rpr _ ih => simpa using ih

end

/-! ## Saving and opening: links and drawings -/

theorem reopened_paras (me : Option DocId) (items : List BItem) :
    (normBody me (items.map clItem)).flatMap BItem.paras =
      (items.flatMap BItem.paras).map fun p => normPara me (clPara p) := by
  unfold normBody
  induction items with
  | nil => rfl
  | cons x xs ih =>
    simp only [List.map_cons, List.flatMap_cons, List.map_append, ih]
    congr 1
    cases x with
    | para p => rfl
    | sect s => rfl
    | table t =>
      simp only [clItem, normItem, BItem.paras, clTable, normTable, List.map_map, List.flatMap_map,
        List.map_flatMap, Function.comp_def, clRow, normRow, clCell, normCell]

theorem reopened_drawings (me : Option DocId) (p : Para) :
    (normPara me (clPara p)).drawings = p.drawings.map fun d => normDrawing me (clDrawing d) := by
  obtain ⟨props, children, file⟩ := p
  unfold Para.drawings
  simp only [clPara, normPara]
  induction children with
  | nil => rfl
  | cons c cs ih =>
    simp only [clPChildren, normPChildren, List.flatMap_cons, List.map_append, ih]
    congr 1
    cases c with
    | link h => obtain ⟨id, r⟩ := h; rfl
    | rpr p => rfl
    | run r =>
      obtain ⟨sp, rp, ins, l⟩ := r
      simp only [clPChild, normPChild, clRun, normRun]
      induction l with
      | nil => rfl
      | cons x xs ih2 => 
        cases x with
        | drawing d => simpa [clRChildren, normRChildren, clRChild, normRChild, RChild.drawing?] using ih2
        | _ => exact ih2

theorem refer_mem {id tgt : String} : ∀ {rs : List Rel}, referTarget id rs = some tgt →
    ∃ r ∈ rs, r.id = id ∧ r.target = tgt
  | [], h => by cases h
  | r :: rs, h => by
    simp only [referTarget] at h
    split at h
    · rename_i e
      refine ⟨r, by simp, by simpa using e, ?_⟩
      simpa using h
    · obtain ⟨r', h1, h2⟩ := refer_mem h
      exact ⟨r', by simp [h1], h2⟩

section
variable [GoEnv] [ImgEnv]

/-- A document `T` at `to` of `w'` was saved, and opened again as `g`, the next document. -/
structure Again (w' : World) (to : DocId) (T g : Doc) : Prop where
  here : w'[to]? = some T
  good : ∀ r ∈ T.rels, GoodId r.id
  rels : g.rels = T.rels.map clRel

variable {w' : World} {to : DocId} {T g : Doc}

theorem again_refer (h : Again w' to T g) {id tgt : String} (hr : T.referTarget id = some tgt) :
    clean id = id ∧ (w' ++ [g]).resolve (some w'.length) (clean id) = some (clean tgt) := by
  obtain ⟨r, hm, rfl, rfl⟩ := refer_mem hr
  have hc : clean r.id = r.id := clean_id (h.good r hm)
  refine ⟨hc, ?_⟩
  have e : (w' ++ [g])[w'.length]? = some g := by
    rw [List.getElem?_append_right (Nat.le_refl _), Nat.sub_self]; rfl
  rw [hc, resolve_some e]
  show referTarget r.id g.rels = _
  rw [h.rels, refer_clean fun r hr => clean_id (h.good r hr)]
  show (T.referTarget r.id).map clean = _
  rw [hr]; rfl

theorem again_targets (h : Again w' to T g) {items : List BItem}
    (hp : ∀ x ∈ items, ∀ p ∈ x.paras, p.file = some to ∧ p.Linked w') :
    (w' ++ [g]).targets (normBody (some w'.length) (items.map clItem)) =
      (w'.targets items).map cleanLink := by
  unfold World.targets
  rw [reopened_paras, List.flatMap_map, List.map_flatMap]
  have hp' : ∀ p ∈ items.flatMap BItem.paras, p.file = some to ∧ p.Linked w' := by
    intro p hm
    obtain ⟨x, hx, hm⟩ := List.mem_flatMap.1 hm
    exact hp x hx p hm
  generalize items.flatMap BItem.paras = ps at *
  induction ps with
  | nil => rfl
  | cons p ps ih =>
    rw [List.flatMap_cons, List.flatMap_cons, ih fun q hq => hp' q (.tail _ hq)]
    congr 1
    obtain ⟨hf, hl⟩ := hp' p (.head _)
    obtain ⟨props, children, file⟩ := p
    have hf' : file = some to := hf
    subst hf'
    have hl' : ∀ h, .link h ∈ children → w'.resolve (some to) h.id ≠ none := hl
    simp only [clPara, normPara]
    clear ih hp' hl hf
    induction children with
    | nil => rfl
    | cons c cs ih =>
      have ih := ih fun h hm => hl' h (.tail _ hm)
      cases c with
      | run r => exact ih
      | rpr r => exact ih
      | link k =>
        obtain ⟨id, ⟨sp, rp, ins, rc⟩⟩ := k
        obtain ⟨tgt, ht⟩ := Option.ne_none_iff_exists'.1 (hl' ⟨id, ⟨sp, rp, ins, rc⟩⟩ (.head _))
        have ht' : T.referTarget id = some tgt := by rwa [resolve_some h.here] at ht
        have hg := (again_refer h ht').2
        simp only [clPChildren, normPChildren, clPChild, normPChild, normLink, clRun, normRun,
          List.filterMap_cons, hg, ht, List.map_cons, cleanLink, Option.map_some, ih]

theorem again_shows (h : Again w' to T g) (hx : ∀ r ∈ T.rels, xmlText r.target) (hf : MediaFound T)
    (hm : ∀ n, g.getMedia n = .ok (lastMedia n T.media)) {d : Drawing} {data : Bytes} (hin : d.In to)
    (hs : d.Shows w' data) : (normDrawing (some w'.length) (clDrawing d)).Shows (w' ++ [g]) data := by
  have e : (w' ++ [g])[w'.length]? = some g := by
    rw [List.getElem?_append_right (Nat.le_refl _), Nat.sub_self]; rfl
  have key : ∀ gr, ShowsPicture w' (some to) gr data →
      ShowsPicture (w' ++ [g]) (some w'.length) (normGraphic (some w'.length) (clGraphic gr)) data := by
    intro gr ⟨gd, pic, bf, e1, e2, e3, i, f, pre, name, m, f1, f2, f3, f4, f5, f6⟩
    obtain rfl := Option.some.inj f1
    rw [h.here] at f2; obtain rfl := Option.some.inj f2
    obtain ⟨r, hrm, _, hrt⟩ := refer_mem f3
    obtain ⟨c1, c2⟩ := again_refer h f3
    have ct : clean (pre ++ name) = pre ++ name := (clean_iff _).2 (hrt ▸ hx r hrm)
    rw [resolve_some e, ct] at c2
    obtain ⟨xa, dat⟩ := gr
    have e1 : dat = some gd := e1
    subst e1
    obtain ⟨uri, pic', sh, cv, gp⟩ := gd
    have e2 : pic' = some pic := e2
    subst e2
    refine ⟨_, clPicture pic, clBlipFill bf, rfl, rfl, ?_, _, g, pre, name, m, rfl, e, c2, f4, ?_, f6⟩
    · simp [clPicture, e3]
    · rw [hm, ← f5, hf name]; rfl
  obtain ⟨inl, anchor⟩ := d
  rcases hs with ⟨i, gr, hi, hg, hp⟩ | ⟨a, gr, hi, ha, hg, hp⟩
  · have hfi := hin.1 i hi
    have hi : inl = some i := hi
    subst hi
    rw [hfi] at hp
    obtain ⟨x1, x2, x3, x4, x5, x6, x7, x8, gr', fi⟩ := i
    have hg : gr' = some gr := hg
    subst hg
    exact .inl ⟨_, _, rfl, rfl, key gr hp⟩
  · have hfi := hin.2 a ha
    have hi : inl = none := hi
    subst hi
    have ha : anchor = some a := ha
    subst ha
    rw [hfi] at hp
    obtain ⟨x1, x2, x3, x4, x5, x6, x7, x8, x9, x10, x11, x12, x13, x14, x15, x16, x17, x18, x19, gr', fi⟩ := a
    have hg : gr' = some gr := hg
    subst hg
    exact .inr ⟨_, _, rfl, rfl, rfl, key gr hp⟩

theorem appendEach_run {to : DocId} : ∀ {ds : List DocId} {w w' : World}, to < w.length →
    w.appendEach to ds = .ok w' → run w (ds.map (.append to)) = .ok w'
  | [], _, _, _, h => h
  | d :: ds, w, w', ht, h => by
    simp only [World.appendEach] at h
    split at h
    · rename_i w1 h1
      have e : step w (.append to d) = .ok w1 := by
        simp only [step, List.getElem?_eq_getElem ht]
        exact h1
      have hlen : w1.length = w.length :=
        (appendEach_grow (to := to) (ds := [d]) (by simp only [World.appendEach, h1])).len
      simp only [List.map_cons, run, e]
      exact appendEach_run (hlen ▸ ht) h
    · cases h
    · cases h

/-- A document `T` that holds a copy of `items` and nothing else is saved and opened again. -/
theorem copy_reopened {w w' : World} {to : DocId} {T : Doc} {items : List BItem}
    (hE : Each (ItemCopied (sameRules w w' to) to) items T.items) (hp : Program w') (hT : w'[to]? = some T)
    (hf : MediaFound T) (t : String) (l : List String) (tf : Option FS) (out : Saved)
    (hs : Saves (T.useTemplate t l tf) out none) :
    ∃ g, unpack w'.length (reread out) = (g, none) ∧
      bodyTexts g.items = cleanTexts (bodyTexts items) ∧
      (w' ++ [g]).targets g.items = (w.targets items).map cleanLink ∧
      ((∀ n ∈ l, isMediaName n = false) → (∀ r ∈ T.rels, xmlText r.target) →
        Each (fun d d' => ∀ data, d.Shows w data → d'.Shows (w' ++ [g]) data)
          (bodyDrawings items) (bodyDrawings g.items)) := by
  have hTm := List.mem_of_getElem? hT
  obtain ⟨h1, h2⟩ := program_fine hp T hTm
  have hgood : ∀ r ∈ T.rels, GoodId r.id := h1.good h2
  obtain ⟨g, g1, g2, _, g4, g5, g6⟩ := C87_opens (T.useTemplate t l tf) out hs hgood w'.length
  have ha : Again w' to T g := ⟨hT, hgood, g2⟩
  have hper : ∀ x ∈ T.items, ∀ p ∈ x.paras, p.file = some to ∧ p.Linked w' := by
    intro x hx p hpx
    obtain ⟨x0, _, hx0⟩ := each_right hE x hx
    refine ⟨?_, same_linked hx0 p hpx⟩
    obtain ⟨p0, _, hp0⟩ := each_right (copied_paras hx0) p hpx
    exact hp0.2.1
  have g4' : g.items = normBody (some w'.length) (T.items.map clItem) := g4
  refine ⟨g, g1, ?_, ?_, ?_⟩
  · rw [g5]
    show cleanTexts (bodyTexts T.items) = _
    rw [body_texts hE]
  · rw [g4', again_targets ha hper, body_targets hE]
  · intro hl hx
    have hm := (g6 hl).1
    have e1 := body_drawings hE (fun _ _ h => h)
    have e2 : bodyDrawings g.items =
        (bodyDrawings T.items).map fun d => normDrawing (some w'.length) (clDrawing d) := by
      unfold bodyDrawings
      rw [g4', reopened_paras, List.flatMap_map, List.map_flatMap]
      exact congrArg (fun k => (T.items.flatMap BItem.paras).flatMap k)
        (funext fun p => reopened_drawings _ p)
    rw [e2]
    generalize bodyDrawings items = as at e1 ⊢
    generalize bodyDrawings T.items = bs at e1 ⊢
    induction e1 with
    | nil => exact .nil
    | cons hab _ ih =>
      refine .cons (fun data hd => ?_) ih
      obtain ⟨k1, k2⟩ := hab data hd
      exact again_shows ha hx hf hm k2 k1

/-! ## C94 -/

/-- **C94.** A program that did anything, joins documents `ds` in a new one, chooses a template for it, saves
it and opens it again.  All texts of the documents are there, one after the other; every link leads where it
led; every picture has its bytes.  Only characters that XML cannot carry are replaced. -/
theorem C94_joined (w : World) (hw : Program w) (ds : List DocId) (hd : ∀ d ∈ ds, d < w.length)
    (hl : ∀ d ∈ ds, ∀ f, w[d]? = some f → ∀ x ∈ f.items, ∀ p ∈ x.paras, p.Linked w)
    (w' : World) (T : Doc) (hj : (w ++ [Doc.new]).appendEach w.length ds = .ok w') (hT : w'[w.length]? = some T)
    (hn : ∀ f ∈ w', f.rels.length < 2 ^ 62) (t : String) (l : List String) (tf : Option FS) (out : Saved)
    (hs : Saves (T.useTemplate t l tf) out none) :
    ∃ g, unpack w'.length (reread out) = (g, none) ∧
      bodyTexts g.items = cleanTexts (bodyTexts (w.bodies ds)) ∧
      (w' ++ [g]).targets g.items = (w.targets (w.bodies ds)).map cleanLink ∧
      ((∀ n ∈ l, isMediaName n = false) → (∀ r ∈ T.rels, xmlText r.target) →
        Each (fun d d' => ∀ data, d.Shows w data → d'.Shows (w' ++ [g]) data)
          (bodyDrawings (w.bodies ds)) (bodyDrawings g.items)) := by
  have hN := hn T (List.mem_of_getElem? hT)
  have hE := (C90_all w w' ds T hj hT hd hl (by omega)).1
  have hrun : run w (.new :: ds.map (.append w.length)) = .ok w' := by
    show run (w ++ [Doc.new]) _ = _
    exact appendEach_run (by simp) hj
  exact copy_reopened hE (program_run hw hrun hn) hT
    (C56_media_found_always w w' _ hrun w.length (Nat.le_refl _) T hT) t l tf out hs

end

/-! ## Case: two documents with texts and links -/

local instance mergeEnv : GoEnv := ⟨fun _ => none, fun _ => false, fun _ => false⟩
local instance mergeImg : ImgEnv := ⟨fun _ => none⟩

/-- Two documents, each with a text and a link; both links have the same id -/
def twoCalls : List Op := [.new, .addParagraph 0, .addText 0 (.body 0) "a", .addLink 0 (.body 0) "x" "http://x/",
  .new, .addParagraph 1, .addText 1 (.body 0) "b", .addLink 1 (.body 0) "y" "http://y/"]

/-- All links of a body lead somewhere -/
def linkedB (w : World) (items : List BItem) : Bool :=
  items.all fun x => x.paras.all fun p => p.children.all fun c =>
    match c with
    | .link h => (w.resolve p.file h.id).isSome
    | _ => true

theorem linkedB_iff {w : World} {items : List BItem} (h : linkedB w items = true) :
    ∀ x ∈ items, ∀ p ∈ x.paras, p.Linked w := by
  intro x hx p hp k hk e
  simp only [linkedB, List.all_eq_true] at h
  have := h x hx p hp _ hk
  simp only [e] at this
  cases this

/-- The first, the second and the first document again, in a new one -/
example : ∃ (w w' : World) (T : Doc) (out : Saved), Program w ∧
    (w ++ [Doc.new]).appendEach w.length [0, 1, 0] = .ok w' ∧ w'[w.length]? = some T ∧
    Saves (T.useTemplate "" [] none) out none ∧
    ∃ g, unpack w'.length (reread out) = (g, none) ∧
      bodyTexts g.items = [[[[["a"]]]], [[[["b"]]]], [[[["a"]]]]] ∧
      (w' ++ [g]).targets g.items = [("x", some "http://x/"), ("y", some "http://y/"), ("x", some "http://x/")] := by
  have key : (match run [] twoCalls with
    | .ok [f, f1] => f.rels.length == 4 && f1.rels.length == 4 && linkedB [f, f1] f.items && linkedB [f, f1] f1.items &&
        (bodyTexts (World.bodies [f, f1] [0, 1, 0]) == [[[[["a"]]]], [[[["b"]]]], [[[["a"]]]]]) &&
        (World.targets [f, f1] (World.bodies [f, f1] [0, 1, 0]) == [("x", some "http://x/"), ("y", some "http://y/"), ("x", some "http://x/")]) &&
        (match World.appendEach [f, f1, Doc.new] 2 [0, 1, 0] with
         | .ok [f2, f3, T] => f2.rels.length == 4 && f3.rels.length == 4 && T.rels.length == 6 && T.media.length == 0
         | _ => false)
    | _ => false) = true := by decide +kernel
  split at key
  · rename_i f f1 hr
    simp only [Bool.and_eq_true, beq_iff_eq] at key
    obtain ⟨⟨⟨⟨⟨⟨k1, k2⟩, k3⟩, k4⟩, k5⟩, k6⟩, k7⟩ := key
    split at k7
    · rename_i f2 f3 T hj
      simp only [Bool.and_eq_true, beq_iff_eq, List.length_eq_zero_iff] at k7
      obtain ⟨⟨⟨m1, m2⟩, m3⟩, m4⟩ := k7
      have hp : Program [f, f1] := program_run .start hr (by
        intro g hg
        simp only [List.mem_cons, List.not_mem_nil, or_false] at hg
        rcases hg with rfl | rfl <;> omega)
      obtain ⟨out, e, hs⟩ := C53_returns (T.useTemplate "" [] none) (.inr rfl)
      obtain rfl := C53_success (T.useTemplate "" [] none) (by simp [Doc.useTemplate]) (by simp [Doc.useTemplate])
        (by simp [Doc.useTemplate, m4]) out e hs
      obtain ⟨g, g1, g2, g3, _⟩ := C94_joined [f, f1] hp [0, 1, 0] (by simp)
        (by
          intro d hd g hg
          simp only [List.mem_cons, List.not_mem_nil, or_false] at hd
          rcases hd with rfl | rfl | rfl
          · obtain rfl := Option.some.inj hg; exact linkedB_iff k3
          · obtain rfl := Option.some.inj hg; exact linkedB_iff k4
          · obtain rfl := Option.some.inj hg; exact linkedB_iff k3)
        [f2, f3, T] T hj rfl
        (by
          intro g hg
          simp only [List.mem_cons, List.not_mem_nil, or_false] at hg
          rcases hg with rfl | rfl | rfl <;> omega) "" [] none out hs
      refine ⟨[f, f1], [f2, f3, T], T, out, hp, hj, rfl, hs, g, g1, ?_, ?_⟩
      · rw [g2, k5]; decide +kernel
      · rw [g3, k6]; decide +kernel
    · cases k7
  · cases key

end Docx
