import Verif.Autosave
import Verif.SpecAutosave
import Verif.Props.Refs
import Verif.Lemmas.AliasStep

/-!
# C89: saving while another goroutine goes on adding

`f.steps as` are the states of the document while the other goroutine makes the calls `as`; `f.seen as m`
is what a save sees that reads at the moments `m`.
-/

set_option linter.unusedSectionVars false

namespace Docx

/-! ## Documents that continue one another -/

theorem ItemUpTo.refl (x : BItem) : ItemUpTo x x := .inl rfl

theorem ItemUpTo.trans {x y z : BItem} (h : ItemUpTo x y) (h' : ItemUpTo y z) : ItemUpTo x z := by
  rcases h with rfl | ⟨p, m, rfl, rfl⟩
  · exact h'
  · rcases h' with rfl | ⟨q, m', hq, rfl⟩
    · exact .inr ⟨p, m, rfl, rfl⟩
    · obtain rfl := BItem.para.inj hq
      exact .inr ⟨p, m ++ m', rfl, by simp only [List.append_assoc]⟩

theorem UpTo.refl (f : Doc) : UpTo f f :=
  ⟨List.prefix_rfl, List.prefix_rfl, fun _ x h => ⟨x, h, .refl x⟩⟩

theorem UpTo.trans {f g h : Doc} (a : UpTo f g) (b : UpTo g h) : UpTo f h := by
  refine ⟨a.rels.trans b.rels, a.media.trans b.media, fun i x hx => ?_⟩
  obtain ⟨y, hy, h1⟩ := a.items i x hx
  obtain ⟨z, hz, h2⟩ := b.items i y hy
  exact ⟨z, hz, h1.trans h2⟩

/-- The references of the body resolve -/
def Resolves (f : Doc) : Prop := ∀ x ∈ f.items, ItemRefs (HasRel f.rels) x

/-- One step -/
structure Next (f g : Doc) : Prop where
  upTo : UpTo f g
  resolves : Resolves f → Resolves g

theorem Next.refl (f : Doc) : Next f f := ⟨.refl f, id⟩
theorem Next.trans {f g h : Doc} (a : Next f g) (b : Next g h) : Next f h :=
  ⟨a.upTo.trans b.upTo, fun x => b.resolves (a.resolves x)⟩

theorem HasRel.pre {a b : List Rel} (h : a <+: b) {id : String} (x : HasRel a id) : HasRel b id := by
  obtain ⟨r, hr, e⟩ := x
  exact ⟨r, h.subset hr, e⟩

/-- A step that leaves the body alone -/
theorem next_rels {f g : Doc} (hi : g.items = f.items) (hr : f.rels <+: g.rels) (hm : f.media <+: g.media) :
    Next f g := by
  refine ⟨⟨hr, hm, fun i x h => ⟨x, by rw [hi]; exact h, .refl x⟩⟩, fun h x hx => ?_⟩
  rw [hi] at hx
  exact (h x hx).mono fun _ => .pre hr

/-- A change that adds children to a paragraph, whose references resolve -/
def AddsTo (rels : List Rel) (g : Para → Para) : Prop :=
  ∀ p, ∃ more, g p = { p with children := p.children ++ more } ∧
    ∀ c ∈ more, ∀ id ∈ refsOf (mPChild c), HasRel rels id

theorem next_atPara {f : Doc} {i : Nat} {g : Para → Para} (hg : AddsTo f.rels g) : Next f (f.atPara i g) := by
  refine ⟨⟨List.prefix_rfl, List.prefix_rfl, ?_⟩, fun h => ?_⟩
  · intro j x hx
    simp only [Doc.atPara, modPara, List.getElem?_modify, hx]
    by_cases hj : i = j
    · simp only [if_pos hj]
      cases x with
      | para p =>
        obtain ⟨more, h, _⟩ := hg p
        exact ⟨_, rfl, .inr ⟨p, more, rfl, by rw [← h]⟩⟩
      | table t => exact ⟨_, rfl, .refl _⟩
      | sect s => exact ⟨_, rfl, .refl _⟩
    · simp only [if_neg hj]; exact ⟨x, rfl, .refl x⟩
  · unfold Resolves Doc.atPara modPara
    refine forall_modify h ?_
    intro x hx
    cases x with
    | table t => exact hx
    | sect s => exact hx
    | para p =>
      obtain ⟨more, e, hm⟩ := hg p
      have hp := itemRefs_para.1 hx
      refine itemRefs_para.2 ?_
      intro id hid
      rw [e, rf_mPara] at hid
      simp only [List.flatMap_append, List.mem_append] at hid
      rcases hid with hid | hid
      · exact hp id (by rw [rf_mPara]; exact hid)
      · obtain ⟨c, hc, hid⟩ := List.mem_flatMap.1 hid
        exact hm c hc id hid

theorem next_push {f : Doc} {x : BItem} (h : ItemRefs (HasRel f.rels) x) :
    Next f { f with items := f.items ++ [x] } := by
  refine ⟨⟨List.prefix_rfl, List.prefix_rfl, fun i y hy => ⟨y, ?_, .refl y⟩⟩, fun hf y hy => ?_⟩
  · show (f.items ++ [x])[i]? = some y
    rw [List.getElem?_append_left (List.getElem?_eq_some_iff.1 hy).1]
    exact hy
  · rcases List.mem_append.1 hy with hy | hy
    · exact hf y hy
    · obtain rfl := List.mem_singleton.1 hy
      exact h

theorem grows_run {rels : List Rel} {r : Run} (h : ∀ id ∈ refsOf (mRun r), HasRel rels id) :
    AddsTo rels fun p => p.addRun r := by
  refine fun p => ⟨[.run r], rfl, ?_⟩
  intro c hc id hid
  obtain rfl := List.mem_singleton.1 hc
  exact h id (by simpa only [mPChild] using hid)

theorem grows_text (rels : List Rel) (s : String) : AddsTo rels fun p => (p.addText s).1 := by
  by_cases h : s = "\t"
  · simp only [Para.addText, if_pos h]
    refine grows_run ?_
    rw [noRefs_of_noDraws (by simp [Run.draws, RChild.drawing?])]; simp
  · simp only [Para.addText, if_neg h]
    refine grows_run ?_
    rw [noRefs_of_noDraws (by simp [Run.draws, linePieces_draws])]; simp

theorem grows_link (f : Doc) (s url : String) :
    AddsTo (f.addLinkRelation url).1.rels fun p => (p.addLink f s url).2.1 := by
  refine fun p => ⟨[_], rfl, ?_⟩
  intro c hc id hid
  obtain rfl := List.mem_singleton.1 hc
  simp only [mPChild, rf_mLink, rf_mRun, List.flatMap_nil, List.mem_singleton] at hid
  subst hid
  exact addLink_rel _ _

theorem grows_none (rels : List Rel) : AddsTo rels fun p => p :=
  fun p => ⟨[], by cases p; simp only [List.append_nil], by simp⟩

theorem grows_inline [ImgEnv] (f : Doc) (pic : Bytes) :
    AddsTo (f.addPicture pic).1.rels fun p => (p.addInlineDrawing f pic).2.1 := by
  unfold Para.addInlineDrawing
  rcases hp : f.addPicture pic with ⟨f1, r⟩
  cases r with
  | err e => exact grows_none _
  | panic => exact grows_none _
  | ok a =>
    obtain ⟨idn, id, rid, w, h⟩ := a
    refine grows_run ?_
    rw [drawingRun_refs, rf_inlineO]
    refine rf_graphic ((plain_inv.inlinePic _ _ _ _ _).1 _ rfl) ?_
    intro g gd q bf hg hgd hq hbf
    obtain rfl := Option.some.inj hg
    obtain rfl := Option.some.inj hgd
    obtain rfl := Option.some.inj hq
    obtain rfl := Option.some.inj hbf
    exact addPicture_rel hp

theorem grows_anchor [ImgEnv] (f : Doc) (pic : Bytes) :
    AddsTo (f.addPicture pic).1.rels fun p => (p.addAnchorDrawing f pic).2.1 := by
  unfold Para.addAnchorDrawing
  rcases hp : f.addPicture pic with ⟨f1, r⟩
  cases r with
  | err e => exact grows_none _
  | panic => exact grows_none _
  | ok a =>
    obtain ⟨idn, id, rid, w, h⟩ := a
    refine grows_run ?_
    rw [drawingRun_refs, rf_anchorO]
    refine rf_graphic ((plain_inv.anchorPic _ _ _ _ _).2 _ rfl) ?_
    intro g gd q bf hg hgd hq hbf
    obtain rfl := Option.some.inj hg
    obtain rfl := Option.some.inj hgd
    obtain rfl := Option.some.inj hq
    obtain rfl := Option.some.inj hbf
    exact addPicture_rel hp

/-! ## Chains of steps -/

/-- Every state is a step from the one before. -/
def ChainDoc (f : Doc) : List Doc → Prop
  | [] => True
  | g :: l => Next f g ∧ ChainDoc g l

theorem lastDoc_nil (f : Doc) : lastDoc f [] = f := rfl

theorem lastDoc_cons (f g : Doc) (l : List Doc) : lastDoc f (g :: l) = lastDoc g l := by
  cases l with
  | nil => rfl
  | cons x l => simp [lastDoc, List.getLast?_eq_some_getLast]

theorem lastDoc_append (f : Doc) : ∀ (a b : List Doc), lastDoc f (a ++ b) = lastDoc (lastDoc f a) b
  | [], b => rfl
  | x :: a, b => by rw [List.cons_append, lastDoc_cons, lastDoc_cons, lastDoc_append x a b]

theorem chainDoc_append {f : Doc} : ∀ {a b : List Doc}, ChainDoc f a → ChainDoc (lastDoc f a) b → ChainDoc f (a ++ b)
  | [], _, _, h => h
  | x :: a, b, h, h' => ⟨h.1, chainDoc_append h.2 (by rw [lastDoc_cons] at h'; exact h')⟩

theorem chain_last {f : Doc} : ∀ {l : List Doc}, ChainDoc f l → Next f (lastDoc f l)
  | [], _ => .refl f
  | g :: l, h => by rw [lastDoc_cons]; exact h.1.trans (chain_last h.2)

theorem chain_take {f : Doc} : ∀ {l : List Doc} (t : Nat), ChainDoc f l → ChainDoc f (l.take t)
  | [], t, _ => by rw [List.take_nil]; trivial
  | g :: l, 0, _ => trivial
  | g :: l, t + 1, h => ⟨h.1, chain_take t h.2⟩

theorem chain_mono {f : Doc} : ∀ {l : List Doc} {s t : Nat}, ChainDoc f l → s ≤ t →
    Next (lastDoc f (l.take s)) (lastDoc f (l.take t))
  | l, 0, t, h, _ => by rw [List.take_zero]; exact chain_last (chain_take t h)
  | [], s + 1, t, _, _ => by rw [List.take_nil, List.take_nil]; exact .refl _
  | g :: l, s + 1, t + 1, h, hst => by
    rw [List.take_succ_cons, List.take_succ_cons, lastDoc_cons, lastDoc_cons]
    exact chain_mono h.2 (by omega)

theorem addPicture_some [ImgEnv] {f : Doc} {pic : Bytes} {a b : Int64} {fmt : String}
    (h : ImgEnv.decodeSize pic = some (a, b, fmt)) :
    (f.addPicture pic).1 = ((f.nextDocID.1.increaseID picName).1.addImage fmt pic).1 := by
  unfold Doc.addPicture
  rw [h]
  simp only
  split <;> rfl

theorem pictureSteps_last (f : Doc) (fmt : String) (pic : Bytes) :
    lastDoc f (f.pictureSteps fmt pic) = ((f.nextDocID.1.increaseID picName).1.addImage fmt pic).1 := rfl

theorem pictureSteps_chain (f : Doc) (fmt : String) (pic : Bytes) : ChainDoc f (f.pictureSteps fmt pic) := by
  refine ⟨next_rels rfl List.prefix_rfl List.prefix_rfl, next_rels rfl List.prefix_rfl List.prefix_rfl,
    next_rels rfl List.prefix_rfl List.prefix_rfl, next_rels rfl List.prefix_rfl ?_,
    next_rels rfl List.prefix_rfl List.prefix_rfl, next_rels rfl ?_ List.prefix_rfl, trivial⟩
  · exact List.prefix_append _ _
  · exact List.prefix_append _ _

theorem during_chain [ImgEnv] (f : Doc) (a : Add) : ChainDoc f (f.during a) := by
  cases a with
  | paragraph =>
    refine ⟨next_push (itemRefs_para.2 ?_), trivial⟩
    intro id hid
    rw [rf_mPara] at hid
    simp at hid
  | table rows cols width colors =>
    refine ⟨next_push (itemRefs_table.2 ?_), trivial⟩
    intro r hr c hc p hp
    obtain ⟨_, _, rfl⟩ := List.mem_map.1 hr
    obtain ⟨_, _, rfl⟩ := List.mem_map.1 hc
    cases hp
  | text i s => exact ⟨next_atPara (grows_text _ s), trivial⟩
  | link i s url =>
    exact ⟨next_rels rfl List.prefix_rfl List.prefix_rfl, next_rels rfl (List.prefix_append _ _) List.prefix_rfl,
      next_atPara (grows_link f s url), trivial⟩
  | inline i pic =>
    rcases h : ImgEnv.decodeSize pic with _ | ⟨x, y, fmt⟩
    · simp only [Doc.during, h]
      exact trivial
    · simp only [Doc.during, h]
      refine chainDoc_append (pictureSteps_chain f fmt pic) ⟨?_, trivial⟩
      rw [pictureSteps_last, ← addPicture_some h]
      exact next_atPara (grows_inline f pic)
  | anchor i pic =>
    rcases h : ImgEnv.decodeSize pic with _ | ⟨x, y, fmt⟩
    · simp only [Doc.during, h]
      exact trivial
    · simp only [Doc.during, h]
      refine chainDoc_append (pictureSteps_chain f fmt pic) ⟨?_, trivial⟩
      rw [pictureSteps_last, ← addPicture_some h]
      exact next_atPara (grows_anchor f pic)

theorem steps_chain [ImgEnv] (f : Doc) : ∀ as : List Add, ChainDoc f (f.steps as)
  | [] => trivial
  | a :: as => chainDoc_append (during_chain f a) (steps_chain _ as)

theorem at_mono [ImgEnv] (f : Doc) (as : List Add) {s t : Nat} (h : s ≤ t) :
    Next (f.at as s) (f.at as t) := chain_mono (steps_chain f as) h

theorem at_zero [ImgEnv] (f : Doc) (as : List Add) : f.at as 0 = f := rfl

/-! ## What a save sees -/

theorem Moments.Real.item_le {m : Moments} (h : m.Real) (i : Nat) : m.body ≤ m.item i := by
  induction i with
  | zero => exact h.body_item
  | succ i ih => exact Nat.le_trans ih (h.item_item i)

theorem length_upTo {f g : Doc} (h : UpTo f g) : f.items.length ≤ g.items.length := by
  rcases Nat.lt_or_ge g.items.length f.items.length with hl | hl
  · obtain ⟨y, hy, _⟩ := h.items g.items.length _ (List.getElem?_eq_getElem hl)
    rw [List.getElem?_eq_none (Nat.le_refl _)] at hy
    cases hy
  · exact hl

theorem range_filterMap {α : Type} {n : Nat} {g : Nat → Option α} (h : ∀ i, i < n → (g i).isSome) (i : Nat) :
    ((List.range n).filterMap g)[i]? = if i < n then g i else none := by
  induction n generalizing i with
  | zero => simp
  | succ n ih =>
    have hl : ((List.range n).filterMap g).length = n := by
      rcases Nat.lt_trichotomy ((List.range n).filterMap g).length n with hl | hl | hl
      · have := ih (fun i hi => h i (by omega)) ((List.range n).filterMap g).length
        rw [List.getElem?_eq_none (Nat.le_refl _), if_pos hl] at this
        have h2 := h _ (Nat.lt_succ_of_lt hl)
        rw [← this] at h2; cases h2
      · exact hl
      · have := ih (fun i hi => h i (by omega)) n
        rw [List.getElem?_eq_getElem hl, if_neg (Nat.lt_irrefl _)] at this
        cases this
    obtain ⟨x, hx⟩ := Option.isSome_iff_exists.1 (h n (Nat.lt_succ_self n))
    have e : (List.range (n + 1)).filterMap g = (List.range n).filterMap g ++ [x] := by
      rw [List.range_succ, List.filterMap_append]
      simp [hx]
    rw [e]
    rcases Nat.lt_trichotomy i n with hi | hi | hi
    · rw [List.getElem?_append_left (by omega), ih (fun i hi => h i (by omega)), if_pos hi, if_pos (by omega)]
    · subst hi
      rw [List.getElem?_append_right (by omega), hl, Nat.sub_self, if_pos (by omega), hx]; rfl
    · rw [if_neg (by omega), List.getElem?_eq_none (by simp; omega)]

theorem seen_items [ImgEnv] {f : Doc} {as : List Add} {m : Moments} (h : m.Real) (i : Nat) :
    (f.seen as m).items[i]? =
      if i < (f.at as m.body).items.length then (f.at as (m.item i)).items[i]? else none := by
  refine range_filterMap ?_ i
  intro j hj
  obtain ⟨y, hy, _⟩ := (at_mono f as (h.item_le j)).upTo.items j _ (List.getElem?_eq_getElem hj)
  rw [hy]; rfl

/-- C89: what was in the document when the save began is in the saved document, at the same place; and the
saved document holds nothing that is not in the document when the save ends.  `b` is a moment before the
save reads anything, `e` one after it has read everything. -/
theorem C89_between [ImgEnv] (f : Doc) (as : List Add) (m : Moments) (hm : m.Real) (b e : Nat)
    (hb : b ≤ m.media) (hr : m.rels ≤ e) (he : ∀ i, m.item i ≤ e) :
    UpTo (f.at as b) (f.seen as m) ∧ UpTo (f.seen as m) (f.at as e) := by
  have hbb : b ≤ m.body := Nat.le_trans hb hm.media_body
  refine ⟨⟨(at_mono f as (Nat.le_trans hb hm.media_rels)).upTo.rels, (at_mono f as hb).upTo.media, ?_⟩,
    ⟨(at_mono f as hr).upTo.rels, ?_, ?_⟩⟩
  · intro i x hx
    rw [seen_items hm]
    have hl := length_upTo (at_mono f as hbb).upTo
    have hi := (List.getElem?_eq_some_iff.1 hx).1
    rw [if_pos (by omega)]
    exact (at_mono f as (Nat.le_trans hbb (hm.item_le i))).upTo.items i x hx
  · exact (at_mono f as (Nat.le_trans hm.media_rels hr)).upTo.media
  · intro i x hx
    rw [seen_items hm] at hx
    split at hx
    · exact (at_mono f as (he i)).upTo.items i x hx
    · cases hx

/-- C89: when the main part is written before the relationships, every reference of it resolves. -/
theorem C89_document_first [ImgEnv] (f : Doc) (as : List Add) (m : Moments) (hm : m.Real)
    (hf : RefsResolve f.rels (mDocument f.items)) (h : ∀ i, m.item i ≤ m.rels) :
    RefsResolve (f.seen as m).rels (mDocument (f.seen as m).items) := by
  refine resolve_iff.2 ?_
  intro x hx
  obtain ⟨i, hi⟩ := List.getElem?_of_mem hx
  rw [seen_items hm] at hi
  split at hi
  · have hr : Resolves (f.at as (m.item i)) :=
      (at_mono f as (Nat.zero_le _)).resolves (resolve_iff.1 hf)
    exact (hr x (List.mem_of_getElem? hi)).mono fun _ => .pre (at_mono f as (h i)).upTo.rels
  · cases hi

/-- C89: whatever the order, the references of what was in the document when the save began resolve. -/
theorem C89_begun [ImgEnv] (f : Doc) (as : List Add) (m : Moments) (hm : m.Real) (b : Nat) (hb : b ≤ m.media)
    (hf : RefsResolve f.rels (mDocument f.items)) :
    RefsResolve (f.seen as m).rels (mDocument (f.at as b).items) := by
  refine resolve_iff.2 ?_
  have hr : Resolves (f.at as b) := (at_mono f as (Nat.zero_le _)).resolves (resolve_iff.1 hf)
  exact fun x hx => (hr x hx).mono fun _ => .pre (at_mono f as (Nat.le_trans hb hm.media_rels)).upTo.rels

/-! ## No relationships are added -/

/-- Calls that add neither links nor pictures -/
def Add.Words : Add → Prop
  | .paragraph | .table .. | .text .. => True
  | _ => False

theorem words_rels [ImgEnv] : ∀ (as : List Add) (f : Doc), (∀ a ∈ as, a.Words) →
    ∀ g ∈ f.steps as, g.rels = f.rels ∧ g.media = f.media
  | [], _, _, _, h => by cases h
  | a :: as, f, ha, g, h => by
    have h1 : ∀ g ∈ f.during a, g.rels = f.rels ∧ g.media = f.media := by
      have := ha a List.mem_cons_self
      intro g hg
      cases a with
      | paragraph => obtain rfl := List.mem_singleton.1 hg; exact ⟨rfl, rfl⟩
      | table => obtain rfl := List.mem_singleton.1 hg; exact ⟨rfl, rfl⟩
      | text => obtain rfl := List.mem_singleton.1 hg; exact ⟨rfl, rfl⟩
      | _ => exact this.elim
    have h2 : (lastDoc f (f.during a)).rels = f.rels ∧ (lastDoc f (f.during a)).media = f.media := by
      unfold lastDoc
      cases hl : (f.during a).getLast? with
      | none => exact ⟨rfl, rfl⟩
      | some g => exact h1 g (List.mem_of_getLast? hl)
    rcases List.mem_append.1 h with h | h
    · exact h1 g h
    · have := words_rels as _ (fun b hb => ha b (List.mem_cons_of_mem _ hb)) g h
      exact ⟨this.1.trans h2.1, this.2.trans h2.2⟩

/-- C89: when the other goroutine adds paragraphs, tables and text only, every reference of the saved file
resolves, and all its relationships and pictures are those of the document, whatever the moments. -/
theorem C89_words [ImgEnv] (f : Doc) (as : List Add) (m : Moments) (hm : m.Real) (ha : ∀ a ∈ as, a.Words)
    (hf : RefsResolve f.rels (mDocument f.items)) :
    RefsResolve (f.seen as m).rels (mDocument (f.seen as m).items) ∧
      (f.seen as m).rels = f.rels ∧ (f.seen as m).media = f.media := by
  have key : ∀ t, (f.at as t).rels = f.rels ∧ (f.at as t).media = f.media := by
    intro t
    unfold Doc.at lastDoc
    cases hl : ((f.steps as).take t).getLast? with
    | none => exact ⟨rfl, rfl⟩
    | some g => exact words_rels as f ha g (List.mem_of_mem_take (List.mem_of_getLast? hl))
  refine ⟨resolve_iff.2 ?_, (key _).1, (key _).2⟩
  intro x hx
  obtain ⟨i, hi⟩ := List.getElem?_of_mem hx
  rw [seen_items hm] at hi
  split at hi
  · have hr : Resolves (f.at as (m.item i)) :=
      (at_mono f as (Nat.zero_le _)).resolves (resolve_iff.1 hf)
    refine (hr x (List.mem_of_getElem? hi)).mono fun id h => ?_
    show HasRel (f.at as m.rels).rels id
    rw [(key _).1] at h ⊢
    exact h
  · cases hi

/-! ## With a mutex -/

theorem onPara_single {f : Doc} {l : Loc} {act : Doc → Para → Res (Doc × Para)} {w : World}
    (h : World.onPara [f] 0 l act = .ok w) : ∃ p f' p', getPara f.items l = some p ∧ act f p = .ok (f', p') ∧
      w = [{ f' with items := modPara f'.items l fun _ => p' }] := by
  simp only [World.onPara, List.getElem?_cons_zero] at h
  split at h
  · cases h
  · rename_i p hp
    split at h
    · cases h
    · rename_i fid _
      split at h
      · cases h
      · rename_i g hg
        cases fid with
        | succ n => simp at hg
        | zero =>
          obtain rfl := Option.some.inj hg
          obtain ⟨⟨f', p'⟩, h1, h2⟩ := Res.bind_eq_ok.1 h
          simp only [List.set_cons_zero, List.getElem?_cons_zero, Res.ok.injEq] at h2
          exact ⟨p, f', p', hp, h1, h2.symm⟩

theorem atPara_const {f f' : Doc} {i : Nat} {p p' : Para} {g : Para → Para} (hi : f'.items = f.items)
    (hp : getPara f.items (.body i) = some p) (hg : g p = p') :
    { f' with items := modPara f'.items (.body i) fun _ => p' } = f'.atPara i g := by
  unfold Doc.atPara
  rw [hi, modPara_congr (g := fun _ => p') (g' := g) hp hg.symm]

theorem addPicture_none [ImgEnv] {f : Doc} {pic : Bytes} (h : ImgEnv.decodeSize pic = none) :
    f.addPicture pic = (f, .err .decode) := by
  unfold Doc.addPicture; rw [h]

theorem modPara_same {items : List BItem} {i : Nat} {p : Para} (h : getPara items (.body i) = some p) :
    modPara items (.body i) (fun _ => p) = items := by
  have hi : items[i]? = some (.para p) := by
    simp only [getPara] at h
    split at h
    · rename_i q hq
      rw [hq, Option.some.inj h]
    · cases h
  refine List.ext_getElem? fun j => ?_
  simp only [modPara, List.getElem?_modify]
  by_cases hj : i = j
  · subst hj; rw [hi]; simp
  · simp [hj]

/-- A call in a history of calls leaves the document of the last step -/
theorem step_last [ImgEnv] {f : Doc} {a : Add} {w : World} (h : step [f] a.op = .ok w) :
    w = [lastDoc f (f.during a)] := by
  cases a with
  | paragraph =>
    simp only [Add.op, step, World.onDoc, List.getElem?_cons_zero, Res.bind_ok, List.set_cons_zero, Res.ok.injEq] at h
    exact h.symm
  | table rows cols width colors =>
    simp only [Add.op, step, World.onDoc, List.getElem?_cons_zero, Res.bind_ok, List.set_cons_zero, Res.ok.injEq] at h
    exact h.symm
  | text i s =>
    obtain ⟨p, f', p', hp, h1, rfl⟩ := onPara_single h
    simp only [Res.ok.injEq, Prod.mk.injEq] at h1
    obtain ⟨rfl, h1⟩ := h1
    exact congrArg (fun x => [x]) (atPara_const (g := fun p => (p.addText s).1) rfl hp h1)
  | link i s url =>
    obtain ⟨p, f', p', hp, h1, rfl⟩ := onPara_single h
    simp only [Res.ok.injEq, Prod.mk.injEq] at h1
    obtain ⟨rfl, h1⟩ := h1
    exact congrArg (fun x => [x])
      (atPara_const (f' := (f.addLinkRelation url).1) (g := fun p => (p.addLink f s url).2.1) rfl hp h1)
  | inline i pic =>
    obtain ⟨p, f', p', hp, h1, rfl⟩ := onPara_single h
    rcases hd : ImgEnv.decodeSize pic with _ | ⟨x, y, fmt⟩
    · simp only [Para.addInlineDrawing, addPicture_none hd, Res.ok.injEq, Prod.mk.injEq] at h1
      obtain ⟨rfl, rfl⟩ := h1
      simp only [Doc.during, hd, lastDoc_nil, modPara_same hp]
    · have h2 : f' = (f.addPicture pic).1 ∧ (p.addInlineDrawing f pic).2.1 = p' := by
        unfold Para.addInlineDrawing at h1 ⊢
        rcases hq : f.addPicture pic with ⟨g, r⟩
        rw [hq] at h1
        cases r with
        | ok a => simp only [Res.ok.injEq, Prod.mk.injEq] at h1; exact ⟨h1.1.symm, h1.2⟩
        | err e => simp only [Res.ok.injEq, Prod.mk.injEq] at h1; exact ⟨h1.1.symm, h1.2⟩
        | panic => cases h1
      obtain ⟨rfl, h2⟩ := h2
      simp only [Doc.during, hd, lastDoc_append, lastDoc_cons, lastDoc_nil]
      exact congrArg (fun x => [x]) (atPara_const (g := fun p => (p.addInlineDrawing f pic).2.1)
        (by rw [addPicture_some hd]; rfl) hp h2)
  | anchor i pic =>
    obtain ⟨p, f', p', hp, h1, rfl⟩ := onPara_single h
    rcases hd : ImgEnv.decodeSize pic with _ | ⟨x, y, fmt⟩
    · simp only [Para.addAnchorDrawing, addPicture_none hd, Res.ok.injEq, Prod.mk.injEq] at h1
      obtain ⟨rfl, rfl⟩ := h1
      simp only [Doc.during, hd, lastDoc_nil, modPara_same hp]
    · have h2 : f' = (f.addPicture pic).1 ∧ (p.addAnchorDrawing f pic).2.1 = p' := by
        unfold Para.addAnchorDrawing at h1 ⊢
        rcases hq : f.addPicture pic with ⟨g, r⟩
        rw [hq] at h1
        cases r with
        | ok a => simp only [Res.ok.injEq, Prod.mk.injEq] at h1; exact ⟨h1.1.symm, h1.2⟩
        | err e => simp only [Res.ok.injEq, Prod.mk.injEq] at h1; exact ⟨h1.1.symm, h1.2⟩
        | panic => cases h1
      obtain ⟨rfl, h2⟩ := h2
      simp only [Doc.during, hd, lastDoc_append, lastDoc_cons, lastDoc_nil]
      exact congrArg (fun x => [x]) (atPara_const (g := fun p => (p.addAnchorDrawing f pic).2.1)
        (by rw [addPicture_some hd]; rfl) hp h2)

theorem run_last [ImgEnv] : ∀ (as : List Add) (f : Doc) (w : World), run [f] (as.map Add.op) = .ok w →
    w = [lastDoc f (f.steps as)]
  | [], f, w, h => by
    simp only [List.map_nil, run, Res.ok.injEq] at h
    rw [← h]; rfl
  | a :: as, f, w, h => by
    simp only [List.map_cons, run] at h
    split at h
    · rename_i w1 h1
      obtain rfl := step_last h1
      rw [run_last as _ w h, Doc.steps, lastDoc_append]
    · cases h
    · cases h

theorem steps_append [ImgEnv] : ∀ (as bs : List Add) (f : Doc),
    f.steps (as ++ bs) = f.steps as ++ (lastDoc f (f.steps as)).steps bs
  | [], _, _ => rfl
  | a :: as, bs, f => by
    rw [List.cons_append, Doc.steps, Doc.steps, steps_append as bs, List.append_assoc, lastDoc_append]

/-- C89: when the save and the calls of the other goroutine exclude one another, say by a mutex, the save sees
the document that the calls made before it leave: it reads everything when `k` calls have returned and the
next one has not begun. -/
theorem C89_guarded [ImgEnv] (f : Doc) (as : List Add) (k : Nat) (w : World) (m : Moments)
    (hw : run [f] ((as.take k).map Add.op) = .ok w)
    (h1 : m.media = (f.steps (as.take k)).length) (h2 : m.rels = m.media) (h3 : m.body = m.media)
    (h4 : ∀ i, m.item i = m.media) : w = [f.seen as m] := by
  rw [run_last _ _ _ hw]
  have e : f.at as m.media = lastDoc f (f.steps (as.take k)) := by
    unfold Doc.at
    rw [h1]
    have := steps_append (as.take k) (as.drop k) f
    rw [List.take_append_drop] at this
    rw [this, List.take_left']
    rfl
  unfold Doc.seen
  simp only [h2, h3, h4, e]
  have hi : ∀ l : List BItem, (List.range l.length).filterMap (fun i => l[i]?) = l := by
    intro l
    refine List.ext_getElem? fun i => ?_
    rw [range_filterMap (fun j hj => by rw [List.getElem?_eq_getElem hj]; rfl)]
    split
    · rfl
    · rw [List.getElem?_eq_none (by omega)]
  rw [hi]

/-! ## Without a mutex -/

local instance autosaveImg : ImgEnv := ⟨fun _ => some (10, 10, "png")⟩

/-- A new document with one paragraph -/
def onePara : Doc := Doc.new.addParagraph 0

/-- The relationships are written first, then the other goroutine makes its calls, then the main part is
written -/
def relsFirst : Moments := { media := 0, rels := 0, body := 10, item := fun _ => 10 }

/-- The main part is written first; the list of pictures is always taken at the start -/
def mainFirst : Moments := { media := 0, rels := 10, body := 10, item := fun _ => 10 }

/-- Without a mutex C89 fails: the saved main part can refer to a relationship that the saved table does not
hold, though all references of the document resolve before and after every step. -/
theorem C89_dangling : relsFirst.Real ∧
    ¬ RefsResolve (onePara.seen [.link 0 "here" "https://example.com/"] relsFirst).rels
      (mDocument (onePara.seen [.link 0 "here" "https://example.com/"] relsFirst).items) ∧
    ∀ t, RefsResolve (onePara.at [.link 0 "here" "https://example.com/"] t).rels
      (mDocument (onePara.at [.link 0 "here" "https://example.com/"] t).items) := by
  refine ⟨⟨by decide, by decide, by decide, fun _ => Nat.le_refl _, .inl (by decide)⟩, by decide +kernel, fun t => ?_⟩
  refine resolve_iff.2 ((at_mono _ _ (Nat.zero_le t)).resolves (resolve_iff.1 ?_))
  rw [at_zero]
  decide +kernel

/-- Without a mutex the saved package can lack a picture that its relationships lead to, whichever part is
written first. -/
theorem C89_picture_missing : mainFirst.Real ∧
    (∃ r ∈ (onePara.seen [.inline 0 []] mainFirst).rels, r.type = relImage ∧
      ∀ m ∈ (onePara.seen [.inline 0 []] mainFirst).media, r.target ≠ "media/" ++ m.name) ∧
    (onePara.at [.inline 0 []] 10).media ≠ [] := by
  refine ⟨⟨by decide, by decide, by decide, fun _ => Nat.le_refl _, .inr fun _ => Nat.le_refl _⟩, ?_, ?_⟩ <;>
    decide +kernel

/-- A save that begins during `AddLink` and ends after `AddText`: the link is complete in the saved file, the
text is there too; the hypotheses of `C89_between` and `C89_document_first` are met. -/
example :
    let as : List Add := [.link 0 "here" "https://example.com/", .paragraph, .text 1 "more"]
    let m : Moments := { media := 1, rels := 5, body := 4, item := fun i => 4 + min i 1 }
    m.Real ∧ (∀ i, m.item i ≤ m.rels) ∧ RefsResolve onePara.rels (mDocument onePara.items) ∧
      refsOf (mDocument (onePara.seen as m).items) = ["rId4"] ∧ (onePara.seen as m).items.length = 2 := by
  refine ⟨⟨by decide, by decide, by decide, fun i => ?_, .inr fun i => ?_⟩, fun i => ?_, ?_, ?_, ?_⟩
  · show 4 + min i 1 ≤ 4 + min (i + 1) 1; omega
  · show 4 + min i 1 ≤ 5; omega
  · show 4 + min i 1 ≤ 5; omega
  all_goals decide +kernel

/-- The hypothesis of `C89_guarded` is met: all three calls succeed. -/
example : (match run [onePara] (([.link 0 "here" "u", .paragraph, .inline 1 []] : List Add).map Add.op) with
    | .ok [f] => f.items.length == 2 && f.rels.length == 5 && f.media.length == 1
    | _ => false) = true := by decide +kernel

end Docx
