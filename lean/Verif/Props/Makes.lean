import Verif.SpecMakes
import Verif.SpecFrames
import Verif.Props.Built
import Verif.Props.Tool
import Verif.Props.Pieces

/-!
# C99: programs that build, open and join documents
-/

set_option linter.unusedSectionVars false

namespace Docx

/-! ## Pictures stay -/

theorem media_target {t : String} (h : "media/".toList.isPrefixOf t.toList = true) :
    t = "media/" ++ String.ofList (t.toList.drop 6) := by
  have htl : t.toList = "media/".toList ++ t.toList.drop 6 := by
    obtain ⟨s, hs⟩ := List.isPrefixOf_iff_prefix.1 h
    rw [← hs, show (6 : Nat) = "media/".toList.length from rfl, List.drop_left]
  apply String.toList_inj.1
  refine htl.trans ?_
  rw [String.toList_append]
  exact congrArg ("media/".toList ++ ·) String.toList_ofList.symm

theorem pictureData_iff {f : Doc} {id : String} {data : Bytes} :
    f.pictureData id = some data ↔ ServesPicture f id data := by
  unfold Doc.pictureData
  constructor
  · intro h
    cases ht : f.referTarget id with
    | none => rw [ht] at h; cases h
    | some t =>
      rw [ht] at h
      dsimp only at h
      split at h
      · rename_i hp
        have e := media_target hp
        generalize String.ofList (t.toList.drop 6) = name at h e
        subst e
        cases hm : f.getMedia name with
        | err e => rw [hm] at h; cases h
        | panic => rw [hm] at h; cases h
        | ok o =>
          rw [hm] at h
          cases o with
          | none => cases h
          | some m => exact ⟨name, m, ht, hm, Option.some.inj h⟩
      · cases h
  · rintro ⟨name, m, h1, h2, h3⟩
    rw [h1]
    dsimp only
    rw [String.toList_append, if_pos (List.isPrefixOf_iff_prefix.2 (List.prefix_append _ _)),
      show (6 : Nat) = "media/".toList.length from rfl, List.drop_left, String.ofList_toList, h2, ← h3]

theorem pictureData_evo {f g : Doc} (h : Sane f) (e : Evo f g) (hl : g.rels.length < 2 ^ 62) {id : String}
    {data : Bytes} (hd : f.pictureData id = some data) : g.pictureData id = some data := by
  rw [pictureData_iff] at hd ⊢
  obtain ⟨name, m, h1, h2, h3⟩ := hd
  refine ⟨name, m, e.resolves h1, lookup_stays e name m ?_ h2 (sane_room h e hl).media, h3⟩
  intro n fmt hn hne
  obtain ⟨hm, rfl⟩ := Evo.idxOK_getMedia (fun name => getMedia_of_idxOK h.idx name) h2
  exact h.fresh m hm n fmt hn hne

/-! ## What a copy shows -/

/-- Copies from the document `s` at `src` to `T` at `to` show the same, in frames of the same sizes. -/
def viewRules (src : DocId) (s : Doc) (to : DocId) (T : Doc) : CopyRules where
  draw := fun d d' => viewPiece s.pictureData (.drawing d) ≠ .other → HomePiece src (.drawing d) →
    viewPiece T.pictureData (.drawing d') = viewPiece s.pictureData (.drawing d) ∧ HomePiece to (.drawing d') ∧
      pieceFrames (.drawing d') = (pieceFrames (.drawing d)).map PicFrame.copied
  link := fun file id id' => file = some src → ∀ tgt, s.referTarget id = some tgt → T.referTarget id' = some tgt
  drop := fun file id => file = some src → s.referTarget id = none

section
variable {w : World} {to src : DocId} {t s T : Doc}

/-- A graphic that shows something is a picture with bytes or a shape. -/
theorem viewGraphic_cases {M : String → Option Bytes} {b : Bool} {g : Option Graphic} (h : viewGraphic M b g ≠ .other) :
    (∃ xa uri pic bf data, g = some ⟨xa, some ⟨uri, some pic, none, none, none⟩⟩ ∧ pic.blipFill = some bf ∧
      M bf.blip.embed = some data ∧ viewGraphic M b g = .picture b data) ∨
    (∃ gr, g = some gr ∧ ShowsShape gr ∧ isPic g = false ∧ ∀ M', viewGraphic M' b g = viewGraphic M b g) := by
  rcases g with _ | ⟨xa, _ | ⟨uri, _ | pic, _ | sh, _ | ca, _ | gr⟩⟩ <;>
    first
    | exact absurd rfl h
    | skip
  · refine .inr ⟨_, rfl, ⟨_, rfl, rfl, .inl (by simp)⟩, rfl, fun M' => rfl⟩
  · refine .inl ?_
    obtain ⟨xp, nv, bf, sp⟩ := pic
    cases bf with
    | none => exact absurd rfl h
    | some bf =>
      simp only [viewGraphic] at h ⊢
      cases hm : M bf.blip.embed with
      | none => rw [hm] at h; exact absurd rfl h
      | some data => exact ⟨_, _, _, bf, data, rfl, rfl, hm, rfl⟩

/-- The parts of the frame of the copy of a picture -/
theorem copied_inside {g : Option Graphic} {xa uri : String} {pic pic' : Picture}
    (hg : g = some ⟨xa, some ⟨uri, some pic, none, none, none⟩⟩) (hs : SamePicture pic pic') :
    shapeInside (some ⟨xa, some ⟨uri, some pic', none, none, none⟩⟩) = shapeInside g ∧
    innerSize (some ⟨xa, some ⟨uri, some pic', none, none, none⟩⟩) = innerSize g ∧
    alphaInside (some ⟨xa, some ⟨uri, some pic', none, none, none⟩⟩) = none := by
  subst hg
  obtain ⟨h1, _, bf, bf', _, h2, _, _, h3, _⟩ := hs
  simp [shapeInside, innerSize, alphaInside, h1, h2, h3]

/-- What is no picture has no transparency -/
theorem alpha_shape {g : Option Graphic} (h : isPic g = false) : alphaInside g = none := by
  rcases g with _ | ⟨xa, _ | ⟨uri, _ | pic, sh, ca, gr⟩⟩ <;> first | rfl | cases h

theorem view_obeys (hu : ∀ t2, w[to]? = some t2 → t2 = t) (hs : w[src]? = some s) (hsane : Sane t) (hr : Room t T) :
    Obeys (viewRules src s to T) to (After w to t) (Before to T) where
  fwd := After.fwd
  bwd := Before.bwd
  link := by
    intro v file id tgt sd td hP hb hres htd hF hfile tgt0 h0
    obtain ⟨tgt1, h1, h2⟩ := (link_obeys hu hsane.ahead hr).link hP hb hres htd hF
    rw [h1, h2 tgt0 (by rw [hfile, resolve_some hs]; exact h0)]
  drop := by
    intro v file id sd hP hF hb hres hfile
    have := (link_obeys hu hsane.ahead hr).drop hP hF hb hres
    have : w.resolve file id = none := this
    rwa [hfile, resolve_some hs] at this
  draw := by
    intro v v1 d d' h hP hF hk hh
    have hrule := (picture_obeys hu hsane.ahead hr).draw h hP hF
    have hown : NamesAhead t ∧ MediaFound t := ⟨hsane.fresh, fun name => getMedia_of_idxOK hsane.idx name⟩
    have hpic : ∀ {id data}, s.pictureData id = some data → HasPicture w (some src) id data := by
      intro id data hd
      exact serves_has hs (pictureData_iff.1 hd)
    have hnone : ∀ {v v1 : World} {pic : Picture} {bf : BlipFill} {c}, pic.blipFill = some bf →
        copyPic v to none pic = .ok (v1, c) → False := by
      intro v v1 pic bf c hb hc
      simp [copyPic, hb] at hc
    rcases d with ⟨_ | i, _ | a⟩
    · exact absurd rfl hk
    · rcases viewGraphic_cases hk with ⟨xa, uri, pic, bf, data, hg, hb, hm, hv⟩ | ⟨gr, hg, hsh, hnp, hv⟩
      · have hfile : a.file = some src := by
          rcases hh.2 a rfl (by rw [hg]; rfl) with hf | hf
          · exfalso
            simp only [Drawing.copymedia, Anchor.copymedia, hg, hf] at h
            obtain ⟨x, h1, _⟩ := Res.bind_eq_ok.1 h
            obtain ⟨⟨v2, c⟩, h2, _⟩ := Res.bind_eq_ok.1 h1
            exact hnone hb h2
          · exact hf
        obtain ⟨dp, g', rfl, gd, pic0, pic', bf', e1, e2, rfl, hsame, hb', hsv⟩ := hrule.2.1 a _ data rfl rfl hg
          ⟨_, _, _, rfl, rfl, hb, hfile ▸ hpic hm⟩ (fun _ => hown)
        cases e1
        refine ⟨?_, ⟨fun _ hx => (by cases hx), fun a' ha' _ => ?_⟩, ?_⟩
        · rw [show viewPiece s.pictureData (.drawing ⟨none, some a⟩) = .picture false data from hv]
          simp only [viewPiece, viewGraphic, hb', pictureData_iff.2 hsv]
        · cases ha'; exact .inr rfl
        · cases e2; obtain ⟨j1, j2, j3⟩ := copied_inside hg hsame
          simp only [pieceFrames, Option.map_none, Option.map_some, Option.toList_none, Option.toList_some,
            List.nil_append, List.map_cons, List.map_nil, anchorFrame, PicFrame.copied, j1, j2, j3]
      · have e := hrule.2.2.2.1 a gr rfl rfl hg hsh
        subst e
        refine ⟨hv _, ⟨fun _ hx => (by cases hx), fun a' ha' hp => ?_⟩,
          by simp [pieceFrames, anchorFrame, PicFrame.copied, alpha_shape hnp]⟩
        cases ha'
        rw [hnp] at hp; cases hp
    · rcases viewGraphic_cases hk with ⟨xa, uri, pic, bf, data, hg, hb, hm, hv⟩ | ⟨gr, hg, hsh, hnp, hv⟩
      · have hfile : i.file = some src := by
          rcases hh.1 i rfl (by rw [hg]; rfl) with hf | hf
          · exfalso
            simp only [Drawing.copymedia, Inline.copymedia, hg, hf] at h
            obtain ⟨x, h1, _⟩ := Res.bind_eq_ok.1 h
            obtain ⟨⟨v2, c⟩, h2, _⟩ := Res.bind_eq_ok.1 h1
            exact hnone hb h2
          · exact hf
        obtain ⟨dp, g', rfl, gd, pic0, pic', bf', e1, e2, rfl, hsame, hb', hsv⟩ := hrule.1 i _ data rfl hg
          ⟨_, _, _, rfl, rfl, hb, hfile ▸ hpic hm⟩ (fun _ => hown)
        cases e1
        refine ⟨?_, ⟨fun a' ha' _ => ?_, fun _ hx => (by cases hx)⟩, ?_⟩
        · rw [show viewPiece s.pictureData (.drawing ⟨some i, none⟩) = .picture true data from hv]
          simp only [viewPiece, viewGraphic, hb', pictureData_iff.2 hsv]
        · cases ha'; exact .inr rfl
        · cases e2; obtain ⟨j1, j2, j3⟩ := copied_inside hg hsame
          simp only [pieceFrames, Option.map_none, Option.map_some, Option.toList_none, Option.toList_some,
            List.append_nil, List.map_cons, List.map_nil, inlineFrame, PicFrame.copied, j1, j2, j3]
      · have e := hrule.2.2.1 i gr rfl hg hsh
        subst e
        refine ⟨hv _, ⟨fun a' ha' hp => ?_, fun _ hx => (by cases hx)⟩,
          by simp [pieceFrames, inlineFrame, PicFrame.copied, alpha_shape hnp]⟩
        cases ha'
        rw [hnp] at hp; cases hp
    · exact absurd rfl hk

theorem view_pieces {cs cs' : List RChild} (h : Each (RChildCopied (viewRules src s to T)) cs cs')
    (hk : Bit.other ∉ cs.map (viewPiece s.pictureData)) (hh : ∀ c ∈ cs, HomePiece src c) :
    cs'.map (viewPiece T.pictureData) = cs.map (viewPiece s.pictureData) ∧ ∀ c ∈ cs', HomePiece to c := by
  induction h with
  | nil => exact ⟨rfl, by simp⟩
  | @cons c c' cs cs' hc _ ih =>
    simp only [List.map_cons, List.mem_cons, not_or] at hk
    obtain ⟨i1, i2⟩ := ih hk.2 fun x hx => hh x (.tail _ hx)
    have key : viewPiece T.pictureData c' = viewPiece s.pictureData c ∧ HomePiece to c' := by
      cases c with
      | drawing d =>
        obtain ⟨d', rfl, h⟩ := hc
        obtain ⟨h1, h2, _⟩ := h (Ne.symm hk.1) (hh _ (.head _))
        exact ⟨h1, h2⟩
      | text x => have e : c' = .text x := hc; subst e; exact ⟨rfl, trivial⟩
      | tab x => have e : c' = .tab x := hc; subst e; exact ⟨rfl, trivial⟩
      | br x => have e : c' = .br x := hc; subst e; exact ⟨rfl, trivial⟩
    refine ⟨by rw [List.map_cons, List.map_cons, key.1, i1], fun x hx => ?_⟩
    rcases List.mem_cons.1 hx with rfl | hx
    · exact key.2
    · exact i2 x hx

theorem view_para {p p' : Para} (h : ParaCopied (viewRules src s to T) to p p') (ho : OwnPara src p)
    (hk : Bit.other ∉ viewPara s.referTarget s.pictureData p) :
    viewPara T.referTarget T.pictureData p' = viewPara s.referTarget s.pictureData p ∧ OwnPara to p' := by
  obtain ⟨_, h2, h3⟩ := h
  obtain ⟨o1, o2⟩ := ho
  rw [o1] at h3
  suffices hc : viewPara T.referTarget T.pictureData p' = viewPara s.referTarget s.pictureData p ∧
      ∀ c ∈ p'.children, HomeChild to c from ⟨hc.1, h2, hc.2⟩
  unfold viewPara at hk ⊢
  generalize p.children = cs at *
  generalize p'.children = cs' at *
  induction h3 with
  | nil => exact ⟨rfl, by simp⟩
  | @run r r' cs cs' hr _ ih =>
    rw [List.flatMap_cons, List.mem_append, not_or] at hk
    obtain ⟨i1, i2⟩ := ih hk.2 (fun c hc => o2 c (.tail _ hc))
    obtain ⟨r1, r2, r3, r4⟩ := hr
    have hk1 := hk.1
    simp only [viewChild] at hk1
    by_cases e : r.instr = ""
    · rw [if_pos e] at hk1
      obtain ⟨j1, j2⟩ := view_pieces r4 hk1 (o2 _ (.head _))
      refine ⟨?_, fun c hc => ?_⟩
      · rw [List.flatMap_cons, List.flatMap_cons, i1]
        simp only [viewChild, r3, if_pos e, j1]
      · rcases List.mem_cons.1 hc with rfl | hc
        · exact j2
        · exact i2 c hc
    · rw [if_neg e] at hk1
      simp at hk1
  | @link k k' cs cs' hl hr _ ih =>
    rw [List.flatMap_cons, List.mem_append, not_or] at hk
    obtain ⟨i1, i2⟩ := ih hk.2 (fun c hc => o2 c (.tail _ hc))
    obtain ⟨r1, r2, r3, r4⟩ := hr
    have hk1 := hk.1
    simp only [viewChild] at hk1
    refine ⟨?_, fun c hc => ?_⟩
    · rw [List.flatMap_cons, List.flatMap_cons, i1]
      congr 1
      simp only [viewChild]
      cases hres : s.referTarget k.id with
      | none => rw [hres] at hk1; simp at hk1
      | some tgt =>
        rw [hl rfl tgt hres, r3]
        cases hcs : k.run.children with
        | nil =>
          rw [hcs] at r4
          generalize k'.run.children = l at r4 ⊢
          cases r4
          rfl
        | cons c cs => rw [hres, hcs] at hk1; simp at hk1
    · rcases List.mem_cons.1 hc with rfl | hc
      · trivial
      · exact i2 c hc
  | @dropped k cs cs' hd _ ih =>
    rw [List.flatMap_cons, List.mem_append, not_or] at hk
    have hk1 := hk.1
    simp only [viewChild, hd rfl] at hk1
    simp at hk1
  | @rpr x cs cs' _ ih =>
    rw [List.flatMap_cons, List.mem_append, not_or] at hk
    exact absurd (by simp [viewChild]) hk.1

theorem each_view {α β : Type} {P : α → α → Prop} {f g : α → β} {Own : α → Prop} {as bs : List α} (h : Each P as bs)
    (hp : ∀ a ∈ as, ∀ b, P a b → f b = g a ∧ Own b) : bs.map f = as.map g ∧ ∀ b ∈ bs, Own b := by
  induction h with
  | nil => exact ⟨rfl, by simp⟩
  | cons hab _ ih =>
    obtain ⟨i1, i2⟩ := ih fun a ha b => hp a (.tail _ ha) b
    obtain ⟨j1, j2⟩ := hp _ (.head _) _ hab
    refine ⟨by rw [List.map_cons, List.map_cons, i1, j1], fun x hx => ?_⟩
    rcases List.mem_cons.1 hx with rfl | hx
    · exact j2
    · exact i2 x hx

theorem view_item {x x' : BItem} (h : ItemCopied (viewRules src s to T) to x x') (ho : OwnItem src x)
    (hk : KnownBlock (viewItem s.referTarget s.pictureData x)) :
    viewItem T.referTarget T.pictureData x' = viewItem s.referTarget s.pictureData x ∧ OwnItem to x' := by
  cases x with
  | para p =>
    obtain ⟨p', rfl, h⟩ := h
    obtain ⟨h1, h2⟩ := view_para h ho hk
    exact ⟨by simp only [viewItem, h1], h2⟩
  | sect c =>
    have e : x' = .sect c := h
    subst e
    refine ⟨?_, trivial⟩
    rcases c with ⟨_ | s, _ | m, _ | c, _ | d⟩ <;> rfl
  | table b =>
    obtain ⟨b', rfl, _, _, h⟩ := h
    obtain ⟨h1, h2⟩ := each_view (f := fun r : Row => r.cells.map fun c => c.paras.map (viewPara T.referTarget T.pictureData))
      (g := fun r : Row => r.cells.map fun c => c.paras.map (viewPara s.referTarget s.pictureData))
      (Own := fun r : Row => ∀ c ∈ r.cells, c.file = some to ∧ ∀ p ∈ c.paras, OwnPara to p) h fun r hr r' hrr => by
        refine each_view (f := fun c : Cell => c.paras.map (viewPara T.referTarget T.pictureData))
          (g := fun c : Cell => c.paras.map (viewPara s.referTarget s.pictureData))
          (Own := fun c : Cell => c.file = some to ∧ ∀ p ∈ c.paras, OwnPara to p) hrr.2 fun c hc c' hcc => ?_
        obtain ⟨l1, l2⟩ := each_view (f := viewPara T.referTarget T.pictureData) (g := viewPara s.referTarget s.pictureData)
          (Own := OwnPara to) hcc.2.2 fun p hp p' hpp => view_para hpp ((ho r hr c hc).2 p hp)
            (hk _ (List.mem_map_of_mem hr) _ (List.mem_map_of_mem hc) _ (List.mem_map_of_mem hp))
        exact ⟨l1, hcc.2.1, l2⟩
    exact ⟨by simp only [viewItem, h1], h2⟩

end

section
variable [GoEnv] [ImgEnv] {Q : String → Prop}

/-- `AppendFile` -/
theorem built_append {w w' : World} {to src : DocId} {t s : Doc} {bt bs : List Block}
    (ht : w[to]? = some t) (hs : w[src]? = some s) (bT : BuiltUp Q to t bt) (bS : BuiltUp Q src s bs)
    (h : w.appendFile to src = .ok w') (hl : ∀ f ∈ w', f.rels.length < 2 ^ 62) :
    ∃ T, w' = w.set to T ∧ BuiltUp (fun _ => True) to T (bt ++ bs) ∧
      ∃ copies, T.items = t.items ++ copies ∧ Each (ItemCopied (viewRules src s to T) to) s.items copies := by
  obtain ⟨T, hT, e⟩ := appendFile_evo h ht
  have g1 : Grow to w w' := by
    unfold World.appendFile at h
    split at h
    · cases h
    · exact appendItems_grow h
  have hlT := hl T (List.mem_of_getElem? hT)
  have hlt : t.rels.length < 2 ^ 62 := by have := e.rels_le; omega
  have hsane := bT.sane hlt
  have hr := sane_room hsane e hlT
  obtain ⟨T', copies, hT', hi, hc⟩ := append_full ht hs h (R := fun T => viewRules src s to T)
    (F := fun T => Before to T) (fun T' hT' => by
      obtain rfl := Option.some.inj (hT.symm.trans hT')
      exact ⟨⟨T, hT, .refl T⟩, view_obeys (unique_at ht) hs hsane hr⟩)
  obtain rfl := Option.some.inj (hT.symm.trans hT')
  obtain ⟨v1, v2⟩ := each_view (f := viewItem T.referTarget T.pictureData) (g := viewItem s.referTarget s.pictureData)
    (Own := OwnItem to) hc fun x hx x' hxx => view_item hxx (bS.own x hx) (bS.known _ (by
      rw [← bS.shows]; exact List.mem_map_of_mem hx))
  have htlt := lt_of_getElem? ht
  refine ⟨T, ?_, ⟨fun _ => sane_evo hsane e hlT, ?_, ?_, ?_, fun _ _ => trivial⟩, copies, hi, hc⟩
  · apply List.ext_getElem?
    intro d
    by_cases hd : d = to
    · subst hd
      rw [hT, List.getElem?_set_self htlt]
    · rw [g1.other d hd, List.getElem?_set_ne (Ne.symm hd)]
  · show T.items.map _ = _
    rw [hi, List.map_append, v1]
    rw [view_grows (R := t.referTarget) (M := t.pictureData) (fun id tg => e.resolves)
      (fun id d => pictureData_evo hsane e hlT) (by have := bT.known; rw [← bT.shows] at this; exact this)]
    rw [← bT.shows, ← bS.shows]
    rfl
  · intro b hb
    rcases List.mem_append.1 hb with hb | hb
    · exact bT.known b hb
    · exact bS.known b hb
  · intro x hx
    rw [hi] at hx
    rcases List.mem_append.1 hx with hx | hx
    · exact bT.own x hx
    · exact v2 x hx

theorem each_get {α β : Type} {P : α → β → Prop} {as : List α} {bs : List β} (h : Each P as bs) :
    ∀ (k : Nat) b, bs[k]? = some b → ∃ a, as[k]? = some a ∧ P a b := by
  induction h with
  | nil => intro k b hb; simp at hb
  | @cons a b as bs hab _ ih =>
    intro k x hx
    cases k with
    | zero => simp at hx; subst hx; exact ⟨a, rfl, hab⟩
    | succ k => simpa using ih k x (by simpa using hx)

theorem sane_split (f : Doc) : Sane (splitDoc f) where
  ahead := split_ahead f
  idx := base_idxOK (base_split f)
  fresh := fun m hm => by cases hm
  rid := show (3 : UInt64).toNat ≤ 2 ^ 62 + 3 by decide
  img := show (0 : UInt64).toNat ≤ 2 ^ 62 + 3 by decide

theorem pieces_image {α β : Type} (f : α → β) (sep : β → Bool) : ∀ l : List α,
    (pieces (fun x => sep (f x)) l).map (·.map f) = pieces sep (l.map f)
  | [] => rfl
  | x :: xs => by
    have ih := pieces_image f sep xs
    rw [List.map_cons, pieces, pieces, ← ih]
    rcases pieces (fun x => sep (f x)) xs with _ | ⟨_ | ⟨y, c⟩, cs⟩
    · rfl
    · rfl
    · simp only [List.map_cons]
      split <;> rfl

/-- `SplitByParagraph` -/
theorem built_split {w w' : World} {d : DocId} {f : Doc} {bs : List Block} {sep : World → Para → Res Bool}
    {q : List Bit → Bool} {ds : List DocId} (hf : w[d]? = some f) (hb : BuiltUp Q d f bs)
    (hq : ∀ p v, .para p ∈ f.items → Keeps w v → sep v p = .ok (q (viewPara f.referTarget f.pictureData p)))
    (h : w.splitByParagraph d sep = .ok (w', ds)) (hl : ∀ f ∈ w', f.rels.length < 2 ^ 62) :
    Keeps w w' ∧ w'.length = w.length + (pieces (Block.accepted q) bs).length ∧
      ds = List.range' w.length (pieces (Block.accepted q) bs).length ∧
      ∀ k T, w'[w.length + k]? = some T → ∃ b, (pieces (Block.accepted q) bs)[k]? = some b ∧
        BuiltUp (fun _ => True) (w.length + k) T b ∧
        ∃ c, (pieces (fun x => Block.accepted q (viewItem f.referTarget f.pictureData x)) f.items)[k]? = some c ∧
          Each (ItemCopied (viewRules d f (w.length + k) T) (w.length + k)) c T.items := by
  unfold World.splitByParagraph at h
  simp only [hf] at h
  obtain ⟨chunks, nds, h1, h2, h3, h4, h5, h6, h7⟩ :=
    splitLoop_copied (R := fun nd t' => viewRules d f nd t') (Good := fun t' => t'.rels.length < 2 ^ 62)
      (fun nd t' hn e hg => view_obeys (fun t ht => by have := lt_of_getElem? ht; omega) hf
        (sane_split f)
        (split_room e (by omega))) h (.refl w) (Nat.le_refl _)
  simp only [List.nil_append] at h1
  subst h1
  have hch0 : pieces (fun x => Block.accepted q (viewItem f.referTarget f.pictureData x)) f.items = chunks := by
    have hsaid : ∀ p b, .para p ∈ f.items → Said sep (Keeps w) b (.para p) →
        q (viewPara f.referTarget f.pictureData p) = b := by
      rintro p b hp ⟨p', w1, e, hk, hs⟩
      simp only [BItem.para.injEq] at e
      subst e
      rw [hq p w1 hp hk] at hs
      exact Res.ok.inj hs
    refine pieces_unique _ _ _ h2 ?_ ?_ ?_
    · intro c hc
      obtain ⟨nd, _, hn⟩ := each_left h6 c hc
      exact hn.nonempty
    · intro c hc
      obtain ⟨p, tl, rfl, hs⟩ := h7 c hc
      refine ⟨_, _, rfl, hsaid p true ?_ hs⟩
      rw [← h2]
      exact List.mem_flatten.2 ⟨_, List.mem_of_mem_tail hc, .head _⟩
    · intro c hc x hx
      obtain ⟨nd, _, hn⟩ := each_left h6 c hc
      cases x with
      | para p =>
        refine hsaid p false ?_ (hn.said p hx)
        rw [← h2]
        exact List.mem_flatten.2 ⟨_, hc, List.mem_of_mem_tail hx⟩
      | table t => rfl
      | sect s => rcases s with ⟨_ | s, _ | m, _ | c, _ | d⟩ <;> rfl
  have hpc : pieces (Block.accepted q) bs = chunks.map (·.map (viewItem f.referTarget f.pictureData)) := by
    rw [← hch0, pieces_image, ← hb.shows]
    rfl
  have hlen : (pieces (Block.accepted q) bs).length = ds.length := by
    rw [hpc, List.length_map]
    exact each_lengths h6
  refine ⟨h3, by rw [hlen]; exact h5, by rw [hlen]; exact h4, fun k T hT => ?_⟩
  have hk : k < ds.length := by
    have := lt_of_getElem? hT
    omega
  have hnd : ds[k]? = some (w.length + k) := by
    rw [h4, List.getElem?_range' (by simpa using hk)]
    simp
  obtain ⟨c, hc, hch⟩ := each_get h6 k _ hnd
  refine ⟨c.map (viewItem f.referTarget f.pictureData), by rw [hpc, List.getElem?_map, hc]; rfl, ?_⟩
  obtain ⟨T', hT', e, _, hcp⟩ := hch.doc
  obtain rfl := Option.some.inj (hT.symm.trans hT')
  have hlT := hl T (List.mem_of_getElem? hT)
  have hmem : ∀ x ∈ c, x ∈ f.items := fun x hx => by
    rw [← h2]; exact List.mem_flatten.2 ⟨c, List.mem_of_getElem? hc, hx⟩
  have hkn : ∀ x ∈ c, KnownBlock (viewItem f.referTarget f.pictureData x) := fun x hx => hb.known _ (by
    rw [← hb.shows]; exact List.mem_map_of_mem (hmem x hx))
  obtain ⟨v1, v2⟩ := each_view (f := viewItem T.referTarget T.pictureData) (g := viewItem f.referTarget f.pictureData)
    (Own := OwnItem (w.length + k)) (hcp hlT) fun x hx x' hxx => view_item hxx (hb.own x (hmem x hx)) (hkn x hx)
  refine ⟨⟨fun _ => sane_evo ?_ e hlT, v1, ?_, v2, fun _ _ => trivial⟩, c, by rw [hch0]; exact hc, hcp hlT⟩
  · exact sane_split f
  · intro b hb'
    obtain ⟨x, hx, rfl⟩ := List.mem_map.1 hb'
    exact hkn x hx

/-! ## Opened documents -/

theorem kept_ownPara {me : DocId} {p : Para} (h : keptPara (some me) p) : OwnPara me p := by
  obtain ⟨pr, cs, f⟩ := p
  rw [keptPara] at h
  obtain ⟨_, h, hf⟩ := h
  refine ⟨hf, ?_⟩
  show ∀ c ∈ cs, _
  clear hf
  induction cs with
  | nil => simp
  | cons c cs ih =>
    rw [keptPChildren] at h
    intro x hx
    rcases List.mem_cons.1 hx with rfl | hx
    · cases x with
      | run r =>
        obtain ⟨sp, rp, ins, rc⟩ := r
        have h1 := h.1
        rw [keptPChild, keptRun] at h1
        show ∀ c ∈ rc, _
        clear ih h hx
        induction rc with
        | nil => simp
        | cons y ys ih =>
          rw [keptRChildren] at h1
          intro z hz
          rcases List.mem_cons.1 hz with rfl | hz
          · cases z with
            | drawing d =>
              obtain ⟨i, a⟩ := d
              have h2 := h1.1
              rw [keptRChild, keptDrawing] at h2
              refine ⟨fun i' hi _ => ?_, fun a' ha _ => ?_⟩
              · have hi : i = some i' := hi
                subst hi
                have := h2.1
                rw [keptInlineO] at this
                cases i'
                rw [keptInline] at this
                exact .inr this.2
              · have ha : a = some a' := ha
                subst ha
                have := h2.2
                rw [keptAnchorO] at this
                cases a'
                rw [keptAnchor] at this
                exact .inr this.2
            | _ => trivial
          · exact ih h1.2 z hz
      | _ => trivial
    · exact ih h.2 x hx

theorem kept_ownItem {me : DocId} {x : BItem} (h : keptItem (some me) x) : OwnItem me x := by
  cases x with
  | para p => exact kept_ownPara h
  | sect s => trivial
  | table t => exact fun r hr c hc => ⟨(h.2 r hr c hc).2, fun p hp => kept_ownPara ((h.2 r hr c hc).1 p hp)⟩

theorem built_opened {me : DocId} {a : Archive} {g : Doc} (h : unpack me a = (g, none))
    (hs : ∀ r ∈ g.rels, ∀ n, IdNumber r.id n → n < 2 ^ 62) (hn : NamesAhead g) (hk : ∀ b ∈ g.shows, KnownBlock b) :
    BuiltUp (fun _ => True) me g g.shows := by
  refine ⟨fun _ => ?_, rfl, hk, fun x hx => kept_ownItem ((unpack_clean h).kept x hx), fun _ _ => trivial⟩
  have ha := (counterAhead_iff g).1 (C03_counter_ahead me a g h)
  obtain ⟨g', hg, rfl⟩ := unpack_ok h
  obtain ⟨_, _, _, b4, _⟩ := unpackAll_ok hg
  refine ⟨ha, ?_, hn, ?_, ?_⟩
  · exact b4 (fun name => by simp)
  · show g'.rID.toNat ≤ _
    rcases unpackAll_counted (.inl rfl) hg with h0 | ⟨r, hr, h0⟩
    · rw [h0]; exact Nat.zero_le _
    · have := hs r hr _ h0
      omega
  · show (100000 : UInt64).toNat ≤ _
    have : (100000 : UInt64).toNat = 100000 := rfl
    omega

/-! ## Programs -/

theorem makes_program {w : World} {s : List (List Block)} (h : Makes w s) :
    Program w ∧ w.length = s.length ∧ (∀ f ∈ w, f.rels.length < 2 ^ 62) ∧
      ∀ (d : Nat) f bs, w[d]? = some f → s[d]? = some bs → BuiltUp (fun _ => True) d f bs := by
  have push : ∀ {w : World} {s : List (List Block)} {g : Doc} {b : List Block}, w.length = s.length →
      (∀ (d : Nat) f bs, w[d]? = some f → s[d]? = some bs → BuiltUp (fun _ => True) d f bs) →
      BuiltUp (fun _ => True) w.length g b →
      ∀ (d : Nat) f bs, (w ++ [g])[d]? = some f → (s ++ [b])[d]? = some bs → BuiltUp (fun _ => True) d f bs := by
    intro w s g b hl h hb d f bs h1 h2
    rcases Nat.lt_trichotomy d w.length with hd | hd | hd
    · rw [List.getElem?_append_left hd] at h1
      rw [List.getElem?_append_left (hl ▸ hd)] at h2
      exact h d f bs h1 h2
    · subst hd
      simp at h1
      rw [hl] at h2
      simp at h2
      subst h1; subst h2
      exact hb
    · have := lt_of_getElem? h1
      simp at this
      omega
  have setAt : ∀ {w : World} {s : List (List Block)} {d : Nat} {f' : Doc} {k : List Block → List Block},
      w.length = s.length → (∀ (d : Nat) f bs, w[d]? = some f → s[d]? = some bs → BuiltUp (fun _ => True) d f bs) →
      (∀ f bs, w[d]? = some f → s[d]? = some bs → BuiltUp (fun _ => True) d f' (k bs)) →
      ∀ (e : Nat) f bs, (w.set d f')[e]? = some f → (s.modify d k)[e]? = some bs → BuiltUp (fun _ => True) e f bs := by
    intro w s d f' k hl h hb e f bs h1 h2
    rw [List.getElem?_modify] at h2
    obtain ⟨b0, hb0, hb1⟩ := Option.map_eq_some_iff.1 h2
    by_cases hde : d = e
    · subst hde
      have hlt : d < w.length := hl ▸ lt_of_getElem? hb0
      rw [List.getElem?_set_self hlt] at h1
      obtain rfl := Option.some.inj h1
      simp at hb1
      subst hb1
      exact hb _ _ (List.getElem?_eq_getElem hlt) hb0
    · rw [List.getElem?_set_ne hde] at h1
      simp [hde] at hb1
      subst hb1
      exact h e f b0 h1 hb0
  induction h with
  | start => exact ⟨.start, rfl, by simp, by simp⟩
  | @new w s _ ih =>
    obtain ⟨i1, i2, i3, i4⟩ := ih
    have hl : ∀ f ∈ w ++ [Doc.new], f.rels.length < 2 ^ 62 := by
      intro f hf
      rcases List.mem_append.1 hf with hf | hf
      · exact i3 f hf
      · rw [List.mem_singleton] at hf; subst hf; decide
    exact ⟨.call .new i1 rfl hl, by simp [i2], hl, push i2 i4 (built_none _ _)⟩
  | @opening w s a g _ hu hs hl hn hk ih =>
    obtain ⟨i1, i2, i3, i4⟩ := ih
    refine ⟨.opening a g i1 hu hs hl, by simp [i2], ?_, push i2 i4 (built_opened hu hs hn hk)⟩
    intro f hf
    rcases List.mem_append.1 hf with hf | hf
    · exact i3 f hf
    · rw [List.mem_singleton] at hf; subst hf; exact hl
  | @call w s w' d c _ hs hl ih =>
    obtain ⟨i1, i2, i3, i4⟩ := ih
    have hd : d < w.length := by
      apply Classical.byContradiction
      intro hd
      have hnone : w[d]? = none := List.getElem?_eq_none (Nat.le_of_not_lt hd)
      cases c with
      | picture b l p => cases b <;> simp [Call.op, step, World.onPara, hnone] at hs
      | shape b l x y n m k ln => cases b <;> simp [Call.op, step, World.onPara, hnone] at hs
      | _ => simp [Call.op, step, World.onPara, World.onDoc, hnone] at hs
    have hw := List.getElem?_eq_getElem hd
    obtain ⟨f', rfl, hb⟩ := built_step (i4 d _ _ hw (List.getElem?_eq_getElem (i2 ▸ hd)))
      (fun g hg => hl g (List.mem_of_getElem? hg)) (fun _ _ _ _ _ _ => trivial) hw hs
    refine ⟨.call _ i1 hs hl, by simp [i2], hl, setAt i2 i4 ?_⟩
    intro f bs h1 h2
    rw [List.getElem?_eq_getElem (i2 ▸ hd)] at h2
    obtain rfl := Option.some.inj h2
    exact hb
  | @append w s w' to src _ hs hl ih =>
    obtain ⟨i1, i2, i3, i4⟩ := ih
    have hs' := hs
    simp only [step] at hs'
    cases hto : w[to]? with
    | none => rw [hto] at hs'; cases hs'
    | some t =>
      rw [hto] at hs'
      dsimp only at hs'
      cases hsrc : w[src]? with
      | none => simp [World.appendFile, hsrc] at hs'
      | some sd =>
        have h1 := List.getElem?_eq_getElem (l := s) (i := to) (i2 ▸ lt_of_getElem? hto)
        have h2 := List.getElem?_eq_getElem (l := s) (i := src) (i2 ▸ lt_of_getElem? hsrc)
        obtain ⟨T, rfl, hb, _⟩ := built_append hto hsrc (i4 to _ _ hto h1) (i4 src _ _ hsrc h2) hs' hl
        refine ⟨.call _ i1 hs hl, by simp [i2], hl, setAt i2 i4 ?_⟩
        intro f bs h3 h4
        rw [h1] at h4
        obtain rfl := Option.some.inj h4
        rw [h2]
        exact hb
  | @split w s w' d sep q _ hs hq hl ih =>
    obtain ⟨i1, i2, i3, i4⟩ := ih
    have hs' := hs
    simp only [step] at hs'
    split at hs'
    · rename_i w1 ds hsp
      cases hs'
      cases hd : w[d]? with
      | none => simp [World.splitByParagraph, hd] at hsp
      | some f =>
        obtain ⟨b0, hsd⟩ : ∃ b0, s[d]? = some b0 :=
          ⟨_, List.getElem?_eq_getElem (l := s) (i := d) (i2 ▸ lt_of_getElem? hd)⟩
        obtain ⟨k1, k2, _, k4⟩ := built_split hd (i4 d _ _ hd hsd) (fun p v hp hv => hq f p v hd hp hv) hsp hl
        rw [hsd]
        refine ⟨.call _ i1 hs hl, by rw [k2, List.length_append, i2]; rfl, hl, fun e g bs h1 h2 => ?_⟩
        by_cases he : e < w.length
        · rw [List.getElem?_append_left (i2 ▸ he)] at h2
          have h3 := List.getElem?_eq_getElem he
          obtain rfl := Option.some.inj ((k1 e _ h3).symm.trans h1)
          exact i4 e _ bs h3 h2
        · obtain ⟨k, rfl⟩ := Nat.exists_eq_add_of_le (Nat.le_of_not_lt he)
          obtain ⟨b, hb1, hb2, _⟩ := k4 k g h1
          rw [i2, List.getElem?_append_right (Nat.le_add_right _ _), Nat.add_sub_cancel_left] at h2
          obtain rfl := Option.some.inj (hb1.symm.trans h2)
          exact hb2
    · cases hs'
    · cases hs'
  | @template w s w' d t l tf _ hs ih =>
    obtain ⟨i1, i2, i3, i4⟩ := ih
    have hs' := hs
    simp only [step, World.onDoc] at hs'
    cases hd : w[d]? with
    | none => rw [hd] at hs'; cases hs'
    | some f =>
      rw [hd] at hs'
      obtain rfl : w.set d (f.useTemplate t l tf) = w' := by simpa using hs'
      have hl : ∀ g ∈ w.set d (f.useTemplate t l tf), g.rels.length < 2 ^ 62 := by
        intro g hg
        rcases List.mem_or_eq_of_mem_set hg with hg | rfl
        · exact i3 g hg
        · exact i3 f (List.mem_of_getElem? hd)
      refine ⟨.call _ i1 hs hl, by simp [i2], hl, ?_⟩
      intro e g bs h1 h2
      refine setAt (k := id) i2 i4 ?_ e g bs h1 (by rw [List.modify_id]; exact h2)
      intro f0 b0 h3 h4
      obtain rfl := Option.some.inj (hd.symm.trans h3)
      have hb := i4 d f b0 hd h4
      exact ⟨fun hl => sane_evo (hb.sane hl) (.template t l tf (.refl f)) hl, hb.shows, hb.known, hb.own, hb.names⟩

/-- **C99, in memory.** A program makes and opens documents, calls the functions that build them, in any order and
on any of them, and appends documents to each other.  Every document then shows what the calls say: the blocks that
were built in it and appended to it, in order, every link with its address, every picture with its bytes. -/
theorem C99_documents (w : World) (s : List (List Block)) (h : Makes w s) : w.map Doc.shows = s := by
  obtain ⟨_, h2, _, h4⟩ := makes_program h
  apply List.ext_getElem?
  intro d
  rw [List.getElem?_map]
  cases hd : w[d]? with
  | none =>
    have : w.length ≤ d := List.getElem?_eq_none_iff.1 hd
    exact (List.getElem?_eq_none (h2 ▸ this)).symm
  | some f =>
    have hs := List.getElem?_eq_getElem (l := s) (i := d) (h2 ▸ lt_of_getElem? hd)
    rw [hs]
    exact congrArg some (h4 d f _ hd hs).shows

/-- **C99, in the file.** Any document of such a program is saved and opened again.  The opened document shows what
the calls say, with the characters that XML cannot carry replaced. -/
theorem C99_file (w : World) (s : List (List Block)) (h : Makes w s) (d : DocId) (f : Doc) (bs : List Block)
    (hd : w[d]? = some f) (hs : s[d]? = some bs) (hx : ∀ m ∈ f.media, xmlText m.name)
    (ht : ∀ n ∈ f.tmpfslst, isMediaName n = false) (out : Saved) (ho : Saves f out none) (me : DocId) :
    ∃ g, unpack me (reread out) = (g, none) ∧ g.shows = bs.map cleanBlock := by
  obtain ⟨h1, h2, h3, h4⟩ := makes_program h
  have hm := List.mem_of_getElem? hd
  exact built_file (h4 d f bs hd hs) (h3 f hm) ((program_fine h1 f hm).1.good (h3 f hm)) hx ht
    (t := f.template) (tf := f.tmplfs) (by rw [useTemplate_self]; exact ho) me

theorem known_clean {b : Block} (h : KnownBlock b) : KnownBlock (cleanBlock b) := by
  have hb : ∀ {bits : List Bit}, Bit.other ∉ bits → Bit.other ∉ bits.map cleanBit := by
    intro bits h hm
    obtain ⟨x, hx, e⟩ := List.mem_map.1 hm
    cases x with
    | other => exact h hx
    | _ => cases e
  cases b with
  | para bits => exact hb h
  | table rows =>
    intro r hr c hc p hp
    obtain ⟨r', hr', rfl⟩ := List.mem_map.1 hr
    obtain ⟨c', hc', rfl⟩ := List.mem_map.1 hc
    obtain ⟨p', hp', rfl⟩ := List.mem_map.1 hp
    exact hb (h r' hr' c' hc' p' hp')
  | page w h => trivial
  | other => exact h

/-- **C99, across saving.** The program goes on with the file as one more document, and everything said above holds
of it again.  No media may be named like the pictures that a document gets after it was opened: see
`C73_picture_replaced`. -/
theorem C99_goes_on (w : World) (s : List (List Block)) (h : Makes w s) (d : DocId) (f : Doc) (bs : List Block)
    (hd : w[d]? = some f) (hs : s[d]? = some bs) (hx : ∀ m ∈ f.media, xmlText m.name)
    (hi : ∀ r ∈ f.rels, ∀ n, IdNumber r.id n → n < 2 ^ 62)
    (hn : ∀ m ∈ f.media, ∀ (n : UInt64) (fmt : String), 100000 < n → m.name ≠ imageName n fmt)
    (ht : ∀ n ∈ f.tmpfslst, isMediaName n = false) (out : Saved) (ho : Saves f out none) :
    ∃ g, unpack w.length (reread out) = (g, none) ∧ Makes (w ++ [g]) (s ++ [bs.map cleanBlock]) := by
  obtain ⟨g, h1, h2⟩ := C99_file w s h d f bs hd hs hx ht out ho w.length
  refine ⟨g, h1, ?_⟩
  obtain ⟨p1, p2, p3, p4⟩ := makes_program h
  have hm := List.mem_of_getElem? hd
  have hgood := (program_fine p1 f hm).1.good (p3 f hm)
  obtain ⟨g', g1, g2, _, _, _, g6⟩ := C87_opens f out ho hgood w.length
  obtain rfl : g = g' := congrArg Prod.fst (h1.symm.trans g1)
  have hmed := (g6 ht).1
  have hfound : MediaFound g := (C55_places w.length (reread out) g h1).2.2.2.1
  rw [← h2]
  refine .opening _ g h h1 ?_ ?_ ?_ ?_
  · intro r hr n hnum
    rw [g2] at hr
    obtain ⟨r', hr', rfl⟩ := List.mem_map.1 hr
    have e : (clRel r').id = r'.id := clean_id (hgood r' hr')
    rw [e] at hnum
    exact hi r' hr' n hnum
  · rw [g2, List.length_map]; exact p3 f hm
  · intro m hmm n fmt hlt
    have hlt : (100000 : UInt64) < n := by
      obtain ⟨k, _, rfl⟩ := unpack_ok h1
      exact hlt
    have h3 := hmed m.name
    rw [hfound m.name] at h3
    simp only [Res.ok.injEq] at h3
    cases hl : lastMedia m.name f.media with
    | none =>
      rw [hl, List.find?_eq_none] at h3
      exact absurd (by simp) (h3 m (by simpa using hmm))
    | some m' =>
      have hm1 : m' ∈ f.media := by
        have := List.mem_of_find?_eq_some hl
        simpa using this
      have hm2 : m'.name = m.name := by
        have := List.find?_some hl
        simpa using this
      exact hm2 ▸ hn m' hm1 n fmt hlt
  · intro b hb
    rw [h2] at hb
    obtain ⟨b', hb', rfl⟩ := List.mem_map.1 hb
    exact known_clean ((p4 d f bs hd hs).known b' hb')

/-- Several building calls on one document -/
theorem makes_calls {cs : List Call} {d : DocId} : ∀ {w w' : World} {s : List (List Block)}, Makes w s →
    run w (cs.map (Call.op d)) = .ok w' → (∀ f ∈ w', f.rels.length < 2 ^ 62) →
    Makes w' (s.modify d fun bs => cs.foldl (fun bs c => c.does bs) bs) := by
  induction cs with
  | nil =>
    intro w w' s h hr _
    simp only [List.map_nil, run, Res.ok.injEq] at hr
    subst hr
    simp only [List.foldl_nil]
    have e : s.modify d (fun bs => bs) = s := List.modify_id d s
    rw [e]; exact h
  | cons c cs ih =>
    intro w w' s h hr hl
    simp only [List.map_cons, run] at hr
    split at hr
    · rename_i w1 h1
      have hl1 : ∀ f ∈ w1, f.rels.length < 2 ^ 62 := by
        intro f hf
        obtain ⟨e, he⟩ := List.getElem?_of_mem hf
        obtain ⟨f', hf', ev⟩ := (run_wevo hr).old e f he
        have := ev.rels_le
        have := hl f' (List.mem_of_getElem? hf')
        omega
      have := ih (.call d c h h1 hl1) hr hl
      rw [List.modify_modify_eq] at this
      exact this
    · cases hr
    · cases hr

end

/-! ## Case: a file with a picture is opened, a document is built, and they are joined -/

local instance makesEnv : GoEnv := ⟨fun _ => none, fun _ => false, fun _ => false⟩
local instance makesImg : ImgEnv := ⟨fun _ => none⟩

/-- A file with a text and a picture -/
def makesPackage : Archive :=
  [⟨"word/document.xml", .ok ⟨utf8 (Node.elem ⟨"w", "document"⟩ [] [.elem ⟨"w", "body"⟩ []
      [.elem ⟨"w", "p"⟩ [] [.elem ⟨"w", "r"⟩ [] [.elem ⟨"w", "t"⟩ [] [.text "a"], .elem ⟨"w", "drawing"⟩ []
        [.elem ⟨"wp", "inline"⟩ [] [.elem ⟨"a", "graphic"⟩ [] [.elem ⟨"a", "graphicData"⟩ []
          [.elem ⟨"pic", "pic"⟩ [] [.elem ⟨"pic", "nvPicPr"⟩ [] [], .elem ⟨"pic", "blipFill"⟩ []
            [.elem ⟨"a", "blip"⟩ [⟨⟨"r", "embed"⟩, "rId7"⟩] []]]]]]]]]]]).chars, none⟩⟩,
   ⟨"word/_rels/document.xml.rels", .ok ⟨utf8 (Node.elem ⟨"", "Relationships"⟩ []
     [.elem ⟨"", "Relationship"⟩ [⟨⟨"", "Id"⟩, "rId7"⟩, ⟨⟨"", "Target"⟩, "media/p.png"⟩] []]).chars, none⟩⟩,
   ⟨"word/media/p.png", .ok ⟨[5, 6], none⟩⟩]

/-- What is built in the second document -/
def makesCalls : List Call := [.paragraph, .text (.body 0) "n\t", .link (.body 0) "x" "http://x/"]

/-- What the second document shows in the end -/
def makesBlocks : List Block :=
  [.para [.text "n", .tab, .link "x" "http://x/"], .para [.text "a", .picture true [5, 6]],
   .para [.text "n", .tab, .link "x" "http://x/"], .para [.text "a", .picture true [5, 6]]]

/-- The file is opened, a new document gets a paragraph, then the opened document, then itself once more. -/
example : ∃ (w : World) (f : Doc) (out : Saved) (g : Doc),
    Makes w [[.para [.text "a", .picture true [5, 6]]], makesBlocks] ∧ w[1]? = some f ∧ f.shows = makesBlocks ∧
    Saves f out none ∧ unpack 2 (reread out) = (g, none) ∧
    Makes (w ++ [g]) [[.para [.text "a", .picture true [5, 6]]], makesBlocks, makesBlocks] := by
  have key : (match unpack 0 makesPackage with
    | (g, none) => (decide (g.shows = [Block.para [.text "a", .picture true [5, 6]]])) &&
        (g.rels.map (·.id) == ["rId7"]) && (g.media.map (·.name) == ["p.png"]) &&
        match run [g, Doc.new] (makesCalls.map (Call.op 1)) with
        | .ok w1 => (w1.map (·.rels.length) == [1, 4]) &&
          match step w1 (.append 1 0) with
          | .ok w2 => (w2.map (·.rels.length) == [1, 5]) &&
            match step w2 (.append 1 1) with
            | .ok [g', f] => (g'.rels.length == 1) && (f.rels.length == 7) && (f.media.map (·.name) == ["image1.png", "image2.png"]) &&
                (f.tmpfslst == []) && f.rels.all fun r => r.id.toList.length == 4
            | _ => false
          | _ => false
        | _ => false
    | _ => false) = true := by decide +kernel
  have hsmall : ∀ {w : World} {a b : Nat}, w.map (·.rels.length) = [a, b] → a < 100 → b < 100 →
      ∀ f ∈ w, f.rels.length < 2 ^ 62 := by
    intro w a b h ha hb f hf
    have : f.rels.length ∈ w.map (·.rels.length) := List.mem_map.2 ⟨f, hf, rfl⟩
    rw [h] at this
    simp only [List.mem_cons, List.not_mem_nil, or_false] at this
    omega
  split at key
  · rename_i g hu
    simp only [Bool.and_eq_true, beq_iff_eq, decide_eq_true_eq] at key
    obtain ⟨⟨⟨k1, k2⟩, k3⟩, key⟩ := key
    have hids : ∀ r ∈ g.rels, ∀ n, IdNumber r.id n → n < 2 ^ 62 := by
      rintro r hr n ⟨ds, _, _, h, rfl⟩
      have hm : r.id ∈ g.rels.map (·.id) := List.mem_map.2 ⟨r, hr, rfl⟩
      rw [k2] at hm
      rw [List.mem_singleton.1 hm] at h
      have : ds = ['7'] := by
        have h' : ['r', 'I', 'd', '7'] = 'r' :: 'I' :: 'd' :: ds := h
        simp only [List.cons.injEq, true_and] at h'
        exact h'.symm
      rw [this]; decide
    have hlen : g.rels.length < 2 ^ 62 := by
      have := congrArg List.length k2
      simp only [List.length_map, List.length_cons, List.length_nil] at this
      omega
    have hnames : NamesAhead g := by
      intro m hm n fmt _ e
      have hm' : m.name ∈ g.media.map (·.name) := List.mem_map.2 ⟨m, hm, rfl⟩
      rw [k3, List.mem_singleton, e] at hm'
      have := congrArg String.toList hm'
      simp only [imageName, String.toList_append] at this
      cases this
    have m0 : Makes [g, Doc.new] [[.para [.text "a", .picture true [5, 6]]], []] := by
      have h1 := Makes.opening makesPackage g .start hu hids hlen hnames (by
        rw [k1]
        intro b hb
        rw [List.mem_singleton] at hb
        subst hb
        simp [KnownBlock])
      rw [k1] at h1
      exact .new h1
    split at key
    · rename_i w1 hr
      simp only [Bool.and_eq_true, beq_iff_eq] at key
      obtain ⟨l1, key⟩ := key
      have m1 := makes_calls m0 hr (hsmall l1 (by decide) (by decide))
      split at key
      · rename_i w2 hs2
        simp only [Bool.and_eq_true, beq_iff_eq] at key
        obtain ⟨l2, key⟩ := key
        have m2 := Makes.append 1 0 m1 hs2 (hsmall l2 (by decide) (by decide))
        split at key
        · rename_i g' f hs3
          simp only [Bool.and_eq_true, beq_iff_eq, List.all_eq_true] at key
          obtain ⟨⟨⟨⟨l3, l4⟩, l5⟩, l6⟩, l7⟩ := key
          have m3 := Makes.append 1 1 m2 hs3 (hsmall (a := 1) (b := 7) (by simp [l3, l4]) (by decide) (by decide))
          have m3 : Makes [g', f] [[.para [.text "a", .picture true [5, 6]]], makesBlocks] := m3
          have hn : ∀ m ∈ f.media, m.name = "image1.png" ∨ m.name = "image2.png" := by
            intro m hm
            have hm' : m.name ∈ f.media.map (·.name) := List.mem_map.2 ⟨m, hm, rfl⟩
            rw [l5] at hm'
            simpa using hm'
          have hsh := C99_documents _ _ m3
          simp only [List.map_cons, List.map_nil, List.cons.injEq, and_true] at hsh
          obtain ⟨out, e, ho⟩ := C53_returns f (.inr l6)
          obtain rfl := C53_success f (by simp [l6]) (by simp [l6]) (by
            intro m hm
            rcases hn m hm with e | e <;> rw [e] <;> decide) out e ho
          obtain ⟨k, h1, h2⟩ := C99_goes_on _ _ m3 1 f makesBlocks rfl rfl (by
            intro m hm
            rcases hn m hm with e | e <;> rw [e] <;> exact (clean_iff _).1 (by decide)) (by
            rintro r hr n ⟨ds, _, _, h, rfl⟩
            have h7 := l7 r hr
            rw [h] at h7
            match ds, h7 with
            | [c], _ =>
              have := c.val.toNat_lt
              show 0 * 10 + (c.val.toNat - 48) < 2 ^ 62
              omega) (by
            intro m hm n fmt hlt e
            have hs1 : imageName 1 "png" = "image1.png" := by decide
            have hs2 : imageName 2 "png" = "image2.png" := by decide
            rcases hn m hm with e' | e'
            · rw [e', ← hs1] at e
              rw [← imageName_inj e] at hlt
              exact absurd hlt (by decide)
            · rw [e', ← hs2] at e
              rw [← imageName_inj e] at hlt
              exact absurd hlt (by decide)) (by simp [l6]) out ho
          have hc : makesBlocks.map cleanBlock = makesBlocks := by decide +kernel
          rw [hc] at h2
          exact ⟨[g', f], f, out, k, m3, rfl, hsh.2, ho, h1, h2⟩
        · cases key
      · cases key
    · cases key
  · cases key

end Docx
