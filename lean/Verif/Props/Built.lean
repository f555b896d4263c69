import Verif.Lemmas.Built
import Verif.Props.JoinFiles

/-!
# C98: what the calls build is what the file holds
-/

set_option linter.unusedSectionVars false

namespace Docx

section

/-- The counters of a document are ahead of the names in use, and far from their ends. -/
structure Sane (f : Doc) : Prop where
  ahead : Ahead f
  idx : IdxOK f
  fresh : NamesAhead f
  rid : f.rID.toNat ≤ 2 ^ 62 + f.rels.length
  img : f.imageID.toNat ≤ 2 ^ 62 + f.rels.length

theorem names_ahead_evo {f g : Doc} (h : Evo f g) (ha : NamesAhead f)
    (hroom : f.imageID.toNat + (g.media.length - f.media.length) < 2 ^ 64) :
    NamesAhead g ∧ g.imageID.toNat = f.imageID.toNat + (g.media.length - f.media.length) := by
  obtain ⟨ext, h1, h2, h3⟩ := h.media
  have hl : g.media.length - f.media.length = ext.length := by rw [h1]; simp
  rw [hl] at hroom ⊢
  have hv : ∀ k, k ≤ ext.length → (f.imageID + UInt64.ofNat k).toNat = f.imageID.toNat + k := by
    intro k hk
    rw [UInt64.toNat_add, UInt64.toNat_ofNat']; omega
  have hg : g.imageID.toNat = f.imageID.toNat + ext.length := by rw [h2]; exact hv _ (Nat.le_refl _)
  refine ⟨?_, hg⟩
  intro m hm n fmt hn e
  have hn' := UInt64.lt_iff_toNat_lt.1 hn
  rw [h1] at hm
  rcases List.mem_append.1 hm with hm | hm
  · exact ha m hm n fmt (UInt64.lt_iff_toNat_lt.2 (by omega)) e
  · obtain ⟨i, hi, rfl⟩ := List.getElem_of_mem hm
    obtain ⟨fmt', e'⟩ := h3 i _ (List.getElem?_eq_getElem hi)
    rw [e'] at e
    have := congrArg UInt64.toNat (imageName_inj e)
    rw [hv _ (by omega)] at this
    omega

theorem sane_evo {f g : Doc} (h : Sane f) (e : Evo f g) (hl : g.rels.length < 2 ^ 62) : Sane g := by
  have l1 := e.rels_le
  have l2 := e.media_rels
  have l3 := e.media_le
  have h1 := h.rid
  have h2 := h.img
  obtain ⟨a, b⟩ := e.ahead h.ahead (by omega)
  obtain ⟨c, d⟩ := names_ahead_evo e h.fresh (by omega)
  exact ⟨a, e.idxOK h.idx, c, by omega, by omega⟩

theorem sane_room {f g : Doc} (h : Sane f) (e : Evo f g) (hl : g.rels.length < 2 ^ 62) : Room f g := by
  have l1 := e.rels_le
  have l2 := e.media_rels
  have l3 := e.media_le
  have h1 := h.rid
  have h2 := h.img
  exact ⟨by omega, by omega⟩

theorem sane_new : Sane Doc.new where
  ahead := base_ahead base_new
  idx := base_idxOK base_new
  fresh := fun m hm => by cases hm
  rid := by decide
  img := by decide

theorem sane_base {f : Doc} (h : Sane f) (hl : f.rels.length < 2 ^ 62) :
    (∀ r ∈ f.rels, r.id ≠ ridOf (f.rID + 1)) ∧ MediaFound f ∧
      (∀ (m : Media) fmt, m ∈ f.media → m.name ≠ imageName (f.imageID + 1) fmt) := by
  have h1 := h.rid
  have h2 := h.img
  have h4 : (1 : UInt64).toNat = 1 := rfl
  refine ⟨h.ahead _ ?_, fun name => getMedia_of_idxOK h.idx name, fun m fmt hm => h.fresh m hm _ fmt ?_⟩
  · rw [UInt64.lt_iff_toNat_lt, UInt64.toNat_add, h4]
    omega
  · rw [UInt64.lt_iff_toNat_lt, UInt64.toNat_add, h4]
    omega

variable [ImgEnv] {Q : String → Prop} {me : DocId}

/-- The document `f` at `me` shows `bs`, after some calls; its media have names with `Q`. -/
structure BuiltUp (Q : String → Prop) (me : DocId) (f : Doc) (bs : List Block) : Prop where
  sane : f.rels.length < 2 ^ 62 → Sane f
  shows : f.shows = bs
  known : ∀ b ∈ bs, KnownBlock b
  own : ∀ x ∈ f.items, OwnItem me x
  names : ∀ m ∈ f.media, Q m.name

/-- What one paragraph call does -/
theorem built_grow {f f1 : Doc} {bs : List Block} {l : Loc} {g : Para → Para} {new : List Bit} (h : BuiltUp Q me f bs)
    (he : Evo f f1) (hi : f1.items = f.items)
    (hR : ∀ id t, f.referTarget id = some t → f1.referTarget id = some t)
    (hM : ∀ id d, f.pictureData id = some d → f1.pictureData id = some d)
    (hn : ∀ m ∈ f1.media, Q m.name)
    (hg : ∀ p, getPara f.items l = some p → (OwnPara me p → OwnPara me (g p)) ∧
      viewPara f1.referTarget f1.pictureData (g p) = viewPara f1.referTarget f1.pictureData p ++ new)
    (hnew : Bit.other ∉ new) : BuiltUp Q me { f1 with items := modPara f1.items l g } (addAt l new bs) := by
  refine ⟨fun hl => ?_, ?_, known_addAt h.known hnew, ?_, hn⟩
  · have hl : f1.rels.length < 2 ^ 62 := hl
    have := he.rels_le
    exact sane_evo (h.sane (by omega)) (.items _ he) hl
  · show (modPara f1.items l g).map (viewItem f1.referTarget f1.pictureData) = _
    rw [hi, view_modPara (k := (· ++ new)) fun p hp => (hg p hp).2]
    rw [view_grows hR hM (by have := h.known; rw [← h.shows] at this; exact this)]
    exact congrArg (addAt l new) h.shows
  · rw [show ({ f1 with items := modPara f1.items l g } : Doc).items = modPara f.items l g from by rw [← hi]]
    exact own_modPara h.own fun p hp => (hg p hp).1

/-- Changes of the body alone -/
theorem built_items {f : Doc} {bs bs' : List Block} {items : List BItem} (h : BuiltUp Q me f bs)
    (hv : items.map (viewItem f.referTarget f.pictureData) = bs') (hk : ∀ b ∈ bs', KnownBlock b)
    (ho : ∀ x ∈ items, OwnItem me x) : BuiltUp Q me { f with items := items } bs' :=
  ⟨fun hl => sane_evo (h.sane hl) (.items _ (.refl f)) hl, hv, hk, ho, h.names⟩

theorem addImage_keeps {f : Doc} {fmt : String} {pic : Bytes} (hl : f.rels.length < 2 ^ 62) (he : Sane f) :
    (∀ id t, f.referTarget id = some t → (f.addImage fmt pic).1.referTarget id = some t) ∧
    (∀ id d, f.pictureData id = some d → (f.addImage fmt pic).1.pictureData id = some d) ∧
    (f.addImage fmt pic).1.pictureData (f.addImage fmt pic).2 = some pic := by
  obtain ⟨hid, hf, hn⟩ := sane_base he hl
  have e1 : Evo f (f.addImage fmt pic).1 := .image fmt pic (.refl f)
  have hf' : MediaFound (f.addImage fmt pic).1 :=
    fun name => getMedia_of_idxOK (e1.idxOK he.idx) name
  refine ⟨fun id t => e1.resolves, ?_, ?_⟩
  · intro id d hd
    unfold Doc.pictureData at hd ⊢
    cases ht : f.referTarget id with
    | none => rw [ht] at hd; cases hd
    | some t =>
      rw [ht] at hd
      rw [e1.resolves ht]
      dsimp only at hd ⊢
      split
      · rename_i hp
        rw [if_pos hp] at hd
        generalize String.ofList (t.toList.drop 6) = name at hd ⊢
        cases hm : f.getMedia name with
        | err e => rw [hm] at hd; cases hd
        | panic => rw [hm] at hd; cases hd
        | ok o =>
          rw [hm] at hd
          cases o with
          | none => cases hd
          | some m =>
            have hmem : m ∈ f.media ∧ m.name = name := Evo.idxOK_getMedia hf hm
            have : (f.addImage fmt pic).1.getMedia name = .ok (some m) := by
              rw [hf' name]
              rw [hf name] at hm
              show Res.ok ((f.media ++ [(⟨imageName (f.imageID + 1) fmt, pic⟩ : Media)]).reverse.find? _) = _
              have hne : ¬ imageName (f.imageID + 1) fmt = name :=
                fun e => hn m fmt hmem.1 (hmem.2.trans e.symm)
              rw [List.reverse_append, List.reverse_singleton, List.singleton_append, List.find?_cons]
              simp only [beq_eq_false_iff_ne.2 hne]
              exact hm
            rw [this]
            exact hd
      · rename_i hp
        rw [if_neg hp] at hd
        cases hd
  · obtain ⟨h1, h2⟩ := addImage_serves hid fmt pic
    unfold Doc.pictureData
    rw [h1]
    dsimp only
    rw [String.toList_append, if_pos (List.isPrefixOf_iff_prefix.2 (List.prefix_append _ _)),
      show (6 : Nat) = "media/".toList.length from rfl, List.drop_left, String.ofList_toList, h2]

theorem evo_ids {f : Doc} {f1 : Doc} (h : f1.rels = f.rels) (hm : f1.media = f.media) (hx : f1.mediaIdx = f.mediaIdx) :
    f1.referTarget = f.referTarget ∧ f1.pictureData = f.pictureData := by
  have e1 : f1.referTarget = f.referTarget := by funext id; simp [Doc.referTarget, h]
  have e2 : f1.getMedia = f.getMedia := by funext n; simp [Doc.getMedia, hm, hx]
  refine ⟨e1, ?_⟩
  funext id
  simp only [Doc.pictureData, e1, e2]

theorem onPara_own {w : World} {f : Doc} {bs : List Block} (h : BuiltUp Q me f bs) (hw : w[me]? = some f) {l : Loc}
    {act : Doc → Para → Res (Doc × Para)} {w' : World} (hs : World.onPara w me l act = .ok w') :
    ∃ p f' p', getPara f.items l = some p ∧ act f p = .ok (f', p') ∧
      w' = w.set me { f' with items := modPara f'.items l (fun _ => p') } := by
  obtain ⟨doc, p, fid, f0, f', p', doc1, h1, h2, h3, h4, h5, h6, h7⟩ := onPara_ok hs
  obtain rfl := Option.some.inj (hw.symm.trans h1)
  obtain rfl := Option.some.inj ((own_getPara h.own h2).1.symm.trans h3)
  obtain rfl := Option.some.inj (hw.symm.trans h4)
  rw [List.getElem?_set_self (lt_of_getElem? hw)] at h6
  obtain rfl := Option.some.inj h6
  exact ⟨p, f', p', h2, h5, by rw [h7, List.set_set]⟩

theorem onDoc_one {w : World} {f : Doc} (hw : w[me]? = some f) {act : Doc → Res Doc} {w' : World}
    (hs : World.onDoc w me act = .ok w') : ∃ f', act f = .ok f' ∧ w' = w.set me f' := by
  simp only [World.onDoc, hw] at hs
  obtain ⟨f', h1, h2⟩ := Res.bind_eq_ok.1 hs
  refine ⟨f', h1, ?_⟩
  simpa using h2.symm

theorem home_tabs : ∀ (i : Nat) (ks : List (List Char)), ∀ c ∈ tabPieces i ks, HomePiece me c
  | _, [] => by simp [tabPieces]
  | i, k :: ks => by
    intro c hc
    simp only [tabPieces, List.mem_append] at hc
    rcases hc with hc | hc
    · revert c
      split <;> split <;> simp [HomePiece]
    · exact home_tabs _ ks c hc

theorem home_lines : ∀ (i : Nat) (ss : List (List Char)), ∀ c ∈ linePieces i ss, HomePiece me c
  | _, [] => by simp [linePieces]
  | i, s :: ss => by
    intro c hc
    simp only [linePieces, List.mem_append] at hc
    rcases hc with (hc | hc) | hc
    · split at hc
      · rw [List.mem_singleton] at hc; subst hc; trivial
      · cases hc
    · exact home_tabs _ _ c hc
    · exact home_lines _ ss c hc

theorem own_addText {p : Para} (s : String) (ho : OwnPara me p) : OwnPara me (p.addText s).1 := by
  unfold Para.addText
  split
  · exact own_addRun ho (by simp [HomePiece])
  · exact own_addRun ho (home_lines _ _)

theorem view_addRun (R : String → Option String) (M : String → Option Bytes) (p : Para) (r : Run) (h : r.instr = "") :
    viewPara R M (p.addRun r) = viewPara R M p ++ r.children.map (viewPiece M) := by
  simp [viewPara, Para.addRun, viewChild, h]

/-- Pictures -/
theorem built_picture {f : Doc} {bs : List Block} {inline : Bool} {l : Loc} {pic : Bytes} {w w' : World}
    (h : BuiltUp Q me f bs) (hl : ∀ g, w'[me]? = some g → g.rels.length < 2 ^ 62)
    (hQ : ∀ pic x y fmt k, ImgEnv.decodeSize pic = some (x, y, fmt) → Q (imageName k fmt)) (hw : w[me]? = some f)
    (hs : step w ((Call.picture inline l pic).op me) = .ok w') :
    ∃ f', w' = w.set me f' ∧ BuiltUp Q me f' ((Call.picture inline l pic).does bs) := by
  have key : ∀ (mk : Int64 → Int64 → String → Int64 → Int64 → Drawing),
      (∀ a b c x y M, viewPiece M (.drawing (mk a b c x y)) =
        match M c with | some d => .picture inline d | none => .other) →
      (∀ a b c x y, HomePiece me (.drawing (mk a b c x y))) →
      World.onPara w me l (fun f p => match f.addPicture pic with
        | (f', .ok (idn, id, rid, x, y)) => .ok (f', p.addRun (drawingRun (mk idn id rid x y)))
        | (f', .err _) => .ok (f', p)
        | (_, .panic) => .panic) = .ok w' →
      ∃ f', w' = w.set me f' ∧ BuiltUp Q me f' ((Call.picture inline l pic).does bs) := by
    intro mk hmk hme hp
    obtain ⟨p, f', p', hgp, hact, rfl⟩ := onPara_own h hw hp
    refine ⟨_, rfl, ?_⟩
    simp only [Call.does]
    unfold Doc.addPicture at hact
    cases hd : ImgEnv.decodeSize pic with
    | none =>
      rw [hd] at hact
      simp only [Res.ok.injEq, Prod.mk.injEq] at hact
      obtain ⟨rfl, rfl⟩ := hact
      have := built_grow (l := l) (g := fun _ => p) (new := []) h (.refl f) rfl (fun _ _ => id) (fun _ _ => id) h.names
        (fun q hq => by rw [hgp] at hq; cases hq; simp) (by simp)
      have e : addAt l [] bs = bs := by
        cases l with
        | body i =>
          simp only [addAt, atPlace]
          exact modify_self fun a _ => by cases a <;> simp
        | cell i r c j =>
          simp only [addAt, atPlace]
          refine modify_self fun a _ => ?_
          cases a with
          | table t =>
            simp only [Block.table.injEq]
            exact modify_self fun _ _ => modify_self fun _ _ => modify_self fun _ _ => by simp
          | _ => rfl
      rw [e] at this
      exact this
    | some wh =>
      obtain ⟨w0, h0, fmt⟩ := wh
      rw [hd] at hact
      dsimp only at hact
      cases hsc : scaleSize w0 h0 with
      | none => rw [hsc] at hact; cases hact
      | some xy =>
        obtain ⟨x, y⟩ := xy
        rw [hsc] at hact
        simp only [Res.ok.injEq, Prod.mk.injEq] at hact
        obtain ⟨rfl, rfl⟩ := hact
        generalize hG : (f.nextDocID.1.increaseID picName).1 = G
        rw [hG] at hl
        have hgG : Evo f G := hG ▸ .incID _ (.docID (.refl f))
        have hgi : G.items = f.items := hG ▸ rfl
        have hgr : G.rels = f.rels := hG ▸ rfl
        have hgm : G.media = f.media := hG ▸ rfl
        have hids := evo_ids (f := f) (f1 := G) (hG ▸ rfl) (hG ▸ rfl) (hG ▸ rfl)
        have hlG : G.rels.length < 2 ^ 62 := by
          have := hl _ (List.getElem?_set_self (lt_of_getElem? hw))
          have e : ((G.addImage fmt pic).1).rels.length = G.rels.length + 1 := by
            simp [Doc.addImage, Doc.addMedia, Doc.addImageRelation]
          have : ((G.addImage fmt pic).1).rels.length < 2 ^ 62 := this
          omega
        obtain ⟨k1, k2, k3⟩ := addImage_keeps (fmt := fmt) (pic := pic) hlG (sane_evo (h.sane (hgr ▸ hlG)) hgG hlG)
        refine built_grow h (.image fmt pic hgG) hgi (hids.1 ▸ k1) (hids.2 ▸ k2) ?_ ?_ (by simp)
        · intro m hm
          have hm : m ∈ G.media ++ [⟨imageName (G.imageID + 1) fmt, pic⟩] := hm
          rcases List.mem_append.1 hm with hm | hm
          · exact h.names m (hgm ▸ hm)
          · rw [List.mem_singleton] at hm
            subst hm
            exact hQ _ _ _ _ _ hd
        · intro q hq
          rw [hgp] at hq
          cases hq
          refine ⟨fun ho => own_addRun ho (by simpa [drawingRun] using hme _ _ _ _ _), ?_⟩
          rw [view_addRun _ _ _ _ rfl]
          simp only [drawingRun, List.map_cons, List.map_nil, hmk, k3]
  cases inline with
  | true =>
    refine key (fun idn id rid x y => { inl := some (mkInlinePic idn id rid x y) })
      (fun a b c x y M => by rfl) (fun a b c x y => by simp [HomePiece, mkInlinePic]) ?_
    rw [← hs]
    simp only [Call.op, step]
    congr 1
    funext f p
    simp only [Para.addInlineDrawing]
    rcases f.addPicture pic with ⟨f', _ | _ | _⟩ <;> rfl
  | false =>
    refine key (fun idn id rid x y => { anchor := some (mkAnchorPic idn id rid x y) })
      (fun a b c x y M => by rfl) (fun a b c x y => by simp [HomePiece, mkAnchorPic]) ?_
    rw [← hs]
    simp only [Call.op, step]
    congr 1
    funext f p
    simp only [Para.addAnchorDrawing]
    rcases f.addPicture pic with ⟨f', _ | _ | _⟩ <;> rfl

theorem setSize_view (M : String → Option Bytes) (b : Bool) (g : Option Graphic) (w h : Int64) :
    viewGraphic M b (sizeGraphic g w h) = viewGraphic M b g := by
  rcases g with _ | ⟨xa, _ | ⟨uri, _ | ⟨xp, nv, bf, sp⟩, sh, ca, gr⟩⟩
  · rfl
  · rfl
  · rfl
  · cases sp with
    | none => rfl
    | some sp => cases sh <;> cases ca <;> cases gr <;> rfl

theorem resize_view (M : String → Option Bytes) (w h : Int64) (c : RChild) :
    viewPiece M (resizePiece w h c) = viewPiece M c := by
  cases c with
  | drawing d =>
    rcases d with ⟨_ | i, _ | a⟩
    · rfl
    · exact setSize_view M false a.graphic w h
    · exact setSize_view M true i.graphic w h
    · rfl
  | _ => rfl

theorem fade_view (M : String → Option Bytes) (b : Bool) (g : Option Graphic) (a : Int64) :
    viewGraphic M b (fadeGraphic a g) = viewGraphic M b g := by
  rcases g with _ | ⟨xa, _ | ⟨uri, _ | ⟨xp, nv, _ | bf, sp⟩, sh, ca, gr⟩⟩
  · rfl
  · rfl
  · rfl
  · rfl
  · cases sh <;> cases ca <;> cases gr <;> rfl

theorem place_view (M : String → Option Bytes) (x y z : Int64) (c : RChild) :
    viewPiece M (placePiece x y z c) = viewPiece M c := by
  cases c with
  | drawing d =>
    rcases d with ⟨_ | i, _ | a⟩
    · rfl
    · exact fade_view M false a.graphic z
    · rfl
    · rfl
  | _ => rfl

theorem fade_isPic (g : Option Graphic) (a : Int64) : isPic (fadeGraphic a g) = isPic g := by
  rcases g with _ | ⟨xa, _ | ⟨uri, _ | ⟨xp, nv, bf, sp⟩, sh, ca, gr⟩⟩ <;> rfl

theorem place_home (x y z : Int64) {c : RChild} (hc : HomePiece me c) : HomePiece me (placePiece x y z c) := by
  cases c with
  | drawing d =>
    refine ⟨hc.1, fun a ha hp => ?_⟩
    obtain ⟨j, hj, rfl⟩ := Option.map_eq_some_iff.1 ha
    exact hc.2 j hj ((fade_isPic _ _).symm.trans hp)
  | _ => exact hc

theorem sizeGraphic_isPic (g : Option Graphic) (w h : Int64) : isPic (sizeGraphic g w h) = isPic g := by
  rcases g with _ | ⟨xa, _ | ⟨uri, _ | ⟨xp, nv, bf, sp⟩, sh, ca, gr⟩⟩
  · rfl
  · rfl
  · rfl
  · cases sp <;> rfl

theorem resize_home (w h : Int64) {c : RChild} (hc : HomePiece me c) : HomePiece me (resizePiece w h c) := by
  cases c with
  | drawing d =>
    refine ⟨fun i hi hp => ?_, fun a ha hp => ?_⟩
    · obtain ⟨j, hj, rfl⟩ := Option.map_eq_some_iff.1 hi
      exact hc.1 j hj ((sizeGraphic_isPic _ _ _).symm.trans hp)
    · obtain ⟨j, hj, rfl⟩ := Option.map_eq_some_iff.1 ha
      exact hc.2 j hj ((sizeGraphic_isPic _ _ _).symm.trans hp)
  | _ => exact hc

/-- A change of one child that does not show -/
theorem view_childMod {R : String → Option String} {M : String → Option Bytes} {p : Para} {k : Nat}
    {g : PChild → PChild} (h : ∀ c, viewChild R M (g c) = viewChild R M c) :
    viewPara R M { p with children := p.children.modify k g } = viewPara R M p := by
  unfold viewPara
  rw [List.flatMap_def, List.flatMap_def]
  congr 1
  rw [map_modify_at (G := id) fun c _ => h c]
  exact List.modify_id _ _

theorem addAt_nil (l : Loc) (bs : List Block) : addAt l [] bs = bs := by
  cases l with
  | body i =>
    simp only [addAt, atPlace]
    exact modify_self fun a _ => by cases a <;> simp
  | cell i r c j =>
    simp only [addAt, atPlace]
    refine modify_self fun a _ => ?_
    cases a with
    | table t =>
      simp only [Block.table.injEq]
      exact modify_self fun _ _ => modify_self fun _ _ => modify_self fun _ _ => by simp
    | _ => rfl

/-- Changes of a paragraph that add some pieces and need no relationship -/
theorem built_modPara {f : Doc} {bs : List Block} {l : Loc} {g : Para → Para} {new : List Bit} (h : BuiltUp Q me f bs)
    (hg : ∀ p, (OwnPara me p → OwnPara me (g p)) ∧ ∀ R M, viewPara R M (g p) = viewPara R M p ++ new) (hnew : Bit.other ∉ new) :
    BuiltUp Q me { f with items := modPara f.items l g } (addAt l new bs) :=
  built_grow h (.refl f) rfl (fun _ _ => id) (fun _ _ => id) h.names (fun p _ => ⟨(hg p).1, (hg p).2 _ _⟩) hnew

/-- The same, where nothing shows -/
theorem built_format {f : Doc} {bs : List Block} {l : Loc} {g : Para → Para} (h : BuiltUp Q me f bs)
    (hg : ∀ p, (OwnPara me p → OwnPara me (g p)) ∧ ∀ R M, viewPara R M (g p) = viewPara R M p) :
    BuiltUp Q me { f with items := modPara f.items l g } bs := by
  have := built_modPara (l := l) (new := []) h (fun p => ⟨(hg p).1, fun R M => by rw [(hg p).2, List.append_nil]⟩)
    (by simp)
  rwa [addAt_nil] at this

/-- Changes of a body item that do not show -/
theorem built_modify {f : Doc} {bs : List Block} {i : Nat} {g : BItem → BItem} (h : BuiltUp Q me f bs)
    (hv : ∀ R M x, viewItem R M (g x) = viewItem R M x) (ho : ∀ x, OwnItem me x → OwnItem me (g x)) :
    BuiltUp Q me { f with items := f.items.modify i g } bs := by
  refine built_items h ?_ h.known (all_modify h.own fun a _ => ho a)
  rw [map_modify_at (G := id) fun c _ => hv _ _ c, List.modify_id]
  exact h.shows

theorem known_push {bs : List Block} {b : Block} (h : ∀ b ∈ bs, KnownBlock b) (hb : KnownBlock b) :
    ∀ x ∈ bs ++ [b], KnownBlock x := by
  intro x hx
  rcases List.mem_append.1 hx with hx | hx
  · exact h x hx
  · rw [List.mem_singleton] at hx; exact hx ▸ hb

theorem own_push {l : List BItem} {b : BItem} (h : ∀ b ∈ l, OwnItem me b) (hb : OwnItem me b) : ∀ x ∈ l ++ [b], OwnItem me x := by
  intro x hx
  rcases List.mem_append.1 hx with hx | hx
  · exact h x hx
  · rw [List.mem_singleton] at hx; exact hx ▸ hb

/-- One more item at the end -/
theorem built_push {f : Doc} {bs : List Block} {x : BItem} {b : Block} (h : BuiltUp Q me f bs)
    (hv : ∀ R M, viewItem R M x = b) (hk : KnownBlock b) (ho : OwnItem me x) :
    BuiltUp Q me { f with items := f.items ++ [x] } (bs ++ [b]) := by
  refine built_items h ?_ (known_push h.known hk) (own_push h.own ho)
  rw [List.map_append, List.map_singleton, hv]
  exact congrArg (· ++ [b]) h.shows

theorem known_mapParas {b : Block} {k : List Bit → List Bit} (h : KnownBlock b)
    (hk : ∀ p, Bit.other ∉ p → Bit.other ∉ k p) : KnownBlock (b.mapParas k) := by
  cases b with
  | para bits => exact hk _ h
  | table rows =>
    intro r hr c hc p hp
    obtain ⟨r', hr', rfl⟩ := List.mem_map.1 hr
    obtain ⟨c', hc', rfl⟩ := List.mem_map.1 hc
    obtain ⟨p', hp', rfl⟩ := List.mem_map.1 hp
    exact hk _ (h r' hr' c' hc' p' hp')
  | _ => exact h

/-- Changes of a paragraph that leave something out -/
theorem built_lessPara {f : Doc} {bs : List Block} {l : Loc} {g : Para → Para} {k : List Bit → List Bit}
    (h : BuiltUp Q me f bs)
    (hg : ∀ p, Bit.other ∉ viewPara f.referTarget f.pictureData p → (OwnPara me p → OwnPara me (g p)) ∧
      viewPara f.referTarget f.pictureData (g p) = k (viewPara f.referTarget f.pictureData p))
    (hk : ∀ p, Bit.other ∉ p → Bit.other ∉ k p) :
    BuiltUp Q me { f with items := modPara f.items l g } (atPlace l k bs) := by
  have hkn := h.known
  rw [← h.shows] at hkn
  refine built_items h ?_ (known_atPlace h.known hk) (own_modPara h.own fun p hp => (hg p (known_getPara hkn hp)).1)
  rw [view_modPara fun p hp => (hg p (known_getPara hkn hp)).2]
  exact congrArg (atPlace l k) h.shows

theorem addText_addRun (p : Para) (s : String) : (p.addText s).1 = p.addRun (p.addText s).2 := by
  unfold Para.addText
  split <;> rfl

theorem addText_instr (p : Para) (s : String) : (p.addText s).2.instr = "" := by
  unfold Para.addText
  split <;> rfl

/-- One call -/
theorem built_step {f : Doc} {bs : List Block} {c : Call} {w w' : World} (h : BuiltUp Q me f bs)
    (hl : ∀ g, w'[me]? = some g → g.rels.length < 2 ^ 62)
    (hQ : ∀ pic x y fmt k, ImgEnv.decodeSize pic = some (x, y, fmt) → Q (imageName k fmt)) (hw : w[me]? = some f) (hs : step w (c.op me) = .ok w') :
    ∃ f', w' = w.set me f' ∧ BuiltUp Q me f' (c.does bs) := by
  cases c with
  | paragraph =>
    obtain ⟨f', h1, rfl⟩ := onDoc_one hw hs
    cases h1
    exact ⟨_, rfl, built_push h (fun _ _ => rfl) (by simp [KnownBlock]) ⟨rfl, fun c hc => by cases hc⟩⟩
  | cellParagraph i r c =>
    obtain ⟨f', h1, rfl⟩ := onDoc_one hw hs
    cases h1
    refine ⟨_, rfl, built_items h ?_ ?_ ?_⟩
    · simp only [Call.does]
      rw [← h.shows]
      refine map_modify_at fun a _ => ?_
      cases a with
      | para p => rfl
      | sect s => rcases s with ⟨_ | s, _ | m, _ | c, _ | d⟩ <;> rfl
      | table t =>
        simp only [viewItem, Block.table.injEq]
        refine map_modify_at fun row _ => map_modify_at fun cell _ => ?_
        simp [Cell.addParagraph, viewPara]
    · refine all_modify h.known fun a _ hP => ?_
      cases a with
      | table t =>
        refine all_modify (P := fun r : List (List (List Bit)) => ∀ c ∈ r, ∀ p ∈ c, Bit.other ∉ p) hP fun row _ hr => ?_
        refine all_modify (P := fun c : List (List Bit) => ∀ p ∈ c, Bit.other ∉ p) hr fun cell _ hc => ?_
        intro p hp
        rcases List.mem_append.1 hp with hp | hp
        · exact hc p hp
        · rw [List.mem_singleton] at hp; subst hp; simp
      | _ => exact hP
    · refine all_modify h.own fun a _ hP => ?_
      cases a with
      | table t =>
        refine all_modify (P := fun r : Row => ∀ c ∈ r.cells, c.file = some me ∧ ∀ p ∈ c.paras, OwnPara me p)
          hP fun row _ hr => ?_
        refine all_modify (P := fun c : Cell => c.file = some me ∧ ∀ p ∈ c.paras, OwnPara me p)
          hr fun cell _ hc => ⟨hc.1, ?_⟩
        intro p hp
        rcases List.mem_append.1 hp with hp | hp
        · exact hc.2 p hp
        · rw [List.mem_singleton] at hp; subst hp; exact ⟨hc.1, fun c hc => by cases hc⟩
      | _ => exact hP
  | table rows cols width colors =>
    simp only [Call.op, step] at hs
    obtain ⟨f', h1, rfl⟩ := onDoc_one hw hs
    simp only [Doc.addTable] at h1
    split at h1
    · rename_i h2
      split at h2
      · cases h2
      · split at h2
        · cases h2
        · cases h2
          cases h1
          refine ⟨_, rfl, built_push h (fun R M => ?_) ?_ ?_⟩
          · simp [viewItem]
          · intro r hr c hc p hp
            rw [List.eq_of_mem_replicate hr] at hc
            rw [List.eq_of_mem_replicate hc] at hp
            cases hp
          · intro r hr c hc
            rw [List.eq_of_mem_replicate hr] at hc
            rw [List.eq_of_mem_replicate hc]
            exact ⟨rfl, fun p hp => by cases hp⟩
    · cases h1
    · cases h1
  | tableTwips heights widths width colors =>
    obtain ⟨f', h1, rfl⟩ := onDoc_one hw hs
    cases h1
    refine ⟨_, rfl, built_push h (fun R M => ?_) ?_ ?_⟩
    · simp [viewItem, Function.comp_def, List.map_const']
    · intro r hr c hc p hp
      rw [List.eq_of_mem_replicate hr] at hc
      rw [List.eq_of_mem_replicate hc] at hp
      cases hp
    · intro r hr c hc
      obtain ⟨_, _, rfl⟩ := List.mem_map.1 hr
      obtain ⟨_, _, rfl⟩ := List.mem_map.1 hc
      exact ⟨rfl, fun p hp => by cases hp⟩
  | a3 =>
    obtain ⟨f', h1, rfl⟩ := onDoc_one hw hs
    cases h1
    exact ⟨_, rfl, built_push h (fun _ _ => rfl) trivial trivial⟩
  | a4 =>
    obtain ⟨f', h1, rfl⟩ := onDoc_one hw hs
    cases h1
    exact ⟨_, rfl, built_push h (fun _ _ => rfl) trivial trivial⟩
  | text l s =>
    obtain ⟨p, f', p', hgp, hact, rfl⟩ := onPara_own h hw hs
    cases hact
    refine ⟨_, rfl, built_grow h (.refl f) rfl (fun _ _ => id) (fun _ _ => id) h.names ?_ (known_bits _)⟩
    intro q hq
    rw [hgp] at hq
    cases hq
    exact ⟨own_addText s, view_addText _ _ _ _⟩
  | tab l =>
    obtain ⟨f', h1, rfl⟩ := onDoc_one hw hs
    cases h1
    exact ⟨_, rfl, built_modPara h (fun p => ⟨fun ho => own_addRun ho (by simp [HomePiece]), fun R M => view_addRun R M p _ rfl⟩) (by simp)⟩
  | pageBreak l =>
    obtain ⟨f', h1, rfl⟩ := onDoc_one hw hs
    cases h1
    exact ⟨_, rfl, built_modPara h (fun p => ⟨fun ho => own_addRun ho (by simp [HomePiece]), fun R M => view_addRun R M p _ rfl⟩) (by simp)⟩
  | link l label target =>
    obtain ⟨p, f', p', hgp, hact, rfl⟩ := onPara_own h hw hs
    cases hact
    have hlF : f.rels.length < 2 ^ 62 := by
      have h1 := hl _ (List.getElem?_set_self (lt_of_getElem? hw))
      have e : ((f.addLinkRelation target).1).rels.length = f.rels.length + 1 := by simp [Doc.addLinkRelation]
      have h1 : ((f.addLinkRelation target).1).rels.length < 2 ^ 62 := h1
      omega
    have he : Evo f (f.addLinkRelation target).1 := .link target (.refl f)
    refine ⟨_, rfl, built_grow h he rfl (fun _ _ => he.resolves) ?_ h.names ?_ (by simp)⟩
    · intro id d hd
      unfold Doc.pictureData at hd ⊢
      cases ht : f.referTarget id with
      | none => rw [ht] at hd; cases hd
      | some t =>
        rw [ht] at hd
        rw [show (p.addLink f label target).1.referTarget id = some t from he.resolves ht]
        exact hd
    · intro q hq
      rw [hgp] at hq
      cases hq
      refine ⟨fun ho => ⟨ho.1, fun c hc => ?_⟩, ?_⟩
      · rcases List.mem_append.1 hc with hc | hc
        · exact ho.2 c hc
        · rw [List.mem_singleton] at hc
          subst hc
          trivial
      have hres : (f.addLinkRelation target).1.referTarget (f.addLinkRelation target).2 = some target :=
        referTarget_fresh (sane_base (h.sane hlF) hlF).1 _ rfl
      show (p.children ++ [_]).flatMap _ = _
      rw [List.flatMap_append]
      congr 1
      show viewChild _ _ _ ++ [] = _
      rw [List.append_nil]
      show (match (f.addLinkRelation target).1.referTarget (f.addLinkRelation target).2, ([] : List RChild) with
        | some t, [] => [Bit.link label t]
        | _, _ => [.other]) = _
      rw [hres]
  | picture inline l pic => exact built_picture h hl hQ hw hs
  | shape inline l w h' name bw kind ln =>
    cases inline with
    | true =>
      obtain ⟨p, f', p', hgp, hact, rfl⟩ := onPara_own h hw hs
      cases hact
      obtain ⟨e1, e2⟩ := evo_ids (f := f) (f1 := (p.addInlineShape f w h' name bw kind ln).1) rfl rfl rfl
      refine ⟨_, rfl, built_grow h (.incID _ (.docID (.refl f))) rfl ?_ ?_ h.names ?_ (by simp)⟩
      · rw [e1]; exact fun _ _ => id
      · rw [e2]; exact fun _ _ => id
      · intro q hq
        rw [hgp] at hq
        cases hq
        exact ⟨fun ho => own_addRun ho (by simp [HomePiece, isPic, drawingRun]), view_addRun _ _ _ _ rfl⟩
    | false =>
      obtain ⟨p, f', p', hgp, hact, rfl⟩ := onPara_own h hw hs
      cases hact
      obtain ⟨e1, e2⟩ := evo_ids (f := f) (f1 := (p.addAnchorShape f w h' name bw kind ln).1) rfl rfl rfl
      refine ⟨_, rfl, built_grow h (.incID _ (.docID (.refl f))) rfl ?_ ?_ h.names ?_ (by simp)⟩
      · rw [e1]; exact fun _ _ => id
      · rw [e2]; exact fun _ _ => id
      · intro q hq
        rw [hgp] at hq
        cases hq
        exact ⟨fun ho => own_addRun ho (by simp [HomePiece, isPic, drawingRun]), view_addRun _ _ _ _ rfl⟩
  | formatRun l k φ =>
    obtain ⟨f', h1, rfl⟩ := onDoc_one hw hs
    cases h1
    exact ⟨_, rfl, built_format h fun p => ⟨fun ho => own_childMod ho fun c hc => by cases c <;> exact hc,
      fun R M => view_childMod fun c => by cases c <;> rfl⟩⟩
  | formatPara l φ =>
    obtain ⟨f', h1, rfl⟩ := onDoc_one hw hs
    cases h1
    exact ⟨_, rfl, built_format h fun p => ⟨fun ho => ⟨ho.1, ho.2⟩, fun R M => rfl⟩⟩
  | formatTable i φ =>
    obtain ⟨f', h1, rfl⟩ := onDoc_one hw hs
    cases h1
    refine ⟨_, rfl, built_modify h (fun R M x => by cases x <;> rfl) fun x hx => ?_⟩
    cases x <;> exact hx
  | formatRow i r φ =>
    obtain ⟨f', h1, rfl⟩ := onDoc_one hw hs
    cases h1
    refine ⟨_, rfl, built_modify h (fun R M x => ?_) fun x hx => ?_⟩
    · cases x with
      | table t =>
        simp only [viewItem, Block.table.injEq]
        exact map_modify_id fun _ => rfl
      | _ => rfl
    · cases x with
      | table t => exact all_modify hx fun row _ hr => hr
      | _ => exact hx
  | formatCell i r c φ =>
    obtain ⟨f', h1, rfl⟩ := onDoc_one hw hs
    cases h1
    refine ⟨_, rfl, built_modify h (fun R M x => ?_) fun x hx => ?_⟩
    · cases x with
      | table t =>
        simp only [viewItem, Block.table.injEq]
        exact map_modify_id fun row => map_modify_id fun _ => rfl
      | _ => rfl
    · cases x with
      | table t =>
        refine all_modify (P := fun r : Row => ∀ c ∈ r.cells, c.file = some me ∧ ∀ p ∈ c.paras, OwnPara me p)
          hx fun row _ hr => ?_
        exact all_modify (P := fun c : Cell => c.file = some me ∧ ∀ p ∈ c.paras, OwnPara me p) hr fun _ _ hc => hc
      | _ => exact hx
  | resize l k w h' =>
    obtain ⟨f', h1, rfl⟩ := onDoc_one hw hs
    cases h1
    refine ⟨_, rfl, built_format h fun p => ⟨fun ho => own_childMod ho fun c hc => ?_, fun R M => view_childMod fun c => ?_⟩⟩
    · cases c with
      | run r =>
        intro x hx
        obtain ⟨y, hy, rfl⟩ := List.mem_map.1 hx
        exact resize_home w h' (hc y hy)
      | _ => exact hc
    cases c with
    | run r =>
      simp only [viewChild, List.map_map]
      split
      · exact List.map_congr_left fun x _ => resize_view M w h' x
      · rfl
    | _ => rfl
  | textTab l s =>
    obtain ⟨f', h1, rfl⟩ := onDoc_one hw hs
    cases h1
    refine ⟨_, rfl, built_modPara h (fun p => ⟨fun ho => own_addRun ho ?_, fun R M => ?_⟩) ?_⟩
    · intro c hc
      rcases List.mem_append.1 hc with hc | hc
      · have := (own_addText s ho).2 (.run (p.addText s).2) (by rw [addText_addRun]; simp [Para.addRun])
        exact this c hc
      · rw [List.mem_singleton] at hc; subst hc; trivial
    · have h1 := view_addText R M p s
      rw [addText_addRun, view_addRun _ _ _ _ (addText_instr p s)] at h1
      rw [← List.append_assoc, ← h1]
      refine (view_addRun R M p { (p.addText s).2 with children := (p.addText s).2.children ++ [.tab {}] }
        (addText_instr p s)).trans ?_
      simp [viewPiece]
    · intro hm
      rcases List.mem_append.1 hm with hm | hm
      · exact known_bits _ hm
      · simp at hm
  | place l k x y z =>
    obtain ⟨f', h1, rfl⟩ := onDoc_one hw hs
    cases h1
    refine ⟨_, rfl, built_format h fun p => ⟨fun ho => own_childMod ho fun c hc => ?_, fun R M => view_childMod fun c => ?_⟩⟩
    · cases c with
      | run r =>
        intro x' hx
        obtain ⟨y', hy, rfl⟩ := List.mem_map.1 hx
        exact place_home x y z (hc y' hy)
      | _ => exact hc
    cases c with
    | run r =>
      simp only [viewChild, List.map_map]
      split
      · exact List.map_congr_left fun c _ => place_view M x y z c
      · rfl
    | _ => rfl
  | keep names =>
    obtain ⟨f', h1, rfl⟩ := onDoc_one hw hs
    cases h1
    refine ⟨_, rfl, built_items h ?_ (fun b hb => h.known b (List.mem_filter.1 hb).1) fun x hx => ?_⟩
    · rw [view_keepBody]
      exact congrArg (List.filter _) h.shows
    · rw [keepBody, keepLoop_filter] at hx
      exact h.own x (List.mem_filter.1 hx).1
  | drop name =>
    obtain ⟨f', h1, rfl⟩ := onDoc_one hw hs
    cases h1
    have hk := h.known
    rw [← h.shows] at hk
    refine ⟨_, rfl, built_items h ?_ (fun b hb => ?_) (own_dropDrawingOf name h.own)⟩
    · rw [view_dropDrawingOf name hk]
      exact congrArg (List.map _) h.shows
    · obtain ⟨b', hb', rfl⟩ := List.mem_map.1 hb
      exact known_mapParas (h.known b' hb') fun p hp hm => hp (List.mem_filter.1 hm).1
  | keepIn l names =>
    obtain ⟨f', h1, rfl⟩ := onDoc_one hw hs
    cases h1
    exact ⟨_, rfl, built_lessPara h (fun p hp => ⟨own_keepElements names, view_keepElements names hp⟩)
      fun p hp hm => hp (List.mem_filter.1 hm).1⟩
  | dropIn l name =>
    obtain ⟨f', h1, rfl⟩ := onDoc_one hw hs
    cases h1
    exact ⟨_, rfl, built_lessPara h (fun p hp => ⟨own_dropPara name, view_dropPara name hp⟩)
      fun p hp hm => hp (List.mem_filter.1 hm).1⟩

/-- The names that pictures get -/
def ImageNamed (name : String) : Prop :=
  ∃ pic w h fmt k, ImgEnv.decodeSize pic = some (w, h, fmt) ∧ name = imageName k fmt

theorem built_run : ∀ {cs : List Call} {f : Doc} {bs : List Block} {w : World}, BuiltUp ImageNamed 0 f bs →
    (∀ g ∈ w, g.rels.length < 2 ^ 62) → run [f] (cs.map (Call.op 0)) = .ok w →
    ∃ f', w = [f'] ∧ BuiltUp ImageNamed 0 f' (cs.foldl (fun bs c => c.does bs) bs) := by
  intro cs
  induction cs with
  | nil =>
    intro f bs w h _ hr
    simp only [List.map_nil, run, Res.ok.injEq] at hr
    exact ⟨f, hr.symm, h⟩
  | cons c cs ih =>
    intro f bs w h hl hr
    simp only [List.map_cons, run] at hr
    split at hr
    · rename_i w1 h1
      have hl1 : ∀ g, w1[0]? = some g → g.rels.length < 2 ^ 62 := by
        intro g hd
        obtain ⟨g', hg', e⟩ := (run_wevo hr).old 0 g hd
        have := e.rels_le
        have := hl g' (List.mem_of_getElem? hg')
        omega
      obtain ⟨f1, rfl, hb⟩ := built_step h hl1 (fun _ _ _ _ _ hd => ⟨_, _, _, _, _, hd, rfl⟩) rfl h1
      exact ih hb hl hr
    · cases hr
    · cases hr

theorem built_none (Q : String → Prop) (me : DocId) : BuiltUp Q me Doc.new [] :=
  ⟨fun _ => sane_new, rfl, by simp, by simp [Doc.new], by simp [Doc.new]⟩

theorem built_calls {cs : List Call} {w : World} (hr : run [] (.new :: cs.map (Call.op 0)) = .ok w)
    (hl : ∀ f ∈ w, f.rels.length < 2 ^ 62) : ∃ f, w = [f] ∧ BuiltUp ImageNamed 0 f (result cs) :=
  built_run (built_none _ _) hl hr

/-- **C98, in memory.** A program makes a document and calls the functions that build it, in any order, at any
paragraph of the body or of a table cell, with any arguments.  The document then shows what the calls say: the
same blocks with the same pieces, every link with the address it was given, every picture with the bytes it was
given. -/
theorem C98_built (cs : List Call) (w : World) (hr : run [] (.new :: cs.map (Call.op 0)) = .ok w)
    (hl : ∀ f ∈ w, f.rels.length < 2 ^ 62) : ∃ f, w = [f] ∧ f.shows = result cs := by
  obtain ⟨f, e, hb⟩ := built_calls hr hl
  exact ⟨f, e, hb.shows⟩

end

/-! ## Saving and opening -/

section
variable {R R' : String → Option String} {M M' : String → Option Bytes}

theorem clRChildren_map : ∀ cs : List RChild, clRChildren cs = cs.map clRChild
  | [] => by simp [clRChildren]
  | c :: cs => by simp [clRChildren, clRChildren_map cs]

theorem normRChildren_map (file : Option DocId) : ∀ cs : List RChild, normRChildren file cs = cs.map (normRChild file)
  | [] => by simp [normRChildren]
  | c :: cs => by simp [normRChildren, normRChildren_map file cs]

theorem clPChildren_map : ∀ cs : List PChild, clPChildren cs = cs.map clPChild
  | [] => by simp [clPChildren]
  | c :: cs => by simp [clPChildren, clPChildren_map cs]

theorem normPChildren_map (file : Option DocId) : ∀ cs : List PChild, normPChildren file cs = cs.map (normPChild file)
  | [] => by simp [normPChildren]
  | c :: cs => by simp [normPChildren, normPChildren_map file cs]

theorem saved_graphic (hM : ∀ id d, M id = some d → M' (clean id) = some d) {file : Option DocId} {b : Bool}
    {g : Option Graphic} (h : viewGraphic M b g ≠ .other) :
    viewGraphic M' b (normGraphicO file (clGraphicO g)) = cleanBit (viewGraphic M b g) := by
  rcases g with _ | ⟨xa, _ | ⟨uri, _ | pic, _ | sh, _ | ca, _ | gr⟩⟩ <;>
    first
    | exact absurd rfl h
    | skip
  · obtain ⟨c1, c2, c3, sp, tb, bp⟩ := sh
    cases sp with
    | none => exact absurd rfl h
    | some sp =>
      simp only [clGraphicO, clGraphic, clGraphicDataO, clGraphicData, clShapeO, clShape, clCanvasO, clGroupO,
        normGraphicO, normGraphic, normGraphicDataO, normGraphicData, normShapeO, normShape, normCanvasO, normGroupO,
        Option.map_none, Option.map_some]
      rfl
  · obtain ⟨xp, nv, bf, sp⟩ := pic
    simp only [clGraphicO, clGraphic, clGraphicDataO, clGraphicData, clShapeO, clCanvasO, clGroupO,
      normGraphicO, normGraphic, normGraphicDataO, normGraphicData, normShapeO, normCanvasO, normGroupO, Option.map_some]
    cases bf with
    | none => exact absurd rfl h
    | some bf =>
      simp only [viewGraphic, clPicture, clBlipFill, clBlip, Option.map_some] at h ⊢
      cases hm : M bf.blip.embed with
      | none => rw [hm] at h; exact absurd rfl h
      | some d => rw [hM _ _ hm]; rfl

theorem saved_piece (hM : ∀ id d, M id = some d → M' (clean id) = some d) {file : Option DocId} {c : RChild}
    (h : viewPiece M c ≠ .other) : viewPiece M' (normRChild file (clRChild c)) = cleanBit (viewPiece M c) := by
  cases c with
  | text t => simp [clRChild, normRChild, viewPiece, clText, cleanBit]
  | tab t => simp [clRChild, normRChild, viewPiece, cleanBit]
  | br b =>
    obtain ⟨ty⟩ := b
    simp only [clRChild, normRChild, viewPiece, clBr] at h ⊢
    by_cases h1 : ty = ""
    · subst h1; rfl
    · rw [if_neg h1] at h
      by_cases h2 : ty = "page"
      · subst h2; rfl
      · rw [if_neg h2] at h
        exact absurd rfl h
  | drawing d =>
    rcases d with ⟨_ | i, _ | a⟩
    · exact absurd rfl h
    · simp only [clRChild, normRChild, clDrawing, normDrawing, clInlineO, normInlineO, clAnchorO, normAnchorO]
      cases a
      simp only [clAnchor, normAnchor]
      exact saved_graphic hM h
    · simp only [clRChild, normRChild, clDrawing, normDrawing, clInlineO, normInlineO, clAnchorO, normAnchorO]
      cases i
      simp only [clInline, normInline]
      exact saved_graphic hM h
    · exact absurd rfl h

theorem saved_child (hR : ∀ id t, R id = some t → R' (clean id) = some (clean t))
    (hM : ∀ id d, M id = some d → M' (clean id) = some d) {file : Option DocId} {c : PChild}
    (h : Bit.other ∉ viewChild R M c) :
    viewChild R' M' (normPChild file (clPChild c)) = (viewChild R M c).map cleanBit := by
  cases c with
  | rpr p => simp [viewChild] at h
  | run r =>
    obtain ⟨sp, rp, ins, cs⟩ := r
    simp only [clPChild, clRun, normPChild, normRun, viewChild, clRChildren_map, normRChildren_map,
      List.map_map] at h ⊢
    by_cases e : ins = ""
    · subst e
      rw [if_pos rfl] at h
      rw [if_pos rfl, if_pos (by decide), List.map_map]
      exact List.map_congr_left fun x hx => saved_piece hM fun e => h (e ▸ List.mem_map_of_mem hx)
    · rw [if_neg e] at h
      simp at h
  | link k =>
    obtain ⟨id, sp, rp, ins, cs⟩ := k
    simp only [clPChild, clRun, normPChild, normLink, normRun, viewChild, clRChildren_map, normRChildren_map,
      List.map_map] at h ⊢
    cases hr : R id with
    | none => rw [hr] at h; simp at h
    | some t =>
      rw [hR _ _ hr]
      rw [hr] at h
      cases cs with
      | nil => rfl
      | cons c cs => simp at h

theorem saved_para (hR : ∀ id t, R id = some t → R' (clean id) = some (clean t))
    (hM : ∀ id d, M id = some d → M' (clean id) = some d) {file : Option DocId} {p : Para}
    (h : Bit.other ∉ viewPara R M p) :
    viewPara R' M' (normPara file (clPara p)) = (viewPara R M p).map cleanBit := by
  obtain ⟨pp, cs, fl⟩ := p
  simp only [viewPara, clPara, normPara, clPChildren_map, normPChildren_map, List.flatMap_map, List.map_flatMap] at h ⊢
  rw [List.flatMap_def, List.flatMap_def]
  congr 1
  refine List.map_congr_left fun c hc => saved_child hR hM fun hm => h ?_
  exact List.mem_flatMap.2 ⟨c, hc, hm⟩

theorem saved_item (hR : ∀ id t, R id = some t → R' (clean id) = some (clean t))
    (hM : ∀ id d, M id = some d → M' (clean id) = some d) {file : Option DocId} {x : BItem}
    (h : KnownBlock (viewItem R M x)) :
    viewItem R' M' (normItem file (clItem x)) = cleanBlock (viewItem R M x) := by
  cases x with
  | para p => simp only [clItem, normItem, viewItem, cleanBlock]; rw [saved_para hR hM h]
  | sect s => rcases s with ⟨_ | s, _ | m, _ | c, _ | d⟩ <;> rfl
  | table t =>
    simp only [clItem, normItem, viewItem, cleanBlock, clTable, normTable, List.map_map, Block.table.injEq]
    refine List.map_congr_left fun r hr => ?_
    simp only [Function.comp_apply, clRow, normRow, List.map_map]
    refine List.map_congr_left fun c hc => ?_
    simp only [Function.comp_apply, clCell, normCell, List.map_map]
    refine List.map_congr_left fun p hp => ?_
    exact saved_para hR hM (h _ (List.mem_map_of_mem hr) _ (List.mem_map_of_mem hc) _ (List.mem_map_of_mem hp))

end

section
variable [GoEnv] [ImgEnv]

/-- A document, saved and opened -/
theorem built_file {Q : String → Prop} {d : DocId} {f : Doc} {bs : List Block} (hb : BuiltUp Q d f bs)
    (hlen : f.rels.length < 2 ^ 62) (hgood : ∀ r ∈ f.rels, GoodId r.id) (hxn : ∀ m ∈ f.media, xmlText m.name)
    {t : String} {l : List String} {tf : Option FS} {out : Saved} (hmed : ∀ n ∈ l, isMediaName n = false)
    (hs : Saves (f.useTemplate t l tf) out none) (me : DocId) :
    ∃ g, unpack me (reread out) = (g, none) ∧ g.shows = bs.map cleanBlock := by
  obtain ⟨g, g1, g2, _, g4, _, g6⟩ := C87_opens (f.useTemplate t l tf) out hs hgood me
  have g2 : g.rels = f.rels.map clRel := g2
  have g4 : g.items = normBody (some me) (f.items.map clItem) := g4
  have hm : ∀ n, g.getMedia n = .ok (lastMedia n f.media) := (g6 hmed).1
  have hid : ∀ r ∈ f.rels, clean r.id = r.id := fun r hr => clean_id (hgood r hr)
  have hR : ∀ id t, f.referTarget id = some t → g.referTarget (clean id) = some (clean t) := by
    intro id t ht
    obtain ⟨r, hrm, rfl, _⟩ := refer_mem ht
    rw [hid r hrm]
    show referTarget _ g.rels = _
    rw [g2, refer_clean hid]
    exact congrArg (Option.map clean) ht
  have hM : ∀ id d, f.pictureData id = some d → g.pictureData (clean id) = some d := by
    intro id d hd
    unfold Doc.pictureData at hd ⊢
    cases ht : f.referTarget id with
    | none => rw [ht] at hd; cases hd
    | some tg =>
      rw [ht] at hd
      rw [hR _ _ ht]
      dsimp only at hd ⊢
      split at hd
      · rename_i hp
        have htl : tg.toList = "media/".toList ++ tg.toList.drop 6 := by
          obtain ⟨s, hs⟩ := List.isPrefixOf_iff_prefix.1 hp
          rw [← hs, show (6 : Nat) = "media/".toList.length from rfl, List.drop_left]
        have htg : tg = "media/" ++ String.ofList (tg.toList.drop 6) := by
          apply String.toList_inj.1
          refine htl.trans ?_
          rw [String.toList_append]
          exact congrArg ("media/".toList ++ ·) String.toList_ofList.symm
        generalize String.ofList (tg.toList.drop 6) = name at hd htg
        subst htg
        cases hgm : f.getMedia name with
        | err e => rw [hgm] at hd; cases hd
        | panic => rw [hgm] at hd; cases hd
        | ok o =>
          rw [hgm] at hd
          cases o with
          | none => cases hd
          | some m =>
            have hf := (sane_base (hb.sane hlen) hlen).2.1
            obtain ⟨hmem, hname⟩ := Evo.idxOK_getMedia hf hgm
            have hx : xmlText name := hname ▸ hxn m hmem
            have hx' : clean ("media/" ++ name) = "media/" ++ name :=
              (clean_iff _).2 (xmlText_append ((clean_iff _).1 (by decide)) hx)
            rw [hx', String.toList_append, if_pos (List.isPrefixOf_iff_prefix.2 (List.prefix_append _ _)),
              show (6 : Nat) = "media/".toList.length from rfl, List.drop_left, String.ofList_toList, hm]
            have : lastMedia name f.media = some m := by
              have e := hf name
              rw [hgm] at e
              exact (Res.ok.inj e).symm
            rw [this]
            exact hd
      · cases hd
  refine ⟨g, g1, ?_⟩
  show g.items.map _ = _
  rw [g4, ← hb.shows]
  show (normBody _ _).map _ = (f.items.map _).map _
  rw [normBody, List.map_map, List.map_map, List.map_map]
  refine List.map_congr_left fun x hx => ?_
  refine saved_item hR hM (hb.known _ ?_)
  rw [← hb.shows]
  exact List.mem_map_of_mem hx

/-- **C98, in the file.** The document that such a program built is given any template, saved and opened again.
The opened document shows what the calls say, with the characters that XML cannot carry replaced. -/
theorem C98_file (cs : List Call) (w : World) (hr : run [] (.new :: cs.map (Call.op 0)) = .ok w)
    (hl : ∀ f ∈ w, f.rels.length < 2 ^ 62) :
    ∃ f, w = [f] ∧ ∀ (t : String) (l : List String) (tf : Option FS) (out : Saved),
      (∀ pic x y fmt, ImgEnv.decodeSize pic = some (x, y, fmt) → xmlText fmt) →
      (∀ n ∈ l, isMediaName n = false) → Saves (f.useTemplate t l tf) out none →
      ∀ me, ∃ g, unpack me (reread out) = (g, none) ∧ g.shows = (result cs).map cleanBlock := by
  obtain ⟨f, rfl, hb⟩ := built_calls hr hl
  refine ⟨f, rfl, fun t l tf out hfmt hmed hs me => ?_⟩
  have hlen := hl f (by simp)
  refine built_file hb hlen ((program_fine (program_run .start hr hl) f (by simp)).1.good hlen) ?_ hmed hs me
  intro m hm
  obtain ⟨pic, x, y, fmt, k, hdec, hk⟩ := hb.names m hm
  rw [hk]
  exact xmlText_append (xmlText_append (xmlText_append ((clean_iff _).1 (by decide)) (xmlText_itoa _))
    ((clean_iff _).1 (by decide))) (hfmt _ _ _ _ hdec)

/-! ## Strings that XML can carry -/

theorem clean_toList {s : String} (h : clean s = s) : s.toList.map cleanChar = s.toList := by
  have := congrArg String.toList h
  simpa [clean] using this

theorem clean_bits : ∀ {cs : List Char}, cs.map cleanChar = cs → (bitsOf cs).map cleanBit = bitsOf cs
  | [], _ => rfl
  | c :: cs, h => by
    simp only [List.map_cons, List.cons.injEq] at h
    have ih := clean_bits h.2
    simp only [bitsOf]
    split
    · simp [ih, cleanBit]
    · split
      · simp [ih, cleanBit]
      · split
        · rename_i s bs e
          rw [e] at ih
          simp only [List.map_cons, cleanBit, List.cons.injEq, Bit.text.injEq] at ih ⊢
          refine ⟨?_, ih.2⟩
          rw [clean, String.toList_ofList, List.map_cons, h.1, clean_toList ih.1]
        · simp only [List.map_cons, ih, cleanBit, clean, String.toList_ofList, List.map_nil, h.1]

theorem clean_atPlace {bs : List Block} {l : Loc} {k : List Bit → List Bit} (hk : ∀ b ∈ bs, cleanBlock b = b)
    (hn : ∀ p, p.map cleanBit = p → (k p).map cleanBit = k p) : ∀ b ∈ atPlace l k bs, cleanBlock b = b := by
  have hr : ∀ {α : Type} {f : α → α} {l : List α}, l.map f = l → ∀ a ∈ l, f a = a := by
    intro α f l h a ha
    obtain ⟨i, hi, rfl⟩ := List.getElem_of_mem ha
    have := List.getElem_map f (l := l) (i := i) (h := by simpa using hi)
    simpa [h] using this.symm
  have hm : ∀ {α : Type} {f : α → α} {l : List α}, (∀ a ∈ l, f a = a) → l.map f = l := by
    intro α f l h
    exact (List.map_congr_left h).trans (List.map_id l)
  cases l with
  | body i =>
    simp only [atPlace]
    refine all_modify hk fun a _ hP => ?_
    cases a with
    | para p =>
      simp only [cleanBlock, Block.para.injEq] at hP ⊢
      exact hn _ hP
    | _ => exact hP
  | cell i r c j =>
    simp only [atPlace]
    refine all_modify hk fun a _ hP => ?_
    cases a with
    | table t =>
      simp only [cleanBlock, Block.table.injEq] at hP ⊢
      refine hm (all_modify (hr hP) fun row _ h1 => ?_)
      refine hm (all_modify (hr h1) fun cell _ h2 => ?_)
      refine hm (all_modify (hr h2) fun p _ h3 => ?_)
      exact hn _ h3
    | _ => exact hP

theorem clean_addAt {bs : List Block} {l : Loc} {new : List Bit} (hk : ∀ b ∈ bs, cleanBlock b = b)
    (hn : new.map cleanBit = new) : ∀ b ∈ addAt l new bs, cleanBlock b = b :=
  clean_atPlace hk fun p hp => by rw [List.map_append, hp, hn]

theorem clean_filter {q : Bit → Bool} {p : List Bit} (h : p.map cleanBit = p) :
    (p.filter q).map cleanBit = p.filter q := by
  have hr : ∀ a ∈ p, cleanBit a = a := by
    intro a ha
    obtain ⟨i, hi, rfl⟩ := List.getElem_of_mem ha
    have := List.getElem_map cleanBit (l := p) (i := i) (h := by simpa using hi)
    simpa [h] using this.symm
  exact (List.map_congr_left fun a ha => hr a (List.mem_filter.1 ha).1).trans (List.map_id _)

theorem clean_mapParas {b : Block} {k : List Bit → List Bit} (h : cleanBlock b = b)
    (hk : ∀ p, p.map cleanBit = p → (k p).map cleanBit = k p) : cleanBlock (b.mapParas k) = b.mapParas k := by
  have hr : ∀ {α : Type} {f : α → α} {l : List α}, l.map f = l → ∀ a ∈ l, f a = a := by
    intro α f l h a ha
    obtain ⟨i, hi, rfl⟩ := List.getElem_of_mem ha
    have := List.getElem_map f (l := l) (i := i) (h := by simpa using hi)
    simpa [h] using this.symm
  cases b with
  | para bits =>
    simp only [cleanBlock, Block.mapParas, Block.para.injEq] at h ⊢
    exact hk _ h
  | table rows =>
    simp only [cleanBlock, Block.mapParas, Block.table.injEq, List.map_map] at h ⊢
    refine List.map_congr_left fun r hr' => ?_
    simp only [Function.comp_apply, List.map_map]
    refine List.map_congr_left fun c hc => ?_
    simp only [Function.comp_apply, List.map_map]
    refine List.map_congr_left fun p hp => ?_
    exact hk p (hr (hr (hr h r hr') c hc) p hp)
  | _ => exact h

theorem clean_does {c : Call} {bs : List Block} (hc : ∀ s ∈ c.strings, xmlText s) (hk : ∀ b ∈ bs, cleanBlock b = b) :
    ∀ b ∈ c.does bs, cleanBlock b = b := by
  have hpush : ∀ x : Block, cleanBlock x = x → ∀ b ∈ bs ++ [x], cleanBlock b = b := by
    intro x hx b hb
    rcases List.mem_append.1 hb with hb | hb
    · exact hk b hb
    · rw [List.mem_singleton] at hb; exact hb ▸ hx
  cases c with
  | paragraph => exact hpush _ rfl
  | cellParagraph i r c =>
    simp only [Call.does]
    refine all_modify hk fun a _ hP => ?_
    cases a with
    | table t =>
      have e : t = t.map fun r => r.map fun c => c.map fun p => p.map cleanBit := by
        simpa [cleanBlock] using hP.symm
      simp only [cleanBlock, Block.table.injEq]
      rw [map_modify_at (G := fun row => row.modify c fun cell => cell ++ [[]]) fun row _ =>
        map_modify_at fun cell _ => by simp, ← e]
    | _ => exact hP
  | table rows cols width colors => exact hpush _ (by simp [cleanBlock])
  | tableTwips heights widths width colors => exact hpush _ (by simp [cleanBlock])
  | a3 => exact hpush _ rfl
  | a4 => exact hpush _ rfl
  | text l s => exact clean_addAt hk (clean_bits (clean_toList ((clean_iff s).2 (hc s (by simp [Call.strings])))))
  | textTab l s =>
    refine clean_addAt hk ?_
    rw [List.map_append, clean_bits (clean_toList ((clean_iff s).2 (hc s (by simp [Call.strings]))))]
    rfl
  | tab l => exact clean_addAt hk rfl
  | pageBreak l => exact clean_addAt hk rfl
  | link l label target =>
    refine clean_addAt hk ?_
    simp [cleanBit, (clean_iff label).2 (hc _ (by simp [Call.strings])),
      (clean_iff target).2 (hc _ (by simp [Call.strings]))]
  | picture inline l pic =>
    simp only [Call.does]
    split
    · exact hk
    · exact clean_addAt hk rfl
  | shape inline l w h name bw kind ln =>
    refine clean_addAt hk ?_
    simp [cleanBit, (clean_iff kind).2 (hc _ (by simp [Call.strings]))]
  | keep names => exact fun b hb => hk b (List.mem_filter.1 hb).1
  | drop name =>
    intro b hb
    obtain ⟨b', hb', rfl⟩ := List.mem_map.1 hb
    exact clean_mapParas (hk b' hb') fun p hp => clean_filter hp
  | keepIn l names => exact clean_atPlace hk fun p hp => clean_filter hp
  | dropIn l name => exact clean_atPlace hk fun p hp => clean_filter hp
  | _ => exact hk

/-- **C98, exactly.** If the strings given to the calls have only characters that XML can carry, the opened
document shows exactly what the calls say. -/
theorem C98_exact (cs : List Call) (w : World) (hr : run [] (.new :: cs.map (Call.op 0)) = .ok w)
    (hl : ∀ f ∈ w, f.rels.length < 2 ^ 62) (hx : ∀ c ∈ cs, ∀ s ∈ c.strings, xmlText s) :
    ∃ f, w = [f] ∧ ∀ (t : String) (l : List String) (tf : Option FS) (out : Saved),
      (∀ pic x y fmt, ImgEnv.decodeSize pic = some (x, y, fmt) → xmlText fmt) →
      (∀ n ∈ l, isMediaName n = false) → Saves (f.useTemplate t l tf) out none →
      ∀ me, ∃ g, unpack me (reread out) = (g, none) ∧ g.shows = result cs := by
  have key : ∀ (cs : List Call) (bs : List Block), (∀ c ∈ cs, ∀ s ∈ c.strings, xmlText s) →
      (∀ b ∈ bs, cleanBlock b = b) → ∀ b ∈ cs.foldl (fun bs c => c.does bs) bs, cleanBlock b = b := by
    intro cs
    induction cs with
    | nil => exact fun bs _ h => h
    | cons c cs ih =>
      intro bs hc hk
      exact ih _ (fun c' h => hc c' (by simp [h])) (clean_does (hc c (by simp)) hk)
  obtain ⟨f, e, h⟩ := C98_file cs w hr hl
  refine ⟨f, e, fun t l tf out h1 h2 h3 me => ?_⟩
  obtain ⟨g, g1, g2⟩ := h t l tf out h1 h2 h3 me
  refine ⟨g, g1, g2.trans ?_⟩
  exact (List.map_congr_left (key cs [] hx (by simp))).trans (List.map_id _)

end

/-! ## Case: a document with a table, links and pictures -/

local instance builtEnv : GoEnv := ⟨fun _ => none, fun _ => false, fun _ => false⟩
local instance builtImg : ImgEnv := ⟨fun pic => if pic = [1] ∨ pic = [2] then some (4, 3, "png") else none⟩

/-- Texts with tabs and line breaks, links, pictures in the body and in a cell, a picture that is none, a shape; then
the shapes, a link and the page size are taken out again -/
def builtCalls : List Call :=
  [.paragraph, .text (.body 0) "a\tb\nc", .link (.body 0) "x" "http://x/", .picture true (.body 0) [1],
   .table 1 2 0 none, .cellParagraph 1 0 1, .picture false (.cell 1 0 1 0) [2], .text (.cell 1 0 1 0) "t",
   .picture true (.body 0) [7], .pageBreak (.body 0), .link (.cell 1 0 1 0) "y" "http://y/", .a4,
   .shape false (.cell 1 0 1 0) 5 6 "s" "auto" "rect" none, .drop "Group", .drop "NilPicture", .paragraph,
   .link (.body 3) "z" "http://z/", .text (.body 3) "z", .keepIn (.body 3) ["*docx.Run"],
   .keep ["*docx.Paragraph", "*docx.Table"]]

/-- What they build -/
def builtBlocks : List Block :=
  [.para [.text "a", .tab, .text "b", .newline, .text "c", .link "x" "http://x/", .picture true [1], .pageBreak],
   .table [[[], [[.picture false [2], .text "t", .link "y" "http://y/"]]]],
   .para [.text "z"]]

example : result builtCalls = builtBlocks := by rfl

example : ∃ (f g : Doc) (out : Saved), run [] (.new :: builtCalls.map (Call.op 0)) = .ok [f] ∧ f.shows = builtBlocks ∧
    Saves (f.useTemplate "" [] none) out none ∧ unpack 1 (reread out) = (g, none) ∧ g.shows = builtBlocks := by
  have key : (match run [] (.new :: builtCalls.map (Call.op 0)) with
    | .ok [f] => f.rels.length == 8 && f.media.all fun m =>
        decide (("word/media/" ++ m.name).utf8ByteSize ≤ 65535) && !isDirName ("word/media/" ++ m.name)
    | _ => false) = true := by decide +kernel
  split at key
  · rename_i f hr
    simp only [Bool.and_eq_true, beq_iff_eq, List.all_eq_true, decide_eq_true_eq, Bool.not_eq_true'] at key
    have hl : ∀ g ∈ [f], g.rels.length < 2 ^ 62 := by
      intro g hg
      obtain rfl := List.mem_singleton.1 hg
      omega
    obtain ⟨f', e, h1⟩ := C98_built builtCalls [f] hr hl
    cases e
    obtain ⟨f', e, h2⟩ := C98_exact builtCalls [f] hr hl (by
      intro c hc s hs
      have : ∀ c ∈ builtCalls, ∀ s ∈ c.strings, clean s = s := by decide +kernel
      exact (clean_iff s).1 (this c hc s hs))
    cases e
    obtain ⟨out, e, ho⟩ := C53_returns (f.useTemplate "" [] none) (.inr rfl)
    obtain rfl := C53_success (f.useTemplate "" [] none) (by simp [Doc.useTemplate]) (by simp [Doc.useTemplate])
      (by simpa [Doc.useTemplate] using key.2) out e ho
    obtain ⟨g, g1, g2⟩ := h2 "" [] none out (by
      intro pic x y fmt h
      have : fmt = "png" := by
        simp only [ImgEnv.decodeSize] at h
        split at h <;> simp_all
      subst this
      exact (clean_iff _).1 (by decide)) (by simp) ho 1
    exact ⟨f, g, out, hr, h1, ho, g1, g2⟩
  · cases key

end Docx
