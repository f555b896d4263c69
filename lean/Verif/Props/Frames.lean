import Verif.SpecFrames
import Verif.Props.Dress

/-!
# C104 The sizes and places of drawings that calls set are in the document and in the file
-/

namespace Docx

/-! ## One call -/

theorem frames_modPara {items : List BItem} {l : Loc} {g : Para → Para} {k : ParaFrames → ParaFrames}
    (h : ∀ p, getPara items l = some p → paraFrames (g p) = k (paraFrames p)) :
    (modPara items l g).map itemFrames = framesAt l k (items.map itemFrames) := by
  cases l with
  | body i =>
    simp only [modPara, framesAt]
    refine map_modify_at fun a ha => ?_
    cases a with
    | para p => simp [itemFrames, h p (by simp [getPara, ha])]
    | _ => rfl
  | cell i r c j =>
    simp only [modPara, framesAt]
    refine map_modify_at fun a ha => ?_
    cases a with
    | table t =>
      simp only [itemFrames, Frames.table.injEq]
      refine map_modify_at fun row hrow => ?_
      refine map_modify_at fun cell hcell => ?_
      refine map_modify_at fun p hp => ?_
      exact h p (by simp [getPara, ha, hrow, hcell, hp])
    | _ => rfl

theorem framesAt_id (l : Loc) (fs : List Frames) : framesAt l id fs = fs := by
  cases l with
  | body i => exact modify_self fun a _ => by cases a <;> rfl
  | cell i r c j =>
    refine modify_self fun a _ => ?_
    cases a with
    | table rows =>
      simp only [Frames.table.injEq]
      refine modify_self fun row _ => ?_
      exact modify_self fun cell _ => by rw [List.modify_id]
    | _ => rfl

theorem frames_addRun (p : Para) (r : Run) :
    paraFrames (p.addRun r) = paraFrames p ++ [("*docx.Run", r.children.flatMap pieceFrames)] := by
  simp [paraFrames, Para.addRun, childFrames]

theorem lines_frames (i : Nat) (ss : List (List Char)) : (linePieces i ss).flatMap pieceFrames = [] := by
  have tabs : ∀ (ks : List (List Char)) (i : Nat), (tabPieces i ks).flatMap pieceFrames = [] := by
    intro ks
    induction ks with
    | nil => intro i; rfl
    | cons k ks ih =>
      intro i
      simp only [tabPieces, List.flatMap_append, ih]
      split <;> split <;> rfl
  induction ss generalizing i with
  | nil => rfl
  | cons s ss ih =>
    simp only [linePieces, List.flatMap_append, ih, tabs]
    split <;> rfl

/-- No drawings in the pieces of a text -/
theorem addText_frames (p : Para) (s : String) :
    ((p.addText s).2.children.flatMap pieceFrames) = [] ∧ paraFrames (p.addText s).1 = paraFrames p ++ [("*docx.Run", [])] := by
  have key : ((p.addText s).2.children.flatMap pieceFrames) = [] ∧ (p.addText s).1 = p.addRun (p.addText s).2 := by
    unfold Para.addText
    split
    · exact ⟨rfl, rfl⟩
    · refine ⟨?_, rfl⟩
      exact lines_frames _ _
  exact ⟨key.1, by rw [key.2, frames_addRun, key.1]⟩

theorem frames_format {f : Doc} {l : Loc} {g : Para → Para} (h : ∀ p, paraFrames (g p) = paraFrames p) :
    Doc.frames { f with items := modPara f.items l g } = f.frames := by
  show (modPara f.items l g).map itemFrames = _
  rw [frames_modPara (k := id) fun p _ => h p, framesAt_id]
  rfl

section
variable {R : String → Option String} {M : String → Option Bytes}

/-- A drawing that shows something has one frame, and this stays when the drawing does. -/
theorem frames_drawing {d : Drawing} (h : viewPiece M (.drawing d) ≠ .other) :
    ∃ fr, pieceFrames (.drawing d) = [fr] ∧ ∀ name, fr.stays name = (viewPiece M (.drawing d)).stays name := by
  have shp : ∀ {b : Bool} {g : Option Graphic}, viewGraphic M b g ≠ .other → ∀ name,
      (!(shapeInside g && ["Shape", "ShapeAndCanvas", "ShapeAndCanvasAndGroup", "NilPicture"].contains name)) =
        (viewGraphic M b g).stays name := by
    intro b g hg name
    rcases viewGraphic_data hg with ⟨u, pic, h1, h2⟩ | ⟨u, s, h1, h2⟩
    · rw [h2]; simp [shapeInside, h1]
    · rw [h2]; simp [shapeInside, h1]
  rcases d with ⟨_ | i, _ | a⟩
  · exact absurd rfl h
  · exact ⟨_, rfl, fun name => shp h name⟩
  · exact ⟨_, rfl, fun name => shp h name⟩
  · exact absurd rfl h

theorem frames_dropChildren {drop : Drawing → Bool} {name : String} (hd : Drops M drop name) : ∀ {cs : List PChild},
    Bit.other ∉ cs.flatMap (viewChild R M) →
    (dropPChildren drop cs).map childFrames = stripped name (cs.map childFrames) := by
  have hr : ∀ {cs : List RChild}, Bit.other ∉ cs.map (viewPiece M) →
      (dropRChildren drop cs).flatMap pieceFrames = (cs.flatMap pieceFrames).filter (PicFrame.stays name) := by
    intro cs
    induction cs with
    | nil => intro _; rfl
    | cons c cs ih =>
      intro h
      rw [List.map_cons, List.mem_cons, not_or] at h
      rw [List.flatMap_cons, List.filter_append, ← ih h.2]
      cases c with
      | drawing d =>
        have e := hd.iff d (Ne.symm h.1)
        obtain ⟨fr, h1, h2⟩ := frames_drawing (Ne.symm h.1)
        rw [← h2] at e
        simp only [dropRChildren, h1]
        cases hb : fr.stays name <;> rw [hb] at e <;> simp [e, hb, h1]
      | text t => rfl
      | tab t => rfl
      | br b => rfl
  intro cs
  induction cs with
  | nil => intro _; rfl
  | cons c cs ih =>
    intro h
    rw [List.flatMap_cons, List.mem_append, not_or] at h
    have ih := ih h.2
    unfold stripped at ih ⊢
    cases c with
    | rpr x => simp [dropPChildren, childFrames, ih]
    | run r =>
      simp only [dropPChildren, List.map_cons, ih, childFrames]
      have h1 := h.1
      simp only [viewChild] at h1
      by_cases e : r.instr = ""
      · rw [if_pos e] at h1
        rw [hr h1]
      · rw [if_neg e] at h1; simp at h1
    | link k => simp [dropPChildren, childFrames, ih]

theorem frames_dropPara (name : String) {p : Para} (h : Bit.other ∉ viewPara R M p) :
    paraFrames (dropPara name p) = stripped name (paraFrames p) := by
  have key : ∀ {t : Drawing → Bool} {n : String}, Drops M t n →
      paraFrames { p with children := dropPChildren t p.children } = stripped n (paraFrames p) :=
    fun hd => frames_dropChildren hd h
  unfold dropPara
  cases hm : dropMethod name with
  | none =>
    have : ∀ fr : PicFrame, fr.stays name = true := by
      intro fr
      unfold dropMethod at hm
      repeat' split at hm
      all_goals first | (cases hm; done) | simp_all [PicFrame.stays]
    simp [stripped, this, List.filter_eq_self.2]
  | some f =>
    unfold dropMethod at hm
    repeat' split at hm
    all_goals first | cases hm | skip
    all_goals subst_vars
    · exact key (drops_test (fun _ _ => rfl) (fun _ _ => by rfl))
    · exact key (drops_test (fun _ _ => rfl) (fun _ _ => by rfl))
    · exact key (drops_test (fun _ _ => rfl) (fun _ _ => by rfl))
    · exact key (drops_test (fun _ _ => rfl) (fun _ _ => by rfl))
    · exact key (drops_test (fun _ _ => rfl) (fun _ _ => by rfl))
    · exact key drops_nil

theorem size_inside (g : Option Graphic) (w h : Int64) :
    shapeInside (sizeGraphic g w h) = shapeInside g ∧ alphaInside (sizeGraphic g w h) = alphaInside g ∧
    innerSize (sizeGraphic g w h) = if shapeInside g then innerSize g else
      if (g.bind (·.data)).bind (·.pic) = none then innerSize g else (innerSize g).map fun _ => (w, h) := by
  rcases g with _ | ⟨xa, _ | ⟨u, _ | ⟨xp, nv, bf, _ | sp⟩, s, ca, gr⟩⟩ <;>
    simp [sizeGraphic, shapeInside, alphaInside, innerSize]

theorem fade_inside (g : Option Graphic) (a : Int64) :
    shapeInside (fadeGraphic a g) = shapeInside g ∧ innerSize (fadeGraphic a g) = innerSize g ∧
    alphaInside (fadeGraphic a g) = if (((g.bind (·.data)).bind (·.pic)).bind (·.blipFill)) = none then alphaInside g else some a := by
  rcases g with _ | ⟨xa, _ | ⟨u, _ | ⟨xp, nv, _ | bf, sp⟩, s, ca, gr⟩⟩ <;>
    simp [fadeGraphic, shapeInside, alphaInside, innerSize]

/-- A graphic that shows something is a shape, or a picture with a blip. -/
theorem graphic_inside {b : Bool} {g : Option Graphic} (h : viewGraphic M b g ≠ .other) :
    (shapeInside g = true ∧ (g.bind (·.data)).bind (·.pic) = none) ∨
    (shapeInside g = false ∧ (((g.bind (·.data)).bind (·.pic)).bind (·.blipFill)) ≠ none) := by
  rcases g with _ | ⟨xa, _ | ⟨uri, _ | ⟨xp, nv, _ | bf, sp⟩, _ | sh, _ | ca, _ | gr⟩⟩ <;>
    first
    | exact absurd rfl h
    | exact .inl ⟨rfl, rfl⟩
    | exact .inr ⟨rfl, by simp⟩

theorem frames_resize (w h : Int64) {c : RChild} (hk : viewPiece M c ≠ .other) :
    pieceFrames (resizePiece w h c) = (pieceFrames c).map (PicFrame.resized w h) := by
  have key : ∀ {b : Bool} {g : Option Graphic}, viewGraphic M b g ≠ .other → innerSize (sizeGraphic g w h) =
      if shapeInside g then innerSize g else (innerSize g).map fun _ => (w, h) := by
    intro b g hg
    rw [(size_inside g w h).2.2]
    rcases graphic_inside hg with ⟨h1, _⟩ | ⟨h1, h2⟩
    · rw [h1]; rfl
    · have h3 : (g.bind (·.data)).bind (·.pic) ≠ none := fun e => h2 (by rw [e]; rfl)
      rw [if_neg (by simp [h1]), if_neg h3, if_neg (by simp [h1])]
  cases c with
  | drawing d =>
    rcases d with ⟨_ | i, _ | a⟩
    · rfl
    · have hk : viewGraphic M false a.graphic ≠ .other := hk
      simp only [resizePiece, pieceFrames, Option.map_none, Option.map_some, Option.toList_none, Option.toList_some,
        List.nil_append, List.map_cons, List.map_nil, anchorFrame, Anchor.setSize, PicFrame.resized, size_inside, key hk,
        Option.map_map]
      rfl
    · have hk : viewGraphic M true i.graphic ≠ .other := hk
      simp only [resizePiece, pieceFrames, Option.map_none, Option.map_some, Option.toList_none, Option.toList_some,
        List.append_nil, List.map_cons, List.map_nil, inlineFrame, Inline.setSize, PicFrame.resized, size_inside, key hk,
        Option.map_map]
      rfl
    · exact absurd rfl hk
  | _ => rfl

theorem frames_place (x y z : Int64) {c : RChild} (hk : viewPiece M c ≠ .other) :
    pieceFrames (placePiece x y z c) = (pieceFrames c).map (PicFrame.placed x y z) := by
  have key : ∀ {b : Bool} {g : Option Graphic}, viewGraphic M b g ≠ .other → alphaInside (fadeGraphic z g) =
      if shapeInside g then alphaInside g else some z := by
    intro b g hg
    rw [(fade_inside g z).2.2]
    rcases graphic_inside hg with ⟨h1, h2⟩ | ⟨h1, h2⟩
    · rw [h1, h2]; rfl
    · rw [h1, if_neg h2]; rfl
  cases c with
  | drawing d =>
    rcases d with ⟨_ | i, _ | a⟩
    · rfl
    · have hk : viewGraphic M false a.graphic ≠ .other := hk
      simp only [placePiece, pieceFrames, Option.map_none, Option.map_some, Option.toList_none, Option.toList_some,
        List.nil_append, List.map_cons, List.map_nil, anchorFrame, PicFrame.placed, fade_inside, key hk,
        Option.map_map, Bool.false_eq_true, if_false]
      rfl
    · rfl
    · exact absurd rfl hk
  | _ => rfl

/-- The pieces of the run that is child `k` are changed one by one. -/
theorem frames_childMod {g : RChild → RChild} {q : PicFrame → PicFrame} (hg : ∀ c, viewPiece M c ≠ .other →
    pieceFrames (g c) = (pieceFrames c).map q) {p : Para} (k : Nat) (hk : Bit.other ∉ viewPara R M p) :
    paraFrames { p with children := p.children.modify k fun
        | .run r => .run { r with children := r.children.map g }
        | x => x } = (paraFrames p).modify k fun x => (x.1, x.2.map q) := by
  refine map_modify_at fun c hc => ?_
  cases c with
  | run r =>
    simp only [childFrames, Prod.mk.injEq, true_and]
    have hr : ∀ x ∈ r.children, viewPiece M x ≠ .other := by
      intro x hx e
      refine hk (List.mem_flatMap.2 ⟨_, List.mem_of_getElem? hc, ?_⟩)
      simp only [viewChild]
      split
      · rw [← e]; exact List.mem_map_of_mem hx
      · simp
    revert hr
    induction r.children with
    | nil => intro _; rfl
    | cons x xs ih =>
      intro hr
      rw [List.map_cons, List.flatMap_cons, List.flatMap_cons, List.map_append, ih fun y hy => hr y (.tail _ hy),
        hg x (hr x (.head _))]
  | _ => rfl

end

section
variable [GoEnv] [ImgEnv] {Q : String → Prop} {me : DocId}

omit [GoEnv] in
/-- What `Call.frames` says of one call -/
theorem frames_step {f f' : Doc} {bs : List Block} {c : Call} {w w' : World} (h : BuiltUp Q me f bs)
    (hw : w[me]? = some f) (hs : step w (c.op me) = .ok w') (hf' : w'[me]? = some f') :
    f'.frames = c.frames f.frames := by
  have got : ∀ {g : Doc}, w' = w.set me g → f' = g := by
    rintro g rfl
    rw [List.getElem?_set_self (lt_of_getElem? hw)] at hf'
    exact (Option.some.inj hf').symm
  have known : ∀ b ∈ f.items.map (viewItem f.referTarget f.pictureData), KnownBlock b := by
    have := h.known
    rw [← h.shows] at this
    exact this
  -- calls at a paragraph
  have para : ∀ {l : Loc} {act : Doc → Para → Res (Doc × Para)} {k : ParaFrames → ParaFrames},
      World.onPara w me l act = .ok w' →
      (∀ p f1 p1, act f p = .ok (f1, p1) → f1.items = f.items ∧ paraFrames p1 = k (paraFrames p)) →
      f'.frames = framesAt l k f.frames := by
    intro l act k h1 h2
    obtain ⟨p, f1, p1, hgp, hact, e⟩ := onPara_own h hw h1
    obtain ⟨i1, i2⟩ := h2 p f1 p1 hact
    rw [got e]
    show (modPara f1.items l fun _ => p1).map itemFrames = _
    rw [i1]
    refine frames_modPara fun q hq => ?_
    rw [hgp] at hq
    cases hq
    exact i2
  -- edits
  have edit : ∀ {act : Doc → Res Doc}, World.onDoc w me act = .ok w' → act f = .ok f' := by
    intro act h1
    obtain ⟨f1, h2, e⟩ := onDoc_one hw h1
    rw [got e]
    exact h2
  cases c with
  | paragraph => cases edit hs; exact List.map_append
  | cellParagraph i r c =>
    cases edit hs
    refine map_modify_at fun a _ => ?_
    cases a with
    | table t =>
      simp only [itemFrames, Frames.table.injEq]
      refine map_modify_at fun row _ => ?_
      refine map_modify_at fun cell _ => ?_
      simp [Cell.addParagraph, paraFrames]
    | _ => rfl
  | table rows cols width colors =>
    have h1 := edit hs
    simp only [Doc.addTable] at h1
    split at h1
    · rename_i h2
      split at h2
      · cases h2
      · split at h2
        · cases h2
        · cases h2
          cases h1
          refine List.map_append.trans (congrArg (f.frames ++ ·) ?_)
          simp [itemFrames]
    · cases h1
    · cases h1
  | tableTwips heights widths width colors =>
    cases edit hs
    refine List.map_append.trans (congrArg (f.frames ++ ·) ?_)
    simp [itemFrames, Function.comp_def, List.map_const']
  | a3 => cases edit hs; exact List.map_append
  | a4 => cases edit hs; exact List.map_append
  | text l s =>
    exact para hs fun p f1 p1 h1 => by cases h1; exact ⟨rfl, (addText_frames _ _).2⟩
  | tab l => cases edit hs; exact frames_modPara fun p _ => frames_addRun p _
  | pageBreak l => cases edit hs; exact frames_modPara fun p _ => frames_addRun p _
  | link l label target =>
    exact para hs fun p f1 p1 h1 => by cases h1; exact ⟨rfl, by simp [paraFrames, Para.addLink, childFrames]⟩
  | picture inline l pic =>
    have key : ∀ {act : Doc → Para → Res (Doc × Para)} (mk : Int64 → Int64 → String → Int64 → Int64 → Drawing),
        World.onPara w me l act = .ok w' →
        (∀ f p, act f p = match f.addPicture pic with
          | (f', .ok (idn, id, rid, x, y)) => .ok (f', p.addRun (drawingRun (mk idn id rid x y)))
          | (f', .err _) => .ok (f', p)
          | (_, .panic) => .panic) →
        (∀ a b r x y, pieceFrames (.drawing (mk a b r x y)) = [newPicFrame inline false x y]) →
        f'.frames = (Call.picture inline l pic).frames f.frames := by
      intro act mk h1 h2 h5
      simp only [Call.frames]
      cases hd : ImgEnv.decodeSize pic with
      | none =>
        rw [para (k := id) h1 fun p f1 p1 h3 => ?_, framesAt_id]
        simp only [h2, Doc.addPicture, hd] at h3
        cases h3
        exact ⟨rfl, rfl⟩
      | some sz =>
        obtain ⟨w0, h0, fmt⟩ := sz
        dsimp only
        cases hsc : scaleSize w0 h0 with
        | none =>
          rw [para (k := id) h1 fun p f1 p1 h3 => ?_, framesAt_id]
          simp only [h2, Doc.addPicture, hd] at h3
          rw [hsc] at h3; cases h3
        | some xy =>
          refine para h1 fun p f1 p1 h3 => ?_
          simp only [h2, Doc.addPicture, hd] at h3
          rw [hsc] at h3
          cases h3
          refine ⟨rfl, ?_⟩
          rw [frames_addRun]
          simp only [drawingRun, List.flatMap_cons, List.flatMap_nil, List.append_nil, h5]
    cases inline with
    | true =>
      refine key (fun idn id rid x y => { inl := some (mkInlinePic idn id rid x y) }) hs (fun f p => ?_)
        fun _ _ _ _ _ => rfl
      simp only [Para.addInlineDrawing]
      rcases f.addPicture pic with ⟨f', _ | _ | _⟩ <;> rfl
    | false =>
      refine key (fun idn id rid x y => { anchor := some (mkAnchorPic idn id rid x y) }) hs (fun f p => ?_)
        fun _ _ _ _ _ => rfl
      simp only [Para.addAnchorDrawing]
      rcases f.addPicture pic with ⟨f', _ | _ | _⟩ <;> rfl
  | shape inline l x y name bw kind ln =>
    cases inline with
    | true => exact para hs fun p f1 p1 h1 => by cases h1; exact ⟨rfl, frames_addRun _ _⟩
    | false => exact para hs fun p f1 p1 h1 => by cases h1; exact ⟨rfl, frames_addRun _ _⟩
  | formatRun l k φ =>
    cases edit hs
    exact frames_format fun p => map_modify_id fun c => by cases c <;> rfl
  | formatPara l φ => cases edit hs; exact frames_format fun p => rfl
  | formatTable i φ => cases edit hs; exact map_modify_id fun a => by cases a <;> rfl
  | formatRow i r φ =>
    cases edit hs
    refine map_modify_id fun a => ?_
    cases a with
    | table t =>
      simp only [itemFrames, Frames.table.injEq]
      exact map_modify_id fun row => rfl
    | _ => rfl
  | formatCell i r c φ =>
    cases edit hs
    refine map_modify_id fun a => ?_
    cases a with
    | table t =>
      simp only [itemFrames, Frames.table.injEq]
      refine map_modify_id fun row => ?_
      exact map_modify_id fun cell => rfl
    | _ => rfl
  | resize l k x y =>
    cases edit hs
    exact frames_modPara fun p hp => frames_childMod (fun c => frames_resize x y) k (known_getPara known hp)
  | textTab l s =>
    cases edit hs
    refine frames_modPara fun p _ => ?_
    obtain ⟨h1, _⟩ := addText_frames p s
    refine (frames_addRun p _).trans ?_
    rw [List.flatMap_append, h1]
    rfl
  | place l k x y z =>
    cases edit hs
    exact frames_modPara fun p hp => frames_childMod (fun c => frames_place x y z) k (known_getPara known hp)
  | keep names =>
    cases edit hs
    show (keepBody names f.items).map itemFrames = (f.items.map itemFrames).filter _
    rw [keepBody, keepLoop_filter, List.filter_map]
    congr 1
    exact List.filter_congr fun x _ => by cases x <;> rfl
  | drop name =>
    cases edit hs
    show (dropDrawingOf name f.items).map itemFrames = (f.items.map itemFrames).map _
    rw [dropDrawingOf_each, List.map_map, List.map_map]
    refine List.map_congr_left fun x hx => ?_
    have hk := known _ (List.mem_map_of_mem hx)
    cases x with
    | para p => exact congrArg Frames.para (frames_dropPara name hk)
    | sect s => rfl
    | table t =>
      simp only [Function.comp_apply, itemFrames, Frames.mapParas, List.map_map, Frames.table.injEq]
      refine List.map_congr_left fun r hr => ?_
      simp only [Function.comp_apply, dropRow, List.map_map]
      refine List.map_congr_left fun c hc => ?_
      simp only [Function.comp_apply, dropCell, List.map_map]
      exact List.map_congr_left fun p hp => frames_dropPara name
        (hk _ (List.mem_map_of_mem hr) _ (List.mem_map_of_mem hc) _ (List.mem_map_of_mem hp))
  | keepIn l names =>
    cases edit hs
    refine frames_modPara fun p _ => ?_
    simp only [paraFrames, Para.keepElements, keepLoop_filter]
    rw [List.filter_map]
    congr 1
    exact List.filter_congr fun x _ => by cases x <;> rfl
  | dropIn l name =>
    cases edit hs
    exact frames_modPara fun p hp => frames_dropPara name (known_getPara known hp)

end

/-! ## Copies -/

theorem copied_paraFrames {src to : DocId} {s T : Doc} {p p' : Para} (h : ParaCopied (viewRules src s to T) to p p')
    (ho : OwnPara src p) (hk : Bit.other ∉ viewPara s.referTarget s.pictureData p) :
    paraFrames p' = (paraFrames p).map fun x => (x.1, x.2.map PicFrame.copied) := by
  obtain ⟨_, _, h3⟩ := h
  obtain ⟨o1, o2⟩ := ho
  rw [o1] at h3
  have pieces : ∀ {cs cs' : List RChild}, Each (RChildCopied (viewRules src s to T)) cs cs' →
      Bit.other ∉ cs.map (viewPiece s.pictureData) → (∀ c ∈ cs, HomePiece src c) →
      cs'.flatMap pieceFrames = (cs.flatMap pieceFrames).map PicFrame.copied := by
    intro cs cs' h
    induction h with
    | nil => intro _ _; rfl
    | @cons c c' cs cs' hc _ ih =>
      intro hk hh
      simp only [List.map_cons, List.mem_cons, not_or] at hk
      rw [List.flatMap_cons, List.flatMap_cons, List.map_append, ih hk.2 fun x hx => hh x (.tail _ hx)]
      congr 1
      cases c with
      | drawing d =>
        obtain ⟨d', rfl, h⟩ := hc
        exact (h (Ne.symm hk.1) (hh _ (.head _))).2.2
      | text x => have e : c' = .text x := hc; subst e; rfl
      | tab x => have e : c' = .tab x := hc; subst e; rfl
      | br x => have e : c' = .br x := hc; subst e; rfl
  unfold paraFrames
  unfold viewPara at hk
  clear o1
  generalize p.children = cs at *
  generalize p'.children = cs' at *
  induction h3 with
  | nil => rfl
  | @run r r' cs cs' hr _ ih =>
    rw [List.flatMap_cons, List.mem_append, not_or] at hk
    rw [List.map_cons, List.map_cons, List.map_cons, ih hk.2 fun c hc => o2 c (.tail _ hc)]
    have hk1 := hk.1
    simp only [viewChild] at hk1
    by_cases e : r.instr = ""
    · rw [if_pos e] at hk1
      simp only [childFrames, pieces hr.2.2.2 hk1 (o2 _ (.head _))]
    · rw [if_neg e] at hk1
      simp at hk1
  | link hl hr _ ih =>
    rw [List.flatMap_cons, List.mem_append, not_or] at hk
    rw [List.map_cons, List.map_cons, List.map_cons, ih hk.2 fun c hc => o2 c (.tail _ hc)]
    rfl
  | dropped hd _ ih =>
    rw [List.flatMap_cons, List.mem_append, not_or] at hk
    have hk1 := hk.1
    simp only [viewChild, hd rfl] at hk1
    simp at hk1
  | rpr _ ih =>
    rw [List.flatMap_cons, List.mem_append, not_or] at hk
    rw [List.map_cons, List.map_cons, List.map_cons, ih hk.2 fun c hc => o2 c (.tail _ hc)]
    rfl

/-- Copies of lists, one by one -/
theorem each_image {α β γ : Type} {P : α → α → Prop} {f : α → β} {g : α → γ} {q : β → γ} {as bs : List α} (h : Each P as bs)
    (hp : ∀ a ∈ as, ∀ b, P a b → g b = q (f a)) : bs.map g = (as.map f).map q := by
  induction h with
  | nil => rfl
  | cons hab _ ih =>
    rw [List.map_cons, List.map_cons, List.map_cons, ih fun a ha b => hp a (.tail _ ha) b, hp _ (.head _) _ hab]

theorem copied_itemFrames {src to : DocId} {s T : Doc} {x x' : BItem} (h : ItemCopied (viewRules src s to T) to x x')
    (ho : OwnItem src x) (hk : KnownBlock (viewItem s.referTarget s.pictureData x)) :
    itemFrames x' = (itemFrames x).copied := by
  cases x with
  | para p =>
    obtain ⟨p', rfl, h⟩ := h
    exact congrArg Frames.para (copied_paraFrames h ho hk)
  | sect c =>
    have e : x' = .sect c := h
    subst e
    rfl
  | table b =>
    obtain ⟨b', rfl, h1, h2, h⟩ := h
    simp only [itemFrames, Frames.copied, Frames.mapParas, Frames.table.injEq]
    refine each_image h fun r hr r' hrr => ?_
    refine each_image hrr.2 fun c hc c' hcc => ?_
    exact each_image hcc.2.2 fun p hp p' hpp => copied_paraFrames hpp ((ho r hr c hc).2 p hp)
      (hk _ (List.mem_map_of_mem hr) _ (List.mem_map_of_mem hc) _ (List.mem_map_of_mem hp))

/-! ## Programs -/

section
variable [GoEnv] [ImgEnv]

theorem framed_makes {w : World} {s : List (List Block)} {t : List (List Frames)} (h : FramedDocs w s t) : Makes w s := by
  induction h with
  | start => exact .start
  | new _ ih => exact .new ih
  | opening a g _ hu hs hl hn hk ih => exact .opening a g ih hu hs hl hn hk
  | call d c _ hs hl ih => exact .call d c ih hs hl
  | append to src _ hs hl ih => exact .append to src ih hs hl
  | split d sep q _ hs hq hl ih => exact .split d sep q ih hs hq hl
  | template d p l tf _ hs ih => exact .template d p l tf ih hs

theorem framed_documents {w : World} {s : List (List Block)} {t : List (List Frames)} (h : FramedDocs w s t) :
    w.map Doc.frames = t := by
  induction h with
  | start => rfl
  | new _ ih => rw [List.map_append, ih]; rfl
  | opening a g _ _ _ _ _ _ ih => rw [List.map_append, ih]; rfl
  | @call w s t w' d c hm hs hl ih =>
    obtain ⟨i1, i2, i3, i4⟩ := makes_program (framed_makes hm)
    have hd : d < w.length := by
      apply Classical.byContradiction
      intro hd
      have hnone : w[d]? = none := List.getElem?_eq_none (Nat.le_of_not_lt hd)
      cases c with
      | picture b l p => cases b <;> simp [Call.op, step, World.onPara, hnone] at hs
      | shape b l x y n m k ln => cases b <;> simp [Call.op, step, World.onPara, hnone] at hs
      | _ => simp [Call.op, step, World.onPara, World.onDoc, hnone] at hs
    have hw := List.getElem?_eq_getElem hd
    have hb0 := i4 d _ _ hw (List.getElem?_eq_getElem (i2 ▸ hd))
    obtain ⟨f', rfl, hb⟩ := built_step hb0 (fun g hg => hl g (List.mem_of_getElem? hg)) (fun _ _ _ _ _ _ => trivial) hw hs
    rw [← ih]
    exact modify_set hw (frames_step hb0 hw hs (List.getElem?_set_self hd))
  | @append w s t w' to src hm hs hl ih =>
    obtain ⟨i1, i2, i3, i4⟩ := makes_program (framed_makes hm)
    simp only [step] at hs
    cases hto : w[to]? with
    | none => rw [hto] at hs; cases hs
    | some d =>
      rw [hto] at hs
      dsimp only at hs
      cases hsrc : w[src]? with
      | none => simp [World.appendFile, hsrc] at hs
      | some sd =>
        have h1 := List.getElem?_eq_getElem (l := s) (i := to) (i2 ▸ lt_of_getElem? hto)
        have h2 := List.getElem?_eq_getElem (l := s) (i := src) (i2 ▸ lt_of_getElem? hsrc)
        have bS := i4 src _ _ hsrc h2
        obtain ⟨T, rfl, _, copies, e1, e2⟩ := built_append hto hsrc (i4 to _ _ hto h1) bS hs hl
        rw [← ih]
        refine modify_set hto ?_
        rw [List.getElem?_map, hsrc]
        show T.items.map itemFrames = d.items.map itemFrames ++ (sd.items.map itemFrames).map Frames.copied
        rw [e1, List.map_append, each_image (q := Frames.copied) e2 fun x hx x' hxx => copied_itemFrames hxx (bS.own x hx)
          (bS.known _ (by rw [← bS.shows]; exact List.mem_map_of_mem hx))]
  | @split w s t w' d sep q hm hs hq hl ih =>
    obtain ⟨i1, i2, i3, i4⟩ := makes_program (framed_makes hm)
    simp only [step] at hs
    split at hs
    · rename_i w1 ds hsp
      cases hs
      cases hd : w[d]? with
      | none => simp [World.splitByParagraph, hd] at hsp
      | some f =>
        obtain ⟨b0, hsd⟩ : ∃ b0, s[d]? = some b0 :=
          ⟨_, List.getElem?_eq_getElem (l := s) (i := d) (i2 ▸ lt_of_getElem? hd)⟩
        have hb := i4 d _ _ hd hsd
        obtain ⟨k1, k2, _, k4⟩ := built_split hd hb (fun p v hp hv => hq f p v hd hp hv) hsp hl
        rw [hsd, ← ih, List.getElem?_map, hd]
        have hcut : (pieces (fun x : Block × Frames => Block.accepted q x.1) (b0.zip f.frames)).map (·.map (·.2.copied)) =
            (pieces (fun x => Block.accepted q (viewItem f.referTarget f.pictureData x)) f.items).map
              (·.map fun x => (itemFrames x).copied) := by
          rw [← hb.shows]
          show (pieces _ ((f.items.map (viewItem f.referTarget f.pictureData)).zip (f.items.map itemFrames))).map _ = _
          rw [List.zip_map', ← pieces_image, List.map_map]
          refine List.map_congr_left fun c _ => ?_
          simp
        show _ = _ ++ (pieces (fun x : Block × Frames => Block.accepted q x.1) (b0.zip f.frames)).map (·.map (·.2.copied))
        rw [hcut]
        have hlen : (pieces (fun x => Block.accepted q (viewItem f.referTarget f.pictureData x)) f.items).length =
            (pieces (Block.accepted q) b0).length := by
          rw [← hb.shows]
          show _ = (pieces _ (f.items.map _)).length
          rw [← pieces_image, List.length_map]
        apply List.ext_getElem?
        intro e
        by_cases he : e < w.length
        · rw [List.getElem?_append_left (by simpa using he), List.getElem?_map, List.getElem?_map,
            List.getElem?_eq_getElem he, k1 e _ (List.getElem?_eq_getElem he)]
        · obtain ⟨k, rfl⟩ := Nat.exists_eq_add_of_le (Nat.le_of_not_lt he)
          rw [List.getElem?_append_right (by simp), List.length_map, Nat.add_sub_cancel_left, List.getElem?_map,
            List.getElem?_map]
          cases hT : w'[w.length + k]? with
          | none =>
            have := List.getElem?_eq_none_iff.1 hT
            rw [List.getElem?_eq_none (by rw [hlen]; omega)]
            rfl
          | some T =>
            obtain ⟨b, _, _, c, hc, hcp⟩ := k4 k T hT
            rw [hc]
            have hmem : ∀ x ∈ c, x ∈ f.items := fun x hx => pieces_mem _ _ _ (List.mem_of_getElem? hc) x hx
            refine congrArg some ((each_image (f := id) (q := fun x => (itemFrames x).copied) hcp fun x hx x' hxx =>
              copied_itemFrames hxx (hb.own x (hmem x hx))
                (hb.known _ (by rw [← hb.shows]; exact List.mem_map_of_mem (hmem x hx)))).trans ?_)
            rw [List.map_id]
    · cases hs
    · cases hs
  | @template w s t w' d p l tf _ hs ih =>
    simp only [step, World.onDoc] at hs
    cases hd : w[d]? with
    | none => rw [hd] at hs; cases hs
    | some f =>
      rw [hd] at hs
      obtain rfl : w.set d (f.useTemplate p l tf) = w' := by simpa using hs
      rw [← ih, modify_set (h := Doc.frames) (k := id) (y := f.useTemplate p l tf) hd rfl, List.modify_id]

/-- Several building calls on one document -/
theorem framed_calls {cs : List Call} {d : DocId} : ∀ {w w' : World} {s : List (List Block)} {t : List (List Frames)},
    FramedDocs w s t → run w (cs.map (Call.op d)) = .ok w' → (∀ f ∈ w', f.rels.length < 2 ^ 62) →
    FramedDocs w' (s.modify d fun bs => cs.foldl (fun bs c => c.does bs) bs)
      (t.modify d fun fs => cs.foldl (fun fs c => c.frames fs) fs) := by
  induction cs with
  | nil =>
    intro w w' s t h hr _
    simp only [List.map_nil, run, Res.ok.injEq] at hr
    subst hr
    simp only [List.foldl_nil]
    rw [show s.modify d (fun bs => bs) = s from List.modify_id d s,
      show t.modify d (fun bs => bs) = t from List.modify_id d t]
    exact h
  | cons c cs ih =>
    intro w w' s t h hr hl
    simp only [List.map_cons, run] at hr
    split at hr
    · rename_i w1 h1
      have hl1 : ∀ f ∈ w1, f.rels.length < 2 ^ 62 := by
        intro f hf
        obtain ⟨e, he⟩ := List.getElem?_of_mem hf
        obtain ⟨f', hf', ev⟩ := (run_wevo hr).old e f he
        have := ev.rels_le
        have := hl f' (List.mem_of_getElem? hf')
        omega
      have := ih (.call d c h h1 hl1) hr hl
      rw [List.modify_modify_eq, List.modify_modify_eq] at this
      exact this
    · cases hr
    · cases hr

/-- **C104, in memory.** A program makes a document and calls the functions that build it, in any order, at any place,
with any arguments.  The document then has exactly the drawings that the calls say, each with the sizes, the place and
the transparency of the last call that sets them: a new picture and a new shape are drawn as large as the space they
take, `Size` changes the space and what a picture is drawn with, but not what a shape is drawn with. -/
theorem C104_built (cs : List Call) (w : World) (hr : run [] (.new :: cs.map (Call.op 0)) = .ok w)
    (hl : ∀ f ∈ w, f.rels.length < 2 ^ 62) : ∃ f, w = [f] ∧ f.frames = framesOf cs := by
  obtain ⟨f, rfl, _⟩ := built_calls hr hl
  exact ⟨f, rfl, (List.cons.inj (framed_documents (framed_calls (.new .start) hr hl))).1⟩

/-- **C104, several documents.** A program makes, opens, changes, appends and splits documents.  The drawings of every
document have the sizes and places that the calls say.  Appended drawings and those in the pieces of a split document
keep their sizes and places, but pictures lose their transparency. -/
theorem C104_documents (w : World) (s : List (List Block)) (t : List (List Frames)) (h : FramedDocs w s t) :
    w.map Doc.shows = s ∧ w.map Doc.frames = t :=
  ⟨C99_documents w s (framed_makes h), framed_documents h⟩

/-! ## Saving -/

omit [GoEnv] [ImgEnv] in
theorem saved_inside (me : DocId) (g : Option Graphic) :
    shapeInside (normGraphicO (some me) (clGraphicO g)) = shapeInside g ∧
    innerSize (normGraphicO (some me) (clGraphicO g)) = innerSize g ∧
    alphaInside (normGraphicO (some me) (clGraphicO g)) = alphaInside g := by
  rcases g with _ | ⟨xa, _ | ⟨u, pic, s, ca, gr⟩⟩
  · exact ⟨rfl, rfl, rfl⟩
  · exact ⟨rfl, rfl, rfl⟩
  · rcases pic with _ | ⟨xp, nv, bf, sp⟩
    · rcases s with _ | ⟨a, b, c, sp, d, e⟩
      · exact ⟨rfl, rfl, rfl⟩
      · rcases sp with _ | sp <;> exact ⟨rfl, rfl, rfl⟩
    · rcases bf with _ | bf <;> rcases sp with _ | sp <;> exact ⟨rfl, rfl, rfl⟩

omit [GoEnv] [ImgEnv] in
theorem saved_pieceFrames (me : Option DocId) (c : RChild) (hme : me ≠ none) :
    pieceFrames (normRChild me (clRChild c)) = pieceFrames c := by
  obtain ⟨me, rfl⟩ := Option.ne_none_iff_exists'.1 hme
  cases c with
  | drawing d =>
    obtain ⟨inl, an⟩ := d
    have h1 : (normInlineO (some me) (clInlineO inl)).map inlineFrame = inl.map inlineFrame := by
      rcases inl with _ | i
      · rfl
      · obtain ⟨j1, j2, j3⟩ := saved_inside me i.graphic
        obtain ⟨_, _, _, _, _, _, _, _, g, _⟩ := i
        simp only [clInlineO, clInline, normInlineO, normInline, Option.map_some, inlineFrame]
        simp only at j1 j2 j3
        rw [j1, j2, j3]
    have h2 : (normAnchorO (some me) (clAnchorO an)).map anchorFrame = an.map anchorFrame := by
      rcases an with _ | a
      · rfl
      · obtain ⟨j1, j2, j3⟩ := saved_inside me a.graphic
        obtain ⟨_, _, _, _, _, _, _, _, _, _, _, ph, _, _, _, _, _, _, _, g, _⟩ := a
        simp only [clAnchorO, clAnchor, normAnchorO, normAnchor, Option.map_some, anchorFrame]
        simp only at j1 j2 j3
        rw [j1, j2, j3]
        cases ph <;> rfl
    simp only [clRChild, clDrawing, normRChild, normDrawing, pieceFrames, h1, h2]
  | _ => rfl

omit [GoEnv] [ImgEnv] in
theorem saved_paraFrames (me : DocId) (p : Para) : paraFrames (normPara (some me) (clPara p)) = paraFrames p := by
  obtain ⟨pp, cs, fl⟩ := p
  simp only [clPara, normPara, paraFrames, clPChildren_map, normPChildren_map, List.map_map]
  refine List.map_congr_left fun c hc => ?_
  clear hc
  cases c with
  | run r =>
    obtain ⟨a, b, c, d⟩ := r
    simp only [Function.comp_apply, clPChild, clRun, normPChild, normRun, childFrames, clRChildren_map, normRChildren_map,
      Prod.mk.injEq, true_and, List.map_map]
    induction d with
    | nil => rfl
    | cons x xs ih =>
      rw [List.map_cons, List.flatMap_cons, List.flatMap_cons, ih]
      congr 1
      exact saved_pieceFrames (some me) x (by simp)
  | link h =>
    obtain ⟨i, ⟨a, b, c, d⟩⟩ := h
    simp [clPChild, clRun, normPChild, normLink, normRun, childFrames]
  | rpr x => simp [clPChild, normPChild, childFrames]

omit [GoEnv] [ImgEnv] in
theorem saved_itemFrames (me : DocId) (x : BItem) : itemFrames (normItem (some me) (clItem x)) = itemFrames x := by
  cases x with
  | para p => exact congrArg Frames.para (saved_paraFrames me p)
  | sect s => rfl
  | table t =>
    simp only [clItem, normItem, clTable, normTable, itemFrames, Frames.table.injEq]
    simp only [List.map_map]
    refine List.map_congr_left fun r _ => ?_
    simp only [Function.comp_apply, clRow, normRow, List.map_map]
    refine List.map_congr_left fun c _ => ?_
    simp only [Function.comp_apply, clCell, normCell, List.map_map]
    exact List.map_congr_left fun p _ => saved_paraFrames me p

/-- **C104, in the file.** Any document of any program, opened files included, is saved and opened again.  The opened
document has the same drawings with the same sizes, places and transparency. -/
theorem C104_file (w : World) (h : Program w) (f : Doc) (hf : f ∈ w) (out : Saved) (ho : Saves f out none) (me : DocId) :
    ∃ g, unpack me (reread out) = (g, none) ∧ g.frames = f.frames := by
  obtain ⟨h1, h2⟩ := program_fine h f hf
  obtain ⟨g, g1, _, _, g4, _⟩ := C87_opens f out ho (h1.good h2) me
  refine ⟨g, g1, ?_⟩
  show g.items.map itemFrames = f.items.map itemFrames
  rw [g4, normBody, List.map_map, List.map_map]
  exact List.map_congr_left fun x _ => saved_itemFrames me x

/-- **C104, built, saved and opened.** -/
theorem C104_calls (cs : List Call) (w : World) (hr : run [] (.new :: cs.map (Call.op 0)) = .ok w)
    (hl : ∀ f ∈ w, f.rels.length < 2 ^ 62) :
    ∃ f, w = [f] ∧ ∀ out, Saves f out none → ∀ me, ∃ g, unpack me (reread out) = (g, none) ∧
      g.frames = framesOf cs := by
  obtain ⟨f, rfl, hd⟩ := C104_built cs w hr hl
  refine ⟨f, rfl, fun out ho me => ?_⟩
  rw [← hd]
  exact C104_file [f] (program_run .start hr hl) f (by simp) out ho me

end

/-! ## Case: a floating translucent picture and a resized shape, appended to themselves -/

local instance framesGo : GoEnv := ⟨fun _ => none, fun _ => false, fun _ => false⟩

/-- Pictures are as wide as their first byte says -/
local instance framesImg : ImgEnv := ⟨fun b => b.head?.map fun n => (Int64.ofNat n.toNat, 10, "png")⟩

/-- The calls -/
def framesCalls : List Call :=
  [.paragraph, .picture false (.body 0) [20], .shape true (.body 0) 300 200 "s" "auto" "rect" none,
   .text (.body 0) "t", .resize (.body 0) 0 1000 500, .resize (.body 0) 1 30 20, .place (.body 0) 0 1 77 50000,
   .place (.body 0) 1 1 77 50000]

/-- What they say; the transparency is left out in copies -/
def framesCase (alpha : Option Int64) : List Frames :=
  let pic : PicFrame := ⟨false, false, some (1000, 500), some (1000, 500), 1, some 77, alpha⟩
  [.para [("*docx.Run", [pic]), ("*docx.Run", [{ inline := true, shape := true, size := some (30, 20), inner := some (300, 200) }]),
     ("*docx.Run", [])]]

example : framesOf framesCalls = framesCase (some 50000) := by decide +kernel

/-- The calls run, and the file they make has these drawings too. -/
example : ∃ f out g, run [] (.new :: framesCalls.map (Call.op 0)) = .ok [f] ∧ Saves f out none ∧
    unpack 1 (reread out) = (g, none) ∧ g.frames = framesCase (some 50000) := by
  have key : (match run [] (.new :: framesCalls.map (Call.op 0)) with
    | .ok [f] => f.rels.length == 4 && f.media.map (·.name) == ["image1.png"] && f.tmpfslst == []
    | _ => false) = true := by decide +kernel
  split at key
  · rename_i f hr
    simp only [Bool.and_eq_true, beq_iff_eq] at key
    obtain ⟨⟨l1, l2⟩, l3⟩ := key
    obtain ⟨out, e, ho⟩ := C53_returns f (.inr l3)
    obtain rfl := C53_success f (by simp [l3]) (by simp [l3]) (by
      intro m hm
      have hm' : m.name ∈ f.media.map (·.name) := List.mem_map.2 ⟨m, hm, rfl⟩
      rw [l2, List.mem_singleton] at hm'
      rw [hm']; decide) out e ho
    obtain ⟨f', e1, h1⟩ := C104_calls framesCalls [f] hr (by
      intro g hg
      obtain rfl := List.mem_singleton.1 hg
      omega)
    cases e1
    obtain ⟨g, h2, h3⟩ := h1 out ho 1
    refine ⟨f, out, g, hr, ho, h2, ?_⟩
    rw [h3]
    decide +kernel
  · cases key

/-! ## Case: a file with a translucent picture is opened and appended to a new document -/

/-- The file -/
def framesPackage : Archive :=
  [⟨"word/document.xml", .ok ⟨utf8 (Node.elem ⟨"w", "document"⟩ [] [.elem ⟨"w", "body"⟩ []
      [.elem ⟨"w", "p"⟩ [] [.elem ⟨"w", "r"⟩ [] [.elem ⟨"w", "drawing"⟩ []
        [.elem ⟨"wp", "anchor"⟩ [⟨⟨"", "behindDoc"⟩, "1"⟩] [.elem ⟨"wp", "extent"⟩ [⟨⟨"", "cx"⟩, "30"⟩, ⟨⟨"", "cy"⟩, "20"⟩] [],
          .elem ⟨"a", "graphic"⟩ [] [.elem ⟨"a", "graphicData"⟩ []
          [.elem ⟨"pic", "pic"⟩ [] [.elem ⟨"pic", "nvPicPr"⟩ [] [], .elem ⟨"pic", "blipFill"⟩ []
            [.elem ⟨"a", "blip"⟩ [⟨⟨"r", "embed"⟩, "rId7"⟩] [.elem ⟨"a", "alphaModFix"⟩ [⟨⟨"", "amt"⟩, "50000"⟩] []]]]]]]]]]]]).chars, none⟩⟩,
   ⟨"word/_rels/document.xml.rels", .ok ⟨utf8 (Node.elem ⟨"", "Relationships"⟩ []
     [.elem ⟨"", "Relationship"⟩ [⟨⟨"", "Id"⟩, "rId7"⟩, ⟨⟨"", "Target"⟩, "media/p.png"⟩] []]).chars, none⟩⟩,
   ⟨"word/media/p.png", .ok ⟨[5, 6], none⟩⟩]

/-- Its picture, with or without the transparency -/
def framesPicture (alpha : Option Int64) : List Frames :=
  let pic : PicFrame := ⟨false, false, some (30, 20), none, 1, none, alpha⟩
  [.para [("*docx.Run", [pic])]]

/-- **C104, the transparency is lost.** There is a program that opens a file with a picture at half transparency and
appends it to a new document.  There the picture has the same size and place, but it is opaque. -/
theorem C104_transparency_lost : ∃ w : World, FramedDocs w
      [[.para [.picture false [5, 6]]], [.para [.picture false [5, 6]]]]
      [framesPicture (some 50000), framesPicture none] ∧
    w.map Doc.frames = [framesPicture (some 50000), framesPicture none] := by
  have key : (match unpack 0 framesPackage with
    | (g, none) => (decide (g.shows = [Block.para [.picture false [5, 6]]])) && (decide (g.frames = framesPicture (some 50000))) &&
        (g.rels.map (·.id) == ["rId7"]) && (g.media.map (·.name) == ["p.png"]) &&
        match step [g, Doc.new] (.append 1 0) with
        | .ok w1 => w1.map (·.rels.length) == [1, 4]
        | _ => false
    | _ => false) = true := by decide +kernel
  split at key
  · rename_i g hu
    simp only [Bool.and_eq_true, beq_iff_eq, decide_eq_true_eq] at key
    obtain ⟨⟨⟨⟨k1, k0⟩, k2⟩, k3⟩, key⟩ := key
    have hids : ∀ r ∈ g.rels, ∀ n, IdNumber r.id n → n < 2 ^ 62 := by
      rintro r hr n ⟨ds, _, _, h, rfl⟩
      have hm : r.id ∈ g.rels.map (·.id) := List.mem_map.2 ⟨r, hr, rfl⟩
      rw [k2] at hm
      rw [List.mem_singleton.1 hm] at h
      have : ds = ['7'] := by
        have h' : ['r', 'I', 'd', '7'] = 'r' :: 'I' :: 'd' :: ds := h
        simp only [List.cons.injEq, true_and] at h'
        exact h'.symm
      rw [this]; decide
    have hlen : g.rels.length < 2 ^ 62 := by
      have := congrArg List.length k2
      simp only [List.length_map, List.length_cons, List.length_nil] at this
      omega
    have hnames : NamesAhead g := by
      intro m hm n fmt _ e
      have hm' : m.name ∈ g.media.map (·.name) := List.mem_map.2 ⟨m, hm, rfl⟩
      rw [k3, List.mem_singleton, e] at hm'
      have := congrArg String.toList hm'
      simp only [imageName, String.toList_append] at this
      cases this
    have h1 := FramedDocs.opening framesPackage g .start hu hids hlen hnames (by
      rw [k1]
      intro b hb
      rw [List.mem_singleton] at hb
      subst hb
      simp [KnownBlock])
    rw [k1, k0] at h1
    split at key
    · rename_i w1 hs
      have l1 : w1.map (·.rels.length) = [1, 4] := by simpa using key
      have m2 := FramedDocs.append 1 0 (.new h1) hs (by
        intro f hf
        have : f.rels.length ∈ w1.map (·.rels.length) := List.mem_map.2 ⟨f, hf, rfl⟩
        rw [l1] at this
        simp only [List.mem_cons, List.not_mem_nil, or_false] at this
        omega)
      exact ⟨w1, m2, (C104_documents _ _ _ m2).2⟩
    · cases key
  · cases key

end Docx
