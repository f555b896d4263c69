import Verif.Props.Printed

/-!
# C105: which parts of a document that was just built can be printed
-/

namespace Docx

section
variable [GoEnv] [ImgEnv]

/-- The pictures of a paragraph that know where they belong belong to `d`. -/
def HomeKids (d : DocId) (p : Para) : Prop := ∀ c ∈ p.children, HomeChild d c

/-- Paragraphs and cells, likewise -/
def KidsItem (d : DocId) : BItem → Prop
  | .para p => HomeKids d p
  | .table t => ∀ r ∈ t.rows, ∀ c ∈ r.cells, ∀ p ∈ c.paras, HomeKids d p
  | .sect _ => True

omit [GoEnv] [ImgEnv] in
theorem kids_own {d : DocId} {p : Para} : HomeKids d p ↔ OwnPara d { p with file := some d } :=
  ⟨fun h => ⟨rfl, h⟩, fun h => h.2⟩

omit [GoEnv] [ImgEnv] in
theorem kids_modPara {d : DocId} {items : List BItem} {l : Loc} {g : Para → Para} (ho : ∀ x ∈ items, KidsItem d x)
    (h : ∀ p, getPara items l = some p → HomeKids d p → HomeKids d (g p)) :
    ∀ x ∈ modPara items l g, KidsItem d x := by
  cases l with
  | body i =>
    simp only [modPara]
    refine all_modify ho fun a ha hP => ?_
    cases a with
    | para p => exact h p (by simp [getPara, ha]) hP
    | table t => exact hP
    | sect s => exact hP
  | cell i r c j =>
    simp only [modPara]
    refine all_modify ho fun a ha hP => ?_
    cases a with
    | para p => exact hP
    | sect s => exact hP
    | table t =>
      refine all_modify (P := fun r : Row => ∀ c ∈ r.cells, ∀ p ∈ c.paras, HomeKids d p)
        hP fun row hrow hr => ?_
      refine all_modify (P := fun c : Cell => ∀ p ∈ c.paras, HomeKids d p) hr fun cell hcell hc => ?_
      refine all_modify (P := HomeKids d) hc fun p hp hpf => ?_
      exact h p (by simp [getPara, ha, hrow, hcell, hp]) hpf

omit [GoEnv] [ImgEnv] in
theorem kids_addRun {d : DocId} {p : Para} {r : Run} (h : HomeKids d p) (hr : ∀ c ∈ r.children, HomePiece d c) :
    HomeKids d (p.addRun r) := by
  intro c hc
  rcases List.mem_append.1 hc with hc | hc
  · exact h c hc
  · rw [List.mem_singleton] at hc
    subst hc
    exact hr

omit [GoEnv] [ImgEnv] in
theorem kids_push {d : DocId} {l : List BItem} {b : BItem} (h : ∀ b ∈ l, KidsItem d b) (hb : KidsItem d b) :
    ∀ x ∈ l ++ [b], KidsItem d x := by
  intro x hx
  rcases List.mem_append.1 hx with hx | hx
  · exact h x hx
  · rw [List.mem_singleton] at hx
    subst hx
    exact hb

omit [GoEnv] in
theorem homeKids_addText {d : DocId} {p : Para} (s : String) (h : HomeKids d p) : HomeKids d (p.addText s).1 ∧
    ∀ c ∈ (p.addText s).2.children, HomePiece d c := by
  have h2 : ∀ c ∈ (p.addText s).2.children, HomePiece d c := by
    unfold Para.addText
    split
    · simp [Para.addTab, HomePiece]
    · exact home_lines _ _
  exact ⟨by rw [addText_addRun]; exact kids_addRun h h2, h2⟩

omit [GoEnv] [ImgEnv] in
theorem kids_dropPara {d : DocId} {p : Para} (name : String) (h : HomeKids d p) : HomeKids d (dropPara name p) := by
  unfold dropPara dropMethod
  repeat' split
  all_goals first | exact h | skip
  all_goals
    rename_i hm
    repeat' split at hm
    all_goals first | cases hm | skip
    all_goals exact own_dropChildren h

omit [GoEnv] in
/-- No call gives a picture a document. -/
theorem kids_step {Q : String → Prop} {me d : DocId} {f f' : Doc} {bs : List Block} {c : Call} {w w' : World}
    (h : BuiltUp Q me f bs) (hw : w[me]? = some f) (hs : step w (c.op me) = .ok w') (hf' : w'[me]? = some f')
    (hk : ∀ x ∈ f.items, KidsItem d x) : ∀ x ∈ f'.items, KidsItem d x := by
  have got : ∀ {g : Doc}, w' = w.set me g → f' = g := by
    rintro g rfl
    rw [List.getElem?_set_self (lt_of_getElem? hw)] at hf'
    exact (Option.some.inj hf').symm
  have para : ∀ {l : Loc} {act : Doc → Para → Res (Doc × Para)},
      World.onPara w me l act = .ok w' →
      (∀ p f1 p1, act f p = .ok (f1, p1) → f1.items = f.items ∧ (HomeKids d p → HomeKids d p1)) →
      ∀ x ∈ f'.items, KidsItem d x := by
    intro l act h1 h2
    obtain ⟨p, f1, p1, hgp, hact, e⟩ := onPara_own h hw h1
    obtain ⟨i1, i2⟩ := h2 p f1 p1 hact
    rw [got e]
    show ∀ x ∈ modPara f1.items l fun _ => p1, KidsItem d x
    rw [i1]
    refine kids_modPara hk fun q hq hh => ?_
    rw [hgp] at hq
    cases hq
    exact i2 hh
  have edit : ∀ {act : Doc → Res Doc}, World.onDoc w me act = .ok w' → act f = .ok f' := by
    intro act h1
    obtain ⟨f1, h2, e⟩ := onDoc_one hw h1
    rw [got e]
    exact h2
  cases c with
  | paragraph => cases edit hs; exact kids_push hk fun c hc => by cases hc
  | cellParagraph i r c =>
    cases edit hs
    refine all_modify hk fun a _ hP => ?_
    cases a with
    | table t =>
      refine all_modify (P := fun r : Row => ∀ c ∈ r.cells, ∀ p ∈ c.paras, HomeKids d p) hP fun row _ hr => ?_
      refine all_modify (P := fun c : Cell => ∀ p ∈ c.paras, HomeKids d p) hr fun cell _ hc => ?_
      intro p hp
      rcases List.mem_append.1 hp with hp | hp
      · exact hc p hp
      · rw [List.mem_singleton] at hp; subst hp; exact fun c hc => by cases hc
    | _ => exact hP
  | table rows cols width colors =>
    have h1 := edit hs
    simp only [Doc.addTable] at h1
    split at h1
    · rename_i h2
      split at h2
      · cases h2
      · split at h2
        · cases h2
        · cases h2
          cases h1
          refine kids_push hk ?_
          intro r hr c hc
          rw [List.eq_of_mem_replicate hr] at hc
          rw [List.eq_of_mem_replicate hc]
          exact fun p hp => by cases hp
    · cases h1
    · cases h1
  | tableTwips heights widths width colors =>
    cases edit hs
    refine kids_push hk ?_
    intro r hr c hc
    obtain ⟨_, _, rfl⟩ := List.mem_map.1 hr
    obtain ⟨_, _, rfl⟩ := List.mem_map.1 hc
    exact fun p hp => by cases hp
  | a3 => cases edit hs; exact kids_push hk trivial
  | a4 => cases edit hs; exact kids_push hk trivial
  | text l s => exact para hs fun p f1 p1 h1 => by cases h1; exact ⟨rfl, fun hh => (homeKids_addText s hh).1⟩
  | tab l => cases edit hs; exact kids_modPara hk fun p _ hh => kids_addRun hh (by simp [HomePiece])
  | pageBreak l => cases edit hs; exact kids_modPara hk fun p _ hh => kids_addRun hh (by simp [HomePiece])
  | link l label target =>
    refine para hs fun p f1 p1 h1 => ?_
    cases h1
    refine ⟨rfl, fun hh c hc => ?_⟩
    rcases List.mem_append.1 hc with hc | hc
    · exact hh c hc
    · rw [List.mem_singleton] at hc
      subst hc
      trivial
  | picture inline l pic =>
    have key : ∀ {act : Doc → Para → Res (Doc × Para)} (mk : Int64 → Int64 → String → Int64 → Int64 → Drawing),
        World.onPara w me l act = .ok w' →
        (∀ f p, act f p = match f.addPicture pic with
          | (f', .ok (idn, id, rid, x, y)) => .ok (f', p.addRun (drawingRun (mk idn id rid x y)))
          | (f', .err _) => .ok (f', p)
          | (_, .panic) => .panic) →
        (∀ a b r x y, HomePiece d (.drawing (mk a b r x y))) →
        ∀ x ∈ f'.items, KidsItem d x := by
      intro act mk h1 h2 h5
      refine para h1 fun p f1 p1 h3 => ?_
      rw [h2] at h3
      simp only [Doc.addPicture] at h3
      cases hd : ImgEnv.decodeSize pic with
      | none =>
        rw [hd] at h3
        cases h3
        exact ⟨rfl, id⟩
      | some sz =>
        obtain ⟨w0, h0, fmt⟩ := sz
        rw [hd] at h3
        dsimp only at h3
        cases hsc : scaleSize w0 h0 with
        | none => rw [hsc] at h3; cases h3
        | some xy =>
          rw [hsc] at h3
          cases h3
          refine ⟨rfl, fun hh => kids_addRun hh fun c hc => ?_⟩
          simp only [drawingRun, List.mem_singleton] at hc
          subst hc
          exact h5 _ _ _ _ _
    cases inline with
    | true =>
      refine key (fun idn id rid x y => { inl := some (mkInlinePic idn id rid x y) }) hs (fun f p => ?_)
        fun _ _ _ _ _ => by simp [HomePiece, mkInlinePic]
      simp only [Para.addInlineDrawing]
      rcases f.addPicture pic with ⟨f', _ | _ | _⟩ <;> rfl
    | false =>
      refine key (fun idn id rid x y => { anchor := some (mkAnchorPic idn id rid x y) }) hs (fun f p => ?_)
        fun _ _ _ _ _ => by simp [HomePiece, mkAnchorPic]
      simp only [Para.addAnchorDrawing]
      rcases f.addPicture pic with ⟨f', _ | _ | _⟩ <;> rfl
  | shape inline l x y name bw kind ln =>
    cases inline with
    | true =>
      exact para hs fun p f1 p1 h1 => by
        cases h1; exact ⟨rfl, fun hh => kids_addRun hh (by simp [HomePiece, isPic, drawingRun])⟩
    | false =>
      exact para hs fun p f1 p1 h1 => by
        cases h1; exact ⟨rfl, fun hh => kids_addRun hh (by simp [HomePiece, isPic, drawingRun])⟩
  | formatRun l k φ =>
    cases edit hs
    exact kids_modPara hk fun p _ hh => all_modify hh fun c _ hc => by cases c <;> exact hc
  | formatPara l φ => cases edit hs; exact kids_modPara hk fun p _ hh => hh
  | formatTable i φ => cases edit hs; exact all_modify hk fun a _ hP => by cases a <;> exact hP
  | formatRow i r φ =>
    cases edit hs
    refine all_modify hk fun a _ hP => ?_
    cases a with
    | table t => exact all_modify (P := fun r : Row => ∀ c ∈ r.cells, ∀ p ∈ c.paras, HomeKids d p) hP fun row _ hr => hr
    | _ => exact hP
  | formatCell i r c φ =>
    cases edit hs
    refine all_modify hk fun a _ hP => ?_
    cases a with
    | table t =>
      refine all_modify (P := fun r : Row => ∀ c ∈ r.cells, ∀ p ∈ c.paras, HomeKids d p) hP fun row _ hr => ?_
      exact all_modify (P := fun c : Cell => ∀ p ∈ c.paras, HomeKids d p) hr fun _ _ hc => hc
    | _ => exact hP
  | resize l k x y =>
    cases edit hs
    refine kids_modPara hk fun p _ hh => all_modify hh fun c _ hc => ?_
    cases c with
    | run r =>
      intro x' hx
      obtain ⟨y', hy, rfl⟩ := List.mem_map.1 hx
      exact resize_home x y (hc y' hy)
    | _ => exact hc
  | textTab l s =>
    cases edit hs
    refine kids_modPara hk fun p _ hh => kids_addRun hh fun c hc => ?_
    rcases List.mem_append.1 hc with hc | hc
    · exact (homeKids_addText s hh).2 c hc
    · rw [List.mem_singleton] at hc; subst hc; trivial
  | place l k x y z =>
    cases edit hs
    refine kids_modPara hk fun p _ hh => all_modify hh fun c _ hc => ?_
    cases c with
    | run r =>
      intro x' hx
      obtain ⟨y', hy, rfl⟩ := List.mem_map.1 hx
      exact place_home x y z (hc y' hy)
    | _ => exact hc
  | keep names =>
    cases edit hs
    intro x hx
    replace hx : x ∈ keepBody names f.items := hx
    rw [keepBody, keepLoop_filter] at hx
    exact hk x (List.mem_filter.1 hx).1
  | drop name =>
    cases edit hs
    intro x hx
    replace hx : x ∈ dropDrawingOf name f.items := hx
    rw [dropDrawingOf_each] at hx
    obtain ⟨y, hy, rfl⟩ := List.mem_map.1 hx
    have ho := hk y hy
    cases y with
    | para p => exact kids_dropPara name ho
    | sect s => trivial
    | table t =>
      intro r hr c hc p hp
      obtain ⟨r', hr', rfl⟩ := List.mem_map.1 hr
      obtain ⟨c', hc', rfl⟩ := List.mem_map.1 hc
      obtain ⟨p', hp', rfl⟩ := List.mem_map.1 hp
      exact kids_dropPara name (ho r' hr' c' hc' p' hp')
  | keepIn l names =>
    cases edit hs
    refine kids_modPara hk fun p _ hh c hc => ?_
    simp only [Para.keepElements, keepLoop_filter] at hc
    exact hh c (List.mem_filter.1 hc).1
  | dropIn l name => cases edit hs; exact kids_modPara hk fun p _ hh => kids_dropPara name hh

theorem kids_run {d : DocId} : ∀ {cs : List Call} {f : Doc} {bs : List Block} {w : World}, BuiltUp ImageNamed 0 f bs →
    (∀ x ∈ f.items, KidsItem d x) → (∀ g ∈ w, g.rels.length < 2 ^ 62) → run [f] (cs.map (Call.op 0)) = .ok w →
    ∀ g ∈ w, ∀ x ∈ g.items, KidsItem d x := by
  intro cs
  induction cs with
  | nil =>
    intro f bs w h hk _ hr
    simp only [List.map_nil, run, Res.ok.injEq] at hr
    subst hr
    simpa using hk
  | cons c cs ih =>
    intro f bs w h hk hl hr
    simp only [List.map_cons, run] at hr
    split at hr
    · rename_i w1 h1
      have hl1 : ∀ g, w1[0]? = some g → g.rels.length < 2 ^ 62 := by
        intro g hd
        obtain ⟨g', hg', e⟩ := (run_wevo hr).old 0 g hd
        have := e.rels_le
        have := hl g' (List.mem_of_getElem? hg')
        omega
      obtain ⟨f1, rfl, hb⟩ := built_step h hl1 (fun _ _ _ _ _ hd => ⟨_, _, _, _, _, hd, rfl⟩) rfl h1
      exact ih hb (kids_step h rfl h1 rfl hk) hl hr
    · cases hr
    · cases hr

omit [GoEnv] [ImgEnv] in
/-- A paragraph that shows a picture which belongs to no document cannot be printed. -/
theorem picture_blocks {R : String → Option String} {M : String → Option Bytes} {w : World} {p : Para}
    (hk : ∀ d, HomeKids d p) {inline : Bool} {data : Bytes} (hb : .picture inline data ∈ viewPara R M p) :
    ¬p.Printable w := by
  rintro ⟨hp, -⟩
  obtain ⟨c, hc, hb⟩ := List.mem_flatMap.1 hb
  have lost : ∀ {o : Option DocId}, (∀ d, o = none ∨ o = some d) → ¬Owned w o := by
    rintro o h ⟨i, f, rfl, _⟩
    rcases h (i + 1) with h | h
    · cases h
    · exact absurd (Option.some.inj h) (Nat.ne_of_lt (Nat.lt_succ_self i))
  cases c with
  | rpr _ => simp [viewChild] at hb
  | link h =>
    simp only [viewChild] at hb
    split at hb <;> simp at hb
  | run r =>
    simp only [viewChild] at hb
    split at hb
    · obtain ⟨x, hx, e⟩ := List.mem_map.1 hb
      have h1 := fun d => hk d _ hc x hx
      cases x with
      | text t => cases e
      | tab t => cases e
      | br b => simp only [viewPiece] at e; split at e; cases e; split at e <;> cases e
      | drawing dr =>
        have h2 := hp dr ((mem_drawings _ _).2 ⟨r, hc, hx⟩)
        rcases dr with ⟨_ | i, _ | a⟩
        · cases e
        · have e : viewGraphic M false a.graphic = .picture inline data := e
          rcases viewGraphic_cases (by rw [e]; simp) with ⟨xa, uri, pic, bf, dt, eg, ebf, _, _⟩ | ⟨gr, eg, _, _, e2⟩
          · exact lost (fun d => (h1 d).2 a rfl (by rw [eg]; rfl)) ((h2 a _ _ pic rfl eg rfl rfl).2 bf ebf).1
          · have := e2 fun _ => none
            rw [e] at this
            revert this
            rcases hg : a.graphic with _ | ⟨_, _ | ⟨_, _ | _, _ | s, _ | _, _ | _⟩⟩ <;> simp only [viewGraphic] <;>
              (try split) <;> simp
        · have e : viewGraphic M true i.graphic = .picture inline data := e
          rcases viewGraphic_cases (by rw [e]; simp) with ⟨xa, uri, pic, bf, dt, eg, ebf, _, _⟩ | ⟨gr, eg, _, _, e2⟩
          · obtain ⟨g, gd, k1, k2, k3⟩ := h2
            rw [eg] at k1
            cases k1
            cases k2
            exact lost (fun d => (h1 d).1 i rfl (by rw [eg]; rfl)) ((k3 pic rfl).2 bf ebf).1
          · have := e2 fun _ => none
            rw [e] at this
            revert this
            rcases hg : i.graphic with _ | ⟨_, _ | ⟨_, _ | _, _ | s, _ | _, _ | _⟩⟩ <;> simp only [viewGraphic] <;>
              (try split) <;> simp
        · cases e
    · simp at hb

variable [HashEnv]

omit [GoEnv] [ImgEnv] [HashEnv] in
theorem noErr_bind {α β : Type} {a : Res α} {g : α → Res β} (ha : ∀ e, a ≠ .err e) (hg : ∀ x e, g x ≠ .err e) (e : Err) :
    (a >>= g) ≠ .err e := by
  cases a with
  | ok x => exact hg x e
  | err e' => exact absurd rfl (ha e')
  | panic => simp

omit [GoEnv] [ImgEnv] in
theorem gdata_noErr (w : World) (tag : String) (file : Option DocId) (dp : Option IdName) (gd : GraphicData) (e : Err) :
    gd.str w tag file dp ≠ .err e := by
  unfold GraphicData.str
  split
  · refine noErr_bind (fun e => ?_) (fun l => noErr_bind (fun e => ?_) fun _ _ => by simp) e
    · unfold picLabel; repeat' split
      all_goals simp
    · unfold picTarget; repeat' split
      all_goals first | simp | skip
      rename_i h
      unfold mediaOfTarget Doc.getMedia at h
      repeat' split at h
      all_goals cases h
  · repeat' split
    all_goals simp

omit [GoEnv] [ImgEnv] in
/-- `String` has no errors: it returns or panics. -/
theorem printed_noErr (w : World) (x : BItem) (e : Err) : x.printed w ≠ .err e := by
  have piece : ∀ (c : RChild) e, c.str w ≠ .err e := by
    intro c e
    unfold RChild.str
    repeat' split
    all_goals first | simp | skip
    · unfold Inline.str; repeat' split
      all_goals first | simp | exact gdata_noErr _ _ _ _ _ _
    · unfold Anchor.str; repeat' split
      all_goals first | simp | exact gdata_noErr _ _ _ _ _ _
  have pieces : ∀ (cs : List RChild) e, rchildrenStr w cs ≠ .err e := by
    intro cs
    induction cs with
    | nil => intro e; simp [rchildrenStr]
    | cons c cs ih => exact noErr_bind (piece c) fun _ => noErr_bind ih fun _ _ => by simp
  have para : ∀ (p : Para) e, p.str w ≠ .err e := by
    intro p
    unfold Para.str
    induction p.children with
    | nil => intro e; simp [pchildrenStr]
    | cons c cs ih =>
      refine noErr_bind (fun e => ?_) fun _ => noErr_bind ih fun _ _ => by simp
      cases c with
      | link h => simp only [PChild.str]; split <;> simp
      | run r => exact pieces _ e
      | rpr _ => simp [PChild.str]
  have cells : ∀ (cs : List Cell) e, cellsStr w cs ≠ .err e := by
    intro cs
    induction cs with
    | nil => intro e; simp [cellsStr]
    | cons c cs ih =>
      refine noErr_bind (fun e => ?_) fun _ => noErr_bind ih fun _ _ => by simp
      unfold Cell.str
      split
      · simp
      · split
        · simp
        · exact noErr_bind (para _) (fun _ _ => by simp) e
  have rows : ∀ (rs : List Row) e, rowsStr w rs ≠ .err e := by
    intro rs
    induction rs with
    | nil => intro e; simp [rowsStr]
    | cons r rs ih => exact noErr_bind (cells r.cells) fun _ => noErr_bind ih fun _ _ => by simp
  cases x with
  | para p => exact para p e
  | sect s => simp [BItem.printed]
  | table t =>
    simp only [BItem.printed, Table.str]
    split
    · simp
    · split
      · simp
      · exact noErr_bind (rows _) (fun _ _ => by simp) e

/-- A document is built by any calls.  A paragraph of it can be printed exactly if it shows no picture;
a table whose first row has a cell exactly if no first paragraph of a cell shows one.  Otherwise `String` panics. -/
theorem built_printable (cs : List Call) (w : World) (hr : run [] (.new :: cs.map (Call.op 0)) = .ok w)
    (hl : ∀ f ∈ w, f.rels.length < 2 ^ 62) : ∃ f, w = [f] ∧ ∀ (i : Nat) (b : Block), (result cs)[i]? = some b →
      (∀ rows, b = .table rows → ∃ r, rows.head? = some r ∧ r ≠ []) →
      ∃ x, f.items[i]? = some x ∧ ((∃ t, x.printed w = .ok t) ↔ b.Pictureless) ∧
        (¬b.Pictureless → x.printed w = .panic) := by
  obtain ⟨f, rfl, hb⟩ := built_calls hr hl
  refine ⟨f, rfl, fun i b hi ht => ?_⟩
  have hk : ∀ d, ∀ x ∈ f.items, KidsItem d x := fun d => kids_run (cs := cs) (built_none _ _)
    (by simp [Doc.new]) hl hr f (by simp)
  have e := hb.shows
  rw [← e, Doc.shows, List.getElem?_map] at hi
  obtain ⟨x, hx, rfl⟩ := Option.map_eq_some_iff.1 hi
  have hm := List.mem_of_getElem? hx
  have back : ∀ {q : Prop}, ((∃ t, x.printed [f] = .ok t) ↔ q) → ¬q → x.printed [f] = .panic := by
    intro q h1 h2
    cases hq : x.printed [f] with
    | ok t => exact absurd (h1.1 ⟨t, hq⟩) h2
    | err e => exact absurd hq (printed_noErr _ _ e)
    | panic => rfl
  suffices h : (∃ t, x.printed [f] = .ok t) ↔ (viewItem f.referTarget f.pictureData x).Pictureless from ⟨x, hx, h, back h⟩
  refine ⟨?_, fun hn => ?_⟩
  · rintro ⟨t, ho⟩
    cases x with
    | sect s => unfold viewItem; split <;> trivial
    | para p =>
      intro inline data hd
      exact picture_blocks (fun d => hk d _ hm) hd ((C31_paragraph_iff _ p).1 ⟨t, ho⟩)
    | table tb =>
      intro r hr c hc p hp inline data hd
      obtain ⟨r', hr', rfl⟩ := List.mem_map.1 hr
      obtain ⟨c', hc', rfl⟩ := List.mem_map.1 hc
      rw [List.head?_map] at hp
      obtain ⟨p', hp', rfl⟩ := Option.map_eq_some_iff.1 hp
      obtain ⟨r0, h0, hne⟩ := ht _ rfl
      rw [List.head?_map] at h0
      obtain ⟨r1, h1, rfl⟩ := Option.map_eq_some_iff.1 h0
      exact picture_blocks (fun d => hk d _ hm r' hr' c' hc' p' (List.mem_of_mem_head? hp')) hd
        ((C31_table_iff _ tb).1 ⟨t, ho⟩ ⟨r1, h1, by simpa using hne⟩ r' hr' c' hc' p' hp')
  · have hkn : KnownBlock (viewItem f.referTarget f.pictureData x) :=
      hb.known _ (e ▸ List.mem_map_of_mem (f := viewItem f.referTarget f.pictureData) hm)
    obtain ⟨t, h1, _⟩ := item_prints (w := [f]) (d := 0) rfl (hb.own x hm) hkn (homeItem_noPicture hkn hn)
    exact ⟨t, h1⟩

end

/-! ## Case: a paragraph with a text, one with a picture, and a table with a picture in a cell -/

local instance printableEnv : GoEnv := ⟨fun _ => none, fun _ => false, fun _ => false⟩
local instance printableImg : ImgEnv := ⟨fun _ => some (40, 30, "png")⟩
local instance printableHash : HashEnv := ⟨fun _ => "sum"⟩

def printableCalls : List Call :=
  [.paragraph, .text (.body 0) "Title", .paragraph, .picture true (.body 1) [1], .table 1 2 0 none, .cellParagraph 2 0 1,
   .picture false (.cell 2 0 1 0) [2]]

example : (match run [] (.new :: printableCalls.map (Call.op 0)) with
    | .ok [f] => f.items.map (fun x => match x.printed [f] with | .ok t => some t | _ => none) == [some "Title", none, none]
    | _ => false) = true ∧
    result printableCalls = [.para [.text "Title"], .para [.picture true [1]], .table [[[], [[.picture false [2]]]]]] := by
  decide +kernel

end Docx
