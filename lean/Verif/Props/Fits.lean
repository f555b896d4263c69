import Verif.SpecFits
import Verif.Props.Makes

/-!
# C102 Whether a program returns can be read off its calls
-/

namespace Docx

theorem getPara_view {R : String → Option String} {M : String → Option Bytes} {items : List BItem} {l : Loc} :
    (getPara items l).isSome = hasPlace l (items.map (viewItem R M)) := by
  have hs : ∀ s : SectPr, (∀ p, viewItem R M (.sect s) ≠ .para p) ∧ ∀ t, viewItem R M (.sect s) ≠ .table t := by
    intro s
    constructor <;> intro _ h <;> unfold viewItem at h <;> split at h <;> simp_all
  cases l with
  | body i =>
    simp only [getPara, hasPlace, List.getElem?_map]
    rcases items[i]? with _ | (p | t | s)
    · rfl
    · rfl
    · rfl
    · simp only [Option.map_some]
      symm
      split
      · rename_i h; exact ((hs s).1 _ (Option.some.inj h)).elim
      · rfl
  | cell i r c j =>
    simp only [getPara, hasPlace, List.getElem?_map]
    rcases items[i]? with _ | (p | t | s)
    · rfl
    · rfl
    · simp only [Option.map_some, viewItem, List.getElem?_map]
      rcases t.rows[r]? with _ | row
      · rfl
      · simp only [Option.map_some, Option.getD_some, List.getElem?_map, Option.bind_eq_bind, Option.bind_some]
        rcases row.cells[c]? with _ | cell
        · rfl
        · simp only [Option.map_some, Option.getD_some, List.length_map, Option.bind_some]
          by_cases h : j < cell.paras.length
          · simp [h]
          · simp [h]
    · simp only [Option.map_some]
      symm
      split
      · rename_i h; exact ((hs s).2 _ (Option.some.inj h)).elim
      · rfl

section
variable [ImgEnv] {Q : String → Prop} {me : DocId}

/-- A method of a paragraph -/
theorem onPara_iff {w : World} {f : Doc} {bs : List Block} (h : BuiltUp Q me f bs) (hw : w[me]? = some f) {l : Loc}
    {act : Doc → Para → Res (Doc × Para)} :
    (∃ w', World.onPara w me l act = .ok w') ↔
      hasPlace l bs = true ∧ ∀ p, getPara f.items l = some p → ∃ x, act f p = .ok x := by
  rw [← h.shows]
  show _ ↔ hasPlace l (f.items.map _) = true ∧ _
  rw [← getPara_view]
  constructor
  · rintro ⟨w', hs⟩
    obtain ⟨p, f', p', h1, h2, _⟩ := onPara_own h hw hs
    exact ⟨by rw [h1]; rfl, fun q hq => by rw [h1] at hq; cases hq; exact ⟨_, h2⟩⟩
  · rintro ⟨h1, h2⟩
    obtain ⟨p, hp⟩ := Option.isSome_iff_exists.1 h1
    obtain ⟨⟨f', p'⟩, hx⟩ := h2 p hp
    have ho := (own_getPara h.own hp).1
    refine ⟨w.set me { f' with items := modPara f'.items l (fun _ => p') }, ?_⟩
    simp only [World.onPara, hw, hp, ho, hx]
    show (match (w.set me f')[me]? with | none => _ | some doc => _) = _
    rw [List.getElem?_set_self (lt_of_getElem? hw)]
    simp [List.set_set]

omit [ImgEnv] in
theorem scaleSize_iff (w h : Int64) : (scaleSize w h).isSome = decide (w ≠ 0) := by
  unfold scaleSize
  split <;> split <;> simp_all

/-- One call -/
theorem returns_iff {f : Doc} {bs : List Block} {c : Call} {w : World} (h : BuiltUp Q me f bs) (hw : w[me]? = some f) :
    (∃ w', step w (c.op me) = .ok w') ↔ c.returns bs = true := by
  have edit : ∀ {k : List BItem → List BItem}, ∃ w', step w (.edit me k) = .ok w' := by
    intro k
    simp [step, World.onDoc, hw]
  have pic : ∀ {act : Doc → Para → Res (Doc × Para)} {l : Loc} {b : Bool} {pic : Bytes},
      (∀ f p, (∃ x, act f p = .ok x) ↔ (f.addPicture pic).2 ≠ .panic) →
      ((∃ w', World.onPara w me l act = .ok w') ↔ (Call.picture b l pic).returns bs = true) := by
    intro act l b pic h1
    rw [onPara_iff h hw]
    simp only [Call.returns, Bool.and_eq_true]
    refine and_congr_right fun hp => ?_
    have hp' := hp
    rw [← h.shows] at hp'
    have hp' : hasPlace l (f.items.map _) = true := hp'
    rw [← getPara_view] at hp'
    obtain ⟨p, hp'⟩ := Option.isSome_iff_exists.1 hp'
    have e : (∀ q, getPara f.items l = some q → ∃ x, act f q = .ok x) ↔ (f.addPicture pic).2 ≠ .panic := by
      rw [hp']
      constructor
      · intro h2; exact (h1 f p).1 (h2 p rfl)
      · intro h2 q hq; exact (h1 f q).2 h2
    rw [e]
    unfold Doc.addPicture
    cases hd : ImgEnv.decodeSize pic with
    | none => simp
    | some x =>
      obtain ⟨w0, h0, fmt⟩ := x
      have := scaleSize_iff w0 h0
      cases hsc : scaleSize w0 h0 with
      | none => rw [hsc] at this; simp at this; subst this; simp [hsc]
      | some xy => rw [hsc] at this; simp at this; simp [this, hsc]
  cases c with
  | paragraph => simp [Call.op, step, World.onDoc, hw, Call.returns]
  | cellParagraph i r c => simp [Call.op, step, World.onDoc, hw, Call.returns]
  | table rows cols width colors =>
    simp only [Call.op, step, World.onDoc, hw, Call.returns, Doc.addTable]
    by_cases h1 : rows < 0
    · have : ¬ 0 ≤ rows := by simpa [Int64.not_le] using h1
      simp [h1, this]
    · have h1' : 0 ≤ rows := by simpa [Int64.not_lt] using h1
      by_cases h2 : 0 < rows ∧ cols < 0
      · have h3 : ¬ 0 ≤ cols := by simpa [Int64.not_le] using h2.2
        have h4 : rows ≠ 0 := by rintro rfl; exact absurd h2.1 (by decide)
        simp [h1, h2, h3, h4]
      · have h3 : rows = 0 ∨ 0 ≤ cols := by
          by_cases h4 : 0 < rows
          · right
            have : ¬ cols < 0 := fun h5 => h2 ⟨h4, h5⟩
            simpa [Int64.not_lt] using this
          · left
            exact Int64.le_antisymm (by simpa [Int64.not_lt] using h4) h1'
        simp [h1, h1', h2, h3]
  | tableTwips heights widths width colors => simp [Call.op, step, World.onDoc, hw, Call.returns]
  | a3 => simp [Call.op, step, World.onDoc, hw, Call.returns]
  | a4 => simp [Call.op, step, World.onDoc, hw, Call.returns]
  | text l s => exact (onPara_iff h hw).trans (and_iff_left fun p _ => ⟨_, rfl⟩)
  | link l a b => exact (onPara_iff h hw).trans (and_iff_left fun p _ => ⟨_, rfl⟩)
  | shape b l x y n m k ln =>
    cases b <;> exact (onPara_iff h hw).trans (and_iff_left fun p _ => ⟨_, rfl⟩)
  | picture b l p =>
    cases b with
    | true =>
      refine pic fun f q => ?_
      simp only [Para.addInlineDrawing]
      rcases f.addPicture p with ⟨f', _ | _ | _⟩ <;> simp
    | false =>
      refine pic fun f q => ?_
      simp only [Para.addAnchorDrawing]
      rcases f.addPicture p with ⟨f', _ | _ | _⟩ <;> simp
  | tab l => exact iff_of_true edit rfl
  | pageBreak l => exact iff_of_true edit rfl
  | formatRun l k φ => exact iff_of_true edit rfl
  | formatPara l φ => exact iff_of_true edit rfl
  | formatTable i φ => exact iff_of_true edit rfl
  | formatRow i r φ => exact iff_of_true edit rfl
  | formatCell i r c φ => exact iff_of_true edit rfl
  | resize l k x y => exact iff_of_true edit rfl
  | textTab l s => exact iff_of_true edit rfl
  | place l k x y z => exact iff_of_true edit rfl
  | keep names => exact iff_of_true edit rfl
  | drop name => exact iff_of_true edit rfl
  | keepIn l names => exact iff_of_true edit rfl
  | dropIn l name => exact iff_of_true edit rfl

/-- A call adds at most one relationship and does not touch the theme -/
theorem call_rels {f : Doc} {bs : List Block} {c : Call} {w w' : World} (h : BuiltUp Q me f bs) (hw : w[me]? = some f)
    (hs : step w (c.op me) = .ok w') : ∃ f', w' = w.set me f' ∧ (f'.rels.length ≤ f.rels.length + 1 ∧ SameTheme f f') := by
  have edit : ∀ {act : Doc → Res Doc}, (∀ f', act f = .ok f' → f'.rels = f.rels ∧ SameTheme f f') → World.onDoc w me act = .ok w' →
      ∃ f', w' = w.set me f' ∧ (f'.rels.length ≤ f.rels.length + 1 ∧ SameTheme f f') := by
    intro act ha ho
    obtain ⟨f', h1, rfl⟩ := onDoc_one hw ho
    exact ⟨f', rfl, by rw [(ha _ h1).1]; omega, (ha _ h1).2⟩
  have para : ∀ {act : Doc → Para → Res (Doc × Para)} {l : Loc},
      (∀ p f' p', act f p = .ok (f', p') → (f'.rels.length ≤ f.rels.length + 1 ∧ SameTheme f f')) → World.onPara w me l act = .ok w' →
      ∃ f', w' = w.set me f' ∧ (f'.rels.length ≤ f.rels.length + 1 ∧ SameTheme f f') := by
    intro act l ha ho
    obtain ⟨p, f', p', _, h2, rfl⟩ := onPara_own h hw ho
    exact ⟨_, rfl, ha p f' p' h2⟩
  have pic : ∀ pic, (f.addPicture pic).1.rels.length ≤ f.rels.length + 1 ∧ SameTheme f (f.addPicture pic).1 := by
    intro pic
    unfold Doc.addPicture
    split
    · simp [SameTheme]
    · simp only [Doc.addImage, Doc.addImageRelation, Doc.addMedia, Doc.nextDocID, Doc.increaseID]
      split <;> simp [SameTheme]
  cases c with
  | table rows cols width colors =>
    refine edit (fun f' hf => ?_) hs
    simp only [Doc.addTable] at hf
    by_cases h1 : rows < 0
    · simp [h1] at hf
    · by_cases h2 : 0 < rows ∧ cols < 0
      · simp [h1, h2] at hf
      · simp [h1, h2] at hf
        rw [← hf]
        exact ⟨rfl, rfl, rfl, rfl⟩
  | text l s => exact para (fun p f' p' hf => by cases hf; exact ⟨by omega, rfl, rfl, rfl⟩) hs
  | link l a b => exact para (fun p f' p' hf => by cases hf; simp [Para.addLink, Doc.addLinkRelation, SameTheme]) hs
  | shape b l x y n m k ln =>
    cases b <;> exact para (fun p f' p' hf => by
      cases hf; simp [Para.addInlineShape, Para.addAnchorShape, Doc.nextDocID, Doc.increaseID, SameTheme]) hs
  | picture b l p =>
    have := pic p
    cases b <;> refine para (fun q f' p' hf => ?_) hs
    · simp only [Para.addAnchorDrawing] at hf
      rcases hd : f.addPicture p with ⟨f1, _ | _ | _⟩ <;> rw [hd] at hf this <;> simp at hf <;>
        obtain ⟨rfl, _⟩ := hf <;> exact this
    · simp only [Para.addInlineDrawing] at hf
      rcases hd : f.addPicture p with ⟨f1, _ | _ | _⟩ <;> rw [hd] at hf this <;> simp at hf <;>
        obtain ⟨rfl, _⟩ := hf <;> exact this
  | _ => exact edit (fun f' hf => by cases hf; exact ⟨rfl, rfl, rfl, rfl⟩) hs

/-- A call returns or panics -/
theorem call_ends {f : Doc} {bs : List Block} {c : Call} {w : World} (h : BuiltUp Q me f bs) (hw : w[me]? = some f) :
    (∃ w', step w (c.op me) = .ok w') ∨ step w (c.op me) = .panic := by
  have para : ∀ {act : Doc → Para → Res (Doc × Para)} {l : Loc},
      (∀ p, (∃ x, act f p = .ok x) ∨ act f p = .panic) →
      (∃ w', World.onPara w me l act = .ok w') ∨ World.onPara w me l act = .panic := by
    intro act l ha
    cases hp : getPara f.items l with
    | none => right; simp only [World.onPara, hw, hp]
    | some p =>
      rcases ha p with ⟨x, hx⟩ | hx
      · left
        refine (onPara_iff h hw).2 ⟨?_, fun q hq => ?_⟩
        · rw [← h.shows]
          show hasPlace l (f.items.map _) = true
          rw [← getPara_view, hp]; rfl
        · rw [hp] at hq; cases hq; exact ⟨x, hx⟩
      · right
        simp only [World.onPara, hw, hp, (own_getPara h.own hp).1, hx]
        rfl
  cases c with
  | table rows cols width colors =>
    simp only [Call.op, step, World.onDoc, hw, Doc.addTable]
    by_cases h1 : rows < 0
    · simp [h1]
    · by_cases h2 : 0 < rows ∧ cols < 0 <;> simp [h1, h2]
  | text l s => exact para fun p => .inl ⟨_, rfl⟩
  | link l a b => exact para fun p => .inl ⟨_, rfl⟩
  | shape b l x y n m k ln => cases b <;> exact para fun p => .inl ⟨_, rfl⟩
  | picture b l p =>
    cases b <;> refine para fun q => ?_
    · simp only [Para.addAnchorDrawing]
      rcases f.addPicture p with ⟨f1, _ | _ | _⟩ <;> simp
    · simp only [Para.addInlineDrawing]
      rcases f.addPicture p with ⟨f1, _ | _ | _⟩ <;> simp
  | _ => left; simp [Call.op, step, World.onDoc, hw]

theorem allReturn_run : ∀ {cs : List Call} {f : Doc} {bs : List Block}, BuiltUp ImageNamed 0 f bs →
    f.rels.length + cs.length < 2 ^ 62 →
    (allReturn cs bs = true → ∃ f', run [f] (cs.map (Call.op 0)) = .ok [f'] ∧
      f'.rels.length ≤ f.rels.length + cs.length ∧ SameTheme f f' ∧
      BuiltUp ImageNamed 0 f' (cs.foldl (fun bs c => c.does bs) bs)) ∧
    (allReturn cs bs = false → run [f] (cs.map (Call.op 0)) = .panic) := by
  intro cs
  induction cs with
  | nil => intro f bs h hl; exact ⟨fun _ => ⟨f, rfl, by simp, ⟨rfl, rfl, rfl⟩, h⟩, fun h => by cases h⟩
  | cons c cs ih =>
    intro f bs h hl
    simp only [List.length_cons] at hl
    have hw : ([f] : World)[0]? = some f := rfl
    have one := returns_iff (c := c) h hw
    simp only [allReturn, Bool.and_eq_true, Bool.and_eq_false_iff, List.map_cons, run]
    cases hc : c.returns bs with
    | true =>
      obtain ⟨w', hs⟩ := one.2 hc
      obtain ⟨f1, e1, hr, t1, t2, t3⟩ := call_rels h hw hs
      have hlen : ∀ g, w'[0]? = some g → g.rels.length < 2 ^ 62 := by
        intro g hg
        rw [e1] at hg
        simp at hg
        subst hg
        omega
      obtain ⟨f2, e2, hb⟩ := built_step h hlen (fun pic x y fmt k hd => ⟨_, _, _, _, _, hd, rfl⟩) hw hs
      have : f1 = f2 := by rw [e1] at e2; simpa using e2
      subst this
      rw [hs, e1]
      obtain ⟨i1, i2⟩ := ih hb (by omega)
      refine ⟨fun ⟨_, h2⟩ => ?_, fun h2 => ?_⟩
      · obtain ⟨f', hf, hl', ⟨s1, s2, s3⟩, hb'⟩ := i1 h2
        exact ⟨f', hf, by simp only [List.length_cons]; omega, ⟨s1.trans t1, s2.trans t2, s3.trans t3⟩, hb'⟩
      · rcases h2 with h2 | h2
        · cases h2
        · exact i2 h2
    | false =>
      refine ⟨fun h2 => (by cases h2.1), fun _ => ?_⟩
      rcases call_ends (c := c) h hw with hs | hs
      · rw [one.1 hs] at hc; cases hc
      · rw [hs]

end

section
variable [ImgEnv]

/-- **C102, one call.** In any program with any number of documents, a building call on one of them returns exactly
if the calls so far built what it needs. -/
theorem C102_call [GoEnv] (w : World) (s : List (List Block)) (h : Makes w s) (d : DocId) (bs : List Block)
    (hd : s[d]? = some bs) (c : Call) :
    ((∃ w', step w (c.op d) = .ok w') ↔ c.returns bs = true) ∧
      (c.returns bs = false → step w (c.op d) = .panic) := by
  obtain ⟨_, h2, _, h4⟩ := makes_program h
  obtain ⟨f, hf⟩ : ∃ f, w[d]? = some f := by
    have := lt_of_getElem? hd
    rw [← h2] at this
    exact ⟨_, List.getElem?_eq_getElem this⟩
  have hb := h4 d f bs hf hd
  refine ⟨returns_iff hb hf, fun hc => ?_⟩
  rcases call_ends (c := c) hb hf with hs | hs
  · rw [(returns_iff hb hf).1 hs] at hc; cases hc
  · exact hs

/-- **C102, programs.** A program that makes a document and then makes building calls runs to its end exactly if each
call finds what it needs in what the calls before it say; otherwise it panics. -/
theorem C102_program (cs : List Call) (hl : cs.length < 2 ^ 61) :
    (allReturn cs [] = true → ∃ f, run [] (.new :: cs.map (Call.op 0)) = .ok [f] ∧ f.shows = result cs ∧
      f.rels.length < 2 ^ 62) ∧
    (allReturn cs [] = false → run [] (.new :: cs.map (Call.op 0)) = .panic) := by
  have h3 : Doc.new.rels.length = 3 := rfl
  obtain ⟨h1, h2⟩ := allReturn_run (cs := cs) (built_none ImageNamed 0) (by rw [h3]; omega)
  refine ⟨fun ha => ?_, h2⟩
  obtain ⟨f, hr, hf, _, _⟩ := h1 ha
  have hlen : f.rels.length < 2 ^ 62 := by rw [h3] at hf; omega
  obtain ⟨f', e, hs⟩ := C98_built cs [f] hr (by simpa using hlen)
  cases e
  exact ⟨f, hr, hs, hlen⟩

end

/-! ## Programs -/

local instance fitsImg : ImgEnv := ⟨fun _ => some (0, 4, "png")⟩

/-- A program that runs to its end: text in a table cell -/
example : allReturn [.table 1 2 0 none, .cellParagraph 0 0 1, .text (.cell 0 0 1 0) "x"] [] = true := by decide

/-- A call on a paragraph that was not made -/
example : allReturn [.paragraph, .table 1 2 0 none, .text (.cell 1 0 1 0) "x"] [] = false := by decide

/-- Columns do not matter without rows -/
example : allReturn [.table 0 (-1) 0 none] [] = true ∧ allReturn [.table 1 (-1) 0 none] [] = false := by decide

/-- A picture that is 0 wide makes the call panic -/
example : allReturn [.paragraph, .picture true (.body 0) []] [] = false := by decide

end Docx
