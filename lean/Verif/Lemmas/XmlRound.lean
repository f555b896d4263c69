import Verif.Lemmas.XmlParts

/-!
# Reading back what was written: paragraphs, drawings, tables, the document
-/

namespace Docx

set_option linter.unusedSectionVars false

variable [GoEnv]

theorem takes_optN' {σ β γ : Type} {step : σ → String → List Attr → Dec → Out σ}
    {chars : σ → String → σ} {f : β → Node} (o : Option β) (g : β → γ) (set : Option γ → σ)
    (h : ∀ v, TakesC step chars (set none) [f v] (set (some (g v)))) :
    TakesC step chars (set none) (optN f o) (set (o.map g)) := by
  cases o with
  | none => exact TakesC.nil
  | some v => exact h v

theorem decodes_unPara {p : Decs} {file : Option DocId} {ks : List Node} {v : Para}
    (h : Decodes (loop (paraStep p file) { file := file }) ks v) : Decodes (unPara p file) ks v := by
  intro q rest stk
  have h1 := h q rest stk
  simp only [decodeElement, unPara] at h1 ⊢
  generalize loop (paraStep p file) { file := file }
    (Dec.pushEOF ⟨toksL ks ++ .stop q :: rest, .elem q :: stk, false⟩) = o at h1 ⊢
  rcases o with ⟨v', e, d'⟩
  cases e with
  | some e => simp at h1
  | none => exact h1

theorem takes_runSub {p : Decs} {k : Nat} (hg : DecsGood k p) {file : Option DocId} {s s' : Run}
    {q : QName} {as : List Attr} {kids : List Node} {α : Type} {u : Dec → Out α} {v : α}
    (f : α → Parsed) (hp : ∀ d, runParse p file s q.loc as d = sub u f d) (hd : Decodes u kids v)
    (hf : addChild (f v) = s') : Takes (runStep p file) s [.elem q as kids] s' := by
  refine takes_elem (runStep_good hg file) (fun rest stk => ?_)
  rw [runStep, hp, sub, hd q rest stk]
  simp only [tolerate, hf]

theorem takes_runStrict {p : Decs} {k : Nat} (hg : DecsGood k p) {file : Option DocId} {s s' : Run}
    {q : QName} {as : List Attr} {kids : List Node} {α : Type} {u : Dec → Out α} {v : α}
    (f : α → Parsed) (hp : ∀ d, runParse p file s q.loc as d = subStrict u f d) (hd : Decodes u kids v)
    (hf : addChild (f v) = s') : Takes (runStep p file) s [.elem q as kids] s' := by
  refine takes_elem (runStep_good hg file) (fun rest stk => ?_)
  rw [runStep, hp, subStrict, hd q rest stk]
  simp only [hf]

theorem reflString_text (c : String) (q : QName) (rest : List Tok) (stk : List StkEntry) :
    reflString ⟨toksL [Node.text c] ++ .stop q :: rest, .elem q :: stk, false⟩ =
      ⟨c, none, ⟨rest, stk, false⟩⟩ := by
  simp only [reflString, toksL_cons, toksL_nil, toks_text, List.append_nil, List.cons_append,
    List.nil_append, List.length_cons]
  rw [reflTextN, tok_chars]
  simp only
  rw [reflTextN, tok_stop]
  simp

theorem takes_instr {p : Decs} {k : Nat} (hg : DecsGood k p) (file : Option DocId) (space : String)
    (rpr : Option RPr) (c : String) :
    Takes (runStep p file) ⟨space, rpr, "", []⟩
      (if c = "" then [] else [el "w" "instrText" [] [.text c]]) ⟨space, rpr, c, []⟩ := by
  split
  · next h => subst h; exact TakesC.nil
  · refine takes_elem (runStep_good hg file) (fun rest stk => ?_)
    have : ∀ d, runParse p file ⟨space, rpr, "", []⟩ "instrText" [] d =
      (let o := reflString d
       ⟨(⟨space, rpr, o.val, []⟩, none), tolerate o.err, o.dec⟩) := fun d => rfl
    rw [runStep, this, reflString_text]
    rfl

theorem decodes_run {p : Decs} {k : Nat} (hg : DecsGood k p) (file : Option DocId)
    {space : String} {ks : List Node} {v : Run}
    (h : Takes (runStep p file) ⟨space, none, "", []⟩ ks v) :
    Decodes (unRun p file {} (strO "xml" "space" space)) ks v :=
  decodes_withAttrs
    (at_strO (pre := "xml") (loc := "space") space (fun y => (⟨y, none, "", []⟩ : Run)) rfl)
    (decodes_loop (runStep_good hg file) h)

theorem inline_attrs (distT distB distL distR : Int64) (file : Option DocId) :
    AttrTakes inlineAttr { file := file }
      (intA "" "distT" distT ++ intA "" "distB" distB ++ intA "" "distL" distL ++ intA "" "distR" distR)
      ⟨distT, distB, distL, distR, none, none, none, none, none, file⟩ :=
  (at_intA (pre := "") (loc := "distT") distT
    (set := fun y => (⟨y, 0, 0, 0, none, none, none, none, none, file⟩ : Inline)) rfl) |>.append
  (at_intA (pre := "") (loc := "distB") distB
    (set := fun y => (⟨distT, y, 0, 0, none, none, none, none, none, file⟩ : Inline)) rfl) |>.append
  (at_intA (pre := "") (loc := "distL") distL
    (set := fun y => (⟨distT, distB, y, 0, none, none, none, none, none, file⟩ : Inline)) rfl) |>.append
  (at_intA (pre := "") (loc := "distR") distR
    (set := fun y => (⟨distT, distB, distL, y, none, none, none, none, none, file⟩ : Inline)) rfl)

theorem anchor_attrs (a1 a2 a3 a4 a5 a6 a7 a8 a9 a10 : Int64) (file : Option DocId) :
    AttrTakes anchorAttr { file := file }
      (intA "" "distT" a1 ++ intA "" "distB" a2 ++ intA "" "distL" a3 ++
      intA "" "distR" a4 ++ intA "" "simplePos" a5 ++
      intA "" "relativeHeight" a6 ++ intA "" "behindDoc" a7 ++
      intA "" "locked" a8 ++ intA "" "layoutInCell" a9 ++
      intA "" "allowOverlap" a10)
      ⟨a1, a2, a3, a4, a5, a6, a7, a8, a9, a10, none, none, none, none, none, false, none, none, none,
        none, file⟩ :=
  (at_intA (pre := "") (loc := "distT") a1
    (set := fun y => ({ distT := y, file := file } : Anchor)) rfl) |>.append
  (at_intA (pre := "") (loc := "distB") a2
    (set := fun y => ({ distT := a1, distB := y, file := file } : Anchor)) rfl) |>.append
  (at_intA (pre := "") (loc := "distL") a3
    (set := fun y => ({ distT := a1, distB := a2, distL := y, file := file } : Anchor)) rfl) |>.append
  (at_intA (pre := "") (loc := "distR") a4
    (set := fun y => ({ distT := a1, distB := a2, distL := a3, distR := y, file := file } : Anchor)) rfl) |>.append
  (at_intA (pre := "") (loc := "simplePos") a5
    (set := fun y => ({ distT := a1, distB := a2, distL := a3, distR := a4, simplePos := y, file := file } : Anchor)) rfl) |>.append
  (at_intA (pre := "") (loc := "relativeHeight") a6
    (set := fun y => ({ distT := a1, distB := a2, distL := a3, distR := a4, simplePos := a5, relativeHeight := y, file := file } : Anchor)) rfl) |>.append
  (at_intA (pre := "") (loc := "behindDoc") a7
    (set := fun y => ({ distT := a1, distB := a2, distL := a3, distR := a4, simplePos := a5, relativeHeight := a6, behindDoc := y, file := file } : Anchor)) rfl) |>.append
  (at_intA (pre := "") (loc := "locked") a8
    (set := fun y => ({ distT := a1, distB := a2, distL := a3, distR := a4, simplePos := a5, relativeHeight := a6, behindDoc := a7, locked := y, file := file } : Anchor)) rfl) |>.append
  (at_intA (pre := "") (loc := "layoutInCell") a9
    (set := fun y => ({ distT := a1, distB := a2, distL := a3, distR := a4, simplePos := a5, relativeHeight := a6, behindDoc := a7, locked := a8, layoutInCell := y, file := file } : Anchor)) rfl) |>.append
  (at_intA (pre := "") (loc := "allowOverlap") a10
    (set := fun y => ({ distT := a1, distB := a2, distL := a3, distR := a4, simplePos := a5, relativeHeight := a6, behindDoc := a7, locked := a8, layoutInCell := a9, allowOverlap := y, file := file } : Anchor)) rfl)

/-- The children of an inline drawing before the graphic -/
theorem takes_inlineParts (file : Option DocId) (a1 a2 a3 a4 : Int64) (extent : Option Ext)
    (eff : Option EffectExtent) (docPr : Option IdName) (framePr : Option FrameLocks) :
    Takes (inlineStep D file) ⟨a1, a2, a3, a4, none, none, none, none, none, file⟩
      (optN mExtent extent ++ optN mEffectExtent eff ++ optN mDocPr docPr ++ optN mFramePr framePr)
      ⟨a1, a2, a3, a4, extent, eff, docPr, framePr, none, file⟩ := by
  have g := inlineStep_good (D_good 0) file
  exact
    (takes_optN (f := mExtent) extent
      (fun z => (⟨a1, a2, a3, a4, z, none, none, none, none, file⟩ : Inline))
      fun y => takes_flatAttrs g
        (g := fun w => (⟨a1, a2, a3, a4, some w, none, none, none, none, file⟩ : Inline)) rfl rfl
        (ext_attrs y) rfl) |>.append
    (takes_optN (f := mEffectExtent) eff
      (fun z => (⟨a1, a2, a3, a4, extent, z, none, none, none, file⟩ : Inline))
      fun y => takes_flatAttrs g
        (g := fun w => (⟨a1, a2, a3, a4, extent, some w, none, none, none, file⟩ : Inline)) rfl rfl
        (eff_attrs y) rfl) |>.append
    (takes_optN (f := mDocPr) docPr
      (fun z => (⟨a1, a2, a3, a4, extent, eff, z, none, none, file⟩ : Inline))
      fun y => tsub% g (dec_docPr y)
        (fun w => (⟨a1, a2, a3, a4, extent, eff, some w, none, none, file⟩ : Inline))) |>.append
    (takes_optN (f := mFramePr) framePr
      (fun z => (⟨a1, a2, a3, a4, extent, eff, docPr, z, none, file⟩ : Inline))
      fun y => tsub% g (dec_framePr y)
        (fun w => (⟨a1, a2, a3, a4, extent, eff, docPr, some w, none, file⟩ : Inline)))

/-- The children of an anchored drawing before the graphic -/
theorem takes_anchorParts (file : Option DocId) (a1 a2 a3 a4 a5 a6 a7 a8 a9 a10 : Int64)
    (sp : Option Off) (ph pv : Option Position) (extent : Option Ext)
    (eff : Option EffectExtent) (wn : Bool) (ws : Option String) (docPr : Option IdName)
    (framePr : Option FrameLocks) :
    Takes (anchorStep D file)
      ⟨a1, a2, a3, a4, a5, a6, a7, a8, a9, a10, none, none, none, none, none, false, none, none, none,
        none, file⟩
      (optN mSimplePos sp ++ optN (mPosition "positionH") ph ++ optN (mPosition "positionV") pv ++
        optN mExtent extent ++ optN mEffectExtent eff ++ flagN wn "wp" "wrapNone" ++
        optN (fun v => el "wp" "wrapSquare" (strA "" "wrapText" v) []) ws ++
        optN mDocPr docPr ++ optN mFramePr framePr)
      ⟨a1, a2, a3, a4, a5, a6, a7, a8, a9, a10, sp, ph, pv, extent, eff, wn, ws, docPr, framePr,
        none, file⟩ := by
  have g := anchorStep_good (D_good 0) file
  exact
    (takes_optN (f := mSimplePos) sp
      (fun z => (⟨a1, a2, a3, a4, a5, a6, a7, a8, a9, a10, z, none, none, none, none, false, none, none, none, none, file⟩ : Anchor))
      fun y => takes_flatAttrs g
        (g := fun w => (⟨a1, a2, a3, a4, a5, a6, a7, a8, a9, a10, some w, none, none, none, none, false, none, none, none, none, file⟩ : Anchor))
        rfl rfl (off_attrs y) rfl) |>.append
    (takes_optN (f := mPosition "positionH") ph
      (fun z => (⟨a1, a2, a3, a4, a5, a6, a7, a8, a9, a10, sp, z, none, none, none, false, none, none, none, none, file⟩ : Anchor))
      fun y => tsub% g (dec_position "positionH" y)
        (fun w => (⟨a1, a2, a3, a4, a5, a6, a7, a8, a9, a10, sp, some w, none, none, none, false, none, none, none, none, file⟩ : Anchor))) |>.append
    (takes_optN (f := mPosition "positionV") pv
      (fun z => (⟨a1, a2, a3, a4, a5, a6, a7, a8, a9, a10, sp, ph, z, none, none, false, none, none, none, none, file⟩ : Anchor))
      fun y => tsub% g (dec_position "positionV" y)
        (fun w => (⟨a1, a2, a3, a4, a5, a6, a7, a8, a9, a10, sp, ph, some w, none, none, false, none, none, none, none, file⟩ : Anchor))) |>.append
    (takes_optN (f := mExtent) extent
      (fun z => (⟨a1, a2, a3, a4, a5, a6, a7, a8, a9, a10, sp, ph, pv, z, none, false, none, none, none, none, file⟩ : Anchor))
      fun y => tsub% g (dec_extent y)
        (fun w => (⟨a1, a2, a3, a4, a5, a6, a7, a8, a9, a10, sp, ph, pv, some w, none, false, none, none, none, none, file⟩ : Anchor))) |>.append
    (takes_optN (f := mEffectExtent) eff
      (fun z => (⟨a1, a2, a3, a4, a5, a6, a7, a8, a9, a10, sp, ph, pv, extent, z, false, none, none, none, none, file⟩ : Anchor))
      fun y => tsub% g (dec_effectExtent y)
        (fun w => (⟨a1, a2, a3, a4, a5, a6, a7, a8, a9, a10, sp, ph, pv, extent, some w, false, none, none, none, none, file⟩ : Anchor))) |>.append
    (takes_flagN (pre := "wp") (loc := "wrapNone") g wn
      (fun z => (⟨a1, a2, a3, a4, a5, a6, a7, a8, a9, a10, sp, ph, pv, extent, eff, z, none, none, none, none, file⟩ : Anchor))
      fun _ => rfl) |>.append
    (takes_optN (f := fun v => el "wp" "wrapSquare" (strA "" "wrapText" v) []) ws
      (fun z => (⟨a1, a2, a3, a4, a5, a6, a7, a8, a9, a10, sp, ph, pv, extent, eff, wn, z, none, none, none, file⟩ : Anchor))
      fun y => takes_flat g rfl (fun _ => rfl) TakesC.nil) |>.append
    (takes_optN (f := mDocPr) docPr
      (fun z => (⟨a1, a2, a3, a4, a5, a6, a7, a8, a9, a10, sp, ph, pv, extent, eff, wn, ws, z, none, none, file⟩ : Anchor))
      fun y => tsub% g (dec_docPr y)
        (fun w => (⟨a1, a2, a3, a4, a5, a6, a7, a8, a9, a10, sp, ph, pv, extent, eff, wn, ws, some w, none, none, file⟩ : Anchor))) |>.append
    (takes_optN (f := mFramePr) framePr
      (fun z => (⟨a1, a2, a3, a4, a5, a6, a7, a8, a9, a10, sp, ph, pv, extent, eff, wn, ws, docPr, z, none, file⟩ : Anchor))
      fun y => tsub% g (dec_framePr y)
        (fun w => (⟨a1, a2, a3, a4, a5, a6, a7, a8, a9, a10, sp, ph, pv, extent, eff, wn, ws, docPr, some w, none, file⟩ : Anchor)))

theorem getAtt_strO (pre loc v : String) : getAtt (strO pre loc v) loc = v := by
  unfold strO
  split
  · next h => rw [h]; rfl
  · simp [getAtt]

theorem linkID_strA (id old : String) (h : old = "") : linkID (strA "r" "id" id) old = id := by
  subst h
  have h1 : getAtt (strA "r" "id" id) "anchor" = "" := rfl
  have h2 : getAtt (strA "r" "id" id) "id" = id := rfl
  unfold linkID
  rw [h1, h2]
  simp only [ne_eq, not_true_eq_false, if_false]
  split
  · rfl
  · next h => simp at h; exact h.symm

mutual

theorem rt_para (file : Option DocId) (p : Para) :
    Decodes (unPara D file) (mPara p).kids (normPara file p) := by
  match p with
  | ⟨props, children, f⟩ =>
    have h1 : Takes (paraStep D file) { file := file } (optN mPPr props)
        ⟨props.map normPPr, [], file⟩ :=
      takes_optN' props normPPr (fun z => (⟨z, [], file⟩ : Para))
        fun y => tsub% (paraStep_good (D_good 0) file) (dec_ppr y) (fun w => (⟨some w, [], file⟩ : Para))
    simp only [mPara, normPara, el, Node.kids]
    exact decodes_unPara (decodes_loop (paraStep_good (D_good 0) file)
      (h1.append (rt_pChildren file children (props.map normPPr) [])))

theorem rt_pChildren (file : Option DocId) (cs : List PChild) (props : Option PPr) (pre : List PChild) :
    Takes (paraStep D file) ⟨props, pre, file⟩ (mPChildren cs)
      ⟨props, pre ++ normPChildren file cs, file⟩ := by
  match cs with
  | [] => exact TakesC.nil' (by simp [normPChildren])
  | c :: cs =>
    have := rt_pChildren file cs props (pre ++ [normPChild file c])
    simp only [mPChildren, normPChildren]
    refine TakesC.cons (rt_pChild file c props pre) ?_
    simpa using this

theorem rt_pChild (file : Option DocId) (c : PChild) (props : Option PPr) (pre : List PChild) :
    Takes (paraStep D file) ⟨props, pre, file⟩ [mPChild c] ⟨props, pre ++ [normPChild file c], file⟩ := by
  have g := paraStep_good (D_good 0) file
  match c with
  | .run r =>
    simp only [mPChild, normPChild]
    obtain ⟨as, kids, hm, hd⟩ := rt_run file r
    rw [hm]
    exact takes_sub g rfl hd (fun w => (⟨props, pre ++ [.run w], file⟩ : Para)) rfl rfl
  | .link h =>
    simp only [mPChild, normPChild]
    match h with
    | ⟨id, run⟩ =>
      simp only [mLink, normLink]
      obtain ⟨as, kids, hm, hd⟩ := rt_run none run
      have hl : Decodes (unLink D) [mRun run] ⟨"", normRun none run⟩ := by
        refine decodes_loop (hyperlinkStep_good (D_good 0)) ?_
        rw [hm]
        exact takes_sub (hyperlinkStep_good (D_good 0)) rfl hd (fun w => (⟨"", w⟩ : Hyperlink)) rfl rfl
      refine takes_sub g rfl hl (fun w => (⟨props, pre ++ [.link { w with id := linkID (strA "r" "id" id) w.id }],
        file⟩ : Para)) rfl ?_
      simp only [linkID_strA id "" rfl]
  | .rpr p =>
    simp only [mPChild, normPChild]
    exact takes_sub g rfl (dec_rpr p) (fun w => (⟨props, pre ++ [.rpr w], file⟩ : Para)) rfl rfl

theorem rt_run (file : Option DocId) (r : Run) : ∃ as kids, mRun r = .elem ⟨"w", "r"⟩ as kids ∧
    Decodes (unRun D file {} as) kids (normRun file r) := by
  match r with
  | ⟨space, rpr, instr, children⟩ =>
    refine ⟨_, _, by simp only [mRun, el]; rfl, ?_⟩
    have h1 : Takes (runStep D file) ⟨space, none, "", []⟩ (optN mRPr rpr) ⟨space, rpr, "", []⟩ :=
      takes_optN rpr (fun z => (⟨space, z, "", []⟩ : Run)) fun y =>
        takes_runSub (D_good 0) (fun w => (⟨space, some w, "", []⟩, none)) (fun _ => rfl) (dec_rpr y) rfl
    have h2 := takes_instr (D_good 0) file space rpr instr
    have h3 := rt_rChildren file children space rpr instr []
    simp only [normRun]
    exact decodes_run (D_good 0) file ((h1.append h2).append h3)

theorem rt_rChildren (file : Option DocId) (cs : List RChild) (space : String) (rpr : Option RPr)
    (instr : String) (pre : List RChild) :
    Takes (runStep D file) ⟨space, rpr, instr, pre⟩ (mRChildren cs)
      ⟨space, rpr, instr, pre ++ normRChildren file cs⟩ := by
  match cs with
  | [] => exact TakesC.nil' (by simp [normRChildren])
  | c :: cs =>
    have := rt_rChildren file cs space rpr instr (pre ++ [normRChild file c])
    simp only [mRChildren, normRChildren]
    refine TakesC.cons (rt_rChild file c space rpr instr pre) ?_
    simpa using this

theorem rt_rChild (file : Option DocId) (c : RChild) (space : String) (rpr : Option RPr)
    (instr : String) (pre : List RChild) :
    Takes (runStep D file) ⟨space, rpr, instr, pre⟩ [mRChild c]
      ⟨space, rpr, instr, pre ++ [normRChild file c]⟩ := by
  match c with
  | .text t =>
    simp only [mRChild, normRChild]
    exact takes_runStrict (D_good 0) (fun w => (⟨space, rpr, instr, pre⟩, some (.text w)))
      (fun _ => rfl) (dec_text t) rfl
  | .tab t =>
    simp only [mRChild, normRChild]
    exact takes_flat (runStep_good (D_good 0) file) rfl (fun _ => rfl) TakesC.nil
  | .br b =>
    simp only [mRChild, normRChild]
    exact takes_runStrict (D_good 0) (fun w => (⟨space, rpr, instr, pre⟩, some (.br w)))
      (fun _ => rfl) (dec_br b) rfl
  | .drawing d =>
    simp only [mRChild, normRChild]
    match d with
    | ⟨inl, anchor⟩ =>
      simp only [mDrawing, normDrawing]
      refine takes_runStrict (D_good 0) (fun w => (⟨space, rpr, instr, pre⟩, some (.drawing w)))
        (fun _ => rfl) (decodes_loop (drawingStep_good (D_good 0) file)
          (TakesC.append (s' := ⟨normInlineO file inl, none⟩) (rt_inlineO file inl)
            (rt_anchorO file anchor (normInlineO file inl)))) rfl

theorem rt_inlineO (file : Option DocId) (o : Option Inline) :
    Takes (drawingStep D file) {} (mInlineO o) ⟨normInlineO file o, none⟩ := by
  match o with
  | none => exact TakesC.nil' (by simp only [normInlineO])
  | some i =>
    match i with
    | ⟨a1, a2, a3, a4, extent, eff, docPr, framePr, graphic, _⟩ =>
      simp only [mInlineO, normInlineO, normInline, mInline]
      have hb := decodes_withAttrs (inline_attrs a1 a2 a3 a4 file)
        (decodes_loop (inlineStep_good (D_good 0) file)
          ((takes_inlineParts file a1 a2 a3 a4 extent eff docPr framePr).append
            (rt_inlineGraphic file graphic a1 a2 a3 a4 extent eff docPr framePr)))
      exact takes_sub (drawingStep_good (D_good 0) file) rfl hb (fun w => (⟨some w, none⟩ : Drawing)) rfl rfl

theorem rt_anchorO (file : Option DocId) (o : Option Anchor) (inl : Option Inline) :
    Takes (drawingStep D file) ⟨inl, none⟩ (mAnchorO o) ⟨inl, normAnchorO file o⟩ := by
  match o with
  | none => exact TakesC.nil' (by simp only [normAnchorO])
  | some i =>
    match i with
    | ⟨a1, a2, a3, a4, a5, a6, a7, a8, a9, a10, sp, ph, pv, extent, eff, wn, ws, docPr, framePr,
        graphic, _⟩ =>
      simp only [mAnchorO, normAnchorO, normAnchor, mAnchor]
      have hb := decodes_withAttrs (anchor_attrs a1 a2 a3 a4 a5 a6 a7 a8 a9 a10 file)
        (decodes_loop (anchorStep_good (D_good 0) file)
          ((takes_anchorParts file a1 a2 a3 a4 a5 a6 a7 a8 a9 a10 sp ph pv extent eff wn ws docPr framePr).append
            (rt_anchorGraphic file graphic a1 a2 a3 a4 a5 a6 a7 a8 a9 a10 sp ph pv extent eff wn ws docPr framePr)))
      exact takes_sub (drawingStep_good (D_good 0) file) rfl hb (fun w => (⟨inl, some w⟩ : Drawing)) rfl rfl

theorem rt_inlineGraphic (file : Option DocId) (o : Option Graphic) (a1 a2 a3 a4 : Int64)
    (extent : Option Ext) (eff : Option EffectExtent) (docPr : Option IdName)
    (framePr : Option FrameLocks) :
    Takes (inlineStep D file) ⟨a1, a2, a3, a4, extent, eff, docPr, framePr, none, file⟩
      (mGraphicO o) ⟨a1, a2, a3, a4, extent, eff, docPr, framePr, normGraphicO file o, file⟩ := by
  match o with
  | none => exact TakesC.nil' (by simp only [normGraphicO])
  | some g =>
    obtain ⟨as, kids, hm, hd⟩ := rt_graphic file g
    simp only [mGraphicO, normGraphicO, hm]
    exact takes_sub (inlineStep_good (D_good 0) file) rfl hd
      (fun w => (⟨a1, a2, a3, a4, extent, eff, docPr, framePr, some w, file⟩ : Inline)) rfl rfl

theorem rt_anchorGraphic (file : Option DocId) (o : Option Graphic)
    (a1 a2 a3 a4 a5 a6 a7 a8 a9 a10 : Int64)
    (sp : Option Off) (ph pv : Option Position) (extent : Option Ext)
    (eff : Option EffectExtent) (wn : Bool) (ws : Option String) (docPr : Option IdName)
    (framePr : Option FrameLocks) :
    Takes (anchorStep D file)
      ⟨a1, a2, a3, a4, a5, a6, a7, a8, a9, a10, sp, ph, pv, extent, eff, wn, ws, docPr, framePr,
        none, file⟩ (mGraphicO o)
      ⟨a1, a2, a3, a4, a5, a6, a7, a8, a9, a10, sp, ph, pv, extent, eff, wn, ws, docPr, framePr,
        normGraphicO file o, file⟩ := by
  match o with
  | none => exact TakesC.nil' (by simp only [normGraphicO])
  | some g =>
    obtain ⟨as, kids, hm, hd⟩ := rt_graphic file g
    simp only [mGraphicO, normGraphicO, hm]
    exact takes_sub (anchorStep_good (D_good 0) file) rfl hd
      (fun w => (⟨a1, a2, a3, a4, a5, a6, a7, a8, a9, a10, sp, ph, pv, extent, eff, wn, ws, docPr,
        framePr, some w, file⟩ : Anchor)) rfl rfl

theorem rt_graphic (file : Option DocId) (g : Graphic) :
    ∃ as kids, mGraphic g = .elem ⟨"a", "graphic"⟩ as kids ∧
      Decodes (unGraphic D file as) kids (normGraphic file g) := by
  match g with
  | ⟨xmlA, data⟩ =>
    refine ⟨_, _, by simp only [mGraphic, el]; rfl, ?_⟩
    have ha : AttrTakes graphicAttr {} (strO "xmlns" "a" xmlA) ⟨xmlA, none⟩ :=
      at_strO (pre := "xmlns") (loc := "a") xmlA (fun y => (⟨y, none⟩ : Graphic)) rfl
    simp only [normGraphic]
    exact decodes_withAttrs ha (decodes_loop (graphicStep_good (D_good 0) file)
      (rt_graphicDataO file data xmlA))

theorem rt_graphicDataO (file : Option DocId) (o : Option GraphicData) (xmlA : String) :
    Takes (graphicStep D file) ⟨xmlA, none⟩ (mGraphicDataO o) ⟨xmlA, normGraphicDataO file o⟩ := by
  match o with
  | none => exact TakesC.nil' (by simp only [normGraphicDataO])
  | some g =>
    match g with
    | ⟨uri, pic, shape, canvas, group⟩ =>
      simp only [mGraphicDataO, normGraphicDataO, mGraphicData, normGraphicData]
      have g0 := graphicDataStep_good (D_good 0) file
      have ha : AttrTakes graphicDataAttr {} (strA "" "uri" uri) ⟨uri, none, none, none, none⟩ :=
        at_strA (pre := "") (loc := "uri") (v := uri) rfl
      have h1 : Takes (graphicDataStep D file) ⟨uri, none, none, none, none⟩ (optN mPic pic)
          ⟨uri, pic, none, none, none⟩ :=
        takes_optN pic (fun z => (⟨uri, z, none, none, none⟩ : GraphicData)) fun y =>
          takes_sub g0 rfl (dec_pic y)
            (fun w => (⟨uri, some { w with xmlPic := getAtt (mPic y).as "pic" }, none, none, none⟩ :
              GraphicData)) rfl (by simp only [pic_attr])
      have h2 : Takes (graphicDataStep D file) ⟨uri, pic, none, none, none⟩ (mShapeO shape)
          ⟨uri, pic, normShapeO file shape, none, none⟩ := by
        match shape with
        | none => exact TakesC.nil' (by simp only [normShapeO])
        | some s =>
          obtain ⟨kids, hm, hd⟩ := rt_shape file s
          simp only [mShapeO, normShapeO, hm]
          exact takes_sub g0 rfl hd
            (fun w => (⟨uri, pic, some w, none, none⟩ : GraphicData)) rfl rfl
      have h3 : Takes (graphicDataStep D file) ⟨uri, pic, normShapeO file shape, none, none⟩
          (mCanvasO canvas) ⟨uri, pic, normShapeO file shape, normCanvasO file canvas, none⟩ := by
        match canvas with
        | none => exact TakesC.nil' (by simp only [normCanvasO])
        | some s =>
          obtain ⟨kids, hm, hd⟩ := rt_canvas file s
          simp only [mCanvasO, normCanvasO, hm]
          exact takes_sub g0 rfl hd
            (fun w => (⟨uri, pic, normShapeO file shape, some w, none⟩ : GraphicData)) rfl rfl
      have h4 : Takes (graphicDataStep D file)
          ⟨uri, pic, normShapeO file shape, normCanvasO file canvas, none⟩
          (mGroupO group)
          ⟨uri, pic, normShapeO file shape, normCanvasO file canvas, normGroupO file group⟩ := by
        match group with
        | none => exact TakesC.nil' (by simp only [normGroupO])
        | some s =>
          obtain ⟨kids, hm, hd⟩ := rt_group file s
          simp only [mGroupO, normGroupO, hm]
          exact takes_sub g0 rfl hd
            (fun w => (⟨uri, pic, normShapeO file shape, normCanvasO file canvas, some w⟩ : GraphicData))
            rfl rfl
      exact takes_sub (graphicStep_good (D_good 0) file) rfl
        (decodes_withAttrs ha (decodes_loop g0 (((h1.append h2).append h3).append h4)))
        (fun w => (⟨xmlA, some { w with uri := uri }⟩ : Graphic)) rfl rfl

theorem rt_shape (file : Option DocId) (s : Shape) :
    ∃ kids, mShape s = .elem ⟨"wps", "wsp"⟩ [] kids ∧
      Decodes (unShape D file) kids (normShape file s) := by
  match s with
  | ⟨cNvPr, cNvCnPr, cNvSpPr, spPr, textBox, bodyPr⟩ =>
    refine ⟨_, by simp only [mShape, el]; rfl, ?_⟩
    have g := shapeStep_good (D_good 0) file
    have h1 : Takes (shapeStep D file) {} (optN (mIdName "wps") cNvPr) ⟨cNvPr, none, none, none, none, none⟩ :=
      takes_optN cNvPr (fun z => (⟨z, none, none, none, none, none⟩ : Shape))
        fun y => tsub% g (dec_idName "wps" y) (fun w => (⟨some w, none, none, none, none, none⟩ : Shape))
    have h2 : Takes (shapeStep D file) ⟨cNvPr, none, none, none, none, none⟩ (optN mCNvCnPr cNvCnPr)
        ⟨cNvPr, cNvCnPr, none, none, none, none⟩ :=
      takes_optN cNvCnPr (fun z => (⟨cNvPr, z, none, none, none, none⟩ : Shape))
        fun y => tsub% g (dec_cNvCnPr y) (fun w => (⟨cNvPr, some w, none, none, none, none⟩ : Shape))
    have h3 : Takes (shapeStep D file) ⟨cNvPr, cNvCnPr, none, none, none, none⟩ (optN mCNvSpPr cNvSpPr)
        ⟨cNvPr, cNvCnPr, cNvSpPr, none, none, none⟩ :=
      takes_optN cNvSpPr (fun z => (⟨cNvPr, cNvCnPr, z, none, none, none⟩ : Shape))
        fun y => tsub% g (dec_cNvSpPr y) (fun w => (⟨cNvPr, cNvCnPr, some w, none, none, none⟩ : Shape))
    have h4 : Takes (shapeStep D file) ⟨cNvPr, cNvCnPr, cNvSpPr, none, none, none⟩
        (optN (mShapePr "wps" "spPr") spPr) ⟨cNvPr, cNvCnPr, cNvSpPr, spPr.map normShapePr, none, none⟩ :=
      takes_optN' spPr normShapePr (fun z => (⟨cNvPr, cNvCnPr, cNvSpPr, z, none, none⟩ : Shape))
        fun y => tsub% g (dec_shapePr "wps" "spPr" y)
          (fun w => (⟨cNvPr, cNvCnPr, cNvSpPr, some w, none, none⟩ : Shape))
    have h5 : Takes (shapeStep D file) ⟨cNvPr, cNvCnPr, cNvSpPr, spPr.map normShapePr, none, none⟩
        (mTextBoxO textBox)
        ⟨cNvPr, cNvCnPr, cNvSpPr, spPr.map normShapePr, normTextBoxO file textBox, none⟩ := by
      match textBox with
      | none => exact TakesC.nil' (by simp only [normTextBoxO])
      | some ⟨content⟩ =>
        simp only [mTextBoxO, normTextBoxO, mTextBox, normTextBox]
        have hc : Takes (textBoxStep D file) {} (mContentO content) ⟨normContentO file content⟩ := by
          match content with
          | none => exact TakesC.nil' (by simp only [normContentO])
          | some ps =>
            simp only [mContentO, normContentO]
            have := decodes_loop (txbxContentStep_good (D_good 0) file) (rt_paras file ps [])
            exact takes_sub (textBoxStep_good (D_good 0) file) rfl this
              (fun w => (⟨some w⟩ : TextBox)) rfl rfl
        exact takes_sub g rfl (decodes_loop (textBoxStep_good (D_good 0) file) hc)
          (fun w => (⟨cNvPr, cNvCnPr, cNvSpPr, spPr.map normShapePr, some w, none⟩ : Shape)) rfl rfl
    have h6 : Takes (shapeStep D file)
        ⟨cNvPr, cNvCnPr, cNvSpPr, spPr.map normShapePr, normTextBoxO file textBox, none⟩
        (optN mBodyPr bodyPr)
        ⟨cNvPr, cNvCnPr, cNvSpPr, spPr.map normShapePr, normTextBoxO file textBox, bodyPr⟩ :=
      takes_optN bodyPr (fun z => (⟨cNvPr, cNvCnPr, cNvSpPr, spPr.map normShapePr,
        normTextBoxO file textBox, z⟩ : Shape))
        fun y => tsub% g (dec_bodyPr y) (fun w => (⟨cNvPr, cNvCnPr, cNvSpPr, spPr.map normShapePr,
          normTextBoxO file textBox, some w⟩ : Shape))
    simp only [normShape]
    exact decodes_loop g (((((h1.append h2).append h3).append h4).append h5).append h6)

theorem rt_paras (file : Option DocId) (ps : List Para) (pre : List Para) :
    Takes (txbxContentStep D file) pre (mParas ps) (pre ++ normParas file ps) := by
  match ps with
  | [] => exact TakesC.nil' (by simp [normParas])
  | p :: ps =>
    have h1 := rt_para file p
    have := rt_paras file ps (pre ++ [normPara file p])
    simp only [mParas, normParas]
    refine TakesC.cons (s' := pre ++ [normPara file p]) ?_ (by simpa using this)
    obtain ⟨kids, hm⟩ : ∃ kids, mPara p = .elem ⟨"w", "p"⟩ [] kids := by
      cases p; exact ⟨_, by simp only [mPara, el]; rfl⟩
    rw [hm] at h1 ⊢
    rw [← D_para] at h1
    exact takes_sub (txbxContentStep_good (D_good 0) file) rfl h1 (fun w => pre ++ [w]) rfl rfl

theorem rt_canvas (file : Option DocId) (c : Canvas) :
    ∃ kids, mCanvas c = .elem ⟨"wpc", "wpc"⟩ [] kids ∧
      Decodes (unCanvas D file) kids (normCanvas file c) := by
  match c with
  | ⟨background, whole, items⟩ =>
    refine ⟨_, by simp only [mCanvas, el]; rfl, ?_⟩
    have g := canvasStep_good (D_good 0) file
    have h1 : Takes (canvasStep D file) {} (optN mBackground background) ⟨background, none, []⟩ :=
      takes_optN background (fun z => (⟨z, none, []⟩ : Canvas))
        fun y => tsub% g (dec_background y) (fun w => (⟨some w, none, []⟩ : Canvas))
    have h2 : Takes (canvasStep D file) ⟨background, none, []⟩ (optN mWhole whole)
        ⟨background, whole, []⟩ :=
      takes_optN whole (fun z => (⟨background, z, []⟩ : Canvas))
        fun y => tsub% g (dec_whole y) (fun w => (⟨background, some w, []⟩ : Canvas))
    simp only [normCanvas]
    exact decodes_loop g ((h1.append h2).append (rt_cItems file items background whole []))

theorem rt_cItems (file : Option DocId) (cs : List CItem) (b : Option Bool) (w : Option (Option Line))
    (pre : List CItem) :
    Takes (canvasStep D file) ⟨b, w, pre⟩ (mCItems cs) ⟨b, w, pre ++ normCItems file cs⟩ := by
  match cs with
  | [] => exact TakesC.nil' (by simp [normCItems])
  | c :: cs =>
    have h := rt_cItems file cs b w (pre ++ [normCItem file c])
    have g := canvasStep_good (D_good 0) file
    simp only [mCItems, normCItems]
    refine TakesC.cons (s' := ⟨b, w, pre ++ [normCItem file c]⟩) ?_ (by simpa using h)
    match c with
    | .shape s =>
      obtain ⟨kids, hm, hd⟩ := rt_shape file s
      simp only [mCItem, normCItem, hm]
      exact takes_sub g rfl hd (fun x => (⟨b, w, pre ++ [.shape x]⟩ : Canvas)) rfl rfl
    | .pic p =>
      simp only [mCItem, normCItem]
      exact takes_sub g rfl (dec_pic p)
        (fun x => (⟨b, w, pre ++ [.pic { x with xmlPic := getAtt (mPic p).as "pic" }]⟩ : Canvas)) rfl
        (by simp only [pic_attr])
    | .group s =>
      obtain ⟨kids, hm, hd⟩ := rt_group file s
      simp only [mCItem, normCItem, hm]
      exact takes_sub g rfl hd (fun x => (⟨b, w, pre ++ [.group x]⟩ : Canvas)) rfl rfl

theorem rt_group (file : Option DocId) (c : Group) :
    ∃ kids, mGroup c = .elem ⟨"wpg", "wgp"⟩ [] kids ∧
      Decodes (unGroup D file) kids (normGroup file c) := by
  match c with
  | ⟨cNvGrpSpPr, grpSpPr, elems⟩ =>
    refine ⟨_, by simp only [mGroup, el]; rfl, ?_⟩
    have g := groupStep_good (D_good 0) file
    have h1 : Takes (groupStep D file) {} (optN mCNvGrpSpPr cNvGrpSpPr) ⟨cNvGrpSpPr, none, []⟩ :=
      takes_optN cNvGrpSpPr (fun z => (⟨z, none, []⟩ : Group))
        fun y => tsub% g (dec_cNvGrpSpPr y) (fun w => (⟨some w, none, []⟩ : Group))
    have h2 : Takes (groupStep D file) ⟨cNvGrpSpPr, none, []⟩ (optN (mShapePr "wpg" "grpSpPr") grpSpPr)
        ⟨cNvGrpSpPr, grpSpPr.map normShapePr, []⟩ :=
      takes_optN' grpSpPr normShapePr (fun z => (⟨cNvGrpSpPr, z, []⟩ : Group))
        fun y => tsub% g (dec_shapePr "wpg" "grpSpPr" y) (fun w => (⟨cNvGrpSpPr, some w, []⟩ : Group))
    simp only [normGroup]
    exact decodes_loop g ((h1.append h2).append (rt_gItems file elems cNvGrpSpPr (grpSpPr.map normShapePr) []))

theorem rt_groupShape (file : Option DocId) (c : GroupShape) :
    ∃ kids, mGroupShape c = .elem ⟨"wpg", "grpSp"⟩ [] kids ∧
      Decodes (unGroupShape D file) kids (normGroupShape file c) := by
  match c with
  | ⟨cNvPr, cNvGrpSpPr, grpSpPr, elems⟩ =>
    refine ⟨_, by simp only [mGroupShape, el]; rfl, ?_⟩
    have g := groupShapeStep_good (D_good 0) file
    have h0 : Takes (groupShapeStep D file) {} (optN (mIdName "wpg") cNvPr) ⟨cNvPr, none, none, []⟩ :=
      takes_optN cNvPr (fun z => (⟨z, none, none, []⟩ : GroupShape))
        fun y => tsub% g (dec_idName "wpg" y) (fun w => (⟨some w, none, none, []⟩ : GroupShape))
    have h1 : Takes (groupShapeStep D file) ⟨cNvPr, none, none, []⟩ (optN mCNvGrpSpPr cNvGrpSpPr)
        ⟨cNvPr, cNvGrpSpPr, none, []⟩ :=
      takes_optN cNvGrpSpPr (fun z => (⟨cNvPr, z, none, []⟩ : GroupShape))
        fun y => tsub% g (dec_cNvGrpSpPr y) (fun w => (⟨cNvPr, some w, none, []⟩ : GroupShape))
    have h2 : Takes (groupShapeStep D file) ⟨cNvPr, cNvGrpSpPr, none, []⟩
        (optN (mShapePr "wpg" "grpSpPr") grpSpPr)
        ⟨cNvPr, cNvGrpSpPr, grpSpPr.map normShapePr, []⟩ :=
      takes_optN' grpSpPr normShapePr (fun z => (⟨cNvPr, cNvGrpSpPr, z, []⟩ : GroupShape))
        fun y => tsub% g (dec_shapePr "wpg" "grpSpPr" y)
          (fun w => (⟨cNvPr, cNvGrpSpPr, some w, []⟩ : GroupShape))
    simp only [normGroupShape]
    exact decodes_loop g (((h0.append h1).append h2).append
      (rt_innerItems file elems cNvPr cNvGrpSpPr (grpSpPr.map normShapePr) []))

theorem rt_gItems (file : Option DocId) (cs : List GItem) (b : Option Bool) (w : Option ShapePr)
    (pre : List GItem) :
    Takes (groupStep D file) ⟨b, w, pre⟩ (mGItems cs) ⟨b, w, pre ++ normGItems file cs⟩ := by
  match cs with
  | [] => exact TakesC.nil' (by simp [normGItems])
  | c :: cs =>
    have h := rt_gItems file cs b w (pre ++ [normGItem file c])
    have g := groupStep_good (D_good 0) file
    simp only [mGItems, normGItems]
    refine TakesC.cons (s' := ⟨b, w, pre ++ [normGItem file c]⟩) ?_ (by simpa using h)
    match c with
    | .shape s =>
      obtain ⟨kids, hm, hd⟩ := rt_shape file s
      simp only [mGItem, normGItem, hm]
      exact takes_sub g rfl hd (fun x => (⟨b, w, pre ++ [.shape x]⟩ : Group)) rfl rfl
    | .pic p =>
      simp only [mGItem, normGItem]
      exact takes_sub g rfl (dec_pic p) (fun x => (⟨b, w, pre ++ [.pic x]⟩ : Group)) rfl rfl
    | .canvas s =>
      obtain ⟨kids, hm, hd⟩ := rt_canvas file s
      rw [← D_canvas] at hd
      simp only [mGItem, normGItem, hm]
      exact takes_sub g rfl hd (fun x => (⟨b, w, pre ++ [.canvas x]⟩ : Group)) rfl rfl
    | .groupShape s =>
      obtain ⟨kids, hm, hd⟩ := rt_groupShape file s
      simp only [mGItem, normGItem, hm]
      exact takes_sub g rfl hd (fun x => (⟨b, w, pre ++ [.groupShape x]⟩ : Group)) rfl rfl

theorem rt_innerItems (file : Option DocId) (cs : List GItem) (n : Option IdName) (b : Option Bool)
    (w : Option ShapePr) (pre : List GItem) :
    Takes (groupShapeStep D file) ⟨n, b, w, pre⟩ (mGItems cs) ⟨n, b, w, pre ++ normInnerItems file cs⟩ := by
  match cs with
  | [] => exact TakesC.nil' (by simp [normInnerItems])
  | c :: cs =>
    have h := rt_innerItems file cs n b w (pre ++ normInnerItem file c)
    have g := groupShapeStep_good (D_good 0) file
    simp only [mGItems, normInnerItems]
    refine TakesC.cons (s' := ⟨n, b, w, pre ++ normInnerItem file c⟩) ?_ (by simpa using h)
    match c with
    | .shape s =>
      obtain ⟨kids, hm, hd⟩ := rt_shape file s
      simp only [mGItem, normInnerItem, hm]
      exact takes_sub g rfl hd (fun x => (⟨n, b, w, pre ++ [.shape x]⟩ : GroupShape)) rfl rfl
    | .pic p =>
      simp only [mGItem, normInnerItem]
      exact takes_sub g rfl (dec_pic p) (fun x => (⟨n, b, w, pre ++ [.pic x]⟩ : GroupShape)) rfl rfl
    | .canvas s =>
      obtain ⟨kids, hm, hd⟩ := rt_canvas file s
      rw [← D_canvas] at hd
      simp only [mGItem, normInnerItem, hm]
      exact takes_sub g rfl hd (fun x => (⟨n, b, w, pre ++ [.canvas x]⟩ : GroupShape)) rfl rfl
    | .groupShape s =>
      obtain ⟨kids, hm⟩ : ∃ kids, mGroupShape s = .elem ⟨"wpg", "grpSp"⟩ [] kids := by
        cases s; exact ⟨_, by simp only [mGroupShape, el]; rfl⟩
      simp only [mGItem, normInnerItem, hm]
      refine takes_skip g rfl ?_
      simp only [List.append_nil]
      rfl
end

/-! ## Tables and documents -/

theorem mPara_elem (p : Para) : ∃ kids, mPara p = .elem ⟨"w", "p"⟩ [] kids := by
  cases p; exact ⟨_, by simp only [mPara, el]; rfl⟩

theorem rt_cell (file : Option DocId) (c : Cell) :
    Decodes (unCell D file) (mCell c).kids (normCell file c) := by
  have g := cellStep_good (D_good 0) file
  have h1 : Takes (cellStep D file) { file := file } (optN mTcPr c.props) ⟨c.props, [], file⟩ :=
    takes_optN c.props (fun z => (⟨z, [], file⟩ : Cell))
      fun y => tsub% g (dec_tcPr y) (fun w => (⟨some w, [], file⟩ : Cell))
  have h2 := takes_list (step := cellStep D file) (chars := fun s _ => s) (f := mPara)
    (g := fun p => [normPara file p]) c.paras [] (fun ys => (⟨c.props, ys, file⟩ : Cell)) fun p _ ys => by
      obtain ⟨kids, hm⟩ := mPara_elem p
      have hd := rt_para file p
      rw [hm] at hd ⊢
      exact takes_sub g rfl hd (fun w => (⟨c.props, ys ++ [w], file⟩ : Cell)) rfl rfl
  have h3 := h1.append h2
  simp only [List.nil_append, ← List.map_eq_flatMap] at h3
  exact decodes_loop g h3

theorem rt_row (file : Option DocId) (r : Row) :
    Decodes (unRow D file) (mRow r).kids (normRow file r) := by
  have g := rowStep_good (D_good 0) file
  have h1 : Takes (rowStep D file) {} (optN mTrPr r.props) ⟨r.props, []⟩ :=
    takes_optN r.props (fun z => (⟨z, []⟩ : Row))
      fun y => tsub% g (dec_trPr y) (fun w => (⟨some w, []⟩ : Row))
  have h2 := takes_list (step := rowStep D file) (chars := fun s _ => s) (f := mCell)
    (g := fun p => [normCell file p]) r.cells [] (fun ys => (⟨r.props, ys⟩ : Row)) fun p _ ys =>
      takes_sub g rfl (rt_cell file p) (fun w => (⟨r.props, ys ++ [w]⟩ : Row)) rfl rfl
  have h3 := h1.append h2
  simp only [List.nil_append, ← List.map_eq_flatMap] at h3
  exact decodes_loop g h3

theorem rt_table (file : Option DocId) (t : Table) :
    Decodes (unTable D file) (mTable t).kids (normTable file t) := by
  have g := tableStep_good (D_good 0) file
  have h1 : Takes (tableStep D file) {} (optN mTblPr t.props) ⟨t.props.map normTblPr, none, []⟩ :=
    takes_optN' t.props normTblPr (fun z => (⟨z, none, []⟩ : Table))
      fun y => tsub% g (dec_tblPr y) (fun w => (⟨some w, none, []⟩ : Table))
  have h2 : Takes (tableStep D file) ⟨t.props.map normTblPr, none, []⟩ (optN mGrid t.grid)
      ⟨t.props.map normTblPr, t.grid.map fun g => g.filter Option.isSome, []⟩ :=
    takes_optN' t.grid (fun g => g.filter Option.isSome)
      (fun z => (⟨t.props.map normTblPr, z, []⟩ : Table))
      fun y => tsub% g (dec_grid y) (fun w => (⟨t.props.map normTblPr, some w, []⟩ : Table))
  have h3 := takes_list (step := tableStep D file) (chars := fun s _ => s) (f := mRow)
    (g := fun p => [normRow file p]) t.rows []
    (fun ys => (⟨t.props.map normTblPr, t.grid.map fun g => g.filter Option.isSome, ys⟩ : Table))
    fun p _ ys => takes_sub g rfl (rt_row file p)
      (fun w => (⟨t.props.map normTblPr, t.grid.map fun g => g.filter Option.isSome, ys ++ [w]⟩ : Table))
      rfl rfl
  have h4 := (h1.append h2).append h3
  simp only [List.nil_append, ← List.map_eq_flatMap] at h4
  exact decodes_loop g h4

theorem rt_body (file : Option DocId) (items pre : List BItem) :
    Decodes (unBody D file pre) (items.map mItem) (pre ++ normBody file items) := by
  have g := bodyStep_good (D_good 0) file
  have h := takes_list (step := bodyStep D file) (chars := fun s _ => s) (f := mItem)
    (g := fun i => [normItem file i]) items pre (fun ys => ys) fun i _ ys => by
      cases i with
      | para p =>
        obtain ⟨kids, hm⟩ := mPara_elem p
        have hd := rt_para file p
        simp only [mItem]
        rw [hm] at hd ⊢
        exact takes_sub g rfl hd (fun w => ys ++ [.para w]) rfl rfl
      | table t => exact takes_sub g rfl (rt_table file t) (fun w => ys ++ [.table w]) rfl rfl
      | sect s => exact takes_sub g rfl (dec_sect s) (fun w => ys ++ [.sect w]) rfl rfl
  simp only [← List.map_eq_flatMap] at h
  exact decodes_loop g h

theorem rt_document (file : Option DocId) (items pre : List BItem) :
    Decodes (unDocument D file pre) (mDocument items).kids (pre ++ normBody file items) :=
  decodes_loop (documentStep_good (D_good 0) file)
    (takes_sub (documentStep_good (D_good 0) file) rfl (rt_body file items pre) (fun w => w) rfl rfl)

/-- Decoding a whole file: whatever precedes the root (declaration, white space, comments), and
whatever follows it -/
theorem decode_root {file : Option DocId} {s v : List BItem} {q : QName} {as : List Attr}
    {kids : List Node} (h : Decodes (unDocument D file s) kids v) (pre rest : List Tok)
    (hp : ∀ t ∈ pre, t = .other ∨ ∃ c, t = .chars c) :
    decodeDocument file s (pre ++ (Node.elem q as kids).toks ++ rest) = ⟨v, none, ⟨rest, [], false⟩⟩ := by
  rw [decodeDocument_eq]
  generalize hf : (pre ++ (Node.elem q as kids).toks ++ rest).length + 1 = f
  replace hf : pre.length < f := by
    rw [← hf]; simp only [List.length_append]; omega
  induction pre generalizing f with
  | nil =>
    cases f with
    | zero => omega
    | succ f =>
      simp only [toks_elem, List.nil_append, List.cons_append, List.append_assoc]
      rw [rootN]
      have := h q rest []
      simpa [Dec.token] using this
  | cons t pre ih =>
    cases f with
    | zero => omega
    | succ f =>
      have hi := ih (fun t ht => hp t (List.mem_cons_of_mem _ ht)) f (by simpa using hf)
      rw [rootN]
      rcases hp t (List.mem_cons_self ..) with rfl | ⟨c, rfl⟩
      · simpa [Dec.token] using hi
      · simpa [Dec.token] using hi

end Docx
