import Verif.Lemmas.Format
import Verif.Lemmas.Pack
import Verif.SpecContent

/-!
# What is read of runs
-/

namespace Docx

set_option linter.unusedSectionVars false

variable [GoEnv]

omit [GoEnv] in
theorem supported_eq (q : QName) (as : List Attr) : supported q as = supportedChoice q.loc as := by
  unfold supported supportedChoice
  rw [firstAttr_eq]
  simp [List.contains_cons, Bool.or_assoc, Bool.beq_eq_decide_eq]

/-! ## Texts -/

/-- All character data in a context -/
def ctxChars (c : Ctx) : List String := c.flatMap fun x => charDataL x.1

theorem textLoop : ∀ (f : Nat) (s : Text) (c : Ctx) (rest : List Tok) (stk : List StkEntry),
    (loopN (fun s _ _ => flat s) (fun s c => { s with text := c }) f s (inCtx c rest stk)).err = none →
    (loopN (fun s _ _ => flat s) (fun s c => { s with text := c }) f s (inCtx c rest stk)).val.text =
      ((ctxChars c).getLast?.getD s.text) := by
  intro f
  induction f with
  | zero => intro s c rest stk h; cases h
  | succ f ih =>
    intro s c rest stk h
    rw [loopN] at h ⊢
    match c, h with
    | [], h => rw [tokC_nil]; rfl
    | ([], q) :: c, h =>
      rw [tokC_stop] at h ⊢
      simp only at h ⊢
      rw [ih _ _ _ _ h]
      simp [ctxChars, charDataL]
    | (.elem p as kids :: ks, q) :: c, h =>
      rw [tokC_elem] at h ⊢
      simp only [flat] at h ⊢
      rw [ih _ _ _ _ h]
      simp [ctxChars, charDataL, charData]
    | (.text t :: ks, q) :: c, h =>
      rw [tokC_text] at h ⊢
      simp only at h ⊢
      rw [ih _ _ _ _ h]
      simp only [ctxChars, charDataL, charData, List.flatMap_cons, List.cons_append, List.nil_append]
      rw [List.getLast?_cons]
      rfl
    | (.other :: ks, q) :: c, h =>
      rw [tokC_other] at h ⊢
      simp only at h ⊢
      rw [ih _ _ _ _ h]
      simp [ctxChars, charDataL, charData]

theorem textAttrs : ∀ (as : List Attr) (s : Text), (attrs textAttr s as).1.text = s.text
  | [], s => rfl
  | a :: as, s => by
    rw [attrs]
    have : ∀ l v, (textAttr s l v).2 = none ∧ (textAttr s l v).1.text = s.text := by
      intro l v
      unfold textAttr
      split <;> exact ⟨rfl, rfl⟩
    obtain ⟨h1, h2⟩ := this a.name.loc a.val
    rcases h : textAttr s a.name.loc a.val with ⟨s', e⟩
    rw [h] at h1 h2
    simp only at h1 h2
    subst h1
    simp only
    rw [textAttrs as s', h2]

theorem unText_value {as : List Attr} {kids : List Node} {q : QName} {rest : List Tok} {stk : List StkEntry}
    (h : (unText as (inCtx [(kids, q)] rest stk)).err = none) :
    (unText as (inCtx [(kids, q)] rest stk)).val.text = lastPiece (charDataL kids) := by
  unfold unText withAttrs at h ⊢
  have ha := textAttrs as {}
  rcases hs : attrs textAttr {} as with ⟨s, _ | e⟩
  · rw [hs] at h ha
    simp only [loopC] at h ha ⊢
    rw [textLoop _ _ _ _ _ h, ha]
    simp [ctxChars, lastPiece]
  · rw [hs] at h
    cases h

theorem unBr_value {as : List Attr} {d : Dec} : (unBr as d).val.type = firstAttr "type" as := by
  have hattrs : ∀ (as : List Attr) (s : Br),
      attrs (fun s (_ : String) (_ : String) => (s, (none : Option Err))) s as = (s, none) := by
    intro as
    induction as with
    | nil => intro s; rfl
    | cons a as ih => intro s; rw [attrs]; exact ih s
  rw [firstAttr_eq]
  unfold unBr leaf
  rw [hattrs]
  simp only
  split <;> rfl

/-! ## Runs -/

/-- What is in a context -/
def ctxRun (c : Ctx) : List RunEl := c.flatMap fun x => runElsL lastPiece x.1

/-- A run to which these are added -/
def addEls (r : RunCont) (es : List RunEl) : RunCont :=
  ⟨(RunEl.format? es).or r.rpr, (RunEl.code? es).getD r.instr, r.pieces ++ RunEl.pieces es⟩

theorem pieces_append (a b : List RunEl) :
    RunEl.pieces (a ++ b) = RunEl.pieces a ++ RunEl.pieces b := by
  induction a with
  | nil => rfl
  | cons e a ih => cases e <;> simp [RunEl.pieces, ih]

theorem format?_append (a b : List RunEl) :
    RunEl.format? (a ++ b) = (RunEl.format? b).or (RunEl.format? a) := by
  induction a with
  | nil => simp [RunEl.format?]
  | cons e a ih =>
    cases e with
    | format f =>
      simp only [List.cons_append, RunEl.format?, ih]
      cases RunEl.format? b <;> rfl
    | piece _ => simpa [RunEl.format?] using ih
    | code _ => simpa [RunEl.format?] using ih

theorem code?_append (a b : List RunEl) :
    RunEl.code? (a ++ b) = (RunEl.code? b).or (RunEl.code? a) := by
  induction a with
  | nil => simp [RunEl.code?]
  | cons e a ih =>
    cases e with
    | code f =>
      simp only [List.cons_append, RunEl.code?, ih]
      cases RunEl.code? b <;> rfl
    | piece _ => simpa [RunEl.code?] using ih
    | format _ => simpa [RunEl.code?] using ih

theorem addEls_nil (r : RunCont) : addEls r [] = r := by
  cases r
  simp [addEls, RunEl.format?, RunEl.code?, RunEl.pieces]

theorem addEls_append (r : RunCont) (a b : List RunEl) :
    addEls (addEls r a) b = addEls r (a ++ b) := by
  unfold addEls
  rw [pieces_append, format?_append, code?_append]
  cases RunEl.format? b <;> cases RunEl.code? b <;> simp

theorem addEls_empty (es : List RunEl) : addEls {} es = runCont es := by
  simp [addEls, runCont]

def AltCtx (c : Ctx) : Prop := ∀ x ∈ c, altsOkL x.1

theorem AltCtx.cons {ks : List Node} {q : QName} {c : Ctx} (h : altsOkL ks) (hc : AltCtx c) :
    AltCtx ((ks, q) :: c) := by
  intro y hy
  rcases List.mem_cons.mp hy with rfl | hy
  · exact h
  · exact hc y hy

theorem AltCtx.tail {x : List Node × QName} {c : Ctx} (h : AltCtx (x :: c)) : AltCtx c :=
  fun y hy => h y (List.mem_cons_of_mem _ hy)

theorem AltCtx.head {x : List Node × QName} {c : Ctx} (h : AltCtx (x :: c)) : altsOkL x.1 :=
  h x (List.mem_cons_self ..)

/-- The child found by `parse` -/
def foundEl : Option RChild → List RunEl
  | none => []
  | some c => [.piece (pieceOf c)]

/-- `parse` reads the element, partly as its result, partly by leaving it to the loop. -/
def ParseOk (parse : Run → String → List Attr → Dec → Out Parsed) : Prop :=
  ∀ r q as kids c rest stk, attrsOk q.loc as → OkCtx ((kids, q) :: c) → altsOk (.elem q as kids) →
    AltCtx c → (parse r q.loc as (inCtx ((kids, q) :: c) rest stk)).err = none →
    ∃ c', OkCtx c' ∧ AltCtx c' ∧
      (parse r q.loc as (inCtx ((kids, q) :: c) rest stk)).dec = inCtx c' rest stk ∧
      addEls (runContent (parse r q.loc as (inCtx ((kids, q) :: c) rest stk)).val.1)
        (foundEl (parse r q.loc as (inCtx ((kids, q) :: c) rest stk)).val.2 ++ ctxRun c') =
        addEls (runContent r) (runEls lastPiece (.elem q as kids) ++ ctxRun c)

/-- The loop `altcont` -/
theorem altN_els {parse : Run → String → List Attr → Dec → Out Parsed} (hp : ParseOk parse) :
    ∀ (f : Nat) (r : Run) (q : QName) (kids : List Node) (c : Ctx) (rest : List Tok) (stk : List StkEntry),
    q.loc = "AlternateContent" → OkCtx ((kids, q) :: c) → AltCtx ((kids, q) :: c) → altFront kids = true →
    (altN parse f r (inCtx ((kids, q) :: c) rest stk)).err = none →
    ∃ c', OkCtx c' ∧ AltCtx c' ∧ (altN parse f r (inCtx ((kids, q) :: c) rest stk)).dec = inCtx c' rest stk ∧
      addEls (runContent (altN parse f r (inCtx ((kids, q) :: c) rest stk)).val.1)
        (foundEl (altN parse f r (inCtx ((kids, q) :: c) rest stk)).val.2 ++ ctxRun c') =
        addEls (runContent r) (altEls lastPiece kids ++ ctxRun c) := by
  intro f
  induction f with
  | zero => intro r q kids c rest stk _ _ _ _ h; cases h
  | succ f ih =>
    intro r q kids c rest stk hq ho ha hf h
    cases kids with
    | nil =>
      rw [altN, tokC_stop]
      simp only [hq, if_true]
      exact ⟨c, ho.tail, ha.tail, rfl, by simp [foundEl, altEls]⟩
    | cons n ks =>
      have ho1 := ho.head
      have ha1 := ha.head
      simp only [numsOkL, altsOkL] at ho1 ha1
      cases n with
      | text s => simp [altFront] at hf
      | other => simp [altFront] at hf
      | elem p as k =>
        simp only [numsOk, altsOk] at ho1 ha1
        rw [altN, tokC_elem] at h ⊢
        simp only at h ⊢
        cases hs : supportedChoice p.loc as with
        | true =>
          simp only [hs, if_true] at h ⊢
          have hap : altEls lastPiece (.elem p as k :: ks) = runElsL lastPiece k ++ runElsL lastPiece ks := by
            rw [altEls, supported_eq, hs, if_pos rfl]
          rw [hap]
          cases k with
          | nil =>
            rw [tokC_stop]
            exact ⟨(ks, q) :: c, .cons ho1.2 ho.tail, .cons ha1.2 ha.tail, rfl,
              by simp [foundEl, ctxRun, runElsL]⟩
          | cons m k =>
            cases m with
            | text s =>
              rw [tokC_text]
              exact ⟨(k, p) :: (ks, q) :: c, .cons ho1.1.2.2 (.cons ho1.2 ho.tail),
                .cons ha1.1.2.2 (.cons ha1.2 ha.tail), rfl,
                by simp [foundEl, ctxRun, runElsL, runEls]⟩
            | other =>
              rw [tokC_other]
              exact ⟨(k, p) :: (ks, q) :: c, .cons ho1.1.2.2 (.cons ho1.2 ho.tail),
                .cons ha1.1.2.2 (.cons ha1.2 ha.tail), rfl,
                by simp [foundEl, ctxRun, runElsL, runEls]⟩
            | elem q2 as2 k2 =>
              rw [tokC_elem] at h ⊢
              simp only at h ⊢
              obtain ⟨c', h1, h2, h3, h5⟩ := hp r q2 as2 k2 ((k, p) :: (ks, q) :: c) rest stk
                ho1.1.2.1.1 (.cons ho1.1.2.1.2 (.cons ho1.1.2.2 (.cons ho1.2 ho.tail))) ha1.1.2.1
                (.cons ha1.1.2.2 (.cons ha1.2 ha.tail)) h
              refine ⟨c', h1, h2, h3, ?_⟩
              rw [h5]
              simp [ctxRun, runElsL]
        | false =>
          simp only [hs, Bool.false_eq_true, if_false, skipC] at h ⊢
          have hap : altEls lastPiece (.elem p as k :: ks) = altEls lastPiece ks := by
            rw [altEls, supported_eq, hs, if_neg (by simp)]
          rw [hap]
          exact ih r q ks c rest stk hq (.cons ho1.2 ho.tail) (.cons ha1.2 ha.tail)
            (by simpa [altFront, supported_eq, hs] using hf) h

variable {p : Decs}

theorem reflTextN_value : ∀ (ks : List Node) (f : Nat) (s : String) (q : QName) (rest : List Tok)
    (stk : List StkEntry), (toksL ks).length + 1 < f + 1 →
    reflTextN f s ⟨toksL ks ++ .stop q :: rest, .elem q :: stk, false⟩ =
      ⟨s ++ ownText ks, none, ⟨rest, stk, false⟩⟩ := by
  intro ks
  induction ks with
  | nil =>
    intro f s q rest stk h
    obtain ⟨f, rfl⟩ : ∃ g, f = g + 1 := ⟨f - 1, by simp at h; omega⟩
    rw [toksL_nil, List.nil_append, reflTextN, tok_stop]
    simp [ownText]
  | cons n ks ih =>
    intro f s q rest stk h
    rw [toksL_cons, List.length_append] at h
    obtain ⟨f, rfl⟩ : ∃ g, f = g + 1 := ⟨f - 1, by omega⟩
    cases n with
    | text c =>
      simp only [toks_text, List.length_singleton] at h
      rw [toksL_cons, toks_text, List.singleton_append, List.cons_append, reflTextN, tok_chars]
      simp only
      rw [ih f _ q rest stk (by omega)]
      simp [ownText, String.append_assoc]
    | other =>
      simp only [toks_other, List.length_singleton] at h
      rw [toksL_cons, toks_other, List.singleton_append, List.cons_append, reflTextN, tok_other]
      exact ih f _ q rest stk (by omega)
    | elem p as kids =>
      simp only [toks_elem, List.length_cons, List.length_append, List.length_nil] at h
      rw [toksL_cons, toks_elem, List.append_assoc, List.cons_append, reflTextN, tok_start]
      simp only [List.append_assoc, List.singleton_append]
      rw [skip_kids]
      exact ih f _ q rest stk (by omega)

theorem addEls_format (r : Run) (v : RPr) (es : List RunEl) :
    addEls (runContent { r with rpr := some v }) es = addEls (runContent r) (.format v :: es) := by
  simp only [addEls, runContent, RunEl.format?, RunEl.code?, RunEl.pieces]
  cases RunEl.format? es <;> rfl

theorem addEls_code (r : Run) (v : String) (es : List RunEl) :
    addEls (runContent { r with instr := v }) es = addEls (runContent r) (.code v :: es) := by
  simp only [addEls, runContent, RunEl.format?, RunEl.code?, RunEl.pieces]
  cases RunEl.code? es <;> rfl

theorem runParse_ok (h : DecsFine p) (hp : ∀ file, ParseOk (p.parse file)) (file : Option DocId) :
    ParseOk (runParse p file) := by
  intro r q as kids c rest stk hat ho hal hac he
  have hk : numsOkL kids := ho.head
  have hfine : ∀ {α : Type} {u : Dec → Out α}, F u →
      (decodeElement u (inCtx ((kids, q) :: c) rest stk)).err ≠ some .expected := by
    intro α u hu
    rw [inCtx_cons]
    exact (decodeElement_fine hu (q := q) hk _ _).2
  have hpc : ∀ l, q.loc = l → runEls lastPiece (.elem q as kids) =
      if l = "t" then [.piece (.text (lastPiece (charDataL kids)))]
      else if l = "tab" then .piece .tab :: runElsL lastPiece kids
      else if l = "br" then [.piece (.br (firstAttr "type" as))]
      else if l = "drawing" then [.piece .drawing]
      else if l = "rPr" then [.format (xmlRPr kids)]
      else if l = "instrText" then [.code (ownText kids)]
      else if l = "AlternateContent" then altEls lastPiece kids
      else [] := by
    intro l hl
    rw [runEls, hl]
  unfold runParse at he ⊢
  generalize hl : q.loc = l at he hat
  rw [hpc l hl]
  split at he
  · -- rPr
    simp only [sub] at he ⊢
    have h1 := tolerate_ok (hfine unRPr_fine) he
    obtain ⟨d1, d2, d3⟩ := decodeC unRPr_fine hk h1
    refine ⟨c, ho.tail, hac, d1, ?_⟩
    rw [addEls_format, d3, unRPr_readAs q kids _ _ hk d2]
    simp [foundEl]
  · -- instrText
    have ht := reflTextN_value kids ((inCtx ((kids, q) :: c) rest stk).rest.length + 1) "" q
      (ctxToks c ++ rest) (ctxStk c ++ .mark :: stk) (by rw [inCtx_cons]; simp; omega)
    have hr : reflString (inCtx ((kids, q) :: c) rest stk) = ⟨ownText kids, none, inCtx c rest stk⟩ := by
      unfold reflString
      rw [show inCtx ((kids, q) :: c) rest stk = _ from inCtx_cons kids q c rest stk] at ht ⊢
      rw [ht]
      simp [inCtx]
    simp only [hr]
    refine ⟨c, ho.tail, hac, rfl, ?_⟩
    rw [addEls_code]
    simp [foundEl]
  · -- t
    simp only [subStrict] at he ⊢
    obtain ⟨d1, d2, d3⟩ := decodeC (unText_fine as hat) hk he
    refine ⟨c, ho.tail, hac, d1, ?_⟩
    simp only [foundEl, pieceOf, if_true]
    rw [d3, unText_value d2]
  · -- drawing
    simp only [subStrict] at he ⊢
    obtain ⟨d1, _⟩ := decodeC (unDrawing_fine h _) hk he
    exact ⟨c, ho.tail, hac, d1, by simp [foundEl, pieceOf]⟩
  · -- tab
    refine ⟨(kids, q) :: c, ho, .cons hal.2 hac, rfl, ?_⟩
    simp [foundEl, pieceOf, flat, ctxRun]
  · -- br
    simp only [subStrict] at he ⊢
    obtain ⟨d1, d2, d3⟩ := decodeC (unBr_fine as hat) hk he
    refine ⟨c, ho.tail, hac, d1, ?_⟩
    simp only [foundEl, pieceOf]
    rw [d3, unBr_value]
    simp
  · -- AlternateContent
    have := altN_els (hp file) _ r q kids c rest stk hl ho (.cons hal.2 hac) (hal.1 hl) he
    simpa using this
  · -- anything else
    rename_i h1 h2 h3 h4 h5 h6 h7
    refine ⟨c, ho.tail, hac, by rw [skipTo, skipC], ?_⟩
    rw [if_neg h3, if_neg h5, if_neg h6, if_neg h4, if_neg h1, if_neg h2, if_neg h7]
    rfl

theorem decs_parseOk : ∀ k file, ParseOk ((decs k).parse file)
  | 0, _ => by
    intro r q as kids c rest stk _ _ _ _ he
    cases he
  | k + 1, file => runParse_ok (decs_fine k) (decs_parseOk k) file

theorem runLoop (h : DecsFine p) (hp : ∀ file, ParseOk (p.parse file)) (file : Option DocId) :
    ∀ (f : Nat) (s : Run) (c : Ctx) (rest : List Tok) (stk : List StkEntry), OkCtx c → AltCtx c →
    (loopN (runStep p file) (fun s _ => s) f s (inCtx c rest stk)).err = none →
    runContent (loopN (runStep p file) (fun s _ => s) f s (inCtx c rest stk)).val =
      addEls (runContent s) (ctxRun c) := by
  intro f
  induction f with
  | zero => intro s c rest stk _ _ he; cases he
  | succ f ih =>
    intro s c rest stk ho ha he
    rw [loopN] at he ⊢
    match c, ho, ha, he with
    | [], _, _, _ => rw [tokC_nil]; exact (addEls_nil _).symm
    | ([], q) :: c, ho, ha, he =>
      rw [tokC_stop] at he ⊢
      simp only at he ⊢
      rw [ih _ _ _ _ ho.tail ha.tail he]
      simp [ctxRun, runElsL]
    | (.text t :: ks, q) :: c, ho, ha, he =>
      rw [tokC_text] at he ⊢
      simp only at he ⊢
      rw [ih _ _ _ _ (.cons ho.head.2 ho.tail) (.cons ha.head.2 ha.tail) he]
      simp [ctxRun, runElsL, runEls]
    | (.other :: ks, q) :: c, ho, ha, he =>
      rw [tokC_other] at he ⊢
      simp only at he ⊢
      rw [ih _ _ _ _ (.cons ho.head.2 ho.tail) (.cons ha.head.2 ha.tail) he]
      simp [ctxRun, runElsL, runEls]
    | (.elem q2 as kids :: ks, q) :: c, ho, ha, he =>
      rw [tokC_elem] at he ⊢
      simp only at he ⊢
      have hn := ho.head
      have hm := ha.head
      simp only [numsOkL, altsOkL] at hn hm
      have key := runParse_ok h hp file s q2 as kids ((ks, q) :: c) rest stk hn.1.1
        (.cons hn.1.2 (.cons hn.2 ho.tail)) hm.1 (.cons hm.2 ha.tail)
      have hst : runStep p file s q2.loc as (inCtx ((kids, q2) :: (ks, q) :: c) rest stk) =
          match runParse p file s q2.loc as (inCtx ((kids, q2) :: (ks, q) :: c) rest stk) with
          | ⟨v, none, d⟩ => ⟨addChild v, none, d⟩
          | ⟨v, some e, d⟩ => ⟨v.1, some e, d⟩ := rfl
      rw [hst] at he ⊢
      rcases hr : runParse p file s q2.loc as (inCtx ((kids, q2) :: (ks, q) :: c) rest stk) with ⟨v, _ | e, d⟩
      · rw [hr] at key he
        obtain ⟨c', h1, h2, h3, h5⟩ := key rfl
        simp only at h3 h5 he ⊢
        subst h3
        rw [ih _ _ _ _ h1 h2 he]
        have hc : runContent (addChild v) = addEls (runContent v.1) (foundEl v.2) := by
          unfold addChild foundEl
          cases v.2 with
          | none => simp [addEls_nil]
          | some x => simp [addEls, runContent, RunEl.format?, RunEl.code?, RunEl.pieces]
        rw [hc, addEls_append, h5]
        simp [ctxRun, runElsL]
      · rw [hr] at he
        cases he

/-! ## Paragraphs and above -/

/-- Like `Reads`, for elements whose `AlternateContent` elements are well-formed -/
def ReadsA {α : Type} (u : Dec → Out α) (R : List Node → α → Prop) : Prop :=
  ∀ q kids rest stk, numsOkL kids → altsOkL kids → (u (inCtx [(kids, q)] rest stk)).err = none →
      R kids (u (inCtx [(kids, q)] rest stk)).val

theorem readsA_any {α : Type} (u : Dec → Out α) : ReadsA u fun _ _ => True :=
  fun _ _ _ _ _ _ _ => trivial

/-- What a case of a loop does with an element, all of which it reads -/
def DoesA {σ τ : Type} (f : Dec → Out σ) (out : σ → τ) (t : τ) (q : QName) (kids : List Node) : Prop :=
  ∀ c rest stk, (f (inCtx ((kids, q) :: c) rest stk)).err = none →
    out (f (inCtx ((kids, q) :: c) rest stk)).val = t ∧
      (f (inCtx ((kids, q) :: c) rest stk)).dec = inCtx c rest stk

theorem doesA_sub {α σ τ : Type} {u : Dec → Out α} {f : α → σ} {out : σ → τ} {t : τ} {q : QName}
    {kids : List Node} {R : List Node → α → Prop} (hu : F u) (hr : ReadsA u R)
    (hk : numsOkL kids) (ha : altsOkL kids) (hf : ∀ v, R kids v → out (f v) = t) :
    DoesA (sub u f) out t q kids := by
  intro c rest stk he
  simp only [sub] at he ⊢
  have h1 : (decodeElement u (inCtx ((kids, q) :: c) rest stk)).err = none := by
    refine tolerate_ok ?_ he
    rw [inCtx_cons]
    exact (decodeElement_fine hu (q := q) hk _ _).2
  obtain ⟨d1, d2, d3⟩ := decodeC hu hk h1
  rw [d3]
  exact ⟨hf _ (hr q kids _ _ hk ha d2), d1⟩

theorem doesA_skip {σ τ : Type} (s : σ) (out : σ → τ) (q : QName) (kids : List Node) :
    DoesA (skipTo s) out (out s) q kids := by
  intro c rest stk _
  rw [skipTo, skipC]
  exact ⟨rfl, rfl⟩

theorem readAs_readsA {α : Type} {u : Dec → Out α} {of : List Node → α} (h : ReadAs u of) :
    ReadsA u fun kids v => v = of kids :=
  fun q kids rest stk hk _ he => h q kids rest stk hk he

/-- A loop all of whose cases read their element to the end -/
theorem loop_readsA {σ τ : Type} {step : σ → String → List Attr → Dec → Out σ} (out : σ → τ)
    (app : τ → Node → τ) (ht : ∀ t x, app t (.text x) = t) (ho : ∀ t, app t .other = t)
    (hs : ∀ s q as kids, attrsOk q.loc as → numsOkL kids → altsOk (.elem q as kids) →
      DoesA (step s q.loc as) out (app (out s) (.elem q as kids)) q kids) (s : σ) :
    ReadsA (loop step s) fun kids v => out v = kids.foldl app (out s) := by
  have key : ∀ (f : Nat) (s : σ) (ks : List Node) (q : QName) (rest : List Tok) (stk : List StkEntry),
      numsOkL ks → altsOkL ks →
      (loopN step (fun s _ => s) f s (inCtx [(ks, q)] rest stk)).err = none →
      out (loopN step (fun s _ => s) f s (inCtx [(ks, q)] rest stk)).val = ks.foldl app (out s) := by
    intro f
    induction f with
    | zero => intro s ks q rest stk _ _ h; cases h
    | succ f ih =>
      intro s ks q rest stk hk ha h
      cases ks with
      | nil =>
        rw [loopN, tokC_stop] at h ⊢
        simp only at h ⊢
        cases f with
        | zero => cases h
        | succ f =>
          rw [loopN, tokC_nil]
          rfl
      | cons n ks =>
        cases n with
        | elem p as kids =>
          rw [loopN, tokC_elem] at h ⊢
          simp only at h ⊢
          have hst := hs s p as kids hk.1.1 hk.1.2 ha.1 [(ks, q)] rest stk
          generalize step s p.loc as (inCtx ((kids, p) :: [(ks, q)]) rest stk) = o at h hst
          rcases o with ⟨v, _ | e, d⟩
          · obtain ⟨h1, h2⟩ := hst rfl
            simp only at h1 h2 h ⊢
            subst h2
            rw [ih v ks q rest stk hk.2 ha.2 h, h1, List.foldl_cons]
          · cases h
        | text x =>
          rw [loopN, tokC_text] at h ⊢
          simp only at h ⊢
          rw [ih s ks q rest stk hk.2 ha.2 h, List.foldl_cons, ht]
        | other =>
          rw [loopN, tokC_other] at h ⊢
          simp only at h ⊢
          rw [ih s ks q rest stk hk.2 ha.2 h, List.foldl_cons, ho]
  intro q kids rest stk hk ha h
  exact key _ s kids q rest stk hk ha h

theorem lastChild_snoc {α : Type} (n : String) (of : List Node → α) (ks : List Node) (m : Node) :
    lastChild n of (ks ++ [m]) = (lastChild n of [m]).or (lastChild n of ks) := by
  unfold lastChild
  rw [List.flatMap_append, List.getLast?_append]
  cases ((List.flatMap (childrenOf n) [m])).getLast? <;> rfl

theorem runAttrs : ∀ (as : List Attr) (s : Run), runContent (attrs runAttr s as).1 = runContent s
  | [], s => rfl
  | a :: as, s => by
    rw [attrs]
    have : ∀ l v, (runAttr s l v).2 = none ∧ runContent (runAttr s l v).1 = runContent s := by
      intro l v
      unfold runAttr
      split <;> exact ⟨rfl, rfl⟩
    obtain ⟨h1, h2⟩ := this a.name.loc a.val
    rcases h : runAttr s a.name.loc a.val with ⟨s', e⟩
    rw [h] at h1 h2
    simp only at h1 h2
    subst h1
    simp only
    rw [runAttrs as s', h2]

theorem unRun_readsA (h : DecsFine p) (hp : ∀ file, ParseOk (p.parse file)) (file : Option DocId) (s : Run)
    (as : List Attr) : ReadsA (unRun p file s as) fun kids v =>
      runContent v = addEls (runContent s) (runElsL lastPiece kids) := by
  intro q kids rest stk hk ha he
  unfold unRun withAttrs at he ⊢
  have hat := runAttrs as s
  rcases hs : attrs runAttr s as with ⟨s', _ | e⟩
  · rw [hs] at he hat
    simp only [loop, loopC] at he hat ⊢
    rw [runLoop h hp file _ _ _ _ _ (.cons hk .nil) (.cons ha (by intro y hy; cases hy)) he, hat]
    simp [ctxRun]
  · rw [hs] at he
    cases he

theorem unLink_readsA (h : DecsFine p) (hp : ∀ file, ParseOk (p.parse file)) :
    ReadsA (unLink p) fun kids v => v.id = "" ∧
      runContent v.run = runCont ((kids.flatMap (childrenOf "r")).flatMap (runElsL lastPiece)) := by
  have hl := loop_readsA (step := hyperlinkStep p) (fun v => runContent v.run)
    (fun t n => addEls t ((childrenOf "r" n).flatMap (runElsL lastPiece)))
    (fun t _ => addEls_nil t) (fun t => addEls_nil t)
    (by
      intro s q as kids ha hk hal
      unfold hyperlinkStep
      generalize hl : q.loc = l at ha
      split
      · refine doesA_sub (unRun_fine h _ _ _ runAttr_fine_r ha) (unRun_readsA h hp _ _ _) hk hal.2 ?_
        intro v hv
        simp [childrenOf, hl, hv]
      · rename_i h1
        simp only [childrenOf, hl, if_neg h1, List.flatMap_nil, addEls_nil]
        exact doesA_skip s _ q kids) { run := {} }
  have hid : ∀ (f : Nat) (s : Hyperlink) (d : Dec),
      (loopN (hyperlinkStep p) (fun s _ => s) f s d).val.id = s.id := by
    intro f
    induction f with
    | zero => intro s d; rfl
    | succ f ih =>
      intro s d
      rw [loopN]
      rcases d.token with ⟨e | t, d'⟩
      · cases e <;> rfl
      · cases t with
        | start q as =>
          simp only
          have hstep : (hyperlinkStep p s q.loc as d').val.id = s.id := by
            unfold hyperlinkStep
            generalize q.loc = l
            by_cases hr : l = "r"
            · subst hr; rfl
            · split
              · exact absurd rfl hr
              · rfl
          rcases hh : hyperlinkStep p s q.loc as d' with ⟨s', _ | e, d''⟩
          · rw [hh] at hstep
            simp only at hstep ⊢
            rw [ih, hstep]
          · rw [hh] at hstep
            exact hstep
        | chars c => exact ih _ _
        | stop q => exact ih _ _
        | other => exact ih _ _
        | bad => exact ih _ _
  intro q kids rest stk hk ha he
  have := hl q kids rest stk hk ha he
  refine ⟨hid _ _ _, ?_⟩
  rw [show loop (hyperlinkStep p) { run := {} } = unLink p from rfl] at this
  rw [this]
  have hf := foldl_of (app := fun t n => addEls t ((childrenOf "r" n).flatMap (runElsL lastPiece)))
    (fun ks => addEls {} ((ks.flatMap (childrenOf "r")).flatMap (runElsL lastPiece)))
    (by intro es e; simp [addEls_append]) kids
  rw [← addEls_empty]
  refine Eq.trans ?_ hf
  congr 1

theorem unPara_readsA (h : DecsFine p) (hp : ∀ file, ParseOk (p.parse file)) (file : Option DocId) :
    ReadsA (unPara p file) fun kids v => paraContent v = xmlPara lastPiece kids := by
  have hl : ReadsA (loop (paraStep p file) { file := file }) fun kids v =>
      paraContent v = kids.foldl (fun t n => ⟨(lastChild "pPr" xmlPPr [n]).or t.props,
        t.parts ++ xmlPart lastPiece n⟩) (paraContent { file := file }) := by
    refine loop_readsA paraContent _ (fun t x => ?_) (fun t => ?_) ?_ _
    · cases t; simp [lastChild, childrenOf, xmlPart]
    · cases t; simp [lastChild, childrenOf, xmlPart]
    intro s q as kids ha hk hal
    unfold paraStep
    generalize hl : q.loc = l at ha
    split
    · refine doesA_sub (unLink_fine h) (unLink_readsA h hp) hk hal.2 ?_
      intro v hv
      have hid : linkID as v.id = (if firstAttr "anchor" as ≠ "" then firstAttr "anchor" as
          else firstAttr "id" as) := by
        rw [hv.1, firstAttr_eq, firstAttr_eq, linkID]
        by_cases h1 : getAtt as "anchor" ≠ ""
        · rw [if_pos h1, if_pos h1]
        · rw [if_neg h1, if_neg h1]
          by_cases h2 : getAtt as "id" ≠ ""
          · rw [if_pos h2]
          · rw [if_neg h2]
            simp only [ne_eq, Classical.not_not] at h2
            exact h2.symm
      simp [paraContent, xmlPart, hl, partOf, hid, hv.2, lastChild, childrenOf]
    · refine doesA_sub (unRun_fine h _ _ _ runAttr_fine_r ha) (unRun_readsA h hp _ _ _) hk hal.2 ?_
      intro v hv
      have hv : runContent v = runCont (runElsL lastPiece kids) := by
        rw [← addEls_empty, hv]
        rfl
      simp [paraContent, xmlPart, hl, partOf, hv, lastChild, childrenOf]
    · refine doesA_sub unRPr_fine (readAs_readsA unRPr_readAs) hk hal.2 ?_
      intro v hv
      simp [paraContent, xmlPart, hl, partOf, lastChild, childrenOf, hv]
    · refine doesA_sub unPPr_fine (readAs_readsA unPPr_readAs) hk hal.2 ?_
      intro v hv
      simp [paraContent, xmlPart, hl, lastChild, childrenOf, hv]
    · rename_i h1 h2 h3 h4
      have : (⟨(lastChild "pPr" xmlPPr [.elem q as kids]).or (paraContent s).props,
          (paraContent s).parts ++ xmlPart lastPiece (.elem q as kids)⟩ : ParaCont) = paraContent s := by
        simp only [xmlPart, hl, lastChild, childrenOf, List.flatMap_cons, List.flatMap_nil]
        rw [if_neg h2, if_neg h1, if_neg h3, if_neg h4]
        simp
      rw [this]
      exact doesA_skip s _ q kids
  intro q kids rest stk hk ha he
  unfold unPara at he ⊢
  have := hl q kids rest stk hk ha
  generalize loop (paraStep p file) { file := file } (inCtx [(kids, q)] rest stk) = o at this he
  rcases o with ⟨v, _ | e, d⟩
  · have := this rfl
    simp only at this ⊢
    rw [this]
    exact foldl_of (xmlPara lastPiece) (by intro es e; rw [xmlPara, lastChild_snoc]; simp [xmlPara]) kids
  · cases he

theorem unCell_readsA (h : DecsFine p) (hp : ∀ file, ParseOk (p.parse file)) (file : Option DocId) :
    ReadsA (unCell p file) fun kids v => cellContent v = xmlCell lastPiece kids := by
  have hl := loop_readsA (step := cellStep p file) cellContent
    (fun t n => ⟨(lastChild "tcPr" xmlTcPr [n]).or t.props,
      t.paras ++ (childrenOf "p" n).map (xmlPara lastPiece)⟩)
    (fun t x => by cases t; simp [lastChild, childrenOf]) (fun t => by cases t; simp [lastChild, childrenOf])
    (by
      intro s q as kids ha hk hal
      unfold cellStep
      generalize hl : q.loc = l at ha
      split
      · refine doesA_sub (unPara_fine h _) (unPara_readsA h hp _) hk hal.2 ?_
        intro v hv
        simp [childrenOf, hl, hv, cellContent, lastChild]
      · refine doesA_sub unTcPr_fine (readAs_readsA unTcPr_readAs) hk hal.2 ?_
        intro v hv
        simp [childrenOf, hl, hv, cellContent, lastChild]
      · rename_i h1 h2
        simp only [childrenOf, hl, if_neg h1, if_neg h2, List.map_nil, lastChild, List.flatMap_cons,
          List.flatMap_nil, List.append_nil, List.getLast?_nil, Option.map_none, Option.none_or]
        exact doesA_skip s cellContent q kids) { file := file }
  intro q kids rest stk hk ha he
  refine Eq.trans (hl q kids rest stk hk ha he) ?_
  exact foldl_of (xmlCell lastPiece) (by intro es e; rw [xmlCell, lastChild_snoc]; simp [xmlCell]) kids

theorem unRow_readsA (h : DecsFine p) (hp : ∀ file, ParseOk (p.parse file)) (file : Option DocId) :
    ReadsA (unRow p file) fun kids v => rowContent v = xmlRow lastPiece kids := by
  have hl := loop_readsA (step := rowStep p file) rowContent
    (fun t n => ⟨(lastChild "trPr" xmlTrPr [n]).or t.props,
      t.cells ++ (childrenOf "tc" n).map (xmlCell lastPiece)⟩)
    (fun t x => by cases t; simp [lastChild, childrenOf]) (fun t => by cases t; simp [lastChild, childrenOf])
    (by
      intro s q as kids ha hk hal
      unfold rowStep
      generalize hl : q.loc = l at ha
      split
      · refine doesA_sub unTrPr_fine (readAs_readsA unTrPr_readAs) hk hal.2 ?_
        intro v hv
        simp [childrenOf, hl, hv, rowContent, lastChild]
      · refine doesA_sub (unCell_fine h _) (unCell_readsA h hp _) hk hal.2 ?_
        intro v hv
        simp [childrenOf, hl, hv, rowContent, lastChild]
      · rename_i h1 h2
        simp only [childrenOf, hl, if_neg h1, if_neg h2, List.map_nil, lastChild, List.flatMap_cons,
          List.flatMap_nil, List.append_nil, List.getLast?_nil, Option.map_none, Option.none_or]
        exact doesA_skip s rowContent q kids) {}
  intro q kids rest stk hk ha he
  refine Eq.trans (hl q kids rest stk hk ha he) ?_
  exact foldl_of (xmlRow lastPiece) (by intro es e; rw [xmlRow, lastChild_snoc]; simp [xmlRow]) kids

theorem unTable_readsA (h : DecsFine p) (hp : ∀ file, ParseOk (p.parse file)) (file : Option DocId) :
    ReadsA (unTable p file) fun kids v => tableContent v = xmlTable lastPiece kids := by
  have hl := loop_readsA (step := tableStep p file) tableContent
    (fun t n => ⟨(lastChild "tblPr" xmlTblPr [n]).or t.props, (lastChild "tblGrid" xmlGrid [n]).or t.grid,
      t.rows ++ (childrenOf "tr" n).map (xmlRow lastPiece)⟩)
    (fun t x => by cases t; simp [lastChild, childrenOf]) (fun t => by cases t; simp [lastChild, childrenOf])
    (by
      intro s q as kids ha hk hal
      unfold tableStep
      generalize hl : q.loc = l at ha
      split
      · refine doesA_sub (unRow_fine h _) (unRow_readsA h hp _) hk hal.2 ?_
        intro v hv
        simp [childrenOf, hl, hv, tableContent, lastChild]
      · refine doesA_sub unTblPr_fine (readAs_readsA unTblPr_readAs) hk hal.2 ?_
        intro v hv
        simp [childrenOf, hl, hv, tableContent, lastChild]
      · refine doesA_sub unGrid_fine (readAs_readsA unGrid_readAs) hk hal.2 ?_
        intro v hv
        simp [childrenOf, hl, hv, tableContent, lastChild]
      · rename_i h1 h2 h3
        simp only [childrenOf, hl, if_neg h1, if_neg h2, if_neg h3, List.map_nil, lastChild, List.flatMap_cons,
          List.flatMap_nil, List.append_nil, List.getLast?_nil, Option.map_none, Option.none_or]
        exact doesA_skip s tableContent q kids) {}
  intro q kids rest stk hk ha he
  refine Eq.trans (hl q kids rest stk hk ha he) ?_
  exact foldl_of (xmlTable lastPiece)
    (by intro es e; rw [xmlTable, lastChild_snoc, lastChild_snoc]; simp [xmlTable]) kids

theorem foldl_flatMap {α β : Type} (of : α → List β) : ∀ (ks : List α) (t : List β),
    ks.foldl (fun t n => t ++ of n) t = t ++ ks.flatMap of
  | [], t => by simp
  | k :: ks, t => by rw [List.foldl_cons, foldl_flatMap of ks, List.flatMap_cons, List.append_assoc]

theorem unBody_readsA (h : DecsFine p) (hp : ∀ file, ParseOk (p.parse file)) (file : Option DocId)
    (s : List BItem) : ReadsA (unBody p file s) fun kids v =>
      v.map itemContent = s.map itemContent ++ kids.flatMap (xmlItemContent lastPiece) := by
  have hl := loop_readsA (step := bodyStep p file) (fun v => v.map itemContent)
    (fun t n => t ++ xmlItemContent lastPiece n) (fun t x => List.append_nil t) (fun t => List.append_nil t)
    (by
      intro s q as kids ha hk hal
      unfold bodyStep
      generalize hl : q.loc = l at ha
      split
      · refine doesA_sub (unPara_fine h _) (unPara_readsA h hp _) hk hal.2 ?_
        intro v hv
        simp [xmlItemContent, hl, hv, itemContent]
      · refine doesA_sub (unTable_fine h _) (unTable_readsA h hp _) hk hal.2 ?_
        intro v hv
        simp [xmlItemContent, hl, hv, itemContent]
      · refine doesA_sub unSect_fine (readAs_readsA unSect_readAs) hk hal.2 ?_
        intro v hv
        simp [xmlItemContent, hl, itemContent, hv]
      · rename_i h1 h2 h3
        have : xmlItemContent lastPiece (.elem q as kids) = [] := by
          simp only [xmlItemContent, hl]
          rw [if_neg h1, if_neg h2, if_neg h3]
        rw [this, List.append_nil]
        exact doesA_skip s _ q kids) s
  intro q kids rest stk hk ha he
  rw [← foldl_flatMap]
  exact hl q kids rest stk hk ha he

theorem unDocument_readsA (h : DecsFine p) (hp : ∀ file, ParseOk (p.parse file)) (file : Option DocId)
    (s : List BItem) : ReadsA (unDocument p file s) fun kids v =>
      v.map itemContent = s.map itemContent ++ xmlContent lastPiece kids := by
  have hl := loop_readsA (step := documentStep p file) (fun v => v.map itemContent)
    (fun t n => t ++ (childrenOf "body" n).flatMap fun b => b.flatMap (xmlItemContent lastPiece))
    (fun t x => List.append_nil t) (fun t => List.append_nil t)
    (by
      intro s q as kids ha hk hal
      unfold documentStep
      generalize hl : q.loc = l at ha
      split
      · refine doesA_sub (unBody_fine h _ _) (unBody_readsA h hp _ _) hk hal.2 ?_
        intro v hv
        simp [childrenOf, hl, hv]
      · rename_i h1
        simp only [childrenOf, hl, if_neg h1, List.flatMap_nil, List.append_nil]
        exact doesA_skip s _ q kids) s
  intro q kids rest stk hk ha he
  refine Eq.trans (hl q kids rest stk hk ha he) ?_
  rw [foldl_flatMap]
  simp only [xmlContent, List.flatMap_assoc]

end Docx
