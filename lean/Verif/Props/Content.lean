import Verif.Lemmas.SaveRead
import Verif.Lemmas.XmlRound
import Verif.Props.Numbers

/-!
# What is read of runs and texts (C45, C46, C58)

`xmlContent`, `itemContent` and the conditions are in `Verif.SpecContent`.
-/

namespace Docx

set_option linter.unusedSectionVars false

section
variable [GoEnv]

/-- C58, partial: if the numbers in the file are numbers and its `AlternateContent` elements begin with
elements, and parsing reports no error, the parsed body has exactly the paragraphs, tables, sections,
links, runs, texts, tabs, breaks and drawings of the file, in order, with exactly the formatting and page
layout that is written in the file (`Verif.SpecFormat`), each text being the last piece of its
character data.
Missing: files with bad numbers (`C44_truncated`) or with white space or comments at the beginning of
an `AlternateContent` (`C45_fails`, `C45_lost`), for which it is false. -/
theorem C58_content_partial (file : Option DocId) (s : List BItem) (pre post : List Tok)
    (hp : ∀ t ∈ pre, t = .other ∨ ∃ c, t = .chars c) (q : QName) (as : List Attr) (ks : List Node)
    (hok : numsOkL ks) (hal : altsOkL ks)
    (he : (decodeDocument file s (pre ++ (Node.elem q as ks).toks ++ post)).err = none) :
    (decodeDocument file s (pre ++ (Node.elem q as ks).toks ++ post)).val.map itemContent =
      s.map itemContent ++ xmlContent lastPiece ks := by
  unfold decodeDocument at he ⊢
  generalize (pre ++ (Node.elem q as ks).toks ++ post).length + 1 = k at he ⊢
  generalize hk : k = j at he ⊢
  clear hk
  have key : ∀ n, (rootN (fun _ => decodeElement (unDocument (decs j) file s)) s n
      ⟨pre ++ (Node.elem q as ks).toks ++ post, [], false⟩).err = none →
      (rootN (fun _ => decodeElement (unDocument (decs j) file s)) s n
      ⟨pre ++ (Node.elem q as ks).toks ++ post, [], false⟩).val.map itemContent =
      s.map itemContent ++ xmlContent lastPiece ks := by
    clear he
    induction pre with
    | nil =>
      intro n he
      cases n with
      | zero => cases he
      | succ n =>
        have ht : Dec.token ⟨[] ++ (Node.elem q as ks).toks ++ post, [], false⟩ =
            (.ok (.start q as), ⟨toksL ks ++ .stop q :: post, [.elem q], false⟩) := by
          simp only [toks_elem, List.cons_append, List.nil_append, List.append_assoc]
          rfl
        rw [rootN, ht] at he ⊢
        simp only at he ⊢
        obtain ⟨h1, h2⟩ := decodeElement_parts he
        rw [h2]
        have h3 := unDocument_readsA (decs_fine j) (decs_parseOk j) file s q ks post [] hok hal
        rw [inCtx_one] at h3
        exact h3 h1
    | cons t pre ih =>
      intro n he
      cases n with
      | zero => cases he
      | succ n =>
        have ih' := ih (fun t ht => hp t (List.mem_cons_of_mem _ ht)) n
        rcases hp t (List.mem_cons_self ..) with rfl | ⟨c, rfl⟩
        · rw [rootN] at he ⊢
          exact ih' he
        · rw [rootN] at he ⊢
          exact ih' he
  exact key j he

/-! ## Texts -/

theorem whole_last {ss : List String} (h : ss.length ≤ 1) : lastPiece ss = whole ss := by
  match ss, h with
  | [], _ => rfl
  | [s], _ => simp [lastPiece, whole]

mutual
theorem runEls_whole (n : Node) (h : textsOk n) : runEls lastPiece n = runEls whole n := by
  match n with
  | .elem q as kids =>
    rw [textsOk] at h
    simp only [runEls]
    split
    · rename_i hq
      rw [whole_last (h.1 hq)]
    · rw [runElsL_whole kids h.2, altEls_whole kids h.2]
  | .text _ => simp only [runEls]
  | .other => simp only [runEls]
theorem runElsL_whole (ns : List Node) (h : textsOkL ns) : runElsL lastPiece ns = runElsL whole ns := by
  match ns with
  | [] => simp only [runElsL]
  | n :: ns =>
    rw [textsOkL] at h
    simp only [runElsL]
    rw [runEls_whole n h.1, runElsL_whole ns h.2]
theorem altEls_whole (ns : List Node) (h : textsOkL ns) :
    altEls lastPiece ns = altEls whole ns := by
  match ns with
  | [] => simp only [altEls]
  | .elem q as kids :: ns =>
    rw [textsOkL, textsOk] at h
    simp only [altEls]
    rw [runElsL_whole kids h.1.2, runElsL_whole ns h.2, altEls_whole ns h.2]
  | .text _ :: ns =>
    rw [textsOkL] at h
    simp only [altEls]
    exact altEls_whole ns h.2
  | .other :: ns =>
    rw [textsOkL] at h
    simp only [altEls]
    exact altEls_whole ns h.2
end

theorem flatMap_same {α β : Type} {f g : α → List β} : ∀ {l : List α}, (∀ x ∈ l, f x = g x) →
    l.flatMap f = l.flatMap g
  | [], _ => rfl
  | x :: l, h => by
    rw [List.flatMap_cons, List.flatMap_cons, h x (List.mem_cons_self ..),
      flatMap_same fun y hy => h y (List.mem_cons_of_mem _ hy)]

theorem textsOkL_mem : ∀ {ns : List Node}, textsOkL ns → ∀ n ∈ ns, textsOk n
  | _ :: _, h, m, hm => by
    rw [textsOkL] at h
    rcases List.mem_cons.mp hm with rfl | hm
    · exact h.1
    · exact textsOkL_mem h.2 m hm

theorem textsOkL_children {ns : List Node} (h : textsOkL ns) {l : String} {k : List Node}
    (hk : k ∈ ns.flatMap (childrenOf l)) : textsOkL k := by
  obtain ⟨n, hn, hk⟩ := List.mem_flatMap.mp hk
  have := textsOkL_mem h n hn
  cases n with
  | elem q as kids =>
    rw [textsOk] at this
    simp only [childrenOf] at hk
    split at hk
    · rw [List.mem_singleton] at hk
      exact hk ▸ this.2
    · cases hk
  | text _ => cases hk
  | other => cases hk

theorem xmlPart_whole (n : Node) (h : textsOk n) : xmlPart lastPiece n = xmlPart whole n := by
  match n with
  | .elem q as kids =>
    rw [textsOk] at h
    simp only [xmlPart]
    rw [runElsL_whole kids h.2, flatMap_same fun k hk => runElsL_whole k (textsOkL_children h.2 hk)]
  | .text _ => rfl
  | .other => rfl

theorem xmlPara_whole (ks : List Node) (h : textsOkL ks) : xmlPara lastPiece ks = xmlPara whole ks := by
  rw [xmlPara, xmlPara, flatMap_same fun n hn => xmlPart_whole n (textsOkL_mem h n hn)]

theorem xmlCell_whole (ks : List Node) (h : textsOkL ks) : xmlCell lastPiece ks = xmlCell whole ks := by
  rw [xmlCell, xmlCell, List.map_congr_left fun k hk => xmlPara_whole k (textsOkL_children h hk)]

theorem xmlRow_whole (ks : List Node) (h : textsOkL ks) : xmlRow lastPiece ks = xmlRow whole ks := by
  rw [xmlRow, xmlRow, List.map_congr_left fun k hk => xmlCell_whole k (textsOkL_children h hk)]

theorem xmlTable_whole (ks : List Node) (h : textsOkL ks) : xmlTable lastPiece ks = xmlTable whole ks := by
  rw [xmlTable, xmlTable, List.map_congr_left fun k hk => xmlRow_whole k (textsOkL_children h hk)]

theorem xmlContent_whole (ks : List Node) (h : textsOkL ks) :
    xmlContent lastPiece ks = xmlContent whole ks := by
  refine flatMap_same fun b hb => flatMap_same fun n hn => ?_
  have := textsOkL_mem (textsOkL_children h hb) n hn
  match n with
  | .elem q as kids =>
    rw [textsOk] at this
    simp only [xmlItemContent]
    rw [xmlPara_whole kids this.2, xmlTable_whole kids this.2]
  | .text _ => rfl
  | .other => rfl

/-- C46, partial: if moreover the character data of every text element is in one piece, every text has
all the character data of its element.
Missing: text elements whose character data is in several pieces, for which it is false (`C46_false`). -/
theorem C46_whole_partial (file : Option DocId) (s : List BItem) (pre post : List Tok)
    (hp : ∀ t ∈ pre, t = .other ∨ ∃ c, t = .chars c) (q : QName) (as : List Attr) (ks : List Node)
    (hok : numsOkL ks) (hal : altsOkL ks) (ht : textsOkL ks)
    (he : (decodeDocument file s (pre ++ (Node.elem q as ks).toks ++ post)).err = none) :
    (decodeDocument file s (pre ++ (Node.elem q as ks).toks ++ post)).val.map itemContent =
      s.map itemContent ++ xmlContent whole ks := by
  rw [C58_content_partial file s pre post hp q as ks hok hal he, xmlContent_whole ks ht]

/-- A document with this body -/
def docWith (bs : List Node) : Node := .elem ⟨"w", "document"⟩ [] [.elem ⟨"w", "body"⟩ [] bs]

/-- A paragraph with these children -/
def pWith (ks : List Node) : Node := .elem ⟨"w", "p"⟩ [] ks

/-- A run with these children -/
def rWith (ks : List Node) : Node := .elem ⟨"w", "r"⟩ [] ks

/-- A text element with these children -/
def tWith (ks : List Node) : Node := .elem ⟨"w", "t"⟩ [] ks

theorem dec_textNodes (as : List Attr) (ks : List Node) :
    ∃ sp, Decodes (unText as) ks ⟨sp, lastPiece (charDataL ks)⟩ := by
  have hstep : ∀ k, StepGood k (fun (s : Text) (_ : String) (_ : List Attr) => flat s) :=
    fun k s l as => good_flat k s (by simp)
  have key : ∀ (s : Text), TakesC (fun s _ _ => flat s)
        (fun (s : Text) c => { s with text := c }) s ks
        { s with text := (charDataL ks).getLast?.getD s.text } := by
    refine Node.rec_1 (motive_1 := fun n => ∀ (s : Text), TakesC (fun s _ _ => flat s)
        (fun (s : Text) c => { s with text := c }) s [n] { s with text := (charData n).getLast?.getD s.text })
      (motive_2 := fun ns => ∀ (s : Text), TakesC (fun s _ _ => flat s)
        (fun (s : Text) c => { s with text := c }) s ns { s with text := (charDataL ns).getLast?.getD s.text })
      ?_ ?_ ?_ ?_ ?_ ks
    · intro q as kids ih s
      refine takes_flat (hstep 0) rfl (fun d => rfl) ?_
      rw [charData]
      exact ih s
    · intro c s
      exact takes_text (hstep 0) c (by simp [charData])
    · intro s
      rw [charData]
      exact takes_other (hstep 0)
    · intro s
      rw [charDataL]
      exact TakesC.nil
    · intro n ns h1 h2 s
      refine (h1 s).cons ?_
      have := h2 { s with text := (charData n).getLast?.getD s.text }
      rw [charDataL, List.getLast?_append]
      cases hl : (charDataL ns).getLast? <;> (rw [hl] at this; exact this)
  have ha : ∀ (as : List Attr) (s : Text), ∃ sp, attrs textAttr s as = (⟨sp, s.text⟩, none) := by
    intro as
    induction as with
    | nil => intro s; exact ⟨s.space, rfl⟩
    | cons a as ih =>
      intro s
      obtain ⟨s', h1, h2⟩ : ∃ s', textAttr s a.name.loc a.val = (s', none) ∧ s'.text = s.text := by
        unfold textAttr
        split <;> exact ⟨_, rfl, rfl⟩
      rw [attrs, h1]
      obtain ⟨sp, h⟩ := ih s'
      exact ⟨sp, h2 ▸ h⟩
  obtain ⟨sp, h⟩ := ha as {}
  exact ⟨sp, decodes_withAttrs h (decodes_loopC (hstep 0) (key ⟨sp, ""⟩))⟩

/-- A document with a single run -/
theorem decode_oneRun {file : Option DocId} {ks : List Node} {r : Run}
    (h : Decodes (unRun D file {} []) ks r) :
    decodeDocument file [] (docWith [pWith [rWith ks]]).toks =
      ⟨[.para { children := [.run r], file := file }], none, ⟨[], [], false⟩⟩ := by
  have hp : Decodes (unPara D file) [rWith ks] { children := [.run r], file := file } :=
    decodes_unPara (decodes_loop (paraStep_good (D_good 0) file)
      (takes_sub (paraStep_good (D_good 0) file) rfl h
        (fun v => ({ children := [.run v], file := file } : Para)) rfl rfl))
  have hb : Decodes (unBody D file []) [pWith [rWith ks]] [.para { children := [.run r], file := file }] :=
    decodes_loop (bodyStep_good (D_good 0) file)
      (takes_sub (bodyStep_good (D_good 0) file) rfl hp (fun v => [.para v]) rfl rfl)
  have hd : Decodes (unDocument D file []) [.elem ⟨"w", "body"⟩ [] [pWith [rWith ks]]]
      [.para { children := [.run r], file := file }] :=
    decodes_loop (documentStep_good (D_good 0) file)
      (takes_sub (documentStep_good (D_good 0) file) rfl hb (fun v => v) rfl rfl)
  have := decode_root (q := ⟨"w", "document"⟩) (as := []) hd [] [] (by simp)
  rw [List.nil_append, List.append_nil] at this
  exact this

/-- The text that is parsed is exactly the last piece of the character data of its element, whatever
is in the element, and parsing reports no error. -/
theorem C46_last (file : Option DocId) (ks : List Node) :
    (decodeDocument file [] (docWith [pWith [rWith [tWith ks]]]).toks).err = none ∧
    (decodeDocument file [] (docWith [pWith [rWith [tWith ks]]]).toks).val.map itemContent =
      [.para { parts := [.run { pieces := [.text (lastPiece (charDataL ks))] }] }] := by
  obtain ⟨sp, h⟩ := dec_textNodes [] ks
  have hr : Decodes (unRun D file {} []) [tWith ks]
      { children := [.text ⟨sp, lastPiece (charDataL ks)⟩] } :=
    decodes_withAttrs rfl (decodes_loop (runStep_good (D_good 0) file)
      (takes_runStrict (D_good 0) (fun w => ({}, some (.text w))) (fun _ => rfl) h rfl))
  rw [decode_oneRun hr]
  exact ⟨rfl, rfl⟩

/-- C46 is false: of a text element with a comment in it, `<w:t>a<!-- -->b</w:t>`, only what follows
the comment is kept. -/
theorem C46_false (file : Option DocId) (a b : String) :
    (decodeDocument file [] (docWith [pWith [rWith [tWith [.text a, .other, .text b]]]]).toks).err = none ∧
    (decodeDocument file [] (docWith [pWith [rWith [tWith [.text a, .other, .text b]]]]).toks).val.map
      itemContent = [.para { parts := [.run { pieces := [.text b] }] }] :=
  C46_last file _

/-! ## AlternateContent -/

/-- An `AlternateContent` element -/
def acWith (ks : List Node) : Node := .elem ⟨"mc", "AlternateContent"⟩ [] ks

/-- A `Choice` element -/
def choiceWith (req : String) (ks : List Node) : Node :=
  .elem ⟨"mc", "Choice"⟩ [⟨⟨"", "Requires"⟩, req⟩] ks

/-- An element that is neither a supported `Choice` nor read in a run -/
def inert : Node → Bool
  | .elem q _ _ => !["t", "tab", "br", "drawing", "rPr", "instrText", "AlternateContent"].contains q.loc
  | _ => true

/-- An element that is not a supported `Choice` -/
def otherChoice : Node → Bool
  | .elem q as _ => !supported q as
  | _ => false

theorem runElsL_inert (tx : List String → String) : ∀ (ns : List Node), (∀ n ∈ ns, inert n = true) →
    runElsL tx ns = []
  | [], _ => by simp [runElsL]
  | n :: ns, h => by
    rw [runElsL, runElsL_inert tx ns fun m hm => h m (List.mem_cons_of_mem _ hm), List.append_nil]
    have hn := h n (List.mem_cons_self ..)
    cases n with
    | elem q as kids =>
      simp only [inert, List.contains_cons, Bool.not_or, Bool.and_eq_true, Bool.not_eq_true',
        beq_eq_false_iff_ne] at hn
      rw [runEls, if_neg hn.1, if_neg hn.2.1, if_neg hn.2.2.1, if_neg hn.2.2.2.1, if_neg hn.2.2.2.2.1,
        if_neg hn.2.2.2.2.2.1, if_neg hn.2.2.2.2.2.2.1]
    | text _ => simp [runEls]
    | other => simp [runEls]

theorem altEls_first (tx : List String → String) (req : String)
    (hreq : req ∈ ["wps", "wpc", "wpg"]) (kids after : List Node) : ∀ (before : List Node),
    (∀ n ∈ before, otherChoice n = true) →
    altEls tx (before ++ choiceWith req kids :: after) = runElsL tx kids ++ runElsL tx after
  | [], _ => by
    rw [List.nil_append, choiceWith, altEls, if_pos]
    simp only [supported, firstAttr, List.find?_cons, beq_self_eq_true, Option.map_some, Option.getD_some,
      Bool.true_and]
    simpa using hreq
  | n :: ns, h => by
    have hn := h n (List.mem_cons_self ..)
    cases n with
    | elem q as k =>
      rw [List.cons_append, altEls, if_neg (by simpa [otherChoice] using hn)]
      exact altEls_first tx req hreq kids after ns fun m hm => h m (List.mem_cons_of_mem _ hm)
    | text _ => cases hn
    | other => cases hn

/-- C45, partial: a run with an `AlternateContent` that begins with any number of unsupported choices,
followed by a supported `Choice` and any further choices, fallbacks, white space and comments, has,
if parsing reports no error, what it has before the `AlternateContent`, then what is in that
`Choice`, then what it has after.  This holds wherever in the document the run is.
Missing: white space or comments before the supported `Choice`, for which it is false (`C45_fails`,
`C45_lost`); files with bad numbers (`C44_truncated`). -/
theorem C45_choice_partial (file : Option DocId) (b1 b2 p1 p2 r1 r2 before kids after : List Node) (req : String)
    (hreq : req ∈ ["wps", "wpc", "wpg"]) (hbe : ∀ n ∈ before, otherChoice n = true)
    (haf : ∀ n ∈ after, inert n = true)
    (doc : Node) (hdoc : doc = docWith (b1 ++ pWith (p1 ++
      rWith (r1 ++ acWith (before ++ choiceWith req kids :: after) :: r2) :: p2) :: b2))
    (hok : numsOk doc) (hal : altsOk doc) (he : (decodeDocument file [] doc.toks).err = none) :
    (decodeDocument file [] doc.toks).val.map itemContent =
      b1.flatMap (xmlItemContent lastPiece) ++
      .para ⟨lastChild "pPr" xmlPPr (p1 ++ p2), p1.flatMap (xmlPart lastPiece) ++
        .run (runCont (runElsL lastPiece r1 ++ runElsL lastPiece kids ++ runElsL lastPiece r2)) ::
          p2.flatMap (xmlPart lastPiece)⟩ ::
      b2.flatMap (xmlItemContent lastPiece) := by
  subst hdoc
  have h := C58_content_partial file [] [] [] (by simp) _ _ _ hok.2 hal.2
    (by rw [List.nil_append, List.append_nil]; exact he)
  rw [List.nil_append, List.append_nil] at h
  refine h.trans ?_
  have hr : runElsL lastPiece (r1 ++ acWith (before ++ choiceWith req kids :: after) :: r2) =
      runElsL lastPiece r1 ++ runElsL lastPiece kids ++ runElsL lastPiece r2 := by
    rw [runElsL_append, runElsL, acWith, runEls]
    simp only [String.reduceEq, if_false, if_true]
    rw [altEls_first lastPiece req hreq kids after before hbe, runElsL_inert lastPiece after haf]
    simp
  simp [xmlContent, childrenOf, xmlItemContent, pWith, rWith, xmlPart, xmlPara, lastChild, hr]

/-! ## Cases in which it is false -/

/-- An `AlternateContent` that begins with white space: the parser skips the whole of it, not only the
white space. -/
theorem altN_blank (p : Run → String → List Attr → Dec → Out Parsed) (f : Nat) (r : Run) (ws : String)
    (kids : List Node) (q : QName) (rest : List Tok) (stk : List StkEntry) :
    altN p (f + 1) r ⟨.chars ws :: (toksL kids ++ .stop q :: rest), .elem q :: stk, false⟩ =
      altN p f r ⟨rest, stk, false⟩ := by
  rw [altN, tok_chars]
  simp only [skip_kids]

/-- C45 is false: if there is white space before the choices of the only child of a run, `Parse` fails,
whatever else is in the document after it. -/
theorem C45_fails (file : Option DocId) (ws : String) (kids p2 b2 : List Node) :
    (decodeDocument file [] (docWith (pWith (rWith [acWith (.text ws :: kids)] :: p2) :: b2)).toks).err =
      some .eof := by
  have h1 : ∀ R S, (decodeElement (unRun D file {} []) ⟨.start ⟨"mc", "AlternateContent"⟩ [] :: .chars ws ::
      (toksL kids ++ .stop ⟨"mc", "AlternateContent"⟩ :: .stop ⟨"w", "r"⟩ :: R),
      .elem ⟨"w", "r"⟩ :: S, false⟩).err = some .eof := by
    intro R S
    simp only [decodeElement, Dec.pushEOF, pushMark, unRun, withAttrs, attrs, loop]
    rw [loopC_eq (runStep_good (D_good 0) file), tok_start]
    have ha : ∀ n, altN (D.parse file) (n + 2) {} ⟨.chars ws ::
        (toksL kids ++ .stop ⟨"mc", "AlternateContent"⟩ :: .stop ⟨"w", "r"⟩ :: R),
        .elem ⟨"mc", "AlternateContent"⟩ :: .elem ⟨"w", "r"⟩ :: .mark :: S, false⟩ =
        ⟨({}, none), some .eof, ⟨R, .mark :: S, false⟩⟩ := by
      intro n
      rw [altN_blank, altN, tok_stop]
      simp only [String.reduceEq, if_false]
      rfl
    simp only [runStep, runParse, List.length_cons, ha]
  have h2 : ∀ R S, (decodeElement (unPara D file) ⟨.start ⟨"w", "r"⟩ [] ::
      .start ⟨"mc", "AlternateContent"⟩ [] :: .chars ws ::
      (toksL kids ++ .stop ⟨"mc", "AlternateContent"⟩ :: .stop ⟨"w", "r"⟩ :: R),
      .elem ⟨"w", "p"⟩ :: S, false⟩).err = some .eof := by
    intro R S
    simp only [decodeElement, Dec.pushEOF, pushMark, unPara, loop]
    rw [loopC_eq (paraStep_good (D_good 0) file), tok_start]
    simp only [paraStep, sub, h1, tolerate]
  have h3 : ∀ R S, (decodeElement (unBody D file []) ⟨.start ⟨"w", "p"⟩ [] :: .start ⟨"w", "r"⟩ [] ::
      .start ⟨"mc", "AlternateContent"⟩ [] :: .chars ws ::
      (toksL kids ++ .stop ⟨"mc", "AlternateContent"⟩ :: .stop ⟨"w", "r"⟩ :: R),
      .elem ⟨"w", "body"⟩ :: S, false⟩).err = some .eof := by
    intro R S
    simp only [decodeElement, Dec.pushEOF, pushMark, unBody, loop]
    rw [loopC_eq (bodyStep_good (D_good 0) file), tok_start]
    simp only [bodyStep, sub, h2, tolerate]
  rw [decodeDocument_eq]
  simp only [docWith, pWith, rWith, acWith, toks_elem, toks_text, toksL_cons, toksL_nil, List.append_nil,
    List.cons_append, List.append_assoc, List.nil_append, List.length_cons]
  rw [rootN]
  show (decodeElement (unDocument D file []) ⟨_, [.elem ⟨"w", "document"⟩], false⟩).err = _
  simp only [decodeElement, Dec.pushEOF, pushMark, unDocument, loop]
  rw [loopC_eq (documentStep_good (D_good 0) file), tok_start]
  simp only [documentStep, sub, h3, tolerate]

/-- C45 is false in another way: if in addition there is white space after the `AlternateContent`,
`Parse` reports no error, but the run has nothing of the `AlternateContent` and nothing of what follows
it, whatever that is. -/
theorem C45_lost (file : Option DocId) (ws ws2 : String) (kids r2 : List Node) :
    (decodeDocument file [] (docWith [pWith [rWith (acWith (.text ws :: kids) :: .text ws2 :: r2)]]).toks).err =
      none ∧
    (decodeDocument file [] (docWith [pWith [rWith (acWith (.text ws :: kids) :: .text ws2 :: r2)]]).toks).val =
      [.para { children := [.run {}], file := file }] := by
  have h : Decodes (unRun D file {} []) (acWith (.text ws :: kids) :: .text ws2 :: r2) {} := by
    intro q rest stk
    simp only [decodeElement, Dec.pushEOF, pushMark, unRun, withAttrs, attrs, loop, acWith, toks_elem,
      toks_text, toksL_cons, List.cons_append, List.append_assoc, List.nil_append]
    rw [loopC_eq (runStep_good (D_good 0) file), tok_start]
    have ha : ∀ n, altN (D.parse file) (n + 3) {} ⟨.chars ws ::
        (toksL kids ++ .stop ⟨"mc", "AlternateContent"⟩ :: .chars ws2 :: (toksL r2 ++ .stop q :: rest)),
        .elem ⟨"mc", "AlternateContent"⟩ :: .elem q :: .mark :: stk, false⟩ =
        ⟨({}, none), none, ⟨rest, .mark :: stk, false⟩⟩ := by
      intro n
      rw [altN_blank, altN_blank, altN, tok_mark]
    have hl : ∃ n, (Tok.chars ws :: (toksL kids ++ .stop ⟨"mc", "AlternateContent"⟩ :: .chars ws2 ::
        (toksL r2 ++ .stop q :: rest))).length + 1 = n + 3 :=
      ⟨(Tok.chars ws :: (toksL kids ++ .stop ⟨"mc", "AlternateContent"⟩ :: .chars ws2 ::
        (toksL r2 ++ .stop q :: rest))).length - 2, by simp; omega⟩
    obtain ⟨n, hn⟩ := hl
    simp only [runStep, runParse, hn, ha, addChild]
    rw [loopC_eq (runStep_good (D_good 0) file), tok_mark]
    rfl
  rw [decode_oneRun h]
  exact ⟨rfl, rfl⟩

end

/-! ## Cases that meet the hypotheses -/

/-- Some way to read floating point numbers -/
local instance : GoEnv := ⟨fun _ => none, fun _ => false, fun _ => false⟩

/-- The hypotheses of `C46_whole_partial` hold for this document, which has a text, a tab, a break and a
link. -/
example :
    let ks := [Node.elem ⟨"w", "body"⟩ [] [.text "\n", pWith [rWith [tWith [.text "a"], .elem ⟨"w", "tab"⟩ [] [],
      .elem ⟨"w", "br"⟩ [⟨⟨"w", "type"⟩, "page"⟩] []],
      .elem ⟨"w", "hyperlink"⟩ [⟨⟨"r", "id"⟩, "rId3"⟩] [rWith [tWith [.text "b"]], rWith [tWith [.text "c"]]]]]]
    numsOkL ks ∧ altsOkL ks ∧ textsOkL ks ∧
      (decodeDocument none [] (Node.elem ⟨"w", "document"⟩ [] ks).toks).err = none ∧
      (decodeDocument none [] (Node.elem ⟨"w", "document"⟩ [] ks).toks).val.map itemContent =
        [.para { parts := [.run { pieces := [.text "a", .tab, .br "page"] },
          .link "rId3" { pieces := [.text "b", .text "c"] }] }] := by
  intro ks
  have h1 : numsOkL ks := by
    simp [ks, pWith, rWith, tWith, numsOk, numsOkL, attrsOk, numLike, numeric]
  have h2 : altsOkL ks := by
    simp [ks, pWith, rWith, tWith, altsOk, altsOkL]
  have h3 : textsOkL ks := by
    simp [ks, pWith, rWith, tWith, textsOk, textsOkL, charDataL, charData]
  have h4 : (decodeDocument none [] (Node.elem ⟨"w", "document"⟩ [] ks).toks).err = none := by
    decide +kernel
  refine ⟨h1, h2, h3, h4, ?_⟩
  have h := C46_whole_partial none [] [] [] (by simp) ⟨"w", "document"⟩ [] ks h1 h2 h3
    (by rw [List.nil_append, List.append_nil]; exact h4)
  rw [List.nil_append, List.append_nil] at h
  rw [h]
  rfl


/-- The hypotheses of `C58_content_partial` hold for this document: a centred paragraph with a bold red
run, and a section with margins. -/
example :
    let v (s : String) : List Attr := [⟨⟨"w", "val"⟩, s⟩]
    let ks := [Node.elem ⟨"w", "body"⟩ [] [
      pWith [.elem ⟨"w", "pPr"⟩ [] [.elem ⟨"w", "keepNext"⟩ [] [], .elem ⟨"w", "jc"⟩ (v "center") []],
        rWith [.elem ⟨"w", "rPr"⟩ [] [.elem ⟨"w", "b"⟩ [] [], .elem ⟨"w", "color"⟩ (v "ff0000") [],
          .elem ⟨"w", "sz"⟩ (v "20") [], .elem ⟨"w", "sz"⟩ (v "24") []], tWith [.text "a"]]],
      .elem ⟨"w", "sectPr"⟩ [] [.elem ⟨"w", "pgMar"⟩ [⟨⟨"w", "top"⟩, "1440"⟩, ⟨⟨"w", "left"⟩, "-7"⟩] []]]]
    numsOkL ks ∧ altsOkL ks ∧
      (decodeDocument none [] (Node.elem ⟨"w", "document"⟩ [] ks).toks).err = none ∧
      (decodeDocument none [] (Node.elem ⟨"w", "document"⟩ [] ks).toks).val.map itemContent =
        [.para { props := some { jc := some "center" }
                 parts := [.run { rpr := some { bold := true, color := some "ff0000", size := some "24" }
                                  pieces := [.text "a"] }] },
         .sect { pgMar := some { top := 1440, left := -7 } }] := by
  intro v ks
  have h1 : numsOkL ks := by
    have n1 : numLike "1440" := by unfold numLike; decide +kernel
    have n2 : numLike "-7" := by unfold numLike; decide +kernel
    simp [ks, v, pWith, rWith, tWith, numsOk, numsOkL, attrsOk, numeric, n1, n2]
  have h2 : altsOkL ks := by
    simp [ks, pWith, rWith, tWith, altsOk, altsOkL]
  have h4 : (decodeDocument none [] (Node.elem ⟨"w", "document"⟩ [] ks).toks).err = none := by
    decide +kernel
  refine ⟨h1, h2, h4, ?_⟩
  have h := C58_content_partial none [] [] [] (by simp) ⟨"w", "document"⟩ [] ks h1 h2
    (by rw [List.nil_append, List.append_nil]; exact h4)
  rw [List.nil_append, List.append_nil] at h
  rw [h]
  rfl

/-- The hypotheses of `C45_choice_partial` hold for this document, in which a shape comes after an
unsupported choice and before a fallback. -/
example :
    let sp := Node.elem ⟨"w", "drawing"⟩ [] []
    let doc := docWith ([] ++ pWith ([] ++ rWith ([tWith [.text "a"]] ++
      acWith ([choiceWith "zz" [sp]] ++ choiceWith "wps" [.text "\n", sp] ::
        [.text "\n", .elem ⟨"mc", "Fallback"⟩ [] [sp]]) :: [tWith [.text "b"]]) :: []) :: [])
    (∀ n ∈ [choiceWith "zz" [sp]], otherChoice n = true) ∧
    (∀ n ∈ [Node.text "\n", .elem ⟨"mc", "Fallback"⟩ [] [sp]], inert n = true) ∧
    numsOk doc ∧ altsOk doc ∧ (decodeDocument none [] doc.toks).err = none ∧
    (decodeDocument none [] doc.toks).val.map itemContent =
      [.para { parts := [.run { pieces := [.text "a", .drawing, .text "b"] }] }] := by
  intro sp doc
  have h1 : ∀ n ∈ [choiceWith "zz" [sp]], otherChoice n = true := by decide
  have h2 : ∀ n ∈ [Node.text "\n", .elem ⟨"mc", "Fallback"⟩ [] [sp]], inert n = true := by decide
  have h3 : numsOk doc := by
    simp [doc, sp, docWith, pWith, rWith, tWith, acWith, choiceWith, numsOk, numsOkL, attrsOk, numLike, numeric]
  have h4 : altsOk doc := by
    simp [doc, sp, docWith, pWith, rWith, tWith, acWith, choiceWith, altsOk, altsOkL, altFront, supported, firstAttr]
  have h5 : (decodeDocument none [] doc.toks).err = none := by decide +kernel
  refine ⟨h1, h2, h3, h4, h5, ?_⟩
  rw [C45_choice_partial none [] [] [] [] [tWith [.text "a"]] [tWith [.text "b"]] _ _ _ "wps" (by decide) h1 h2
    doc rfl h3 h4 h5]
  decide +kernel

end Docx
