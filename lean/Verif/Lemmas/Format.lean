import Verif.Lemmas.XmlCtx

/-!
# What is read of property elements
-/

namespace Docx

set_option linter.unusedSectionVars false
set_option linter.unusedSimpArgs false

variable [GoEnv]

/-! ## Attributes -/

/-- Attributes read without an error are read one after the other. -/
theorem attrs_fold {σ : Type} {f : σ → String → String → σ × Option Err} : ∀ (as : List Attr) (s : σ),
    (attrs f s as).2 = none →
    (attrs f s as).1 = as.foldl (fun s a => (f s a.name.loc a.val).1) s ∧
      ∀ a ∈ as, ∃ s', (f s' a.name.loc a.val).2 = none
  | [], s, _ => ⟨rfl, by intro a ha; cases ha⟩
  | a :: as, s, h => by
    rw [attrs] at h ⊢
    rcases hf : f s a.name.loc a.val with ⟨s', _ | e⟩
    · rw [hf] at h
      simp only at h ⊢
      obtain ⟨h1, h2⟩ := attrs_fold as s' h
      refine ⟨by rw [h1, List.foldl_cons, hf], ?_⟩
      intro b hb
      rcases List.mem_cons.mp hb with rfl | hb
      · exact ⟨s, by rw [hf]⟩
      · exact h2 b hb
    · rw [hf] at h
      cases h

theorem foldl_of {σ α : Type} {app : σ → α → σ} (of : List α → σ)
    (h : ∀ es e, of (es ++ [e]) = app (of es) e) : ∀ es, es.foldl app (of []) = of es := by
  intro es
  have key : ∀ es pre, es.foldl app (of pre) = of (pre ++ es) := by
    intro es
    induction es with
    | nil => intro pre; simp
    | cons e es ih =>
      intro pre
      rw [List.foldl_cons, ← h, ih]
      simp
  exact key es []

/-- The same, for elements with a property -/
theorem foldl_of_mem {σ α : Type} {app : σ → α → σ} (of : List α → σ) (P : α → Prop)
    (h : ∀ es e, P e → of (es ++ [e]) = app (of es) e) (es : List α) (hp : ∀ e ∈ es, P e) :
    es.foldl app (of []) = of es := by
  have key : ∀ es pre, (∀ e ∈ es, P e) → es.foldl app (of pre) = of (pre ++ es) := by
    intro es
    induction es with
    | nil => intro pre _; simp
    | cons e es ih =>
      intro pre hp
      rw [List.foldl_cons, ← h _ _ (hp e (List.mem_cons_self ..)),
        ih _ fun x hx => hp x (List.mem_cons_of_mem _ hx)]
      simp
  exact key es [] hp

theorem attrLast?_snoc (n : String) (as : List Attr) (a : Attr) :
    attrLast? n (as ++ [a]) = if a.name.loc = n then some a.val else attrLast? n as := by
  unfold attrLast?
  by_cases h : a.name.loc = n <;> simp [h, List.filter_append, List.filter_cons]

theorem attrFull?_snoc (n : String) (as : List Attr) (a : Attr) :
    attrFull? n (as ++ [a]) = if a.name.loc = n ∧ a.val ≠ "" then some a.val else attrFull? n as := by
  unfold attrFull?
  by_cases h : a.name.loc = n <;> by_cases h2 : a.val = "" <;>
    simp [h, h2, List.filter_append, List.filter_cons]

theorem attrLast_snoc (n : String) (as : List Attr) (a : Attr) :
    attrLast n (as ++ [a]) = if a.name.loc = n then a.val else attrLast n as := by
  unfold attrLast
  rw [attrLast?_snoc]
  split <;> rfl

theorem attrFull_snoc (n : String) (as : List Attr) (a : Attr) :
    attrFull n (as ++ [a]) = if a.name.loc = n ∧ a.val ≠ "" then a.val else attrFull n as := by
  unfold attrFull
  rw [attrFull?_snoc]
  split <;> rfl

theorem numAttr_snoc (n : String) (as : List Attr) (a : Attr) :
    numAttr n (as ++ [a]) = if a.name.loc = n then (getInt a.val).1 else numAttr n as := by
  unfold numAttr
  rw [attrLast?_snoc]
  split <;> rfl

theorem numFull_snoc (n : String) (as : List Attr) (a : Attr) :
    numFull n (as ++ [a]) = if a.name.loc = n ∧ a.val ≠ "" then (getInt a.val).1 else numFull n as := by
  unfold numFull
  rw [attrFull?_snoc]
  split <;> rfl

theorem lookFlag_snoc (n : String) (as : List Attr) (a : Attr) :
    xmlLookFlag n (as ++ [a]) = if a.name.loc = n ∧ a.val ≠ "" then lookVal a.val else xmlLookFlag n as := by
  unfold xmlLookFlag
  rw [attrFull?_snoc]
  split <;> rfl

theorem getInt_of_atoi {v : String} {n : Int64} (h : atoi? v = some n) : getInt v = (n, none) := by
  unfold getInt
  rw [h]

theorem leaf_value {σ : Type} {f : σ → String → String → σ × Option Err} {s : σ} {as : List Attr} {d : Dec}
    (h : (leaf f s as d).err = none) :
    (leaf f s as d).val = (attrs f s as).1 ∧ (attrs f s as).2 = none := by
  unfold leaf at h ⊢
  rcases ha : attrs f s as with ⟨s', _ | e⟩
  · rw [ha] at h
    simp only at h ⊢
    rcases ht : d.token with ⟨_ | _, d'⟩
    · rw [ht] at h; cases h
    · exact ⟨rfl, trivial⟩
  · rw [ha] at h; cases h

/-- The attributes of an element are read as `of` says. -/
def AttrsAre {σ : Type} (f : σ → String → String → σ × Option Err) (s : σ) (of : List Attr → σ) : Prop :=
  ∀ as, (attrs f s as).2 = none → (attrs f s as).1 = of as

theorem attrsAre {σ : Type} {f : σ → String → String → σ × Option Err} (of : List Attr → σ)
    (h : ∀ as a, (∃ s', (f s' a.name.loc a.val).2 = none) →
      of (as ++ [a]) = (f (of as) a.name.loc a.val).1) : AttrsAre f (of []) of := by
  intro as he
  obtain ⟨h1, h2⟩ := attrs_fold as _ he
  rw [h1]
  exact foldl_of_mem of _ h as h2

theorem shade_attrs : AttrsAre shadeAttr {} xmlShade := by
  refine attrsAre xmlShade ?_
  intro as a _
  unfold shadeAttr
  generalize hl : a.name.loc = l
  split <;> simp_all [xmlShade, attrLast_snoc]

theorem spacing_attrs : AttrsAre spacingAttr {} xmlSpacing := by
  refine attrsAre xmlSpacing ?_
  intro as a _
  unfold spacingAttr intAttr
  generalize hl : a.name.loc = l
  split <;> simp_all [xmlSpacing, attrLast_snoc, numAttr_snoc]

theorem ind_attrs : AttrsAre indAttr {} xmlInd := by
  refine attrsAre xmlInd ?_
  intro as a _
  unfold indAttr intAttrNE intAttr
  generalize hl : a.name.loc = l
  by_cases hv : a.val = "" <;>
  split <;> simp_all [xmlInd, numFull_snoc]

theorem tab_attrs : AttrsAre tabAttr {} xmlTab := by
  refine attrsAre xmlTab ?_
  intro as a _
  unfold tabAttr intAttrNE intAttr
  generalize hl : a.name.loc = l
  by_cases hv : a.val = "" <;>
  split <;> simp_all [xmlTab, numFull_snoc, attrLast_snoc]

theorem fonts_attrs : AttrsAre runFontsAttr {} xmlFonts := by
  refine attrsAre xmlFonts ?_
  intro as a _
  unfold runFontsAttr
  generalize hl : a.name.loc = l
  split <;> simp_all [xmlFonts, attrLast_snoc]

theorem tblpPr_attrs : AttrsAre tblpPrAttr {} xmlTblpPr := by
  refine attrsAre xmlTblpPr ?_
  intro as a _
  unfold tblpPrAttr intAttr
  generalize hl : a.name.loc = l
  split <;> simp_all [xmlTblpPr, attrLast_snoc, numAttr_snoc]

theorem tblStyle_attrs : AttrsAre tblStyleAttr "" (attrFull "val") := by
  refine attrsAre (attrFull "val") ?_
  intro as a _
  unfold tblStyleAttr
  generalize hl : a.name.loc = l
  by_cases hv : a.val = ""
  · simp [attrFull_snoc, hl, hv]
  · rw [if_neg hv]
    split <;> simp_all [attrFull_snoc]

theorem width_attrs : AttrsAre widthAttr {} xmlWidth := by
  refine attrsAre xmlWidth ?_
  intro as a _
  unfold widthAttr intAttr
  generalize hl : a.name.loc = l
  by_cases hv : a.val = ""
  · simp [xmlWidth, attrFull_snoc, numFull_snoc, hl, hv]
  · rw [if_neg hv]
    split <;> simp_all [xmlWidth, attrFull_snoc, numFull_snoc]

theorem look_attrs : AttrsAre lookAttr {} xmlLook := by
  refine attrsAre xmlLook ?_
  intro as a _
  unfold lookAttr
  generalize hl : a.name.loc = l
  by_cases hv : a.val = ""
  · simp [xmlLook, attrFull_snoc, lookFlag_snoc, hl, hv]
  · rw [if_neg hv]
    split <;> simp_all [xmlLook, attrFull_snoc, lookFlag_snoc]

theorem border_attrs : AttrsAre borderAttr {} xmlBorder := by
  refine attrsAre xmlBorder ?_
  intro as a _
  unfold borderAttr intAttrNE intAttr
  generalize hl : a.name.loc = l
  by_cases hv : a.val = "" <;>
  split <;> simp_all [xmlBorder, numFull_snoc, attrLast_snoc]

theorem gridCol_attrs : AttrsAre gridColAttr 0 (numFull "w") := by
  refine attrsAre (numFull "w") ?_
  intro as a _
  unfold gridColAttr intAttr
  generalize hl : a.name.loc = l
  by_cases hv : a.val = ""
  · simp [numFull_snoc, hl, hv]
  · rw [if_neg hv]
    split <;> simp_all [numFull_snoc]

theorem height_attrs : AttrsAre heightAttr {} xmlHeight := by
  refine attrsAre xmlHeight ?_
  intro as a _
  unfold heightAttr intAttr
  generalize hl : a.name.loc = l
  split <;> simp_all [xmlHeight, attrLast_snoc, numAttr_snoc]

theorem atoiAttr_value {σ : Type} {v : String} {k : Int64 → σ} (h : ∃ n, atoi? v = some n) :
    (atoiAttr v k).1 = k (getInt v).1 := by
  obtain ⟨n, hn⟩ := h
  unfold atoiAttr
  rw [getInt_of_atoi hn, hn]

theorem atoiAttr_some {σ : Type} {v : String} {k : Int64 → σ} (h : (atoiAttr v k).2 = none) :
    ∃ n, atoi? v = some n := by
  unfold atoiAttr at h
  cases hv : atoi? v with
  | some n => exact ⟨n, rfl⟩
  | none => rw [hv] at h; cases h

theorem pgSz_attrs : AttrsAre pgSzAttr {} xmlPgSz := by
  refine attrsAre xmlPgSz ?_
  rintro as a ⟨s', hs⟩
  unfold pgSzAttr at hs ⊢
  generalize hl : a.name.loc = l at hs
  split at hs
  all_goals first
    | rw [atoiAttr_value (atoiAttr_some hs)]; simp [xmlPgSz, numAttr_snoc, hl]
    | simp_all [xmlPgSz, numAttr_snoc]

theorem pgMar_attrs : AttrsAre pgMarAttr {} xmlPgMar := by
  refine attrsAre xmlPgMar ?_
  rintro as a ⟨s', hs⟩
  unfold pgMarAttr at hs ⊢
  generalize hl : a.name.loc = l at hs
  split at hs
  all_goals first
    | rw [atoiAttr_value (atoiAttr_some hs)]; simp [xmlPgMar, numAttr_snoc, hl]
    | simp_all [xmlPgMar, numAttr_snoc]

theorem cols_attrs : AttrsAre colsAttr 0 (numAttr "space") := by
  refine attrsAre (numAttr "space") ?_
  rintro as a ⟨s', hs⟩
  unfold colsAttr at hs ⊢
  generalize hl : a.name.loc = l at hs
  split at hs
  all_goals first
    | rw [atoiAttr_value (atoiAttr_some hs)]; simp [numAttr_snoc, hl]
    | simp_all [numAttr_snoc]

theorem docGrid_attrs : AttrsAre docGridAttr {} xmlDocGrid := by
  refine attrsAre xmlDocGrid ?_
  rintro as a ⟨s', hs⟩
  unfold docGridAttr at hs ⊢
  generalize hl : a.name.loc = l at hs
  split at hs
  all_goals first
    | rw [atoiAttr_value (atoiAttr_some hs)]; simp [xmlDocGrid, numAttr_snoc, attrLast_snoc, hl]
    | simp_all [xmlDocGrid, numAttr_snoc, attrLast_snoc]

/-! ## Loops -/

/-- What a case of a loop does with an element: the state becomes `s'`; if `o`, the loop goes on
inside the element, otherwise after it. -/
def Does {σ : Type} (f : Dec → Out σ) (s' : σ) (o : Bool) (q : QName) (kids : List Node) : Prop :=
  ∀ c rest stk, OkCtx c → (f (inCtx ((kids, q) :: c) rest stk)).err = none →
    (f (inCtx ((kids, q) :: c) rest stk)).val = s' ∧
      (f (inCtx ((kids, q) :: c) rest stk)).dec = inCtx (if o then (kids, q) :: c else c) rest stk

/-- The result of a successful decoding of an element is `of` its children. -/
def ReadAs {α : Type} (u : Dec → Out α) (of : List Node → α) : Prop :=
  ∀ q kids rest stk, numsOkL kids → (u (inCtx [(kids, q)] rest stk)).err = none →
    (u (inCtx [(kids, q)] rest stk)).val = of kids

theorem does_flat {σ : Type} (s : σ) (q : QName) (kids : List Node) : Does (flat s) s true q kids :=
  fun _ _ _ _ _ => ⟨rfl, rfl⟩

theorem does_skip {σ : Type} (s : σ) (q : QName) (kids : List Node) : Does (skipTo s) s false q kids := by
  intro c rest stk _ _
  rw [skipTo, skipC]
  exact ⟨rfl, rfl⟩

theorem does_sub {α σ : Type} {u : Dec → Out α} {of : List Node → α} (hu : F u) (hr : ReadAs u of)
    (k : α → σ) (q : QName) {kids : List Node} (hk : numsOkL kids) :
    Does (sub u k) (k (of kids)) false q kids := by
  intro c rest stk _ he
  simp only [sub] at he ⊢
  have h1 : (decodeElement u (inCtx ((kids, q) :: c) rest stk)).err = none := by
    refine tolerate_ok ?_ he
    rw [inCtx_cons]
    exact (decodeElement_fine hu (q := q) hk _ _).2
  obtain ⟨d1, d2, d3⟩ := decodeC hu hk h1
  rw [d3, hr q kids _ _ hk d2]
  exact ⟨rfl, d1⟩

theorem does_flatInt {σ : Type} (s : σ) (v : String) (k : Int64 → σ) (q : QName) (kids : List Node) :
    Does (flatInt s v k) (if v = "" then s else k (getInt v).1) true q kids := by
  intro c rest stk _ he
  unfold flatInt at he ⊢
  by_cases hv : v = ""
  · rw [if_pos hv, if_pos hv]
    exact ⟨rfl, rfl⟩
  · rw [if_neg hv] at he
    rw [if_neg hv, if_neg hv]
    rcases hg : getInt v with ⟨n, _ | e⟩
    · exact ⟨rfl, rfl⟩
    · rw [hg] at he
      cases he

/-- All elements that count in a context -/
def ctxEls (o : String → Bool) (c : Ctx) : List El := c.flatMap fun x => elsL o x.1

theorem loop_els {σ : Type} {step : σ → String → List Attr → Dec → Out σ} (app : σ → El → σ)
    (o : String → Bool)
    (hs : ∀ s q as kids, attrsOk q.loc as → numsOkL kids →
      Does (step s q.loc as) (app s ⟨q.loc, as, kids⟩) (o q.loc) q kids) :
    ∀ (f : Nat) (s : σ) (c : Ctx) (rest : List Tok) (stk : List StkEntry), OkCtx c →
    (loopN step (fun s _ => s) f s (inCtx c rest stk)).err = none →
    (loopN step (fun s _ => s) f s (inCtx c rest stk)).val = (ctxEls o c).foldl app s := by
  intro f
  induction f with
  | zero => intro s c rest stk _ h; cases h
  | succ f ih =>
    intro s c rest stk ho h
    rw [loopN] at h ⊢
    match c, ho, h with
    | [], _, h => rw [tokC_nil]; rfl
    | ([], q) :: c, ho, h =>
      rw [tokC_stop] at h ⊢
      simp only at h ⊢
      rw [ih _ _ _ _ ho.tail h]
      simp [ctxEls, elsL]
    | (.text t :: ks, q) :: c, ho, h =>
      rw [tokC_text] at h ⊢
      simp only at h ⊢
      rw [ih _ _ _ _ (.cons ho.head.2 ho.tail) h]
      simp [ctxEls, elsL, els]
    | (.other :: ks, q) :: c, ho, h =>
      rw [tokC_other] at h ⊢
      simp only at h ⊢
      rw [ih _ _ _ _ (.cons ho.head.2 ho.tail) h]
      simp [ctxEls, elsL, els]
    | (.elem p as kids :: ks, q) :: c, ho, h =>
      rw [tokC_elem] at h ⊢
      simp only at h ⊢
      have hn := ho.head
      simp only [numsOkL, numsOk] at hn
      have hd := hs s p as kids hn.1.1 hn.1.2 ((ks, q) :: c) rest stk (.cons hn.2 ho.tail)
      generalize step s p.loc as (inCtx ((kids, p) :: (ks, q) :: c) rest stk) = r at h hd
      rcases r with ⟨v, _ | e, d⟩
      · obtain ⟨h1, h2⟩ := hd rfl
        simp only at h1 h2 h ⊢
        subst h1
        subst h2
        cases hp : o p.loc with
        | true =>
          rw [hp, if_pos rfl] at h
          rw [if_pos rfl, ih _ _ _ _ (.cons hn.1.2 (.cons hn.2 ho.tail)) h]
          simp [ctxEls, elsL, els, hp]
        | false =>
          rw [hp] at h
          simp only [Bool.false_eq_true, if_false] at h ⊢
          rw [ih _ _ _ _ (.cons hn.2 ho.tail) h]
          simp [ctxEls, elsL, els, hp]
      · cases h

theorem loop_readAs {σ : Type} {step : σ → String → List Attr → Dec → Out σ} (app : σ → El → σ)
    (o : String → Bool) (of : List El → σ) (happ : ∀ es e, of (es ++ [e]) = app (of es) e)
    (hs : ∀ s q as kids, attrsOk q.loc as → numsOkL kids →
      Does (step s q.loc as) (app s ⟨q.loc, as, kids⟩) (o q.loc) q kids) :
    ReadAs (loop step (of [])) fun kids => of (elsL o kids) := by
  intro q kids rest stk hk he
  unfold loop loopC at he ⊢
  rw [loop_els app o hs _ _ _ _ _ (.cons hk .nil) he, foldl_of of happ]
  simp [ctxEls]

/-! ## Elements -/

theorem lastEl_snoc (n : String) (es : List El) (e : El) :
    lastEl n (es ++ [e]) = if e.name = n then some e else lastEl n es := by
  unfold lastEl
  by_cases h : e.name = n <;> simp [h, List.filter_append, List.filter_cons]

theorem hasEl_snoc (n : String) (es : List El) (e : El) :
    hasEl n (es ++ [e]) = if e.name = n then true else hasEl n es := by
  unfold hasEl
  by_cases h : e.name = n <;> simp [h]

theorem elVal_snoc (n : String) (es : List El) (e : El) :
    elVal n (es ++ [e]) = if e.name = n then some (e.attr "val") else elVal n es := by
  unfold elVal
  rw [lastEl_snoc]
  split <;> rfl

theorem elNum_snoc (n : String) (es : List El) (e : El) :
    elNum n (es ++ [e]) =
      if e.name = n then if e.attr "val" = "" then elNum n es else some (getInt (e.attr "val")).1
      else elNum n es := by
  unfold elNum
  by_cases h : e.name = n <;> by_cases h2 : e.attr "val" = "" <;>
    simp [h, h2, List.filter_append, List.filter_cons, number]

theorem leaf_readAs {σ : Type} {f : σ → String → String → σ × Option Err} {s : σ} {of : List Attr → σ}
    (h : AttrsAre f s of) (as : List Attr) : ReadAs (leaf f s as) fun _ => of as := by
  intro q kids rest stk _ he
  obtain ⟨h1, h2⟩ := leaf_value he
  rw [h1, h as h2]

/-! ## Runs -/

/-- One more element in `w:rPr` -/
def rprApp (s : RPr) (e : El) : RPr :=
  match e.name with
  | "rFonts" => { s with fonts := some (xmlFonts e.attrs) }
  | "b" => { s with bold := true }
  | "iCs" => { s with iCs := true }
  | "i" => { s with italic := true }
  | "u" => { s with underline := some (e.attr "val") }
  | "highlight" => { s with highlight := some (e.attr "val") }
  | "color" => { s with color := some (e.attr "val") }
  | "sz" => { s with size := some (e.attr "val") }
  | "spacing" => { s with spacing := some (xmlSpacing e.attrs) }
  | "szCs" => { s with sizeCs := some (e.attr "val") }
  | "rStyle" => { s with runStyle := some (e.attr "val") }
  | "pStyle" => { s with style := some (e.attr "val") }
  | "shd" => { s with shade := some (xmlShade e.attrs) }
  | "kern" => if e.attr "val" = "" then s else { s with kern := some (getInt (e.attr "val")).1 }
  | "vertAlign" => { s with vertAlign := some (e.attr "val") }
  | "strike" => { s with strike := some (e.attr "val") }
  | _ => s

theorem rprOf_snoc (es : List El) (e : El) : rprOf (es ++ [e]) = rprApp (rprOf es) e := by
  obtain ⟨n, as, ks⟩ := e
  unfold rprApp
  simp only
  split
  all_goals first
    | simp [rprOf, lastEl_snoc, hasEl_snoc, elVal_snoc, elNum_snoc]; done
    | (by_cases hv : (⟨"kern", as, ks⟩ : El).attr "val" = "" <;>
        simp [rprOf, lastEl_snoc, hasEl_snoc, elVal_snoc, elNum_snoc, hv]; done)
    | simp_all [rprOf, lastEl_snoc, hasEl_snoc, elVal_snoc, elNum_snoc]

theorem unRPr_readAs : ReadAs unRPr xmlRPr := by
  refine loop_readAs rprApp rprOpen rprOf rprOf_snoc ?_
  intro s q as kids ha hk
  unfold rprStep rprApp
  simp only [El.attr, firstAttr_eq]
  generalize hl : q.loc = l at ha
  split
  all_goals first
    | exact does_flat _ q kids
    | exact does_flatInt _ _ _ q kids
    | exact does_sub (unRunFonts_fine as runFontsAttr_fine_rFonts ha) (leaf_readAs fonts_attrs as) _ q hk
    | exact does_sub (unSpacing_fine as spacingAttr_fine_spacing ha) (leaf_readAs spacing_attrs as) _ q hk
    | exact does_sub (unShade_fine as shadeAttr_fine_shd ha) (leaf_readAs shade_attrs as) _ q hk
    | (have ho : rprOpen l = false := by simp_all [rprOpen]
       rw [ho]
       split
       all_goals first
         | exact does_skip _ q kids
         | (exfalso; simp_all; done))

/-! ## Paragraphs -/

theorem unTabs_readAs : ReadAs unTabs xmlTabs := by
  refine loop_readAs (fun s e => if e.name = "tab" then s ++ [xmlTab e.attrs] else s) (fun n => n != "tab")
    (fun es => (es.filter fun e => e.name == "tab").map fun e => xmlTab e.attrs) ?_ ?_
  · intro es e
    by_cases h : e.name = "tab" <;> simp [h, List.filter_append, List.filter_cons]
  · intro s q as kids ha hk
    unfold tabsStep
    generalize hl : q.loc = l at ha
    split
    · exact does_sub (unTab_fine as tabAttr_fine_tab ha) (leaf_readAs tab_attrs as) _ q hk
    · rename_i h
      have : (l != "tab") = true := by simpa using h
      simp only [if_neg h, this]
      exact does_flat _ q kids

/-- One more element in `w:pPr` -/
def pprApp (s : PPr) (e : El) : PPr :=
  match e.name with
  | "tabs" => { s with tabs := some (xmlTabs e.kids) }
  | "spacing" => { s with spacing := some (xmlSpacing e.attrs) }
  | "ind" => { s with ind := some (xmlInd e.attrs) }
  | "jc" => { s with jc := some (e.attr "val") }
  | "shd" => { s with shade := some (xmlShade e.attrs) }
  | "kern" => if e.attr "val" = "" then s else { s with kern := some (getInt (e.attr "val")).1 }
  | "rPr" => { s with rpr := some (xmlRPr e.kids) }
  | "pStyle" => { s with style := some (e.attr "val") }
  | "textAlignment" => { s with textAlignment := some (e.attr "val") }
  | "adjustRightInd" =>
    if e.attr "val" = "" then s else { s with adjustRightInd := some (getInt (e.attr "val")).1 }
  | "snapToGrid" => if e.attr "val" = "" then s else { s with snapToGrid := some (getInt (e.attr "val")).1 }
  | "kinsoku" => if e.attr "val" = "" then s else { s with kinsoku := some (getInt (e.attr "val")).1 }
  | "overflowPunct" =>
    if e.attr "val" = "" then s else { s with overflowPunct := some (getInt (e.attr "val")).1 }
  | _ => s

theorem pprOf_snoc (es : List El) (e : El) : pprOf (es ++ [e]) = pprApp (pprOf es) e := by
  obtain ⟨n, as, ks⟩ := e
  by_cases hv : firstAttr "val" as = "" <;>
  · unfold pprApp
    simp only
    split
    all_goals first
      | simp [pprOf, lastEl_snoc, elVal_snoc, elNum_snoc, El.attr, hv]; done
      | simp_all [pprOf, lastEl_snoc, elVal_snoc, elNum_snoc, El.attr]

theorem unPPr_readAs : ReadAs unPPr xmlPPr := by
  refine loop_readAs pprApp pprOpen pprOf pprOf_snoc ?_
  intro s q as kids ha hk
  unfold pprStep pprApp
  simp only [El.attr, firstAttr_eq]
  generalize hl : q.loc = l at ha
  split
  all_goals first
    | exact does_flat _ q kids
    | exact does_flatInt _ _ _ q kids
    | exact does_sub unTabs_fine unTabs_readAs _ q hk
    | exact does_sub unRPr_fine unRPr_readAs _ q hk
    | exact does_sub (unSpacing_fine as spacingAttr_fine_spacing ha) (leaf_readAs spacing_attrs as) _ q hk
    | exact does_sub (unInd_fine as indAttr_fine_ind ha) (leaf_readAs ind_attrs as) _ q hk
    | exact does_sub (unShade_fine as shadeAttr_fine_shd ha) (leaf_readAs shade_attrs as) _ q hk
    | (have ho : pprOpen l = false := by simp_all [pprOpen]
       rw [ho]
       split
       all_goals first
         | exact does_skip _ q kids
         | (exfalso; simp_all; done))

/-! ## Tables -/

/-- One more border -/
def bordersApp (s : Borders) (e : El) : Borders :=
  match e.name with
  | "top" => { s with top := some (xmlBorder e.attrs) }
  | "left" => { s with left := some (xmlBorder e.attrs) }
  | "bottom" => { s with bottom := some (xmlBorder e.attrs) }
  | "right" => { s with right := some (xmlBorder e.attrs) }
  | "insideH" => { s with insideH := some (xmlBorder e.attrs) }
  | "insideV" => { s with insideV := some (xmlBorder e.attrs) }
  | _ => s

theorem bordersOf_snoc (es : List El) (e : El) : bordersOf (es ++ [e]) = bordersApp (bordersOf es) e := by
  obtain ⟨n, as, ks⟩ := e
  unfold bordersApp
  simp only
  split
  all_goals first
    | simp [bordersOf, lastEl_snoc]; done
    | simp_all [bordersOf, lastEl_snoc]

theorem unBorders_readAs : ReadAs unBorders xmlBorders := by
  refine loop_readAs bordersApp (fun _ => false) bordersOf bordersOf_snoc ?_
  intro s q as kids ha hk
  unfold bordersStep bordersApp
  simp only
  generalize hl : q.loc = l at ha
  split
  all_goals first
    | exact does_sub (unBorder_fine as borderAttr_fine_top ha) (leaf_readAs border_attrs as) _ q hk
    | exact does_sub (unBorder_fine as borderAttr_fine_left ha) (leaf_readAs border_attrs as) _ q hk
    | exact does_sub (unBorder_fine as borderAttr_fine_bottom ha) (leaf_readAs border_attrs as) _ q hk
    | exact does_sub (unBorder_fine as borderAttr_fine_right ha) (leaf_readAs border_attrs as) _ q hk
    | exact does_sub (unBorder_fine as borderAttr_fine_insideH ha) (leaf_readAs border_attrs as) _ q hk
    | exact does_sub (unBorder_fine as borderAttr_fine_insideV ha) (leaf_readAs border_attrs as) _ q hk
    | (split
       all_goals first
         | exact does_skip _ q kids
         | (exfalso; simp_all; done))

/-- One more element in `w:tblPr` -/
def tblPrApp (s : TblPr) (e : El) : TblPr :=
  match e.name with
  | "tblpPr" => { s with position := some (xmlTblpPr e.attrs) }
  | "tblStyle" => { s with style := some (attrFull "val" e.attrs) }
  | "tblW" => { s with width := some (xmlWidth e.attrs) }
  | "jc" => { s with jc := some (e.attr "val") }
  | "tblLook" => { s with look := some (xmlLook e.attrs) }
  | "tblBorders" => { s with borders := some (xmlBorders e.kids) }
  | _ => s

theorem tblPrOf_snoc (es : List El) (e : El) : tblPrOf (es ++ [e]) = tblPrApp (tblPrOf es) e := by
  obtain ⟨n, as, ks⟩ := e
  unfold tblPrApp
  simp only
  split
  all_goals first
    | simp [tblPrOf, lastEl_snoc, elVal_snoc]; done
    | simp_all [tblPrOf, lastEl_snoc, elVal_snoc]

theorem unTblPr_readAs : ReadAs unTblPr xmlTblPr := by
  refine loop_readAs tblPrApp (fun _ => false) tblPrOf tblPrOf_snoc ?_
  intro s q as kids ha hk
  unfold tblPrStep tblPrApp
  simp only [El.attr, firstAttr_eq]
  generalize hl : q.loc = l at ha
  split
  all_goals first
    | exact does_sub (unTblpPr_fine as tblpPrAttr_fine_tblpPr ha) (leaf_readAs tblpPr_attrs as) _ q hk
    | exact does_sub (unTblStyle_fine as tblStyleAttr_fine_tblStyle ha) (leaf_readAs tblStyle_attrs as) _ q hk
    | exact does_sub (unTblW_fine as widthAttr_fine_tblW ha) (leaf_readAs width_attrs as) _ q hk
    | exact does_sub (unTblLook_fine as lookAttr_fine_tblLook ha) (leaf_readAs look_attrs as) _ q hk
    | exact does_sub unBorders_fine unBorders_readAs _ q hk
    | exact does_skip _ q kids
    | (split
       all_goals first
         | exact does_skip _ q kids
         | (exfalso; simp_all; done))

theorem unGrid_readAs : ReadAs unGrid xmlGrid := by
  refine loop_readAs (fun s e => if e.name = "gridCol" then s ++ [some (numFull "w" e.attrs)] else s)
    (fun _ => false)
    (fun es => (es.filter fun e => e.name == "gridCol").map fun e => some (numFull "w" e.attrs)) ?_ ?_
  · intro es e
    by_cases h : e.name = "gridCol" <;> simp [h, List.filter_append, List.filter_cons]
  · intro s q as kids ha hk
    unfold gridStep
    generalize hl : q.loc = l at ha
    split
    · exact does_sub (unGridCol_fine as gridColAttr_fine_gridCol ha) (leaf_readAs gridCol_attrs as) _ q hk
    · rename_i h
      simp only [if_neg h]
      exact does_skip _ q kids

/-- One more element in `w:trPr` -/
def trPrApp (s : TrPr) (e : El) : TrPr :=
  match e.name with
  | "trHeight" => { s with height := some (xmlHeight e.attrs) }
  | "jc" => { s with jc := some (e.attr "val") }
  | _ => s

theorem trPrOf_snoc (es : List El) (e : El) : trPrOf (es ++ [e]) = trPrApp (trPrOf es) e := by
  obtain ⟨n, as, ks⟩ := e
  unfold trPrApp
  simp only
  split
  all_goals first
    | simp [trPrOf, lastEl_snoc, elVal_snoc]; done
    | simp_all [trPrOf, lastEl_snoc, elVal_snoc]

theorem unTrPr_readAs : ReadAs unTrPr xmlTrPr := by
  refine loop_readAs trPrApp (fun _ => false) trPrOf trPrOf_snoc ?_
  intro s q as kids ha hk
  unfold trPrStep trPrApp
  simp only [El.attr, firstAttr_eq]
  generalize hl : q.loc = l at ha
  by_cases h1 : l = "trHeight"
  · subst h1
    simp only
    have hh := height_attrs as
    rcases hat : attrs heightAttr {} as with ⟨v, _ | e⟩
    · rw [hat] at hh
      simp only at hh ⊢
      rw [hh trivial]
      exact does_skip _ q kids
    · intro c rest stk _ he
      cases he
  · by_cases h2 : l = "jc"
    · subst h2
      exact does_skip _ q kids
    · split
      · exact absurd rfl h1
      · exact absurd rfl h2
      · split
        · exact absurd rfl h1
        · exact absurd rfl h2
        · exact does_skip _ q kids

/-- One more element in `w:tcPr` -/
def tcPrApp (s : TcPr) (e : El) : TcPr :=
  match e.name with
  | "tcW" => if e.attr "w" = "" then { s with width := some {} }
    else { s with width := some ⟨(getInt (e.attr "w")).1, e.attr "type"⟩ }
  | "vMerge" => { s with vMerge := some (e.attr "val") }
  | "gridSpan" => if e.attr "val" = "" then { s with gridSpan := some 0 }
    else { s with gridSpan := some (getInt (e.attr "val")).1 }
  | "vAlign" => { s with vAlign := some (e.attr "val") }
  | "tcBorders" => { s with borders := some (xmlBorders e.kids) }
  | "shd" => { s with shade := some (xmlShade e.attrs) }
  | _ => s

theorem tcPrOf_snoc (es : List El) (e : El) : tcPrOf (es ++ [e]) = tcPrApp (tcPrOf es) e := by
  obtain ⟨n, as, ks⟩ := e
  by_cases hv : firstAttr "val" as = "" <;> by_cases hw : firstAttr "w" as = "" <;>
  · unfold tcPrApp
    simp only
    split
    all_goals first
      | simp [tcPrOf, lastEl_snoc, elVal_snoc, El.attr, hv, hw, number]; done
      | simp_all [tcPrOf, lastEl_snoc, elVal_snoc, El.attr, number]

theorem unTcPr_readAs : ReadAs unTcPr xmlTcPr := by
  refine loop_readAs tcPrApp tcPrOpen tcPrOf tcPrOf_snoc ?_
  intro s q as kids ha hk
  unfold tcPrStep tcPrApp
  simp only [El.attr, firstAttr_eq]
  generalize hl : q.loc = l at ha
  split
  all_goals first
    | exact does_flat _ q kids
    | exact does_flatInt _ _ _ q kids
    | exact does_sub unBorders_fine unBorders_readAs _ q hk
    | exact does_sub (unShade_fine as shadeAttr_fine_shd ha) (leaf_readAs shade_attrs as) _ q hk
    | (have ho : tcPrOpen l = false := by simp_all [tcPrOpen]
       rw [ho]
       split
       all_goals first
         | exact does_skip _ q kids
         | (exfalso; simp_all; done))

/-! ## Sections -/

/-- One more element in `w:sectPr` -/
def sectApp (s : SectPr) (e : El) : SectPr :=
  match e.name with
  | "pgSz" => { s with pgSz := some (xmlPgSz e.attrs) }
  | "pgMar" => { s with pgMar := some (xmlPgMar e.attrs) }
  | "cols" => { s with cols := some (numAttr "space" e.attrs) }
  | "docGrid" => { s with docGrid := some (xmlDocGrid e.attrs) }
  | _ => s

theorem sectOf_snoc (es : List El) (e : El) : sectOf (es ++ [e]) = sectApp (sectOf es) e := by
  obtain ⟨n, as, ks⟩ := e
  unfold sectApp
  simp only
  split
  all_goals first
    | simp [sectOf, lastEl_snoc]; done
    | simp_all [sectOf, lastEl_snoc]

theorem unSect_readAs : ReadAs unSect xmlSect := by
  refine loop_readAs sectApp (fun _ => false) sectOf sectOf_snoc ?_
  intro s q as kids ha hk
  unfold sectStep sectApp
  simp only
  generalize hl : q.loc = l at ha
  split
  all_goals first
    | exact does_sub (unPgSz_fine as pgSzAttr_fine_pgSz ha) (leaf_readAs pgSz_attrs as) _ q hk
    | exact does_sub (unPgMar_fine as pgMarAttr_fine_pgMar ha) (leaf_readAs pgMar_attrs as) _ q hk
    | exact does_sub (unCols_fine as colsAttr_fine_cols ha) (leaf_readAs cols_attrs as) _ q hk
    | exact does_sub (unDocGrid_fine as docGridAttr_fine_docGrid ha) (leaf_readAs docGrid_attrs as) _ q hk
    | (split
       all_goals first
         | exact does_skip _ q kids
         | (exfalso; simp_all; done))

end Docx
