import Verif.Lemmas.XmlContent
import Verif.SpecDrawing

/-!
# What is read of the parts of drawings
-/

namespace Docx

set_option linter.unusedSectionVars false

variable [GoEnv]

/-! ## Attributes -/

/-- Each attribute is added as `of` says. -/
def AttrsOn {σ : Type} (f : σ → String → String → σ × Option Err) (of : List Attr → σ) : Prop :=
  ∀ as a, of (as ++ [a]) = (f (of as) a.name.loc a.val).1

theorem attrs_on {σ : Type} {f : σ → String → String → σ × Option Err} {of : List Attr → σ}
    (h : AttrsOn f of) (pre as : List Attr) (he : (attrs f (of pre) as).2 = none) :
    (attrs f (of pre) as).1 = of (pre ++ as) := by
  rw [(attrs_fold as _ he).1]
  clear he
  induction as generalizing pre with
  | nil => simp
  | cons a as ih =>
    rw [List.foldl_cons, ← h, ih]
    simp

theorem attrsOn_are {σ : Type} {f : σ → String → String → σ × Option Err} {of : List Attr → σ}
    (h : AttrsOn f of) : AttrsAre f (of []) of := fun as he => by
  rw [attrs_on h [] as he, List.nil_append]

theorem ext_on : AttrsOn extAttr xmlExt := by
  intro as a
  unfold extAttr intAttr
  generalize hl : a.name.loc = l
  split <;> simp_all [xmlExt, numAttr_snoc]

theorem off_on : AttrsOn offAttr xmlOff := by
  intro as a
  unfold offAttr intAttr
  generalize hl : a.name.loc = l
  split <;> simp_all [xmlOff, numAttr_snoc]

theorem eff_on : AttrsOn effAttr xmlEffect := by
  intro as a
  unfold effAttr intAttr
  generalize hl : a.name.loc = l
  split <;> simp_all [xmlEffect, numAttr_snoc]

theorem idName_on : AttrsOn idNameAttr xmlIdName := by
  intro as a
  unfold idNameAttr intAttr
  generalize hl : a.name.loc = l
  split <;> simp_all [xmlIdName, numAttr_snoc, attrLast_snoc]

theorem tile_on : AttrsOn tileAttr xmlTile := by
  intro as a
  unfold tileAttr intAttr
  generalize hl : a.name.loc = l
  split <;> simp_all [xmlTile, numAttr_snoc, attrLast_snoc]

theorem lineEnd_on : AttrsOn lineEndAttr xmlLineEnd := by
  intro as a
  unfold lineEndAttr
  generalize hl : a.name.loc = l
  split <;> simp_all [xmlLineEnd, attrLast_snoc]

theorem spLocks_on : AttrsOn spLocksAttr (numAttr "noChangeArrowheads") := by
  intro as a
  unfold spLocksAttr intAttr
  generalize hl : a.name.loc = l
  split <;> simp_all [numAttr_snoc]

/-! ## Loops -/

/-- `u` reads an element with these children as `of` says. -/
def ReadsB {α : Type} (u : Dec → Out α) (of : List Node → α) : Prop := ReadsA u fun kids v => v = of kids

theorem readAs_B {α : Type} {u : Dec → Out α} {of : List Node → α} (h : ReadAs u of) : ReadsB u of :=
  readAs_readsA h

theorem leaf_B {σ : Type} {f : σ → String → String → σ × Option Err} {of : List Attr → σ}
    (h : AttrsOn f of) (as : List Attr) : ReadsB (leaf f (of []) as) fun _ => of as :=
  readAs_B (leaf_readAs (attrsOn_are h) as)

theorem loop_elsB {σ : Type} {step : σ → String → List Attr → Dec → Out σ} (of : List El → σ)
    (o : String → Bool)
    (hs : ∀ es q as kids, attrsOk q.loc as → numsOkL kids → altsOkL kids →
      Does (step (of es) q.loc as) (of (es ++ [⟨q.loc, as, kids⟩])) (o q.loc) q kids) :
    ∀ (f : Nat) (es : List El) (c : Ctx) (rest : List Tok) (stk : List StkEntry), OkCtx c → AltCtx c →
    (loopN step (fun s _ => s) f (of es) (inCtx c rest stk)).err = none →
    (loopN step (fun s _ => s) f (of es) (inCtx c rest stk)).val = of (es ++ ctxEls o c) := by
  intro f
  induction f with
  | zero => intro es c rest stk _ _ h; cases h
  | succ f ih =>
    intro es c rest stk ho hal h
    rw [loopN] at h ⊢
    match c, ho, hal, h with
    | [], _, _, h => rw [tokC_nil]; simp [ctxEls]
    | ([], q) :: c, ho, hal, h =>
      rw [tokC_stop] at h ⊢
      simp only at h ⊢
      rw [ih _ _ _ _ ho.tail hal.tail h]
      simp [ctxEls, elsL]
    | (.text t :: ks, q) :: c, ho, hal, h =>
      rw [tokC_text] at h ⊢
      simp only at h ⊢
      rw [ih _ _ _ _ (.cons ho.head.2 ho.tail) (.cons hal.head.2 hal.tail) h]
      simp [ctxEls, elsL, els]
    | (.other :: ks, q) :: c, ho, hal, h =>
      rw [tokC_other] at h ⊢
      simp only at h ⊢
      rw [ih _ _ _ _ (.cons ho.head.2 ho.tail) (.cons hal.head.2 hal.tail) h]
      simp [ctxEls, elsL, els]
    | (.elem p as kids :: ks, q) :: c, ho, hal, h =>
      rw [tokC_elem] at h ⊢
      simp only at h ⊢
      have hn := ho.head
      have hm := hal.head
      simp only [numsOkL, numsOk] at hn
      simp only [altsOkL, altsOk] at hm
      have hd := hs es p as kids hn.1.1 hn.1.2 hm.1.2 ((ks, q) :: c) rest stk (.cons hn.2 ho.tail)
      generalize step (of es) p.loc as (inCtx ((kids, p) :: (ks, q) :: c) rest stk) = r at h hd
      rcases r with ⟨v, _ | e, d⟩
      · obtain ⟨h1, h2⟩ := hd rfl
        simp only at h1 h2 h ⊢
        subst h1
        subst h2
        cases hp : o p.loc with
        | true =>
          rw [hp, if_pos rfl] at h
          rw [if_pos rfl, ih _ _ _ _ (.cons hn.1.2 (.cons hn.2 ho.tail))
            (.cons hm.1.2 (.cons hm.2 hal.tail)) h]
          simp [ctxEls, elsL, els, hp]
        | false =>
          rw [hp] at h
          simp only [Bool.false_eq_true, if_false] at h ⊢
          rw [ih _ _ _ _ (.cons hn.2 ho.tail) (.cons hm.2 hal.tail) h]
          simp [ctxEls, elsL, els, hp]
      · cases h

theorem loop_B {σ : Type} {step : σ → String → List Attr → Dec → Out σ} (of : List El → σ)
    (o : String → Bool)
    (hs : ∀ es q as kids, attrsOk q.loc as → numsOkL kids → altsOkL kids →
      Does (step (of es) q.loc as) (of (es ++ [⟨q.loc, as, kids⟩])) (o q.loc) q kids) (es : List El) :
    ReadsB (loop step (of es)) fun kids => of (es ++ elsL o kids) := by
  intro q kids rest stk hk ha he
  unfold loop loopC at he ⊢
  rw [loop_elsB of o hs _ _ _ _ _ (.cons hk .nil) (.cons ha (by intro y hy; cases hy)) he]
  simp [ctxEls]

theorem withAttrs_B {σ : Type} {f : σ → String → String → σ × Option Err}
    {step : σ → String → List Attr → Dec → Out σ} (of : List Attr → List El → σ)
    (o : String → Bool) (ha : ∀ es, AttrsOn f fun as => of as es)
    (hs : ∀ A es q as kids, attrsOk q.loc as → numsOkL kids → altsOkL kids →
      Does (step (of A es) q.loc as) (of A (es ++ [⟨q.loc, as, kids⟩])) (o q.loc) q kids)
    (A : List Attr) (es : List El) (as : List Attr) :
    ReadsB (withAttrs f (loop step) (of A es) as) fun kids => of (A ++ as) (es ++ elsL o kids) := by
  intro q kids rest stk hk hal he
  unfold withAttrs at he ⊢
  have h1 : (attrs f (of A es) as).2 = none → (attrs f (of A es) as).1 = of (A ++ as) es :=
    attrs_on (ha es) A as
  rcases hx : attrs f (of A es) as with ⟨s', _ | e⟩
  · rw [hx] at he h1
    have h1 := h1 rfl
    simp only at h1 he ⊢
    subst h1
    exact loop_B (of (A ++ as)) o (hs (A ++ as)) es q kids rest stk hk hal he
  · rw [hx] at he
    cases he

/-! ## Cases -/

theorem does_flat' {σ : Type} {s t : σ} {q : QName} {kids : List Node} (h : t = s) :
    Does (flat s) t true q kids := by subst h; exact does_flat t q kids

theorem does_skip' {σ : Type} {s t : σ} {o : Bool} {q : QName} {kids : List Node} (h : t = s)
    (ho : o = false) : Does (skipTo s) t o q kids := by subst h ho; exact does_skip t q kids

theorem does_sub' {α σ : Type} {u : Dec → Out α} {of : List Node → α} (hu : F u) (hr : ReadsB u of)
    {k : α → σ} {t : σ} {q : QName} {kids : List Node} (hk : numsOkL kids) (ha : altsOkL kids)
    (h : t = k (of kids)) : Does (sub u k) t false q kids := by
  intro c rest stk _ he
  obtain ⟨h1, h2⟩ := doesA_sub (out := id) (t := t) (f := k) hu hr hk ha
    (fun v hv => by rw [hv]; exact h.symm) c rest stk he
  refine ⟨h1, ?_⟩
  rw [h2]
  simp

theorem does_flatInt' {σ : Type} {s t : σ} {v : String} {k : Int64 → σ} {q : QName} {kids : List Node}
    (h : t = if v = "" then s else k (number v)) : Does (flatInt s v k) t true q kids := by
  subst h; exact does_flatInt s v k q kids

theorem does_flatIntSt' {σ : Type} {s t : σ} {v : String} {k : Int64 → σ} {q : QName} {kids : List Node}
    (h : t = if v = "" then s else k (number v)) : Does (flatIntSt s v k) t true q kids := by
  subst h
  intro c rest stk _ _
  unfold flatIntSt
  by_cases hv : v = ""
  · rw [if_pos hv, if_pos hv]; exact ⟨rfl, rfl⟩
  · rw [if_neg hv, if_neg hv]; exact ⟨rfl, rfl⟩

theorem does_flatAttrs' {α σ : Type} {f : α → String → String → α × Option Err} {of : List Attr → α}
    (hf : AttrsOn f of) {pre as : List Attr} {k : α → σ} {t : σ} {q : QName} {kids : List Node}
    (h : t = k (of (pre ++ as))) : Does (flatAttrs f (of pre) as k) t true q kids := by
  subst h
  intro c rest stk _ he
  simp only [flatAttrs] at he ⊢
  rw [attrs_on hf _ _ he]
  exact ⟨rfl, rfl⟩

theorem does_flatAttrsV' {α σ : Type} {f : α → String → String → α × Option Err} {of : List Attr → α}
    (hf : AttrsOn f of) {pre as : List Attr} {s : σ} {k : α → σ} {t : σ} {q : QName} {kids : List Node}
    (h : t = k (of (pre ++ as))) : Does (flatAttrsV s f (of pre) as k) t true q kids := by
  subst h
  intro c rest stk _ he
  have h1 := attrs_on hf pre as
  unfold flatAttrsV at he ⊢
  rcases hx : attrs f (of pre) as with ⟨v, _ | e⟩
  · rw [hx] at h1
    rw [← h1 rfl]
    exact ⟨rfl, rfl⟩
  · rw [hx] at he
    cases he

/-! ## Adding an element -/

theorem attrsAll_snoc (n : String) (es : List El) (e : El) :
    attrsAll n (es ++ [e]) = attrsAll n es ++ if e.name = n then e.attrs else [] := by
  unfold attrsAll
  by_cases h : e.name = n <;> simp [h, List.filter_append]

theorem kidsAll_snoc (n : String) (es : List El) (e : El) :
    kidsAll n (es ++ [e]) = kidsAll n es ++ if e.name = n then e.kids else [] := by
  unfold kidsAll
  by_cases h : e.name = n <;> simp [h, List.filter_append]

theorem elAttr_snoc (n a : String) (es : List El) (e : El) :
    elAttr n a (es ++ [e]) = if e.name = n then firstAttr a e.attrs else elAttr n a es := by
  unfold elAttr
  rw [lastEl_snoc]
  by_cases h : e.name = n <;> simp [h, El.attr]

theorem elNumAttr_snoc (n a : String) (es : List El) (e : El) :
    elNumAttr n a (es ++ [e]) = if e.name = n ∧ firstAttr a e.attrs ≠ "" then
      some (number (firstAttr a e.attrs)) else elNumAttr n a es := by
  unfold elNumAttr
  by_cases h : e.name = n <;> by_cases h2 : firstAttr a e.attrs = "" <;>
    simp [h, h2, El.attr, List.filter_append]

theorem named_snoc (n : String) (es : List El) (e : El) :
    elsNamed n (es ++ [e]) = elsNamed n es ++ if e.name = n then [e] else [] := by
  unfold elsNamed
  by_cases h : e.name = n <;> simp [h, List.filter_append]

theorem elsL_snoc (o : String → Bool) (a b : List Node) : elsL o (a ++ b) = elsL o a ++ elsL o b := by
  induction a with
  | nil => rfl
  | cons n a ih => rw [List.cons_append, elsL, elsL, ih, List.append_assoc]

macro "snocs" "[" xs:Lean.Parser.Tactic.simpLemma,* "]" : tactic =>
  `(tactic| simp_all [lastEl_snoc, hasEl_snoc, elVal_snoc, attrsAll_snoc, kidsAll_snoc, elAttr_snoc,
    elNumAttr_snoc, named_snoc, elsL_snoc, children, El.attr, List.flatMap_append, ← firstAttr_eq, $xs,*])

/-! ## Parts of pictures -/

theorem unFramePr_B : ReadsB unFramePr xmlFramePr := by
  refine loop_B (fun es => (⟨elAttr "graphicFrameLocks" "a" es,
    (elNumAttr "graphicFrameLocks" "noChangeAspect" es).getD 0⟩ : FrameLocks)) (fun n => n == "graphicFrameLocks") ?_ []
  intro es q as kids ha hk hal
  unfold frameStep
  generalize hl : q.loc = l at ha ⊢
  split
  · refine does_flatIntSt' ?_
    split <;> snocs []
  · refine does_skip' ?_ ?_ <;> snocs []

theorem unCNvPicPr_B (ks : List Node) :
    ReadsB (unCNvPicPr (elNumAttr "picLocks" "noChangeAspect" (elsL (fun n => n == "picLocks") ks)))
      fun kids => elNumAttr "picLocks" "noChangeAspect" (elsL (fun n => n == "picLocks") (ks ++ kids)) := by
  simp only [elsL_snoc]
  refine loop_B (elNumAttr "picLocks" "noChangeAspect") (fun n => n == "picLocks") ?_ _
  intro es q as kids ha hk hal
  unfold picLocksStep
  generalize hl : q.loc = l at ha ⊢
  split
  · refine does_flatInt' ?_
    split <;> snocs []
  · refine does_skip' ?_ ?_ <;> snocs []

theorem unNvPicPr_B : ReadsB unNvPicPr xmlNvPicPr := by
  refine loop_B nvPicPrOf (fun n => n == "cNvPr") ?_ []
  intro es q as kids ha hk hal
  unfold nvPicPrStep
  generalize hl : q.loc = l at ha ⊢
  split
  · by_cases hid : getAtt as "id" = ""
    · rw [if_pos hid]
      refine does_flat' ?_
      simp_all [nvPicPrOf, kidsAll_snoc, List.filter_append, El.attr, firstAttr_eq]
    · rw [if_neg hid]
      intro c rest stk _ he
      rcases hg : getInt (getAtt as "id") with ⟨n, _ | e⟩
      · refine ⟨?_, rfl⟩
        simp_all [nvPicPrOf, kidsAll_snoc, List.filter_append, El.attr, firstAttr_eq,
          number, flat]
      · rw [hg] at he
        cases he
  · refine does_sub' (unCNvPicPr_fine _) (unCNvPicPr_B (kidsAll "cNvPicPr" es)) hk hal ?_
    simp_all [nvPicPrOf, kidsAll_snoc, List.filter_append]
  · refine does_skip' ?_ ?_ <;> simp_all [nvPicPrOf, kidsAll_snoc, List.filter_append]

theorem blip_on (es : List El) : AttrsOn blipAttr fun as => blipOf as es := by
  intro as a
  unfold blipAttr
  generalize hl : a.name.loc = l
  split <;> simp_all [blipOf, attrLast_snoc]

theorem unBlip_B (A : List Attr) (ks : List Node) (as : List Attr) :
    ReadsB (unBlip (xmlBlip A ks) as) fun kids => xmlBlip (A ++ as) (ks ++ kids) := by
  unfold xmlBlip
  simp only [elsL_snoc]
  refine withAttrs_B blipOf (fun n => n == "alphaModFix") blip_on ?_ _ _ _
  intro A es q as kids ha hk hal
  unfold blipStep
  generalize hl : q.loc = l at ha ⊢
  split
  · refine does_flatInt' ?_
    split <;> snocs [blipOf]
  · refine does_skip' ?_ ?_ <;> snocs [blipOf]

theorem unStretch_B (ks : List Node) :
    ReadsB (unStretch (hasEl "fillRect" (children ks))) fun kids =>
      hasEl "fillRect" (children (ks ++ kids)) := by
  unfold children
  simp only [elsL_snoc]
  refine loop_B (hasEl "fillRect") (fun _ => false) ?_ _
  intro es q as kids ha hk hal
  unfold stretchStep
  generalize hl : q.loc = l at ha ⊢
  split <;> refine does_skip' ?_ ?_ <;> snocs []

theorem unPicFill_B : ReadsB unPicFill fun kids => picFillOf (children kids) := by
  refine loop_B picFillOf (fun _ => false) ?_ []
  intro es q as kids ha hk hal
  unfold picFillStep
  generalize hl : q.loc = l at ha ⊢
  split
  · refine does_sub' (unBlip_fine _ _ blipAttr_fine_blip ha) (unBlip_B (attrsAll "blip" es) (kidsAll "blip" es) as) hk hal ?_
    snocs [picFillOf]
  · refine does_sub' (unStretch_fine _) (unStretch_B (kidsAll "stretch" es)) hk hal ?_
    snocs [picFillOf]
  · refine does_skip' ?_ ?_ <;> snocs [picFillOf]

theorem xfrm_on (es : List El) : AttrsOn xfrmAttr fun as => xfrmOf as es := by
  intro as a
  unfold xfrmAttr intAttr
  generalize hl : a.name.loc = l
  split <;> simp_all [xfrmOf, numAttr_snoc]

theorem unXfrm_B (A : List Attr) (ks : List Node) (as : List Attr) :
    ReadsB (unXfrm (xmlXfrm A ks) as) fun kids => xmlXfrm (A ++ as) (ks ++ kids) := by
  unfold xmlXfrm
  simp only [elsL_snoc]
  refine withAttrs_B xfrmOf xfrmOpen xfrm_on ?_ _ _ _
  intro A es q as kids ha hk hal
  unfold xfrmStep
  generalize hl : q.loc = l at ha ⊢
  split
  · exact does_flatAttrs' off_on (pre := attrsAll "off" es) (by snocs [xfrmOf])
  · exact does_flatAttrs' ext_on (pre := attrsAll "ext" es) (by snocs [xfrmOf])
  · exact does_flatAttrsV' off_on (pre := []) (by snocs [xfrmOf])
  · exact does_flatAttrsV' ext_on (pre := []) (by snocs [xfrmOf])
  · refine does_skip' ?_ ?_ <;> snocs [xfrmOf, xfrmOpen]

theorem prst_on (es : List El) : AttrsOn prstAttr fun as => prstGeomOf as es := by
  intro as a
  unfold prstAttr
  generalize hl : a.name.loc = l
  split <;> simp_all [prstGeomOf, attrLast_snoc]

theorem unPrstGeom_B (as : List Attr) : ReadsB (unPrstGeom as) fun kids => prstGeomOf as (children kids) := by
  refine withAttrs_B prstGeomOf (fun _ => false) prst_on ?_ [] [] as
  intro A es q as kids ha hk hal
  unfold prstStep
  generalize hl : q.loc = l at ha ⊢
  split <;> refine does_skip' ?_ ?_ <;> snocs [prstGeomOf]

theorem unPicSpPr_B : ReadsB unPicSpPr fun kids => picSpPrOf (children kids) := by
  refine loop_B picSpPrOf (fun _ => false) ?_ []
  intro es q as kids ha hk hal
  unfold picSpPrStep
  generalize hl : q.loc = l at ha ⊢
  split
  · refine does_sub' (unXfrm_fine _ _ xfrmAttr_fine_xfrm ha) (unXfrm_B (attrsAll "xfrm" es) (kidsAll "xfrm" es) as) hk hal ?_
    snocs [picSpPrOf]
  · refine does_sub' (unPrstGeom_fine _ prstAttr_fine_prstGeom ha) (unPrstGeom_B as) hk hal ?_
    snocs [picSpPrOf]
  · refine does_skip' ?_ ?_ <;> snocs [picSpPrOf]

theorem unPic_B : ReadsB unPic fun kids => picOf (children kids) := by
  refine loop_B picOf (fun _ => false) ?_ []
  intro es q as kids ha hk hal
  unfold picStep
  generalize hl : q.loc = l at ha ⊢
  split
  · exact does_sub' unNvPicPr_fine unNvPicPr_B hk hal (by snocs [picOf])
  · exact does_sub' unPicFill_fine unPicFill_B hk hal (by snocs [picOf])
  · exact does_sub' unPicSpPr_fine unPicSpPr_B hk hal (by snocs [picOf])
  · refine does_skip' ?_ ?_ <;> snocs [picOf]

theorem reflInt_value (old : Int64) (kids : List Node) (q : QName) (c : Ctx) (rest : List Tok)
    (stk : List StkEntry) (he : (reflInt old (inCtx ((kids, q) :: c) rest stk)).err = none) :
    reflInt old (inCtx ((kids, q) :: c) rest stk) = ⟨textNumber kids, none, inCtx c rest stk⟩ := by
  have ht := reflTextN_value kids ((inCtx ((kids, q) :: c) rest stk).rest.length + 1) "" q
    (ctxToks c ++ rest) (ctxStk c ++ .mark :: stk) (by rw [inCtx_cons]; simp; omega)
  have hr : reflTextN ((inCtx ((kids, q) :: c) rest stk).rest.length + 1) ""
      (inCtx ((kids, q) :: c) rest stk) = ⟨ownText kids, none, inCtx c rest stk⟩ := by
    rw [show inCtx ((kids, q) :: c) rest stk = _ from inCtx_cons kids q c rest stk] at ht ⊢
    rw [ht]
    simp [inCtx]
  unfold reflInt at he ⊢
  rw [hr] at he ⊢
  simp only at he ⊢
  unfold textNumber
  by_cases h0 : ownText kids = ""
  · rw [if_pos h0, h0]
    rfl
  · rw [if_neg h0] at he ⊢
    generalize atoi? (String.ofList (trimSpace (ownText kids).toList)) = x at he ⊢
    cases x with
    | some n => rfl
    | none => cases he

theorem unPosition_B (as : List Attr) : ReadsB (unPosition as) fun kids => positionOf as (children kids) := by
  have h0 : ({ relativeFrom := getAtt as "relativeFrom" } : Position) = positionOf as [] := by
    simp [positionOf, firstAttr_eq, lastEl]
  unfold unPosition
  rw [h0]
  refine loop_B (positionOf as) (fun _ => false) ?_ []
  intro es q as' kids ha hk hal
  generalize hl : q.loc = l at ha ⊢
  by_cases h : l = "posOffset"
  · subst h
    intro c rest stk _ he
    have h1 : (reflInt (positionOf as es).posOffset (inCtx ((kids, q) :: c) rest stk)).err = none := by
      refine tolerate_ok ?_ he
      exact (reflInt_fine _ _ _ _ (.cons hk (by assumption))).2
    unfold posStep
    rw [reflInt_value _ _ _ _ _ _ h1]
    refine ⟨?_, rfl⟩
    simp [positionOf, lastEl_snoc]
  · have : posStep (positionOf as es) l as' = skipTo (positionOf as es) := by
      funext d
      unfold posStep
      split
      · exact absurd rfl h
      · rfl
    rw [this]
    refine does_skip' ?_ rfl
    simp [positionOf, lastEl_snoc, h]

/-! ## Parts of shapes -/

theorem aBlipFill_on (es : List El) : AttrsOn aBlipFillAttr fun as => aBlipFillOf as es := by
  intro as a
  unfold aBlipFillAttr intAttr
  generalize hl : a.name.loc = l
  split <;> simp_all [aBlipFillOf, numAttr_snoc]

theorem unABlipFill_B (as : List Attr) : ReadsB (unABlipFill as) fun kids => xmlABlipFill as kids := by
  refine withAttrs_B aBlipFillOf (fun n => n == "srcRect") aBlipFill_on ?_ [] [] as
  intro A es q as kids ha hk hal
  unfold aBlipFillStep
  generalize hl : q.loc = l at ha ⊢
  split
  · exact does_sub' (unBlip_fine _ _ blipAttr_fine_blip ha) (unBlip_B [] [] as) hk hal (by snocs [aBlipFillOf])
  · exact does_flat' (by snocs [aBlipFillOf])
  · exact does_sub' (unTile_fine _ tileAttr_fine_tile ha) (leaf_B tile_on as) hk hal (by snocs [aBlipFillOf])
  · refine does_skip' ?_ ?_ <;> snocs [aBlipFillOf]

theorem unSolidFill_B : ReadsB unSolidFill xmlSolidFill := by
  refine loop_B (elVal "srgbClr") (fun _ => false) ?_ []
  intro es q as kids ha hk hal
  unfold solidFillStep
  generalize hl : q.loc = l at ha ⊢
  split <;> refine does_skip' ?_ ?_ <;> snocs []

theorem line_on (es : List El) : AttrsOn lineAttr fun as => lineOf as es := by
  intro as a
  unfold lineAttr intAttr
  generalize hl : a.name.loc = l
  split <;> simp_all [lineOf, numAttr_snoc, attrLast_snoc]

theorem unLine_B (as : List Attr) : ReadsB (unLine as) fun kids => xmlLine as kids := by
  refine withAttrs_B lineOf lineOpen line_on ?_ [] [] as
  intro A es q as kids ha hk hal
  unfold lineStep
  generalize hl : q.loc = l at ha ⊢
  split
  · exact does_flat' (by snocs [lineOf])
  · exact does_sub' unSolidFill_fine unSolidFill_B hk hal (by snocs [lineOf])
  · exact does_flat' (by snocs [lineOf])
  · exact does_flat' (by snocs [lineOf])
  · exact does_flat' (by snocs [lineOf])
  · exact does_sub' (unLineEnd_fine _ lineEndAttr_fine_headEnd ha) (leaf_B lineEnd_on as) hk hal (by snocs [lineOf])
  · exact does_sub' (unLineEnd_fine _ lineEndAttr_fine_tailEnd ha) (leaf_B lineEnd_on as) hk hal (by snocs [lineOf])
  · refine does_skip' ?_ ?_ <;> snocs [lineOf, lineOpen]

theorem shapePr_on (es : List El) : AttrsOn shapePrAttr fun as => shapePrOf as es := by
  intro as a
  unfold shapePrAttr
  generalize hl : a.name.loc = l
  split <;> simp_all [shapePrOf, attrLast_snoc]

theorem unShapePr_B (as : List Attr) : ReadsB (unShapePr as) fun kids => xmlShapePr as kids := by
  refine withAttrs_B shapePrOf shapePrOpen shapePr_on ?_ [] [] as
  intro A es q as kids ha hk hal
  unfold shapePrStep
  generalize hl : q.loc = l at ha ⊢
  split
  · refine does_sub' (unXfrm_fine _ _ xfrmAttr_fine_xfrm ha) (unXfrm_B (attrsAll "xfrm" es) (kidsAll "xfrm" es) as) hk hal ?_
    snocs [shapePrOf]
  · exact does_flat' (by snocs [shapePrOf])
  · exact does_sub' unSolidFill_fine unSolidFill_B hk hal (by snocs [shapePrOf])
  · exact does_sub' (unABlipFill_fine _ aBlipFillAttr_fine_blipFill ha) (unABlipFill_B as) hk hal (by snocs [shapePrOf])
  · exact does_flat' (by snocs [shapePrOf])
  · exact does_sub' (unLine_fine _ lineAttr_fine_ln ha) (unLine_B as) hk hal (by snocs [shapePrOf])
  · refine does_skip' ?_ ?_ <;> snocs [shapePrOf, shapePrOpen]

theorem unCNvCnPr_B : ReadsB unCNvCnPr fun kids =>
    hasEl "cxnSpLocks" (elsL (fun n => n == "cxnSpLocks") kids) := by
  refine loop_B (hasEl "cxnSpLocks") (fun n => n == "cxnSpLocks") ?_ []
  intro es q as kids ha hk hal
  unfold cNvCnPrStep
  generalize hl : q.loc = l at ha ⊢
  split
  · exact does_flat' (by snocs [])
  · refine does_skip' ?_ ?_ <;> snocs []

theorem cNvSpPr_on (es : List El) : AttrsOn cNvSpPrAttr fun as => cNvSpPrOf as es := by
  intro as a
  unfold cNvSpPrAttr intAttr
  generalize hl : a.name.loc = l
  split <;> simp_all [cNvSpPrOf, numAttr_snoc]

theorem unCNvSpPr_B (as : List Attr) : ReadsB (unCNvSpPr as) fun kids => cNvSpPrOf as (children kids) := by
  refine withAttrs_B cNvSpPrOf (fun _ => false) cNvSpPr_on ?_ [] [] as
  intro A es q as kids ha hk hal
  unfold cNvSpPrStep
  generalize hl : q.loc = l at ha ⊢
  split
  · exact does_sub' (unSpLocks_fine _ spLocksAttr_fine_spLocks ha) (leaf_B spLocks_on as) hk hal (by snocs [cNvSpPrOf])
  · refine does_skip' ?_ ?_ <;> snocs [cNvSpPrOf]

theorem bodyPr_on (es : List El) : AttrsOn bodyPrAttr fun as => bodyPrOf as es := by
  intro as a
  unfold bodyPrAttr intAttrLoose
  generalize hl : a.name.loc = l
  split <;> simp_all [bodyPrOf, numAttr_snoc, attrLast_snoc]

theorem unBodyPr_B (as : List Attr) : ReadsB (unBodyPr as) fun kids =>
    bodyPrOf as (elsL (fun n => n == "noAutofit") kids) := by
  refine withAttrs_B bodyPrOf (fun n => n == "noAutofit") bodyPr_on ?_ [] [] as
  intro A es q as kids ha hk hal
  unfold bodyPrStep
  generalize hl : q.loc = l at ha ⊢
  split
  · exact does_flat' (by snocs [bodyPrOf])
  · refine does_skip' ?_ ?_ <;> snocs [bodyPrOf]

theorem unBackground_B : ReadsB unBackground fun kids =>
    hasEl "noFill" (elsL (fun n => n == "noFill") kids) := by
  refine loop_B (hasEl "noFill") (fun n => n == "noFill") ?_ []
  intro es q as kids ha hk hal
  unfold bgStep
  generalize hl : q.loc = l at ha ⊢
  split
  · exact does_flat' (by snocs [])
  · refine does_skip' ?_ ?_ <;> snocs []

theorem unWhole_B : ReadsB unWhole fun kids =>
    (lastEl "ln" (children kids)).map fun l => xmlLine l.attrs l.kids := by
  refine loop_B (fun es => (lastEl "ln" es).map fun l => xmlLine l.attrs l.kids) (fun _ => false) ?_ []
  intro es q as kids ha hk hal
  unfold wholeStep
  generalize hl : q.loc = l at ha ⊢
  split
  · exact does_sub' (unLine_fine _ lineAttr_fine_ln ha) (unLine_B as) hk hal (by snocs [])
  · refine does_skip' ?_ ?_ <;> snocs []

theorem unCNvGrpSpPr_B : ReadsB unCNvGrpSpPr xmlCNvGrpSpPr := by
  refine loop_B (hasEl "grpSpLocks") (fun _ => false) ?_ []
  intro es q as kids ha hk hal
  unfold grpPrStep
  generalize hl : q.loc = l at ha ⊢
  split <;> refine does_skip' ?_ ?_ <;> snocs []

end Docx
