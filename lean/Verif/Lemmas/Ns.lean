import Verif.SpecNs
import Verif.Marshal

/-!
# Documents whose drawings declare their prefixes are saved with all prefixes declared
-/

namespace Docx

/-- The prefixes of the root element -/
def rootScope : List String := ["w", "r", "wp", "wps", "wpc", "wpg"]

theorem declaredBy_docAttrs : declaredBy docAttrs = rootScope := by decide

theorem declaredBy_append (as bs : List Attr) : declaredBy (as ++ bs) = declaredBy as ++ declaredBy bs := by
  simp [declaredBy]

theorem declaredBy_strA {pre loc v : String} (h : pre ≠ "xmlns") : declaredBy (strA pre loc v) = [] := by
  simp [declaredBy, strA, h]
theorem declaredBy_strO {pre loc v : String} (h : pre ≠ "xmlns") : declaredBy (strO pre loc v) = [] := by
  unfold strO; split <;> simp [declaredBy, h]
theorem declaredBy_intA {pre loc : String} {n : Int64} (h : pre ≠ "xmlns") :
    declaredBy (intA pre loc n) = [] := by
  simp [declaredBy, intA, h]
theorem declaredBy_intO {pre loc : String} {n : Int64} (h : pre ≠ "xmlns") :
    declaredBy (intO pre loc n) = [] := by
  unfold intO; split <;> simp [declaredBy, h]
theorem declaredBy_xmlns {loc v : String} (h : v ≠ "") : declaredBy (strO "xmlns" loc v) = [loc] := by
  simp [declaredBy, strO, h]

/-- All prefixes of the attributes may be used -/
def nsAttrs (s : List String) (as : List Attr) : Bool := as.all fun a => prefixOk s a.name.pre

theorem attrsOk_append (s : List String) (as bs : List Attr) :
    nsAttrs s (as ++ bs) = (nsAttrs s as && nsAttrs s bs) := by
  simp [nsAttrs]
theorem attrsOk_nil (s : List String) : nsAttrs s [] = true := rfl
theorem attrsOk_strA {s : List String} {pre loc v : String} (h : prefixOk s pre = true) :
    nsAttrs s (strA pre loc v) = true := by
  simp [nsAttrs, strA, h]
theorem attrsOk_strO {s : List String} {pre loc v : String} (h : prefixOk s pre = true) :
    nsAttrs s (strO pre loc v) = true := by
  unfold strO; split <;> simp [nsAttrs, h]
theorem attrsOk_intA {s : List String} {pre loc : String} {n : Int64} (h : prefixOk s pre = true) :
    nsAttrs s (intA pre loc n) = true := by
  simp [nsAttrs, intA, h]
theorem attrsOk_intO {s : List String} {pre loc : String} {n : Int64} (h : prefixOk s pre = true) :
    nsAttrs s (intO pre loc n) = true := by
  unfold intO; split <;> simp [nsAttrs, h]

theorem prefixOk_mem {s : List String} {p : String} (h : p ∈ s) : prefixOk s p = true := by
  simp [prefixOk, h]
theorem prefixOk_empty (s : List String) : prefixOk s "" = true := by simp [prefixOk]
theorem prefixOk_xml (s : List String) : prefixOk s "xml" = true := by simp [prefixOk]
theorem prefixOk_xmlns (s : List String) : prefixOk s "xmlns" = true := by simp [prefixOk]

theorem nsOk_el (s : List String) (pre loc : String) (as : List Attr) (kids : List Node) :
    nsOk s (el pre loc as kids) =
      (prefixOk (declaredBy as ++ s) pre && nsAttrs (declaredBy as ++ s) as &&
        nsOkL (declaredBy as ++ s) kids) := by
  simp only [el, nsOk, nsAttrs]

theorem nsOkL_nil (s : List String) : nsOkL s [] = true := by simp only [nsOkL]
theorem nsOkL_cons (s : List String) (n : Node) (ns : List Node) :
    nsOkL s (n :: ns) = (nsOk s n && nsOkL s ns) := by simp only [nsOkL]
theorem nsOkL_append (s : List String) : ∀ (as bs : List Node),
    nsOkL s (as ++ bs) = (nsOkL s as && nsOkL s bs)
  | [], bs => by simp [nsOkL]
  | a :: as, bs => by simp [nsOkL, nsOkL_append s as bs, Bool.and_assoc]
theorem nsOkL_all {s : List String} : ∀ {l : List Node}, (∀ n ∈ l, nsOk s n = true) → nsOkL s l = true
  | [], _ => by simp [nsOkL]
  | a :: as, h => by
    rw [nsOkL_cons, h a (List.mem_cons_self ..), nsOkL_all fun n hn => h n (List.mem_cons_of_mem _ hn)]
    rfl
theorem nsOkL_map {α : Type} {s : List String} {f : α → Node} {l : List α}
    (h : ∀ a ∈ l, nsOk s (f a) = true) : nsOkL s (l.map f) = true := by
  apply nsOkL_all
  intro n hn
  obtain ⟨t, ht, rfl⟩ := List.mem_map.1 hn
  exact h t ht

theorem nsOkL_optN {α : Type} {s : List String} {f : α → Node} {o : Option α}
    (h : ∀ a, o = some a → nsOk s (f a) = true) : nsOkL s (optN f o) = true := by
  cases o with
  | none => simp [optN, nsOkL]
  | some a => simp [optN, nsOkL, h a rfl]
theorem nsOkL_optN' {α : Type} {s : List String} {f : α → Node} {o : Option α}
    (h : ∀ a, nsOk s (f a) = true) : nsOkL s (optN f o) = true := nsOkL_optN fun a _ => h a
theorem nsOkL_flagN {s : List String} {b : Bool} {pre loc : String} (h : prefixOk s pre = true) :
    nsOkL s (flagN b pre loc) = true := by
  unfold flagN
  cases b <;> simp [nsOkL, nsOk_el, declaredBy, nsAttrs, h]
theorem nsOkL_valN {s : List String} {loc : String} {o : Option String} (h : prefixOk s "w" = true) :
    nsOkL s (valN loc o) = true := by
  cases o <;> simp [valN, nsOkL, nsOk_el, declaredBy_strA, attrsOk_strA, h]
theorem nsOkL_valO {s : List String} {loc : String} {o : Option String} (h : prefixOk s "w" = true) :
    nsOkL s (valO loc o) = true := by
  cases o <;> simp [valO, nsOkL, nsOk_el, declaredBy_strO, attrsOk_strO, h]
theorem nsOkL_valI {s : List String} {loc : String} {o : Option Int64} (h : prefixOk s "w" = true) :
    nsOkL s (valI loc o) = true := by
  cases o <;> simp [valI, nsOkL, nsOk_el, declaredBy_intA, attrsOk_intA, h]
theorem nsOkL_textN {s : List String} {t : String} : nsOkL s (textN t) = true := by
  unfold textN; split <;> simp [nsOkL, nsOk]
theorem nsOk_text (s : List String) (t : String) : nsOk s (.text t) = true := by simp only [nsOk]

/-- The prefixes of the root are in scope -/
structure Root (s : List String) : Prop where
  w : prefixOk s "w" = true
  r : prefixOk s "r" = true
  wp : prefixOk s "wp" = true
  wps : prefixOk s "wps" = true
  wpc : prefixOk s "wpc" = true
  wpg : prefixOk s "wpg" = true

theorem prefixOk_cons {s : List String} {p : String} (x : String) (h : prefixOk s p = true) :
    prefixOk (x :: s) p = true := by
  simp only [prefixOk, Bool.or_eq_true, List.contains_eq_mem, List.mem_cons, decide_eq_true_eq] at *
  rcases h with h | h
  · exact .inl h
  · exact .inr (.inr h)

theorem Root.cons {s : List String} (h : Root s) (x : String) : Root (x :: s) :=
  ⟨prefixOk_cons x h.w, prefixOk_cons x h.r, prefixOk_cons x h.wp, prefixOk_cons x h.wps,
    prefixOk_cons x h.wpc, prefixOk_cons x h.wpg⟩

theorem root_rootScope : Root rootScope := by constructor <;> decide

-- Open an element of the model whose attributes declare nothing
local macro "ns" "[" ls:Lean.Parser.Tactic.simpLemma,* "]" : tactic =>
  `(tactic| simp only [nsOk_el, nsOk_text, declaredBy_append, declaredBy_strA, declaredBy_strO, declaredBy_intA,
      declaredBy_intO, attrsOk_append, attrsOk_nil, attrsOk_strA, attrsOk_strO, attrsOk_intA,
      attrsOk_intO, nsOkL_nil, nsOkL_cons, nsOkL_append, nsOkL_flagN, nsOkL_valN, nsOkL_valO,
      nsOkL_valI, nsOkL_textN, prefixOk_empty, prefixOk_xml, prefixOk_xmlns, List.nil_append, List.append_nil, Bool.and_true,
      Bool.true_and, Bool.and_self, ne_eq, reduceCtorEq, not_false_eq_true, String.reduceEq,
      show declaredBy [] = [] from rfl, $ls,*])

section
variable {s : List String} (h : Root s)
include h

theorem ns_mShade (x : Shade) : nsOk s (mShade x) = true := by unfold mShade; ns [h.w]
theorem ns_mSpacing (x : Spacing) : nsOk s (mSpacing x) = true := by unfold mSpacing; ns [h.w]
theorem ns_mInd (x : Ind) : nsOk s (mInd x) = true := by unfold mInd; ns [h.w]
theorem ns_mTab (x : Tab) : nsOk s (mTab x) = true := by unfold mTab; ns [h.w]
theorem ns_mTabs (x : List Tab) : nsOk s (mTabs x) = true := by
  unfold mTabs; ns [h.w]
  apply nsOkL_all
  intro n hn
  obtain ⟨t, _, rfl⟩ := List.mem_map.1 hn
  exact ns_mTab h t
theorem ns_mRunFonts (x : RunFonts) : nsOk s (mRunFonts x) = true := by unfold mRunFonts; ns [h.w]
theorem ns_mRPr (x : RPr) : nsOk s (mRPr x) = true := by
  unfold mRPr
  ns [h.w, nsOkL_optN' (ns_mRunFonts h), nsOkL_optN' (ns_mSpacing h), nsOkL_optN' (ns_mShade h)]
theorem ns_mNumPr (x : NumPr) : nsOk s (mNumPr x) = true := by unfold mNumPr; ns [h.w]
theorem ns_mPPr (x : PPr) : nsOk s (mPPr x) = true := by
  unfold mPPr
  ns [h.w, nsOkL_optN' (ns_mTabs h), nsOkL_optN' (ns_mSpacing h), nsOkL_optN' (ns_mShade h),
    nsOkL_optN' (ns_mNumPr h), nsOkL_optN' (ns_mInd h), nsOkL_optN' (ns_mRPr h)]
theorem ns_mBr (x : Br) : nsOk s (mBr x) = true := by unfold mBr; ns [h.w]
theorem ns_mText (x : Text) : nsOk s (mText x) = true := by unfold mText; ns [h.w]

theorem ns_mExtent (x : Ext) : nsOk s (mExtent x) = true := by unfold mExtent; ns [h.wp]
theorem ns_mEffectExtent (x : EffectExtent) : nsOk s (mEffectExtent x) = true := by
  unfold mEffectExtent; ns [h.wp]
theorem ns_mDocPr (x : IdName) : nsOk s (mDocPr x) = true := by unfold mDocPr; ns [h.wp]
theorem ns_mFramePr (x : FrameLocks) (hx : x.xmlA ≠ "") : nsOk s (mFramePr x) = true := by
  unfold mFramePr
  have : prefixOk ("a" :: s) "a" = true := prefixOk_mem (List.mem_cons_self ..)
  ns [h.wp, declaredBy_xmlns hx, List.cons_append, this]
theorem ns_mSimplePos (x : Off) : nsOk s (mSimplePos x) = true := by unfold mSimplePos; ns [h.wp]
theorem ns_mPosition (loc : String) (x : Position) : nsOk s (mPosition loc x) = true := by
  unfold mPosition; ns [h.wp]

variable (ha : prefixOk s "a" = true)
include ha

theorem ns_mIdName {pre : String} (hp : prefixOk s pre = true) (x : IdName) :
    nsOk s (mIdName pre x) = true := by unfold mIdName; ns [hp]
theorem ns_mBlip (x : Blip) : nsOk s (mBlip x) = true := by
  unfold mBlip
  ns [h.r, ha]
  apply nsOkL_optN'
  intro n
  ns [ha]
theorem ns_mOff (loc : String) (x : Off) : nsOk s (mOff loc x) = true := by unfold mOff; ns [ha]
theorem ns_mExt (loc : String) (x : Ext) : nsOk s (mExt loc x) = true := by unfold mExt; ns [ha]
theorem ns_mXfrm (x : Xfrm) : nsOk s (mXfrm x) = true := by
  unfold mXfrm
  ns [ha, ns_mOff h ha, ns_mExt h ha, nsOkL_optN' (ns_mOff h ha "chOff"), nsOkL_optN' (ns_mExt h ha "chExt")]
theorem ns_mPrstGeom (x : PrstGeom) : nsOk s (mPrstGeom x) = true := by unfold mPrstGeom; ns [ha]
theorem ns_mTile (x : Tile) : nsOk s (mTile x) = true := by unfold mTile; ns [ha]
theorem ns_mABlipFill (x : ABlipFill) : nsOk s (mABlipFill x) = true := by
  unfold mABlipFill; ns [ha, nsOkL_optN' (ns_mBlip h ha), nsOkL_optN' (ns_mTile h ha)]
theorem ns_mSolidFill (x : Option String) : nsOk s (mSolidFill x) = true := by
  unfold mSolidFill
  ns [ha]
  apply nsOkL_optN'
  intro n
  ns [ha]
theorem ns_mLineEnd (loc : String) (x : LineEnd) : nsOk s (mLineEnd loc x) = true := by
  unfold mLineEnd; ns [ha]
theorem ns_mLine (x : Line) : nsOk s (mLine x) = true := by
  unfold mLine
  have h1 : ∀ v : String, nsOk s (el "a" "prstDash" (strA "" "val" v) []) = true := by
    intro v; ns [ha]
  have h2 : ∀ v : String, nsOk s (el "a" "miter" (strA "" "lim" v) []) = true := by
    intro v; ns [ha]
  ns [ha, nsOkL_optN' (ns_mSolidFill h ha), nsOkL_optN' h1, nsOkL_optN' h2,
    nsOkL_optN' (ns_mLineEnd h ha "headEnd"), nsOkL_optN' (ns_mLineEnd h ha "tailEnd")]
theorem ns_mShapePr {pre loc : String} (hp : prefixOk s pre = true) (x : ShapePr) :
    nsOk s (mShapePr pre loc x) = true := by
  unfold mShapePr
  ns [hp, ha, ns_mXfrm h ha, ns_mPrstGeom h ha, nsOkL_optN' (ns_mSolidFill h ha),
    nsOkL_optN' (ns_mABlipFill h ha), nsOkL_optN' (ns_mLine h ha)]
theorem ns_mCNvCnPr (x : Bool) : nsOk s (mCNvCnPr x) = true := by unfold mCNvCnPr; ns [h.wps, ha]
theorem ns_mCNvSpPr (x : CNvSpPr) : nsOk s (mCNvSpPr x) = true := by
  unfold mCNvSpPr
  ns [h.wps]
  apply nsOkL_optN'
  intro n
  ns [ha]
theorem ns_mBodyPr (x : BodyPr) : nsOk s (mBodyPr x) = true := by unfold mBodyPr; ns [h.wps, ha]
theorem ns_mBackground (x : Bool) : nsOk s (mBackground x) = true := by
  unfold mBackground; ns [h.wpc, ha]
theorem ns_mWhole (x : Option Line) : nsOk s (mWhole x) = true := by
  unfold mWhole; ns [h.wpc, nsOkL_optN' (ns_mLine h ha)]
theorem ns_mCNvGrpSpPr (x : Bool) : nsOk s (mCNvGrpSpPr x) = true := by
  unfold mCNvGrpSpPr; ns [h.wpg, ha]

theorem ns_mCNvPicPr (hp : prefixOk s "pic" = true) (x : Option Int64) : nsOk s (mCNvPicPr x) = true := by
  unfold mCNvPicPr
  ns [hp]
  apply nsOkL_optN'
  intro n
  ns [ha]
theorem ns_mNvPicPr (hp : prefixOk s "pic" = true) (x : NvPicPr) : nsOk s (mNvPicPr x) = true := by
  unfold mNvPicPr; ns [hp, ns_mIdName h ha hp, ns_mCNvPicPr h ha hp]
theorem ns_mPicFill (hp : prefixOk s "pic" = true) (x : BlipFill) : nsOk s (mPicFill x) = true := by
  unfold mPicFill; ns [hp, ha, ns_mBlip h ha]
theorem ns_mPicSpPr (hp : prefixOk s "pic" = true) (x : PicSpPr) : nsOk s (mPicSpPr x) = true := by
  unfold mPicSpPr; ns [hp, ns_mXfrm h ha, nsOkL_optN' (ns_mPrstGeom h ha)]
theorem ns_mPic (x : Picture) (hx : x.xmlPic ≠ "") : nsOk s (mPic x) = true := by
  unfold mPic
  have hp : prefixOk ("pic" :: s) "pic" = true := prefixOk_mem (List.mem_cons_self ..)
  have h' := h.cons "pic"
  have ha' := prefixOk_cons "pic" ha
  ns [declaredBy_xmlns hx, List.cons_append, hp, nsOkL_optN' (ns_mNvPicPr h' ha' hp),
    nsOkL_optN' (ns_mPicFill h' ha' hp), nsOkL_optN' (ns_mPicSpPr h' ha' hp)]
end

mutual
theorem ns_mPara {s : List String} (h : Root s) : (x : Para) → declPara x → nsOk s (mPara x) = true
  | ⟨props, children, _⟩, hx => by
    simp only [declPara] at hx
    simp only [mPara]
    ns [h.w, nsOkL_optN' (ns_mPPr h), ns_mPChildren h children hx]
theorem ns_mPChildren {s : List String} (h : Root s) : (x : List PChild) → declPChildren x →
    nsOkL s (mPChildren x) = true
  | [], _ => by simp only [mPChildren, nsOkL]
  | c :: cs, hx => by
    simp only [declPChildren] at hx
    simp only [mPChildren]
    ns [ns_mPChild h c hx.1, ns_mPChildren h cs hx.2]
theorem ns_mPChild {s : List String} (h : Root s) : (x : PChild) → declPChild x →
    nsOk s (mPChild x) = true
  | .run r, hx => by simp only [mPChild]; exact ns_mRun h r (by simpa only [declPChild] using hx)
  | .link l, hx => by simp only [mPChild]; exact ns_mLink h l (by simpa only [declPChild] using hx)
  | .rpr p, _ => by simp only [mPChild]; exact ns_mRPr h p
theorem ns_mLink {s : List String} (h : Root s) : (x : Hyperlink) → declLink x →
    nsOk s (mLink x) = true
  | ⟨_, run⟩, hx => by
    simp only [declLink] at hx
    simp only [mLink]
    ns [h.w, h.r, ns_mRun h run hx]
theorem ns_mRun {s : List String} (h : Root s) : (x : Run) → declRun x → nsOk s (mRun x) = true
  | ⟨_, _, instr, children⟩, hx => by
    simp only [declRun] at hx
    simp only [mRun]
    have hi : nsOkL s (if instr = "" then [] else [el "w" "instrText" [] [.text instr]]) = true := by
      split
      · simp only [nsOkL]
      · ns [h.w]
    ns [h.w, nsOkL_optN' (ns_mRPr h), hi, ns_mRChildren h children hx]
theorem ns_mRChildren {s : List String} (h : Root s) : (x : List RChild) → declRChildren x →
    nsOkL s (mRChildren x) = true
  | [], _ => by simp only [mRChildren, nsOkL]
  | c :: cs, hx => by
    simp only [declRChildren] at hx
    simp only [mRChildren]
    ns [ns_mRChild h c hx.1, ns_mRChildren h cs hx.2]
theorem ns_mRChild {s : List String} (h : Root s) : (x : RChild) → declRChild x →
    nsOk s (mRChild x) = true
  | .text t, _ => by simp only [mRChild]; exact ns_mText h t
  | .tab t, _ => by simp only [mRChild]; exact ns_mTab h t
  | .br b, _ => by simp only [mRChild]; exact ns_mBr h b
  | .drawing d, hx => by
    simp only [mRChild]; exact ns_mDrawing h d (by simpa only [declRChild] using hx)
theorem ns_mDrawing {s : List String} (h : Root s) : (x : Drawing) → declDrawing x →
    nsOk s (mDrawing x) = true
  | ⟨inl, anchor⟩, hx => by
    simp only [declDrawing] at hx
    simp only [mDrawing]
    ns [h.w, ns_mInlineO h inl hx.1, ns_mAnchorO h anchor hx.2]
theorem ns_mInlineO {s : List String} (h : Root s) : (x : Option Inline) → declInlineO x →
    nsOkL s (mInlineO x) = true
  | none, _ => by simp only [mInlineO, nsOkL]
  | some i, hx => by
    simp only [mInlineO]
    ns [ns_mInline h i (by simpa only [declInlineO] using hx)]
theorem ns_mAnchorO {s : List String} (h : Root s) : (x : Option Anchor) → declAnchorO x →
    nsOkL s (mAnchorO x) = true
  | none, _ => by simp only [mAnchorO, nsOkL]
  | some i, hx => by
    simp only [mAnchorO]
    ns [ns_mAnchor h i (by simpa only [declAnchorO] using hx)]
theorem ns_mInline {s : List String} (h : Root s) : (x : Inline) → declInline x →
    nsOk s (mInline x) = true
  | ⟨_, _, _, _, _, _, _, framePr, graphic, _⟩, hx => by
    simp only [declInline] at hx
    simp only [mInline]
    ns [h.wp, nsOkL_optN' (ns_mExtent h), nsOkL_optN' (ns_mEffectExtent h), nsOkL_optN' (ns_mDocPr h),
      nsOkL_optN (fun f hf => ns_mFramePr h f (hx.1 f hf)), ns_mGraphicO h graphic hx.2]
theorem ns_mAnchor {s : List String} (h : Root s) : (x : Anchor) → declAnchor x →
    nsOk s (mAnchor x) = true
  | ⟨_, _, _, _, _, _, _, _, _, _, _, _, _, _, _, _, _, _, framePr, graphic, _⟩, hx => by
    simp only [declAnchor] at hx
    simp only [mAnchor]
    have hw : ∀ v : String, nsOk s (el "wp" "wrapSquare" (strA "" "wrapText" v) []) = true := by
      intro v; ns [h.wp]
    ns [h.wp, nsOkL_optN' (ns_mExtent h), nsOkL_optN' (ns_mEffectExtent h), nsOkL_optN' (ns_mDocPr h),
      nsOkL_optN' (ns_mSimplePos h), nsOkL_optN' (ns_mPosition h "positionH"),
      nsOkL_optN' (ns_mPosition h "positionV"), nsOkL_optN' hw,
      nsOkL_optN (fun f hf => ns_mFramePr h f (hx.1 f hf)), ns_mGraphicO h graphic hx.2]
theorem ns_mGraphicO {s : List String} (h : Root s) : (x : Option Graphic) → declGraphicO x →
    nsOkL s (mGraphicO x) = true
  | none, _ => by simp only [mGraphicO, nsOkL]
  | some i, hx => by
    simp only [mGraphicO]
    ns [ns_mGraphic h i (by simpa only [declGraphicO] using hx)]
theorem ns_mGraphic {s : List String} (h : Root s) : (x : Graphic) → declGraphic x →
    nsOk s (mGraphic x) = true
  | ⟨xmlA, data⟩, hx => by
    simp only [declGraphic] at hx
    simp only [mGraphic]
    have ha : prefixOk ("a" :: s) "a" = true := prefixOk_mem (List.mem_cons_self ..)
    ns [declaredBy_xmlns hx.1, List.cons_append, ha, ns_mGraphicDataO (h.cons "a") ha data hx.2]
theorem ns_mGraphicDataO {s : List String} (h : Root s) (ha : prefixOk s "a" = true) :
    (x : Option GraphicData) → declGraphicDataO x → nsOkL s (mGraphicDataO x) = true
  | none, _ => by simp only [mGraphicDataO, nsOkL]
  | some i, hx => by
    simp only [mGraphicDataO]
    ns [ns_mGraphicData h ha i (by simpa only [declGraphicDataO] using hx)]
theorem ns_mGraphicData {s : List String} (h : Root s) (ha : prefixOk s "a" = true) :
    (x : GraphicData) → declGraphicData x → nsOk s (mGraphicData x) = true
  | ⟨_, pic, shape, canvas, group⟩, hx => by
    simp only [declGraphicData] at hx
    simp only [mGraphicData]
    ns [ha, nsOkL_optN (fun p hp => ns_mPic h ha p (hx.1 p hp)), ns_mShapeO h ha shape hx.2.1,
      ns_mCanvasO h ha canvas hx.2.2.1, ns_mGroupO h ha group hx.2.2.2]
theorem ns_mShapeO {s : List String} (h : Root s) (ha : prefixOk s "a" = true) :
    (x : Option Shape) → declShapeO x → nsOkL s (mShapeO x) = true
  | none, _ => by simp only [mShapeO, nsOkL]
  | some i, hx => by
    simp only [mShapeO]
    ns [ns_mShape h ha i (by simpa only [declShapeO] using hx)]
theorem ns_mCanvasO {s : List String} (h : Root s) (ha : prefixOk s "a" = true) :
    (x : Option Canvas) → declCanvasO x → nsOkL s (mCanvasO x) = true
  | none, _ => by simp only [mCanvasO, nsOkL]
  | some i, hx => by
    simp only [mCanvasO]
    ns [ns_mCanvas h ha i (by simpa only [declCanvasO] using hx)]
theorem ns_mGroupO {s : List String} (h : Root s) (ha : prefixOk s "a" = true) :
    (x : Option Group) → declGroupO x → nsOkL s (mGroupO x) = true
  | none, _ => by simp only [mGroupO, nsOkL]
  | some i, hx => by
    simp only [mGroupO]
    ns [ns_mGroup h ha i (by simpa only [declGroupO] using hx)]
theorem ns_mShape {s : List String} (h : Root s) (ha : prefixOk s "a" = true) :
    (x : Shape) → declShape x → nsOk s (mShape x) = true
  | ⟨_, _, _, _, textBox, _⟩, hx => by
    simp only [declShape] at hx
    simp only [mShape]
    ns [h.wps, nsOkL_optN' (ns_mIdName h ha h.wps), nsOkL_optN' (ns_mCNvCnPr h ha),
      nsOkL_optN' (ns_mCNvSpPr h ha), nsOkL_optN' (ns_mShapePr h ha h.wps),
      nsOkL_optN' (ns_mBodyPr h ha), ns_mTextBoxO h textBox hx]
theorem ns_mTextBoxO {s : List String} (h : Root s) :
    (x : Option TextBox) → declTextBoxO x → nsOkL s (mTextBoxO x) = true
  | none, _ => by simp only [mTextBoxO, nsOkL]
  | some i, hx => by
    simp only [mTextBoxO]
    ns [ns_mTextBox h i (by simpa only [declTextBoxO] using hx)]
theorem ns_mTextBox {s : List String} (h : Root s) :
    (x : TextBox) → declTextBox x → nsOk s (mTextBox x) = true
  | ⟨content⟩, hx => by
    simp only [declTextBox] at hx
    simp only [mTextBox]
    ns [h.wps, ns_mContentO h content hx]
theorem ns_mContentO {s : List String} (h : Root s) :
    (x : Option (List Para)) → declContentO x → nsOkL s (mContentO x) = true
  | none, _ => by simp only [mContentO, nsOkL]
  | some ps, hx => by
    simp only [mContentO]
    ns [h.w, ns_mParas h ps (by simpa only [declContentO] using hx)]
theorem ns_mParas {s : List String} (h : Root s) : (x : List Para) → declParas x →
    nsOkL s (mParas x) = true
  | [], _ => by simp only [mParas, nsOkL]
  | p :: ps, hx => by
    simp only [declParas] at hx
    simp only [mParas]
    ns [ns_mPara h p hx.1, ns_mParas h ps hx.2]
theorem ns_mCanvas {s : List String} (h : Root s) (ha : prefixOk s "a" = true) :
    (x : Canvas) → declCanvas x → nsOk s (mCanvas x) = true
  | ⟨_, _, items⟩, hx => by
    simp only [declCanvas] at hx
    simp only [mCanvas]
    ns [h.wpc, nsOkL_optN' (ns_mBackground h ha), nsOkL_optN' (ns_mWhole h ha),
      ns_mCItems h ha items hx]
theorem ns_mCItems {s : List String} (h : Root s) (ha : prefixOk s "a" = true) :
    (x : List CItem) → declCItems x → nsOkL s (mCItems x) = true
  | [], _ => by simp only [mCItems, nsOkL]
  | c :: cs, hx => by
    simp only [declCItems] at hx
    simp only [mCItems]
    ns [ns_mCItem h ha c hx.1, ns_mCItems h ha cs hx.2]
theorem ns_mCItem {s : List String} (h : Root s) (ha : prefixOk s "a" = true) :
    (x : CItem) → declCItem x → nsOk s (mCItem x) = true
  | .shape x, hx => by simp only [mCItem]; exact ns_mShape h ha x (by simpa only [declCItem] using hx)
  | .pic p, hx => by simp only [mCItem]; exact ns_mPic h ha p (by simpa only [declCItem] using hx)
  | .group g, hx => by simp only [mCItem]; exact ns_mGroup h ha g (by simpa only [declCItem] using hx)
theorem ns_mGroup {s : List String} (h : Root s) (ha : prefixOk s "a" = true) :
    (x : Group) → declGroup x → nsOk s (mGroup x) = true
  | ⟨_, _, elems⟩, hx => by
    simp only [declGroup] at hx
    simp only [mGroup]
    ns [h.wpg, nsOkL_optN' (ns_mCNvGrpSpPr h ha), nsOkL_optN' (ns_mShapePr h ha h.wpg),
      ns_mGItems h ha elems hx]
theorem ns_mGroupShape {s : List String} (h : Root s) (ha : prefixOk s "a" = true) :
    (x : GroupShape) → declGroupShape x → nsOk s (mGroupShape x) = true
  | ⟨_, _, _, elems⟩, hx => by
    simp only [declGroupShape] at hx
    simp only [mGroupShape]
    ns [h.wpg, nsOkL_optN' (ns_mIdName h ha h.wpg), nsOkL_optN' (ns_mCNvGrpSpPr h ha),
      nsOkL_optN' (ns_mShapePr h ha h.wpg), ns_mGItems h ha elems hx]
theorem ns_mGItems {s : List String} (h : Root s) (ha : prefixOk s "a" = true) :
    (x : List GItem) → declGItems x → nsOkL s (mGItems x) = true
  | [], _ => by simp only [mGItems, nsOkL]
  | c :: cs, hx => by
    simp only [declGItems] at hx
    simp only [mGItems]
    ns [ns_mGItem h ha c hx.1, ns_mGItems h ha cs hx.2]
theorem ns_mGItem {s : List String} (h : Root s) (ha : prefixOk s "a" = true) :
    (x : GItem) → declGItem x → nsOk s (mGItem x) = true
  | .shape x, hx => by simp only [mGItem]; exact ns_mShape h ha x (by simpa only [declGItem] using hx)
  | .pic p, hx => by simp only [mGItem]; exact ns_mPic h ha p (by simpa only [declGItem] using hx)
  | .canvas c, hx => by
    simp only [mGItem]; exact ns_mCanvas h ha c (by simpa only [declGItem] using hx)
  | .groupShape g, hx => by
    simp only [mGItem]; exact ns_mGroupShape h ha g (by simpa only [declGItem] using hx)
end

section
variable {s : List String} (h : Root s)
include h

theorem ns_mTblpPr (x : TblpPr) : nsOk s (mTblpPr x) = true := by unfold mTblpPr; ns [h.w]
theorem ns_mWidth (loc : String) (x : Width) : nsOk s (mWidth loc x) = true := by unfold mWidth; ns [h.w]
theorem ns_mBorder (loc : String) (x : Border) : nsOk s (mBorder loc x) = true := by
  unfold mBorder; ns [h.w]
theorem ns_mBorders (loc : String) (x : Borders) : nsOk s (mBorders loc x) = true := by
  unfold mBorders
  ns [h.w, nsOkL_optN' (ns_mBorder h "top"), nsOkL_optN' (ns_mBorder h "left"),
    nsOkL_optN' (ns_mBorder h "bottom"), nsOkL_optN' (ns_mBorder h "right"),
    nsOkL_optN' (ns_mBorder h "insideH"), nsOkL_optN' (ns_mBorder h "insideV")]
theorem ns_mLook (x : TblLook) : nsOk s (mLook x) = true := by unfold mLook; ns [h.w]
theorem ns_mTblPr (x : TblPr) : nsOk s (mTblPr x) = true := by
  unfold mTblPr
  ns [h.w, nsOkL_optN' (ns_mTblpPr h), nsOkL_optN' (ns_mWidth h "tblW"),
    nsOkL_optN' (ns_mBorders h "tblBorders"), nsOkL_optN' (ns_mLook h)]
theorem ns_mGrid (x : List (Option Int64)) : nsOk s (mGrid x) = true := by
  unfold mGrid
  ns [h.w]
  apply nsOkL_all
  intro n hn
  obtain ⟨o, _, ho⟩ := List.mem_flatMap.1 hn
  cases o with
  | none => simp [optN] at ho
  | some v =>
    simp only [optN, List.mem_singleton] at ho
    subst ho
    ns [h.w]
theorem ns_mTrPr (x : TrPr) : nsOk s (mTrPr x) = true := by
  unfold mTrPr
  ns [h.w]
  apply nsOkL_optN'
  intro v
  ns [h.w]
theorem ns_mTcPr (x : TcPr) : nsOk s (mTcPr x) = true := by
  unfold mTcPr
  ns [h.w, nsOkL_optN' (ns_mWidth h "tcW"), nsOkL_optN' (ns_mBorders h "tcBorders"),
    nsOkL_optN' (ns_mShade h)]
theorem ns_mCell (x : Cell) (hx : ∀ p ∈ x.paras, declPara p) : nsOk s (mCell x) = true := by
  unfold mCell
  ns [h.w, nsOkL_optN' (ns_mTcPr h)]
  exact nsOkL_map fun p hp => ns_mPara h p (hx p hp)
theorem ns_mRow (x : Row) (hx : ∀ c ∈ x.cells, ∀ p ∈ c.paras, declPara p) : nsOk s (mRow x) = true := by
  unfold mRow
  ns [h.w, nsOkL_optN' (ns_mTrPr h)]
  exact nsOkL_map fun c hc => ns_mCell h c (hx c hc)
theorem ns_mTable (x : Table) (hx : ∀ r ∈ x.rows, ∀ c ∈ r.cells, ∀ p ∈ c.paras, declPara p) :
    nsOk s (mTable x) = true := by
  unfold mTable
  ns [h.w, nsOkL_optN' (ns_mTblPr h), nsOkL_optN' (ns_mGrid h)]
  exact nsOkL_map fun r hr => ns_mRow h r (hx r hr)
theorem ns_mSect (x : SectPr) : nsOk s (mSect x) = true := by
  unfold mSect
  have h1 : ∀ v, nsOk s (mPgSz v) = true := by intro v; unfold mPgSz; ns [h.w]
  have h2 : ∀ v, nsOk s (mPgMar v) = true := by intro v; unfold mPgMar; ns [h.w]
  have h3 : ∀ v, nsOk s (mCols v) = true := by intro v; unfold mCols; ns [h.w]
  have h4 : ∀ v, nsOk s (mDocGrid v) = true := by intro v; unfold mDocGrid; ns [h.w]
  ns [h.w, nsOkL_optN' h1, nsOkL_optN' h2, nsOkL_optN' h3, nsOkL_optN' h4]
theorem ns_mItem (x : BItem) (hx : declItem x) : nsOk s (mItem x) = true := by
  cases x with
  | para p => exact ns_mPara h p hx
  | table t => exact ns_mTable h t hx
  | sect x => exact ns_mSect h x
end

theorem ns_mDocument (items : List BItem) (h : declBody items) : nsOk [] (mDocument items) = true := by
  unfold mDocument
  rw [nsOk_el, declaredBy_docAttrs]
  have hr := root_rootScope
  have hi : nsOkL rootScope (items.map mItem) = true :=
    nsOkL_map fun i hi => ns_mItem hr i (h i hi)
  have hd : nsAttrs rootScope docAttrs = true := by decide
  ns [hr.w, hd, hi]

end Docx
