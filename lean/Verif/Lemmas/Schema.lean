import Verif.SpecSchema
import Verif.Marshal

/-!
# The saved document follows the content models exactly when the document is neat
-/

set_option linter.unusedSectionVars false

namespace Docx

/-! ## Sequences of optional elements -/

theorem sub_cons_ne {α : Type} {x a b : α} {L : List α} (h : List.Sublist [a, b] (x :: L)) (ne : a ≠ x) :
    List.Sublist [a, b] L := by
  cases h with
  | cons _ h => exact h
  | cons_cons _ _ => exact absurd rfl ne

/-- Distinct elements are a part of a list when they come in its order. -/
theorem sub_iff {α : Type} {L : List α} (hL : L.Nodup) : ∀ {ks : List α},
    List.Sublist ks L ↔ (∀ k ∈ ks, k ∈ L) ∧ ks.Pairwise fun a b => List.Sublist [a, b] L := by
  induction L with
  | nil =>
    intro ks
    cases ks with
    | nil => simp
    | cons k ks =>
      refine ⟨fun h => by simp at h, fun h => by simpa using h.1 k (by simp)⟩
  | cons x L ih =>
    intro ks
    obtain ⟨hx, hn⟩ := List.nodup_cons.1 hL
    constructor
    · intro h
      refine ⟨fun k hk => h.subset hk, ?_⟩
      refine List.Pairwise.sublist h ?_
      rw [List.pairwise_iff_forall_sublist]
      intro a b h; exact h
    · rintro ⟨h1, h2⟩
      cases ks with
      | nil => simp
      | cons k ks =>
        obtain ⟨h3, h4⟩ := List.pairwise_cons.1 h2
        by_cases e : k = x
        · subst e
          refine List.Sublist.cons_cons _ ((ih hn).2 ?_)
          have hm : ∀ b ∈ ks, b ∈ L := by
            intro b hb
            cases h3 b hb with
            | cons _ h => exact h.subset (by simp)
            | cons_cons _ h => exact h.subset (by simp)
          refine ⟨hm, h4.imp_of_mem fun {a b} ha _ hab => sub_cons_ne hab ?_⟩
          rintro rfl; exact hx (hm _ ha)
        · refine List.Sublist.cons _ ((ih hn).2 ?_)
          have hm : ∀ b ∈ ks, b ∈ L := fun b hb => (sub_cons_ne (h3 b hb) e).subset (by simp)
          have hk : k ∈ L := by simpa [e] using h1 k (by simp)
          refine ⟨by simpa [hk] using hm, List.pairwise_cons.2 ⟨fun b hb => sub_cons_ne (h3 b hb) e,
            h4.imp_of_mem fun {a b} ha _ hab => sub_cons_ne hab ?_⟩⟩
          rintro rfl; exact hx (hm _ ha)

theorem fits_opts (pre : String) : ∀ {ls : List String} {ks : List QName},
    fits (opts pre ls) ks = true ↔ List.Sublist ks (nsOf pre ls) := by
  intro ls
  induction ls with
  | nil => intro ks; cases ks <;> simp [opts, nsOf, fits]
  | cons l ls ih =>
    intro ks
    cases ks with
    | nil => simpa [opts, nsOf, fits] using ih (ks := [])
    | cons k ks =>
      have e : fits (opts pre (l :: ls)) (k :: ks) =
          if k = ⟨pre, l⟩ then fits (opts pre ls) ks else fits (opts pre ls) (k :: ks) := by
        simp [opts, fits]
      rw [e]
      split
      · rename_i h
        subst h
        rw [ih]
        exact (List.cons_sublist_cons (a := (⟨pre, l⟩ : QName))).symm
      · rename_i h
        rw [ih]
        constructor
        · intro h; exact List.Sublist.cons _ h
        · intro h'
          cases h' with
          | cons _ h => exact h
          | cons_cons _ _ => exact absurd rfl h

/-- One name, if it is there -/
def pres (b : Bool) (pre loc : String) : List QName := if b then [⟨pre, loc⟩] else []

/-! ## Names, texts and contents of lists of elements -/

theorem kn_append (a b : List Node) : kidNames (a ++ b) = kidNames a ++ kidNames b := by
  induction a with
  | nil => rfl
  | cons n a ih => cases n <;> simp [kidNames, ih]

theorem ht_append (a b : List Node) : hasText (a ++ b) = (hasText a || hasText b) := by
  induction a with
  | nil => rfl
  | cons n a ih => cases n <;> simp [hasText, ih]

theorem fo_append (a b : List Node) : followsL (a ++ b) = (followsL a && followsL b) := by
  induction a with
  | nil => rfl
  | cons n a ih => simp [followsL, ih, Bool.and_assoc]

theorem fo_iff (ns : List Node) : followsL ns = true ↔ ∀ n ∈ ns, follows n = true := by
  induction ns with
  | nil => simp [followsL]
  | cons n ns ih => simp [followsL, ih]

/-- A piece of XML is an element of the given name. -/
def Is (pre loc : String) : Node → Prop
  | .elem q _ _ => q = ⟨pre, loc⟩
  | _ => False

theorem kn_one {n : Node} {pre loc} (h : Is pre loc n) : kidNames [n] = [⟨pre, loc⟩] := by
  cases n with
  | elem q as ks => cases h; rfl
  | text s => exact absurd h id
  | other => exact absurd h id

theorem ht_one {n : Node} {pre loc} (h : Is pre loc n) : hasText [n] = false := by
  cases n with
  | elem q as ks => rfl
  | text s => exact absurd h id
  | other => exact absurd h id

section
variable {α : Type} {f : α → Node} {pre loc : String}

theorem kn_opt (h : ∀ a, Is pre loc (f a)) (o : Option α) :
    kidNames (optN f o) = pres o.isSome pre loc := by
  cases o with
  | none => rfl
  | some a => exact kn_one (h a)

theorem ht_opt (h : ∀ a, Is pre loc (f a)) (o : Option α) : hasText (optN f o) = false := by
  cases o with
  | none => rfl
  | some a => exact ht_one (h a)

theorem fo_opt {P : α → Prop} (h : ∀ a, follows (f a) = true ↔ P a) (o : Option α) :
    followsL (optN f o) = true ↔ ∀ a, o = some a → P a := by
  cases o with
  | none => simp [optN, followsL]
  | some a => simp [optN, followsL, h]

theorem fo_opt' (h : ∀ a, follows (f a) = true) (o : Option α) : followsL (optN f o) = true := by
  cases o with
  | none => rfl
  | some a => simp [optN, followsL, h]

theorem kn_map (h : ∀ a, Is pre loc (f a)) (l : List α) :
    kidNames (l.map f) = List.replicate l.length ⟨pre, loc⟩ := by
  induction l with
  | nil => rfl
  | cons a l ih =>
    rw [List.map_cons, ← List.singleton_append, kn_append, kn_one (h a), ih]; rfl

theorem ht_map (h : ∀ a, Is pre loc (f a)) (l : List α) : hasText (l.map f) = false := by
  induction l with
  | nil => rfl
  | cons a l ih =>
    rw [List.map_cons, ← List.singleton_append, ht_append, ht_one (h a), ih]; rfl

theorem fo_map (l : List α) : followsL (l.map f) = true ↔ ∀ a ∈ l, follows (f a) = true := by
  induction l with
  | nil => simp [followsL]
  | cons a l ih => simp [followsL, ih]
end

theorem kn_flag (b : Bool) (pre loc : String) : kidNames (flagN b pre loc) = pres b pre loc := by
  cases b <;> rfl

theorem ht_flag (b : Bool) (pre loc : String) : hasText (flagN b pre loc) = false := by
  cases b <;> rfl

theorem kn_valN (loc : String) (o : Option String) : kidNames (valN loc o) = pres o.isSome "w" loc := by
  cases o <;> rfl

theorem ht_valN (loc : String) (o : Option String) : hasText (valN loc o) = false := by
  cases o <;> rfl

theorem kn_valO (loc : String) (o : Option String) : kidNames (valO loc o) = pres o.isSome "w" loc := by
  cases o <;> rfl

theorem ht_valO (loc : String) (o : Option String) : hasText (valO loc o) = false := by
  cases o <;> rfl

theorem kn_valI (loc : String) (o : Option Int64) : kidNames (valI loc o) = pres o.isSome "w" loc := by
  cases o <;> rfl

theorem ht_valI (loc : String) (o : Option Int64) : hasText (valI loc o) = false := by
  cases o <;> rfl

/-- An element with a known content model -/
theorem fo_el {pre loc : String} {as kids} {c : ContentModel} (h : contentOf ⟨pre, loc⟩ = some c) :
    follows (el pre loc as kids) =
      (fits c.places (kidNames kids) && (c.text || !hasText kids) && followsL kids) := by
  simp [el, follows, h]

/-- An element without content -/
theorem fo_leaf {pre loc : String} {as} (h : contentOf ⟨pre, loc⟩ = some {}) :
    follows (el pre loc as []) = true := by
  rw [fo_el h]; rfl

/-- An element with child elements only -/
theorem fo_par {pre loc : String} {as kids} {ps : List Place} {P Q : Prop}
    (h : contentOf ⟨pre, loc⟩ = some { places := ps }) (ht : hasText kids = false)
    (hf : fits ps (kidNames kids) = true ↔ P) (hk : followsL kids = true ↔ Q) :
    follows (el pre loc as kids) = true ↔ P ∧ Q := by
  rw [fo_el h]
  simp [ht, hf, hk]

theorem fo_par' {pre loc : String} {as kids} {ps : List Place}
    (h : contentOf ⟨pre, loc⟩ = some { places := ps }) (ht : hasText kids = false)
    (hf : fits ps (kidNames kids) = true) (hk : followsL kids = true) :
    follows (el pre loc as kids) = true := by
  rw [fo_el h]
  simp [ht, hf, hk]

theorem fo_flag {b : Bool} {pre loc : String} (h : contentOf ⟨pre, loc⟩ = some {}) :
    followsL (flagN b pre loc) = true := by
  cases b
  · rfl
  · simp [flagN, followsL, fo_leaf h]

theorem fo_valN {loc : String} {o : Option String} (h : contentOf ⟨"w", loc⟩ = some {}) :
    followsL (valN loc o) = true := by
  cases o
  · rfl
  · simp [valN, followsL, fo_leaf h]

theorem fo_valO {loc : String} {o : Option String} (h : contentOf ⟨"w", loc⟩ = some {}) :
    followsL (valO loc o) = true := by
  cases o
  · rfl
  · simp [valO, followsL, fo_leaf h]

theorem fo_valI {loc : String} {o : Option Int64} (h : contentOf ⟨"w", loc⟩ = some {}) :
    followsL (valI loc o) = true := by
  cases o
  · rfl
  · simp [valI, followsL, fo_leaf h]

/-! ## The order of optional elements -/

theorem pw_pres {R : QName → QName → Prop} {b pre loc} {l : List QName} :
    (pres b pre loc ++ l).Pairwise R ↔ (b = true → ∀ x ∈ l, R ⟨pre, loc⟩ x) ∧ l.Pairwise R := by
  cases b <;> simp [pres]

theorem all_pres {P : QName → Prop} {b pre loc} {l : List QName} :
    (∀ x ∈ pres b pre loc ++ l, P x) ↔ (b = true → P ⟨pre, loc⟩) ∧ ∀ x ∈ l, P x := by
  cases b <;> simp [pres]

/-! ## Names and texts of optional parts -/

@[local simp] theorem kn_mTabs (o) : kidNames (optN mTabs o) = pres o.isSome "w" "tabs" := by cases o <;> rfl
@[local simp] theorem ht_mTabs (o) : hasText (optN mTabs o) = false := by cases o <;> rfl
@[local simp] theorem kn_mSpacing (o) : kidNames (optN mSpacing o) = pres o.isSome "w" "spacing" := by cases o <;> rfl
@[local simp] theorem ht_mSpacing (o) : hasText (optN mSpacing o) = false := by cases o <;> rfl
@[local simp] theorem kn_mNumPr (o) : kidNames (optN mNumPr o) = pres o.isSome "w" "numPr" := by cases o <;> rfl
@[local simp] theorem ht_mNumPr (o) : hasText (optN mNumPr o) = false := by cases o <;> rfl
@[local simp] theorem kn_mInd (o) : kidNames (optN mInd o) = pres o.isSome "w" "ind" := by cases o <;> rfl
@[local simp] theorem ht_mInd (o) : hasText (optN mInd o) = false := by cases o <;> rfl
@[local simp] theorem kn_mShade (o) : kidNames (optN mShade o) = pres o.isSome "w" "shd" := by cases o <;> rfl
@[local simp] theorem ht_mShade (o) : hasText (optN mShade o) = false := by cases o <;> rfl
@[local simp] theorem kn_mRPr (o) : kidNames (optN mRPr o) = pres o.isSome "w" "rPr" := by cases o <;> rfl
@[local simp] theorem ht_mRPr (o) : hasText (optN mRPr o) = false := by cases o <;> rfl
@[local simp] theorem kn_mRunFonts (o) : kidNames (optN mRunFonts o) = pres o.isSome "w" "rFonts" := by cases o <;> rfl
@[local simp] theorem ht_mRunFonts (o) : hasText (optN mRunFonts o) = false := by cases o <;> rfl
@[local simp] theorem kn_mPPr (o) : kidNames (optN mPPr o) = pres o.isSome "w" "pPr" := by cases o <;> rfl
@[local simp] theorem ht_mPPr (o) : hasText (optN mPPr o) = false := by cases o <;> rfl
@[local simp] theorem kn_mExtent (o) : kidNames (optN mExtent o) = pres o.isSome "wp" "extent" := by cases o <;> rfl
@[local simp] theorem ht_mExtent (o) : hasText (optN mExtent o) = false := by cases o <;> rfl
@[local simp] theorem kn_mEffectExtent (o) : kidNames (optN mEffectExtent o) = pres o.isSome "wp" "effectExtent" := by cases o <;> rfl
@[local simp] theorem ht_mEffectExtent (o) : hasText (optN mEffectExtent o) = false := by cases o <;> rfl
@[local simp] theorem kn_mDocPr (o) : kidNames (optN mDocPr o) = pres o.isSome "wp" "docPr" := by cases o <;> rfl
@[local simp] theorem ht_mDocPr (o) : hasText (optN mDocPr o) = false := by cases o <;> rfl
@[local simp] theorem kn_mFramePr (o) : kidNames (optN mFramePr o) = pres o.isSome "wp" "cNvGraphicFramePr" := by cases o <;> rfl
@[local simp] theorem ht_mFramePr (o) : hasText (optN mFramePr o) = false := by cases o <;> rfl
@[local simp] theorem kn_mBlip (o) : kidNames (optN mBlip o) = pres o.isSome "a" "blip" := by cases o <;> rfl
@[local simp] theorem ht_mBlip (o) : hasText (optN mBlip o) = false := by cases o <;> rfl
@[local simp] theorem kn_mNvPicPr (o) : kidNames (optN mNvPicPr o) = pres o.isSome "pic" "nvPicPr" := by cases o <;> rfl
@[local simp] theorem ht_mNvPicPr (o) : hasText (optN mNvPicPr o) = false := by cases o <;> rfl
@[local simp] theorem kn_mPicFill (o) : kidNames (optN mPicFill o) = pres o.isSome "pic" "blipFill" := by cases o <;> rfl
@[local simp] theorem ht_mPicFill (o) : hasText (optN mPicFill o) = false := by cases o <;> rfl
@[local simp] theorem kn_mPicSpPr (o) : kidNames (optN mPicSpPr o) = pres o.isSome "pic" "spPr" := by cases o <;> rfl
@[local simp] theorem ht_mPicSpPr (o) : hasText (optN mPicSpPr o) = false := by cases o <;> rfl
@[local simp] theorem kn_mPrstGeom (o) : kidNames (optN mPrstGeom o) = pres o.isSome "a" "prstGeom" := by cases o <;> rfl
@[local simp] theorem ht_mPrstGeom (o) : hasText (optN mPrstGeom o) = false := by cases o <;> rfl
@[local simp] theorem kn_mTile (o) : kidNames (optN mTile o) = pres o.isSome "a" "tile" := by cases o <;> rfl
@[local simp] theorem ht_mTile (o) : hasText (optN mTile o) = false := by cases o <;> rfl
@[local simp] theorem kn_mSolidFill (o) : kidNames (optN mSolidFill o) = pres o.isSome "a" "solidFill" := by cases o <;> rfl
@[local simp] theorem ht_mSolidFill (o) : hasText (optN mSolidFill o) = false := by cases o <;> rfl
@[local simp] theorem kn_mABlipFill (o) : kidNames (optN mABlipFill o) = pres o.isSome "a" "blipFill" := by cases o <;> rfl
@[local simp] theorem ht_mABlipFill (o) : hasText (optN mABlipFill o) = false := by cases o <;> rfl
@[local simp] theorem kn_mLine (o) : kidNames (optN mLine o) = pres o.isSome "a" "ln" := by cases o <;> rfl
@[local simp] theorem ht_mLine (o) : hasText (optN mLine o) = false := by cases o <;> rfl
@[local simp] theorem kn_mBodyPr (o) : kidNames (optN mBodyPr o) = pres o.isSome "wps" "bodyPr" := by cases o <;> rfl
@[local simp] theorem ht_mBodyPr (o) : hasText (optN mBodyPr o) = false := by cases o <;> rfl
@[local simp] theorem kn_mCNvCnPr (o) : kidNames (optN mCNvCnPr o) = pres o.isSome "wps" "cNvCnPr" := by cases o <;> rfl
@[local simp] theorem ht_mCNvCnPr (o) : hasText (optN mCNvCnPr o) = false := by cases o <;> rfl
@[local simp] theorem kn_mCNvSpPr (o) : kidNames (optN mCNvSpPr o) = pres o.isSome "wps" "cNvSpPr" := by cases o <;> rfl
@[local simp] theorem ht_mCNvSpPr (o) : hasText (optN mCNvSpPr o) = false := by cases o <;> rfl
@[local simp] theorem kn_mBackground (o) : kidNames (optN mBackground o) = pres o.isSome "wpc" "bg" := by cases o <;> rfl
@[local simp] theorem ht_mBackground (o) : hasText (optN mBackground o) = false := by cases o <;> rfl
@[local simp] theorem kn_mWhole (o) : kidNames (optN mWhole o) = pres o.isSome "wpc" "whole" := by cases o <;> rfl
@[local simp] theorem ht_mWhole (o) : hasText (optN mWhole o) = false := by cases o <;> rfl
@[local simp] theorem kn_mCNvGrpSpPr (o) : kidNames (optN mCNvGrpSpPr o) = pres o.isSome "wpg" "cNvGrpSpPr" := by cases o <;> rfl
@[local simp] theorem ht_mCNvGrpSpPr (o) : hasText (optN mCNvGrpSpPr o) = false := by cases o <;> rfl
@[local simp] theorem kn_mPic (o) : kidNames (optN mPic o) = pres o.isSome "pic" "pic" := by cases o <;> rfl
@[local simp] theorem ht_mPic (o) : hasText (optN mPic o) = false := by cases o <;> rfl
@[local simp] theorem kn_mSimplePos (o) : kidNames (optN mSimplePos o) = pres o.isSome "wp" "simplePos" := by cases o <;> rfl
@[local simp] theorem ht_mSimplePos (o) : hasText (optN mSimplePos o) = false := by cases o <;> rfl
@[local simp] theorem kn_mTblPr (o) : kidNames (optN mTblPr o) = pres o.isSome "w" "tblPr" := by cases o <;> rfl
@[local simp] theorem ht_mTblPr (o) : hasText (optN mTblPr o) = false := by cases o <;> rfl
@[local simp] theorem kn_mGrid (o) : kidNames (optN mGrid o) = pres o.isSome "w" "tblGrid" := by cases o <;> rfl
@[local simp] theorem ht_mGrid (o) : hasText (optN mGrid o) = false := by cases o <;> rfl
@[local simp] theorem kn_mTblpPr (o) : kidNames (optN mTblpPr o) = pres o.isSome "w" "tblpPr" := by cases o <;> rfl
@[local simp] theorem ht_mTblpPr (o) : hasText (optN mTblpPr o) = false := by cases o <;> rfl
@[local simp] theorem kn_mLook (o) : kidNames (optN mLook o) = pres o.isSome "w" "tblLook" := by cases o <;> rfl
@[local simp] theorem ht_mLook (o) : hasText (optN mLook o) = false := by cases o <;> rfl
@[local simp] theorem kn_mTrPr (o) : kidNames (optN mTrPr o) = pres o.isSome "w" "trPr" := by cases o <;> rfl
@[local simp] theorem ht_mTrPr (o) : hasText (optN mTrPr o) = false := by cases o <;> rfl
@[local simp] theorem kn_mTcPr (o) : kidNames (optN mTcPr o) = pres o.isSome "w" "tcPr" := by cases o <;> rfl
@[local simp] theorem ht_mTcPr (o) : hasText (optN mTcPr o) = false := by cases o <;> rfl
@[local simp] theorem kn_mPgSz (o) : kidNames (optN mPgSz o) = pres o.isSome "w" "pgSz" := by cases o <;> rfl
@[local simp] theorem ht_mPgSz (o) : hasText (optN mPgSz o) = false := by cases o <;> rfl
@[local simp] theorem kn_mPgMar (o) : kidNames (optN mPgMar o) = pres o.isSome "w" "pgMar" := by cases o <;> rfl
@[local simp] theorem ht_mPgMar (o) : hasText (optN mPgMar o) = false := by cases o <;> rfl
@[local simp] theorem kn_mCols (o) : kidNames (optN mCols o) = pres o.isSome "w" "cols" := by cases o <;> rfl
@[local simp] theorem ht_mCols (o) : hasText (optN mCols o) = false := by cases o <;> rfl
@[local simp] theorem kn_mDocGrid (o) : kidNames (optN mDocGrid o) = pres o.isSome "w" "docGrid" := by cases o <;> rfl
@[local simp] theorem ht_mDocGrid (o) : hasText (optN mDocGrid o) = false := by cases o <;> rfl
@[local simp] theorem kn_mOff (l o) : kidNames (optN (mOff l) o) = pres o.isSome "a" l := by cases o <;> rfl
@[local simp] theorem ht_mOff (l o) : hasText (optN (mOff l) o) = false := by cases o <;> rfl
@[local simp] theorem kn_mExt (l o) : kidNames (optN (mExt l) o) = pres o.isSome "a" l := by cases o <;> rfl
@[local simp] theorem ht_mExt (l o) : hasText (optN (mExt l) o) = false := by cases o <;> rfl
@[local simp] theorem kn_mLineEnd (l o) : kidNames (optN (mLineEnd l) o) = pres o.isSome "a" l := by cases o <;> rfl
@[local simp] theorem ht_mLineEnd (l o) : hasText (optN (mLineEnd l) o) = false := by cases o <;> rfl
@[local simp] theorem kn_mPosition (l o) : kidNames (optN (mPosition l) o) = pres o.isSome "wp" l := by cases o <;> rfl
@[local simp] theorem ht_mPosition (l o) : hasText (optN (mPosition l) o) = false := by cases o <;> rfl
@[local simp] theorem kn_mWidth (l o) : kidNames (optN (mWidth l) o) = pres o.isSome "w" l := by cases o <;> rfl
@[local simp] theorem ht_mWidth (l o) : hasText (optN (mWidth l) o) = false := by cases o <;> rfl
@[local simp] theorem kn_mBorder (l o) : kidNames (optN (mBorder l) o) = pres o.isSome "w" l := by cases o <;> rfl
@[local simp] theorem ht_mBorder (l o) : hasText (optN (mBorder l) o) = false := by cases o <;> rfl
@[local simp] theorem kn_mBorders (l o) : kidNames (optN (mBorders l) o) = pres o.isSome "w" l := by cases o <;> rfl
@[local simp] theorem ht_mBorders (l o) : hasText (optN (mBorders l) o) = false := by cases o <;> rfl
@[local simp] theorem kn_mIdName (l o) : kidNames (optN (mIdName l) o) = pres o.isSome l "cNvPr" := by cases o <;> rfl
@[local simp] theorem ht_mIdName (l o) : hasText (optN (mIdName l) o) = false := by cases o <;> rfl
@[local simp] theorem kn_mShapePr (a l o) : kidNames (optN (mShapePr a l) o) = pres o.isSome a l := by cases o <;> rfl
@[local simp] theorem ht_mShapePr (a l o) : hasText (optN (mShapePr a l) o) = false := by cases o <;> rfl
@[local simp] theorem kn_optEl {α : Type} {as : α → List Attr} {ks : α → List Node} (a l) (o : Option α) :
    kidNames (optN (fun n => el a l (as n) (ks n)) o) = pres o.isSome a l := by cases o <;> rfl
@[local simp] theorem ht_optEl {α : Type} {as : α → List Attr} {ks : α → List Node} (a l) (o : Option α) :
    hasText (optN (fun n => el a l (as n) (ks n)) o) = false := by cases o <;> rfl

attribute [local simp] kn_append ht_append fo_append kn_flag ht_flag kn_valN ht_valN kn_valO ht_valO kn_valI
  ht_valI

/-! ## Properties -/

theorem fo_mShade (s : Shade) : follows (mShade s) = true := fo_leaf rfl
theorem fo_mSpacing (s : Spacing) : follows (mSpacing s) = true := fo_leaf rfl
theorem fo_mInd (s : Ind) : follows (mInd s) = true := fo_leaf rfl
theorem fo_mTab (s : Tab) : follows (mTab s) = true := fo_leaf rfl
theorem fo_mRunFonts (s : RunFonts) : follows (mRunFonts s) = true := fo_leaf rfl
theorem fo_mBr (s : Br) : follows (mBr s) = true := fo_leaf rfl

theorem fo_mText (t : Text) : follows (mText t) = true := by
  rw [mText, fo_el (c := { text := true }) rfl]
  unfold textN
  split <;> rfl

theorem dropWhile_nil {p : QName → Bool} {ks : List QName} :
    ks.dropWhile p = [] ↔ ∀ k ∈ ks, p k = true := by
  induction ks with
  | nil => simp
  | cons k ks ih =>
    rw [List.dropWhile_cons]
    split
    · rename_i h; simp [ih, h]
    · rename_i h; simp [h]

theorem fits_any {names ks : List QName} : fits [anyOf names] ks = true ↔ ∀ k ∈ ks, k ∈ names := by
  simp [fits, anyOf, dropWhile_nil]

theorem fits_some1 {names ks : List QName} :
    fits [some1 names] ks = true ↔ ks ≠ [] ∧ ∀ k ∈ ks, k ∈ names := by
  cases ks with
  | nil => simp [fits, some1]
  | cons k ks =>
    simp only [fits, some1, ↓reduceIte, Bool.not_true, Bool.false_or, Bool.and_eq_true,
      List.isEmpty_iff, dropWhile_nil]
    simp

theorem fo_mTabs (ts : List Tab) : follows (mTabs ts) = true ↔ ts ≠ [] := by
  unfold mTabs
  refine (fo_par (ps := [some1 (nsOf "w" ["tab"])]) (P := ts ≠ []) (Q := True) rfl
    (ht_map (f := mTab) (pre := "w") (loc := "tab") (fun _ => rfl) ts) ?_ ?_).trans (by simp)
  · rw [kn_map (f := mTab) (pre := "w") (loc := "tab") (fun _ => rfl), fits_some1]
    cases ts <;> simp [nsOf]
  · simp [fo_map, fo_mTab]

/-- Closes `followsL` of optional parts that always follow their content models. -/
syntax "fokids" : tactic
macro_rules
  | `(tactic| fokids) => `(tactic| (
      try simp only [fo_append, Bool.and_eq_true]
      repeat' apply And.intro
      all_goals first
        | exact fo_flag rfl
        | exact fo_valN rfl
        | exact fo_valO rfl
        | exact fo_valI rfl
        | exact fo_opt' (fun _ => fo_leaf rfl) _
        | rfl))

theorem fo_mRPr (r : RPr) : follows (mRPr r) = true ↔ NeatRPr r := by
  unfold mRPr
  refine (fo_par (ps := [anyOf (nsOf "w" ["rStyle", "rFonts", "b", "i", "iCs", "strike", "color",
    "spacing", "kern", "sz", "szCs", "highlight", "u", "shd", "vertAlign"])]) rfl
    (P := r.style = none) (Q := True) (by simp) ?_ ?_).trans (by simp [NeatRPr])
  · rw [fits_any]
    simp only [kn_append, kn_mRunFonts, kn_flag, kn_mSpacing, kn_valN, kn_valO, kn_valI, kn_mShade,
      List.append_assoc]
    rw [← List.append_nil (pres r.strike.isSome "w" "strike")]
    simp only [all_pres]
    simp [nsOf]
  · refine iff_of_true ?_ trivial
    fokids

theorem fo_mNumPr (n : NumPr) : follows (mNumPr n) = true ↔ NeatNumPr n := by
  unfold mNumPr
  refine (fo_par (ps := opts "w" ["ilvl", "numId"]) (P := NeatNumPr n) (Q := True) rfl (by simp) ?_
    (iff_of_true (by fokids) trivial)).trans (by simp)
  have h : ∀ a b : Bool, fits (opts "w" ["ilvl", "numId"]) (pres a "w" "numId" ++ pres b "w" "ilvl") =
      (!a || !b) := by decide
  simp [h, NeatNumPr]

/-- The elements of paragraph properties in the order of the content model -/
def pPrOrder : List String := ["pStyle", "numPr", "shd", "tabs", "kinsoku", "overflowPunct",
  "adjustRightInd", "snapToGrid", "spacing", "ind", "jc", "textAlignment", "rPr"]

theorem pPr_order (tabs spacing numPr ind jc shd kern pStyle textAlignment adjustRightInd snapToGrid
    kinsoku overflowPunct rPr : Bool) :
    fits (opts "w" pPrOrder) (pres tabs "w" "tabs" ++ (pres spacing "w" "spacing" ++
      (pres numPr "w" "numPr" ++ (pres ind "w" "ind" ++ (pres jc "w" "jc" ++ (pres shd "w" "shd" ++
      (pres kern "w" "kern" ++ (pres pStyle "w" "pStyle" ++ (pres textAlignment "w" "textAlignment" ++
      (pres adjustRightInd "w" "adjustRightInd" ++ (pres snapToGrid "w" "snapToGrid" ++
      (pres kinsoku "w" "kinsoku" ++ (pres overflowPunct "w" "overflowPunct" ++
      (pres rPr "w" "rPr" ++ [])))))))))))))) = true ↔
    kern = false ∧
    (pStyle = true → tabs = false ∧ spacing = false ∧ numPr = false ∧ ind = false ∧ jc = false ∧
      shd = false) ∧
    (numPr = true → tabs = false ∧ spacing = false) ∧
    (shd = true → tabs = false ∧ spacing = false ∧ ind = false ∧ jc = false) ∧
    (adjustRightInd = true ∨ snapToGrid = true →
      spacing = false ∧ ind = false ∧ jc = false ∧ textAlignment = false) ∧
    (kinsoku = true ∨ overflowPunct = true →
      spacing = false ∧ ind = false ∧ jc = false ∧ textAlignment = false ∧ adjustRightInd = false ∧
        snapToGrid = false) := by
  rw [fits_opts, sub_iff (by decide)]
  simp only [all_pres, pw_pres]
  simp only [← List.isSublist_iff_sublist]
  simp [nsOf, pPrOrder, List.isSublist]
  intro hk
  subst hk
  constructor
  · intro h
    refine ⟨?_, ?_, ?_, ?_, ?_⟩
    · intro hx; subst hx; simp at h; simp [h]
    · intro hx; subst hx; simp at h; simp [h]
    · intro hx; subst hx; simp at h; simp [h]
    · rintro (hx | hx) <;> subst hx <;> simp at h <;> simp [h]
    · rintro (hx | hx) <;> subst hx <;> simp at h <;> simp [h]
  · rintro ⟨h1, h2, h3, h4, h5⟩
    cases pStyle
    · cases numPr <;> cases shd <;> cases adjustRightInd <;> cases snapToGrid <;> cases kinsoku <;>
        cases overflowPunct <;> simp_all
    · cases adjustRightInd <;> cases snapToGrid <;> cases kinsoku <;> cases overflowPunct <;> simp_all

theorem fo_mPPr (p : PPr) : follows (mPPr p) = true ↔ NeatPPr p := by
  unfold mPPr
  refine (fo_par (ps := opts "w" pPrOrder) rfl (by simp) (P :=
    p.kern = none ∧
    (p.style ≠ none → p.tabs = none ∧ p.spacing = none ∧ p.numPr = none ∧ p.ind = none ∧
      p.jc = none ∧ p.shade = none) ∧
    (p.numPr ≠ none → p.tabs = none ∧ p.spacing = none) ∧
    (p.shade ≠ none → p.tabs = none ∧ p.spacing = none ∧ p.ind = none ∧ p.jc = none) ∧
    (p.adjustRightInd ≠ none ∨ p.snapToGrid ≠ none →
      p.spacing = none ∧ p.ind = none ∧ p.jc = none ∧ p.textAlignment = none) ∧
    (p.kinsoku ≠ none ∨ p.overflowPunct ≠ none →
      p.spacing = none ∧ p.ind = none ∧ p.jc = none ∧ p.textAlignment = none ∧
        p.adjustRightInd = none ∧ p.snapToGrid = none)) (Q :=
    (∀ t, p.tabs = some t → t ≠ []) ∧ (∀ n, p.numPr = some n → NeatNumPr n) ∧
      (∀ r, p.rpr = some r → NeatRPr r)) ?_ ?_).trans ?_
  · have h := pPr_order p.tabs.isSome p.spacing.isSome p.numPr.isSome p.ind.isSome p.jc.isSome
      p.shade.isSome p.kern.isSome p.style.isSome p.textAlignment.isSome p.adjustRightInd.isSome
      p.snapToGrid.isSome p.kinsoku.isSome p.overflowPunct.isSome p.rpr.isSome
    simp only [kn_append, kn_mTabs, kn_mSpacing, kn_mNumPr, kn_mInd, kn_valN, kn_mShade, kn_valI, kn_mRPr,
      List.append_assoc]
    rw [← List.append_nil (pres p.rpr.isSome "w" "rPr"), h]
    simp only [Option.isSome_eq_false_iff, Option.isNone_iff_eq_none, Option.isSome_iff_ne_none]
  · simp only [fo_append, Bool.and_eq_true, fo_opt fo_mTabs, fo_opt' fo_mSpacing, fo_opt fo_mNumPr,
      fo_opt' fo_mInd, fo_opt' fo_mShade, fo_opt fo_mRPr, fo_valN (show contentOf ⟨"w", "jc"⟩ = _ from rfl),
      fo_valN (show contentOf ⟨"w", "pStyle"⟩ = _ from rfl),
      fo_valN (show contentOf ⟨"w", "textAlignment"⟩ = _ from rfl),
      fo_valI (show contentOf ⟨"w", "kern"⟩ = _ from rfl),
      fo_valI (show contentOf ⟨"w", "adjustRightInd"⟩ = _ from rfl),
      fo_valI (show contentOf ⟨"w", "snapToGrid"⟩ = _ from rfl),
      fo_valI (show contentOf ⟨"w", "kinsoku"⟩ = _ from rfl),
      fo_valI (show contentOf ⟨"w", "overflowPunct"⟩ = _ from rfl)]
    simp [and_assoc]
  · constructor
    · rintro ⟨⟨h1, h2, h3, h4, h5, h6⟩, h7, h8, h9⟩
      exact ⟨fun h => h7 [] h rfl, h1, h8, h9, h2, h3, h4, h5, h6⟩
    · rintro ⟨h7, h1, h8, h9, h2, h3, h4, h5, h6⟩
      exact ⟨⟨h1, h2, h3, h4, h5, h6⟩, fun t ht e => h7 (e ▸ ht), h8, h9⟩

/-! ## Parts of drawings -/

theorem fo_mExtent (e : Ext) : follows (mExtent e) = true := fo_leaf rfl
theorem fo_mEffectExtent (e : EffectExtent) : follows (mEffectExtent e) = true := fo_leaf rfl
theorem fo_mDocPr (e : IdName) : follows (mDocPr e) = true := fo_leaf rfl
theorem fo_mSimplePos (e : Off) : follows (mSimplePos e) = true := fo_leaf rfl
theorem fo_mTile (e : Tile) : follows (mTile e) = true := fo_leaf rfl

theorem fo_mFramePr (f : FrameLocks) : follows (mFramePr f) = true := by
  unfold mFramePr
  refine fo_par' (ps := [opt "a" "graphicFrameLocks"]) rfl rfl rfl ?_
  simp only [followsL, Bool.and_true]
  exact fo_leaf rfl

theorem fo_mNvPicPr (n : NvPicPr) : follows (mNvPicPr n) = true := by
  unfold mNvPicPr mIdName mCNvPicPr
  refine fo_par' (ps := [req "pic" "cNvPr", req "pic" "cNvPicPr"]) rfl rfl rfl ?_
  simp only [followsL, Bool.and_true, Bool.and_eq_true]
  refine ⟨fo_leaf rfl, fo_par' (ps := [opt "a" "picLocks"]) rfl (by simp) ?_ (by fokids)⟩
  cases n.locks <;> rfl

theorem fo_mBlip (b : Blip) : follows (mBlip b) = true := by
  unfold mBlip
  refine fo_par' (ps := [anyOf (nsOf "a" ["alphaModFix"])]) rfl (by simp) ?_ (by fokids)
  cases b.alphaModFix <;> rfl

theorem fo_mPicFill (f : BlipFill) : follows (mPicFill f) = true := by
  unfold mPicFill
  refine fo_par' (ps := [opt "a" "blip", opt "a" "srcRect", { names := nsOf "a" ["tile", "stretch"] }])
    rfl rfl rfl ?_
  simp only [followsL, Bool.and_true, Bool.and_eq_true]
  refine ⟨fo_mBlip _, fo_par' (ps := [opt "a" "fillRect"]) rfl (by simp) ?_ (by fokids)⟩
  cases f.fillRect <;> rfl

theorem fo_mXfrm (x : Xfrm) : follows (mXfrm x) = true := by
  unfold mXfrm
  refine fo_par' (ps := opts "a" ["off", "ext", "chOff", "chExt"]) rfl ?_ ?_ ?_
  · rw [ht_append, ht_append]; cases x.chOff <;> cases x.chExt <;> rfl
  · cases x.chOff <;> cases x.chExt <;> rfl
  · simp only [fo_append, Bool.and_eq_true, followsL, Bool.and_true]
    exact ⟨⟨⟨fo_leaf rfl, fo_leaf rfl⟩, fo_opt' (fun _ => fo_leaf rfl) _⟩, fo_opt' (fun _ => fo_leaf rfl) _⟩

theorem fo_mPrstGeom (g : PrstGeom) : follows (mPrstGeom g) = true := by
  unfold mPrstGeom
  refine fo_par' (ps := [opt "a" "avLst"]) rfl (by simp) ?_ (by fokids)
  cases g.avLst <;> rfl

theorem fo_mPicSpPr (x : PicSpPr) : follows (mPicSpPr x) = true := by
  unfold mPicSpPr
  refine fo_par' (ps := [opt "a" "xfrm", opt "a" "prstGeom",
      { names := nsOf "a" ["noFill", "solidFill", "blipFill"] }, opt "a" "ln"]) rfl ?_ ?_ ?_
  · cases x.prstGeom <;> rfl
  · cases x.prstGeom <;> rfl
  · simp only [fo_append, Bool.and_eq_true, followsL, Bool.and_true, fo_mXfrm, true_and]
    exact fo_opt' fo_mPrstGeom _

theorem fo_mPic (p : Picture) : follows (mPic p) = true ↔ NeatPic p := by
  unfold mPic
  refine (fo_par (ps := [req "pic" "nvPicPr", req "pic" "blipFill", req "pic" "spPr"]) rfl (by simp)
    (P := NeatPic p) (Q := True) ?_ (iff_of_true ?_ trivial)).trans (by simp)
  · have h : ∀ a b c : Bool, fits [req "pic" "nvPicPr", req "pic" "blipFill", req "pic" "spPr"]
        (pres a "pic" "nvPicPr" ++ pres b "pic" "blipFill" ++ pres c "pic" "spPr") = (a && b && c) := by
      decide
    simp only [kn_append, kn_mNvPicPr, kn_mPicFill, kn_mPicSpPr, h, Bool.and_eq_true,
      Option.isSome_iff_ne_none, NeatPic, and_assoc]
  · simp [fo_opt' fo_mNvPicPr, fo_opt' fo_mPicFill, fo_opt' fo_mPicSpPr]

theorem fo_mPosition (l : String) (h : contentOf ⟨"wp", l⟩ = some { places := [req "wp" "posOffset"] })
    (p : Position) : follows (mPosition l p) = true := by
  unfold mPosition
  refine fo_par' h rfl rfl ?_
  simp only [followsL, Bool.and_true]
  rw [fo_el (c := { text := true }) rfl]
  rfl

theorem fo_mABlipFill (f : ABlipFill) : follows (mABlipFill f) = true := by
  unfold mABlipFill
  refine fo_par' (ps := [opt "a" "blip", opt "a" "srcRect", { names := nsOf "a" ["tile", "stretch"] }])
    rfl (by simp) ?_ ?_
  · cases f.blip <;> cases f.srcRect <;> cases f.tile <;> rfl
  · simp [fo_opt' fo_mBlip, fo_opt' fo_mTile, fo_flag (show contentOf ⟨"a", "srcRect"⟩ = _ from rfl)]

theorem fo_mSolidFill (c : Option String) : follows (mSolidFill c) = true := by
  unfold mSolidFill
  refine fo_par' (ps := [opt "a" "srgbClr"]) rfl (by simp) ?_ (by fokids)
  cases c <;> rfl

theorem fo_mLine (l : Line) : follows (mLine l) = true ↔ NeatLine l := by
  unfold mLine
  refine (fo_par (ps := [{ names := nsOf "a" ["noFill", "solidFill"] }, opt "a" "prstDash",
      { names := nsOf "a" ["round", "miter"] }, opt "a" "headEnd", opt "a" "tailEnd"]) rfl (by simp)
    (P := NeatLine l) (Q := True) ?_ (iff_of_true ?_ trivial)).trans (by simp)
  · have h : ∀ a b c d e f g : Bool, fits [{ names := nsOf "a" ["noFill", "solidFill"] },
        opt "a" "prstDash", { names := nsOf "a" ["round", "miter"] }, opt "a" "headEnd", opt "a" "tailEnd"]
        (pres a "a" "noFill" ++ pres b "a" "solidFill" ++ pres c "a" "prstDash" ++ pres d "a" "miter" ++
          pres e "a" "round" ++ pres f "a" "headEnd" ++ pres g "a" "tailEnd") =
        (!(a && b) && !(d && e)) := by decide
    simp only [kn_append, kn_flag, kn_mSolidFill, kn_optEl, kn_mLineEnd, h, NeatLine, NotBoth]
    simp only [Bool.and_eq_true, Bool.not_eq_true', ← Bool.not_eq_true, Option.isSome_iff_ne_none]
  · simp only [fo_append, Bool.and_eq_true, fo_opt' fo_mSolidFill, true_and, and_true]
    refine ⟨⟨⟨⟨⟨?_, ?_⟩, ?_⟩, ?_⟩, ?_⟩, ?_⟩
    · exact fo_flag rfl
    · exact fo_opt' (fun _ => fo_leaf rfl) _
    · exact fo_opt' (fun _ => fo_leaf rfl) _
    · exact fo_flag rfl
    · exact fo_opt' (fun _ => fo_leaf rfl) _
    · exact fo_opt' (fun _ => fo_leaf rfl) _

/-- The content model of the properties of a shape -/
def spPrPlaces : List Place := [opt "a" "xfrm", opt "a" "prstGeom",
  { names := nsOf "a" ["noFill", "solidFill", "blipFill"] }, opt "a" "ln"]

theorem fo_mShapePr (s : ShapePr) : follows (mShapePr "wps" "spPr" s) = true ↔ NeatShapePr s := by
  unfold mShapePr
  refine (fo_par (ps := spPrPlaces) rfl (by simp [hasText, mXfrm, mPrstGeom, el])
    (P := NotBoth (s.solidFill ≠ none) (s.blipFill ≠ none) ∧ NotBoth (s.solidFill ≠ none) (s.noFill = true) ∧
      NotBoth (s.blipFill ≠ none) (s.noFill = true)) (Q := ∀ l, s.line = some l → NeatLine l) ?_ ?_).trans ?_
  · have h : ∀ a b c d : Bool, fits spPrPlaces
        ([⟨"a", "xfrm"⟩, ⟨"a", "prstGeom"⟩] ++ pres a "a" "solidFill" ++ pres b "a" "blipFill" ++
          pres c "a" "noFill" ++ pres d "a" "ln") =
        (!(a && b) && !(a && c) && !(b && c)) := by decide
    have e : kidNames [mXfrm s.xfrm, mPrstGeom s.prstGeom] = [⟨"a", "xfrm"⟩, ⟨"a", "prstGeom"⟩] := rfl
    simp only [kn_append, kn_flag, kn_mSolidFill, kn_mABlipFill, kn_mLine, e, h, NotBoth]
    simp only [Bool.and_eq_true, Bool.not_eq_true', ← Bool.not_eq_true, Option.isSome_iff_ne_none,
      and_assoc]
  · simp only [fo_append, Bool.and_eq_true, followsL, fo_mXfrm, fo_mPrstGeom, fo_opt' fo_mSolidFill,
      fo_opt' fo_mABlipFill, fo_opt fo_mLine, true_and, and_true]
    simp [fo_flag (show contentOf ⟨"a", "noFill"⟩ = _ from rfl)]
  · constructor
    · rintro ⟨⟨h1, h2, h3⟩, h4⟩; exact ⟨h1, h2, h3, h4⟩
    · rintro ⟨h1, h2, h3, h4⟩; exact ⟨⟨h1, h2, h3⟩, h4⟩

theorem fo_mCNvCnPr (b : Bool) : follows (mCNvCnPr b) = true := by
  unfold mCNvCnPr
  refine fo_par' (ps := [opt "a" "cxnSpLocks"]) rfl (by simp) ?_ (by fokids)
  cases b <;> rfl

theorem fo_mCNvSpPr (x : CNvSpPr) : follows (mCNvSpPr x) = true := by
  unfold mCNvSpPr
  refine fo_par' (ps := [opt "a" "spLocks"]) rfl (by simp) ?_ (by fokids)
  cases x.spLocks <;> rfl

theorem fo_mBodyPr (x : BodyPr) : follows (mBodyPr x) = true := by
  unfold mBodyPr
  refine fo_par' (ps := [opt "a" "noAutofit"]) rfl (by simp) ?_ (by fokids)
  cases x.noAutofit <;> rfl

theorem fo_mBackground (b : Bool) : follows (mBackground b) = true := by
  unfold mBackground
  refine fo_par' (ps := [opt "a" "noFill"]) rfl (by simp) ?_ (by fokids)
  cases b <;> rfl

theorem fo_mWhole (x : Option Line) : follows (mWhole x) = true ↔ ∀ l, x = some l → NeatLine l := by
  unfold mWhole
  refine (fo_par (ps := [opt "a" "ln"]) (P := True) rfl (by simp) (iff_of_true ?_ trivial)
    (fo_opt fo_mLine x)).trans (by simp)
  cases x <;> rfl

/-! ## Groups never follow their content model -/

theorem fo_grpSpPr (s : ShapePr) : follows (mShapePr "wpg" "grpSpPr" s) = false := by
  unfold mShapePr
  rw [fo_el (c := { places := [opt "a" "xfrm",
    { names := nsOf "a" ["noFill", "solidFill", "blipFill"] }] }) rfl]
  have e : kidNames [mXfrm s.xfrm, mPrstGeom s.prstGeom] = [⟨"a", "xfrm"⟩, ⟨"a", "prstGeom"⟩] := rfl
  simp only [kn_append, e]
  simp [fits, opt, nsOf]

theorem fo_mGroup (g : Group) : follows (mGroup g) = false := by
  obtain ⟨cNv, grp, elems⟩ := g
  simp only [mGroup]
  rw [fo_el (c := { places := [opt "wpg" "cNvPr", req "wpg" "cNvGrpSpPr", req "wpg" "grpSpPr",
      anyOf [⟨"wps", "wsp"⟩, ⟨"wpg", "grpSp"⟩, ⟨"pic", "pic"⟩]] }) rfl]
  cases grp with
  | some s => simp [optN, followsL, fo_grpSpPr]
  | none =>
    have h : ∀ x : Option Bool, ∀ ks : List QName, (∀ k ∈ ks, k ≠ ⟨"wpg", "cNvPr"⟩ ∧
        k ≠ ⟨"wpg", "cNvGrpSpPr"⟩ ∧ k ≠ ⟨"wpg", "grpSpPr"⟩) →
        fits [opt "wpg" "cNvPr", req "wpg" "cNvGrpSpPr", req "wpg" "grpSpPr",
          anyOf [⟨"wps", "wsp"⟩, ⟨"wpg", "grpSp"⟩, ⟨"pic", "pic"⟩]]
          (pres x.isSome "wpg" "cNvGrpSpPr" ++ ks) = false := by
      intro x ks h
      cases x <;> cases ks <;> simp_all [fits, pres, opt, req]
    have hk : ∀ es : List GItem, ∀ k ∈ kidNames (mGItems es), k ≠ ⟨"wpg", "cNvPr"⟩ ∧
        k ≠ ⟨"wpg", "cNvGrpSpPr"⟩ ∧ k ≠ ⟨"wpg", "grpSpPr"⟩ := by
      intro es
      induction es with
      | nil => simp [mGItems, kidNames]
      | cons e es ih =>
        cases e with
        | shape s => cases s; simpa [mGItems, mGItem, mShape, el, kidNames] using ih
        | pic s => simpa [mGItems, mGItem, mPic, el, kidNames] using ih
        | canvas s => cases s; simpa [mGItems, mGItem, mCanvas, el, kidNames] using ih
        | groupShape s => cases s; simpa [mGItems, mGItem, mGroupShape, el, kidNames] using ih
    have := h cNv _ (hk elems)
    have e : kidNames (optN (mShapePr "wpg" "grpSpPr") none) = [] := rfl
    rw [kn_append, kn_append, kn_mCNvGrpSpPr, e, List.append_nil, this]; rfl

/-! ## Paragraphs, runs, drawings -/

theorem fits_opt {x : QName} {ps : List Place} {ks : List QName} {b : Bool} (hx : x ∉ ks.head?) :
    fits ({ names := [x] } :: ps) ((if b then [x] else []) ++ ks) = fits ps ks := by
  cases b with
  | true => simp [fits]
  | false =>
    cases ks with
    | nil => simp [fits]
    | cons k ks =>
      have : k ≠ x := by rintro rfl; simp at hx
      simp [fits, this]

theorem fits_opt_any {x : QName} {names ks : List QName} {b : Bool} (hx : x ∉ ks) :
    fits [{ names := [x] }, anyOf names] ((if b then [x] else []) ++ ks) = true ↔ ∀ k ∈ ks, k ∈ names := by
  cases b with
  | true =>
    rw [← fits_any]
    simp [fits]
  | false =>
    cases ks with
    | nil => simp [fits, anyOf]
    | cons k ks =>
      have : k ≠ x := by rintro rfl; simp at hx
      rw [← fits_any]
      simp [fits, this]

/-- The names of the children of a paragraph -/
theorem kn_mPChild (c : PChild) : kidNames [mPChild c] =
    [match c with | .run _ => ⟨"w", "r"⟩ | .link _ => ⟨"w", "hyperlink"⟩ | .rpr _ => ⟨"w", "rPr"⟩] := by
  cases c with
  | run r => cases r; simp [mPChild, mRun, el, kidNames]
  | link h => cases h; simp [mPChild, mLink, el, kidNames]
  | rpr p => simp [mPChild, mRPr, el, kidNames]

theorem ht_mPChildren (cs : List PChild) : hasText (mPChildren cs) = false := by
  induction cs with
  | nil => rfl
  | cons c cs ih =>
    cases c with
    | run r => cases r; simpa [mPChildren, mPChild, mRun, el, hasText] using ih
    | link h => cases h; simpa [mPChildren, mPChild, mLink, el, hasText] using ih
    | rpr p => simpa [mPChildren, mPChild, mRPr, el, hasText] using ih

theorem kn_mPChildren (cs : List PChild) : kidNames (mPChildren cs) = cs.flatMap fun c => kidNames [mPChild c] := by
  induction cs with
  | nil => rfl
  | cons c cs ih =>
    rw [mPChildren, ← List.singleton_append, kn_append, ih]; rfl

theorem kn_mRChildren (cs : List RChild) : ∀ k ∈ kidNames (mRChildren cs),
    k ∈ nsOf "w" ["t", "tab", "br", "drawing"] := by
  induction cs with
  | nil => simp [mRChildren, kidNames]
  | cons c cs ih =>
    cases c with
    | text t => simpa [mRChildren, mRChild, mText, el, kidNames, nsOf] using ih
    | tab t => simpa [mRChildren, mRChild, mTab, el, kidNames, nsOf] using ih
    | br t => simpa [mRChildren, mRChild, mBr, el, kidNames, nsOf] using ih
    | drawing d => cases d; simpa [mRChildren, mRChild, mDrawing, el, kidNames, nsOf] using ih

theorem ht_mRChildren (cs : List RChild) : hasText (mRChildren cs) = false := by
  induction cs with
  | nil => rfl
  | cons c cs ih =>
    cases c with
    | text t => simpa [mRChildren, mRChild, mText, el, hasText] using ih
    | tab t => simpa [mRChildren, mRChild, mTab, el, hasText] using ih
    | br t => simpa [mRChildren, mRChild, mBr, el, hasText] using ih
    | drawing d => cases d; simpa [mRChildren, mRChild, mDrawing, el, hasText] using ih

theorem kn_mParas (ps : List Para) : kidNames (mParas ps) = List.replicate ps.length ⟨"w", "p"⟩ := by
  induction ps with
  | nil => rfl
  | cons p ps ih => cases p; simp [mParas, mPara, el, kidNames, ih, List.replicate_succ]

theorem ht_mParas (ps : List Para) : hasText (mParas ps) = false := by
  induction ps with
  | nil => rfl
  | cons p ps ih => cases p; simp [mParas, mPara, el, hasText, ih]

theorem kn_mCItems (cs : List CItem) : ∀ k ∈ kidNames (mCItems cs),
    k ∈ ([⟨"wps", "wsp"⟩, ⟨"pic", "pic"⟩, ⟨"wpg", "wgp"⟩] : List QName) := by
  induction cs with
  | nil => simp [mCItems, kidNames]
  | cons c cs ih =>
    cases c with
    | shape t => cases t; simpa [mCItems, mCItem, mShape, el, kidNames] using ih
    | pic t => simpa [mCItems, mCItem, mPic, el, kidNames] using ih
    | group t => cases t; simpa [mCItems, mCItem, mGroup, el, kidNames] using ih

theorem ht_mCItems (cs : List CItem) : hasText (mCItems cs) = false := by
  induction cs with
  | nil => rfl
  | cons c cs ih =>
    cases c with
    | shape t => cases t; simpa [mCItems, mCItem, mShape, el, hasText] using ih
    | pic t => simpa [mCItems, mCItem, mPic, el, hasText] using ih
    | group t => cases t; simpa [mCItems, mCItem, mGroup, el, hasText] using ih

theorem kn_mInlineO (o : Option Inline) : kidNames (mInlineO o) = pres o.isSome "wp" "inline" := by
  cases o with
  | none => rfl
  | some i => cases i; rfl
theorem ht_mInlineO (o : Option Inline) : hasText (mInlineO o) = false := by
  cases o with
  | none => rfl
  | some i => cases i; rfl
theorem kn_mAnchorO (o : Option Anchor) : kidNames (mAnchorO o) = pres o.isSome "wp" "anchor" := by
  cases o with
  | none => rfl
  | some i => cases i; rfl
theorem ht_mAnchorO (o : Option Anchor) : hasText (mAnchorO o) = false := by
  cases o with
  | none => rfl
  | some i => cases i; rfl
theorem kn_mGraphicO (o : Option Graphic) : kidNames (mGraphicO o) = pres o.isSome "a" "graphic" := by
  cases o with
  | none => rfl
  | some i => cases i; rfl
theorem ht_mGraphicO (o : Option Graphic) : hasText (mGraphicO o) = false := by
  cases o with
  | none => rfl
  | some i => cases i; rfl
theorem kn_mGraphicDataO (o : Option GraphicData) :
    kidNames (mGraphicDataO o) = pres o.isSome "a" "graphicData" := by
  cases o with
  | none => rfl
  | some i => cases i; rfl
theorem ht_mGraphicDataO (o : Option GraphicData) : hasText (mGraphicDataO o) = false := by
  cases o with
  | none => rfl
  | some i => cases i; rfl
theorem kn_mShapeO (o : Option Shape) : kidNames (mShapeO o) = pres o.isSome "wps" "wsp" := by
  cases o with
  | none => rfl
  | some i => cases i; rfl
theorem ht_mShapeO (o : Option Shape) : hasText (mShapeO o) = false := by
  cases o with
  | none => rfl
  | some i => cases i; rfl
theorem kn_mCanvasO (o : Option Canvas) : kidNames (mCanvasO o) = pres o.isSome "wpc" "wpc" := by
  cases o with
  | none => rfl
  | some i => cases i; rfl
theorem ht_mCanvasO (o : Option Canvas) : hasText (mCanvasO o) = false := by
  cases o with
  | none => rfl
  | some i => cases i; rfl
theorem kn_mGroupO (o : Option Group) : kidNames (mGroupO o) = pres o.isSome "wpg" "wgp" := by
  cases o with
  | none => rfl
  | some i => cases i; rfl
theorem ht_mGroupO (o : Option Group) : hasText (mGroupO o) = false := by
  cases o with
  | none => rfl
  | some i => cases i; rfl
theorem fo_mGroupO (o : Option Group) : followsL (mGroupO o) = true ↔ o.isNone = true := by
  cases o with
  | none => simp [mGroupO, followsL]
  | some i => simp [mGroupO, followsL, fo_mGroup]
theorem kn_mTextBoxO (o : Option TextBox) : kidNames (mTextBoxO o) = pres o.isSome "wps" "txbx" := by
  cases o with
  | none => rfl
  | some i => cases i; rfl
theorem ht_mTextBoxO (o : Option TextBox) : hasText (mTextBoxO o) = false := by
  cases o with
  | none => rfl
  | some i => cases i; rfl

attribute [local simp] kn_mInlineO ht_mInlineO kn_mAnchorO ht_mAnchorO kn_mGraphicO ht_mGraphicO
  kn_mGraphicDataO ht_mGraphicDataO kn_mShapeO ht_mShapeO kn_mCanvasO ht_mCanvasO kn_mGroupO ht_mGroupO
  kn_mTextBoxO ht_mTextBoxO ht_mPChildren ht_mRChildren ht_mParas ht_mCItems

/-- The content model of an inline drawing -/
def inlinePlaces : List Place := [req "wp" "extent", opt "wp" "effectExtent", req "wp" "docPr",
  opt "wp" "cNvGraphicFramePr", req "a" "graphic"]

theorem inline_fits : ∀ a b c d e : Bool, fits inlinePlaces (pres a "wp" "extent" ++
    pres b "wp" "effectExtent" ++ pres c "wp" "docPr" ++ pres d "wp" "cNvGraphicFramePr" ++
    pres e "a" "graphic") = (a && c && e) := by decide

/-- The content model of an anchored drawing -/
def anchorPlaces : List Place := [req "wp" "simplePos", req "wp" "positionH", req "wp" "positionV",
  req "wp" "extent", opt "wp" "effectExtent",
  { names := nsOf "wp" ["wrapNone", "wrapSquare"], need := true }, req "wp" "docPr",
  opt "wp" "cNvGraphicFramePr", req "a" "graphic"]

theorem anchor_fits : ∀ a b c d e f g h i j : Bool, fits anchorPlaces (pres a "wp" "simplePos" ++
    pres b "wp" "positionH" ++ pres c "wp" "positionV" ++ pres d "wp" "extent" ++
    pres e "wp" "effectExtent" ++ pres f "wp" "wrapNone" ++ pres g "wp" "wrapSquare" ++
    pres h "wp" "docPr" ++ pres i "wp" "cNvGraphicFramePr" ++ pres j "a" "graphic") =
    (a && b && c && d && (f != g) && h && j) := by decide +kernel

/-- The content model of a shape -/
def shapePlaces : List Place := [opt "wps" "cNvPr",
  { names := nsOf "wps" ["cNvSpPr", "cNvCnPr"], need := true }, req "wps" "spPr", opt "wps" "txbx",
  req "wps" "bodyPr"]

theorem shape_fits : ∀ a b c d e f : Bool, fits shapePlaces (pres a "wps" "cNvPr" ++
    pres b "wps" "cNvCnPr" ++ pres c "wps" "cNvSpPr" ++ pres d "wps" "spPr" ++ pres e "wps" "txbx" ++
    pres f "wps" "bodyPr") = ((b != c) && d && f) := by decide +kernel

/-- Paragraph children with names allowed in a paragraph -/
theorem pchild_names {cs : List PChild} : (∀ k ∈ kidNames (mPChildren cs), k ∈ nsOf "w" ["r", "hyperlink"]) ↔
    ∀ c ∈ cs, ∀ p, c ≠ .rpr p := by
  induction cs with
  | nil => simp [mPChildren, kidNames]
  | cons c cs ih =>
    rw [kn_mPChildren] at ih ⊢
    rw [List.flatMap_cons]
    simp only [List.mem_append, List.mem_cons, or_imp, forall_and, forall_eq, ih]
    refine and_congr ?_ Iff.rfl
    rw [kn_mPChild]
    cases c <;> simp [nsOf]

mutual
theorem fo_mPara : (x : Para) → (follows (mPara x) = true ↔ NeatPara x)
  | ⟨props, children, _⟩ => by
    simp only [mPara, NeatPara]
    refine (fo_par (ps := [opt "w" "pPr", anyOf (nsOf "w" ["r", "hyperlink"])]) rfl (by simp)
      (P := ∀ k ∈ kidNames (mPChildren children), k ∈ nsOf "w" ["r", "hyperlink"])
      (Q := (∀ p, props = some p → NeatPPr p) ∧ followsL (mPChildren children) = true) ?_ ?_).trans ?_
    · rw [kn_append, kn_mPPr]
      refine fits_opt_any ?_
      rw [kn_mPChildren]
      intro h
      obtain ⟨c, _, hc⟩ := List.mem_flatMap.1 h
      rw [kn_mPChild] at hc
      cases c <;> simp at hc
    · rw [fo_append, Bool.and_eq_true, fo_opt fo_mPPr]
    · rw [← fo_mPChildren children, and_left_comm]
theorem fo_mPChildren : (x : List PChild) →
    ((∀ k ∈ kidNames (mPChildren x), k ∈ nsOf "w" ["r", "hyperlink"]) ∧ followsL (mPChildren x) = true ↔
      NeatPChildren x)
  | [] => by simp [mPChildren, kidNames, followsL, NeatPChildren]
  | .run r :: cs => by
    have h := fo_mPChildren cs
    have h1 := fo_mRun r
    rw [pchild_names] at h ⊢
    simp only [mPChildren, mPChild, followsL, NeatPChildren, NeatPChild, Bool.and_eq_true, ← h, h1]
    simp [and_left_comm]
  | .link r :: cs => by
    have h := fo_mPChildren cs
    have h1 := fo_mLink r
    rw [pchild_names] at h ⊢
    simp only [mPChildren, mPChild, followsL, NeatPChildren, NeatPChild, Bool.and_eq_true, ← h, h1]
    simp [and_left_comm]
  | .rpr p :: cs => by
    rw [pchild_names]
    simp only [NeatPChildren, NeatPChild, false_and, iff_false, not_and]
    intro h
    exact absurd rfl (h _ (by simp) p)
theorem fo_mLink : (x : Hyperlink) → (follows (mLink x) = true ↔ NeatLink x)
  | ⟨_, run⟩ => by
    have h := fo_mRun run
    simp only [mLink, NeatLink]
    have e : kidNames [mRun run] = [⟨"w", "r"⟩] := by cases run; rfl
    refine (fo_par (ps := [anyOf (nsOf "w" ["r"])]) (P := True) (Q := NeatRun run) rfl
      (by cases run; rfl) (by rw [e]; decide) ?_).trans (by simp)
    simp [followsL, h]
theorem fo_mRun : (x : Run) → (follows (mRun x) = true ↔ NeatRun x)
  | ⟨_, rpr, instr, children⟩ => by
    have h := fo_mRChildren children
    simp only [mRun, NeatRun]
    have hi : hasText (if instr = "" then [] else [el "w" "instrText" [] [.text instr]]) = false := by
      split <;> rfl
    have hj : followsL (if instr = "" then [] else [el "w" "instrText" [] [.text instr]]) = true := by
      split
      · rfl
      · simp only [followsL, Bool.and_true]; rw [fo_el (c := { text := true }) rfl]; rfl
    have hk : ∀ k ∈ kidNames (if instr = "" then [] else [el "w" "instrText" [] [.text instr]]),
        k = ⟨"w", "instrText"⟩ := by
      split <;> simp [kidNames, el]
    refine (fo_par (ps := [opt "w" "rPr", anyOf (nsOf "w" ["t", "tab", "br", "drawing", "instrText"])])
      (P := True) (Q := (∀ r, rpr = some r → NeatRPr r) ∧ NeatRChildren children) rfl
      (by simp [hi]) ?_ ?_).trans (by simp)
    · rw [kn_append, kn_append, kn_mRPr, List.append_assoc]
      have hall : ∀ k ∈ kidNames (if instr = "" then [] else [el "w" "instrText" [] [.text instr]]) ++
          kidNames (mRChildren children), k ∈ nsOf "w" ["t", "tab", "br", "drawing", "instrText"] := by
        intro k hk'
        rcases List.mem_append.1 hk' with hk' | hk'
        · rw [hk k hk']; decide
        · have := kn_mRChildren children k hk'
          simp only [nsOf, List.map_cons, List.map_nil, List.mem_cons, List.not_mem_nil, or_false] at this ⊢
          rcases this with h | h | h | h <;> simp [h]
      refine iff_of_true ((fits_opt_any ?_).2 hall) trivial
      intro hn
      exact absurd (hall _ hn) (by decide)
    · simp only [fo_append, Bool.and_eq_true, fo_opt fo_mRPr, hj, h, and_true]
theorem fo_mRChildren : (x : List RChild) → (followsL (mRChildren x) = true ↔ NeatRChildren x)
  | [] => by simp [mRChildren, followsL, NeatRChildren]
  | c :: cs => by
    have h1 := fo_mRChild c
    have h2 := fo_mRChildren cs
    simp [mRChildren, followsL, NeatRChildren, h1, h2]
theorem fo_mRChild : (x : RChild) → (follows (mRChild x) = true ↔ NeatRChild x)
  | .text t => by simp [mRChild, NeatRChild, fo_mText]
  | .tab t => by simp [mRChild, NeatRChild, fo_mTab]
  | .br t => by simp [mRChild, NeatRChild, fo_mBr]
  | .drawing d => by
    have h := fo_mDrawing d
    simp only [mRChild, NeatRChild, h]
theorem fo_mDrawing : (x : Drawing) → (follows (mDrawing x) = true ↔ NeatDrawing x)
  | ⟨inl, anchor⟩ => by
    have h1 := fo_mInlineO inl
    have h2 := fo_mAnchorO anchor
    simp only [mDrawing, NeatDrawing]
    refine fo_par (ps := [some1 (nsOf "wp" ["inline", "anchor"])]) rfl (by simp) ?_ ?_
    · rw [kn_append, kn_mInlineO, kn_mAnchorO]
      have h : ∀ a b : Bool, fits [some1 (nsOf "wp" ["inline", "anchor"])]
        (pres a "wp" "inline" ++ pres b "wp" "anchor") = (a || b) := by decide
      rw [h, Bool.or_eq_true]
    · rw [fo_append, Bool.and_eq_true, h1, h2]
theorem fo_mInlineO : (x : Option Inline) → (followsL (mInlineO x) = true ↔ NeatInlineO x)
  | none => by simp [mInlineO, followsL, NeatInlineO]
  | some i => by
    have h := fo_mInline i
    simp [mInlineO, followsL, NeatInlineO, h]
theorem fo_mAnchorO : (x : Option Anchor) → (followsL (mAnchorO x) = true ↔ NeatAnchorO x)
  | none => by simp [mAnchorO, followsL, NeatAnchorO]
  | some i => by
    have h := fo_mAnchor i
    simp [mAnchorO, followsL, NeatAnchorO, h]
theorem fo_mInline : (x : Inline) → (follows (mInline x) = true ↔ NeatInline x)
  | ⟨_, _, _, _, extent, effectExtent, docPr, framePr, graphic, _⟩ => by
    have h := fo_mGraphicO graphic
    simp only [mInline, NeatInline]
    refine (fo_par (ps := inlinePlaces) (P := extent ≠ none ∧ docPr ≠ none ∧ graphic.isSome = true)
      (Q := followsL (mGraphicO graphic) = true) rfl (by simp) ?_ ?_).trans ?_
    · simp only [kn_append, kn_mExtent, kn_mEffectExtent, kn_mDocPr, kn_mFramePr, kn_mGraphicO,
        inline_fits, Bool.and_eq_true, Option.isSome_iff_ne_none, and_assoc]
    · simp [fo_opt' fo_mExtent, fo_opt' fo_mEffectExtent, fo_opt' fo_mDocPr, fo_opt' fo_mFramePr]
    · rw [← h, and_assoc, and_assoc]
theorem fo_mAnchor : (x : Anchor) → (follows (mAnchor x) = true ↔ NeatAnchor x)
  | ⟨_, _, _, _, _, _, _, _, _, _, simplePosXY, positionH, positionV, extent, effectExtent, wrapNone,
      wrapSquare, docPr, framePr, graphic, _⟩ => by
    have h := fo_mGraphicO graphic
    simp only [mAnchor, NeatAnchor]
    refine (fo_par (ps := anchorPlaces) (P := simplePosXY ≠ none ∧ positionH ≠ none ∧ positionV ≠ none ∧
        extent ≠ none ∧ (wrapNone = true ↔ wrapSquare = none) ∧ docPr ≠ none ∧ graphic.isSome = true)
      (Q := followsL (mGraphicO graphic) = true) rfl (by simp) ?_ ?_).trans ?_
    · simp only [kn_append, kn_mExtent, kn_mEffectExtent, kn_mDocPr, kn_mFramePr, kn_mGraphicO,
        kn_mSimplePos, kn_mPosition, kn_flag, kn_optEl, anchor_fits, Bool.and_eq_true,
        Option.isSome_iff_ne_none, and_assoc]
      have e : (wrapNone != wrapSquare.isSome) = true ↔ (wrapNone = true ↔ wrapSquare = none) := by
        cases wrapNone <;> cases wrapSquare <;> simp
      rw [e]
    · simp [fo_opt' fo_mExtent, fo_opt' fo_mEffectExtent, fo_opt' fo_mDocPr, fo_opt' fo_mFramePr,
        fo_opt' fo_mSimplePos, fo_opt' (fo_mPosition "positionH" rfl),
        fo_opt' (fo_mPosition "positionV" rfl), fo_flag (show contentOf ⟨"wp", "wrapNone"⟩ = _ from rfl)]
      intro _
      exact fo_opt' (fun _ => fo_leaf rfl) _
    · rw [← h]; simp only [and_assoc]
theorem fo_mGraphicO : (x : Option Graphic) →
    (x.isSome = true ∧ followsL (mGraphicO x) = true ↔ NeatGraphicO x)
  | none => by simp [NeatGraphicO]
  | some g => by
    have h := fo_mGraphic g
    simp [mGraphicO, followsL, NeatGraphicO, h]
theorem fo_mGraphic : (x : Graphic) → (follows (mGraphic x) = true ↔ NeatGraphic x)
  | ⟨_, data⟩ => by
    have h := fo_mGraphicDataO data
    simp only [mGraphic, NeatGraphic]
    refine (fo_par (ps := [req "a" "graphicData"]) (P := data.isSome = true)
      (Q := followsL (mGraphicDataO data) = true) rfl (by simp) ?_ Iff.rfl).trans h
    rw [kn_mGraphicDataO]
    cases data <;> simp [pres, fits, req]
theorem fo_mGraphicDataO : (x : Option GraphicData) →
    (x.isSome = true ∧ followsL (mGraphicDataO x) = true ↔ NeatGraphicDataO x)
  | none => by simp [NeatGraphicDataO]
  | some g => by
    have h := fo_mGraphicData g
    simp [mGraphicDataO, followsL, NeatGraphicDataO, h]
theorem fo_mGraphicData : (x : GraphicData) → (follows (mGraphicData x) = true ↔ NeatGraphicData x)
  | ⟨_, pic, shape, canvas, group⟩ => by
    have h1 := fo_mShapeO shape
    have h2 := fo_mCanvasO canvas
    simp only [mGraphicData, NeatGraphicData]
    refine (fo_par (ps := [anyOf [⟨"pic", "pic"⟩, ⟨"wps", "wsp"⟩, ⟨"wpc", "wpc"⟩, ⟨"wpg", "wgp"⟩]])
      (P := True) (Q := (∀ p, pic = some p → NeatPic p) ∧ NeatShapeO shape ∧ NeatCanvasO canvas ∧
        group.isNone = true) rfl (by simp) (iff_of_true ?_ trivial) ?_).trans (by simp)
    · simp only [kn_append, kn_mPic, kn_mShapeO, kn_mCanvasO, kn_mGroupO]
      have h : ∀ a b c d : Bool, fits [anyOf [⟨"pic", "pic"⟩, ⟨"wps", "wsp"⟩, ⟨"wpc", "wpc"⟩,
        ⟨"wpg", "wgp"⟩]] (pres a "pic" "pic" ++ pres b "wps" "wsp" ++ pres c "wpc" "wpc" ++
        pres d "wpg" "wgp") = true := by decide
      exact h _ _ _ _
    · simp only [fo_append, Bool.and_eq_true, fo_opt fo_mPic, h1, h2, fo_mGroupO, and_assoc]
theorem fo_mShapeO : (x : Option Shape) → (followsL (mShapeO x) = true ↔ NeatShapeO x)
  | none => by simp [mShapeO, followsL, NeatShapeO]
  | some i => by
    have h := fo_mShape i
    simp [mShapeO, followsL, NeatShapeO, h]
theorem fo_mCanvasO : (x : Option Canvas) → (followsL (mCanvasO x) = true ↔ NeatCanvasO x)
  | none => by simp [mCanvasO, followsL, NeatCanvasO]
  | some i => by
    have h := fo_mCanvas i
    simp [mCanvasO, followsL, NeatCanvasO, h]
theorem fo_mShape : (x : Shape) → (follows (mShape x) = true ↔ NeatShape x)
  | ⟨cNvPr, cNvCnPr, cNvSpPr, spPr, textBox, bodyPr⟩ => by
    have h := fo_mTextBoxO textBox
    simp only [mShape, NeatShape]
    refine (fo_par (ps := shapePlaces) (P := (cNvCnPr = none ↔ cNvSpPr ≠ none) ∧ spPr ≠ none ∧
        bodyPr ≠ none) (Q := (∀ s, spPr = some s → NeatShapePr s) ∧ NeatTextBoxO textBox) rfl
      (by simp) ?_ ?_).trans ?_
    · simp only [kn_append, kn_mIdName, kn_mCNvCnPr, kn_mCNvSpPr, kn_mShapePr, kn_mTextBoxO, kn_mBodyPr,
        shape_fits, Bool.and_eq_true, Option.isSome_iff_ne_none, and_assoc]
      have e : (cNvCnPr.isSome != cNvSpPr.isSome) = true ↔ (cNvCnPr = none ↔ cNvSpPr ≠ none) := by
        cases cNvCnPr <;> cases cNvSpPr <;> simp
      rw [e]
    · have e : followsL (optN (mIdName "wps") cNvPr) = true := fo_opt' (fun _ => fo_leaf rfl) _
      simp [fo_opt' fo_mCNvCnPr, fo_opt' fo_mCNvSpPr, fo_opt fo_mShapePr, fo_opt' fo_mBodyPr, h, e]
    · constructor
      · rintro ⟨⟨a, b, c⟩, d, e⟩; exact ⟨a, b, d, e, c⟩
      · rintro ⟨a, b, d, e, c⟩; exact ⟨⟨a, b, c⟩, d, e⟩
theorem fo_mTextBoxO : (x : Option TextBox) → (followsL (mTextBoxO x) = true ↔ NeatTextBoxO x)
  | none => by simp [mTextBoxO, followsL, NeatTextBoxO]
  | some i => by
    have h := fo_mTextBox i
    simp [mTextBoxO, followsL, NeatTextBoxO, h]
theorem fo_mTextBox : (x : TextBox) → (follows (mTextBox x) = true ↔ NeatTextBox x)
  | ⟨content⟩ => by
    have h := fo_mContentO content
    simp only [mTextBox, NeatTextBox]
    refine (fo_par (ps := [req "w" "txbxContent"]) (P := content.isSome = true)
      (Q := followsL (mContentO content) = true) rfl ?_ ?_ Iff.rfl).trans h
    · cases content <;> rfl
    · cases content
      · simp [mContentO, kidNames, fits, req]
      · simp [mContentO, el, kidNames, fits, req]
theorem fo_mContentO : (x : Option (List Para)) →
    (x.isSome = true ∧ followsL (mContentO x) = true ↔ NeatContentO x)
  | none => by simp [NeatContentO]
  | some ps => by
    have h := fo_mParas ps
    simp only [mContentO, NeatContentO, followsL, Bool.and_true, Option.isSome_some, true_and]
    refine (fo_par (ps := [some1 (nsOf "w" ["p", "tbl"])]) (P := ps.isEmpty = false)
      (Q := NeatParas ps) rfl (by simp) ?_ h)
    rw [kn_mParas, fits_some1]
    cases ps <;> simp [nsOf]
theorem fo_mParas : (x : List Para) → (followsL (mParas x) = true ↔ NeatParas x)
  | [] => by simp [mParas, followsL, NeatParas]
  | c :: cs => by
    have h1 := fo_mPara c
    have h2 := fo_mParas cs
    simp [mParas, followsL, NeatParas, h1, h2]
theorem fo_mCanvas : (x : Canvas) → (follows (mCanvas x) = true ↔ NeatCanvas x)
  | ⟨background, whole, items⟩ => by
    have h := fo_mCItems items
    simp only [mCanvas, NeatCanvas]
    refine (fo_par (ps := [opt "wpc" "bg", opt "wpc" "whole",
        anyOf [⟨"wps", "wsp"⟩, ⟨"pic", "pic"⟩, ⟨"wpg", "wgp"⟩]])
      (P := True) (Q := (∀ l, whole = some (some l) → NeatLine l) ∧ NeatCItems items) rfl (by simp)
      (iff_of_true ?_ trivial) ?_).trans (by simp)
    · rw [kn_append, kn_append, kn_mBackground, kn_mWhole]
      have hk := kn_mCItems items
      have h1 : ∀ ks : List QName, (∀ k ∈ ks, k ∈ ([⟨"wps", "wsp"⟩, ⟨"pic", "pic"⟩, ⟨"wpg", "wgp"⟩] :
          List QName)) → ∀ a b : Bool, fits [opt "wpc" "bg", opt "wpc" "whole",
          anyOf [⟨"wps", "wsp"⟩, ⟨"pic", "pic"⟩, ⟨"wpg", "wgp"⟩]]
          (pres a "wpc" "bg" ++ pres b "wpc" "whole" ++ ks) = true := by
        intro ks hks a b
        rw [List.append_assoc, ← fits_any.2 hks]
        refine (fits_opt ?_).trans (fits_opt ?_)
        · intro e
          have := List.mem_of_mem_head? e
          rcases List.mem_append.1 this with h | h
          · cases b <;> simp [pres] at h
          · have := hks _ h; simp at this
        · intro e
          have := hks _ (List.mem_of_mem_head? e); simp at this
      exact h1 _ hk _ _
    · simp only [fo_append, Bool.and_eq_true, fo_opt' fo_mBackground, fo_opt fo_mWhole, h, true_and]
      refine and_congr ⟨fun hw l hl => hw _ hl l rfl, fun hw x hx l hl => hw l (by rw [hx, hl])⟩ Iff.rfl
theorem fo_mCItems : (x : List CItem) → (followsL (mCItems x) = true ↔ NeatCItems x)
  | [] => by simp [mCItems, followsL, NeatCItems]
  | c :: cs => by
    have h1 := fo_mCItem c
    have h2 := fo_mCItems cs
    simp [mCItems, followsL, NeatCItems, h1, h2]
theorem fo_mCItem : (x : CItem) → (follows (mCItem x) = true ↔ NeatCItem x)
  | .shape s => by
    have h := fo_mShape s
    simp [mCItem, NeatCItem, h]
  | .pic p => by simp [mCItem, NeatCItem, fo_mPic]
  | .group g => by simp [mCItem, NeatCItem, fo_mGroup]
end

/-! ## Tables, sections, the document -/

theorem is_mPara (p : Para) : Is "w" "p" (mPara p) := by cases p; rfl

/-- The content model of borders -/
def borderPlaces : List Place := opts "w" ["top", "left", "bottom", "right", "insideH", "insideV"]

theorem fo_mBorder (l : String) (h : contentOf ⟨"w", l⟩ = some {}) (b : Border) :
    follows (mBorder l b) = true := fo_leaf h

theorem fo_mBorders (l : String) (h : contentOf ⟨"w", l⟩ = some { places := borderPlaces }) (b : Borders) :
    follows (mBorders l b) = true := by
  unfold mBorders
  refine fo_par' h (by simp) ?_ ?_
  · simp only [kn_append, kn_mBorder]
    generalize b.top.isSome = x1
    generalize b.left.isSome = x2
    generalize b.bottom.isSome = x3
    generalize b.right.isSome = x4
    generalize b.insideH.isSome = x5
    generalize b.insideV.isSome = x6
    revert x1 x2 x3 x4 x5 x6
    decide +kernel
  · simp [fo_opt' (fo_mBorder "top" rfl), fo_opt' (fo_mBorder "left" rfl),
      fo_opt' (fo_mBorder "bottom" rfl), fo_opt' (fo_mBorder "right" rfl),
      fo_opt' (fo_mBorder "insideH" rfl), fo_opt' (fo_mBorder "insideV" rfl)]

theorem fo_mTblPr (t : TblPr) : follows (mTblPr t) = true ↔ NeatTblPr t := by
  unfold mTblPr
  refine (fo_par (ps := opts "w" ["tblStyle", "tblpPr", "tblW", "jc", "tblBorders", "tblLook"])
    (P := NeatTblPr t) (Q := True) rfl (by simp) ?_ (iff_of_true ?_ trivial)).trans (by simp)
  · have h : ∀ a b c d e f : Bool, fits (opts "w" ["tblStyle", "tblpPr", "tblW", "jc", "tblBorders",
        "tblLook"]) (pres a "w" "tblpPr" ++ pres b "w" "tblStyle" ++ pres c "w" "tblW" ++ pres d "w" "jc" ++
        pres e "w" "tblBorders" ++ pres f "w" "tblLook") = !(a && b) := by decide +kernel
    simp only [kn_append, kn_mTblpPr, kn_valN, kn_mWidth, kn_mBorders, kn_mLook, h, NeatTblPr, NotBoth]
    simp only [Bool.not_eq_true', ← Bool.not_eq_true, Bool.and_eq_true, Option.isSome_iff_ne_none]
  · simp only [fo_append, Bool.and_eq_true, fo_opt' (fo_mBorders "tblBorders" rfl), and_true]
    refine ⟨⟨⟨⟨?_, ?_⟩, ?_⟩, ?_⟩, ?_⟩
    · exact fo_opt' (fun _ => fo_leaf rfl) _
    · exact fo_valN rfl
    · exact fo_opt' (fun _ => fo_leaf rfl) _
    · exact fo_valN rfl
    · exact fo_opt' (fun _ => fo_leaf rfl) _

theorem fo_mGrid (g : List (Option Int64)) : follows (mGrid g) = true := by
  unfold mGrid
  have h : hasText (g.flatMap (optN fun n => el "w" "gridCol" (intA "w" "w" n) [])) = false ∧
      (∀ k ∈ kidNames (g.flatMap (optN fun n => el "w" "gridCol" (intA "w" "w" n) [])),
        k = ⟨"w", "gridCol"⟩) ∧
      followsL (g.flatMap (optN fun n => el "w" "gridCol" (intA "w" "w" n) [])) = true := by
    induction g with
    | nil => exact ⟨rfl, by simp [kidNames], rfl⟩
    | cons o g ih =>
      obtain ⟨h1, h2, h3⟩ := ih
      rw [List.flatMap_cons]
      refine ⟨by simp [h1], ?_, ?_⟩
      · intro k hk
        rw [kn_append] at hk
        rcases List.mem_append.1 hk with hk | hk
        · cases o <;> simp [optN, kidNames, el] at hk; exact hk
        · exact h2 k hk
      · rw [fo_append, h3, Bool.and_true]
        exact fo_opt' (fun _ => fo_leaf rfl) _
  refine fo_par' (ps := [anyOf (nsOf "w" ["gridCol"])]) rfl h.1 (fits_any.2 ?_) h.2.2
  intro k hk; rw [h.2.1 k hk]; decide

theorem fo_mTrPr (t : TrPr) : follows (mTrPr t) = true := by
  unfold mTrPr
  refine fo_par' (ps := [anyOf (nsOf "w" ["trHeight", "jc"])]) rfl (by simp) ?_ (by fokids)
  cases t.height <;> cases t.jc <;> rfl

theorem fo_mTcPr (t : TcPr) : follows (mTcPr t) = true ↔ NeatTcPr t := by
  unfold mTcPr
  refine (fo_par (ps := opts "w" ["tcW", "gridSpan", "vMerge", "tcBorders", "shd", "vAlign"])
    (P := NeatTcPr t) (Q := True) rfl (by simp) ?_ (iff_of_true ?_ trivial)).trans (by simp)
  · have h : ∀ a b c d e f : Bool, fits (opts "w" ["tcW", "gridSpan", "vMerge", "tcBorders", "shd",
        "vAlign"]) (pres a "w" "tcW" ++ pres b "w" "vMerge" ++ pres c "w" "gridSpan" ++
        pres d "w" "tcBorders" ++ pres e "w" "shd" ++ pres f "w" "vAlign") = !(b && c) := by decide +kernel
    simp only [kn_append, kn_valN, kn_valO, kn_valI, kn_mWidth, kn_mBorders, kn_mShade, h, NeatTcPr, NotBoth]
    simp only [Bool.not_eq_true', ← Bool.not_eq_true, Bool.and_eq_true, Option.isSome_iff_ne_none]
  · simp only [fo_append, Bool.and_eq_true, fo_opt' (fo_mBorders "tcBorders" rfl), fo_opt' fo_mShade,
      and_true]
    refine ⟨⟨⟨?_, ?_⟩, ?_⟩, ?_⟩
    · exact fo_opt' (fun _ => fo_leaf rfl) _
    · exact fo_valO rfl
    · exact fo_valI rfl
    · exact fo_valN rfl

theorem fo_mCell (c : Cell) : follows (mCell c) = true ↔ NeatCell c := by
  unfold mCell
  refine (fo_par (ps := [opt "w" "tcPr", some1 (nsOf "w" ["p", "tbl"])]) (P := c.paras ≠ [])
    (Q := (∀ p, c.props = some p → NeatTcPr p) ∧ ∀ p ∈ c.paras, NeatPara p) rfl
    (by simp [ht_map is_mPara]) ?_ ?_).trans ?_
  · rw [kn_append, kn_mTcPr, kn_map is_mPara]
    have e := fits_opt (x := ⟨"w", "tcPr"⟩) (ps := [some1 (nsOf "w" ["p", "tbl"])])
      (ks := List.replicate c.paras.length ⟨"w", "p"⟩) (b := c.props.isSome)
      (by intro h; have := List.mem_of_mem_head? h; simp at this)
    show fits ({ names := [⟨"w", "tcPr"⟩] } :: [some1 (nsOf "w" ["p", "tbl"])])
      ((if c.props.isSome then [⟨"w", "tcPr"⟩] else []) ++ _) = true ↔ _
    rw [e]
    · rw [fits_some1]; cases c.paras <;> simp [nsOf]
  · simp only [fo_append, Bool.and_eq_true, fo_opt fo_mTcPr, fo_map, fo_mPara]
  · simp only [NeatCell, and_left_comm]

theorem fo_mRow (r : Row) : follows (mRow r) = true ↔ ∀ c ∈ r.cells, NeatCell c := by
  unfold mRow
  have hi : ∀ c, Is "w" "tc" (mCell c) := fun _ => rfl
  refine (fo_par (ps := [opt "w" "trPr", anyOf (nsOf "w" ["tc"])]) (P := True)
    (Q := ∀ c ∈ r.cells, NeatCell c) rfl (by simp [ht_map hi]) (iff_of_true ?_ trivial) ?_).trans (by simp)
  · rw [kn_append, kn_mTrPr, kn_map hi]
    refine (fits_opt_any ?_).2 ?_
    · simp
    · simp [nsOf]
  · simp [fo_opt' fo_mTrPr, fo_map, fo_mCell]

theorem fo_mTable (t : Table) : follows (mTable t) = true ↔ NeatTable t := by
  unfold mTable
  have hi : ∀ c, Is "w" "tr" (mRow c) := fun _ => rfl
  refine (fo_par (ps := [req "w" "tblPr", req "w" "tblGrid", anyOf (nsOf "w" ["tr"])])
    (P := t.props ≠ none ∧ t.grid ≠ none)
    (Q := (∀ p, t.props = some p → NeatTblPr p) ∧ ∀ r ∈ t.rows, ∀ c ∈ r.cells, NeatCell c) rfl
    (by simp [ht_map hi]) ?_ ?_).trans ?_
  · rw [kn_append, kn_append, kn_mTblPr, kn_mGrid, kn_map hi]
    have hall : fits [anyOf (nsOf "w" ["tr"])] (List.replicate t.rows.length ⟨"w", "tr"⟩) = true :=
      fits_any.2 (by simp [nsOf])
    cases t.props with
    | none =>
      cases t.grid <;> cases t.rows <;> simp [pres, fits, req, List.replicate_succ]
    | some p =>
      cases t.grid with
      | none => cases t.rows <;> simp [pres, fits, req, List.replicate_succ]
      | some g =>
        rw [← hall]
        simp [pres, fits, req]
  · simp [fo_opt fo_mTblPr, fo_opt' fo_mGrid, fo_map, fo_mRow]
  · constructor
    · rintro ⟨⟨a, b⟩, c, d⟩; exact ⟨a, c, b, d⟩
    · rintro ⟨a, c, b, d⟩; exact ⟨⟨a, b⟩, c, d⟩

theorem fo_mSect (s : SectPr) : follows (mSect s) = true := by
  unfold mSect
  refine fo_par' (ps := opts "w" ["pgSz", "pgMar", "cols", "docGrid"]) rfl (by simp) ?_ (by fokids)
  cases s.pgSz <;> cases s.pgMar <;> cases s.cols <;> cases s.docGrid <;> rfl

theorem fo_mItem (x : BItem) : follows (mItem x) = true ↔ NeatItem x := by
  cases x with
  | para p => exact fo_mPara p
  | table t => exact fo_mTable t
  | sect s => simp [mItem, NeatItem, fo_mSect]

/-- The name of a body item -/
theorem kn_mItem (x : BItem) : kidNames [mItem x] =
    [match x with | .para _ => ⟨"w", "p"⟩ | .table _ => ⟨"w", "tbl"⟩ | .sect _ => ⟨"w", "sectPr"⟩] := by
  cases x with
  | para p => cases p; rfl
  | table t => rfl
  | sect s => rfl

theorem ht_mItem (x : BItem) : hasText [mItem x] = false := by
  cases x with
  | para p => cases p; rfl
  | table t => rfl
  | sect s => rfl

/-- The content model of the body -/
def bodyPlaces : List Place := [anyOf (nsOf "w" ["p", "tbl"]), opt "w" "sectPr"]

theorem body_fits (items : List BItem) : fits bodyPlaces (kidNames (items.map mItem)) = true ↔
    ∀ i s, items[i]? = some (.sect s) → i + 1 = items.length := by
  induction items with
  | nil => simp [kidNames, bodyPlaces, fits, anyOf, opt]
  | cons x items ih =>
    rw [List.map_cons, ← List.singleton_append, kn_append, kn_mItem]
    have hstep : ∀ q : QName, q ∈ nsOf "w" ["p", "tbl"] → ∀ ks, fits bodyPlaces (q :: ks) =
        fits bodyPlaces ks := by
      intro q hq ks
      have hd : (q :: ks).dropWhile (nsOf "w" ["p", "tbl"]).contains =
          ks.dropWhile (nsOf "w" ["p", "tbl"]).contains :=
        List.dropWhile_cons_of_pos (by simpa using hq)
      unfold bodyPlaces fits anyOf
      simp only [Bool.not_false, Bool.true_or, Bool.true_and, ↓reduceIte, hd]
    have hidx : (∀ s, x ≠ .sect s) → ((∀ i s, items[i]? = some (.sect s) → i + 1 = items.length) ↔
        ∀ i s, (x :: items)[i]? = some (.sect s) → i + 1 = (x :: items).length) := by
      intro hx
      constructor
      · intro h i s hi
        cases i with
        | zero => simp at hi; exact absurd hi (hx s)
        | succ i => simp at hi; simpa using h i s hi
      · intro h i s hi
        simpa using h (i + 1) s (by simpa using hi)
    cases x with
    | para p =>
      rw [← hidx (by simp), ← ih]
      exact iff_of_eq (congrArg (· = true) (hstep _ (by simp [nsOf]) _))
    | table t =>
      rw [← hidx (by simp), ← ih]
      exact iff_of_eq (congrArg (· = true) (hstep _ (by simp [nsOf]) _))
    | sect s =>
      cases items with
      | nil =>
        refine iff_of_true rfl ?_
        intro i s hi
        cases i with
        | zero => rfl
        | succ i => simp at hi
      | cons y ys =>
        refine iff_of_false ?_ ?_
        · rw [List.map_cons, ← List.singleton_append (l := List.map mItem ys), kn_append, kn_mItem y]
          cases y <;> simp [bodyPlaces, fits, anyOf, opt, nsOf]
        · intro h
          have := h 0 s rfl
          simp at this

theorem fo_mDocument (items : List BItem) : follows (mDocument items) = true ↔ NeatBody items := by
  have hb : follows (el "w" "body" [] (items.map mItem)) = true ↔ NeatBody items := by
    refine (fo_par (ps := bodyPlaces) (Q := ∀ x ∈ items, NeatItem x) rfl ?_ (body_fits items) ?_).trans ?_
    · induction items with
      | nil => rfl
      | cons x xs ih => rw [List.map_cons, ← List.singleton_append, ht_append, ht_mItem, ih]; rfl
    · rw [fo_map]; simp only [fo_mItem]
    · exact and_comm
  unfold mDocument
  refine (fo_par (ps := [req "w" "body"]) (P := True) (Q := NeatBody items) rfl rfl
    (iff_of_true rfl trivial) ?_).trans (by simp)
  simp [followsL, hb]

end Docx
