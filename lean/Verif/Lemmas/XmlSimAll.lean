import Verif.Lemmas.XmlSim
import Verif.Lemmas.XmlRec

/-!
# Decoding does not see inserted elements of unknown names, white space and comments: all the decoders
-/

namespace Docx

set_option linter.unusedSectionVars false

variable [GoEnv] [Gaps]

/-- The recursive decoders do not see insertions. -/
structure DecsSim (p : Decs) : Prop where
  good : DecsGood 0 p
  para : ∀ file, Sim (p.para file)
  canvas : ∀ file, Sim (p.canvas file)
  parse : ∀ file r q as d d' b, d.stk = .elem q :: b → SRel d d' →
    SameOut (p.parse file r q.loc as d) (p.parse file r q.loc as d')

variable {p : Decs}

theorem tabsStep_sim : StepSim tabsStep := by
  intro s q as d d' b hs hr
  unfold tabsStep
  generalize hl : q.loc = l
  split
  · refine sim_sub (leaf_sim ?_) hl hs hr
    decide
  · exact sim_flat _ _ _ _ hr

theorem leaf_stk {σ : Type} (f : σ → String → String → σ × Option Err) (s : σ) (as : List Attr)
    (d : Dec) : (leaf f s as d).dec = d ∨ (leaf f s as d).dec = d.token.2 := by
  unfold leaf
  rcases attrs f s as with ⟨v, _ | e⟩
  · rcases h : d.token with ⟨_ | _, d1⟩ <;> exact .inr rfl
  · exact .inl rfl

theorem tabsStep_inFrag {L : List String} (b : List StkEntry) (s : List Tab) (q : QName) (as : List Attr) (d : Dec)
    (S : List StkEntry) (hs : d.stk = .elem q :: S) (hS : InFrag L b S) (hne : S ≠ .mark :: b) :
    InFrag L b (tabsStep s q.loc as d).dec.stk := by
  unfold tabsStep
  generalize q.loc = l
  split
  · rcases d with ⟨rest, stk, dead⟩
    simp only at hs
    subst hs
    simp only [sub, decodeElement_dec, Dec.pushEOF, pushMark, unTab]
    have hpush : InFrag L b (.elem q :: .mark :: S) := by
      rcases hS with h | ⟨pre, p, h, hp⟩
      · exact absurd h hne
      · exact .inr ⟨.elem q :: .mark :: pre, p, by rw [h]; rfl, hp⟩
    have hpush' : ∀ q', InFrag L b (.elem q' :: .elem q :: .mark :: S) := by
      intro q'
      rcases hS with h | ⟨pre, p, h, hp⟩
      · exact absurd h hne
      · exact .inr ⟨.elem q' :: .elem q :: .mark :: pre, p, by rw [h]; rfl, hp⟩
    rcases leaf_stk tabAttr {} as ⟨rest, .elem q :: .mark :: S, dead⟩ with h | h
    · rw [h]
      exact hpush
    · rw [h]
      rcases ht : Dec.token ⟨rest, .elem q :: .mark :: S, dead⟩ with ⟨t, ⟨r1, s1, x1⟩⟩
      rcases token_pops ht with h1 | ⟨q', as', _, h1⟩ | ⟨q', h1⟩
      · simp only at h1
        subst h1
        exact hpush
      · simp only at h1
        subst h1
        exact hpush' q'
      · cases h1
        exact hS
  · show InFrag L b d.stk
    rw [hs]
    exact hS.cons _ hne

theorem unTabs_sim : USim "tabs" unTabs :=
  loopC_simF (L := fragile) (fun _ h => h) (.inl fun _ _ => rfl) (tabsStep_good 0) tabsStep_sim tabsStep_inFrag _ (by decide)

theorem rprStep_sim :
    StepSim rprStep := by
  intro s q as d d' b hs hr
  unfold rprStep
  generalize hl : q.loc = l
  split <;> first
    | (refine sim_sub (leaf_sim ?_) hl hs hr; decide)
    | exact flatInt_sim _ _ _ _ _ hr
    | exact sim_flat _ _ _ _ hr
    | exact sim_skipTo _ _ _ hr

theorem rprStep_unk : StepUnk rprStep := by
  intro s l as d hl
  unfold rprStep
  split
  · exact absurd (by decide) hl
  · exact absurd (by decide) hl
  · exact absurd (by decide) hl
  · exact absurd (by decide) hl
  · exact absurd (by decide) hl
  · exact absurd (by decide) hl
  · exact absurd (by decide) hl
  · exact absurd (by decide) hl
  · exact absurd (by decide) hl
  · exact absurd (by decide) hl
  · exact absurd (by decide) hl
  · exact absurd (by decide) hl
  · exact absurd (by decide) hl
  · exact absurd (by decide) hl
  · exact absurd (by decide) hl
  · exact absurd (by decide) hl
  · rfl

theorem unRPr_sim :
    Sim (unRPr) :=
  loop_sim (rprStep_good 0) (rprStep_sim) rprStep_unk _

theorem pprStep_sim :
    StepSim pprStep := by
  intro s q as d d' b hs hr
  unfold pprStep
  generalize hl : q.loc = l
  split <;> first
    | exact sim_sub unTabs_sim hl hs hr
    | exact sim_sub ((unRPr_sim).u _) hl hs hr
    | (refine sim_sub (leaf_sim ?_) hl hs hr; decide)
    | exact flatInt_sim _ _ _ _ _ hr
    | exact sim_flat _ _ _ _ hr
    | exact sim_skipTo _ _ _ hr

theorem pprStep_unk : StepUnk pprStep := by
  intro s l as d hl
  unfold pprStep
  split
  · exact absurd (by decide) hl
  · exact absurd (by decide) hl
  · exact absurd (by decide) hl
  · exact absurd (by decide) hl
  · exact absurd (by decide) hl
  · exact absurd (by decide) hl
  · exact absurd (by decide) hl
  · exact absurd (by decide) hl
  · exact absurd (by decide) hl
  · exact absurd (by decide) hl
  · exact absurd (by decide) hl
  · exact absurd (by decide) hl
  · exact absurd (by decide) hl
  · rfl

theorem unPPr_sim :
    Sim (unPPr) :=
  loop_sim (pprStep_good 0) (pprStep_sim) pprStep_unk _

theorem unText_sim (as : List Attr) : USim "t" (unText as) := by
  have hl : ∀ s, USim "t" (loopC (fun (s : Text) (_ : String) (_ : List Attr) => flat s)
      (fun s c => { s with text := c }) s) := fun s =>
    loopC_simF (L := rigid) (fun _ => rigid_fragile) (.inr fun _ h => h) (fun s _ _ => good_flat (e := none) 0 s (by simp)) (fun s _ _ d d' _ _ hr => sim_flat _ _ d d' hr)
      (fun b _ q _ d S h hS hne => by show InFrag _ b d.stk; rw [h]; exact hS.cons _ hne) s (by decide)
  intro d d' q b hq hs h
  simp only [unText, withAttrs]
  rcases attrs textAttr {} as with ⟨v, e⟩
  cases e with
  | some e => exact ⟨rfl, rfl, h⟩
  | none => exact hl v d d' q b hq hs h

theorem frameStep_sim :
    StepSim frameStep := by
  intro s q as d d' b hs hr
  unfold frameStep
  generalize hl : q.loc = l
  split <;> first
    | exact flatIntSt_sim _ _ _ _ _ hr
    | exact sim_skipTo _ _ _ hr

theorem frameStep_unk : StepUnk frameStep := by
  intro s l as d hl
  unfold frameStep
  split
  · exact absurd (by decide) hl
  · rfl

theorem unFramePr_sim :
    Sim (unFramePr) :=
  loop_sim (frameStep_good 0) (frameStep_sim) frameStep_unk _

theorem picLocksStep_sim :
    StepSim picLocksStep := by
  intro s q as d d' b hs hr
  unfold picLocksStep
  generalize hl : q.loc = l
  split <;> first
    | exact flatInt_sim _ _ _ _ _ hr
    | exact sim_skipTo _ _ _ hr

theorem picLocksStep_unk : StepUnk picLocksStep := by
  intro s l as d hl
  unfold picLocksStep
  split
  · exact absurd (by decide) hl
  · rfl

theorem unCNvPicPr_sim (s : Option Int64) :
    Sim (unCNvPicPr s) :=
  loop_sim (picLocksStep_good 0) (picLocksStep_sim) picLocksStep_unk _

theorem nvPicPrStep_sim : StepSim nvPicPrStep := by
  intro s q as d d' b hs hr
  unfold nvPicPrStep
  generalize hl : q.loc = l
  split
  · split
    · exact sim_flat _ _ _ _ hr
    · rcases getInt (getAtt as "id") with ⟨n, _ | e⟩ <;> exact ⟨rfl, rfl, hr⟩
  · exact sim_sub ((unCNvPicPr_sim _).u _) hl hs hr
  · exact sim_skipTo _ _ _ hr

theorem nvPicPrStep_unk : StepUnk nvPicPrStep := by
  intro s l as d hl
  unfold nvPicPrStep
  split
  · exact absurd (by decide) hl
  · exact absurd (by decide) hl
  · rfl

theorem unNvPicPr_sim :
    Sim (unNvPicPr) :=
  loop_sim (nvPicPrStep_good 0) (nvPicPrStep_sim) nvPicPrStep_unk _

theorem blipStep_sim :
    StepSim blipStep := by
  intro s q as d d' b hs hr
  unfold blipStep
  generalize hl : q.loc = l
  split <;> first
    | exact flatInt_sim _ _ _ _ _ hr
    | exact sim_skipTo _ _ _ hr

theorem blipStep_unk : StepUnk blipStep := by
  intro s l as d hl
  unfold blipStep
  split
  · exact absurd (by decide) hl
  · rfl

theorem unBlip_sim (s : Blip) (as : List Attr) :
    Sim (unBlip s as) :=
  withAttrs_sim fun _ => loop_sim (blipStep_good 0) (blipStep_sim) blipStep_unk _

theorem stretchStep_sim :
    StepSim stretchStep := by
  intro s q as d d' b hs hr
  unfold stretchStep
  generalize hl : q.loc = l
  split <;> first
    | exact sim_skipTo _ _ _ hr

theorem stretchStep_unk : StepUnk stretchStep := by
  intro s l as d hl
  unfold stretchStep
  split
  · exact absurd (by decide) hl
  · rfl

theorem unStretch_sim (s : Bool) :
    Sim (unStretch s) :=
  loop_sim (stretchStep_good 0) (stretchStep_sim) stretchStep_unk _

theorem picFillStep_sim :
    StepSim picFillStep := by
  intro s q as d d' b hs hr
  unfold picFillStep
  generalize hl : q.loc = l
  split <;> first
    | exact sim_sub ((unBlip_sim _ _).u _) hl hs hr
    | exact sim_sub ((unStretch_sim _).u _) hl hs hr
    | exact sim_skipTo _ _ _ hr

theorem picFillStep_unk : StepUnk picFillStep := by
  intro s l as d hl
  unfold picFillStep
  split
  · exact absurd (by decide) hl
  · exact absurd (by decide) hl
  · rfl

theorem unPicFill_sim :
    Sim (unPicFill) :=
  loop_sim (picFillStep_good 0) (picFillStep_sim) picFillStep_unk _

theorem xfrmStep_sim :
    StepSim xfrmStep := by
  intro s q as d d' b hs hr
  unfold xfrmStep
  generalize hl : q.loc = l
  split <;> first
    | exact flatAttrs_sim _ _ _ _ _ _ hr
    | exact flatAttrsV_sim _ _ _ _ _ _ _ hr
    | exact sim_skipTo _ _ _ hr

theorem xfrmStep_unk : StepUnk xfrmStep := by
  intro s l as d hl
  unfold xfrmStep
  split
  · exact absurd (by decide) hl
  · exact absurd (by decide) hl
  · exact absurd (by decide) hl
  · exact absurd (by decide) hl
  · rfl

theorem unXfrm_sim (s : Xfrm) (as : List Attr) :
    Sim (unXfrm s as) :=
  withAttrs_sim fun _ => loop_sim (xfrmStep_good 0) (xfrmStep_sim) xfrmStep_unk _

theorem prstStep_sim :
    StepSim prstStep := by
  intro s q as d d' b hs hr
  unfold prstStep
  generalize hl : q.loc = l
  split <;> first
    | exact sim_skipTo _ _ _ hr

theorem prstStep_unk : StepUnk prstStep := by
  intro s l as d hl
  unfold prstStep
  split
  · exact absurd (by decide) hl
  · rfl

theorem unPrstGeom_sim (as : List Attr) :
    Sim (unPrstGeom as) :=
  withAttrs_sim fun _ => loop_sim (prstStep_good 0) (prstStep_sim) prstStep_unk _

theorem picSpPrStep_sim :
    StepSim picSpPrStep := by
  intro s q as d d' b hs hr
  unfold picSpPrStep
  generalize hl : q.loc = l
  split <;> first
    | exact sim_sub ((unXfrm_sim _ _).u _) hl hs hr
    | exact sim_sub ((unPrstGeom_sim _).u _) hl hs hr
    | exact sim_skipTo _ _ _ hr

theorem picSpPrStep_unk : StepUnk picSpPrStep := by
  intro s l as d hl
  unfold picSpPrStep
  split
  · exact absurd (by decide) hl
  · exact absurd (by decide) hl
  · rfl

theorem unPicSpPr_sim :
    Sim (unPicSpPr) :=
  loop_sim (picSpPrStep_good 0) (picSpPrStep_sim) picSpPrStep_unk _

theorem picStep_sim :
    StepSim picStep := by
  intro s q as d d' b hs hr
  unfold picStep
  generalize hl : q.loc = l
  split <;> first
    | exact sim_sub ((unNvPicPr_sim).u _) hl hs hr
    | exact sim_sub ((unPicFill_sim).u _) hl hs hr
    | exact sim_sub ((unPicSpPr_sim).u _) hl hs hr
    | exact sim_skipTo _ _ _ hr

theorem picStep_unk : StepUnk picStep := by
  intro s l as d hl
  unfold picStep
  split
  · exact absurd (by decide) hl
  · exact absurd (by decide) hl
  · exact absurd (by decide) hl
  · rfl

theorem unPic_sim :
    Sim (unPic) :=
  loop_sim (picStep_good 0) (picStep_sim) picStep_unk _

theorem posStep_sim : StepSim posStep := by
  intro s q as d d' b hs hr
  unfold posStep
  generalize hl : q.loc = l
  split
  · have ho := reflInt_sim s.posOffset (by rw [hl]; decide) hs hr
    exact ⟨by simp only [ho.val], congrArg tolerate ho.err, ho.dec⟩
  · exact sim_skipTo _ _ _ hr

theorem posStep_unk : StepUnk posStep := by
  intro s l as d hl
  unfold posStep
  split
  · exact absurd (by decide) hl
  · rfl

theorem unPosition_sim (as : List Attr) :
    Sim (unPosition as) :=
  loop_sim (posStep_good 0) (posStep_sim) posStep_unk _

theorem aBlipFillStep_sim :
    StepSim aBlipFillStep := by
  intro s q as d d' b hs hr
  unfold aBlipFillStep
  generalize hl : q.loc = l
  split <;> first
    | exact sim_sub ((unBlip_sim _ _).u _) hl hs hr
    | (refine sim_sub (leaf_sim ?_) hl hs hr; decide)
    | exact sim_flat _ _ _ _ hr
    | exact sim_skipTo _ _ _ hr

theorem aBlipFillStep_unk : StepUnk aBlipFillStep := by
  intro s l as d hl
  unfold aBlipFillStep
  split
  · exact absurd (by decide) hl
  · exact absurd (by decide) hl
  · exact absurd (by decide) hl
  · rfl

theorem unABlipFill_sim (as : List Attr) :
    Sim (unABlipFill as) :=
  withAttrs_sim fun _ => loop_sim (aBlipFillStep_good 0) (aBlipFillStep_sim) aBlipFillStep_unk _

theorem solidFillStep_sim :
    StepSim solidFillStep := by
  intro s q as d d' b hs hr
  unfold solidFillStep
  generalize hl : q.loc = l
  split <;> first
    | exact sim_skipTo _ _ _ hr

theorem solidFillStep_unk : StepUnk solidFillStep := by
  intro s l as d hl
  unfold solidFillStep
  split
  · exact absurd (by decide) hl
  · rfl

theorem unSolidFill_sim :
    Sim (unSolidFill) :=
  loop_sim (solidFillStep_good 0) (solidFillStep_sim) solidFillStep_unk _

theorem lineStep_sim :
    StepSim lineStep := by
  intro s q as d d' b hs hr
  unfold lineStep
  generalize hl : q.loc = l
  split <;> first
    | exact sim_sub ((unSolidFill_sim).u _) hl hs hr
    | (refine sim_sub (leaf_sim ?_) hl hs hr; decide)
    | exact sim_flat _ _ _ _ hr
    | exact sim_skipTo _ _ _ hr

theorem lineStep_unk : StepUnk lineStep := by
  intro s l as d hl
  unfold lineStep
  split
  · exact absurd (by decide) hl
  · exact absurd (by decide) hl
  · exact absurd (by decide) hl
  · exact absurd (by decide) hl
  · exact absurd (by decide) hl
  · exact absurd (by decide) hl
  · exact absurd (by decide) hl
  · rfl

theorem unLine_sim (as : List Attr) :
    Sim (unLine as) :=
  withAttrs_sim fun _ => loop_sim (lineStep_good 0) (lineStep_sim) lineStep_unk _

theorem shapePrStep_sim :
    StepSim shapePrStep := by
  intro s q as d d' b hs hr
  unfold shapePrStep
  generalize hl : q.loc = l
  split <;> first
    | exact sim_sub ((unXfrm_sim _ _).u _) hl hs hr
    | exact sim_sub ((unSolidFill_sim).u _) hl hs hr
    | exact sim_sub ((unABlipFill_sim _).u _) hl hs hr
    | exact sim_sub ((unLine_sim _).u _) hl hs hr
    | exact sim_flat _ _ _ _ hr
    | exact sim_skipTo _ _ _ hr

theorem shapePrStep_unk : StepUnk shapePrStep := by
  intro s l as d hl
  unfold shapePrStep
  split
  · exact absurd (by decide) hl
  · exact absurd (by decide) hl
  · exact absurd (by decide) hl
  · exact absurd (by decide) hl
  · exact absurd (by decide) hl
  · exact absurd (by decide) hl
  · rfl

theorem unShapePr_sim (as : List Attr) :
    Sim (unShapePr as) :=
  withAttrs_sim fun _ => loop_sim (shapePrStep_good 0) (shapePrStep_sim) shapePrStep_unk _

theorem cNvCnPrStep_sim :
    StepSim cNvCnPrStep := by
  intro s q as d d' b hs hr
  unfold cNvCnPrStep
  generalize hl : q.loc = l
  split <;> first
    | exact sim_flat _ _ _ _ hr
    | exact sim_skipTo _ _ _ hr

theorem cNvCnPrStep_unk : StepUnk cNvCnPrStep := by
  intro s l as d hl
  unfold cNvCnPrStep
  split
  · exact absurd (by decide) hl
  · rfl

theorem unCNvCnPr_sim :
    Sim (unCNvCnPr) :=
  loop_sim (cNvCnPrStep_good 0) (cNvCnPrStep_sim) cNvCnPrStep_unk _

theorem cNvSpPrStep_sim :
    StepSim cNvSpPrStep := by
  intro s q as d d' b hs hr
  unfold cNvSpPrStep
  generalize hl : q.loc = l
  split <;> first
    | (refine sim_sub (leaf_sim ?_) hl hs hr; decide)
    | exact sim_skipTo _ _ _ hr

theorem cNvSpPrStep_unk : StepUnk cNvSpPrStep := by
  intro s l as d hl
  unfold cNvSpPrStep
  split
  · exact absurd (by decide) hl
  · rfl

theorem unCNvSpPr_sim (as : List Attr) :
    Sim (unCNvSpPr as) :=
  withAttrs_sim fun _ => loop_sim (cNvSpPrStep_good 0) (cNvSpPrStep_sim) cNvSpPrStep_unk _

theorem bodyPrStep_sim :
    StepSim bodyPrStep := by
  intro s q as d d' b hs hr
  unfold bodyPrStep
  generalize hl : q.loc = l
  split <;> first
    | exact sim_flat _ _ _ _ hr
    | exact sim_skipTo _ _ _ hr

theorem bodyPrStep_unk : StepUnk bodyPrStep := by
  intro s l as d hl
  unfold bodyPrStep
  split
  · exact absurd (by decide) hl
  · rfl

theorem unBodyPr_sim (as : List Attr) :
    Sim (unBodyPr as) :=
  withAttrs_sim fun _ => loop_sim (bodyPrStep_good 0) (bodyPrStep_sim) bodyPrStep_unk _

theorem bgStep_sim :
    StepSim bgStep := by
  intro s q as d d' b hs hr
  unfold bgStep
  generalize hl : q.loc = l
  split <;> first
    | exact sim_flat _ _ _ _ hr
    | exact sim_skipTo _ _ _ hr

theorem bgStep_unk : StepUnk bgStep := by
  intro s l as d hl
  unfold bgStep
  split
  · exact absurd (by decide) hl
  · rfl

theorem unBackground_sim :
    Sim (unBackground) :=
  loop_sim (bgStep_good 0) (bgStep_sim) bgStep_unk _

theorem wholeStep_sim :
    StepSim wholeStep := by
  intro s q as d d' b hs hr
  unfold wholeStep
  generalize hl : q.loc = l
  split <;> first
    | exact sim_sub ((unLine_sim _).u _) hl hs hr
    | exact sim_skipTo _ _ _ hr

theorem wholeStep_unk : StepUnk wholeStep := by
  intro s l as d hl
  unfold wholeStep
  split
  · exact absurd (by decide) hl
  · rfl

theorem unWhole_sim :
    Sim (unWhole) :=
  loop_sim (wholeStep_good 0) (wholeStep_sim) wholeStep_unk _

theorem grpPrStep_sim :
    StepSim grpPrStep := by
  intro s q as d d' b hs hr
  unfold grpPrStep
  generalize hl : q.loc = l
  split <;> first
    | exact sim_skipTo _ _ _ hr

theorem grpPrStep_unk : StepUnk grpPrStep := by
  intro s l as d hl
  unfold grpPrStep
  split
  · exact absurd (by decide) hl
  · rfl

theorem unCNvGrpSpPr_sim :
    Sim (unCNvGrpSpPr) :=
  loop_sim (grpPrStep_good 0) (grpPrStep_sim) grpPrStep_unk _

theorem bordersStep_sim :
    StepSim bordersStep := by
  intro s q as d d' b hs hr
  unfold bordersStep
  generalize hl : q.loc = l
  split <;> first
    | (refine sim_sub (leaf_sim ?_) hl hs hr; decide)
    | exact sim_skipTo _ _ _ hr

theorem bordersStep_unk : StepUnk bordersStep := by
  intro s l as d hl
  unfold bordersStep
  split
  · exact absurd (by decide) hl
  · exact absurd (by decide) hl
  · exact absurd (by decide) hl
  · exact absurd (by decide) hl
  · exact absurd (by decide) hl
  · exact absurd (by decide) hl
  · rfl

theorem unBorders_sim :
    Sim (unBorders) :=
  loop_sim (bordersStep_good 0) (bordersStep_sim) bordersStep_unk _

theorem tblPrStep_sim :
    StepSim tblPrStep := by
  intro s q as d d' b hs hr
  unfold tblPrStep
  generalize hl : q.loc = l
  split <;> first
    | exact sim_sub ((unBorders_sim).u _) hl hs hr
    | (refine sim_sub (leaf_sim ?_) hl hs hr; decide)
    | exact sim_skipTo _ _ _ hr

theorem tblPrStep_unk : StepUnk tblPrStep := by
  intro s l as d hl
  unfold tblPrStep
  split
  · exact absurd (by decide) hl
  · exact absurd (by decide) hl
  · exact absurd (by decide) hl
  · exact absurd (by decide) hl
  · exact absurd (by decide) hl
  · exact absurd (by decide) hl
  · rfl

theorem unTblPr_sim :
    Sim (unTblPr) :=
  loop_sim (tblPrStep_good 0) (tblPrStep_sim) tblPrStep_unk _

theorem gridStep_sim :
    StepSim gridStep := by
  intro s q as d d' b hs hr
  unfold gridStep
  generalize hl : q.loc = l
  split <;> first
    | (refine sim_sub (leaf_sim ?_) hl hs hr; decide)
    | exact sim_skipTo _ _ _ hr

theorem gridStep_unk : StepUnk gridStep := by
  intro s l as d hl
  unfold gridStep
  split
  · exact absurd (by decide) hl
  · rfl

theorem unGrid_sim :
    Sim (unGrid) :=
  loop_sim (gridStep_good 0) (gridStep_sim) gridStep_unk _

theorem trPrStep_sim : StepSim trPrStep := by
  intro s q as d d' b hs hr
  unfold trPrStep
  generalize hl : q.loc = l
  split
  · split
    · exact sim_skipTo _ _ _ hr
    · exact ⟨rfl, rfl, hr⟩
  · exact sim_skipTo _ _ _ hr
  · exact sim_skipTo _ _ _ hr

theorem trPrStep_unk : StepUnk trPrStep := by
  intro s l as d hl
  unfold trPrStep
  split
  · exact absurd (by decide) hl
  · exact absurd (by decide) hl
  · rfl

theorem unTrPr_sim :
    Sim (unTrPr) :=
  loop_sim (trPrStep_good 0) (trPrStep_sim) trPrStep_unk _

theorem tcPrStep_sim :
    StepSim tcPrStep := by
  intro s q as d d' b hs hr
  unfold tcPrStep
  generalize hl : q.loc = l
  split <;> first
    | exact sim_sub ((unBorders_sim).u _) hl hs hr
    | (refine sim_sub (leaf_sim ?_) hl hs hr; decide)
    | exact flatInt_sim _ _ _ _ _ hr
    | exact sim_flat _ _ _ _ hr
    | exact sim_skipTo _ _ _ hr

theorem tcPrStep_unk : StepUnk tcPrStep := by
  intro s l as d hl
  unfold tcPrStep
  split
  · exact absurd (by decide) hl
  · exact absurd (by decide) hl
  · exact absurd (by decide) hl
  · exact absurd (by decide) hl
  · exact absurd (by decide) hl
  · exact absurd (by decide) hl
  · rfl

theorem unTcPr_sim :
    Sim (unTcPr) :=
  loop_sim (tcPrStep_good 0) (tcPrStep_sim) tcPrStep_unk _

theorem sectStep_sim :
    StepSim sectStep := by
  intro s q as d d' b hs hr
  unfold sectStep
  generalize hl : q.loc = l
  split <;> first
    | (refine sim_sub (leaf_sim ?_) hl hs hr; decide)
    | exact sim_skipTo _ _ _ hr

theorem sectStep_unk : StepUnk sectStep := by
  intro s l as d hl
  unfold sectStep
  split
  · exact absurd (by decide) hl
  · exact absurd (by decide) hl
  · exact absurd (by decide) hl
  · exact absurd (by decide) hl
  · rfl

theorem unSect_sim :
    Sim (unSect) :=
  loop_sim (sectStep_good 0) (sectStep_sim) sectStep_unk _

theorem txbxContentStep_sim (h : DecsSim p) (file : Option DocId) :
    StepSim (txbxContentStep p file) := by
  intro s q as d d' b hs hr
  unfold txbxContentStep
  generalize hl : q.loc = l
  split <;> first
    | exact sim_sub ((h.para _).u _) hl hs hr
    | exact sim_skipTo _ _ _ hr

theorem txbxContentStep_unk (file : Option DocId) : StepUnk (txbxContentStep p file) := by
  intro s l as d hl
  unfold txbxContentStep
  split
  · exact absurd (by decide) hl
  · rfl

theorem textBoxStep_sim (h : DecsSim p) (file : Option DocId) :
    StepSim (textBoxStep p file) := by
  intro s q as d d' b hs hr
  unfold textBoxStep
  generalize hl : q.loc = l
  split <;> first
    | exact sim_sub ((loop_sim (txbxContentStep_good h.good _) (txbxContentStep_sim h _) (txbxContentStep_unk file) _).u _) hl hs hr
    | exact sim_skipTo _ _ _ hr

theorem textBoxStep_unk (file : Option DocId) : StepUnk (textBoxStep p file) := by
  intro s l as d hl
  unfold textBoxStep
  split
  · exact absurd (by decide) hl
  · rfl

theorem unTextBox_sim (h : DecsSim p) (file : Option DocId) :
    Sim (unTextBox p file) :=
  loop_sim (textBoxStep_good h.good _) (textBoxStep_sim h _) (textBoxStep_unk _) _

theorem shapeStep_sim (h : DecsSim p) (file : Option DocId) :
    StepSim (shapeStep p file) := by
  intro s q as d d' b hs hr
  unfold shapeStep
  generalize hl : q.loc = l
  split <;> first
    | exact sim_sub ((unCNvCnPr_sim).u _) hl hs hr
    | exact sim_sub ((unCNvSpPr_sim _).u _) hl hs hr
    | exact sim_sub ((unShapePr_sim _).u _) hl hs hr
    | exact sim_sub ((unTextBox_sim h _).u _) hl hs hr
    | exact sim_sub ((unBodyPr_sim _).u _) hl hs hr
    | (refine sim_sub (leaf_sim ?_) hl hs hr; decide)
    | exact sim_skipTo _ _ _ hr

theorem shapeStep_unk (file : Option DocId) : StepUnk (shapeStep p file) := by
  intro s l as d hl
  unfold shapeStep
  split
  · exact absurd (by decide) hl
  · exact absurd (by decide) hl
  · exact absurd (by decide) hl
  · exact absurd (by decide) hl
  · exact absurd (by decide) hl
  · exact absurd (by decide) hl
  · rfl

theorem unShape_sim (h : DecsSim p) (file : Option DocId) :
    Sim (unShape p file) :=
  loop_sim (shapeStep_good h.good _) (shapeStep_sim h _) (shapeStep_unk _) _

theorem groupShapeStep_sim (h : DecsSim p) (file : Option DocId) :
    StepSim (groupShapeStep p file) := by
  intro s q as d d' b hs hr
  unfold groupShapeStep
  generalize hl : q.loc = l
  split <;> first
    | exact sim_sub ((unCNvGrpSpPr_sim).u _) hl hs hr
    | exact sim_sub ((unShapePr_sim _).u _) hl hs hr
    | exact sim_sub ((unPic_sim).u _) hl hs hr
    | exact sim_sub ((unShape_sim h _).u _) hl hs hr
    | (refine sim_sub (leaf_sim ?_) hl hs hr; decide)
    | exact sim_sub ((h.canvas _).u _) hl hs hr
    | exact sim_skipTo _ _ _ hr

theorem groupShapeStep_unk (file : Option DocId) : StepUnk (groupShapeStep p file) := by
  intro s l as d hl
  unfold groupShapeStep
  split
  · exact absurd (by decide) hl
  · exact absurd (by decide) hl
  · exact absurd (by decide) hl
  · exact absurd (by decide) hl
  · exact absurd (by decide) hl
  · exact absurd (by decide) hl
  · rfl

theorem unGroupShape_sim (h : DecsSim p) (file : Option DocId) :
    Sim (unGroupShape p file) :=
  loop_sim (groupShapeStep_good h.good _) (groupShapeStep_sim h _) (groupShapeStep_unk _) _

theorem groupStep_sim (h : DecsSim p) (file : Option DocId) :
    StepSim (groupStep p file) := by
  intro s q as d d' b hs hr
  unfold groupStep
  generalize hl : q.loc = l
  split <;> first
    | exact sim_sub ((unCNvGrpSpPr_sim).u _) hl hs hr
    | exact sim_sub ((unShapePr_sim _).u _) hl hs hr
    | exact sim_sub ((unPic_sim).u _) hl hs hr
    | exact sim_sub ((unShape_sim h _).u _) hl hs hr
    | exact sim_sub ((unGroupShape_sim h _).u _) hl hs hr
    | exact sim_sub ((h.canvas _).u _) hl hs hr
    | exact sim_skipTo _ _ _ hr

theorem groupStep_unk (file : Option DocId) : StepUnk (groupStep p file) := by
  intro s l as d hl
  unfold groupStep
  split
  · exact absurd (by decide) hl
  · exact absurd (by decide) hl
  · exact absurd (by decide) hl
  · exact absurd (by decide) hl
  · exact absurd (by decide) hl
  · exact absurd (by decide) hl
  · rfl

theorem unGroup_sim (h : DecsSim p) (file : Option DocId) :
    Sim (unGroup p file) :=
  loop_sim (groupStep_good h.good _) (groupStep_sim h _) (groupStep_unk _) _

theorem canvasStep_sim (h : DecsSim p) (file : Option DocId) :
    StepSim (canvasStep p file) := by
  intro s q as d d' b hs hr
  unfold canvasStep
  generalize hl : q.loc = l
  split <;> first
    | exact sim_sub ((unBackground_sim).u _) hl hs hr
    | exact sim_sub ((unWhole_sim).u _) hl hs hr
    | exact sim_sub ((unShape_sim h _).u _) hl hs hr
    | exact sim_sub ((unPic_sim).u _) hl hs hr
    | exact sim_sub ((unGroup_sim h _).u _) hl hs hr
    | exact sim_skipTo _ _ _ hr

theorem canvasStep_unk (file : Option DocId) : StepUnk (canvasStep p file) := by
  intro s l as d hl
  unfold canvasStep
  split
  · exact absurd (by decide) hl
  · exact absurd (by decide) hl
  · exact absurd (by decide) hl
  · exact absurd (by decide) hl
  · exact absurd (by decide) hl
  · rfl

theorem unCanvas_sim (h : DecsSim p) (file : Option DocId) :
    Sim (unCanvas p file) :=
  loop_sim (canvasStep_good h.good _) (canvasStep_sim h _) (canvasStep_unk _) _

theorem graphicDataStep_sim (h : DecsSim p) (file : Option DocId) :
    StepSim (graphicDataStep p file) := by
  intro s q as d d' b hs hr
  unfold graphicDataStep
  generalize hl : q.loc = l
  split <;> first
    | exact sim_sub ((unPic_sim).u _) hl hs hr
    | exact sim_sub ((unShape_sim h _).u _) hl hs hr
    | exact sim_sub ((unCanvas_sim h _).u _) hl hs hr
    | exact sim_sub ((unGroup_sim h _).u _) hl hs hr
    | exact sim_skipTo _ _ _ hr

theorem graphicDataStep_unk (file : Option DocId) : StepUnk (graphicDataStep p file) := by
  intro s l as d hl
  unfold graphicDataStep
  split
  · exact absurd (by decide) hl
  · exact absurd (by decide) hl
  · exact absurd (by decide) hl
  · exact absurd (by decide) hl
  · rfl

theorem unGraphicData_sim (h : DecsSim p) (file : Option DocId) (as : List Attr) :
    Sim (unGraphicData p file as) :=
  withAttrs_sim fun _ => loop_sim (graphicDataStep_good h.good _) (graphicDataStep_sim h _) (graphicDataStep_unk _) _

theorem graphicStep_sim (h : DecsSim p) (file : Option DocId) :
    StepSim (graphicStep p file) := by
  intro s q as d d' b hs hr
  unfold graphicStep
  generalize hl : q.loc = l
  split <;> first
    | exact sim_sub ((unGraphicData_sim h _ _).u _) hl hs hr
    | exact sim_skipTo _ _ _ hr

theorem graphicStep_unk (file : Option DocId) : StepUnk (graphicStep p file) := by
  intro s l as d hl
  unfold graphicStep
  split
  · exact absurd (by decide) hl
  · rfl

theorem unGraphic_sim (h : DecsSim p) (file : Option DocId) (as : List Attr) :
    Sim (unGraphic p file as) :=
  withAttrs_sim fun _ => loop_sim (graphicStep_good h.good _) (graphicStep_sim h _) (graphicStep_unk _) _

theorem inlineStep_sim (h : DecsSim p) (file : Option DocId) :
    StepSim (inlineStep p file) := by
  intro s q as d d' b hs hr
  unfold inlineStep
  generalize hl : q.loc = l
  split <;> first
    | exact sim_sub ((unFramePr_sim).u _) hl hs hr
    | exact sim_sub ((unGraphic_sim h _ _).u _) hl hs hr
    | (refine sim_sub (leaf_sim ?_) hl hs hr; decide)
    | exact flatAttrs_sim _ _ _ _ _ _ hr
    | exact sim_skipTo _ _ _ hr

theorem inlineStep_unk (file : Option DocId) : StepUnk (inlineStep p file) := by
  intro s l as d hl
  unfold inlineStep
  split
  · exact absurd (by decide) hl
  · exact absurd (by decide) hl
  · exact absurd (by decide) hl
  · exact absurd (by decide) hl
  · exact absurd (by decide) hl
  · rfl

theorem unInline_sim (h : DecsSim p) (file : Option DocId) (as : List Attr) :
    Sim (unInline p file as) :=
  withAttrs_sim fun _ => loop_sim (inlineStep_good h.good _) (inlineStep_sim h _) (inlineStep_unk _) _

theorem anchorStep_sim (h : DecsSim p) (file : Option DocId) :
    StepSim (anchorStep p file) := by
  intro s q as d d' b hs hr
  unfold anchorStep
  generalize hl : q.loc = l
  split <;> first
    | exact sim_sub ((unPosition_sim _).u _) hl hs hr
    | exact sim_sub ((unFramePr_sim).u _) hl hs hr
    | exact sim_sub ((unGraphic_sim h _ _).u _) hl hs hr
    | (refine sim_sub (leaf_sim ?_) hl hs hr; decide)
    | exact flatAttrs_sim _ _ _ _ _ _ hr
    | exact sim_flat _ _ _ _ hr
    | exact sim_skipTo _ _ _ hr

theorem anchorStep_unk (file : Option DocId) : StepUnk (anchorStep p file) := by
  intro s l as d hl
  unfold anchorStep
  split
  · exact absurd (by decide) hl
  · exact absurd (by decide) hl
  · exact absurd (by decide) hl
  · exact absurd (by decide) hl
  · exact absurd (by decide) hl
  · exact absurd (by decide) hl
  · exact absurd (by decide) hl
  · exact absurd (by decide) hl
  · exact absurd (by decide) hl
  · exact absurd (by decide) hl
  · rfl

theorem unAnchor_sim (h : DecsSim p) (file : Option DocId) (as : List Attr) :
    Sim (unAnchor p file as) :=
  withAttrs_sim fun _ => loop_sim (anchorStep_good h.good _) (anchorStep_sim h _) (anchorStep_unk _) _

theorem drawingStep_sim (h : DecsSim p) (file : Option DocId) :
    StepSim (drawingStep p file) := by
  intro s q as d d' b hs hr
  unfold drawingStep
  generalize hl : q.loc = l
  split <;> first
    | exact sim_sub ((unInline_sim h _ _).u _) hl hs hr
    | exact sim_sub ((unAnchor_sim h _ _).u _) hl hs hr
    | exact sim_skipTo _ _ _ hr

theorem drawingStep_unk (file : Option DocId) : StepUnk (drawingStep p file) := by
  intro s l as d hl
  unfold drawingStep
  split
  · exact absurd (by decide) hl
  · exact absurd (by decide) hl
  · rfl

theorem unDrawing_sim (h : DecsSim p) (file : Option DocId) :
    Sim (unDrawing p file) :=
  loop_sim (drawingStep_good h.good _) (drawingStep_sim h _) (drawingStep_unk _) _

theorem SRel.rfl' (d : Dec) : SRel d d := ⟨rfl, rfl, .refl⟩

/-- The bound of `altN` does not matter once it exceeds the number of tokens. -/
theorem altN_fuel (parse : Run → String → List Attr → Dec → Out Parsed) :
    ∀ (f g : Nat) (r : Run) (d : Dec), d.rest.length < f → d.rest.length < g →
      altN parse f r d = altN parse g r d := by
  intro f
  induction f with
  | zero => intro g r d h _; omega
  | succ f ih =>
    intro g r d hf hg
    cases g with
    | zero => omega
    | succ g =>
      simp only [altN]
      rcases ht : d.token with ⟨t, d'⟩
      cases t with
      | error e => cases e <;> rfl
      | ok t =>
        have hd := token_ok ht
        have next : (match d'.skip with
            | (none, d'') => altN parse f r d''
            | (some e, d'') => (⟨(r, none), some e, d''⟩ : Out Parsed)) =
            (match d'.skip with
            | (none, d'') => altN parse g r d''
            | (some e, d'') => ⟨(r, none), some e, d''⟩) := by
          have h1 := skip_le d'
          rcases hs : d'.skip with ⟨e, d''⟩
          rw [hs] at h1
          cases e with
          | none => simp only at h1 ⊢; exact ih g r d'' (by omega) (by omega)
          | some e => rfl
        cases t with
        | start q as =>
          simp only
          split
          · rfl
          · exact next
        | stop q =>
          simp only
          split
          · rfl
          · exact next
        | chars c => exact next
        | other => exact next
        | bad => exact next

theorem inAlt_top {d d1 : Dec} {t : Tok} (h : inAlt (chain d.stk)) (ht : d.token = (.ok t, d1)) :
    ∃ p b, d.stk = .elem p :: b ∧ p.loc = "AlternateContent" := by
  rcases d with ⟨rest, stk, dead⟩
  rcases stk with _ | ⟨p | _, b⟩
  · obtain ⟨q, h, _⟩ := h
    cases h
  · obtain ⟨q, h, hq⟩ := h
    cases h
    exact ⟨_, _, rfl, hq⟩
  · cases ht

theorem altN_sim {parse : Run → String → List Attr → Dec → Out Parsed}
    (hp : ∀ r q as d d' b, d.stk = .elem q :: b → SRel d d' →
      SameOut (parse r q.loc as d) (parse r q.loc as d')) :
    ∀ (f' f : Nat) (r : Run) (d d' : Dec), SRel d d' → (Gaps.on = true → d = d' ∨ inAlt (chain d.stk)) →
      d.rest.length < f → d'.rest.length < f' →
      SameOut (altN parse f r d) (altN parse f' r d') := by
  intro f'
  induction f' with
  | zero => intro f r d d' _ _ _ h; omega
  | succ f' ih =>
    intro f r d d' hr hA hf hf'
    have hsame : d = d' → SameOut (altN parse f r d) (altN parse (f' + 1) r d') := by
      rintro rfl
      rw [altN_fuel parse f (f' + 1) r d hf hf']
      exact ⟨rfl, rfl, SRel.rfl' _⟩
    by_cases hdd : d = d'
    · exact hsame hdd
    have hA' : Gaps.on = true → inAlt (chain d.stk) := fun g => (hA g).resolve_left hdd
    rcases token_sim hr with ⟨q, as, kids, rs, hq, hs, ht, hrel, hlt, hdead⟩ |
      ⟨t, rs, p, st, hst, hq, hs, ht, hrel, hlt, hon⟩ | ⟨t, d1, d1', h1, h2, h3, h4, h5⟩
    · have hc : supportedChoice q.loc as = false := by
        have : q.loc ≠ "Choice" := fun h => hq (h ▸ by decide)
        simp [supportedChoice, this]
      have : altN parse (f' + 1) r d' = altN parse f' r ⟨rs, d.stk, false⟩ := by
        rw [altN, ht]
        simp only [hc, skip_kids]
        rfl
      rw [this]
      exact ih f r d ⟨rs, d.stk, false⟩ hrel (fun g => .inr (hA' g)) hf (by simp only; omega)
    · exfalso
      have := hA' hon
      rw [hst] at this
      exact hq.1 (by simpa [inAlt, chain] using this)
    · cases f with
      | zero => omega
      | succ f =>
        rw [altN, altN, h1, h2]
        cases t with
        | error e => cases e <;> exact ⟨rfl, rfl, h3⟩
        | ok t =>
          have l1 := token_ok h1
          have l2 := token_ok h2
          have hstop : ∀ q, t = .stop q → q.loc ≠ "AlternateContent" → Gaps.on = true → False := by
            rintro q rfl hne g
            obtain ⟨p, b, hb, hp⟩ := inAlt_top (hA' g) h1
            rcases token_inside hb h1 with ⟨_, _, h, _⟩ | ⟨h, _⟩ | ⟨⟨_, h⟩ | h, _⟩ <;> cases h
            exact hne hp
          have hnext : (Gaps.on = true → ∃ q, d1.stk = .elem q :: d.stk) → SameOut
              (match d1.skip with
                | (none, d'') => altN parse f r d''
                | (some e, d'') => (⟨(r, none), some e, d''⟩ : Out Parsed))
              (match d1'.skip with
                | (none, d'') => altN parse f' r d''
                | (some e, d'') => (⟨(r, none), some e, d''⟩ : Out Parsed)) := by
            intro hn
            have ho := skip_sim h3
            have g1 := skip_le d1
            have g2 := skip_le d1'
            rcases hsk : d1.skip with ⟨e, x⟩
            rcases hsk' : d1'.skip with ⟨e', x'⟩
            rw [hsk, hsk'] at ho
            rw [hsk] at g1
            rw [hsk'] at g2
            obtain ⟨he, hx⟩ := ho
            simp only at he hx g1 g2
            subst he
            cases e with
            | some e => exact ⟨rfl, rfl, hx⟩
            | none =>
              refine ih f r x x' hx (fun g => .inr ?_) (by omega) (by omega)
              obtain ⟨q, hq⟩ := hn g
              rw [skip_inside hq hsk]
              exact hA' g
          cases t with
          | start q as =>
            simp only
            by_cases hc : supportedChoice q.loc as = true
            · simp only [hc, if_true]
              have hq : q.loc = "Choice" := by
                simp only [supportedChoice, Bool.and_eq_true, beq_iff_eq] at hc
                exact hc.1
              have hs := h4 q as rfl
              rcases token_sim h3 with ⟨q2, as2, kids, rs, hq2, hsol, _⟩ | ⟨_, _, _, _, _, _, hsol, _⟩ |
                ⟨t2, d2, d2', k1, k2, k3, k4, _⟩
              · exfalso
                rw [hs] at hsol
                exact not_loose (by rw [hq]; decide) hsol.loose
              · exfalso
                rw [hs] at hsol
                exact not_loose (by rw [hq]; decide) hsol
              · rw [k1, k2]
                cases t2 with
                | error e => exact ⟨rfl, rfl, k3⟩
                | ok t2 =>
                  cases t2 with
                  | start q2 as2 => exact hp r q2 as2 d2 d2' _ (k4 q2 as2 rfl) k3
                  | stop q2 => exact ⟨rfl, rfl, k3⟩
                  | chars c => exact ⟨rfl, rfl, k3⟩
                  | other => exact ⟨rfl, rfl, k3⟩
                  | bad => exact ⟨rfl, rfl, k3⟩
            · simp only [Bool.not_eq_true] at hc
              simp only [hc]
              exact hnext fun _ => ⟨q, h4 q as rfl⟩
          | stop q =>
            simp only
            by_cases hc : q.loc = "AlternateContent"
            · simp only [hc, if_true]
              exact ⟨rfl, rfl, h3⟩
            · simp only [hc, if_false]
              exact hnext fun g => (hstop q rfl hc g).elim
          | chars c => exact hnext fun g => absurd (h5 g (hA' g) (.inl ⟨c, rfl⟩)) hdd
          | other => exact hnext fun g => absurd (h5 g (hA' g) (.inr rfl)) hdd
          | bad =>
            refine hnext fun g => ?_
            obtain ⟨p, b, hb, hp⟩ := inAlt_top (hA' g) h1
            rcases token_inside hb h1 with ⟨_, _, h, _⟩ | ⟨h, _⟩ | ⟨⟨_, h⟩ | h, _⟩ <;> cases h

theorem runParse_sim (h : DecsSim p) (file : Option DocId) (r : Run) (q : QName) (as : List Attr)
    (d d' : Dec) (b : List StkEntry) (hs : d.stk = .elem q :: b) (hr : SRel d d') :
    SameOut (runParse p file r q.loc as d) (runParse p file r q.loc as d') := by
  unfold runParse
  generalize hl : q.loc = l
  split
  · exact sim_sub (unRPr_sim.u _) hl hs hr
  · have ho := reflString_sim (by rw [hl]; decide) hs hr
    exact ⟨by simp only [ho.val], congrArg tolerate ho.err, ho.dec⟩
  · exact sim_subStrict (unText_sim _) hl hs hr
  · exact sim_subStrict ((unDrawing_sim h _).u _) hl hs hr
  · exact sim_flat _ _ _ _ hr
  · refine sim_subStrict (leaf_sim ?_) hl hs hr
    decide
  · exact altN_sim (h.parse file) _ _ _ _ _ hr (fun _ => .inr (by rw [hs]; exact ⟨q, rfl, hl⟩))
      (Nat.lt_succ_self _) (Nat.lt_succ_self _)
  · exact sim_skipTo _ _ _ hr

theorem runStep_sim (h : DecsSim p) (file : Option DocId) : StepSim (runStep p file) := by
  intro s q as d d' b hs hr
  have ho := runParse_sim h file s q as d d' b hs hr
  unfold runStep
  rcases h1 : runParse p file s q.loc as d with ⟨v, e, x⟩
  rcases h2 : runParse p file s q.loc as d' with ⟨v', e', x'⟩
  rw [h1, h2] at ho
  obtain ⟨hv, he, hx⟩ := ho
  simp only at hv he hx
  subst hv he
  cases e <;> exact ⟨rfl, rfl, hx⟩

theorem runStep_unk (file : Option DocId) : StepUnk (runStep p file) := by
  intro s l as d hl
  have : runParse p file s l as d = skipTo (s, none) d := by
    unfold runParse
    split
    · exact absurd (by decide) hl
    · exact absurd (by decide) hl
    · exact absurd (by decide) hl
    · exact absurd (by decide) hl
    · exact absurd (by decide) hl
    · exact absurd (by decide) hl
    · exact absurd (by decide) hl
    · rfl
  unfold runStep
  rw [this]
  unfold skipTo
  rcases d.skip with ⟨_ | e, x⟩ <;> rfl

theorem unRun_sim (h : DecsSim p) (file : Option DocId) (s : Run) (as : List Attr) :
    Sim (unRun p file s as) :=
  withAttrs_sim fun _ => loop_sim (runStep_good h.good _) (runStep_sim h _) (runStep_unk _) _

theorem hyperlinkStep_sim (h : DecsSim p) :
    StepSim (hyperlinkStep p) := by
  intro s q as d d' b hs hr
  unfold hyperlinkStep
  generalize hl : q.loc = l
  split <;> first
    | exact sim_sub ((unRun_sim h _ _ _).u _) hl hs hr
    | exact sim_skipTo _ _ _ hr

theorem hyperlinkStep_unk : StepUnk (hyperlinkStep p) := by
  intro s l as d hl
  unfold hyperlinkStep
  split
  · exact absurd (by decide) hl
  · rfl

theorem unLink_sim (h : DecsSim p) :
    Sim (unLink p) :=
  loop_sim (hyperlinkStep_good h.good) (hyperlinkStep_sim h) hyperlinkStep_unk _

theorem paraStep_sim (h : DecsSim p) (file : Option DocId) :
    StepSim (paraStep p file) := by
  intro s q as d d' b hs hr
  unfold paraStep
  generalize hl : q.loc = l
  split <;> first
    | exact sim_sub ((unLink_sim h).u _) hl hs hr
    | exact sim_sub ((unRun_sim h _ _ _).u _) hl hs hr
    | exact sim_sub ((unRPr_sim).u _) hl hs hr
    | exact sim_sub ((unPPr_sim).u _) hl hs hr
    | exact sim_skipTo _ _ _ hr

theorem paraStep_unk (file : Option DocId) : StepUnk (paraStep p file) := by
  intro s l as d hl
  unfold paraStep
  split
  · exact absurd (by decide) hl
  · exact absurd (by decide) hl
  · exact absurd (by decide) hl
  · exact absurd (by decide) hl
  · rfl

theorem unPara_sim (h : DecsSim p) (file : Option DocId) : Sim (unPara p file) := by
  intro d d' hr
  have ho := loop_sim (paraStep_good h.good file) (paraStep_sim h file) (paraStep_unk file)
    { file := file } d d' hr
  unfold unPara
  generalize loop (paraStep p file) { file := file } d = o at ho
  generalize loop (paraStep p file) { file := file } d' = o' at ho
  rcases o with ⟨v, e, x⟩
  rcases o' with ⟨v', e', x'⟩
  obtain ⟨hv, he, hx⟩ := ho
  simp only at hv he hx
  subst hv he
  cases e <;> exact ⟨rfl, rfl, hx⟩

theorem decs_sim : ∀ k, DecsSim (decs k)
  | 0 =>
    { good := (decs_good 0)
      para := fun _ _ _ h => ⟨rfl, rfl, h⟩
      canvas := fun _ _ _ h => ⟨rfl, rfl, h⟩
      parse := fun _ _ _ _ _ _ _ _ h => ⟨rfl, rfl, h⟩ }
  | k + 1 =>
    have ih := decs_sim k
    { good := let g := decs_good (k + 1); ⟨fun f => (g.para f).mono (Nat.zero_le _), fun f => (g.canvas f).mono (Nat.zero_le _), fun f r l as => (g.parse f r l as).mono (Nat.zero_le _)⟩
      para := unPara_sim ih
      canvas := unCanvas_sim ih
      parse := runParse_sim ih }

theorem cellStep_sim (h : DecsSim p) (file : Option DocId) :
    StepSim (cellStep p file) := by
  intro s q as d d' b hs hr
  unfold cellStep
  generalize hl : q.loc = l
  split <;> first
    | exact sim_sub ((unPara_sim h _).u _) hl hs hr
    | exact sim_sub ((unTcPr_sim).u _) hl hs hr
    | exact sim_skipTo _ _ _ hr

theorem cellStep_unk (file : Option DocId) : StepUnk (cellStep p file) := by
  intro s l as d hl
  unfold cellStep
  split
  · exact absurd (by decide) hl
  · exact absurd (by decide) hl
  · rfl

theorem unCell_sim (h : DecsSim p) (file : Option DocId) :
    Sim (unCell p file) :=
  loop_sim (cellStep_good h.good _) (cellStep_sim h _) (cellStep_unk _) _

theorem rowStep_sim (h : DecsSim p) (file : Option DocId) :
    StepSim (rowStep p file) := by
  intro s q as d d' b hs hr
  unfold rowStep
  generalize hl : q.loc = l
  split <;> first
    | exact sim_sub ((unTrPr_sim).u _) hl hs hr
    | exact sim_sub ((unCell_sim h _).u _) hl hs hr
    | exact sim_skipTo _ _ _ hr

theorem rowStep_unk (file : Option DocId) : StepUnk (rowStep p file) := by
  intro s l as d hl
  unfold rowStep
  split
  · exact absurd (by decide) hl
  · exact absurd (by decide) hl
  · rfl

theorem unRow_sim (h : DecsSim p) (file : Option DocId) :
    Sim (unRow p file) :=
  loop_sim (rowStep_good h.good _) (rowStep_sim h _) (rowStep_unk _) _

theorem tableStep_sim (h : DecsSim p) (file : Option DocId) :
    StepSim (tableStep p file) := by
  intro s q as d d' b hs hr
  unfold tableStep
  generalize hl : q.loc = l
  split <;> first
    | exact sim_sub ((unRow_sim h _).u _) hl hs hr
    | exact sim_sub ((unTblPr_sim).u _) hl hs hr
    | exact sim_sub ((unGrid_sim).u _) hl hs hr
    | exact sim_skipTo _ _ _ hr

theorem tableStep_unk (file : Option DocId) : StepUnk (tableStep p file) := by
  intro s l as d hl
  unfold tableStep
  split
  · exact absurd (by decide) hl
  · exact absurd (by decide) hl
  · exact absurd (by decide) hl
  · rfl

theorem unTable_sim (h : DecsSim p) (file : Option DocId) :
    Sim (unTable p file) :=
  loop_sim (tableStep_good h.good _) (tableStep_sim h _) (tableStep_unk _) _

theorem bodyStep_sim (h : DecsSim p) (file : Option DocId) :
    StepSim (bodyStep p file) := by
  intro s q as d d' b hs hr
  unfold bodyStep
  generalize hl : q.loc = l
  split <;> first
    | exact sim_sub ((unPara_sim h _).u _) hl hs hr
    | exact sim_sub ((unTable_sim h _).u _) hl hs hr
    | exact sim_sub ((unSect_sim).u _) hl hs hr
    | exact sim_skipTo _ _ _ hr

theorem bodyStep_unk (file : Option DocId) : StepUnk (bodyStep p file) := by
  intro s l as d hl
  unfold bodyStep
  split
  · exact absurd (by decide) hl
  · exact absurd (by decide) hl
  · exact absurd (by decide) hl
  · rfl

theorem unBody_sim (h : DecsSim p) (file : Option DocId) (s : List BItem) :
    Sim (unBody p file s) :=
  loop_sim (bodyStep_good h.good _) (bodyStep_sim h _) (bodyStep_unk _) _

theorem documentStep_sim (h : DecsSim p) (file : Option DocId) :
    StepSim (documentStep p file) := by
  intro s q as d d' b hs hr
  unfold documentStep
  generalize hl : q.loc = l
  split <;> first
    | exact sim_sub ((unBody_sim h _ _).u _) hl hs hr
    | exact sim_skipTo _ _ _ hr

theorem documentStep_unk (file : Option DocId) : StepUnk (documentStep p file) := by
  intro s l as d hl
  unfold documentStep
  split
  · exact absurd (by decide) hl
  · rfl

theorem unDocument_sim (h : DecsSim p) (file : Option DocId) (s : List BItem) :
    Sim (unDocument p file s) :=
  loop_sim (documentStep_good h.good _) (documentStep_sim h _) (documentStep_unk _) _


theorem rootN_sim {α : Type} {u : List Attr → Dec → Out α}
    (hu : ∀ as q d d' b, d.stk = .elem q :: b → SRel d d' → SameOut (u as d) (u as d')) (s : α) :
    ∀ (f : Nat) (d d' : Dec), SRel d d' → d.stk = [] →
      SameOut (rootN u s f d) (rootN u s f d') := by
  intro f
  induction f with
  | zero => intro d d' h _; exact ⟨rfl, rfl, h⟩
  | succ f ih =>
    intro d d' h hc
    rcases token_sim h with ⟨_, _, _, _, _, hs, _⟩ | ⟨_, _, _, _, _, _, hs, _⟩ |
      ⟨t, d1, d1', h1, h2, h3, h4, _⟩
    · rw [hc] at hs
      exact absurd rfl hs.1
    · rw [hc] at hs
      exact absurd rfl hs.1
    · rw [rootN, rootN, h1, h2]
      have hstk : (∀ q as, t ≠ .ok (.start q as)) → d1.stk = [] := by
        intro hne
        rcases token_pops h1 with h5 | ⟨q, as, h5, _⟩ | ⟨q, h5⟩
        · rw [h5, hc]
        · exact absurd h5 (hne q as)
        · rw [hc] at h5; cases h5
      cases t with
      | error e => exact ⟨rfl, rfl, h3⟩
      | ok t =>
        cases t with
        | start q as => exact hu as q d1 d1' _ (h4 q as rfl) h3
        | stop q => exact ih d1 d1' h3 (hstk (by simp))
        | chars c => exact ih d1 d1' h3 (hstk (by simp))
        | other => exact ih d1 d1' h3 (hstk (by simp))
        | bad => exact ih d1 d1' h3 (hstk (by simp))

theorem decodeWithin_sim (n : Nat) (file : Option DocId) (s : List BItem) {ts ts' : List Tok}
    (h : InsT [] ts ts') :
    SameOut (rootN (fun _ => decodeElement (unDocument (decs n) file s)) s n ⟨ts, [], false⟩)
      (rootN (fun _ => decodeElement (unDocument (decs n) file s)) s n ⟨ts', [], false⟩) :=
  rootN_sim (fun _ _ _ _ _ hs hr =>
    decodeElement_sim ((unDocument_sim (decs_sim n) file s).u _) rfl hs hr) s n _ _ ⟨rfl, rfl, h⟩ rfl

/-! ## From trees to tokens -/

omit [GoEnv] in
theorem not_inAlt_cons {q : QName} {c : List QName} (h : q.loc ≠ "AlternateContent") : ¬ inAlt (q :: c) := by
  rintro ⟨p, hp, hl⟩
  cases hp
  exact h hl

omit [GoEnv] in
mutual
theorem insT_node : ∀ (n : Node) {c : List QName} {ts ts' : List Tok},
    (Gaps.on = true → altTight n ∧ (inAlt c → n.isElem = true)) → InsT c ts ts' →
    InsT c (n.toks ++ ts) (n.toks ++ ts')
  | .elem q as kids, c, ts, ts', hn, h => by
    simp only [toks_elem, List.cons_append, List.append_assoc, List.nil_append]
    refine .start (insT_nodes kids (fun g => ?_) (.stop h))
    have := (hn g).1
    rw [altTight] at this
    exact ⟨this.2, fun ⟨p, hp, hl⟩ => this.1 (by cases hp; exact hl)⟩
  | .text s, c, ts, ts', hn, h => .chars (fun g ha => by have := (hn g).2 ha; cases this) h
  | .other, c, ts, ts', hn, h => .other (fun g ha => by have := (hn g).2 ha; cases this) h
theorem insT_nodes : ∀ (ks : List Node) {c : List QName} {ts ts' : List Tok},
    (Gaps.on = true → altTightL ks ∧ (inAlt c → ∀ n ∈ ks, n.isElem = true)) → InsT c ts ts' →
    InsT c (toksL ks ++ ts) (toksL ks ++ ts')
  | [], c, ts, ts', _, h => h
  | n :: ks, c, ts, ts', hk, h => by
    simp only [toksL, List.append_assoc]
    refine insT_node n (fun g => ?_) (insT_nodes ks (fun g => ?_) h)
    · have := hk g
      rw [altTightL] at this
      exact ⟨this.1.1, fun ha => this.2 ha n (List.mem_cons_self ..)⟩
    · have := hk g
      rw [altTightL] at this
      exact ⟨this.1.2, fun ha m hm => this.2 ha m (List.mem_cons_of_mem _ hm)⟩
end

omit [GoEnv] in
theorem solid_cons {q : QName} {c : List QName} (hq : q.loc ∉ fragile) (hc : ∀ p ∈ c, p.loc ∉ fragile) :
    solid (q :: c) := by
  refine ⟨by simp, ?_⟩
  intro p hp
  rcases List.mem_cons.mp hp with rfl | hp
  · exact hq
  · exact hc p hp

omit [GoEnv] in
theorem ins_toks (hoff : Gaps.on = false) {ks ks' : List Node} (h : Ins ks ks') :
    ∀ {c : List QName} {ts ts' : List Tok},
    solid c → InsT c ts ts' → InsT c (toksL ks ++ ts) (toksL ks' ++ ts') := by
  induction h with
  | nil => intro c ts ts' _ h; exact h
  | insert hq _ ih =>
    intro c ts ts' hc h
    simp only [toksL, List.append_assoc]
    exact .insert hc hq (ih hc h)
  | keep _ ih =>
    intro c ts ts' hc h
    simp only [toksL, List.append_assoc]
    exact insT_node _ (fun g => by rw [hoff] at g; cases g) (ih hc h)
  | inside hq _ _ ih1 ih2 =>
    intro c ts ts' hc h
    simp only [toksL, toks_elem, List.cons_append, List.append_assoc, List.nil_append]
    exact .start (ih1 (solid_cons hq hc.2) (.stop (ih2 hc h)))

omit [GoEnv] in
theorem loose_cons {q : QName} {c : List QName} (hq : q.loc ∉ rigid) (hc : ∀ p ∈ c, p.loc ∉ rigid) :
    loose (q :: c) := by
  refine ⟨by simp, ?_⟩
  intro p hp
  rcases List.mem_cons.mp hp with rfl | hp
  · exact hq
  · exact hc p hp

omit [GoEnv] in
theorem pad_toks (hon : Gaps.on = true) {v : Bool} {ks ks' : List Node} (h : Pad v ks ks') :
    ∀ {c : List QName} {ts ts' : List Tok}, altTightL ks → ¬ inAlt c →
    (v = true → ∀ q, c.head? = some q → q.loc ∉ textual) →
    loose c → InsT c ts ts' → InsT c (toksL ks ++ ts) (toksL ks' ++ ts') := by
  induction h with
  | nil => intro c ts ts' _ _ _ _ h; exact h
  | comment _ ih =>
    intro c ts ts' ht ha hv hc h
    exact .gap hon hc ⟨ha, .inl rfl⟩ (ih ht ha hv hc h)
  | @space s _ _ _ ih =>
    intro c ts ts' ht ha hv hc h
    exact .gap hon hc ⟨ha, .inr ⟨s, rfl, hv rfl⟩⟩ (ih ht ha hv hc h)
  | keep _ ih =>
    intro c ts ts' ht ha hv hc h
    rw [altTightL] at ht
    simp only [toksL, List.append_assoc]
    exact insT_node _ (fun _ => ⟨ht.1, fun h => absurd h ha⟩) (ih ht.2 ha hv hc h)
  | @inside v q as kids kids' ks ks' hq hqa _ _ ih1 ih2 =>
    intro c ts ts' ht ha hv hc h
    rw [altTightL, altTight] at ht
    simp only [toksL, toks_elem, List.cons_append, List.append_assoc, List.nil_append]
    refine .start (ih1 ht.1.2 (not_inAlt_cons hqa) ?_ (loose_cons hq hc.2) (.stop (ih2 ht.2 ha hv hc h)))
    intro hd p hp
    cases hp
    exact of_decide_eq_true hd

omit [GoEnv] in
/-- Tokens before the root element -/
theorem insT_prolog {pre : List Tok} (hp : ∀ t ∈ pre, t = .other ∨ ∃ x, t = .chars x)
    {ts ts' : List Tok} (h : InsT [] ts ts') : InsT [] (pre ++ ts) (pre ++ ts') := by
  have hA : Gaps.on = true → ¬ inAlt [] := fun _ ⟨_, h, _⟩ => by cases h
  induction pre with
  | nil => exact h
  | cons t pre ih =>
    have := ih fun t ht => hp t (List.mem_cons_of_mem _ ht)
    rcases hp t (List.mem_cons_self ..) with rfl | ⟨x, rfl⟩
    · exact .other hA this
    · exact .chars hA this

end Docx
