import Verif.Demo
import Verif.SpecDemo
import Verif.Props.Fits
import Verif.Props.Dress
import Verif.Props.Cli
import Verif.Props.Parts

/-!
# C103 The demonstration document
-/

namespace Docx

/-! ## What it shows -/

section
variable [ImgEnv]

theorem foldl_picture {b : Bool} {l : Loc} {pic : Bytes} {x : Int64 × Int64 × String}
    (h : ImgEnv.decodeSize pic = some x) (cs : List Call) (bs : List Block) :
    (Call.picture b l pic :: cs).foldl (fun bs c => c.does bs) bs =
      cs.foldl (fun bs c => c.does bs) (addAt l [.picture b pic] bs) := by
  simp [Call.does, h]

theorem demo_first {jpg : Bytes} {x : Int64 × Int64 × String} (h : ImgEnv.decodeSize jpg = some x) (cx cy : Int64) :
    (demoFirst jpg cx cy).foldl (fun bs c => c.does bs) [] = [.page 11906 16838, .para [.picture false jpg]] := by
  show (Call.picture false (.body 1) jpg :: _).foldl _ [Block.page 11906 16838, Block.para []] = _
  rw [foldl_picture h]
  rfl

set_option maxRecDepth 10000 in
theorem demo_texts (jpg : Bytes) :
    demoTexts.foldl (fun bs c => c.does bs) [.page 11906 16838, .para [.picture false jpg]] =
      (demoBlocks jpg [] []).take 5 ++ [.para []] := rfl

theorem demo_pictures {jpg webp : Bytes} {x y : Int64 × Int64 × String} (h : ImgEnv.decodeSize jpg = some x)
    (h' : ImgEnv.decodeSize webp = some y) (cx cy dx dy : Int64) :
    (demoPictures jpg webp cx cy dx dy).foldl (fun bs c => c.does bs) ((demoBlocks jpg [] []).take 5 ++ [.para []]) =
      (demoBlocks jpg webp []).take 6 := by
  unfold demoPictures
  rw [foldl_picture h]
  show (Call.picture true (.body 5) webp :: _).foldl _ ((demoBlocks jpg [] []).take 5 ++ [.para [.picture true jpg, .tab, .tab]]) = _
  rw [foldl_picture h']
  rfl

set_option maxRecDepth 10000 in
theorem demo_wide {png : Bytes} {x : Int64 × Int64 × String} (h : ImgEnv.decodeSize png = some x) (jpg webp : Bytes) :
    (demoWide png).foldl (fun bs c => c.does bs) ((demoBlocks jpg webp []).take 6) = (demoBlocks jpg webp png).take 9 := by
  have e : (demoWide png).foldl (fun bs c => c.does bs) ((demoBlocks jpg webp []).take 6) =
      [Call.picture true (.body 8) png].foldl (fun bs c => c.does bs) ((demoBlocks jpg webp []).take 8 ++ [.para []]) := rfl
  rw [e, foldl_picture h]
  rfl

set_option maxRecDepth 10000 in
theorem demo_colors (jpg webp png : Bytes) :
    demoColors.foldl (fun bs c => c.does bs) ((demoBlocks jpg webp png).take 9) = (demoBlocks jpg webp png).take 11 := by
  have : ∀ bs : List Block, bs.length = 9 → demoColors.foldl (fun bs c => c.does bs) bs =
      bs ++ [.para [], .table (demoReds.map fun red => demoGreenBlues.map fun gb => [[.text (red ++ gb)]])] := by
    intro bs h
    match bs, h with
    | [_, _, _, _, _, _, _, _, _], _ => rfl
  rw [this _ rfl]
  rfl

set_option maxRecDepth 10000 in
theorem demo_rest (jpg webp png : Bytes) :
    (demoGrid ++ demoShapes).foldl (fun bs c => c.does bs) ((demoBlocks jpg webp png).take 11) =
      demoBlocks jpg webp png := by
  have : ∀ bs : List Block, bs.length = 11 → (demoGrid ++ demoShapes).foldl (fun bs c => c.does bs) bs =
      bs ++ (demoBlocks [] [] []).drop 11 := by
    intro bs h
    match bs, h with
    | [_, _, _, _, _, _, _, _, _, _, _], _ => rfl
  rw [this _ rfl]
  rfl

theorem demo_result {jpg webp png : Bytes} {x y z : Int64 × Int64 × String} (h1 : ImgEnv.decodeSize jpg = some x)
    (h2 : ImgEnv.decodeSize webp = some y) (h3 : ImgEnv.decodeSize png = some z) (cx cy dx dy : Int64) :
    (demoCalls jpg webp png cx cy dx dy).foldl (fun bs c => c.does bs) [] = demoBlocks jpg webp png := by
  unfold demoCalls
  have := demo_rest jpg webp png
  rw [List.foldl_append] at this
  simp only [List.foldl_append, demo_first h1, demo_texts, demo_pictures h1 h2, demo_wide h3, demo_colors, this]

/-! ## Every call returns -/

theorem allReturn_append (as bs : List Call) : ∀ x, allReturn (as ++ bs) x =
    (allReturn as x && allReturn bs (as.foldl (fun bs c => c.does bs) x)) := by
  induction as with
  | nil => intro x; rfl
  | cons a as ih => intro x; simp only [List.cons_append, allReturn, ih, List.foldl_cons, Bool.and_assoc]

theorem allReturn_flatMap {α : Type} {I : List Block → Prop} {g : α → List Call} : ∀ {as : List α},
    (∀ a ∈ as, ∀ bs, I bs → allReturn (g a) bs = true ∧ I ((g a).foldl (fun bs c => c.does bs) bs)) →
    ∀ bs, I bs → allReturn (as.flatMap g) bs = true ∧ I ((as.flatMap g).foldl (fun bs c => c.does bs) bs) := by
  intro as
  induction as with
  | nil => intro _ bs h; exact ⟨rfl, h⟩
  | cons a as ih =>
    intro h bs hb
    obtain ⟨h1, h2⟩ := h a (by simp) bs hb
    obtain ⟨h3, h4⟩ := ih (fun a ha => h a (List.mem_cons_of_mem _ ha)) _ h2
    rw [List.flatMap_cons, allReturn_append, List.foldl_append, h1, h3]
    exact ⟨rfl, h4⟩

omit [ImgEnv] in
/-- Block 10 is a table of 9 rows and columns -/
def Nine (bs : List Block) : Prop :=
  ∃ t, bs[10]? = some (.table t) ∧ ∀ x, x < 9 → ∀ y, y < 9 → ∃ row cell, t[x]? = some row ∧ row[y]? = some cell

omit [ImgEnv] in
theorem nine_modify {bs : List Block} (h : Nine bs) (x y : Nat) (k : List (List Bit) → List (List Bit)) :
    Nine (bs.modify 10 fun
      | .table t => .table (t.modify x fun row => row.modify y k)
      | b => b) := by
  obtain ⟨t, h1, h2⟩ := h
  refine ⟨t.modify x fun row => row.modify y k, by rw [List.getElem?_modify_eq, h1]; rfl, fun x' hx y' hy => ?_⟩
  obtain ⟨row, cell, h3, h4⟩ := h2 x' hx y' hy
  by_cases e : x = x'
  · subst e
    refine ⟨row.modify y k, ?_⟩
    rw [List.getElem?_modify_eq, h3]
    by_cases e : y = y'
    · subst e
      exact ⟨k cell, rfl, by rw [List.getElem?_modify_eq, h4]; rfl⟩
    · exact ⟨cell, rfl, by simp [e, h4]⟩
  · exact ⟨row, cell, by simp [e, h3], h4⟩

theorem demoColors_return (bs : List Block) (h : bs.length = 9) : allReturn demoColors bs = true := by
  unfold demoColors
  simp only [allReturn, Call.returns]
  rw [Bool.true_and, decide_eq_true (by decide), Bool.true_and]
  refine (allReturn_flatMap (I := Nine) (fun x hx => allReturn_flatMap fun y hy bs hb => ?_) _ ?_).1
  · rw [List.mem_range] at hx hy
    have h1 := nine_modify hb x y fun cell => cell ++ [[]]
    obtain ⟨t, h2, h3⟩ := hb
    obtain ⟨row, cell, h4, h5⟩ := h3 x hx y hy
    refine ⟨?_, nine_modify h1 x y fun cell => cell.modify 0 fun bits => bits ++ bitsOf (cellColor x y).toList⟩
    simp only [allReturn, Call.returns, Call.does, Bool.true_and, Bool.and_true, hasPlace]
    rw [List.getElem?_modify_eq, h2]
    simp [List.getElem?_modify_eq, h4, h5]
  · match bs, h with
    | [_, _, _, _, _, _, _, _, _], _ =>
      refine ⟨List.replicate 9 (List.replicate 9 []), rfl, fun x hx y hy => ⟨List.replicate 9 [], [], ?_, ?_⟩⟩
      · rw [List.getElem?_replicate, if_pos hx]
      · rw [List.getElem?_replicate, if_pos hy]

set_option maxRecDepth 10000 in
theorem demoRest_return (bs : List Block) (h : bs.length = 11) : allReturn (demoGrid ++ demoShapes) bs = true := by
  match bs, h with
  | [_, _, _, _, _, _, _, _, _, _, _], _ => rfl

omit [ImgEnv] in
theorem decide_width (w : Int64) : decide (w ≠ 0) = !decide (w = 0) := by simp

set_option maxRecDepth 10000 in
/-- All calls return exactly if the last picture is not 0 wide, when the others are not -/
theorem demo_returns {jpg webp png : Bytes} {w1 h1 w2 h2 w3 h3 : Int64} {f1 f2 f3 : String}
    (e1 : ImgEnv.decodeSize jpg = some (w1, h1, f1)) (e2 : ImgEnv.decodeSize webp = some (w2, h2, f2))
    (e3 : ImgEnv.decodeSize png = some (w3, h3, f3)) (n1 : w1 ≠ 0) (n2 : w2 ≠ 0) (cx cy dx dy : Int64) :
    allReturn (demoCalls jpg webp png cx cy dx dy) [] = decide (w3 ≠ 0) := by
  have pic : ∀ {b : Bool} {l : Loc} {p : Bytes} {w h : Int64} {f : String}, ImgEnv.decodeSize p = some (w, h, f) →
      ∀ cs bs, allReturn (.picture b l p :: cs) bs = ((hasPlace l bs && decide (w ≠ 0)) && allReturn cs (addAt l [.picture b p] bs)) := by
    intro b l p w h f e cs bs
    simp only [allReturn, Call.returns, Call.does, e]
  have r1 : allReturn (demoFirst jpg cx cy) [] = true := by
    show allReturn (.picture false (.body 1) jpg :: _) [Block.page 11906 16838, Block.para []] = true
    rw [pic e1, decide_eq_true n1]
    rfl
  have r2 : allReturn demoTexts [.page 11906 16838, .para [.picture false jpg]] = true := rfl
  have r3 : allReturn (demoPictures jpg webp cx cy dx dy) ((demoBlocks jpg [] []).take 5 ++ [.para []]) = true := by
    unfold demoPictures
    rw [pic e1, decide_eq_true n1]
    show (_ && allReturn (.picture true (.body 5) webp :: _) ((demoBlocks jpg [] []).take 5 ++ [.para [.picture true jpg, .tab, .tab]])) = true
    rw [pic e2, decide_eq_true n2]
    rfl
  have r4 : allReturn (demoWide png) ((demoBlocks jpg webp []).take 6) = decide (w3 ≠ 0) := by
    show allReturn (.picture true (.body 8) png :: []) ((demoBlocks jpg webp []).take 8 ++ [.para []]) = _
    rw [pic e3]
    show (true && decide (w3 ≠ 0) && true) = _
    rw [Bool.true_and, Bool.and_true]
  unfold demoCalls
  simp only [allReturn_append, List.foldl_append, demo_first e1, demo_texts, demo_pictures e1 e2, demo_wide e3,
    demo_colors, r1, r2, r3, r4, demoColors_return _ (show ((demoBlocks jpg webp png).take 9).length = 9 from rfl)]
  have := demoRest_return ((demoBlocks jpg webp png).take 11) rfl
  rw [allReturn_append] at this
  rw [Bool.and_eq_true] at this
  simp [this.1, this.2]

end

/-! ## How it is formatted -/

/-- Pictures aside, what calls do to the formatting does not depend on which pictures can be decoded -/
theorem dresses_env {i j : ImgEnv} {c : Call} (h : ∀ b l p, c ≠ .picture b l p) (ds : List Dress) :
    @Call.dresses i c ds = @Call.dresses j c ds := by
  cases c with
  | picture b l p => exact (h b l p rfl).elim
  | _ => rfl

theorem foldl_dresses_env {i j : ImgEnv} : ∀ {cs : List Call}, (∀ c ∈ cs, ∀ b l p, c ≠ .picture b l p) → ∀ ds,
    cs.foldl (fun ds c => @Call.dresses i c ds) ds = cs.foldl (fun ds c => @Call.dresses j c ds) ds := by
  intro cs
  induction cs with
  | nil => intro _ _; rfl
  | cons c cs ih =>
    intro h ds
    rw [List.foldl_cons, List.foldl_cons, dresses_env (j := j) (h c (by simp)), ih fun c hc => h c (List.mem_cons_of_mem _ hc)]

/-- A call that adds no picture -/
def Call.pictureless : Call → Bool
  | .picture _ _ _ => false
  | _ => true

theorem pictureless_ne {cs : List Call} (h : cs.all Call.pictureless = true) : ∀ c ∈ cs, ∀ b l p, c ≠ .picture b l p := by
  rintro c hc b l p rfl
  have := List.all_eq_true.1 h _ hc
  cases this

/-- Formatting that does not depend on pictures -/
theorem dresses_closed [i : ImgEnv] {cs : List Call} {ds es : List Dress} (h : cs.all Call.pictureless = true)
    (e : cs.foldl (fun ds c => @Call.dresses ⟨fun _ => none⟩ c ds) ds = es) :
    cs.foldl (fun ds c => c.dresses ds) ds = es :=
  (foldl_dresses_env (pictureless_ne h) ds).trans e

section
variable [ImgEnv]

theorem dresses_picture {b : Bool} {l : Loc} {pic : Bytes} {x : Int64 × Int64 × String}
    (h : ImgEnv.decodeSize pic = some x) (ds : List Dress) :
    (Call.picture b l pic).dresses ds = wearAt l "*docx.Run" {} ds := by
  simp [Call.dresses, h]

theorem demo_dress {jpg webp png : Bytes} {x y z : Int64 × Int64 × String} (h1 : ImgEnv.decodeSize jpg = some x)
    (h2 : ImgEnv.decodeSize webp = some y) (h3 : ImgEnv.decodeSize png = some z) (cx cy dx dy : Int64) :
    (demoCalls jpg webp png cx cy dx dy).foldl (fun ds c => c.dresses ds) [] = demoDress := by
  let first : List Dress := [.page, .para (runsDress (some "distribute") [{}])]
  let mid : List Dress := demoDress.take 5 ++ [.para (runsDress (some "center") [])]
  have s1 : (demoFirst jpg cx cy).foldl (fun ds c => c.dresses ds) [] = first := by
    simp only [demoFirst, List.foldl_cons, List.foldl_nil, dresses_picture h1]
    rfl
  have s2 : demoTexts.foldl (fun ds c => c.dresses ds) first = mid := dresses_closed (by decide +kernel) (by decide +kernel)
  have s3 : (demoPictures jpg webp cx cy dx dy).foldl (fun ds c => c.dresses ds) mid = demoDress.take 6 := by
    simp only [demoPictures, List.foldl_cons, List.foldl_nil, dresses_picture h1, dresses_picture h2]
    rfl
  have s4 : (demoWide png).foldl (fun ds c => c.dresses ds) (demoDress.take 6) = demoDress.take 9 := by
    simp only [demoWide, List.foldl_cons, List.foldl_nil, dresses_picture h3]
    rfl
  have s5 : (demoColors ++ demoGrid ++ demoShapes).foldl (fun ds c => c.dresses ds) (demoDress.take 9) = demoDress :=
    dresses_closed (by decide +kernel) (by decide +kernel)
  simp only [List.foldl_append] at s5
  unfold demoCalls
  simp only [List.foldl_append, s1, s2, s3, s4, s5]

/-! ## The document -/

theorem demo_built (fs : FS) : BuiltUp ImageNamed 0 (Doc.new.useTemplate "default" defaultTemplateFiles (some fs)) [] :=
  ⟨fun hl => sane_evo sane_new (.template _ _ _ (.refl _)) hl, rfl, by simp, by simp [Doc.new, Doc.useTemplate],
    by simp [Doc.new, Doc.useTemplate]⟩

omit [ImgEnv] in
theorem demo_length (jpg webp png : Bytes) (cx cy dx dy : Int64) :
    (demoCalls jpg webp png cx cy dx dy).length ≤ 1000 := by
  have : (demoColors ++ demoGrid ++ demoShapes).length ≤ 900 := by decide +kernel
  simp only [List.length_append] at this
  simp only [demoCalls, List.length_append, demoFirst, demoPictures, demoWide, demoTexts, List.length_cons, List.length_nil]
  omega

omit [ImgEnv] in
theorem demo_small (fs : FS) {n : Nat} (h : n ≤ 1000) :
    (Doc.new.useTemplate "default" defaultTemplateFiles (some fs)).rels.length + n < 2 ^ 62 := by
  have : (Doc.new.useTemplate "default" defaultTemplateFiles (some fs)).rels.length = 3 := rfl
  omega

/-- What is known of the demonstration document -/
theorem demo_some [GoEnv] {fs : FS} {jpg webp png : Option Bytes} {f : Doc} (h : demoDoc fs jpg webp png = some f) :
    ∃ a b c, jpg = some a ∧ webp = some b ∧ png = some c ∧ Usable jpg ∧ Usable webp ∧ Usable png ∧
      BuiltUp ImageNamed 0 f (demoBlocks a b c) ∧ f.rels.length < 2 ^ 62 ∧ Dressed [f] [demoBlocks a b c] [demoDress] ∧
      f.template = "default" ∧ f.tmplfs = some fs ∧ f.tmpfslst = defaultTemplateFiles := by
  cases jpg with
  | none => simp [demoDoc] at h
  | some a =>
  cases webp with
  | none => simp [demoDoc] at h
  | some b =>
  cases png with
  | none => simp [demoDoc] at h
  | some c =>
  cases e1 : ImgEnv.decodeSize a with
  | none => simp [demoDoc, e1] at h
  | some x =>
  obtain ⟨w1, h1, f1⟩ := x
  cases e2 : ImgEnv.decodeSize b with
  | none => simp [demoDoc, e1, e2] at h
  | some y =>
  obtain ⟨w2, h2, f2⟩ := y
  cases e3 : ImgEnv.decodeSize c with
  | none => simp [demoDoc, e1, e2, e3] at h
  | some z =>
  obtain ⟨w3, h3, f3⟩ := z
  cases s1 : scaleSize w1 h1 with
  | none => simp [demoDoc, e1, e2, e3, s1] at h
  | some p =>
  cases s2 : scaleSize w2 h2 with
  | none => simp [demoDoc, e1, e2, e3, s1, s2] at h
  | some q =>
  have n1 : w1 ≠ 0 := of_decide_eq_true (by rw [← scaleSize_iff w1 h1, s1]; rfl)
  have n2 : w2 ≠ 0 := of_decide_eq_true (by rw [← scaleSize_iff w2 h2, s2]; rfl)
  have hr := allReturn_run (cs := demoCalls a b c p.1 p.2 q.1 q.2) (demo_built fs) (demo_small fs (demo_length ..))
  rw [demo_returns e1 e2 e3 n1 n2, demo_result e1 e2 e3] at hr
  simp only [demoDoc, e1, e2, e3, s1, s2, Option.bind_eq_bind, Option.bind_some] at h
  have hn : run [] (.new :: .useTemplate 0 "default" defaultTemplateFiles (some fs) ::
      (demoCalls a b c p.1 p.2 q.1 q.2).map (Call.op 0)) =
      run [Doc.new.useTemplate "default" defaultTemplateFiles (some fs)]
        ((demoCalls a b c p.1 p.2 q.1 q.2).map (Call.op 0)) := rfl
  rw [hn] at h
  by_cases n3 : w3 = 0
  · rw [hr.2 (by simp [n3])] at h
    cases h
  · obtain ⟨f', r1, r2, r3, r4⟩ := hr.1 (by simp [n3])
    rw [r1] at h
    obtain rfl : f' = f := by simpa using h
    have hl : f'.rels.length < 2 ^ 62 := by
      have := demo_small fs (demo_length a b c p.1 p.2 q.1 q.2)
      omega
    refine ⟨a, b, c, rfl, rfl, rfl, ⟨a, _, _, _, rfl, e1, n1⟩, ⟨b, _, _, _, rfl, e2, n2⟩, ⟨c, _, _, _, rfl, e3, n3⟩, r4, hl,
      ?_, r3⟩
    have := dressed_calls (d := 0) (.template 0 "default" defaultTemplateFiles (some fs) (.new .start) rfl) r1
      (by simpa using hl)
    simp only [List.nil_append, List.modify_zero_cons, demo_result e1 e2 e3, demo_dress e1 e2 e3] at this
    exact this

/-- **C103, there is one.** The tool builds its demonstration document without a panic exactly if the three pictures
can be read and decoded and are not 0 wide. -/
theorem C103_exists [GoEnv] (fs : FS) (jpg webp png : Option Bytes) :
    (demoDoc fs jpg webp png).isSome = true ↔ Usable jpg ∧ Usable webp ∧ Usable png := by
  constructor
  · intro h
    obtain ⟨f, hf⟩ := Option.isSome_iff_exists.1 h
    obtain ⟨a, b, c, _, _, _, u1, u2, u3, _⟩ := demo_some hf
    exact ⟨u1, u2, u3⟩
  · rintro ⟨⟨a, w1, h1, f1, rfl, e1, n1⟩, ⟨b, w2, h2, f2, rfl, e2, n2⟩, ⟨c, w3, h3, f3, rfl, e3, n3⟩⟩
    obtain ⟨p, s1⟩ := Option.isSome_iff_exists.1 ((scaleSize_iff w1 h1).trans (decide_eq_true n1))
    obtain ⟨q, s2⟩ := Option.isSome_iff_exists.1 ((scaleSize_iff w2 h2).trans (decide_eq_true n2))
    have hr := allReturn_run (cs := demoCalls a b c p.1 p.2 q.1 q.2) (demo_built fs) (demo_small fs (demo_length ..))
    rw [demo_returns e1 e2 e3 n1 n2] at hr
    obtain ⟨f', r1, _⟩ := hr.1 (decide_eq_true n3)
    have hn : run [] (.new :: .useTemplate 0 "default" defaultTemplateFiles (some fs) ::
        (demoCalls a b c p.1 p.2 q.1 q.2).map (Call.op 0)) = .ok [f'] := r1
    simp only [demoDoc, e1, e2, e3, s1, s2, Option.bind_eq_bind, Option.bind_some, hn, Option.isSome_some]

/-- **C103, in memory.** The demonstration document shows its pictures, texts, links, tables and shapes, has exactly
the formatting that was asked for and the default theme. -/
theorem C103_demo [GoEnv] (fs : FS) (jpg webp png : Option Bytes) (f : Doc) (h : demoDoc fs jpg webp png = some f) :
    ∃ a b c, jpg = some a ∧ webp = some b ∧ png = some c ∧ f.shows = demoBlocks a b c ∧ f.dress = demoDress ∧
      f.template = "default" ∧ f.tmplfs = some fs ∧ f.tmpfslst = defaultTemplateFiles := by
  obtain ⟨a, b, c, h1, h2, h3, _, _, _, hb, _, hd, ht⟩ := demo_some h
  exact ⟨a, b, c, h1, h2, h3, hb.shows, (List.cons.inj (C101_documents _ _ _ hd).2).1, ht⟩

end

theorem demo_clean (a b c : Bytes) : (demoBlocks a b c).map cleanBlock = demoBlocks a b c := by
  have : (demoBlocks [] [] []).map cleanBlock = demoBlocks [] [] [] := by decide +kernel
  unfold demoBlocks at this ⊢
  simp only [List.map_cons, List.cons.injEq] at this ⊢
  refine ⟨this.1, ?_, this.2.2.1, this.2.2.2.1, this.2.2.2.2.1, rfl, this.2.2.2.2.2.2.1, this.2.2.2.2.2.2.2.1, rfl,
    this.2.2.2.2.2.2.2.2.2⟩
  have h := this.2.1
  simp only [cleanBlock, List.map_cons, Block.para.injEq, List.cons.injEq] at h ⊢
  exact ⟨rfl, h.2⟩

theorem demo_saved : demoDress.map savedDress = demoDress := by decide +kernel

section
variable [GoEnv] [ImgEnv]

/-- **C103, saved and opened.** The demonstration document, saved and opened again, shows the same and has the same
formatting. -/
theorem C103_file (fs : FS) (jpg webp png : Option Bytes) (f : Doc) (h : demoDoc fs jpg webp png = some f)
    (hfmt : ∀ pic x y fmt, ImgEnv.decodeSize pic = some (x, y, fmt) → xmlText fmt) (out : Saved) (ho : Saves f out none)
    (me : DocId) :
    ∃ a b c g, jpg = some a ∧ webp = some b ∧ png = some c ∧ unpack me (reread out) = (g, none) ∧
      g.shows = demoBlocks a b c ∧ g.dress = demoDress := by
  obtain ⟨a, b, c, h1, h2, h3, _, _, _, hb, hl, hd, _, _, ht⟩ := demo_some h
  have hp := (makes_program (dressed_makes hd)).1
  obtain ⟨g, g1, g2⟩ := C99_file [f] [demoBlocks a b c] (dressed_makes hd) 0 f _ rfl rfl (fun m hm => by
    obtain ⟨pic, x, y, fmt, k, hdec, hk⟩ := hb.names m hm
    rw [hk]
    exact xmlText_append (xmlText_append (xmlText_append ((clean_iff _).1 (by decide)) (xmlText_itoa _))
      ((clean_iff _).1 (by decide))) (hfmt _ _ _ _ hdec)) (by rw [ht]; decide) out ho me
  obtain ⟨g', g3, g4⟩ := C101_file [f] hp f (by simp) out ho me
  obtain rfl : g = g' := (Prod.mk.inj (g1.symm.trans g3)).1
  rw [(List.cons.inj (C101_documents _ _ _ hd).2).1, demo_saved] at g4
  rw [demo_clean] at g2
  exact ⟨a, b, c, g, h1, h2, h3, g1, g2, g4⟩

/-- **C103, the tool.** A complete run of the tool without `-a` has written this document first, to the file it was
told. -/
theorem C103_tool [CliEnv] [HashEnv] (fl : Flags) (jpg webp png : Option Bytes) (parsed : Option Doc)
    (h : (cliMain fl (demoDoc CliEnv.theme jpg webp png) parsed).2 = some ()) (ha : fl.analyze = false) :
    ∃ a b c f, jpg = some a ∧ webp = some b ∧ png = some c ∧
      (writtenDocs (cliMain fl (demoDoc CliEnv.theme jpg webp png) parsed).1).head? = some (fl.file, f) ∧
      f.shows = demoBlocks a b c ∧ f.dress = demoDress := by
  obtain ⟨d, w, rfl, p1, p2, p3, p4, p5, e⟩ := cliMain_done h
  obtain ⟨a1, _, _⟩ := demoPart_done p1
  cases hd : demoDoc CliEnv.theme jpg webp png with
  | none =>
    rw [hd] at p1
    have : (demoPart fl none).2 = none := by
      unfold demoPart
      rw [if_neg (by simp [ha])]
      rfl
    rw [this] at p1
    cases p1
  | some f =>
    obtain ⟨a, b, c, h1, h2, h3, h4, h5, _⟩ := C103_demo _ _ _ _ _ hd
    refine ⟨a, b, c, f, h1, h2, h3, ?_, h4, h5⟩
    rw [hd] at e a1
    rw [e, writtenDocs_append, a1]
    simp [ha]

end

/-! ## Pictures with which it works, and with which it does not -/

local instance demoGo : GoEnv := ⟨fun _ => none, fun _ => false, fun _ => false⟩

/-- Pictures are as wide as their first byte says -/
local instance demoImg : ImgEnv := ⟨fun b => b.head?.map fun n => (Int64.ofNat n.toNat, 10, "png")⟩

/-- The document is built and saved -/
example : ∃ f out, demoDoc partsFS (some [40]) (some [12]) (some [200]) = some f ∧ Saves f out none := by
  have key : (match demoDoc partsFS (some [40]) (some [12]) (some [200]) with
      | some f => f.media.map (·.name) == ["image1.png", "image2.png", "image3.png", "image4.png"]
      | none => false) = true := by decide +kernel
  split at key
  · rename_i f hf
    obtain ⟨a, b, c, _, _, _, _, _, ht⟩ := C103_demo _ _ _ _ _ hf
    obtain ⟨out, ho⟩ := themed_saves partsFS_embedded ht (fun m hm => by
      have hm := List.mem_map_of_mem (f := (·.name)) hm
      rw [eq_of_beq key] at hm
      have all : ∀ n ∈ ["image1.png", "image2.png", "image3.png", "image4.png"],
          ("word/media/" ++ n).utf8ByteSize ≤ 65535 ∧ isDirName ("word/media/" ++ n) = false := by decide
      exact all _ hm)
    exact ⟨f, out, hf, ho⟩
  · cases key

/-- A picture that is 0 wide -/
example : demoDoc partsFS (some [40]) (some [12]) (some [0]) = none := by
  have := (C103_exists partsFS (some [40]) (some [12]) (some [0])).1
  cases h : demoDoc partsFS (some [40]) (some [12]) (some [0]) with
  | none => rfl
  | some f =>
    obtain ⟨_, _, b, w, x, fmt, e1, e2, e3⟩ := this (by rw [h]; rfl)
    cases e1
    simp [ImgEnv.decodeSize] at e2
    exact (e3 e2.1.symm).elim

end Docx
