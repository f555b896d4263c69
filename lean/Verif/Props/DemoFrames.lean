import Verif.SpecDemoFrames
import Verif.Props.Demo
import Verif.Props.Frames

/-!
# C103 The sizes and places of the drawings of the demonstration document
-/

namespace Docx

section
variable [ImgEnv]

theorem frames_picture {b : Bool} {l : Loc} {pic : Bytes} {w h x y : Int64} {fmt : String}
    (e : ImgEnv.decodeSize pic = some (w, h, fmt)) (s : scaleSize w h = some (x, y)) (fs : List Frames) :
    (Call.picture b l pic).frames fs = frameAt l "*docx.Run" [newPicFrame b false x y] fs := by
  simp [Call.frames, e, s]

set_option maxRecDepth 10000 in
theorem demo_frames {jpg webp png : Bytes} {w1 h1 w2 h2 w3 h3 cx cy dx dy ex ey : Int64} {f1 f2 f3 : String}
    (e1 : ImgEnv.decodeSize jpg = some (w1, h1, f1)) (e2 : ImgEnv.decodeSize webp = some (w2, h2, f2))
    (e3 : ImgEnv.decodeSize png = some (w3, h3, f3)) (s1 : scaleSize w1 h1 = some (cx, cy))
    (s2 : scaleSize w2 h2 = some (dx, dy)) (s3 : scaleSize w3 h3 = some (ex, ey)) :
    (demoCalls jpg webp png cx cy dx dy).foldl (fun fs c => c.frames fs) [] = demoFrames cx cy dx dy ex ey := by
  let all := demoFrames cx cy dx dy ex ey
  have t1 : (demoFirst jpg cx cy).foldl (fun fs c => c.frames fs) [] =
      [.page, .para [("*docx.Run", [⟨false, false, some (cx / 4, cy / 4), some (cx / 4, cy / 4), 1, some (cx / 4), some 50000⟩])]] := by
    simp only [demoFirst, List.foldl_cons, List.foldl_nil, frames_picture e1 s1]
    rfl
  have t2 : demoTexts.foldl (fun fs c => c.frames fs)
      [.page, .para [("*docx.Run", [⟨false, false, some (cx / 4, cy / 4), some (cx / 4, cy / 4), 1, some (cx / 4), some 50000⟩])]] =
      all.take 5 ++ [.para []] := rfl
  have t3 : (demoPictures jpg webp cx cy dx dy).foldl (fun fs c => c.frames fs) (all.take 5 ++ [.para []]) = all.take 6 := by
    simp only [demoPictures, List.foldl_cons, List.foldl_nil, frames_picture e1 s1, frames_picture e2 s2]
    rfl
  have t4 : (demoWide png).foldl (fun fs c => c.frames fs) (all.take 6) = all.take 9 := by
    simp only [demoWide, List.foldl_cons, List.foldl_nil, frames_picture e3 s3]
    rfl
  have t5 : demoColors.foldl (fun fs c => c.frames fs) (all.take 9) = all.take 11 := rfl
  have t6 : (demoGrid ++ demoShapes).foldl (fun fs c => c.frames fs) (all.take 11) = all := rfl
  simp only [List.foldl_append] at t6
  unfold demoCalls
  simp only [List.foldl_append, t1, t2, t3, t4, t5, t6]
  rfl

/-- **C103, the drawings.** The first picture floats behind the text at a quarter of the size it got when it was
added, a quarter of its width from the left, half transparent.  The two in the next line have four fifths of their sizes,
the last picture and the lines are as they were added. -/
theorem C103_drawings [GoEnv] (fs : FS) (jpg webp png : Option Bytes) (f : Doc) (h : demoDoc fs jpg webp png = some f) :
    ∃ a b c w1 h1 f1 w2 h2 f2 w3 h3 f3 cx cy dx dy ex ey, jpg = some a ∧ webp = some b ∧ png = some c ∧
      ImgEnv.decodeSize a = some (w1, h1, f1) ∧ ImgEnv.decodeSize b = some (w2, h2, f2) ∧
      ImgEnv.decodeSize c = some (w3, h3, f3) ∧ scaleSize w1 h1 = some (cx, cy) ∧ scaleSize w2 h2 = some (dx, dy) ∧
      scaleSize w3 h3 = some (ex, ey) ∧ f.frames = demoFrames cx cy dx dy ex ey ∧
      ∀ out, Saves f out none → ∀ me, ∃ g, unpack me (reread out) = (g, none) ∧ g.frames = demoFrames cx cy dx dy ex ey := by
  obtain ⟨a, b, c, rfl, rfl, rfl, ⟨_, w1, h1, f1, r1, e1, n1⟩, ⟨_, w2, h2, f2, r2, e2, n2⟩, ⟨_, w3, h3, f3, r3, e3, n3⟩, _, hl,
    hd, _⟩ := demo_some h
  cases r1
  cases r2
  cases r3
  obtain ⟨⟨cx, cy⟩, s1⟩ := Option.isSome_iff_exists.1 ((scaleSize_iff w1 h1).trans (decide_eq_true n1))
  obtain ⟨⟨dx, dy⟩, s2⟩ := Option.isSome_iff_exists.1 ((scaleSize_iff w2 h2).trans (decide_eq_true n2))
  obtain ⟨⟨ex, ey⟩, s3⟩ := Option.isSome_iff_exists.1 ((scaleSize_iff w3 h3).trans (decide_eq_true n3))
  simp only [demoDoc, e1, e2, e3, s1, s2, Option.bind_eq_bind, Option.bind_some] at h
  have hf : f.frames = demoFrames cx cy dx dy ex ey := by
    split at h
    · rename_i f' hr
      cases h
      have hr : run [Doc.new.useTemplate "default" defaultTemplateFiles (some fs)]
        ((demoCalls a b c cx cy dx dy).map (Call.op 0)) = .ok [f] := hr
      have := framed_documents (framed_calls (d := 0)
        (.template 0 "default" defaultTemplateFiles (some fs) (.new .start) rfl) hr (by simpa using hl))
      simp only [List.nil_append, List.modify_zero_cons, demo_frames e1 e2 e3 s1 s2 s3] at this
      exact (List.cons.inj this).1
    · cases h
  refine ⟨a, b, c, w1, h1, f1, w2, h2, f2, w3, h3, f3, cx, cy, dx, dy, ex, ey, rfl, rfl, rfl, e1, e2, e3, s1, s2, s3, hf,
    fun out ho me => ?_⟩
  rw [← hf]
  exact C104_file [f] (makes_program (dressed_makes hd)).1 f (by simp) out ho me

end

/-! ## Case: three pictures -/

local instance demoFramesImg : ImgEnv := ⟨fun b => b.head?.map fun n => (Int64.ofNat n.toNat, 10, "png")⟩

example : (match demoDoc partsFS (some [40]) (some [12]) (some [200]) with
    | some f => decide (f.frames = demoFrames 5274310 1318577 2637155 2197629 5274310 263715)
    | none => false) = true := by decide +kernel

end Docx
