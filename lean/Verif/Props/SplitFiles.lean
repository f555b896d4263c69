import Verif.Props.JoinFiles
import Verif.Props.Pieces

/-!
# C95: splitting a file into files
-/

namespace Docx

section
variable [GoEnv] [ImgEnv]

/-- **C95.** A program that did anything splits a document, and saves a part with any template and opens it
again.  The parts take up the body of the document piece by piece; the file of a part holds all texts of its
piece, its links lead where they led, its pictures have their bytes.  Only characters that XML cannot carry are
replaced. -/
theorem C95_parts (w : World) (hw : Program w) (d : DocId) (f : Doc) (hf : w[d]? = some f)
    (hl : ∀ x ∈ f.items, ∀ p ∈ x.paras, p.Linked w) (sep : World → Para → Res Bool) (w1 : World) (ds : List DocId)
    (hs : w.splitByParagraph d sep = .ok (w1, ds)) (hn : ∀ f ∈ w1, f.rels.length < 2 ^ 62) :
    ∃ pieces : List (List BItem), pieces.flatten = f.items ∧
      Each (fun piece nd => ∃ T, w1[nd]? = some T ∧ T.items.length = piece.length ∧
        ∀ t l tf out, Saves (T.useTemplate t l tf) out none →
        ∃ g, unpack w1.length (reread out) = (g, none) ∧
          bodyTexts g.items = cleanTexts (bodyTexts piece) ∧
          (w1 ++ [g]).targets g.items = (w.targets piece).map cleanLink ∧
          ((∀ n ∈ l, isMediaName n = false) → (∀ r ∈ T.rels, xmlText r.target) →
            Each (fun d d' => ∀ data, d.Shows w data → d'.Shows (w1 ++ [g]) data)
              (bodyDrawings piece) (bodyDrawings g.items))) pieces ds := by
  obtain ⟨pieces, h1, h2⟩ := split_full hf hs (fun nd t t' => fullRules w nd t t')
    (fun _ _ h0 ha hr => full_obeys h0 ha hr)
  refine ⟨pieces, h1, h2.mono_mem ?_⟩
  intro piece hpiece nd ⟨hlen, T, hT, hc⟩
  have hrun : run w [.split d sep] = .ok w1 := by simp only [run, step, hs]
  have hN := hn T (List.mem_of_getElem? hT)
  have hE : Each (ItemCopied (sameRules w w1 nd) nd) piece T.items := by
    refine (hc (by omega)).mono_mem fun x hx y hxy => item_gives (full_gives ⟨id, ?_⟩ hT)
      (hl x (h1 ▸ List.mem_flatten.2 ⟨piece, hpiece, hx⟩)) hxy
    intro file id data hp
    refine ⟨hp, ?_⟩
    rintro rfl
    obtain ⟨i, g, _, _, _, e, hg, _⟩ := hp
    obtain rfl := Option.some.inj e
    have := lt_of_getElem? hg
    simp only [DocId] at *
    omega
  refine ⟨T, hT, (each_lengths hE).symm, fun t l tf out ho => ?_⟩
  exact copy_reopened hE (program_run hw hrun hn) hT (C56_media_found_always w w1 _ hrun nd hlen T hT) t l tf out ho

end

/-! ## Case: two parts -/

local instance splitFilesEnv : GoEnv := ⟨fun _ => none, fun _ => false, fun _ => false⟩
local instance splitFilesImg : ImgEnv := ⟨fun _ => none⟩

/-- Two paragraphs, each with a text and a link -/
def partsCalls : List Op := [.new, .addParagraph 0, .addText 0 (.body 0) "a", .addLink 0 (.body 0) "x" "http://x/",
  .addParagraph 0, .addText 0 (.body 1) "b", .addLink 0 (.body 1) "y" "http://y/"]

/-- A new part begins at the paragraph with the text `b`. -/
def atB (_ : World) (p : Para) : Res Bool := .ok (paraTexts p == ["b"])

/-- The file of the second part -/
example : ∃ (w w1 : World) (T : Doc) (out : Saved), Program w ∧ w.splitByParagraph 0 atB = .ok (w1, [1, 2]) ∧
    w1[2]? = some T ∧ Saves (T.useTemplate "" [] none) out none ∧
    ∃ g, unpack w1.length (reread out) = (g, none) ∧ bodyTexts g.items = [[[[["b"]]]]] ∧
      (w1 ++ [g]).targets g.items = [("y", some "http://y/")] := by
  have key : (match run [] partsCalls with
    | .ok [f] => f.rels.length == 5 && linkedB [f] f.items &&
        (bodyTexts f.items == [[[[["a"]]]], [[[["b"]]]]]) && (f.items.length == 2) &&
        (World.targets [f] f.items == [("x", some "http://x/"), ("y", some "http://y/")]) &&
        (World.targets [f] (f.items.drop 1) == [("y", some "http://y/")]) &&
        (match World.splitByParagraph [f] 0 atB with
         | .ok ([f2, T1, T2], [1, 2]) => f2.rels.length == 5 && T1.rels.length == 4 && T2.rels.length == 4 &&
            T1.items.length == 1 && T2.items.length == 1 && bodyTexts T2.items == [[[[["b"]]]]] && T2.media.length == 0
         | _ => false)
    | _ => false) = true := by decide +kernel
  split at key
  · rename_i f hr
    simp only [Bool.and_eq_true, beq_iff_eq] at key
    obtain ⟨⟨⟨⟨⟨⟨k1, k2⟩, k3⟩, k4⟩, k5⟩, k6⟩, k7⟩ := key
    split at k7
    · rename_i f2 T1 T2 hs
      simp only [Bool.and_eq_true, beq_iff_eq, List.length_eq_zero_iff] at k7
      obtain ⟨⟨⟨⟨⟨⟨m1, m2⟩, m3⟩, m4⟩, m5⟩, m6⟩, m7⟩ := k7
      have hp : Program [f] := program_run .start hr (by
        intro g hg
        obtain rfl := List.mem_singleton.1 hg
        omega)
      obtain ⟨out, e, ho⟩ := C53_returns (T2.useTemplate "" [] none) (.inr rfl)
      obtain rfl := C53_success (T2.useTemplate "" [] none) (by simp [Doc.useTemplate]) (by simp [Doc.useTemplate])
        (by simp [Doc.useTemplate, m7]) out e ho
      obtain ⟨pieces, h1, h2⟩ := C95_parts [f] hp 0 f rfl (linkedB_iff k2) atB [f2, T1, T2] [1, 2] hs
        (by
          intro g hg
          simp only [List.mem_cons, List.not_mem_nil, or_false] at hg
          rcases hg with rfl | rfl | rfl <;> omega)
      cases h2 with
      | @cons p1 _ ps _ a1 h2 =>
        cases h2 with
        | @cons p2 _ ps2 _ a2 h2 =>
          cases h2 with
          | nil =>
            obtain ⟨t1, b1, b2, _⟩ := a1
            obtain ⟨t2, c1, c2, c3⟩ := a2
            obtain rfl := Option.some.inj b1
            obtain rfl := Option.some.inj c1
            have e1 : p2 = f.items.drop 1 := by
              rw [← h1]
              have : p1.length = 1 := by omega
              simp [← this]
            obtain ⟨g, g1, g2, g3, _⟩ := c3 "" [] none out ho
            refine ⟨[f], [f2, T1, T2], T2, out, hp, hs, rfl, ho, g, g1, ?_, ?_⟩
            · rw [g2, e1, show bodyTexts (f.items.drop 1) = (bodyTexts f.items).drop 1 from List.map_drop, k3]
              decide +kernel
            · rw [g3, e1, k6]; decide +kernel
    · cases k7
  · cases key

end Docx
