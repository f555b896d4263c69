import Verif.Props.Makes

/-!
# C100: programs that cut documents by the text of paragraphs
-/

set_option linter.unusedSectionVars false

namespace Docx

section
variable {R : String → Option String} {M : String → Option Bytes}

theorem viewGraphic_words {b : Bool} {g : Option Graphic} : (viewGraphic M b g).words = "" := by
  unfold viewGraphic
  split
  · split
    · rfl
    · split <;> rfl
  · split <;> rfl
  · rfl

theorem viewPiece_words {c : RChild} (h : viewPiece M c ≠ .other) : (viewPiece M c).words = c.words := by
  cases c with
  | text t => rfl
  | tab t => rfl
  | br b =>
    simp only [viewPiece] at h ⊢
    split
    · rfl
    · rename_i e
      rw [if_neg e] at h
      split
      · rfl
      · rename_i e
        rw [if_neg e] at h
        exact absurd rfl h
  | drawing d =>
    rcases d with ⟨_ | i, _ | a⟩
    · rfl
    · exact viewGraphic_words
    · exact viewGraphic_words
    · rfl

theorem join_append (a b : List String) : String.join (a ++ b) = String.join a ++ String.join b := by
  induction a with
  | nil => simp [String.join]
  | cons x xs ih => simp [ih, String.append_assoc]

/-- The text of what a paragraph shows is the text of the paragraph. -/
theorem words_view {w : World} {d : DocId} {f : Doc} (hf : w[d]? = some f) {p : Para} (hp : p.file = some d)
    (h : Bit.other ∉ viewPara f.referTarget M p) :
    bitsWords (viewPara f.referTarget M p) = p.words w := by
  unfold bitsWords Para.words
  rw [hp]
  unfold viewPara at h ⊢
  generalize p.children = cs at *
  induction cs with
  | nil => rfl
  | cons c cs ih =>
    rw [List.flatMap_cons, List.mem_append, not_or] at h
    rw [List.flatMap_cons, List.map_append, join_append, ih h.2, List.map_cons, String.join_cons]
    congr 1
    have h1 := h.1
    cases c with
    | rpr x => exact absurd (by simp [viewChild]) h1
    | run r =>
      simp only [viewChild, PChild.words] at h1 ⊢
      by_cases e : r.instr = ""
      · rw [if_pos e] at h1
        rw [if_pos e, List.map_map]
        congr 1
        exact List.map_congr_left fun x hx => viewPiece_words fun e => h1 (e ▸ List.mem_map_of_mem hx)
      · rw [if_neg e] at h1
        simp at h1
    | link k =>
      simp only [viewChild, PChild.words] at h1 ⊢
      split at h1
      · rename_i t hr hc
        rw [resolve_some hf, show f.referTarget k.id = some t from hr]
        simp [Bit.words, String.join]
      · simp at h1

/-- A paragraph that shows no drawing is plain. -/
theorem plain_view {w : World} {d : DocId} {f : Doc} (hf : w[d]? = some f) {p : Para} (hp : p.file = some d)
    (h : Bit.other ∉ viewPara f.referTarget M p) (hn : ∀ b ∈ viewPara f.referTarget M p, b.drawn = false) :
    p.Plain w := by
  have hdraw : ∀ dr, viewPiece M (.drawing dr) ≠ .other → (viewPiece M (.drawing dr)).drawn = true := by
    have hg : ∀ b g, viewGraphic M b g ≠ .other → (viewGraphic M b g).drawn = true := by
      intro b g h
      rcases viewGraphic_cases h with ⟨_, _, _, _, _, _, _, _, e⟩ | ⟨gr, e, ⟨sh, h1, h2, h3⟩, _⟩
      · rw [e]; rfl
      · subst e
        revert h
        unfold viewGraphic
        split
        · split
          · simp
          · split <;> simp [Bit.drawn]
        · split <;> simp [Bit.drawn]
        · simp
    intro dr h
    rcases dr with ⟨_ | i, _ | a⟩
    · exact absurd rfl h
    · exact hg _ _ h
    · exact hg _ _ h
    · exact absurd rfl h
  have hmem : ∀ c ∈ p.children, (∀ b ∈ viewChild f.referTarget M c, b ≠ .other ∧ b.drawn = false) := by
    intro c hc b hb
    have hm : b ∈ viewPara f.referTarget M p := List.mem_flatMap.2 ⟨c, hc, hb⟩
    exact ⟨fun e => h (e ▸ hm), hn b hm⟩
  refine ⟨fun k hk => ?_, fun r hr dr hd => ?_, fun k hk dr hd => ?_⟩
  · have := hmem _ hk
    simp only [viewChild] at this
    rw [hp, resolve_some hf]
    intro e
    rw [show f.referTarget k.id = none from e] at this
    exact (this .other (by simp)).1 rfl
  · have := hmem _ hr
    simp only [viewChild] at this
    by_cases e : r.instr = ""
    · rw [if_pos e] at this
      obtain ⟨h1, h2⟩ := this _ (List.mem_map_of_mem hd)
      rw [hdraw dr h1] at h2
      cases h2
    · rw [if_neg e] at this
      exact (this .other (by simp)).1 rfl
  · have := hmem _ hk
    simp only [viewChild] at this
    split at this
    · rename_i h1 h2
      rw [h2] at hd
      cases hd
    · exact (this .other (by simp)).1 rfl

end

section
variable [GoEnv] [ImgEnv] [HashEnv]

/-- **C100.** A program with several documents (as in C99) cuts one of them with `SplitByParagraph` and
`SplitDocxByPlainTextRegex`.  The pictures and shapes of that document are in tables only.  There is one new document
for every piece of what the document shows, cut before every paragraph whose text is accepted, and it shows that
piece.  The program goes on with them: everything in C99 holds of the pieces and of the old documents. -/
theorem C100_cut (w : World) (s : List (List Block)) (h : Makes w s) (d : DocId) (bs : List Block)
    (hs : s[d]? = some bs) (hn : ∀ bits, .para bits ∈ bs → ∀ b ∈ bits, b.drawn = false) (re : String → Bool) (w' : World)
    (ds : List DocId) (hr : w.splitByParagraph d (splitByText re) = .ok (w', ds))
    (hl : ∀ f ∈ w', f.rels.length < 2 ^ 62) :
    ds.map (fun nd => w'[nd]?.map Doc.shows) =
      (pieces (Block.accepted fun bits => re (bitsWords bits)) bs).map some ∧
    Makes w' (s ++ pieces (Block.accepted fun bits => re (bitsWords bits)) bs) := by
  obtain ⟨_, h2, _, h4⟩ := makes_program h
  have hd : d < w.length := h2 ▸ lt_of_getElem? hs
  have hf := List.getElem?_eq_getElem hd
  have hb := h4 d _ _ hf hs
  have hsep : ∀ p v, .para p ∈ w[d].items → Keeps w v → splitByText re v p =
      .ok (re (bitsWords (viewPara w[d].referTarget w[d].pictureData p))) := by
    intro p v hp hv
    have ho : OwnPara d p := hb.own _ hp
    have hm : Block.para (viewPara w[d].referTarget w[d].pictureData p) ∈ bs := by
      rw [← hb.shows]; exact List.mem_map_of_mem hp
    have hk : Bit.other ∉ viewPara w[d].referTarget w[d].pictureData p := hb.known _ hm
    rw [words_view hf ho.1 hk]
    simp [splitByText, str_keeps hv p (plain_printed (plain_view hf ho.1 hk (hn _ hm)))]
  have hst : step w (.split d (splitByText re)) = .ok w' := by simp only [step, hr]
  have hM : Makes w' (s ++ pieces (Block.accepted fun bits => re (bitsWords bits)) ((s[d]?).getD [])) :=
    .split d _ _ h hst (fun f p v hf' hp hv => by
      obtain rfl := Option.some.inj (hf.symm.trans hf')
      exact hsep p v hp hv) hl
  rw [hs] at hM
  refine ⟨?_, hM⟩
  obtain ⟨_, k2, k3, _⟩ := built_split (q := fun bits => re (bitsWords bits)) hf hb hsep hr hl
  have hsh := C99_documents _ _ hM
  rw [k3]
  apply List.ext_getElem?
  intro k
  simp only [List.getElem?_map]
  by_cases hk : k < (pieces (Block.accepted fun bits => re (bitsWords bits)) bs).length
  · rw [List.getElem?_range' hk]
    have := congrArg (·[w.length + k]?) hsh
    simp only [List.getElem?_map] at this
    rw [h2, List.getElem?_append_right (Nat.le_add_right _ _), Nat.add_sub_cancel_left] at this
    simp only [Option.map_some, Nat.one_mul, h2]
    rw [this]
    have e : (pieces (Block.accepted fun bits => re (bitsWords bits)) ((some bs).getD []))[k]? =
        some (pieces (Block.accepted fun bits => re (bitsWords bits)) bs)[k] := List.getElem?_eq_getElem hk
    rw [e, List.getElem?_eq_getElem hk]
    rfl
  · rw [List.getElem?_eq_none (by simpa using hk), List.getElem?_eq_none (by simpa using hk)]
    rfl

/-- **C100, in the files.** Every piece is saved and opened again; it shows what the piece showed, with the characters
that XML cannot carry replaced. -/
theorem C100_files (w : World) (s : List (List Block)) (h : Makes w s) (d : DocId) (bs : List Block)
    (hs : s[d]? = some bs) (hn : ∀ bits, .para bits ∈ bs → ∀ b ∈ bits, b.drawn = false) (re : String → Bool) (w' : World)
    (ds : List DocId) (hr : w.splitByParagraph d (splitByText re) = .ok (w', ds))
    (hl : ∀ f ∈ w', f.rels.length < 2 ^ 62) (hx : ∀ f ∈ w', ∀ m ∈ f.media, xmlText m.name)
    (ht : ∀ f ∈ w', ∀ n ∈ f.tmpfslst, isMediaName n = false) (k : Nat) (nd : DocId) (hk : ds[k]? = some nd) :
    ∃ f piece, w'[nd]? = some f ∧ (pieces (Block.accepted fun bits => re (bitsWords bits)) bs)[k]? = some piece ∧
      ∀ out, Saves f out none → ∀ me, ∃ g, unpack me (reread out) = (g, none) ∧ g.shows = piece.map cleanBlock := by
  obtain ⟨h1, h2⟩ := C100_cut w s h d bs hs hn re w' ds hr hl
  have e := congrArg (·[k]?) h1
  simp only [List.getElem?_map, hk, Option.map_some] at e
  cases hp : (pieces (Block.accepted fun bits => re (bitsWords bits)) bs)[k]? with
  | none => rw [hp] at e; cases e
  | some piece =>
    rw [hp] at e
    simp only [Option.map_some, Option.some.injEq] at e
    obtain ⟨f, hf, hsh⟩ := Option.map_eq_some_iff.1 e
    refine ⟨f, piece, hf, rfl, fun out ho me => ?_⟩
    have hd := congrArg (·[nd]?) (C99_documents _ _ h2)
    simp only [List.getElem?_map, hf, Option.map_some] at hd
    have hm := List.mem_of_getElem? hf
    obtain ⟨g, g1, g2⟩ := C99_file w' _ h2 nd f f.shows hf hd.symm (hx f hm) (ht f hm) out ho me
    exact ⟨g, g1, by rw [g2, hsh]⟩

end

/-! ## Case: a document with two chapters -/

local instance cutEnv : GoEnv := ⟨fun _ => none, fun _ => false, fun _ => false⟩
local instance cutImg : ImgEnv := ⟨fun _ => none⟩
local instance cutHash : HashEnv := ⟨fun _ => ""⟩

/-- A foreword, a chapter with a link and a table with a shape, and another chapter -/
def cutCalls : List Call :=
  [.paragraph, .text (.body 0) "pre", .paragraph, .text (.body 1) "# 1", .paragraph, .link (.body 2) "x" "http://x/",
   .table 1 1 0 none, .cellParagraph 3 0 0, .shape true (.cell 3 0 0 0) 5 6 "s" "auto" "rect" none,
   .paragraph, .text (.body 4) "# 2\tend"]

/-- The documents after the cut -/
def cutPieces : List (List Block) :=
  [[.para [.text "pre"]],
   [.para [.text "# 1"], .para [.link "x" "http://x/"], .table [[[[.shape true 5 6 "rect"]]]]],
   [.para [.text "# 2", .tab, .text "end"]]]

/-- A text that starts a chapter -/
def cutRe (t : String) : Bool := t.toList.head? == some '#'

example : pieces (Block.accepted fun bits => cutRe (bitsWords bits)) (result cutCalls) = cutPieces := by
  decide +kernel

example : ∃ (w w' : World) (ds : List DocId), Makes w [result cutCalls] ∧
    w.splitByParagraph 0 (splitByText cutRe) = .ok (w', ds) ∧ Makes w' (result cutCalls :: cutPieces) ∧
    ds.map (fun nd => w'[nd]?.map Doc.shows) = cutPieces.map some := by
  have key : (match run [Doc.new] (cutCalls.map (Call.op 0)) with
    | .ok w1 => (w1.map (·.rels.length) == [4]) && match w1.splitByParagraph 0 (splitByText cutRe) with
      | .ok (w2, _) => w2.map (·.rels.length) == [4, 3, 4, 3]
      | _ => false
    | _ => false) = true := by decide +kernel
  split at key
  · rename_i w1 h1
    simp only [Bool.and_eq_true, beq_iff_eq] at key
    obtain ⟨k1, k2⟩ := key
    split at k2
    · rename_i w2 ds h2
      simp only [beq_iff_eq] at k2
      have hl : ∀ {w : World} {ns : List Nat}, w.map (·.rels.length) = ns → (∀ n ∈ ns, n < 2 ^ 62) →
          ∀ f ∈ w, f.rels.length < 2 ^ 62 := fun e hn f hf => hn _ (e ▸ List.mem_map_of_mem hf)
      have hM := makes_calls (.new .start) h1 (hl k1 (by simp))
      obtain ⟨c1, c2⟩ := C100_cut w1 [result cutCalls] hM 0 _ rfl (fun bits hb => by
        have : ∀ b ∈ result cutCalls, (match b with | .para bits => bits.all (!·.drawn) | _ => true) = true := by
          decide +kernel
        simpa using this _ hb) cutRe w2 ds h2 (hl k2 (by simp))
      rw [show pieces (Block.accepted fun bits => cutRe (bitsWords bits)) (result cutCalls) = cutPieces from by
        decide +kernel] at c1 c2
      exact ⟨w1, w2, ds, hM, h2, c2, c1⟩
    · cases k2
  · cases key

end Docx
