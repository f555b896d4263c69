import Verif.SpecClean
import Verif.Lemmas.CleanDoc
import Verif.Props.Sessions

/-!
# C87: every document that was saved can be opened again, whatever its strings are
-/

namespace Docx

set_option linter.unusedSectionVars false

section

variable [GoEnv]

theorem clean_files (f : Doc) : f.clean.files = f.files := by
  have ht : ∀ (ns : List String) m, f.clean.openTmpl m ns = f.openTmpl m ns := by
    intro ns
    induction ns with
    | nil => intro m; rfl
    | cons n ns ih =>
      intro m
      simp only [Doc.openTmpl, ih]
      rfl
  unfold Doc.files
  rw [show f.clean.tmpfslst = f.tmpfslst from rfl, ht]
  simp only [Doc.clean]
  rw [← cm_document, ← cm_rels, xmlBytes_clean, xmlBytes_clean]

/-- The same bytes are written for the cleaned document. -/
theorem clean_saves {f : Doc} {out : Saved} {e : Option Err} (h : Saves f out e) : Saves f.clean out e := by
  cases h with
  | noFile h => exact .noFile (by rw [clean_files]; exact h)
  | order h hl => exact .order (by rw [clean_files]; exact h) hl

theorem saved_entries {f : Doc} {out : Saved} (h : Saves f out none) :
    (out.map (·.1)).Nodup ∧ relsName ∈ out.map (·.1) ∧ documentName ∈ out.map (·.1) ∧
    ∀ e ∈ reread out, GoodEntry f.relXmlns f.rels f.items e := by
  have hd := C49_distinct f out none h
  have hex := C49_exactly f out h
  obtain ⟨c1, c2, _, _⟩ := C49_contents f out h
  have uniq : ∀ {n b b'}, (n, b) ∈ out → (n, b') ∈ out → b = b' := by
    intro n b b' h1 h2
    obtain ⟨i, hi, e1⟩ := List.getElem_of_mem h1
    obtain ⟨j, hj, e2⟩ := List.getElem_of_mem h2
    have : i = j := (List.getElem?_inj (by simpa using hi) hd).1 (by
      simp [hi, hj, e1, e2])
    subst this
    rw [e1] at e2
    cases e2; rfl
  refine ⟨hd, (hex _).2 (.inr (.inr (.inl rfl))), (hex _).2 (.inr (.inl rfl)), ?_⟩
  intro e he
  obtain ⟨p, hp, rfl⟩ := List.mem_map.1 he
  refine ⟨p.2, rfl, ?_, ?_⟩
  · intro e
    exact uniq (n := p.1) hp (by rw [show p.1 = _ from e]; exact c2)
  · intro e
    exact uniq (n := p.1) hp (by rw [show p.1 = _ from e]; exact c1)

theorem clean_id {id : String} (h : GoodId id) : clean id = id := (clean_iff _).2 (goodId_xmlText h)

theorem runTexts_clean (r : Run) : runTexts (clRun r) = (runTexts r).map clean := by
  cases r with
  | mk space rpr instr children =>
    simp only [clRun, runTexts]
    induction children with
    | nil => rfl
    | cons c cs ih =>
      rw [clRChildren]
      cases c <;> simp [clRChild, clText, ih]

theorem paraTexts_clean (p : Para) : paraTexts (clPara p) = (paraTexts p).map clean := by
  cases p with
  | mk props children file =>
    simp only [clPara, paraTexts]
    induction children with
    | nil => rfl
    | cons c cs ih =>
      rw [clPChildren]
      cases c with
      | run r => simp [clPChild, ih, runTexts_clean]
      | link h => rcases h with ⟨id, r⟩; simp [clPChild, ih, runTexts_clean]
      | rpr x => simp [clPChild, ih]

/-- All texts of a body, cleaned -/
def cleanTexts (ts : List (List (List (List (List String))))) : List (List (List (List (List String)))) :=
  ts.map (List.map (List.map (List.map (List.map clean))))

theorem bodyTexts_clean (items : List BItem) : bodyTexts (items.map clItem) = cleanTexts (bodyTexts items) := by
  simp only [bodyTexts, cleanTexts, List.map_map]
  apply List.map_congr_left
  intro i _
  cases i with
  | para p => simp [clItem, paraTexts_clean]
  | sect s => rfl
  | table t =>
    simp only [Function.comp, clItem, clTable, List.map_map]
    apply List.map_congr_left
    intro r _
    simp only [Function.comp, clRow, List.map_map]
    apply List.map_congr_left
    intro c _
    simp only [Function.comp, clCell, List.map_map]
    apply List.map_congr_left
    intro q _
    exact paraTexts_clean q

/-- **C87.** A document that was saved can be opened again, whatever its strings are, if the ids of its
relationships have the form `rId<n>`.  All strings are the old ones with the characters that XML cannot
carry replaced by U+FFFD; beyond that only the things listed in `Verif.SpecXml` change.  The pictures are
found under their names. -/
theorem C87_opens (f : Doc) (out : Saved) (h : Saves f out none) (hid : ∀ r ∈ f.rels, GoodId r.id) (me : DocId) :
    ∃ g, unpack me (reread out) = (g, none) ∧ g.rels = f.rels.map clRel ∧ g.relXmlns = clean f.relXmlns ∧
      g.items = normBody (some me) (f.items.map clItem) ∧
      bodyTexts g.items = cleanTexts (bodyTexts f.items) ∧
      ((∀ n ∈ f.tmpfslst, isMediaName n = false) → (∀ n, g.getMedia n = .ok (lastMedia n f.media)) ∧
        ∀ n, n ∈ g.tmpfslst ↔ n ∈ f.tmpfslst ∧ isOtherName n = true) := by
  have hs := clean_saves h
  obtain ⟨hd, hr, hdoc, hent⟩ := saved_entries hs
  have hgood : ∀ r ∈ f.clean.rels, GoodId r.id := by
    intro r hm
    obtain ⟨r0, h0, rfl⟩ := List.mem_map.1 hm
    show GoodId (clean r0.id)
    rw [clean_id (hid r0 h0)]
    exact hid r0 h0
  have hrel : ∀ r ∈ f.clean.rels, xmlText r.id ∧ xmlText r.type ∧ xmlText r.target ∧ xmlText r.targetMode := by
    intro r hm
    obtain ⟨r0, h0, rfl⟩ := List.mem_map.1 hm
    exact ⟨xmlText_clean _, xmlText_clean _, xmlText_clean _, xmlText_clean _⟩
  have hbody : ∀ s ∈ (mDocument f.clean.items).strings, xmlText s := by
    show ∀ s ∈ (mDocument (f.items.map clItem)).strings, xmlText s
    rw [← cm_document]
    exact strings_clean _
  obtain ⟨g, hg, hg1, hg2⟩ := unpackAll_saved (me := me) (xmlText_clean f.relXmlns) hrel hgood hbody (reread out)
    { relXmlns := "", tmplfs := some (zipFS (reread out)) } (by rw [reread_names]; exact hd) hent
    (fun _ => rfl) (fun _ => rfl)
  rw [reread_names] at hg1 hg2
  have hu : unpack me (reread out) = ({ g with imageID := 100000 }, none) := by
    unfold unpack; rw [hg]
  refine ⟨_, hu, (hg1 hr).1, (hg1 hr).2, hg2 hdoc, ?_, ?_⟩
  · show bodyTexts g.items = _
    have hk := C41_text_kept (some me) (f.items.map clItem)
    rw [C41_round_trip, bodyTexts_clean] at hk
    rw [hg2 hdoc]
    exact hk
  · intro ht
    obtain ⟨g', hg', _, _, h3, h4, _⟩ := C50_restored f.clean out hs me ⟨xmlText_clean _, fun r hm =>
      ⟨hgood r hm, (hrel r hm).2⟩⟩ hbody ht
    rw [hu] at hg'
    obtain ⟨rfl, _⟩ := Prod.mk.inj hg'
    exact ⟨h3, h4⟩

/-- **C87.** Exactly the ids decide whether the saved document can be opened again. -/
theorem C87_exactly (f : Doc) (out : Saved) (h : Saves f out none) (me : DocId) :
    (unpack me (reread out)).2 = none ↔ ∀ r ∈ f.rels, GoodId (clean r.id) := by
  have hs := clean_saves h
  obtain ⟨hd, hr, hdoc, hent⟩ := saved_entries hs
  have hrel : ∀ r ∈ f.clean.rels, xmlText r.id ∧ xmlText r.type ∧ xmlText r.target ∧ xmlText r.targetMode := by
    intro r hm
    obtain ⟨r0, h0, rfl⟩ := List.mem_map.1 hm
    exact ⟨xmlText_clean _, xmlText_clean _, xmlText_clean _, xmlText_clean _⟩
  have hbody : ∀ s ∈ (mDocument f.clean.items).strings, xmlText s := by
    show ∀ s ∈ (mDocument (f.items.map clItem)).strings, xmlText s
    rw [← cm_document]
    exact strings_clean _
  constructor
  · intro hn
    rcases hu : unpack me (reread out) with ⟨g, e⟩
    rw [hu] at hn
    obtain rfl : e = none := hn
    obtain ⟨g', hg, rfl⟩ := unpack_ok hu
    rw [← reread_names] at hr hd
    obtain ⟨e, he, hn⟩ := List.mem_map.1 hr
    obtain ⟨pre, post, hpp⟩ := List.append_of_mem he
    rw [hpp] at hg hd
    obtain ⟨f1, f2, h1, h2, h3⟩ := unpackAll_split hg
    rw [List.map_append, List.map_cons, List.nodup_append] at hd
    have n1 : relsName ∉ pre.map (·.name) := fun hc => hd.2.2 _ hc _ (by simp [hn]) hn.symm
    obtain ⟨_, _, _, _, _, _, _, _, b9, _⟩ := unpackAll_ok h1
    have hf1 : f1.rels = [] := (b9 n1).1
    obtain ⟨b, hb, hb1, _⟩ := hent e he
    unfold Doc.unpackEntry at h2
    rw [if_pos hn] at h2
    unfold Doc.parseRels at h2
    rw [hb] at h2
    have hx : xmlText f.clean.relXmlns := xmlText_clean _
    simp only [Stream.toks, hb1 hn, hf1, decodeRels_saved hx hrel, List.nil_append, Prod.mk.injEq] at h2
    have h5 := (scanIds_ok (f.rels.map clRel) f1.rID).1 h2.2
    intro r hm
    have h6 : GoodId (clRel r).id := h5 (clRel r) (List.mem_map.2 ⟨r, hm, rfl⟩)
    simpa only [clRel] using h6
  · intro hid
    have hgood : ∀ r ∈ f.clean.rels, GoodId r.id := by
      intro r hm
      obtain ⟨r0, h0, rfl⟩ := List.mem_map.1 hm
      exact hid r0 h0
    obtain ⟨g, hg, _⟩ := unpackAll_saved (me := me) (xmlText_clean f.relXmlns) hrel hgood hbody (reread out)
      { relXmlns := "", tmplfs := some (zipFS (reread out)) } (by rw [reread_names]; exact hd) hent
      (fun _ => rfl) (fun _ => rfl)
    unfold unpack; rw [hg]

end

section

variable [GoEnv] [ImgEnv]

/-- The ids are good, and the counter is not far above the number of relationships that were added. -/
def IdsFine (f : Doc) : Prop := ∃ b : Doc, Evo b f ∧ (∀ r ∈ b.rels, GoodId r.id) ∧ b.rID.toNat < 2 ^ 62

theorem IdsFine.good {f : Doc} (h : IdsFine f) (hl : f.rels.length < 2 ^ 62) : ∀ r ∈ f.rels, GoodId r.id := by
  obtain ⟨b, e, h1, h2⟩ := h
  obtain ⟨ext, e1, e2, e3⟩ := e.rels
  intro r hr
  rw [e1, List.mem_append] at hr
  have hlen : ext.length < 2 ^ 62 := by rw [e1] at hl; simp at hl; omega
  rcases hr with hr | hr
  · exact h1 r hr
  · obtain ⟨i, hi, rfl⟩ := List.getElem_of_mem hr
    rw [e3 i _ (List.getElem?_eq_getElem hi)]
    have hv : (b.rID + UInt64.ofNat (i + 1)).toNat = b.rID.toNat + (i + 1) := by
      rw [UInt64.toNat_add, UInt64.toNat_ofNat']; omega
    exact ⟨_, ridNumber_small (by rw [hv]; omega), by rw [hv]; omega⟩

theorem IdsFine.step {f g : Doc} (h : IdsFine f) (e : Evo f g) : IdsFine g := by
  obtain ⟨b, e0, h1, h2⟩ := h
  exact ⟨b, e0.trans e, h1, h2⟩

theorem idsFine_base {b : Doc} (h : Base b) : IdsFine b := by
  obtain ⟨h1, h2, _⟩ := base_rels h
  refine ⟨b, .refl _, ?_, by rw [h2]; decide⟩
  rw [h1]
  exact (scanIds_ok baseRels 0).1 (by decide)

theorem unRelsN_grow : ∀ (n : Nat) (s : List Rel) (d : Dec), ∀ r ∈ s, r ∈ (unRelsN n s d).val := by
  intro n
  induction n with
  | zero => intro s d r hr; exact hr
  | succ n ih =>
    intro s d r hr
    rw [unRelsN]
    split
    · exact hr
    · split
      · split
        · exact ih _ _ r (List.mem_append_left _ hr)
        · exact hr
      · split
        · exact ih _ _ r hr
        · exact hr
    · exact hr
    · exact ih _ _ r hr

theorem decodeRels_grow (x : String) (s : List Rel) (toks : List Tok) :
    ∀ r ∈ s, r ∈ (decodeRels x s toks).val.2 := by
  intro r hr
  unfold decodeRels
  exact rootN_yields (P := fun v : String × List Rel => r ∈ v.2)
    (fun as d => unRelsN_grow _ _ _ r hr) hr _ _

/-- The counter is 0 or the number of an id in the table. -/
def Counted (f : Doc) : Prop := f.rID = 0 ∨ ∃ r ∈ f.rels, IdNumber r.id f.rID.toNat

theorem unpackEntry_counted {f g : Doc} {me : DocId} {e : Entry} (hf : Counted f)
    (h : f.unpackEntry me e = (g, none)) : Counted g := by
  by_cases hn : e.name = relsName
  · unfold Doc.unpackEntry at h
    rw [if_pos hn] at h
    unfold Doc.parseRels at h
    split at h
    · simp at h
    · rename_i st _
      have hgrow := decodeRels_grow xmlnsR f.rels st.toks
      split at h
      · simp at h
      · rename_i x rs d heq
        rw [heq] at hgrow
        simp only [Prod.mk.injEq] at h
        obtain ⟨rfl, h2⟩ := h
        obtain ⟨_, _, h3⟩ := scanIds_max rs f.rID (scanIds f.rID rs).1 (Prod.ext rfl h2)
        rcases h3 with h3 | h3
        · rcases hf with h0 | ⟨r, hr, h0⟩
          · exact .inl (h3.trans h0)
          · exact .inr ⟨r, hgrow r hr, by show IdNumber r.id (scanIds f.rID rs).1.toNat; rw [h3]; exact h0⟩
        · exact .inr h3
  · obtain ⟨_, _, _, _, _, _, _, _, a9, _⟩ := unpackEntry_ok h
    obtain ⟨a, b, _⟩ := a9 hn
    unfold Counted
    rw [a, b]; exact hf

theorem unpackAll_counted : ∀ {es : List Entry} {f g : Doc} {me : DocId}, Counted f →
    f.unpackAll me es = (g, none) → Counted g := by
  intro es
  induction es with
  | nil =>
    intro f g me hf h
    simp only [Doc.unpackAll, Prod.mk.injEq, and_true] at h
    exact h ▸ hf
  | cons e es ih =>
    intro f g me hf h
    rw [Doc.unpackAll] at h
    rcases hu : f.unpackEntry me e with ⟨f', _ | x⟩
    · rw [hu] at h
      exact ih (unpackEntry_counted hf hu) h
    · rw [hu] at h; simp at h

theorem idsFine_opened {me : DocId} {a : Archive} {g : Doc} (h : unpack me a = (g, none))
    (hs : ∀ r ∈ g.rels, ∀ n, IdNumber r.id n → n < 2 ^ 62) : IdsFine g := by
  obtain ⟨g', hg, rfl⟩ := unpack_ok h
  refine ⟨_, .refl _, ?_, ?_⟩
  · obtain ⟨_, _, _, _, _, _, _, _, b9, b10, _, _⟩ := unpackAll_ok hg
    by_cases hm : relsName ∈ a.map (·.name)
    · obtain ⟨n, hn⟩ := b10 hm
      exact (scanIds_ok _ n).1 (by show (scanIds n g'.rels).2 = none; rw [hn])
    · show ∀ r ∈ g'.rels, _
      rw [(b9 hm).1]
      intro r hr; cases hr
  · rcases unpackAll_counted (.inl rfl) hg with h0 | ⟨r, hr, h0⟩
    · show g'.rID.toNat < _
      rw [h0]; decide
    · exact hs r hr _ h0

theorem program_fine {w : World} (h : Program w) : ∀ f ∈ w, IdsFine f ∧ f.rels.length < 2 ^ 62 := by
  induction h with
  | start => intro f hf; cases hf
  | @call w w' o _ hs hl ih =>
    intro f hf
    refine ⟨?_, hl f hf⟩
    obtain ⟨d, hd, rfl⟩ := List.getElem_of_mem hf
    have he := step_wevo hs
    by_cases hlt : d < w.length
    · obtain ⟨f', h1, h2⟩ := he.old d _ (List.getElem?_eq_getElem hlt)
      rw [List.getElem?_eq_getElem hd] at h1
      obtain rfl := Option.some.inj h1
      exact (ih _ (List.getElem_mem hlt)).1.step h2
    · obtain ⟨b, h1, h2⟩ := he.new d _ (List.getElem?_eq_getElem hd) (by omega)
      exact (idsFine_base h1).step h2
  | opening a g _ hu hs hl ih =>
    intro f hf
    rcases List.mem_append.1 hf with hf | hf
    · exact ih f hf
    · obtain rfl := List.mem_singleton.1 hf
      exact ⟨idsFine_opened hu hs, hl⟩

/-- Any calls after one another -/
theorem program_run : ∀ {os : List Op} {w w' : World}, Program w → run w os = .ok w' →
    (∀ f ∈ w', f.rels.length < 2 ^ 62) → Program w' := by
  intro os
  induction os with
  | nil => intro w w' hp h _; simp only [run, Res.ok.injEq] at h; exact h ▸ hp
  | cons o os ih =>
    intro w w' hp h hl
    simp only [run] at h
    split at h
    · rename_i w1 h1
      refine ih (.call o hp h1 ?_) h hl
      intro f hf
      obtain ⟨d, hd, rfl⟩ := List.getElem_of_mem hf
      obtain ⟨f', e1, e2⟩ := (run_wevo h).old d _ (List.getElem?_eq_getElem hd)
      exact Nat.lt_of_le_of_lt e2.rels_le (hl f' (List.mem_of_getElem? e1))
    · simp at h
    · simp at h

/-- **C87.** At any time in any program, whatever strings were passed to whatever calls: a document that
can be saved can be opened again, and its texts are the old ones, with the characters XML cannot carry
replaced. -/
theorem C87_history (w : World) (h : Program w) (f : Doc) (hf : f ∈ w) (out : Saved) (hs : Saves f out none)
    (me : DocId) :
    ∃ g, unpack me (reread out) = (g, none) ∧ g.rels = f.rels.map clRel ∧
      g.items = normBody (some me) (f.items.map clItem) ∧
      bodyTexts g.items = cleanTexts (bodyTexts f.items) := by
  obtain ⟨h1, h2⟩ := program_fine h f hf
  obtain ⟨g, a1, a2, _, a4, a5, _⟩ := C87_opens f out hs (h1.good h2) me
  exact ⟨g, a1, a2, a4, a5⟩

end

/-! ## Cases -/

local instance anyTextEnv : GoEnv := ⟨fun _ => none, fun _ => false, fun _ => false⟩
local instance anyTextImg : ImgEnv := ⟨fun _ => none⟩

/-- Writing a text and a link, both with control characters -/
def oddCalls : List Op := [.new, .addParagraph 0, .addText 0 (.body 0) "a\u0001b",
  .addLink 0 (.body 0) "<c>\u0000" "http://x/\u0002"]

/-- The texts and the target of the link -/
def oddLooks (f : Doc) (t l : String) : Bool :=
  bodyTexts f.items == [[[[[t]]]]] && (f.rels.map (·.target)).getLast? == some l && f.rels.length == 4

/-- A text with a control character, and a link as well: the file opens, with U+FFFD in the place of the
characters. -/
example : ∃ w f, Program w ∧ f ∈ w ∧ oddLooks f "a\u0001b" "http://x/\u0002" = true ∧
    (∃ out, Saves f out none) ∧ ∀ out, Saves f out none → ∃ g, unpack 5 (reread out) = (g, none) ∧
      oddLooks g "a\uFFFDb" "http://x/\uFFFD" = true := by
  have key : (match run [] oddCalls with
    | .ok [f] => oddLooks f "a\u0001b" "http://x/\u0002" && (f.tmpfslst == [] && f.media.length == 0)
    | _ => false) = true := by decide +kernel
  split at key
  · rename_i f hr
    simp only [Bool.and_eq_true, beq_iff_eq, List.length_eq_zero_iff] at key
    obtain ⟨k1, k2, k3⟩ := key
    have k4 : bodyTexts f.items = [[[[["a\u0001b"]]]]] ∧
        (f.rels.map (·.target)).getLast? = some "http://x/\u0002" ∧ f.rels.length = 4 := by
      have := k1
      simp only [oddLooks, Bool.and_eq_true, beq_iff_eq] at this
      exact ⟨this.1.1, this.1.2, this.2⟩
    have hp : Program [f] := program_run .start hr (by
      intro g hg
      obtain rfl := List.mem_singleton.1 hg
      rw [k4.2.2]; decide)
    refine ⟨[f], f, hp, by simp, k1, ?_, ?_⟩
    · obtain ⟨out, e, hs⟩ := C53_returns f (.inr k2)
      obtain rfl := C53_success f (by simp [k2]) (by simp [k2]) (by simp [k3]) out e hs
      exact ⟨out, hs⟩
    · intro out hs
      obtain ⟨g, g1, g2, _, g4⟩ := C87_history [f] hp f (by simp) out hs 5
      refine ⟨g, g1, ?_⟩
      have e1 : (g.rels.map (·.target)).getLast? = some (clean "http://x/\u0002") := by
        rw [g2, List.map_map, show ((·.target) ∘ clRel) = clean ∘ (fun r : Rel => r.target) from rfl,
          ← List.map_map, List.getLast?_map, k4.2.1]; rfl
      simp only [oddLooks, Bool.and_eq_true, beq_iff_eq]
      refine ⟨⟨?_, ?_⟩, ?_⟩
      · rw [g4, k4.1]; decide +kernel
      · rw [e1]; decide +kernel
      · rw [g2, List.length_map, k4.2.2]
  · simp at key

/-- The largest id that fits into a signed integer -/
def bigRels : Node :=
  .elem ⟨"", "Relationships"⟩ [] [.elem ⟨"", "Relationship"⟩ [⟨⟨"", "Id"⟩, "rId9223372036854775807"⟩,
    ⟨⟨"", "Type"⟩, "t"⟩, ⟨⟨"", "Target"⟩, "x"⟩] []]

/-- An empty package with that id -/
def bigPackage : Archive :=
  [⟨"word/document.xml", .ok ⟨utf8 (mDocument []).chars, none⟩⟩,
   ⟨"word/_rels/document.xml.rels", .ok ⟨utf8 bigRels.chars, none⟩⟩]

/-- **C87, the limit.** A file whose relationship has the largest id that fits into a signed 64-bit integer
can be opened.  When a link is added to it, the next id is negative; the document is saved without an
error, but what was saved cannot be opened. -/
theorem C87_too_large : ∃ g w f, unpack 0 bigPackage = (g, none) ∧
    run [g] [.addParagraph 0, .addLink 0 (.body 0) "text" "http://x"] = .ok w ∧ w = [f] ∧
    f.rels.map (·.id) = ["rId9223372036854775807", "rId-9223372036854775808"] ∧
    (∃ out, Saves f out none) ∧ ∀ out, Saves f out none → ∀ me, (unpack me (reread out)).2 ≠ none := by
  have h0 : (unpack 0 bigPackage).2 = none := by decide +kernel
  have key : (match run [(unpack 0 bigPackage).1]
      [.addParagraph 0, .addLink 0 (.body 0) "text" "http://x"] with
    | .ok [f] => f.rels.map (·.id) == ["rId9223372036854775807", "rId-9223372036854775808"] &&
        (f.tmpfslst == [] && f.media.length == 0)
    | _ => false) = true := by decide +kernel
  split at key
  · rename_i f hr
    simp only [Bool.and_eq_true, beq_iff_eq, List.length_eq_zero_iff] at key
    obtain ⟨k1, k2, k3⟩ := key
    refine ⟨(unpack 0 bigPackage).1, [f], f, ?_, hr, rfl, k1, ?_, ?_⟩
    · rcases hu : unpack 0 bigPackage with ⟨g, e⟩
      rw [hu] at h0
      obtain rfl : e = none := h0
      rfl
    · obtain ⟨out, e, hs⟩ := C53_returns f (.inr k2)
      obtain rfl := C53_success f (by simp [k2]) (by simp [k2]) (by simp [k3]) out e hs
      exact ⟨out, hs⟩
    · intro out hs me hn
      have := (C87_exactly f out hs me).1 hn
      have hbad : ¬ GoodId (clean "rId-9223372036854775808") := by
        intro hg
        have h1 := (scanIds_ok [⟨clean "rId-9223372036854775808", "", "", ""⟩] 0).2 (by
          intro r hr
          obtain rfl := List.mem_singleton.1 hr
          exact hg)
        revert h1; decide +kernel
      have hm : "rId-9223372036854775808" ∈ f.rels.map (·.id) := by rw [k1]; simp
      obtain ⟨r, hr, he⟩ := List.mem_map.1 hm
      exact hbad (he ▸ this r hr)
  · simp at key

end Docx
