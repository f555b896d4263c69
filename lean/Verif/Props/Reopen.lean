import Verif.SpecReopen
import Verif.Lemmas.CleanRec
import Verif.Lemmas.Owner
import Verif.Lemmas.Looks
import Verif.Props.Sessions

/-!
# C86: whatever can be opened can be saved and opened again, and then nothing changes any more
-/

namespace Docx

set_option linter.unusedSectionVars false

section

variable [GoEnv]

/-! ## What opening gives can be written in XML -/

/-- What holds while the entries are read -/
structure Clean (me : DocId) (f : Doc) : Prop where
  ns : xmlText f.relXmlns
  rels : ∀ r ∈ f.rels, okRel r
  items : ∀ x ∈ f.items, okN (mItem x)
  kept : keptBody (some me) f.items
  pos : posBody f.items

theorem unpackEntry_clean {me : DocId} {f g : Doc} {e : Entry} {x : Option Err} (hf : Clean me f)
    (h : f.unpackEntry me e = (g, x)) : Clean me g := by
  unfold Doc.unpackEntry at h
  split at h
  · unfold Doc.parseRels at h
    split at h
    · cases h; exact hf
    · rename_i s _
      have hc := decodeRels_C (x := xmlnsR) (by unfold xmlText; decide +kernel) hf.rels s.toks (stream_C s)
      rcases ho : decodeRels xmlnsR f.rels s.toks with ⟨⟨v1, v2⟩, _ | y, d⟩
      · rw [ho] at h hc
        simp only at h
        rcases hsc : scanIds f.rID v2 with ⟨n, z⟩
        rw [hsc] at h
        cases h
        exact ⟨hc.1, hc.2, hf.items, hf.kept, hf.pos⟩
      · rw [ho] at h hc
        cases h
        exact ⟨hc.1, hc.2, hf.items, hf.kept, hf.pos⟩
  · split at h
    · unfold Doc.parseDocument at h
      split at h
      · cases h; exact hf
      · rename_i s _
        simp only [Prod.mk.injEq] at h
        obtain ⟨rfl, _⟩ := h
        exact ⟨hf.ns, hf.rels, decodeDocument_C (some me) hf.items _ (stream_C s),
          decodeDocument_yields (some me) hf.kept _, decodeDocument_pos (some me) hf.pos _⟩
    · split at h
      · unfold Doc.parseMedia at h
        split at h
        · cases h; exact hf
        · split at h
          · cases h; exact hf
          · cases h
            exact ⟨hf.ns, hf.rels, hf.items, hf.kept, hf.pos⟩
      · cases h
        exact ⟨hf.ns, hf.rels, hf.items, hf.kept, hf.pos⟩

theorem unpackAll_clean {me : DocId} : ∀ {es : List Entry} {f g : Doc} {x : Option Err}, Clean me f →
    f.unpackAll me es = (g, x) → Clean me g
  | [], f, g, x, hf, h => by
    simp only [Doc.unpackAll, Prod.mk.injEq] at h
    exact h.1 ▸ hf
  | e :: es, f, g, x, hf, h => by
    rw [Doc.unpackAll] at h
    rcases hu : f.unpackEntry me e with ⟨f', _ | y⟩
    · rw [hu] at h
      exact unpackAll_clean (unpackEntry_clean hf hu) h
    · rw [hu] at h
      cases h
      exact unpackEntry_clean hf hu

theorem unpack_clean {me : DocId} {a : Archive} {f : Doc} (h : unpack me a = (f, none)) : Clean me f := by
  obtain ⟨g, hg, rfl⟩ := unpack_ok h
  have := unpackAll_clean (me := me) (f := { relXmlns := "", tmplfs := some (zipFS a) })
    ⟨xmlText_nil, by simp, by simp, fun _ h => (by cases h), fun _ h => (by cases h)⟩ hg
  exact ⟨this.ns, this.rels, this.items, this.kept, this.pos⟩

/-- **C86.** Whatever the file was: every string of a document that was opened can be written in XML, its
ids are those `Parse` takes, and no template file is in the media folder. -/
theorem C86_expressible (me : DocId) (a : Archive) (f : Doc) (h : unpack me a = (f, none)) : Expressible f := by
  have hc := unpack_clean h
  obtain ⟨p1, _⟩ := C55_places me a f h
  refine ⟨hc.ns, fun r hr => ⟨?_, (hc.rels r hr).2⟩, ?_, ?_⟩
  · obtain ⟨g, hg, rfl⟩ := unpack_ok h
    obtain ⟨_, _, _, _, _, _, _, _, b9, b10, _, _⟩ := unpackAll_ok hg
    change r ∈ g.rels at hr
    by_cases hm : relsName ∈ a.map (·.name)
    · obtain ⟨k, hk⟩ := b10 hm
      exact (scanIds_ok g.rels k).1 (by rw [hk]) r hr
    · rw [(b9 hm).1] at hr
      simp at hr
  · exact okN_document.2 hc.items
  · intro n hn
    rw [p1, List.mem_filter] at hn
    have := hn.2
    simp only [isOtherName, Bool.and_eq_true, Bool.not_eq_true'] at this
    exact this.2

/-- **C86.** Whatever can be opened and saved can be opened again.  Relationships, media and the names of
the other files are the same; the body is the same but for the things listed in `Verif.SpecXml`. -/
theorem C86_reopens (me : DocId) (a : Archive) (f : Doc) (out : Saved) (h : unpack me a = (f, none))
    (hs : Saves f out none) (me' : DocId) :
    ∃ g, unpack me' (reread out) = (g, none) ∧ g.rels = f.rels ∧ g.relXmlns = f.relXmlns ∧
      (∀ n, g.getMedia n = f.getMedia n) ∧ (∀ n, n ∈ g.tmpfslst ↔ n ∈ f.tmpfslst) ∧
      g.items = normBody (some me') f.items ∧ (looksOk f.items → mDocument g.items = mDocument f.items) ∧
      (looksOk f.items → me' = me → g.items = f.items) := by
  have he := C86_expressible me a f h
  have hc := unpack_clean h
  obtain ⟨p1, _, _, p4, _⟩ := C55_places me a f h
  obtain ⟨g, h1, h2, h3, h4, h5, _, h6⟩ := C50_restored f out hs me' he.good he.body he.templates
  have same : looksOk f.items → normBody (some me) f.items = f.items := fun hl =>
    (kept_body (some me) f.items).2 ⟨hc.kept, hl⟩
  refine ⟨g, h1, h2, h3, fun n => (h4 n).trans (p4 n).symm, fun n => ?_, h6, fun hl => ?_, fun hl e => ?_⟩
  · rw [h5, p1, List.mem_filter]
    exact ⟨fun h => ⟨h.1.1, h.2⟩, fun h => ⟨h, h.2⟩⟩
  · rw [h6, ow_body (b := some me), same hl]
  · rw [h6, e, same hl]

/-! ## The names -/

theorem splitSlash_chars {c : Char} : ∀ {cs : List Char} {x : List Char}, x ∈ splitSlash cs → c ∈ x → c ∈ cs := by
  intro cs
  induction cs with
  | nil => intro x hx hc; simp only [splitSlash, List.mem_singleton] at hx; subst hx; cases hc
  | cons d cs ih =>
    intro x hx hc
    unfold splitSlash at hx
    split at hx
    · rcases List.mem_cons.1 hx with rfl | hx
      · cases hc
      · exact List.mem_cons_of_mem _ (ih hx hc)
    · cases hsp : splitSlash cs with
      | nil =>
        rw [hsp] at hx
        simp only [List.mem_singleton] at hx
        subst hx
        simp only [List.mem_singleton] at hc
        simp [hc]
      | cons y ys =>
        rw [hsp] at hx ih
        rcases List.mem_cons.1 hx with rfl | hx
        · rcases List.mem_cons.1 hc with rfl | hc
          · simp
          · exact List.mem_cons_of_mem _ (ih (by simp) hc)
        · exact List.mem_cons_of_mem _ (ih (List.mem_cons_of_mem _ hx) hc)

theorem cleanPath_mem (r : Bool) : ∀ (xs acc : List (List Char)) (x : List Char),
    x ∈ cleanPath r acc xs → x ∈ acc ∨ x ∈ xs := by
  intro xs
  induction xs with
  | nil => intro acc x h; simpa [cleanPath] using h
  | cons y ys ih =>
    intro acc x h
    unfold cleanPath at h
    split at h
    · rcases ih _ _ h with h | h
      · exact .inl h
      · exact .inr (List.mem_cons_of_mem _ h)
    · split at h
      · split at h
        · split at h
          · rcases ih _ _ h with h | h
            · exact .inl h
            · exact .inr (List.mem_cons_of_mem _ h)
          · rcases ih _ _ h with h | h
            · rw [List.mem_singleton.1 h]; simp
            · exact .inr (List.mem_cons_of_mem _ h)
        · split at h
          · rcases ih _ _ h with h | h
            · rcases List.mem_cons.1 h with rfl | h
              · simp
              · exact .inl h
            · exact .inr (List.mem_cons_of_mem _ h)
          · rcases ih _ _ h with h | h
            · exact .inl (List.mem_cons_of_mem _ h)
            · exact .inr (List.mem_cons_of_mem _ h)
      · rcases ih _ _ h with h | h
        · rcases List.mem_cons.1 h with rfl | h
          · simp
          · exact .inl h
        · exact .inr (List.mem_cons_of_mem _ h)

theorem dropUp_mem : ∀ (xs : List (List Char)) (x : List Char), x ∈ dropUp xs → x ∈ xs
  | [], x, h => by simp [dropUp] at h
  | [y], x, h => by simpa [dropUp] using h
  | y :: z :: xs, x, h => by
    unfold dropUp at h
    split at h
    · exact List.mem_cons_of_mem _ (dropUp_mem (z :: xs) x h)
    · exact h

theorem joinSlash_chars {c : Char} : ∀ {xs : List (List Char)}, c ∈ joinSlash xs → c = '/' ∨ ∃ x ∈ xs, c ∈ x
  | [], h => by simp [joinSlash] at h
  | [y], h => by
    simp only [joinSlash] at h
    exact .inr ⟨y, by simp, h⟩
  | y :: z :: xs, h => by
    simp only [joinSlash, List.mem_append, List.mem_cons] at h
    rcases h with h | h | h
    · exact .inr ⟨y, by simp, h⟩
    · exact .inl h
    · rcases joinSlash_chars (xs := z :: xs) h with h | ⟨x, hx, hc⟩
      · exact .inl h
      · exact .inr ⟨x, List.mem_cons_of_mem _ hx, hc⟩

/-- The names under which `archive/zip` finds files contain no backslash -/
theorem toValidName_slash (s : String) : '\\' ∉ (toValidName s).toList := by
  unfold toValidName
  simp only
  split
  · split <;> decide
  · rw [String.toList_ofList]
    intro h
    rcases joinSlash_chars h with h | ⟨x, hx, hc⟩
    · exact absurd h (by decide)
    · rcases cleanPath_mem _ _ _ _ (dropUp_mem _ _ hx) with h | h
      · cases h
      · have := splitSlash_chars h hc
        obtain ⟨d, _, hd⟩ := List.mem_map.1 this
        split at hd
        · exact absurd hd (by decide)
        · rename_i hne; exact hne hd

/-- A file that can be opened and read in an archive has a plain path. -/
theorem zipFS_ok_plain {a : Archive} {n : String} {b : Bytes} (h : zipFS a n = .ok ⟨b, none⟩) :
    plainPath n = true := by
  unfold zipFS at h
  split at h
  · cases h
  · rename_i hv
    split at h
    · cases h
    · rename_i hd
      split at h
      · rename_i e he
        have := List.find?_some he
        simp only [beq_iff_eq] at this
        have hb := toValidName_slash e.name
        rw [this] at hb
        simp only [plainPath, Bool.and_eq_true, bne_iff_ne, Bool.not_eq_true', List.contains_eq_mem,
          decide_eq_false_iff_not]
        exact ⟨⟨by simpa using hv, hd⟩, hb⟩
      · split at h <;> cases h

theorem mediaName_whole {s : String} (h : isMediaName s = true) :
    "word/media/" ++ String.ofList (s.toList.drop "word/media/".toList.length) = s := by
  have key : ∀ pre : String, pre.toList.isPrefixOf s.toList = true →
      pre ++ String.ofList (s.toList.drop pre.toList.length) = s := by
    intro pre h
    rw [List.isPrefixOf_iff_prefix] at h
    obtain ⟨t, ht⟩ := h
    apply String.toList_injective
    rw [String.toList_append, String.toList_ofList, ← ht, List.drop_left]
  exact key _ h

/-- In what is saved after opening, all names are plain paths if those of the media were. -/
theorem names_plain {me : DocId} {a : Archive} {f : Doc} {out : Saved} (h : unpack me a = (f, none))
    (hs : Saves f out none) (hp : PlainMedia a) : ∀ p ∈ out, plainPath p.1 = true := by
  intro p hm
  obtain ⟨p1, p2, _, _, p5, p6⟩ := C55_places me a f h
  rcases (C49_exactly f out hs p.1).1 (List.mem_map_of_mem hm) with ht | ht | ht | ⟨m, hm, ht⟩
  · have ho : isOtherName p.1 = true := by rw [p1, List.mem_filter] at ht; exact ht.2
    simp only [isOtherName, Bool.and_eq_true, Bool.not_eq_true', bne_iff_ne] at ho
    obtain ⟨fs, b, c1, c2, _⟩ := (C49_contents f out hs).2.2.2 p.1 ht ho.1.1 ho.1.2 (by
      intro m _ e
      have := ho.2
      rw [e] at this
      simp [isMediaName, String.toList_append] at this)
    rw [if_pos p6] at c2
    rw [p5] at c1
    cases c1
    exact zipFS_ok_plain c2
  · rw [ht]; decide
  · rw [ht]; decide
  · rw [p2] at hm
    obtain ⟨e, he, rfl⟩ := List.mem_map.1 hm
    rw [List.mem_filter] at he
    rw [ht]
    simp only
    rw [mediaName_whole he.2]
    exact hp e he.1 he.2

theorem plainMedia_reread {out : Saved} (h : ∀ p ∈ out, plainPath p.1 = true) : PlainMedia (reread out) := by
  intro e he _
  obtain ⟨p, hp, rfl⟩ := List.mem_map.1 he
  exact h p hp

/-! ## Nothing changes any more -/

theorem saved_perm {o o' : Saved} (h : (o.map (·.1)).Nodup) (h' : (o'.map (·.1)).Nodup)
    (e : ∀ n b, Stored o' n b ↔ Stored o n b) : o'.Perm o := by
  have nd : ∀ {o : Saved}, (o.map (·.1)).Nodup → o.Nodup := fun h =>
    (List.pairwise_map.1 h).imp fun h e => h (congrArg _ e)
  refine (List.perm_ext_iff_of_nodup (nd h') (nd h)).2 ?_
  intro p
  exact e p.1 p.2

/-- When the numbers of `tblLook` are digits, opening what was saved and saving it again changes nothing. -/
theorem again_same {me : DocId} {a : Archive} {f : Doc} {out : Saved} (h : unpack me a = (f, none))
    (hl : looksOk f.items) (hp : PlainMedia a) (hs : Saves f out none) {me' : DocId} {g : Doc}
    (hg : unpack me' (reread out) = (g, none)) {out' : Saved} {e : Option Err} (hs' : Saves g out' e) :
    e = none ∧ out'.Perm out ∧ looksOk g.items := by
  have he := C86_expressible me a f h
  obtain ⟨g', h1, h2, h3, _, _, h6, h7, _⟩ := C86_reopens me a f out h hs me'
  rw [hg] at h1
  cases h1
  obtain ⟨rfl, ha⟩ := C50_again f out hs me' he.good he.body he.templates (names_plain h hs hp) g hg out' e hs'
  refine ⟨rfl, saved_perm (C49_distinct f out none hs) (C49_distinct g out' none hs') ?_,
    by rw [h6]; exact looksOk_once _ (posBody_of_looksOk hl)⟩
  intro n b
  by_cases hn : n = "word/document.xml"
  · subst hn
    obtain ⟨c1, _⟩ := C49_contents f out hs
    obtain ⟨d1, _⟩ := C49_contents g out' hs'
    rw [h7 hl] at d1
    have uniq : ∀ {o : Saved} {n b b'}, (o.map (·.1)).Nodup → Stored o n b → Stored o n b' → b = b' := by
      intro o n b b' hd h1 h2
      obtain ⟨i, hi, e1⟩ := List.getElem_of_mem h1
      obtain ⟨j, hj, e2⟩ := List.getElem_of_mem h2
      have : i = j := (List.getElem?_inj (by simpa using hi) hd).1 (by simp [hi, hj, e1, e2])
      subst this
      rw [e1] at e2
      cases e2; rfl
    exact ⟨fun h => by rw [uniq (C49_distinct g out' none hs') h d1]; exact c1,
      fun h => by rw [uniq (C49_distinct f out none hs) h c1]; exact d1⟩
  · exact ha n b hn

/-- **C86.** A document that was opened and saved can, once opened again, be saved again: saving cannot
fail any more. -/
theorem C86_saves_again (a : Archive) (hp : PlainMedia a) (o : Saved) (h : Resave a o) (me : DocId) (g : Doc)
    (hg : unpack me (reread o) = (g, none)) (o' : Saved) (e : Option Err) (hs : Saves g o' e) : e = none := by
  obtain ⟨m, f, h1, h2⟩ := h
  have he := C86_expressible m a f h1
  exact (C50_again f o h2 me he.good he.body he.templates (names_plain h1 h2 hp) g hg o' e hs).1

/-- **C86.** Open a file and save it; open what was saved and save it again.  From then on, however often
it is opened and saved, the archive has the same entries with the same bytes, perhaps in another order. -/
theorem C86_settles (a : Archive) (hp : PlainMedia a) (o1 o2 : Saved) (h1 : Resave a o1)
    (h2 : Resave (reread o1) o2) (o : Saved) (h : Resaved o2 o) : o.Perm o2 := by
  obtain ⟨m0, f0, a1, a2⟩ := h1
  obtain ⟨m1, f1, b1, b2⟩ := h2
  have hl1 : looksOk f1.items := by
    obtain ⟨g', g1, _, _, _, _, g6, _⟩ := C86_reopens m0 a f0 o1 a1 a2 m1
    rw [b1] at g1
    cases g1
    rw [g6]
    exact looksOk_once _ (unpack_clean a1).pos
  have hp1 : PlainMedia (reread o1) := plainMedia_reread (names_plain a1 a2 hp)
  have inv : ∃ me b f, unpack me b = (f, none) ∧ looksOk f.items ∧ PlainMedia b ∧ Saves f o none ∧ o.Perm o2 := by
    induction h with
    | same => exact ⟨m1, _, f1, b1, hl1, hp1, b2, .refl _⟩
    | again _ hr ih =>
      obtain ⟨me, b, f, c1, c2, c3, c4, c5⟩ := ih
      obtain ⟨me', g, d1, d2⟩ := hr
      obtain ⟨_, e1, e2⟩ := again_same c1 c2 c3 c4 d1 d2
      exact ⟨me', _, g, d1, e2, plainMedia_reread (names_plain c1 c4 c3), d2, e1.trans c5⟩
  obtain ⟨_, _, _, _, _, _, _, h⟩ := inv
  exact h

/-- **C86.** If the numbers of `tblLook` in the file are single digits, already the first saving is final. -/
theorem C86_settles_at_once (me : DocId) (a : Archive) (f : Doc) (hp : PlainMedia a)
    (hf : unpack me a = (f, none)) (hl : looksOk f.items) (o1 : Saved) (h1 : Saves f o1 none) (o : Saved)
    (h : Resaved o1 o) : o.Perm o1 := by
  have inv : ∃ me b f, unpack me b = (f, none) ∧ looksOk f.items ∧ PlainMedia b ∧ Saves f o none ∧ o.Perm o1 := by
    induction h with
    | same => exact ⟨me, _, f, hf, hl, hp, h1, .refl _⟩
    | again _ hr ih =>
      obtain ⟨me, b, f, c1, c2, c3, c4, c5⟩ := ih
      obtain ⟨me', g, d1, d2⟩ := hr
      obtain ⟨_, e1, e2⟩ := again_same c1 c2 c3 c4 d1 d2
      exact ⟨me', _, g, d1, e2, plainMedia_reread (names_plain c1 c4 c3), d2, e1.trans c5⟩
  obtain ⟨_, _, _, _, _, _, _, h⟩ := inv
  exact h

/-- **C42.** Parsing, saving and parsing gives a body that comes back unchanged from then on. -/
theorem C42_stable_after_one (file : Option DocId) (toks : List Tok) :
    let once := (roundTrip file (decodeDocument file [] toks).val).val
    (roundTrip file once).val = once := by
  intro once
  rw [C41_identity_exactly]
  constructor
  · exact C42_parsed_kept file _
  · show looksOk (roundTrip file (decodeDocument file [] toks).val).val
    rw [C41_round_trip]
    exact looksOk_once file (decodeDocument_pos file (fun _ h => by cases h) toks)

/-- **C86.** It goes on: whatever was opened and saved can be opened and saved once more. -/
theorem C86_goes_on (a : Archive) (hp : PlainMedia a) (o : Saved) (h : Resave a o) :
    ∃ o', Resave (reread o) o' := by
  obtain ⟨m, f, h1, h2⟩ := id h
  obtain ⟨g, g1, _⟩ := C86_reopens m a f o h1 h2 m
  obtain ⟨_, _, _, _, p5, _⟩ := C55_places _ _ _ g1
  obtain ⟨o', e, hs⟩ := C53_returns g (.inl (by rw [p5]; simp))
  obtain rfl := C86_saves_again a hp o h m g g1 o' e hs
  exact ⟨o', m, g, g1, hs⟩

end

/-! ## Cases -/

/-- A table whose `tblLook` says `firstRow="true"` -/
def lookTree : Node :=
  .elem ⟨"w", "document"⟩ [] [.elem ⟨"w", "body"⟩ [] [.elem ⟨"w", "tbl"⟩ [] [.elem ⟨"w", "tblPr"⟩ []
    [.elem ⟨"w", "tblLook"⟩ [⟨⟨"w", "firstRow"⟩, "true"⟩] []]]]]

/-- One relationship -/
def lookRels : Node :=
  .elem ⟨"", "Relationships"⟩ [] [.elem ⟨"", "Relationship"⟩ [⟨⟨"", "Id"⟩, "rId7"⟩, ⟨⟨"", "Type"⟩, "t"⟩,
    ⟨⟨"", "Target"⟩, "media/a.png"⟩] []]

/-- A package with that table, a picture and styles -/
def lookPackage : Archive :=
  [⟨"word/document.xml", .ok ⟨utf8 lookTree.chars, none⟩⟩,
   ⟨"word/_rels/document.xml.rels", .ok ⟨utf8 lookRels.chars, none⟩⟩,
   ⟨"word/media/a.png", .ok ⟨[1, 2], none⟩⟩, ⟨"word/styles.xml", .ok ⟨[60, 120, 47, 62], none⟩⟩]

/-- What `firstRow` of the first table is -/
def firstRowOf : List BItem → Option Int64
  | .table t :: _ => match t.props with
    | some pr => pr.look.map (·.firstRow)
    | none => none
  | _ => none

local instance lookEnv : GoEnv := ⟨fun _ => none, fun _ => false, fun _ => false⟩

theorem look_opens : ∃ f, unpack 0 lookPackage = (f, none) ∧ f.rels = [⟨"rId7", "t", "media/a.png", ""⟩] ∧
    firstRowOf f.items = some 68 := by
  have h : (unpack 0 lookPackage).2 = none ∧
    (unpack 0 lookPackage).1.rels = [⟨"rId7", "t", "media/a.png", ""⟩] ∧
    firstRowOf (unpack 0 lookPackage).1.items = some 68 := by decide +kernel
  rcases hu : unpack 0 lookPackage with ⟨f, x⟩
  rw [hu] at h
  obtain ⟨rfl, h⟩ := h
  exact ⟨f, rfl, h⟩

theorem look_plain : PlainMedia lookPackage := by
  intro e he hm
  have : ∀ n ∈ lookPackage.map (·.name), isMediaName n = true → plainPath n = true := by decide
  exact this _ (List.mem_map_of_mem he) hm

theorem look_saves : ∃ f o, unpack 0 lookPackage = (f, none) ∧ Saves f o none ∧ firstRowOf f.items = some 68 := by
  obtain ⟨f, h, _, hr⟩ := look_opens
  obtain ⟨p1, p2, _, _, p5, p6⟩ := C55_places _ _ _ h
  obtain ⟨o, e, hs⟩ := C53_returns f (.inl (by rw [p5]; simp))
  have p1' : f.tmpfslst = ["word/styles.xml"] := by rw [p1]; decide
  have p2' : f.media = [⟨"a.png", [1, 2]⟩] := by rw [p2]; decide +kernel
  have := C53_success _ (fun n hn => by
    rw [p1', List.mem_singleton] at hn
    subst hn
    exact ⟨_, [60, 120, 47, 62], p5, by rw [if_pos p6]; rfl⟩) (by rw [p1']; decide) (by rw [p2']; decide +kernel) o e hs
  subst this
  exact ⟨f, o, h, hs, hr⟩

theorem look_resave : ∃ o, Resave lookPackage o := by
  obtain ⟨f, o, h, hs, _⟩ := look_saves
  exact ⟨o, 0, f, h, hs⟩

/-- The package is opened and saved three times; its `tblLook` is not made of digits at first. -/
example : ∃ o1 o2 o3, PlainMedia lookPackage ∧ Resave lookPackage o1 ∧ Resave (reread o1) o2 ∧ Resaved o2 o3 ∧
    Resave (reread o2) o3 := by
  obtain ⟨o1, h1⟩ := look_resave
  obtain ⟨o2, h2⟩ := C86_goes_on _ look_plain o1 h1
  have hp : PlainMedia (reread o1) := by
    obtain ⟨m, f, a, b⟩ := h1
    exact plainMedia_reread (names_plain a b look_plain)
  obtain ⟨o3, h3⟩ := C86_goes_on _ hp o2 h2
  exact ⟨o1, o2, o3, look_plain, h1, h2, .again .same h3, h3⟩

/-- What was saved has digits: opened, it says 6 where it said 68. -/
example : ∃ a f o, PlainMedia a ∧ unpack 1 a = (f, none) ∧ looksOk f.items ∧ Saves f o none ∧
    firstRowOf f.items = some 6 := by
  obtain ⟨f, o1, a1, a2, hr⟩ := look_saves
  obtain ⟨g, g1, _, _, _, _, g6, _⟩ := C86_reopens 0 _ f o1 a1 a2 1
  obtain ⟨_, _, _, _, p5, _⟩ := C55_places _ _ _ g1
  obtain ⟨o', e, hs⟩ := C53_returns g (.inl (by rw [p5]; simp))
  obtain rfl := C86_saves_again _ look_plain o1 ⟨0, f, a1, a2⟩ 1 g g1 o' e hs
  refine ⟨_, g, o', plainMedia_reread (names_plain a1 a2 look_plain), g1,
    by rw [g6]; exact looksOk_once _ (unpack_clean a1).pos, hs, ?_⟩
  have key : ∀ is : List BItem, firstRowOf is = some 68 → firstRowOf (normBody (some 1) is) = some 6 := by
    intro is hi
    match is with
    | [] => cases hi
    | .para p :: _ => cases hi
    | .sect s :: _ => cases hi
    | .table ⟨none, _, _⟩ :: _ => cases hi
    | .table ⟨some pr, _, _⟩ :: _ =>
      simp only [firstRowOf, Option.map_eq_some_iff] at hi
      obtain ⟨l, hl, h68⟩ := hi
      have : normLookInt 68 = 6 := by decide
      simp [firstRowOf, normBody, normItem, normTable, normTblPr, hl, normLook, h68, this]
  rw [g6]; exact key _ hr

/-- A medium whose name leads out of the folder to the styles -/
def oddPackage : Archive :=
  [⟨"word/styles.xml", .ok ⟨[1], none⟩⟩, ⟨"word/media/../styles.xml", .ok ⟨[2], none⟩⟩]

/-- **C86.** The condition on the names of the media is needed: with a medium called
`word/media/../styles.xml`, opening and saving what was saved can replace the styles. -/
theorem C86_odd_media_names : ∃ me f o1 o2, unpack me oddPackage = (f, none) ∧ looksOk f.items ∧
    Saves f o1 none ∧ Resave (reread o1) o2 ∧ Stored o1 "word/styles.xml" [1] ∧
    Stored o2 "word/styles.xml" [2] ∧ ¬ o2.Perm o1 := by
  have h : unpack 0 oddPackage = ((unpack 0 oddPackage).1, none) := rfl
  have hs : Saves (unpack 0 oddPackage).1 [("word/media/../styles.xml", [2]), ("word/styles.xml", [1]),
      ("word/_rels/document.xml.rels", xmlBytes (mRels "" [])), ("word/document.xml", xmlBytes (mDocument []))] none :=
    saves_of (l := [("word/media/../styles.xml", ⟨[2], none⟩), ("word/styles.xml", ⟨[1], none⟩),
      ("word/_rels/document.xml.rels", ⟨xmlBytes (mRels "" []), none⟩),
      ("word/document.xml", ⟨xmlBytes (mDocument []), none⟩)]) rfl
      (List.perm_append_comm (l₁ := [_]) (l₂ := [_, _, _])) (by rfl)
  obtain ⟨g, g1, _, _, _, g5, _, _, _⟩ := C86_reopens 0 _ _ _ h hs 1
  obtain ⟨p1, p2, _, _, p5, p6⟩ := C55_places _ _ _ g1
  obtain ⟨o2, e, hs2⟩ := C53_returns g (.inl (by rw [p5]; simp))
  have t1 : g.tmpfslst = ["word/styles.xml"] := by rw [p1]; decide +kernel
  have t2 : g.media = [⟨"../styles.xml", [2]⟩] := by rw [p2]; rfl
  have hz : g.tmplfs.map (fun fs => fs "word/styles.xml") = some (.ok ⟨[2], none⟩) := by
    rw [p5]; rfl
  rw [p5] at hz
  have := C53_success g (fun n hn => by
    rw [t1, List.mem_singleton] at hn
    subst hn
    exact ⟨_, [2], p5, by rw [if_pos p6]; exact Option.some.inj hz⟩) (by rw [t1]; decide) (by rw [t2]; decide +kernel) o2 e hs2
  subst this
  have st2 : Stored o2 "word/styles.xml" [2] := by
    obtain ⟨fs, b, c1, c2, c3⟩ := (C49_contents g o2 hs2).2.2.2 "word/styles.xml" (by rw [t1]; simp) (by decide)
      (by decide) (by rw [t2]; decide +kernel)
    rw [p5] at c1
    cases c1
    rw [if_pos p6] at c2
    have := (Option.some.inj hz).symm.trans c2
    simp only [Except.ok.injEq, Stream.mk.injEq, and_true] at this
    rw [this]
    exact c3
  refine ⟨0, _, _, o2, h, fun _ h => (by cases h), hs, ⟨1, g, g1, hs2⟩, by simp [Stored], st2, fun hp => ?_⟩
  have := hp.mem_iff.1 st2
  simp at this

end Docx
