import Verif.Lemmas.Handles
import Verif.SpecPack

/-!
# C64: files that are opened are closed
-/

set_option linter.unusedSectionVars false

namespace Docx

variable [GoEnv]

/-- The functions with a record of files are those of C50 to C57: the same document and error. -/
theorem C64_same_parse (me : DocId) (a : Archive) : (unpackT me a).1 = unpack me a := unpackT_fst me a

/-- The same for saving. -/
theorem C64_same_save (f : Doc) (out : Saved) (e : Option Err) : Saves f out e ↔ ∃ t, SavesT f out e t := by
  have h := filesT_fst f
  constructor
  · intro hs
    cases hs with
    | noFile h1 => exact ⟨f.filesT.2, .noFile (by rw [← h1, ← h])⟩
    | order h1 hl => exact ⟨f.filesT.2, .order (by rw [← h1, ← h]) hl⟩
  · rintro ⟨t, hs⟩
    cases hs with
    | noFile h1 => exact .noFile (by rw [← h, h1])
    | order h1 hl => exact .order (by rw [← h, h1]) hl

/-- **Parsing.**  When `Parse` returns without an error, no entry of the archive is left open.  After an
error either none is, or exactly one: the media file that could not be read, whose error is returned. -/
theorem C64_parse_partial (me : DocId) (a : Archive) :
    ((unpackT me a).1.2 = none → leftOpen (unpackT me a).2 = []) ∧
    (leftOpen (unpackT me a).2 = [] ∨
      ∃ e ∈ a, isMediaName e.name = true ∧ (∃ s x, e.file = .ok s ∧ s.err = some x ∧ (unpackT me a).1.2 = some x) ∧
        leftOpen (unpackT me a).2 = [e.name]) := by
  have key : leftOpen (unpackT me a).2 = [] ∨
      ∃ e ∈ a, isMediaName e.name = true ∧ (∃ s x, e.file = .ok s ∧ s.err = some x ∧ (unpackT me a).1.2 = some x) ∧
        leftOpen (unpackT me a).2 = [e.name] := by
    have h := unpackAllT_open me a ({ relXmlns := "", tmplfs := some (zipFS a) } : Doc)
    have e1 : (unpackT me a).2 = (({ relXmlns := "", tmplfs := some (zipFS a) } : Doc).unpackAllT me a).2 := by
      unfold unpackT; rcases Doc.unpackAllT _ me a with ⟨⟨f', _ | x⟩, t⟩ <;> rfl
    have e2 : (unpackT me a).1.2 = (({ relXmlns := "", tmplfs := some (zipFS a) } : Doc).unpackAllT me a).1.2 := by
      unfold unpackT; rcases Doc.unpackAllT _ me a with ⟨⟨f', _ | x⟩, t⟩ <;> rfl
    rw [e1, e2]
    rcases h with h | ⟨e, he, ⟨n, hn⟩, h2, h3⟩
    · exact .inl h
    · refine .inr ⟨e, he, ?_, h2, h3⟩
      unfold afterMedia at hn
      split at hn
      · rename_i hp; exact hp
      · cases hn
  refine ⟨fun h0 => ?_, key⟩
  rcases key with h | ⟨e, _, _, ⟨s, x, _, _, h⟩, _⟩
  · exact h
  · rw [h0] at h; cases h

/-- **Saving leaks.**  Whatever else happens, `WriteTo` leaves open all files of the template it has opened:
all of them when it succeeds, and up to the first that cannot be opened otherwise. -/
theorem C64_save_leaks {f : Doc} {out : Saved} {e : Option Err} {t : List FileEv} (h : SavesT f out e t) :
    ∃ k, leftOpen t = (f.tmpfslst.take k).map f.tmplPath ∧
      (e = none → leftOpen t = f.tmpfslst.map f.tmplPath) ∧
      (leftOpen t ≠ f.tmpfslst.map f.tmplPath → ∃ n fs x, f.tmpfslst[k]? = some n ∧ f.tmplfs = some fs ∧
        fs (f.tmplPath n) = .error x ∧ e = some x) := by
  obtain ⟨k, hk, h2, h3, h4, h5⟩ := openTmplT_snd f f.tmpfslst []
  have hf : f.filesT.2 = (f.openTmplT [] f.tmpfslst).2 := by
    unfold Doc.filesT; rcases f.openTmplT [] f.tmpfslst with ⟨_ | _ | _, t⟩ <;> rfl
  have ht : t = f.filesT.2 := by cases h with
    | noFile h1 => rw [h1]
    | order h1 hl => rw [h1]
  have hl : leftOpen t = (f.tmpfslst.take k).map f.tmplPath := by
    rw [ht, hf, h2, leftOpen]
    have := openAfter_opened [] ((f.tmpfslst.take k).map f.tmplPath)
    simpa [List.map_map, Function.comp_def] using this
  have all : k = f.tmpfslst.length → leftOpen t = f.tmpfslst.map f.tmplPath := by
    intro e0; rw [hl, e0, List.take_length]
  cases h with
  | noFile h1 =>
    refine ⟨k, hl, (fun h => by cases h), fun hne => ?_⟩
    cases ho : f.openTmplT [] f.tmpfslst with
    | mk r t' =>
      cases r with
      | ok m => exact absurd (all (h4 m (by rw [ho]))) hne
      | err x =>
        obtain ⟨n, fs, a, b, c⟩ := h5 x (by rw [ho])
        refine ⟨n, fs, x, a, b, c, ?_⟩
        simp only [Doc.filesT, ho] at h1
        cases h1; rfl
      | panic => simp only [Doc.filesT, ho] at h1; cases h1
  | order h1 hl' =>
    have hk' : k = f.tmpfslst.length := by
      cases ho : f.openTmplT [] f.tmpfslst with
      | mk r t' =>
        cases r with
        | ok m => exact h4 m (by rw [ho])
        | err x => simp only [Doc.filesT, ho] at h1; cases h1
        | panic => simp only [Doc.filesT, ho] at h1; cases h1
    exact ⟨k, hl, fun _ => all hk', fun hne => absurd (all hk') hne⟩

/-- Saving leaves nothing open when there are no template files, and only then if it succeeds. -/
theorem C64_save_partial {f : Doc} {out : Saved} {e : Option Err} {t : List FileEv} (h : SavesT f out e t) :
    (f.tmpfslst = [] → leftOpen t = []) ∧ (e = none → leftOpen t = [] → f.tmpfslst = []) := by
  obtain ⟨k, h1, h2, _⟩ := C64_save_leaks h
  refine ⟨fun hn => by rw [h1, hn]; simp, fun he hl => ?_⟩
  rw [h2 he] at hl
  exact List.map_eq_nil_iff.1 hl

theorem openAfter_len_saves {f : Doc} : ∀ (ts : List (List FileEv)) (b : List String),
    (∀ t ∈ ts, ∃ ns : List String, t = ns.map .opened ∧ ns.length = f.tmpfslst.length) →
    (openAfter b ts.flatten).length = b.length + ts.length * f.tmpfslst.length := by
  intro ts
  induction ts with
  | nil => intro b _; simp [openAfter]
  | cons t ts ih =>
    intro b h
    obtain ⟨ns, rfl, hn⟩ := h t (by simp)
    rw [List.flatten_cons, openAfter_append, openAfter_opened, ih _ (fun t ht => h t (by simp [ht]))]
    simp only [List.length_append, List.length_cons, hn, Nat.succ_mul]
    omega

/-- The files left open add up: after any number of successful saves of a document, one file is open for
each save and each file of its template. -/
theorem C64_save_adds_up {f : Doc} {ts : List (List FileEv)} (h : ∀ t ∈ ts, ∃ out, SavesT f out none t) :
    (leftOpen ts.flatten).length = ts.length * f.tmpfslst.length := by
  have := openAfter_len_saves (f := f) ts [] ?_
  · simpa [leftOpen] using this
  intro t ht
  obtain ⟨out, hs⟩ := h t ht
  obtain ⟨k, _, h2, _, h4, _⟩ := openTmplT_snd f f.tmpfslst []
  have hf : f.filesT.2 = (f.openTmplT [] f.tmpfslst).2 := by
    unfold Doc.filesT; rcases f.openTmplT [] f.tmpfslst with ⟨_ | _ | _, t⟩ <;> rfl
  have ht' : t = (f.tmpfslst.take k).map (fun n => .opened (f.tmplPath n)) := by
    rw [← h2, ← hf]
    generalize hn : (none : Option Err) = e0 at hs
    cases hs with
    | noFile h1 => rw [h1]
    | order h1 hl => rw [h1]
  have hl := (C64_save_leaks hs).choose_spec.2.1 rfl
  refine ⟨(f.tmpfslst.take k).map f.tmplPath, by rw [ht']; simp [List.map_map, Function.comp_def], ?_⟩
  have h5 : leftOpen t = (f.tmpfslst.take k).map f.tmplPath := by
    rw [ht', leftOpen]
    have := openAfter_opened [] ((f.tmpfslst.take k).map f.tmplPath)
    simpa [List.map_map, Function.comp_def] using this
  rw [← h5, hl, List.length_map]

/-! ## The hypotheses are met -/

/-- A new document with the default template: the files it names can be opened -/
def tmplDoc : Doc :=
  { Doc.new with template := "default", tmpfslst := ["word/styles.xml", "[Content_Types].xml"],
                 tmplfs := some fun _ => .ok ⟨[1], none⟩ }

/-- It can be saved, and two files are left open -/
example : ∃ out t, SavesT tmplDoc out none t ∧ leftOpen t = ["xml/default/word/styles.xml", "xml/default/[Content_Types].xml"] := by
  have h : tmplDoc.filesT = (_, [.opened "xml/default/word/styles.xml", .opened "xml/default/[Content_Types].xml"]) := rfl
  exact ⟨_, _, SavesT.order h (List.Perm.refl _), rfl⟩

/-- A document without template files: nothing is left open -/
example : ∃ out e t, SavesT ({} : Doc) out e t ∧ leftOpen t = [] := by
  refine ⟨_, _, [], .order (m := _) (l := _) rfl (List.Perm.refl _), rfl⟩

/-- Parsing an archive with a media file that is cut short leaves it open -/
example : (unpackT 0 [⟨"word/media/a.png", .ok ⟨[1], some .io⟩⟩]).1.2 = some .io ∧
    leftOpen (unpackT 0 [⟨"word/media/a.png", .ok ⟨[1], some .io⟩⟩]).2 = ["word/media/a.png"] := by
  constructor <;> rfl

/-- Parsing an archive with a readable media file -/
example : (unpackT 0 [⟨"word/media/a.png", .ok ⟨[1], none⟩⟩]).1.2 = none ∧
    leftOpen (unpackT 0 [⟨"word/media/a.png", .ok ⟨[1], none⟩⟩]).2 = [] := by
  constructor <;> rfl

end Docx
