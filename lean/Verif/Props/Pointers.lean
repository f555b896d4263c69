import Verif.SpecPointers
import Verif.Lemmas.Slices

/-!
# C84: changing a picture obtained from `Media`
-/

namespace Docx

theorem MDoc.Ok.in {d : MDoc} (h : d.Ok) : d.slc.In d.arrs := ⟨h.arr, h.len, h.cap⟩

theorem modify_eq_set {α : Type} (l : List α) (i : Nat) (g : α → α) (x : α) (h : l[i]? = some x) :
    l.modify i g = l.set i (g x) := by
  apply List.ext_getElem?
  intro n
  rw [List.getElem?_modify, List.getElem?_set]
  by_cases e : i = n
  · subst e
    have hl : i < l.length := (List.getElem?_eq_some_iff.1 h).1
    rw [if_pos rfl, if_pos hl, h]
    simp
  · rw [if_neg e]
    cases l[n]? <;> simp [e]

theorem modify_none {α : Type} (l : List α) (i : Nat) (g : α → α) (h : l[i]? = none) : l.modify i g = l := by
  apply List.ext_getElem?
  intro n
  rw [List.getElem?_modify]
  by_cases e : i = n
  · subst e; rw [h]; rfl
  · cases l[n]? <;> simp [e]

/-- A write through a pointer is a write of one element, or nothing. -/
theorem store_eq (d : MDoc) (p : MPtr) (data : Bytes) :
    (∃ m, d.load p = some m ∧ d.store p data = { d with arrs := d.arrs.modify p.arr (·.set p.pos { m with data := data }) }) ∨
    (d.load p = none ∧ d.store p data = d) := by
  unfold MDoc.load MDoc.store
  cases ha : d.arrs[p.arr]? with
  | none =>
    refine .inr ⟨rfl, ?_⟩
    rw [modify_none _ _ _ ha]
  | some a =>
    cases hm : a[p.pos]? with
    | none =>
      refine .inr ⟨by simpa using hm, ?_⟩
      rw [modify_eq_set _ _ _ _ ha, modify_none _ _ _ hm]
      have : d.arrs.set p.arr a = d.arrs := by
        have := (List.getElem?_eq_some_iff.1 ha)
        obtain ⟨h, e⟩ := this
        rw [← e, List.set_getElem_self]
      rw [this]
    | some m =>
      refine .inl ⟨m, by simpa using hm, ?_⟩
      rw [modify_eq_set _ _ _ _ ha, modify_eq_set _ _ _ _ ha, modify_eq_set _ _ _ _ hm]

theorem store_ok {d : MDoc} (h : d.Ok) (p : MPtr) (data : Bytes) : (d.store p data).Ok := by
  rcases store_eq d p data with ⟨m, _, e⟩ | ⟨_, e⟩
  · rw [e]
    have := write_in (k := p.arr) (i := p.pos) (x := { m with data := data }) h.in
    exact ⟨this.arr, this.len, this.cap⟩
  · rw [e]; exact h

theorem load_at {d : MDoc} (h : d.Ok) (i : Nat) (hi : i < d.slc.len) :
    d.load ⟨d.slc.arr, d.slc.off + i⟩ = d.media[i]? := by
  obtain ⟨a, ha, _⟩ := arr_of_in h.in
  unfold MDoc.load MDoc.media
  rw [get_getElem? ha, if_pos hi, ha]
  rfl

/-- A write at position `i` of the list -/
theorem store_media {d : MDoc} (h : d.Ok) (i : Nat) (m : Media) (hm : d.media[i]? = some m) (data : Bytes) :
    (d.store ⟨d.slc.arr, d.slc.off + i⟩ data).media = d.media.set i { m with data := data } := by
  have hi : i < d.slc.len := by
    rw [← get_length h.in]; exact (List.getElem?_eq_some_iff.1 hm).1
  rcases store_eq d ⟨d.slc.arr, d.slc.off + i⟩ data with ⟨m', hl, e⟩ | ⟨hl, _⟩
  · rw [load_at h i hi, hm] at hl
    injection hl with hl
    subst hl
    rw [e]
    unfold MDoc.media
    simp only
    rw [write_slice h.in, if_pos ⟨rfl, by omega, by omega⟩]
    congr 1
    omega
  · rw [load_at h i hi, hm] at hl
    cases hl

theorem add_ok (grow : Nat → Nat) {d : MDoc} (h : d.Ok) (m : Media) : (d.add grow m).Ok := by
  have := append_in grow h.in m
  exact ⟨this.arr, this.len, this.cap⟩

theorem media_length {d : MDoc} (h : d.Ok) : d.media.length = d.slc.len := get_length h.in

theorem abs_add (grow : Nat → Nat) {d : MDoc} (h : d.Ok) (f : Doc) (m : Media) :
    (d.add grow m).abs f = (d.abs f).addMedia m := by
  have h1 : (d.add grow m).media = d.media ++ [m] := append_self grow h.in m
  simp only [MDoc.abs, Doc.addMedia, h1, media_length h]
  rfl

theorem step_abs (grow : Nat → Nat) {d : MDoc} (h : d.Ok) (f : Doc) (o : MOp) :
    (∀ d', d.step grow o = .ok d' → d'.Ok ∧ (d.abs f).mediaStep o = .ok (d'.abs f)) ∧
    (d.step grow o = .panic → (d.abs f).mediaStep o = .panic) ∧ (∀ e, d.step grow o ≠ .err e) := by
  cases o with
  | add m =>
    refine ⟨?_, fun h => (by cases h), fun e h => by cases h⟩
    intro d' hd
    injection hd with hd
    subst hd
    exact ⟨add_ok grow h m, by rw [abs_add grow h]; rfl⟩
  | change name data =>
    unfold MDoc.step MDoc.get
    simp only [Doc.mediaStep, Doc.changeMedia]
    have e1 : (d.abs f).mediaIdx = d.idx := rfl
    have e2 : (d.abs f).media = d.media := rfl
    rw [e1, e2]
    cases hx : d.idx name with
    | none => exact ⟨fun d' h => (by cases h), fun _ => rfl, fun e h => by cases h⟩
    | some i =>
      simp only
      by_cases hi : i < d.slc.len
      · have hi' : i < d.media.length := by rw [media_length h]; exact hi
        have hm := List.getElem?_eq_getElem hi'
        rw [if_pos hi, hm]
        refine ⟨?_, fun h => (by cases h), fun e h => by cases h⟩
        intro d' hd
        injection hd with hd
        subst hd
        refine ⟨store_ok h _ _, ?_⟩
        simp only [MDoc.abs, store_media h i _ hm data]
        rfl
      · have hm : d.media[i]? = none := by rw [List.getElem?_eq_none_iff, media_length h]; omega
        rw [if_neg hi, hm]
        exact ⟨fun d' h => (by cases h), fun _ => rfl, fun e h => by cases h⟩

/-- **C84, pointers that are used at once.** `Media` gives the picture of the document, and changing pictures through
pointers that were just obtained, between any number of additions, is what it is for a document that owns its
list of pictures. -/
theorem C84_refines (grow : Nat → Nat) (d : MDoc) (h : d.Ok) (f : Doc) (os : List MOp) :
    (∀ name, match d.get name with
      | .ok (some p) => (d.abs f).getMedia name = .ok (d.load p)
      | .ok none => (d.abs f).getMedia name = .ok none
      | .err _ => False
      | .panic => (d.abs f).getMedia name = .panic) ∧
    (match d.steps grow os with
      | .ok d' => (d.abs f).mediaSteps os = .ok (d'.abs f) ∧ d'.Ok
      | .err _ => False
      | .panic => (d.abs f).mediaSteps os = .panic) := by
  constructor
  · intro name
    unfold MDoc.get Doc.getMedia
    have e1 : (d.abs f).mediaIdx = d.idx := rfl
    have e2 : (d.abs f).media = d.media := rfl
    rw [e1, e2]
    cases hx : d.idx name with
    | none => rfl
    | some i =>
      by_cases hi : i < d.slc.len
      · have hm := List.getElem?_eq_getElem (l := d.media) (i := i) (by rw [media_length h]; exact hi)
        simp only [if_pos hi]
        rw [load_at h i hi, hm]
      · have hm : d.media[i]? = none := by rw [List.getElem?_eq_none_iff, media_length h]; omega
        simp only [if_neg hi, hm]
  · induction os generalizing d with
    | nil => exact ⟨rfl, h⟩
    | cons o os ih =>
      obtain ⟨h1, h2, h3⟩ := step_abs grow h f o
      unfold MDoc.steps Doc.mediaSteps
      cases hs : d.step grow o with
      | err e => exact absurd hs (h3 e)
      | panic => rw [h2 hs]
      | ok d' =>
        obtain ⟨k1, k2⟩ := h1 d' hs
        rw [k2]
        exact ih d' k1

/-- How the header moves -/
theorem step_header (grow : Nat → Nat) {d d' : MDoc} (h : d.Ok) (o : MOp) (hs : d.step grow o = .ok d') :
    (addsOf [o] ≤ d.room → d'.slc.arr = d.slc.arr ∧ d'.slc.off = d.slc.off ∧ d.slc.len ≤ d'.slc.len ∧
      d'.room = d.room - addsOf [o]) ∧
    (d.room < addsOf [o] → d.slc.arr < d'.slc.arr) ∧ d.slc.arr ≤ d'.slc.arr := by
  cases o with
  | add m =>
    injection hs with hs
    subst hs
    have hl := h.len
    by_cases hr : d.slc.len < d.slc.cap
    · have e : (d.add grow m).slc = { d.slc with len := d.slc.len + 1 } := by
        unfold MDoc.add; rw [append_place grow hr]
      simp only [MDoc.room, addsOf, e]
      refine ⟨fun _ => ⟨trivial, trivial, by omega, by omega⟩, fun _ => by omega, Nat.le_refl _⟩
    · have e : (d.add grow m).slc.arr = d.arrs.length := by
        unfold MDoc.add; rw [append_grown grow hr]; rfl
      have := h.arr
      simp only [MDoc.room, addsOf]
      refine ⟨fun _ => by omega, fun _ => by omega, by omega⟩
  | change name data =>
    simp only [MDoc.step] at hs
    split at hs
    · injection hs with hs
      subst hs
      exact ⟨fun _ => ⟨rfl, rfl, Nat.le_refl _, rfl⟩, fun hc => absurd hc (Nat.not_lt_zero _), Nat.le_refl _⟩
    · cases hs

theorem addsOf_cons (o : MOp) (os : List MOp) : addsOf (o :: os) = addsOf [o] + addsOf os := by
  cases o <;> simp [addsOf, Nat.add_comm]

theorem steps_header (grow : Nat → Nat) : ∀ (os : List MOp) {d d' : MDoc}, d.Ok → d.steps grow os = .ok d' →
    d'.Ok ∧ (addsOf os ≤ d.room → d'.slc.arr = d.slc.arr ∧ d'.slc.off = d.slc.off ∧ d.slc.len ≤ d'.slc.len) ∧
    (d.room < addsOf os → d.slc.arr < d'.slc.arr) ∧ d.slc.arr ≤ d'.slc.arr
  | [], d, d', h, hs => by
    injection hs with hs
    subst hs
    exact ⟨h, fun _ => ⟨rfl, rfl, Nat.le_refl _⟩, fun hc => absurd hc (Nat.not_lt_zero _), Nat.le_refl _⟩
  | o :: os, d, d', h, hs => by
    unfold MDoc.steps at hs
    cases h1 : d.step grow o with
    | err e => rw [h1] at hs; cases hs
    | panic => rw [h1] at hs; cases hs
    | ok d1 =>
      rw [h1] at hs
      obtain ⟨a1, a2, a3⟩ := step_header grow h o h1
      obtain ⟨b0, b1, b2, b3⟩ := steps_header grow os ((step_abs grow h {} o).1 d1 h1).1 hs
      rw [addsOf_cons]
      refine ⟨b0, ?_, ?_, Nat.le_trans a3 b3⟩
      · intro hr
        obtain ⟨c1, c2, c3, c4⟩ := a1 (by omega)
        obtain ⟨e1, e2, e3⟩ := b1 (by omega)
        exact ⟨by rw [e1, c1], by rw [e2, c2], by omega⟩
      · intro hr
        by_cases hc : d.room < addsOf [o]
        · have := a2 hc; omega
        · obtain ⟨c1, c2, c3, c4⟩ := a1 (by omega)
          have := b2 (by omega)
          omega

/-- **C84, exactly.** A pointer is obtained from `Media`, then pictures are added and changed, then the picture is
changed through the pointer.  If there was room for the added pictures the change is made to the picture of the
document, and to nothing else; if not, the pictures of the document do not change at all. -/
theorem C84_exact (grow : Nat → Nat) (d d' : MDoc) (h : d.Ok) (name : String) (i : Nat) (p : MPtr)
    (hi : d.idx name = some i) (hp : d.get name = .ok (some p)) (os : List MOp) (hs : d.steps grow os = .ok d')
    (data : Bytes) :
    (addsOf os ≤ d.room → ∃ m, d'.media[i]? = some m ∧ d'.load p = some m ∧
      (d'.store p data).media = d'.media.set i { m with data := data }) ∧
    (d.room < addsOf os → (d'.store p data).media = d'.media) := by
  have hpe : i < d.slc.len ∧ p = ⟨d.slc.arr, d.slc.off + i⟩ := by
    unfold MDoc.get at hp
    rw [hi] at hp
    simp only at hp
    split at hp
    · rename_i hl
      injection hp with hp
      injection hp with hp
      exact ⟨hl, hp.symm⟩
    · cases hp
  obtain ⟨hl, rfl⟩ := hpe
  obtain ⟨h0, h1, h2, _⟩ := steps_header grow os h hs
  constructor
  · intro hr
    obtain ⟨e1, e2, e3⟩ := h1 hr
    have hm := List.getElem?_eq_getElem (l := d'.media) (i := i) (by rw [media_length h0]; omega)
    refine ⟨_, hm, ?_, ?_⟩
    · rw [← e1, ← e2, load_at h0 i (by omega), hm]
    · rw [← e1, ← e2]
      exact store_media h0 i _ hm data
  · intro hr
    have hne := h2 hr
    rcases store_eq d' ⟨d.slc.arr, d.slc.off + i⟩ data with ⟨m, _, e⟩ | ⟨_, e⟩
    · rw [e]
      unfold MDoc.media
      simp only
      rw [write_slice h0.in, if_neg]
      intro hc
      have := hc.1
      omega
    · rw [e]

/-! ## Cases that meet the hypotheses -/

/-- How Go grows a slice of pictures: 1, 2, 4, … -/
def mediaGrow (n : Nat) : Nat := if n = 0 then 1 else 2 * n

/-- A new document: an empty slice without room -/
def mediaEmpty : MDoc := ⟨[[]], ⟨0, 0, 0, 0⟩, fun _ => none⟩

example : mediaEmpty.Ok := ⟨by decide, by decide, fun a h => by injection h with h; subst h; decide⟩

/-- **The change is lost** in a new document with one picture, when a second one is added before the change. -/
theorem C84_change_lost : ∃ d p d',
    mediaEmpty.steps mediaGrow [.add ⟨"image1.png", [1]⟩] = .ok d ∧ d.get "image1.png" = .ok (some p) ∧
    d.steps mediaGrow [.add ⟨"image2.png", [2]⟩] = .ok d' ∧
    (d'.store p [9]).load p = some ⟨"image1.png", [9]⟩ ∧
    (d'.store p [9]).media = [⟨"image1.png", [1]⟩, ⟨"image2.png", [2]⟩] :=
  ⟨_, ⟨1, 0⟩, _, rfl, rfl, rfl, rfl, rfl⟩

/-- With a third picture there is room for a fourth. -/
example : ∃ d p d',
    mediaEmpty.steps mediaGrow [.add ⟨"1", [1]⟩, .add ⟨"2", [2]⟩, .add ⟨"3", [3]⟩] = .ok d ∧
    d.get "2" = .ok (some p) ∧ d.room = 1 ∧ d.steps mediaGrow [.change "1" [7], .add ⟨"4", [4]⟩] = .ok d' ∧
    (d'.store p [9]).media = [⟨"1", [7]⟩, ⟨"2", [9]⟩, ⟨"3", [3]⟩, ⟨"4", [4]⟩] :=
  ⟨_, ⟨3, 1⟩, _, rfl, rfl, rfl, rfl, rfl⟩

end Docx
