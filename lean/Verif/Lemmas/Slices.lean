import Verif.SpecSlices

/-!
# Slices of documents: what an append does to the others
-/

set_option linter.unusedSectionVars false

namespace Docx

variable {α : Type} [Inhabited α]

/-- A slice lies within its array -/
structure Slc.In (h : Arrays α) (s : Slc) : Prop where
  arr : s.arr < h.length
  len : s.len ≤ s.cap
  cap : ∀ a, h[s.arr]? = some a → s.off + s.cap ≤ a.length

theorem arr_of_in {h : Arrays α} {s : Slc} (hs : s.In h) : ∃ a, h[s.arr]? = some a ∧ s.off + s.cap ≤ a.length := by
  have := List.getElem?_eq_getElem hs.arr
  exact ⟨_, this, hs.cap _ this⟩

theorem get_eq {h : Arrays α} {s : Slc} {a : List α} (ha : h[s.arr]? = some a) : h.get s = (a.drop s.off).take s.len := by
  simp [Arrays.get, ha]

theorem get_length {h : Arrays α} {s : Slc} (hs : s.In h) : (h.get s).length = s.len := by
  obtain ⟨a, ha, hc⟩ := arr_of_in hs
  rw [get_eq ha, List.length_take, List.length_drop]
  have := hs.len
  omega

theorem get_getElem? {h : Arrays α} {s : Slc} {a : List α} (ha : h[s.arr]? = some a) (i : Nat) :
    (h.get s)[i]? = if i < s.len then a[s.off + i]? else none := by
  rw [get_eq ha, List.getElem?_take]
  split <;> simp

/-! ## New arrays -/

theorem alloc_in (h : Arrays α) (xs : List α) (cap : Nat) : (h.alloc xs cap).2.In (h.alloc xs cap).1 := by
  refine ⟨by simp [Arrays.alloc], by simp [Arrays.alloc]; omega, ?_⟩
  intro a ha
  simp only [Arrays.alloc] at ha ⊢
  rw [List.getElem?_append_right (Nat.le_refl _)] at ha
  simp at ha
  subst ha
  simp only [List.length_append, List.length_replicate]
  omega

theorem alloc_get (h : Arrays α) (xs : List α) (cap : Nat) : (h.alloc xs cap).1.get (h.alloc xs cap).2 = xs := by
  have ha : (h.alloc xs cap).1[(h.alloc xs cap).2.arr]? = some (xs ++ List.replicate (cap - xs.length) default) := by
    simp [Arrays.alloc]
  rw [get_eq ha]
  simp [Arrays.alloc]

theorem alloc_old {h : Arrays α} {s : Slc} (hs : s.In h) (xs : List α) (cap : Nat) :
    s.In (h.alloc xs cap).1 ∧ (h.alloc xs cap).1.get s = h.get s ∧ s.arr ≠ (h.alloc xs cap).2.arr := by
  have e : (h.alloc xs cap).1[s.arr]? = h[s.arr]? := by
    simp only [Arrays.alloc]; rw [List.getElem?_append_left hs.arr]
  refine ⟨⟨?_, hs.len, ?_⟩, ?_, ?_⟩
  · have := hs.arr; simp only [Arrays.alloc, List.length_append, List.length_cons, List.length_nil]; omega
  · intro a ha; exact hs.cap a (by rw [← e]; exact ha)
  · simp only [Arrays.get, e]
  · have := hs.arr; simp only [Arrays.alloc]; omega

/-! ## Writing in place -/

theorem write_at {h : Arrays α} {k i : Nat} {x : α} (j : Nat) :
    (h.modify k (·.set i x))[j]? = if k = j then (h[j]?).map (·.set i x) else h[j]? := by
  rw [List.getElem?_modify]
  by_cases e : k = j
  · rw [if_pos e]; cases h[j]? <;> simp [e]
  · rw [if_neg e]; cases h[j]? <;> simp [e]

theorem write_in {h : Arrays α} {k i : Nat} {x : α} {s : Slc} (hs : s.In h) : s.In (h.modify k (·.set i x)) := by
  refine ⟨by simpa using hs.arr, hs.len, ?_⟩
  intro a ha
  rw [write_at] at ha
  split at ha
  · simp only [Option.map_eq_some_iff] at ha
    obtain ⟨b, hb, rfl⟩ := ha
    simpa using hs.cap b hb
  · exact hs.cap a ha

/-- What a write in an array does to a slice -/
theorem write_slice {h : Arrays α} {k i : Nat} {x : α} {s : Slc} (hs : s.In h) :
    Arrays.get (h.modify k (·.set i x)) s =
      if k = s.arr ∧ s.off ≤ i ∧ i < s.off + s.len then (h.get s).set (i - s.off) x else h.get s := by
  obtain ⟨a, ha, hc⟩ := arr_of_in hs
  have hl := hs.len
  by_cases e : k = s.arr
  · have hb : (h.modify k (·.set i x))[s.arr]? = some (a.set i x) := by rw [write_at, if_pos e, ha]; rfl
    apply List.ext_getElem?
    intro n
    rw [get_getElem? hb]
    by_cases hw : k = s.arr ∧ s.off ≤ i ∧ i < s.off + s.len
    · rw [if_pos hw]
      obtain ⟨_, h1, h2⟩ := hw
      rw [List.getElem?_set, List.getElem?_set, get_length hs, get_getElem? ha]
      by_cases hn : n < s.len
      · rw [if_pos hn, if_pos hn]
        by_cases hi : i = s.off + n
        · rw [if_pos hi, if_pos (by omega), if_pos (by omega), if_pos (by omega)]
        · rw [if_neg hi, if_neg (by omega)]
      · rw [if_neg hn, if_neg hn]
        split
        · rw [if_neg (by omega)]
        · rfl
    · rw [if_neg hw, get_getElem? ha]
      by_cases hn : n < s.len
      · rw [if_pos hn, if_pos hn, List.getElem?_set, if_neg]
        intro hi
        exact hw ⟨e, by omega, by omega⟩
      · rw [if_neg hn, if_neg hn]
  · have hb : (h.modify k (·.set i x))[s.arr]? = h[s.arr]? := by rw [write_at, if_neg e]
    rw [if_neg (fun hw => e hw.1)]
    simp only [Arrays.get, hb]

/-! ## Append -/

theorem append_place (grow : Nat → Nat) {h : Arrays α} {s : Slc} (hr : s.len < s.cap) (x : α) :
    h.append grow s x = (h.modify s.arr (·.set (s.off + s.len) x), { s with len := s.len + 1 }) := by
  simp [Arrays.append, hr]

theorem append_grown (grow : Nat → Nat) {h : Arrays α} {s : Slc} (hr : ¬ s.len < s.cap) (x : α) :
    h.append grow s x = h.alloc (h.get s ++ [x]) (grow s.len) := by
  simp [Arrays.append, hr]

theorem append_in (grow : Nat → Nat) {h : Arrays α} {s : Slc} (hs : s.In h) (x : α) :
    (h.append grow s x).2.In (h.append grow s x).1 := by
  by_cases hr : s.len < s.cap
  · rw [append_place grow hr]
    have := write_in (k := s.arr) (i := s.off + s.len) (x := x) hs
    exact ⟨this.arr, by simp only; omega, this.cap⟩
  · rw [append_grown grow hr]; exact alloc_in _ _ _

theorem append_keeps_in (grow : Nat → Nat) {h : Arrays α} {s t : Slc} (ht : t.In h) (x : α) :
    t.In (h.append grow s x).1 := by
  by_cases hr : s.len < s.cap
  · rw [append_place grow hr]; exact write_in ht
  · rw [append_grown grow hr]; exact (alloc_old ht _ _).1

/-- The slice itself gets the element at its end -/
theorem append_self (grow : Nat → Nat) {h : Arrays α} {s : Slc} (hs : s.In h) (x : α) :
    (h.append grow s x).1.get (h.append grow s x).2 = h.get s ++ [x] := by
  by_cases hr : s.len < s.cap
  · rw [append_place grow hr]
    obtain ⟨a, ha, hc⟩ := arr_of_in hs
    have hb : (h.modify s.arr (·.set (s.off + s.len) x))[s.arr]? = some (a.set (s.off + s.len) x) := by
      rw [write_at, if_pos rfl, ha]; rfl
    apply List.ext_getElem?
    intro n
    rw [get_getElem? (s := { s with len := s.len + 1 }) hb, List.getElem?_append, get_length hs, get_getElem? ha]
    simp only
    by_cases h1 : n < s.len
    · rw [if_pos (by omega), if_pos h1, if_pos h1, List.getElem?_set, if_neg (by omega)]
    · rw [if_neg h1]
      by_cases h2 : n = s.len
      · subst h2
        rw [if_pos (by omega), List.getElem?_set, if_pos rfl, if_pos (by omega)]
        simp
      · rw [if_neg (by omega), List.getElem?_eq_none (by simp; omega)]
  · rw [append_grown grow hr]; exact alloc_get _ _ _

/-- What an append does to another slice -/
theorem append_other (grow : Nat → Nat) {h : Arrays α} {s t : Slc} (ht : t.In h) (x : α) :
    (h.append grow s x).1.get t =
      if s.arr = t.arr ∧ s.len < s.cap ∧ t.off ≤ s.off + s.len ∧ s.off + s.len < t.off + t.len then
        (h.get t).set (s.off + s.len - t.off) x else h.get t := by
  by_cases hr : s.len < s.cap
  · rw [append_place grow hr, write_slice ht]
    by_cases e : s.arr = t.arr ∧ t.off ≤ s.off + s.len ∧ s.off + s.len < t.off + t.len
    · rw [if_pos e, if_pos ⟨e.1, hr, e.2⟩]
    · rw [if_neg e, if_neg (fun h => e ⟨h.1, h.2.2⟩)]
  · rw [append_grown grow hr, (alloc_old ht _ _).2.1, if_neg (fun h => hr h.2.1)]

/-! ## All histories -/

/-- All slices lie within their arrays -/
def SWorld.Ok (w : SWorld α) : Prop := ∀ s ∈ w.docs, s.In w.arrs

theorem mem_set {β : Type} {l : List β} {i : Nat} {x y : β} (h : y ∈ l.set i x) : y = x ∨ y ∈ l :=
  (List.mem_or_eq_of_mem_set h).symm

theorem sub_in {h : Arrays α} {s t : Slc} (hs : s.In h) {a b c : Nat} (ht : s.sub a b c = some t) :
    t.In h ∧ a ≤ b ∧ b ≤ c ∧ c ≤ s.cap ∧ t = ⟨s.arr, s.off + a, b - a, c - a⟩ := by
  unfold Slc.sub at ht
  split at ht
  · rename_i hc
    obtain ⟨h1, h2, h3⟩ := hc
    obtain rfl := Option.some.inj ht
    refine ⟨⟨hs.arr, by simp only; omega, ?_⟩, h1, h2, h3, rfl⟩
    intro x hx
    have := hs.cap x hx
    simp only
    omega
  · cases ht

theorem step_ok (grow : Nat → Nat) {w w' : SWorld α} (h : w.Ok) {o : SOp α} (hs : w.step grow o = some w') : w'.Ok := by
  cases o with
  | fresh xs cap =>
    simp only [SWorld.step, Option.some.injEq] at hs
    subst hs
    intro s hm
    simp only [List.mem_append, List.mem_singleton] at hm
    rcases hm with hm | rfl
    · exact (alloc_old (h s hm) xs cap).1
    · exact alloc_in _ _ _
  | load d a b c =>
    simp only [SWorld.step, Option.bind_eq_bind, Option.bind_eq_some_iff, Option.some.injEq] at hs
    obtain ⟨s, h1, t, h2, rfl⟩ := hs
    intro u hm
    simp only [List.mem_append, List.mem_singleton] at hm
    rcases hm with hm | rfl
    · exact h u hm
    · exact (sub_in (h s (List.mem_of_getElem? h1)) h2).1
  | push d x =>
    simp only [SWorld.step, Option.bind_eq_bind, Option.bind_eq_some_iff, Option.some.injEq] at hs
    obtain ⟨s, h1, rfl⟩ := hs
    intro u hm
    rcases mem_set hm with rfl | hm
    · exact append_in grow (h s (List.mem_of_getElem? h1)) x
    · exact append_keeps_in grow (h u hm) x
  | keep d p =>
    simp only [SWorld.step, Option.bind_eq_bind, Option.bind_eq_some_iff, Option.some.injEq] at hs
    obtain ⟨s, h1, rfl⟩ := hs
    intro u hm
    rcases mem_set hm with rfl | hm
    · exact alloc_in _ _ _
    · exact (alloc_old (h u hm) _ _).1

theorem all_ok {grow : Nat → Nat} {w : SWorld α} (h : SAll grow w) : w.Ok := by
  induction h with
  | start => intro s hm; simp at hm
  | step _ hs ih => exact step_ok grow ih hs

theorem reach_all {grow : Nat → Nat} {w : SWorld α} (h : SReach grow w) : SAll grow w := by
  induction h with
  | start => exact .start
  | step _ _ hs ih => exact .step ih hs

/-! ## Clipped slices -/

/-- Of two slices in one array only one has room, and it reaches at least as far as the other -/
def SWorld.Apart (w : SWorld α) : Prop :=
  ∀ (d e : Nat) s t, d ≠ e → w.docs[d]? = some s → w.docs[e]? = some t → s.arr = t.arr → s.len < s.cap →
    t.len = t.cap ∧ t.off + t.len ≤ s.off + s.len

theorem append_apart {w : SWorld α} (h : w.Apart) {h' : Arrays α} {n : Slc}
    (h1 : ∀ (d : Nat) s, w.docs[d]? = some s → s.arr = n.arr → s.len < s.cap → n.len = n.cap ∧ n.off + n.len ≤ s.off + s.len)
    (h2 : ∀ (d : Nat) s, w.docs[d]? = some s → s.arr = n.arr → n.len < n.cap → s.len = s.cap ∧ s.off + s.len ≤ n.off + n.len) :
    SWorld.Apart ⟨h', w.docs ++ [n]⟩ := by
  intro d e s t hne hd he ha hr
  simp only [List.getElem?_append] at hd he
  split at hd
  · split at he
    · exact h d e s t hne hd he ha hr
    · simp only [List.getElem?_singleton] at he
      split at he
      · obtain rfl := Option.some.inj he; exact h1 d s hd ha hr
      · cases he
  · simp only [List.getElem?_singleton] at hd
    split at hd
    · obtain rfl := Option.some.inj hd
      split at he
      · exact h2 e t he ha.symm hr
      · simp only [List.getElem?_singleton] at he
        split at he
        · omega
        · cases he
    · cases hd

theorem set_apart {w : SWorld α} (h : w.Apart) {h' : Arrays α} {k : Nat} {n : Slc}
    (h1 : ∀ (d : Nat) s, d ≠ k → w.docs[d]? = some s → s.arr = n.arr → s.len < s.cap → n.len = n.cap ∧ n.off + n.len ≤ s.off + s.len)
    (h2 : ∀ (d : Nat) s, d ≠ k → w.docs[d]? = some s → s.arr = n.arr → n.len < n.cap → s.len = s.cap ∧ s.off + s.len ≤ n.off + n.len) :
    SWorld.Apart ⟨h', w.docs.set k n⟩ := by
  intro d e s t hne hd he ha hr
  simp only [List.getElem?_set] at hd he
  split at hd
  · split at hd
    · obtain rfl := Option.some.inj hd
      rename_i hk _
      split at he
      · omega
      · exact h2 e t (by omega) he ha.symm hr
    · cases hd
  · rename_i hk
    split at he
    · split at he
      · obtain rfl := Option.some.inj he
        exact h1 d s (by omega) hd ha hr
      · cases he
    · exact h d e s t hne hd he ha hr

theorem step_apart (grow : Nat → Nat) {w w' : SWorld α} (ok : w.Ok) (h : w.Apart) {o : SOp α} (hc : o.Clipped w)
    (hs : w.step grow o = some w') : w'.Apart := by
  have fresh : ∀ xs cap (d : Nat) s, w.docs[d]? = some s → s.arr ≠ (w.arrs.alloc xs cap).2.arr := fun xs cap d s hd =>
    (alloc_old (ok s (List.mem_of_getElem? hd)) xs cap).2.2
  cases o with
  | fresh xs cap =>
    simp only [SWorld.step, Option.some.injEq] at hs
    subst hs
    exact append_apart h (fun d s hd ha => absurd ha (fresh xs cap d s hd)) (fun d s hd ha => absurd ha (fresh xs cap d s hd))
  | load d a b c =>
    simp only [SWorld.step, Option.bind_eq_bind, Option.bind_eq_some_iff, Option.some.injEq] at hs
    obtain ⟨s, h1, t, h2, rfl⟩ := hs
    obtain ⟨rfl, hb⟩ := hc
    obtain ⟨_, e1, e2, e3, rfl⟩ := sub_in (ok s (List.mem_of_getElem? h1)) h2
    have hb' := hb s h1
    refine append_apart h ?_ ?_
    · intro k u hk ha hr
      refine ⟨rfl, ?_⟩
      simp only at ha ⊢
      by_cases e : k = d
      · subst e
        rw [h1] at hk
        obtain rfl := Option.some.inj hk
        omega
      · have := (h k d u s e hk h1 ha hr).2
        omega
    · intro k u hk ha hr
      simp only at hr
      omega
  | push d x =>
    simp only [SWorld.step, Option.bind_eq_bind, Option.bind_eq_some_iff, Option.some.injEq] at hs
    obtain ⟨s, h1, rfl⟩ := hs
    by_cases hr : s.len < s.cap
    · rw [append_place grow hr]
      refine set_apart h ?_ ?_
      · intro k u hk hd ha hu
        have := (h d k s u (Ne.symm hk) h1 hd ha.symm hr).1
        omega
      · intro k u hk hd ha _
        have := h d k s u (Ne.symm hk) h1 hd ha.symm hr
        simp only
        omega
    · rw [append_grown grow hr]
      exact set_apart h (fun d s _ hd ha => absurd ha (fresh _ _ d s hd)) (fun d s _ hd ha => absurd ha (fresh _ _ d s hd))
  | keep d p =>
    simp only [SWorld.step, Option.bind_eq_bind, Option.bind_eq_some_iff, Option.some.injEq] at hs
    obtain ⟨s, h1, rfl⟩ := hs
    exact set_apart h (fun d s _ hd ha => absurd ha (fresh _ _ d s hd)) (fun d s _ hd ha => absurd ha (fresh _ _ d s hd))

theorem reach_apart {grow : Nat → Nat} {w : SWorld α} (h : SReach grow w) : w.Apart := by
  induction h with
  | start => intro d e s t _ hd; simp at hd
  | step h hc hs ih => exact step_apart grow (all_ok (reach_all h)) ih hc hs

/-! ## Lists -/

theorem lists_get (w : SWorld α) (d : Nat) : w.lists[d]? = (w.docs[d]?).map w.arrs.get := by
  simp [SWorld.lists]

/-- Setting one document while the lists of the others stay is changing one list -/
theorem lists_set {w : SWorld α} {h' : Arrays α} {d : Nat} {s n : Slc} {f : List α → List α} (hd : w.docs[d]? = some s)
    (hn : h'.get n = f (w.arrs.get s)) (ho : ∀ (e : Nat) t, e ≠ d → w.docs[e]? = some t → h'.get t = w.arrs.get t) :
    SWorld.lists ⟨h', w.docs.set d n⟩ = w.lists.modify d f := by
  apply List.ext_getElem?
  intro e
  rw [lists_get, List.getElem?_modify, lists_get]
  simp only [List.getElem?_set]
  by_cases e1 : d = e
  · subst e1
    have : d < w.docs.length := (List.getElem?_eq_some_iff.1 hd).1
    rw [if_pos rfl, if_pos this, hd]
    simp [hn]
  · rw [if_neg e1]
    cases he : w.docs[e]? with
    | none => simp
    | some t => simp [e1, ho e t (Ne.symm e1) he]

end Docx
