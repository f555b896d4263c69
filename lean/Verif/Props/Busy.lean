import Verif.SpecBusy
import Verif.Props.Conc
import Verif.Props.Ids

/-!
# C83: building one document from several goroutines
-/

namespace Docx

/-! ## The counters -/

/-- The four counters of a document -/
inductive Ctr where
  | rid | image | drawing | number

def Doc.ctr (f : Doc) : Ctr → UInt64
  | .rid => f.rID
  | .image => f.imageID
  | .drawing => f.docID
  | .number => f.slowIDs picName

/-- The numbers a call has taken -/
def BMade.took : BMade → Ctr → List UInt64
  | .item _, _ => []
  | .link _ n, .rid => [n]
  | .link _ _, _ => []
  | .picture _ _ _ _ _ n, .rid => [n]
  | .picture _ _ _ _ i _, .image => [i]
  | .picture _ _ d _ _ _, .drawing => [d]
  | .picture _ _ _ k _ _, .number => [k]

def BPc.took : BPc → Ctr → List UInt64
  | .linkNo _ n, .rid => [n]
  | .linkRead _ n _, .rid => [n]
  | .picRid _ _ _ _ _ n, .rid => [n]
  | .picRels _ _ _ _ _ n _, .rid => [n]
  | .picImg _ _ _ _ i, .image => [i]
  | .picLen _ _ _ _ i _, .image => [i]
  | .picIdx _ _ _ _ i, .image => [i]
  | .picMedia _ _ _ _ i _, .image => [i]
  | .picPut _ _ _ _ i, .image => [i]
  | .picRid _ _ _ _ i _, .image => [i]
  | .picRels _ _ _ _ i _ _, .image => [i]
  | .picDoc _ _ d, .drawing => [d]
  | .picNo _ _ d _, .drawing => [d]
  | .picImg _ _ d _ _, .drawing => [d]
  | .picLen _ _ d _ _ _, .drawing => [d]
  | .picIdx _ _ d _ _, .drawing => [d]
  | .picMedia _ _ d _ _ _, .drawing => [d]
  | .picPut _ _ d _ _, .drawing => [d]
  | .picRid _ _ d _ _ _, .drawing => [d]
  | .picRels _ _ d _ _ _ _, .drawing => [d]
  | .picNo _ _ _ k, .number => [k]
  | .picImg _ _ _ k _, .number => [k]
  | .picLen _ _ _ k _ _, .number => [k]
  | .picIdx _ _ _ k _, .number => [k]
  | .picMedia _ _ _ k _ _, .number => [k]
  | .picPut _ _ _ k _, .number => [k]
  | .picRid _ _ _ k _ _, .number => [k]
  | .picRels _ _ _ k _ _ _, .number => [k]
  | _, _ => []

def tookOut : BPc ⊕ BMade → Ctr → List UInt64
  | .inl p => p.took
  | .inr m => m.took

def BThread.took (c : Ctr) (th : BThread) : List UInt64 :=
  match th.now with
  | none => []
  | some (_, p) => p.took c

def Busy.took (s : Busy) (c : Ctr) : List UInt64 :=
  (s.done.flatMap fun e => e.2.2.took c) ++ s.threads.flatMap (BThread.took c)

/-- A step takes no number of a counter, or the next one. -/
theorem next_took (f : Doc) (p : BPc) (c : Ctr) :
    ((p.next f).1.ctr c = f.ctr c ∧ tookOut (p.next f).2 c = p.took c) ∨
    ((p.next f).1.ctr c = f.ctr c + 1 ∧ p.took c = [] ∧ tookOut (p.next f).2 c = [f.ctr c + 1]) := by
  cases p <;> cases c <;>
    first
    | exact .inl ⟨rfl, rfl⟩
    | exact .inr ⟨rfl, rfl, rfl⟩
    | exact .inr ⟨by simp [BPc.next, Doc.increaseID, Doc.ctr, upd], rfl, rfl⟩

def CtrInv (f : Doc) (c : Ctr) (s : Busy) : Prop :=
  s.doc.ctr c = f.ctr c + UInt64.ofNat (s.took c).length ∧
    (s.took c).Perm ((List.range (s.took c).length).map fun j => f.ctr c + UInt64.ofNat (j + 1))

theorem ctrInv_of {f : Doc} {c : Ctr} {s s' : Busy} (h : CtrInv f c s)
    (hs : (s'.doc.ctr c = s.doc.ctr c ∧ (s'.took c).Perm (s.took c)) ∨
      (s'.doc.ctr c = s.doc.ctr c + 1 ∧ (s'.took c).Perm (s.took c ++ [s.doc.ctr c + 1]))) : CtrInv f c s' := by
  obtain ⟨h1, h2⟩ := h
  rcases hs with ⟨e, hp⟩ | ⟨e, hp⟩
  · exact ⟨by rw [e, h1, hp.length_eq], by rw [hp.length_eq]; exact hp.trans h2⟩
  · have hl : (s'.took c).length = (s.took c).length + 1 := by rw [hp.length_eq]; simp
    have hn : s.doc.ctr c + 1 = f.ctr c + UInt64.ofNat ((s.took c).length + 1) := by
      rw [h1, UInt64.add_assoc, UInt64.ofNat_add]; rfl
    refine ⟨by rw [e, hl, hn], ?_⟩
    rw [hl, List.range_succ, List.map_append, List.map_cons, List.map_nil, ← hn]
    exact hp.trans (h2.append_right _)

/-- What a thread is about to be after a step -/
theorem took_set {s : Busy} {t : Nat} {th th' : BThread} {c : Ctr} (hth : s.threads[t]? = some th) :
    (th.took c ++ (s.threads.set t th').flatMap (BThread.took c)).Perm
      (th'.took c ++ s.threads.flatMap (BThread.took c)) :=
  flatMap_set_perm hth

theorem perm_snoc {α : Type} (l : List α) (a : α) : (a :: l).Perm (l ++ [a]) :=
  (List.perm_append_comm (l₁ := [a]) (l₂ := l))

theorem after_took (s : Busy) (t : Nat) (th : BThread) (call : BCall) (p : BPc) (c : Ctr)
    (hth : s.threads[t]? = some th) (hnow : th.now = some (call, p)) (f : Doc) (o : BPc ⊕ BMade) (l : List UInt64)
    (ho : tookOut o c = p.took c ++ l) (hl : p.took c = [] ∨ l = []) :
    ((s.after t th call (f, o)).took c).Perm (s.took c ++ l) := by
  have e1 : th.took c = p.took c := by simp only [BThread.took, hnow]
  cases o with
  | inl p' =>
    have hp := took_set (c := c) (th' := { th with now := some (call, p') }) hth
    have e2 : BThread.took c { th with now := some (call, p') } = p.took c ++ l := ho
    rw [e1, e2, List.append_assoc] at hp
    have hp := List.perm_append_left_iff _ |>.1 hp
    simp only [Busy.took, Busy.after, List.append_assoc]
    exact (hp.append_left _).trans (List.perm_append_comm.append_left _)
  | inr m =>
    have hp := took_set (c := c) (th' := { th with now := none }) hth
    have e2 : BThread.took c { th with now := none } = [] := rfl
    rw [e1, e2, List.nil_append] at hp
    have ho : m.took c = p.took c ++ l := ho
    simp only [Busy.took, Busy.after, List.flatMap_append, List.flatMap_cons, List.flatMap_nil, List.append_nil,
      List.append_assoc, ho]
    refine List.Perm.append_left _ ?_
    refine (List.perm_append_comm_assoc _ _ _).trans ?_
    exact (hp.append_left l).trans List.perm_append_comm

theorem ctrInv_step {f : Doc} {c : Ctr} {s s' : Busy} {t : Nat} (hi : CtrInv f c s) (h : busyStep s t = some s') :
    CtrInv f c s' := by
  unfold busyStep at h
  split at h
  · cases h
  · rename_i th hth
    split at h
    · rename_i hnow
      split at h
      · cases h
      · rename_i call rest htodo
        injection h with h; subst h
        refine ctrInv_of hi (.inl ⟨rfl, ?_⟩)
        have hp := took_set (c := c) (th' := ⟨rest, some (call, call.enter)⟩) hth
        have e1 : th.took c = [] := by simp only [BThread.took, hnow]
        have e2 : BThread.took c ⟨rest, some (call, call.enter)⟩ = [] := by
          cases call <;> cases c <;> rfl
        rw [e1, e2, List.nil_append, List.nil_append] at hp
        exact hp.append_left _
    · rename_i call p hnow
      injection h with h; subst h
      have hd : (s.after t th call (p.next s.doc)).doc = (p.next s.doc).1 := by
        rcases p.next s.doc with ⟨f, o⟩; cases o <;> rfl
      refine ctrInv_of hi ?_
      rcases next_took s.doc p c with ⟨h1, h2⟩ | ⟨h1, h2, h3⟩
      · refine .inl ⟨by rw [hd, h1], ?_⟩
        have := after_took s t th call p c hth hnow (p.next s.doc).1 (p.next s.doc).2 [] (by rw [h2]; simp) (.inr rfl)
        simpa using this
      · refine .inr ⟨by rw [hd, h1], ?_⟩
        exact after_took s t th call p c hth hnow (p.next s.doc).1 (p.next s.doc).2 _ (by rw [h2, h3]; rfl) (.inl h2)

theorem busyRun_inv {P : Busy → Prop} (hs : ∀ s s' t, P s → busyStep s t = some s' → P s') {s : Busy} (h : P s)
    (sched : List Nat) : P (busyRun s sched) := by
  induction sched generalizing s with
  | nil => exact h
  | cons t ts ih =>
    refine ih ?_
    cases he : busyStep s t with
    | none => exact h
    | some s' => exact hs _ _ _ h he

theorem took_start (f : Doc) (calls : List (List BCall)) (c : Ctr) : (busyStart f calls).took c = [] := by
  simp only [Busy.took, busyStart, List.flatMap_nil, List.nil_append, List.flatMap_eq_nil_iff]
  intro th hth
  simp only [List.mem_map] at hth
  obtain ⟨c, _, rfl⟩ := hth; rfl

theorem ctr_run (f : Doc) (calls : List (List BCall)) (sched : List Nat) (c : Ctr) :
    CtrInv f c (busyRun (busyStart f calls) sched) := by
  refine busyRun_inv (fun s s' t h => ctrInv_step h) ?_ sched
  refine ⟨?_, ?_⟩ <;> rw [took_start] <;> simp [busyStart]

theorem took_nodup (f : Doc) (calls : List (List BCall)) (sched : List Nat) (c : Ctr)
    (hn : ((busyRun (busyStart f calls) sched).took c).length < 2 ^ 64) :
    ((busyRun (busyStart f calls) sched).took c).Nodup := by
  have h := (ctr_run f calls sched c).2
  rw [h.nodup_iff, List.nodup_iff_pairwise_ne, List.pairwise_map]
  refine List.Pairwise.imp_of_mem ?_ (List.nodup_range (n := _))
  intro i j hi hj hne e
  simp only [List.mem_range] at hi hj
  have e := congrArg UInt64.toNat (UInt64.add_right_inj _ |>.1 e)
  rw [UInt64.toNat_ofNat', UInt64.toNat_ofNat'] at e
  omega

/-! ## The calls -/

theorem calls_step {s s' : Busy} {t : Nat} (h : busyStep s t = some s') :
    ((s'.done.map fun e => e.2.1) ++ s'.threads.flatMap BThread.left).Perm
      ((s.done.map fun e => e.2.1) ++ s.threads.flatMap BThread.left) := by
  unfold busyStep at h
  split at h
  · cases h
  · rename_i th hth
    split at h
    · rename_i hnow
      split at h
      · cases h
      · rename_i call rest htodo
        injection h with h; subst h
        have hp := flatMap_set_perm (g := BThread.left) (b := ⟨rest, some (call, call.enter)⟩) hth
        have e1 : th.left = call :: rest := by simp only [BThread.left, hnow, htodo]
        have e2 : BThread.left ⟨rest, some (call, call.enter)⟩ = call :: rest := rfl
        rw [e1, e2] at hp
        exact (List.perm_append_left_iff _ |>.1 hp).append_left _
    · rename_i call p hnow
      injection h with h; subst h
      have e1 : th.left = call :: th.todo := by simp only [BThread.left, hnow]
      rcases p.next s.doc with ⟨f, o⟩
      cases o with
      | inl p' =>
        have hp := flatMap_set_perm (g := BThread.left) (b := { th with now := some (call, p') }) hth
        have e2 : BThread.left { th with now := some (call, p') } = call :: th.todo := rfl
        rw [e1, e2] at hp
        exact (List.perm_append_left_iff _ |>.1 hp).append_left _
      | inr m =>
        have hp := flatMap_set_perm (g := BThread.left) (b := { th with now := none }) hth
        have e2 : BThread.left { th with now := none } = th.todo := rfl
        rw [e1, e2] at hp
        have hp : (th.todo ++ (call :: (s.threads.set t { th with now := none }).flatMap BThread.left)).Perm
            (th.todo ++ s.threads.flatMap BThread.left) := by
          refine List.perm_middle.trans ?_
          simpa using hp
        have hp := List.perm_append_left_iff _ |>.1 hp
        simp only [Busy.after, List.map_append, List.map_cons, List.map_nil, List.append_assoc, List.cons_append,
          List.nil_append]
        exact hp.append_left _

/-- Every call is made once: the calls that have returned and those that have not are, up to order, the calls
the goroutines were given. -/
theorem C83_calls (f : Doc) (calls : List (List BCall)) (sched : List Nat) :
    (((busyRun (busyStart f calls) sched).done.map fun e => e.2.1) ++
      (busyRun (busyStart f calls) sched).threads.flatMap BThread.left).Perm calls.flatten := by
  refine busyRun_inv (P := fun s => ((s.done.map fun e => e.2.1) ++ s.threads.flatMap BThread.left).Perm
    calls.flatten) (fun s s' t h hs => (calls_step hs).trans h) ?_ sched
  have : (busyStart f calls).threads.flatMap BThread.left = calls.flatten := by
    simp only [busyStart, List.flatMap_map]
    induction calls with
    | nil => rfl
    | cons c cs ih => rw [List.flatMap_cons, List.flatten_cons, ih]; rfl
  rw [this]
  exact .refl _

theorem took_le_one (p : BPc) (c : Ctr) : (p.took c).length ≤ 1 := by
  cases p <;> cases c <;> simp [BPc.took]

theorem made_took_le_one (m : BMade) (c : Ctr) : (m.took c).length ≤ 1 := by
  cases m <;> cases c <;> simp [BMade.took]

theorem flatMap_le {α β γ : Type} (g : α → List β) (g' : α → List γ) (h : ∀ a, (g a).length ≤ (g' a).length) :
    ∀ l : List α, (l.flatMap g).length ≤ (l.flatMap g').length
  | [] => Nat.le_refl _
  | a :: l => by
    simp only [List.flatMap_cons, List.length_append]
    exact Nat.add_le_add (h a) (flatMap_le g g' h l)

/-- No more numbers are taken than calls made. -/
theorem took_le (f : Doc) (calls : List (List BCall)) (sched : List Nat) (c : Ctr) :
    ((busyRun (busyStart f calls) sched).took c).length ≤ calls.flatten.length := by
  rw [← (C83_calls f calls sched).length_eq]
  simp only [Busy.took, List.length_append]
  refine Nat.add_le_add ?_ ?_
  · rw [List.map_eq_flatMap]
    exact flatMap_le _ _ (fun e => made_took_le_one _ _) _
  · refine flatMap_le _ _ (fun th => ?_) _
    unfold BThread.took BThread.left
    cases th.now with
    | none => exact Nat.zero_le _
    | some e => exact Nat.le_trans (took_le_one _ _) (by simp)

/-! ## The lists -/

/-- A list of a document that calls append to -/
structure Shelf (α : Type) where
  get : Doc → List α
  snap : BPc → Option (List α)
  put : BPc → List α
  made : BMade → List α

def Shelf.snapOut {α : Type} (S : Shelf α) : BPc ⊕ BMade → Option (List α)
  | .inl p => S.snap p
  | .inr _ => none

def Shelf.putOut {α : Type} (S : Shelf α) : BPc ⊕ BMade → List α
  | .inl p => S.put p
  | .inr m => S.made m

/-- A step leaves the list alone, and may look at it; or it writes what the call saw and one entry more. -/
structure Shelf.Law {α : Type} (S : Shelf α) : Prop where
  step : ∀ (f : Doc) (p : BPc),
    (S.get (p.next f).1 = S.get f ∧ S.putOut (p.next f).2 = S.put p ∧
      ∀ l, S.snapOut (p.next f).2 = some l → l = S.get f ∨ S.snap p = some l) ∨
    (∃ old x, S.snap p = some old ∧ S.get (p.next f).1 = old ++ [x] ∧ S.put p = [] ∧
      S.putOut (p.next f).2 = [x] ∧ S.snapOut (p.next f).2 = none)
  enter : ∀ c : BCall, S.snap c.enter = none ∧ S.put c.enter = []

def Shelf.putBy {α : Type} (S : Shelf α) (th : BThread) : List α :=
  match th.now with
  | none => []
  | some (_, p) => S.put p

/-- The entries written so far -/
def Shelf.all {α : Type} (S : Shelf α) (s : Busy) : List α :=
  (s.done.flatMap fun e => S.made e.2.2) ++ s.threads.flatMap S.putBy

/-- Every list seen is what there was and some of the entries written, in the order of the writes. -/
def Shelf.Inv {α : Type} (S : Shelf α) (f : Doc) (s : Busy) : Prop :=
  ∃ ws : List α, ws.Perm (S.all s) ∧ (S.get s.doc).Sublist (S.get f ++ ws) ∧
    ∀ th ∈ s.threads, ∀ c p l, th.now = some (c, p) → S.snap p = some l → l.Sublist (S.get f ++ ws)

theorem Shelf.all_after {α : Type} (S : Shelf α) (s : Busy) (t : Nat) (th : BThread) (call : BCall) (p : BPc)
    (hth : s.threads[t]? = some th) (hnow : th.now = some (call, p)) (f : Doc) (o : BPc ⊕ BMade) (l : List α)
    (ho : S.putOut o = S.put p ++ l) : (S.all (s.after t th call (f, o))).Perm (S.all s ++ l) := by
  have e1 : S.putBy th = S.put p := by simp only [Shelf.putBy, hnow]
  cases o with
  | inl p' =>
    have hp := flatMap_set_perm (g := S.putBy) (b := { th with now := some (call, p') }) hth
    have e2 : S.putBy { th with now := some (call, p') } = S.put p ++ l := ho
    rw [e1, e2, List.append_assoc] at hp
    have hp := List.perm_append_left_iff _ |>.1 hp
    simp only [Shelf.all, Busy.after, List.append_assoc]
    exact (hp.append_left _).trans (List.perm_append_comm.append_left _)
  | inr m =>
    have hp := flatMap_set_perm (g := S.putBy) (b := { th with now := none }) hth
    have e2 : S.putBy { th with now := none } = [] := rfl
    rw [e1, e2, List.nil_append] at hp
    have ho : S.made m = S.put p ++ l := ho
    simp only [Shelf.all, Busy.after, List.flatMap_append, List.flatMap_cons, List.flatMap_nil, List.append_nil,
      List.append_assoc, ho]
    refine List.Perm.append_left _ ?_
    refine (List.perm_append_comm_assoc _ _ _).trans ?_
    exact (hp.append_left l).trans List.perm_append_comm

theorem mem_set_cases {α : Type} {l : List α} {t : Nat} {a b : α} (h : a ∈ l.set t b) : a ∈ l ∨ a = b := by
  rcases List.mem_or_eq_of_mem_set h with h | h
  · exact .inl h
  · exact .inr h

theorem shelf_step {α : Type} {S : Shelf α} (L : S.Law) {f : Doc} {s s' : Busy} {t : Nat} (hi : S.Inv f s)
    (h : busyStep s t = some s') : S.Inv f s' := by
  obtain ⟨ws, hw, hg, hs⟩ := hi
  unfold busyStep at h
  split at h
  · cases h
  · rename_i th hth
    split at h
    · rename_i hnow
      split at h
      · cases h
      · rename_i call rest htodo
        injection h with h; subst h
        refine ⟨ws, hw.trans ?_, hg, ?_⟩
        · have hp := flatMap_set_perm (g := S.putBy) (b := ⟨rest, some (call, call.enter)⟩) hth
          have e1 : S.putBy th = [] := by simp only [Shelf.putBy, hnow]
          have e2 : S.putBy ⟨rest, some (call, call.enter)⟩ = [] := (L.enter call).2
          rw [e1, e2, List.nil_append, List.nil_append] at hp
          exact hp.symm.append_left _
        · intro th' hm c p l hn hl
          rcases mem_set_cases hm with hm | rfl
          · exact hs th' hm c p l hn hl
          · simp only [Option.some.injEq, Prod.mk.injEq] at hn
            obtain ⟨rfl, rfl⟩ := hn
            rw [(L.enter _).1] at hl
            cases hl
    · rename_i call p hnow
      injection h with h; subst h
      have hm0 := List.mem_of_getElem? hth
      have hd : (s.after t th call (p.next s.doc)).doc = (p.next s.doc).1 := by
        rcases p.next s.doc with ⟨f, o⟩; cases o <;> rfl
      have hthr : ∀ th' ∈ (s.after t th call (p.next s.doc)).threads, th' ∈ s.threads ∨
          ∀ c q, th'.now = some (c, q) → (p.next s.doc).2 = .inl q := by
        intro th' hm
        rcases hx : p.next s.doc with ⟨g, o⟩
        rw [hx] at hm
        cases o with
        | inl q =>
          rcases mem_set_cases hm with hm | rfl
          · exact .inl hm
          · refine .inr fun c q' hn => ?_
            simp only [Option.some.injEq, Prod.mk.injEq] at hn
            rw [hn.2]
        | inr m =>
          rcases mem_set_cases hm with hm | rfl
          · exact .inl hm
          · refine .inr fun c q' hn => ?_
            cases hn
      rcases L.step s.doc p with ⟨h1, h2, h3⟩ | ⟨old, x, h1, h2, h3, h4, h5⟩
      · refine ⟨ws, hw.trans ?_, by rw [hd, h1]; exact hg, ?_⟩
        · have := S.all_after s t th call p hth hnow (p.next s.doc).1 (p.next s.doc).2 [] (by rw [h2]; simp)
          rw [List.append_nil] at this
          exact this.symm
        · intro th' hm c q l hn hl
          rcases hthr th' hm with hm | hq
          · exact hs th' hm c q l hn hl
          · rcases h3 l (by rw [hq c q hn]; exact hl) with rfl | h
            · exact hg
            · exact hs th hm0 call p l hnow h
      · have hold := hs th hm0 call p old hnow h1
        refine ⟨ws ++ [x], ?_, ?_, ?_⟩
        · have := S.all_after s t th call p hth hnow (p.next s.doc).1 (p.next s.doc).2 [x] (by rw [h3, h4]; rfl)
          exact (hw.append_right [x]).trans this.symm
        · rw [hd, h2, ← List.append_assoc]
          exact hold.append (List.Sublist.refl _)
        · intro th' hm c q l hn hl
          rcases hthr th' hm with hm | hq
          · rw [← List.append_assoc]
            exact (hs th' hm c q l hn hl).trans (List.sublist_append_left _ _)
          · have : S.snapOut (p.next s.doc).2 = some l := by rw [hq c q hn]; exact hl
            rw [h5] at this
            cases this

theorem shelf_run {α : Type} {S : Shelf α} (L : S.Law) (f : Doc) (calls : List (List BCall)) (sched : List Nat) :
    S.Inv f (busyRun (busyStart f calls) sched) := by
  refine busyRun_inv (fun s s' t h => shelf_step L h) ?_ sched
  have h0 : ∀ th ∈ (busyStart f calls).threads, th.now = none := by
    intro th hth
    simp only [busyStart, List.mem_map] at hth
    obtain ⟨c, _, rfl⟩ := hth; rfl
  refine ⟨[], ?_, ?_, ?_⟩
  · have : S.all (busyStart f calls) = [] := by
      simp only [Shelf.all, busyStart, List.flatMap_nil, List.nil_append, List.flatMap_eq_nil_iff]
      intro th hth
      simp only [Shelf.putBy, h0 th hth]
    rw [this]
  · rw [List.append_nil]; exact List.Sublist.refl _
  · intro th hth c p l hn
    rw [h0 th hth] at hn
    cases hn

/-- The relationships -/
def relShelf : Shelf Rel where
  get := Doc.rels
  snap
    | .linkRead _ _ old => some old
    | .picRels _ _ _ _ _ _ old => some old
    | _ => none
  put _ := []
  made m := m.rel?.toList

/-- The paragraphs and tables -/
def itemShelf : Shelf BItem where
  get := Doc.items
  snap
    | .itemRead _ old => some old
    | _ => none
  put _ := []
  made m := m.item?.toList

/-- The pictures -/
def mediaShelf : Shelf Media where
  get := Doc.media
  snap
    | .picMedia _ _ _ _ _ old => some old
    | _ => none
  put
    | .picPut fmt data _ _ i => [imageMedia fmt data i]
    | .picRid fmt data _ _ i _ => [imageMedia fmt data i]
    | .picRels fmt data _ _ i _ _ => [imageMedia fmt data i]
    | _ => []
  made m := m.media?.toList

theorem relShelf_law : relShelf.Law := by
  refine ⟨fun f p => ?_, fun c => by cases c <;> exact ⟨rfl, rfl⟩⟩
  cases p with
  | linkRead url n old => exact .inr ⟨old, _, rfl, rfl, rfl, rfl, rfl⟩
  | picRels fmt data d k i n old => exact .inr ⟨old, _, rfl, rfl, rfl, rfl, rfl⟩
  | linkNo url n => exact .inl ⟨rfl, rfl, fun l h => .inl (Option.some.inj h).symm⟩
  | picRid fmt data d k i n => exact .inl ⟨rfl, rfl, fun l h => .inl (Option.some.inj h).symm⟩
  | _ => exact .inl ⟨rfl, rfl, fun l h => by cases h⟩

theorem itemShelf_law : itemShelf.Law := by
  refine ⟨fun f p => ?_, fun c => by cases c <;> exact ⟨rfl, rfl⟩⟩
  cases p with
  | itemRead x old => exact .inr ⟨old, _, rfl, rfl, rfl, rfl, rfl⟩
  | item x => exact .inl ⟨rfl, rfl, fun l h => .inl (Option.some.inj h).symm⟩
  | _ => exact .inl ⟨rfl, rfl, fun l h => by cases h⟩

theorem mediaShelf_law : mediaShelf.Law := by
  refine ⟨fun f p => ?_, fun c => by cases c <;> exact ⟨rfl, rfl⟩⟩
  cases p with
  | picMedia fmt data d k i old => exact .inr ⟨old, _, rfl, rfl, rfl, rfl, rfl⟩
  | picIdx fmt data d k i => exact .inl ⟨rfl, rfl, fun l h => .inl (Option.some.inj h).symm⟩
  | _ => exact .inl ⟨rfl, rfl, fun l h => by cases h⟩

/-- The entries of a list that finished calls made -/
theorem all_quiet {α : Type} (S : Shelf α) (s : Busy) (h : s.quiet) : S.all s = s.made.flatMap S.made := by
  have : s.threads.flatMap S.putBy = [] := by
    rw [List.flatMap_eq_nil_iff]
    intro th hth
    simp only [Shelf.putBy, h th hth]
  rw [Shelf.all, this, List.append_nil, Busy.made, List.flatMap_map]

theorem filterMap_flat {α β : Type} (g : α → Option β) : ∀ l : List α, l.filterMap g = l.flatMap fun a => (g a).toList
  | [] => rfl
  | a :: l => by
    rw [List.filterMap_cons, List.flatMap_cons, filterMap_flat g l]
    cases g a <;> rfl

/-- **C83, nothing foreign, nothing doubled.** Whatever the schedule, when all calls have returned each list of
the document is what it was before and some of the entries of the calls, each at most once, in the order of
the writes. -/
theorem C83_lists (f : Doc) (calls : List (List BCall)) (sched : List Nat)
    (hq : (busyRun (busyStart f calls) sched).quiet) :
    (∃ ws : List BItem, ws.Perm ((busyRun (busyStart f calls) sched).made.filterMap BMade.item?) ∧
      (busyRun (busyStart f calls) sched).doc.items.Sublist (f.items ++ ws)) ∧
    (∃ ws : List Rel, ws.Perm ((busyRun (busyStart f calls) sched).made.filterMap BMade.rel?) ∧
      (busyRun (busyStart f calls) sched).doc.rels.Sublist (f.rels ++ ws)) ∧
    (∃ ws : List Media, ws.Perm ((busyRun (busyStart f calls) sched).made.filterMap BMade.media?) ∧
      (busyRun (busyStart f calls) sched).doc.media.Sublist (f.media ++ ws)) := by
  refine ⟨?_, ?_, ?_⟩
  · obtain ⟨ws, h1, h2, _⟩ := shelf_run itemShelf_law f calls sched
    rw [all_quiet _ _ hq] at h1
    exact ⟨ws, by rw [filterMap_flat]; exact h1, h2⟩
  · obtain ⟨ws, h1, h2, _⟩ := shelf_run relShelf_law f calls sched
    rw [all_quiet _ _ hq] at h1
    exact ⟨ws, by rw [filterMap_flat]; exact h1, h2⟩
  · obtain ⟨ws, h1, h2, _⟩ := shelf_run mediaShelf_law f calls sched
    rw [all_quiet _ _ hq] at h1
    exact ⟨ws, by rw [filterMap_flat]; exact h1, h2⟩

theorem made_took_sub (f : Doc) (calls : List (List BCall)) (sched : List Nat) (c : Ctr) :
    ((busyRun (busyStart f calls) sched).made.flatMap fun m => m.took c).Sublist
      ((busyRun (busyStart f calls) sched).took c) := by
  rw [Busy.made, List.flatMap_map]
  exact List.sublist_append_left _ _

theorem made_nodup (f : Doc) (calls : List (List BCall)) (sched : List Nat) (c : Ctr)
    (hn : calls.flatten.length < 2 ^ 64) :
    ((busyRun (busyStart f calls) sched).made.flatMap fun m => m.took c).Nodup :=
  (took_nodup f calls sched c (Nat.lt_of_le_of_lt (took_le f calls sched c) hn)).sublist (made_took_sub f calls sched c)

/-- The numbers taken are above the counter of the start. -/
theorem made_above (f : Doc) (calls : List (List BCall)) (sched : List Nat) (c : Ctr)
    (hn : (f.ctr c).toNat + calls.flatten.length < 2 ^ 64) (n : UInt64)
    (h : n ∈ (busyRun (busyStart f calls) sched).made.flatMap fun m => m.took c) : f.ctr c < n := by
  have h := (ctr_run f calls sched c).2.mem_iff.1 ((made_took_sub f calls sched c).subset h)
  simp only [List.mem_map, List.mem_range] at h
  obtain ⟨j, hj, rfl⟩ := h
  have := took_le f calls sched c
  rw [UInt64.lt_iff_toNat_lt, UInt64.toNat_add, UInt64.toNat_ofNat', Nat.mod_eq_of_lt (a := j + 1) (by omega),
    Nat.mod_eq_of_lt (by omega)]
  omega

theorem drawing_took (ms : List BMade) : ms.filterMap BMade.drawing? = ms.flatMap fun m => m.took .drawing := by
  rw [filterMap_flat]
  exact congrArg (fun g => ms.flatMap g) (funext fun m => by cases m <;> rfl)

theorem number_took (ms : List BMade) : ms.filterMap BMade.number? = ms.flatMap fun m => m.took .number := by
  rw [filterMap_flat]
  exact congrArg (fun g => ms.flatMap g) (funext fun m => by cases m <;> rfl)

theorem rel_took (ms : List BMade) : (ms.filterMap BMade.rel?).map (·.id) =
    (ms.flatMap fun m => m.took .rid).map ridOf := by
  rw [filterMap_flat, List.map_flatMap, List.map_flatMap]
  exact congrArg (fun g => ms.flatMap g) (funext fun m => by cases m <;> rfl)

/-- A name of a picture has the number that was taken. -/
theorem media_took (ms : List BMade) (h : (ms.flatMap fun m => m.took .image).Nodup) :
    ((ms.filterMap BMade.media?).map (·.name)).Nodup ∧
    ∀ x ∈ ms.filterMap BMade.media?, ∃ n fmt, n ∈ (ms.flatMap fun m => m.took .image) ∧ x.name = imageName n fmt := by
  induction ms with
  | nil => exact ⟨List.nodup_nil, by simp⟩
  | cons m ms ih =>
    rw [List.flatMap_cons] at h
    obtain ⟨ih1, ih2⟩ := ih (List.nodup_append.1 h).2.1
    cases m with
    | item x => exact ⟨ih1, ih2⟩
    | link url n => exact ⟨ih1, ih2⟩
    | picture fmt data d k i n =>
      refine ⟨?_, ?_⟩
      · simp only [List.filterMap_cons, BMade.media?, List.map_cons, List.nodup_cons]
        refine ⟨?_, ih1⟩
        intro hm
        rw [List.mem_map] at hm
        obtain ⟨x, hx, e⟩ := hm
        obtain ⟨n', fmt', hn', e'⟩ := ih2 x hx
        rw [e'] at e
        have : n' = i := imageName_inj e
        subst this
        simp only [BMade.took, List.singleton_append, List.nodup_cons] at h
        exact h.1 hn'
      · intro x hx
        simp only [List.filterMap_cons, BMade.media?, List.mem_cons] at hx
        rcases hx with rfl | hx
        · exact ⟨i, fmt, by simp [BMade.took], rfl⟩
        · obtain ⟨n', fmt', hn', e'⟩ := ih2 x hx
          exact ⟨n', fmt', by rw [List.flatMap_cons]; exact List.mem_append_right _ hn', e'⟩

/-- **C83, numbers.** Whatever the schedule, no two calls get the same relationship id, the same number of a
drawing, the same number in the name of a drawing or the same name of a picture. -/
theorem C83_numbers (f : Doc) (calls : List (List BCall)) (sched : List Nat) (hn : calls.flatten.length < 2 ^ 64) :
    (((busyRun (busyStart f calls) sched).made.filterMap BMade.rel?).map (·.id)).Nodup ∧
    ((busyRun (busyStart f calls) sched).made.filterMap BMade.drawing?).Nodup ∧
    ((busyRun (busyStart f calls) sched).made.filterMap BMade.number?).Nodup ∧
    (((busyRun (busyStart f calls) sched).made.filterMap BMade.media?).map (·.name)).Nodup := by
  refine ⟨?_, ?_, ?_, ?_⟩
  · rw [rel_took]
    refine List.Pairwise.map _ (fun a b h e => h (ridOf_inj e)) (made_nodup f calls sched .rid hn)
  · rw [drawing_took]; exact made_nodup f calls sched .drawing hn
  · rw [number_took]; exact made_nodup f calls sched .number hn
  · exact (media_took _ (made_nodup f calls sched .image hn)).1

/-- **C83, the document stays unambiguous.** Whatever the schedule, when all calls have returned no two
relationships have the same id and no two pictures the same name, if that was so before and the counters were
ahead. -/
theorem C83_unambiguous (f : Doc) (calls : List (List BCall)) (sched : List Nat)
    (hq : (busyRun (busyStart f calls) sched).quiet)
    (hr : f.rID.toNat + calls.flatten.length < 2 ^ 64) (hm : f.imageID.toNat + calls.flatten.length < 2 ^ 64)
    (h1 : (seenIds f).Nodup) (h2 : CounterAhead f) (h3 : MediaNamesUnique f) (h4 : NamesAhead f) :
    (seenIds (busyRun (busyStart f calls) sched).doc).Nodup ∧
    MediaNamesUnique (busyRun (busyStart f calls) sched).doc := by
  obtain ⟨_, ⟨rs, hp1, hs1⟩, ⟨ms, hp2, hs2⟩⟩ := C83_lists f calls sched hq
  have hn := C83_numbers f calls sched (by omega)
  constructor
  · rw [seenIds_eq] at *
    refine (?_ : ((f.rels ++ rs).map (·.id)).Nodup).sublist (hs1.map _)
    rw [List.map_append, List.nodup_append]
    refine ⟨h1, ((hp1.map _).nodup_iff).2 hn.1, ?_⟩
    intro a ha b hb e
    subst e
    have hb := ((hp1.map (·.id)).mem_iff).1 hb
    rw [rel_took, List.mem_map] at hb
    obtain ⟨n, hn, rfl⟩ := hb
    exact h2 n (made_above f calls sched .rid hr n hn) (by rw [seenIds_eq]; exact ha)
  · refine (?_ : ((f.media ++ ms).map (·.name)).Nodup).sublist (hs2.map _)
    rw [List.map_append, List.nodup_append]
    refine ⟨h3, ((hp2.map _).nodup_iff).2 hn.2.2.2, ?_⟩
    intro a ha b hb e
    subst e
    rw [List.mem_map] at ha hb
    obtain ⟨x, hx, rfl⟩ := ha
    obtain ⟨y, hy, e⟩ := hb
    obtain ⟨n, fmt, hn, e'⟩ := (media_took _ (made_nodup f calls sched .image (by omega))).2 y (hp2.mem_iff.1 hy)
    exact h4 x hx n fmt (made_above f calls sched .image hm n hn) (by rw [← e, e'])

/-! ## One mutex around the calls is enough -/

/-- What is left of a call, made without interruption -/
def BPc.rest : BPc → Doc → Doc × BMade
  | .item x, f => ({ f with items := f.items ++ [x] }, .item x)
  | .itemRead x old, f => ({ f with items := old ++ [x] }, .item x)
  | .link url, f => ((f.addLinkRelation url).1, .link url (f.rID + 1))
  | .linkNo url n, f => ({ f with rels := f.rels ++ [linkRel url n] }, .link url n)
  | .linkRead url n old, f => ({ f with rels := old ++ [linkRel url n] }, .link url n)
  | .pic fmt data, f => (BCall.picture fmt data).alone f
  | .picDoc fmt data d, f =>
    (((f.increaseID picName).1.addImage fmt data).1,
      .picture fmt data d (f.increaseID picName).2 (f.imageID + 1) (f.rID + 1))
  | .picNo fmt data d k, f => ((f.addImage fmt data).1, .picture fmt data d k (f.imageID + 1) (f.rID + 1))
  | .picImg fmt data d k i, f =>
    (((f.addMedia (imageMedia fmt data i)).addImageRelation (imageMedia fmt data i)).1,
      .picture fmt data d k i (f.rID + 1))
  | .picLen fmt data d k i len, f =>
    (({ f with mediaIdx := upd f.mediaIdx (imageName i fmt) (some len), media := f.media ++ [imageMedia fmt data i] } :
      Doc).addImageRelation (imageMedia fmt data i) |>.1, .picture fmt data d k i (f.rID + 1))
  | .picIdx fmt data d k i, f =>
    (({ f with media := f.media ++ [imageMedia fmt data i] } : Doc).addImageRelation (imageMedia fmt data i) |>.1,
      .picture fmt data d k i (f.rID + 1))
  | .picMedia fmt data d k i old, f =>
    (({ f with media := old ++ [imageMedia fmt data i] } : Doc).addImageRelation (imageMedia fmt data i) |>.1,
      .picture fmt data d k i (f.rID + 1))
  | .picPut fmt data d k i, f =>
    ((f.addImageRelation (imageMedia fmt data i)).1, .picture fmt data d k i (f.rID + 1))
  | .picRid fmt data d k i n, f =>
    ({ f with rels := f.rels ++ [imageRel (imageMedia fmt data i) n] }, .picture fmt data d k i n)
  | .picRels fmt data d k i n old, f =>
    ({ f with rels := old ++ [imageRel (imageMedia fmt data i) n] }, .picture fmt data d k i n)

theorem rest_enter (f : Doc) (c : BCall) : c.enter.rest f = c.alone f := by cases c <;> rfl

theorem rest_next (f : Doc) (p : BPc) :
    (∀ q, (p.next f).2 = .inl q → q.rest (p.next f).1 = p.rest f) ∧
    (∀ m, (p.next f).2 = .inr m → p.rest f = ((p.next f).1, m)) := by
  cases p <;> exact ⟨fun q h => by cases h <;> rfl, fun m h => by cases h <;> rfl⟩

theorem oneByOne_snoc (f : Doc) : ∀ (cs : List BCall) (c : BCall),
    oneByOne f (cs ++ [c]) = ((c.alone (oneByOne f cs).1).1, (oneByOne f cs).2 ++ [(c.alone (oneByOne f cs).1).2])
  | [], c => rfl
  | c' :: cs, c => by
    rw [List.cons_append, oneByOne, oneByOne_snoc _ cs c]
    rfl

/-- With the mutex at most its owner is in a call, and what it has done so far will become the call alone. -/
def GInv (f : Doc) (g : Guarded) : Prop :=
  match g.owner with
  | none => g.s.quiet ∧ oneByOne f (g.s.done.map fun e => e.2.1) = (g.s.doc, g.s.made)
  | some t => (∃ th c p, g.s.threads[t]? = some th ∧ th.now = some (c, p) ∧
      p.rest g.s.doc = c.alone (oneByOne f (g.s.done.map fun e => e.2.1)).1) ∧
      (∀ t' th, t' ≠ t → g.s.threads[t']? = some th → th.now = none) ∧
      (oneByOne f (g.s.done.map fun e => e.2.1)).2 = g.s.made

theorem gInv_step {f : Doc} {g g' : Guarded} {t : Nat} (hi : GInv f g) (h : guardedStep g t = some g') : GInv f g' := by
  rcases g with ⟨s, owner⟩
  unfold guardedStep at h
  split at h
  · cases h
  · rename_i th hth
    simp only at hth
    have hlt : t < s.threads.length := (List.getElem?_eq_some_iff.1 hth).1
    split at h
    · rename_i hnow
      cases owner with
      | some _ => cases h
      | none =>
        simp only [GInv] at hi
        simp only [busyStep, hth, hnow] at h
        split at h
        · cases h
        · rename_i c rest htodo
          simp only [Option.map_some, Option.some.injEq] at h
          subst h
          refine ⟨⟨⟨rest, some (c, c.enter)⟩, c, c.enter, ?_, rfl, ?_⟩, ?_, ?_⟩
          · simp only [List.getElem?_set_self hlt]
          · show c.enter.rest s.doc = _
            rw [rest_enter, hi.2]
          · intro t' th' hne hth'
            simp only [List.getElem?_set_ne (Ne.symm hne)] at hth'
            exact hi.1 th' (List.mem_of_getElem? hth')
          · rw [hi.2]; rfl
    · rename_i c p hnow
      cases owner with
      | none => 
        have := hi.1 th (List.mem_of_getElem? hth)
        rw [hnow] at this
        cases this
      | some u =>
        obtain ⟨⟨th0, c0, p0, h1, h2, h3⟩, h4, h5⟩ := hi
        by_cases htu : t = u
        · subst htu
          simp only at h1
          rw [hth] at h1
          injection h1 with h1
          subst h1
          rw [hnow] at h2
          simp only [Option.some.injEq, Prod.mk.injEq] at h2
          obtain ⟨rfl, rfl⟩ := h2
          obtain ⟨r1, r2⟩ := rest_next s.doc p
          simp only at h h3 h5
          rcases hx : p.next s.doc with ⟨f', o⟩
          rw [hx] at h r1 r2
          cases o with
          | inl q =>
            simp only [Option.some.injEq] at h
            subst h
            refine ⟨⟨{ th with now := some (c, q) }, c, q, ?_, rfl, ?_⟩, ?_, h5⟩
            · simp only [Busy.after, List.getElem?_set_self hlt]
            · exact (r1 q rfl).trans h3
            · intro t' th' hne hth'
              simp only [Busy.after, List.getElem?_set_ne (Ne.symm hne)] at hth'
              exact h4 t' th' hne hth'
          | inr m =>
            simp only [Option.some.injEq] at h
            subst h
            refine ⟨?_, ?_⟩
            · intro th' hm
              obtain ⟨t', hl, he⟩ := List.getElem_of_mem hm
              have he : (s.threads.set t { th with now := none })[t']? = some th' := by
                rw [← he]; exact List.getElem?_eq_getElem hl
              by_cases hne : t' = t
              · subst hne
                rw [List.getElem?_set_self hlt] at he
                injection he with he
                rw [← he]
              · rw [List.getElem?_set_ne (Ne.symm hne)] at he
                exact h4 t' th' hne he
            · simp only [Busy.after, List.map_append, List.map_cons, List.map_nil, Busy.made]
              rw [oneByOne_snoc, ← h3, r2 m rfl, h5]
              rfl
        · have := h4 t th htu hth
          rw [hnow] at this
          cases this

/-- **C83, with a mutex.** If the goroutines guard their calls with one mutex, then in every schedule, whenever no
call is going on, the document and the results are those of the calls made one after the other, in the order
in which they returned. -/
theorem C83_guarded (f : Doc) (calls : List (List BCall)) (sched : List Nat)
    (hq : (guardedRun ⟨busyStart f calls, none⟩ sched).owner = none) :
    oneByOne f ((guardedRun ⟨busyStart f calls, none⟩ sched).s.done.map fun e => e.2.1) =
      ((guardedRun ⟨busyStart f calls, none⟩ sched).s.doc, (guardedRun ⟨busyStart f calls, none⟩ sched).s.made) := by
  have hr : ∀ (sched : List Nat) (g : Guarded), GInv f g → GInv f (guardedRun g sched) := by
    intro sched
    induction sched with
    | nil => exact fun g h => h
    | cons t ts ih =>
      intro g h
      refine ih _ ?_
      cases he : guardedStep g t with
      | none => exact h
      | some g' => exact gInv_step h he
  have := hr sched ⟨busyStart f calls, none⟩ ⟨by
    intro th hth
    simp only [busyStart, List.mem_map] at hth
    obtain ⟨c, _, rfl⟩ := hth; rfl, rfl⟩
  unfold GInv at this
  rw [hq] at this
  exact this.2

/-! ## Without it -/

/-- A new paragraph, told apart by its text -/
def busyPara (s : String) : BItem := .para { children := [.run { children := [.text { text := s }] }], file := some 0 }

/-- Without a mutex a paragraph that was added can be missing. -/
theorem C83_paragraph_lost :
    (busyRun (busyStart Doc.new [[.item (busyPara "a")], [.item (busyPara "b")]]) [0, 1, 0, 1, 0, 1]).quiet ∧
    (busyRun (busyStart Doc.new [[.item (busyPara "a")], [.item (busyPara "b")]]) [0, 1, 0, 1, 0, 1]).doc.items =
      [busyPara "b"] :=
  ⟨by intro th h; revert th; simp [busyRun, busyStep, busyStart, Busy.after, BPc.next, BCall.enter], rfl⟩

/-- The two pictures of the next theorems -/
def busyPictures : List (List BCall) := [[.picture "png" [1]], [.picture "png" [2], .picture "png" [3]]]

/-- Without a mutex `Media` can give the bytes of another picture: both calls see the length 0. -/
theorem C83_wrong_picture :
    (busyRun (busyStart Doc.new (busyPictures.map (·.take 1)))
      (List.replicate 5 0 ++ List.replicate 5 1 ++ List.replicate 7 0 ++ List.replicate 7 1)).doc.getMedia "image2.png" =
      .ok (some ⟨"image1.png", [1]⟩) := by decide +kernel

/-- Without a mutex `Media` can panic: the list of a slow goroutine is written over a longer one. -/
theorem C83_media_panic :
    (busyRun (busyStart Doc.new busyPictures)
      (List.replicate 7 0 ++ List.replicate 24 1 ++ List.replicate 5 0)).doc.getMedia "image3.png" = .panic := by
  decide +kernel

/-! ## Cases that meet the hypotheses -/

/-- Three goroutines, all kinds of calls, all interrupted: nothing is lost here -/
def busyMix : List (List BCall) :=
  [[.picture "png" [1], .item (busyPara "a")], [.link "http://a"], [.item (busyPara "b"), .picture "gif" [2]]]

def busyMixRun : Busy :=
  busyRun (busyStart Doc.new busyMix)
    ([0, 1, 2, 0, 1, 2, 0, 2] ++ List.replicate 9 0 ++ [1, 1] ++ List.replicate 20 2 ++ List.replicate 5 0)

example : busyMixRun.quiet := by
  have : busyMixRun.threads.all (fun th => th.now.isNone) = true := by decide +kernel
  intro th h
  exact Option.isNone_iff_eq_none.1 (List.all_eq_true.1 this th h)

example : busyMixRun.doc.rels.map (·.id) = ["rId1", "rId2", "rId3", "rId5", "rId4", "rId6"] := by decide +kernel
example : busyMixRun.doc.media.map (·.name) = ["image1.png", "image2.gif"] := by decide +kernel
example : busyMixRun.doc.items.length = 2 := by decide +kernel
example : busyMixRun.made.filterMap BMade.drawing? = [1, 2] := by decide +kernel

/-- The same calls guarded by a mutex -/
example : (guardedRun ⟨busyStart Doc.new busyMix, none⟩
      ([0, 1, 2, 0, 1] ++ List.replicate 20 0 ++ List.replicate 9 2 ++ List.replicate 9 1 ++ List.replicate 40 2)).owner =
    none := by decide +kernel

end Docx
