import Verif.Lemmas.Indep

/-!
# C69: work on separate documents is independent
-/

set_option linter.unusedSectionVars false

namespace Docx

theorem selfContained_agree {S : DocId → Prop} {w : World} (h : w.SelfContained S) : SameOn S w w :=
  ⟨fun _ _ => rfl, fun d f hd hf => itemsFor_iff.1 (h d f hd hf)⟩

/-- **C69, one call.** A call on documents of a self-contained set changes no other document, makes none,
and leaves the set self-contained. -/
theorem C69_frame [ImgEnv] (S : DocId → Prop) (w w' : World) (o : Op) (hw : w.SelfContained S)
    (ho : o.Within S) (h : step w o = .ok w') :
    w'.length = w.length ∧ (∀ d, ¬ S d → w'[d]? = w[d]?) ∧ w'.SelfContained S := by
  have hb := step_both ho (selfContained_agree hw)
  rw [h] at hb
  obtain ⟨h1, h2, _⟩ := hb
  exact ⟨h2.1, h2.2, fun d f hd hf => itemsFor_iff.2 (h1.inside d f hd hf)⟩

/-- **C69, as if alone.** Whatever the order in which the calls of the threads are made: if each thread
works on its own self-contained documents, then the whole returns normally exactly when each thread alone
does, and every document ends up as if the thread it belongs to had been the only one. -/
theorem C69_alone [ImgEnv] (own : DocId → Nat) (w : World) (s : Schedule)
    (hw : ∀ t, w.SelfContained (own · = t)) (hs : s.Separate own) :
    ((∃ w', run w s.calls = .ok w') ↔ ∀ t, ∃ v, run w (s.program t) = .ok v) ∧
    ∀ w', run w s.calls = .ok w' → w'.length = w.length ∧
      ∀ d v, run w (s.program (own d)) = .ok v → w'[d]? = v[d]? := by
  have ha : ∀ t, SameOn (own · = t) w ((fun _ => w) t) := fun t => selfContained_agree (hw t)
  refine ⟨⟨?_, fun h => alone_schedule hs ha h⟩, ?_⟩
  · rintro ⟨w', h⟩ t
    obtain ⟨v, h1, _⟩ := (schedule_alone hs ha h).2 t
    exact ⟨v, h1⟩
  · intro w' h
    obtain ⟨hl, hall⟩ := schedule_alone hs ha h
    refine ⟨hl, fun d v hv => ?_⟩
    obtain ⟨v', h1, h2⟩ := hall (own d)
    rw [hv] at h1
    obtain rfl := Res.ok.inj h1
    exact h2.same d rfl

/-- **C69, any two schedules.** Two schedules in which every thread makes the same calls in the same order
have the same outcome. -/
theorem C69_schedules [ImgEnv] (own : DocId → Nat) (w w' : World) (s1 s2 : Schedule)
    (hw : ∀ t, w.SelfContained (own · = t)) (h1 : s1.Separate own) (h2 : s2.Separate own)
    (same : ∀ t, s1.program t = s2.program t) (h : run w s1.calls = .ok w') : run w s2.calls = .ok w' := by
  obtain ⟨a1, b1⟩ := C69_alone own w s1 hw h1
  obtain ⟨a2, b2⟩ := C69_alone own w s2 hw h2
  have hall := a1.1 ⟨w', h⟩
  obtain ⟨w2, hr⟩ := a2.2 fun t => same t ▸ hall t
  obtain ⟨hl1, hd1⟩ := b1 w' h
  obtain ⟨hl2, hd2⟩ := b2 w2 hr
  rw [hr]
  congr 1
  apply List.ext_getElem?
  intro d
  obtain ⟨v, hv⟩ := hall (own d)
  rw [hd1 d v hv, hd2 d v (same _ ▸ hv)]

/-! ## A case that meets the hypotheses, and why they are needed -/

namespace IndepExample

/-- Two new documents with a paragraph each, one per thread -/
def start : World :=
  [{ Doc.new with items := [.para { file := some 0 }] }, { Doc.new with items := [.para { file := some 1 }] }]

def a : Op := .addLink 0 (.body 0) "a" "http://a"
def b : Op := .addLink 1 (.body 0) "b" "http://b"

local instance env : ImgEnv := ⟨fun _ => none⟩

theorem start_self (t : Nat) : start.SelfContained (fun d => d = t) := by
  intro d f hd hf x hx i hi
  subst hd
  match d, hf with
  | 0, hf => cases hf; cases hx with
    | head => simpa [BItem.refers, BItem.owners, BItem.draws, Para.draws] using hi
    | tail _ h => cases h
  | 1, hf => cases hf; cases hx with
    | head => simpa [BItem.refers, BItem.owners, BItem.draws, Para.draws] using hi
    | tail _ h => cases h

example : (∀ t, start.SelfContained (fun d => id d = t)) ∧
    Schedule.Separate id [(0, a), (1, b), (0, a)] ∧ Schedule.Separate id [(1, b), (0, a), (0, a)] ∧
    (∀ t, Schedule.program [(0, a), (1, b), (0, a)] t = Schedule.program [(1, b), (0, a), (0, a)] t) ∧
    ∃ w', run start (Schedule.calls [(0, a), (1, b), (0, a)]) = .ok w' := by
  refine ⟨start_self, ?_, ?_, ?_, ⟨_, rfl⟩⟩
  · intro c hc
    simp only [List.mem_cons, List.not_mem_nil, or_false] at hc
    rcases hc with rfl | rfl | rfl <;> rfl
  · intro c hc
    simp only [List.mem_cons, List.not_mem_nil, or_false] at hc
    rcases hc with rfl | rfl | rfl <;> rfl
  · intro t
    by_cases h0 : t = 0
    · subst h0; rfl
    · by_cases h1 : t = 1
      · subst h1; rfl
      · have h0' : ¬ 0 = t := fun h => h0 h.symm
        have h1' : ¬ 1 = t := fun h => h1 h.symm
        simp [Schedule.program, h0', h1']

end IndepExample

/-- **C69, the hypothesis is needed.** If a document has taken over a paragraph of another one, calls on
that paragraph change the other document, and then the order of the calls of the two threads shows: here
thread 1 works on document 1 only, but the link it adds is numbered in document 0. -/
theorem C69_borrowed [ImgEnv] : ∃ (w w1 w2 : World) (a b : Op),
    (∃ d l t u, a = .addLink d l t u ∧ d = 0) ∧ (∃ d l t u, b = .addLink d l t u ∧ d = 1) ∧
    run w [a, b] = .ok w1 ∧ run w [b, a] = .ok w2 ∧ w1[0]? ≠ w2[0]? ∧
    ∃ w3, run w [b] = .ok w3 ∧ w3[0]? ≠ w[0]? := by
  refine ⟨[{ Doc.new with items := [.para { file := some 0 }] },
      { Doc.new with items := [.para { file := some 0 }] }], _, _, IndepExample.a, IndepExample.b,
    ⟨_, _, _, _, rfl, rfl⟩, ⟨_, _, _, _, rfl, rfl⟩, rfl, rfl, ?_, _, rfl, ?_⟩
  · intro h
    have := congrArg (Option.map fun f : Doc => f.rels.map (·.target)) h
    revert this
    simp only [World.onPara]
    exact fun h => absurd h (by decide)
  · intro h
    have := congrArg (Option.map fun f : Doc => f.rels.map (·.target)) h
    exact absurd this (by decide)

end Docx
