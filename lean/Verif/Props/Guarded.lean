import Verif.Lemmas.Guarded
import Verif.Lemmas.Sync

/-!
# Properties: data that is guarded by a critical section
-/

namespace Zy

open Spec

variable {S L : Type}

/-- **C148**. Threads access shared data in sections that are guarded by one critical section, in any number of steps
that may be interleaved with the steps of other threads in any way; inside of a section they may enter and leave the
critical section again. There is an order of the sections, which only grows with time, such that at each moment the
data and the variables of the threads are what they are if the threads execute whole sections in this order, up to a
part of one section of the only thread that is inside. No call for the critical section fails. -/
theorem C148_turns {limit : Nat} {a i : Option Errno} {st : Status} {m : Mutex}
    (hm : csInitialize a i = (st, some m)) (s : S) (loc : Nat → L) (progs : Nat → List (GSection S L))
    (hN : ∀ t, ∀ b ∈ progs t, Nests limit 1 b.2) :
    ∃ order : List Nat → List Nat, (∀ sched more, order sched <+: order (sched ++ more)) ∧
      ∀ sched, ∃ g, guardedRun limit (guardedStart m s loc progs) sched = .ret g ∧ g.refused = false ∧
        Midway (takeTurns ⟨s, loc, progs⟩ (order sched)) g := by
  rw [csInitialize_some hm]
  refine ⟨orderFrom limit (guardedStart ⟨.recursive, none, 0⟩ s loc progs), fun a b => orderFrom_prefix limit a b _,
    fun sched => ?_⟩
  obtain ⟨g, e, hf, h⟩ := grun_ok (limit := limit) sched (p := ⟨s, loc, progs⟩) hN GInv.start
  exact ⟨g, e, hf, h.midway⟩

/-- **C148**, at the end: the data and the variables are those after whole sections, and no section is missing. -/
theorem C148_finished {limit : Nat} {a i : Option Errno} {st : Status} {m : Mutex}
    (hm : csInitialize a i = (st, some m)) (s : S) (loc : Nat → L) (progs : Nat → List (GSection S L))
    (hN : ∀ t, ∀ b ∈ progs t, Nests limit 1 b.2) {sched : List Nat} {g : GState S L}
    (hr : guardedRun limit (guardedStart m s loc progs) sched = .ret g) (hF : ∀ t, Finished g t) :
    ∃ order, takeTurns ⟨s, loc, progs⟩ order = ⟨g.shared, fun t => (g.thr t).loc, fun _ => []⟩ := by
  obtain ⟨order, _, h⟩ := C148_turns hm s loc progs hN
  obtain ⟨g', e, _, hM⟩ := h sched
  rw [hr] at e
  cases e
  refine ⟨order sched, ?_⟩
  generalize takeTurns ⟨s, loc, progs⟩ (order sched) = p at hM
  obtain ⟨ps, pl, pr⟩ := p
  cases hM with
  | nobody hs ho =>
    have h1 : pl = fun t => (g.thr t).loc := funext fun t => (ho t).1.symm
    have h2 : pr = fun _ => [] := funext fun t => by
      rcases (ho t).2 with ⟨_, h3⟩ | ⟨b, h3, _⟩
      · exact h3.symm.trans (hF t).2
      · rw [(hF t).1] at h3; cases h3
    simp only at hs
    rw [h1, h2, hs]
  | inside t b done todo hb hr hn hp ho =>
    rw [(hF t).1] at hn
    simp at hn

/-- **C148**, progress: the threads never block each other for good. Whatever `n` threads have done so far, they can
finish. -/
theorem C148_progress {limit n : Nat} {a i : Option Errno} {st : Status} {m : Mutex}
    (hm : csInitialize a i = (st, some m)) (s : S) (loc : Nat → L) (progs : Nat → List (GSection S L))
    (hN : ∀ t, ∀ b ∈ progs t, Nests limit 1 b.2) (hn : ∀ t, n ≤ t → progs t = []) (sched : List Nat) :
    ∃ more g, guardedRun limit (guardedStart m s loc progs) (sched ++ more) = .ret g ∧ ∀ t, Finished g t := by
  rw [csInitialize_some hm]
  obtain ⟨g, e, _, h⟩ := grun_ok (limit := limit) sched (p := ⟨s, loc, progs⟩) hN GInv.start
  have hF : Few n g := fun t ht => by
    have h0 : (takeTurns ⟨s, loc, progs⟩ (orderFrom limit (guardedStart ⟨.recursive, none, 0⟩ s loc progs) sched)).rest t
        = [] := turns_rest_nil _ (hn t ht)
    cases h with
    | nobody hm hs ho =>
      rcases (ho t).2 with ⟨h1, h2⟩ | ⟨b, _, h2⟩
      · exact ⟨h1, h2.trans h0⟩
      · rw [h0] at h2; cases h2
    | inside o d b done todo hd hm hN hb hr hn hp ho =>
      by_cases e : t = o
      · subst e; rw [h0] at hr; cases hr
      · rcases (ho t e).2 with ⟨h1, h2⟩ | ⟨b, _, h2⟩
        · exact ⟨h1, h2.trans h0⟩
        · rw [h0] at h2; cases h2
  obtain ⟨more, g', e2, hd⟩ := gfinish_ok (limit := limit) (n := n) _ (AllNest.turns _ (p := ⟨s, loc, progs⟩) hN) h hF (Nat.le_refl _)
  exact ⟨more, g', by rw [guardedRun_append, e, Out.ret_bind', e2], hd⟩

/-- **C148** for a counter: `n` threads increment a number, thread `t` does so `k t` times, by reading it and writing
it back in two steps. No increment is lost. -/
theorem C148_counter {limit n : Nat} {a i : Option Errno} {st : Status} {m : Mutex}
    (hm : csInitialize a i = (st, some m)) (s : Nat) (loc : Nat → Nat) (k : Nat → Nat) (hn : ∀ t, n ≤ t → k t = 0)
    {sched : List Nat} {g : GState Nat Nat}
    (hr : guardedRun limit (guardedStart m s loc fun t => counting (k t)) sched = .ret g) (hF : ∀ t, Finished g t) :
    g.shared = s + ((List.range n).map k).sum := by
  obtain ⟨order, h⟩ := C148_finished hm s loc (fun t => counting (k t)) (fun t b hb => by
    rw [List.eq_of_mem_replicate hb]; rfl) hr hF
  obtain ⟨k', h1, h2⟩ := counting_turns (n := n) order (p := ⟨s, loc, fun t => counting (k t)⟩) (k := k)
    (fun _ => rfl) hn
  rw [h] at h1 h2
  have h3 : ∀ t, k' t = 0 := fun t => by
    have := congrArg List.length (h1 t)
    simpa [counting] using this.symm
  have h4 : sumBelow k' n = 0 := by
    unfold sumBelow
    rw [show k' = fun _ => 0 from funext h3]
    clear h2 hn
    induction n with
    | zero => rfl
    | succ n ih => simp [List.range_succ, ih]
  simp only [h4] at h2
  exact h2

/-- A thread that enters the section more often than the system permits is told so: `ZyanCriticalSectionEnter` fails
with `ZYAN_STATUS_INVALID_OPERATION`, and the program sees the failure. -/
theorem C148_too_deep {limit t : Nat} {a i : Option Errno} {st : Status} {m : Mutex}
    (hm : csInitialize a i = (st, some m)) (s : S) (loc : Nat → L) {progs : Nat → List (GSection S L)}
    {first spin : Bool} {rest : List (GItem S L)} {r : List (GSection S L)} (hl : 0 < limit)
    (hp : progs t = (first, List.replicate (limit - 1) (.enter spin) ++ .enter false :: rest) :: r) :
    ∃ g, guardedRun limit (guardedStart m s loc progs) (List.replicate (limit + 2) t) = .ret g ∧ g.refused = true := by
  rw [csInitialize_some hm]
  obtain ⟨g, e, _, hM, hn⟩ := grun_to_limit (s := s) (loc := loc) hl hp
  refine ⟨{ g with refused := true }, ?_, rfl⟩
  rw [show List.replicate (limit + 2) t = List.replicate (limit + 1) t ++ [t] by
    rw [← List.replicate_succ'], guardedRun_append, e]
  have h : guardedStep limit g t = .ret { g with refused := true } := by
    unfold guardedStep
    rw [hn]
    simp [hM, csStep, csEnter, pthreadLock, enterStatus, Out.bind]
    intro h
    cases h
  simp [guardedRun, h, Out.bind]

/-- A thread that tries the same with `ZyanCriticalSectionTryEnter` in a loop never gets out of the loop: the answer
is false for an exhausted depth, as it is for a section that another thread has. -/
theorem C148_tries_forever {limit t : Nat} {a i : Option Errno} {st : Status} {m : Mutex}
    (hm : csInitialize a i = (st, some m)) (s : S) (loc : Nat → L) {progs : Nat → List (GSection S L)}
    {first spin : Bool} {rest : List (GItem S L)} {r : List (GSection S L)} (hl : 0 < limit)
    (hp : progs t = (first, List.replicate (limit - 1) (.enter spin) ++ .enter true :: rest) :: r) (more : Nat) :
    ∃ g, guardedRun limit (guardedStart m s loc progs) (List.replicate (limit + 1 + more) t) = .ret g ∧
      g.refused = false ∧ ¬ Finished g t ∧ g.mutex.owner = some t := by
  rw [csInitialize_some hm]
  obtain ⟨g, e, hf, hM, hn⟩ := grun_to_limit (s := s) (loc := loc) hl hp
  refine ⟨g, ?_, hf, fun hF => ?_, by rw [hM]⟩
  · rw [← List.replicate_append_replicate, guardedRun_append, e]
    have h : guardedStep limit g t = .ret g := by
      unfold guardedStep
      rw [hn]
      simp only [List.cons_append, hM, csStep, csTryEnter, pthreadTryLock, if_true, Out.bind, and_self,
        Nat.lt_irrefl, if_false, Option.isNone]
      rw [← hM]
    show guardedRun limit g (List.replicate more t) = .ret g
    induction more with
    | zero => rfl
    | succ n ih => rw [List.replicate_succ, guardedRun, h]; exact ih
  · rw [Finished, hn] at hF
    simp at hF

/-- A thread that leaves the section inside of it, and then again at its end, is told so as well. -/
theorem C148_left_twice {limit t : Nat} {a i : Option Errno} {st : Status} {m : Mutex}
    (hm : csInitialize a i = (st, some m)) (s : S) (loc : Nat → L) {progs : Nat → List (GSection S L)}
    {first : Bool} {r : List (GSection S L)} (hp : progs t = (first, [.leave]) :: r) :
    ∃ g, guardedRun limit (guardedStart m s loc progs) (List.replicate 4 t) = .ret g ∧ g.refused = true := by
  rw [csInitialize_some hm]
  have hf : failed stInvalidOperation = true := rfl
  cases first <;>
    simp [List.replicate, guardedRun, guardedStep, guardedStart, hp, Out.bind, GState.put, GState.next, csStep, csEnter,
      csTryEnter, csLeave, pthreadLock, pthreadTryLock, pthreadUnlock, enterStatus, leaveStatus, failed_success, hf]

/-! ## Examples -/

/-- Thread 0 appends a number twice, with the critical section entered a second time in between; thread 1 waits for
the section in a loop and appends another number. -/
def exGuarded : Nat → List (GSection (List Nat) Nat)
  | 0 => [(false, [.act fun s l => (s ++ [l], l), .enter true, .leave, .act fun s l => (s ++ [l + 1], l)])]
  | 1 => [(true, [.act fun s l => (s ++ [l], l)])]
  | _ => []

example : ∀ t, ∀ b ∈ exGuarded t, Nests 2 1 b.2 := by
  intro t b hb
  match t, hb with
  | 0, hb => simp only [exGuarded, List.mem_singleton] at hb; subst hb; simp [Nests]
  | 1, hb => simp only [exGuarded, List.mem_singleton] at hb; subst hb; simp [Nests]
  | _ + 2, hb => cases hb

/-- Thread 1 tries at the worst moments, and gets its turn after thread 0. -/
example : ∃ g, guardedRun 2 (guardedStart ⟨.recursive, none, 0⟩ [] (fun t => 10 * t) exGuarded)
    [0, 1, 0, 1, 0, 1, 0, 1, 0, 1, 0, 0, 1, 1, 1] = .ret g ∧ g.shared = [0, 1, 10] ∧ g.mutex.owner = none :=
  ⟨_, rfl, rfl, rfl⟩

/-- In the middle of the section of thread 0. -/
example : ∃ g, guardedRun 2 (guardedStart ⟨.recursive, none, 0⟩ [] (fun t => 10 * t) exGuarded)
    [0, 1, 0, 1, 0, 1, 0, 1, 0, 1] = .ret g ∧ g.shared = [0] ∧ g.mutex = ⟨.recursive, some 0, 1⟩ :=
  ⟨_, rfl, rfl, rfl⟩

/-- Two threads count to five. -/
example : ∃ g, guardedRun 1 (guardedStart ⟨.recursive, none, 0⟩ 0 (fun _ => 0) fun t => counting ([2, 3].getD t 0))
    ((List.replicate 14 [0, 1, 1]).flatten) = .ret g ∧ g.shared = 5 := ⟨_, rfl, rfl⟩

/-- With a limit of two, the third level is refused, or awaited forever. -/
example : ∃ g, guardedRun 2 (guardedStart ⟨.recursive, none, 0⟩ 0 (fun _ => 0) fun t =>
    if t = 0 then [(false, [.enter false, .enter false, .leave, .leave])] else counting 1)
    [0, 1, 0, 1, 0, 1, 0, 1] = .ret g ∧ g.refused = true ∧ g.shared = 0 := ⟨_, rfl, rfl, rfl⟩

end Zy
