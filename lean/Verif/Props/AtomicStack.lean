import Verif.Lemmas.AtomicStack

/-!
# Property theorems: a stack whose head is exchanged atomically (C189)

The program is in `Spec/AtomicStack`: threads that push and pop nodes with `ZyanAtomicCompareExchange` only.
-/

namespace Zy

variable {w : Nat}

/-- **C189**: whatever the schedule, there is an order of the pushes and pops such that a stack used by one at a time does
the same. The linked nodes are always those of this stack. Each thread has done the first commands of its program, in its
order, and its pops gave what the stack gave; a thread that is through has done all of them. -/
theorem C189_linear (next : BitVec w → BitVec w) {progs : List (List (TCmd w))} (ho : PushedOnce progs) (sched : List Nat) :
    let s := actRun stackAct (stackStart next progs) sched
    ∃ (log : List (Nat × TEv w)) (S : List (BitVec w)), stackAfter (log.map Prod.snd) = some S ∧ linked s.data s.value S ∧
      ∀ (i : Nat) p t, progs[i]? = some p → s.thr[i]? = some t →
        (entriesOf log i).map TEv.cmd <+: p ∧ t.st.got <+: (entriesOf log i).filterMap TEv.result ∧
        (t.st.finished → (entriesOf log i).map TEv.cmd = p ∧ (entriesOf log i).filterMap TEv.result = t.st.got) := by
  intro s
  obtain ⟨log, I⟩ := stackInv_run (next := next) ho sched
  obtain ⟨S, h1, h2⟩ := I.legal
  refine ⟨log, S, h1, h2, fun i p t hp ht => ?_⟩
  obtain ⟨e1, e2, _⟩ := I.thr _ _ _ hp ht
  refine ⟨⟨_, e1.symm⟩, ?_, ?_⟩
  · rw [← e2]
    unfold outs
    split
    · split
      · split
        · exact List.prefix_append _ _
        · exact List.prefix_refl _
      · exact List.prefix_refl _
    · exact List.prefix_refl _
    · exact List.prefix_refl _
    · exact List.prefix_refl _
    · split
      · split
        · exact List.prefix_append _ _
        · split
          · exact List.prefix_append _ _
          · exact List.prefix_refl _
      · exact List.prefix_refl _
  · rintro ⟨f1, f2⟩
    obtain ⟨⟨ph, cs, g⟩, reg⟩ := t
    dsimp only at f1 f2
    subst f1 f2
    refine ⟨?_, e2.symm⟩
    rw [e1]
    simp [todo]

/-- **C189**: when all threads are through, every node that was pushed is either still in the stack or was popped by
exactly one thread, once; and nothing else is. -/
theorem C189_each_once (next : BitVec w → BitVec w) {progs : List (List (TCmd w))} (ho : PushedOnce progs)
    (sched : List Nat) :
    let s := actRun stackAct (stackStart next progs) sched
    (∀ t ∈ s.thr, t.st.finished) → ∃ S, linked s.data s.value S ∧ S.Nodup ∧
      (∀ a, (∃ p ∈ progs, a ∈ pushes p) ↔ a ∈ S ∨ ∃ t ∈ s.thr, some a ∈ t.st.got) ∧
      (∀ a ∈ S, ∀ t ∈ s.thr, some a ∉ t.st.got) ∧
      (∀ (i j : Nat) (t u : CThr w (TSt w)), s.thr[i]? = some t → s.thr[j]? = some u → i ≠ j →
        ∀ a, some a ∈ t.st.got → some a ∉ u.st.got) ∧
      ∀ t ∈ s.thr, (t.st.got.filterMap id).Nodup := by
  intro s hf
  obtain ⟨log, I⟩ := stackInv_run (next := next) ho sched
  obtain ⟨S, h1, h2⟩ := I.legal
  have hperm := pushed_perm h1
  have hnd := (hperm.nodup_iff).1 I.once
  obtain ⟨n1, n2, n3⟩ := List.nodup_append.1 hnd
  have key : ∀ i p t, progs[i]? = some p → s.thr[i]? = some t →
      p = (entriesOf log i).map TEv.cmd ∧ t.st.got = (entriesOf log i).filterMap TEv.result := by
    intro i p t hp ht
    obtain ⟨e1, e2, _⟩ := I.thr _ _ _ hp ht
    obtain ⟨f1, f2⟩ := hf t (List.mem_of_getElem? ht)
    obtain ⟨⟨ph, cs, g⟩, reg⟩ := t
    dsimp only at f1 f2
    subst f1 f2
    exact ⟨by rw [e1]; simp [todo], e2⟩
  have keyt : ∀ i t, s.thr[i]? = some t → t.st.got = (entriesOf log i).filterMap TEv.result := by
    intro i t ht
    have hi : i < progs.length := by rw [← I.len]; exact (List.getElem?_eq_some_iff.1 ht).1
    exact (key i _ t (List.getElem?_eq_getElem hi) ht).2
  have got : ∀ i t, s.thr[i]? = some t → ∀ a, some a ∈ t.st.got ↔ (i, .popped (some a)) ∈ log := by
    intro i t ht a
    rw [keyt i t ht, poppedIn_got, mem_entriesOf]
  have inlog : ∀ {a} {e : TEv w}, e ∈ log.map Prod.snd → a = e → ∃ i p t, progs[i]? = some p ∧ s.thr[i]? = some t ∧ (i, a) ∈ log := by
    rintro a e he rfl
    obtain ⟨⟨i, x⟩, hx, rfl⟩ := List.mem_map.1 he
    have hi : i < progs.length := I.who _ hx
    have hi' : i < s.thr.length := by rw [I.len]; exact hi
    exact ⟨i, _, _, List.getElem?_eq_getElem hi, List.getElem?_eq_getElem hi', hx⟩
  refine ⟨S, h2, n2, fun a => ⟨?_, ?_⟩, ?_, ?_, ?_⟩
  · rintro ⟨p, hp, ha⟩
    obtain ⟨i, hi, rfl⟩ := List.getElem_of_mem hp
    have hi' : i < s.thr.length := by rw [I.len]; exact hi
    obtain ⟨e1, _⟩ := key i _ _ (List.getElem?_eq_getElem hi) (List.getElem?_eq_getElem hi')
    rw [e1] at ha
    obtain ⟨c, hc, hca⟩ := List.mem_filterMap.1 ha
    obtain ⟨e, he, rfl⟩ := List.mem_map.1 hc
    have hin : a ∈ pushedIn (log.map Prod.snd) := by
      cases e with
      | popped r => cases hca
      | pushed b =>
        cases hca
        exact List.mem_filterMap.2 ⟨.pushed a, List.mem_map.2 ⟨_, mem_entriesOf.1 he, rfl⟩, rfl⟩
    rcases List.mem_append.1 (hperm.subset hin) with h | h
    · obtain ⟨j, q, t, _, ht, hl⟩ := inlog (mem_poppedIn.1 h) rfl
      exact Or.inr ⟨t, List.mem_of_getElem? ht, (got j t ht a).2 hl⟩
    · exact Or.inl h
  · intro h
    have hin : a ∈ pushedIn (log.map Prod.snd) := by
      refine hperm.symm.subset (List.mem_append.2 ?_)
      rcases h with h | ⟨t, ht, h⟩
      · exact Or.inr h
      · obtain ⟨j, hj, rfl⟩ := List.getElem_of_mem ht
        exact Or.inl (mem_poppedIn.2 (List.mem_map.2 ⟨_, (got j _ (List.getElem?_eq_getElem hj) a).1 h, rfl⟩))
    obtain ⟨i, p, t, hp, ht, hl⟩ := inlog (mem_pushedIn hin) rfl
    refine ⟨p, List.mem_of_getElem? hp, ?_⟩
    rw [(key i p t hp ht).1]
    exact mem_pushes (List.mem_map.2 ⟨_, mem_entriesOf.2 hl, rfl⟩)
  · intro a ha t ht h
    obtain ⟨j, hj, rfl⟩ := List.getElem_of_mem ht
    exact n3 a (mem_poppedIn.2 (List.mem_map.2 ⟨_, (got j _ (List.getElem?_eq_getElem hj) a).1 h, rfl⟩)) a ha rfl
  · intro i j t u ht hu hn a h h'
    exact popped_apart n1 hn ((got i t ht a).1 h) ((got j u hu a).1 h')
  · intro t ht
    obtain ⟨j, hj, rfl⟩ := List.getElem_of_mem ht
    rw [keyt j _ (List.getElem?_eq_getElem hj), List.filterMap_filterMap]
    have := popped_own n1 j
    unfold poppedIn at this
    have hfun : (fun x : TEv w => (TEv.result x).bind id) = fun | .pushed _ => none | .popped r => r := by
      funext e
      cases e <;> rfl
    rw [hfun]
    exact this

/-- **C189**: a thread that runs alone, from any state, comes to the end of its program, with at most eight steps for each
command. -/
theorem C189_alone (s : CSys w (BitVec w → BitVec w) (TSt w)) {i : Nat} {t : CThr w (TSt w)} (ht : s.thr[i]? = some t) :
    ∃ k u, k ≤ 8 * (t.st.cmds.length + 1) ∧ (actRun stackAct s (List.replicate k i)).thr[i]? = some u ∧
      u.st.finished := by
  obtain ⟨y, k, hk, hl, hf⟩ := solo_ends (s.value, s.data, t)
  exact ⟨k, y.2.2, hk, solo_run hl rfl rfl ht, hf⟩

/-! ## Examples -/

/-- Two threads, four nodes. -/
def exStackProgs : List (List (TCmd 8)) := [[.push 1, .push 2, .pop], [.push 3, .pop, .pop, .push 4]]

theorem exStackProgs_once : PushedOnce exStackProgs := by
  unfold PushedOnce exStackProgs
  decide

/-- Both threads read the head of the empty stack, the second one comes first; the exchange of the first one fails and
is repeated. -/
def exStackSched : List Nat := [0, 0, 1, 1, 0, 1, 1, 1] ++ List.replicate 40 0 ++ List.replicate 40 1

def exStackEnd : CSys 8 (BitVec 8 → BitVec 8) (TSt 8) := actRun stackAct (stackStart (fun _ => 0) exStackProgs) exStackSched

example : exStackEnd.thr.map (fun t => (t.st.phase, t.st.cmds, t.st.got)) =
    [(.idle, [], [some 2]), (.idle, [], [some 1, some 3])] ∧ exStackEnd.value = 4 ∧ exStackEnd.data 4 = 0 := by decide +kernel

example : ∃ S, linked exStackEnd.data exStackEnd.value S ∧ S.Nodup ∧
    (∀ a, (∃ p ∈ exStackProgs, a ∈ pushes p) ↔ a ∈ S ∨ ∃ t ∈ exStackEnd.thr, some a ∈ t.st.got) := by
  have hf : ∀ t ∈ exStackEnd.thr, t.st.phase = .idle ∧ t.st.cmds = [] := by decide +kernel
  obtain ⟨S, h1, h2, h3, _⟩ := C189_each_once (fun _ => 0) exStackProgs_once exStackSched hf
  exact ⟨S, h1, h2, h3⟩

/-- In the middle of an exchange. -/
example : ∃ (log : List (Nat × TEv 8)) (S : List (BitVec 8)), stackAfter (log.map Prod.snd) = some S ∧
    linked (actRun stackAct (stackStart (fun _ => 0) exStackProgs) [0, 0, 0, 0]).data 1 S := by
  obtain ⟨log, S, h1, h2, _⟩ := C189_linear (fun _ => 0) exStackProgs_once [0, 0, 0, 0]
  exact ⟨log, S, h1, h2⟩

example : ∃ k u, k ≤ 32 ∧
    (actRun stackAct (actRun stackAct (stackStart (fun _ => 0) exStackProgs) [0, 0, 1, 1, 0, 1, 1, 1])
      (List.replicate k 0)).thr[0]? = some u ∧ u.st.finished := by
  obtain ⟨k, u, h1, h2, h3⟩ := C189_alone
    (actRun stackAct (stackStart (fun _ => 0) exStackProgs) [0, 0, 1, 1, 0, 1, 1, 1]) (i := 0) rfl
  exact ⟨k, u, Nat.le_trans h1 (by decide +kernel), h2, h3⟩

/-- **C189**, why nodes must not be pushed again: two threads and two nodes, one of which is pushed again after it was
popped. Three nodes are pushed, three pops gave nodes, and all threads are through, but the stack is not empty: node 2 is in
the stack although it was pushed once and popped. -/
theorem C189_reuse : ∃ (progs : List (List (TCmd 8))) (sched : List Nat),
    let s := actRun stackAct (stackStart (fun _ => 0) progs) sched
    (progs.flatMap pushes).count 2 = 1 ∧ (∀ t ∈ s.thr, t.st.phase = .idle ∧ t.st.cmds = []) ∧
      (s.thr.flatMap fun t => t.st.got).count (some 2) = 1 ∧ s.value = 2 :=
  ⟨[[.pop], [.push 2, .push 1, .pop, .pop, .push 1]],
    List.replicate 10 1 ++ List.replicate 3 0 ++ List.replicate 15 1 ++ List.replicate 2 0, by decide +kernel⟩

end Zy
