import Verif.Spec.Atomic

/-!
# Lemmas about the atomic operations
-/

namespace Zy

open Zy.Spec
open List (Perm)
open scoped List

variable {w : Nat}

theorem Spec.Sequential.snoc {v v' : BitVec w} {l : List (ACall w)} (h : Sequential v l v') (i : Nat)
    (op : AOp w) : Sequential v (l ++ [(i, op, (whole op v').2)]) (whole op v').1 := by
  induction h with
  | nil v => exact .cons (.nil _)
  | cons h ih => exact .cons ih

theorem rmw_fst (op : AOp w) (v : BitVec w) : (rmw op v).1 = (whole op v).1 := by cases op <;> rfl

theorem return_rmw (op : AOp w) (v : BitVec w) : atomicReturn op (rmw op v).2 = (whole op v).2 := by
  cases op <;> rfl

/-- The call that a step of thread `i` performs, if it performs one. -/
def linStep (s : ASys w) (i : Nat) : List (ACall w) :=
  match s.thr[i]? with
  | none => []
  | some t =>
    match t.reg, t.prog with
    | none, op :: _ => [(i, op, (whole op s.value).2)]
    | _, _ => []

/-- The calls in the order of their intrinsics. -/
def linLog (s : ASys w) : List Nat → List (ACall w)
  | [] => []
  | i :: is => linStep s i ++ linLog (sysStep s i) is

/-- The results of a thread, including that of a call in progress. -/
def results (t : AThread w) : List (AOp w × BitVec w) :=
  t.rets ++ (t.reg.toList.map fun r => (r.1, atomicReturn r.1 r.2))

theorem byThread_append (l l' : List (ACall w)) (i : Nat) :
    byThread (l ++ l') i = byThread l i ++ byThread l' i := by simp [byThread]

theorem sysRun_append (s : ASys w) (l l' : List Nat) : sysRun s (l ++ l') = sysRun (sysRun s l) l' := by
  simp [sysRun]

theorem linLog_append (l l' : List Nat) : ∀ s : ASys w,
    linLog s (l ++ l') = linLog s l ++ linLog (sysRun s l) l' := by
  induction l with
  | nil => intro s; rfl
  | cons i l ih =>
    intro s
    rw [List.cons_append, linLog, ih, linLog, List.append_assoc]
    rfl

/-- The invariant: the log is sequential, has the results of every thread, and what is left of a program
follows its part of the log. -/
structure AtomInv (v : BitVec w) (progs : List (List (AOp w))) (l : List (ACall w)) (s : ASys w) : Prop where
  seq : Sequential v l s.value
  len : s.thr.length = progs.length
  tid : ∀ c ∈ l, c.1 < progs.length
  res : ∀ i t, s.thr[i]? = some t → byThread l i = results t
  prog : ∀ i t, s.thr[i]? = some t → progs[i]? = some ((byThread l i).map (·.1) ++ t.prog)

theorem AtomInv.start (v : BitVec w) (progs : List (List (AOp w))) : AtomInv v progs [] (sysStart v progs) := by
  refine ⟨.nil _, by simp [sysStart], by simp, ?_, ?_⟩
  · intro i t h
    simp only [sysStart, List.getElem?_map, Option.map_eq_some_iff] at h
    obtain ⟨p, _, rfl⟩ := h
    rfl
  · intro i t h
    simp only [sysStart, List.getElem?_map, Option.map_eq_some_iff] at h
    obtain ⟨p, hp, rfl⟩ := h
    simpa [byThread] using hp

theorem byThread_single (i j : Nat) (r : AOp w × BitVec w) :
    byThread [(j, r)] i = if j = i then [r] else [] := by
  unfold byThread
  by_cases h : j = i <;> simp [h]

theorem AtomInv.step {v : BitVec w} {progs : List (List (AOp w))} {l : List (ACall w)} {s : ASys w}
    (I : AtomInv v progs l s) (i : Nat) : AtomInv v progs (l ++ linStep s i) (sysStep s i) := by
  unfold linStep sysStep
  cases hi : s.thr[i]? with
  | none => simpa using I
  | some t =>
    have hil : i < s.thr.length := by
      rcases Nat.lt_or_ge i s.thr.length with h | h
      · exact h
      · rw [List.getElem?_eq_none h] at hi; cases hi
    have hset : ∀ t' : AThread w, ∀ j u, (s.thr.set i t')[j]? = some u →
        (j = i ∧ u = t') ∨ (j ≠ i ∧ s.thr[j]? = some u) := by
      intro t' j u hu
      by_cases hj : j = i
      · subst hj
        rw [List.getElem?_set_self hil] at hu
        exact Or.inl ⟨rfl, (Option.some.inj hu).symm⟩
      · rw [List.getElem?_set_ne (fun h => hj h.symm)] at hu
        exact Or.inr ⟨hj, hu⟩
    have hres := I.res i t hi
    have hprog := I.prog i t hi
    obtain ⟨prog, reg, rets⟩ := t
    cases reg with
    | some r =>
      obtain ⟨op, x⟩ := r
      simp only [threadStep, List.append_nil]
      refine ⟨I.seq, by simpa using I.len, I.tid, ?_, ?_⟩
      · intro j u hu
        rcases hset _ j u hu with ⟨rfl, rfl⟩ | ⟨_, hu⟩
        · rw [hres]; simp [results]
        · exact I.res j u hu
      · intro j u hu
        rcases hset _ j u hu with ⟨rfl, rfl⟩ | ⟨_, hu⟩
        · exact hprog
        · exact I.prog j u hu
    | none =>
      cases prog with
      | nil =>
        simp only [threadStep, List.append_nil]
        refine ⟨I.seq, by simpa using I.len, I.tid, ?_, ?_⟩
        · intro j u hu
          rcases hset _ j u hu with ⟨rfl, rfl⟩ | ⟨_, hu⟩
          · exact hres
          · exact I.res j u hu
        · intro j u hu
          rcases hset _ j u hu with ⟨rfl, rfl⟩ | ⟨_, hu⟩
          · exact hprog
          · exact I.prog j u hu
      | cons op ops =>
        simp only [threadStep]
        refine ⟨?_, by simpa using I.len, ?_, ?_, ?_⟩
        · rw [rmw_fst]; exact I.seq.snoc i op
        · intro c hc
          rw [List.mem_append, List.mem_singleton] at hc
          rcases hc with hc | rfl
          · exact I.tid c hc
          · rw [← I.len]; exact hil
        · intro j u hu
          rw [byThread_append, byThread_single]
          rcases hset _ j u hu with ⟨rfl, rfl⟩ | ⟨hj, hu⟩
          · rw [if_pos rfl, hres]
            simp [results, return_rmw]
          · rw [if_neg (fun h => hj h.symm), List.append_nil]
            exact I.res j u hu
        · intro j u hu
          rw [byThread_append, byThread_single]
          rcases hset _ j u hu with ⟨rfl, rfl⟩ | ⟨hj, hu⟩
          · rw [if_pos rfl, hprog]
            simp
          · rw [if_neg (fun h => hj h.symm), List.append_nil]
            exact I.prog j u hu

theorem AtomInv.run (sched : List Nat) : ∀ {v : BitVec w} {progs : List (List (AOp w))} {l : List (ACall w)}
    {s : ASys w}, AtomInv v progs l s → AtomInv v progs (l ++ linLog s sched) (sysRun s sched) := by
  induction sched with
  | nil => intro v progs l s I; simpa [linLog, sysRun] using I
  | cons i is ih =>
    intro v progs l s I
    have := ih (I.step i)
    rw [List.append_assoc] at this
    exact this

/-! ## Partition of the calls by thread -/

theorem flatMap_cons_perm {β : Type} (f g : Nat → List β) (x : β) (i : Nat) (hi : f i = x :: g i)
    (hne : ∀ j, j ≠ i → f j = g j) : ∀ n, i < n → (List.range n).flatMap f ~ x :: (List.range n).flatMap g
  | 0, h => by omega
  | n + 1, h => by
    rw [List.range_succ, List.flatMap_append, List.flatMap_append]
    simp only [List.flatMap_cons, List.flatMap_nil, List.append_nil]
    by_cases e : i = n
    · subst e
      have e2 : (List.range i).flatMap f = (List.range i).flatMap g := by
        apply congrArg List.flatten
        apply List.map_congr_left
        intro j hj
        have := List.mem_range.1 hj
        exact hne j (by omega)
      rw [hi, e2]
      exact List.perm_middle
    · rw [hne n (fun h => e h.symm)]
      exact (flatMap_cons_perm f g x i hi hne n (by omega)).append_right _

/-- The calls of all threads are the calls of the log. -/
theorem byThread_perm (n : Nat) : ∀ l : List (ACall w), (∀ c ∈ l, c.1 < n) →
    (List.range n).flatMap (byThread l) ~ l.map (·.2)
  | [], _ => by
    have : (List.range n).flatMap (byThread ([] : List (ACall w))) = [] := by
      rw [List.flatMap_eq_nil_iff]; intro j _; rfl
    rw [this]; exact List.Perm.refl _
  | c :: l, h => by
    have hc : c.1 < n := h c (by simp)
    refine (flatMap_cons_perm (byThread (c :: l)) (byThread l) c.2 c.1 ?_ ?_ n hc).trans ?_
    · simp [byThread]
    · intro j hj
      unfold byThread
      rw [List.filter_cons, if_neg (by simpa using fun h => hj h.symm)]
    · exact (byThread_perm n l fun d hd => h d (by simp [hd])).cons _

/-- A completed system. -/
theorem AtomInv.done {v : BitVec w} {progs : List (List (AOp w))} {l : List (ACall w)} {s : ASys w}
    (I : AtomInv v progs l s) (hd : sysDone s) :
    (∀ i, byThread l i = returned s i) ∧ ∀ i, i < progs.length → progs[i]? = some ((returned s i).map (·.1)) := by
  have key : ∀ i t, s.thr[i]? = some t → byThread l i = t.rets ∧ t.prog = [] := by
    intro i t ht
    have := hd t (List.mem_of_getElem? ht)
    rw [I.res i t ht]
    simp [results, this.2, this.1]
  constructor
  · intro i
    unfold returned
    cases hi : s.thr[i]? with
    | some t => exact (key i t hi).1
    | none =>
      have hle : progs.length ≤ i := by
        rw [← I.len]; exact List.getElem?_eq_none_iff.1 hi
      simp only [byThread, List.map_eq_nil_iff, List.filter_eq_nil_iff]
      intro c hc
      have := I.tid c hc
      simp; omega
  · intro i hi
    have hil : i < s.thr.length := by rw [I.len]; exact hi
    have ht : s.thr[i]? = some s.thr[i] := List.getElem?_eq_getElem hil
    have h1 := key i _ ht
    have h2 := I.prog i _ ht
    rw [h1.2, List.append_nil, h1.1] at h2
    rw [h2, returned, ht]

/-- The programs of a completed system are the calls of the log. -/
theorem AtomInv.progs_perm {v : BitVec w} {progs : List (List (AOp w))} {l : List (ACall w)} {s : ASys w}
    (I : AtomInv v progs l s) (hd : sysDone s) : progs.flatten ~ l.map (·.2.1) := by
  have h1 := (I.done hd).1
  have h2 := (I.done hd).2
  have e : progs = (List.range progs.length).map fun i => (byThread l i).map (·.1) := by
    apply List.ext_getElem?
    intro i
    rcases Nat.lt_or_ge i progs.length with h | h
    · rw [h2 i h, List.getElem?_map, List.getElem?_range h]; simp only [Option.map_some, h1]
    · rw [List.getElem?_eq_none h, List.getElem?_eq_none (by simpa using h)]
  have hp := (byThread_perm progs.length l I.tid).map (·.1)
  rw [List.map_map] at hp
  refine List.Perm.trans (List.Perm.of_eq ?_) hp
  conv => lhs; rw [e]
  rw [List.map_flatMap]
  rfl

theorem seq_value {v v' : BitVec w} {l : List (ACall w)} (h : Sequential v l v')
    (hl : ∀ c ∈ l, c.2.1 = .inc ∨ c.2.1 = .dec) :
    v' = v + BitVec.ofNat w (l.countP (·.2.1 = .inc)) - BitVec.ofNat w (l.countP (·.2.1 = .dec)) := by
  induction h with
  | nil v => simp
  | @cons v v' op i l h ih =>
    have ih := ih fun c hc => hl c (by simp [hc])
    have hop := hl _ (List.mem_cons_self ..)
    simp only at hop
    rw [ih, List.countP_cons, List.countP_cons]
    apply BitVec.eq_of_toNat_eq
    rcases hop with rfl | rfl
    · simp only [whole, decide_true, if_true]
      rw [show decide ((AOp.inc : AOp w) = .dec) = false from rfl]
      simp only [Bool.false_eq_true, if_false, Nat.add_zero]
      congr 2
      rw [BitVec.ofNat_add, BitVec.add_assoc]
      congr 1
      rw [BitVec.add_comm]
      rfl
    · simp only [whole, decide_true, if_true]
      rw [show decide ((AOp.dec : AOp w) = .inc) = false from rfl]
      simp only [Bool.false_eq_true, if_false, Nat.add_zero]
      congr 1
      rw [BitVec.ofNat_add, BitVec.sub_eq_add_neg, BitVec.sub_eq_add_neg, BitVec.sub_eq_add_neg, BitVec.neg_add,
        BitVec.sub_eq_add_neg]
      rw [BitVec.add_assoc, BitVec.add_assoc, BitVec.add_assoc]
      congr 1
      rw [BitVec.add_comm, BitVec.add_assoc]
      rfl

/-- The results of increments, one after the other. -/
theorem seq_incs {v v' : BitVec w} {l : List (ACall w)} (h : Sequential v l v')
    (hl : ∀ c ∈ l, c.2.1 = .inc) : l.map (·.2.2) = (List.range l.length).map fun j => v + BitVec.ofNat w (j + 1) := by
  induction h with
  | nil v => rfl
  | @cons v v' op i l h ih =>
    have ih := ih fun c hc => hl c (by simp [hc])
    have hop := hl _ (List.mem_cons_self ..)
    simp only at hop
    subst hop
    rw [List.map_cons, ih, List.length_cons, List.range_succ_eq_map, List.map_cons, List.map_map]
    simp only [whole]
    congr 1
    apply List.map_congr_left
    intro j _
    simp only [Function.comp]
    rw [BitVec.add_assoc]
    congr 1
    apply BitVec.eq_of_toNat_eq
    simp only [BitVec.toNat_add, BitVec.toNat_ofNat, Nat.succ_eq_add_one]
    rw [show (1 : BitVec w).toNat = 1 % 2 ^ w by simp, ← Nat.add_mod]
    congr 1
    omega

/-- Compare-exchanges that all expect the same value. -/
theorem seq_cas_lost {v v' e : BitVec w} {l : List (ACall w)} (h : Sequential v l v')
    (hl : ∀ c ∈ l, ∃ x, c.2.1 = .cas e x) (hv : v ≠ e) : ∀ c ∈ l, c.2.2 ≠ e := by
  induction h with
  | nil v => intro c hc; cases hc
  | @cons v v' op i l h ih =>
    obtain ⟨x, hx⟩ := hl _ (List.mem_cons_self ..)
    simp only at hx
    subst hx
    have e1 : (whole (.cas e x) v).1 = v := by simp [whole, hv]
    intro c hc
    rcases List.mem_cons.1 hc with rfl | hc
    · simpa [whole] using hv
    · exact ih (fun c hc => hl c (by simp [hc])) (by rw [e1]; exact hv) c hc

theorem seq_cas_keeps {v v' e : BitVec w} {l : List (ACall w)} (h : Sequential v l v')
    (hl : ∀ c ∈ l, ∃ x, c.2.1 = .cas e x) (hv : v ≠ e) : v' = v := by
  induction h with
  | nil v => rfl
  | @cons v v' op i l h ih =>
    obtain ⟨x, hx⟩ := hl _ (List.mem_cons_self ..)
    simp only at hx
    subst hx
    have e1 : (whole (.cas e x) v).1 = v := by simp [whole, hv]
    rw [ih (fun c hc => hl c (by simp [hc])) (by rw [e1]; exact hv), e1]

end Zy
