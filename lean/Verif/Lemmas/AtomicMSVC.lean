import Verif.Model.AtomicMSVC
import Verif.Lemmas.Atomic

/-!
# Lemmas: the interlocked intrinsics simulate the `__sync` intrinsics
-/

namespace Zy

variable {w : Nat}

/-- The two threads differ only in the register, and the register leads to the same result. -/
structure SameThread (t : AThread w) (m : MThread w) : Prop where
  prog : m.prog = t.prog
  rets : m.rets = t.rets
  reg : m.reg.map (fun r => (r.1, BitVec.ofInt w r.2)) = t.reg.map fun r => (r.1, atomicReturn r.1 r.2)

theorem msvcRmw_same (op : AOp w) (v : BitVec w) :
    (msvcRmw op v).1 = (rmw op v).1 ∧ BitVec.ofInt w (msvcRmw op v).2 = atomicReturn op (rmw op v).2 := by
  have h1 : BitVec.ofInt w (v.toInt + 1) = v + 1 := by
    rw [BitVec.ofInt_add, BitVec.ofInt_toInt]; rfl
  have h2 : BitVec.ofInt w (v.toInt - 1) = v - 1 := by
    apply BitVec.eq_of_toInt_eq
    rw [BitVec.toInt_ofInt, BitVec.toInt_sub]
    have : (1 : BitVec w) = BitVec.ofInt w 1 := rfl
    rw [this, BitVec.toInt_ofInt, Int.sub_bmod_bmod]
  cases op with
  | inc => exact ⟨h1, (BitVec.ofInt_toInt ..).trans h1⟩
  | dec => exact ⟨h2, (BitVec.ofInt_toInt ..).trans h2⟩
  | cas c x => simp [msvcRmw, interlockedCompareExchange, rmw, atomicReturn, BitVec.toInt_inj]

theorem SameThread.step {t : AThread w} {m : MThread w} (h : SameThread t m) (v : BitVec w) :
    (msvcThreadStep v m).1 = (threadStep v t).1 ∧ SameThread (threadStep v t).2 (msvcThreadStep v m).2 := by
  obtain ⟨hp, hr, hg⟩ := h
  unfold msvcThreadStep threadStep
  cases hm : m.reg with
  | some r =>
    cases ht : t.reg with
    | none => rw [hm, ht] at hg; simp at hg
    | some q =>
      rw [hm, ht] at hg
      simp only [Option.map_some, Option.some.injEq, Prod.mk.injEq] at hg
      exact ⟨rfl, hp, by simp [hr, hg.1, hg.2], rfl⟩
  | none =>
    cases ht : t.reg with
    | some q => rw [hm, ht] at hg; simp at hg
    | none =>
      rw [hp]
      cases hq : t.prog with
      | nil => exact ⟨rfl, by rw [hp, hq], hr, by rw [hm, ht]; rfl⟩
      | cons op ops =>
        obtain ⟨e1, e2⟩ := msvcRmw_same op v
        exact ⟨e1, rfl, hr, by simp [e2]⟩

/-- The two systems have the same value and threads that correspond. -/
structure SameSys (s : ASys w) (m : MSys w) : Prop where
  value : m.value = s.value
  len : m.thr.length = s.thr.length
  thr : ∀ (i : Nat) (t : AThread w) (u : MThread w), s.thr[i]? = some t → m.thr[i]? = some u → SameThread t u

theorem SameSys.start (v : BitVec w) (progs : List (List (AOp w))) :
    SameSys (sysStart v progs) (msvcStart v progs) := by
  refine ⟨rfl, by simp [sysStart, msvcStart], fun i t u ht hu => ?_⟩
  simp only [sysStart, msvcStart, List.getElem?_map, Option.map_eq_some_iff] at ht hu
  obtain ⟨p, hp, rfl⟩ := ht
  obtain ⟨q, hq, rfl⟩ := hu
  rw [hp, Option.some.injEq] at hq
  exact ⟨hq.symm, rfl, rfl⟩

theorem SameSys.step {s : ASys w} {m : MSys w} (h : SameSys s m) (i : Nat) :
    SameSys (sysStep s i) (msvcStep m i) := by
  unfold sysStep msvcStep
  cases hs : s.thr[i]? with
  | none =>
    have : m.thr[i]? = none := by
      rw [List.getElem?_eq_none_iff] at *; rw [h.len]; exact hs
    rw [this]; exact h
  | some t =>
    have hi : i < m.thr.length := by
      obtain ⟨hi, _⟩ := List.getElem?_eq_some_iff.1 hs; rw [h.len]; exact hi
    have hm : m.thr[i]? = some m.thr[i] := List.getElem?_eq_getElem hi
    rw [hm]
    obtain ⟨e1, e2⟩ := (h.thr i t _ hs hm).step s.value
    rw [h.value]
    refine ⟨e1, by simp [h.len], fun j a b ha hb => ?_⟩
    simp only [List.getElem?_set] at ha hb
    by_cases hij : i = j
    · subst hij
      rw [if_pos rfl, if_pos (by rw [← h.len]; exact hi), Option.some.injEq] at ha
      rw [if_pos rfl, if_pos hi, Option.some.injEq] at hb
      rw [← ha, ← hb]; exact e2
    · rw [if_neg hij] at ha hb
      exact h.thr j a b ha hb

theorem SameSys.run {s : ASys w} {m : MSys w} (h : SameSys s m) (sched : List Nat) :
    SameSys (sysRun s sched) (msvcRun m sched) := by
  induction sched generalizing s m with
  | nil => exact h
  | cons i l ih => exact ih (h.step i)

theorem SameSys.returned {s : ASys w} {m : MSys w} (h : SameSys s m) (i : Nat) :
    msvcReturned m i = returned s i := by
  unfold msvcReturned Zy.returned
  cases hs : s.thr[i]? with
  | none =>
    have : m.thr[i]? = none := by
      rw [List.getElem?_eq_none_iff] at *; rw [h.len]; exact hs
    rw [this]
  | some t =>
    have hi : i < m.thr.length := by
      obtain ⟨hi, _⟩ := List.getElem?_eq_some_iff.1 hs; rw [h.len]; exact hi
    have hm : m.thr[i]? = some m.thr[i] := List.getElem?_eq_getElem hi
    rw [hm]
    exact (h.thr i t _ hs hm).rets

end Zy
