import Verif.Props.Defaults
import Verif.Props.StringDebug
import Verif.Lemmas.RequestsMore

/-!
# C122: every request to an allocator is proper

An allocator is asked with an element size and a number of elements that are not zero, for a block that
the container holds at this moment, obtained from the same allocator with the same element size. The
allocator may grant or refuse every single request. The events do not record what was asked in a refused
request; the same request is recorded in the execution in which the allocator grants it, and the theorems
are about all executions.
-/

namespace Zy

open Spec

variable {α : Type}

/-- C122, vectors: by whichever constructor and whatever calls, all requests were proper, the vector holds
the block that its data pointer denotes, and a vector on a buffer of the caller has called no allocator. -/
theorem C122_vector {w : World α} {s s' : VS α} (h : Made w s) (hl : LaterVec s s') : Proper w.trace s' := by
  obtain ⟨a, e, he, ho⟩ := h.orderly
  exact (hl.orderly he ho).proper

/-- C122, end of a vector: the allocator refuses to take the block back and the vector still holds it, or
all memory is given back. -/
theorem C122_vector_destroyed {w : World α} {s s' s'' : VS α} {st : Status} (h : Made w s) (hl : LaterVec s s')
    (hd : vecDestroy s' = .ret (st, s'')) :
    (failed st = true ∧ Proper w.trace s'') ∨ (st = stSuccess ∧ Released w.trace s''.w.trace) := by
  obtain ⟨a, e, he, ho⟩ := h.orderly
  rcases vecDestroy_accounted he (hl.orderly he ho) _ hd with ⟨h1, _, h2⟩ | h1
  · exact Or.inl ⟨h1, h2.proper⟩
  · exact Or.inr h1

/-- C122, a constructor that fails holds no memory. -/
theorem C122_vector_refused {w w' : World α} {esz cap : Nat} {dt : Bool} {al : Option Nat} {g th : Nat}
    {st : Status} {o : Option (Vec α)} (h : vecInitEx w esz cap dt al g th = (st, o, w'))
    (hf : failed st = true) : Released w.trace w'.trace :=
  vecInitEx_failed h hf

/-- C122, strings. -/
theorem C122_string {w : World Byte} {t t' : Str} (h : MadeStr w t) (hl : Later t t') :
    Proper w.trace t'.s := by
  obtain ⟨a, ho⟩ := h.orderly
  exact (hl.orderly (by decide) ho).vec.proper

/-- C122, end of a string. -/
theorem C122_string_destroyed {w : World Byte} {t t' t'' : Str} {st : Status} (h : MadeStr w t)
    (hl : Later t t') (hd : strDestroy t' = .ret (st, t'')) :
    (failed st = true ∧ Proper w.trace t''.s) ∨ (st = stSuccess ∧ Released w.trace t''.s.w.trace) := by
  obtain ⟨a, ho⟩ := h.orderly
  rcases strDestroy_accounted (by decide) (hl.orderly (by decide) ho) _ hd with ⟨h1, _, h2⟩ | h1
  · exact Or.inl ⟨h1, h2.vec.proper⟩
  · exact Or.inr h1

/-- C122, bitsets. -/
theorem C122_bitset {w : World Byte} {t t' : Bits} (h : MadeBits w t) (hl : LaterBits t t') :
    Proper w.trace t'.s := by
  obtain ⟨a, ho⟩ := h.orderly
  exact (hl.orderly (by decide) ho).proper

/-- C122, end of a bitset. -/
theorem C122_bitset_destroyed {w : World Byte} {t t' t'' : Bits} {st : Status} (h : MadeBits w t)
    (hl : LaterBits t t') (hd : bsDestroy t' = .ret (st, t'')) :
    (failed st = true ∧ Proper w.trace t''.s) ∨ (st = stSuccess ∧ Released w.trace t''.s.w.trace) := by
  obtain ⟨a, ho⟩ := h.orderly
  obtain ⟨r, h1, h2⟩ := bind_ret hd
  cases h2
  rcases vecDestroy_accounted (by decide) (hl.orderly (by decide) ho) _ h1 with ⟨h1, _, h2⟩ | h1
  · exact Or.inl ⟨h1, h2.proper⟩
  · exact Or.inr h1

/-- C122, the argument parser: when it returns, either nothing is held, or the resulting vector holds
what was allocated. -/
theorem C122_argparse {w : World AArg} {cfg : ArgConfig} {want : Bool} {al : Option Nat} {r : ArgResult}
    (h : argParseEx w cfg want al = .ret r) :
    Released w.trace r.w.trace ∨ ∃ v, r.vec = some v ∧ v.allocator ≠ none ∧ Proper w.trace ⟨v, r.w⟩ :=
  argParseEx_accounted w cfg want al r h

/-- C122, lists with an allocator: all requests were proper, and every accessible node is held. Missing:
element sizes for which the size of a node does not fit into 64 bits (`C122_list_negation`). -/
theorem C122_list_partial {w : LWorld α} {esz a : Nat} {dt : Bool} {st : Status} {l : ZList}
    (he : 16 + esz < 18446744073709551616) (h : listInitEx esz dt (some a) = (st, some l))
    {ops : List (LOp α)} {sts : List Status} {s : LS α}
    (hr : runList ⟨l, fun _ => none, w⟩ ops = .ret (sts, s)) :
    (∃ es L, s.w.trace = w.trace ++ es ∧ nodeRequests es = some L ∧
      ∀ p nd, s.mem p = some nd → ⟨a, p, 16 + esz⟩ ∈ L) ∧
    ∀ st' s', listDestroy s = .ret (st', s') → ∃ es L, s'.w.trace = w.trace ++ es ∧ nodeRequests es = some L ∧
      ∀ p nd, s'.mem p = some nd → ⟨a, p, 16 + esz⟩ ∈ L := by
  have h0 : LOrderly w.trace (some a) esz (⟨l, fun _ => none, w⟩ : LS α) := by
    unfold listInitEx at h
    split at h
    · cases h
    · cases h
      exact ⟨rfl, rfl, [], by simp, [], rfl, by simp⟩
  have h1 := runList_orderly he ops h0 _ hr
  constructor
  · obtain ⟨_, _, es, h3, L, h4⟩ := h1
    exact ⟨es, L, h3, h4⟩
  · intro st' s' hd
    obtain ⟨_, _, es, h3, L, h4⟩ := listDestroy_orderly he h1 _ hd
    exact ⟨es, L, h3, h4⟩

/-- C122, lists on a buffer of the caller call no allocator, not even to destroy the list. -/
theorem C122_list_buffer {w : LWorld α} {mem : Nat → Option (LNode α)} {esz cap b : Nat} {dt : Bool}
    {st : Status} {l : ZList} (he : 16 + esz < 18446744073709551616)
    (h : listInitBuffer esz dt (some b) cap = (st, some l))
    {ops : List (LOp α)} {sts : List Status} {s : LS α} (hr : runList ⟨l, mem, w⟩ ops = .ret (sts, s)) :
    (∃ es, s.w.trace = w.trace ++ es ∧ ∀ x ∈ es, isDestroy x = true) ∧
    ∀ st' s', listDestroy s = .ret (st', s') →
      ∃ es, s'.w.trace = w.trace ++ es ∧ ∀ x ∈ es, isDestroy x = true := by
  have h0 : LOrderly w.trace none esz (⟨l, mem, w⟩ : LS α) := by
    unfold listInitBuffer at h
    split at h
    · cases h
    · cases h
      exact ⟨rfl, rfl, [], by simp, by simp⟩
  have h1 := runList_orderly he ops h0 _ hr
  exact ⟨h1.ok, fun st' s' hd => (listDestroy_orderly he h1 _ hd).ok⟩

/-- C122 is false of lists with elements of `2^64 - 16` bytes: as soon as a node is needed, the allocator
is asked for an element of zero bytes. `listAllocateNode` is the first thing that each insertion does. -/
theorem C122_list_negation {w : LWorld α} {a : Nat} {dt : Bool} {st : Status} {l : ZList}
    (h : listInitEx 18446744073709551600 dt (some a) = (st, some l)) (hg : failed (w.allocSt w.calls) = false) :
    ∃ p s, listAllocateNode (⟨l, fun _ => none, w⟩ : LS α) = .ret (stSuccess, some p, s) ∧
      s.w.trace = w.trace ++ [.alloc a p 0 1] ∧ nodeRequests [(.alloc a p 0 1 : Event α)] = none := by
  have hl : l.allocator = some a ∧ nodeSize l = 0 := by
    unfold listInitEx at h
    rw [if_neg (by simp)] at h
    cases h
    refine ⟨rfl, ?_⟩
    show add64 16 18446744073709551600 = 0
    decide +kernel
  obtain ⟨hal, hz⟩ := hl
  have key : ∃ s, listAllocateNode (⟨l, fun _ => none, w⟩ : LS α) = .ret (stSuccess, some w.nextBlk, s) ∧
      s.w.trace = w.trace ++ [.alloc a w.nextBlk 0 1] := by
    unfold listAllocateNode
    rw [hal]
    simp only [nodeAllocate, hg, Bool.false_eq_true, if_false]
    exact ⟨_, rfl, by simp only [LS.log, LS.put, hz]⟩
  obtain ⟨s, h1, h2⟩ := key
  exact ⟨w.nextBlk, s, h1, h2, by simp [nodeRequests, nodeStep]⟩

/-! ## Examples -/

/-- A world whose allocator refuses every third call. -/
def exThird (β : Type) : World β := ⟨fun k => if k % 3 = 2 then stNoMemory else stSuccess, 0, 0, []⟩

/-- What happened in a history, for evaluation. -/
def traceOf {β : Type} (r : Out (List Status × VS β)) : List (Event β) :=
  match r with
  | .ret q => q.2.w.trace
  | .ub _ => []

/-- The vector of the examples: one element of eight bytes, growth factor 2, shrink threshold 4. -/
def exReqVec : VS Nat :=
  ⟨⟨some 5, 2, 4, 0, 1, 8, true, some ⟨0, [none]⟩⟩,
   ⟨fun k => if k % 3 = 2 then stNoMemory else stSuccess, 1, 1, [.alloc 5 0 8 1]⟩⟩

theorem exReqVec_made : Made (exThird Nat) exReqVec :=
  Made.init (esz := 8) (cap := 0) (dt := true) (al := some 5) (g := 2) (th := 4) (st := stSuccess) rfl (by decide)

/-- Four insertions; the vector grows twice and the second time it is refused. -/
def exReqOps : List (VOp Nat) := [.push (some 1), .push (some 2), .push (some 3), .push (some 4), .push (some 6)]

theorem runVec_later {s s' : VS α} : ∀ {ops : List (VOp α)} {sts : List Status} {u : VS α}, LaterVec s u →
    runVec u ops = .ret (sts, s') → LaterVec s s' := by
  intro ops
  induction ops with
  | nil => intro sts u hu h; cases h; exact hu
  | cons op ops ih =>
    intro sts u hu h
    obtain ⟨r, h1, h2⟩ := bind_ret h
    obtain ⟨q, h3, h4⟩ := bind_ret h2
    cases h4
    exact ih (hu.step (st := r.1) h1) h3

example : ∀ sts s, runVec exReqVec exReqOps = .ret (sts, s) → Proper (exThird Nat).trace s :=
  fun _ _ h => C122_vector exReqVec_made (runVec_later (.refl _) h)

example : (traceOf (runVec exReqVec exReqOps)) =
    [.alloc 5 0 8 1, .realloc 5 0 1 8 4, .refused 5] := by decide +kernel

example : requests (traceOf (runVec exReqVec exReqOps)) = some (some ⟨5, 1, 8⟩) := by decide +kernel

example : ∀ sts s st s', runVec exReqVec exReqOps = .ret (sts, s) → vecDestroy s = .ret (st, s') →
    (failed st = true ∧ Proper (exThird Nat).trace s') ∨
      (st = stSuccess ∧ Released (exThird Nat).trace s'.w.trace) :=
  fun _ _ _ _ h hd => C122_vector_destroyed exReqVec_made (runVec_later (.refl _) h) hd

example : ((runVec exReqVec exReqOps).bind fun r => (vecDestroy r.2).bind fun q =>
    .ret (q.1, requests q.2.w.trace)) = .ret (stSuccess, some none) := by decide +kernel

/-- Requests that are not proper: a size of zero, another element size, a block that is not held. -/
example : requests [(.alloc 5 0 8 0 : Event Nat)] = none ∧
    requests [(.alloc 5 0 8 1 : Event Nat), .realloc 5 0 1 4 2] = none ∧
    requests [(.alloc 5 0 8 1 : Event Nat), .dealloc 5 0 8 1, .dealloc 5 0 8 1] = none ∧
    requests [(.alloc 5 0 8 1 : Event Nat), .dealloc 6 0 8 1] = none := by decide +kernel

example : ∃ o w', vecInitEx ⟨fun _ => stNoMemory, 0, 0, ([] : List (Event Nat))⟩ 8 3 false (some 5) 2 4 =
    (stNoMemory, o, w') ∧ Released [] w'.trace := by
  refine ⟨_, _, rfl, ?_⟩
  exact C122_vector_refused (w := ⟨fun _ => stNoMemory, 0, 0, ([] : List (Event Nat))⟩) (esz := 8) (cap := 3)
    (dt := false) (al := some 5) (g := 2) (th := 4) rfl (by decide)

/-- What happened in a history of a new string, for evaluation. -/
def strTrace (r : Out (Status × Option Str × World Byte)) (ops : List SOp) : List (Event Byte) :=
  match r with
  | .ret (_, some t, _) => match runStr t ops with
    | .ret q => q.2.s.w.trace
    | .ub _ => []
  | _ => []

/-- A string that grows behind its first 33 bytes and is extended after a refused attempt to
empty it. -/
example : strTrace (strInitEx (exThird Byte) 0 (some 7) 2 4)
    [.resize 40, .clear, .append [some 97#8, some 98#8]] =
    [.alloc 7 0 1 33, .realloc 7 0 1 1 82, .refused 7, .realloc 7 1 2 1 86] := by decide +kernel

theorem runStr_later {t t' : Str} : ∀ {ops : List SOp} {sts : List Status} {u : Str}, Later t u →
    runStr u ops = .ret (sts, t') → Later t t' := by
  intro ops
  induction ops with
  | nil => intro sts u hu h; cases h; exact hu
  | cons op ops ih =>
    intro sts u hu h
    obtain ⟨r, h1, h2⟩ := bind_ret h
    obtain ⟨q, h3, h4⟩ := bind_ret h2
    cases h4
    exact ih (hu.step (st := r.1) h1) h3

example {t t' : Str} {sts : List Status} {w' : World Byte}
    (h : strInitEx (exThird Byte) 0 (some 7) 2 4 = .ret (stSuccess, some t, w'))
    (hr : runStr t [.resize 40, .clear, .append [some 97#8, some 98#8]] = .ret (sts, t')) :
    Proper [] t'.s ∧ ∀ st t'', strDestroy t' = .ret (st, t'') →
      (failed st = true ∧ Proper [] t''.s) ∨ (st = stSuccess ∧ Released [] t''.s.w.trace) :=
  ⟨C122_string (.init h) (runStr_later (.refl _) hr), fun _ _ hd =>
    C122_string_destroyed (.init h) (runStr_later (.refl _) hr) hd⟩

theorem runBits_later {t t' : Bits} : ∀ {ops : List BOp} {sts : List Status} {u : Bits}, LaterBits t u →
    runBits u ops = .ret (sts, t') → LaterBits t t' := by
  intro ops
  induction ops with
  | nil => intro sts u hu h; cases h; exact hu
  | cons op ops ih =>
    intro sts u hu h
    obtain ⟨r, h1, h2⟩ := bind_ret h
    obtain ⟨q, h3, h4⟩ := bind_ret h2
    cases h4
    exact ih (hu.step (st := r.1) h1) h3

/-- A bitset on a buffer of two bytes: the third byte does not fit, and no allocator is called. -/
example : ∃ t sts t', bsInitBuffer (exThird Byte) 16 (some ⟨9, [none, none]⟩) 2 = .ret (stSuccess, some t) ∧
    runBits t [.push true, .pop, .setAll] = .ret (sts, t') ∧ t'.s.w.trace = [] := by
  refine ⟨_, _, _, rfl, rfl, ?_⟩
  decide +kernel

example {t t' : Bits} {sts : List Status} {b : Option (Block Byte)}
    (h : bsInitBuffer (exThird Byte) 16 b 2 = .ret (stSuccess, some t))
    (hr : runBits t [.push true, .pop, .setAll] = .ret (sts, t')) :
    Proper [] t'.s ∧ ∀ st t'', bsDestroy t' = .ret (st, t'') →
      (failed st = true ∧ Proper [] t''.s) ∨ (st = stSuccess ∧ Released [] t''.s.w.trace) :=
  ⟨C122_bitset (.buffer h) (runBits_later (.refl _) hr), fun _ _ hd =>
    C122_bitset_destroyed (.buffer h) (runBits_later (.refl _) hr) hd⟩

/-- Too many arguments: the vector is destroyed on the way out, and nothing is held. -/
example : (argParseEx exAW (exCfg 0 1 ["a", "b"]) true (some 3)).bind (fun r => .ret (r.status, requests r.w.trace)) =
    .ret (stTooManyArgs, some none) := by decide +kernel

example {r : ArgResult} (h : argParseEx exAW (exCfg 0 1 ["a", "b"]) true (some 3) = .ret r) :
    Released [] r.w.trace ∨ ∃ v, r.vec = some v ∧ v.allocator ≠ none ∧ Proper [] ⟨v, r.w⟩ := C122_argparse h

example {sts : List Status} {s : LS Nat} (hr : runList exLDyn exLOps = .ret (sts, s)) :
    ∃ es L, s.w.trace = exLW.trace ++ es ∧ nodeRequests es = some L ∧
      ∀ p nd, s.mem p = some nd → ⟨0, p, 16 + 8⟩ ∈ L :=
  (C122_list_partial (w := exLW) (esz := 8) (a := 0) (dt := true) (st := stSuccess) (by decide) rfl hr).1

example : (runList exLDyn exLOps).bind (fun r => .ret (nodeRequests r.2.w.trace)) =
    .ret (some [⟨0, 4, 24⟩, ⟨0, 3, 24⟩, ⟨0, 2, 24⟩, ⟨0, 0, 24⟩]) := by decide +kernel

example {sts : List Status} {s : LS Nat} (hr : runList exLFix exLOps = .ret (sts, s)) :
    ∃ es, s.w.trace = exLW.trace ++ es ∧ ∀ x ∈ es, isDestroy x = true :=
  (C122_list_buffer (w := exLW) (esz := 4) (b := 7) (cap := 64) (dt := false) (st := stSuccess) (by decide) rfl
    hr).1

example : ∃ p s, listAllocateNode (⟨⟨some 0, 0, 18446744073709551600, true, none, none, none, 0, none⟩,
      fun _ => none, exLW⟩ : LS Nat) = .ret (stSuccess, some p, s) ∧
    s.w.trace = [] ++ [.alloc 0 p 0 1] ∧ nodeRequests [(.alloc 0 p 0 1 : Event Nat)] = none :=
  C122_list_negation (w := exLW) (a := 0) (dt := true) (st := stSuccess) (by decide +kernel) (by decide)

end Zy
