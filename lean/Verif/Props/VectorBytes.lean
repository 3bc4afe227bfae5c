import Verif.Lemmas.VectorBytesSim
import Verif.Props.Vector

/-!
# Property theorems about vectors on bytes (C130)

`Model/Vector.lean` describes memory as a list of elements; `Model/VectorBytes.lean` computes every address
and every length in bytes, as the source does. The theorems say that the two agree, and what the bytes
therefore are.
-/

namespace Zy

open Spec

/-! ## A vector of two-byte elements, used by the examples -/

/-- Allocator 0, growth factor 2, shrink threshold 4, two-byte elements, a destructor. -/
def exBytesP : Params := ⟨some 0, 2, 4, 2, true⟩

/-- A fresh world whose allocator always succeeds. -/
def exBytesW : World Elem := ⟨fun _ => stSuccess, 0, 0, []⟩

/-- The vector right after initialisation with capacity 1, on elements. -/
def exBytesS : VS Elem :=
  ⟨{ allocator := some 0, growth := 2, shrink := 4, size := 0, cap := 1, esz := 2, hasDtor := true,
     data := some ⟨0, [none]⟩ }, ⟨fun _ => stSuccess, 1, 1, [.alloc 0 0 2 1]⟩⟩

/-- The vector right after initialisation with capacity 1, on bytes. -/
def exBytesT : VB :=
  ⟨{ allocator := some 0, growth := 2, shrink := 4, size := 0, cap := 1, esz := 2, hasDtor := true,
     data := some ⟨0, [none, none]⟩ }, ⟨fun _ => stSuccess, 1, 1, [.alloc 0 0 2 1]⟩⟩

theorem exBytesS_reach : Reach exBytesP exBytesS :=
  Reach.init (w := exBytesW) (cap := 1) (a := 0) ⟨rfl, rfl⟩ (fun _ => failed_success)
    ⟨rfl, by decide, by decide⟩ (by decide) rfl

theorem exBytes_same : SameState exBytesS exBytesT :=
  ⟨⟨rfl, rfl, rfl, rfl, rfl, rfl, rfl,
    ⟨rfl, .elem (bs := [none, none]) ⟨rfl, nofun⟩ (.rest [] (by decide)), by decide⟩, by decide⟩,
   ⟨rfl, rfl, rfl, .snoc (t := []) (t' := []) .nil rfl⟩⟩

/-- The bytes of an element. -/
def exElem (a b : Byte) : Elem := [some a, some b]

/-- Three insertions (the second and third reallocate), a swap and a deletion. -/
def exBytesOps : List (VOp Elem) :=
  [.push (some (exElem 1 2)), .insertRange 0 [some (exElem 3 4), some (exElem 5 6)], .swap 0 2,
   .deleteRange 1 1]

/-- The same calls with bytes. -/
def exBytesOps' : List VOpB :=
  [.push [some 1, some 2], .insertRange 0 [some 3, some 4, some 5, some 6] 2, .swap 0 2, .deleteRange 1 1]

theorem exBytesOps_same : SameOps 2 exBytesOps exBytesOps' :=
  .cons (show BytesOf 2 _ _ from ⟨rfl, fun _ h => by injection h⟩)
    (.cons ⟨rfl, rfl, .elem (bs := [some 3, some 4]) ⟨rfl, fun _ h => by injection h⟩
        (.elem (bs := [some 5, some 6]) (mem := []) ⟨rfl, fun _ h => by injection h⟩ (.rest [] (by decide)))⟩
      (.cons ⟨rfl, rfl⟩ (.cons ⟨rfl, rfl⟩ .nil)))

/-! ## C130 -/

/-- C130: every API call on bytes does what the call on elements does, whenever that is defined. No
assumption about allocators, sizes or arguments: the address computations of the source may wrap, and
still never disagree with the element-wise reading where the latter is defined. -/
theorem C130_call {s : VS Elem} {t : VB} (h : SameState s t) {op : VOp Elem} {op' : VOpB}
    (ho : SameOp s.v.esz op op') {st : Status} {s' : VS Elem} (hr : vecOp s op = .ret (st, s')) :
    ∃ t', vecOpB t op' = .ret (st, t') ∧ SameState s' t' := by
  obtain ⟨⟨st', t'⟩, h1, h2, h3⟩ := sim_op (e := s.v.esz) ⟨h, rfl⟩ ho _ hr
  cases h2
  exact ⟨t', h1, h3.1⟩

example : ∃ s' t', vecOp exBytesS (.push (some (exElem 1 2))) = .ret (stSuccess, s') ∧
    vecOpB exBytesT (.push [some 1, some 2]) = .ret (stSuccess, t') ∧ SameState s' t' := by
  obtain ⟨t', h⟩ := C130_call exBytes_same (op := .push (some (exElem 1 2))) (op' := .push [some 1, some 2])
    (show BytesOf 2 _ _ from ⟨rfl, fun _ h => by injection h⟩) rfl
  exact ⟨_, t', rfl, h⟩

/-- C130 for pointers into the storage of the vector itself (`index * element_size` bytes into the block):
the calls that take a pointer to elements. -/
theorem C130_alias {s : VS Elem} {t : VB} (h : SameState s t) {src : Src Elem} {src' : Src Byte}
    (hs : SameSrc s.v.esz src src') (i n : Nat) (st : Status) (s' : VS Elem) :
    (vecPushBack s src = .ret (st, s') → ∃ t', vecPushBackB t src' = .ret (st, t') ∧ SameState s' t') ∧
    (vecInsertRange s i src n = .ret (st, s') →
      ∃ t', vecInsertRangeB t i src' n = .ret (st, t') ∧ SameState s' t') ∧
    (vecSet s i src = .ret (st, s') → ∃ t', vecSetB t i src' = .ret (st, t') ∧ SameState s' t') ∧
    (vecResizeEx s n src = .ret (st, s') →
      ∃ t', vecResizeExB t n src' = .ret (st, t') ∧ SameState s' t') := by
  have key : ∀ {x : Out (Status × VS Elem)} {y : Out (Status × VB)}, Sim (SR s.v.esz) x y →
      x = .ret (st, s') → ∃ t', y = .ret (st, t') ∧ SameState s' t' := by
    intro x y hxy hx
    obtain ⟨⟨st', t'⟩, h1, h2, h3⟩ := hxy _ hx
    cases h2
    exact ⟨t', h1, h3.1⟩
  have h' : ST s.v.esz s t := ⟨h, rfl⟩
  exact ⟨key (sim_pushBack h' hs), key (sim_insertRange h' hs i n), key (sim_set h' hs i),
    key (sim_resizeEx h' hs n)⟩

example : SameSrc 2 (.self 0 3) (.self 0 6) := ⟨rfl, rfl⟩

/-- C130, initialisation: on bytes and on elements the same status and the same vector. -/
theorem C130_init {w w' : World Elem} {e : Nat} (h : SameWorld e w w') (c : Nat) (dt : Bool)
    (al : Option Nat) (g th : Nat) :
    (vecInitExB w' e c dt al g th).1 = (vecInitEx w e c dt al g th).1 ∧
    ((vecInitEx w e c dt al g th).2.1 = none ↔ (vecInitExB w' e c dt al g th).2.1 = none) ∧
    ∀ v, (vecInitEx w e c dt al g th).2.1 = some v →
      ∃ v', (vecInitExB w' e c dt al g th).2.1 = some v' ∧
        SameState ⟨v, (vecInitEx w e c dt al g th).2.2⟩ ⟨v', (vecInitExB w' e c dt al g th).2.2⟩ := by
  obtain ⟨h1, h2, h3⟩ := same_initEx h c dt al g th
  generalize vecInitEx w e c dt al g th = r at *
  generalize vecInitExB w' e c dt al g th = r' at *
  obtain ⟨st, v, u⟩ := r
  obtain ⟨st', v', u'⟩ := r'
  dsimp only at *
  cases v with
  | none =>
    cases v' with
    | none => exact ⟨h1, by simp, nofun⟩
    | some _ => exact absurd h3 id
  | some v =>
    cases v' with
    | none => exact absurd h3 id
    | some v' =>
      refine ⟨h1, by simp, fun x hx => ⟨v', rfl, ?_⟩⟩
      cases hx
      exact ⟨h3.1, by rw [h3.2]; exact h2⟩

/-- C130, initialisation on a caller's buffer of bytes, which may be longer than a whole number of
elements. -/
theorem C130_init_buffer {w w' : World Elem} {e : Nat} (h : SameWorld e w w') {b : Block Elem}
    {b' : Block Byte} (hb : b'.id = b.id ∧ Packs e b.cells b'.cells ∧ b'.cells.length < 2 ^ 64) (c : Nat)
    (dt : Bool) :
    (vecInitBufferB e (some b') c dt).1 = (vecInitBuffer e (some b) c dt).1 ∧
    ∀ v, (vecInitBuffer e (some b) c dt).2 = some v →
      ∃ v', (vecInitBufferB e (some b') c dt).2 = some v' ∧ SameState ⟨v, w⟩ ⟨v', w'⟩ := by
  obtain ⟨h1, h2, h3⟩ := same_initBuffer h (b := some b) (b' := some b') hb c dt
  generalize vecInitBuffer e (some b) c dt = r at *
  generalize vecInitBufferB e (some b') c dt = r' at *
  obtain ⟨st, v⟩ := r
  obtain ⟨st', v'⟩ := r'
  dsimp only at *
  refine ⟨h1, fun x hx => ?_⟩
  subst hx
  cases v' with
  | none => exact absurd h3 id
  | some v' => exact ⟨v', rfl, h3.1, by rw [h3.2]; exact h2⟩

/-- Five bytes: room for two two-byte elements. -/
example : Packs 2 [some (exElem 1 2), none] [some 1, some 2, some 3, none, some 9] :=
  .elem (bs := [some 1, some 2]) ⟨rfl, fun _ h => by injection h⟩
    (.elem (bs := [some 3, none]) (mem := [some 9]) ⟨rfl, nofun⟩ (.rest [some 9] (by decide)))

/-- C130, duplication. -/
theorem C130_duplicate {s : VS Elem} {t : VB} (h : SameState s t) {w w' : World Elem}
    (hw : SameWorld s.v.esz w w') (c : Nat) (al : Option Nat) (g th : Nat) {st : Status} {v : Vec Elem}
    {u : World Elem} (hr : vecDuplicateEx w s.v c al g th = .ret (st, some v, u)) :
    ∃ v' u', vecDuplicateExB w' t.v c al g th = .ret (st, some v', u') ∧ SameState ⟨v, u⟩ ⟨v', u'⟩ := by
  obtain ⟨⟨st', v', u'⟩, h1, h2, h3, h4⟩ := sim_duplicateEx hw h.1 rfl c al g th _ hr
  cases h2
  cases v' with
  | none => exact absurd h4 id
  | some v' => exact ⟨v', u', h1, h4.1, by rw [h4.2]; exact h3⟩

/-- C130, duplication into a caller's buffer. -/
theorem C130_duplicate_buffer {s : VS Elem} {t : VB} (h : SameState s t) {b : Block Elem} {b' : Block Byte}
    (hb : b'.id = b.id ∧ Packs s.v.esz b.cells b'.cells ∧ b'.cells.length < 2 ^ 64) (c : Nat)
    {st : Status} {v : Vec Elem} (hr : vecDuplicateBuffer s.v (some b) c = .ret (st, some v)) :
    ∃ v', vecDuplicateBufferB t.v (some b') c = .ret (st, some v') ∧ SameVec v v' := by
  obtain ⟨⟨st', v'⟩, h1, h2, h3⟩ := sim_duplicateBuffer h.1 rfl (b := some b) (b' := some b') hb c _ hr
  cases h2
  obtain ⟨x', hx, h4, _⟩ := h3 v rfl
  dsimp only at hx
  subst hx
  exact ⟨x', h1, h4⟩

example : ∃ v, vecDuplicateBuffer exBytesS.v (some ⟨4, [none, none]⟩) 2 = .ret (stSuccess, some v) := ⟨_, rfl⟩

/-- C130, destruction: the destructor gets the bytes of every element, in the same order, and the
allocator the same calls. -/
theorem C130_destroy {s : VS Elem} {t : VB} (h : SameState s t) {st : Status} {s' : VS Elem}
    (hr : vecDestroy s = .ret (st, s')) :
    ∃ t', vecDestroyB t = .ret (st, t') ∧ SameState s' t' := by
  obtain ⟨⟨st', t'⟩, h1, h2, h3⟩ := sim_destroy (e := s.v.esz) ⟨h, rfl⟩ _ hr
  cases h2
  exact ⟨t', h1, h3.1⟩

/-- C130 (histories): a vector obtained through the API, operated on through the API, holds the elements
of the list specification byte for byte: element `k` is in the bytes `k * element_size` up to
`(k + 1) * element_size` of the storage, and reading element `k` gives these bytes. The statuses are those
of the specification. -/
theorem C130_history {P : Params} {s : VS Elem} {t : VB} (h : Reach P s) (hs : SameState s t)
    {ops : List (VOp Elem)} {ops' : List VOpB} (ho : SameOps P.esz ops ops')
    (hd : AllInDomain P (absOf s) ops) :
    ∃ sts t' a', runVecB t ops' = .ret (sts, t') ∧ Runs P (absOf s) ops sts a' ∧
      t'.v.size = a'.elems.length ∧ t'.v.cap = a'.cap ∧
      ∀ k c, a'.elems[k]? = some (some c) →
        (∃ b, t'.v.data = some b ∧ (b.cells.drop (k * P.esz)).take P.esz = c) ∧ c.length = P.esz ∧
        vecGetB t' k = .ret (some c) := by
  obtain ⟨b, slack, R⟩ := h.rep
  obtain ⟨sts, s', a', h1, h2, h3, h4, h5, _⟩ := C01_vector_behaves_like_list h ops hd
  obtain ⟨⟨sts', t'⟩, h6, h7, h8⟩ := sim_ops (e := P.esz) ⟨hs, R.esz⟩ ho _ h1
  cases h7
  exact ⟨sts, t', a', h6, h2, by rw [← h4]; exact h8.1.1.size, by rw [← h5]; exact h8.1.1.cap,
    fun k c hk => stored_at h8 h3 hk⟩

example : AllInDomain exBytesP (absOf exBytesS) exBytesOps := by
  refine .cons (by show _ < _; decide) fun j hj => ?_
  obtain rfl := List.eq_nil_of_length_eq_zero hj
  refine .cons (by show _ < _; decide) fun j hj => ?_
  obtain rfl := List.eq_nil_of_length_eq_zero hj
  refine .cons trivial fun j hj => ?_
  obtain rfl := List.eq_nil_of_length_eq_zero hj
  exact .cons (by show _ < _; decide) fun j hj => .nil _

example : (runVecB exBytesT exBytesOps').bind (fun r => .ret (r.1, r.2.v.size, r.2.v.data)) =
    .ret ([stSuccess, stSuccess, stSuccess, stSuccess], 2,
      some ⟨1, [some 1, some 2, some 3, some 4, some 3, some 4, some 3, some 4, none, none, none, none]⟩) := by
  cbv

/-- C130 (searching): with a callback that gives the same answer for the bytes of a written element, both
searches give the same result, if the elements of the vector were all written. -/
theorem C130_search {P : Params} {s : VS Elem} {t : VB} (h : Reach P s) (hs : SameState s t)
    (hw : ∀ x ∈ (absOf s).elems, x ≠ none) (eq : Elem → Bool) (eq₀ : Cell Elem → Bool)
    (heq : ∀ c, eq₀ (some c) = eq c) (cmp : Elem → Int) (cmp₀ : Cell Elem → Int)
    (hcmp : ∀ c, cmp₀ (some c) = cmp c) (i n : Nat) (hin : i + n < 18446744073709551616) :
    vecFindExB t eq i n = vecFindEx s eq₀ i n ∧
    vecBinarySearchExB t cmp i n = vecBinarySearchEx s cmp₀ i n := by
  obtain ⟨b, slack, R⟩ := h.rep
  obtain ⟨⟨r1, hr1⟩, ⟨r2, hr2⟩, _⟩ := C02_reads_safe h eq₀ cmp₀ i n hin
  have hd := hs.1.data
  have hsz := R.size
  rw [R.data] at hd
  cases ht : t.v.data with
  | none => rw [ht] at hd; exact absurd hd id
  | some b' =>
    rw [ht] at hd
    have hcell : ∀ k x bs, k < s.v.size → b.cells[k]? = some x → BytesOf s.v.esz x bs → x = some bs := by
      intro k x bs hk hx hB
      have hmem : x ∈ (absOf s).elems := by
        rw [R.cells, List.getElem?_append_left (by omega)] at hx
        exact List.mem_of_getElem? hx
      cases x with
      | none => exact absurd rfl (hw _ hmem)
      | some c => rw [hB.2 c rfl]
    constructor
    · rw [hr1]
      unfold vecFindEx at hr1
      unfold vecFindExB
      rw [hs.1.size]
      rw [add64_eq hin] at hr1 ⊢
      split at hr1
      · rename_i hc; rw [if_pos hc, hr1]
      · rename_i hc
        rw [if_neg hc]
        split at hr1
        · rename_i h0; rw [if_pos h0, hr1]
        · rename_i h0
          rw [if_neg h0, ht, withData_some]
          rw [R.data, withData_some] at hr1
          have hsim := sim_findLoop (e := s.v.esz) t.v hs.1.esz hd.2.1 hd.2.2 eq₀ eq (i + n - i) i
            (fun k x bs h1 h2 hx hB => by rw [hcell k x bs (by omega) hx hB, heq])
          cases hf : findLoop b.cells eq₀ i (i + n - i) with
          | ub w => rw [hf] at hr1; cases hr1
          | ret q =>
            rw [hf] at hr1
            obtain ⟨q', h1, h2⟩ := hsim q hf
            rw [h1, h2]
            exact hr1
    · by_cases hb : i + n ≤ s.v.size ∧ n ≠ 0
      · obtain ⟨st, p, log, h1, _, h3⟩ := C10_binary_search_logarithmic h cmp₀ i n hb.2 hb.1
        rw [h1]
        unfold vecBinarySearchEx at h1
        unfold vecBinarySearchExB
        rw [hs.1.size]
        rw [if_neg (by rw [add64_eq hin]; omega), if_neg hb.2] at h1 ⊢
        rw [ht, withData_some]
        rw [R.data, withData_some] at h1
        generalize toI64 (sub64 (add64 i n) 1) = hi at h1 ⊢
        generalize toI64 i = lo at h1 ⊢
        cases hf : bsearchLoop b.cells cmp₀ (n + 1) lo hi stFalse [] with
        | ub w => rw [hf] at h1; cases h1
        | ret q =>
          obtain ⟨st', p', log'⟩ := q
          rw [hf] at h1
          cases h1
          have hsim := (sim_bsearchLoop (e := s.v.esz) t.v hs.1.esz hd.2.1 hd.2.2 cmp₀ cmp (n + 1) lo hi
            stFalse _ [] _ _ hf).2
          rw [hsim fun k hk x bs hx hB => by
            rw [hcell k x bs (by have := (h3 k hk).2; omega) hx hB, hcmp]]
          rfl
      · unfold vecBinarySearchEx vecBinarySearchExB
        rw [hs.1.size, add64_eq hin]
        by_cases h0 : n = 0
        · subst h0
          split <;> rfl
        · rw [if_pos (by omega), if_pos (by omega)]

example : ∀ x ∈ (absOf (⟨{ exBytesS.v with size := 1, data := some ⟨0, [some (exElem 1 2)]⟩ },
    exBytesS.w⟩ : VS Elem)).elems, x ≠ none := by
  simp [absOf]

end Zy
