import Verif.Props.ArgParse
import Verif.Props.Bitset
import Verif.Props.ListAccess
import Verif.Props.StringData

/-!
# The short constructors (C117)

`ZyanVectorInit`, `ZyanStringInit`, `ZyanBitsetInit`, `ZyanListInit` and `ZyanArgParse` take neither an
allocator nor growth parameters. Allocator 0 is the default allocator.
-/

namespace Zy

open Spec

variable {α : Type}

/-- C117, vectors: an empty vector of at least the requested capacity (never zero) in the default
allocator, with growth factor 2 and shrink threshold 4. The status is that of the allocator. -/
theorem C117_vector {w : World α} {esz cap : Nat} {dt : Bool} (hw : Fresh w) (hr : Reliable w)
    (he : 1 ≤ esz) (hc : max 1 cap * esz < 18446744073709551616) :
    ∃ v w', vecInit w esz cap dt = (w.oracle w.calls, some v, w') ∧ contents ⟨v, w'⟩ = .ret [] ∧
      v.cap = max 1 cap ∧ v.allocator = some 0 ∧ v.growth = 2 ∧ v.shrink = 4 ∧ v.esz = esz ∧
      v.hasDtor = dt ∧ Reach ⟨some 0, 2, 4, esz, dt⟩ ⟨v, w'⟩ := by
  cases hi : vecInit w esz cap dt with
  | mk st r =>
    obtain ⟨ov, w'⟩ := r
    have hst : st = w.oracle w.calls ∧ ov ≠ none := by
      unfold vecInit vecInitEx at hi
      simp only at hi
      rw [if_neg (by simp; omega)] at hi
      simp only [allocate, hr w.calls, Bool.false_eq_true, if_false] at hi
      cases hi
      exact ⟨rfl, by simp⟩
    obtain ⟨rfl, hov⟩ := hst
    cases ov with
    | none => exact absurd rfl hov
    | some v =>
      have hR := Reach.init (P := ⟨some 0, 2, 4, esz, dt⟩) (a := 0) hw hr
        ⟨rfl, by show 2 ≤ 255; decide, by show 4 ≤ 255; decide⟩ hc hi
      obtain ⟨_, b, sl, R⟩ := init_rep (P := ⟨some 0, 2, 4, esz, dt⟩) (al := 0) hw hr
        ⟨rfl, by show 2 ≤ 255; decide, by show 4 ≤ 255; decide⟩ hc hi
      exact ⟨v, w', rfl, R.contents, R.cap, R.allocator, R.growth, R.shrink, R.esz, R.dtor, hR⟩

/-- C117, strings: an empty terminated string with room for at least 32 characters (and the terminator) in
the default allocator, with growth factor 2 and shrink threshold 4. -/
theorem C117_string {w : World Byte} {cap : Nat} (hw : Fresh w) (hr : Reliable w)
    (hc : max 32 cap + 1 < 18446744073709551616) :
    ∃ t, strInit w cap = .ret (stSuccess, some t, t.s.w) ∧ textOf t = [] ∧ Terminated t ∧
      t.s.v.cap = max 32 cap + 1 ∧ t.s.v.allocator = some 0 ∧ t.s.v.growth = 2 ∧ t.s.v.shrink = 4 ∧
      t.fixed = false := by
  obtain ⟨t, b, sl, e, R, hb⟩ := strInitEx_ok (P := ⟨some 0, 2, 4, 1, false⟩) (cap := cap) hw hr
    ⟨rfl, by decide, by decide, rfl, rfl⟩ (by decide) hc
  exact ⟨t, e, R.textOf, R.terminated, R.rep.cap, R.rep.allocator, R.rep.growth, R.rep.shrink, R.fixed⟩

/-- C117, bitsets: the requested number of bits, all bytes zero, in the default allocator, with growth factor
2 and shrink threshold 2. The number of bytes is rounded down (see C44). -/
theorem C117_bitset {w : World Byte} {n : Nat} (hw : Fresh w) (hr : Reliable w) (hn : n < 34359738368) :
    ∃ t w', bsInit w n = .ret (stSuccess, some t, w') ∧ t.size = n ∧
      contents t.s = .ret (List.replicate (n / 8) (some 0#8)) ∧
      t.s.v.cap = max 1 (n / 8) ∧ t.s.v.allocator = some 0 ∧ t.s.v.growth = 2 ∧
      t.s.v.shrink = 2 := by
  obtain ⟨t, w', b, sl, e, hs, R⟩ := binit_ok (P := ⟨some 0, 2, 2, 1, false⟩) (n := n) (al := 0) hw hr
    ⟨rfl, by show 2 ≤ 255; decide, by show 2 ≤ 255; decide⟩ ⟨rfl, rfl⟩ (by show 1 ≤ 2; decide)
  rw [bitsToBytes_eq hn] at R
  refine ⟨t, w', e, hs, ?_, R.cap, R.allocator, R.growth, R.shrink⟩
  rw [R.contents, List.map_replicate]

/-- C117, lists: an empty list without a buffer whose nodes come from the default allocator. -/
theorem C117_list {esz : Nat} {dt : Bool} (he : 1 ≤ esz) :
    ∃ l, listInit esz dt = (stSuccess, some l) ∧ l.allocator = some 0 ∧ l.esz = esz ∧ l.hasDtor = dt ∧
      l.size = 0 ∧ l.head = none ∧ l.tail = none ∧
      ∀ w : LWorld α, LFresh w → FreesSucceed w → 16 + esz < 18446744073709551616 →
        Created (.dynamic w.allocSt) dt ⟨l, fun _ => none, w⟩ := by
  have e : listInit esz dt = (stSuccess, some ⟨some 0, 0, esz, dt, none, none, none, 0, none⟩) := by
    unfold listInit listInitEx
    rw [if_neg (by simp; omega)]
  exact ⟨_, e, rfl, rfl, rfl, rfl, rfl, rfl, fun w hw hf hs => Created.dynamic (a := 0) hw hf hs e⟩

/-- C117, arguments: on success the storage of the result belongs to the default allocator, and nothing
else is allocated. -/
theorem C117_arguments {cfg : ArgConfig} (H : ProperConfig cfg) {w : World AArg} (hw : Fresh w)
    (hr : Reliable w) (want : Bool) :
    ∃ r, argParse w cfg want = .ret r ∧ Agrees want r (verdict true cfg) ∧
      (failed r.status = false → ∃ v b, r.vec = some v ∧ v.data = some b ∧
        replay r.w.trace = some (some ⟨0, b.id, v.esz, v.cap⟩)) := by
  obtain ⟨r, h1, h2, h3⟩ := argParse_reliable H (a := 0) hw hr want
  refine ⟨r, h1, h2, fun h => ?_⟩
  rcases h3 with ⟨h4, _⟩ | ⟨_, h4⟩
  · rw [h4] at h; cases h
  · exact h4

/-! ## Examples -/

example : ∃ v w', vecInit exW 4 0 true = (stSuccess, some v, w') ∧ v.cap = 1 ∧ v.growth = 2 := by
  obtain ⟨v, w', h, _, h1, _, h2, _⟩ := C117_vector (w := exW) (esz := 4) (cap := 0) (dt := true)
    ⟨rfl, rfl⟩ (fun _ => failed_success) (by decide) (by decide)
  exact ⟨v, w', h, h1, h2⟩

example : ∃ t, strInit exSW 3 = .ret (stSuccess, some t, t.s.w) ∧ t.s.v.cap = 33 := by
  obtain ⟨t, h, _, _, h1, _⟩ := C117_string (w := exSW) (cap := 3) ⟨rfl, rfl⟩ (fun _ => failed_success)
    (by decide)
  exact ⟨t, h, h1⟩

example : ∃ t w', bsInit exBW 24 = .ret (stSuccess, some t, w') ∧ t.s.v.cap = 3 ∧ t.s.v.shrink = 2 := by
  obtain ⟨t, w', h, _, _, h1, _, _, h2⟩ := C117_bitset (w := exBW) (n := 24) ⟨rfl, rfl⟩
    (fun _ => failed_success) (by decide)
  exact ⟨t, w', h, h1, h2⟩

example : ∃ l, listInit 8 true = (stSuccess, some l) ∧
    Created (.dynamic exLW.allocSt) true ⟨l, fun _ => none, exLW⟩ := by
  obtain ⟨l, h, _, _, _, _, _, _, h1⟩ := C117_list (α := Nat) (esz := 8) (dt := true) (by decide)
  exact ⟨l, h, h1 exLW ⟨rfl, rfl, rfl⟩ (fun _ => failed_success) (by decide)⟩

example : ∃ r, argParse exAW (exCfg 0 9 ["x", "y"]) true = .ret r ∧
    Agrees true r (verdict true (exCfg 0 9 ["x", "y"])) := by
  obtain ⟨r, h, h1, _⟩ := C117_arguments (w := exAW) (exCfg_proper (min := 0) (max := 9)
    (ts := ["x", "y"]) (by decide +kernel) (by decide +kernel)) ⟨rfl, rfl⟩ (fun _ => failed_success) true
  exact ⟨r, h, h1⟩

end Zy
