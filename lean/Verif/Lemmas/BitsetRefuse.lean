import Verif.Lemmas.BitsetProps
import Verif.Lemmas.VectorShrink

/-!
# Lemmas about bitsets whose memory request is refused
-/

namespace Zy

open Spec

/-- The bitset `t` in an environment where the next allocator call returns `st`. -/
def bsRefuse (t : Bits) (st : Status) : Bits := { t with s := refuseNext t.s st }

/-- A push whose byte does not exist. -/
theorem push_lost {size : Nat} {s : VS Byte} (v : Bool) (h8 : size % 8 ≠ 0) (hs : size + 1 < 18446744073709551616)
    (hn : s.v.size ≤ size / 8) : bsPush ⟨size, s⟩ v = .ret (stOutOfRange, ⟨size + 1, s⟩) := by
  have hsub : sub64 (size + 1) 1 = size := by rw [sub64_eq (by omega) (by omega)]; rfl
  have hm : ∀ f : Byte → Byte → Byte, bsModify f ⟨size + 1, s⟩ size = .ret (stOutOfRange, ⟨size + 1, s⟩) := by
    intro f
    unfold bsModify withPointer vecGetPointer
    rw [if_neg (show ¬ size ≥ size + 1 by omega), if_pos (show size / 8 ≥ s.v.size from hn)]
    rfl
  unfold bsPush
  simp only
  rw [if_neg h8, add64_eq hs, hsub, Out.ret_bind']
  rw [if_neg (show ¬ failed stSuccess = true by decide)]
  cases v
  · exact hm fun x m => x &&& ~~~m
  · exact hm fun x m => x ||| m

theorem pushes_lost {s : VS Byte} (vs : List Bool) : ∀ {size : Nat}, size % 8 ≠ 0 → size % 8 + vs.length ≤ 8 →
    size + 8 < 18446744073709551616 → s.v.size ≤ size / 8 →
    runBits ⟨size, s⟩ (vs.map .push) = .ret (List.replicate vs.length stOutOfRange, ⟨size + vs.length, s⟩) := by
  induction vs with
  | nil => intros; rfl
  | cons v vs ih =>
    intro size h8 hl hs hn
    simp only [List.length_cons] at hl
    have e := push_lost v h8 (by omega) hn
    cases vs with
    | nil =>
      simp only [List.map_cons, List.map_nil, runBits, bsOp, e, Out.ret_bind']
      rfl
    | cons v' vs =>
      simp only [List.length_cons] at hl ih
      have e2 := ih (size := size + 1) (by omega) (by omega) (by omega) (by omega)
      have e1 : bsOp ⟨size, s⟩ (.push v) = .ret (stOutOfRange, ⟨size + 1, s⟩) := e
      rw [List.map_cons, runBits, e1, Out.ret_bind']
      simp only
      rw [e2, Out.ret_bind']
      have : size + 1 + (vs.length + 1) = size + (v :: v' :: vs).length := by simp only [List.length_cons]; omega
      rw [this]
      rfl

section
variable {P : Params} {t : Bits} {a : BState} {bytes : List Byte} {b : Block Byte} {sl : List (Cell Byte)}

/-- Pushing into a bitset on a full caller buffer that has lost track of its bytes. -/
theorem pushes_fixed {s : VS Byte} {c : Nat} (R : Rep P s ⟨bytes.map some, c, []⟩ b sl) (hfix : P.allocator = none)
    (hfull : bytes.length = c) (vs : List Bool) : ∀ {size : Nat}, 8 * bytes.length < size →
    size + vs.length < 18446744073709551616 →
    ∃ sts, runBits ⟨size, s⟩ (vs.map .push) = .ret (sts, ⟨size + vs.length, s⟩) ∧ ∀ st ∈ sts, failed st = true := by
  have hsz : s.v.size = bytes.length := by have := R.size; simpa using this
  induction vs with
  | nil => intros; exact ⟨[], rfl, by simp⟩
  | cons v vs ih =>
    intro size hlt hs
    simp only [List.length_cons] at hs
    have step : ∃ st, bsOp ⟨size, s⟩ (.push v) = .ret (st, ⟨size + 1, s⟩) ∧ failed st = true := by
      by_cases h8 : size % 8 = 0
      · have hg := fixed_grow_refused R hfix (need := bytes.length + 1) (by rw [← hfull]; exact Nat.lt_succ_self _) (by omega)
        refine ⟨stInsufficient, ?_, by decide⟩
        have e : vecPushBack s (.ext [some 0#8]) = .ret (stInsufficient, s) := by
          unfold vecPushBack
          rw [if_neg (by simp [Src.isNull]), hsz, add64_eq (by omega), hg, Out.ret_bind']
          simp only
          rw [if_pos (show failed stInsufficient = true by decide)]
        simp only [bsOp, bsPush]
        rw [if_pos h8, e, add64_eq (by omega), Out.ret_bind']
        simp only
        rw [if_pos (show failed stInsufficient = true by decide)]
      · exact ⟨stOutOfRange, push_lost v h8 (by omega) (by omega), by decide⟩
    obtain ⟨st, e, hf⟩ := step
    obtain ⟨sts, e2, hf2⟩ := ih (size := size + 1) (by omega) (by omega)
    refine ⟨st :: sts, ?_, by simpa using ⟨hf, hf2⟩⟩
    rw [List.map_cons, runBits, e, Out.ret_bind']
    simp only
    rw [e2, Out.ret_bind']
    have : size + 1 + vs.length = size + (v :: vs).length := by simp only [List.length_cons]; omega
    rw [this]

/-- Shrinking to fit repairs the byte vector after a refused request. -/
theorem BRep.repair (R : BRep P t a bytes b sl) {st : Status} {al : Nat} (hal : P.allocator = some al) {c : Nat}
    (hc : 1 < c ∨ 1 ≤ bytes.length) :
    ∃ t'' b'' sl'', bsShrinkToFit ⟨t.size, afterRefusal t.s st al c⟩ = .ret (stSuccess, t'') ∧
      BRep P t'' { a with cap := max 1 bytes.length } bytes b'' sl'' := by
  obtain ⟨s'', b'', sl'', e, R2⟩ := refused_repair' R.rep (st := st) hal (c := c) (by simpa using hc)
  refine ⟨⟨t.size, s''⟩, b'', sl'', ?_, by simpa using R2, R.par, R.size, R.flat, R.short⟩
  unfold bsShrinkToFit
  simp only [e, Out.ret_bind']

/-- The refused append of a byte. -/
theorem refused_pushBack (R : BRep P t a bytes b sl) {st : Status} (hst : failed st = true) {al : Nat}
    (hal : P.allocator = some al) (hc : bytes.length = a.cap) (hf : Fits P (bytes.length + 1)) :
    vecPushBack (refuseNext t.s st) (.ext [some 0#8]) =
      .ret (st, afterRefusal t.s st al ((bytes.length + 1) * P.growth)) := by
  have hg := refused_growFor R.rep hst (by simp [hal]) (need := bytes.length + 1) (by rw [← hc]; exact Nat.lt_succ_self _) hf
  have hsz : (refuseNext t.s st).v.size = bytes.length := R.rep.vsize
  have hl := (hf.mul_growth R.rep.growth255 R.rep.esz1).2.2
  unfold vecPushBack
  rw [if_neg (by simp [Src.isNull]), hsz, add64_eq hl, hg, Out.ret_bind']
  simp only
  rw [if_pos hst, hal]
  rfl

/-- Appending a byte after a refused growth writes outside of the block. -/
theorem pushBack_after (R : BRep P t a bytes b sl) {st : Status} {al : Nat} (hal : P.allocator = some al)
    (hc : bytes.length = a.cap) (hf : Fits P (bytes.length + 1)) :
    vecPushBack (afterRefusal t.s st al ((bytes.length + 1) * P.growth)) (.ext [some 0#8]) = .ub .oob := by
  have hl := (hf.mul_growth R.rep.growth255 R.rep.esz1).2.2
  have hge := Nat.le_mul_of_pos_right (bytes.length + 1) R.rep.growth1
  have hsz : (afterRefusal t.s st al ((bytes.length + 1) * P.growth)).v.size = bytes.length := R.rep.vsize
  have hcp : (afterRefusal t.s st al ((bytes.length + 1) * P.growth)).v.cap = (bytes.length + 1) * P.growth := rfl
  have hdat : (afterRefusal t.s st al ((bytes.length + 1) * P.growth)).v.data = some b := R.rep.data
  have hbl : b.cells.length = bytes.length := by
    have := R.rep.dyn (by simp [hal])
    rw [hc]; exact this
  unfold vecPushBack growFor shouldGrow
  rw [if_neg (by simp [Src.isNull]), hsz, add64_eq hl, hcp, if_neg (by simp; omega), Out.ret_bind']
  simp only [failed_success, Bool.false_eq_true, if_false, hdat, hsz]
  simp only [withData, memcpyIn, readRange, writeRange, hbl]
  rw [if_pos (by simp), Out.ret_bind', if_neg (by simp)]
  rfl

end

end Zy
