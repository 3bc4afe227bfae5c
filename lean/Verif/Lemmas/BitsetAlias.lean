import Verif.Model.BitsetAlias
import Verif.Lemmas.BitsetProps

/-!
# Lemmas about logical operations of a bitset with itself
-/

namespace Zy

open Spec

section
variable {P : Params} {bytes ys : List Byte} {c c' : Nat} {sl slu : List (Cell Byte)}

/-- As long as the bytes that are still to come are those of the copy, the copy makes no difference. -/
theorem selfLoop_eq {u : VS Byte} {bu : Block Byte} (U : Rep P u ⟨ys.map some, c', []⟩ bu slu)
    (op : Byte → Byte → Status × Byte) (n : Nat) : ∀ {s : VS Byte} {bytes : List Byte} {b : Block Byte} {i : Nat},
    Rep P s ⟨bytes.map some, c, []⟩ b sl → i + n ≤ bytes.length → bytes.drop i = ys.drop i →
    bsSelfLoop op n s i = bsOpLoop op u n s i := by
  induction n with
  | zero => intros; rfl
  | succ n ih =>
    intro s bytes b i R h hd
    have hl : i < ys.length := by
      have := congrArg List.length hd
      simp at this
      omega
    have hx : bytes[i]? = some ys[i] := by
      have := congrArg (fun l => l[0]?) hd
      simp only [List.getElem?_drop, Nat.add_zero] at this
      rw [this, List.getElem?_eq_getElem hl]
    unfold bsSelfLoop bsOpLoop
    rw [withPointer_in R (by omega), withPointer_in R (by omega), withPointer_in R (by omega), withPointer_in U hl,
      load_ok R hx, Out.ret_bind', Out.ret_bind', load_ok U (List.getElem?_eq_getElem hl), Out.ret_bind',
      Out.ret_bind']
    obtain ⟨s1, b1, e1, R1⟩ := store_ok R (i := i) (by omega) (op ys[i] ys[i]).2
    simp only [e1, Out.ret_bind']
    split
    · rfl
    · refine ih R1 (by simp; omega) ?_
      rw [List.drop_set_of_lt (by omega)]
      have := congrArg (List.drop 1) hd
      simpa [List.drop_drop] using this

end

theorem performSelf_eq {P : Params} {t : Bits} {a : BState} {bytes : List Byte} {b : Block Byte}
    {sl : List (Cell Byte)} (R : BRep P t a bytes b sl) (op : Byte → Byte → Status × Byte) :
    bsPerformSelf op t = bsPerform op t t := by
  unfold bsPerformSelf bsPerform
  simp only
  rw [selfLoop_eq R.rep op _ R.rep (by rw [R.rep.vsize]; omega) rfl]

end Zy
