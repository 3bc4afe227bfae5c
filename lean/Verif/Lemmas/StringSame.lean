import Verif.Spec.StringSame
import Verif.Lemmas.String
import Verif.Lemmas.VectorSame

/-!
# Lemmas: the storage of a string is not seen
-/

namespace Zy

open Spec

/-- The bytes of a caller buffer; none for a string with an allocator. -/
def roomOf (P : Params) (bytes : Nat) : Option Nat := if P.allocator.isSome then none else some bytes

theorem roomOf_le {P : Params} {bytes need : Nat} (h : ∀ cap, roomOf P bytes = some cap → need ≤ cap) :
    P.allocator.isSome ∨ need ≤ bytes := by
  unfold roomOf at h
  by_cases ha : P.allocator.isSome
  · exact Or.inl ha
  · exact Or.inr (h bytes (by rw [if_neg ha]))

theorem extend_some {P : Params} {bytes need : Nat} (h : P.allocator.isSome ∨ need ≤ bytes) :
    ∃ c, extend P bytes need = some c ∧ (P.allocator = none → c = bytes) := by
  unfold extend
  by_cases hn : need ≤ bytes
  · exact ⟨_, if_pos hn, fun h => trim_none h⟩
  · rw [if_neg hn]; exact room_some h

theorem appendText_same {P : Params} {s : SState} {x : List (Cell Byte)}
    (h : P.allocator.isSome ∨ s.text.length + x.length + 1 ≤ s.bytes) :
    (appendText P s x).1 = stSuccess ∧ (appendText P s x).2.text = s.text ++ x ∧
      (P.allocator = none → (appendText P s x).2.bytes = s.bytes) := by
  unfold appendText
  by_cases h0 : x = []
  · simp [h0]
  · obtain ⟨c, e, hc⟩ := extend_some h
    rw [if_neg h0, e]
    exact ⟨rfl, rfl, hc⟩

theorem insertText_same {P : Params} {s : SState} {i : Nat} {x : List (Cell Byte)} (h0 : x ≠ [])
    (h : P.allocator.isSome ∨ s.text.length + x.length + 1 ≤ s.bytes) :
    (insertText P s i x).1 = stSuccess ∧ (insertText P s i x).2.text = s.text.take i ++ x ++ s.text.drop i ∧
      (P.allocator = none → (insertText P s i x).2.bytes = s.bytes) := by
  unfold insertText
  obtain ⟨c, e, hc⟩ := room_some h
  rw [if_neg h0, e]
  exact ⟨rfl, rfl, hc⟩

theorem taken_length {x : List (Cell Byte)} {j n : Nat} (h : j + n ≤ x.length) : ((x.drop j).take n).length = n := by
  rw [List.length_take, List.length_drop]; omega

/-- One step, with all bytes that it needs. -/
theorem sstep_text {P : Params} (junk : List (Cell Byte)) {s : SState} {op : SOp}
    (hr : ∀ n, op = .resize n → n ≤ s.text.length) (hd : P.allocator.isSome ∨ textDemand s.text op ≤ s.bytes) :
    (sstep P junk s op).1 = (textStep s.text op).1 ∧ (sstep P junk s op).2.text = (textStep s.text op).2 ∧
      (P.allocator = none → (sstep P junk s op).2.bytes = s.bytes) := by
  cases op with
  | append x => exact appendText_same hd
  | appendEx x j n =>
    simp only [sstep, textStep, textDemand] at hd ⊢
    by_cases hj : j + n ≤ x.length
    · rw [if_pos hj, if_neg (Nat.not_lt.2 hj)]
      exact appendText_same (by rw [taken_length hj]; exact hd)
    · simp [hj, Nat.lt_of_not_le hj]
  | insert i x =>
    simp only [sstep, textStep, textDemand] at hd ⊢
    by_cases h1 : i = s.text.length + 1
    · rw [if_pos h1, if_pos h1]; exact appendText_same hd
    rw [if_neg h1, if_neg h1]
    by_cases h2 : i ≤ s.text.length
    · rw [if_pos h2, if_neg (Nat.not_lt.2 h2)]
      by_cases h0 : x = []
      · simp [insertText, h0]
      · rw [if_neg h0]; exact insertText_same h0 hd
    · simp [h2, Nat.lt_of_not_le h2]
  | insertEx i x j n =>
    simp only [sstep, textStep, textDemand] at hd ⊢
    by_cases hj : j + n ≤ x.length
    · rw [if_pos hj]
      by_cases h1 : i = s.text.length + 1
      · rw [if_neg (by omega), if_pos h1, if_pos h1]
        exact appendText_same (by rw [taken_length hj]; exact hd)
      by_cases h2 : i ≤ s.text.length
      · rw [if_neg (by omega), if_neg h1, if_neg h1, if_pos h2]
        by_cases h0 : n = 0
        · simp [insertText, h0]
        · rw [if_neg h0]
          refine insertText_same ?_ (by rw [taken_length hj]; exact hd)
          intro e
          have := taken_length hj
          rw [e] at this
          exact h0 this.symm
      · rw [if_pos (by omega), if_neg h1, if_neg h2]; exact ⟨rfl, rfl, fun _ => rfl⟩
    · rw [if_pos (by omega), if_neg hj]; exact ⟨rfl, rfl, fun _ => rfl⟩
  | delete i n =>
    simp only [sstep, textStep]
    by_cases h1 : i + n ≤ s.text.length
    · rw [if_pos h1, if_neg (Nat.not_lt.2 h1)]
      by_cases h0 : n = 0
      · simp [h0]
      · simp only [if_neg h0, true_and]; exact fun h => trim_none h
    · simp [h1, Nat.lt_of_not_le h1]
  | truncate i =>
    simp only [sstep, textStep]
    by_cases h1 : i < s.text.length
    · rw [if_pos h1, if_neg (by omega), if_neg (by omega)]; exact ⟨rfl, rfl, fun h => trim_none h⟩
    · rw [if_neg h1]
      by_cases h2 : i = s.text.length
      · rw [if_pos h2, if_neg (by omega), if_pos h2]; exact ⟨rfl, rfl, fun _ => rfl⟩
      · rw [if_pos (show i > s.text.length by omega), if_neg h2]; exact ⟨rfl, rfl, fun _ => rfl⟩
  | clear => exact ⟨rfl, rfl, fun h => trim_none h⟩
  | setChar i c =>
    simp only [sstep, textStep]
    split <;> exact ⟨rfl, rfl, fun _ => rfl⟩
  | lower i n =>
    simp only [sstep, textStep]
    by_cases h1 : i + n ≤ s.text.length
    · rw [if_pos h1, if_neg (Nat.not_lt.2 h1)]; exact ⟨rfl, rfl, fun _ => rfl⟩
    · rw [if_neg h1, if_pos (Nat.lt_of_not_le h1)]; exact ⟨rfl, rfl, fun _ => rfl⟩
  | upper i n =>
    simp only [sstep, textStep]
    by_cases h1 : i + n ≤ s.text.length
    · rw [if_pos h1, if_neg (Nat.not_lt.2 h1)]; exact ⟨rfl, rfl, fun _ => rfl⟩
    · rw [if_neg h1, if_pos (Nat.lt_of_not_le h1)]; exact ⟨rfl, rfl, fun _ => rfl⟩
  | resize n =>
    have hn := hr n rfl
    simp only [sstep, textStep]
    by_cases h1 : n = s.text.length
    · rw [if_pos h1, h1, List.take_length]; exact ⟨rfl, rfl, fun _ => rfl⟩
    · rw [if_neg h1, if_pos (by omega)]; exact ⟨rfl, rfl, fun h => trim_none h⟩
  | reserve c =>
    simp only [sstep, textStep, textDemand] at hd ⊢
    by_cases h1 : c ≤ s.bytes
    · rw [if_pos h1]; exact ⟨rfl, rfl, fun _ => rfl⟩
    · have h2 := hd.resolve_right h1
      rw [if_neg h1, if_pos h2]
      exact ⟨rfl, rfl, fun e => by rw [e] at h2; exact absurd h2 (by simp)⟩
  | shrinkToFit =>
    simp only [sstep, textStep]
    cases h : P.allocator with
    | none => simp
    | some b => simp

theorem roomOf_step {P : Params} {b b' : Nat} (h : P.allocator = none → b' = b) : roomOf P b' = roomOf P b := by
  unfold roomOf
  cases hA : P.allocator with
  | some a => rfl
  | none => rw [h hA]

theorem inDomain_text {s : SState} {op : SOp} (h : SInDomain ⟨s.text, 0⟩ op) : SInDomain s op := by
  cases op <;> exact h

/-- Histories that are all right for a text are in the domain of the library. -/
theorem textOK_domain {P : Params} : ∀ {ops : List SOp} {s : SState}, TextOK (roomOf P s.bytes) s.text ops →
    SAllInDomain P s ops
  | [], s, _ => .nil s
  | op :: ops, s, h => by
    obtain ⟨h1, h2, h3, h4⟩ := h
    refine .cons (inDomain_text h1) fun junk _ => ?_
    obtain ⟨_, e2, e3⟩ := sstep_text junk h2 (roomOf_le h3)
    refine textOK_domain ?_
    rw [e2, roomOf_step e3]
    exact h4

/-- A whole history. -/
theorem sruns_text {P : Params} {s s' : SState} {ops : List SOp} {sts : List Status} (h : SRuns P s ops sts s')
    (hok : TextOK (roomOf P s.bytes) s.text ops) :
    sts = (textRun s.text ops).1 ∧ s'.text = (textRun s.text ops).2 := by
  induction h with
  | nil s => exact ⟨rfl, rfl⟩
  | cons junk hj h t ih =>
    obtain ⟨h1, h2, h3, h4⟩ := hok
    obtain ⟨e1, e2, e3⟩ := sstep_text junk h2 (roomOf_le h3)
    rw [h] at e1 e2 e3
    dsimp only at e1 e2 e3
    obtain ⟨f1, f2⟩ := ih (by rw [e2, roomOf_step e3]; exact h4)
    rw [e2] at f1 f2
    exact ⟨by rw [f1, e1]; rfl, by rw [f2]; rfl⟩

end Zy
