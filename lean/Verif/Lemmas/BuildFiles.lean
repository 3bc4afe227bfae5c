import Verif.Lemmas.Build

/-! # Lemmas about what a configuration of the library contains -/

namespace Zy

open Spec

/-! ## Text without definitions of macros -/

/-- The conditionals of a text. -/
def Pp.conds : Pp → List Cond
  | .seq a b => a.conds ++ b.conds
  | .ite c a b => c :: (a.conds ++ b.conds)
  | _ => []

/-- No macro is defined. -/
def Pp.plain : Pp → Bool
  | .define _ => false
  | .seq a b => a.plain && b.plain
  | .ite _ a b => a.plain && b.plain
  | _ => true

/-- What remains of a text. -/
def Pp.eval (v : Cond → Bool) : Pp → Option (List Tok)
  | .done => some []
  | .seq a b => (a.eval v).bind fun x => (b.eval v).bind fun y => some (x ++ y)
  | .define _ => some []
  | .error => none
  | .text l => some l
  | .ite c a b => if v c then a.eval v else b.eval v

theorem run_plain (P : Pp) (e : Macros) (h : P.plain = true) :
    P.run e = (P.eval fun c => c.holds e).map fun l => (e, l) := by
  induction P with
  | done => rfl
  | seq a b iha ihb =>
    simp only [Pp.plain, Bool.and_eq_true] at h
    simp only [Pp.run, Pp.eval, iha h.1]
    cases a.eval fun c => c.holds e with
    | none => rfl
    | some x =>
      simp only [Option.map_some, Option.bind_some, ihb h.2]
      cases b.eval fun c => c.holds e <;> rfl
  | define m => exact absurd h (by simp [Pp.plain])
  | error => rfl
  | text l => rfl
  | ite c a b iha ihb =>
    simp only [Pp.plain, Bool.and_eq_true] at h
    show (if c.holds e then a.run e else b.run e) =
      (if c.holds e then (a.eval fun c => c.holds e) else (b.eval fun c => c.holds e)).map fun l => (e, l)
    by_cases hc : c.holds e = true
    · rw [if_pos hc, if_pos hc]; exact iha h.1
    · rw [if_neg hc, if_neg hc]; exact ihb h.2

theorem eval_congr (P : Pp) {v v' : Cond → Bool} (h : ∀ c ∈ P.conds, v c = v' c) : P.eval v = P.eval v' := by
  induction P with
  | seq a b iha ihb =>
    simp only [Pp.conds, List.mem_append] at h
    simp only [Pp.eval, iha fun c hc => h c (Or.inl hc), ihb fun c hc => h c (Or.inr hc)]
  | ite c a b iha ihb =>
    simp only [Pp.conds, List.mem_cons, List.mem_append] at h
    simp only [Pp.eval, iha fun c hc => h c (Or.inr (Or.inl hc)), ihb fun c hc => h c (Or.inr (Or.inr hc)),
      h c (Or.inl rfl)]
  | _ => rfl

/-! ## The files of the library -/

/-- Everything after include/Zycore/LibC.h. -/
def restFiles : Pp :=
  blk [allocatorH, argParseH, bitsetH, formatH, listH, stringH, vectorH, zycoreH, apiMemoryH,
    apiProcessH, apiSynchronizationH, apiTerminalH, apiThreadH, allocatorC, argParseC, bitsetC, formatC,
    listC, stringC, vectorC, zycoreC, apiMemoryC, apiProcessC, apiSynchronizationC, apiTerminalC,
    apiThreadC]

theorem libraryFiles_eq : libraryFiles = .seq typesH (.seq libcH restFiles) := rfl

/-- Targets for which the 32-bit formatting functions are compiled. -/
def narrowCond : Cond :=
  anyOf [.defd .ZYAN_X86, .defd .ZYAN_ARM, .defd .ZYAN_EMSCRIPTEN, .defd .ZYAN_WASM, .defd .ZYAN_PPC]
/-- Targets for which they are not used. -/
def wideCond : Cond :=
  anyOf [.defd .ZYAN_X64, .defd .ZYAN_AARCH64, .defd .ZYAN_PPC64, .defd .ZYAN_RISCV64, .defd .ZYAN_LOONGARCH]

/-- All conditionals of the files after include/Zycore/LibC.h. -/
def restConds : List Cond :=
  [.not (.defd .ZYAN_NO_LIBC), .defd .ZYAN_WINDOWS, .defd .ZYAN_POSIX, narrowCond, wideCond]

theorem restFiles_conds : ∀ c ∈ restFiles.conds, c ∈ restConds := by decide +kernel
theorem libraryFiles_plain : libraryFiles.plain = true := by decide +kernel

/-- One configuration for every choice of the conditions. -/
def canon (nl w px f1 wd : Bool) : Macros := fun m =>
  let o (b : Bool) : Option Int := if b then some 1 else none
  match m with
  | .ZYAN_NO_LIBC => o nl
  | .ZYAN_WINDOWS => o w
  | .ZYAN_POSIX => o px
  | .ZYAN_X86 => o f1
  | .ZYAN_X64 => o wd
  | _ => none

/-- What remains of the files after include/Zycore/LibC.h. -/
def restText (nl w px f1 wd : Bool) : Option (List Tok) := restFiles.eval fun c => c.holds (canon nl w px f1 wd)

theorem rest_eval (e : Macros) : (restFiles.eval fun c => c.holds e) =
    restText (e .ZYAN_NO_LIBC).isSome (e .ZYAN_WINDOWS).isSome (e .ZYAN_POSIX).isSome (narrowCond.holds e)
      (wideCond.holds e) := by
  refine eval_congr _ fun c hc => ?_
  have := restFiles_conds c hc
  simp only [restConds, List.mem_cons, List.not_mem_nil, or_false] at this
  rcases this with rfl | rfl | rfl | rfl | rfl
  · simp only [Cond.holds, canon]; cases (e .ZYAN_NO_LIBC).isSome <;> rfl
  · simp only [Cond.holds, canon]; cases (e .ZYAN_WINDOWS).isSome <;> rfl
  · simp only [Cond.holds, canon]; cases (e .ZYAN_POSIX).isSome <;> rfl
  · cases narrowCond.holds e <;> simp [narrowCond, anyOf, Cond.holds, canon]
  · cases wideCond.holds e <;> simp [wideCond, anyOf, Cond.holds, canon]

/-! ## Counting -/

/-- The set of the numbers of a list, and whether none occurs twice. -/
def maskOf : List Nat → Nat × Bool
  | [] => (0, true)
  | n :: l => ((maskOf l).1 ||| 2 ^ n, (maskOf l).2 && !(maskOf l).1.testBit n)

theorem maskOf_mem (l : List Nat) (n : Nat) : (maskOf l).1.testBit n = true ↔ n ∈ l := by
  induction l with
  | nil => simp [maskOf]
  | cons m l ih =>
    simp only [maskOf, Nat.testBit_or, Bool.or_eq_true, ih, Nat.testBit_two_pow, decide_eq_true_eq, List.mem_cons]
    constructor
    · rintro (h | h)
      · exact Or.inr h
      · exact Or.inl h.symm
    · rintro (h | h)
      · exact Or.inr h.symm
      · exact Or.inl h

theorem maskOf_nodup (l : List Nat) (h : (maskOf l).2 = true) : l.Nodup := by
  induction l with
  | nil => simp
  | cons m l ih =>
    simp only [maskOf, Bool.and_eq_true, Bool.not_eq_true'] at h
    rw [List.nodup_cons]
    refine ⟨fun hm => ?_, ih h.1⟩
    rw [(maskOf_mem l m).2 hm] at h
    exact absurd h.2 (by simp)

theorem ctorIdx_inj {f g : Fn} (h : f.ctorIdx = g.ctorIdx) : f = g := by
  rw [← Fn.ofNat_ctorIdx f, ← Fn.ofNat_ctorIdx g, h]

/-- The functions defined in a text. -/
def bodyList (l : List Tok) : List Fn := l.filterMap fun | .body f => some f | _ => none
/-- The functions declared in a text. -/
def declList (l : List Tok) : List Fn := l.filterMap fun | .decl f => some f | _ => none
/-- The names used in a text. -/
def callList (l : List Tok) : List Fn := l.filterMap fun | .call f => some f | _ => none

theorem mem_declList {l : List Tok} {f : Fn} : f ∈ declList l ↔ Tok.decl f ∈ l := by
  simp only [declList, List.mem_filterMap]
  constructor
  · rintro ⟨t, ht, h⟩
    cases t <;> simp at h
    subst h; exact ht
  · intro h; exact ⟨_, h, rfl⟩

theorem mem_callList {l : List Tok} {f : Fn} : f ∈ callList l ↔ Tok.call f ∈ l := by
  simp only [callList, List.mem_filterMap]
  constructor
  · rintro ⟨t, ht, h⟩
    cases t <;> simp at h
    subst h; exact ht
  · intro h; exact ⟨_, h, rfl⟩

theorem definitions_eq (l : List Tok) (f : Fn) : definitions l f = (bodyList l).count f := by
  induction l with
  | nil => rfl
  | cons t l ih =>
    simp only [definitions] at ih
    cases t with
    | decl g => simpa [definitions, bodyList, List.count_cons] using ih
    | call g => simpa [definitions, bodyList, List.count_cons] using ih
    | body g =>
      have e1 : bodyList (.body g :: l) = g :: bodyList l := rfl
      rw [definitions, e1, List.count_cons, List.count_cons, ih]
      by_cases h : g = f <;> simp [h]

/-- The numbers of functions. -/
def idx (l : List Fn) : List Nat := l.map Fn.ctorIdx

theorem mem_idx {l : List Fn} {f : Fn} : f.ctorIdx ∈ idx l ↔ f ∈ l := by
  simp only [idx, List.mem_map]
  constructor
  · rintro ⟨g, hg, h⟩; rw [← ctorIdx_inj h]; exact hg
  · intro h; exact ⟨f, h, rfl⟩

theorem nodup_of_idx (l : List Fn) (h : (idx l).Nodup) : l.Nodup := by
  induction l with
  | nil => simp
  | cons f l ih =>
    rw [show idx (f :: l) = f.ctorIdx :: idx l from rfl, List.nodup_cons] at h
    rw [List.nodup_cons]
    exact ⟨fun hf => h.1 (mem_idx.2 hf), ih h.2⟩

/-- A text is complete but for the eight functions: nothing is defined twice, what is declared or used is defined. -/
def complete (nl : Bool) (l : List Tok) : Bool :=
  let b := maskOf (idx (bodyList l))
  let d := (maskOf (idx (declList l))).1
  b.2 && (idx (callList l)).all (fun n => b.1.testBit n) &&
    (idx (declList l)).all (fun n => b.1.testBit n || (idx neverDefined).contains n) &&
    (idx neverDefined).all (fun n => !b.1.testBit n && (d.testBit n || (nl && n == Fn.ZyanListDuplicate.ctorIdx)))

theorem complete_spec {nl : Bool} {l : List Tok} (h : complete nl l = true) (f : Fn) :
    definitions l f ≤ 1 ∧ (Tok.call f ∈ l → definitions l f = 1) ∧
    (Tok.decl f ∈ l → f ∉ neverDefined → definitions l f = 1) ∧
    (f ∈ neverDefined → definitions l f = 0 ∧ (Tok.decl f ∈ l ∨ (nl = true ∧ f = .ZyanListDuplicate))) := by
  simp only [complete, Bool.and_eq_true, List.all_eq_true, Bool.or_eq_true, maskOf_mem, Bool.not_eq_true',
    beq_iff_eq, List.contains_eq_mem, decide_eq_true_eq] at h
  obtain ⟨⟨⟨h1, h2⟩, h3⟩, h4⟩ := h
  have hn := nodup_of_idx _ (maskOf_nodup _ h1)
  have hone : f ∈ bodyList l → definitions l f = 1 := fun hf => by
    rw [definitions_eq]; rw [hn.count]; simp [hf]
  have hle : definitions l f ≤ 1 := by
    rw [definitions_eq, hn.count]; split <;> omega
  refine ⟨hle, fun hc => ?_, fun hd hnn => ?_, fun hf => ?_⟩
  · exact hone (mem_idx.1 (h2 _ (mem_idx.2 (mem_callList.2 hc))))
  · rcases h3 _ (mem_idx.2 (mem_declList.2 hd)) with h | h
    · exact hone (mem_idx.1 h)
    · exact absurd (mem_idx.1 h) hnn
  · obtain ⟨h5, h6⟩ := h4 _ (mem_idx.2 hf)
    refine ⟨?_, ?_⟩
    · rw [definitions_eq, List.count_eq_zero]
      intro hb
      rw [(maskOf_mem _ _).2 (mem_idx.2 hb)] at h5
      exact absurd h5 (by simp)
    · rcases h6 with h6 | ⟨h6, h7⟩
      · exact Or.inl (mem_declList.1 (mem_idx.1 h6))
      · exact Or.inr ⟨h6, ctorIdx_inj h7⟩

/-! ## The C library -/

/-- What remains of include/Zycore/LibC.h with the C library. -/
def libcText : List Tok := match libcH.eval fun c => c.holds (canon false false false false false) with
  | some l => l | none => []
/-- What remains of it without the C library, with the Microsoft or Intel compiler. -/
def noLibcTextA : List Tok :=
  match libcH.eval fun c => c.holds (setAll [.ZYAN_MSVC] (canon true false false false false)) with
  | some l => l | none => []
/-- What remains of it without the C library, with Clang or GCC. -/
def noLibcTextB : List Tok :=
  match libcH.eval fun c => c.holds (setAll [.ZYAN_GNUC] (canon true false false false false)) with
  | some l => l | none => []

theorem libcH_eval (e : Macros) (hc : ¬ Defd e .ZYAN_CUSTOM_LIBC) : (libcH.eval fun c => c.holds e) =
    if (e .ZYAN_NO_LIBC).isSome then
      (if (e .ZYAN_MSVC).isSome || (e .ZYAN_ICC).isSome then some noLibcTextA
        else if (e .ZYAN_GNUC).isSome then some noLibcTextB else none)
    else some libcText := by
  have hc' : (e .ZYAN_CUSTOM_LIBC).isSome = false := by simpa [Defd] using hc
  have hcong : ∀ e' : Macros, (∀ m ∈ [Mac.ZYAN_CUSTOM_LIBC, .ZYAN_NO_LIBC, .ZYAN_GNUC], (e m).isSome = (e' m).isSome) →
      ((anyOf [.defd .ZYAN_MSVC, .defd .ZYAN_ICC]).holds e = (anyOf [.defd .ZYAN_MSVC, .defd .ZYAN_ICC]).holds e') →
      (libcH.eval fun c => c.holds e) = (libcH.eval fun c => c.holds e') := by
    intro e' h1 h2
    have hsub : ∀ c ∈ libcH.conds, c ∈ [Cond.not (.defd .ZYAN_CUSTOM_LIBC), .not (.defd .ZYAN_NO_LIBC),
        .defd .ZYAN_GNUC, anyOf [.defd .ZYAN_MSVC, .defd .ZYAN_ICC]] := by decide +kernel
    refine eval_congr _ fun c hc => ?_
    have := hsub c hc
    simp only [List.mem_cons, List.not_mem_nil, or_false] at this
    rcases this with rfl | rfl | rfl | rfl
    · simp only [Cond.holds, h1 .ZYAN_CUSTOM_LIBC (by decide)]
    · simp only [Cond.holds, h1 .ZYAN_NO_LIBC (by decide)]
    · simp only [Cond.holds, h1 .ZYAN_GNUC (by decide)]
    · exact h2
  have hany : (anyOf [.defd .ZYAN_MSVC, .defd .ZYAN_ICC]).holds e = ((e .ZYAN_MSVC).isSome || (e .ZYAN_ICC).isSome) := rfl
  cases hn : (e .ZYAN_NO_LIBC).isSome with
  | false =>
    rw [if_neg (by simp)]
    cases hg : (e .ZYAN_GNUC).isSome <;> cases hm : ((e .ZYAN_MSVC).isSome || (e .ZYAN_ICC).isSome)
    · exact (hcong (canon false false false false false) (by simp [canon, hc', hn, hg]) (by rw [hany, hm]; rfl)).trans (by decide +kernel)
    · exact (hcong (setAll [.ZYAN_MSVC] (canon false false false false false)) (by simp [setAll, canon, hc', hn, hg]) (by rw [hany, hm]; rfl)).trans (by decide +kernel)
    · exact (hcong (setAll [.ZYAN_GNUC] (canon false false false false false)) (by simp [setAll, canon, hc', hn, hg]) (by rw [hany, hm]; rfl)).trans (by decide +kernel)
    · exact (hcong (setAll [.ZYAN_GNUC, .ZYAN_MSVC] (canon false false false false false)) (by simp [setAll, canon, hc', hn, hg]) (by rw [hany, hm]; rfl)).trans (by decide +kernel)
  | true =>
    rw [if_pos rfl]
    cases hg : (e .ZYAN_GNUC).isSome <;> cases hm : ((e .ZYAN_MSVC).isSome || (e .ZYAN_ICC).isSome)
    · exact (hcong (canon true false false false false) (by simp [canon, hc', hn, hg]) (by rw [hany, hm]; rfl)).trans (by decide +kernel)
    · exact (hcong (setAll [.ZYAN_MSVC] (canon true false false false false)) (by simp [setAll, canon, hc', hn, hg]) (by rw [hany, hm]; rfl)).trans (by decide +kernel)
    · exact (hcong (setAll [.ZYAN_GNUC] (canon true false false false false)) (by simp [setAll, canon, hc', hn, hg]) (by rw [hany, hm]; rfl)).trans (by decide +kernel)
    · exact (hcong (setAll [.ZYAN_GNUC, .ZYAN_MSVC] (canon true false false false false)) (by simp [setAll, canon, hc', hn, hg]) (by rw [hany, hm]; rfl)).trans (by decide +kernel)

/-! ## The completeness of all texts -/

/-- All choices of the conditions in which some text remains are complete. -/
theorem complete_libc : ∀ w px f1 wd : Bool, (f1 || wd) = true → (w && px) = false →
    (restText false w px f1 wd = none ∧ w = false ∧ px = false) ∨
    ((w = true ∨ px = true) ∧ (restText false w px f1 wd).any (fun l => complete false (libcText ++ l)) = true) := by
  decide +kernel

theorem complete_no_libc : ∀ w px f1 wd : Bool, (f1 || wd) = true → (w && px) = false →
    (restText true w px f1 wd).any (fun l => complete true (noLibcTextA ++ l) && complete true (noLibcTextB ++ l)) = true := by
  decide +kernel

theorem typesH_eval (e : Macros) : (typesH.eval fun c => c.holds e) =
    if (e .ZYAN_NO_LIBC).isSome && !((e .ZYAN_MSVC).isSome || (e .ZYAN_ICC).isSome) && !(e .ZYAN_GNUC).isSome then none
    else some [] := by
  have h : (typesH.eval fun c => c.holds e) =
      if (e .ZYAN_NO_LIBC).isSome || ((e .ZYAN_MSVC).isSome && (e .ZYAN_KERNEL).isSome) then
        (if (e .ZYAN_MSVC).isSome || (e .ZYAN_ICC).isSome then some []
          else if (e .ZYAN_GNUC).isSome then some [] else none)
      else some [] := rfl
  rw [h]
  cases (e .ZYAN_NO_LIBC).isSome <;> cases (e .ZYAN_MSVC).isSome <;> cases (e .ZYAN_ICC).isSome <;>
    cases (e .ZYAN_GNUC).isSome <;> cases (e .ZYAN_KERNEL).isSome <;> rfl

/-- What is left of the library. -/
theorem library_run {pre e : Macros} (he : definesH.run pre = some (e, [])) :
    library.run pre = ((typesH.eval fun c => c.holds e).bind fun a => (libcH.eval fun c => c.holds e).bind fun b =>
      (restFiles.eval fun c => c.holds e).bind fun r => some (a ++ (b ++ r))).map fun l => (e, l) := by
  rw [library]
  simp only [Pp.run, he, Option.bind_some, List.nil_append]
  rw [run_plain _ _ libraryFiles_plain, libraryFiles_eq]
  simp only [Pp.eval]
  cases (typesH.eval fun c => c.holds e) with
  | none => rfl
  | some a =>
    cases (libcH.eval fun c => c.holds e) with
    | none => rfl
    | some b => cases (restFiles.eval fun c => c.holds e) <;> rfl

theorem accept_some {e : Macros} {x : List Tok} {P : Prop} {c : Bool} (hP : P) (hc : complete c x = true) :
    (((some x).map fun l => (e, l)).isSome = true ↔ P) ∧
    ∀ e' l, ((some x).map fun l => (e, l)) = some (e', l) → e' = e ∧ complete c l = true := by
  refine ⟨⟨fun _ => hP, fun _ => rfl⟩, fun e' l h => ?_⟩
  rw [Option.map_some, Option.some.injEq, Prod.mk.injEq] at h
  exact ⟨h.1.symm, h.2 ▸ hc⟩

theorem accept_none {e : Macros} {P : Prop} {c : Bool} (hP : ¬ P) :
    (((none : Option (List Tok)).map fun l => (e, l)).isSome = true ↔ P) ∧
    ∀ e' l, ((none : Option (List Tok)).map fun l => (e, l)) = some (e', l) → e' = e ∧ complete c l = true :=
  ⟨⟨fun h => absurd h (by simp), fun h => absurd h hP⟩, fun _ _ h => absurd h (by simp)⟩

/-- The configurations the files of the library accept, and the completeness of what is left. -/
theorem library_cases {pre e : Macros} (he : definesH.run pre = some (e, []))
    (hcust : ¬ Defd e .ZYAN_CUSTOM_LIBC)
    (hgnu : Defd e .ZYAN_GNUC ↔ Defd e .ZYAN_CLANG ∨ Defd e .ZYAN_GCC) (hfam : ExactlyOne e families)
    (harch : ExactlyOne e architectures) :
    ((library.run pre).isSome = true ↔
      ((Defd e .ZYAN_NO_LIBC → Defd e .ZYAN_CLANG ∨ Defd e .ZYAN_GCC ∨ Defd e .ZYAN_ICC ∨ Defd e .ZYAN_MSVC) ∧
       (¬ Defd e .ZYAN_NO_LIBC → Defd e .ZYAN_WINDOWS ∨ Defd e .ZYAN_POSIX))) ∧
    ∀ e' l, library.run pre = some (e', l) → e' = e ∧ complete (e .ZYAN_NO_LIBC).isSome l = true := by
  have hfw : (narrowCond.holds e || wideCond.holds e) = true := by
    obtain ⟨m, hm, hd, _⟩ := harch
    simp only [Defd] at hd
    simp only [architectures, List.mem_cons, List.not_mem_nil, or_false] at hm
    simp only [narrowCond, wideCond, anyOf, Cond.holds]
    rcases hm with rfl | rfl | rfl | rfl | rfl | rfl | rfl | rfl | rfl <;> simp [hd]
  have hwp : ((e .ZYAN_WINDOWS).isSome && (e .ZYAN_POSIX).isSome) = false := by
    obtain ⟨m, hm, hd, hk⟩ := hfam
    rw [Bool.and_eq_false_iff]
    refine Classical.byContradiction fun h => ?_
    have h1 : Defd e .ZYAN_WINDOWS := by
      simp only [not_or, Bool.not_eq_false] at h; exact h.1
    have h2 : Defd e .ZYAN_POSIX := by
      simp only [not_or, Bool.not_eq_false] at h; exact h.2
    exact absurd ((hk _ (by decide) h1).trans (hk _ (by decide) h2).symm) (by decide)
  have hgc : ((e .ZYAN_MSVC).isSome || (e .ZYAN_ICC).isSome) = true ∨ (e .ZYAN_GNUC).isSome = true ↔
      Defd e .ZYAN_CLANG ∨ Defd e .ZYAN_GCC ∨ Defd e .ZYAN_ICC ∨ Defd e .ZYAN_MSVC := by
    rw [Bool.or_eq_true]
    have : (e .ZYAN_GNUC).isSome = true ↔ Defd e .ZYAN_CLANG ∨ Defd e .ZYAN_GCC := hgnu
    rw [this]
    simp only [Defd]
    grind
  rw [library_run he, typesH_eval, libcH_eval e hcust, rest_eval]
  by_cases hn : (e .ZYAN_NO_LIBC).isSome = true
  · have hc := complete_no_libc (e .ZYAN_WINDOWS).isSome (e .ZYAN_POSIX).isSome (narrowCond.holds e) (wideCond.holds e) hfw hwp
    have hD : Defd e .ZYAN_NO_LIBC := hn
    simp only [hn] at hc ⊢
    cases hr : restText true (e .ZYAN_WINDOWS).isSome (e .ZYAN_POSIX).isSome (narrowCond.holds e) (wideCond.holds e) with
    | none => rw [hr] at hc; exact absurd hc (by simp)
    | some r =>
      rw [hr] at hc
      simp only [Option.any_some, Bool.and_eq_true] at hc
      simp only [hD, true_implies, not_true, false_implies, and_true, ← hgc]
      cases hm : ((e .ZYAN_MSVC).isSome || (e .ZYAN_ICC).isSome) with
      | true => exact accept_some (Or.inl rfl) hc.1
      | false =>
        cases hg : (e .ZYAN_GNUC).isSome with
        | true => exact accept_some (Or.inr rfl) hc.2
        | false => exact accept_none (by simp)
  · have hn' : (e .ZYAN_NO_LIBC).isSome = false := by simpa using hn
    have hc := complete_libc (e .ZYAN_WINDOWS).isSome (e .ZYAN_POSIX).isSome (narrowCond.holds e) (wideCond.holds e) hfw hwp
    have hD : ¬ Defd e .ZYAN_NO_LIBC := hn
    simp only [hn'] at hc ⊢
    simp only [hD, false_implies, true_and, not_false_eq_true, true_implies]
    cases hr : restText false (e .ZYAN_WINDOWS).isSome (e .ZYAN_POSIX).isSome (narrowCond.holds e) (wideCond.holds e) with
    | none =>
      rw [hr] at hc
      rcases hc with ⟨_, h1, h2⟩ | ⟨_, h⟩
      · exact accept_none (by simp [Defd, h1, h2])
      · exact absurd h (by simp)
    | some r =>
      rw [hr] at hc
      rcases hc with ⟨h, _⟩ | ⟨h1, h2⟩
      · exact absurd h (by simp)
      · simp only [Option.any_some] at h2
        have h1' : Defd e .ZYAN_WINDOWS ∨ Defd e .ZYAN_POSIX := h1
        exact accept_some h1' h2

/-- What is known about an accepted configuration. -/
theorem library_facts {pre e : Macros} {l : List Tok} (hu : Untouched pre) (he : definesH.run pre = some (e, l))
    (hcust : ¬ Defd pre .ZYAN_CUSTOM_LIBC) :
    ((library.run pre).isSome = true ↔
      ((Defd e .ZYAN_NO_LIBC → Defd e .ZYAN_CLANG ∨ Defd e .ZYAN_GCC ∨ Defd e .ZYAN_ICC ∨ Defd e .ZYAN_MSVC) ∧
       (¬ Defd e .ZYAN_NO_LIBC → Defd e .ZYAN_WINDOWS ∨ Defd e .ZYAN_POSIX))) ∧
    (∀ e' l, library.run pre = some (e', l) → e' = e ∧ complete (e .ZYAN_NO_LIBC).isSome l = true) ∧
    e .ZYAN_NO_LIBC = pre .ZYAN_NO_LIBC := by
  have hk : KnownArchitecture pre := by
    refine Classical.not_not.1 fun h => ?_
    rw [(definesH_none pre).2 h] at he
    exact absurd he (by simp)
  obtain ⟨e', h1, _, h3, _, h4, h5, _, _, h6⟩ := definesH_some pre hu hk
  have e1 : e' = e := by rw [h1] at he; exact (Prod.mk.inj (Option.some.inj he)).1
  subst e1
  have hc : ¬ Defd e' .ZYAN_CUSTOM_LIBC := by rw [Defd, h6 _ (by decide)]; exact hcust
  obtain ⟨a, b⟩ := library_cases h1 hc h3 h4 h5
  exact ⟨a, b, h6 _ (by decide)⟩

/-- The configuration behind a result. -/
theorem library_complete {pre e : Macros} {l : List Tok} (hu : Untouched pre) (hc : ¬ Defd pre .ZYAN_CUSTOM_LIBC)
    (h : library.run pre = some (e, l)) : complete (pre .ZYAN_NO_LIBC).isSome l = true := by
  cases hd : definesH.run pre with
  | none => rw [library, Pp.run, hd] at h; exact absurd h (by simp)
  | some r =>
    obtain ⟨e0, l0⟩ := r
    obtain ⟨_, h2, h3⟩ := library_facts hu hd hc
    rw [← h3]
    exact (h2 e l h).2

/-! ## Atomic operations -/

/-- One configuration for every choice of the conditions in the headers for atomic operations. -/
def canonAtomic (g m x86 x64 : Bool) : Macros := fun k =>
  let o (b : Bool) : Option Int := if b then some 1 else none
  match k with
  | .ZYAN_GCC => o g
  | .ZYAN_MSVC => o m
  | .ZYAN_X86 => o x86
  | .ZYAN_X64 => o x64
  | _ => none

/-- Everything declared or used is defined once. -/
def completeAtomic (l : List Tok) : Bool :=
  let b := maskOf (idx (bodyList l))
  b.2 && (idx (callList l)).all (fun n => b.1.testBit n) && (idx (declList l)).all (fun n => b.1.testBit n)

theorem completeAtomic_spec {l : List Tok} (h : completeAtomic l = true) (f : Fn)
    (hf : Tok.decl f ∈ l ∨ Tok.call f ∈ l) : definitions l f = 1 := by
  simp only [completeAtomic, Bool.and_eq_true, List.all_eq_true, maskOf_mem] at h
  obtain ⟨⟨h1, h2⟩, h3⟩ := h
  have hn := nodup_of_idx _ (maskOf_nodup _ h1)
  have hm : f ∈ bodyList l := by
    rcases hf with hf | hf
    · exact mem_idx.1 (h3 _ (mem_idx.2 (mem_declList.2 hf)))
    · exact mem_idx.1 (h2 _ (mem_idx.2 (mem_callList.2 hf)))
  rw [definitions_eq, hn.count]
  simp [hm]

/-- What is left of include/Zycore/Atomic.h. -/
def atomicText (g m x86 x64 : Bool) : Option (List Tok) := atomicH.eval fun c => c.holds (canonAtomic g m x86 x64)

theorem atomic_complete : ∀ g m x86 x64 : Bool,
    ((atomicText g m x86 x64).isSome = (g || (m && (x86 || x64)))) ∧
    (atomicText g m x86 x64).all (fun l => completeAtomic l && decide (l.take 9 = ([
        .ZyanAtomicCompareExchange, .ZyanAtomicIncrement, .ZyanAtomicDecrement,
        .ZyanAtomicCompareExchange32, .ZyanAtomicIncrement32, .ZyanAtomicDecrement32,
        .ZyanAtomicCompareExchange64, .ZyanAtomicIncrement64, .ZyanAtomicDecrement64] : List Fn).map .decl)) = true := by
  decide +kernel

theorem atomicH_run (e : Macros) : atomicH.run e =
    (atomicText ((e .ZYAN_CLANG).isSome || ((e .ZYAN_GCC).isSome || (e .ZYAN_ICC).isSome)) (e .ZYAN_MSVC).isSome
      (e .ZYAN_X86).isSome (e .ZYAN_X64).isSome).map fun l => (e, l) := by
  rw [run_plain atomicH e (by decide +kernel)]
  congr 1
  refine eval_congr _ fun c hc => ?_
  have hsub : ∀ c ∈ atomicH.conds, c ∈ [anyOf [.defd .ZYAN_CLANG, .defd .ZYAN_GCC, .defd .ZYAN_ICC],
      .defd .ZYAN_MSVC, .defd .ZYAN_X86, .defd .ZYAN_X64] := by decide +kernel
  have := hsub c hc
  simp only [List.mem_cons, List.not_mem_nil, or_false] at this
  rcases this with rfl | rfl | rfl | rfl
  · simp only [anyOf, Cond.holds, canonAtomic]
    cases ((e .ZYAN_CLANG).isSome || ((e .ZYAN_GCC).isSome || (e .ZYAN_ICC).isSome)) <;> rfl
  · simp only [Cond.holds, canonAtomic]; cases (e .ZYAN_MSVC).isSome <;> rfl
  · simp only [Cond.holds, canonAtomic]; cases (e .ZYAN_X86).isSome <;> rfl
  · simp only [Cond.holds, canonAtomic]; cases (e .ZYAN_X64).isSome <;> rfl

end Zy
