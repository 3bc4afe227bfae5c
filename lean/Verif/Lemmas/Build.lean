import Verif.Spec.Build

/-! # Lemmas about the preprocessing of the library -/

namespace Zy

open Spec

/-! ## Definitions -/

/-- The macros after defining those of a list. -/
def setAll (ms : List Mac) (e : Macros) : Macros := fun k => if k ∈ ms then some 1 else e k

theorem setAll_of_mem {ms : List Mac} {e : Macros} {m : Mac} (h : m ∈ ms) : setAll ms e m = some 1 := if_pos h

theorem setAll_of_not_mem {ms : List Mac} {e : Macros} {m : Mac} (h : m ∉ ms) : setAll ms e m = e m := if_neg h

theorem defines_run (ms : List Mac) (e : Macros) : (defines ms).run e = some (setAll ms e, []) := by
  induction ms generalizing e with
  | nil =>
    have : setAll [] e = e := by funext k; simp [setAll]
    simp [defines, blk, Pp.run, this]
  | cons m ms ih =>
    cases ms with
    | nil =>
      simp only [defines, List.map_cons, List.map_nil, blk, Pp.run, Option.some.injEq, Prod.mk.injEq, and_true]
      funext k
      simp [setAll]
    | cons m' ms =>
      have e1 : defines (m :: m' :: ms) = .seq (.define m) (defines (m' :: ms)) := rfl
      rw [e1]
      simp only [Pp.run, Option.bind_some, ih, List.append_nil, Option.some.injEq, Prod.mk.injEq, and_true]
      funext k
      simp only [setAll, List.mem_cons]
      split <;> split <;> simp_all

theorem define_run (m : Mac) (e : Macros) : (Pp.define m).run e = some (setAll [m] e, []) := by
  simp only [Pp.run, Option.some.injEq, Prod.mk.injEq, and_true]
  funext k
  simp [setAll]

/-! ## The detections -/

/-- What the detection of the compiler may define. -/
def compilerSets : List (List Mac) :=
  [[.ZYAN_CLANG, .ZYAN_GNUC], [.ZYAN_ICC], [.ZYAN_GCC, .ZYAN_GNUC], [.ZYAN_MSVC], [.ZYAN_BORLAND],
    [.ZYAN_UNKNOWN_COMPILER]]
/-- What the detection of the platform may define. -/
def platformSets : List (List Mac) :=
  [[.ZYAN_WINDOWS], [.ZYAN_EMSCRIPTEN], [.ZYAN_WASI], [.ZYAN_APPLE, .ZYAN_POSIX], [.ZYAN_LINUX, .ZYAN_POSIX],
    [.ZYAN_FREEBSD, .ZYAN_POSIX], [.ZYAN_NETBSD, .ZYAN_POSIX], [.ZYAN_SOLARIS, .ZYAN_POSIX],
    [.ZYAN_HAIKU, .ZYAN_POSIX], [.ZYAN_UNIX, .ZYAN_POSIX], [.ZYAN_POSIX], [.ZYAN_UNKNOWN_PLATFORM]]
/-- What the detection of the mode may define. -/
def modeSets : List (List Mac) := [[.ZYAN_KERNEL], [.ZYAN_USER]]
/-- What the detection of the architecture may define. -/
def archSets : List (List Mac) :=
  [[.ZYAN_X64], [.ZYAN_X86], [.ZYAN_AARCH64], [.ZYAN_ARM], [.ZYAN_WASM], [.ZYAN_LOONGARCH], [.ZYAN_PPC64],
    [.ZYAN_PPC], [.ZYAN_RISCV64]]
/-- What the detection of the kind of build may define. -/
def buildSets : List (List Mac) := [[.ZYAN_DEBUG], [.ZYAN_RELEASE]]

theorem anyOf_defd (ms : List Mac) (e : Macros) (hm : ms ≠ []) :
    (anyOf (ms.map .defd)).holds e = true ↔ ∃ k ∈ ms, Defd e k := by
  induction ms with
  | nil => exact absurd rfl hm
  | cons m ms ih =>
    cases ms with
    | nil => simp [anyOf, Cond.holds, Defd]
    | cons m' ms =>
      have e1 : anyOf ((m :: m' :: ms).map .defd) = .either (.defd m) (anyOf ((m' :: ms).map .defd)) := rfl
      rw [e1]
      simp only [Cond.holds, Bool.or_eq_true, ih (by simp), List.mem_cons, exists_eq_or_imp, Defd]

/-- A table of detections as a chain of conditionals; `x` says what else is defined. -/
def chain (x : Mac → List Mac) (T : List (Mac × List Mac)) : List (Cond × List Mac) :=
  T.map fun p => (anyOf (p.2.map .defd), p.1 :: x p.1)

theorem detect_chain (x : Mac → List Mac) (T : List (Mac × List Mac)) (rest : List (Cond × List Mac)) (other : Pp)
    (e : Macros) (hT : ∀ p ∈ T, p.2 ≠ []) :
    (∃ t, t ∈ T.map (·.1) ∧ (∀ m, Recognised e T m ↔ m = t) ∧
      (detect (chain x T ++ rest) other).run e = some (setAll (t :: x t) e, [])) ∨
    ((∀ m, ¬ Recognised e T m) ∧ (∀ p ∈ T, ∀ k ∈ p.2, ¬ Defd e k) ∧
      (detect (chain x T ++ rest) other).run e = (detect rest other).run e) := by
  induction T with
  | nil => right; exact ⟨fun m h => h, by simp, rfl⟩
  | cons p T ih =>
    obtain ⟨t, ms⟩ := p
    have hms : ms ≠ [] := hT (t, ms) (by simp)
    have e1 : detect (chain x ((t, ms) :: T) ++ rest) other =
        .ite (anyOf (ms.map .defd)) (defines (t :: x t)) (detect (chain x T ++ rest) other) := rfl
    rw [e1]
    simp only [Pp.run]
    by_cases hk : ∃ k ∈ ms, Defd e k
    · left
      refine ⟨t, by simp, ?_, by rw [if_pos ((anyOf_defd ms e hms).2 hk), defines_run]⟩
      intro m
      have hn : ¬ ∀ k ∈ ms, ¬ Defd e k := fun h => by obtain ⟨k, h1, h2⟩ := hk; exact h k h1 h2
      simp only [Recognised, hk, true_and, hn, false_and, or_false]
    · have hn : ∀ k ∈ ms, ¬ Defd e k := fun k h1 h2 => hk ⟨k, h1, h2⟩
      rw [if_neg (fun h => hk ((anyOf_defd ms e hms).1 h))]
      rcases ih (fun p hp => hT p (by simp [hp])) with ⟨t', h1, h2, h3⟩ | ⟨h1, h2, h3⟩
      · left
        refine ⟨t', by simp only [List.map_cons, List.mem_cons, h1, or_true], ?_, h3⟩
        intro m
        simp only [Recognised, hk, false_and, false_or, ← h2 m]
        exact ⟨fun h => h.2, fun h => ⟨hn, h⟩⟩
      · right
        refine ⟨?_, ?_, h3⟩
        · intro m h
          simp only [Recognised, hk, false_and, false_or] at h
          exact h1 m h.2
        · intro p hp
          rcases List.mem_cons.1 hp with rfl | hp
          · exact hn
          · exact h2 p hp

/-- What is defined besides the compiler and the operating system. -/
def besides : Mac → List Mac
  | .ZYAN_CLANG | .ZYAN_GCC => [.ZYAN_GNUC]
  | .ZYAN_APPLE | .ZYAN_LINUX | .ZYAN_FREEBSD | .ZYAN_NETBSD | .ZYAN_SOLARIS | .ZYAN_HAIKU | .ZYAN_UNIX => [.ZYAN_POSIX]
  | _ => []

theorem compilerH_run (e : Macros) : ∃ ms ∈ compilerSets, compilerH.run e = some (setAll ms e, []) ∧
    (∀ m ∈ compilers, m ≠ .ZYAN_UNKNOWN_COMPILER → (m ∈ ms ↔ Recognised e compilerMarks m)) := by
  have h0 : compilerH = detect (chain besides compilerMarks ++ []) (.define .ZYAN_UNKNOWN_COMPILER) := rfl
  rw [h0]
  rcases detect_chain besides compilerMarks [] (.define .ZYAN_UNKNOWN_COMPILER) e (by decide) with
    ⟨t, h1, h2, h3⟩ | ⟨h1, _, h3⟩
  · have hs : ∀ t ∈ compilerMarks.map (·.1), (t :: besides t) ∈ compilerSets := by decide
    have hb : ∀ t ∈ compilerMarks.map (·.1), ∀ m ∈ compilers, m ∉ besides t := by decide
    refine ⟨_, hs t h1, h3, fun m hm _ => ?_⟩
    rw [h2, List.mem_cons]
    simp [hb t h1 m hm]
  · refine ⟨[.ZYAN_UNKNOWN_COMPILER], by decide, by rw [h3]; exact define_run _ e, fun m _ hu => ?_⟩
    simp [h1 m, hu]

theorem platformH_run (e : Macros) : ∃ ms ∈ platformSets, platformH.run e = some (setAll ms e, []) ∧
    (∀ m ∈ systems, m ≠ .ZYAN_UNKNOWN_PLATFORM → (m ∈ ms ↔ Recognised e systemMarks m)) := by
  have h0 : platformH = detect (chain besides systemMarks ++ []) (.define .ZYAN_UNKNOWN_PLATFORM) := rfl
  rw [h0]
  rcases detect_chain besides systemMarks [] (.define .ZYAN_UNKNOWN_PLATFORM) e (by decide) with
    ⟨t, h1, h2, h3⟩ | ⟨h1, _, h3⟩
  · have hs : ∀ t ∈ systemMarks.map (·.1), (t :: besides t) ∈ platformSets := by decide
    have hb : ∀ t ∈ systemMarks.map (·.1), ∀ m ∈ systems, m ∉ besides t := by decide
    refine ⟨_, hs t h1, h3, fun m hm _ => ?_⟩
    rw [h2, List.mem_cons]
    simp [hb t h1 m hm]
  · refine ⟨[.ZYAN_UNKNOWN_PLATFORM], by decide, by rw [h3]; exact define_run _ e, fun m _ hu => ?_⟩
    simp [h1 m, hu]

/-- When a build is for a kernel. -/
def kernelMode (e : Macros) : Prop :=
  (Defd e .ZYAN_WINDOWS ∧ Defd e ._KERNEL_MODE) ∨ (Defd e .ZYAN_APPLE ∧ Defd e .KERNEL) ∨
    (Defd e .ZYAN_LINUX ∧ Defd e .__KERNEL__) ∨ Defd e .__FreeBSD_kernel__

theorem kernelH_run (e : Macros) : ∃ ms ∈ modeSets, kernelH.run e = some (setAll ms e, []) ∧
    (.ZYAN_KERNEL ∈ ms ↔ kernelMode e) := by
  simp only [kernelH, detect, Pp.run]
  split
  · rename_i h
    refine ⟨[.ZYAN_KERNEL], by decide, defines_run _ e, ?_⟩
    simp only [anyOf, Cond.holds, Bool.or_eq_true, Bool.and_eq_true] at h
    simpa [kernelMode, Defd] using h
  · rename_i h
    refine ⟨[.ZYAN_USER], by decide, define_run _ e, ?_⟩
    simp only [anyOf, Cond.holds, Bool.or_eq_true, Bool.and_eq_true] at h
    simpa [kernelMode, Defd] using h

/-- When a build is a debug build. -/
def debugMode (e : Macros) : Prop :=
  ((Defd e .ZYAN_MSVC ∨ Defd e .ZYAN_BORLAND) ∧ Defd e ._DEBUG) ∨
  (¬ (Defd e .ZYAN_MSVC ∨ Defd e .ZYAN_BORLAND) ∧ (Defd e .ZYAN_GNUC ∨ Defd e .ZYAN_ICC) ∧ ¬ Defd e .NDEBUG)

theorem debugH_run (e : Macros) : ∃ ms ∈ buildSets, debugH.run e = some (setAll ms e, []) ∧
    (.ZYAN_DEBUG ∈ ms ↔ debugMode e) := by
  have e1 : debugH.run e = if (anyOf [.defd .ZYAN_MSVC, .defd .ZYAN_BORLAND]).holds e then
        (if (Cond.defd ._DEBUG).holds e then (defines [.ZYAN_DEBUG]).run e else (Pp.define .ZYAN_RELEASE).run e)
      else if (anyOf [.defd .ZYAN_GNUC, .defd .ZYAN_ICC]).holds e then
        (if (Cond.defd .NDEBUG).holds e then (defines [.ZYAN_RELEASE]).run e else (Pp.define .ZYAN_DEBUG).run e)
      else (Pp.define .ZYAN_RELEASE).run e := rfl
  have m1 : (anyOf [.defd .ZYAN_MSVC, .defd .ZYAN_BORLAND]).holds e = true ↔ Defd e .ZYAN_MSVC ∨ Defd e .ZYAN_BORLAND := by
    simp only [anyOf, Cond.holds, Bool.or_eq_true, Defd]
  have m2 : (anyOf [.defd .ZYAN_GNUC, .defd .ZYAN_ICC]).holds e = true ↔ Defd e .ZYAN_GNUC ∨ Defd e .ZYAN_ICC := by
    simp only [anyOf, Cond.holds, Bool.or_eq_true, Defd]
  have m3 : ∀ m, (Cond.defd m).holds e = true ↔ Defd e m := fun m => by simp only [Cond.holds, Defd]
  rw [e1]
  by_cases h1 : Defd e .ZYAN_MSVC ∨ Defd e .ZYAN_BORLAND
  · rw [if_pos (m1.2 h1)]
    by_cases h2 : Defd e ._DEBUG
    · refine ⟨[.ZYAN_DEBUG], by decide, by rw [if_pos ((m3 _).2 h2), defines_run], ?_⟩
      simp [debugMode, h1, h2]
    · refine ⟨[.ZYAN_RELEASE], by decide, by rw [if_neg (fun h => h2 ((m3 _).1 h)), define_run], ?_⟩
      simp [debugMode, h1, h2]
  · rw [if_neg (fun h => h1 (m1.1 h))]
    by_cases h2 : Defd e .ZYAN_GNUC ∨ Defd e .ZYAN_ICC
    · rw [if_pos (m2.2 h2)]
      by_cases h3 : Defd e .NDEBUG
      · refine ⟨[.ZYAN_RELEASE], by decide, by rw [if_pos ((m3 _).2 h3), defines_run], ?_⟩
        simp [debugMode, h1, h3]
      · refine ⟨[.ZYAN_DEBUG], by decide, by rw [if_neg (fun h => h3 ((m3 _).1 h)), define_run], ?_⟩
        simp [debugMode, h1, h2, h3]
    · rw [if_neg (fun h => h2 (m2.1 h))]
      refine ⟨[.ZYAN_RELEASE], by decide, define_run _ e, ?_⟩
      simp [debugMode, h1, h2]

/-- The macros by which an architecture is recognised are those of the table, or those of RISC-V. -/
theorem knownArchitecture_iff (e : Macros) : KnownArchitecture e ↔
    (∃ p ∈ architectureMarks, ∃ k ∈ p.2, Defd e k) ∨ (Defd e .__riscv ∧ e .__riscv_xlen = some 64) := by
  simp [KnownArchitecture, architectureMarks, or_assoc]

theorem architectureH_run (e : Macros) :
    (¬ KnownArchitecture e ∧ architectureH.run e = none) ∨
    (KnownArchitecture e ∧ ∃ ms ∈ archSets, architectureH.run e = some (setAll ms e, []) ∧
      (∀ m ∈ architectures, m ≠ .ZYAN_RISCV64 → (m ∈ ms ↔ Recognised e architectureMarks m))) := by
  have h0 : architectureH = detect (chain besides architectureMarks ++
    [(.both (.defd .__riscv) (.equals .__riscv_xlen 64), [.ZYAN_RISCV64])]) .error := rfl
  rw [h0]
  have hx : (Cond.both (.defd .__riscv) (.equals .__riscv_xlen 64)).holds e = true ↔
      Defd e .__riscv ∧ e .__riscv_xlen = some 64 := by
    simp only [Cond.holds, Defd, Bool.and_eq_true, beq_iff_eq]
    cases e .__riscv_xlen <;> simp
  rcases detect_chain besides architectureMarks
    [(.both (.defd .__riscv) (.equals .__riscv_xlen 64), [.ZYAN_RISCV64])] .error e (by decide) with
    ⟨t, h1, h2, h3⟩ | ⟨h1, hn, h3⟩
  · have hs : ∀ t ∈ architectureMarks.map (·.1), (t :: besides t) ∈ archSets := by decide
    have hb : ∀ t ∈ architectureMarks.map (·.1), ∀ m ∈ architectures, m ∉ besides t := by decide
    right
    refine ⟨?_, _, hs t h1, h3, fun m hm _ => ?_⟩
    · rw [knownArchitecture_iff]
      left
      have hr : ∀ (T : List (Mac × List Mac)) (m : Mac), Recognised e T m → ∃ p ∈ T, ∃ k ∈ p.2, Defd e k := by
        intro T
        induction T with
        | nil => intro m h; exact absurd h id
        | cons p T ih =>
          intro m h
          rcases h with ⟨hk, _⟩ | ⟨_, h⟩
          · exact ⟨p, by simp, hk⟩
          · obtain ⟨q, hq, hk⟩ := ih m h
            exact ⟨q, by simp [hq], hk⟩
      exact hr _ t ((h2 t).2 rfl)
    · rw [h2, List.mem_cons]
      simp [hb t h1 m hm]
  · rw [h3]
    simp only [detect, Pp.run]
    by_cases hv : Defd e .__riscv ∧ e .__riscv_xlen = some 64
    · right
      refine ⟨(knownArchitecture_iff e).2 (Or.inr hv), [.ZYAN_RISCV64], by decide, ?_, fun m _ hu => ?_⟩
      · rw [if_pos (hx.2 hv), defines_run]
      · simp [h1 m, hu]
    · left
      refine ⟨?_, if_neg (fun h => hv (hx.1 h))⟩
      rw [knownArchitecture_iff]
      rintro (⟨p, hp, k, hk, hd⟩ | h)
      · exact hn p hp k hk hd
      · exact hv h

/-! ## All detections -/

theorem setAll_setAll (a b : List Mac) (e : Macros) : setAll a (setAll b e) = setAll (a ++ b) e := by
  funext k
  simp only [setAll, List.mem_append]
  by_cases h : k ∈ a <;> by_cases h' : k ∈ b <;> simp [h, h']

theorem defd_setAll (ms : List Mac) (e : Macros) (m : Mac) : Defd (setAll ms e) m ↔ m ∈ ms ∨ Defd e m := by
  by_cases h : m ∈ ms
  · simp [Defd, setAll_of_mem h, h]
  · simp [Defd, setAll_of_not_mem h, h]

theorem recognised_congr {e e' : Macros} (T : List (Mac × List Mac)) (h : ∀ p ∈ T, ∀ k ∈ p.2, e' k = e k) (m : Mac) :
    Recognised e' T m ↔ Recognised e T m := by
  induction T with
  | nil => exact Iff.rfl
  | cons p T ih =>
    obtain ⟨t, ms⟩ := p
    have h1 : ∀ k ∈ ms, (Defd e' k ↔ Defd e k) := fun k hk => by
      rw [Defd, Defd, h (t, ms) (by simp) k hk]
    have h2 : (∃ k ∈ ms, Defd e' k) ↔ ∃ k ∈ ms, Defd e k :=
      ⟨fun ⟨k, a, b⟩ => ⟨k, a, (h1 k a).1 b⟩, fun ⟨k, a, b⟩ => ⟨k, a, (h1 k a).2 b⟩⟩
    have h3 : (∀ k ∈ ms, ¬ Defd e' k) ↔ ∀ k ∈ ms, ¬ Defd e k :=
      ⟨fun H k a b => H k a ((h1 k a).2 b), fun H k a b => H k a ((h1 k a).1 b)⟩
    simp only [Recognised, h2, h3, ih (fun p hp => h p (by simp [hp]))]

/-- What the detections have found out. -/
structure Found (pre : Macros) (c p k a d : List Mac) : Prop where
  hc : c ∈ compilerSets
  hp : p ∈ platformSets
  hk : k ∈ modeSets
  ha : a ∈ archSets
  hd : d ∈ buildSets
  compiler : ∀ m ∈ compilers, m ≠ .ZYAN_UNKNOWN_COMPILER → (m ∈ c ↔ Recognised pre compilerMarks m)
  platform : ∀ m ∈ systems, m ≠ .ZYAN_UNKNOWN_PLATFORM → (m ∈ p ↔ Recognised pre systemMarks m)
  arch : ∀ m ∈ architectures, m ≠ .ZYAN_RISCV64 → (m ∈ a ↔ Recognised pre architectureMarks m)
  kernel : .ZYAN_KERNEL ∈ k ↔ kernelMode (setAll (p ++ c) pre)
  debug : .ZYAN_DEBUG ∈ d ↔ debugMode (setAll (a ++ (k ++ (p ++ c))) pre)

theorem definesH_run (pre : Macros) :
    (¬ KnownArchitecture pre ∧ definesH.run pre = none) ∨
    (KnownArchitecture pre ∧ ∃ c p k a d, Found pre c p k a d ∧
      definesH.run pre = some (setAll (d ++ (a ++ (k ++ (p ++ c)))) pre, [])) := by
  obtain ⟨c, hc, rc, fc⟩ := compilerH_run pre
  obtain ⟨p, hp, rp, fp⟩ := platformH_run (setAll c pre)
  obtain ⟨k, hk, rk, fk⟩ := kernelH_run (setAll p (setAll c pre))
  have hrun : definesH.run pre = ((architectureH.run (setAll k (setAll p (setAll c pre)))).bind fun r =>
      (debugH.run r.1).bind fun q => some (q.1, r.2 ++ q.2)) := by
    have e1 : definesH = .seq compilerH (.seq platformH (.seq kernelH (.seq architectureH debugH))) := rfl
    rw [e1]
    simp only [Pp.run, rc, rp, rk, Option.bind_some, List.nil_append]
    cases (architectureH.run (setAll k (setAll p (setAll c pre)))) with
    | none => rfl
    | some r =>
      simp only [Option.bind_some]
      cases debugH.run r.1 <;> rfl
  have nc : ∀ c ∈ compilerSets, ∀ p ∈ systemMarks, ∀ m ∈ p.2, m ∉ c := by decide
  have nca : ∀ c ∈ compilerSets, ∀ p ∈ architectureMarks, ∀ m ∈ p.2, m ∉ c := by decide
  have npa : ∀ c ∈ platformSets, ∀ p ∈ architectureMarks, ∀ m ∈ p.2, m ∉ c := by decide
  have nka : ∀ c ∈ modeSets, ∀ p ∈ architectureMarks, ∀ m ∈ p.2, m ∉ c := by decide
  have ha0 : ∀ q ∈ architectureMarks, ∀ m ∈ q.2, setAll k (setAll p (setAll c pre)) m = pre m := fun q hq m hm => by
    rw [setAll_of_not_mem (nka k hk q hq m hm), setAll_of_not_mem (npa p hp q hq m hm),
      setAll_of_not_mem (nca c hc q hq m hm)]
  have hr0 : ∀ m ∈ [Mac.__riscv, .__riscv_xlen], setAll k (setAll p (setAll c pre)) m = pre m := fun m hm => by
    have n1 : ∀ c ∈ compilerSets, ∀ m ∈ [Mac.__riscv, .__riscv_xlen], m ∉ c := by decide
    have n2 : ∀ c ∈ platformSets, ∀ m ∈ [Mac.__riscv, .__riscv_xlen], m ∉ c := by decide
    have n3 : ∀ c ∈ modeSets, ∀ m ∈ [Mac.__riscv, .__riscv_xlen], m ∉ c := by decide
    rw [setAll_of_not_mem (n3 k hk m hm), setAll_of_not_mem (n2 p hp m hm), setAll_of_not_mem (n1 c hc m hm)]
  have hknown : KnownArchitecture (setAll k (setAll p (setAll c pre))) ↔ KnownArchitecture pre := by
    rw [knownArchitecture_iff, knownArchitecture_iff, Defd, Defd, hr0 _ (by simp), hr0 _ (by simp)]
    refine or_congr_left ⟨?_, ?_⟩
    · rintro ⟨q, hq, m, hm, h⟩
      exact ⟨q, hq, m, hm, by rw [Defd, ← ha0 q hq m hm]; exact h⟩
    · rintro ⟨q, hq, m, hm, h⟩
      exact ⟨q, hq, m, hm, by rw [Defd, ha0 q hq m hm]; exact h⟩
  rcases architectureH_run (setAll k (setAll p (setAll c pre))) with ⟨hu, ru⟩ | ⟨hkn, a, ha, ra, fa⟩
  · left
    exact ⟨fun h => hu (hknown.2 h), by rw [hrun, ru]; rfl⟩
  · right
    obtain ⟨d, hd, rd, fd⟩ := debugH_run (setAll a (setAll k (setAll p (setAll c pre))))
    refine ⟨hknown.1 hkn, c, p, k, a, d, ⟨hc, hp, hk, ha, hd, fc, ?_, ?_, ?_, ?_⟩, ?_⟩
    · intro m hm hu
      rw [fp m hm hu]
      exact recognised_congr _ (fun q hq k hk => setAll_of_not_mem (nc c hc q hq k hk)) m
    · intro m hm hu
      rw [fa m hm hu]
      exact recognised_congr _ ha0 m
    · rw [fk, setAll_setAll]
    · rw [fd]; simp only [setAll_setAll]
    · rw [hrun, ra]
      simp only [Option.bind_some]
      rw [rd]
      simp only [Option.bind_some, List.append_nil, setAll_setAll]

/-- The macros after the detections. -/
abbrev found (pre : Macros) (c p k a d : List Mac) : Macros := setAll (d ++ (a ++ (k ++ (p ++ c)))) pre

theorem exactlyOne_of {e : Macros} {fam s : List Mac} (h : ∀ m ∈ fam, (Defd e m ↔ m ∈ s))
    (h1 : ∃ m ∈ fam, m ∈ s ∧ ∀ k ∈ fam, k ∈ s → k = m) : ExactlyOne e fam := by
  obtain ⟨m, hm, hs, hk⟩ := h1
  exact ⟨m, hm, (h m hm).2 hs, fun k hf hd => hk k hf ((h k hf).1 hd)⟩

theorem own_of_compiler : ∀ m ∈ Mac.ZYAN_GNUC :: compilers, m ∈ ownMacros := by decide
theorem own_of_system : ∀ m ∈ Mac.ZYAN_POSIX :: systems, m ∈ ownMacros := by decide
theorem own_of_arch : ∀ m ∈ architectures, m ∈ ownMacros := by decide
theorem own_of_mode : ∀ m ∈ modes, m ∈ ownMacros := by decide
theorem own_of_build : ∀ m ∈ buildTypes, m ∈ ownMacros := by decide

section
variable {pre : Macros} {c p k a d : List Mac}

theorem Found.own (h : Found pre c p k a d) {m : Mac} (hm : m ∈ d ++ (a ++ (k ++ (p ++ c)))) : m ∈ ownMacros := by
  have n1 : ∀ s ∈ compilerSets, ∀ m ∈ s, m ∈ ownMacros := by decide
  have n2 : ∀ s ∈ platformSets, ∀ m ∈ s, m ∈ ownMacros := by decide
  have n3 : ∀ s ∈ modeSets, ∀ m ∈ s, m ∈ ownMacros := by decide
  have n4 : ∀ s ∈ archSets, ∀ m ∈ s, m ∈ ownMacros := by decide
  have n5 : ∀ s ∈ buildSets, ∀ m ∈ s, m ∈ ownMacros := by decide
  simp only [List.mem_append] at hm
  rcases hm with hm | hm | hm | hm | hm
  · exact n5 d h.hd m hm
  · exact n4 a h.ha m hm
  · exact n3 k h.hk m hm
  · exact n2 p h.hp m hm
  · exact n1 c h.hc m hm

theorem Found.other (h : Found pre c p k a d) {m : Mac} (hm : m ∉ ownMacros) : found pre c p k a d m = pre m :=
  setAll_of_not_mem fun hx => hm (h.own hx)

theorem not_defd {pre : Macros} (hu : Untouched pre) {m : Mac} (hm : m ∈ ownMacros) : ¬ Defd pre m := by
  simp [Defd, hu m hm]

theorem Found.defd_compiler (h : Found pre c p k a d) (hu : Untouched pre) {m : Mac}
    (hm : m ∈ Mac.ZYAN_GNUC :: compilers) : Defd (found pre c p k a d) m ↔ m ∈ c := by
  have n2 : ∀ s ∈ platformSets, ∀ m ∈ Mac.ZYAN_GNUC :: compilers, m ∉ s := by decide
  have n3 : ∀ s ∈ modeSets, ∀ m ∈ Mac.ZYAN_GNUC :: compilers, m ∉ s := by decide
  have n4 : ∀ s ∈ archSets, ∀ m ∈ Mac.ZYAN_GNUC :: compilers, m ∉ s := by decide
  have n5 : ∀ s ∈ buildSets, ∀ m ∈ Mac.ZYAN_GNUC :: compilers, m ∉ s := by decide
  simp only [found, defd_setAll, List.mem_append, n2 p h.hp m hm, n3 k h.hk m hm, n4 a h.ha m hm, n5 d h.hd m hm,
    not_defd hu (own_of_compiler m hm), false_or, or_false]

theorem Found.defd_system (h : Found pre c p k a d) (hu : Untouched pre) {m : Mac}
    (hm : m ∈ Mac.ZYAN_POSIX :: systems) : Defd (found pre c p k a d) m ↔ m ∈ p := by
  have n1 : ∀ s ∈ compilerSets, ∀ m ∈ Mac.ZYAN_POSIX :: systems, m ∉ s := by decide
  have n3 : ∀ s ∈ modeSets, ∀ m ∈ Mac.ZYAN_POSIX :: systems, m ∉ s := by decide
  have n4 : ∀ s ∈ archSets, ∀ m ∈ Mac.ZYAN_POSIX :: systems, m ∉ s := by decide
  have n5 : ∀ s ∈ buildSets, ∀ m ∈ Mac.ZYAN_POSIX :: systems, m ∉ s := by decide
  simp only [found, defd_setAll, List.mem_append, n1 c h.hc m hm, n3 k h.hk m hm, n4 a h.ha m hm, n5 d h.hd m hm,
    not_defd hu (own_of_system m hm), false_or, or_false]

theorem Found.defd_mode (h : Found pre c p k a d) (hu : Untouched pre) {m : Mac}
    (hm : m ∈ modes) : Defd (found pre c p k a d) m ↔ m ∈ k := by
  have n1 : ∀ s ∈ compilerSets, ∀ m ∈ modes, m ∉ s := by decide
  have n2 : ∀ s ∈ platformSets, ∀ m ∈ modes, m ∉ s := by decide
  have n4 : ∀ s ∈ archSets, ∀ m ∈ modes, m ∉ s := by decide
  have n5 : ∀ s ∈ buildSets, ∀ m ∈ modes, m ∉ s := by decide
  simp only [found, defd_setAll, List.mem_append, n1 c h.hc m hm, n2 p h.hp m hm, n4 a h.ha m hm, n5 d h.hd m hm,
    not_defd hu (own_of_mode m hm), false_or, or_false]

theorem Found.defd_arch (h : Found pre c p k a d) (hu : Untouched pre) {m : Mac}
    (hm : m ∈ architectures) : Defd (found pre c p k a d) m ↔ m ∈ a := by
  have n1 : ∀ s ∈ compilerSets, ∀ m ∈ architectures, m ∉ s := by decide
  have n2 : ∀ s ∈ platformSets, ∀ m ∈ architectures, m ∉ s := by decide
  have n3 : ∀ s ∈ modeSets, ∀ m ∈ architectures, m ∉ s := by decide
  have n5 : ∀ s ∈ buildSets, ∀ m ∈ architectures, m ∉ s := by decide
  simp only [found, defd_setAll, List.mem_append, n1 c h.hc m hm, n2 p h.hp m hm, n3 k h.hk m hm, n5 d h.hd m hm,
    not_defd hu (own_of_arch m hm), false_or, or_false]

theorem Found.defd_build (h : Found pre c p k a d) (hu : Untouched pre) {m : Mac}
    (hm : m ∈ buildTypes) : Defd (found pre c p k a d) m ↔ m ∈ d := by
  have n1 : ∀ s ∈ compilerSets, ∀ m ∈ buildTypes, m ∉ s := by decide
  have n2 : ∀ s ∈ platformSets, ∀ m ∈ buildTypes, m ∉ s := by decide
  have n3 : ∀ s ∈ modeSets, ∀ m ∈ buildTypes, m ∉ s := by decide
  have n4 : ∀ s ∈ archSets, ∀ m ∈ buildTypes, m ∉ s := by decide
  simp only [found, defd_setAll, List.mem_append, n1 c h.hc m hm, n2 p h.hp m hm, n3 k h.hk m hm, n4 a h.ha m hm,
    not_defd hu (own_of_build m hm), or_false]

/-- When the library takes the build for one of a kernel. -/
theorem Found.kernel_iff (h : Found pre c p k a d) (hu : Untouched pre) :
    Defd (found pre c p k a d) .ZYAN_KERNEL ↔ kernelMode (found pre c p k a d) := by
  rw [h.defd_mode hu (by decide), h.kernel]
  have e1 : ∀ m ∈ [Mac.ZYAN_WINDOWS, .ZYAN_APPLE, .ZYAN_LINUX], (Defd (setAll (p ++ c) pre) m ↔ m ∈ p) := by
    intro m hm
    have n1 : ∀ s ∈ compilerSets, ∀ m ∈ [Mac.ZYAN_WINDOWS, .ZYAN_APPLE, .ZYAN_LINUX], m ∉ s := by decide
    have n0 : ∀ m ∈ [Mac.ZYAN_WINDOWS, .ZYAN_APPLE, .ZYAN_LINUX], m ∈ ownMacros := by decide
    simp only [defd_setAll, List.mem_append, n1 c h.hc m hm, not_defd hu (n0 m hm), or_false]
  have e2 : ∀ m ∈ [Mac._KERNEL_MODE, .KERNEL, .__KERNEL__, .__FreeBSD_kernel__],
      (Defd (setAll (p ++ c) pre) m ↔ Defd (found pre c p k a d) m) := by
    intro m hm
    have n0 : ∀ m ∈ [Mac._KERNEL_MODE, .KERNEL, .__KERNEL__, .__FreeBSD_kernel__], m ∉ ownMacros := by decide
    have h2 : m ∉ p ++ c := fun hx => n0 m hm (h.own (by simp only [List.mem_append] at hx ⊢; simp [hx]))
    rw [Defd, Defd, setAll_of_not_mem h2, h.other (n0 m hm)]
  simp only [kernelMode, e1 .ZYAN_WINDOWS (by decide), e1 .ZYAN_APPLE (by decide), e1 .ZYAN_LINUX (by decide),
    e2 ._KERNEL_MODE (by decide), e2 .KERNEL (by decide), e2 .__KERNEL__ (by decide),
    e2 .__FreeBSD_kernel__ (by decide), h.defd_system hu (m := .ZYAN_WINDOWS) (by decide),
    h.defd_system hu (m := .ZYAN_APPLE) (by decide), h.defd_system hu (m := .ZYAN_LINUX) (by decide)]

/-- When the library takes the build for a debug build. -/
theorem Found.debug_iff (h : Found pre c p k a d) (hu : Untouched pre) :
    Defd (found pre c p k a d) .ZYAN_DEBUG ↔ debugMode (found pre c p k a d) := by
  rw [h.defd_build hu (by decide), h.debug]
  have e1 : ∀ m ∈ [Mac.ZYAN_MSVC, .ZYAN_BORLAND, .ZYAN_GNUC, .ZYAN_ICC, ._DEBUG, .NDEBUG],
      (Defd (setAll (a ++ (k ++ (p ++ c))) pre) m ↔ Defd (found pre c p k a d) m) := by
    intro m hm
    have n5 : ∀ s ∈ buildSets, ∀ m ∈ [Mac.ZYAN_MSVC, .ZYAN_BORLAND, .ZYAN_GNUC, .ZYAN_ICC, ._DEBUG, .NDEBUG],
      m ∉ s := by decide
    simp only [found, defd_setAll, List.mem_append, n5 d h.hd m hm, false_or]
  simp only [debugMode, e1 .ZYAN_MSVC (by decide), e1 .ZYAN_BORLAND (by decide), e1 .ZYAN_GNUC (by decide),
    e1 .ZYAN_ICC (by decide), e1 ._DEBUG (by decide), e1 .NDEBUG (by decide)]

end

/-! ## Accepted configurations -/

theorem definesH_none (pre : Macros) : definesH.run pre = none ↔ ¬ KnownArchitecture pre := by
  rcases definesH_run pre with ⟨h1, h2⟩ | ⟨h1, c, p, k, a, d, _, h2⟩
  · simp [h1, h2]
  · simp [h1, h2]

theorem definesH_some (pre : Macros) (hu : Untouched pre) (ha : KnownArchitecture pre) :
    ∃ e, definesH.run pre = some (e, []) ∧ ExactlyOne e compilers ∧
      (Defd e .ZYAN_GNUC ↔ Defd e .ZYAN_CLANG ∨ Defd e .ZYAN_GCC) ∧
      AtMostOne e systems ∧ ExactlyOne e families ∧ ExactlyOne e architectures ∧ ExactlyOne e modes ∧
      ExactlyOne e buildTypes ∧ ∀ m, m ∉ ownMacros → e m = pre m := by
  rcases definesH_run pre with ⟨h1, _⟩ | ⟨_, c, p, k, a, d, h, h2⟩
  · exact absurd ha h1
  · refine ⟨_, h2, ?_, ?_, ?_, ?_, ?_, ?_, ?_, fun m hm => h.other hm⟩
    · exact exactlyOne_of (fun m hm => h.defd_compiler hu (by simp [hm]))
        ((by decide : ∀ s ∈ compilerSets, ∃ m ∈ compilers, m ∈ s ∧ ∀ k ∈ compilers, k ∈ s → k = m) c h.hc)
    · rw [h.defd_compiler hu (by decide), h.defd_compiler hu (by decide), h.defd_compiler hu (by decide)]
      exact (by decide : ∀ s ∈ compilerSets, (Mac.ZYAN_GNUC ∈ s ↔ Mac.ZYAN_CLANG ∈ s ∨ Mac.ZYAN_GCC ∈ s)) c h.hc
    · intro m hm k hk h1 h2
      exact (by decide : ∀ s ∈ platformSets, ∀ m ∈ systems, ∀ k ∈ systems, m ∈ s → k ∈ s → m = k) p h.hp m hm k hk
        ((h.defd_system hu (by simp [hm])).1 h1) ((h.defd_system hu (by simp [hk])).1 h2)
    · exact exactlyOne_of (fun m hm => h.defd_system hu ((by decide : ∀ m ∈ families, m ∈ Mac.ZYAN_POSIX :: systems) m hm))
        ((by decide : ∀ s ∈ platformSets, ∃ m ∈ families, m ∈ s ∧ ∀ k ∈ families, k ∈ s → k = m) p h.hp)
    · exact exactlyOne_of (fun m hm => h.defd_arch hu hm)
        ((by decide : ∀ s ∈ archSets, ∃ m ∈ architectures, m ∈ s ∧ ∀ k ∈ architectures, k ∈ s → k = m) a h.ha)
    · exact exactlyOne_of (fun m hm => h.defd_mode hu hm)
        ((by decide : ∀ s ∈ modeSets, ∃ m ∈ modes, m ∈ s ∧ ∀ k ∈ modes, k ∈ s → k = m) k h.hk)
    · exact exactlyOne_of (fun m hm => h.defd_build hu hm)
        ((by decide : ∀ s ∈ buildSets, ∃ m ∈ buildTypes, m ∈ s ∧ ∀ k ∈ buildTypes, k ∈ s → k = m) d h.hd)

/-- What remains of the macros given from outside. -/
theorem definesH_facts {pre e : Macros} {l : List Tok} (hu : Untouched pre) (he : definesH.run pre = some (e, l)) :
    (Defd e .ZYAN_DEBUG ↔ debugMode e) ∧ (∀ m, m ∉ ownMacros → e m = pre m) ∧ ExactlyOne e compilers ∧
      ExactlyOne e buildTypes ∧ (Defd e .ZYAN_GNUC ↔ Defd e .ZYAN_CLANG ∨ Defd e .ZYAN_GCC) := by
  have hk : KnownArchitecture pre := by
    refine Classical.not_not.1 fun h => ?_
    rw [(definesH_none pre).2 h] at he
    exact absurd he (by simp)
  obtain ⟨e', h1, h2, h3, _, _, _, _, h4, h5⟩ := definesH_some pre hu hk
  rcases definesH_run pre with ⟨_, h2⟩ | ⟨_, c, p, k, a, d, h, hr⟩
  · simp [h2] at he
  · rw [h1] at he
    have e1 : e' = e := by simpa using (Prod.mk.inj (Option.some.inj he)).1
    subst e1
    refine ⟨?_, h5, h2, h4, h3⟩
    rw [h1] at hr
    have e2 : e' = found pre c p k a d := by simpa using hr
    rw [e2]
    exact h.debug_iff hu

/-! ## Assertions -/

theorem assertChecked_libc {e : Macros} (hl : ¬ Defd e .ZYAN_NO_LIBC)
    (hk : ¬ (Defd e .ZYAN_WINDOWS ∧ Defd e .ZYAN_KERNEL)) : assertChecked e = true ↔ ¬ Defd e .NDEBUG := by
  simp only [Defd] at hl hk ⊢
  simp only [assertChecked, assertKind]
  rw [if_neg hl, if_neg (by rw [Bool.and_eq_true]; exact hk)]
  simp

theorem assertChecked_no_libc {e : Macros} (hl : Defd e .ZYAN_NO_LIBC) : assertChecked e = false := by
  simp only [Defd] at hl
  simp only [assertChecked, assertKind]
  rw [if_pos hl]

instance (e : Macros) (m : Mac) : Decidable (Defd e m) := by unfold Defd; infer_instance
instance (e : Macros) : Decidable (Untouched e) := by unfold Untouched; infer_instance
instance (e : Macros) : Decidable (KnownArchitecture e) := by unfold KnownArchitecture; infer_instance

end Zy
