import Verif.Lemmas.LibC

/-!
# Property theorems: the replacements of the C library

The code is `include/Zycore/LibC.h` 230-502. The vocabulary (`Object`, `CString`, `Holds`,
`SameOutside`, `IsComparison`, `FirstAt`, `tokens`, ...) is in `Verif.Spec.LibC`; `strtokCalls` is in
`Verif.Spec.LibCRun`. That a result is `.ret` means that no byte outside the given objects is read or
written.
-/

namespace Zy

open Zy.Spec

/-! ## Data for the examples -/

/-- The characters of a string literal. -/
def bytesOf (s : String) : List Byte := s.toList.map fun c => BitVec.ofNat 8 c.toNat

/-- A memory that holds the characters of a string literal. -/
def memOf (s : String) : Mem := (bytesOf s).map .byte

/-- A source string at 0, a second one at 6, and from 12 on eight indeterminate bytes. -/
def exLC : Mem := memOf "hello\x00wo\x00ld\x00" ++ List.replicate 8 .raw

/-! ## C58 -/

/-- C58: for every relative position of source and destination, the replacement of `memmove` moves the
old contents of the `n` source bytes to the destination, changes nothing else and returns the
destination. -/
theorem C58_memmove {m : Mem} {dst src n : Nat} (hs : Object m src n) (hd : Object m dst n) :
    ∃ m', lcMemmove m dst src n = .ret (dst, m') ∧ SameOutside m m' dst n ∧
      ∀ i < n, m'[dst + i]? = m[src + i]? := by
  unfold lcMemmove
  by_cases h : src < dst
  · obtain ⟨m', e, h1, h2⟩ := copyDown_spec n hs hd (by omega)
    exact ⟨m', by rw [if_pos h, e]; rfl, h1, h2⟩
  · obtain ⟨m', e, h1, h2⟩ := copyUp_spec n hs hd (Or.inl (by omega))
    exact ⟨m', by rw [if_neg h, e]; rfl, h1, h2⟩

example : ∃ m', lcMemmove exLC 2 0 4 = .ret (2, m') ∧ SameOutside exLC m' 2 4 ∧
    ∀ i < 4, m'[2 + i]? = exLC[0 + i]? := C58_memmove (by decide) (by decide)
example : lcMemmove (memOf "abcdef") 1 0 4 = .ret (1, memOf "aabcdf") := by decide +kernel
example : lcMemmove (memOf "abcdef") 0 1 4 = .ret (0, memOf "bcdeef") := by decide +kernel
example : lcMemmove (memOf "abcdef") 2 2 4 = .ret (2, memOf "abcdef") := by decide +kernel
/-- One byte too many at the end of the memory. -/
example : lcMemmove (memOf "abcdef") 3 0 4 = .ub .oob := by decide +kernel

/-! ## C59 -/

/-- C59, `memcpy`: the replacement copies `n` bytes between objects that do not overlap (it is also
right if the destination lies before the source). -/
theorem C59_memcpy {m : Mem} {dst src n : Nat} (hs : Object m src n) (hd : Object m dst n)
    (ha : Apart dst n src n ∨ dst ≤ src) :
    ∃ m', lcMemcpy m dst src n = .ret (dst, m') ∧ SameOutside m m' dst n ∧
      ∀ i < n, m'[dst + i]? = m[src + i]? := by
  obtain ⟨m', e, h1, h2⟩ := copyUp_spec n hs hd (by unfold Apart at ha; omega)
  exact ⟨m', by unfold lcMemcpy; rw [e]; rfl, h1, h2⟩

example : ∃ m', lcMemcpy exLC 12 6 5 = .ret (12, m') ∧ SameOutside exLC m' 12 5 ∧
    ∀ i < 5, m'[12 + i]? = exLC[6 + i]? := C59_memcpy (by decide) (by decide) (by decide)
example : lcMemcpy (memOf "abcdef") 3 0 3 = .ret (3, memOf "abcabc") := by decide +kernel

/-- C59, `memset`: the replacement stores the low eight bits of the value in `n` bytes. -/
theorem C59_memset {m : Mem} {dst n : Nat} (val : Int) (hd : Object m dst n) :
    ∃ m', lcMemset m dst val n = .ret (dst, m') ∧ SameOutside m m' dst n ∧
      Holds m' dst (List.replicate n (BitVec.ofInt 8 val)) := by
  obtain ⟨m', e, h1, h2⟩ := fillUp_spec (b := BitVec.ofInt 8 val) n hd
  exact ⟨m', by unfold lcMemset; rw [e]; rfl, h1, h2⟩

example : ∃ m', lcMemset exLC 12 0x1FF 8 = .ret (12, m') ∧ SameOutside exLC m' 12 8 ∧
    Holds m' 12 (List.replicate 8 0xFF#8) := C59_memset 0x1FF (by decide)
example : lcMemset (memOf "abcdef") 1 65 4 = .ret (1, memOf "aAAAAf") := by decide +kernel

/-- C59, `memcmp`: the replacement reads `n` bytes of both objects at most, and the sign of its result
is that of the comparison of the bytes as unsigned numbers. -/
theorem C59_memcmp {m : Mem} {p q : Nat} {xs ys : List Byte} (hx : Holds m p xs) (hy : Holds m q ys)
    (hl : ys.length = xs.length) :
    ∃ r, lcMemcmp m p q xs.length = .ret r ∧ IsComparison r xs ys := memcmp_spec xs hx hy hl

example : ∃ r, lcMemcmp (memOf "abcabd") 0 3 3 = .ret r ∧ IsComparison r (bytesOf "abc") (bytesOf "abd") :=
  C59_memcmp (xs := bytesOf "abc") (by decide) (by decide) rfl
example : lcMemcmp (memOf "ab\x80ab\x7F") 0 3 3 = .ret 1 := by decide +kernel

/-- C59, `memchr`: the replacement reads `n` bytes at most and returns the address of the first byte
that equals the low eight bits of `c`, or null. -/
theorem C59_memchr {m : Mem} {p : Nat} {xs : List Byte} (c : Int) (h : Holds m p xs) :
    ∃ r, lcMemchr m p c xs.length = .ret r ∧ FirstAt r p xs (· = BitVec.ofInt 8 c) := memchr_spec xs h

example : ∃ r, lcMemchr (memOf "abcabc") 1 97 4 = .ret r ∧
    FirstAt r 1 (bytesOf "bcab") (· = BitVec.ofInt 8 97) :=
  C59_memchr (xs := bytesOf "bcab") 97 (by decide)
example : lcMemchr (memOf "abcabc") 1 (97 - 256) 4 = .ret (some 3) ∧
    lcMemchr (memOf "abcabc") 1 100 5 = .ret none := by decide +kernel

/-! ## C60 -/

/-- C60, `strlen`. -/
theorem C60_strlen {m : Mem} {p : Nat} {xs : List Byte} (h : CString m p xs) :
    lcStrlen m p = .ret xs.length := strlen_spec h

example : lcStrlen exLC 0 = .ret 5 := C60_strlen (xs := bytesOf "hello") (by decide)
example : lcStrlen exLC 5 = .ret 0 := C60_strlen (xs := []) (by decide)

/-- C60, `strcpy`: with room for the string and its terminator, the destination holds the string
afterwards and no other byte has changed. -/
theorem C60_strcpy {m : Mem} {dest src : Nat} {xs : List Byte} (h : CString m src xs)
    (ho : Object m dest (xs.length + 1)) (ha : Apart dest (xs.length + 1) src (xs.length + 1)) :
    ∃ m', lcStrcpy m dest src = .ret (dest, m') ∧ SameOutside m m' dest (xs.length + 1) ∧
      CString m' dest xs := strcpy_spec h ho ha

example : ∃ m', lcStrcpy exLC 12 0 = .ret (12, m') ∧ SameOutside exLC m' 12 6 ∧
    CString m' 12 (bytesOf "hello") := C60_strcpy (xs := bytesOf "hello") (by decide) (by decide) (by decide)
example : lcStrcpy exLC 12 0 =
    .ret (12, memOf "hello\x00wo\x00ld\x00hello\x00" ++ [.raw, .raw]) := by decide +kernel

/-- C60, `strcat`: with room for both strings, the destination holds the concatenation, and only the
bytes from the old terminator on have changed. -/
theorem C60_strcat {m : Mem} {dest src : Nat} {xs ys : List Byte} (hx : CString m dest xs)
    (hy : CString m src ys) (ho : Object m (dest + xs.length) (ys.length + 1))
    (ha : Apart (dest + xs.length) (ys.length + 1) src (ys.length + 1)) :
    ∃ m', lcStrcat m dest src = .ret (dest, m') ∧
      SameOutside m m' (dest + xs.length) (ys.length + 1) ∧ CString m' dest (xs ++ ys) := by
  obtain ⟨m', e, h1, h2⟩ := copyStr_spec ys hy ho ha (holds_fits hy)
  refine ⟨m', ?_, h1, cstring_join hx h1 h2⟩
  unfold lcStrcat
  rw [toEnd_spec xs hx (holds_fits hx)]
  simp [e]

/-- A string of two characters in a buffer of eight, and a source. -/
def exCat : Mem := memOf "ab\x00" ++ List.replicate 5 .raw ++ memOf "cde\x00"

example : ∃ m', lcStrcat exCat 0 8 = .ret (0, m') ∧ SameOutside exCat m' 2 4 ∧
    CString m' 0 (bytesOf "ab" ++ bytesOf "cde") :=
  C60_strcat (xs := bytesOf "ab") (ys := bytesOf "cde") (by decide) (by decide) (by decide) (by decide)
example : lcStrcat exCat 0 8 = .ret (0, memOf "abcde\x00" ++ [.raw, .raw] ++ memOf "cde\x00") := by
  decide +kernel

/-- C60, `strncpy`: exactly `n` bytes are written: the first `n` characters of the string, and zeros
behind them if it is shorter. The source need not be terminated within the first `n` characters. -/
theorem C60_strncpy {m : Mem} {dest src n : Nat} {xs : List Byte} (h0 : 0#8 ∉ xs)
    (h : Holds m src (firstChars xs n)) (ho : Object m dest n)
    (ha : Apart dest n src (firstChars xs n).length) :
    ∃ m', lcStrncpy m dest src n = .ret (dest, m') ∧ SameOutside m m' dest n ∧
      Holds m' dest (xs.take n ++ List.replicate (n - xs.length) 0#8) := by
  obtain ⟨m', e, h1, h2⟩ := ncpyLoop_spec n h0 h ho ha
  exact ⟨m', by unfold lcStrncpy; rw [e]; rfl, h1, h2⟩

example : ∃ m', lcStrncpy exLC 12 6 8 = .ret (12, m') ∧ SameOutside exLC m' 12 8 ∧
    Holds m' 12 ((bytesOf "wo").take 8 ++ List.replicate (8 - 2) 0#8) :=
  C60_strncpy (xs := bytesOf "wo") (by decide) (by decide) (by decide) (by decide)
example : lcStrncpy exLC 12 0 3 =
    .ret (12, memOf "hello\x00wo\x00ld\x00hel" ++ List.replicate 5 .raw) := by decide +kernel
/-- A source without terminator. -/
example : lcStrncpy (memOf "....abc") 0 4 3 = .ret (0, memOf "abc.abc") := by decide +kernel

/-- C60, `strncat`: at most `n` characters and a terminator are appended. The source need not be
terminated within the first `n` characters. -/
theorem C60_strncat {m : Mem} {dest src n : Nat} {xs ys : List Byte} (hx : CString m dest xs)
    (h0 : 0#8 ∉ ys) (hy : Holds m src (firstChars ys n))
    (ho : Object m (dest + xs.length) ((ys.take n).length + 1))
    (ha : Apart (dest + xs.length) ((ys.take n).length + 1) src (firstChars ys n).length) :
    ∃ m', lcStrncat m dest src n = .ret (dest, m') ∧
      SameOutside m m' (dest + xs.length) ((ys.take n).length + 1) ∧
      CString m' dest (xs ++ ys.take n) := by
  obtain ⟨m', e, h1, h2⟩ := catLoop_spec n h0 hy ho ha
  refine ⟨m', ?_, h1, cstring_join hx h1 h2⟩
  unfold lcStrncat
  rw [toEnd_spec xs hx (holds_fits hx)]
  simp [e]

example : ∃ m', lcStrncat exCat 0 8 2 = .ret (0, m') ∧ SameOutside exCat m' 2 3 ∧
    CString m' 0 (bytesOf "ab" ++ (bytesOf "cde").take 2) :=
  C60_strncat (xs := bytesOf "ab") (ys := bytesOf "cde") (by decide) (by decide) (by decide) (by decide)
    (by decide)
example : lcStrncat exCat 0 8 9 = .ret (0, memOf "abcde\x00" ++ [.raw, .raw] ++ memOf "cde\x00") := by
  decide +kernel

/-! ## C61 -/

/-- C61, `strcmp`: the sign of the result is that of the lexicographic comparison by unsigned bytes,
and nothing behind the terminators is read. -/
theorem C61_strcmp {m : Mem} {p q : Nat} {xs ys : List Byte} (hx : CString m p xs) (hy : CString m q ys) :
    ∃ r, lcStrcmp m p q = .ret r ∧ IsComparison r xs ys := scmpLoop_spec xs hx hy (holds_fits hx)

example : ∃ r, lcStrcmp (memOf "abc\x00ab\x00") 0 4 = .ret r ∧ IsComparison r (bytesOf "abc") (bytesOf "ab") :=
  C61_strcmp (by decide) (by decide)
example : lcStrcmp (memOf "abc\x00ab\x00") 0 4 = .ret 99 ∧ lcStrcmp (memOf "abc\x00ab\x00") 4 0 = .ret (-99) ∧
    lcStrcmp (memOf "\x7F\x00\u0080\x00") 0 2 = .ret (-1) := by decide +kernel

/-- C61, `strncmp`. The property demands the conclusion for all strings (of which only the first `n`
characters need to be there) and all `n`.

Missing: two equal strings that are shorter than `n - 1`, see the theorems below. -/
theorem C61_strncmp_partial {m : Mem} {p q n : Nat} {xs ys : List Byte} (h1 : 0#8 ∉ xs) (h2 : 0#8 ∉ ys)
    (hx : Holds m p (firstChars xs n)) (hy : Holds m q (firstChars ys n))
    (hc : xs ≠ ys ∨ n ≤ xs.length + 1) :
    ∃ r, lcStrncmp m p q n = .ret r ∧ IsComparison r (firstChars xs n) (firstChars ys n) :=
  strncmp_spec n h1 h2 hx hy hc

example : ∃ r, lcStrncmp (memOf "abcab\x00") 0 3 3 = .ret r ∧
    IsComparison r (firstChars (bytesOf "abc") 3) (firstChars (bytesOf "ab") 3) :=
  C61_strncmp_partial (xs := bytesOf "abc") (ys := bytesOf "ab") (by decide) (by decide) (by decide)
    (by decide) (by decide)
example : lcStrncmp (memOf "abcabd") 0 3 2 = .ret 0 ∧ lcStrncmp (memOf "abcabd") 0 3 3 = .ret (-1) ∧
    lcStrncmp (memOf "ab\x00ab\x00") 0 3 3 = .ret 0 := by decide +kernel

/-- C61 is false for `strncmp`: for every string, if it is compared with an equal one and `n` exceeds
its length by two or more, the loop goes on behind the terminators. If the memory ends there, the
behaviour is undefined. -/
theorem C61_strncmp_reads_on {m : Mem} {p q n : Nat} {xs : List Byte} (hx : CString m p xs)
    (hy : CString m q xs) (hn : xs.length + 1 < n)
    (he : m.length = p + xs.length + 1 ∨ m.length = q + xs.length + 1) :
    ∃ why, lcStrncmp m p q n = .ub why := by
  have h1 := strncmp_skip (n := (n - xs.length - 2) + 1) (xs ++ [0#8]) hx.2 hy.2
  simp only [List.length_append, List.length_singleton] at h1
  have e : n = xs.length + 1 + (n - xs.length - 2 + 1) := by omega
  rw [e, h1, lcStrncmp]
  have hlx := hx.le
  have hly := hy.le
  rcases Nat.lt_or_ge (p + (xs.length + 1)) m.length with hp | hp
  · have hq : m[q + (xs.length + 1)]? = none := List.getElem?_eq_none (by omega)
    have e2 : ld m (q + (xs.length + 1)) = .ub .oob := by unfold ld; rw [hq]
    rcases hv : ld m (p + (xs.length + 1)) with b | w
    · exact ⟨.oob, by rw [e2]; rfl⟩
    · exact ⟨w, rfl⟩
  · have hq : m[p + (xs.length + 1)]? = none := List.getElem?_eq_none (by omega)
    have e2 : ld m (p + (xs.length + 1)) = .ub .oob := by unfold ld; rw [hq]
    exact ⟨.oob, by rw [e2]; rfl⟩

/-- C61 is false for `strncmp`: if different bytes follow the terminators of two equal strings, they
are reported as different. -/
theorem C61_strncmp_negation {m : Mem} {p q n : Nat} {xs : List Byte} {a b : Byte} (h0 : 0#8 ∉ xs)
    (hx : Holds m p (xs ++ [0#8, a])) (hy : Holds m q (xs ++ [0#8, b])) (hab : a ≠ b)
    (hn : xs.length + 1 < n) :
    ∃ r, lcStrncmp m p q n = .ret r ∧ r ≠ 0 ∧ CString m p xs ∧ CString m q xs ∧
      ¬ IsComparison r (firstChars xs n) (firstChars xs n) := by
  have ex : xs ++ [0#8, a] = (xs ++ [0#8]) ++ [a] := by simp
  have ey : xs ++ [0#8, b] = (xs ++ [0#8]) ++ [b] := by simp
  rw [ex, holds_append] at hx
  rw [ey, holds_append] at hy
  have h1 := strncmp_skip (n := (n - xs.length - 2) + 1) (xs ++ [0#8]) hx.1 hy.1
  rw [show (xs ++ [0#8]).length + (n - xs.length - 2 + 1) = n by simp; omega] at h1
  have hr : byteDiff a b ≠ 0 := fun h => hab (byteDiff_zero.1 h)
  refine ⟨byteDiff a b, ?_, hr, ⟨h0, hx.1⟩, ⟨h0, hy.1⟩, fun h => hr (h.1.2 rfl)⟩
  rw [h1, lcStrncmp, hx.2.load, hy.2.load]
  simp [hab]

example : lcStrncmp (memOf "ab\x00ab\x00") 0 3 4 = .ub .oob := by decide +kernel
example : ∃ why, lcStrncmp (memOf "ab\x00ab\x00") 0 3 4 = .ub why :=
  C61_strncmp_reads_on (xs := bytesOf "ab") (by decide) (by decide) (by decide) (Or.inr rfl)
example : ∃ r, lcStrncmp (memOf "ab\x00xab\x00y") 0 4 4 = .ret r ∧ r ≠ 0 ∧
    CString (memOf "ab\x00xab\x00y") 0 (bytesOf "ab") ∧ CString (memOf "ab\x00xab\x00y") 4 (bytesOf "ab") ∧
    ¬ IsComparison r (firstChars (bytesOf "ab") 4) (firstChars (bytesOf "ab") 4) :=
  C61_strncmp_negation (xs := bytesOf "ab") (a := 120#8) (b := 121#8) (by decide) (by decide) (by decide)
    (by decide) (by decide)

/-! ## C62 -/

/-- C62, `strchr`: the first occurrence of the low eight bits of `c`; the terminator counts. -/
theorem C62_strchr {m : Mem} {p : Nat} {xs : List Byte} (c : Int) (h : CString m p xs) :
    ∃ r, lcStrchr m p c = .ret r ∧ FirstAt r p (xs ++ [0#8]) (· = BitVec.ofInt 8 c) :=
  chrLoop_spec xs h (holds_fits h)

/-- C62, `strrchr`: the last occurrence; the terminator counts. -/
theorem C62_strrchr {m : Mem} {p : Nat} {xs : List Byte} (c : Int) (h : CString m p xs) :
    ∃ r, lcStrrchr m p c = .ret r ∧ LastAt r p (xs ++ [0#8]) (· = BitVec.ofInt 8 c) :=
  rchrLoop_spec xs h (holds_fits h)

/-- C62, `strspn`: the length of the longest prefix of characters from the second string. -/
theorem C62_strspn {m : Mem} {p q : Nat} {xs ys : List Byte} (hx : CString m p xs) (hy : CString m q ys) :
    ∃ n, lcStrspn m p q = .ret n ∧ n ≤ xs.length ∧ (∀ b ∈ xs.take n, b ∈ ys) ∧
      ∀ b, xs[n]? = some b → b ∉ ys := by
  refine ⟨_, spnLoop_spec hy xs hx (holds_fits hx), ?_⟩
  rw [Nat.zero_add]
  exact takeWhile_span (fun b => b ∈ ys) xs

/-- C62, `strcspn`: the length of the longest prefix of characters that are not in the second string. -/
theorem C62_strcspn {m : Mem} {p q : Nat} {xs ys : List Byte} (hx : CString m p xs) (hy : CString m q ys) :
    ∃ n, lcStrcspn m p q = .ret n ∧ n ≤ xs.length ∧ (∀ b ∈ xs.take n, b ∉ ys) ∧
      ∀ b, xs[n]? = some b → b ∈ ys := by
  refine ⟨_, cspnLoop_spec hy xs hx (holds_fits hx), ?_⟩
  rw [Nat.zero_add]
  have := takeWhile_span (fun b => b ∉ ys) xs
  simpa only [Classical.not_not] using this

/-- C62, `strpbrk`: the first character that is in the second string. -/
theorem C62_strpbrk {m : Mem} {p q : Nat} {xs ys : List Byte} (hx : CString m p xs) (hy : CString m q ys) :
    ∃ r, lcStrpbrk m p q = .ret r ∧ FirstAt r p xs (· ∈ ys) :=
  pbrkLoop_spec hy xs hx (holds_fits hx)

/-- A string, and a set of characters at 8. -/
def exScan : Mem := memOf "banana!\x00nab\x00"

example : ∃ r, lcStrchr exScan 0 97 = .ret r ∧
    FirstAt r 0 (bytesOf "banana!" ++ [0#8]) (· = BitVec.ofInt 8 97) := C62_strchr 97 (by decide)
example : ∃ r, lcStrrchr exScan 0 97 = .ret r ∧
    LastAt r 0 (bytesOf "banana!" ++ [0#8]) (· = BitVec.ofInt 8 97) := C62_strrchr 97 (by decide)
example : ∃ n, lcStrspn exScan 0 8 = .ret n ∧ n ≤ 7 ∧ (∀ b ∈ (bytesOf "banana!").take n, b ∈ bytesOf "nab") ∧
    ∀ b, (bytesOf "banana!")[n]? = some b → b ∉ bytesOf "nab" :=
  C62_strspn (xs := bytesOf "banana!") (ys := bytesOf "nab") (by decide) (by decide)
example : ∃ n, lcStrcspn exScan 0 8 = .ret n ∧ n ≤ 7 ∧ (∀ b ∈ (bytesOf "banana!").take n, b ∉ bytesOf "nab") ∧
    ∀ b, (bytesOf "banana!")[n]? = some b → b ∈ bytesOf "nab" :=
  C62_strcspn (xs := bytesOf "banana!") (ys := bytesOf "nab") (by decide) (by decide)
example : ∃ r, lcStrpbrk exScan 0 8 = .ret r ∧ FirstAt r 0 (bytesOf "banana!") (· ∈ bytesOf "nab") :=
  C62_strpbrk (ys := bytesOf "nab") (by decide) (by decide)
example : lcStrchr exScan 0 97 = .ret (some 1) ∧ lcStrrchr exScan 0 97 = .ret (some 5) ∧
    lcStrchr exScan 0 0 = .ret (some 7) ∧ lcStrchr exScan 0 122 = .ret none ∧
    lcStrspn exScan 0 8 = .ret 6 ∧ lcStrcspn exScan 6 8 = .ret 1 ∧ lcStrpbrk exScan 6 8 = .ret none := by
  decide +kernel

/-! ## C63 -/

/-- C63. The property demands the conclusion for all pairs of strings.

Missing: two empty strings, see `C63_empty_in_empty`. Nothing behind the terminators is read: the
comparison stops at the terminator of the first string. -/
theorem C63_strstr_partial {m : Mem} {p q : Nat} {xs ys : List Byte} (hx : CString m p xs)
    (hy : CString m q ys) (hne : xs ≠ [] ∨ ys ≠ []) :
    ∃ r, lcStrstr m p q = .ret r ∧ FirstOccurrence r p xs ys := by
  obtain ⟨r, e, h⟩ := strLoop_spec hy xs hx (holds_fits hx)
  refine ⟨r, by unfold lcStrstr; rw [strlen_spec hy]; exact e, ?_⟩
  rcases h with ⟨i, h1, h2, h3, h4⟩ | ⟨h1, h2⟩
  · exact Or.inl ⟨i, h1, by omega, h3, h4⟩
  · refine Or.inr ⟨h1, fun hi => ?_⟩
    obtain ⟨i, hi, hp⟩ := infix_drop hi
    rcases Nat.lt_or_ge i xs.length with h | h
    · exact h2 i h hp
    · rw [List.drop_eq_nil_of_le h, List.prefix_nil] at hp
      rcases hne with hne | hne
      · refine h2 0 (List.length_pos_iff.2 hne) ?_
        rw [hp]
        exact List.nil_prefix
      · exact hne hp

example : ∃ r, lcStrstr (memOf "banana\x00an\x00") 0 7 = .ret r ∧
    FirstOccurrence r 0 (bytesOf "banana") (bytesOf "an") :=
  C63_strstr_partial (by decide) (by decide) (by decide)
example : lcStrstr (memOf "banana\x00an\x00") 0 7 = .ret (some 1) ∧
    lcStrstr (memOf "banana\x00nab\x00") 0 7 = .ret none ∧ lcStrstr (memOf "ab\x00\x00") 0 3 = .ret (some 0) ∧
    lcStrstr (memOf "abcd\x00ab\x00") 5 0 = .ret none := by decide +kernel

/-- C63 is false if both strings are empty: the empty string occurs in the empty string, but the
result is null. -/
theorem C63_empty_in_empty {m : Mem} {p q : Nat} (hx : CString m p []) (hy : CString m q []) :
    lcStrstr m p q = .ret none ∧ ¬ FirstOccurrence none p [] [] := by
  refine ⟨?_, ?_⟩
  · obtain ⟨r, e, h⟩ := strLoop_spec hy [] hx (holds_fits hx)
    unfold lcStrstr
    rw [strlen_spec hy]
    rcases h with ⟨i, _, h2, _⟩ | ⟨h1, _⟩
    · simp at h2
    · rw [h1] at e; exact e
  · rintro (⟨i, h, _⟩ | ⟨_, h⟩)
    · cases h
    · exact h (List.infix_refl _)

example : lcStrstr (memOf "\x00\x00") 0 1 = .ret none ∧ ¬ FirstOccurrence none 0 [] [] :=
  C63_empty_in_empty (by decide) (by decide)

/-! ## C64 -/

/-- C64: a call with the string followed by `k` calls with null returns the tokens of the string in
their order, and then null. Afterwards every returned pointer points to a string that is the token;
nothing outside the string has changed. `static` is the arbitrary value that earlier uses left in the
static variable. -/
theorem C64_strtok {m : Mem} {s d k : Nat} {xs ds : List Byte} (static : Option Nat) (hx : CString m s xs)
    (hd : CString m d ds) (ha : Apart s xs.length d (ds.length + 1)) (hk : (tokens ds xs).length ≤ k) :
    ∃ (ps : List Nat) (m' : Mem),
      strtokCalls d m static (some s :: List.replicate k none) =
        .ret (ps.map some ++ List.replicate (k + 1 - ps.length) none, m') ∧
      ps.length = (tokens ds xs).length ∧ SameOutside m m' s xs.length ∧
      ∀ (i : Nat) (t : List Byte), (tokens ds xs)[i]? = some t →
        ∃ a, ps[i]? = some a ∧ CString m' a t := by
  obtain ⟨ps, m', e, hl, h1, h2⟩ := calls_spec (k := k + 1) xs.length (Nat.le_refl _) hx hd ha (by omega)
  refine ⟨ps, m', ?_, hl, h1, h2⟩
  rw [hl, ← e]
  rfl

/-- A string with separators, and the set of delimiters. -/
def exTok : Mem := memOf ", to be,, or ,not\x00, \x00"

example : ∃ (ps : List Nat) (m' : Mem),
    strtokCalls 18 exTok none (some 0 :: List.replicate 5 none) =
      .ret (ps.map some ++ List.replicate (5 + 1 - ps.length) none, m') ∧
    ps.length = (tokens (bytesOf ", ") (bytesOf ", to be,, or ,not")).length ∧ SameOutside exTok m' 0 17 ∧
    ∀ (i : Nat) (t : List Byte), (tokens (bytesOf ", ") (bytesOf ", to be,, or ,not"))[i]? = some t →
      ∃ a, ps[i]? = some a ∧ CString m' a t :=
  C64_strtok (xs := bytesOf ", to be,, or ,not") (ds := bytesOf ", ") none (by decide) (by decide) (by decide)
    (by decide +kernel)
example : tokens (bytesOf ", ") (bytesOf ", to be,, or ,not") = ["to", "be", "or", "not"].map bytesOf := by
  decide +kernel
example : strtokCalls 18 exTok (some 3) (some 0 :: List.replicate 5 none) =
    .ret ([some 2, some 5, some 10, some 14, none, none], memOf ", to\x00be\x00, or\x00,not\x00, \x00") := by
  decide +kernel

/-! ## C90 -/

/-- C90. The property: `strxfrm` transforms strings such that `strcmp` orders the images as `strcoll`
orders the originals. The images are copies: if the string fits, `strxfrm` copies it and writes nothing
else; otherwise it writes nothing. In both cases it returns the length.

Missing: the agreement with `strcoll`, which fails for all different strings, see
`C90_collation_negation`. -/
theorem C90_transformation_partial {m : Mem} {dest src n : Nat} {xs : List Byte} (h : CString m src xs)
    (ho : Object m dest n) (ha : Apart dest n src (xs.length + 1)) :
    ∃ m', lcStrxfrm m dest src n = .ret (xs.length, m') ∧ SameOutside m m' dest n ∧
      (xs.length < n → CString m' dest xs) ∧ (n ≤ xs.length → m' = m) := by
  unfold lcStrxfrm
  rw [strlen_spec h]
  by_cases hn : n > xs.length
  · obtain ⟨m', e, h1, h2⟩ := strcpy_spec h (ho.mono (by omega)) (by unfold Apart at *; omega)
    exact ⟨m', by simp [hn, e], h1.mono (Nat.le_refl _) (by omega), fun _ => h2, fun h => by omega⟩
  · exact ⟨m, by simp [hn], sameOutside_refl _ _ _, fun h => absurd h hn, fun _ => rfl⟩

/-- C90 is false for every pair of different strings: `strcoll` reports them as equal, while `strcmp`
of the strings (and of their transformations, which are copies) does not. -/
theorem C90_collation_negation {m : Mem} {p q : Nat} {xs ys : List Byte} (hx : CString m p xs)
    (hy : CString m q ys) (hne : xs ≠ ys) :
    lcStrcoll m p q = .ret 0 ∧ ∃ r, lcStrcmp m p q = .ret r ∧ r ≠ 0 := by
  obtain ⟨r, e, h⟩ := C61_strcmp hx hy
  exact ⟨rfl, r, e, fun h0 => hne (h.1.1 h0)⟩

example : ∃ m', lcStrxfrm exLC 12 0 8 = .ret (5, m') ∧ SameOutside exLC m' 12 8 ∧
    (5 < 8 → CString m' 12 (bytesOf "hello")) ∧ (8 ≤ 5 → m' = exLC) :=
  C90_transformation_partial (xs := bytesOf "hello") (by decide) (by decide) (by decide)
example : lcStrxfrm exLC 12 0 5 = .ret (5, exLC) := by decide +kernel
example : lcStrcoll exLC 0 6 = .ret 0 ∧ ∃ r, lcStrcmp exLC 0 6 = .ret r ∧ r ≠ 0 :=
  C90_collation_negation (xs := bytesOf "hello") (ys := bytesOf "wo") (by decide) (by decide) (by decide)

end Zy
