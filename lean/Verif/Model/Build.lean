/-!
# Model of the preprocessor, and of include/Zycore/Defines.h

A small preprocessor: `#define`, `#if`/`#elif`/`#else`, `#error` and the text in between, where the text is reduced to
the functions it declares, defines and uses. The part of Defines.h that detects compiler, platform, mode, architecture
and kind of build is given as a program for it.

Simplifications: a macro has a number as its value; the values of the macros that the library defines (all empty) do not
matter and are 1; an undefined name has the value 0 in arithmetic, as in C.
-/

namespace Zy

/-- The names of macros: those tested by include/Zycore/Defines.h lines 64-175 and 275-330, the macro `DBG` that
switches `NT_ASSERT`, and those defined by Defines.h lines 64-175. -/
inductive Mac where
  | __clang__ | __ICC | __INTEL_COMPILER | __GNUC__ | __GNUG__ | __GNUC_MINOR__ | _MSC_VER
  | __BORLANDC__ | _WIN32 | __EMSCRIPTEN__ | __wasi__ | __WASI__ | __APPLE__
  | __linux | __FreeBSD__ | __NetBSD__ | sun | __sun | __HAIKU__
  | __unix | __unix__ | __posix | _KERNEL_MODE | KERNEL | __KERNEL__
  | __FreeBSD_kernel__ | _M_AMD64 | __x86_64__ | _M_IX86 | __i386__ | _M_ARM64
  | __aarch64__ | _M_ARM | _M_ARMT | __arm__ | __thumb__ | __wasm__
  | __WASM__ | __loongarch__ | __powerpc64__ | __powerpc__ | __riscv | __riscv_xlen
  | _DEBUG | NDEBUG | DBG | ZYAN_NO_LIBC | ZYAN_CUSTOM_LIBC
  | ZYAN_CLANG | ZYAN_GNUC | ZYAN_ICC | ZYAN_GCC | ZYAN_MSVC | ZYAN_BORLAND
  | ZYAN_UNKNOWN_COMPILER | ZYAN_WINDOWS | ZYAN_EMSCRIPTEN | ZYAN_WASI | ZYAN_APPLE | ZYAN_LINUX
  | ZYAN_FREEBSD | ZYAN_NETBSD | ZYAN_SOLARIS | ZYAN_HAIKU | ZYAN_UNIX | ZYAN_POSIX
  | ZYAN_UNKNOWN_PLATFORM | ZYAN_KERNEL | ZYAN_USER | ZYAN_X64 | ZYAN_X86 | ZYAN_AARCH64
  | ZYAN_ARM | ZYAN_WASM | ZYAN_LOONGARCH | ZYAN_PPC64 | ZYAN_PPC | ZYAN_RISCV64
  | ZYAN_DEBUG | ZYAN_RELEASE
  deriving DecidableEq

/-- The names of the functions of the library, and of the functions and macros of include/Zycore/LibC.h lines
32-512. -/
inductive Fn where
  | ZYAN_ERRNO | ZYAN_VA_START | ZYAN_VA_ARG
  | ZYAN_VA_END | ZYAN_VA_COPY | ZYAN_FPUTS
  | ZYAN_FPUTC | ZYAN_FPRINTF | ZYAN_PRINTF
  | ZYAN_PUTC | ZYAN_PUTS | ZYAN_SCANF
  | ZYAN_SSCANF | ZYAN_VSNPRINTF | ZYAN_STDIN
  | ZYAN_STDOUT | ZYAN_STDERR | ZYAN_CALLOC
  | ZYAN_FREE | ZYAN_GETENV | ZYAN_MALLOC
  | ZYAN_REALLOC | ZYAN_MEMCHR | ZYAN_MEMCMP
  | ZYAN_MEMCPY | ZYAN_MEMMOVE | ZYAN_MEMSET
  | ZYAN_STRCAT | ZYAN_STRCHR | ZYAN_STRCMP
  | ZYAN_STRCOLL | ZYAN_STRCPY | ZYAN_STRCSPN
  | ZYAN_STRLEN | ZYAN_STRNCAT | ZYAN_STRNCMP
  | ZYAN_STRNCPY | ZYAN_STRPBRK | ZYAN_STRRCHR
  | ZYAN_STRSPN | ZYAN_STRSTR | ZYAN_STRTOK
  | ZYAN_STRXFRM | ZyanAllocatorInit | ZyanAllocatorDefault
  | ZyanArgParse | ZyanArgParseEx | ZyanBitsetInit
  | ZyanBitsetInitEx | ZyanBitsetInitBuffer | ZyanBitsetDestroy
  | ZyanBitsetPerformByteOperation | ZyanBitsetAND | ZyanBitsetOR
  | ZyanBitsetXOR | ZyanBitsetFlip | ZyanBitsetSet
  | ZyanBitsetReset | ZyanBitsetAssign | ZyanBitsetToggle
  | ZyanBitsetTest | ZyanBitsetTestMSB | ZyanBitsetTestLSB
  | ZyanBitsetSetAll | ZyanBitsetResetAll | ZyanBitsetPush
  | ZyanBitsetPop | ZyanBitsetClear | ZyanBitsetReserve
  | ZyanBitsetShrinkToFit | ZyanBitsetGetSize | ZyanBitsetGetCapacity
  | ZyanBitsetGetSizeBytes | ZyanBitsetGetCapacityBytes | ZyanBitsetCount
  | ZyanBitsetAll | ZyanBitsetAny | ZyanBitsetNone
  | ZyanAbsI64 | ZyanStringInsertFormat | ZyanStringInsertDecU
  | ZyanStringInsertDecS | ZyanStringInsertHexU | ZyanStringInsertHexS
  | ZyanStringAppendFormat | ZyanStringAppendDecU | ZyanStringAppendDecS
  | ZyanStringAppendHexU | ZyanStringAppendHexS | ZyanListInit
  | ZyanListInitEx | ZyanListInitCustomBuffer | ZyanListDestroy
  | ZyanListDuplicate | ZyanListDuplicateEx | ZyanListDuplicateCustomBuffer
  | ZyanListGetHeadNode | ZyanListGetTailNode | ZyanListGetPrevNode
  | ZyanListGetNextNode | ZyanListGetNodeData | ZyanListGetNodeDataEx
  | ZyanListGetNodeDataMutable | ZyanListGetNodeDataMutableEx | ZyanListSetNodeData
  | ZyanListPushBack | ZyanListPushFront | ZyanListEmplaceBack
  | ZyanListEmplaceFront | ZyanListPopBack | ZyanListPopFront
  | ZyanListRemove | ZyanListRemoveRange | ZyanListClear
  | ZyanListResize | ZyanListResizeEx | ZyanListGetSize
  | ZyanStringInit | ZyanStringInitEx | ZyanStringInitCustomBuffer
  | ZyanStringDestroy | ZyanStringDuplicate | ZyanStringDuplicateEx
  | ZyanStringDuplicateCustomBuffer | ZyanStringConcat | ZyanStringConcatEx
  | ZyanStringConcatCustomBuffer | ZyanStringViewInsideView | ZyanStringViewInsideViewEx
  | ZyanStringViewInsideBuffer | ZyanStringViewInsideBufferEx | ZyanStringViewGetSize
  | ZyanStringViewGetData | ZyanStringGetChar | ZyanStringGetCharMutable
  | ZyanStringSetChar | ZyanStringInsert | ZyanStringInsertEx
  | ZyanStringAppend | ZyanStringAppendEx | ZyanStringDelete
  | ZyanStringTruncate | ZyanStringClear | ZyanStringLPos
  | ZyanStringLPosEx | ZyanStringLPosI | ZyanStringLPosIEx
  | ZyanStringRPos | ZyanStringRPosEx | ZyanStringRPosI
  | ZyanStringRPosIEx | ZyanStringCompare | ZyanStringCompareI
  | ZyanStringToLowerCase | ZyanStringToLowerCaseEx | ZyanStringToUpperCase
  | ZyanStringToUpperCaseEx | ZyanStringResize | ZyanStringReserve
  | ZyanStringShrinkToFit | ZyanStringGetCapacity | ZyanStringGetSize
  | ZyanStringGetData | ZyanVectorInit | ZyanVectorInitEx
  | ZyanVectorInitCustomBuffer | ZyanVectorDestroy | ZyanVectorDuplicate
  | ZyanVectorDuplicateEx | ZyanVectorDuplicateCustomBuffer | ZyanVectorGet
  | ZyanVectorGetMutable | ZyanVectorGetPointer | ZyanVectorGetPointerMutable
  | ZyanVectorSet | ZyanVectorPushBack | ZyanVectorInsert
  | ZyanVectorInsertRange | ZyanVectorEmplace | ZyanVectorEmplaceEx
  | ZyanVectorSwapElements | ZyanVectorDelete | ZyanVectorDeleteRange
  | ZyanVectorPopBack | ZyanVectorClear | ZyanVectorFind
  | ZyanVectorFindEx | ZyanVectorBinarySearch | ZyanVectorBinarySearchEx
  | ZyanVectorResize | ZyanVectorResizeEx | ZyanVectorReserve
  | ZyanVectorShrinkToFit | ZyanVectorGetCapacity | ZyanVectorGetSize
  | ZycoreGetVersion | ZyanMemoryGetSystemPageSize | ZyanMemoryGetSystemAllocationGranularity
  | ZyanMemoryVirtualProtect | ZyanMemoryVirtualFree | ZyanProcessFlushInstructionCache
  | ZyanCriticalSectionInitialize | ZyanCriticalSectionEnter | ZyanCriticalSectionTryEnter
  | ZyanCriticalSectionLeave | ZyanCriticalSectionDelete | ZyanTerminalEnableVT100
  | ZyanTerminalIsTTY | ZyanThreadGetCurrentThread | ZyanThreadGetCurrentThreadId
  | ZyanThreadTlsAlloc | ZyanThreadTlsFree | ZyanThreadTlsGetValue
  | ZyanThreadTlsSetValue | ZyanAllocatorDefaultAllocate | ZyanAllocatorDefaultReallocate
  | ZyanAllocatorDefaultDeallocate | ZyanBitsetInitVectorElements | ZyanBitsetOperationAND
  | ZyanBitsetOperationOR | ZyanBitsetOperationXOR | ZyanStringAppendDecU32
  | ZyanStringAppendDecU64 | ZyanStringAppendHexU32 | ZyanStringAppendHexU64
  | ZyanListAllocateNode | ZyanListDeallocateNode | ZyanVectorReallocate
  | ZyanVectorShiftLeft | ZyanVectorShiftRight | ZyanAtomicCompareExchange
  | ZyanAtomicIncrement | ZyanAtomicDecrement | ZyanAtomicCompareExchange32
  | ZyanAtomicIncrement32 | ZyanAtomicDecrement32 | ZyanAtomicCompareExchange64
  | ZyanAtomicIncrement64 | ZyanAtomicDecrement64
  deriving DecidableEq

/-- The macros that are defined, with their values. -/
abbrev Macros := Mac → Option Int

/-- A condition of `#if`. -/
inductive Cond where
  | defd (m : Mac)
  | not (c : Cond)
  | both (a b : Cond)
  | either (a b : Cond)
  | equals (m : Mac) (n : Int)
  deriving DecidableEq

/-- A chain of `||`. -/
def anyOf : List Cond → Cond
  | [] => .both (.defd .NDEBUG) (.not (.defd .NDEBUG))
  | [c] => c
  | c :: cs => .either c (anyOf cs)

/-- The value of a condition. -/
def Cond.holds (e : Macros) : Cond → Bool
  | .defd m => (e m).isSome
  | .not c => !c.holds e
  | .both a b => a.holds e && b.holds e
  | .either a b => a.holds e || b.holds e
  | .equals m n => (e m).getD 0 == n

/-- What remains of the text: a declaration, a definition, or a use of a name. -/
inductive Tok where
  | decl (f : Fn)
  | body (f : Fn)
  | call (f : Fn)
  deriving DecidableEq

/-- Text for the preprocessor. -/
inductive Pp where
  | done
  | seq (a b : Pp)
  | define (m : Mac)
  | error
  | text (l : List Tok)
  | ite (c : Cond) (a b : Pp)

/-- Preprocessing: `none` if an `#error` is reached. -/
def Pp.run : Pp → Macros → Option (Macros × List Tok)
  | .done, e => some (e, [])
  | .seq a b, e => (a.run e).bind fun r => (b.run r.1).bind fun q => some (q.1, r.2 ++ q.2)
  | .define m, e => some (fun k => if k = m then some 1 else e k, [])
  | .error, _ => none
  | .text l, e => some (e, l)
  | .ite c a b, e => if c.holds e then a.run e else b.run e

/-- Lines one after the other. -/
def blk : List Pp → Pp
  | [] => .done
  | [a] => a
  | a :: l => .seq a (blk l)

/-- Several `#define`. -/
def defines (l : List Mac) : Pp := blk (l.map .define)
/-- Several declarations. -/
def decls (l : List Fn) : Pp := .text (l.map .decl)
/-- Several definitions. -/
def bodies (l : List Fn) : Pp := .text (l.map .body)
/-- A definition, and the names its text uses. -/
def fn (f : Fn) (l : List Fn) : Pp := .text (.body f :: l.map .call)
/-- Uses of names. -/
def uses (l : List Fn) : Pp := .text (l.map .call)

/-! ## include/Zycore/Defines.h -/

/-- `#if` and `#elif` with a list of alternatives for `defined(...)`, each defining some macros; then `#else`. -/
def detect : List (Cond × List Mac) → Pp → Pp
  | [], other => other
  | (c, ms) :: l, other => .ite c (defines ms) (detect l other)

/-- Compiler detection: include/Zycore/Defines.h lines 64-78. -/
def compilerH : Pp :=
  detect [
    (.defd .__clang__, [.ZYAN_CLANG, .ZYAN_GNUC]),
    (anyOf [.defd .__ICC, .defd .__INTEL_COMPILER], [.ZYAN_ICC]),
    (anyOf [.defd .__GNUC__, .defd .__GNUG__], [.ZYAN_GCC, .ZYAN_GNUC]),
    (.defd ._MSC_VER, [.ZYAN_MSVC]),
    (.defd .__BORLANDC__, [.ZYAN_BORLAND])]
    (.define .ZYAN_UNKNOWN_COMPILER)

/-- Platform detection: include/Zycore/Defines.h lines 84-116. -/
def platformH : Pp :=
  detect [
    (.defd ._WIN32, [.ZYAN_WINDOWS]),
    (.defd .__EMSCRIPTEN__, [.ZYAN_EMSCRIPTEN]),
    (anyOf [.defd .__wasi__, .defd .__WASI__], [.ZYAN_WASI]),
    (.defd .__APPLE__, [.ZYAN_APPLE, .ZYAN_POSIX]),
    (.defd .__linux, [.ZYAN_LINUX, .ZYAN_POSIX]),
    (.defd .__FreeBSD__, [.ZYAN_FREEBSD, .ZYAN_POSIX]),
    (.defd .__NetBSD__, [.ZYAN_NETBSD, .ZYAN_POSIX]),
    (anyOf [.defd .sun, .defd .__sun], [.ZYAN_SOLARIS, .ZYAN_POSIX]),
    (.defd .__HAIKU__, [.ZYAN_HAIKU, .ZYAN_POSIX]),
    (anyOf [.defd .__unix, .defd .__unix__], [.ZYAN_UNIX, .ZYAN_POSIX]),
    (.defd .__posix, [.ZYAN_POSIX])]
    (.define .ZYAN_UNKNOWN_PLATFORM)

/-- Kernel mode detection: include/Zycore/Defines.h lines 122-129. -/
def kernelH : Pp :=
  detect [
    (anyOf [.both (.defd .ZYAN_WINDOWS) (.defd ._KERNEL_MODE),
        .both (.defd .ZYAN_APPLE) (.defd .KERNEL),
        .both (.defd .ZYAN_LINUX) (.defd .__KERNEL__),
        .defd .__FreeBSD_kernel__], [.ZYAN_KERNEL])]
    (.define .ZYAN_USER)

/-- Architecture detection: include/Zycore/Defines.h lines 135-155. -/
def architectureH : Pp :=
  detect [
    (anyOf [.defd ._M_AMD64, .defd .__x86_64__], [.ZYAN_X64]),
    (anyOf [.defd ._M_IX86, .defd .__i386__], [.ZYAN_X86]),
    (anyOf [.defd ._M_ARM64, .defd .__aarch64__], [.ZYAN_AARCH64]),
    (anyOf [.defd ._M_ARM, .defd ._M_ARMT, .defd .__arm__, .defd .__thumb__], [.ZYAN_ARM]),
    (anyOf [.defd .__EMSCRIPTEN__, .defd .__wasm__, .defd .__WASM__], [.ZYAN_WASM]),
    (.defd .__loongarch__, [.ZYAN_LOONGARCH]),
    (.defd .__powerpc64__, [.ZYAN_PPC64]),
    (.defd .__powerpc__, [.ZYAN_PPC]),
    (.both (.defd .__riscv) (.equals .__riscv_xlen 64), [.ZYAN_RISCV64])]
    .error

/-- Detection of debug and release builds: include/Zycore/Defines.h lines 161-175. -/
def debugH : Pp :=
  .ite (anyOf [.defd .ZYAN_MSVC, .defd .ZYAN_BORLAND])
    (detect [(.defd ._DEBUG, [.ZYAN_DEBUG])] (.define .ZYAN_RELEASE))
    (.ite (anyOf [.defd .ZYAN_GNUC, .defd .ZYAN_ICC])
      (detect [(.defd .NDEBUG, [.ZYAN_RELEASE])] (.define .ZYAN_DEBUG))
      (.define .ZYAN_RELEASE))

/-- The detections of include/Zycore/Defines.h lines 64-175 in their order. -/
def definesH : Pp := blk [compilerH, platformH, kernelH, architectureH, debugH]

/-- What `ZYAN_ASSERT(condition)` becomes. -/
inductive AssertKind where
  | ignored
  | ntAssert
  | libc
  deriving DecidableEq

/-- The choice of the assertion macro: include/Zycore/Defines.h lines 275-283. -/
def assertKind (e : Macros) : AssertKind :=
  if (e .ZYAN_NO_LIBC).isSome then .ignored
  else if (e .ZYAN_WINDOWS).isSome && (e .ZYAN_KERNEL).isSome then .ntAssert
  else .libc

/-- Whether a failing condition has any effect: `(void)(condition)` has none; `NT_ASSERT` of the Windows Driver Kit
has one in builds where `DBG` is not 0; `assert` of the C standard has one where `NDEBUG` is not defined
(include/Zycore/Defines.h lines 275-283). -/
def assertChecked (e : Macros) : Bool :=
  match assertKind e with
  | .ignored => false
  | .ntAssert => (e .DBG).getD 0 != 0
  | .libc => !(e .NDEBUG).isSome

/-- What `ZYAN_UNREACHABLE` becomes. -/
inductive UnreachableKind where
  | undefined
  | loops
  | failsFast
  | aborts
  deriving DecidableEq

/-- The choice of the macro: include/Zycore/Defines.h lines 302-330. `builtin` is whether Clang has
`__builtin_unreachable` (line 304). `__builtin_unreachable()` and `__assume(0)` promise that the place is never
reached; `for(;;)` loops (a loop with a constant condition may do so, C11 6.8.5), `__fastfail` ends the process at
once, `{ assert(0); abort(); }` ends the program. -/
def unreachableKind (builtin : Bool) (e : Macros) : UnreachableKind :=
  if (e .ZYAN_RELEASE).isSome then
    if (e .ZYAN_CLANG).isSome then (if builtin then .undefined else .loops)
    else if (e .ZYAN_GCC).isSome && (((e .__GNUC__).getD 0 == 4 && decide ((e .__GNUC_MINOR__).getD 0 > 4)) ||
        decide ((e .__GNUC__).getD 0 > 4)) then .undefined
    else if (e .ZYAN_ICC).isSome then .undefined
    else if (e .ZYAN_MSVC).isSome then .undefined
    else .loops
  else if (e .ZYAN_NO_LIBC).isSome then .loops
  else if (e .ZYAN_WINDOWS).isSome && (e .ZYAN_KERNEL).isSome then .failsFast
  else .aborts

end Zy
