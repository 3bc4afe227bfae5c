import Verif.Model.Build

/-!
# The library as a list of declarations, definitions and uses

Every header and source file of the library, reduced to its preprocessor conditionals and, in their order, the
functions it declares (`decls`), the functions it defines together with the functions of the library that their
text refers to (`fn`), and the functions and macros of the C library it provides (`bodies`).

Simplifications: the translation is C, so `__cplusplus` is not defined; every file is read once, so include guards
are left out; the declarations of `Fls*` functions for Windows XP (src/API/Thread.c lines 39-83) are left out; a
name used several times in a row in a function is listed once; conditionals without any of this in them are left out.
-/

namespace Zy

/-- include/Zycore/Types.h lines 1-340; conditionals at lines 41-241, 44-143. -/
def typesH : Pp :=
  .ite (anyOf [.defd .ZYAN_NO_LIBC, .both (.defd .ZYAN_MSVC) (.defd .ZYAN_KERNEL)])
      (.ite (anyOf [.defd .ZYAN_MSVC, .defd .ZYAN_ICC])
          (.done)
          (.ite (.defd .ZYAN_GNUC)
            (.done)
            (.error)))
      (.done)

/-- include/Zycore/LibC.h lines 1-512; conditionals at lines 35-508, 40-506, 154-180. -/
def libcH : Pp :=
  .ite (.not (.defd .ZYAN_CUSTOM_LIBC))
      (.ite (.not (.defd .ZYAN_NO_LIBC))
          (bodies [
                .ZYAN_ERRNO, .ZYAN_VA_START, .ZYAN_VA_ARG, .ZYAN_VA_END, .ZYAN_VA_COPY, .ZYAN_FPUTS,
                .ZYAN_FPUTC, .ZYAN_FPRINTF, .ZYAN_PRINTF, .ZYAN_PUTC, .ZYAN_PUTS, .ZYAN_SCANF,
                .ZYAN_SSCANF, .ZYAN_VSNPRINTF, .ZYAN_STDIN, .ZYAN_STDOUT, .ZYAN_STDERR, .ZYAN_CALLOC,
                .ZYAN_FREE, .ZYAN_GETENV, .ZYAN_MALLOC, .ZYAN_REALLOC, .ZYAN_MEMCHR, .ZYAN_MEMCMP,
                .ZYAN_MEMCPY, .ZYAN_MEMMOVE, .ZYAN_MEMSET, .ZYAN_STRCAT, .ZYAN_STRCHR, .ZYAN_STRCMP,
                .ZYAN_STRCOLL, .ZYAN_STRCPY, .ZYAN_STRCSPN, .ZYAN_STRLEN, .ZYAN_STRNCAT, .ZYAN_STRNCMP,
                .ZYAN_STRNCPY, .ZYAN_STRPBRK, .ZYAN_STRRCHR, .ZYAN_STRSPN, .ZYAN_STRSTR, .ZYAN_STRTOK,
                .ZYAN_STRXFRM])
          (blk [
            .ite (anyOf [.defd .ZYAN_MSVC, .defd .ZYAN_ICC])
              (bodies [
                    .ZYAN_VA_START, .ZYAN_VA_ARG, .ZYAN_VA_END, .ZYAN_VA_COPY])
              (.ite (.defd .ZYAN_GNUC)
                (bodies [
                      .ZYAN_VA_START, .ZYAN_VA_END, .ZYAN_VA_ARG, .ZYAN_VA_COPY])
                (.error)),
            bodies [
                .ZYAN_MEMCHR, .ZYAN_MEMCMP, .ZYAN_MEMCPY, .ZYAN_MEMMOVE, .ZYAN_MEMSET, .ZYAN_STRCAT,
                .ZYAN_STRCHR, .ZYAN_STRCMP, .ZYAN_STRCOLL, .ZYAN_STRCPY],
            fn .ZYAN_STRCSPN [.ZYAN_STRCHR],
            bodies [
                .ZYAN_STRLEN, .ZYAN_STRNCAT, .ZYAN_STRNCMP, .ZYAN_STRNCPY],
            fn .ZYAN_STRPBRK [.ZYAN_STRCHR],
            bodies [
                .ZYAN_STRRCHR],
            fn .ZYAN_STRSPN [.ZYAN_STRCHR],
            fn .ZYAN_STRSTR [.ZYAN_STRLEN, .ZYAN_MEMCMP],
            fn .ZYAN_STRTOK [.ZYAN_STRSPN, .ZYAN_STRCSPN],
            fn .ZYAN_STRXFRM [.ZYAN_STRLEN, .ZYAN_STRCPY]]))
      (.done)

/-- include/Zycore/Allocator.h lines 1-142; conditionals at lines 121-134. -/
def allocatorH : Pp :=
  blk [
    decls [
        .ZyanAllocatorInit],
    .ite (.not (.defd .ZYAN_NO_LIBC))
      (decls [
            .ZyanAllocatorDefault])
      (.done)]

/-- include/Zycore/ArgParse.h lines 1-173; conditionals at lines 128-146. -/
def argParseH : Pp :=
  blk [
    .ite (.not (.defd .ZYAN_NO_LIBC))
      (decls [
            .ZyanArgParse])
      (.done),
    decls [
        .ZyanArgParseEx]]

/-- include/Zycore/Bitset.h lines 1-483; conditionals at lines 87-102. -/
def bitsetH : Pp :=
  blk [
    .ite (.not (.defd .ZYAN_NO_LIBC))
      (decls [
            .ZyanBitsetInit])
      (.done),
    decls [
        .ZyanBitsetInitEx, .ZyanBitsetInitBuffer, .ZyanBitsetDestroy, .ZyanBitsetPerformByteOperation,
        .ZyanBitsetAND, .ZyanBitsetOR, .ZyanBitsetXOR, .ZyanBitsetFlip, .ZyanBitsetSet, .ZyanBitsetReset,
        .ZyanBitsetAssign, .ZyanBitsetToggle, .ZyanBitsetTest, .ZyanBitsetTestMSB, .ZyanBitsetTestLSB,
        .ZyanBitsetSetAll, .ZyanBitsetResetAll, .ZyanBitsetPush, .ZyanBitsetPop, .ZyanBitsetClear,
        .ZyanBitsetReserve, .ZyanBitsetShrinkToFit, .ZyanBitsetGetSize, .ZyanBitsetGetCapacity,
        .ZyanBitsetGetSizeBytes, .ZyanBitsetGetCapacityBytes, .ZyanBitsetCount, .ZyanBitsetAll,
        .ZyanBitsetAny, .ZyanBitsetNone]]

/-- include/Zycore/Format.h lines 1-285; conditionals at lines 179-197. -/
def formatH : Pp :=
  blk [
    fn .ZyanAbsI64 [],
    decls [
        .ZyanStringInsertFormat, .ZyanStringInsertDecU, .ZyanStringInsertDecS, .ZyanStringInsertHexU,
        .ZyanStringInsertHexS],
    .ite (.not (.defd .ZYAN_NO_LIBC))
      (decls [
            .ZyanStringAppendFormat])
      (.done),
    decls [
        .ZyanStringAppendDecU, .ZyanStringAppendDecS, .ZyanStringAppendHexU, .ZyanStringAppendHexS]]

/-- include/Zycore/List.h lines 1-573; conditionals at lines 183-202, 255-272. -/
def listH : Pp :=
  blk [
    .ite (.not (.defd .ZYAN_NO_LIBC))
      (decls [
            .ZyanListInit])
      (.done),
    decls [
        .ZyanListInitEx, .ZyanListInitCustomBuffer, .ZyanListDestroy],
    .ite (.not (.defd .ZYAN_NO_LIBC))
      (decls [
            .ZyanListDuplicate])
      (.done),
    decls [
        .ZyanListDuplicateEx, .ZyanListDuplicateCustomBuffer, .ZyanListGetHeadNode, .ZyanListGetTailNode,
        .ZyanListGetPrevNode, .ZyanListGetNextNode, .ZyanListGetNodeData, .ZyanListGetNodeDataEx,
        .ZyanListGetNodeDataMutable, .ZyanListGetNodeDataMutableEx, .ZyanListSetNodeData,
        .ZyanListPushBack, .ZyanListPushFront, .ZyanListEmplaceBack, .ZyanListEmplaceFront,
        .ZyanListPopBack, .ZyanListPopFront, .ZyanListRemove, .ZyanListRemoveRange, .ZyanListClear,
        .ZyanListResize, .ZyanListResizeEx, .ZyanListGetSize]]

/-- include/Zycore/String.h lines 1-1011; conditionals at lines 204-224, 279-307, 367-399. -/
def stringH : Pp :=
  blk [
    .ite (.not (.defd .ZYAN_NO_LIBC))
      (decls [
            .ZyanStringInit])
      (.done),
    decls [
        .ZyanStringInitEx, .ZyanStringInitCustomBuffer, .ZyanStringDestroy],
    .ite (.not (.defd .ZYAN_NO_LIBC))
      (decls [
            .ZyanStringDuplicate])
      (.done),
    decls [
        .ZyanStringDuplicateEx, .ZyanStringDuplicateCustomBuffer],
    .ite (.not (.defd .ZYAN_NO_LIBC))
      (decls [
            .ZyanStringConcat])
      (.done),
    decls [
        .ZyanStringConcatEx, .ZyanStringConcatCustomBuffer, .ZyanStringViewInsideView,
        .ZyanStringViewInsideViewEx, .ZyanStringViewInsideBuffer, .ZyanStringViewInsideBufferEx,
        .ZyanStringViewGetSize, .ZyanStringViewGetData, .ZyanStringGetChar, .ZyanStringGetCharMutable,
        .ZyanStringSetChar, .ZyanStringInsert, .ZyanStringInsertEx, .ZyanStringAppend, .ZyanStringAppendEx,
        .ZyanStringDelete, .ZyanStringTruncate, .ZyanStringClear, .ZyanStringLPos, .ZyanStringLPosEx,
        .ZyanStringLPosI, .ZyanStringLPosIEx, .ZyanStringRPos, .ZyanStringRPosEx, .ZyanStringRPosI,
        .ZyanStringRPosIEx, .ZyanStringCompare, .ZyanStringCompareI, .ZyanStringToLowerCase,
        .ZyanStringToLowerCaseEx, .ZyanStringToUpperCase, .ZyanStringToUpperCaseEx, .ZyanStringResize,
        .ZyanStringReserve, .ZyanStringShrinkToFit, .ZyanStringGetCapacity, .ZyanStringGetSize,
        .ZyanStringGetData]]

/-- include/Zycore/Vector.h lines 1-722; conditionals at lines 211-232, 289-311. -/
def vectorH : Pp :=
  blk [
    .ite (.not (.defd .ZYAN_NO_LIBC))
      (decls [
            .ZyanVectorInit])
      (.done),
    decls [
        .ZyanVectorInitEx, .ZyanVectorInitCustomBuffer, .ZyanVectorDestroy],
    .ite (.not (.defd .ZYAN_NO_LIBC))
      (decls [
            .ZyanVectorDuplicate])
      (.done),
    decls [
        .ZyanVectorDuplicateEx, .ZyanVectorDuplicateCustomBuffer, .ZyanVectorGet, .ZyanVectorGetMutable,
        .ZyanVectorGetPointer, .ZyanVectorGetPointerMutable, .ZyanVectorSet, .ZyanVectorPushBack,
        .ZyanVectorInsert, .ZyanVectorInsertRange, .ZyanVectorEmplace, .ZyanVectorEmplaceEx,
        .ZyanVectorSwapElements, .ZyanVectorDelete, .ZyanVectorDeleteRange, .ZyanVectorPopBack,
        .ZyanVectorClear, .ZyanVectorFind, .ZyanVectorFindEx, .ZyanVectorBinarySearch,
        .ZyanVectorBinarySearchEx, .ZyanVectorResize, .ZyanVectorResizeEx, .ZyanVectorReserve,
        .ZyanVectorShrinkToFit, .ZyanVectorGetCapacity, .ZyanVectorGetSize]]

/-- include/Zycore/Zycore.h lines 1-110. -/
def zycoreH : Pp :=
  decls [
        .ZycoreGetVersion]

/-- include/Zycore/API/Memory.h lines 1-137; conditionals at lines 39-135, 41-47. -/
def apiMemoryH : Pp :=
  .ite (.not (.defd .ZYAN_NO_LIBC))
      (blk [
        .ite (.defd .ZYAN_WINDOWS)
          (.done)
          (.ite (.defd .ZYAN_POSIX)
            (.done)
            (.error)),
        decls [
            .ZyanMemoryGetSystemPageSize, .ZyanMemoryGetSystemAllocationGranularity,
            .ZyanMemoryVirtualProtect, .ZyanMemoryVirtualFree]])
      (.done)

/-- include/Zycore/API/Process.h lines 1-70; conditionals at lines 38-68. -/
def apiProcessH : Pp :=
  .ite (.not (.defd .ZYAN_NO_LIBC))
      (decls [
            .ZyanProcessFlushInstructionCache])
      (.done)

/-- include/Zycore/API/Synchronization.h lines 1-132; conditionals at lines 38-130, 48-74. -/
def apiSynchronizationH : Pp :=
  .ite (.not (.defd .ZYAN_NO_LIBC))
      (blk [
        .ite (.defd .ZYAN_POSIX)
          (.done)
          (.ite (.defd .ZYAN_WINDOWS)
            (.done)
            (.error)),
        decls [
            .ZyanCriticalSectionInitialize, .ZyanCriticalSectionEnter, .ZyanCriticalSectionTryEnter,
            .ZyanCriticalSectionLeave, .ZyanCriticalSectionDelete]])
      (.done)

/-- include/Zycore/API/Terminal.h lines 1-162; conditionals at lines 42-156. -/
def apiTerminalH : Pp :=
  .ite (.not (.defd .ZYAN_NO_LIBC))
      (decls [
            .ZyanTerminalEnableVT100, .ZyanTerminalIsTTY])
      (.done)

/-- include/Zycore/API/Thread.h lines 1-243; conditionals at lines 38-241, 48-138. -/
def apiThreadH : Pp :=
  .ite (.not (.defd .ZYAN_NO_LIBC))
      (blk [
        .ite (.defd .ZYAN_POSIX)
          (.done)
          (.ite (.defd .ZYAN_WINDOWS)
            (.done)
            (.error)),
        decls [
            .ZyanThreadGetCurrentThread, .ZyanThreadGetCurrentThreadId, .ZyanThreadTlsAlloc,
            .ZyanThreadTlsFree, .ZyanThreadTlsGetValue, .ZyanThreadTlsSetValue]])
      (.done)

/-- src/Allocator.c lines 1-134; conditionals at lines 38-96, 119-132. -/
def allocatorC : Pp :=
  blk [
    .ite (.not (.defd .ZYAN_NO_LIBC))
      (blk [
        fn .ZyanAllocatorDefaultAllocate [.ZYAN_MALLOC],
        fn .ZyanAllocatorDefaultReallocate [.ZYAN_REALLOC],
        fn .ZyanAllocatorDefaultDeallocate [.ZYAN_FREE]])
      (.done),
    fn .ZyanAllocatorInit [],
    .ite (.not (.defd .ZYAN_NO_LIBC))
      (fn .ZyanAllocatorDefault [
            .ZyanAllocatorDefaultAllocate, .ZyanAllocatorDefaultReallocate, .ZyanAllocatorDefaultDeallocate])
      (.done)]

/-- src/ArgParse.c lines 1-279; conditionals at lines 34-42. -/
def argParseC : Pp :=
  blk [
    .ite (.not (.defd .ZYAN_NO_LIBC))
      (fn .ZyanArgParse [.ZyanArgParseEx, .ZyanAllocatorDefault])
      (.done),
    fn .ZyanArgParseEx [
        .ZYAN_STRLEN, .ZyanVectorInitEx, .ZYAN_MEMCMP, .ZyanVectorEmplace, .ZYAN_MEMSET, .ZYAN_STRCMP,
        .ZyanStringViewInsideBuffer, .ZyanVectorGetSize, .ZyanVectorGetPointer, .ZyanVectorDestroy]]

/-- src/Bitset.c lines 1-670; conditionals at lines 132-140. -/
def bitsetC : Pp :=
  blk [
    fn .ZyanBitsetInitVectorElements [.ZyanVectorPushBack],
    bodies [
        .ZyanBitsetOperationAND, .ZyanBitsetOperationOR, .ZyanBitsetOperationXOR],
    .ite (.not (.defd .ZYAN_NO_LIBC))
      (fn .ZyanBitsetInit [.ZyanBitsetInitEx, .ZyanAllocatorDefault])
      (.done),
    fn .ZyanBitsetInitEx [.ZyanVectorInitEx, .ZyanBitsetInitVectorElements],
    fn .ZyanBitsetInitBuffer [.ZyanVectorInitCustomBuffer, .ZyanBitsetInitVectorElements],
    fn .ZyanBitsetDestroy [.ZyanVectorDestroy],
    fn .ZyanBitsetPerformByteOperation [
        .ZyanVectorGetSize, .ZyanVectorGetPointerMutable, .ZyanVectorGetPointer],
    fn .ZyanBitsetAND [.ZyanBitsetPerformByteOperation, .ZyanBitsetOperationAND],
    fn .ZyanBitsetOR [.ZyanBitsetPerformByteOperation, .ZyanBitsetOperationOR],
    fn .ZyanBitsetXOR [.ZyanBitsetPerformByteOperation, .ZyanBitsetOperationXOR],
    fn .ZyanBitsetFlip [.ZyanVectorGetSize, .ZyanVectorGetPointerMutable],
    fn .ZyanBitsetSet [.ZyanVectorGetPointerMutable],
    fn .ZyanBitsetReset [.ZyanVectorGetPointerMutable],
    fn .ZyanBitsetAssign [.ZyanBitsetSet, .ZyanBitsetReset],
    fn .ZyanBitsetToggle [.ZyanVectorGetPointerMutable],
    fn .ZyanBitsetTest [.ZyanVectorGetPointer],
    fn .ZyanBitsetTestMSB [.ZyanBitsetTest],
    fn .ZyanBitsetTestLSB [.ZyanBitsetTest],
    fn .ZyanBitsetSetAll [.ZyanVectorGetSize, .ZyanVectorGetPointerMutable],
    fn .ZyanBitsetResetAll [.ZyanVectorGetSize, .ZyanVectorGetPointerMutable],
    fn .ZyanBitsetPush [.ZyanVectorPushBack, .ZyanBitsetAssign],
    fn .ZyanBitsetPop [.ZyanVectorPopBack],
    fn .ZyanBitsetClear [.ZyanVectorClear],
    fn .ZyanBitsetReserve [.ZyanVectorReserve],
    fn .ZyanBitsetShrinkToFit [.ZyanVectorShrinkToFit],
    bodies [
        .ZyanBitsetGetSize],
    fn .ZyanBitsetGetCapacity [.ZyanBitsetGetCapacityBytes],
    fn .ZyanBitsetGetSizeBytes [.ZyanVectorGetSize],
    fn .ZyanBitsetGetCapacityBytes [.ZyanVectorGetCapacity],
    fn .ZyanBitsetCount [.ZyanVectorGetSize, .ZyanVectorGetPointer],
    fn .ZyanBitsetAll [.ZyanVectorGetSize, .ZyanVectorGetPointer],
    fn .ZyanBitsetAny [.ZyanVectorGetSize, .ZyanVectorGetPointer],
    fn .ZyanBitsetNone [.ZyanVectorGetSize, .ZyanVectorGetPointer]]

/-- src/Format.c lines 1-507; conditionals at lines 86-131, 182-252, 370-420, 426-435, 467-476. -/
def formatC : Pp :=
  blk [
    .ite (anyOf [.defd .ZYAN_X86, .defd .ZYAN_ARM, .defd .ZYAN_EMSCRIPTEN, .defd .ZYAN_WASM, .defd .ZYAN_PPC])
      (fn .ZyanStringAppendDecU32 [.ZYAN_MEMCPY, .ZyanStringResize, .ZYAN_MEMSET])
      (.done),
    fn .ZyanStringAppendDecU64 [.ZYAN_MEMCPY, .ZyanStringResize, .ZYAN_MEMSET],
    .ite (anyOf [.defd .ZYAN_X86, .defd .ZYAN_ARM, .defd .ZYAN_EMSCRIPTEN, .defd .ZYAN_WASM, .defd .ZYAN_PPC])
      (fn .ZyanStringAppendHexU32 [.ZyanStringResize, .ZYAN_MEMSET])
      (.done),
    fn .ZyanStringAppendHexU64 [.ZyanStringResize, .ZYAN_MEMSET],
    .ite (.not (.defd .ZYAN_NO_LIBC))
      (fn .ZyanStringAppendFormat [.ZYAN_VA_START, .ZYAN_VSNPRINTF, .ZYAN_VA_END, .ZyanStringResize])
      (.done),
    fn .ZyanStringAppendDecU [],
    .ite (anyOf [.defd .ZYAN_X64, .defd .ZYAN_AARCH64, .defd .ZYAN_PPC64, .defd .ZYAN_RISCV64, .defd .ZYAN_LOONGARCH])
      (uses [.ZyanStringAppendDecU64])
      (uses [.ZyanStringAppendDecU64, .ZyanStringAppendDecU32]),
    fn .ZyanStringAppendDecS [.ZyanStringAppend, .ZyanStringAppendDecU, .ZyanAbsI64],
    fn .ZyanStringAppendHexU [],
    .ite (anyOf [.defd .ZYAN_X64, .defd .ZYAN_AARCH64, .defd .ZYAN_PPC64, .defd .ZYAN_RISCV64, .defd .ZYAN_LOONGARCH])
      (uses [.ZyanStringAppendHexU64])
      (uses [.ZyanStringAppendHexU64, .ZyanStringAppendHexU32]),
    fn .ZyanStringAppendHexS [.ZyanStringAppend, .ZyanStringAppendHexU, .ZyanAbsI64]]

/-- src/List.c lines 1-673; conditionals at lines 130-138. -/
def listC : Pp :=
  blk [
    bodies [
        .ZyanListAllocateNode, .ZyanListDeallocateNode],
    .ite (.not (.defd .ZYAN_NO_LIBC))
      (fn .ZyanListInit [.ZyanListInitEx, .ZyanAllocatorDefault])
      (.done),
    bodies [
        .ZyanListInitEx, .ZyanListInitCustomBuffer, .ZyanListDestroy, .ZyanListGetHeadNode,
        .ZyanListGetTailNode, .ZyanListGetPrevNode, .ZyanListGetNextNode, .ZyanListGetNodeData,
        .ZyanListGetNodeDataEx, .ZyanListGetNodeDataMutable, .ZyanListGetNodeDataMutableEx],
    fn .ZyanListSetNodeData [.ZYAN_MEMCPY],
    fn .ZyanListPushBack [.ZyanListAllocateNode, .ZYAN_MEMCPY],
    fn .ZyanListPushFront [.ZyanListAllocateNode, .ZYAN_MEMCPY],
    fn .ZyanListEmplaceBack [.ZyanListAllocateNode],
    fn .ZyanListEmplaceFront [.ZyanListAllocateNode],
    fn .ZyanListPopBack [.ZyanListDeallocateNode],
    fn .ZyanListPopFront [.ZyanListDeallocateNode],
    bodies [
        .ZyanListRemove, .ZyanListRemoveRange],
    fn .ZyanListClear [.ZyanListResizeEx],
    fn .ZyanListResize [.ZyanListResizeEx],
    fn .ZyanListResizeEx [.ZyanListAllocateNode, .ZYAN_MEMCPY, .ZyanListDeallocateNode],
    fn .ZyanListGetSize []]

/-- src/String.c lines 1-1098; conditionals at lines 54-62, 124-133, 185-194. -/
def stringC : Pp :=
  blk [
    .ite (.not (.defd .ZYAN_NO_LIBC))
      (fn .ZyanStringInit [.ZyanStringInitEx, .ZyanAllocatorDefault])
      (.done),
    fn .ZyanStringInitEx [.ZyanVectorInitEx],
    fn .ZyanStringInitCustomBuffer [.ZyanVectorInitCustomBuffer],
    fn .ZyanStringDestroy [.ZyanVectorDestroy],
    .ite (.not (.defd .ZYAN_NO_LIBC))
      (fn .ZyanStringDuplicate [.ZyanStringDuplicateEx, .ZyanAllocatorDefault])
      (.done),
    fn .ZyanStringDuplicateEx [.ZyanStringInitEx, .ZYAN_MEMCPY],
    fn .ZyanStringDuplicateCustomBuffer [.ZyanStringInitCustomBuffer, .ZYAN_MEMCPY],
    .ite (.not (.defd .ZYAN_NO_LIBC))
      (fn .ZyanStringConcat [.ZyanStringConcatEx, .ZyanAllocatorDefault])
      (.done),
    fn .ZyanStringConcatEx [.ZyanStringInitEx, .ZYAN_MEMCPY],
    fn .ZyanStringConcatCustomBuffer [.ZyanStringInitCustomBuffer, .ZYAN_MEMCPY],
    bodies [
        .ZyanStringViewInsideView, .ZyanStringViewInsideViewEx],
    fn .ZyanStringViewInsideBuffer [.ZYAN_STRLEN],
    bodies [
        .ZyanStringViewInsideBufferEx, .ZyanStringViewGetSize, .ZyanStringViewGetData],
    fn .ZyanStringGetChar [.ZyanVectorGetPointer],
    fn .ZyanStringGetCharMutable [.ZyanVectorGetPointerMutable],
    fn .ZyanStringSetChar [.ZyanVectorSet],
    fn .ZyanStringInsert [.ZyanStringAppend, .ZyanVectorInsertRange],
    fn .ZyanStringInsertEx [.ZyanStringAppendEx, .ZyanVectorInsertRange],
    fn .ZyanStringAppend [.ZyanVectorResize, .ZYAN_MEMCPY],
    fn .ZyanStringAppendEx [.ZyanVectorResize, .ZYAN_MEMCPY],
    fn .ZyanStringDelete [.ZyanVectorDeleteRange],
    fn .ZyanStringTruncate [.ZyanVectorDeleteRange],
    fn .ZyanStringClear [.ZyanVectorClear],
    fn .ZyanStringLPos [.ZyanStringLPosEx],
    bodies [
        .ZyanStringLPosEx],
    fn .ZyanStringLPosI [.ZyanStringLPosIEx],
    bodies [
        .ZyanStringLPosIEx],
    fn .ZyanStringRPos [.ZyanStringRPosEx],
    bodies [
        .ZyanStringRPosEx],
    fn .ZyanStringRPosI [.ZyanStringRPosIEx],
    bodies [
        .ZyanStringRPosIEx, .ZyanStringCompare, .ZyanStringCompareI],
    fn .ZyanStringToLowerCase [.ZyanStringToLowerCaseEx],
    bodies [
        .ZyanStringToLowerCaseEx],
    fn .ZyanStringToUpperCase [.ZyanStringToUpperCaseEx],
    bodies [
        .ZyanStringToUpperCaseEx],
    fn .ZyanStringResize [.ZyanVectorResize],
    fn .ZyanStringReserve [.ZyanVectorReserve],
    fn .ZyanStringShrinkToFit [.ZyanVectorShrinkToFit],
    bodies [
        .ZyanStringGetCapacity, .ZyanStringGetSize, .ZyanStringGetData]]

/-- src/Vector.c lines 1-846; conditionals at lines 181-190, 269-278. -/
def vectorC : Pp :=
  blk [
    bodies [
        .ZyanVectorReallocate],
    fn .ZyanVectorShiftLeft [.ZYAN_MEMMOVE],
    fn .ZyanVectorShiftRight [.ZYAN_MEMMOVE],
    .ite (.not (.defd .ZYAN_NO_LIBC))
      (fn .ZyanVectorInit [.ZyanVectorInitEx, .ZyanAllocatorDefault])
      (.done),
    bodies [
        .ZyanVectorInitEx, .ZyanVectorInitCustomBuffer, .ZyanVectorDestroy],
    .ite (.not (.defd .ZYAN_NO_LIBC))
      (fn .ZyanVectorDuplicate [.ZyanVectorDuplicateEx, .ZyanAllocatorDefault])
      (.done),
    fn .ZyanVectorDuplicateEx [.ZyanVectorInitEx, .ZYAN_MEMCPY],
    fn .ZyanVectorDuplicateCustomBuffer [.ZyanVectorInitCustomBuffer, .ZYAN_MEMCPY],
    bodies [
        .ZyanVectorGet, .ZyanVectorGetMutable, .ZyanVectorGetPointer, .ZyanVectorGetPointerMutable],
    fn .ZyanVectorSet [.ZYAN_MEMCPY],
    fn .ZyanVectorPushBack [.ZyanVectorReallocate, .ZYAN_MEMCPY],
    fn .ZyanVectorInsert [.ZyanVectorInsertRange],
    fn .ZyanVectorInsertRange [.ZyanVectorReallocate, .ZyanVectorShiftRight, .ZYAN_MEMCPY],
    fn .ZyanVectorEmplace [.ZyanVectorEmplaceEx],
    fn .ZyanVectorEmplaceEx [.ZyanVectorReallocate, .ZyanVectorShiftRight],
    fn .ZyanVectorSwapElements [.ZYAN_MEMCPY],
    fn .ZyanVectorDelete [.ZyanVectorDeleteRange],
    fn .ZyanVectorDeleteRange [.ZyanVectorShiftLeft, .ZyanVectorReallocate],
    fn .ZyanVectorPopBack [.ZyanVectorReallocate],
    fn .ZyanVectorClear [.ZyanVectorResizeEx],
    fn .ZyanVectorFind [.ZyanVectorFindEx],
    bodies [
        .ZyanVectorFindEx],
    fn .ZyanVectorBinarySearch [.ZyanVectorBinarySearchEx],
    bodies [
        .ZyanVectorBinarySearchEx],
    fn .ZyanVectorResize [.ZyanVectorResizeEx],
    fn .ZyanVectorResizeEx [.ZyanVectorReallocate, .ZYAN_MEMCPY],
    fn .ZyanVectorReserve [.ZyanVectorReallocate],
    fn .ZyanVectorShrinkToFit [.ZyanVectorReallocate],
    bodies [
        .ZyanVectorGetCapacity, .ZyanVectorGetSize]]

/-- src/Zycore.c lines 1-38. -/
def zycoreC : Pp :=
  fn .ZycoreGetVersion []

/-- src/API/Memory.c lines 1-132; conditionals at lines 29-132, 31-37. -/
def apiMemoryC : Pp :=
  .ite (.not (.defd .ZYAN_NO_LIBC))
      (blk [
        .ite (.defd .ZYAN_WINDOWS)
          (.done)
          (.ite (.defd .ZYAN_POSIX)
            (.done)
            (.error)),
        bodies [
            .ZyanMemoryGetSystemPageSize, .ZyanMemoryGetSystemAllocationGranularity,
            .ZyanMemoryVirtualProtect, .ZyanMemoryVirtualFree]])
      (.done)

/-- src/API/Process.c lines 1-77; conditionals at lines 30-77, 32-42. -/
def apiProcessC : Pp :=
  .ite (.not (.defd .ZYAN_NO_LIBC))
      (blk [
        .ite (.defd .ZYAN_WINDOWS)
          (.done)
          (.ite (.defd .ZYAN_POSIX)
            (.done)
            (.error)),
        fn .ZyanProcessFlushInstructionCache []])
      (.done)

/-- src/API/Synchronization.c lines 1-204; conditionals at lines 29-204, 47-200. -/
def apiSynchronizationC : Pp :=
  .ite (.not (.defd .ZYAN_NO_LIBC))
      (.ite (.defd .ZYAN_POSIX)
          (bodies [
                .ZyanCriticalSectionInitialize, .ZyanCriticalSectionEnter, .ZyanCriticalSectionTryEnter,
                .ZyanCriticalSectionLeave, .ZyanCriticalSectionDelete])
          (.ite (.defd .ZYAN_WINDOWS)
            (bodies [
                  .ZyanCriticalSectionInitialize, .ZyanCriticalSectionEnter, .ZyanCriticalSectionTryEnter,
                  .ZyanCriticalSectionLeave, .ZyanCriticalSectionDelete])
            (.error)))
      (.done)

/-- src/API/Terminal.c lines 1-160; conditionals at lines 29-160, 31-38, 58-95, 104-138. -/
def apiTerminalC : Pp :=
  .ite (.not (.defd .ZYAN_NO_LIBC))
      (blk [
        .ite (.defd .ZYAN_POSIX)
          (.done)
          (.ite (.defd .ZYAN_WINDOWS)
            (.done)
            (.error)),
        fn .ZyanTerminalEnableVT100 [],
        .ite (.defd .ZYAN_WINDOWS)
          (uses [.ZYAN_STDOUT, .ZYAN_STDERR])
          (.done),
        fn .ZyanTerminalIsTTY [],
        .ite (.defd .ZYAN_WINDOWS)
          (uses [.ZYAN_STDIN, .ZYAN_STDOUT, .ZYAN_STDERR])
          (.done),
        uses [.ZYAN_ERRNO]])
      (.done)

/-- src/API/Thread.c lines 1-244; conditionals at lines 29-244, 93-240. -/
def apiThreadC : Pp :=
  .ite (.not (.defd .ZYAN_NO_LIBC))
      (.ite (.defd .ZYAN_POSIX)
          (bodies [
                .ZyanThreadGetCurrentThread, .ZyanThreadGetCurrentThreadId, .ZyanThreadTlsAlloc,
                .ZyanThreadTlsFree, .ZyanThreadTlsGetValue, .ZyanThreadTlsSetValue])
          (.ite (.defd .ZYAN_WINDOWS)
            (bodies [
                  .ZyanThreadGetCurrentThread, .ZyanThreadGetCurrentThreadId, .ZyanThreadTlsAlloc,
                  .ZyanThreadTlsFree, .ZyanThreadTlsGetValue, .ZyanThreadTlsSetValue])
            (.error)))
      (.done)

/-- include/Zycore/Internal/AtomicGNU.h lines 1-117; conditionals at lines 41-109. -/
def atomicGNUH : Pp :=
  .ite (anyOf [.defd .ZYAN_CLANG, .defd .ZYAN_GCC, .defd .ZYAN_ICC])
      (bodies [
            .ZyanAtomicCompareExchange, .ZyanAtomicIncrement, .ZyanAtomicDecrement,
            .ZyanAtomicCompareExchange32, .ZyanAtomicIncrement32, .ZyanAtomicDecrement32,
            .ZyanAtomicCompareExchange64, .ZyanAtomicIncrement64, .ZyanAtomicDecrement64])
      (.done)

/-- include/Zycore/Internal/AtomicMSVC.h lines 1-141; conditionals at lines 43-133, 49-87. -/
def atomicMSVCH : Pp :=
  .ite (.defd .ZYAN_MSVC)
      (blk [
        .ite (.defd .ZYAN_X86)
          (blk [
            fn .ZyanAtomicCompareExchange [.ZyanAtomicCompareExchange32],
            fn .ZyanAtomicIncrement [.ZyanAtomicIncrement32],
            fn .ZyanAtomicDecrement [.ZyanAtomicDecrement32]])
          (.ite (.defd .ZYAN_X64)
            (blk [
              fn .ZyanAtomicCompareExchange [.ZyanAtomicCompareExchange64],
              fn .ZyanAtomicIncrement [.ZyanAtomicIncrement64],
              fn .ZyanAtomicDecrement [.ZyanAtomicDecrement64]])
            (.error)),
        bodies [
            .ZyanAtomicCompareExchange32, .ZyanAtomicIncrement32, .ZyanAtomicDecrement32,
            .ZyanAtomicCompareExchange64, .ZyanAtomicIncrement64, .ZyanAtomicDecrement64]])
      (.done)

/-- include/Zycore/Atomic.h lines 1-236; conditionals at lines 224-230. -/
def atomicH : Pp :=
  blk [
    decls [
        .ZyanAtomicCompareExchange, .ZyanAtomicIncrement, .ZyanAtomicDecrement,
        .ZyanAtomicCompareExchange32, .ZyanAtomicIncrement32, .ZyanAtomicDecrement32,
        .ZyanAtomicCompareExchange64, .ZyanAtomicIncrement64, .ZyanAtomicDecrement64],
    .ite (anyOf [.defd .ZYAN_CLANG, .defd .ZYAN_GCC, .defd .ZYAN_ICC])
      (atomicGNUH)
      (.ite (.defd .ZYAN_MSVC)
        (atomicMSVCH)
        (.error))]

/-- Everything a build of the library reads after include/Zycore/Defines.h (CMakeLists.txt lines 145-178). -/
def libraryFiles : Pp :=
  blk [
    typesH, libcH, allocatorH, argParseH, bitsetH, formatH, listH, stringH, vectorH, zycoreH, apiMemoryH,
    apiProcessH, apiSynchronizationH, apiTerminalH, apiThreadH, allocatorC, argParseC, bitsetC, formatC,
    listC, stringC, vectorC, zycoreC, apiMemoryC, apiProcessC, apiSynchronizationC, apiTerminalC,
    apiThreadC]

/-- The preprocessing of the whole library: include/Zycore/Defines.h lines 64-175, then all other files. -/
def library : Pp := .seq definesH libraryFiles

end Zy
