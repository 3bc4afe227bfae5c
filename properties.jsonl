{"id": "C01", "title": "A vector behaves exactly like a list under any sequence of operations", "statement": "After initialisation, any sequence of push, insert, range-insert, emplace, set, swap, delete, range-delete, pop, clear, resize, reserve and shrink calls returns the status codes, and leaves the size, the capacity and the elements, that the same operations give on an ordinary mathematical list with an explicit capacity policy.", "quantifier": "every finite history of vector operations, every element value, every growth factor and shrink threshold, dynamic and fixed-buffer vectors, allocator calls that succeed, sizes whose product with the growth factor fits in a machine word", "why_tests_cant": "the space of operation interleavings with reallocations in between is unbounded; unit tests only walk a few fixed scripts of 100 elements", "anchors": ["src/Vector.c:ZyanVectorPushBack", "src/Vector.c:ZyanVectorInsertRange", "src/Vector.c:ZyanVectorEmplaceEx", "src/Vector.c:ZyanVectorSet", "src/Vector.c:ZyanVectorSwapElements", "src/Vector.c:ZyanVectorDeleteRange", "src/Vector.c:ZyanVectorPopBack", "src/Vector.c:ZyanVectorResizeEx", "src/Vector.c:ZyanVectorReserve", "src/Vector.c:ZyanVectorShrinkToFit"]}
{"id": "C02", "title": "Vector operations never touch memory outside the vector's buffer", "statement": "No vector operation, at any point of any history, reads or writes a slot outside the storage block the vector currently owns, and the size never exceeds the capacity, which never exceeds the block that was really obtained.", "quantifier": "every finite history of vector operations with an allocator that honours requests, dynamic and fixed-buffer vectors, in the no-overflow domain", "why_tests_cant": "an out-of-bounds access on one rare interleaving of grow and shrink is invisible to an assertion on contents; absence needs all histories", "anchors": ["src/Vector.c:ZyanVectorReallocate", "src/Vector.c:ZyanVectorShiftLeft", "src/Vector.c:ZyanVectorShiftRight", "src/Vector.c:ZYCORE_VECTOR_OFFSET"]}
{"id": "C03", "title": "Fixed-buffer vectors never allocate and reject overflow without side effects", "statement": "A vector created on a caller-supplied buffer never calls an allocator, keeps its capacity forever, answers `INSUFFICIENT_BUFFER_SIZE` exactly when an insertion would exceed that capacity, and leaves the contents unchanged in that case.", "quantifier": "every buffer size, every history, every inserted range", "why_tests_cant": "needs every combination of fill level, insertion index and range length", "anchors": ["src/Vector.c:ZyanVectorInitCustomBuffer", "src/Vector.c:ZyanVectorReallocate", "src/Vector.c:ZyanVectorInsertRange"]}
{"id": "C04", "title": "A refused allocation leaves the vector intact", "statement": "If the allocator refuses to grow the storage during an insertion, the call fails with the allocator's status and the vector afterwards has the same size, capacity and elements as before, so that it remains safe to use.", "quantifier": "every vector state, every insertion, every failing status the allocator may return, every continuation of the history", "why_tests_cant": "unit tests use the default allocator, which never fails on demand; every failure point and every continuation has to be covered", "anchors": ["src/Vector.c:ZyanVectorReallocate", "src/Vector.c:ZyanVectorPushBack", "src/Vector.c:ZyanVectorInsertRange"]}
{"id": "C05", "title": "Every element is destroyed exactly once", "statement": "With a destructor installed, over any history ending in destruction of the vector, the destructor runs exactly once for every element that was ever stored and for nothing else.", "quantifier": "every finite history of operations followed by destroy, every element value, allocator calls that succeed", "why_tests_cant": "double or missed destruction depends on the interplay of delete, set, resize and destroy over unbounded histories", "anchors": ["src/Vector.c:ZyanVectorDestroy", "src/Vector.c:ZyanVectorSet", "src/Vector.c:ZyanVectorDeleteRange", "src/Vector.c:ZyanVectorPopBack", "src/Vector.c:ZyanVectorResizeEx"]}
{"id": "C06", "title": "Vector storage is never leaked, never freed twice and freed with the right size", "statement": "Over any history from initialisation to destruction, exactly one storage block is live at a time, every reallocation passes the live block, and destruction returns exactly that block together with the element count of its last (re)allocation.", "quantifier": "every finite history of operations, every growth/shrink parameter, allocator calls that succeed", "why_tests_cant": "leak freedom is a statement about all histories, and the count handed back to the deallocator is not observable with malloc/free", "anchors": ["src/Vector.c:ZyanVectorInitEx", "src/Vector.c:ZyanVectorReallocate", "src/Vector.c:ZyanVectorDestroy"]}
{"id": "C07", "title": "Out-of-range requests on a vector are rejected without effect", "statement": "Reading, writing, swapping or deleting at a position (or range) not contained in the vector, and inserting beyond the end, is answered with `OUT_OF_RANGE` and changes nothing; every in-range request succeeds.", "quantifier": "every vector state, every index and every count over the full machine-word range", "why_tests_cant": "indices and counts range over 2^64 values and the range check is computed with wrapping arithmetic", "anchors": ["src/Vector.c:ZyanVectorGet", "src/Vector.c:ZyanVectorGetPointer", "src/Vector.c:ZyanVectorSet", "src/Vector.c:ZyanVectorDeleteRange", "src/Vector.c:ZyanVectorSwapElements", "src/Vector.c:ZyanVectorInsertRange"]}
{"id": "C08", "title": "Linear search returns the first match", "statement": "Searching a non-empty range reports success exactly when some element of the range satisfies the comparison, and then reports the smallest such index; otherwise it reports not-found with index -1; it never modifies the vector.", "quantifier": "every vector, every equality callback, every start index and count inside the vector", "why_tests_cant": "first-match over all contents and all callbacks cannot be enumerated", "anchors": ["src/Vector.c:ZyanVectorFind", "src/Vector.c:ZyanVectorFindEx"]}
{"id": "C09", "title": "Binary search is a correct lower bound on every sorted vector", "statement": "On a vector sorted with respect to the comparison callback, binary search over a range terminates, reports found exactly when an equal element lies in the range, and always returns the first position of the range whose element is not smaller than the key (the end of the range if there is none).", "quantifier": "every sorted vector of any length, every consistent comparison callback, every key, every range, including empty ranges", "why_tests_cant": "the classic source of off-by-one errors; correctness for all lengths and duplicates needs a loop invariant", "anchors": ["src/Vector.c:ZyanVectorBinarySearch", "src/Vector.c:ZyanVectorBinarySearchEx"]}
{"id": "C10", "title": "Binary search performs logarithmically many comparisons", "statement": "Binary search over a range of n elements calls the comparison callback at most floor(log2 n)+1 times, whatever the callback answers, and only with elements of the range.", "quantifier": "every vector, every callback (even an inconsistent one), every range", "why_tests_cant": "a complexity bound over all inputs is not testable", "anchors": ["src/Vector.c:ZyanVectorBinarySearchEx"]}
{"id": "C11", "title": "Inserting a range and deleting it again restores the vector", "statement": "Inserting any non-empty range at any valid index and then deleting the same number of elements at that index yields the original element sequence.", "quantifier": "every vector state, every valid index, every inserted range", "why_tests_cant": "round trip over all states and ranges, with reallocation in between", "anchors": ["src/Vector.c:ZyanVectorInsertRange", "src/Vector.c:ZyanVectorDeleteRange"]}
{"id": "C12", "title": "Swapping exchanges exactly two elements", "statement": "With spare capacity, swapping two valid positions exchanges those two elements and changes no other element nor the size; swapping twice restores the vector; without spare capacity the call fails and nothing changes.", "quantifier": "every vector state, every pair of indices including equal ones", "why_tests_cant": "all index pairs and all aliasing cases", "anchors": ["src/Vector.c:ZyanVectorSwapElements"]}
{"id": "C13", "title": "Duplicating a vector yields an equal and independent vector", "statement": "A successful duplication (dynamic or into a buffer) produces a vector with the same elements in its own storage, with capacity at least the requested one and the source size; the source is unchanged; duplication into a buffer smaller than the source fails.", "quantifier": "every source vector, every requested capacity, every subsequent modification", "why_tests_cant": "independence quantifies over all later operations on either vector", "anchors": ["src/Vector.c:ZyanVectorDuplicateEx", "src/Vector.c:ZyanVectorDuplicateCustomBuffer"]}
{"id": "C14", "title": "Resizing keeps the common prefix and fills new slots with the initializer", "statement": "A successful resize to n gives a vector of exactly n elements whose first min(n, old size) elements are unchanged and whose further elements all equal the initializer if one was given; the reported storage is large enough for n elements.", "quantifier": "every vector state, every requested size over the full machine-word range, with or without initializer", "why_tests_cant": "requested sizes range over 2^64 values and the new capacity is computed by wrapping multiplication", "anchors": ["src/Vector.c:ZyanVectorResizeEx"]}
{"id": "C15", "title": "Constructing an element in place is all-or-nothing", "statement": "If the constructor callback passed to emplace reports failure, the vector afterwards holds the same elements as before the call; if it succeeds the new element sits at the requested index and all others keep their order.", "quantifier": "every vector state, every index, every constructor outcome", "why_tests_cant": "failure of a user callback at every index and fill level", "anchors": ["src/Vector.c:ZyanVectorEmplaceEx"]}
{"id": "C16", "title": "Appending n elements costs at most logarithmically many reallocations", "statement": "With a growth factor g of at least 2, pushing n elements onto a vector performs at most log_g(n)+1 reallocations, so appending is amortised constant time.", "quantifier": "every n, every growth factor at least 2, every initial state", "why_tests_cant": "an amortised-cost bound over all n is not a test outcome", "anchors": ["src/Vector.c:ZyanVectorPushBack", "src/Vector.c:ZYCORE_VECTOR_SHOULD_GROW"]}
{"id": "C17", "title": "Shrinking never drops live elements and frees unused capacity", "statement": "After deleting elements from a dynamic vector with shrink threshold t and growth factor g where g <= t (as in the defaults), the capacity is at most max(1, t*size) and never below the size, and the surviving elements are unchanged.", "quantifier": "every dynamic vector state reached by any history, every deletion", "why_tests_cant": "capacity policy over all histories", "anchors": ["src/Vector.c:ZyanVectorDeleteRange", "src/Vector.c:ZyanVectorPopBack", "src/Vector.c:ZYCORE_VECTOR_SHOULD_SHRINK"]}
{"id": "C18", "title": "A string is always NUL-terminated", "statement": "After successful initialisation, after every string operation (whether it succeeds or fails), the byte directly behind the last character is NUL and lies inside the string's storage.", "quantifier": "every history of string operations including failing ones, dynamic and fixed-capacity strings, allocator calls that succeed", "why_tests_cant": "the terminator is re-established by hand in each operation; every path of every history matters", "anchors": ["src/String.c:ZyanStringInitEx", "src/String.c:ZyanStringAppend", "src/String.c:ZyanStringInsert", "src/String.c:ZyanStringDelete", "src/String.c:ZyanStringClear", "src/String.c:ZyanStringResize", "src/String.c:ZYCORE_STRING_NULLTERMINATE"]}
{"id": "C19", "title": "A string behaves exactly like a list of characters", "statement": "Any sequence of append, insert, delete, truncate, clear, set-char, case-conversion and capacity operations returns the statuses and leaves the text and length that the same operations give on an abstract character sequence with a capacity.", "quantifier": "every finite history, every text, every index and count that does not wrap around", "why_tests_cant": "unbounded histories with reallocation and terminator handling; the repository has no string tests at all", "anchors": ["src/String.c:ZyanStringAppend", "src/String.c:ZyanStringInsert", "src/String.c:ZyanStringInsertEx", "src/String.c:ZyanStringDelete", "src/String.c:ZyanStringTruncate", "src/String.c:ZyanStringClear", "src/String.c:ZyanStringSetChar"]}
{"id": "C20", "title": "Fixed-capacity strings never overflow their buffer", "statement": "A string on a caller-supplied buffer of n bytes never writes outside those n bytes; an append or insert that would need more than n-1 characters fails and leaves the text unchanged.", "quantifier": "every buffer size, every history, every source text", "why_tests_cant": "classic buffer overflow, must hold for all lengths", "anchors": ["src/String.c:ZyanStringInitCustomBuffer", "src/String.c:ZyanStringAppend", "src/String.c:ZyanStringInsert"]}
{"id": "C21", "title": "Left search finds the leftmost occurrence", "statement": "Searching a non-empty needle in a range of a string reports success exactly when the needle occurs entirely inside the range, and then the smallest such position; otherwise -1.", "quantifier": "every haystack, every NUL-free needle stored in a terminated string, every range", "why_tests_cant": "substring search with partial-match restarts over all texts", "anchors": ["src/String.c:ZyanStringLPos", "src/String.c:ZyanStringLPosEx"]}
{"id": "C22", "title": "Right search finds the rightmost occurrence", "statement": "Searching a non-empty needle from the right reports success exactly when the needle occurs entirely inside the given range, and then the largest such position; otherwise -1.", "quantifier": "every haystack, every needle, every range", "why_tests_cant": "substring search with partial-match restarts over all texts", "anchors": ["src/String.c:ZyanStringRPos", "src/String.c:ZyanStringRPosEx"]}
{"id": "C23", "title": "Case-insensitive search equals search up to letter case", "statement": "The case-insensitive searches report the leftmost (rightmost) position at which the needle matches when ASCII letters are compared ignoring case and all other characters are compared exactly.", "quantifier": "every haystack, every needle, every range", "why_tests_cant": "all character pairs in all positions", "anchors": ["src/String.c:ZyanStringLPosIEx", "src/String.c:ZyanStringRPosIEx"]}
{"id": "C24", "title": "Comparison reports equality exactly for equal texts", "statement": "Comparing two terminated strings reports equal (status TRUE, result 0) exactly when both have the same characters.", "quantifier": "every pair of strings", "why_tests_cant": "all pairs of texts", "anchors": ["src/String.c:ZyanStringCompare"]}
{"id": "C25", "title": "Comparison is a consistent order", "statement": "Comparing in the opposite direction flips the sign of the result, and the result is negative exactly when the first differing character is lower in the first string.", "quantifier": "every pair of strings", "why_tests_cant": "antisymmetry quantifies over all pairs", "anchors": ["src/String.c:ZyanStringCompare"]}
{"id": "C26", "title": "Case-insensitive comparison equals comparison of case-folded texts", "statement": "Case-insensitive comparison reports equal exactly when the two texts agree after converting ASCII letters to lower case.", "quantifier": "every pair of strings", "why_tests_cant": "all pairs of texts", "anchors": ["src/String.c:ZyanStringCompareI"]}
{"id": "C27", "title": "Case conversion changes only letters, in the requested range", "statement": "Converting a range to lower (upper) case maps each ASCII letter of the range to its lower (upper) case form and leaves every other character, the length and the terminator unchanged; converting twice equals converting once.", "quantifier": "every string, every range", "why_tests_cant": "all characters and all ranges", "anchors": ["src/String.c:ZyanStringToLowerCaseEx", "src/String.c:ZyanStringToUpperCaseEx"]}
{"id": "C28", "title": "A view of a range denotes exactly the requested characters", "statement": "A view created over characters [index, index+count) of a string has size count and its characters are exactly those characters.", "quantifier": "every source, every range inside it", "why_tests_cant": "all ranges", "anchors": ["src/String.c:ZyanStringViewInsideViewEx", "src/String.c:ZyanStringViewInsideBufferEx", "src/String.c:ZyanStringViewGetSize"]}
{"id": "C29", "title": "Duplicate and concatenate build exactly the expected text", "statement": "Duplicating a view yields a terminated string with the same text, concatenating two views yields the concatenation; both reject a fixed buffer that cannot hold the text plus terminator, without writing to it.", "quantifier": "every pair of source texts, every requested capacity or buffer size", "why_tests_cant": "all lengths and capacities", "anchors": ["src/String.c:ZyanStringDuplicateEx", "src/String.c:ZyanStringDuplicateCustomBuffer", "src/String.c:ZyanStringConcatEx", "src/String.c:ZyanStringConcatCustomBuffer"]}
{"id": "C30", "title": "Truncating at any position up to the length keeps exactly that prefix", "statement": "Truncating a string at any index i not larger than its length succeeds and leaves exactly the first i characters, terminated.", "quantifier": "every string, every index up to and including the length", "why_tests_cant": "all lengths including the boundary index", "anchors": ["src/String.c:ZyanStringTruncate"]}
{"id": "C31", "title": "Search, compare and copy functions stay inside the view they are given", "statement": "Searching for, comparing or appending a view never reads bytes outside that view and the result depends only on the characters of the view.", "quantifier": "every view, including views that are not NUL-terminated", "why_tests_cant": "over-reads by one byte are silent in tests", "anchors": ["src/String.c:ZyanStringLPosEx", "src/String.c:ZyanStringCompare", "src/String.c:ZyanStringAppend", "src/String.c:ZyanStringInsert"]}
{"id": "C32", "title": "Unsigned decimal formatting is exact", "statement": "Appending an unsigned value in decimal appends exactly its canonical decimal digits, left-padded with '0' to the requested width, and nothing else of the string changes; reading the appended digits back gives the value.", "quantifier": "every 64-bit value, every padding length 0..255, every string with room", "why_tests_cant": "2^64 values times 256 paddings; digit-pair table and buffer arithmetic", "anchors": ["src/Format.c:ZyanStringAppendDecU", "src/Format.c:ZyanStringAppendDecU64", "src/Format.c:ZyanStringAppendDecU32", "src/Format.c:DECIMAL_LOOKUP"]}
{"id": "C33", "title": "Unsigned hexadecimal formatting is exact", "statement": "Appending an unsigned value in hexadecimal appends exactly its canonical hex digits in the requested letter case, left-padded with '0' to the requested width; reading them back gives the value.", "quantifier": "every 64-bit value, every padding length 0..255, both letter cases, every string with room", "why_tests_cant": "2^64 values; the digit loop interleaves skipping, padding and resizing", "anchors": ["src/Format.c:ZyanStringAppendHexU", "src/Format.c:ZyanStringAppendHexU64", "src/Format.c:ZyanStringAppendHexU32"]}
{"id": "C34", "title": "Signed formatting prints sign, prefix and magnitude", "statement": "Appending a signed value appends '-' for negative values ('+' for others if forced), then the prefix, then the padded magnitude, for every value including the most negative one.", "quantifier": "every 64-bit signed value, every padding, every prefix", "why_tests_cant": "2^64 values including INT64_MIN", "anchors": ["src/Format.c:ZyanStringAppendDecS", "src/Format.c:ZyanStringAppendHexS", "include/Zycore/Format.h:ZyanAbsI64"]}
{"id": "C35", "title": "Number formatting into a full buffer fails without damaging the string", "statement": "If a fixed-capacity string has no room for the formatted number, the call fails and the text, length and terminator are unchanged.", "quantifier": "every value, padding, sign option, prefix, buffer size and previous text", "why_tests_cant": "every relation between remaining space and output length", "anchors": ["src/Format.c:ZyanStringAppendDecU", "src/Format.c:ZyanStringAppendHexU", "src/Format.c:ZyanStringAppendDecS", "src/Format.c:ZyanStringAppendHexS"]}
{"id": "C36", "title": "Formatted append appends exactly the formatted text", "statement": "On success, a printf-style append adds exactly the text the formatter produces and keeps the string terminated, whatever the previous capacity and growth factor; on failure the string is unchanged.", "quantifier": "every format result, every string capacity, every growth factor", "why_tests_cant": "depends on the relation of output length to capacity for all lengths", "anchors": ["src/Format.c:ZyanStringAppendFormat"]}
{"id": "C37", "title": "The absolute value of a 64-bit integer is exact for every input", "statement": "The absolute-value helper returns |x| as an unsigned number for every signed 64-bit x, including the most negative one.", "quantifier": "every signed 64-bit integer", "why_tests_cant": "2^64 inputs", "anchors": ["include/Zycore/Format.h:ZyanAbsI64"]}
{"id": "C38", "title": "A bitset built by push and pop is a sequence of booleans", "statement": "Starting from an empty bitset, any sequence of push, pop, set, reset, assign, toggle and test operations behaves like the same operations on a sequence of booleans.", "quantifier": "every finite history, every index", "why_tests_cant": "bit addressing across byte boundaries under all histories", "anchors": ["src/Bitset.c:ZyanBitsetPush", "src/Bitset.c:ZyanBitsetPop", "src/Bitset.c:ZyanBitsetSet", "src/Bitset.c:ZyanBitsetTest"]}
{"id": "C39", "title": "Changing one bit changes no other bit", "statement": "Set, reset, assign and toggle at index i change the value tested at i as requested and the value tested at every other index not at all; out-of-range indices are rejected without effect.", "quantifier": "every bitset, every pair of indices", "why_tests_cant": "all index pairs", "anchors": ["src/Bitset.c:ZyanBitsetSet", "src/Bitset.c:ZyanBitsetReset", "src/Bitset.c:ZyanBitsetAssign", "src/Bitset.c:ZyanBitsetToggle", "src/Bitset.c:ZyanBitsetTest"]}
{"id": "C40", "title": "AND, OR, XOR and flip act bitwise", "statement": "After a logical operation, every bit present in both bitsets has the bitwise AND/OR/XOR of the two former values, the source is unchanged; flip complements every bit and is its own inverse.", "quantifier": "every pair of bitsets of any (different) sizes", "why_tests_cant": "all contents and sizes", "anchors": ["src/Bitset.c:ZyanBitsetAND", "src/Bitset.c:ZyanBitsetOR", "src/Bitset.c:ZyanBitsetXOR", "src/Bitset.c:ZyanBitsetFlip", "src/Bitset.c:ZyanBitsetPerformByteOperation"]}
{"id": "C41", "title": "Setting or resetting all bits affects every bit", "statement": "After set-all every valid index tests true, after reset-all every valid index tests false, and the size is unchanged.", "quantifier": "every bitset, every index", "why_tests_cant": "all sizes", "anchors": ["src/Bitset.c:ZyanBitsetSetAll", "src/Bitset.c:ZyanBitsetResetAll"]}
{"id": "C42", "title": "The bit count equals the number of set bits", "statement": "The count function returns exactly the number of valid indices whose bit is set.", "quantifier": "every bitset reached by any history", "why_tests_cant": "depends on stale padding bits left by earlier operations", "anchors": ["src/Bitset.c:ZyanBitsetCount"]}
{"id": "C43", "title": "All/any/none answer for exactly the valid bits", "statement": "The all/any/none queries answer TRUE exactly when every / at least one / no valid index has its bit set.", "quantifier": "every bitset of every size", "why_tests_cant": "all sizes and contents", "anchors": ["src/Bitset.c:ZyanBitsetAll", "src/Bitset.c:ZyanBitsetAny", "src/Bitset.c:ZyanBitsetNone"]}
{"id": "C44", "title": "A freshly initialised bitset has the requested number of usable zero bits", "statement": "Initialising a bitset with n bits gives a bitset of size n on which every index below n can be tested (FALSE) and set.", "quantifier": "every n", "why_tests_cant": "all sizes, including those not divisible by eight", "anchors": ["src/Bitset.c:ZyanBitsetInitEx", "src/Bitset.c:ZYAN_BITSET_BITS_TO_BYTES"]}
{"id": "C45", "title": "Popping an empty bitset is rejected", "statement": "Removing a bit from an empty bitset fails and leaves it empty.", "quantifier": "every empty bitset, however it was emptied", "why_tests_cant": "boundary reached by any history", "anchors": ["src/Bitset.c:ZyanBitsetPop"]}
{"id": "C46", "title": "A list behaves exactly like a double-ended queue", "statement": "Any sequence of push-front, push-back, emplace, pop-front, pop-back, clear and resize operations leaves the element sequence, size and statuses of the same operations on a mathematical sequence; traversal from the head and from the tail give the same sequence in opposite order.", "quantifier": "every finite history, every element value, dynamic and fixed-buffer lists, allocator calls that succeed", "why_tests_cant": "pointer surgery at both ends over unbounded histories; the repository has no list tests", "anchors": ["src/List.c:ZyanListPushBack", "src/List.c:ZyanListPushFront", "src/List.c:ZyanListPopBack", "src/List.c:ZyanListPopFront", "src/List.c:ZyanListResizeEx", "src/List.c:ZyanListClear"]}
{"id": "C47", "title": "List links are always consistent", "statement": "In every reachable state the next/previous links form one finite chain from head to tail, next and previous are mutually inverse, the first node has no predecessor, the last no successor, and the number of nodes on the chain equals the reported size.", "quantifier": "every finite history including refused allocations", "why_tests_cant": "a heap-shape invariant over all histories", "anchors": ["src/List.c:ZyanListPushBack", "src/List.c:ZyanListPushFront", "src/List.c:ZyanListPopBack", "src/List.c:ZyanListPopFront", "src/List.c:ZyanListResizeEx"]}
{"id": "C48", "title": "A fixed-buffer list can always use its whole buffer", "statement": "A list on a caller buffer with room for n nodes accepts an insertion exactly when fewer than n elements are stored, whatever was inserted and removed before; nodes never overlap and never leave the buffer.", "quantifier": "every buffer size, every history", "why_tests_cant": "slot recycling through the free list over unbounded histories", "anchors": ["src/List.c:ZyanListAllocateNode", "src/List.c:ZyanListDeallocateNode", "src/List.c:ZyanListInitCustomBuffer"]}
{"id": "C49", "title": "List nodes are freed and elements destroyed exactly once", "statement": "Over any history ending in destroy, every allocated node is deallocated exactly once, and the destructor runs exactly once per stored element.", "quantifier": "every finite history with a dynamic list, allocator calls that succeed", "why_tests_cant": "leaks and double frees over all histories", "anchors": ["src/List.c:ZyanListDestroy", "src/List.c:ZyanListDeallocateNode", "src/List.c:ZyanListPopBack", "src/List.c:ZyanListResizeEx"]}
{"id": "C50", "title": "A refused node allocation leaves the list unchanged", "statement": "If no node can be obtained (allocator refusal or exhausted buffer), a push returns the failure status and the list is exactly as before.", "quantifier": "every list state, every refusal", "why_tests_cant": "failure injection at every state", "anchors": ["src/List.c:ZyanListPushBack", "src/List.c:ZyanListPushFront", "src/List.c:ZyanListAllocateNode"]}
{"id": "C51", "title": "Removing a node removes it", "statement": "Removing a given node (or a range of nodes) from a list unlinks exactly those nodes and decreases the size accordingly.", "quantifier": "every list, every node of it", "why_tests_cant": "all positions in all lists", "anchors": ["src/List.c:ZyanListRemove", "src/List.c:ZyanListRemoveRange"]}
{"id": "C52", "title": "Argument parsing follows the documented grammar", "statement": "Parsing any argument vector yields exactly the sequence of named and unnamed arguments that the documented grammar (long options, clusters of single-dash options with optional attached or following value, `--` separator, unnamed arguments) assigns to it, in order, or the corresponding error.", "quantifier": "every argument vector, every set of definitions", "why_tests_cant": "all token sequences", "anchors": ["src/ArgParse.c:ZyanArgParseEx"]}
{"id": "C53", "title": "A successful parse respects the declared limits", "statement": "If parsing succeeds, the number of unnamed arguments lies between the declared minimum and maximum and every definition marked required occurs among the parsed arguments.", "quantifier": "every argument vector, every configuration", "why_tests_cant": "all token sequences and configurations", "anchors": ["src/ArgParse.c:ZyanArgParseEx"]}
{"id": "C54", "title": "Parsed options carry values exactly when declared to", "statement": "Every parsed named argument refers to one of the given definitions whose name matches the token, has a value exactly if the definition is non-boolean, and the value is a non-empty-able piece of the input: the rest of the token or the next token.", "quantifier": "every argument vector, every set of definitions", "why_tests_cant": "all token sequences", "anchors": ["src/ArgParse.c:ZyanArgParseEx"]}
{"id": "C55", "title": "Everything after a lone double dash is unnamed", "statement": "Every argument after the first lone `--` (that is not consumed as a value) is reported as an unnamed argument even if it starts with dashes.", "quantifier": "every argument vector", "why_tests_cant": "all token sequences", "anchors": ["src/ArgParse.c:ZyanArgParseEx"]}
{"id": "C56", "title": "A failed parse owns no memory", "statement": "When parsing fails after setup, the output vector's storage has been released exactly once; when it succeeds it is live and owned by the caller.", "quantifier": "every argument vector, every configuration, every allocator behaviour", "why_tests_cant": "failure at every parse step and every allocator refusal point", "anchors": ["src/ArgParse.c:ZyanArgParseEx"]}
{"id": "C57", "title": "A cluster of boolean flags is not an unnamed argument", "statement": "A single-dash token consisting only of declared boolean flags is reported as those flags and nothing else.", "quantifier": "every set of definitions, every cluster", "why_tests_cant": "all clusters", "anchors": ["src/ArgParse.c:ZyanArgParseEx"]}
{"id": "C58", "title": "The memmove replacement is correct for every overlap", "statement": "Without a C library, the memmove replacement copies n bytes correctly for every relative position of source and destination within a buffer.", "quantifier": "every buffer, every pair of offsets, every n in range", "why_tests_cant": "all overlaps", "anchors": ["include/Zycore/LibC.h:ZYAN_MEMMOVE"]}
{"id": "C59", "title": "The memory primitives copy, compare, fill and scan exactly n bytes", "statement": "The memcpy, memcmp, memset and memchr replacements access exactly the n given bytes and return what the C standard prescribes.", "quantifier": "every buffer and every n", "why_tests_cant": "all lengths and contents", "anchors": ["include/Zycore/LibC.h:ZYAN_MEMCPY", "include/Zycore/LibC.h:ZYAN_MEMCMP", "include/Zycore/LibC.h:ZYAN_MEMSET", "include/Zycore/LibC.h:ZYAN_MEMCHR"]}
{"id": "C60", "title": "String length, copy and concatenation replacements are exact", "statement": "The strlen, strcpy, strcat, strncpy and strncat replacements follow the C standard for every terminated input with enough room and never write further.", "quantifier": "every terminated string, every destination size sufficient by the standard", "why_tests_cant": "all lengths", "anchors": ["include/Zycore/LibC.h:ZYAN_STRLEN", "include/Zycore/LibC.h:ZYAN_STRCPY", "include/Zycore/LibC.h:ZYAN_STRCAT", "include/Zycore/LibC.h:ZYAN_STRNCPY", "include/Zycore/LibC.h:ZYAN_STRNCAT"]}
{"id": "C61", "title": "The strcmp replacement is the lexicographic order", "statement": "The strcmp replacement returns zero exactly for equal strings and a negative value exactly when the first string is lexicographically smaller in unsigned bytes; strncmp does the same on the first n characters, stopping at the terminator.", "quantifier": "every pair of terminated strings, every n", "why_tests_cant": "all pairs", "anchors": ["include/Zycore/LibC.h:ZYAN_STRCMP", "include/Zycore/LibC.h:ZYAN_STRNCMP"]}
{"id": "C62", "title": "Character-class scans follow the C standard", "statement": "The strchr, strrchr, strspn, strcspn and strpbrk replacements return the first/last occurrence, the length of the maximal accepted/rejected prefix and the first accepted position.", "quantifier": "every terminated string, every character set", "why_tests_cant": "all strings and sets", "anchors": ["include/Zycore/LibC.h:ZYAN_STRCHR", "include/Zycore/LibC.h:ZYAN_STRRCHR", "include/Zycore/LibC.h:ZYAN_STRSPN", "include/Zycore/LibC.h:ZYAN_STRCSPN", "include/Zycore/LibC.h:ZYAN_STRPBRK"]}
{"id": "C63", "title": "The strstr replacement finds the first occurrence safely", "statement": "The strstr replacement returns the first position at which the second string occurs in the first (the start for an empty needle) and reads no byte behind either terminator.", "quantifier": "every pair of terminated strings", "why_tests_cant": "all pairs, memory safety at the end of the buffer", "anchors": ["include/Zycore/LibC.h:ZYAN_STRSTR"]}
{"id": "C64", "title": "The strtok replacement enumerates the tokens", "statement": "Repeated calls of the strtok replacement enumerate exactly the maximal delimiter-free pieces of the string in order.", "quantifier": "every string, every delimiter set", "why_tests_cant": "all strings and histories of calls", "anchors": ["include/Zycore/LibC.h:ZYAN_STRTOK"]}
{"id": "C65", "title": "Status codes round-trip through their fields", "statement": "A status code built from an error bit, module and code returns exactly that module and code, is an error exactly if the bit was set, and the success and failure checks are complementary; all predefined codes are distinct.", "quantifier": "every error bit, every 11-bit module and 20-bit code, every 32-bit status", "why_tests_cant": "2^32 codes", "anchors": ["include/Zycore/Status.h:ZYAN_MAKE_STATUS", "include/Zycore/Status.h:ZYAN_SUCCESS", "include/Zycore/Status.h:ZYAN_STATUS_MODULE"]}
{"id": "C66", "title": "Aligning up gives the next multiple", "statement": "For a power-of-two alignment, aligning up returns the smallest multiple of the alignment that is not below the value (when representable), and the aligned-to check accepts exactly multiples.", "quantifier": "every 64-bit value, every power-of-two alignment", "why_tests_cant": "2^64 values", "anchors": ["include/Zycore/Defines.h:ZYAN_ALIGN_UP", "include/Zycore/Defines.h:ZYAN_IS_ALIGNED_TO"]}
{"id": "C67", "title": "Aligning down gives the previous multiple", "statement": "For a power-of-two alignment, aligning down returns the largest multiple of the alignment that does not exceed the value.", "quantifier": "every 64-bit value, every power-of-two alignment", "why_tests_cant": "2^64 values including already aligned ones", "anchors": ["include/Zycore/Defines.h:ZYAN_ALIGN_DOWN"]}
{"id": "C68", "title": "The power-of-two test is exact", "statement": "The power-of-two check accepts exactly zero and the powers of two.", "quantifier": "every 64-bit value", "why_tests_cant": "2^64 values", "anchors": ["include/Zycore/Defines.h:ZYAN_IS_POWER_OF_2"]}
{"id": "C69", "title": "The number of bits needed is exact", "statement": "The bits-to-represent macro returns the least k such that the value is below 2^k.", "quantifier": "every value of the supported width", "why_tests_cant": "2^32 (2^64) values", "anchors": ["include/Zycore/Defines.h:ZYAN_BITS_TO_REPRESENT", "include/Zycore/Defines.h:ZYAN_NEEDS_BIT"]}
{"id": "C70", "title": "The comparison callbacks are consistent total orders", "statement": "The predefined comparison functions return -1/0/1 as a total order that agrees with the predefined equality functions, so that they are valid callbacks for binary search.", "quantifier": "every pair and triple of values", "why_tests_cant": "all values", "anchors": ["include/Zycore/Comparison.h:ZYAN_DECLARE_COMPARISON", "include/Zycore/Comparison.h:ZYAN_DECLARE_EQUALITY_COMPARISON"]}
{"id": "C71", "title": "The default allocator hands out blocks of the requested size", "statement": "When the default allocator reports success for n elements of size s, the block has room for n*s bytes; when the underlying allocation fails it reports `NOT_ENOUGH_MEMORY` and a reallocation leaves the old block valid.", "quantifier": "every element size and count over the full machine-word range, every behaviour of malloc/realloc", "why_tests_cant": "products over 2^128 argument pairs", "anchors": ["src/Allocator.c:ZyanAllocatorDefaultAllocate", "src/Allocator.c:ZyanAllocatorDefaultReallocate"]}
{"id": "C72", "title": "Atomic counters never lose an update", "statement": "Under any interleaving of any number of threads performing atomic increments and decrements, the final value equals the initial value plus increments minus decrements, and the values returned by concurrent increments (without decrements) are pairwise distinct.", "quantifier": "every number of threads, every schedule", "why_tests_cant": "all schedules", "anchors": ["include/Zycore/Internal/AtomicGNU.h:ZyanAtomicIncrement64", "include/Zycore/Internal/AtomicGNU.h:ZyanAtomicDecrement64"]}
{"id": "C73", "title": "Compare-exchange elects exactly one winner", "statement": "If any number of threads try to replace the same expected value by values different from it, under any schedule exactly one of them observes the expected value as the returned original.", "quantifier": "every number of threads (at least one), every schedule", "why_tests_cant": "all schedules", "anchors": ["include/Zycore/Internal/AtomicGNU.h:ZyanAtomicCompareExchange64"]}
{"id": "C74", "title": "A critical section excludes other threads and is re-entrant", "statement": "At any time at most one thread is between enter and the matching leave of a critical section, the owner may enter repeatedly, and the section becomes free exactly after as many leaves as enters.", "quantifier": "every number of threads, every schedule of enter, try-enter and leave calls", "why_tests_cant": "all schedules", "anchors": ["src/API/Synchronization.c:ZyanCriticalSectionEnter", "src/API/Synchronization.c:ZyanCriticalSectionTryEnter", "src/API/Synchronization.c:ZyanCriticalSectionLeave"]}
{"id": "C75", "title": "Thread-local slots are private to a thread", "statement": "A value stored in a thread-local slot is read back by the same thread until it is overwritten, and is never visible to or changed by another thread.", "quantifier": "every number of threads, every schedule of set/get operations", "why_tests_cant": "all schedules", "anchors": ["src/API/Thread.c:ZyanThreadTlsSetValue", "src/API/Thread.c:ZyanThreadTlsGetValue"]}
{"id": "C76", "title": "Appending a string to itself doubles the text", "statement": "Appending the view of a string to that same string leaves the text followed by itself, terminated.", "quantifier": "every string reachable through the API", "why_tests_cant": "whether the append reallocates depends on the whole history of the string", "anchors": ["src/String.c:ZyanStringAppend", "include/Zycore/String.h:ZYAN_STRING_TO_VIEW"]}
{"id": "C77", "title": "Reserving capacity makes that many characters available", "statement": "After a successful reservation of n, the reported capacity of a dynamic string is at least n and the text is unchanged.", "quantifier": "every reachable string, every n", "why_tests_cant": "all capacities and histories", "anchors": ["src/String.c:ZyanStringReserve", "src/String.c:ZyanStringGetCapacity"]}
{"id": "C78", "title": "String index and range checks hold over the full machine-word range", "statement": "For every 64-bit index (and count) a string function that takes a position or range accepts exactly the positions or ranges inside of the text and otherwise returns `OUT_OF_RANGE` without touching memory.", "quantifier": "every reachable string, every index and count in 0..2^64-1", "why_tests_cant": "2^128 argument pairs", "anchors": ["src/String.c:ZyanStringGetChar", "src/String.c:ZyanStringSetChar", "src/String.c:ZyanStringLPosEx", "src/String.c:ZyanStringDelete"]}
{"id": "C79", "title": "A refused bitset push leaves the bitset unchanged", "statement": "A push for which the storage has no room fails and leaves size and bits as they were.", "quantifier": "every reachable bitset on a caller buffer, every value", "why_tests_cant": "boundary reached by any history", "anchors": ["src/Bitset.c:ZyanBitsetPush"]}
{"id": "C80", "title": "No bitset call accesses memory outside of the storage", "statement": "Whatever calls were made before (any requested size, pops on empty bitsets, refused pushes), every bitset call reads and writes only bytes of the bitset's storage that hold elements.", "quantifier": "every history of calls, every argument", "why_tests_cant": "unbounded histories, including those that make size and storage disagree", "anchors": ["src/Bitset.c:ZyanBitsetPush", "src/Bitset.c:ZyanBitsetPop", "src/Bitset.c:ZyanBitsetPerformByteOperation", "src/Bitset.c:ZyanBitsetCount"]}
{"id": "C81", "title": "Reserving bits provides at least the requested capacity", "statement": "After a successful reserve of n bits the capacity is at least n bits and the contents are unchanged.", "quantifier": "every reachable dynamic bitset, every n", "why_tests_cant": "all n, including those not divisible by eight", "anchors": ["src/Bitset.c:ZyanBitsetReserve", "src/Bitset.c:ZYAN_BITSET_BITS_TO_BYTES"]}
{"id": "C82", "title": "MSB and LSB tests read the last and the first bit", "statement": "Testing the most (least) significant bit gives the value of the last (first) bit, and is refused on an empty bitset.", "quantifier": "every reachable bitset", "why_tests_cant": "all sizes and contents", "anchors": ["src/Bitset.c:ZyanBitsetTestMSB", "src/Bitset.c:ZyanBitsetTestLSB"]}
{"id": "C83", "title": "The byte size is the least number of bytes holding the bits", "statement": "The reported size in bytes is the smallest number of bytes that hold the reported number of bits, it does not exceed the capacity in bytes, and the capacity in bits is eight times the capacity in bytes.", "quantifier": "every reachable bitset", "why_tests_cant": "all histories", "anchors": ["src/Bitset.c:ZyanBitsetGetSizeBytes", "src/Bitset.c:ZyanBitsetGetCapacity", "src/Bitset.c:ZyanBitsetGetCapacityBytes"]}
{"id": "C84", "title": "String and bitset storage is returned exactly once, caller buffers never", "statement": "Over any history from creation to destruction a dynamic string or bitset owns exactly one block from its allocator, sized like its capacity, and destruction returns exactly that block; on a caller buffer the allocator is never called.", "quantifier": "every reachable string and bitset, every finite history, allocator calls that succeed", "why_tests_cant": "unbounded histories of growth and shrinking", "anchors": ["src/String.c:ZyanStringDestroy", "src/Bitset.c:ZyanBitsetDestroy", "src/Vector.c:ZyanVectorDestroy"]}
{"id": "C85", "title": "List nodes in a caller buffer are aligned", "statement": "If a caller buffer is aligned for pointers, every node of a list placed in it is aligned for pointers.", "quantifier": "every element size, every buffer with room for at least two nodes, every history", "why_tests_cant": "all element sizes and histories; on x86 misaligned nodes still work in tests", "anchors": ["src/List.c:ZyanListAllocateNode", "include/Zycore/List.h:ZyanListNode_"]}
{"id": "C86", "title": "A refused deallocation is reported and leaves a consistent list", "statement": "If the allocator refuses to take a node back during a pop, resize, clear or destroy, the call returns the refusal and leaves a list whose links are consistent and whose size is its number of elements.", "quantifier": "every dynamic list, every refusal", "why_tests_cant": "needs an allocator that fails at deallocation, at every possible position", "anchors": ["src/List.c:ZyanListDeallocateNode", "src/List.c:ZyanListResizeEx", "src/List.c:ZyanListDestroy"]}
{"id": "C87", "title": "A failing constructor makes a list emplace fail", "statement": "If the constructor callback fails, the emplace call returns its status and the list is unchanged; if it succeeds, the list has the constructed element.", "quantifier": "every list with room, every constructor, both ends", "why_tests_cant": "all constructors and list states", "anchors": ["src/List.c:ZyanListEmplaceBack", "src/List.c:ZyanListEmplaceFront"]}
{"id": "C88", "title": "Parsing a rendered command line gives back its parts", "statement": "Options written on the command line (name, then the value as the next token if the option takes one), then `--`, then arbitrary tokens parse to exactly these options with these values and exactly these tokens as unnamed arguments, in order, provided the limits of the configuration are met.", "quantifier": "every legal set of definitions, every sequence of options (long flags and options with values), every values and tokens, including ones that look like options", "why_tests_cant": "all option sequences, values and tokens", "anchors": ["src/ArgParse.c:ZyanArgParseEx"]}
{"id": "C89", "title": "The error token is the offending argument", "statement": "When parsing fails and the caller asked for the error token, it is an argument of the command line (too many arguments), an argument that starts with a dash (not understood, value missing) or the name of a required option (required argument missing); the other errors leave it untouched.", "quantifier": "every argument vector, every configuration", "why_tests_cant": "all token sequences and configurations", "anchors": ["src/ArgParse.c:ZyanArgParseEx"]}
{"id": "C90", "title": "Collation and transformation agree", "statement": "Without a C library, comparing the results of strxfrm with strcmp orders strings as strcoll does, and strxfrm returns the length and writes within its buffer.", "quantifier": "every pair of terminated strings, every buffer size", "why_tests_cant": "all pairs and sizes", "anchors": ["include/Zycore/LibC.h:ZYAN_STRCOLL", "include/Zycore/LibC.h:ZYAN_STRXFRM"]}
{"id": "C91", "title": "Minimum, maximum and absolute value are exact", "statement": "The minimum and maximum macros return the smaller and the greater operand, the absolute-value macro returns the magnitude of a signed operand.", "quantifier": "every pair of values, signed or unsigned, of every width; every signed value", "why_tests_cant": "2^128 pairs, and the one value whose magnitude is not representable", "anchors": ["include/Zycore/Defines.h:ZYAN_MIN", "include/Zycore/Defines.h:ZYAN_MAX", "include/Zycore/Defines.h:ZYAN_ABS"]}
{"id": "C92", "title": "The version fields are recovered exactly", "statement": "The major, minor, patch and build macros recover the four 16-bit fields of every version number, and the reported version is 1.5.0.0.", "quantifier": "every 64-bit version number", "why_tests_cant": "2^64 version numbers", "anchors": ["include/Zycore/Zycore.h:ZYCORE_VERSION_MAJOR", "src/Zycore.c:ZycoreGetVersion"]}
{"id": "C93", "title": "Aligning up does not depend on the type of the alignment", "statement": "Aligning a 64-bit value up gives the next multiple also if the alignment is given as a 32-bit unsigned value.", "quantifier": "every 64-bit value, every 32-bit power-of-two alignment", "why_tests_cant": "2^64 values", "anchors": ["include/Zycore/Defines.h:ZYAN_ALIGN_UP"]}
{"id": "C94", "title": "Constructors refuse unusable arguments without side effects", "statement": "Initialising a vector, string, bitset, list or allocator with a missing allocator, buffer or callback, with element size zero, growth factor zero or (for caller buffers) capacity zero returns `INVALID_ARGUMENT`, does not call the allocator and does not touch the object; other arguments are not refused.", "quantifier": "every combination of arguments of every constructor", "why_tests_cant": "all combinations, and the absence of any side effect", "anchors": ["src/Vector.c:ZyanVectorInitEx", "src/List.c:ZyanListInitEx", "src/String.c:ZyanStringInitEx", "src/Bitset.c:ZyanBitsetInitEx", "src/Allocator.c:ZyanAllocatorInit"]}
{"id": "C95", "title": "A new container has the requested capacity", "statement": "A successfully created dynamic vector or string has at least the requested capacity, and its block really has room for its capacity.", "quantifier": "every element size and capacity over the full machine-word range", "why_tests_cant": "products over 2^128 argument pairs", "anchors": ["src/Vector.c:ZyanVectorInitEx", "src/String.c:ZyanStringInitEx", "src/Allocator.c:ZyanAllocatorDefaultAllocate"]}
{"id": "C96", "title": "Atomic operations are linearizable", "statement": "Any concurrent execution of atomic increments, decrements and compare-exchanges on one cell returns the values and leaves the final value of some sequential order of the same operations that keeps the order of each thread.", "quantifier": "every number of threads, every program of each thread, every schedule, every width of the cell", "why_tests_cant": "all schedules of all programs", "anchors": ["include/Zycore/Internal/AtomicGNU.h:ZyanAtomicIncrement64", "include/Zycore/Internal/AtomicGNU.h:ZyanAtomicDecrement64", "include/Zycore/Internal/AtomicGNU.h:ZyanAtomicCompareExchange64"]}
{"id": "C97", "title": "Changing the protection of memory is exact", "statement": "Changing the protection succeeds exactly if the address is aligned to a page, the range does not wrap around, all its pages are mapped and the system does not refuse; then each byte of the range permits exactly the accesses that the name of the protection promises. Pages outside of the range never change. Releasing memory unmaps exactly the pages of the range, and a failing release changes nothing.", "quantifier": "every page table, page size, address, size, protection and behaviour of the system", "why_tests_cant": "all page tables and ranges, and the absence of effects outside of the range", "anchors": ["src/API/Memory.c:ZyanMemoryVirtualProtect", "src/API/Memory.c:ZyanMemoryVirtualFree", "include/Zycore/API/Memory.h:ZyanMemoryPageProtection"]}
{"id": "C98", "title": "The page size is reported correctly", "statement": "The reported page size and allocation granularity equal the value of the system.", "quantifier": "every value that the system can return", "why_tests_cant": "2^64 values; a machine has one page size", "anchors": ["src/API/Memory.c:ZyanMemoryGetSystemPageSize", "src/API/Memory.c:ZyanMemoryGetSystemAllocationGranularity"]}
{"id": "C99", "title": "Terminal functions accept exactly the documented streams", "statement": "The terminal check answers true exactly for terminals, is an error exactly for closed descriptors and false otherwise, for each of the three standard streams; escape codes can be enabled exactly for the two output streams.", "quantifier": "every stream value, every state of the descriptors", "why_tests_cant": "2^32 stream values and all error numbers", "anchors": ["src/API/Terminal.c:ZyanTerminalIsTTY", "src/API/Terminal.c:ZyanTerminalEnableVT100"]}
{"id": "C100", "title": "Errors of the system are never reported as success", "statement": "Each function on critical sections, thread-local storage, memory and processes reports `SUCCESS` exactly if the system call succeeded, otherwise a status for which `ZYAN_FAILED` holds.", "quantifier": "every error number, every function", "why_tests_cant": "error numbers that a test cannot provoke", "anchors": ["src/API/Synchronization.c:ZyanCriticalSectionInitialize", "src/API/Synchronization.c:ZyanCriticalSectionDelete", "src/API/Thread.c:ZyanThreadTlsAlloc", "src/API/Thread.c:ZyanThreadTlsSetValue", "src/API/Process.c:ZyanProcessFlushInstructionCache"]}
{"id": "C101", "title": "Errors of the system are reported with the documented status", "statement": "Each error number of each system call used for critical sections and thread-local storage is turned into the status of a fixed table: missing memory and resources, missing permission, invalid arguments and invalid operations stay distinguishable, everything else is `BAD_SYSTEMCALL`.", "quantifier": "every error number, every system call, every state", "why_tests_cant": "error numbers that a test cannot provoke", "anchors": ["src/API/Synchronization.c:ZyanCriticalSectionInitialize", "src/API/Synchronization.c:ZyanCriticalSectionEnter", "src/API/Synchronization.c:ZyanCriticalSectionLeave", "src/API/Synchronization.c:ZyanCriticalSectionDelete", "src/API/Thread.c:ZyanThreadTlsAlloc", "src/API/Thread.c:ZyanThreadTlsSetValue"]}
{"id": "C102", "title": "Thread ids identify threads", "statement": "The id of the calling thread is always defined, differs from the ids of all other running threads, and does not change while the thread runs.", "quantifier": "every set of threads and every content of the memory", "why_tests_cant": "layouts of the thread block of other C libraries", "anchors": ["src/API/Thread.c:ZyanThreadGetCurrentThreadId", "src/API/Thread.c:ZyanThreadGetCurrentThread"]}
{"id": "C103", "title": "Destructors of thread-local values run at thread exit", "statement": "When a thread ends, the destructor of each index in use is called exactly once with the value that the thread stored last, if there is a destructor and the value is not null; no other call runs a destructor, in particular not the release of an index.", "quantifier": "every history of allocations, stores, releases and thread ends by any threads", "why_tests_cant": "all interleavings of threads, and the absence of calls", "anchors": ["src/API/Thread.c:ZyanThreadTlsAlloc", "src/API/Thread.c:ZyanThreadTlsFree", "include/Zycore/API/Thread.h:ZYAN_THREAD_DECLARE_TLS_CALLBACK"]}
{"id": "C104", "title": "Critical sections behave the same on Windows and POSIX", "statement": "For every sequence of attempts to enter, try to enter and leave by any threads, the same calls complete with the same results on both systems, unless a thread leaves a section that it is not inside of.", "quantifier": "every number of threads, every sequence of attempts", "why_tests_cant": "a test runs on one system only", "anchors": ["src/API/Synchronization.c:ZyanCriticalSectionEnter", "src/API/Synchronization.c:ZyanCriticalSectionTryEnter", "src/API/Synchronization.c:ZyanCriticalSectionLeave"]}
{"id": "C105", "title": "Thread-local storage behaves the same on Windows and POSIX", "statement": "Every history that only uses allocated indices has the same results on both systems if the systems grant all requests.", "quantifier": "every number of threads, every history", "why_tests_cant": "a test runs on one system only", "anchors": ["src/API/Thread.c:ZyanThreadTlsAlloc", "src/API/Thread.c:ZyanThreadTlsGetValue", "src/API/Thread.c:ZyanThreadTlsSetValue"]}
{"id": "C106", "title": "Releasing memory on Windows unmaps exactly the range", "statement": "A successful release unmaps exactly the mapped pages of the given range, and a failing one changes nothing.", "quantifier": "every set of regions, every address and size", "why_tests_cant": "all regions and sizes, and the absence of effects outside of the range", "anchors": ["src/API/Memory.c:ZyanMemoryVirtualFree"]}
{"id": "C107", "title": "Enabling escape codes on Windows changes one bit", "statement": "Enabling escape codes succeeds exactly for an output stream bound to a console that can be changed; then exactly the bit for escape codes is set in the mode of this console and every other bit and stream is unchanged; otherwise nothing changes.", "quantifier": "every console mode, every binding of the streams, every stream value", "why_tests_cant": "2^32 modes times 2^32 stream values", "anchors": ["src/API/Terminal.c:ZyanTerminalEnableVT100"]}
{"id": "C108", "title": "The loop over a vector visits each element once", "statement": "`ZYAN_VECTOR_FOREACH` runs its body once for each element that was in the vector before the loop, in order, and is defined whatever calls the body makes on the vector.", "quantifier": "every vector, every body", "why_tests_cant": "all bodies, including those that change the vector", "anchors": ["include/Zycore/Vector.h:ZYAN_VECTOR_FOREACH", "include/Zycore/Vector.h:ZYAN_VECTOR_GET"]}
{"id": "C109", "title": "The mutable loop over a vector replaces each element in place", "statement": "`ZYAN_VECTOR_FOREACH_MUTABLE` with the body `*item = f(*item)` replaces each element by its image without destroying elements or changing the capacity, and writing through the pointer is defined whatever calls the body made before.", "quantifier": "every vector, every function, every body", "why_tests_cant": "all vectors and functions, dangling pointers", "anchors": ["include/Zycore/Vector.h:ZYAN_VECTOR_FOREACH_MUTABLE", "src/Vector.c:ZyanVectorGetMutable"]}
{"id": "C110", "title": "Text handed out as a C string has the characters of the text", "statement": "The data pointer of a string or string view is a C string whose length, as `strlen` counts it, is the size of the text.", "quantifier": "every reachable string, every view", "why_tests_cant": "all texts, parts of texts and memory behind them", "anchors": ["src/String.c:ZyanStringGetData", "src/String.c:ZyanStringViewGetData", "include/Zycore/String.h:ZYAN_DEFINE_STRING_VIEW"]}
{"id": "C111", "title": "The short variants of duplicate and concatenate copy everything with the default parameters", "statement": "`ZyanStringDuplicate`, `ZyanStringConcat` and `ZyanVectorDuplicate` make a copy of all characters or elements, of at least the requested capacity, in the default allocator with growth factor 2 and shrink threshold 4.", "quantifier": "every text and reachable vector, every capacity", "why_tests_cant": "all lengths and capacities", "anchors": ["src/String.c:ZyanStringDuplicate", "src/String.c:ZyanStringConcat", "src/Vector.c:ZyanVectorDuplicate"]}
{"id": "C112", "title": "The atomic operations of both compilers give the same results", "statement": "For all programs of all threads and every schedule the atomic functions for GCC and for the Microsoft compiler leave the same value and return the same results, although the latter work on signed numbers and correct the result afterwards; both are linearizable.", "quantifier": "every word size, number of threads, programs and schedules", "why_tests_cant": "a test runs one compiler and few schedules", "anchors": ["include/Zycore/Internal/AtomicMSVC.h:ZyanAtomicCompareExchange32", "include/Zycore/Internal/AtomicMSVC.h:ZyanAtomicIncrement32", "include/Zycore/Internal/AtomicMSVC.h:ZyanAtomicDecrement32", "include/Zycore/Internal/AtomicGNU.h:ZyanAtomicIncrement32"]}
{"id": "C113", "title": "64-bit division is exact", "statement": "`ZYAN_DIV64(n, d)` leaves the quotient in `n`: the greatest number whose product with `d` is at most the old `n`.", "quantifier": "every dividend, every divisor other than zero, inside and outside of the Linux kernel", "why_tests_cant": "2^128 pairs, and the kernel variant is not built by tests", "anchors": ["include/Zycore/Defines.h:ZYAN_DIV64"]}
{"id": "C114", "title": "Each element is destroyed once even if the allocator refuses to shrink the memory", "statement": "If the allocator refuses to make the block of a vector smaller after elements were removed, the call reports this, the elements that were removed are gone, and every element is destroyed exactly once, by the call or later with the vector.", "quantifier": "every reachable vector, every removing operation, every refusing status", "why_tests_cant": "tests use an allocator that never refuses to shrink", "anchors": ["src/Vector.c:ZyanVectorResizeEx", "src/Vector.c:ZyanVectorDeleteRange", "src/Vector.c:ZyanVectorPopBack", "src/Vector.c:ZyanVectorClear", "src/Vector.c:ZyanVectorShrinkToFit", "src/Vector.c:ZyanVectorReallocate"]}
{"id": "C115", "title": "A string operation whose memory request is refused leaves the string as it was", "statement": "If the allocator refuses a request made by a string operation, the operation reports the allocator's status, the text is the one of before and terminated, and the string can still be used.", "quantifier": "every reachable string, every operation that changes the amount of storage, every refusing status", "why_tests_cant": "tests use an allocator that never refuses", "anchors": ["src/String.c:ZyanStringAppend", "src/String.c:ZyanStringAppendEx", "src/String.c:ZyanStringInsert", "src/String.c:ZyanStringInsertEx", "src/String.c:ZyanStringDelete", "src/String.c:ZyanStringTruncate", "src/String.c:ZyanStringClear", "src/String.c:ZyanStringResize", "src/String.c:ZyanStringReserve", "src/String.c:ZyanStringShrinkToFit"]}
{"id": "C116", "title": "Moving through a list from node to node visits every element", "statement": "The functions for the first and last node return the ends of the list, the functions for the next and previous node return the neighbour (null beyond the ends), and the data pointer of the i-th node shows the i-th element. A null node is rejected.", "quantifier": "every history of calls on every fresh list, every node", "why_tests_cant": "tests walk along few lists in one direction", "anchors": ["src/List.c:ZyanListGetHeadNode", "src/List.c:ZyanListGetTailNode", "src/List.c:ZyanListGetPrevNode", "src/List.c:ZyanListGetNextNode", "src/List.c:ZyanListGetNodeData", "src/List.c:ZyanListGetNodeDataEx", "include/Zycore/List.h:ZYAN_LIST_GET"]}
{"id": "C117", "title": "The short constructors use the default allocator and the documented parameters", "statement": "ZyanVectorInit and ZyanStringInit use the default allocator, growth factor 2 and shrink threshold 4; ZyanBitsetInit uses 2 and 2; ZyanListInit and ZyanArgParse use the default allocator. The result is an empty object with the requested capacity, or more where a minimum applies.", "quantifier": "every capacity, element size, bit count and argument list that fits", "why_tests_cant": "tests do not look at the growth parameters and cannot exchange the default allocator", "anchors": ["src/Vector.c:ZyanVectorInit", "src/String.c:ZyanStringInit", "src/Bitset.c:ZyanBitsetInit", "src/List.c:ZyanListInit", "src/ArgParse.c:ZyanArgParse"]}
{"id": "C118", "title": "Elements of the vector itself can be appended, inserted, set and used to fill", "statement": "If the element pointer passed to `ZyanVectorPushBack`, `ZyanVectorInsert`, `ZyanVectorInsertRange`, `ZyanVectorSet` or `ZyanVectorResizeEx` points to elements of the same vector, the call has the effect it would have with a pointer to a separate copy of these elements.", "quantifier": "every reachable vector, every position and range inside of it", "why_tests_cant": "whether the memory moves depends on the capacity, and released memory usually still holds the old elements", "anchors": ["src/Vector.c:ZyanVectorPushBack", "src/Vector.c:ZyanVectorInsert", "src/Vector.c:ZyanVectorInsertRange", "src/Vector.c:ZyanVectorSet", "src/Vector.c:ZyanVectorResizeEx"]}
{"id": "C119", "title": "The character at an index of any view can be read", "statement": "For every view object that shows a text, however it was made, `ZyanStringGetChar` returns the i-th character for an index inside of the text and refuses every other index.", "quantifier": "every text, every index, every sequence of view functions that produced the view", "why_tests_cant": "the result for a view without an element size depends on the contents of uninitialised memory", "anchors": ["src/String.c:ZyanStringGetChar", "src/String.c:ZyanStringViewInsideView", "src/String.c:ZyanStringViewInsideViewEx", "src/String.c:ZyanStringViewInsideBuffer", "src/String.c:ZyanStringViewInsideBufferEx", "include/Zycore/String.h:ZYAN_DEFINE_STRING_VIEW", "src/ArgParse.c:ZyanArgParseEx"]}
{"id": "C120", "title": "No assertion of the vector functions fails", "statement": "In a build with assertions, no history of calls on a properly created vector aborts the process because of a failed `ZYAN_ASSERT`, even if the allocator refuses requests, and the calls do the same as in a build without assertions.", "quantifier": "every growth factor and shrink threshold, every history of calls, every behaviour of the allocator, every index and element", "why_tests_cant": "release builds remove the assertions, and the failing ones need sizes beyond the memory of a test machine", "anchors": ["src/Vector.c:ZyanVectorReallocate", "src/Vector.c:ZyanVectorShiftLeft", "src/Vector.c:ZyanVectorShiftRight", "src/Vector.c:ZyanVectorInsertRange", "src/Vector.c:ZyanVectorEmplaceEx", "src/Vector.c:ZyanVectorResizeEx", "src/Vector.c:ZyanVectorDuplicateEx", "src/Vector.c:ZyanVectorDestroy", "include/Zycore/Defines.h:ZYAN_ASSERT"]}
{"id": "C121", "title": "No assertion of the string and formatting functions fails", "statement": "In a build with assertions, no call of the string and formatting functions on properly created strings and views aborts the process because of a failed `ZYAN_ASSERT`, and the calls do the same as in a build without assertions.", "quantifier": "every constructor, capacity, growth factor and shrink threshold, every history of calls, every text, number and format result, every behaviour of the allocator", "why_tests_cant": "release builds remove the assertions; the failing ones need a growth factor of 1, extreme capacities or a refused request", "anchors": ["src/String.c:ZyanStringInitEx", "src/String.c:ZyanStringDuplicateEx", "src/String.c:ZyanStringConcatEx", "src/String.c:ZyanStringInsert", "src/String.c:ZyanStringInsertEx", "src/String.c:ZyanStringClear", "src/String.c:ZyanStringViewGetSize", "src/String.c:ZyanStringGetChar", "src/Format.c:ZyanStringAppendFormat", "include/Zycore/Defines.h:ZYAN_ASSERT"]}
{"id": "C122", "title": "Every request to an allocator is proper", "statement": "Whatever is done with a vector, string, bitset, list or the argument parser, its allocator is only asked with an element size and a number of elements that are not zero; a block is only resized or given back while the container holds it, to the allocator it came from and with the element size it was requested with. What a container holds is what its data pointer denotes, a container on a buffer of the caller calls no allocator, and after it was destroyed it holds nothing.", "quantifier": "every constructor, every history of calls including sizes that overflow, every behaviour of the allocator", "why_tests_cant": "the default allocator ignores the sizes when it gives memory back, its assertions are removed in release builds, and refused requests need fault injection at every call", "anchors": ["src/Allocator.c:ZyanAllocatorDefaultAllocate", "src/Allocator.c:ZyanAllocatorDefaultReallocate", "src/Allocator.c:ZyanAllocatorDefaultDeallocate", "src/Vector.c:ZyanVectorInitEx", "src/Vector.c:ZyanVectorReallocate", "src/Vector.c:ZyanVectorDestroy", "src/String.c:ZyanStringDestroy", "src/Bitset.c:ZyanBitsetDestroy", "src/List.c:ZyanListAllocateNode", "src/List.c:ZyanListDeallocateNode", "src/List.c:ZyanListDestroy", "src/ArgParse.c:ZyanArgParseEx"]}
{"id": "C123", "title": "A bitset call whose memory request is refused leaves the bits as they were", "statement": "If the allocator refuses a request made by a bitset call, the call reports the allocator's status, the number of bits and their values are those of before, and the bitset can still be used.", "quantifier": "every reachable bitset on an allocator, every call that changes the amount of storage, every refusing status", "why_tests_cant": "tests use an allocator that never refuses", "anchors": ["src/Bitset.c:ZyanBitsetPush", "src/Bitset.c:ZyanBitsetPop", "src/Bitset.c:ZyanBitsetClear", "src/Bitset.c:ZyanBitsetReserve", "src/Bitset.c:ZyanBitsetShrinkToFit"]}
{"id": "C124", "title": "A missing pointer is rejected", "statement": "If the object, or any other pointer that is neither documented as optional nor passed as null by the library itself, is null, the exported function reports a failure, does not change anything and requests no memory; if all pointers are there the checks reject nothing.", "quantifier": "every exported function on vectors, strings, views, bitsets and lists, the constructors, copies and the argument parser, with every combination of null pointers and every state of the objects", "why_tests_cant": "the combinations of null pointers, arguments and states are too many to list, and the functions that forget a check crash only for some of them", "anchors": ["src/Vector.c", "src/String.c", "src/Format.c", "src/Bitset.c", "src/List.c", "src/ArgParse.c:ZyanArgParseEx"]}
{"id": "C125", "title": "A container that was only defined is inert", "statement": "A vector, string or list that was defined with its INITIALIZER macro and not initialised has no storage. Every call on it leaves it unchanged and touches no memory; it succeeds if it asks for nothing (destroying, clearing, sizes of zero) and reports a failure otherwise.", "quantifier": "every call of the vector and list functions and every argument, every text and index for strings", "why_tests_cant": "tests initialise their containers before they use them", "anchors": ["include/Zycore/Vector.h:ZYAN_VECTOR_INITIALIZER", "include/Zycore/String.h:ZYAN_STRING_INITIALIZER", "include/Zycore/List.h:ZYAN_LIST_INITIALIZER", "src/Vector.c:ZyanVectorResizeEx", "src/Vector.c:ZyanVectorReallocate", "src/String.c:ZyanStringAppend", "src/String.c:ZyanStringClear", "src/String.c:ZyanStringGetSize", "src/List.c:ZyanListAllocateNode"]}
{"id": "C126", "title": "The colour macros select the colours in their names and print nothing", "statement": "Written to a terminal, each ZYAN_VT100SGR macro selects the foreground or background colour in its name, or resets both, and leaves everything else alone; mixed with any text, exactly the text appears, each character in the colours selected before it. The macros are different from each other and contain no null character.", "quantifier": "every macro, every state of the colours, every sequence of macros and texts without ESC", "why_tests_cant": "tests would have to look at a terminal", "anchors": ["include/Zycore/API/Terminal.h:ZYAN_VT100SGR_RESET", "include/Zycore/API/Terminal.h:ZYAN_VT100SGR_FG_DEFAULT", "include/Zycore/API/Terminal.h:ZYAN_VT100SGR_FG_BLACK", "include/Zycore/API/Terminal.h:ZYAN_VT100SGR_BG_DEFAULT", "include/Zycore/API/Terminal.h:ZYAN_VT100SGR_BG_BRIGHT_WHITE"]}
{"id": "C127", "title": "Destroying a container a second time has no effect", "statement": "If a vector, string, bitset or list that was destroyed is destroyed once more, the call succeeds and has no effect: no element is destroyed again, no memory is given back again and no released memory is used.", "quantifier": "every reachable vector, string, bitset and list, every history of calls before, every treatment of null pointers by the allocator", "why_tests_cant": "whether the second call does harm depends on the destructor, the allocator, the number of elements and the assertions", "anchors": ["src/Vector.c:ZyanVectorDestroy", "src/String.c:ZyanStringDestroy", "src/Bitset.c:ZyanBitsetDestroy", "src/List.c:ZyanListDestroy", "src/Allocator.c:ZyanAllocatorDefaultDeallocate"]}
{"id": "C128", "title": "Parts of a string can be appended to it and inserted into it", "statement": "Appending or inserting a view of a part of a string does the same to the string as a view of a separate copy of that part, whatever the position and the storage; likewise if the string itself is passed as the view.", "quantifier": "every reachable string, every part of its text, every position, with and without an allocator", "why_tests_cant": "whether the text is still there when it is copied depends on the capacity, the shrink threshold and the positions", "anchors": ["src/String.c:ZyanStringAppend", "src/String.c:ZyanStringAppendEx", "src/String.c:ZyanStringInsert", "src/String.c:ZyanStringInsertEx", "include/Zycore/String.h:ZYAN_STRING_TO_VIEW", "src/Vector.c:ZyanVectorInsertRange"]}
{"id": "C129", "title": "No assertion of the bitset, list and argument parser functions fails", "statement": "In a build with assertions, no call of the bitset, list and argument parser functions on properly created containers aborts the process because of a failed `ZYAN_ASSERT`, even after allocators refused requests, and the calls do the same as in a build without assertions.", "quantifier": "all histories of calls on bitsets and lists, all sizes, positions and contents, all behaviours of the allocator, all configurations and arguments of the parser", "why_tests_cant": "release builds remove the assertions, and the states after refused requests, where the fields disagree with the memory, need fault injection at every call", "anchors": ["src/Bitset.c:ZyanBitsetInitVectorElements", "src/Bitset.c:ZyanBitsetPerformByteOperation", "src/List.c:ZyanListAllocateNode", "src/List.c:ZyanListDeallocateNode", "src/List.c:ZyanListDestroy", "src/List.c:ZyanListSetNodeData", "src/ArgParse.c:ZyanArgParseEx", "include/Zycore/Defines.h:ZYAN_ASSERT"]}
{"id": "C130", "title": "The vector keeps its elements byte for byte", "statement": "After any history of calls, the bytes of element k of a vector are the element_size bytes that start k * element_size bytes into its storage, and they are exactly the bytes that were given for this element; the address and length computations of the source, done in machine words, never touch another byte.", "quantifier": "every reachable vector, every element size, every history of calls, also with pointers into the storage; every content of the elements", "why_tests_cant": "tests use few element sizes, and products of index and element size that wrap need sizes that cannot be allocated", "anchors": ["src/Vector.c:ZYCORE_VECTOR_OFFSET", "src/Vector.c:ZyanVectorShiftLeft", "src/Vector.c:ZyanVectorShiftRight", "src/Vector.c:ZyanVectorReallocate", "src/Vector.c:ZyanVectorInsertRange", "src/Vector.c:ZyanVectorSwapElements", "src/Vector.c:ZyanVectorResizeEx", "src/Allocator.c:ZyanAllocatorDefaultReallocate"]}
{"id": "C131", "title": "Swapping two elements is defined by the C standard for every vector", "statement": "In a vector with spare capacity, swapping the elements at any two positions, equal or not, has defined behaviour and exchanges exactly the bytes of the two elements.", "quantifier": "every reachable vector with spare capacity, every element size, every two positions, every address of the storage", "why_tests_cant": "copying an element onto itself and pointers that are not aligned for their type usually do no visible harm on the machines tests run on", "anchors": ["src/Vector.c:ZyanVectorSwapElements", "src/Vector.c:ZYCORE_VECTOR_OFFSET", "include/Zycore/LibC.h:ZYAN_MEMCPY"]}
{"id": "C132", "title": "Numbers are written the same way on all targets", "statement": "The functions that append decimal and hexadecimal numbers produce the same text, the same status and the same storage, whether the library is built for a target with 64-bit registers or for one where it uses the 32-bit functions for small values.", "quantifier": "every 64-bit value, every padding, both letter cases, all sign options and prefixes, every string in every state", "why_tests_cant": "a test run sees one target, and the two functions differ exactly at values around 2^32", "anchors": ["src/Format.c:ZyanStringAppendDecU", "src/Format.c:ZyanStringAppendHexU", "src/Format.c:ZyanStringAppendDecS", "src/Format.c:ZyanStringAppendHexS", "src/Format.c:ZyanStringAppendDecU32", "src/Format.c:ZyanStringAppendHexU32"]}
{"id": "C133", "title": "String functions do not depend on whether char is signed", "statement": "Searching, comparing and converting case give the same results where `char` is a signed type and where it is an unsigned type.", "quantifier": "every two texts, every range, every string", "why_tests_cant": "a test run sees one target, and the texts that matter contain characters from 128 on", "anchors": ["src/String.c:ZyanStringCompare", "src/String.c:ZyanStringCompareI", "src/String.c:ZyanStringLPosEx", "src/String.c:ZyanStringLPosIEx", "src/String.c:ZyanStringRPosEx", "src/String.c:ZyanStringRPosIEx", "src/String.c:ZyanStringToLowerCaseEx", "src/String.c:ZyanStringToUpperCaseEx"]}
{"id": "C134", "title": "Every build is recognised in exactly one way", "statement": "Whatever macros the compiler and the command line predefine, Defines.h either stops with an error, exactly when none of the macros of a known architecture is defined, or defines exactly one compiler, exactly one family of operating systems, at most one operating system, exactly one architecture, exactly one of user and kernel mode and exactly one of debug and release; each is the first in its table whose predefined macros are defined; no other macro changes.", "quantifier": "for all assignments of values to the predefined macros that leave the macros of the library alone", "why_tests_cant": "There are more than forty predefined macros, each defined or not, and a test suite runs on a handful of compilers; an overlap such as Clang also defining __GNUC__, or a second macro of a group left defined, shows only on the combination that has it.", "anchors": ["include/Zycore/Defines.h:64-175"]}
{"id": "C135", "title": "Assertions are checked exactly in debug builds", "statement": "ZYAN_ASSERT checks its condition in every build that the library calls a debug build and in no build that it calls a release build; in debug builds ZYAN_UNREACHABLE ends or stops the program.", "quantifier": "for all assignments of values to the predefined macros that Defines.h accepts", "why_tests_cant": "A suite is run in one or two configurations; whether a failing assertion is noticed in the others depends on two unrelated pairs of macros (_DEBUG and NDEBUG) that only disagree in builds nobody tests.", "anchors": ["include/Zycore/Defines.h:161-175", "include/Zycore/Defines.h:275-283", "include/Zycore/Defines.h:302-330"]}
{"id": "C136", "title": "Every declared function is defined in every configuration", "statement": "In every configuration of compiler, system, architecture and C library that the headers accept, each function that a header declares, and each function or macro of the library that the text of a function uses, is defined exactly once; and the headers accept exactly the documented configurations.", "quantifier": "for all assignments of values to the predefined macros for which no error is raised", "why_tests_cant": "A missing definition is an error of the linker in the one configuration, and only for a program that calls the function; the suite builds few configurations and calls only what it tests.", "anchors": ["include/Zycore/Format.h:76-172", "include/Zycore/List.h:260-309", "src/Format.c:86-131", "src/Format.c:426-435", "include/Zycore/LibC.h:35-508", "include/Zycore/Types.h:40-143"]}
{"id": "C137", "title": "Atomic operations exist for every supported target", "statement": "On every target that the library accepts, including Atomic.h declares and defines, exactly once each, the nine atomic operations.", "quantifier": "for all assignments of values to the predefined macros that Defines.h accepts", "why_tests_cant": "The header is only compiled on the targets of the build machines; the combination of one compiler with one architecture that reaches the error is not among them.", "anchors": ["include/Zycore/Atomic.h:224-230", "include/Zycore/Internal/AtomicMSVC.h:41-87", "include/Zycore/Internal/AtomicGNU.h:41-109"]}
{"id": "C138", "title": "Only the promised integer types are accepted", "statement": "The static assertions of Types.h hold exactly when every integer type has the size and the signedness its name promises (the size and pointer types the size of a pointer).", "quantifier": "for all sizes and signs of all twelve types and all sizes of pointers", "why_tests_cant": "The assertions hold wherever the library compiles; a test cannot compile it with types for which they should fail.", "anchors": ["include/Zycore/Types.h:244-261"]}
{"id": "C139", "title": "Vectors cost constant time per element", "statement": "Over any history of requests, the number of elements for which a dynamic vector asks the allocator to find a new place is at most a constant times the number of elements the requests add, remove or ask room for, plus a constant times the initial capacity, where the constants only depend on the growth factor.", "quantifier": "for all growth factors and shrink thresholds, reachable vectors and histories of requests", "why_tests_cant": "Amortised bounds speak about all interleavings of growing and shrinking; a test sees single histories, and a vector that thrashes between two capacities still returns the right elements.", "anchors": ["src/Vector.c:38-66", "src/Vector.c:84-119", "src/Vector.c:598-604", "src/Vector.c:624-630", "src/Vector.c:752-804", "include/Zycore/Vector.h:49-64"]}
{"id": "C140", "title": "Inserting where binary search says keeps a vector sorted", "statement": "Inserting values one after the other at the index that ZyanVectorBinarySearch reports, as the example program does, leaves a sorted vector with exactly the old and the new elements; equal elements end up in reverse order of insertion; a fixed vector takes as many as fit and then reports insufficient space.", "quantifier": "for all sorted vectors, comparisons of total preorders and sequences of values", "why_tests_cant": "The example prints the elements of one random run without checking them; comparisons with ties and vectors that fill up are not tried.", "anchors": ["examples/Vector.c:169-201", "src/Vector.c:687-741", "src/Vector.c:446-482"]}
{"id": "C141", "title": "Until an allocator refuses something, a vector does not notice which allocator it has", "statement": "Calls on a vector return the same statuses, leave the same elements and make the same requests with every allocator, up to the first request that is refused; the call that made this request returns exactly what the allocator answered. If no request is refused, this holds for all calls.", "quantifier": "for all histories of calls and all sequences of answers of the allocator", "why_tests_cant": "A test allocator refuses at chosen points; the statement is about every point of every history, and about everything that happened before the refusal.", "anchors": ["src/Vector.c:84-119", "src/Vector.c:394-631", "src/Vector.c:752-814", "include/Zycore/Allocator.h:60-100"]}
{"id": "C142", "title": "The example program is correct whatever the random numbers and the allocators do", "statement": "The program examples/Vector.c has no undefined behaviour. It makes eight requests to allocators. If none of them is refused, it exits with success, prints the expected elements with the drawn numbers in ascending order and has returned all memory; otherwise it exits with failure after printing a part of this.", "quantifier": "for all sequences of random numbers and all sequences of answers of the allocators", "why_tests_cant": "The program draws other numbers at every start, and nobody runs it with an allocator that refuses; its output is not compared with anything.", "anchors": ["examples/Vector.c:48-72", "examples/Vector.c:89-132", "examples/Vector.c:146-221", "examples/Vector.c:228-256", "examples/Vector.c:262-367", "examples/Vector.c:375-394"]}
{"id": "C143", "title": "Strings do the same with every allocator until the first refusal", "statement": "Take calls on a string (appending, inserting, deleting, truncating, clearing, setting characters, case conversion, resizing, reserving, shrinking, number formatting with sign and prefix, printf-style formatting) that are defined with an allocator that grants every request. With any other allocator the same calls return the same statuses and leave the same string, memory and request trace, up to the first call for which a request is refused; that call returns the status of the first refusal. In particular the string behaves like a sequence of characters and stays terminated until then.", "quantifier": "for all strings, all sequences of these calls and all sequences of allocator answers", "why_tests_cant": "The allocator can refuse at any of arbitrarily many requests, and a single call may make several of them.", "anchors": ["src/String.c:64-118", "src/String.c:372-549", "src/String.c:935-1052", "src/Format.c:87-503", "src/Vector.c:86-125"]}
{"id": "C144", "title": "Bitsets do the same with every allocator until the first refusal", "statement": "Take calls on a bitset (pushing, popping, setting, resetting, assigning, toggling, setting all, resetting all, flipping, clearing, reserving, shrinking, logical operations with another bitset) that are defined with an allocator that grants every request. With any other allocator the same calls return the same statuses and leave the same bitset, memory and request trace, up to the first call for which a request is refused; that call returns the status of the refusal.", "quantifier": "for all bitsets, all sequences of these calls and all sequences of allocator answers", "why_tests_cant": "The allocator can refuse at any of arbitrarily many requests.", "anchors": ["src/Bitset.c:196-461", "src/Vector.c:86-125"]}
{"id": "C145", "title": "Vectors that share allocators do not influence each other", "statement": "Take a program that works with any number of vectors: it creates them with allocators or on its own buffers, duplicates them, calls functions on them and destroys them, in any order. It has no undefined behaviour, each call returns what it would return if its vector were the only one, each vector has the elements of a list of its own, no two of the vectors that are alive have the same memory block, each of them has exactly its live block in the heap of the allocators, and when all vectors are destroyed the heap is empty.", "quantifier": "for all programs whose calls respect the documented preconditions, all element types, and all allocators that grant requests", "why_tests_cant": "Tests use one or two vectors. Interference between objects depends on which blocks the allocator hands out and on the interleaving of the calls.", "anchors": ["src/Vector.c:86-250", "src/Vector.c:394-631", "src/Vector.c:752-814", "src/Allocator.c:60-120"]}
{"id": "C146", "title": "Vectors, strings and bitsets that share allocators do not influence each other", "statement": "Take a program that works with any number of byte vectors, strings and bitsets: it creates them with allocators or on its own buffers, copies and concatenates them, calls functions on them, uses one as the source of an operation on another and destroys them, in any order. It has no undefined behaviour, each call does what it would do if its object were the only one, no two of the objects that are alive have the same memory block, each of them has exactly its live block in the heap of the allocators, and when all objects are destroyed the heap is empty.", "quantifier": "for all programs whose calls respect the documented preconditions, and all allocators that grant requests", "why_tests_cant": "Tests use one or two objects. Interference between objects depends on which blocks the allocator hands out and on the interleaving of the calls.", "anchors": ["src/Vector.c:86-250", "src/Vector.c:394-814", "src/String.c:64-243", "src/String.c:372-549", "src/Bitset.c:142-461"]}
{"id": "C147", "title": "Programs whose allocators may refuse never mix up or lose memory", "statement": "Take a program that works with any number of vectors, strings and bitsets, with any arguments, and with allocators that may grant or refuse every single request; the program goes on after failures and may repeat a failed destruction. As long as its calls return, every request is proper: sizes and numbers are not zero, a block is moved or given back only while it is in use, to the allocator it came from, with the size of an element and the number of elements it was handed out with; no two objects that exist are in the same memory; the blocks in use are exactly those of the existing objects with an allocator; and none is in use when all objects are destroyed.", "quantifier": "for all programs, all arguments and all answers of the allocators", "why_tests_cant": "The number of failure patterns is exponential in the number of requests; tests run with the default allocator, which practically never refuses.", "anchors": ["src/Vector.c:86-250", "src/Vector.c:394-631", "src/Vector.c:752-814", "src/String.c:87-340", "src/Bitset.c:139-290", "src/Allocator.c:60-120"]}
{"id": "C148", "title": "Data guarded by a critical section changes as if the threads took turns", "statement": "Threads access shared data in sections that begin with entering a critical section (waiting for it, or trying in a loop) and end with leaving it. A section consists of any number of steps, between which the threads are interleaved arbitrarily, and may itself enter and leave the critical section again. There is an order of the sections, which only grows with time and keeps the order of each thread, such that at every moment the data and the variables of the threads are as if whole sections were executed in this order, up to a part of one section of the one thread that is inside. No call for the critical section fails, the threads can always finish, and a counter that is incremented in sections loses no increment. A thread that enters the critical section more often than the system permits, or leaves it once too often, gets a failure; if it tries to enter in a loop, the loop never ends, as the result does not tell an exhausted depth from a section that is taken.", "quantifier": "for all numbers of threads, all programs of properly nested sections, and all interleavings", "why_tests_cant": "The number of interleavings is exponential, and a test cannot choose the schedule.", "anchors": ["src/API/Synchronization.c:55-153"]}
{"id": "C149", "title": "Search, delete and insert replace all occurrences of a text", "statement": "The usual loop that searches a text from a position on, deletes what it finds, inserts another text there and continues behind it ends after finitely many rounds with the string in which exactly the occurrences of the text, taken from the left and without overlaps, are replaced.", "quantifier": "for all strings with an allocator, all texts to search (not empty, without NUL) and all replacements, up to the size of the machine word", "why_tests_cant": "Occurrences may overlap, appear at the ends, or appear newly by the replacement; tests try a few texts.", "anchors": ["src/String.c:392-415", "src/String.c:496-513", "src/String.c:566-618"]}
{"id": "C150", "title": "Changes of a string can be undone", "statement": "Inserting a text and deleting as many characters at its place, appending a text and truncating the string at its old length, and deleting a range and inserting its characters again restore the text of the string.", "quantifier": "for all strings that can be reached by calls of the library, all positions and all texts that fit", "why_tests_cant": "Round trips have to hold for all positions and all lengths, at all capacities and growth factors.", "anchors": ["src/String.c:392-545"]}
{"id": "C151", "title": "Formatted numbers compare as the numbers do", "statement": "When two strings have the same text and an unsigned number is appended to each, in the same base, with the same padding and letter case, then comparing the strings answers below, equal or above exactly as the numbers compare. (Comparing decides by the length first, which is what makes numbers of different lengths come out right.) Two negative numbers, appended with their sign, compare the wrong way round.", "quantifier": "for all 64-bit numbers, all paddings, and all texts in front of the numbers", "why_tests_cant": "The comparison looks at the length first and then at characters with bit 5 set; whether this agrees with the order of the numbers for all pairs cannot be tried out.", "anchors": ["src/String.c:835-879", "src/Format.c:133-176", "src/Format.c:254-323"]}
{"id": "C152", "title": "Programs that combine bitsets work position by position", "statement": "A program that combines any number of bitsets of the same size with AND, OR and XOR (also a bitset with itself) and complements, sets or resets whole bitsets succeeds, and at every position it does exactly what the same program does with single booleans. Two programs that are equivalent for booleans are therefore equivalent for bitsets.", "quantifier": "for all numbers and sizes of bitsets that programs can obtain, and programs of any length", "why_tests_cant": "Laws such as De Morgan's, or exchanging two bitsets with three XORs, have to hold for every size, whatever is behind the last bit.", "anchors": ["src/Bitset.c:104-120", "src/Bitset.c:196-258", "src/Bitset.c:365-401"]}
{"id": "C153", "title": "Counts of combined bitsets add up", "statement": "For two bitsets of the same size, the counts of their conjunction and disjunction add up to the counts of the two bitsets, the count of the exclusive or is what remains when the common bits are taken away twice, and a bitset and its complement have together as many set bits as there are bits.", "quantifier": "for all bitsets that programs can obtain", "why_tests_cant": "The count includes bits behind the last valid one; tests rarely combine bitsets after popping bits.", "anchors": ["src/Bitset.c:196-258", "src/Bitset.c:509-536"]}
{"id": "C154", "title": "A sorted vector serves as a dictionary", "statement": "A program that stores, discards and looks up entries of a strictly ascending vector, each time at the place where binary search found the key or where it belongs, succeeds and answers every lookup as a dictionary would: with the entry stored last for this key, unless it was discarded since. The vector stays strictly ascending, and when equal keys mean equal entries, what it holds does not depend on the order of the stores.", "quantifier": "for all programs of any length, all comparisons of a total preorder, all vectors with an allocator that programs can obtain", "why_tests_cant": "The index that binary search returns for a missing key has to be right for every number of elements, together with the moves of insert and delete and the changes of capacity.", "anchors": ["src/Vector.c:330-341", "src/Vector.c:394-416", "src/Vector.c:446-492", "src/Vector.c:568-605", "src/Vector.c:687-741"]}
{"id": "C155", "title": "Reference counts destroy an object exactly once", "statement": "Owners share an object that has a reference count; an owner takes another reference with an increment, and gives one back with a decrement, after which it destroys the object if the result was zero. If no owner does anything without a reference, the object is destroyed at most once, never used afterwards, and nothing is begun after its destruction; it is destroyed exactly when all references were given back.", "quantifier": "for all numbers of owners and references, programs of any length, and all interleavings", "why_tests_cant": "A decrement whose result is computed from a later read would be right in almost every run.", "anchors": ["include/Zycore/Internal/AtomicGNU.h:47-105"]}
{"id": "C156", "title": "A spin lock built on compare-exchange excludes", "statement": "Threads that repeat compare-exchange of 0 by 1 until it returns 0, and unlock with a compare-exchange of 1 by 0 or with a decrement, are never two at a time between locking and unlocking. What they do to ordinary shared data in between takes effect as if one thread ran after the other, nothing is lost or done twice, and the threads can always complete their programs.", "quantifier": "for all numbers of threads, programs of any length, and all interleavings", "why_tests_cant": "Mutual exclusion fails only in rare interleavings.", "anchors": ["include/Zycore/Internal/AtomicGNU.h:47-105"]}
{"id": "C157", "title": "Updates by repeated compare-exchange are atomic and make progress", "statement": "Threads that apply functions to an atomic variable by repeating compare-exchange until it returns the expected value apply every function exactly once, each thread in its order, as if the functions were atomic operations of their own. No thread waits for another one: a thread is through after two steps for every function of all threads, and two more, whatever the others do.", "quantifier": "for all functions, numbers of threads, initial guesses, and all interleavings", "why_tests_cant": "Whether compare-exchange returns the old value also when it fails decides about progress only under contention.", "anchors": ["include/Zycore/Internal/AtomicGNU.h:47-52", "include/Zycore/Internal/AtomicGNU.h:69-74", "include/Zycore/Internal/AtomicGNU.h:90-95"]}
{"id": "C158", "title": "Command lines can be written one behind the other", "statement": "If two command lines are parsed successfully with the same option definitions and the first one has no token `--`, then the parse of both written one behind the other succeeds, as long as its limits on unnamed arguments are not stricter than the sums of the two limits, and its output is the output of the first followed by the output of the second. If neither has a token `--`, exchanging them permutes the output. Wider limits on unnamed arguments do not change the output of an accepted command line.", "quantifier": "for all option definitions, command lines, limits, program names and allocators", "why_tests_cant": "Parsing state that leaks from one token to a later one shows only in combinations of tokens.", "anchors": ["src/ArgParse.c:44-277"]}
{"id": "C159", "title": "Strings cost constant time per character", "statement": "Over any history of requests, the number of bytes for which a dynamic string asks the allocator to find a new place is at most a constant times the number of characters the requests add, remove or ask room for, plus a constant times the initial storage, where the constants only depend on the growth factor.", "quantifier": "for all growth factors and shrink thresholds, reachable strings and histories of requests", "why_tests_cant": "Amortised bounds speak about all interleavings of growing and shrinking; a string that thrashes between two capacities still has the right text.", "anchors": ["src/String.c:392-549", "src/String.c:1021-1052", "src/Vector.c:38-56", "src/Vector.c:84-119", "src/Vector.c:752-804", "include/Zycore/String.h:54-62"]}
{"id": "C160", "title": "Destructors may modify the elements they destroy", "statement": "Whatever a destructor writes to the element it is called for, depending on the element and on everything that happened before, a vector behaves like the list of its elements: statuses, elements, size, capacity, the elements handed to the destructor and their order do not depend on it. In a caller buffer the slots of removed elements then hold exactly what the destructor left there, unless elements from behind have moved up. An element that is set to itself is destroyed first: the vector keeps what the destructor left of it.", "quantifier": "for all destructors, reachable vectors, histories of requests and positions", "why_tests_cant": "A test has one destructor; that no freed or overwritten element is read again later has to hold for all destructors and all later calls.", "anchors": ["src/Vector.c:236-263", "src/Vector.c:394-416", "src/Vector.c:573-636", "src/Vector.c:752-789", "tests/Vector.cpp:125-136"]}
{"id": "C161", "title": "The tests of the library, for all sizes and values", "statement": "The tests of the vector in tests/Vector.cpp, which the library runs with 100 elements, fixed values and one sequence of random numbers, pass for all sizes and all values on vectors with an allocator and on vectors in a caller buffer: initialisation with all element sizes, capacities and growth factors; destructors for all buffers of four or more elements; growing and shrinking with any number of elements; element access and push and pop for every size from one on; insertion of any elements that fit; binary search with all sequences of random numbers; emplacing any number of elements; swapping for every size from three on. The test of searching passes for exactly those values that are not below the size. The test of deletion passes for exactly those sizes that are divisible by four, because what it expects of the elements behind the gap is wrong for other sizes.", "quantifier": "all numbers of elements that fit into memory, all element values, all random sequences, both kinds of vectors", "why_tests_cant": "the test suite runs each of these tests for one size, one set of values and one random seed", "anchors": ["tests/Vector.cpp:49-522", "src/Vector.c:183-741", "tests/ArgParse.cpp:60-308"]}
{"id": "C162", "title": "Lists that share the memory do not influence each other", "statement": "A program that creates any number of lists with their own element sizes, allocators and destructors in one memory, works with them in any order, copies elements from one to another and destroys them, does what it would do with separate queues: every call returns the same status, every list shows the elements of its queue from both ends, the destructors receive the same elements in the same order, and no call is undefined, whichever requests for memory are refused. A call for one list leaves the structure and the elements of every other list as they were. The nodes that are allocated are at any time exactly those of the existing lists, each once, with the allocator and the size of the list they belong to; after all lists have been destroyed nothing is left.", "quantifier": "all numbers of lists, all element sizes, all histories of operations, all patterns of refused requests", "why_tests_cant": "the library has no test of the list, and interference needs particular interleavings of calls and refusals", "anchors": ["src/List.c:60-672"]}
{"id": "C163", "title": "Bitsets cost constant time per byte", "statement": "Every history of requests on a bitset asks the allocator to find a new place for a number of bytes that is proportional to the bytes the caller added, removed or asked room for, plus the initial capacity. The factor is the square of the growth factor.", "quantifier": "all bitsets, all growth factors and shrink thresholds, all histories in the domain of the specification", "why_tests_cant": "a test would have to run long histories and count the bytes that are moved; the tests of the library do not use bitsets at all", "anchors": ["src/Bitset.c:34-35", "src/Bitset.c:134-155", "src/Bitset.c:407-461", "src/Vector.c:42-55", "src/Vector.c:426-450", "src/Vector.c:605-632"]}
{"id": "C164", "title": "The order and number of option definitions do not matter", "statement": "An option is understood in the same way wherever its definition stands among the others and whichever options that are not required are defined besides it: an accepted command line stays accepted and its parsed options refer to the same definitions with the same values; a rejected one is rejected with the same status for every order of the definitions, and with the same error token unless required options are missing.", "quantifier": "all lists of definitions, all orders, all command lines", "why_tests_cant": "a test fixes one list of definitions; the effect of an added or moved definition on other options is a relation between two runs", "anchors": ["src/ArgParse.c:61-81", "src/ArgParse.c:111-119", "src/ArgParse.c:161-171", "src/ArgParse.c:236-266"]}
{"id": "C165", "title": "Without the C library the integer types and limits are right on every compiler", "statement": "In no-libc mode, on every compiler whose predefined macros mean what their names say, whichever of them it predefines, the header compiles, its twelve integer types have the promised sizes and signs, and the twelve limit macros are the exact least and greatest values, computed without overflow.", "quantifier": "all compilers: all subsets of the twenty predefined type and limit macros, all combinations of compiler and target names, four or eight bytes for long and for pointers", "why_tests_cant": "a build tests one compiler on one target with its set of predefined macros; most fallback branches are never compiled by any current compiler", "anchors": ["include/Zycore/Types.h:40-212", "include/Zycore/Types.h:244-261"]}
{"id": "C166", "title": "Texts can be split at a separator and joined again", "statement": "A program that searches a separator again and again with the library finds exactly the pieces of a text between its occurrences, taken from the left, and ends. A program that appends pieces with a separator between them builds exactly that text. Joining the pieces of a text with the same separator copies it, with another separator it replaces the separators; splitting joined pieces gives them back. This holds whether the pieces are handed on as positions and lengths or as views.", "quantifier": "all texts, all separators, all strings with an allocator, all pieces", "why_tests_cant": "a test splits a few texts; overlapping, adjacent and missing separators of any length and empty pieces at both ends are covered only by an argument about all texts", "anchors": ["src/String.c:566-618", "src/String.c:453-490", "src/String.c:252-279"]}
{"id": "C167", "title": "An accepted command line has a normal form that is parsed the same way", "statement": "Whenever the parser accepts a command line, the list it delivers can be written down again as a command line: every option by its name, followed by its value as a token of its own, then `--`, then the unnamed arguments. The parser accepts this normal form with the same definitions and limits, and delivers the same options in the same order, followed by the same unnamed arguments in the same order; the normal form of that list is the same normal form.", "quantifier": "all configurations, all accepted command lines, all worlds", "why_tests_cant": "a test renders a few parsed command lines; that every way to write an option - cluster, value attached, value apart, value that looks like an option - has the same normal form needs an induction over all command lines", "anchors": ["src/ArgParse.c:44-265"]}
{"id": "C168", "title": "Users see the library the way it was built", "statement": "The functions of a shared library are declared as exported when the library is compiled and as imported when its users are; those of a static library as neither; and users compile without the C library exactly if the library was. This holds for every combination of options, with CMake and with Meson, and whatever else is defined for library and users. Projects with the old names of the two macros get the same.", "quantifier": "all options, all compilers (as sets of predefined macros), all further definitions", "why_tests_cant": "a test builds a few combinations with one compiler; the combinations of tool, kind of library, C library and compiler are rarely built, and those that break only do so at the linker of the user", "anchors": ["CMakeLists.txt:115-142", "meson.build:94-146", "include/Zycore/Defines.h:64-78", "include/Zycore/Defines.h:193-237"]}
{"id": "C169", "title": "CMake and Meson build the same library", "statement": "For the same options, the two build files compile the same source files - all of them -, define the same of the macros that the sources test, give the same flags to compiler and linker, link the thread library in the same cases, build examples and tests in the same cases, and give the shared library the same name.", "quantifier": "all options", "why_tests_cant": "each tool is tested on its own; nothing compares the two", "anchors": ["CMakeLists.txt:115-198", "CMakeLists.txt:258-299", "meson.build:1-151", "cmake/zyan-functions.cmake:5-14", "examples/meson.build:1-6", "tests/meson.build:1-5"]}
{"id": "C170", "title": "Entering critical sections in the same order never leads to a deadlock", "statement": "Threads share any number of critical sections. If each thread enters them in the order of their numbers - by waiting or by trying again and again, and possibly re-entering those that it is inside of -, then no call ever fails, at each moment some unfinished thread can go on, and all threads can finish. Two threads that enter two sections in opposite orders can block each other for good, whatever the others do.", "quantifier": "all numbers of threads and sections, all programs that keep the order, all interleavings", "why_tests_cant": "a deadlock needs a particular interleaving; tests of threads see a few of infinitely many", "anchors": ["src/API/Synchronization.c:55-153"]}
{"id": "C171", "title": "Programs with critical sections behave alike on Windows and on POSIX systems", "statement": "A program whose threads guard data with a critical section, with proper nesting within some limit, is at each moment in the same state on Windows as on a POSIX system with that limit, whatever the interleaving; in particular no increment of a guarded counter is lost. Threads that enter several sections in the same order never deadlock on Windows and never run into undefined behaviour. On Windows the depth of nesting is not limited: any depth is entered and left without failure, where a POSIX system refuses.", "quantifier": "all numbers of threads, all programs that keep the rules, all interleavings, all depths", "why_tests_cant": "the two branches are never compiled together, so no test compares them under the same interleaving", "anchors": ["src/API/Synchronization.c:55-197"]}
{"id": "C172", "title": "Under a fair schedule every thread comes to its end", "statement": "Threads that guard data with a critical section, threads that enter several critical sections in the same order, and threads that use a spin lock built on compare-exchange: in every endless schedule in which each thread gets its turn again and again there comes a moment from which on all threads have finished, however often they had to wait or to try again; as many rounds as the programs have steps are enough (twelve for each function with the spin lock). Without fairness a thread may wait for ever.", "quantifier": "all numbers of threads, all programs that keep the rules, all endless fair schedules", "why_tests_cant": "starvation is a property of endless executions; a test sees finite ones", "anchors": ["src/API/Synchronization.c:55-197", "include/Zycore/Internal/AtomicGNU.h:47-105"]}
{"id": "C173", "title": "Vectors behave the same on targets with another width of size_t", "statement": "On every target whose size_t has at most 2^64 values (32-bit targets, for example), every history of vector calls whose sizes fit into that size_t is free of undefined behaviour, returns the statuses of the list specification and ends with the same elements, size, capacity, allocator calls and destructor calls as on a wider target; linear and binary search compare the same elements. Beyond that the targets differ: a reservation whose byte size fits into 64 bits but not into the narrow size_t reports the same capacity but has fewer slots, and a deletion whose range wraps only on the narrow target is rejected on one target and not on the other.", "quantifier": "all widths up to 64 bits, all reachable vectors, all histories, all requests", "why_tests_cant": "test runs use one target, and sizes near the limit of size_t cannot be allocated", "anchors": ["include/Zycore/Types.h:54-60", "include/Zycore/Types.h:111-116", "src/Vector.c:84-830", "src/Allocator.c:40-77"]}
{"id": "C174", "title": "Strings behave the same on targets with another width of size_t", "statement": "On every target whose size_t has at most 2^64 values (32-bit targets, for example), every history of string calls whose sizes fit into that size_t is free of undefined behaviour, returns the statuses of the text specification and ends with the same text, terminating NUL, size, capacity and allocator calls as on a wider target; left searches and comparisons give the same results. Beyond that the targets differ: a case conversion whose index + count wraps only on the narrow target is rejected on the wide one and reports a success without any conversion on the narrow one, and a deletion with such a range is rejected on one target and not on the other.", "quantifier": "all widths up to 64 bits, all reachable strings, all histories, all requests", "why_tests_cant": "test runs use one target, and ranges that wrap around size_t differ between targets", "anchors": ["include/Zycore/Types.h:54-60", "src/String.c:37-38", "src/String.c:64-243", "src/String.c:372-1082"]}
{"id": "C175", "title": "Bitsets behave the same on targets with another width of size_t", "statement": "On every target whose size_t has at most 2^64 values (32-bit targets, for example), every history of bitset calls whose sizes fit into that size_t is free of undefined behaviour, returns the statuses of the specification and ends with the same bits, capacity and allocator calls as on a wider target; the number of set bits and the tests of the last bit and of all bits have the same answers. The reported capacity in bits is right exactly as long as eight times the capacity in bytes fits into size_t; beyond that a narrow target reports less than the bitset can hold.", "quantifier": "all widths up to 64 bits, all reachable bitsets, all histories, all requests", "why_tests_cant": "test runs use one target, and capacities near the limit of size_t are not tested", "anchors": ["include/Zycore/Types.h:54-60", "src/Bitset.c:48-59", "src/Bitset.c:87-180", "src/Bitset.c:348-632"]}
{"id": "C176", "title": "Lists behave the same on targets with other widths of size_t and of pointers", "statement": "On every target (any width of size_t, any size of a pointer), every history of list calls on a fresh list is free of undefined behaviour and does what a double-ended queue does, as long as the node size and the number of elements fit into size_t. Two targets whose nodes come from the same source (allocators that answer alike, buffers with room for equally many nodes) return the same statuses and show the same elements. In a caller buffer of c bytes exactly the first c / (2 * pointer + element) insertions succeed, the nodes stay inside of the buffer without overlapping, and they are aligned for pointers if the element size is a multiple of the pointer size. Destroying a dynamic list gives every node back once. If two pointers and an element are too large for size_t, the first insertion into a dynamic list writes outside of its block.", "quantifier": "all targets, all element sizes, all histories, all answers of the allocator to requests for memory", "why_tests_cant": "test runs use one target, so that sizes of nodes and the room in a buffer are only seen for one pointer size", "anchors": ["include/Zycore/Types.h:54-60", "include/Zycore/List.h:54-64", "src/List.c:60-118", "src/List.c:161-212", "src/List.c:338-653"]}
{"id": "C177", "title": "Formatting gives the same text on targets with another width of size_t", "statement": "On every target whose size_t has at most 2^64 values, with or without 64-bit registers, appending an unsigned or signed number (decimal or hexadecimal, any padding, sign option and prefix) to a string with room adds exactly the padded numeral with its sign and prefix, and a fixed string without room is reported and not damaged; the outcome (status, bytes, capacity, allocator calls) is the same as on every wider target, also for the printf-style append. The requests must fit into the narrow size_t: a string that nearly fills the address space of the target passes the check for room although size plus digits wrap around, and the digits are written behind its storage.", "quantifier": "all widths up to 64 bits, both kinds of registers, all reachable strings, all 64-bit values, paddings, prefixes", "why_tests_cant": "test runs use one target, and the variants for 32-bit registers are not compiled there", "anchors": ["src/Format.c:87-176", "src/Format.c:183-323", "src/Format.c:372-418", "src/Format.c:424-503", "include/Zycore/Types.h:54-60"]}
{"id": "C178", "title": "The argument parser gives the same result on targets with another width of size_t", "statement": "For every width of size_t and every size of the struct of a parsed argument, a command line that fits into the target is parsed as the grammar says: the status, the error token and the arguments are the same on all such targets, whatever the allocator does, and so are the requests to the allocator (numbers of elements and blocks). A command line fits if the structs of twice as many arguments as it has characters and tokens can be addressed. If the structs of as many arguments as there are tokens cannot be addressed, the multiplication wraps, the block is too small, and unnamed arguments are written behind it.", "quantifier": "all widths, struct sizes, command lines, definitions, allocators", "why_tests_cant": "test runs use one target, and no test has a command line near the limits of a size_t", "anchors": ["src/ArgParse.c:44-277", "src/Vector.c:192-214", "src/Vector.c:494-529", "src/Allocator.c:40-77", "src/String.c:281-292"]}
{"id": "C179", "title": "Elements can be brought into any order in place", "statement": "Exchanging elements with `ZyanVectorSwapElements`, a program can bring the elements of a vector into every order with fewer exchanges than elements, and never loses or doubles one; the usual loops reverse a vector and sort it for every comparison of a total preorder. Size, capacity, allocator and destructor are not involved.", "quantifier": "all reachable vectors, all sequences of exchanges, all rearrangements, all comparisons of total preorders", "why_tests_cant": "tests exchange two elements of one vector; orders, sequences of exchanges and full vectors are not tried", "anchors": ["src/Vector.c:535-562", "include/Zycore/Vector.h:149-155", "src/Vector.c:832-842"]}
{"id": "C180", "title": "A pointer to an element stays good until the vector needs other memory", "statement": "A pointer to element k of a vector remains good, with the same element behind it, over every call that neither needs other memory nor touches element k; exactly the calls that need other memory (growth beyond the capacity, shrinking below the threshold, and the explicit reservation and shrinking) make it dangling, and it is never good again afterwards. A vector on a buffer of the caller never moves. After a reservation for c elements, appending up to c elements in total leaves all pointers taken since then good.", "quantifier": "all reachable vectors, all positions, all requests in the domain and all histories of them, with an allocator that grants every request", "why_tests_cant": "a dangling pointer usually still reads the old value, so a test that keeps one passes; and which calls move the elements depends on size, capacity, growth factor and threshold together", "anchors": ["include/Zycore/Vector.h:369-371", "include/Zycore/Vector.h:386-388", "src/Vector.c:343-354", "src/Vector.c:375-392", "src/Vector.c:791-818"]}
{"id": "C181", "title": "Nodes of a list stay where they are until they are removed", "statement": "A pointer to a node of a list stays good as long as its element is in the list: no call moves a node, so the element that goes from position k to position k' is at the same address afterwards and, unless the call assigned to that very element, has the same value there. A call that removes the element takes its node out of the list. If the list uses an allocator, reading through the pointer is then a use after free, after that call and after every later one. If the list lives in a caller buffer, the node removed last is the first to be used again: the next push, at either end, succeeds and stores its element there.", "quantifier": "For every element type and size, every source of nodes (an allocator that may refuse any request, a caller buffer of any size), with or without destructor, every history of calls (pushes of outside or own elements, emplacements, pops, assignments, clear, resize), every position and every next call; for removed nodes also every continuation.", "why_tests_cant": "That a pointer is good after a call shows only if the test keeps pointers to nodes at all positions over all kinds of calls; that it is bad afterwards cannot be observed by a test without executing undefined behaviour.", "anchors": ["src/List.c:60-118", "src/List.c:224-332", "src/List.c:338-664", "include/Zycore/List.h:54-118"]}
{"id": "C182", "title": "A view into a string stays good until the string needs other memory", "statement": "A view of a range of characters of a string shows those characters as long as no call makes the string use other memory and no call changes a character of the range; asking for the same range again gives the same view. As soon as a call needs other memory, using the view is a use after free, then and after every later call. A string on a buffer of the caller never uses other memory. After room for c bytes has been reserved, text can be appended until text and terminator take c bytes, and views made after the reservation stay good.", "quantifier": "For every string a program can obtain (allocator, growth factor, shrink threshold, caller buffer), every range, every next call and every history of calls of the string API.", "why_tests_cant": "Whether a view is dangling after a call depends on growth factor, shrink threshold, capacity and length together, and a dangling view usually still shows the old characters, so that a test passes.", "anchors": ["src/String.c:262-279", "src/String.c:392-549", "src/String.c:945-1052", "src/Vector.c:45-95", "include/Zycore/String.h:943-954"]}
{"id": "C183", "title": "A vector of strings owns its strings", "statement": "If the destructor of a vector is ZyanStringDestroy and new strings are handed over to the vector, the vector owns them: whatever the program then does with the vector and the strings in it, no string is destroyed twice or used after its end, the strings that exist are exactly the elements of the vector with the texts they should have, and when the vector and the vectors made from it are destroyed all memory is given back.", "quantifier": "For every vector (allocator, growth factor, threshold, caller buffer), every program of pushes, inserts, sets, swaps, deletions, pops, clears, resizes, reservations, duplications and changes of single strings through element pointers, for all texts and positions.", "why_tests_cant": "Strings are moved inside of the vector as bytes. A double free or a leak depends on which elements are moved, replaced or dropped by which call and on refused calls in between, and mostly does not show in a test.", "anchors": ["src/Vector.c:236-263", "src/Vector.c:280-299", "src/Vector.c:394-416", "src/Vector.c:573-631", "src/Vector.c:752-789", "src/String.c:106-118"]}
{"id": "C184", "title": "Elements can be removed while going through a vector", "statement": "A loop over a vector that deletes the elements meeting a condition leaves exactly the others, in their order, hands every deleted element to the destructor once, and never touches memory outside of the elements. This is expected of a loop with an index that goes up and does not count when it deletes, of a loop with an index that goes down, and of ZYAN_VECTOR_FOREACH.", "quantifier": "For every vector in every reachable state, every condition, every number and position of elements that meet it.", "why_tests_cant": "The result depends on which elements meet the condition and how they lie beside each other; deletions also shrink the memory at sizes that depend on the threshold. A test tries a few conditions.", "anchors": ["src/Vector.c:568-631", "include/Zycore/Vector.h:149-155", "include/Zycore/Vector.h:165-177"]}
{"id": "C185", "title": "Lists do the same wherever their nodes come from", "statement": "As long as no memory is refused, a list behaves the same whether its nodes come from a caller buffer or from an allocator, and with every allocator: the calls return the same statuses, the elements are the same in both directions, and the destructor receives the same elements in the same order. The first call that does not get all the nodes it wants returns a failure, so a program notices when lists may begin to differ.", "quantifier": "For every two lists of any element sizes, buffers of any size, allocators with arbitrary answers, every history of pushes, emplacements, pops, assignments, clears and resizes, for all values.", "why_tests_cant": "Tests run a few histories with one allocator and one buffer. Buffer lists reuse freed nodes and grow inside of the buffer, which is other code than the allocator path; a difference shows only after particular mixtures of removals and insertions.", "anchors": ["src/List.c:60-90", "src/List.c:100-119", "src/List.c:141-183", "include/Zycore/List.h:72-125"]}
{"id": "C186", "title": "The capacity of a vector is not seen", "statement": "Two vectors with the same elements and destructor cannot be told apart by what their calls return, by their elements, and by what the destructor receives, whatever their allocators, growth factors, shrink thresholds, capacities and histories are, or whether they are on a caller buffer that is large enough: they do what a list without capacity does. The only exception is the documented one: swapping needs a free slot.", "quantifier": "For every two reachable vectors with the same elements and arbitrary parameters, every history of pushes, insertions, emplacements, assignments, deletions, pops, clears, resizes with an initializer, reservations and shrinking.", "why_tests_cant": "Growth and shrinking happen at sizes that depend on all parameters and the history. A test compares a vector with the expected elements for one choice of parameters.", "anchors": ["src/Vector.c:44-125", "src/Vector.c:394-631", "src/Vector.c:752-814", "include/Zycore/Vector.h:506-519"]}
{"id": "C187", "title": "The storage of a string is not seen", "statement": "Two strings with the same text cannot be told apart by what their calls return and by their texts, whatever their allocators, growth factors, shrink thresholds, capacities and histories are, or whether they are on a caller buffer that is large enough: they do what a text without storage does.", "quantifier": "For every two reachable strings with the same text and arbitrary parameters, every history of appending, inserting, deleting, truncating, clearing, setting characters, case conversion, shortening, reserving and shrinking, for all texts and positions.", "why_tests_cant": "Growth and shrinking happen at lengths that depend on all parameters and the history. A test compares a string with the expected text for one choice of parameters.", "anchors": ["src/String.c:372-549", "src/String.c:935-1052", "src/Vector.c:44-125"]}
{"id": "C188", "title": "Lists serve as queues, vectors as stacks", "statement": "A program that takes items from the front of a list and appends what it finds there visits everything level by level; a program that does the same with the end of a vector visits everything depth first. Each visited item goes to the destructor once, in the order of the visits, and the container has exactly the items that are not visited yet. If the list is empty after some number of rounds then so is the vector, and both have visited the same items.", "quantifier": "For every list after every history of calls, on an allocator that does not refuse or on a large enough buffer, every reachable vector, every function that finds items, every number of rounds.", "why_tests_cant": "The sequence of calls depends on the elements read, and grows and shrinks the container in patterns that no fixed sequence of calls covers.", "anchors": ["include/Zycore/List.h:164-171", "src/List.c:224-234", "src/List.c:338-364", "src/List.c:494-524", "include/Zycore/Vector.h:149-155", "src/Vector.c:422-444", "src/Vector.c:607-631"]}
{"id": "C189", "title": "A stack built on compare-exchange works without a lock", "statement": "Threads that share a linked stack, and push and pop nodes only by reading and exchanging the pointer to the first node with the atomic compare-exchange of the library, behave as if they used the stack one at a time: there is an order of all pushes and pops, in agreement with the program of each thread, in which a plain stack gives the same results, and the linked nodes are always those of that stack. Every pushed node is in the end either in the stack or was popped by exactly one thread. A thread that runs alone finishes. No node may be pushed again after it was popped: otherwise a popped node can reappear.", "quantifier": "For every number of threads, all programs of pushes and pops that push no node twice, every interleaving of their steps, every width of the pointer.", "why_tests_cant": "The failures depend on another thread changing the head between two particular instructions. No test controls the interleaving, and there are infinitely many.", "anchors": ["include/Zycore/Atomic.h:147-178", "include/Zycore/Internal/AtomicGNU.h:47-63", "include/Zycore/Internal/AtomicMSVC.h:50-85"]}
{"id": "C190", "title": "A shared atomic counter distributes work without a lock", "statement": "Threads that go through an array together, each taking the next index with the atomic increment of the library and processing the element there without a lock, never work on the same element, never leave the array, and read every element as it was. When all threads are through, every element was processed exactly once and nothing else was changed. They come to an end under every schedule that gives each thread 4 n + 2 T steps, for n elements and T threads. The counter must be able to hold n + T: otherwise an element may be processed twice.", "quantifier": "For every number of threads and of elements that the counter can hold together, every function applied to the elements, all values of them, every interleaving of the steps, every width of the counter.", "why_tests_cant": "An index that is taken twice appears only when two increments overlap at particular instructions, and a missing element only with a particular last step. No test controls the interleaving, and there are infinitely many.", "anchors": ["include/Zycore/Atomic.h:163-169", "include/Zycore/Internal/AtomicGNU.h:54-57", "include/Zycore/Internal/AtomicGNU.h:76-79", "include/Zycore/Internal/AtomicGNU.h:97-100", "include/Zycore/Internal/AtomicMSVC.h:100-103"]}
{"id": "C191", "title": "Whatever was done to a list, vector or bitset can be undone", "statement": "For every operation there are calls that take it back: a push is undone by a pop at the same end, an insertion by a deletion, an overwritten or removed element is written or inserted again, a cleared or resized container gets its elements back, a flipped bit is flipped again. Applied to a whole history, the last operation first, these calls all succeed and leave the elements and the size as they were before the history.", "quantifier": "For all histories of list, vector and bitset operations from every state that the library can produce, all elements, lists and vectors with an allocator or on a buffer, whenever the memory is there and no empty bitset is popped; elements with specified values.", "why_tests_cant": "The histories and their inverses are unbounded; a test can undo particular operations on particular contents only, while a wrong link or a bit left over appears only after particular combinations.", "anchors": ["src/List.c:316-645", "src/Vector.c:394-640", "src/Vector.c:747-815", "src/Bitset.c:241-320", "src/Bitset.c:365-465"]}
{"id": "C192", "title": "Initialisation guarded by compare-exchange happens once", "statement": "Threads that need some data, and agree with the atomic compare-exchange of the library on which of them initialises it, initialise it exactly once: only one thread at a time works on it, no thread reads it before it is complete, and all threads read the same result. Nobody waits forever: after eight rounds in which each thread has a step, all threads have the data. If the thread that began never moves again, the others wait.", "quantifier": "For every number of threads, every initialisation function and first value, every interleaving of the steps, every width of the variable of at least two bits.", "why_tests_cant": "A second initialisation or a premature read needs another thread to run between two particular instructions; that the waiting ends is a statement on all long schedules. Tests control neither.", "anchors": ["include/Zycore/Atomic.h:147-161", "include/Zycore/Internal/AtomicGNU.h:47-52", "include/Zycore/Internal/AtomicGNU.h:69-74", "include/Zycore/Internal/AtomicGNU.h:90-95"]}
{"id": "C193", "title": "Arguments written as in the tests of the parser are understood", "statement": "The tests of the argument parser use five ways to write arguments: unnamed arguments, long flags, long options followed by their value, and clusters of short flags that end in an option whose value is attached or follows as the next token. Whatever is composed of these, in any order and number, is understood as it was meant: each argument arrives in the output with its definition and value. If there are too many unnamed arguments the first one too many is reported, if there are too few no token is reported, and if required options are missing the first of them is reported by its name.", "quantifier": "For every table of definitions with legal names, all tokens and values without an embedded zero byte (values may look like options), every number of arguments whose output fits the address space, every limit on the unnamed arguments.", "why_tests_cant": "The tests have seven command lines. That composition of the ways of writing does not confuse the parser, such as a value that looks like an option, needs all command lines.", "anchors": ["src/ArgParse.c:44-277", "tests/ArgParse.cpp:62-308"]}
{"id": "C194", "title": "A list can be turned and mirrored", "statement": "A program that serves the elements of a list in turns moves the first element to the end, again and again. If it appends a copy of the first element and then removes the first element, all calls succeed and the elements are turned, as long as there is a node to spare. If it removes the first element before it appends the remembered copy, a full caller buffer will do. After as many moves as there are elements everything is where it was. On a full buffer the first way loses an element when the status of the append is ignored. Writing the elements again in the opposite order reverses the list without any memory.", "quantifier": "For every list with an allocator or on a caller buffer, every earlier history whose memory requests are granted, every number of elements and moves below 2^63.", "why_tests_cant": "The two ways differ only when the buffer is full, and a node that is linked wrongly when the first or last node is reused shows up after a particular number of moves. Tests try few sizes and few rounds.", "anchors": ["src/List.c:316-652"]}
{"id": "C195", "title": "Views can be taken of views", "statement": "A view of a range of a view can itself be the source of a further view. The result is the same as taking one view of the combined range from the first source, and a view of a whole view shows the same text.", "quantifier": "For every source text, every chain of ranges of any length of which each lies in the one before.", "why_tests_cant": "An error of one character accumulates along the chain and is invisible as long as the last character of a range is not used; tests take one view of one range.", "anchors": ["src/String.c:262-279", "src/String.c:307-318"]}
{"id": "C196", "title": "Numbers written one behind the other can be read back", "statement": "A program appends numbers to a string in decimal, padded to any width, with a character between them that is not a digit. All calls succeed, and the text is the numerals with the character between them. Splitting the string at the character with the search function and reading the digits of the pieces gives the numbers back, in order. Two different sequences of numbers never give the same text, even if they are padded to different widths.", "quantifier": "For every sequence of 64-bit numbers that fits the address space, every width up to 255, every separating character other than a digit and NUL, every string with an allocator.", "why_tests_cant": "The round trip goes through the formatting of each number, the growth of the string and the search from every position; an error for one number or one position of the separator loses or merges numbers. Tests cannot try all sequences.", "anchors": ["src/Format.c:424-436", "src/String.c:453-467", "src/String.c:566-618"]}
{"id": "C197", "title": "A barrier built from increment and compare-exchange lets nobody through early", "statement": "Threads that each prepare one element of an array, count their arrival with the atomic increment of the library and wait with its compare-exchange until all have arrived, never read an element that is not prepared: what a thread reads after the barrier is the array with every element prepared exactly once. Nobody waits forever: after six rounds in which each thread has a step, all have read the array. While one thread has not moved, none gets through. With one thread more than the variable has values the barrier fails.", "quantifier": "For every width of the variable, every number of threads below two to the power of the width, every array and every function that prepares an element, every interleaving of the steps.", "why_tests_cant": "A lost increment or a thread let through early shows only when other threads run between two particular instructions; that the waiting ends is a statement on all long schedules. Tests control neither.", "anchors": ["include/Zycore/Atomic.h:147-161", "include/Zycore/Internal/AtomicGNU.h:47-58", "include/Zycore/Internal/AtomicGNU.h:69-79", "include/Zycore/Internal/AtomicGNU.h:90-100"]}
{"id": "C198", "title": "A line of numbers in different formats can be read back", "statement": "A program that appends numbers to a string, each unsigned or signed, decimal or hexadecimal, with its own width, letter case and sign option, and a separator between them, leaves exactly the text that one expects. If the separator does not occur in numbers, splitting the text and reading each piece in its format gives the numbers again, negative ones and the smallest one included; so two lines with the same formats and the same text have the same numbers. A caller buffer that is too small is reported, and holds a beginning of the line.", "quantifier": "For every list of 64-bit values with any formats and widths up to 255, every separator, every reachable string with an allocator or a caller buffer.", "why_tests_cant": "The combinations of formats, widths, values and capacities cannot be enumerated; tests fix a few lines.", "anchors": ["src/Format.c:424-436", "src/Format.c:438-462", "src/Format.c:464-477", "src/Format.c:479-503", "src/String.c:453-467"]}
{"id": "C199", "title": "Merging sorted vectors gives a sorted vector", "statement": "A program that goes through two sorted vectors side by side and appends the smaller of the two current elements to a third vector appends all elements of both in ascending order. Among equal elements those of the first vector come first, and otherwise each vector keeps its order. Nothing is lost, duplicated or destroyed. If no two different elements compare as equal, the result is determined by this. Merging with an empty vector copies the other one. A caller buffer that is too small gets the first elements that fit, and this is reported.", "quantifier": "For every comparison of a total preorder, every pair of sorted vectors with any parameters and history, every target vector with room for the elements or a caller buffer without.", "why_tests_cant": "The order of all pairs of lists, with all repetitions, and all states of the three vectors cannot be enumerated.", "anchors": ["include/Zycore/Vector.h:149-155", "src/Vector.c:422-444"]}
{"id": "C200", "title": "The sieve of Eratosthenes on a bitset finds exactly the primes", "statement": "A program that clears a bitset and then, for each index from 2 on whose bit is unset, sets the bits of the larger multiples of the index leaves unset exactly the bits at prime indices among those from 2 on. The bits 0 and 1 are unset. No call fails, and the number of bits stays the same. Counting the set bits afterwards gives the number of indices from 2 on that are not prime.", "quantifier": "For every bitset of fewer than 2^63 bits, with any parameters and history, and every index.", "why_tests_cant": "The result has to be right for every size and every earlier content of the bitset, which cannot be enumerated.", "anchors": ["src/Bitset.c:264-281", "src/Bitset.c:328-346", "src/Bitset.c:384-401", "src/Bitset.c:467-477", "src/Bitset.c:509-536"]}
{"id": "C201", "title": "Copying a list into a vector keeps the order", "statement": "A program that goes through a list from the head with the function for the next node and appends each element to a vector appends exactly the elements of the list in their order. A program that goes from the tail with the function for the previous node appends them in the opposite order. No element of the vector is destroyed. If the vector is in a caller buffer that is too small, the elements that come first in the walk are appended as far as they fit, and the program fails with 'insufficient buffer'. A new list that is filled with the elements of a vector, and is given its nodes, shows these elements, and copying it gives them back.", "quantifier": "For every list from any initializer after any history of calls, and every vector with any parameters and history.", "why_tests_cant": "The links of the list depend on its whole history and the memory of the vector on its own; the combinations cannot be enumerated.", "anchors": ["src/List.c:224-234", "src/List.c:236-246", "src/List.c:248-258", "src/List.c:260-270", "include/Zycore/List.h:164-171", "src/Vector.c:422-444", "src/List.c:338-364", "include/Zycore/Vector.h:149-155"]}
