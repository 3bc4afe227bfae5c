# Formal model of zycore-c: design

The Lean project in `lean/` models the core of zycore-c and its POSIX and Windows parts (`/repo`, version
1.5.0) function by function and proves the properties in `properties.jsonl`.

## Trusted base

* Lean 4.33.0's kernel. No axioms of our own, no `sorry`, no `native_decide`, no `bv_decide`. Each
  property theorem depends at most on `propext`, `Classical.choice` and `Quot.sound`
  (`lean/Verif/Axioms.lean` prints the axioms of every property theorem during the build).
* The reading of the C code: every model definition cites the file and lines it transcribes. The
  code was not executed.
* `Model/Sources` was extracted from the text of the files by a script (conditionals, declarations, definitions and
  uses); the extraction is trusted, as is the small preprocessor of `Model/Build`.
* `Model/BuildTools` reads the build files with the meaning that the manuals of CMake and Meson give to their commands
  (listed in the head of the file).
* The C semantics chosen below (64-bit `size_t`, element-granular memory; the functions of vectors, strings, bitsets, lists, formatting and the argument parser are also modelled for other widths, see C173-C178).

## Modelling conventions

* **Status codes** are `BitVec 32`, built by a model of `ZYAN_MAKE_STATUS`. `ZYAN_CHECK` tests the
  sign bit.
* **Undefined behaviour is an outcome.** Model functions return `Out α`, which is either `ret a` or
  `ub why` (`why` in: out-of-bounds, null dereference, use of a freed block, read of an indeterminate value where the value matters, division by zero).
  Theorems about "never touches memory outside" say that the outcome is `ret`.
* **`ZyanUSize`** is `Nat` with explicit wrap-around operations modulo 2^64 wherever the C code adds,
  subtracts or multiplies; theorem hypotheses bound the arguments by 2^64. Vectors, strings,
  bitsets, lists, formatting and the argument parser are also modelled with `size_t` of other widths
  (C173-C178).
* **Memory** is a set of blocks; a block is a list of cells; a cell holds an element or is
  indeterminate (`none`). Granularity is one vector element (one byte for strings and bitsets).
  Element indices outside of the block are UB; the byte offset `index * element_size` itself is not
  wrapped (simplification: an element index whose byte offset wraps is reported as UB).
* **Allocators** are an oracle: the status of the k-th allocator call is an arbitrary function of k.
  Every call is recorded in a trace with the block and element count. A successful reallocation
  preserves the common prefix and leaves the rest indeterminate; a failing one leaves the block alone.
* **Destructors** are recorded in the trace with the element they receive.
* **NULL checks** of the object pointer itself and of out-parameters are left out of most models, which
  describe the functions behind these checks; `Model/NullPointers` puts them in front (C124). NULL for
  element pointers, buffers and callbacks is modelled with `Option` where the code tests it.
* **`ZYAN_ASSERT`** is compiled away in release builds, which is what the models describe. The functions
  of builds with assertions are modelled separately (`Model/VectorDebug`, ...), where a failed assertion is
  the outcome `.ub .assertion`; C120, C121 and C129 compare the two. (With `ZYAN_NO_LIBC` the conditions are evaluated and ignored; the
  reads this does are those of the models with assertions.)
* **Concurrency** (atomics, critical sections, TLS) is modelled at the level of the documented
  semantics of the compiler builtins, pthreads functions and thread-specific data.

## Files

* `Verif/Base.lean` outcomes, status codes, machine words.
* `Verif/Model/*.lean` one module per C file.
* `Verif/Spec/*.lean` the small independent specifications used in theorem statements.
* `Verif/Lemmas/*.lean` helper lemmas.
* `Verif/Props/*.lean` property theorems and their non-vacuity examples.

## Properties: plan

| id | model | how |
|----|-------|-----|
| C01 | `Model/Vector` all mutating functions | refinement to a list with explicit capacity policy, induction over histories |
| C02 | same | invariant (`size <= capacity <= block`), outcome never `ub`, induction over histories |
| C03 | same, no allocator | invariant plus case analysis |
| C04 | same, failing oracle | false as stated: the capacity is written before the allocation is attempted; negation witness (push after a failed push writes out of bounds) and partial theorem |
| C05 | trace of destructor calls | conservation: inserted is a permutation of live plus destroyed, induction over histories |
| C06 | trace of allocator calls | invariant: the trace prefix is a legal allocation history with one live block; beyond the property: wrong count after a refused request |
| C07 | index checks | full-range theorem for single indices; range deletion with wrap-around is false, witness and partial |
| C08 | FindEx | loop lemma; first match |
| C09 | BinarySearchEx | loop invariant; lower bound |
| C10 | BinarySearchEx with a call trace | induction on range width |
| C11 | InsertRange/DeleteRange | corollary of the per-operation refinement |
| C12 | SwapElements | corollary |
| C13 | Duplicate* | per-operation theorem, independence by block identity |
| C14 | ResizeEx | false for sizes whose product with the growth factor wraps, witness and partial |
| C15 | EmplaceEx | false when the constructor fails in the middle, witness and partial (at the end; success case) |
| C16 | PushBack history | potential argument over trace length |
| C17 | DeleteRange/PopBack | capacity policy; the claim needs growth <= threshold |
| C18 | `Model/String` | invariant over histories |
| C19 | `Model/String` | refinement to character lists |
| C20 | fixed-capacity strings | invariant and atomic failure |
| C21, C22 | LPosEx/RPosEx | loop invariants against `IsPrefixOf`-style occurrence spec |
| C23 | LPosIEx/RPosIEx | false for non-letters (`c ^ 32` equates '@' and '`'), witness and partial |
| C24 | Compare | per-loop lemma |
| C25 | Compare | antisymmetry false ("A" against "a" gives 1 both ways), witness and partial |
| C26 | CompareI | as C24 |
| C27 | case conversion | range map lemma |
| C28 | views | ViewInsideViewEx is off by one, witness and partial |
| C29 | Duplicate/Concat | per-operation theorem |
| C30 | Truncate | false at the length itself (`INVALID_ARGUMENT`), witness and partial |
| C31 | views over a larger buffer | false (LPos/Compare rely on the terminator), witness and partial |
| C32-C35 | `Model/Format` | digit recursion lemmas, round trip, failure atomicity (false for signed: sign stays) |
| C36 | AppendFormat with an abstract formatter | false in the fixed-capacity/growth-1 cases, witness and partial |
| C37 | ZyanAbsI64 | `BitVec` arithmetic |
| C38-C45 | `Model/Bitset` | refinement to `List Bool`; C42-C45 false in general, witnesses and partials |
| C46-C51 | `Model/List` heap of nodes | separation-style invariant (`Seg`, `Core`), refinement to a double-ended queue with a source of nodes; C51 false (stub) |
| C52-C57, C88, C89 | `Model/ArgParse` | simulation of the token loop by an independent grammar (`reading`, `verdict`), for every allocator behaviour; C52 and C57 false for clusters of flags (the loop falls through to the unnamed case), C56 false after a refused growth (early return without destroying the vector) |
| C58-C64, C90 | `Model/LibC` | flat memory in which accesses outside objects are undefined; induction over the strings; C61 false for strncmp (does not stop at the terminators), C63 false for two empty strings, C90 false (strcoll is a stub) |
| C65-C70, C91-C93 | `Model/Macros` | `BitVec`/`Nat` arithmetic for every width; C67 false for every multiple, C69 false above 32 bits, C91 false for the least value, C93 false above 32 bits |
| C71 | `Model/Allocator` | heap of blocks with an adversarial C allocator; false when the product wraps |
| C94, C95 | constructors of all containers | decision logic; C95 false when the product of element size and capacity (or the capacity of a string plus one) wraps |
| C72, C73, C96 | `Model/Atomic` | threads with arbitrary programs and schedules; each compiler intrinsic is one atomic, sequentially consistent step (trusted) |
| C74, C75 | `Model/Sync` | POSIX branch; pthread mutexes (owner, count, recursion limit) and keys as POSIX specifies them (trusted); arbitrary interleavings of the calls of all threads |
| C97-C100 | `Model/Api` | POSIX branch; page table with an adversarial system (trusted: `mprotect`, `munmap`, `msync`, `isatty` as POSIX specifies them); C98 false for a failing `sysconf` |
| C101-C103 | `Model/Sync`, `Model/Thread` | POSIX branch; table of error numbers; C102 false (the handle is dereferenced); destructors of keys as POSIX specifies them, one round (trusted) |
| C104-C107 | `Model/Windows` | Windows branch; critical sections, thread-local storage, `VirtualFree` with `MEM_RELEASE` and console modes as documented by Microsoft (trusted); simulation between the two branches; C106 false (the size is ignored) |
| C108, C109 | `Model/VectorEach` | loop macros with arbitrary bodies; false for bodies that shorten the vector (null pointer) or use the pointer after a reallocation (dangling), negation for every such vector |
| C110, C111 | `Model/StringData` | data pointers as C strings (`strlen` on partially determinate memory), literals, default-parameter variants; C110 false for views of a part of a text |
| C112 | `Model/AtomicMSVC` | interlocked intrinsics as documented by Microsoft (trusted); lock-step simulation with `Model/Atomic` |
| C113 | `Model/Div64` | both definitions of `ZYAN_DIV64`; `do_div` of the Linux kernel takes a divisor of 32 bits (trusted); false there for larger divisors |
| C114 | `Model/Vector` | one refused reallocation, in any status; false for `Resize`/`Clear` downwards (elements are destroyed twice) |
| C115 | `Model/String` | one refused reallocation, in any status; false for deletions (text already shortened) and for the use after a refused growth (capacity too large) |
| C116 | `Model/List` | neighbours and data pointers after every history, from the representation used for C46 |
| C117 | all containers, `Model/ArgParse` | the constructors without parameters are the general ones with allocator 0 and the constants of the headers |
| C118 | `Model/Vector` | element pointers into the block of the vector; a copy from a released block is `uaf`, a partially overlapping `memcpy` is `overlap`, a `memcpy` onto itself is harmless |
| C119 | `Model/ViewObject` | view objects with their `element_size` field; false for views in fresh or zeroed variables |
| C120 | `Model/VectorDebug` | invariant of usable vectors (element size, data, capacity, growth factor) under every behaviour of the allocator; no assertion fails and both builds agree. False where the growth product wraps |
| C121 | `Model/StringDebug` | the same for strings and numbers; insertions and the size need an allocator that does not refuse. `AppendFormat` is characterised exactly. False in five cases, each with its offending inputs |
| C122 | `Model/Vector`, `String`, `Format`, `Bitset`, `List`, `ArgParse` | a machine over the events that knows the blocks held (`Spec/Requests`); the invariant depends only on the allocator, the element size, the block and the trace, so it survives every call, also with overflowing sizes. False for lists whose node size wraps to zero |
| C123 | `Model/Bitset` | one refused request, as for C113 and C114. False for push, pop and clear, each with every offending bitset |
| C124 | `Model/NullPointers` | the exported functions with pointers that may be null. False for the functions listed in `Spec/NullPointers` as careless, two bitset and two list functions and the configuration of the argument parser |
| C125 | `Model/Initializers` | containers that were defined with the INITIALIZER macros only. False for `ZyanVectorResize(Ex)` (growth factor 0 makes it believe that the memory is there) and for strings (no terminator) |
| C126 | `Model/Sgr` | colour macros, interpreted by a small terminal (`Spec/Sgr`); induction over the output |
| C127 | `Model/Destroyed` | destroying twice; what an allocator does with a null pointer is a parameter. False for vectors with a destructor, dynamic lists, lists with a destructor and builds with assertions |
| C76 | Append with an aliasing view; `Model/StringAlias` | use after free when the append reallocates, witness and partial; undefined for nearly every string that is passed as its own view |
| C128 | `Model/StringAlias` | data pointers into the string itself; the string as its own view is modelled separately, because its size is read again after the resize. False when the storage moves and for most positions behind the place of insertion |
| C129 | `Model/BitsetDebug`, `ListDebug`, `ArgParseDebug` | the functions with their assertions, also those of the vectors inside; the invariants need only element size, data pointer, capacity and growth factor, so they survive refused requests |
| C130 | `Model/VectorBytes` | the vector functions once more on bytes, all offsets and lengths as machine words; simulation from the model on elements (`SameState`), hence element `k` is at byte `k * element_size` after every history |
| C131 | `Model/VectorSwap` | the swap with the overlap rule of `memcpy` and the alignment rule for `ZyanU64*`; exact domain, negations for equal positions and for short vectors of bytes, partial |
| C132 | `Model/Targets` | the dispatch of the formatting functions on targets without 64-bit registers equals the other |
| C133 | `Model/Targets` | the character tests with the promotions of a signed and of an unsigned `char`; the order differs, negation and partial |
| C134 | `Model/Build` | a small preprocessor; Defines.h as a program for it; the groups of macros by case analysis of the stages |
| C135 | `Model/Build` | which assertion macro is chosen, against the kind of build; three negations and a partial theorem |
| C136 | `Model/Build`, `Model/Sources` | every file reduced to conditionals, declarations, definitions and uses; finitely many choices of the conditions, all complete but for eight functions |
| C137 | `Model/Sources` | the headers for atomic operations likewise; negation for one compiler on other architectures |
| C138 | `Model/Types` | the expressions of the static assertions evaluated on arbitrary integer types; they also accept exchanged signs |
| C139 | `Model/Vector` | amortised cost by a potential argument over arbitrary histories; false for some parameters that are accepted |
| C140 | `Model/Examples` | the sorted-insertion loop of the example program, by C01 and C09 |
| C141 | `Model/Vector` | simulation between an arbitrary allocator and a granting one, function by function |
| C142 | `Model/Examples` | the example program `examples/Vector.c` as a whole: the deterministic parts by evaluation, the random part by C140, refusals by the simulation of C141 |
| C143 | `Model/String`, `Model/Format` | the simulation of C141 for calls that make several requests, composed from that of the vector functions |
| C144 | `Model/Bitset` | the same for bitsets |
| C145 | `Model/Vector` | programs with many vectors: `Spec/Together` is a tableau of independent lists and a heap computed from the request trace; a call on one vector in a shared world is the call in a world of its own with the block numbers shifted (`Acts`) |
| C146 | `Model/Vector`, `Model/String`, `Model/Bitset` | the same with strings and bitsets in the same world (`Spec/Mixed`), which also serve as sources of each other's operations |
| C147 | `Model/Vector`, `Model/String`, `Model/Bitset` | programs whose allocators may refuse and whose arguments are arbitrary (`Spec/AnyAnswers`); only the return of the calls is assumed. False for the number of elements at deallocation after a refused growth |
| C148 | `Model/Sync`, `Model/Guarded` | client programs of threads whose sections are interleaved step by step, against `takeTurns`, which executes whole sections (`Spec/Guarded`) |
| C149 | `Model/String` | the loop of search, delete and insert (`Spec/Replace`) against a relation between the old and the new text |
| C150 | `Model/String` | round trips of insert, append and delete |
| C151 | `Model/Format`, `Model/String` | comparing formatted numbers against the order of the numbers (`Spec/NumOrder`) |
| C152 | `Model/Bitset`, `Model/BitsetAlias` | programs on several bitsets against programs on booleans (`Spec/BitPrograms`) |
| C153 | `Model/Bitset` | counts of combined bitsets; false with set stray bits |
| C154 | `Model/Vector` | client programs with binary search against a dictionary (`Spec/Dictionary`) |
| C155-C157 | `Model/Atomic` | reference counts, spin locks and update loops of clients, under all interleavings (`Spec/AtomicClients`) |
| C158 | `Model/ArgParse` | the parser on concatenated command lines |
| C159 | `Model/String` | amortised cost of strings; false for shrink thresholds up to the growth factor and for growth factor 1 |
| C160 | `Model/Vector`, `Model/VectorDtor` | destructors that write to the elements; the list specification of C01, and `remains` for the slots of removed elements |
| C161 | `Model/Vector`, `Model/VectorDtor`, `Model/TestSuite` | the tests of tests/Vector.cpp as programs; no further specification, a test states its own conditions. Finding: the expectation of the test of deletion is wrong unless the size is divisible by four (it runs with 100) |
| C162 | `Model/List` | `Spec/SharedLists` (several queues that share the number of requests and the record of destroyed elements; `NodeOf` for the nodes of the lists) |
| C163 | `Model/Bitset` | `Spec/BitsetCost` (the bytes a request adds, removes or asks room for; the cost is the one of `Spec/VectorCost`) |
| C164 | `Model/ArgParse` | `Spec/ArgDefs` (the output with the definitions in place of their numbers), the grammar of `Spec/ArgParse` |
| C165 | `Model/Limits`, `Model/Types` | `Spec/Limits` (what predefined macros mean, exact limits, the guesses), `Spec/Types` |
| C166 | `Model/String` | `Spec/Split` (the two programs; pieces between leftmost occurrences; joined pieces) |
| C167 | `Model/ArgParse` | `Spec/ArgNormal` (options, sorted items, normal form), `Spec/ArgParseRun` |
| C168, C169 | `Model/BuildTools`, `Model/Build` | `Spec/BuildTools` (what library and users must declare; the source files; the tested macros) |
| C170 | `Model/LockOrder`, `Model/Sync` | `Spec/LockOrder` (the rule for the order of a thread) |
| C171 | `Model/WinThreads`, `Model/Windows` | the same programs with the POSIX branch (C148, C170), `Spec/Guarded`, `Spec/LockOrder` |
| C172 | `Model/Guarded`, `Model/LockOrder`, `Model/WinThreads`, `Spec/AtomicClients` | `Spec/Fair` (endless fair schedules, rounds) |
| C173 | `Model/VectorWord` (size_t with `m` values) | `Spec/VectorWord` (domain of requests with `m` values), `Spec/Vector` |
| C174 | `Model/StringWord` (size_t with `m` values) | `Spec/StringWord` (domain of requests with `m` values), `Spec/String` |
| C175 | `Model/BitsetWord` (size_t with `m` values) | `Spec/BitsetWord` (domain of requests with `m` values), `Spec/Bitset` |
| C176 | `Model/ListTarget` (size_t and pointers of any width) | `Spec/ListTarget` (domain and calls on a target), `Spec/List` |
| C177 | `Model/FormatWord` (size_t with `m` values, both kinds of registers) | `Spec/StringWord` (domain of requests with `m` values), `Spec/Format` |
| C178 | `Model/ArgParseWord` (size_t with `m` values, structs of `sz` bytes) | `Spec/ArgParseWord` (command lines that fit, equal outcomes), `Spec/ArgParse` |
| C179 | `Model/VectorOrder` (client programs on `Model/Vector`) | `Spec/VectorOrder` (exchanges of list elements), `Spec/VectorSorted` |
| C180 | `Model/Pointers` on `Model/Vector` | `Spec/Pointers` (which requests move a list with a capacity) |
| C181 | Model/List | Spec/ListNodes (`track`), Spec/ListRun |
| C182 | Model/StringPointers, Model/String | Spec/StringPointers (`SMoves`, `SSpares`, `SAtRest`) |
| C183 | Model/Owned, Model/Vector, Spec/Mixed (`Desk`) | Spec/Owned (`Row`, `Move`, `Order`) |
| C184 | Model/Sieve, Model/VectorEach | `List.filter` |
| C185 | Model/List | Spec/ListSame (`lineStep`, `Serves`) |
| C186, C187 | Model/Vector, Model/String | Spec/VectorSame (`plainStep`), Spec/StringSame (`textStep`) |
| C188 | Model/Work (loops over Model/List, Model/Vector) | Spec/Work (`levels`, `depths`) |
| C189 | Model/Atomic (client program in Spec/AtomicStack) | Spec/AtomicStack (`stackAfter`, `linked`) |
| C190 | Model/Atomic (client program in Spec/AtomicShare) | Spec/AtomicShare (`ShareSt.at`, `ShareSt.isDone`; the array as a function) |
| C191 | Model/List, Model/Vector, Model/Bitset | Spec/Undo (`undoListAll`, `undoVecAll`, `undoBitsAll`) |
| C192 | Model/Atomic (client program in Spec/AtomicOnce) | Spec/AtomicOnce (`OnceSt`) |
| C193 | Model/ArgParse | Spec/ArgWritten (`Written`: rules, not a parser) |
| C194 | Model/List | Spec/Rotate (`rotated`, `turns`, `carries`, `mirror`) |
| C195 | Model/String | Spec/ViewChain; false of the code: views of whole views lose a character each time, witnesses and partial |
| C196 | Model/Format, Model/String | Spec/Numbers (`writeNumbers`), Spec/Split, Spec/Format (`readNumeral`) |
| C197 | Model/Atomic (client program in Spec/AtomicBarrier) | Spec/AtomicBarrier (`BarSt`) |
| C198 | Model/Format, Model/String (client program in Spec/Fields) | Spec/Fields (`fieldText`, `readField`) |
| C199 | Model/Merge (client program) on Model/Vector | Spec/Merge (`MergedFrom`) |
| C200 | Model/Primes (client program) on Model/Bitset | Spec/Primes (`IsPrime`) |
| C201 | Model/Transfer (client program) on Model/List, Model/Vector | Spec/List (`LRuns`), list append and reversal |
| C77 | Reserve | off by one, witness and partial |
| C78 | string index checks | full-range theorem for single indices; ranges that wrap are false, witness |
| C79 | bitset push | a refused push has increased the size; negation for every full bitset and what later calls do, partial |
| C80 | all bitset calls | weak invariant (the storage is a byte vector), any history; outcome never `ub` |
| C81 | bitset reserve | bytes are rounded down; negation for every n not divisible by eight, partial |
| C82, C83 | bitset queries | corollaries of the representation |
| C84 | destroy functions of strings and bitsets | trace replay as for C06 |
| C85 | list nodes in a caller buffer | negation for every element size not divisible by 8, partial |
| C86 | list with an allocator that refuses deallocations | negation for resize, clear, destroy; partial for pops |
| C87 | list emplace | negation for every failing constructor; partial |

"False" means: the unchanged code violates the natural statement. For those we prove the negation on
a concrete witness, the strongest guarded version under the suffix `_partial`, and (theorems `..._negation_all`
and `..._exact`, in `Props/VectorNeg`, `Props/StringNeg`, `Props/FormatNeg` and beside the partial theorems of
the other files) what the code does on *every* input the partial theorem excludes.

## Where the code disagrees with the properties

Every line is proved in the model for all inputs it names (theorems in brackets, see `MANIFEST.json`). The
line numbers refer to `/repo`.

### Vectors

* `src/Vector.c` 114-116: the new capacity is stored before the allocator is asked. After a refused growth of a
  full vector the next push writes behind the block, and destruction passes a wrong count (`C04_negation_all`,
  `C06_refused_negation`).
* `src/Vector.c` 763-776: a refused `Resize`/`Clear` downwards returns after the destructors ran and before the
  size changed; the elements are destroyed again later (`C114_resize_negation`).
* `src/Vector.c` 579: `index + count` wraps; a range that ends behind 2^64 is accepted (`C07_negation_all`).
* `src/Vector.c` 775 and `src/Allocator.c` 50, 69: `size * growth_factor` and `element_size * n` wrap; the block
  is too small (`C14_negation_all`, `C71_*_negation`, `C95_vector_negation`, `C120_wrap_negation`).
* `src/Vector.c` 290-296: a duplicate has the destructor and a byte copy of the elements. If the elements own
  something, as strings do, destroying both vectors (Vector.h line 306 requires it) destroys each element twice
  (`C183_duplicate_negation`).
* `src/Vector.c` 747-750: a vector with a destructor that is made larger without an initializer can not be destroyed
  any more; the new elements are indeterminate or leftovers (`C183_grown_negation`).
* `include/Zycore/Vector.h` 165-177: the loop macro reads the size once. A body that deletes any element but the last
  makes the loop dereference a null pointer (`C184_foreach_negation`).
* `src/Vector.c` 515-526: if the constructor of an emplaced element fails inside of the vector, the gap stays and
  the last element is lost (`C15_negation_all`).
* `src/Vector.c` 422-482, 752-789: element pointers into the vector dangle once the memory moves, and point to
  other elements once the gap is open (`C118_*_negation`).
* `src/Vector.c` 548-551: `ZyanVectorSwapElements` needs a free slot behind the last element. A full vector, also a
  dynamic one, can neither be reversed nor sorted by exchanges (`C179_full_negation`, `C179_sort_full`).
* `src/Vector.c` 554-560: swapping an element with itself copies it onto itself with `memcpy` (`C131_self_negation`); the pointers
  are converted to `ZyanU64*` whatever the element size (`C131_bytes_negation`).
* `src/Vector.c` 236-265: the destroyed vector keeps its size and capacity; destroying it again destroys the
  elements through a null pointer (`C127_vector_negation`, `C127_assertion_negation`, `C127_bitset_assertion_negation`,
  `C127_allocator_negation`).
* `include/Zycore/Vector.h` 122-132: with `ZYAN_VECTOR_INITIALIZER` the growth factor is 0, and `Resize` of such a
  vector reports success without storage (`C125_resize_negation`).
* `include/Zycore/Vector.h` 165-199: the loop macros keep the size of the start and the pointer of the current
  element (`C108_foreach_negation`, `C109_mutable_negation`).
* `src/Vector.c` 192-214: `ZyanVectorInitEx` accepts every growth factor of at least 1 and every shrink threshold.
  With growth factor 1 every push onto a full vector reallocates (`C139_negation_growth`); with a threshold between
  1 and the growth factor a vector that has just grown reallocates at every pop (`C139_negation_threshold`). Both
  make the cost quadratic. For all other parameters it is linear (`C139_amortised_partial`). Strings inherit
  this (`C159_negation_growth`, `C159_negation_threshold`, `C159_amortised_partial`), and so do bitsets, whose
  *default* parameters (growth factor 2, shrink threshold 2, `src/Bitset.c` lines 34-35) are in the bad region:
  a bitset that has just grown is emptied at quadratic cost (`C163_negation_default`,
  `C163_negation_constant`).

### Strings and views

* `src/String.c` 504 and the other range checks: `index + count` wraps (`C18_negation_all`, `C20_negation_all`,
  `C78_*_negation_all`).
* `src/String.c` 528: truncating at the length deletes zero characters, which the vector rejects
  (`C30_negation_all`).
* `src/String.c` 262-279: the size of a view inside of a view does not count the terminator, so the view is one
  character short (`C28_negation`; `C121_view_negation` for the assertion this trips).
* `src/String.c` 249-305: views get data and size but no element size; `GetChar` of a fresh view is undefined, of
  a zeroed view it is always the first character (`C119_*_negation`, `C121_getChar_negation`).
* `src/String.c` 566-618, 835-933: the left search and the comparisons look at the byte behind the view
  (`C31_*_negation_all`).
* `src/String.c` 631-689, 770-829, 881-929: letters are compared with bit 5 flipped, which also equates other
  characters, e.g. `@` and a backtick (`C23_negation_all`, `C26_negation_all`).
* `src/String.c` 835-879: a difference in length decides before the characters, and the sign is not antisymmetric
  (`C25_negation_all`, `C25_length_first`).
* `src/String.c` 453-490, 392-447: a view of the string itself dangles once the memory moves; inserted, it may
  show other characters (`C76_negation_all`, `C128_*_negation`). The string itself, passed as the view, is read
  with its new size (`C76_same_negation`).
* `src/String.c` 1034-1042: the reserved capacity counts the terminator, the reported one does not
  (`C77_negation_all`).
* `src/String.c` 453-490 with `ZyanVectorResizeEx` in `src/Vector.c`: appending resizes the vector, and resizing gives
  memory back when the text is short compared to the capacity. So the first text that is appended after
  `ZyanStringReserve` gives the reservation back, and views made after the reservation dangle
  (`C182_reserved_negation`). `ZyanVectorReserve` followed by pushes does not have this problem (`C180_reserved`).
* `src/String.c` 64-84: capacity 2^64 - 1 wraps (`C95_string_negation`, `C121_capacity_negation`).
* Refused requests: deletions have already removed the characters, appends have already enlarged the capacity
  (`C115_*_negation`), and after a refused `Clear` an insertion trips an assertion (`C121_insert_negation`).
* Strings defined with `ZYAN_STRING_INITIALIZER` have no terminator: size 2^64 - 1, writes through null
  (`C125_string_negation`).
* `ZyanStringGetData` of a view is the text up to the next NUL, not the text of the view (`C110_view_negation`).
* `src/String.c` 871, 921: the order of two texts depends on whether `char` is signed (`C133_compare_negation`).

### Numbers and formatted text

* `src/Format.c` 438-498: if the number does not fit behind its sign, the sign stays (`C35_negation_all`).
* `src/Format.c` 372-418: the list of arguments is used twice; the second attempt also fails with growth factor 1;
  the terminator is lost after a failure (`C36_negation_*`, `C121_format_negation`).

### Bitsets

* `src/Bitset.c` 48-59: the number of bytes is rounded down and computed modulo 2^32 (`C44_negation`,
  `C81_negation`, `C81_huge_negation`).
* `src/Bitset.c` 414: a refused push has increased the size (`C79_negation`, `C79_forever_negation`,
  `C79_pop_negation`, `C123_push_negation`); 430: a refused pop and a pop from the empty bitset have decreased it
  (`C123_pop_negation`, `C45_negation`); 445: likewise clear (`C123_clear_negation`).
* `src/Bitset.c` 509-536: bits behind the size are counted (`C42_negation`).
* `src/Bitset.c` 559, 591, 623: the mask `~(8 - size % 8)` of the last byte (`C43_negation`).
* `src/Bitset.c` 455, 460: no check for null (`C124_bitset_negation`).

### Lists

* `src/List.c` 526-539: both functions are stubs that report success (`C51_remove_negation`, `C124_list_negation`).
* `src/List.c` 60-98: nodes in a caller buffer follow each other without padding (`C85_aligned_nodes_negation`).
* `src/List.c` 394-456: the status of the constructor is ignored (`C87_failing_constructor_negation`).
* `src/List.c` 182-218, 541-657: a refused deallocation leaves a stale size or a dangling head
  (`C86_*_negation`); a destroyed list still points to its nodes (`C127_list_*_negation`).
* `src/List.c` 70, 110: `sizeof(ZyanListNode) + element_size` wraps (`C122_list_negation`).

### Command lines

* `src/ArgParse.c` 154-208: after a cluster of flags the loop falls through to the unnamed arguments
  (`C52_documented_grammar_fails`, `C57_flag_cluster_is_also_unnamed`).
* `src/ArgParse.c` 108, 158, 221: a refused growth returns without destroying the vector (`C56_refusal_leaks`).
* `src/ArgParse.c` 63: two definitions may have the same name; only the first one is ever used, and if a later one
  is required no command line is accepted (`C164_negation_duplicate`).
* `src/ArgParse.c` 49, 55: no check of the configuration (`C124_config_negation`).
* `src/ArgParse.c` 84: `argc * sizeof(ZyanArgParseArg)` is not checked; if it wraps (108 million tokens with a `size_t` of
  32 bits), the arguments are written behind the block (`C178_wraps`).

### Macros, C library, platform

* `include/Zycore/Defines.h` 483: aligning down lowers every multiple (`C67_align_down_negation`); 471: an
  alignment of 32 bits clears the high half of a value of 64 bits (`C93_narrow_alignment_negation`); 441: the
  least value has no absolute value (`C91_abs_negation`); 525: only 32 bits are counted (`C69_bits_negation`);
  494: the kernel division takes a divisor of 32 bits (`C113_kernel_negation`).
* `include/Zycore/LibC.h`: 396: `ZYAN_STRNCMP` does not stop at the terminators (`C61_strncmp_negation`); 460:
  `ZYAN_STRSTR` of two empty strings is null (`C63_empty_in_empty`); 337: `ZYAN_STRCOLL` is a stub (`C90_collation_negation`).
* `src/API/Memory.c` 58, 74: a failing `sysconf` is reported as page size 4294967295 (`C98_page_size_negation`);
  106-118: the size is ignored on Windows (`C106_*_negation`).
* `src/API/Thread.c` 109-121: the id is read from the memory behind the handle (`C102_ids_negation`).
* Null pointers for results are not checked by the getters, the searches, `Emplace` and the comparisons
  (`C124_getter_negation`, `C124_search_negation`, `C124_emplace_negation`, `C124_compare_negation`).
* `include/Zycore/Format.h` 90-172, `include/Zycore/List.h` 269-309: eight functions are declared and defined nowhere
  (`C136_negation`).
* `include/Zycore/Defines.h` 161-175, 275-283: debug builds and checked assertions are decided by different macros
  (`C135_negation_msvc`, `C135_negation_unknown`, `C135_negation_no_libc`).
* `include/Zycore/Internal/AtomicMSVC.h` 85-87: no atomic operations with the Microsoft compiler on ARM
  (`C137_negation`).
* `include/Zycore/Types.h` 258-261: the checks of the signs also accept them all exchanged (`C138_negation`).
* `include/Zycore/Types.h` 53: the Intel compiler is taken to have 32-bit pointers everywhere but on 64-bit Windows, so
  the no-libc build does not compile with it on 64-bit Linux (`C165_negation_icc`); 126-130: `unsigned int` stands in
  for a missing `__UINTPTR_TYPE__` on 64-bit targets other than x86-64 (`C165_negation_pointer`).
* Build files: users of a static library built with Meson and MSVC declare its functions as imported
  (`C168_negation_meson`; meson.build line 141 says so); with Clang or the Intel compiler in place of MSVC nothing is
  exported from a shared library (`C168_negation_clang`); CMake names the shared library after 1.5, Meson after 1
  (`C169_negation_soname`); without the C library, CMake leaves the stack protector on, links the C library outside
  Unix and builds the examples and tests (`C169_negation_no_libc`).

### Example programs

* `examples/Vector.c`: the comment in line 111 speaks of element 15, but index 10 is changed; the comment in line
  332 speaks of a capacity of 10, but 5 is passed. When an allocator refuses, the program ends without giving its
  memory back (C142 says so).
* `examples/String.c` 65, 80, 91: the tests are called with a null pointer and assert that it is not one. So the
  program stops at the first assertion in a build with checked assertions, and does nothing in any other build.
  It uses no function of the library and is not modelled.
