import Verif.Model.Vector

/-!
# Model of examples/Vector.c

First the loop of sorted insertion for any elements and any comparison, then the whole program.

Simplifications. What the program prints is a list of `Line`s; their formatting is that of `printf` and not
modelled. `rand()` is a function from the number of the call to the value. Every test function runs in a
world of its own that starts with the answers of the allocator that are left, so blocks are numbered per
test function. The assertions on the addresses of local variables are left out.
-/

namespace Zy

variable {α : Type}

/-- The loop of `PerformBinarySearchTest`: examples/Vector.c lines 180-189. The list holds the values that
the successive iterations store in `e_v` (lines 182-183). An index that `ZyanVectorBinarySearch` has not
written is indeterminate. -/
def sortedFill (cmp : Cell α → Cell α → Int) (s : VS α) : List (Cell α) → Out (Status × VS α)
  | [] => .ret (stSuccess, s)
  | x :: xs =>
    (vecBinarySearch s fun y => cmp y x).bind fun r =>
    if failed r.1 then .ret (r.1, s)
    else match r.2.1 with
      | none => .ub .indet
      | some p =>
        (vecInsert s p (.ext [x])).bind fun q =>
        if failed q.1 then .ret q else sortedFill cmp q.2 xs

/-! ## The program -/

/-- `TestStruct`: examples/Vector.c lines 48-53. The member `f` is written and never read; it is left out. -/
structure TestStruct where
  u32 : Nat
  u64 : Nat
deriving DecidableEq, Repr

/-- `sizeof(TestStruct)` with its alignment of eight. -/
def testStructSize : Nat := 24

/-- `InitTestdata`: examples/Vector.c lines 65-72, as the value that is stored. -/
def initTestdata (n : Nat) : Cell TestStruct := some ⟨n, n⟩

/-- What the program prints. -/
inductive Line where
  /-- `i=%d cap=%` (line 101) -/
  | pushed (i cap : Nat)
  /-- `ELEMENTS` (lines 118, 193) -/
  | elements
  /-- `Element #%02: %08` (lines 122, 197) -/
  | element (i value : Nat)
  /-- `INFO` (lines 126, 359) -/
  | info
  /-- `Size       : %08` (lines 127, 361) -/
  | size (n : Nat)
  /-- `Capacity   : %08` (lines 129, 363) -/
  | capacity (n : Nat)
deriving DecidableEq, Repr

/-- A test function at work: its vector, what was printed so far, and how often `rand` was called. -/
structure ExSt where
  s : VS TestStruct
  out : List Line
  rands : Nat

/-- `ZYAN_CHECK` around a call on the vector: include/Zycore/Status.h lines 99-109. -/
def ExSt.check (t : ExSt) (x : Out (Status × VS TestStruct)) (k : ExSt → Out (Status × ExSt)) :
    Out (Status × ExSt) :=
  x.bind fun r => if failed r.1 then .ret (r.1, { t with s := r.2 }) else k { t with s := r.2 }

/-- `ZYAN_CHECK` around a function of the program. -/
def exCheck (x : Out (Status × ExSt)) (k : ExSt → Out (Status × ExSt)) : Out (Status × ExSt) :=
  x.bind fun r => if failed r.1 then .ret r else k r.2

/-- `printf` and `puts`. -/
def ExSt.print (t : ExSt) (l : Line) : ExSt := { t with out := t.out ++ [l] }

/-- The loop of examples/Vector.c lines 97-102: `n` more pushes from `i` on. -/
def exPushes (t : ExSt) (i : Nat) : Nat → Out (Status × ExSt)
  | 0 => .ret (stSuccess, t)
  | n + 1 =>
    t.check (vecPushBack t.s (.ext [initTestdata i])) fun t =>
    exPushes (t.print (.pushed i t.s.v.cap)) (i + 1) n

/-- The loops of examples/Vector.c lines 119-123 and 194-198: `n` more elements from `i` on, of which the
member `f` is printed. Reading an element that was never written is undefined. -/
def exPrints (f : TestStruct → Nat) (t : ExSt) (i : Nat) : Nat → Out (Status × ExSt)
  | 0 => .ret (stSuccess, t)
  | n + 1 =>
    let p := vecGetPointer t.s i
    if failed p.1 then .ret (p.1, t)
    else match p.2 with
      | none => .ub .indet
      | some j =>
        (vecDeref t.s j).bind fun c =>
        match c with
        | none => .ub .indet
        | some e => exPrints f (t.print (.element i (f e))) (i + 1) n

/-- `PerformBasicTests`: examples/Vector.c lines 89-132. -/
def exBasicTests (t : ExSt) : Out (Status × ExSt) :=
  exCheck (exPushes t 0 20) fun t =>
  t.check (vecDeleteRange t.s 5 5) fun t =>
  t.check (vecInsert t.s 5 (.ext [initTestdata 12345678])) fun t =>
  t.check (vecSet t.s 10 (.ext [initTestdata 87654321])) fun t =>
  let value := vecGetSize t.s
  exCheck (exPrints TestStruct.u64 (t.print .elements) 0 value) fun t =>
  .ret (stSuccess, ((t.print .info).print (.size value)).print (.capacity (vecGetCapacity t.s)))

/-- `TestDataComparison`: examples/Vector.c lines 146-160. Elements that were never written come first here;
the program has none. -/
def testDataComparison (left right : Cell TestStruct) : Int :=
  let key (c : Cell TestStruct) : Nat := match c with | none => 0 | some e => e.u32 + 1
  if key left < key right then -1 else if key left > key right then 1 else 0

/-- The values that the loop of lines 180-189 stores in `e_v`, beginning with call `k` of `rand`. -/
def exDrawn (rand : Nat → Nat) (k n : Nat) : List (Cell TestStruct) :=
  (List.range n).map fun i => initTestdata (rand (k + i) % 100)

/-- `PerformBinarySearchTest`: examples/Vector.c lines 169-201. -/
def exSearchTest (rand : Nat → Nat) (t : ExSt) : Out (Status × ExSt) :=
  let value := vecGetCapacity t.s
  t.check (sortedFill testDataComparison t.s (exDrawn rand t.rands value)) fun t =>
  let t := { t with rands := t.rands + value }
  exPrints TestStruct.u32 (t.print .elements) 0 (vecGetSize t.s)

/-- The world in which a test function begins: the allocator gives the answers `o`. -/
def exWorld (o : Nat → Status) : World TestStruct := ⟨o, 0, 0, []⟩

/-- A test function after an initialisation with result `r`. `ZyanVectorInitEx` leaves the vector as it was
only for arguments that do not occur here (line 209 of src/Vector.c and before). -/
def exInit (r : Status × Option (Vec TestStruct) × World TestStruct) (rands : Nat)
    (k : ExSt → Out (Status × ExSt)) : Out (Status × ExSt) :=
  match r.2.1 with
  | none => .ub .indet
  | some v => if failed r.1 then .ret (r.1, ⟨⟨v, r.2.2⟩, [], rands⟩) else k ⟨⟨v, r.2.2⟩, [], rands⟩

/-- `return ZyanVectorDestroy(&vector)`: examples/Vector.c lines 220, 255, 366. -/
def exDestroy (t : ExSt) : Out (Status × ExSt) :=
  (vecDestroy t.s).bind fun r => .ret (r.1, { t with s := r.2 })

/-- `TestDynamic`: examples/Vector.c lines 208-221. -/
def exTestDynamic (rand : Nat → Nat) (o : Nat → Status) (rands : Nat) : Out (Status × ExSt) :=
  exInit (vecInit (exWorld o) testStructSize 10 false) rands fun t =>
  exCheck (exBasicTests t) fun t =>
  t.check (vecClear t.s) fun t =>
  t.check (vecReserve t.s 20) fun t =>
  exCheck (exSearchTest rand t) exDestroy

/-- The static buffer of examples/Vector.c line 230, zero at the start of the program. -/
def exBuffer : List (Cell TestStruct) := List.replicate 20 (some ⟨0, 0⟩)

/-- The loop of examples/Vector.c lines 240-248: `n` more elements from `i` on. -/
def exCompare (buffer : List (Cell TestStruct)) (t : ExSt) (i : Nat) : Nat → Out (Status × ExSt)
  | 0 => .ret (stSuccess, t)
  | n + 1 =>
    let p := vecGetPointer t.s i
    if failed p.1 then .ret (p.1, t)
    else match p.2 with
      | none => .ub .indet
      | some j =>
        (vecDeref t.s j).bind fun c =>
        match c, buffer[i]? with
        | some e, some (some b) =>
          if e.u64 ≠ b.u64 then .ret (stInvalidOperation, t) else exCompare buffer t (i + 1) n
        | _, none => .ub .oob
        | _, _ => .ub .indet

/-- `TestStatic`: examples/Vector.c lines 228-256. -/
def exTestStatic (rand : Nat → Nat) (o : Nat → Status) (rands : Nat) : Out (Status × ExSt) :=
  let r := vecInitBuffer testStructSize (some ⟨0, exBuffer⟩) 20 false
  exInit (r.1, r.2, exWorld o) rands fun t =>
  exCheck (exCompare exBuffer t 0 (vecGetSize t.s)) fun t =>
  exCheck (exBasicTests t) fun t =>
  t.check (vecClear t.s) fun t =>
  exCheck (exSearchTest rand t) exDestroy

/-- The loop of examples/Vector.c lines 341-345: `n` more pushes from `i` on. -/
def exQuietPushes (t : ExSt) (i : Nat) : Nat → Out (Status × ExSt)
  | 0 => .ret (stSuccess, t)
  | n + 1 => t.check (vecPushBack t.s (.ext [initTestdata i])) fun t => exQuietPushes t (i + 1) n

/-- `TestAllocator`: examples/Vector.c lines 326-367. Its allocator (lines 262-316) has number 1; it does the
same as the default one. -/
def exTestAllocator (o : Nat → Status) (rands : Nat) : Out (Status × ExSt) :=
  exInit (vecInitEx (exWorld o) testStructSize 5 false (some 1) 10 0) rands fun t =>
  exCheck (exQuietPushes t 0 10) fun t =>
  if vecGetCapacity t.s ≠ 60 then .ret (stInvalidOperation, t)
  else
    t.check (vecClear t.s) fun t =>
    exDestroy (((t.print .info).print (.size (vecGetSize t.s))).print (.capacity (vecGetCapacity t.s)))

/-- What a run of the program leaves: the exit code, what was printed, and the requests to allocators in
each test function. -/
structure ExRun where
  code : Nat
  out : List Line
  traces : List (List (Event TestStruct))

/-- `main`: examples/Vector.c lines 375-394. The allocators give the answers `o`. -/
def exMain (rand : Nat → Nat) (o : Nat → Status) : Out ExRun :=
  (exTestDynamic rand o 0).bind fun a =>
  if failed a.1 then .ret ⟨1, a.2.out, [a.2.s.w.trace]⟩
  else
    let k := a.2.s.w.calls
    (exTestStatic rand (fun i => o (k + i)) a.2.rands).bind fun b =>
    if failed b.1 then .ret ⟨1, a.2.out ++ b.2.out, [a.2.s.w.trace, b.2.s.w.trace]⟩
    else
      let k := k + b.2.s.w.calls
      (exTestAllocator (fun i => o (k + i)) b.2.rands).bind fun c =>
      .ret ⟨if failed c.1 then 1 else 0, a.2.out ++ b.2.out ++ c.2.out,
        [a.2.s.w.trace, b.2.s.w.trace, c.2.s.w.trace]⟩

end Zy
