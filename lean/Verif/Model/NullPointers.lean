import Verif.Model.Vector
import Verif.Model.StringData
import Verif.Model.Format
import Verif.Model.Bitset
import Verif.Model.List
import Verif.Model.ArgParse

/-!
# Model of the exported functions as the caller sees them: with pointers that may be null

The other models describe the functions behind their argument checks. Here each exported function takes its
pointers: an object or a view is `Option`, `none` being null; a pointer that only receives a result is a `Bool`,
`false` being null. The result is the status, the object afterwards and the number that was written to the
result pointer (an index, a size, or for pointers into the storage of the object the slot they denote).
-/

namespace Zy

variable {α σ ρ : Type}

/-- The result of a call on an object `σ`. -/
abbrev PRes (σ : Type) := Out (Status × Option σ × Option Int)

/-- `if (!object) { return ZYAN_STATUS_INVALID_ARGUMENT; }`: a function whose first statement rejects a null
object. -/
def checkPtr (p : Option σ) (f : σ → PRes σ) : PRes σ :=
  match p with
  | none => .ret (stInvalidArgument, none, none)
  | some s => f s

/-- A function that uses the object without looking whether it is there. -/
def usePtr (p : Option σ) (f : σ → PRes σ) : PRes σ :=
  match p with
  | none => .ub .null
  | some s => f s

/-- A call that changes the object and has no result besides the status. -/
def plain (r : Out (Status × σ)) : PRes σ := r.bind fun q => .ret (q.1, some q.2, none)

/-- `*result = x` where the model of the function has a result to write. -/
def writeRes (s : σ) (out : Bool) (r : Status × Option Int) : PRes σ :=
  match r.2 with
  | none => .ret (r.1, some s, none)
  | some x => if out then .ret (r.1, some s, some x) else .ub .null

/-! ## Vectors -/

/-- A call of a function of include/Zycore/Vector.h with its arguments besides the vector. -/
inductive VecCall (α : Type) where
  | destroy
  | getPointer (index : Nat) (value : Bool)
  | set (index : Nat) (value : Src α)
  | pushBack (element : Src α)
  | insert (index : Nat) (element : Src α)
  | insertRange (index : Nat) (elements : Src α) (count : Nat)
  | emplace (element : Bool) (constructor : Ctor α)
  | emplaceEx (index : Nat) (element : Bool) (constructor : Ctor α)
  | swap (first second : Nat)
  | delete (index : Nat)
  | deleteRange (index count : Nat)
  | popBack
  | clear
  | find (found : Bool) (comparison : Option (Cell α → Bool))
  | findEx (found : Bool) (comparison : Option (Cell α → Bool)) (index count : Nat)
  | binarySearch (found : Bool) (comparison : Option (Cell α → Int))
  | binarySearchEx (found : Bool) (comparison : Option (Cell α → Int)) (index count : Nat)
  | resize (size : Nat)
  | resizeEx (size : Nat) (initializer : Src α)
  | reserve (capacity : Nat)
  | shrinkToFit
  | getCapacity (capacity : Bool)
  | getSize (size : Bool)

/-- `ZyanVectorEmplaceEx` behind the check of the vector: src/Vector.c lines 501-528. The element pointer is
written without a check, after room was made and before the constructor is called. -/
def emplaceAt (s : VS α) (index : Nat) (element : Bool) (constructor : Ctor α) : PRes (VS α) :=
  if index > s.v.size then .ret (stOutOfRange, some s, none)
  else
    (growFor s (add64 s.v.size 1)).bind fun g =>
    if failed g.1 then .ret (g.1, some g.2, none)
    else if element then (vecEmplaceEx s index constructor).bind fun r => .ret (r.1, some r.2, some (index : Int))
    else (if index < g.2.v.size then shiftRight g.2 index 1 else .ret g.2).bind fun _ => .ub .null

/-- `ZyanVectorFindEx` behind the check of the vector: src/Vector.c lines 660-684. A null comparison is called
for the first element. -/
def findAt (s : VS α) (found : Bool) (comparison : Option (Cell α → Bool)) (index count : Nat) : PRes (VS α) :=
  match comparison with
  | some eq => (vecFindEx s eq index count).bind (writeRes s found)
  | none =>
    if add64 index count > s.v.size ∨ index = s.v.size then .ret (stOutOfRange, some s, none)
    else if count = 0 then writeRes s found (stFalse, some (-1))
    else .ub .null

/-- `ZyanVectorBinarySearchEx` behind the check of the vector: src/Vector.c lines 705-740. -/
def binarySearchAt (s : VS α) (found : Bool) (comparison : Option (Cell α → Int)) (index count : Nat) :
    PRes (VS α) :=
  match comparison with
  | some cmp =>
    (vecBinarySearchEx s cmp index count).bind fun r => writeRes s found (r.1, r.2.1.map fun n => (n : Int))
  | none =>
    if (index ≥ s.v.size ∧ count > 0) ∨ add64 index count > s.v.size then .ret (stOutOfRange, some s, none)
    else if count = 0 then writeRes s found (stFalse, some index)
    else .ub .null

/-- The functions of src/Vector.c on a vector: which pointers they check, lines 238-241, 358-361, 377-380,
396-399, 424-427, 446-449, 454-457, 486-491, 497-500, 537-540, 568-571, 575-578, 609-612, 633-636, 645-651,
656-659, 690-696, 701-704, 747-750, 754-757, 793-796, 808-811, 822-825 and 834-837. The checks of element
pointers are part of the functions called. -/
def vecCall (p : Option (VS α)) : VecCall α → PRes (VS α)
  | .destroy => checkPtr p fun s => plain (vecDestroy s)
  | .getPointer index value =>
    if value then checkPtr p fun s =>
      .ret ((vecGetPointer s index).1, some s, (vecGetPointer s index).2.map fun n => (n : Int))
    else .ret (stInvalidArgument, p, none)
  | .set index value => checkPtr p fun s => plain (vecSet s index value)
  | .pushBack element => checkPtr p fun s => plain (vecPushBack s element)
  | .insert index element => checkPtr p fun s => plain (vecInsert s index element)
  | .insertRange index elements count => checkPtr p fun s => plain (vecInsertRange s index elements count)
  | .emplace element constructor => checkPtr p fun s => emplaceAt s s.v.size element constructor
  | .emplaceEx index element constructor => checkPtr p fun s => emplaceAt s index element constructor
  | .swap first second => checkPtr p fun s => plain (vecSwap s first second)
  | .delete index => checkPtr p fun s => plain (vecDelete s index)
  | .deleteRange index count => checkPtr p fun s => plain (vecDeleteRange s index count)
  | .popBack => checkPtr p fun s => plain (vecPopBack s)
  | .clear => checkPtr p fun s => plain (vecClear s)
  | .find found comparison => checkPtr p fun s => findAt s found comparison 0 s.v.size
  | .findEx found comparison index count => checkPtr p fun s => findAt s found comparison index count
  | .binarySearch found comparison => checkPtr p fun s => binarySearchAt s found comparison 0 s.v.size
  | .binarySearchEx found comparison index count =>
    checkPtr p fun s => binarySearchAt s found comparison index count
  | .resize size => checkPtr p fun s => plain (vecResize s size)
  | .resizeEx size initializer => checkPtr p fun s => plain (vecResizeEx s size initializer)
  | .reserve capacity => checkPtr p fun s => plain (vecReserve s capacity)
  | .shrinkToFit => checkPtr p fun s => plain (vecShrinkToFit s)
  | .getCapacity out => checkPtr p fun s => writeRes s out (stSuccess, some (vecGetCapacity s))
  | .getSize out => checkPtr p fun s => writeRes s out (stSuccess, some (vecGetSize s))

/-- `ZyanVectorGet` and `ZyanVectorGetMutable`: src/Vector.c lines 332-335 and 345-348. -/
def vecGetP (p : Option (VS α)) (index : Nat) : Option Nat :=
  match p with
  | none => none
  | some s => vecGet s index

/-- `ZyanVectorInitEx`: src/Vector.c lines 196-199. `vector` tells whether there is an object. -/
def vecInitExP (w : World α) (vector : Bool) (esz capacity : Nat) (hasDtor : Bool) (allocator : Option Nat)
    (growth shrink : Nat) : Status × Option (Vec α) × World α :=
  if vector then vecInitEx w esz capacity hasDtor allocator growth shrink else (stInvalidArgument, none, w)

/-- `ZyanVectorInitCustomBuffer`: src/Vector.c lines 219-222. -/
def vecInitBufferP (vector : Bool) (esz : Nat) (buffer : Option (Block α)) (capacity : Nat) (hasDtor : Bool) :
    Status × Option (Vec α) :=
  if vector then vecInitBuffer esz buffer capacity hasDtor else (stInvalidArgument, none)

/-- `ZyanVectorDuplicateEx`: src/Vector.c lines 280-299. Only the source is checked here, the destination by
`ZyanVectorInitEx`. -/
def vecDuplicateExP (w : World α) (destination : Bool) (source : Option (Vec α)) (capacity : Nat)
    (allocator : Option Nat) (growth shrink : Nat) : Out (Status × Option (Vec α) × World α) :=
  match source with
  | none => .ret (stInvalidArgument, none, w)
  | some src =>
    if destination then vecDuplicateEx w src capacity allocator growth shrink
    else .ret (vecInitExP w false src.esz (max capacity src.size) src.hasDtor allocator growth shrink)

/-- `ZyanVectorDuplicateCustomBuffer`: src/Vector.c lines 301-324. -/
def vecDuplicateBufferP (destination : Bool) (source : Option (Vec α)) (buffer : Option (Block α))
    (capacity : Nat) : Out (Status × Option (Vec α)) :=
  match source with
  | none => .ret (stInvalidArgument, none)
  | some src =>
    if destination then vecDuplicateBuffer src buffer capacity
    else if capacity < src.size then .ret (stInsufficient, none)
    else .ret (vecInitBufferP false src.esz buffer capacity src.hasDtor)

/-! ## Strings -/

/-- A call of a function of include/Zycore/String.h or Format.h with its arguments besides the string. -/
inductive StrCall where
  | destroy
  | getCharMutable (index : Nat) (value : Bool)
  | setChar (index : Nat) (value : Byte)
  | insert (index : Nat) (source : Option View)
  | insertEx (index : Nat) (source : Option View) (sourceIndex count : Nat)
  | append (source : Option View)
  | appendEx (source : Option View) (sourceIndex count : Nat)
  | delete (index count : Nat)
  | truncate (index : Nat)
  | clear
  | toLower
  | toLowerEx (index count : Nat)
  | toUpper
  | toUpperEx (index count : Nat)
  | resize (size : Nat)
  | reserve (capacity : Nat)
  | shrinkToFit
  | getCapacity (capacity : Bool)
  | getSize (size : Bool)
  | getData (value : Bool)
  | appendFormat (format : Option Fmt)
  | appendDecU (value padding : Nat)
  | appendDecS (value : BitVec 64) (padding : Nat) (forceSign : Bool) (pre : Option View)
  | appendHexU (value padding : Nat) (upper : Bool)
  | appendHexS (value : BitVec 64) (padding : Nat) (upper forceSign : Bool) (pre : Option View)

/-- A function that checks the string and a view before anything else. -/
def checkSource (p : Option Str) (source : Option View) (f : Str → View → Out (Status × Str)) : PRes Str :=
  match source with
  | none => .ret (stInvalidArgument, p, none)
  | some v => checkPtr p fun t => plain (f t v)

/-- `ZyanStringAppend`: src/String.c lines 455-458. -/
def strAppendP (p : Option Str) (source : Option View) : PRes Str := checkSource p source strAppend

/-- The signed formatting functions on a null string: src/Format.c lines 441-461 and 482-502. The first call
that gets the string decides. -/
def signedOfNull (number : PRes Str) (value : BitVec 64) (forceSign : Bool) (pre : Option View) : PRes Str :=
  if value.slt 0 then strAppendP none (some viewSub)
  else if forceSign then strAppendP none (some viewAdd)
  else match pre with
    | some v => strAppendP none (some v)
    | none => number

/-- `ZyanStringAppendDecU`: src/Format.c lines 135-138 (and 89-92). -/
def strAppendDecUP (p : Option Str) (value padding : Nat) : PRes Str :=
  checkPtr p fun t => plain (strAppendDecU t value padding)

/-- `ZyanStringAppendHexU`: src/Format.c lines 257-260 (and 186-189). -/
def strAppendHexUP (p : Option Str) (value padding : Nat) (upper : Bool) : PRes Str :=
  checkPtr p fun t => plain (strAppendHexU t value padding upper)

/-- The functions of src/String.c and src/Format.c on a string: which pointers they check, src/String.c lines
108-111, 358-361, 374-377, 394-397, 420-423, 455-458, 472-475, 498-501, 517-520, 536-539, 937-940, 951-954,
978-981, 992-995, 1023-1026, 1036-1039, 1046-1049, 1060-1063, 1073-1076, 1086-1089; src/Format.c lines 374-377. -/
def strCall (p : Option Str) : StrCall → PRes Str
  | .destroy => checkPtr p fun t => plain (strDestroy t)
  | .getCharMutable index value => checkPtr p fun t =>
    if add64 index 1 ≥ t.s.v.size then .ret (stOutOfRange, some t, none)
    else if value then
      .ret ((vecGetPointer t.s index).1, some t, (vecGetPointer t.s index).2.map fun n => (n : Int))
    else .ret (stInvalidArgument, some t, none)
  | .setChar index value => checkPtr p fun t => plain (strSetChar t index value)
  | .insert index source => checkSource p source fun t v => strInsert t index v
  | .insertEx index source sourceIndex count => checkSource p source fun t v => strInsertEx t index v sourceIndex count
  | .append source => strAppendP p source
  | .appendEx source sourceIndex count => checkSource p source fun t v => strAppendEx t v sourceIndex count
  | .delete index count => checkPtr p fun t => plain (strDelete t index count)
  | .truncate index => checkPtr p fun t => plain (strTruncate t index)
  | .clear => checkPtr p fun t => plain (strClear t)
  | .toLower => checkPtr p fun t => plain (strToLower t)
  | .toLowerEx index count => checkPtr p fun t => plain (strToLowerEx t index count)
  | .toUpper => checkPtr p fun t => plain (strToUpper t)
  | .toUpperEx index count => checkPtr p fun t => plain (strToUpperEx t index count)
  | .resize size => checkPtr p fun t => plain (strResize t size)
  | .reserve capacity => checkPtr p fun t => plain (strReserve t capacity)
  | .shrinkToFit => checkPtr p fun t => plain (strShrinkToFit t)
  | .getCapacity out => checkPtr p fun t => writeRes t out (stSuccess, some (strGetCapacity t))
  | .getSize out => checkPtr p fun t => writeRes t out (stSuccess, some (strGetSize t))
  | .getData out => checkPtr p fun t => writeRes t out (stSuccess, some 0)
  | .appendFormat format =>
    match format with
    | none => .ret (stInvalidArgument, p, none)
    | some f => checkPtr p fun t => plain (strAppendFormat t f)
  | .appendDecU value padding => strAppendDecUP p value padding
  | .appendDecS value padding forceSign pre =>
    match p with
    | some t => plain (strAppendDecS t value padding forceSign pre)
    | none => signedOfNull (strAppendDecUP none value.toNat padding) value forceSign pre
  | .appendHexU value padding upper => strAppendHexUP p value padding upper
  | .appendHexS value padding upper forceSign pre =>
    match p with
    | some t => plain (strAppendHexS t value padding upper forceSign pre)
    | none => signedOfNull (strAppendHexUP none value.toNat padding upper) value forceSign pre

/-- `ZyanStringInitEx`: src/String.c lines 67-70. -/
def strInitExP (w : World Byte) (string : Bool) (capacity : Nat) (allocator : Option Nat) (growth shrink : Nat) :
    Out (Status × Option Str × World Byte) :=
  if string then strInitEx w capacity allocator growth shrink else .ret (stInvalidArgument, none, w)

/-- `ZyanStringInitCustomBuffer`: src/String.c lines 88-91. -/
def strInitBufferP (w : World Byte) (string : Bool) (buffer : Option (Block Byte)) (capacity : Nat) :
    Out (Status × Option Str) :=
  if string then strInitBuffer w buffer capacity else .ret (stInvalidArgument, none)

/-- `ZyanStringDuplicateEx`: src/String.c lines 135-154. Only the source is checked here, the destination by
`ZyanStringInitEx`. -/
def strDuplicateExP (w : World Byte) (destination : Bool) (source : Option View) (capacity : Nat)
    (allocator : Option Nat) (growth shrink : Nat) : Out (Status × Option Str × World Byte) :=
  match source with
  | none => .ret (stInvalidArgument, none, w)
  | some src =>
    if destination then strDuplicateEx w src capacity allocator growth shrink
    else if src.size = 0 then .ret (stInvalidArgument, none, w)
    else strInitExP w false (max capacity (src.size - 1)) allocator growth shrink

/-- `ZyanStringDuplicateCustomBuffer`: src/String.c lines 156-179. -/
def strDuplicateBufferP (w : World Byte) (destination : Bool) (source : Option View) (buffer : Option (Block Byte))
    (capacity : Nat) : Out (Status × Option Str) :=
  match source with
  | none => .ret (stInvalidArgument, none)
  | some src =>
    if destination then strDuplicateBuffer w src buffer capacity
    else if src.size = 0 then .ret (stInvalidArgument, none)
    else if capacity < src.size then .ret (stInsufficient, none)
    else strInitBufferP w false buffer capacity

/-- `ZyanStringConcatEx`: src/String.c lines 196-217. -/
def strConcatExP (w : World Byte) (destination : Bool) (s1 s2 : Option View) (capacity : Nat)
    (allocator : Option Nat) (growth shrink : Nat) : Out (Status × Option Str × World Byte) :=
  match s1, s2 with
  | some v1, some v2 =>
    if destination then strConcatEx w v1 v2 capacity allocator growth shrink
    else if v1.size = 0 ∨ v2.size = 0 then .ret (stInvalidArgument, none, w)
    else strInitExP w false (max capacity (sub64 (sub64 (add64 v1.size v2.size) 1) 1)) allocator growth shrink
  | _, _ => .ret (stInvalidArgument, none, w)

/-- `ZyanStringConcatCustomBuffer`: src/String.c lines 219-243. -/
def strConcatBufferP (w : World Byte) (destination : Bool) (s1 s2 : Option View) (buffer : Option (Block Byte))
    (capacity : Nat) : Out (Status × Option Str) :=
  match s1, s2 with
  | some v1, some v2 =>
    if destination then strConcatBuffer w v1 v2 buffer capacity
    else if v1.size = 0 ∨ v2.size = 0 then .ret (stInvalidArgument, none)
    else if capacity < sub64 (add64 v1.size v2.size) 1 then .ret (stInsufficient, none)
    else strInitBufferP w false buffer capacity
  | _, _ => .ret (stInvalidArgument, none)

/-! ## Views -/

/-- A call of a function of include/Zycore/String.h on constant views. -/
inductive ViewFn where
  | insideView (view : Bool) (source : Option View)
  | insideViewEx (view : Bool) (source : Option View) (index count : Nat)
  | insideBuffer (view : Bool) (string : Option (List (Cell Byte)))
  | insideBufferEx (view : Bool) (buffer : Option (List (Cell Byte))) (length : Nat)
  | getSize (view : Option View) (size : Bool)
  | getData (view : Option View) (buffer : Bool)
  | getChar (string : Option View) (elementSize : Cell Nat) (index : Nat) (value : Bool)
  | lpos (haystack needle : Option View) (found : Bool)
  | lposEx (haystack needle : Option View) (found : Bool) (index count : Nat)
  | lposI (haystack needle : Option View) (found : Bool)
  | lposIEx (haystack needle : Option View) (found : Bool) (index count : Nat)
  | rpos (haystack needle : Option View) (found : Bool)
  | rposEx (haystack needle : Option View) (found : Bool) (index count : Nat)
  | rposI (haystack needle : Option View) (found : Bool)
  | rposIEx (haystack needle : Option View) (found : Bool) (index count : Nat)
  | compare (s1 s2 : Option View) (result : Bool)
  | compareI (s1 s2 : Option View) (result : Bool)

/-- What a function on views writes to its result pointer. -/
inductive ViewOut where
  | view (v : View)
  | num (x : Int)
  | mem (cells : List (Cell Byte))
  | char (c : Cell Byte)

/-- A search function: src/String.c lines 569-572, 638-641, 706-709 and 777-780 (the functions without `Ex`
check the haystack themselves, lines 558-561, 623-626, 694-697, 761-764, because they need its size). -/
def searchP (haystack needle : Option View) (found : Bool) (f : View → View → Out (Status × Option Int)) :
    Out (Status × Option ViewOut) :=
  match haystack, needle with
  | some h, some n =>
    if found then (f h n).bind fun r => .ret (r.1, r.2.map .num) else .ret (stInvalidArgument, none)
  | _, _ => .ret (stInvalidArgument, none)

/-- A comparison: src/String.c lines 837-879 and 887-929. The result pointer is not checked. -/
def compareP (s1 s2 : Option View) (result : Bool) (f : View → View → Out (Status × Int)) :
    Out (Status × Option ViewOut) :=
  match s1, s2 with
  | some v1, some v2 =>
    (f v1 v2).bind fun r => if result then .ret (r.1, some (.num r.2)) else .ub .null
  | _, _ => .ret (stInvalidArgument, none)

/-- A function that checks a source and the pointer for its result first. -/
def checkBoth (p : Option σ) (out : Bool) (f : σ → Out (Status × Option ViewOut)) : Out (Status × Option ViewOut) :=
  match p with
  | none => .ret (stInvalidArgument, none)
  | some s => if out then f s else .ret (stInvalidArgument, none)

/-- The functions of src/String.c on constant views: which pointers they check, lines 251-254, 265-268, 283-286,
296-299, 309-312, 322-325, 338-341 and those of `searchP` and `compareP`. -/
def viewFn : ViewFn → Out (Status × Option ViewOut)
  | .insideView view source =>
    checkBoth source view fun v => .ret ((viewInsideView v).1, some (.view (viewInsideView v).2))
  | .insideViewEx view source index count =>
    checkBoth source view fun v => .ret ((viewInsideViewEx v index count).1,
      (viewInsideViewEx v index count).2.map .view)
  | .insideBuffer view string =>
    checkBoth string view fun m => (viewInsideBuffer m).bind fun r => .ret (r.1, some (.view r.2))
  | .insideBufferEx view buffer length =>
    checkBoth buffer view fun m => .ret ((viewInsideBufferEx m length).1, (viewInsideBufferEx m length).2.map .view)
  | .getSize view size => checkBoth view size fun v => .ret (stSuccess, some (.num (viewGetSize v)))
  | .getData view buffer => checkBoth view buffer fun v => .ret ((viewGetData v).1, some (.mem (viewGetData v).2))
  | .getChar string esz index value =>
    checkBoth string value fun v => (strGetChar v esz index).bind fun r => .ret (r.1, r.2.map .char)
  | .lpos h n found => searchP h n found strLPos
  | .lposEx h n found index count => searchP h n found fun h n => strLPosEx h n index count
  | .lposI h n found => searchP h n found strLPosI
  | .lposIEx h n found index count => searchP h n found fun h n => strLPosIEx h n index count
  | .rpos h n found => searchP h n found strRPos
  | .rposEx h n found index count => searchP h n found fun h n => strRPosEx h n index count
  | .rposI h n found => searchP h n found strRPosI
  | .rposIEx h n found index count => searchP h n found fun h n => strRPosIEx h n index count
  | .compare s1 s2 result => compareP s1 s2 result strCompare
  | .compareI s1 s2 result => compareP s1 s2 result strCompareI

/-! ## Bitsets -/

/-- A call of a function of include/Zycore/Bitset.h with its arguments besides the bitset. -/
inductive BitCall where
  | destroy
  | perform (source : Option Bits) (operation : Option (Byte → Byte → Status × Byte))
  | and (source : Option Bits)
  | or (source : Option Bits)
  | xor (source : Option Bits)
  | flip
  | set (index : Nat)
  | reset (index : Nat)
  | assign (index : Nat) (value : Bool)
  | toggle (index : Nat)
  | test (index : Nat)
  | testMSB
  | testLSB
  | setAll
  | resetAll
  | push (value : Bool)
  | pop
  | clear
  | reserve (count : Nat)
  | shrinkToFit
  | getSize (size : Bool)
  | getCapacity (capacity : Bool)
  | getSizeBytes (size : Bool)
  | getCapacityBytes (capacity : Bool)
  | count (count : Bool)
  | all
  | any
  | none

/-- A query whose answer is the status. -/
def answer (t : Bits) (r : Out Status) : PRes Bits := r.bind fun st => .ret (st, some t, none)

/-- `ZyanBitsetPerformByteOperation`: src/Bitset.c lines 199-202. -/
def performP (p source : Option Bits) (operation : Option (Byte → Byte → Status × Byte)) : PRes Bits :=
  match source, operation with
  | some u, some op => checkPtr p fun t => plain (bsPerform op t u)
  | _, _ => .ret (stInvalidArgument, p, .none)

/-- The functions of src/Bitset.c on a bitset: which pointers they check, lines 184-187, 243-246, 266-269,
285-288, 301-308, 312-315, 330-333, 350-353, 358-361, 367-370, 386-389, 409-412, 425-428, 440-443, 469-472,
479-485, 489-492, 499-502, 511-514, 540-543, 572-575 and 604-607. `ZyanBitsetReserve` and
`ZyanBitsetShrinkToFit` (lines 453-461) compute the address of a member of the bitset and pass it on; that
member is not at the beginning of the structure, so the check of the vector function does not help. -/
def bitCall (p : Option Bits) : BitCall → PRes Bits
  | .destroy => checkPtr p fun t => plain (bsDestroy t)
  | .perform source operation => performP p source operation
  | .and source => performP p source (some fun x y => (stSuccess, x &&& y))
  | .or source => performP p source (some fun x y => (stSuccess, x ||| y))
  | .xor source => performP p source (some fun x y => (stSuccess, x ^^^ y))
  | .flip => checkPtr p fun t => plain (bsFlip t)
  | .set index => checkPtr p fun t => plain (bsSet t index)
  | .reset index => checkPtr p fun t => plain (bsReset t index)
  | .assign index value => checkPtr p fun t => plain (bsAssign t index value)
  | .toggle index => checkPtr p fun t => plain (bsToggle t index)
  | .test index => checkPtr p fun t => answer t (bsTest t index)
  | .testMSB => checkPtr p fun t => answer t (bsTestMSB t)
  | .testLSB => checkPtr p fun t => answer t (bsTestLSB t)
  | .setAll => checkPtr p fun t => plain (bsSetAll t)
  | .resetAll => checkPtr p fun t => plain (bsResetAll t)
  | .push value => checkPtr p fun t => plain (bsPush t value)
  | .pop => checkPtr p fun t => plain (bsPop t)
  | .clear => checkPtr p fun t => plain (bsClear t)
  | .reserve count => usePtr p fun t => plain (bsReserve t count)
  | .shrinkToFit => usePtr p fun t => plain (bsShrinkToFit t)
  | .getSize out => checkPtr p fun t => writeRes t out (stSuccess, some (bsGetSize t))
  | .getCapacity out => checkPtr p fun t => writeRes t out (stSuccess, some (bsGetCapacity t))
  | .getSizeBytes out => checkPtr p fun t => writeRes t out (stSuccess, some (bsGetSizeBytes t))
  | .getCapacityBytes out => checkPtr p fun t => writeRes t out (stSuccess, some (bsGetCapacityBytes t))
  | .count out =>
    if out then checkPtr p fun t => (bsCount t).bind fun r => .ret (r.1, some t, some r.2)
    else .ret (stInvalidArgument, p, .none)
  | .all => checkPtr p fun t => answer t (bsAll t)
  | .any => checkPtr p fun t => answer t (bsAny t)
  | .none => checkPtr p fun t => answer t (bsNone t)

/-- `ZyanBitsetInitEx`: src/Bitset.c lines 145-148. -/
def bsInitExP (w : World Byte) (bitset : Bool) (count : Nat) (allocator : Option Nat) (growth shrink : Nat) :
    Out (Status × Option Bits × World Byte) :=
  if bitset then bsInitEx w count allocator growth shrink else .ret (stInvalidArgument, .none, w)

/-- `ZyanBitsetInitBuffer`: src/Bitset.c lines 163-166. -/
def bsInitBufferP (w : World Byte) (bitset : Bool) (count : Nat) (buffer : Option (Block Byte)) (capacity : Nat) :
    Out (Status × Option Bits) :=
  if bitset then bsInitBuffer w count buffer capacity else .ret (stInvalidArgument, .none)

/-! ## Lists -/

/-- A call of a function of include/Zycore/List.h with its arguments besides the list. Nodes are given by their
address. -/
inductive ListCall (α : Type) where
  | destroy
  | getHead (node : Bool)
  | getTail (node : Bool)
  | setNodeData (node : Option Nat) (value : LSrc α)
  | pushBack (item : LSrc α)
  | pushFront (item : LSrc α)
  | emplaceBack (item : Bool) (constructor : Ctor α)
  | emplaceFront (item : Bool) (constructor : Ctor α)
  | popBack
  | popFront
  | remove (node : Option Nat)
  | removeRange (first last : Option Nat)
  | clear
  | resize (size : Nat)
  | resizeEx (size : Nat) (initializer : LSrc α)
  | getSize (size : Bool)

/-- The functions of src/List.c on a list: which pointers they check, lines 184-187, 226-229, 238-241, 318-321,
340-343, 368-371, 396-399, 428-431, 464-467, 496-499, 541-544, 556-559, 563-566 and 661-664.
`ZyanListRemove` and `ZyanListRemoveRange` (lines 526-539) look at nothing. The pointer that is handed out by the
emplacing functions is the data of the new node, which is the last or the first one. -/
def listCall (p : Option (LS α)) : ListCall α → PRes (LS α)
  | .destroy => checkPtr p fun s => plain (listDestroy s)
  | .getHead out => checkPtr p fun s =>
    if out then .ret ((listGetHead s).1, some s, (listGetHead s).2.map fun n => (n : Int)) else .ub .null
  | .getTail out => checkPtr p fun s =>
    if out then .ret ((listGetTail s).1, some s, (listGetTail s).2.map fun n => (n : Int)) else .ub .null
  | .setNodeData node value => checkPtr p fun s => plain (listSetNodeData s node value)
  | .pushBack item => checkPtr p fun s => plain (listPushBack s item)
  | .pushFront item => checkPtr p fun s => plain (listPushFront s item)
  | .emplaceBack item constructor =>
    if item then checkPtr p fun s => (listEmplaceBack s constructor).bind fun r => .ret (r.1, some r.2,
      if failed r.1 then none else r.2.l.tail.map fun n => (n : Int))
    else .ret (stInvalidArgument, p, none)
  | .emplaceFront item constructor =>
    if item then checkPtr p fun s => (listEmplaceFront s constructor).bind fun r => .ret (r.1, some r.2,
      if failed r.1 then none else r.2.l.head.map fun n => (n : Int))
    else .ret (stInvalidArgument, p, none)
  | .popBack => checkPtr p fun s => plain (listPopBack s)
  | .popFront => checkPtr p fun s => plain (listPopFront s)
  | .remove node =>
    match p with
    | some s => plain (listRemove s node)
    | none => .ret (stSuccess, none, none)
  | .removeRange first last =>
    match p with
    | some s => plain (listRemoveRange s first last)
    | none => .ret (stSuccess, none, none)
  | .clear => checkPtr p fun s => plain (listClear s)
  | .resize size => checkPtr p fun s => plain (listResize s size)
  | .resizeEx size initializer => checkPtr p fun s => plain (listResizeEx s size initializer)
  | .getSize out => checkPtr p fun s => writeRes s out ((listGetSize s).1, some (listGetSize s).2)

/-- `ZyanListGetPrevNode` and `ZyanListGetNextNode`: src/List.c lines 250-253 and 262-265. `node` is the pointer
to the variable with the node; the result is what the variable holds afterwards. -/
def listStepP (forward : Bool) (s : LS α) (node : Option (Option Nat)) : Out (Status × Option (Option Nat)) :=
  match node with
  | none => .ret (stInvalidArgument, none)
  | some n => (if forward then listGetNext s n else listGetPrev s n).bind fun r => .ret (r.1, some r.2)

/-- `ZyanListGetNodeDataEx` and `ZyanListGetNodeDataMutableEx`: src/List.c lines 284-291 and 306-313. -/
def listNodeDataExP (node : Option Nat) (value : Bool) : Out (Status × Option (LSrc α)) :=
  match (listNodeDataEx node : Status × Option (LSrc α)) with
  | (st, none) => .ret (st, none)
  | (st, some x) => if value then .ret (st, some x) else .ub .null

/-- `ZyanListInitEx`: src/List.c lines 143-146. -/
def listInitExP (list : Bool) (esz : Nat) (hasDtor : Bool) (allocator : Option Nat) : Status × Option ZList :=
  if list then listInitEx esz hasDtor allocator else (stInvalidArgument, none)

/-- `ZyanListInitCustomBuffer`: src/List.c lines 164-167. -/
def listInitBufferP (list : Bool) (esz : Nat) (hasDtor : Bool) (buffer : Option Nat) (capacity : Nat) :
    Status × Option ZList :=
  if list then listInitBuffer esz hasDtor buffer capacity else (stInvalidArgument, none)

/-! ## Argument parser -/

/-- `ZyanArgParseEx`: src/ArgParse.c lines 44-85. The configuration is only checked by an assertion; the vector
for the results is checked by `ZyanVectorInitEx`. -/
def argParseExP (w : World AArg) (cfg : Option ArgConfig) (parsed want : Bool) (allocator : Option Nat) :
    Out ArgResult :=
  match cfg with
  | none => .ub .null
  | some c =>
    if parsed then argParseEx w c want allocator
    else if c.minUnnamed > c.maxUnnamed then .ret ⟨stInvalidArgument, .untouched, none, w⟩
    else
      (defsSyntaxOk c.args).bind fun ok =>
      if !ok then .ret ⟨stInvalidArgument, .untouched, none, w⟩
      else
        let r := vecInitExP w false argSize c.argc false allocator 2 4
        .ret ⟨r.1, .untouched, r.2.1, r.2.2⟩

end Zy
