import Verif.Lemmas.StringDebug

/-!
# Helper lemmas: the string and formatting functions without assertions never report a failed assertion
-/

namespace Zy

open Spec

theorem quiet_strPoke (v : Vec Byte) (i : Nat) (c : Cell Byte) : Quiet (strPoke v i c) :=
  quiet_withData fun _ => quiet_ite (quiet_ret _) (fun h => by cases h)

theorem quiet_nullTerminate (t : Str) : Quiet (nullTerminate t) :=
  (quiet_strPoke _ _ _).bind fun _ => quiet_ret _

theorem quiet_vecMemcpy (v : Vec Byte) (d : Nat) (x : Src Byte) (n : Nat) : Quiet (vecMemcpy v d x n) :=
  quiet_withData fun _ => (quiet_memcpyIn _ _ _ _).bind fun _ => quiet_ret _

theorem quiet_vecMemset (v : Vec Byte) (d : Nat) (c : Byte) (n : Nat) : Quiet (vecMemset v d c n) :=
  quiet_withData fun _ => (quiet_writeRange _ _ _).bind fun _ => quiet_ret _

theorem quiet_strStart (v : Vec Byte) : Quiet (strStart v) :=
  (quiet_strPoke _ _ _).bind fun _ => quiet_ret _

theorem quiet_rdChar (m : List (Cell Byte)) (i : Int) : Quiet (rdChar m i) := by
  unfold rdChar
  split
  · exact fun h => by cases h
  · split
    · exact fun h => by cases h
    · exact fun h => by cases h
    · exact quiet_ret _

theorem quiet_strInitEx (w : World Byte) (c : Nat) (al : Option Nat) (g th : Nat) :
    Quiet (strInitEx w c al g th) := by
  unfold strInitEx
  refine quiet_ite (quiet_ret _) ?_
  split
  · exact quiet_ret _
  · exact (quiet_strStart _).bind fun _ => quiet_ret _

theorem quiet_strInitBuffer (w : World Byte) (b : Option (Block Byte)) (c : Nat) :
    Quiet (strInitBuffer w b c) := by
  unfold strInitBuffer
  refine quiet_ite (quiet_ret _) (quiet_ite (quiet_ret _) ?_)
  split
  · exact quiet_ret _
  · exact (quiet_strStart _).bind fun _ => quiet_ret _

theorem quiet_dupInto (t : Str) (v : View) : Quiet (dupInto t v) :=
  (quiet_vecMemcpy _ _ _ _).bind fun _ => quiet_nullTerminate _

theorem quiet_concatInto (t : Str) (v1 v2 : View) : Quiet (concatInto t v1 v2) :=
  (quiet_vecMemcpy _ _ _ _).bind fun _ => (quiet_vecMemcpy _ _ _ _).bind fun _ => quiet_nullTerminate _

theorem quiet_strDuplicateEx (w : World Byte) (v : View) (c : Nat) (al : Option Nat) (g th : Nat) :
    Quiet (strDuplicateEx w v c al g th) := by
  unfold strDuplicateEx
  refine quiet_ite (quiet_ret _) ((quiet_strInitEx _ _ _ _ _).bind fun r => quiet_ite (quiet_ret _) ?_)
  split
  · exact quiet_ret _
  · exact (quiet_dupInto _ _).bind fun _ => quiet_ret _

theorem quiet_strDuplicateBuffer (w : World Byte) (v : View) (b : Option (Block Byte)) (c : Nat) :
    Quiet (strDuplicateBuffer w v b c) := by
  unfold strDuplicateBuffer
  refine quiet_ite (quiet_ret _) (quiet_ite (quiet_ret _)
    ((quiet_strInitBuffer _ _ _).bind fun r => quiet_ite (quiet_ret _) ?_))
  split
  · exact quiet_ret _
  · exact (quiet_dupInto _ _).bind fun _ => quiet_ret _

theorem quiet_strConcatEx (w : World Byte) (v1 v2 : View) (c : Nat) (al : Option Nat) (g th : Nat) :
    Quiet (strConcatEx w v1 v2 c al g th) := by
  unfold strConcatEx
  refine quiet_ite (quiet_ret _) ((quiet_strInitEx _ _ _ _ _).bind fun r => quiet_ite (quiet_ret _) ?_)
  split
  · exact quiet_ret _
  · exact (quiet_concatInto _ _ _).bind fun _ => quiet_ret _

theorem quiet_strConcatBuffer (w : World Byte) (v1 v2 : View) (b : Option (Block Byte)) (c : Nat) :
    Quiet (strConcatBuffer w v1 v2 b c) := by
  unfold strConcatBuffer
  refine quiet_ite (quiet_ret _) (quiet_ite (quiet_ret _)
    ((quiet_strInitBuffer _ _ _).bind fun r => quiet_ite (quiet_ret _) ?_))
  split
  · exact quiet_ret _
  · exact (quiet_concatInto _ _ _).bind fun _ => quiet_ret _

theorem quiet_vecDestroy {α : Type} (s : VS α) : Quiet (vecDestroy s) := by
  unfold vecDestroy
  refine (quiet_runDtors _ _ _).bind fun r => ?_
  split
  · exact quiet_ite (quiet_withData fun _ => quiet_ite (quiet_ret _) (quiet_ret _)) (quiet_ret _)
  · exact quiet_ret _

theorem quiet_strDestroy (t : Str) : Quiet (strDestroy t) :=
  quiet_ite (quiet_ret _) ((quiet_vecDestroy _).bind fun _ => quiet_ret _)

theorem quiet_checkTerminate (t : Str) (r : Status × VS Byte) : Quiet (checkTerminate t r) :=
  quiet_ite (quiet_ret _) ((quiet_nullTerminate _).bind fun _ => quiet_ret _)

theorem quiet_strResize (t : Str) (n : Nat) : Quiet (strResize t n) :=
  Quiet.bind (x := vecResize t.s (add64 n 1)) (quiet_vecOp t.s (.resize (add64 n 1) none))
    fun _ => quiet_checkTerminate _ _

theorem quiet_strAppendSrc (t : Str) (x : Src Byte) (n : Nat) : Quiet (strAppendSrc t x n) := by
  unfold strAppendSrc
  refine quiet_ite (quiet_ret _) (Quiet.bind (x := vecResize t.s (sub64 (add64 t.s.v.size n) 1))
    (quiet_vecOp t.s (.resize _ none)) fun r => quiet_ite (quiet_ret _) ?_)
  exact (quiet_vecMemcpy _ _ _ _).bind fun _ => (quiet_nullTerminate _).bind fun _ => quiet_ret _

theorem quiet_strAppendExSrc (t : Str) (x : Src Byte) (n j c : Nat) :
    Quiet (strAppendExSrc t x n j c) := by
  unfold strAppendExSrc
  refine quiet_ite (quiet_ret _) (quiet_ite (quiet_ret _) (Quiet.bind
    (x := vecResize t.s (add64 t.s.v.size c))
    (quiet_vecOp t.s (.resize _ none)) fun r => quiet_ite (quiet_ret _) ?_))
  exact (quiet_vecMemcpy _ _ _ _).bind fun _ => (quiet_nullTerminate _).bind fun _ => quiet_ret _

theorem quiet_vecInsertRange {α : Type} (s : VS α) (i : Nat) (x : Src α) (n : Nat) :
    Quiet (vecInsertRange s i x n) := by
  refine quiet_ite (quiet_ret _) (quiet_ite (quiet_ret _) ((quiet_growFor _ _).bind fun r =>
    quiet_ite (quiet_ret _) ((quiet_ite (quiet_shiftRight _ _ _) (quiet_ret _)).bind fun _ => ?_)))
  exact quiet_withData fun _ => (quiet_memcpyIn _ _ _ _).bind fun _ => quiet_ret _

theorem quiet_caseLoop (f : Byte → Byte) : ∀ (n : Nat) (v : Vec Byte) (i : Nat), Quiet (caseLoop f v i n)
  | 0, _, _ => quiet_ret _
  | n + 1, _, _ => quiet_withData fun _ => (quiet_rdChar _ _).bind fun _ =>
    (quiet_strPoke _ _ _).bind fun _ => quiet_caseLoop f n _ _

theorem quiet_strAppend (t : Str) (v : View) : Quiet (strAppend t v) := quiet_strAppendSrc _ _ _

theorem quiet_strAppendEx (t : Str) (v : View) (j n : Nat) : Quiet (strAppendEx t v j n) :=
  quiet_strAppendExSrc _ _ _ _ _

theorem quiet_strInsert (t : Str) (i : Nat) (v : View) : Quiet (strInsert t i v) := by
  unfold strInsert
  exact quiet_ite (quiet_ret _) (quiet_ite (quiet_strAppend _ _) (quiet_ite (quiet_ret _)
    ((quiet_vecInsertRange _ _ _ _).bind fun _ => quiet_ite (quiet_ret _) (quiet_ret _))))

theorem quiet_strInsertEx (t : Str) (i : Nat) (v : View) (j n : Nat) : Quiet (strInsertEx t i v j n) := by
  unfold strInsertEx
  exact quiet_ite (quiet_ret _) (quiet_ite (quiet_strAppendEx _ _ _ _) (quiet_ite (quiet_ret _)
    (quiet_ite (quiet_ret _)
      ((quiet_vecInsertRange _ _ _ _).bind fun _ => quiet_ite (quiet_ret _) (quiet_ret _)))))

theorem quiet_strOp (t : Str) (op : SOp) : Quiet (strOp t op) := by
  cases op with
  | append x =>
    show Quiet (strAppend t (textView x))
    exact quiet_strAppend _ _
  | appendEx x j n =>
    show Quiet (strAppendEx t (textView x) j n)
    exact quiet_strAppendEx _ _ _ _
  | insert i x =>
    show Quiet (strInsert t i (textView x))
    exact quiet_strInsert _ _ _
  | insertEx i x j n =>
    show Quiet (strInsertEx t i (textView x) j n)
    exact quiet_strInsertEx _ _ _ _ _
  | delete i n =>
    exact quiet_ite (quiet_ret _) (Quiet.bind (quiet_vecOp t.s (.deleteRange i n))
      fun _ => quiet_checkTerminate _ _)
  | truncate i =>
    exact quiet_ite (quiet_ret _) (Quiet.bind (quiet_vecOp t.s (.deleteRange i _))
      fun _ => quiet_checkTerminate _ _)
  | clear =>
    exact Quiet.bind (quiet_vecOp t.s .clear) fun _ => quiet_ite (quiet_ret _)
      ((quiet_strStart _).bind fun _ => quiet_ret _)
  | setChar i c =>
    exact quiet_ite (quiet_ret _) (Quiet.bind (quiet_vecOp t.s (.set i (some c))) fun _ => quiet_ret _)
  | lower i n => exact quiet_ite (quiet_ret _) ((quiet_caseLoop _ _ _ _).bind fun _ => quiet_ret _)
  | upper i n => exact quiet_ite (quiet_ret _) ((quiet_caseLoop _ _ _ _).bind fun _ => quiet_ret _)
  | resize n => exact quiet_strResize t n
  | reserve c => exact Quiet.bind (quiet_vecOp t.s (.reserve c)) fun _ => quiet_ret _
  | shrinkToFit => exact Quiet.bind (quiet_vecOp t.s .shrinkToFit) fun _ => quiet_ret _

/-! ## Formatting -/

theorem quiet_putPair (b : List (Cell Byte)) (p i : Nat) : Quiet (putPair b p i) :=
  quiet_ite (fun h => by cases h) ((quiet_readRange _ _ _).bind fun _ =>
    (quiet_writeRange _ _ _).bind fun _ => quiet_ret _)

theorem quiet_decLoop : ∀ (n : Nat) (b : List (Cell Byte)) (p v : Nat), Quiet (decLoop n b p v)
  | 0, _, _, _ => fun h => by cases h
  | n + 1, _, _, _ => quiet_ite ((quiet_putPair _ _ _).bind fun _ => quiet_decLoop n _ _ _) (quiet_ret _)

theorem quiet_strAppendDecWith (m : Nat) (t : Str) (v p : Nat) : Quiet (strAppendDecWith m t v p) := by
  unfold strAppendDecWith
  refine (quiet_decLoop _ _ _ _).bind fun r => (quiet_putPair _ _ _).bind fun q =>
    (quiet_ite (quiet_strResize _ _) (quiet_ret _)).bind fun _ => quiet_ite (quiet_ret _) ?_
  exact (quiet_ite (quiet_vecMemset _ _ _ _) (quiet_ret _)).bind fun _ =>
    (quiet_vecMemcpy _ _ _ _).bind fun _ => (quiet_nullTerminate _).bind fun _ => quiet_ret _

theorem quiet_putHex (u : Bool) (t : Str) (b : Option Nat) (n v : Nat) : Quiet (putHex u t b n v) := by
  unfold putHex
  split
  · exact fun h => by cases h
  split
  · exact fun h => by cases h
  · exact (quiet_strPoke _ _ _).bind fun _ => quiet_ret _

theorem quiet_hexLoop (u : Bool) (value len padding remaining : Nat) : ∀ (i : Nat) (t : Str) (n : Nat)
    (b : Option Nat), Quiet (hexLoop u value len padding remaining i t n b)
  | 0, _, _, _ => quiet_ret _
  | i + 1, t, n, b => by
    unfold hexLoop
    refine quiet_ite (quiet_ite (quiet_hexLoop u value len padding remaining i _ _ _)
      ((quiet_ite (quiet_strResize _ _) (quiet_ret _)).bind fun _ => quiet_ite (quiet_ret _) ?_)) ?_
    · exact (quiet_ite (quiet_vecMemset _ _ _ _) (quiet_ret _)).bind fun _ =>
        (quiet_putHex _ _ _ _ _).bind fun _ => quiet_hexLoop u value len padding remaining i _ _ _
    · exact (quiet_putHex _ _ _ _ _).bind fun _ => quiet_hexLoop u value len padding remaining i _ _ _

theorem quiet_hexFinish (t : Str) (l n : Nat) : Quiet (hexFinish t l n) :=
  (quiet_nullTerminate _).bind fun _ => quiet_ret _

theorem quiet_strAppendHexWith (k : Nat) (t : Str) (v p : Nat) (u : Bool) :
    Quiet (strAppendHexWith k t v p u) := by
  unfold strAppendHexWith
  refine (quiet_ite (quiet_strResize _ _) (quiet_ret _)).bind fun _ => quiet_ite (quiet_ret _)
    (quiet_ite ?_ ?_)
  · exact (quiet_ite (quiet_strResize _ _) (quiet_ret _)).bind fun _ => quiet_ite (quiet_ret _)
      ((quiet_vecMemset _ _ _ _).bind fun _ => quiet_hexFinish _ _ _)
  · exact (quiet_hexLoop _ _ _ _ _ _ _ _ _).bind fun _ => quiet_ite (quiet_ret _) (quiet_hexFinish _ _ _)

theorem quiet_checkAppend (t : Str) (v : View) {k : Str → Out (Status × Str)} (hk : ∀ t, Quiet (k t)) :
    Quiet (checkAppend t v k) :=
  (quiet_strAppendSrc _ _ _).bind fun _ => quiet_ite (quiet_ret _) (hk _)

theorem quiet_checkPrefix (t : Str) (v : Option View) {k : Str → Out (Status × Str)}
    (hk : ∀ t, Quiet (k t)) : Quiet (checkPrefix t v k) := by
  cases v with
  | none => exact hk _
  | some v => exact quiet_checkAppend _ _ hk

theorem quiet_absI64 (x : BitVec 64) : Quiet (absI64 x) :=
  quiet_ite (quiet_ret _) (quiet_ite (quiet_ite (quiet_ret _) (fun h => by cases h)) (quiet_ret _))

theorem quiet_strAppendSigned {f : Str → Nat → Out (Status × Str)} (hf : ∀ t n, Quiet (f t n)) (t : Str)
    (v : BitVec 64) (s : Bool) (p : Option View) : Quiet (strAppendSigned f t v s p) := by
  unfold strAppendSigned
  refine quiet_ite (quiet_checkAppend _ _ fun _ => quiet_checkPrefix _ _ fun _ =>
    (quiet_absI64 _).bind fun _ => hf _ _) (quiet_ite ?_ ?_)
  · exact quiet_checkAppend _ _ fun _ => quiet_checkPrefix _ _ fun _ => hf _ _
  · exact quiet_checkPrefix _ _ fun _ => hf _ _

theorem quiet_vsnprintf (v : Vec Byte) (d n : Nat) (f : FmtRes) : Quiet (vsnprintf v d n f) := by
  have key : ∀ x : List Byte, Quiet (if n = 0 then Out.ret v else
      withData v.data fun b =>
      (writeRange b.cells d ((x.take (n - 1)).map some ++ [some 0#8])).bind fun cs =>
      .ret { v with data := some { b with cells := cs } }) := fun x =>
    quiet_ite (quiet_ret _) (quiet_withData fun _ => (quiet_writeRange _ _ _).bind fun _ => quiet_ret _)
  unfold vsnprintf
  cases f with
  | text x => exact (key x).bind fun _ => quiet_ret _
  | error x => exact (key x).bind fun _ => quiet_ret _

theorem quiet_strAppendFormat (t : Str) (f : Fmt) : Quiet (strAppendFormat t f) := by
  unfold strAppendFormat
  refine (quiet_vsnprintf _ _ _ _).bind fun _ => quiet_ite (quiet_ret _) (quiet_ite (quiet_ret _)
    ((quiet_strResize _ _).bind fun _ => quiet_ite (quiet_ret _) ?_))
  exact (quiet_vsnprintf _ _ _ _).bind fun _ => quiet_ite (quiet_ret _) (quiet_ret _)

end Zy
