import Verif.Model.ArgParseDebug
import Verif.Lemmas.ContainerDebug
import Verif.Lemmas.StringQuiet

/-!
# Lemmas: the argument parser with assertions
-/

namespace Zy

variable {α β : Type}

theorem vecEmplaceD_eq {s : VS α} (h : Usable s) : vecEmplaceExD s s.v.size none = vecEmplace s none := by
  unfold vecEmplaceExD vecEmplace vecEmplaceEx
  rw [if_neg (by omega), if_neg (by omega), assertUsable_ok h, growForD_eq h]
  refine bind_same fun r er => ?_
  have hs : r.2.v.size = s.v.size := by
    unfold growFor at er
    split at er
    · exact (reallocate_usable h er).2.1
    · cases er; rfl
  simp only [hs, Nat.lt_irrefl, if_false]

theorem vecEmplace_used {s : VS α} (h : Usable s) {r : Status × VS α} (e : vecEmplace s none = .ret r) :
    Usable r.2 := by
  unfold vecEmplace vecEmplaceEx at e
  rw [if_neg (by omega)] at e
  obtain ⟨q, e1, e⟩ := bind_ret e
  have h1 := growFor_used h e1
  split at e
  · cases e; exact h1
  obtain ⟨s2, e2, e⟩ := bind_ret e
  have h2 : Usable s2 := by
    split at e2
    · exact (shiftRight_usable h1 e2).1
    · cases e2; exact h1
  cases e
  exact h2.resized _

theorem newArgD_eq {s : VS AArg} (h : Usable s) : newArgD s = newArg s := by
  unfold newArgD newArg
  rw [vecEmplaceD_eq h]

theorem newArg_used {s : VS AArg} (h : Usable s) {r : Status × VS AArg} (e : newArg s = .ret r) :
    Usable r.2 := by
  obtain ⟨q, e1, e⟩ := bind_ret e
  have h1 := vecEmplace_used h e1
  split at e
  · cases e; exact h1
  simp only [withData] at e
  split at e
  · cases e
  obtain ⟨cs, _, e⟩ := bind_ret e
  cases e
  exact h1.stored _ _

theorem modArg_used {s s' : VS AArg} (h : Usable s) {f : AArg → AArg} (e : modArg s f = .ret s') :
    Usable s' := by
  simp only [modArg, withData] at e
  split at e
  · cases e
  split at e
  · cases e
  · cases e
  · obtain ⟨cs, _, e⟩ := bind_ret e
    cases e
    exact h.stored _ _

theorem putValue_used {s : VS AArg} (h : Usable s) {p : List (Cell Byte)} {r : Status × VS AArg}
    (e : putValue s p = .ret r) : Usable r.2 := by
  obtain ⟨s1, e1, e⟩ := bind_ret e
  have h1 := modArg_used h e1
  obtain ⟨v, _, e⟩ := bind_ret e
  split at e
  · cases e; exact h1
  obtain ⟨s2, e2, e⟩ := bind_ret e
  cases e
  exact modArg_used h1 e2

/-- The vector that a control result carries. -/
def Ctl.vec : Ctl → VS AArg
  | .fall s _ => s
  | .cont s _ => s
  | .fail _ _ s => s
  | .quit _ s => s

/-- The vector that a result of the main loop carries. -/
def LoopRes.vec : LoopRes → VS AArg
  | .done p => p.s
  | .fail _ _ s => s
  | .quit _ s => s

theorem takeNext_used {cfg : ArgConfig} {cur : List Byte} {s : VS AArg} {i : Nat} {c : Ctl} (h : Usable s)
    (e : takeNext cfg cur s i = .ret c) : Usable c.vec := by
  unfold takeNext at e
  split at e
  · cases e; exact h
  obtain ⟨v, _, e⟩ := bind_ret e
  obtain ⟨r, e1, e⟩ := bind_ret e
  have h1 := putValue_used h e1
  split at e <;> (cases e; exact h1)

theorem longArgD_eq (cfg : ArgConfig) (cur : List Byte) {s : VS AArg} (h : Usable s) (i : Nat) :
    longArgD cfg cur s i = longArg cfg cur s i := by
  unfold longArgD longArg
  rw [newArgD_eq h]
  rfl

theorem longArg_used {cfg : ArgConfig} {cur : List Byte} {s : VS AArg} {i : Nat} {c : Ctl} (h : Usable s)
    (e : longArg cfg cur s i = .ret c) : Usable c.vec := by
  obtain ⟨r, e1, e⟩ := bind_ret e
  have h1 := newArg_used h e1
  split at e
  · cases e; exact h1
  obtain ⟨f, _, e⟩ := bind_ret e
  split at e
  · cases e; exact h1
  obtain ⟨s2, e2, e⟩ := bind_ret e
  have h2 := modArg_used h1 e2
  split at e
  · cases e; exact h2
  · exact takeNext_used h2 e

theorem shortLoopD_eq (cfg : ArgConfig) (cur : List Byte) (i : Nat) : ∀ (n : Nat) {s : VS AArg} (k : Nat),
    Usable s → shortLoopD cfg cur i n s k = shortLoop cfg cur i n s k
  | 0, _, _, _ => rfl
  | n + 1, s, k, h => by
    unfold shortLoopD shortLoop
    rw [newArgD_eq h]
    refine bind_same fun c _ => ?_
    split
    · rfl
    refine bind_same fun r e1 => ?_
    have h1 := newArg_used h e1
    split
    · rfl
    refine bind_same fun f _ => ?_
    cases f with
    | none => rfl
    | some f =>
      refine bind_same fun s2 e2 => ?_
      rw [shortLoopD_eq cfg cur i n (k + 1) (modArg_used h1 e2)]

theorem shortLoop_used (cfg : ArgConfig) (cur : List Byte) (i : Nat) : ∀ (n : Nat) {s : VS AArg} {k : Nat}
    {c : Ctl}, Usable s → shortLoop cfg cur i n s k = .ret c → Usable c.vec
  | 0, _, _, _, _, e => by cases e
  | n + 1, s, k, c, h, e => by
    unfold shortLoop at e
    obtain ⟨ch, _, e⟩ := bind_ret e
    split at e
    · cases e; exact h
    obtain ⟨r, e1, e⟩ := bind_ret e
    have h1 := newArg_used h e1
    split at e
    · cases e; exact h1
    obtain ⟨f, _, e⟩ := bind_ret e
    split at e
    · cases e; exact h1
    obtain ⟨s2, e2, e⟩ := bind_ret e
    have h2 := modArg_used h1 e2
    split at e
    · exact shortLoop_used cfg cur i n h2 e
    obtain ⟨nx, _, e⟩ := bind_ret e
    split at e
    · obtain ⟨r3, e3, e⟩ := bind_ret e
      have h3 := putValue_used h2 e3
      split at e <;> (cases e; exact h3)
    · exact takeNext_used h2 e

theorem unnamedArgD_eq (cfg : ArgConfig) (cur : List Byte) {s : VS AArg} (h : Usable s) (i num : Nat) :
    unnamedArgD cfg cur s i num = unnamedArg cfg cur s i num := by
  unfold unnamedArgD unnamedArg
  rw [newArgD_eq h]

theorem unnamedArg_used {cfg : ArgConfig} {cur : List Byte} {s : VS AArg} {i num : Nat} {c : Ctl}
    (h : Usable s) (e : unnamedArg cfg cur s i num = .ret c) : Usable c.vec := by
  unfold unnamedArg at e
  split at e
  · cases e; exact h
  obtain ⟨r, e1, e⟩ := bind_ret e
  have h1 := newArg_used h e1
  split at e
  · cases e; exact h1
  obtain ⟨r2, e2, e⟩ := bind_ret e
  have h2 := putValue_used h1 e2
  split at e <;> (cases e; exact h2)

theorem finishTok_used {num : Nat} {accept : Bool} {c : Ctl} {r : LoopRes} (h : Usable c.vec)
    (e : finishTok num accept c = .ret r) : Usable r.vec := by
  cases c <;> (cases e; exact h)

theorem argTokenD_eq (cfg : ArgConfig) {p : PState} (h : Usable p.s) : argTokenD cfg p = argToken cfg p := by
  unfold argTokenD argToken
  refine bind_same fun cur _ => bind_same fun len _ => bind_same fun dd _ => ?_
  rw [longArgD_eq cfg cur h]
  split
  · rfl
  refine bind_same fun sd _ => ?_
  rw [shortLoopD_eq cfg cur p.i len 1 h]
  refine bind_same fun c ec => ?_
  have hc : Usable c.vec := by
    split at ec
    · exact shortLoop_used cfg cur p.i len h ec
    · cases ec; exact h
  cases c with
  | fall s i => exact congrArg (Out.bind · _) (unnamedArgD_eq cfg cur hc i _)
  | cont s i => rfl
  | fail a b s => rfl
  | quit a s => rfl

theorem argToken_used {cfg : ArgConfig} {p : PState} {r : LoopRes} (h : Usable p.s)
    (e : argToken cfg p = .ret r) : Usable r.vec := by
  unfold argToken at e
  obtain ⟨cur, _, e⟩ := bind_ret e
  obtain ⟨len, _, e⟩ := bind_ret e
  obtain ⟨dd, _, e⟩ := bind_ret e
  split at e
  · split at e
    · cases e; exact h
    · obtain ⟨c, e1, e⟩ := bind_ret e
      exact finishTok_used (longArg_used h e1) e
  obtain ⟨sd, _, e⟩ := bind_ret e
  obtain ⟨c, ec, e⟩ := bind_ret e
  have hc : Usable c.vec := by
    split at ec
    · exact shortLoop_used cfg cur p.i len h ec
    · cases ec; exact h
  cases c with
  | fall s i =>
    obtain ⟨c2, e2, e⟩ := bind_ret e
    exact finishTok_used (unnamedArg_used hc e2) e
  | cont s i => exact finishTok_used hc e
  | fail a b s => exact finishTok_used hc e
  | quit a s => exact finishTok_used hc e

theorem argLoopD_eq (cfg : ArgConfig) : ∀ (n : Nat) {p : PState}, Usable p.s →
    argLoopD cfg n p = argLoop cfg n p
  | 0, _, _ => rfl
  | n + 1, p, h => by
    unfold argLoopD argLoop
    split
    · rw [argTokenD_eq cfg h]
      refine bind_same fun r e => ?_
      have hr := argToken_used h e
      cases r with
      | done q => exact argLoopD_eq cfg n (p := { q with i := q.i + 1 }) hr
      | fail a b s => rfl
      | quit a s => rfl
    · rfl

theorem argLoop_used (cfg : ArgConfig) : ∀ (n : Nat) {p : PState} {r : LoopRes}, Usable p.s →
    argLoop cfg n p = .ret r → Usable r.vec
  | 0, p, r, h, e => by
    unfold argLoop at e
    split at e <;> cases e
    exact h
  | n + 1, p, r, h, e => by
    unfold argLoop at e
    split at e
    · obtain ⟨q, e1, e⟩ := bind_ret e
      have hq := argToken_used h e1
      cases q with
      | done q => exact argLoop_used cfg n (p := { q with i := q.i + 1 }) hq e
      | fail a b s => cases e; exact hq
      | quit a s => cases e; exact hq
    · cases e; exact h

theorem argFoundD_eq {s : VS AArg} (h : Usable s) (j : Nat) : ∀ (n i : Nat),
    argFoundD s j i n = argFound s j i n
  | 0, _ => rfl
  | n + 1, i => by
    unfold argFoundD argFound
    rw [vecGetPointerD_eq h, Out.ret_bind']
    simp only [argFoundD_eq h j n]
    rfl

theorem requiredLoopD_eq {s : VS AArg} (h : Usable s) : ∀ (ds : List ArgDef) (j : Nat),
    requiredLoopD s j ds = requiredLoop s j ds
  | [], _ => rfl
  | d :: ds, j => by
    unfold requiredLoopD requiredLoop
    rw [argFoundD_eq h]
    simp only [requiredLoopD_eq h ds]

theorem argFailD_eq (err : Status) (tok : ErrTok) {s : VS AArg} (h : Usable s) :
    argFailD err tok s = argFail err tok s := by
  unfold argFailD argFail
  rw [vecDestroyD_eq h]

theorem argParseExD_eq (w : World AArg) (cfg : ArgConfig) (want : Bool) (al : Option Nat) :
    argParseExD w cfg want al = argParseEx w cfg want al := by
  unfold argParseExD argParseEx
  split
  · rfl
  refine bind_same fun ok _ => ?_
  split
  · rfl
  dsimp only
  split
  · rfl
  rename_i hf
  generalize hr : vecInitEx w argSize cfg.argc false al 2 4 = r at hf
  obtain ⟨st, ov, w'⟩ := r
  cases ov with
  | none => rfl
  | some v =>
    cases al with
    | none => exact absurd hr init_none_used
    | some a =>
      have hu := (init_usable (by decide) hr (by simpa using hf)).1
      dsimp only
      rw [argLoopD_eq cfg cfg.argc (p := ⟨⟨v, w'⟩, 1, true, 0⟩) hu]
      refine bind_same fun l el => ?_
      have hl := argLoop_used cfg cfg.argc (p := ⟨⟨v, w'⟩, 1, true, 0⟩) hu el
      cases l with
      | fail e t s => exact argFailD_eq _ _ hl
      | quit st s => rfl
      | done p =>
        have hp : Usable p.s := hl
        simp only [argFailD_eq _ _ hp, requiredLoopD_eq hp]
        rfl

/-! ## The parser without assertions has no failing assertion -/

theorem quiet_cStrlen : ∀ m : List (Cell Byte), Quiet (cStrlen m)
  | [] => by unfold cStrlen; exact fun h => by cases h
  | none :: m => by unfold cStrlen; exact fun h => by cases h
  | some c :: m => by
    unfold cStrlen
    exact quiet_ite (quiet_ret _) ((quiet_cStrlen m).bind fun _ => quiet_ret _)

theorem quiet_cStrEq : ∀ a b : List (Cell Byte), Quiet (cStrEq a b)
  | [], _ => by unfold cStrEq; exact fun h => by cases h
  | a :: as, [] => by unfold cStrEq; exact fun h => by cases h
  | none :: as, b :: bs => by unfold cStrEq; exact fun h => by cases h
  | some a :: as, none :: bs => by unfold cStrEq; exact fun h => by cases h
  | some a :: as, some b :: bs => by
    unfold cStrEq
    exact quiet_ite (quiet_ret _) (quiet_ite (quiet_ret _) (quiet_cStrEq as bs))

theorem quiet_findLong (cur : List (Cell Byte)) : ∀ (ds : List ArgDef) (j : Nat), Quiet (findLong cur j ds)
  | [], _ => quiet_ret _
  | _ :: ds, _ => (quiet_cStrEq _ _).bind fun _ => quiet_ite (quiet_ret _) (quiet_findLong cur ds _)

theorem quiet_findShort (c : Byte) : ∀ (ds : List ArgDef) (j : Nat), Quiet (findShort c j ds)
  | [], _ => quiet_ret _
  | _ :: ds, _ => (quiet_cStrlen _).bind fun _ => (quiet_ite ((quiet_rdChar _ _).bind fun _ =>
      quiet_ite ((quiet_rdChar _ _).bind fun _ => quiet_ret _) (quiet_ret _)) (quiet_ret _)).bind fun _ =>
      quiet_ite (quiet_ret _) (quiet_findShort c ds _)

theorem quiet_defsSyntaxOk : ∀ ds : List ArgDef, Quiet (defsSyntaxOk ds)
  | [] => quiet_ret _
  | _ :: ds => ((quiet_cStrlen _).bind fun _ => quiet_ite (quiet_ret _) ((quiet_rdChar _ _).bind fun _ =>
      quiet_ite (quiet_ret _) ((quiet_rdChar _ _).bind fun _ => quiet_ret _))).bind fun _ =>
      quiet_ite (quiet_defsSyntaxOk ds) (quiet_ret _)

theorem quiet_emplace (s : VS α) : Quiet (vecEmplace s none) :=
  quiet_ite (quiet_ret _) ((quiet_growFor _ _).bind fun _ => quiet_ite (quiet_ret _)
    ((quiet_ite (quiet_shiftRight _ _ _) (quiet_ret _)).bind fun _ => quiet_ret _))

theorem quiet_newArg (s : VS AArg) : Quiet (newArg s) :=
  (quiet_emplace _).bind fun _ => quiet_ite (quiet_ret _) (quiet_withData fun _ =>
    (quiet_writeRange _ _ _).bind fun _ => quiet_ret _)

theorem quiet_modArg (s : VS AArg) (f : AArg → AArg) : Quiet (modArg s f) := by
  refine quiet_withData fun b => ?_
  split
  · exact fun h => by cases h
  · exact fun h => by cases h
  · exact (quiet_writeRange _ _ _).bind fun _ => quiet_ret _

theorem quiet_viewInside (m : List (Cell Byte)) : Quiet (viewInsideBuffer m) :=
  (quiet_cStrlen _).bind fun _ => quiet_ret _

theorem quiet_putValue (s : VS AArg) (p : List (Cell Byte)) : Quiet (putValue s p) :=
  (quiet_modArg _ _).bind fun _ => (quiet_viewInside _).bind fun _ => quiet_ite (quiet_ret _)
    ((quiet_modArg _ _).bind fun _ => quiet_ret _)

theorem quiet_argvAt (cfg : ArgConfig) (i : Nat) : Quiet (argvAt cfg i) := by
  unfold argvAt
  split
  · exact fun h => by cases h
  · exact quiet_ret _

theorem quiet_takeNext (cfg : ArgConfig) (cur : List Byte) (s : VS AArg) (i : Nat) :
    Quiet (takeNext cfg cur s i) :=
  quiet_ite (quiet_ret _) ((quiet_argvAt _ _).bind fun _ => (quiet_putValue _ _).bind fun _ =>
    quiet_ite (quiet_ret _) (quiet_ret _))

theorem quiet_longArg (cfg : ArgConfig) (cur : List Byte) (s : VS AArg) (i : Nat) :
    Quiet (longArg cfg cur s i) := by
  refine (quiet_newArg _).bind fun _ => quiet_ite (quiet_ret _) ((quiet_findLong _ _ _).bind fun f => ?_)
  cases f with
  | none => exact quiet_ret _
  | some f => exact (quiet_modArg _ _).bind fun _ => quiet_ite (quiet_ret _) (quiet_takeNext _ _ _ _)

theorem quiet_shortLoop (cfg : ArgConfig) (cur : List Byte) (i : Nat) : ∀ (n : Nat) (s : VS AArg) (k : Nat),
    Quiet (shortLoop cfg cur i n s k)
  | 0, _, _ => fun h => by cases h
  | n + 1, s, k => by
    unfold shortLoop
    refine (quiet_rdChar _ _).bind fun _ => quiet_ite (quiet_ret _) ((quiet_newArg _).bind fun _ =>
      quiet_ite (quiet_ret _) ((quiet_findShort _ _ _).bind fun f => ?_))
    cases f with
    | none => exact quiet_ret _
    | some f =>
      exact (quiet_modArg _ _).bind fun _ => quiet_ite (quiet_shortLoop cfg cur i n _ _)
        ((quiet_rdChar _ _).bind fun _ => quiet_ite ((quiet_putValue _ _).bind fun _ =>
          quiet_ite (quiet_ret _) (quiet_ret _)) (quiet_takeNext _ _ _ _))

theorem quiet_unnamedArg (cfg : ArgConfig) (cur : List Byte) (s : VS AArg) (i num : Nat) :
    Quiet (unnamedArg cfg cur s i num) :=
  quiet_ite (quiet_ret _) ((quiet_newArg _).bind fun _ => quiet_ite (quiet_ret _)
    ((quiet_putValue _ _).bind fun _ => quiet_ite (quiet_ret _) (quiet_ret _)))

theorem quiet_finishTok (num : Nat) (accept : Bool) (c : Ctl) : Quiet (finishTok num accept c) := by
  cases c <;> exact quiet_ret _

theorem quiet_argToken (cfg : ArgConfig) (p : PState) : Quiet (argToken cfg p) := by
  refine (quiet_argvAt _ _).bind fun cur => (quiet_cStrlen _).bind fun len =>
    (quiet_ite ((quiet_rdChar _ _).bind fun _ => (quiet_rdChar _ _).bind fun _ => quiet_ret _)
      (quiet_ret _)).bind fun dd => quiet_ite (quiet_ite (quiet_ret _)
      ((quiet_longArg _ _ _ _).bind fun _ => quiet_finishTok _ _ _))
      ((quiet_ite ((quiet_rdChar _ _).bind fun _ => quiet_ret _) (quiet_ret _)).bind fun sd =>
        (quiet_ite (quiet_shortLoop _ _ _ _ _ _) (quiet_ret _)).bind fun c => ?_)
  cases c with
  | fall s i => exact (quiet_unnamedArg _ _ _ _ _).bind fun _ => quiet_finishTok _ _ _
  | cont s i => exact quiet_finishTok _ _ _
  | fail a b s => exact quiet_finishTok _ _ _
  | quit a s => exact quiet_finishTok _ _ _

theorem quiet_argLoop (cfg : ArgConfig) : ∀ (n : Nat) (p : PState), Quiet (argLoop cfg n p)
  | 0, _ => quiet_ite (fun h => by cases h) (quiet_ret _)
  | n + 1, p => by
    unfold argLoop
    refine quiet_ite ((quiet_argToken _ _).bind fun r => ?_) (quiet_ret _)
    cases r with
    | done q => exact quiet_argLoop cfg n _
    | fail a b s => exact quiet_ret _
    | quit a s => exact quiet_ret _

theorem quiet_argFound (s : VS AArg) (j : Nat) : ∀ (n i : Nat), Quiet (argFound s j i n)
  | 0, _ => quiet_ret _
  | n + 1, i => by
    unfold argFound
    refine quiet_ite (quiet_ret _) ?_
    split
    · exact fun h => by cases h
    · refine Quiet.bind (quiet_withData fun b => ?_) fun x => ?_
      · split
        · exact fun h => by cases h
        · exact quiet_ret _
      · split
        · exact fun h => by cases h
        · exact quiet_ite (quiet_ret _) (quiet_argFound s j n _)

theorem quiet_requiredLoop (s : VS AArg) : ∀ (ds : List ArgDef) (j : Nat), Quiet (requiredLoop s j ds)
  | [], _ => quiet_ret _
  | _ :: ds, _ => quiet_ite (quiet_requiredLoop s ds _) ((quiet_argFound _ _ _ _).bind fun _ =>
      quiet_ite (quiet_ret _) (quiet_ite (quiet_requiredLoop s ds _) (quiet_ret _)))

theorem quiet_argFail (err : Status) (tok : ErrTok) (s : VS AArg) : Quiet (argFail err tok s) :=
  (quiet_destroy _).bind fun _ => quiet_ite (quiet_ret _) (quiet_ret _)

theorem quiet_argParseEx (w : World AArg) (cfg : ArgConfig) (want : Bool) (al : Option Nat) :
    Quiet (argParseEx w cfg want al) := by
  refine quiet_ite (quiet_ret _) ((quiet_defsSyntaxOk _).bind fun _ => quiet_ite (quiet_ret _)
    (quiet_ite (quiet_ret _) ?_))
  split
  · exact fun h => by cases h
  · refine (quiet_argLoop _ _ _).bind fun l => ?_
    cases l with
    | fail e t s => exact quiet_argFail _ _ _
    | quit st s => exact quiet_ret _
    | done p =>
      refine quiet_ite (quiet_argFail _ _ _) ((quiet_requiredLoop _ _ _).bind fun q =>
        quiet_ite (quiet_ret _) ?_)
      split
      · exact quiet_argFail _ _ _
      · exact quiet_ret _

end Zy
