import Verif.Lemmas.Windows
import Verif.Spec.Thread

/-!
# Property theorems: the Windows branches compared with the POSIX branches

The vocabulary (`refusedLeave`, `granted`, `MappedIn`, `SeparateRegions`) is in `Verif.Spec.Windows`, the rest in
`Verif.Spec.Sync` and `Verif.Spec.Api`.
-/

namespace Zy

open Zy.Spec

/-! ## C104 -/

/-- C104: for all attempts by any threads (fewer than the recursion limit of POSIX), the two systems complete
the same calls with the same results, unless a thread leaves without being inside. Then POSIX refuses the
leave, and Windows is undefined. -/
theorem C104_critical_sections {limit : Nat} {st : Status} {m : Mutex}
    (hm : csInitialize none none = (st, some m)) (as : List (Nat × CsCall)) (hl : as.length ≤ limit) :
    winCsInitialize.1 = st ∧ ∃ h m', csRun limit m as = .ret (h, m') ∧
      (h.any refusedLeave = false → ∃ w', winCsRun winCsInitialize.2 as = .ret (h, w')) ∧
      (h.any refusedLeave = true → winCsRun winCsInitialize.2 as = .ub .other) := by
  refine ⟨(congrArg Prod.fst hm), ?_⟩
  have h0 := csInitialize_some hm
  subst h0
  obtain ⟨h, m', e, hw⟩ := SameCs.run (limit := limit) as (m := ⟨.recursive, none, 0⟩) (w := ⟨none, 0⟩)
    ⟨rfl, rfl, rfl, by simpa using hl⟩
  refine ⟨h, m', e, fun hn => ?_, fun hn => ?_⟩
  · rcases hw with ⟨_, hw⟩ | ⟨h1, _⟩
    · exact hw
    · rw [h1] at hn; cases hn
  · rcases hw with ⟨h1, _⟩ | ⟨_, hw⟩
    · rw [h1] at hn; cases hn
    · exact hw

example : (match csRun 100 ⟨.recursive, none, 0⟩ [(1, .enter), (2, .tryEnter), (1, .leave), (2, .enter)] with
      | .ret r => r.1 | .ub _ => []) =
    [(1, .enter, .status stSuccess), (2, .tryEnter, .bool false), (1, .leave, .status stSuccess),
     (2, .enter, .status stSuccess)] ∧
    winCsRun winCsInitialize.2 [(1, .enter), (2, .tryEnter), (1, .leave), (2, .enter)] =
      .ret ([(1, .enter, .status stSuccess), (2, .tryEnter, .bool false), (1, .leave, .status stSuccess),
        (2, .enter, .status stSuccess)], ⟨some 2, 1⟩) := by decide
example : winCsRun winCsInitialize.2 [(1, .enter), (2, .leave)] = .ub .other := by decide

/-! ## C105 -/

/-- C105: if the system grants all requests and the history uses only allocated indices, all calls on
thread-local storage have the same results on both systems. -/
theorem C105_thread_local (h : List (Nat × TlsCall)) (hk : KeysInUse h) (hg : ∀ a ∈ h, granted a.2 = true) :
    ∃ rs s, tlsRun .start h = .ret (rs, s) ∧ (winTlsRun .start h).1 = rs := by
  obtain ⟨rs, s, e, _, _⟩ := TlsInv.start.run h hk
  exact ⟨rs, s, e, by rw [winTlsRun_same h e hg]⟩

/-- C105: on Windows the use of an index that is not allocated is defined: reading it yields null, storing
under it is refused and changes nothing. On POSIX both are undefined. -/
theorem C105_unallocated {s : TlsState} {k : Nat} (hu : s.used k = false) (t d : Nat) (fail : Option Errno) :
    (winTlsStep s t (.get k)).1 = .value stSuccess 0 ∧
    winTlsStep s t (.set k d fail) = (.status stInvalidArgument, s) ∧
    tlsStep s t (.get k) = .ub .other ∧ tlsStep s t (.set k d fail) = .ub .other := by
  simp [winTlsStep, winTlsGetValue, winTlsSetValue, tlsStep, tlsGetValue, tlsSetValue, pthreadGetSpecific,
    pthreadSetSpecific, hu]

/-- C105: a store that the system refuses is reported with the same status on both systems and changes
nothing. A refused allocation yields no index and changes nothing on both systems; Windows reports exhausted
resources for each reason. -/
theorem C105_refused (e : Errno) (s : TlsState) (t k d : Nat) (hk : s.used k = true) :
    tlsSetValue s t k d (some e) = .ret (winTlsSetValue s t k d (some e)) ∧
    winTlsSetValue s t k d (some e) = (statusFor .setSpecific e, s) ∧
    (tlsAlloc s (.error e)).2 = (none, s) ∧ winTlsAlloc s (.error e) = (stOutOfResources, none, s) := by
  simp only [tlsSetValue, pthreadSetSpecific, winTlsSetValue, hk, if_true, Out.ret_bind']
  cases e <;> exact ⟨rfl, rfl, rfl, rfl⟩

example : winTlsSetValue (tlsAlloc .start (.ok 3)).2.2 1 3 10 (some .ENOMEM) =
    (stBadSystemcall, (tlsAlloc .start (.ok 3)).2.2) ∧ statusFor .setSpecific .ENOMEM = stBadSystemcall := ⟨rfl, rfl⟩

example : (winTlsRun .start [(1, .alloc (.ok 3)), (1, .set 3 10 none), (2, .get 3), (1, .get 3)]).1 =
    [(1, .index stSuccess (some 3)), (1, .status stSuccess), (2, .value stSuccess 0),
     (1, .value stSuccess 10)] := by decide
example : TlsState.start.used 3 = false := rfl
example : ∀ a ∈ [(1, TlsCall.alloc (.ok 3)), (1, .set 3 10 none), (2, .get 3)], granted a.2 = true := by decide

/-! ## C106 -/

/-- C106, on Windows for the size of the region: releasing succeeds exactly at the beginning of a region. Then
exactly the pages of the region are unmapped, and if the size is the one of the region these are the pages of
the range. Missing: all other sizes, see the next theorem. -/
theorem C106_free_partial {ps : Nat} (hp : 0 < ps) {m : List Region} (hm : SeparateRegions m) (addr size : Nat)
    (deny : Bool) :
    ((winVirtualFree ps m addr size deny).1 = stSuccess ↔ deny = false ∧ ∃ r ∈ m, r.first * ps = addr) ∧
    ((winVirtualFree ps m addr size deny).1 ≠ stSuccess → (winVirtualFree ps m addr size deny).2 = m) ∧
    ∀ r ∈ m, deny = false → r.first * ps = addr → pageCount ps size = r.pages →
      ∀ q, MappedIn (winVirtualFree ps m addr size deny).2 q ↔ MappedIn m q ∧ ¬ Touches ps addr size q := by
  have hst : stBadSystemcall ≠ stSuccess := by decide
  have hany : m.any (fun r => r.first * ps == addr) = true ↔ ∃ r ∈ m, r.first * ps = addr := by simp
  unfold winVirtualFree
  refine ⟨?_, ?_, ?_⟩
  · cases deny with
    | true => simp [hst]
    | false =>
      simp only [Bool.false_eq_true, if_false, true_and, ← hany]
      split
      · rename_i h; simp [h]
      · rename_i h; simp [h, hst]
  · cases deny with
    | true => simp
    | false =>
      simp only [Bool.false_eq_true, if_false]
      split
      · intro h; exact absurd rfl h
      · intro _; rfl
  · intro r hr hd ha hsz q
    subst hd
    rw [if_neg (by simp), if_pos (hany.2 ⟨r, hr, ha⟩)]
    have hal : addr % ps = 0 := by rw [← ha]; exact Nat.mul_mod_left ..
    have hdiv : addr / ps = r.first := by rw [← ha]; exact Nat.mul_div_cancel _ hp
    rw [touches_iff hp hal, hdiv, hsz]
    unfold MappedIn
    constructor
    · rintro ⟨x, hx, h1, h2⟩
      rw [List.mem_filter] at hx
      refine ⟨⟨x, hx.1, h1, h2⟩, fun h3 => ?_⟩
      have := hm.2 x hx.1 r hr q h1 h2 h3.1 h3.2
      subst this
      simp [ha] at hx
    · rintro ⟨⟨x, hx, h1, h2⟩, h3⟩
      refine ⟨x, List.mem_filter.2 ⟨hx, ?_⟩, h1, h2⟩
      simp only [bne_iff_ne, ne_eq]
      intro hxa
      have h4 : x.first = r.first := Nat.eq_of_mul_eq_mul_right hp (hxa.trans ha.symm)
      have hr0 := hm.1 r hr
      have hx0 := hm.1 x hx
      have := hm.2 x hx r hr x.first (Nat.le_refl _) (by omega) (by omega) (by omega)
      subst this
      exact h3 ⟨h1, h2⟩

/-- C106 is false on Windows for every smaller size: the release succeeds, but a mapped page outside of the
range is unmapped as well. The size has no influence. -/
theorem C106_free_negation {ps : Nat} (hp : 0 < ps) {m : List Region} (hm : SeparateRegions m) {r : Region}
    (hr : r ∈ m) (size : Nat) (hsz : pageCount ps size < r.pages) :
    (winVirtualFree ps m (r.first * ps) size false).1 = stSuccess ∧
      ∃ q, MappedIn m q ∧ ¬ Touches ps (r.first * ps) size q ∧
        ¬ MappedIn (winVirtualFree ps m (r.first * ps) size false).2 q := by
  obtain ⟨h1, _, h3⟩ := C106_free_partial hp hm (r.first * ps) (r.pages * ps) false
  have same : winVirtualFree ps m (r.first * ps) size false =
      winVirtualFree ps m (r.first * ps) (r.pages * ps) false := rfl
  have hfull : pageCount ps (r.pages * ps) = r.pages := by
    unfold pageCount
    rw [Nat.add_comm, Nat.add_mul_div_right _ _ hp, Nat.div_eq_of_lt (by omega)]
    omega
  rw [same]
  have hal : (r.first * ps) % ps = 0 := Nat.mul_mod_left ..
  have hdiv : r.first * ps / ps = r.first := Nat.mul_div_cancel _ hp
  refine ⟨h1.2 ⟨rfl, r, hr, rfl⟩, r.first + pageCount ps size, ⟨r, hr, by omega, by omega⟩, ?_, ?_⟩
  · rw [touches_iff hp hal, hdiv]; omega
  · rw [h3 r hr rfl rfl hfull, touches_iff hp hal, hdiv, hfull]
    intro h; exact h.2 ⟨by omega, by omega⟩

/-- C106 is false on Windows for every size that reaches into another region: the release succeeds, but the
pages of the range that belong to the other region stay mapped. -/
theorem C106_free_larger_negation {ps : Nat} (hp : 0 < ps) {m : List Region} (hm : SeparateRegions m)
    {r r' : Region} (hr : r ∈ m) (hr' : r' ∈ m) (hne : r' ≠ r) {size q : Nat}
    (hq : Touches ps (r.first * ps) size q) (hq' : r'.first ≤ q ∧ q < r'.first + r'.pages) :
    (winVirtualFree ps m (r.first * ps) size false).1 = stSuccess ∧
      Touches ps (r.first * ps) size q ∧ MappedIn (winVirtualFree ps m (r.first * ps) size false).2 q := by
  obtain ⟨h1, _, _⟩ := C106_free_partial hp hm (r.first * ps) size false
  refine ⟨h1.2 ⟨rfl, r, hr, rfl⟩, hq, r', ?_, hq'⟩
  unfold winVirtualFree
  rw [if_neg (by simp), if_pos (by simp; exact ⟨r, hr, rfl⟩)]
  refine List.mem_filter.2 ⟨hr', ?_⟩
  simp only [bne_iff_ne, ne_eq]
  intro he
  have h4 : r'.first = r.first := Nat.eq_of_mul_eq_mul_right hp he
  have h5 := hm.1 r hr
  have h6 := hm.1 r' hr'
  exact hne (hm.2 r' hr' r hr r.first (by omega) (by omega) (by omega) (by omega))

/-- Two adjacent regions: a size that covers both releases only the first one. -/
example : winVirtualFree 4096 [⟨16, 1⟩, ⟨17, 1⟩] 65536 8192 false = (stSuccess, [⟨17, 1⟩]) := by decide
example : Touches 4096 (16 * 4096) 8192 17 := ⟨69632, by decide, by decide, by decide⟩

/-- A region of four pages and one of one page. Releasing 4096 bytes of the first one unmaps all of it. -/
example : winVirtualFree 4096 [⟨16, 4⟩, ⟨32, 1⟩] 65536 4096 false = (stSuccess, [⟨32, 1⟩]) ∧
    pageCount 4096 4096 < 4 := by decide
example : SeparateRegions [⟨16, 4⟩, ⟨32, 1⟩] := by
  refine ⟨by decide, ?_⟩
  intro r hr r' hr' q h1 h2 h3 h4
  simp only [List.mem_cons, List.not_mem_nil, or_false] at hr hr'
  rcases hr with rfl | rfl <;> rcases hr' with rfl | rfl <;> first | rfl | (simp only at h1 h2 h3 h4; omega)

/-! ## C107 -/

/-- C107: on Windows, enabling escape codes succeeds exactly for an output stream bound to a console that can
be changed. Then the bit for escape codes is set in the mode of this console, all other bits keep their
values, and the other streams are unchanged. Otherwise nothing changes. -/
theorem C107_enableVT100 (streams : BitVec 32 → WinStream) (stream : BitVec 32) :
    ((winEnableVT100 streams stream).1 = stSuccess ↔
      (stream = 1#32 ∨ stream = 2#32) ∧ ∃ mode, streams stream = .console mode true) ∧
    ((winEnableVT100 streams stream).1 ≠ stSuccess → (winEnableVT100 streams stream).2 = streams) ∧
    (∀ q, q ≠ stream → (winEnableVT100 streams stream).2 q = streams q) ∧
    ∀ mode, (winEnableVT100 streams stream).1 = stSuccess → streams stream = .console mode true →
      ∃ mode', (winEnableVT100 streams stream).2 stream = .console mode' true ∧
        ∀ i, mode'.getLsbD i = if i = 2 then true else mode.getLsbD i := by
  have h1 : stInvalidArgument ≠ stSuccess := by decide
  have h2 : stBadSystemcall ≠ stSuccess := by decide
  unfold winEnableVT100
  by_cases hs : stream ≠ 1#32 ∧ stream ≠ 2#32
  · rw [if_pos hs]
    refine ⟨⟨fun h => absurd h h1, fun h => ?_⟩, fun _ => rfl, fun _ _ => rfl, fun _ h => absurd h h1⟩
    rcases h.1 with h | h
    · exact absurd h hs.1
    · exact absurd h hs.2
  · rw [if_neg hs]
    have hs' : stream = 1#32 ∨ stream = 2#32 := by
      by_cases h : stream = 1#32
      · exact .inl h
      · exact .inr (Decidable.byContradiction fun h' => hs ⟨h, h'⟩)
    cases hb : streams stream with
    | closed => simp [h1]
    | noHandle => simp [h1]
    | file => simp [h1]
    | console mode writable =>
      cases writable with
      | false => simp [h2]
      | true =>
        refine ⟨by simp [hs'], by simp, fun q hq => by simp [hq], fun mode' _ he => ?_⟩
        injection he with he
        subst he
        refine ⟨mode ||| 4#32, by simp, fun i => ?_⟩
        rw [BitVec.getLsbD_or]
        by_cases hi : i = 2
        · subst hi; simp
        · rw [if_neg hi]
          have : (4#32).getLsbD i = false := by
            by_cases h32 : i < 32
            · have : ∀ j : Fin 32, j.val ≠ 2 → (4#32).getLsbD j.val = false := by decide
              exact this ⟨i, h32⟩ hi
            · exact BitVec.getLsbD_of_ge _ _ (by omega)
          simp [this]

example : (winEnableVT100 (fun q => if q = 1#32 then .console 3#32 true else .file) 1#32).1 = stSuccess ∧
    (winEnableVT100 (fun q => if q = 1#32 then .console 3#32 true else .file) 1#32).2 1#32 =
      .console 7#32 true ∧
    (winEnableVT100 (fun q => if q = 1#32 then .console 3#32 true else .file) 2#32).1 = stInvalidArgument := by
  decide

end Zy
