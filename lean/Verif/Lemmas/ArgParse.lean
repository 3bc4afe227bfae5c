import Verif.Lemmas.VectorReach
import Verif.Lemmas.StringProps
import Verif.Spec.ArgParseRun

/-!
# Helper lemmas: the argument parser
-/

namespace Zy

open Spec

/-- The output vector holds the structs `es`, its storage is the one live block, and the allocator
has not refused anything so far. -/
structure AInv (a : Nat) (o : Nat → Status) (s : VS AArg) (es : List AArg) : Prop where
  allocator : s.v.allocator = some a
  growth : s.v.growth = 2
  esz : s.v.esz = 80
  dtor : s.v.hasDtor = false
  size : s.v.size = es.length
  cap1 : 1 ≤ s.v.cap
  block : ∃ b slack, s.v.data = some b ∧ b.cells = es.map some ++ slack ∧
    b.cells.length = s.v.cap ∧ replay s.w.trace = some (some ⟨a, b.id, 80, s.v.cap⟩) ∧
    b.id < s.w.nextBlk
  clean : ∀ e ∈ s.w.trace, e ≠ Event.refused a
  oracle : s.w.oracle = o

/-- The allocator refused a request and the block is still live. -/
structure AQuit (a : Nat) (o : Nat → Status) (w : World AArg) : Prop where
  live : ∃ l, replay w.trace = some (some l)
  refused : Event.refused a ∈ w.trace
  oracle : w.oracle = o
  bad : ∃ k, failed (o k) = true

theorem lt_of_mul160 {n : Nat} (h : n * 2 * 80 < 18446744073709551616) : n < 115292150460684698 := by
  omega

theorem mul160_lt {n : Nat} (h : n < 115292150460684698) : n * 2 * 80 < 18446744073709551616 := by
  omega

theorem newArg_ok {a : Nat} {o : Nat → Status} {s : VS AArg} {es : List AArg} (I : AInv a o s es)
    (hs' : es.length + 1 < 115292150460684698) :
    (∃ s', newArg s = .ret (stSuccess, s') ∧ AInv a o s' (es ++ [zeroArg])) ∨
    (∃ st s', newArg s = .ret (st, s') ∧ failed st = true ∧ AQuit a o s'.w) := by
  have hs := mul160_lt hs'
  obtain ⟨b, slack, hd, hc, hl, hr, hn⟩ := I.block
  have hlen : es.length + slack.length = s.v.cap := by
    rw [← hl, hc]; simp
  have hadd : add64 s.v.size 1 = es.length + 1 := by rw [I.size]; exact add64_eq (by omega)
  have hmul : mul64 (es.length + 1) 2 = (es.length + 1) * 2 := mul64_eq (by omega)
  have hmax : max 1 ((es.length + 1) * 2) = (es.length + 1) * 2 := by omega
  have hg : grantedCells 80 ((es.length + 1) * 2) = (es.length + 1) * 2 :=
    grantedCells_eq (by decide) (by omega)
  by_cases hgrow : es.length + 1 > s.v.cap
  · -- the vector is full
    have hsl : slack = [] := List.eq_nil_of_length_eq_zero (by omega)
    subst hsl
    rw [List.append_nil] at hc
    have hcap : s.v.cap = es.length := by simp at hlen; omega
    by_cases hf : failed (s.w.oracle s.w.calls) = true
    · refine Or.inr ⟨s.w.oracle s.w.calls,
        ⟨{ s.v with cap := (es.length + 1) * 2, data := some b },
          { s.w with calls := s.w.calls + 1, trace := s.w.trace ++ [.refused a] }⟩, ?_, hf, ?_⟩
      · simp only [newArg, vecEmplace, vecEmplaceEx, growFor, shouldGrow, hadd, hgrow, reallocate,
          I.allocator, I.growth, hmul, hmax, reallocTo, withData, hd, reallocBlock, hf, I.esz,
          gt_iff_lt, Nat.lt_irrefl, if_false, Out.bind, decide_true, if_true, World.log]
        rw [if_neg (by omega)]
        simp only [hf, if_true]
      · refine ⟨⟨⟨a, b.id, 80, s.v.cap⟩, ?_⟩, ?_, I.oracle,
          ⟨s.w.calls, by rw [← I.oracle]; exact hf⟩⟩
        · show replay (_ ++ [_]) = _
          rw [replay_append_one, hr]; rfl
        · simp
    · have hf : failed (s.w.oracle s.w.calls) = false := by simpa using hf
      refine Or.inl ⟨⟨{ s.v with
          cap := (es.length + 1) * 2
          size := es.length + 1
          data := some ⟨s.w.nextBlk, es.map some ++ [some zeroArg] ++
            List.replicate (es.length + 1) none⟩ },
          { s.w with
            calls := s.w.calls + 1
            nextBlk := s.w.nextBlk + 1
            trace := s.w.trace ++ [.realloc a b.id s.w.nextBlk 80 ((es.length + 1) * 2)] }⟩, ?_, ?_⟩
      · simp only [newArg, vecEmplace, vecEmplaceEx, growFor, shouldGrow, hadd, hgrow, reallocate,
          I.allocator, I.growth, hmul, hmax, reallocTo, withData, hd, reallocBlock, hf, I.esz,
          gt_iff_lt, Nat.lt_irrefl, if_false, Out.bind, decide_true, if_true, World.log,
          hg]
        rw [if_neg (by omega)]
        simp only [hf, if_false, failed_success, Bool.false_eq_true, Nat.lt_irrefl]
        rw [I.size, show b.cells.take ((es.length + 1) * 2) = es.map some by
          rw [hc, List.take_of_length_le]; simp; omega]
        rw [show b.cells.length = es.length by rw [hl, hcap]]
        rw [show (es.length + 1) * 2 - es.length = 1 + (es.length + 1) by omega,
          ← List.replicate_append_replicate]
        rw [show ∀ x y : List (Cell AArg), es.map some ++ (x ++ y) = es.map some ++ x ++ y from
          fun x y => (List.append_assoc ..).symm]
        have := writeRange_at (α := AArg) (pre := es.map some) (mid := List.replicate 1 none)
          (post := List.replicate (es.length + 1) none) (xs := [some zeroArg]) rfl
        rw [List.length_map] at this
        rw [this, ← I.size, hadd, I.size]
      · exact {
          allocator := I.allocator
          growth := I.growth
          esz := I.esz
          dtor := I.dtor
          size := by simp
          cap1 := by show 1 ≤ (es.length + 1) * 2; omega
          block := by
            refine ⟨_, List.replicate (es.length + 1) none, rfl, by simp, ?_, ?_, ?_⟩
            · simp; omega
            · show replay (_ ++ [_]) = _
              rw [replay_append_one, hr]
              simp only [replayStep]
              rw [if_pos ⟨trivial, trivial, trivial, by omega⟩]
            · exact Nat.lt_succ_self _
          clean := by
            intro e he
            rcases List.mem_append.1 he with h | h
            · exact I.clean e h
            · rw [List.mem_singleton.1 h]; simp
          oracle := I.oracle }
  · -- there is room
    refine Or.inl ⟨⟨{ s.v with
        size := es.length + 1
        data := some { b with cells := es.map some ++ [some zeroArg] ++ slack.tail } }, s.w⟩, ?_, ?_⟩
    · simp only [newArg, vecEmplace, vecEmplaceEx, growFor, shouldGrow, hadd, hgrow, withData, hd,
        gt_iff_lt, Nat.lt_irrefl, if_false, Out.bind, decide_false, failed_success,
        Bool.false_eq_true]
      obtain ⟨x, slack, rfl⟩ : ∃ x t, slack = x :: t := by
        cases slack with
        | nil => simp at hlen; omega
        | cons x t => exact ⟨x, t, rfl⟩
      rw [I.size, hc, show ∀ x t, es.map some ++ x :: t = es.map some ++ [x] ++ t by simp]
      have := writeRange_at (α := AArg) (pre := es.map some) (mid := [x])
        (post := slack) (xs := [some zeroArg]) rfl
      rw [List.length_map] at this
      rw [this]
      rfl
    · exact {
        allocator := I.allocator
        growth := I.growth
        esz := I.esz
        dtor := I.dtor
        size := by simp
        cap1 := I.cap1
        block := by
          refine ⟨_, slack.tail, rfl, by simp, ?_, hr, hn⟩
          cases slack with
          | nil => simp at hlen; omega
          | cons x t => simp at hlen ⊢; omega
        clean := I.clean
        oracle := I.oracle }

theorem modArg_ok {a : Nat} {o : Nat → Status} {s : VS AArg} {es : List AArg} {y : AArg}
    (I : AInv a o s (es ++ [y])) (hs : es.length + 1 < 18446744073709551616) (f : AArg → AArg) :
    ∃ s', modArg s f = .ret s' ∧ AInv a o s' (es ++ [f y]) := by
  obtain ⟨b, slack, hd, hc, hl, hr, hn⟩ := I.block
  have hsz : s.v.size = es.length + 1 := by rw [I.size]; simp
  have hsub : sub64 s.v.size 1 = es.length := by
    rw [hsz, sub64_eq (by omega) hs]; omega
  refine ⟨⟨{ s.v with data := some { b with cells := es.map some ++ [some (f y)] ++ slack } }, s.w⟩,
    ?_, ?_⟩
  · have hget : b.cells[es.length]? = some (some y) := by
      rw [hc]; simp
    simp only [modArg, withData, hd, hsub, hget]
    have := writeRange_at (α := AArg) (pre := es.map some) (mid := [some y])
      (post := slack) (xs := [some (f y)]) rfl
    rw [List.length_map] at this
    rw [hc, List.map_append, List.map_singleton, this]
    rfl
  · exact {
      allocator := I.allocator
      growth := I.growth
      esz := I.esz
      dtor := I.dtor
      size := by simpa using I.size
      cap1 := I.cap1
      block := by
        refine ⟨_, slack, rfl, by simp, ?_, hr, hn⟩
        rw [hc] at hl
        simpa using hl
      clean := I.clean
      oracle := I.oracle }

theorem strMem_drop (t : List Byte) (k : Nat) (h : k ≤ t.length) :
    (strMem t).drop k = strMem (t.drop k) := by
  unfold strMem
  rw [List.drop_append_of_le_length (by simpa using h), List.map_drop]

theorem rdChar_strMem {t : List Byte} {k : Nat} {c : Byte} {cs : List Byte}
    (h : t.drop k = c :: cs) : rdChar (strMem t) (k : Int) = .ret c := by
  have h1 : t[k]? = some c := by
    have := List.getElem?_drop (xs := t) (i := k) (j := 0)
    rw [h] at this
    simpa using this.symm
  have hk : k < t.length := (List.getElem?_eq_some_iff.1 h1).1
  unfold rdChar
  rw [if_neg (by omega)]
  have : (strMem t)[((k : Nat) : Int).toNat]? = some (some c) := by
    rw [Int.toNat_natCast, strMem, List.getElem?_append_left (by simpa using hk),
      List.getElem?_map, h1]
    rfl
  rw [this]

theorem rdChar_strMem_end {t : List Byte} {k : Nat} (h : k = t.length) :
    rdChar (strMem t) (k : Int) = .ret 0#8 := by
  unfold rdChar
  rw [if_neg (by omega)]
  have : (strMem t)[((k : Nat) : Int).toNat]? = some (some 0#8) := by
    rw [Int.toNat_natCast, strMem, List.getElem?_append_right (by simp [h])]
    simp [h]
  rw [this]

theorem strlen_strMem {t : List Byte} (h : 0#8 ∉ t) : cStrlen (strMem t) = .ret t.length :=
  cStrlen_ok (fun _ hc he => h (he ▸ hc)) []

theorem cStrEq_strMem {x : List Byte} : ∀ {y : List Byte}, 0#8 ∉ x → 0#8 ∉ y →
    cStrEq (strMem x) (strMem y) = .ret (x == y) := by
  induction x with
  | nil =>
    intro y _ hy
    cases y with
    | nil => rfl
    | cons b y =>
      have : (0#8 : Byte) ≠ b := fun h => hy (by rw [h]; simp)
      simp [strMem, cStrEq, this]
  | cons a x ih =>
    intro y hx hy
    have ha : a ≠ 0#8 := fun h => hx (by rw [h]; simp)
    cases y with
    | nil => simp [strMem, cStrEq, ha]
    | cons b y =>
      have := ih (y := y) (fun h => hx (List.mem_cons_of_mem _ h))
        (fun h => hy (List.mem_cons_of_mem _ h))
      by_cases hab : a = b
      · subst hab
        simp only [strMem, List.map_cons, List.cons_append, cStrEq, ne_eq, not_true_eq_false,
          if_false, ha]
        simp only [strMem] at this
        rw [this]
        simp
      · simp [strMem, cStrEq, hab]

theorem findLong_eq {t : List Byte} (ht : 0#8 ∉ t) (ds : List ArgDef) :
    ∀ (j : Nat), (∀ d ∈ ds, 0#8 ∉ d.name) →
    findLong (strMem t) j ds =
      .ret (((ds.zipIdx j).find? fun p => p.1.name == t).map fun p => (p.2, p.1)) := by
  induction ds with
  | nil => intro j _; rfl
  | cons d ds ih =>
    intro j h
    simp only [findLong, cStrEq_strMem (h d (by simp)) ht, Out.ret_bind', List.zipIdx_cons,
      List.find?_cons]
    by_cases he : (d.name == t) = true
    · simp [he]
    · have he : (d.name == t) = false := by simpa using he
      rw [he]
      simp only [Bool.false_eq_true, if_false]
      exact ih (j + 1) fun d hd => h d (List.mem_cons_of_mem _ hd)

theorem findShort_eq {c : Byte} (ds : List ArgDef) :
    ∀ (j : Nat), (∀ d ∈ ds, 0#8 ∉ d.name) →
    findShort c j ds =
      .ret (((ds.zipIdx j).find? fun p => p.1.name == dash ++ [c]).map fun p => (p.2, p.1)) := by
  induction ds with
  | nil => intro j _; rfl
  | cons d ds ih =>
    intro j h
    have hit : (if d.name.length = 2 then
        (rdChar (strMem d.name) 0).bind fun c0 =>
          if c0 = chDash then (rdChar (strMem d.name) 1).bind fun c1 => .ret (c1 == c)
          else .ret false
        else .ret false) = .ret (d.name == dash ++ [c]) := by
      match hn : d.name with
      | [] => rfl
      | [x] => simp [dash]
      | [x, y] =>
        have e0 : rdChar (strMem [x, y]) 0 = .ret x := rfl
        have e1 : rdChar (strMem [x, y]) 1 = .ret y := rfl
        simp only [List.length_cons, List.length_nil, if_true, e0, e1, Out.ret_bind', dash, chDash]
        by_cases hx : x = 45#8
        · by_cases hy : y = c
          · simp [hx, hy]
          · simp [hx]
        · simp [hx]
      | x :: y :: z :: r => simp [dash]
    simp only [findShort, strlen_strMem (h d (by simp)), Out.ret_bind', List.zipIdx_cons,
      List.find?_cons]
    rw [hit]
    simp only [Out.ret_bind']
    by_cases he : (d.name == dash ++ [c]) = true
    · simp [he]
    · have he : (d.name == dash ++ [c]) = false := by simpa using he
      rw [he]
      simp only [Bool.false_eq_true, if_false]
      exact ih (j + 1) fun d hd => h d (List.mem_cons_of_mem _ hd)

theorem putValue_ok {a : Nat} {o : Nat → Status} {s : VS AArg} {es : List AArg} {y : AArg}
    (I : AInv a o s (es ++ [y])) (hs : es.length + 1 < 18446744073709551616)
    {v : List Byte} (hv : 0#8 ∉ v) (hl : v.length + 1 < 18446744073709551616) :
    ∃ s', putValue s (strMem v) = .ret (stSuccess, s') ∧
      AInv a o s' (es ++ [⟨y.defn, true, some ⟨strMem v, v.length + 1⟩⟩]) := by
  obtain ⟨s1, h1, I1⟩ := modArg_ok I hs fun x => { x with hasValue := true }
  obtain ⟨s', h2, I2⟩ := modArg_ok I1 hs
    fun x => { x with value := some ⟨strMem v, v.length + 1⟩ }
  refine ⟨s', ?_, I2⟩
  simp only [putValue, h1, viewInsideBuffer, strlen_strMem hv, Out.ret_bind', add64_eq hl,
    failed_success, Bool.false_eq_true, if_false, h2]

/-! ## Single tokens -/

/-- The piece of the parser returned because the allocator refused. -/
def IsQuit (a : Nat) (o : Nat → Status) : Ctl → Prop
  | .quit st s => failed st = true ∧ AQuit a o s.w
  | _ => False

theorem drop_cons {α : Type} {l : List α} {i : Nat} {x : α} (h : l[i]? = some x) :
    l.drop i = x :: l.drop (i + 1) := by
  obtain ⟨hi, rfl⟩ := List.getElem?_eq_some_iff.1 h
  exact List.drop_eq_getElem_cons hi

theorem le_sum_of_mem {l : List Nat} {x : Nat} (h : x ∈ l) : x ≤ l.sum := by
  induction l with
  | nil => simp at h
  | cons y l ih =>
    rcases List.mem_cons.1 h with rfl | h
    · simp
    · have := ih h
      simp only [List.sum_cons]
      omega

theorem proper_len {cfg : ArgConfig} (H : ProperConfig cfg) {t : List Byte} (ht : t ∈ cfg.argv) :
    t.length + 1 < 18446744073709551616 := by
  have h1 : t.length ≤ (cfg.argv.map List.length).sum :=
    le_sum_of_mem (List.mem_map_of_mem ht)
  have := lt_of_mul160 H.small
  omega

theorem takeNext_ok {cfg : ArgConfig} (H : ProperConfig cfg) {a : Nat} {o : Nat → Status}
    {s : VS AArg} {es : List AArg} {j i : Nat} {y : AArg} (cur : List Byte)
    (I : AInv a o s (es ++ [y])) (hy : y.defn = some j)
    (hs : es.length + 1 < 18446744073709551616) (hi : i < cfg.argc) :
    (cfg.argv.drop (i + 1) = [] ∧ takeNext cfg cur s i = .ret (.fail stArgMissesValue cur s)) ∨
    (∃ v s', cfg.argv.drop (i + 1) = v :: cfg.argv.drop (i + 1 + 1) ∧
      takeNext cfg cur s i = .ret (.cont s' (i + 1)) ∧
      AInv a o s' (es ++ [structOf (.opt j (some v))])) := by
  have hsm := lt_of_mul160 H.small
  have ha := H.argc
  have hsub : sub64 cfg.argc 1 = cfg.argc - 1 := sub64_eq (by omega) (by omega)
  by_cases he : i = cfg.argc - 1
  · left
    refine ⟨List.drop_eq_nil_of_le (by omega), ?_⟩
    simp only [takeNext]
    rw [hsub, if_pos he]
  · right
    obtain ⟨v, hv⟩ : ∃ v, cfg.argv[i + 1]? = some v :=
      ⟨_, List.getElem?_eq_getElem (by omega)⟩
    have hm : v ∈ cfg.argv := List.mem_of_getElem? hv
    obtain ⟨s', h1, h2⟩ := putValue_ok I hs (H.argv v hm) (proper_len H hm)
    refine ⟨v, s', drop_cons hv, ?_, by rw [hy] at h2; exact h2⟩
    simp only [takeNext]
    rw [hsub, if_neg he]
    simp only [argvAt, hv, Out.ret_bind', h1, failed_success, Bool.false_eq_true, if_false]

/-- What the loop over a cluster does, in terms of the reading of the cluster. -/
def ShortEnds (cfg : ArgConfig) (a : Nat) (o : Nat → Status) (cur : List Byte) (i : Nat)
    (es : List AArg) (r : List Item × ClusterEnd) (c : Ctl) : Prop :=
  IsQuit a o c ∨
  match r.2 with
  | .flags => ∃ s, c = .fall s i ∧ AInv a o s (es ++ r.1.map structOf)
  | .attached => ∃ s, c = .cont s i ∧ AInv a o s (es ++ r.1.map structOf)
  | .wants j =>
    (cfg.argv.drop (i + 1) = [] ∧ ∃ s es', c = .fail stArgMissesValue cur s ∧ AInv a o s es') ∨
    (∃ v s, cfg.argv.drop (i + 1) = v :: cfg.argv.drop (i + 1 + 1) ∧ c = .cont s (i + 1) ∧
      AInv a o s (es ++ r.1.map structOf ++ [structOf (.opt j (some v))]))
  | .unknown => ∃ s es', c = .fail stArgNotUnderstood cur s ∧ AInv a o s es'

theorem ShortEnds.cons {cfg : ArgConfig} {a : Nat} {o : Nat → Status} {cur : List Byte} {i : Nat}
    {es : List AArg} {r : List Item × ClusterEnd} {c : Ctl} {it : Item}
    (h : ShortEnds cfg a o cur i (es ++ [structOf it]) r c) :
    ShortEnds cfg a o cur i es (it :: r.1, r.2) c := by
  obtain ⟨is, e⟩ := r
  rcases h with h | h
  · exact Or.inl h
  · right
    cases e <;> simpa [List.append_assoc] using h

theorem shortLoop_ok {cfg : ArgConfig} (H : ProperConfig cfg) {a : Nat} {o : Nat → Status}
    {cur : List Byte} (hcur : cur ∈ cfg.argv) {i : Nat} (hi : i < cfg.argc) :
    ∀ (cs : List Byte) {fuel k : Nat} {s : VS AArg} {es : List AArg}, cur.drop k = cs →
      k ≤ cur.length → cs.length < fuel → AInv a o s es →
      es.length + cs.length + 1 < 115292150460684698 →
      ∃ c, shortLoop cfg cur i fuel s k = .ret c ∧
        ShortEnds cfg a o cur i es (cluster cfg.args cs) c := by
  intro cs
  induction cs with
  | nil =>
    intro fuel k s es hk hkl hf I hs
    obtain ⟨fuel, rfl⟩ : ∃ f, fuel = f + 1 := ⟨fuel - 1, by simp at hf; omega⟩
    have hkl : k = cur.length := by
      have := List.drop_eq_nil_iff.1 hk; omega
    refine ⟨.fall s i, ?_, Or.inr ⟨s, rfl, by simpa [cluster] using I⟩⟩
    simp only [shortLoop, rdChar_strMem_end hkl, Out.ret_bind', if_true]
  | cons c cs ih =>
    intro fuel k s es hk hkl hf I hs
    obtain ⟨fuel, rfl⟩ : ∃ f, fuel = f + 1 := ⟨fuel - 1, by simp at hf; omega⟩
    have hmem : c ∈ cur := by
      have : c ∈ cur.drop k := by rw [hk]; simp
      exact List.mem_of_mem_drop this
    have hc0 : c ≠ 0#8 := fun h => H.argv cur hcur (h ▸ hmem)
    have hk1 : cur.drop (k + 1) = cs := by
      rw [← List.drop_drop, hk]; rfl
    have hklt : k < cur.length := by
      refine Classical.byContradiction fun h => ?_
      rw [List.drop_eq_nil_of_le (by omega)] at hk
      simp at hk
    simp only [List.length_cons] at hs hf
    have hs1 : es.length + 1 < 115292150460684698 := by omega
    rcases newArg_ok I hs1 with ⟨s1, h1, I1⟩ | ⟨st, s1, h1, hst, Q⟩
    rotate_left
    · refine ⟨.quit st s1, ?_, Or.inl ⟨hst, Q⟩⟩
      simp only [shortLoop, rdChar_strMem hk, Out.ret_bind', hc0, if_false, h1, hst, if_true]
    · have hf2 := findShort_eq (c := c) cfg.args 0 H.names
      have hlk : (cfg.args.zipIdx.find? fun p => p.1.name == dash ++ [c]) =
        lookup cfg.args (dash ++ [c]) := rfl
      rw [hlk] at hf2
      cases hl : lookup cfg.args (dash ++ [c]) with
      | none =>
        rw [hl] at hf2
        refine ⟨.fail stArgNotUnderstood cur s1, ?_, Or.inr ?_⟩
        · simp only [shortLoop, rdChar_strMem hk, Out.ret_bind', hc0, if_false, h1,
            failed_success, Bool.false_eq_true, hf2, Option.map_none]
        · simp only [cluster, hl]
          exact ⟨s1, _, rfl, I1⟩
      | some p =>
        obtain ⟨d, j⟩ := p
        rw [hl] at hf2
        obtain ⟨s2, h2, I2⟩ := modArg_ok I1 (by omega) fun x => { x with defn := some j }
        cases hb : d.boolean with
        | true =>
          obtain ⟨r, h3, E⟩ := ih (fuel := fuel) hk1 (by omega) (by omega) I2
            (by simp only [List.length_append, List.length_cons, List.length_nil]; omega)
          refine ⟨r, ?_, ?_⟩
          · simp only [shortLoop, rdChar_strMem hk, Out.ret_bind', hc0, if_false, h1,
              failed_success, Bool.false_eq_true, hf2, Option.map_some, h2, hb, if_true, h3]
          · simp only [cluster, hl, hb, if_true]
            exact ShortEnds.cons E
        | false =>
          have hcast : ((k : Int) + 1) = ((k + 1 : Nat) : Int) := rfl
          cases cs with
          | nil =>
            have hend : k + 1 = cur.length := by
              have := List.drop_eq_nil_iff.1 hk1; omega
            have hstep : shortLoop cfg cur i (fuel + 1) s k = takeNext cfg cur s2 i := by
              simp only [shortLoop, rdChar_strMem hk, Out.ret_bind', hc0, if_false, h1,
                failed_success, Bool.false_eq_true, hf2, Option.map_some, h2, hb, hcast,
                rdChar_strMem_end hend, ne_eq, not_true_eq_false]
            rcases takeNext_ok H (j := j) cur I2 rfl (by omega) hi with ⟨e, h3⟩ | ⟨v, s3, e, h3, I3⟩
            · refine ⟨_, hstep.trans h3, Or.inr ?_⟩
              simp only [cluster, hl, hb, Bool.false_eq_true, if_false, if_true]
              exact Or.inl ⟨e, s2, _, rfl, I2⟩
            · refine ⟨_, hstep.trans h3, Or.inr ?_⟩
              simp only [cluster, hl, hb, Bool.false_eq_true, if_false, if_true]
              exact Or.inr ⟨v, s3, e, rfl, by simpa using I3⟩
          | cons c' cs' =>
            have hc' : c' ≠ 0#8 := by
              intro h
              have : c' ∈ cur.drop (k + 1) := by rw [hk1]; simp
              exact H.argv cur hcur (h ▸ List.mem_of_mem_drop this)
            have hv : 0#8 ∉ (c' :: cs') := by
              intro h
              rw [← hk1] at h
              exact H.argv cur hcur (List.mem_of_mem_drop h)
            have hvl : (c' :: cs').length + 1 < 18446744073709551616 := by
              have := proper_len H hcur
              have h5 : (cur.drop (k + 1)).length = (c' :: cs').length := by rw [hk1]
              rw [List.length_drop] at h5
              omega
            obtain ⟨s3, h3, I3⟩ := putValue_ok I2 (by omega) hv hvl
            refine ⟨.cont s3 i, ?_, Or.inr ?_⟩
            · simp only [shortLoop, rdChar_strMem hk, Out.ret_bind', hc0, if_false, h1,
                failed_success, Bool.false_eq_true, hf2, Option.map_some, h2, hb, hcast,
                rdChar_strMem hk1, ne_eq, hc', not_false_eq_true, if_true,
                strMem_drop cur (k + 1) (by omega), hk1, h3]
            · simp only [cluster, hl, hb, Bool.false_eq_true, if_false]
              rw [if_neg (by simp)]
              exact ⟨s3, rfl, by simpa [structOf] using I3⟩

theorem unnamedArg_ok {cfg : ArgConfig} (H : ProperConfig cfg) {a : Nat} {o : Nat → Status}
    {s : VS AArg} {es : List AArg} {i num : Nat} {cur : List Byte} (hcur : cur ∈ cfg.argv)
    (I : AInv a o s es) (hs : es.length + 1 < 115292150460684698) :
    (cfg.maxUnnamed < num ∧ unnamedArg cfg cur s i num = .ret (.fail stTooManyArgs cur s)) ∨
    (∃ c, unnamedArg cfg cur s i num = .ret c ∧ IsQuit a o c) ∨
    (num ≤ cfg.maxUnnamed ∧ ∃ s', unnamedArg cfg cur s i num = .ret (.cont s' i) ∧
      AInv a o s' (es ++ [structOf (.plain cur)])) := by
  by_cases hm : num > cfg.maxUnnamed
  · left
    exact ⟨hm, by simp only [unnamedArg, hm, if_true]⟩
  · right
    rcases newArg_ok I hs with ⟨s1, h1, I1⟩ | ⟨st, s1, h1, hst, Q⟩
    · right
      obtain ⟨s2, h2, I2⟩ := putValue_ok I1 (by omega) (H.argv cur hcur) (proper_len H hcur)
      refine ⟨by omega, s2, ?_, I2⟩
      simp only [unnamedArg, hm, if_false, h1, Out.ret_bind', failed_success, Bool.false_eq_true,
        h2]
    · left
      refine ⟨.quit st s1, ?_, hst, Q⟩
      simp only [unnamedArg, hm, if_false, h1, Out.ret_bind', hst, if_true]

/-- What a long option does, in terms of the lookup of its name. -/
theorem longArg_ok {cfg : ArgConfig} (H : ProperConfig cfg) {a : Nat} {o : Nat → Status}
    {s : VS AArg} {es : List AArg} {i : Nat} (hi : i < cfg.argc) {cur : List Byte}
    (hcur : cur ∈ cfg.argv) (I : AInv a o s es)
    (hs : es.length + 1 < 115292150460684698) :
    ∃ c, longArg cfg cur s i = .ret c ∧ (IsQuit a o c ∨
      (lookup cfg.args cur = none ∧ ∃ s es', c = .fail stArgNotUnderstood cur s ∧ AInv a o s es') ∨
      (∃ d j, lookup cfg.args cur = some (d, j) ∧ d.boolean = true ∧
        ∃ s, c = .cont s i ∧ AInv a o s (es ++ [structOf (.opt j none)])) ∨
      (∃ d j, lookup cfg.args cur = some (d, j) ∧ d.boolean = false ∧
        ((cfg.argv.drop (i + 1) = [] ∧
          ∃ s es', c = .fail stArgMissesValue cur s ∧ AInv a o s es') ∨
        (∃ v s, cfg.argv.drop (i + 1) = v :: cfg.argv.drop (i + 1 + 1) ∧ c = .cont s (i + 1) ∧
          AInv a o s (es ++ [structOf (.opt j (some v))]))))) := by
  rcases newArg_ok I hs with ⟨s1, h1, I1⟩ | ⟨st, s1, h1, hst, Q⟩
  rotate_left
  · refine ⟨.quit st s1, ?_, Or.inl ⟨hst, Q⟩⟩
    simp only [longArg, h1, Out.ret_bind', hst, if_true]
  · have hf2 := findLong_eq (H.argv cur hcur) cfg.args 0 H.names
    have hlk : (cfg.args.zipIdx.find? fun p => p.1.name == cur) = lookup cfg.args cur := rfl
    rw [hlk] at hf2
    cases hl : lookup cfg.args cur with
    | none =>
      rw [hl] at hf2
      refine ⟨.fail stArgNotUnderstood cur s1, ?_, Or.inr (Or.inl ⟨rfl, s1, _, rfl, I1⟩)⟩
      simp only [longArg, h1, Out.ret_bind', failed_success, Bool.false_eq_true, if_false, hf2,
        Option.map_none]
    | some p =>
      obtain ⟨d, j⟩ := p
      rw [hl] at hf2
      obtain ⟨s2, h2, I2⟩ := modArg_ok I1 (by omega) fun x => { x with defn := some j }
      cases hb : d.boolean with
      | true =>
        refine ⟨.cont s2 i, ?_, Or.inr (Or.inr (Or.inl ⟨d, j, rfl, hb, s2, rfl, I2⟩))⟩
        simp only [longArg, h1, Out.ret_bind', failed_success, Bool.false_eq_true, if_false, hf2,
          Option.map_some, h2, hb, if_true]
      | false =>
        have hstep : longArg cfg cur s i = takeNext cfg cur s2 i := by
          simp only [longArg, h1, Out.ret_bind', failed_success, Bool.false_eq_true, if_false, hf2,
            Option.map_some, h2, hb]
        rcases takeNext_ok H (j := j) cur I2 rfl (by omega) hi with ⟨e, h3⟩ | ⟨v, s3, e, h3, I3⟩
        · exact ⟨_, hstep.trans h3, Or.inr (Or.inr (Or.inr ⟨d, j, rfl, hb,
            Or.inl ⟨e, s2, _, rfl, I2⟩⟩))⟩
        · exact ⟨_, hstep.trans h3, Or.inr (Or.inr (Or.inr ⟨d, j, rfl, hb,
            Or.inr ⟨v, s3, e, rfl, I3⟩⟩))⟩

/-! ## The main loop -/

/-- After a token that was (also) found to be unnamed. -/
def afterFall (cfg : ArgConfig) (cur : List Byte) (p : PState) (c : Ctl) : Out LoopRes :=
  match c with
  | .fall s i => (unnamedArg cfg cur s i (add64 p.num 1)).bind (finishTok (add64 p.num 1) p.accept)
  | c => finishTok p.num p.accept c

theorem argToken_eq {cfg : ArgConfig} (H : ProperConfig cfg) {p : PState} {cur : List Byte}
    (hc : cfg.argv[p.i]? = some cur) :
    argToken cfg p =
      if p.accept = true ∧ cur = dashDash then .ret (.done { p with accept := false })
      else if p.accept = true ∧ dashDash <+: cur then
        (longArg cfg cur p.s p.i).bind (finishTok p.num p.accept)
      else if p.accept = true ∧ dash <+: cur ∧ cur ≠ dash then
        (shortLoop cfg cur p.i cur.length p.s 1).bind (afterFall cfg cur p)
      else afterFall cfg cur p (.fall p.s p.i) := by
  have hm := H.argv cur (List.mem_of_getElem? hc)
  unfold argToken
  simp only [argvAt, hc, Out.ret_bind', strlen_strMem hm]
  cases ha : p.accept with
  | false =>
    simp only [Bool.false_eq_true, false_and, if_false, Out.ret_bind', afterFall, ha]
  | true =>
    match cur with
    | [] => simp [dashDash, dash, afterFall, ha]
    | [x] =>
      simp only [true_and, List.length_cons, List.length_nil, dashDash, dash]
      by_cases hx : x = 45#8
      · subst hx; simp [afterFall, ha]
      · simp [afterFall, ha, Ne.symm hx]
    | x :: y :: r =>
      have e0 : rdChar (strMem (x :: y :: r)) 0 = .ret x := rfl
      have e1 : rdChar (strMem (x :: y :: r)) 1 = .ret y := rfl
      have hl2 : (x :: y :: r).length ≥ 2 := by simp
      have hl1 : (x :: y :: r).length > 1 := by simp
      simp only [true_and, hl2, hl1, if_true, startsDashDash, e0, e1, Out.ret_bind', chDash]
      by_cases hx : x = 45#8
      · by_cases hy : y = 45#8
        · subst hx hy
          cases r with
          | nil => simp [dashDash]
          | cons z r =>
            simp [dashDash]
        · subst hx
          have h1 : ¬ (45#8 :: y :: r = dashDash) := by simp [dashDash, hy]
          have h2 : ¬ (dashDash <+: 45#8 :: y :: r) := by simp [dashDash, Ne.symm hy]
          have h3 : dash <+: 45#8 :: y :: r ∧ 45#8 :: y :: r ≠ dash := by simp [dash]
          rw [if_neg h1, if_neg h2, if_pos h3]
          simp only [beq_self_eq_true, Bool.true_and, beq_iff_eq, hy, if_false, if_true]
          congr 1
          funext c
          cases c <;> simp only [afterFall, ha]
      · have h1 : ¬ (x :: y :: r = dashDash) := by simp [dashDash, hx]
        have h2 : ¬ (dashDash <+: x :: y :: r) := by simp [dashDash, Ne.symm hx]
        have h3 : ¬ (dash <+: x :: y :: r ∧ x :: y :: r ≠ dash) := by simp [dash, Ne.symm hx]
        rw [if_neg h1, if_neg h2, if_neg h3]
        have hb : (x == 45#8) = false := by simpa using hx
        simp only [hb, Bool.false_and, Bool.false_eq_true, if_false, Out.ret_bind', afterFall, ha]

/-- Room that the remaining tokens can take in the output vector. -/
def budget (ts : List Tok) : Nat := (ts.map fun t => t.length + 1).sum

def modeOf (accept : Bool) : Mode := if accept then .any else .plainOnly

theorem cluster_plains (D : List ArgDef) (cs : List Byte) : plains (cluster D cs).1 = [] := by
  induction cs with
  | nil => rfl
  | cons c cs ih =>
    unfold cluster
    split
    · rfl
    · split
      · simpa [plains] using ih
      · split
        · rfl
        · rfl

theorem cluster_len (D : List ArgDef) (cs : List Byte) :
    (cluster D cs).1.length + (if (cluster D cs).2 matches .wants _ then 1 else 0) ≤ cs.length := by
  induction cs with
  | nil => simp [cluster]
  | cons c cs ih =>
    unfold cluster
    split
    · simp
    · split
      · simp only [List.length_cons]
        omega
      · split
        · simp
        · simp

theorem plains_append (x y : List Item) : plains (x ++ y) = plains x ++ plains y :=
  List.filterMap_append

/-- The failure that a reading assigns to the remaining tokens. -/
def FailsWith (cfg : ArgConfig) (num : Nat) (r : List Item × Option ReadError) (e : Status)
    (t : Tok) : Prop :=
  ((plains r.1)[cfg.maxUnnamed - num]? = some t ∧ e = stTooManyArgs) ∨
  ((plains r.1)[cfg.maxUnnamed - num]? = none ∧
    ((r.2 = some (.unknown t) ∧ e = stArgNotUnderstood) ∨
     (r.2 = some (.noValue t) ∧ e = stArgMissesValue)))

/-- What one token does. -/
def TokEnds (cfg : ArgConfig) (a : Nat) (o : Nat → Status) (es : List AArg) (p : PState) :
    LoopRes → Prop
  | .quit st s => failed st = true ∧ AQuit a o s.w
  | .fail e t s => (∃ es', AInv a o s es') ∧
      FailsWith cfg p.num (reading true cfg.args (modeOf p.accept) (cfg.argv.drop p.i)) e t
  | .done q => ∃ is, AInv a o q.s (es ++ is.map structOf) ∧ q.num = p.num + (plains is).length ∧
      q.num ≤ cfg.maxUnnamed ∧ p.i ≤ q.i ∧ q.i < cfg.argc ∧
      is.length + budget (cfg.argv.drop (q.i + 1)) ≤ budget (cfg.argv.drop p.i) ∧
      reading true cfg.args (modeOf p.accept) (cfg.argv.drop p.i) =
        prepend is (reading true cfg.args (modeOf q.accept) (cfg.argv.drop (q.i + 1)))

theorem finish_quit {a : Nat} {o : Nat → Status} {c : Ctl} (h : IsQuit a o c) (num : Nat)
    (accept : Bool) :
    ∃ st s, finishTok num accept c = .ret (.quit st s) ∧ failed st = true ∧ AQuit a o s.w := by
  cases c with
  | quit st s => exact ⟨st, s, rfl, h⟩
  | _ => exact h.elim

theorem argToken_ok {cfg : ArgConfig} (H : ProperConfig cfg) {a : Nat} {o : Nat → Status}
    {p : PState} {es : List AArg} (I : AInv a o p.s es) (hi : p.i < cfg.argc)
    (hn : p.num ≤ cfg.maxUnnamed) (hnl : p.num ≤ es.length)
    (hs : es.length + budget (cfg.argv.drop p.i) + 1 < 115292150460684698) :
    ∃ L, argToken cfg p = .ret L ∧ TokEnds cfg a o es p L := by
  obtain ⟨cur, hc⟩ : ∃ cur, cfg.argv[p.i]? = some cur :=
    ⟨_, List.getElem?_eq_getElem (by rw [← H.argc]; exact hi)⟩
  have hcur := List.mem_of_getElem? hc
  have hd := drop_cons hc
  have hb : budget (cfg.argv.drop p.i) = cur.length + 1 + budget (cfg.argv.drop (p.i + 1)) := by
    rw [hd]; simp [budget]
  have hadd : add64 p.num 1 = p.num + 1 := add64_eq (by omega)
  rw [argToken_eq H hc]
  -- the unnamed case, after `is` was emitted for the same token
  have plainCase : ∀ (s : VS AArg) (is : List Item), AInv a o s (es ++ is.map structOf) →
      plains is = [] → is.length ≤ cur.length →
      reading true cfg.args (modeOf p.accept) (cfg.argv.drop p.i) =
        prepend (is ++ [.plain cur]) (reading true cfg.args (modeOf p.accept)
          (cfg.argv.drop (p.i + 1))) →
      ∃ L, afterFall cfg cur p (.fall s p.i) = .ret L ∧ TokEnds cfg a o es p L := by
    intro s is I' hp hl hr
    rcases unnamedArg_ok H (i := p.i) (num := p.num + 1) hcur I'
      (by simp only [List.length_append, List.length_map]; omega) with ⟨hm, h⟩ | ⟨c, h, Q⟩ |
        ⟨hm, s', h, I''⟩
    · refine ⟨.fail stTooManyArgs cur s, ?_, ⟨_, I'⟩, Or.inl ⟨?_, rfl⟩⟩
      · simp only [afterFall, hadd, h, Out.ret_bind', finishTok]
      · rw [hr, show cfg.maxUnnamed - p.num = 0 by omega]
        simp [prepend, plains_append, hp]
        rfl
    · obtain ⟨st, s', h1, h2⟩ := finish_quit Q (p.num + 1) p.accept
      refine ⟨.quit st s', ?_, h2⟩
      simp only [afterFall, hadd, h, Out.ret_bind']
      exact h1
    · refine ⟨.done ⟨s', p.i, p.accept, p.num + 1⟩, ?_, is ++ [.plain cur], ?_, ?_, hm,
        Nat.le_refl _, hi, ?_, hr⟩
      · simp only [afterFall, hadd, h, Out.ret_bind', finishTok]
      · simpa using I''
      · rw [plains_append, hp]
        rfl
      · simp only [List.length_append, List.length_cons, List.length_nil]
        omega
  by_cases h1 : p.accept = true ∧ cur = dashDash
  · rw [if_pos h1]
    refine ⟨_, rfl, [], by simpa using I, rfl, hn, Nat.le_refl _, hi, by simp; omega, ?_⟩
    rw [hd, h1.1, h1.2]
    simp [modeOf, reading, prepend]
  rw [if_neg h1]
  by_cases h2 : p.accept = true ∧ dashDash <+: cur
  · rw [if_pos h2]
    have hne : cur ≠ dashDash := fun h => h1 ⟨h2.1, h⟩
    have hrd : reading true cfg.args (modeOf p.accept) (cfg.argv.drop p.i) =
        match lookup cfg.args cur with
        | none => ([], some (.unknown cur))
        | some (d, j) =>
          if d.boolean then prepend [.opt j none] (reading true cfg.args .any (cfg.argv.drop (p.i + 1)))
          else reading true cfg.args (.value j cur) (cfg.argv.drop (p.i + 1)) := by
      rw [hd, h2.1]
      simp only [modeOf, if_true, reading, hne, if_false, h2.2]
      cases lookup cfg.args cur <;> rfl
    obtain ⟨c, hl, Q | ⟨hn1, s, es', rfl, I'⟩ | ⟨d, j, hk, hbo, s, rfl, I'⟩ |
      ⟨d, j, hk, hbo, ⟨he, s, es', rfl, I'⟩ | ⟨v, s, he, rfl, I'⟩⟩⟩ :=
      longArg_ok H hi hcur I (by omega)
    · obtain ⟨st, s', h1, h2⟩ := finish_quit Q p.num p.accept
      exact ⟨.quit st s', by rw [hl]; exact h1, h2⟩
    · refine ⟨.fail stArgNotUnderstood cur s, by rw [hl]; rfl, ⟨es', I'⟩, Or.inr ?_⟩
      rw [hrd, hn1]
      exact ⟨rfl, Or.inl ⟨rfl, rfl⟩⟩
    · refine ⟨.done ⟨s, p.i, p.accept, p.num⟩, by rw [hl]; rfl, [.opt j none], I', rfl, hn,
        Nat.le_refl _, hi, by simp only [List.length_cons, List.length_nil]; omega, ?_⟩
      rw [hrd, hk, h2.1]
      simp only [hbo, if_true, modeOf]
    · refine ⟨.fail stArgMissesValue cur s, by rw [hl]; rfl, ⟨es', I'⟩, Or.inr ?_⟩
      rw [hrd, hk, he]
      simp only [hbo, Bool.false_eq_true, if_false, reading]
      exact ⟨rfl, Or.inr ⟨trivial, trivial⟩⟩
    · have hi1 : p.i + 1 < cfg.argc := by
        refine Classical.byContradiction fun h => ?_
        have ha := H.argc
        rw [List.drop_eq_nil_of_le (by omega)] at he
        simp at he
      have hb2 : budget (cfg.argv.drop (p.i + 1)) =
          v.length + 1 + budget (cfg.argv.drop (p.i + 1 + 1)) := by
        rw [he]; simp [budget]
      refine ⟨.done ⟨s, p.i + 1, p.accept, p.num⟩, by rw [hl]; rfl, [.opt j (some v)], I', rfl, hn,
        Nat.le_succ _, hi1, by simp only [List.length_cons, List.length_nil]; omega, ?_⟩
      rw [hrd, hk, h2.1, he]
      simp only [hbo, Bool.false_eq_true, if_false, reading, modeOf, if_true]
  rw [if_neg h2]
  by_cases h3 : p.accept = true ∧ dash <+: cur ∧ cur ≠ dash
  · rw [if_pos h3]
    have hne : cur ≠ dashDash := fun h => h1 ⟨h3.1, h⟩
    have hnp : ¬ dashDash <+: cur := fun h => h2 ⟨h3.1, h⟩
    have hrd : reading true cfg.args (modeOf p.accept) (cfg.argv.drop p.i) =
        match cluster cfg.args cur.tail with
        | (is, .flags) => prepend (is ++ [.plain cur])
            (reading true cfg.args .any (cfg.argv.drop (p.i + 1)))
        | (is, .attached) => prepend is (reading true cfg.args .any (cfg.argv.drop (p.i + 1)))
        | (is, .wants j) =>
          prepend is (reading true cfg.args (.value j cur) (cfg.argv.drop (p.i + 1)))
        | (is, .unknown) => (is, some (.unknown cur)) := by
      rw [hd, h3.1]
      simp only [modeOf, if_true, reading, hne, if_false, hnp, h3.2, true_and, ne_eq,
        not_false_eq_true]
      rcases cluster cfg.args cur.tail with ⟨is, e⟩
      cases e <;> rfl
    have hcl : 1 ≤ cur.length := by
      refine Classical.byContradiction fun h => ?_
      have := List.IsPrefix.length_le h3.2.1
      simp only [dash, List.length_cons, List.length_nil] at this
      omega
    have htl : cur.tail.length = cur.length - 1 := List.length_tail
    obtain ⟨c, hl, E⟩ := shortLoop_ok H (a := a) (o := o) (s := p.s) (es := es) (k := 1)
      (fuel := cur.length) hcur hi cur.tail List.drop_one hcl (by omega) I (by omega)
    rw [hl]
    simp only [Out.ret_bind']
    have hpl := cluster_plains cfg.args cur.tail
    have hle := cluster_len cfg.args cur.tail
    revert E hrd hpl hle
    rcases cluster cfg.args cur.tail with ⟨is, e⟩
    intro hrd E hpl hle
    rcases E with Q | E
    · obtain ⟨st, s', h1, h2⟩ := finish_quit Q p.num p.accept
      refine ⟨.quit st s', ?_, h2⟩
      cases c with
      | quit st s => exact h1
      | _ => exact Q.elim
    · cases e with
      | flags =>
        obtain ⟨s, rfl, I'⟩ := E
        exact plainCase s is I' hpl (by simp only at hle; omega) (by rw [hrd, h3.1]; rfl)
      | attached =>
        obtain ⟨s, rfl, I'⟩ := E
        refine ⟨.done ⟨s, p.i, p.accept, p.num⟩, rfl, is, I', by rw [hpl]; rfl, hn,
          Nat.le_refl _, hi, by show is.length + budget (cfg.argv.drop (p.i + 1)) ≤ _; simp only at hle; omega, ?_⟩
        rw [hrd, h3.1]
        rfl
      | wants j =>
        rcases E with ⟨he, s, es', rfl, I'⟩ | ⟨v, s, he, rfl, I'⟩
        · refine ⟨.fail stArgMissesValue cur s, rfl, ⟨es', I'⟩, Or.inr ?_⟩
          rw [hrd, he]
          simp only [reading, prepend, List.append_nil]
          rw [hpl]
          exact ⟨rfl, Or.inr ⟨trivial, trivial⟩⟩
        · have hi1 : p.i + 1 < cfg.argc := by
            refine Classical.byContradiction fun h => ?_
            have ha := H.argc
            rw [List.drop_eq_nil_of_le (by omega)] at he
            simp at he
          have hb2 : budget (cfg.argv.drop (p.i + 1)) =
              v.length + 1 + budget (cfg.argv.drop (p.i + 1 + 1)) := by
            rw [he]; simp [budget]
          refine ⟨.done ⟨s, p.i + 1, p.accept, p.num⟩, rfl, is ++ [.opt j (some v)],
            by simpa using I', ?_, hn, Nat.le_succ _, hi1, ?_, ?_⟩
          · rw [plains_append, hpl]; rfl
          · simp only [List.length_append, List.length_cons, List.length_nil]
            simp only [if_true] at hle
            omega
          · rw [hrd, h3.1, he]
            simp [reading, prepend, modeOf]
      | unknown =>
        obtain ⟨s, es', rfl, I'⟩ := E
        refine ⟨.fail stArgNotUnderstood cur s, rfl, ⟨es', I'⟩, Or.inr ?_⟩
        rw [hrd]
        simp only [hpl]
        exact ⟨rfl, Or.inl ⟨trivial, trivial⟩⟩
  rw [if_neg h3]
  refine plainCase p.s [] (by simpa using I) rfl (Nat.zero_le _) ?_
  rw [hd]
  cases ha : p.accept with
  | false => simp [modeOf, reading]
  | true =>
    have g1 : cur ≠ dashDash := fun h => h1 ⟨ha, h⟩
    have g2 : ¬ dashDash <+: cur := fun h => h2 ⟨ha, h⟩
    have g3 : ¬ (dash <+: cur ∧ cur ≠ dash) := fun h => h3 ⟨ha, h⟩
    simp only [modeOf, if_true, reading]
    rw [if_neg g1, if_neg g2, if_neg g3]
    rfl

/-- What the main loop does. -/
def AEnds (cfg : ArgConfig) (a : Nat) (o : Nat → Status) (es : List AArg) (num : Nat)
    (r : List Item × Option ReadError) : LoopRes → Prop
  | .quit st s => failed st = true ∧ AQuit a o s.w
  | .fail e t s => (∃ es', AInv a o s es') ∧ FailsWith cfg num r e t
  | .done q => AInv a o q.s (es ++ r.1.map structOf) ∧ q.num = num + (plains r.1).length ∧
      q.num ≤ cfg.maxUnnamed ∧ r.2 = none

theorem FailsWith.prepend {cfg : ArgConfig} {num : Nat} {is : List Item}
    {r : List Item × Option ReadError} {e : Status} {t : Tok}
    (hn : num + (plains is).length ≤ cfg.maxUnnamed)
    (h : FailsWith cfg (num + (plains is).length) r e t) :
    FailsWith cfg num (Spec.prepend is r) e t := by
  have hidx : (plains (Spec.prepend is r).1)[cfg.maxUnnamed - num]? =
      (plains r.1)[cfg.maxUnnamed - (num + (plains is).length)]? := by
    simp only [Spec.prepend, plains_append]
    rw [List.getElem?_append_right (by omega)]
    congr 1
    omega
  unfold FailsWith
  rw [hidx]
  exact h

theorem AEnds.prepend {cfg : ArgConfig} {a : Nat} {o : Nat → Status} {es : List AArg} {num : Nat}
    {is : List Item} {r : List Item × Option ReadError} {L : LoopRes}
    (hn : num + (plains is).length ≤ cfg.maxUnnamed)
    (h : AEnds cfg a o (es ++ is.map structOf) (num + (plains is).length) r L) :
    AEnds cfg a o es num (Spec.prepend is r) L := by
  cases L with
  | quit st s => exact h
  | fail e t s => exact ⟨h.1, h.2.prepend hn⟩
  | done q =>
    obtain ⟨h1, h2, h3, h4⟩ := h
    refine ⟨by simpa [Spec.prepend] using h1, ?_, h3, h4⟩
    simp only [Spec.prepend, plains_append, List.length_append]
    omega

theorem plains_length_le (is : List Item) : (plains is).length ≤ is.length :=
  List.length_filterMap_le ..

theorem reading_nil_mode (D : List ArgDef) (accept : Bool) :
    reading true D (modeOf accept) [] = ([], none) := by
  cases accept <;> simp [modeOf, reading]

theorem argLoop_ok {cfg : ArgConfig} (H : ProperConfig cfg) {a : Nat} {o : Nat → Status} :
    ∀ (fuel : Nat) {p : PState} {es : List AArg}, AInv a o p.s es → cfg.argc ≤ p.i + fuel →
      p.num ≤ cfg.maxUnnamed → p.num ≤ es.length →
      es.length + budget (cfg.argv.drop p.i) + 1 < 115292150460684698 →
      ∃ L, argLoop cfg fuel p = .ret L ∧
        AEnds cfg a o es p.num (reading true cfg.args (modeOf p.accept) (cfg.argv.drop p.i)) L := by
  intro fuel
  have base : ∀ {p : PState} {es : List AArg}, AInv a o p.s es → cfg.argc ≤ p.i →
      p.num ≤ cfg.maxUnnamed →
      AEnds cfg a o es p.num (reading true cfg.args (modeOf p.accept) (cfg.argv.drop p.i))
        (.done p) := by
    intro p es I hi hn
    rw [List.drop_eq_nil_of_le (by rw [← H.argc]; exact hi), reading_nil_mode]
    exact ⟨by simpa using I, rfl, hn, rfl⟩
  induction fuel with
  | zero =>
    intro p es I hf hn _ _
    refine ⟨.done p, ?_, base I hf hn⟩
    simp only [argLoop]
    rw [if_neg (by omega)]
  | succ fuel ih =>
    intro p es I hf hn hnl hs
    by_cases hi : p.i < cfg.argc
    · obtain ⟨L, hL, E⟩ := argToken_ok H I hi hn hnl hs
      cases L with
      | quit st s =>
        refine ⟨.quit st s, ?_, E⟩
        simp only [argLoop, hi, if_true, hL, Out.ret_bind']
      | fail e t s =>
        refine ⟨.fail e t s, ?_, E⟩
        simp only [argLoop, hi, if_true, hL, Out.ret_bind']
      | done q =>
        obtain ⟨is, I', e1, e2, e3, e4, e5, e6⟩ := E
        have hpl := plains_length_le is
        obtain ⟨L, h1, h2⟩ := ih (p := { q with i := q.i + 1 }) I' (by simp only; omega) e2
          (by simp only [List.length_append, List.length_map]; omega)
          (by simp only [List.length_append, List.length_map]; omega)
        refine ⟨L, ?_, ?_⟩
        · simp only [argLoop, hi, if_true, hL, Out.ret_bind']
          exact h1
        · rw [e6]
          simp only [e1] at h2
          exact AEnds.prepend (by omega) h2
    · refine ⟨.done p, ?_, base I (by omega) hn⟩
      simp only [argLoop, hi, if_false]

/-! ## After the loop -/

theorem argFound_ok {a : Nat} {o : Nat → Status} {s : VS AArg} {is : List Item}
    (I : AInv a o s (is.map structOf)) (j : Nat) : ∀ (rest : List Item) (i : Nat),
      is.drop i = rest → argFound s j i rest.length = .ret (stSuccess, occurs rest j) := by
  obtain ⟨b, slack, hd, hc, hl, hr, hn⟩ := I.block
  intro rest
  induction rest with
  | nil => intro i _; rfl
  | cons it rest ih =>
    intro i hi
    have hil : i < is.length := by
      refine Classical.byContradiction fun h => ?_
      rw [List.drop_eq_nil_of_le (by omega)] at hi
      simp at hi
    have hit : is[i]? = some it := by
      have := List.getElem?_drop (xs := is) (i := i) (j := 0)
      rw [hi] at this
      simpa using this.symm
    have hcell : b.cells[i]? = some (some (structOf it)) := by
      rw [hc, List.getElem?_append_left (by simpa using hil)]
      simp [hit]
    have hsz : ¬ i ≥ s.v.size := by rw [I.size]; simp; omega
    have hnext := ih (i + 1) (by rw [← List.drop_drop, hi]; rfl)
    simp only [List.length_cons, argFound, vecGetPointer, hsz, if_false, failed_success,
      Bool.false_eq_true, vecDeref, withData, hd, hcell, Out.ret_bind', hnext]
    cases it with
    | opt k v =>
      have : (structOf (.opt k v)).defn = some k := by cases v <;> rfl
      rw [this]
      by_cases hk : k = j
      · simp [hk, occurs]
      · simp [hk, occurs]
    | plain t => simp [structOf, occurs]

theorem requiredLoop_ok {a : Nat} {o : Nat → Status} {s : VS AArg} {is : List Item}
    (I : AInv a o s (is.map structOf)) (ds : List ArgDef) : ∀ (j : Nat),
      requiredLoop s j ds = .ret (stSuccess,
        ((ds.zipIdx j).find? fun p => p.1.required && !occurs is p.2).map fun p => p.1.name) := by
  induction ds with
  | nil => intro j; rfl
  | cons d ds ih =>
    intro j
    have hf := argFound_ok I j is 0 rfl
    have hsz : vecGetSize s = is.length := by simp [vecGetSize, I.size]
    simp only [requiredLoop, hsz, hf, Out.ret_bind', List.zipIdx_cons, List.find?_cons,
      failed_success, Bool.false_eq_true, if_false, ih (j + 1)]
    cases d.required <;> cases occurs is j <;> simp

theorem defSyntaxOk_eq {d : ArgDef} (h : 0#8 ∉ d.name) :
    defSyntaxOk d = .ret (decide (legalName d.name)) := by
  unfold defSyntaxOk
  rw [strlen_strMem h]
  simp only [Out.ret_bind']
  match d.name with
  | [] => rfl
  | [x] => simp [legalName, dash, dashDash]
  | x :: y :: r =>
    have e0 : rdChar (strMem (x :: y :: r)) 0 = .ret x := rfl
    have e1 : rdChar (strMem (x :: y :: r)) 1 = .ret y := rfl
    have hl2 : ¬ (x :: y :: r).length < 2 := by simp
    simp only [hl2, if_false, e0, e1, Out.ret_bind', chDash]
    by_cases hx : x = 45#8
    · by_cases hy : y = 45#8
      · simp [hx, hy, legalName, dash, dashDash]
      · cases r with
        | nil => simp [hx, legalName, dash]
        | cons z r => simp [hx, hy, legalName, dash, dashDash, Ne.symm hy]
    · simp [hx, legalName, dash, dashDash, Ne.symm hx]

theorem defsSyntaxOk_eq {ds : List ArgDef} (h : ∀ d ∈ ds, 0#8 ∉ d.name) :
    defsSyntaxOk ds = .ret (decide (∀ d ∈ ds, legalName d.name)) := by
  induction ds with
  | nil => rfl
  | cons d ds ih =>
    simp only [defsSyntaxOk, defSyntaxOk_eq (h d (by simp)), Out.ret_bind',
      ih fun d hd => h d (List.mem_cons_of_mem _ hd)]
    by_cases hd : legalName d.name
    · simp [hd]
    · simp [hd]

/-- The storage after a parse that was not disturbed by the allocator. -/
def Settled (a : Nat) (r : ArgResult) : Prop :=
  (failed r.status = true ∧ replay r.w.trace = some none ∧
    ∀ v, r.vec = some v → v.data = none) ∨
  (failed r.status = false ∧ ∃ v b, r.vec = some v ∧ v.data = some b ∧
    replay r.w.trace = some (some ⟨a, b.id, v.esz, v.cap⟩))

/-- A refused request: the call fails; unless the very first request was refused, the storage stays
live. -/
def Disturbed (a : Nat) (o : Nat → Status) (r : ArgResult) : Prop :=
  failed r.status = true ∧ Event.refused a ∈ r.w.trace ∧ (∃ k, failed (o k) = true) ∧
  ((∃ l, replay r.w.trace = some (some l)) ∨ r.w.trace = [.refused a])

theorem argFail_ok {a : Nat} {o : Nat → Status} {s : VS AArg} {es : List AArg} (I : AInv a o s es)
    {e : Status} (he : failed e = true) (tok : ErrTok) :
    ∃ r, argFail e tok s = .ret r ∧ (Disturbed a o r ∨
      (r.status = e ∧ r.tok = tok ∧ Settled a r ∧ ∀ e ∈ r.w.trace, e ≠ Event.refused a)) := by
  obtain ⟨b, slack, hd, hc, hl, hr, hn⟩ := I.block
  have hcap : s.v.cap ≠ 0 := by have := I.cap1; omega
  have hdes : vecDestroy s = (let r := deallocate s.w a b s.v.esz s.v.cap
        if failed r.1 then .ret (r.1, { s with w := r.2 })
        else .ret (stSuccess, { v := { s.v with data := none }, w := r.2 })) := by
    simp only [vecDestroy, runDtors, I.dtor, Bool.false_eq_true, if_false, Out.ret_bind',
      I.allocator, hcap, ne_eq, not_false_eq_true, if_true, withData, hd]
  by_cases hf : failed (s.w.oracle s.w.calls) = true
  · refine ⟨⟨s.w.oracle s.w.calls, tok, some s.v,
      { s.w with calls := s.w.calls + 1, trace := s.w.trace ++ [.refused a] }⟩, ?_, Or.inl ?_⟩
    · simp only [argFail, hdes, deallocate, hf, if_true, World.log, Out.ret_bind']
    · refine ⟨hf, by simp, ⟨s.w.calls, by rw [← I.oracle]; exact hf⟩, Or.inl
        ⟨⟨a, b.id, 80, s.v.cap⟩, ?_⟩⟩
      show replay (_ ++ [_]) = _
      rw [replay_append_one, hr]
      rfl
  · have hf : failed (s.w.oracle s.w.calls) = false := by simpa using hf
    refine ⟨⟨e, tok, some { s.v with data := none },
      { s.w with calls := s.w.calls + 1, trace := s.w.trace ++ [.dealloc a b.id s.v.esz s.v.cap] }⟩,
      ?_, Or.inr ⟨rfl, rfl, Or.inl ⟨he, ?_, ?_⟩, ?_⟩⟩
    · simp only [argFail, hdes, deallocate, hf, if_false, World.log, Out.ret_bind',
        Bool.false_eq_true, failed_success]
    · show replay (_ ++ [_]) = _
      rw [replay_append_one, hr, I.esz]
      simp only [replayStep, if_true]
    · intro v hv
      rw [← Option.some.inj hv]
    · intro x hx
      rcases List.mem_append.1 hx with h | h
      · exact I.clean x h
      · rw [List.mem_singleton.1 h]; simp

theorem budget_eq (ts : List Tok) : budget ts = ts.length + (ts.map List.length).sum := by
  induction ts with
  | nil => rfl
  | cons t ts ih =>
    simp only [budget, List.map_cons, List.sum_cons, List.length_cons] at ih ⊢
    omega

theorem budget_drop (ts : List Tok) (n : Nat) : budget (ts.drop n) ≤ budget ts := by
  induction ts generalizing n with
  | nil => simp
  | cons t ts ih =>
    cases n with
    | zero => exact Nat.le_refl _
    | succ n =>
      have := ih n
      simp only [budget, List.drop_succ_cons, List.map_cons, List.sum_cons] at this ⊢
      omega

theorem failed_codes : failed stInvalidArgument = true ∧ failed stTooManyArgs = true ∧
    failed stArgNotUnderstood = true ∧ failed stArgMissesValue = true ∧
    failed stTooFewArgs = true ∧ failed stRequiredArgMissing = true := by decide

theorem Settled.destroyed {a : Nat} {r : ArgResult} (h : Settled a r) (hf : failed r.status = true) :
    replay r.w.trace = some none := by
  rcases h with h | h
  · exact h.2.1
  · rw [hf] at h; exact absurd h.1 (by simp)

theorem argParse_main {cfg : ArgConfig} (H : ProperConfig cfg) {a : Nat} {w : World AArg}
    (hw : Fresh w) (want : Bool) :
    ∃ r, argParseEx w cfg want (some a) = .ret r ∧ (Disturbed a w.oracle r ∨
      (Agrees want r (verdict true cfg) ∧ Settled a r ∧ ∀ e ∈ r.w.trace, e ≠ Event.refused a)) := by
  obtain ⟨fc1, fc2, fc3, fc4, fc5, fc6⟩ := failed_codes
  have hsm := lt_of_mul160 H.small
  by_cases hbad : cfg.maxUnnamed < cfg.minUnnamed ∨ ∃ d ∈ cfg.args, ¬ legalName d.name
  · refine ⟨⟨stInvalidArgument, .untouched, none, w⟩, ?_, Or.inr ?_⟩
    · unfold argParseEx
      by_cases hm : cfg.minUnnamed > cfg.maxUnnamed
      · simp only [hm, if_true]
      · have hd : decide (∀ d ∈ cfg.args, legalName d.name) = false := by
          rcases hbad with h | ⟨d, hd, hn⟩
          · exact absurd h hm
          · exact decide_eq_false fun h => hn (h d hd)
        simp only [hm, if_false, defsSyntaxOk_eq H.names, Out.ret_bind', hd, Bool.not_false,
          if_true]
    · refine ⟨?_, Or.inl ⟨fc1, by rw [hw.2]; rfl, by intro v hv; simp at hv⟩, by simp [hw.2]⟩
      unfold verdict
      rw [if_pos hbad]
      exact ⟨rfl, fc1, rfl⟩
  · have hm : ¬ cfg.minUnnamed > cfg.maxUnnamed := fun h => hbad (Or.inl h)
    have hd : decide (∀ d ∈ cfg.args, legalName d.name) = true :=
      decide_eq_true fun d hd => Classical.byContradiction fun h => hbad (Or.inr ⟨d, hd, h⟩)
    unfold argParseEx
    simp only [hm, if_false, defsSyntaxOk_eq H.names, Out.ret_bind', hd, Bool.not_true,
      Bool.false_eq_true]
    by_cases hf : failed (w.oracle w.calls) = true
    · have hvi : vecInitEx w argSize cfg.argc false (some a) 2 4 =
          (w.oracle w.calls, some ⟨some a, 2, 4, 0, max 1 cfg.argc, 80, false, none⟩,
            { w with calls := w.calls + 1, trace := [.refused a] }) := by
        simp only [vecInitEx, argSize, allocate, World.log, hf, if_true, hw.2]
        rw [if_neg (by omega)]
        rfl
      refine ⟨_, by simp only [hvi, hf, if_true]; rfl, Or.inl ⟨hf, ?_, ⟨w.calls, hf⟩, Or.inr ?_⟩⟩
      · simp
      · rfl
    · have hf : failed (w.oracle w.calls) = false := by simpa using hf
      have hargc := H.argc
      have hg : grantedCells 80 (max 1 cfg.argc) = max 1 cfg.argc :=
        grantedCells_eq (by decide) (by omega)
      have hvi : vecInitEx w argSize cfg.argc false (some a) 2 4 =
          (w.oracle w.calls, some ⟨some a, 2, 4, 0, max 1 cfg.argc, 80, false,
            some ⟨w.nextBlk, List.replicate (max 1 cfg.argc) none⟩⟩,
            ⟨w.oracle, w.calls + 1, w.nextBlk + 1,
              [.alloc a w.nextBlk 80 (max 1 cfg.argc)]⟩) := by
        simp only [vecInitEx, argSize, allocate, World.log, hf, Bool.false_eq_true, if_false, hw.2,
          hg]
        rw [if_neg (by omega)]
        rfl
      simp only [hvi, hf, Bool.false_eq_true, if_false]
      generalize hs0 : (⟨⟨some a, 2, 4, 0, max 1 cfg.argc, 80, false,
        some ⟨w.nextBlk, List.replicate (max 1 cfg.argc) none⟩⟩,
        ⟨w.oracle, w.calls + 1, w.nextBlk + 1, [.alloc a w.nextBlk 80 (max 1 cfg.argc)]⟩⟩ :
        VS AArg) = s0
      have I0 : AInv a w.oracle s0 [] := by
        subst hs0
        exact {
          allocator := rfl
          growth := rfl
          esz := rfl
          dtor := rfl
          size := rfl
          cap1 := by show 1 ≤ max 1 cfg.argc; omega
          block := ⟨_, List.replicate (max 1 cfg.argc) none, rfl, rfl, by simp, rfl,
            Nat.lt_succ_self _⟩
          clean := by simp
          oracle := rfl }
      have hbud : budget (cfg.argv.drop 1) + 1 < 115292150460684698 := by
        have h1 := budget_drop cfg.argv 1
        rw [budget_eq cfg.argv] at h1
        omega
      obtain ⟨L, hL, E⟩ := argLoop_ok H cfg.argc (p := ⟨s0, 1, true, 0⟩) I0 (by simp only; omega)
        (Nat.zero_le _) (Nat.zero_le _) (by simpa using hbud)
      rw [hL]
      simp only [Out.ret_bind']
      simp only [List.drop_one, modeOf, if_true] at E
      cases L with
      | quit st s =>
        obtain ⟨hst, Q⟩ := E
        exact ⟨_, rfl, Or.inl ⟨hst, Q.refused, Q.bad, Or.inl Q.live⟩⟩
      | fail e t s =>
        obtain ⟨⟨es', I⟩, F⟩ := E
        have hv : verdict true cfg = .error e (some t) ∧ failed e = true := by
          unfold verdict
          rw [if_neg hbad]
          rcases F with ⟨h1, rfl⟩ | ⟨h1, ⟨h2, rfl⟩ | ⟨h2, rfl⟩⟩
          · rw [Nat.sub_zero] at h1
            rw [h1]
            exact ⟨rfl, fc2⟩
          · rw [Nat.sub_zero] at h1
            rw [h1, h2]
            exact ⟨rfl, fc3⟩
          · rw [Nat.sub_zero] at h1
            rw [h1, h2]
            exact ⟨rfl, fc4⟩
        obtain ⟨r, h1, h2 | ⟨h2, h3, h4, h5⟩⟩ := argFail_ok I hv.2 (errTok want (.ptr t))
        · exact ⟨r, h1, Or.inl h2⟩
        · refine ⟨r, h1, Or.inr ⟨?_, h4, h5⟩⟩
          rw [hv.1]
          exact ⟨h2, hv.2, h3⟩
      | done q =>
        obtain ⟨I, hnum, hmax, herr⟩ := E
        simp only [List.nil_append, Nat.zero_add] at I hnum
        have hnone : (plains (reading true cfg.args .any cfg.argv.tail).1)[cfg.maxUnnamed]? = none :=
          List.getElem?_eq_none (by omega)
        simp only
        by_cases hfew : q.num < cfg.minUnnamed
        · rw [if_pos hfew]
          have hv : verdict true cfg = .error stTooFewArgs none := by
            unfold verdict
            rw [if_neg hbad, hnone, herr]
            simp only
            rw [if_pos (by omega)]
          obtain ⟨r, h1, h2 | ⟨h2, h3, h4, h5⟩⟩ := argFail_ok I fc5 .untouched
          · exact ⟨r, h1, Or.inl h2⟩
          · refine ⟨r, h1, Or.inr ⟨?_, h4, h5⟩⟩
            rw [hv]
            exact ⟨h2, fc5, h3⟩
        · rw [if_neg hfew]
          have hq := requiredLoop_ok I cfg.args 0
          rw [hq]
          simp only [Out.ret_bind', failed_success, Bool.false_eq_true, if_false]
          have hfm : (cfg.args.zipIdx.find? fun p => p.1.required &&
            !occurs (reading true cfg.args .any cfg.argv.tail).1 p.2) =
              firstMissing cfg.args (reading true cfg.args .any cfg.argv.tail).1 := rfl
          rw [hfm]
          cases hmis : firstMissing cfg.args (reading true cfg.args .any cfg.argv.tail).1 with
          | some p =>
            have hv : verdict true cfg = .error stRequiredArgMissing (some p.1.name) := by
              unfold verdict
              rw [if_neg hbad, hnone, herr]
              simp only
              rw [if_neg (by omega), hmis]
            simp only [Option.map_some]
            obtain ⟨r, h1, h2 | ⟨h2, h3, h4, h5⟩⟩ :=
              argFail_ok I fc6 (errTok want (.ptr p.1.name))
            · exact ⟨r, h1, Or.inl h2⟩
            · refine ⟨r, h1, Or.inr ⟨?_, h4, h5⟩⟩
              rw [hv]
              exact ⟨h2, fc6, h3⟩
          | none =>
            have hv : verdict true cfg = .ok (reading true cfg.args .any cfg.argv.tail).1 := by
              unfold verdict
              rw [if_neg hbad, hnone, herr]
              simp only
              rw [if_neg (by omega), hmis]
            simp only [Option.map_none]
            obtain ⟨b, slack, hdt, hc, hl, hr, hn⟩ := I.block
            refine ⟨_, rfl, Or.inr ⟨?_, Or.inr ⟨failed_success, q.s.v, b, rfl, hdt, ?_⟩, I.clean⟩⟩
            · rw [hv]
              refine ⟨rfl, rfl, ?_⟩
              simp only [output, contents, withData, hdt]
              rw [hc, I.size]
              have := readRange_at (pre := []) (post := slack)
                (mid := ((reading true cfg.args .any cfg.argv.tail).1.map structOf).map some)
                (n := ((reading true cfg.args .any cfg.argv.tail).1.map structOf).length) (i := 0)
                rfl (by simp)
              rw [List.nil_append] at this
              rw [this, List.map_map]
              rfl
            · rw [I.esz]; exact hr

end Zy
