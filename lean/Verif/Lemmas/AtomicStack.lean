import Verif.Spec.AtomicStack
import Verif.Lemmas.AtomicClients

/-!
# Lemmas: a stack whose head is exchanged atomically
-/

namespace Zy

variable {w : Nat}

theorem stackAfter_snoc {es : List (TEv w)} {s : List (BitVec w)} (h : stackAfter es = some s) (e : TEv w) :
    stackAfter (es ++ [e]) = stackStep s e := by
  unfold stackAfter at h ⊢
  rw [List.foldl_append, h]
  rfl

theorem chain_upd {next : BitVec w → BitVec w} {a old : BitVec w} : ∀ {s : List (BitVec w)} {v : BitVec w},
    linked next v s → a ∉ s → linked (fun x => if x = a then old else next x) v s
  | [], _, h, _ => h
  | b :: s, v, h, ha => by
    rw [List.mem_cons, not_or] at ha
    refine ⟨h.1, h.2.1, ?_⟩
    show linked _ (if b = a then old else next b) s
    rw [if_neg fun e => ha.1 e.symm]
    exact chain_upd h.2.2 ha.2

theorem chain_top {next : BitVec w → BitVec w} {v : BitVec w} {s : List (BitVec w)} (h : linked next v s) (hv : v ≠ 0) :
    ∃ r, s = v :: r ∧ linked next (next v) r := by
  cases s with
  | nil => exact absurd h hv
  | cons a r => obtain ⟨rfl, _, h3⟩ := h; exact ⟨r, rfl, h3⟩

theorem chain_nil {next : BitVec w → BitVec w} {s : List (BitVec w)} (h : linked next 0 s) : s = [] := by
  cases s with
  | nil => rfl
  | cons a r => exact absurd h.1.symm h.2.1

theorem foldl_stuck (es : List (TEv w)) :
    es.foldl (fun s e => s.bind fun s => stackStep s e) (none : Option (List (BitVec w))) = none := by
  induction es with
  | nil => rfl
  | cons e es ih => exact ih

theorem pushed_perm_from : ∀ (es : List (TEv w)) {s0 s : List (BitVec w)},
    es.foldl (fun s e => s.bind fun s => stackStep s e) (some s0) = some s →
    (pushedIn es ++ s0).Perm (poppedIn es ++ s)
  | [], s0, s, h => by cases h; exact .refl _
  | .pushed a :: es, s0, s, h => by
    have ih := pushed_perm_from es (s0 := a :: s0) h
    exact List.perm_middle.symm.trans ih
  | .popped none :: es, s0, s, h => by
    by_cases hs : s0 = []
    · subst hs
      exact pushed_perm_from es (s0 := []) h
    · have h0 : stackStep s0 (.popped none) = none := if_neg hs
      rw [List.foldl_cons, Option.bind_some, h0, foldl_stuck] at h
      cases h
  | .popped (some a) :: es, [], s, h => by
    rw [List.foldl_cons, Option.bind_some, stackStep, foldl_stuck] at h
    cases h
  | .popped (some a) :: es, x :: r, s, h => by
    by_cases hx : x = a
    · subst hx
      have h0 : stackStep (x :: r) (.popped (some x)) = some r := if_pos rfl
      rw [List.foldl_cons, Option.bind_some, h0] at h
      have ih := pushed_perm_from es (s0 := r) h
      exact List.perm_middle.trans (.cons x ih)
    · have h0 : stackStep (x :: r) (.popped (some a)) = none := if_neg hx
      rw [List.foldl_cons, Option.bind_some, h0, foldl_stuck] at h
      cases h

theorem pushed_perm {es : List (TEv w)} {s : List (BitVec w)} (h : stackAfter es = some s) :
    (pushedIn es).Perm (poppedIn es ++ s) := by
  have := pushed_perm_from es (s0 := []) h
  rwa [List.append_nil] at this

theorem stack_sub {es : List (TEv w)} {s : List (BitVec w)} (h : stackAfter es = some s) {a : BitVec w} (ha : a ∈ s) :
    a ∈ pushedIn es := (pushed_perm h).symm.subset (List.mem_append_right _ ha)

theorem pushes_append (p q : List (TCmd w)) : pushes (p ++ q) = pushes p ++ pushes q := List.filterMap_append ..

theorem pushedIn_append (p q : List (TEv w)) : pushedIn (p ++ q) = pushedIn p ++ pushedIn q := List.filterMap_append ..

theorem mem_pushes {p : List (TCmd w)} {a : BitVec w} (h : .push a ∈ p) : a ∈ pushes p :=
  List.mem_filterMap.2 ⟨_, h, rfl⟩

theorem mem_pushedIn {es : List (TEv w)} {a : BitVec w} (h : a ∈ pushedIn es) : .pushed a ∈ es := by
  obtain ⟨e, he, h⟩ := List.mem_filterMap.1 h
  cases e with
  | pushed b => cases h; exact he
  | popped r => cases h

/-! ## What a thread has done and what it has to do -/

/-- The commands that have not taken effect. -/
def todo (t : CThr w (TSt w)) : List (TCmd w) :=
  match t.st.phase with
  | .idle => match t.st.cmds, t.reg with
    | .pop :: cs, some r => if r = 0 then cs else .pop :: cs
    | cs, _ => cs
  | .link a _ => .push a :: t.st.cmds
  | .swing a old => match t.reg with
    | some r => if r = old then t.st.cmds else .push a :: t.st.cmds
    | none => .push a :: t.st.cmds
  | .look _ => .pop :: t.st.cmds
  | .take h _ => match t.reg with
    | some r => if r = h ∨ r = 0 then t.st.cmds else .pop :: t.st.cmds
    | none => .pop :: t.st.cmds

/-- What the pops gave that have taken effect. -/
def outs (t : CThr w (TSt w)) : List (Option (BitVec w)) :=
  match t.st.phase with
  | .idle => match t.st.cmds, t.reg with
    | .pop :: _, some r => if r = 0 then t.st.got ++ [none] else t.st.got
    | _, _ => t.st.got
  | .link _ _ => t.st.got
  | .swing _ _ => t.st.got
  | .look _ => t.st.got
  | .take h _ => match t.reg with
    | some r => if r = h then t.st.got ++ [some h] else if r = 0 then t.st.got ++ [none] else t.st.got
    | none => t.st.got

/-- What a thread knows about the nodes: `U` are the nodes pushed so far. -/
def Knows (next : BitVec w → BitVec w) (U : List (BitVec w)) (t : CThr w (TSt w)) : Prop :=
  match t.st.phase with
  | .idle => match t.st.cmds, t.reg with
    | .pop :: _, some r => r = 0 ∨ r ∈ U
    | _, _ => True
  | .link _ _ => True
  | .swing a old => t.reg = none → next a = old
  | .look h => h ∈ U ∧ h ≠ 0
  | .take h n => h ∈ U ∧ h ≠ 0 ∧ match t.reg with
    | some r => r = 0 ∨ r ∈ U
    | none => next h = n

structure StackInv (progs : List (List (TCmd w))) (log : List (Nat × TEv w)) (s : CSys w (BitVec w → BitVec w) (TSt w)) :
    Prop where
  legal : ∃ S, stackAfter (log.map Prod.snd) = some S ∧ linked s.data s.value S
  len : s.thr.length = progs.length
  thr : ∀ i p t, progs[i]? = some p → s.thr[i]? = some t →
    p = (entriesOf log i).map TEv.cmd ++ todo t ∧ outs t = (entriesOf log i).filterMap TEv.result ∧
    Knows s.data (pushedIn (log.map Prod.snd)) t
  who : ∀ e ∈ log, e.1 < progs.length
  once : (pushedIn (log.map Prod.snd)).Nodup

theorem once_apart {progs : List (List (TCmd w))} (h : PushedOnce progs) {i j : Nat} {p q : List (TCmd w)}
    (hi : progs[i]? = some p) (hj : progs[j]? = some q) (hn : i ≠ j) {a : BitVec w} (ha : a ∈ pushes p) : a ∉ pushes q := by
  obtain ⟨hi', rfl⟩ := List.getElem?_eq_some_iff.1 hi
  obtain ⟨hj', rfl⟩ := List.getElem?_eq_some_iff.1 hj
  have hp := List.pairwise_iff_getElem.1 h.2
  rcases Nat.lt_or_gt_of_ne hn with hl | hl
  · exact hp i j hi' hj' hl a ha
  · exact fun hb => hp j i hj' hi' hl a hb ha

/-- A node that a thread has still to push was not pushed before. -/
theorem StackInv.unused {progs : List (List (TCmd w))} {log : List (Nat × TEv w)}
    {s : CSys w (BitVec w → BitVec w) (TSt w)} (I : StackInv progs log s) (ho : PushedOnce progs) {i : Nat}
    {p : List (TCmd w)} {t : CThr w (TSt w)} (hp : progs[i]? = some p) (ht : s.thr[i]? = some t) {a : BitVec w}
    (ha : .push a ∈ todo t) : a ∉ pushedIn (log.map Prod.snd) := by
  intro hu
  obtain ⟨⟨j, e⟩, he, e'⟩ := List.mem_map.1 (mem_pushedIn hu)
  dsimp only at e'
  subst e'
  have hj : j < progs.length := I.who _ he
  have hj' : j < s.thr.length := by rw [I.len]; exact hj
  have hjp := List.getElem?_eq_getElem hj
  obtain ⟨e1, _⟩ := I.thr j _ _ hjp (List.getElem?_eq_getElem hj')
  have hin : a ∈ pushes ((entriesOf log j).map TEv.cmd) := by
    refine mem_pushes (List.mem_map.2 ⟨.pushed a, ?_, rfl⟩)
    unfold entriesOf
    exact List.mem_map.2 ⟨(j, .pushed a), List.mem_filter.2 ⟨he, by simp⟩, rfl⟩
  have haj : a ∈ pushes progs[j] := by rw [e1, pushes_append]; exact List.mem_append_left _ hin
  obtain ⟨e2, _⟩ := I.thr i _ _ hp ht
  by_cases hij : i = j
  · subst hij
    rw [hjp] at hp
    cases hp
    have hnd := (ho.1 _ (List.getElem_mem hj)).1
    rw [e1, pushes_append] at hnd
    have hq : todo s.thr[i] = todo t := by
      rw [List.getElem?_eq_getElem hj'] at ht; cases ht; rfl
    rw [hq] at hnd
    exact (List.nodup_append.1 hnd).2.2 a hin a (mem_pushes ha) rfl
  · refine once_apart ho hp hjp hij (a := a) ?_ haj
    rw [e2, pushes_append]
    exact List.mem_append_right _ (mem_pushes ha)

theorem knows_more {next : BitVec w → BitVec w} {U V : List (BitVec w)} {t : CThr w (TSt w)} (h : Knows next U t) :
    Knows next (U ++ V) t := by
  obtain ⟨⟨ph, cs, g⟩, reg⟩ := t
  cases ph with
  | idle =>
    unfold Knows at h ⊢
    dsimp only at h ⊢
    split
    · exact h.imp_right fun h => List.mem_append_left _ h
    · trivial
  | link a old => trivial
  | swing a old => exact h
  | look x => exact ⟨List.mem_append_left _ h.1, h.2⟩
  | take x n =>
    refine ⟨List.mem_append_left _ h.1, h.2.1, ?_⟩
    have h3 := h.2.2
    cases reg with
    | none => exact h3
    | some r => exact Or.imp_right (fun h => List.mem_append_left _ h) h3

/-- A step without effect on the stack. -/
theorem StackInv.silent {progs : List (List (TCmd w))} {log : List (Nat × TEv w)}
    {s : CSys w (BitVec w → BitVec w) (TSt w)} (I : StackInv progs log s) {i : Nat} {t t' : CThr w (TSt w)}
    (ht : s.thr[i]? = some t) (h1 : todo t' = todo t) (h2 : outs t' = outs t)
    (h3 : Knows s.data (pushedIn (log.map Prod.snd)) t → Knows s.data (pushedIn (log.map Prod.snd)) t') :
    StackInv progs log ⟨s.value, s.data, s.thr.set i t'⟩ := by
  refine ⟨I.legal, by rw [← I.len]; exact List.length_set, fun j p u hp hu => ?_, I.who, I.once⟩
  rcases set_getElem?_cases ht hu with ⟨rfl, rfl⟩ | ⟨_, hu⟩
  · obtain ⟨a, b, c⟩ := I.thr _ _ _ hp ht
    exact ⟨by rw [h1]; exact a, by rw [h2]; exact b, h3 c⟩
  · exact I.thr _ _ _ hp hu

/-- A step that takes effect. -/
theorem StackInv.event {progs : List (List (TCmd w))} {log : List (Nat × TEv w)}
    {s : CSys w (BitVec w → BitVec w) (TSt w)} (I : StackInv progs log s) {i : Nat} {t t' : CThr w (TSt w)}
    (ht : s.thr[i]? = some t) (e : TEv w) {v : BitVec w}
    (h0 : ∀ S, linked s.data s.value S → ∃ S', stackStep S e = some S' ∧ linked s.data v S')
    (h1 : todo t = e.cmd :: todo t') (h2 : outs t' = outs t ++ e.result.toList)
    (h3 : Knows s.data (pushedIn (log.map Prod.snd)) t → Knows s.data (pushedIn (log.map Prod.snd)) t')
    (h4 : ∀ a, e = .pushed a → a ∉ pushedIn (log.map Prod.snd)) :
    StackInv progs (log ++ [(i, e)]) ⟨v, s.data, s.thr.set i t'⟩ := by
  obtain ⟨S, hS, hc⟩ := I.legal
  obtain ⟨S', hS', hc'⟩ := h0 S hc
  have hil : i < progs.length := by rw [← I.len]; exact (List.getElem?_eq_some_iff.1 ht).1
  have hU : pushedIn ((log ++ [(i, e)]).map Prod.snd) = pushedIn (log.map Prod.snd) ++ pushedIn [e] := by
    rw [List.map_append, pushedIn_append]; rfl
  refine ⟨⟨S', ?_, hc'⟩, by rw [← I.len]; exact List.length_set, fun j p u hp hu => ?_, fun x hx => ?_, ?_⟩
  · rw [List.map_append, ← hS']; exact stackAfter_snoc hS e
  · rw [hU, entriesOf_snoc]
    rcases set_getElem?_cases ht hu with ⟨rfl, rfl⟩ | ⟨hn, hu⟩
    · obtain ⟨a, b, c⟩ := I.thr _ _ _ hp ht
      rw [if_pos rfl]
      refine ⟨?_, ?_, knows_more (h3 c)⟩
      · rw [a, h1]; simp
      · rw [h2, b, List.filterMap_append]
        congr 1
    · obtain ⟨a, b, c⟩ := I.thr _ _ _ hp hu
      rw [if_neg fun h => hn h.symm]
      exact ⟨a, b, knows_more c⟩
  · rcases List.mem_append.1 hx with h | h
    · exact I.who _ h
    · rw [List.mem_singleton] at h; rw [h]; exact hil
  · rw [hU]
    cases e with
    | popped r => rw [show pushedIn [TEv.popped r] = [] from rfl, List.append_nil]; exact I.once
    | pushed a =>
      refine List.nodup_append.2 ⟨I.once, by simp [pushedIn], fun x hx y hy => ?_⟩
      rw [show pushedIn [TEv.pushed a] = [a] from rfl, List.mem_singleton] at hy
      rintro rfl
      exact h4 a rfl (by rw [← hy]; exact hx)

/-- Writing the next pointer of a node that is still to be pushed. -/
theorem StackInv.write {progs : List (List (TCmd w))} {log : List (Nat × TEv w)}
    {s : CSys w (BitVec w → BitVec w) (TSt w)} (I : StackInv progs log s) (ho : PushedOnce progs) {i : Nat}
    {cs : List (TCmd w)} {g : List (Option (BitVec w))} {a old : BitVec w} {reg : Option (BitVec w)}
    (ht : s.thr[i]? = some ⟨⟨.link a old, cs, g⟩, reg⟩) :
    StackInv progs log ⟨s.value, fun x => if x = a then old else s.data x, s.thr.set i ⟨⟨.swing a old, cs, g⟩, none⟩⟩ := by
  have hil : i < progs.length := by rw [← I.len]; exact (List.getElem?_eq_some_iff.1 ht).1
  have hip := List.getElem?_eq_getElem hil
  have hmem : TCmd.push a ∈ todo (⟨⟨.link a old, cs, g⟩, reg⟩ : CThr w (TSt w)) := by simp [todo]
  have hU : a ∉ pushedIn (log.map Prod.snd) := I.unused ho hip ht hmem
  obtain ⟨S, hS, hc⟩ := I.legal
  refine ⟨⟨S, hS, chain_upd hc fun h => hU (stack_sub hS h)⟩, by rw [← I.len]; exact List.length_set,
    fun j p u hp hu => ?_, I.who, I.once⟩
  rcases set_getElem?_cases ht hu with ⟨rfl, rfl⟩ | ⟨hn, hu⟩
  · obtain ⟨e1, e2, _⟩ := I.thr _ _ _ hp ht
    exact ⟨e1, e2, fun _ => if_pos rfl⟩
  · obtain ⟨e1, e2, e3⟩ := I.thr _ _ _ hp hu
    refine ⟨e1, e2, ?_⟩
    obtain ⟨⟨ph, cs', g'⟩, reg'⟩ := u
    cases ph with
    | idle => exact e3
    | link b o => trivial
    | swing b o =>
      intro hr
      dsimp only at hr
      subst hr
      show (if b = a then old else s.data b) = o
      rw [if_neg]
      · exact e3 rfl
      · rintro rfl
        obtain ⟨f1, _⟩ := I.thr _ _ _ hip ht
        refine once_apart ho hip hp (fun h => hn h.symm) (a := b) ?_ ?_
        · rw [f1, pushes_append]; exact List.mem_append_right _ (mem_pushes hmem)
        · rw [e1, pushes_append]; exact List.mem_append_right _ (mem_pushes (by simp [todo]))
    | look x => exact e3
    | take x n =>
      refine ⟨e3.1, e3.2.1, ?_⟩
      have h3 := e3.2.2
      cases reg' with
      | some r => exact h3
      | none =>
        show (if x = a then old else s.data x) = n
        rw [if_neg]
        · exact h3
        · rintro rfl; exact hU e3.1

/-- The node at the top was pushed. -/
theorem StackInv.top {progs : List (List (TCmd w))} {log : List (Nat × TEv w)}
    {s : CSys w (BitVec w → BitVec w) (TSt w)} (I : StackInv progs log s) (hv : s.value ≠ 0) :
    s.value ∈ pushedIn (log.map Prod.snd) := by
  obtain ⟨S, hS, hc⟩ := I.legal
  obtain ⟨r, rfl, _⟩ := chain_top hc hv
  exact stack_sub hS (by simp)

/-- One step of a thread. -/
theorem StackInv.step {progs : List (List (TCmd w))} (ho : PushedOnce progs) {log : List (Nat × TEv w)}
    {s : CSys w (BitVec w → BitVec w) (TSt w)} (I : StackInv progs log s) {i : Nat} {t : CThr w (TSt w)}
    (ht : s.thr[i]? = some t) : ∃ log', StackInv progs log' (actStep stackAct s i) := by
  have hil : i < progs.length := by rw [← I.len]; exact (List.getElem?_eq_some_iff.1 ht).1
  have hip := List.getElem?_eq_getElem hil
  have hk := (I.thr _ _ _ hip ht).2.2
  rw [actStep_some ht]
  obtain ⟨⟨ph, cs, g⟩, reg⟩ := t
  cases ph with
  | idle =>
    cases cs with
    | nil =>
      refine ⟨log, ?_⟩
      exact I.silent ht rfl rfl id
    | cons c cs =>
      cases c with
      | push a =>
        cases reg with
        | none =>
          refine ⟨log, ?_⟩
          simp only [actThread, stackAct, rmw]
          rw [show (if s.value = 0 then 0 else s.value) = s.value by split <;> simp_all]
          exact I.silent ht rfl rfl (fun _ => trivial)
        | some r => exact ⟨log, I.silent ht rfl rfl (fun _ => trivial)⟩
      | pop =>
        cases reg with
        | none =>
          simp only [actThread, stackAct, rmw]
          rw [show (if s.value = 0 then 0 else s.value) = s.value by split <;> simp_all]
          by_cases hv : s.value = 0
          · refine ⟨log ++ [(i, .popped none)], I.event ht (.popped none) (fun S hS => ?_) ?_ ?_ (fun _ => ?_) nofun⟩
            · rw [hv] at hS
              rw [chain_nil hS]
              exact ⟨[], rfl, hv⟩
            · simp [todo, hv, TEv.cmd]
            · simp [outs, hv, TEv.result]
            · exact Or.inl hv
          · have hv' : ¬ s.value = 0#w := hv
            refine ⟨log, I.silent ht ?_ ?_ (fun _ => ?_)⟩
            · simp [todo, hv']
            · simp [outs, hv']
            · exact Or.inr (I.top hv)
        | some r =>
          simp only [actThread, stackAct]
          by_cases hr : r = 0
          · rw [if_pos (show atomicReturn (AOp.cas 0 0) r = 0 from hr)]
            refine ⟨log, I.silent ht ?_ ?_ (fun _ => ?_)⟩
            · cases cs with
              | nil => simp [todo, hr]
              | cons c cs => cases c <;> simp [todo, hr]
            · cases cs with
              | nil => simp [outs, hr]
              | cons c cs => cases c <;> simp [outs, hr]
            · cases cs with
              | nil => trivial
              | cons c cs => cases c <;> trivial
          · rw [if_neg (show ¬ atomicReturn (AOp.cas 0 0) r = 0 from hr)]
            have hr' : ¬ r = 0#w := hr
            refine ⟨log, I.silent ht ?_ ?_ (fun _ => ?_)⟩
            · simp [todo, hr']
            · simp [outs, hr']
            · exact ⟨hk.resolve_left hr, hr⟩
  | link a old => exact ⟨log, I.write ho ht⟩
  | swing a old =>
    cases reg with
    | none =>
      simp only [actThread, stackAct, rmw]
      by_cases hv : s.value = old
      · rw [if_pos hv]
        refine ⟨log ++ [(i, .pushed a)], I.event ht (.pushed a) (fun S hS => ⟨a :: S, rfl, rfl, ?_, ?_⟩) ?_ ?_ (fun _ => ?_)
          (fun b hb => ?_)⟩
        · have h0 := (ho.1 _ (List.getElem_mem hil)).2
          rintro rfl
          refine h0 ?_
          rw [(I.thr _ _ _ hip ht).1, pushes_append]
          exact List.mem_append_right _ (mem_pushes (by simp [todo]))
        · rw [hk rfl, ← hv]; exact hS
        · simp [todo, hv, TEv.cmd]
        · simp [outs, TEv.result]
        · intro h; cases h
        · cases hb
          exact I.unused ho hip ht (by simp [todo])
      · rw [if_neg hv]
        refine ⟨log, I.silent ht ?_ rfl (fun _ => ?_)⟩
        · simp [todo, hv]
        · intro h; cases h
    | some r =>
      simp only [actThread, stackAct]
      by_cases hr : r = old
      · rw [if_pos (show atomicReturn (AOp.cas old a) r = old from hr)]
        refine ⟨log, I.silent ht ?_ ?_ (fun _ => ?_)⟩
        · cases cs with
          | nil => simp [todo, hr]
          | cons c cs => cases c <;> simp [todo, hr]
        · cases cs with
          | nil => simp [outs]
          | cons c cs => cases c <;> simp [outs]
        · cases cs with
          | nil => trivial
          | cons c cs => cases c <;> trivial
      · rw [if_neg (show ¬ atomicReturn (AOp.cas old a) r = old from hr)]
        refine ⟨log, I.silent ht ?_ rfl (fun _ => trivial)⟩
        simp [todo, hr]
  | look h =>
    exact ⟨log, I.silent ht rfl rfl (fun k => ⟨k.1, k.2, rfl⟩)⟩
  | take h n =>
    obtain ⟨hu, hn, hk⟩ := hk
    cases reg with
    | none =>
      simp only [actThread, stackAct, rmw]
      by_cases hv : s.value = h
      · rw [if_pos hv]
        refine ⟨log ++ [(i, .popped (some h))], I.event ht (.popped (some h)) (fun S hS => ?_) ?_ ?_ (fun _ => ?_) nofun⟩
        · obtain ⟨r, rfl, hc⟩ := chain_top hS (by rw [hv]; exact hn)
          refine ⟨r, if_pos hv, ?_⟩
          rw [hv, hk] at hc
          exact hc
        · simp [todo, hv, TEv.cmd]
        · simp [outs, hv, TEv.result]
        · exact ⟨hu, hn, Or.inr (by rw [hv]; exact hu)⟩
      · rw [if_neg hv]
        by_cases h0 : s.value = 0
        · refine ⟨log ++ [(i, .popped none)], I.event ht (.popped none) (fun S hS => ?_) ?_ ?_ (fun _ => ?_) nofun⟩
          · rw [h0] at hS
            rw [chain_nil hS]
            exact ⟨[], rfl, h0⟩
          · simp [todo, h0, TEv.cmd]
          · simp only [outs, TEv.result]
            rw [if_neg hv, if_pos h0]; rfl
          · exact ⟨hu, hn, Or.inl h0⟩
        · have h0' : ¬ s.value = 0#w := h0
          refine ⟨log, I.silent ht ?_ ?_ (fun _ => ?_)⟩
          · simp [todo, hv, h0']
          · simp [outs, hv, h0']
          · exact ⟨hu, hn, Or.inr (I.top h0)⟩
    | some r =>
      simp only [actThread, stackAct]
      by_cases hr : r = h
      · rw [if_pos (show atomicReturn (AOp.cas h n) r = h from hr)]
        refine ⟨log, I.silent ht ?_ ?_ (fun _ => ?_)⟩
        · cases cs with
          | nil => simp [todo, hr]
          | cons c cs => cases c <;> simp [todo, hr]
        · cases cs with
          | nil => simp [outs, hr]
          | cons c cs => cases c <;> simp [outs, hr]
        · cases cs with
          | nil => trivial
          | cons c cs => cases c <;> trivial
      · rw [if_neg (show ¬ atomicReturn (AOp.cas h n) r = h from hr)]
        by_cases h0 : r = 0
        · rw [if_pos (show atomicReturn (AOp.cas h n) r = 0 from h0)]
          refine ⟨log, I.silent ht ?_ ?_ (fun _ => ?_)⟩
          · cases cs with
            | nil => simp [todo, h0]
            | cons c cs => cases c <;> simp [todo, h0]
          · have ho' : outs (⟨⟨.take h n, cs, g⟩, some r⟩ : CThr w (TSt w)) = g ++ [none] := by
              simp only [outs]; rw [if_neg hr, if_pos h0]
            rw [ho']
            cases cs with
            | nil => simp [outs]
            | cons c cs => cases c <;> simp [outs]
          · cases cs with
            | nil => trivial
            | cons c cs => cases c <;> trivial
        · rw [if_neg (show ¬ atomicReturn (AOp.cas h n) r = 0 from h0)]
          have h0' : ¬ r = 0#w := h0
          refine ⟨log, I.silent ht ?_ ?_ (fun _ => ?_)⟩
          · simp [todo, hr, h0']
          · simp [outs, hr, h0']
          · exact ⟨Or.resolve_left hk h0, h0⟩

theorem StackInv.start (next : BitVec w → BitVec w) (progs : List (List (TCmd w))) :
    StackInv progs [] (stackStart next progs) := by
  refine ⟨⟨[], rfl, rfl⟩, by simp [stackStart, actStart], fun i p t hp ht => ?_, nofun, List.nodup_nil⟩
  obtain ⟨h1, h2⟩ := start_getElem? ht
  rw [List.getElem?_map, hp] at h1
  obtain ⟨st, reg⟩ := t
  dsimp only at h1 h2
  subst h2
  cases h1
  refine ⟨?_, ?_, ?_⟩
  · cases p with
    | nil => rfl
    | cons c p => cases c <;> rfl
  · cases p with
    | nil => rfl
    | cons c p => cases c <;> rfl
  · cases p with
    | nil => trivial
    | cons c p => cases c <;> trivial

theorem stackInv_run {next : BitVec w → BitVec w} {progs : List (List (TCmd w))} (ho : PushedOnce progs)
    (sched : List Nat) : ∃ log, StackInv progs log (actRun stackAct (stackStart next progs) sched) :=
  actRun_inv (I := fun s => ∃ log, StackInv progs log s) (fun _ _ _ ⟨_, I⟩ ht => I.step ho ht) sched
    ⟨[], .start next progs⟩

/-! ## Nothing is lost -/

theorem poppedIn_got {es : List (TEv w)} {a : BitVec w} : some a ∈ es.filterMap TEv.result ↔ .popped (some a) ∈ es := by
  rw [List.mem_filterMap]
  constructor
  · rintro ⟨e, he, h⟩
    cases e with
    | pushed b => cases h
    | popped r => cases h; exact he
  · intro h; exact ⟨_, h, rfl⟩

theorem mem_poppedIn {es : List (TEv w)} {a : BitVec w} : a ∈ poppedIn es ↔ .popped (some a) ∈ es := by
  unfold poppedIn
  rw [List.mem_filterMap]
  constructor
  · rintro ⟨e, he, h⟩
    cases e with
    | pushed b => cases h
    | popped r => cases r with
      | none => cases h
      | some b => cases h; exact he
  · intro h; exact ⟨_, h, rfl⟩

theorem mem_entriesOf {β : Type} {log : List (Nat × β)} {i : Nat} {e : β} : e ∈ entriesOf log i ↔ (i, e) ∈ log := by
  unfold entriesOf
  rw [List.mem_map]
  constructor
  · rintro ⟨⟨j, x⟩, h, rfl⟩
    rw [List.mem_filter] at h
    have hj : j = i := by simpa using h.2
    rw [← hj]; exact h.1
  · intro h
    exact ⟨(i, e), List.mem_filter.2 ⟨h, by simp⟩, rfl⟩

/-- No node is popped by two threads. -/
theorem popped_apart {log : List (Nat × TEv w)} (h : (poppedIn (log.map Prod.snd)).Nodup) {i j : Nat} (hn : i ≠ j)
    {a : BitVec w} (hi : (i, .popped (some a)) ∈ log) : (j, .popped (some a)) ∉ log := by
  intro hj
  have hp := List.pairwise_map.1 (List.pairwise_filterMap.1 h)
  obtain ⟨k, hk, ek⟩ := List.getElem_of_mem hi
  obtain ⟨l, hl, el⟩ := List.getElem_of_mem hj
  have hkl : k ≠ l := by
    rintro rfl
    rw [ek] at el
    exact hn (Prod.mk.inj el).1
  have hp := List.pairwise_iff_getElem.1 hp
  rcases Nat.lt_or_gt_of_ne hkl with h' | h'
  · exact hp k l hk hl h' a (by rw [ek]) a (by rw [el]) rfl
  · exact hp l k hl hk h' a (by rw [el]) a (by rw [ek]) rfl

theorem popped_own {log : List (Nat × TEv w)} (h : (poppedIn (log.map Prod.snd)).Nodup) (i : Nat) :
    (poppedIn (entriesOf log i)).Nodup := by
  refine h.sublist ?_
  unfold poppedIn entriesOf
  exact (List.filter_sublist.map _).filterMap _

/-! ## A thread that runs alone -/

/-- The variable, the next pointers and the thread after one step of the thread. -/
def soloStep (x : BitVec w × (BitVec w → BitVec w) × CThr w (TSt w)) : BitVec w × (BitVec w → BitVec w) × CThr w (TSt w) :=
  actThread stackAct x.1 x.2.1 x.2.2

/-- Some steps lead from one state to another. -/
inductive Leads : BitVec w × (BitVec w → BitVec w) × CThr w (TSt w) → BitVec w × (BitVec w → BitVec w) × CThr w (TSt w) →
    Nat → Prop where
  | refl (x) : Leads x x 0
  | step {x y k} (h : Leads (soloStep x) y k) : Leads x y (k + 1)

/-- The thread comes to its next command in at most `n` steps. -/
def Settles (cs : List (TCmd w)) (x : BitVec w × (BitVec w → BitVec w) × CThr w (TSt w)) (n : Nat) : Prop :=
  ∃ v d g k, k ≤ n ∧ Leads x (v, d, ⟨⟨.idle, cs, g⟩, none⟩) k

theorem Settles.step {cs : List (TCmd w)} {x : BitVec w × (BitVec w → BitVec w) × CThr w (TSt w)} {n : Nat}
    (h : Settles cs (soloStep x) n) : Settles cs x (n + 1) := by
  obtain ⟨v, d, g, k, hk, hl⟩ := h
  exact ⟨v, d, g, k + 1, Nat.succ_le_succ hk, .step hl⟩

theorem Settles.more {cs : List (TCmd w)} {x : BitVec w × (BitVec w → BitVec w) × CThr w (TSt w)} {n m : Nat}
    (h : Settles cs x n) (hm : n ≤ m) : Settles cs x m := by
  obtain ⟨v, d, g, k, hk, hl⟩ := h
  exact ⟨v, d, g, k, Nat.le_trans hk hm, hl⟩

theorem settles_now (cs : List (TCmd w)) (v : BitVec w) (d : BitVec w → BitVec w) (g : List (Option (BitVec w))) :
    Settles cs (v, d, ⟨⟨.idle, cs, g⟩, none⟩) 0 := ⟨v, d, g, 0, Nat.le_refl _, .refl _⟩

section
variable (cs : List (TCmd w)) (v : BitVec w) (d : BitVec w → BitVec w) (g : List (Option (BitVec w)))

theorem settles_swing_hit (a : BitVec w) : Settles cs (v, d, ⟨⟨.swing a v, cs, g⟩, none⟩) 2 := by
  refine Settles.step (Settles.step ?_)
  simp only [soloStep, actThread, stackAct, rmw, atomicReturn, if_true]
  exact settles_now ..

theorem settles_swing_reg (a old r : BitVec w) :
    (r = old → Settles cs (v, d, ⟨⟨.swing a old, cs, g⟩, some r⟩) 1) ∧
      (r ≠ old → soloStep (v, d, ⟨⟨.swing a old, cs, g⟩, some r⟩) = (v, d, ⟨⟨.link a r, cs, g⟩, none⟩)) := by
  constructor
  · intro h
    refine Settles.step ?_
    have : soloStep (v, d, ⟨⟨.swing a old, cs, g⟩, some r⟩) = (v, d, ⟨⟨.idle, cs, g⟩, none⟩) := by
      show (v, d, (⟨if r = old then _ else _, none⟩ : CThr w (TSt w))) = _
      rw [if_pos h]
    rw [this]
    exact settles_now ..
  · intro h
    show (v, d, (⟨if r = old then _ else _, none⟩ : CThr w (TSt w))) = _
    rw [if_neg h]
    rfl

theorem settles_link_hit (a : BitVec w) (reg : Option (BitVec w)) :
    Settles cs (v, d, ⟨⟨.link a v, cs, g⟩, reg⟩) 3 :=
  Settles.step (settles_swing_hit cs v (fun x => if x = a then v else d x) g a)

theorem settles_swing (a old : BitVec w) : Settles cs (v, d, ⟨⟨.swing a old, cs, g⟩, none⟩) 5 := by
  by_cases h : v = old
  · subst h; exact (settles_swing_hit ..).more (by omega)
  · refine Settles.step ?_
    have e : soloStep (v, d, ⟨⟨.swing a old, cs, g⟩, none⟩) = (v, d, ⟨⟨.swing a old, cs, g⟩, some v⟩) := by
      show ((if v = old then a else v), d, _) = _
      rw [if_neg h]
      rfl
    rw [e]
    refine Settles.step ?_
    rw [(settles_swing_reg cs v d g a old v).2 h]
    exact settles_link_hit ..

theorem settles_link (a old : BitVec w) (reg : Option (BitVec w)) : Settles cs (v, d, ⟨⟨.link a old, cs, g⟩, reg⟩) 6 :=
  Settles.step (settles_swing cs v (fun x => if x = a then old else d x) g a old)

theorem settles_take_reg (h n r : BitVec w) :
    (r = h ∨ r = 0 → Settles cs (v, d, ⟨⟨.take h n, cs, g⟩, some r⟩) 1) ∧
      (¬ (r = h ∨ r = 0) → soloStep (v, d, ⟨⟨.take h n, cs, g⟩, some r⟩) = (v, d, ⟨⟨.look r, cs, g⟩, none⟩)) := by
  constructor
  · intro hr
    refine Settles.step ?_
    by_cases h1 : r = h
    · have : soloStep (v, d, ⟨⟨.take h n, cs, g⟩, some r⟩) = (v, d, ⟨⟨.idle, cs, g ++ [some h]⟩, none⟩) := by
        show (v, d, (⟨if r = h then _ else _, none⟩ : CThr w (TSt w))) = _
        rw [if_pos h1]
      rw [this]
      exact settles_now ..
    · have : soloStep (v, d, ⟨⟨.take h n, cs, g⟩, some r⟩) = (v, d, ⟨⟨.idle, cs, g ++ [none]⟩, none⟩) := by
        show (v, d, (⟨if r = h then _ else if r = 0 then _ else _, none⟩ : CThr w (TSt w))) = _
        rw [if_neg h1, if_pos (hr.resolve_left h1)]
      rw [this]
      exact settles_now ..
  · intro hr
    rw [not_or] at hr
    show (v, d, (⟨if r = h then _ else if r = 0 then _ else _, none⟩ : CThr w (TSt w))) = _
    rw [if_neg hr.1, if_neg hr.2]
    rfl

theorem settles_take_hit (n : BitVec w) : Settles cs (v, d, ⟨⟨.take v n, cs, g⟩, none⟩) 2 := by
  refine Settles.step ?_
  exact (settles_take_reg cs (if v = v then n else v) d g v n v).1 (Or.inl rfl)

theorem settles_look_hit (reg : Option (BitVec w)) : Settles cs (v, d, ⟨⟨.look v, cs, g⟩, reg⟩) 3 :=
  Settles.step (settles_take_hit cs v d g (d v))

theorem settles_take (h n : BitVec w) : Settles cs (v, d, ⟨⟨.take h n, cs, g⟩, none⟩) 5 := by
  by_cases hv : v = h
  · subst hv; exact (settles_take_hit ..).more (by omega)
  · refine Settles.step ?_
    have e : soloStep (v, d, ⟨⟨.take h n, cs, g⟩, none⟩) = (v, d, ⟨⟨.take h n, cs, g⟩, some v⟩) := by
      show ((if v = h then n else v), d, _) = _
      rw [if_neg hv]
      rfl
    rw [e]
    by_cases h0 : v = h ∨ v = 0
    · exact ((settles_take_reg cs v d g h n v).1 h0).more (by omega)
    · refine Settles.step ?_
      rw [(settles_take_reg cs v d g h n v).2 h0]
      exact settles_look_hit ..

theorem settles_look (h : BitVec w) (reg : Option (BitVec w)) : Settles cs (v, d, ⟨⟨.look h, cs, g⟩, reg⟩) 6 :=
  Settles.step (settles_take cs v d g h (d h))

/-- A command that begins. -/
theorem settles_cmd (c : TCmd w) (reg : Option (BitVec w)) : Settles cs (v, d, ⟨⟨.idle, c :: cs, g⟩, reg⟩) 8 := by
  have hread : (if v = 0 then (0 : BitVec w) else v) = v := by
    split
    · rename_i h; exact h.symm
    · rfl
  cases c with
  | push a =>
    have e2 : ∀ r, Settles cs (v, d, ⟨⟨.idle, .push a :: cs, g⟩, some r⟩) 7 := fun r =>
      Settles.step (settles_link cs v d g a r none)
    cases reg with
    | some r => exact (e2 r).more (by omega)
    | none =>
      refine Settles.step ?_
      show Settles cs ((if v = 0 then (0 : BitVec w) else v), d, ⟨⟨.idle, .push a :: cs, g⟩, some v⟩) 7
      rw [hread]
      exact e2 v
  | pop =>
    have e2 : ∀ r, Settles cs (v, d, ⟨⟨.idle, .pop :: cs, g⟩, some r⟩) 7 := fun r => by
      refine Settles.step ?_
      by_cases hr : r = 0
      · have : soloStep (v, d, ⟨⟨.idle, .pop :: cs, g⟩, some r⟩) = (v, d, ⟨⟨.idle, cs, g ++ [none]⟩, none⟩) := by
          show (v, d, (⟨if r = 0 then _ else _, none⟩ : CThr w (TSt w))) = _
          rw [if_pos hr]
        rw [this]
        exact (settles_now ..).more (by omega)
      · have : soloStep (v, d, ⟨⟨.idle, .pop :: cs, g⟩, some r⟩) = (v, d, ⟨⟨.look r, cs, g⟩, none⟩) := by
          show (v, d, (⟨if r = 0 then _ else _, none⟩ : CThr w (TSt w))) = _
          rw [if_neg hr]
          rfl
        rw [this]
        exact settles_look ..
    cases reg with
    | some r => exact (e2 r).more (by omega)
    | none =>
      refine Settles.step ?_
      show Settles cs ((if v = 0 then (0 : BitVec w) else v), d, ⟨⟨.idle, .pop :: cs, g⟩, some v⟩) 7
      rw [hread]
      exact e2 v

end

theorem Leads.trans {x y z : BitVec w × (BitVec w → BitVec w) × CThr w (TSt w)} {k l : Nat} (h : Leads x y k)
    (h' : Leads y z l) : Leads x z (k + l) := by
  induction h with
  | refl => rw [Nat.zero_add]; exact h'
  | step _ ih => rw [Nat.add_right_comm]; exact .step (ih h')

theorem leads_all (cs : List (TCmd w)) : ∀ (v : BitVec w) (d : BitVec w → BitVec w) (g : List (Option (BitVec w))),
    ∃ y k, k ≤ 8 * cs.length ∧ Leads (v, d, ⟨⟨.idle, cs, g⟩, none⟩) y k ∧ y.2.2.st.finished := by
  induction cs with
  | nil => intro v d g; exact ⟨_, 0, Nat.zero_le _, .refl _, rfl, rfl⟩
  | cons c cs ih =>
    intro v d g
    obtain ⟨v', d', g', k, hk, hl⟩ := settles_cmd cs v d g c none
    obtain ⟨y, k', hk', hl', hf⟩ := ih v' d' g'
    exact ⟨y, k + k', by rw [List.length_cons]; omega, hl.trans hl', hf⟩

/-- A thread that runs alone comes to the end of its program. -/
theorem solo_ends (x : BitVec w × (BitVec w → BitVec w) × CThr w (TSt w)) :
    ∃ y k, k ≤ 8 * (x.2.2.st.cmds.length + 1) ∧ Leads x y k ∧ y.2.2.st.finished := by
  obtain ⟨v, d, ⟨ph, cs, g⟩, reg⟩ := x
  have fin : ∀ {ds : List (TCmd w)} {n : Nat}, Settles ds (v, d, ⟨⟨ph, cs, g⟩, reg⟩) n → n ≤ 8 → ds.length ≤ cs.length →
      ∃ y k, k ≤ 8 * (cs.length + 1) ∧ Leads (v, d, ⟨⟨ph, cs, g⟩, reg⟩) y k ∧ y.2.2.st.finished := by
    rintro ds n ⟨v', d', g', k, hk, hl⟩ hn hd
    obtain ⟨y, k', hk', hl', hf⟩ := leads_all ds v' d' g'
    exact ⟨y, k + k', by omega, hl.trans hl', hf⟩
  cases ph with
  | idle =>
    cases cs with
    | nil => exact ⟨_, 0, Nat.zero_le _, .refl _, rfl, rfl⟩
    | cons c cs => exact fin (settles_cmd cs v d g c reg) (by omega) (by simp)
  | link a old => exact fin (settles_link cs v d g a old reg) (by omega) (Nat.le_refl _)
  | look h => exact fin (settles_look cs v d g h reg) (by omega) (Nat.le_refl _)
  | swing a old =>
    cases reg with
    | none => exact fin (settles_swing cs v d g a old) (by omega) (Nat.le_refl _)
    | some r =>
      by_cases hr : r = old
      · exact fin ((settles_swing_reg cs v d g a old r).1 hr) (by omega) (Nat.le_refl _)
      · refine fin (n := 7) (Settles.step ?_) (by omega) (Nat.le_refl _)
        rw [(settles_swing_reg cs v d g a old r).2 hr]
        exact settles_link ..
  | take h n =>
    cases reg with
    | none => exact fin (settles_take cs v d g h n) (by omega) (Nat.le_refl _)
    | some r =>
      by_cases hr : r = h ∨ r = 0
      · exact fin ((settles_take_reg cs v d g h n r).1 hr) (by omega) (Nat.le_refl _)
      · refine fin (n := 7) (Settles.step ?_) (by omega) (Nat.le_refl _)
        rw [(settles_take_reg cs v d g h n r).2 hr]
        exact settles_look ..

theorem solo_run {i : Nat} {x y : BitVec w × (BitVec w → BitVec w) × CThr w (TSt w)} {k : Nat} (h : Leads x y k) :
    ∀ {s : CSys w (BitVec w → BitVec w) (TSt w)}, s.value = x.1 → s.data = x.2.1 → s.thr[i]? = some x.2.2 →
    (actRun stackAct s (List.replicate k i)).thr[i]? = some y.2.2 := by
  induction h with
  | refl x => intro s _ _ h3; exact h3
  | @step x y k _ ih =>
    intro s h1 h2 h3
    show (actRun stackAct (actStep stackAct s i) (List.replicate k i)).thr[i]? = _
    rw [actStep_some h3, h1, h2]
    refine ih rfl rfl ?_
    exact List.getElem?_set_self (List.getElem?_eq_some_iff.1 h3).1

end Zy
