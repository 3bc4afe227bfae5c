import Verif.Lemmas.ArgConcat
import Verif.Spec.ArgDefs

/-!
# Helper lemmas: command lines and different lists of definitions
-/

namespace Zy

open Spec

/-! ## Looking up a name -/

theorem lookup_none {D : List ArgDef} {n : Tok} : lookup D n = none ↔ ∀ d ∈ D, d.name ≠ n := by
  unfold lookup
  rw [List.find?_eq_none]
  constructor
  · intro h d hd
    obtain ⟨j, hj, rfl⟩ := List.mem_iff_getElem.1 hd
    have := h (D[j], j) (List.mk_mem_zipIdx_iff_getElem?.2 (List.getElem?_eq_getElem hj))
    simpa using this
  · rintro h ⟨d, j⟩ hm
    have hj := List.mk_mem_zipIdx_iff_getElem?.1 hm
    simpa using h d (List.mem_of_getElem? hj)

theorem lookup_append {D E : List ArgDef} {n : Tok} {p : ArgDef × Nat} (h : lookup D n = some p) :
    lookup (D ++ E) n = some p := by
  unfold lookup at h ⊢
  rw [List.zipIdx_append, List.find?_append, h]
  rfl

theorem nodup_name {D : List ArgDef} (h : (D.map ArgDef.name).Nodup) {d e : ArgDef} (hd : d ∈ D) (he : e ∈ D)
    (hn : d.name = e.name) : d = e := by
  induction D with
  | nil => cases hd
  | cons x D ih =>
    rw [List.map_cons, List.nodup_cons] at h
    rcases List.mem_cons.1 hd with hd1 | hd1 <;> rcases List.mem_cons.1 he with he1 | he1
    · rw [hd1, he1]
    · exact absurd (List.mem_map.2 ⟨e, he1, by rw [← hn, hd1]⟩) h.1
    · exact absurd (List.mem_map.2 ⟨d, hd1, by rw [hn, he1]⟩) h.1
    · exact ih h.2 hd1 he1

theorem lookup_mem {D : List ArgDef} (h : (D.map ArgDef.name).Nodup) {d : ArgDef} (hd : d ∈ D) :
    ∃ j, lookup D d.name = some (d, j) := by
  cases hl : lookup D d.name with
  | none => exact absurd rfl (lookup_none.1 hl d hd)
  | some p =>
    obtain ⟨e, j⟩ := p
    obtain ⟨h1, h2⟩ := lookup_get hl
    have := nodup_name h (List.mem_of_getElem? h1) hd h2
    subst this
    exact ⟨j, rfl⟩

/-! ## The same names at other places -/

/-- Everything that is found in `D` is found in `E`, at another place. -/
def Finds (σ : Nat → Nat) (D E : List ArgDef) : Prop :=
  ∀ n d j, lookup D n = some (d, j) → lookup E n = some (d, σ j)

def moveItem (σ : Nat → Nat) : Item → Item
  | .opt j v => .opt (σ j) v
  | .plain t => .plain t

def moveMode (σ : Nat → Nat) : Mode → Mode
  | .value j t => .value (σ j) t
  | m => m

def moveEnd (σ : Nat → Nat) : ClusterEnd → ClusterEnd
  | .wants j => .wants (σ j)
  | e => e

theorem plains_move (σ : Nat → Nat) (is : List Item) : plains (is.map (moveItem σ)) = plains is := by
  unfold plains
  rw [List.filterMap_map]
  congr 1
  funext it
  cases it <;> rfl

section
variable {σ : Nat → Nat} {D E : List ArgDef}

theorem cluster_move (h : Finds σ D E) (cs : List Byte)
    (hn : (∀ n, lookup D n = none → lookup E n = none) ∨ (cluster D cs).2 ≠ .unknown) :
    cluster E cs = ((cluster D cs).1.map (moveItem σ), moveEnd σ (cluster D cs).2) := by
  induction cs with
  | nil => rfl
  | cons c cs ih =>
    cases hl : lookup D (dash ++ [c]) with
    | none =>
      have hn' : lookup E (dash ++ [c]) = none := by
        rcases hn with hn | hn
        · exact hn _ hl
        · exact absurd (by simp only [cluster, hl]) hn
      simp only [cluster, hl, hn', List.map_nil, moveEnd]
    | some p =>
      obtain ⟨d, j⟩ := p
      have hl' := h _ _ _ hl
      by_cases hb : d.boolean = true
      · have hn' : (∀ n, lookup D n = none → lookup E n = none) ∨ (cluster D cs).2 ≠ .unknown := by
          refine hn.imp_right fun h => ?_
          simpa only [cluster, hl, hb, if_true] using h
        have := ih hn'
        simp only [cluster, hl, hl', hb, if_true, this, List.map_cons, moveItem]
      · simp only [cluster, hl, hl', hb]
        by_cases hc : cs = []
        · simp [hc, moveEnd]
        · simp [hc, moveEnd, moveItem]

theorem reading_move (h : Finds σ D E) {q : Bool} (ts : List Tok) : ∀ (m : Mode),
    ((∀ n, lookup D n = none → lookup E n = none) ∨ ∀ t, (reading q D m ts).2 ≠ some (.unknown t)) →
    reading q E (moveMode σ m) ts = ((reading q D m ts).1.map (moveItem σ), (reading q D m ts).2) := by
  induction ts with
  | nil => intro m _; cases m <;> rfl
  | cons t ts ih =>
    intro m hn
    cases m with
    | value j u =>
      have := ih .any (by simpa only [reading, prepend] using hn)
      simp only [moveMode] at this
      simp only [moveMode, reading, prepend, this, List.map_append, List.map_cons, List.map_nil, moveItem]
    | plainOnly =>
      have := ih .plainOnly (by simpa only [reading, prepend] using hn)
      simp only [moveMode] at this
      simp only [moveMode, reading, prepend, this, List.map_append, List.map_cons, List.map_nil, moveItem]
    | any =>
      have ihAny := ih .any
      have ihPlain := ih .plainOnly
      have ihValue := fun j => ih (.value j t)
      simp only [moveMode] at ihAny ihPlain ihValue ⊢
      simp only [reading] at hn ⊢
      by_cases c1 : t = dashDash
      · simp only [c1, if_true] at hn ⊢
        exact ihPlain hn
      · simp only [c1, if_false] at hn ⊢
        by_cases c2 : dashDash <+: t
        · simp only [c2, if_true] at hn ⊢
          cases hl : lookup D t with
          | none =>
            have hl' : lookup E t = none := by
              rcases hn with hn | hn
              · exact hn _ hl
              · exact absurd (by simp only [hl]) (hn t)
            simp only [hl', List.map_nil]
          | some p =>
            obtain ⟨d, j⟩ := p
            have hl' := h _ _ _ hl
            simp only [hl] at hn
            simp only [hl']
            by_cases hb : d.boolean = true
            · simp only [hb, if_true] at hn ⊢
              simp only [prepend] at hn ⊢
              simp only [ihAny hn, List.map_append, List.map_cons, List.map_nil, moveItem]
            · simp only [hb] at hn ⊢
              exact ihValue j hn
        · simp only [c2, if_false] at hn ⊢
          by_cases c3 : dash <+: t ∧ t ≠ dash
          · simp only [if_pos c3] at hn ⊢
            have hcl : (∀ n, lookup D n = none → lookup E n = none) ∨ (cluster D t.tail).2 ≠ .unknown := by
              refine hn.imp_right fun hx hu => ?_
              have := hx t
              rcases hc : cluster D t.tail with ⟨is, e⟩
              rw [hc] at hu this
              dsimp only at hu
              subst hu
              exact this rfl
            rw [cluster_move h _ hcl]
            rcases hc : cluster D t.tail with ⟨is, e⟩
            rw [hc] at hn
            cases e with
            | flags =>
              simp only [moveEnd, prepend] at hn ⊢
              simp only [ihAny hn, List.map_append]
              cases q <;> simp [moveItem]
            | attached =>
              simp only [moveEnd, prepend] at hn ⊢
              simp only [ihAny hn, List.map_append]
            | wants j =>
              simp only [moveEnd, prepend] at hn ⊢
              simp only [ihValue j hn, List.map_append]
            | unknown => simp only [moveEnd]
          · simp only [if_neg c3] at hn ⊢
            simp only [prepend] at hn ⊢
            simp only [ihAny hn, List.map_append, List.map_cons, List.map_nil, moveItem]

end

/-! ## Definitions with different names -/

/-- The place in `E` of the definition with number `j` in `D`. -/
def placeIn (D E : List ArgDef) (j : Nat) : Nat :=
  ((D[j]?).bind fun d => (lookup E d.name).map Prod.snd).getD 0

theorem placeIn_get {D E : List ArgDef} (hE : (E.map ArgDef.name).Nodup) (hs : ∀ d ∈ D, d ∈ E) {j : Nat}
    {d : ArgDef} (h : D[j]? = some d) :
    lookup E d.name = some (d, placeIn D E j) ∧ E[placeIn D E j]? = some d := by
  obtain ⟨k, hk⟩ := lookup_mem hE (hs d (List.mem_of_getElem? h))
  have : placeIn D E j = k := by simp [placeIn, h, hk]
  rw [this]
  exact ⟨hk, (lookup_get hk).1⟩

theorem finds_place {D E : List ArgDef} (hE : (E.map ArgDef.name).Nodup) (hs : ∀ d ∈ D, d ∈ E) :
    Finds (placeIn D E) D E := by
  intro n d j h
  obtain ⟨h1, rfl⟩ := lookup_get h
  exact (placeIn_get hE hs h1).1

/-- Every option that was read has a definition. -/
theorem reading_defined {q : Bool} {D : List ArgDef} {ts : List Tok} {j : Nat} {v : Option Tok}
    (h : Item.opt j v ∈ (reading q D .any ts).1) : ∃ d, D[j]? = some d := by
  obtain ⟨pre, t, next, -, hf⟩ := (reading_from ts).1 _ h
  cases hf with
  | longFlag d _ hd => exact ⟨d, hd⟩
  | longValue d _ _ hd => exact ⟨d, hd⟩
  | shortFlag d _ _ _ _ hd => exact ⟨d, hd⟩
  | shortRest d _ _ _ _ hd => exact ⟨d, hd⟩
  | shortNext d _ _ _ _ hd => exact ⟨d, hd⟩

theorem mem_move {σ : Nat → Nat} {is : List Item} {j : Nat} {v : Option Tok}
    (h : Item.opt j v ∈ is.map (moveItem σ)) : ∃ k, Item.opt k v ∈ is ∧ j = σ k := by
  obtain ⟨it, hit, e⟩ := List.mem_map.1 h
  cases it with
  | plain t => simp [moveItem] at e
  | opt k u =>
    simp only [moveItem, Item.opt.injEq] at e
    obtain ⟨rfl, rfl⟩ := e
    exact ⟨k, hit, rfl⟩

/-- Items and their moved copies denote the same definitions. -/
theorem withDef_move {q : Bool} {D E : List ArgDef} {ts : List Tok} (hE : (E.map ArgDef.name).Nodup)
    (hs : ∀ d ∈ D, d ∈ E) {it : Item} (h : it ∈ (reading q D .any ts).1) :
    withDef E (structOf (moveItem (placeIn D E) it)) = withDef D (structOf it) := by
  cases it with
  | plain t => rfl
  | opt j v =>
    obtain ⟨d, hd⟩ := reading_defined h
    have := (placeIn_get hE hs hd).2
    cases v <;> simp [moveItem, structOf, withDef, hd, this]

/-- The command line is accepted with more definitions too. -/
theorem verdict_more {q : Bool} {A C : ArgConfig} {is : List Item} (hA : verdict q A = .ok is)
    (hC : (C.args.map ArgDef.name).Nodup) (hs : ∀ d ∈ A.args, d ∈ C.args)
    (hreq : ∀ d ∈ C.args, d.required = true → d ∈ A.args) (hleg : ∀ d ∈ C.args, legalName d.name)
    (ht : C.argv.tail = A.argv.tail) (hmin : C.minUnnamed ≤ A.minUnnamed) (hmax : A.maxUnnamed ≤ C.maxUnnamed) :
    verdict q C = .ok (is.map (moveItem (placeIn A.args C.args))) := by
  obtain ⟨a1, a2, a3, a4, a5, _, a7⟩ := verdict_ok hA
  have hmv := reading_move (finds_place hC hs) (q := q) A.argv.tail .any (Or.inr (by rw [a2]; simp))
  rw [← a1, a2] at hmv
  apply verdict_ok_intro
  · rw [ht]; exact hmv
  · rw [plains_move]; omega
  · rw [plains_move]; omega
  · apply firstMissing_eq_none
    intro j d hj hr
    obtain ⟨k, hk, rfl⟩ := List.mem_iff_getElem.1 (hreq d (List.mem_of_getElem? hj) hr)
    have hk' := List.getElem?_eq_getElem hk
    obtain ⟨v, hv⟩ := firstMissing_none a5 hk' hr
    refine ⟨v, ?_⟩
    have hp := placeIn_get hC hs hk'
    have hju : placeIn A.args C.args k = j := by
      have h1 := hp.2
      rcases List.getElem?_eq_some_iff.1 hj with ⟨l1, e1⟩
      rcases List.getElem?_eq_some_iff.1 h1 with ⟨l2, e2⟩
      have h3 : (C.args.map ArgDef.name)[placeIn A.args C.args k]'(by simpa using l2) =
          (C.args.map ArgDef.name)[j]'(by simpa using l1) := by
        rw [List.getElem_map, List.getElem_map, e1, e2]
      exact (List.getElem_inj hC).1 h3
    rw [← hju]
    exact List.mem_map.2 ⟨_, hv, rfl⟩
  · exact hleg

/-- Definitions that are added behind the others change nothing. -/
theorem verdict_appended {q : Bool} {A C : ArgConfig} {is : List Item} {E : List ArgDef} (hA : verdict q A = .ok is)
    (hC : C.args = A.args ++ E) (hreq : ∀ d ∈ E, d.required = false) (hleg : ∀ d ∈ E, legalName d.name)
    (ht : C.argv.tail = A.argv.tail) (hmin : C.minUnnamed ≤ A.minUnnamed) (hmax : A.maxUnnamed ≤ C.maxUnnamed) :
    verdict q C = .ok is := by
  obtain ⟨a1, a2, a3, a4, a5, _, a7⟩ := verdict_ok hA
  have hf : Finds id A.args C.args := by
    intro n d j h
    rw [hC]
    exact lookup_append h
  have hmv := reading_move hf (q := q) A.argv.tail .any (Or.inr (by rw [a2]; simp))
  have hid : moveItem id = id := by funext it; cases it <;> rfl
  rw [← a1, a2, hid, List.map_id] at hmv
  apply verdict_ok_intro
  · rw [ht]; exact hmv
  · omega
  · omega
  · apply firstMissing_eq_none
    intro j d hj hr
    rw [hC] at hj
    rw [List.getElem?_append] at hj
    split at hj
    · exact firstMissing_none a5 hj hr
    · rw [hreq d (List.mem_of_getElem? hj)] at hr
      cases hr
  · intro d hd
    rw [hC] at hd
    exact (List.mem_append.1 hd).elim (a7 d) (hleg d)

/-- Rearranged definitions give the same error. -/
theorem verdict_rearranged {q : Bool} {A C : ArgConfig} {st : Status} {t : Option Tok}
    (hA : verdict q A = .error st t) (hp : C.args.Perm A.args) (hn : (A.args.map ArgDef.name).Nodup)
    (ht : C.argv.tail = A.argv.tail) (hmin : C.minUnnamed = A.minUnnamed) (hmax : C.maxUnnamed = A.maxUnnamed) :
    ∃ t', verdict q C = .error st t' ∧ (st ≠ stRequiredArgMissing → t' = t) ∧ (t'.isSome ↔ t.isSome) := by
  have hC : (C.args.map ArgDef.name).Nodup := (hp.map ArgDef.name).nodup_iff.2 hn
  have hs : ∀ d ∈ A.args, d ∈ C.args := fun d hd => hp.mem_iff.2 hd
  have hnone : ∀ n, lookup A.args n = none → lookup C.args n = none := by
    intro n h
    rw [lookup_none] at h ⊢
    exact fun d hd => h d (hp.mem_iff.1 hd)
  have hmv := reading_move (finds_place hC hs) (q := q) A.argv.tail .any (Or.inl hnone)
  change reading q C.args .any A.argv.tail = _ at hmv
  have hbad : (C.maxUnnamed < C.minUnnamed ∨ ∃ d ∈ C.args, ¬ legalName d.name) ↔
      (A.maxUnnamed < A.minUnnamed ∨ ∃ d ∈ A.args, ¬ legalName d.name) := by
    rw [hmin, hmax]
    simp only [hp.mem_iff]
  have hback : firstMissing C.args ((reading q A.args .any A.argv.tail).1.map (moveItem (placeIn A.args C.args))) =
      none → firstMissing A.args (reading q A.args .any A.argv.tail).1 = none := by
    intro h
    apply firstMissing_eq_none
    intro j d hj hr
    have hpl := placeIn_get hC hs hj
    obtain ⟨v, hv⟩ := firstMissing_none h hpl.2 hr
    obtain ⟨k, hk, e⟩ := mem_move hv
    obtain ⟨d2, hd2⟩ := reading_defined hk
    have hpl2 := (placeIn_get hC hs hd2).2
    rw [← e, hpl.2] at hpl2
    injection hpl2 with hpl2
    subst hpl2
    rcases List.getElem?_eq_some_iff.1 hj with ⟨l1, e1⟩
    rcases List.getElem?_eq_some_iff.1 hd2 with ⟨l2, e2⟩
    have h3 : (A.args.map ArgDef.name)[k]'(by simpa using l2) = (A.args.map ArgDef.name)[j]'(by simpa using l1) := by
      rw [List.getElem_map, List.getElem_map, e1, e2]
    have hjk := (List.getElem_inj hn).1 h3
    subst hjk
    exact ⟨v, hk⟩
  unfold verdict at hA ⊢
  rw [ht, hmv, plains_move]
  dsimp only
  by_cases hb : A.maxUnnamed < A.minUnnamed ∨ ∃ d ∈ A.args, ¬ legalName d.name
  · rw [if_pos hb] at hA
    rw [if_pos (hbad.2 hb)]
    injection hA with h1 h2
    exact ⟨none, by rw [h1], fun _ => h2, by rw [← h2]⟩
  · rw [if_neg hb] at hA
    rw [if_neg (fun h => hb (hbad.1 h)), hmax, hmin]
    split at hA
    · rename_i u h1
      injection hA with e1 e2
      subst e1 e2
      exact ⟨_, rfl, fun _ => rfl, Iff.rfl⟩
    · rename_i u h1 h2
      injection hA with e1 e2
      subst e1 e2
      exact ⟨_, rfl, fun _ => rfl, Iff.rfl⟩
    · rename_i u h1 h2
      injection hA with e1 e2
      subst e1 e2
      exact ⟨_, rfl, fun _ => rfl, Iff.rfl⟩
    · rename_i h1 h2
      by_cases hc : (plains (reading q A.args .any A.argv.tail).1).length < A.minUnnamed
      · rw [if_pos hc] at hA ⊢
        injection hA with e1 e2
        subst e1 e2
        exact ⟨_, rfl, fun _ => rfl, Iff.rfl⟩
      · rw [if_neg hc] at hA ⊢
        cases hm : firstMissing A.args (reading q A.args .any A.argv.tail).1 with
        | none => rw [hm] at hA; cases hA
        | some p =>
          rw [hm] at hA
          injection hA with e1 e2
          subst e1 e2
          cases hm' : firstMissing C.args
              ((reading q A.args .any A.argv.tail).1.map (moveItem (placeIn A.args C.args))) with
          | none => rw [hback hm'] at hm; cases hm
          | some p' => exact ⟨_, rfl, fun h => absurd rfl h, by simp⟩

/-! ## Definitions with the same name -/

theorem lookup_first {D : List ArgDef} {n : Tok} {d : ArgDef} {j : Nat} (h : lookup D n = some (d, j)) {i : Nat}
    {e : ArgDef} (hi : i < j) (he : D[i]? = some e) : e.name ≠ n := by
  unfold lookup at h
  obtain ⟨-, as, bs, e1, e2⟩ := List.find?_eq_some_iff_append.1 h
  have hj : as.length = j := by
    have h1 : D.zipIdx[as.length]? = some (d, j) := by rw [e1]; simp
    rw [List.getElem?_zipIdx] at h1
    cases hx : D[as.length]? with
    | none => simp [hx] at h1
    | some x => simp [hx] at h1; exact h1.2
  have h2 : D.zipIdx[i]? = some (e, i) := by rw [List.getElem?_zipIdx, he]; simp
  rw [e1, List.getElem?_append_left (by omega)] at h2
  have := e2 _ (List.mem_of_getElem? h2)
  simpa using this

/-- Only the first definition of a name is ever used. -/
theorem reading_first {q : Bool} {D : List ArgDef} : ∀ (ts : List Tok) (m : Mode) {j : Nat} {v : Option Tok},
    Item.opt j v ∈ (reading q D m ts).1 →
    (∃ d, lookup D d.name = some (d, j)) ∨ ∃ t, m = .value j t := by
  have hcl : ∀ (cs : List Byte) {j : Nat} {v : Option Tok}, Item.opt j v ∈ (cluster D cs).1 →
      ∃ d, lookup D d.name = some (d, j) := by
    intro cs
    induction cs with
    | nil => intro j v h; simp [cluster] at h
    | cons c cs ih =>
      intro j v h
      unfold cluster at h
      split at h
      · simp at h
      · rename_i d k hl
        have hd : lookup D d.name = some (d, k) := by rw [(lookup_get hl).2]; exact hl
        split at h
        · rcases List.mem_cons.1 h with h | h
          · simp only [Item.opt.injEq] at h
            exact ⟨d, h.1 ▸ hd⟩
          · exact ih h
        · split at h
          · simp at h
          · simp only [List.mem_singleton, Item.opt.injEq] at h
            exact ⟨d, h.1 ▸ hd⟩
  have hwants : ∀ (cs : List Byte) {j : Nat}, (cluster D cs).2 = .wants j →
      ∃ d, lookup D d.name = some (d, j) := by
    intro cs
    induction cs with
    | nil => intro j h; simp [cluster] at h
    | cons c cs ih =>
      intro j h
      unfold cluster at h
      split at h
      · simp at h
      · rename_i d k hl
        have hd : lookup D d.name = some (d, k) := by rw [(lookup_get hl).2]; exact hl
        split at h
        · exact ih h
        · split at h
          · simp only [ClusterEnd.wants.injEq] at h
            exact ⟨d, h ▸ hd⟩
          · simp at h
  intro ts
  induction ts with
  | nil => intro m j v h; cases m <;> simp [reading] at h
  | cons t ts ih =>
    have next : ∀ {m : Mode} {j : Nat} {v : Option Tok}, Item.opt j v ∈ (reading q D m ts).1 →
        (∀ k u, m = .value k u → ∃ d, lookup D d.name = some (d, k)) → ∃ d, lookup D d.name = some (d, j) := by
      intro m j v h hv
      rcases ih m h with h | ⟨u, h⟩
      · exact h
      · exact hv _ _ h
    intro m j v h
    cases m with
    | value k u =>
      simp only [reading, prepend, List.mem_append, List.mem_singleton, Item.opt.injEq] at h
      rcases h with h | h
      · exact Or.inr ⟨u, by rw [h.1]⟩
      · exact Or.inl (next h (by simp))
    | plainOnly =>
      simp only [reading, prepend, List.mem_append, List.mem_singleton] at h
      rcases h with h | h
      · cases h
      · exact Or.inl (next h (by simp))
    | any =>
      left
      unfold reading at h
      split at h
      · exact next h (by simp)
      · split at h
        · split at h
          · simp at h
          · rename_i d k hl
            have hd : lookup D d.name = some (d, k) := by rw [(lookup_get hl).2]; exact hl
            split at h
            · simp only [prepend, List.mem_append, List.mem_singleton, Item.opt.injEq] at h
              rcases h with h | h
              · exact ⟨d, h.1 ▸ hd⟩
              · exact next h (by simp)
            · refine next h fun k' u e => ?_
              simp only [Mode.value.injEq] at e
              exact ⟨d, e.1 ▸ hd⟩
        · split at h
          · rcases hc : cluster D t.tail with ⟨is, e⟩
            have hcl' := @hcl t.tail
            have hw' := @hwants t.tail
            rw [hc] at h hcl' hw'
            cases e with
            | flags =>
              simp only [prepend, List.mem_append] at h
              rcases h with (h | h) | h
              · exact hcl' h
              · cases q <;> simp at h
              · exact next h (by simp)
            | attached =>
              simp only [prepend, List.mem_append] at h
              rcases h with h | h
              · exact hcl' h
              · exact next h (by simp)
            | wants k =>
              simp only [prepend, List.mem_append] at h
              rcases h with h | h
              · exact hcl' h
              · refine next h fun k' u e => ?_
                simp only [Mode.value.injEq] at e
                exact e.1 ▸ hw' rfl
            | unknown => exact hcl' h
          · simp only [prepend, List.mem_append, List.mem_singleton] at h
            rcases h with h | h
            · cases h
            · exact next h (by simp)

end Zy
