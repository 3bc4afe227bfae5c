import Verif.Lemmas.ArgParse

/-!
# Helper lemmas: properties of the command line grammar
-/

namespace Zy

open Spec

theorem lookup_get {D : List ArgDef} {n : Tok} {d : ArgDef} {j : Nat}
    (h : lookup D n = some (d, j)) : D[j]? = some d ∧ d.name = n := by
  unfold lookup at h
  have h1 := List.find?_some h
  have h2 := List.mem_of_find?_eq_some h
  refine ⟨?_, by simpa using h1⟩
  obtain ⟨h3, h4⟩ := List.mem_zipIdx' h2
  rw [h4]
  exact List.getElem?_eq_getElem h3

/-! ## The two readings of a cluster of flags -/

theorem cluster_flags {D : List ArgDef} {cs : List Byte} (h : (cluster D cs).2 = .flags) :
    ∀ c ∈ cs, ∃ d j, lookup D (dash ++ [c]) = some (d, j) ∧ d.boolean = true := by
  induction cs with
  | nil => intro c hc; simp at hc
  | cons c cs ih =>
    unfold cluster at h
    split at h
    · simp at h
    · rename_i d j hl
      split at h
      · rename_i hb
        intro c' hc'
        rcases List.mem_cons.1 hc' with rfl | hc'
        · exact ⟨d, j, hl, hb⟩
        · exact ih h c' hc'
      · split at h <;> simp at h

theorem cluster_all_flags {D : List ArgDef} {cs : List Byte}
    (h : ∀ c ∈ cs, ∃ d j, lookup D (dash ++ [c]) = some (d, j) ∧ d.boolean = true) :
    ∃ js : List Nat, js.length = cs.length ∧
      cluster D cs = (js.map fun j => .opt j none, .flags) ∧
      ∀ (i : Nat), ∀ j, js[i]? = some j → ∃ c d, cs[i]? = some c ∧
        lookup D (dash ++ [c]) = some (d, j) := by
  induction cs with
  | nil => exact ⟨[], rfl, rfl, by simp⟩
  | cons c cs ih =>
    obtain ⟨d, j, hl, hb⟩ := h c (by simp)
    obtain ⟨js, h1, h2, h3⟩ := ih fun c hc => h c (List.mem_cons_of_mem _ hc)
    refine ⟨j :: js, by simp [h1], ?_, ?_⟩
    · simp only [cluster, hl, hb, if_true, h2, List.map_cons]
    · intro i j' hj'
      cases i with
      | zero =>
        simp only [List.getElem?_cons_zero, Option.some.injEq] at hj'
        subst hj'
        exact ⟨c, d, rfl, hl⟩
      | succ i => exact h3 i j' hj'

theorem dash_prefix {t : Tok} (h : dash <+: t) : t = dash ++ t.tail := by
  obtain ⟨r, rfl⟩ := h
  simp [dash]

theorem not_dashDash_head {t : Tok} (h : dash <+: t) (h2 : ¬ dashDash <+: t) :
    t.tail.head? ≠ some 45#8 := by
  obtain ⟨r, rfl⟩ := h
  cases r with
  | nil => simp [dash]
  | cons x r =>
    simp only [dash, List.singleton_append, List.tail_cons, List.head?_cons, ne_eq,
      Option.some.injEq]
    intro hx
    exact h2 ⟨r, by simp [dashDash, dash, hx]⟩

theorem reading_quirk {D : List ArgDef} (ts : List Tok) :
    ∀ (m : Mode), (∀ t ∈ ts, ¬ FlagCluster D t) → reading true D m ts = reading false D m ts := by
  induction ts with
  | nil => intro m _; cases m <;> simp [reading]
  | cons t ts ih =>
    intro m h
    have ih' := fun m => ih m fun t ht => h t (List.mem_cons_of_mem _ ht)
    cases m with
    | value j t' => simp only [reading, ih']
    | plainOnly => simp only [reading, ih']
    | any =>
      simp only [reading, ih']
      split
      · rfl
      · split
        · rfl
        · rename_i h1 h2
          split
          · rename_i h3
            split
            · rename_i is hc
              exfalso
              refine h t (by simp) ⟨t.tail, dash_prefix h3.1, ?_, not_dashDash_head h3.1 h2,
                cluster_flags (by rw [hc])⟩
              intro he
              have := dash_prefix h3.1
              rw [he] at this
              exact h3.2 (by simpa using this)
            · rfl
            · rfl
            · rfl
          · rfl

theorem verdict_quirk {cfg : ArgConfig} (h : ∀ t ∈ cfg.argv.tail, ¬ FlagCluster cfg.args t) :
    verdict true cfg = verdict false cfg := by
  unfold verdict
  rw [reading_quirk _ _ h]

/-! ## Splitting the command line -/

theorem prepend_prepend (x y : List Item) (r : List Item × Option ReadError) :
    prepend x (prepend y r) = prepend (x ++ y) r := by
  simp [prepend]

theorem reading_append {q : Bool} {D : List ArgDef} {post : List Tok} (pre : List Tok) :
    ∀ (m : Mode), (∀ j t, modeAfter D m pre ≠ .value j t) → (reading q D m pre).2 = none →
      reading q D m (pre ++ post) =
        prepend (reading q D m pre).1 (reading q D (modeAfter D m pre) post) := by
  induction pre with
  | nil =>
    intro m hm _
    cases m with
    | value j t => exact absurd rfl (hm j t)
    | any => simp [reading, modeAfter, prepend]
    | plainOnly => simp [reading, modeAfter, prepend]
  | cons t ts ih =>
    intro m hm he
    cases m with
    | value j t' =>
      simp only [List.cons_append, reading, modeAfter, prepend] at hm he ⊢
      rw [ih .any hm he]
      simp [prepend]
    | plainOnly =>
      simp only [List.cons_append, reading, modeAfter, prepend] at hm he ⊢
      rw [ih .plainOnly hm he]
      simp [prepend]
    | any =>
      simp only [List.cons_append, reading, modeAfter] at hm he ⊢
      by_cases h1 : t = dashDash
      · simp only [h1, if_true] at hm he ⊢
        rw [ih .plainOnly hm he]
      · simp only [h1, if_false] at hm he ⊢
        by_cases h2 : dashDash <+: t
        · simp only [h2, if_true] at hm he ⊢
          cases hl : lookup D t with
          | none => rw [hl] at he; simp at he
          | some p =>
            obtain ⟨d, j⟩ := p
            rw [hl] at hm he
            simp only at hm he ⊢
            cases hb : d.boolean with
            | true =>
              simp only [hb, if_true, prepend] at hm he ⊢
              rw [ih .any hm he]
              simp [prepend]
            | false =>
              simp only [hb, Bool.false_eq_true, if_false] at hm he ⊢
              rw [ih _ hm he]
        · simp only [h2, if_false] at hm he ⊢
          by_cases h3 : dash <+: t ∧ t ≠ dash
          · rw [if_pos h3] at he ⊢
            rw [if_pos h3]
            simp only [if_pos h3] at hm
            revert hm he
            rcases cluster D t.tail with ⟨is, e⟩
            intro he hm
            cases e with
            | flags =>
              simp only [prepend] at hm he ⊢
              rw [if_pos h3]
              rw [ih .any hm he]
              simp [prepend]
            | attached =>
              simp only [prepend] at hm he ⊢
              rw [if_pos h3]
              rw [ih .any hm he]
              simp [prepend]
            | wants j =>
              simp only [prepend] at hm he ⊢
              rw [if_pos h3]
              rw [ih _ hm he]
              simp [prepend]
            | unknown => simp at he
          · rw [if_neg h3] at he ⊢
            rw [if_neg h3]
            simp only [if_neg h3] at hm
            simp only [prepend] at he
            rw [if_neg h3]
            rw [ih .any hm he, prepend_prepend]
            rfl

theorem reading_plainOnly (q : Bool) (D : List ArgDef) (ts : List Tok) :
    reading q D .plainOnly ts = (ts.map .plain, none) := by
  induction ts with
  | nil => simp [reading]
  | cons t ts ih => simp [reading, ih, prepend]

/-! ## Where items come from -/

theorem cluster_from {D : List ArgDef} {t : Tok} {next : List Tok} (cs : List Byte) :
    ∀ (pre : List Byte), t = dash ++ pre ++ cs →
      (∀ it ∈ (cluster D cs).1, FromToken D t next it) ∧
      (∀ j v, (cluster D cs).2 = .wants j → next.head? = some v →
        FromToken D t next (.opt j (some v))) := by
  induction cs with
  | nil => intro pre _; simp [cluster]
  | cons c cs ih =>
    intro pre ht
    have ht1 : t = dash ++ pre ++ [c] ++ cs := by simpa using ht
    unfold cluster
    cases hl : lookup D (dash ++ [c]) with
    | none => simp
    | some p =>
      obtain ⟨d, j⟩ := p
      obtain ⟨hd, hn⟩ := lookup_get hl
      obtain ⟨i1, i2⟩ := ih (pre ++ [c]) (by simpa using ht)
      simp only
      cases hb : d.boolean with
      | true =>
        simp only [if_true]
        refine ⟨?_, i2⟩
        intro it hit
        rcases List.mem_cons.1 hit with rfl | hit
        · exact .shortFlag d j c pre cs hd hn ht1 hb
        · exact i1 it hit
      | false =>
        simp only [Bool.false_eq_true, if_false]
        by_cases hcs : cs = []
        · rw [if_pos hcs]
          refine ⟨by simp, ?_⟩
          intro j' v hj hv
          simp only [ClusterEnd.wants.injEq] at hj
          subst hj
          exact .shortNext d j c pre v hd hn (by rw [ht1, hcs]; simp) hb hv
        · rw [if_neg hcs]
          refine ⟨?_, by simp⟩
          intro it hit
          simp only [List.mem_singleton] at hit
          subst hit
          exact .shortRest d j c pre cs hd hn ht1 hb hcs

/-- Some token of `ts` explains the item. -/
def Explained (D : List ArgDef) (ts : List Tok) (it : Item) : Prop :=
  ∃ pre t next, ts = pre ++ t :: next ∧ FromToken D t next it

theorem Explained.cons {D : List ArgDef} {ts : List Tok} {it : Item} (h : Explained D ts it)
    (t : Tok) : Explained D (t :: ts) it := by
  obtain ⟨pre, t', next, rfl, h⟩ := h
  exact ⟨t :: pre, t', next, rfl, h⟩

theorem reading_from {q : Bool} {D : List ArgDef} (ts : List Tok) :
    (∀ it ∈ (reading q D .any ts).1, Explained D ts it) ∧
    (∀ it ∈ (reading q D .plainOnly ts).1, Explained D ts it) ∧
    (∀ j t, ∀ it ∈ (reading q D (.value j t) ts).1,
      (∃ v, ts.head? = some v ∧ it = .opt j (some v)) ∨ Explained D ts it) := by
  induction ts with
  | nil => simp [reading]
  | cons t ts ih =>
    obtain ⟨ia, ip, iv⟩ := ih
    refine ⟨?_, ?_, ?_⟩
    · intro it hit
      simp only [reading] at hit
      by_cases h1 : t = dashDash
      · rw [if_pos h1] at hit
        exact (ip it hit).cons t
      · rw [if_neg h1] at hit
        by_cases h2 : dashDash <+: t
        · rw [if_pos h2] at hit
          cases hl : lookup D t with
          | none => rw [hl] at hit; simp at hit
          | some p =>
            obtain ⟨d, j⟩ := p
            obtain ⟨hd, hn⟩ := lookup_get hl
            rw [hl] at hit
            simp only at hit
            cases hb : d.boolean with
            | true =>
              simp only [hb, if_true, prepend] at hit
              rcases List.mem_append.1 hit with hit | hit
              · rw [List.mem_singleton.1 hit]
                exact ⟨[], t, ts, rfl, .longFlag d j hd hn hb⟩
              · exact (ia it hit).cons t
            | false =>
              simp only [hb, Bool.false_eq_true, if_false] at hit
              rcases iv j t it hit with ⟨v, hv, rfl⟩ | h
              · exact ⟨[], t, ts, rfl, .longValue d j v hd hn hb hv⟩
              · exact h.cons t
        · rw [if_neg h2] at hit
          by_cases h3 : dash <+: t ∧ t ≠ dash
          · rw [if_pos h3] at hit
            obtain ⟨c1, c2⟩ := cluster_from (D := D) (t := t) (next := ts) t.tail []
              (by simpa using dash_prefix h3.1)
            revert hit c1 c2
            rcases cluster D t.tail with ⟨is, e⟩
            intro hit c1 c2
            have here : ∀ it ∈ is, Explained D (t :: ts) it :=
              fun it h => ⟨[], t, ts, rfl, c1 it h⟩
            cases e with
            | flags =>
              simp only [prepend] at hit
              rcases List.mem_append.1 hit with hit | hit
              · rcases List.mem_append.1 hit with hit | hit
                · exact here it hit
                · cases q
                  · simp at hit
                  · simp only [if_true, List.mem_singleton] at hit
                    rw [hit]
                    exact ⟨[], t, ts, rfl, .itself⟩
              · exact (ia it hit).cons t
            | attached =>
              simp only [prepend] at hit
              rcases List.mem_append.1 hit with hit | hit
              · exact here it hit
              · exact (ia it hit).cons t
            | wants j =>
              simp only [prepend] at hit
              rcases List.mem_append.1 hit with hit | hit
              · exact here it hit
              · rcases iv j t it hit with ⟨v, hv, rfl⟩ | h
                · exact ⟨[], t, ts, rfl, c2 j v rfl hv⟩
                · exact h.cons t
            | unknown => exact here it hit
          · rw [if_neg h3] at hit
            simp only [prepend] at hit
            rcases List.mem_append.1 hit with hit | hit
            · rw [List.mem_singleton.1 hit]
              exact ⟨[], t, ts, rfl, .itself⟩
            · exact (ia it hit).cons t
    · intro it hit
      simp only [reading, prepend] at hit
      rcases List.mem_append.1 hit with hit | hit
      · rw [List.mem_singleton.1 hit]
        exact ⟨[], t, ts, rfl, .itself⟩
      · exact (ip it hit).cons t
    · intro j t' it hit
      simp only [reading, prepend] at hit
      rcases List.mem_append.1 hit with hit | hit
      · rw [List.mem_singleton.1 hit]
        exact Or.inl ⟨t, rfl, rfl⟩
      · exact Or.inr ((ia it hit).cons t)

/-! ## Error tokens -/

theorem plains_mem {is : List Item} {t : Tok} (h : t ∈ plains is) : .plain t ∈ is := by
  unfold plains at h
  obtain ⟨it, h1, h2⟩ := List.mem_filterMap.1 h
  cases it with
  | opt j v => simp at h2
  | plain u => simp only [Option.some.injEq] at h2; rw [← h2]; exact h1

/-- The token of an error. -/
def errorTok : ReadError → Tok
  | .unknown t => t
  | .noValue t => t

theorem reading_error {q : Bool} {D : List ArgDef} (ts : List Tok) : ∀ (m : Mode) (e : ReadError),
    (reading q D m ts).2 = some e → (∃ t ∈ ts, errorTok e = t ∧ dash <+: t) ∨
      ∃ j t, m = .value j t ∧ errorTok e = t := by
  induction ts with
  | nil =>
    intro m e h
    cases m with
    | value j t =>
      simp only [reading, Option.some.injEq] at h
      subst h
      exact Or.inr ⟨j, t, rfl, rfl⟩
    | any => simp [reading] at h
    | plainOnly => simp [reading] at h
  | cons t ts ih =>
    have dd : dashDash <+: t → dash <+: t := by
      rintro ⟨r, rfl⟩
      exact ⟨45#8 :: r, by simp [dash, dashDash]⟩
    have up : ∀ {e}, (∃ u ∈ ts, errorTok e = u ∧ dash <+: u) →
        ∃ u ∈ t :: ts, errorTok e = u ∧ dash <+: u := by
      rintro e ⟨u, hu, h⟩
      exact ⟨u, List.mem_cons_of_mem _ hu, h⟩
    have noMode : ∀ {e}, (reading q D .any ts).2 = some e →
        ∃ u ∈ t :: ts, errorTok e = u ∧ dash <+: u := by
      intro e h
      rcases ih .any e h with h | ⟨j, t', h, _⟩
      · exact up h
      · simp at h
    have valMode : ∀ {e j}, dash <+: t → (reading q D (.value j t) ts).2 = some e →
        ∃ u ∈ t :: ts, errorTok e = u ∧ dash <+: u := by
      intro e j hd h
      rcases ih (.value j t) e h with h | ⟨j', t', h, h2⟩
      · exact up h
      · simp only [Mode.value.injEq] at h
        exact ⟨t, by simp, by rw [h2, h.2], hd⟩
    intro m e h
    left
    cases m with
    | value j t' => exact noMode h
    | plainOnly => rw [reading_plainOnly] at h; simp at h
    | any =>
      simp only [reading] at h
      by_cases h1 : t = dashDash
      · rw [if_pos h1, reading_plainOnly] at h
        simp at h
      · rw [if_neg h1] at h
        by_cases h2 : dashDash <+: t
        · rw [if_pos h2] at h
          cases hl : lookup D t with
          | none =>
            rw [hl] at h
            simp only [Option.some.injEq] at h
            subst h
            exact ⟨t, by simp, rfl, dd h2⟩
          | some p =>
            obtain ⟨d, j⟩ := p
            rw [hl] at h
            simp only at h
            cases hb : d.boolean with
            | true =>
              simp only [hb, if_true, prepend] at h
              exact noMode h
            | false =>
              simp only [hb, Bool.false_eq_true, if_false] at h
              exact valMode (dd h2) h
        · rw [if_neg h2] at h
          by_cases h3 : dash <+: t ∧ t ≠ dash
          · rw [if_pos h3] at h
            revert h
            rcases cluster D t.tail with ⟨is, e'⟩
            intro h
            cases e' with
            | flags => exact noMode h
            | attached => exact noMode h
            | wants j => exact valMode h3.1 h
            | unknown =>
              simp only [Option.some.injEq] at h
              subst h
              exact ⟨t, by simp, rfl, h3.1⟩
          · rw [if_neg h3] at h
            exact noMode h

/-! ## Rendering -/

theorem reading_render {q : Bool} {D : List ArgDef} {post : List Tok} (os : List Item)
    (h : ∀ it ∈ os, Renderable D it) :
    reading q D .any (os.flatMap (render D) ++ post) = prepend os (reading q D .any post) := by
  induction os with
  | nil => simp [prepend]
  | cons it os ih =>
    have ih := ih fun it hit => h it (List.mem_cons_of_mem _ hit)
    have hr := h it (by simp)
    cases it with
    | plain t => exact hr.elim
    | opt j v =>
      cases v with
      | none =>
        obtain ⟨d, hd, hb, hp, hne, hl⟩ := hr
        simp only [List.flatMap_cons, render, hd, Option.map_some, Option.getD_some,
          List.cons_append, List.nil_append, reading, hne, if_false, hp, if_true, hl, hb, ih]
        simp [prepend]
      | some v =>
        obtain ⟨d, hd, hb, hleg, hne, hl⟩ := hr
        simp only [List.flatMap_cons, render, hd, Option.map_some, Option.getD_some,
          List.cons_append, List.nil_append]
        have key : reading q D .any (d.name :: v :: (os.flatMap (render D) ++ post)) =
            reading q D (.value j d.name) (v :: (os.flatMap (render D) ++ post)) := by
          conv => lhs; unfold reading
          rw [if_neg hne]
          by_cases hp : dashDash <+: d.name
          · rw [if_pos hp, hl]
            simp only [hb, Bool.false_eq_true, if_false]
          · rw [if_neg hp]
            rcases hleg with ⟨hlen, hpre⟩ | hpre
            · obtain ⟨r, hr⟩ := hpre
              obtain ⟨c, hc⟩ : ∃ c, r = [c] := by
                rw [← hr] at hlen
                simp only [dash, List.length_append, List.length_cons, List.length_nil] at hlen
                exact List.length_eq_one_iff.1 (by omega)
              subst hc
              have hcl : cluster D d.name.tail = ([], .wants j) := by
                rw [← hr] at hl
                rw [← hr]
                show cluster D [c] = _
                simp only [cluster, hl, hb, Bool.false_eq_true, if_false, if_true]
              rw [if_pos ⟨⟨[c], hr⟩, by rw [← hr]; simp [dash]⟩, hcl]
              simp [prepend]
            · exact absurd hpre hp
        rw [key]
        simp only [reading, ih]
        simp [prepend]

/-! ## The parser and the grammar -/

theorem argParse_reliable {cfg : ArgConfig} (H : ProperConfig cfg) {a : Nat} {w : World AArg}
    (hw : Fresh w) (hr : Reliable w) (want : Bool) :
    ∃ r, argParseEx w cfg want (some a) = .ret r ∧ Agrees want r (verdict true cfg) ∧ Settled a r := by
  obtain ⟨r, h1, ⟨_, _, ⟨k, hk⟩, _⟩ | ⟨h2, h3, _⟩⟩ := argParse_main H (a := a) hw want
  · rw [hr k] at hk
    exact absurd hk (by simp)
  · exact ⟨r, h1, h2, h3⟩

theorem agrees_failed {want : Bool} {r : ArgResult} {st : Status} {t : Option Tok}
    (h : Agrees want r (.error st t)) : r.status = st ∧ failed st = true := by
  cases t with
  | none => exact ⟨h.1, h.2.1⟩
  | some t => exact ⟨h.1, h.2.1⟩

theorem verdict_ok {q : Bool} {cfg : ArgConfig} {is : List Item} (h : verdict q cfg = .ok is) :
    is = (reading q cfg.args .any cfg.argv.tail).1 ∧
    (reading q cfg.args .any cfg.argv.tail).2 = none ∧
    cfg.minUnnamed ≤ (plains is).length ∧ (plains is).length ≤ cfg.maxUnnamed ∧
    firstMissing cfg.args is = none ∧ cfg.minUnnamed ≤ cfg.maxUnnamed ∧
    ∀ d ∈ cfg.args, legalName d.name := by
  unfold verdict at h
  split at h
  · simp at h
  · rename_i hbad
    split at h
    · simp at h
    · simp at h
    · simp at h
    · rename_i h1 h2
      split at h
      · simp at h
      · rename_i h3
        split at h
        · simp at h
        · rename_i h4
          simp only [Verdict.ok.injEq] at h
          subst h
          refine ⟨rfl, h2, by omega, ?_, h4, ?_, ?_⟩
          · exact List.getElem?_eq_none_iff.1 h1
          · exact Nat.le_of_not_lt fun h => hbad (Or.inl h)
          · intro d hd
            exact Classical.byContradiction fun h => hbad (Or.inr ⟨d, hd, h⟩)

theorem argParse_success {cfg : ArgConfig} (H : ProperConfig cfg) {a : Nat} {w : World AArg}
    (hw : Fresh w) {want : Bool} {r : ArgResult} (h : argParseEx w cfg want (some a) = .ret r)
    (hs : failed r.status = false) :
    ∃ is, verdict true cfg = .ok is ∧ r.status = stSuccess ∧
      output r = .ret (is.map fun it => some (structOf it)) := by
  obtain ⟨r', h1, ⟨h2, _⟩ | ⟨h2, _⟩⟩ := argParse_main H (a := a) hw want
  · rw [h] at h1
    injection h1 with h1
    rw [h1, h2] at hs
    simp at hs
  · rw [h] at h1
    injection h1 with h1
    subst h1
    cases hv : verdict true cfg with
    | ok is =>
      rw [hv] at h2
      exact ⟨is, rfl, h2.1, h2.2.2⟩
    | error st t =>
      rw [hv] at h2
      obtain ⟨h3, h4⟩ := agrees_failed h2
      rw [h3, h4] at hs
      simp at hs

theorem verdict_error {q : Bool} {cfg : ArgConfig} {st : Status} {t : Tok}
    (h : verdict q cfg = .error st (some t)) :
    (st = stTooManyArgs ∧ t ∈ cfg.argv.tail) ∨
    (st = stArgNotUnderstood ∧ t ∈ cfg.argv.tail ∧ dash <+: t) ∨
    (st = stArgMissesValue ∧ t ∈ cfg.argv.tail ∧ dash <+: t) ∨
    (st = stRequiredArgMissing ∧ ∃ d ∈ cfg.args, d.required = true ∧ d.name = t) := by
  have herr : ∀ e, (reading q cfg.args .any cfg.argv.tail).2 = some e →
      errorTok e ∈ cfg.argv.tail ∧ dash <+: errorTok e := by
    intro e he
    rcases reading_error _ _ _ he with ⟨u, hu, h1, h2⟩ | ⟨j, t, h, _⟩
    · rw [h1]; exact ⟨hu, h2⟩
    · simp at h
  unfold verdict at h
  split at h
  · simp at h
  · split at h
    · rename_i t' h1
      simp only [Verdict.error.injEq, Option.some.injEq] at h
      obtain ⟨rfl, rfl⟩ := h
      left
      refine ⟨rfl, ?_⟩
      have hm := plains_mem (List.mem_of_getElem? h1)
      obtain ⟨pre, u, next, hts, hf⟩ := (reading_from _).1 _ hm
      cases hf
      rw [hts]
      simp
    · rename_i h1 h2
      simp only [Verdict.error.injEq, Option.some.injEq] at h
      obtain ⟨rfl, rfl⟩ := h
      exact Or.inr (Or.inl ⟨rfl, herr _ h2⟩)
    · rename_i h1 h2
      simp only [Verdict.error.injEq, Option.some.injEq] at h
      obtain ⟨rfl, rfl⟩ := h
      exact Or.inr (Or.inr (Or.inl ⟨rfl, herr _ h2⟩))
    · split at h
      · simp at h
      · split at h
        · rename_i p hp
          simp only [Verdict.error.injEq, Option.some.injEq] at h
          obtain ⟨rfl, rfl⟩ := h
          refine Or.inr (Or.inr (Or.inr ⟨rfl, p.1, ?_, ?_, rfl⟩))
          · have h2 := List.mem_of_find?_eq_some hp
            obtain ⟨h3, h4⟩ := List.mem_zipIdx' (x := p.1) (i := p.2) h2
            rw [h4]
            exact List.getElem_mem h3
          · have := List.find?_some hp
            simp only [Bool.and_eq_true] at this
            exact this.1
        · simp at h

theorem firstMissing_none {D : List ArgDef} {is : List Item} (h : firstMissing D is = none) {j : Nat}
    {d : ArgDef} (hj : D[j]? = some d) (hr : d.required = true) : ∃ v, .opt j v ∈ is := by
  unfold firstMissing at h
  have h1 := List.find?_eq_none.1 h (d, j) (List.mk_mem_zipIdx_iff_getElem?.2 hj)
  simp only [hr, Bool.true_and, Bool.not_eq_true', Bool.not_eq_false] at h1
  unfold occurs at h1
  obtain ⟨it, hit, h2⟩ := List.any_eq_true.1 h1
  cases it with
  | opt k v =>
    simp only [beq_iff_eq] at h2
    subst h2
    exact ⟨v, hit⟩
  | plain t => simp at h2

theorem firstMissing_eq_none {D : List ArgDef} {is : List Item}
    (h : ∀ (j : Nat) (d : ArgDef), D[j]? = some d → d.required = true → ∃ v, Item.opt j v ∈ is) :
    firstMissing D is = none := by
  unfold firstMissing
  rw [List.find?_eq_none]
  rintro ⟨d, j⟩ hm
  have hj := List.mk_mem_zipIdx_iff_getElem?.1 hm
  simp only [Bool.and_eq_true, Bool.not_eq_true', not_and, Bool.not_eq_false]
  intro hd
  obtain ⟨v, hv⟩ := h j d hj hd
  unfold occurs
  exact List.any_eq_true.2 ⟨_, hv, by simp⟩

theorem plains_map (us : List Tok) : plains (us.map .plain) = us := by
  induction us with
  | nil => rfl
  | cons u us ih => simp only [plains, List.map_cons, List.filterMap_cons] at ih ⊢; rw [ih]

theorem plains_opts {os : List Item} (h : ∀ it ∈ os, ∃ j v, it = .opt j v) : plains os = [] := by
  unfold plains
  rw [List.filterMap_eq_nil_iff]
  intro it hit
  obtain ⟨j, v, rfl⟩ := h it hit
  rfl

theorem plains_flags (js : List Nat) : plains (js.map fun j => Item.opt j none) = [] :=
  plains_opts fun it hit => by
    obtain ⟨j, _, rfl⟩ := List.mem_map.1 hit
    exact ⟨j, none, rfl⟩

theorem plains_length (is : List Item) :
    (plains is).length = ((is.map structOf).filter fun x => x.defn.isNone).length := by
  induction is with
  | nil => rfl
  | cons it is ih =>
    rcases it with ⟨j, _ | v⟩ | t
    · exact ih
    · exact ih
    · simp only [plains, List.filterMap_cons, List.length_cons, List.map_cons, structOf,
        Option.isNone_none, List.filter_cons_of_pos] at ih ⊢
      rw [ih]

theorem verdict_error_none {q : Bool} {cfg : ArgConfig} {st : Status}
    (h : verdict q cfg = .error st none) : st = stInvalidArgument ∨ st = stTooFewArgs := by
  unfold verdict at h
  split at h
  · simp only [Verdict.error.injEq] at h; exact Or.inl h.1.symm
  · split at h
    · simp at h
    · simp at h
    · simp at h
    · split at h
      · simp only [Verdict.error.injEq] at h; exact Or.inr h.1.symm
      · split at h <;> simp at h

theorem reading_flag_cluster {q : Bool} {D : List ArgDef} {t : Tok} {post : List Tok}
    (h : FlagCluster D t) : ∃ js : List Nat, js.length + 1 = t.length ∧
      reading q D .any (t :: post) =
        prepend ((js.map fun j => .opt j none) ++ if q then [.plain t] else []) (reading q D .any post) ∧
      ∀ (i : Nat) j, js[i]? = some j → ∃ c d, t[i + 1]? = some c ∧ D[j]? = some d ∧
        d.name = dash ++ [c] ∧ d.boolean = true := by
  obtain ⟨cs, rfl, h1, h2, h3⟩ := h
  obtain ⟨js, h4, h5, h6⟩ := cluster_all_flags h3
  have hdd : ¬ dashDash <+: dash ++ cs := by
    rintro ⟨r, hr⟩
    apply h2
    simp only [dashDash, dash, List.cons_append, List.nil_append, List.cons.injEq, true_and] at hr
    rw [← hr]
    rfl
  refine ⟨js, by simp [dash, h4], ?_, ?_⟩
  · have e1 : dash ++ cs ≠ dashDash := fun h => hdd (by rw [h]; exact List.prefix_rfl)
    have e2 : dash <+: dash ++ cs ∧ dash ++ cs ≠ dash := ⟨List.prefix_append _ _, by simpa using h1⟩
    have e3 : (dash ++ cs).tail = cs := rfl
    conv => lhs; unfold reading
    rw [if_neg e1, if_neg hdd, if_pos e2, e3, h5]
  · intro i j hj
    obtain ⟨c, d, h7, h8⟩ := h6 i j hj
    obtain ⟨h9, h10⟩ := lookup_get h8
    refine ⟨c, d, by simpa [dash] using h7, h9, h10, ?_⟩
    obtain ⟨d', j', h11, h12⟩ := h3 c (List.mem_of_getElem? h7)
    rw [h8] at h11
    simp only [Option.some.injEq, Prod.mk.injEq] at h11
    rw [h11.1]; exact h12

theorem reading_prefix_ok {q : Bool} {D : List ArgDef} {post : List Tok} (pre : List Tok) :
    ∀ (m : Mode), (∀ j t, modeAfter D m pre ≠ .value j t) → (reading q D m (pre ++ post)).2 = none →
      (reading q D m pre).2 = none := by
  induction pre with
  | nil =>
    intro m hm _
    cases m with
    | any => simp [reading]
    | plainOnly => simp [reading]
    | value j t => exact absurd rfl (hm j t)
  | cons t pre ih =>
    intro m hm h
    cases m with
    | value j u =>
      simp only [List.cons_append, reading, prepend] at h ⊢
      exact ih _ (by simpa only [modeAfter] using hm) h
    | plainOnly =>
      simp only [List.cons_append, reading, prepend] at h ⊢
      exact ih _ (by simpa only [modeAfter] using hm) h
    | any =>
      simp only [List.cons_append] at h
      unfold modeAfter at hm
      unfold reading at h ⊢
      by_cases c1 : t = dashDash
      · rw [if_pos c1] at h hm ⊢
        exact ih _ hm h
      · rw [if_neg c1] at h hm ⊢
        by_cases c2 : dashDash <+: t
        · rw [if_pos c2] at h hm ⊢
          cases hl : lookup D t with
          | none => rw [hl] at h; simp at h
          | some p =>
            obtain ⟨d, j⟩ := p
            rw [hl] at h hm
            simp only at h hm ⊢
            by_cases c3 : d.boolean = true
            · rw [if_pos c3] at h hm ⊢
              exact ih _ hm h
            · rw [if_neg c3] at h hm ⊢
              exact ih _ hm h
        · rw [if_neg c2] at h hm ⊢
          by_cases c3 : dash <+: t ∧ t ≠ dash
          · rw [if_pos c3] at h hm ⊢
            rcases hcl : cluster D t.tail with ⟨is, e⟩
            rw [hcl] at h hm
            cases e with
            | flags => exact ih _ hm h
            | attached => exact ih _ hm h
            | wants j => exact ih _ hm h
            | unknown => simp at h
          · rw [if_neg c3] at h hm ⊢
            exact ih _ hm h

theorem flag_cluster_output {cfg : ArgConfig} (H : ProperConfig cfg) {a : Nat} {w : World AArg}
    (hw : Fresh w) {want : Bool} {r : ArgResult} (h : argParseEx w cfg want (some a) = .ret r)
    (hs : failed r.status = false) {pre post : List Tok} {t : Tok}
    (hsplit : cfg.argv.tail = pre ++ t :: post) (hmode : modeAfter cfg.args .any pre = .any)
    (ht : FlagCluster cfg.args t) :
    ∃ (before : List AArg) (js : List Nat) (after : List AArg), output r = .ret ((before ++ (js.map fun j => (⟨some j, false, none⟩ : AArg)) ++
        [structOf (.plain t)] ++ after).map some) ∧ js.length + 1 = t.length ∧
      ∀ (i : Nat) j, js[i]? = some j → ∃ c d, t[i + 1]? = some c ∧ cfg.args[j]? = some d ∧
        d.name = dash ++ [c] ∧ d.boolean = true := by
  obtain ⟨is, hv, _, ho⟩ := argParse_success H hw h hs
  obtain ⟨h1, h2, _⟩ := verdict_ok hv
  obtain ⟨js, h3, h4, h5⟩ := reading_flag_cluster (q := true) (post := post) ht
  have hm : ∀ j t, modeAfter cfg.args .any pre ≠ .value j t := by rw [hmode]; simp
  have hpre := reading_prefix_ok pre .any hm (by rw [← hsplit]; exact h2)
  have hrd := reading_append (post := t :: post) pre .any hm hpre
  rw [hmode, h4, ← hsplit, prepend_prepend] at hrd
  refine ⟨(reading true cfg.args .any pre).1.map structOf, js,
    (reading true cfg.args .any post).1.map structOf, ?_, h3, h5⟩
  rw [ho, h1, hrd]
  simp [prepend, structOf, Function.comp_def]

end Zy
