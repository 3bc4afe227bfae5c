import Verif.Spec.ArgNormal
import Verif.Lemmas.ArgDefs
import Verif.Lemmas.ArgConcat

/-!
# Lemmas about normal forms of command lines
-/

namespace Zy

open Spec

/-- An option item that fits to its definition. -/
def Fitting (D : List ArgDef) : Item → Prop
  | .opt j v => ∃ d, D[j]? = some d ∧ d.boolean = v.isNone ∧ legalName d.name ∧ d.name ≠ dashDash ∧
      lookup D d.name = some (d, j)
  | .plain _ => False

/-- What the parser makes of a rendered option: a short flag is an unnamed argument as well. -/
def readBack (D : List ArgDef) (it : Item) : List Item :=
  match it with
  | .opt j none =>
    match D[j]? with
    | some d => if dashDash <+: d.name then [it] else [it, .plain d.name]
    | none => [it]
  | _ => [it]

theorem reading_one {D : List ArgDef} {post : List Tok} {it : Item} (h : Fitting D it) :
    reading true D .any (render D it ++ post) = prepend (readBack D it) (reading true D .any post) := by
  cases it with
  | plain t => exact h.elim
  | opt j v =>
    obtain ⟨d, hd, hb, hleg, hne, hl⟩ := h
    have key : Renderable D (.opt j v) → reading true D .any (render D (.opt j v) ++ post) =
        prepend [.opt j v] (reading true D .any post) := by
      intro hr
      have := reading_render (q := true) (D := D) (post := post) [.opt j v] (by simpa using hr)
      simpa using this
    cases v with
    | some v =>
      exact key ⟨d, hd, by simpa using hb, hleg, hne, hl⟩
    | none =>
      have hb' : d.boolean = true := by simpa using hb
      by_cases hp : dashDash <+: d.name
      · rw [key ⟨d, hd, hb', hp, hne, hl⟩]
        simp only [readBack, hd, hp, if_true]
      · have hs : d.name.length = 2 ∧ dash <+: d.name := by
          rcases hleg with h | h
          · exact h
          · exact absurd h hp
        obtain ⟨hlen, r, hr⟩ := hs
        obtain ⟨c, rfl⟩ : ∃ c, r = [c] := by
          rw [← hr] at hlen
          simp only [dash, List.length_append, List.length_cons, List.length_nil] at hlen
          exact List.length_eq_one_iff.1 (by omega)
        have hdd : d.name ≠ dash := fun e => by
          rw [e] at hlen
          simp [dash] at hlen
        have hcl : cluster D d.name.tail = ([.opt j none], .flags) := by
          rw [← hr] at hl ⊢
          show cluster D [c] = _
          simp only [cluster, hl, hb', if_true]
        simp only [readBack, hd, hp, if_false]
        simp only [render, hd, Option.map_some, Option.getD_some, List.cons_append, List.nil_append]
        conv => lhs; unfold reading
        rw [if_neg hne, if_neg hp, if_pos ⟨⟨_, hr⟩, hdd⟩, hcl]
        rfl

theorem reading_fitting {D : List ArgDef} {post : List Tok} (os : List Item) (h : ∀ it ∈ os, Fitting D it) :
    reading true D .any (os.flatMap (render D) ++ post) =
      prepend (os.flatMap (readBack D)) (reading true D .any post) := by
  induction os with
  | nil => simp [prepend]
  | cons it os ih =>
    rw [List.flatMap_cons, List.append_assoc, reading_one (h it (by simp)),
      ih fun x hx => h x (List.mem_cons_of_mem _ hx), prepend_prepend, List.flatMap_cons]

/-- The options of a reading fit to their definitions. -/
theorem reading_options {D : List ArgDef} {ts : List Tok} (hleg : ∀ d ∈ D, legalName d.name)
    (hne : ∀ d ∈ D, d.name ≠ dashDash) : ∀ it ∈ options (reading true D .any ts).1, Fitting D it := by
  intro it hit
  unfold options at hit
  obtain ⟨hm, ho⟩ := List.mem_filter.1 hit
  cases it with
  | plain t => simp [isOption] at ho
  | opt j v =>
    obtain ⟨d, hl⟩ : ∃ d, lookup D d.name = some (d, j) := by
      rcases reading_first ts .any hm with h | ⟨t, h⟩
      · exact h
      · exact absurd h (by simp)
    have hd := (lookup_get hl).1
    obtain ⟨pre, t, next, -, hf⟩ := (reading_from ts).1 _ hm
    have hb : d.boolean = v.isNone := by
      cases hf with
      | longFlag d' _ hd' _ hb => rw [hd] at hd'; cases hd'; simpa using hb
      | longValue d' _ _ hd' _ hb => rw [hd] at hd'; cases hd'; simpa using hb
      | shortFlag d' _ _ _ _ hd' _ _ hb => rw [hd] at hd'; cases hd'; simpa using hb
      | shortRest d' _ _ _ _ hd' _ _ hb => rw [hd] at hd'; cases hd'; simpa using hb
      | shortNext d' _ _ _ _ hd' _ _ hb => rw [hd] at hd'; cases hd'; simpa using hb
    have hmem := List.mem_of_getElem? hd
    exact ⟨d, hd, hb, hleg d hmem, hne d hmem, hl⟩

theorem plains_options (is : List Item) : plains (options is) = [] :=
  plains_opts fun it hit => by
    obtain ⟨_, ho⟩ := List.mem_filter.1 hit
    cases it with
    | plain t => simp [isOption] at ho
    | opt j v => exact ⟨j, v, rfl⟩

theorem plains_sorted (is : List Item) : plains (sortedItems is) = plains is := by
  unfold sortedItems
  rw [plains_append, plains_options, plains_map, List.nil_append]

theorem options_sorted (is : List Item) : options (sortedItems is) = options is := by
  unfold sortedItems options
  rw [List.filter_append, List.filter_filter]
  have h : List.filter isOption ((plains is).map Item.plain) = [] := by
    rw [List.filter_eq_nil_iff]
    intro it hit
    obtain ⟨t, _, rfl⟩ := List.mem_map.1 hit
    simp [isOption]
  rw [h, List.append_nil]
  simp only [Bool.and_self]

theorem reading_normal {D : List ArgDef} {is : List Item} (h : ∀ it ∈ options is, Fitting D it) :
    reading true D .any (normalForm D is) =
      ((options is).flatMap (readBack D) ++ (plains is).map .plain, none) := by
  unfold normalForm
  rw [reading_fitting _ h]
  simp [reading, reading_plainOnly, prepend]

theorem mem_options {is : List Item} {j : Nat} {v : Option Tok} : .opt j v ∈ options is ↔ .opt j v ∈ is := by
  unfold options
  rw [List.mem_filter]
  simp [isOption]

theorem readBack_long {D : List ArgDef} {is : List Item} (h : LongFlags D is) :
    (options is).flatMap (readBack D) = options is := by
  have h1 : ∀ os : List Item, (∀ it ∈ os, readBack D it = [it]) → os.flatMap (readBack D) = os := by
    intro os ho
    induction os with
    | nil => rfl
    | cons it os ih =>
      rw [List.flatMap_cons, ho it (by simp), ih fun x hx => ho x (List.mem_cons_of_mem _ hx)]
      rfl
  refine h1 _ fun it hit => ?_
  cases it with
  | plain t => rfl
  | opt j v =>
    cases v with
    | some v => rfl
    | none =>
      cases hd : D[j]? with
      | none => simp only [readBack, hd]
      | some d => simp only [readBack, hd, h j d (mem_options.1 hit) hd, if_true]

theorem readBack_pos (D : List ArgDef) (it : Item) : 1 ≤ (readBack D it).length := by
  unfold readBack
  split
  · split
    · split <;> simp
    · simp
  · simp

theorem readBack_len {D : List ArgDef} : ∀ (os : List Item), os.length ≤ (os.flatMap (readBack D)).length
  | [] => by simp
  | it :: os => by
    have h1 := readBack_len (D := D) os
    have h2 := readBack_pos D it
    simp only [List.flatMap_cons, List.length_append, List.length_cons]
    omega

theorem readBack_short {D : List ArgDef} {j : Nat} {d : ArgDef} (hd : D[j]? = some d) (hp : ¬ dashDash <+: d.name) :
    ∀ {os : List Item}, .opt j none ∈ os → os.length < (os.flatMap (readBack D)).length
  | [], h => by simp at h
  | it :: os, h => by
    simp only [List.flatMap_cons, List.length_append, List.length_cons]
    rcases List.mem_cons.1 h with rfl | h
    · have h1 := readBack_len (D := D) os
      have h2 : (readBack D (.opt j none)).length = 2 := by simp only [readBack, hd, hp, if_false]; rfl
      omega
    · have h1 := readBack_short hd hp h
      have h2 := readBack_pos D it
      omega

theorem items_length (is : List Item) : is.length = (options is).length + (plains is).length := by
  induction is with
  | nil => rfl
  | cons it is ih =>
    cases it with
    | opt j v =>
      have h1 : options (.opt j v :: is) = .opt j v :: options is := rfl
      have h2 : plains (.opt j v :: is) = plains is := rfl
      rw [h1, h2, List.length_cons, List.length_cons]
      omega
    | plain t =>
      have h1 : options (.plain t :: is) = options is := rfl
      have h2 : plains (.plain t :: is) = t :: plains is := rfl
      rw [h1, h2, List.length_cons, List.length_cons]
      omega

/-- Beyond the options themselves, what is read back from rendered options are unnamed arguments. -/
theorem readBack_plains (D : List ArgDef) : ∀ (os : List Item), plains os = [] →
    (plains (os.flatMap (readBack D))).length + os.length = (os.flatMap (readBack D)).length
  | [], _ => rfl
  | .plain t :: os, h => by
    have h2 : plains (.plain t :: os) = t :: plains os := rfl
    rw [h2] at h
    simp at h
  | .opt j v :: os, h => by
    have ih := readBack_plains D os h
    have h1 : (plains (readBack D (.opt j v))).length + 1 = (readBack D (.opt j v)).length := by
      unfold readBack
      split
      · split
        · split <;> rfl
        · rfl
      · rfl
    rw [List.flatMap_cons, plains_append, List.length_append, List.length_append, List.length_cons]
    omega

theorem strMem_inj {s t : Tok} (h : strMem s = strMem t) : s = t := by
  unfold strMem at h
  have := List.append_cancel_right h
  exact List.map_inj_right (fun _ _ e => Option.some.inj e) |>.1 this

/-- The elements of the output determine the items. -/
theorem structOf_inj {x y : Item} (h : structOf x = structOf y) : x = y := by
  match x, y, h with
  | .opt j none, .opt k none, h => simp only [structOf, AArg.mk.injEq, Option.some.injEq] at h; rw [h.1]
  | .opt j none, .opt k (some v), h => simp [structOf] at h
  | .opt j none, .plain t, h => simp [structOf] at h
  | .opt j (some v), .opt k none, h => simp [structOf] at h
  | .opt j (some v), .opt k (some u), h =>
    simp only [structOf, AArg.mk.injEq, Option.some.injEq, View.mk.injEq, true_and] at h
    rw [h.1, strMem_inj h.2.1]
  | .opt j (some v), .plain t, h => simp [structOf] at h
  | .plain s, .opt k none, h => simp [structOf] at h
  | .plain s, .opt k (some u), h => simp [structOf] at h
  | .plain s, .plain t, h =>
    simp only [structOf, AArg.mk.injEq, Option.some.injEq, View.mk.injEq, true_and] at h
    rw [strMem_inj h.1]

theorem output_items {r : ArgResult} {is js : List Item}
    (h1 : output r = .ret (is.map fun it => some (structOf it)))
    (h2 : output r = .ret (js.map fun it => some (structOf it))) : is = js := by
  rw [h1] at h2
  injection h2 with h2
  exact List.map_inj_right (fun _ _ e => structOf_inj (Option.some.inj e)) |>.1 h2

end Zy
