import Verif.Lemmas.Scalar
import Verif.Models.Choice

/-!
# C04 (String), C05 (StringChoice)
-/

namespace Verif
open Spec

theorem dropWhile_append {α : Type} (p : α → Bool) (a t : List α) (ha : ∀ c ∈ a, p c = true)
    (ht : ∀ c, t.head? = some c → p c = false) : (a ++ t).dropWhile p = t := by
  induction a with
  | nil =>
    cases t with
    | nil => rfl
    | cons c t => simp [ht c rfl]
  | cons c a ih =>
    simp only [List.cons_append, List.dropWhile, ha c (List.mem_cons_self ..)]
    exact ih fun c hc => ha c (List.mem_cons_of_mem _ hc)

theorem dropWhile_split {α : Type} (p : α → Bool) (s : List α) :
    ∃ a, s = a ++ s.dropWhile p ∧ (∀ c ∈ a, p c = true) ∧
      ∀ c, (s.dropWhile p).head? = some c → p c = false := by
  induction s with
  | nil => exact ⟨[], rfl, by simp, by simp⟩
  | cons c s ih =>
    obtain ⟨a, h1, h2, h3⟩ := ih
    by_cases hc : p c = true
    · refine ⟨c :: a, ?_, ?_, ?_⟩
      · simp only [List.dropWhile, hc, List.cons_append]; rw [← h1]
      · intro d hd
        rcases List.mem_cons.1 hd with rfl | hd
        · exact hc
        · exact h2 d hd
      · simpa only [List.dropWhile, hc] using h3
    · have hc' : p c = false := by simpa using hc
      refine ⟨[], ?_, by simp, ?_⟩
      · simp [List.dropWhile, hc']
      · intro d hd
        simp only [List.dropWhile, hc', List.head?_cons, Option.some.injEq] at hd
        exact hd ▸ hc'

/-- `strip` computes the stripped string, and there is only one. -/
theorem strip_spec (cs s t : PyStr) : IsStripped cs s t ↔ t = strip cs s := by
  have key : ∀ s, IsStripped cs s (strip cs s) := by
    intro s
    obtain ⟨a, h1, h2, h3⟩ := dropWhile_split (fun c => cs.contains c) s
    obtain ⟨b, k1, k2, k3⟩ := dropWhile_split (fun c => cs.contains c) (lstrip cs s).reverse
    have e : lstrip cs s = strip cs s ++ b.reverse := by
      have := congrArg List.reverse k1
      rw [List.reverse_reverse, List.reverse_append] at this
      exact this
    refine ⟨a, b.reverse, ?_, ?_, ?_, ?_, ?_⟩
    · rw [List.append_assoc, ← e]; exact h1
    · intro c hc; simpa using h2 c hc
    · intro c hc; simpa using k2 c (by simpa using hc)
    · intro c hc hmem
      have : (lstrip cs s).head? = some c := by
        rw [e]; cases hs : strip cs s with
        | nil => rw [hs] at hc; cases hc
        | cons d l => rw [hs] at hc; exact hc
      have := h3 c this
      simp [hmem] at this
    · intro c hc hmem
      have : (lstrip cs (lstrip cs s).reverse).head? = some c := by
        have : (strip cs s).getLast? = _ := hc
        unfold strip rstrip at this
        rwa [List.getLast?_reverse] at this
      have := k3 c this
      simp [hmem] at this
  constructor
  · rintro ⟨a, b, hs, ha, hb, hh, hl⟩
    have ha' : ∀ c ∈ a, (fun c => cs.contains c) c = true := fun c hc => by simpa using ha c hc
    have hb' : ∀ c ∈ b.reverse, (fun c => cs.contains c) c = true := fun c hc => by
      simpa using hb c (by simpa using hc)
    cases t with
    | nil =>
      have : lstrip cs s = [] := by
        unfold lstrip
        have := dropWhile_append (fun c => cs.contains c) (a ++ b) [] (by
          intro c hc
          rcases List.mem_append.1 hc with h | h
          · exact ha' c h
          · exact hb' c (by simpa using h)) (by simp)
        rw [hs]; simpa using this
      unfold strip rstrip
      rw [this]; rfl
    | cons d t =>
      have e1 : lstrip cs s = (d :: t) ++ b := by
        unfold lstrip
        rw [hs, List.append_assoc]
        refine dropWhile_append _ _ _ ha' fun c hc => ?_
        have : d = c := by simpa using hc
        subst this
        simpa using hh d rfl
      unfold strip rstrip
      rw [e1]
      have e2 : lstrip cs ((d :: t) ++ b).reverse = (d :: t).reverse := by
        unfold lstrip
        rw [List.reverse_append]
        refine dropWhile_append _ _ _ hb' fun c hc => ?_
        rw [List.head?_reverse] at hc
        simpa using hl c hc
      rw [e2, List.reverse_reverse]
  · rintro rfl; exact key s

/-- What `change_case` asks for. -/
def caseOf (E : Env) : CaseMode → PyStr → PyStr
  | .keep, t => t
  | .upper, t => E.upper t
  | .lower, t => E.lower t

/-- C04: exactly the strings found by the regex are accepted, and the result is
the stripped string with its case changed. -/
theorem C04_string_accepts (E : Env) (n : Nat) (cs : PyStr) (mode : CaseMode)
    (regex : Option Nat) (inst : Option Nat) (v x : Val) (w : World) :
    validated E n (.string cs mode regex) inst v w = .ok x ↔
      ∃ s t, v = .str s ∧ (∀ r, regex = some r → E.search r s = true) ∧ IsStripped cs s t ∧
        x = .str (caseOf E mode t) := by
  rw [show validated E n (.string cs mode regex) inst v w
    = (liftScalar E (run E n) (s% "p") inst (stringValidate E cs mode regex v) w).1 from rfl,
    liftScalar_ok]
  have hcase : ∀ t, changeCase E mode t = caseOf E mode t := by intro t; cases mode <;> rfl
  unfold stringValidate
  split
  · rename_i s
    have hre : regexOk E regex s = true ↔ ∀ r, regex = some r → E.search r s = true := by
      cases regex <;> simp [regexOk]
    split
    · rename_i hm
      constructor
      · intro h; cases h
        exact ⟨s, strip cs s, rfl, hre.1 hm, (strip_spec cs s _).2 rfl, by rw [hcase]⟩
      · rintro ⟨s', t, hv, _, ht, rfl⟩
        cases hv
        rw [(strip_spec cs s t).1 ht, hcase]
    · rename_i hm
      constructor
      · intro h; cases h
      · rintro ⟨s', t, hv, hr, _, _⟩
        cases hv
        exact absurd (hre.2 hr) hm
  · rename_i hv
    constructor
    · intro h; cases h
    · rintro ⟨s, t, rfl, _⟩
      exact absurd rfl (hv s)

/-- C04: with unchanged case the result neither starts nor ends with a strip
character. -/
theorem C04_no_strip_char_at_ends (E : Env) (n : Nat) (cs : PyStr) (regex : Option Nat)
    (inst : Option Nat) (v : Val) (t : PyStr) (w : World)
    (h : validated E n (.string cs .keep regex) inst v w = .ok (.str t)) :
    (∀ c, t.head? = some c → c ∉ cs) ∧ (∀ c, t.getLast? = some c → c ∉ cs) := by
  obtain ⟨s, t', _, _, ⟨_, _, _, _, _, h1, h2⟩, hx⟩ := (C04_string_accepts ..).1 h
  cases hx
  exact ⟨h1, h2⟩

/-- Non-vacuity: `"  a b "` stripped of blanks. -/
example : IsStripped [' '] (s% "  a b ") (s% "a b") :=
  ⟨s% "  ", s% " ", rfl, by simp, by simp, by simp, by simp⟩

/-! ## C05 -/

/-- Two strings are the same choice: equal, or equal in upper case unless
`case_sensitive`. -/
def SameChoice (E : Env) (caseSensitive : Bool) (a b : PyStr) : Prop :=
  if caseSensitive then a = b else E.upper a = E.upper b

theorem choiceKey_eq (E : Env) (cs : Bool) (a b : PyStr) :
    choiceKey E cs a = choiceKey E cs b ↔ SameChoice E cs a b := by
  unfold choiceKey SameChoice; cases cs <;> simp

theorem choiceFind_none (E : Env) (cs : Bool) (s : PyStr) (kvs : List (PyStr × List PyStr)) :
    choiceFind E cs s kvs = none ↔
      ∀ kv ∈ kvs, ¬ (SameChoice E cs s kv.1 ∨ ∃ a ∈ kv.2, SameChoice E cs s a) := by
  induction kvs with
  | nil => simp [choiceFind]
  | cons kv kvs ih =>
    obtain ⟨k, vals⟩ := kv
    unfold choiceFind
    have : (choiceKey E cs s = choiceKey E cs k ∨ choiceKey E cs s ∈ vals.map (choiceKey E cs)) ↔
        (SameChoice E cs s k ∨ ∃ a ∈ vals, SameChoice E cs s a) := by
      rw [choiceKey_eq]
      simp only [List.mem_map]
      constructor
      · rintro (h | ⟨a, ha, he⟩)
        · exact .inl h
        · exact .inr ⟨a, ha, (choiceKey_eq ..).1 he.symm⟩
      · rintro (h | ⟨a, ha, he⟩)
        · exact .inl h
        · exact .inr ⟨a, ha, ((choiceKey_eq ..).2 he).symm⟩
    split
    · rename_i h
      simp only [reduceCtorEq, List.forall_mem_cons, this.1 h, not_true_eq_false, false_and]
    · rename_i h
      rw [this] at h
      simp only [ih, List.forall_mem_cons, h, not_false_eq_true, true_and]

theorem choiceFind_some (E : Env) (cs : Bool) (s k : PyStr) (kvs : List (PyStr × List PyStr))
    (h : choiceFind E cs s kvs = some k) :
    ∃ vals, (k, vals) ∈ kvs ∧ (SameChoice E cs s k ∨ ∃ a ∈ vals, SameChoice E cs s a) := by
  induction kvs with
  | nil => simp [choiceFind] at h
  | cons kv kvs ih =>
    obtain ⟨k', vals⟩ := kv
    unfold choiceFind at h
    split at h
    · rename_i hc
      cases h
      refine ⟨vals, List.mem_cons_self .., ?_⟩
      rcases hc with h | h
      · exact .inl ((choiceKey_eq ..).1 h)
      · obtain ⟨a, ha, he⟩ := List.mem_map.1 h
        exact .inr ⟨a, ha, (choiceKey_eq ..).1 he.symm⟩
    · obtain ⟨vals', h1, h2⟩ := ih h
      exact ⟨vals', List.mem_cons_of_mem _ h1, h2⟩

/-- In a declared table, an item and its aliases are the same choice as no
other item or alias. -/
theorem declared_unique (E : Env) (cs : Bool) (d : ChoiceDecl) (kvs : List (PyStr × List PyStr))
    (hd : declareChoices E cs d = some kvs) (s : PyStr) (x y : PyStr × List PyStr)
    (hx : x ∈ kvs) (hy : y ∈ kvs)
    (mx : SameChoice E cs s x.1 ∨ ∃ a ∈ x.2, SameChoice E cs s a)
    (my : SameChoice E cs s y.1 ∨ ∃ a ∈ y.2, SameChoice E cs s a) : x = y := by
  have hn : ((kvs.flatMap (fun kv => kv.1 :: kv.2)).map (choiceKey E cs)).Nodup := by
    unfold declareChoices at hd
    revert hd
    generalize declaredItems d = o
    intro hd
    cases o with
    | none => cases hd
    | some kvs' =>
      cases cs with
      | true =>
        by_cases h : (kvs'.flatMap (fun kv => kv.1 :: kv.2)).Nodup
        · simp only [h, if_true, Option.some.injEq] at hd
          subst hd
          have e : choiceKey E true = id := by funext s; simp [choiceKey]
          rw [e, List.map_id]; exact h
        · simp [h] at hd
      | false =>
        by_cases h : ((kvs'.flatMap (fun kv => kv.1 :: kv.2)).map E.upper).Nodup
        · simp only [h, if_true, Bool.false_eq_true, if_false, Option.some.injEq] at hd
          subst hd
          have e : choiceKey E false = E.upper := by funext s; simp [choiceKey]
          rw [e]; exact h
        · simp [h] at hd
  clear hd
  have mem : ∀ z : PyStr × List PyStr,
      (SameChoice E cs s z.1 ∨ ∃ a ∈ z.2, SameChoice E cs s a) →
      choiceKey E cs s ∈ (z.1 :: z.2).map (choiceKey E cs) := by
    rintro z (h | ⟨a, ha, h⟩)
    · exact List.mem_map.2 ⟨z.1, List.mem_cons_self .., ((choiceKey_eq ..).2 h).symm⟩
    · exact List.mem_map.2 ⟨a, List.mem_cons_of_mem _ ha, ((choiceKey_eq ..).2 h).symm⟩
  induction kvs with
  | nil => cases hx
  | cons kv kvs ih =>
    rw [List.flatMap_cons, List.map_append, List.nodup_append] at hn
    obtain ⟨_, h2, h3⟩ := hn
    have later : ∀ z ∈ kvs, (SameChoice E cs s z.1 ∨ ∃ a ∈ z.2, SameChoice E cs s a) →
        choiceKey E cs s ∈ (kvs.flatMap (fun kv => kv.1 :: kv.2)).map (choiceKey E cs) := by
      intro z hz hm
      obtain ⟨a, ha, he⟩ := List.mem_map.1 (mem z hm)
      exact List.mem_map.2 ⟨a, List.mem_flatMap.2 ⟨z, hz, ha⟩, he⟩
    rcases List.mem_cons.1 hx with hx' | hx' <;> rcases List.mem_cons.1 hy with hy' | hy'
    · rw [hx', hy']
    · subst hx'; exact absurd rfl (h3 _ (mem _ mx) _ (later y hy' my))
    · subst hy'; exact absurd rfl (h3 _ (mem _ my) _ (later x hx' mx))
    · exact ih hx' hy' h2

theorem validated_choice (E : Env) (n : Nat) (kvs : List (PyStr × List PyStr)) (cs : Bool)
    (inst : Option Nat) (v x : Val) (w : World) :
    validated E n (.choice kvs cs) inst v w = .ok x ↔
      ∃ s k, v = .str s ∧ x = .str k ∧ choiceFind E cs s kvs = some k := by
  rw [show validated E n (.choice kvs cs) inst v w
    = (liftScalar E (run E n) (s% "p") inst (choiceValidate E kvs cs v) w).1 from rfl, liftScalar_ok]
  unfold choiceValidate
  split
  · rename_i s
    cases hf : choiceFind E cs s kvs with
    | none =>
      simp only
      constructor
      · intro h; cases h
      · rintro ⟨s', k, hv, _, h⟩; cases hv; rw [hf] at h; cases h
    | some k =>
      simp only
      constructor
      · intro h; cases h; exact ⟨s, k, rfl, rfl, hf⟩
      · rintro ⟨s', k', hv, rfl, h⟩; cases hv; rw [hf] at h; cases h; rfl
  · rename_i hv
    constructor
    · intro h; cases h
    · rintro ⟨s, _, rfl, _⟩; exact absurd rfl (hv s)

/-- C05: with choices the declaration accepts, an input is accepted with result
`x` iff it is text that is the same choice as a declared choice or one of its
aliases, and `x` is that choice. -/
theorem C05_choice_accepts (E : Env) (n : Nat) (cs : Bool) (d : ChoiceDecl)
    (kvs : List (PyStr × List PyStr)) (hd : declareChoices E cs d = some kvs)
    (inst : Option Nat) (v x : Val) (w : World) :
    validated E n (.choice kvs cs) inst v w = .ok x ↔
      ∃ s k als, v = .str s ∧ x = .str k ∧ (k, als) ∈ kvs ∧
        (SameChoice E cs s k ∨ ∃ a ∈ als, SameChoice E cs s a) := by
  rw [validated_choice]
  constructor
  · rintro ⟨s, k, hv, hx, hf⟩
    obtain ⟨als, h1, h2⟩ := choiceFind_some E cs s k kvs hf
    exact ⟨s, k, als, hv, hx, h1, h2⟩
  · rintro ⟨s, k, als, hv, hx, hm, hs⟩
    refine ⟨s, k, hv, hx, ?_⟩
    cases hf : choiceFind E cs s kvs with
    | none => exact absurd hs ((choiceFind_none E cs s kvs).1 hf _ hm)
    | some k' =>
      obtain ⟨als', h1, h2⟩ := choiceFind_some E cs s k' kvs hf
      have := declared_unique E cs d kvs hd s (k, als) (k', als') hm h1 hs h2
      cases this; rfl

/-- C05: at most one choice matches, so the order of the choices does not
matter. -/
theorem C05_order_irrelevant (E : Env) (n : Nat) (cs : Bool) (d d' : ChoiceDecl)
    (kvs kvs' : List (PyStr × List PyStr)) (hd : declareChoices E cs d = some kvs)
    (hd' : declareChoices E cs d' = some kvs') (hp : kvs.Perm kvs')
    (inst : Option Nat) (v x : Val) (w : World) :
    validated E n (.choice kvs cs) inst v w = .ok x ↔
    validated E n (.choice kvs' cs) inst v w = .ok x := by
  rw [C05_choice_accepts E n cs d kvs hd, C05_choice_accepts E n cs d' kvs' hd']
  constructor <;> rintro ⟨s, k, als, hv, hx, hm, hs⟩
  · exact ⟨s, k, als, hv, hx, hp.mem_iff.1 hm, hs⟩
  · exact ⟨s, k, als, hv, hx, hp.mem_iff.2 hm, hs⟩

/-- C05: validating a choice, or the result of a validation, returns it. -/
theorem C05_choice_fixed (E : Env) (n : Nat) (cs : Bool) (d : ChoiceDecl)
    (kvs : List (PyStr × List PyStr)) (hd : declareChoices E cs d = some kvs)
    (inst : Option Nat) (k : PyStr) (hk : k ∈ kvs.map (·.1)) (w : World) :
    validated E n (.choice kvs cs) inst (.str k) w = .ok (.str k) := by
  obtain ⟨⟨k', als⟩, hm, rfl⟩ := List.mem_map.1 hk
  refine (C05_choice_accepts E n cs d kvs hd inst _ _ w).2 ⟨k', k', als, rfl, rfl, hm, .inl ?_⟩
  unfold SameChoice; split <;> rfl

theorem nodup_choices (E : Env) (cs : Bool) (l : List PyStr) :
    (if cs then l.Nodup else (l.map E.upper).Nodup) ↔ l.Pairwise (fun a b => ¬ SameChoice E cs a b) := by
  cases cs with
  | true => simp [SameChoice, List.Nodup]
  | false => simp [SameChoice, List.Nodup, List.pairwise_map]

/-- C05: a collection of names is accepted exactly if no two of them are the same choice; the
choices are the names, without aliases. -/
theorem C05_declares_names (E : Env) (cs : Bool) (xs : List PyStr) (kvs : List (PyStr × List PyStr)) :
    declareChoices E cs (.names xs) = some kvs ↔
      xs.Pairwise (fun a b => ¬ SameChoice E cs a b) ∧ kvs = xs.map (fun x => (x, [])) := by
  have hf : ∀ xs : List PyStr, (xs.map (fun x => (x, ([] : List PyStr)))).flatMap (fun kv => kv.1 :: kv.2) = xs := by
    intro xs
    induction xs with
    | nil => rfl
    | cons x xs ih => simp [ih]
  have h1 : ¬ xs.Nodup → ¬ xs.Pairwise (fun a b => ¬ SameChoice E cs a b) := by
    intro h hp
    refine h (hp.imp ?_)
    rintro a b hab rfl
    exact hab (by unfold SameChoice; split <;> rfl)
  unfold declareChoices declaredItems
  by_cases hn : xs.Nodup
  · simp only [hn, if_true, hf]
    rw [← nodup_choices]
    cases cs with
    | true => simp [hn, eq_comm]
    | false =>
      by_cases hu : (xs.map E.upper).Nodup
      · simp [hu, eq_comm]
      · simp [hu]
  · simp only [hn, if_false]
    exact ⟨fun h => (by cases h), fun h => absurd h.1 (h1 hn)⟩

/-- C05: a table is accepted exactly if no two of its choices and aliases are the same choice,
and is used as it is. -/
theorem C05_declares_table (E : Env) (cs : Bool) (t kvs : List (PyStr × List PyStr)) :
    declareChoices E cs (.table t) = some kvs ↔
      (t.flatMap (fun kv => kv.1 :: kv.2)).Pairwise (fun a b => ¬ SameChoice E cs a b) ∧ kvs = t := by
  unfold declareChoices declaredItems
  rw [← nodup_choices]
  cases cs with
  | true =>
    by_cases hu : (t.flatMap (fun kv => kv.1 :: kv.2)).Nodup
    · simp [hu, eq_comm]
    · simp [hu]
  | false =>
    by_cases hu : ((t.flatMap (fun kv => kv.1 :: kv.2)).map E.upper).Nodup
    · simp only [hu]; simp [eq_comm]
    · simp only [hu]; simp

/-- C05: a property declared with names accepts the text that is the same choice as one of the
names, and stores the name. -/
theorem C05_names_accept (E : Env) (n : Nat) (cs : Bool) (xs : List PyStr) (kvs : List (PyStr × List PyStr))
    (hd : declareChoices E cs (.names xs) = some kvs) (inst : Option Nat) (v x : Val) (w : World) :
    validated E n (.choice kvs cs) inst v w = .ok x ↔
      ∃ s k, v = .str s ∧ x = .str k ∧ k ∈ xs ∧ SameChoice E cs s k := by
  rw [C05_choice_accepts E n cs _ kvs hd]
  obtain ⟨_, rfl⟩ := (C05_declares_names E cs xs kvs).1 hd
  constructor
  · rintro ⟨s, k, als, h1, h2, hm, hs⟩
    obtain ⟨k', hk, e⟩ := List.mem_map.1 hm
    cases e
    rcases hs with hs | ⟨a, ha, _⟩
    · exact ⟨s, k, h1, h2, hk, hs⟩
    · cases ha
  · rintro ⟨s, k, h1, h2, hk, hs⟩
    exact ⟨s, k, [], h1, h2, List.mem_map.2 ⟨k, hk, rfl⟩, .inl hs⟩

/-- Non-vacuity: a table with an alias is accepted by the declaration, one with
a clash is not. -/
example (E : Env) : declareChoices { E with upper := id } false
    (.table [(s% "N", [s% "north"]), (s% "S", [])]) = some [(s% "N", [s% "north"]), (s% "S", [])] := by
  simp [declareChoices, declaredItems]

example (E : Env) : declareChoices { E with upper := id } true
    (.table [(s% "N", [s% "S"]), (s% "S", [])]) = none := by
  simp [declareChoices, declaredItems]

end Verif
