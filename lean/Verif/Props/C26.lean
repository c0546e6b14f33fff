import Verif.Lemmas.Each
import Verif.Models.Demo
import Verif.Spec.Strict

/-!
# C26: strict deserialization; C57 (class lookup part)
-/

namespace Verif
open Spec

theorem pyEq_str_right {a : Val} {s : PyStr} : pyEq a (.str s) = true ↔ a = .str s := by
  cases a <;> unfold pyEq <;> simp [Val.num?]

theorem lookupS_isSome {α : Type} {k : PyStr} : ∀ {l : List (PyStr × α)},
    (lookupS k l).isSome = true ↔ ∃ e, (k, e) ∈ l
  | [] => by simp [lookupS]
  | (k', v) :: l => by
      unfold lookupS
      split
      · rename_i h; subst h; simp only [Option.isSome_some, true_iff]; exact ⟨v, by simp⟩
      · rename_i h
        rw [lookupS_isSome]
        constructor
        · rintro ⟨e, h⟩; exact ⟨e, List.mem_cons_of_mem _ h⟩
        · rintro ⟨e, h'⟩
          rcases List.mem_cons.1 h' with h' | h'
          · cases h'; exact absurd rfl h
          · exact ⟨e, h'⟩

theorem dictGet_cons (k v key : Val) (kvs : List (Val × Val)) :
    dictGet? ((k, v) :: kvs) key = if pyEq k key = true then some v else dictGet? kvs key := by
  conv => lhs; unfold dictGet?

theorem dictGet_skip {pre post : List (Val × Val)} {s : PyStr}
    (h : ∀ kv ∈ pre, kv.1 ≠ .str s) : dictGet? (pre ++ post) (.str s) = dictGet? post (.str s) := by
  induction pre with
  | nil => rfl
  | cons a pre ih =>
    obtain ⟨k, v⟩ := a
    rw [List.cons_append, dictGet_cons, if_neg fun hk => h (k, v) (by simp) (pyEq_str_right.1 hk)]
    exact ih fun kv hkv => h kv (by simp [hkv])

theorem dictGet_given {kvs : List (Val × Val)} {g : Option Val} (h : GivenName kvs g) :
    dictGet? kvs (.str (s% "__class__")) = g := by
  cases h with
  | missing kvs h => have := dictGet_skip (post := []) h; rw [List.append_nil] at this; exact this
  | given pre post x h => rw [dictGet_skip h, dictGet_cons, if_pos (pyEq_str_right.2 rfl)]

theorem notOwn {x : Val} {nm : PyStr} (h1 : x.truthy = true) (h2 : x ≠ .str nm) :
    ¬ ((!x.truthy || pyEq x (.str nm)) = true) := by
  simp [h1, pyEq_str_right, h2]

theorem deserializeClass_other {E : Env} {c : ClsId} {t s : Bool} {x : Val}
    (h : Foreign E c t x) :
    deserializeClass E c x t s = if s = true then raiseK .value else pure c := by
  obtain ⟨h1, h2, h4⟩ := h
  unfold deserializeClass
  rw [if_neg (notOwn h1 h2)]
  dsimp only
  cases t with
  | false => simp
  | true =>
    obtain ⟨h5, h6⟩ := h4 rfl
    rw [if_neg (by simp [h5]), if_pos rfl]
    cases x with
    | str s => dsimp only; rw [h6 s rfl]
    | _ => rfl

theorem chosen_run {E : Env} {c d : ClsId} {t s : Bool} {g : Option Val}
    (h : ChosenClass E c t s g d) : deserializeClass E c (g.getD .none) t s = pure d := by
  cases h with
  | noName => rfl
  | emptyName x hx => unfold deserializeClass; rw [if_pos (by simp [hx])]
  | ownName => unfold deserializeClass; rw [if_pos (by simp [pyEq_str_right])]
  | registered x d h1 h2 h3 h4 =>
    unfold deserializeClass
    rw [if_neg (notOwn (by cases x with | nil => exact absurd rfl h1 | cons => rfl)
      (by simp [h2]))]
    dsimp only [Option.getD_some]
    rw [if_neg (by simp [Val.hashable]), if_pos h3, h4]
  | ignored x h1 h2 h3 h4 =>
    rw [Option.getD_some, deserializeClass_other ⟨h1, h2, h4⟩, if_neg (by simp [h3])]

/-- The input chooses no class: strict and a foreign name. -/
theorem C26_foreign_class_rejected {E : Env} {n : Nat} {c : ClsId} {kvs : List (Val × Val)}
    {kw : DeKw} {x : Val} {w : World} (hs : kw.strict = true) (hg : GivenName kvs (some x))
    (hx : Foreign E c kw.trusted x) :
    run E (n + 1) (.hpDeserialize c (.dict kvs) kw) w = (.error ⟨.value, []⟩, w) := by
  show hpDeserializeBody E (run E n) c (.dict kvs) kw w = _
  unfold hpDeserializeBody
  dsimp only
  rw [dictGet_given hg, Option.getD_some, deserializeClass_other hx, hs, if_pos rfl]
  rfl

theorem mem_unusedKeys {E : Env} {c : ClsId} {kvs : List (Val × Val)} {k : Val} :
    k ∈ (unusedKeys (E.classes c).props kvs).filter (fun k => !(pyEq k (.str (s% "__class__")))) ↔
      k ∈ kvs.map Prod.fst ∧ ¬ KnownKey E c k := by
  unfold unusedKeys KnownKey
  rw [List.mem_filter, List.mem_map]
  simp only [List.mem_filter, List.mem_map, Bool.not_eq_true', Bool.eq_false_iff, ne_eq,
    pyEq_str_right]
  constructor
  · rintro ⟨⟨⟨k, v⟩, ⟨h1, h2⟩, rfl⟩, h3⟩
    refine ⟨⟨_, h1, rfl⟩, ?_⟩
    rintro (h | ⟨s, rfl, h⟩)
    · exact h3 h
    · simp only [Bool.not_eq_true'] at h2
      rw [lookupS_isSome.2 h] at h2
      cases h2
  · rintro ⟨⟨⟨k, v⟩, h1, rfl⟩, h2⟩
    refine ⟨⟨(k, v), ⟨h1, ?_⟩, rfl⟩, fun h => h2 (.inl h)⟩
    cases k with
    | str s =>
      simp only [Bool.not_eq_true']
      rw [Bool.eq_false_iff]
      exact fun h => h2 (.inr ⟨s, rfl, lookupS_isSome.1 h⟩)
    | _ => rfl

/-- Strict: one key that names no property is enough for an exception, and
nothing has been built. The exception is a ValueError when all such keys are
text, else the join of the key names raises TypeError. -/
theorem C26_unknown_key_rejected {E : Env} {n : Nat} {c d : ClsId} {kvs : List (Val × Val)}
    {kw : DeKw} {g : Option Val} {k : Val} {w : World} (hs : kw.strict = true)
    (hg : GivenName kvs g) (hd : ChosenClass E c kw.trusted kw.strict g d)
    (hk : k ∈ kvs.map Prod.fst) (hu : ¬ KnownKey E d k) :
    ∃ kind, run E (n + 1) (.hpDeserialize c (.dict kvs) kw) w = (.error ⟨kind, []⟩, w) ∧
      ((∀ j ∈ kvs.map Prod.fst, ¬ KnownKey E d j → ∃ s, j = .str s) → kind = .value) ∧
      ((∃ j ∈ kvs.map Prod.fst, ¬ KnownKey E d j ∧ ∀ s, j ≠ .str s) → kind = .type) := by
  have hmem := mem_unusedKeys.2 ⟨hk, hu⟩
  refine ⟨if ((unusedKeys (E.classes d).props kvs).filter
    (fun k => !(pyEq k (.str (s% "__class__"))))).all Val.isStr then .value else .type, ?_, ?_⟩
  · show hpDeserializeBody E (run E n) c (.dict kvs) kw w = _
    unfold hpDeserializeBody
    dsimp only
    rw [dictGet_given hg, chosen_run hd, bind_ok (pure_apply d w)]
    refine bind_err (w' := w) ?_
    unfold raiseWhen
    rw [if_pos]
    · rfl
    · rw [hs, Bool.true_and]
      cases hl : List.filter _ _ with
      | nil => rw [hl] at hmem; cases hmem
      | cons => rfl
  · have text : ∀ j : Val, j.isStr = true ↔ ∃ s, j = .str s := by
      intro j; cases j <;> simp [Val.isStr]
    constructor
    · intro h
      rw [if_pos]
      rw [List.all_eq_true]
      intro j hj
      obtain ⟨h1, h2⟩ := mem_unusedKeys.1 hj
      exact (text j).2 (h j h1 h2)
    · rintro ⟨j, h1, h2, h3⟩
      rw [if_neg]
      intro h
      obtain ⟨s, hs⟩ := (text j).1 (List.all_eq_true.1 h j (mem_unusedKeys.2 ⟨h1, h2⟩))
      exact h3 s hs

/-- Unknown keys dropped. -/
noncomputable def dropUnknown (E : Env) (d : ClsId) (kvs : List (Val × Val)) : List (Val × Val) :=
  open Classical in kvs.filter (fun kv => decide (KnownKey E d kv.1))

theorem propState_drop {E : Env} {d : ClsId} (kvs : List (Val × Val)) :
    propState (E.classes d).props (dropUnknown E d kvs) = propState (E.classes d).props kvs := by
  unfold dropUnknown
  induction kvs with
  | nil => rfl
  | cons a kvs ih =>
    obtain ⟨k, v⟩ := a
    by_cases hk : KnownKey E d k
    · rw [List.filter_cons_of_pos (by simpa using hk)]
      cases k <;> unfold propState <;> simp only [ih]
    · rw [List.filter_cons_of_neg (by simpa using hk), ih]
      cases k with
      | str s =>
        conv => rhs; unfold propState
        rw [if_neg fun h => hk (.inr ⟨s, rfl, lookupS_isSome.1 h⟩)]
      | _ => rfl

theorem given_drop {E : Env} {d : ClsId} {kvs : List (Val × Val)} {g : Option Val}
    (h : GivenName kvs g) : GivenName (dropUnknown E d kvs) g := by
  unfold dropUnknown
  cases h with
  | missing kvs h =>
    exact .missing _ fun kv hkv => h kv (List.mem_of_mem_filter hkv)
  | given pre post x h =>
    rw [List.filter_append, List.filter_cons_of_pos (by
      simp only [decide_eq_true_eq]; exact .inl rfl)]
    exact .given _ _ x fun kv hkv => h kv (List.mem_of_mem_filter hkv)

/-- Not strict: unknown keys make no difference at all, neither to the result
nor to the state. -/
theorem C26_unknown_keys_ignored {E : Env} {n : Nat} {c d : ClsId} {kvs : List (Val × Val)}
    {kw : DeKw} {g : Option Val} {w : World} (hs : kw.strict = false)
    (hg : GivenName kvs g) (hd : ChosenClass E c kw.trusted kw.strict g d) :
    run E n (.hpDeserialize c (.dict kvs) kw) w =
      run E n (.hpDeserialize c (.dict (dropUnknown E d kvs)) kw) w := by
  cases n with
  | zero => rfl
  | succ n =>
    show hpDeserializeBody E (run E n) c (.dict kvs) kw w =
      hpDeserializeBody E (run E n) c (.dict (dropUnknown E d kvs)) kw w
    unfold hpDeserializeBody
    dsimp only
    rw [dictGet_given hg, dictGet_given (given_drop hg), chosen_run hd,
      bind_ok (pure_apply d w), bind_ok (pure_apply d w), propState_drop, hs]
    rfl

/-- Which class is instantiated, in both directions: the specification gives
every case in which the lookup succeeds. -/
theorem C57_class_lookup {E : Env} {c d : ClsId} {t s : Bool} {g : Option Val} {w w' : World}
    (h : deserializeClass E c (g.getD .none) t s w = (.ok d, w')) :
    ChosenClass E c t s g d ∧ w' = w := by
  cases g with
  | none => cases h; exact ⟨.noName, rfl⟩
  | some x =>
    rw [Option.getD_some] at h
    by_cases h1 : x.truthy = true
    swap
    · unfold deserializeClass at h
      rw [if_pos (by simp [Bool.eq_false_iff.2 h1])] at h
      cases h; exact ⟨.emptyName x (Bool.eq_false_iff.2 h1), rfl⟩
    by_cases h2 : x = .str (E.classes c).name
    · subst h2
      unfold deserializeClass at h
      rw [if_pos (by simp [pyEq_str_right])] at h
      cases h; exact ⟨.ownName, rfl⟩
    by_cases hf : Foreign E c t x
    · rw [deserializeClass_other hf] at h
      cases s with
      | true => cases h
      | false => cases h; exact ⟨.ignored x h1 h2 rfl hf.2.2, rfl⟩
    · unfold deserializeClass at h
      rw [if_neg (notOwn h1 h2)] at h
      cases t with
      | false => exact absurd ⟨h1, h2, fun h => by cases h⟩ hf
      | true =>
        by_cases h3 : x.hashable = true
        swap
        · rw [if_pos (by simp [Bool.eq_false_iff.2 h3])] at h; cases h
        rw [if_neg (by simp [h3]), if_pos rfl] at h
        cases x with
        | str u =>
          cases hl : lookupS u (E.classes c).registry with
          | none =>
            exact absurd ⟨h1, h2, fun _ => ⟨h3, fun s hs => by cases hs; exact hl⟩⟩ hf
          | some d' =>
            have h : (match lookupS u (E.classes c).registry with
              | some d => (pure d : M ClsId)
              | none => if s = true then raiseK .value else pure c) w = (.ok d, w') := h
            rw [hl] at h
            cases h
            exact ⟨.registered u _ (fun hu => by subst hu; cases h1)
              (fun hu => h2 (by rw [hu])) rfl hl, rfl⟩
        | _ => exact absurd ⟨h1, h2, fun _ => ⟨h3, fun s hs => by cases hs⟩⟩ hf

/-- Two classes in one registry. -/
def c26Env : Env := { demoEnv with
  classes := fun c => {
    name := if c = 0 then s% "A" else s% "B"
    registry := [(s% "A", 0), (s% "B", 1)]
    props := [(if c = 0 then s% "x" else s% "y",
      .mutable (.mk true none none .undef (.string [] .keep none)))] } }

def c26In (key cls : PyStr) : Val :=
  .dict [(.str key, .str (s% "v")), (.str (s% "__class__"), .str cls)]

example : GivenName [(.str (s% "q"), .none), (.str (s% "__class__"), .str (s% "B"))]
    (some (.str (s% "B"))) := .given [_] [] _ (by simp)

example : Foreign c26Env 0 false (.str (s% "B")) :=
  ⟨rfl, by simp [c26Env], by simp⟩

example : ChosenClass c26Env 0 true true (some (.str (s% "B"))) 1 :=
  .registered _ _ (by simp) (by simp [c26Env]) rfl (by with_unfolding_all rfl)

example : ¬ KnownKey c26Env 0 (.str (s% "q")) := by
  rintro (h | ⟨s, h, e, he⟩)
  · cases h
  · cases h; simp [c26Env] at he

/-- Raised ValueError. -/
def isVE (x : Except PyErr Val) : Bool := match x with
  | .error ⟨.value, []⟩ => true
  | _ => false

/-- The four outcomes: unknown key, foreign class, trusted lookup, ignored. -/
theorem C26_example :
    isVE (run c26Env 9 (.hpDeserialize 0 (c26In (s% "q") (s% "A")) { strict := true }) {}).1 = true ∧
    isVE (run c26Env 9 (.hpDeserialize 0 (c26In (s% "x") (s% "B")) { strict := true }) {}).1 = true ∧
    (run c26Env 9 (.hpDeserialize 0 (c26In (s% "y") (s% "B")) { strict := true, trusted := true })
      {}).2.objs.map (fun o => (o.cls, o.backend.map (·.1))) = [(1, [s% "y"])] ∧
    (run c26Env 9 (.hpDeserialize 0 (c26In (s% "q") (s% "B")) {}) {}).2.objs.map
      (fun o => (o.cls, o.backend.map (·.1))) = [(0, [])] := by
  decide +kernel

end Verif
