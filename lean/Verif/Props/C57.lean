import Verif.Props.C35

/-!
# C57: class names are looked up in the nearest registry
-/

namespace Verif.Cls
open Spec

/-- The class in whose body the registry that a class sees is declared: the
first of its MRO that declares one. -/
inductive SeesRegistryOf (T : Table) : List ClsId → ClsId → Prop
  | here {c : ClsId} {l : List ClsId} {k : Class} : T[c]? = some k → k.ownRegistry = true →
      SeesRegistryOf T (c :: l) c
  | there {c o : ClsId} {l : List ClsId} {k : Class} : T[c]? = some k → k.ownRegistry = false →
      SeesRegistryOf T l o → SeesRegistryOf T (c :: l) o

/-- `d` is the newest class with the metaclass that has the name and sees the
registry of `o`. -/
def NewestNamed (T : Table) (o : ClsId) (name : PyStr) (d : ClsId) : Prop :=
  (∃ k, T[d]? = some k ∧ k.hp = true ∧ k.name = name ∧ SeesRegistryOf T k.mro o) ∧
  ∀ d' k, T[d']? = some k → k.hp = true → k.name = name → SeesRegistryOf T k.mro o → d' ≤ d

theorem sees_iff {T : Table} {o : ClsId} : ∀ {l : List ClsId}, (∀ c ∈ l, c < T.length) →
    (SeesRegistryOf T l o ↔ registryOwner T l = some o)
  | [], _ => ⟨fun h => (by cases h), fun h => (by cases h)⟩
  | c :: l, hv => by
      have hk := List.getElem?_eq_getElem (hv c (by simp))
      have ih := sees_iff (T := T) (o := o) (l := l) fun c hc => hv c (List.mem_cons_of_mem _ hc)
      unfold registryOwner at ih ⊢
      rw [List.find?_cons]
      generalize T[c]'(hv c (by simp)) = kc at hk
      simp only [hk]
      cases hr : kc.ownRegistry with
      | true =>
        dsimp only
        constructor
        · intro h
          cases h with
          | here _ _ => rfl
          | there h1 h2 _ => rw [hk] at h1; cases h1; rw [hr] at h2; cases h2
        · intro h; cases h; exact .here hk hr
      | false =>
        dsimp only
        rw [← ih]
        constructor
        · intro h
          cases h with
          | here h1 h2 => rw [hk] at h1; cases h1; rw [hr] at h2; cases h2
          | there _ _ h => exact h
        · exact fun h => .there hk hr h

theorem sees_append {T : Table} (x : Class) {l : List ClsId} {o : ClsId}
    (hv : ∀ c ∈ l, c < T.length) : SeesRegistryOf (T ++ [x]) l o ↔ SeesRegistryOf T l o := by
  rw [sees_iff hv, sees_iff fun c hc => by simp only [List.length_append]; exact Nat.lt_add_right _ (hv c hc)]
  have : registryOwner (T ++ [x]) l = registryOwner T l := by
    unfold registryOwner
    clear o
    induction l with
    | nil => rfl
    | cons c l ih =>
      rw [List.find?_cons, List.find?_cons, List.getElem?_append_left (hv c (by simp)),
        ih fun c hc => hv c (List.mem_cons_of_mem _ hc)]
  rw [this]

theorem Inv.mro_lt_length {T : Table} (hI : Inv T) {i : ClsId} {k : Class} (hk : T[i]? = some k) :
    ∀ c ∈ k.mro, c < T.length :=
  fun c hc => Nat.lt_of_le_of_lt (hI.mro_lt hk c hc) (getElem?_lt hk)

/-- The newest class of a name after one more class. -/
theorem newest_append {T : Table} (hI : Inv T) {k : Class} (hI' : Inv (T ++ [k])) (o : ClsId)
    (name : PyStr) (d : ClsId) : NewestNamed (T ++ [k]) o name d ↔
      (k.hp = true ∧ k.name = name ∧ SeesRegistryOf (T ++ [k]) k.mro o) ∧ d = T.length ∨
      ¬ (k.hp = true ∧ k.name = name ∧ SeesRegistryOf (T ++ [k]) k.mro o) ∧
        NewestNamed T o name d := by
  have hnew : (T ++ [k])[T.length]? = some k := by simp
  have hold : ∀ (j : Nat) (kj : Class), j < T.length →
      ((T ++ [k])[j]? = some kj ↔ T[j]? = some kj) := fun j kj hj => by
    rw [List.getElem?_append_left hj]
  have hsees : ∀ (j : Nat) (kj : Class), T[j]? = some kj →
      (SeesRegistryOf (T ++ [k]) kj.mro o ↔ SeesRegistryOf T kj.mro o) :=
    fun j kj hj => sees_append k (hI.mro_lt_length hj)
  have hlast : ∀ (j : Nat) (kj : Class), (T ++ [k])[j]? = some kj → j ≤ T.length := by
    intro j kj hj
    have hl := getElem?_lt hj
    rw [List.length_append, List.length_singleton] at hl
    exact Nat.le_of_lt_succ hl
  have hcases : ∀ (j : Nat) (kj : Class), (T ++ [k])[j]? = some kj →
      (j = T.length ∧ kj = k) ∨ (j < T.length ∧ T[j]? = some kj) := by
    intro j kj hj
    by_cases hlt : j < T.length
    · exact .inr ⟨hlt, (hold j kj hlt).1 hj⟩
    · have : j = T.length := Nat.le_antisymm (hlast j kj hj) (Nat.le_of_not_lt hlt)
      subst this
      rw [hnew] at hj
      cases hj
      exact .inl ⟨rfl, rfl⟩
  by_cases hq : k.hp = true ∧ k.name = name ∧ SeesRegistryOf (T ++ [k]) k.mro o
  · simp only [hq, true_and, not_true_eq_false, false_and, or_false, and_true]
    constructor
    · rintro ⟨⟨kd, hkd, -⟩, hmax⟩
      exact Nat.le_antisymm (hlast d kd hkd) (hmax _ k hnew hq.1 hq.2.1 hq.2.2)
    · rintro rfl
      exact ⟨⟨k, hnew, hq⟩, fun d' kd hd _ _ _ => hlast d' kd hd⟩
  · simp only [hq, false_and, not_false_eq_true, true_and, false_or]
    constructor
    · rintro ⟨⟨kd, hkd, h5, h6, h7⟩, hmax⟩
      rcases hcases d kd hkd with ⟨-, rfl⟩ | ⟨-, hkd⟩
      · exact absurd ⟨h5, h6, h7⟩ hq
      · exact ⟨⟨kd, hkd, h5, h6, (hsees d kd hkd).1 h7⟩, fun d' k' hk' h8 h9 h10 =>
          hmax d' k' ((hold d' k' (getElem?_lt hk')).2 hk') h8 h9 ((hsees d' k' hk').2 h10)⟩
    · rintro ⟨⟨kd, hkd, h5, h6, h7⟩, hmax⟩
      refine ⟨⟨kd, (hold d kd (getElem?_lt hkd)).2 hkd, h5, h6, (hsees d kd hkd).2 h7⟩,
        fun d' k' hk' h8 h9 h10 => ?_⟩
      rcases hcases d' k' hk' with ⟨-, rfl⟩ | ⟨-, hk'⟩
      · exact absurd ⟨h8, h9, h10⟩ hq
      · exact hmax d' k' hk' h8 h9 ((hsees d' k' hk').1 h10)

/-- The registry of a class maps each name to the newest class of that name,
and to nothing else. -/
theorem C57_registry {chk : PyStr → Entry → Dflt → Option ErrKind} {S : State}
    (hS : Reachable chk S) (o : ClsId) (name : PyStr) (d : ClsId) :
    lookupS name (S.regs o) = some d ↔ NewestNamed S.classes o name d := by
  induction hS generalizing d with
  | empty =>
    constructor
    · intro h; cases h
    · rintro ⟨⟨k, hk, -⟩, -⟩; simp at hk
  | @create S S' dcl hS hb hn hdn hc ih =>
    have hI := reachable_inv hS
    have hI' := reachable_inv (Reachable.create dcl hS hb hn hdn hc)
    obtain ⟨k, mro, hS', hc3, hk | hk⟩ := create_ok hc
    · obtain ⟨hm, ⟨k0, hk0, hkeq⟩, -, owner, hown, hregs⟩ := hk
      obtain ⟨h1, h2, h3, h4, -⟩ := buildClass_ok hk0
      have hname : k.name = dcl.name := by rw [hkeq]; exact h1
      have hhp : k.hp = true := by rw [hkeq]; exact h4
      have hnew : S'.classes[S.classes.length]? = some k := by rw [hS']; simp
      have hsnew : SeesRegistryOf S'.classes k.mro o ↔ owner = o := by
        rw [sees_iff (hI'.mro_lt_length hnew), hown]; simp
      rw [hS'] at hI' hsnew ⊢
      rw [newest_append hI hI', ← ih, hregs, hname, hsnew]
      simp only [hhp, true_and]
      by_cases hoo : o = owner
      · rw [if_pos hoo, lookupS_setS']
        by_cases hnm : dcl.name = name
        · simp [hnm, hoo, eq_comm]
        · simp [hnm]
      · rw [if_neg hoo]
        simp [Ne.symm hoo]
    · obtain ⟨hm, h1, h2, h3, h4, h5, h6, h7, h8, -, -, -, hregs⟩ := hk
      rw [hS'] at hI' ⊢
      rw [newest_append hI hI', ← ih, hregs]
      simp [h1]

/-- Trusted lookup of a name other than that of the class: the newest class of
that name in the registry that the class sees; if there is none, the class
itself, or ValueError when strict.  Without `trusted` the registry is not
consulted. -/
theorem C57_trusted_lookup {chk : PyStr → Entry → Dflt → Option ErrKind} {S : State}
    (hS : Reachable chk S) {c o : ClsId} {k : Class} (hk : S.classes[c]? = some k)
    (ho : SeesRegistryOf S.classes k.mro o) {name : PyStr} (hne : name ≠ []) (hnk : name ≠ k.name)
    (strict : Bool) :
    (∀ d, NewestNamed S.classes o name d → deserializeClass S c name true strict = .ok d) ∧
    ((∀ d, ¬ NewestNamed S.classes o name d) →
      deserializeClass S c name true strict = if strict then .error .value else .ok c) ∧
    deserializeClass S c name false strict = (if strict then .error .value else .ok c) := by
  have hI := reachable_inv hS
  have hown : registryOwner S.classes (S.classes.mro c) = some o := by
    rw [mro_of hk, ← sees_iff (hI.mro_lt_length hk)]; exact ho
  have hcond : ¬ ((name.isEmpty || (Option.map (·.name) S.classes[c]? == some name)) = true) := by
    rw [hk]
    simp [hne, Ne.symm hnk]
  refine ⟨fun d hd => ?_, fun hd => ?_, ?_⟩
  · unfold deserializeClass
    dsimp only
    rw [if_neg hcond, hown]
    dsimp only
    rw [if_pos rfl, (C57_registry hS o name d).2 hd]
  · unfold deserializeClass
    dsimp only
    rw [if_neg hcond, hown]
    dsimp only
    rw [if_pos rfl]
    cases hl : lookupS name (S.regs o) with
    | none => rfl
    | some d => exact absurd ((C57_registry hS o name d).1 hl) (hd d)
  · unfold deserializeClass
    dsimp only
    rw [if_neg hcond, if_neg (by simp)]

/-- No name, or the name of the class itself, selects the class, trusted or
not, even if another class has been registered under that name since. -/
theorem C57_own_name {S : State} {c : ClsId} {k : Class} (hk : S.classes[c]? = some k)
    {name : PyStr} (h : name = [] ∨ name = k.name) (trusted strict : Bool) :
    deserializeClass S c name trusted strict = .ok c := by
  unfold deserializeClass
  dsimp only
  rw [if_pos]
  rw [hk]
  rcases h with rfl | rfl <;> simp

/-- Every class with the metaclass sees exactly one registry. -/
theorem C57_sees_registry {chk : PyStr → Entry → Dflt → Option ErrKind} {S : State}
    (hS : Reachable chk S) {c : ClsId} {k : Class} (hk : S.classes[c]? = some k)
    (hh : k.hp = true) : ∃ o, SeesRegistryOf S.classes k.mro o := by
  induction hS generalizing c k with
  | empty => simp at hk
  | @create S S' dcl hS hb hn hdn hc ih =>
    have hI := reachable_inv hS
    have hI' := reachable_inv (Reachable.create dcl hS hb hn hdn hc)
    obtain ⟨k', mro, hS', hc3, hk'⟩ := create_ok hc
    by_cases hlt : c < S.classes.length
    · rw [hS', List.getElem?_append_left hlt] at hk
      obtain ⟨o, ho⟩ := ih hk hh
      exact ⟨o, by rw [hS']; exact (sees_append k' (hI.mro_lt_length hk)).2 ho⟩
    · have hl := getElem?_lt hk
      have hmro := hI'.mro_lt_length hk
      rw [hS', List.length_append, List.length_singleton] at hl
      have : c = S.classes.length := Nat.le_antisymm (Nat.le_of_lt_succ hl) (Nat.le_of_not_lt hlt)
      subst this
      have hkk : k' = k := by rw [hS'] at hk; simpa using hk
      subst hkk
      rcases hk' with ⟨-, -, -, owner, hown, -⟩ | ⟨-, hf, -⟩
      · exact ⟨owner, (sees_iff hmro).2 hown⟩
      · rw [hh] at hf; cases hf

/-- Two classes of one name, the second in a registry of its own, then a third
in the first registry. -/
def c57Decls : List Decl :=
  [c35Root, c35Class (s% "A") [0], { name := s% "U", bases := [0], registry := true },
   c35Class (s% "A") [2], c35Class (s% "B") [2], c35Class (s% "A") [1]]

theorem C57_example : (runDecls c57Decls).map (fun S =>
      [deserializeClass S 0 (s% "A") true false, deserializeClass S 4 (s% "A") true false,
       deserializeClass S 1 (s% "A") true false, deserializeClass S 0 (s% "B") true true,
       deserializeClass S 0 (s% "A") false false].map
        (fun x => match x with | .ok c => some c | .error _ => none)) =
    some [some 5, some 3, some 1, none, some 0] := by
  decide +kernel

end Verif.Cls
