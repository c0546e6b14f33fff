import Verif.Props.C36
import Verif.Props.C57
import Verif.Spec.Defaults

/-!
# C61: inherited class defaults
-/

namespace Verif.Cls
open Spec

theorem lookup_updateS {α : Type} (n : PyStr) {new : List (PyStr × α)}
    (hn : (new.map Prod.fst).Nodup) (out : List (PyStr × α)) :
    lookupS n (updateS out new) = (lookupS n new).or (lookupS n out) := by
  have := lookupS_update n hn (fun _ => true) out
  simp only [if_true] at this; exact this

theorem nodup_updateS {α : Type} {out : List (PyStr × α)} (h : (out.map Prod.fst).Nodup)
    (new : List (PyStr × α)) : ((updateS out new).map Prod.fst).Nodup := by
  have := nodup_update (fun _ => true) (new := new) h
  simp only [if_true] at this; exact this

/-- `getattr(cls, '_defaults', dict())`. -/
def eff (T : Table) (c : ClsId) : List (PyStr × Dflt) := (T.attr (·.defaults) (T.mro c)).getD []

/-- How the dictionaries of defaults of a class come about. -/
structure DMade (T : Table) (k : Class) : Prop where
  own : ((k.ownDefaults.getD []).map Prod.fst).Nodup
  hp : k.hp = true → k.defaults = some (mergedDefaults T k.mro.tail k.ownDefaults)
  plain : k.hp = false → k.defaults = k.ownDefaults

theorem attr_append {α : Type} {T : Table} (x : Class) {f : Class → Option α} {l : List ClsId}
    (hl : ∀ c ∈ l, c < T.length) : (T ++ [x] : Table).attr f l = T.attr f l := by
  unfold Table.attr
  induction l with
  | nil => rfl
  | cons c l ih =>
    rw [List.findSome?_cons, List.findSome?_cons, List.getElem?_append_left (hl c (by simp)),
      ih fun c hc => hl c (List.mem_cons_of_mem _ hc)]

theorem mro_append {T : Table} (x : Class) {c : ClsId} (hc : c < T.length) :
    (T ++ [x] : Table).mro c = T.mro c := by
  unfold Table.mro
  rw [List.getElem?_append_left hc]

theorem merged_append {T : Table} (hI : Inv T) (x : Class) {l : List ClsId}
    (hl : ∀ c ∈ l, c < T.length) (own : Option (List (PyStr × Dflt))) :
    mergedDefaults (T ++ [x]) l own = mergedDefaults T l own := by
  unfold mergedDefaults
  dsimp only
  rw [attr_append x hl]
  congr 1
  have : ∀ (l : List ClsId) (acc : List (PyStr × Dflt)), (∀ c ∈ l, c < T.length) →
      l.foldl (fun out c => updateS out (((T ++ [x] : Table).attr (·.defaults)
        ((T ++ [x] : Table).mro c)).getD [])) acc =
      l.foldl (fun out c => updateS out ((T.attr (·.defaults) (T.mro c)).getD [])) acc := by
    intro l
    induction l with
    | nil => intros; rfl
    | cons c l ih =>
      intro acc h
      have hc := h c (by simp)
      rw [List.foldl_cons, List.foldl_cons, mro_append x hc, attr_append x, ih]
      · exact fun c hc => h c (List.mem_cons_of_mem _ hc)
      · rw [mro_of (List.getElem?_eq_getElem hc)]
        exact hI.mro_lt_length (List.getElem?_eq_getElem hc)
  exact this _ _ fun c hc => hl c (List.mem_reverse.1 hc)

theorem reachable_defaults {chk : PyStr → Entry → Dflt → Option ErrKind} {S : State}
    (hS : Reachable chk S) : ∀ {i : ClsId} {k : Class}, S.classes[i]? = some k →
      DMade S.classes k := by
  induction hS with
  | empty => intro i k hk; simp at hk
  | @create S S' d hS hb hn hdn hc ih =>
    intro i k hk
    have hI := reachable_inv hS
    obtain ⟨k', mro, hS', hc3, hk'⟩ := create_ok hc
    by_cases hlt : i < S.classes.length
    · rw [hS', List.getElem?_append_left hlt] at hk
      have h := ih hk
      refine ⟨h.own, fun hp => ?_, h.plain⟩
      rw [h.hp hp, hS', merged_append hI]
      exact fun c hc => hI.mro_lt_length hk c (List.mem_of_mem_tail hc)
    · have hl := getElem?_lt hk
      rw [hS', List.length_append, List.length_singleton] at hl
      have : i = S.classes.length := Nat.le_antisymm (Nat.le_of_lt_succ hl) (Nat.le_of_not_lt hlt)
      subst this
      have hkk : k' = k := by rw [hS'] at hk; simpa using hk
      subst hkk
      have hmro : ∀ c ∈ mro, c < S.classes.length := by
        intro c hcm
        rcases (c3_spec hc3).2.2.1 c hcm with h | ⟨b, h, hcb⟩
        · exact hb c h
        · have hbl := List.getElem?_eq_getElem (hb b h)
          rw [mro_of hbl] at hcb
          exact hI.mro_lt_length hbl c hcb
      rcases hk' with ⟨-, ⟨k0, h0, he⟩, hd, -⟩ | ⟨-, hf, -, -, -, -, -, -, -, -, h1, h2, -⟩
      · have h1 : k0.ownDefaults = d.defaults ∧ k0.mro = S.classes.length :: mro ∧ k0.hp = true := by
          unfold buildClass at h0
          dsimp only at h0
          repeat' split at h0
          all_goals cases h0
          exact ⟨rfl, rfl, rfl⟩
        rw [he]
        refine ⟨?_, fun _ => ?_, fun h => ?_⟩
        · dsimp only; rw [h1.1]; exact hdn
        · dsimp only
          rw [h1.1, h1.2.1, List.tail_cons, hS', merged_append hI _ hmro]
        · dsimp only at h; rw [h1.2.2] at h; cases h
      · refine ⟨by rw [h1]; exact hdn, (fun h => by rw [hf] at h; cases h), fun _ => ?_⟩
        rw [h1, h2]

/-- The default that the body of a class gives for the name. -/
def ownDefault (T : Table) (n : PyStr) (c : ClsId) : Option Dflt :=
  match T[c]? with
  | some k => lookupS n (k.ownDefaults.getD [])
  | none => none

section
variable {T : Table} (hI : Inv T) (hD : ∀ {i : ClsId} {k : Class}, T[i]? = some k → DMade T k)
include hI hD

theorem nodup_merged (l : List ClsId) (own : Option (List (PyStr × Dflt))) :
    ((mergedDefaults T l own).map Prod.fst).Nodup := by
  unfold mergedDefaults
  dsimp only
  refine nodup_updateS ?_ _
  have : ∀ (l : List ClsId) (acc : List (PyStr × Dflt)), (acc.map Prod.fst).Nodup →
      ((l.foldl (fun out c => updateS out ((T.attr (·.defaults) (T.mro c)).getD [])) acc).map
        Prod.fst).Nodup := by
    intro l
    induction l with
    | nil => exact fun _ h => h
    | cons c l ih => exact fun acc h => ih _ (nodup_updateS h _)
  exact this _ _ (by simp)

theorem nodup_attr (l : List ClsId) : (((T.attr (·.defaults) l).getD []).map Prod.fst).Nodup := by
  unfold Table.attr
  cases h : l.findSome? (fun c => match T[c]? with | some k => k.defaults | none => none) with
  | none => simp
  | some x =>
    obtain ⟨c, -, hc⟩ := List.exists_of_findSome?_eq_some h
    rw [Option.getD_some]
    cases hk : T[c]? with
    | none => rw [hk] at hc; cases hc
    | some k =>
      rw [hk] at hc
      dsimp only at hc
      cases hh : k.hp with
      | true =>
        rw [(hD hk).hp hh] at hc
        rw [← Option.some.inj hc]
        exact nodup_merged hI hD _ _
      | false =>
        rw [(hD hk).plain hh] at hc
        have := (hD hk).own
        rw [hc] at this
        exact this

theorem lookup_merged (n : PyStr) (l : List ClsId) {own : Option (List (PyStr × Dflt))}
    (ho : ((own.getD []).map Prod.fst).Nodup) :
    lookupS n (mergedDefaults T l own) = (lookupS n (match own with
      | some x => x
      | none => (T.attr (·.defaults) l).getD [])).or (l.findSome? fun c => lookupS n (eff T c)) := by
  unfold mergedDefaults
  dsimp only
  rw [lookup_updateS]
  · congr 1
    have : ∀ (l : List ClsId) (acc : List (PyStr × Dflt)),
        lookupS n (l.foldl (fun out c => updateS out ((T.attr (·.defaults) (T.mro c)).getD [])) acc) =
        (l.reverse.findSome? fun c => lookupS n (eff T c)).or (lookupS n acc) := by
      intro l
      induction l with
      | nil => intro acc; rfl
      | cons c l ih =>
        intro acc
        rw [List.foldl_cons, ih, lookup_updateS n (nodup_attr hI hD _), List.reverse_cons,
          List.findSome?_append, Option.or_assoc]
        congr 1
        rw [List.findSome?_singleton]
        rfl
    rw [this, List.reverse_reverse]
    simp [lookupS]
  · cases own with
    | some x => exact ho
    | none => exact nodup_attr hI hD l

/-- Along a chain the dictionaries found by attribute lookup, taken together,
are the declared ones. -/
theorem chain_defaults (n : PyStr) : ∀ {i : ClsId} {k : Class}, T[i]? = some k →
    SingleInheritance T k.mro →
    (k.mro.findSome? fun c => lookupS n (eff T c)) = k.mro.findSome? (ownDefault T n) ∧
    (k.hp = true → lookupS n (k.defaults.getD []) = k.mro.findSome? (ownDefault T n)) := by
  intro i
  induction i using Nat.strongRecOn with
  | _ i ih =>
    intro k hk hS
    have hm := hI i k hk
    have hd := hD hk
    obtain ⟨t, ht, hmro⟩ := hm.mro
    have hlen := hS i (by rw [hmro]; simp) k hk
    have hown : ownDefault T n i = lookupS n (k.ownDefaults.getD []) := by
      unfold ownDefault; rw [hk]
    -- what lies above
    have habove : (t.findSome? fun c => lookupS n (eff T c)) = t.findSome? (ownDefault T n) ∧
        (lookupS n ((T.attr (·.defaults) t).getD [])).or (t.findSome? (ownDefault T n)) =
          t.findSome? (ownDefault T n) := by
      match hbs : k.bases, hlen with
      | [], _ =>
        have : t = [] := by
          have h3 := (c3_spec ht).2.2.1
          rw [hbs] at h3
          cases t with
          | nil => rfl
          | cons y t =>
            rcases h3 y (by simp) with h | ⟨b, h, -⟩ <;> cases h
        subst this
        exact ⟨rfl, by simp [Table.attr, lookupS]⟩
      | [b], _ =>
        have hbi : b < i := hm.bases b (by rw [hbs]; simp)
        have hbv : b < T.length := Nat.lt_trans hbi (getElem?_lt hk)
        have hkb := List.getElem?_eq_getElem hbv
        generalize T[b] = kb at hkb
        rw [hbs] at ht
        have htm := c3_single hI hkb ht
        subst htm
        have hSb : SingleInheritance T kb.mro := fun c hc =>
          hS c (by rw [hmro]; exact List.mem_cons_of_mem _ hc)
        have ihb := (ih b hbi hkb hSb).1
        refine ⟨ihb, ?_⟩
        rw [← ihb]
        obtain ⟨u, -, hu⟩ := (hI b kb hkb).mro
        have he : lookupS n ((T.attr (·.defaults) kb.mro).getD []) = lookupS n (eff T b) := by
          unfold eff; rw [mro_of hkb]
        rw [he, hu, List.findSome?_cons]
        cases lookupS n (eff T b) <;> rfl
    have hmerged : lookupS n (mergedDefaults T t k.ownDefaults) =
        (lookupS n (k.ownDefaults.getD [])).or (t.findSome? (ownDefault T n)) := by
      rw [lookup_merged hI hD n t hd.own, habove.1]
      cases ho : k.ownDefaults with
      | some x => rfl
      | none =>
        dsimp only [Option.getD_none]
        rw [habove.2]
        simp [lookupS]
    have hhere : i :: t = k.mro := hmro.symm
    have hall : k.mro.findSome? (ownDefault T n) =
        (lookupS n (k.ownDefaults.getD [])).or (t.findSome? (ownDefault T n)) := by
      rw [hmro, List.findSome?_cons, hown]
      cases lookupS n (k.ownDefaults.getD []) <;> rfl
    have heff : (lookupS n (eff T i)).or (t.findSome? (ownDefault T n)) =
        (lookupS n (k.ownDefaults.getD [])).or (t.findSome? (ownDefault T n)) := by
      have hattr : T.attr (·.defaults) (T.mro i) = k.defaults.or (T.attr (·.defaults) t) := by
        rw [mro_of hk, hmro]
        unfold Table.attr
        rw [List.findSome?_cons, hk]
        dsimp only
        cases k.defaults <;> rfl
      unfold eff
      rw [hattr]
      cases hh : k.hp with
      | true =>
        rw [hd.hp hh, hmro, List.tail_cons, Option.some_or, Option.getD_some, hmerged,
          Option.or_assoc, Option.or_self]
      | false =>
        rw [hd.plain hh]
        cases ho : k.ownDefaults with
        | some x => rfl
        | none =>
          rw [Option.none_or, habove.2]
          simp [lookupS]
    refine ⟨?_, fun hh => ?_⟩
    · rw [hall, hmro, List.findSome?_cons, ← heff, ← habove.1]
      cases lookupS n (eff T i) <;> rfl
    · rw [hall, ← hmerged, hd.hp hh, hmro]
      rfl

theorem findsDefault_iff (n : PyStr) (v : Dflt) : ∀ {l : List ClsId},
    FindsDefault T n l v ↔ l.findSome? (ownDefault T n) = some v := by
  have hdecl : ∀ c u, DeclaresDefault T n c u ↔ ownDefault T n c = some u := by
    intro c u
    unfold DeclaresDefault ownDefault
    cases hk : T[c]? with
    | none => simp
    | some k =>
      dsimp only
      rw [lookupS_mem' (hD hk).own]
      simp only [Option.some.injEq, ↓existsAndEq, true_and]
      cases ho : k.ownDefaults <;> simp
  intro l
  induction l with
  | nil => exact ⟨fun h => (by cases h), fun h => (by cases h)⟩
  | cons c l ih =>
    rw [List.findSome?_cons]
    constructor
    · intro h
      cases h with
      | here h => rw [(hdecl _ _).1 h]
      | there hn h =>
        cases ho : ownDefault T n c with
        | none => exact ih.1 h
        | some u => exact absurd ((hdecl c u).2 ho) (hn u)
    · intro h
      cases ho : ownDefault T n c with
      | none =>
        rw [ho] at h
        exact .there (fun u hu => by rw [(hdecl c u).1 hu] at ho; cases ho) (ih.2 h)
      | some u =>
        rw [ho] at h
        exact .here ((hdecl c v).2 (ho.trans h))

end

/-- The class default of a name is the one declared by the nearest class of
the MRO that declares one, if every ancestor has at most one base. -/
theorem C61_nearest_default {chk : PyStr → Entry → Dflt → Option ErrKind} {S : State}
    (hS : Reachable chk S) {i : ClsId} {k : Class} (hk : S.classes[i]? = some k)
    (hp : k.hp = true) (h1 : SingleInheritance S.classes k.mro) (n : PyStr) (v : Dflt) :
    lookupS n (k.defaults.getD []) = some v ↔ FindsDefault S.classes n k.mro v := by
  have hI := reachable_inv hS
  have hD := fun {i : ClsId} {k : Class} => reachable_defaults hS (i := i) (k := k)
  rw [findsDefault_iff hI hD, (chain_defaults hI hD n hk h1).2 hp]

theorem checkDefaults_ok {chk : PyStr → Entry → Dflt → Option ErrKind} {props : List (PyStr × Entry)}
    {l : List (PyStr × Dflt)} (h : checkDefaults chk props l = .ok ()) {n : PyStr} {v : Dflt}
    (hm : (n, v) ∈ l) : ∃ e, lookupS n props = some e ∧ (v = .undef ∨ chk n e v = none) := by
  induction l with
  | nil => cases hm
  | cons a l ih =>
    obtain ⟨m, u⟩ := a
    unfold checkDefaults at h
    cases he : lookupS m props with
    | none => rw [he] at h; cases h
    | some e =>
      rw [he] at h
      dsimp only at h
      have : checkDefaults chk props l = .ok () ∧ (u = .undef ∨ chk m e u = none) := by
        split at h
        · exact ⟨h, .inl rfl⟩
        · cases hc : chk m e u with
          | none => rw [hc] at h; exact ⟨h, .inr rfl⟩
          | some err => rw [hc] at h; cases h
      rcases List.mem_cons.1 hm with hm | hm
      · cases hm; exact ⟨e, he, this.2⟩
      · exact ih this.1 hm

/-- Every class default, inherited or not, belongs to a property of the class,
which accepted it when the class was made. -/
theorem C61_defaults_accepted {chk : PyStr → Entry → Dflt → Option ErrKind} {S : State}
    (hS : Reachable chk S) {i : ClsId} {k : Class} (hk : S.classes[i]? = some k)
    (hp : k.hp = true) {n : PyStr} {v : Dflt} (hm : (n, v) ∈ k.defaults.getD []) :
    ∃ e, (n, e) ∈ k.props ∧ (v = .undef ∨ chk n e v = none) := by
  obtain ⟨S0, d, mro, k0, -, -, -, -, -, -, hb, he, hc⟩ := made_by hS hk hp
  have hnd : (k.props.map Prod.fst).Nodup := by
    rw [(reachable_inv hS i k hk).props hp]; exact nodup_build
  have hm : (n, v) ∈ mergedDefaults S0.classes mro d.defaults := by rw [he] at hm; exact hm
  obtain ⟨e, h1, h2⟩ := checkDefaults_ok hc hm
  exact ⟨e, (lookupS_mem' hnd).1 h1, h2⟩

/-- A chain whose last class overrides one default and inherits the other, and
a diamond. -/
def c61Chain : List Decl :=
  [c35Root,
   { name := s% "A", bases := [0], body := [(s% "x", c35Text), (s% "y", c35Text)],
     defaults := some [(s% "x", .val (.str (s% "a"))), (s% "y", .val (.str (s% "b")))] },
   c35Class (s% "B") [1],
   { name := s% "C", bases := [2], defaults := some [(s% "x", .val (.str (s% "c")))] }]

def dfltText : Dflt → PyStr
  | .val (.str s) => s
  | _ => []

theorem C61_example : (runDecls c61Chain).map (fun S =>
      S.classes.map fun k => (k.defaults.getD []).map fun kv => (kv.1, dfltText kv.2)) =
    some [[], [(s% "x", s% "a"), (s% "y", s% "b")], [(s% "x", s% "a"), (s% "y", s% "b")],
      [(s% "x", s% "c"), (s% "y", s% "b")]] := by
  decide +kernel

example : ∃ S k, Reachable (fun _ _ _ => none) S ∧ S.classes[3]? = some k ∧ k.hp = true ∧
    SingleInheritance S.classes k.mro := by
  have h : ((runDecls c61Chain).map fun S => decide (S.classes.length = 4 ∧
      S.classes.all (fun k => k.hp && decide (k.bases.length ≤ 1)) = true)) = some true := by
    decide +kernel
  obtain ⟨S, hS, hl⟩ := Option.map_eq_some_iff.1 h
  obtain ⟨hl, ha⟩ := of_decide_eq_true hl
  rw [List.all_eq_true] at ha
  have h3 : 3 < S.classes.length := by rw [hl]; decide
  have hall : ∀ k ∈ S.classes, k.hp = true ∧ k.bases.length ≤ 1 := fun k hk => by
    simpa using ha k hk
  exact ⟨S, S.classes[3], reachable_runDecls (by decide +kernel) hS, List.getElem?_eq_getElem h3,
    (hall _ (List.getElem_mem _)).1, fun c _ k hk => (hall k (List.mem_of_getElem? hk)).2⟩

/-- D has bases C(A) and B(A); B overrides the default of A, C does not.  The
MRO is D, C, B, A, so the nearest declaration is that of B, but the default
of D is that of A. -/
def c61Diamond : List Decl :=
  [c35Root,
   { name := s% "A", bases := [0], body := [(s% "x", c35Text)],
     defaults := some [(s% "x", .val (.str (s% "a")))] },
   { name := s% "B", bases := [1], defaults := some [(s% "x", .val (.str (s% "b")))] },
   c35Class (s% "C") [1], c35Class (s% "D") [3, 2]]

theorem C61_false_for_diamonds : (runDecls c61Diamond).map (fun S =>
      (S.classes.map fun k => (k.defaults.getD []).map fun kv => dfltText kv.2,
        S.classes.mro 4, (((S.classes.mro 4).findSome? (ownDefault S.classes (s% "x"))).map dfltText))) =
    some ([[], [s% "a"], [s% "b"], [s% "a"], [s% "a"]], [4, 3, 2, 1, 0], some (s% "b")) := by
  decide +kernel

end Verif.Cls
