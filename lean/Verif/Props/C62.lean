import Verif.Props.C61

/-!
# C62: renamed properties and observers of a class refer to its properties
-/

namespace Verif.Cls
open Spec

section
variable {α : Type} {fld : Class → List (PyStr × α)} {sel : Attr → Option α} {T : Table}

/-- What is recorded is bound in the body of some class of the MRO. -/
theorem AttrKind.bound (hs : AttrKind fld sel) (hI : Inv T) {i : ClsId} {k : Class}
    (hk : T[i]? = some k) (hh : k.hp = true) {n : PyStr} {x : α} (h : lookupS n (fld k) = some x) :
    ∃ c ∈ k.mro, IsHp T c ∧ ∃ a, Binds T n c a ∧ sel a = some x := by
  obtain ⟨t, ht, hmro⟩ := (hI i k hk).mro
  rw [hs.lookup hI hk hh] at h
  cases hb : lookupS n k.body with
  | some a =>
    rw [hb] at h
    exact ⟨i, by rw [hmro]; simp, ⟨k, hk, hh⟩, a, (lookup_body hI hk).1 hb, h⟩
  | none =>
    rw [hb] at h
    dsimp only at h
    obtain ⟨c, hc, hx⟩ := List.exists_of_findSome?_eq_some h
    obtain ⟨hhc, b, hb, hcb⟩ := mem_allBases.1 (List.mem_reverse.1 hc)
    have hsub := (c3_spec ht).1 b hb
    refine ⟨c, by rw [hmro]; exact List.mem_cons_of_mem _ (hsub.subset hcb), isHp_iff.1 hhc, ?_⟩
    unfold contrib at hx
    cases hkc : T[c]? with
    | none => rw [hkc] at hx; cases hx
    | some kc =>
      rw [hkc] at hx
      dsimp only at hx
      split at hx
      · rename_i hcond
        rw [Bool.and_eq_true] at hcond
        obtain ⟨a, ha⟩ := Option.isSome_iff_exists.1 hcond.1
        have hba := (lookup_body hI hkc).1 ha
        obtain ⟨kc', hkc', hhc'⟩ := isHp_iff.1 hhc
        rw [hkc] at hkc'
        cases hkc'
        rw [hs.own hI hkc hhc' hba] at hx
        exact ⟨a, hba, hx⟩
      · cases hx

/-- A name recorded for an ancestor is recorded for the class, unless some
class of the MRO binds it to something else. -/
theorem AttrKind.kept (hs : AttrKind fld sel) (hI : Inv T) {n : PyStr} : ∀ {i : ClsId} {k : Class},
    T[i]? = some k → (∀ c ∈ k.mro, IsHp T c → ∀ a, Binds T n c a → (sel a).isSome = true) →
    ∀ {c : ClsId} {kc : Class}, c ∈ k.mro → T[c]? = some kc → kc.hp = true →
    (lookupS n (fld kc)).isSome = true → (lookupS n (fld k)).isSome = true := by
  intro i
  induction i using Nat.strongRecOn with
  | _ i ih =>
    intro k hk hn c kc hc hkc hhc hrec
    have hm := hI i k hk
    obtain ⟨t, ht, hmro⟩ := hm.mro
    have hh : k.hp = true := hI.hp_up hk c hc (isHp_iff.2 ⟨kc, hkc, hhc⟩)
    by_cases hci : c = i
    · subst hci; rw [hk] at hkc; cases hkc; exact hrec
    rw [hs.lookup hI hk hh]
    cases hb : lookupS n k.body with
    | some a => exact hn i (by rw [hmro]; simp) ⟨k, hk, hh⟩ a ((lookup_body hI hk).1 hb)
    | none =>
      dsimp only
      have hct : c ∈ t := by
        rw [hmro] at hc
        exact (List.mem_cons.1 hc).resolve_left hci
      have hbase : ∃ b ∈ k.bases, c ∈ T.mro b := by
        rcases (c3_spec ht).2.2.1 c hct with h | h
        · have hlt : c < T.length := getElem?_lt hkc
          obtain ⟨u, -, hu⟩ := (hI c kc hkc).mro
          exact ⟨c, h, by rw [mro_of hkc, hu]; simp⟩
        · exact h
      obtain ⟨b, hbb, hcb⟩ := hbase
      have hbi := hm.bases b hbb
      have hkb := List.getElem?_eq_getElem (Nat.lt_trans hbi (getElem?_lt hk))
      generalize T[b]'(Nat.lt_trans hbi (getElem?_lt hk)) = kb at hkb
      have hsub : kb.mro ⊆ k.mro := by
        rw [hmro, ← mro_of hkb]
        exact fun x hx => List.mem_cons_of_mem _ (((c3_spec ht).1 b hbb).subset hx)
      rw [mro_of hkb] at hcb
      have hrb := ih b hbi hkb (fun c hc => hn c (hsub hc)) hcb hkc hhc hrec
      have hhb : kb.hp = true := hI.hp_up hkb c hcb (isHp_iff.2 ⟨kc, hkc, hhc⟩)
      obtain ⟨x, hx⟩ := Option.isSome_iff_exists.1 hrb
      obtain ⟨c', hc', hhc', a, hba, hsa⟩ := hs.bound hI hkb hhb hx
      have hkey : n ∈ outputKeys T fld k.bases := by
        unfold outputKeys
        refine mem_outputKeys.2 (.inr ⟨b, List.mem_reverse.2 hbb, kb, hkb, hhb, ?_⟩)
        exact List.mem_map.2 ⟨(n, x), (lookupS_mem' (hs.nodup hI kb (List.mem_of_getElem? hkb))).1 hx, rfl⟩
      have hcon := contrib_own hs hI hkey hhc' hba
      rw [List.findSome?_isSome_iff]
      refine ⟨c', List.mem_reverse.2 (mem_allBases.2 ⟨isHp_iff.2 hhc', b, hbb, ?_⟩), ?_⟩
      · rw [mro_of hkb]; exact hc'
      · rw [hcon, hsa]; rfl

end

/-- The class statement of a class checked what its body declares. -/
theorem own_checked {chk : PyStr → Entry → Dflt → Option ErrKind} {S : State}
    (hS : Reachable chk S) {i : ClsId} {k : Class} (hk : S.classes[i]? = some k) (hp : k.hp = true) :
    renamedOk k.props (ownProps k.body) = true ∧ observersOk k.props (ownObservers k.body) = true := by
  obtain ⟨S0, d, mro, k0, -, -, -, -, -, -, hb, he, -⟩ := made_by hS hk hp
  obtain ⟨-, -, -, -, h1, -, -, -, -, h2, h3, -⟩ := buildClass_ok hb
  rw [he]
  dsimp only
  rw [h1]
  exact ⟨h2, h3⟩

theorem own_sel {α : Type} {n : PyStr} {a : Attr} {x : α} {body : List (PyStr × Attr)}
    {f : PyStr × Attr → Option (PyStr × α)} (h : (n, a) ∈ body) (hf : f (n, a) = some (n, x)) :
    (n, x) ∈ body.filterMap f := List.mem_filterMap.2 ⟨(n, a), h, hf⟩

/-- A renamed property of a class, inherited or not, refers to a property of
that class, unless a class of the MRO binds the new name to something that is
not a property. -/
theorem C62_renamed {chk : PyStr → Entry → Dflt → Option ErrKind} {S : State}
    (hS : Reachable chk S) {i : ClsId} {k : Class} (hk : S.classes[i]? = some k) (hp : k.hp = true)
    {n new : PyStr} (hr : (n, .renamed new) ∈ k.props)
    (hn : ∀ c ∈ k.mro, IsHp S.classes c → ∀ a, Binds S.classes new c a → ∃ e, a = .prop e) :
    ∃ e, (new, e) ∈ k.props := by
  have hI := reachable_inv hS
  have hnd := sort_props.nodup hI k (List.mem_of_getElem? hk)
  obtain ⟨c, hc, ⟨kc, hkc, hhc⟩, a, ha, hs⟩ :=
    sort_props.bound hI hk hp ((lookupS_mem' hnd).2 hr)
  cases a with
  | prop e =>
    cases hs
    have hok := (own_checked hS hkc hhc).1
    unfold renamedOk at hok
    obtain ⟨k', hk', hb⟩ := ha
    rw [hkc] at hk'
    cases hk'
    have := List.all_eq_true.1 hok _ (own_sel hb rfl : (n, Entry.renamed new) ∈ ownProps kc.body)
    dsimp only at this
    have hsome := sort_props.kept hI hk (fun c hc hh a hb => by
      obtain ⟨e, rfl⟩ := hn c hc hh a hb; rfl) hc hkc hhc this
    obtain ⟨e, he⟩ := Option.isSome_iff_exists.1 hsome
    exact ⟨e, (lookupS_mem' hnd).1 he⟩
  | _ => cases hs

/-- A name observed by a class observer, inherited or not, is a mutable
property of the class, unless a class of the MRO binds it to something else. -/
theorem C62_observed {chk : PyStr → Entry → Dflt → Option ErrKind} {S : State}
    (hS : Reachable chk S) {i : ClsId} {k : Class} (hk : S.classes[i]? = some k) (hp : k.hp = true)
    {m : PyStr} {o : ClassObserver} (ho : (m, o) ∈ k.observers) {ns : List PyStr}
    (hns : o.names = .names ns) {n : PyStr} (hm : n ∈ ns)
    (hn : ∀ c ∈ k.mro, IsHp S.classes c → ∀ a, Binds S.classes n c a → ∃ p, a = .prop (.mutable p)) :
    ∃ p, (n, .mutable p) ∈ k.props := by
  have hI := reachable_inv hS
  have hnd := sort_props.nodup hI k (List.mem_of_getElem? hk)
  have hnd' := sort_observers.nodup hI k (List.mem_of_getElem? hk)
  obtain ⟨c, hc, ⟨kc, hkc, hhc⟩, a, ha, hs⟩ :=
    sort_observers.bound hI hk hp ((lookupS_mem' hnd').2 ho)
  cases a with
  | observer o' =>
    cases hs
    have hok := (own_checked hS hkc hhc).2
    unfold observersOk at hok
    obtain ⟨k', hk', hb⟩ := ha
    rw [hkc] at hk'
    cases hk'
    have := List.all_eq_true.1 hok _ (own_sel hb rfl : (m, o) ∈ ownObservers kc.body)
    dsimp only at this
    rw [hns] at this
    have := List.all_eq_true.1 this n hm
    have hsome : (lookupS n kc.props).isSome = true := by
      cases h : lookupS n kc.props with
      | some e => rfl
      | none => rw [h] at this; cases this
    have hsome := sort_props.kept hI hk (fun c hc hh a hb => by
      obtain ⟨e, rfl⟩ := hn c hc hh a hb; rfl) hc hkc hhc hsome
    obtain ⟨e, he⟩ := Option.isSome_iff_exists.1 hsome
    obtain ⟨c', hc', hh', a', ha', hs'⟩ := sort_props.bound hI hk hp he
    obtain ⟨p, rfl⟩ := hn c' hc' hh' a' ha'
    cases hs'
    exact ⟨p, (lookupS_mem' hnd).1 he⟩
  | _ => cases hs

/-- A class with a renamed property and an observer, a subclass that keeps
both, and a subclass that removes the property they refer to. -/
def c62Decls : List Decl :=
  [c35Root,
   c35Class (s% "A") [0] [(s% "x", c35Text), (s% "old", .prop (.renamed (s% "x"))),
     (s% "watch", .observer ⟨.names [s% "x"], .set, 0⟩)],
   c35Class (s% "B") [1] [(s% "x", c35Bool)],
   c35Class (s% "C") [1] [(s% "x", .other)]]

/-- The condition is needed: class 3 keeps the renamed property and the
observer but not the property. -/
theorem C62_false_after_removal : (runDecls c62Decls).map (fun S => S.classes.map fun k =>
      (k.props.map (·.1), k.observers.map (·.1))) =
    some [([], []), ([s% "x", s% "old"], [s% "watch"]), ([s% "old", s% "x"], [s% "watch"]),
      ([s% "old"], [s% "watch"])] := by
  decide +kernel

example : ∃ S, Reachable (fun _ _ _ => none) S ∧ S.classes.length = 4 := by
  have h : ((runDecls c62Decls).map (·.classes.length)) = some 4 := by decide +kernel
  obtain ⟨S, hS, hl⟩ := Option.map_eq_some_iff.1 h
  exact ⟨S, reachable_runDecls (by decide +kernel) hS, hl⟩

end Verif.Cls
