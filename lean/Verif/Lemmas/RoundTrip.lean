import Verif.Lemmas.Alternatives

/-!
# Reading back what was written
-/

namespace Verif
open Spec

/-! ## Bounds for lists -/

theorem bound_list {α : Type} {P : α → Nat → Prop} (mono : ∀ x n m, n ≤ m → P x n → P x m) :
    ∀ (xs : List α), (∀ x ∈ xs, ∃ n, P x n) → ∃ n, ∀ x ∈ xs, P x n
  | [], _ => ⟨0, by simp⟩
  | x :: xs, h => by
    obtain ⟨n, hn⟩ := bound_list mono xs fun y hy => h y (by simp [hy])
    obtain ⟨m, hm⟩ := h x (by simp)
    refine ⟨max n m, fun y hy => ?_⟩
    rcases List.mem_cons.1 hy with rfl | hy
    · exact mono _ _ _ (Nat.le_max_right n m) hm
    · exact mono _ _ _ (Nat.le_max_left n m) (hn y hy)

/-! ## Only new instances -/

theorem Spec.OnlyNew.refl (w : World) : OnlyNew w w := ⟨fun _ _ h => h, rfl, rfl, rfl, rfl, rfl⟩

theorem Spec.OnlyNew.trans {a b c : World} (h : OnlyNew a b) (k : OnlyNew b c) : OnlyNew a c :=
  ⟨fun r o ho => k.old r o (h.old r o ho), k.quar.trans h.quar, k.user.trans h.user,
    k.trace.trans h.trace, k.hooks.trans h.hooks, k.bypass.trans h.bypass⟩

theorem Spec.OnlyNew.clsKept {a b : World} (h : OnlyNew a b) : ClsKept a b :=
  fun r _ ⟨o, ho, hc⟩ => ⟨o, h.old r o ho, hc⟩

theorem Spec.OnlyNew.length {a b : World} (h : OnlyNew a b) : a.objs.length ≤ b.objs.length := by
  rcases Nat.lt_or_ge b.objs.length a.objs.length with hl | hl
  · obtain ⟨o, ho⟩ : ∃ o, a.objs[b.objs.length]? = some o := ⟨_, List.getElem?_eq_getElem hl⟩
    have := h.old _ o ho
    rw [List.getElem?_eq_none (Nat.le_refl _)] at this
    cases this
  · exact hl

theorem onlyNew_top (w : World) (o : Obj) (t : Nat) : OnlyNew w (atTop w o t) :=
  ⟨fun r o' ho => by
    show (w.objs ++ [o])[r]? = some o'
    rw [List.getElem?_append_left (List.getElem?_eq_some_iff.1 ho).1]
    exact ho, rfl, rfl, rfl, rfl, rfl⟩

theorem copyOf_later {E : Env} {w w1 w2 : World} {L : Nat} {p : PropSpec} {v v' : Val}
    (h : CopyOf E w w1 L p v v') (hn : OnlyNew w1 w2) : CopyOf E w w2 L p v v' := by
  induction h with
  | scalar p v hs => exact .scalar p v hs
  | seq p k it lo hi co xs ys hty hl _ ih => exact .seq p k it lo hi co xs ys hty hl ih
  | dict p kp vp co kvs lvs hty hk _ ih => exact .dict p kp vp co kvs lvs hty hk ih
  | inst p c r r' o o' hty ho ho' hL hc hnone _ ih =>
    exact .inst p c r r' o o' hty ho (hn.old _ _ ho') hL hc hnone ih
  | union p q ps st v v' hty hp _ ih => exact .union p q ps st v v' hty hp ih

/-! ## Inversion of copies -/

/-- Copies by type. -/
def CopyBody (E : Env) (w w' : World) (L : Nat) (ty : PropTy) (v v' : Val) : Prop :=
  match ty with
  | .seq k it _ _ _ => ∀ xs, v = ofKind k xs → ∃ ys, v' = ofKind k ys ∧ xs.length = ys.length ∧
      ∀ (i : Nat) x y, xs[i]? = some x → ys[i]? = some y → CopyOf E w w' L it x y
  | .dict _ vp _ => ∀ kvs, v = .dict kvs → ∃ lvs, v' = .dict lvs ∧ kvs.map (·.1) = lvs.map (·.1) ∧
      ∀ (i : Nat) x y, kvs[i]? = some x → lvs[i]? = some y → CopyOf E w w' L vp x.2 y.2
  | .inst _ => ∀ r, v = .obj r → ∃ r' o o', v' = .obj r' ∧ w.objs[r]? = some o ∧ w'.objs[r']? = some o' ∧
      L ≤ r' ∧ o'.cls = o.cls ∧
      (∀ nm e q, lookupS nm (E.classes o.cls).props = some e → OwnSpec e q →
        valueAt o nm = .none → valueAt o' nm = .none) ∧
      (∀ nm e q, lookupS nm (E.classes o.cls).props = some e → OwnSpec e q →
        valueAt o nm ≠ .none → CopyOf E w w' L q (valueAt o nm) (valueAt o' nm))
  | .union ps _ => ∃ q, (∀ nm, Picks E w nm v ps (some q)) ∧ CopyOf E w w' L q v v'
  | _ => v' = v

theorem ofKind_inj {k : SeqKind} {xs ys : List Val} (h : ofKind k xs = ofKind k ys) : xs = ys := by
  cases k <;> (cases h; rfl)

theorem copyOf_inv {E : Env} {w w' : World} {L : Nat} {p : PropSpec} {v v' : Val}
    (h : CopyOf E w w' L p v v') : CopyBody E w w' L p.ty v v' := by
  cases h with
  | scalar _ _ hs =>
    cases hty : p.ty <;> rw [hty] at hs <;> first | exact hs.elim | rfl
  | seq _ k it lo hi co xs ys hty hl hi' =>
    rw [hty]
    intro zs hz
    cases ofKind_inj hz
    exact ⟨ys, rfl, hl, hi'⟩
  | dict _ kp vp co kvs lvs hty hk hi' =>
    rw [hty]
    intro zs hz
    cases hz
    exact ⟨lvs, rfl, hk, hi'⟩
  | inst _ c r r' o o' hty ho ho' hL hc h1 h2 =>
    rw [hty]
    intro r0 hr
    cases hr
    exact ⟨r', o, o', rfl, ho, ho', hL, hc, h1, h2⟩
  | union _ q ps st _ _ hty hp h => rw [hty]; exact ⟨q, hp, h⟩

theorem copyOf_scalar {E : Env} {w w' : World} {L : Nat} {p : PropSpec} {v v' : Val}
    (h : CopyOf E w w' L p v v') (hs : ScalarTy p.ty) : v' = v := by
  have := copyOf_inv h
  cases hty : p.ty <;> rw [hty] at hs this <;> first | exact hs.elim | exact this

/-! ## Copies are accepted as they are -/

theorem eq_of_getElem? {α : Type} {xs ys : List α} (hl : xs.length = ys.length)
    (h : ∀ (i : Nat) x y, xs[i]? = some x → ys[i]? = some y → y = x) : ys = xs := by
  apply List.ext_getElem?
  intro i
  cases hx : xs[i]? with
  | none =>
    rw [List.getElem?_eq_none_iff] at hx ⊢
    omega
  | some x =>
    obtain ⟨hi, _⟩ := List.getElem?_eq_some_iff.1 hx
    have hy : ys[i]? = some (ys[i]'(by omega)) := List.getElem?_eq_getElem (by omega)
    rw [hy, h i x _ hx hy]

theorem partner {α β : Type} {xs : List α} {ys : List β} (hl : xs.length = ys.length) {y : β}
    (hy : y ∈ ys) : ∃ (i : Nat) (x : α), x ∈ xs ∧ xs[i]? = some x ∧ ys[i]? = some y := by
  obtain ⟨i, hi, rfl⟩ := List.getElem_of_mem hy
  exact ⟨i, xs[i]'(by omega), List.getElem_mem _, List.getElem?_eq_getElem _, List.getElem?_eq_getElem _⟩

theorem alike_ofKind (k : SeqKind) (xs ys : List Val) : Alike (ofKind k xs) (ofKind k ys) := by
  cases k <;> exact trivial

theorem copy_alike {E : Env} {w w' : World} {L : Nat} {p : PropSpec} {v v' : Val}
    (h : CopyOf E w w' L p v v') : Alike v v' := by
  induction h with
  | scalar p v => exact alike_refl v
  | seq p k => exact alike_ofKind ..
  | dict => exact trivial
  | inst => exact trivial
  | union _ _ _ _ _ _ _ _ _ ih => exact ih

theorem alike_trans {a b c : Val} (h : Alike a b) (h2 : Alike b c) : Alike a c := by
  cases a <;> cases b <;> first
    | (cases h; done)
    | (cases h; exact h2)
    | (cases c <;> first | exact trivial | (cases h2; done))

/-- A copy of an instance is an instance of the same class. -/
def SameClass (w w' : World) (v v' : Val) : Prop :=
  ∀ r o, v = .obj r → w.objs[r]? = some o → ∃ r' o', v' = .obj r' ∧ w'.objs[r']? = some o' ∧ o'.cls = o.cls

/-- A type that refuses a value refuses its copies. -/
theorem copy_refuses {E : Env} {w w' : World} {L : Nat} {p : PropSpec} {v v' : Val} {ty : PropTy}
    (hk : SameClass w w' v v') (h : CopyOf E w w' L p v v') (hr : Refuses E w ty v) : Refuses E w' ty v' := by
  have ha := copy_alike h
  by_cases hs : ScalarTy ty
  · rw [refuses_scalar hs] at hr ⊢
    refine ⟨fun u hu => hr.1 u (alike_trans ha hu), fun hc s hv => ?_⟩
    subst hv
    have : v = .str s := by cases v <;> first | (cases ha; rfl) | cases ha
    exact hr.2 hc s this
  · cases ty with
    | seq k item lo hi co =>
      have hr : SeqKeeps k co v := hr
      show SeqKeeps k co v'
      cases v <;> cases v' <;> first
        | exact hr
        | (cases ha; exact hr)
        | cases ha
    | dict kp vp co =>
      obtain ⟨h1, h2⟩ : co = false ∧ ∀ kvs, v ≠ .dict kvs := hr
      refine ⟨h1, fun kvs hv => ?_⟩
      subst hv
      cases v <;> first | exact absurd rfl (h2 _) | (cases ha)
    | inst c =>
      obtain ⟨h1, h2⟩ : (∀ kvs, v ≠ .dict kvs) ∧
        ∀ r, v = .obj r → ∃ o, w.objs[r]? = some o ∧ isSub E o.cls c = false := hr
      refine ⟨fun kvs hv => ?_, fun r' hv => ?_⟩
      · subst hv
        cases v <;> first | exact absurd rfl (h1 _) | (cases ha)
      · obtain ⟨r, rfl⟩ : ∃ r, v = .obj r := by
          subst hv
          cases v <;> first | exact ⟨_, rfl⟩ | (cases ha)
        obtain ⟨o, h3, h4⟩ := h2 r rfl
        obtain ⟨r1, o', h5, h6, h7⟩ := hk r o rfl h3
        rw [hv] at h5
        cases h5
        exact ⟨o', h6, by rw [h7]; exact h4⟩
    | union => exact False.elim hr
    | _ => exact absurd trivial hs

/-- What makes a copy of a canonical value a good keyword. -/
structure Usable (E : Env) (p : PropSpec) (N : Nat) (w : World) (v v' : Val) : Prop where
  defined : v' ≠ .undef
  some : v' = .none → v = .none
  shape : Shape E p v'
  valid : ∀ n, N ≤ n → ∀ nm inst w', ClsKept w w' → (Silent w' inst ∨ NoUnion p) →
    run E n (.validate nm p inst v') w' = (.ok v', w')

theorem usable_mono {E : Env} {p : PropSpec} {N M : Nat} {w : World} {v v' : Val} (h : Usable E p N w v v')
    (hm : N ≤ M) : Usable E p M w v v' :=
  ⟨h.1, h.2, h.3, fun k hk => h.4 k (Nat.le_trans hm hk)⟩

theorem seq_validate_same {E : Env} {n : Nat} {nm : PyStr} {p it : PropSpec} {k : SeqKind}
    {lo hi : Option Nat} {co : Bool} {inst : Option Nat} {ys : List Val} {w : World}
    (hty : p.ty = .seq k it lo hi co)
    (h : ∀ y ∈ ys, run E n (.validate nm it inst y) w = (.ok y, w))
    (hset : k = .set → (∀ y ∈ ys, y.hashable = true) ∧ ys.Pairwise (fun a b => pyEq a b = false)) :
    run E (n + 1) (.validate nm p inst (ofKind k ys)) w = (.ok (ofKind k ys), w) := by
  show validateBody E (run E n) nm p inst (ofKind k ys) w = _
  unfold validateBody
  simp only [hty]
  unfold seqValidate
  cases k with
  | tup =>
    simp only [ofKind, SeqKind.matches, Bool.not_true, Bool.and_false, Bool.false_eq_true, if_false,
      Val.isContainer, if_true, Val.items]
    rw [bind_ok (mapML_id h)]
    rfl
  | list =>
    simp only [ofKind, SeqKind.matches, Bool.not_true, Bool.and_false, Bool.false_eq_true, if_false,
      Val.isContainer, if_true, Val.items]
    rw [bind_ok (mapML_id h)]
    rfl
  | set =>
    simp only [ofKind, SeqKind.matches, Bool.not_true, Bool.and_false, Bool.false_eq_true, if_false,
      Val.isContainer, if_true, Val.items]
    rw [bind_ok (mapML_id h)]
    unfold mkSeq
    simp only [hashableL_all_iff.2 (hset rfl).1, if_true, setOfList_same (hset rfl).2]
    rfl

theorem dict_validate_same {E : Env} {n : Nat} {nm : PyStr} {p kp vp : PropSpec}
    {co : Bool} {inst : Option Nat} {kvs : List (Val × Val)} {w : World}
    (hty : p.ty = .dict kp vp co)
    (h : ∀ kv ∈ kvs, run E n (.validate nm kp inst kv.1) w = (.ok kv.1, w) ∧
      run E n (.validate nm vp inst kv.2) w = (.ok kv.2, w))
    (hd : DistinctKeys kvs) :
    run E (n + 1) (.validate nm p inst (.dict kvs)) w = (.ok (.dict kvs), w) := by
  show validateBody E (run E n) nm p inst (.dict kvs) w = _
  unfold validateBody
  simp only [hty]
  unfold dictValidate
  have hitems : (match (if co = true then dictCoerce? (.dict kvs) else
      match Val.dict kvs with | .dict kvs => some kvs | _ => none) with
    | some kvs => (pure kvs : M _)
    | none => propError E (run E n) nm inst) = pure kvs := by cases co <;> rfl
  refine (congrFun (congrArg (· >>= _) hitems) w).trans ?_
  rw [bind_ok (pure_apply _ _)]
  exact bind_ok (dictFold_id (E := E) (m := n) (nm := nm) (kp := kp) (vp := vp) (inst := inst)
    (w := w) (kvs := kvs) (d := []) hd h)

theorem noUnion_item {p it : PropSpec} {k : SeqKind} {lo hi : Option Nat} {co : Bool}
    (hty : p.ty = .seq k it lo hi co) (h : NoUnion p) : NoUnion it := by
  obtain ⟨rq, se, de, df, ty⟩ := p
  cases hty
  exact h

theorem noUnion_pair {p kp vp : PropSpec} {co : Bool} (hty : p.ty = .dict kp vp co) (h : NoUnion p) :
    NoUnion kp ∧ NoUnion vp := by
  obtain ⟨rq, se, de, df, ty⟩ := p
  cases hty
  exact h

theorem noUnion_union {p : PropSpec} {ps : List PropSpec} {st : Bool} (hty : p.ty = .union ps st)
    (h : NoUnion p) : False := by
  obtain ⟨rq, se, de, df, ty⟩ := p
  cases hty
  exact h

theorem usable_as_is {E : Env} {w : World} {p : PropSpec} {v : Val} (hs : ScalarTy p.ty)
    (hcs : TakenAsIs E p.ty v) :
    CopyOf E w w 0 p v v ∧ (∀ w3 L v', CopyOf E w w3 L p v v' → SameClass w w3 v v') ∧
    ∃ N, ∀ w3 L v', CopyOf E w w3 L p v v' → Usable E p N w3 v v' := by
  refine ⟨.scalar p v hs, fun _ _ _ _ r _ h => absurd h (hcs.plain r), 1, fun w3 L v' hv => ?_⟩
  cases copyOf_scalar hv hs
  have hrun : ∀ n, 1 ≤ n → ∀ nm inst w', run E n (.validate nm p inst v) w' = (.ok v, w') := by
    intro n hn nm inst w'
    obtain ⟨m, rfl⟩ : ∃ m, n = m + 1 := ⟨n - 1, by omega⟩
    exact validate_canon_scalar hs hcs m nm inst w'
  exact ⟨hcs.defined, id, .inl ⟨hs, w3, C01_validated_value_admitted E 1 [] p none v w3 v w3
    (hrun 1 (Nat.le_refl _) _ _ _)⟩, fun n hn nm inst w' _ _ => hrun n hn nm inst w'⟩

theorem canon_usable_self {E : Env} {S : PropTy → Val → Prop} {ic tr : Bool} {w : World} {p : PropSpec}
    {v : Val} (h : Canon E S ic tr w p v) :
    CopyOf E w w 0 p v v ∧ (∀ w3 L v', CopyOf E w w3 L p v v' → SameClass w w3 v v') ∧
    ∃ N, ∀ w3 L v', CopyOf E w w3 L p v v' → Usable E p N w3 v v' := by
  induction h with
  | scalar p v hc hs hcs _ => exact usable_as_is hs hcs.asIs
  | custom p v j hs _ hcs _ _ _ _ => exact usable_as_is hs hcs
  | seq p k it lo hi co xs hc hty hset _ ih =>
    obtain ⟨N, hN⟩ := bound_list (P := fun x N => ∀ w3 L v', CopyOf E w w3 L it x v' → Usable E it N w3 x v')
      (fun x n m hnm hx w3 L v' hv => usable_mono (hx w3 L v' hv) hnm) xs fun x hx => (ih x hx).2.2
    refine ⟨.seq p k it lo hi co xs xs hty rfl fun i x y hx hy => ?_,
      (fun _ _ _ _ r _ h => nomatch k, h), N + 1, fun w3 L v' hv => ?_⟩
    · rw [hx] at hy
      cases hy
      exact (ih x (List.mem_of_getElem? hx)).1
    have hb := copyOf_inv hv
    rw [hty] at hb
    obtain ⟨ys, rfl, hl, hcp⟩ := hb xs rfl
    refine ⟨(ofKind_ne k ys).1, fun h => absurd h (ofKind_ne k ys).2,
      .inr (.inl ⟨k, it, lo, hi, co, ys, hty, rfl⟩), fun n hn nm inst w' hk hs => ?_⟩
    have hs' : Silent w' inst ∨ NoUnion it := hs.imp id fun h => noUnion_item hty h
    obtain ⟨m, rfl⟩ : ∃ m, n = m + 1 := ⟨n - 1, by omega⟩
    refine seq_validate_same hty (fun y hy => ?_) fun hk' => ?_
    · obtain ⟨i, x, hx, h1, h2⟩ := partner hl hy
      exact (hN x hx w3 L y (hcp i x y h1 h2)).valid m (by omega) nm inst w' hk hs'
    · obtain ⟨h1, h2, h3⟩ := hset hk'
      have : ys = xs := eq_of_getElem? hl fun i x y hx hy => copyOf_scalar (hcp i x y hx hy) h1
      rw [this]
      exact ⟨h2, h3⟩
  | dict p kp vp co kvs hc hty hsk hh hd hj1 hj2 _ _ ihk ihv =>
    obtain ⟨N1, hN1⟩ := bound_list
      (P := fun (x : Val × Val) N => ∀ w3 L v', CopyOf E w w3 L kp x.1 v' → Usable E kp N w3 x.1 v')
      (fun x n m hnm hx w3 L v' hv => usable_mono (hx w3 L v' hv) hnm) kvs fun x hx => (ihk x hx).2.2
    obtain ⟨N2, hN2⟩ := bound_list
      (P := fun (x : Val × Val) N => ∀ w3 L v', CopyOf E w w3 L vp x.2 v' → Usable E vp N w3 x.2 v')
      (fun x n m hnm hx w3 L v' hv => usable_mono (hx w3 L v' hv) hnm) kvs fun x hx => (ihv x hx).2.2
    refine ⟨.dict p kp vp co kvs kvs hty rfl fun i x y hx hy => ?_,
      (fun _ _ _ _ r _ h => by cases h), max N1 N2 + 1, fun w3 L v' hv => ?_⟩
    · rw [hx] at hy
      cases hy
      exact (ihv x (List.mem_of_getElem? hx)).1
    have hb := copyOf_inv hv
    rw [hty] at hb
    obtain ⟨lvs, rfl, hkeys, hcp⟩ := hb kvs rfl
    have hl : kvs.length = lvs.length := by
      have := congrArg List.length hkeys
      simpa using this
    refine ⟨by simp, fun h => by simp at h, .inr (.inr (.inl ⟨kp, vp, co, lvs, hty, rfl⟩)),
      fun n hn nm inst w' hk hs => ?_⟩
    obtain ⟨m, rfl⟩ : ∃ m, n = m + 1 := ⟨n - 1, by omega⟩
    have hs1 : Silent w' inst ∨ NoUnion kp := hs.imp id fun h => (noUnion_pair hty h).1
    have hs2 : Silent w' inst ∨ NoUnion vp := hs.imp id fun h => (noUnion_pair hty h).2
    have hkey : ∀ y ∈ lvs, ∃ (i : Nat) (x : Val × Val), x ∈ kvs ∧ kvs[i]? = some x ∧ lvs[i]? = some y ∧ x.1 = y.1 := by
      intro y hy
      obtain ⟨i, x, hx, h1, h2⟩ := partner hl hy
      refine ⟨i, x, hx, h1, h2, ?_⟩
      have := congrArg (fun l => l[i]?) hkeys
      simp only [List.getElem?_map, h1, h2, Option.map_some] at this
      exact Option.some.inj this
    refine dict_validate_same hty (fun y hy => ?_) ⟨?_, fun y hy => ?_⟩
    · obtain ⟨i, x, hx, h1, h2, h3⟩ := hkey y hy
      refine ⟨?_, (hN2 x hx w3 L y.2 (hcp i x y h1 h2)).valid m (by omega) nm inst w' hk hs2⟩
      rw [← h3]
      exact (hN1 x hx w3 L x.1 (.scalar kp x.1 hsk)).valid m (by omega) nm inst w' hk hs1
    · rw [← hkeys]; exact hd
    · obtain ⟨i, x, hx, h1, h2, h3⟩ := hkey y hy
      rw [← h3]
      exact hh x hx
  | inst p c r o hc hty ho hsub hrec hreb hnd hown _ ih =>
    refine ⟨.inst p c r r o o hty ho ho (Nat.zero_le _) rfl (fun _ _ _ _ _ h => h) fun nm e q h1 h2 h3 => ?_,
      fun w3 L v' hv => ?_, 1, fun w3 L v' hv => ?_⟩
    · have hmem : (nm, valueAt o nm) ∈ o.backend := by
        unfold valueAt at h3 ⊢
        cases h : lookupS nm o.backend with
        | none => rw [h] at h3; exact absurd rfl h3
        | some v => exact lookupS_mem_props h
      exact (ih nm _ e q hmem h1 h2 h3).1
    · have hb := copyOf_inv hv
      rw [hty] at hb
      obtain ⟨r', o1, o', rfl, h1, h2, _, h3, _⟩ := hb r rfl
      rw [ho] at h1
      cases h1
      intro r1 o1 hr hr1
      cases hr
      rw [ho] at hr1
      cases hr1
      exact ⟨r', o', rfl, h2, h3⟩
    have hb := copyOf_inv hv
    rw [hty] at hb
    obtain ⟨r', o1, o', rfl, h1, h2, _, h3, _⟩ := hb r rfl
    rw [ho] at h1
    cases h1
    refine ⟨by simp, fun h => by simp at h, .inr (.inr (.inr (.inl ⟨c, r', hty, rfl⟩))), fun n hn nm inst w' hk _ => ?_⟩
    obtain ⟨m, rfl⟩ : ∃ m, n = m + 1 := ⟨n - 1, by omega⟩
    show validateBody E (run E m) nm p inst (.obj r') w' = _
    unfold validateBody
    simp only [hty]
    unfold instValidate
    simp only
    obtain ⟨o2, ho2, hc2⟩ := hk r' o'.cls ⟨o', h2, rfl⟩
    rw [bind_ok (getObj_some ho2), if_pos (by rw [hc2, h3]; exact hsub)]
    rfl
  | union p q pre post v hc hvn hty href hread hS _ ih =>
    obtain ⟨hself, hsame, N, hN⟩ := ih
    have hpick : ∀ nm, Picks E w nm v (pre ++ q :: post) (some q) := fun nm =>
      picks_after ⟨N, v, fun n hn => by
        rw [(hN w 0 v hself).valid n hn nm none w (clsKept_refl w) (.inl (silent_none w))]⟩ pre href
    have hinv : ∀ w3 L v', CopyOf E w w3 L p v v' → CopyOf E w w3 L q v v' := by
      intro w3 L v' hv
      have hb := copyOf_inv hv
      rw [hty] at hb
      obtain ⟨q', hp', hcq⟩ := hb
      cases picks_unique (hpick []) (hp' [])
      exact hcq
    refine ⟨.union p q _ _ v v hty hpick hself, fun w3 L v' hv => hsame w3 L v' (hinv w3 L v' hv),
      max N 1 + 1, fun w3 L v' hv => ?_⟩
    have hcq := hinv w3 L v' hv
    have hu := hN w3 L v' hcq
    refine ⟨hu.defined, hu.some, .inr (.inr (.inr (.inr ⟨_, _, hty⟩))), fun n hn nm inst w' hk hs => ?_⟩
    obtain ⟨m, rfl⟩ : ∃ m, n = m + 2 := ⟨n - 2, by omega⟩
    have hs : Silent w' inst := hs.resolve_right fun h => noUnion_union hty h
    show validateBody E (run E (m + 1)) nm p inst v' w' = _
    unfold validateBody
    simp only [hty]
    refine tryProps_after (f := fun p => .validate nm p inst v')
      (hu.valid (m + 1) (by omega) nm inst w' hk (.inl hs)) pre fun p' hp' => ?_
    obtain ⟨e, he, hr⟩ := refuses_run (nm := nm) (copy_refuses (hsame w3 L v' hcq) hcq (href p' hp')) hk hs
    exact ⟨e, he, hr m⟩

theorem canon_usable {E : Env} {S : PropTy → Val → Prop} {ic tr : Bool} {w : World} {p : PropSpec}
    {v : Val} (h : Canon E S ic tr w p v) :
    ∃ N, ∀ w3 L v', CopyOf E w w3 L p v v' → Usable E p N w3 v v' :=
  (canon_usable_self h).2.2

/-- The alternative a canonical value belongs to is the one picked. -/
theorem canon_picks {E : Env} {S : PropTy → Val → Prop} {ic tr : Bool} {w : World} {q : PropSpec}
    {pre post : List PropSpec} {v : Val} (h : Canon E S ic tr w q v)
    (hr : ∀ p' ∈ pre, Refuses E w p'.ty v) (nm : PyStr) : Picks E w nm v (pre ++ q :: post) (some q) := by
  obtain ⟨hself, _, N, hN⟩ := canon_usable_self h
  refine picks_after ⟨N, v, fun n hn => ?_⟩ pre hr
  rw [(hN w 0 v hself).valid n hn nm none w (clsKept_refl w) (.inl (silent_none w))]

end Verif
