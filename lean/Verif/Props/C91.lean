import Verif.Spec.Tags
import Verif.Lemmas.Classes

/-!
# C91: metadata and terms of property objects
-/

namespace Verif.Tags
open Spec.Tagging
open Cls (nodup_setS lookupS_setS')

/-! ## Dictionaries -/

abbrev Keyed (d : Dict) : Prop := (d.map Prod.fst).Nodup

theorem lastFor_none {k : PyStr} : ∀ {l : Dict}, k ∉ l.map Prod.fst → lastFor k l = none
  | [], _ => rfl
  | x :: l, h => by
      simp only [List.map_cons, List.mem_cons, not_or] at h
      simp [lastFor, lastFor_none h.2, Ne.symm h.1]

theorem lastFor_lookup {k : PyStr} : ∀ {l : Dict}, Keyed l → lastFor k l = lookupS k l
  | [], _ => rfl
  | (a, v) :: l, h => by
      unfold Keyed at h
      simp only [List.map_cons, List.nodup_cons] at h
      by_cases hk : a = k
      · subst hk
        simp [lastFor, lookupS, lastFor_none h.1]
      · simp only [lastFor, lookupS, lastFor_lookup h.2, if_neg hk]
        cases lookupS k l <;> rfl

theorem keyed_update : ∀ {b a : Dict}, Keyed a → Keyed (update a b)
  | [], _, h => h
  | (_, _) :: b, _, h => keyed_update (b := b) (nodup_setS h)

theorem keyed_nil : Keyed [] := List.nodup_nil

theorem eraseS_sublist {k : PyStr} : ∀ (l : Dict), (eraseS k l).Sublist l
  | [] => List.Sublist.slnil
  | (a, v) :: l => by
      unfold eraseS
      split
      · exact (eraseS_sublist l).cons _
      · exact (eraseS_sublist l).cons_cons _

theorem keyed_erase {k : PyStr} {d : Dict} (h : Keyed d) : Keyed (eraseS k d) :=
  List.Nodup.sublist ((eraseS_sublist d).map _) h

theorem lookup_update (k : PyStr) : ∀ (b a : Dict), lookupS k (update a b) = (lastFor k b).or (lookupS k a)
  | [], _ => rfl
  | (x, v) :: b, a => by
      rw [update, lookup_update k b, lookupS_setS']
      simp only [lastFor]
      by_cases hx : x = k
      · rw [if_pos hx, if_pos hx]
        cases lastFor k b <;> rfl
      · rw [if_neg hx, if_neg hx]
        cases lastFor k b <;> rfl

theorem last_update (k : PyStr) (b : Dict) {a : Dict} (h : Keyed a) :
    lastFor k (update a b) = (lastFor k b).or (lastFor k a) := by
  rw [lastFor_lookup (keyed_update h), lookup_update, lastFor_lookup h]

theorem setS_new {k : PyStr} {v : Val} : ∀ {a : Dict}, k ∉ a.map Prod.fst → setS k v a = a ++ [(k, v)]
  | [], _ => rfl
  | (x, y) :: a, h => by
      simp only [List.map_cons, List.mem_cons, not_or] at h
      unfold setS
      rw [if_neg (Ne.symm h.1), setS_new h.2]
      rfl

theorem update_append : ∀ (b a : Dict), Keyed (a ++ b) → update a b = a ++ b
  | [], a, _ => by simp [update]
  | (k, v) :: b, a, h => by
      have h' : k ∉ a.map Prod.fst := by
        unfold Keyed at h
        rw [List.map_append, List.nodup_append] at h
        exact fun hk => h.2.2 k hk k (by simp) rfl
      have e : a ++ (k, v) :: b = (a ++ [(k, v)]) ++ b := by simp
      rw [update, setS_new h', update_append b _ (by rw [← e]; exact h), e]

theorem update_self {d : Dict} (h : Keyed d) : update [] d = d := by
  rw [update_append d [] (by simpa using h)]; rfl

/-! ## Steps -/

theorem dict_of {s : State} {r : Nat} {d : Dict} (h : s.dicts[r]? = some d) : s.dict r = d := by
  simp [State.dict, h]

theorem declare_ok {ok : List Val → Dict → Bool} {args : List Val} {kw : Dict} (s : State) (h : ok args kw = true) :
    declare ok args kw s = (.prop s.props.length,
      { s with dicts := s.dicts ++ [kw, eraseS (s% "default") kw, []],
               props := s.props ++ [⟨s.dicts.length + 2, args, s.dicts.length, initOpts kw⟩] }) := by
  simp [declare, h, State.alloc, State.put, State.dict]

theorem declare_bad {ok : List Val → Dict → Bool} {args : List Val} {kw : Dict} (s : State) (h : ok args kw = false) :
    declare ok args kw s = (.attributeError, { s with dicts := s.dicts ++ [kw, kw] }) := by
  simp [declare, h, State.alloc, State.dict]

/-- What a `tag` call leaves in the metadata. -/
def after (s : State) (kw m : Dict) : List Arg → Option Dict
  | [] => some (update m kw)
  | [.dict r] => some (update (update m (s.dict r)) kw)
  | _ => none

theorem tag_eq {s : State} {p : Nat} {o : PropObj} (ho : s.props[p]? = some o) (hm : o.metaRef < s.dicts.length)
    (pos : List Arg) (kw : Dict) :
    tag p pos kw s = match after s kw (s.dict o.metaRef) pos with
      | some d => (.prop p, s.put o.metaRef d)
      | none => (.typeError, s) := by
  rcases pos with _ | ⟨a, _ | ⟨b, l⟩⟩
  · simp [tag, ho, after]
  · cases a
    · simp [tag, ho, after, State.put, State.dict, hm]
    · simp [tag, ho, after]
  · cases a <;> simp [tag, ho, after]

theorem decorate_eq {s : State} {p : Nat} {o : PropObj} (ho : s.props[p]? = some o) (hm : o.metaRef < s.dicts.length)
    (doc func : Val) :
    decorate p doc func s = (.prop s.props.length,
      { s with dicts := s.dicts ++ [[(s% "func", func), (s% "prop", .opq p)], update [] (s.dict o.metaRef)],
               props := s.props ++ [⟨s.dicts.length + 1, [doc], s.dicts.length, []⟩] }) := by
  simp [decorate, ho, State.alloc, tag, State.put, State.dict, update, hm, List.getElem?_append_left]

theorem getMeta_none (ok : List Val → Dict → Bool) {s : State} {p : Nat} (h : s.props[p]? = none) :
    exec ok s (.getMeta p) = (.done, s) := by simp [exec, h]

theorem getMeta_some (ok : List Val → Dict → Bool) {s : State} {p : Nat} {o : PropObj} (h : s.props[p]? = some o) :
    exec ok s (.getMeta p) = (.dict o.metaRef, { s with known := s.known ++ [o.metaRef] }) := by simp [exec, h]

theorem getTerms_none (ok : List Val → Dict → Bool) {s : State} {p : Nat} (h : s.props[p]? = none) :
    exec ok s (.getTerms p) = (.done, s) := by simp [exec, h]

theorem getTerms_some (ok : List Val → Dict → Bool) {s : State} {p : Nat} {o : PropObj} (h : s.props[p]? = some o) :
    exec ok s (.getTerms p) =
      (.terms o.args o.kwRef o.metaRef, { s with known := s.known ++ [o.kwRef, o.metaRef] }) := by simp [exec, h]

/-! ## The invariant -/

/-- `X` are the properties whose metadata dictionary has been handed out. -/
structure Inv (X : Nat → Prop) (s : State) : Prop where
  lt : ∀ (p : Nat) (o : PropObj), s.props[p]? = some o → o.metaRef < s.dicts.length ∧ o.kwRef < s.dicts.length
  knownLt : ∀ r ∈ s.known, r < s.dicts.length
  inj : ∀ (p q : Nat) (o o' : PropObj), s.props[p]? = some o → s.props[q]? = some o' → o.metaRef = o'.metaRef → p = q
  shown : ∀ (p : Nat) (o : PropObj), s.props[p]? = some o → o.metaRef ∈ s.known → X p
  kwMeta : ∀ (p q : Nat) (o o' : PropObj), s.props[p]? = some o → s.props[q]? = some o' → o.kwRef = o'.metaRef → X q
  keyed : ∀ d ∈ s.dicts, Keyed d

variable {X : Nat → Prop} {s : State}

theorem Inv.mono {Y : Nat → Prop} (h : Inv X s) (hXY : ∀ p, X p → Y p) : Inv Y s :=
  ⟨h.lt, h.knownLt, h.inj, fun p o a b => hXY _ (h.shown p o a b), fun p q o o' a b c => hXY _ (h.kwMeta p q o o' a b c), h.keyed⟩

theorem inv_init (X : Nat → Prop) : Inv X {} :=
  ⟨fun p o h => by simp at h, fun r h => by simp at h, fun p q o o' h => by simp at h, fun p o h => by simp at h,
    fun p q o o' h => by simp at h, fun d h => by simp at h⟩

theorem inv_grow (h : Inv X s) {ds : List Dict} (hd : ∀ d ∈ ds, Keyed d) : Inv X { s with dicts := s.dicts ++ ds } := by
  refine ⟨fun p o hp => ?_, fun r hr => ?_, h.inj, h.shown, h.kwMeta, fun d hm => ?_⟩
  · have := h.lt p o hp
    simp only [List.length_append]; omega
  · have := h.knownLt r hr
    simp only [List.length_append]; omega
  · rcases List.mem_append.1 hm with hm | hm
    · exact h.keyed d hm
    · exact hd d hm

theorem inv_put (h : Inv X s) (r : Nat) {d : Dict} (hd : Keyed d) : Inv X (s.put r d) := by
  refine ⟨fun p o hp => by simpa [State.put] using h.lt p o hp, fun r hr => by simpa [State.put] using h.knownLt r hr,
    h.inj, h.shown, h.kwMeta, fun x hx => ?_⟩
  rcases List.mem_or_eq_of_mem_set hx with hx | hx
  · exact h.keyed x hx
  · exact hx ▸ hd

theorem inv_know (h : Inv X s) {rs : List Nat} (hr : ∀ r ∈ rs, r < s.dicts.length)
    (hx : ∀ p o, s.props[p]? = some o → o.metaRef ∈ rs → X p) : Inv X { s with known := s.known ++ rs } := by
  refine ⟨h.lt, fun r hm => ?_, h.inj, fun p o hp hm => ?_, h.kwMeta, h.keyed⟩
  · rcases List.mem_append.1 hm with hm | hm
    · exact h.knownLt r hm
    · exact hr r hm
  · rcases List.mem_append.1 hm with hm | hm
    · exact h.shown p o hp hm
    · exact hx p o hp hm

theorem getElem?_snoc {α : Type} {l : List α} {a b : α} {i : Nat} (h : (l ++ [a])[i]? = some b) :
    l[i]? = some b ∨ (i = l.length ∧ b = a) := by
  by_cases hi : i < l.length
  · rw [List.getElem?_append_left hi] at h; exact Or.inl h
  · rw [List.getElem?_append_right (by omega)] at h
    have : i - l.length = 0 := by
      rcases Nat.eq_zero_or_pos (i - l.length) with h0 | h0
      · exact h0
      · rw [List.getElem?_eq_none (by simp; omega)] at h; cases h
    rw [this] at h
    simp at h
    exact Or.inr ⟨by omega, h.symm⟩

theorem inv_new (h : Inv X s) {ds : List Dict} (hd : ∀ d ∈ ds, Keyed d) {o : PropObj}
    (h1 : s.dicts.length ≤ o.metaRef) (h2 : o.metaRef < s.dicts.length + ds.length)
    (h3 : s.dicts.length ≤ o.kwRef) (h4 : o.kwRef < s.dicts.length + ds.length) (h5 : o.kwRef ≠ o.metaRef) :
    Inv X { s with dicts := s.dicts ++ ds, props := s.props ++ [o] } := by
  have g := inv_grow h hd
  refine ⟨fun p o' hp => ?_, g.knownLt, fun p q a b hp hq hab => ?_, fun p o' hp hk => ?_,
    fun p q a b hp hq hab => ?_, g.keyed⟩
  · rcases getElem?_snoc hp with hp | ⟨_, rfl⟩
    · exact g.lt p o' hp
    · simp only [List.length_append]; exact ⟨h2, h4⟩
  · rcases getElem?_snoc hp with hp | ⟨hi, rfl⟩ <;> rcases getElem?_snoc hq with hq | ⟨hj, rfl⟩
    · exact h.inj p q a b hp hq hab
    · have := h.lt p a (by assumption); omega
    · have := h.lt q b (by assumption); omega
    · omega
  · rcases getElem?_snoc hp with hp | ⟨_, rfl⟩
    · exact h.shown p o' hp hk
    · have := h.knownLt _ hk; omega
  · rcases getElem?_snoc hp with hp | ⟨hi, rfl⟩ <;> rcases getElem?_snoc hq with hq | ⟨hj, rfl⟩
    · exact h.kwMeta p q a b hp hq hab
    · have := h.lt p a (by assumption); omega
    · have := h.lt q b (by assumption); omega
    · exact absurd hab h5

theorem dict_keyed (h : Inv X s) (r : Nat) : Keyed (s.dict r) := by
  unfold State.dict
  cases hr : s.dicts[r]? with
  | none => exact keyed_nil
  | some d => exact h.keyed d (List.mem_of_getElem? hr)

theorem after_keyed (h : Inv X s) {kw m : Dict} (hm : Keyed m) {pos : List Arg} {d : Dict}
    (ha : after s kw m pos = some d) : Keyed d := by
  rcases pos with _ | ⟨a, _ | ⟨b, l⟩⟩
  · cases ha; exact keyed_update hm
  · cases a
    · cases ha; exact keyed_update (keyed_update hm)
    · cases ha
  · cases a <;> cases ha

theorem mutate_inv (h : Inv X s) (i : Nat) {f : Dict → Dict} (hf : ∀ d, Keyed d → Keyed (f d)) :
    Inv X (mutateAt i f s).2 := by
  unfold mutateAt
  cases s.ref i with
  | none => exact h
  | some r => exact inv_put h r (hf _ (dict_keyed h r))

/-- What setting the terms does. -/
theorem setTerms_cases (p : Nat) (value : Option (List (PyStr × TArg))) (s : State) :
    (setTerms p value s).2 = s ∨ ∃ o d a k, s.props[p]? = some o ∧ value = some d ∧
      lookupS (s% "kwargs") d = some (.dict k) ∧ lookupS (s% "args") d = some (.tuple a) ∧
      setTerms p value s = (.done, { s with props := s.props.set p { o with args := a, kwRef := k } }) := by
  unfold setTerms
  split
  · exact Or.inl rfl
  · exact Or.inl rfl
  · rename_i o d ho
    split
    · exact Or.inl rfl
    · split
      · rename_i a k h1 h2
        exact Or.inr ⟨o, d, a, k, ho, rfl, h2, h1, rfl⟩
      · exact Or.inl rfl

theorem lookup_resolve {k : PyStr} {r : Nat} : ∀ {d : List (PyStr × TArg)},
    lookupS k (d.map fun x => (x.1, x.2.resolve s)) = some (.dict r) → r ∈ s.known
  | [], h => by cases h
  | (a, t) :: d, h => by
      simp only [List.map_cons, lookupS] at h
      split at h
      · cases t with
        | tuple a => cases h
        | other v => cases h
        | dict i =>
          simp only [TArg.resolve] at h
          cases hr : s.ref i with
          | none => rw [hr] at h; cases h
          | some r' => rw [hr] at h; cases h; exact List.mem_of_getElem? hr
      · exact lookup_resolve h

theorem inv_exec (ok : List Val → Dict → Bool) (h : Inv X s) (o : Op) :
    Inv (fun p => X p ∨ showsMeta p o) (exec ok s o).2 := by
  have hX : Inv (fun p => X p ∨ showsMeta p o) s := h.mono fun p hp => Or.inl hp
  cases o with
  | newDict d =>
    have g := inv_grow (ds := [update [] d]) hX (by simp; exact keyed_update keyed_nil)
    refine inv_know (rs := [s.dicts.length]) g (by simp) fun p o hp hm => ?_
    have := h.lt p o hp
    simp at hm; omega
  | setKey i k v => exact mutate_inv hX i fun d hd => nodup_setS hd
  | popKey i k => exact mutate_inv hX i fun d hd => keyed_erase hd
  | clear i => exact mutate_inv hX i fun d hd => keyed_nil
  | declare args kw =>
    have hk : Keyed (update [] kw) := keyed_update keyed_nil
    show Inv _ (declare ok args (update [] kw) s).2
    cases hok : ok args (update [] kw) with
    | true =>
      rw [declare_ok s hok]
      refine inv_new hX ?_ (by simp) (by simp) (by simp) (by simp) (by simp)
      intro d hd
      simp only [List.mem_cons, List.not_mem_nil, or_false] at hd
      rcases hd with rfl | rfl | rfl
      · exact hk
      · exact keyed_erase hk
      · exact keyed_nil
    | false =>
      rw [declare_bad s hok]
      refine inv_grow hX ?_
      intro d hd
      simp only [List.mem_cons, List.not_mem_nil, or_false, or_self] at hd
      exact hd ▸ hk
  | tag p pos kw =>
    show Inv _ (tag p (pos.map (Arg.resolve s)) kw s).2
    cases ho : s.props[p]? with
    | none => simpa [tag, ho] using hX
    | some o =>
      rw [tag_eq ho (h.lt p o ho).1]
      cases ha : after s kw (s.dict o.metaRef) (pos.map (Arg.resolve s)) with
      | none => exact hX
      | some d => exact inv_put hX _ (after_keyed h (dict_keyed h _) ha)
  | decorate p doc func =>
    show Inv _ (decorate p doc func s).2
    cases ho : s.props[p]? with
    | none => simpa [decorate, ho] using hX
    | some o =>
      rw [decorate_eq ho (h.lt p o ho).1]
      refine inv_new hX ?_ (by simp) (by simp) (by simp) (by simp) (by simp)
      intro d hd
      simp only [List.mem_cons, List.not_mem_nil, or_false] at hd
      rcases hd with rfl | rfl
      · unfold Keyed
        simp
      · exact keyed_update keyed_nil
  | getMeta p =>
    cases ho : s.props[p]? with
    | none => rw [getMeta_none ok ho]; exact hX
    | some o =>
      rw [getMeta_some ok ho]
      refine inv_know hX (by simp; exact (h.lt p o ho).1) fun q o' hq hm => Or.inr ?_
      simp only [List.mem_singleton] at hm
      exact (h.inj p q o o' ho hq hm.symm)
  | getTerms p =>
    cases ho : s.props[p]? with
    | none => rw [getTerms_none ok ho]; exact hX
    | some o =>
      rw [getTerms_some ok ho]
      refine inv_know hX (by simp; exact (h.lt p o ho).symm) fun q o' hq hm => ?_
      simp only [List.mem_cons, List.not_mem_nil, or_false] at hm
      rcases hm with hm | hm
      · exact Or.inl (h.kwMeta p q o o' ho hq hm.symm)
      · exact Or.inr (h.inj p q o o' ho hq hm.symm)
  | setTerms p value =>
    show Inv _ (setTerms p (value.map (·.map fun x => (x.1, x.2.resolve s))) s).2
    rcases setTerms_cases p (value.map (·.map fun x => (x.1, x.2.resolve s))) s with h0 | ⟨o, d, a, k, ho, hv, hk, ha, he⟩
    · rw [h0]; exact hX
    · rw [he]
      obtain ⟨d0, rfl, rfl⟩ : ∃ d0, value = some d0 ∧ d = d0.map fun x => (x.1, x.2.resolve s) := by
        cases value with
        | none => cases hv
        | some d0 => exact ⟨d0, rfl, (Option.some.inj hv).symm⟩
      have hkn : k ∈ s.known := lookup_resolve hk
      have hget : ∀ (q : Nat) (o' : PropObj), (s.props.set p { o with args := a, kwRef := k })[q]? = some o' →
          ∃ b : PropObj, s.props[q]? = some b ∧ o'.metaRef = b.metaRef ∧ (o'.kwRef = b.kwRef ∨ o'.kwRef = k) := by
        intro q o' hq
        rw [List.getElem?_set] at hq
        split at hq
        · rename_i hpq
          subst hpq
          split at hq
          · cases hq; exact ⟨o, ho, rfl, Or.inr rfl⟩
          · cases hq
        · exact ⟨o', hq, rfl, Or.inl rfl⟩
      refine ⟨fun q o' hq => ?_, hX.knownLt, fun q q' a b hq hq' hab => ?_, fun q o' hq hm => ?_,
        fun q q' a b hq hq' hab => ?_, hX.keyed⟩
      · obtain ⟨b, hb, hm, hk⟩ := hget q o' hq
        rw [hm]
        refine ⟨(h.lt q b hb).1, ?_⟩
        rcases hk with hk | hk <;> rw [hk]
        · exact (h.lt q b hb).2
        · exact h.knownLt k hkn
      · obtain ⟨x, hx, hm, -⟩ := hget q a hq
        obtain ⟨y, hy, hm', -⟩ := hget q' b hq'
        exact h.inj q q' x y hx hy (by rw [← hm, ← hm', hab])
      · obtain ⟨x, hx, hm', -⟩ := hget q o' hq
        exact Or.inl (h.shown q x hx (hm' ▸ hm))
      · obtain ⟨x, hx, -, hk'⟩ := hget q a hq
        obtain ⟨y, hy, hm', -⟩ := hget q' b hq'
        rcases hk' with hk' | hk'
        · exact Or.inl (h.kwMeta q q' x y hx hy (by rw [← hk', ← hm', hab]))
        · exact Or.inl (h.shown q' y hy (by rw [← hm', ← hab, hk']; exact hkn))

/-! ## Metadata -/

theorem entry_of {s : State} {r : Nat} {k : PyStr} (hr : r < s.dicts.length) : entry s r k = lastFor k (s.dict r) := by
  simp [entry, State.dict, List.getElem?_eq_getElem hr]

theorem tagged_of {s : State} {p : Nat} {o : PropObj} (ho : s.props[p]? = some o) (k : PyStr) :
    tagged s p k = entry s o.metaRef k := by simp [tagged, ho]

theorem tagged_none {s : State} {p : Nat} (ho : s.props[p]? = none) (k : PyStr) : tagged s p k = none := by
  simp [tagged, ho]

theorem tagged_same {s s' : State} {p : Nat} {k : PyStr} (hp : s'.props[p]? = s.props[p]?)
    (he : ∀ o, s.props[p]? = some o → entry s' o.metaRef k = entry s o.metaRef k) : tagged s' p k = tagged s p k := by
  unfold tagged
  rw [hp]
  cases ho : s.props[p]? with
  | none => rfl
  | some o => exact he o ho

theorem entry_grow {s : State} {ds : List Dict} {ps : List PropObj} {kn : List Nat} {r : Nat} (hr : r < s.dicts.length) (k : PyStr) :
    entry { dicts := s.dicts ++ ds, props := ps, known := kn } r k = entry s r k := by
  simp [entry, List.getElem?_append_left hr]

theorem entry_put {s : State} {r r' : Nat} (h : r' ≠ r) (d : Dict) (k : PyStr) : entry (s.put r d) r' k = entry s r' k := by
  simp [entry, State.put, List.getElem?_set_ne (Ne.symm h)]

theorem entry_put_self {s : State} {r : Nat} (hr : r < s.dicts.length) (d : Dict) (k : PyStr) :
    entry (s.put r d) r k = lastFor k d := by
  simp [entry, State.put, hr]

theorem gives_after (h : Inv X s) {kw m : Dict} (hm : Keyed m) (k : PyStr) (pos : List Arg) :
    (∀ d, after s kw m (pos.map (Arg.resolve s)) = some d → lastFor k d = (gives s k kw pos).or (lastFor k m)) ∧
    (after s kw m (pos.map (Arg.resolve s)) = none → gives s k kw pos = none) := by
  rcases pos with _ | ⟨a, _ | ⟨b, l⟩⟩
  · refine ⟨fun d hd => ?_, fun hd => (by cases hd)⟩
    cases hd
    exact last_update k kw hm
  · cases a with
    | other v => exact ⟨fun d hd => (by cases hd), fun _ => rfl⟩
    | dict i =>
      cases hr : s.known[i]? with
      | none =>
        have : ([Arg.dict i].map (Arg.resolve s)) = [.other .none] := by simp [Arg.resolve, State.ref, hr]
        rw [this]
        exact ⟨fun d hd => (by cases hd), fun _ => by simp [gives, hr]⟩
      | some r =>
        have : ([Arg.dict i].map (Arg.resolve s)) = [.dict r] := by simp [Arg.resolve, State.ref, hr]
        rw [this]
        refine ⟨fun d hd => ?_, fun hd => (by cases hd)⟩
        cases hd
        rw [last_update k kw (keyed_update hm), last_update k _ hm]
        have hlt := h.knownLt r (List.mem_of_getElem? hr)
        simp only [gives, hr, entry_of hlt]
        cases lastFor k kw <;> rfl
  · have hn : after s kw m ((a :: b :: l).map (Arg.resolve s)) = none := by
      simp only [List.map_cons]
      cases a.resolve s <;> rfl
    rw [hn]
    cases a <;> exact ⟨fun d hd => (by cases hd), fun _ => rfl⟩

theorem props_mutate (i : Nat) (f : Dict → Dict) (s : State) : (mutateAt i f s).2.props = s.props := by
  unfold mutateAt
  split <;> rfl

theorem entry_mutate {i r : Nat} (h : ∀ r', s.known[i]? = some r' → r' ≠ r) (f : Dict → Dict) (k : PyStr) :
    entry (mutateAt i f s).2 r k = entry s r k := by
  unfold mutateAt
  cases hr : s.ref i with
  | none => rfl
  | some r' => exact entry_put (Ne.symm (h r' hr)) _ k

theorem tagged_mutate {i p : Nat} (h : ∀ r o, s.known[i]? = some r → s.props[p]? = some o → r ≠ o.metaRef)
    (f : Dict → Dict) (k : PyStr) : tagged (mutateAt i f s).2 p k = tagged s p k := by
  cases ho : s.props[p]? with
  | none => rw [tagged_none ho, tagged_none (by rw [props_mutate]; exact ho)]
  | some o =>
    rw [tagged_of ho, tagged_of (by rw [props_mutate]; exact ho)]
    exact entry_mutate (fun r hr => h r o hr ho) f k

/-- One step: a key of the metadata has the value the operation gives it, or the one it
had. -/
theorem step_tagged (ok : List Val → Dict → Bool) (h : Inv X s) (op : Op) (p : Nat) (k : PyStr)
    (hc : ∀ i r o, changes i op → s.known[i]? = some r → s.props[p]? = some o → r ≠ o.metaRef) :
    tagged (exec ok s op).2 p k = (given s p k op).or (tagged s p k) := by
  cases op with
  | newDict d =>
    show tagged _ p k = tagged s p k
    exact tagged_same rfl fun o ho => entry_grow (h.lt p o ho).1 k
  | setKey i k' v => exact tagged_mutate (fun r o => hc i r o rfl) _ k
  | popKey i k' => exact tagged_mutate (fun r o => hc i r o rfl) _ k
  | clear i => exact tagged_mutate (fun r o => hc i r o rfl) _ k
  | declare args kw =>
    show tagged (declare ok args (update [] kw) s).2 p k = tagged s p k
    cases hok : ok args (update [] kw) with
    | false =>
      rw [declare_bad s hok]
      exact tagged_same rfl fun o ho => entry_grow (h.lt p o ho).1 k
    | true =>
      rw [declare_ok s hok]
      cases ho : s.props[p]? with
      | some o =>
        exact tagged_same (List.getElem?_append_left (List.getElem?_eq_some_iff.1 ho).1)
          fun o ho => entry_grow (h.lt p o ho).1 k
      | none =>
        rw [tagged_none ho]
        have hp : s.props.length ≤ p := List.getElem?_eq_none_iff.1 ho
        by_cases he : p = s.props.length
        · subst he
          rw [tagged_of (o := ⟨s.dicts.length + 2, args, s.dicts.length, initOpts (update [] kw)⟩) (by simp)]
          simp [entry, lastFor]
        · rw [tagged_none]
          show (s.props ++ _)[p]? = none
          exact List.getElem?_eq_none (by simp; omega)
  | tag q pos kw =>
    show tagged (tag q (pos.map (Arg.resolve s)) kw s).2 p k = _
    cases hq : s.props[q]? with
    | none =>
      have : ¬ q < s.props.length := by simpa using hq
      simp [tag, given, this]
    | some o =>
      have hlt := (List.getElem?_eq_some_iff.1 hq).1
      have hm := (h.lt q o hq).1
      obtain ⟨g1, g2⟩ := gives_after h (dict_keyed h o.metaRef) k pos (kw := kw)
      rw [tag_eq hq hm]
      by_cases hqp : q = p
      · subst hqp
        simp only [given, hlt, and_self, if_true]
        rw [tagged_of hq]
        cases ha : after s kw (s.dict o.metaRef) (pos.map (Arg.resolve s)) with
        | none => rw [g2 ha]; exact tagged_of hq k
        | some d =>
          show tagged (s.put o.metaRef d) q k = _
          rw [tagged_of (s := s.put o.metaRef d) (o := o) hq, entry_put_self hm, g1 d ha, entry_of hm]
      · simp only [given, hqp, false_and, if_false]
        show _ = tagged s p k
        cases ha : after s kw (s.dict o.metaRef) (pos.map (Arg.resolve s)) with
        | none => rfl
        | some d =>
          exact tagged_same (s' := s.put o.metaRef d) rfl fun o' ho =>
            entry_put (fun he => hqp (h.inj q p o o' hq ho he.symm)) d k
  | decorate q doc func =>
    show tagged (decorate q doc func s).2 p k = _
    cases hq : s.props[q]? with
    | none =>
      have : ¬ q < s.props.length := by simpa using hq
      simp [decorate, given, this]
    | some o =>
      have hlt := (List.getElem?_eq_some_iff.1 hq).1
      have hm := (h.lt q o hq).1
      rw [decorate_eq hq hm]
      simp only [given, hlt, and_true]
      cases ho : s.props[p]? with
      | some o' =>
        have hp := (List.getElem?_eq_some_iff.1 ho).1
        rw [if_neg (by omega)]
        exact tagged_same (List.getElem?_append_left hp) fun o ho => entry_grow (h.lt p o ho).1 k
      | none =>
        have hp : s.props.length ≤ p := List.getElem?_eq_none_iff.1 ho
        rw [tagged_none ho]
        by_cases he : s.props.length = p
        · subst he
          rw [if_pos rfl, tagged_of (o := ⟨s.dicts.length + 1, [doc], s.dicts.length, []⟩) (by simp), tagged_of hq, entry_of hm]
          simp only [entry, Option.or_none]
          rw [List.getElem?_append_right (by omega)]
          simp [update_self (dict_keyed h o.metaRef)]
        · rw [if_neg he, tagged_none]
          · rfl
          · show (s.props ++ _)[p]? = none
            exact List.getElem?_eq_none (by simp; omega)
  | getMeta q =>
    cases ho : s.props[q]? with
    | none => rw [getMeta_none ok ho]; rfl
    | some o => rw [getMeta_some ok ho]; rfl
  | getTerms q =>
    cases ho : s.props[q]? with
    | none => rw [getTerms_none ok ho]; rfl
    | some o => rw [getTerms_some ok ho]; rfl
  | setTerms q value =>
    show tagged (setTerms q (value.map (·.map fun x => (x.1, x.2.resolve s))) s).2 p k = tagged s p k
    rcases setTerms_cases q (value.map (·.map fun x => (x.1, x.2.resolve s))) s with h0 | ⟨o, d, a, kr, ho, hv, hk, ha, he⟩
    · rw [h0]
    · rw [he]
      by_cases hqp : q = p
      · subst hqp
        rw [tagged_of ho, tagged_of (s := { s with props := s.props.set q { o with args := a, kwRef := kr } })
          (o := { o with args := a, kwRef := kr }) (by simp [(List.getElem?_eq_some_iff.1 ho).1])]
        rfl
      · exact tagged_same (List.getElem?_set_ne hqp) fun o ho => rfl

theorem execAll_cons (ok : List Val → Dict → Bool) (s : State) (o : Op) (ops : List Op) :
    execAll ok s (o :: ops) = execAll ok (exec ok s o).2 ops := rfl

theorem execAll_append (ok : List Val → Dict → Bool) (s : State) (a b : List Op) :
    execAll ok s (a ++ b) = execAll ok (execAll ok s a) b := List.foldl_append

theorem inv_all (ok : List Val → Dict → Bool) : ∀ (ops : List Op) {X : Nat → Prop} {s : State}, Inv X s →
    Inv (fun p => X p ∨ ∃ o ∈ ops, showsMeta p o) (execAll ok s ops)
  | [], _, _, h => h.mono fun _ => Or.inl
  | o :: ops, _, _, h => (inv_all ok ops (inv_exec ok h o)).mono fun p hp => by
      rcases hp with (hp | hp) | ⟨o', ho, hp⟩
      · exact Or.inl hp
      · exact Or.inr ⟨o, by simp, hp⟩
      · exact Or.inr ⟨o', by simp [ho], hp⟩

theorem reached (ok : List Val → Dict → Bool) (ops : List Op) :
    Inv (fun p => ∃ o ∈ ops, showsMeta p o) (execAll ok {} ops) :=
  (inv_all ok ops (inv_init fun _ => False)).mono fun p hp => by
    rcases hp with hp | hp
    · cases hp
    · exact hp

/-! ## Theorems on metadata -/

theorem history_aux (ok : List Val → Dict → Bool) (p : Nat) (k : PyStr) : ∀ (ops : List Op) {X : Nat → Prop} {s : State},
    Inv X s → ¬ X p → (∀ o ∈ ops, ¬ showsMeta p o) →
    tagged (execAll ok s ops) p k = (lastGiven ok p k s ops).or (tagged s p k)
  | [], _, _, _, _, _ => rfl
  | o :: ops, X, s, h, hX, hs => by
      have ih := history_aux ok p k ops (inv_exec ok h o)
        (fun hp => hp.elim hX (hs o (by simp))) fun o' ho => hs o' (by simp [ho])
      rw [execAll_cons, ih, step_tagged ok h o p k]
      · simp only [lastGiven]
        cases lastGiven ok p k (exec ok s o).2 ops <;> rfl
      · intro i r ob _ hr ho he
        exact hX (h.shown p ob ho (he ▸ List.mem_of_getElem? hr))

/-- A property whose metadata dictionary is not handed out has, under every key, the
value given last by `tag`, or when it was made from another property; whatever else the
program does, also to the dictionaries it tagged with. -/
theorem C91_history (ok : List Val → Dict → Bool) (ops : List Op) (p : Nat) (k : PyStr)
    (hs : ∀ o ∈ ops, ¬ showsMeta p o) : tagged (execAll ok {} ops) p k = lastGiven ok p k {} ops := by
  rw [history_aux ok p k ops (inv_init fun _ => False) (fun h => h) hs]
  cases lastGiven ok p k {} ops <;> rfl

/-- After any history, an operation other than tagging `p` changes the metadata of `p`
only if it changes the very dictionary handed out by `p.meta` or `p.terms`. -/
theorem C91_isolated (ok : List Val → Dict → Bool) (ops : List Op) (op : Op) (p : Nat) (k : PyStr)
    (hp : p < (execAll ok {} ops).props.length) (ht : ¬ tags p op)
    (hc : ∀ i r o, changes i op → (execAll ok {} ops).known[i]? = some r → (execAll ok {} ops).props[p]? = some o → r ≠ o.metaRef) :
    tagged (exec ok (execAll ok {} ops) op).2 p k = tagged (execAll ok {} ops) p k := by
  rw [step_tagged ok (reached ok ops) op p k hc]
  have : given (execAll ok {} ops) p k op = none := by
    cases op <;> simp only [given]
    · rename_i q pos kw
      rw [if_neg]
      exact fun h => ht h.1
    · rw [if_neg]
      omega
  rw [this]; rfl

/-- Two properties never have the same metadata dictionary. -/
theorem C91_separate (ok : List Val → Dict → Bool) (ops : List Op) (p q : Nat) (o o' : PropObj)
    (hp : (execAll ok {} ops).props[p]? = some o) (hq : (execAll ok {} ops).props[q]? = some o')
    (he : o.metaRef = o'.metaRef) : p = q := (reached ok ops).inj p q o o' hp hq he

theorem metas_new (ok : List Val → Dict → Bool) {s : State} (h : Inv X s) (op : Op) (p : Nat) (o : PropObj)
    (hp : (exec ok s op).2.props[p]? = some o) :
    (∃ o', s.props[p]? = some o' ∧ o'.metaRef = o.metaRef) ∨ s.dicts.length ≤ o.metaRef := by
  cases op with
  | newDict d => exact Or.inl ⟨o, hp, rfl⟩
  | setKey i k v => exact Or.inl ⟨o, by rw [← hp]; exact congrArg (·[p]?) (props_mutate i _ s).symm, rfl⟩
  | popKey i k => exact Or.inl ⟨o, by rw [← hp]; exact congrArg (·[p]?) (props_mutate i _ s).symm, rfl⟩
  | clear i => exact Or.inl ⟨o, by rw [← hp]; exact congrArg (·[p]?) (props_mutate i _ s).symm, rfl⟩
  | declare args kw =>
    change (declare ok args (update [] kw) s).2.props[p]? = some o at hp
    cases hok : ok args (update [] kw) with
    | true =>
      rw [declare_ok s hok] at hp
      rcases getElem?_snoc hp with hp | ⟨_, rfl⟩
      · exact Or.inl ⟨o, hp, rfl⟩
      · exact Or.inr (by simp)
    | false => rw [declare_bad s hok] at hp; exact Or.inl ⟨o, hp, rfl⟩
  | tag q pos kw =>
    change (tag q (pos.map (Arg.resolve s)) kw s).2.props[p]? = some o at hp
    cases ho : s.props[q]? with
    | none => simp only [tag, ho] at hp; exact Or.inl ⟨o, hp, rfl⟩
    | some o' =>
      rw [tag_eq ho (h.lt q o' ho).1] at hp
      cases ha : after s kw (s.dict o'.metaRef) (pos.map (Arg.resolve s)) <;> rw [ha] at hp <;> exact Or.inl ⟨o, hp, rfl⟩
  | decorate q doc func =>
    change (decorate q doc func s).2.props[p]? = some o at hp
    cases ho : s.props[q]? with
    | none => simp only [decorate, ho] at hp; exact Or.inl ⟨o, hp, rfl⟩
    | some o' =>
      rw [decorate_eq ho (h.lt q o' ho).1] at hp
      rcases getElem?_snoc hp with hp | ⟨_, rfl⟩
      · exact Or.inl ⟨o, hp, rfl⟩
      · exact Or.inr (by simp)
  | getMeta q =>
    cases ho : s.props[q]? with
    | none => rw [getMeta_none ok ho] at hp; exact Or.inl ⟨o, hp, rfl⟩
    | some o' => rw [getMeta_some ok ho] at hp; exact Or.inl ⟨o, hp, rfl⟩
  | getTerms q =>
    cases ho : s.props[q]? with
    | none => rw [getTerms_none ok ho] at hp; exact Or.inl ⟨o, hp, rfl⟩
    | some o' => rw [getTerms_some ok ho] at hp; exact Or.inl ⟨o, hp, rfl⟩
  | setTerms q value =>
    change (setTerms q (value.map (·.map fun x => (x.1, x.2.resolve s))) s).2.props[p]? = some o at hp
    rcases setTerms_cases q (value.map (·.map fun x => (x.1, x.2.resolve s))) s with h0 | ⟨o', d, a, kr, ho, hv, hk, ha, he⟩
    · rw [h0] at hp; exact Or.inl ⟨o, hp, rfl⟩
    · rw [he] at hp
      simp only at hp
      rw [List.getElem?_set] at hp
      split at hp
      · rename_i hqp
        subst hqp
        split at hp
        · cases hp; exact Or.inl ⟨o', ho, rfl⟩
        · cases hp
      · exact Or.inl ⟨o, hp, rfl⟩

theorem dicts_grow (ok : List Val → Dict → Bool) {s : State} (h : Inv X s) (op : Op) :
    s.dicts.length ≤ (exec ok s op).2.dicts.length := by
  have hm : ∀ i f, s.dicts.length ≤ (mutateAt i f s).2.dicts.length := by
    intro i f
    unfold mutateAt
    split <;> simp [State.put]
  cases op with
  | newDict d => simp [exec, State.alloc]
  | setKey i k v => exact hm i _
  | popKey i k => exact hm i _
  | clear i => exact hm i _
  | declare args kw =>
    show _ ≤ (declare ok args (update [] kw) s).2.dicts.length
    cases hok : ok args (update [] kw) with
    | true => rw [declare_ok s hok]; simp
    | false => rw [declare_bad s hok]; simp
  | tag q pos kw =>
    show _ ≤ (tag q (pos.map (Arg.resolve s)) kw s).2.dicts.length
    cases ho : s.props[q]? with
    | none => simp [tag, ho]
    | some o' =>
      rw [tag_eq ho (h.lt q o' ho).1]
      cases after s kw (s.dict o'.metaRef) (pos.map (Arg.resolve s)) <;> simp [State.put]
  | decorate q doc func =>
    show _ ≤ (decorate q doc func s).2.dicts.length
    cases ho : s.props[q]? with
    | none => simp [decorate, ho]
    | some o' => rw [decorate_eq ho (h.lt q o' ho).1]; simp
  | getMeta q =>
    cases ho : s.props[q]? with
    | none => rw [getMeta_none ok ho]; exact Nat.le_refl _
    | some o' => rw [getMeta_some ok ho]; exact Nat.le_refl _
  | getTerms q =>
    cases ho : s.props[q]? with
    | none => rw [getTerms_none ok ho]; exact Nat.le_refl _
    | some o' => rw [getTerms_some ok ho]; exact Nat.le_refl _
  | setTerms q value =>
    show _ ≤ (setTerms q (value.map (·.map fun x => (x.1, x.2.resolve s))) s).2.dicts.length
    rcases setTerms_cases q (value.map (·.map fun x => (x.1, x.2.resolve s))) s with h0 | ⟨o', d, a, kr, ho, hv, hk, ha, he⟩
    · rw [h0]; exact Nat.le_refl _
    · rw [he]; exact Nat.le_refl _

theorem made_aux (ok : List Val → Dict → Bool) (r : Nat) : ∀ (ops : List Op) {X : Nat → Prop} {s : State}, Inv X s →
    r < s.dicts.length → (∀ (p : Nat) (o : PropObj), s.props[p]? = some o → o.metaRef ≠ r) →
    ∀ (p : Nat) (o : PropObj), (execAll ok s ops).props[p]? = some o → o.metaRef ≠ r
  | [], _, _, _, _, hn => hn
  | op :: ops, _, _, h, hr, hn => made_aux ok r ops (inv_exec ok h op) (Nat.lt_of_lt_of_le hr (dicts_grow ok h op))
      fun p o hp => by
        rcases metas_new ok h op p o hp with ⟨o', ho, he⟩ | hl
        · exact he ▸ hn p o' ho
        · omega

/-- A dictionary the program makes is never the metadata of a property: what tagging
with it gives is a copy. -/
theorem C91_made (ok : List Val → Dict → Bool) (before later : List Op) (d : Dict) (r : Nat) (s : State)
    (hd : exec ok (execAll ok {} before) (.newDict d) = (.dict r, s)) (p : Nat) (o : PropObj)
    (hp : (execAll ok s later).props[p]? = some o) : o.metaRef ≠ r := by
  have h := reached ok before
  cases hd
  refine made_aux ok _ later (inv_exec ok h (.newDict d)) (by simp [exec, State.alloc]) (fun p o hp => ?_) p o hp
  exact Nat.ne_of_lt (h.lt p o hp).1

/-- A `tag` call is accepted, and then returns the property, exactly if it has no
positional argument or just one dictionary. -/
theorem C91_accepts (ok : List Val → Dict → Bool) (s : State) (p : Nat) (pos : List Arg) (kw : Dict)
    (hp : p < s.props.length) :
    (exec ok s (.tag p pos kw)).1 = .prop p ∧ (pos = [] ∨ ∃ i r, pos = [.dict i] ∧ s.known[i]? = some r) ∨
    exec ok s (.tag p pos kw) = (.typeError, s) ∧ pos ≠ [] ∧ ∀ i r, pos = [.dict i] → s.known[i]? ≠ some r := by
  have ho : s.props[p]? = some s.props[p] := List.getElem?_eq_getElem hp
  show (tag p (pos.map (Arg.resolve s)) kw s).1 = _ ∧ _ ∨ tag p (pos.map (Arg.resolve s)) kw s = _ ∧ _
  rcases pos with _ | ⟨a, _ | ⟨b, l⟩⟩
  · exact Or.inl ⟨by simp [tag, ho], Or.inl rfl⟩
  · cases a with
    | other v =>
      exact Or.inr ⟨by simp [tag, ho, Arg.resolve], by simp, fun i r h => by simp at h⟩
    | dict i =>
      cases hr : s.known[i]? with
      | none =>
        refine Or.inr ⟨by simp [tag, ho, Arg.resolve, State.ref, hr], by simp, fun j r h => ?_⟩
        simp only [List.cons.injEq, Arg.dict.injEq, and_true] at h
        subst h; rw [hr]; exact fun h => by cases h
      | some r => exact Or.inl ⟨by simp [tag, ho, Arg.resolve, State.ref, hr], Or.inr ⟨i, r, rfl, hr⟩⟩
  · refine Or.inr ⟨?_, by simp, fun i r h => by simp at h⟩
    simp only [List.map_cons, tag, ho]
    cases a.resolve s <;> rfl

/-- Whatever raises an exception leaves everything as it was. -/
theorem C91_rejected (ok : List Val → Dict → Bool) (s : State) (op : Op)
    (hr : (exec ok s op).1 = .typeError ∨ (exec ok s op).1 = .attributeError) : Unaltered s (exec ok s op).2 := by
  have hmut : ∀ i f, (mutateAt i f s).1 = .done := by
    intro i f; unfold mutateAt; split <;> rfl
  cases op with
  | newDict d => rcases hr with h | h <;> cases h
  | setKey i k v => rcases hr with h | h <;> exact absurd ((hmut i _).symm.trans h) (fun h => by cases h)
  | popKey i k => rcases hr with h | h <;> exact absurd ((hmut i _).symm.trans h) (fun h => by cases h)
  | clear i => rcases hr with h | h <;> exact absurd ((hmut i _).symm.trans h) (fun h => by cases h)
  | declare args kw =>
    change (declare ok args (update [] kw) s).1 = _ ∨ (declare ok args (update [] kw) s).1 = _ at hr
    show Unaltered s (declare ok args (update [] kw) s).2
    cases hok : ok args (update [] kw) with
    | true => rw [declare_ok s hok] at hr; rcases hr with h | h <;> cases h
    | false =>
      rw [declare_bad s hok]
      exact ⟨rfl, rfl, fun r hr => List.getElem?_append_left hr⟩
  | tag p pos kw =>
    by_cases hp : p < s.props.length
    · rcases C91_accepts ok s p pos kw hp with ⟨h1, -⟩ | ⟨h1, -⟩
      · rw [h1] at hr; rcases hr with h | h <;> cases h
      · rw [h1]; exact ⟨rfl, rfl, fun _ _ => rfl⟩
    · have : s.props[p]? = none := List.getElem?_eq_none (by omega)
      change (tag p (pos.map (Arg.resolve s)) kw s).1 = _ ∨ (tag p (pos.map (Arg.resolve s)) kw s).1 = _ at hr
      simp only [tag, this] at hr
      rcases hr with h | h <;> cases h
  | decorate p doc func =>
    change (decorate p doc func s).1 = _ ∨ (decorate p doc func s).1 = _ at hr
    cases ho : s.props[p]? with
    | none => simp only [decorate, ho] at hr; rcases hr with h | h <;> cases h
    | some o => simp only [decorate, ho] at hr; rcases hr with h | h <;> cases h
  | getMeta p =>
    cases ho : s.props[p]? with
    | none => rw [getMeta_none ok ho] at hr; rcases hr with h | h <;> cases h
    | some o => rw [getMeta_some ok ho] at hr; rcases hr with h | h <;> cases h
  | getTerms p =>
    cases ho : s.props[p]? with
    | none => rw [getTerms_none ok ho] at hr; rcases hr with h | h <;> cases h
    | some o => rw [getTerms_some ok ho] at hr; rcases hr with h | h <;> cases h
  | setTerms p value =>
    change (setTerms p (value.map (·.map fun x => (x.1, x.2.resolve s))) s).1 = _ ∨
      (setTerms p (value.map (·.map fun x => (x.1, x.2.resolve s))) s).1 = _ at hr
    show Unaltered s (setTerms p (value.map (·.map fun x => (x.1, x.2.resolve s))) s).2
    rcases setTerms_cases p (value.map (·.map fun x => (x.1, x.2.resolve s))) s with h0 | ⟨o', d, a, kr, ho, hv, hk, ha, he⟩
    · rw [h0]; exact ⟨rfl, rfl, fun _ _ => rfl⟩
    · rw [he] at hr; rcases hr with h | h <;> cases h

/-! ## Terms -/

/-- `Y` are the properties whose keyword dictionary has been handed out. -/
structure KwInv (Y : Nat → Prop) (s : State) : Prop where
  inj : ∀ (p q : Nat) (o o' : PropObj), s.props[p]? = some o → s.props[q]? = some o' → o.kwRef = o'.kwRef → p = q
  apart : ∀ (p q : Nat) (o o' : PropObj), s.props[p]? = some o → s.props[q]? = some o' → o.kwRef ≠ o'.metaRef
  shown : ∀ (p : Nat) (o : PropObj), s.props[p]? = some o → o.kwRef ∈ s.known → Y p

variable {Y : Nat → Prop}

theorem kw_same {s s' : State} (h : KwInv Y s) (hp : s'.props = s.props) (hk : s'.known = s.known) : KwInv Y s' :=
  ⟨by rw [hp]; exact h.inj, by rw [hp]; exact h.apart, by rw [hp, hk]; exact h.shown⟩

theorem kw_new {s s' : State} (h : Inv X s) (k : KwInv Y s) {o : PropObj} (hp : s'.props = s.props ++ [o]) (hk : s'.known = s.known)
    (h1 : s.dicts.length ≤ o.metaRef) (h3 : s.dicts.length ≤ o.kwRef) (h5 : o.kwRef ≠ o.metaRef) : KwInv Y s' := by
  refine ⟨fun p q a b hp' hq hab => ?_, fun p q a b hp' hq hab => ?_, fun p a hp' hm => ?_⟩
  · rw [hp] at hp' hq
    rcases getElem?_snoc hp' with hp' | ⟨hi, rfl⟩ <;> rcases getElem?_snoc hq with hq | ⟨hj, rfl⟩
    · exact k.inj p q a b hp' hq hab
    · have := h.lt p a (by assumption); omega
    · have := h.lt q b (by assumption); omega
    · omega
  · rw [hp] at hp' hq
    rcases getElem?_snoc hp' with hp' | ⟨hi, rfl⟩ <;> rcases getElem?_snoc hq with hq | ⟨hj, rfl⟩
    · exact k.apart p q a b hp' hq hab
    · have := h.lt p a (by assumption); omega
    · have := h.lt q b (by assumption); omega
    · exact h5 hab
  · rw [hp] at hp'
    rw [hk] at hm
    rcases getElem?_snoc hp' with hp' | ⟨hi, rfl⟩
    · exact k.shown p a hp' hm
    · have := h.knownLt _ hm; omega

theorem known_mutate (i : Nat) (f : Dict → Dict) (s : State) : (mutateAt i f s).2.known = s.known := by
  unfold mutateAt
  split <;> rfl

theorem kw_exec (ok : List Val → Dict → Bool) {s : State} (h : Inv X s) (k : KwInv Y s) (op : Op) (hn : ¬ setsTerms op) :
    KwInv (fun p => Y p ∨ showsTerms p op) (exec ok s op).2 := by
  have kY : KwInv (fun p => Y p ∨ showsTerms p op) s := ⟨k.inj, k.apart, fun p o a b => Or.inl (k.shown p o a b)⟩
  cases op with
  | newDict d =>
    refine ⟨k.inj, k.apart, fun p o hp hm => ?_⟩
    rcases List.mem_append.1 hm with hm | hm
    · exact Or.inl (k.shown p o hp hm)
    · have := (h.lt p o hp).2
      simp [State.alloc] at hm
      omega
  | setKey i x v => exact kw_same kY (props_mutate i _ s) (known_mutate i _ s)
  | popKey i x => exact kw_same kY (props_mutate i _ s) (known_mutate i _ s)
  | clear i => exact kw_same kY (props_mutate i _ s) (known_mutate i _ s)
  | declare args kw =>
    show KwInv _ (declare ok args (update [] kw) s).2
    cases hok : ok args (update [] kw) with
    | true => rw [declare_ok s hok]; exact kw_new h kY rfl rfl (by simp) (by simp) (by simp)
    | false => rw [declare_bad s hok]; exact kw_same kY rfl rfl
  | tag q pos kw =>
    show KwInv _ (tag q (pos.map (Arg.resolve s)) kw s).2
    cases ho : s.props[q]? with
    | none => simpa [tag, ho] using kY
    | some o' =>
      rw [tag_eq ho (h.lt q o' ho).1]
      cases after s kw (s.dict o'.metaRef) (pos.map (Arg.resolve s)) with
      | none => exact kY
      | some d => exact kw_same kY rfl rfl
  | decorate q doc func =>
    show KwInv _ (decorate q doc func s).2
    cases ho : s.props[q]? with
    | none => simpa [decorate, ho] using kY
    | some o' => rw [decorate_eq ho (h.lt q o' ho).1]; exact kw_new h kY rfl rfl (by simp) (by simp) (by simp)
  | getMeta q =>
    cases ho : s.props[q]? with
    | none => rw [getMeta_none ok ho]; exact kY
    | some o' =>
      rw [getMeta_some ok ho]
      refine ⟨k.inj, k.apart, fun p o hp hm => ?_⟩
      rcases List.mem_append.1 hm with hm | hm
      · exact Or.inl (k.shown p o hp hm)
      · simp only [List.mem_singleton] at hm
        exact absurd hm (k.apart p q o o' hp ho)
  | getTerms q =>
    cases ho : s.props[q]? with
    | none => rw [getTerms_none ok ho]; exact kY
    | some o' =>
      rw [getTerms_some ok ho]
      refine ⟨k.inj, k.apart, fun p o hp hm => ?_⟩
      rcases List.mem_append.1 hm with hm | hm
      · exact Or.inl (k.shown p o hp hm)
      · simp only [List.mem_cons, List.not_mem_nil, or_false] at hm
        rcases hm with hm | hm
        · exact Or.inr (k.inj q p o' o ho hp hm.symm)
        · exact absurd hm (k.apart p q o o' hp ho)
  | setTerms q value => exact absurd trivial hn

theorem dicts_put {s : State} {r r' : Nat} (h : r ≠ r') (d : Dict) : (s.put r d).dicts[r']? = s.dicts[r']? :=
  List.getElem?_set_ne h

/-- One step keeps a property object and its keyword dictionary. -/
theorem kw_keep (ok : List Val → Dict → Bool) {s : State} (h : Inv X s) (k : KwInv Y s) (op : Op) (hn : ¬ setsTerms op)
    {p : Nat} {o : PropObj} (hp : s.props[p]? = some o) (hY : ¬ Y p) :
    (exec ok s op).2.props[p]? = some o ∧ (exec ok s op).2.dicts[o.kwRef]? = s.dicts[o.kwRef]? := by
  have hlt := (h.lt p o hp).2
  have hpl := (List.getElem?_eq_some_iff.1 hp).1
  have hm : ∀ i f, (mutateAt i f s).2.props[p]? = some o ∧ (mutateAt i f s).2.dicts[o.kwRef]? = s.dicts[o.kwRef]? := by
    intro i f
    refine ⟨by rw [props_mutate]; exact hp, ?_⟩
    unfold mutateAt
    cases hr : s.ref i with
    | none => rfl
    | some r => exact dicts_put (fun (he : r = o.kwRef) => hY (k.shown p o hp (he ▸ List.mem_of_getElem? hr))) _
  cases op with
  | newDict d => exact ⟨hp, List.getElem?_append_left hlt⟩
  | setKey i x v => exact hm i _
  | popKey i x => exact hm i _
  | clear i => exact hm i _
  | declare args kw =>
    show (declare ok args (update [] kw) s).2.props[p]? = some o ∧ (declare ok args (update [] kw) s).2.dicts[o.kwRef]? = _
    cases hok : ok args (update [] kw) with
    | true =>
      rw [declare_ok s hok]
      exact ⟨(List.getElem?_append_left hpl).trans hp, List.getElem?_append_left hlt⟩
    | false => rw [declare_bad s hok]; exact ⟨hp, List.getElem?_append_left hlt⟩
  | tag q pos kw =>
    show (tag q (pos.map (Arg.resolve s)) kw s).2.props[p]? = some o ∧ (tag q (pos.map (Arg.resolve s)) kw s).2.dicts[o.kwRef]? = _
    cases ho : s.props[q]? with
    | none => simp [tag, ho, hp]
    | some o' =>
      rw [tag_eq ho (h.lt q o' ho).1]
      cases after s kw (s.dict o'.metaRef) (pos.map (Arg.resolve s)) with
      | none => exact ⟨hp, rfl⟩
      | some d => exact ⟨hp, dicts_put (Ne.symm (k.apart p q o o' hp ho)) d⟩
  | decorate q doc func =>
    show (decorate q doc func s).2.props[p]? = some o ∧ (decorate q doc func s).2.dicts[o.kwRef]? = _
    cases ho : s.props[q]? with
    | none => simp [decorate, ho, hp]
    | some o' =>
      rw [decorate_eq ho (h.lt q o' ho).1]
      exact ⟨(List.getElem?_append_left hpl).trans hp, List.getElem?_append_left hlt⟩
  | getMeta q =>
    cases ho : s.props[q]? with
    | none => rw [getMeta_none ok ho]; exact ⟨hp, rfl⟩
    | some o' => rw [getMeta_some ok ho]; exact ⟨hp, rfl⟩
  | getTerms q =>
    cases ho : s.props[q]? with
    | none => rw [getTerms_none ok ho]; exact ⟨hp, rfl⟩
    | some o' => rw [getTerms_some ok ho]; exact ⟨hp, rfl⟩
  | setTerms q value => exact absurd trivial hn

theorem kw_all (ok : List Val → Dict → Bool) : ∀ (ops : List Op) {X Y : Nat → Prop} {s : State}, Inv X s → KwInv Y s →
    (∀ o ∈ ops, ¬ setsTerms o) → KwInv (fun p => Y p ∨ ∃ o ∈ ops, showsTerms p o) (execAll ok s ops)
  | [], _, _, _, _, k, _ => ⟨k.inj, k.apart, fun p o a b => Or.inl (k.shown p o a b)⟩
  | o :: ops, _, _, _, h, k, hn => by
      have g := kw_all ok ops (inv_exec ok h o) (kw_exec ok h k o (hn o (by simp))) fun o' ho => hn o' (by simp [ho])
      refine ⟨g.inj, g.apart, fun p a b c => ?_⟩
      rcases g.shown p a b c with (hp | hp) | ⟨o', ho, hp⟩
      · exact Or.inl hp
      · exact Or.inr ⟨o, by simp, hp⟩
      · exact Or.inr ⟨o', by simp [ho], hp⟩

theorem kw_kept (ok : List Val → Dict → Bool) {p : Nat} {o : PropObj} : ∀ (ops : List Op) {X Y : Nat → Prop} {s : State},
    Inv X s → KwInv Y s → (∀ o ∈ ops, ¬ setsTerms o) → (∀ o ∈ ops, ¬ showsTerms p o) → ¬ Y p → s.props[p]? = some o →
    (execAll ok s ops).props[p]? = some o ∧ (execAll ok s ops).dicts[o.kwRef]? = s.dicts[o.kwRef]?
  | [], _, _, _, _, _, _, _, _, hp => ⟨hp, rfl⟩
  | op :: ops, _, Y, s, h, k, hn, hs, hY, hp => by
      obtain ⟨g1, g2⟩ := kw_keep ok h k op (hn op (by simp)) hp hY
      obtain ⟨k1, k2⟩ := kw_kept ok ops (inv_exec ok h op) (kw_exec ok h k op (hn op (by simp)))
        (fun o' ho => hn o' (by simp [ho])) (fun o' ho => hs o' (by simp [ho]))
        (fun hp => hp.elim hY (hs op (by simp))) g1
      exact ⟨k1, k2.trans g2⟩

theorem terms_kept (ok : List Val → Dict → Bool) (before later : List Op) (args : List Val) (kw : Dict) (p : Nat) (s : State)
    (hd : exec ok (execAll ok {} before) (.declare args kw) = (.prop p, s))
    (hn : ∀ o ∈ before ++ later, ¬ setsTerms o) (hs : ∀ o ∈ later, ¬ showsTerms p o) :
    ok args (update [] kw) = true ∧ ∃ o, (execAll ok s later).props[p]? = some o ∧ o.args = args ∧
      o.opts = initOpts (update [] kw) ∧ (execAll ok s later).dicts[o.kwRef]? = some (update [] kw) := by
  have h := reached ok before
  have k := kw_all ok before (inv_init fun _ => False) (Y := fun _ => False)
    ⟨fun p q o o' h => by simp at h, fun p q o o' h => by simp at h, fun p o h => by simp at h⟩
    fun o ho => hn o (by simp [ho])
  have hd' : declare ok args (update [] kw) (execAll ok {} before) = (.prop p, s) := hd
  cases hok : ok args (update [] kw) with
  | false => rw [declare_bad _ hok] at hd'; cases hd'
  | true =>
    rw [declare_ok _ hok] at hd'
    obtain ⟨e1, e2⟩ := Prod.mk.inj hd'
    cases e1
    subst e2
    have hi := inv_exec ok h (.declare args kw)
    have hk := kw_exec ok h k (.declare args kw) (fun h => h)
    rw [hd] at hi hk
    have hy : KwInv (fun q => q ≠ (execAll ok {} before).props.length)
        { (execAll ok {} before) with
          dicts := (execAll ok {} before).dicts ++ [update [] kw, eraseS (s% "default") (update [] kw), []],
          props := (execAll ok {} before).props ++
            [⟨(execAll ok {} before).dicts.length + 2, args, (execAll ok {} before).dicts.length, initOpts (update [] kw)⟩] } := by
      refine ⟨hk.inj, hk.apart, fun q o hq hm he => ?_⟩
      rcases getElem?_snoc hq with hq | ⟨_, rfl⟩
      · have := (List.getElem?_eq_some_iff.1 hq).1; omega
      · exact absurd (h.knownLt _ hm) (by simp)
    obtain ⟨g1, g2⟩ := kw_kept ok (p := (execAll ok {} before).props.length)
      (o := ⟨(execAll ok {} before).dicts.length + 2, args, (execAll ok {} before).dicts.length, initOpts (update [] kw)⟩)
      later hi hy (fun o ho => hn o (by simp [ho])) hs (fun h => h rfl) (by simp)
    exact ⟨rfl, _, g1, rfl, rfl, g2.trans (by simp)⟩

/-- The terms of a property are the arguments of the call that made it, the default
included, whatever is done later except through the terms themselves. -/
theorem C91_terms (ok : List Val → Dict → Bool) (before later : List Op) (args : List Val) (kw : Dict) (p : Nat) (s : State)
    (hd : exec ok (execAll ok {} before) (.declare args kw) = (.prop p, s))
    (hn : ∀ o ∈ before ++ later, ¬ setsTerms o) (hs : ∀ o ∈ later, ¬ showsTerms p o) :
    ∃ r m, (exec ok (execAll ok s later) (.getTerms p)).1 = .terms args r m ∧
      ∀ k, entry (execAll ok s later) r k = lastFor k kw := by
  obtain ⟨_, o, h1, h2, _, h4⟩ := terms_kept ok before later args kw p s hd hn hs
  refine ⟨o.kwRef, o.metaRef, by rw [getTerms_some ok h1, h2], fun k => ?_⟩
  simp only [entry, h4, Option.bind_some]
  rw [last_update k kw keyed_nil]
  cases lastFor k kw <;> rfl

theorem lookup_present {k : PyStr} : ∀ {l : Dict}, k ∈ l.map Prod.fst → lookupS k l ≠ none
  | a :: l, h => by
    unfold lookupS
    split
    · exact fun h => by cases h
    · rename_i hne
      rcases List.mem_cons.1 h with e | h
      · exact absurd e.symm hne
      · exact lookup_present h

/-- What a property is set to: under every name but `default` the argument given, and the
default, unless it is None or missing, as the last setting made. -/
theorem C91_settings (ok : List Val → Dict → Bool) (before later : List Op) (args : List Val) (kw : Dict) (p : Nat) (s : State)
    (hd : exec ok (execAll ok {} before) (.declare args kw) = (.prop p, s))
    (hn : ∀ o ∈ before ++ later, ¬ setsTerms o) (hs : ∀ o ∈ later, ¬ showsTerms p o)
    {o : PropObj} (ho : (execAll ok s later).props[p]? = some o) :
    (∀ k, k ≠ s% "default" → lookupS k o.opts = lastFor k kw) ∧
    (∀ v, lookupS (s% "default") o.opts = some v ↔ lastFor (s% "default") kw = some v ∧ v ≠ .none) ∧
    (∀ v, lookupS (s% "default") o.opts = some v →
      ∃ l, o.opts = l ++ [(s% "default", v)] ∧ s% "default" ∉ l.map Prod.fst) := by
  obtain ⟨_, o1, h1, _, h3, _⟩ := terms_kept ok before later args kw p s hd hn hs
  rw [ho] at h1
  cases h1
  have hk : Keyed (update [] kw) := keyed_update keyed_nil
  have hl : ∀ k, lookupS k (update [] kw) = lastFor k kw := by
    intro k
    rw [lookup_update]
    cases lastFor k kw <;> rfl
  have hno : s% "default" ∉ (eraseS (s% "default") (update [] kw)).map Prod.fst := fun hm => by
    have := lookupS_eraseS (s% "default") (update [] kw)
    exact absurd this (lookup_present hm)
  have hap : ∀ (k : PyStr) (v : Val) (l : Dict), k ∉ l.map Prod.fst → lookupS k (l ++ [(k, v)]) = some v := by
    intro k v l
    induction l with
    | nil => intro _; simp [lookupS]
    | cons a l ih =>
      intro hm
      simp only [List.map_cons, List.mem_cons, not_or] at hm
      rw [List.cons_append, lookupS]
      rw [if_neg (fun e => hm.1 e.symm)]
      exact ih hm.2
  have hap' : ∀ (k k' : PyStr) (v : Val) (l : Dict), k ≠ k' → lookupS k (l ++ [(k', v)]) = lookupS k l := by
    intro k k' v l hne
    induction l with
    | nil => simp [lookupS, Ne.symm hne]
    | cons a l ih =>
      rw [List.cons_append, lookupS, lookupS, ih]
  have hnone : lookupS (s% "default") (eraseS (s% "default") (update [] kw)) = none := lookupS_eraseS _ _
  rw [h3]
  unfold initOpts
  cases hdef : lookupS (s% "default") (update [] kw) with
  | none =>
    refine ⟨fun k hne => ?_, fun v => ?_, fun v hv => ?_⟩
    · rw [show lookupS k (eraseS (s% "default") (update [] kw)) = _ from lookupS_eraseS_ne hne _, hl]
    · dsimp only
      rw [hnone, ← hl, hdef]
      exact ⟨fun h => (by cases h), fun h => (by cases h.1)⟩
    · dsimp only at hv
      rw [hnone] at hv; cases hv
  | some d =>
    by_cases hd0 : d = .none
    · subst hd0
      refine ⟨fun k hne => ?_, fun v => ?_, fun v hv => ?_⟩
      · rw [show lookupS k (eraseS (s% "default") (update [] kw)) = _ from lookupS_eraseS_ne hne _, hl]
      · dsimp only
        rw [hnone, ← hl, hdef]
        exact ⟨fun h => (by cases h), fun h => (h.2 (Option.some.inj h.1).symm).elim⟩
      · dsimp only at hv
        rw [hnone] at hv; cases hv
    · have e : (match (some d : Option Val) with
          | none => eraseS (s% "default") (update [] kw)
          | some .none => eraseS (s% "default") (update [] kw)
          | some d => eraseS (s% "default") (update [] kw) ++ [(s% "default", d)]) =
          eraseS (s% "default") (update [] kw) ++ [(s% "default", d)] := by
        cases d <;> first | rfl | exact absurd rfl hd0
      refine ⟨fun k hne => ?_, fun v => ?_, fun v hv => ?_⟩
      · refine (congrArg (lookupS k) e).trans ?_
        rw [hap' _ _ _ _ hne, lookupS_eraseS_ne hne, hl]
      · refine (iff_of_eq (congrArg (fun x => lookupS (s% "default") x = some v) e)).trans ?_
        rw [hap _ _ _ hno, ← hl, hdef]
        exact ⟨fun h => ⟨h, fun e => hd0 ((Option.some.inj h).trans e)⟩, fun h => h.1⟩
      · have hv := (congrArg (lookupS (s% "default")) e).symm.trans hv
        rw [hap _ _ _ hno] at hv
        cases hv
        exact ⟨_, e, hno⟩

/-- `prop.terms` may be set to a dictionary of exactly a tuple `args` and a dictionary
`kwargs`, which it then has; anything else is TypeError and changes nothing. -/
theorem C91_set_terms (ok : List Val → Dict → Bool) (s : State) (p : Nat) (value : Option (List (PyStr × TArg)))
    (hp : p < s.props.length) :
    (∃ d a i r, value = some d ∧ d.length = 2 ∧ lookupS (s% "args") d = some (.tuple a) ∧
        lookupS (s% "kwargs") d = some (.dict i) ∧ s.known[i]? = some r ∧
        (exec ok s (.setTerms p value)).1 = .done ∧
        ∃ m, (exec ok (exec ok s (.setTerms p value)).2 (.getTerms p)).1 = .terms a r m) ∨
    (exec ok s (.setTerms p value) = (.typeError, s) ∧
      ¬ ∃ d a i r, value = some d ∧ d.length = 2 ∧ lookupS (s% "args") d = some (.tuple a) ∧
        lookupS (s% "kwargs") d = some (.dict i) ∧ s.known[i]? = some r) := by
  have ho : s.props[p]? = some s.props[p] := List.getElem?_eq_getElem hp
  have hl : ∀ (k : PyStr) (d : List (PyStr × TArg)),
      lookupS k (d.map fun x => (x.1, x.2.resolve s)) = (lookupS k d).map (TArg.resolve s) := by
    intro k d
    induction d with
    | nil => rfl
    | cons a d ih =>
      rw [List.map_cons, lookupS, lookupS, ih]
      split <;> rfl
  cases value with
  | none =>
    refine Or.inr ⟨?_, fun ⟨d, _, _, _, h, _⟩ => by cases h⟩
    show setTerms p none s = _
    unfold setTerms
    rw [ho]
  | some d =>
    by_cases hlen : d.length ≠ 2
    · refine Or.inr ⟨?_, fun ⟨d', _, _, _, h, h2, _⟩ => by cases h; exact hlen h2⟩
      show setTerms p (some (d.map fun x => (x.1, x.2.resolve s))) s = _
      unfold setTerms
      rw [ho]
      dsimp only
      rw [if_pos (by simpa using hlen)]
    · have hlen : d.length = 2 := Classical.byContradiction hlen
      have hgo : exec ok s (.setTerms p (some d)) =
          match (lookupS (s% "args") d).map (TArg.resolve s), (lookupS (s% "kwargs") d).map (TArg.resolve s) with
          | some (.tuple a), some (.dict k) =>
              (.done, { s with props := s.props.set p { s.props[p] with args := a, kwRef := k } })
          | _, _ => (.typeError, s) := by
        show setTerms p (some (d.map fun x => (x.1, x.2.resolve s))) s = _
        unfold setTerms
        rw [ho]
        dsimp only
        rw [if_neg (by simpa using hlen), hl, hl]
        rfl
      by_cases hex : ∃ a i r, lookupS (s% "args") d = some (.tuple a) ∧
          lookupS (s% "kwargs") d = some (.dict i) ∧ s.known[i]? = some r
      · obtain ⟨a, i, r, h1, h2, h3⟩ := hex
        rw [h1, h2] at hgo
        simp only [Option.map_some, TArg.resolve, State.ref, h3] at hgo
        refine Or.inl ⟨d, a, i, r, rfl, hlen, h1, h2, h3, by rw [hgo], (s.props[p]).metaRef, ?_⟩
        rw [hgo, getTerms_some ok (o := { s.props[p] with args := a, kwRef := r })]
        simp [hp]
      · refine Or.inr ⟨?_, fun ⟨d', a, i, r, h, _, h1, h2, h3⟩ => by cases h; exact hex ⟨a, i, r, h1, h2, h3⟩⟩
        rw [hgo]
        cases h1 : lookupS (s% "args") d with
        | none => rfl
        | some x =>
          cases h2 : lookupS (s% "kwargs") d with
          | none => cases x <;> simp only [Option.map_some, Option.map_none, TArg.resolve] <;> (repeat' split) <;> first | rfl | (rename_i hh; cases hh)
          | some y =>
            cases x with
            | tuple a =>
              cases y with
              | dict i =>
                cases h3 : s.known[i]? with
                | some r => exact absurd ⟨a, i, r, h1, h2, h3⟩ hex
                | none => simp only [Option.map_some, TArg.resolve, State.ref, h3]
              | _ => rfl
            | dict i =>
              simp only [Option.map_some, TArg.resolve]
              cases s.ref i <;> rfl
            | other v => rfl

/-- Calling the class again with the terms makes a property with the same settings. -/
theorem C91_rebuilt (ok : List Val → Dict → Bool) (before later : List Op) (args : List Val) (kw : Dict) (p : Nat) (s : State)
    (hd : exec ok (execAll ok {} before) (.declare args kw) = (.prop p, s))
    (hn : ∀ o ∈ before ++ later, ¬ setsTerms o) (hs : ∀ o ∈ later, ¬ showsTerms p o)
    {o : PropObj} (ho : (execAll ok s later).props[p]? = some o) {d : Dict} (hdict : (execAll ok s later).dicts[o.kwRef]? = some d) :
    ∃ q s' o', exec ok (execAll ok s later) (.declare o.args d) = (.prop q, s') ∧ q ≠ p ∧
      s'.props[q]? = some o' ∧ o'.args = o.args ∧ o'.opts = o.opts ∧ s'.props[p]? = some o := by
  obtain ⟨hok, o1, h1, h2, h3, h4⟩ := terms_kept ok before later args kw p s hd hn hs
  rw [ho] at h1
  cases h1
  rw [hdict] at h4
  cases h4
  have hk : update [] (update [] kw) = update [] kw := update_self (keyed_update keyed_nil)
  have hlt := (List.getElem?_eq_some_iff.1 ho).1
  have he : exec ok (execAll ok s later) (.declare o.args (update [] kw)) = declare ok args (update [] kw) (execAll ok s later) := by
    show declare ok o.args (update [] (update [] kw)) (execAll ok s later) = _
    rw [hk, h2]
  rw [he, declare_ok _ hok]
  exact ⟨_, _, _, rfl, Nat.ne_of_gt hlt, List.getElem?_concat_length, h2.symm, h3.symm, (List.getElem?_append_left hlt).trans ho⟩

/-- A program that makes and tags properties with shared dictionaries, and changes them. -/
def demoOps : List Op := [
  .newDict [(s% "a", .int 1), (s% "b", .int 2)],
  .declare [.str (s% "doc")] [(s% "required", .bool false), (s% "default", .int 5)],
  .tag 0 [.dict 0] [(s% "b", .int 3)],
  .setKey 0 (s% "a") (.int 9),
  .decorate 0 (.str (s% "doc")) (.opq 7),
  .tag 0 [.dict 0, .dict 0] [(s% "a", .int 4)],
  .tag 0 [] [(s% "c", .int 6)],
  .setTerms 1 none]

def demoOk : List Val → Dict → Bool := fun _ _ => true

/-- The keyword goes before the dictionary; changing the dictionary afterwards, the
rejected call and the later tag do not reach the dynamic property made in between. -/
theorem C91_example :
    (∀ o ∈ demoOps, ∀ p, ¬ showsMeta p o) ∧
    (tagged (execAll demoOk {} demoOps) 0 (s% "a") = some (.int 1) ∧
      tagged (execAll demoOk {} demoOps) 0 (s% "b") = some (.int 3) ∧
      tagged (execAll demoOk {} demoOps) 0 (s% "c") = some (.int 6)) ∧
    (tagged (execAll demoOk {} demoOps) 1 (s% "a") = some (.int 1) ∧
      tagged (execAll demoOk {} demoOps) 1 (s% "c") = none) ∧
    keyword (execAll demoOk {} demoOps) 0 (s% "default") = some (.int 5) := by
  refine ⟨?_, ⟨rfl, rfl, rfl⟩, ⟨rfl, rfl⟩, rfl⟩
  intro o ho p
  simp only [demoOps, List.mem_cons, List.not_mem_nil, or_false] at ho
  rcases ho with rfl | rfl | rfl | rfl | rfl | rfl | rfl | rfl <;> exact fun h => h

/-- The dictionary that `meta` hands out is the metadata itself. -/
theorem C91_shared : ∃ ops : List Op, tagged (execAll demoOk {} ops) 0 (s% "a") = some (.int 1) ∧
    ∀ o ∈ ops, ¬ tags 0 o :=
  ⟨[.declare [] [], .getMeta 0, .setKey 0 (s% "a") (.int 1)], rfl, by
    intro o ho
    simp only [List.mem_cons, List.not_mem_nil, or_false] at ho
    rcases ho with rfl | rfl | rfl <;> exact fun h => h⟩

end Verif.Tags
