import Verif.Props.C89
import Verif.Props.C106
import Verif.Spec.InputOrder

/-!
# C107: the order of the entries of the input of `deserialize` does not matter
-/

namespace Verif
open Spec Spec.Exc

theorem PlainInput.perm {E : Env} {c : ClsId} {kvs kvs' : List (Val × Val)} (hp : kvs.Perm kvs')
    (h : PlainInput E c kvs) : PlainInput E c kvs' :=
  ⟨fun kv hm => h.keys kv (hp.mem_iff.2 hm), (hp.map _).nodup_iff.1 h.nodup,
    fun k v hm => h.plain k v (hp.mem_iff.2 hm)⟩

theorem dictGet?_perm {k : PyStr} {d d' : List (Val × Val)} (hp : d.Perm d')
    (hs : ∀ kv ∈ d, ∃ s, kv.1 = .str s) (hn : (d.map (·.1)).Nodup) :
    dictGet? d (.str k) = dictGet? d' (.str k) := by
  induction hp with
  | nil => rfl
  | @cons a l l' hp ih =>
    simp only [dictGet?]
    rw [ih (fun kv h => hs kv (by simp [h])) (by simp only [List.map_cons, List.nodup_cons] at hn; exact hn.2)]
  | swap a b l =>
    obtain ⟨a1, a2⟩ := a
    obtain ⟨b1, b2⟩ := b
    obtain ⟨s, rfl⟩ := hs (a1, a2) (by simp)
    obtain ⟨t, rfl⟩ := hs (b1, b2) (by simp)
    simp only [List.map_cons, List.nodup_cons, List.mem_cons, not_or] at hn
    have hst : s ≠ t := fun h => hn.1.1 (by rw [h])
    have hq : ∀ u : PyStr, pyEq (.str u) (.str k) = decide (u = k) := fun u => by
      by_cases h : u = k <;> simp [pyEq, h]
    simp only [dictGet?, hq, decide_eq_true_eq]
    by_cases h1 : t = k
    · have h2 : s ≠ k := fun h => hst (h.trans h1.symm)
      simp only [h1, h2, if_true, if_false]
    · simp only [h1, if_false]
  | trans h1 _ ih1 ih2 =>
    exact (ih1 hs hn).trans (ih2 (fun kv h => hs kv (h1.mem_iff.2 h)) ((h1.map _).nodup_iff.1 hn))

theorem propState_perm {ps : List (PyStr × Entry)} {d d' : List (Val × Val)} (hp : d.Perm d') :
    (propState ps d).Perm (propState ps d') := by
  have he : ∀ d, propState ps d = d.filterMap fun kv => match kv.1 with
      | .str k => if (lookupS k ps).isSome then some (k, kv.2) else none
      | _ => none := by
    intro d
    induction d with
    | nil => rfl
    | cons a l ih =>
      obtain ⟨k, v⟩ := a
      rw [List.filterMap_cons]
      unfold propState
      cases k <;> first
        | exact ih
        | (dsimp only; split <;> simp only [ih])
  rw [he, he]
  exact hp.filterMap _

theorem propState_mem {ps : List (PyStr × Entry)} {k : PyStr} {v : Val} : ∀ {d : List (Val × Val)},
    (k, v) ∈ propState ps d → (Val.str k, v) ∈ d ∧ ∃ e, lookupS k ps = some e
  | [], h => by cases h
  | (key, x) :: d, h => by
    unfold propState at h
    split at h
    · cases ‹_ = _›
    · rename_i heq
      cases heq
      split at h
      · rename_i hs
        rcases List.mem_cons.1 h with h | h
        · cases h
          exact ⟨by simp, Option.isSome_iff_exists.1 hs⟩
        · exact ⟨List.mem_cons_of_mem _ (propState_mem h).1, (propState_mem h).2⟩
      · exact ⟨List.mem_cons_of_mem _ (propState_mem h).1, (propState_mem h).2⟩
    · rename_i heq
      cases heq
      exact ⟨List.mem_cons_of_mem _ (propState_mem h).1, (propState_mem h).2⟩

theorem propState_nodup {ps : List (PyStr × Entry)} : ∀ {d : List (Val × Val)},
    (d.map (·.1)).Nodup → ((propState ps d).map (·.1)).Nodup
  | [], _ => List.nodup_nil
  | (key, x) :: d, h => by
    simp only [List.map_cons, List.nodup_cons] at h
    have ih := propState_nodup (ps := ps) h.2
    unfold propState
    split
    · exact List.nodup_nil
    · rename_i heq
      cases heq
      split
      · simp only [List.map_cons, List.nodup_cons]
        refine ⟨fun hm => ?_, ih⟩
        obtain ⟨⟨k, v⟩, hm', rfl⟩ := List.mem_map.1 hm
        exact h.1 (List.mem_map.2 ⟨_, (propState_mem hm').1, rfl⟩)
      · exact ih
    · rename_i heq
      cases heq
      exact ih

theorem mapML_heads {α β γ : Type} {f : α → M β} {p : β → γ} {q : α → γ}
    (hf : ∀ x w y w', f x w = (.ok y, w') → p y = q x) : ∀ {xs : List α} {ys : List β}
    {w w' : World}, mapML f xs w = (.ok ys, w') → ys.map p = xs.map q
  | [], ys, w, w', h => by cases h; rfl
  | x :: xs, ys, w, w', h => by
    unfold mapML at h
    obtain ⟨y, w1, h1, h⟩ := bind_ok_inv h
    obtain ⟨zs, w2, h2, h⟩ := bind_ok_inv h
    cases h
    simp only [List.map_cons, hf x _ _ _ h1, mapML_heads hf h2]

theorem mapML_from {α β : Type} {f : α → M β} : ∀ {xs : List α} {ys : List β}
    {w w' : World}, mapML f xs w = (.ok ys, w') → ∀ y ∈ ys, ∃ x ∈ xs, ∃ u u', f x u = (.ok y, u')
  | [], ys, w, w', h, y, hy => by cases h; cases hy
  | x :: xs, ys, w, w', h, y, hy => by
    unfold mapML at h
    obtain ⟨z, w1, h1, h⟩ := bind_ok_inv h
    obtain ⟨zs, w2, h2, h⟩ := bind_ok_inv h
    cases h
    rcases List.mem_cons.1 hy with rfl | hy
    · exact ⟨x, by simp, _, _, h1⟩
    · obtain ⟨a, ha, u, u', h⟩ := mapML_from h2 y hy
      exact ⟨a, by simp [ha], u, u', h⟩

/-- Reading a value of a basic property changes nothing. -/
theorem deserialize_basic {E : Env} {p : PropSpec} (hs : p.deser = none) (hty : ScalarTy p.ty) (n : Nat)
    (nm : PyStr) (v : Val) (kw : DeKw) : ∃ y, ∀ w, run E (n + 1) (.deserializeP nm p v kw) w = (y, w) := by
  cases hn : v.isNone with
  | true =>
    refine ⟨.ok .none, fun w => ?_⟩
    show deserializeBody E _ nm p v kw w = _
    unfold deserializeBody
    rw [hs]
    simp only [hn, if_true]
    rfl
  | false =>
    have key : ∀ w, run E (n + 1) (.deserializeP nm p v kw) w =
        (match scalarFromJson E p.ty v with | some x => liftK x | none => raiseK .type) w := by
      intro w
      show deserializeBody E _ nm p v kw w = _
      unfold deserializeBody
      rw [hs]
      simp only [hn, Bool.false_eq_true, if_false]
      cases hp : p.ty <;> rw [hp] at hty <;> first | rfl | exact hty.elim
    cases hj : scalarFromJson E p.ty v with
    | none => exact ⟨_, fun w => by rw [key, hj]; rfl⟩
    | some x =>
      cases x with
      | error e => exact ⟨_, fun w => by rw [key, hj]; rfl⟩
      | ok y => exact ⟨_, fun w => by rw [key, hj]; rfl⟩

theorem read_still {E : Env} {p : PropSpec} (hs : p.deser = none) (hty : ScalarTy p.ty) {n : Nat}
    {nm : PyStr} {v x : Val} {kw : DeKw} {w w' : World} (hv : v ≠ .undef)
    (h : run E (n + 1) (.deserializeP nm p v kw) w = (.ok x, w')) : x ≠ .undef ∧ Still p x := by
  have hst : ∀ x : Val, (p.ty = .color → ∀ s, x ≠ .str s) → Still p x := by
    intro x hx
    obtain ⟨a, b, c, d, ty⟩ := p
    unfold Still
    cases ty <;> first
      | exact trivial
      | exact hx rfl
      | exact hty.elim
  by_cases hn : v = .none
  · subst hn
    have : x = .none := by
      have h2 : run E (n + 1) (.deserializeP nm p .none kw) w = (.ok .none, w) := by
        show deserializeBody E _ nm p .none kw w = _
        unfold deserializeBody
        rw [hs]
        rfl
      rw [h2] at h; cases h; rfl
    subst this
    exact ⟨by simp, hst _ fun _ s => by simp⟩
  · have hf := ((C89_reads hs hty n nm hn kw w w' x).1 h).2
    refine ⟨?_, hst x fun hc s => ?_⟩
    · generalize p.ty = ty at hf
      cases hf <;> first | exact hv | simp
    · rw [hc] at hf
      cases hf
      simp

/-- **C107**.  `deserialize` of two dictionaries with the same entries in
another order: the result is the same instance number in states that are the
same up to the order in which it stores its values, or both raise. -/
theorem C107_order {E : Env} (hE : ∀ f args, Indirect (E.fn f args))
    (hO : ∀ f args, OrderlessProg (E.fn f args)) {j : Nat} (hj : 1 ≤ j) {c : ClsId}
    (hh : (E.classes c).hook = none) {w w0 : World} {v0 : Val}
    (h0 : run E (j + 2) (.construct c []) { w with quar := w.quar.union Quar.all } = (.ok v0, w0))
    {kvs kvs' : List (Val × Val)} (hp : kvs.Perm kvs') (hk : PlainInput E c kvs)
    (hl : ∀ o, w0.objs[w.objs.length]? = some o → ∀ l ∈ o.listeners, ∀ v, (Val.str l.name, v) ∉ kvs)
    {kw : DeKw} (ht : kw.trusted = false) {x : Val} {w1 : World}
    (h : run E (j + 3) (.hpDeserialize c (.dict kvs) kw) w = (.ok x, w1)) :
    ∃ w2, run E (j + 3) (.hpDeserialize c (.dict kvs') kw) w = (.ok x, w2) ∧ SameWorld w1 w2 := by
  change hpDeserializeBody E (run E (j + 2)) c (.dict kvs) kw w = _ at h
  show ∃ w2, hpDeserializeBody E (run E (j + 2)) c (.dict kvs') kw w = _ ∧ _
  unfold hpDeserializeBody at h ⊢
  dsimp only at h ⊢
  rw [← dictGet?_perm hp hk.keys hk.nodup]
  obtain ⟨outc, u, hc, h⟩ := bind_ok_inv h
  obtain ⟨rfl, rfl⟩ : outc = c ∧ u = w := by
    unfold deserializeClass at hc
    rw [ht] at hc
    simp only [Bool.false_and, Bool.false_eq_true, if_false] at hc
    split at hc
    · cases hc; exact ⟨rfl, rfl⟩
    · split at hc
      · cases hc
      · cases hc; exact ⟨rfl, rfl⟩
  rw [bind_ok hc]
  have hun : ((unusedKeys (E.classes outc).props kvs).filter
        (fun k => !(pyEq k (.str (s% "__class__"))))).Perm
      ((unusedKeys (E.classes outc).props kvs').filter (fun k => !(pyEq k (.str (s% "__class__"))))) := by
    unfold unusedKeys
    exact ((hp.filter _).map _).filter _
  generalize (unusedKeys (E.classes outc).props kvs).filter
        (fun k => !(pyEq k (.str (s% "__class__")))) = un at *
  generalize (unusedKeys (E.classes outc).props kvs').filter
        (fun k => !(pyEq k (.str (s% "__class__")))) = un' at *
  have hun1 : un'.isEmpty = un.isEmpty := by
    rw [Bool.eq_iff_iff, List.isEmpty_iff, List.isEmpty_iff]
    exact ⟨fun h => (h ▸ hun).eq_nil, fun h => (h ▸ hun).symm.eq_nil⟩
  have hun2 : un'.all Val.isStr = un.all Val.isStr := by
    rw [Bool.eq_iff_iff, List.all_eq_true, List.all_eq_true]
    exact ⟨fun h x hx => h x (hun.mem_iff.1 hx), fun h x hx => h x (hun.mem_iff.2 hx)⟩
  rw [hun1, hun2]
  obtain ⟨_, u', hr, h⟩ := bind_ok_inv h
  have hu : u' = u := by
    unfold raiseWhen at hr
    split at hr
    · cases hr
    · cases hr; rfl
  rw [hu] at hr h
  rw [bind_ok hr]
  have hst := propState_perm (ps := (E.classes outc).props) hp
  have hps : ∀ kv ∈ propState (E.classes outc).props kvs, kv.1 ≠ s% "cls" ∧ kv.1 ≠ s% "self" ∧ kv.2 ≠ .undef ∧
      ∃ p, lookupS kv.1 (E.classes outc).props = some (.mutable p) ∧ p.deser = none ∧ ScalarTy p.ty := by
    intro kv hm
    obtain ⟨k, v⟩ := kv
    obtain ⟨h1, e, h2⟩ := propState_mem hm
    obtain ⟨a, b, c, p, rfl, d, f⟩ := hk.plain k v h1 e h2
    exact ⟨a, b, c, p, h2, d, f⟩
  have hact : ∀ kv ∈ propState (E.classes outc).props kvs, ∃ y,
      deserEntry E (run E (j + 2)) outc { kw with assertValid := false } kv u = (y, u) := by
    intro kv hm
    obtain ⟨_, _, _, p, hlk, hd, hty⟩ := hps kv hm
    obtain ⟨y, hy⟩ := deserialize_basic (E := E) hd hty (j + 1) kv.1 kv.2 { kw with assertValid := false }
    unfold deserEntry entryDeserialize
    simp only [hlk]
    cases y with
    | error e => exact ⟨_, bind_err (hy u)⟩
    | ok y => exact ⟨_, bind_ok (hy u)⟩
  obtain ⟨ns, u1, hm, h⟩ := bind_ok_inv h
  obtain ⟨ns', hm', hnp⟩ : ∃ ns', mapML (deserEntry E (run E (j + 2)) outc { kw with assertValid := false })
      (propState (E.classes outc).props kvs') u = (.ok ns', u) ∧ ns.Perm ns' ∧ u1 = u := by
    rcases both_perm hst hact with ⟨a, b, h1, h2, h3⟩ | ⟨e, e', h1, h2⟩
    · rw [hm] at h1; cases h1
      exact ⟨b, h2, h3, rfl⟩
    · rw [hm] at h1; cases h1
  obtain ⟨hnp, hu1⟩ := hnp
  rw [hu1] at hm h
  rw [bind_ok hm']
  have hentry : ∀ x w y w', deserEntry E (run E (j + 2)) outc { kw with assertValid := false } x w = (.ok y, w') →
      y.1 = x.1 ∧ ∀ p, lookupS x.1 (E.classes outc).props = some (.mutable p) →
        run E (j + 2) (.deserializeP x.1 p x.2 { kw with assertValid := false }) w = (.ok y.2, w') := by
    intro x w y w' hx
    unfold deserEntry at hx
    cases hlk : lookupS x.1 (E.classes outc).props with
    | none => simp only [hlk] at hx; cases hx
    | some e =>
      simp only [hlk] at hx
      obtain ⟨z, w2, hz, hx⟩ := bind_ok_inv hx
      cases hx
      refine ⟨rfl, fun p hp => ?_⟩
      cases hp
      exact hz
  have hnames : ns.map (·.1) = (propState (E.classes outc).props kvs).map (·.1) :=
    mapML_heads (fun x w y w' hx => (hentry x w y w' hx).1) hm
  have hfrom : ∀ kv ∈ ns, ∃ v, (kv.1, v) ∈ propState (E.classes outc).props kvs ∧ kv.2 ≠ .undef ∧
      ∃ p, lookupS kv.1 (E.classes outc).props = some (.mutable p) ∧ ScalarTy p.ty ∧ Still p kv.2 := by
    intro kv hkv
    obtain ⟨y, hy, a, b, hab⟩ := mapML_from hm kv hkv
    obtain ⟨e1, e2⟩ := hentry y a kv b hab
    obtain ⟨_, _, hv, p, hlk, hd, hty⟩ := hps y hy
    have := read_still hd hty hv (e2 p hlk)
    refine ⟨y.2, by rw [e1]; exact hy, this.1, p, by rw [e1]; exact hlk, hty, this.2⟩
  have hplain : PlainKeywords E j outc ns := by
    refine ⟨?_, fun kv hkv => ?_, fun kv hkv => ?_, fun kv hkv => ?_⟩
    · rw [show ns.map Prod.fst = _ from hnames]; exact propState_nodup hk.nodup
    · obtain ⟨v, hv, _⟩ := hfrom kv hkv; exact (hps _ hv).1
    · obtain ⟨v, hv, _⟩ := hfrom kv hkv; exact (hps _ hv).2.1
    · obtain ⟨v, hv, hu, p, hlk, hty, hs⟩ := hfrom kv hkv
      refine ⟨hu, p, hlk, hs, ?_, ?_⟩
      · obtain ⟨a, b, c, d, ty⟩ := p
        cases ty <;> first
          | exact hty.elim
          | (simp only [depth, depthTy]; omega)
      · intro hvis
        cases hvis <;> rename_i hq <;> (try rename_i hq' ) <;> simp_all [ScalarTy]
  have hset : ∀ kv ∈ ns, isSettable E outc kv = true := by
    intro kv hkv
    obtain ⟨v, hv, hu, p, hlk, _⟩ := hfrom kv hkv
    unfold isSettable
    rw [hlk]
    rfl
  have hset' : ∀ kv ∈ ns', isSettable E outc kv = true := fun kv hkv => hset kv (hnp.mem_iff.2 hkv)
  have f1 : ∀ {l : List (PyStr × Val)}, (∀ kv ∈ l, isSettable E outc kv = true) →
      l.filter (isSettable E outc) = l ∧ l.filter (fun kv => !isSettable E outc kv) = [] := by
    intro l hl
    refine ⟨List.filter_eq_self.2 hl, List.filter_eq_nil_iff.2 fun kv hkv => by simp [hl kv hkv]⟩
  rw [(f1 hset).1, (f1 hset).2] at h
  rw [(f1 hset').1, (f1 hset').2]
  obtain ⟨inst, u2, hcon, h⟩ := bind_ok_inv h
  unfold withDisabled at hcon
  obtain ⟨hc1, hc2⟩ := Prod.mk.inj hcon
  obtain ⟨w3, hc3, hsame⟩ := (C103_order hE hh h0 hnp hplain
    (fun o ho l hlm kv hkv hne => by
      obtain ⟨v, hv, _⟩ := hfrom kv hkv
      refine hl o ho l hlm v ?_
      rw [hne]
      exact (propState_mem hv).1)).1 inst _ (Prod.ext hc1 rfl)
  have hcon' : withDisabled Quar.all (run E (j + 2) (.construct outc ns')) u =
      (.ok inst, { w3 with quar := u.quar }) := by
    unfold withDisabled
    rw [hc3]
  rw [bind_ok hcon']
  have hsw : SameWorld u2 { w3 with quar := u.quar } := by
    rw [← hc2]
    exact same_quar (same_of_values hsame) _
  have hb : OrderBlind (deserFinish E (run E (j + 2)) outc kw [] inst) := by
    have H := run_blind hO (j + 2)
    unfold deserFinish setImmutable assertBuilt
    blind hO, H
  obtain ⟨r1, r2⟩ := hb _ _ hsw
  rw [h] at r1 r2
  refine ⟨(deserFinish E (run E (j + 2)) outc kw [] inst { w3 with quar := u.quar }).2, ?_, r2⟩
  exact Prod.ext r1.symm rfl

/-- **C107**.  In one order `deserialize` raises exactly if it does in the other. -/
theorem C107_raises {E : Env} (hE : ∀ f args, Indirect (E.fn f args))
    (hO : ∀ f args, OrderlessProg (E.fn f args)) {j : Nat} (hj : 1 ≤ j) {c : ClsId}
    (hh : (E.classes c).hook = none) {w w0 : World} {v0 : Val}
    (h0 : run E (j + 2) (.construct c []) { w with quar := w.quar.union Quar.all } = (.ok v0, w0))
    {kvs kvs' : List (Val × Val)} (hp : kvs.Perm kvs') (hk : PlainInput E c kvs)
    (hl : ∀ o, w0.objs[w.objs.length]? = some o → ∀ l ∈ o.listeners, ∀ v, (Val.str l.name, v) ∉ kvs)
    {kw : DeKw} (ht : kw.trusted = false) {e : PyErr} {w1 : World}
    (h : run E (j + 3) (.hpDeserialize c (.dict kvs) kw) w = (.error e, w1)) :
    ∃ e' w2, run E (j + 3) (.hpDeserialize c (.dict kvs') kw) w = (.error e', w2) := by
  cases hr : run E (j + 3) (.hpDeserialize c (.dict kvs') kw) w with
  | mk r w2 =>
    cases r with
    | error e' => exact ⟨e', w2, rfl⟩
    | ok x =>
      obtain ⟨w3, h3, _⟩ := C107_order hE hO hj hh h0 hp.symm (PlainInput.perm hp hk)
        (fun o ho l hlm v hv => hl o ho l hlm v (hp.mem_iff.2 hv)) ht hr
      rw [h] at h3
      cases h3

/-- **C107**.  The instances built behave the same in every program that does not
serialize without `save_dynamic`. -/
theorem C107_programs {E : Env} (hE : ∀ f args, Indirect (E.fn f args))
    (hO : ∀ f args, OrderlessProg (E.fn f args)) {j : Nat} (hj : 1 ≤ j) {c : ClsId}
    (hh : (E.classes c).hook = none) {w w0 : World} {v0 : Val}
    (h0 : run E (j + 2) (.construct c []) { w with quar := w.quar.union Quar.all } = (.ok v0, w0))
    {kvs kvs' : List (Val × Val)} (hp : kvs.Perm kvs') (hk : PlainInput E c kvs)
    (hl : ∀ o, w0.objs[w.objs.length]? = some o → ∀ l ∈ o.listeners, ∀ v, (Val.str l.name, v) ∉ kvs)
    {kw : DeKw} (ht : kw.trusted = false) {x : Val} {w1 : World}
    (h : run E (j + 3) (.hpDeserialize c (.dict kvs) kw) w = (.ok x, w1)) :
    ∃ w2, run E (j + 3) (.hpDeserialize c (.dict kvs') kw) w = (.ok x, w2) ∧
      ∀ n p, OrderlessProg p → (runProg E n p w1).1 = (runProg E n p w2).1 := by
  obtain ⟨w2, h2, hs⟩ := C107_order hE hO hj hh h0 hp hk hl ht h
  exact ⟨w2, h2, fun n p hpp => (C106_programs E hO n p hpp w1 w2 hs).1⟩

/-! ## An input in two orders -/

def c107In : List (Val × Val) :=
  [(.str (s% "b"), .int 4), (.str (s% "x"), .none), (.str (s% "a"), .int 3)]
def c107In' : List (Val × Val) :=
  [(.str (s% "a"), .int 3), (.str (s% "b"), .int 4), (.str (s% "x"), .none)]

/-- The hypotheses hold for class 0 of `ordEnv`; the input is read, and with
`strict` refused for its third key. -/
theorem C107_example : (∀ f args, Indirect (ordEnv.fn f args)) ∧
    (∀ f args, OrderlessProg (ordEnv.fn f args)) ∧ (ordEnv.classes 0).hook = none ∧
    c107In.Perm c107In' ∧ PlainInput ordEnv 0 c107In ∧
    (run ordEnv 8 (.construct 0 []) { quar := ({} : World).quar.union Quar.all }).1 = .ok (.obj 0) ∧
    (run ordEnv 8 (.construct 0 []) { quar := ({} : World).quar.union Quar.all }).2.objs.map Obj.listeners = [[]] ∧
    (run ordEnv 9 (.hpDeserialize 0 (.dict c107In) {}) {}).1 = .ok (.obj 0) ∧
    (run ordEnv 9 (.hpDeserialize 0 (.dict c107In) {}) {}).2.objs.map Obj.backend =
      [[(s% "a", .int 3), (s% "b", .float (.fin 4))]] ∧
    (run ordEnv 9 (.hpDeserialize 0 (.dict c107In) { strict := true }) {}).1 = .error ⟨.value, []⟩ := by
  refine ⟨C103_example.1, C106_example.1, rfl, ?_, ⟨?_, by simp [c107In], ?_⟩, ?_, ?_, ?_, ?_, ?_⟩
  · exact (List.perm_append_comm (l₁ := [_, _]) (l₂ := [_]))
  · intro kv hm
    simp only [c107In, List.mem_cons, List.not_mem_nil, or_false] at hm
    rcases hm with rfl | rfl | rfl <;> exact ⟨_, rfl⟩
  · intro k v hm e he
    simp only [c107In, List.mem_cons, List.not_mem_nil, or_false, Prod.mk.injEq, Val.str.injEq] at hm
    rcases hm with ⟨rfl, rfl⟩ | ⟨rfl, rfl⟩ | ⟨rfl, rfl⟩
    · cases he
      exact ⟨by decide, by decide, by simp, ordB, rfl, rfl, trivial⟩
    · cases he
    · cases he
      exact ⟨by decide, by decide, by simp, ordA, rfl, rfl, trivial⟩
  all_goals with_unfolding_all rfl

end Verif
