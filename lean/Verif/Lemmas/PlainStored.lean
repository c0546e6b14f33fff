import Verif.Lemmas.TwinData
import Verif.Props.C22
import Verif.Spec.PlainStored
import Verif.Spec.InputOrder

/-!
# Serialized forms of instances that store values of basic properties
-/

namespace Verif
open Spec

theorem serialize_plain {E : Env} {n : Nat} {nm : PyStr} {p : PropSpec} {v : Val} {kw : SerKw} (hser : p.ser = none)
    (hty : ScalarTy p.ty) (hv : v ≠ .undef) : (∃ j, j ≠ .undef ∧ ∀ u, run E n (.serializeP nm p v kw) u = (.ok j, u)) ∨
    (∃ e, ∀ u, run E n (.serializeP nm p v kw) u = (.error e, u)) := by
  cases n with
  | zero => exact .inr ⟨_, fun u => rfl⟩
  | succ n =>
  show (∃ j : Val, j ≠ .undef ∧ ∀ u, serializeBody E (run E n) nm p v kw u = (.ok j, u)) ∨
    (∃ e, ∀ u, serializeBody E (run E n) nm p v kw u = (.error e, u))
  unfold serializeBody
  rw [hser]
  dsimp only
  by_cases hnone : v.isNone = true
  · rw [if_pos hnone]
    exact .inl ⟨.none, by simp, fun u => rfl⟩
  · rw [if_neg hnone]
    have key : ∀ x, scalarToJson E p.ty v = some (.ok x) → x ≠ .undef := by
      intro x hx
      unfold scalarToJson at hx
      split at hx <;> (try cases hx) <;> (try assumption)
      all_goals (simp only [Option.some.injEq] at hx; split at hx <;> cases hx <;> simp)
    generalize p.ty = ty at hty key ⊢
    cases ty <;> first
      | exact hty.elim
      | (dsimp only
         generalize scalarToJson E _ v = y at key ⊢
         rcases y with _ | (k | j)
         · exact .inr ⟨_, fun u => rfl⟩
         · exact .inr ⟨_, fun u => rfl⟩
         · exact .inl ⟨j, key j rfl, fun u => rfl⟩)

theorem plainInput_complete {E : Env} {o : Obj} (hP : PlainStored E o) {ic : Bool} {nm : PyStr}
    {d : List (Val × Val)} (hkeys : d.map (·.1) = (o.backend.map (·.1)).map Val.str)
    (hd : ∀ kv ∈ d, kv.2 ≠ .undef) : PlainInput E o.cls (complete ic nm d) := by
  have hnd : (d.map (·.1)).Nodup := by
    rw [hkeys]
    exact List.pairwise_map.2 (hP.nodup.imp fun h e => h (Val.str.inj e))
  have hnf : ((d.filter (fun kv => !kv.2.isNone)).map (·.1)).Nodup := hnd.sublist (List.filter_sublist.map _)
  have hstr : ∀ kv ∈ d, ∃ s v, kv.1 = .str s ∧ (s, v) ∈ o.backend := by
    intro kv hkv
    have : kv.1 ∈ (o.backend.map (·.1)).map Val.str := by
      rw [← hkeys]; exact List.mem_map.2 ⟨kv, hkv, rfl⟩
    obtain ⟨s, hs, hs'⟩ := List.mem_map.1 this
    obtain ⟨⟨s2, v⟩, hm, rfl⟩ := List.mem_map.1 hs
    exact ⟨_, v, hs'.symm, hm⟩
  have hmem : ∀ kv ∈ complete ic nm d, kv ∈ d ∨ kv.1 = .str (s% "__class__") := by
    intro kv hkv
    unfold complete at hkv
    split at hkv
    · obtain ⟨k, x⟩ := kv
      rcases (mem_dictSet_str hnf).1 hkv with ⟨h, _⟩ | ⟨_, h⟩
      · exact .inr h
      · exact .inl (List.mem_filter.1 h).1
    · exact .inl (List.mem_filter.1 hkv).1
  refine ⟨fun kv hkv => ?_, ?_, fun k v hm e he => ?_⟩
  · rcases hmem kv hkv with h | h
    · obtain ⟨s, _, hs, _⟩ := hstr kv h
      exact ⟨s, hs⟩
    · exact ⟨_, h⟩
  · unfold complete
    split
    · exact dictSet_str_nodup hnf _ _
    · exact hnf
  · rcases hmem _ hm with h | h
    · obtain ⟨s, x, hs, hx⟩ := hstr _ h
      obtain rfl : k = s := Val.str.inj hs
      obtain ⟨h1, h2, _, p, hlk, _, hde, hty⟩ := hP.plain k x hx
      rw [hlk] at he
      cases he
      exact ⟨h1, h2, hd _ h, p, rfl, hde, hty⟩
    · rw [Val.str.inj h, hP.noclass] at he
      cases he

theorem complete_names {o : Obj} {ic : Bool} {nm : PyStr} {d : List (Val × Val)}
    (hkeys : d.map (·.1) = (o.backend.map (·.1)).map Val.str) {k : PyStr} {v : Val}
    (hm : (Val.str k, v) ∈ complete ic nm d) : k = s% "__class__" ∨ ∃ x, (k, x) ∈ o.backend := by
  have hstr : ∀ x, (Val.str k, x) ∈ d → ∃ x, (k, x) ∈ o.backend := by
    intro x hx
    have : Val.str k ∈ (o.backend.map (·.1)).map Val.str := by
      rw [← hkeys]; exact List.mem_map.2 ⟨_, hx, rfl⟩
    obtain ⟨s, hs, hs'⟩ := List.mem_map.1 this
    obtain ⟨⟨s2, v2⟩, hm2, rfl⟩ := List.mem_map.1 hs
    cases hs'
    exact ⟨v2, hm2⟩
  unfold complete at hm
  split at hm
  · rcases dictSet_mem hm with h | ⟨_, h | ⟨x, h⟩⟩
    · exact .inr (hstr _ (List.mem_filter.1 h).1)
    · exact .inl (Val.str.inj h)
    · exact .inr (hstr _ (List.mem_filter.1 h).1)
  · exact .inr (hstr _ (List.mem_filter.1 hm).1)

/-- In two states that differ in the order of stored values, the data of such an
instance is the same entries in some order. -/
theorem plainSerialize_both {E : Env} {kw : SerKw} (hk : kw.saveDynamic = false) {n : Nat} {ws ws' : World}
    (hs : SameWorld ws ws') {r : Nat} {o o' : Obj} (ho : ws.objs[r]? = some o) (ho' : ws'.objs[r]? = some o')
    (hP : PlainStored E o) (hN' : (o'.backend.map (·.1)).Nodup) :
    Both ws ws' (fun j j' => ∃ kvs kvs', j = .dict kvs ∧ j' = .dict kvs' ∧ kvs.Perm kvs' ∧ PlainInput E o.cls kvs ∧
        ∀ k v, (Val.str k, v) ∈ kvs → k = s% "__class__" ∨ ∃ x, (k, x) ∈ o.backend)
      (run E n (.hpSerialize r kw)) (run E n (.hpSerialize r kw)) := by
  cases n with
  | zero => exact .inr ⟨_, _, rfl, rfl⟩
  | succ m =>
  show Both ws ws' _ (hpSerializeBody E (run E m) r kw) (hpSerializeBody E (run E m) r kw)
  unfold hpSerializeBody
  obtain ⟨o2, ho2, b, hb, hl⟩ := sameWorld_fwd hs ho
  obtain rfl : o2 = o' := Option.some.inj (ho2.symm.trans ho')
  refine both_bind (R := fun a b => a = o ∧ b = o2) (.inl ⟨o, o2, getObj_some ho, getObj_some ho', rfl, rfl⟩) ?_
  rintro _ _ ⟨rfl, rfl⟩
  rename_i o o'
  have hgs : o'.gs = o.gs := by rw [hb]
  have hcls : o'.cls = o.cls := by rw [hb]
  rw [hgs]
  cases hg : o.gs with
  | true => exact both_raiseK _ _
  | false =>
  simp only [Bool.false_eq_true, if_false]
  rw [hk, hcls]
  simp only [Bool.false_eq_true, if_false]
  have hbk : o'.backend = b := by rw [hb]
  have hperm : o'.backend.Perm o.backend := perm_of_lookups hP.nodup hN' (by rw [hbk]; exact hl)
  have hback := markObj_back ho hg
  have hback' := markObj_back ho' (hgs.trans hg)
  have ho1 : (ws.setObj r fun o => { o with gs := true }).objs[r]? = some { o with gs := true } := by
    unfold World.setObj; rw [List.getElem?_modify]; simp [ho]
  have ho1' : (ws'.setObj r fun o => { o with gs := true }).objs[r]? = some { o' with gs := true } := by
    unfold World.setObj; rw [List.getElem?_modify]; simp [ho']
  generalize hws1 : ws.setObj r (fun o => { o with gs := true }) = ws1 at *
  generalize hws1' : ws'.setObj r (fun o => { o with gs := true }) = ws1' at *
  have hact : ∀ key ∈ o.backend.map (·.1), Both ws1 ws1' (fun a b => a = b ∧ a.2 ≠ .undef)
      (match lookupS key (E.classes o.cls).props with
        | none => raiseK .key
        | some e => do
            let v ← run E m (.getattr r key)
            let j ← entrySerialize E (run E m) key e v kw
            pure (Val.str key, j))
      (match lookupS key (E.classes o.cls).props with
        | none => raiseK .key
        | some e => do
            let v ← run E m (.getattr r key)
            let j ← entrySerialize E (run E m) key e v kw
            pure (Val.str key, j)) := by
    intro key hkey
    obtain ⟨⟨nm, v⟩, hmem, rfl⟩ := List.mem_map.1 hkey
    obtain ⟨_, _, hvu, p, hlk, hser, _, hty⟩ := hP.plain nm v hmem
    simp only [hlk]
    have hv : lookupS nm o.backend = some v := mem_lookupS hP.nodup hmem
    have hv' : lookupS nm o'.backend = some v := by rw [hbk, hl nm]; exact hv
    cases m with
    | zero => exact .inr ⟨_, _, bind_err rfl, bind_err rfl⟩
    | succ m' =>
    have hget : run E (m' + 1) (.getattr r nm) ws1 = (.ok v, ws1) := by
      show getattrBody E (run E m') r nm ws1 = _
      rw [getattr_mutable ho1 hlk]; exact congrArg (fun v => (Except.ok v, ws1)) (by simp [hv])
    have hlk' : lookupS nm (E.classes o'.cls).props = some (.mutable p) := by rw [hcls]; exact hlk
    have hget' : run E (m' + 1) (.getattr r nm) ws1' = (.ok v, ws1') := by
      show getattrBody E (run E m') r nm ws1' = _
      rw [getattr_mutable ho1' hlk']; exact congrArg (fun v => (Except.ok v, ws1')) (by simp [hv'])
    refine both_bind (R := fun a b => a = v ∧ b = v) (.inl ⟨v, v, hget, hget', rfl, rfl⟩) ?_
    rintro a a' ⟨ha, ha'⟩
    rw [ha, ha']
    refine both_bind (R := fun a b => a = b ∧ a ≠ .undef) ?_ fun x y h => both_pure ⟨by rw [h.1], h.2⟩
    show Both ws1 ws1' _ (run E (m' + 1) (.serializeP nm p v kw)) (run E (m' + 1) (.serializeP nm p v kw))
    rcases serialize_plain (E := E) (n := m' + 1) (nm := nm) (kw := kw) hser hty hvu with ⟨j, hj, h⟩ | ⟨e, h⟩
    · exact .inl ⟨j, j, h _, h _, rfl, hj⟩
    · exact .inr ⟨e, e, h _, h _⟩
  have hdata := both_mapML hact
  have hdata' := both_perm (ws := ws1') (hperm.map (·.1)).symm fun key hkey => by
    rcases hact key hkey with ⟨_, b, _, h2, _⟩ | ⟨_, e, _, h2⟩
    · exact ⟨_, h2⟩
    · exact ⟨_, h2⟩
  have key : Both ws1 ws1' (fun j j' : Val => ∃ kvs kvs', j = .dict kvs ∧ j' = .dict kvs' ∧ kvs.Perm kvs' ∧
        PlainInput E o.cls kvs ∧ ∀ k v, (Val.str k, v) ∈ kvs → k = s% "__class__" ∨ ∃ x, (k, x) ∈ o.backend)
      (do
        let data ← mapML (fun key => do
          match lookupS key (E.classes o.cls).props with
          | none => raiseK .key
          | some e => do
              let v ← run E m (.getattr r key)
              let j ← entrySerialize E (run E m) key e v kw
              pure (Val.str key, j)) (o.backend.map (·.1))
        pure (.dict (complete kw.includeClass (E.classes o.cls).name data)))
      (do
        let data ← mapML (fun key => do
          match lookupS key (E.classes o.cls).props with
          | none => raiseK .key
          | some e => do
              let v ← run E m (.getattr r key)
              let j ← entrySerialize E (run E m) key e v kw
              pure (Val.str key, j)) (o'.backend.map (·.1))
        pure (.dict (complete kw.includeClass (E.classes o.cls).name data))) := by
    rcases hdata with ⟨d, d1, p1, p2, hd⟩ | ⟨e, e1, p1, p2⟩ <;>
    rcases hdata' with ⟨d2, d', q1, q2, hd'⟩ | ⟨e2, e', q1, q2⟩
    · rw [p2] at q1; cases q1
      obtain ⟨rfl, hun⟩ : d = d1 ∧ ∀ kv ∈ d, kv.2 ≠ .undef := by
        clear p1 p2 q2 hd'
        induction hd with
        | nil => exact ⟨rfl, by simp⟩
        | cons h _ ih =>
          obtain ⟨rfl, h2⟩ := h
          obtain ⟨rfl, h3⟩ := ih
          exact ⟨rfl, by simpa using ⟨h2, fun a b => h3 (a, b)⟩⟩
      have hkeys := mapML_keys (fun x u y u' hx => by
        cases hlk : lookupS x (E.classes o.cls).props with
        | none => simp only [hlk] at hx; cases hx
        | some e =>
          simp only [hlk] at hx
          obtain ⟨_, _, _, hx⟩ := bind_ok_inv hx
          obtain ⟨_, _, _, hx⟩ := bind_ok_inv hx
          cases hx
          rfl) p2
      refine .inl ⟨_, _, bind_ok p1, bind_ok q2, _, _, rfl, rfl, complete_perm hd' ?_ ?_,
        plainInput_complete hP hkeys hun, fun k v hm => complete_names hkeys hm⟩
      · intro kv hkv
        have : kv.1 ∈ (o.backend.map (·.1)).map Val.str := by
          rw [← hkeys]; exact List.mem_map.2 ⟨kv, hkv, rfl⟩
        obtain ⟨s, _, hs⟩ := List.mem_map.1 this
        exact ⟨s, hs.symm⟩
      · rw [hkeys]
        exact List.pairwise_map.2 (hP.nodup.imp fun h e => h (Val.str.inj e))
    · rw [p2] at q1; cases q1
    · rw [p2] at q1; cases q1
    · exact .inr ⟨_, _, bind_err p1, bind_err q2⟩
  rcases key with ⟨x, x', h1, h2, hr⟩ | ⟨e, e', h1, h2⟩
  · refine .inl ⟨x, x', ?_, ?_, hr⟩
    · rw [bind_ok (modObj_apply _ _ _), hws1]
      refine (congrArg (fun q : Except PyErr Val × World =>
        (q.1, q.2.setObj r (fun o => { o with gs := false }))) h1).trans ?_
      rw [hback]
    · rw [bind_ok (modObj_apply _ _ _), hws1']
      refine (congrArg (fun q : Except PyErr Val × World =>
        (q.1, q.2.setObj r (fun o => { o with gs := false }))) h2).trans ?_
      rw [hback']
  · refine .inr ⟨e, e', ?_, ?_⟩
    · rw [bind_ok (modObj_apply _ _ _), hws1]
      refine (congrArg (fun q : Except PyErr Val × World =>
        (q.1, q.2.setObj r (fun o => { o with gs := false }))) h1).trans ?_
      rw [hback]
    · rw [bind_ok (modObj_apply _ _ _), hws1']
      refine (congrArg (fun q : Except PyErr Val × World =>
        (q.1, q.2.setObj r (fun o => { o with gs := false }))) h2).trans ?_
      rw [hback']

end Verif
