import Verif.Spec.Saved
import Verif.Props.C80

/-!
# C81: serialize(save_dynamic=True)
-/

namespace Verif
open Spec

theorem wrapped_det {E : Env} {n : Nat} {f : FnId} {v : Val} {kw : List Val} {w : World} {x : Except PyErr Val}
    {w' : World} (h : Wrapped E n f v kw w x w') : callWrapped E (run E n) f v kw w = (x, w') := by
  unfold callWrapped
  cases h with
  | value x _ h => exact catchIf_ok h
  | error e _ h he => exact catchIf_pass h (by cases hk : e.kind <;> first | rfl | exact absurd hk he)
  | again e w1 _ x h he h2 => rw [catchIf_err (show callFn E (run E n) f (v :: kw) w = _ from h) (by rw [he]; rfl)]; exact h2

/-- One round of the loop of `serialize`. -/
def saveStep (E : Env) (rec : Rec) (c : ClsId) (r : Nat) (kw : SerKw) (key : PyStr) : M (Val × Val) :=
  match lookupS key (E.classes c).props with
  | none => raiseK .key
  | some e => do
      let v ← rec (.getattr r key)
      let j ← entrySerialize E rec key e v kw
      pure (Val.str key, j)

theorem saveStep_iff {E : Env} {n : Nat} {c : ClsId} {r : Nat} {kw : SerKw} {nm : PyStr} {e : Entry}
    (hl : lookupS nm (E.classes c).props = some e) {w w' : World} {kj : Val × Val} :
    saveStep E (run E n) c r kw nm w = (.ok kj, w') ↔ SavedOne E n r kw (nm, e) w kj w' := by
  unfold saveStep
  rw [hl]
  constructor
  · intro h
    obtain ⟨v, w1, h1, h⟩ := bind_ok_inv h
    obtain ⟨j, w2, h2, h⟩ := bind_ok_inv h
    cases h
    cases e with
    | mutable p => exact .own nm _ p v j w w1 _ (.inl rfl) h1 h2
    | gettable p => exact .own nm _ p v j w w1 _ (.inr rfl) h1 h2
    | dynamic p g s d =>
      have h2 : (match p.ser with
        | some f => callWrapped E (run E n) f v kw.args
        | none => pure v) w1 = (.ok j, w') := h2
      cases hp : p.ser with
      | none => rw [hp] at h2; cases h2; exact .asIs nm p g s d _ w _ hp h1
      | some f =>
        rw [hp] at h2
        refine .written nm p g s d f v j w w1 _ hp h1 ?_
        have := callWrapped_spec E n f v kw.args w1
        have h2 : callWrapped E (run E n) f v kw.args w1 = _ := h2
        rw [h2] at this
        exact this
    | renamed t => cases h2; exact .renamed nm t _ w _ h1
  · intro h
    cases h with
    | own _ _ p v j _ w2 _ ho h1 h2 =>
      simp only []
      rw [bind_ok h1]
      rcases ho with rfl | rfl
      · rw [bind_ok (show entrySerialize E (run E n) nm (.mutable p) v kw w2 = _ from h2)]; rfl
      · rw [bind_ok (show entrySerialize E (run E n) nm (.gettable p) v kw w2 = _ from h2)]; rfl
    | asIs _ p g s d v _ _ hp h1 =>
      simp only []
      rw [bind_ok h1, bind_ok (by unfold entrySerialize; simp only [hp]; rfl)]
      rfl
    | written _ p g s d f v j _ w2 _ hp h1 h2 =>
      simp only []
      rw [bind_ok h1, bind_ok (by unfold entrySerialize; simp only [hp]; exact wrapped_det h2)]
      rfl
    | renamed _ t v _ _ h1 =>
      simp only []
      rw [bind_ok h1, bind_ok (by unfold entrySerialize; rfl)]
      rfl

theorem each_map {α β γ : Type} {f : α → World → β → World → Prop} {g : γ → World → β → World → Prop} {h : γ → α} :
    ∀ {xs : List γ} {ys : List β} {w w' : World}, (∀ x ∈ xs, ∀ w y w', f (h x) w y w' ↔ g x w y w') →
    (Each f (xs.map h) w ys w' ↔ Each g xs w ys w')
  | [], ys, w, w', _ => by
    constructor <;> (intro h; cases h; exact .nil _)
  | x :: xs, ys, w, w', hfg => by
    constructor
    · intro h
      cases h with
      | cons h1 h2 => exact .cons ((hfg x (by simp) _ _ _).1 h1) ((each_map fun x hx => hfg x (by simp [hx])).1 h2)
    · intro h
      cases h with
      | cons h1 h2 => exact .cons ((hfg x (by simp) _ _ _).2 h1) ((each_map fun x hx => hfg x (by simp [hx])).2 h2)

/-- C81: with `save_dynamic`, all properties of the class are read and written in the
order of the class - stored, dynamic and renamed ones - and `serialize()` gives what is
not None of them; this for all user functions. -/
theorem C81_saved {E : Env} (hd : DistinctNames E) {n r : Nat} {ic : Bool} {w w' : World} {o : Obj} {j : Val}
    (ho : w.objs[r]? = some o) (hg : o.gs = false) :
    run E (n + 1) (.hpSerialize r ⟨ic, true⟩) w = (.ok j, w') ↔
    ∃ data w2, Each (SavedOne E n r ⟨ic, true⟩) (E.classes o.cls).props
        (w.setObj r fun o => { o with gs := true }) data w2 ∧
      j = .dict (complete ic (E.classes o.cls).name data) ∧ w' = w2.setObj r fun o => { o with gs := false } := by
  have hstep : ∀ data w2, mapML (saveStep E (run E n) o.cls r ⟨ic, true⟩) ((E.classes o.cls).props.map (·.1))
      (w.setObj r fun o => { o with gs := true }) = (.ok data, w2) ↔ Each (SavedOne E n r ⟨ic, true⟩) (E.classes o.cls).props
        (w.setObj r fun o => { o with gs := true }) data w2 := fun data w2 => by
    rw [mapML_iff]
    refine each_map fun x hx w y w' => ?_
    exact saveStep_iff (lookupS_of_mem (hd o.cls) hx)
  have hbody : run E (n + 1) (.hpSerialize r ⟨ic, true⟩) w =
      M.fin (mapML (saveStep E (run E n) o.cls r ⟨ic, true⟩) ((E.classes o.cls).props.map (·.1)) >>= fun data =>
        pure (.dict (complete ic (E.classes o.cls).name data))) (fun w => w.setObj r (fun o => { o with gs := false }))
        (w.setObj r fun o => { o with gs := true }) := by
    show hpSerializeBody E (run E n) r ⟨ic, true⟩ w = _
    unfold hpSerializeBody
    rw [bind_ok (getObj_some ho)]
    simp only [hg]
    rw [if_neg (by simp), bind_ok (modObj_apply ..)]
    unfold complete
    cases ic <;> rfl
  rw [hbody, fin_apply]
  constructor
  · intro h
    cases hm : mapML (saveStep E (run E n) o.cls r ⟨ic, true⟩) ((E.classes o.cls).props.map (·.1))
        (w.setObj r fun o => { o with gs := true }) with
    | mk x w2 =>
      cases x with
      | ok data =>
        rw [bind_ok hm] at h
        cases h
        exact ⟨data, w2, (hstep data w2).1 hm, rfl, rfl⟩
      | error e => rw [bind_err hm] at h; cases h
  · rintro ⟨data, w2, h, rfl, rfl⟩
    rw [bind_ok ((hstep data w2).2 h)]
    rfl

theorem each_keys {E : Env} {n r : Nat} {kw : SerKw} : ∀ {ps : List (PyStr × Entry)} {w w' : World}
    {data : List (Val × Val)}, Each (SavedOne E n r kw) ps w data w' →
    data.map (·.1) = ps.map (fun x => .str x.1)
  | [], _, _, _, h => by cases h; rfl
  | _ :: _, _, _, _, h => by
    cases h with
    | cons h1 h2 => rw [List.map_cons, List.map_cons, each_keys h2]; cases h1 <;> rfl

/-- C81: without `__class__`, the keys of the data are names of properties of the class,
in the order of the class, each at most once; no value is None. -/
theorem C81_keys {E : Env} (hd : DistinctNames E) {n r : Nat} {w w' : World} {o : Obj} {j : Val}
    (ho : w.objs[r]? = some o) (h : run E n (.hpSerialize r ⟨false, true⟩) w = (.ok j, w')) :
    ∃ kvs, j = .dict kvs ∧ (kvs.map (·.1)).Sublist ((E.classes o.cls).props.map fun x => .str x.1) ∧
      (kvs.map (·.1)).Nodup ∧ ∀ kv ∈ kvs, kv.2 ≠ .none := by
  cases n with
  | zero => cases h
  | succ n =>
    have hg : o.gs = false := by
      refine Bool.eq_false_iff.2 fun hg => ?_
      have h : hpSerializeBody E (run E n) r ⟨false, true⟩ w = (.ok j, w') := h
      unfold hpSerializeBody at h
      rw [bind_ok (getObj_some ho)] at h
      simp only [] at h
      rw [if_pos hg] at h
      cases h
    obtain ⟨data, w2, h1, rfl, _⟩ := (C81_saved hd ho hg).1 h
    have hk := each_keys h1
    have hsub : ((complete false (E.classes o.cls).name data).map (·.1)).Sublist
        ((E.classes o.cls).props.map fun x => Val.str x.1) := by
      rw [← hk]
      exact List.filter_sublist.map _
    refine ⟨_, rfl, hsub, hsub.nodup ?_, fun kv hkv h0 => ?_⟩
    · have := hd o.cls
      rw [show ((E.classes o.cls).props.map fun x => Val.str x.1) = ((E.classes o.cls).props.map (·.1)).map Val.str by
        rw [List.map_map]; rfl]
      exact List.Pairwise.map _ (fun a b hab h => hab (Val.str.inj h)) this
    · have := (List.mem_filter.1 hkv).2
      rw [h0] at this
      cases this

/-! ## Examples -/

/-- 0: the getter of `twice`, twice the value of `x`; 1: the getter of `me`, the
instance itself. -/
def c81Fn : FnId → List Val → Prog
  | 0, [.obj r] => .call (.getattr r (s% "x")) fun
      | .ok (.int i) => .ret (.int (2 * i))
      | _ => .ret .none
  | 1, [v] => .ret v
  | _, _ => .raise { kind := .type }

/-- `class Box` with an Integer `x`, a dynamic Integer `twice` and `old`, the former name
of `x`. -/
def c81Env : Env :=
  { demoEnv with
    fn := c81Fn
    classes := fun _ => { name := s% "Box", props := [(s% "x", .mutable c24Num),
      (s% "twice", .dynamic c24Num 0 none none), (s% "old", .renamed (s% "x"))] } }

def c81World : World := { objs := [{ cls := 0, backend := [(s% "x", .int 3)] }] }

/-- Without `save_dynamic` only `x` is written; with it the other two as well. -/
theorem C81_example : DistinctNames c81Env ∧
    (run c81Env 20 (.hpSerialize 0 ⟨false, false⟩) c81World).1 = .ok (.dict [(.str (s% "x"), .int 3)]) ∧
    (run c81Env 20 (.hpSerialize 0 ⟨false, true⟩) c81World).1 = .ok (.dict [(.str (s% "x"), .int 3),
      (.str (s% "twice"), .int 6), (.str (s% "old"), .int 3)]) :=
  ⟨fun _ => show [s% "x", s% "twice", s% "old"].Nodup by decide, by with_unfolding_all rfl, by with_unfolding_all rfl⟩

/-- Saved dynamic values are checked and kept when they are read: the attribute is still
what the getter says, but from then on `serialize()` writes it, also without
`save_dynamic`. -/
theorem C81_loaded :
    let w := (run c81Env 20 (.hpDeserialize 0 (.dict [(.str (s% "x"), .int 3), (.str (s% "twice"), .int 100)]) {}) {}).2
    w.objs.map (·.backend) = [[(s% "x", .int 3), (s% "twice", .int 100)]] ∧
      (run c81Env 20 (.getattr 0 (s% "twice")) w).1 = .ok (.int 6) ∧
      (run c81Env 20 (.hpSerialize 0 ⟨false, false⟩) w).1 = .ok (.dict [(.str (s% "x"), .int 3),
        (.str (s% "twice"), .int 6)]) := by
  with_unfolding_all exact ⟨rfl, rfl, rfl⟩

/-- `class Box` with a dynamic Instance of itself. -/
def c81iEnv : Env :=
  { c81Env with classes := fun _ => { name := s% "Box", props := [(s% "me", .dynamic (asProp 0) 1 none none)] } }

/-- A dynamic Instance is saved as the instance itself, which is no JSON data. -/
theorem C81_not_json : ∃ kvs, (run c81iEnv 20 (.hpSerialize 0 ⟨false, true⟩)
      { objs := [{ cls := 0 }] }).1 = .ok (.dict kvs) ∧ kvs = [(.str (s% "me"), .obj 0)] ∧ ¬ Json (.dict kvs) := by
  refine ⟨[(.str (s% "me"), .obj 0)], by with_unfolding_all rfl, rfl, fun h => ?_⟩
  cases h with
  | dict _ _ h => cases h _ (List.mem_singleton.2 rfl)

end Verif
