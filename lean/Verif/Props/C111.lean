import Verif.Props.C110
import Verif.Spec.Classless

/-!
# C111: trusted matters only for input that names a class
-/

namespace Verif
open Spec Spec.Exc

namespace Trust

theorem mapML_congr {α β : Type} {f g : α → M β} : ∀ {xs : List α}, (∀ x ∈ xs, f x = g x) → mapML f xs = mapML g xs
  | [], _ => rfl
  | x :: xs, h => by
    unfold mapML
    rw [h x (by simp), mapML_congr fun y hy => h y (by simp [hy])]

theorem iter_classless {v : Val} {xs : List Val} (hv : Classless v) (h : v.iter? = some xs) : ∀ x ∈ xs, Classless x := by
  cases hv with
  | flat _ h' => rw [h'] at h; cases h
  | text s =>
    cases h
    intro x hx
    obtain ⟨ch, _, rfl⟩ := List.mem_map.1 hx
    exact .text _
  | list xs hx => cases h; exact hx
  | tup xs hx => cases h; exact hx
  | set xs hx => cases h; exact hx
  | dict kvs _ hk _ =>
    cases h
    intro x hx
    obtain ⟨kv, hm, rfl⟩ := List.mem_map.1 hx
    exact hk kv hm

theorem dict_classless {kvs : List (Val × Val)} (hv : Classless (.dict kvs)) :
    ((dictGet? kvs (.str (s% "__class__"))).getD .none).truthy = false ∧
      ∀ kv ∈ kvs, Classless kv.1 ∧ Classless kv.2 := by
  cases hv with
  | flat _ h => cases h
  | dict _ h hk hx => exact ⟨h, fun kv hm => ⟨hk kv hm, hx kv hm⟩⟩

theorem state_mem {ps : List (PyStr × Entry)} {k : PyStr} {v : Val} : ∀ {kvs : List (Val × Val)},
    (k, v) ∈ propState ps kvs → (Val.str k, v) ∈ kvs
  | [], h => by cases h
  | (a, x) :: kvs, h => by
    cases a with
    | str s =>
      simp only [propState] at h
      split at h
      · rcases List.mem_cons.1 h with h | h
        · cases h; simp
        · exact List.mem_cons_of_mem _ (state_mem h)
      · exact List.mem_cons_of_mem _ (state_mem h)
    | _ => exact List.mem_cons_of_mem _ (state_mem (by simpa only [propState] using h))

def wary (kw : DeKw) : DeKw := { kw with trusted := false }

theorem union_congr {rec : Rec} {nm : PyStr} {v : Val} {kw kw' : DeKw} : ∀ {ps : List PropSpec},
    (∀ q ∈ ps, rec (.deserializeP nm q v kw) = rec (.deserializeP nm q v kw')) →
    unionDeserialize rec nm v kw ps = unionDeserialize rec nm v kw' ps
  | [], _ => rfl
  | q :: ps, h => by
    unfold unionDeserialize
    rw [h q (by simp), union_congr fun q hq => h q (by simp [hq])]

theorem rec_same {E : Env} (hE : OwnReaders E) : ∀ n,
    (∀ nm p v kw, OwnReader p → Classless v →
      run E n (.deserializeP nm p v kw) = run E n (.deserializeP nm p v (wary kw))) ∧
    ∀ c v kw, Classless v → run E n (.hpDeserialize c v kw) = run E n (.hpDeserialize c v (wary kw)) := by
  intro n
  induction n with
  | zero => exact ⟨fun _ _ _ _ _ _ => rfl, fun _ _ _ _ => rfl⟩
  | succ n ih =>
  obtain ⟨ihp, ihh⟩ := ih
  constructor
  · intro nm p v kw hp hv
    show deserializeBody E (run E n) nm p v kw = deserializeBody E (run E n) nm p v (wary kw)
    unfold deserializeBody
    cases hp with
    | scalar _ hd hty =>
      rw [hd]
      dsimp only
      split
      · rfl
      · generalize p.ty = ty at hty
        cases ty <;> first
          | exact hty.elim
          | rfl
    | seq _ k it lo hi co hd hty hit =>
      rw [hd, hty]
      dsimp only
      split
      · rfl
      · split
        · rfl
        · rename_i xs hx
          rw [mapML_congr fun x hm => ihp nm it x kw hit (iter_classless hv hx x hm)]
    | dict _ kp vp co hd hty hk hvp =>
      rw [hd, hty]
      dsimp only
      split
      · rfl
      · split
        · rename_i kvs
          have hm := (dict_classless hv).2
          rw [mapML_congr fun kv hkv => by
            rw [ihp nm kp kv.1 kw hk (hm kv hkv).1, ihp nm vp kv.2 kw hvp (hm kv hkv).2]]
        · rfl
    | inst _ c hd hty =>
      rw [hd, hty]
      dsimp only
      split
      · rfl
      · exact ihh c v kw hv
    | union _ ps s hd hty hps =>
      rw [hd, hty]
      dsimp only
      split
      · rfl
      · have hu := union_congr fun q hq =>
          ihp nm q v { kw with strict := kw.strict || s, assertValid := s } (hps q hq) hv
        cases v with
        | dict kvs =>
          simp only [(dict_classless hv).1, Bool.false_eq_true, if_false]
          exact hu
        | _ => exact hu
  · intro c v kw hv
    show hpDeserializeBody E (run E n) c v kw = hpDeserializeBody E (run E n) c v (wary kw)
    unfold hpDeserializeBody
    cases v with
    | dict kvs =>
      dsimp only
      have hcl : ∀ t s, deserializeClass E c ((dictGet? kvs (.str (s% "__class__"))).getD .none) t s = pure c := by
        intro t s
        unfold deserializeClass
        rw [(dict_classless hv).1]
        rfl
      rw [hcl, hcl]
      have hent : ∀ kv ∈ propState (E.classes c).props kvs,
          deserEntry E (run E n) c { kw with assertValid := false } kv =
          deserEntry E (run E n) c { wary kw with assertValid := false } kv := by
        intro kv hkv
        have hx := ((dict_classless hv).2 _ (state_mem (k := kv.1) (v := kv.2) hkv)).2
        unfold deserEntry
        cases hl : lookupS kv.1 (E.classes c).props with
        | none => rfl
        | some e =>
          have := hE c _ e hl
          have he : entryDeserialize E (run E n) kv.1 e kv.2 { kw with assertValid := false } =
              entryDeserialize E (run E n) kv.1 e kv.2 { wary kw with assertValid := false } := by
            cases e with
            | mutable p => exact ihp _ p _ _ this hx
            | gettable p => exact ihp _ p _ _ this hx
            | dynamic p g s dl =>
              unfold entryDeserialize
              dsimp only
              have hd : p.deser = none := this
              rw [hd]
            | renamed _ => rfl
          simp only [he]
      funext w
      rw [bind_ok (show (pure c : M ClsId) w = (.ok c, w) from rfl),
        bind_ok (show (pure c : M ClsId) w = (.ok c, w) from rfl), mapML_congr hent]
      rfl
    | _ => rfl

end Trust

/-- **C111**.  Where no class has registered deserializers, `trusted` makes no
difference for input in which no dictionary names a class: the result or
exception and the state are the same. -/
theorem C111_trusted {E : Env} (hE : OwnReaders E) (n : Nat) (c : ClsId) {v : Val} (hv : Classless v) (s a : Bool)
    (w : World) : run E n (.hpDeserialize c v ⟨true, s, a⟩) w = run E n (.hpDeserialize c v ⟨false, s, a⟩) w :=
  congrFun ((Trust.rec_same hE n).2 c v ⟨true, s, a⟩ hv) w

/-! ## Nested input without and with a class -/

/-- The classes of C110, with class 1 found under the name `B`. -/
def c111Env : Env := { c110Env c110Union with
  classes := fun c => { (c110Env c110Union).classes c with
    registry := [(s% "B", 1)], ancestors := if c = 1 then [0] else [] } }

def c111In : Val := .dict [(.str (s% "i"), .dict [(.str (s% "b"), .int 3)])]
def c111Named : Val := .dict [(.str (s% "i"), .dict [(.str (s% "b"), .int 3), (.str (s% "__class__"), .str (s% "B"))])]

/-- Without `__class__` both build an instance of the first alternative; with it
`trusted` builds one of the class named. -/
theorem C111_example : OwnReaders c111Env ∧ Classless c111In ∧
    (run c111Env 12 (.hpDeserialize 2 c111In { trusted := true }) {}).1 = .ok (.obj 1) ∧
    (run c111Env 12 (.hpDeserialize 2 c111In { trusted := true }) {}).2.objs.map Obj.cls = [0, 2] ∧
    (run c111Env 12 (.hpDeserialize 2 c111Named { trusted := true }) {}).2.objs.map Obj.cls = [1, 2] ∧
    (run c111Env 12 (.hpDeserialize 2 c111Named {}) {}).2.objs.map Obj.cls = [0, 2] := by
  refine ⟨?_, ?_, ?_, ?_, ?_, ?_⟩
  · intro c nm e h
    have : e = .mutable c110Num ∨ e = .mutable c110Union := by
      simp only [c111Env, c110Env] at h
      split at h
      · simp only [lookupS] at h; split at h <;> cases h; exact .inl rfl
      · split at h
        · simp only [lookupS] at h; split at h <;> cases h; exact .inl rfl
        · simp only [lookupS] at h; split at h <;> cases h; exact .inr rfl
    rcases this with rfl | rfl
    · exact .scalar _ rfl trivial
    · refine .union _ _ _ rfl rfl fun q hq => ?_
      simp only [List.mem_cons, List.not_mem_nil, or_false] at hq
      rcases hq with rfl | rfl
      · exact .inst _ 0 rfl rfl
      · exact .inst _ 1 rfl rfl
  · refine .dict _ (by with_unfolding_all rfl) ?_ ?_
    · intro kv hm
      simp only [List.mem_cons, List.not_mem_nil, or_false] at hm
      subst hm
      exact .text _
    · intro kv hm
      simp only [List.mem_cons, List.not_mem_nil, or_false] at hm
      subst hm
      refine .dict _ (by with_unfolding_all rfl) ?_ ?_ <;> intro kv hm <;> simp only [List.mem_cons, List.not_mem_nil, or_false] at hm <;>
        subst hm
      · exact .text _
      · exact .flat _ rfl
  all_goals with_unfolding_all rfl

end Verif
