import Verif.Lemmas.Locality
import Verif.Props.C22

/-!
# C69: calls do not get at instances they are not connected to; copies share nothing
-/

namespace Verif
open Spec

/-- The instances connected to `A`, and those made later. -/
def Linked (w : World) (A : Nat → Prop) (r : Nat) : Prop := Connected w A r ∨ w.objs.length ≤ r

theorem apart_start {O : Nat → Prop} {w : World} (h : ∀ r s, O r → Stores w r s → O s) : Apart O w w :=
  ⟨Nat.le_refl _, fun _ _ => rfl, fun r o hr ho kv hk s hs => h r s hr ⟨o, kv.1, kv.2, ho, hk, hs⟩⟩

theorem linked_closed {w : World} {A : Nat → Prop} (r s : Nat) (hr : Linked w A r) (hs : Stores w r s) :
    Linked w A s := by
  rcases hr with hr | hr
  · exact .inl (.next r s hr hs)
  · obtain ⟨o, _, _, ho, _⟩ := hs
    rw [List.getElem?_eq_none hr] at ho
    cases ho

theorem apart_linked (w : World) (A : Nat → Prop) : Apart (Linked w A) w w := apart_start linked_closed

theorem apart_connected {O A : Nat → Prop} {w0 w : World} (h : Apart O w0 w) (hA : ∀ r, A r → O r) {r : Nat}
    (hr : Connected w A r) : O r := by
  induction hr with
  | start r hr => exact hA r hr
  | next r s _ hs ih =>
    obtain ⟨o, nm, v, ho, hm, hv⟩ := hs
    exact h.own r o ih ho _ hm s hv

/-- **C69** (calls).  Let the user code know no instances but those it is given.  A call
on the instances in `A` leaves every instance that stored values do not connect to `A`
exactly as it was; its result contains, and stored values afterwards connect to `A`, only
instances that were connected to `A` before or are new. -/
theorem C69_calls {E : Env} (hE : NoGlobals E) {A : Nat → Prop} (n : Nat) {c : Call} (hc : CallOn A c) (w : World) :
    (∀ r, r < w.objs.length → ¬ Connected w A r →
      (run E n c w).2.objs[r]? = w.objs[r]?) ∧
    (∀ v, (run E n c w).1 = .ok v → c ≠ .userGet →
      ∀ r, RefIn r v → Connected w A r ∨ w.objs.length ≤ r) ∧
    (∀ r, Connected (run E n c w).2 A r → Connected w A r ∨ w.objs.length ≤ r) := by
  have hA : ∀ r, A r → Linked w A r := fun r h => .inl (.start r h)
  obtain ⟨h1, h2⟩ := safe_run (hE (Linked w A)) (fun r h => .inr h) n c (fun r h => hA r (hc r h)) w (apart_linked w A)
  refine ⟨fun r hr hn => h1.rest r fun h => ?_, fun v hv hu => (h2 v hv).resolve_right hu,
    fun r hr => apart_connected h1 hA hr⟩
  rcases h with h | h
  · exact hn h
  · omega

/-- **C69** (programs).  The same for a client program that works on the instances
connected to `A` and those it makes. -/
theorem C69_programs {E : Env} (hE : NoGlobals E) {A : Nat → Prop} (n : Nat) (w : World) {p : Prog}
    (hp : Confined (fun r => Connected w A r ∨ w.objs.length ≤ r) p) :
    (∀ r, r < w.objs.length → ¬ Connected w A r →
      (runProg E n p w).2.objs[r]? = w.objs[r]?) ∧
    (∀ r, Connected (runProg E n p w).2 A r → Connected w A r ∨ w.objs.length ≤ r) := by
  have hA : ∀ r, A r → Linked w A r := fun r h => .inl (.start r h)
  obtain ⟨h1, -⟩ := safe_execProg (safe_run (hE (Linked w A)) (fun r h => .inr h) n) p hp w (apart_linked w A)
  refine ⟨fun r hr hn => h1.rest r fun h => ?_, fun r hr => apart_connected h1 hA hr⟩
  rcases h with h | h
  · exact hn h
  · omega

/-! ## Deserialized instances -/

theorem no_refs_json {v : Val} (h : Json v) : ∀ r, ¬ RefIn r v := by
  intro r hr
  induction hr with
  | obj => cases h
  | list xs x hx _ ih =>
    cases h with
    | list _ h => exact ih (h x hx)
  | tup => cases h
  | set => cases h
  | key kvs kv hk hr ih =>
    cases h with
    | dict _ h1 h2 =>
      have h1 := h1 kv hk
      generalize kv.1 = k at h1 hr
      cases h1 <;> cases hr
  | value kvs kv hk _ ih =>
    cases h with
    | dict _ h1 h2 => exact ih (h2 kv hk)

/-- Whatever happens, deserialization of data without instances leaves all there is as it
was. -/
theorem C69_deserialize_frame {E : Env} (hE : NoGlobals E) (n : Nat) (c : ClsId) {v : Val}
    (hv : ∀ r, ¬ RefIn r v) (kw : DeKw) (w : World) (r : Nat) (hr : r < w.objs.length) :
    (run E n (.hpDeserialize c v kw) w).2.objs[r]? = w.objs[r]? := by
  refine (C69_calls hE (A := fun _ => False) n (c := .hpDeserialize c v kw) (fun s h => ?_) w).1 r hr fun h => ?_
  · cases h with
    | hpDeserialize _ _ _ h => exact hv s h
  · have : ∀ s, Connected w (fun _ => False) s → False := fun s hs => by
      induction hs with
      | start _ h => exact h
      | next _ _ _ _ ih => exact ih
    exact this r h

/-- **C69** (deserialization).  Deserialization of data without instances makes a new
instance; stored values connect it to new instances only, and every instance there was
before stays exactly as it was. -/
theorem C69_deserialize {E : Env} (hE : NoGlobals E) {n : Nat} {c : ClsId} {v : Val}
    (hv : ∀ r, ¬ RefIn r v) {kw : DeKw} {w w' : World} {x : Val}
    (h : run E n (.hpDeserialize c v kw) w = (.ok x, w')) :
    ∃ r, x = .obj r ∧ (∀ s, Connected w' (· = r) s → w.objs.length ≤ s) ∧
      ∀ s, s < w.objs.length → w'.objs[s]? = w.objs[s]? := by
  have hx : ∃ r, x = .obj r := by
    cases n with
    | zero => cases h
    | succ n =>
      have h : hpDeserializeBody E (run E n) c v kw w = (.ok x, w') := h
      unfold hpDeserializeBody at h
      split at h
      · obtain ⟨_, _, _, h⟩ := bind_ok_inv h
        obtain ⟨_, _, _, h⟩ := bind_ok_inv h
        obtain ⟨_, _, _, h⟩ := bind_ok_inv h
        obtain ⟨inst, _, _, h⟩ := bind_ok_inv h
        unfold deserFinish at h
        split at h
        · obtain ⟨_, _, _, h⟩ := bind_ok_inv h
          obtain ⟨_, _, _, h⟩ := bind_ok_inv h
          cases h
          exact ⟨_, rfl⟩
        · cases h
      · cases h
  obtain ⟨r, rfl⟩ := hx
  refine ⟨r, rfl, ?_, fun s hs => ?_⟩
  · have hO : ∀ s t, w.objs.length ≤ s → Stores w s t → w.objs.length ≤ t := by
      rintro s t hs ⟨o, _, _, ho, _⟩
      rw [List.getElem?_eq_none hs] at ho
      cases ho
    obtain ⟨h1, h2⟩ := safe_run (O := fun s => w.objs.length ≤ s) (hE _) (fun _ h => h) n
      (.hpDeserialize c v kw) (fun s h => by
        cases h with
        | hpDeserialize _ _ _ h => exact (hv s h).elim) w (apart_start hO)
    rw [h] at h1 h2
    have hr : w.objs.length ≤ r := ((h2 _ rfl).resolve_right (by simp)) r .obj
    exact fun s hs => apart_connected h1 (fun t ht => by rw [ht]; exact hr) hs
  · have := C69_deserialize_frame hE n c hv kw w s hs
    rw [h] at this
    exact this

/-! ## Copies -/

/-- **C69** (copies).  When the stored values have JSON forms and no property is
serialized by a function of the user, `copy` leaves all instances as they were, and the
copy is connected to new instances only. -/
theorem C69_copy {E : Env} (hE : NoGlobals E) (hc : JsonCopies E) {D : Nat} {w w' : World}
    (ht : TameWorld E D w) (hx : ExpressibleWorld E w) {skw : SerKw} (hs : skw.saveDynamic = false)
    {dkw : DeKw} {n r : Nat} {x : Val} (h : run E n (.copy (.obj r) skw dkw) w = (.ok x, w')) :
    ∃ r', x = .obj r' ∧ (∀ s, Connected w' (· = r') s → w.objs.length ≤ s) ∧
      ∀ s, s < w.objs.length → w'.objs[s]? = w.objs[s]? := by
  cases n with
  | zero => cases h
  | succ n =>
    have h : copyBody (run E n) (.obj r) skw dkw w = (.ok x, w') := h
    unfold copyBody at h
    simp only at h
    obtain ⟨o, w1, h1, h'⟩ := bind_ok_inv h
    have hw1 : w1 = w := by
      unfold getObj at h1
      split at h1
      · cases h1; rfl
      · cases h1
    subst hw1
    obtain ⟨j, w2, h2, h3⟩ := bind_ok_inv h'
    obtain ⟨rfl, _, _, _, _, hj, _⟩ := C22_serialize hc hs ht hx h2
    exact C69_deserialize hE (no_refs_json hj) h3

/-- Stored values refer to existing instances. -/
def NoDangling (w : World) : Prop := ∀ r s, Stores w r s → s < w.objs.length

/-- **C69** (independence).  After a copy, what a program does on the copy, and what is
connected to it then or made by the program, never changes the instances that were there
before; what it does on those never changes the copy or the instances connected to it. -/
theorem C69_independent {E : Env} (hE : NoGlobals E) {w w' : World} {r' : Nat}
    (hnew : ∀ s, Connected w' (· = r') s → w.objs.length ≤ s)
    (hold : ∀ s, s < w.objs.length → w'.objs[s]? = w.objs[s]?) (hw : NoDangling w) (n : Nat) (p : Prog) :
    (Confined (fun s => Connected w' (· = r') s ∨ w'.objs.length ≤ s) p →
      ∀ s, s < w.objs.length → (runProg E n p w').2.objs[s]? = w.objs[s]?) ∧
    (Confined (fun s => Connected w' (· < w.objs.length) s ∨ w'.objs.length ≤ s) p →
      ∀ s, s < w'.objs.length → Connected w' (· = r') s →
        (runProg E n p w').2.objs[s]? = w'.objs[s]?) := by
  refine ⟨fun hp s hs => ?_, fun hp s hs hc => ?_⟩
  · have hlt : s < w'.objs.length := by
      have := hold s hs
      rw [List.getElem?_eq_getElem hs] at this
      exact (List.getElem?_eq_some_iff.1 this).1
    rw [← hold s hs]
    exact (C69_programs hE n w' hp).1 s hlt fun h => by
      have := hnew s h
      omega
  · refine (C69_programs hE n w' hp).1 s hs fun h => ?_
    have old : ∀ t, Connected w' (· < w.objs.length) t → t < w.objs.length := fun t ht => by
      induction ht with
      | start _ h => exact h
      | next a b _ hab ih =>
        obtain ⟨o, nm, v, ho, hm, hv⟩ := hab
        exact hw a b ⟨o, nm, v, by rw [← hold a ih]; exact ho, hm, hv⟩
    have h1 := old s h
    have h2 := hnew s hc
    omega

/-! ## An example -/

/-- `class Node` with an Integer `i` and an optional `Node` called `n`. -/
def c69Class : ClassDef :=
  { (default : ClassDef) with
    name := s% "Node"
    props := [
      (s% "i", .mutable (.mk false none none .undef (.integer false none none))),
      (s% "n", .mutable (.mk false none none .undef (.inst 0)))] }

def c69Env : Env := { demoEnv with jsonCopy := fun _ => none, classes := fun _ => c69Class }

/-- `Node(i=1, n=Node(i=2))`, and a `Node` that the two have nothing to do with. -/
def c69World : World :=
  { objs := [
      { cls := 0, backend := [(s% "i", .int 1), (s% "n", .obj 1)] },
      { cls := 0, backend := [(s% "i", .int 2)] },
      { cls := 0, backend := [(s% "i", .int 3)] }] }

theorem only_lastArg {O : Nat → Prop} {args : List Val} (h : ∀ v ∈ args, Only O v) :
    Only O (args.getLastD .none) := by
  cases args with
  | nil => intro r h; cases h
  | cons a l =>
    rw [List.getLastD_cons]
    exact h _ List.getLastD_mem_cons

theorem c69_noGlobals : NoGlobals c69Env := by
  intro O
  refine ⟨fun f args h => only_lastArg h, fun v h => ?_, fun v j h => by cases h⟩
  cases h with
  | dict c nm v h => cases h
  | mutable c nm p v h hd =>
    simp only [c69Env, c69Class, List.mem_cons, Prod.mk.injEq, Entry.mutable.injEq, List.not_mem_nil,
      or_false] at h
    rcases h with ⟨-, rfl⟩ | ⟨-, rfl⟩ <;> cases hd
  | gettable c nm p v h hd => simp [c69Env, c69Class] at h

theorem c69_tame : TameWorld c69Env 1 c69World := by
  intro r o ho
  match r, ho with
  | 0, ho =>
    cases ho
    refine ⟨by decide, fun nm v h => ?_⟩
    simp only [List.mem_cons, Prod.mk.injEq, List.not_mem_nil, or_false] at h
    rcases h with ⟨rfl, rfl⟩ | ⟨rfl, rfl⟩ <;>
      exact ⟨_, _, rfl, .inl rfl, by simp [Tame, TameTy], by simp [depth, depthTy]⟩
  | 1, ho | 2, ho =>
    cases ho
    refine ⟨by decide, fun nm v h => ?_⟩
    simp only [List.mem_singleton, Prod.mk.injEq] at h
    obtain ⟨rfl, rfl⟩ := h
    exact ⟨_, _, rfl, .inl rfl, by simp [Tame, TameTy], by simp [depth, depthTy]⟩
  | n + 3, ho => cases ho

theorem c69_expressible : ExpressibleWorld c69Env c69World := by
  intro r o ho nm v h e p hl hown
  match r, ho with
  | 0, ho =>
    cases ho
    simp only [List.mem_cons, Prod.mk.injEq, List.not_mem_nil, or_false] at h
    rcases h with ⟨rfl, rfl⟩ | ⟨rfl, rfl⟩ <;> cases hl <;> cases hown.resolve_right (by simp)
    · exact .scalar _ _ _ rfl trivial (.integer _ _ _ _ ⟨by simp, by simp⟩) (by simp [PropSpec.ty])
    · exact .inst _ _ _ _ rfl rfl
  | 1, ho | 2, ho =>
    cases ho
    simp only [List.mem_singleton, Prod.mk.injEq] at h
    obtain ⟨rfl, rfl⟩ := h
    cases hl
    cases hown.resolve_right (by simp)
    exact .scalar _ _ _ rfl trivial (.integer _ _ _ _ ⟨by simp, by simp⟩) (by simp [PropSpec.ty])
  | n + 3, ho => cases ho

theorem c69_noDangling : NoDangling c69World := by
  rintro r s ⟨o, nm, v, ho, hm, hv⟩
  match r, ho with
  | 0, ho =>
    cases ho
    simp only [List.mem_cons, Prod.mk.injEq, List.not_mem_nil, or_false] at hm
    rcases hm with ⟨-, rfl⟩ | ⟨-, rfl⟩ <;> cases hv
    decide
  | 1, ho | 2, ho =>
    cases ho
    simp only [List.mem_singleton, Prod.mk.injEq] at hm
    obtain ⟨-, rfl⟩ := hm
    cases hv
  | n + 3, ho => cases ho

/-- `x.n.i = 7` -/
def c69Prog (r : Nat) : Prog :=
  .call (.getattr r (s% "n")) fun
    | .ok (.obj s) => .call (.setattr s (s% "i") (.int 7)) fun
        | .ok v => .ret v
        | .error e => .raise e
    | .ok _ => .ret .none
    | .error e => .raise e

theorem c69_confined {O : Nat → Prop} {r : Nat} (hr : O r) : Confined O (c69Prog r) := by
  refine ⟨fun s h => ?_, fun e => trivial, fun v hv => ?_⟩
  · cases h; exact hr
  · have hv := hv.resolve_right (by simp)
    cases v with
    | obj s =>
      refine ⟨fun t h => ?_, fun e => trivial, fun v hv => hv.resolve_right (by simp)⟩
      cases h with
      | setattrInst => exact hv s .obj
      | setattr _ _ _ h => cases h
    | _ => intro t h; cases h

/-- The hypotheses of the theorems are met: the copy of the first instance is the fifth,
and a program on it changes the copy of the second, the fourth. -/
theorem C69_example : NoGlobals c69Env ∧ JsonCopies c69Env ∧ TameWorld c69Env 1 c69World ∧
    ExpressibleWorld c69Env c69World ∧ NoDangling c69World ∧
    ∃ w', run c69Env 20 (.copy (.obj 0) {} {}) c69World = (.ok (.obj 4), w') ∧
      w'.objs.map (·.backend) = c69World.objs.map (·.backend) ++
        [[(s% "i", .int 2)], [(s% "i", .int 1), (s% "n", .obj 3)]] ∧
      Confined (fun s => Connected w' (· = 4) s ∨ w'.objs.length ≤ s) (c69Prog 4) ∧
      (runProg c69Env 20 (c69Prog 4) w').2.objs.map (·.backend) =
        c69World.objs.map (·.backend) ++
        [[(s% "i", .int 7)], [(s% "i", .int 1), (s% "n", .obj 3)]] :=
  ⟨c69_noGlobals, fun _ _ h => (by cases h), c69_tame, c69_expressible, c69_noDangling, (run c69Env 20 (.copy (.obj 0) {} {}) c69World).2,
    Prod.ext (by with_unfolding_all rfl) rfl,
    by with_unfolding_all rfl, c69_confined (.inl (.start _ rfl)), by with_unfolding_all rfl⟩

/-! ## Where instances are shared -/

/-- `class Node` whose `n` has an instance for a default. -/
def c69dEnv : Env :=
  { c69Env with
    classes := fun _ => { c69Class with
      props := [
        (s% "i", .mutable (.mk false none none .undef (.integer false none none))),
        (s% "n", .mutable (.mk false none none (.val (.obj 0)) (.inst 0)))] } }

/-- An instance given as a default is not copied: two instances constructed without
arguments have the same `n`, and what happens to `n` of one happens to `n` of the other. -/
theorem C69_default_shared :
    let w0 : World := { objs := [{ cls := 0, backend := [(s% "i", .int 1)] }] }
    let w1 := (run c69dEnv 20 (.construct 0 []) w0).2
    let w2 := (run c69dEnv 20 (.construct 0 []) w1).2
    w2.objs.map (·.backend) = [[(s% "i", .int 1)], [(s% "n", .obj 0)], [(s% "n", .obj 0)]] ∧
      (runProg c69dEnv 20 (c69Prog 1) w2).2.objs.map (·.backend) =
        [[(s% "i", .int 7)], [(s% "n", .obj 0)], [(s% "n", .obj 0)]] := by
  with_unfolding_all exact ⟨rfl, rfl⟩

/-- `class Node` whose `n` is a plain Property. -/
def c69pEnv : Env :=
  { c69Env with
    classes := fun _ => { c69Class with
      props := [
        (s% "i", .mutable (.mk false none none .undef (.integer false none none))),
        (s% "n", .mutable (.mk false none none .undef .any))] } }

/-- An instance in a plain Property is not copied: the copy has the same `n` as the
original, and changes to one are changes to the other. -/
theorem C69_property_shared :
    let w1 := (run c69pEnv 20 (.copy (.obj 0) {} {}) c69World).2
    w1.objs.map (·.backend) = c69World.objs.map (·.backend) ++ [[(s% "i", .int 1), (s% "n", .obj 1)]] ∧
      (runProg c69pEnv 20 (c69Prog 3) w1).2.objs.map (·.backend) = [
        [(s% "i", .int 1), (s% "n", .obj 1)], [(s% "i", .int 7)], [(s% "i", .int 3)],
        [(s% "i", .int 1), (s% "n", .obj 1)]] := by
  with_unfolding_all exact ⟨rfl, rfl⟩

end Verif
