import Verif.Lemmas.Monad
import Verif.Models.Demo

/-!
# C60: registered serializers and deserializers of either signature

`E.fn f (v :: keywords)` is the call with keyword arguments, `E.fn f [v]` the
call with the value only.  A function that takes only the value raises
TypeError at once when it is given keywords.
-/

namespace Verif

/-- The keyword arguments that a serializer or deserializer receives. -/
def keywordsOf : SerKw ⊕ DeKw → List Val
  | .inl kw => [.bool kw.includeClass, .bool kw.saveDynamic]
  | .inr kw => [.bool kw.trusted, .bool kw.strict, .bool kw.assertValid]

/-- The API call of a property whose registered function is `f`. -/
inductive Registered (f : FnId) (nm : PyStr) (v : Val) : SerKw ⊕ DeKw → Call → Prop
  | ser (p : PropSpec) (kw : SerKw) : p.ser = some f →
      Registered f nm v (.inl kw) (.serializeP nm p v kw)
  | deser (p : PropSpec) (kw : DeKw) : p.deser = some f →
      Registered f nm v (.inr kw) (.deserializeP nm p v kw)

theorem registered_call {E : Env} {n : Nat} {f : FnId} {nm : PyStr} {v : Val}
    {kw : SerKw ⊕ DeKw} {c : Call} (h : Registered f nm v kw c) :
    run E (n + 1) c = callWrapped E (run E n) f v (keywordsOf kw) := by
  cases h with
  | ser p kw h =>
    show serializeBody E (run E n) nm p v kw = _
    unfold serializeBody
    rw [h]
    rfl
  | deser p kw h =>
    show deserializeBody E (run E n) nm p v kw = _
    unfold deserializeBody
    rw [h]
    rfl

/-- A function that takes only the value: the result and all effects are those
of one call with the value. -/
theorem C60_value_only {E : Env} {n : Nat} {f : FnId} {nm : PyStr} {v : Val}
    {kw : SerKw ⊕ DeKw} {c : Call} {w : World} {ts : List ErrTuple} (h : Registered f nm v kw c)
    (hsig : E.fn f (v :: keywordsOf kw) = .raise ⟨.type, ts⟩) :
    run E (n + 1) c w = runProg E n (E.fn f [v]) w := by
  rw [registered_call h]
  unfold callWrapped callFn
  rw [hsig]
  exact catchIf_err rfl rfl

/-- A function that takes keywords, and whose body does not end in TypeError:
the result and all effects are those of one call with the keywords. -/
theorem C60_keywords {E : Env} {n : Nat} {f : FnId} {nm : PyStr} {v : Val}
    {kw : SerKw ⊕ DeKw} {c : Call} {w : World} (h : Registered f nm v kw c)
    (hb : ∀ ts, (runProg E n (E.fn f (v :: keywordsOf kw)) w).1 ≠ .error ⟨.type, ts⟩) :
    run E (n + 1) c w = runProg E n (E.fn f (v :: keywordsOf kw)) w := by
  rw [registered_call h]
  unfold callWrapped callFn
  show _ = execProg (run E n) (E.fn f (v :: keywordsOf kw)) w
  cases hx : execProg (run E n) (E.fn f (v :: keywordsOf kw)) w with
  | mk x w' =>
    cases x with
    | ok a => exact catchIf_ok hx
    | error e =>
      refine catchIf_pass hx ?_
      obtain ⟨k, ts⟩ := e
      have := hb ts
      unfold runProg at this
      rw [hx] at this
      cases k <;> first | rfl | exact absurd rfl this

/-- Which of the two cases holds does not matter for a function that accepts
both forms alike. -/
theorem C60_same_for_both {E : Env} {n : Nat} {f : FnId} {nm : PyStr} {v : Val}
    {kw : SerKw ⊕ DeKw} {c : Call} {w : World} (h : Registered f nm v kw c)
    (hsig : (∃ ts, E.fn f (v :: keywordsOf kw) = .raise ⟨.type, ts⟩) ∨
      E.fn f (v :: keywordsOf kw) = E.fn f [v] ∧
        ∀ ts, (runProg E n (E.fn f [v]) w).1 ≠ .error ⟨.type, ts⟩) :
    run E (n + 1) c w = runProg E n (E.fn f [v]) w := by
  rcases hsig with ⟨ts, hs⟩ | ⟨h1, h2⟩
  · exact C60_value_only h hs
  · have := C60_keywords h (by rw [h1]; exact h2)
    rw [this, h1]

/-- Otherwise it is called twice: once with keywords, then with the value
only, on the state that the failed call left. -/
theorem C60_type_error_calls_again {E : Env} {n : Nat} {f : FnId} {nm : PyStr} {v : Val}
    {kw : SerKw ⊕ DeKw} {c : Call} {w w' : World} {ts : List ErrTuple} (h : Registered f nm v kw c)
    (hb : runProg E n (E.fn f (v :: keywordsOf kw)) w = (.error ⟨.type, ts⟩, w')) :
    run E (n + 1) c w = runProg E n (E.fn f [v]) w' := by
  rw [registered_call h]
  exact catchIf_err hb rfl

/-- Adds one to the user counter, then raises TypeError. -/
def c60Prog : Prog :=
  .call .userGet (fun x => match x with
    | .ok (.int i) => .call (.userPut (.int (i + 1))) (fun _ => .raise ⟨.type, []⟩)
    | _ => .raise ⟨.value, []⟩)

def c60Env : Env := { demoEnv with
  fn := fun f args => match f, args with
    | 0, _ => c60Prog
    | 1, [v] => .ret (.list [v])
    | 1, _ => .raise ⟨.type, []⟩
    | _, args => .ret (.int args.length) }

example : Registered 1 (s% "p") (.int 3) (.inl {})
    (.serializeP (s% "p") (.mk true (some 1) none .undef .any) (.int 3) {}) := .ser _ _ rfl

example : c60Env.fn 1 (.int 3 :: keywordsOf (.inl {})) = .raise ⟨.type, []⟩ := rfl

/-- The full claim is false: the serializer has run twice. -/
theorem C60_called_twice :
    (run c60Env 3 (.serializeP (s% "p") (.mk true (some 0) none .undef .any) (.int 3) {})
      { user := .int 0 }).2.user = .int 2 := by with_unfolding_all rfl

theorem C60_example :
    (run c60Env 3 (.serializeP (s% "p") (.mk true (some 1) none .undef .any) (.int 3) {}) {}).1
      = .ok (.list [.int 3]) ∧
    (run c60Env 3 (.serializeP (s% "p") (.mk true (some 2) none .undef .any) (.int 3) {}) {}).1
      = .ok (.int 3) := ⟨by with_unfolding_all rfl, by with_unfolding_all rfl⟩

end Verif
