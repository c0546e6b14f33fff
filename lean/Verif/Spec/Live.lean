import Verif.Spec.Assign

/-!
# Specification: registering listeners and being notified
-/

namespace Verif.Spec

/-- User code that registers no listener. -/
def NeverRegisters : Prog → Prop
  | .ret _ => True
  | .raise _ => True
  | .call c k => (match c with | .observe .. => False | _ => True) ∧ ∀ x, NeverRegisters (k x)
  | .disabled _ body k => NeverRegisters body ∧ ∀ x, NeverRegisters (k x)

/-- The functions registered on instance `r` for a name and a mode, oldest
first, as often as they are registered. -/
def registered (w : World) (r : Nat) (name : PyStr) (mode : Mode) : List FnId :=
  match w.objs[r]? with
  | none => []
  | some o => (o.listeners.filter (fun l => decide (l.name = name ∧ l.mode = mode))).map (·.fn)

/-- The functions are called one after the other; each is given the value the
one before it returned and finds the state it left. -/
inductive Relay (call : FnId → Val → World → Except PyErr Val × World) :
    List FnId → Val → World → Val → World → Prop where
  | done (v : Val) (w : World) : Relay call [] v w v w
  | next {f : FnId} {fs : List FnId} {v v' v'' : Val} {w w' w'' : World} :
      call f v w = (.ok v', w') → Relay call fs v' w' v'' w'' → Relay call (f :: fs) v w v'' w''

/-- A call of function `f` with the change as arguments, as the trace records
it. -/
def announce (w : World) (r : Nat) (mode : Mode) (name : PyStr) (prev v : Val) (f : FnId) : World :=
  { w with trace := w.trace ++ [⟨r, mode, name, prev, v, f⟩] }

/-- How often a name is observed by `names`, for an instance with these
properties. -/
def timesNamed (props : List PyStr) (names : ObsNames) (name : PyStr) : Nat :=
  match names with
  | .everything => props.count name
  | .names ns => ns.count name

/-- The call of a listener for one change, recorded in the trace. -/
def changeCall (E : Env) (rec : Call → M Val) (r : Nat) (mode : Mode) (name : PyStr) (prev : Val) (f : FnId)
    (v : Val) (w : World) : Except PyErr Val × World :=
  execProg rec (E.fn f [.obj r, .str name, prev, v, .str (modeText mode)]) (announce w r mode name prev v f)

/-- The listener protocol of one assignment of the (coerced) value `v0` to
property `name` of instance `r` in state `wa`, whatever the listeners do: `v1`
is the value stored, `w'` the state at the end.  The listeners called for each
mode are those registered when the last of them has returned. -/
def LiveProtocol (E : Env) (rec : Call → M Val) (r : Nat) (name : PyStr) (p : PropSpec) (v0 v1 : Val)
    (wa w' : World) : Prop :=
  ∃ (v2 v3 : Val) (wb ws wc wd : World),
    /- the validators, while the old value is still stored -/
    Relay (changeCall E rec r .validate name (storedOr wa r name)) (registered wb r name .validate)
      v0 wa v1 wb ∧
    /- what they leave is stored -/
    AsWith wb r name v1 ws ∧ Holds ws r name v1 ∧ ws.trace = wb.trace ∧
    /- a change: change observers; otherwise nothing -/
    ((((storedOr wa r name = .undef ∧ v1 ≠ .undef ∨ storedOr wa r name ≠ .undef ∧ v1 = .undef) ∧ wc = ws ∨
        storedOr wa r name ≠ .undef ∧ v1 ≠ .undef ∧
          ∃ e, rec (.propEqual p (storedOr wa r name) v1) ws = (.ok e, wc) ∧ e.truthy = false) ∧
        Relay (changeCall E rec r .change name (storedOr wa r name)) (registered wd r name .change)
          v1 wc v2 wd ∨
      (storedOr wa r name = .undef ∧ v1 = .undef ∧ wd = ws ∨
        storedOr wa r name ≠ .undef ∧ v1 ≠ .undef ∧
          ∃ e, rec (.propEqual p (storedOr wa r name) v1) ws = (.ok e, wd) ∧ e.truthy = true) ∧ v2 = v1)) ∧
    /- the set observers -/
    Relay (changeCall E rec r .set name (storedOr wa r name)) (registered w' r name .set) v2 wd v3 w'

end Verif.Spec
