import Verif.Core.Interp

/-!
# Tasks

`/repo/properties/extras/task.py`: BaseTask.__call__ and report_status, over the core
model.
-/

namespace Verif.Task

/-- A task: the class attribute `Input`, the class BaseOutput, the method `run`, and
`process_output` if it is overridden (task.py:54-55, 90-113). -/
structure Task where
  input : ClsId
  baseOutput : ClsId
  compute : Val → Prog
  process : Option (Val → Prog) := none

/-- The calls of the methods of the task, with the state at the time. -/
inductive Stage
  | compute (input : Val) (w : World)
  | process (output : Val) (w : World)

/-- Result, final state, and the calls that were made. -/
structure Outcome where
  result : Except PyErr Val
  world : World
  log : List Stage

/-- `process_output`, by default `output_obj.serialize(include_class=False)`
(task.py:90-98). -/
def process (E : Env) (n : Nat) (T : Task) (q : Nat) : M Val := match T.process with
  | some f => runProg E n (f (.obj q))
  | none => run E n (.hpSerialize q { includeClass := false })

/-- The part of `__call__` after `run` (task.py:67-79).  What is not an instance of
BaseOutput raises ValidationError; the hook of the instance in it is called. -/
def finish (E : Env) (n : Nat) (T : Task) (log : List Stage) (out : Val) (w : World) : Outcome :=
  match out with
  | .obj q => match w.objs[q]? with
      | none => ⟨.error { kind := .attr }, w, log⟩
      | some o => if isSub E o.cls T.baseOutput then
            match run E n (.hpValidate q) w with
            | (.error e, w) => ⟨.error e, w, log⟩
            | (.ok _, w) => match process E n T q w with
              | (res, w') => ⟨res, w', log ++ [.process out w]⟩
          else match (raiseVal E (run E n) (some (s% "invalid_class")) none (some q) : M Val) w with
            | (res, w) => ⟨res, w, log⟩
  | _ => match (raiseVal E (run E n) (some (s% "invalid_class")) none none : M Val) w with
      | (res, w) => ⟨res, w, log⟩

/-- `task(**kwargs)` (task.py:57-79). -/
def call (E : Env) (n : Nat) (T : Task) (kwargs : List (PyStr × Val)) (w : World) : Outcome :=
  match run E n (.hpDeserialize T.input (.dict (kwargs.map fun kv => (.str kv.1, kv.2))) {}) w with
  | (.error e, w) => ⟨.error e, w, []⟩
  | (.ok (.obj r), w) => match run E n (.hpValidate r) w with
      | (.error e, w) => ⟨.error e, w, []⟩
      | (.ok _, w) => match runProg E n (T.compute (.obj r)) w with
        | (.error e, w') => ⟨.error e, w', [.compute (.obj r) w]⟩
        | (.ok out, w') => finish E n T [.compute (.obj r) w] out w'
  | (.ok _, w) => ⟨.error { kind := .attr }, w, []⟩

/-! ## report_status -/

/-- `round(x)`: to the nearest integer, from the middle to the even one. -/
def roundEven (q : Rat) : Int :=
  let k := q.floor
  if q - k < 1 / 2 then k
  else if 1 / 2 < q - k then k + 1
  else if k % 2 = 0 then k else k + 1

/-- `int(round(100*progress))` for a float or None (task.py:86). -/
def percent (E : Env) : Val → Except ErrKind Int
  | .float (.fin q) => match E.rnd (100 * q) with
      | .fin p => .ok (roundEven p)
      | .nan => .error .value
      | _ => .error .overflow
  | .float .nan => .error .value
  | .float _ => .error .overflow
  | _ => .error .type

/-- The reads of `report_status` (task.py:83-87): the status as an Instance of
TaskStatus, its progress and its message. -/
def statusProg (c : ClsId) (v : Val) : Prog :=
  .call (.validate [] (.mk true none none .undef (.inst c)) none v) fun
    | .error e => .raise e
    | .ok (.obj r) => .call (.getattr r (s% "progress")) fun
        | .error e => .raise e
        | .ok p => .call (.getattr r (s% "message")) fun
          | .error e => .raise e
          | .ok m => .ret (.tup [p, m])
    | .ok _ => .raise { kind := .attr }

/-- `report_status` (task.py:81-88): the percentage in the line printed. -/
def reportStatus (E : Env) (n : Nat) (c : ClsId) (v : Val) (w : World) : Except ErrKind Int × World :=
  match runProg E n (statusProg c v) w with
  | (.ok (.tup [p, _]), w) => (percent E p, w)
  | (.ok _, w) => (.error .type, w)
  | (.error e, w) => (.error e.kind, w)

end Verif.Task
