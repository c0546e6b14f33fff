import Verif.Py.Str

/-!
# `stop_recursion_with` (utils.py:67-120)

Several decorated methods and objects.  `==` of the objects is a parameter: a
HasProperties instance compares by identity, other classes may define it.  The
bodies are arbitrary programs of calls to decorated methods; each call may
return or raise and the program goes on as it likes.  Everything else a body
does has no part in this.
-/

namespace Verif.StopRec

/-- What is returned: some value, or an exception instance as a value. -/
inductive Ret where
  | val (n : Nat)
  | exn (n : Nat)
  deriving DecidableEq, Repr

/-- `raised n` is an exception in flight; `valueError` is that of
`list.remove`. -/
inductive Res where
  | ok (r : Ret)
  | raised (n : Nat)
  | valueError
  deriving DecidableEq, Repr

/-- A body: return, raise, or call a decorated method on an object and go on
according to the result. -/
inductive Prog (μ ο : Type) where
  | ret (r : Ret)
  | raise (n : Nat)
  | call (m : μ) (o : ο) (k : Res → Prog μ ο)

/-- Events: a body starts or ends, or the backup is used. -/
inductive Event (μ ο : Type) where
  | start (m : μ) (o : ο)
  | stop (m : μ) (o : ο)
  | backup (m : μ) (o : ο)
  deriving DecidableEq

/-- The decorated methods: bodies, backups and `==`. -/
structure Sys (μ ο : Type) where
  body : μ → ο → Prog μ ο
  backup : μ → ο → Prog μ ο
  eqv : ο → ο → Bool

variable {μ ο : Type} [DecidableEq μ] [DecidableEq ο]

/-- How list membership and `list.remove` compare: identity or `==`. -/
def Sys.same (S : Sys μ ο) (x o : ο) : Bool := decide (x = o) || S.eqv x o

/-- `held_objects` of every decorator. -/
abbrev Held (μ ο : Type) := μ → List ο

def Held.set (h : Held μ ο) (m : μ) (l : List ο) : Held μ ο := fun m' => if m' = m then l else h m'

/-- `list.remove`: the first item that is equal; `none` for ValueError. -/
def Sys.remove (S : Sys μ ο) (o : ο) : List ο → Option (List ο)
  | [] => none
  | x :: l => if S.same x o then some l else (S.remove o l).map (x :: ·)

/-- `if isinstance(output, Exception): raise output` (utils.py:110-111). -/
def raiseIfExn : Res → Res
  | .ok (.exn n) => .raised n
  | r => r

/-- `finally: held_objects.remove(self)` (utils.py:116-117). -/
def Sys.finish (S : Sys μ ο) (m : μ) (o : ο) (h : Held μ ο) (r : Res) : Res × Held μ ο :=
  match S.remove o (h m) with
  | some l => (r, h.set m l)
  | none => (.valueError, h)

mutual
/-- Execution of a program: result, decorator state after it and events. -/
inductive Exec (S : Sys μ ο) : Prog μ ο → Held μ ο → Res → Held μ ο → List (Event μ ο) → Prop
  | ret {h : Held μ ο} {r : Ret} : Exec S (.ret r) h (.ok r) h []
  | raise {h : Held μ ο} {n : Nat} : Exec S (.raise n) h (.raised n) h []
  | call {m : μ} {o : ο} {k : Res → Prog μ ο} {h h1 h2 : Held μ ο} {r r2 : Res}
      {t1 t2 : List (Event μ ο)} : RunOnce S m o h r h1 t1 → Exec S (k r) h1 r2 h2 t2 →
      Exec S (.call m o k) h r2 h2 (t1 ++ t2)
/-- `run_once` (utils.py:99-118). -/
inductive RunOnce (S : Sys μ ο) : μ → ο → Held μ ο → Res → Held μ ο → List (Event μ ο) → Prop
  | held {m : μ} {o : ο} {h h1 : Held μ ο} {r : Res} {t : List (Event μ ο)} :
      (h m).any (fun x => S.same x o) = true → Exec S (S.backup m o) h r h1 t →
      RunOnce S m o h (raiseIfExn r) h1 (.backup m o :: t)
  | fresh {m : μ} {o : ο} {h h1 : Held μ ο} {r : Res} {t : List (Event μ ο)} :
      (h m).any (fun x => S.same x o) = false →
      Exec S (S.body m o) (h.set m (h m ++ [o])) r h1 t →
      RunOnce S m o h (S.finish m o h1 r).1 (S.finish m o h1 r).2 (.start m o :: t ++ [.stop m o])
end

end Verif.StopRec
