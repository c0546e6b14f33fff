import Verif.Core.Types

/-!
# `listeners_disabled` and its subclasses (handlers.py:14-86)

The model keeps Python's aliasing: `_quarantine` and every `_previous_state`
are references to set objects, `update` changes a set object in place.
-/

namespace Verif.Handlers

/-- Set objects, the one `listeners_disabled._quarantine` names, and the
`_previous_state` of every context object. -/
structure St where
  sets : List Quar
  cur : Nat
  prev : Nat → Option Nat

/-- The disabled modes now: the contents of `_quarantine`. -/
def St.quar (s : St) : Quar := s.sets.getD s.cur {}

/-- The module is imported: `_quarantine = set()` (handlers.py:27). -/
def St.init : St := { sets := [{}], cur := 0, prev := fun _ => none }

/-- A context object: its identity and `disable_type`, `none` for None
(handlers.py:29-53).  `validators_disabled()` has `{validate}`,
`observers_disabled()` has the two others (handlers.py:66-86). -/
structure Ctx where
  id : Nat
  ty : Option Quar

/-- `__enter__` (handlers.py:55-60): copy the set into a new object, then
either bind a new full set or update the current one in place. -/
def enter (c : Ctx) (s : St) : St :=
  let saved := s.sets.length
  let sets := s.sets ++ [s.quar]
  let prev := fun i => if i = c.id then some saved else s.prev i
  match c.ty with
  | none => { sets := sets ++ [Quar.all], cur := saved + 1, prev := prev }
  | some q => { sets := sets.modify s.cur (fun x => x.union q), cur := s.cur, prev := prev }

/-- `__exit__` (handlers.py:62-63); leaving a context never entered would be
an AttributeError and changes nothing. -/
def exit (c : Ctx) (s : St) : St :=
  match s.prev c.id with
  | some r => { s with cur := r }
  | none => s

/-- Programs: skip, raise, look at the disabled modes, sequence, and
`with ctx: body`. -/
inductive Blk where
  | skip
  | raise (n : Nat)
  | probe
  | seq (a b : Blk)
  | with_ (c : Ctx) (body : Blk)
  | try_ (body handler : Blk)

/-- Run a program: final state, the exception if one escapes, and the disabled
modes seen by each `probe`.  `__exit__` runs however the body ends and does
not swallow the exception (it returns None). -/
def exec : Blk → St → St × Option Nat × List Quar
  | .skip, s => (s, none, [])
  | .raise n, s => (s, some n, [])
  | .probe, s => (s, none, [s.quar])
  | .seq a b, s => match exec a s with
      | (s1, some e, l1) => (s1, some e, l1)
      | (s1, none, l1) => match exec b s1 with
          | (s2, e, l2) => (s2, e, l1 ++ l2)
  | .with_ c body, s => match exec body (enter c s) with
      | (s1, e, l) => (exit c s1, e, l)
  | .try_ a b, s => match exec a s with
      | (s1, none, l1) => (s1, none, l1)
      | (s1, some _, l1) => match exec b s1 with
          | (s2, e, l2) => (s2, e, l1 ++ l2)

/-- One step of an interleaving: some thread enters or leaves a context. -/
inductive Op where
  | enter (c : Ctx)
  | exit (c : Ctx)

def Op.run : Op → St → St
  | .enter c => Handlers.enter c
  | .exit c => Handlers.exit c

def runOps : List Op → St → St
  | [], s => s
  | o :: os, s => runOps os (o.run s)

end Verif.Handlers
