import Verif.Core.Interp

/-!
# Model: metadata and terms of property objects

`meta`, `tag` and `terms` (`/repo/properties/basic.py`) with the dictionaries involved
as objects that may be shared.  Keys are texts.  What `__init__` does with the keywords
is in `Models/Decl.lean`; here it either accepts or raises.
-/

namespace Verif.Tags

abbrev Dict := List (PyStr × Val)

/-- A property object.  `metaRef` and `kwRef` are the dictionaries `_meta` and `_kwargs`,
`args` is `_args`; `opts` are the keywords its `__init__` has set, the default last. -/
structure PropObj where
  metaRef : Nat
  args : List Val
  kwRef : Nat
  opts : Dict

/-- All dictionaries, all property objects, and the dictionaries the program has a
reference to. -/
structure State where
  dicts : List Dict := []
  props : List PropObj := []
  known : List Nat := []

/-- A positional argument of `tag`. -/
inductive Arg
  | dict (ref : Nat)
  | other (v : Val)

/-- A value in the dictionary assigned to `terms`. -/
inductive TArg
  | tuple (args : List Val)
  | dict (ref : Nat)
  | other (v : Val)

/-- What an operation gives. -/
inductive Res
  | done
  | typeError
  | attributeError
  | prop (p : Nat)
  | dict (ref : Nat)
  /-- `PropertyTerms(name, cls, args, kwargs, meta)` (basic.py:28-31) without name and
  class -/
  | terms (args : List Val) (kw md : Nat)

/-- `a.update(b)`. -/
def update (a : Dict) : Dict → Dict
  | [] => a
  | (k, v) :: b => update (setS k v a) b

/-- `dicts[ref]`. -/
def State.dict (s : State) (ref : Nat) : Dict := (s.dicts[ref]?).getD []

/-- Replace the contents of a dictionary. -/
def State.put (s : State) (ref : Nat) (d : Dict) : State := { s with dicts := s.dicts.set ref d }

/-- A new dictionary. -/
def State.alloc (s : State) (d : Dict) : Nat × State := (s.dicts.length, { s with dicts := s.dicts ++ [d] })

/-- `GettableProperty.__init__` (basic.py:98-120) on its own keyword dictionary: the
default is taken out and set after the others, unless it is None. -/
def initOpts (kw : Dict) : Dict :=
  let rest := eraseS (s% "default") kw
  match lookupS (s% "default") kw with
  | none => rest
  | some .none => rest
  | some d => rest ++ [(s% "default", d)]

/-- `ArgumentWrangler.__call__` (basic.py:78-82): the keywords are packed into a new
dictionary, `__init__` gets a dictionary of its own, and the property object keeps the
first.  `_meta` is a new dictionary (basic.py:100).  `ok` says whether `__init__` accepts
the arguments. -/
def declare (ok : List Val → Dict → Bool) (args : List Val) (kw : Dict) (s : State) : Res × State :=
  let (k, s) := s.alloc kw
  let (own, s) := s.alloc (s.dict k)
  if ok args kw then
    let (m, s) := s.alloc []
    let opts := initOpts (s.dict own)
    let s := s.put own (eraseS (s% "default") (s.dict own))
    (.prop s.props.length, { s with props := s.props ++ [⟨m, args, k, opts⟩] })
  else (.attributeError, s)

/-- `prop.tag(*pos, **kw)` (basic.py:209-219). -/
def tag (p : Nat) (pos : List Arg) (kw : Dict) (s : State) : Res × State :=
  match s.props[p]? with
  | none => (.done, s)
  | some o =>
      match pos with
      | [] => (.prop p, s.put o.metaRef (update (s.dict o.metaRef) kw))
      | [.dict r] =>
          let s := s.put o.metaRef (update (s.dict o.metaRef) (s.dict r))
          (.prop p, s.put o.metaRef (update (s.dict o.metaRef) kw))
      | _ => (.typeError, s)

/-- `prop(func)` (basic.py:385-386) and `DynamicProperty.__init__` (basic.py:444-449): a
new property object with keywords `func` and `prop`, tagged with the metadata of
`prop`. -/
def decorate (p : Nat) (doc func : Val) (s : State) : Res × State :=
  match s.props[p]? with
  | none => (.done, s)
  | some o =>
      let (k, s) := s.alloc [(s% "func", func), (s% "prop", .opq p)]
      let (m, s) := s.alloc []
      let q := s.props.length
      let s := { s with props := s.props ++ [⟨m, [doc], k, []⟩] }
      let (_, s) := tag q [.dict o.metaRef] [] s
      (.prop q, s)

/-- `prop.terms = value` (basic.py:157-167); `none` is anything but a dictionary. -/
def setTerms (p : Nat) (value : Option (List (PyStr × TArg))) (s : State) : Res × State :=
  match s.props[p]?, value with
  | none, _ => (.done, s)
  | some _, none => (.typeError, s)
  | some o, some d =>
      if d.length ≠ 2 then (.typeError, s)
      else match lookupS (s% "args") d, lookupS (s% "kwargs") d with
        | some (.tuple a), some (.dict k) =>
            (.done, { s with props := s.props.set p { o with args := a, kwRef := k } })
        | _, _ => (.typeError, s)

/-- What a program does with property objects and dictionaries. -/
inductive Op
  /-- `{...}` -/
  | newDict (d : Dict)
  /-- `known[i][k] = v` -/
  | setKey (i : Nat) (k : PyStr) (v : Val)
  /-- `known[i].pop(k, None)` -/
  | popKey (i : Nat) (k : PyStr)
  /-- `known[i].clear()` -/
  | clear (i : Nat)
  | declare (args : List Val) (kw : Dict)
  /-- `prop.tag(...)`; positional dictionaries by their position in `known` -/
  | tag (p : Nat) (pos : List Arg) (kw : Dict)
  | decorate (p : Nat) (doc func : Val)
  /-- `prop.meta` (basic.py:204-207) -/
  | getMeta (p : Nat)
  /-- `prop.terms` (basic.py:145-155) -/
  | getTerms (p : Nat)
  | setTerms (p : Nat) (value : Option (List (PyStr × TArg)))

/-- The reference the program has at position `i`; a position without one is an
unrelated dictionary, which is left out. -/
def State.ref (s : State) (i : Nat) : Option Nat := s.known[i]?

def Arg.resolve (s : State) : Arg → Arg
  | .dict i => match s.ref i with
      | some r => .dict r
      | none => .other .none
  | .other v => .other v

def TArg.resolve (s : State) : TArg → TArg
  | .dict i => match s.ref i with
      | some r => .dict r
      | none => .other .none
  | a => a

/-- Change a dictionary the program holds. -/
def mutateAt (i : Nat) (f : Dict → Dict) (s : State) : Res × State := match s.ref i with
  | some r => (.done, s.put r (f (s.dict r)))
  | none => (.done, s)

/-- One step. -/
def exec (ok : List Val → Dict → Bool) (s : State) : Op → Res × State
  | .newDict d =>
      let (r, s) := s.alloc (update [] d)
      (.dict r, { s with known := s.known ++ [r] })
  | .setKey i k v => mutateAt i (setS k v) s
  | .popKey i k => mutateAt i (eraseS k) s
  | .clear i => mutateAt i (fun _ => []) s
  | .declare args kw => declare ok args (update [] kw) s
  | .tag p pos kw => tag p (pos.map (Arg.resolve s)) kw s
  | .decorate p doc func => decorate p doc func s
  | .getMeta p => match s.props[p]? with
      | none => (.done, s)
      | some o => (.dict o.metaRef, { s with known := s.known ++ [o.metaRef] })
  | .getTerms p => match s.props[p]? with
      | none => (.done, s)
      | some o => (.terms o.args o.kwRef o.metaRef, { s with known := s.known ++ [o.kwRef, o.metaRef] })
  | .setTerms p value => setTerms p (value.map (·.map fun x => (x.1, x.2.resolve s))) s

/-- A program. -/
def execAll (ok : List Val → Dict → Bool) (s : State) (ops : List Op) : State :=
  ops.foldl (fun s o => (exec ok s o).2) s

end Verif.Tags
