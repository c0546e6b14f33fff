import Verif.Core.Interp

/-!
# Creation of HasProperties classes: the metaclass

The class table grows by class statements.  Property, observer and validator
objects are not shared between class statements (the metaclass renames them in
place, base.py:133-134, 148-150).  Attribute names are distinct from the names the
metaclass itself adds (`_props` and so on).
-/

namespace Verif.Cls

/-- What a name is bound to in a class body. -/
inductive Attr where
  | prop (e : Entry)
  | observer (o : ClassObserver)
  | validator (f : FnId)
  | other

/-- `_doc_private` as written in a class body. -/
inductive DocFlag where
  | flag (b : Bool)
  | junk

/-- `_doc_order` as written in a class body: a list or tuple of names, `None`,
or anything else. -/
inductive DocOrder where
  | names (l : List PyStr)
  | absent
  | junk

/-- A class statement.  `explicitMeta` tells that the metaclass is named explicitly
(as for HasProperties itself); a class with such a base has it anyway. -/
structure Decl where
  name : PyStr
  bases : List ClsId := []
  explicitMeta : Bool := false
  body : List (PyStr × Attr) := []
  docPrivate : Option DocFlag := none
  docOrder : Option DocOrder := none
  defaults : Option (List (PyStr × Dflt)) := none
  registry : Bool := false

/-- A class.  `mro` starts with the class itself and leaves out `object`;
`hp` is `isinstance(cls, PropertyMetaclass)`; `body` is `cls.__dict__`;
`defaults` is `cls._defaults` if in `cls.__dict__` and `ownDefaults` as written
in the body; `ownRegistry` tells whether the body declares `_REGISTRY`; `order`
is the documentation order used and the four lists are the sections of the class
documentation. -/
structure Class where
  name : PyStr
  bases : List ClsId
  mro : List ClsId
  hp : Bool
  body : List (PyStr × Attr)
  props : List (PyStr × Entry) := []
  observers : List (PyStr × ClassObserver) := []
  validators : List (PyStr × FnId) := []
  docPrivate : Option DocFlag := none
  docOrder : Option DocOrder := none
  defaults : Option (List (PyStr × Dflt)) := none
  ownDefaults : Option (List (PyStr × Dflt)) := none
  ownRegistry : Bool := false
  order : List PyStr := []
  secReq : List PyStr := []
  secOpt : List PyStr := []
  secImm : List PyStr := []
  secPriv : List PyStr := []

abbrev Table := List Class

/-- The classes and, by declaring class, the `_REGISTRY` dictionaries. -/
structure State where
  classes : Table := []
  regs : ClsId → List (PyStr × ClsId) := fun _ => []

/-- `cls.__mro__` without `object`. -/
def Table.mro (T : Table) (c : ClsId) : List ClsId :=
  match T[c]? with
  | some k => k.mro
  | none => []

/-- Attribute lookup on a class: the first class of the MRO that has it. -/
def Table.attr {α : Type} (T : Table) (f : Class → Option α) (mro : List ClsId) : Option α :=
  mro.findSome? (fun c => match T[c]? with
    | some k => f k
    | none => none)

/-- A head that is in no tail: the next class of the merge. -/
def goodHead (ls : List (List ClsId)) : Option ClsId :=
  ls.findSome? (fun l => match l with
    | [] => none
    | h :: _ => if ls.all (fun l' => !l'.tail.contains h) then some h else none)

def dropHead (h : ClsId) (l : List ClsId) : List ClsId :=
  match l with
  | [] => []
  | x :: t => if x = h then t else x :: t

/-- The C3 merge of Python; `none` for TypeError.  `n` bounds the length of the
result. -/
def c3Merge : Nat → List (List ClsId) → Option (List ClsId)
  | 0, _ => none
  | n + 1, ls =>
      if ls.all List.isEmpty then some []
      else match goodHead ls with
        | none => none
        | some h => (c3Merge n (ls.map (dropHead h))).map (h :: ·)

/-- The MRO of a new class after its own entry. -/
def c3 (T : Table) (bases : List ClsId) : Option (List ClsId) :=
  let ls := bases.map T.mro ++ [bases]
  c3Merge ((ls.map List.length).sum + 1) ls

def Table.isHp (T : Table) (c : ClsId) : Bool :=
  match T[c]? with
  | some k => k.hp
  | none => false

/-- `if item not in all_bases: all_bases.append(item)`, leaving out classes of
another metaclass (base.py:37-41). -/
def addBase (T : Table) (acc : List ClsId) (item : ClsId) : List ClsId :=
  if T.isHp item && !acc.contains item then acc ++ [item] else acc

/-- `all_bases` (base.py:29-41). -/
def allBases (T : Table) (bases : List ClsId) : List ClsId :=
  bases.reverse.foldl (fun acc b => (T.mro b).reverse.foldl (addBase T) acc) []

/-- One base in the loop that collects the names (base.py:33-34). -/
def addKeys {α : Type} (T : Table) (fld : Class → List (PyStr × α)) (acc : List PyStr) (b : ClsId) :
    List PyStr :=
  match T[b]? with
  | some k => if k.hp then acc ++ (fld k).map (·.1) else acc
  | none => acc

/-- `output_keys` (base.py:33-34). -/
def outputKeys {α : Type} (T : Table) (fld : Class → List (PyStr × α)) (bases : List ClsId) :
    List PyStr :=
  bases.reverse.foldl (addKeys T fld) []

/-- One class in the update loop (base.py:44-47). -/
def updateFrom {α : Type} (fld : Class → List (PyStr × α)) (keys : List PyStr) (k : Class)
    (out : List (PyStr × α)) : List (PyStr × α) :=
  (fld k).foldl (fun out kv =>
    if (lookupS kv.1 k.body).isSome && keys.contains kv.1 then setS kv.1 kv.2 out else out) out

/-- The update loop for the class of an index. -/
def updateBase {α : Type} (T : Table) (fld : Class → List (PyStr × α)) (keys : List PyStr)
    (out : List (PyStr × α)) (b : ClsId) : List (PyStr × α) :=
  match T[b]? with
  | some k => updateFrom fld keys k out
  | none => out

/-- `build_from_bases` (base.py:25-55). -/
def buildFromBases {α : Type} (T : Table) (fld : Class → List (PyStr × α)) (bases : List ClsId)
    (body : List (PyStr × Attr)) (own : List (PyStr × α)) : List (PyStr × α) :=
  let keys := outputKeys T fld bases
  let out := (allBases T bases).foldl (updateBase T fld keys) []
  let out := out.filter (fun kv => !(lookupS kv.1 body).isSome)
  own.foldl (fun out kv => setS kv.1 kv.2 out) out

def ownProps (body : List (PyStr × Attr)) : List (PyStr × Entry) :=
  body.filterMap (fun ka => match ka.2 with | .prop e => some (ka.1, e) | _ => none)

def ownObservers (body : List (PyStr × Attr)) : List (PyStr × ClassObserver) :=
  body.filterMap (fun ka => match ka.2 with | .observer o => some (ka.1, o) | _ => none)

def ownValidators (body : List (PyStr × Attr)) : List (PyStr × FnId) :=
  body.filterMap (fun ka => match ka.2 with | .validator f => some (ka.1, f) | _ => none)

/-- A renamed property must name a known one (base.py:130-132). -/
def renamedOk (props own : List (PyStr × Entry)) : Bool :=
  own.all (fun kv => match kv.2 with
    | .renamed new => (lookupS new props).isSome
    | _ => true)

/-- Observed names must be mutable properties (base.py:137-144). -/
def observersOk (props : List (PyStr × Entry)) (own : List (PyStr × ClassObserver)) : Bool :=
  own.all (fun kv => match kv.2.names with
    | .everything => true
    | .names ns => ns.all (fun n => match lookupS n props with
        | some (.mutable _) => true
        | _ => false))

/-- Text order of Python: by code points. -/
def strLe : PyStr → PyStr → Bool
  | [], _ => true
  | _ :: _, [] => false
  | a :: as, b :: bs => a.toNat < b.toNat || (a.toNat == b.toNat && strLe as bs)

def insertS (x : PyStr) : List PyStr → List PyStr
  | [] => [x]
  | y :: l => if strLe x y then x :: y :: l else y :: insertS x l

/-- `sorted(names)`. -/
def sorted (l : List PyStr) : List PyStr := l.foldr insertS []

/-- `key[0] == '_'`. -/
def isPrivate (s : PyStr) : Bool := s.head? == some '_'

/-- `_doc_private` (base.py:153-156). -/
def docPrivateOf (T : Table) (d : Decl) : DocFlag :=
  let inherited := d.bases.reverse.foldl (fun acc b =>
    match T.attr (·.docPrivate) (T.mro b) with
    | some f => f
    | none => acc) (.flag false)
  match d.docPrivate with
  | some f => f
  | none => inherited

/-- `_doc_order` inherited (base.py:167-174): the bases from the last to the
first; an order that does not fit is dropped. -/
def docOrderInherited (T : Table) (documented : List PyStr) (bases : List ClsId) : DocOrder :=
  bases.reverse.foldl (fun acc b =>
    let o := match T.attr (·.docOrder) (T.mro b) with
      | some o => o
      | none => acc
    match o with
    | .names l => if sorted l = documented then .names l else .absent
    | _ => .absent) .absent

/-- `_doc_order` of the new class (base.py:175-185). -/
def docOrderOf (T : Table) (documented : List PyStr) (d : Decl) : Except ErrKind (List PyStr) :=
  match d.docOrder.getD (docOrderInherited T documented d.bases) with
  | .absent => .ok documented
  | .junk => .error .attr
  | .names l => if sorted l = documented then .ok l else .error .attr

/-- `getattr(prop, 'required', None)`: an attribute of mutable properties. -/
def required? : Option Entry → Option Bool
  | some (.mutable p) => some p.required
  | _ => none

/-- `out.update(new)`. -/
def updateS {α : Type} (out new : List (PyStr × α)) : List (PyStr × α) :=
  new.foldl (fun out kv => setS kv.1 kv.2 out) out

/-- `_defaults` of the new class (base.py:223-225): the dictionaries of all
classes of the MRO from the last to the first, the class itself last.
`getattr(parent, '_defaults')` is an attribute lookup. -/
def mergedDefaults (T : Table) (mro : List ClsId) (own : Option (List (PyStr × Dflt))) :
    List (PyStr × Dflt) :=
  let inherited := mro.reverse.foldl (fun out c =>
    updateS out ((T.attr (·.defaults) (T.mro c)).getD [])) []
  updateS inherited (match own with
    | some l => l
    | none => (T.attr (·.defaults) mro).getD [])

/-- Every default belongs to a property that accepts it (base.py:228-242).
`chk` tells how validating the default ends. -/
def checkDefaults (chk : PyStr → Entry → Dflt → Option ErrKind) (props : List (PyStr × Entry)) :
    List (PyStr × Dflt) → Except ErrKind Unit
  | [] => .ok ()
  | (k, v) :: rest => match lookupS k props with
      | none => .error .attr
      | some e => match v with
          | .undef => checkDefaults chk props rest
          | v => match chk k e v with
              | none => checkDefaults chk props rest
              | some err => .error (if err.isValueError then .attr else err)

/-- The class in whose body the `_REGISTRY` seen by a class is declared. -/
def registryOwner (T : Table) (mro : List ClsId) : Option ClsId :=
  mro.find? (fun c => match T[c]? with
    | some k => k.ownRegistry
    | none => false)

/-- The new class object; everything in `PropertyMetaclass.__new__` that may
fail before it is created, and its documentation (base.py:87-215). -/
def buildClass (T : Table) (d : Decl) (mro : List ClsId) : Except ErrKind Class :=
  let own := ownProps d.body
  let props := buildFromBases T (·.props) d.bases d.body own
  let observers := buildFromBases T (·.observers) d.bases d.body (ownObservers d.body)
  let validators := buildFromBases T (·.validators) d.bases d.body (ownValidators d.body)
  if !renamedOk props own then .error .type
  else if !observersOk props (ownObservers d.body) then .error .type
  else match docPrivateOf T d with
  | .junk => .error .attr
  | .flag priv =>
    if props.any (fun kv => kv.1.isEmpty) then .error .index
    else
      let names := props.map (·.1)
      let documented := sorted (if priv then names else names.filter (fun p => !isPrivate p))
      match docOrderOf T documented d with
      | .error e => .error e
      | .ok order => .ok {
          name := d.name
          bases := d.bases
          mro := T.length :: mro
          hp := true
          body := d.body
          props, observers, validators
          docPrivate := d.docPrivate
          docOrder := d.docOrder
          defaults := d.defaults
          ownDefaults := d.defaults
          ownRegistry := d.registry
          order
          secReq := order.filter
            (fun k => !isPrivate k && (required? (lookupS k props)).getD false)
          secOpt := order.filter
            (fun k => !isPrivate k && !(required? (lookupS k props)).getD true)
          secImm := order.filter
            (fun k => !isPrivate k && (required? (lookupS k props)).isNone)
          secPriv := order.filter isPrivate }

/-- A class statement: `PropertyMetaclass.__new__` (base.py:87-248), or plain
class creation when no base has the metaclass.  The last step is
`newcls._REGISTRY[name] = newcls`. -/
def create (chk : PyStr → Entry → Dflt → Option ErrKind) (S : State) (d : Decl) :
    Except ErrKind State :=
  let T := S.classes
  if d.explicitMeta || d.bases.any T.isHp then
    match c3 T d.bases with
    | none => match buildClass T d [] with
        | .error e => .error e
        | .ok _ => .error .type
    | some mro => match buildClass T d mro with
        | .error e => .error e
        | .ok k =>
            let defaults := mergedDefaults T mro d.defaults
            match checkDefaults chk k.props defaults with
            | .error e => .error e
            | .ok _ =>
                let T' := T ++ [{ k with defaults := some defaults }]
                match registryOwner T' k.mro with
                | none => .error .attr
                | some owner => .ok {
                    classes := T'
                    regs := fun o => if o = owner then setS d.name T.length (S.regs o)
                      else S.regs o }
  else match c3 T d.bases with
    | none => .error .type
    | some mro => .ok { S with classes := T ++ [{
        name := d.name
        bases := d.bases
        mro := T.length :: mro
        hp := false
        body := d.body
        docPrivate := d.docPrivate
        docOrder := d.docOrder
        defaults := d.defaults
        ownDefaults := d.defaults
        ownRegistry := d.registry }] }

/-- The states that class statements can produce, starting with no class.  A
statement that raises leaves the state as it was.  Bases exist, and a class
body or a dictionary of defaults binds each name once. -/
inductive Reachable (chk : PyStr → Entry → Dflt → Option ErrKind) : State → Prop
  | empty : Reachable chk {}
  | create {S S' : State} (d : Decl) : Reachable chk S → (∀ b ∈ d.bases, b < S.classes.length) →
      (d.body.map Prod.fst).Nodup → ((d.defaults.getD []).map Prod.fst).Nodup →
      create chk S d = .ok S' → Reachable chk S'

/-- `cls._deserialize_class(name, trusted, strict)` (base.py:591-603) for a
text name. -/
def deserializeClass (S : State) (c : ClsId) (name : PyStr) (trusted strict : Bool) :
    Except ErrKind ClsId :=
  let own := (S.classes[c]?).map (·.name)
  if name.isEmpty || own == some name then .ok c
  else
    let reg := match registryOwner S.classes (S.classes.mro c) with
      | some o => S.regs o
      | none => []
    match (if trusted then lookupS name reg else none) with
    | some d => .ok d
    | none => if strict then .error .value else .ok c

end Verif.Cls
