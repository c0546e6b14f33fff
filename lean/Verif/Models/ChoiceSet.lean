import Verif.Core.Scalar

/-!
# StringChoice properties and the dictionaries they share (basic.py:1050-1170)

Dictionaries are objects: `choices` and `descriptions` keep the dictionary they are given,
and the client may go on writing to it.
-/

namespace Verif.ChoiceSet

/-- A hashable value: text, or something else. -/
inductive Item where
  | text (s : PyStr)
  | other (n : Nat)
  deriving DecidableEq

/-- The value of an entry of `choices`: a set, list or tuple, or a single value. -/
inductive Als where
  | one (x : Item)
  | many (xs : List Item)
  deriving DecidableEq

/-- The list the setter makes of it (basic.py:1101-1105). -/
def Als.list : Als → List Item
  | .one x => [x]
  | .many xs => xs

abbrev Table := List (Item × Als)
abbrev Descr := List (Item × Item)

/-- A StringChoice property: references to dictionaries. -/
structure SC where
  case : Bool := false
  choices : Nat
  descr : Option Nat := none

structure World where
  tables : List Table := []
  descrs : List Descr := []
  props : List SC := []

/-- Exceptions. -/
inductive Err where
  | type
  | attribute
  | key
  deriving DecidableEq

/-- What is assigned to `choices`: a set, list or tuple, a dictionary, or something else. -/
inductive Arg where
  | names (xs : List Item)
  | dict (i : Nat)
  | other

/-- The loop that replaces the values (basic.py:1101-1105): the dictionary itself changes. -/
def listed (t : Table) : Table := t.map fun e => (e.1, .many e.2.list)

/-- The text of values, if all are text (basic.py:1110-1112). -/
def textAll : List Item → Option (List PyStr)
  | [] => some []
  | .text s :: xs => (textAll xs).map (s :: ·)
  | .other _ :: _ => none

/-- The entries as text (basic.py:1106-1113); `none` is TypeError. -/
def entries : Table → Option (List (PyStr × List PyStr))
  | [] => some []
  | (.text k, a) :: t => match textAll a.list, entries t with
      | some l, some r => some ((k, l) :: r)
      | _, _ => none
  | (.other _, _) :: _ => none

/-- The check for duplicates (basic.py:1114-1120). -/
def distinct (E : Env) (case : Bool) (kvs : List (PyStr × List PyStr)) : Bool :=
  decide ((kvs.flatMap (fun kv => kv.1 :: kv.2)).map (choiceKey E case)).Nodup

/-- The dictionary the setter works on (basic.py:1095-1100): a new one for a collection of
different values. -/
def pick (w : World) : Arg → Option (Nat × World)
  | .names xs => if xs.Nodup then
      some (w.tables.length, { w with tables := w.tables ++ [xs.map fun x => (x, .many [])] })
    else none
  | .dict i => if i < w.tables.length then some (i, w) else none
  | .other => none

/-- The setter of `choices` (basic.py:1093-1120), for a property with this
`case_sensitive`: the dictionary that is accepted. -/
def setChoices (E : Env) (case : Bool) (a : Arg) (w : World) : Except Err Nat × World :=
  match pick w a with
  | none => (.error .type, w)
  | some (i, w) =>
      let w := { w with tables := w.tables.modify i listed }
      match entries ((w.tables[i]?).getD []) with
      | none => (.error .type, w)
      | some kvs => if distinct E case kvs then (.ok i, w) else (.error .type, w)

/-- The setter of `descriptions` (basic.py:1147-1158); `none` is no dictionary. -/
def setDescr (p : SC) (d : Option Nat) (w : World) : Except Err SC :=
  match d with
  | none => .error .type
  | some j => match w.descrs[j]?, w.tables[p.choices]? with
      | some d, some t =>
          if d.length = t.length ∧ d.all (fun e =>
              decide (e.1 ∈ t.map (·.1)) && (match e.2 with | .text _ => true | .other _ => false))
          then .ok { p with descr := some j } else .error .type
      | _, _ => .error .type

/-- `StringChoice(doc, choices, case_sensitive, descriptions=...)` (basic.py:1069-1072); `case`
is `none` if it is not a bool, `descr` if there is no such keyword. -/
def make (E : Env) (case : Option Bool) (a : Arg) (descr : Option (Option Nat)) (w : World) : Except Err Unit × World :=
  match case with
  | none => (.error .type, w)
  | some c => match setChoices E c a w with
      | (.error e, w) => (.error e, w)
      | (.ok i, w) => match descr with
          | none => (.ok (), { w with props := w.props ++ [⟨c, i, none⟩] })
          | some d => match setDescr ⟨c, i, none⟩ d w with
              | .error e => (.error e, w)
              | .ok p => (.ok (), { w with props := w.props ++ [p] })

/-- What a program does. -/
inductive Op where
  /-- the client makes a dictionary, or changes one it has made -/
  | table (t : Table)
  | write (i : Nat) (t : Table)
  | descr (d : Descr)
  | writeDescr (j : Nat) (d : Descr)
  | make (case : Option Bool) (a : Arg) (descr : Option (Option Nat))
  | choices (p : Nat) (a : Arg)
  | case (p : Nat) (c : Option Bool)
  | descriptions (p : Nat) (d : Option Nat)

/-- One operation; the program catches errors. -/
def exec (E : Env) (w : World) : Op → World
  | .table t => { w with tables := w.tables ++ [t] }
  | .write i t => { w with tables := w.tables.set i t }
  | .descr d => { w with descrs := w.descrs ++ [d] }
  | .writeDescr j d => { w with descrs := w.descrs.set j d }
  | .make c a d => (make E c a d w).2
  | .choices p a => match w.props[p]? with
      | none => w
      | some s => match setChoices E s.case a w with
          | (.error _, w) => w
          | (.ok i, w) => { w with props := w.props.set p { s with choices := i } }
  | .case p c => match w.props[p]?, c with
      | some s, some c => { w with props := w.props.set p { s with case := c } }
      | _, _ => w
  | .descriptions p d => match w.props[p]? with
      | none => w
      | some s => match setDescr s d w with
          | .error _ => w
          | .ok s => { w with props := w.props.set p s }

def execAll (E : Env) (w : World) (ops : List Op) : World := ops.foldl (exec E) w

/-- `validate` (basic.py:1160-1170) with the settings of the moment, for dictionaries of text;
`none` if the dictionary is no such thing. -/
def validate (E : Env) (w : World) (p : SC) (v : Val) : Option (Except SErr Val) :=
  match w.tables[p.choices]? with
  | none => none
  | some t => (entries t).map fun kvs => choiceValidate E kvs p.case v

/-- The choices with their descriptions that `info` lists (basic.py:1076-1082): KeyError for a
choice without description. -/
def described (d : Descr) : Table → Except Err (List (Item × Item))
  | [] => .ok []
  | (k, _) :: t => match (d.find? fun e => e.1 = k), described d t with
      | some e, .ok r => .ok (e :: r)
      | none, _ => .error .key
      | _, .error e => .error e

/-- What `info` lists for a property with descriptions; without them, the choices. -/
def info (w : World) (p : SC) : Except Err (List (Item × Option Item)) :=
  let t := (w.tables[p.choices]?).getD []
  match p.descr with
  | none => .ok (t.map fun e => (e.1, none))
  | some j => match described ((w.descrs[j]?).getD []) t with
      | .error e => .error e
      | .ok l => .ok (l.map fun e => (e.1, some e.2))

end Verif.ChoiceSet
