# Formal model of seequent/properties in Lean 4

The plan was written before the proofs and is kept current with them.
`properties.jsonl` has the properties in words, `MANIFEST.json` the theorems that
prove them, `seeded/LOG.jsonl` the wrong programs the theorems were tried on.

## 1. What is modelled, and how

### Layout
* `Verif/Py`, `Verif/Core`: the main model.  `Verif/Models`: separate models.
* `Verif/Spec`: what the theorems say, written without the functions of the model
  as far as possible (relations, inductive predicates, arithmetic).
* `Verif/Lemmas`: proof infrastructure.  `Verif/Props/CNN.lean`: the theorems, with
  concrete cases that meet their hypotheses, and counterexamples where a claim
  needs a restriction.
* `Verif/Conformance`: the assertions of `/repo/tests` restated as `example`s and evaluated
  on the model (`Harness` reads a test as a sequence of calls and checks).  They are tests
  of the model, a check that it says what the project's own tests say; no property rests
  on them.

### Python layer (`Verif/Py`)
* `PyStr := List Char`.  Names, keys and text are lists of code points.
* `PyFloat = fin q | nan | pinf | ninf` with exact rationals; rounding is a
  parameter `rnd : Rat -> PyFloat` of the environment (no `-0.0`).
* `Val`: None, `undefined`, bool, int, float, complex, str, datetime, uuid,
  list, tuple, set, dict, reference to a HasProperties object, opaque object.
  Containers in the main model are values; sharing and in-place mutation of
  containers is the subject of the models `Alias` (which justifies it, C63) and
  `Observable`.
* Exceptions are values (`PyErr`), with the class distinctions the code uses:
  ValidationError < ValueError, TypeError, KeyError, AttributeError
  (= `GENERIC_ERRORS`), and IndexError, OverflowError, RecursionError,
  SelfReferenceError outside of them.
* `M a := World -> Except PyErr a x World`: an exception keeps the state it
  happened in, there is no roll back.  `try/except/finally` are combinators.

### Main model (`Verif/Core`)
base.py, basic.py, containers.py (value semantics), instance.py, union.py,
`_notify`/`_get_listeners` of handlers.py, `ValidationError` and `filter_props`
of utils.py.
* A `World` is the heap of HasProperties objects (class, stored values, listeners,
  in-progress flags, collected error tuples), the global listener quarantine,
  user state, and two ghost logs (listener calls, error hook calls).  A ghost flag
  `bypass` records that the private attribute `_backend` was assigned.
* Property declarations are data (`PropSpec`), classes are data (`ClassDef`).
  How class statements make them is the model `Classes`.
* Each Python method is one non-recursive Lean function that receives the
  function `rec` used for the calls it makes.  `run n` ties the knot with a
  recursion limit `n`; at 0 it raises RecursionError.  So re-entrancy and
  unbounded recursion are in the model and no termination assumption is made.
  Theorems hold for every `n`; C58 shows that results do not depend on `n` once
  it is large enough.  RecursionError occurs only where one modelled method calls
  another, not at every Python frame.
* User code (listeners, class validators, dynamic getters and setters,
  serializers, callable defaults, error hooks) is an arbitrary program `Prog`
  that may call the public API, catch exceptions, open `listeners_disabled`
  blocks and keep state.
* External functions (case mapping, regex search, number parsing and printing,
  float rounding, uuid4, random, JSON) are parameters of the environment.
  Theorems that need a law about them take it as hypothesis, and an instance
  satisfying the law is given.

### Separate models (`Verif/Models`)
Each is for code whose state the main model does not have.
* `Handlers` (handlers.py:14-86): context objects, with aliasing of the set objects,
  nested programs and arbitrary interleavings.
* `Names` (base.py:129-134, 346-375, basic.py:120-131, 284, 487-491, 671-681,
  containers.py:193-201, 536-543, union.py:110-122): names of property objects that may be
  shared between attributes, classes and container properties; defaults, listeners and
  class descriptions are left out.
* `Live` (handlers.py:89-162, base.py:349-375): the main model with notifications that
  go through the live list of listeners; C72 shows that the two agree if listeners
  register nothing.
* `Classes` (base.py:24-250): the metaclass: inheritance of properties, observers,
  validators and defaults, C3 linearisation, documentation order, registries.
  Property objects are not shared between class statements.
* `Limits`, `Choice`: setters of declarations (min, max, lengths; choices).
* `Decl` (basic.py:98-175): keywords of declarations and the check of the default.
* `Compose` (basic.py, containers.py, instance.py, union.py): declarations of properties
  built from other properties, and what their setters accept.
* `FilterProps`, `StopRecursion` (utils.py).
* `Text`: strftime/strptime with the two formats, str(UUID)/UUID(text); ASCII digits.
* `Links` (link.py): any graph of directional links and link groups; links are the
  only observers; traitlets are left out.
* `LinkProg` (link.py): directional links as user code of the main model; C77 shows that it
  agrees with `Links`.
* `Observable` (containers.py:51-138): containers as objects with identity, aliases,
  bindings, re-entrant listeners; mutating methods are arbitrary functions.
* `Alias` (containers.py:250-276, 408-412, 575-601): validation on a heap of lists,
  sets and dicts, with client code that shares them and changes them in place.
* `Singleton` (extras/singleton.py): construction may run arbitrary commands.
* `Uid` (extras/uid.py): HasUID and Pointer for classes that share one `_INSTANCES`;
  the values of an instance are a sequence of slots with data and references.
* `Pointer` (extras/uid.py:175-253): what Pointer properties accept, over `Uid`.
* `Task` (extras/task.py): `__call__` and `report_status` over the main model.
* `Url` (extras/web.py) with urlparse/urlunparse of the Python 3.11 library.
* `Arrays` (math.py): shapes, kinds and vectors over real numbers; the constructors
  of numpy and vectormath are parameters.
* `Dynamic` (basic.py:385-592): registering getters, setters, deleters and properties of
  dynamic properties, with the resulting class table used by the main model.
* `ArrayDecl` (math.py:44-122, 250-269, 315-323, 363-371, 415-433, 485-503): the settings of array
  and vector properties.
* `ArrayJson` (math.py:166-237): arrays as shape and elements, `tolist`, `np.array` on
  nested lists, `astype`; writing and reading of numbers as text are parameters.
* `Files` (basic.py:1300-1408): File properties over objects that may be open or closed;
  the operating system is a parameter.
* `Png` (images.py) with base64 of the standard library and the signature check.
* `ChoiceSet` (basic.py, StringChoice): the setters of choices, case_sensitive and descriptions over
  a heap of dictionaries shared with the caller.
* `JsonCopy` (instance.py:161-172): `json.loads(json.dumps(v))` on data.
* `AnyInstance` (instance.py:89-181): Instance properties of a class that is arbitrary user code.

* `LinkArgs` (link.py:55-138, 182-192): the checks of link arguments and the loops of link(), in front
  of `Links`.

* `StaticJson` (containers.py, instance.py, union.py): the static methods to_json and from_json.

* `ContainerClass` (containers.py:66-137, 261-292, 409-413, 570-598): the classes of container values and
  the cache of observable classes.

* `Messages` (basic.py:326-358 and the `info` properties): descriptions and error messages.

* `Tags` (basic.py:28-31, 78-120, 147-168, 199-214, 447-452): metadata and terms of property objects, with shared dictionaries.

* `Into` (base.py:518-589): `HasProperties.deserialize` with the keyword `_instance`, on top of Core.

* `Warnings` (basic.py:1442-1505): uses of attributes with the warnings of Renamed properties, in front of Core.

* `ArrayMessages` (math.py:125-164, 178-210, 278-292): descriptions of array and vector properties, and `validate` with the text of its errors.

* `DocText` (basic.py:353-374, 590-592, 683-706, 1474-1475; containers.py, instance.py, union.py, base.py:188-215):
  the documentation text of properties and classes.

* `Pickle` (base.py:250-281, 305-344; tests/test_serialization.py:28-37): pickling and unpickling by Python's
  default, as the library has no hooks for it.

* `ChangeDict` (base.py:349-375, handlers.py:101-108): an assignment with the change dictionary its listeners share, over Core.

### Not modelled
Message texts (beyond `Messages`), warnings (beyond `Warnings`), documentation texts (beyond `DocText`), Python 2 branches, numpy scalars in
the main model, pickling (beyond `Pickle`), in the main model Instance properties of classes that are not HasProperties
(an opaque value), metaclass conflicts, threads other than interleavings of context
managers, hash collisions, `-0.0`, identity of NaN inside containers, the file
system (beyond what C65 needs), gif/matplotlib images, traitlets.  In the main model a notification calls the listeners found when it starts
(see `Live`).  Changes a listener makes to entries of the change dictionary other than
its value are in the model `ChangeDict` only.  Of the private attributes
only `_backend` can be a constructor keyword; the `_instance` keyword of `deserialize`
is in the models `Uid` and `Into` only; `serialize` goes through the stored names as they are when
it starts (a dynamic getter that adds one makes Python raise RuntimeError).  A value
that is neither an instance nor a dictionary makes Instance call its class with one
positional argument, which fails with TypeError; the instance that `__new__` has made by
then, unreachable afterwards, and its default functions are not modelled.
Each definition's comment
cites the code it models and says what it drops.

## 2. Properties: model, proof, status

Theorem names are in `MANIFEST.json`; hypotheses are explained in section 3.

| id | status | model | proof | notes |
|----|--------|-------|-------|-------|
| C01 Stored values always have their declared type | proved | Core | invariant `WellTyped` preserved by every call, by induction on the recursion limit over the generic preservation frame `Lemmas/Pres`; `Admits` (Spec/Types) is an independent inductive predicate | Invariant over all programs, callbacks and recursion limits. Renamed properties have no type of their own. Both exceptions named in the statement are shown to be needed. |
| C02 Validation is idempotent | proved | Core, Scalar | idempotence per type, induction on nesting; negations with witnesses | Proved for every nesting of all types. Strings must be stable (a String whose case change or stripping undoes itself is excluded by StableText; three families of stable Strings are shown). Unions are covered when no alternative changes a value that a later alternative may hold (Settled) and error hooks stay silent. The failures for String and Union that the statement mentions are proved as counterexamples. |
| C03 Integer and Float accept exactly the numbers near the type and inside the bounds | proved | Scalar | decision theorems against exact rational arithmetic (Spec/Scalar) | Decision theorems for all values; the exceptions named in the statement are theorems. Rejections are for instances with the default error hook. |
| C04 String normal form | proved | Scalar | characterisation of strip by splitting the string (`IsStripped`) | Regex search and case mapping are arbitrary parameters. |
| C05 StringChoice picks the one matching choice | proved | Scalar, Choice | decision theorem; uniqueness from the check of the declaration; order independence | Choices range over all declarations; which of them are accepted is characterised (C05_declares_names, C05_declares_table). |
| C06 Color always yields an RGB triple | proved | Scalar, Colors | range invariant, digit pairs, the whole table of names by kernel evaluation | bool channels count as integers, as in Python. The table misspells firebrick. |
| C07 DateTime survives JSON | proved | Text | round trip by decimal padding lemmas, over all dates | strftime and strptime modelled for the two formats with ASCII digits and naive datetimes. Where %Y is not zero padded (glibc before Python 3.14) all years before 1000 fail to read back (C07_early_years). C07_accepts: exactly which text is read (both directions), with the whole text consumed. |
| C08 Uuid survives JSON | proved | Text | round trip by hexadecimal lemmas, over all 128 bit numbers | str(UUID) and UUID(text) modelled after the standard library, text ASCII. C08_spellings: the spellings without dashes, with braces and with urn: or uuid: in front. |
| C09 A rejected assignment changes nothing | proved | Core | classification of every failure of an assignment; frame lemma for read-only code | User code is read-only (makes no modifying call). C09_failed_assignment classifies every failure: value rejected, a validator raised (nothing changed, no observer called), or a later failure with the value stored. C09_busy: the same for the instance assigned to, when user code may do anything except modify that instance. |
| C10 A successful assignment stores exactly the coerced value | proved | Core | post state of an assignment with frame | User code is read-only. C10_busy: for the instance assigned to, user code may modify any other instance. |
| C11 Listener protocol | proved | Core | the log of listener calls is one of the inductive protocol in Spec/Assign | The calls are those of an inductive protocol in Spec/Assign. Callbacks are read-only; the exact list of validator calls needs callbacks that do not run validations themselves. C11_busy and C11_busy_deletion: the observer calls of the instance assigned to, when callbacks may modify any other instance, with their own notifications. For arbitrary callbacks see C72. |
| C12 Change observers fire exactly on change | proved | Core | decision theorem on the log | User code is read-only. The comparison is the equal method of the property, run in a state that agrees with the first one except for the assigned property. C12_busy: user code may modify any other instance. |
| C13 listeners_disabled restores what it found | proved | Handlers | structural induction on programs against lexical scoping | Aliasing of set objects is modelled. The claim needs distinct context objects; the last theorem shows why. |
| C14 listeners_disabled under interleaving | proved | Handlers | induction on the operations between entry and exit: saved sets are never aliased | Any number of contexts in any order; aliasing of the set objects is modelled. C14_interleaving_breaks is the overlapping case. |
| C15 Construction sets defaults silently and in precedence order | proved | Core | post state of the constructor; silence of the log | Property names distinct (they are keys of a dictionary); user code does not set properties of the new instance by itself. Validator listeners run by user code that validates the instance under construction are not counted as calls for defaults. |
| C16 Construction reports all invalid keywords together | proved | Core | induction on the keyword list | For classes with the default error hook and user code that does not call the private _validate_props; construction without keywords is assumed to succeed (defaults, C15). Keywords named cls and self collide with parameters and are excluded. |
| C17 validate() accepts exactly valid instances | proved | Core | decision procedure for a greatest fixed point (Spec/Valid), induction on unmarked instances | For every finite world: validate() returns True iff the instance is in a set of instances each of which is in order relative to the set (greatest fixed point), else raises. Hypotheses: default error hooks, validators and getters only read, checks build no new instances and raise only ValidationError/ValueError/TypeError/KeyError/AttributeError. |
| C18 validate() reports every failing property | proved | Core | induction on the property list with the collected tuples as state | Under the stated condition that checks raise only ValidationErrors; default error hooks (calls recorded). |
| C19 Recursion guards are restored | proved | Core | invariant of all calls, induction on the recursion limit | All calls, outcomes, callbacks and recursion limits of the core model. |
| C20 Listener quarantine is restored by every operation | proved | Core | invariant of all calls, induction on the recursion limit | All calls, outcomes, callbacks and recursion limits of the core model. |
| C21 validate() terminates on cyclic graphs | proved | Core | measure: unmarked instances and nesting | Depth (N+1)(2D+K+4)+D+K+1 suffices, N instances, nesting D, attribute reads ending within K. |
| C22 serialize() output is plain JSON data with exactly the set properties | proved | Core | soundness of the model against the relation `SerP` (Spec/Serialize) | Success at any recursion limit: nothing changed, keys exactly the properties whose value is not None plus __class__, values JSON data given by an independent serialization relation (SerP). Assumes save_dynamic=False, custom serializers that compute JSON data (None for None only), stored values that have a JSON form (implied by well-typedness without plain Property and Union, C22_typed) and that json.loads(json.dumps(v)) is JSON data. |
| C23 serialize() detects self reference | proved | Core | measure as C21, reachability in the graph of references | For every world: recursion depth serDepth D (number of instances) is always enough, the call leaves every instance as it was, a reachable cycle gives an error (SelfReferenceError if nothing else stands in the way), and without one the call succeeds. Assumes save_dynamic=False, custom serializers that compute an answer or raise, and Union alternatives that build no instances. |
| C24 Serialize then deserialize rebuilds an equal object | proved | Core | refinement to a relation between values and trees, composed in both directions | serialize, deserialize and copy of every canonical acyclic instance (Canon): scalars in JSON form or with inverse custom serializer and deserializer, lists, sets and tuples, dictionaries, nested instances and (with include_class and trusted) subclasses, and Unions whose value is refused by the earlier alternatives and whose data is read by the alternative that wrote it. The result is new, leaves all existing objects alone, is a copy property by property, and compares equal to the original. Outside Canon: Unions with strict_instances, with a default or declared read-only, custom serializers on containers and Instances, auto-created Instances, function defaults that do more than compute a value, non-scalar set items or dictionary keys. Equality additionally needs classes without Renamed or Dynamic properties, no NaN, and earlier alternatives that do not raise when comparing. An instance whose property with a default was deleted gets the default back (C24_deleted_comes_back), so that case is excluded by Held. Unions for which the round trip is false: Integer or Float, Integer or String, List or String (C24_union_*). |
| C25 Untrusted deserialization only builds declared classes | proved | Core | invariant on the classes of all instances in the heap, whatever the outcome | For every input and however the call ends, afterwards every instance is of a class named by the declarations of the called class (any depth) or of the instances existing before; the set does not depend on the input. The result is a new instance of exactly the called class; an Instance property gives exactly the declared class. User functions are assumed to name only such classes and to trust no input themselves. |
| C26 Strict deserialization rejects unknown keys and wrong classes | proved | Core | decision theorem | The class chosen by the input is specified by ChosenClass. Non-text unknown keys raise TypeError while the message is built, which the theorem states. |
| C27 Deserialization calls no listeners | proved | Core | invariants: recorded listener calls concern instances that existed when they were recorded, and none is recorded while listeners are disabled | For any declarations and user code no listener is called for the instance being built (immutable properties scalar); assert_valid runs afterwards. For plain declarations no listener is called at all; with a Union in a Union that stronger claim is false (C27_nested_union_calls). |
| C28 properties.equal is an equivalence on acyclic data | proved | Core | `equal` decides the relation `Same` (Spec/Equal), whose laws are proved by induction on trees | equal() decides the independently defined Same relation on acyclic comparable data and leaves the state alone; reflexive always, symmetric when items of Sets have no tolerance (otherwise the greedy pairing need not be), transitive for types without tolerance and alternatives. Dynamic properties excluded. Counterexamples for cycles, Float tolerance and Renamed aliases of instances are theorems. |
| C29 Comparison, serialization and reading do not modify data | proved | Core | frame invariant over all calls | All calls that are not set, delete, reset or listener registration; user code is read-only. |
| C30 Containers validate item by item | proved | Core | list induction, both directions | Acceptance is characterised in both directions for every item type. Container values have no identity in this model; that the resulting container object is new is C63, on a heap model. |
| C31 Container length limits are enforced by validate() | proved | Core, Limits | part of C17 at every depth; histories of settings | Limits enforced at every depth of nested containers; histories of limit settings. |
| C32 Union takes the first alternative that accepts | proved | Core | list induction | For any list of alternatives and any recursion limit. |
| C33 Union serialization uses the alternative that accepts the value | proved | Core | list induction | For any list of alternatives and any recursion limit. |
| C34 filter_props splits a dictionary exactly | proved | FilterProps | list induction | For every class and dictionary. |
| C35 Inherited properties match the attributes | proved | Classes | invariant over histories of class statements, C3 linearisation | All class creation histories. Three counterexamples show that the restriction is needed. |
| C36 Every documented property appears in exactly one documentation section | proved | Classes | permutation | All class creation histories. |
| C37 Renamed properties alias the new name | proved | Core | induction on chains of renamings | Reading, assigning and deleting a renamed property, for any chain of renamings, equals the same operation on the target; a cycle of renamings raises at every depth. |
| C38 Dynamic properties are validated and never stored | proved | Core | decision theorems and an invariant over histories | Reading gives an admitted value or None; setting validates first; nothing is stored by the constructor or by any program on existing instances. Deserializing does store an input entry under the name: C38_deserialize_stores. |
| C39 Immutable properties never change | proved | Core | invariant over histories | Any program with any callbacks and recursion limit keeps the stored value of every property that is not mutable on every existing instance, as long as the private attribute _backend is not assigned. |
| C40 Linked properties stay in step | proved | Links | total correctness of propagation; invariant on links in step | Model of link.py and the observer calls of _set, any values and transforms. Total correctness: the assignment succeeds. Consistent is the hypothesis that agreeing values exist; C40_inconsistent_cycle and C40_rejected_by_target show it is needed. ExactEqual: prop.equal holds of same values only. Links are the only observers; traitlets not modelled. |
| C41 Link propagation terminates | proved | Links | measure: links not being updated | Stack depth bounded by the number of links, on every graph, with rejecting properties and transforms. |
| C42 Unlink stops and relink resumes propagation | proved | Links | simulation between the state with and without the link | Histories of assignments, deletions, new links, unlink and relink compared with the history in a state without the link. |
| C43 HasUID identifiers are unique | proved | Uid | invariant over histories | For every history of constructions, uid assignments and deletions and deserializations, with listeners on, uuids not guessed before they are drawn, and flat dictionaries whose entries carry the uid of their key. C43_wrong_key and C43_listeners_disabled show that the last two hypotheses are needed; C43_stays_taken is a finding: an identifier stays taken after its instance changes it. |
| C44 HasUID serialization is flat and complete | proved | Uid | invariant of the traversal | For all finite graphs of instances with distinct identifiers other than __root__, cycles and sharing included. C44_root_key is a finding: an instance whose identifier is __root__ is left out of the flat form. |
| C45 HasUID graphs survive serialization | proved | Uid | simulation between original and copy; termination measure on the registry | C45_isomorphic: every deserialization of a flat form that returns built an isomorphic copy. C45_terminates: for every flat dictionary. C45_round_trip: it returns if every instance is referred to at most once. C45_twice_raises and C45_diamond are findings: sharing is written but cannot be read back, since a finished identifier counts as used. C45_untrusted: without `trusted`, no class is chosen by a name in the dictionary. C45_valid: for any dictionary, what a call that returns has made is valid. |
| C46 A singleton name denotes one instance | proved | Singleton | invariant over histories | Top-level statements: unconditional. Inside constructions: unless a name is constructed during its own construction, where the claim fails (C46_reentered). Finding: deserialize removes the identifier from the caller's dictionary, so deserializing one dictionary twice may give two instances. |
| C47 Observed container mutation is validated and notified | proved | Observable | heap invariant over histories with re-entrant listeners | Model with containers as objects, aliases and re-entrant listeners. Proved for all mutating methods and histories without in-place operators. Shown false for in-place operators (rejected, or applied to an alias) and for containers inside containers. |
| C48 Stale container aliases cannot affect the instance | proved | Observable | as C47 | For all histories, including in-place operators and re-entrant listeners. |
| C49 Set and Dictionary equality is mathematical equality of contents | proved | Core | matching lemma for equivalences; counterexample for tolerance | For every item equality that answers without side effects and without tolerance; C49_items shows exact item types do. NaN dictionary keys excluded. The order dependence with tolerance is a theorem, and so is what Dictionary.equal makes of lists. |
| C50 When the error hook of an instance is called | proved | Core | invariant on the hook log | Default error hook; user code does not call the private _validate_props. Nested validation (containers, Integer tolerance) may call the hook more than once in one failing assignment (C50_example_twice). C50_accepted is about the check of the value: listeners called after it may do anything. C50_union: alternatives of scalar types that refuse the value with one error each. |
| C51 Tasks run only on valid input and return only valid output | proved | Task over Core | case analysis over the calls, using C01, C17, C25 | All tasks, overridden methods and histories. What a returned validate() means is C17, with its conditions. Found: the class attribute Output is never checked, only BaseOutput; a status without progress raises TypeError, a NaN progress ValueError. |
| C52 URL normalisation | proved | Url | decomposition of text into components and back | A URL is accepted iff urlparse succeeds with a scheme and a network location; removed parts are absent; revalidation changes nothing. urlparse and urlunparse are modelled from the Python 3.11 library. |
| C53 Arrays match their declared shape and kind | proved | Arrays | decision theorems | The class constructor and subclass test are parameters; element values do not matter to the checks. |
| C54 Vector direction names and lengths | proved | Arrays | decision theorems, real arithmetic | Real arithmetic in place of floats. Findings: names in the caller's list are replaced in place; a tuple with a direction name raises TypeError. |
| C55 ImagePNG survives JSON | proved | Png | base64 round trip by induction on bytes in groups of three | base64 is modelled as in the Python library, streams as bytes with a position. |
| C56 stop_recursion_with runs the method once per object | proved | StopRecursion | invariant over call trees | All re-entrant call trees, any definition of ==, any number of decorated methods; termination needs finitely many objects and backups that do not call back. Threads are not modelled. |
| C57 Trusted lookup uses the nearest registry | proved | Classes, Core | history of registrations | All class creation histories; the last theorem is about the lookup as used by the interpreter. |
| C58 More recursion budget never changes a result | proved | Core | monotonicity in the limit, induction | For user callbacks that do not handle RecursionError themselves; that condition is shown to be necessary. |
| C59 Number bounds are consistent | proved | Limits | histories of settings | All histories of settings with values other than NaN; NaN breaks the claim. |
| C60 Serializer wrappers accept either call signature | proved | Core | decision theorem on call traces | Including the exception named in the statement: a TypeError from the body leads to a second call (C60_type_error_calls_again, with C60_called_twice as a concrete case). |
| C61 Class defaults are inherited from the nearest class | proved | Classes | invariant over histories of class statements | All class creation histories; validation of a default is a parameter. |
| C62 Renamed properties and observers refer to properties of the class | proved | Classes | invariant over histories of class statements | All class creation histories. |
| C63 Assigning a container stores a copy nobody else holds | proved | Alias | separation invariant over histories: no object the client can reach refers to the objects an assignment made; refinement of validation on a heap to validation of contents | shown on a heap model with sharing; C63_undeclared_shared: items of undeclared type are shared |
| C64 Arrays survive JSON | proved | ArrayJson | induction on the shape: `tolist`, the recursion over lists and shape discovery; induction on the elements for the common type | That float text is read back without loss is a hypothesis (`TextLaws`, instance given); Vector properties use the same code with another wrapper. |
| C65 Files are accepted open, opened once and closed only by deletion | proved | Files | decision theorems; frame lemmas and induction on histories | That CPython reports `rb+` for `wb+` is from the C source of FileIO, as are the other reported modes. |
| C66 Pointers resolve to the very instance that carries the identifier | proved | Uid, Pointer | invariant over histories (with C43); decision theorems | The history assigns uid to instances in use only; C66_left_behind shows why. |
| C67 A declaration does not depend on the order of its keywords | proved | Decl, Limits | adjacent keywords commute; induction on permutations; invariant of the loop | Positional parameters are part of the class; which error is raised first does depend on the order. |
| C68 Which arrays an Array property takes for equal | proved | ArrayJson | element by element characterisation by induction on the lists; counterexamples to symmetry and transitivity | Arrays of class ndarray; vector classes compare through the same method after the class test. Rounding in numpy's own arithmetic is not modelled: differences and products are exact. |
| C69 Calls do not reach unconnected instances; deserialized instances and copies share nothing with what there was | proved | Core | invariant over all bodies of the interpreter, for an arbitrary set of instances closed under stored values: instances outside are unchanged, those inside store only values over the set; induction on the recursion limit; instantiated with the set connected to the arguments and with the set of new instances | Instances are compared exactly, with guards, error lists and listeners. Lists, sets and dictionaries are values in this model: sharing of the container objects themselves is the subject of C63. User state outside instances (userGet) may hold anything, so user code may not trust instances found there. C69_copy takes the hypotheses of C22 (serializers that compute JSON data, values with JSON forms). |
| C70 What is stored survives JSON | proved | Core | case analysis of the values a type admits; induction on admitted values and on the (finite, acyclic) graph of instances gives the hypothesis of C24; histories by C01 and C19 | NumberText (float('nan') etc. and complex(str(z)) read back) and TextEnv (strftime/strptime/UUID as modelled in Models/Text) describe Python's own text functions. Enduring asks of each instance what Rebuildable (C24) asks, distinct items in sets and distinct dictionary keys also after to_json (NaN keys would collide as text). Unions are covered by C24. |
| C71 Instance properties keep instances, build from dictionaries, and never share class defaults | proved | Core | characterisation of validate by cases; class of the new instance from the invariant on allocations; defaults from C15 | HasProperties classes whose __init__ is inherited; classes with other constructors (instance_class(value)) are not modelled. C71_own_default takes the hypotheses of C15 (callbacks leave the instance being built alone). |
| C72 Listeners are called in the order of registration, new ones at once | proved | Core with live lists (Models/Live.lean) | induction on the loop with the invariant that listeners only grow; equality of the two interpreters by induction on the recursion limit; divergence for every loop bound | Python lists that grow without end are represented by RecursionError beyond a loop bound k. A set of names is gone through in list order. Changes a listener makes to entries of the change dictionary other than value are not modelled. |
| C73 Resetting returns properties to their defaults | proved | Core (`resetBody`) | induction over the properties of the class with the invariant that user code which spares the instance leaves its data alone; comparison with C15 for new instances | User code run by defaults and by comparisons must not itself write to the instance that is reset (`Spares`); for listeners that are enabled, `C73_assigns` refers to the assignment (C09 to C12, C72). |
| C74 Attributes are separate variables, unless a property object is declared under two names | proved | `Models/Names` | induction over naming (what is nested gets the name, nothing else changes) and an invariant over histories with a labelling of property objects; the two ways of sharing for any state | The last two parts describe what the code does although it is hardly wanted. Validation is a parameter; listeners and defaults are not part of this model (C09 to C12, C15). |
| C75 Declarations of composed properties are checked completely, and an accepted default stays usable | proved | `Models/Compose`, over the core model | mutual induction on declarations in both directions; validation as a function of the classes of the instances in the value (`Lemmas/PureVal`, `Lemmas/PureKind`), hence independent of the state; construction of a class with such defaults run in any state (`Lemmas/Constructs`) | The equivalences for defaults are stated for declarations whose inner declarations have no defaults of their own (the one-way versions are not restricted). Constant defaults contain no instance, no dictionary for an Instance, and no random colour. C75_inherited_unchecked describes what the code does although it is hardly wanted. |
| C76 What the basic property types accept, for every value | proved | `Core/Scalar` through `Core/Interp` | case analysis over all values; relations `ReadsInteger`, `ReadsFloat`, `ReadsComplex` and `Falsy` as specification (`Spec/Reads`) | int(), float() and complex() of text, and reading of dates, are parameters here (dates: C07). Refusals of Integer and Float are in C03. |
| C77 Links behave the same among full HasProperties instances | proved | `Models/LinkProg` (link.py as user code of the main model) against `Models/Links` | simulation between the main model and the model of links (`Sim`), by induction on the recursion limit and on the history; then C40 to C42 | Links are the only listeners of the linked properties, error hooks call no user code, and transforms have no effects. C77_plain covers all scalar types except Color, C77_composed containers and Unions of them at any depth (Unions that have a Float, Complex or Dictionary among their alternatives excepted); for types with instances or colours the behaviour of validate and equal is a hypothesis (Behaves). |
| C78 A dynamic property uses the last getter, setter, deleter and property that were accepted | proved | `Models/Dynamic` (registrations) over Core (uses) | which registration counts is a property of the sequence (`LastAllowed`); induction on it, then the access lemmas of the main model | One property object decorating two methods is not modelled; registrations from inside listeners are not either. |
| C79 Array and vector declarations are checked, and mean what they say | proved | `Models/ArrayDecl` over `Models/Arrays` | the meaning of a shape is stated on the value given (`ShapeMatch`), the setting that counts on the sequence (`Last`); induction on the sequence, then C53 | NaN is accepted as length, a set without shapes as shape (after which no array is accepted), and length=None is refused although documented as the default. The list given as dtype is treated as copied. |
| C80 Registered serializers and deserializers are used at every depth | proved | Core | positions of values as a relation (`InTree`), induction on it against the serialization relation of C22; the round trip is C24 with `Canon.custom` | C80_serializer and C80_deserializer hold for arbitrary user programs. C80_every_depth is for serializers that compute an answer or raise (Answers, Raises) without calling the library. What a serializer makes of a value is where the value was: relation SerP in C22_serialize. The round trip is Verif.C24_round_trip, Verif.C24_copy and Verif.C24_equal with Canon.custom; C80_example is a tree that meets their hypotheses. |
| C81 save_dynamic writes all properties, and only what is not None | proved | Core | equivalence of success with a chain of reads and writes (`SavedOne`, `Each`) that threads the state; keys by induction on the chain | C81_saved characterises success of serialize(save_dynamic=True) for arbitrary user code. What is stored in data for dynamic properties and read back is shown on an example class (C81_loaded), the loss of JSON data too (C81_not_json). |
| C82 Numbers count as equal within one billionth | proved | Core | the comparison is unfolded for all values and shown equivalent to an independent relation (`CloseF`); whole numbers by order arithmetic | Rounding of the difference is a parameter; C82_laws needs that it is odd and exact at zero. The absolute value of a complex difference is compared exactly (by squares), not rounded. For Complex, values other than numbers are covered by C28 only as far as comparable data go. |
| C83 Choices, their descriptions and case sensitivity stay consistent however they are set | proved | ChoiceSet | invariant over all operation sequences on a heap of dictionaries shared with the caller; what a text stands for is a separate relation (`Stands`) | The excluded cases are real and shown by C83_case_later (a later case_sensitive = False is not checked), C83_shared (the property goes on using the dictionary of the caller), C83_stale (info raises KeyError after choices are replaced) and C83_refused (a refused dictionary has been changed). |
| C84 Serialized data passes through a JSON text | proved | JsonCopy, Core | mutual structural induction over values against an independent relation (`ReadFrom`); the last part by induction over canonical trees, together with C24 | json.dumps and json.loads are modelled together, by what they do to data; the text between them and the repr of floats used as keys are not. C84_assumed shows that the function meets what other theorems assume of the parameter jsonCopy of the main model. Entries whose keys have the same text are lost (C84_keys). |
| C85 An Instance property of any class holds instances of that class | proved | AnyInstance | acceptance and refusal characterized for arbitrary user code; invariant over all operation sequences | Listeners and registered serializers are in the main model only. C85_example shows that assigning None calls the class with None (an Instance of str stores 'None'); C85_array that an Instance of a class whose == has no truth value, such as an array, stores the second value and raises ValueError, and never validates. |
| C86 What link and directional_link take, and what a failed call leaves behind | proved | LinkArgs, Links | the two loops refined to one list of ordered pairs, induction on it; composed with C40_link | Linked attributes are properties; other attributes, dynamic getters that raise, unknown keyword arguments and traitlets are outside. C86_left_behind is a finding: a failed link() leaves one-way links behind, and the caller has no object to unlink them. |
| C87 Static conversions of containers agree with those of properties | proved | StaticJson, Core | equality of computations, by induction on the items | C87_nested and C87_plain_items are the differences: instances inside inner containers are not written, and a List of plain Property items leaves instances as they are while List.to_json writes them. |
| C88 A stored container keeps the class it was given | proved | ContainerClass | invariant of all executions (Tidy), counting by an injection of observable classes into the others | Only the classes of the values are modelled here; their items are in Core and Observable. Classes have one base. C88_coerced_example is a finding: a Dictionary with coerce=True loses an OrderedDict's class. |
| C89 The JSON forms of the basic types, and output without NaN or infinities | proved | Core | relations written from the documentation, equal to the code's cases; mutual induction on the serialized form | str() of complex numbers, date and UUID texts are functions of the environment. C89_property_nan is the reason plain Property is excluded; C89_boolean_example shows that a Boolean reads the number 7 as 7. |
| C90 Descriptions and error messages are bounded, complete and unambiguous | proved | Messages | unique reading of the texts, by cutting at the first or last delimiter; structural recursion over declarations | Texts of numbers are any injective choice without delimiters; names contain neither spaces nor quotes, choices no quotation marks. Descriptions of choices, File, Array, Pointer and URL are outside. Dictionary and Union descriptions are not unambiguous in general. cast and coerce are not part of a description (C90_cast). |
| C91 Metadata and terms belong to one property object | proved | Tags | invariant on the dictionaries shared by properties and program, by induction over the operations | Keys are texts. prop.meta and prop.terms hand out the dictionaries themselves; a program may change metadata and terms through them (C91_shared), or by assigning terms. |
| C92 Which exceptions a call may end with | proved | Core | a frame for exception classes over the whole interpreter, by induction over the recursion limit; a second one that tracks existing instances for validation | Classes of exceptions, not their messages. Exceptions of user code are arbitrary: the theorem is relative to the classes U they have. Every class in the table occurs (C92_occurs). |
| C93 What validate() adds to the checks of assignments | proved | Core | composition: the invariant of C01 makes every stored value validate to itself and compare with itself (induction over the declared nesting), which reduces the validity of C17 to completeness | Complete (Spec/Complete.lean) mentions neither validation nor equality. Values are assumed to be as Python can have them: distinct hashable items in sets and keys (structure Regular). |
| C94 Copies and deserialized instances are trees | proved | Core | induction over the canonical tree with the invariant that the instances made for successive parts have numbers in successive intervals; pigeonhole for the size | Same hypotheses as C24 (Canon), with scalars that hold no instances. HasUID classes keep sharing (C44, C45). Path and Unshared are defined in Spec/Tree.lean; Unshared excludes cycles too. |
| C95 Deserializing into a given instance | proved | Into | induction over the entries for the deserializing and the assigning loop, with the frame lemmas of C15/C73 for the rest | Data keys that are Renamed names of the class are excluded from C95_into (their effect is that of C37), and a settable property must be settable on the class of the instance too. |
| C96 Old names warn once per renaming and change nothing else | proved | Warnings | induction over the chain of renamings; the rest by C37's equations of the main model | Warnings issued by user code that runs during the use are not recorded; other warnings of the library (deprecations at declaration time) are not modelled. |
| C97 Descriptions and error messages of arrays tell what was declared and what failed | proved | ArrayMessages | cutting joined texts at separators by induction; the checks with messages agree with those of Arrays, so C53 and C79 apply | How integers, shapes and types of arrays are written comes from outside; integers must be written injectively and without commas, parentheses and backslashes. The names of directions that vectors accept are handled before these checks (C54). |
| C98 Sets and dictionaries stay sets and dictionaries | proved | Core | an invariant of all values in the state, through every method of the interpreter, by induction on the recursion limit | Equality of items is equality of the model, in which NaN differs from itself: two NaNs count as distinct items. Values assigned by direct manipulation of the private dictionary of an instance are covered if they are proper. |
| C99 What the generated documentation says | proved | DocText, Classes | induction on declarations (replacement and formatting of texts without marks), injectivity of the joined lines; composed with C36 | Names of classes and modules are without braces, colons and backquotes. Texts of values and of instances come from outside. C99_example shows the finding that container words are in reverse order, and repeated for every alternative of a Union. |
| C100 Unpickled instances | proved | Pickle, core | renaming of instances commutes with ==, comparability and admission (induction on values and types); equality by induction on the rank of instances and C28; independence by C69 | Pickling itself is Python's: the model is that the `__dict__` of every instance is copied, since the library defines no hooks for it. C100_alias_unequal shows that a Renamed property for one that holds an instance makes the unpickled instance unequal to the original, C100_cycle_unequal that an instance in a cycle does not equal its twin. |
| C101 ValidationErrors say what failed | proved | core | invariant of states (collected tuples, calls of hooks) and of errors, by induction on the recursion limit through every method | User code that raises ValidationError(..., _error_tuples=[]), a private parameter, is excluded; C101_dropped shows that the constructor drops such an error silently. |
| C102 Listeners cannot redirect an assignment | proved | ChangeDict over Core | inversion of the assignment into phases, induction on the listeners; refinement: equality with the main model for listeners that replace the value | A listener is any function from the dictionary and the state to both, so the theorems do not depend on what user code can express. Within one phase a listener gets what the one before left. |
| C103 The order of keywords does not matter | proved | Core | each assignment during initialisation is a function of the value and the value stored before (`setattr_out`); induction over the keywords; stores under different names commute; induction over the permutation | Values whose validation builds instances or draws a random colour are excluded (Still), as are properties that compare instances (Visits) and a recursion limit below the depth of a declaration. Errors other than ValidationErrors may differ between orders. The error hook of the class is the default one. |
| C104 Properties without listeners are variables of their own | proved | Core | an assignment stores what validation, a function of the value (`run_quiet`, `pval_anywhere`), accepts, and changes nothing else (`op_stores`); induction over the history | The variable is specified as a fold over the operations (Spec/Variables); what is accepted is what validation gives with no instance in an empty state. Types with instances or random colours are excluded (Stirs), as is assigning `properties.undefined`, which is deleting. The error hook of the classes is the default one. |
| C105 Constructing with keywords is constructing and then assigning | proved | Core | both come to the same function of the values (`construct_out`, `assignEach_out`), by induction over the keywords; validation during and after a construction is the same function (`run_pval`, `run_quiet`), whose ValidationErrors have error tuples (`pval_telling`) | Up to the record of calls of the default error hook, which has no effect. Values whose validation builds instances or draws a random colour are excluded (Still), as are properties that compare instances (Visits) and a recursion limit below the depth of a declaration. With other exceptions than ValidationErrors the constructor may raise another one than the first assignment that fails. With listeners the two differ: C103_listeners_matter and C15. |
| C106 Programs cannot tell in which order values were assigned | proved | Core | a relation between states (`SameWorld`) kept by every body of the interpreter (`run_blind`), by induction over the recursion limit, and by every program (`blind_execProg`), by induction over the program; the keywords by C103; serialize() by induction over the recursion limit, side by side in both states (`hpSerialize_both`) | serialize() without save_dynamic writes the keys in the order of the assignments, and copy() goes through it, so both are excluded; C106_example shows a state where serialize() differs. C106_serialize takes registered serializers that only compute (TameWorld, as in C22) and instances that store one value per name, as dictionaries do. Pickling, which stores the values in their order, is modelled apart (C100) and not part of these programs. |
| C107 The order of the entries of the input of deserialize does not matter | proved | Core | the values read from the entries are permuted with them (`propState_perm`, `both_perm`); the assignments are those of keywords (C103) and end in states that differ in the order of values only; what follows cannot tell them apart (C106) | Taken with trusted=False, so that the class is the one deserialize is called on. Which exception is raised may differ: with several bad entries the first one met is reported. |
| C108 Copies do not depend on the order in which values were assigned | proved | Core | serialize() gives the same entries in another order (`plainSerialize_both`, or C106 and `sameJson_flat`); deserialize does not depend on it (C107); what is left cannot tell the states apart (C106) | C108_flat takes serializers that only compute, as C106_serialize; both take, as C107, a class without error hook and listeners for the names written, and trusted=False. |
| C109 Deserialize ignores keys that name no property | proved | Core | by induction over the entries of the input (`Ign.get_filter`, `Ign.state_filter`); what follows only uses the class and the entries that name properties | With strict such keys are refused (C26). C109_empty is taken with trusted=False and assert_valid=False. |
| C110 strict and assert_valid only refuse | proved | Core | strict: by induction over the recursion limit, side by side with and without it (`Strict.le_rec`); assert_valid: through the phases of deserialize | With Unions strict may choose another alternative: C110_example shows input that is read as an instance of the first class without strict and of the second with it. Custom deserializers are given the options and may do anything with them. |
| C111 trusted matters only for input that names a class | proved | Core | by induction over the recursion limit, side by side with and without trusted (`Trust.rec_same`), through containers, instances and Unions | C111_example shows input with a __class__ inside that is read differently. Custom deserializers are given the options and may do anything with them. |
| C113 Without trusted and strict, names of classes in the input make no difference | proved | Core | by strong induction over the recursion limit, side by side on the two inputs (`Tag.rec_tag`); the relation Tagged says which dictionaries may differ | C113_example: a nested list of instances with right, wrong and missing names, and that strict does look at them. Inputs of Unions and of properties with custom deserializers are the same on both sides. |
| C115 Copies do not depend on trusted and strict where instances are of the classes declared | proved | Core | what serialize returns is related by Written at the property it belongs to (`Tagd.hp_tag`, by strong induction over the recursion limit); reading such data does not depend on trusted and strict (`Led.rec_wri`) | C115_example: an instance with a list of two others meets the hypotheses; with an instance of a subclass the copies differ. |
| C112 include_class only adds the names of classes | proved | Core | by induction over the recursion limit, side by side with and without the option (`Plus.hp_both`), with the relation PlusClass between the two results | TameWorld: stored values belong to properties stored under their own names, and trying the alternatives of a Union builds no instances; save_dynamic is off. C112_example shows nested instances. Which dictionaries get the entry is stated with the form of serialized data in other claims. |
| C114 Copies do not depend on include_class | proved | Core | what serialize returns with and without the option is related by Labelled at the property it belongs to (`Tagc.hp_tag`, by strong induction over the recursion limit); then reading the two, side by side (`Lab.rec_lab`) | C114_example: an instance with a list of two others. Instances of subclasses are left out: their data, read as the declared class, may meet other property types. |

Where a claim is false in some corner, the statement in `properties.jsonl` says so
and the corner is proved as a theorem (names ending in `_breaks`, `_not_…`,
`_false_…`, `_twice`, and so on).  `partial` claims have theorems with the suffix
`_partial`; the comment there says what is missing.

## 3. Hypotheses that occur in the theorems

All are defined in `Verif/Spec`, and each is met by an example beside the theorem.

* *Read-only user code* (`ReadOnly`, C09-C12, C29): callbacks make no set, delete,
  reset or listener registration; they may read, compare, serialize, validate,
  construct, copy.  `Quiet` excludes validation too (the exact log of C11).
* *No substitution* (`NoSubstitution`, C01): validators do not replace the value.
* *Validation* (`Looks`, `Prompt`, `Calm`, `Tidy`; C17, C18, C21, C31): default error
  hooks; getters and validators only read; reading an attribute ends within depth
  `K`; declarations are nested at most `D` deep; checks build no new instances and
  raise only errors the library handles (C18: only ValidationErrors).
* *Serialization* (`Tame`, `Fine`, `Expressible`; C22, C23, C80): registered serializers
  that compute an answer or raise (`Answers`, `Raises`: without calling back into the
  library), for C22 with JSON data and None for None only; `save_dynamic=False`, Union
  alternatives that build no instances, values that have a JSON form.
* *Round trip* (`Canon`, `Held`; C24): scalars whose JSON form reads back (proved for
  the scalar types), containers and instances of these, and Unions whose value is refused
  by the earlier alternatives and whose data is read by the same alternative (`ReadBy`;
  sufficient conditions in `readBy_own_class`, `readBy_first` and `unread_*`; without
  `strict_instances`, not read-only, without default); scalars with a registered
  serializer or deserializer whose answers are inverse (`Canon.custom`), none on containers
  and Instances; no function defaults; unset properties have no default.
* *Equality* (`Comparable`, `LawfulEq`; C28, C49): no dynamic properties; external
  `==` of opaque values is reflexive, symmetric, transitive.
* *Idempotence* (`Repeatable`, `StableText`; C02): Strings whose own result is a fixed
  point of strip, case and regex; Unions in which no alternative changes a value that a
  later alternative may hold (`Settled`), validated where error hooks do not run.
* *Untrusted input* (`Spares`, `Sober`, `Indirect`; C25): user functions construct and
  trust only foreseen classes.
* *Construction* (C15, C16): user code does not set properties of the new instance by
  itself; keywords `self` and `cls` collide with parameters.
* *Transparency* (`Transparent`; C58, C17, C21): user code does not handle
  RecursionError.
* *Uid* (C43-C45): listeners are enabled, uuid4 gives identifiers not guessed before,
  flat dictionaries whose entries carry the uid of their key.

## 4. Trusted base
* Lean 4.33 kernel.  No `native_decide`, no `bv_decide`, no added axioms, no `sorry`.
  `decide +kernel` is used for concrete examples and for the whole table of colours.
* The correspondence between the Lean definitions and the Python text is by reading;
  every definition cites its lines.
* The statements in `Verif/Spec` and `Verif/Props`.
* The behaviour of the Python features listed in section 1 (dictionaries keep
  insertion order, `finally`, attribute lookup, C3), as modelled.

Axioms of the theorems in `MANIFEST.json`:

* no axioms: C92_declarations, stable_plain

* `propext`: AnyInst.C85_array, AnyInst.C85_assign, C08_example, C100_cycle, C25_example_foreseen, C30_errors, C32_errors, C72_names_example, C92_example_fns, ChoiceSet.C83_case_later, ChoiceSet.C83_example, ChoiceSet.C83_refused, ChoiceSet.C83_shared, ChoiceSet.C83_stale, Cls.C35_false_for_diamonds, Cls.C36_example, Cls.C61_false_for_diamonds, Cls.C62_false_after_removal, ContCls.C88_example, Decl.C67_classes, DocText.C99_default, DocText.C99_default_called, DocText.C99_example, DocText.C99_example_class, DocText.C99_name, Dynamic.C78_example_current, Files.C65_mode_later, Files.C65_name_no_mode, Files.C65_name_refused, Files.C65_reported, Files.C65_wb_plus, Handlers.C13_same_object_nested_breaks, LinkArgs.C86_left_behind_example, LinkArgs.C86_link_refused, LinkArgs.C86_refused_example, Links.C40_delete_source, Links.C40_inconsistent_cycle, Links.C40_rejected_by_target, Links.C42_example, Msg.C90_alternatives, Msg.C90_cast, Msg.C90_mentions, Msg.C90_message_subject, Obs.C47_alias_operator, Obs.C47_example, Obs.C47_inner_container, Obs.C47_rejected_operator, Obs.C48_example, Png.C55_example, Png.C55_moved_stream, Single.C46_start, StaticJson.C87_example, StaticJson.C87_nested, StaticJson.C87_no_sequence, StopRec.C56_example, Tags.C91_accepts, Tags.C91_example, Tags.C91_shared, Uid.C43_listeners_disabled, Uid.C43_refused, Uid.C43_stays_taken, Uid.C43_wrong_key, Uid.C44_example, Uid.C44_example_graph, Uid.C44_root_key, Uid.C45_diamond, Uid.C45_untrusted_example, Uid.C45_valid_example, Uid.C66_instance, Uid.C66_raises, Uid.C66_refused, Uid.C66_text, Url.C52_example, Url.C52_other_scheme, Url.C52_value_error, Warnings.C96_declare, c75List_bare

* `Quot.sound`, `propext`: Alias.C63_contents, AnyInst.C85_accepts, AnyInst.C85_kept, AnyInst.C85_refuses, AnyInst.C85_valid, ArrJson.C64_no_number, ArrJson.C64_plain, ArrJson.C64_ragged, ArrJson.C64_shape, C01_empty, C05_declares_names, C05_declares_table, C07_early_years, C08_range, C100_well_typed, C102_core, C102_removed, C34_deserialize_reads, C72_refused, C98_improper, C98_regular, Cls.C35_mro, Cls.C36_alphabetical, Cls.C36_documented_once, Cls.C57_sees_registry, Cls.C61_defaults_accepted, Cls.C61_nearest_default, Cls.C62_observed, Cls.C62_renamed, Decl.C67_accepted, Decl.C67_declared, Decl.C67_none, Decl.C67_settings, Decl.C67_settings_example, DocText.C99_document, Files.C65_declared, Files.C65_declared_opens, Files.C65_declares, Files.C65_delete, Files.C65_delete_closes, Files.C65_delete_refused, Files.C65_name_accepted, Files.C65_name_opens, Files.C65_object, Handlers.C14_interleaving_breaks, Limits.C31_limits, Limits.C59_min_le_max, Limits.C59_nan_breaks, Limits.C59_setting, Links.C42_relink, Links.C42_unlinked, Msg.C90_example, Msg.C90_message_length, Msg.C90_sequence, Msg.C90_shown, Msg.C90_shown_length, Png.C55_injective, Png.C55_reads_back, Png.C55_round_trip, Png.C55_signature, Png.C55_signature_elsewhere, Png.C55_validate_file, Single.C46_dictionary_consumed, Single.C46_example, Single.C46_nested, Single.C46_one_instance, Single.C46_reentered, Single.C46_registered, Single.C46_rename, Single.C46_round_trip, Single.C46_unnamed, StaticJson.C87_restores, StopRec.C56_once, StopRec.C56_result, StopRec.C56_terminates, Tags.C91_rejected, Uid.C43_example, Uid.C43_unique, Uid.C44_defined, Uid.C44_flat, Uid.C45_terminates, Uid.C45_untrusted, Uid.C45_valid, Uid.C66_held, Uid.C66_load, Uid.C66_resolves, settled_instances, settled_plain, stable_cased, stable_regex

* `Classical.choice`, `Quot.sound`, `propext`: Alias.C63_new, Alias.C63_property, AnyInst.C85_example, AnyInst.C85_no_return, AnyInst.C85_serialize, Arr.C53_accepts, Arr.C53_example, Arr.C53_rejects, Arr.C54_example, Arr.C54_length, Arr.C54_list_changed, Arr.C54_list_names, Arr.C54_names2, Arr.C54_names3, Arr.C54_no_length, Arr.C54_other_names, Arr.C54_tuple_names, ArrDecl.C79_accepts, ArrDecl.C79_allowed, ArrDecl.C79_coerce, ArrDecl.C79_dtype, ArrDecl.C79_example, ArrDecl.C79_length, ArrDecl.C79_length_positive, ArrDecl.C79_no_shape, ArrDecl.C79_shape, ArrDecl.C79_vectors, ArrJson.C64_equal, ArrJson.C64_ints_to_floats, ArrJson.C64_no_rows, ArrJson.C64_reads, ArrJson.C64_round_trip, ArrJson.C64_values, ArrJson.C64_values_example, ArrJson.C68_equal_iff, ArrJson.C68_example, ArrJson.C68_nan_differs, ArrJson.C68_not_symmetric_tol, ArrJson.C68_not_transitive, ArrJson.C68_types, ArrMsg.C97_agrees, ArrMsg.C97_coerce, ArrMsg.C97_contains, ArrMsg.C97_described, ArrMsg.C97_example, ArrMsg.C97_given, ArrMsg.C97_nameless, ArrMsg.C97_no_length, ArrMsg.C97_reason, ArrMsg.C97_subject, C01_private_keyword_breaks, C01_read_admitted, C01_stored_values_admitted, C01_substitution_breaks, C01_validated_value_admitted, C02_example, C02_idempotent, C02_later, C02_string_not_idempotent, C02_union_not_idempotent, C02_unions, C02_unions_example, C03_float_accepts, C03_float_accepts_int, C03_float_in_bounds, C03_float_refuses, C03_integer_accepts, C03_integer_cast_accepts, C03_integer_in_bounds, C03_integer_infinity_overflows, C03_integer_refuses, C03_integer_rejects, C03_nan_ignores_bounds, C04_no_strip_char_at_ends, C04_string_accepts, C05_choice_accepts, C05_choice_fixed, C05_names_accept, C05_order_irrelevant, C06_firebrick_missing, C06_idempotent, C06_named, C06_random, C06_result_is_rgb, C06_six_digits, C06_three_digits, C06_triples, C07_accepts, C07_example, C07_injective, C07_only_moments, C07_property, C07_reads_back, C07_short, C07_text, C08_injective, C08_property, C08_reads_back, C08_spellings, C09_busy, C09_failed_assignment, C09_invalid_value, C09_invalid_value_dynamic, C100_alias_unequal, C100_cycle_unequal, C100_equal, C100_example, C100_faithful, C100_independent, C100_read, C101_dropped, C101_example, C101_kept, C101_program, C101_tells, C102_assignment, C102_example, C103_example, C103_listeners_matter, C103_order, C103_reads, C104_commute, C104_example, C104_history, C104_outcome, C104_reads, C105_assign, C105_example, C106_calls, C106_example, C106_keywords, C106_programs, C106_serialize, C106_serialize_example, C107_example, C107_order, C107_programs, C107_raises, C108_copy, C108_example, C108_flat, C109_empty, C109_example, C109_ignored, C10_busy, C10_no_validators, C10_read_after_assignment, C110_assert, C110_example, C110_strict, C111_example, C111_trusted, C112_example, C112_include_class, C113_example, C113_untrusted, C114_copy, C114_example, C115_copy, C115_example, C11_assignment, C11_assignment_observers, C11_busy, C11_busy_deletion, C11_deletion, C12_busy, C12_change_observers, C15_defaults, C15_keyword_coerced, C15_keyword_example, C15_keyword_values, C15_keywords, C15_silent, C16_construct, C16_one_tuple, C16_succeeds, C16_unknown, C17_example, C17_valid, C17_validate, C18_example, C18_report, C19_histories_end_idle, C19_markers_restored, C20_histories_keep_quarantine, C20_quarantine_restored, C21_terminates, C22_example, C22_serialize, C22_typed, C23_acyclic, C23_cycle, C23_ends, C23_example, C24_copy, C24_deleted_comes_back, C24_equal, C24_example, C24_function_default, C24_round_trip, C24_union_example, C24_union_integer_float, C24_union_integer_string, C24_union_list_string, C25_classes, C25_example, C25_nested, C25_property, C25_top, C26_foreign_class_rejected, C26_unknown_key_rejected, C26_unknown_keys_ignored, C27_assert_valid_after, C27_built_example, C27_built_instance, C27_example, C27_nested_union_calls, C27_no_listener_called, C27_property, C28_alias_changes_equality, C28_answer, C28_cycle_not_symmetric, C28_decides, C28_example, C28_float_not_transitive, C28_refl, C28_symm, C28_trans, C29_data_unchanged, C29_histories, C29_no_listener_called, C30_dict_accepted, C30_dict_accepts, C30_dict_coerce, C30_dict_key_rejected, C30_dict_kind, C30_seq_accepted, C30_seq_accepts, C30_seq_kind, C30_seq_rejected, C31_lengths, C32_all_rejected, C32_cases, C32_first_alternative, C32_other_errors_pass, C33_deserialize_escapes, C33_deserialize_first, C33_deserialize_named, C33_deserialize_none, C33_serialize, C34_partition, C34_splits, C37_cycle, C37_del, C37_get, C37_keyword, C37_set, C38_keyword_rejected, C38_never_stored, C38_new_not_stored, C38_no_deleter, C38_no_setter, C38_read_admitted, C38_set_validated, C39_immutable_kept, C39_reads_agree, C49_dict, C49_dict_example, C49_dict_lists, C49_example, C49_items, C49_set, C49_set_order, C49_tolerance_order, C50_accepted, C50_assign, C50_busy, C50_construct, C50_example_union, C50_union, C50_validate, C57_class_lookup, C58_histories, C58_limit_irrelevant, C58_needs_transparency, C60_called_twice, C60_keywords, C60_same_for_both, C60_type_error_calls_again, C60_value_only, C69_calls, C69_copy, C69_default_shared, C69_deserialize, C69_deserialize_frame, C69_example, C69_independent, C69_programs, C69_property_shared, C70_example, C70_histories, C70_round_trip, C70_scalar, C71_accepts, C71_builds, C71_example, C71_own_default, C71_own_example, C71_refused_dictionary, C71_refuses, C72_assignment, C72_deletion, C72_endless, C72_endless_example, C72_every_listener, C72_example, C72_lasting, C72_observer, C72_same, C72_validator, C73_all, C73_assigns, C73_example, C73_fails, C73_like_new, C73_one, C73_refused, C73_refused_example, C75_accepts, C75_again, C75_constructs, C75_declared, C75_default, C75_default_iff, C75_in_force, C75_inherited_unchecked, C75_inner, C75_union_default, C75_union_iff, C75_union_value, C76_any, C76_boolean, C76_boolean_cast, C76_complex, C76_complex_refuses, C76_datetime, C76_float, C76_integer, C76_refuses, C76_uuid, C80_deserializer, C80_every_depth, C80_example, C80_refused, C80_run_twice, C80_serializer, C81_example, C81_keys, C81_loaded, C81_not_json, C81_saved, C82_boolean, C82_complex, C82_distance, C82_example, C82_float, C82_integer, C82_laws, C82_mixed, C82_mixed_example, C82_other, C82_whole, C84_again, C84_assumed, C84_defined, C84_example, C84_keys, C84_number_keys, C84_read, C84_same, C84_transit, C89_boolean, C89_boolean_example, C89_example, C89_property_nan, C89_reads, C89_strict, C89_writes, C92_answers, C92_answers_example, C92_comparing, C92_deserializing, C92_example, C92_foreign, C92_occurs, C92_own, C92_plain, C92_program, C92_serializing, C92_validate, C92_values, C92_values_example, C93_example, C93_example_infinite, C93_history, C93_infinite, C93_validate, C94_copy, C94_example, C94_exponential, C94_separate, C94_tree, C95_determined, C95_example, C95_into, C95_not_atomic, C95_refused, C95_silent, C95_strict, C95_taken, C98_data, C98_example, C98_program, C98_proper, C98_read, C98_validate, ChoiceSet.C83_accepts, ChoiceSet.C83_choices, ChoiceSet.C83_descriptions, ChoiceSet.C83_dictionary, ChoiceSet.C83_info, Cls.C35_one_line, Cls.C35_single_inheritance, Cls.C57_own_name, Cls.C57_registry, Cls.C57_trusted_lookup, ContCls.C88_again, ContCls.C88_always, ContCls.C88_bounded, ContCls.C88_coerced, ContCls.C88_coerced_example, ContCls.C88_example_hypotheses, ContCls.C88_refused, ContCls.C88_registry, ContCls.C88_retained, ContCls.C88_shared, Decl.C67_default, Decl.C67_order, DocText.C99_declared, DocText.C99_declared_determined, DocText.C99_entry, DocText.C99_lines, DocText.C99_type, DocText.C99_type_determined, Dynamic.C78_assign, Dynamic.C78_current, Dynamic.C78_decorate, Dynamic.C78_delete, Dynamic.C78_example, Dynamic.C78_read, Dynamic.C78_register, Files.C65_assign, Files.C65_assign_closes_nothing, Files.C65_stays, Handlers.C13_inside_disabled, Handlers.C13_restores, Handlers.C14_exit, Handlers.C14_interleaving, Handlers.C14_lifo, LinkArgs.C86_accepted, LinkArgs.C86_example, LinkArgs.C86_in_step, LinkArgs.C86_left_behind, LinkArgs.C86_link, LinkArgs.C86_link_made, LinkArgs.C86_link_returns, LinkArgs.C86_refused, LinkArgs.C86_update_now, LinkProg.C77_composed, LinkProg.C77_composed_exact, LinkProg.C77_composed_example, LinkProg.C77_exact, LinkProg.C77_example, LinkProg.C77_history, LinkProg.C77_in_step, LinkProg.C77_link, LinkProg.C77_operation, LinkProg.C77_plain, LinkProg.C77_reads, LinkProg.C77_start, LinkProg.C77_terminates, LinkProg.C77_unlinked, Links.C40_cycle_example, Links.C40_example, Links.C40_group, Links.C40_in_step, Links.C40_link, Links.C40_no_change, Links.C40_no_change_example, Links.C40_pushes, Links.C41_between, Links.C41_delete_terminates, Links.C41_terminates, Links.C42_resumes, Msg.C90_bounds, Msg.C90_choices, Msg.C90_described, Msg.C90_kind, Msg.C90_numbers, Names.C74_alias, Names.C74_alias_example, Names.C74_apart, Names.C74_apart_example, Names.C74_history, Names.C74_other_class, Names.C74_other_class_example, Obs.C47_always_valid, Obs.C47_as_assignment, Obs.C47_outcome, Obs.C48_stale, StaticJson.C87_dictionary, StaticJson.C87_from, StaticJson.C87_instance, StaticJson.C87_no_dictionary, StaticJson.C87_plain_items, StaticJson.C87_sequence, StaticJson.C87_union, Tags.C91_history, Tags.C91_isolated, Tags.C91_made, Tags.C91_rebuilt, Tags.C91_separate, Tags.C91_set_terms, Tags.C91_settings, Tags.C91_terms, Task.C51_bad_input, Task.C51_call, Task.C51_example, Task.C51_returns, Task.C51_status, Task.C51_status_example, Task.C51_status_raises, Uid.C45_example, Uid.C45_isomorphic, Uid.C45_round_trip, Uid.C45_twice_raises, Url.C52_idempotent, Url.C52_normal, Url.C52_removed, Warnings.C96_count, Warnings.C96_error, Warnings.C96_example, Warnings.C96_new_name, Warnings.C96_warns, c75Either_ok, c75_one, canon_bool, canon_choice, canon_color, canon_datetime, canon_datetime_any, canon_float, canon_int, canon_string, canon_uuid, canon_uuid_any, readBy_first, readBy_own_class, unread_dictionary, unread_instance, unread_refused, unread_scalar, unread_sequence
