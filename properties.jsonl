{"id": "C01", "title": "Stored values always have their declared type", "statement": "After any history of public operations (construct, set, delete, reset, deserialize, copy, validate, compare, with listeners and getters themselves running such operations), every value an instance stores for a property is one that the property type admits: a Boolean holds a bool, an Integer an int inside min/max, a List a list of admitted items, an Instance an object of the class, and so on - as long as no validator listener substitutes the value and no private attribute name is passed as a keyword.", "quantifier": "all class tables, property declarations, user callback programs, initial worlds and finite operation histories", "why_tests_cant": "The claim is an invariant over unboundedly long histories with re-entrant user code; tests fix a handful of histories.", "anchors": [{"file": "properties/base/base.py", "symbol": "HasProperties._set"}, {"file": "properties/base/base.py", "symbol": "HasProperties.__init__"}, {"file": "properties/base/base.py", "symbol": "HasProperties.deserialize"}, {"file": "properties/basic.py", "symbol": "Property.get_property"}, {"file": "properties/base/containers.py", "symbol": "Tuple.validate"}, {"file": "properties/base/instance.py", "symbol": "Instance.validate"}, {"file": "properties/base/union.py", "symbol": "Union.validate"}]}
{"id": "C02", "title": "Validation is idempotent", "statement": "If a property type accepts v and coerces it to v1, then it accepts v1 and returns v1 again. (The documentation requires this; it is false for some String and Union configurations.)", "quantifier": "all values and all property declarations, including arbitrarily nested containers", "why_tests_cant": "Inputs and nesting are unbounded and the failing configurations are corner cases of strip/case/regex/union order.", "anchors": [{"file": "properties/basic.py", "symbol": "GettableProperty.validate"}, {"file": "properties/basic.py", "symbol": "String.validate"}, {"file": "properties/base/union.py", "symbol": "Union.validate"}, {"file": "properties/base/containers.py", "symbol": "Tuple.validate"}]}
{"id": "C03", "title": "Integer and Float accept exactly the numbers near the type and inside the bounds", "statement": "Integer accepts a number iff it is within 1e-9 of its truncation and the truncation lies in [min,max], returning the truncation; Float accepts every bool, every int that fits a float and every finite float inside [min,max] and returns a float. An accepted value lies inside [min,max] (except NaN, which a Float accepts whatever the bounds), and whatever is not accepted raises ValidationError (except infinities for Integer and ints too large for Float, which raise OverflowError).", "quantifier": "all integers, all floats including nan and infinities, all bounds", "why_tests_cant": "The domain is infinite and the exceptions sit on special floats.", "anchors": [{"file": "properties/basic.py", "symbol": "Integer.validate"}, {"file": "properties/basic.py", "symbol": "Float.validate"}, {"file": "properties/basic.py", "symbol": "_in_bounds"}]}
{"id": "C04", "title": "String normal form", "statement": "A String accepts exactly the strings its regex matches and returns the string with the strip characters removed from both ends and then the case changed; the result has no strip character at either end when case is unchanged.", "quantifier": "all strings, strip sets, case settings and regular expressions", "why_tests_cant": "Strings are unbounded and strip/case interact character by character.", "anchors": [{"file": "properties/basic.py", "symbol": "String.validate"}]}
{"id": "C05", "title": "StringChoice picks the one matching choice", "statement": "Every accepted input is mapped to a declared choice; an input is accepted iff it equals (up to case unless case_sensitive) a choice or one of its aliases; because the declaration rejects duplicates at most one choice can match, so the result does not depend on the order of the choices; validating a choice returns that choice. A collection of names is accepted as declaration exactly if no two of them are the same choice, and then has no aliases; a dictionary exactly if no two of its choices and aliases are.", "quantifier": "all declarations and all inputs", "why_tests_cant": "Quantifies over all declarations and inputs; uniqueness is an invariant established by the setter.", "anchors": [{"file": "properties/basic.py", "symbol": "StringChoice.validate"}, {"file": "properties/basic.py", "symbol": "StringChoice.choices"}]}
{"id": "C06", "title": "Color always yields an RGB triple", "statement": "Every accepted color is coerced to a tuple of three integers in 0..255; hex strings decode to their digit pairs, three digit forms are doubled; every named color is accepted and decodes to its table entry; every result is accepted again unchanged.", "quantifier": "all strings, lists and tuples", "why_tests_cant": "Unbounded input strings; the python int parser accepts more than hex digits.", "anchors": [{"file": "properties/basic.py", "symbol": "Color.validate"}, {"file": "properties/basic.py", "symbol": "COLORS_NAMED"}, {"file": "properties/basic.py", "symbol": "COLORS_20"}]}
{"id": "C07", "title": "DateTime survives JSON", "statement": "A DateTime written by to_json and read by from_json gives the same moment truncated to whole seconds, for years from 1000 on; the short date form gives midnight. Text is read exactly if it is, as a whole, of one of these two forms and denotes a moment of the calendar; everything else is refused.", "quantifier": "all calendar-valid datetimes", "why_tests_cant": "All dates; padding and month length cases are too many for examples.", "anchors": [{"file": "properties/basic.py", "symbol": "DateTime.to_json"}, {"file": "properties/basic.py", "symbol": "DateTime.from_json"}]}
{"id": "C08", "title": "Uuid survives JSON", "statement": "Reading the text form of any UUID gives that UUID back, and different UUIDs have different text forms. The spellings without dashes, in braces, or with urn:uuid: in front are read as the same UUID.", "quantifier": "all 128 bit identifiers", "why_tests_cant": "2^128 values.", "anchors": [{"file": "properties/basic.py", "symbol": "Uuid.to_json"}, {"file": "properties/basic.py", "symbol": "Uuid.from_json"}]}
{"id": "C09", "title": "A rejected assignment changes nothing", "statement": "If assigning to a property raises because the value is invalid, or because a validator listener raises, then the stored value of that property and of every other property of every pre-existing instance is unchanged and no observer has been called.", "quantifier": "all instances, properties, values and listeners; listeners that modify other instances: the claim then is about the instance assigned to", "why_tests_cant": "Crash-atomicity over all inputs and failure points.", "anchors": [{"file": "properties/basic.py", "symbol": "Property.get_property"}, {"file": "properties/base/base.py", "symbol": "HasProperties._set"}]}
{"id": "C10", "title": "A successful assignment stores exactly the coerced value", "statement": "After x.p = v succeeds, x.p reads the coerced value (as amended by validators), all other properties of x and all other instances are unchanged; assigning undefined or deleting makes x.p read None.", "quantifier": "all instances, properties, values and listeners that do not write, or (for the instance assigned to) write other instances only", "why_tests_cant": "Frame property over all objects in the heap.", "anchors": [{"file": "properties/basic.py", "symbol": "Property.get_property"}, {"file": "properties/base/base.py", "symbol": "HasProperties._set"}, {"file": "properties/base/base.py", "symbol": "HasProperties._get"}]}
{"id": "C11", "title": "Listener protocol", "statement": "Each assignment calls, in registration order and exactly once each, first all enabled validators with the old value still stored, then (after storing) all enabled change observers iff the value changed, then all enabled set observers; each receives the name, the previous value (or undefined) and the value as amended by validators.", "quantifier": "all listener tables, values and callbacks that do not write, or write other instances only", "why_tests_cant": "Ordering and exactly-once over unboundedly many listeners.", "anchors": [{"file": "properties/base/base.py", "symbol": "HasProperties._set"}, {"file": "properties/base/base.py", "symbol": "HasProperties._notify"}, {"file": "properties/handlers.py", "symbol": "_get_listeners"}]}
{"id": "C12", "title": "Change observers fire exactly on change", "statement": "Observers registered with change_only run iff exactly one of old and new value is undefined, or both are defined and not equal according to the property type.", "quantifier": "all property types, value pairs and callbacks that do not write the instance", "why_tests_cant": "All pairs of values.", "anchors": [{"file": "properties/base/base.py", "symbol": "HasProperties._set"}, {"file": "properties/handlers.py", "symbol": "observer"}]}
{"id": "C13", "title": "listeners_disabled restores what it found", "statement": "For well nested uses of distinct context objects, whatever exceptions escape, the set of disabled listener modes after a with block equals the set before it; inside, every requested mode is disabled.", "quantifier": "all nestings, disable types and exception points", "why_tests_cant": "Arbitrary nesting depth and exception points.", "anchors": [{"file": "properties/handlers.py", "symbol": "listeners_disabled.__enter__"}, {"file": "properties/handlers.py", "symbol": "listeners_disabled.__exit__"}]}
{"id": "C14", "title": "listeners_disabled under interleaving", "statement": "Whatever other contexts are entered and left in between (two threads), leaving a context makes the disabled modes those it found when it was entered. So once all contexts are closed the disabled modes are those the context closed last found at its entry: the initial state is restored when the exits are in reverse order of the entries, and otherwise can stay changed (two overlapping contexts can leave every listener disabled forever).", "quantifier": "all interleavings of enter and exit operations of any number of contexts", "why_tests_cant": "Schedules.", "anchors": [{"file": "properties/handlers.py", "symbol": "listeners_disabled"}, {"file": "properties/base/base.py", "symbol": "PropertyMetaclass.__call__"}]}
{"id": "C15", "title": "Construction sets defaults silently and in precedence order", "statement": "A new instance holds, for each property not given as keyword, the class default dictionary entry if there is one, else the property default (called if callable), coerced; no listener is called for defaults. For each property given as keyword it holds what the validators left of the coerced keyword value.", "quantifier": "all class tables and default declarations", "why_tests_cant": "All classes.", "anchors": [{"file": "properties/base/base.py", "symbol": "PropertyMetaclass.__call__"}, {"file": "properties/base/base.py", "symbol": "HasProperties._reset"}]}
{"id": "C16", "title": "Construction reports all invalid keywords together", "statement": "All accepted keywords are assigned in order whatever fails. If some assignments raise a ValidationError the constructor raises one ValidationError carrying all their error tuples in keyword order (one tuple for a value that its property rejects), after one call of the error hook; otherwise the first other handled error is raised. A keyword that is neither a non-dynamic property nor an attribute of the class makes the constructor raise AttributeError.", "quantifier": "all keyword dictionaries", "why_tests_cant": "Any number of keywords.", "anchors": [{"file": "properties/base/base.py", "symbol": "HasProperties.__init__"}]}
{"id": "C17", "title": "validate() accepts exactly valid instances", "statement": "x.validate() returns True iff every required property is set, every stored value is unchanged by re-validation up to the property equality, container lengths are within limits, referenced instances are valid, validators do not object and all class validators pass; otherwise it raises.", "quantifier": "all instances, including nested and cyclic graphs", "why_tests_cant": "Quantifies over all object graphs.", "anchors": [{"file": "properties/base/base.py", "symbol": "HasProperties.validate"}, {"file": "properties/base/base.py", "symbol": "HasProperties._validate_props"}, {"file": "properties/basic.py", "symbol": "Property.assert_valid"}]}
{"id": "C18", "title": "validate() reports every failing property", "statement": "When the checks of an instance raise nothing but ValidationErrors and validate() raises, then what it raises is a ValidationError whose error tuples contain a non-empty group for every failing property and none for the others, in declaration order, and the error hook of that instance has been called exactly once, last and with these tuples. (A check that raises another error ends the loop over the properties.)", "quantifier": "all classes and instances", "why_tests_cant": "Unbounded numbers of properties.", "anchors": [{"file": "properties/base/base.py", "symbol": "HasProperties.validate"}, {"file": "properties/base/base.py", "symbol": "HasProperties._validate_props"}]}
{"id": "C19", "title": "Recursion guards are restored", "statement": "After validate, serialize, equal, construct, deserialize or copy finishes - by return or by any exception, including recursion errors, and whatever user callbacks did - every pre-existing instance has the same in-progress markers (being validated, serialized, compared) as before, so no later call is wrongly short-circuited.", "quantifier": "all calls, outcomes, callback programs and recursion limits", "why_tests_cant": "Crash points: every possible exception point.", "anchors": [{"file": "properties/base/base.py", "symbol": "HasProperties.validate"}, {"file": "properties/base/base.py", "symbol": "HasProperties.serialize"}, {"file": "properties/base/base.py", "symbol": "equal"}]}
{"id": "C20", "title": "Listener quarantine is restored by every operation", "statement": "After any public operation, by return or exception, the set of disabled listener modes is what it was before.", "quantifier": "all calls, outcomes and callback programs", "why_tests_cant": "Crash points.", "anchors": [{"file": "properties/base/base.py", "symbol": "PropertyMetaclass.__call__"}, {"file": "properties/base/base.py", "symbol": "HasProperties.deserialize"}, {"file": "properties/handlers.py", "symbol": "listeners_disabled"}]}
{"id": "C21", "title": "validate() terminates on cyclic graphs", "statement": "validate() on an instance finishes for every finite object graph, including cycles, within a recursion depth bounded linearly by the number of instances and the declared nesting.", "quantifier": "all finite object graphs", "why_tests_cant": "All cyclic shapes.", "anchors": [{"file": "properties/base/base.py", "symbol": "HasProperties.validate"}, {"file": "properties/base/instance.py", "symbol": "Instance.assert_valid"}]}
{"id": "C22", "title": "serialize() output is plain JSON data with exactly the set properties", "statement": "On success x.serialize() is a dictionary whose keys are exactly the names of the properties with a value, plus __class__ with the class name when include_class; values are built only from None, bools, numbers, strings, lists and dictionaries.", "quantifier": "all instances whose property types have JSON forms", "why_tests_cant": "All object graphs and nesting depths.", "anchors": [{"file": "properties/base/base.py", "symbol": "HasProperties.serialize"}, {"file": "properties/base/containers.py", "symbol": "Tuple.serialize"}, {"file": "properties/base/containers.py", "symbol": "Dictionary.serialize"}]}
{"id": "C23", "title": "serialize() detects self reference", "statement": "If an instance can reach itself through Instance properties, lists or dictionaries then serialize() raises SelfReferenceError instead of looping; it terminates on every finite graph.", "quantifier": "all finite object graphs", "why_tests_cant": "All cyclic shapes.", "anchors": [{"file": "properties/base/base.py", "symbol": "HasProperties.serialize"}, {"file": "properties/utils.py", "symbol": "SelfReferenceError"}]}
{"id": "C24", "title": "Serialize then deserialize rebuilds an equal object", "statement": "For every acyclic instance whose stored values are canonical for their types and whose unset properties have no default, deserialize(serialize(x)) succeeds and yields a new instance of the same class with the same values at every depth; properties.equal and copy agree. A value of a Union is canonical when the earlier alternatives refuse it and the alternative that wrote it also reads it. (False in general when a property with a default has been deleted, and for Unions like [Integer, Float] holding 2.5, which is read back as 2.)", "quantifier": "all trees of instances of any depth", "why_tests_cant": "Round trip over all values and nestings.", "anchors": [{"file": "properties/base/base.py", "symbol": "HasProperties.serialize"}, {"file": "properties/base/base.py", "symbol": "HasProperties.deserialize"}, {"file": "properties/base/base.py", "symbol": "copy"}]}
{"id": "C25", "title": "Untrusted deserialization only builds declared classes", "statement": "deserialize with trusted=False never constructs an instance whose class was named by the input: the top instance is of the class the method was called on and nested instances are of the classes named in the property declarations.", "quantifier": "all JSON inputs of any shape and depth", "why_tests_cant": "Adversarial inputs.", "anchors": [{"file": "properties/base/base.py", "symbol": "HasProperties.deserialize"}, {"file": "properties/base/base.py", "symbol": "HasProperties._deserialize_class"}, {"file": "properties/base/instance.py", "symbol": "Instance.deserialize"}, {"file": "properties/base/union.py", "symbol": "Union.deserialize"}]}
{"id": "C26", "title": "Strict deserialization rejects unknown keys and wrong classes", "statement": "With strict=True deserialize raises ValueError if the input has a key that is not a property (other than __class__), or names a different class that is not chosen through trusted lookup; without strict extra keys are ignored.", "quantifier": "all JSON inputs", "why_tests_cant": "Adversarial inputs.", "anchors": [{"file": "properties/base/base.py", "symbol": "HasProperties.deserialize"}, {"file": "properties/base/base.py", "symbol": "HasProperties._deserialize_class"}, {"file": "properties/utils.py", "symbol": "filter_props"}]}
{"id": "C27", "title": "Deserialization calls no listeners", "statement": "During deserialize no listener is called for assignments on the instance being built, nor on the instances inside it while they are built; with assert_valid the finished instance is validated afterwards. If no property has a custom deserializer, no Union has strict_instances or contains a Union, and error hooks are not overridden, no listener is called at all.", "quantifier": "all classes, listeners and inputs", "why_tests_cant": "All inputs.", "anchors": [{"file": "properties/base/base.py", "symbol": "HasProperties.deserialize"}]}
{"id": "C28", "title": "properties.equal is an equivalence on acyclic data", "statement": "equal is reflexive, symmetric on acyclic graphs, and transitive for types without tolerance. (Symmetry is false for cyclic graphs, transitivity is false for Float tolerance.)", "quantifier": "all pairs and triples of instances", "why_tests_cant": "All object graphs.", "anchors": [{"file": "properties/base/base.py", "symbol": "equal"}, {"file": "properties/basic.py", "symbol": "Float.equal"}]}
{"id": "C29", "title": "Comparison, serialization and reading do not modify data", "statement": "equal, serialize and attribute reads leave every stored value, listener table and object unchanged (when dynamic getters and serializers do not write).", "quantifier": "all object graphs and outcomes", "why_tests_cant": "Frame property.", "anchors": [{"file": "properties/base/base.py", "symbol": "equal"}, {"file": "properties/base/base.py", "symbol": "HasProperties.serialize"}]}
{"id": "C30", "title": "Containers validate item by item", "statement": "Tuple, List, Set and Dictionary accept a container iff every item (key, value) is accepted, and return a fresh container of the coerced items in the same order; with coerce a non container becomes a one element container.", "quantifier": "all containers and item types", "why_tests_cant": "Unbounded length and nesting.", "anchors": [{"file": "properties/base/containers.py", "symbol": "Tuple.validate"}, {"file": "properties/base/containers.py", "symbol": "Dictionary.validate"}]}
{"id": "C31", "title": "Container length limits are enforced by validate()", "statement": "An instance holding a tuple, list or set shorter than min_length or longer than max_length never passes validate(). A declared pair of limits always satisfies min_length <= max_length, in whatever order they are set.", "quantifier": "all containers and limits, all histories of limit changes", "why_tests_cant": "All lengths; setter histories.", "anchors": [{"file": "properties/base/containers.py", "symbol": "Tuple.assert_valid"}, {"file": "properties/base/containers.py", "symbol": "Tuple.min_length"}, {"file": "properties/base/containers.py", "symbol": "Tuple.max_length"}]}
{"id": "C32", "title": "Union takes the first alternative that accepts", "statement": "A Union accepts a value iff some alternative accepts it and returns the coercion of the first such alternative; a failing alternative only matters if it raises something other than Value/Key/Type/AttributeError.", "quantifier": "all lists of alternatives and values", "why_tests_cant": "All declarations.", "anchors": [{"file": "properties/base/union.py", "symbol": "Union._try_prop_method"}]}
{"id": "C33", "title": "Union serialization uses the alternative that accepts the value", "statement": "A union value is serialized by the first alternative that validates it, and deserialized by the alternative whose class is named, else by the first alternative which deserializes it to an accepted value, else left as is.", "quantifier": "all declarations and values", "why_tests_cant": "All declarations.", "anchors": [{"file": "properties/base/union.py", "symbol": "Union.serialize"}, {"file": "properties/base/union.py", "symbol": "Union.deserialize"}]}
{"id": "C34", "title": "filter_props splits a dictionary exactly", "statement": "The two dictionaries returned are disjoint, together contain exactly the entries of the input in order, the first holding exactly the keys that are properties (and, with include_immutable False, that are mutable or renamed).", "quantifier": "all dictionaries and classes", "why_tests_cant": "All inputs.", "anchors": [{"file": "properties/utils.py", "symbol": "filter_props"}]}
{"id": "C35", "title": "Inherited properties match the attributes", "statement": "When every ancestor has at most one base, or when the ancestors that define a name lie on one line of descent and all define it as a property, the property recorded for that name is the one attribute lookup finds (likewise observers and validators under single inheritance), so validation, documentation and attribute access agree. With diamonds, removed names or plain mixins the two can differ.", "quantifier": "all class hierarchies", "why_tests_cant": "All hierarchies and orders.", "anchors": [{"file": "properties/base/base.py", "symbol": "build_from_bases"}, {"file": "properties/base/base.py", "symbol": "PropertyMetaclass.__new__"}]}
{"id": "C36", "title": "Every documented property appears in exactly one documentation section", "statement": "The documentation order is a permutation of the documented properties and the required, optional, other and private sections partition it.", "quantifier": "all classes", "why_tests_cant": "All classes.", "anchors": [{"file": "properties/base/base.py", "symbol": "PropertyMetaclass.__new__"}]}
{"id": "C37", "title": "Renamed properties alias the new name", "statement": "Getting, setting and deleting through a Renamed name has the same effect and result as through the new name, for chains of any length that end in a real property. (A renamed cycle is accepted by the class and never terminates.)", "quantifier": "all classes and chains", "why_tests_cant": "All chains.", "anchors": [{"file": "properties/basic.py", "symbol": "Renamed.get_property"}]}
{"id": "C38", "title": "Dynamic properties are validated and never stored", "statement": "Reading a dynamic property yields None or a value accepted by its property type; assignments are validated before the setter is called; construction with a dynamic keyword raises; without a setter assignment raises; nothing is stored under its name by any of these.", "quantifier": "all getters, setters and values", "why_tests_cant": "All user getters.", "anchors": [{"file": "properties/basic.py", "symbol": "DynamicProperty.get_property"}, {"file": "properties/base/base.py", "symbol": "HasProperties.__init__"}]}
{"id": "C39", "title": "Immutable properties never change", "statement": "After construction, no set, delete, reset or validate call changes the value of a property that is not mutable (such as Uuid).", "quantifier": "all histories", "why_tests_cant": "Unbounded histories.", "anchors": [{"file": "properties/basic.py", "symbol": "GettableProperty.get_property"}, {"file": "properties/base/base.py", "symbol": "HasProperties._reset"}]}
{"id": "C40", "title": "Linked properties stay in step", "statement": "When the linked properties can hold values that agree (each target's value is the validated transform of its source's), an assignment to one of them succeeds, the target of every active link from it then holds its value, and if the links were in step before, so does every property reachable through links; with link() all members hold the same value.", "quantifier": "all link graphs and assignment histories", "why_tests_cant": "Arbitrary graphs and histories.", "anchors": [{"file": "properties/link.py", "symbol": "directional_link._update"}, {"file": "properties/link.py", "symbol": "link"}]}
{"id": "C41", "title": "Link propagation terminates", "statement": "An assignment never re-enters a directional link that is being updated, so propagation terminates on every link graph, cyclic or not, and leaves no link marked as being updated.", "quantifier": "all link graphs", "why_tests_cant": "All graphs.", "anchors": [{"file": "properties/link.py", "symbol": "directional_link._update"}]}
{"id": "C42", "title": "Unlink stops and relink resumes propagation", "statement": "After unlink every history runs as if the link did not exist; relink changes no value and the next change of the source is pushed to the target again.", "quantifier": "all histories of link operations", "why_tests_cant": "Histories.", "anchors": [{"file": "properties/link.py", "symbol": "directional_link.unlink"}, {"file": "properties/link.py", "symbol": "directional_link.relink"}]}
{"id": "C43", "title": "HasUID identifiers are unique", "statement": "No two live HasUID instances of one registry carry the same uid after any history of construction, assignment and deserialization.", "quantifier": "all histories", "why_tests_cant": "Histories.", "anchors": [{"file": "properties/extras/uid.py", "symbol": "HasUID"}]}
{"id": "C44", "title": "HasUID serialization is flat and complete", "statement": "The registry produced by serialize contains exactly one entry per reachable instance, references are by uid and each is defined in the registry, and it terminates on cyclic graphs.", "quantifier": "all finite graphs including cycles", "why_tests_cant": "All graphs.", "anchors": [{"file": "properties/extras/uid.py", "symbol": "HasUID.serialize"}, {"file": "properties/extras/uid.py", "symbol": "Pointer"}]}
{"id": "C45", "title": "HasUID graphs survive serialization", "statement": "Whenever deserializing the flat form of a graph of HasUID instances returns, the result is a copy of the graph: new instances of the same classes with the same identifiers, values and references, shared and in cycles as the originals were (what was in a Pointer property is its identifier). Deserializing a flat dictionary always ends. It returns a copy if no identifier is in use, all values are valid and no instance is referred to by more than one Instance property (trees, and rings through the root); if an instance holds another one twice it never returns. Without `trusted`, class names in a dictionary choose nothing: every instance made is of the class the call is made on or of a class a property declares, and if the call returns, all of them have valid values.", "quantifier": "all finite graphs including cycles, all flat dictionaries for termination", "why_tests_cant": "All graphs.", "anchors": [{"file": "properties/extras/uid.py", "symbol": "HasUID.deserialize"}, {"file": "properties/extras/uid.py", "symbol": "Pointer.deserialize"}]}
{"id": "C46", "title": "A singleton name denotes one instance", "statement": "Constructing a Singleton twice with the same name gives the same instance, different names give different instances, for any history; deserializing returns the registered instance.", "quantifier": "all histories of construction and deserialization", "why_tests_cant": "Histories.", "anchors": [{"file": "properties/extras/singleton.py", "symbol": "SingletonMetaclass.__call__"}, {"file": "properties/extras/singleton.py", "symbol": "Singleton.deserialize"}]}
{"id": "C47", "title": "Observed container mutation is validated and notified", "statement": "With observe_mutations, every mutating method called on the stored container either raises leaving the stored container and its binding unchanged, or replaces the stored value with the validated mutated copy and notifies as an assignment. (False for the in-place operators when the new value is rejected.)", "quantifier": "all mutation histories and aliases", "why_tests_cant": "Histories with aliasing.", "anchors": [{"file": "properties/base/containers.py", "symbol": "properties_mutator"}, {"file": "properties/base/containers.py", "symbol": "observable_copy"}]}
{"id": "C48", "title": "Stale container aliases cannot affect the instance", "statement": "A container that has been replaced on the instance (by assignment or mutation) no longer influences the instance when mutated.", "quantifier": "all histories", "why_tests_cant": "Histories with aliasing.", "anchors": [{"file": "properties/base/containers.py", "symbol": "properties_mutator"}]}
{"id": "C49", "title": "Set and Dictionary equality is mathematical equality of contents", "statement": "Set.equal(a,b) holds iff the items can be paired one to one by the item equality, whatever the iteration order; Dictionary.equal iff the same keys map to equal values. (For tolerance equality the pairing is greedy and depends on order.)", "quantifier": "all finite sets and dictionaries, all iteration orders", "why_tests_cant": "All orders.", "anchors": [{"file": "properties/base/containers.py", "symbol": "Set.equal"}, {"file": "properties/base/containers.py", "symbol": "Dictionary.equal"}]}
{"id": "C50", "title": "When the error hook of an instance is called", "statement": "A value rejected by its property in an assignment outside validate() and construction calls the instance's error hook with the error tuple that is raised, as the last hook call. While the instance is being validated or initialised nothing calls it; the aggregated failure of validate() or of the constructor calls it exactly once with all error tuples, and a validate() or construction that raises no ValidationError does not call it. Neither does an accepted value whose declaration holds no Union and which builds no instances. (A Union calls the hook once for every alternative that refuses the value before one accepts it, although the assignment succeeds.)", "quantifier": "all failing operations", "why_tests_cant": "All inputs.", "anchors": [{"file": "properties/utils.py", "symbol": "ValidationError.__init__"}, {"file": "properties/base/base.py", "symbol": "HasProperties.validate"}, {"file": "properties/base/union.py", "symbol": "Union._try_prop_method"}]}
{"id": "C51", "title": "Tasks run only on valid input and return only valid output", "statement": "Calling a task runs the computation only with an input that passed validation and hands only validated output to process_output; report_status prints only percentages from 0 to 100, or raises.", "quantifier": "all inputs and user computations", "why_tests_cant": "All user computations.", "anchors": [{"file": "properties/extras/task.py", "symbol": "BaseTask.__call__"}, {"file": "properties/extras/task.py", "symbol": "BaseTask.report_status"}]}
{"id": "C52", "title": "URL normalisation", "statement": "An accepted URL has a scheme and a network location, the removed parts are absent from the result and validation is idempotent.", "quantifier": "all strings", "why_tests_cant": "All strings.", "anchors": [{"file": "properties/extras/web.py", "symbol": "URL.validate"}]}
{"id": "C53", "title": "Arrays match their declared shape and kind", "statement": "Array accepts a value iff one declared shape matches dimension by dimension, with * matching any size, and its kind is declared.", "quantifier": "all arrays of any rank and all shape declarations", "why_tests_cant": "All ranks.", "anchors": [{"file": "properties/math.py", "symbol": "Array.validate"}]}
{"id": "C54", "title": "Vector direction names and lengths", "statement": "A vector property maps each direction name, in any case, to its vector and, with a length, returns a vector of the same direction and of exactly that length; other names, and zero vectors if there is a length, are rejected.", "quantifier": "all vectors and lengths", "why_tests_cant": "All vectors.", "anchors": [{"file": "properties/math.py", "symbol": "BaseVector"}, {"file": "properties/math.py", "symbol": "Vector3"}, {"file": "properties/math.py", "symbol": "VECTOR_DIRECTIONS"}]}
{"id": "C55", "title": "ImagePNG survives JSON", "statement": "Decoding the JSON text of an image returns exactly the image bytes; inputs without the PNG signature are rejected.", "quantifier": "all byte strings", "why_tests_cant": "All byte strings of any length.", "anchors": [{"file": "properties/images.py", "symbol": "ImagePNG.to_json"}, {"file": "properties/images.py", "symbol": "ImagePNG.from_json"}]}
{"id": "C56", "title": "stop_recursion_with runs the method once per object", "statement": "A decorated method runs its body when the object is not already inside it, otherwise gives the backup; after the outer call ends, by return or exception, the object is no longer held.", "quantifier": "all re-entrant call trees and exceptions", "why_tests_cant": "All call trees.", "anchors": [{"file": "properties/utils.py", "symbol": "stop_recursion_with"}]}
{"id": "C57", "title": "Trusted lookup uses the nearest registry", "statement": "With trusted=True the class is the one most recently created under the given name among the classes that share the registry of the class, otherwise the class itself (or ValueError when strict); an empty name or its own name always selects the class itself; without trusted the registry is never consulted.", "quantifier": "all class creation histories", "why_tests_cant": "Histories.", "anchors": [{"file": "properties/base/base.py", "symbol": "HasProperties._deserialize_class"}, {"file": "properties/base/base.py", "symbol": "PropertyMetaclass.__new__"}]}
{"id": "C58", "title": "More recursion budget never changes a result", "statement": "If an operation finishes without a recursion error under some recursion limit then under any larger limit it gives the same result and the same final state.", "quantifier": "all operations, limits and worlds", "why_tests_cant": "All limits.", "anchors": [{"file": "properties/base/base.py", "symbol": "HasProperties"}, {"file": "properties/base/base.py", "symbol": "equal"}]}
{"id": "C59", "title": "Number bounds are consistent", "statement": "Whatever the order and history of min and max settings (NaN excepted, which breaks it), min <= max when both are set; a setting is accepted exactly when it lies on the right side of the other bound, and a rejected setting changes nothing.", "quantifier": "all histories of settings of None, numbers other than NaN and texts", "why_tests_cant": "Histories.", "anchors": [{"file": "properties/basic.py", "symbol": "Integer.min"}, {"file": "properties/basic.py", "symbol": "Integer.max"}]}
{"id": "C60", "title": "Serializer wrappers accept either call signature", "statement": "A serializer taking only the value behaves like one taking keyword arguments; it is called once. (If the serializer body itself raises TypeError it is called a second time.)", "quantifier": "all serializers", "why_tests_cant": "All user functions.", "anchors": [{"file": "properties/basic.py", "symbol": "accept_kwargs"}]}
{"id": "C61", "title": "Class defaults are inherited from the nearest class", "statement": "Every class default, inherited or declared, belongs to a property of the class and was accepted by it. When every ancestor has at most one base, the default of a name is the one declared by the nearest class that declares one. (With diamonds a default of a common ancestor can win over a nearer one.)", "quantifier": "all class creation histories", "why_tests_cant": "All hierarchies and declarations.", "anchors": [{"file": "properties/base/base.py", "symbol": "PropertyMetaclass.__new__"}]}
{"id": "C62", "title": "Renamed properties and observers refer to properties of the class", "statement": "In every class the new name of a renamed property is a property of the class and every name watched by a class observer is a mutable property of the class, inherited ones included, as long as no ancestor rebinds the name to something else. (A subclass that removes the property leaves the renamed property and the observer dangling.)", "quantifier": "all class creation histories", "why_tests_cant": "All hierarchies and declarations.", "anchors": [{"file": "properties/base/base.py", "symbol": "PropertyMetaclass.__new__"}, {"file": "properties/base/base.py", "symbol": "build_from_bases"}]}
{"id": "C63", "title": "Assigning a container stores a copy nobody else holds", "statement": "Assigning a list, tuple, set or dict to a Tuple, List, Set or Dictionary property whose item, key and value properties are declared at every level (none is the basic Property) leaves the assigned objects as they are and stores new containers at every level; only instances are shared. As long as client code does not read, assign or delete the property, nothing it does - changing in place the assigned object, the objects it was built of or any other object it can reach, assigning the same objects to other properties or using them as defaults, reading those properties and changing what it gets - changes what the property holds. The content stored is the one validation of the content gives, so containers may be understood as values. (Items of undeclared type are shared with the client.)", "quantifier": "all property declarations of any nesting, all heaps with any sharing, all histories of client operations before and after the assignment", "why_tests_cant": "Unbounded nesting, sharing patterns and histories of in-place mutations.", "anchors": [{"file": "properties/base/containers.py", "symbol": "Tuple.validate"}, {"file": "properties/base/containers.py", "symbol": "List.validate"}, {"file": "properties/base/containers.py", "symbol": "Dictionary.validate"}, {"file": "properties/base/containers.py", "symbol": "observable_copy"}, {"file": "properties/basic.py", "symbol": "Property.get_property"}]}
{"id": "C64", "title": "Arrays survive JSON", "statement": "Serializing an Array property gives nested lists in which every element is data JSON can represent: NaN and infinities are written as text. Deserializing them gives an array of the same shape, type and elements, NaN and infinities included, equal to the original as the property compares arrays, whenever the type of the array is the first one the property declares, the array has a dimension and no dimension but the last is empty. Integers at a property that lists float first (the default) come back as floats. (An array of no rows of three comes back as an array of no elements, so it does not satisfy a declared shape.) Nested lists of numbers are read exactly when the lists on each level have equal lengths; the array then has their shape, one element per position and the type the property declares first. Lists of unequal lengths on one level are refused. A float array read from lists has at each place the number that stands there, written as a bool, an integer, a float or text; text that is no number is refused.", "quantifier": "all arrays of bools, integers or floats of any number of dimensions and any size", "why_tests_cant": "Unbounded dimensions and sizes, and any position of the NaNs and infinities.", "anchors": [{"file": "properties/math.py", "symbol": "Array.to_json"}, {"file": "properties/math.py", "symbol": "Array.deserialize"}, {"file": "properties/math.py", "symbol": "Array.equal"}]}
{"id": "C65", "title": "Files are accepted open, opened once and closed only by deletion", "statement": "A File property accepts an object exactly if it can be read and positioned, is not closed and has (if any) one of the valid modes; validation has no effect on it. A name is refused without opening anything unless the property has a mode; otherwise it is opened once in that mode, and the file becomes the value if it is usable. A declaration that is accepted has only known modes and its valid modes include the mode for names, so names that can be opened are accepted whenever file objects report the mode they were opened in. Assigning never closes or changes any object, not even the previous value; deleting closes the value and nothing else. So a file stays the value, and open, as long as the program does not close it, assign the property or delete a property holding it. (CPython reports 'rb+' for files opened with 'wb+', so a property with mode 'wb+' alone truncates every file named and then refuses it; changing mode after valid_modes is unchecked; a deletion that a listener refuses has already closed the file.) A mode and a list of modes can be declared exactly if each is a mode of open (r, w or a, then b or nothing, then + or nothing) and the list has the mode in which names are opened. After a deletion the file says that it is closed and no other object changed.", "quantifier": "all declarations, objects, names, behaviours of the operating system and histories of assignments and deletions", "why_tests_cant": "Any file-like object, any operating system outcome, any history of sharing files between properties.", "anchors": [{"file": "properties/basic.py", "symbol": "File.validate"}, {"file": "properties/basic.py", "symbol": "File.get_property"}, {"file": "properties/basic.py", "symbol": "File.valid_modes"}, {"file": "properties/basic.py", "symbol": "File.mode"}]}
{"id": "C66", "title": "Pointers resolve to the very instance that carries the identifier", "statement": "load(uid) returns, after any history of constructions, assignments of uid and deserializations, the very instance in use that carries the uid. A Pointer property accepts an instance of its class as it is, or text that the identifier property and validate_uid accept; None and anything else is refused with a ValidationError. Without load=True text stays text; with it, the identifier of an instance in use is replaced by that very instance if it is of the class and refused otherwise, and an identifier never registered stays text. What uid_prop, validate_uid or load raise is what the assignment raises. (The identifier an instance had before still finds it; assigning its identifier again to an instance left behind by a failed deserialization lets it take over the identifier.)", "quantifier": "all histories, classes, hooks and values", "why_tests_cant": "Histories with failed constructions and cyclic flat dictionaries, arbitrary hooks.", "anchors": [{"file": "properties/extras/uid.py", "symbol": "Pointer.validate"}, {"file": "properties/extras/uid.py", "symbol": "HasUID.load"}, {"file": "properties/extras/uid.py", "symbol": "HasUID._update_instances"}]}
{"id": "C67", "title": "A declaration does not depend on the order of its keywords", "statement": "Declaring a property with the same keywords in another order is accepted just as well and declares the same, unless both min and max are given and one is None. Keywords are accepted exactly if each is a known public attribute of the property class with a value its setter takes and limits are in order; every attribute then has the value given. In the classes of the library required, cast, unicode, coerce and observe_mutations take only bools, name, doc and strip only text, serializers only functions, and change_case only None, 'upper' or 'lower'. A default is checked last, wherever it stands: it is accepted exactly if the property without it is, and the finished property accepts it (or what it returns, if it is a function); None is no default and undefined is not checked. (Integer(min=None, max=7) is accepted, Integer(max=7, min=None) is not; a method name is accepted as keyword and replaces the method.)", "quantifier": "all property classes, keyword sets, values and orders", "why_tests_cant": "All permutations of any set of keywords with any values, for any validate method.", "anchors": [{"file": "properties/basic.py", "symbol": "GettableProperty.__init__"}, {"file": "properties/basic.py", "symbol": "GettableProperty.default"}, {"file": "properties/basic.py", "symbol": "Integer.min"}, {"file": "properties/base/containers.py", "symbol": "Tuple.min_length"}]}
{"id": "C68", "title": "Which arrays an Array property takes for equal", "statement": "Array properties take two arrays for equal exactly when they have the same shape, NaN at the same positions, and elsewhere equal infinities or numbers that differ by at most 1e-9 plus a 100000th part of the second; the element types do not matter. (So the comparison is neither symmetric nor transitive, and large numbers may differ a lot without counting as changed.)", "quantifier": "all arrays of bools, integers or floats of any shape", "why_tests_cant": "All shapes, positions and pairs of numbers.", "anchors": [{"file": "properties/math.py", "symbol": "Array.equal"}]}
{"id": "C69", "title": "Calls do not reach unconnected instances; deserialized instances and copies share nothing with what there was", "statement": "Let user code (listeners, defaults, serializers, hooks) work only on instances it is handed or gets from its calls, and let no declaration hold an instance as a default value. Then any call - assignment, reset, validate, serialize, deserialize, equal, copy, observe, construction - leaves every instance that is not connected to its arguments through stored values exactly as it was, and returns no such instance. deserialize of data without instances yields an instance connected to new instances only. A copy of a graph of instances with JSON forms is connected to new instances only; afterwards no program working on the copy changes an instance that was there before, and no program working on those changes the copy. (False for instances given as a default value, and for instances held by a plain Property: these are shared.)", "quantifier": "all environments, worlds, calls, client programs and recursion limits", "why_tests_cant": "All object graphs, all user code and all later executions; a test only sees the aliases it looks for.", "anchors": [{"file": "properties/base/base.py", "symbol": "HasProperties.deserialize"}, {"file": "properties/base/base.py", "symbol": "copy"}, {"file": "properties/base/instance.py", "symbol": "Instance.deserialize"}, {"file": "properties/base/containers.py", "symbol": "Tuple.deserialize"}, {"file": "properties/base/base.py", "symbol": "HasProperties._reset"}]}
{"id": "C70", "title": "What is stored survives JSON", "statement": "Whatever value a scalar property (Property, Boolean, Integer, Float, Complex, String, StringChoice, Color, DateTime, Uuid) without custom serializer may hold - NaN, infinities and complex numbers included - prop.deserialize(prop.serialize(value)) is that same value; for dates this holds of whole seconds (from the year 1000 on where years are not padded), for UUIDs always. And after any program that does not write to the private _backend, any instance from which no cycle can be reached, whose classes can be built again from keywords and whose properties are not Unions, serializes, and reading the data in any state gives a copy of it made of new instances: no separate assumption on the stored values is needed, because stored values are always ones their property admits.", "quantifier": "all scalar types, values, declarations, programs, class tables, instance graphs without cycles and recursion limits from some depth on", "why_tests_cant": "The set of storable values is infinite (all floats, all text, all dates) and the object graphs and histories are unbounded.", "anchors": [{"file": "properties/basic.py", "symbol": "Float.to_json"}, {"file": "properties/basic.py", "symbol": "Complex.from_json"}, {"file": "properties/basic.py", "symbol": "DateTime.from_json"}, {"file": "properties/base/base.py", "symbol": "HasProperties.serialize"}, {"file": "properties/base/base.py", "symbol": "HasProperties.deserialize"}]}
{"id": "C71", "title": "Instance properties keep instances, build from dictionaries, and never share class defaults", "statement": "An Instance property for a HasProperties class accepts exactly: instances of that class or of a class derived from it, which are returned as the very same object without any effect; and dictionaries with text keys from which the constructor builds the class, for which the value is a new instance of exactly that class. Everything else is refused with ValidationError; so is a dictionary on which the constructor fails with one of the usual errors, while other exceptions go through. If the default of the property is a class, every new owner holds an instance of its own that did not exist before.", "quantifier": "all class tables, values, instances, states and recursion limits", "why_tests_cant": "All classes, all dictionaries, all user callbacks run by the constructor; aliasing between owners can only be excluded for all histories by proof.", "anchors": [{"file": "properties/base/instance.py", "symbol": "Instance.validate"}, {"file": "properties/base/instance.py", "symbol": "Instance._class_default"}, {"file": "properties/base/base.py", "symbol": "PropertyMetaclass.__call__"}]}
{"id": "C72", "title": "Listeners are called in the order of registration, new ones at once", "statement": "properties.observer and properties.validator on an instance append the function behind those already registered, once for each time a property is named (everything names every property once), in the mode asked for, and have no other effect; names that are not text are refused with TypeError. No later call ever removes or reorders listeners. A notification that ends has called every listener registered for that name and mode by then, including those registered while it ran, exactly once, in order of registration, each with the value the one before it left; so a listener that registers itself again for the change it hears of never ends. If listeners register nothing, this is the same as calling the listeners found at the start, for every program.", "quantifier": "all class tables, user functions (arbitrary callbacks), instances, states, programs, recursion limits and loop bounds", "why_tests_cant": "Callbacks are arbitrary programs that may register further listeners at any time; the order holds for all of them, and non-termination cannot be observed by a test.", "anchors": [{"file": "properties/handlers.py", "symbol": "_set_listener"}, {"file": "properties/handlers.py", "symbol": "_get_listeners"}, {"file": "properties/base/base.py", "symbol": "HasProperties._notify"}, {"file": "properties/handlers.py", "symbol": "Observer.names"}]}
{"id": "C73", "title": "Resetting returns properties to their defaults", "statement": "Resetting a property evaluates the default in force for the class (the class default if there is one, else the one of the property, called if it is callable) and assigns it, with everything that belongs to an assignment; it fails only if evaluating the default or that assignment fails. With no listener of it enabled, the property then holds its default, coerced, or no value if there is no default, whatever it held before, and all other properties hold what they held. Resetting without a name does this for every settable property and leaves the immutable ones alone; afterwards each property whose default is a fixed scalar holds the very value a new instance of the class holds. A name that is not a settable property is refused with AttributeError and no effect.", "quantifier": "all class tables, defaults (values and arbitrary callables), stored values, states and recursion limits", "why_tests_cant": "Any class, any defaults and any history before the reset; callable defaults are arbitrary programs.", "anchors": [{"file": "properties/base/base.py", "symbol": "HasProperties._reset"}, {"file": "properties/base/base.py", "symbol": "PropertyMetaclass.__call__"}]}
{"id": "C74", "title": "Attributes are separate variables, unless a property object is declared under two names", "statement": "After any history of declarations, property renamings, class statements (with inheritance), assignments and deletions in which no property object is put under two names (directly or nested in a List, Tuple, Set, Dictionary, Union or dynamic property), each attribute is a variable of its own: an assignment that passes validation succeeds and changes just that attribute of that instance, and so does a deletion; at the end of the history an attribute reads as the last value assigned to it that passed validation (None if it was deleted since, or nothing was). Sharing one property object under two names breaks this in the way a user has to know: within one class both attributes are the same variable, from the last declaration on (also if one of them only has the object nested in it); between two classes, instances of the earlier class, existing ones too, lose the value, and every assignment after the first raises KeyError although the value is stored.", "quantifier": "all property objects and nestings, class bodies, histories, instances, values and recursion limits", "why_tests_cant": "Sharing of property objects across any number of classes and nestings, and any history of assignments before and after a class statement.", "anchors": [{"file": "properties/base/base.py", "symbol": "PropertyMetaclass.__new__"}, {"file": "properties/basic.py", "symbol": "Property.get_property"}, {"file": "properties/base/base.py", "symbol": "HasProperties._set"}, {"file": "properties/base/containers.py", "symbol": "Tuple.name"}, {"file": "properties/base/union.py", "symbol": "Union.name"}]}
{"id": "C75", "title": "Declarations of composed properties are checked completely, and an accepted default stays usable", "statement": "Declaring a List, Tuple, Set, Dictionary, Instance or Union (nested to any depth) either gives exactly the property described or raises. Without defaults it is accepted exactly if: every inner property is a settable property or a HasProperties class (which stands for an Instance property of it), length limits are non-negative ints in order, and switches are bools; otherwise TypeError or AttributeError, with no effect on the program's state. With a default it is accepted exactly if moreover the finished property accepts the default (a Union: one of its alternatives, in order). A constant default accepted at declaration is accepted ever after, with the same result, in every state; so a class all of whose defaults were declared in this way can always be called without keywords. The default in force comes from the declaration itself or, for a Union, from one of its alternatives; in that last case the Union never checked it, and there are accepted declarations whose class cannot be called without keywords.", "quantifier": "all declarations of any nesting depth, keywords, defaults (values and functions), classes, program states and recursion limits", "why_tests_cant": "Declarations nest without bound and a default is used in states that arise long after it was checked.", "anchors": [{"file": "properties/base/containers.py", "symbol": "validate_prop"}, {"file": "properties/base/containers.py", "symbol": "Tuple.__init__"}, {"file": "properties/base/containers.py", "symbol": "Dictionary.__init__"}, {"file": "properties/base/instance.py", "symbol": "Instance.__init__"}, {"file": "properties/base/union.py", "symbol": "Union.default"}, {"file": "properties/basic.py", "symbol": "GettableProperty.default"}, {"file": "properties/base/base.py", "symbol": "PropertyMetaclass.__call__"}]}
{"id": "C76", "title": "What the basic property types accept, for every value", "statement": "Property accepts everything as it is. Boolean accepts exactly True and False; with cast it accepts everything and gives its truth value. Integer accepts exactly the numbers near an integer inside the bounds (with cast: every number with its truncation inside the bounds, and text or a UUID that int() reads so). Float and Complex accept exactly bools, ints that fit a float, floats (Complex also complex numbers), and with cast text that float() or complex() reads, inside the bounds. DateTime accepts exactly datetimes and text in one of its formats, Uuid exactly UUIDs. Text is never taken for a number without cast. What a Boolean, Complex, DateTime or Uuid does not accept raises ValidationError, except that an int too large for a Complex raises OverflowError.", "quantifier": "all values of any type, all bounds and cast settings, all program states", "why_tests_cant": "The claim is about every value a caller may pass, including those no test author thinks of.", "anchors": [{"file": "properties/basic.py", "symbol": "Boolean.validate"}, {"file": "properties/basic.py", "symbol": "Integer.validate"}, {"file": "properties/basic.py", "symbol": "Float.validate"}, {"file": "properties/basic.py", "symbol": "Complex.validate"}, {"file": "properties/basic.py", "symbol": "DateTime.validate"}, {"file": "properties/basic.py", "symbol": "Uuid.validate"}]}
{"id": "C77", "title": "Links behave the same among full HasProperties instances", "statement": "Programs that make directional links and link groups between properties of HasProperties instances, assign and delete those properties, unlink and relink, and catch the errors, go through states in which every property has the value the rules of links give it. So on any graph of links between properties of actual instances (several properties of one instance included): assignments never end in RecursionError, links in step stay in step with every reachable property reading as the assignment made it, after link(*items) an assignment to one member is read from all of them and changes no other property, and an unlinked link has no effect.", "quantifier": "all classes, instances, link graphs, transforms and histories; all recursion limits with room for one level per link", "why_tests_cant": "Arbitrary graphs and histories, and the interplay of links with validation, change detection and the notification loop.", "anchors": [{"file": "properties/link.py", "symbol": "directional_link"}, {"file": "properties/base/base.py", "symbol": "HasProperties._set"}, {"file": "properties/base/base.py", "symbol": "HasProperties._notify"}, {"file": "properties/handlers.py", "symbol": "observer"}]}
{"id": "C78", "title": "A dynamic property uses the last getter, setter, deleter and property that were accepted", "statement": "Decorating a method with a property makes a dynamic property exactly if the property has no default (Uuid, and a Union with a defaulting alternative, have one) and the method takes one argument; later getters must be callables of one argument, setters of two and deleters of one, the last two with the name of the property, and a new property must have no default. A refused registration raises and changes nothing. After any sequence of registrations, mixed with uses of instances, reading the attribute of any instance of the class or a subclass, old or new, calls the last accepted getter and validates what it returns by the last accepted property (None and undefined give None); assigning validates and calls the last accepted setter, deleting calls the last accepted deleter, and both raise AttributeError without effect if none was accepted.", "quantifier": "all sequences of registrations and uses, all functions, properties, classes and instances", "why_tests_cant": "Arbitrary interleavings of accepted and refused registrations with uses.", "anchors": [{"file": "properties/basic.py", "symbol": "DynamicProperty"}, {"file": "properties/basic.py", "symbol": "GettableProperty.__call__"}, {"file": "properties/base/base.py", "symbol": "PropertyMetaclass.__new__"}]}
{"id": "C79", "title": "Array and vector declarations are checked, and mean what they say", "statement": "Setting shape, dtype, coerce or length on an Array, Vector3, Vector2, Vector3Array or Vector2Array succeeds exactly for the documented values (shape: None, a tuple of integers and '*', or a set of such tuples, for arrays of vectors with second entry 3 or 2, and not at all for Vector3 and Vector2; dtype: types of numbers, only on Array; coerce: a boolean; length: a positive number, infinity or NaN); a refused value raises and changes nothing. After any sequence of settings the property accepts exactly the arrays made by its class whose element kind is one of the types last set and whose shape matches the shape last set, or one of the set; by default one dimension of ints or floats, or the shape of the vectors. Whatever was set, vector properties accept only floats of three or two columns, and the length vectors are scaled to is the one last accepted. It cannot be unset.", "quantifier": "all sequences of settings with all values, all arrays of any shape, all vectormath constructors", "why_tests_cant": "Unbounded shapes, sets of shapes and sequences of accepted and refused settings.", "anchors": [{"file": "properties/math.py", "symbol": "Array.shape"}, {"file": "properties/math.py", "symbol": "Array.dtype"}, {"file": "properties/math.py", "symbol": "BaseVector.length"}, {"file": "properties/math.py", "symbol": "Vector3Array.shape"}]}
{"id": "C80", "title": "Registered serializers and deserializers are used at every depth", "statement": "A serializer registered for a property alone decides what its values are written as - None included - wherever they are: in the instance being serialized, in the items of lists, tuples and sets, in keys and values of dictionaries, in nested instances and in the alternatives of Unions. When serialize() succeeds, each of them has answered for each of these values; if one raises, serialize() of the whole tree does not succeed. The same holds for deserializers on reading, and when on the scalars of a tree serializer and deserializer are inverse to each other, the tree survives the round trip and its copy equals it. A TypeError of the function itself makes it run a second time, with the value alone, with all its effects.", "quantifier": "all serializers and deserializers, all object graphs and declarations nested to any depth, all options", "why_tests_cant": "All user functions at all positions of unboundedly nested values.", "anchors": [{"file": "properties/basic.py", "symbol": "GettableProperty.serialize"}, {"file": "properties/basic.py", "symbol": "GettableProperty.deserialize"}, {"file": "properties/basic.py", "symbol": "accept_kwargs"}, {"file": "properties/base/containers.py", "symbol": "Tuple.serialize"}]}
{"id": "C81", "title": "save_dynamic writes all properties, and only what is not None", "statement": "serialize(save_dynamic=True) reads every property of the class once, in the order of the class, and writes those that do not come out as None: stored properties as without save_dynamic, a dynamic property as its getter's value unchanged or as its serializer says, a renamed property as the value of the new name unchanged. Without save_dynamic only what is stored is written. Dynamic values in data are checked and stored on reading, after which plain serialize() writes them too, while the attribute stays what the getter says. (So a dynamic or renamed property whose value is an instance makes the result no JSON data.)", "quantifier": "all classes, all user functions (getters and serializers that run arbitrary code), all states", "why_tests_cant": "Arbitrary getters and serializers that change the state while the instance is written.", "anchors": [{"file": "properties/base/base.py", "symbol": "HasProperties.serialize"}, {"file": "properties/basic.py", "symbol": "DynamicProperty.serializer"}, {"file": "properties/basic.py", "symbol": "Renamed"}]}
{"id": "C82", "title": "Numbers count as equal within one billionth", "statement": "Comparing two values of a Float property says equal exactly if both are finite and their difference, rounded as a float, is at most one billionth in either direction; of a Complex property exactly if this holds of the real parts and of the imaginary parts; two whole numbers (integers or booleans) are equal exactly if they are the same; a Float property compares a whole number with a float by its rounding to a float, and raises OverflowError if there is none, compares complex numbers by their distance, and finds nothing that is not a number equal to anything. A Boolean property finds True equal only to True and False only to False, not to 1 or 0. The comparison has no effects. (So no NaN or infinity is equal to itself, and equality is reflexive on finite numbers and symmetric but not transitive.)", "quantifier": "all floats including NaN and infinities, all integers without bound, booleans, finite complex numbers and other values, all ways of rounding differences", "why_tests_cant": "The comparison decides whether an assignment notifies as a change; the exact boundary holds for all pairs of floats, not for sampled ones.", "anchors": [{"file": "properties/basic.py", "symbol": "Float.equal"}, {"file": "properties/basic.py", "symbol": "Complex.equal"}, {"file": "properties/basic.py", "symbol": "Integer.equal"}, {"file": "properties/basic.py", "symbol": "Boolean.equal"}]}
{"id": "C83", "title": "Choices, their descriptions and case sensitivity stay consistent however they are set", "statement": "After any sequence of declaring StringChoice properties and setting their choices, case_sensitive and descriptions again, some of it refused, in which the program leaves dictionaries it handed over alone and makes no property case insensitive afterwards: every property accepts exactly the texts that stand for one of its choices (the choice itself or one of its alternatives, up to case if so declared), no text stands for two choices, and the choice it stands for is what is stored. Descriptions are accepted exactly if they give a text for each choice and nothing else; the info of a property lists every choice, with its description, unless choices were replaced after they were described.", "quantifier": "all sequences of operations of any length, all choices, alternatives, descriptions, and all properties sharing dictionaries", "why_tests_cant": "Consistency is an invariant over every order of setting the three attributes, with dictionaries shared between properties; tests set each once.", "anchors": [{"file": "properties/basic.py", "symbol": "StringChoice.choices"}, {"file": "properties/basic.py", "symbol": "StringChoice.case_sensitive"}, {"file": "properties/basic.py", "symbol": "StringChoice.descriptions"}, {"file": "properties/basic.py", "symbol": "StringChoice.info"}, {"file": "properties/basic.py", "symbol": "StringChoice.validate"}]}
{"id": "C84", "title": "Serialized data passes through a JSON text", "statement": "json.loads(json.dumps(v)) exists exactly if v is made of None, booleans, numbers, texts, lists, tuples and dictionaries with None, boolean, number or text keys; tuples are read as lists, keys as texts, and each key has the last of the values written under its text. Data with distinct text keys comes back unchanged, so passing twice is as good as once. What serialize() returns for a tree of instances whose Dictionaries are keyed by text, dates, UUIDs or complex numbers comes back unchanged, and deserializing what was read gives a copy of the tree.", "quantifier": "all values of any size and depth; all trees of instances, class hierarchies, containers and Unions that C24 covers", "why_tests_cant": "The claim ranges over all data and over all declarations of classes; tests write a few objects.", "anchors": [{"file": "properties/base/instance.py", "symbol": "Instance.to_json"}, {"file": "properties/base/base.py", "symbol": "HasProperties.serialize"}, {"file": "properties/base/base.py", "symbol": "HasProperties.deserialize"}]}
{"id": "C85", "title": "An Instance property of any class holds instances of that class", "statement": "For an Instance property of a class that is no HasProperties class: an instance of the class is taken as it is, without calling the class; a dictionary is accepted exactly if its keys are texts and the class can be called with it as keywords, anything else (also None) exactly if the class can be called with it; ValueError, KeyError, TypeError and AttributeError of the call become a ValidationError, other errors come through. If calling the class gives instances, then after any sequence of assignments, deletions and checks every value of the property is an instance of the class; a refused assignment changes no value, and an accepted one is stored even if comparing it with the previous value raises. Checking a value passes exactly if it equals itself. Values that are plain data are serialized as JSON data, but without a deserializer none of it can be read back.", "quantifier": "all classes, given as arbitrary user code with state for construction and comparison; all operation sequences on any number of holders", "why_tests_cant": "The class is arbitrary user code that may fail or have effects; the claims hold for all of it and for all histories.", "anchors": [{"file": "properties/base/instance.py", "symbol": "Instance.validate"}, {"file": "properties/base/instance.py", "symbol": "Instance.assert_valid"}, {"file": "properties/base/instance.py", "symbol": "Instance.serialize"}, {"file": "properties/base/instance.py", "symbol": "Instance.deserialize"}, {"file": "properties/base/instance.py", "symbol": "Instance.to_json"}, {"file": "properties/base/instance.py", "symbol": "Instance.from_json"}, {"file": "properties/base/base.py", "symbol": "HasProperties._set"}]}
{"id": "C86", "title": "What link and directional_link take, and what a failed call leaves behind", "statement": "directional_link is made exactly if source and target are different tuples of an instance and the name of a property it has, and transform is None, a callable without code object or a function of one argument; otherwise ValueError and nothing has changed. With update_now the target is assigned first, and if that fails no link is made. link(*items) without update_now returns exactly if there are at least two items, all different properties, and no transform; then an assignment to one of them is read from all. If a call fails at a pair of items, the links made for the pairs before it stay in force: when the first two items can be linked, the first goes on updating the second although link() raised ValueError.", "quantifier": "all argument values, any number of items, all keyword arguments, all states of existing links", "why_tests_cant": "The items are any number of arbitrary values; which directional links a failing call leaves depends on the whole order of pairs.", "anchors": [{"file": "properties/link.py", "symbol": "directional_link.__init__"}, {"file": "properties/link.py", "symbol": "directional_link._validate"}, {"file": "properties/link.py", "symbol": "directional_link.transform"}, {"file": "properties/link.py", "symbol": "link.__init__"}]}
{"id": "C87", "title": "Static conversions of containers agree with those of properties", "statement": "List.to_json(v), Tuple.to_json(v), Set.to_json(v) and Dictionary.to_json(v), called on the class, give what serialize of a property of that class gives, with the same errors and effects, whenever items are instances in Instance properties or values of types whose JSON form is the value itself (Property, Boolean, Integer, String, StringChoice) and no serializer is registered. Instance.to_json agrees with every Instance property, Union.to_json with a Union none of whose alternatives accepts the value. from_json of the sequence classes agrees with deserialize when items are read as they are, and gives back a container of items that are no instances from its to_json form. Static methods look one level deep only.", "quantifier": "all values, declarations, keyword arguments, states and recursion limits", "why_tests_cant": "Agreement of two code paths for all values and declarations.", "anchors": [{"file": "properties/base/containers.py", "symbol": "Tuple.to_json"}, {"file": "properties/base/containers.py", "symbol": "Tuple.from_json"}, {"file": "properties/base/containers.py", "symbol": "List.from_json"}, {"file": "properties/base/containers.py", "symbol": "Set.from_json"}, {"file": "properties/base/containers.py", "symbol": "Dictionary.to_json"}, {"file": "properties/base/instance.py", "symbol": "Instance.to_json"}, {"file": "properties/base/union.py", "symbol": "Union.to_json"}]}
{"id": "C88", "title": "A stored container keeps the class it was given", "statement": "The value read back from a List, Set, Tuple or Dictionary is an instance of the class of the value assigned: exactly that class if the property does not observe mutations, and otherwise the class itself or the one observable class made from it. At most one observable class is made from a class, it derives from that class, and none is made from an observable class. Assigning a stored value again, or mutating it in place, keeps its class and makes no class. Two observed values assigned with one class have one class whenever they were assigned. The number of observable classes is bounded by the six container classes and those the program derives, however often values are assigned. A value that is no instance of the property's container class is refused without coerce and the property keeps its value. A Dictionary with coerce gives a plain dict, whatever class it was given.", "quantifier": "all class hierarchies over the builtin containers, all declarations and all sequences of class definitions, assignments and mutations", "why_tests_cant": "The cache of observable classes is global and grows with the program; the claims are invariants of all executions.", "anchors": [{"file": "properties/base/containers.py", "symbol": "observable_copy"}, {"file": "properties/base/containers.py", "symbol": "properties_mutator"}, {"file": "properties/base/containers.py", "symbol": "Tuple.validate"}, {"file": "properties/base/containers.py", "symbol": "List.validate"}, {"file": "properties/base/containers.py", "symbol": "Dictionary.validate"}]}
{"id": "C89", "title": "The JSON forms of the basic types, and output without NaN or infinities", "statement": "A Float writes NaN and the infinities as the texts nan, inf and -inf and every other number as it is; Complex, DateTime and Uuid write texts, Color a list, and Property, Boolean, Integer, String and StringChoice the value itself. Reading is as exact: a Boolean reads the eight words in any case, bools and ints, and raises ValueError otherwise; an Integer truncates numbers towards zero and parses texts; Float, Complex, Color, DateTime and Uuid read just what they document. No value has another form, and neither direction changes anything. Where every stored value is one its property may hold and no declaration uses plain Property, Union or a serializer, the dictionary serialize() returns contains neither NaN nor an infinity at any depth, as a value or as a key, so that it can be written as standard JSON.", "quantifier": "all values, declarations, instances, nesting depths, states and recursion limits", "why_tests_cant": "Which values get which form is a claim about all values; the absence of NaN is a claim about all trees of instances.", "anchors": [{"file": "properties/basic.py", "symbol": "Float.to_json"}, {"file": "properties/basic.py", "symbol": "Float.from_json"}, {"file": "properties/basic.py", "symbol": "Boolean.from_json"}, {"file": "properties/basic.py", "symbol": "Integer.from_json"}, {"file": "properties/basic.py", "symbol": "Complex.to_json"}, {"file": "properties/basic.py", "symbol": "Color.to_json"}, {"file": "properties/basic.py", "symbol": "DateTime.from_json"}, {"file": "properties/basic.py", "symbol": "Uuid.from_json"}]}
{"id": "C90", "title": "Descriptions and error messages are bounded, complete and unambiguous", "statement": "The message of a rejected value shows the value in at most 107 characters: its whole representation if that is not longer, otherwise its first and last 50 characters; so the length of a message is bounded whatever the value. Two equal messages are about the same class of property, the same property name and the same class of instance. Equal descriptions (prop.info) of two properties that are not Unions mean the same kind of property: for numbers the same bounds, so that with the same cast they accept and coerce the same values, for sequences the same container, the same description of items and the same allowed lengths, for StringChoices the same choices. The description of a container contains those of its items, that of a Union every alternative, and only plain Property has none.", "quantifier": "all declarations at any nesting, all values, names and instances", "why_tests_cant": "Claims about all pairs of declarations and all representations of values.", "anchors": [{"file": "properties/basic.py", "symbol": "GettableProperty.error"}, {"file": "properties/basic.py", "symbol": "Integer.info"}, {"file": "properties/basic.py", "symbol": "StringChoice.info"}, {"file": "properties/base/containers.py", "symbol": "Tuple.info"}, {"file": "properties/base/containers.py", "symbol": "Dictionary.info"}, {"file": "properties/base/union.py", "symbol": "Union.info"}]}
{"id": "C91", "title": "Metadata and terms belong to one property object", "statement": "Each property object has its own metadata: under every key prop.meta has the value given last by prop.tag, where keywords take precedence over the dictionary passed, and the dictionary is copied, so changing it afterwards has no effect; a dynamic property starts with a copy of the metadata of the property it is made from. tag accepts no positional argument or exactly one dictionary and returns the property; any rejected call changes nothing. No two properties share a metadata dictionary, and only tagging a property or changing the very dictionary handed out by its meta or terms changes its metadata. The terms of a property are the positional and keyword arguments it was made with, including the default, whatever happens later, and calling the class with them again makes a property with the same settings: every keyword given, the default last and unless it is None. terms may be set to a dictionary of exactly a tuple args and a dictionary kwargs; anything else raises TypeError and changes nothing.", "quantifier": "all programs that make, tag, decorate and read properties and share and change dictionaries, of any length", "why_tests_cant": "Aliasing of dictionaries over all sequences of operations.", "anchors": [{"file": "properties/basic.py", "symbol": "GettableProperty.tag"}, {"file": "properties/basic.py", "symbol": "GettableProperty.terms"}, {"file": "properties/basic.py", "symbol": "ArgumentWrangler.__call__"}, {"file": "properties/basic.py", "symbol": "DynamicProperty.__init__"}]}
{"id": "C92", "title": "Which exceptions a call may end with", "statement": "Reading, assigning, deleting, resetting, constructing, comparing and validating end, besides what user code raises, only with ValidationError, TypeError, AttributeError, OverflowError, IndexError or RecursionError. A ValueError that is no ValidationError comes out of deserialize and copy only, KeyError and SelfReferenceError out of serialize and copy only, and an exception of any other class comes out of user code. A value that refers to existing instances is rejected by prop.validate with a ValidationError, except for TypeError where the declaration has a Set or Dictionary outside of a Union or Instance, OverflowError where it has a number or an Instance, and IndexError where it has an Instance. prop.equal of any two values answers, except for RecursionError, OverflowError where the declaration has a Float or Complex, IndexError where it has a Dictionary, and what comparing instances raises. Two values of the property's own type are always compared, with the same answer in every state, if no instance is involved and no Union has a Float, Complex or Dictionary among its alternatives.", "quantifier": "all class declarations, all nested property declarations, all values, states and calls, all listeners, getters, setters, validators, hooks and serializers that raise nothing but a given set of classes besides what the calls they make raise, every recursion limit", "why_tests_cant": "That no other exception escapes is a claim about all declarations, values and user functions and about the exceptions of arbitrarily nested calls.", "anchors": [{"file": "properties/base/base.py", "symbol": "HasProperties"}, {"file": "properties/basic.py", "symbol": "Property"}, {"file": "properties/base/containers.py", "symbol": "Tuple.validate"}, {"file": "properties/base/union.py", "symbol": "Union._try_prop_method"}, {"file": "properties/base/instance.py", "symbol": "Instance.validate"}, {"file": "properties/utils.py", "symbol": "SelfReferenceError"}]}
{"id": "C93", "title": "What validate() adds to the checks of assignments", "statement": "Whatever calls have been made before, validate() never fails because of the type of a value that is stored. It returns True exactly if the instance, and every instance found from it through Instance properties and containers, has a value for each required property, containers of the declared lengths, and no NaN or infinity in a Float or Complex property; otherwise it raises ValidationError with details. A NaN or an infinity is accepted by the assignment and refused by validate().", "quantifier": "all classes without Unions, dynamic properties, class validators and error hooks, all histories of calls that do not pass private keywords, all states of finitely many instances with cycles, every recursion limit of at least a bound linear in the number of instances; Strings and StringChoices whose validation can be repeated, values that equal themselves outside of Float and Complex properties, no None inside of containers, no validators registered on instances", "why_tests_cant": "It speaks about all reachable states and all declarations; cycles of instances make the recursion unbounded.", "anchors": [{"file": "properties/base/base.py", "symbol": "HasProperties.validate"}, {"file": "properties/basic.py", "symbol": "Property.assert_valid"}, {"file": "properties/basic.py", "symbol": "Float.equal"}, {"file": "properties/base/containers.py", "symbol": "Tuple.assert_valid"}, {"file": "properties/base/instance.py", "symbol": "Instance.assert_valid"}]}
{"id": "C94", "title": "Copies and deserialized instances are trees", "statement": "copy(x), and deserializing what x.serialize() gave, build a tree of new instances: wherever a chain of properties, items and entries leads to an instance in x, the same chain leads to an instance of the same class in the result, and different chains lead to different instances. So two properties that hold one and the same instance hold two different instances in the copy, and changes through one are no longer seen through the other. As a consequence the copy of n + 1 instances can consist of more than 2^n instances.", "quantifier": "all acyclic instances whose values survive the round trip (C24) and whose scalar properties hold no instances, any depth and amount of sharing, every state read in; all n", "why_tests_cant": "It speaks about all graphs of instances and all pairs of chains; the exponential size is a statement for every n.", "anchors": [{"file": "properties/base/base.py", "symbol": "copy"}, {"file": "properties/base/base.py", "symbol": "HasProperties.deserialize"}, {"file": "properties/base/base.py", "symbol": "HasProperties.serialize"}, {"file": "properties/base/instance.py", "symbol": "Instance.deserialize"}, {"file": "properties/base/containers.py", "symbol": "Tuple.deserialize"}, {"file": "properties/base/containers.py", "symbol": "Dictionary.deserialize"}]}
{"id": "C95", "title": "Deserializing into a given instance", "statement": "deserialize(data, _instance=x) returns x itself. Afterwards x holds, for every property named in the data, the value read from the data and coerced (nothing, if that is undefined), also for immutable properties; for every other property it holds what it held, no default is set. Class, listeners and disabled listeners are as before, and no observer of x is called. For the basic types the value depends on nothing but the data. An instance of another class is refused with ValueError before anything is done, and so are, with strict, data with a key that names no property; data that name no property change nothing. No listener of any instance is called if the classes are plain (C27), even if the call fails. The call is not atomic: values assigned before a refused one stay.", "quantifier": "all classes, dictionaries with distinct keys, instances, states, flags and recursion limits; user code that does not itself modify x", "why_tests_cant": "It covers every declared class and every data dictionary, and says what does not change; the tests of the UID extension only use it through two-phase deserialization.", "anchors": [{"file": "properties/base/base.py", "symbol": "HasProperties.deserialize"}, {"file": "properties/extras/uid.py", "symbol": "HasUID.deserialize"}]}
{"id": "C96", "title": "Old names warn once per renaming and change nothing else", "statement": "Reading, assigning or deleting through the old name of a renamed property issues one FutureWarning naming both names for each renaming on the way to the attribute, in order, except for those declared with warn=False; value, exception and effects are then those of the use of the last name. A use of a name that is not renamed issues none. Where the warning filter turns a warning into an exception the use ends with it: nothing has been read, assigned or deleted. Renamed(new_name, warn=w) is accepted exactly if new_name is text and w is absent or a bool; otherwise TypeError.", "quantifier": "all classes with distinct names, chains of renamings of any length, settings of warn, warning filters, values, states and recursion limits", "why_tests_cant": "Chains have any length and filters are arbitrary predicates on warnings; that nothing else changes is an equality of all outcomes and states.", "anchors": [{"file": "properties/basic.py", "symbol": "Renamed.display_warning"}, {"file": "properties/basic.py", "symbol": "Renamed.get_property"}, {"file": "properties/basic.py", "symbol": "Renamed.warn"}, {"file": "properties/basic.py", "symbol": "Renamed.new_name"}]}
{"id": "C97", "title": "Descriptions and error messages of arrays tell what was declared and what failed", "statement": "The description of an Array, Vector3, Vector2, Vector3Array or Vector2Array property determines its class, the shapes and the types it accepts: two declarations, made by any settings, with the same description and the same coercion accept the same values with the same results. When a value is refused the message contains the description and ends with the reason: 'Invalid dtype.' exactly if the array made of the value has the right class and none of the declared types, 'Invalid shape.' exactly if its type is declared and no declared shape fits, 'The vector must have a length specified.' exactly if a vector that passes is to be scaled and has length zero, and nothing more otherwise. The value described is the array made by coercion, not the list that was assigned. A message about a list, tuple or array assigned to an instance determines the name of the property and the class of the instance; without an instance the name is not in it.", "quantifier": "all property classes, sequences of settings, values, wrapper behaviours, class relations, names and ways to write integers", "why_tests_cant": "That different declarations have different descriptions is injectivity of a text rendering with lists of shapes of any length; that the reason fits holds for all arrays and declarations.", "anchors": [{"file": "properties/math.py", "symbol": "Array.info"}, {"file": "properties/math.py", "symbol": "Array.error"}, {"file": "properties/math.py", "symbol": "Array.validate"}, {"file": "properties/math.py", "symbol": "BaseVector.validate"}]}
{"id": "C98", "title": "Sets and dictionaries stay sets and dictionaries", "statement": "If the values a program brings in (arguments, results of its own functions, default values, results of json) contain only proper sets and dictionaries, at any depth - items and keys hashable and no two of them equal - then so do all values instances ever store and all values calls return, whatever is assigned, coerced, validated, serialized, deserialized or copied, and also after calls that fail; and an instance stores at most one value per name. So the data serialize returns has no key twice, and what C93 says of validate() holds after every such program without conditions on sets and dictionaries.", "quantifier": "all programs of any length, environments, user functions, states and recursion limits", "why_tests_cant": "An invariant of all histories of calls with arbitrary user functions, for values of any depth.", "anchors": [{"file": "properties/base/containers.py", "symbol": "Tuple.validate"}, {"file": "properties/base/containers.py", "symbol": "Dictionary.validate"}, {"file": "properties/base/containers.py", "symbol": "Dictionary.to_json"}, {"file": "properties/base/base.py", "symbol": "HasProperties.serialize"}]}
{"id": "C99", "title": "What the generated documentation says", "statement": "In the documentation of a property, the text about its type names every class at a leaf of its declaration (through Lists, Tuples, Sets and Unions, to any depth), separated by commas, each with the words of the containers around it, and nothing else, so that two declarations have the same text only if they have the same leaves. The containers of a leaf are listed innermost first: a Set of Lists of Integers is documented as a list of a set of Integers. The default is shown unless it is undefined, None or empty; a function or class given as default is called, and documenting a property fails only if that call does. The documentation of a class is its docstring followed by the sections: after the docstring there is exactly one line for each documented property (C36) and none for other names, and the text determines the properties of each section, their order and the text of each.", "quantifier": "all declarations, nested to any depth; all classes that class statements can produce; all docstrings and names without asterisks and line breaks", "why_tests_cant": "The text is made by repeated replacement in the text of inner properties, for declarations of any depth; that texts of different classes differ is a statement about all pairs of classes.", "anchors": [{"file": "properties/basic.py", "symbol": "GettableProperty.sphinx"}, {"file": "properties/basic.py", "symbol": "GettableProperty.sphinx_class"}, {"file": "properties/basic.py", "symbol": "Property.sphinx"}, {"file": "properties/base/containers.py", "symbol": "Tuple.sphinx_class"}, {"file": "properties/base/instance.py", "symbol": "Instance.sphinx_class"}, {"file": "properties/base/union.py", "symbol": "Union.sphinx_class"}, {"file": "properties/base/base.py", "symbol": "PropertyMetaclass.__new__"}]}
{"id": "C100", "title": "Unpickled instances", "statement": "pickle.loads(pickle.dumps(hp)) calls no listener, no error hook and no default function and changes no instance. It gives a new instance of the same class with the same listeners; every instance that hp leads to has exactly one twin, with equal values in which twins stand for the instances, so that sharing and cycles are kept (unlike properties.copy, C94). If all values were admitted by their properties, the values of the new instances are, too. From the unpickled instance one gets to new instances only; later programs on it never change the original and what belongs to it, and conversely. If the references have no cycle, no value is NaN or infinite where a Float is expected, and no Renamed property stands for one that holds instances, properties.equal finds the two equal.", "quantifier": "all states of all instances, with any sharing and cycles; all later programs", "why_tests_cant": "The test pickles one chain of three instances; that sharing, cycles and admitted values survive is a statement about all graphs of instances.", "anchors": [{"file": "properties/base/base.py", "symbol": "PropertyMetaclass.__call__"}, {"file": "properties/base/base.py", "symbol": "HasProperties.__init__"}, {"file": "properties/base/base.py", "symbol": "equal"}, {"file": "tests/test_serialization.py", "symbol": "TestSerialization.test_pickle"}]}
{"id": "C101", "title": "ValidationErrors say what failed", "statement": "A ValidationError that a call of the library ends with carries at least one error tuple, and each of them is (missing, property, instance), (invalid, property, instance or None), (None, None, ...) for a validation that failed otherwise, or one that user code gave to a ValidationError it raised. The error hook is never called with an empty list or with other tuples. So a constructor that returns an instance has made every assignment of its keywords.", "quantifier": "all class tables, calls, values, programs and user code that gives its ValidationErrors error tuples (as the public constructor of ValidationError does)", "why_tests_cant": "The tests look at the tuples of some errors; that no path through nested validation loses them is a statement about all calls.", "anchors": [{"file": "properties/utils.py", "symbol": "ValidationError.__init__"}, {"file": "properties/base/base.py", "symbol": "HasProperties.validate"}, {"file": "properties/base/base.py", "symbol": "HasProperties.__init__"}, {"file": "properties/basic.py", "symbol": "GettableProperty.error"}]}
{"id": "C102", "title": "Listeners cannot redirect an assignment", "statement": "All listeners of an assignment share one change dictionary, in which they may write, add and remove entries. Whatever they do to it: in each of the three phases the listeners of the assigned property that are enabled then are called, and the dictionary the first of them gets says this property, the value it had before the assignment and this phase; the value that the validators left in it is stored under the assigned property and no other; entries that listeners add are handed on to the next phases. If the validators remove the value, the assignment ends with KeyError and nothing is stored. If listeners only replace the value, the assignment is the one of the main model.", "quantifier": "all states, properties and values, all listeners with any effect on the dictionary and the state", "why_tests_cant": "Tests have listeners that read the dictionary or replace its value; what others may do to it, and with what consequences, is a statement about all listeners.", "anchors": [{"file": "properties/base/base.py", "symbol": "HasProperties._set"}, {"file": "properties/base/base.py", "symbol": "HasProperties._notify"}, {"file": "properties/handlers.py", "symbol": "_get_listeners"}]}
{"id": "C103", "title": "The order of keywords does not matter", "statement": "If distinct keywords name mutable properties that hold no instances, and the class registers no listeners for them, an instance may be constructed with them in any order. If one order builds an instance, so does every other, and the instances have the same values for every property and everything else is the same; if one order fails, so does every other; and if it fails with a ValidationError, the others fail with a ValidationError that reports the same errors, in another order. With listeners for the properties the order can matter.", "quantifier": "all classes, keywords, values, permutations and recursion limits that suffice for the declarations", "why_tests_cant": "Tests construct with one or two orders; all permutations of all keywords with all values, accepted and rejected, cannot be enumerated.", "anchors": [{"file": "properties/base/base.py", "symbol": "HasProperties.__init__"}, {"file": "properties/base/base.py", "symbol": "HasProperties._set"}, {"file": "properties/basic.py", "symbol": "Property.get_property"}]}
{"id": "C104", "title": "Properties without listeners are variables of their own", "statement": "Take any history of assignments and deletions of properties of any instances that have no listeners and whose types involve no instances and colours, where errors are caught. Afterwards each property holds what the operations on this property alone say: the last value that its type accepts since the last deletion, in the form `prop.validate(None, value)` gives on its own; a refused assignment changes nothing. Reading gives this value, or None. Properties that are not operated on hold what they held. So operations on different properties, or different instances, can be interleaved in any way. An assignment raises if its value is refused, and returns if it is accepted and the value held is one of the type, unless the type is a Union of Floats, Complexes or Dictionaries with others.", "quantifier": "all classes, property types without instances and colours, instances, finite histories, values and recursion limits that suffice for the declarations", "why_tests_cant": "Tests assign a few values to a few properties; histories of any length over any types and instances cannot be enumerated.", "anchors": [{"file": "properties/basic.py", "symbol": "Property.get_property"}, {"file": "properties/base/base.py", "symbol": "HasProperties._set"}, {"file": "properties/base/base.py", "symbol": "HasProperties._get"}]}
{"id": "C105", "title": "Constructing with keywords is constructing and then assigning", "statement": "Take keywords that name distinct mutable properties that hold no instances, of a class that registers no listeners for them. Constructing an instance with these keywords comes to the same as constructing it without them and then assigning them one after the other. The constructor returns if and only if every assignment returns, and then the new instance and everything else are the same either way. If the constructor raises a ValidationError, this reports exactly what the ValidationErrors of the assignments report, in their order.", "quantifier": "all classes, keywords, values, states and recursion limits that suffice for the declarations", "why_tests_cant": "Tests construct a few classes with a few keywords; all classes, values accepted and refused and all states cannot be enumerated.", "anchors": [{"file": "properties/base/base.py", "symbol": "HasProperties.__init__"}, {"file": "properties/base/base.py", "symbol": "PropertyMetaclass.__call__"}, {"file": "properties/basic.py", "symbol": "Property.get_property"}]}
{"id": "C106", "title": "Programs cannot tell in which order values were assigned", "statement": "Take two states of a program that differ only in the order in which the values of instances were assigned. Any further program that does not serialize or copy without save_dynamic=True ends with the same result or exception in both, calls the same listeners and hooks with the same arguments, and leaves states that differ in this order only. This holds too if the functions it is given (listeners, defaults, validators, serializers) are such programs. serialize() returns in both or raises in both, and what it returns is the same up to the order of the entries of dictionaries, at any depth. In particular instances constructed with the same keywords in another order, as in C103, cannot be told apart by such programs.", "quantifier": "all classes, programs, user functions, states and recursion limits", "why_tests_cant": "Tests run a few programs on instances assigned in one order; all programs and all orders cannot be enumerated.", "anchors": [{"file": "properties/base/base.py", "symbol": "HasProperties.equal"}, {"file": "properties/base/base.py", "symbol": "HasProperties.serialize"}, {"file": "properties/base/base.py", "symbol": "HasProperties._set"}, {"file": "properties/base/base.py", "symbol": "HasProperties.validate"}]}
{"id": "C107", "title": "The order of the entries of the input of deserialize does not matter", "statement": "Take a class without error hook, and a dictionary whose keys are distinct texts, of which those that name properties name properties of basic types that have no custom deserializer and no listener. deserialize() of the same entries in another order returns exactly if it does in the first order, with strict and assert_valid as given; the instances hold the same values, and no program that does not serialize without save_dynamic=True can tell them apart.", "quantifier": "all classes, dictionaries and permutations of their entries, states, options strict and assert_valid, and recursion limits", "why_tests_cant": "Tests read a few dictionaries in one order; all dictionaries and all permutations cannot be enumerated, and the order in which values are assigned could matter through defaults, dynamic properties and validators.", "anchors": [{"file": "properties/base/base.py", "symbol": "HasProperties.deserialize"}, {"file": "properties/base/base.py", "symbol": "HasProperties._deserialize_class"}, {"file": "properties/utils.py", "symbol": "filter_props"}, {"file": "properties/basic.py", "symbol": "Property.deserialize"}]}
{"id": "C108", "title": "Copies do not depend on the order in which values were assigned", "statement": "Take two states of a program that differ only in the order in which the values of instances were assigned, and an instance that stores values of basic properties without custom serializers and deserializers, or whose serialized form is flat and names basic properties. properties.copy of it returns in both states or raises in both; the copies hold the same values, and no program that does not serialize without save_dynamic=True can tell them apart.", "quantifier": "all classes, instances, pairs of such states, options of serialize and deserialize but save_dynamic and trusted, and recursion limits", "why_tests_cant": "Tests copy a few instances assigned in one order; copy goes through a dictionary that does show the order, so that only an argument over all orders shows that it is lost again.", "anchors": [{"file": "properties/base/base.py", "symbol": "copy"}, {"file": "properties/base/base.py", "symbol": "HasProperties.serialize"}, {"file": "properties/base/base.py", "symbol": "HasProperties.deserialize"}]}
{"id": "C109", "title": "Deserialize ignores keys that name no property", "statement": "Without strict, entries of the input whose keys name no property of the class (with trusted: of any class) and are not '__class__' can be left out or put in, anywhere, whatever keys and values they have: deserialize() ends with the same result or exception and leaves the same state. Input that names no property at all gives exactly what the class gives when it is called without arguments while listeners are disabled.", "quantifier": "all classes, dictionaries, sets of such entries, user functions, states, options but strict, and recursion limits", "why_tests_cant": "Tests add a few extra keys with simple values; all keys, values, positions and classes cannot be enumerated.", "anchors": [{"file": "properties/base/base.py", "symbol": "HasProperties.deserialize"}, {"file": "properties/utils.py", "symbol": "filter_props"}]}
{"id": "C110", "title": "strict and assert_valid only refuse", "statement": "Where no class has Union properties or custom deserializers, what deserialize() returns with strict=True, for input of any depth, it also returns without it, and leaves the same state. For any classes, deserialize() with assert_valid=True returns an instance exactly if it returns it without assert_valid and validate() of it then returns True; the state is the one validate() leaves.", "quantifier": "all classes, input values, user functions, states, options and recursion limits", "why_tests_cant": "Tests compare the options on a few inputs; nested input of every depth cannot be enumerated, and the options are passed on through containers and instances.", "anchors": [{"file": "properties/base/base.py", "symbol": "HasProperties.deserialize"}, {"file": "properties/base/base.py", "symbol": "HasProperties._deserialize_class"}, {"file": "properties/base/instance.py", "symbol": "Instance.deserialize"}, {"file": "properties/base/containers.py", "symbol": "Tuple.deserialize"}]}
{"id": "C111", "title": "trusted matters only for input that names a class", "statement": "Where no class has custom deserializers, deserialize() with trusted=True and without it ends with the same result or exception and leaves the same state for every input in which no dictionary, at any depth, has a value under '__class__' other than an empty one.", "quantifier": "all classes (with containers, instances and Unions), input values of any depth, user functions, states, other options and recursion limits", "why_tests_cant": "Tests try a few inputs; nested input of every depth through containers, instances and Unions cannot be enumerated.", "anchors": [{"file": "properties/base/base.py", "symbol": "HasProperties.deserialize"}, {"file": "properties/base/base.py", "symbol": "HasProperties._deserialize_class"}, {"file": "properties/base/union.py", "symbol": "Union.deserialize"}, {"file": "properties/base/instance.py", "symbol": "Instance.deserialize"}]}
{"id": "C113", "title": "Without trusted and strict, names of classes in the input make no difference", "statement": "deserialize() without trusted and strict ends with the same result or exception and the same state whether or not the dictionaries read as instances, at any depth of containers and Instance properties, carry '__class__' entries, and whatever these say. (A Union does look at them, also without trusted.)", "quantifier": "all classes without a property named '__class__', all inputs of any depth with any such entries, user functions, states and recursion limits", "why_tests_cant": "Tests try a few inputs; which dictionaries carry the entry and what it says, at every depth, cannot be enumerated.", "anchors": [{"file": "properties/base/base.py", "symbol": "HasProperties.deserialize"}, {"file": "properties/base/base.py", "symbol": "HasProperties._deserialize_class"}, {"file": "properties/base/instance.py", "symbol": "Instance.deserialize"}, {"file": "properties/base/containers.py", "symbol": "Tuple.deserialize"}, {"file": "properties/base/containers.py", "symbol": "Dictionary.deserialize"}]}
{"id": "C115", "title": "Copies do not depend on trusted and strict where instances are of the classes declared", "statement": "Where no Union and no custom serializer or deserializer is involved and every Instance property holds None or an instance of the very class declared, copy() is the same for all values of trusted and strict, whatever the other options: the same result or exception and the same state after it.", "quantifier": "all such classes, states (with references of any shape) and values of any depth, registries of classes, user functions and recursion limits", "why_tests_cant": "Tests copy a few instances; nesting, sharing and registries have no bound.", "anchors": [{"file": "properties/base/base.py", "symbol": "copy"}, {"file": "properties/base/base.py", "symbol": "HasProperties.serialize"}, {"file": "properties/base/base.py", "symbol": "HasProperties.deserialize"}, {"file": "properties/base/base.py", "symbol": "HasProperties._deserialize_class"}]}
{"id": "C112", "title": "include_class only adds the names of classes", "statement": "Where stored properties have no custom serializers and none is named '__class__', serialize(include_class=True) and serialize(include_class=False) either both return or both raise the same exception, leave the state alone, and what the first returns is what the second returns with '__class__' entries put at the end of some dictionaries, at any depth: no other key, value or order differs.", "quantifier": "all classes (with containers, instances and Unions), instances that refer to each other in any way, values of any depth, states and recursion limits", "why_tests_cant": "Tests compare a few instances; nesting through containers, Unions and instances has no bound.", "anchors": [{"file": "properties/base/base.py", "symbol": "HasProperties.serialize"}, {"file": "properties/base/instance.py", "symbol": "Instance.serialize"}, {"file": "properties/base/containers.py", "symbol": "Tuple.serialize"}, {"file": "properties/base/containers.py", "symbol": "Dictionary.serialize"}, {"file": "properties/base/union.py", "symbol": "Union.serialize"}]}
{"id": "C114", "title": "Copies do not depend on include_class", "statement": "Where no Union and no custom serializer (nor, for containers and instances, custom deserializer) is involved and every instance held by an Instance property is of the very class declared, copy() is the same with include_class=True and with include_class=False, whatever the other options (trusted, strict, assert_valid): the same result or exception and the same state after it.", "quantifier": "all such classes, states (with references of any shape) and values of any depth, user functions and recursion limits", "why_tests_cant": "Tests copy a few instances; nesting and sharing have no bound.", "anchors": [{"file": "properties/base/base.py", "symbol": "copy"}, {"file": "properties/base/base.py", "symbol": "HasProperties.serialize"}, {"file": "properties/base/base.py", "symbol": "HasProperties.deserialize"}, {"file": "properties/base/instance.py", "symbol": "Instance.serialize"}]}
