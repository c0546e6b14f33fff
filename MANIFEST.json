{
 "claims": [
  {
   "property": "C01",
   "status": "proved",
   "theorems": [
    "Verif.C01_stored_values_admitted",
    "Verif.C01_empty",
    "Verif.C01_validated_value_admitted",
    "Verif.C01_read_admitted",
    "Verif.C01_substitution_breaks",
    "Verif.C01_private_keyword_breaks"
   ],
   "note": "Invariant over all programs, callbacks and recursion limits. Renamed properties have no type of their own. Both exceptions named in the statement are shown to be needed."
  },
  {
   "property": "C02",
   "status": "proved",
   "theorems": [
    "Verif.C02_idempotent",
    "Verif.C02_later",
    "Verif.C02_unions",
    "Verif.settled_instances",
    "Verif.settled_plain",
    "Verif.C02_example",
    "Verif.C02_unions_example",
    "Verif.stable_plain",
    "Verif.stable_cased",
    "Verif.stable_regex",
    "Verif.C02_string_not_idempotent",
    "Verif.C02_union_not_idempotent"
   ],
   "note": "Proved for every nesting of all types. Strings must be stable (a String whose case change or stripping undoes itself is excluded by StableText; three families of stable Strings are shown). Unions are covered when no alternative changes a value that a later alternative may hold (Settled) and error hooks stay silent. The failures for String and Union that the statement mentions are proved as counterexamples."
  },
  {
   "property": "C03",
   "status": "proved",
   "theorems": [
    "Verif.C03_integer_accepts",
    "Verif.C03_integer_cast_accepts",
    "Verif.C03_integer_rejects",
    "Verif.C03_integer_in_bounds",
    "Verif.C03_integer_refuses",
    "Verif.C03_integer_infinity_overflows",
    "Verif.C03_float_accepts",
    "Verif.C03_float_accepts_int",
    "Verif.C03_float_in_bounds",
    "Verif.C03_float_refuses",
    "Verif.C03_nan_ignores_bounds"
   ],
   "note": "Decision theorems for all values; the exceptions named in the statement are theorems. Rejections are for instances with the default error hook."
  },
  {
   "property": "C04",
   "status": "proved",
   "theorems": [
    "Verif.C04_string_accepts",
    "Verif.C04_no_strip_char_at_ends"
   ],
   "note": "Regex search and case mapping are arbitrary parameters."
  },
  {
   "property": "C05",
   "status": "proved",
   "theorems": [
    "Verif.C05_choice_accepts",
    "Verif.C05_order_irrelevant",
    "Verif.C05_choice_fixed",
    "Verif.C05_declares_names",
    "Verif.C05_declares_table",
    "Verif.C05_names_accept"
   ],
   "note": "Choices range over all declarations; which of them are accepted is characterised (C05_declares_names, C05_declares_table)."
  },
  {
   "property": "C06",
   "status": "proved",
   "theorems": [
    "Verif.C06_result_is_rgb",
    "Verif.C06_triples",
    "Verif.C06_idempotent",
    "Verif.C06_six_digits",
    "Verif.C06_three_digits",
    "Verif.C06_named",
    "Verif.C06_random",
    "Verif.C06_firebrick_missing"
   ],
   "note": "bool channels count as integers, as in Python. The table misspells firebrick."
  },
  {
   "property": "C07",
   "status": "proved",
   "theorems": [
    "Verif.C07_reads_back",
    "Verif.C07_short",
    "Verif.C07_only_moments",
    "Verif.C07_injective",
    "Verif.C07_property",
    "Verif.C07_example",
    "Verif.C07_early_years",
    "Verif.canon_datetime_any",
    "Verif.C07_accepts",
    "Verif.C07_text"
   ],
   "note": "strftime and strptime modelled for the two formats with ASCII digits and naive datetimes. Where %Y is not zero padded (glibc before Python 3.14) all years before 1000 fail to read back (C07_early_years). C07_accepts: exactly which text is read (both directions), with the whole text consumed."
  },
  {
   "property": "C08",
   "status": "proved",
   "theorems": [
    "Verif.C08_reads_back",
    "Verif.C08_injective",
    "Verif.C08_range",
    "Verif.C08_property",
    "Verif.C08_example",
    "Verif.canon_uuid_any",
    "Verif.C08_spellings"
   ],
   "note": "str(UUID) and UUID(text) modelled after the standard library, text ASCII. C08_spellings: the spellings without dashes, with braces and with urn: or uuid: in front."
  },
  {
   "property": "C09",
   "status": "proved",
   "theorems": [
    "Verif.C09_invalid_value",
    "Verif.C09_invalid_value_dynamic",
    "Verif.C09_failed_assignment",
    "Verif.C09_busy"
   ],
   "note": "User code is read-only (makes no modifying call). C09_failed_assignment classifies every failure: value rejected, a validator raised (nothing changed, no observer called), or a later failure with the value stored. C09_busy: the same for the instance assigned to, when user code may do anything except modify that instance."
  },
  {
   "property": "C10",
   "status": "proved",
   "theorems": [
    "Verif.C10_read_after_assignment",
    "Verif.C10_no_validators",
    "Verif.C11_deletion",
    "Verif.C10_busy"
   ],
   "note": "User code is read-only. C10_busy: for the instance assigned to, user code may modify any other instance."
  },
  {
   "property": "C11",
   "status": "proved",
   "theorems": [
    "Verif.C11_assignment",
    "Verif.C11_assignment_observers",
    "Verif.C11_deletion",
    "Verif.C11_busy",
    "Verif.C11_busy_deletion"
   ],
   "note": "The calls are those of an inductive protocol in Spec/Assign. Callbacks are read-only; the exact list of validator calls needs callbacks that do not run validations themselves. C11_busy and C11_busy_deletion: the observer calls of the instance assigned to, when callbacks may modify any other instance, with their own notifications. For arbitrary callbacks see C72."
  },
  {
   "property": "C12",
   "status": "proved",
   "theorems": [
    "Verif.C12_change_observers",
    "Verif.C12_busy"
   ],
   "note": "User code is read-only. The comparison is the equal method of the property, run in a state that agrees with the first one except for the assigned property. C12_busy: user code may modify any other instance."
  },
  {
   "property": "C13",
   "status": "proved",
   "theorems": [
    "Verif.Handlers.C13_restores",
    "Verif.Handlers.C13_inside_disabled",
    "Verif.Handlers.C13_same_object_nested_breaks"
   ],
   "note": "Aliasing of set objects is modelled. The claim needs distinct context objects; the last theorem shows why."
  },
  {
   "property": "C14",
   "status": "proved",
   "theorems": [
    "Verif.Handlers.C14_exit",
    "Verif.Handlers.C14_interleaving",
    "Verif.Handlers.C14_lifo",
    "Verif.Handlers.C14_interleaving_breaks"
   ],
   "note": "Any number of contexts in any order; aliasing of the set objects is modelled. C14_interleaving_breaks is the overlapping case."
  },
  {
   "property": "C15",
   "status": "proved",
   "theorems": [
    "Verif.C15_defaults",
    "Verif.C15_silent",
    "Verif.C15_keywords",
    "Verif.C15_keyword_values",
    "Verif.C15_keyword_example",
    "Verif.C15_keyword_coerced"
   ],
   "note": "Property names distinct (they are keys of a dictionary); user code does not set properties of the new instance by itself. Validator listeners run by user code that validates the instance under construction are not counted as calls for defaults."
  },
  {
   "property": "C16",
   "status": "proved",
   "theorems": [
    "Verif.C16_construct",
    "Verif.C16_one_tuple",
    "Verif.C16_unknown",
    "Verif.C32_errors",
    "Verif.C16_succeeds"
   ],
   "note": "For classes with the default error hook and user code that does not call the private _validate_props; construction without keywords is assumed to succeed (defaults, C15). Keywords named cls and self collide with parameters and are excluded."
  },
  {
   "property": "C17",
   "status": "proved",
   "theorems": [
    "Verif.C17_valid",
    "Verif.C17_validate",
    "Verif.C17_example"
   ],
   "note": "For every finite world: validate() returns True iff the instance is in a set of instances each of which is in order relative to the set (greatest fixed point), else raises. Hypotheses: default error hooks, validators and getters only read, checks build no new instances and raise only ValidationError/ValueError/TypeError/KeyError/AttributeError."
  },
  {
   "property": "C18",
   "status": "proved",
   "theorems": [
    "Verif.C18_report",
    "Verif.C18_example"
   ],
   "note": "Under the stated condition that checks raise only ValidationErrors; default error hooks (calls recorded)."
  },
  {
   "property": "C19",
   "status": "proved",
   "theorems": [
    "Verif.C19_markers_restored",
    "Verif.C19_histories_end_idle"
   ],
   "note": "All calls, outcomes, callbacks and recursion limits of the core model."
  },
  {
   "property": "C20",
   "status": "proved",
   "theorems": [
    "Verif.C20_quarantine_restored",
    "Verif.C20_histories_keep_quarantine"
   ],
   "note": "All calls, outcomes, callbacks and recursion limits of the core model."
  },
  {
   "property": "C21",
   "status": "proved",
   "theorems": [
    "Verif.C21_terminates",
    "Verif.C17_example"
   ],
   "note": "Depth (N+1)(2D+K+4)+D+K+1 suffices, N instances, nesting D, attribute reads ending within K."
  },
  {
   "property": "C22",
   "status": "proved",
   "theorems": [
    "Verif.C22_serialize",
    "Verif.C22_typed",
    "Verif.C22_example"
   ],
   "note": "Success at any recursion limit: nothing changed, keys exactly the properties whose value is not None plus __class__, values JSON data given by an independent serialization relation (SerP). Assumes save_dynamic=False, custom serializers that compute JSON data (None for None only), stored values that have a JSON form (implied by well-typedness without plain Property and Union, C22_typed) and that json.loads(json.dumps(v)) is JSON data."
  },
  {
   "property": "C23",
   "status": "proved",
   "theorems": [
    "Verif.C23_ends",
    "Verif.C23_cycle",
    "Verif.C23_acyclic",
    "Verif.C23_example"
   ],
   "note": "For every world: recursion depth serDepth D (number of instances) is always enough, the call leaves every instance as it was, a reachable cycle gives an error (SelfReferenceError if nothing else stands in the way), and without one the call succeeds. Assumes save_dynamic=False, custom serializers that compute an answer or raise, and Union alternatives that build no instances."
  },
  {
   "property": "C24",
   "status": "proved",
   "theorems": [
    "Verif.C24_round_trip",
    "Verif.C24_copy",
    "Verif.C24_equal",
    "Verif.C24_example",
    "Verif.C24_union_example",
    "Verif.C24_deleted_comes_back",
    "Verif.C24_union_integer_float",
    "Verif.C24_union_integer_string",
    "Verif.C24_union_list_string",
    "Verif.readBy_own_class",
    "Verif.readBy_first",
    "Verif.unread_instance",
    "Verif.unread_sequence",
    "Verif.unread_dictionary",
    "Verif.unread_scalar",
    "Verif.unread_refused",
    "Verif.canon_bool",
    "Verif.canon_int",
    "Verif.canon_float",
    "Verif.canon_string",
    "Verif.canon_choice",
    "Verif.canon_color",
    "Verif.canon_uuid",
    "Verif.canon_datetime",
    "Verif.C24_function_default"
   ],
   "note": "serialize, deserialize and copy of every canonical acyclic instance (Canon): scalars in JSON form or with inverse custom serializer and deserializer, lists, sets and tuples, dictionaries, nested instances and (with include_class and trusted) subclasses, and Unions whose value is refused by the earlier alternatives and whose data is read by the alternative that wrote it. The result is new, leaves all existing objects alone, is a copy property by property, and compares equal to the original. Outside Canon: Unions with strict_instances, with a default or declared read-only, custom serializers on containers and Instances, auto-created Instances, function defaults that do more than compute a value, non-scalar set items or dictionary keys. Equality additionally needs classes without Renamed or Dynamic properties, no NaN, and earlier alternatives that do not raise when comparing. An instance whose property with a default was deleted gets the default back (C24_deleted_comes_back), so that case is excluded by Held. Unions for which the round trip is false: Integer or Float, Integer or String, List or String (C24_union_*)."
  },
  {
   "property": "C25",
   "status": "proved",
   "theorems": [
    "Verif.C25_classes",
    "Verif.C25_property",
    "Verif.C25_top",
    "Verif.C25_nested",
    "Verif.C25_example_foreseen",
    "Verif.C25_example"
   ],
   "note": "For every input and however the call ends, afterwards every instance is of a class named by the declarations of the called class (any depth) or of the instances existing before; the set does not depend on the input. The result is a new instance of exactly the called class; an Instance property gives exactly the declared class. User functions are assumed to name only such classes and to trust no input themselves."
  },
  {
   "property": "C26",
   "status": "proved",
   "theorems": [
    "Verif.C26_unknown_key_rejected",
    "Verif.C26_foreign_class_rejected",
    "Verif.C26_unknown_keys_ignored"
   ],
   "note": "The class chosen by the input is specified by ChosenClass. Non-text unknown keys raise TypeError while the message is built, which the theorem states."
  },
  {
   "property": "C27",
   "status": "proved",
   "theorems": [
    "Verif.C27_built_instance",
    "Verif.C27_assert_valid_after",
    "Verif.C27_built_example",
    "Verif.C27_no_listener_called",
    "Verif.C27_property",
    "Verif.C27_example",
    "Verif.C27_nested_union_calls"
   ],
   "note": "For any declarations and user code no listener is called for the instance being built (immutable properties scalar); assert_valid runs afterwards. For plain declarations no listener is called at all; with a Union in a Union that stronger claim is false (C27_nested_union_calls)."
  },
  {
   "property": "C28",
   "status": "proved",
   "theorems": [
    "Verif.C28_decides",
    "Verif.C28_answer",
    "Verif.C28_refl",
    "Verif.C28_symm",
    "Verif.C28_trans",
    "Verif.C28_example",
    "Verif.C28_cycle_not_symmetric",
    "Verif.C28_float_not_transitive",
    "Verif.C28_alias_changes_equality"
   ],
   "note": "equal() decides the independently defined Same relation on acyclic comparable data and leaves the state alone; reflexive always, symmetric when items of Sets have no tolerance (otherwise the greedy pairing need not be), transitive for types without tolerance and alternatives. Dynamic properties excluded. Counterexamples for cycles, Float tolerance and Renamed aliases of instances are theorems."
  },
  {
   "property": "C29",
   "status": "proved",
   "theorems": [
    "Verif.C29_data_unchanged",
    "Verif.C29_no_listener_called",
    "Verif.C29_histories"
   ],
   "note": "All calls that are not set, delete, reset or listener registration; user code is read-only."
  },
  {
   "property": "C30",
   "status": "proved",
   "theorems": [
    "Verif.C30_seq_accepted",
    "Verif.C30_seq_accepts",
    "Verif.C30_seq_kind",
    "Verif.C30_seq_rejected",
    "Verif.C30_dict_accepted",
    "Verif.C30_dict_accepts",
    "Verif.C30_dict_coerce",
    "Verif.C30_dict_kind",
    "Verif.C30_dict_key_rejected",
    "Verif.C30_errors"
   ],
   "note": "Acceptance is characterised in both directions for every item type. Container values have no identity in this model; that the resulting container object is new is C63, on a heap model."
  },
  {
   "property": "C31",
   "status": "proved",
   "theorems": [
    "Verif.C31_lengths",
    "Verif.Limits.C31_limits",
    "Verif.C18_example"
   ],
   "note": "Limits enforced at every depth of nested containers; histories of limit settings."
  },
  {
   "property": "C32",
   "status": "proved",
   "theorems": [
    "Verif.C32_first_alternative",
    "Verif.C32_all_rejected",
    "Verif.C32_other_errors_pass",
    "Verif.C32_cases",
    "Verif.C32_errors"
   ],
   "note": "For any list of alternatives and any recursion limit."
  },
  {
   "property": "C33",
   "status": "proved",
   "theorems": [
    "Verif.C33_serialize",
    "Verif.C33_deserialize_named",
    "Verif.C33_deserialize_first",
    "Verif.C33_deserialize_none",
    "Verif.C33_deserialize_escapes"
   ],
   "note": "For any list of alternatives and any recursion limit."
  },
  {
   "property": "C34",
   "status": "proved",
   "theorems": [
    "Verif.C34_splits",
    "Verif.C34_partition",
    "Verif.C34_deserialize_reads"
   ],
   "note": "For every class and dictionary."
  },
  {
   "property": "C35",
   "status": "proved",
   "theorems": [
    "Verif.Cls.C35_single_inheritance",
    "Verif.Cls.C35_one_line",
    "Verif.Cls.C35_mro",
    "Verif.Cls.C35_false_for_diamonds"
   ],
   "note": "All class creation histories. Three counterexamples show that the restriction is needed."
  },
  {
   "property": "C36",
   "status": "proved",
   "theorems": [
    "Verif.Cls.C36_documented_once",
    "Verif.Cls.C36_alphabetical",
    "Verif.Cls.C36_example"
   ],
   "note": "All class creation histories."
  },
  {
   "property": "C37",
   "status": "proved",
   "theorems": [
    "Verif.C37_get",
    "Verif.C37_set",
    "Verif.C37_del",
    "Verif.C37_cycle",
    "Verif.C37_keyword"
   ],
   "note": "Reading, assigning and deleting a renamed property, for any chain of renamings, equals the same operation on the target; a cycle of renamings raises at every depth."
  },
  {
   "property": "C38",
   "status": "proved",
   "theorems": [
    "Verif.C38_read_admitted",
    "Verif.C38_set_validated",
    "Verif.C38_no_setter",
    "Verif.C38_no_deleter",
    "Verif.C38_keyword_rejected",
    "Verif.C38_new_not_stored",
    "Verif.C38_never_stored"
   ],
   "note": "Reading gives an admitted value or None; setting validates first; nothing is stored by the constructor or by any program on existing instances. Deserializing does store an input entry under the name: C38_deserialize_stores."
  },
  {
   "property": "C39",
   "status": "proved",
   "theorems": [
    "Verif.C39_immutable_kept",
    "Verif.C39_reads_agree"
   ],
   "note": "Any program with any callbacks and recursion limit keeps the stored value of every property that is not mutable on every existing instance, as long as the private attribute _backend is not assigned."
  },
  {
   "property": "C40",
   "status": "proved",
   "theorems": [
    "Verif.Links.C40_pushes",
    "Verif.Links.C40_in_step",
    "Verif.Links.C40_group",
    "Verif.Links.C40_link",
    "Verif.Links.C40_example",
    "Verif.Links.C40_cycle_example",
    "Verif.Links.C40_inconsistent_cycle",
    "Verif.Links.C40_rejected_by_target",
    "Verif.Links.C40_delete_source",
    "Verif.Links.C40_no_change",
    "Verif.Links.C40_no_change_example"
   ],
   "note": "Model of link.py and the observer calls of _set, any values and transforms. Total correctness: the assignment succeeds. Consistent is the hypothesis that agreeing values exist; C40_inconsistent_cycle and C40_rejected_by_target show it is needed. ExactEqual: prop.equal holds of same values only. Links are the only observers; traitlets not modelled."
  },
  {
   "property": "C41",
   "status": "proved",
   "theorems": [
    "Verif.Links.C41_terminates",
    "Verif.Links.C41_delete_terminates",
    "Verif.Links.C41_between"
   ],
   "note": "Stack depth bounded by the number of links, on every graph, with rejecting properties and transforms."
  },
  {
   "property": "C42",
   "status": "proved",
   "theorems": [
    "Verif.Links.C42_unlinked",
    "Verif.Links.C42_relink",
    "Verif.Links.C42_resumes",
    "Verif.Links.C42_example"
   ],
   "note": "Histories of assignments, deletions, new links, unlink and relink compared with the history in a state without the link."
  },
  {
   "property": "C43",
   "status": "proved",
   "theorems": [
    "Verif.Uid.C43_unique",
    "Verif.Uid.C43_refused",
    "Verif.Uid.C43_example",
    "Verif.Uid.C43_wrong_key",
    "Verif.Uid.C43_listeners_disabled",
    "Verif.Uid.C43_stays_taken"
   ],
   "note": "For every history of constructions, uid assignments and deletions and deserializations, with listeners on, uuids not guessed before they are drawn, and flat dictionaries whose entries carry the uid of their key. C43_wrong_key and C43_listeners_disabled show that the last two hypotheses are needed; C43_stays_taken is a finding: an identifier stays taken after its instance changes it."
  },
  {
   "property": "C44",
   "status": "proved",
   "theorems": [
    "Verif.Uid.C44_flat",
    "Verif.Uid.C44_defined",
    "Verif.Uid.C44_example_graph",
    "Verif.Uid.C44_example",
    "Verif.Uid.C44_root_key"
   ],
   "note": "For all finite graphs of instances with distinct identifiers other than __root__, cycles and sharing included. C44_root_key is a finding: an instance whose identifier is __root__ is left out of the flat form."
  },
  {
   "property": "C45",
   "status": "proved",
   "theorems": [
    "Verif.Uid.C45_isomorphic",
    "Verif.Uid.C45_twice_raises",
    "Verif.Uid.C45_terminates",
    "Verif.Uid.C45_round_trip",
    "Verif.Uid.C45_example",
    "Verif.Uid.C45_diamond",
    "Verif.Uid.C45_untrusted",
    "Verif.Uid.C45_untrusted_example",
    "Verif.Uid.C45_valid",
    "Verif.Uid.C45_valid_example"
   ],
   "note": "C45_isomorphic: every deserialization of a flat form that returns built an isomorphic copy. C45_terminates: for every flat dictionary. C45_round_trip: it returns if every instance is referred to at most once. C45_twice_raises and C45_diamond are findings: sharing is written but cannot be read back, since a finished identifier counts as used. C45_untrusted: without `trusted`, no class is chosen by a name in the dictionary. C45_valid: for any dictionary, what a call that returns has made is valid."
  },
  {
   "property": "C46",
   "status": "proved",
   "theorems": [
    "Verif.Single.C46_one_instance",
    "Verif.Single.C46_start",
    "Verif.Single.C46_nested",
    "Verif.Single.C46_registered",
    "Verif.Single.C46_round_trip",
    "Verif.Single.C46_unnamed",
    "Verif.Single.C46_example",
    "Verif.Single.C46_reentered",
    "Verif.Single.C46_dictionary_consumed",
    "Verif.Single.C46_rename"
   ],
   "note": "Top-level statements: unconditional. Inside constructions: unless a name is constructed during its own construction, where the claim fails (C46_reentered). Finding: deserialize removes the identifier from the caller's dictionary, so deserializing one dictionary twice may give two instances."
  },
  {
   "property": "C47",
   "status": "proved",
   "theorems": [
    "Verif.Obs.C47_always_valid",
    "Verif.Obs.C47_as_assignment",
    "Verif.Obs.C47_outcome",
    "Verif.Obs.C47_example",
    "Verif.Obs.C47_rejected_operator",
    "Verif.Obs.C47_alias_operator",
    "Verif.Obs.C47_inner_container"
   ],
   "note": "Model with containers as objects, aliases and re-entrant listeners. Proved for all mutating methods and histories without in-place operators. Shown false for in-place operators (rejected, or applied to an alias) and for containers inside containers."
  },
  {
   "property": "C48",
   "status": "proved",
   "theorems": [
    "Verif.Obs.C48_stale",
    "Verif.Obs.C48_example"
   ],
   "note": "For all histories, including in-place operators and re-entrant listeners."
  },
  {
   "property": "C49",
   "status": "proved",
   "theorems": [
    "Verif.C49_set",
    "Verif.C49_set_order",
    "Verif.C49_dict",
    "Verif.C49_dict_lists",
    "Verif.C49_items",
    "Verif.C49_example",
    "Verif.C49_dict_example",
    "Verif.C49_tolerance_order"
   ],
   "note": "For every item equality that answers without side effects and without tolerance; C49_items shows exact item types do. NaN dictionary keys excluded. The order dependence with tolerance is a theorem, and so is what Dictionary.equal makes of lists."
  },
  {
   "property": "C50",
   "status": "proved",
   "theorems": [
    "Verif.C50_busy",
    "Verif.C50_validate",
    "Verif.C50_construct",
    "Verif.C50_assign",
    "Verif.C50_accepted",
    "Verif.C50_union",
    "Verif.C50_example_union"
   ],
   "note": "Default error hook; user code does not call the private _validate_props. Nested validation (containers, Integer tolerance) may call the hook more than once in one failing assignment (C50_example_twice). C50_accepted is about the check of the value: listeners called after it may do anything. C50_union: alternatives of scalar types that refuse the value with one error each."
  },
  {
   "property": "C51",
   "status": "proved",
   "theorems": [
    "Verif.Task.C51_call",
    "Verif.Task.C51_bad_input",
    "Verif.Task.C51_status",
    "Verif.Task.C51_status_raises",
    "Verif.Task.C51_returns",
    "Verif.Task.C51_example",
    "Verif.Task.C51_status_example"
   ],
   "note": "All tasks, overridden methods and histories. What a returned validate() means is C17, with its conditions. Found: the class attribute Output is never checked, only BaseOutput; a status without progress raises TypeError, a NaN progress ValueError."
  },
  {
   "property": "C52",
   "status": "proved",
   "theorems": [
    "Verif.Url.C52_normal",
    "Verif.Url.C52_idempotent",
    "Verif.Url.C52_removed",
    "Verif.Url.C52_example",
    "Verif.Url.C52_other_scheme",
    "Verif.Url.C52_value_error"
   ],
   "note": "A URL is accepted iff urlparse succeeds with a scheme and a network location; removed parts are absent; revalidation changes nothing. urlparse and urlunparse are modelled from the Python 3.11 library."
  },
  {
   "property": "C53",
   "status": "proved",
   "theorems": [
    "Verif.Arr.C53_accepts",
    "Verif.Arr.C53_rejects",
    "Verif.Arr.C53_example"
   ],
   "note": "The class constructor and subclass test are parameters; element values do not matter to the checks."
  },
  {
   "property": "C54",
   "status": "proved",
   "theorems": [
    "Verif.Arr.C54_length",
    "Verif.Arr.C54_no_length",
    "Verif.Arr.C54_names3",
    "Verif.Arr.C54_names2",
    "Verif.Arr.C54_other_names",
    "Verif.Arr.C54_list_names",
    "Verif.Arr.C54_list_changed",
    "Verif.Arr.C54_tuple_names",
    "Verif.Arr.C54_example"
   ],
   "note": "Real arithmetic in place of floats. Findings: names in the caller's list are replaced in place; a tuple with a direction name raises TypeError."
  },
  {
   "property": "C55",
   "status": "proved",
   "theorems": [
    "Verif.Png.C55_reads_back",
    "Verif.Png.C55_injective",
    "Verif.Png.C55_validate_file",
    "Verif.Png.C55_signature",
    "Verif.Png.C55_round_trip",
    "Verif.Png.C55_example",
    "Verif.Png.C55_moved_stream",
    "Verif.Png.C55_signature_elsewhere"
   ],
   "note": "base64 is modelled as in the Python library, streams as bytes with a position."
  },
  {
   "property": "C56",
   "status": "proved",
   "theorems": [
    "Verif.StopRec.C56_once",
    "Verif.StopRec.C56_result",
    "Verif.StopRec.C56_terminates",
    "Verif.StopRec.C56_example"
   ],
   "note": "All re-entrant call trees, any definition of ==, any number of decorated methods; termination needs finitely many objects and backups that do not call back. Threads are not modelled."
  },
  {
   "property": "C57",
   "status": "proved",
   "theorems": [
    "Verif.Cls.C57_trusted_lookup",
    "Verif.Cls.C57_registry",
    "Verif.Cls.C57_own_name",
    "Verif.Cls.C57_sees_registry",
    "Verif.C57_class_lookup"
   ],
   "note": "All class creation histories; the last theorem is about the lookup as used by the interpreter."
  },
  {
   "property": "C58",
   "status": "proved",
   "theorems": [
    "Verif.C58_limit_irrelevant",
    "Verif.C58_histories",
    "Verif.C58_needs_transparency"
   ],
   "note": "For user callbacks that do not handle RecursionError themselves; that condition is shown to be necessary."
  },
  {
   "property": "C59",
   "status": "proved",
   "theorems": [
    "Verif.Limits.C59_min_le_max",
    "Verif.Limits.C59_setting",
    "Verif.Limits.C59_nan_breaks"
   ],
   "note": "All histories of settings with values other than NaN; NaN breaks the claim."
  },
  {
   "property": "C60",
   "status": "proved",
   "theorems": [
    "Verif.C60_value_only",
    "Verif.C60_keywords",
    "Verif.C60_same_for_both",
    "Verif.C60_type_error_calls_again",
    "Verif.C60_called_twice"
   ],
   "note": "Including the exception named in the statement: a TypeError from the body leads to a second call (C60_type_error_calls_again, with C60_called_twice as a concrete case)."
  },
  {
   "property": "C61",
   "status": "proved",
   "theorems": [
    "Verif.Cls.C61_nearest_default",
    "Verif.Cls.C61_defaults_accepted",
    "Verif.Cls.C61_false_for_diamonds"
   ],
   "note": "All class creation histories; validation of a default is a parameter."
  },
  {
   "property": "C62",
   "status": "proved",
   "theorems": [
    "Verif.Cls.C62_renamed",
    "Verif.Cls.C62_observed",
    "Verif.Cls.C62_false_after_removal"
   ],
   "note": "All class creation histories."
  },
  {
   "property": "C63",
   "status": "proved",
   "theorems": [
    "Verif.Alias.C63_property",
    "Verif.Alias.C63_new",
    "Verif.Alias.C63_contents"
   ],
   "note": "shown on a heap model with sharing; C63_undeclared_shared: items of undeclared type are shared"
  },
  {
   "property": "C64",
   "status": "proved",
   "theorems": [
    "Verif.ArrJson.C64_round_trip",
    "Verif.ArrJson.C64_equal",
    "Verif.ArrJson.C64_plain",
    "Verif.ArrJson.C64_ints_to_floats",
    "Verif.ArrJson.C64_no_rows",
    "Verif.ArrJson.C64_shape",
    "Verif.ArrJson.C64_ragged",
    "Verif.ArrJson.C64_reads",
    "Verif.ArrJson.C64_values",
    "Verif.ArrJson.C64_no_number",
    "Verif.ArrJson.C64_values_example"
   ],
   "note": "That float text is read back without loss is a hypothesis (`TextLaws`, instance given); Vector properties use the same code with another wrapper."
  },
  {
   "property": "C65",
   "status": "proved",
   "theorems": [
    "Verif.Files.C65_object",
    "Verif.Files.C65_name_no_mode",
    "Verif.Files.C65_name_accepted",
    "Verif.Files.C65_name_opens",
    "Verif.Files.C65_name_refused",
    "Verif.Files.C65_declared",
    "Verif.Files.C65_declared_opens",
    "Verif.Files.C65_reported",
    "Verif.Files.C65_wb_plus",
    "Verif.Files.C65_mode_later",
    "Verif.Files.C65_assign",
    "Verif.Files.C65_assign_closes_nothing",
    "Verif.Files.C65_delete",
    "Verif.Files.C65_delete_refused",
    "Verif.Files.C65_stays",
    "Verif.Files.C65_declares",
    "Verif.Files.C65_delete_closes"
   ],
   "note": "That CPython reports `rb+` for `wb+` is from the C source of FileIO, as are the other reported modes."
  },
  {
   "property": "C66",
   "status": "proved",
   "theorems": [
    "Verif.Uid.C66_load",
    "Verif.Uid.C66_held",
    "Verif.Uid.C66_refused",
    "Verif.Uid.C66_instance",
    "Verif.Uid.C66_resolves",
    "Verif.Uid.C66_text",
    "Verif.Uid.C66_raises"
   ],
   "note": "The history assigns uid to instances in use only; C66_left_behind shows why."
  },
  {
   "property": "C67",
   "status": "proved",
   "theorems": [
    "Verif.Decl.C67_order",
    "Verif.Decl.C67_declared",
    "Verif.Decl.C67_accepted",
    "Verif.Decl.C67_default",
    "Verif.Decl.C67_classes",
    "Verif.Decl.C67_none",
    "Verif.Decl.C67_settings",
    "Verif.Decl.C67_settings_example"
   ],
   "note": "Positional parameters are part of the class; which error is raised first does depend on the order."
  },
  {
   "property": "C68",
   "status": "proved",
   "theorems": [
    "Verif.ArrJson.C68_equal_iff",
    "Verif.ArrJson.C68_nan_differs",
    "Verif.ArrJson.C68_types",
    "Verif.ArrJson.C68_example",
    "Verif.ArrJson.C68_not_symmetric_tol",
    "Verif.ArrJson.C68_not_transitive"
   ],
   "note": "Arrays of class ndarray; vector classes compare through the same method after the class test. Rounding in numpy's own arithmetic is not modelled: differences and products are exact."
  },
  {
   "property": "C69",
   "status": "proved",
   "theorems": [
    "Verif.C69_calls",
    "Verif.C69_programs",
    "Verif.C69_deserialize_frame",
    "Verif.C69_deserialize",
    "Verif.C69_copy",
    "Verif.C69_independent",
    "Verif.C69_example",
    "Verif.C69_default_shared",
    "Verif.C69_property_shared"
   ],
   "note": "Instances are compared exactly, with guards, error lists and listeners. Lists, sets and dictionaries are values in this model: sharing of the container objects themselves is the subject of C63. User state outside instances (userGet) may hold anything, so user code may not trust instances found there. C69_copy takes the hypotheses of C22 (serializers that compute JSON data, values with JSON forms)."
  },
  {
   "property": "C70",
   "status": "proved",
   "theorems": [
    "Verif.C70_scalar",
    "Verif.C70_round_trip",
    "Verif.C70_histories",
    "Verif.C70_example"
   ],
   "note": "NumberText (float('nan') etc. and complex(str(z)) read back) and TextEnv (strftime/strptime/UUID as modelled in Models/Text) describe Python's own text functions. Enduring asks of each instance what Rebuildable (C24) asks, distinct items in sets and distinct dictionary keys also after to_json (NaN keys would collide as text). Unions are covered by C24."
  },
  {
   "property": "C71",
   "status": "proved",
   "theorems": [
    "Verif.C71_accepts",
    "Verif.C71_builds",
    "Verif.C71_refuses",
    "Verif.C71_refused_dictionary",
    "Verif.C71_own_default",
    "Verif.C71_example",
    "Verif.C71_own_example"
   ],
   "note": "HasProperties classes whose __init__ is inherited; classes with other constructors (instance_class(value)) are not modelled. C71_own_default takes the hypotheses of C15 (callbacks leave the instance being built alone)."
  },
  {
   "property": "C72",
   "status": "proved",
   "theorems": [
    "Verif.C72_lasting",
    "Verif.C72_same",
    "Verif.C72_every_listener",
    "Verif.C72_assignment",
    "Verif.C72_deletion",
    "Verif.C72_endless",
    "Verif.C72_observer",
    "Verif.C72_validator",
    "Verif.C72_refused",
    "Verif.C72_example",
    "Verif.C72_endless_example",
    "Verif.C72_names_example"
   ],
   "note": "Python lists that grow without end are represented by RecursionError beyond a loop bound k. A set of names is gone through in list order. Changes a listener makes to entries of the change dictionary other than value are not modelled."
  },
  {
   "property": "C73",
   "status": "proved",
   "theorems": [
    "Verif.C73_refused",
    "Verif.C73_assigns",
    "Verif.C73_fails",
    "Verif.C73_one",
    "Verif.C73_all",
    "Verif.C73_like_new",
    "Verif.C73_example",
    "Verif.C73_refused_example"
   ],
   "note": "User code run by defaults and by comparisons must not itself write to the instance that is reset (`Spares`); for listeners that are enabled, `C73_assigns` refers to the assignment (C09 to C12, C72)."
  },
  {
   "property": "C74",
   "status": "proved",
   "theorems": [
    "Verif.Names.C74_apart",
    "Verif.Names.C74_history",
    "Verif.Names.C74_alias",
    "Verif.Names.C74_other_class",
    "Verif.Names.C74_apart_example",
    "Verif.Names.C74_alias_example",
    "Verif.Names.C74_other_class_example"
   ],
   "note": "The last two parts describe what the code does although it is hardly wanted. Validation is a parameter; listeners and defaults are not part of this model (C09 to C12, C15)."
  },
  {
   "property": "C75",
   "status": "proved",
   "theorems": [
    "Verif.C75_declared",
    "Verif.C75_accepts",
    "Verif.C75_default",
    "Verif.C75_union_default",
    "Verif.C75_default_iff",
    "Verif.C75_union_iff",
    "Verif.C75_union_value",
    "Verif.C75_again",
    "Verif.C75_constructs",
    "Verif.C75_inner",
    "Verif.C75_in_force",
    "Verif.C75_inherited_unchecked",
    "Verif.c75_one",
    "Verif.c75Either_ok",
    "Verif.c75List_bare"
   ],
   "note": "The equivalences for defaults are stated for declarations whose inner declarations have no defaults of their own (the one-way versions are not restricted). Constant defaults contain no instance, no dictionary for an Instance, and no random colour. C75_inherited_unchecked describes what the code does although it is hardly wanted."
  },
  {
   "property": "C76",
   "status": "proved",
   "theorems": [
    "Verif.C76_any",
    "Verif.C76_boolean",
    "Verif.C76_boolean_cast",
    "Verif.C76_integer",
    "Verif.C76_float",
    "Verif.C76_complex",
    "Verif.C76_complex_refuses",
    "Verif.C76_datetime",
    "Verif.C76_uuid",
    "Verif.C76_refuses"
   ],
   "note": "int(), float() and complex() of text, and reading of dates, are parameters here (dates: C07). Refusals of Integer and Float are in C03."
  },
  {
   "property": "C77",
   "status": "proved",
   "theorems": [
    "Verif.LinkProg.C77_operation",
    "Verif.LinkProg.C77_history",
    "Verif.LinkProg.C77_start",
    "Verif.LinkProg.C77_reads",
    "Verif.LinkProg.C77_plain",
    "Verif.LinkProg.C77_exact",
    "Verif.LinkProg.C77_terminates",
    "Verif.LinkProg.C77_in_step",
    "Verif.LinkProg.C77_link",
    "Verif.LinkProg.C77_unlinked",
    "Verif.LinkProg.C77_example",
    "Verif.LinkProg.C77_composed",
    "Verif.LinkProg.C77_composed_exact",
    "Verif.LinkProg.C77_composed_example"
   ],
   "note": "Links are the only listeners of the linked properties, error hooks call no user code, and transforms have no effects. C77_plain covers all scalar types except Color, C77_composed containers and Unions of them at any depth (Unions that have a Float, Complex or Dictionary among their alternatives excepted); for types with instances or colours the behaviour of validate and equal is a hypothesis (Behaves)."
  },
  {
   "property": "C78",
   "status": "proved",
   "theorems": [
    "Verif.Dynamic.C78_register",
    "Verif.Dynamic.C78_decorate",
    "Verif.Dynamic.C78_current",
    "Verif.Dynamic.C78_read",
    "Verif.Dynamic.C78_assign",
    "Verif.Dynamic.C78_delete",
    "Verif.Dynamic.C78_example_current",
    "Verif.Dynamic.C78_example"
   ],
   "note": "One property object decorating two methods is not modelled; registrations from inside listeners are not either."
  },
  {
   "property": "C79",
   "status": "proved",
   "theorems": [
    "Verif.ArrDecl.C79_allowed",
    "Verif.ArrDecl.C79_shape",
    "Verif.ArrDecl.C79_dtype",
    "Verif.ArrDecl.C79_coerce",
    "Verif.ArrDecl.C79_length",
    "Verif.ArrDecl.C79_accepts",
    "Verif.ArrDecl.C79_vectors",
    "Verif.ArrDecl.C79_length_positive",
    "Verif.ArrDecl.C79_no_shape",
    "Verif.ArrDecl.C79_example"
   ],
   "note": "NaN is accepted as length, a set without shapes as shape (after which no array is accepted), and length=None is refused although documented as the default. The list given as dtype is treated as copied."
  },
  {
   "property": "C80",
   "status": "proved",
   "theorems": [
    "Verif.C80_serializer",
    "Verif.C80_deserializer",
    "Verif.C80_every_depth",
    "Verif.C80_example",
    "Verif.C80_refused",
    "Verif.C80_run_twice"
   ],
   "note": "C80_serializer and C80_deserializer hold for arbitrary user programs. C80_every_depth is for serializers that compute an answer or raise (Answers, Raises) without calling the library. What a serializer makes of a value is where the value was: relation SerP in C22_serialize. The round trip is Verif.C24_round_trip, Verif.C24_copy and Verif.C24_equal with Canon.custom; C80_example is a tree that meets their hypotheses."
  },
  {
   "property": "C81",
   "status": "proved",
   "theorems": [
    "Verif.C81_saved",
    "Verif.C81_keys",
    "Verif.C81_example",
    "Verif.C81_loaded",
    "Verif.C81_not_json"
   ],
   "note": "C81_saved characterises success of serialize(save_dynamic=True) for arbitrary user code. What is stored in data for dynamic properties and read back is shown on an example class (C81_loaded), the loss of JSON data too (C81_not_json)."
  },
  {
   "property": "C82",
   "status": "proved",
   "theorems": [
    "Verif.C82_float",
    "Verif.C82_complex",
    "Verif.C82_integer",
    "Verif.C82_whole",
    "Verif.C82_mixed",
    "Verif.C82_distance",
    "Verif.C82_other",
    "Verif.C82_boolean",
    "Verif.C82_laws",
    "Verif.C82_example",
    "Verif.C82_mixed_example"
   ],
   "note": "Rounding of the difference is a parameter; C82_laws needs that it is odd and exact at zero. The absolute value of a complex difference is compared exactly (by squares), not rounded. For Complex, values other than numbers are covered by C28 only as far as comparable data go."
  },
  {
   "property": "C83",
   "status": "proved",
   "theorems": [
    "Verif.ChoiceSet.C83_accepts",
    "Verif.ChoiceSet.C83_choices",
    "Verif.ChoiceSet.C83_dictionary",
    "Verif.ChoiceSet.C83_descriptions",
    "Verif.ChoiceSet.C83_info",
    "Verif.ChoiceSet.C83_example",
    "Verif.ChoiceSet.C83_case_later",
    "Verif.ChoiceSet.C83_shared",
    "Verif.ChoiceSet.C83_stale",
    "Verif.ChoiceSet.C83_refused"
   ],
   "note": "The excluded cases are real and shown by C83_case_later (a later case_sensitive = False is not checked), C83_shared (the property goes on using the dictionary of the caller), C83_stale (info raises KeyError after choices are replaced) and C83_refused (a refused dictionary has been changed)."
  },
  {
   "property": "C84",
   "status": "proved",
   "theorems": [
    "Verif.C84_defined",
    "Verif.C84_read",
    "Verif.C84_same",
    "Verif.C84_again",
    "Verif.C84_assumed",
    "Verif.C84_transit",
    "Verif.C84_example",
    "Verif.C84_keys",
    "Verif.C84_number_keys"
   ],
   "note": "json.dumps and json.loads are modelled together, by what they do to data; the text between them and the repr of floats used as keys are not. C84_assumed shows that the function meets what other theorems assume of the parameter jsonCopy of the main model. Entries whose keys have the same text are lost (C84_keys)."
  },
  {
   "property": "C85",
   "status": "proved",
   "theorems": [
    "Verif.AnyInst.C85_accepts",
    "Verif.AnyInst.C85_refuses",
    "Verif.AnyInst.C85_assign",
    "Verif.AnyInst.C85_kept",
    "Verif.AnyInst.C85_valid",
    "Verif.AnyInst.C85_serialize",
    "Verif.AnyInst.C85_no_return",
    "Verif.AnyInst.C85_example",
    "Verif.AnyInst.C85_array"
   ],
   "note": "Listeners and registered serializers are in the main model only. C85_example shows that assigning None calls the class with None (an Instance of str stores 'None'); C85_array that an Instance of a class whose == has no truth value, such as an array, stores the second value and raises ValueError, and never validates."
  },
  {
   "property": "C86",
   "status": "proved",
   "theorems": [
    "Verif.LinkArgs.C86_refused",
    "Verif.LinkArgs.C86_accepted",
    "Verif.LinkArgs.C86_update_now",
    "Verif.LinkArgs.C86_link_refused",
    "Verif.LinkArgs.C86_link",
    "Verif.LinkArgs.C86_link_made",
    "Verif.LinkArgs.C86_link_returns",
    "Verif.LinkArgs.C86_left_behind",
    "Verif.LinkArgs.C86_in_step",
    "Verif.LinkArgs.C86_example",
    "Verif.LinkArgs.C86_left_behind_example",
    "Verif.LinkArgs.C86_refused_example"
   ],
   "note": "Linked attributes are properties; other attributes, dynamic getters that raise, unknown keyword arguments and traitlets are outside. C86_left_behind is a finding: a failed link() leaves one-way links behind, and the caller has no object to unlink them."
  },
  {
   "property": "C87",
   "status": "proved",
   "theorems": [
    "Verif.StaticJson.C87_sequence",
    "Verif.StaticJson.C87_dictionary",
    "Verif.StaticJson.C87_instance",
    "Verif.StaticJson.C87_union",
    "Verif.StaticJson.C87_from",
    "Verif.StaticJson.C87_restores",
    "Verif.StaticJson.C87_nested",
    "Verif.StaticJson.C87_plain_items",
    "Verif.StaticJson.C87_example",
    "Verif.StaticJson.C87_no_sequence",
    "Verif.StaticJson.C87_no_dictionary"
   ],
   "note": "C87_nested and C87_plain_items are the differences: instances inside inner containers are not written, and a List of plain Property items leaves instances as they are while List.to_json writes them."
  },
  {
   "property": "C88",
   "status": "proved",
   "theorems": [
    "Verif.ContCls.C88_registry",
    "Verif.ContCls.C88_always",
    "Verif.ContCls.C88_retained",
    "Verif.ContCls.C88_coerced",
    "Verif.ContCls.C88_refused",
    "Verif.ContCls.C88_again",
    "Verif.ContCls.C88_shared",
    "Verif.ContCls.C88_bounded",
    "Verif.ContCls.C88_example",
    "Verif.ContCls.C88_example_hypotheses",
    "Verif.ContCls.C88_coerced_example"
   ],
   "note": "Only the classes of the values are modelled here; their items are in Core and Observable. Classes have one base. C88_coerced_example is a finding: a Dictionary with coerce=True loses an OrderedDict's class."
  },
  {
   "property": "C89",
   "status": "proved",
   "theorems": [
    "Verif.C89_writes",
    "Verif.C89_reads",
    "Verif.C89_boolean",
    "Verif.C89_strict",
    "Verif.C89_example",
    "Verif.C89_property_nan",
    "Verif.C89_boolean_example"
   ],
   "note": "str() of complex numbers, date and UUID texts are functions of the environment. C89_property_nan is the reason plain Property is excluded; C89_boolean_example shows that a Boolean reads the number 7 as 7."
  },
  {
   "property": "C90",
   "status": "proved",
   "theorems": [
    "Verif.Msg.C90_shown_length",
    "Verif.Msg.C90_shown",
    "Verif.Msg.C90_message_length",
    "Verif.Msg.C90_message_subject",
    "Verif.Msg.C90_bounds",
    "Verif.Msg.C90_sequence",
    "Verif.Msg.C90_choices",
    "Verif.Msg.C90_kind",
    "Verif.Msg.C90_numbers",
    "Verif.Msg.C90_mentions",
    "Verif.Msg.C90_alternatives",
    "Verif.Msg.C90_described",
    "Verif.Msg.C90_example",
    "Verif.Msg.C90_cast"
   ],
   "note": "Texts of numbers are any injective choice without delimiters; names contain neither spaces nor quotes, choices no quotation marks. Descriptions of choices, File, Array, Pointer and URL are outside. Dictionary and Union descriptions are not unambiguous in general. cast and coerce are not part of a description (C90_cast)."
  },
  {
   "property": "C91",
   "status": "proved",
   "theorems": [
    "Verif.Tags.C91_history",
    "Verif.Tags.C91_isolated",
    "Verif.Tags.C91_separate",
    "Verif.Tags.C91_made",
    "Verif.Tags.C91_accepts",
    "Verif.Tags.C91_rejected",
    "Verif.Tags.C91_terms",
    "Verif.Tags.C91_rebuilt",
    "Verif.Tags.C91_example",
    "Verif.Tags.C91_shared",
    "Verif.Tags.C91_settings",
    "Verif.Tags.C91_set_terms"
   ],
   "note": "Keys are texts. prop.meta and prop.terms hand out the dictionaries themselves; a program may change metadata and terms through them (C91_shared), or by assigning terms."
  },
  {
   "property": "C92",
   "status": "proved",
   "theorems": [
    "Verif.C92_own",
    "Verif.C92_program",
    "Verif.C92_foreign",
    "Verif.C92_serializing",
    "Verif.C92_deserializing",
    "Verif.C92_validate",
    "Verif.C92_plain",
    "Verif.C92_example_fns",
    "Verif.C92_occurs",
    "Verif.C92_example",
    "Verif.C92_declarations",
    "Verif.C92_comparing",
    "Verif.C92_answers",
    "Verif.C92_answers_example",
    "Verif.C92_values",
    "Verif.C92_values_example"
   ],
   "note": "Classes of exceptions, not their messages. Exceptions of user code are arbitrary: the theorem is relative to the classes U they have. Every class in the table occurs (C92_occurs)."
  },
  {
   "property": "C93",
   "status": "proved",
   "theorems": [
    "Verif.C93_validate",
    "Verif.C93_history",
    "Verif.C93_infinite",
    "Verif.C93_example",
    "Verif.C93_example_infinite"
   ],
   "note": "Complete (Spec/Complete.lean) mentions neither validation nor equality. Values are assumed to be as Python can have them: distinct hashable items in sets and keys (structure Regular)."
  },
  {
   "property": "C94",
   "status": "proved",
   "theorems": [
    "Verif.C94_tree",
    "Verif.C94_copy",
    "Verif.C94_separate",
    "Verif.C94_exponential",
    "Verif.C94_example"
   ],
   "note": "Same hypotheses as C24 (Canon), with scalars that hold no instances. HasUID classes keep sharing (C44, C45). Path and Unshared are defined in Spec/Tree.lean; Unshared excludes cycles too."
  },
  {
   "property": "C95",
   "status": "proved",
   "theorems": [
    "Verif.C95_into",
    "Verif.C95_determined",
    "Verif.C95_refused",
    "Verif.C95_taken",
    "Verif.C95_silent",
    "Verif.C95_example",
    "Verif.C95_not_atomic",
    "Verif.C95_strict"
   ],
   "note": "Data keys that are Renamed names of the class are excluded from C95_into (their effect is that of C37), and a settable property must be settable on the class of the instance too."
  },
  {
   "property": "C96",
   "status": "proved",
   "theorems": [
    "Verif.Warnings.C96_warns",
    "Verif.Warnings.C96_count",
    "Verif.Warnings.C96_error",
    "Verif.Warnings.C96_new_name",
    "Verif.Warnings.C96_declare",
    "Verif.Warnings.C96_example"
   ],
   "note": "Warnings issued by user code that runs during the use are not recorded; other warnings of the library (deprecations at declaration time) are not modelled."
  },
  {
   "property": "C97",
   "status": "proved",
   "theorems": [
    "Verif.ArrMsg.C97_described",
    "Verif.ArrMsg.C97_agrees",
    "Verif.ArrMsg.C97_reason",
    "Verif.ArrMsg.C97_no_length",
    "Verif.ArrMsg.C97_subject",
    "Verif.ArrMsg.C97_contains",
    "Verif.ArrMsg.C97_example",
    "Verif.ArrMsg.C97_nameless",
    "Verif.ArrMsg.C97_coerce",
    "Verif.ArrMsg.C97_given"
   ],
   "note": "How integers, shapes and types of arrays are written comes from outside; integers must be written injectively and without commas, parentheses and backslashes. The names of directions that vectors accept are handled before these checks (C54)."
  },
  {
   "property": "C98",
   "status": "proved",
   "theorems": [
    "Verif.C98_proper",
    "Verif.C98_program",
    "Verif.C98_read",
    "Verif.C98_data",
    "Verif.C98_regular",
    "Verif.C98_validate",
    "Verif.C98_example",
    "Verif.C98_improper"
   ],
   "note": "Equality of items is equality of the model, in which NaN differs from itself: two NaNs count as distinct items. Values assigned by direct manipulation of the private dictionary of an instance are covered if they are proper."
  },
  {
   "property": "C99",
   "status": "proved",
   "theorems": [
    "Verif.DocText.C99_type",
    "Verif.DocText.C99_declared",
    "Verif.DocText.C99_type_determined",
    "Verif.DocText.C99_default",
    "Verif.DocText.C99_default_called",
    "Verif.DocText.C99_entry",
    "Verif.DocText.C99_name",
    "Verif.DocText.C99_document",
    "Verif.DocText.C99_lines",
    "Verif.DocText.C99_example",
    "Verif.DocText.C99_example_class",
    "Verif.DocText.C99_declared_determined"
   ],
   "note": "Names of classes and modules are without braces, colons and backquotes. Texts of values and of instances come from outside. C99_example shows the finding that container words are in reverse order, and repeated for every alternative of a Union."
  },
  {
   "property": "C100",
   "status": "proved",
   "theorems": [
    "Verif.C100_faithful",
    "Verif.C100_read",
    "Verif.C100_well_typed",
    "Verif.C100_independent",
    "Verif.C100_equal",
    "Verif.C100_example",
    "Verif.C100_cycle",
    "Verif.C100_cycle_unequal",
    "Verif.C100_alias_unequal"
   ],
   "note": "Pickling itself is Python's: the model is that the `__dict__` of every instance is copied, since the library defines no hooks for it. C100_alias_unequal shows that a Renamed property for one that holds an instance makes the unpickled instance unequal to the original, C100_cycle_unequal that an instance in a cycle does not equal its twin."
  },
  {
   "property": "C101",
   "status": "proved",
   "theorems": [
    "Verif.C101_tells",
    "Verif.C101_kept",
    "Verif.C101_program",
    "Verif.C101_example",
    "Verif.C101_dropped"
   ],
   "note": "User code that raises ValidationError(..., _error_tuples=[]), a private parameter, is excluded; C101_dropped shows that the constructor drops such an error silently."
  },
  {
   "property": "C102",
   "status": "proved",
   "theorems": [
    "Verif.C102_assignment",
    "Verif.C102_removed",
    "Verif.C102_core",
    "Verif.C102_example"
   ],
   "note": "A listener is any function from the dictionary and the state to both, so the theorems do not depend on what user code can express. Within one phase a listener gets what the one before left."
  },
  {
   "property": "C103",
   "status": "proved",
   "theorems": [
    "Verif.C103_order",
    "Verif.C103_reads",
    "Verif.C103_example",
    "Verif.C103_listeners_matter"
   ],
   "note": "Values whose validation builds instances or draws a random colour are excluded (Still), as are properties that compare instances (Visits) and a recursion limit below the depth of a declaration. Errors other than ValidationErrors may differ between orders. The error hook of the class is the default one."
  },
  {
   "property": "C104",
   "status": "proved",
   "theorems": [
    "Verif.C104_history",
    "Verif.C104_commute",
    "Verif.C104_reads",
    "Verif.C104_outcome",
    "Verif.C104_example"
   ],
   "note": "The variable is specified as a fold over the operations (Spec/Variables); what is accepted is what validation gives with no instance in an empty state. Types with instances or random colours are excluded (Stirs), as is assigning `properties.undefined`, which is deleting. The error hook of the classes is the default one."
  },
  {
   "property": "C105",
   "status": "proved",
   "theorems": [
    "Verif.C105_assign",
    "Verif.C105_example"
   ],
   "note": "Up to the record of calls of the default error hook, which has no effect. Values whose validation builds instances or draws a random colour are excluded (Still), as are properties that compare instances (Visits) and a recursion limit below the depth of a declaration. With other exceptions than ValidationErrors the constructor may raise another one than the first assignment that fails. With listeners the two differ: C103_listeners_matter and C15."
  },
  {
   "property": "C106",
   "status": "proved",
   "theorems": [
    "Verif.C106_programs",
    "Verif.C106_calls",
    "Verif.C106_keywords",
    "Verif.C106_serialize",
    "Verif.C106_example",
    "Verif.C106_serialize_example"
   ],
   "note": "serialize() without save_dynamic writes the keys in the order of the assignments, and copy() goes through it, so both are excluded; C106_example shows a state where serialize() differs. C106_serialize takes registered serializers that only compute (TameWorld, as in C22) and instances that store one value per name, as dictionaries do. Pickling, which stores the values in their order, is modelled apart (C100) and not part of these programs."
  },
  {
   "property": "C107",
   "status": "proved",
   "theorems": [
    "Verif.C107_order",
    "Verif.C107_raises",
    "Verif.C107_programs",
    "Verif.C107_example"
   ],
   "note": "Taken with trusted=False, so that the class is the one deserialize is called on. Which exception is raised may differ: with several bad entries the first one met is reported."
  },
  {
   "property": "C108",
   "status": "proved",
   "theorems": [
    "Verif.C108_copy",
    "Verif.C108_flat",
    "Verif.C108_example"
   ],
   "note": "C108_flat takes serializers that only compute, as C106_serialize; both take, as C107, a class without error hook and listeners for the names written, and trusted=False."
  },
  {
   "property": "C109",
   "status": "proved",
   "theorems": [
    "Verif.C109_ignored",
    "Verif.C109_empty",
    "Verif.C109_example"
   ],
   "note": "With strict such keys are refused (C26). C109_empty is taken with trusted=False and assert_valid=False."
  },
  {
   "property": "C110",
   "status": "proved",
   "theorems": [
    "Verif.C110_strict",
    "Verif.C110_assert",
    "Verif.C110_example"
   ],
   "note": "With Unions strict may choose another alternative: C110_example shows input that is read as an instance of the first class without strict and of the second with it. Custom deserializers are given the options and may do anything with them."
  },
  {
   "property": "C111",
   "status": "proved",
   "theorems": [
    "Verif.C111_trusted",
    "Verif.C111_example"
   ],
   "note": "C111_example shows input with a __class__ inside that is read differently. Custom deserializers are given the options and may do anything with them."
  },
  {
   "property": "C113",
   "status": "proved",
   "theorems": [
    "Verif.C113_untrusted",
    "Verif.C113_example"
   ],
   "note": "C113_example: a nested list of instances with right, wrong and missing names, and that strict does look at them. Inputs of Unions and of properties with custom deserializers are the same on both sides."
  },
  {
   "property": "C115",
   "status": "proved",
   "theorems": [
    "Verif.C115_copy",
    "Verif.C115_example"
   ],
   "note": "C115_example: an instance with a list of two others meets the hypotheses; with an instance of a subclass the copies differ."
  },
  {
   "property": "C112",
   "status": "proved",
   "theorems": [
    "Verif.C112_include_class",
    "Verif.C112_example"
   ],
   "note": "TameWorld: stored values belong to properties stored under their own names, and trying the alternatives of a Union builds no instances; save_dynamic is off. C112_example shows nested instances. Which dictionaries get the entry is stated with the form of serialized data in other claims."
  },
  {
   "property": "C114",
   "status": "proved",
   "theorems": [
    "Verif.C114_copy",
    "Verif.C114_example"
   ],
   "note": "C114_example: an instance with a list of two others. Instances of subclasses are left out: their data, read as the declared class, may meet other property types."
  }
 ]
}