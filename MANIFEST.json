{
 "claims": [
  {
   "property": "C01",
   "status": "proved",
   "theorems": [
    "AnyAny.Mem.C01_no_undefined_behaviour",
    "AnyAny.Mem.C01_history",
    "AnyAny.Mem.C01_observers",
    "AnyAny.Mem.C01_always_equal_allocators"
   ],
   "note": "For every legal history (Spec/AnyHist.lean, Legal). Legal excludes the cases disproved in C21, C22 and C63; with std::allocator no condition on allocators remains (C01_always_equal_allocators)."
  },
  {
   "property": "C02",
   "status": "proved",
   "theorems": [
    "AnyAny.Mem.C02_destroyed_exactly_once",
    "AnyAny.Mem.C02_none_left",
    "AnyAny.Mem.C02_identities"
   ],
   "note": ""
  },
  {
   "property": "C03",
   "status": "proved",
   "theorems": [
    "AnyAny.Mem.C03_freed_exactly_once",
    "AnyAny.Mem.C03_no_leak",
    "AnyAny.Mem.C03_deallocate_checks"
   ],
   "note": "The cases excluded by Legal are the defects C63 and C22."
  },
  {
   "property": "C04",
   "status": "proved",
   "theorems": [
    "AnyAny.Mem.C04_values_step",
    "AnyAny.Mem.C04_others_unchanged",
    "AnyAny.Mem.C04_exception_step",
    "AnyAny.Mem.C04_values_history",
    "AnyAny.Mem.C04_observers"
   ],
   "note": ""
  },
  {
   "property": "C05",
   "status": "proved",
   "theorems": [
    "AnyAny.Mem.C05_copy_construction",
    "AnyAny.Mem.C05_independent"
   ],
   "note": ""
  },
  {
   "property": "C06",
   "status": "proved",
   "theorems": [
    "AnyAny.Mem.C06_move_construction"
   ],
   "note": ""
  },
  {
   "property": "C07",
   "status": "proved",
   "theorems": [
    "AnyAny.Mem.C07_move_assignment",
    "AnyAny.Mem.C07_self",
    "AnyAny.Mem.C07_returns"
   ],
   "note": ""
  },
  {
   "property": "C08",
   "status": "proved",
   "theorems": [
    "AnyAny.Mem.C08_copy_assignment"
   ],
   "note": ""
  },
  {
   "property": "C09",
   "status": "partial",
   "theorems": [
    "AnyAny.Mem.C09_fails",
    "AnyAny.Mem.C09_move_assignment_exact",
    "AnyAny.Mem.C09_move_assignment_loses",
    "AnyAny.Mem.C09_strong_guarantee_partial",
    "AnyAny.Mem.C09_constructors",
    "AnyAny.Mem.C09_always_equal_allocators",
    "AnyAny.Mem.C09_assignment_other"
   ],
   "note": "Proved for allocators that are always equal, equal, or propagated on move assignment, and for all constructors; false for assignments between really different allocators (C09_fails). C09_move_assignment_exact says for every legal move assignment exactly when it throws, terminates or returns; C09_move_assignment_loses, that a throw always loses exactly the target's value."
  },
  {
   "property": "C10",
   "status": "proved",
   "theorems": [
    "AnyAny.Mem.C10_emplace"
   ],
   "note": ""
  },
  {
   "property": "C11",
   "status": "proved",
   "theorems": [
    "AnyAny.Mem.C11_emplace_reuses_memory",
    "AnyAny.Mem.C11_replace_with_bytes",
    "AnyAny.Mem.C11_emplace_after_replace"
   ],
   "note": ""
  },
  {
   "property": "C12",
   "status": "proved",
   "theorems": [
    "AnyAny.Mem.C12_reset",
    "AnyAny.Mem.C12_destroy_value",
    "AnyAny.Mem.C12_destroys"
   ],
   "note": ""
  },
  {
   "property": "C13",
   "status": "proved",
   "theorems": [
    "AnyAny.Mem.C13_stable_move_construction",
    "AnyAny.Mem.C13_stable_move_assignment",
    "AnyAny.Mem.C13_force_stable",
    "AnyAny.Mem.C13_no_buffer"
   ],
   "note": ""
  },
  {
   "property": "C14",
   "status": "partial",
   "theorems": [
    "AnyAny.Mem.C14_fails",
    "AnyAny.Mem.C14_stability_partial",
    "AnyAny.Mem.C14_unequal_allocators_fail",
    "AnyAny.Mem.C14_exact"
   ],
   "note": "The full statement is false (C14_fails); the partial theorem says when it holds, and C14_unequal_allocators_fail that it fails in all other cases; C14_exact: both in one condition."
  },
  {
   "property": "C15",
   "status": "partial",
   "theorems": [
    "AnyAny.Mem.C15_force_stable_fails",
    "AnyAny.Mem.C15_throwing_move_fails",
    "AnyAny.Mem.C15_force_stable_exact",
    "AnyAny.Mem.C15_never_terminates_partial",
    "AnyAny.Mem.C15_nothrow_types",
    "AnyAny.Mem.C15_nothrow_operations",
    "AnyAny.Mem.C15_move_assign"
   ],
   "note": "False for force_stable_pointers construction and for types with throwing move constructors under unequal allocators (the two _fails theorems); proved for everything else. C15_force_stable_exact and C09_move_assignment_exact say exactly when these two terminate."
  },
  {
   "property": "C16",
   "status": "proved",
   "theorems": [
    "AnyAny.Mem.C16_sizeof_now"
   ],
   "note": ""
  },
  {
   "property": "C17",
   "status": "proved",
   "theorems": [
    "AnyAny.Mem.C17_value_construction",
    "AnyAny.Mem.C17_emplace",
    "AnyAny.Mem.C17_copy",
    "AnyAny.Mem.C17_big_values_in_memory",
    "AnyAny.Mem.C17_small_programs_never_allocate"
   ],
   "note": ""
  },
  {
   "property": "C18",
   "status": "proved",
   "theorems": [
    "AnyAny.Mem.C18_transmutate_copy",
    "AnyAny.Mem.C18_transmutate_move"
   ],
   "note": ""
  },
  {
   "property": "C19",
   "status": "partial",
   "theorems": [
    "AnyAny.Mem.C19_copy_assignment_fails",
    "AnyAny.Mem.C19_allocators",
    "AnyAny.Mem.C19_rules",
    "AnyAny.Mem.C19_copy_assignment_partial",
    "AnyAny.Mem.C19_kept",
    "AnyAny.Mem.C19_copy_assignment_exact"
   ],
   "note": "Copy assignment also takes the allocator of the temporary if propagate_on_container_move_assignment (C19_copy_assignment_fails); C19_copy_assignment_exact: exactly when the rule is obeyed."
  },
  {
   "property": "C20",
   "status": "proved",
   "theorems": [
    "AnyAny.Mem.C20_swap"
   ],
   "note": ""
  },
  {
   "property": "C21",
   "status": "partial",
   "theorems": [
    "AnyAny.Mem.C21_fails",
    "AnyAny.Mem.C21_assign_from_reference_partial",
    "AnyAny.Mem.C21_own_value_fails"
   ],
   "note": "The full statement is false (C21_fails; C21_own_value_fails: for every reachable state and every type with a destructor)."
  },
  {
   "property": "C22",
   "status": "partial",
   "theorems": [
    "AnyAny.Mem.C22_throwing_copy_fails",
    "AnyAny.Mem.C22_throwing_copy_always_fails",
    "AnyAny.Mem.C22_materialize_partial",
    "AnyAny.CopyCall.C22_allocators_exact",
    "AnyAny.CopyCall.C22_stateful_allocators_fail",
    "AnyAny.Poly.C22_poly_reference_partial",
    "AnyAny.Poly.C22_stateful_fails"
   ],
   "note": "False for copies that throw (C22_throwing_copy_fails) and for stateful references (C22_stateful_fails); proved for the other references and for copies that do not throw. C22_throwing_copy_always_fails: every throwing copy of a type with a destructor is undefined behaviour. For allocators that are not empty the call does not compile (C22_stateful_allocators_fail, C22_allocators_exact)."
  },
  {
   "property": "C23",
   "status": "proved",
   "theorems": [
    "AnyAny.TypeList.C23_findSubsequence_first",
    "AnyAny.TypeList.C23_findSubsequence_none",
    "AnyAny.TypeList.C23_hasSubsequence_iff_infix"
   ],
   "note": ""
  },
  {
   "property": "C24",
   "status": "proved",
   "theorems": [
    "AnyAny.TypeList.C24_numberOfFirst_some",
    "AnyAny.TypeList.C24_numberOfFirst_none",
    "AnyAny.TypeList.C24_contains_subset"
   ],
   "note": ""
  },
  {
   "property": "C25",
   "status": "proved",
   "theorems": [
    "AnyAny.TypeList.C25_flatten_leaves",
    "AnyAny.TypeList.C25_interfaceAlias",
    "AnyAny.TypeList.C25_flatten_idempotent",
    "AnyAny.TypeList.C25_flatten_nesting"
   ],
   "note": ""
  },
  {
   "property": "C26",
   "status": "proved",
   "theorems": [
    "AnyAny.TypeList.C26_interface_of_any_with",
    "AnyAny.TypeList.C26_any_with_has_destroy"
   ],
   "note": ""
  },
  {
   "property": "C27",
   "status": "proved",
   "theorems": [
    "AnyAny.TypeList.C27_without_duplicates",
    "AnyAny.TypeList.C27_filtered_by",
    "AnyAny.TypeList.C27_without_duplicates_idem"
   ],
   "note": ""
  },
  {
   "property": "C28",
   "status": "proved",
   "theorems": [
    "AnyAny.TypeList.C28_equivalent_to",
    "AnyAny.TypeList.C28_subsumes",
    "AnyAny.TypeList.C28_subsumes_partial_order",
    "AnyAny.TypeList.C28_append"
   ],
   "note": ""
  },
  {
   "property": "C29",
   "status": "proved",
   "theorems": [
    "AnyAny.Mem.C29_type_descriptor",
    "AnyAny.Methods.C29_construct_interface",
    "AnyAny.TypeList.C29_no_duplicates",
    "AnyAny.TypeList.C29_inherited_iff",
    "AnyAny.TypeList.C29_all_covered"
   ],
   "note": "C29_type_descriptor: for the plugins of type_info, equal_to and spaceship the inherited one is the one whose entry type_descriptor() reads, for every list of methods; all statements about any_cast, type_switch and visit_invoke ask for any of the three methods (HasDesc)."
  },
  {
   "property": "C30",
   "status": "proved",
   "theorems": [
    "AnyAny.TypeList.C30_soo_buffer_size",
    "AnyAny.TypeList.C30_rebind",
    "AnyAny.TypeList.C30_copy_with_enables_copy"
   ],
   "note": ""
  },
  {
   "property": "C31",
   "status": "proved",
   "theorems": [
    "AnyAny.Poly.C31_no_undefined_behaviour",
    "AnyAny.Poly.C31_dispatch",
    "AnyAny.Poly.C31_chain"
   ],
   "note": ""
  },
  {
   "property": "C32",
   "status": "partial",
   "theorems": [
    "AnyAny.Vtable.C32_aligned_partial",
    "AnyAny.Vtable.C32_exact",
    "AnyAny.Vtable.C32_function_pointers_partial",
    "AnyAny.Vtable.C32_fails"
   ],
   "note": "False for entries of mixed sizes (C32_fails); C32_exact: it holds if and only if the start offset is aligned for the entries. Proved whenever the start offset is aligned for the entries, in particular for tables of function pointers. Layout rule of the Itanium ABI."
  },
  {
   "property": "C33",
   "status": "proved",
   "theorems": [
    "AnyAny.Vtable.C33_entries",
    "AnyAny.Vtable.C33_invoke"
   ],
   "note": ""
  },
  {
   "property": "C34",
   "status": "proved",
   "theorems": [
    "AnyAny.Poly.C34_stateful",
    "AnyAny.Poly.C34_available"
   ],
   "note": ""
  },
  {
   "property": "C35",
   "status": "proved",
   "theorems": [
    "AnyAny.Poly.C35_pointer",
    "AnyAny.Poly.C35_construction",
    "AnyAny.Poly.C35_conversion",
    "AnyAny.Poly.C35_const_pointer_cast"
   ],
   "note": ""
  },
  {
   "property": "C36",
   "status": "partial",
   "theorems": [
    "AnyAny.Poly.C36_fails",
    "AnyAny.Poly.C36_equal_lists_partial",
    "AnyAny.Poly.C36_poly_ptr",
    "AnyAny.RefCtor.C36_exact",
    "AnyAny.RefCtor.C36_is_constructible_wrong"
   ],
   "note": "The statement is false (C36_fails): const_poly_ptr tests the conversion in the wrong direction; it holds when the method lists are equal. C36_exact gives exactly the accepted pointers, C36_is_constructible_wrong where the trait and the construction disagree."
  },
  {
   "property": "C37",
   "status": "proved",
   "theorems": [
    "AnyAny.Mem.C37_any_cast_pointer",
    "AnyAny.Mem.C37_any_cast_value",
    "AnyAny.Mem.C37_any_cast_rvalue",
    "AnyAny.Poly.C37_poly_ptr",
    "AnyAny.Poly.C37_poly_ref",
    "AnyAny.Poly.C37_ref_target"
   ],
   "note": ""
  },
  {
   "property": "C38",
   "status": "partial",
   "theorems": [
    "AnyAny.Poly.C38_equality",
    "AnyAny.Poly.C38_equivalence",
    "AnyAny.Poly.C38_hash_partial",
    "AnyAny.Poly.C38_hash_fails"
   ],
   "note": "Equality for all pointers (C38_equality, C38_equivalence), hashes for poly_ptr (C38_hash_partial). std::hash of a const_poly_ptr does not compile (C38_hash_fails): anyany.hpp:2023 gives hash<void*> a const void*."
  },
  {
   "property": "C39",
   "status": "proved",
   "theorems": [
    "AnyAny.Poly.C39_equal",
    "AnyAny.Poly.C39_equivalence"
   ],
   "note": ""
  },
  {
   "property": "C40",
   "status": "partial",
   "theorems": [
    "AnyAny.Poly.C40_spaceship_partial",
    "AnyAny.Poly.C40_empty_right_fails",
    "AnyAny.Poly.C40_exact"
   ],
   "note": "False if only the right operand is empty (C40_empty_right_fails); proved otherwise."
  },
  {
   "property": "C41",
   "status": "proved",
   "theorems": [
    "AnyAny.Poly.C41_hash",
    "AnyAny.Poly.C41_equal_hash",
    "AnyAny.Poly.C41_through_reference"
   ],
   "note": ""
  },
  {
   "property": "C42",
   "status": "proved",
   "theorems": [
    "AnyAny.Descriptor.C42_equal_names",
    "AnyAny.Descriptor.C42_identify",
    "AnyAny.Descriptor.C42_hash",
    "AnyAny.Descriptor.C42_starts_with",
    "AnyAny.Descriptor.C42_strip_keyword"
   ],
   "note": ""
  },
  {
   "property": "C43",
   "status": "proved",
   "theorems": [
    "AnyAny.Descriptor.C43_lexicographic",
    "AnyAny.Descriptor.C43_total_order"
   ],
   "note": ""
  },
  {
   "property": "C44",
   "status": "proved",
   "theorems": [
    "AnyAny.Visit.C44_calls",
    "AnyAny.Visit.C44_nullopt",
    "AnyAny.Visit.C44_unique",
    "AnyAny.Poly.C44_arguments",
    "AnyAny.Poly.C44_polymorphic_calls",
    "AnyAny.Poly.C44_polymorphic_nullopt"
   ],
   "note": ""
  },
  {
   "property": "C45",
   "status": "partial",
   "theorems": [
    "AnyAny.Visit.C45_before_a_value_partial",
    "AnyAny.Visit.C45_same_count_partial",
    "AnyAny.Visit.C45_trailing_fails",
    "AnyAny.Visit.C45_exact",
    "AnyAny.Visit.C45_fails"
   ],
   "note": "The statement is false (C45_fails); C45_trailing_fails says exactly how: empty arguments at the end are treated as if they had not been passed. The partial theorems say when the statement holds."
  },
  {
   "property": "C46",
   "status": "proved",
   "theorems": [
    "AnyAny.Visit.C46_never_passes_const",
    "AnyAny.Visit.C46_rejects",
    "AnyAny.Visit.C46_no_const",
    "AnyAny.Visit.C46_static_check"
   ],
   "note": "Assumed: different functions have different addresses, as C++ requires. Linkers that fold identical functions break this; what happens then is C132."
  },
  {
   "property": "C47",
   "status": "proved",
   "theorems": [
    "AnyAny.Visit.C47_lookup",
    "AnyAny.Visit.C47_declaration_order",
    "AnyAny.Visit.C47_unique_keys"
   ],
   "note": ""
  },
  {
   "property": "C48",
   "status": "partial",
   "theorems": [
    "AnyAny.Poly.C48_first_match_partial",
    "AnyAny.Poly.C48_no_match",
    "AnyAny.Poly.C48_default",
    "AnyAny.Poly.C48_nullopt_fails",
    "AnyAny.Poly.C48_nullopt_default_fails",
    "AnyAny.Poly.C48_exact"
   ],
   "note": "C48_first_match_partial, C48_no_match, C48_default hold for all functions that return a Result; a function that returns nullopt or an empty optional<Result> leaves the switch undecided (C48_nullopt_fails, C48_nullopt_default_fails). C48_exact: the result of every switch whose functions have no effects."
  },
  {
   "property": "C49",
   "status": "partial",
   "theorems": [
    "AnyAny.Visitors.C49_one_method_per_type",
    "AnyAny.Visitors.C49_one_method_per_pair",
    "AnyAny.Visitors.C49_overload",
    "AnyAny.Visitors.C49_exact",
    "AnyAny.Visitors.C49_visits_partial",
    "AnyAny.Visitors.C49_compiles",
    "AnyAny.Visitors.C49_const_fails"
   ],
   "note": "Proved for all overloads without const types (C49_visits_partial), in all class hierarchies; visiting const types does not compile (C49_const_fails, exactly C49_compiles). User-defined conversions of the visited objects are not modelled."
  },
  {
   "property": "C50",
   "status": "partial",
   "theorems": [
    "AnyAny.Variant.C50_traits",
    "AnyAny.Variant.C50_any_cast",
    "AnyAny.Variant.C50_any_cast_unique",
    "AnyAny.Variant.C50_visit",
    "AnyAny.Variant.C50_visit_nullopt",
    "AnyAny.Variant.C50_valueless_fails",
    "AnyAny.Variant.C50_exact"
   ],
   "note": "Proved for every variant that holds an alternative; false for valueless variants (C50_valueless_fails)."
  },
  {
   "property": "C51",
   "status": "proved",
   "theorems": [
    "AnyAny.Dpv.C51_observations",
    "AnyAny.Dpv.C51_exists",
    "AnyAny.Dpv.C51_step",
    "AnyAny.Dpv.C51_history"
   ],
   "note": ""
  },
  {
   "property": "C52",
   "status": "partial",
   "theorems": [
    "AnyAny.Dpv.C52_partial",
    "AnyAny.Dpv.C52_fails",
    "AnyAny.Dpv.C52_undefined_fails",
    "AnyAny.Dpv.C52_fails_access",
    "AnyAny.Dpv.C52_throws_exact",
    "AnyAny.Dpv.C52_exact",
    "AnyAny.Dpv.C52_push_back_exact",
    "AnyAny.Dpv.C52_insert_end_exact",
    "AnyAny.Dpv.C52_insert_middle_exact",
    "AnyAny.Dpv.C52_assign_elem_exact"
   ],
   "note": "The statement is false (C52_fails, for every reachable state and every resizing operation); C52_partial: all completed operations and the throwing ones with the strong guarantee or on one element. C52_throws_exact: the exact state of every field after an exception in field k; C52_exact: when the spans then have equal lengths; C52_push_back_exact: for push_back exactly if the first field throws; C52_insert_end_exact, C52_insert_middle_exact: the elements and fields that remain after a throwing insertion of a range; C52_assign_elem_exact: the element after a throwing assignment to it."
  },
  {
   "property": "C53",
   "status": "proved",
   "theorems": [
    "AnyAny.Dpv.C53_view",
    "AnyAny.Dpv.C53_write_field"
   ],
   "note": ""
  },
  {
   "property": "C54",
   "status": "proved",
   "theorems": [
    "AnyAny.Dpv.C54_compare",
    "AnyAny.Dpv.C54_eq",
    "AnyAny.Dpv.C54_container",
    "AnyAny.Dpv.C54_container_eq"
   ],
   "note": ""
  },
  {
   "property": "C55",
   "status": "proved",
   "theorems": [
    "AnyAny.Dpv.C55_assign_value",
    "AnyAny.Dpv.C55_assign_ref",
    "AnyAny.Dpv.C55_swap",
    "AnyAny.Dpv.C55_swap_self"
   ],
   "note": ""
  },
  {
   "property": "C56",
   "status": "partial",
   "theorems": [
    "AnyAny.DpvIter.C56_begin_end",
    "AnyAny.DpvIter.C56_add",
    "AnyAny.DpvIter.C56_diff",
    "AnyAny.DpvIter.C56_add_diff",
    "AnyAny.DpvIter.C56_diff_add",
    "AnyAny.DpvIter.C56_add_add",
    "AnyAny.DpvIter.C56_sub_partial",
    "AnyAny.DpvIter.C56_fails",
    "AnyAny.DpvIter.C56_order",
    "AnyAny.DpvIter.C56_step",
    "AnyAny.DpvIter.C56_access",
    "AnyAny.DpvIter.C56_value_initialized",
    "AnyAny.DpvIter.C56_sub_exact"
   ],
   "note": "Proved for every word width and all offsets; only operator-= with a negative offset violates the statement (C56_fails: its assertion fails; C56_sub_exact: for which offsets it passes)."
  },
  {
   "property": "C57",
   "status": "proved",
   "theorems": [
    "AnyAny.Swarm.C57_history",
    "AnyAny.Swarm.C57_exists",
    "AnyAny.Swarm.C57_alive",
    "AnyAny.Swarm.C57_any_container",
    "AnyAny.Swarm.C57_visit_any",
    "AnyAny.Swarm.C57_values"
   ],
   "note": "insert(first, last) with iterators does not compile when used (variant_swarm.hpp:66) and is not an operation of the histories."
  },
  {
   "property": "C58",
   "status": "proved",
   "theorems": [
    "AnyAny.Swarm.C58_visit_const",
    "AnyAny.Swarm.C58_visit",
    "AnyAny.Swarm.C58_visit_ignore",
    "AnyAny.Swarm.C58_visit_append",
    "AnyAny.Swarm.C58_visit_writes",
    "AnyAny.Swarm.C58_visit_copy",
    "AnyAny.Swarm.C58_copy_values"
   ],
   "note": ""
  },
  {
   "property": "C59",
   "status": "proved",
   "theorems": [
    "AnyAny.Fields.C59_count",
    "AnyAny.Fields.C59_count_more",
    "AnyAny.Fields.C59_get",
    "AnyAny.Fields.C59_get_none",
    "AnyAny.Fields.C59_get_right",
    "AnyAny.Fields.C59_category"
   ],
   "note": ""
  },
  {
   "property": "C60",
   "status": "proved",
   "theorems": [
    "AnyAny.UPtr.C60_step",
    "AnyAny.UPtr.C60_deleted_once",
    "AnyAny.UPtr.C60_one_owner",
    "AnyAny.UPtr.C60_end",
    "AnyAny.UPtr.C60_get"
   ],
   "note": "The members of std::unique_ptr are written as the standard specifies them; the deleter, the vtable entry and the pointer conversions are the code."
  },
  {
   "property": "C61",
   "status": "partial",
   "theorems": [
    "AnyAny.Mem.C61_fails",
    "AnyAny.Mem.C61_aligned_partial",
    "AnyAny.Mem.C61_overaligned_fails"
   ],
   "note": "False for over-aligned types (C61_fails; C61_overaligned_fails: always)."
  },
  {
   "property": "C62",
   "status": "proved",
   "theorems": [
    "AnyAny.Mem.C62_invoke",
    "AnyAny.Poly.C62_invoke_reference"
   ],
   "note": ""
  },
  {
   "property": "C63",
   "status": "partial",
   "theorems": [
    "AnyAny.Mem.C63_steal_fails",
    "AnyAny.Mem.C63_transmove_fails",
    "AnyAny.Mem.C63_owner_allocator_partial",
    "AnyAny.Mem.C63_transmove_foreign_fails",
    "AnyAny.Mem.C63_steal_foreign_fails"
   ],
   "note": "The statement is false: C63_steal_fails and C63_transmove_fails exhibit the undefined behaviour, C63_steal_foreign_fails and C63_transmove_foreign_fails show it for every state with different allocators. C03 proves it for all other histories."
  },
  {
   "property": "C64",
   "status": "partial",
   "theorems": [
    "AnyAny.Visit.C64_by_value_fails",
    "AnyAny.Visit.C64_references_partial"
   ],
   "note": "The statement is false for every by-value parameter (C64_by_value_fails); reference parameters receive what they declare."
  },
  {
   "property": "C65",
   "status": "partial",
   "theorems": [
    "AnyAny.Visit.C65_function_pointer_fails"
   ],
   "note": "The statement is false: for every function-pointer overload the call goes through a null pointer."
  },
  {
   "property": "C66",
   "status": "partial",
   "theorems": [
    "AnyAny.Dpv.C66_fails",
    "AnyAny.Dpv.C66_partial",
    "AnyAny.Dpv.C66_exact"
   ],
   "note": "The statement is false for types with default member initialisers (C66_fails)."
  },
  {
   "property": "C67",
   "status": "proved",
   "theorems": [
    "AnyAny.Dpv.C67_spans",
    "AnyAny.Dpv.C67_reserve",
    "AnyAny.Dpv.C67_history",
    "AnyAny.Dpv.C67_others",
    "AnyAny.Dpv.C67_operations",
    "AnyAny.Dpv.C67_program",
    "AnyAny.Dpv.C67_throws",
    "AnyAny.Dpv.C67_program_throws"
   ],
   "note": "C67_operations and C67_program: all operations, in histories with any number of containers; C67_others: operations on other containers, also if they throw. C67_throws, C67_program_throws: operations on the container itself that throw, in any state."
  },
  {
   "property": "C68",
   "status": "proved",
   "theorems": [
    "AnyAny.Poly.C68_move_construction",
    "AnyAny.Poly.C68_move_assignment",
    "AnyAny.Poly.C68_unstable"
   ],
   "note": "Move assignment between unequal allocators that do not propagate is excluded, as in C14 (C14_fails)."
  },
  {
   "property": "C69",
   "status": "partial",
   "theorems": [
    "AnyAny.Invoke.C69_accepts",
    "AnyAny.Invoke.C69_rejects_partial",
    "AnyAny.Invoke.C69_exact",
    "AnyAny.Invoke.C69_any_unchanged_partial",
    "AnyAny.Invoke.C69_reference_unchanged",
    "AnyAny.Invoke.C69_const_rvalue_fails"
   ],
   "note": "False for const rvalues of any types (C69_const_rvalue_fails); proved for all other operands."
  },
  {
   "property": "C70",
   "status": "proved",
   "theorems": [
    "AnyAny.Invoke.C70_invoke",
    "AnyAny.Invoke.C70_call_operator"
   ],
   "note": "Overload resolution of invoke_fn and the initialisation of parameters are written as C++ specifies them."
  },
  {
   "property": "C71",
   "status": "partial",
   "theorems": [
    "AnyAny.Macro.C71_method_partial",
    "AnyAny.Macro.C71_extern_method_partial",
    "AnyAny.Macro.C71_pseudomethod_partial",
    "AnyAny.Macro.C71_comma_in_return_type_fails"
   ],
   "note": "False for return types with a comma outside parentheses (C71_comma_in_return_type_fails); proved for all others. Arguments that use other macros are taken as already replaced."
  },
  {
   "property": "C72",
   "status": "proved",
   "theorems": [
    "AnyAny.Dpv.C72_programs",
    "AnyAny.Dpv.C72_programs_exceptions",
    "AnyAny.Dpv.C72_permutes",
    "AnyAny.DpvIter.C72_loops"
   ],
   "note": "Programs are trees of operations with arbitrary continuations; what they may observe is sizes, elements and results of operations."
  },
  {
   "property": "C73",
   "status": "partial",
   "theorems": [
    "AnyAny.Ctor.C73_same_any",
    "AnyAny.Ctor.C73_other_any",
    "AnyAny.Ctor.C73_references",
    "AnyAny.Ctor.C73_values",
    "AnyAny.Ctor.C73_assign_same_any",
    "AnyAny.Ctor.C73_assign_other_any",
    "AnyAny.Ctor.C73_never_nests_partial",
    "AnyAny.Ctor.C73_empty_braces",
    "AnyAny.Ctor.C73_braces_any",
    "AnyAny.Ctor.C73_braces_values",
    "AnyAny.Ctor.C73_allocator_arg_fails"
   ],
   "note": "False for construction with std::allocator_arg (C73_allocator_arg_fails); proved for all other initialisations. Overload resolution is written as C++20 specifies it."
  },
  {
   "property": "C74",
   "status": "proved",
   "theorems": [
    "AnyAny.Mem.C74_accesses_only_operands",
    "AnyAny.Mem.C74_const_operands_untouched",
    "AnyAny.Mem.C74_interleavings",
    "AnyAny.Mem.C74_alone_values",
    "AnyAny.Mem.C74_threads"
   ],
   "note": "Interleavings of whole operations; for interleavings of single accesses see C99. C74_interleavings covers exceptions and all allocators; C74_threads (end values) is for allocators whose instances are all equal and no exceptions, as the statement says."
  },
  {
   "property": "C75",
   "status": "proved",
   "theorems": [
    "AnyAny.Mem.C75_not_swallowed",
    "AnyAny.Mem.C75_not_invented",
    "AnyAny.Mem.C75_terminates",
    "AnyAny.Mem.C75_returns"
   ],
   "note": ""
  },
  {
   "property": "C76",
   "status": "proved",
   "theorems": [
    "AnyAny.Mem.C76_compiling_programs_never_allocate",
    "AnyAny.Mem.C76_rejected_only_if_allocating"
   ],
   "note": "Which statements instantiate allocate is written down from the if constexpr conditions of the code (Spec/NoAlloc.lean, CompilesUnreachable)."
  },
  {
   "property": "C77",
   "status": "proved",
   "theorems": [
    "AnyAny.Methods.C77_const_methods_cannot_change",
    "AnyAny.Methods.C77_signature",
    "AnyAny.Methods.C77_parameter",
    "AnyAny.Methods.C77_regular_methods",
    "AnyAny.Methods.C77_by_value_needs_copyable",
    "AnyAny.Methods.C77_pseudomethods",
    "AnyAny.Methods.C77_is_const_method",
    "AnyAny.Methods.C77_const_iff_not_mutable"
   ],
   "note": "Binding of the parameter is written as C++ specifies it; conversions of arguments and results are not modelled."
  },
  {
   "property": "C78",
   "status": "partial",
   "theorems": [
    "AnyAny.Methods.C78_exact",
    "AnyAny.Methods.C78_exist_for_partial",
    "AnyAny.Methods.C78_never_rejects",
    "AnyAny.Methods.C78_exist_for_fails"
   ],
   "note": "False for methods taking the object by value and types that are not copyable, and for every method taking it by rvalue reference (C78_exist_for_fails, for all of them); proved for all other methods, and the check never rejects too much (C78_never_rejects). C78_exact: when everything compiles that the check allows."
  },
  {
   "property": "C79",
   "status": "partial",
   "theorems": [
    "AnyAny.Methods.C79_exact",
    "AnyAny.Methods.C79_made",
    "AnyAny.Methods.C79_objects_partial",
    "AnyAny.Methods.C79_any_decays",
    "AnyAny.Methods.C79_any_contains",
    "AnyAny.Methods.C79_arrays_fail",
    "AnyAny.Methods.C79_arrays_pseudomethods",
    "AnyAny.Methods.C79_functions_fail"
   ],
   "note": "False for arrays: every method of every reference to an array accesses the array as a pointer (C79_arrays_fail); references to functions cannot be made (C79_functions_fail), although README and the comment at anyany.hpp:929 promise both. Proved for all other types and for anys. C79_exact: calls through references are right exactly if the type is not an array."
  },
  {
   "property": "C80",
   "status": "partial",
   "theorems": [
    "AnyAny.Dpv.C80_partial",
    "AnyAny.Dpv.C80_exact",
    "AnyAny.Dpv.C80_fails"
   ],
   "note": "The code compares fields by <=>, not by ==. C80_partial proves the claim if <=> and == of every field agree; C80_exact shows this condition is necessary; C80_fails gives, for any field type with equivalent values that are not ==, a history leading to containers that compare == though the vectors do not."
  },
  {
   "property": "C81",
   "status": "partial",
   "theorems": [
    "AnyAny.RefCtor.C81_sources_partial",
    "AnyAny.RefCtor.C81_const_poly_ptr_partial",
    "AnyAny.RefCtor.C81_const_correct",
    "AnyAny.RefCtor.C81_conversions",
    "AnyAny.RefCtor.C81_pointers_to_references"
   ],
   "note": "C81_sources_partial: exact for five class templates; C81_const_poly_ptr_partial: const_poly_ptr except pointers to anys and to references, for which C36_exact and C81_pointers_to_references give the exact (smaller) sets; C81_const_correct, C81_conversions hold without restriction."
  },
  {
   "property": "C82",
   "status": "proved",
   "theorems": [
    "AnyAny.RefCtor.C82_references",
    "AnyAny.RefCtor.C82_lvalues_rejected",
    "AnyAny.RefCtor.C82_pointers"
   ],
   "note": "Exact characterisation of every assignment. C82_lvalues_rejected: r1 = r2 with a non-const lvalue selects the deleted template although a copy assignment exists."
  },
  {
   "property": "C83",
   "status": "partial",
   "theorems": [
    "AnyAny.AnyCast.C83_const_correct",
    "AnyAny.AnyCast.C83_mutable",
    "AnyAny.AnyCast.C83_no_stealing",
    "AnyAny.AnyCast.C83_in_place",
    "AnyAny.AnyCast.C83_values",
    "AnyAny.AnyCast.C83_rvalue_references",
    "AnyAny.AnyCast.C83_references_compile",
    "AnyAny.AnyCast.C83_values_compile",
    "AnyAny.AnyCast.C83_exact_partial",
    "AnyAny.AnyCast.C83_arrays_fail",
    "AnyAny.AnyCast.C83_exact",
    "AnyAny.AnyCast.C83_references_to_arrays_fail"
   ],
   "note": "Full statement proved except that any_cast to array types (C83_arrays_fail), and of references to arrays (C83_references_to_arrays_fail), accesses an object as another type; C83_exact: for anys exactly then. Function types as T are not modelled."
  },
  {
   "property": "C84",
   "status": "partial",
   "theorems": [
    "AnyAny.Call.C84_operator_is_invoke",
    "AnyAny.Call.C84_void",
    "AnyAny.Call.C84_values",
    "AnyAny.Call.C84_conversions",
    "AnyAny.Call.C84_slices",
    "AnyAny.Call.C84_references_partial",
    "AnyAny.Call.C84_references_exact",
    "AnyAny.Call.C84_dangling_fails",
    "AnyAny.Call.C84_casts_fail",
    "AnyAny.Call.C84_rvalue_casts_fail",
    "AnyAny.Call.C84_converted_references_fail",
    "AnyAny.Call.C84_exceptions",
    "AnyAny.Call.C84_invoke",
    "AnyAny.Call.C84_invoke_exact",
    "AnyAny.Call.C84_macro_methods"
   ],
   "note": "Full statement proved except that references can dangle or be cast: call and anyany_method cast the result with static_cast, so call<const T&()> accepts an object whose operator() returns T (or something convertible to T) and returns a reference to a destroyed temporary (C84_dangling_fails); call<Derived&()> accepts an object returning Base& and call<T&&()> one returning T& (C84_casts_fail). C84_references_exact says that a reference result always designates the object the implementation designated, or else an object that does not exist any more; C84_references_partial gives the cases in which it is the same object."
  },
  {
   "property": "C85",
   "status": "proved",
   "theorems": [
    "AnyAny.Mem.C85_bounds",
    "AnyAny.Mem.C85_history",
    "AnyAny.Mem.C85_no_copies"
   ],
   "note": "Upper bounds on allocations, objects and copies of every operation and of every history; beside them, legal operations that reach each bound."
  },
  {
   "property": "C86",
   "status": "partial",
   "theorems": [
    "AnyAny.Swarm.C86_copyAssign_exact",
    "AnyAny.Swarm.C86_others",
    "AnyAny.Swarm.C86_strong",
    "AnyAny.Swarm.C86_source",
    "AnyAny.Swarm.C86_copyAssign_partial",
    "AnyAny.Swarm.C86_visit",
    "AnyAny.Swarm.C86_copyAssign_fails"
   ],
   "note": "Copy assignment is that of std::tuple: it assigns one container after the other, so that an exception leaves new values for some types and old ones for others (C86_copyAssign_fails, C86_copyAssign_partial; C86_copyAssign_exact: when the swarm then has its old values, or the new ones). Assumed: moving and swapping containers does not throw. That histories go on after an exception is C57_exists, and C57/C58 hold in them."
  },
  {
   "property": "C87",
   "status": "partial",
   "theorems": [
    "AnyAny.DpvAlloc.C87_allocators_partial",
    "AnyAny.DpvAlloc.C87_defined",
    "AnyAny.DpvAlloc.C87_buffers",
    "AnyAny.DpvAlloc.C87_legal_defined",
    "AnyAny.DpvAlloc.C87_assign_exact",
    "AnyAny.DpvAlloc.C87_assign_fails",
    "AnyAny.DpvAlloc.C87_copyAssign_exception_fails"
   ],
   "note": "The allocators are those of a std::vector in every history that avoids two cases, in which they are not: C87_assign_exact and C87_assign_fails (assign and = {...} replace a propagating allocator by Alloc()), C87_copyAssign_exception_fails. C87_defined (memory goes back to an equal allocator) holds in all histories."
  },
  {
   "property": "C88",
   "status": "partial",
   "theorems": [
    "AnyAny.DpvRange.C88_insert_partial",
    "AnyAny.DpvRange.C88_rangeCtor",
    "AnyAny.DpvRange.C88_insertOne",
    "AnyAny.DpvRange.C88_xvalues_exact",
    "AnyAny.DpvRange.C88_xvalues_fails"
   ],
   "note": "Proved for every combination but move iterators before other elements; there C88_xvalues_exact says what happens, and C88_xvalues_fails that it is wrong for every type with two or more fields."
  },
  {
   "property": "C89",
   "status": "partial",
   "theorems": [
    "AnyAny.DpvRange.C89_end_exact",
    "AnyAny.DpvRange.C89_middle_exact",
    "AnyAny.DpvRange.C89_one_exact",
    "AnyAny.DpvRange.C89_bound_partial",
    "AnyAny.DpvRange.C89_deref_fails",
    "AnyAny.DpvRange.C89_copy_fails"
   ],
   "note": "Exact counts for all cases (C89_end_exact, C89_middle_exact, C89_one_exact), bounds (C89_bound_partial), and the disagreement with std::vector for every type with two or more fields (C89_deref_fails, C89_copy_fails)."
  },
  {
   "property": "C90",
   "status": "partial",
   "theorems": [
    "AnyAny.Dpv.C90_iterators_partial",
    "AnyAny.Dpv.C90_value",
    "AnyAny.Dpv.C90_swap_exact",
    "AnyAny.Dpv.C90_swap_fails",
    "AnyAny.Dpv.C90_move_exact"
   ],
   "note": "Proved for all operations but swap and moves (C90_iterators_partial, C90_value); for these C90_swap_exact and C90_move_exact say what iterators give, and C90_swap_fails that it is not what those of std::vector give."
  },
  {
   "property": "C91",
   "status": "partial",
   "theorems": [
    "AnyAny.Visit.C91_result_partial",
    "AnyAny.Visit.C91_result_fails",
    "AnyAny.Visit.C91_exact"
   ],
   "note": "C91_result_partial for all results but views made from returned references; for these C91_result_fails."
  },
  {
   "property": "C92",
   "status": "partial",
   "theorems": [
    "AnyAny.Visit.C92_exceptions_partial",
    "AnyAny.Visit.C92_terminates_exact",
    "AnyAny.Visit.C92_fails",
    "AnyAny.Visit.C92_nullopt"
   ],
   "note": "C92_exceptions_partial, C92_nullopt; C92_terminates_exact says exactly when the program is terminated, C92_fails that this happens where a call would throw."
  },
  {
   "property": "C93",
   "status": "proved",
   "theorems": [
    "AnyAny.Dpv.C93_types",
    "AnyAny.Dpv.C93_compiles",
    "AnyAny.Dpv.C93_index",
    "AnyAny.Dpv.C93_contents"
   ],
   "note": "The internal type noexport::bool_ must not be used as a field type (hypothesis NoInternal)."
  },
  {
   "property": "C94",
   "status": "partial",
   "theorems": [
    "AnyAny.Dpv.C94_types",
    "AnyAny.Dpv.C94_reference",
    "AnyAny.Dpv.C94_copy",
    "AnyAny.Dpv.C94_move",
    "AnyAny.Dpv.C94_element",
    "AnyAny.Dpv.C94_compiles_partial",
    "AnyAny.Dpv.C94_adl_fails"
   ],
   "note": "For types and allocators that are not associated with namespace std (e.g. std::pmr::polymorphic_allocator<T>), bindings of containers do not compile (C94_adl_fails); C94_compiles_partial is the exact condition. The other theorems hold for all."
  },
  {
   "property": "C95",
   "status": "partial",
   "theorems": [
    "AnyAny.Nested.C95_move_partial",
    "AnyAny.Nested.C95_move_fails",
    "AnyAny.Nested.C95_into_itself",
    "AnyAny.Nested.C95_move_exact",
    "AnyAny.Nested.C95_copy_partial",
    "AnyAny.Nested.C95_copy_fails",
    "AnyAny.Nested.C95_copy_exact",
    "AnyAny.Nested.C95_temporary"
   ],
   "note": "C95_move_fails: `a = std::move(inner)` with inner inside the value of a is undefined for every allocator; C95_copy_fails: `a = inner` with a propagating, unequal allocator. C95_move_partial and C95_copy_partial: all other cases are right (C95_move_exact, C95_copy_exact; C95_into_itself: moving an any into a part of its own value is undefined, for std::any too). C95_temporary: `a = Any(std::move(inner))` is always right."
  },
  {
   "property": "C96",
   "status": "partial",
   "theorems": [
    "AnyAny.Reentry.C96_partial",
    "AnyAny.Reentry.C96_fails",
    "AnyAny.Reentry.C96_exact",
    "AnyAny.Reentry.C96_has_value_fails"
   ],
   "note": "C96_fails: a destructor that resets, fills, assigns to or moves from its own any is undefined behaviour; C96_has_value_fails: has_value() is true meanwhile. C96_partial: as if emptied first, for all programs in which no destructor uses an any whose value is being destroyed. C96_exact: only then, for programs that do not ask has_value() or assign an any to itself. C116_partial has this with storage, and with constructors that use anys and throw."
  },
  {
   "property": "C97",
   "status": "partial",
   "theorems": [
    "AnyAny.Poly.C97_partial",
    "AnyAny.Poly.C97_one_method",
    "AnyAny.Poly.C97_null_fails",
    "AnyAny.Poly.C97_conversion_fails"
   ],
   "note": "C97_null_fails, C97_conversion_fails: equal pointers that compare_exchange tells apart. C97_partial: load, store, no success for unequal pointers, progress of the usual loop, all states stay states of C31. C97_one_method: exact for pointers with one method that are not null."
  },
  {
   "property": "C98",
   "status": "partial",
   "theorems": [
    "AnyAny.SwarmInsert.C98_own_type",
    "AnyAny.SwarmInsert.C98_converted",
    "AnyAny.SwarmInsert.C98_ambiguous",
    "AnyAny.SwarmInsert.C98_variant_partial",
    "AnyAny.SwarmInsert.C98_variant_exact",
    "AnyAny.SwarmInsert.C98_variant_fails"
   ],
   "note": "Proved: values of the types themselves, values of other types, derived classes included (exactly the best conversion), agreement with std::variant if no conversion is narrowing, and exactly if the chosen one is not (C98_variant_exact). The full statement fails: a narrowing standard conversion is taken by insert but not considered by std::variant (a string literal becomes a bool in variant_swarm<bool, std::string>). Braced lists are not covered by the comparison with std::variant."
  },
  {
   "property": "C99",
   "status": "proved",
   "theorems": [
    "AnyAny.Fine.C99_accesses_are_the_operation",
    "AnyAny.Fine.C99_accesses_complete",
    "AnyAny.Fine.C99_no_race",
    "AnyAny.Fine.C99_alone",
    "AnyAny.Fine.C99_shared_objects",
    "AnyAny.Fine.C99_observers",
    "AnyAny.Fine.C99_observers_of_shared_objects",
    "AnyAny.Fine.C99_values",
    "AnyAny.Fine.C99_progress",
    "AnyAny.Fine.C99_needs_separation"
   ],
   "note": "Accesses are to whole any objects and whole blocks, so there are at least the conflicts there are in the code. An allocation gives a block no one else uses; the allocator itself is not modelled. C99_needs_separation shows a race where the condition is violated."
  },
  {
   "property": "C100",
   "status": "proved",
   "theorems": [
    "AnyAny.Fine.C100_sequential",
    "AnyAny.Fine.C100_defined",
    "AnyAny.Fine.C100_objects_at_join",
    "AnyAny.Fine.C100_blocks_at_join",
    "AnyAny.Fine.C100_state_at_join",
    "AnyAny.Fine.C100_nothing_left"
   ],
   "note": "Starting and joining threads is not code of the library; the world after the join is defined in Spec/FineJoin.lean (Machine.joined). Names of blocks and objects that no thread used count as gone."
  },
  {
   "property": "C101",
   "status": "proved",
   "theorems": [
    "AnyAny.Sync.C101_no_race",
    "AnyAny.Sync.C101_one_after_the_other",
    "AnyAny.Sync.C101_between",
    "AnyAny.Sync.C101_values",
    "AnyAny.Sync.C101_nothing_left",
    "AnyAny.Sync.C101_progress",
    "AnyAny.Sync.C101_observers",
    "AnyAny.Sync.C101_needs_exclusion"
   ],
   "note": "How threads synchronise is not code of the library: the model says only when operations begin (Spec/Sync.lean). Names of blocks, objects and calls are set aside for an operation when it begins, in any number; those it has not used count as gone (skip). An operation that terminates the process is not in the sequence of operations."
  },
  {
   "property": "C102",
   "status": "partial",
   "theorems": [
    "AnyAny.Layout.C102_value_inside",
    "AnyAny.Layout.C102_stored_inside",
    "AnyAny.Layout.C102_members",
    "AnyAny.Layout.C102_arrays",
    "AnyAny.Layout.C102_size",
    "AnyAny.Layout.C102_no_padding",
    "AnyAny.Layout.C102_padding_fails",
    "AnyAny.Layout.C102_padding_exact",
    "AnyAny.Layout.C102_default_fails"
   ],
   "note": "The part about padding is false: a buffer that is larger than the strictest alignment and not a multiple of it leaves bytes unused (C102_padding_fails; C102_padding_exact: exactly these), the default buffer on 64-bit platforms among them (C102_default_fails). Layout rules of the Itanium ABI are assumed."
  },
  {
   "property": "C103",
   "status": "partial",
   "theorems": [
    "AnyAny.Elem.C103_columns",
    "AnyAny.Elem.C103_get",
    "AnyAny.Elem.C103_right",
    "AnyAny.Elem.C103_value_partial",
    "AnyAny.Elem.C103_array_fails",
    "AnyAny.Elem.C103_const_fails",
    "AnyAny.Elem.C103_value_exact"
   ],
   "note": "Proved for everything but two documented cases, which do not compile: reading an element of data_parallel_vector<std::array<T, n>> as a whole where aggregates can be initialised with parentheses (C103_array_fails), and tuple-like types with const or reference parts (C103_const_fails). C103_value_exact: which elements can be read as a whole."
  },
  {
   "property": "C104",
   "status": "proved",
   "theorems": [
    "AnyAny.Descriptor.C104_descriptors",
    "AnyAny.Descriptor.C104_assume_no_dlls",
    "AnyAny.Descriptor.C104_needs_no_dlls",
    "AnyAny.Poly.C104_pointers",
    "AnyAny.Poly.C104_null",
    "AnyAny.Poly.C104_values"
   ],
   "note": "The overloads for C++17 are modelled one by one; descriptors in the variant without type names too (C104_assume_no_dlls, and C104_needs_no_dlls: the assumption is needed)."
  },
  {
   "property": "C105",
   "status": "proved",
   "theorems": [
    "AnyAny.BoolField.C105_reference",
    "AnyAny.BoolField.C105_value",
    "AnyAny.BoolField.C105_assign",
    "AnyAny.BoolField.C105_operator",
    "AnyAny.BoolField.C105_equal",
    "AnyAny.BoolField.C105_order",
    "AnyAny.BoolField.C105_columns"
   ],
   "note": "Overload resolution is written as C++20 specifies it ([over.match.best], [over.match.oper]). That std::span<bool> over an array of bool_ gives the same elements is assumed (it relies on the layout)."
  },
  {
   "property": "C106",
   "status": "partial",
   "theorems": [
    "AnyAny.Methods.C106_usable",
    "AnyAny.Methods.C106_kind_partial",
    "AnyAny.Methods.C106_stateless",
    "AnyAny.Methods.C106_const",
    "AnyAny.Methods.C106_compound",
    "AnyAny.Methods.C106_both_fails",
    "AnyAny.Methods.C106_signature_fails",
    "AnyAny.Methods.C106_const_compound_fails",
    "AnyAny.Methods.C106_nested_fails",
    "AnyAny.Methods.C106_kind_exact"
   ],
   "note": "Proved for classes that declare one kind of thing (C106_kind_partial) and without restriction for usability, state, const_method of classes, and lists. False for classes with do_invoke and value_type (C106_both_fails), with a signature_type that is not a function (C106_signature_fails), for const_method of lists, which does not compile (C106_const_compound_fails), and for lists in lists (C106_nested_fails). C106_kind_exact: for which classes the concepts tell how they are used."
  },
  {
   "property": "C107",
   "status": "partial",
   "theorems": [
    "AnyAny.ElemRef.C107_read_partial",
    "AnyAny.ElemRef.C107_read_exact",
    "AnyAny.ElemRef.C107_read_fails",
    "AnyAny.ElemRef.C107_assign_partial",
    "AnyAny.ElemRef.C107_assign_exact",
    "AnyAny.ElemRef.C107_assign_values",
    "AnyAny.ElemRef.C107_assign_fails",
    "AnyAny.ElemRef.C107_read",
    "AnyAny.ElemRef.C107_assign",
    "AnyAny.ElemRef.C107_compare_exact",
    "AnyAny.ElemRef.C107_compare",
    "AnyAny.ElemRef.C107_compare_fails",
    "AnyAny.ElemRef.C107_copy_fails",
    "AnyAny.ElemRef.C107_convert_fails",
    "AnyAny.ElemRef.C107_swap",
    "AnyAny.ElemRef.C107_swap_values"
   ],
   "note": "Proved for reading, assignment and comparisons of copyable elements, and for swap without restriction. False: references cannot be copied (C107_copy_fails) nor converted to const_reference (C107_convert_fails), a reference and a const_reference cannot be compared (C107_compare_fails), and std::move of a reference copies, so that it does not compile for types that can only be moved (C107_read_fails, C107_assign_fails)."
  },
  {
   "property": "C108",
   "status": "partial",
   "theorems": [
    "AnyAny.SwarmVisitor.C108_exact",
    "AnyAny.SwarmVisitor.C108_accepted_exact",
    "AnyAny.SwarmVisitor.C108_accepts_partial",
    "AnyAny.SwarmVisitor.C108_parameters_exact",
    "AnyAny.SwarmVisitor.C108_lvalue_fails",
    "AnyAny.SwarmVisitor.C108_rvalue_fails",
    "AnyAny.SwarmVisitor.C108_const"
   ],
   "note": "Proved for visitors that do not care about value categories, and exactly for all. The full statement is false: visitor_for tests the call with an rvalue, so a visitor taking T& is rejected and one taking T&& is accepted but does not compile (C108_lvalue_fails, C108_rvalue_fails)."
  },
  {
   "property": "C109",
   "status": "partial",
   "theorems": [
    "AnyAny.Visit.C109_exact",
    "AnyAny.Visit.C109_nullopt",
    "AnyAny.Visit.C109_objects_partial",
    "AnyAny.Visit.C109_array_argument_fails",
    "AnyAny.Visit.C109_array_parameter_fails"
   ],
   "note": "Proved without arrays, and exactly for all types. The full statement is false: arguments and parameters are compared after decay but accessed without, so a string literal passed to an overload taking const char* has its characters read as a pointer (C109_array_argument_fails, C109_array_parameter_fails)."
  },
  {
   "property": "C110",
   "status": "partial",
   "theorems": [
    "AnyAny.ValueAlloc.C110_made",
    "AnyAny.ValueAlloc.C110_partial",
    "AnyAny.ValueAlloc.C110_move_throws",
    "AnyAny.ValueAlloc.C110_throws",
    "AnyAny.ValueAlloc.C110_exact",
    "AnyAny.ValueAlloc.C110_move_fails",
    "AnyAny.ValueAlloc.C110_copy_fails",
    "AnyAny.ValueAlloc.C110_terminates_fails",
    "AnyAny.ValueAlloc.C110_terminates_partial"
   ],
   "note": "Holds for histories whose assignments are between anys with allocators that agree or are propagated, and C110_exact shows that these are the only ones that keep it. Move assignment between unequal allocators leaves the value with the allocator of the source, which may dangle (C110_move_fails); copy assignment leaves it with the default one (C110_copy_fails); noexcept ignores the allocator argument (C110_terminates_fails)."
  },
  {
   "property": "C111",
   "status": "partial",
   "theorems": [
    "AnyAny.Mem.C111_partial",
    "AnyAny.Mem.C111_copies",
    "AnyAny.Mem.C111_fails",
    "AnyAny.Mem.C111_exact",
    "AnyAny.Mem.C111_throws_fails"
   ],
   "note": "Holds precisely if the instances of the allocator are all equal or are propagated on move assignment, or the anys cannot be copied (C111_partial, C111_exact). With every other allocator (std::pmr::polymorphic_allocator) the move constructor is not declared noexcept although it never throws (C06), so the vector copies: new objects, allocators chosen by select_on_container_copy_construction, and an exception can leave (C111_copies, C111_fails, C111_throws_fails)."
  },
  {
   "property": "C112",
   "status": "partial",
   "theorems": [
    "AnyAny.MemberNames.C112_exact",
    "AnyAny.MemberNames.C112_partial",
    "AnyAny.MemberNames.C112_same_name_fails",
    "AnyAny.MemberNames.C112_vtable_names",
    "AnyAny.MemberNames.C112_library_fails",
    "AnyAny.MemberNames.C112_found",
    "AnyAny.MemberNames.C112_class_names",
    "AnyAny.MemberNames.C112_others"
   ],
   "note": "Holds precisely for names that no other method of the class and no member of the library has (C112_exact, C112_partial). Plugins are separate base classes, so methods made from one template, as in the example of the macro (any_with<visit<int>, visit<double>>), or two signatures of call, make the name ambiguous (C112_same_name_fails); a method named as a member of basic_any is hidden by it (C112_library_fails)."
  },
  {
   "property": "C113",
   "status": "partial",
   "theorems": [
    "AnyAny.SwitchUse.C113_calls",
    "AnyAny.SwitchUse.C113_exact",
    "AnyAny.SwitchUse.C113_partial",
    "AnyAny.SwitchUse.C113_twice_fails",
    "AnyAny.SwitchUse.C113_default",
    "AnyAny.SwitchUse.C113_compiles",
    "AnyAny.SwitchUse.C113_void_fails",
    "AnyAny.SwitchUse.C113_pointers_fails"
   ],
   "note": "C113_calls, C113_default and C113_partial hold for all programs that compile, which C113_compiles characterises; false after the first call that ends the switch (C113_twice_fails, exactly C113_exact), for default_ of type_switch<void> (C113_void_fails) and for pointers (C113_pointers_fails)."
  },
  {
   "property": "C114",
   "status": "partial",
   "theorems": [
    "AnyAny.DpvReq.C114_exact",
    "AnyAny.DpvReq.C114_partial",
    "AnyAny.DpvReq.C114_always_fails",
    "AnyAny.DpvReq.C114_rvalues_fails",
    "AnyAny.DpvReq.C114_elements_fails",
    "AnyAny.DpvReq.C114_which",
    "AnyAny.DpvReq.C114_assign_fails",
    "AnyAny.DpvReq.C114_defaults_fails"
   ],
   "note": "C114_exact: an operation that compiles for std::vector<T> compiles for data_parallel_vector<T> except in six listed cases, in which it does not; C114_partial: everything but back() const and erase(first, last) compiles for fields that can be copied and default-constructed. The full statement is false: C114_always_fails, C114_rvalues_fails, C114_elements_fails, C114_assign_fails, C114_defaults_fails. C114_which: the operations there are for elements that cannot be copied, assigned, moved or default-constructed. Not included: types whose move operations are deleted while they can be copied, and iterators with other value types."
  },
  {
   "property": "C115",
   "status": "partial",
   "theorems": [
    "AnyAny.SwarmRange.C115_exact",
    "AnyAny.SwarmRange.C115_partial",
    "AnyAny.SwarmRange.C115_fails",
    "AnyAny.SwarmRange.C115_user_fails"
   ],
   "note": "False for every swarm and every nonempty range (C115_fails): the call does not compile, or the values go to the container of another type. C115_exact says when it compiles and what it does then; C115_partial: nothing is lost."
  },
  {
   "property": "C116",
   "status": "partial",
   "theorems": [
    "AnyAny.CtorReentry.C116_partial",
    "AnyAny.CtorReentry.C116_memory_partial",
    "AnyAny.CtorReentry.C116_emplace_fails",
    "AnyAny.CtorReentry.C116_left_fails",
    "AnyAny.CtorReentry.C116_throw_fails",
    "AnyAny.CtorReentry.C116_reset_fails",
    "AnyAny.CtorReentry.C116_assign_fails",
    "AnyAny.CtorReentry.C116_dtor_fails",
    "AnyAny.CtorReentry.C116_dtor_moved_fails",
    "AnyAny.CtorReentry.C116_copy_reset_fails",
    "AnyAny.CtorReentry.C116_copy_replaced_fails"
   ],
   "note": "C116_partial: all programs in which no constructor changes an any that a value is being constructed for, no copy constructor one that is being copied, no destructor uses an any whose value is being destroyed, and methods are called on anys with values (what methods do with their own object is in C119); in constructors, looking at it, moving from it, and throwing exceptions is allowed. C116_memory_partial: what memory the any has afterwards. C116_emplace_fails, C116_left_fails, C116_assign_fails, C116_reset_fails: changing it is undefined behaviour. C116_throw_fails: the any is not empty after an exception. C116_dtor_fails, C116_dtor_moved_fails: a destructor that changes its own any is undefined behaviour, or another any keeps the destroyed object. C116_copy_reset_fails, C116_copy_replaced_fails: copy constructors that change the any they copy from."
  },
  {
   "property": "C117",
   "status": "proved",
   "theorems": [
    "AnyAny.DpvFine.C117_no_race",
    "AnyAny.DpvFine.C117_alone",
    "AnyAny.DpvFine.C117_defined",
    "AnyAny.DpvFine.C117_sequential",
    "AnyAny.DpvFine.C117_results",
    "AnyAny.DpvFine.C117_parallel_map",
    "AnyAny.DpvFine.C117_no_waiting",
    "AnyAny.DpvFine.C117_sharing_races"
   ],
   "note": "C117_no_race and C117_alone for all programs; C117_sequential, C117_results for programs of operations on elements; C117_parallel_map as a use; C117_sharing_races: the ownership that is assumed is needed. An access to a field is one step."
  },
  {
   "property": "C118",
   "status": "proved",
   "theorems": [
    "AnyAny.Mem.C118_kept",
    "AnyAny.Mem.C118_destroyed",
    "AnyAny.Mem.C118_exact",
    "AnyAny.Mem.C118_pointer",
    "AnyAny.Mem.C118_exception"
   ],
   "note": "fate (Spec/Fate.lean) is the table; C118_kept, C118_destroyed and together C118_exact: an object is in the any c afterwards iff the table says so; C118_pointer: reading through an old pointer; C118_exception for operations that throw. swap is std::swap by moves. Legal excludes the operations with the known defects (C63, C22)."
  },
  {
   "property": "C119",
   "status": "proved",
   "theorems": [
    "AnyAny.Mem.MProg.C119_safe",
    "AnyAny.Mem.MProg.C119_refines",
    "AnyAny.Mem.MProg.C119_complete",
    "AnyAny.Mem.MProg.C119_accounting",
    "AnyAny.Mem.MProg.C119_terminate",
    "AnyAny.Mem.MProg.C119_write",
    "AnyAny.Mem.MProg.C119_lives",
    "AnyAny.Mem.MProg.C119_lives_exception",
    "AnyAny.Mem.MProg.C119_dangling_fails"
   ],
   "note": "Real program: addresses and vtable entries (Model/MethodProg.lean on Model/AnyMem.lean); ideal program: identities of objects (Spec/MethodProg.lean). C119_safe, C119_refines and C119_complete: the two are the same for careful programs. C119_lives connects to the table of C118. C119_dangling_fails: using self after destroying the own object is undefined behaviour."
  },
  {
   "property": "C120",
   "status": "proved",
   "theorems": [
    "AnyAny.SwarmRe.C120_safe",
    "AnyAny.SwarmRe.C120_refines",
    "AnyAny.SwarmRe.C120_disjoint",
    "AnyAny.SwarmRe.C120_spawn",
    "AnyAny.SwarmRe.C120_spoiled",
    "AnyAny.SwarmRe.C120_own_fails",
    "AnyAny.SwarmRe.C120_value_after_insert",
    "AnyAny.SwarmRe.C120_list_endless_fails"
   ],
   "note": "Rules of std::vector and std::list about iterators are assumed (Model/SwarmReentry.lean)."
  },
  {
   "property": "C121",
   "status": "proved",
   "theorems": [
    "AnyAny.SwarmRe.C121_access",
    "AnyAny.SwarmRe.C121_no_race",
    "AnyAny.SwarmRe.C121_safe",
    "AnyAny.SwarmRe.C121_running",
    "AnyAny.SwarmRe.C121_ended",
    "AnyAny.SwarmRe.C121_deterministic",
    "AnyAny.SwarmRe.C121_same_type_fails",
    "AnyAny.SwarmRe.C121_insert_fails"
   ],
   "note": "Accesses are to whole containers; that a step uses only the containers listed is proved (C121_access). Steps of threads are interleaved; for programs without races this is all that C++ allows."
  },
  {
   "property": "C122",
   "status": "partial",
   "theorems": [
    "AnyAny.Nested.C122_equal",
    "AnyAny.Nested.C122_structural",
    "AnyAny.Nested.C122_equivalence",
    "AnyAny.Nested.C122_hash",
    "AnyAny.Nested.C122_hash_distinguishes",
    "AnyAny.Nested.C122_order_partial",
    "AnyAny.Nested.C122_order_fails",
    "AnyAny.Nested.C122_order_exact",
    "AnyAny.Nested.C122_order_no_empty",
    "AnyAny.Nested.C122_order_equal",
    "AnyAny.Nested.C122_order_reversed",
    "AnyAny.Nested.C122_order_transitive",
    "AnyAny.Nested.C122_order_congruent",
    "AnyAny.Nested.C122_copy"
   ],
   "note": "<=> is undefined if a value meets an empty any on its right at the first difference (C122_order_fails, C122_order_exact: only then). Equality and hash are as stated. Comparing data does not throw."
  },
  {
   "property": "C123",
   "status": "partial",
   "theorems": [
    "AnyAny.UsesAlloc.C123_partial",
    "AnyAny.UsesAlloc.C123_any_fails",
    "AnyAny.UsesAlloc.C123_endless_fails",
    "AnyAny.UsesAlloc.C123_emplace_fails",
    "AnyAny.UsesAlloc.C123_nested_value",
    "AnyAny.UsesAlloc.C123_in_place_fails",
    "AnyAny.UsesAlloc.C123_stable_fails",
    "AnyAny.UsesAlloc.C123_reference_fails",
    "AnyAny.UsesAlloc.C123_exact"
   ],
   "note": "C123_partial: default construction, and construction from values that are no anys. C123_exact: of the constructions that compile without an allocator these (and tags that are contained as values) are the only ones that are as they should be. C123_nested_value: emplace<any>(value). C123_any_fails, C123_endless_fails, C123_emplace_fails, C123_in_place_fails, C123_stable_fails, C123_reference_fails: what the others do. Left out: std::initializer_list, arguments that convert to an allocator or a tag."
  },
  {
   "property": "C124",
   "status": "proved",
   "theorems": [
    "AnyAny.Nested.C124_find",
    "AnyAny.Nested.C124_insert",
    "AnyAny.Nested.C124_erase",
    "AnyAny.Nested.C124_iterate"
   ],
   "note": "C124_find, C124_insert, C124_erase, C124_iterate. The container is modelled by what it calls: hash of the key, bucket, == of keys."
  },
  {
   "property": "C125",
   "status": "partial",
   "theorems": [
    "AnyAny.Nested.C125_exact",
    "AnyAny.Nested.C125_partial",
    "AnyAny.Nested.C125_one_type",
    "AnyAny.Nested.C125_types_fails",
    "AnyAny.Nested.C125_empty_fails"
   ],
   "note": "C125_partial: for anys that are comparable with each other, C125_one_type: for anys with values of one type. C125_exact: exactly when. C125_types_fails, C125_empty_fails: several types, empty anys."
  },
  {
   "property": "C126",
   "status": "partial",
   "theorems": [
    "AnyAny.AllocReq.C126_exact",
    "AnyAny.AllocReq.C126_partial",
    "AnyAny.AllocReq.C126_fancy_fails",
    "AnyAny.AllocReq.C126_unmarked_fails",
    "AnyAny.AllocReq.C126_fromMore_fails",
    "AnyAny.AllocReq.C126_stays_fails",
    "AnyAny.AllocReq.C126_assignable"
   ],
   "note": "C126_exact: exactly which operations compile. C126_partial: all that should, with pointers that are pointers and a copy constructor declared noexcept, but for two operations. C126_fancy_fails, C126_unmarked_fails, C126_fromMore_fails, C126_stays_fails: the exceptions. C126_assignable: which allocators must be assignable, also of those that do not conform."
  },
  {
   "property": "C127",
   "status": "partial",
   "theorems": [
    "AnyAny.AllocReq.C127_never_rejects",
    "AnyAny.AllocReq.C127_exact",
    "AnyAny.AllocReq.C127_partial",
    "AnyAny.AllocReq.C127_arguments_fails",
    "AnyAny.AllocReq.C127_cpp17_fails",
    "AnyAny.AllocReq.C127_allocator_fails"
   ],
   "note": "C127_exact: exactly which checks are wrong. C127_never_rejects: they never say no wrongly. C127_partial: right in C++20 with allocators as std::allocator, for arguments from which the value can be constructed. C127_arguments_fails, C127_cpp17_fails, C127_allocator_fails."
  },
  {
   "property": "C128",
   "status": "partial",
   "theorems": [
    "AnyAny.Matcher.C128_exactly",
    "AnyAny.Matcher.C128_only",
    "AnyAny.Matcher.C128_most_special",
    "AnyAny.Matcher.C128_no_conversion",
    "AnyAny.Matcher.C128_callable",
    "AnyAny.Matcher.C128_one_partial",
    "AnyAny.Matcher.C128_visit_partial",
    "AnyAny.Matcher.C128_distinct",
    "AnyAny.Matcher.C128_several_fails",
    "AnyAny.Matcher.C128_documented_fails"
   ],
   "note": "C128_exactly, C128_most_special, C128_only, C128_no_conversion, C128_callable: any number of arguments. C128_one_partial, C128_visit_partial: with a generic function every alternative of one variant is handled. C128_several_fails, C128_documented_fails: not so for several."
  },
  {
   "property": "C129",
   "status": "partial",
   "theorems": [
    "AnyAny.Headers.C129_declared",
    "AnyAny.Headers.C129_once",
    "AnyAny.Headers.C129_order",
    "AnyAny.Headers.C129_macros_partial",
    "AnyAny.Headers.C129_conditions_partial",
    "AnyAny.Headers.C129_no_clash",
    "AnyAny.Headers.C129_left",
    "AnyAny.Headers.C129_ordering_exact",
    "AnyAny.Headers.C129_include_fails",
    "AnyAny.Headers.C129_uintptr_exact",
    "AnyAny.Headers.C129_uintptr_fails",
    "AnyAny.Headers.C129_attribute_fails",
    "AnyAny.Headers.C129_names_fails",
    "AnyAny.Headers.C129_frwd_fails"
   ],
   "note": "C129_declared, C129_once, C129_order, C129_no_clash, C129_left: declarations and macros (C129_no_clash: macros of the program; repeated equal definitions by the library itself are not excluded). C129_macros_partial, C129_conditions_partial: for compilers with __has_cpp_attribute, and apart from the condition of #include <compare>. C129_ordering_exact: type_descriptor.hpp must not be first in C++20. C129_include_fails, C129_uintptr_fails, C129_attribute_fails, C129_names_fails, C129_frwd_fails: the rest of the statement."
  },
  {
   "property": "C130",
   "status": "proved",
   "theorems": [
    "AnyAny.Visit.C130_reads",
    "AnyAny.Visit.C130_same",
    "AnyAny.Visit.C130_steps",
    "AnyAny.Visit.C130_called",
    "AnyAny.Visit.C130_no_overload",
    "AnyAny.Visit.C130_tight"
   ],
   "note": "C130_same: the list of steps belongs to the function of C44-C46. C130_steps: every list of steps. C130_called: of a call that takes place. C130_no_overload: without an overload. C130_tight: the bound is reached for every number of overloads. C130_reads: only entries of the table are read, and the result depends only on those."
  },
  {
   "property": "C131",
   "status": "partial",
   "theorems": [
    "AnyAny.Names.C131_exact",
    "AnyAny.Names.C131_partial",
    "AnyAny.Names.C131_gcc_partial",
    "AnyAny.Names.C131_anonymous_fails",
    "AnyAny.Names.C131_lambda_fails",
    "AnyAny.Names.C131_local_fails",
    "AnyAny.Names.C131_global_fails",
    "AnyAny.Names.C131_addresses",
    "AnyAny.Names.C131_libraries_fails",
    "AnyAny.Names.C131_msvc_exact",
    "AnyAny.Names.C131_msvc_partial",
    "AnyAny.Names.C131_msvc_fails"
   ],
   "note": "C131_exact: descriptors are equal iff all that the names tell is the same. C131_partial, C131_gcc_partial: types without unnamed namespaces and lambdas, and with Clang not local to functions. C131_anonymous_fails, C131_lambda_fails, C131_local_fails, C131_global_fails: the others. C131_addresses: without type names (ANYANY_ASSUME_NO_DLLS) it holds for all types of one program; C131_libraries_fails: not with shared libraries. C131_msvc_exact, C131_msvc_partial, C131_msvc_fails: with MSVC a type has one descriptor iff the classes of its template arguments are declared with the same keyword everywhere."
  },
  {
   "property": "C132",
   "status": "partial",
   "theorems": [
    "AnyAny.Visit.C132_exact",
    "AnyAny.Visit.C132_partial",
    "AnyAny.Visit.C132_different_addresses",
    "AnyAny.Visit.C132_passes_const_fails",
    "AnyAny.Visit.C132_refuses_fails"
   ],
   "note": "C132_exact: the check is that of the first overload whose function has the same address. C132_partial: right if overloads with the same address accept the same const arguments; C132_different_addresses: in particular if addresses are different. C132_passes_const_fails, C132_refuses_fails: otherwise."
  },
  {
   "property": "C133",
   "status": "partial",
   "theorems": [
    "AnyAny.DpvCost.C133_append",
    "AnyAny.DpvCost.C133_sizes",
    "AnyAny.DpvCost.C133_program_sizes",
    "AnyAny.DpvCost.C133_single",
    "AnyAny.DpvCost.C133_count",
    "AnyAny.DpvCost.C133_range_exact",
    "AnyAny.DpvCost.C133_range_least",
    "AnyAny.DpvCost.C133_range_partial",
    "AnyAny.DpvCost.C133_range_fails",
    "AnyAny.DpvCost.C133_many_ranges_fails",
    "AnyAny.DpvCost.C133_vector",
    "AnyAny.DpvCost.C133_constructor_exact",
    "AnyAny.DpvCost.C133_constructor_fails"
   ],
   "note": "C133_append: operations at the end, for every history. C133_single, C133_count: single elements and copies of a value, as std::vector. C133_range_exact, C133_range_least, C133_range_partial: what ranges move. C133_range_fails, C133_many_ranges_fails (with C133_vector: what std::vector does), C133_constructor_exact, C133_constructor_fails: the others."
  },
  {
   "property": "C134",
   "status": "partial",
   "theorems": [
    "AnyAny.DpvKeep.C134_capacity",
    "AnyAny.DpvKeep.C134_sizes",
    "AnyAny.DpvKeep.C134_allocator",
    "AnyAny.DpvKeep.C134_partial",
    "AnyAny.DpvKeep.C134_reserve",
    "AnyAny.DpvKeep.C134_never_falls",
    "AnyAny.DpvKeep.C134_assign_exact",
    "AnyAny.DpvKeep.C134_assign_range_exact",
    "AnyAny.DpvKeep.C134_fails",
    "AnyAny.DpvKeep.C134_rounds_fails",
    "AnyAny.DpvKeep.C134_assign_other_partial"
   ],
   "note": "C134_partial: every program without assign; C134_never_falls, C134_reserve, C134_capacity, C134_sizes, C134_allocator. C134_assign_exact, C134_assign_range_exact: what assign does, for every allocator. C134_fails: reserved memory is lost; C134_rounds_fails: one allocation per column and assign. C134_assign_other_partial: allocators for which it stays."
  },
  {
   "property": "C135",
   "status": "partial",
   "theorems": [
    "AnyAny.Mem.C135_values_partial",
    "AnyAny.Mem.C135_copy_fails",
    "AnyAny.Mem.C135_copy_exact",
    "AnyAny.Mem.C135_rounds_fails",
    "AnyAny.Mem.C135_move_exact",
    "AnyAny.Mem.C135_move_other_exact",
    "AnyAny.Mem.C135_swap_exact",
    "AnyAny.Mem.C135_swap_self_exact"
   ],
   "note": "C135_values_partial: any history of emplace and destroy_value with values that fit into the memory. C135_copy_fails: copy assignment allocates; C135_rounds_fails: at least once per assignment. C135_copy_exact, C135_move_exact: memory and allocations afterwards, for allocators that are equal or propagated; C135_move_other_exact: move assignment otherwise. C135_swap_exact, C135_swap_self_exact: std::swap."
  },
  {
   "property": "C136",
   "status": "proved",
   "theorems": [
    "AnyAny.SwitchCost.C136_steps",
    "AnyAny.SwitchCost.C136_result",
    "AnyAny.SwitchCost.C136_model",
    "AnyAny.SwitchCost.C136_comparisons",
    "AnyAny.SwitchCost.C136_position",
    "AnyAny.SwitchCost.C136_once",
    "AnyAny.SwitchCost.C136_default"
   ],
   "note": "C136_steps: the steps exactly; C136_comparisons, C136_position: their number; C136_once, C136_default: calls; C136_result, C136_model: the results are those of the model of C48. The functions of the cases have no other effect than their result."
  },
  {
   "property": "C137",
   "status": "proved",
   "theorems": [
    "AnyAny.Dpv.C137_clear",
    "AnyAny.Dpv.C137_destroy",
    "AnyAny.Dpv.C137_move_assign",
    "AnyAny.Dpv.C137_assign_count",
    "AnyAny.Dpv.C137_assign_range",
    "AnyAny.Dpv.C137_copy_assign",
    "AnyAny.Dpv.C137_any_number"
   ],
   "note": "C137_clear, C137_destroy, C137_move_assign; C137_assign_count, C137_assign_range, C137_copy_assign: these may throw themselves. LikeVectors says what behaves like vectors means. Without these the container may have columns of different lengths (C52_fails). C137_any_number: any number of exceptions with recovery (Recovers). A history after it that throws again is covered as the next exception."
  }
 ]
}