N={
'C01':(None,"For every legal history (Spec/AnyHist.lean, Legal). Legal excludes the cases disproved in C21, C22 and C63; with std::allocator no condition on allocators remains (C01_always_equal_allocators)."),
'C03':('proved',"The cases excluded by Legal are the defects C63 and C22."),
'C29':(None,"C29_type_descriptor: for the plugins of type_info, equal_to and spaceship the inherited one is the one whose entry type_descriptor() reads, for every list of methods; all statements about any_cast, type_switch and visit_invoke ask for any of the three methods (HasDesc)."),
'C09':(None,"Proved for allocators that are always equal, equal, or propagated on move assignment, and for all constructors; false for assignments between really different allocators (C09_fails). C09_move_assignment_exact says for every legal move assignment exactly when it throws, terminates or returns; C09_move_assignment_loses, that a throw always loses exactly the target's value."),
'C14':(None,"The full statement is false (C14_fails); the partial theorem says when it holds, and C14_unequal_allocators_fail that it fails in all other cases; C14_exact: both in one condition."),
'C15':(None,"False for force_stable_pointers construction and for types with throwing move constructors under unequal allocators (the two _fails theorems); proved for everything else. C15_force_stable_exact and C09_move_assignment_exact say exactly when these two terminate."),
'C19':(None,"Copy assignment also takes the allocator of the temporary if propagate_on_container_move_assignment (C19_copy_assignment_fails); C19_copy_assignment_exact: exactly when the rule is obeyed."),
'C21':(None,"The full statement is false (C21_fails; C21_own_value_fails: for every reachable state and every type with a destructor)."),
'C22':(None,"False for copies that throw (C22_throwing_copy_fails) and for stateful references (C22_stateful_fails); proved for the other references and for copies that do not throw. C22_throwing_copy_always_fails: every throwing copy of a type with a destructor is undefined behaviour. For allocators that are not empty the call does not compile (C22_stateful_allocators_fail, C22_allocators_exact)."),
'C61':(None,"False for over-aligned types (C61_fails; C61_overaligned_fails: always)."),
'C63':(None,"The statement is false: C63_steal_fails and C63_transmove_fails exhibit the undefined behaviour, C63_steal_foreign_fails and C63_transmove_foreign_fails show it for every state with different allocators. C03 proves it for all other histories."),
'C32':(None,"False for entries of mixed sizes (C32_fails); C32_exact: it holds if and only if the start offset is aligned for the entries. Proved whenever the start offset is aligned for the entries, in particular for tables of function pointers. Layout rule of the Itanium ABI."),
'C36':(None,"The statement is false (C36_fails): const_poly_ptr tests the conversion in the wrong direction; it holds when the method lists are equal. C36_exact gives exactly the accepted pointers, C36_is_constructible_wrong where the trait and the construction disagree."),
'C38':('partial','Equality for all pointers (C38_equality, C38_equivalence), hashes for poly_ptr (C38_hash_partial). std::hash of a const_poly_ptr does not compile (C38_hash_fails): anyany.hpp:2023 gives hash<void*> a const void*.'),
'C40':(None,"False if only the right operand is empty (C40_empty_right_fails); proved otherwise."),
'C45':(None,"The statement is false (C45_fails); C45_trailing_fails says exactly how: empty arguments at the end are treated as if they had not been passed. The partial theorems say when the statement holds."),
'C64':(None,"The statement is false for every by-value parameter (C64_by_value_fails); reference parameters receive what they declare."),
'C65':('partial',"The statement is false: for every function-pointer overload the call goes through a null pointer."),
'C46': ('proved','Assumed: different functions have different addresses, as C++ requires. Linkers that fold identical functions break this; what happens then is C132.'),
'C48': ('partial','C48_first_match_partial, C48_no_match, C48_default hold for all functions that return a Result; a function that returns nullopt or an empty optional<Result> leaves the switch undecided (C48_nullopt_fails, C48_nullopt_default_fails). C48_exact: the result of every switch whose functions have no effects.'),
'C49': ('partial','Proved for all overloads without const types (C49_visits_partial), in all class hierarchies; visiting const types does not compile (C49_const_fails, exactly C49_compiles). User-defined conversions of the visited objects are not modelled.'),
'C50': ('partial','Proved for every variant that holds an alternative; false for valueless variants (C50_valueless_fails).'),
'C52': (None,'The statement is false (C52_fails, for every reachable state and every resizing operation); C52_partial: all completed operations and the throwing ones with the strong guarantee or on one element. C52_throws_exact: the exact state of every field after an exception in field k; C52_exact: when the spans then have equal lengths; C52_push_back_exact: for push_back exactly if the first field throws; C52_insert_end_exact, C52_insert_middle_exact: the elements and fields that remain after a throwing insertion of a range; C52_assign_elem_exact: the element after a throwing assignment to it.'),
'C66': (None,'The statement is false for types with default member initialisers (C66_fails).'),
'C67': (None,'C67_operations and C67_program: all operations, in histories with any number of containers; C67_others: operations on other containers, also if they throw. C67_throws, C67_program_throws: operations on the container itself that throw, in any state.'),
'C56': (None,'Proved for every word width and all offsets; only operator-= with a negative offset violates the statement (C56_fails: its assertion fails; C56_sub_exact: for which offsets it passes).'),
'C57': ('proved','insert(first, last) with iterators does not compile when used (variant_swarm.hpp:66) and is not an operation of the histories.'),
'C60': ('proved','The members of std::unique_ptr are written as the standard specifies them; the deleter, the vtable entry and the pointer conversions are the code.'),
'C68': ('proved','Move assignment between unequal allocators that do not propagate is excluded, as in C14 (C14_fails).'),
'C69': ('partial','False for const rvalues of any types (C69_const_rvalue_fails); proved for all other operands.'),
'C70': ('proved','Overload resolution of invoke_fn and the initialisation of parameters are written as C++ specifies them.'),
'C71': ('partial','False for return types with a comma outside parentheses (C71_comma_in_return_type_fails); proved for all others. Arguments that use other macros are taken as already replaced.'),
'C72': ('proved','Programs are trees of operations with arbitrary continuations; what they may observe is sizes, elements and results of operations.'),
'C73': ('partial','False for construction with std::allocator_arg (C73_allocator_arg_fails); proved for all other initialisations. Overload resolution is written as C++20 specifies it.'),
'C74': ('proved','Interleavings of whole operations; for interleavings of single accesses see C99. C74_interleavings covers exceptions and all allocators; C74_threads (end values) is for allocators whose instances are all equal and no exceptions, as the statement says.'),
'C75': ('proved',''),
'C76': ('proved','Which statements instantiate allocate is written down from the if constexpr conditions of the code (Spec/NoAlloc.lean, CompilesUnreachable).'),
'C77': ('proved','Binding of the parameter is written as C++ specifies it; conversions of arguments and results are not modelled.'),
'C78': ('partial','False for methods taking the object by value and types that are not copyable, and for every method taking it by rvalue reference (C78_exist_for_fails, for all of them); proved for all other methods, and the check never rejects too much (C78_never_rejects). C78_exact: when everything compiles that the check allows.'),
'C79': ('partial','False for arrays: every method of every reference to an array accesses the array as a pointer (C79_arrays_fail); references to functions cannot be made (C79_functions_fail), although README and the comment at anyany.hpp:929 promise both. Proved for all other types and for anys. C79_exact: calls through references are right exactly if the type is not an array.'),
'C80': ('partial','The code compares fields by <=>, not by ==. C80_partial proves the claim if <=> and == of every field agree; C80_exact shows this condition is necessary; C80_fails gives, for any field type with equivalent values that are not ==, a history leading to containers that compare == though the vectors do not.'),
'C81': ('partial','C81_sources_partial: exact for five class templates; C81_const_poly_ptr_partial: const_poly_ptr except pointers to anys and to references, for which C36_exact and C81_pointers_to_references give the exact (smaller) sets; C81_const_correct, C81_conversions hold without restriction.'),
'C82': (None,'Exact characterisation of every assignment. C82_lvalues_rejected: r1 = r2 with a non-const lvalue selects the deleted template although a copy assignment exists.'),
'C83': ('partial','Full statement proved except that any_cast to array types (C83_arrays_fail), and of references to arrays (C83_references_to_arrays_fail), accesses an object as another type; C83_exact: for anys exactly then. Function types as T are not modelled.'),
'C84': ('partial','Full statement proved except that references can dangle or be cast: call and anyany_method cast the result with static_cast, so call<const T&()> accepts an object whose operator() returns T (or something convertible to T) and returns a reference to a destroyed temporary (C84_dangling_fails); call<Derived&()> accepts an object returning Base& and call<T&&()> one returning T& (C84_casts_fail). C84_references_exact says that a reference result always designates the object the implementation designated, or else an object that does not exist any more; C84_references_partial gives the cases in which it is the same object.'),
'C85': ('proved','Upper bounds on allocations, objects and copies of every operation and of every history; beside them, legal operations that reach each bound.'),
'C86': ('partial','Copy assignment is that of std::tuple: it assigns one container after the other, so that an exception leaves new values for some types and old ones for others (C86_copyAssign_fails, C86_copyAssign_partial; C86_copyAssign_exact: when the swarm then has its old values, or the new ones). Assumed: moving and swapping containers does not throw. That histories go on after an exception is C57_exists, and C57/C58 hold in them.'),
'C87': ('partial','The allocators are those of a std::vector in every history that avoids two cases, in which they are not: C87_assign_exact and C87_assign_fails (assign and = {...} replace a propagating allocator by Alloc()), C87_copyAssign_exception_fails. C87_defined (memory goes back to an equal allocator) holds in all histories.'),
'C88': ('partial','Proved for every combination but move iterators before other elements; there C88_xvalues_exact says what happens, and C88_xvalues_fails that it is wrong for every type with two or more fields.'),
'C89': ('partial','Exact counts for all cases (C89_end_exact, C89_middle_exact, C89_one_exact), bounds (C89_bound_partial), and the disagreement with std::vector for every type with two or more fields (C89_deref_fails, C89_copy_fails).'),
'C90': ('partial','Proved for all operations but swap and moves (C90_iterators_partial, C90_value); for these C90_swap_exact and C90_move_exact say what iterators give, and C90_swap_fails that it is not what those of std::vector give.'),
'C91': ('partial','C91_result_partial for all results but views made from returned references; for these C91_result_fails.'),
'C92': ('partial','C92_exceptions_partial, C92_nullopt; C92_terminates_exact says exactly when the program is terminated, C92_fails that this happens where a call would throw.'),
'C93': ('proved','The internal type noexport::bool_ must not be used as a field type (hypothesis NoInternal).'),
'C94': ('partial','For types and allocators that are not associated with namespace std (e.g. std::pmr::polymorphic_allocator<T>), bindings of containers do not compile (C94_adl_fails); C94_compiles_partial is the exact condition. The other theorems hold for all.'),
'C95': ('partial','C95_move_fails: `a = std::move(inner)` with inner inside the value of a is undefined for every allocator; C95_copy_fails: `a = inner` with a propagating, unequal allocator. C95_move_partial and C95_copy_partial: all other cases are right (C95_move_exact, C95_copy_exact; C95_into_itself: moving an any into a part of its own value is undefined, for std::any too). C95_temporary: `a = Any(std::move(inner))` is always right.'),
'C96': ('partial','C96_fails: a destructor that resets, fills, assigns to or moves from its own any is undefined behaviour; C96_has_value_fails: has_value() is true meanwhile. C96_partial: as if emptied first, for all programs in which no destructor uses an any whose value is being destroyed. C96_exact: only then, for programs that do not ask has_value() or assign an any to itself. C116_partial has this with storage, and with constructors that use anys and throw.'),
'C97': ('partial','C97_null_fails, C97_conversion_fails: equal pointers that compare_exchange tells apart. C97_partial: load, store, no success for unequal pointers, progress of the usual loop, all states stay states of C31. C97_one_method: exact for pointers with one method that are not null.'),
'C98': ('partial','Proved: values of the types themselves, values of other types, derived classes included (exactly the best conversion), agreement with std::variant if no conversion is narrowing, and exactly if the chosen one is not (C98_variant_exact). The full statement fails: a narrowing standard conversion is taken by insert but not considered by std::variant (a string literal becomes a bool in variant_swarm<bool, std::string>). Braced lists are not covered by the comparison with std::variant.'),
'C99': ('proved','Accesses are to whole any objects and whole blocks, so there are at least the conflicts there are in the code. An allocation gives a block no one else uses; the allocator itself is not modelled. C99_needs_separation shows a race where the condition is violated.'),
'C100': ('proved','Starting and joining threads is not code of the library; the world after the join is defined in Spec/FineJoin.lean (Machine.joined). Names of blocks and objects that no thread used count as gone.'),
'C101': ('proved','How threads synchronise is not code of the library: the model says only when operations begin (Spec/Sync.lean). Names of blocks, objects and calls are set aside for an operation when it begins, in any number; those it has not used count as gone (skip). An operation that terminates the process is not in the sequence of operations.'),
'C102': ('partial','The part about padding is false: a buffer that is larger than the strictest alignment and not a multiple of it leaves bytes unused (C102_padding_fails; C102_padding_exact: exactly these), the default buffer on 64-bit platforms among them (C102_default_fails). Layout rules of the Itanium ABI are assumed.'),
'C103': ('partial','Proved for everything but two documented cases, which do not compile: reading an element of data_parallel_vector<std::array<T, n>> as a whole where aggregates can be initialised with parentheses (C103_array_fails), and tuple-like types with const or reference parts (C103_const_fails). C103_value_exact: which elements can be read as a whole.'),
'C104': ('proved','The overloads for C++17 are modelled one by one; descriptors in the variant without type names too (C104_assume_no_dlls, and C104_needs_no_dlls: the assumption is needed).'),
'C105': ('proved','Overload resolution is written as C++20 specifies it ([over.match.best], [over.match.oper]). That std::span<bool> over an array of bool_ gives the same elements is assumed (it relies on the layout).'),
'C106': ('partial','Proved for classes that declare one kind of thing (C106_kind_partial) and without restriction for usability, state, const_method of classes, and lists. False for classes with do_invoke and value_type (C106_both_fails), with a signature_type that is not a function (C106_signature_fails), for const_method of lists, which does not compile (C106_const_compound_fails), and for lists in lists (C106_nested_fails). C106_kind_exact: for which classes the concepts tell how they are used.'),
'C107': ('partial','Proved for reading, assignment and comparisons of copyable elements, and for swap without restriction. False: references cannot be copied (C107_copy_fails) nor converted to const_reference (C107_convert_fails), a reference and a const_reference cannot be compared (C107_compare_fails), and std::move of a reference copies, so that it does not compile for types that can only be moved (C107_read_fails, C107_assign_fails).'),
'C108': ('partial','Proved for visitors that do not care about value categories, and exactly for all. The full statement is false: visitor_for tests the call with an rvalue, so a visitor taking T& is rejected and one taking T&& is accepted but does not compile (C108_lvalue_fails, C108_rvalue_fails).'),
'C109': ('partial','Proved without arrays, and exactly for all types. The full statement is false: arguments and parameters are compared after decay but accessed without, so a string literal passed to an overload taking const char* has its characters read as a pointer (C109_array_argument_fails, C109_array_parameter_fails).'),
'C110': ('partial','Holds for histories whose assignments are between anys with allocators that agree or are propagated, and C110_exact shows that these are the only ones that keep it. Move assignment between unequal allocators leaves the value with the allocator of the source, which may dangle (C110_move_fails); copy assignment leaves it with the default one (C110_copy_fails); noexcept ignores the allocator argument (C110_terminates_fails).'),
'C111': ('partial','Holds precisely if the instances of the allocator are all equal or are propagated on move assignment, or the anys cannot be copied (C111_partial, C111_exact). With every other allocator (std::pmr::polymorphic_allocator) the move constructor is not declared noexcept although it never throws (C06), so the vector copies: new objects, allocators chosen by select_on_container_copy_construction, and an exception can leave (C111_copies, C111_fails, C111_throws_fails).'),
'C112': ('partial','Holds precisely for names that no other method of the class and no member of the library has (C112_exact, C112_partial). Plugins are separate base classes, so methods made from one template, as in the example of the macro (any_with<visit<int>, visit<double>>), or two signatures of call, make the name ambiguous (C112_same_name_fails); a method named as a member of basic_any is hidden by it (C112_library_fails).'),
'C113': ('partial','C113_calls, C113_default and C113_partial hold for all programs that compile, which C113_compiles characterises; false after the first call that ends the switch (C113_twice_fails, exactly C113_exact), for default_ of type_switch<void> (C113_void_fails) and for pointers (C113_pointers_fails).'),
'C114': ('partial','C114_exact: an operation that compiles for std::vector<T> compiles for data_parallel_vector<T> except in six listed cases, in which it does not; C114_partial: everything but back() const and erase(first, last) compiles for fields that can be copied and default-constructed. The full statement is false: C114_always_fails, C114_rvalues_fails, C114_elements_fails, C114_assign_fails, C114_defaults_fails. C114_which: the operations there are for elements that cannot be copied, assigned, moved or default-constructed. Not included: types whose move operations are deleted while they can be copied, and iterators with other value types.'),
'C115': ('partial','False for every swarm and every nonempty range (C115_fails): the call does not compile, or the values go to the container of another type. C115_exact says when it compiles and what it does then; C115_partial: nothing is lost.'),
'C116': ('partial','C116_partial: all programs in which no constructor changes an any that a value is being constructed for, no copy constructor one that is being copied, no destructor uses an any whose value is being destroyed, and methods are called on anys with values (what methods do with their own object is in C119); in constructors, looking at it, moving from it, and throwing exceptions is allowed. C116_memory_partial: what memory the any has afterwards. C116_emplace_fails, C116_left_fails, C116_assign_fails, C116_reset_fails: changing it is undefined behaviour. C116_throw_fails: the any is not empty after an exception. C116_dtor_fails, C116_dtor_moved_fails: a destructor that changes its own any is undefined behaviour, or another any keeps the destroyed object. C116_copy_reset_fails, C116_copy_replaced_fails: copy constructors that change the any they copy from.'),
'C117': ('proved','C117_no_race and C117_alone for all programs; C117_sequential, C117_results for programs of operations on elements; C117_parallel_map as a use; C117_sharing_races: the ownership that is assumed is needed. An access to a field is one step.'),
'C118': ('proved','fate (Spec/Fate.lean) is the table; C118_kept, C118_destroyed and together C118_exact: an object is in the any c afterwards iff the table says so; C118_pointer: reading through an old pointer; C118_exception for operations that throw. swap is std::swap by moves. Legal excludes the operations with the known defects (C63, C22).'),
'C119': ('proved','Real program: addresses and vtable entries (Model/MethodProg.lean on Model/AnyMem.lean); ideal program: identities of objects (Spec/MethodProg.lean). C119_safe, C119_refines and C119_complete: the two are the same for careful programs. C119_lives connects to the table of C118. C119_dangling_fails: using self after destroying the own object is undefined behaviour.'),
'C120': ('proved','Rules of std::vector and std::list about iterators are assumed (Model/SwarmReentry.lean).'),
'C121': ('proved','Accesses are to whole containers; that a step uses only the containers listed is proved (C121_access). Steps of threads are interleaved; for programs without races this is all that C++ allows.'),
'C122': ('partial','<=> is undefined if a value meets an empty any on its right at the first difference (C122_order_fails, C122_order_exact: only then). Equality and hash are as stated. Comparing data does not throw.'),
'C123': ('partial','C123_partial: default construction, and construction from values that are no anys. C123_exact: of the constructions that compile without an allocator these (and tags that are contained as values) are the only ones that are as they should be. C123_nested_value: emplace<any>(value). C123_any_fails, C123_endless_fails, C123_emplace_fails, C123_in_place_fails, C123_stable_fails, C123_reference_fails: what the others do. Left out: std::initializer_list, arguments that convert to an allocator or a tag.'),
'C124': ('proved','C124_find, C124_insert, C124_erase, C124_iterate. The container is modelled by what it calls: hash of the key, bucket, == of keys.'),
'C125': ('partial','C125_partial: for anys that are comparable with each other, C125_one_type: for anys with values of one type. C125_exact: exactly when. C125_types_fails, C125_empty_fails: several types, empty anys.'),
'C126': ('partial','C126_exact: exactly which operations compile. C126_partial: all that should, with pointers that are pointers and a copy constructor declared noexcept, but for two operations. C126_fancy_fails, C126_unmarked_fails, C126_fromMore_fails, C126_stays_fails: the exceptions. C126_assignable: which allocators must be assignable, also of those that do not conform.'),
'C127': ('partial','C127_exact: exactly which checks are wrong. C127_never_rejects: they never say no wrongly. C127_partial: right in C++20 with allocators as std::allocator, for arguments from which the value can be constructed. C127_arguments_fails, C127_cpp17_fails, C127_allocator_fails.'),
'C128': ('partial','C128_exactly, C128_most_special, C128_only, C128_no_conversion, C128_callable: any number of arguments. C128_one_partial, C128_visit_partial: with a generic function every alternative of one variant is handled. C128_several_fails, C128_documented_fails: not so for several.'),
'C129': ('partial','C129_declared, C129_once, C129_order, C129_no_clash, C129_left: declarations and macros (C129_no_clash: macros of the program; repeated equal definitions by the library itself are not excluded). C129_macros_partial, C129_conditions_partial: for compilers with __has_cpp_attribute, and apart from the condition of #include <compare>. C129_ordering_exact: type_descriptor.hpp must not be first in C++20. C129_include_fails, C129_uintptr_fails, C129_attribute_fails, C129_names_fails, C129_frwd_fails: the rest of the statement.'),
'C130': ('proved','C130_same: the list of steps belongs to the function of C44-C46. C130_steps: every list of steps. C130_called: of a call that takes place. C130_no_overload: without an overload. C130_tight: the bound is reached for every number of overloads. C130_reads: only entries of the table are read, and the result depends only on those.'),
'C131': ('partial','C131_exact: descriptors are equal iff all that the names tell is the same. C131_partial, C131_gcc_partial: types without unnamed namespaces and lambdas, and with Clang not local to functions. C131_anonymous_fails, C131_lambda_fails, C131_local_fails, C131_global_fails: the others. C131_addresses: without type names (ANYANY_ASSUME_NO_DLLS) it holds for all types of one program; C131_libraries_fails: not with shared libraries. C131_msvc_exact, C131_msvc_partial, C131_msvc_fails: with MSVC a type has one descriptor iff the classes of its template arguments are declared with the same keyword everywhere.'),
'C132': ('partial','C132_exact: the check is that of the first overload whose function has the same address. C132_partial: right if overloads with the same address accept the same const arguments; C132_different_addresses: in particular if addresses are different. C132_passes_const_fails, C132_refuses_fails: otherwise.'),
'C133': ('partial','C133_append: operations at the end, for every history. C133_single, C133_count: single elements and copies of a value, as std::vector. C133_range_exact, C133_range_least, C133_range_partial: what ranges move. C133_range_fails, C133_many_ranges_fails (with C133_vector: what std::vector does), C133_constructor_exact, C133_constructor_fails: the others.'),
'C134': ('partial','C134_partial: every program without assign; C134_never_falls, C134_reserve, C134_capacity, C134_sizes, C134_allocator. C134_assign_exact, C134_assign_range_exact: what assign does, for every allocator. C134_fails: reserved memory is lost; C134_rounds_fails: one allocation per column and assign. C134_assign_other_partial: allocators for which it stays.'),
'C135': ('partial','C135_values_partial: any history of emplace and destroy_value with values that fit into the memory. C135_copy_fails: copy assignment allocates; C135_rounds_fails: at least once per assignment. C135_copy_exact, C135_move_exact: memory and allocations afterwards, for allocators that are equal or propagated; C135_move_other_exact: move assignment otherwise. C135_swap_exact, C135_swap_self_exact: std::swap.'),
'C136': ('proved','C136_steps: the steps exactly; C136_comparisons, C136_position: their number; C136_once, C136_default: calls; C136_result, C136_model: the results are those of the model of C48. The functions of the cases have no other effect than their result.'),
'C137': ('proved','C137_clear, C137_destroy, C137_move_assign; C137_assign_count, C137_assign_range, C137_copy_assign: these may throw themselves. LikeVectors says what behaves like vectors means. Without these the container may have columns of different lengths (C52_fails). C137_any_number: any number of exceptions with recovery (Recovers). A history after it that throws again is covered as the next exception.'),
}
