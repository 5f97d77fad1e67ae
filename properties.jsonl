{"id": "C01", "title": "No history of any operations has undefined behaviour", "statement": "Starting from no objects, any finite sequence of constructions, copies, moves, assignments, emplaces, resets, replace_with_bytes, transmutating constructions, in-place value mutations and destructions of any_with / basic_any_with objects, with exceptions thrown at arbitrary allocation and constructor calls, never frees memory twice, frees with the wrong size or an unequal allocator, destroys an object that is not alive, overwrites a live object, reads a stale allocation size, or calls through a null or wrongly typed vtable (reads of constructor arguments included). The exceptions are the misuses and defects stated separately: arguments that refer into the target (C21), materialize of a value whose copy throws (C22), memory handed between unequal allocators by a transmutating move or by an assignment with SooS == 0 (C63), and over-aligned types (C61). With std::allocator no condition on allocators remains.", "quantifier": "all finite operation histories, all exception schedules, all contained types (size, alignment, triviality, nothrow flags), all buffer sizes, all allocator trait combinations satisfying the stated allocator conditions", "why_tests_cant": "histories, exception schedules and type/allocator combinations are unbounded", "anchors": [{"file": "include/anyany/anyany.hpp", "symbols": ["basic_any"]}, {"file": "include/anyany/noexport/anyany_details.hpp", "symbols": ["copy_fn", "relocate", "trivial_copy_small_fn", "trivial_copy_big_fn"]}]}
{"id": "C02", "title": "Contained values are destroyed exactly once", "statement": "Every object that an any ever constructs is destroyed exactly once: at every point of every history each constructed object is either alive inside exactly one any and has been destroyed zero times, or it is dead and has been destroyed exactly once. After all any objects are destroyed, no contained object is alive.", "quantifier": "all histories, all exception schedules, all objects ever created", "why_tests_cant": "needs counting over unbounded histories with exceptions at every point", "anchors": [{"file": "include/anyany/anyany.hpp", "symbols": ["basic_any", "destroy_value", "reset", "~basic_any", "move_value_from", "emplace_decayed"]}]}
{"id": "C03", "title": "Allocated memory is freed exactly once and never leaked", "statement": "Every block obtained from the allocator is owned by exactly one any while it is live, and is returned exactly once, with the size it was requested with and to an allocator equal to the one that provided it. After all any objects are destroyed, no block is outstanding, also when constructors, copies or allocations threw. (The same exceptions as in C01.)", "quantifier": "all histories, all exception schedules, all blocks", "why_tests_cant": "leak freedom is a statement about every interleaving of failures", "anchors": [{"file": "include/anyany/anyany.hpp", "symbols": ["basic_any", "deallocate_memory", "emplace_in_empty", "replace_with_bytes", "move_value_from"]}, {"file": "include/anyany/noexport/anyany_details.hpp", "symbols": ["copy_fn", "scope_failure"]}]}
{"id": "C04", "title": "An any is an independent optional typed value", "statement": "Observed through has_value, type_descriptor, any_cast and comparison, a family of any objects behaves as a family of independent optional values: each operation changes the content of its target (and, for moves, of its source) exactly as the same operation on optional<variant of all types> would, and changes the content of no other any.", "quantifier": "all histories, all any objects, all values", "why_tests_cant": "refinement over all histories cannot be sampled", "anchors": [{"file": "include/anyany/anyany.hpp", "symbols": ["basic_any"]}]}
{"id": "C05", "title": "Copy construction copies and leaves the source alone", "statement": "After `any b(a)` succeeds, b holds the same dynamic type and an equal value (or is empty if a was), a is unchanged, and later changes of either do not affect the other; if the copy throws, no any was created and a and all others are unchanged.", "quantifier": "all states of a, all exception schedules", "why_tests_cant": "all types/states/failure points", "anchors": [{"file": "include/anyany/anyany.hpp", "symbols": ["basic_any(const basic_any&)"]}, {"file": "include/anyany/noexport/anyany_details.hpp", "symbols": ["copy_fn", "copy_fn_empty_alloc"]}]}
{"id": "C06", "title": "Move construction transfers the value, empties the source and never throws", "statement": "After `any b(std::move(a))`, b holds exactly what a held and a does not contain a value; no exception is ever thrown, and no copy constructor of the contained value is called.", "quantifier": "all states of a, all contained types", "why_tests_cant": "all types/states", "anchors": [{"file": "include/anyany/anyany.hpp", "symbols": ["basic_any(basic_any&&)", "move_value_from"]}]}
{"id": "C07", "title": "Move assignment transfers the value and empties the source", "statement": "After `b = std::move(a)` (b and a different objects) succeeds, b holds exactly what a held before and a has no value; self move assignment changes nothing.", "quantifier": "all states of a and b, all allocator relations", "why_tests_cant": "combinations of allocation state, allocator relation, sizes", "anchors": [{"file": "include/anyany/anyany.hpp", "symbols": ["operator=(basic_any&&)", "move_value_from"]}]}
{"id": "C08", "title": "Copy assignment is copy then replace", "statement": "After `b = a` succeeds, b holds a copy of a's value and a is unchanged, including a = a.", "quantifier": "all states and allocator relations", "why_tests_cant": "combinations of states and failures", "anchors": [{"file": "include/anyany/anyany.hpp", "symbols": ["operator=(const basic_any&)"]}]}
{"id": "C09", "title": "Strong exception guarantee of constructors and copy/move assignments", "statement": "If a constructor, copy assignment or move assignment of an any exits by an exception, every previously existing any (including the assignment target) has the value it had before the call.", "quantifier": "all states, all exception schedules, all allocator traits", "why_tests_cant": "failure points are unbounded", "anchors": [{"file": "include/anyany/anyany.hpp", "symbols": ["basic_any", "operator=(const basic_any&)", "operator=(basic_any&&)"]}]}
{"id": "C10", "title": "emplace either holds the new value or is empty", "statement": "`a.emplace<T>(args...)` either returns and a holds a T constructed from args, or throws and a is empty; in both cases the old value was destroyed, and other any objects are unchanged. The same holds for `a = value`.", "quantifier": "all states of a, all T, all exception schedules", "why_tests_cant": "all types and failure points", "anchors": [{"file": "include/anyany/anyany.hpp", "symbols": ["emplace", "emplace_decayed", "emplace_in_empty", "operator=(V&&)"]}]}
{"id": "C11", "title": "emplace reuses sufficient memory", "statement": "If a already owns a memory block of at least sizeof(T) bytes, emplace<T> performs no allocation or deallocation and constructs in that block; after replace_with_bytes(n) capacity() >= n, the any is empty, and emplacing any type of size <= n that does not need more alignment than the allocator guarantees performs no allocation if memory was allocated.", "quantifier": "all states, all sizes n, all T", "why_tests_cant": "unbounded sizes", "anchors": [{"file": "include/anyany/anyany.hpp", "symbols": ["emplace_decayed", "replace_with_bytes", "capacity"]}]}
{"id": "C12", "title": "reset and destroy_value postconditions", "statement": "reset() and destroy_value() make has_value() false, never throw, and are idempotent; reset() also releases the memory (is_stable_pointers() false, capacity() == SooS), destroy_value() keeps it.", "quantifier": "all states", "why_tests_cant": "all reachable states", "anchors": [{"file": "include/anyany/anyany.hpp", "symbols": ["reset", "destroy_value"]}]}
{"id": "C13", "title": "Pointer stability", "statement": "If is_stable_pointers() is true for a, then after moving a into b (construction, or assignment when the allocators are equal or propagate) the contained object is the same object at the same address: no constructor, destructor or allocation happened and pointers/references to it remain valid. force_stable_pointers construction always yields is_stable_pointers() == true, and with SooS == 0 every any with a value is stable.", "quantifier": "all states, all types", "why_tests_cant": "every reachable state", "anchors": [{"file": "include/anyany/anyany.hpp", "symbols": ["is_stable_pointers", "force_stable_pointers", "move_value_from"]}]}
{"id": "C14", "title": "Pointer stability fails for unequal non-propagating allocators", "statement": "The documentation of is_stable_pointers (pointers are not invalidated by moving) holds for every move. (Disproved: move assignment between unequal non-propagating allocators relocates the object.)", "quantifier": "all states and allocators", "why_tests_cant": "a universally quantified documentation claim", "anchors": [{"file": "include/anyany/anyany.hpp", "symbols": ["is_stable_pointers", "operator=(basic_any&&)"]}]}
{"id": "C15", "title": "noexcept operations never terminate", "statement": "No operation declared noexcept ever lets an exception reach its boundary (which would call std::terminate): move construction/assignment with a movable allocator, emplace and construction of small nothrow types, reset, destroy_value, destruction.", "quantifier": "all states, all exception schedules, all types", "why_tests_cant": "all throw points", "anchors": [{"file": "include/anyany/anyany.hpp", "symbols": ["basic_any", "force_stable_pointers_t"]}, {"file": "include/anyany/noexport/anyany_details.hpp", "symbols": ["relocate"]}]}
{"id": "C16", "title": "sizeof_now and capacity bound the contained object", "statement": "If an any has a value of type T then sizeof(T) <= sizeof_now() == capacity(); if it has none sizeof_now() == 0.", "quantifier": "all reachable states", "why_tests_cant": "invariant over histories", "anchors": [{"file": "include/anyany/anyany.hpp", "symbols": ["sizeof_now", "capacity"]}]}
{"id": "C17", "title": "Small objects do not allocate", "statement": "Constructing, copying, moving (into a fresh any) or emplacing into an any that owns no memory a value whose type fits the small buffer performs no allocation; a value whose type does not fit is always in allocated memory. A program that stores only values of types that fit never allocates, whatever it does with its anys.", "quantifier": "all states, all types", "why_tests_cant": "all types/states", "anchors": [{"file": "include/anyany/anyany.hpp", "symbols": ["any_is_small_for", "emplace_in_empty"]}, {"file": "include/anyany/noexport/anyany_details.hpp", "symbols": ["is_fits_in_soo_buffer"]}]}
{"id": "C18", "title": "Transmutating copy/move keeps the value", "statement": "Constructing basic_any<Alloc,SooS,Ms...> from basic_any<Alloc,SooS,Os...> whose method list contains Ms... contiguously yields an any with the same dynamic type and value, on which every method in Ms... does the same as on the source; move empties the source.", "quantifier": "all method lists Os, all contiguous sublists Ms, all states", "why_tests_cant": "method lists and states unbounded", "anchors": [{"file": "include/anyany/anyany.hpp", "symbols": ["basic_any(const basic_any<Alloc, SooS, OtherMethods...>&)", "basic_any(basic_any<Alloc, SooS, OtherMethods...>&&)", "subtable_ptr_fn"]}]}
{"id": "C19", "title": "Allocator propagation", "statement": "Copy construction uses select_on_container_copy_construction, move construction takes the source's allocator, copy assignment replaces the allocator iff propagate_on_container_copy_assignment, move assignment iff propagate_on_container_move_assignment; every other operation keeps each any's allocator.", "quantifier": "all states, all allocator traits", "why_tests_cant": "all trait/state combinations", "anchors": [{"file": "include/anyany/anyany.hpp", "symbols": ["basic_any", "operator=(const basic_any&)", "operator=(basic_any&&)"]}]}
{"id": "C20", "title": "swap exchanges values", "statement": "std::swap(a, b) exchanges the contents of a and b (also when a and b are the same object).", "quantifier": "all states", "why_tests_cant": "all states", "anchors": [{"file": "include/anyany/anyany.hpp", "symbols": ["basic_any(basic_any&&)", "operator=(basic_any&&)"]}]}
{"id": "C21", "title": "Assigning from a reference into the contained value", "statement": "`a = any_cast<T&>(a)` / a.emplace<T>(ref into a) leaves a holding the same value. (Disproved: the old value is destroyed before the argument is read.)", "quantifier": "all states", "why_tests_cant": "aliasing is not covered by tests", "anchors": [{"file": "include/anyany/anyany.hpp", "symbols": ["operator=(V&&)", "emplace_decayed"]}]}
{"id": "C22", "title": "materialize creates an independent owning copy", "statement": "materialize(ref) returns an any holding a copy of the referenced value that stays valid independently of the reference; if the copy throws nothing is created and there is no undefined behaviour. (Also disproved for allocators with a state: the call does not compile.)", "quantifier": "all referenced values, all exception schedules, all later lifetimes of the reference", "why_tests_cant": "lifetime and failure interleavings", "anchors": [{"file": "include/anyany/anyany.hpp", "symbols": ["materialize", "stateful::ref::get_view"]}]}
{"id": "C23", "title": "Contiguous sublist search", "statement": "Conversion of interfaces is allowed exactly when the target methods occur contiguously and in order in the source methods, and the first such occurrence is used.", "quantifier": "all method lists", "why_tests_cant": "all lists", "anchors": [{"file": "include/anyany/noexport/anyany_details.hpp", "symbols": ["find_subsequence_impl", "find_subsequence", "has_subsequence", "starts_with"]}, {"file": "include/anyany/anyany.hpp", "symbols": ["subtable_ptr_fn"]}]}
{"id": "C24", "title": "First-occurrence lookup", "statement": "Method lookup in a method list selects the first occurrence, and fails to compile (npos) exactly when the method is absent.", "quantifier": "all method lists, all methods", "why_tests_cant": "all lists", "anchors": [{"file": "include/anyany/noexport/anyany_details.hpp", "symbols": ["number_of_impl", "number_of_first", "contains_v", "has_subset"]}]}
{"id": "C25", "title": "Flattening interfaces", "statement": "interface_alias / any_with accept arbitrarily nested lists of methods and behave as if given the leaves in left-to-right order; flattening is idempotent and terminates.", "quantifier": "all finite nestings", "why_tests_cant": "unbounded nesting depth", "anchors": [{"file": "include/anyany/noexport/anyany_details.hpp", "symbols": ["flatten_types", "flatten_type_lists_one_layer", "contains_second_layer_list"]}, {"file": "include/anyany/anyany.hpp", "symbols": ["insert_flatten_into", "interface_alias"]}]}
{"id": "C26", "title": "interface_of round trip", "statement": "interface_of<any_with<Ms...>> is interface_alias<Ms...> for every Ms..., even when Ms... contains destroy (first, elsewhere or repeatedly), and the any always has destroy.", "quantifier": "all nested method lists", "why_tests_cant": "all lists", "anchors": [{"file": "include/anyany/anyany.hpp", "symbols": ["insert_into_basic_any", "get_interface_of", "flatten_into_basic_any"]}]}
{"id": "C27", "title": "without_duplicates and filtered_by", "statement": "without_duplicates yields a list with the same methods, without repetitions, in order of first occurrence; filtered_by keeps exactly the methods satisfying the predicate in order, with multiplicity.", "quantifier": "all method lists and predicates", "why_tests_cant": "all lists/predicates", "anchors": [{"file": "include/anyany/anyany.hpp", "symbols": ["runtime_concept"]}, {"file": "include/anyany/noexport/anyany_details.hpp", "symbols": ["remove_duplicates", "filter_types"]}]}
{"id": "C28", "title": "subsumes and equivalent_to", "statement": "equivalent_to is equality of flattened lists; subsumes is a partial order on flattened lists that holds exactly for contiguous sublists, every concept subsumes the empty one, and x.append(ms...) subsumes both x and ms....", "quantifier": "all method lists", "why_tests_cant": "all lists", "anchors": [{"file": "include/anyany/anyany.hpp", "symbols": ["runtime_concept::subsumes", "runtime_concept::append", "runtime_concept::equivalent_to"]}]}
{"id": "C29", "title": "Plugin composition", "statement": "The interface inherits from each non-void plugin at most once; a plugin is omitted exactly if another listed plugin derives from it (or it is repeated); every provided plugin is inherited directly or through a derived one.", "quantifier": "all plugin lists, all inheritance partial orders", "why_tests_cant": "all lists and hierarchies", "anchors": [{"file": "include/anyany/noexport/anyany_details.hpp", "symbols": ["inherit_without_duplicates"]}, {"file": "include/anyany/anyany.hpp", "symbols": ["construct_interface"]}]}
{"id": "C30", "title": "Normalised buffer size", "statement": "soo_buffer_size is idempotent, 0 only for 0, at least the requested size and at least max_align for non zero sizes, so copy_with<Alloc,SooS> written by the user names the same method that basic_any_with<Alloc,SooS,...> looks up (copying is enabled).", "quantifier": "all sizes", "why_tests_cant": "all sizes", "anchors": [{"file": "include/anyany/noexport/anyany_details.hpp", "symbols": ["soo_buffer_size", "rebind_to_byte"]}, {"file": "include/anyany/anyany.hpp", "symbols": ["copy_with", "basic_any_with", "has_copy"]}]}
{"id": "C31", "title": "Sub-vtable dispatch", "statement": "Invoking method M through a reference converted along any chain of interface conversions calls the same implementation for the same dynamic type as invoking M on the original.", "quantifier": "all method lists, all conversion chains, all types", "why_tests_cant": "chains are unbounded", "anchors": [{"file": "include/anyany/anyany.hpp", "symbols": ["subtable_ptr_fn", "vtable::invoke", "poly_ref", "const_poly_ref", "poly_ptr", "const_poly_ptr"]}]}
{"id": "C32", "title": "Sub-vtable memory layout", "statement": "The address of a sub-vtable computed by interface conversion is laid out in memory exactly as a free-standing vtable of the target interface. (True when the start offset is suitably aligned, e.g. all entries pointer-sized; disproved for mixed entry sizes.)", "quantifier": "all entry sizes/alignments, all lists", "why_tests_cant": "layouts are unbounded", "anchors": [{"file": "include/anyany/anyany.hpp", "symbols": ["subtable_ptr_fn", "vtable"]}, {"file": "include/anyany/noexport/anyany_details.hpp", "symbols": ["tuple_base", "value_in_tuple"]}]}
{"id": "C33", "title": "vtable::change", "statement": "After change<M>(v), invoke<M>() returns v and every other method is unchanged, also when M occurs several times.", "quantifier": "all tables", "why_tests_cant": "all tables", "anchors": [{"file": "include/anyany/anyany.hpp", "symbols": ["vtable::change", "vtable::invoke"]}]}
{"id": "C34", "title": "Stateful references", "statement": "stateful::ref/cref converted from any reference whose methods are a superset (any order, duplicates allowed) invoke the same implementation on the same object; they keep working after the source reference is gone.", "quantifier": "all method lists, all chains", "why_tests_cant": "unbounded", "anchors": [{"file": "include/anyany/anyany.hpp", "symbols": ["stateful::ref", "stateful::cref"]}]}
{"id": "C35", "title": "Null polymorphic pointers", "statement": "poly_ptr/const_poly_ptr built from nullptr, from a null T*, from a null Any* or from a pointer to an empty any compare equal to nullptr, have no value and type_descriptor() == descriptor_v<void>, and all conversions preserve nullness; conversions of non-null pointers preserve address and dynamic type.", "quantifier": "all pointers, all conversion chains", "why_tests_cant": "all chains", "anchors": [{"file": "include/anyany/anyany.hpp", "symbols": ["poly_ptr", "const_poly_ptr", "const_pointer_cast"]}]}
{"id": "C36", "title": "const_poly_ptr accepts what poly_ptr accepts", "statement": "Whenever poly_ptr<Ms...> can be built from Any*, const_poly_ptr<Ms...> can be built from const Any*. (Disproved: the constraint arguments are swapped.)", "quantifier": "all method lists", "why_tests_cant": "all lists", "anchors": [{"file": "include/anyany/anyany.hpp", "symbols": ["const_poly_ptr(const Any*)", "poly_ptr(Any*)"]}]}
{"id": "C37", "title": "any_cast is exact", "statement": "any_cast<T> on an any / poly_ptr / poly_ref returns the address of the contained object iff the dynamic type is exactly the decayed T, otherwise null (pointer forms) or throws bad_cast (value/reference forms); it never modifies the any except that the value form on an rvalue moves the contained value out.", "quantifier": "all dynamic types, all T, all states", "why_tests_cant": "all types", "anchors": [{"file": "include/anyany/anyany.hpp", "symbols": ["any_cast_fn"]}]}
{"id": "C38", "title": "Polymorphic pointer equality and hash", "statement": "operator== on poly_ptr/const_poly_ptr is an equivalence relation that is true exactly for equal address and equal dynamic type, mixed const/mutable comparison agrees with it, and equal pointers hash equally. (Disproved for const_poly_ptr: std::hash of it does not compile.)", "quantifier": "all pointers", "why_tests_cant": "all pairs", "anchors": [{"file": "include/anyany/anyany.hpp", "symbols": ["operator==(poly_ptr<Methods...>, poly_ptr<Methods...>)", "hash<poly_ptr<Methods...>>"]}]}
{"id": "C39", "title": "operator== of any objects", "statement": "With aa::equal_to, a == b iff both are empty or both hold values of the same type that compare equal; it is reflexive/symmetric/transitive whenever every contained type's == is.", "quantifier": "all values of all types", "why_tests_cant": "all pairs/triples", "anchors": [{"file": "include/anyany/anyany.hpp", "symbols": ["equal_to::plugin::operator=="]}]}
{"id": "C40", "title": "operator<=> of any objects", "statement": "With aa::spaceship, a <=> b is equivalent if both are empty, unordered if exactly one is empty or the types differ, otherwise the comparison of the values; == is (<=> == equivalent). (Disproved for a non-empty left and an empty right operand: null vtable dereference.)", "quantifier": "all values of all types", "why_tests_cant": "all pairs, including empty", "anchors": [{"file": "include/anyany/anyany.hpp", "symbols": ["spaceship::plugin::operator<=>"]}]}
{"id": "C41", "title": "Hash of any objects", "statement": "std::hash of an empty any is 0, of a non-empty any the hash of the contained value; for types whose hash respects ==, a == b implies equal hashes, and hashing through any reference to the any gives the same value.", "quantifier": "all values", "why_tests_cant": "all pairs", "anchors": [{"file": "include/anyany/anyany.hpp", "symbols": ["hash<basic_any>", "hash<poly_ref>"]}]}
{"id": "C42", "title": "Type descriptors identify types", "statement": "Descriptors compare equal iff the type names are equal; hence, if distinct types have distinct names, iff the decayed types are equal; equal descriptors hash equally.", "quantifier": "all type names", "why_tests_cant": "all strings", "anchors": [{"file": "include/anyany/type_descriptor.hpp", "symbols": ["descriptor_t::operator==", "hash<descriptor_t>"]}, {"file": "include/anyany/noexport/type_descriptor_details.hpp", "symbols": ["strcmp"]}]}
{"id": "C43", "title": "Descriptor order", "statement": "operator<=> on descriptors is a strict total order consistent with operator==, for names with arbitrary characters, also signed ones.", "quantifier": "all type names", "why_tests_cant": "all strings", "anchors": [{"file": "include/anyany/type_descriptor.hpp", "symbols": ["descriptor_t::operator<=>"]}, {"file": "include/anyany/noexport/type_descriptor_details.hpp", "symbols": ["strcmp", "starts_with"]}]}
{"id": "C44", "title": "visit_invoke resolves exactly", "statement": "resolve(args...) calls the unique overload whose parameter types equal, position by position, the decayed dynamic types of the arguments and returns its result; if there is no such overload it returns nullopt and calls nothing.", "quantifier": "all overload sets of lambdas (function pointers: C65), all dynamic types of arguments that have a value (empty ones: C45)", "why_tests_cant": "overload sets/arguments unbounded", "anchors": [{"file": "include/anyany/visit_invoke.hpp", "symbols": ["visit_invoke_fn::resolve", "make_key_value_pair_for"]}, {"file": "include/anyany/noexport/visit_invoke_details.hpp", "symbols": ["flat_map"]}]}
{"id": "C45", "title": "Empty arguments of visit_invoke", "statement": "An argument without a value (empty any, null poly_ptr) matches no overload. (Disproved: its descriptor equals the padding used for shorter overloads, so an overload with fewer parameters is called.)", "quantifier": "all overload sets", "why_tests_cant": "needs overload sets of different arity", "anchors": [{"file": "include/anyany/visit_invoke.hpp", "symbols": ["resolve", "make_key_value_pair_for"]}]}
{"id": "C46", "title": "visit_invoke const correctness", "statement": "resolve never passes the address of a const argument to an overload that takes it by non-const reference: resolve<false> returns nullopt instead (with the default resolve<true> such a call is documented as undefined). With no const arguments nothing is rejected.", "quantifier": "all overload sets, all const patterns", "why_tests_cant": "all combinations", "anchors": [{"file": "include/anyany/visit_invoke.hpp", "symbols": ["runtime_const_correctness_check", "verify_const_correctness"]}, {"file": "include/anyany/noexport/visit_invoke_details.hpp", "symbols": ["is_const_arg"]}]}
{"id": "C47", "title": "Overload table lookup", "statement": "The sorted overload table finds a key iff it was inserted and returns the inserted function, independent of declaration order of overloads.", "quantifier": "all tables, all permutations", "why_tests_cant": "all permutations", "anchors": [{"file": "include/anyany/noexport/visit_invoke_details.hpp", "symbols": ["flat_map"]}]}
{"id": "C48", "title": "type_switch selects the first matching case", "statement": "type_switch<R>(x).case_/cases...: the first case that lists x's dynamic type is invoked, exactly once, with a reference to x's value; no other case is invoked; default_ runs (or gives its value) iff no case matched; no_default returns nullopt iff no case matched. (This fails for functions that return std::nullopt or an empty std::optional<R>: the switch goes on as if the case had not matched.)", "quantifier": "all case sequences, all dynamic types, all functions in the cases", "why_tests_cant": "all sequences", "anchors": [{"file": "include/anyany/utility.hpp", "symbols": ["type_switch_fn", "type_switch"]}]}
{"id": "C49", "title": "Visitor interfaces", "statement": "visitor_interface<Ts...> (visitor2_interface<L1, L2>) gives exactly one visit method per type (pair of types); visit(v...) and operator()(v...) call, exactly once, the stored visitor's overload for the static types of v..., or the closest one for bases of these, with those very objects. Overloads returning the tag type aa::noop are declared to do nothing and are not called. (Disproved for const types: an interface with `const T` can be declared, but visiting a const T does not compile.)", "quantifier": "all type lists, all class hierarchies, all objects visited", "why_tests_cant": "all lists", "anchors": [{"file": "include/anyany/utility.hpp", "symbols": ["visitor_interface_tag", "visit1", "visit2", "visitor2_interface"]}]}
{"id": "C50", "title": "std::variant traits", "statement": "With std_variant_poly_traits, visit_invoke/any_cast see a variant's alternative as its dynamic type and address of the alternative; any_cast<T>(variant) is non-null iff the variant holds T. (Disproved for variants that are valueless by exception: the program ends in std::terminate.)", "quantifier": "all variants", "why_tests_cant": "all alternatives", "anchors": [{"file": "include/anyany/utility.hpp", "symbols": ["std_variant_poly_traits"]}, {"file": "include/anyany/anyany.hpp", "symbols": ["any_cast_fn"]}]}
{"id": "C51", "title": "data_parallel_vector behaves as vector<T>", "statement": "Every history of constructions, copies, moves, emplace_back/push_back/insert/emplace/erase(pos)/pop_back/resize/assign/clear/swap/element writes on data_parallel_vector<T> is defined, returns what the operations of std::vector<T> return, and leaves it observationally equal (size, element access, iteration, comparison) to std::vector<T> after the same history; operations that throw and have no effect on contents (constructors, assign, reserve, shrink_to_fit) may occur in it. (Default elements: C66. Other exceptions: C52. erase(first, last) and back() const do not compile.)", "quantifier": "all histories, all records", "why_tests_cant": "all histories", "anchors": [{"file": "include/anyany/data_parallel_vector.hpp", "symbols": ["data_parallel_impl"]}]}
{"id": "C52", "title": "Columns have equal length", "statement": "After every operation, also one that throws, all field spans of a data_parallel_vector have the same length. (Disproved for emplace, emplace_back, push_back, insert, erase, resize and copy assignment if the operation on the second or a later field throws.)", "quantifier": "all histories and exception points", "why_tests_cant": "exception points", "anchors": [{"file": "include/anyany/data_parallel_vector.hpp", "symbols": ["emplace_back", "emplace", "resize", "operator=(const data_parallel_impl&)"]}]}
{"id": "C53", "title": "Views are column projections", "statement": "view<I>() is the list of I-th fields of all elements in order, and writing through a view, a reference proxy or operator[] changes exactly the addressed field/element.", "quantifier": "all contents, all indices", "why_tests_cant": "all indices", "anchors": [{"file": "include/anyany/data_parallel_vector.hpp", "symbols": ["view", "get_span", "proxy"]}]}
{"id": "C54", "title": "Proxy comparison", "statement": "Comparison of element references is lexicographic by field, consistent with comparing the corresponding values; == of vectors is element-wise equality with equal sizes.", "quantifier": "all records", "why_tests_cant": "all records", "anchors": [{"file": "include/anyany/data_parallel_vector.hpp", "symbols": ["compare_by_fields", "operator=="]}]}
{"id": "C55", "title": "Proxy assignment and swap", "statement": "ref = value, ref = other_ref and swap(ref1, ref2) copy/exchange all fields, also when both refer to the same element, and change no other element.", "quantifier": "all contents, all index pairs", "why_tests_cant": "aliasing pairs", "anchors": [{"file": "include/anyany/data_parallel_vector.hpp", "symbols": ["proxy"]}]}
{"id": "C56", "title": "Iterator arithmetic", "statement": "Iterators of data_parallel_vector satisfy the random access laws (it+n)-it == n, (it+n)+m == it+(n+m), it - n == it + (-n), ordering by position, for all offsets staying in range, with machine integers. (operator-= with negative offsets trips its assertion.)", "quantifier": "all indices and offsets in the 64-bit range", "why_tests_cant": "2^64 values", "anchors": [{"file": "include/anyany/data_parallel_vector.hpp", "symbols": ["iterator_"]}]}
{"id": "C57", "title": "variant_swarm keeps every value", "statement": "After any history of insert/emplace/erase/swap/copy/move, visit_all visits exactly the values inserted and not erased, each once, grouped by type in the order of Ts... and within a type in container order; size() and count<T>() agree with it; empty() iff nothing would be visited. For containers that are not sequences (sets, multisets) the values are those the container keeps, in its order.", "quantifier": "all histories, all numbers of types, all value types and containers", "why_tests_cant": "all histories", "anchors": [{"file": "include/anyany/variant_swarm.hpp", "symbols": ["basic_variant_swarm"]}, {"file": "include/anyany/noexport/variant_swarm_details.hpp", "symbols": ["inserter"]}]}
{"id": "C58", "title": "variant_swarm visit subsets", "statement": "visit<Types...> visits exactly the values of the listed types in the listed order, and visit_copy writes exactly the visitor's results in that order and returns the advanced output iterator.", "quantifier": "all contents, all type sequences", "why_tests_cant": "all sequences", "anchors": [{"file": "include/anyany/variant_swarm.hpp", "symbols": ["visit", "visit_copy", "visit_copy_all"]}]}
{"id": "C59", "title": "Field counting", "statement": "For every aggregate with at most 29 fields (the documented limit), data_parallel_vector determines the number of fields and accesses the i-th field, for every i, in the order of declaration; aggregates with 30 fields are counted but rejected by the compiler, and the field references have the value category of the aggregate.", "quantifier": "all aggregates (numbers of fields, kinds of fields), all indices", "why_tests_cant": "all aggregates", "anchors": [{"file": "include/anyany/noexport/data_parallel_vector_details.hpp", "symbols": ["field_count"]}]}
{"id": "C60", "title": "unique_ptr to interface", "statement": "unique_ptr<interface> deletes the owned object exactly once through the deleter of its dynamic type, for any history of moves, resets, releases and destruction.", "quantifier": "all histories", "why_tests_cant": "all histories", "anchors": [{"file": "include/anyany/anyany.hpp", "symbols": ["default_delete<runtime_concept>"]}, {"file": "include/anyany/noexport/anyany_details.hpp", "symbols": ["deallocate_with_delete"]}]}
{"id": "C61", "title": "Over-aligned contained types", "statement": "The contained object is always suitably aligned. (Disproved for types whose alignment exceeds what the byte allocator guarantees.)", "quantifier": "all types, all allocators", "why_tests_cant": "all alignments", "anchors": [{"file": "include/anyany/anyany.hpp", "symbols": ["emplace_in_empty"]}, {"file": "include/anyany/noexport/anyany_details.hpp", "symbols": ["copy_fn"]}]}
{"id": "C62", "title": "Methods act on the contained object", "statement": "Invoking a method on an any, or on any reference to it, applies the implementation for the dynamic type to the contained value: const methods leave the value unchanged, methods taking self by value do not affect it, and non-const methods change only this any's value. If the method throws, the exception reaches the caller, and only a non-const method may have changed the value.", "quantifier": "all methods, all histories", "why_tests_cant": "all histories", "anchors": [{"file": "include/anyany/anyany.hpp", "symbols": ["invoke_fn", "invoker_for"]}, {"file": "include/anyany/noexport/anyany_details.hpp", "symbols": ["any_method_traits"]}]}
{"id": "C63", "title": "Memory is never handed to an unequal allocator", "statement": "A move of an any never makes it own memory of an allocator that differs from its own, so that the memory is always returned to an allocator equal to the one that provided it. (Disproved: a transmutating move construction takes the memory of the source but default-constructs its allocator, and a move or copy assignment with SooS == 0 takes the memory although the allocators are unequal and not propagated.)", "quantifier": "all moves, all allocators, all buffer sizes", "why_tests_cant": "Needs stateful allocators whose instances differ; the result is a deallocation by the wrong allocator, which is silent with malloc-like allocators.", "anchors": [{"file": "include/anyany/anyany.hpp", "symbols": ["basic_any(basic_any<Alloc, SooS, OtherMethods...>&&)", "basic_any::operator=(basic_any&&)", "basic_any::move_value_from"]}]}
{"id": "C64", "title": "By-value parameters of visit_invoke overloads", "statement": "An overload that takes a parameter by value works on a copy: the argument, in particular a const one, is not changed by the call. (Disproved: the parameter is move-constructed from the argument, const or not.)", "quantifier": "all overload sets, all arguments", "why_tests_cant": "existing tests use trivially copyable types only, for which a move is a copy", "anchors": [{"file": "include/anyany/visit_invoke.hpp", "symbols": ["match_invoker", "resolve"]}, {"file": "include/anyany/noexport/visit_invoke_details.hpp", "symbols": ["is_const_arg"]}]}
{"id": "C65", "title": "Function pointers as visit_invoke overloads", "statement": "make_visit_invoke accepts function pointers as overloads (as documented) and resolve calls the function pointed to. (Disproved: a value-initialised, null function pointer is called.)", "quantifier": "all overload sets with function pointers", "why_tests_cant": "no test uses a function pointer", "anchors": [{"file": "include/anyany/visit_invoke.hpp", "symbols": ["match_invoker", "make_visit_invoke"]}]}
{"id": "C66", "title": "Default elements of data_parallel_vector", "statement": "resize(n) and the constructor from a count add elements equal to T(). (Disproved: fields are value-initialised one by one, default member initialisers of T are ignored.)", "quantifier": "all record types, all contents", "why_tests_cant": "all record types", "anchors": [{"file": "include/anyany/data_parallel_vector.hpp", "symbols": ["data_parallel_impl::resize", "data_parallel_impl::data_parallel_impl(size_type)"]}]}
{"id": "C67", "title": "Spans of data_parallel_vector remain valid", "statement": "Spans returned by view, once taken, refer to the same memory of the container as long as no operation needs more elements than capacity() or replaces the memory (assignment to the container, swap, move from it, shrink_to_fit, destruction), also if operations throw and the exceptions are caught; reserve(n) makes capacity() at least n, for all fields at once. Operations on other containers, and those that only read the container, leave it as it is in every respect, also if they throw.", "quantifier": "all histories, all growth strategies of the vectors", "why_tests_cant": "all histories and growth strategies, different for each field", "anchors": [{"file": "include/anyany/data_parallel_vector.hpp", "symbols": ["data_parallel_impl::capacity", "data_parallel_impl::reserve", "data_parallel_impl::view"]}]}
{"id": "C68", "title": "References and pointers follow a stable value", "statement": "If is_stable_pointers() of an any is true, then after moving the any (move construction, or move assignment between anys whose allocators are equal or propagate) every polymorphic reference and pointer to the value it held refers to the value in the new any: same type and value, method calls reach it, and changes are seen there. If is_stable_pointers() is false, references to the value of the moved-from any refer to no living object.", "quantifier": "all programs with any objects, references and pointers, all contained types", "why_tests_cant": "all histories, all chains of conversions between references before the move", "anchors": [{"file": "include/anyany/anyany.hpp", "symbols": ["basic_any::is_stable_pointers", "basic_any::basic_any(basic_any&&)", "basic_any::operator=(basic_any&&)", "poly_ref", "poly_ptr", "stateful::ref"]}]}
{"id": "C69", "title": "Const access allows only const methods", "statement": "invoke<Method> and calls of methods through a const any, const_poly_ref or stateful::cref compile only if Method takes its object by const reference or by value, and so never change the value; everything with mutable access accepts every method. (Disproved for const rvalues of any types: std::move(const_any) accepts methods that take a mutable reference.)", "quantifier": "all operand types, value categories and kinds of methods; all reachable states", "why_tests_cant": "absence of compiling programs cannot be tested one by one; all states", "anchors": [{"file": "include/anyany/anyany.hpp", "symbols": ["invoke_fn::operator()", "invoke", "is_const_method"]}]}
{"id": "C70", "title": "Arguments are forwarded to the method", "statement": "A method called with invoke<Method>(x, args...) or operator() of call receives for each reference parameter the very object the caller passed, and for each by-value parameter a new object with the value of the argument; the argument is moved from exactly if it was passed as rvalue by value, copied at most once and moved a fixed number of times; no other object changes.", "quantifier": "all parameter lists, all argument lists of lvalues, xvalues and prvalues that do not use a consumed object twice", "why_tests_cant": "all parameter lists and value categories", "anchors": [{"file": "include/anyany/anyany.hpp", "symbols": ["invoke_fn::operator()", "invoker_for", "call::plugin::operator()"]}]}
{"id": "C71", "title": "The macros declare the documented method", "statement": "anyany_method(NAME, (PARAMS) requires(EXPR) -> RET) expands to a struct NAME whose signature has the parameters PARAMS with the self type put in front and the return type RET, and whose do_invoke takes (Self PARAMS) and returns static_cast<return_type>(EXPR); nothing of PARAMS, EXPR and RET is lost, duplicated or reordered. The same for anyany_extern_method and anyany_pseudomethod. (Disproved for return types with a comma outside parentheses, such as std::pair<int, int>: the macros are ill-formed.)", "quantifier": "all names, parameter lists, expressions and return types that do not themselves use the macros of the header", "why_tests_cant": "all token sequences, with commas and parentheses at any depth", "anchors": [{"file": "include/anyany/anyany_macro.hpp", "symbols": ["anyany_method", "anyany_extern_method", "anyany_pseudomethod", "AA_GET_TOKEN", "AA_GET_REQUIREMENT", "AA_GET_ALL_AFTER_REQUIREMENT", "AA_IMPL_CONCAT"]}]}
{"id": "C72", "title": "Algorithms work on data_parallel_vector as on vector<T>", "statement": "A program that uses containers through operations, sizes and element reads, and decides each step on everything it observed before (any generic algorithm), returns the same result and leaves the same contents with data_parallel_vector<T> as with std::vector<T>, and has no undefined behaviour if it has none with std::vector. A program that only reads and swaps elements (sort, partition, reverse, shuffle) permutes the records even if columns throw; records are never lost, duplicated or mixed. A loop from begin() to end(), or up to std::default_sentinel, or backwards, meets every position exactly once in order.", "quantifier": "all adaptive programs, all numbers and types of fields, all reachable states, all sizes and word widths", "why_tests_cant": "all programs and all sizes", "anchors": [{"file": "include/anyany/data_parallel_vector.hpp", "symbols": ["data_parallel_vector", "iterator_", "swap", "iter_move", "proxy"]}]}
{"id": "C73", "title": "An any initialised from an any does not contain that any", "statement": "Initialising or assigning an any from an any of the same type copies or moves it; from an any of another type with the same allocator type and buffer size whose methods contain those of the target as a contiguous part it copies or moves the value; from every other any and from references the program is ill-formed; never does the new any contain the old any or reference. A value of any other type is contained with its decayed type, exactly if all methods exist for that type. a = {x} does not emplace a value but move-assigns an any that contains it, and a = {} move-assigns an empty any. (Disproved for basic_any(std::allocator_arg, alloc, x): it puts the any x into the new any.)", "quantifier": "all any types, all types of arguments, all value categories and constness, all assignments of methods to types", "why_tests_cant": "all method lists and argument types", "anchors": [{"file": "include/anyany/anyany.hpp", "symbols": ["basic_any::basic_any", "basic_any::operator=", "exist_for", "is_not_polymorphic", "std::uses_allocator"]}]}
{"id": "C74", "title": "Different any objects can be used by different threads", "statement": "An operation on any objects reads and writes only the objects it is applied to, the memory that belongs to them and memory it allocates itself: it does the same if nothing else exists, and leaves everything else unchanged. Objects that it takes by const reference are not written at all, whether it returns or throws. If several threads use different objects, apart from objects that all of them only read, and no thread would break a rule if it were alone with the objects it uses, then in every interleaving of their operations, whichever of them throw, every operation has defined behaviour and returns or throws as it would if its thread were alone, and each thread's objects are as its own operations leave them. If no call throws, the values, classes and allocators at the end are those the thread produces on its own.", "quantifier": "all reachable states, operations, sets of objects, programs that may react to exceptions, numbers of threads, schedules and allocators; the last sentence for allocators whose instances are all equal", "why_tests_cant": "all schedules and all programs", "anchors": [{"file": "include/anyany/anyany.hpp", "symbols": ["basic_any"]}]}
{"id": "C75", "title": "Exceptions are neither invented nor swallowed", "statement": "If an operation on any objects returns, no call of user code or of the allocator that it made threw. If it throws, then it is a cast to another type than that of the value, which changed nothing, or the last call it made threw and no call before that. The program is terminated only because of a call that threw. A cast to a wrong type always throws; without failing calls every other operation returns.", "quantifier": "all configurations, reachable states, operations and choices of the calls that throw", "why_tests_cant": "all positions of exceptions in all histories", "anchors": [{"file": "include/anyany/anyany.hpp", "symbols": ["basic_any", "any_cast_fn", "materialize"]}]}
{"id": "C76", "title": "unreachable_allocator makes allocation impossible", "statement": "A program whose any classes use unreachable_allocator either does not compile or never calls the allocator (calls are undefined behaviour): in every execution, with copies, moves, assignments, swaps, materialization and exceptions anywhere, no memory is allocated. A statement that stores a value is rejected only if executing it would put the value into allocated memory.", "quantifier": "all classes, types, programs and positions of exceptions", "why_tests_cant": "all programs", "anchors": [{"file": "include/anyany/anyany.hpp", "symbols": ["unreachable_allocator", "emplace_in_empty", "move_value_from"]}]}
{"id": "C77", "title": "Methods get the access they declare", "statement": "A method gets the object by mutable reference, by const reference or as a copy, as the first parameter of its do_invoke declares, for every type of object alike; it never gets an rvalue. A method whose signature is const never gets a mutable reference, even if its do_invoke for some type asks for one (that does not compile). is_const_method_v is true exactly for pseudomethods and methods that do not declare a non-const reference.", "quantifier": "all method signatures, all types, copyable or not", "why_tests_cant": "all methods and types", "anchors": [{"file": "include/anyany/noexport/anyany_details.hpp", "symbols": ["any_method_traits", "get_method_signature"]}, {"file": "include/anyany/anyany.hpp", "symbols": ["invoker_for", "is_const_method_v"]}]}
{"id": "C78", "title": "The constructibility check is honest", "statement": "The constraint of the constructors of anys, references and pointers (exist_for) holds exactly if the type has all methods, and then the construction compiles.", "quantifier": "all method lists, all types", "why_tests_cant": "all types and methods", "anchors": [{"file": "include/anyany/anyany.hpp", "symbols": ["exist_for", "invoker_for", "vtable_for"]}]}
{"id": "C79", "title": "Polymorphic objects from lvalues of every type", "statement": "A reference or pointer made from an lvalue of any type (documented also for arrays and functions) refers to it and its methods run on it; an any made from it contains the decayed value.", "quantifier": "all types, all ways of construction", "why_tests_cant": "all types", "anchors": [{"file": "include/anyany/anyany.hpp", "symbols": ["poly_ref", "const_poly_ref", "stateful::ref", "stateful::cref", "poly_ptr", "addr_vtable_for"]}]}
{"id": "C80", "title": "Equality of elements is field-wise equality", "statement": "References to elements of data_parallel_vector<T>, and containers, compare == exactly if the values would with a defaulted operator== of T, as the comment on the operators promises: that is, if all fields are == (and the sizes are equal).", "quantifier": "all field types with any == and any <=>, all records, all containers reachable by any history", "why_tests_cant": "Tests use field types whose == and <=> agree; the claim is about every field type, including those with weak orderings, where equivalent values need not be ==.", "anchors": [{"file": "include/anyany/data_parallel_vector.hpp", "symbols": ["data_parallel_impl::proxy::operator==", "compare_by_fields", "data_parallel_impl::operator=="]}]}
{"id": "C81", "title": "What references and pointers can be made from", "statement": "poly_ref and stateful::ref can be made exactly from mutable lvalues of types with the methods and from mutable references with these methods; const_poly_ref and stateful::cref from every object with the methods and from all references with these methods; poly_ptr and const_poly_ptr from null, from pointers to (const) objects, from pointers to anys with these methods, from pointers with these methods. No initialisation is ambiguous, and a mutable reference or pointer is never made from const access.", "quantifier": "all six class templates, all method lists, all argument types, constness and value categories, direct and copy initialisation", "why_tests_cant": "Tests try a few types; the claim is about which of several overlapping constructor templates is viable and best for every argument.", "anchors": [{"file": "include/anyany/anyany.hpp", "symbols": ["poly_ref", "const_poly_ref", "poly_ptr", "const_poly_ptr", "stateful::ref", "stateful::cref"]}]}
{"id": "C82", "title": "Rebinding a reference is explicit", "statement": "Assigning to a poly_ref, const_poly_ref, stateful::ref or stateful::cref never assigns to the object referred to and never converts: it compiles exactly if the right side is a reference of the same type and a temporary (REF = REF(value), as documented) or a const lvalue, and then rebinds; a non-const lvalue of the same type is rejected as well. Assigning to a pointer compiles exactly if the right side has the same type, is null or converts to it implicitly.", "quantifier": "all six class templates, all method lists, all argument types, constness and value categories", "why_tests_cant": "The claim is about overload resolution between the defaulted assignments and a deleted template for every argument.", "anchors": [{"file": "include/anyany/anyany.hpp", "symbols": ["AA_TRIVIAL_COPY_EXPLICIT_REBIND", "poly_ptr::operator=", "const_poly_ptr::operator="]}]}
{"id": "C83", "title": "any_cast gives the access asked for", "statement": "any_cast<T> of a pointer gives a pointer to the object, any_cast<T&> a reference to the object itself, any_cast<T> a new object. It never gives more than const access to an object reached through const access or asked for as const, and moves from the value, or gives an rvalue, only if the any is a non-const rvalue. It accesses the object as an object of the type it has. (The last is disproved for arrays: any_cast<E[n]> of an any with a value of type E* succeeds.)", "quantifier": "all types T with const and reference, all kinds of arguments, all dynamic types", "why_tests_cant": "the types form an unbounded family and the compile-time results are not values a test can compare", "anchors": [{"file": "include/anyany/anyany.hpp", "symbols": ["any_cast_fn", "any_cast"]}, {"file": "include/anyany/type_descriptor.hpp", "symbols": ["descriptor_v"]}]}
{"id": "C84", "title": "Results of methods reach the caller unchanged", "statement": "The result of invoke<Method>(x, ...) is the result of the contained object's implementation, and the result of operator() of call<Ret(Args...)> is the result of the contained object's own operator(), that of a method declared with anyany_method or anyany_extern_method is the result of its requires expression: for a reference type the caller gets a reference to the very object the implementation returned a reference to; for an object type the value, with no copy or move if the implementation returns an object of that type, one copy if it returns an lvalue and one move if it returns an rvalue reference; for void nothing. An exception of the implementation reaches the caller, or terminates the program if the signature of call is noexcept. A reference obtained this way is never dangling if the implementation's own result is not.", "quantifier": "all result types (void, objects, lvalue and rvalue references, const or not), all types and value categories the contained object may return, all class hierarchies and user-defined conversions between them, all exceptions", "why_tests_cant": "all result types and all conversions between them; the dangling case is undefined behaviour that a test may not notice", "anchors": [{"file": "include/anyany/anyany.hpp", "symbols": ["call", "invoker_for", "vtable::invoke", "invoke_fn::operator()"]}, {"file": "include/anyany/anyany_macro.hpp", "symbols": ["anyany_method", "anyany_extern_method"]}]}
{"id": "C85", "title": "What one operation can use", "statement": "One operation on any objects uses a bounded amount, whatever the class, the types, the allocator, the state and the exceptions: it gets at most one memory block from the allocator, and none for default construction, moving, destruction, reset, casts and method calls; only copy assignment and swap may get two, and only if the allocator is neither always equal nor propagated on move assignment (then copy assignment gets at most one, move assignment and swap none). At most one object is constructed inside any objects (copy assignment: two, swap: three). A contained value is copied at most once and only by copy construction, copy assignment and materialize: a program that uses none of them never copies. The bounds add up over histories and count operations that throw.", "quantifier": "all configurations (buffer size, allocator traits, types, faults), all operations, all worlds, all histories", "why_tests_cant": "a test counts allocations and copies of the calls it makes for the types it uses; the bound is over all states, types, allocators and exceptions", "anchors": [{"file": "include/anyany/anyany.hpp", "symbols": ["basic_any::move_value_from", "basic_any::operator=", "basic_any::emplace", "copy_method", "materialize"]}]}
{"id": "C86", "title": "exceptions in variant_swarm", "statement": "If a container of a variant_swarm throws during an operation (allocation, copy or comparison), at any moment of any history: the exception reaches the caller; no swarm appears or disappears; other swarms, and in this swarm the values of all types other than the one concerned, are as before; insert(value), emplace and insertion of a variant have no effect at all if the container gives this guarantee, and copy construction has none; the swarm remains usable and all its other properties hold for the operations that follow. Copy assignment that throws leaves the left operand with either its old or the new values. If a visitor throws during visit, visit_all or visit_copy, no further value is visited, the values not yet visited are unchanged, no value is added or lost, and exactly the results so far are written to the output iterator.", "quantifier": "all histories and moments of exceptions, all containers (what a throwing member leaves is arbitrary unless stated), all visitors, positions and type sequences", "why_tests_cant": "the moment of the exception and the history before and after it are arbitrary", "anchors": [{"file": "include/anyany/variant_swarm.hpp", "symbols": ["basic_variant_swarm", "emplace", "visit", "visit_copy"]}, {"file": "include/anyany/noexport/variant_swarm_details.hpp", "symbols": ["inserter"]}]}
{"id": "C87", "title": "Allocators of data_parallel_vector follow the allocator-aware container rules", "statement": "After any history of constructions (with and without an allocator), copies, moves, assignments, swaps, assign and other modifications of data_parallel_vector objects, with exceptions thrown anywhere, every column of a container has the allocator that a std::vector<T, Alloc> would have after the same operations, and memory is only ever given back to an allocator equal to the one it was obtained from. (The first half fails for assign and = {...} with allocators propagated on move assignment, which replace the allocator by Alloc(), and after an exception in copy assignment with allocators propagated on copy assignment, which leaves columns with different allocators.)", "quantifier": "all allocator traits, all numbers of fields, all histories of operations, all contents and capacities (an oracle says which columns need memory) and all moments of exceptions", "why_tests_cant": "allocator traits, moments of allocation failures and histories are unbounded; tests use std::allocator, for which all allocators are equal", "anchors": [{"file": "include/anyany/data_parallel_vector.hpp", "symbols": ["data_parallel_impl", "data_parallel_vector", "assign", "swap", "allocator_type"]}]}
{"id": "C88", "title": "Added elements have the values of the arguments, also when these are moved from", "statement": "push_back, insert, assign and the range constructor of data_parallel_vector<T> put the values of their arguments into the container, as std::vector<T> does. Arguments that are lvalues are unchanged; objects passed as rvalues, or through move iterators, are moved from once. This holds whatever order the compiler evaluates arguments in. (It fails for ranges of move iterators inserted before other elements when T has two or more fields: the first inserted element consists, except for one field, of what is left after moving.)", "quantifier": "all record types, all contents, all ranges, all positions, lvalue, rvalue and computed ranges, all behaviours of moved-from fields and all orders of evaluation", "why_tests_cant": "ranges, positions and record types are unbounded, and the order of evaluation differs between compilers; the one test with move iterators uses a constructor", "anchors": [{"file": "include/anyany/data_parallel_vector.hpp", "symbols": ["push_back", "insert", "emplace", "emplace_back", "assign"]}, {"file": "include/anyany/noexport/data_parallel_vector_details.hpp", "symbols": ["tl_traits", "magic_get", "forward_save_prvalues"]}]}
{"id": "C89", "title": "Adding elements reads and copies arguments as std::vector does", "statement": "Adding elements to a data_parallel_vector dereferences each iterator of a range exactly once, copies each lvalue once, and does not copy rvalues, as for std::vector. (This fails: iterators are dereferenced once for each field, fields of lvalues are copied twice and, for the first element inserted before others, n + 1 times; rvalues are copied, so that types with fields that cannot be copied cannot be added. What holds is that no field is copied more than 2c + n times when c elements are added, and no iterator dereferenced more than n times.)", "quantifier": "all record types with n fields, all ranges of c elements, all positions, all kinds of arguments and all orders of evaluation", "why_tests_cant": "the counts depend on the number of fields, the position and the length of the range", "anchors": [{"file": "include/anyany/data_parallel_vector.hpp", "symbols": ["push_back", "insert", "emplace", "emplace_back"]}]}
{"id": "C90", "title": "Iterators and references stay valid as those of std::vector do", "statement": "After any operation, an iterator or reference to an element of a data_parallel_vector that a std::vector would keep valid (if it does not reallocate) gives the same element as that of std::vector; in particular elements in front of the point of an insertion or erasure, and all elements of other containers. Reallocation does not invalidate iterators of data_parallel_vector. (This fails for swap and moves: iterators of std::vector go with the elements to the other container; those of data_parallel_vector stay with the container, so that after swap they give an element of the other one, and after a move they are invalid.)", "quantifier": "all histories of operations on any number of containers, all operations, elements and positions", "why_tests_cant": "the iterator may be used after any operation in any history; tests fix one of them", "anchors": [{"file": "include/anyany/data_parallel_vector.hpp", "symbols": ["iterator", "swap", "operator=", "insert", "erase", "emplace"]}, {"file": "include/anyany/data_parallel_vector_details.hpp", "symbols": ["proxy"]}]}
{"id": "C91", "title": "resolve returns what the selected overload returns", "statement": "resolve returns an optional that holds what initialising a Result from the call of the selected overload gives. (This fails for overloads that return a reference, when Result refers to the object it is made from, such as std::string_view from const std::string&: the reference is first copied into a temporary object, so that the result refers to an object that no longer exists.)", "quantifier": "all overload sets, argument lists, kinds of return types and conversions", "why_tests_cant": "the conversion is chosen by types of overloads that the library has never seen; a dangling view may still read the right value in a test", "anchors": [{"file": "include/anyany/visit_invoke.hpp", "symbols": ["match_invoker", "resolve"]}]}
{"id": "C92", "title": "resolve throws what the selected overload throws", "statement": "An exception thrown by the selected overload, or by the initialisation of its parameters or of the result, reaches the caller of resolve; if there is no such exception nothing is thrown, and with no matching overload nothing is called; nothing else is called. resolve terminates the program only if a noexcept overload itself throws. (This fails when all overloads are noexcept: resolve is noexcept then, although constructors of parameters taken by value and of the result may throw.)", "quantifier": "all overload sets, argument lists, orders of initialisation of parameters, all sets of steps that throw", "why_tests_cant": "needs a constructor that throws at exactly the point where resolve is noexcept, for all overload sets", "anchors": [{"file": "include/anyany/visit_invoke.hpp", "symbols": ["resolve", "match_invoker"]}, {"file": "include/anyany/noexport/visit_invoke_details.hpp", "symbols": ["visit_invoke_traits"]}]}
{"id": "C93", "title": "Views of data_parallel_vector by type", "statement": "view<X1, ..., Xk>() and view_only<X>() compile exactly if each Xi (without const) is the type of exactly one field, also for fields of type bool; the i-th result is then the span of that field: its elements are of type Xi, const if the container or Xi is, and it holds that field of all elements in order. view<I1, ..., Ik>() is the same by index.", "quantifier": "all lists of field types, all lists of type arguments with and without const, const and non-const containers, all histories", "why_tests_cant": "The result depends on which types occur among the fields and how often; unit tests instantiate a few records.", "anchors": [{"file": "include/anyany/data_parallel_vector.hpp", "symbols": ["container_for", "get_span", "view", "view_only"]}, {"file": "include/anyany/noexport/data_parallel_vector_details.hpp", "symbols": ["bool_"]}]}
{"id": "C94", "title": "Structured bindings of data_parallel_vector", "statement": "auto& [s1, ..., sn] = v binds the spans of the fields of v itself, const auto& spans of const elements; auto [s1, ..., sn] = v binds the spans of a copy, writes through them do not change v; from std::move(v) they are the spans of the buffers of v. auto [f1, ..., fn] = v[i] binds the fields of the element in the container. (Disproved: for allocators outside of std and types outside of std structured bindings of containers do not compile, because get is in namespace std and looked up by argument-dependent lookup only.)", "quantifier": "all record types, allocators, histories, elements and fields", "why_tests_cant": "Aliasing has to hold in every state of the container; the lookup depends on the namespaces of types of the user.", "anchors": [{"file": "include/anyany/data_parallel_vector.hpp", "symbols": ["tuple_size", "tuple_element", "get", "proxy::tie", "dp_vector_ref"]}]}
{"id": "C95", "title": "Assignment between anys one of which is part of the other's value", "statement": "Assignment a = std::move(b) or a = b gives a the value that b had before, also when b lies inside the value that a contains (and for copies when a lies inside the value of b), at any depth, as for std::any, std::unique_ptr and the containers of the standard library; a = Any(std::move(b)) always does. (This fails: move assignment destroys the value of a first, and b with it, before it reads b. Copy assignment copies first, but with a propagating allocator that differs it reads b's allocator after the reset.)", "quantifier": "all trees of anys, all pairs of locations in them, every allocator policy", "why_tests_cant": "the trees and the pairs of locations are unbounded; the failing case destroys the source before it is read, which a test may not notice", "anchors": [{"file": "include/anyany/anyany.hpp", "symbols": ["basic_any::operator=", "basic_any::reset", "basic_any::move_value_from"]}]}
{"id": "C96", "title": "Destructors that use anys", "statement": "Destroying the value of an any (reset, destructor, emplace, assignment) behaves as if the any were emptied first and the value destroyed afterwards, whatever the destructor does with this and other anys: the value is destroyed once, and the any has no value while its destructor runs. (This fails: has_value() is true while the destructor runs, and a destructor that resets, assigns to, emplaces in or moves from its own any destroys or moves the value a second time. It holds when no destructor uses an any whose value is just being destroyed.)", "quantifier": "all programs run by destructors, nested to any depth; all contents of the anys", "why_tests_cant": "destructors are arbitrary programs of the user that can call back into any any, recursively", "anchors": [{"file": "include/anyany/anyany.hpp", "symbols": ["basic_any::destroy_value", "basic_any::reset", "basic_any::emplace_decayed", "basic_any::operator="]}]}
{"id": "C97", "title": "std::atomic of polymorphic pointers", "statement": "std::atomic<poly_ptr<Ms...>> and std::atomic<const_poly_ptr<Ms...>> work (README): load and store copy the pointer; compare_exchange_strong(expected, desired) stores desired exactly if the pointer in the atomic equals expected, and otherwise gives expected the pointer in the atomic. (This fails: the bytes are compared, and equal pointers can have different bytes: null pointers made from nullptr and from a null T*, and pointers to the same object of which one was converted from an interface with more methods. It never succeeds for pointers that are not equal, and a failed try makes the next one succeed.)", "quantifier": "all interfaces, all states of all client programs, all three pointers involved", "why_tests_cant": "the representation of a pointer depends on the chain of conversions that made it, and there are unboundedly many interfaces and chains", "anchors": [{"file": "include/anyany/anyany.hpp", "symbols": ["poly_ptr", "const_poly_ptr", "vtable_view"]}, {"file": "README.md", "symbols": ["std::atomic<poly_ptr<...>>"]}]}
{"id": "C98", "title": "insert(x) of variant_swarm goes where std::variant would", "statement": "swarm.insert(x) for an x whose type is one of Types inserts into the container of that type, whatever conversions between Types exist, moving from x only if it is a non-const rvalue. For an x of another type, it is converted to the type with the best implicit conversion and moved in (if x is of a class derived from that type, its base is moved in if x is a non-const rvalue, and copied otherwise), and the call does not compile if there is none. As the swarm 'behaves as Container<std::variant<Types...>>', the type is the one std::variant<Types...> would choose for x.", "quantifier": "all lists of types, all argument types and value categories, all sets of implicit conversions", "why_tests_cant": "tests insert a few types whose conversions are known; the claim is about all overload sets that user types and conversions can produce", "anchors": [{"file": "include/anyany/noexport/variant_swarm_details.hpp", "symbols": ["inserter::insert", "inserter::do_insert", "inserters"]}, {"file": "include/anyany/variant_swarm.hpp", "symbols": ["basic_variant_swarm::insert"]}]}
{"id": "C99", "title": "Operations of different threads may run at the same time", "statement": "Threads that use different any objects, apart from objects that all of them only read, may run their operations at the same time without synchronisation, if each would never break a rule alone with the objects it uses. However the single memory accesses of their operations are interleaved, and whichever calls of user code and of the allocator throw: no two threads access the same any object or memory block unless both only read it; no step has undefined behaviour; what each thread did, including which operations returned and which threw, is what it does on its own, and between two of its operations its objects are as that leaves them; if its operations returned, they have the values the reference behaviour says. The objects that are only read are at all times, also in the middle of operations, as they were in the beginning. If one thread modifies a shared object there can be a data race.", "quantifier": "all starting states of programs that may have run threads before, numbers of threads, programs that may react to exceptions, which calls throw in which thread, interleavings of single accesses, numbers of allocations and allocators", "why_tests_cant": "all interleavings of the single memory accesses of all programs; a test sees few of them, and a data race does not always show", "anchors": [{"file": "include/anyany/anyany.hpp", "symbols": ["basic_any", "copy_method", "move", "destroy", "materialize"]}, {"file": "include/anyany/noexport/anyany_details.hpp", "symbols": ["construct_at", "destroy_at", "relocate", "copy_fn", "scope_failure"]}]}
{"id": "C100", "title": "Programs that start threads, wait for them and go on keep all guarantees", "statement": "A program may execute operations on any objects, then run any number of threads at the same time, wait for them, and go on, again and again; the threads use different any objects, apart from objects that all of them only read, and each would never break a rule alone with the objects it uses. Whatever calls throw and however the single accesses are interleaved: when the threads have ended, every object that existed before or that a thread made was destroyed at most once, and it was destroyed if no any object contains it and its destructor does something; every memory block was given back exactly once or belongs to exactly one any object; the program finds the objects of each thread as a run of this thread alone leaves them, and the shared ones unchanged. After that all operations have defined behaviour as before, and when at the end no any objects are left, everything was destroyed and given back exactly once.", "quantifier": "all programs built from operations and parallel phases, numbers of threads, which calls throw in which thread, interleavings of single accesses, allocators", "why_tests_cant": "all programs, all interleavings in all parallel phases; what the threads did must add up over all of them", "anchors": [{"file": "include/anyany/anyany.hpp", "symbols": ["basic_any", "copy_method", "move", "destroy", "materialize"]}, {"file": "include/anyany/noexport/anyany_details.hpp", "symbols": ["construct_at", "destroy_at", "relocate", "copy_fn"]}]}
{"id": "C101", "title": "Threads may take turns with any objects and hand them over, if operations that conflict do not overlap", "statement": "Threads use the same any objects, take turns with them (by locks, queues, flags or any other means) and hand them over to each other; the code of the threads is arbitrary. An operation begins only if it is legal in the state in which its objects are at that moment, and no other thread is executing an operation that modifies an object this one uses, or that uses an object this one modifies. Then, whatever calls throw and however the single accesses of the operations in progress are interleaved: every two accesses of different threads to one location, of which one writes, are separated by the end of an operation of the first thread and a later beginning of one of the second; no step is undefined; no operation gets stuck; the objects that no operation in progress modifies are as if the operations had been executed one after the other in the order in which they began, each with the result that it had; whenever no operation is in progress the whole state, what was destroyed and given back included, is that of these operations one after the other; observers of an object that no operation in progress modifies give the same whatever happens to other objects meanwhile.", "quantifier": "all threads, histories, schedules of single accesses, assignments of operations to threads, which calls throw, allocators", "why_tests_cant": "linearizability over all interleavings of single accesses; a test sees a few schedules", "anchors": [{"file": "include/anyany/anyany.hpp", "symbols": ["basic_any", "copy_method", "move", "destroy", "materialize"]}, {"file": "include/anyany/noexport/anyany_details.hpp", "symbols": ["construct_at", "destroy_at", "relocate", "copy_fn"]}]}
{"id": "C102", "title": "Where the value and the members of an any lie", "statement": "A value that an any stores inside itself lies inside the object, is suitably aligned wherever the object lies, and shares no byte with the pointers, the allocator or the data of plugins; the members themselves are aligned, inside the object and do not overlap; in arrays of anys the values of different elements do not overlap. Without a buffer an any is two pointers and a size_t; with a buffer that is a multiple of the strictest alignment it is two pointers and the buffer. The buffer uses all padding there is, so no memory is useless.", "quantifier": "Every platform (sizes and alignments of pointers and size_t, strictest alignment), every size of the buffer, every allocator (empty or not), every data of plugins, every value type that fits, every address, every array index.", "why_tests_cant": "Tests check sizeof for one configuration on one platform; overlap and misalignment must be excluded for every type that fits and every buffer size a user may choose.", "anchors": [{"file": "include/anyany/anyany.hpp", "symbols": ["basic_any", "default_any_soos", "basic_any_with"]}, {"file": "include/anyany/noexport/anyany_details.hpp", "symbols": ["is_fits_in_soo_buffer", "soo_buffer_size"]}]}
{"id": "C103", "title": "Which types data_parallel_vector can hold", "statement": "data_parallel_vector<T> works for every tuple-like T (one with std::tuple_size, std::tuple_element and std::get) and every aggregate with less than 30 fields none of which is const or an array: it stores one container for each part, in order, of the type of that part; part i of an element is part i of the value it was made from; and an element can be read as a whole. Types that are neither do not compile.", "quantifier": "Every type of elements (tuples, pairs, arrays, classes with user-specialised tuple traits, aggregates of any number of fields, variants, other classes), every part, compilers with and without parenthesised initialisation of aggregates.", "why_tests_cant": "Tests use a handful of aggregates and two tuples; no test uses std::array or const parts.", "anchors": [{"file": "include/anyany/noexport/data_parallel_vector_details.hpp", "symbols": ["tl_traits", "is_tuple_like", "field_type_t"]}, {"file": "include/anyany/data_parallel_vector.hpp", "symbols": ["container_for", "operator value_type"]}]}
{"id": "C104", "title": "Comparisons mean the same in C++17 and C++20", "statement": "Equality does not depend on the language version the headers are compiled with. In C++17, where != and the reversed operands of == are separate functions, p == q and p != q for every combination of poly_ptr and const_poly_ptr, p != nullptr, a != b for any objects and references with equal_to, and == and != of type descriptors give the results that C++20 gives: == holds exactly for equal targets, equal contents, equal types, and != is always the opposite of ==. With ANYANY_ASSUME_NO_DLLS descriptors are equal exactly for equal decayed types, if every type has one descriptor in the program.", "quantifier": "all reachable states, all pointers, references and any objects in them, all type names and addresses", "why_tests_cant": "the tests are compiled for one language version at a time and compare a few pointers", "anchors": [{"file": "include/anyany/anyany.hpp", "symbols": ["operator==", "operator!=", "equal_to"]}, {"file": "include/anyany/type_descriptor.hpp", "symbols": ["descriptor_t::operator==", "descriptor_t::operator!="]}, {"file": "include/anyany/noexport/type_descriptor_details.hpp", "symbols": ["strcmp"]}]}
{"id": "C105", "title": "Fields of type bool behave as bool", "statement": "Although data_parallel_vector does not use std::vector<bool>, a field of type bool behaves as a bool: an element of a mutable container gives a bool& to the stored bool itself, an element of a const container only a const bool&; reading it, moving from it and assigning a bool or another element are never ambiguous and keep the value; == and <=> of two elements, and of an element and a bool in either order, are never ambiguous, always finish and compare the values.", "quantifier": "all elements and bools, of all constness and value categories, all values, columns of any length", "why_tests_cant": "which overload a comparison or conversion selects depends on the constness and category of both operands, and a comparison that selects itself never ends; the tests use one of the combinations", "anchors": [{"file": "include/anyany/noexport/data_parallel_vector_details.hpp", "symbols": ["bool_"]}]}
{"id": "C106", "title": "Concepts for methods", "statement": "The concepts tell how the library uses a class: whatever satisfies simple_method can be stored in a vtable and called; regular_method holds exactly for classes that the library calls as functions, pseudomethod exactly for those whose value it stores, never both; classes with state satisfy neither; const_method holds exactly for methods that never get a mutable reference to the object; a list of methods is a method, and const_method can be asked of it.", "quantifier": "all classes with any combination of signature_type, do_invoke, value_type; all lists of them", "why_tests_cant": "static_asserts check a handful of classes; the claim is about every class a user may write", "anchors": [{"file": "include/anyany/anyany.hpp", "symbols": ["pseudomethod", "regular_method", "simple_method", "compound_method", "method", "const_method"]}]}
{"id": "C107", "title": "References to elements can be used as T& can", "statement": "The references that operator[], front and iterators of data_parallel_vector give can be used as T& and const T& (those of std::vector<T>) are: a T can be initialised with them, they can be assigned to and from where T& can and a const_reference never, they compare with each other and with values, swap exchanges elements, and they can be copied, passed by value and converted from reference to const_reference.", "quantifier": "all pairs of operands (values, references, const references, of every constness and value category) and all element types, described by whether fields can be copied and ordered", "why_tests_cant": "which overload is chosen depends on types, constness and value categories of both operands; a test checks the combinations it writes, and combinations that do not compile cannot be in a test at all", "anchors": [{"file": "include/anyany/data_parallel_vector.hpp", "symbols": ["proxy", "const_proxy", "proxy::operator=", "proxy::operator==", "proxy::operator<=>", "proxy::swap", "const_proxy::const_proxy"]}]}
{"id": "C108", "title": "visit accepts the visitors that can be called with the values", "statement": "A visitor is accepted by visit, visit_all and visit_copy of a variant_swarm, and the call compiles, just if it can be called with the values of the visited types as they are stored in the swarm (lvalues, const in a const swarm); in particular functions taking the values by reference to change them.", "quantifier": "all visitors (any set of accepted arguments per type), all lists of visited types, const and non-const swarms, all containers", "why_tests_cant": "a test compiles a handful of visitors; the claim is about every visitor and every choice of types, and is false for some of them in ways only the compiler shows", "anchors": [{"file": "include/anyany/variant_swarm.hpp", "symbols": ["visitor_for", "variant_swarm::visit", "variant_swarm::visit_all", "variant_swarm::visit_copy"]}]}
{"id": "C109", "title": "an overload called by visit_invoke accesses its arguments with their types", "statement": "When resolve calls an overload, every parameter is bound to (or initialised from) an object of exactly the parameter's type, for arguments of all types including arrays and pointers; if no overload has parameters of the types of the arguments, nothing is called.", "quantifier": "all overload sets that compile, all lists of arguments with values, object, pointer and array types of any nesting and length, const or not, both forms of resolve", "why_tests_cant": "undefined behaviour on a mismatch of types need not show in a test, and the pairs of argument and parameter types are unbounded", "anchors": [{"file": "include/anyany/visit_invoke.hpp", "symbols": ["visit_invoke_fn::resolve", "visit_invoke_fn::match_invoker", "visit_invoke_fn::make_key_value_pair_for"]}, {"file": "include/anyany/type_descriptor.hpp", "symbols": ["descriptor_v", "anyany_poly_traits"]}]}
{"id": "C110", "title": "Values use the allocator of their any", "statement": "A value that uses allocators (for example a std::pmr container) in an any whose allocator passes itself on when it constructs (std::pmr::polymorphic_allocator, std::scoped_allocator_adaptor) uses the allocator of the any, whatever operations moved or copied it there. So the value is usable as long as the memory resource of the any that holds it exists, and constructing it does not terminate the program.", "quantifier": "all histories of constructors, emplace, copies, moves, assignments, resets, destructions and ends of memory resources, on any number of anys, with all allocator traits, and with exceptions in any of them", "why_tests_cant": "The allocator of a value depends on the whole history of the any, and using a value after its resource has ended is undefined behaviour that a test may not notice.", "anchors": [{"file": "include/anyany/anyany.hpp", "symbols": ["basic_any::construct_value", "basic_any::emplace", "basic_any::operator="]}, {"file": "include/anyany/noexport/anyany_details.hpp", "symbols": ["relocate", "copy_fn"]}]}
{"id": "C111", "title": "A std::vector of anys grows by moving them", "statement": "When a std::vector of anys takes new storage, its elements are moved: nothing is thrown, no value is copied, no element asks its allocator for memory, every element keeps its type, value and allocator, a value that is stored in memory stays the same object at the same address, the old elements are gone and no other any changes.", "quantifier": "all configurations (buffer size, allocator traits, contained types, schedule of exceptions), all reachable states, all vectors of anys of one class (any length, any elements with or without values, in the buffer or in memory)", "why_tests_cant": "Tests use std::allocator; whether growth moves depends on the traits of the allocator, the methods of the any and the exception specification of the move constructor, for vectors of every length and contents.", "anchors": [{"file": "include/anyany/anyany.hpp", "symbols": ["basic_any(basic_any&&)", "basic_any(const basic_any&)", "movable_alloc", "has_copy", "~basic_any"]}]}
{"id": "C112", "title": "Methods can be called as member functions by their names", "statement": "For an any or a reference x whose class has a method declared by anyany_method with the name NAME (or aa::call, with the name operator()), x.NAME(args...) calls this method, if x gives the access to the value that the method declares; methods without such a member function do not change what the name means.", "quantifier": "all polymorphic classes (anys, references, const references, stateful ones), all lists of methods with any names, namespaces, template arguments and kinds of self, const and mutable objects", "why_tests_cant": "Name lookup depends on the set of all methods of a class and on the members of the library; tests use a few methods with different names.", "anchors": [{"file": "include/anyany/anyany_macro.hpp", "symbols": ["anyany_method", "anyany_extern_method"]}, {"file": "include/anyany/anyany.hpp", "symbols": ["basic_any", "poly_ref", "const_poly_ref", "stateful::ref", "stateful::cref", "construct_interface", "call"]}, {"file": "include/anyany/noexport/anyany_details.hpp", "symbols": ["inherit_without_duplicates", "inheritor_of", "get_plugin"]}]}
{"id": "C113", "title": "A switch can be written call by call", "statement": "type_switch<R>(x) gives an object that remembers the result of the first case for x's type whose function returns one. For every sequence of calls of case_, cases, default_ and no_default on this object: a case's function is called iff the case lists x's type and no case before has given a result, and what it throws reaches the caller; default_ and no_default give this result, or, if there is none, the given value, what the given function returns, or nullopt. It can be used for every polymorphic x and every R, void too. (Fails: default_ and no_default move the result out and keep the object as if it still had it, so that the second such call gives a moved-from object; type_switch<void> accepts no default_; poly_ptr, const_poly_ptr, stateful references and variants cannot be given to type_switch.)", "quantifier": "all result types, all conversions between types of the user, all sequences of calls, all functions and values given as default", "why_tests_cant": "all sequences of calls, all types", "anchors": [{"file": "include/anyany/utility.hpp", "symbols": ["type_switch_fn", "type_switch"]}]}
{"id": "C114", "title": "data_parallel_vector needs no more of its element type than std::vector", "statement": "An operation of data_parallel_vector<T> compiles whenever the same operation of std::vector<T> does, whatever copying, moving, assigning and default-constructing the fields of T allow, and whatever the allocator. (Disproved: back() of const containers and erase(first, last) never compile; nothing can be added if a field cannot be copied, also not as an rvalue; construction from elements needs fields that can be assigned; assign needs an allocator that can be default-constructed; default elements need default constructors for all fields, also for those with default member initialisers. There are no other exceptions.)", "quantifier": "all operations, all lists of fields with what their types can do, all allocators", "why_tests_cant": "a test instantiates the operations for a few types; the claim is about all types of fields", "anchors": [{"file": "include/anyany/data_parallel_vector.hpp", "symbols": ["data_parallel_impl", "emplace", "emplace_back", "insert", "assign", "erase", "back", "resize"]}]}
{"id": "C115", "title": "Ranges inserted in a variant_swarm", "statement": "insert(first, last) with iterators over values of one of the types of the swarm adds the values, in order, to the container of their type, and changes nothing else (\"selects right container and inserts\"). (Disproved: it compiles only for swarms with types T and std::vector<T>, and adds the vectors to the container of T.)", "quantifier": "all swarms of vectors, all element types, all ranges and contents", "why_tests_cant": "all lists of types and all ranges", "anchors": [{"file": "include/anyany/variant_swarm.hpp", "symbols": ["insert(It it, It sent)"]}]}
{"id": "C116", "title": "Constructors, copy constructors, destructors and methods that use anys", "statement": "A constructor that emplace (or assignment of a value) calls, and a destructor that reset, emplace and assignment call, may use anys, also the one it is called for: until the constructor is finished, and before the destructor runs, that any is empty, afterwards it has the new value or none; everything constructors and destructors did with anys has its usual effect. A copy constructor that assignment of an any calls may use anys too: the target has the copy afterwards, and if it throws an exception the target is as it was. If a constructor throws an exception (which another one may catch) its any is empty, memory allocated for it is released, and what it did with other anys stays done; an exception that leaves a destructor or a noexcept constructor terminates the program. Methods may use anys too, may replace or destroy the value they are called on, and their exceptions reach the caller. (Disproved for constructors that change the any they are called for: putting a value in it, assigning to it, or resetting it when the value is not in the buffer is undefined behaviour; if it then throws, the any may be left with a value. Disproved for copy constructors that change the any they copy from: the target is empty although the copy was made, or takes it for a value of another type. Disproved for destructors that use the any they are called for: the value is destroyed twice, or another any has it after its destruction.)", "quantifier": "all programs of constructors, destructors and methods to any depth, all sizes of values, all states of the anys", "why_tests_cant": "all constructors and destructors, nested to any depth, in all states", "anchors": [{"file": "include/anyany/anyany.hpp", "symbols": ["emplace_decayed", "emplace_in_empty", "construct_value", "reset", "operator=(basic_any&&)", "destroy_value", "basic_any(const basic_any&)", "operator=(const basic_any&)"]}, {"file": "include/anyany/noexport/anyany_details.hpp", "symbols": ["copy_fn"]}]}
{"id": "C117", "title": "Elements and fields of a data_parallel_vector can be used by different threads", "statement": "Threads that use different elements, or different fields of the same element, of data_parallel_vectors at the same time do not race, as for std::vector (also for fields of type bool, for which std::vector<bool> would not allow it): through references and iterators (reading and assigning fields and whole elements, swap, iter_move, comparison), through the spans of a field, and with operations on whole containers that no other thread uses. Each thread computes what it would compute alone, and a for_each over disjoint sets of positions replaces every element once.", "quantifier": "all numbers of fields and field types, containers, numbers of threads, programs of the threads (the next operation may depend on results), interleavings of their single accesses, exceptions of user code", "why_tests_cant": "A test runs a few interleavings on one machine; the claim is about all interleavings of single accesses of all programs.", "anchors": [{"file": "include/anyany/data_parallel_vector.hpp", "symbols": ["container_for", "proxy", "operator[]", "view", "do_iter_move", "do_iter_swap", "compare_by_fields", "operator=="]}]}
{"id": "C118", "title": "Which operations keep pointers to contained values valid", "statement": "For every operation on anys it is determined which contained objects survive: construction of other anys, any_cast, method calls and self move assignment keep all objects where they are; the destructor, reset, emplace, replace_with_bytes and copy assignment (also self copy assignment) destroy the object of the target and no other; a move construction, move assignment or swap passes the object itself on to the other any (same address) if is_stable_pointers() is true and the allocator allows it, otherwise the object is destroyed, and a move assignment destroys the object of its target. An object that survives does not change its address, so pointers and references to it can be used; an object that does not is in no any afterwards and its destructor has run. An operation that throws never takes an object to another any, and destroys at most the objects of emplace's, replace_with_bytes' and assignment's targets.", "quantifier": "all reachable programs over anys, all operations, all contained types, allocators and schedules of exceptions", "why_tests_cant": "validity of a pointer is not observable by a test; all operations on all states", "anchors": [{"file": "include/anyany/anyany.hpp", "symbols": ["basic_any::is_stable_pointers", "basic_any::move_value_from", "basic_any::operator=", "basic_any::emplace", "basic_any::reset", "basic_any::basic_any"]}]}
{"id": "C119", "title": "Methods may use and replace the any they are called on", "statement": "A method called through an any (or through a poly_ref) may itself construct, assign, move, swap, reset and destroy anys, call methods of them, and throw; this includes the any it was called on. Pointers and references (self of every running method, any_cast pointers and poly_refs kept in variables) denote an object, not a place: as long as that object has not been destroyed they are usable and reach it, even if the object has been taken along into another any. A program that uses anys as documented and pointers only while their object lives has no undefined behaviour at all, does just what the program does in which pointers are the objects themselves, and destroys every object and frees every block once.", "quantifier": "every program and every implementation of every method (arbitrary nesting and recursion, also programs that do not end), every pattern of exceptions, every configuration of buffer size and allocators, every reachable starting point", "why_tests_cant": "Re-entrant use comes in unboundedly many nestings: a test shows one program in which a method replaces its own any, not all of them.", "anchors": [{"file": "include/anyany/anyany.hpp", "symbols": ["invoke_fn", "invoker_for", "any_cast_fn", "poly_ref", "basic_any::emplace", "basic_any::operator=", "basic_any::reset"]}]}
{"id": "C120", "title": "Visitors that use the variant_swarm they visit", "statement": "A visitor may use the swarm it visits: count, start visits, read and write its value, and insert in, clear or reserve memory for the containers of types that are not being visited (and insert in a std::list that is). Then nothing undefined happens, for any nesting of visits, and all values of a listed type which are there when its turn comes are visited in order: values inserted for a type listed later are visited, values inserted for a type listed before are not. Inserting a value in a std::vector being visited makes the visit undefined as soon as the visitor returns, whatever the capacity is; only an exception gets out of it; the value may still be used if there was room. In a std::list each inserted value is visited too, and a visitor that always inserts never ends.", "quantifier": "All numbers of types, values and capacities, all visitors written as programs of insertions, clear, reserve, count, reads, writes, nested visits, exceptions; all numbers of steps", "why_tests_cant": "Which iterators survive depends on capacities and on nesting; a test that has room or that visits another type does not see the invalid end iterator.", "anchors": [{"file": "include/anyany/variant_swarm.hpp", "symbols": ["basic_variant_swarm::visit", "basic_variant_swarm::visit_all", "basic_variant_swarm::count", "basic_variant_swarm::view"]}, {"file": "include/anyany/noexport/variant_swarm_details.hpp", "symbols": ["inserter::insert", "inserter::do_insert"]}]}
{"id": "C121", "title": "Threads that use different types of one variant_swarm", "statement": "Threads may use one variant_swarm without locks if no thread uses a type that another thread changes: inserting, clearing, reserving, counting, writing values and visiting for different types, with visitors that use the swarm themselves, are free of data races for every schedule; each thread sees and does what it would alone, and when all have ended the values do not depend on the schedule. Reads of one type by several threads are allowed too. Two threads that insert for one type, or one that visits a type while another inserts for it, race.", "quantifier": "All numbers of threads, all schedules, all programs of the threads and their visitors, all contents and capacities of containers", "why_tests_cant": "Data races depend on the schedule, and all containers are members of one object; a test runs few schedules.", "anchors": [{"file": "include/anyany/variant_swarm.hpp", "symbols": ["basic_variant_swarm::containers", "basic_variant_swarm::visit", "basic_variant_swarm::count", "basic_variant_swarm::view"]}, {"file": "include/anyany/noexport/variant_swarm_details.hpp", "symbols": ["inserter::insert", "inserter::my_container"]}]}
{"id": "C122", "title": "Comparison and hash of anys in values of anys", "statement": "Anys whose values have anys in them (trees, lists of anys), with element-wise == and <=> of the types, compare by what is in them at every depth: a == b holds iff both hold the same types with equal data in the same places; == is an equivalence if that of the data is; equal anys have equal hashes, and hashes distinguish all that those of the types distinguish; a copy is equal to its source and has the same hash. a <=> b is decided by the first place at which they differ, is equivalent where == is true, b <=> a is its opposite, and < is transitive. (Disproved for <=>: the comparison is undefined if at the first difference, at any depth, the left has a value and the right is empty.)", "quantifier": "All trees of anys of every depth and width, all comparison and hash functions of the types", "why_tests_cant": "The trees are unbounded; which any is compared first, and whether it is empty, depends on all that comes before it.", "anchors": [{"file": "include/anyany/anyany.hpp", "symbols": ["equal_to::plugin::operator==", "spaceship::plugin::operator==", "spaceship::plugin::operator<=>", "hash::do_invoke"]}]}
{"id": "C123", "title": "Anys constructed with an allocator passed on", "statement": "std::uses_allocator is true for anys, so code that passes allocators on (std::tuple with std::allocator_arg, std::scoped_allocator_adaptor, std::make_obj_using_allocator, polymorphic allocators for anys in anys) passes its allocator to their constructors. The any is then the same as it is when constructed from the same arguments without the allocator (a copy of an any is a copy, in_place_type<T> makes a T from the arguments, stable pointers are stable), the program compiles exactly if it compiles without, and the any uses the allocator. (Disproved: a copied or moved any becomes an any that contains it, or is ill-formed, or, if the allocator passes itself on to values, the construction never ends, for emplace<any>(x) too; in_place_type<T> leaves the any with a default allocator and gives the allocator to the constructor of T, or the any contains the tag; force_stable_pointers is ill-formed; references are contained.)", "quantifier": "all lists of arguments of constructors, all any types and assignments of methods to types, all allocators, any depth of anys in anys", "why_tests_cant": "all lists of arguments and all types; a construction that never ends cannot be observed", "anchors": [{"file": "include/anyany/anyany.hpp", "symbols": ["std::uses_allocator", "basic_any::basic_any", "basic_any::construct_value", "exist_for"]}]}
{"id": "C124", "title": "Anys as keys of unordered containers", "statement": "In std::unordered_map / std::unordered_set with anys as keys (aa::hash and aa::equal_to), keys of all types at once, empty anys and anys with anys in their values are found by what they hold: after any history of insert, insert_or_assign, erase and rehash, find gives for a key what the history says for keys equal to it, insert says whether there was no equal key, erase erases the one element with an equal key, iterating meets every key once. Nothing of it depends on the hashes, the number of buckets or the order of the elements, if the == of the types is an equivalence and equal values have equal hashes.", "quantifier": "all histories of operations, all keys (trees of any depth), all hash functions and equalities of the types that fit together, all numbers of buckets", "why_tests_cant": "unbounded histories and all hash functions, including all collisions between types", "anchors": [{"file": "include/anyany/anyany.hpp", "symbols": ["hash<basic_any>", "hash::do_invoke", "equal_to::plugin::operator=="]}]}
{"id": "C125", "title": "Anys as keys of ordered containers, and sorted", "statement": "Anys with aa::spaceship can be keys of std::map and std::set, and can be sorted with std::sort: their < is defined for all of them and is a strict weak ordering, if the order of the values of every type is one. (Disproved for keys of several types: they are neither less nor greater than two keys of which one is less than the other, so equivalence is not transitive. Disproved for empty anys among others: the comparison is undefined.)", "quantifier": "all sets of anys, all types and orders of their values", "why_tests_cant": "a strict weak ordering is a statement about all triples; containers with a broken ordering go wrong only for some orders of insertion", "anchors": [{"file": "include/anyany/anyany.hpp", "symbols": ["spaceship::plugin::operator<=>"]}]}
{"id": "C126", "title": "Anys with allocators", "statement": "Anys work with every allocator type that meets the requirements of the standard: each operation that the methods of the any enable compiles, whether the allocator is empty or not, always equal or not, propagated or not, assignable or not; only operations that are given neither an allocator nor an any need an allocator that can be default-constructed, as those of standard containers do. (Disproved for allocators with fancy pointers, for those whose copy constructor does not throw but is not declared noexcept, for moves from anys with more methods, and for move assignment of anys without buffer and without methods that move.)", "quantifier": "all allocator types, described by what the library looks at; all combinations of methods, buffer and value types; all operations", "why_tests_cant": "a test uses some allocators; bodies of templates are compiled only when they are used with the allocator", "anchors": [{"file": "include/anyany/anyany.hpp", "symbols": ["basic_any", "basic_any::emplace_in_empty", "basic_any::operator=", "basic_any::deallocate_memory", "basic_any::move_value_from", "materialize"]}, {"file": "include/anyany/noexport/anyany_details.hpp", "symbols": ["copy_requires_alloc", "copy_fn"]}]}
{"id": "C127", "title": "Type traits of anys tell the truth", "statement": "std::is_constructible, std::is_assignable, requires-expressions and overload resolution say yes to an operation of an any (construction, assignment, emplace, materialize, from values, from arguments, from anys) exactly if it compiles, so that anys can be used in std::variant, std::optional, overloaded functions and other templates that ask. (Disproved: they say yes if the type of the value has the methods, also if it cannot be constructed from the arguments; in C++17 they say that every any can be copied and moved; and they do not ask whether the allocator can be default-constructed. They never say no to what compiles.)", "quantifier": "all allocator types, methods, buffers and value types, all operations, C++17 and C++20", "why_tests_cant": "a check that says yes wrongly shows up only as a program that does not compile; tests that compile do not contain one", "anchors": [{"file": "include/anyany/anyany.hpp", "symbols": ["basic_any", "exist_for", "basic_any::emplace", "basic_any::operator=", "materialize"]}]}
{"id": "C128", "title": "matcher calls the function that matches", "statement": "std::visit(aa::matcher{f...}, v...) and aa::matcher{f...}(x...) call, whatever the functions, their order and the conversions between the types are, the function whose parameters have exactly the types of the arguments if there is one; a function that takes them as they are (auto) rather than one that needs conversions; and with a generic function every combination of alternatives is handled. (Disproved for several values: also with a generic function the call may be ambiguous, and the example in the comment of matcher is for two variants of int and float.)", "quantifier": "all lists of functions with parameters by value, of any types or auto; all conversions between types; all arguments and alternatives", "why_tests_cant": "overload resolution quantifies over all functions and all combinations of alternatives; a combination that is ambiguous does not compile", "anchors": [{"file": "include/anyany/utility.hpp", "symbols": ["matcher"]}]}
{"id": "C129", "title": "headers can be included in any order", "statement": "The public headers can be included in any order and any number of times, between other headers: each that is included is then declared, once, after all that it uses; wherever the library uses one of its macros it is defined; the code for C++20 is selected exactly in C++20; afterwards none of the macros is defined, except those meant for users (anyany_macro.hpp); and all that the code needs of the standard library is declared before it. (Disproved: <compare> is never included before the first use of its types, so type_descriptor.hpp cannot be the first header in C++20; uintptr_t is used without <cstdint>; one macro is not defined for some compilers; macros of the program with the same names, e.g. frwd, are lost.)", "quantifier": "all sequences of #include directives of public headers and standard headers; C++17 and C++20; with and without names of types", "why_tests_cant": "tests include the headers in a few orders; that all work quantifies over all sequences", "anchors": [{"file": "include/anyany/noexport/file_begin.hpp", "symbols": ["AA_HAS_CPP20"]}, {"file": "include/anyany/noexport/file_end.hpp", "symbols": ["AA_HAS_CPP20"]}, {"file": "include/anyany/noexport/type_descriptor_details.hpp", "symbols": ["AA_HAS_CPP20"]}, {"file": "include/anyany/type_descriptor.hpp", "symbols": ["descriptor_t"]}, {"file": "include/anyany/anyany.hpp", "symbols": ["ANYANY_NO_UNIQUE_ADDRESS"]}]}
{"id": "C130", "title": "what resolve of visit_invoke does and how often", "statement": "resolve asks each argument for its type exactly once, in order, and then compares at most floor(log2 n) + 2 keys for n overloads, whatever the arguments and the order in which the overloads are declared; this number is reached. Without a matching overload it does nothing else. With one, its function is compared with those of the overloads up to itself in the order of declaration (only with Unsafe = false or with assertions), then each argument is asked for its address exactly once, and the overload is called exactly once, as the last step.", "quantifier": "all non-empty overload sets; all arguments; Unsafe or not; with and without NDEBUG", "why_tests_cant": "a test counts the steps for a few overload sets; the bound is for all sizes, declaration orders and arguments", "anchors": [{"file": "include/anyany/visit_invoke.hpp", "symbols": ["resolve", "runtime_const_correctness_check"]}, {"file": "include/anyany/noexport/visit_invoke_details.hpp", "symbols": ["find", "flat_map"]}]}
{"id": "C131", "title": "different types have different descriptors", "statement": "\"If descriptors compare equal, then types are equal and vice versa\" (type_descriptor.hpp:23-24): descriptors are made of the names compilers write for types, so any_cast, type_switch and visit_invoke are exact only if different types have different names. (Disproved: with GCC and Clang types with the same name in unnamed namespaces of two translation units have equal descriptors; with GCC two lambdas of one function with the same parameter types; with Clang types with the same name in two functions, in two specialisations of a function template, or in a function and outside, and lambdas of function templates; with MSVC vector<X> has two descriptors if X is declared as class and as struct.)", "quantifier": "all pairs of types built from namespaces, classes, templates with type arguments, unnamed namespaces, functions with local types, lambdas and pointers; GCC, Clang and MSVC; with and without type names", "why_tests_cant": "tests compare a few types; that names can always be told apart quantifies over all pairs of types", "anchors": [{"file": "include/anyany/noexport/type_descriptor_details.hpp", "symbols": ["n", "descriptor"]}, {"file": "include/anyany/type_descriptor.hpp", "symbols": ["descriptor_t", "operator=="]}]}
{"id": "C132", "title": "the const check of visit_invoke looks at the overload that is called", "statement": "Whether resolve refuses a call because of const arguments depends on the overload that matches the arguments and on no other. The overload is found by comparing addresses of functions; this is right if different functions have different addresses, as C++ demands. (Disproved for linkers that merge functions with the same code, as that of MSVC does by default in optimised builds: the check is that of the first overload with the same address, so a const argument is passed to an overload that takes it by non-const reference, or an overload that accepts it is refused.)", "quantifier": "all sets of overloads, all arguments, all assignments of addresses to the functions of the overloads, both forms of resolve", "why_tests_cant": "a test runs with the addresses one linker gives; whether functions are merged depends on the bodies of all overloads and on the linker", "anchors": [{"file": "include/anyany/visit_invoke.hpp", "symbols": ["runtime_const_correctness_check", "resolve", "match_invoker"]}]}
{"id": "C133", "title": "adding elements to data_parallel_vector moves as many elements as with std::vector", "statement": "The operations of data_parallel_vector that add elements move, in each column, at most a constant times as many elements as those of std::vector: appending takes constant time per element on average, inserting m elements before n others moves m + n elements, constructing from a range of random-access iterators moves none. (Disproved for ranges inserted before other elements: each of the n elements is moved m times, and with random-access iterators the memory is made exactly large enough, so that repeated insertions move all elements each time; and for constructors from ranges and assign, which append element by element.)", "quantifier": "all containers with any number of fields, all positions, all numbers of elements, all sequences of operations at the end, all ways in which vectors grow (by at least one k-th, where averages are concerned)", "why_tests_cant": "tests measure a few sizes; that a number of moves is bounded by a constant times the elements added quantifies over all sizes and histories", "anchors": [{"file": "include/anyany/data_parallel_vector.hpp", "symbols": ["insert", "emplace", "emplace_back", "push_back", "reserve", "assign", "data_parallel_impl"]}]}
{"id": "C134", "title": "reserved memory of data_parallel_vector is kept and used", "statement": "After reserve(n) capacity() is at least n, and as long as no operation needs memory for more than n elements, no column allocates and capacity() does not become smaller, whatever elements are inserted, erased, resized, cleared or assigned (until shrink_to_fit, swap, or moves and copies of whole containers). (Disproved for assign and assignment of an initializer list: they build a new container and take its memory, so that what was reserved is lost if the allocator is propagated or equal to a default constructed one, and memory is allocated each time in any case. std::vector keeps its memory.)", "quantifier": "all containers with any number of fields, all numbers reserved, all programs of operations, all ways in which vectors grow, all allocators (propagated or not, equal to a default constructed one or not)", "why_tests_cant": "tests look at the capacity after a few operations; that no allocation happens in any program that stays within what was reserved quantifies over all histories", "anchors": [{"file": "include/anyany/data_parallel_vector.hpp", "symbols": ["reserve", "capacity", "assign", "insert", "emplace", "emplace_back", "resize", "clear", "operator=", "data_parallel_impl"]}]}
{"id": "C135", "title": "an any that owns enough memory is assigned without allocation", "statement": "If an any owns n bytes of memory, then giving it a value of at most n bytes allocates nothing, and the any keeps its memory, however often this is done. (Disproved for assignment of anys: copy assignment of a value that does not fit the buffer always allocates, with every allocator and also for a = a; if allocators are equal or propagated, the memory of the target is given back and it owns a block of exactly the size of the value. Move assignment allocates nothing then, but also replaces the memory, so that memory obtained with replace_with_bytes is lost. For different allocators that are not propagated, move assignment of a value in memory uses the memory of the target if it is at least as large as that of the other any. std::swap allocates nothing for equal or propagated allocators and exchanges the memory with the values; memory of an any without value is given back.)", "quantifier": "all reachable states, all sizes of the memory and of the values, all histories of emplacements and destructions of the value, with constructors that throw or not, all numbers of copy assignments, all allocators", "why_tests_cant": "tests count allocations in a few sequences; that a loop of assignments never allocates, or allocates in each round, quantifies over all histories and sizes", "anchors": [{"file": "include/anyany/anyany.hpp", "symbols": ["basic_any::operator=", "emplace", "destroy_value", "move_value_from", "reset", "replace_with_bytes"]}]}
{"id": "C136", "title": "type_switch compares types in order and stops", "statement": "A type_switch compares the type of the value with the types that are written in its cases, in this order, up to the first whose function gives a result, and with none behind it: at most as many comparisons as types are written, exactly as many if none matches. The function of a case is called at most once, and only if the case lists the type; the function given to default_ is called exactly if no case gives a result, and once.", "quantifier": "all switches with any number of cases and of types per case, all types of the value, functions that return a result or nullopt", "why_tests_cant": "tests run switches with a few cases and look at the result; the number of comparisons and calls is a statement about all chains", "anchors": [{"file": "include/anyany/utility.hpp", "symbols": ["type_switch_fn", "case_", "cases", "default_"]}, {"file": "include/anyany/anyany.hpp", "symbols": ["any_cast_fn"]}]}
{"id": "C137", "title": "A data_parallel_vector can be used again after an exception", "statement": "After a member that changes a data_parallel_vector in place (emplace_back, push_back, emplace, insert, erase, resize, copy assignment) has thrown, in whatever field and whatever it left in the columns, clear(), the destructor and move assignment from another container complete without an exception; assign and copy assignment have no undefined behaviour and may throw. Once one of these has completed, every legal history of any length has no undefined behaviour and gives the results, sizes, elements and spans of std::vectors: the container is empty, destroyed or has the assigned elements, and all other containers are as if nothing had happened.", "quantifier": "all element types, all histories before the exception, all operations that throw, all fields and moments of the exception, all histories after it", "why_tests_cant": "tests do not throw from copies of the fields at all; which field throws when, and what the columns hold then, has no bound", "anchors": [{"file": "include/anyany/data_parallel_vector.hpp", "symbols": ["clear", "emplace_back", "push_back", "emplace", "insert", "erase", "resize", "operator=", "~data_parallel_vector"]}]}
