# Formal model of kelbon/AnyAny

Source: `/repo` (headers in `include/anyany`). Line numbers below and in the Lean
comments refer to that tree; `anyany.hpp` etc. are short for `include/anyany/...`.

## 1. Trusted base

* Lean 4.33.0's kernel. Property theorems may depend only on the standard axioms
  `propext`, `Classical.choice` and `Quot.sound` (section 6 lists what each uses). No axiom is added,
  nothing is `sorry`, `native_decide` and `bv_decide` are not used.
* That the model definitions describe the C++ code. Every definition cites the lines it models. The
  code was read, never run.
* The C++ language rules and standard library contracts listed under "assumed" in section 3.

## 2. Layout

* `lean/Verif/Model/*`  executable model of the code, function by function.
* `lean/Verif/Spec/*`   small independent specifications (what a user expects).
* `lean/Verif/Lemmas/*` helper lemmas.
* `lean/Verif/Props/*`  the property theorems `Cnn_...` with a satisfiability `example` beside each.
* `lean/Verif/Check/*`  programs from the library's tests run on the model (validation, not proofs).

Undefined behaviour is a distinct outcome (`Res.ub`), as are exceptions (`Res.exn`) and
`std::terminate` (`Res.term`). A failing `assert` is `ub`.

## 3. What is modelled, area by area

### A. `basic_any` (Model/AnyMem.lean, Model/Layout.lean, Model/ValueAlloc.lean, Model/AnyVector.lean, Model/AllocReq.lean, Spec/AllocReq.lean, Spec/Traits.lean): C01-C22, C61, C102, C110, C111, C118, C126, C127, C135 (Spec/Fate.lean)
World = any objects (vtable pointer, `value_ptr`, the union `data`/`size_allocated`, allocator),
heap blocks (size, owning allocator, object inside), object identities with destructor counts, block
identities with free counts, and a fault schedule `Nat -> Bool` that decides for each potentially
throwing call whether it throws. Operations are state transformers returning ok/exn/ub/term. The union
is modelled: writing the size over a live object or reading a size that is not there is `ub`.
Vtables are lists of slots (method, type) reached through a pointer (static table + offset), so calling
the wrong slot is `ub`.
Proof: invariant `WF` preserved by each operation; a per-any `view` gives the refinement to independent
optional values; induction over histories.
Not modelled: bit-level object representation, fancy pointers (C126: nothing compiles with them), allocators whose `construct` is customised,
user code called re-entrantly from constructors/destructors (area U has this).
Model/ValueAlloc.lean keeps, for each any, only its allocator and the allocator its value uses, and which memory resources exist.

### B. Type lists (Model/TypeList.lean, Spec/TypeList.lean): C23-C30
C++ types are natural numbers (method ids); nested lists are a tree type. Pure functions, induction.

### C. Vtables, references, pointers (Model/Vtable.lean, Model/Poly.lean, Model/Atomic.lean): C31-C38, C62, C97
Vtable contents, sub-table pointers, `vtable_view` (pointer or by-value for one method), stateful
references, conversions. World = an any world plus vtable objects plus references; `Spec/PolyHist.lean`
says when a history is legal (references outlive nothing they refer to). C32 uses a separate byte-layout
model with the Itanium ABI rule.

### D. Comparison, hash (Model/Compare.lean, Model/Cpp17.lean): C39-C41, C104
### E. Descriptors (Model/Descriptor.lean, Model/TypeNames.lean, Spec/TypeNames.lean): C42, C43, C131
NUL-terminated arrays of characters with an arbitrary total order on characters.
### F. visit_invoke (Model/VisitInvoke.lean, Model/VisitPoly.lean, Model/VisitCall.lean, Model/VisitDecay.lean, Model/VisitCost.lean, Model/ConstLookup.lean): C44-C47, C64, C65, C91, C92, C109, C130, C132
Table built by sort, looked up by lower_bound, keys padded with the `void` descriptor. `VisitPoly` models
how the arguments (any, poly_ref, poly_ptr, statically typed values) are turned into pointers and
forwarded to the overload. `VisitCall` models the call itself as a list of steps, each of which may throw.
Model/VisitDecay.lean keeps the types of arguments and parameters before decay, which the lookup does not see and the access does.

### G. type_switch, visitors, variant traits (Model/TypeSwitch.lean, SwitchUse.lean, Visitors.lean, Variant.lean, Matcher.lean, SwitchCost.lean): C48-C50, C113, C128, C136
### H. data_parallel_vector (Model/Dpv.lean, DpvIter.lean, Fields.lean, DpvAlloc.lean, DpvRange.lean, DpvViews.lean, Elem.lean, BoolField.lean, ElemRef.lean, DpvReq.lean, DpvCost.lean, DpvKeep.lean): C51-C56, C59, C66, C67, C80, C87-C90, C93, C94, C103, C105, C107, C114, C133, C134, C137
Columns as lists with a capacity and a buffer identity; fault schedule for exceptions; iterators with
`BitVec w`, every width. `Fields` models the field counting by aggregate initialisation.

Allocators (C87) have a model of their own, Model/DpvAlloc.lean: of each column only the allocator and the allocator its buffer is from. Members of `std::vector` are as the standard specifies them for allocator-aware containers; whether one needs memory and which one throws is decided by an oracle for each operation, so contents and capacities need not be in the model. Self-assignment and self-swap are not in it.

How arguments are read (C88, C89) is in Model/DpvRange.lean: objects outside the container that can be moved from, one list per field, and counters for copies, moves and dereferences. The order in which arguments are evaluated is a parameter. Exceptions and capacities are left out; what vectors do internally when they grow is not counted.

Views by type and structured bindings (C93, C94) are in Model/DpvViews.lean: the compile-time selection of columns over arbitrary lists of field types, and the object that a structured binding refers to. Namespaces for argument-dependent lookup are lists of names. `reinterpret_cast` between `bool_*` and `bool*` is taken to give the same elements (it relies on `bool_` having the layout of `bool`).
### I. variant_swarm (Model/Swarm.lean, Model/SwarmInsert.lean, Model/SwarmVisitor.lean, Model/SwarmRange.lean): C57, C58, C86, C98, C108, C115
One list of values per type. A container is known by its members (which exist, what they leave, and whether they throw at
a given moment); sequences, sets and multisets are instances. Visitors are functions with a state; they may write to
the values and throw. Histories (Spec/SwarmHist.lean) go on after exceptions: an operation that threw ties the contents
to those before it, except for the container that threw.
Model/SwarmVisitor.lean is the constraint and the body of the overloads of `visit`, for visitors given by the arguments they accept.
Model/SwarmInsert.lean is overload resolution for `insert(x)`: two candidates for each type, conversion sequences given by an arbitrary relation (standard conversions
by rank, user-defined ones by function and rank), best viable candidate as in [over.match.best]. Spec: the rule by which `std::variant<Ts...>` chooses.

### J. unique_ptr (Model/UniquePtr.lean): C60
The members of `std::unique_ptr` follow the standard's text; deleter, conversions and vtable are the code.

### K. invoke and stability (Model/Invoke.lean): C68-C70
Overload resolution among the six `operator()` of `invoke_fn` (anyany.hpp) for every operand type, constness and
value category, and the passing of arguments through `invoke_fn`, the invoker stored in the vtable and `call`'s
`operator()`, with objects that count copies and moves. C68 combines areas A and C.

### L. Macros (Model/Macro.lean, Model/MacroTable.lean): C71, C112 (Model/MemberNames.lean)
The preprocessor (token trees, prescan, `##`, rescan, hide sets) with fuel; the macro table is generated from
anyany_macro.hpp by tools/gen_macro.py. The specification is the text of the declarations (Spec/MacroText.lean).

### M. Algorithms, constructors (Spec/DpvClient.lean, Model/Ctor.lean, Model/UsesAlloc.lean, Spec/UsesAlloc.lean): C72, C73, C123
Programs over containers are trees whose continuations depend on every observation; C72 follows from the step theorems of C51 and C55 by induction on
the run. Loops use the machine-integer iterators of C56. Model/Ctor.lean has the overload sets of construction and assignment of `basic_any`
with their constraints and the ranking rules of C++20; what the selected constructor does is area A.

### N. Threads and sources of exceptions (Spec/Threads.lean, Model/Fine.lean, Spec/Fine.lean, Spec/FineJoin.lean, Spec/Sync.lean, Model/DpvFine.lean, Spec/DpvFine.lean, Model/SwarmThreads.lean, Spec/SwarmThreads.lean): C74, C75, C99, C100, C101, C117, C121

No new code: statements about the model of A. `only F w` is the world in which there are only the any objects `F` and their memory;
accessing anything else is undefined behaviour there. Threads are schedules of whole operations; that the steps of operations of
different threads touch different memory, apart from memory that both only read, is what the first two theorems of C74 say. In
`C74_interleavings` the run of a thread alone is a run in the world that has only the objects the thread uses; between its operations the
numbers of blocks, objects and calls may grow (`Elapse`), as the other threads allocate and call functions too.

For C99 the functions of A are written once more as sequences of single accesses to any objects and blocks (Model/Fine.lean), which other threads
may interrupt anywhere; run without interruption they are the functions of A (`C99_accesses_are_the_operation`), and a step depends on and
changes nothing but the location it is said to access (`C99_accesses_complete`). An access to a member counts as an access to the
whole object, so there are at least the conflicts there are in the code. A data race is a pair of accesses of different threads to one
location of which one writes; nothing orders the threads. The allocator itself is not modelled: it returns blocks that no one else uses.
A program may run threads in this way again and again (`Session`): what each of them counted is added up when they are joined (C100), and the
theorems of C99 hold from every state of such a program.

In C101 the threads are not programs given in advance: any thread that is not executing an operation may begin any operation that is legal at that
moment and does not conflict with one in progress (Spec/Sync.lean). Here two accesses are ordered if an operation of the first thread ended and
one of the second began in between: this is where a lock or a queue synchronises them. `C101_needs_exclusion` shows that without the condition
there is a race.

For C117 the operations on elements of H are written as sequences of single accesses to the members of columns and to their elements
(Model/DpvFine.lean); an operation on whole containers is one access to everything its containers have. `Part` names what threads share out:
which elements there are, and single fields of elements. Which object of memory has a field depends on the container chosen for its type
(`containerFor`): the elements of a `std::vector<bool>` would share words.

### O. Methods (Model/Methods.lean, Model/Concepts.lean): C77-C79, C29, C106
Signatures and traits of methods, what the vtable entry passes as `self`, `exist_for`, what each way of making a polymorphic object from an
lvalue stores, selection of plugins. Types are classes, pointers, arrays and functions with `std::decay`.
`type_descriptor()` is declared by three plugins (`type_info`, `equal_to`, `spaceship`) that derive from each other. The model reads the entry of the
most derived one in the list (`descMethod`); `C29_type_descriptor` shows that this is the plugin the class inherits.

### P. References as overload sets (Model/RefCtor.lean): C81, C82, C36

The constructors and assignment operators of the six class templates are candidates with a condition, a conversion (rank, rvalue binding, const) and a place
in the order of templates; `resolve` (Model/Ctor.lean) is overload resolution. `Accepts` (Spec/RefCtor.lean) states the documented sources. Proved: exactly these
compile, for direct and copy initialisation, for every argument; no call is ambiguous; mutable references come from mutable access only; the conversions are those of
area C. Left out: derived classes, `volatile`, conversion functions of user types, `{}`.

### Q. Result types of any_cast (Model/AnyCast.lean): C83
Every overload of `any_cast_fn` with the default traits as a function from `T` (type, const, reference) and the kind of argument to the kind of
result (pointer, reference, copy, move) and its constness; the comparison of descriptors is that of decayed types, the access is with the undecayed
type. Objects are those of area O (`Methods.make`), so arrays and pointers are distinguished. Left out: function types as `T`.

### R. Results of methods (Model/Call.lean): C84
Initialisation of a `T`, `T&` or `T&&` by a `return` statement or a `static_cast`, for every result type and every expression (value category, constness,
static type), over an arbitrary class hierarchy and arbitrary user-defined conversions; temporaries die when the function returns. The functions between
`do_invoke` and the caller are composed from it. Left out: conversion functions returning references, conversions that throw, `const` object types as result.

### S. Resources of operations (Lemmas/Cost.lean): C85
Blocks, objects and copies are counters of the world (ghost state of Model/AnyMem.lean). Objects outside of any objects (results of casts, temporaries of by-value
methods) are not counted.

### T. Anys in values of anys (Model/Nested.lean, Model/NestedCmp.lean, Spec/NestedCmp.lean, Model/AnyKeys.lean, Spec/AnyKeys.lean): C95, C122, C124, C125
A value has a type, data and anys (trees of any depth and width); an any is found by its variable and the path to it. Only the order in which assignments destroy,
move and read is modelled; memory and exceptions are in Model/AnyMem.lean, where values have no anys in them. Comparison and hash recurse into the anys of a value through the
defaulted operators of its type and of `std::vector`.

### U. Destructors, constructors and methods as programs (Model/Reentry.lean, Model/CtorReentry.lean, Model/MethodProg.lean, Model/SwarmReentry.lean): C96, C116, C119, C120
The destructor of a value is a program over anys (reset, emplace, move assignment, has_value; in Model/CtorReentry.lean also copy assignment and calls of methods), which can run
other destructors; constructors, copy constructors and methods of values likewise (C116). Destroying an object twice and
moving from a destroyed object are undefined. In the other areas destructors do not use anys.
Methods (C119) are programs over all operations of Model/AnyMem.lean, with a stack of running methods and variables for pointers and references;
there the destructors and constructors of values do not use anys.
Visitors of swarms (C120) are programs over the swarm; running visits hold iterators, which changes of containers invalidate.

### V. Headers (Model/Headers.lean, Spec/Headers.lean): C129
The preprocessor directives of all files: which files include which, macros that are defined, used, asked for and undefined, and what non-template code needs of
`<compare>` and `<cstdint>`. Replacement lists and other code are not there.

### Validation of the model (Check/)
The modules in `Verif/Check` are not proofs of properties. They run the library's own test programs on the model and check what those tests check: the
`static_assert`s on result types of `any_cast`, subsequences, subtables, interface aliases and `any_with` (Check/Static.lean); tests of
`basic_any` — constructors, swaps, copies and moves between classes, allocators, reuse of memory, comparison, casts — with the additional check that
all memory and objects are given back (Check/AnyTests.lean); references, pointers, `type_switch`, `unique_ptr`, `visit_invoke` (Check/PolyTests.lean);
`data_parallel_vector` and `variant_swarm` (Check/DpvTests.lean). The expected results come from the authors of the library; so these modules are evidence, other than
reading, that the model does what the code does. All expectations of the tests that were translated hold in the model.

Some properties have models of their own that leave out what they do not need. `Check/Agree.lean` proves that these agree with the main models where
both apply: `Model/Reentry.lean`, `Model/CtorReentry.lean`, `Model/Nested.lean` and `Model/ValueAlloc.lean` with `Model/AnyMem.lean` (for every operation that
returns, in every world that can be reached: `reentry_agrees`, `ctorReentry_agrees`, `ctorReentry_throws_agrees`, `nested_move_agrees`, `nested_copy_agrees`, `nestedCmp_agrees`, `valueAlloc_agrees`), and
`Model/SwarmReentry.lean` with `Model/Swarm.lean` (`swarmReentry_agrees`); `Check/AgreeDpv.lean` the same of `Model/DpvRange.lean` and `Model/Dpv.lean`
(`dpvRange_agrees`, `dpvRangeCtor_agrees`, `dpvInsertOne_agrees`), `Check/AgreeCtor.lean` of `Model/UsesAlloc.lean` and `Model/Ctor.lean` (`ctor_stable_agrees`, `ctor_alloc_agrees`), `Check/AgreeReq.lean` of `Model/AllocReq.lean` and `Model/Ctor.lean` (`construct_declared`). `Model/Fine.lean` and `Model/DpvFine.lean` are proved equal to the main models when
run by one thread (C99, C117); `Model/AnyVector.lean` and `Model/MethodProg.lean` are programs over the main model.

### Assumed of C++ and its library
* `std::vector` (strong guarantee of `push_back`, basic of the others, capacity rules), `std::sort`,
  `std::lower_bound`, `std::unique_ptr`, `std::variant`, `std::allocator_traits` behave as specified.
* Distinct types have distinct descriptor functions/strings in all models but Model/TypeNames.lean (C42 models the descriptor choice itself; C131 has when the assumption is right, for
  names as GCC and Clang write them in `__PRETTY_FUNCTION__`).
* `alignof`, `sizeof` and nothrow traits are arbitrary functions of the type with `size > 0`.
* User constructors, destructors and methods touch only the object they are called on. They may throw
  where the type allows (destructors never). A method that throws may have changed its object before
  (`Cfg.methodNothrow`, `Cfg.partway`).
* `allocate` and `deallocate` may be called by several threads, and memory is sequentially consistent for
  programs without data races (C99).

Not modelled: bit-level object representation,
constexpr evaluation rules, compiler diagnostics except where a constraint is an executable predicate,
replacement lists of the macros of `noexport/file_begin.hpp` (C129 has when they are defined).

### Lines of the headers that no definition models

Everything else in `include/anyany` is cited by a definition in `lean/Verif/Model` (`tools/coverage.py -v` prints the uncited lines).

| File | Lines | What they are |
|---|---|---|
| anyany.hpp | 1-41, 2027-2032 | synopsis, includes, macros for attributes |
| anyany.hpp | 56-63, 146-150, 211-214, 272-275, 341, 1150-1157, 1167-1180, 1736-1752 | type aliases and friend declarations; they are expanded where they are used |
| anyany.hpp | 110-117 | the concept `polymorphic`, and the macros that would require methods in templates, defined as `typename` |
| anyany.hpp | 406-415, 444-450, 462-471, 496-510, 524-530, 1071-1075 | access to private members and function objects that forward to functions that are modelled |
| anyany.hpp | 1110-1113, 1125-1126, 1162-1163 | assertions at compile time about the template arguments; assumed to hold |
| anyany.hpp | 1564-1568 | `bad_cast::what()` |
| data_parallel_vector.hpp | 166-173 | `proxy_ptr`, `const_proxy_ptr`: only named as `pointer` of iterators, which have no `operator->` |
| data_parallel_vector.hpp | 1-45, 420-425, 549-554 | aliases, `cbegin()`, `cend()`, a helper that is not used |
| data_parallel_vector.hpp | 441-444 | `back() const`: does not compile when used (section 5, item 22) |
| data_parallel_vector.hpp | 458-460 | `max_size()` |
| noexport/data_parallel_vector_details.hpp | 23-31 | `is_constructible_v`, a parameter of the model |
| noexport/common.hpp, file_begin.hpp, file_end.hpp | all but 53-72 of file_begin.hpp | macros for compilers and C++ versions |
| type_descriptor.hpp, noexport/type_descriptor_details.hpp | 79-90, 138-139; 56-61 | concepts, end of the files |
| noexport/anyany_details.hpp | 90-101, 183-187, 209-212, 329-333, 405-415, 433-438 | traits and aliases, expanded where they are used |

## 4. Plan per property

| Id | Model | Proof |
|---|---|---|
| C01-C04 | A | invariant + simulation, induction over histories |
| C05-C13, C16-C20 | A | per-operation specification lemma |
| C14, C21, C61 | A | concrete counterexample, plus positive theorem where one exists |
| C15 | A | per-operation lemma; counterexample for force_stable constructors |
| C22 | A + C | positive theorem for poly_ref; counterexamples (throwing copy, stateful ref lifetime) |
| C23-C30 | B | structural induction |
| C31, C33-C35, C38 | C | induction over conversion chains |
| C32 | C layout | arithmetic lemma + counterexample |
| C36 | C | counterexample + equal lists |
| C37, C62 | A/C | lemma on views |
| C39-C41 | D | case analysis; counterexample for C40 |
| C42, C43 | E | induction on strings |
| C44-C47 | F | sortedness, lower_bound correctness; counterexample for C45 |
| C48-C50 | G | induction over cases; counterexample for valueless variants in C50 |
| C51-C55, C66, C67 | H | simulation with lists of rows; counterexamples for C52 and C66; C52 with the exact state after an exception in field k, by induction over the columns (Props/DpvThrow.lean); C67 in histories with many containers by a frame rule over the code (Props/DpvSpans.lean), and for operations that throw by a rule with a precondition on room (Props/DpvSpansExn.lean) |
| C59 | H (Fields) | induction on the number of fields |
| C63 | A | two concrete histories with undefined behaviour; general versions for all states |
| C09, C14, C15, C21, C22, C61, C63 | A | Props/AnyExact.lean: when exactly the claim fails, for all reachable states |
| C64, C65 | F | case analysis of forwarding; counterexamples for all by-value parameters and function pointers |
| C56 | H | BitVec arithmetic; counterexample for `-=` |
| C57, C58 | I | induction over histories |
| C60 | J | invariant over histories |
| C68 | A, C, K | moves keep the block of a stable value; references are invariant under the histories |
| C69 | K | all cases of the overload set, then C04 and C62 for the values; counterexample for const rvalues |
| C70 | K | induction over parameter lists with a store of objects |
| C71 | L | symbolic execution of the preprocessor with arbitrary token lists; rejection for commas in the return type |
| C72 | M | induction on the run of the program; list permutation for swaps; induction on the distance to the end for loops |
| C73 | M | case analysis of the overload set for arbitrary method lists and argument types; nesting for `allocator_arg` |
| C74 | N | relation between a world and the same world with more objects and memory added, preserved by every function of the library (compositional); `step_spec` in the world that has only the operands; an invariant (the object is as it was and nothing else points into it) kept by every function for objects that are only read; induction on schedules |
| C75 | N | compositional predicate on the library's functions: returns ⇒ all calls in between fine, throws ⇒ the last call failed |
| C76 | A | invariant: no memory, every any in its buffer with types that fit; compositional over the library's functions |
| C77 | O | case analysis of the parameter forms |
| C78 | O | case analysis; counterexamples for all by-value methods with non-copyable types and rvalue methods |
| C79 | O | case analysis; counterexamples for all arrays and functions |
| C80 | H | field types with independent `==` and `<=>`; `_partial`, exact condition and failing histories |
| C81 | P | overload resolution over the constructor templates (Model/RefCtor.lean); exact characterisation |
| C82 | P | overload resolution; exact characterisation |
| C83 | Q | case analysis over the overloads; dynamic type compared after decay, access before decay |
| C84 | R | return statements and static_cast as functions on expressions with value category and static type, temporaries die at the end of each function; case analysis of initialisation (private Made), the chain of returns collapses to one initialisation; exact theorem by cases |
| C85 | S | A predicate `Cost k m` on computations, closed under sequencing, handlers and branches; one lemma for each function of the model; histories by induction. |
| C86 | I | induction over histories with exceptions |
| C87 | H | Invariants over histories: every buffer is from an allocator equal to that of its column; every column has the allocator of the specification (`vectorStep`). |
| C88 | H | Specification of the argument evaluation by induction on the order (`fieldArgs_spec`, `recArgs_spec`), of the loops by induction on the range. |
| C89 | H | Counters in the state of the same model; the same inductions. |
| C90 | H | an iterator is a container and a position; from C51 before and after the operation, and facts about lists |
| C91 | F | the steps of the call with their C++ semantics, run through the result; compared with the call written out |
| C92 | F | the first exception of the steps of resolve and of the call are compared; exact condition for std::terminate |
| C93 | H | std::get by type as a filter of the fields with one result; injectivity of the container type; C53 for the contents |
| C94 | H | C51 and C53 for the hidden object; associated namespaces as lists |
| C95 | T. nested anys | lookup and replacement in trees of values; the steps of the assignments one by one, by cases on how the locations lie to each other |
| C96 | U. destructors as programs | simulation between the code and the semantics that empties first, by induction on the number of nested calls |
| C97 | C. references and pointers | the bytes determine the target (from the meaning of references proved for C31); compare_exchange is one of two assignments of the history semantics |
| C98 | I | candidates characterised by membership; best candidate is unique since `better` is asymmetric; cases on conversion sequences |
| C99 | N | the functions of the library again as trees of single accesses, proved equal to the model of A when run in sequence; a discipline (writes only to non-const operands and their memory) proved for every function (compositional); simulation of the shared memory by the part each thread sees, by induction on steps |
| C100 | N | the counters of the threads add up: each object and block is destroyed or given back by at most one thread (a simulation between the world a thread sees and a well-formed one with other counters); well-formedness of the joined world; induction on the program |
| C101 | N | simulation: each operation runs in the part of the memory it uses as it would after all operations that began before it (a part of the memory that no other operation in progress modifies); invariant relating the machine, the world after all operations that have begun, and what the operations in progress have yet to do; induction on executions |
| C102 | A | `Model/Layout.lean`: offsets of the members by the rules of the Itanium ABI, for a platform given by sizes and alignments. Arithmetic of rounding up and of powers of two. |
| C103 | H | `Model/Elem.lean`: the traits as functions of the kind of type; induction over the parts. Uses C59 for aggregates. |
| C104 | D | Evaluation of the C++17 overloads with their by-value parameters as temporaries, by the lemmas of C38; C++17 strcmp is C++20 strcmp compared with equal, by induction over the names |
| C105 | H | The candidates with their conversions as data; all combinations of operands, by cases; columns by induction |
| C106 | O | Case analysis over what a class declares; lists by membership |
| C107 | H | Overload resolution and implicitly declared members of the two classes; case analysis over all operands, against a specification that says what the operands would be for `std::vector<T>` |
| C108 | I | the constraint and the body of each overload as predicates on the arguments of the calls; overload resolution by cases |
| C109 | F | types before and after decay; C44 for the selection, the access to the objects by the types of the parameters |
| C110 | A | Model of the allocators of anys and of their values and of the resources that exist; invariant over histories with exceptions: values agree with their anys, allocators of anys are alive; exactness by cases on the operation; general counterexamples |
| C111 | A | induction over the elements of the vector, on the specifications of the move constructor, the copy constructor and the destructor |
| C112 | L | characterisation of the inherited plugins (C29) and of name lookup; filter of a list without duplicates has one element just if |
| C113 | G | a state machine for one switch object; induction over the calls; overloads of default_ and conversions by cases |
| C114 | H | `Model/DpvReq.lean`: bodies as lists of operations on the vectors of the fields, initialisations and conversions; the needs of `std::vector` as a table of the standard. Conjunctions over the fields commute with the needs; then cases. |
| C115 | std::get by type on the tuple of containers, conversion of the elements; the call compiles iff the element type is std::vector<T> with T in the swarm once and convertible from it | Model/SwarmRange.lean, Props/SwarmRange.lean |
| C116 | U. constructors and destructors as programs | simulation between the code, with storage and lifetimes, and the semantics on contents, by induction on the number of nested calls |
| C117 | N | the operations on elements again as trees of single accesses, proved equal to Model/Dpv.lean when run in sequence; what a code uses as a predicate on trees (compositional); simulation of the shared containers by those each thread would have alone, by induction on steps |
| C118 | A | Spec/Fate.lean: table of survivors; relation between all objects before and after (Heir), composed for swap and copy assignment; identities from the ghost counter of objects |
| C119 | U | simulation between the program with addresses and the program with identities of objects; the invariant is that each pointer is at the address of its object while that lives (C118: objects never change their address) |
| C120 | U | Small-step machine with iterators as positions and states of containers; invariant: all iterators of running visits are valid; simulation by visits without iterators; induction over the values and types for visitors that spawn; counters of changes only grow. |
| C121 | N | Steps of all threads are interleaved; footprint of each step (C121_access); invariant: every thread is where a run of it alone is, on the containers it uses; frame by the containers it does not change. |
| C122 | T. nested anys | A value written out as a list of signs; a == b and a <=> b are comparisons of these lists, by mutual induction over values with the rest of the list as parameter; equivalence, order and hash follow on lists. |
| C123 | M | constructors as an overload set on lists of arguments; rule of uses-allocator construction; recursion through contained anys with a number of active constructors, endless ones by induction on it |
| C124 | T | unordered map as a list of elements with cached hashes; invariant over histories (cached hash, no two equal keys, elements = what the history says) with C122_equal, C122_equivalence, C122_hash |
| C125 | T | `<` as `(a <=> b) < 0`; strict weak ordering as in the standard; from C122_order_transitive, C122_order_congruent, C122_order_reversed |
| C126 | A | `Model/AllocReq.lean`: bodies as lists of the things in them that may fail to compile; requirements of the standard in `Spec/AllocReq.lean`; cases over the operations. |
| C127 | A | `declared` (constraints) against `compiles` (bodies) of `Model/AllocReq.lean`; from C126_exact by cases. |
| C128 | G | `Model/Matcher.lean`: candidates of all bases, overload resolution of the language with ranks, templates and partial ordering; the best is unique because better is asymmetric. |
| C129 | V | `Model/Headers.lean`: the preprocessor on the directives of all files, as a function on states and a trace; the states between two lines of a program are a finite set that every `#include` maps into itself (kernel computation, `Lemmas/Headers.lean`), and the theorems are for all sequences by induction. |
| C130 | F | `Model/VisitCost.lean`: the functions of `Model/VisitInvoke.lean` with a list of steps; that they end as before; induction on the binary search for its number of comparisons. |
| C131 | E | `Model/TypeNames.lean`: names as functions of types; that they can be read back up to what compilers leave out (`Lemmas/TypeNames.lean`, induction on types). |
| C132 | F | `Model/ConstLookup.lean`: the search with arbitrary addresses, compared with the check of the winner. |
| C133 | H | `Model/DpvCost.lean`: capacities and numbers of moves of the columns; invariant moves ≤ k * capacity for appending, induction on the loop of insert. |
| C134 | H | `Model/DpvKeep.lean`: capacities and numbers of allocations of the columns; induction on programs, the columns do not change while everything fits. |
| C135 | A | on the model of C01-C22: induction on histories with C11 and C12; the abstract states of copyAssign_spec and moveAssign_spec. |
| C136 | G | `Model/SwitchCost.lean`: the functions of `Model/TypeSwitch.lean` with a list of steps; induction on the types and cases; equal results by C48_exact. |
| C137 | H | `Props/DpvRecover.lean`: an operation in place leaves the container existing (`Stays`) and the others alone (C67 `leaves_exec`); clear, dtor and move assignment give a state that represents vectors; induction over the later history with `exec_tri`. |

## 5. Disagreements between the code and its documentation

Found while reading; each gets a theorem exhibiting it in the model where it can be expressed.

1. `operator<=>` (anyany.hpp 1856-1869) checks only the left operand for emptiness; `nonempty <=> empty`
   reads a null vtable (UB). Same for `==` provided by `spaceship`. (C40)
2. `move_value_from` with `SooS == 0` (1470-1472) steals the block even when called with
   `MemoryMaybeReused == false`, i.e. for unequal, non-propagating allocators; the block is later freed
   with the wrong allocator. (C01, C03)
3. The transmutating move constructor (1346-1348) default-constructs the allocator and then steals the
   block of `other`. (C01, C18, C19)
4. Move assignment between unequal non-propagating allocators destroys the target's value before an
   allocation that may throw, so the documented strong guarantee does not hold. (C09)
5. `materialize` sets the vtable before copying (1517-1525); if the copy throws, the destructor of
   `result` destroys an object that was never constructed. (C22)
6. `materialize(stateful::ref)` stores a pointer into the reference's own vtable in the returned any;
   it dangles when the reference dies. (C22)
7. `force_stable_pointers` constructors are `noexcept` for small nothrow types although they always
   allocate: `bad_alloc` becomes `terminate`. (C15)
8. `emplace` / `operator=(V&&)` with an argument aliasing the contained value reads a destroyed
   object. (C21)
9. `const_poly_ptr(const Any*)` (761-764) has the arguments of `has_subsequence` swapped. (C36)
10. `subtable_ptr` reinterprets a tail of a vtable; with entries of different alignment the layouts
    differ. (C32)
11. `visit_invoke`: an empty trailing argument has the same descriptor as the padding. (C45)
12. `data_parallel_vector`: exceptions from later columns break the equal length invariant (C52);
    `iterator -= negative` fails its assertion (C56).
13. Byte allocators give no alignment guarantee for contained types (`polymorphic_allocator<byte>`
    requests alignment 1). (C61)
14. Copy assignment with propagate-on-move but not propagate-on-copy replaces the allocator. (C19)
15. `is_stable_pointers()` does not hold across moves between unequal non-propagating allocators. (C14)
16. `visit_invoke` moves from the caller's object for by-value parameters even if it is passed as an
    lvalue (C64) and calls a null pointer for function-pointer overloads (C65).
17. `std::variant` visiting terminates for valueless variants. (C50)
18. `data_parallel_vector(n)` and `resize` value-initialise fields and ignore default member
    initialisers. (C66)
19. `type_switch` on an empty any fails its assertion (utility.hpp:33) even with a default case.
20. `invoke<Method>(const any&&)`: overload resolution selects the `U&&` overload, which has no
    `static_assert` on const methods, so a non-const method can be called on a const any. (C69)
21. Moving a value with a throwing move constructor between unequal allocators inside a `noexcept`
    assignment terminates. (C15)
22. Do not compile when used (noted only, where no property is named): `data_parallel_vector::erase(b, e)`
    (uses `.iters`), `data_parallel_vector::back() const`, `variant_swarm::insert(it, sent)`
    (`std::get<value type>` on a tuple of containers; C115), `type_switch` on a `poly_ptr` lvalue (C113),
    `materialize` with a stateful allocator (passes `Alloc&` for `void*`; C22, Model/CopyCall.lean), `std::hash<const_poly_ptr>` (C38),
    `emplace_back`/`push_back(T&&)` of a `data_parallel_vector` with move-only fields.
23. The macros of anyany_macro.hpp reject return types with a comma outside parentheses (`AA_IMPL_CONCAT` passes
    them to a macro with two parameters). (C71)
24. `basic_any(std::allocator_arg, alloc, x)` does not exclude anys: it nests `x` in the new any, also when called by uses-allocator
    construction (`std::uses_allocator` is specialised for anys). (C73)
25. References to arrays (README, anyany.hpp:929: "can reference arrays and functions without decay") have the methods of the decayed type
    but the address of the array; references to functions do not compile. (C79)
26. `exist_for` accepts methods that take `self` by value for types that are not copyable, and methods by rvalue reference; using them
    is a hard error. (C78)
27. `==` of elements and containers of `data_parallel_vector` compares fields by `<=>`, not by `==` as the comment (148-149) says: fields with
    a weak ordering that are equivalent and not `==` count as equal. (C80)
28. `std::is_constructible<const_poly_ptr<Ms...>, const Any*>` is true, and construction a hard error, if the any has some but not all of the
    methods. From a pointer to a non-const any, direct initialisation works by way of `poly_ptr`, copy initialisation does not. (C36, C81)
29. `r1 = r2` does not compile for references of the same type if `r2` is a non-const lvalue: the deleted template is the better match. The
    comment asks for explicit rebinding (`REF = REF(value)`), so this may be meant; a const lvalue is accepted, and `std::copyable` does not hold. (C82)
30. `any_cast<E[n]>(&a)` and `any_cast<E(&)[n]>(a)` succeed if `a` contains an `E*`, and access the pointer as an array, because `descriptor_v`
    decays and the cast does not. (C83)
31. `data_parallel_vector::assign` and `operator=(initializer_list)` move-assign from a temporary made with `allocator_type()`. With allocators that are propagated on move assignment the container loses its allocator, which `std::vector` keeps (C87_assign_fails). They also need a default-constructible allocator.
32. `data_parallel_vector::insert(pos, first, last)` before other elements makes `value_type(*first)` once for each field. With move iterators all
    fields of the first inserted element but one are what is left after moving (C88_xvalues_fails).
33. Iterators given to `data_parallel_vector` are dereferenced once for each field, not once as [sequence.reqmts] demands; `push_back(T&&)` and
    `insert(pos, T&&)` copy the fields, since `emplace(element_t<Is>... fields)` passes its parameters on as lvalues (C89).
34. Iterators of `data_parallel_vector` are a pointer to the container and a position: after `swap` they give elements of the other container, and after a
    move they are invalid, where those of `std::vector` go with the elements (C90).
35. `visit_invoke`'s inner lambda returns `auto`: an overload that returns a reference has its result copied, and a `Result` that is a view of it
    dangles (C91).
36. `resolve` is `noexcept` if all overloads are, but initialises their by-value parameters and the result itself: exceptions from these
    call `std::terminate` (C92).
37. A `type_switch` case whose function returns `std::nullopt` (or an empty `optional<Result>`) does not count as matched: later cases for the same
    type and the default are called as well (C48).
38. `get` for `data_parallel_vector` is in namespace `std`; structured bindings look it up by argument-dependent lookup only. For a type of the user
    with an allocator outside of `std` (also `std::pmr::polymorphic_allocator<T>`) they do not compile (C94).
39. `auto [a, b] = v[i]` binds the fields in the container, where `std::vector<T>` would copy the element (C94_element).
40. `a = std::move(inner)`, where `inner` is an any inside the value of `a` (a linked list `head = std::move(head_node.next)`), destroys `inner` before it is read
    (C95_move_fails). `std::any` and `std::unique_ptr` allow it. `a = Any(std::move(inner))` works (C95_temporary). Copy assignment works except with a
    propagating allocator that differs (C95_copy_fails).
41. `destroy_value` sets `vtable_ptr` to null after the destructor has run, `std::unique_ptr::reset` before. A destructor that (indirectly) resets the any that
    holds the object destroys it twice (C96_fails).
42. "`std::atomic<poly_ptr<...>>` works" (README.md:442): `compare_exchange_strong` compares bytes, so that it can fail although `expected` is equal to the pointer in the
    atomic: null pointers made in different ways (C97_null_fails), pointers converted from larger interfaces (C97_conversion_fails).
43. "behaves as `Container<std::variant<Types...>>`" (README.md:659): `insert(x)` is plain overload resolution, which takes a narrowing standard conversion before
    a user-defined one. `variant_swarm<bool, std::string>{}.insert("text")` inserts `true`; `std::variant<bool, std::string>` holds a string. (C98)
44. "SooS uses all padding it can (so no useless memory)" (noexport/anyany_details.hpp:389): the union of the buffer is padded to a multiple of `alignof(max_align_t)`, and
    the padding cannot hold values. `any_with` has 40 bytes for values in an object of 64 that has room for 48. (C102)
45. "T may be: tuple-like object (for which exist std::tuple_element/std::tuple_size/std::get)" (data_parallel_vector.hpp:9-10): elements of `data_parallel_vector<std::array<T, n>>` cannot be
    read as a whole with compilers that define `__cpp_aggregate_paren_init`: `operator value_type` writes `std::array<T, n>(a, b)`. Tuples with const parts do not compile either. (C103)
46. "concept const_method = method<T> && is_const_method_v<T>" (anyany.hpp:107-108): for an `interface_alias` of methods, which satisfies `method`, `is_const_method_v` has no signature to look at, and
    the program does not compile. `regular_method` and `pseudomethod` both hold for a class with `do_invoke` and `value_type`. (C106)
47. `proxy` and `const_proxy` (data_parallel_vector.hpp:66-221) declare move assignments, so their copy constructors are implicitly deleted. `auto r = v[0]; auto s = r;`, passing `r` by value and
    the constructor `const_proxy(const proxy&)` (192-193) do not compile; hence `v[0] == std::as_const(v)[0]` does not compile either. `operator=(proxy&&)` copies (105-107). (C107)
48. `visitor_for` (variant_swarm.hpp:28-31) asks for `std::invocable<T, Ts>`, a call with an rvalue, but `visit` calls the visitor with the stored values, which are lvalues. A visitor taking `T&` to change
    the values is rejected; one taking `T&&`, or a move-only `T` by value, satisfies the constraint and then fails inside `visit`. (C108.)
49. `visit_invoke_fn` compares arguments and parameters by descriptors of decayed types (visit_invoke.hpp:118-124, 146; type_descriptor.hpp:70-72), but takes the address of the argument as it is (type_descriptor.hpp:107-120)
    and accesses it with the type of the parameter as it is declared (visit_invoke.hpp:107-116). `resolve("abc")` selects an overload taking `const char*`, and the characters are read as a pointer; an overload taking
    `T (&)[3]` is called for a `T*` and for arrays of other lengths. (C109.)
50. Values that use allocators do not follow the allocator of their any. `construct_value` uses `allocator_traits::construct`, so a `std::pmr` container emplaced in an any with a `polymorphic_allocator` uses the resource of the any. `relocate` and `copy_fn` use plain constructors: after `a = std::move(b)` with unequal resources the value in `a` still uses the resource of `b`, and dangles when that ends; after `a = b` it uses the default resource. `noexcept(is_nothrow_constructible_v<T, Args&&...>)` of `emplace` and the constructors ignores that the allocator is a further argument: moving a `std::pmr::string` into an any with another resource may throw and terminates the program (C110).
51. `basic_any(basic_any&&)` is declared `noexcept(movable_alloc())` (anyany.hpp:1215) although move construction takes the allocator of its argument and never throws (C06). With `std::pmr::polymorphic_allocator` a `std::vector` of copyable anys therefore copies its elements when it grows: the values are new objects, use the default resource, and growth may throw (C111).
52. "ref/any_with, with Method created by this macro will have member function named NAME" (anyany_macro.hpp:56): not if two methods of a class have the same name, as `visit<int>` and `visit<double>` in the example that follows: their member functions are in different bases, so that `x.visit(1)` is ambiguous. A method named `reset`, `capacity`, `data`, `ref`, ... is hidden by the member of `basic_any`; `a.reset()` empties the any. (C112)
53. `default_` and `no_default` move out the result of a `type_switch` object, which then counts as still having one: a second call gives a moved-from
    object. `default_` of `type_switch<void>` accepts no function that returns `void`. `type_switch` on a `poly_ptr`, for which the comment
    (utility.hpp:91) says it is made, does not compile, nor, with whatever traits, on a `std::variant` (README: "supports any type for which you
    have poly traits"). (C113)
54. `visitor_interface<const T>` can be declared and used for making visitors, but visiting a `const T` does not compile: `anyany_adl_visit1` and `visit2`
    give a pointer to const for a `void*` (utility.hpp:205, 242-243). (C49)
55. `data_parallel_vector` needs more of its element type than `std::vector`: construction from a range or list instantiates `insert` before other elements, which needs
    fields that can be assigned; `assign` needs `allocator_type()`; `back() const` and `erase(first, last)` never compile. (C114)
56. `variant_swarm::insert(first, last)` compiles only for swarms with types `T` and `std::vector<T>`, for ranges of `std::vector<T>` and if `T` can be made from those (as `std::any`); it then adds
    the vectors to the container of `T`, not to theirs. (C115)
57. A constructor called by `emplace` sees its any as empty, but must not change it: `emplace`, assignment, or `reset` when memory is allocated use or release the storage of the object under construction. If the value is in the buffer and the constructor puts one in it that is not, and then throws, the any is not empty after the exception, contrary to the comment at anyany.hpp:1106. A destructor that moves its any, with a value in memory, to another any leaves the destroyed object in that one. The copy constructor of anys reads the vtable pointer of the other any after the copy constructor of the value has run (anyany.hpp:1208): if that one resets the any it copies from, the copy is lost and never destroyed; if it puts a value of another type there, the copy is taken for a value of that type. (C116)
58. A visitor that inserts in the swarm it visits a value of the type it was called with makes the visit undefined for the default container `std::vector`, even if there is room, and endless for `std::list`; the documentation does not say it. (C120)
59. `a <=> b` (and `a == b`) of anys with `aa::spaceship` whose values have anys in them is undefined if the first difference, at any depth, is an any with a value on the left and an empty
    one on the right: item on C40, inside of the defaulted operators of the contained types (C122_order_fails); `b <=> a` is `unordered`.
60. `std::uses_allocator` is specialised for anys (anyany.hpp:1957-1958), but the constructors that uses-allocator construction needs are not there: with an allocator passed on, copying or moving
    an any puts it into the new one (or does not compile), `in_place_type<T>` passes the allocator to the constructor of `T` and default-constructs the one of the any, and `force_stable_pointers`
    does not compile. With an allocator that constructs by uses-allocator construction itself (`std::pmr::polymorphic_allocator<std::byte>`), `any(std::allocator_arg, alloc, other_any)` and
    `emplace<any>(other_any)` call themselves without end. (C123)
61. `<` of anys (`aa::spaceship`, anyany.hpp:1856-1869) is not a strict weak ordering if the anys have values of several types: values of different types are unordered, and with `a < b` of one type
    and `c` of another, `c` is equivalent to both for `std::map`, `std::set` and `std::sort`, which require that this does not happen. Empty anys among others make it undefined (item of C40). (C125)
62. Allocators that meet the requirements of the standard but do not work: those with fancy pointers (a comment in `copy_fn` says so), and those whose copy constructor does not throw but is not declared
    `noexcept` (`static_assert` with the text "C++ Standard requires it", anyany.hpp:1168; the standard only requires that it does not throw). `basic_any(basic_any<..., OtherMethods...>&&)` needs a default
    constructor of the allocator, because of item 3. `any = std::move(other)` with `SooS == 0` and neither `move` nor `copy_with` takes part in overload resolution but does not compile if the allocator is
    neither always equal nor propagated. (C126)
63. The constructors and assignments from values, `emplace` and `in_place_type` are constrained only by `exist_for`, not by whether the value can be constructed from the arguments:
    `std::is_constructible_v<any_with<move>, std::unique_ptr<int>&>` is true and the construction does not compile (`std::any` asks). In C++17 the copy and move members are not constrained, so that
    `std::is_copy_constructible_v` is true for all anys. (C127)
64. The example in the comment of `aa::matcher` (utility.hpp:264-270), functions `(auto, int)` and `(int, float)`, cannot be called with two `float`: each of them matches in one place only. With two
    variants of `int` and `float` it does not compile, and a function `(auto, auto)` makes no difference to ambiguities of this kind. (C128)
65. `noexport/type_descriptor_details.hpp` asks for `AA_HAS_CPP20` (3) before `file_begin.hpp` defines it (7), so `<compare>` is never included there: in C++20 a file whose first header is
    `anyany/type_descriptor.hpp` does not compile, unless it or `<string>` or the like was included before. `uintptr_t` (type_descriptor.hpp:59) is used without `<cstdint>`.
    `ANYANY_NO_UNIQUE_ADDRESS` is not defined for compilers without `__has_cpp_attribute` (anyany.hpp:31-39). `frwd`, a macro of noexport/data_parallel_vector_details.hpp:54, is undefined
    even if it was a macro of the program. (C129)
66. Descriptors are names (noexport/type_descriptor_details.hpp:33-54), and names do not identify types as the comment at type_descriptor.hpp:23-24 says: with GCC and Clang `{anonymous}::X` is the same in every
    translation unit, with GCC all lambdas of a function with the same parameter types are called `f()::<lambda(int)>`, with Clang local types are called `X` whatever the function. `any_cast`, `type_switch` and `visit_invoke`
    take one for the other. With MSVC `class` and `struct` are removed at the beginning of a name only (43-48), so that `vector<X>` has two descriptors if `X` is declared with both. How the compilers write names is assumed,
    not read in /repo. (C131)
67. `runtime_const_correctness_check` (visit_invoke.hpp:83-104) finds the overload by the address of its function. With linkers that merge functions with the same code (which C++ does not allow for functions whose
    addresses are compared, but `/OPT:ICF` of MSVC does by default in optimised builds) it may find another one, and check that one's parameters. (C132)
68. `insert(pos, first, last)` of `data_parallel_vector` inserts one element after the other (data_parallel_vector.hpp:619-632): `m` elements before `n` others are `m * n` moves in each column, where `std::vector` has `n`. With
    random-access iterators it calls `reserve` with exactly the new size, so that `k` insertions of one element move all elements `k` times. Constructors from ranges and `assign` never reserve. (C133)
69. `assign` and assignment of `{...}` to a `data_parallel_vector` build a new container with a default constructed allocator and move it into the old one (data_parallel_vector.hpp:641-653, 398-401): memory that was reserved
    is given back, `capacity()` after `reserve(100); assign(0, v)` is 0, and every call allocates. `std::vector` keeps its memory. (C134; what happens to the allocator: C87)
70. Copy assignment of `basic_any` builds a temporary and moves it in (anyany.hpp:1253-1264): for values that do not fit the buffer every assignment allocates, although the target may own enough memory, and for equal or
    propagated allocators the memory of the target, for example what was reserved, is given back. Assignment of values keeps and uses the memory. (C135)

## 6. Axioms

Collected with `Lean.collectAxioms` for each property theorem.

* None: C102_default_fails, C103_value_exact, C103_value_partial, C105_assign, C105_value,
  C126_assignable, C36_fails.
* `propext` only: C03_deallocate_checks, C07_self, C105_columns, C105_equal, C105_operator,
  C105_order, C105_reference, C106_both_fails, C106_signature_fails, C106_stateless, C106_usable,
  C107_assign, C107_assign_exact, C107_assign_fails, C107_assign_partial, C107_assign_values,
  C107_compare, C107_compare_exact, C107_compare_fails, C107_convert_fails, C107_copy_fails,
  C107_read, C107_read_exact, C107_read_fails, C107_read_partial, C107_swap, C107_swap_values,
  C108_const, C110_made, C112_library_fails, C113_pointers_fails, C116_dtor_fails, C117_no_waiting,
  C119_dangling_fails, C121_insert_fails, C121_same_type_fails, C122_hash_distinguishes,
  C123_stable_fails, C125_empty_fails, C125_types_fails, C126_exact, C126_fancy_fails,
  C126_fromMore_fails, C126_partial, C126_stays_fails, C126_unmarked_fails, C127_allocator_fails,
  C127_cpp17_fails, C129_attribute_fails, C129_frwd_fails, C22_allocators_exact,
  C22_stateful_allocators_fail, C24_numberOfFirst_none, C27_filtered_by, C32_fails, C33_entries,
  C34_available, C50_traits, C50_valueless_fails, C56_begin_end, C58_visit, C58_visit_append,
  C59_category, C69_accepts, C69_exact, C69_rejects_partial, C77_const_methods_cannot_change,
  C77_parameter, C79_any_contains, C79_functions_fail, C82_lvalues_rejected, C82_references,
  C83_exact_partial, C86_copyAssign_fails, C87_copyAssign_exception_fails, C96_fails,
  C96_has_value_fails.
* `propext`, `Quot.sound`: C02_identities, C09_fails, C101_needs_exclusion, C103_const_fails,
  C104_needs_no_dlls, C106_compound, C106_const, C106_const_compound_fails, C106_kind_exact,
  C106_kind_partial, C108_exact, C108_parameters_exact, C109_array_argument_fails,
  C109_array_parameter_fails, C109_exact, C109_nullopt, C109_objects_partial, C110_copy_fails,
  C110_move_fails, C110_move_throws, C110_partial, C110_terminates_fails, C110_terminates_partial,
  C110_throws, C111_throws_fails, C112_exact, C112_others, C112_partial, C112_same_name_fails,
  C113_default, C113_exact, C113_twice_fails, C113_void_fails, C114_always_fails, C115_exact,
  C115_user_fails, C116_assign_fails, C116_copy_replaced_fails, C116_copy_reset_fails,
  C116_dtor_moved_fails, C116_emplace_fails, C116_left_fails, C116_memory_partial, C116_partial,
  C116_reset_fails, C116_throw_fails, C117_sharing_races, C120_disjoint, C120_list_endless_fails,
  C120_own_fails, C120_refines, C120_safe, C120_spoiled, C120_value_after_insert, C121_access,
  C121_ended, C121_no_race, C121_running, C121_safe, C122_order_fails, C123_in_place_fails,
  C127_never_rejects, C129_conditions_partial, C129_declared, C129_include_fails, C129_left,
  C129_macros_partial, C129_names_fails, C129_no_clash, C129_once, C129_order, C129_ordering_exact,
  C129_uintptr_exact, C129_uintptr_fails, C130_called, C130_no_overload, C130_same, C130_steps,
  C131_addresses, C131_libraries_fails, C132_different_addresses, C132_exact, C132_partial,
  C132_passes_const_fails, C132_refuses_fails, C133_append, C133_constructor_exact, C133_count,
  C133_many_ranges_fails, C133_program_sizes, C133_range_exact, C133_range_fails, C133_range_least,
  C133_range_partial, C133_single, C133_sizes, C133_vector, C134_allocator, C134_assign_exact,
  C134_assign_other_partial, C134_assign_range_exact, C134_capacity, C134_fails, C134_never_falls,
  C134_partial, C134_reserve, C134_rounds_fails, C134_sizes, C136_once, C14_fails,
  C15_force_stable_fails, C15_throwing_move_fails, C17_small_programs_never_allocate,
  C19_copy_assignment_fails, C21_fails, C22_throwing_copy_fails, C24_contains_subset,
  C24_numberOfFirst_some, C25_flatten_idempotent, C25_flatten_leaves, C25_flatten_nesting,
  C25_interfaceAlias, C26_any_with_has_destroy, C26_interface_of_any_with, C27_without_duplicates,
  C27_without_duplicates_idem, C28_equivalent_to, C29_all_covered, C29_construct_interface,
  C29_inherited_iff, C29_no_duplicates, C29_type_descriptor, C30_soo_buffer_size, C33_invoke,
  C44_calls, C44_nullopt, C44_unique, C45_before_a_value_partial, C45_exact, C45_fails,
  C45_same_count_partial, C45_trailing_fails, C46_never_passes_const, C46_no_const, C46_rejects,
  C46_static_check, C47_declaration_order, C47_lookup, C47_unique_keys, C49_compiles,
  C49_one_method_per_type, C50_any_cast, C50_any_cast_unique, C50_exact, C50_visit,
  C50_visit_nullopt, C54_compare, C54_eq, C56_access, C56_add, C56_add_add, C56_add_diff, C56_diff,
  C56_diff_add, C56_fails, C56_order, C56_step, C56_sub_exact, C56_sub_partial, C57_any_container,
  C57_visit_any, C58_copy_values, C58_visit_const, C58_visit_copy, C58_visit_ignore,
  C58_visit_writes, C59_count, C59_count_more, C59_get_none, C61_fails, C61_overaligned_fails,
  C63_steal_fails, C63_transmove_fails, C64_by_value_fails, C64_references_partial,
  C65_function_pointer_fails, C67_others, C67_program_throws, C67_throws, C69_const_rvalue_fails,
  C77_by_value_needs_copyable, C77_const_iff_not_mutable, C77_is_const_method, C77_pseudomethods,
  C77_regular_methods, C77_signature, C78_exact, C78_exist_for_fails, C78_exist_for_partial,
  C78_never_rejects, C79_any_decays, C79_arrays_fail, C79_arrays_pseudomethods, C79_exact, C79_made,
  C79_objects_partial, C80_exact, C83_arrays_fail, C83_const_correct, C83_exact, C83_in_place,
  C83_mutable, C83_no_stealing, C83_references_compile, C83_references_to_arrays_fail,
  C83_rvalue_references, C83_values, C83_values_compile, C86_copyAssign_exact,
  C86_copyAssign_partial, C86_others, C86_source, C86_strong, C86_visit, C88_insertOne,
  C89_copy_fails, C89_one_exact, C91_exact, C91_result_fails, C91_result_partial,
  C92_exceptions_partial, C92_fails, C92_nullopt, C92_terminates_exact, C93_index, C94_types,
  C95_copy_fails, C95_move_partial, C95_temporary, C96_exact, C96_partial,
  C99_accesses_are_the_operation, C99_accesses_complete, C99_needs_separation, C99_observers.
* `propext`, `Classical.choice`, `Quot.sound`: every other theorem named in MANIFEST.json.
