/-
Model of the preprocessor directives of the headers (include/anyany/*.hpp and include/anyany/noexport/*.hpp): which headers include which, the macros
they define, use and undefine, and, for code that is compiled at once (no templates), which standard headers it needs.

Simplifications: of the code of a header only the places where it uses macros of the library are there, and one event for its declarations as a whole.
Of standard headers only two things matter: whether they declare the types of `<compare>` and `uintptr_t` (`<cstdint>`). Replacement lists of macros
are not modelled: within one translation unit a macro of the library is always defined in the same way. `#if`s on compilers and language versions are
in `Config`.
-/
namespace AnyAny.Headers

/-- The files of include/anyany (anyany.hpp:1, anyany_macro.hpp:1, data_parallel_vector.hpp:1, type_descriptor.hpp:1, utility.hpp:1, variant_swarm.hpp:1,
visit_invoke.hpp:1) and of include/anyany/noexport (file_begin.hpp:1-73, file_end.hpp:1-12, common.hpp:1-26, …). -/
inductive File where
  | fileBegin
  | fileEnd
  | common
  | typeDescriptorDetails
  | anyanyDetails
  | visitInvokeDetails
  | variantSwarmDetails
  | dataParallelVectorDetails
  | typeDescriptor
  | anyany
  | anyanyMacro
  | visitInvoke
  | utility
  | variantSwarm
  | dataParallelVector
deriving DecidableEq, Repr

/-- The macros: those of noexport/file_begin.hpp:4-73, of anyany.hpp:33-37, 116-117, 578, 1015, 1528, 1769, 1929, of
noexport/data_parallel_vector_details.hpp:54, and those of anyany_macro.hpp:22-152 (`method`: `anyany_method`, `anyany_extern_method`,
`anyany_pseudomethod`; `helper`: the ones they use, here as one). -/
inductive Mac where
  | hasCpp20
  | concept
  | ifHasCpp20
  | consteval
  | unreachable
  | alwaysInline
  | cantGetTypename
  | constexprTypeDescriptor
  | msvcEbo
  | msvcWorkaround
  | isValid
  | lifetimebound
  | noUniqueAddress
  | simpleMethodConcept
  | methodConcept
  | rebind
  | vtableCall
  | materialize
  | typeDescriptorMethod
  | callImpl
  | frwd
  | helper
  | method
deriving DecidableEq, Repr

/-- Who defined a macro. No code of the library; for the macros of noexport/file_begin.hpp:4-73. -/
inductive Who where
  | library
  | program
deriving DecidableEq, Repr

/-- Declarations of the standard library: `std::strong_ordering` and the like (noexport/type_descriptor_details.hpp:26, type_descriptor.hpp:50, 57,
anyany.hpp:1833, noexport/data_parallel_vector_details.hpp:314), `uintptr_t` (type_descriptor.hpp:59). -/
inductive Need where
  | ordering
  | uintptr
deriving DecidableEq, Repr

/-- The translation unit: C++20 or 17 (file_begin.hpp:3-11); whether names of types are not used: another compiler than GCC, Clang and MSVC
(file_begin.hpp:26-30), or `ANYANY_ASSUME_NO_DLLS` defined (31-34); whether the compiler has `__has_cpp_attribute` (anyany.hpp:31). -/
structure Config where
  cpp20 : Bool
  noTypename : Bool
  hasAttribute : Bool
deriving DecidableEq, Repr

/-- Directives, and code between them. Language rule, no code of the library; the lines of e.g. noexport/type_descriptor_details.hpp:1-61. -/
inductive Line where
  /-- `#include` of a file of the library -/
  | inc (f : File)
  /-- `#include` of a standard header that declares this; other standard headers are left out -/
  | std (n : Need)
  /-- the same between `#ifdef m` and `#endif` -/
  | stdIf (m : Mac) (n : Need)
  | define (m : Mac)
  | undef (m : Mac)
  /-- `#ifdef m` or `#ifndef m` that selects code -/
  | ask (m : Mac)
  /-- code with the macro in it -/
  | use (m : Mac)
  /-- code that is compiled here and needs the declaration -/
  | need (n : Need)
  /-- all other code of the file -/
  | code
deriving DecidableEq, Repr

/-- The macros of file_begin.hpp:4-73; `AA_HAS_CPP20` only in C++20 (4), `AA_CANT_GET_TYPENAME` only for such compilers or with `ANYANY_ASSUME_NO_DLLS`
(29, 33: there it is undefined first). -/
def beginMacros (c : Config) : List Mac :=
  (if c.cpp20 then [.hasCpp20] else []) ++ [.concept, .ifHasCpp20, .consteval, .unreachable, .alwaysInline] ++
  (if c.noTypename then [.cantGetTypename] else []) ++ [.constexprTypeDescriptor, .msvcEbo, .msvcWorkaround, .isValid, .lifetimebound]

/-- `#undef`s of file_end.hpp:1-12. -/
def endMacros : List Mac :=
  [.hasCpp20, .concept, .ifHasCpp20, .consteval, .unreachable, .alwaysInline, .msvcEbo, .msvcWorkaround, .isValid, .cantGetTypename,
   .constexprTypeDescriptor, .lifetimebound]

/-- `<utility>`, `<tuple>`, `<vector>`, `<optional>`, `<memory>`, `<string_view>`, `<ranges>`, `<array>`, `<variant>` include `<compare>` in C++20. Language
rule, no code of the library; for the `#include`s at anyany.hpp:17-19, type_descriptor.hpp:15-16, visit_invoke.hpp:15-16. -/
def withCompare (c : Config) : List Line := if c.cpp20 then [.std .ordering] else []

/-- The code that uses the types of `<compare>`, in C++20 only. Language rule, no code of the library; for type_descriptor.hpp:44-62,
noexport/type_descriptor_details.hpp:25-29, anyany.hpp:1828-1874. -/
def needsCompare (c : Config) : List Line := if c.cpp20 then [.need .ordering] else []

/-- noexport/type_descriptor_details.hpp:1-61. The condition of the `#include <compare>` (3-5) is before `file_begin.hpp` (7). -/
def typeDescriptorDetailsLines (c : Config) : List Line :=
  [.stdIf .hasCpp20 .ordering, .inc .fileBegin, .ask .cantGetTypename] ++
  (if c.noTypename then [] else [.use .consteval, .ask .hasCpp20] ++ needsCompare c) ++ [.code, .inc .fileEnd]

/-- type_descriptor.hpp:13-139. -/
def typeDescriptorLines (c : Config) : List Line :=
  [.inc .typeDescriptorDetails] ++ withCompare c ++ [.inc .fileBegin, .ask .cantGetTypename, .ask .hasCpp20, .use .constexprTypeDescriptor] ++ needsCompare c ++
  (if c.noTypename && c.cpp20 then [.need .uintptr] else []) ++ [.use .isValid, .code, .inc .fileEnd]

/-- noexport/anyany_details.hpp:1-438. -/
def anyanyDetailsLines (c : Config) : List Line :=
  withCompare c ++ [.inc .common, .inc .fileBegin, .use .consteval, .use .alwaysInline, .use .msvcEbo, .use .isValid, .code, .inc .fileEnd]

/-- anyany.hpp:17-2032; `ANYANY_NO_UNIQUE_ADDRESS` is not defined by compilers without `__has_cpp_attribute` (31-39). -/
def anyanyLines (c : Config) : List Line :=
  withCompare c ++ [.inc .typeDescriptor, .inc .anyanyDetails, .inc .fileBegin] ++ (if c.hasAttribute then [.define .noUniqueAddress] else []) ++
  [.ask .hasCpp20, .define .simpleMethodConcept, .define .methodConcept, .use .consteval, .use .methodConcept, .use .simpleMethodConcept,
   .use .isValid, .use .alwaysInline, .define .rebind, .use .rebind, .use .lifetimebound, .use .noUniqueAddress, .undef .rebind,
   .define .vtableCall, .use .vtableCall, .undef .vtableCall, .use .unreachable, .use .ifHasCpp20, .define .materialize, .use .materialize,
   .undef .materialize, .use .concept, .define .typeDescriptorMethod, .use .typeDescriptorMethod] ++ needsCompare c ++
  [.undef .typeDescriptorMethod, .define .callImpl, .use .callImpl, .undef .callImpl, .code, .inc .fileEnd, .undef .simpleMethodConcept,
   .undef .methodConcept, .undef .noUniqueAddress]

/-- The lines of the files: file_begin.hpp:1-73, file_end.hpp:1-12, common.hpp:1-26, noexport/visit_invoke_details.hpp:1-82,
noexport/variant_swarm_details.hpp:1-73, noexport/data_parallel_vector_details.hpp:1-323 (`frwd`: 54-223), anyany_macro.hpp:6-152 (its macros remain
defined), visit_invoke.hpp:15-169, utility.hpp:13-17, variant_swarm.hpp:14-19, data_parallel_vector.hpp:21-28. -/
def lines (c : Config) : File → List Line
  | .fileBegin => (beginMacros c).map .define
  | .fileEnd => endMacros.map .undef
  | .common => [.code]
  | .typeDescriptorDetails => typeDescriptorDetailsLines c
  | .anyanyDetails => anyanyDetailsLines c
  | .visitInvokeDetails => withCompare c ++ [.inc .anyanyDetails, .inc .fileBegin, .use .ifHasCpp20, .code, .inc .fileEnd]
  | .variantSwarmDetails => withCompare c ++ [.inc .fileBegin, .use .msvcEbo, .code, .inc .fileEnd]
  | .dataParallelVectorDetails => withCompare c ++ [.define .frwd, .use .frwd, .undef .frwd] ++ needsCompare c ++ [.code]
  | .typeDescriptor => typeDescriptorLines c
  | .anyany => anyanyLines c
  | .anyanyMacro => [.inc .common, .define .helper, .define .method, .code]
  | .visitInvoke => withCompare c ++ [.inc .typeDescriptor, .inc .visitInvokeDetails, .inc .fileBegin, .use .consteval, .code, .inc .fileEnd]
  | .utility => [.inc .anyany] ++ withCompare c ++ [.code]
  | .variantSwarm => withCompare c ++ [.inc .variantSwarmDetails, .code]
  | .dataParallelVector => withCompare c ++ [.inc .dataParallelVectorDetails, .code]

/-- `#pragma once` (anyany.hpp:1 and the first line of all others except file_begin.hpp:1-2 and file_end.hpp:1). -/
def pragmaOnce : File → Bool
  | .fileBegin | .fileEnd => false
  | _ => true

/-- What happens when a translation unit is preprocessed and compiled. Language rule, no code of the library; for
noexport/type_descriptor_details.hpp:1-61. -/
inductive Event where
  /-- the declarations of the file -/
  | decls (f : File)
  /-- code of the file uses the macro, which is defined by … or not at all -/
  | used (f : File) (m : Mac) (who : Option Who)
  /-- the file asks if the macro is defined -/
  | asked (f : File) (m : Mac) (answer : Bool)
  /-- the file asks if the macro is defined, before it includes a standard header -/
  | askedInclude (f : File) (m : Mac) (answer : Bool)
  /-- a standard header with the declaration is included -/
  | std (n : Need)
  /-- code of the file needs the declaration -/
  | needed (f : File) (n : Need)
  /-- a macro that the program defined is defined by the library: ill-formed unless both definitions are the same -/
  | redefined (m : Mac)
  /-- a macro that the program defined is undefined by the library -/
  | lost (m : Mac)
  /-- files include each other too deeply -/
  | tooDeep
deriving DecidableEq, Repr

/-- Macros that are defined, files that are not included again. No code of the library: the state
of the preprocessor, for anyany.hpp:1-39. -/
structure State where
  macros : List (Mac × Who)
  done : List File
deriving DecidableEq, Repr

/-- Language rule, no code of the library: the definition of a macro, for the `#ifdef`s of type_descriptor.hpp:41-68. -/
def State.who (s : State) (m : Mac) : Option Who := (s.macros.find? fun x => x.1 == m).map (·.2)

/-- All files, in a fixed order (no code of the library; for anyany.hpp:1). -/
def allFiles : List File :=
  [.fileBegin, .fileEnd, .common, .typeDescriptorDetails, .anyanyDetails, .visitInvokeDetails, .variantSwarmDetails, .dataParallelVectorDetails,
   .typeDescriptor, .anyany, .anyanyMacro, .visitInvoke, .utility, .variantSwarm, .dataParallelVector]

/-- Language rule, no code of the library: a file with `#pragma once` (anyany.hpp:1) has been included. -/
def markDone (f : File) (l : List File) : List File := allFiles.filter fun g => g == f || l.contains g

/-- Language rule, no code of the library: `#define` (file_begin.hpp:4-73). -/
def State.define (s : State) (m : Mac) (w : Who) : State × List Event :=
  ({ s with macros := (m, w) :: s.macros.filter fun x => x.1 != m }, if s.who m = some .program ∧ w = .library then [.redefined m] else [])

/-- Language rule, no code of the library: `#undef` (file_end.hpp:1-12). -/
def State.undef (s : State) (m : Mac) : State × List Event :=
  ({ s with macros := s.macros.filter fun x => x.1 != m }, if s.who m = some .program then [.lost m] else [])

/-- Language rule, no code of the library: a line of the file `f` other than an `#include` of a file of the library (type_descriptor.hpp:13-139). -/
def line (f : File) (s : State) : Line → State × List Event
  | .inc _ => (s, [])
  | .std n => (s, [.std n])
  | .stdIf m n => (s, .askedInclude f m (s.who m).isSome :: if (s.who m).isSome then [.std n] else [])
  | .define m => s.define m .library
  | .undef m => s.undef m
  | .ask m => (s, [.asked f m (s.who m).isSome])
  | .use m => (s, [.used f m (s.who m)])
  | .need n => (s, [.needed f n])
  | .code => (s, [.decls f])

/-- Language rule, no code of the library: the lines of a file in order (type_descriptor.hpp:13-139), where `inc` includes others. -/
def runLines (inc : File → State → State × List Event) (f : File) : List Line → State → State × List Event
  | [], s => (s, [])
  | l :: ls, s =>
    let r := match l with
      | .inc g => inc g s
      | l => line f s l
    let q := runLines inc f ls r.1
    (q.1, r.2 ++ q.2)

/-- `#include` of a file of the library (anyany.hpp:21-25), to the given depth. -/
def include_ (c : Config) : Nat → File → State → State × List Event
  | 0, _, s => (s, [.tooDeep])
  | n + 1, f, s =>
    if pragmaOnce f && s.done.contains f then (s, [])
    else runLines (include_ c n) f (lines c f) (if pragmaOnce f then { s with done := markDone f s.done } else s)

/-- What a program does before, between and after its own code: it includes headers of the library, standard headers, and defines macros. No code of the
library; as tests/test_anyany.cpp:1-13. -/
inductive Item where
  | header (f : File)
  | std (n : Need)
  | define (m : Mac)
deriving DecidableEq, Repr

/-- No code of the library: one such line (tests/test_anyany.cpp:1-13). -/
def item (c : Config) (s : State) : Item → State × List Event
  | .header f => include_ c 6 f s
  | .std n => (s, [.std n])
  | .define m => s.define m .program

/-- No code of the library: the lines in order (tests/test_anyany.cpp:1-13). -/
def run (c : Config) : List Item → State → State × List Event
  | [], s => (s, [])
  | i :: is, s =>
    let r := item c s i
    let q := run c is r.1
    (q.1, r.2 ++ q.2)

/-- The state at the beginning of a translation unit. No code of the library; before tests/test_anyany.cpp:1. -/
def start : State := ⟨[], []⟩

end AnyAny.Headers
