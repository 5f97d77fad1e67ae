import Verif.Model.Descriptor
/-
The names that `n<T>()` finds in `__PRETTY_FUNCTION__` (noexport/type_descriptor_details.hpp:33-54), as GCC and Clang write them.

How compilers write names is not code of the library: the functions below state what it relies on. Characters are integers as in Model/Descriptor.lean. Spaces
that separate tokens, the arguments of function templates in `[with T = ...]`, cv-qualifiers, types of functions and arrays, and default arguments are left out. MSVC is at the end, with fewer types
(see also `stripMsvc` in Model/Descriptor.lean).
-/
namespace AnyAny.Names

/-- What a part of a qualified name is: a namespace, class, enumeration or fundamental type; a specialisation of a template; the unnamed namespace of a translation unit; a
function with its parameter types; a lambda, by its number in the program, and the place where it is written (`file:line:column`); or a pointer to what precedes.
Types for which `n<T>()` is instantiated (noexport/type_descriptor_details.hpp:35-36). -/
inductive Kind where
  | id (n : List Int)
  | templ (n : List Int)
  | anon (tu : Nat)
  | fn (n : List Int)
  | lambda (no : Nat) (place : List Int)
  | ptr
  deriving DecidableEq, Repr

mutual
/-- An entity: its parts from the outermost to the innermost, each with arguments (of templates, functions and lambdas). Not part of the library; see
noexport/type_descriptor_details.hpp:35-36. -/
inductive Ent where
  | nil
  | cons (k : Kind) (args : Ents) (rest : Ent)
/-- Lists of entities (the same place). -/
inductive Ents where
  | nil
  | cons (e : Ent) (rest : Ents)
end

/-- The compilers for which names are used (noexport/type_descriptor_details.hpp:37-40). -/
inductive Compiler where
  | gcc
  | clang
  deriving DecidableEq, Repr

/-- Is it a function? (noexport/type_descriptor_details.hpp:37-40; a type inside a function is local.) -/
def Kind.isFn : Kind → Bool
  | .fn _ => true
  | _ => false

/-- Is it a pointer? (the same place.) -/
def Kind.isPtr : Kind → Bool
  | .ptr => true
  | _ => false

/-- Is the entity, or a part of it, a function? (the same place.) -/
def Ent.hasFn : Ent → Bool
  | .nil => false
  | .cons k _ rest => k.isFn || rest.hasFn

/-- `{anonymous}` -/
def gccAnon : List Int := [123, 97, 110, 111, 110, 121, 109, 111, 117, 115, 125]
/-- `(anonymous namespace)` -/
def clangAnon : List Int := [40, 97, 110, 111, 110, 121, 109, 111, 117, 115, 32, 110, 97, 109, 101, 115, 112, 97, 99, 101, 41]
/-- `<lambda(` -/
def gccLambda : List Int := [60, 108, 97, 109, 98, 100, 97, 40]
/-- `(lambda at ` -/
def clangLambda : List Int := [40, 108, 97, 109, 98, 100, 97, 32, 97, 116, 32]

/-- One part, its arguments written already: `x`, `x<args>`, `{anonymous}` or `(anonymous namespace)`, `f(args)`, `<lambda(args)>` or `(lambda at place)`, `*`.
(`__PRETTY_FUNCTION__`, noexport/type_descriptor_details.hpp:37-40.) -/
def pKind : Compiler → Kind → List Int → List Int
  | _, .id n, _ => n
  | _, .templ n, as => n ++ 60 :: (as ++ [62])
  | .gcc, .anon _, _ => gccAnon
  | .clang, .anon _, _ => clangAnon
  | _, .fn n, as => n ++ 40 :: (as ++ [41])
  | .gcc, .lambda _ _, as => gccLambda ++ (as ++ [41, 62])
  | .clang, .lambda _ place, _ => clangLambda ++ (place ++ [41])
  | _, .ptr, _ => [42]

mutual
/-- A qualified name: the parts separated by `::`. Clang leaves out functions and all around them (`TypePrinter::AppendScope`).
(`__PRETTY_FUNCTION__`, noexport/type_descriptor_details.hpp:37-40.) -/
def pEnt (c : Compiler) : Bool → Ent → List Int
  | _, .nil => []
  | first, .cons k as rest =>
    if c = .clang ∧ (k.isFn || rest.hasFn) = true then pEnt c true rest
    else (if first || k.isPtr then [] else [58, 58]) ++ pKind c k (pEnts c true as) ++ pEnt c false rest
/-- Arguments, separated by `, ` (the same place). -/
def pEnts (c : Compiler) : Bool → Ents → List Int
  | _, .nil => []
  | first, .cons e es => (if first then [] else [44, 32]) ++ pEnt c true e ++ pEnts c false es
end

/-- `n<T>()` (noexport/type_descriptor_details.hpp:35-40): the part of `__PRETTY_FUNCTION__` that follows `T = `, up to its end: with the `]`. -/
def name (c : Compiler) (t : Ent) : List Int := pEnt c true t ++ [93]

/-! ### MSVC -/

/-- The keyword a class was declared with, which `__FUNCSIG__` repeats (noexport/type_descriptor_details.hpp:42-44). -/
inductive Kw where
  | cls
  | strct
  deriving DecidableEq, Repr

/-- `class`, `struct` (noexport/type_descriptor_details.hpp:45-48). -/
def kwText : Kw → List Int
  | .cls => [99, 108, 97, 115, 115]
  | .strct => [115, 116, 114, 117, 99, 116]

mutual
/-- Types: fundamental ones, and classes (by number), with their qualified names and template arguments (`none` if they are no templates).
(noexport/type_descriptor_details.hpp:41-50.) -/
inductive Mt where
  | fund (n : List Int)
  | named (id : Nat) (n : List Int) (args : Mts)
/-- Template arguments. (The same place.) -/
inductive Mts where
  | none
  | nil
  | cons (t : Mt) (rest : Mts)
end

mutual
/-- `__FUNCSIG__` writes the keyword in front of every class; `kw` are the keywords of the declarations in the translation unit. Spaces between `>` are left out.
(noexport/type_descriptor_details.hpp:42.) -/
def pMt (kw : Nat → Kw) : Mt → List Int
  | .fund n => n
  | .named id n as => kwText (kw id) ++ 32 :: (n ++ pMts kw 60 as)
/-- `<args>` (the same place); `sep` is `<` or `,`. -/
def pMts (kw : Nat → Kw) : Int → Mts → List Int
  | _, .none => []
  | _, .nil => [62]
  | sep, .cons t ts => sep :: (pMt kw t ++ pMts kw 44 ts)
end

/-- `n<T>()` with MSVC (noexport/type_descriptor_details.hpp:41-50): what follows `n<`, to the end, `>(void)` and the terminator, without the keyword at the beginning. -/
def nameMsvc (kw : Nat → Kw) (t : Mt) : Option (List Int) := Descriptor.stripMsvc (kwText .cls) (kwText .strct) (pMt kw t ++ ([62, 40, 118, 111, 105, 100, 41] ++ [0]))

end AnyAny.Names
