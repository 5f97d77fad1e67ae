import Verif.Model.Ctor
/-
Construction of anys by code that passes an allocator on (include/anyany/anyany.hpp:1190-1218, 1294-1372, 1460, 1955-1958). `std::uses_allocator` is specialised for anys (1957-1958), so
`std::tuple` with `std::allocator_arg`, `std::scoped_allocator_adaptor`, `std::pmr::polymorphic_allocator` and `std::make_obj_using_allocator` do not construct an any of type `a` with the
allocator type of that specialisation from `args...` but by uses-allocator construction ([allocator.uses.construction]): from `std::allocator_arg, alloc, args...` if the any is constructible
so, otherwise from `args..., alloc` if it is constructible so; otherwise the program is ill-formed. Which constructor one argument selects is in Model/Ctor.lean.
Left out, as there: `std::initializer_list`; arguments that convert to an allocator or to a tag.
-/
namespace AnyAny.UsesAlloc
open AnyAny.Ctor (Meth AnyTy Ty Act)

/-- Decayed types of arguments: `std::in_place_type_t<T>`, `aa::force_stable_pointers_t`, `std::allocator_arg_t`, the allocator type of the any, and all others. The types the constructors
at anyany.hpp:1294-1372 distinguish. -/
inductive ATy where
  | of (t : Ty)
  | inPlace (t : Ty)
  | stable
  | allocArg
  | alloc
deriving DecidableEq, Repr

/-- Arguments: type, constness, lvalue or rvalue (anyany.hpp:1190-1372). -/
structure Arg where
  ty : ATy
  const : Bool
  rvalue : Bool
deriving DecidableEq, Repr

/-- The allocator of a new any: default-constructed, the one passed to the constructor, or one got from the allocator of another any (anyany.hpp:1122, 1199, 1216, 1314, 1320, 1332). -/
inductive Alloc where
  | dflt
  | given
  | other
deriving DecidableEq, Repr

/-- What a new any has: nothing, an object of this type constructed from these arguments (in allocated memory in any case if `stable`), or the value of the any that was the argument, copied or
moved. (The bodies of the constructors, anyany.hpp:1190-1218, 1294-1372.) -/
inductive Contents where
  | empty
  | value (t : ATy) (args : List Arg) (stable : Bool)
  | ofAny (act : Act)
deriving DecidableEq, Repr

/-- A new any (anyany.hpp:1115-1122). -/
structure Made where
  alloc : Alloc
  contents : Contents
deriving DecidableEq, Repr

/-- `exist_for<T, Methods...>` (anyany.hpp:216-227). -/
def existFor (ex : ATy → Meth → Bool) (t : ATy) (a : AnyTy) : Bool := a.methods.all (ex t)

/-- What the constructor from a value or an any makes (anyany.hpp:1198-1218, 1308-1313, 1326-1348): copies select their allocator, moves take it, transmutating moves do not. -/
def madeBy (x : Arg) : Act → Made
  | .contain t => ⟨.dflt, .value (.of t) [x] false⟩
  | .transmuteMove => ⟨.dflt, .ofAny .transmuteMove⟩
  | act => ⟨.other, .ofAny act⟩

/-- `basic_any(x)`: the constructors of Model/Ctor.lean, and, if `x` is `std::in_place_type<T>`, the one that makes a `T` without arguments (anyany.hpp:1294-1299), which is more specialised than
`basic_any(T&&)` (1308-1313). -/
def one (ex : ATy → Meth → Bool) (a : AnyTy) (x : Arg) : Option Made :=
  match x.ty with
  | .of t => (Ctor.construct (fun t => ex (.of t)) a ⟨t, x.const, x.rvalue⟩).map (madeBy x)
  | .inPlace t =>
    if existFor ex (.of t) a then some ⟨.dflt, .value (.of t) [] false⟩
    else if existFor ex x.ty a then some ⟨.dflt, .value x.ty [x] false⟩
    else none
  | t => if existFor ex t a then some ⟨.dflt, .value t [x] false⟩ else none

/-- `is_polymorphic` (type_descriptor.hpp:88) of the types of arguments. -/
def ATy.isPolymorphic : ATy → Bool
  | .of t => Ctor.isPolymorphic t
  | _ => false

/-- `basic_any(aa::force_stable_pointers, x, args...)` (anyany.hpp:1352-1372). -/
def stable (ex : ATy → Meth → Bool) (a : AnyTy) (x : Arg) (args : List Arg) : Option Made :=
  match x.ty with
  | .inPlace t =>
    if existFor ex (.of t) a then some ⟨.dflt, .value (.of t) args true⟩
    else if args.isEmpty && existFor ex x.ty a then some ⟨.dflt, .value x.ty [x] true⟩
    else none
  | t => if args.isEmpty && !t.isPolymorphic && existFor ex t a then some ⟨.dflt, .value t [x] true⟩ else none

/-- `basic_any(std::allocator_arg, x, args...)` (anyany.hpp:1314-1322). -/
def withAlloc (ex : ATy → Meth → Bool) (a : AnyTy) (x : Arg) (args : List Arg) : Option Made :=
  match x.ty, args with
  | .alloc, [] => some ⟨.given, .empty⟩
  | .alloc, [y] => if existFor ex y.ty a then some ⟨.given, .value y.ty [y] false⟩ else none
  | _, _ => none

/-- The constructor that `basic_any(args...)` selects (anyany.hpp:1190-1218, 1294-1372); `none`: there is none. -/
def ctor (ex : ATy → Meth → Bool) (a : AnyTy) : List Arg → Option Made
  | [] => some ⟨.dflt, .empty⟩
  | [x] => one ex a x
  | x :: y :: r =>
    match x.ty with
    | .inPlace t => if existFor ex (.of t) a then some ⟨.dflt, .value (.of t) (y :: r) false⟩ else none
    | .stable => stable ex a y r
    | .allocArg => withAlloc ex a y r
    | _ => none

/-- Arguments `std::allocator_arg` and `const Alloc&`. Language rule ([allocator.uses.construction]), for anyany.hpp:1957-1958. -/
def tag : Arg := ⟨.allocArg, true, false⟩
/-- The allocator that is passed on ([allocator.uses.construction]; anyany.hpp:1957-1958). -/
def given : Arg := ⟨.alloc, true, false⟩

/-- `std::uses_allocator_construction_args<basic_any>(alloc, args...)`, with `std::uses_allocator<basic_any, Alloc>` true (anyany.hpp:1957-1958). -/
def argsFor (ex : ATy → Meth → Bool) (a : AnyTy) (args : List Arg) : Option (List Arg) :=
  if (ctor ex a (tag :: given :: args)).isSome then some (tag :: given :: args)
  else if (ctor ex a (args ++ [given])).isSome then some (args ++ [given])
  else none

/-- An any after its construction, with the anys it contains: empty, with an object of a type that is no any, with the value of the any that was the argument, with an any. (The states
after the constructors at anyany.hpp:1190-1218, 1294-1372.) -/
inductive New where
  | empty (al : Alloc)
  | object (al : Alloc) (t : ATy) (args : List Arg) (stable : Bool)
  | ofAny (al : Alloc) (act : Act)
  | nested (al : Alloc) (b : AnyTy) (inner : New) (stable : Bool)
deriving DecidableEq, Repr

/-- Outcomes of a construction: done, the program is ill-formed, or not finished after so many nested calls. Language rule, for anyany.hpp:1190-1372. -/
inductive Out where
  | made (x : New)
  | illFormed
  | unfinished
deriving DecidableEq, Repr

/-- `basic_any a(args...)` (anyany.hpp:1190-1218, 1294-1372, 1457-1462), with at most `fuel` constructors of anys active. `con t args`: a `t`, which is no any, can be constructed from `args` (that is
not part of the constraints). A contained any is constructed by `alloc_traits::construct(alloc, ptr, args...)` (1460): if the allocator passes itself on (`passes`) and the contained any has
the same allocator type, from `argsFor`, otherwise from the arguments. -/
def make (passes : Bool) (con : ATy → List Arg → Bool) (ex : ATy → Meth → Bool) : Nat → AnyTy → List Arg → Out
  | 0, _, _ => .unfinished
  | n + 1, a, args =>
    match ctor ex a args with
    | none => .illFormed
    | some ⟨al, .empty⟩ => .made (.empty al)
    | some ⟨al, .ofAny act⟩ => .made (.ofAny al act)
    | some ⟨al, .value (.of (.any b)) as s⟩ =>
      match if passes && b.alloc == a.alloc then argsFor ex b as else some as with
      | none => .illFormed
      | some as =>
        match make passes con ex n b as with
        | .made x => .made (.nested al b x s)
        | o => o
    | some ⟨al, .value t as s⟩ => if con t as then .made (.object al t as s) else .illFormed

/-- Uses-allocator construction of an any (anyany.hpp:1957-1958), as by `std::make_obj_using_allocator<basic_any>(alloc, args...)`. -/
def makeUsing (passes : Bool) (con : ATy → List Arg → Bool) (ex : ATy → Meth → Bool) (n : Nat) (a : AnyTy) (args : List Arg) : Out :=
  match argsFor ex a args with
  | none => .illFormed
  | some args => make passes con ex n a args

end AnyAny.UsesAlloc
