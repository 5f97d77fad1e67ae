/-
Model of `visit_invoke_fn` (include/anyany/visit_invoke.hpp:31-165) and its overload table
(noexport/visit_invoke_details.hpp:13-83).

Types are represented by their descriptors `D`, compared by `lt` (see C42, C43); `void` is the descriptor of
`void`. An overload is its list of parameters; its position in the list stands for the function pointer
`&match_invoker<F, Ts...>`, assumed to be different for different overloads.
-/
namespace AnyAny.Visit

variable {D A : Type} [DecidableEq D]

/-- How a parameter of an overload is declared: `T`, `T&`, `const T&`, `T&&`, `const T&&`. The
    arguments of the signatures in noexport/visit_invoke_details.hpp:18-37. -/
inductive Pass where
  | value
  | lref
  | constLref
  | rref
  | constRref
deriving DecidableEq, Repr

/-- `is_const_arg<T>()` (noexport/visit_invoke_details.hpp:14-17):
`!is_reference || is_const<remove_reference>`. -/
def isConstArg : Pass → Bool
  | .value | .constLref | .constRref => true
  | .lref | .rref => false

/-- What the overload receives: the result of `static_cast<Ts&&>(*ptr)` (visit_invoke.hpp:113). -/
inductive Mode where
  | lvalue
  | constLvalue
  | xvalue
  | constXvalue
deriving DecidableEq, Repr

/-- `Ts&&` by reference collapsing. (visit_invoke.hpp:106-116.) -/
def castMode : Pass → Mode
  | .value => .xvalue
  | .lref => .lvalue
  | .constLref => .constLvalue
  | .rref => .xvalue
  | .constRref => .constXvalue

/-- A parameter: descriptor of the decayed type, and how it is declared.
    (noexport/visit_invoke_details.hpp:18-37.) -/
structure Param (D : Type) where
  desc : D
  pass : Pass
deriving DecidableEq, Repr

/-- What an overload is: a lambda without captures, or a function pointer
(noexport/visit_invoke_details.hpp:18-37 and the comment at visit_invoke.hpp:162). -/
inductive Callee where
  | lambda
  | functionPointer
deriving DecidableEq, Repr

/-- (noexport/visit_invoke_details.hpp:18-37; visit_invoke.hpp:35-42.) -/
structure Overload (D : Type) where
  params : List (Param D)
  callee : Callee := .lambda
deriving DecidableEq, Repr

/-- An argument of `resolve`: `get_type_descriptor`, whether `to_address` returns `const void*`, and the
address (`A` is the type of addresses). (visit_invoke.hpp:137-158.) -/
structure Arg (D A : Type) where
  desc : D
  isConst : Bool
  addr : Option A
deriving DecidableEq, Repr

/-- `std::less<std::array<descriptor_t, N>>`: lexicographic. Not part of the library; used by the
    map (noexport/visit_invoke_details.hpp:40-81). -/
def keyLt (lt : D → D → Bool) : List D → List D → Bool
  | a :: as, b :: bs => if lt a b then true else if lt b a then false else keyLt lt as bs
  | [], _ :: _ => true
  | _, [] => false

/-- `std::lower_bound`: `below i` says that element `i` is less than the key; `fuel` bounds the number of
iterations and is the length. Not part of the library; used by the map
  (noexport/visit_invoke_details.hpp:40-81). -/
def lowerBound (below : Nat → Bool) : (fuel first len : Nat) → Nat
  | 0, first, _ => first
  | fuel + 1, first, len =>
    if len = 0 then first
    else
      let half := len / 2
      if below (first + half) then lowerBound below fuel (first + half + 1) (len - half - 1)
      else lowerBound below fuel first half

/-- `flat_map::find` (noexport/visit_invoke_details.hpp:68-74) in a sorted table. -/
def find {V : Type} (lt : D → D → Bool) (tbl : List (List D × V)) (key : List D) : Option V :=
  let it := lowerBound (fun i => match tbl[i]? with | some e => keyLt lt e.1 key | none => false) tbl.length 0 tbl.length
  match tbl[it]? with
  | none => none
  | some e => if keyLt lt key e.1 then none else some e.2

/-- The test for unique keys in the constructor (noexport/visit_invoke_details.hpp:58-65): `std::unique` on the sorted
keys removes nothing. -/
def keysUnique {V : Type} (lt : D → D → Bool) : List (List D × V) → Bool
  | a :: b :: l => !(!keyLt lt a.1 b.1 && !keyLt lt b.1 a.1) && keysUnique lt (b :: l)
  | _ => true

/-- `args_count = max(traits<Foos>::args_count...)` (visit_invoke.hpp:37). -/
def argsCount : List (Overload D) → Nat
  | [] => 0
  | f :: fs => max f.params.length (argsCount fs)

variable (void : D)

/-- `key_type{...}` with `n` elements: the missing ones are `descriptor_t()`, the descriptor of `void`
(visit_invoke.hpp:120-124, 147-148). -/
def padKey (n : Nat) (ds : List D) : List D := ds ++ List.replicate (n - ds.length) void

/-- `make_key_value_pair_for<Foos>()...` (visit_invoke.hpp:118-124, 128-129). -/
def pairs (n : Nat) (fs : List (Overload D)) : List (List D × Nat) :=
  fs.zipIdx.map fun p => (padKey void n (p.1.params.map (·.desc)), p.2)

/-- `verify_const_correctness` (visit_invoke.hpp:52-82): some overload may accept the arguments, looking only
at const. Parameters that an overload does not have accept const. -/
def verifyConst (fs : List (Overload D)) (consts : List Bool) : Bool :=
  let n := argsCount fs
  let bitset := consts ++ List.replicate (n - consts.length) false
  fs.any fun f =>
    let arr := f.params.map (fun p : Param D => isConstArg p.pass) ++ List.replicate (n - f.params.length) true
    (arr.zip bitset).all fun p => !(!p.1 && p.2)

/-- `runtime_const_correctness_check` (visit_invoke.hpp:83-104) for the winner `f`. -/
def constCheck (n : Nat) (f : Overload D) (args : List (Arg D A)) : Bool :=
  let arr := f.params.map (fun p : Param D => isConstArg p.pass) ++ List.replicate (n - f.params.length) true
  (args.zip arr).all fun p => !(p.1.isConst && !p.2)

/-- The arguments that `match_invoker` (visit_invoke.hpp:107-116) passes: the first `sizeof...(Ts)` addresses,
each cast to its parameter type. -/
def passedArgs (n : Nat) (f : Overload D) (addrs : List (Option A)) : List (Option A × Mode) :=
  ((addrs ++ List.replicate (n - addrs.length) none).take f.params.length).zip (f.params.map (fun p : Param D => castMode p.pass))

/-- (visit_invoke.hpp:137-160.) -/
inductive Outcome (A : Type) where
  | nullopt
  | call (i : Nat) (args : List (Option A × Mode))
  | ub
deriving DecidableEq, Repr

/-- `match_invoker` (visit_invoke.hpp:107-116) calls `Foo{}(...)`: for a lambda a new object of its type; for a
function pointer a null pointer. -/
def matchInvoker (n i : Nat) (f : Overload D) (addrs : List (Option A)) : Outcome A :=
  match f.callee with
  | .lambda => .call i (passedArgs n f addrs)
  | .functionPointer => .ub

/-- `resolve<Unsafe>(args...)` (visit_invoke.hpp:137-160). `sort` is `std::sort` by key. With `Unsafe` a failing
const check is an assertion failure. -/
def resolve (lt : D → D → Bool) (sort : List (List D × Nat) → List (List D × Nat)) (safe : Bool) (fs : List (Overload D))
    (args : List (Arg D A)) : Outcome A :=
  let n := argsCount fs
  let key := padKey void n (args.map (·.desc))
  match find lt (sort (pairs void n fs)) key with
  | none => .nullopt
  | some i =>
    match fs[i]? with
    | none => .ub
    | some f =>
      if constCheck n f args then matchInvoker n i f (args.map (·.addr))
      else if safe then .nullopt else .ub

end AnyAny.Visit
