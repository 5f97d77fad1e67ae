import Verif.Model.VisitInvoke
/-
What happens when `resolve` calls the overload it selected: initialisation of parameters, the call, the way of the result to
the caller, and exceptions (include/anyany/visit_invoke.hpp:106-116, 137-160, noexport/visit_invoke_details.hpp:18-37).
-/
namespace AnyAny.Visit

/-- How `Result` is made from the (decayed) return type `R` of an overload: they are the same type; the conversion depends on
the value only; or `Result` refers to the object it is made from (`std::string_view` from `std::string`, pointers to bases from
smart pointers, views of containers). Language rule, no code of the library; for the `return` at
  visit_invoke.hpp:106-116. -/
inductive Conv where
  | same
  | value
  | view
deriving DecidableEq, Repr

/-- An overload with what `resolve` needs to know besides the parameters: is it `noexcept`
(`visit_invoke_traits::is_noexcept`, visit_invoke_details.hpp:23, 32), does it return a reference, how is the result converted. -/
structure Fn (D : Type) extends Overload D where
  noexc : Bool
  retRef : Bool
  conv : Conv
deriving DecidableEq, Repr

/-- What is done that can throw. `param k` initialises a parameter that is taken by value, from
    the contained object. (visit_invoke.hpp:106-116; noexport/visit_invoke_details.hpp:18-37.) -/
inductive Step where
  | param (k : Nat)
  | body
  | copyResult
  | convert
  | toOptional
deriving DecidableEq, Repr

/-- `match_invoker<Foo, Ts...>` (visit_invoke.hpp:107-116). `ord` is the order in which the compiler initialises the parameters
taken by value. The inner lambda returns `auto`, so that a returned reference becomes a new object (112-114); it is converted
to `result_type` (108, 111). -/
def matchSteps {D : Type} (f : Fn D) (ord : List Nat) : List Step :=
  ord.map .param ++ [.body] ++ (if f.retRef then [.copyResult] else []) ++ (if f.conv = .same then [] else [.convert])

/-- `return (*it)(...)` in `resolve` (159): the result is moved into the `std::optional`. -/
def callSteps {D : Type} (f : Fn D) (ord : List Nat) : List Step := matchSteps f ord ++ [.toOptional]

/-- What an overload returns: a value, or a reference to an object. Language rule, no code of the
    library; for the call at visit_invoke.hpp:106-116. -/
inductive Ret (A V : Type) where
  | value (v : V)
  | ref (a : A)
deriving DecidableEq, Repr

/-- What a converted result refers to, if anything: an object that was there before, or a temporary object that is destroyed when the
full-expression (the `return` statement) ends. Language rule, no code of the library; for the
  `return` at visit_invoke.hpp:106-116. -/
inductive Refers (A : Type) where
  | nothing
  | object (a : A)
  | destroyed
deriving DecidableEq, Repr

/-- The result on its way: nothing yet, what the overload returned (or a copy of it), a converted
    result. Language rule, no code of the library; for the `return` at visit_invoke.hpp:106-116.
    -/
inductive Cur (A V W : Type) where
  | start
  | ret (r : Ret A V)
  | made (w : W) (refers : Refers A)
deriving DecidableEq, Repr

/-- What the steps do with the result (C++ semantics): a copy of what a reference refers to is a value; a view made from a reference refers to the
object, a view made from a value to a temporary object. `mem` are the values of the objects, `g`
  is the conversion, `r` what the body returns. For visit_invoke.hpp:106-116; no code of its own.
  -/
def stepResult {A V W : Type} (mem : A → V) (g : V → W) (c : Conv) (r : Ret A V) : Step → Cur A V W → Cur A V W
  | .body, _ => .ret r
  | .copyResult, .ret (.ref a) => .ret (.value (mem a))
  | .convert, .ret (.value v) => .made (g v) (if c = .view then .destroyed else .nothing)
  | .convert, .ret (.ref a) => .made (g (mem a)) (if c = .view then .object a else .nothing)
  | _, x => x

/-- The steps are done until one throws: the steps begun, and the exception with the step it comes
    from, or the result. Language rule, no code of the library; for visit_invoke.hpp:106-116,
    137-160. -/
def runSteps {E C : Type} (throws : Step → Option E) (sem : Step → C → C) : List Step → C → List Step × Except (Step × E) C
  | [], c => ([], .ok c)
  | s :: ss, c =>
    match throws s with
    | some e => ([s], .error (s, e))
    | none => ((s :: (runSteps throws sem ss (sem s c)).1), (runSteps throws sem ss (sem s c)).2)

/-- How a call ends. Language rule, no code of the library; for visit_invoke.hpp:137-160. -/
inductive End (E C : Type) where
  | returns (c : C)
  | throws (e : E)
  | terminates
deriving DecidableEq, Repr

/-- `resolve` is `noexcept((traits<Foos>::is_noexcept && ...))` (139): `std::terminate` is called when an exception leaves it, or
leaves the function if that is `noexcept`. -/
def finish {D E C : Type} (fs : List (Fn D)) (f : Fn D) : Except (Step × E) C → End E C
  | .ok c => .returns c
  | .error (s, e) => if s = .body ∧ f.noexc = true then .terminates else if fs.all (·.noexc) then .terminates else .throws e

/-- `resolve` (137-160) with the call: `none` for `nullopt`, or the overload, the steps begun and the end. Undefined behaviour (see
`resolve`) is `some none`. -/
def resolveCall {D A E V W : Type} [DecidableEq D] (void : D) (lt : D → D → Bool) (sort : List (List D × Nat) → List (List D × Nat)) (safe : Bool)
    (fs : List (Fn D)) (args : List (Arg D A)) (ord : List Nat) (throws : Step → Option E) (mem : A → V) (g : V → W) (ret : Ret A V) :
    Option (Option (Nat × List Step × End E (Cur A V W))) :=
  match resolve void lt sort safe (fs.map (·.toOverload)) args with
  | .nullopt => none
  | .ub => some none
  | .call i _ =>
    match fs[i]? with
    | none => some none
    | some f =>
      let r := runSteps throws (stepResult mem g f.conv ret) (callSteps f ord) .start
      some (some (i, r.1, finish fs f r.2))

end AnyAny.Visit
