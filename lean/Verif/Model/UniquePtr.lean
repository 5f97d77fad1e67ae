import Verif.Model.Poly
/-
Model of `std::unique_ptr<runtime_concept<Methods...>>` and of `std::unique_ptr<const runtime_concept<Methods...>>`: the specialisations
of `std::default_delete` (include/anyany/anyany.hpp:1960-1977) and `deallocate_with_delete` (noexport/anyany_details.hpp:358-373).

`std::unique_ptr` itself is not part of the repository; its members are written here as the C++ standard specifies them
([unique.ptr.single]) in terms of its `pointer` type, here `poly_ptr` or `const_poly_ptr`, and of the deleter. Objects made by `new` are
numbered; a number is not used again (the code never compares addresses).
-/
namespace AnyAny.UPtr
open AnyAny.Poly
open AnyAny.Mem (Method)

/-- `noexport::deallocate_with_delete`, as a method of vtables.
    (noexport/anyany_details.hpp:358-373.) -/
def del : Method := .user 0

/-- The state: objects made by `new`, and the `delete` expressions run at
    noexport/anyany_details.hpp:358-373 (ghost). -/
structure UW where
  /-- objects (`vars`), poly pointers (`refs`) -/
  pw : PW
  /-- executions of `delete`: the object and the type of the `delete` expression -/
  log : List (Nat × Nat)
  /-- number of objects made so far -/
  next : Nat

/-- `delete_fn<T>(ptr)` (noexport/anyany_details.hpp:361-364): undefined (`none`) unless there is an object of this type. -/
def deleteFn (t : Nat) (p : Option Addr) (w : UW) : Option UW :=
  match p with
  | some (.var x) =>
    match w.pw.vars x with
    | some (t', _) =>
      if t' = t then some { w with pw := { w.pw with vars := Mem.upd w.pw.vars x none }, log := w.log ++ [(x, t)] } else none
    | none => none
  | _ => none

/-- `default_delete::operator()(pointer p)` (anyany.hpp:1963-1966, 1973-1976): the assertion, then the function pointer in the vtable
(`invoke` on a pseudomethod, 1060-1070) is called with `p.raw()`. -/
def deleter (p : RefObj) (w : UW) : Option UW :=
  if p.val.isNone then none
  else
    match withTemp p (fun t => dispatchAt t del) w.pw with
    | .ok d pw => deleteFn d.1 p.val { w with pw := pw }
    | _ => none

/-- The pointer in a `std::unique_ptr` (`pointer`, anyany.hpp:1960-1977). -/
def get (u : Nat) (w : UW) : Option RefObj := w.pw.refs (.var u)

/-- The pointer in a `std::unique_ptr` is replaced (`pointer`, anyany.hpp:1960-1977). -/
def put (u : Nat) (p : Option RefObj) (w : UW) : UW := { w with pw := { w.pw with refs := updR w.pw.refs (.var u) p } }

/-- `if (p) get_deleter()(p)`. `std::unique_ptr` is not part of the library; it calls the deleter
    of anyany.hpp:1960-1977. -/
def deleteIf (p : RefObj) (w : UW) : Option UW := if p.val.isSome then deleter p w else some w

/-- `u.release()`: the pointer, and `u` becomes `pointer()`. `std::unique_ptr` is not part of the
    library; it calls the deleter of anyany.hpp:1960-1977. -/
def release (u : Nat) (w : UW) : Option (RefObj × UW) := do
  let o ← get u w
  some (o, put u (some (ptrNull o.kind o.ms)) w)

/-- `u.reset(p)`: the pointer is replaced before the old one is deleted. `std::unique_ptr` is not
    part of the library; it calls the deleter of anyany.hpp:1960-1977. -/
def reset (u : Nat) (p : RefObj) (w : UW) : Option UW := do
  let old ← get u w
  deleteIf old (put u (some p) w)

/-- `~unique_ptr`. `std::unique_ptr` is not part of the library; it calls the deleter of
    anyany.hpp:1960-1977. -/
def destroy (u : Nat) (w : UW) : Option UW := do
  let o ← get u w
  let w ← deleteIf o w
  some (put u none w)

/-- `new T(v)`. Language rule, no code of the library; the objects that
    noexport/anyany_details.hpp:358-373 deletes. -/
def newObj (t v : Nat) (w : UW) : Nat × UW :=
  (w.next, { w with pw := { w.pw with vars := Mem.upd w.pw.vars w.next (some (t, v)) }, next := w.next + 1 })

/-- The value of an expression of pointer type; `none`: undefined, or not defined by the library.
    The conversions of pointers at anyany.hpp:650-792. -/
def eval (m : PM RefObj) (w : UW) : Option (RefObj × UW) :=
  match m w.pw with
  | .ok o pw => some (o, { w with pw := pw })
  | _ => none

/-- The pointer type of `unique_ptr<I>`, or of `unique_ptr<const I>`, for the interface with
    methods `ms`. (anyany.hpp:1960-1977: `pointer`.) -/
def ptrKind (const : Bool) : Kind := if const then .constPolyPtr else .polyPtr

/-- `unique_ptr<I> d(new T(v))`. `std::unique_ptr` is not part of the library; it calls the
    deleter of anyany.hpp:1960-1977. -/
def makeNew (d : Nat) (const : Bool) (ms : List Method) (t v : Nat) (w : UW) : Option UW := do
  let xw := newObj t v w
  let (p, w) ← eval (polyOfVar (ptrKind const) (del :: ms) xw.1) xw.2
  some (put d (some p) w)

/-- `unique_ptr<I> d`, also from `nullptr`. `std::unique_ptr` is not part of the library; it calls
    the deleter of anyany.hpp:1960-1977. -/
def makeNull (d : Nat) (const : Bool) (ms : List Method) (w : UW) : UW := put d (some (ptrNull (ptrKind const) (del :: ms))) w

/-- `unique_ptr<I> d(std::move(s))`. `std::unique_ptr` is not part of the library; it calls the
    deleter of anyany.hpp:1960-1977. -/
def moveCtor (d s : Nat) (w : UW) : Option UW := do
  let (p, w) ← release s w
  some (put d (some p) w)

/-- `d = std::move(s)`. `std::unique_ptr` is not part of the library; it calls the deleter of
    anyany.hpp:1960-1977. -/
def moveAssign (d s : Nat) (w : UW) : Option UW := do
  let (p, w) ← release s w
  reset d p w

/-- `d.reset(new T(v))`. `std::unique_ptr` is not part of the library; it calls the deleter of
    anyany.hpp:1960-1977. -/
def resetNew (d t v : Nat) (w : UW) : Option UW := do
  let o ← get d w
  let xw := newObj t v w
  let (p, w) ← eval (polyOfVar o.kind o.ms xw.1) xw.2
  reset d p w

/-- `d.reset()`, `d = nullptr`. `std::unique_ptr` is not part of the library; it calls the deleter
    of anyany.hpp:1960-1977. -/
def resetNull (d : Nat) (w : UW) : Option UW := do
  let o ← get d w
  reset d (ptrNull o.kind o.ms) w

/-- `auto p = d.release()`. `std::unique_ptr` is not part of the library; it calls the deleter of
    anyany.hpp:1960-1977. -/
def releaseTo (p d : Nat) (w : UW) : Option UW := do
  let (o, w) ← release d w
  some (put p (some o) w)

/-- `unique_ptr<I> d(p)` for the pointer `p`, with a conversion of pointers if its class is
    another. `std::unique_ptr` is not part of the library; it calls the deleter of
    anyany.hpp:1960-1977. -/
def adopt (d : Nat) (const : Bool) (ms : List Method) (p : Nat) (w : UW) : Option UW := do
  let (o, w) ← eval (convert (ptrKind const) (del :: ms) (.var p)) w
  some (put d (some o) (put p none w))

/-- `d.reset(p)`. `std::unique_ptr` is not part of the library; it calls the deleter of
    anyany.hpp:1960-1977. -/
def resetRaw (d p : Nat) (w : UW) : Option UW := do
  let o ← get d w
  let (q, w) ← eval (convert o.kind o.ms (.var p)) w
  reset d q (put p none w)

/-- `swap(d, e)`. `std::unique_ptr` is not part of the library; it calls the deleter of
    anyany.hpp:1960-1977. -/
def swap (d e : Nat) (w : UW) : Option UW := do
  let a ← get d w
  let b ← get e w
  some (put e (some a) (put d (some b) w))

end AnyAny.UPtr
