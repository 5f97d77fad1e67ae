/-
Model of `aa::basic_variant_swarm<Container, Ts...>` (include/anyany/variant_swarm.hpp:33-250, noexport/variant_swarm_details.hpp:10-70).

There are `n` types `Ts...`, `V i` are the values of the `i`-th. The containers are not part of the code: a container is the list of its
values in the order of iteration, with the operations it has (`Cont`). Containers for different types are different types
(requirement of the library, variant_swarm.hpp:31), so that `std::get<Container<T>>` selects the one for `T`.

`insert(first, last)` with iterators (variant_swarm.hpp:63-72) applies `std::get<T>` to a tuple of `Container<T>` and does not compile when
used.

Members of containers and visitors may throw. A member of a container gets the moment (a number) of the call, which may decide whether it
throws, and gives what the container has afterwards and whether it threw. Moving and swapping containers does not throw.
-/
namespace AnyAny.Swarm

variable {n : Nat}

/-- What a container has after a call, and whether the call threw. The containers are not part of
    the library; the members called at variant_swarm_details.hpp:22-60. -/
abbrev After (α : Type) := List α × Bool

/-- The members of a container the code may use; `none`: no such member.
    (variant_swarm_details.hpp:22-60; variant_swarm.hpp:80-135.) -/
structure Cont (α : Type) where
  pushBack : Option (Nat → List α → α → After α)
  emplaceBack : Option (Nat → List α → α → After α)
  /-- `insert(value)` -/
  insertVal : Option (Nat → List α → α → After α)
  /-- `insert(pos, value)`, here with `pos = end()` -/
  insertEnd : Option (Nat → List α → α → After α)
  /-- `emplace(args...)` of associative containers -/
  emplaceVal : Option (Nat → List α → α → After α)
  /-- `insert(first, last)` of associative containers -/
  insertList : Option (Nat → List α → List α → After α)
  /-- `insert(end(), first, last)` -/
  insertListEnd : Option (Nat → List α → List α → After α)
  /-- If `erase` of the positions from `b` to `e` throws: what is left. -/
  eraseThrows : Nat → List α → (b e : Nat) → Option (List α) := fun _ _ _ _ => none
  /-- Does copy construction throw? -/
  copyThrows : Nat → List α → Bool := fun _ _ => false
  /-- If copy assignment to a container with the first list from one with the second throws: what is left. -/
  assignThrows : Nat → List α → List α → Option (List α) := fun _ _ _ => none

/-- `containers` (variant_swarm.hpp:45). -/
abbrev Swarm (V : Fin n → Type) := (i : Fin n) → List (V i)

variable {V : Fin n → Type}

/-- The container for type `i` is replaced. One element of the tuple of containers
    (variant_swarm.hpp:45) is changed. -/
def setS (s : Swarm V) (i : Fin n) (l : List (V i)) : Swarm V := fun k => if h : k = i then h ▸ l else s k

/-- A swarm after an operation; `some i`: there is an exception, thrown by the container for type
    `i`. Language rule, no code of the library; for the members of variant_swarm.hpp:55-230. -/
abbrev SwarmAfter (V : Fin n → Type) := Swarm V × Option (Fin n)

/-- A member of the container for type `i` is called: nothing is caught.
    (variant_swarm_details.hpp:22-60; variant_swarm.hpp:80-135.) -/
def setR (s : Swarm V) (i : Fin n) (r : After (V i)) : SwarmAfter V := (setS s i r.1, if r.2 then some i else none)

variable (c : (i : Fin n) → Cont (V i)) (t : Nat)

/-- `do_insert` (variant_swarm_details.hpp:22-37), for both `insert` overloads (42-47). `none`: does not compile. -/
def insert (s : Swarm V) (i : Fin n) (x : V i) : Option (SwarmAfter V) :=
  match (c i).pushBack with
  | some f => some (setR s i (f t (s i) x))
  | none =>
    match (c i).insertVal with
    | some f => some (setR s i (f t (s i) x))
    | none =>
      match (c i).insertEnd with
      | some f => some (setR s i (f t (s i) x))
      | none => none

/-- `insert(initializer_list)` (variant_swarm_details.hpp:48-56). -/
def insertInit (s : Swarm V) (i : Fin n) (xs : List (V i)) : Option (SwarmAfter V) :=
  match (c i).insertList with
  | some f => some (setR s i (f t (s i) xs))
  | none =>
    match (c i).insertListEnd with
    | some f => some (setR s i (f t (s i) xs))
    | none => none

/-- `emplace<T>(args...)` (variant_swarm.hpp:78-90); `x` is the value made from the arguments. -/
def emplace (s : Swarm V) (i : Fin n) (x : V i) : Option (SwarmAfter V) :=
  match (c i).emplaceBack with
  | some f => some (setR s i (f t (s i) x))
  | none =>
    match (c i).emplaceVal with
    | some f => some (setR s i (f t (s i) x))
    | none => none

/-- `erase(b, e)` (variant_swarm_details.hpp:61-63): iterators of that container. -/
def eraseRange (s : Swarm V) (i : Fin n) (b e : Nat) : SwarmAfter V :=
  match (c i).eraseThrows t (s i) b e with
  | none => setR s i ((s i).take b ++ (s i).drop e, false)
  | some l => setR s i (l, true)

/-- `erase(pos)` (variant_swarm_details.hpp:58-60): an iterator to a value of that container. -/
def erase (s : Swarm V) (i : Fin n) (k : Nat) : SwarmAfter V :=
  match (c i).eraseThrows t (s i) k (k + 1) with
  | none => setR s i ((s i).eraseIdx k, false)
  | some l => setR s i (l, true)

/-- The implicit copy constructor (variant_swarm.hpp:45, `std::tuple`): the containers are copied in turn; if one throws, there is no new
swarm. -/
def copyCtor (s : Swarm V) : Except (Fin n) (Swarm V) :=
  match (List.finRange n).find? fun i => (c i).copyThrows (t + i) (s i) with
  | some i => .error i
  | none => .ok s

/-- The containers of `is` are copy-assigned in turn. The defaulted copy assignment of the tuple
    (variant_swarm.hpp:36-60). -/
def assignFrom (d s : Swarm V) : List (Fin n) → SwarmAfter V
  | [] => (d, none)
  | i :: is =>
    match (c i).assignThrows (t + i) (d i) (s i) with
    | some l => (setS d i l, some i)
    | none => assignFrom (setS d i (s i)) s is

/-- The implicit copy assignment (variant_swarm.hpp:45, `std::tuple`). -/
def copyAssign (d s : Swarm V) : SwarmAfter V := assignFrom c t d s (List.finRange n)

/-- `swap` (variant_swarm.hpp:56-61). -/
def swap (s t : Swarm V) : Swarm V × Swarm V := (t, s)

/-- `empty()` (93-96). -/
def empty (s : Swarm V) : Bool := (List.finRange n).all fun i => (s i).isEmpty

/-- `count<T>()`, `count<I>()` (98-108). -/
def count (s : Swarm V) (i : Fin n) : Nat := (s i).length

/-- `size()` (110-115). -/
def size (s : Swarm V) : Nat := ((List.finRange n).map fun i => (s i).length).foldr (· + ·) 0

/-- `view<T>()`, `view<I>()` (117-132), for one type: the container. -/
def view (s : Swarm V) (i : Fin n) : List (V i) := s i

/-! ### visits

A visitor is a function with a state `σ` (whatever it reads and writes); it may change the value it is given. -/

/-- How a call of a visitor ends. Language rule, no code of the library; the calls at
    variant_swarm.hpp:139-144. -/
inductive Ret (R : Type) where
  | void
  | val (r : R)
  | throws

/-- `v` applied to a value of the type `i`. The argument of `visit_all`
    (variant_swarm.hpp:137-159). -/
abbrev Visitor (V : Fin n → Type) (σ R : Type) := (i : Fin n) → σ → V i → σ × V i × Ret R

variable {σ R : Type}

/-- `apply_visitor` (139-144): a result is passed to `out_visitor`, which may throw as well. The result is the state, whether there is an
exception, and the value. -/
def applyVisitor (v : Visitor V σ R) (out : σ → R → σ × Bool) (i : Fin n) (s : σ) (x : V i) : (σ × Bool) × V i :=
  let r := v i s x
  match r.2.2 with
  | .void => ((r.1, false), r.2.1)
  | .val y => (out r.1 y, r.2.1)
  | .throws => ((r.1, true), r.2.1)

/-- `std::ranges::for_each` on one container. Not part of the library; called at
    variant_swarm.hpp:146-160. -/
def forEach (v : Visitor V σ R) (out : σ → R → σ × Bool) (i : Fin n) : List (V i) → σ → (σ × Bool) × List (V i)
  | [], s => ((s, false), [])
  | x :: xs, s =>
    let r := applyVisitor v out i s x
    if r.1.2 then (r.1, r.2 :: xs)
    else
      let q := forEach v out i xs r.1.1
      (q.1, r.2 :: q.2)

/-- `visit<Types...>(v, out_visitor)` (136-146; const 187-197): the listed types, in order. -/
def visit (v : Visitor V σ R) (out : σ → R → σ × Bool) : List (Fin n) → Swarm V → σ → (σ × Bool) × Swarm V
  | [], sw, s => ((s, false), sw)
  | i :: is, sw, s =>
    let r := forEach v out i (sw i) s
    if r.1.2 then (r.1, setS sw i r.2)
    else visit v out is (setS sw i r.2) r.1.1

/-- `visit<Types...>(v)` (147-151, 198-202). -/
def visitIgnore (v : Visitor V σ R) (types : List (Fin n)) (sw : Swarm V) (s : σ) : (σ × Bool) × Swarm V :=
  visit v (fun s _ => (s, false)) types sw s

/-- `visit_all` (152-159, 203-210). -/
def visitAll (v : Visitor V σ R) (out : σ → R → σ × Bool) (sw : Swarm V) (s : σ) : (σ × Bool) × Swarm V :=
  visit v out (List.finRange n) sw s

/-- What an output iterator into an array refers to: the array and the position. The iterator
    argument of variant_swarm.hpp:161-168. -/
structure Out (R : Type) where
  mem : Nat → R
  pos : Nat

/-- `*out = r; ++out` (163-166). -/
def Out.write (o : Out R) (r : R) : Out R := ⟨fun a => if a = o.pos then r else o.mem a, o.pos + 1⟩

/-- `visit_copy<Types...>(v, out)` (161-168, 212-219); the result is the array and the iterator (returned if there is no exception). -/
def visitCopy (v : Visitor V σ R) (types : List (Fin n)) (sw : Swarm V) (s : σ) (o : Out R) : ((σ × Out R) × Bool) × Swarm V :=
  visit (fun i (st : σ × Out R) x => let r := v i st.1 x; ((r.1, st.2), r.2.1, r.2.2)) (fun st r => ((st.1, st.2.write r), false)) types sw
    (s, o)

/-- `visit_copy_all(v, out)` (175-178, 225-228). -/
def visitCopyAll (v : Visitor V σ R) (sw : Swarm V) (s : σ) (o : Out R) : ((σ × Out R) × Bool) × Swarm V :=
  visitCopy v (List.finRange n) sw s o

/-- `inserter(swarm)` (244-249) applied to the value of a `std::variant`. -/
def inserterVisit (s : Swarm V) (x : (i : Fin n) × V i) : Option (SwarmAfter V) := insert c t s x.1 x.2

end AnyAny.Swarm
