/-
Visitors that use the swarm they visit: they insert values (spawn), clear containers, reserve memory, count, and start visits themselves.
`visit` (variant_swarm.hpp:138-151, 189-202) is `std::ranges::for_each` over one container after the other, so it holds an iterator to the
current element and the end iterator while the visitor runs. Which iterators and references remain valid is a rule of the containers of
the standard library. `std::vector`: `push_back` invalidates the end iterator, and everything if it reallocates; `reserve` invalidates
everything if it reallocates; `clear` invalidates everything. `std::list` ("node"): only `clear` invalidates, and `end()` remains the end.
-/
namespace AnyAny.SwarmRe

/-- `f` with the value at `k` replaced. The containers of variant_swarm.hpp:46. -/
def upd {α : Type} (f : Nat → α) (k : Nat) (x : α) : Nat → α := fun i => if i = k then x else f i

/-- What a visitor does with the value it was called with and with the swarm. Values are numbers; containers do not throw here
(Model/Swarm.lean has exceptions of containers). The lines are those of variant_swarm.hpp that an action uses.
* `ret`, `raise`: return or throw;
* `insert j x k`: `swarm.insert(x)` for the type number `j` (noexport/variant_swarm_details.hpp:22-47);
* `clear j k`, `reserve j n k`: `get<0>(swarm.view<J>()).clear()`, `.reserve(n)` (126-129);
* `count j k`: `swarm.count<J>()` (98-108);
* `get k`, `set x k`: read and write the value the visitor was called with (a reference);
* `visit v js k`: `swarm.visit<Js...>(visitor v)` (138-159); `k true` if it threw. -/
inductive Cmd where
  | ret
  | raise
  | insert (j x : Nat) (k : Cmd)
  | clear (j : Nat) (k : Cmd)
  | reserve (j n : Nat) (k : Cmd)
  | count (j : Nat) (k : Nat → Cmd)
  | get (k : Nat → Cmd)
  | set (x : Nat) (k : Cmd)
  | visit (v : Nat) (js : List Nat) (k : Bool → Cmd)

/-- A running `for_each` (variant_swarm.hpp:145): the visitor, the container, the position of the iterator, the end iterator (a position in a
vector), the states of the container in which the two were made, the types to visit afterwards, and what follows the visit. -/
structure Loop where
  v : Nat
  i : Nat
  pos : Nat
  last : Nat
  egen : Nat
  lgen : Nat
  rest : List Nat
  k : Bool → Cmd

/-- The swarm and what runs. `cap`: the capacity of a vector. `egen i` counts the changes of the container `i` which invalidate iterators and
references to its elements, `lgen i` those which invalidate its end iterator. `calls`: the calls of visitors so far: visitor, type, position.
(variant_swarm.hpp:46: the containers.) -/
structure State where
  cont : Nat → List Nat
  cap : Nat → Nat
  egen : Nat → Nat
  lgen : Nat → Nat
  calls : List (Nat × Nat × Nat)
  cmd : Cmd
  loops : List Loop

/-- Result of a step. -/
inductive Next (S : Type) where
  | next (s : S)
  | fin (threw : Bool) (s : S)
  | ub

/-- `node i`: the container for the type `i` is node-based (`std::list`), otherwise it is a `std::vector`. `body v i`: what the visitor number `v`
does with a value of the type number `i`. `grow`: the capacity a full vector gets (an implementation decides). -/
structure Cfg where
  node : Nat → Bool
  body : Nat → Nat → Cmd
  grow : Nat → Nat

variable (C : Cfg)

/-- Begin to visit the types `js` (variant_swarm.hpp:145): the first container that is not empty; if there is none the visit is over. -/
def begin (v : Nat) (k : Bool → Cmd) (loops : List Loop) (s : State) : List Nat → State
  | [] => { s with cmd := k false, loops := loops }
  | j :: js =>
    if (s.cont j).isEmpty then begin v k loops s js
    else { s with
      cmd := C.body v j, calls := s.calls ++ [(v, j, 0)]
      loops := ⟨v, j, 0, (s.cont j).length, s.egen j, s.lgen j, js, k⟩ :: loops }

/-- The visitor has returned: `for_each` increments its iterator, compares it with the end and calls the visitor with the next element, or the
next container follows (variant_swarm.hpp:145). Iterators that are not valid must not be used. The end iterator of a list is always
the end. -/
def advance (l : Loop) (loops : List Loop) (s : State) : Next State :=
  if s.egen l.i ≠ l.egen ∨ s.lgen l.i ≠ l.lgen then .ub
  else if l.pos + 1 = (if C.node l.i then (s.cont l.i).length else l.last) then .next (begin C l.v l.k loops s l.rest)
  else .next { s with
    cmd := C.body l.v l.i, calls := s.calls ++ [(l.v, l.i, l.pos + 1)], loops := { l with pos := l.pos + 1 } :: loops }

/-- `push_back` (noexport/variant_swarm_details.hpp:22-37). -/
def pushBack (j x : Nat) (k : Cmd) (s : State) : State :=
  let s := { s with cmd := k, cont := upd s.cont j (s.cont j ++ [x]) }
  if C.node j then s
  else if (s.cont j).length ≤ s.cap j then { s with lgen := upd s.lgen j (s.lgen j + 1) }
  else { s with
    lgen := upd s.lgen j (s.lgen j + 1), egen := upd s.egen j (s.egen j + 1)
    cap := upd s.cap j (max (C.grow (s.cap j)) (s.cont j).length) }

/-- One step of the program. (variant_swarm.hpp:98-108, 126-129, 138-159; noexport/variant_swarm_details.hpp:22-47.) -/
def step (s : State) : Next State :=
  match s.cmd with
  | .ret => match s.loops with
    | [] => .fin false s
    | l :: ls => advance C l ls s
  | .raise => match s.loops with
    | [] => .fin true s
    | l :: ls => .next { s with cmd := l.k true, loops := ls }
  | .insert j x k => .next (pushBack C j x k s)
  | .clear j k => .next { s with
      cmd := k, cont := upd s.cont j [], egen := upd s.egen j (s.egen j + 1)
      lgen := if C.node j then s.lgen else upd s.lgen j (s.lgen j + 1) }
  | .reserve j n k =>
    if C.node j ∨ n ≤ s.cap j then .next { s with cmd := k }
    else .next { s with
      cmd := k, cap := upd s.cap j n, egen := upd s.egen j (s.egen j + 1), lgen := upd s.lgen j (s.lgen j + 1) }
  | .count j k => .next { s with cmd := k (s.cont j).length }
  | .get k => match s.loops with
    | [] => .ub
    | l :: _ => if s.egen l.i ≠ l.egen then .ub else match (s.cont l.i)[l.pos]? with
      | some x => .next { s with cmd := k x }
      | none => .ub
  | .set x k => match s.loops with
    | [] => .ub
    | l :: _ => if s.egen l.i ≠ l.egen then .ub else
      if l.pos < (s.cont l.i).length then .next { s with cmd := k, cont := upd s.cont l.i ((s.cont l.i).set l.pos x) } else .ub
  | .visit v js k => .next (begin C v k s.loops s js)

/-- `n` steps. (variant_swarm.hpp:138-159.) -/
def runN : Nat → State → Next State
  | 0, s => .next s
  | n + 1, s => match step C s with
    | .next s' => runN n s'
    | r => r

/-- The program `c` starts, on a swarm with the given containers and capacities. (variant_swarm.hpp:46.) -/
def start (cont : Nat → List Nat) (cap : Nat → Nat) (c : Cmd) : State := ⟨cont, cap, fun _ => 0, fun _ => 0, [], c, []⟩

end AnyAny.SwarmRe
