import Verif.Model.SwarmReentry
/-
What visitors that use the swarm are expected to do: a visit goes through the types in the listed order and through the values of
each from the first to the last, where "last" is looked up when it is needed. No iterators, capacities and reallocations here.
-/
namespace AnyAny.SwarmRe

/-- A visit going on: the visitor, the type, the number of the value, the types that remain, and what follows the visit. -/
structure At where
  v : Nat
  i : Nat
  pos : Nat
  rest : List Nat
  k : Bool → Cmd

structure Ideal where
  cont : Nat → List Nat
  calls : List (Nat × Nat × Nat)
  cmd : Cmd
  loops : List At

variable (body : Nat → Nat → Cmd)

/-- The visit goes on with the first value of the next type that has values. -/
def Ideal.enter (v : Nat) (k : Bool → Cmd) (loops : List At) (s : Ideal) : List Nat → Ideal
  | [] => { s with cmd := k false, loops := loops }
  | j :: js =>
    if s.cont j = [] then s.enter v k loops js
    else { s with cmd := body v j, calls := s.calls ++ [(v, j, 0)], loops := ⟨v, j, 0, js, k⟩ :: loops }

def Ideal.step (s : Ideal) : Next Ideal :=
  match s.cmd, s.loops with
  | .ret, [] => .fin false s
  | .ret, l :: ls =>
    if l.pos + 1 < (s.cont l.i).length then
      .next { s with cmd := body l.v l.i, calls := s.calls ++ [(l.v, l.i, l.pos + 1)], loops := { l with pos := l.pos + 1 } :: ls }
    else .next (s.enter body l.v l.k ls l.rest)
  | .raise, [] => .fin true s
  | .raise, l :: ls => .next { s with cmd := l.k true, loops := ls }
  | .insert j x k, _ => .next { s with cmd := k, cont := upd s.cont j (s.cont j ++ [x]) }
  | .clear j k, _ => .next { s with cmd := k, cont := upd s.cont j [] }
  | .reserve _ _ k, _ => .next { s with cmd := k }
  | .count j k, _ => .next { s with cmd := k (s.cont j).length }
  | .get _, [] => .ub
  | .get k, l :: _ => match (s.cont l.i)[l.pos]? with
    | some x => .next { s with cmd := k x }
    | none => .ub
  | .set _ _, [] => .ub
  | .set x k, l :: _ => if l.pos < (s.cont l.i).length then .next { s with cmd := k, cont := upd s.cont l.i ((s.cont l.i).set l.pos x) } else .ub
  | .visit v js k, ls => .next (s.enter body v k ls js)

def Ideal.runN : Nat → Ideal → Next Ideal
  | 0, s => .next s
  | n + 1, s => match s.step body with
    | .next s' => s'.runN n
    | r => r

def Ideal.start (cont : Nat → List Nat) (c : Cmd) : Ideal := ⟨cont, [], c, []⟩

/-- Some visit is at a value of the type `j`. -/
def Ideal.Visiting (s : Ideal) (j : Nat) : Prop := ∃ l ∈ s.loops, l.i = j

/-- The rule: what is about to be done does not change the container of a type being visited, except by inserting in a list; values are read and
written by visitors only. -/
def Ideal.Ok (node : Nat → Bool) (s : Ideal) : Prop :=
  match s.cmd with
  | .insert j _ _ => node j = true ∨ ¬ s.Visiting j
  | .clear j _ => ¬ s.Visiting j
  | .reserve j _ _ => node j = true ∨ ¬ s.Visiting j
  | .get _ => s.loops ≠ []
  | .set _ _ => s.loops ≠ []
  | _ => True

/-- The rule holds whatever the program comes to. -/
def Ideal.Careful (node : Nat → Bool) (s : Ideal) : Prop := ∀ n s', s.runN body n = .next s' → s'.Ok node

/-- A real state shows an ideal one: the same values, calls and program, the same visits. -/
def State.ideal (s : State) : Ideal := ⟨s.cont, s.calls, s.cmd, s.loops.map (fun l => ⟨l.v, l.i, l.pos, l.rest, l.k⟩)⟩

def Next.map {S T : Type} (f : S → T) : Next S → Next T
  | .next s => .next (f s)
  | .fin b s => .fin b (f s)
  | .ub => .ub

/-- The code visits only types of `V` and changes (inserts in vectors, clears, reserves) only types of `M`; it reads and writes the current value
only if there is one. -/
def Cmd.Within (node : Nat → Bool) (V M : Nat → Prop) (inside : Bool) : Cmd → Prop
  | .ret => True
  | .raise => True
  | .insert j _ k => (node j = true ∨ M j) ∧ k.Within node V M inside
  | .clear j k => M j ∧ k.Within node V M inside
  | .reserve j _ k => M j ∧ k.Within node V M inside
  | .count _ k => ∀ n, (k n).Within node V M inside
  | .get k => inside = true ∧ ∀ n, (k n).Within node V M inside
  | .set _ k => inside = true ∧ k.Within node V M inside
  | .visit _ js k => (∀ j ∈ js, V j) ∧ ∀ b, (k b).Within node V M inside

/-! ### Visitors that update their value and insert other values. -/

/-- Insert the values, in this order. -/
def inserts (k : Cmd) : List (Nat × Nat) → Cmd
  | [] => k
  | (j, y) :: r => .insert j y (inserts k r)

/-- The visitor replaces a value `x` of type `i` by `(f i x).1` and inserts the values `(f i x).2`. -/
def spawner (f : Nat → Nat → Nat × List (Nat × Nat)) (i : Nat) : Cmd :=
  .get fun x => .set (f i x).1 (inserts .ret (f i x).2)

/-- The values of type `j` among the inserted ones. -/
def ofType (j : Nat) (ys : List (Nat × Nat)) : List Nat := (ys.filter (fun y => y.1 == j)).map (·.2)

/-- After the visit of the type `i`: its values are replaced, what its values spawned is at the end of the other containers. -/
def spawned (f : Nat → Nat → Nat × List (Nat × Nat)) (cont : Nat → List Nat) (i : Nat) : Nat → List Nat :=
  fun j => if j = i then (cont i).map (fun x => (f i x).1) else cont j ++ ofType j ((cont i).flatMap (fun x => (f i x).2))

/-- After the visit of the listed types, one after the other. -/
def spawnedAll (f : Nat → Nat → Nat × List (Nat × Nat)) (cont : Nat → List Nat) (js : List Nat) : Nat → List Nat :=
  js.foldl (spawned f) cont

/-- The values visited: of each listed type all that are there when its turn comes. -/
def visitedAll (f : Nat → Nat → Nat × List (Nat × Nat)) (cont : Nat → List Nat) : List Nat → List (Nat × Nat)
  | [] => []
  | i :: js => (List.range (cont i).length).map (fun p => (i, p)) ++ visitedAll f (spawned f cont i) js

end AnyAny.SwarmRe
