import Verif.Model.SwarmReentry
/-
Several threads use one swarm without locks. The containers are shared, each thread runs a program of its own (Model/SwarmReentry.lean), one step
of some thread after the other. `access` says which containers a step uses: the library selects the container for a type at compile time
(`std::get<container_for<T>>`), so an operation for a type uses the container of this type and no other.
-/
namespace AnyAny.SwarmRe

/-- What the threads share: the containers of variant_swarm.hpp:46, with their capacities and the states of their iterators. -/
structure Shared where
  cont : Nat → List Nat
  cap : Nat → Nat
  egen : Nat → Nat
  lgen : Nat → Nat

/-- What a thread has for itself: its calls of visitors, its program, its running visits (variant_swarm.hpp:138-151). -/
structure Local where
  calls : List (Nat × Nat × Nat)
  cmd : Cmd
  loops : List Loop

/-- What one thread sees (variant_swarm.hpp:46). -/
def join (g : Shared) (l : Local) : State := ⟨g.cont, g.cap, g.egen, g.lgen, l.calls, l.cmd, l.loops⟩

/-- The shared part (variant_swarm.hpp:46). -/
def State.shared (s : State) : Shared := ⟨s.cont, s.cap, s.egen, s.lgen⟩

/-- The part of the thread (variant_swarm.hpp:138-151). -/
def State.local (s : State) : Local := ⟨s.calls, s.cmd, s.loops⟩

/-- All threads. `none`: the thread is not running (any more). -/
structure World where
  sh : Shared
  th : Nat → Option Local

/-- The containers that a visit looks at when it goes on with the types `js`: up to the first one that is not empty (variant_swarm.hpp:145). -/
def peeked (s : State) : List Nat → List Nat
  | [] => []
  | j :: js => if (s.cont j).isEmpty then j :: peeked s js else [j]

/-- The containers the next step uses, with `true` if it changes the container or a value in it. (variant_swarm.hpp:98-108, 126-129, 138-159;
noexport/variant_swarm_details.hpp:22-47.) -/
def access (s : State) : List (Nat × Bool) :=
  match s.cmd with
  | .ret => match s.loops with
    | [] => []
    | l :: _ => (l.i, false) :: (peeked s l.rest).map (fun j => (j, false))
  | .raise => []
  | .insert j _ _ => [(j, true)]
  | .clear j _ => [(j, true)]
  | .reserve j _ _ => [(j, true)]
  | .count j _ => [(j, false)]
  | .get _ => s.loops.head?.toList.map (fun l => (l.i, false))
  | .set _ _ => s.loops.head?.toList.map (fun l => (l.i, true))
  | .visit _ js _ => (peeked s js).map (fun j => (j, false))

/-- A step of the thread `t`; `none`: it does not run. `C t`: the visitors of the thread `t` (variant_swarm.hpp:138-159). -/
inductive Moved where
  | to (w : World)
  | ub
  | idle

/-- (variant_swarm.hpp:138-159.) The threads take steps in any order. -/
def move (C : Nat → Cfg) (t : Nat) (w : World) : Moved :=
  match w.th t with
  | none => .idle
  | some l => match step (C t) (join w.sh l) with
    | .next s => .to ⟨s.shared, upd w.th t (some s.local)⟩
    | .fin _ s => .to ⟨s.shared, upd w.th t none⟩
    | .ub => .ub

/-- The threads take steps in the order `ts`; steps of threads that do not run do nothing. (variant_swarm.hpp:138-159.) -/
def sched (C : Nat → Cfg) : List Nat → World → Option World
  | [], w => some w
  | t :: ts, w => match move C t w with
    | .to w' => sched C ts w'
    | .idle => sched C ts w
    | .ub => none

/-- The start: the thread `t` runs `p t`. (variant_swarm.hpp:46.) -/
def launch (cont : Nat → List Nat) (cap : Nat → Nat) (p : Nat → Option Cmd) : World :=
  ⟨⟨cont, cap, fun _ => 0, fun _ => 0⟩, fun t => (p t).map fun c => ⟨[], c, []⟩⟩

end AnyAny.SwarmRe
