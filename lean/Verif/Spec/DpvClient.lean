import Verif.Spec.DpvHist
/-
Programs that use containers through their interface: every step may depend on everything that was observed before. A generic
algorithm (`std::sort`, `std::remove_if`, …) on positions of a container, with whatever comparisons and predicates, is such a program.
-/
namespace AnyAny.Dpv

variable {n : Nat} {V : Fin n → Type} {α : Type}

/-- A program: it performs operations and looks at sizes and elements, then returns. -/
inductive Client (V : Fin n → Type) (α : Type) where
  | ret (a : α)
  | op (o : Op V) (next : Out V → Client V α)
  | size (d : Nat) (next : Nat → Client V α)
  | read (d i : Nat) (next : Rec V → Client V α)

/-- The program with `data_parallel_vector<T>`. -/
def Client.run (env : Env V) : Client V α → M V α
  | .ret a => pure a
  | .op o next => fun w => match exec env o w with
    | .ok out w' => (next out).run env w'
    | .exn w' => .exn w'
    | .ub => .ub
  | .size d next => fun w => match Dpv.size d w with
    | .ok k w' => (next k).run env w'
    | .exn w' => .exn w'
    | .ub => .ub
  | .read d i next => fun w => match elem d i w with
    | .ok r w' => (next r).run env w'
    | .exn w' => .exn w'
    | .ub => .ub

/-- The program with `std::vector<T>`: `Means env c S a S'`, every step respects the preconditions of `std::vector`, the program
returns `a` and the vectors are `S'` then. -/
inductive Means (env : Env V) : Client V α → SVecs V → α → SVecs V → Prop
  | ret {a S} : Means env (.ret a) S a S
  | op {o next S a S'} (L : Legal S o) (hd : usesDefault o = true → env.recDefault = env.fieldDefault)
      (h : Means env (next (specOut S o)) (specStep env S o) a S') : Means env (.op o next) S a S'
  | size {d next S xs a S'} (hx : S d = some xs) (h : Means env (next xs.length) S a S') : Means env (.size d next) S a S'
  | read {d i next S xs r a S'} (hx : S d = some xs) (hr : xs[i]? = some r) (h : Means env (next r) S a S') :
      Means env (.read d i next) S a S'

end AnyAny.Dpv
