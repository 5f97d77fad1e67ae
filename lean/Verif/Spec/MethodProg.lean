import Verif.Model.MethodProg
import Verif.Spec.Fate
/-
The programs of Model/MethodProg.lean as a user thinks of them: pointers and references denote objects, not addresses.
An object has an identity and is contained in an any (not always in the same: a move may take it along) until it is
destroyed. Nothing is said about addresses, except that the value of an object is written where it is now.
-/
namespace AnyAny.Mem.MProg
open AnyAny.Mem

/-- A state where a pointer is the identity of an object, and a `poly_ref` is that and its list of methods. -/
abbrev Ideal := State Nat (Nat × List Method)

/-- The object `id` is contained in the any `a`, it is `o`. -/
def Holds (w : World) (a id : Nat) (o : Obj) : Prop := content w a = some o ∧ o.id = id

/-- The object `id` has not been destroyed. -/
def Lives (w : World) (id : Nat) : Prop := ∃ a o, Holds w a id o

/-- What a careful program respects: operations are used as documented (`Legal`), methods are called on anys which
have a value and the method, pointers and references are used only while their object lives. -/
def Ok (cfg : Cfg) (s : Ideal) : Prop :=
  match s.prog with
  | .ret | .raise => True
  | .op o _ => Legal cfg s.w o
  | .call a m _ _ => (content s.w a).isSome ∧ ∃ ms, methodsOf s.w a = some ms ∧ .user m ∈ ms
  | .take _ a _ _ => ∃ ms, methodsOf s.w a = some ms ∧ HasDesc ms
  | .bind _ a ms _ => (content s.w a).isSome ∧ ∃ ms', methodsOf s.w a = some ms' ∧ ms <:+: ms'
  | .callRef i m _ _ => ∃ id ms, s.refs i = some (id, ms) ∧ Lives s.w id ∧ .user m ∈ ms
  | .self _ _ => ∃ id, s.me = some id ∧ Lives s.w id
  | .use i _ _ => ∃ id, s.ptrs i = some id ∧ Lives s.w id

/-- The value of the object `o`, which is in the any `a` now, becomes `x`. -/
def Write (w : World) (a : Nat) (o : Obj) (x : Nat) (w' : World) : Prop :=
  ∃ p, addrOf w a = some p ∧ writeObj p o.ty x w = .ok () w'

/-- One step of the ideal program. -/
inductive IStep (cfg : Cfg) (body : Nat → Nat → Nat → Prog) : Ideal → Ideal → Prop
  | ret {s me k st} : s.prog = .ret → s.stack = (me, k) :: st →
      IStep cfg body s { s with me, prog := k false, stack := st }
  | raise {s me k st} : s.prog = .raise → s.stack = (me, k) :: st →
      IStep cfg body s { s with me, prog := k true, stack := st }
  | opOk {s o k w} : s.prog = .op o k → exec cfg o s.w = .ok () w → IStep cfg body s { s with prog := k false, w }
  | opExn {s o k w} : s.prog = .op o k → exec cfg o s.w = .exn w → IStep cfg body s { s with prog := k true, w }
  | call {s a m x k o} : s.prog = .call a m x k → content s.w a = some o →
      IStep cfg body s { s with me := some o.id, prog := body m o.ty x, stack := (s.me, k) :: s.stack }
  | take {s i a t k o} : s.prog = .take i a t k → content s.w a = some o → o.ty = t →
      IStep cfg body s { s with prog := k true, ptrs := upd s.ptrs i (some o.id) }
  | takeNull {s i a t k} : s.prog = .take i a t k → (∀ o, content s.w a = some o → o.ty ≠ t) →
      IStep cfg body s { s with prog := k false, ptrs := upd s.ptrs i none }
  | bind {s i a ms k o} : s.prog = .bind i a ms k → content s.w a = some o →
      IStep cfg body s { s with prog := k, refs := upd s.refs i (some (o.id, ms)) }
  | callRef {s i m x k id ms a o} : s.prog = .callRef i m x k → s.refs i = some (id, ms) → Holds s.w a id o →
      IStep cfg body s { s with me := some id, prog := body m o.ty x, stack := (s.me, k) :: s.stack }
  | self {s f k id a o w} : s.prog = .self f k → s.me = some id → Holds s.w a id o → Write s.w a o (f o.val) w →
      IStep cfg body s { s with prog := k o.val, w }
  | use {s i f k id a o w} : s.prog = .use i f k → s.ptrs i = some id → Holds s.w a id o → Write s.w a o (f o.val) w →
      IStep cfg body s { s with prog := k o.val, w }

/-- `n` steps of the ideal program. -/
inductive ISteps (cfg : Cfg) (body : Nat → Nat → Nat → Prog) : Nat → Ideal → Ideal → Prop
  | refl (s) : ISteps cfg body 0 s s
  | head {n s s' s''} : IStep cfg body s s' → ISteps cfg body n s' s'' → ISteps cfg body (n + 1) s s''

/-- A careful program: whatever state it comes to, it respects the rules there. -/
def Careful (cfg : Cfg) (body : Nat → Nat → Nat → Prog) (s : Ideal) : Prop := ∀ n s', ISteps cfg body n s s' → Ok cfg s'

/-- The address `p` and the type `t` are those of the object `id`, if that lives. -/
def Denotes (w : World) (p : Ptr) (t id : Nat) : Prop := ∀ a o, Holds w a id o → addrOf w a = some p ∧ o.ty = t

/-- Pointers of the real and of the ideal program. -/
def Ptrs (w : World) : Option Typed → Option Nat → Prop
  | none, none => True
  | some h, some id => Denotes w h.ptr h.ty id
  | _, _ => False

/-- References of the real and of the ideal program. -/
def Refs (w : World) : Option PRef → Option (Nat × List Method) → Prop
  | none, none => True
  | some r, some (id, ms) => Denotes w r.ptr r.vt.ty id ∧ r.ms = ms
  | _, _ => False

/-- The methods that wait. -/
def Waiting (w : World) : List (Option Typed × (Bool → Prog)) → List (Option Nat × (Bool → Prog)) → Prop
  | [], [] => True
  | (h, k) :: st, (i, k') :: st' => Ptrs w h i ∧ k = k' ∧ Waiting w st st'
  | _, _ => False

/-- The real and the ideal program are at the same point, in the same world, and every pointer of the real
program denotes the object of the ideal one. -/
structure Same (s : State Typed PRef) (i : Ideal) : Prop where
  w : s.w = i.w
  prog : s.prog = i.prog
  me : Ptrs i.w s.me i.me
  ptrs : ∀ n, Ptrs i.w (s.ptrs n) (i.ptrs n)
  refs : ∀ n, Refs i.w (s.refs n) (i.refs n)
  stack : Waiting i.w s.stack i.stack

end AnyAny.Mem.MProg
