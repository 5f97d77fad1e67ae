import Verif.Model.DpvFine
/-
Threads that use data_parallel_vectors: which parts of the containers an operation uses, ownership of these parts, interleavings of single accesses, data races.
-/
namespace AnyAny.DpvFine

open AnyAny.Dpv

variable {n : Nat} {V : Fin n → Type}

/-- Parts of containers: which elements there are (size, capacity, memory), and one field of one element. -/
inductive Part (n : Nat) where
  | shape (d : Nat)
  | field (d i : Nat) (j : Fin n)

/-- The container it is a part of. -/
def Part.cont : Part n → Nat
  | .shape d => d
  | .field d _ _ => d

/-- The parts an operation reads. -/
def TOp.reads : TOp V → Part n → Prop
  | .size d, x => x = .shape d
  | .getField d i j, x | .spanGet d i j, x => x = .shape d ∨ x = .field d i j
  | .getElem d i, x => x = .shape d ∨ ∃ j, x = .field d i j
  | .setField d _ _ _, x | .spanSet d _ _ _, x | .assignElem d _ _, x | .iterMove d _, x => x = .shape d
  | .assignRef d _ e k, x => x = .shape d ∨ x = .shape e ∨ ∃ j, x = .field e k j
  | .swapRef d _ e _, x => x = .shape d ∨ x = .shape e
  | .compare d i e k, x => x = .shape d ∨ x = .shape e ∨ ∃ j, x = .field d i j ∨ x = .field e k j
  | .equal d e, x => x.cont = d ∨ x.cont = e
  | .whole op, x => x.cont ∈ wholeReads op

/-- The parts it writes. -/
def TOp.writes : TOp V → Part n → Prop
  | .setField d i j _, x | .spanSet d i j _, x => x = .field d i j
  | .assignElem d i _, x | .assignRef d i _ _, x | .iterMove d i, x => ∃ j, x = .field d i j
  | .swapRef d i e k, x => ∃ j, x = .field d i j ∨ x = .field e k j
  | .whole op, x => x.cont ∈ wholeWrites op
  | _, _ => False

/-- Program of a thread: the next operation depends on what the ones before returned; `none`: an exception. -/
inductive Prog (V : Fin n → Type) (α : Type) where
  | done (a : α)
  | op (o : TOp V) (next : Option (EOut V) → Prog V α)

def Prog.code {α : Type} (F : Fields V) : Prog V α → Code V α
  | .done a => .ret a
  | .op o next => (o.code F).bind fun r => (next r).code F

/-- Each part is used by one thread only, or written by none. -/
abbrev Owner (n : Nat) := Part n → Option Nat

def MayRead (own : Owner n) (i : Nat) (x : Part n) : Prop := own x = some i ∨ own x = none

def MayWrite (own : Owner n) (i : Nat) (x : Part n) : Prop := own x = some i

/-- Thread `i` keeps to this. -/
def Prog.Uses {α : Type} (own : Owner n) (i : Nat) : Prog V α → Prop
  | .done _ => True
  | .op o next => (∀ x, o.reads x → MayRead own i x) ∧ (∀ x, o.writes x → MayWrite own i x) ∧ ∀ r, (next r).Uses own i

/-- A thread alone. -/
inductive Alone {α : Type} : Vecs V → Code V α → List (Choice V) → Vecs V → Code V α → Prop
  | refl (v c) : Alone v c [] v c
  | step {v c chs v' c' ch v'' c''} (h : Alone v c chs v' c') (hs : step ch v' c' = some (v'', c'')) : Alone v c (chs ++ [ch]) v'' c''

def set {β : Type} (f : Nat → β) (i : Nat) (x : β) : Nat → β := fun k => if k = i then x else f k

/-- The code of an operation on elements, from beginning to end, with its result; `thr` says which calls of user code throw; `none`: undefined behaviour. -/
def run {α : Type} (thr : Nat → Option (((j : Fin n) → List (V j) → List (V j)) × ((j : Fin n) → V j → V j))) :
    Code V α → Nat → Vecs V → Option (α × Vecs V × Nat)
  | .ret a, t, v => some (a, v, t)
  | .ub, _, _ | .whole _ _, _, _ => none
  | .col d j k, t, v => match v d with
    | some p => run thr (k (p j).data.length) t v
    | none => none
  | .read d j i k, t, v => match (v d).bind fun p => (p j).data[i]? with
    | some x => run thr (k x) t v
    | none => none
  | .write d j i x k, t, v => match v d with
    | some p => if i < (p j).data.length then run thr k t (upd v d (some (setP p j (Col.set i x (p j))))) else none
    | none => none
  | .call j k, t, v => run thr (k ((thr t).map fun g => g.2 j)) (t + 1) v

/-- The result as in Model/Dpv.lean. -/
def toRes (r : Option (Option (EOut V) × Vecs V × Nat)) : Res V (EOut V) :=
  match r with
  | none => .ub
  | some (none, v, t) => .exn ⟨v, t⟩
  | some (some x, v, t) => .ok x ⟨v, t⟩

/-- The same operations in Model/Dpv.lean. -/
def TOp.seq (F : Fields V) (env : Env V) : TOp V → M V (EOut V)
  | .size d => do let s ← Dpv.size d; pure (.num s)
  | .getField d i j | .spanGet d i j => do
    let l ← view d j
    match l[i]? with
    | some x => pure (.fld j x)
    | none => Dpv.ub
  | .setField d i j x | .spanSet d i j x => do let _ ← Dpv.setField d i j x; pure .unit
  | .getElem d i => do let r ← elem d i; pure (.val r)
  | .assignElem d i x => do Dpv.assignElem env d i x; pure .unit
  | .assignRef d i e k => do Dpv.assignRef env d i e k; pure .unit
  | .swapRef d i e k => do Dpv.swapRef d i e k; pure .unit
  | .iterMove d i => do let r ← Dpv.iterMove env d i; pure (.val r)
  | .compare d i e k => do
    let a ← elem d i
    let b ← elem e k
    pure (.order (compareByFields F.cmp a b))
  | .equal d e => do let b ← Dpv.equal F.cmp d e; pure (.bool b)
  | .whole op => do let o ← exec env op; pure (.other o)

/-- On elements, not on whole containers. -/
def TOp.onElements : TOp V → Bool
  | .whole _ => false
  | _ => true

/-- Programs of such operations only. -/
def Prog.OnElements {α : Type} : Prog V α → Prop
  | .done _ => True
  | .op o next => o.onElements = true ∧ ∀ r, (next r).OnElements

/-- The program executed by one thread, operation after operation as in Model/Dpv.lean, from containers `v`: it ends with the containers `u` and result `a`. Which calls of
user code throw is not determined. -/
inductive Prog.Runs {α : Type} (F : Fields V) : Vecs V → Prog V α → Vecs V → α → Prop
  | done (v a) : Prog.Runs F v (.done a) v a
  | ok {env : Env V} {v v' u : Vecs V} {t t' : Nat} {o : TOp V} {next : Option (EOut V) → Prog V α} {x a} (hm : env.movedFrom = F.moved)
    (h : o.seq F env ⟨v, t⟩ = .ok x ⟨v', t'⟩) (hr : Prog.Runs F v' (next (some x)) u a) : Prog.Runs F v (.op o next) u a
  | exn {env : Env V} {v v' u : Vecs V} {t t' : Nat} {o : TOp V} {next : Option (EOut V) → Prog V α} {a} (hm : env.movedFrom = F.moved)
    (h : o.seq F env ⟨v, t⟩ = .exn ⟨v', t'⟩) (hr : Prog.Runs F v' (next none) u a) : Prog.Runs F v (.op o next) u a

/-- Executed in this way it can come to an operation that is not defined. -/
inductive Prog.Undef {α : Type} (F : Fields V) : Vecs V → Prog V α → Prop
  | here {env : Env V} {v : Vecs V} {t : Nat} {o : TOp V} {next : Option (EOut V) → Prog V α} (hm : env.movedFrom = F.moved)
    (h : o.seq F env ⟨v, t⟩ = .ub) : Prog.Undef F v (.op o next)
  | ok {env : Env V} {v v' : Vecs V} {t t' : Nat} {o : TOp V} {next : Option (EOut V) → Prog V α} {x} (hm : env.movedFrom = F.moved)
    (h : o.seq F env ⟨v, t⟩ = .ok x ⟨v', t'⟩) (hr : Prog.Undef F v' (next (some x))) : Prog.Undef F v (.op o next)
  | exn {env : Env V} {v v' : Vecs V} {t t' : Nat} {o : TOp V} {next : Option (EOut V) → Prog V α} (hm : env.movedFrom = F.moved)
    (h : o.seq F env ⟨v, t⟩ = .exn ⟨v', t'⟩) (hr : Prog.Undef F v' (next none)) : Prog.Undef F v (.op o next)

/-- Columns of equal length. -/
def Wf (v : Vecs V) : Prop := ∀ d p, v d = some p → ∀ j, (p j).data.length = sizeP p

/-- All threads, one access at a time. -/
inductive Interleaved {α : Type} : Vecs V → (Nat → Code V α) → List (Nat × Choice V) → Vecs V → (Nat → Code V α) → Prop
  | refl (v cs) : Interleaved v cs [] v cs
  | step {v cs s v' cs' i ch v'' c} (h : Interleaved v cs s v' cs') (hs : step ch v' (cs' i) = some (v'', c)) :
    Interleaved v cs (s ++ [(i, ch)]) v'' (set cs' i c)

/-- What happened to thread `i`. -/
def choicesOf (s : List (Nat × Choice V)) (i : Nat) : List (Choice V) := (s.filter fun x => x.1 == i).map (·.2)

/-- Two threads are about to access the same object, and one of them writes. -/
def Race {α : Type} (isBool : Fin n → Bool) (cs : Nat → Code V α) : Prop :=
  ∃ i k l, i ≠ k ∧ (cs i).Writes isBool l ∧ ((cs k).Reads isBool l ∨ (cs k).Writes isBool l)

/-- Size, capacity and memory of a column. -/
def shapeOf (v : Vecs V) (d : Nat) (j : Fin n) : Option (Nat × Nat × Nat) := (v d).map fun p => ((p j).data.length, (p j).cap, (p j).buf)

/-- Field `j` of element `i`. -/
def fieldOf (v : Vecs V) (d i : Nat) (j : Fin n) : Option (V j) := (v d).bind fun p => (p j).data[i]?

/-- A part is the same in two states. -/
def Same (v u : Vecs V) : Part n → Prop
  | .shape d => (v d).isSome = (u d).isSome ∧ ∀ j, shapeOf v d j = shapeOf u d j
  | .field d i j => fieldOf v d i j = fieldOf u d i j

/-- Container `d` has the elements `xs`. -/
def Holds (v : Vecs V) (d : Nat) (xs : List (Rec V)) : Prop := ∃ p, v d = some p ∧ ∀ j, (p j).data = xs.map (· j)

/-- `for (k : ks) v[k] = f(T(v[k]));`, which stops at an exception; gives whether it came to the end. -/
def mapProg (d : Nat) (f : Rec V → Rec V) : List Nat → Prog V Bool
  | [] => .done true
  | k :: ks => .op (.getElem d k) fun r => match r with
    | some (.val x) => .op (.assignElem d k (f x)) fun r => match r with
      | some _ => mapProg d f ks
      | none => .done false
    | _ => .done false

end AnyAny.DpvFine
