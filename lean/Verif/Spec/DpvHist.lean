import Verif.Model.Dpv
/-
Histories of operations on containers, and what they mean for `std::vector<T>`: containers are lists of records.
-/
namespace AnyAny.Dpv

variable {n : Nat} {V : Fin n → Type}

/-- One operation of a history. `tmp` is a name for the temporary made by `assign`; `ra`: the range is given by random access
iterators. -/
inductive Op (V : Fin n → Type) where
  | defaultCtor (d : Nat)
  | countValueCtor (d k : Nat) (v : Rec V)
  | countCtor (d k : Nat)
  | rangeCtor (d : Nat) (vs : List (Rec V)) (ra : Bool)
  | copyCtor (d s : Nat)
  | moveCtor (d s : Nat)
  | dtor (d : Nat)
  | copyAssign (d s : Nat)
  | moveAssign (d s : Nat)
  | emplace (d i : Nat) (v : Rec V)
  | emplaceBack (d : Nat) (v : Rec V)
  | pushBack (d : Nat) (v : Rec V)
  | erase (d i : Nat)
  | insertVal (d i : Nat) (v : Rec V)
  | insertCount (d i k : Nat) (v : Rec V)
  | insertRange (d i : Nat) (vs : List (Rec V)) (ra : Bool)
  | assignCount (d tmp k : Nat) (v : Rec V)
  | assignRange (d tmp : Nat) (vs : List (Rec V)) (ra : Bool)
  | clear (d : Nat)
  | popBack (d : Nat)
  | reserve (d k : Nat)
  | resize (d k : Nat)
  | resizeVal (d k : Nat) (v : Rec V)
  | shrinkToFit (d : Nat)
  | swap (d e : Nat)
  | assignElem (d i : Nat) (v : Rec V)
  | assignRef (d i e k : Nat)
  | swapRef (d i e k : Nat)
  | iterMove (d i : Nat)
  | setField (d i : Nat) (j : Fin n) (x : V j)

/-- What an operation returns: nothing, an iterator (its position), a value. -/
inductive Out (V : Fin n → Type) where
  | unit
  | pos (i : Nat)
  | val (r : Rec V)

def exec (env : Env V) : Op V → M V (Out V)
  | .defaultCtor d => do defaultCtor d; pure .unit
  | .countValueCtor d k v => do countValueCtor env d k v; pure .unit
  | .countCtor d k => do countCtor env d k; pure .unit
  | .rangeCtor d vs ra => do rangeCtor env d vs ra; pure .unit
  | .copyCtor d s => do copyCtor env d s; pure .unit
  | .moveCtor d s => do moveCtor d s; pure .unit
  | .dtor d => do dtor d; pure .unit
  | .copyAssign d s => do copyAssign env d s; pure .unit
  | .moveAssign d s => do moveAssign d s; pure .unit
  | .emplace d i v => do let r ← emplace env d i v; pure (.pos r)
  | .emplaceBack d v => do emplaceBack env d v; pure .unit
  | .pushBack d v => do pushBack env d v; pure .unit
  | .erase d i => do let r ← erase env d i; pure (.pos r)
  | .insertVal d i v => do let r ← insertVal env d i v; pure (.pos r)
  | .insertCount d i k v => do let r ← insertCount env d i k v; pure (.pos r)
  | .insertRange d i vs ra => do let r ← insertRange env d i vs ra; pure (.pos r)
  | .assignCount d tmp k v => do assignCount env d tmp k v; pure .unit
  | .assignRange d tmp vs ra => do assignRange env d tmp vs ra; pure .unit
  | .clear d => do clear d; pure .unit
  | .popBack d => do popBack d; pure .unit
  | .reserve d k => do reserve env d k; pure .unit
  | .resize d k => do resize env d k; pure .unit
  | .resizeVal d k v => do resizeVal env d k v; pure .unit
  | .shrinkToFit d => do shrinkToFit env d; pure .unit
  | .swap d e => do swap d e; pure .unit
  | .assignElem d i v => do assignElem env d i v; pure .unit
  | .assignRef d i e k => do assignRef env d i e k; pure .unit
  | .swapRef d i e k => do swapRef d i e k; pure .unit
  | .iterMove d i => do let r ← iterMove env d i; pure (.val r)
  | .setField d i j x => do setField d i j x; pure .unit

/-! ### `std::vector<T>` -/

/-- The contents of the containers. -/
abbrev SVecs (V : Fin n → Type) := Nat → Option (List (Rec V))

def setRec (r : Rec V) (j : Fin n) (x : V j) : Rec V := fun k => if h : k = j then h ▸ x else r k

/-- `swap(v[i], u[k])` for vectors of `T`. -/
def specSwapRef (S : SVecs V) (d i e k : Nat) : SVecs V :=
  match (S d).bind (·[i]?), (S e).bind (·[k]?) with
  | some a, some b =>
    let S1 := upd S d ((S d).map (·.set i b))
    upd S1 e ((S1 e).map (·.set k a))
  | _, _ => S

/-- The effect on `std::vector<T>`. -/
def specStep (env : Env V) (S : SVecs V) : Op V → SVecs V
  | .defaultCtor d => upd S d (some [])
  | .countValueCtor d k v => upd S d (some (List.replicate k v))
  | .countCtor d k => upd S d (some (List.replicate k env.recDefault))
  | .rangeCtor d vs _ => upd S d (some vs)
  | .copyCtor d s => upd S d (S s)
  | .moveCtor d s => upd (upd S s (some [])) d (S s)
  | .dtor d => upd S d none
  | .copyAssign d s => upd S d (S s)
  | .moveAssign d s => if d = s then S else upd (upd S s (some [])) d (S s)
  | .emplace d i v | .insertVal d i v => upd S d ((S d).map fun xs => xs.take i ++ [v] ++ xs.drop i)
  | .emplaceBack d v | .pushBack d v => upd S d ((S d).map fun xs => xs ++ [v])
  | .erase d i => upd S d ((S d).map fun xs => xs.eraseIdx i)
  | .insertCount d i k v => upd S d ((S d).map fun xs => xs.take i ++ List.replicate k v ++ xs.drop i)
  | .insertRange d i vs _ => upd S d ((S d).map fun xs => xs.take i ++ vs ++ xs.drop i)
  | .assignCount d _ k v => upd S d (some (List.replicate k v))
  | .assignRange d _ vs _ => upd S d (some vs)
  | .clear d => upd S d (some [])
  | .popBack d => upd S d ((S d).map fun xs => xs.dropLast)
  | .reserve _ _ | .shrinkToFit _ => S
  | .resize d k => upd S d ((S d).map fun xs => xs.take k ++ List.replicate (k - xs.length) env.recDefault)
  | .resizeVal d k v => upd S d ((S d).map fun xs => xs.take k ++ List.replicate (k - xs.length) v)
  | .swap d e => upd (upd S d (S e)) e (S d)
  | .assignElem d i v => upd S d ((S d).map fun xs => xs.set i v)
  | .assignRef d i e k => upd S d ((S d).map fun xs => match (S e).bind (·[k]?) with | some v => xs.set i v | none => xs)
  | .swapRef d i e k => specSwapRef S d i e k
  | .iterMove d i => upd S d ((S d).map fun xs => xs.modify i fun r j => env.movedFrom j (r j))
  | .setField d i j x => upd S d ((S d).map fun xs => xs.modify i fun r => setRec r j x)

/-- What it returns. -/
def specOut (S : SVecs V) : Op V → Out V
  | .emplace _ i _ | .insertVal _ i _ | .insertCount _ i _ _ | .insertRange _ i _ _ | .erase _ i => .pos i
  | .iterMove d i => match (S d).bind (·[i]?) with | some r => .val r | none => .unit
  | _ => .unit

/-- Preconditions of `std::vector`: constructors make new objects, positions are in range. -/
def Legal (S : SVecs V) : Op V → Prop
  | .defaultCtor d | .countValueCtor d _ _ | .countCtor d _ | .rangeCtor d _ _ => S d = none
  | .copyCtor d s | .moveCtor d s => S d = none ∧ (S s).isSome
  | .dtor d | .emplaceBack d _ | .pushBack d _ | .clear d | .reserve d _ | .resize d _ | .resizeVal d _ _ | .shrinkToFit d => (S d).isSome
  | .copyAssign d s | .moveAssign d s | .swap d s => (S d).isSome ∧ (S s).isSome
  | .emplace d i _ | .insertVal d i _ | .insertCount d i _ _ | .insertRange d i _ _ => ∃ xs, S d = some xs ∧ i ≤ xs.length
  | .erase d i | .assignElem d i _ | .iterMove d i | .setField d i _ _ => ∃ xs, S d = some xs ∧ i < xs.length
  | .assignCount d tmp _ _ | .assignRange d tmp _ _ => (S d).isSome ∧ S tmp = none
  | .popBack d => ∃ xs, S d = some xs ∧ xs ≠ []
  | .assignRef d i e k | .swapRef d i e k => (∃ xs, S d = some xs ∧ i < xs.length) ∧ ∃ ys, S e = some ys ∧ k < ys.length

/-- The operations that value-initialise elements. -/
def usesDefault : Op V → Bool
  | .countCtor _ _ | .resize _ _ => true
  | _ => false

/-- The program starts without containers. -/
def init (V : Fin n → Type) : World V := ⟨fun _ => none, 0⟩

/-- Operations that leave the contents of all containers as they were if they throw: constructors, `assign`, `reserve`,
`shrink_to_fit`. -/
def strong : Op V → Bool
  | .countValueCtor _ _ _ | .countCtor _ _ | .rangeCtor _ _ _ | .copyCtor _ _ | .assignCount _ _ _ _ | .assignRange _ _ _ _
  | .reserve _ _ | .shrinkToFit _ => true
  | _ => false

/-- Assignments to one element: its container and position. -/
def elemOf : Op V → Option (Nat × Nat)
  | .assignElem d i _ | .assignRef d i _ _ => some (d, i)
  | _ => none

/-- `Reach env w S`: some history of legal operations leads to the state `w`; the same history of `std::vector<T>` leads to `S`.
Operations that value-initialise elements are included if `T()` has value-initialised fields. An operation completes without
exception, or it is one of the `strong` ones and has no effect on contents, or it is an assignment to one element, which is
left with some value. -/
inductive Reach (env : Env V) : World V → SVecs V → Prop
  | init : Reach env (init V) fun _ => none
  | step {w S op out w'} (h : Reach env w S) (L : Legal S op) (hd : usesDefault op = true → env.recDefault = env.fieldDefault)
      (he : exec env op w = .ok out w') : Reach env w' (specStep env S op)
  | thrown {w S op w'} (h : Reach env w S) (L : Legal S op) (hs : strong op = true) (he : exec env op w = .exn w') : Reach env w' S
  | elemThrown {w S op w' d i r} (h : Reach env w S) (L : Legal S op) (hs : elemOf op = some (d, i)) (he : exec env op w = .exn w')
      (hr : elem d i w' = .ok r w') : Reach env w' (upd S d ((S d).map (·.set i r)))

end AnyAny.Dpv
