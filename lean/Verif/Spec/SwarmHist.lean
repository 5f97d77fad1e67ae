import Verif.Model.Swarm
/-
Histories of operations on swarms, and their meaning for `std::vector<std::variant<Ts...>>`: the list of all values in the order they
were added.
-/
namespace AnyAny.Swarm

variable {n : Nat} {V : Fin n → Type}

/-- A value of `std::variant<Ts...>`. -/
abbrev Val (V : Fin n → Type) := (i : Fin n) × V i

/-- One operation of a history. -/
inductive Op (V : Fin n → Type) where
  | make (d : Nat)
  /-- copy construction of a new swarm -/
  | copy (d s : Nat)
  | copyAssign (d s : Nat)
  /-- move construction or assignment; the source, whose contents are those of moved-from containers, is not used again before `make` -/
  | move (d s : Nat)
  | destroy (d : Nat)
  | insert (d : Nat) (i : Fin n) (x : V i)
  | insertInit (d : Nat) (i : Fin n) (xs : List (V i))
  | emplace (d : Nat) (i : Fin n) (x : V i)
  /-- `aa::inserter(swarm)` visiting a variant -/
  | insertVariant (d : Nat) (x : Val V)
  /-- the `k`-th value of the type `i` -/
  | erase (d : Nat) (i : Fin n) (k : Nat)
  | eraseRange (d : Nat) (i : Fin n) (b e : Nat)
  | swap (d e : Nat)

def upd {α} (f : Nat → Option α) (k : Nat) (v : Option α) : Nat → Option α := fun x => if x = k then v else f x

/-- The swarms of the program. -/
abbrev World (V : Fin n → Type) := Nat → Option (Swarm V)

/-- An operation on the swarm `d` has changed it, and threw or not. -/
def store (w : World V) (d : Nat) (r : SwarmAfter V) : World V × Option (Fin n) := (upd w d (some r.1), r.2)

/-- One operation at the moment `t`: the swarms afterwards, and the container that threw, if there is an exception. `none`: does not
compile, or there is no such swarm. -/
def exec (c : (i : Fin n) → Cont (V i)) (t : Nat) (w : World V) : Op V → Option (World V × Option (Fin n))
  | .make d => some (upd w d (some fun _ => []), none)
  | .copy d s => do
    let x ← w s
    match copyCtor c t x with
    | .error i => some (w, some i)
    | .ok y => some (upd w d (some y), none)
  | .copyAssign d s => do let x ← w d; let y ← w s; some (store w d (copyAssign c t x y))
  | .move d s => do let x ← w s; some (upd (upd w s none) d (some x), none)
  | .destroy d => some (upd w d none, none)
  | .insert d i x => do let s ← w d; let r ← Swarm.insert c t s i x; some (store w d r)
  | .insertInit d i xs => do let s ← w d; let r ← Swarm.insertInit c t s i xs; some (store w d r)
  | .emplace d i x => do let s ← w d; let r ← Swarm.emplace c t s i x; some (store w d r)
  | .insertVariant d x => do let s ← w d; let r ← inserterVisit c t s x; some (store w d r)
  | .erase d i k => do let s ← w d; some (store w d (Swarm.erase c t s i k))
  | .eraseRange d i b e => do let s ← w d; some (store w d (Swarm.eraseRange c t s i b e))
  | .swap d e => do let s ← w d; let t ← w e; some (upd (upd w d (some (Swarm.swap s t).1)) e (some (Swarm.swap s t).2), none)

/-! ### `std::vector<std::variant<Ts...>>` -/

abbrev SWorld (V : Fin n → Type) := Nat → Option (List (Val V))

/-- The list without the values of type `i` whose number among those, counted from `k`, is chosen by `p`. -/
def eraseNth (i : Fin n) (p : Nat → Bool) : Nat → List (Val V) → List (Val V)
  | _, [] => []
  | k, y :: ys => if y.1 = i then (if p k then eraseNth i p (k + 1) ys else y :: eraseNth i p (k + 1) ys) else y :: eraseNth i p k ys

def specStep (S : SWorld V) : Op V → SWorld V
  | .make d => upd S d (some [])
  | .copy d s | .copyAssign d s => upd S d (S s)
  | .move d s => upd (upd S s none) d (S s)
  | .destroy d => upd S d none
  | .insert d i x | .emplace d i x => upd S d ((S d).map (· ++ [⟨i, x⟩]))
  | .insertInit d i xs => upd S d ((S d).map (· ++ xs.map fun x => ⟨i, x⟩))
  | .insertVariant d x => upd S d ((S d).map (· ++ [x]))
  | .erase d i k => upd S d ((S d).map (eraseNth i (· == k) 0))
  | .eraseRange d i b e => upd S d ((S d).map (eraseNth i (fun k => decide (b ≤ k ∧ k < e)) 0))
  | .swap d e => upd (upd S d (S e)) e (S d)

/-- Values of the type `i`. -/
def ofType (i : Fin n) : List (Val V) → List (V i)
  | [] => []
  | y :: ys => if h : y.1 = i then (h ▸ y.2) :: ofType i ys else ofType i ys

/-- Swarms exist, iterators are those of existing values. -/
def Legal (S : SWorld V) : Op V → Prop
  | .make _ | .destroy _ => True
  | .move _ s => (S s).isSome
  | .copy d s => S d = none ∧ (S s).isSome
  | .copyAssign d s => (S d).isSome ∧ (S s).isSome
  | .insert d _ _ | .emplace d _ _ | .insertInit d _ _ | .insertVariant d _ => (S d).isSome
  | .erase d i k => ∃ l, S d = some l ∧ k < (ofType i l).length
  | .eraseRange d i b e => ∃ l, S d = some l ∧ b ≤ e ∧ e ≤ (ofType i l).length
  | .swap d e => (S d).isSome ∧ (S e).isSome

/-- The swarm whose values of one type an operation adds or removes, and that type. -/
def Op.concerns : Op V → Option (Nat × Fin n)
  | .insert d i _ | .insertInit d i _ | .emplace d i _ | .insertVariant d ⟨i, _⟩ | .erase d i _ | .eraseRange d i _ _ => some (d, i)
  | _ => none

/-- The values in each swarm, by types, after an operation for which the container for type `i` threw and has the values `left`: a copy
constructor has no effect; an operation on the values of one type leaves the values of the other types alone; copy assignment has assigned
the values of the types before `i`. -/
def ThrowStep {α : Type} (of : (j : Fin n) → α → List (V j)) (S : Nat → Option α) (op : Op V) (i : Fin n) (left : List (V i))
    (S' : Nat → Option α) : Prop :=
  match op with
  | .copy _ _ => S' = S
  | .copyAssign d s => ∃ l m l', S d = some l ∧ S s = some m ∧ S' = upd S d (some l') ∧
      of i l' = left ∧ (∀ j, j < i → of j l' = of j m) ∧ ∀ j, i < j → of j l' = of j l
  | op => ∃ d l l', op.concerns = some (d, i) ∧ S d = some l ∧ S' = upd S d (some l') ∧ of i l' = left ∧ ∀ j, j ≠ i → of j l' = of j l

/-- What the container for type `i` has of which the operation is about. -/
def leftIn (w : World V) (op : Op V) (i : Fin n) : List (V i) :=
  match op with
  | .copyAssign d _ => ((w d).map fun s => s i).getD []
  | op => ((op.concerns.bind fun p => w p.1).map fun s => s i).getD []

/-- States reached by histories, in which operations may throw at any moment. -/
inductive Reach (c : (i : Fin n) → Cont (V i)) : World V → SWorld V → Prop
  | init : Reach c (fun _ => none) fun _ => none
  | step {w S op t w'} (h : Reach c w S) (L : Legal S op) (he : exec c t w op = some (w', none)) : Reach c w' (specStep S op)
  | throws {w S op t w' i S'} (h : Reach c w S) (L : Legal S op) (he : exec c t w op = some (w', some i))
      (hS : ThrowStep ofType S op i (leftIn w' op i) S') : Reach c w' S'

/-! ### kinds of containers -/

/-- A sequence: values are added at the end, by every member that exists; there is one for each purpose. A member that throws may leave
anything. -/
structure Seq {α} (c : Cont α) : Prop where
  pushBack : ∀ f, c.pushBack = some f → ∀ t l x, (f t l x).2 = false → (f t l x).1 = l ++ [x]
  emplaceBack : ∀ f, c.emplaceBack = some f → ∀ t l x, (f t l x).2 = false → (f t l x).1 = l ++ [x]
  insertEnd : ∀ f, c.insertEnd = some f → ∀ t l x, (f t l x).2 = false → (f t l x).1 = l ++ [x]
  insertVal : c.insertVal = none
  emplaceVal : c.emplaceVal = none
  insertList : c.insertList = none
  insertListEnd : ∀ f, c.insertListEnd = some f → ∀ t l xs, (f t l xs).2 = false → (f t l xs).1 = l ++ xs
  adds : c.pushBack ≠ none ∨ c.insertEnd ≠ none
  emplaces : c.emplaceBack ≠ none
  addsList : c.insertListEnd ≠ none

/-- Any container, known by what adding a value means, up to the order: `add l x` is `x :: l` for multisets and sequences, and `l` if `l`
has an equivalent of `x` for sets and maps. A member that throws may leave anything. -/
structure Adds {α} (add : List α → α → List α) (c : Cont α) : Prop where
  perm : ∀ l l' x, l.Perm l' → (add l x).Perm (add l' x)
  one : ∀ f, (c.pushBack = some f ∨ c.emplaceBack = some f ∨ c.insertVal = some f ∨ c.insertEnd = some f ∨ c.emplaceVal = some f) →
    ∀ t l x, (f t l x).2 = false → (f t l x).1.Perm (add l x)
  list : ∀ f, (c.insertList = some f ∨ c.insertListEnd = some f) → ∀ t l xs, (f t l xs).2 = false → (f t l xs).1.Perm (xs.foldl add l)

/-- Adding one value has no effect if it throws (sequences: `push_back` of types that can be copied or whose move does not throw; sets, maps
and lists). -/
structure Strong {α} (c : Cont α) : Prop where
  one : ∀ f, (c.pushBack = some f ∨ c.emplaceBack = some f ∨ c.insertVal = some f ∨ c.insertEnd = some f ∨ c.emplaceVal = some f) →
    ∀ t l x, (f t l x).2 = true → (f t l x).1 = l

/-- No member of the container throws. -/
structure Quiet {α} (c : Cont α) : Prop where
  one : ∀ f, (c.pushBack = some f ∨ c.emplaceBack = some f ∨ c.insertVal = some f ∨ c.insertEnd = some f ∨ c.emplaceVal = some f) →
    ∀ t l x, (f t l x).2 = false
  list : ∀ f, (c.insertList = some f ∨ c.insertListEnd = some f) → ∀ t l xs, (f t l xs).2 = false
  erase : ∀ t l b e, c.eraseThrows t l b e = none
  copy : ∀ t l, c.copyThrows t l = false
  assign : ∀ t l m, c.assignThrows t l m = none

/-- `std::vector`, whose allocations and copies throw when `bad` says so. Adding one value at the end has no effect then; adding several or
assignment leaves what they have done so far. -/
def vec (α : Type) (bad : Nat → Bool := fun _ => false) : Cont α where
  pushBack := some fun t l x => if bad t then (l, true) else (l ++ [x], false)
  emplaceBack := some fun t l x => if bad t then (l, true) else (l ++ [x], false)
  insertVal := none
  insertEnd := some fun t l x => if bad t then (l, true) else (l ++ [x], false)
  emplaceVal := none
  insertList := none
  insertListEnd := some fun t l xs => if bad t then (l ++ xs.take 1, true) else (l ++ xs, false)
  copyThrows t _ := bad t
  assignThrows t _ m := if bad t then some (m.take 1) else none

/-- `std::multiset` with a comparison: a value is inserted behind those that are not greater. -/
def insertSorted {α} (lt : α → α → Bool) (x : α) : List α → List α
  | [] => [x]
  | y :: ys => if lt x y then x :: y :: ys else y :: insertSorted lt x ys

def multiset {α} (lt : α → α → Bool) : Cont α where
  pushBack := none
  emplaceBack := none
  insertVal := some fun _ l x => (insertSorted lt x l, false)
  insertEnd := some fun _ l x => (insertSorted lt x l, false)
  emplaceVal := some fun _ l x => (insertSorted lt x l, false)
  insertList := some fun _ l xs => (xs.foldl (fun l x => insertSorted lt x l) l, false)
  insertListEnd := none

/-- `std::set` with the equivalence `eqv`, up to the order. -/
def addUnique {α} (eqv : α → α → Bool) (l : List α) (x : α) : List α := if l.any (eqv x) then l else x :: l

/-- `std::set`: a value is not inserted if it has an equivalent. The comparison may throw. -/
def set {α} (lt : α → α → Bool) (bad : Nat → Bool := fun _ => false) : Cont α where
  pushBack := none
  emplaceBack := none
  insertVal := some fun t l x => if bad t then (l, true) else (if l.any (fun y => !lt x y && !lt y x) then l else insertSorted lt x l, false)
  insertEnd := none
  emplaceVal := some fun t l x => if bad t then (l, true) else (if l.any (fun y => !lt x y && !lt y x) then l else insertSorted lt x l, false)
  insertList := some fun _ l xs => (xs.foldl (fun l x => if l.any (fun y => !lt x y && !lt y x) then l else insertSorted lt x l) l, false)
  insertListEnd := none

/-! ### contents up to the order, for any containers -/

/-- What the values of each type are, up to the order, after an operation. `T` are the contents before, `T'` after; erased values are
those the iterators refer to, that is the values the container has at these positions. -/
def BagStep (add : (i : Fin n) → List (V i) → V i → List (V i)) (w : World V) (T T' : Nat → Option ((i : Fin n) → List (V i))) : Op V → Prop
  | .make d => T' = upd T d (some fun _ => [])
  | .copy d s | .copyAssign d s => T' = upd T d (T s)
  | .move d s => T' = upd (upd T s none) d (T s)
  | .destroy d => T' = upd T d none
  | .insert d i x | .emplace d i x | .insertVariant d ⟨i, x⟩ =>
    ∃ t t', T d = some t ∧ T' = upd T d (some t') ∧ t' i = add i (t i) x ∧ ∀ j, j ≠ i → t' j = t j
  | .insertInit d i xs => ∃ t t', T d = some t ∧ T' = upd T d (some t') ∧ t' i = xs.foldl (add i) (t i) ∧ ∀ j, j ≠ i → t' j = t j
  | .erase d i k => ∃ t t' s x, T d = some t ∧ T' = upd T d (some t') ∧ w d = some s ∧ (s i)[k]? = some x ∧ (t i).Perm (x :: t' i) ∧
      ∀ j, j ≠ i → t' j = t j
  | .eraseRange d i b e => ∃ t t' s, T d = some t ∧ T' = upd T d (some t') ∧ w d = some s ∧ b ≤ e ∧ e ≤ (s i).length ∧
      (t i).Perm (((s i).drop b).take (e - b) ++ t' i) ∧ ∀ j, j ≠ i → t' j = t j
  | .swap d e => T' = upd (upd T d (T e)) e (T d)

/-- States reached by histories, with any containers. -/
inductive BagReach (c : (i : Fin n) → Cont (V i)) (add : (i : Fin n) → List (V i) → V i → List (V i)) :
    World V → (Nat → Option ((i : Fin n) → List (V i))) → Prop
  | init : BagReach c add (fun _ => none) fun _ => none
  | step {w T op t w' T'} (h : BagReach c add w T) (hs : BagStep add w T T' op) (he : exec c t w op = some (w', none)) : BagReach c add w' T'
  | throws {w T op t w' i T'} (h : BagReach c add w T) (he : exec c t w op = some (w', some i))
      (hs : ThrowStep (fun j x => x j) T op i (leftIn w' op i) T') : BagReach c add w' T'

/-! ### visits -/

/-- The values in the order of visiting all types of `types`. -/
def grouped (types : List (Fin n)) (l : List (Val V)) : List (Val V) := types.flatMap fun i => (ofType i l).map fun x => ⟨i, x⟩

variable {σ R : Type}

/-- Call the visitor with each value in turn, and `out` with each result, until one throws: the final state, and whether one threw. -/
def runAll (v : Visitor V σ R) (out : σ → R → σ × Bool) : List (Val V) → σ → σ × Bool
  | [], s => (s, false)
  | x :: xs, s =>
    match v x.1 s x.2 with
    | (s', _, .throws) => (s', true)
    | (s', _, .void) => runAll v out xs s'
    | (s', _, .val r) => if (out s' r).2 then ((out s' r).1, true) else runAll v out xs (out s' r).1

/-- The visitor does not change the values (as for const swarms). -/
def Reading (v : Visitor V σ R) : Prop := ∀ i s x, (v i s x).2.1 = x

/-- The results of the calls until one throws, in order, the final state, and whether one threw. -/
def results (v : Visitor V σ R) : List (Val V) → σ → List R × σ × Bool
  | [], s => ([], s, false)
  | x :: xs, s =>
    match v x.1 s x.2 with
    | (s', _, .throws) => ([], s', true)
    | (s', _, .void) => results v xs s'
    | (s', _, .val r) => let q := results v xs s'; (r :: q.1, q.2)

end AnyAny.Swarm
