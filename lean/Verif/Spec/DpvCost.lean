import Verif.Model.DpvCost
/-
What `std::vector` does (C133): the number of elements moved by `insert(pos, first, last)`, from the standard ("the complexity is linear in the number of
elements inserted plus the distance to the end of the vector").
-/
namespace AnyAny.DpvCost

/-- A `std::vector`: number of elements, capacity and moves. -/
structure Vec where
  len : Nat
  col : Col
deriving DecidableEq, Repr

/-- `std::vector::insert(pos, first, last)` of `m` elements at position `i`: if there is room the elements behind the position are moved once, otherwise
all elements are moved once to new memory. -/
def Vec.insert (grow : Nat → Nat) (i m : Nat) (v : Vec) : Vec :=
  if m = 0 then v
  else if v.len + m ≤ v.col.cap then ⟨v.len + m, v.col.cap, v.col.moves + (v.len - i)⟩
  else ⟨v.len + m, max (grow v.col.cap) (v.len + m), v.col.moves + v.len⟩

/-- The same, `k` times, each time before the last element. -/
def Vec.insertMany (grow : Nat → Nat) (m : Nat) : Nat → Vec → Vec
  | 0, v => v
  | k + 1, v => Vec.insertMany grow m k (v.insert grow (v.len - 1) m)

/-- The `data_parallel_vector`, `k` times, each time before the last element. -/
def insertMany (grow : Nat → Nat) (ra : Bool) (m : Nat) : Nat → Dpv → Dpv
  | 0, d => d
  | k + 1, d => insertMany grow ra m k (insertRange grow ra (d.len - 1) m d)

/-- The column of this index as a `std::vector`. -/
def Dpv.column (d : Dpv) (j : Nat) : Option Vec := d.cols[j]?.map fun c => ⟨d.len, c⟩

/-- Full vectors grow by at least one `k`-th of their capacity: `k = 1` for libstdc++ and libc++ (twice the capacity), `k = 3` for MSVC (one and a half,
rounded down). -/
def Geometric (grow : Nat → Nat) (k : Nat) : Prop := ∀ c, (k + 1) * c ≤ k * max (grow c) (c + 1)

/-- How many elements a program of operations at the end appends. -/
def appended : List EndOp → Nat
  | [] => 0
  | .pushBack :: ops => 1 + appended ops
  | .insertEnd _ m :: ops => m + appended ops
  | _ :: ops => appended ops

/-- How many elements there are after a program of operations at the end, if there were `n`. -/
def sizeAfter : List EndOp → Nat → Nat
  | [], n => n
  | .pushBack :: ops, n => sizeAfter ops (n + 1)
  | .insertEnd _ m :: ops, n => sizeAfter ops (n + m)
  | .popBack :: ops, n => sizeAfter ops (n - 1)
  | .clear :: ops, _ => sizeAfter ops 0

end AnyAny.DpvCost
