import Verif.Model.AnyMem
/-
Observable state of a world of any objects, used to state the properties of `basic_any`.
Nothing here mentions how the operations work.
-/
namespace AnyAny.Mem

/-- The object contained in the any at address `a` (identity, type, value): what is stored at
`value_ptr` if `has_value()`. -/
def content (w : World) (a : Nat) : Option Obj :=
  (w.anys a).bind fun s => if s.vt.isSome then cellAt w s.vp else none

/-- Dynamic type and value of the any at `a`: what a user can observe. `none`: no value. -/
def view (w : World) (a : Nat) : Option (Nat × Nat) := (content w a).map fun o => (o.ty, o.val)

/-- Is there an any object at address `a`? -/
def alive (w : World) (a : Nat) : Prop := (w.anys a).isSome = true

instance (w a) : Decidable (alive w a) := inferInstanceAs (Decidable (_ = true))

/-- The memory block owned by the any at `a`, with its size. -/
def memOf (w : World) (a : Nat) : Option (Nat × Nat) :=
  (w.anys a).bind fun s =>
    match s.vp with
    | .data _ => none
    | .blk b => (w.blks b).map fun k => (b, k.size)

/-- Method list (class) of the any at `a`. -/
def methodsOf (w : World) (a : Nat) : Option (List Method) := (w.anys a).map (·.ms)

/-- Allocator of the any at `a`. -/
def allocOf (w : World) (a : Nat) : Option Nat := (w.anys a).map (·.al)

/-- Address at which the any at `a` keeps its value. -/
def addrOf (w : World) (a : Nat) : Option Ptr := (w.anys a).map (·.vp)

/-- Does a class with methods `ms` have `type_descriptor()`, and thereby `any_cast`? `aa::type_info`,
`aa::equal_to` and `aa::spaceship` provide it. -/
def HasDesc (ms : List Method) : Prop := .typeInfo ∈ ms ∨ .equalTo ∈ ms ∨ .spaceship ∈ ms

instance (ms : List Method) : Decidable (HasDesc ms) := by unfold HasDesc; infer_instance

/-- Everything observable about one any object. -/
structure Snap where
  ms : List Method
  al : Nat
  /-- owned block and its size -/
  mem : Option (Nat × Nat)
  obj : Option Obj
deriving DecidableEq, Repr

def snap (w : World) (a : Nat) : Option Snap :=
  (w.anys a).map fun s => ⟨s.ms, s.al, memOf w a, content w a⟩

/-- Address of the value storage of the any at `a`. -/
def Snap.loc (a : Nat) (s : Snap) : Ptr :=
  match s.mem with
  | none => .data a
  | some (b, _) => .blk b

/-- The vtable pointer of an any with methods `ms` is usable: it points to entries for exactly the
methods `ms`. -/
def VtOk (ms : List Method) (v : VtPtr) : Prop := ms <+: v.table.drop v.off

/-- What must hold for one any object. -/
structure AnyOk (cfg : Cfg) (w : World) (a : Nat) (s : AnySt) : Prop where
  destroyIn : Method.destroy ∈ s.ms
  /-- either the any uses its buffer, or it owns a live block whose size it remembers and which was
  provided by an allocator equal to its own -/
  shape : s.vp = .data a ∨
    ∃ b k, s.vp = .blk b ∧ w.blks b = some k ∧ s.buf = .size k.size ∧ allocEq cfg k.al s.al = true
  /-- a non-empty any has a live, never destroyed object of the type its vtable says, in storage large
  enough -/
  full : ∀ v, s.vt = some v → ∃ o, cellAt w s.vp = some o ∧ o.ty = v.ty ∧ VtOk s.ms v ∧
    o.id < w.nextObj ∧ w.born o.id = o.ty ∧ w.dtors o.id = 0 ∧
    (s.vp = .data a → fits cfg o.ty = true) ∧
    (∀ b k, s.vp = .blk b → w.blks b = some k → (cfg.ty o.ty).size ≤ k.size)
  /-- an empty any's storage holds nothing that needs destruction -/
  empty : s.vt = none → cellFree cfg (cellAt w s.vp) = true

/-- Well-formed worlds. The last six fields are the accounting of blocks and objects: nothing leaks,
nothing is released twice. -/
structure WF (cfg : Cfg) (w : World) : Prop where
  any : ∀ a s, w.anys a = some s → AnyOk cfg w a s
  blkInj : ∀ a s c t b, w.anys a = some s → w.anys c = some t → s.vp = .blk b → t.vp = .blk b → a = c
  objInj : ∀ a c o p, content w a = some o → content w c = some p → o.id = p.id → a = c
  owned : ∀ b k, w.blks b = some k → ∃ a s, w.anys a = some s ∧ s.vp = .blk b
  freed : ∀ b, b < w.nextBlk → w.frees b = if (w.blks b).isSome then 0 else 1
  beyondBlk : ∀ b, w.nextBlk ≤ b → w.blks b = none ∧ w.frees b = 0
  destroyed : ∀ i, i < w.nextObj → (cfg.ty (w.born i)).trivDestr = false →
    w.dtors i = 1 ∨ (w.dtors i = 0 ∧ ∃ a o, content w a = some o ∧ o.id = i)
  beyondObj : ∀ i, w.nextObj ≤ i → w.dtors i = 0
  once : ∀ i, i < w.nextObj → w.dtors i ≤ 1

end AnyAny.Mem
