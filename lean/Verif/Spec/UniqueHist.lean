import Verif.Model.UniquePtr
import Verif.Spec.PolyHist
/-
Histories of `std::unique_ptr<interface>` and their meaning: who owns which object. Nothing here mentions vtables or deletions.
-/
namespace AnyAny.UPtr
open AnyAny.Poly (Kind SRef Converts)
open AnyAny.Mem (Method)

inductive Op where
  | makeNew (d : Nat) (const : Bool) (ms : List Method) (t v : Nat)
  | makeNull (d : Nat) (const : Bool) (ms : List Method)
  | moveCtor (d s : Nat)
  | moveAssign (d s : Nat)
  | resetNew (d t v : Nat)
  | resetNull (d : Nat)
  /-- into the new pointer variable `p` -/
  | release (p d : Nat)
  /-- the pointer variable `p` is not used again -/
  | adopt (d : Nat) (const : Bool) (ms : List Method) (p : Nat)
  | resetRaw (d p : Nat)
  /-- the end of life of the pointer variable `p` -/
  | forget (p : Nat)
  | swap (d e : Nat)
  | destroy (d : Nat)

def exec : Op → UW → Option UW
  | .makeNew d c ms t v, w => UPtr.makeNew d c ms t v w
  | .makeNull d c ms, w => some (UPtr.makeNull d c ms w)
  | .moveCtor d s, w => UPtr.moveCtor d s w
  | .moveAssign d s, w => UPtr.moveAssign d s w
  | .resetNew d t v, w => UPtr.resetNew d t v w
  | .resetNull d, w => UPtr.resetNull d w
  | .release p d, w => releaseTo p d w
  | .adopt d c ms p, w => UPtr.adopt d c ms p w
  | .resetRaw d p, w => UPtr.resetRaw d p w
  | .forget p, w => some (put p none w)
  | .swap d e, w => UPtr.swap d e w
  | .destroy d, w => UPtr.destroy d w

/-- A variable: a `unique_ptr` (`uniq`) or the result of `release()`; the object it has, by number. -/
structure Slot where
  uniq : Bool
  const : Bool
  ms : List Method
  obj : Option Nat

structure SS where
  slots : Nat → Option Slot
  /-- types of all objects made so far -/
  types : List Nat
  /-- objects whose last pointer was forgotten -/
  leaked : List Nat

def Slot.noObj (s : Slot) : Slot := { s with obj := none }

def SS.objOf (S : SS) (d : Nat) : Option Nat := (S.slots d).bind (·.obj)

def setSlot (S : SS) (d : Nat) (s : Option Slot) : SS := { S with slots := fun k => if k = d then s else S.slots k }

/-- Transfer the object of `s` to `d`; what `d` had is not owned any more. -/
def give (S : SS) (d s : Nat) : SS :=
  setSlot (setSlot S s ((S.slots s).map Slot.noObj)) d ((S.slots d).map fun q => { q with obj := S.objOf s })

def specStep (S : SS) : Op → SS
  | .makeNew d c ms t _ => { setSlot S d (some ⟨true, c, del :: ms, some S.types.length⟩) with types := S.types ++ [t] }
  | .makeNull d c ms => setSlot S d (some ⟨true, c, del :: ms, none⟩)
  | .moveCtor d s => setSlot (setSlot S s ((S.slots s).map Slot.noObj)) d (S.slots s)
  | .moveAssign d s => give S d s
  | .resetNew d t _ =>
    { setSlot S d ((S.slots d).map fun q => { q with obj := some S.types.length }) with types := S.types ++ [t] }
  | .resetNull d => setSlot S d ((S.slots d).map Slot.noObj)
  | .release p d => setSlot (setSlot S d ((S.slots d).map Slot.noObj)) p ((S.slots d).map fun q => { q with uniq := false })
  | .adopt d c ms p => setSlot (setSlot S p none) d (some ⟨true, c, del :: ms, S.objOf p⟩)
  | .resetRaw d p => setSlot (setSlot S p none) d ((S.slots d).map fun q => { q with obj := S.objOf p })
  | .forget p => { setSlot S p none with leaked := (S.objOf p).toList ++ S.leaked }
  | .swap d e => setSlot (setSlot S d (S.slots e)) e (S.slots d)
  | .destroy d => setSlot S d none

def IsUniq (S : SS) (d : Nat) : Prop := ∃ s, S.slots d = some s ∧ s.uniq = true
def IsRaw (S : SS) (p : Nat) : Prop := ∃ s, S.slots p = some s ∧ s.uniq = false

/-- `const_poly_ptr<Methods...>` for a const interface, `poly_ptr<Methods...>` otherwise. -/
def ptrClass : Bool → Kind
  | true => .constPolyPtr
  | false => .polyPtr

/-- The pointer class converts. -/
def SlotConv (const : Bool) (ms : List Method) (s : Slot) : Prop := Converts (ptrClass const) ms ⟨ptrClass s.const, s.ms, none, none⟩

/-- The types of a program fit. -/
def Legal (S : SS) : Op → Prop
  | .makeNew d .. | .makeNull d .. => S.slots d = none
  | .moveCtor d s => S.slots d = none ∧ IsUniq S s
  | .moveAssign d s => ∃ a b, S.slots d = some a ∧ S.slots s = some b ∧ a.uniq = true ∧ b.uniq = true ∧ a.const = b.const ∧ a.ms = b.ms
  | .resetNew d .. | .resetNull d | .destroy d => IsUniq S d
  | .release p d => S.slots p = none ∧ IsUniq S d
  | .adopt d c ms p => S.slots d = none ∧ ∃ s, S.slots p = some s ∧ s.uniq = false ∧ SlotConv c (del :: ms) s
  | .resetRaw d p => ∃ a s, S.slots d = some a ∧ a.uniq = true ∧ S.slots p = some s ∧ s.uniq = false ∧ SlotConv a.const a.ms s
  | .forget p => IsRaw S p
  | .swap d e => ∃ a b, S.slots d = some a ∧ S.slots e = some b ∧ a.uniq = true ∧ b.uniq = true ∧ a.const = b.const ∧ a.ms = b.ms

def UW.init : UW := ⟨Poly.PW.init, [], 0⟩
def SS.init : SS := ⟨fun _ => none, [], []⟩

inductive Reach : UW → SS → Prop
  | init : Reach .init .init
  | step {w S op w'} (h : Reach w S) (L : Legal S op) (he : exec op w = some w') : Reach w' (specStep S op)

/-- Some variable has the object `x`. -/
def Owned (S : SS) (x : Nat) : Prop := ∃ d, S.objOf d = some x

end AnyAny.UPtr
