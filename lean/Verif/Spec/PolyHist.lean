import Verif.Model.Poly
import Verif.Spec.AnyRun
/-
Client programs with references and pointers to polymorphic values: histories of operations, what the
client must respect (`Legal`), and what references mean (`SRef`): a class and the object referred to.
The meaning mentions neither vtables nor reference layouts.
-/
namespace AnyAny.Poly
open AnyAny.Mem (Method Cfg Ptr World Obj upd content addrOf WF)

/-- One statement. `r` is the reference variable defined, `src` another one. -/
inductive Op where
  | newVar (x t v : Nat)
  | dropVar (x : Nat)
  | mem (op : Mem.Op)
  | ofVar (r : Nat) (k : Kind) (ms : List Method) (x : Nat)
  | ofAny (r : Nat) (k : Kind) (ms : List Method) (a : Option Nat)
  | ofNullT (r : Nat) (k : Kind) (ms : List Method) (t : Nat)
  | ofNull (r : Nat) (k : Kind) (ms : List Method)
  | conv (r : Nat) (k : Kind) (ms : List Method) (src : Nat)
  | assign (r src : Nat)
  | addrOf (r src : Nat)
  | deref (r src : Nat)
  | constCast (r src : Nat)
  | view (r src : Nat)
  | drop (r : Nat)
  | invoke (r m x : Nat)

variable (cfg : Cfg)

/-- Evaluate and store in the variable `r`. -/
def bindVar (r : Nat) (m : PM RefObj) : PM Unit := do
  let o ← m
  setRef (.var r) (some o)

/-- Execute one statement with the model of the library. -/
def exec : Op → PM Unit
  | .newVar x t v => fun w => .ok () { w with vars := upd w.vars x (some (t, v)) }
  | .dropVar x => fun w => .ok () { w with vars := upd w.vars x none }
  | .mem op => liftMem (Mem.exec cfg op)
  | .ofVar r k ms x => bindVar r (if k.isStateful then statefulOfVar k ms x else polyOfVar k ms x)
  | .ofAny r k ms a => bindVar r (ptrOfAny k ms a)
  | .ofNullT r k ms t => bindVar r (ptrOfNullT k ms t)
  | .ofNull r k ms => bindVar r (pure (ptrNull k ms))
  | .conv r k ms src => bindVar r (convert k ms (.var src))
  | .assign r src => bindVar r (getRef (.var src))
  | .addrOf r src => bindVar r (addrOfRef (.var src))
  | .deref r src => bindVar r (derefPtr (.var src))
  | .constCast r src => bindVar r (constPointerCast (.var src))
  | .view r src => bindVar r (getView (.var src))
  | .drop r => setRef (.var r) none
  | .invoke r m x => do let _ ← invokeRef cfg (.var r) m x; pure ()

/-- What a reference is: its class, the dynamic type and address of the object it refers to (`none`: a
null pointer), and the stateful reference whose `get_view()` it was made from, if any: such a view may
not outlive or survive a change of its `lender` (the usual rule for references). -/
structure SRef where
  kind : Kind
  ms : List Method
  target : Option (Nat × Addr)
  lender : Option Nat
deriving DecidableEq

abbrev SRefs := Nat → Option SRef

/-- Dynamic type and address of the value in any `a`. -/
def anyTarget (w : World) (a : Nat) : Option (Nat × Addr) :=
  (content w a).bind fun o => (addrOf w a).map fun p => (o.ty, .mem p)

/-- Reference behaviour. -/
def specStep (w : PW) (S : SRefs) : Op → SRefs
  | .ofVar r k ms x => upd S r (some ⟨k, ms, (w.vars x).map fun tv => (tv.1, .var x), none⟩)
  | .ofAny r k ms a => upd S r (some ⟨k, ms, a.bind fun a => anyTarget w.mem a, none⟩)
  | .ofNullT r k ms _ | .ofNull r k ms => upd S r (some ⟨k, ms, none, none⟩)
  | .conv r k ms src => upd S r ((S src).map fun s =>
      ⟨k, ms, s.target, if k.isStateful then none else s.lender⟩)
  | .assign r src => upd S r (S src)
  | .addrOf r src => upd S r ((S src).map fun s =>
      { s with kind := if s.kind.isConst then .constPolyPtr else .polyPtr })
  | .deref r src => upd S r ((S src).map fun s =>
      { s with kind := if s.kind.isConst then .constPolyRef else .polyRef })
  | .constCast r src => upd S r ((S src).map fun s => { s with kind := .polyPtr })
  | .view r src => upd S r ((S src).map fun s =>
      ⟨if s.kind.isConst then .constPolyRef else .polyRef, s.ms, s.target, some src⟩)
  | .drop r => upd S r none
  | .newVar .. | .dropVar .. | .mem .. | .invoke .. => S

/-- Is there (still) an object of type `t` at the address? -/
def liveAt (w : PW) (t : Nat) : Addr → Prop
  | .mem p => ∃ a o, content w.mem a = some o ∧ addrOf w.mem a = some p ∧ o.ty = t
  | .var x => ∃ v, w.vars x = some (t, v)

/-- There is an object of type `t` with value `v` at the address. -/
def holds (w : PW) (t v : Nat) : Addr → Prop
  | .mem p => ∃ c o, content w.mem c = some o ∧ addrOf w.mem c = some p ∧ o.ty = t ∧ o.val = v
  | .var x => w.vars x = some (t, v)

/-- What a call may change: the value of the object at `a`, nothing else. -/
def OnlyAt (w w' : PW) (a : Addr) : Prop :=
  w'.refs = w.refs ∧
  (∀ x, a ≠ .var x → w'.vars x = w.vars x) ∧
  (∀ c, (∀ p, addrOf w.mem c = some p → a ≠ .mem p) → Mem.snap w'.mem c = Mem.snap w.mem c) ∧
  ∀ c, (Mem.snap w'.mem c).map (fun s => (s.ms, s.al, s.mem, s.obj.map fun o => (o.id, o.ty))) =
    (Mem.snap w.mem c).map fun s => (s.ms, s.al, s.mem, s.obj.map fun o => (o.id, o.ty))

/-- The conversions that exist (the constructors of the six class templates). -/
def Converts (k : Kind) (ms : List Method) (s : SRef) : Prop :=
  match k, s.kind with
  | .polyRef, .polyRef | .constPolyRef, .constPolyRef | .constPolyRef, .polyRef
  | .polyPtr, .polyPtr | .constPolyPtr, .constPolyPtr | .constPolyPtr, .polyPtr => ms <:+: s.ms
  | .ref, .polyRef | .ref, .ref
  | .cref, .polyRef | .cref, .constPolyRef | .cref, .ref | .cref, .cref => ∀ m ∈ ms, m ∈ s.ms
  | _, _ => False

/-- The variable `r` may be defined or changed: no existing view borrows from it. -/
def NotLent (S : SRefs) (r : Nat) : Prop := ∀ n s, S n = some s → s.lender ≠ some r

/-- What the client must respect. -/
def Legal (w : PW) (S : SRefs) : Op → Prop
  | .newVar .. | .dropVar .. => True
  | .mem op => Mem.Legal cfg w.mem op
  | .ofVar r _ _ x => NotLent S r ∧ (w.vars x).isSome
  | .ofAny r k ms a => NotLent S r ∧ k.isPtr = true ∧
      ∀ a', a = some a' → ∃ s, Mem.snap w.mem a' = some s ∧ ms <:+: s.ms
  | .ofNullT r k _ _ | .ofNull r k _ => NotLent S r ∧ k.isPtr = true
  | .conv r k ms src => NotLent S r ∧ ∃ s, S src = some s ∧ Converts k ms s
  | .assign r src => NotLent S r ∧ ∃ d s, S r = some d ∧ S src = some s ∧ d.kind = s.kind ∧ d.ms = s.ms
  | .addrOf r src => NotLent S r ∧ ∃ s, S src = some s ∧ (s.kind = .polyRef ∨ s.kind = .constPolyRef)
  | .deref r src => NotLent S r ∧ ∃ s, S src = some s ∧ s.kind.isPtr = true ∧ s.target.isSome
  | .constCast r src => NotLent S r ∧ ∃ s, S src = some s ∧ s.kind = .constPolyPtr
  | .view r src => NotLent S r ∧ r ≠ src ∧ ∃ s, S src = some s ∧ s.kind.isStateful = true
  | .drop r => NotLent S r
  | .invoke r m _ => ∃ s t p, S r = some s ∧ s.target = some (t, p) ∧ .user m ∈ s.ms ∧ s.kind.isPtr = false ∧
      (s.kind.isConst = true → cfg.kind m ≠ .mutRef) ∧ liveAt w t p

/-- The empty program state. -/
def PW.init : PW := ⟨.init, fun _ => none, fun _ => none, 0⟩

/-- States that a client program can reach, with the meaning of all references. An operation that throws
changes no reference. -/
inductive Reach : PW → SRefs → Prop
  | init : Reach .init (fun _ => none)
  | ok {w w' S op} : Reach w S → Legal cfg w S op → exec cfg op w = .ok () w' → Reach w' (specStep w S op)
  | exn {w w' S op} : Reach w S → Legal cfg w S op → exec cfg op w = .exn w' → Reach w' S

end AnyAny.Poly
