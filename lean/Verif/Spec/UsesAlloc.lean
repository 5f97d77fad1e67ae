import Verif.Model.UsesAlloc
/-
Construction with an allocator as it should be: what is constructed is the same as without it, and the allocator of the any is the one that was passed.
-/
namespace AnyAny.UsesAlloc

/-- The same any, with the allocator that was passed on. -/
def New.withGiven : New → New
  | .empty _ => .empty .given
  | .object _ t args s => .object .given t args s
  | .ofAny _ act => .ofAny .given act
  | .nested _ b x s => .nested .given b x s

/-- Passing the allocator on makes `x`, which is made from the same arguments without it, into `y`. -/
def Faithful (x y : Out) : Prop :=
  match x with
  | .made x => y = .made x.withGiven
  | .illFormed => y = .illFormed
  | .unfinished => y = .unfinished

end AnyAny.UsesAlloc
