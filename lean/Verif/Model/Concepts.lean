import Verif.Model.Methods
/-
The concepts for methods (include/anyany/anyany.hpp:68-117): `pseudomethod`, `regular_method`, `simple_method`, `compound_method`, `method`,
`const_method`. Only in C++20; the templates of the library do not require them (117-118).
-/
namespace AnyAny.Methods
open AnyAny.TypeList (Item)

/-- What the concepts look at. `value_type` as in `Method`, with what kind of type it is. (anyany.hpp:71-85.) -/
structure Class where
  decl : Method
  /-- `std::is_empty_v` -/
  empty : Bool
  /-- `std::default_initializable` -/
  defaultInit : Bool
  /-- `value_type` is a reference or a function type -/
  valueRefOrFn : Bool

/-- `aa::pseudomethod` (anyany.hpp:71-79). -/
def pseudomethod (c : Class) : Bool := c.empty && c.defaultInit && c.decl.valueType.isSome && !c.valueRefOrFn

/-- `std::is_function_v<typename T::signature_type>`, and there is a `signature_type` (anyany.hpp:84). -/
def hasFunctionSignature (c : Class) : Bool :=
  match c.decl.signatureType with
  | some (.func _) => true
  | _ => false

/-- `aa::regular_method` (anyany.hpp:81-85). -/
def regularMethod (c : Class) : Bool :=
  c.empty && c.defaultInit && (hasFunctionSignature c || (c.decl.doInvoke erasedSelf).isSome)

/-- `aa::simple_method` (anyany.hpp:87-88). -/
def simpleMethod (c : Class) : Bool := regularMethod c || pseudomethod c

/-- `aa::compound_method` (anyany.hpp:92-102): a `type_list` of simple methods; a nested list is not a simple method. -/
def compoundMethod : Item Class → Bool
  | .leaf _ => false
  | .list xs => xs.all fun
    | .leaf c => simpleMethod c
    | .list _ => false

/-- `aa::method` (anyany.hpp:104-105). -/
def isMethod : Item Class → Bool
  | .leaf c => simpleMethod c
  | .list xs => compoundMethod (.list xs)

/-- `is_const_method_v<T>` (anyany.hpp:65-66) where it is not known that `T` has a signature. `none`: the initializer of the variable
template is ill-formed, which is an error and does not make a concept false. -/
def isConstMethodV : Item Class → Option Bool
  | .leaf c =>
    match c.decl.signature with
    | some (.func s) => some s.self.isConst
    | some (.value _) => some true
    | none => none
  | .list _ => none

/-- `aa::const_method` (anyany.hpp:107-108): the second atomic constraint is looked at only if the first one holds. -/
def constMethod (x : Item Class) : Option Bool := if isMethod x then isConstMethodV x else some false

end AnyAny.Methods
