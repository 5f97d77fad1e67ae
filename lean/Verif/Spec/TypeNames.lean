import Verif.Model.TypeNames
/-
Which types exist, and what their names tell of them: for C131.
-/
namespace AnyAny.Names.Spec
open AnyAny.Names

/-- Characters of identifiers: letters, digits, `_`, spaces (`unsigned int`) and all that are not ASCII. -/
def IdChar (c : Int) : Prop := (48 ≤ c ∧ c ≤ 57) ∨ (65 ≤ c ∧ c ≤ 90) ∨ c = 95 ∨ (97 ≤ c ∧ c ≤ 122) ∨ c = 32 ∨ c < 0 ∨ 127 < c

/-- An identifier. -/
def Ident (n : List Int) : Prop := n ≠ [] ∧ ∀ c ∈ n, IdChar c

/-- Names are identifiers; what is not a template or function has no arguments; places have no `)`. -/
def OkKind : Kind → Ents → Prop
  | .id n, as => Ident n ∧ as = .nil
  | .templ n, _ => Ident n
  | .fn n, _ => Ident n
  | .anon _, as => as = .nil
  | .lambda _ place, _ => (41 : Int) ∉ place
  | .ptr, as => as = .nil

/-- There is something, and it does not begin with `*`. -/
def Begins : Ent → Prop
  | .nil => False
  | .cons k _ _ => k ≠ .ptr

mutual
/-- The parts are as they should be; functions only contain types and other entities, they are none themselves. -/
def OkEnt : Ent → Prop
  | .nil => True
  | .cons k as rest => OkKind k as ∧ OkEnts as ∧ OkEnt rest ∧ (k.isFn = true → Begins rest)
def OkEnts : Ents → Prop
  | .nil => True
  | .cons e es => Begins e ∧ OkEnt e ∧ OkEnts es
end

/-- A type. -/
def Ty (t : Ent) : Prop := Begins t ∧ OkEnt t

/-- What the name tells of a part: not which translation unit an unnamed namespace belongs to; of a lambda GCC tells its parameter types, and Clang its place. -/
def toldKind : Compiler → Kind → Kind
  | _, .anon _ => .anon 0
  | .gcc, .lambda _ _ => .lambda 0 []
  | .clang, .lambda _ place => .lambda 0 place
  | _, k => k

/-- The arguments that it tells. -/
def toldArgs : Compiler → Kind → Ents → Ents
  | .clang, .lambda _ _, _ => .nil
  | _, _, as => as

mutual
/-- What the name tells of an entity: with Clang only what is inside of the innermost function. -/
def told (c : Compiler) : Ent → Ent
  | .nil => .nil
  | .cons k as rest =>
    if c = .clang ∧ (k.isFn || rest.hasFn) = true then told c rest
    else .cons (toldKind c k) (toldArgs c k (toldAll c as)) (told c rest)
def toldAll (c : Compiler) : Ents → Ents
  | .nil => .nil
  | .cons e es => .cons (told c e) (toldAll c es)
end

mutual
/-- No unnamed namespaces and lambdas, and with Clang no types in functions, anywhere in the type. -/
def Plain (c : Compiler) : Ent → Prop
  | .nil => True
  | .cons k as rest => (∀ tu, k ≠ .anon tu) ∧ (∀ no p, k ≠ .lambda no p) ∧ (c = .clang → k.isFn = false) ∧ PlainAll c as ∧ Plain c rest
def PlainAll (c : Compiler) : Ents → Prop
  | .nil => True
  | .cons e es => Plain c e ∧ PlainAll c es
end

mutual
/-- The classes of which a type is made. -/
def classes : Mt → List Nat
  | .fund _ => []
  | .named id _ as => id :: classesAll as
def classesAll : Mts → List Nat
  | .none => []
  | .nil => []
  | .cons t ts => classes t ++ classesAll ts
end

/-- Those of its template arguments. -/
def inner : Mt → List Nat
  | .fund _ => []
  | .named _ _ as => classesAll as

end AnyAny.Names.Spec
