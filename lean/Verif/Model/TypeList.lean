/-
Model of the compile-time type-list functions.

C++ types (methods, plugins, ...) are values of an arbitrary type `α` with decidable equality
(`std::is_same_v`). A pack / `type_list<Ts...>` is a `List α`. `npos` (anyany_details.hpp:15) is
`none`: simplification, the real `npos` is `size_t(-1)`, which no index into a pack reaches.
-/
namespace AnyAny.TypeList

variable {α : Type} [DecidableEq α]

/-- `number_of_impl<I, T, Args...>` (noexport/anyany_details.hpp:66-77). -/
def numberOfImpl (i : Nat) (t : α) : List α → Option Nat
  | [] => none
  | x :: xs => if t = x then some i else numberOfImpl (i + 1) t xs

/-- `number_of_first<T, Args...>` (noexport/anyany_details.hpp:79-81). -/
def numberOfFirst (t : α) (ts : List α) : Option Nat := numberOfImpl 0 t ts

/-- `contains_v<T, Ts...>` (noexport/anyany_details.hpp:83-84). -/
def containsV (t : α) (ts : List α) : Bool := numberOfFirst t ts != none

/-- `starts_with(type_list, type_list)` (noexport/anyany_details.hpp:126-138); the three overloads
are the three cases. -/
def startsWith : List α → List α → Bool
  | [], _ => true
  | _ :: _, [] => false
  | a :: as, b :: bs => if a = b then startsWith as bs else false

/-- `find_subsequence_impl(needle, haystack, n)` (noexport/anyany_details.hpp:140-151). The C++
overload exists only for a non-empty haystack; the wrapper below never calls it with an empty one,
and the recursive call is only made when the haystack is longer than the needle. The case of an
empty haystack is written as `none`. -/
def findSubsequenceImpl (needle : List α) : List α → Nat → Option Nat
  | [], _ => none
  | h :: hs, n =>
    if needle.length ≥ hs.length + 1 then
      (if needle = h :: hs then some n else none)
    else if startsWith needle (h :: hs) then some n
    else findSubsequenceImpl needle hs (n + 1)

/-- `find_subsequence(needle, haystack)` (noexport/anyany_details.hpp:155-161). -/
def findSubsequence (needle haystack : List α) : Option Nat :=
  if haystack = [] then (if needle = [] then some 0 else none)
  else findSubsequenceImpl needle haystack 0

/-- `has_subsequence` (noexport/anyany_details.hpp:162-165). -/
def hasSubsequence (needle haystack : List α) : Bool := findSubsequence needle haystack != none

/-- `has_subset` (noexport/anyany_details.hpp:166-169). -/
def hasSubset (needle haystack : List α) : Bool := needle.all (fun x => containsV x haystack)

/-- `remove_duplicates(types, out)` (noexport/anyany_details.hpp:345-356). -/
def removeDuplicates : List α → List α → List α
  | [], out => out
  | h :: ts, out =>
    if containsV h out then removeDuplicates ts out else removeDuplicates ts (out ++ [h])

/-- `filter_types<Pred>(types)` (noexport/anyany_details.hpp:335-343): a left fold of list
concatenations. -/
def filterTypes (pred : α → Bool) (ts : List α) : List α :=
  ts.foldl (fun acc t => acc ++ (if pred t then [t] else [])) []

/-- An argument of `any_with` / `flatten_types`: a simple type, or a type list of such
(`is_type_list`, noexport/anyany_details.hpp:17-21 and anyany.hpp:171-172). -/
inductive Item (α : Type) where
  | leaf (a : α)
  | list (items : List (Item α))

namespace Item
/-- `is_type_list<T>::value`. (noexport/anyany_details.hpp:17-21, 320.) -/
def isList : Item α → Bool
  | leaf _ => false
  | list _ => true

/-- `std::conditional_t<is_type_list<T>::value, T, type_list<T>>` as used in
noexport/anyany_details.hpp:320. -/
def asList : Item α → List (Item α)
  | leaf a => [leaf a]
  | list xs => xs

mutual
/-- Nesting measure used only to show that `flattenTypes` terminates. No code of the library; for
    noexport/anyany_details.hpp:392-402. -/
def weight : Item α → Nat
  | leaf _ => 0
  | list xs => 1 + weights xs
/-- The same for lists; no code of the library. -/
def weights : List (Item α) → Nat
  | [] => 0
  | x :: xs => weight x + weights xs
end
end Item

/-- `flatten_type_lists_one_layer<Types...>()` (noexport/anyany_details.hpp:318-322): right fold. -/
def flattenOneLayer (ts : List (Item α)) : List (Item α) :=
  ts.foldr (fun t acc => t.asList ++ acc) []

/-- `contains_second_layer_list` (noexport/anyany_details.hpp:324-327). -/
def containsSecondLayerList (ts : List (Item α)) : Bool := ts.any Item.isList

omit [DecidableEq α] in
theorem weights_append (xs ys : List (Item α)) :
    Item.weights (xs ++ ys) = Item.weights xs + Item.weights ys := by
  induction xs with
  | nil => simp [Item.weights]
  | cons x xs ih => simp [Item.weights, ih]; omega

omit [DecidableEq α] in
theorem flattenOneLayer_le (ts : List (Item α)) :
    Item.weights (flattenOneLayer ts) ≤ Item.weights ts ∧
    (containsSecondLayerList ts = true → Item.weights (flattenOneLayer ts) < Item.weights ts) := by
  induction ts with
  | nil => simp [flattenOneLayer, containsSecondLayerList]
  | cons t ts ih =>
    obtain ⟨h1, h2⟩ := ih
    have hstep : flattenOneLayer (t :: ts) = t.asList ++ flattenOneLayer ts := rfl
    rw [hstep, weights_append]
    cases t with
    | leaf a =>
      simp only [Item.asList, Item.weights, Item.weight, containsSecondLayerList, List.any_cons,
        Item.isList, Bool.false_or] at *
      constructor
      · omega
      · intro h; have := h2 h; omega
    | list xs =>
      simp only [Item.asList, Item.weights, Item.weight] at *
      constructor
      · omega
      · intro _; omega

/-- `flatten_types(list)` (noexport/anyany_details.hpp:397-403): flattens one layer as long as some
element is a list. Termination (of template instantiation) is proved, not assumed. -/
def flattenTypes (ts : List (Item α)) : List (Item α) :=
  if _h : containsSecondLayerList ts = true then flattenTypes (flattenOneLayer ts) else ts
termination_by Item.weights ts
decreasing_by exact (flattenOneLayer_le ts).2 ‹_›

/-- The methods named by a flattened list (`type_list<Methods...>` with simple methods only);
`none` if a nested list remained. (anyany.hpp:1695-1712.) -/
def simpleTypes : List (Item α) → Option (List α)
  | [] => some []
  | .leaf a :: ts => (simpleTypes ts).map (a :: ·)
  | .list _ :: _ => none

/-- `inherit_without_duplicates(types, results)` (noexport/anyany_details.hpp:189-200).
`isVoid` is `std::is_same_v<void, Head>`, `base a b` is `std::is_base_of_v<a, b>`. -/
def inheritWithoutDuplicates (isVoid : α → Bool) (base : α → α → Bool) : List α → List α → List α
  | [], results => results
  | head :: tail, results =>
    if isVoid head then inheritWithoutDuplicates isVoid base tail results
    else if results.any (fun r => base head r) || tail.any (fun t => base head t) then
      inheritWithoutDuplicates isVoid base tail results
    else inheritWithoutDuplicates isVoid base tail (results ++ [head])

/-- `insert_into_basic_any` (anyany.hpp:1695-1707): the method list of the resulting `basic_any`.
`destroy` is the method id of `aa::destroy`. -/
def insertIntoBasicAny (destroy : α) : List α → List α
  | [] => [destroy]
  | m :: ms =>
    if m = destroy then destroy :: destroy :: ms
    else if containsV destroy (m :: ms) then m :: ms
    else destroy :: m :: ms

/-- `get_interface_of(basic_any<Alloc, SooS, Methods...>)` (anyany.hpp:1720-1725). -/
def getInterfaceOfAny (destroy : α) : List α → List α
  | [] => []
  | m :: ms => if m = destroy then ms else m :: ms

/-- `any_with<Methods...>` (anyany.hpp:1709-1734): method list of the any; `none` cannot happen
(proved). -/
def anyWith (destroy : α) (ts : List (Item α)) : Option (List α) :=
  (simpleTypes (flattenTypes ts)).map (insertIntoBasicAny destroy)

/-- `interface_alias<Methods...>` = `insert_flatten_into<runtime_concept, Methods...>`
(anyany.hpp:119-120, 1748-1751). -/
def interfaceAlias (ts : List (Item α)) : Option (List α) := simpleTypes (flattenTypes ts)

/-- `runtime_concept::append` (anyany.hpp:131-135). -/
def rcAppend (self : List α) (ms : List (Item α)) : Option (List α) :=
  simpleTypes (flattenTypes (self.map Item.leaf ++ ms))

/-- `runtime_concept::equivalent_to` (anyany.hpp:136-139). -/
def rcEquivalentTo (self : List α) (ms : List (Item α)) : Bool :=
  some self = simpleTypes (flattenTypes ms)

/-- `runtime_concept::subsumes` (anyany.hpp:141-144). -/
def rcSubsumes (self : List α) (ms : List (Item α)) : Bool :=
  match simpleTypes (flattenTypes ms) with
  | some l => hasSubsequence l self
  | none => false

/-- `runtime_concept::without_duplicates` (anyany.hpp:151-155). -/
def rcWithoutDuplicates (self : List α) : List α := removeDuplicates self []

/-- `runtime_concept::filtered_by` (anyany.hpp:156-168). -/
def rcFilteredBy (self : List α) (pred : α → Bool) : List α := filterTypes pred self

/-- `alignof(std::max_align_t)` on the usual 64-bit targets. Used as the value of the constant in
`soo_buffer_size`; the theorems are about an arbitrary positive value. -/
def maxAlignDefault : Nat := 16

/-- `soo_buffer_size(SooS)` (noexport/anyany_details.hpp:388-391). -/
def sooBufferSize (maxAlign s : Nat) : Nat := if s = 0 then 0 else max maxAlign s

/-- The kind of allocator types relevant for `rebind_to_byte`: an allocator family with a value type;
`byteLike` says whether the value type is `std::byte`/`char`/`unsigned char`.
  (noexport/anyany_details.hpp:375-386.) -/
structure AllocTy where
  family : Nat
  valueTy : Nat
deriving DecidableEq, Repr

/-- Id of `std::byte`, `char`, `unsigned char` among value types: 0, 1, 2
(`is_byte_like_v`, noexport/anyany_details.hpp:86-88). -/
def isByteLike (v : Nat) : Bool := v == 0 || v == 1 || v == 2

/-- `rebind_to_byte` (noexport/anyany_details.hpp:375-386); `rebind_alloc<std::byte>` keeps the
family and sets the value type to `std::byte`. -/
def rebindToByte (a : AllocTy) : AllocTy := if isByteLike a.valueTy then a else { a with valueTy := 0 }

/-- The method type named by `copy_with<Alloc, SooS>` (anyany.hpp:338-339): `copy_method` with
normalised parameters. -/
def copyWith (maxAlign : Nat) (a : AllocTy) (s : Nat) : AllocTy × Nat :=
  (rebindToByte a, sooBufferSize maxAlign s)

/-- Allocator and buffer size parameters of the class named by `basic_any_with<Alloc, SooS, ...>`
(anyany.hpp:1729-1731). -/
def basicAnyWithParams (maxAlign : Nat) (a : AllocTy) (s : Nat) : AllocTy × Nat :=
  (rebindToByte a, sooBufferSize maxAlign s)

/-- The method looked up by `basic_any<Alloc, SooS, ...>::has_copy` (anyany.hpp:1164):
`copy_with<Alloc, SooS>` of the already normalised class parameters. -/
def hasCopyKey (maxAlign : Nat) (params : AllocTy × Nat) : AllocTy × Nat :=
  copyWith maxAlign params.1 params.2

end AnyAny.TypeList
