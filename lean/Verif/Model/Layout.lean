import Verif.Model.Vtable
import Verif.Model.TypeList
/-
Where the members of `basic_any` lie (include/anyany/anyany.hpp:1107-1122), and its size and alignment. The rules
of the Itanium C++ ABI: bases first, then the members in the order of declaration, each at the next suitably
aligned offset.
-/
namespace AnyAny.Layout
open AnyAny.Vtable (roundUp)

/-- Size and alignment of a type: `sizeof(T)`, `alignof(T)` as read at noexport/anyany_details.hpp:227-230 and
anyany.hpp:1135. -/
structure Ty where
  size : Nat
  align : Nat
  deriving DecidableEq, Repr

/-- The platform: `void*` and `size_t` (anyany.hpp:1115-1120), `alignof(std::max_align_t)` (1119). -/
structure Abi where
  ptr : Ty
  sizeT : Ty
  maxAlign : Nat
  deriving DecidableEq, Repr

/-- Bytes `off, …, off + size - 1` of an object. A data member of anyany.hpp:1115-1122. -/
structure Member where
  off : Nat
  size : Nat
  deriving DecidableEq, Repr

/-- The data members of `basic_any` (anyany.hpp:1115-1122), `sizeof` and `alignof`. `alloc` is `none` for an empty allocator
whose address is not unique (`ANYANY_NO_UNIQUE_ADDRESS`, 27-39, 1122); `data` and `size_allocated` are members of one union. -/
structure Obj where
  vtablePtr : Member
  valuePtr : Member
  data : Member
  sizeAllocated : Member
  alloc : Option Member
  size : Nat
  align : Nat
  deriving DecidableEq, Repr

/-- Alignment of the union (anyany.hpp:1117-1121): that of its strictest member;
`alignas(SooS == 0 ? alignof(size_t) : alignof(std::max_align_t))` on `data`. -/
def unionAlign (abi : Abi) (soos : Nat) : Nat :=
  max (if soos = 0 then abi.sizeT.align else abi.maxAlign) abi.sizeT.align

/-- Size of the union (anyany.hpp:1117-1121): that of its largest member, up to a multiple of its alignment. An array of no
elements has size 0 (extension of the compilers). -/
def unionSize (abi : Abi) (soos : Nat) : Nat := roundUp (max soos abi.sizeT.size) (unionAlign abi soos)

/-- Offset of the union (anyany.hpp:1115-1117): behind the bases (`construct_interface`, 1108: data of plugins up to
`base.size`), `vtable_ptr` and `value_ptr`. -/
def unionOff (abi : Abi) (base : Ty) (soos : Nat) : Nat :=
  roundUp (roundUp (roundUp base.size abi.ptr.align + abi.ptr.size) abi.ptr.align + abi.ptr.size) (unionAlign abi soos)

/-- Where the allocator lies (anyany.hpp:1122), if it takes room. -/
def allocMember (abi : Abi) (base : Ty) (soos : Nat) (alloc : Option Ty) : Option Member :=
  alloc.map fun t => ⟨roundUp (unionOff abi base soos + unionSize abi soos) t.align, t.size⟩

/-- The end of the last member (anyany.hpp:1115-1122). -/
def dataEnd (abi : Abi) (base : Ty) (soos : Nat) (alloc : Option Ty) : Nat :=
  match allocMember abi base soos alloc with
  | some m => m.off + m.size
  | none => unionOff abi base soos + unionSize abi soos

/-- Alignment of the member `alloc` (anyany.hpp:1122); an empty allocator asks for none. -/
def allocAlign : Option Ty → Nat
  | some t => t.align
  | none => 1

/-- `alignof(basic_any)` (anyany.hpp:1107-1122): that of its strictest base or member. -/
def objAlign (abi : Abi) (base : Ty) (soos : Nat) (alloc : Option Ty) : Nat :=
  max (max base.align abi.ptr.align) (max (unionAlign abi soos) (allocAlign alloc))

/-- `basic_any<Alloc, SooS, Methods...>` (anyany.hpp:1107-1122). -/
def basicAny (abi : Abi) (base : Ty) (soos : Nat) (alloc : Option Ty) : Obj where
  vtablePtr := ⟨roundUp base.size abi.ptr.align, abi.ptr.size⟩
  valuePtr := ⟨roundUp (roundUp base.size abi.ptr.align + abi.ptr.size) abi.ptr.align, abi.ptr.size⟩
  data := ⟨unionOff abi base soos, soos⟩
  sizeAllocated := ⟨unionOff abi base soos, abi.sizeT.size⟩
  alloc := allocMember abi base soos alloc
  size := roundUp (dataEnd abi base soos alloc) (objAlign abi base soos alloc)
  align := objAlign abi base soos alloc

/-- `is_fits_in_soo_buffer<T, SooS>` without the part about exceptions (noexport/anyany_details.hpp:227-230). -/
def fits (abi : Abi) (soos : Nat) (t : Ty) : Bool := decide (t.align ≤ abi.maxAlign) && decide (t.size ≤ soos)

/-- `default_any_soos` (anyany.hpp:271). -/
def defaultSoos (abi : Abi) : Nat := 64 - 3 * abi.ptr.size

/-- `basic_any_with<Alloc, SooS, …>` (anyany.hpp:1728-1731): the buffer has `soo_buffer_size(SooS)` bytes. -/
def basicAnyWith (abi : Abi) (base : Ty) (s : Nat) (alloc : Option Ty) : Obj :=
  basicAny abi base (TypeList.sooBufferSize abi.maxAlign s) alloc

end AnyAny.Layout
