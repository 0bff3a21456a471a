import Verif.Utils.Compare

/-!
# Where the library puts objects: alignment

* A type is its size and alignment.  The language promises that the alignment is a power of two dividing the size (`Ty.Ok`).
* Members are laid out by the ABI of x86-64 Linux: each at the next multiple of its alignment; the whole is as strictly aligned as its
  strictest member and its size is rounded up to that alignment (`roundUp`, `after`).
* `malloc` and `realloc` return multiples of 16 (`alignof(max_align_t)`) and nothing more is known of the address.
* Objects the compiler places (variables, members, array elements) are at multiples of their own type's alignment.
-/

namespace Flame.Utils.Align

structure Ty where
  size : Nat
  al : Nat
  deriving DecidableEq

/-- What the language promises of `sizeof` and `alignof`. -/
def Ty.Ok (t : Ty) : Prop := (∃ k, t.al = 2 ^ k) ∧ t.al ∣ t.size ∧ 0 < t.size

/-- The next multiple of `a`. -/
def roundUp (n a : Nat) : Nat := (n + (a - 1)) / a * a

/-- Offset of a member of type `t` that follows members ending at offset `n`. -/
def after (n : Nat) (t : Ty) : Nat := roundUp n t.al

/-- `alignof(max_align_t)`: the alignment of what `malloc` (MallocAllocator.hpp 63) and `realloc` (71) return. -/
def mallocAl : Nat := 16

/-- ArrayAllocator.hpp 98-116 `construct` and every `Vector`, `BasicString` and iterator address: element `i` of the elements from `base` on. -/
def elem (base : Nat) (t : Ty) (i : Nat) : Nat := base + i * t.size

def pointer : Ty := ⟨8, 8⟩

/-- List.hpp 62-64: the members `previous`, `next`, `object` of `Node`; the offset of `object`. -/
def nodeOffset (t : Ty) : Nat := after (after pointer.size pointer + pointer.size) t

/-- List.hpp 43-65 `Node<T>` as a type. -/
def node (t : Ty) : Ty :=
  let a := max pointer.al t.al
  ⟨roundUp (nodeOffset t + t.size) a, a⟩

/-- ObjectAllocator.hpp 91-101 `construct` of a list node at an address from `malloc`: where the element is. -/
def nodeElem (base : Nat) (t : Ty) : Nat := base + nodeOffset t

/-- AlignObject.hpp 34-42: the alignments that are accepted. -/
def accepted (A : Nat) : Bool := [1, 2, 4, 8, 16, 32, 64, 128, 256, 512, 1024].contains A

/-- AlignObject.hpp 31-69 `AlignedObject<T, ALIGN>` as a type: the only member is `alignas(ALIGN) byte_t array[sizeof(T)]`. -/
def alignedObject (t : Ty) (A : Nat) : Option Ty := if accepted A then some ⟨roundUp t.size A, A⟩ else none

/-- AlignObject.hpp 71-83 `AlignedObject<T, -1>`, that is `AlignObject<T>`. -/
def alignObject (t : Ty) : Option Ty := alignedObject t t.al

/-- AlignObject.hpp 118-133 `getAddress()`; `base` is the address of the `AlignedObject`. -/
def getAddress (base : Nat) : Nat := base

/-- Array.hpp 984-993 `head()` and the pointer arithmetic on it: the address that stands for element `i`. -/
def arrayElem (base : Nat) (t : Ty) (i : Nat) : Nat := elem (getAddress base) t i

/-- Array.hpp 417: `objects[i]`. -/
def arrayCell (base : Nat) (c : Ty) (i : Nat) : Nat := elem base c i

/-- Array.hpp 417-418 the class `Array<T, CAPACITY>` as a type: the cells, then `tail`. -/
def arrayTy (c : Ty) (n : Nat) : Ty :=
  let a := max c.al pointer.al
  ⟨roundUp (after (n * c.size) pointer + pointer.size) a, a⟩

/-- Optional.hpp 58-59 the class `Optional<T>` as a type: the `AlignObject`, then the `bool`. -/
def optionalTy (c : Ty) : Ty := ⟨roundUp (c.size + 1) c.al, c.al⟩

/-- Object.hpp 71-91 `staticCheck<T>()`: `SIZE_IN_BYTES` is `n`, `alignof(AlignedAsType)` is `my`. -/
def staticCheck (n my : Nat) (t : Ty) : Bool :=
  decide (t.size ≤ n) && (if my < t.al then decide (t.size + t.al < n) else true)

/-- Object.hpp 161, 176, 194, 202 and 228 `alignedPointer<T>(data)`. -/
def objectPlace (data : Nat) (t : Ty) : Res Nat := alignedPointer t.al data

end Flame.Utils.Align
