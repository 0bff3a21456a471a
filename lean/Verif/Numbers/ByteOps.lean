import Verif.Numbers.CInt

/-!
# `byte_t` — include/FlameIDE/Common/Byte.hpp

`byte_t` is an `enum class` over `uint8_t`; its value is an integer of type `u8`.  The other operand has an integral type `u`.
-/

namespace Flame.ByteOps

open CInt

/-- Byte.hpp 54-68: `<<` and `<<=`; the count is used as it is. -/
def shl (x y : Int) : Res Int := (shlOp .u8 x y).bind fun r => .ok (IT.u8.cast r)

/-- Byte.hpp 70-84: `>>` and `>>=`. -/
def shr (x y : Int) : Res Int := (shrOp .u8 x y).bind fun r => .ok (IT.u8.cast r)

/-- Byte.hpp 86-132: `|`, `&`, `^`. -/
def bit (o : Bitwise) (u : IT) (x y : Int) : Int := IT.u8.cast (bitOp o .u8 u x y)

/-- Byte.hpp 134-138: `~`. -/
def not (x : Int) : Int := IT.u8.cast (notOp .u8 x)

/-- Byte.hpp 140-145 -/
def toInteger (u : IT) (x : Int) : Int := u.cast x

/-- Byte.hpp 147-152 -/
def toByte (y : Int) : Int := IT.u8.cast y

end Flame.ByteOps
