import Verif.Crypto.EnumTable

/-!
# The operators of the PKCS#11 flag enumerations (include/FlameIDE/Crypto/Pkcs11/Types/Enums.hpp)
-/

namespace Flame.PkEnum

/-- Enums.hpp 45-52 with `|`: the underlying values are combined and the result is cast back. -/
def bor (E : EnumDef) (a b : Nat) : Nat := (a ||| b) % 2 ^ E.bits

/-- Enums.hpp 45-52 with `&`. -/
def band (E : EnumDef) (a b : Nat) : Nat := (a &&& b) % 2 ^ E.bits

/-- `f1 | f2 | ...`; no flag at all is the value 0. -/
def combine (E : EnumDef) (fs : List Nat) : Nat := fs.foldl (bor E) 0

/-- The usual test `(x & f) == f`. -/
def has (E : EnumDef) (x f : Nat) : Bool := band E x f == f

/-- The other usual test, `if (value(x & f))` (GlobalContext.cpp 58). -/
def any (E : EnumDef) (x f : Nat) : Bool := band E x f != 0

end Flame.PkEnum
