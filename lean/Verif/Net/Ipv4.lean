import Verif.Bytes.Serial

/-!
# Model of IPv4 addresses (include/FlameIDE/Os/Network/Ipv4.hpp, src/Os/Network/Ipv4.cpp)

`Number` is a 16-bit signed integer (Ipv4.hpp 19); arithmetic is done in `int` and converted back, which wraps.
Strings are lists of non-zero characters followed by the terminator.  Simplifications: the string pointer is not null; the
pointer one before the first character (Ipv4.cpp 43-44) is only compared and is taken to be harmless.
-/

namespace Flame.Ipv4
open BytesSpec (Byte)
open Bytes (copyTo)

/-- Conversion to `Number` (`short_t`). -/
def wrap16 (x : Int) : Int := x.bmod 65536

/-- Ipv4.cpp 27-34. -/
def isDigit (c : Byte) : Bool := 48 ≤ c.toNat && c.toNat ≤ 57

/-- Ipv4.cpp 35-53: `stringToNumber`: the loop runs over the characters from the last to the first. -/
def toNumber : List Byte → Int → Int → Int
  | [], number, _ => number
  | c :: cs, number, devider => toNumber cs (wrap16 (number + ((c.toNat : Int) - 48) * devider)) (wrap16 (devider * 10))

/-- Ipv4.cpp 61-86: the loop.  `rest` are the characters from `it` on, terminator included; `start` is `numberStart`.
`stringToNumber(nullptr, it)` walks backwards from `it` towards the null address: `ub`. -/
def scan (text : List Byte) : List Byte → Nat → Option Nat → Nat → List Int → Res (Bool × List Int)
  | [], _, _, _, dest => .ok (true, dest)
  | c :: rest, it, start, index, dest =>
    if isDigit c then scan text rest (it + 1) (if start.isNone then some it else start) index dest
    else if index = 4 then .ok (false, dest)
    else if ¬ (c = 46#8 ∨ c = 0#8) then .ok (false, dest)
    else
      match start with
      | none => .ub
      | some b =>
        scan text rest (it + 1) none (index + 1) (dest.set index (toNumber ((text.drop b).take (it - b)).reverse 0 1))

/-- Ipv4.cpp 24-89: `convertIp(numbers, string)`: the returned flag and the numbers afterwards. -/
def parse (text : List Byte) (dest : List Int) : Res (Bool × List Int) :=
  if 7 > text.length ∨ text.length > 15 then .ok (false, dest)
  else scan text (text ++ [0#8]) 0 (some 0) 0 dest

/-- `static_cast<char>(value + ZERO)`. -/
def digitChar (v : Int) : Byte := BitVec.ofInt 8 (v + 48)

/-- Ipv4.cpp 101-110: the characters of one number (`/` and `%` truncate). -/
def octet (v : Int) : List Byte :=
  (if v.tdiv 100 ≠ 0 then [digitChar (v.tdiv 100)] else []) ++
  (if (v.tmod 100).tdiv 10 ≠ 0 then [digitChar ((v.tmod 100).tdiv 10)] else []) ++
  [digitChar ((v.tmod 100).tmod 10)]

/-- Ipv4.cpp 97-117: the characters written; `points` counts the dots so far. -/
def formatLoop : List Int → Nat → List Byte
  | [], _ => []
  | v :: vs, points => octet v ++ (if points ≠ 3 then 46#8 :: formatLoop vs (points + 1) else formatLoop vs points)

/-- Ipv4.hpp 24: the initial characters of `Address::ip`. -/
def addressInit : List Byte := [48#8, 46#8, 48#8, 46#8, 48#8, 46#8, 48#8] ++ List.replicate 9 0#8

/-- Ipv4.cpp 91-121 with 144-153: `operator Address`: the 16 characters of `Address::ip` afterwards. -/
def format (ip : List Int) : Res (List Byte) := copyTo addressInit 0 (formatLoop ip 0 ++ [0#8])

/-- Ipv4.hpp 52-59. -/
structure Obj where
  ip : List Int
  port : Int
  deriving Repr, DecidableEq

/-- Ipv4.cpp 203-213 and the default member initializers. -/
def reset : Obj := ⟨[-32768, -32768, -32768, -32768], -2147483648⟩

/-- Ipv4.cpp 158-170: `operator bool`. -/
def Obj.valid (o : Obj) : Bool := o.ip.all fun i => 0 ≤ i && i ≤ 255

/-- Ipv4.cpp 172-181: `set(string, port)`. -/
def Obj.set (o : Obj) (text : List Byte) (port : Int) : Res (Obj × Bool) :=
  match parse text o.ip with
  | .ok (true, ip) => .ok (⟨ip, port⟩, true)
  | .ok (false, _) => .ok (reset, false)
  | .ub => .ub
  | .loop => .loop

/-- Ipv4.cpp 131-137: the constructor from a string. -/
def Obj.ctor (text : List Byte) (port : Int) : Res Obj :=
  match parse text reset.ip with
  | .ok (true, ip) => .ok ⟨ip, port⟩
  | .ok (false, _) => .ok reset
  | .ub => .ub
  | .loop => .loop

/-- Ipv4.cpp 195-201: `localhost`. -/
def localhost (port : Int) : Obj := ⟨[127, 0, 0, 1], port⟩

end Flame.Ipv4
