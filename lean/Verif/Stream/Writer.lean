import Verif.Circular.Model

/-!
# `Writer<CircularByteBuffer>` — include/FlameIDE/Streams/Writer.hpp

The buffer is a `CircularArray<Byte, N>` (`Verif/Circular/Model.lean`); the constructor from a stream, `getWriterImpl` and
`setWriterImpl` are declared but not defined in the library.  The input range is a list of bytes: `it` is what is left of it.
-/

namespace Flame.StreamWriter
variable {α : Type}

/-- Writer.hpp 80-87: the loop of `putData`; `n` is `countData`. -/
def putLoop : Nat → CArr α → List α → Int → Res (CArr α × Int)
  | 0, _, _, _ => .loop
  | f + 1, c, it, n =>
    if c.size ≠ c.capacity then
      match it with
      | [] => .ok (c, n)
      | x :: it => match c.pushBack x with
        | .ok c' => putLoop f c' it (n + 1)
        | .ub => .ub
        | .loop => .loop
    else .ok (c, n)

/-- Writer.hpp 76-89: `putData`: the buffer afterwards and the returned number. -/
def putData (c : CArr α) (xs : List α) : Res (CArr α × Int) := putLoop (xs.length + 1) c xs 0

/-- Writer.hpp 91-95: `flush`: nothing happens, `true` is returned. -/
def flush (c : CArr α) : Res (CArr α × Bool) := .ok (c, true)

inductive Op (α : Type) where
  | put (xs : List α)
  | flush
  deriving DecidableEq

def step (c : CArr α) : Op α → Res (CArr α × Int)
  | .put xs => putData c xs
  | .flush => match flush c with
    | .ok (c', b) => .ok (c', if b then 1 else 0)
    | .ub => .ub
    | .loop => .loop

def run : CArr α → List (Op α) → Res (CArr α × List Int)
  | c, [] => .ok (c, [])
  | c, o :: os => match step c o with
    | .ok (c', n) => match run c' os with
      | .ok (c'', ns) => .ok (c'', n :: ns)
      | .ub => .ub
      | .loop => .loop
    | .ub => .ub
    | .loop => .loop

end Flame.StreamWriter
