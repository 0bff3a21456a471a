import Verif.String.Model
import Verif.Array.Model

/-!
# The path given to the dynamic loader — src/Os/Library.cpp 81-136, `getHandle`

Uses the models of `Array` (`SVec`) and `String` (`Str`); `z` is `'\0'`, `slash` is `DIRECTORY_SLASH`, `pre` and `suf` are
`LIBRARY_PREFIX` and `LIBRARY_SUFFIX_SHARED` (as C strings), `max` is `MAX_STATIC_STRING_SIZE`.
The result is the memory `library::open` is given.
-/

namespace Flame.LibPath
variable {α : Type} [DecidableEq α] (z slash : α) (pre suf : CPtr α) (max : Nat)

/-- `rawStringLength` of the four strings and `fullPathLength` (88-97). -/
def fullLength (name dir : CPtr α) : Res Nat := do
  let d ← Str.rawLen z dir
  let n ← Str.rawLen z name
  let p ← Str.rawLen z pre
  let s ← Str.rawLen z suf
  let nameFull := p + n + s + 1
  .ok (d + 1 + nameFull)

/-- `insert(end(), p, p + rawStringLength(p))` on the static array. -/
def put (a : SVec α) (p : CPtr α) : Res (SVec α) := do
  let n ← Str.rawLen z p
  let xs ← Str.rawTake p n
  a.insertRange true a.size xs

/-- Library.cpp 101-104: the directory and the separator. -/
def staticDir (dir : CPtr α) : Res (SVec α) :=
  if dir.isSome then do
    let a ← put z (SVec.empty max) dir
    a.pushBack slash
  else .ok (SVec.empty max)

/-- Library.cpp 96-120. -/
def staticPath (name dir : CPtr α) : Res (SVec α) := do
  let a ← staticDir z slash max dir
  let a ← put z a pre
  let a ← put z a name
  let a ← put z a suf
  a.insert true a.size z

/-- Library.cpp 125-129: the directory and the separator. -/
def stringDir (f : Nat) (s : Str α) (dir : CPtr α) : Res (Str α) :=
  if dir.isSome then do
    let s ← Str.pushBackRaw z f s dir
    Str.pushBack z f s slash
  else .ok s

/-- Library.cpp 121-135; `f` is the fuel of the string functions. -/
def stringPath (f : Nat) (len : Nat) (name dir : CPtr α) : Res (Str α) := do
  let s ← Str.reserve z Str.empty (len + 1)
  let s ← stringDir z slash f s dir
  let s ← Str.insertRaw z f s s.len pre
  let s ← Str.insertRaw z f s s.len name
  Str.insertRaw z f s s.len suf

/-- The memory `library::open` reads: the array's cells, or the string's. -/
def memory : SVec α ⊕ Str α → Raw α
  | .inl a => a.buf.map fun c => match c with
    | .live x => some x
    | _ => none
  | .inr s => s.buf

/-- Library.cpp 81-136: `getHandle`, up to the call of `library::open`. -/
def getHandle (f : Nat) (name dir : CPtr α) : Res (Raw α) := do
  let len ← fullLength z pre suf name dir
  if len < max then do
    let a ← staticPath z slash pre suf max name dir
    .ok (memory (.inl a))
  else do
    let s ← stringPath z slash pre suf f len name dir
    .ok (memory (.inr s))

end Flame.LibPath
